import Verif.Proof.FlutTable
import Mathlib.Data.List.ProdSigma
import Mathlib.Algebra.BigOperators.Group.List.Basic

/-! FLUT: one evaluation of the queue and the invariant. -/

namespace Homfa

variable {N n l : Nat}

/-- Like `parFor_write`; a task may also read elements that no task writes. -/
theorem parFor_write2 {α : Type} {task : Nat → Prog α} {rest : Mem α} {P : Nat → α → Prop} {w0 : List α} (sts : List Nat)
    (hnd : sts.Nodup)
    (h : ∀ q ∈ sts, ∀ w : List α, w.length = w0.length → w[q]? = w0[q]? → (∀ j, j ∉ sts → w[j]? = w0[j]?) →
      ∃ x, P q x ∧ (task q).run (w :: rest) = .ok (w.set q x :: rest))
    (hlt : ∀ q ∈ sts, q < w0.length) :
    ∃ w', parFor (sts.map task) (w0 :: rest) = .ok (w' :: rest) ∧ w'.length = w0.length ∧
      (∀ q ∈ sts, ∃ x, w'[q]? = some x ∧ P q x) ∧ ∀ q, q ∉ sts → w'[q]? = w0[q]? := by
  have key : ∀ (l : List Nat) (w : List α), l.Nodup → w.length = w0.length → (∀ q ∈ l, q ∈ sts) →
      (∀ q ∈ l, w[q]? = w0[q]?) → (∀ j, j ∉ sts → w[j]? = w0[j]?) →
      ∃ w', parFor (l.map task) (w :: rest) = .ok (w' :: rest) ∧ w'.length = w0.length ∧
        (∀ q ∈ l, ∃ x, w'[q]? = some x ∧ P q x) ∧ ∀ q, q ∉ l → w'[q]? = w[q]? := by
    intro l
    induction l with
    | nil => intro w _ hw _ _ _; exact ⟨w, rfl, hw, by simp, by simp⟩
    | cons a l ih =>
      intro w hnd hw hsub heq hout
      rw [List.nodup_cons] at hnd
      obtain ⟨x, hx, hrun⟩ := h a (hsub a (by simp)) w hw (heq a (by simp)) hout
      have hlen : (w.set a x).length = w0.length := by rw [List.length_set, hw]
      obtain ⟨w', h1, h2, h3, h4⟩ := ih (w.set a x) hnd.2 hlen (fun q hq => hsub q (by simp [hq])) (by
        intro q hq
        have hne : a ≠ q := fun h => hnd.1 (h ▸ hq)
        rw [List.getElem?_set_ne hne]
        exact heq q (by simp [hq])) (by
        intro j hj
        rw [List.getElem?_set_ne (fun h => by subst h; exact hj (hsub a (by simp)))]
        exact hout j hj)
      refine ⟨w', ?_, h2, ?_, ?_⟩
      · show (do let m ← (task a).run (w :: rest); parFor (l.map task) m) = _
        rw [hrun]; exact h1
      · intro q hq
        rw [List.mem_cons] at hq
        rcases hq with rfl | hq
        · refine ⟨x, ?_, hx⟩
          rw [h4 q hnd.1]
          rw [List.getElem?_set_self]
          rw [hw]; exact hlt q (hsub q (by simp))
        · exact h3 q hq
      · intro q hq
        simp only [List.mem_cons, not_or] at hq
        rw [h4 q hq.2, List.getElem?_set_ne (Ne.symm hq.1)]
  exact key sts w0 hnd rfl (fun q hq => hq) (fun q _ => rfl) (fun _ _ => rfl)

/-! ## Sums -/

theorem near_list_sum {ι : Type} (l : List ι) (f g : ι → Torus) (e : Nat) (h : ∀ x ∈ l, Near e (f x) (g x)) :
    Near (l.length * e) (l.map f).sum (l.map g).sum := by
  induction l with
  | nil => exact Near.rfl'
  | cons x l ih =>
    rw [List.map_cons, List.map_cons, List.sum_cons, List.sum_cons]
    refine ((h x (by simp)).add (ih fun y hy => h y (by simp [hy]))).mono ?_
    rw [List.length_cons, Nat.add_mul]; omega

theorem sum_single {ι : Type} {l : List ι} (hnd : l.Nodup) {x0 : ι} (hx : x0 ∈ l) (f : ι → Torus)
    (h : ∀ x ∈ l, x ≠ x0 → f x = 0) : (l.map f).sum = f x0 := by
  induction l with
  | nil => simp at hx
  | cons y l ih =>
    rw [List.nodup_cons] at hnd
    rw [List.map_cons, List.sum_cons]
    by_cases hy : y = x0
    · subst hy
      have : (l.map f).sum = 0 := by
        apply List.sum_eq_zero
        intro z hz
        obtain ⟨x, hx, rfl⟩ := List.mem_map.1 hz
        exact h x (by simp [hx]) (fun h => hnd.1 (h ▸ hx))
      rw [this, add_zero]
    · have hx' : x0 ∈ l := by
        rcases List.mem_cons.1 hx with h | h
        · exact absurd h.symm hy
        · exact h
      rw [ih hnd.2 hx' (fun x hx => h x (by simp [hx])), h y (by simp) hy, zero_add]

/-- `X^k * c` -/
def rotT (k : Int) (c : TRLWE N) : TRLWE N := ⟨rot k c.a, rot k c.b⟩

/-- the table entry accumulated over `pairs` -/
def fillPure (K : Nat × Nat → Nat) (W : Nat → TRLWE N) (pairs : List (Nat × Nat)) (t : TRLWE N) : TRLWE N :=
  pairs.foldl (fun t p => t.add (rotT (K p) (W p.1))) t

theorem fillPure_phase (K : Nat × Nat → Nat) (W : Nat → TRLWE N) (pairs : List (Nat × Nat)) (t : TRLWE N) (key : Fin N → Torus)
    (i : Fin N) : (fillPure K W pairs t).phase key i =
      t.phase key i + (pairs.map fun p => ext ((W p.1).phase key) ((i : Int) - K p)).sum := by
  induction pairs generalizing t with
  | nil => simp [fillPure]
  | cons p pairs ih =>
    show (fillPure K W pairs (t.add (rotT (K p) (W p.1)))).phase key i = _
    rw [ih, phase_add]
    have : (rotT (K p) (W p.1)).phase key i = ext ((W p.1).phase key) ((i : Int) - K p) := congrFun (phase_rot (W p.1) (K p) key) i
    rw [List.map_cons, List.sum_cons]
    dsimp only
    rw [this]
    abel

theorem fillTask_run {g : Graph} {memo st2idx : List Nat} {first m input1 : Nat} {weight : List (TRLWE N)}
    (dst : Nat × Nat → Nat) (ix : Nat × Nat → Nat) (W : Nat → TRLWE N) (pairs : List (Nat × Nat))
    (h : ∀ p ∈ pairs, memo[((p.2 <<< first) ||| input1) * g.size + p.1]? = some (dst p) ∧ weight[p.1]? = some (W p.1) ∧
      st2idx[dst p]? = some (ix p) ∧ p.2 * m + ix p ≤ 2 * N)
    (w : List (TRLWE N)) (t : TRLWE N) (ht : w[input1]? = some t) :
    (fillTask g memo st2idx first m input1 pairs).run [w, weight] =
      .ok [w.set input1 (fillPure (fun p => p.2 * m + ix p) W pairs t), weight] := by
  have hlt : input1 < w.length := by
    rcases Nat.lt_or_ge input1 w.length with h | h
    · exact h
    · rw [List.getElem?_eq_none h] at ht; cases ht
  induction pairs generalizing w t with
  | nil =>
    rw [fillTask, Prog.run]
    show _ = Except.ok [w.set input1 t, weight]
    rw [List.getElem?_eq_getElem hlt] at ht
    rw [← Option.some.inj ht, List.set_getElem_self]
  | cons p pairs ih =>
    obtain ⟨h1, h2, h3, h4⟩ := h p (by simp)
    rw [fillTask, Prog.run_local _ (vat_eq_ok.2 h1), Prog.run_read1 h2, Prog.run_local _ (vat_eq_ok.2 h3),
      Prog.run_local _ (multXk_ok _ _ _ h4), Prog.run_read0 ht, Prog.run, mwrite_zero hlt, Res.bind_ok,
      ih (fun q hq => h q (by simp [hq])) _ (t.add (rotT (p.2 * m + ix p : Nat) (W p.1)))
        (by rw [List.getElem?_set_self hlt]; rfl) (by rw [List.length_set]; exact hlt), List.set_set]
    rfl

/-! ## Packing -/

theorem pack_inj {m a b i j : Nat} (hi : i < m) (hj : j < m) (h : a * m + i = b * m + j) : a = b ∧ i = j := by
  have h1 : (a * m + i) / m = a := by
    rw [Nat.mul_comm, Nat.mul_add_div (by omega), Nat.div_eq_of_lt hi, Nat.add_zero]
  have h2 : (b * m + j) / m = b := by
    rw [Nat.mul_comm, Nat.mul_add_div (by omega), Nat.div_eq_of_lt hj, Nat.add_zero]
  have hab : a = b := by rw [← h1, h, h2]
  subst hab
  exact ⟨rfl, by omega⟩

theorem pack_lt {m a c i : Nat} (hi : i < m) (ha : a < c) : a * m + i < m * c := by
  have : a * m + m ≤ c * m := by rw [← Nat.succ_mul]; exact Nat.mul_le_mul_right _ ha
  rw [Nat.mul_comm m c]; omega

theorem ext_near {p : Poly N} {x : Torus} {e : Nat} (h : ∀ i : Fin N, Near e (p i) (if i.val = 0 then x else 0)) {z : Int}
    (h1 : -N < z) (h2 : z < N) : Near e (ext p z) (if z = 0 then x else 0) := by
  by_cases hz : 0 ≤ z
  · rw [ext_nonneg_range p z hz (by omega)]
    have := h ⟨z.toNat, by omega⟩
    by_cases h0 : z = 0
    · subst h0; simpa using this
    · rw [if_neg h0]
      rw [if_neg (by dsimp only; omega)] at this
      exact this
  · rw [ext_neg_range p z (by omega) (by omega) (by omega), if_neg (by omega)]
    have := (h ⟨(z + N).toNat, by omega⟩).neg
    rw [if_neg (by dsimp only; omega)] at this
    simpa using this

/-- Element `q` of `weight` encodes `b` in its constant coefficient and 0 elsewhere, with error at most `e`. -/
def WHolds (S : Scheme N n l) (e : Nat) (weight : List (TRLWE N)) (q : Nat) (b : Bool) : Prop :=
  ∃ w, weight[q]? = some w ∧ ∀ i : Fin N, Near e (w.phase S.sk.lvl1 i) (if i.val = 0 then half b else 0)

/-- The filled entry `x1`, at coefficient `j * m + c`: whether the word `(j, x1)` leads to the state with index `c`. -/
theorem fill_near {S : Scheme N n l} {live : List Nat} (hnd : live.Nodup) {cur : Nat} (hcur : cur ∈ live) {m cnt2 e : Nat}
    (ix : Nat × Nat → Nat) (hix : ∀ st ∈ live, ∀ i < cnt2, ix (st, i) < m) (hN : m * cnt2 ≤ N) (W : Nat → TRLWE N)
    (hW : ∀ st ∈ live, ∀ i : Fin N, Near e ((W st).phase S.sk.lvl1 i) (if i.val = 0 then half (decide (st = cur)) else 0))
    {j c : Nat} (hj : j < cnt2) (hc : c < m) (hlt : j * m + c < N) :
    Near (live.length * cnt2 * e) ((fillPure (fun p => p.2 * m + ix p) W
        (live.flatMap fun st => (List.range cnt2).map fun i => (st, i)) (trivialTRLWEZero N)).phase S.sk.lvl1 ⟨j * m + c, hlt⟩)
      (half (decide (ix (cur, j) = c))) := by
  have hmem : ∀ p : Nat × Nat, p ∈ live.flatMap (fun st => (List.range cnt2).map fun i => (st, i)) ↔ p.1 ∈ live ∧ p.2 < cnt2 := by
    rintro ⟨a, b⟩
    simp only [List.mem_flatMap, List.mem_map, List.mem_range, Prod.mk.injEq]
    constructor
    · rintro ⟨st, h1, i, h2, rfl, rfl⟩; exact ⟨h1, h2⟩
    · rintro ⟨h1, h2⟩; exact ⟨a, h1, b, h2, rfl, rfl⟩
  have hpnd : (live.flatMap (fun st => (List.range cnt2).map fun i => (st, i))).Nodup := List.Nodup.product hnd List.nodup_range
  have hlen : (live.flatMap (fun st => (List.range cnt2).map fun i => (st, i))).length = live.length * cnt2 := by
    simp
  rw [fillPure_phase]
  have hz : (trivialTRLWEZero N).phase S.sk.lvl1 ⟨j * m + c, hlt⟩ = 0 := congrFun (phase_trivial (fun _ => 0#32) _) _
  rw [hz, zero_add]
  have hsum := near_list_sum (live.flatMap (fun st => (List.range cnt2).map fun i => (st, i)))
    (fun p => ext ((W p.1).phase S.sk.lvl1) (((⟨j * m + c, hlt⟩ : Fin N) : Int) - (p.2 * m + ix p : Nat)))
    (fun p => if (((⟨j * m + c, hlt⟩ : Fin N) : Int) - (p.2 * m + ix p : Nat)) = 0 then half (decide (p.1 = cur)) else 0) e (by
      intro p hp
      obtain ⟨h1, h2⟩ := (hmem p).1 hp
      have hk : p.2 * m + ix p < N := Nat.lt_of_lt_of_le (pack_lt (hix p.1 h1 p.2 h2) h2) hN
      exact ext_near (hW p.1 h1) (by dsimp only; omega) (by dsimp only; omega))
  rw [hlen] at hsum
  have hsingle := sum_single hpnd (x0 := (cur, j)) ((hmem _).2 ⟨hcur, hj⟩)
    (fun p => if (((⟨j * m + c, hlt⟩ : Fin N) : Int) - (p.2 * m + ix p : Nat)) = 0 then half (decide (p.1 = cur)) else 0) (by
      intro p hp hne
      obtain ⟨h1, h2⟩ := (hmem p).1 hp
      by_cases heq : (((⟨j * m + c, hlt⟩ : Fin N) : Int) - (p.2 * m + ix p : Nat)) = 0
      · rw [if_pos heq]
        have heq' : j * m + c = p.2 * m + ix p := by dsimp only at heq; omega
        obtain ⟨h3, _⟩ := pack_inj hc (hix p.1 h1 p.2 h2) heq'
        have : p.1 ≠ cur := fun h => hne (Prod.ext h h3.symm)
        rw [decide_eq_false this]; rfl
      · rw [if_neg heq])
  rw [hsingle] at hsum
  have hfin : (if (((⟨j * m + c, hlt⟩ : Fin N) : Int) - ((cur, j).2 * m + ix (cur, j) : Nat)) = 0 then half (decide ((cur, j).1 = cur)) else 0)
      = half (decide (ix (cur, j) = c)) := by
    by_cases hcc : ix (cur, j) = c
    · rw [if_pos (by dsimp only; rw [hcc]; omega), decide_eq_true hcc]; simp
    · rw [if_neg (by dsimp only; omega), decide_eq_false hcc]; rfl
  rwa [hfin] at hsum

end Homfa
