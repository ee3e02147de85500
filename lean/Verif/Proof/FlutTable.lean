import Verif.Model.Flut
import Verif.Proof.Block

/-! FLUT: the transition memo, the next live states, their indices and the two depths. -/

namespace Homfa

variable {N n l : Nat}

/-- the `d`-bit word with number `x`, least significant bit first -/
def wordOf (d x : Nat) : List Bool := (List.range d).map x.testBit

@[simp] theorem wordOf_length (d x : Nat) : (wordOf d x).length = d := by simp [wordOf]

theorem lsbIndex_append (a b : List Bool) : lsbIndex (a ++ b) = lsbIndex a + 2 ^ a.length * lsbIndex b := by
  induction a with
  | nil => simp [lsbIndex]
  | cons x a ih =>
    rw [List.cons_append, lsbIndex, ih, lsbIndex, List.length_cons, Nat.pow_succ]
    ring

theorem testBit_lsbIndex (w : List Bool) (i : Nat) (h : i < w.length) : (lsbIndex w).testBit i = w[i] := by
  induction w generalizing i with
  | nil => simp at h
  | cons b w ih =>
    rw [lsbIndex]
    cases i with
    | zero =>
      rw [Nat.testBit_zero]
      cases b <;> simp
    | succ i =>
      rw [Nat.testBit_succ]
      have : (b.toNat + 2 * lsbIndex w) / 2 = lsbIndex w := by
        have := Bool.toNat_le b
        omega
      rw [this, ih i (by simpa using h)]
      rfl

theorem wordOf_lsbIndex (w : List Bool) : wordOf w.length (lsbIndex w) = w := by
  apply List.ext_getElem
  · simp
  · intro i h1 h2
    simp only [wordOf, List.getElem_map, List.getElem_range]
    exact testBit_lsbIndex w i h2

/-- `(lsb b << |a|) | lsb a` -/
theorem lsb_or (a b : List Bool) : (lsbIndex b <<< a.length) ||| lsbIndex a = lsbIndex (a ++ b) := by
  rw [lsbIndex_append, ← Nat.shiftLeft_add_eq_or_of_lt (lsbIndex_lt a), Nat.shiftLeft_eq]
  ring

theorem or_lt {a x f s : Nat} (ha : a < 2 ^ f) (hx : x < 2 ^ s) : (x <<< f) ||| a < 2 ^ (f + s) := by
  rw [← Nat.shiftLeft_add_eq_or_of_lt ha, Nat.shiftLeft_eq, Nat.pow_add]
  have : x * 2 ^ f + 2 ^ f ≤ 2 ^ s * 2 ^ f := by
    rw [← Nat.succ_mul]; exact Nat.mul_le_mul_right _ hx
  rw [Nat.mul_comm (2 ^ f)]
  omega

namespace Graph
variable {g : Graph}

theorem transition64_word (hg : g.WF) {q : Nat} (hq : q < g.size) (x d : Nat) (hd : d < 31) :
    g.transition64 q (BitVec.ofNat 64 x) d = .ok ((wordOf d x).foldl g.nx q) := by
  rw [transition64_ok hg hq _ (by omega)]
  congr 2
  apply List.map_congr_left
  intro i hi
  rw [List.mem_range] at hi
  rw [BitVec.getLsbD_ofNat]
  simp; omega

theorem mem_level_words (hg : g.WF) {L : List Nat} (hL : ∀ q ∈ L, q < g.size) {d q : Nat} :
    q ∈ g.levelSet L d ↔ ∃ x < 2 ^ d, ∃ p ∈ L, (wordOf d x).foldl g.nx p = q := by
  rw [hg.mem_levelSet hL]
  constructor
  · rintro ⟨p, hp, w, rfl, rfl⟩
    exact ⟨lsbIndex w, lsbIndex_lt w, p, hp, by rw [wordOf_lsbIndex]⟩
  · rintro ⟨x, _, p, hp, rfl⟩
    exact ⟨p, hp, _, wordOf_length d x, rfl⟩

end Graph

/-- `row` answers every query on words of length `d` -/
def MemoOk (g : Graph) (d : Nat) (row : List Nat) : Prop :=
  ∀ x < 2 ^ d, ∀ s < g.size, row[x * g.size + s]? = some ((wordOf d x).foldl g.nx s)

theorem memoRow_ok {g : Graph} (hg : g.WF) {d : Nat} (hd : d < 31) : ∃ row, memoRow g d = .ok row ∧ MemoOk g d row := by
  unfold memoRow
  rw [shl1_ok hd, Res.bind_ok]
  obtain ⟨row, h1, _, h2⟩ := foldlM_range_inv (fun k (memo : List Nat) => memo.length = k * g.size ∧
      ∀ x < k, ∀ s < g.size, memo[x * g.size + s]? = some ((wordOf d x).foldl g.nx s))
    (f := fun (memo : List Nat) input =>
      g.allStates.foldlM (fun (memo : List Nat) src => do
        let dst ← g.transition64 src (BitVec.ofNat 64 input) d
        pure (memo ++ [dst])) memo) (2 ^ d) (b := []) ⟨by simp, by intro x h; omega⟩ (by
      rintro x memo hx ⟨e1, e2⟩
      obtain ⟨m', k1, k2⟩ := foldlM_range_inv (fun j (m : List Nat) => m = memo ++ (List.range j).map fun s => (wordOf d x).foldl g.nx s)
        (f := fun (memo : List Nat) src => do
          let dst ← g.transition64 src (BitVec.ofNat 64 x) d
          pure (memo ++ [dst])) g.size (b := memo) (by simp) (by
          rintro s m hs rfl
          rw [Graph.transition64_word hg hs _ _ hd, Res.bind_ok]
          refine ⟨_, rfl, ?_⟩
          rw [List.range_succ, List.map_append, List.append_assoc]; rfl)
      refine ⟨m', k1, ?_, ?_⟩
      · rw [k2, List.length_append, e1]; simp; ring
      · intro y hy s hs
        rw [k2]
        by_cases hyx : y < x
        · have hlt : y * g.size + s < memo.length := by
            rw [e1]
            have : y * g.size + g.size ≤ x * g.size := by rw [← Nat.succ_mul]; exact Nat.mul_le_mul_right _ hyx
            omega
          rw [List.getElem?_append_left hlt]
          exact e2 y hyx s hs
        · have : y = x := by omega
          subst this
          rw [List.getElem?_append_right (by omega), e1, Nat.add_sub_cancel_left]
          rw [List.getElem?_map, List.getElem?_range hs]; rfl)
  exact ⟨row, h1, h2⟩

theorem flutNext_ok {g : Graph} (hg : g.WF) {d : Nat} (hd : d < 31) {row live : List Nat} (hrow : MemoOk g d row)
    (hL : ∀ q ∈ live, q < g.size) (hd0 : d ≠ 0) : flutNext g row live d = .ok (g.levelSet live d) := by
  unfold flutNext
  rw [shl1_ok hd, Res.bind_ok]
  obtain ⟨t, h1, h2, h3⟩ := foldlM_range_inv (fun k (t : List Nat) => SSorted t ∧
      ∀ q, q ∈ t ↔ ∃ x < k, ∃ p ∈ live, (wordOf d x).foldl g.nx p = q)
    (f := fun (tmp : List Nat) input =>
      live.foldlM (fun (tmp : List Nat) stFrom => do
        let stTo ← vat row (input * g.size + stFrom)
        pure (sinsert stTo tmp)) tmp) (2 ^ d) (b := []) ⟨by simp, by simp⟩ (by
      rintro x t hx ⟨e1, e2⟩
      obtain ⟨t', k1, k2, k3⟩ := foldlM_inv (fun (pre : List Nat) (t' : List Nat) => SSorted t' ∧
          ∀ q, q ∈ t' ↔ q ∈ t ∨ ∃ p ∈ pre, (wordOf d x).foldl g.nx p = q)
        (f := fun (tmp : List Nat) stFrom => do
          let stTo ← vat row (x * g.size + stFrom)
          pure (sinsert stTo tmp)) live (b := t) ⟨e1, by simp⟩ (by
          rintro pre p post t' hd' ⟨f1, f2⟩
          have hp : p ∈ live := by rw [hd']; simp
          rw [vat_eq_ok.2 (hrow x hx p (hL p hp)), Res.bind_ok]
          refine ⟨_, rfl, sorted_sinsert f1, fun q => ?_⟩
          rw [mem_sinsert, f2 q]
          constructor
          · rintro (rfl | h | ⟨p', hp', h⟩)
            · exact .inr ⟨p, by simp, rfl⟩
            · exact .inl h
            · exact .inr ⟨p', by simp [hp'], h⟩
          · rintro (h | ⟨p', hp', h⟩)
            · exact .inr (.inl h)
            · rcases List.mem_append.1 hp' with hp' | hp'
              · exact .inr (.inr ⟨p', hp', h⟩)
              · simp at hp'; subst hp'; exact .inl h.symm)
      refine ⟨t', k1, k2, fun q => ?_⟩
      rw [k3 q, e2 q]
      constructor
      · rintro (⟨y, hy, h⟩ | h)
        · exact ⟨y, by omega, h⟩
        · exact ⟨x, by omega, h⟩
      · rintro ⟨y, hy, h⟩
        by_cases hyx : y = x
        · subst hyx; exact .inr h
        · exact .inl ⟨y, by omega, h⟩)
  rw [h1]
  congr 1
  obtain ⟨d', rfl⟩ : ∃ d', d = d' + 1 := ⟨d - 1, by omega⟩
  refine h2.ext (Graph.sorted_nextSet _) (fun q => ?_)
  rw [h3 q]
  exact (Graph.mem_level_words hg hL).symm

theorem flutIdx_ok {g : Graph} {next : List Nat} (hnd : next.Nodup) (hlt : ∀ q ∈ next, q < g.size) :
    ∃ v, flutIdx g next = .ok v ∧ ∀ q ∈ next, v[q]? = some (next.idxOf q) := by
  obtain ⟨v, h1, h2, h3⟩ := foldlM_range_inv (fun k (v : List Nat) => v.length = g.size ∧
      ∀ j (h : j < next.length), j < k → v[next[j]]? = some j)
    (f := fun (v : List Nat) i => do
      let q ← vat next i
      vset v q i) next.length (b := List.replicate g.size 0) ⟨by simp, by intro j _ h; omega⟩ (by
      rintro i v hi ⟨e1, e2⟩
      rw [vat_lt hi, Res.bind_ok, vset_lt (by rw [e1]; exact hlt _ (List.getElem_mem _))]
      refine ⟨_, rfl, by rw [List.length_set, e1], ?_⟩
      intro j hj hji
      by_cases h : j = i
      · subst h
        rw [List.getElem?_set_self (by rw [e1]; exact hlt _ (List.getElem_mem _))]
      · rw [List.getElem?_set_ne]
        · exact e2 j hj (by omega)
        · intro he
          exact h ((List.Nodup.getElem_inj_iff hnd).1 he).symm)
  refine ⟨v, h1, fun q hq => ?_⟩
  have hi : next.idxOf q < next.length := List.idxOf_lt_length_iff.2 hq
  have := h3 _ hi hi
  rwa [List.getElem_idxOf] at this

theorem lutDepths_die {maxSecond m k : Nat} (h31 : maxSecond < 32) (h : 2 ^ maxSecond ≤ m) :
    lutDepths maxSecond m k = .error .die := by
  unfold lutDepths
  rw [shl1Cap_ok h31, Res.bind_ok, if_pos h]; rfl

theorem lutDepths_ok {maxSecond m k : Nat} (h31 : maxSecond < 32) (h : m < 2 ^ maxSecond) :
    ∃ first second, lutDepths maxSecond m k = .ok (first, second) ∧ first + second = k ∧ second ≤ k / 2 ∧
      (m ≠ 0 → m * 2 ^ second ≤ 2 ^ maxSecond) := by
  unfold lutDepths
  rw [shl1Cap_ok h31, Res.bind_ok, if_neg (by omega)]
  have hadd : k - min (k / 2) (maxSecond - Nat.clog 2 m) + min (k / 2) (maxSecond - Nat.clog 2 m) = k := by omega
  refine ⟨k - min (k / 2) (maxSecond - Nat.clog 2 m), min (k / 2) (maxSecond - Nat.clog 2 m), ?_, hadd, by omega, ?_⟩
  · dsimp only
    rw [decide_eq_true hadd, cassert_true]; rfl
  · intro hm
    have h1 : m ≤ 2 ^ Nat.clog 2 m := Nat.le_pow_clog (by omega) m
    have h2 : Nat.clog 2 m ≤ maxSecond := (Nat.clog_le_iff_le_pow (by omega)).2 (by omega)
    calc m * 2 ^ min (k / 2) (maxSecond - Nat.clog 2 m) ≤ 2 ^ Nat.clog 2 m * 2 ^ (maxSecond - Nat.clog 2 m) :=
          Nat.mul_le_mul h1 (Nat.pow_le_pow_right (by omega) (by omega))
      _ = 2 ^ maxSecond := by rw [← Nat.pow_add]; congr 1; omega

theorem lutDepths_eq {maxSecond m k : Nat} (h31 : maxSecond < 32) (h : m < 2 ^ maxSecond) :
    lutDepths maxSecond m k = .ok (k - min (k / 2) (maxSecond - Nat.clog 2 m), min (k / 2) (maxSecond - Nat.clog 2 m)) := by
  unfold lutDepths
  rw [shl1Cap_ok h31, Res.bind_ok, if_neg (by omega)]
  have hadd : k - min (k / 2) (maxSecond - Nat.clog 2 m) + min (k / 2) (maxSecond - Nat.clog 2 m) = k := by omega
  dsimp only
  rw [decide_eq_true hadd, cassert_true]; rfl

end Homfa
