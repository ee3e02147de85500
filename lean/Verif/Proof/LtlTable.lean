import Verif.Proof.LtlEdge
import Verif.Spec.Ltl
import Verif.Spec.Automata
/-!
# The table built from a monitor
-/

namespace Homfa.Ltl
open Spec

variable {ix : List (Nat × Nat)} {n d ns : Nat} {K : List Bdd} {D0 : NFADelta} {L0 : List Lab} {cond : Bdd}

/-- The successors of a state with label `(k, b, d)`. -/
def RowOk (ix : List (Nat × Nat)) (n : Nat) (D : NFADelta) (L : List Lab) (q k : Nat) (b : Bdd) (d : Nat) : Prop :=
  ∀ bit : Bool, (Sat (nxt ix k b bit) → ∃ x, row D q bit = [x] ∧ Rep L n d (k + 1) (nxt ix k b bit) x) ∧
    (¬ Sat (nxt ix k b bit) → row D q bit = [])

/-- Invariant of the loops over the states and edges of the monitor; `done q` are the edges of `q` that have been expanded. -/
structure TInv (ix : List (Nat × Nat)) (n ns : Nat) (done : Nat → List (Bdd × Nat)) (L : List Lab) (D : NFADelta) : Prop where
  len : L.length = D.length
  nsLe : ns ≤ L.length
  mon : ∀ q < ns, L[q]? = some none
  lab : ∀ q, ns ≤ q → q < L.length → ∃ k b d, L[q]? = some (some (k, b, d)) ∧ k < n ∧ d < ns ∧ Sat b ∧ Ord ix n k b ∧ RowOk ix n D L q k b d
  src : ∀ q < ns, ∀ bit : Bool,
    (∀ x ∈ row D q bit, ∃ e ∈ done q, Sat (nxt ix 0 e.1 bit) ∧ Rep L n e.2 1 (nxt ix 0 e.1 bit) x) ∧
    (∀ e ∈ done q, Sat (nxt ix 0 e.1 bit) → ∃ x ∈ row D q bit, Rep L n e.2 1 (nxt ix 0 e.1 bit) x)

theorem nxt_of_lt {k : Nat} {b : Bdd} {bit : Bool} (ho : Ord ix n k b) (h : k < lvl ix n b) : nxt ix k b bit = b := by
  cases b with
  | ff => rfl
  | tt => rfl
  | node v lo hi =>
    obtain ⟨i, h1, _⟩ := ho
    simp only [nxt]
    simp only [lvl, h1, Option.getD_some] at h
    rw [h1, if_neg]
    simp only [Option.some.injEq]
    omega

/-- After the work list is empty every satisfiable node has been visited. -/
theorem sat_visited {r : RevSt} (hr : RevOk cond K r) {t : Nat} (ht : K[t]? = some .tt) {L : List Lab} {s : ExpSt}
    (hI : EInv ix n d K D0 L0 cond t L s) (hq : s.que = []) (b : Bdd) : Sat b → ∀ i : Nat, K[i]? = some b → i ∈ s.visited := by
  induction b with
  | ff => intro h; cases h
  | tt =>
    intro _ i hi
    rw [get_inj hr.nodup hi ht]
    rcases hI.tt with h | h
    · exact h
    · rw [hq] at h; simp at h
  | node v lo hi ihl ihr =>
    intro hs i hi'
    have hc := hr.child v lo hi (List.mem_of_getElem? hi')
    have : ∀ c, (c = lo ∨ c = hi) → c ∈ K → (∀ i : Nat, K[i]? = some c → i ∈ s.visited) → i ∈ s.visited := by
      intro c h1 h2 h3
      obtain ⟨j, hj⟩ := List.mem_iff_getElem?.1 h2
      rcases hI.clo j (h3 j hj) i v lo hi hi' (h1.imp (fun h => by rw [hj, h]) (fun h => by rw [hj, h])) with h | h
      · exact h
      · rw [hq] at h; simp at h
    rcases hs with hs | hs
    · exact this lo (.inl rfl) hc.1 (ihl hs)
    · exact this hi (.inr rfl) hc.2 (ihr hs)

theorem tt_mem {r : RevSt} (hr : RevOk cond K r) : ∀ b : Bdd, Sat b → b ∈ K → Bdd.tt ∈ K := by
  intro b
  induction b with
  | ff => intro h; cases h
  | tt => exact fun _ h => h
  | node v lo hi ihl ihr =>
    intro hs hK
    have := hr.child v lo hi hK
    rcases hs with hs | hs
    · exact ihl hs this.1
    · exact ihr hs this.2

theorem addSrc_ok {D : NFADelta} {src x : Nat} (hsrc : src < D.length) (hx : x < D.length) (hl : ∀ bit, (row D x bit).length ≤ 1) :
    ∃ D', addSrc D src x = .ok D' ∧ D'.length = D.length ∧
      ∀ q c, row D' q c = if q = src then row D src c ++ row D x c else row D q c := by
  unfold addSrc
  rw [vat_lt hx, Res.bind_ok]
  have r0 : row D x false = (D[x]'hx).2.1 := by unfold row; rw [List.getElem?_eq_getElem hx]; rfl
  have r1 : row D x true = (D[x]'hx).2.2 := by unfold row; rw [List.getElem?_eq_getElem hx]; rfl
  have l0 := hl false
  have l1 := hl true
  rw [r0] at l0
  rw [r1] at l1
  have ha : (decide ((D[x]'hx).2.1.length ≤ 1) && decide ((D[x]'hx).2.2.length ≤ 1)) = true := by simp [l0, l1]
  rw [ha, cassert_true, Res.bind_ok]
  -- first step
  have step : ∀ (bit : Bool) (E : NFADelta) (R : List Nat), src < E.length → R.length ≤ 1 →
      ∃ E', (if R.length = 1 then do
          let y ← vat R 0
          pushRow bit E src y
        else pure E : Res NFADelta) = .ok E' ∧ E'.length = E.length ∧
        ∀ q c, row E' q c = if q = src ∧ c = bit then row E src bit ++ R else row E q c := by
    intro bit E R hE hR
    match R, hR with
    | [], _ =>
      refine ⟨E, by simp [Res.pure_eq], rfl, ?_⟩
      intro q c
      split
      · rename_i h; obtain ⟨rfl, rfl⟩ := h; simp
      · rfl
    | [y], _ =>
      obtain ⟨E', h1, h2, h3, _⟩ := pushRow_ok hE bit y
      refine ⟨E', ?_, h2, h3⟩
      simp only [List.length_cons, List.length_nil, if_true, vat, List.getElem?_cons_zero, Res.bind_ok, h1]
  obtain ⟨D1, a1, a2, a3⟩ := step false D _ hsrc l0
  rw [a1, Res.bind_ok]
  obtain ⟨D2, b1, b2, b3⟩ := step true D1 _ (by rw [a2]; exact hsrc) l1
  refine ⟨D2, b1, b2.trans a2, ?_⟩
  intro q c
  rw [b3]
  cases c
  · simp only [Bool.false_eq_true, and_false, if_false]
    rw [a3]
    simp only [and_true]
    by_cases e : q = src
    · simp [e, r0]
    · simp [e]
  · simp only [and_true]
    by_cases e : q = src
    · simp only [e, if_true]
      rw [a3, r1]
      simp
    · simp only [e, if_false]
      rw [a3]
      simp [e]

/-- `done` after one more edge -/
def addDone (done : Nat → List (Bdd × Nat)) (src : Nat) (e : Bdd × Nat) : Nat → List (Bdd × Nat) :=
  fun q => if q = src then done q ++ [e] else done q

theorem RowOk.mono {D : NFADelta} {L L' : List Lab} (h : L <+: L') {q k d : Nat} {b : Bdd} (hr : RowOk ix n D L q k b d) :
    RowOk ix n D L' q k b d := by
  intro bit
  refine ⟨fun hs => ?_, (hr bit).2⟩
  obtain ⟨x, h1, h2⟩ := (hr bit).1 hs
  exact ⟨x, h1, h2.mono h⟩

theorem RowOk.congr {D D' : NFADelta} {L : List Lab} {q k d : Nat} {b : Bdd} (hr : RowOk ix n D L q k b d)
    (h : ∀ bit, row D' q bit = row D q bit) : RowOk ix n D' L q k b d := by
  intro bit
  rw [h]
  exact hr bit

theorem expandEdge_spec {done : Nat → List (Bdd × Nat)} {L : List Lab} {D : NFADelta} (hT : TInv ix n ns done L D) (hn0 : 0 < n)
    {src : Nat} (hsrc : src < ns) {e : Bdd × Nat} (hd : e.2 < ns) (hs : Sat e.1) (ho : Ord ix n 0 e.1) :
    ∃ D' L', expandEdge ix n src D e = .ok D' ∧ TInv ix n ns (addDone done src e) L' D' := by
  obtain ⟨cond, d⟩ := e
  simp only at hd hs ho
  obtain ⟨K, r, h1, hr⟩ := revBdd_spec cond
  obtain ⟨t, ht⟩ := List.mem_iff_getElem?.1 (tt_mem hr cond hs (List.mem_of_getElem? hr.first))
  have ht' : mapAt r.bdd2rst Bdd.tt = .ok t := by
    unfold mapAt
    rw [hr.map, (lookup_zipIdx hr.nodup).2 ht]
  unfold expandEdge
  simp only [h1, Res.bind_ok, ht']
  have hF : ∀ r' bit, ¬ Filled K [] r' bit := by
    rintro r' bit ⟨_, _, _, _, _, _, h⟩
    cases h
  have h0 : EInv ix n d K D L cond t L { delta := D, rst2st := [], visited := [], que := [(t, n, d)], srcAlt := none } := by
    refine ⟨⟨List.prefix_refl _, hT.len, List.prefix_refl _, ?_, ?_, ?_, ?_, ?_⟩, ?_, by simp, by simp, by simp, by simp, by simp⟩
    · intro q g1 g2; rw [hT.len] at g2; omega
    · intro r' q hr'; simp at hr'
    · intro r' q hr'; simp at hr'
    · intro q k b g1 g2
      have := lt_of_get g2
      rw [hT.len] at this
      omega
    · intro r' bit h; exact absurd h (hF r' bit)
    · intro it hit
      rw [List.mem_singleton.1 hit]
      exact ⟨.tt, ht, trivial, rfl, .inl ⟨rfl, rfl⟩⟩
  have hmu : emu r.reversed { delta := D, rst2st := [], visited := [], que := [(t, n, d)], srcAlt := none } ≤
      (r.reversed.map fun e => e.1.length + e.2.1.length).sum + 1 := by
    unfold emu
    have e1 : (List.range r.reversed.length).filter (fun c => !([] : List Nat).contains c) = List.range r.reversed.length := by simp
    simp only [e1]
    have e2 : (List.range r.reversed.length).map (wt r.reversed) = r.reversed.map fun e => e.1.length + e.2.1.length := by
      apply List.ext_getElem (by simp)
      intro i g1 g2
      simp only [List.length_map] at g2
      simp [wt, List.getElem?_eq_getElem g2]
    rw [e2]
    simp only [List.length_cons, List.length_nil]
    omega
  obtain ⟨s, w1, ⟨L1, hI⟩, w3⟩ := whileM_inv (cond := fun s : ExpSt => !s.que.isEmpty) (body := expBody ix r.reversed)
    (fun s => ∃ L1, EInv ix n d K D L cond t L1 s) (emu r.reversed) (fun s h c => expBody_spec hr ho h c) ⟨L, h0⟩ hmu
  have hq : s.que = [] := by simpa using w3
  rw [w1, Res.bind_ok]
  have hsv := sat_visited hr ht hI hq
  obtain ⟨alt, ha, hrep⟩ := hI.alt.1 (hsv cond hs 0 hr.first)
  rw [ha]
  dsimp only
  have hlab : L1[alt]? = some (some (0, cond, d)) := by
    rcases hrep with ⟨h, _⟩ | ⟨_, h⟩
    · omega
    · exact h
  have hlen1 := hI.core.len
  have hD : ∀ q < D.length, ∀ bit, row s.delta q bit = row D q bit := by
    intro q hq' bit
    obtain ⟨E, hE⟩ := hI.core.pre
    rw [← hE, row_append_left hq']
  have hpL := hI.core.preL
  -- all labelled states have good rows
  have hgood : ∀ q, ns ≤ q → q < L1.length → ∃ k b d', L1[q]? = some (some (k, b, d')) ∧ k < n ∧ d' < ns ∧ Sat b ∧ Ord ix n k b ∧
      RowOk ix n s.delta L1 q k b d' := by
    intro q g1 g2
    rcases Nat.lt_or_ge q D.length with hlt | hge
    · obtain ⟨k, b, d', q1, q2, q3, q4, q5, q6⟩ := hT.lab q g1 (by rw [hT.len]; exact hlt)
      exact ⟨k, b, d', prefix_get hpL q1, q2, q3, q4, q5, (q6.mono hpL).congr (hD q hlt)⟩
    · obtain ⟨k, b, q1, q2, q3, q4⟩ := hI.core.labs q hge g2
      refine ⟨k, b, d, q1, q2, hd, q3, q4, ?_⟩
      rcases hI.core.chn q k b hge q1 with ⟨r', hr'⟩ | ⟨c1, c2⟩
      · obtain ⟨_, v, lo, hi, k', p1, p2, p3⟩ := hI.core.dom r' q hr'
        rw [q1] at p3
        cases p3
        intro bit
        have hnx : nxt ix k (Bdd.node v lo hi) bit = if bit then hi else lo := by simp [nxt, p2]
        rw [hnx]
        have hch := hr.child v lo hi (List.mem_of_getElem? p1)
        have hcm : (if bit then hi else lo) ∈ K := by cases bit <;> simp [hch.1, hch.2]
        obtain ⟨c, hc⟩ := List.mem_iff_getElem?.1 hcm
        obtain ⟨n1, n2⟩ := hI.core.node r' q hr' v lo hi k p1 p2 bit
        constructor
        · intro hs'
          exact n1 ⟨v, lo, hi, c, p1, hc, hsv _ hs' c hc⟩
        · intro hs'
          apply n2
          rintro ⟨v', lo', hi', c', f1, f2, f3⟩
          rw [p1] at f1
          cases f1
          obtain ⟨b', b1, b2⟩ := hI.vis c' f3
          rw [f2] at b1
          cases b1
          exact hs' b2
      · intro bit
        rw [nxt_of_lt q4 c1]
        exact ⟨fun _ => c2 bit, fun h => absurd q3 h⟩
  have hnsL : ns ≤ L1.length := Nat.le_trans hT.nsLe hpL.length_le
  have hmon : ∀ q < ns, L1[q]? = some none := fun q hq' => prefix_get hpL (hT.mon q hq')
  have haltns : ns ≤ alt := by
    rcases Nat.lt_or_ge alt ns with h | h
    · rw [hmon alt h] at hlab; cases hlab
    · exact h
  obtain ⟨k, b, d', q1, _, _, _, _, q6⟩ := hgood alt haltns (lt_of_get hlab)
  rw [hlab] at q1
  cases q1
  have hns1 : ns ≤ D.length := by rw [← hT.len]; exact hT.nsLe
  obtain ⟨D', a1, a2, a3⟩ := addSrc_ok (D := s.delta) (src := src) (x := alt) (by
      rw [← hlen1]; omega) (by rw [← hlen1]; exact lt_of_get hlab) (by
      intro bit
      by_cases hsat : Sat (nxt ix 0 cond bit)
      · obtain ⟨x, h, _⟩ := (q6 bit).1 hsat
        rw [h]; simp
      · rw [(q6 bit).2 hsat]; simp)
  refine ⟨D', L1, a1, by rw [a2]; exact hlen1, hnsL, hmon, ?_, ?_⟩
  · intro q g1 g2
    obtain ⟨k, b, d', q1, q2, q3, q4, q5, q6⟩ := hgood q g1 g2
    refine ⟨k, b, d', q1, q2, q3, q4, q5, q6.congr (fun bit => ?_)⟩
    rw [a3, if_neg (by omega)]
  · intro q hq' bit
    rw [a3]
    obtain ⟨s1, s2⟩ := hT.src q hq' bit
    by_cases e : q = src
    · subst e
      rw [if_pos rfl, hD q (by omega) bit]
      unfold addDone
      rw [if_pos rfl]
      constructor
      · intro x hx
        rcases List.mem_append.1 hx with hx | hx
        · obtain ⟨e, e1, e2, e3⟩ := s1 x hx
          exact ⟨e, List.mem_append_left _ e1, e2, e3.mono hpL⟩
        · refine ⟨(cond, d), List.mem_append_right _ (by simp), ?_⟩
          by_cases hsat : Sat (nxt ix 0 cond bit)
          · obtain ⟨y, h, hy⟩ := (q6 bit).1 hsat
            rw [h] at hx
            rw [List.mem_singleton.1 hx]
            exact ⟨hsat, hy⟩
          · rw [(q6 bit).2 hsat] at hx; cases hx
      · intro e he hsat
        rcases List.mem_append.1 he with he | he
        · obtain ⟨x, x1, x2⟩ := s2 e he hsat
          exact ⟨x, List.mem_append_left _ x1, x2.mono hpL⟩
        · rw [List.mem_singleton.1 he] at hsat ⊢
          obtain ⟨y, h, hy⟩ := (q6 bit).1 hsat
          exact ⟨y, List.mem_append_right _ (by rw [h]; simp), hy⟩
    · rw [if_neg e, hD q (by omega) bit]
      unfold addDone
      rw [if_neg e]
      constructor
      · intro x hx
        obtain ⟨e, e1, e2, e3⟩ := s1 x hx
        exact ⟨e, e1, e2, e3.mono hpL⟩
      · intro e he hsat
        obtain ⟨x, x1, x2⟩ := s2 e he hsat
        exact ⟨x, x1, x2.mono hpL⟩

/-- The table of a monitor: all edges expanded. -/
theorem nfaTuple_spec {M : Monitor} (hn0 : 0 < n) (hd : ∀ es ∈ M.out, ∀ e ∈ es, e.2 < M.out.length)
    (hs : ∀ es ∈ M.out, ∀ e ∈ es, Sat e.1) (ho : ∀ es ∈ M.out, ∀ e ∈ es, Ord (var2idx M.varOf n) n 0 e.1) (allFinal : Bool) :
    ∃ D L, nfaTuple M n allFinal = .ok ([M.init], List.range (if allFinal then D.length else M.out.length), D) ∧
      TInv (var2idx M.varOf n) n M.out.length (fun q => (M.out[q]?).getD []) L D := by
  unfold nfaTuple
  set ix := var2idx M.varOf n with hix
  set ns := M.out.length with hns
  obtain ⟨D, h1, L, h2⟩ := foldlM_inv (f := fun delta (p : List (Bdd × Nat) × Nat) => p.1.foldlM (expandEdge ix n p.2) delta)
    (fun pre D => ∃ L, TInv ix n ns (fun q => if q < pre.length then (M.out[q]?).getD [] else []) L D) M.out.zipIdx
    (b := (List.range ns).map fun i => (i, [], [])) (by
      refine ⟨List.replicate ns none, by simp, by simp, ?_, ?_, ?_⟩
      · intro q hq; simp [hq]
      · intro q g1 g2; simp at g2; omega
      · intro q hq bit
        have : row ((List.range ns).map fun i => (i, [], [])) q bit = [] := by
          unfold row
          rw [List.getElem?_map, List.getElem?_range hq]
          cases bit <;> rfl
        rw [this]
        simp) (by
      rintro pre ⟨es, src⟩ post D hpre ⟨L, hT⟩
      have hpos : M.out.zipIdx[pre.length]? = some (es, src) := by rw [hpre]; simp
      rw [List.getElem?_zipIdx] at hpos
      obtain ⟨es', he', hp'⟩ := Option.map_eq_some_iff.1 hpos
      simp only [Nat.zero_add, Prod.mk.injEq] at hp'
      obtain ⟨rfl, rfl⟩ := hp'
      have hsrc : pre.length < ns := lt_of_get he'
      have hmem := List.mem_of_getElem? he'
      obtain ⟨D', g1, L', g2⟩ := foldlM_inv (f := expandEdge ix n pre.length)
        (fun pre' D => ∃ L, TInv ix n ns (fun q => if q < pre.length then (M.out[q]?).getD [] else if q = pre.length then pre' else []) L D) es'
        (b := D) (by
          refine ⟨L, ?_⟩
          have : (fun q => if q < pre.length then (M.out[q]?).getD [] else if q = pre.length then [] else []) =
              (fun q => if q < pre.length then (M.out[q]?).getD [] else []) := by funext q; simp
          rw [this]; exact hT) (by
          rintro pre' e post' D1 he ⟨L1, hT1⟩
          have hem : e ∈ es' := by rw [he]; simp
          obtain ⟨D2, L2, k1, k2⟩ := expandEdge_spec hT1 hn0 hsrc (hd es' hmem e hem) (hs es' hmem e hem) (ho es' hmem e hem)
          refine ⟨D2, k1, L2, ?_⟩
          have : addDone (fun q => if q < pre.length then (M.out[q]?).getD [] else if q = pre.length then pre' else []) pre.length e =
              (fun q => if q < pre.length then (M.out[q]?).getD [] else if q = pre.length then pre' ++ [e] else []) := by
            funext q
            unfold addDone
            by_cases h : q = pre.length
            · simp [h]
            · simp [h]
          rw [← this]; exact k2)
      refine ⟨D', g1, L', ?_⟩
      have : (fun q => if q < pre.length then (M.out[q]?).getD [] else if q = pre.length then es' else []) =
          (fun q => if q < (pre ++ [(es', pre.length)]).length then (M.out[q]?).getD [] else []) := by
        funext q
        simp only [List.length_append, List.length_cons, List.length_nil]
        by_cases h : q < pre.length
        · simp [h, show q < pre.length + 1 by omega]
        · by_cases h' : q = pre.length
          · subst h'
            simp [he']
          · simp [h, h', show ¬ q < pre.length + 1 by omega]
      rw [← this]; exact g2)
  refine ⟨D, L, ?_, ?_⟩
  · dsimp only
    rw [h1, Res.bind_ok, Res.pure_eq]
  · have : (fun q => if q < M.out.zipIdx.length then (M.out[q]?).getD [] else []) = (fun q => (M.out[q]?).getD []) := by
      funext q
      split
      · rfl
      · rename_i h
        simp only [List.length_zipIdx, Nat.not_lt] at h
        rw [List.getElem?_eq_none h]
        rfl
    rw [← this]; exact h2

end Homfa.Ltl
