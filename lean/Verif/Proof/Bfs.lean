import Mathlib.Data.Nat.Find
import Verif.Proof.Canon
/-!
# The numbers of the states

`from_nfa` numbers the states in the order in which a breadth-first search along 0 and then 1 meets them, and grouping equivalent states keeps this
order.  Two graphs that are numbered in this way and are the same up to renaming are the same.
-/

namespace Homfa
namespace Graph

variable {g : Graph}

/-- the targets of the transitions, row by row: 0, 1, 0, 1, ... -/
def tgt (g : Graph) (j : Nat) : Nat := g.nx (j / 2) (j % 2 == 1)

/-- A state other than 0 is met as a target only after all smaller ones. -/
structure InOrder (g : Graph) : Prop where
  init : g.init = 0
  grow : ∀ j < 2 * g.size, ∀ s, 0 < s → s < g.tgt j → ∃ i < j, g.tgt i = s

theorem tgt_eq (g : Graph) (q : Nat) (b : Bool) : g.tgt (2 * q + b.toNat) = g.nx q b := by
  unfold tgt
  cases b
  · rw [show (2 * q + false.toNat) / 2 = q by simp, show (2 * q + false.toNat) % 2 = 0 by simp]
    rfl
  · have h1 : (2 * q + true.toNat) / 2 = q := by simp only [Bool.toNat_true]; omega
    have h2 : (2 * q + true.toNat) % 2 = 1 := by simp only [Bool.toNat_true]; omega
    rw [h1, h2]
    rfl

/-- each state but the first is the target of a smaller one -/
theorem InOrder.parent (hg : g.InOrder) (hw : g.WF) (hr : ∀ q < g.size, g.Reach q) {p : Nat} (h0 : 0 < p) (hp : p < g.size) : ∃ j < 2 * p, g.tgt j = p := by
  by_contra hno
  have hno : ∀ j < 2 * p, g.tgt j ≠ p := fun j hj e => hno ⟨j, hj, e⟩
  have key : ∀ (w : List Bool) (q : Nat), q < p → w.foldl g.nx q < p := by
    intro w
    induction w with
    | nil => exact fun q h => h
    | cons b w ih =>
      intro q hq
      refine ih _ ?_
      have hb : b.toNat ≤ 1 := by cases b <;> simp
      have e := g.tgt_eq q b
      rcases Nat.lt_trichotomy (g.nx q b) p with h | h | h
      · exact h
      · exact absurd (e.trans h) (hno _ (by omega))
      · obtain ⟨i, hi, hi'⟩ := hg.grow (2 * q + b.toNat) (by omega) p h0 (by rw [e]; exact h)
        exact absurd hi' (hno i (by omega))
  obtain ⟨w, hw'⟩ := hr p hp
  rw [hg.init] at hw'
  have := key w 0 h0
  omega

/-- Two graphs in order that are the same up to renaming have the same numbers. -/
theorem InOrder.rename_id {h : Graph} (hg : g.InOrder) (hh : h.InOrder) (wg : g.WF) (hr : ∀ q < g.size, g.Reach q) {φ : Nat → Nat}
    (hlt : ∀ q < g.size, φ q < h.size) (hinj : ∀ a < g.size, ∀ b < g.size, φ a = φ b → a = b) (hinit : φ g.init = h.init)
    (hnx : ∀ q < g.size, ∀ b, h.nx (φ q) b = φ (g.nx q b)) : ∀ s < g.size, φ s = s := by
  intro s
  induction s using Nat.strongRecOn with
  | ind s ih =>
    intro hs
    by_cases h0 : s = 0
    · subst h0
      have := hinit
      rwa [hg.init, hh.init] at this
    have hex := hg.parent wg hr (Nat.pos_of_ne_zero h0) hs
    classical
    have hex' : ∃ j, g.tgt j = s := ⟨_, hex.choose_spec.2⟩
    let j := Nat.find hex'
    have hj : g.tgt j = s := Nat.find_spec hex'
    have hj2 : j < 2 * s := Nat.lt_of_le_of_lt (Nat.find_min' hex' hex.choose_spec.2) hex.choose_spec.1
    have hmin : ∀ i < j, g.tgt i ≠ s := fun i hi => Nat.find_min hex' hi
    have htgt : ∀ i ≤ j, h.tgt i = φ (g.tgt i) := by
      intro i hi
      unfold tgt
      have e := ih (i / 2) (by omega) (by omega)
      have := hnx (i / 2) (by omega) (i % 2 == 1)
      rwa [e] at this
    have hge : s ≤ φ s := by
      by_contra hlt'
      have e := ih (φ s) (by omega) (by omega)
      have := hinj _ (by omega) _ hs e
      omega
    rcases Nat.lt_or_eq_of_le hge with hgt | he
    · exfalso
      have hsz : s < h.size := Nat.lt_trans hgt (hlt s hs)
      obtain ⟨i, hi, hi'⟩ := hh.grow j (by omega) s (Nat.pos_of_ne_zero h0) (by rw [htgt j (Nat.le_refl _), hj]; exact hgt)
      rw [htgt i (Nat.le_of_lt hi)] at hi'
      rcases Nat.lt_trichotomy (g.tgt i) s with hc | hc | hc
      · rw [ih _ hc (by omega)] at hi'
        omega
      · exact hmin i hi hc
      · obtain ⟨i', hi1, hi2⟩ := hg.grow i (by omega) s (Nat.pos_of_ne_zero h0) hc
        exact hmin i' (by omega) hi2
    · exact he.symm

/-- Grouping keeps the order. -/
theorem InOrder.grouped (hg : g.InOrder) (hw : g.WF) {m : Graph} (hm : g.groupedNondistinguishable = .ok m) : m.InOrder := by
  obtain ⟨m', φ, h1, h2, h3, h4, h5, h6, h7, h8, h9, h10⟩ := grouped_spec hw
  rw [hm] at h1
  cases h1
  have h00 : φ 0 = 0 := by
    by_contra hne
    have hm0 : 0 < m.size := Nat.lt_of_le_of_lt (Nat.zero_le _) h2.init_lt
    have hg0 : 0 < g.size := Nat.lt_of_le_of_lt (Nat.zero_le _) hw.init_lt
    obtain ⟨q, hq, hq0⟩ := h6 0 hm0
    obtain ⟨q', _, _, hq''⟩ := h10 q hq 0 hg0 (by omega)
    have := hq'' 0 hg0 rfl
    omega
  refine ⟨by rw [h4, hg.init, h00], ?_⟩
  intro j hj s hs0 hs
  classical
  have hrep : ∀ k < m.size, ∃ r, r < g.size ∧ φ r = k ∧ ∀ p < r, φ p ≠ k := by
    intro k hk
    have hex : ∃ r, r < g.size ∧ φ r = k := h6 k hk
    refine ⟨Nat.find hex, (Nat.find_spec hex).1, (Nat.find_spec hex).2, fun p hp hpk => Nat.find_min hex hp ⟨?_, hpk⟩⟩
    exact Nat.lt_trans hp (Nat.find_spec hex).1
  obtain ⟨r, hr, hrk, hrmin⟩ := hrep (j / 2) (by omega)
  have hx : m.tgt j = φ (g.nx r (j % 2 == 1)) := by
    unfold tgt
    rw [← hrk]
    exact h8 r hr _
  have hxlt : g.nx r (j % 2 == 1) < g.size := hw.nx_lt hr _
  have htl : m.tgt j < m.size := by rw [hx]; exact h5 _ hxlt
  obtain ⟨y, hy, hys, hymin⟩ := hrep s (by omega)
  obtain ⟨q, hq, hqy, hqp⟩ := h10 y hy _ hxlt (by rw [hys, ← hx]; exact hs)
  have hyq : y ≤ q := by
    by_contra hlt
    exact hymin q (by omega) (hqy.trans hys)
  have hyx : y < g.nx r (j % 2 == 1) := Nat.lt_of_le_of_lt hyq (hqp _ hxlt rfl)
  have hy0 : 0 < y := by
    rcases Nat.eq_zero_or_pos y with h | h
    · subst h
      omega
    · exact h
  have hb : (j % 2 == 1 : Bool).toNat = j % 2 := by
    rcases Nat.mod_two_eq_zero_or_one j with h | h <;> rw [h] <;> rfl
  obtain ⟨i, hi, hiy⟩ := hg.grow (2 * r + (j % 2 == 1 : Bool).toNat) (by rw [hb]; omega) y hy0 (by rw [tgt_eq]; exact hyx)
  rw [hb] at hi
  have hi2 : i / 2 < g.size := by omega
  refine ⟨2 * φ (i / 2) + (i % 2 == 1 : Bool).toNat, ?_, ?_⟩
  · have hbi : (i % 2 == 1 : Bool).toNat = i % 2 := by
      rcases Nat.mod_two_eq_zero_or_one i with h | h <;> rw [h] <;> rfl
    rw [hbi]
    rcases Nat.lt_or_ge (i / 2) r with hlt | hge
    · have hne : φ (i / 2) ≠ j / 2 := hrmin _ hlt
      have hle : ¬ φ r < φ (i / 2) := by
        intro hc
        obtain ⟨p, _, hp1, hp2⟩ := h10 r hr _ hi2 hc
        have := hp2 _ hi2 rfl
        exact hrmin p (by omega) (hp1.trans hrk)
      omega
    · have : i / 2 = r := by omega
      rw [this, hrk]
      omega
  · rw [tgt_eq, h8 _ hi2]
    have : g.nx (i / 2) (i % 2 == 1) = g.tgt i := rfl
    rw [this, hiy, hys]

end Graph

namespace FromNfa

/-- the target of the `j`-th transition among the subsets `K` -/
def succ (dn : NFADelta) (K : List (List Nat)) (j : Nat) : Option (List Nat) := K[j / 2]?.map (sstep dn (j % 2 == 1))

/-- The work-list loop visits the subsets in the order in which they were created. -/
structure Ord (dn : NFADelta) (K visited que : List (List Nat)) : Prop where
  vis : visited = K.take visited.length
  queK : K ≠ [] → ∀ S ∈ que, S ∈ K
  que : ∀ (k : Nat) T, que[k]? = some T → ∀ i : Nat, K[i]? = some T → ∀ j < i, ∀ U, K[j]? = some U → U ∈ visited ∨ U ∈ que.take k
  met : ∀ s, 0 < s → s < K.length → ∃ j < 2 * visited.length, K[s]? = succ dn K j
  grow : ∀ j < 2 * visited.length, ∀ t s : Nat, K[t]? = succ dn K j → 0 < s → s < t → ∃ i < j, K[s]? = succ dn K i

theorem up {A B : List (List Nat)} {k : Nat} {T : List Nat} (hp : A <+: B) (h : A[k]? = some T) : B[k]? = some T := by
  obtain ⟨C, rfl⟩ := hp
  obtain ⟨h1, h2⟩ := List.getElem?_eq_some_iff.1 h
  rw [List.getElem?_append_left h1]; exact h

theorem down {A B : List (List Nat)} {k : Nat} (hp : A <+: B) (h : k < A.length) : B[k]? = A[k]? := by
  obtain ⟨C, rfl⟩ := hp
  rw [List.getElem?_append_left h]

theorem succ_up {dn : NFADelta} {A B : List (List Nat)} {j : Nat} (hp : A <+: B) (h : j / 2 < A.length) : succ dn B j = succ dn A j := by
  unfold succ
  rw [down hp h]

theorem at_new {K : List (List Nat)} {S : List Nat} {k : Nat} {T : List Nat} (hk : K.length ≤ k) (h : (K ++ if S ∈ K then [] else [S])[k]? = some T) :
    S ∉ K ∧ k = K.length ∧ T = S := by
  rw [List.getElem?_append_right hk] at h
  by_cases hS : S ∈ K
  · simp [hS] at h
  · rw [if_neg hS] at h
    obtain ⟨h1, h2⟩ := List.getElem?_eq_some_iff.1 h
    simp at h1 h2
    exact ⟨hS, by omega, h2.symm⟩

theorem ord_step {q0n fn : List Nat} {dn : NFADelta} {K : List (List Nat)} {s : St} (hI : Inv q0n fn dn K s) (hO : Ord dn K s.visited s.que)
    {s' : St} (hb : body fn dn s = .ok s') : ∃ K', s'.stMap = K'.zipIdx ∧ Ord dn K' s'.visited s'.que := by
  cases hq : s.que with
  | nil =>
    simp only [body, hq] at hb
    cases hb
    exact ⟨K, hI.map, hO⟩
  | cons S rest =>
    have hQ := hO.que
    rw [hq] at hQ
    by_cases hv : S ∈ s.visited
    · simp only [body, hq, List.contains_iff_mem, hv, if_true] at hb
      cases hb
      refine ⟨K, hI.map, hO.vis, fun hK T hT => hO.queK hK T (by rw [hq]; exact List.mem_cons_of_mem _ hT), ?_, hO.met, hO.grow⟩
      intro k T hT i hi j hj U hU
      rcases hQ (k + 1) T (by simpa using hT) i hi j hj U hU with h | h
      · exact .inl h
      · rw [List.take_succ_cons] at h
        rcases List.mem_cons.1 h with rfl | h
        · exact .inl hv
        · exact .inr h
    · have hbd : ∀ q ∈ S, q < dn.length := by
        by_contra hno
        push Not at hno
        have hv' : s.visited.contains S = false := by simpa using hv
        simp only [body, hq, hv', Bool.false_eq_true, if_false, succs_err hno] at hb
        cases hb
      obtain ⟨K1, l1, i, e1, d1, g1, n1, m1, a1⟩ := getOrCreate_spec (s := { s with que := rest }) hI.map hI.nodupK hI.dfLen S
      obtain ⟨K2, l2, j0, e2, d2, g2, n2, m2, a2⟩ := getOrCreate_spec
        (s := { s with que := rest, stMap := K1.zipIdx, df := s.df ++ List.replicate l1 none }) rfl n1 (by simpa using m1) (sstep dn false S)
      obtain ⟨K3, l3, j1, e3, d3, g3, n3, m3, a3⟩ := getOrCreate_spec
        (s := { s with que := rest, stMap := K2.zipIdx, df := s.df ++ List.replicate l1 none ++ List.replicate l2 none }) rfl n2 (by simp at m2 ⊢; omega) (sstep dn true S)
      have p12 : K1 <+: K2 := ⟨_, d2.symm⟩
      have p23 : K2 <+: K3 := ⟨_, d3.symm⟩
      have p01 : K <+: K1 := ⟨_, d1.symm⟩
      have p13 := p12.trans p23
      have p03 := p01.trans p13
      have A1 : K3[i]? = some S := up p13 a1
      have A2 : K3[j0]? = some (sstep dn false S) := up p23 a2
      have A3 : K3[j1]? = some (sstep dn true S) := a3
      have hlen : (s.df ++ List.replicate l1 none ++ List.replicate l2 none ++ List.replicate l3 none).length = K3.length := by
        simp at m3 ⊢; omega
      have hi : i < (s.df ++ List.replicate l1 none ++ List.replicate l2 none ++ List.replicate l3 none).length := by
        rw [hlen]; exact (List.getElem?_eq_some_iff.1 A1).1
      have inj : ∀ {k k' : Nat} {T : List Nat}, K3[k]? = some T → K3[k']? = some T → k = k' := idx_inj n3
      have hv' : s.visited.contains S = false := by simpa using hv
      simp only [body, hq, hv', Bool.false_eq_true, if_false, succs_ok hbd, Res.bind_ok, e1, e2, e3] at hb
      rw [vset_lt hi] at hb
      cases hb
      -- where S is
      have hvl : s.visited.length ≤ K.length := by
        have := congrArg List.length hO.vis
        rw [List.length_take] at this
        omega
      have hiv : i = s.visited.length := by
        by_cases hS : S ∈ K
        · obtain ⟨k, hk1, hk2⟩ := List.getElem_of_mem hS
          have hk : K[k]? = some S := by rw [List.getElem?_eq_getElem hk1, hk2]
          have hik : i = k := inj A1 (up p03 hk)
          subst hik
          refine Nat.le_antisymm ?_ ?_
          · by_contra hgt
            have hlt : s.visited.length < K.length := by omega
            obtain ⟨U, hU⟩ : ∃ U, K[s.visited.length]? = some U := ⟨_, List.getElem?_eq_getElem hlt⟩
            rcases hQ 0 S rfl i hk s.visited.length (by omega) U hU with h | h
            · rw [hO.vis] at h
              obtain ⟨m, hm1, hm2⟩ := List.getElem_of_mem h
              rw [List.getElem_take] at hm2
              rw [List.length_take] at hm1
              have := idx_inj hI.nodupK hU (k' := m) (by rw [← hm2]; exact List.getElem?_eq_getElem _)
              omega
            · simp at h
          · by_contra hlt
            refine hv ?_
            rw [hO.vis]
            refine List.mem_of_getElem? (i := i) ?_
            rw [List.getElem?_take_of_lt (by omega)]
            exact hk
        · have hK0 : K = [] := by
            by_contra hne
            exact hS (hO.queK hne S (by rw [hq]; simp))
          subst hK0
          have hv0 : s.visited.length = 0 := by simpa using hvl
          rw [hv0]
          rw [if_neg hS] at d1
          subst d1
          obtain ⟨h1, _⟩ := List.getElem?_eq_some_iff.1 a1
          simpa using h1
      have hvl1 : s.visited.length < K1.length := by rw [← hiv]; exact (List.getElem?_eq_some_iff.1 a1).1
      have hvl3 : s.visited.length < K3.length := Nat.lt_of_lt_of_le hvl1 p13.length_le
      -- indices of the old part
      have hK1 : ∀ t, 0 < t → t < K1.length → t < K.length := by
        intro t ht htl
        by_cases hS : S ∈ K
        · rw [d1, if_pos hS, List.append_nil] at htl
          exact htl
        · have hK0 : K = [] := by
            by_contra hne
            exact hS (hO.queK hne S (by rw [hq]; simp))
          rw [d1, if_neg hS, hK0] at htl
          simp at htl
          omega
      have hsucc : ∀ j < 2 * s.visited.length, succ dn K3 j = succ dn K j := fun j hj => succ_up p03 (by omega)
      have hs0 : succ dn K3 (2 * s.visited.length) = some (sstep dn false S) := by
        unfold succ
        rw [show 2 * s.visited.length / 2 = s.visited.length by omega, show 2 * s.visited.length % 2 = 0 by omega, ← hiv, A1]
        rfl
      have hs1 : succ dn K3 (2 * s.visited.length + 1) = some (sstep dn true S) := by
        unfold succ
        rw [show (2 * s.visited.length + 1) / 2 = s.visited.length by omega, show (2 * s.visited.length + 1) % 2 = 1 by omega, ← hiv, A1]
        rfl
      have hmetK : ∀ t, 0 < t → t < K1.length → ∃ j < 2 * s.visited.length, K3[t]? = succ dn K3 j := by
        intro t ht htl
        have htK := hK1 t ht htl
        obtain ⟨j, hj, hj'⟩ := hO.met t ht htK
        exact ⟨j, hj, by rw [down p03 htK, hj', hsucc j hj]⟩
      refine ⟨K3, rfl, ?_, ?_, ?_, ?_, ?_⟩
      · show s.visited ++ [S] = K3.take (s.visited ++ [S]).length
        rw [List.length_append, List.length_singleton, List.take_add_one, ← hiv, A1, hiv]
        congr 1
        obtain ⟨C, rfl⟩ := p03
        rw [List.take_append_of_le_length hvl]
        exact hO.vis
      · intro _ T hT
        rcases List.mem_append.1 hT with h | h
        · by_cases hne : K = []
          · have := hI.firstQ hne
            rw [hq] at this
            simp at this
            rw [this.2] at h
            cases h
          · exact p03.subset (hO.queK hne T (by rw [hq]; exact List.mem_cons_of_mem _ h))
        · simp at h
          rcases h with rfl | rfl
          · exact List.mem_of_getElem? A2
          · exact List.mem_of_getElem? A3
      · show ∀ (k : Nat) T, (rest ++ [sstep dn false S, sstep dn true S])[k]? = some T → ∀ i : Nat, K3[i]? = some T → ∀ j < i, ∀ U, K3[j]? = some U →
          U ∈ s.visited ++ [S] ∨ U ∈ (rest ++ [sstep dn false S, sstep dn true S]).take k
        intro k T hT i' hi' j hj U hU
        have old : U ∈ K1 → U ∈ s.visited ++ [S] ∨ U ∈ rest := by
          intro hUK
          rw [d1, mem_add] at hUK
          rcases hUK with h | rfl
          · rcases hI.pend U h with h | h
            · exact .inl (by simp [h])
            · rw [hq] at h
              rcases List.mem_cons.1 h with rfl | h
              · exact .inl (by simp)
              · exact .inr h
          · exact .inl (by simp)
        rcases Nat.lt_or_ge k rest.length with hk | hk
        · rw [List.getElem?_append_left hk] at hT
          rw [List.take_append_of_le_length (by omega)]
          have hne : K ≠ [] := by
            intro hK0
            have := hI.firstQ hK0
            rw [hq] at this
            simp at this
            rw [this.2] at hk
            simp at hk
          have hTK := hO.queK hne T (by rw [hq]; exact List.mem_cons_of_mem _ (List.mem_of_getElem? hT))
          obtain ⟨t, ht1, ht2⟩ := List.getElem_of_mem hTK
          have ht : K[t]? = some T := by rw [List.getElem?_eq_getElem ht1, ht2]
          have : i' = t := inj hi' (up p03 ht)
          subst this
          rw [down p03 (by omega)] at hU
          rcases hQ (k + 1) T (by simpa using hT) i' ht j hj U hU with h | h
          · exact .inl (by simp [h])
          · rw [List.take_succ_cons] at h
            rcases List.mem_cons.1 h with rfl | h
            · exact .inl (by simp)
            · exact .inr h
        · have hrest : ∀ V, V ∈ rest → V ∈ (rest ++ [sstep dn false S, sstep dn true S]).take k := by
            intro V hV
            rw [List.take_append]
            exact List.mem_append_left _ (by rw [List.take_of_length_le hk]; exact hV)
          rw [List.getElem?_append_right hk] at hT
          rcases Nat.lt_or_ge j K1.length with hj1 | hj1
          · rcases old (by rw [down p13 hj1] at hU; exact List.mem_of_getElem? hU) with h | h
            · exact .inl h
            · exact .inr (hrest U h)
          · rcases Nat.lt_or_ge j K2.length with hj2 | hj2
            · rw [down p23 hj2, d2] at hU
              obtain ⟨_, u2, rfl⟩ := at_new hj1 hU
              match hkk : k - rest.length, hT with
              | 0, hT =>
                simp at hT
                subst hT
                have := inj hi' A2
                have h2 : K3[j]? = some (sstep dn false S) := by rw [down p23 hj2, d2]; exact hU
                have := inj h2 hi'
                omega
              | 1, hT =>
                refine .inr ?_
                rw [List.take_append]
                refine List.mem_append_right _ ?_
                rw [hkk]
                simp
              | n + 2, hT => simp at hT
            · have hU3 := hU
              rw [d3] at hU
              obtain ⟨_, u2, rfl⟩ := at_new hj2 hU
              match hkk : k - rest.length, hT with
              | 0, hT =>
                simp at hT
                subst hT
                have h1 := inj hi' A2
                have h2 := (List.getElem?_eq_some_iff.1 a2).1
                omega
              | 1, hT =>
                simp at hT
                subst hT
                have := inj hU3 hi'
                omega
              | n + 2, hT => simp at hT
      · show ∀ t, 0 < t → t < K3.length → ∃ j < 2 * (s.visited ++ [S]).length, K3[t]? = succ dn K3 j
        intro t ht htl
        rw [List.length_append, List.length_singleton]
        rcases Nat.lt_or_ge t K1.length with h1 | h1
        · obtain ⟨j, hj, hj'⟩ := hmetK t ht h1
          exact ⟨j, by omega, hj'⟩
        · obtain ⟨T, hT⟩ : ∃ T, K3[t]? = some T := ⟨_, List.getElem?_eq_getElem htl⟩
          rcases Nat.lt_or_ge t K2.length with h2 | h2
          · have hT' := hT
            rw [down p23 h2, d2] at hT'
            obtain ⟨_, _, e⟩ := at_new h1 hT'
            exact ⟨2 * s.visited.length, by omega, by rw [hs0, hT, e]⟩
          · have hT' := hT
            rw [d3] at hT'
            obtain ⟨_, _, e⟩ := at_new h2 hT'
            exact ⟨2 * s.visited.length + 1, by omega, by rw [hs1, hT, e]⟩
      · show ∀ j < 2 * (s.visited ++ [S]).length, ∀ t r : Nat, K3[t]? = succ dn K3 j → 0 < r → r < t → ∃ i < j, K3[r]? = succ dn K3 i
        intro j hj t r ht hr hrt
        rw [List.length_append, List.length_singleton] at hj
        rcases Nat.lt_or_ge j (2 * s.visited.length) with hjv | hjv
        · have hjl : j / 2 < K.length := by omega
          have hKj : K[j / 2]? = some K[j / 2] := List.getElem?_eq_getElem hjl
          have hvis : K[j / 2] ∈ s.visited := by
            rw [hO.vis]
            refine List.mem_of_getElem? (i := j / 2) ?_
            rw [List.getElem?_take_of_lt (by omega)]
            exact hKj
          obtain ⟨t', ht'⟩ : ∃ t' : Nat, K[t']? = succ dn K j := by
            obtain ⟨x0, x1, _, hx0, hx1⟩ := hI.dfv _ _ hKj hvis
            unfold succ
            rw [hKj]
            cases (j % 2 == 1)
            · exact ⟨x0, hx0⟩
            · exact ⟨x1, hx1⟩
          have hsj : succ dn K j = some (sstep dn (j % 2 == 1) K[j / 2]) := by unfold succ; rw [hKj]; rfl
          rw [hsucc j hjv] at ht
          have he : t = t' := by
            rw [hsj] at ht ht'
            exact inj ht (up p03 ht')
          subst he
          have htl : t < K.length := by
            rw [hsj] at ht'
            exact (List.getElem?_eq_some_iff.1 ht').1
          obtain ⟨i', hi1, hi2⟩ := hO.grow j hjv t r ht' hr hrt
          exact ⟨i', hi1, by rw [down p03 (by omega), hi2, hsucc i' (by omega)]⟩
        · rcases Nat.lt_or_ge r K1.length with hr1 | hr1
          · obtain ⟨i', hi1, hi2⟩ := hmetK r hr hr1
            exact ⟨i', by omega, hi2⟩
          · rcases Nat.lt_or_ge j (2 * s.visited.length + 1) with hj1 | hj1
            · have : j = 2 * s.visited.length := by omega
              subst this
              rw [hs0] at ht
              have h1 := inj ht A2
              subst h1
              rcases Nat.lt_or_ge t K1.length with h | h
              · omega
              · have := a2
                rw [d2] at this
                obtain ⟨_, h2, _⟩ := at_new h this
                omega
            · have : j = 2 * s.visited.length + 1 := by omega
              subst this
              rw [hs1] at ht
              have h1 := inj ht A3
              subst h1
              have hr2 : r < K2.length := by
                rcases Nat.lt_or_ge t K2.length with h | h
                · omega
                · have := a3
                  rw [d3] at this
                  obtain ⟨_, h2, _⟩ := at_new h this
                  omega
              obtain ⟨T, hT⟩ : ∃ T, K2[r]? = some T := ⟨_, List.getElem?_eq_getElem hr2⟩
              have hT' := hT
              rw [d2] at hT'
              obtain ⟨_, _, e⟩ := at_new hr1 hT'
              exact ⟨2 * s.visited.length, by omega, by rw [hs0, down p23 hr2, hT, e]⟩

theorem zipIdx_inj {A B : List (List Nat)} (h : A.zipIdx = B.zipIdx) : A = B := by
  have := congrArg (List.map Prod.fst) h
  simpa using this

/-- `from_nfa` numbers the states in the order in which they are met. -/
theorem fromNfa_inOrder {q0n fn : List Nat} {dn : NFADelta} (hq0 : SSorted q0n) {g : Graph} (h : Graph.fromNfa q0n fn dn = .ok g) : g.InOrder := by
  have hinit : Inv q0n fn dn [] { stMap := [], df := [], ff := [], visited := [], que := [q0n] } := by
    constructor <;> simp
    exact ⟨[], rfl⟩
  have hord : Ord dn [] [] [q0n] := by constructor <;> simp
  rcases whileM_inv_err (cond := fun s : St => !s.que.isEmpty) (body := body fn dn) (fun s => ∃ K, Inv q0n fn dn K s ∧ Ord dn K s.visited s.que)
    (fun _ => True)
    (fun s => s.que.length + 2 * (2 ^ dn.length - s.visited.length))
    (by intro s _ hc
        cases h : s.que with
        | nil => simp [h] at hc
        | cons a b => simp; omega)
    (by
      rintro s ⟨K, hI, hO⟩ hc
      rcases body_spec hI hq0 hc with ⟨s', h1, ⟨K', h2⟩, h3⟩ | ⟨e, h1, _⟩
      · refine .inl ⟨s', h1, ⟨K', h2, ?_⟩, h3⟩
        obtain ⟨K'', e1, e2⟩ := ord_step hI hO h1
        rw [h2.map] at e1
        rw [zipIdx_inj e1]
        exact e2
      · exact .inr ⟨e, h1, trivial⟩)
    (fuel := 2 ^ (dn.length + 1) + 1) (s := { stMap := [], df := [], ff := [], visited := [], que := [q0n] })
    ⟨[], hinit, hord⟩ (by simp [Nat.pow_succ]; omega) with ⟨s, hrun, ⟨K, hI, hO⟩, hend⟩ | ⟨e, hrun, _⟩
  swap
  · unfold Graph.fromNfa at h
    rw [hrun] at h
    cases h
  have hq : s.que = [] := by simpa using hend
  have hroot : q0n ∈ K := by
    rcases hI.root with h | h
    · exact hI.visK _ h
    · rw [hq] at h; simp at h
  have hvis : ∀ S ∈ K, S ∈ s.visited := by
    intro S hS
    rcases hI.pend S hS with h | h
    · exact h
    · rw [hq] at h; simp at h
  have hK0 : K[0]? = some q0n := by
    rcases hI.first with h | h
    · rw [h] at hroot; simp at hroot
    · exact h
  have hlook : s.stMap.lookup q0n = some 0 := by
    rw [hI.map]
    cases K with
    | nil => simp at hK0
    | cons a K => simp at hK0; subst hK0; simp
  have hget : getOrCreate s q0n = (0, s) := by simp [getOrCreate, hlook]
  have hvl : s.visited.length = K.length := by
    have h1 := congrArg List.length hO.vis
    rw [List.length_take] at h1
    have h2 : K.length ≤ s.visited.length := (List.subperm_of_subset hI.nodupK hvis).length_le
    omega
  unfold Graph.fromNfa at h
  rw [hrun, Res.bind_ok, hget] at h
  obtain ⟨delta, hd, hmk⟩ := Res.bind_eq_ok.1 (show (finishDelta s.df >>= fun delta => Graph.make 0 s.ff delta) = .ok g from h)
  have hdelta : g.delta = delta ∧ g.init = 0 := by
    unfold Graph.make at hmk
    obtain ⟨ps, _, hmk⟩ := Res.bind_eq_ok.1 hmk
    obtain ⟨fv, _, hmk⟩ := Res.bind_eq_ok.1 hmk
    cases hmk
    exact ⟨rfl, rfl⟩
  unfold finishDelta at hd
  obtain ⟨hdl, hdrow⟩ := mapM_eq_ok.1 hd
  have hsize : g.size = K.length := by
    unfold Graph.size
    rw [hdelta.1, hdl, List.length_zipIdx, hI.dfLen]
  -- the targets
  have htgt : ∀ j < 2 * K.length, K[g.tgt j]? = succ dn K j := by
    intro j hj
    have hj2 : j / 2 < K.length := by omega
    have hKj : K[j / 2]? = some K[j / 2] := List.getElem?_eq_getElem hj2
    obtain ⟨x0, x1, hx, hx0, hx1⟩ := hI.dfv _ _ hKj (hvis _ (List.getElem_mem _))
    obtain ⟨hxl, hx⟩ := List.getElem?_eq_some_iff.1 hx
    have hrow := hdrow (j / 2) (by simpa using hxl) (by rw [hdl]; simpa using hxl)
    simp [hx] at hrow
    have hnx : ∀ b, g.nx (j / 2) b = if b then x1 else x0 := by
      intro b
      unfold Graph.nx
      rw [hdelta.1, List.getD_eq_getElem?_getD, List.getElem?_eq_getElem (by rw [hdl]; simpa using hxl), ← hrow]
      rfl
    unfold Graph.tgt succ
    rw [hnx, hKj]
    cases (j % 2 == 1)
    · exact hx0
    · exact hx1
  refine ⟨hdelta.2, ?_⟩
  intro j hj r hr hrt
  rw [hsize] at hj
  obtain ⟨i, hi, hi'⟩ := hO.grow j (by omega) (g.tgt j) r (htgt j hj) hr hrt
  refine ⟨i, hi, ?_⟩
  have hs : ∃ U, succ dn K i = some U := by
    unfold succ
    rw [List.getElem?_eq_getElem (show i / 2 < K.length by omega)]
    exact ⟨_, rfl⟩
  obtain ⟨U, hU⟩ := hs
  have h1 := htgt i (by omega)
  rw [hU] at h1 hi'
  exact idx_inj hI.nodupK h1 hi'

end FromNfa

namespace Graph

/-- Minimizing keeps the order, if no state is unreachable. -/
theorem InOrder.minimized {g m : Graph} (hg : g.InOrder) (hw : g.WF) (hr : ∀ q < g.size, g.Reach q) (hm : g.minimized = .ok m) : m.InOrder := by
  unfold Graph.minimized at hm
  rw [removed_id hw hr, Res.bind_ok] at hm
  have hg' : ({ g with statesAtDepth := [] } : Graph).InOrder := ⟨hg.init, hg.grow⟩
  have hw' : ({ g with statesAtDepth := [] } : Graph).WF := ⟨hw.built, hw.idx, hw.init_lt, hw.fin_sorted⟩
  exact hg'.grouped hw' hm

/-- Minimized graphs in order with the same language are the same. -/
theorem minimized_eq {g k : Graph} (hg : g.InOrder) (hk : k.InOrder) (wg : g.WF) (wk : k.WF) (hr : ∀ q < g.size, g.Reach q) (hr' : ∀ q < k.size, k.Reach q)
    (hl : ∀ w, g.dfa.accepts w = k.dfa.accepts w) : ∃ m, g.minimized = .ok m ∧ k.minimized = .ok m ∧ m.WF ∧ m.statesAtDepth = [] ∧
      ∀ w, m.dfa.accepts w = g.dfa.accepts w := by
  obtain ⟨m, a1, a2, a3, a4, a5, a6⟩ := Graph.minimized_good wg
  obtain ⟨n, b1, b2, b3, b4, b5, b6⟩ := Graph.minimized_good wk
  have om := hg.minimized wg hr a1
  have on := hk.minimized wk hr' b1
  have hlang : ∀ w, m.dfa.accepts w = n.dfa.accepts w := fun w => by rw [a4, b4, hl]
  obtain ⟨φ, c1, c2, c3, c4, c5⟩ := iso_of_trim a2 b2 a5 a6 b6 hlang
  have hsz : m.size = n.size := by
    apply Nat.le_antisymm
    · exact inj_le c1 c3
    · obtain ⟨ψ, d1, _, d3, _⟩ := iso_of_trim b2 a2 b5 b6 a6 (fun w => (hlang w).symm)
      exact inj_le d1 d3
  have hid := om.rename_id on a2 a5 c1 c3 (c2 []) c4
  have he := WF.ext a2 b2 hsz.symm (by rw [om.init, on.init])
    (fun q hq b => by
      have := c4 q hq b
      rwa [hid q hq, hid _ (a2.nx_lt hq b)] at this)
    (fun q hq => by
      have := c5 q hq
      rwa [hid q hq] at this)
  have e1 : { n with statesAtDepth := [] } = n := by cases n; simp_all
  have e2 : { m with statesAtDepth := [] } = m := by cases m; simp_all
  rw [e1, e2] at he
  subst he
  exact ⟨n, a1, b1, a2, a3, a4⟩

end Graph
end Homfa
