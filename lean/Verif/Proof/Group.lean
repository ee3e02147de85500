import Verif.Proof.Table
import Verif.Proof.UnionFind
import Mathlib.Data.List.Sublists
/-! `grouped_nondistinguishable` computes the quotient by language equivalence. -/

namespace Homfa
namespace Graph
variable {g : Graph}

theorem uniteAll_ok {t : List Bool} (ht : t.length = g.size * g.size)
    (hm : ∀ a b, a < b → b < g.size → (mkd g.size t a b ↔ ¬ g.Equiv a b)) :
    ∃ uf r d, uniteAll g.size t = .ok uf ∧ UnionFind.Inv uf r d ∧ uf.length = g.size ∧
      ∀ a b, a < g.size → b < g.size → (r a = r b ↔ g.Equiv a b) := by
  obtain ⟨uf, h1, r, d, h2, h3, h4, h5⟩ := foldlM_inv
    (fun (pre : List (Nat × Nat)) (uf : List Nat) => ∃ r d, UnionFind.Inv uf r d ∧ uf.length = g.size ∧
      (∀ a b, a < g.size → b < g.size → r a = r b → g.Equiv a b) ∧
      (∀ p ∈ pre, g.Equiv p.1 p.2 → r p.1 = r p.2))
    (f := fun uf p => do
      let m ← vat t (p.1 + p.2 * g.size)
      if m then pure uf else UnionFind.unite uf p.1 p.2) (pairs g.size) (b := UnionFind.new g.size)
    ⟨id, id, UnionFind.new_inv _, by simp [UnionFind.new], by
      rintro a b _ _ h
      have h : a = b := h
      subst h; intro w; rfl, by simp⟩ (by
      rintro pre ⟨a, b⟩ post uf hd ⟨r, d, i1, i2, i3, i4⟩
      have hmem : (a, b) ∈ pairs g.size := by rw [hd]; simp
      obtain ⟨hab, hb⟩ := mem_pairs.1 hmem
      have ha : a < g.size := by omega
      have hlt : a + b * g.size < t.length := by rw [ht]; exact idx_lt ha hb
      dsimp only
      rw [vat_lt hlt, Res.bind_ok]
      have hmab := hm a b hab hb
      unfold mkd at hmab
      rw [List.getElem?_eq_getElem hlt] at hmab
      cases hv : t[a + b * g.size] with
      | true =>
        rw [if_pos rfl]
        refine ⟨uf, rfl, r, d, i1, i2, i3, ?_⟩
        intro p hp he
        rcases List.mem_append.1 hp with hp | hp
        · exact i4 p hp he
        · simp at hp; subst hp
          rw [hv] at hmab
          exact absurd he (hmab.1 rfl)
      | false =>
        rw [if_neg (by simp)]
        have heq : g.Equiv a b := by
          by_contra hne
          have := hmab.2 hne
          rw [hv] at this; simp at this
        obtain ⟨uf', k1, k2, d', k3⟩ := i1.unite_ok (x := a) (y := b) (by omega) (by omega)
        refine ⟨uf', k1, _, d', k3, by omega, ?_, ?_⟩
        · intro x y hx hy hxy
          by_cases hxa : r x = r a
          · rw [if_pos hxa] at hxy
            have hxE := i3 x a hx ha hxa
            by_cases hya : r y = r a
            · exact i3 x y hx hy (by rw [hxa, hya])
            · rw [if_neg hya] at hxy
              exact (hxE.trans heq).trans (i3 b y hb hy hxy)
          · rw [if_neg hxa] at hxy
            by_cases hya : r y = r a
            · rw [if_pos hya] at hxy
              exact (i3 x b hx hb hxy).trans (heq.symm.trans (i3 y a hy ha hya).symm)
            · rw [if_neg hya] at hxy
              exact i3 x y hx hy hxy
        · intro p hp he
          rcases List.mem_append.1 hp with hp | hp
          · rw [i4 p hp he]
          · simp at hp; subst hp
            dsimp only
            rw [if_pos rfl]
            split
            · rfl
            · rfl)
  refine ⟨uf, r, d, h1, h2, h3, ?_⟩
  intro a b ha hb
  refine ⟨h4 a b ha hb, fun he => ?_⟩
  rcases Nat.lt_trichotomy a b with h | h | h
  · exact h5 (a, b) (mem_pairs.2 ⟨h, hb⟩) he
  · rw [h]
  · exact (h5 (b, a) (mem_pairs.2 ⟨h, ha⟩) he.symm).symm

/-- Invariant of the grouping loop after the states below `i`; `R` lists the representatives in order of appearance. -/
structure GInv (n N : Nat) (r : Nat → Nat) (i : Nat) (s : GroupSt) (R : List Nat) : Prop where
  uf : ∃ d, UnionFind.Inv s.uf r d
  ufLen : s.uf.length = n
  len : s.uf2st.length = n
  stLen : s.st.length = N
  next : s.next = R.length
  nodup : R.Nodup
  mem : ∀ u, u ∈ R ↔ ∃ q < i, r q = u
  smap : ∀ u, u < n → ∀ k : Nat, s.uf2st[u]? = some (some k) ↔ R[k]? = some u
  rows : ∀ (k : Nat) (row : List Nat), s.st[k]? = some row → SSorted row ∧ ∀ q, q ∈ row ↔ q < i ∧ R[k]? = some (r q)
  ord : ∀ (j k u v : Nat), j < k → R[j]? = some u → R[k]? = some v → ∃ q < i, r q = u ∧ ∀ p < i, r p = v → q < p

theorem groupBody_ok {n : Nat} {r : Nat → Nat} {i : Nat} {s : GroupSt} {R : List Nat}
    (hr : ∀ x, x < n → r x < n ∧ r (r x) = r x)
    (hI : GInv n ((List.range n).filter (fun x => decide (r x = x))).length r i s R) (hi : i < n) :
    ∃ s' R', groupBody s i = .ok s' ∧ GInv n ((List.range n).filter (fun x => decide (r x = x))).length r (i + 1) s' R' := by
  obtain ⟨d, hd⟩ := hI.uf
  obtain ⟨uf', e1, hd', e3⟩ := hd.find_ok (x := i) (by rw [hI.ufLen]; exact hi)
  have hri := hr i hi
  have hu : r i < s.uf2st.length := by rw [hI.len]; exact hri.1
  have hsome := hI.smap (r i) hri.1
  unfold groupBody
  rw [e1, Res.bind_ok]
  dsimp only
  rw [vat_lt hu, Res.bind_ok]
  rw [List.getElem?_eq_getElem hu] at hsome
  -- the new row
  have hRN : ∀ R' : List Nat, R'.Nodup → (∀ u ∈ R', u < n ∧ r u = u) → R'.length ≤ ((List.range n).filter (fun x => decide (r x = x))).length := by
    intro R' h1 h2
    refine (List.subperm_of_subset h1 ?_).length_le
    intro u hu
    simp [h2 u hu]
  have hRroot : ∀ u ∈ R, u < n ∧ r u = u := by
    intro u hu
    obtain ⟨q, hq, rfl⟩ := (hI.mem u).1 hu
    exact hr q (by omega)
  cases hv : s.uf2st[r i] with
  | none =>
    have hnR : r i ∉ R := by
      intro hmem
      obtain ⟨k, hk, e⟩ := List.getElem_of_mem hmem
      have := (hsome k).2 (by rw [List.getElem?_eq_getElem hk, e])
      rw [hv] at this; simp at this
    have hR' : (R ++ [r i]).Nodup := by
      rw [List.nodup_append]
      exact ⟨hI.nodup, by simp, by intro a ha b hb e; simp at hb; subst hb; subst e; exact hnR ha⟩
    have hlen := hRN (R ++ [r i]) hR' (by
      intro u hu
      rcases List.mem_append.1 hu with h | h
      · exact hRroot u h
      · simp at h; subst h; exact hri)
    have hnext : s.next < s.st.length := by
      rw [hI.stLen, hI.next]; simp at hlen; omega
    dsimp only
    rw [vset_lt hu, Res.bind_ok, vat_lt hnext, Res.bind_ok, vset_lt hnext, Res.bind_ok]
    refine ⟨_, R ++ [r i], rfl, ?_⟩
    constructor
    · exact hd'
    · show uf'.length = n; rw [e3, hI.ufLen]
    · simpa using hI.len
    · simpa using hI.stLen
    · simp [hI.next]
    · exact hR'
    · intro u
      rw [List.mem_append, hI.mem u]
      constructor
      · rintro (⟨q, hq, h⟩ | h)
        · exact ⟨q, by omega, h⟩
        · simp at h; exact ⟨i, by omega, h.symm⟩
      · rintro ⟨q, hq, h⟩
        by_cases hqi : q = i
        · subst hqi; exact .inr (by simp [h])
        · exact .inl ⟨q, by omega, h⟩
    · intro u hun k
      rw [List.getElem?_set]
      by_cases hur : r i = u
      · subst hur
        rw [if_pos rfl, if_pos hu, hI.next]
        constructor
        · intro h
          simp at h; subst h; simp
        · intro h
          rcases Nat.lt_trichotomy k R.length with hk | hk | hk
          · rw [List.getElem?_append_left hk] at h
            exact absurd (List.mem_of_getElem? h) hnR
          · simp [hk]
          · rw [List.getElem?_eq_none (by simp; omega)] at h; simp at h
      · rw [if_neg hur, hI.smap u hun k]
        rcases Nat.lt_trichotomy k R.length with hk | hk | hk
        · rw [List.getElem?_append_left hk]
        · subst hk; simp [hur]
        · rw [List.getElem?_eq_none (by omega), List.getElem?_eq_none (by simp; omega)]
    · intro k row hrow
      have hrow : (s.st.set s.next (sinsert i s.st[s.next]))[k]? = some row := hrow
      rw [List.getElem?_set] at hrow
      have hold := hI.rows s.next _ (List.getElem?_eq_getElem hnext)
      by_cases hk : s.next = k
      · subst hk
        rw [if_pos rfl, if_pos hnext] at hrow
        simp at hrow; subst hrow
        refine ⟨sorted_sinsert hold.1, fun q => ?_⟩
        rw [mem_sinsert, hold.2 q, hI.next, List.getElem?_eq_none (by omega)]
        simp only [List.getElem?_concat_length, reduceCtorEq, and_false, or_false, Option.some.injEq]
        constructor
        · rintro rfl; exact ⟨by omega, rfl⟩
        · rintro ⟨h1, h2⟩
          by_contra hne
          exact hnR ((hI.mem _).2 ⟨q, by omega, h2.symm⟩)
      · rw [if_neg hk] at hrow
        have hold := hI.rows k row hrow
        refine ⟨hold.1, fun q => ?_⟩
        rw [hold.2 q]
        rw [hI.next] at hk
        rcases Nat.lt_or_ge k R.length with hk' | hk'
        · rw [List.getElem?_append_left hk']
          constructor
          · rintro ⟨h1, h2⟩; exact ⟨by omega, h2⟩
          · rintro ⟨h1, h2⟩
            refine ⟨?_, h2⟩
            by_contra hne
            have : q = i := by omega
            subst this
            exact hnR (List.mem_of_getElem? h2)
        · rw [List.getElem?_eq_none hk', List.getElem?_eq_none (by simp; omega)]
          simp
    · intro j k u v hjk hj hk
      have hjl : j < R.length := by
        have := (List.getElem?_eq_some_iff.1 hk).1
        simp at this; omega
      rw [List.getElem?_append_left hjl] at hj
      rcases Nat.lt_or_ge k R.length with hk' | hk'
      · rw [List.getElem?_append_left hk'] at hk
        obtain ⟨q, h1, h2, h3⟩ := hI.ord j k u v hjk hj hk
        refine ⟨q, by omega, h2, fun p hp he => ?_⟩
        by_cases hpi : p = i
        · omega
        · exact h3 p (by omega) he
      · have hkl : k = R.length := by
          have := (List.getElem?_eq_some_iff.1 hk).1
          simp at this; omega
        subst hkl
        have hv' : r i = v := by simpa using hk
        obtain ⟨q, h1, h2⟩ := (hI.mem u).1 (List.mem_of_getElem? hj)
        refine ⟨q, by omega, h2, fun p hp he => ?_⟩
        by_cases hpi : p = i
        · omega
        · exact absurd ((hI.mem (r i)).2 ⟨p, by omega, he.trans hv'.symm⟩) hnR
  | some k =>
    have hRk : R[k]? = Option.some (r i) := (hsome k).1 (by rw [hv])
    have hkl : k < s.st.length := by
      have h1 := (List.getElem?_eq_some_iff.1 hRk).1
      have h2 := hRN R hI.nodup hRroot
      rw [hI.stLen]; omega
    dsimp only
    rw [vat_lt hkl, Res.bind_ok, vset_lt hkl, Res.bind_ok]
    refine ⟨_, R, rfl, ?_⟩
    constructor
    · exact hd'
    · show uf'.length = n; rw [e3, hI.ufLen]
    · exact hI.len
    · simpa using hI.stLen
    · exact hI.next
    · exact hI.nodup
    · intro u
      rw [hI.mem u]
      constructor
      · rintro ⟨q, hq, h⟩; exact ⟨q, by omega, h⟩
      · rintro ⟨q, hq, h⟩
        by_cases hqi : q = i
        · subst hqi; rw [← h]; exact (hI.mem _).1 (List.mem_of_getElem? hRk)
        · exact ⟨q, by omega, h⟩
    · exact hI.smap
    · intro k' row hrow
      have hrow : (s.st.set k (sinsert i s.st[k]))[k']? = Option.some row := hrow
      rw [List.getElem?_set] at hrow
      by_cases hk : k = k'
      · subst hk
        rw [if_pos rfl, if_pos hkl] at hrow
        simp at hrow; subst hrow
        have hold := hI.rows k _ (List.getElem?_eq_getElem hkl)
        refine ⟨sorted_sinsert hold.1, fun q => ?_⟩
        rw [mem_sinsert, hold.2 q]
        constructor
        · rintro (rfl | ⟨h1, h2⟩)
          · exact ⟨by omega, hRk⟩
          · exact ⟨by omega, h2⟩
        · rintro ⟨h1, h2⟩
          by_cases hqi : q = i
          · exact .inl hqi
          · exact .inr ⟨by omega, h2⟩
      · rw [if_neg hk] at hrow
        have hold := hI.rows k' row hrow
        refine ⟨hold.1, fun q => ?_⟩
        rw [hold.2 q]
        constructor
        · rintro ⟨h1, h2⟩; exact ⟨by omega, h2⟩
        · rintro ⟨h1, h2⟩
          refine ⟨?_, h2⟩
          by_contra hne
          have : q = i := by omega
          subst this
          have hlt := (List.getElem?_eq_some_iff.1 hRk).1
          exact hk ((List.getElem?_inj hlt hI.nodup).1 (hRk.trans h2.symm))
    · intro j k u v hjk hj hk
      obtain ⟨q, h1, h2, h3⟩ := hI.ord j k u v hjk hj hk
      refine ⟨q, by omega, h2, fun p hp he => ?_⟩
      by_cases hpi : p = i
      · omega
      · exact h3 p (by omega) he

/-- `grouped_nondistinguishable` computes the quotient: there is a surjection onto its states that identifies exactly the
equivalent states and commutes with everything. -/
theorem grouped_spec (hg : g.WF) :
    ∃ (m : Graph) (φ : Nat → Nat), g.groupedNondistinguishable = .ok m ∧ m.WF ∧ m.statesAtDepth = [] ∧ m.init = φ g.init ∧
      (∀ q < g.size, φ q < m.size) ∧ (∀ k < m.size, ∃ q < g.size, φ q = k) ∧
      (∀ a < g.size, ∀ b < g.size, φ a = φ b ↔ g.Equiv a b) ∧
      (∀ q < g.size, ∀ b, m.nx (φ q) b = φ (g.nx q b)) ∧ (∀ q < g.size, m.fin (φ q) = g.fin q) ∧
      (∀ a < g.size, ∀ b < g.size, φ a < φ b → ∃ q < g.size, φ q = φ a ∧ ∀ p < g.size, φ p = φ b → q < p) := by
  obtain ⟨t, t1, t2, t3⟩ := fillTable_ok hg
  obtain ⟨uf, r, d, u1, u2, u3, u4⟩ := uniteAll_ok t2 t3
  have hsize := u2.size_ok
  rw [u3] at hsize
  have hr : ∀ x, x < g.size → r x < g.size ∧ r (r x) = r x := by
    intro x hx
    exact ⟨by have := u2.rep_lt x (by omega); omega, u2.rep_rep (by omega)⟩
  obtain ⟨s, s1, R, hI⟩ := foldlM_range_inv
    (fun i s => ∃ R, GInv g.size ((List.range g.size).filter (fun x => decide (r x = x))).length r i s R)
    (f := groupBody) g.size
    (b := { uf := uf, uf2st := List.replicate g.size none,
            st := List.replicate ((List.range g.size).filter (fun x => decide (r x = x))).length [], next := 0 })
    ⟨[], ⟨⟨d, u2⟩, u3, by simp, by simp, rfl, by simp, by simp, by
      intro u hu k; simp [hu], by
      intro k row h
      obtain ⟨_, h⟩ := List.getElem?_eq_some_iff.1 h
      simp at h; subst h; simp, by simp⟩⟩ (by
      rintro i s hi ⟨R, hI⟩
      obtain ⟨s', R', h1, h2⟩ := groupBody_ok hr hI hi
      exact ⟨s', h1, R', h2⟩)
  -- number of groups
  have hRlen : R.length = s.st.length := by
    rw [hI.stLen]
    apply Nat.le_antisymm
    · refine (List.subperm_of_subset hI.nodup ?_).length_le
      intro u hu
      obtain ⟨q, hq, rfl⟩ := (hI.mem u).1 hu
      have := hr q hq
      simp [this.1, this.2]
    · refine (List.subperm_of_subset (List.Nodup.filter _ List.nodup_range) ?_).length_le
      intro u hu
      simp only [List.mem_filter, List.mem_range, decide_eq_true_eq] at hu
      exact (hI.mem u).2 ⟨u, hu⟩
  -- the quotient map
  let φ : Nat → Nat := fun q => ((s.uf2st[r q]?).getD none).getD 0
  have hφ : ∀ q, q < g.size → s.uf2st[r q]? = some (some (φ q)) ∧ R[φ q]? = some (r q) := by
    intro q hq
    obtain ⟨k, hk, e⟩ := List.getElem_of_mem ((hI.mem (r q)).2 ⟨q, hq, rfl⟩)
    have h1 := (hI.smap (r q) (hr q hq).1 k).2 (by rw [List.getElem?_eq_getElem hk, e])
    have h2 : φ q = k := by simp [φ, h1]
    rw [h2]
    exact ⟨h1, by rw [List.getElem?_eq_getElem hk, e]⟩
  have hφlt : ∀ q, q < g.size → φ q < R.length := fun q hq => (List.getElem?_eq_some_iff.1 (hφ q hq).2).1
  have hφiff : ∀ a, a < g.size → ∀ b, b < g.size → (φ a = φ b ↔ g.Equiv a b) := by
    intro a ha b hb
    rw [← u4 a b ha hb]
    constructor
    · intro e
      have h1 := (hφ a ha).2
      rw [e, (hφ b hb).2] at h1
      simpa using h1.symm
    · intro e
      have h1 := (hφ a ha).1
      rw [e, (hφ b hb).1] at h1
      simpa using h1.symm
  -- rows
  have hrow : ∀ k (h : k < s.st.length), SSorted s.st[k] ∧ (∀ q, q ∈ s.st[k] ↔ q < g.size ∧ φ q = k) ∧ s.st[k] ≠ [] := by
    intro k h
    have h1 := hI.rows k _ (List.getElem?_eq_getElem h)
    have h2 : ∀ q, q ∈ s.st[k] ↔ q < g.size ∧ φ q = k := by
      intro q
      rw [h1.2 q]
      constructor
      · rintro ⟨hq, e⟩
        refine ⟨hq, ?_⟩
        exact (List.getElem?_inj (hφlt q hq) hI.nodup).1 ((hφ q hq).2.trans e.symm)
      · rintro ⟨hq, rfl⟩
        exact ⟨hq, (hφ q hq).2⟩
    refine ⟨h1.1, h2, ?_⟩
    intro e
    have hk : k < R.length := by omega
    obtain ⟨q, hq, e2⟩ := (hI.mem R[k]).1 (List.getElem_mem hk)
    have : q ∈ s.st[k] := (h1.2 q).2 ⟨hq, by rw [List.getElem?_eq_getElem hk, e2]⟩
    rw [e] at this; simp at this
  -- the representative
  let ρ : Nat → Nat := fun k => (s.st.getD k []).headD 0
  have hρ : ∀ k, k < s.st.length → ρ k < g.size ∧ φ (ρ k) = k ∧ ∃ tl, s.st[k]? = some (ρ k :: tl) := by
    intro k hk
    obtain ⟨_, h2, h3⟩ := hrow k hk
    cases hs : s.st[k] with
    | nil => exact absurd hs h3
    | cons a tl =>
      have : ρ k = a := by simp [ρ, hk, hs]
      rw [this]
      have := (h2 a).1 (by rw [hs]; simp)
      exact ⟨this.1, this.2, tl, by rw [List.getElem?_eq_getElem hk, hs]⟩
  have hgroup : ∀ (uf' : List Nat) (d' : Nat → Nat) (q : Nat), UnionFind.Inv uf' r d' → uf'.length = g.size → q < g.size →
      ∃ uf'' d'', groupOf s.uf2st uf' q = .ok (φ q, uf'') ∧ UnionFind.Inv uf'' r d'' ∧ uf''.length = g.size := by
    intro uf' d' q h1 h2 hq
    obtain ⟨uf'', e1, ⟨d'', e2⟩, e3⟩ := h1.find_ok (x := q) (by omega)
    refine ⟨uf'', d'', ?_, e2, by omega⟩
    unfold groupOf
    rw [e1, Res.bind_ok]
    dsimp only
    rw [vat_eq_ok.2 (hφ q hq).1, Res.bind_ok]
    rfl
  -- output loop
  obtain ⟨o, o1, o2, o3, o4, o5, o6⟩ := foldlM_inv
    (fun (pre : List (List Nat × Nat)) (o : OutSt) =>
      (∃ d', UnionFind.Inv o.uf r d') ∧ o.uf.length = g.size ∧
      (o.initSt = if φ g.init < pre.length then some (φ g.init) else none) ∧
      (SSorted o.finals ∧ ∀ k, k ∈ o.finals ↔ k < pre.length ∧ g.fin (ρ k) = true) ∧
      o.delta = (List.range pre.length).map (fun k => (k, φ (g.nx (ρ k) false), φ (g.nx (ρ k) true))))
    (f := outBody g s.uf2st) s.st.zipIdx (b := { uf := s.uf, initSt := none, finals := [], delta := [] })
    ⟨hI.uf, hI.ufLen, by simp, by simp, by simp⟩ (by
      rintro pre ⟨row, k⟩ post o hd ⟨⟨d', i1⟩, i2, i3, ⟨i4, i4'⟩, i5⟩
      have hk : k = pre.length ∧ s.st[k]? = some row := by
        have h1 : s.st.zipIdx[pre.length]? = some (row, k) := by rw [hd]; simp
        rw [List.getElem?_zipIdx] at h1
        obtain ⟨x, h3, h2⟩ := Option.map_eq_some_iff.1 h1
        simp at h2
        obtain ⟨rfl, rfl⟩ := h2
        exact ⟨rfl, h3⟩
      obtain ⟨hk1, hk2⟩ := hk
      have hkl := (List.getElem?_eq_some_iff.1 hk2).1
      obtain ⟨p1, p2, tl, p3⟩ := hρ k hkl
      rw [hk2] at p3
      have p3 : row = ρ k :: tl := by simpa using p3
      obtain ⟨uf1, d1, a1, a2, a3⟩ := hgroup o.uf d' (g.nx (ρ k) false) i1 i2 (hg.nx_lt p1 false)
      obtain ⟨uf2, d2, b1, b2, b3⟩ := hgroup uf1 d1 (g.nx (ρ k) true) a2 a3 (hg.nx_lt p1 true)
      have hinit : row.any (fun q => g.initialState == q) = decide (φ g.init = k) := by
        have h2 := (hrow k hkl).2.1 g.init
        rw [List.getElem?_eq_getElem hkl] at hk2
        rw [show s.st[k] = row by simpa using hk2] at h2
        rw [Bool.eq_iff_iff]
        simp only [List.any_eq_true, beq_iff_eq, decide_eq_true_eq, initialState]
        constructor
        · rintro ⟨x, hx, rfl⟩; exact (h2.1 hx).2
        · intro h; exact ⟨g.init, h2.2 ⟨hg.init_lt, h⟩, rfl⟩
      unfold outBody
      dsimp only
      rw [hinit, p3]
      dsimp only
      rw [Res.pure_eq, Res.bind_ok, hg.isFinalState_ok p1, Res.bind_ok, WF.nextState_ok p1, Res.bind_ok, a1, Res.bind_ok]
      dsimp only
      rw [WF.nextState_ok p1, Res.bind_ok, b1, Res.bind_ok]
      refine ⟨_, rfl, ⟨d2, b2⟩, b3, ?_, ?_, ?_⟩
      · dsimp only
        rw [i3, List.length_append, List.length_singleton]
        by_cases h : φ g.init = k
        · rw [decide_eq_true h, if_pos rfl, if_pos (by omega), h]
        · rw [decide_eq_false h, if_neg (by simp)]
          by_cases h' : φ g.init < pre.length
          · rw [if_pos h', if_pos (by omega)]
          · rw [if_neg h', if_neg (by omega)]
      · dsimp only
        rw [List.length_append, List.length_singleton]
        cases hf : g.fin (ρ k) with
        | true =>
          rw [if_pos rfl]
          refine ⟨sorted_sinsert i4, fun x => ?_⟩
          rw [mem_sinsert, i4']
          constructor
          · rintro (rfl | h)
            · exact ⟨by omega, hf⟩
            · exact ⟨by omega, h.2⟩
          · rintro ⟨h1, h2⟩
            by_cases hx : x = k
            · exact .inl hx
            · exact .inr ⟨by omega, h2⟩
        | false =>
          rw [if_neg (by simp)]
          refine ⟨i4, fun x => ?_⟩
          rw [i4']
          constructor
          · rintro ⟨h1, h2⟩; exact ⟨by omega, h2⟩
          · rintro ⟨h1, h2⟩
            refine ⟨?_, h2⟩
            by_contra hne
            have : x = k := by omega
            rw [this, hf] at h2; simp at h2
      · dsimp only
        rw [i5, List.length_append, List.length_singleton, List.range_succ, List.map_append, hk1]
        rfl)
  have hzl : s.st.zipIdx.length = R.length := by simp [hRlen]
  rw [hzl] at o4 o5 o6
  rw [if_pos (hφlt _ hg.init_lt)] at o4
  obtain ⟨m, m1, m2, m3, m4, m5, m6, m7⟩ := make_wf (init := φ g.init) (n := R.length) (finals := o.finals)
    (f0 := fun k => φ (g.nx (ρ k) false)) (f1 := fun k => φ (g.nx (ρ k) true)) (hφlt _ hg.init_lt)
    (fun q hq => ((o5.2 q).1 hq).1) o5.1
    (fun k hk => hφlt _ (hg.nx_lt (hρ k (by omega)).1 _)) (fun k hk => hφlt _ (hg.nx_lt (hρ k (by omega)).1 _))
  refine ⟨m, φ, ?_, m2, m6, m4, by rw [m3]; exact hφlt, ?_, hφiff, ?_, ?_, ?_⟩
  · unfold groupedNondistinguishable
    rw [t1, Res.bind_ok, u1, Res.bind_ok, hsize, Res.bind_ok, show g.allStates = List.range g.size from rfl, s1, Res.bind_ok, o1, Res.bind_ok, o4]
    dsimp only
    rw [o6, m1]
  · intro k hk
    rw [m3] at hk
    obtain ⟨h1, h2, _⟩ := hρ k (by omega)
    exact ⟨ρ k, h1, h2⟩
  · intro q hq b
    have hk := hφlt q hq
    obtain ⟨h1, h2, _⟩ := hρ (φ q) (by omega)
    have he : g.Equiv (ρ (φ q)) q := (hφiff _ h1 q hq).1 h2
    have hn : φ (g.nx (ρ (φ q)) b) = φ (g.nx q b) := (hφiff _ (hg.nx_lt h1 b) _ (hg.nx_lt hq b)).2 (he.next b)
    cases b
    · rw [(m7 _ hk).1]; exact hn
    · rw [(m7 _ hk).2]; exact hn
  · intro q hq
    have hk := hφlt q hq
    obtain ⟨h1, h2, _⟩ := hρ (φ q) (by omega)
    have he : g.Equiv (ρ (φ q)) q := (hφiff _ h1 q hq).1 h2
    rw [Bool.eq_iff_iff]
    have : m.fin (φ q) = true ↔ φ q ∈ o.finals := by rw [fin, m5]; simp
    rw [this, o5.2, he.fin]
    exact ⟨fun h => h.2, fun h => ⟨hk, h⟩⟩
  · intro a ha b hb hab
    obtain ⟨q, h1, h2, h3⟩ := hI.ord _ _ _ _ hab (hφ a ha).2 (hφ b hb).2
    refine ⟨q, h1, (hφiff q h1 a ha).2 ((u4 q a h1 ha).1 h2), fun p hp he => h3 p hp ((u4 p b hp hb).2 ((hφiff p hp b hb).1 he))⟩

end Graph
end Homfa
