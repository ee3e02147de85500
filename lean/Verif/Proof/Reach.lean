import Verif.Proof.Group
/-! `removed_unreachable`. -/

namespace Homfa
namespace Graph
variable {g : Graph}

/-- reachable from the initial state -/
def Reach (g : Graph) (q : Nat) : Prop := ∃ w : List Bool, w.foldl g.nx g.init = q

theorem Reach.next {q : Nat} (h : g.Reach q) (b : Bool) : g.Reach (g.nx q b) := by
  obtain ⟨w, rfl⟩ := h
  exact ⟨w ++ [b], by simp⟩

theorem WF.reach_lt (hg : g.WF) {q : Nat} (h : g.Reach q) : q < g.size := by
  obtain ⟨w, rfl⟩ := h
  exact hg.run_lt hg.init_lt w

/-- Invariant of the reachability loop. -/
structure RInv (g : Graph) (s : List Nat × List Nat) : Prop where
  sorted : SSorted s.1
  reach : ∀ q ∈ s.1, g.Reach q
  reachQ : ∀ q ∈ s.2, g.Reach q
  root : g.init ∈ s.1 ∨ g.init ∈ s.2
  clos : ∀ q ∈ s.1, ∀ b, g.nx q b ∈ s.1 ∨ g.nx q b ∈ s.2

theorem sinsert_length {x : Nat} {s : List Nat} (h : x ∉ s) : (sinsert x s).length = s.length + 1 := by
  induction s with
  | nil => rfl
  | cons y s ih =>
    simp at h
    unfold sinsert
    split
    · rfl
    · rw [if_neg h.1]; simp [ih h.2]

theorem SSorted.length_le {s : List Nat} {n : Nat} (h : SSorted s) (hb : ∀ q ∈ s, q < n) : s.length ≤ n := by
  have := (List.subperm_of_subset h.nodup (l₂ := List.range n) (by intro q hq; simpa using hb q hq)).length_le
  simpa using this

theorem reachBody_ok (hg : g.WF) {s : List Nat × List Nat} (hI : RInv g s) (hc : (!s.2.isEmpty) = true) :
    ∃ s', g.reachBody s = .ok s' ∧ RInv g s' ∧
      s'.2.length + 2 * (g.size - s'.1.length) < s.2.length + 2 * (g.size - s.1.length) := by
  obtain ⟨R, que⟩ := s
  cases que with
  | nil => simp at hc
  | cons q rest =>
    unfold reachBody
    dsimp only
    by_cases hq : q ∈ R
    · rw [if_pos (by simpa using hq)]
      refine ⟨_, rfl, ⟨hI.sorted, hI.reach, fun x hx => hI.reachQ x (by simp at hx ⊢; exact .inr hx), ?_, ?_⟩, by simp⟩
      · rcases hI.root with h | h
        · exact .inl h
        · rcases List.mem_cons.1 h with h | h
          · exact .inl (h ▸ hq)
          · exact .inr h
      · intro x hx b
        rcases hI.clos x hx b with h | h
        · exact .inl h
        · rcases List.mem_cons.1 h with h | h
          · exact .inl (h ▸ hq)
          · exact .inr h
    · rw [if_neg (by simpa using hq)]
      have hr := hI.reachQ q (by simp)
      have hlt := hg.reach_lt hr
      rw [WF.nextState_ok hlt, Res.bind_ok, WF.nextState_ok hlt, Res.bind_ok]
      refine ⟨_, rfl, ⟨sorted_sinsert hI.sorted, ?_, ?_, ?_, ?_⟩, ?_⟩
      · intro x hx
        rcases mem_sinsert.1 hx with rfl | hx
        · exact hr
        · exact hI.reach x hx
      · intro x hx
        have hx : x ∈ rest ∨ x = g.nx q false ∨ x = g.nx q true := by simpa using hx
        rcases hx with h | rfl | rfl
        · exact hI.reachQ x (by simp [h])
        · exact hr.next _
        · exact hr.next _
      · rcases hI.root with h | h
        · exact .inl (by simp [h])
        · rcases List.mem_cons.1 h with h | h
          · exact .inl (by simp [h])
          · exact .inr (by simp [h])
      · intro x hx b
        rcases mem_sinsert.1 hx with rfl | hx
        · right; cases b <;> simp
        · rcases hI.clos x hx b with h | h
          · exact .inl (by simp [h])
          · rcases List.mem_cons.1 h with h | h
            · exact .inl (by simp [h])
            · exact .inr (by simp [h])
      · have h1 := sinsert_length hq
        have h2 : (sinsert q R).length ≤ g.size := SSorted.length_le (sorted_sinsert hI.sorted) (by
          intro x hx
          rcases mem_sinsert.1 hx with rfl | hx
          · exact hlt
          · exact hg.reach_lt (hI.reach x hx))
        simp only [List.length_append, List.length_cons, List.length_nil]
        omega

theorem lookup_zipIdx_nat {R : List Nat} (hn : R.Nodup) {q i k : Nat} (h : R[i]? = some q) :
    (R.zipIdx k).lookup q = some (i + k) := by
  induction R generalizing i k with
  | nil => simp at h
  | cons a R ih =>
    rw [List.zipIdx_cons, List.lookup_cons]
    rw [List.nodup_cons] at hn
    cases i with
    | zero => simp at h; subst h; simp
    | succ i =>
      simp at h
      have : q ≠ a := by rintro rfl; exact hn.1 (List.mem_of_getElem? h)
      rw [show (q == a) = false by simpa using this]
      dsimp only
      rw [ih hn.2 h]; congr 1; omega

/-- `removed_unreachable` restricts the graph to its reachable states, numbered in increasing order. -/
theorem removedUnreachable_spec (hg : g.WF) :
    ∃ (m : Graph) (R : List Nat), g.removedUnreachable = .ok m ∧ m.WF ∧ m.statesAtDepth = [] ∧ m.size = R.length ∧ SSorted R ∧
      (∀ q, q ∈ R ↔ g.Reach q) ∧ R[m.init]? = some g.init ∧
      (∀ i q, R[i]? = some q → ∀ b, R[m.nx i b]? = some (g.nx q b)) ∧
      (∀ (i : Nat) q, R[i]? = some q → m.fin i = g.fin q) := by
  obtain ⟨s, s1, hI, hend⟩ := whileM_inv (cond := fun s : List Nat × List Nat => !s.2.isEmpty) (body := g.reachBody) (RInv g)
    (fun s => s.2.length + 2 * (g.size - s.1.length)) (fun s hI hc => reachBody_ok hg hI hc) (fuel := 2 * g.size + 1)
    (s := ([], [g.init]))
    ⟨by simp, by simp, by intro q hq; simp at hq; subst hq; exact ⟨[], rfl⟩, by simp, by simp⟩ (by simp; omega)
  obtain ⟨R, que⟩ := s
  have hq : que = [] := by simpa using hend
  subst hq
  have hmem : ∀ q, q ∈ R ↔ g.Reach q := by
    intro q
    refine ⟨hI.reach q, ?_⟩
    rintro ⟨w, rfl⟩
    induction w using List.reverseRecOn with
    | nil => simpa using hI.root
    | append_singleton w b ih =>
      rw [List.foldl_append]
      simpa using hI.clos _ ih b
  have hsorted : SSorted R := hI.sorted
  have hnd := hsorted.nodup
  let idx : Nat → Nat := fun q => (R.zipIdx.lookup q).getD 0
  have hidx : ∀ q, q ∈ R → R.zipIdx.lookup q = some (idx q) ∧ R[idx q]? = some q := by
    intro q hq
    obtain ⟨i, hi, e⟩ := List.getElem_of_mem hq
    have h1 : R[i]? = some q := by rw [List.getElem?_eq_getElem hi, e]
    have h2 := lookup_zipIdx_nat hnd (k := 0) h1
    have h3 : idx q = i := by simp [idx, h2]
    rw [h3]; exact ⟨by simpa using h2, h1⟩
  have hidxlt : ∀ q, q ∈ R → idx q < R.length := fun q hq => (List.getElem?_eq_some_iff.1 (hidx q hq).2).1
  have hidxi : ∀ i q, R[i]? = some q → idx q = i := by
    intro i q h
    have h2 := lookup_zipIdx_nat hnd (k := 0) h
    simp [idx, h2]
  have hmap : ∀ q, q ∈ R → mapAt R.zipIdx q = .ok (idx q) := by
    intro q hq; unfold mapAt; rw [(hidx q hq).1]
  have hinitR : g.init ∈ R := (hmem _).2 ⟨[], rfl⟩
  -- final states
  obtain ⟨fs, f1, f2, f3⟩ := foldlM_inv
    (fun (pre fs : List Nat) => SSorted fs ∧ ∀ x, x ∈ fs ↔ ∃ q ∈ pre, q ∈ R ∧ idx q = x)
    (f := fun fs q => if R.contains q then do
        let q' ← mapAt R.zipIdx q
        pure (sinsert q' fs)
      else pure fs) g.finals (b := []) (by simp) (by
      intro pre q post fs hd ⟨e1, e2⟩
      by_cases hq : q ∈ R
      · rw [if_pos (by simpa using hq), hmap q hq, Res.bind_ok]
        refine ⟨_, rfl, sorted_sinsert e1, fun x => ?_⟩
        rw [mem_sinsert, e2 x]
        constructor
        · rintro (rfl | ⟨p, hp, h⟩)
          · exact ⟨q, by simp, hq, rfl⟩
          · exact ⟨p, by simp [hp], h⟩
        · rintro ⟨p, hp, h1, h2⟩
          rcases List.mem_append.1 hp with hp | hp
          · exact .inr ⟨p, hp, h1, h2⟩
          · simp at hp; subst hp; exact .inl h2.symm
      · rw [if_neg (by simpa using hq)]
        refine ⟨_, rfl, e1, fun x => ?_⟩
        rw [e2 x]
        constructor
        · rintro ⟨p, hp, h⟩; exact ⟨p, by simp [hp], h⟩
        · rintro ⟨p, hp, h1, h2⟩
          rcases List.mem_append.1 hp with hp | hp
          · exact ⟨p, hp, h1, h2⟩
          · simp at hp; subst hp; exact absurd h1 hq)
  -- transitions
  have hRget : ∀ i, i < R.length → R.getD i 0 ∈ R ∧ R[i]? = some (R.getD i 0) := by
    intro i hi
    have : R.getD i 0 = R[i] := by simp [hi]
    rw [this]; exact ⟨List.getElem_mem hi, List.getElem?_eq_getElem hi⟩
  obtain ⟨dl, d1, d2⟩ := foldlM_inv
    (fun (pre dl : List (Nat × Nat × Nat)) => dl = (List.range R.length).map (fun i =>
      if R.getD i 0 < pre.length then (i, idx (g.nx (R.getD i 0) false), idx (g.nx (R.getD i 0) true)) else (0, 0, 0)))
    (f := fun (d : List (Nat × Nat × Nat)) t =>
      if R.contains t.1 then do
        let q ← mapAt R.zipIdx t.1
        let q0 ← mapAt R.zipIdx t.2.1
        let q1 ← mapAt R.zipIdx t.2.2
        vset d q (q, q0, q1)
      else pure d) g.delta (b := List.replicate R.length (0, 0, 0)) (by rw [replicate_eq_map]; simp) (by
      intro pre t post dl hd e
      have hp : pre.length < g.size := by rw [size, hd]; simp
      have ht : t = (pre.length, g.nx pre.length false, g.nx pre.length true) := by
        rw [← hg.delta_getElem hp]
        simp [hd]
      subst ht
      dsimp only
      by_cases hq : pre.length ∈ R
      · have hr := (hmem _).1 hq
        have h0 := (hmem _).2 (hr.next false)
        have h1 := (hmem _).2 (hr.next true)
        rw [if_pos (by simpa using hq), hmap _ hq, Res.bind_ok, hmap _ h0, Res.bind_ok, hmap _ h1, Res.bind_ok, e, vset_map (hidxlt _ hq)]
        refine ⟨_, rfl, ?_⟩
        apply List.map_congr_left
        intro i hi
        have hi : i < R.length := by simpa using hi
        obtain ⟨k1, k2⟩ := hRget i hi
        by_cases hii : i = idx pre.length
        · have : R.getD i 0 = pre.length := by
            have := (hidx _ hq).2
            rw [← hii, k2] at this; simpa using this
          rw [if_pos hii, this, List.length_append, if_pos (by simp)]
          rw [hii]
        · have : R.getD i 0 ≠ pre.length := by
            intro h
            exact hii (by rw [← h]; exact (hidxi i _ k2).symm)
          rw [if_neg hii, List.length_append, List.length_singleton]
          by_cases hlt : R.getD i 0 < pre.length
          · rw [if_pos hlt, if_pos (by omega)]
          · rw [if_neg hlt, if_neg (by omega)]
      · rw [if_neg (by simpa using hq)]
        refine ⟨_, rfl, ?_⟩
        rw [e]
        apply List.map_congr_left
        intro i hi
        have hi : i < R.length := by simpa using hi
        obtain ⟨k1, k2⟩ := hRget i hi
        have : R.getD i 0 ≠ pre.length := by
          intro h; rw [h] at k1; exact hq k1
        rw [List.length_append, List.length_singleton]
        by_cases hlt : R.getD i 0 < pre.length
        · rw [if_pos hlt, if_pos (by omega)]
        · rw [if_neg hlt, if_neg (by omega)])
  have d3 : dl = (List.range R.length).map (fun i => (i, idx (g.nx (R.getD i 0) false), idx (g.nx (R.getD i 0) true))) := by
    rw [d2]
    apply List.map_congr_left
    intro i hi
    have hi : i < R.length := by simpa using hi
    have : R.getD i 0 < g.delta.length := hg.reach_lt ((hmem _).1 (hRget i hi).1)
    rw [if_pos this]
  have hnxR : ∀ i, i < R.length → ∀ b, g.nx (R.getD i 0) b ∈ R := fun i hi b =>
    (hmem _).2 (((hmem _).1 (hRget i hi).1).next b)
  obtain ⟨m, m1, m2, m3, m4, m5, m6, m7⟩ := make_wf (init := idx g.init) (n := R.length) (finals := fs)
    (f0 := fun i => idx (g.nx (R.getD i 0) false)) (f1 := fun i => idx (g.nx (R.getD i 0) true)) (hidxlt _ hinitR)
    (by intro x hx
        obtain ⟨q, _, h, rfl⟩ := (f3 x).1 hx
        exact hidxlt q h) f2
    (fun i hi => hidxlt _ (hnxR i hi _)) (fun i hi => hidxlt _ (hnxR i hi _))
  refine ⟨m, R, ?_, m2, m6, m3, hsorted, hmem, ?_, ?_, ?_⟩
  · unfold removedUnreachable
    rw [show g.initialState = g.init from rfl, s1, Res.bind_ok]
    dsimp only
    rw [hmap _ hinitR, Res.bind_ok, f1, Res.bind_ok, d1, Res.bind_ok, d3, m1]
  · rw [m4]; exact (hidx _ hinitR).2
  · intro i q h b
    have hi := (List.getElem?_eq_some_iff.1 h).1
    have hq : R.getD i 0 = q := by
      have := (hRget i hi).2; rw [h] at this; simpa using this.symm
    have hm := hnxR i hi b
    have : m.nx i b = idx (g.nx q b) := by
      rw [← hq]; cases b
      · exact (m7 i hi).1
      · exact (m7 i hi).2
    rw [this, (hidx _ (hq ▸ hm)).2]
  · intro i q h
    rw [Bool.eq_iff_iff]
    unfold fin
    rw [m5, decide_eq_true_eq, decide_eq_true_eq, f3]
    constructor
    · rintro ⟨p, hp, hpR, e⟩
      have := (hidx p hpR).2
      rw [e, h] at this
      have : q = p := by simpa using this
      exact this ▸ hp
    · intro hq
      exact ⟨q, hq, List.mem_of_getElem? h, hidxi i q h⟩

end Graph
end Homfa
