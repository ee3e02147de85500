import Verif.Model.Nfa
import Verif.Proof.Graph
import Mathlib.Data.List.Sublists
/-! Correctness of the subset construction. -/

namespace Homfa
open Spec

namespace FromNfa

/-- the successor list of a row -/
def sel (b : Bool) (t : Nat × List Nat × List Nat) : List Nat := if b then t.2.2 else t.2.1

/-- successor subset -/
def sstep (dn : NFADelta) (b : Bool) (S : List Nat) : List Nat :=
  S.foldl (fun r q => sinsertAll r (sel b (dn.getD q (0, [], [])))) []

/-- subset reached on a word -/
def runSet (dn : NFADelta) (S : List Nat) (w : List Bool) : List Nat := w.foldl (fun S b => sstep dn b S) S

theorem sstep_aux (dn : NFADelta) (b : Bool) (S r : List Nat) :
    (SSorted r → SSorted (S.foldl (fun r q => sinsertAll r (sel b (dn.getD q (0, [], [])))) r)) ∧
    ∀ x, x ∈ S.foldl (fun r q => sinsertAll r (sel b (dn.getD q (0, [], [])))) r ↔
      x ∈ r ∨ ∃ q ∈ S, tableStep dn q b x := by
  induction S generalizing r with
  | nil => simp
  | cons q S ih =>
    refine ⟨fun h => (ih _).1 (sorted_sinsertAll h), fun x => ?_⟩
    rw [List.foldl_cons, (ih _).2 x, mem_sinsertAll]
    have : x ∈ sel b (dn.getD q (0, [], [])) ↔ tableStep dn q b x := by
      unfold tableStep sel
      rw [List.getD_eq_getElem?_getD]
      cases h : dn[q]? <;> cases b <;> simp
    rw [this]
    simp only [List.mem_cons, exists_eq_or_imp]
    tauto

theorem sorted_sstep (dn : NFADelta) (b : Bool) (S : List Nat) : SSorted (sstep dn b S) :=
  (sstep_aux dn b S []).1 List.Pairwise.nil

theorem mem_sstep {dn : NFADelta} {b : Bool} {S : List Nat} {x : Nat} :
    x ∈ sstep dn b S ↔ ∃ q ∈ S, tableStep dn q b x := by
  rw [sstep, (sstep_aux dn b S []).2 x]; simp

theorem sorted_runSet {dn : NFADelta} {S : List Nat} (h : SSorted S) (w : List Bool) : SSorted (runSet dn S w) := by
  induction w generalizing S with
  | nil => exact h
  | cons b w ih => exact ih (sorted_sstep dn b S)

theorem mem_runSet {dn : NFADelta} {S : List Nat} {w : List Bool} {x : Nat} :
    x ∈ runSet dn S w ↔ ∃ p ∈ S, Path (tableStep dn) p w x := by
  induction w generalizing S with
  | nil =>
    constructor
    · intro h; exact ⟨x, h, .nil x⟩
    · rintro ⟨p, hp, h⟩; cases h; exact hp
  | cons b w ih =>
    show x ∈ runSet dn (sstep dn b S) w ↔ _
    rw [ih]
    constructor
    · rintro ⟨p, hp, h⟩
      obtain ⟨q, hq, hs⟩ := mem_sstep.1 hp
      exact ⟨q, hq, .cons hs h⟩
    · rintro ⟨p, hp, h⟩
      cases h with
      | cons hs h => exact ⟨_, mem_sstep.2 ⟨p, hp, hs⟩, h⟩

theorem runSet_snoc (dn : NFADelta) (S : List Nat) (w : List Bool) (b : Bool) :
    runSet dn S (w ++ [b]) = sstep dn b (runSet dn S w) := by
  simp [runSet]

theorem succs_ok {dn : NFADelta} {S : List Nat} (h : ∀ q ∈ S, q < dn.length) :
    succs dn S = .ok (sstep dn false S, sstep dn true S) := by
  unfold succs sstep
  suffices H : ∀ (a b : List Nat), S.foldlM (fun (r : List Nat × List Nat) q => do
      let t ← vat dn q
      pure (sinsertAll r.1 t.2.1, sinsertAll r.2 t.2.2)) (a, b) =
      (.ok (S.foldl (fun r q => sinsertAll r (sel false (dn.getD q (0, [], [])))) a,
        S.foldl (fun r q => sinsertAll r (sel true (dn.getD q (0, [], [])))) b) : Res _) from H [] []
  induction S with
  | nil => intro a b; rfl
  | cons q S ih =>
    intro a b
    have hq : q < dn.length := h q (by simp)
    rw [List.foldlM_cons, vat_lt hq]
    rw [Res.bind_ok, Res.pure_eq, Res.bind_ok, ih (fun q hq => h q (by simp [hq]))]
    simp [sel, List.getElem?_eq_getElem hq]

theorem succs_err {dn : NFADelta} {S : List Nat} (h : ∃ q ∈ S, dn.length ≤ q) :
    succs dn S = .error .outOfRange := by
  unfold succs
  suffices H : ∀ (r : List Nat × List Nat), S.foldlM (fun (r : List Nat × List Nat) q => do
      let t ← vat dn q
      pure (sinsertAll r.1 t.2.1, sinsertAll r.2 t.2.2)) r = (.error .outOfRange : Res _) from H ([], [])
  induction S with
  | nil => obtain ⟨q, hq, _⟩ := h; simp at hq
  | cons q S ih =>
    intro r
    rw [List.foldlM_cons]
    by_cases hq : q < dn.length
    · rw [vat_lt hq]
      simp only [Res.bind_ok, Res.pure_eq]
      apply ih
      obtain ⟨p, hp, hlt⟩ := h
      rcases List.mem_cons.1 hp with rfl | hp
      · omega
      · exact ⟨p, hp, hlt⟩
    · rw [vat_ge (by omega)]; rfl

theorem sublist_range_of_sorted {S : List Nat} {n : Nat} (hs : SSorted S) (hb : ∀ q ∈ S, q < n) :
    S.Sublist (List.range n) := by
  have h1 : S = (List.range n).filter (fun q => decide (q ∈ S)) := by
    apply SSorted.ext hs
    · exact (ssorted_range n).filter _
    · intro x; simp; exact hb x
  rw [h1]
  exact List.filter_sublist

theorem length_le_pow {V : List (List Nat)} {n : Nat} (hn : V.Nodup)
    (h : ∀ S ∈ V, SSorted S ∧ ∀ q ∈ S, q < n) : V.length ≤ 2 ^ n := by
  have h1 : V ⊆ (List.range n).sublists := by
    intro S hS
    exact List.mem_sublists.2 (sublist_range_of_sorted (h S hS).1 (h S hS).2)
  have := (List.subperm_of_subset hn h1).length_le
  simpa [List.length_sublists] using this

/-- Key/index map with keys `K`. -/
theorem lookup_zipIdx_some {K : List (List Nat)} {S : List Nat} {k i : Nat} (h : (K.zipIdx k).lookup S = some i) :
    k ≤ i ∧ K[i - k]? = some S := by
  induction K generalizing k with
  | nil => simp at h
  | cons T K ih =>
    rw [List.zipIdx_cons, List.lookup_cons] at h
    by_cases e : S = T
    · subst e; simp at h; subst h; simp
    · have : (S == T) = false := by simpa using e
      rw [this] at h
      obtain ⟨h1, h2⟩ := ih h
      refine ⟨by omega, ?_⟩
      have : i - k = (i - (k + 1)) + 1 := by omega
      rw [this]; simpa using h2

theorem lookup_zipIdx_none {K : List (List Nat)} {S : List Nat} {k : Nat} (h : (K.zipIdx k).lookup S = none) :
    S ∉ K := by
  induction K generalizing k with
  | nil => simp
  | cons T K ih =>
    rw [List.zipIdx_cons, List.lookup_cons] at h
    by_cases e : S = T
    · subst e; simp at h
    · have : (S == T) = false := by simpa using e
      rw [this] at h
      simp [e, ih h]

/-- The invariant of the work-list loop. `K` lists the subsets in creation order. -/
structure Inv (q0n fn : List Nat) (dn : NFADelta) (K : List (List Nat)) (s : St) : Prop where
  map : s.stMap = K.zipIdx
  nodupK : K.Nodup
  dfLen : s.df.length = K.length
  nodupV : s.visited.Nodup
  visK : ∀ S ∈ s.visited, S ∈ K
  pend : ∀ S ∈ K, S ∈ s.visited ∨ S ∈ s.que
  root : q0n ∈ s.visited ∨ q0n ∈ s.que
  first : K = [] ∨ K[0]? = some q0n
  firstQ : K = [] → s.que = [q0n]
  reachK : ∀ S ∈ K, ∃ w, S = runSet dn q0n w
  reachQ : ∀ S ∈ s.que, ∃ w, S = runSet dn q0n w
  bound : ∀ S ∈ s.visited, ∀ q ∈ S, q < dn.length
  dfv : ∀ (i : Nat) (S : List Nat), K[i]? = some S → S ∈ s.visited → ∃ j0 j1, s.df[i]? = some (some (j0, j1)) ∧
    K[j0]? = some (sstep dn false S) ∧ K[j1]? = some (sstep dn true S)
  ffS : SSorted s.ff
  ffm : ∀ i : Nat, i ∈ s.ff ↔ ∃ S, K[i]? = some S ∧ S ∈ s.visited ∧ ∃ q ∈ S, q ∈ fn

/-- What a call of `get_or_create_state` does to the key list. -/
theorem getOrCreate_spec {s : St} {K : List (List Nat)} (hm : s.stMap = K.zipIdx) (hn : K.Nodup)
    (hl : s.df.length = K.length) (S : List Nat) :
    ∃ K' l i, getOrCreate s S = (i, { s with stMap := K'.zipIdx, df := s.df ++ List.replicate l none }) ∧
      K' = K ++ (if S ∈ K then [] else [S]) ∧ l = (if S ∈ K then 0 else 1) ∧ K'.Nodup ∧ (s.df.length + l = K'.length) ∧ K'[i]? = some S := by
  unfold getOrCreate
  cases h : s.stMap.lookup S with
  | some i =>
    rw [hm] at h
    have := (lookup_zipIdx_some h).2
    have hmem : S ∈ K := List.mem_of_getElem? this
    refine ⟨K, 0, i, ?_, by simp [hmem], by simp [hmem], hn, by simpa using hl, by simpa using this⟩
    simp [← hm]
  | none =>
    rw [hm] at h
    have hmem := lookup_zipIdx_none h
    refine ⟨K ++ [S], 1, s.df.length, ?_, by simp [hmem], by simp [hmem], ?_, by simp [hl], ?_⟩
    · simp [hm, List.zipIdx_append, hl]
    · rw [List.nodup_append]
      refine ⟨hn, by simp, ?_⟩
      intro a ha b hb
      simp at hb; subst hb
      intro e; exact hmem (e ▸ ha)
    · rw [hl]; simp

theorem mem_add {K : List (List Nat)} {S T : List Nat} : T ∈ K ++ (if S ∈ K then [] else [S]) ↔ T ∈ K ∨ T = S := by
  by_cases h : S ∈ K
  · simp [h]; rintro rfl; exact h
  · simp [h]

theorem idx_inj {K : List (List Nat)} (hn : K.Nodup) {k k' : Nat} {T : List Nat}
    (h : K[k]? = some T) (h' : K[k']? = some T) : k = k' := by
  obtain ⟨h1, h2⟩ := List.getElem?_eq_some_iff.1 h
  obtain ⟨h3, h4⟩ := List.getElem?_eq_some_iff.1 h'
  exact (List.Nodup.getElem_inj_iff hn).1 (h2.trans h4.symm)

theorem body_spec {q0n fn : List Nat} {dn : NFADelta} {K : List (List Nat)} {s : St} (hI : Inv q0n fn dn K s)
    (hq0 : SSorted q0n) (hc : (!s.que.isEmpty) = true) :
    (∃ s', body fn dn s = .ok s' ∧ (∃ K', Inv q0n fn dn K' s') ∧
      s'.que.length + 2 * (2 ^ dn.length - s'.visited.length) < s.que.length + 2 * (2 ^ dn.length - s.visited.length)) ∨
    (∃ e, body fn dn s = .error e ∧ e = .outOfRange ∧ ∃ w, ∃ q ∈ runSet dn q0n w, dn.length ≤ q) := by
  cases hq : s.que with
  | nil => simp [hq] at hc
  | cons S rest =>
    by_cases hv : S ∈ s.visited
    · left
      refine ⟨{ s with que := rest }, ?_, ⟨K, ?_⟩, by simp⟩
      · simp [body, hq, hv]
      · refine { hI with pend := ?_, root := ?_, firstQ := ?_, reachQ := ?_ }
        · intro T hT
          rcases hI.pend T hT with h | h
          · exact .inl h
          · rw [hq] at h
            rcases List.mem_cons.1 h with rfl | h
            · exact .inl hv
            · exact .inr h
        · rcases hI.root with h | h
          · exact .inl h
          · rw [hq] at h
            rcases List.mem_cons.1 h with rfl | h
            · exact .inl hv
            · exact .inr h
        · intro h
          have := hI.visK S hv
          simp [h] at this
        · intro T hT; exact hI.reachQ T (by rw [hq]; simp [hT])
    · obtain ⟨w, hw⟩ := hI.reachQ S (by rw [hq]; simp)
      by_cases hb : ∀ q ∈ S, q < dn.length
      · left
        have hV : s.visited.length < 2 ^ dn.length := by
          have : (S :: s.visited).length ≤ 2 ^ dn.length := by
            apply length_le_pow (List.nodup_cons.2 ⟨hv, hI.nodupV⟩)
            intro T hT
            rcases List.mem_cons.1 hT with rfl | hT
            · exact ⟨hw ▸ sorted_runSet hq0 w, hb⟩
            · obtain ⟨w', hw'⟩ := hI.reachK T (hI.visK T hT)
              exact ⟨hw' ▸ sorted_runSet hq0 w', hI.bound T hT⟩
          simp at this; omega
        obtain ⟨K1, l1, i, e1, d1, g1, n1, m1, a1⟩ := getOrCreate_spec (s := { s with que := rest }) hI.map hI.nodupK hI.dfLen S
        obtain ⟨K2, l2, j0, e2, d2, g2, n2, m2, a2⟩ := getOrCreate_spec
          (s := { s with que := rest, stMap := K1.zipIdx, df := s.df ++ List.replicate l1 none }) rfl n1 (by simpa using m1) (sstep dn false S)
        obtain ⟨K3, l3, j1, e3, d3, g3, n3, m3, a3⟩ := getOrCreate_spec
          (s := { s with que := rest, stMap := K2.zipIdx, df := s.df ++ List.replicate l1 none ++ List.replicate l2 none }) rfl n2 (by simp at m2 ⊢; omega) (sstep dn true S)
        have p12 : K1 <+: K2 := ⟨_, d2.symm⟩
        have p23 : K2 <+: K3 := ⟨_, d3.symm⟩
        have p01 : K <+: K1 := ⟨_, d1.symm⟩
        have up : ∀ {A B : List (List Nat)} {k : Nat} {T : List Nat}, A <+: B → A[k]? = some T → B[k]? = some T := by
          intro A B k T hp h
          obtain ⟨C, rfl⟩ := hp
          obtain ⟨h1, h2⟩ := List.getElem?_eq_some_iff.1 h
          rw [List.getElem?_append_left h1]; exact h
        have A1 : K3[i]? = some S := up p23 (up p12 a1)
        have A2 : K3[j0]? = some (sstep dn false S) := up p23 a2
        have A3 : K3[j1]? = some (sstep dn true S) := a3
        have hlen : (s.df ++ List.replicate l1 none ++ List.replicate l2 none ++ List.replicate l3 none).length = K3.length := by
          simp at m3 ⊢; omega
        have hi : i < (s.df ++ List.replicate l1 none ++ List.replicate l2 none ++ List.replicate l3 none).length := by
          rw [hlen]; exact (List.getElem?_eq_some_iff.1 A1).1
        have mem3 : ∀ T, T ∈ K3 ↔ T ∈ K ∨ T = S ∨ T = sstep dn false S ∨ T = sstep dn true S := by
          intro T
          rw [d3, mem_add, d2, mem_add, d1, mem_add, or_assoc, or_assoc]
        have inj : ∀ {k k' : Nat} {T : List Nat}, K3[k]? = some T → K3[k']? = some T → k = k' := idx_inj n3
        have r0 : ∀ b, ∃ w, sstep dn b S = runSet dn q0n w := fun b => ⟨w ++ [b], by rw [runSet_snoc, ← hw]⟩
        have K0 : K = [] → S = q0n := by
          intro h
          have := hI.firstQ h
          rw [hq] at this; simp at this; exact this.1
        -- entries of the old vector
        have old : ∀ (k : Nat) (T : List Nat), K3[k]? = some T → T ∈ s.visited → K[k]? = some T := by
          intro k T h hT
          obtain ⟨k', h1, h2⟩ := List.getElem_of_mem (hI.visK T hT)
          have h3 : K[k']? = some T := by rw [List.getElem?_eq_getElem h1, h2]
          have := inj h (up p23 (up p12 (up p01 h3)))
          rw [this]; exact h3
        refine ⟨{ s with
            stMap := K3.zipIdx
            df := (s.df ++ List.replicate l1 none ++ List.replicate l2 none ++ List.replicate l3 none).set i (some (j0, j1))
            visited := s.visited ++ [S]
            ff := if S.any (fun q => fn.contains q) then sinsert i s.ff else s.ff
            que := rest ++ [sstep dn false S, sstep dn true S] }, ?_, ⟨K3, ?_⟩, ?_⟩
        · have hv' : s.visited.contains S = false := by simpa using hv
          simp only [body, hq, hv', Bool.false_eq_true, if_false, succs_ok hb, Res.bind_ok, e1, e2, e3]
          rw [vset_lt hi]
          rfl
        · constructor
          · rfl
          · exact n3
          · simp at hlen ⊢; exact hlen
          · show (s.visited ++ [S]).Nodup
            rw [List.nodup_append]
            exact ⟨hI.nodupV, by simp, by intro a ha b hb e; simp at hb; subst hb; subst e; exact hv ha⟩
          · intro T hT
            rcases List.mem_append.1 hT with h | h
            · exact (mem3 T).2 (.inl (hI.visK T h))
            · simp at h; exact (mem3 T).2 (.inr (.inl h))
          · intro T hT
            show T ∈ s.visited ++ [S] ∨ T ∈ rest ++ _
            simp only [List.mem_append, List.mem_cons, List.not_mem_nil, or_false]
            rcases (mem3 T).1 hT with h | h | h | h
            · rcases hI.pend T h with h | h
              · exact .inl (.inl h)
              · rw [hq] at h; simp at h
                rcases h with h | h
                · exact .inl (.inr h)
                · exact .inr (.inl h)
            · exact .inl (.inr h)
            · exact .inr (.inr (.inl h))
            · exact .inr (.inr (.inr h))
          · show q0n ∈ s.visited ++ [S] ∨ q0n ∈ rest ++ _
            simp only [List.mem_append, List.mem_cons, List.not_mem_nil, or_false]
            rcases hI.root with h | h
            · exact .inl (.inl h)
            · rw [hq] at h; simp at h
              rcases h with h | h
              · exact .inl (.inr h)
              · exact .inr (.inl h)
          · right
            rcases hI.first with h | h
            · have h1 := K0 h
              subst h
              have : K1 = [S] := by rw [d1]; simp
              have : K1[0]? = some S := by rw [this]; rfl
              rw [← h1]; exact up p23 (up p12 this)
            · exact up p23 (up p12 (up p01 h))
          · intro h; rw [h] at A1; simp at A1
          · intro T hT
            rcases (mem3 T).1 hT with h | h | h | h
            · exact hI.reachK T h
            · exact ⟨w, h ▸ hw⟩
            · rw [h]; exact r0 false
            · rw [h]; exact r0 true
          · intro T hT
            have hT : T ∈ rest ∨ T = sstep dn false S ∨ T = sstep dn true S := by simpa using hT
            rcases hT with h | h | h
            · exact hI.reachQ T (by rw [hq]; simp [h])
            · rw [h]; exact r0 false
            · rw [h]; exact r0 true
          · intro T hT
            rcases List.mem_append.1 hT with h | h
            · exact hI.bound T h
            · simp at h; subst h; exact hb
          · intro k T h hT
            by_cases hk : k = i
            · subst hk
              have : T = S := by rw [A1] at h; simpa using h.symm
              subst this
              exact ⟨j0, j1, List.getElem?_set_self hi, A2, A3⟩
            · have hTS : T ≠ S := by rintro rfl; exact hk (inj h A1)
              have hTv : T ∈ s.visited := by
                rcases List.mem_append.1 hT with h | h
                · exact h
                · simp at h; exact absurd h hTS
              have hKT := old k T h hTv
              obtain ⟨x0, x1, y0, y1, y2⟩ := hI.dfv k T hKT hTv
              refine ⟨x0, x1, ?_, up p23 (up p12 (up p01 y1)), up p23 (up p12 (up p01 y2))⟩
              show (List.set _ i _)[k]? = _
              rw [List.getElem?_set_ne (Ne.symm hk)]
              have hks : k < s.df.length := (List.getElem?_eq_some_iff.1 y0).1
              rw [List.append_assoc, List.append_assoc, List.getElem?_append_left hks]; exact y0
          · show SSorted (if _ then _ else _)
            split
            · exact sorted_sinsert hI.ffS
            · exact hI.ffS
          · intro k
            have hold : k ∈ s.ff ↔ ∃ T, K3[k]? = some T ∧ T ∈ s.visited ∧ ∃ q ∈ T, q ∈ fn := by
              rw [hI.ffm k]
              constructor
              · rintro ⟨T, h1, h2⟩; exact ⟨T, up p23 (up p12 (up p01 h1)), h2⟩
              · rintro ⟨T, h1, h2, h3⟩; exact ⟨T, old k T h1 h2, h2, h3⟩
            show k ∈ (if S.any (fun q => fn.contains q) = true then _ else _) ↔ ∃ T, K3[k]? = some T ∧ T ∈ s.visited ++ [S] ∧ _
            have hnew : (∃ T, K3[k]? = some T ∧ T ∈ s.visited ++ [S] ∧ ∃ q ∈ T, q ∈ fn) ↔
                k ∈ s.ff ∨ (k = i ∧ ∃ q ∈ S, q ∈ fn) := by
              rw [hold]
              constructor
              · rintro ⟨T, h1, h2, h3⟩
                rcases List.mem_append.1 h2 with h | h
                · exact .inl ⟨T, h1, h, h3⟩
                · simp at h; subst h; exact .inr ⟨inj h1 A1, h3⟩
              · rintro (⟨T, h1, h2, h3⟩ | ⟨rfl, h3⟩)
                · exact ⟨T, h1, by simp [h2], h3⟩
                · exact ⟨S, A1, by simp, h3⟩
            rw [hnew]
            split
            · rename_i h
              have h : ∃ q ∈ S, q ∈ fn := by simpa using h
              rw [mem_sinsert, or_comm, and_iff_left h]
            · rename_i h
              have h : ¬ ∃ q ∈ S, q ∈ fn := by simpa using h
              rw [iff_false_intro (fun hh : k = i ∧ ∃ q ∈ S, q ∈ fn => h hh.2), or_false]
        · simp only [List.length_append, List.length_cons, List.length_nil]
          omega
      · right
        have hb' : ∃ q ∈ S, dn.length ≤ q := by
          by_contra h
          apply hb
          intro q hq
          by_contra hlt
          exact h ⟨q, hq, by omega⟩
        refine ⟨.outOfRange, ?_, rfl, w, ?_⟩
        · have hv' : s.visited.contains S = false := by simpa using hv
          simp only [body, hq, hv', Bool.false_eq_true, if_false, succs_err hb']
          rfl
        · rw [← hw]; exact hb'

/-- The result of `from_nfa`. -/
theorem fromNfa_spec {q0n fn : List Nat} {dn : NFADelta} (hq0 : SSorted q0n) :
    (∃ (g : Graph) (K : List (List Nat)), Graph.fromNfa q0n fn dn = .ok g ∧ g.WF ∧ g.statesAtDepth = [] ∧ g.init = 0 ∧ g.size = K.length ∧ K.Nodup ∧
      K[0]? = some q0n ∧ (∀ S ∈ K, ∃ w, S = runSet dn q0n w) ∧ (∀ S ∈ K, ∀ q ∈ S, q < dn.length) ∧
      (∀ i S, K[i]? = some S → ∀ b, K[g.nx i b]? = some (sstep dn b S)) ∧
      (∀ (i : Nat) S, K[i]? = some S → (g.fin i = true ↔ ∃ q ∈ S, q ∈ fn))) ∨
    (Graph.fromNfa q0n fn dn = .error .outOfRange ∧ ∃ w, ∃ q ∈ runSet dn q0n w, dn.length ≤ q) := by
  have hinit : Inv q0n fn dn [] { stMap := [], df := [], ff := [], visited := [], que := [q0n] } := by
    constructor <;> simp
    exact ⟨[], rfl⟩
  rcases whileM_inv_err (cond := fun s : St => !s.que.isEmpty) (body := body fn dn) (fun s => ∃ K, Inv q0n fn dn K s)
    (fun e => e = .outOfRange ∧ ∃ w, ∃ q ∈ runSet dn q0n w, dn.length ≤ q)
    (fun s => s.que.length + 2 * (2 ^ dn.length - s.visited.length))
    (by intro s _ hc
        cases h : s.que with
        | nil => simp [h] at hc
        | cons a b => simp; omega)
    (by rintro s ⟨K, hI⟩ hc; exact body_spec hI hq0 hc)
    (fuel := 2 ^ (dn.length + 1) + 1) (s := { stMap := [], df := [], ff := [], visited := [], que := [q0n] })
    ⟨[], hinit⟩ (by simp [Nat.pow_succ]; omega) with ⟨s, hrun, ⟨K, hI⟩, hend⟩ | ⟨e, hrun, he, hbad⟩
  · left
    have hq : s.que = [] := by simpa using hend
    have hroot : q0n ∈ K := by
      rcases hI.root with h | h
      · exact hI.visK _ h
      · rw [hq] at h; simp at h
    have hvis : ∀ S ∈ K, S ∈ s.visited := by
      intro S hS
      rcases hI.pend S hS with h | h
      · exact h
      · rw [hq] at h; simp at h
    have hK0 : K[0]? = some q0n := by
      rcases hI.first with h | h
      · rw [h] at hroot; simp at hroot
      · exact h
    have hlook : s.stMap.lookup q0n = some 0 := by
      rw [hI.map]
      cases K with
      | nil => simp at hK0
      | cons a K => simp at hK0; subst hK0; simp
    have hget : getOrCreate s q0n = (0, s) := by simp [getOrCreate, hlook]
    -- successor index
    let f : Bool → Nat → Nat := fun b i => match s.df[i]? with
      | some (some (a, c)) => if b then c else a
      | _ => 0
    have hdf : ∀ i S, K[i]? = some S → s.df[i]? = some (some (f false i, f true i)) ∧
        ∀ b, K[f b i]? = some (sstep dn b S) := by
      intro i S h
      obtain ⟨j0, j1, h1, h2, h3⟩ := hI.dfv i S h (hvis S (List.mem_of_getElem? h))
      refine ⟨by simp [f, h1], ?_⟩
      intro b; cases b
      · simpa [f, h1] using h2
      · simpa [f, h1] using h3
    have hfin : finishDelta s.df = .ok ((List.range K.length).map (fun q => (q, f false q, f true q))) := by
      unfold finishDelta
      rw [mapM_eq_ok]
      refine ⟨by simp [hI.dfLen], ?_⟩
      intro i h h'
      have hi : i < K.length := by simpa using h'
      have hKi : K[i]? = some K[i] := List.getElem?_eq_getElem hi
      have := (hdf i _ hKi).1
      obtain ⟨h1, h2⟩ := List.getElem?_eq_some_iff.1 this
      simp [h2]
    have hlt : ∀ b, ∀ q < K.length, f b q < K.length := by
      intro b q hq
      exact (List.getElem?_eq_some_iff.1 ((hdf q _ (List.getElem?_eq_getElem hq)).2 b)).1
    obtain ⟨g, hg, hwf, hsz, hin, hfi, hsd, hnx⟩ := Graph.make_wf (init := 0) (n := K.length) (finals := s.ff)
      (f0 := f false) (f1 := f true) (List.getElem?_eq_some_iff.1 hK0).1
      (by intro q hq
          obtain ⟨S, h1, _⟩ := (hI.ffm q).1 hq
          exact (List.getElem?_eq_some_iff.1 h1).1) hI.ffS (hlt false) (hlt true)
    refine ⟨g, K, ?_, hwf, hsd, hin, hsz, hI.nodupK, hK0, hI.reachK, fun S hS => hI.bound S (hvis S hS), ?_, ?_⟩
    · unfold Graph.fromNfa
      rw [hrun, Res.bind_ok, hget]
      show (finishDelta s.df >>= fun delta => Graph.make 0 s.ff delta) = _
      rw [hfin, Res.bind_ok, hg]
    · intro i S h b
      have hi := (List.getElem?_eq_some_iff.1 h).1
      have : g.nx i b = f b i := by cases b; exact (hnx i hi).1; exact (hnx i hi).2
      rw [this]; exact (hdf i S h).2 b
    · intro i S h
      simp only [Graph.fin, hfi, decide_eq_true_eq, hI.ffm i]
      constructor
      · rintro ⟨T, h1, _, h3⟩
        rw [h] at h1; simp at h1; subst h1; exact h3
      · intro h3; exact ⟨S, h, hvis S (List.mem_of_getElem? h), h3⟩
  · right
    refine ⟨?_, hbad⟩
    unfold Graph.fromNfa
    rw [hrun, he]; rfl

/-- No run leaves the table. -/
def InRange (q0n : List Nat) (dn : NFADelta) : Prop :=
  ∀ p ∈ q0n, ∀ (w : List Bool) (q : Nat), Path (tableStep dn) p w q → q < dn.length

/-- Success case of `from_nfa`. -/
theorem fromNfa_good {q0n fn : List Nat} {dn : NFADelta} (hq0 : SSorted q0n) {g : Graph}
    (hok : Graph.fromNfa q0n fn dn = .ok g) :
    g.WF ∧ g.statesAtDepth = [] ∧ g.init = 0 ∧ g.size ≤ 2 ^ dn.length ∧ InRange q0n dn ∧
    (∀ q < g.size, ∃ w : List Bool, w.foldl g.nx g.init = q) ∧
    (∀ u v : List Bool, u.foldl g.nx g.init = v.foldl g.nx g.init ↔ runSet dn q0n u = runSet dn q0n v) ∧
    (∀ w, g.dfa.accepts w = true ↔ NfaAccepts (· ∈ q0n) (· ∈ fn) (tableStep dn) w) := by
  rcases fromNfa_spec (fn := fn) (dn := dn) hq0 with
    ⟨r, K, h1, hwf, hsd, hin, hsz, hnd, hK0, hreach, hbd, hnx, hfin⟩ | ⟨h, _⟩
  · rw [hok] at h1; cases h1
    have hrun : ∀ w : List Bool, K[w.foldl g.nx g.init]? = some (runSet dn q0n w) := by
      intro w
      induction w using List.reverseRecOn with
      | nil => rw [hin]; exact hK0
      | append_singleton w b ih =>
        rw [runSet_snoc, List.foldl_append]
        exact hnx _ _ ih b
    refine ⟨hwf, hsd, hin, ?_, ?_, ?_, ?_, ?_⟩
    · rw [hsz]
      refine length_le_pow hnd (fun S hS => ⟨?_, hbd S hS⟩)
      obtain ⟨w, rfl⟩ := hreach S hS
      exact sorted_runSet hq0 w
    · intro p hp w q hpath
      exact hbd _ (List.mem_of_getElem? (hrun w)) q (mem_runSet.2 ⟨p, hp, hpath⟩)
    · intro q hq
      rw [hsz] at hq
      obtain ⟨w, hw⟩ := hreach K[q] (List.getElem_mem hq)
      refine ⟨w, idx_inj hnd (hrun w) ?_⟩
      rw [List.getElem?_eq_getElem hq, hw]
    · intro u v
      constructor
      · intro h
        have := hrun u
        rw [h, hrun v] at this
        simpa using this.symm
      · intro h
        exact idx_inj hnd (hrun u) (h ▸ hrun v)
    · intro w
      have e1 : g.dfa.accepts w = true ↔ ∃ q ∈ runSet dn q0n w, q ∈ fn := hfin _ _ (hrun w)
      rw [e1]
      constructor
      · rintro ⟨q, hq, hf⟩
        obtain ⟨p, hp, hpath⟩ := mem_runSet.1 hq
        exact ⟨p, q, hp, hpath, hf⟩
      · rintro ⟨p, q, hp, hpath, hf⟩
        exact ⟨q, mem_runSet.2 ⟨p, hp, hpath⟩, hf⟩
  · rw [hok] at h; simp at h

theorem fromNfa_total {q0n fn : List Nat} {dn : NFADelta} (hq0 : SSorted q0n) :
    ((∃ g, Graph.fromNfa q0n fn dn = .ok g) ∧ InRange q0n dn) ∨
    (Graph.fromNfa q0n fn dn = .error .outOfRange ∧ ¬ InRange q0n dn) := by
  rcases fromNfa_spec (fn := fn) (dn := dn) hq0 with ⟨g, K, h1, _⟩ | ⟨h, w, q, hq, hlt⟩
  · exact .inl ⟨⟨g, h1⟩, (fromNfa_good hq0 h1).2.2.2.2.1⟩
  · refine .inr ⟨h, fun hr => ?_⟩
    obtain ⟨p, hp, hpath⟩ := mem_runSet.1 hq
    have := hr p hp w q hpath
    omega

end FromNfa
end Homfa
