import Verif.Model.Ltl
import Verif.Proof.Cpp
/-!
# The rows of the table of a formula are numbered
-/

namespace Homfa.Ltl

/-- The row at position `i` is about state `i`. -/
def Numbered (D : NFADelta) : Prop := ∀ (i : Nat) (t : Nat × List Nat × List Nat), D[i]? = some t → t.1 = i

theorem Numbered.snoc {D : NFADelta} (h : Numbered D) (a b : List Nat) : Numbered (D ++ [(D.length, a, b)]) := by
  intro i t ht
  rw [List.getElem?_append] at ht
  split at ht
  · exact h i t ht
  · next hi =>
    rcases Nat.eq_or_lt_of_le (Nat.le_of_not_lt hi) with he | hl
    · subst he
      simp at ht
      rw [← ht]
    · rw [List.getElem?_eq_none (by simp; omega)] at ht
      cases ht

theorem Numbered.chain {D : NFADelta} (h : Numbered D) (cq n : Nat) : Numbered (chain D cq n).1 := by
  induction n generalizing D cq with
  | zero => exact h
  | succ n ih => exact ih (h.snoc _ _) _

theorem Numbered.expGet {s : ExpSt} (h : Numbered s.delta) (rq : Nat) : Numbered (expGet s rq).2.delta := by
  unfold Ltl.expGet
  split
  · exact h
  · exact h.snoc _ _

theorem vat_eq {α : Type} {v : List α} {i : Nat} {x : α} (h : vat v i = .ok x) : v[i]? = some x := by
  unfold vat at h
  split at h
  · next e => cases h; exact e
  · cases h

theorem Numbered.pushRow {bit : Bool} {D D' : NFADelta} {q x : Nat} (h : Numbered D) (e : pushRow bit D q x = .ok D') : Numbered D' := by
  unfold Ltl.pushRow at e
  obtain ⟨t, h1, e⟩ := Res.bind_eq_ok.1 e
  have ht := h q t (vat_eq h1)
  obtain ⟨_, rfl⟩ := vset_eq_ok.1 e
  intro i u hu
  rw [List.getElem?_set] at hu
  split at hu
  · next hq =>
    subst hq
    rw [← Option.some.inj hu]
    cases bit <;> exact ht
  · exact h i u hu

variable {ix : List (Nat × Nat)} {rev : List (List Nat × List Nat × Bdd)}

theorem Numbered.parentStep {c q p : Nat} {bit : Bool} {s s' : ExpSt} (h : Numbered s.delta) (e : parentStep ix rev c q bit s p = .ok s') : Numbered s'.delta := by
  unfold Ltl.parentStep at e
  obtain ⟨_, _, e⟩ := Res.bind_eq_ok.1 e
  obtain ⟨_, _, e⟩ := Res.bind_eq_ok.1 e
  obtain ⟨_, _, e⟩ := Res.bind_eq_ok.1 e
  dsimp only at e
  obtain ⟨D, h1, e⟩ := Res.bind_eq_ok.1 e
  cases e
  exact Numbered.pushRow (Numbered.expGet (s := { s with delta := _ }) (h.chain _ _) _) h1

theorem Numbered.parents {c q : Nat} {bit : Bool} : ∀ {l : List Nat} {s s' : ExpSt}, Numbered s.delta → l.foldlM (Ltl.parentStep ix rev c q bit) s = .ok s' → Numbered s'.delta := by
  intro l
  induction l with
  | nil => intro s s' h e; cases e; exact h
  | cons x l ih =>
    intro s s' h e
    rw [List.foldlM_cons] at e
    obtain ⟨s1, h1, e⟩ := Res.bind_eq_ok.1 e
    exact ih (h.parentStep h1) e

theorem Numbered.expNode {a b c : Nat} {s s' : ExpSt} (h : Numbered s.delta) (e : expNode ix rev a b c s = .ok s') : Numbered s'.delta := by
  unfold Ltl.expNode at e
  obtain ⟨x, _, e⟩ := Res.bind_eq_ok.1 e
  dsimp only at e
  split at e
  · obtain ⟨_, _, e⟩ := Res.bind_eq_ok.1 e
    cases e; exact h
  · split at e
    · obtain ⟨_, _, e⟩ := Res.bind_eq_ok.1 e
      cases e; exact h.chain _ _
    · obtain ⟨s1, h1, e⟩ := Res.bind_eq_ok.1 e
      exact (h.parents h1).parents e

theorem Numbered.expBody {s s' : ExpSt} (h : Numbered s.delta) (e : expBody ix rev s = .ok s') : Numbered s'.delta := by
  unfold Ltl.expBody at e
  split at e
  · cases e; exact h
  · split at e
    · cases e; exact h
    · refine Numbered.expNode ?_ e
      exact h

theorem Numbered.addSrc {D D' : NFADelta} {a b : Nat} (h : Numbered D) (e : addSrc D a b = .ok D') : Numbered D' := by
  unfold Ltl.addSrc at e
  obtain ⟨t, _, e⟩ := Res.bind_eq_ok.1 e
  obtain ⟨_, _, e⟩ := Res.bind_eq_ok.1 e
  obtain ⟨D1, h1, e⟩ := Res.bind_eq_ok.1 e
  have hD1 : Numbered D1 := by
    split at h1
    · obtain ⟨_, _, h1⟩ := Res.bind_eq_ok.1 h1
      exact h.pushRow h1
    · cases h1; exact h
  split at e
  · obtain ⟨_, _, e⟩ := Res.bind_eq_ok.1 e
    exact hD1.pushRow e
  · cases e; exact hD1

theorem Numbered.expandEdge {n src : Nat} {D D' : NFADelta} {x : Bdd × Nat} (h : Numbered D) (e : expandEdge ix n src D x = .ok D') : Numbered D' := by
  unfold Ltl.expandEdge at e
  obtain ⟨r, _, e⟩ := Res.bind_eq_ok.1 e
  obtain ⟨t, _, e⟩ := Res.bind_eq_ok.1 e
  obtain ⟨s, h1, e⟩ := Res.bind_eq_ok.1 e
  have hs : Numbered s.delta := (whileM_ok_inv (fun s : ExpSt => Numbered s.delta) (fun s s' hs _ hb => hs.expBody hb) (by exact h) h1).1
  split at e
  · cases e
  · exact hs.addSrc e

theorem nfaTuple_numbered {M : Monitor} {n : Nat} {allFinal : Bool} {t : List Nat × List Nat × NFADelta} (e : nfaTuple M n allFinal = .ok t) : Numbered t.2.2 := by
  unfold nfaTuple at e
  dsimp only at e
  obtain ⟨D, h1, e⟩ := Res.bind_eq_ok.1 e
  cases e
  refine foldlM_ok_inv (fun _ D => Numbered D) h1 ?_ ?_
  · intro i t ht
    rw [List.getElem?_map] at ht
    obtain ⟨j, hj, rfl⟩ := Option.map_eq_some_iff.1 ht
    obtain ⟨hi, hj⟩ := List.getElem?_eq_some_iff.1 hj
    rw [← hj, List.getElem_range]
  · intro pre p post D D' _ hD hf
    exact foldlM_ok_inv (fun _ D => Numbered D) hf hD (fun pre x post D D' _ hD hf => hD.expandEdge hf)

end Homfa.Ltl
