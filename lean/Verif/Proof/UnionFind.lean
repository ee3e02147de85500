import Verif.Model.Minimize
import Verif.Proof.Graph
import Mathlib.Data.List.Basic
import Mathlib.Data.List.Induction
/-! Union-find with path compression: the forest invariant. -/

namespace Homfa
namespace UnionFind

/-- Forest invariant: `r` is the representative function, `d` decreases along parent links. -/
structure Inv (g : List Nat) (r d : Nat → Nat) : Prop where
  lt : ∀ x, x < g.length → g.getD x 0 < g.length
  rep_lt : ∀ x, x < g.length → r x < g.length
  rep_par : ∀ x, x < g.length → r (g.getD x 0) = r x
  rep_root : ∀ x, x < g.length → g.getD (r x) 0 = r x
  root : ∀ x, x < g.length → g.getD x 0 = x → r x = x
  dec : ∀ x, x < g.length → g.getD x 0 ≠ x → d (g.getD x 0) < d x

theorem getD_lt {g : List Nat} {x : Nat} (h : x < g.length) : g.getD x 0 = g[x] := by
  simp [List.getElem?_eq_getElem h]

theorem getD_set {g : List Nat} {x y v : Nat} (h : x < g.length) :
    (g.set x v).getD y 0 = if y = x then v else g.getD y 0 := by
  simp only [List.getD_eq_getElem?_getD, List.getElem?_set]
  by_cases hxy : x = y
  · subst hxy; simp [h]
  · rw [if_neg hxy, if_neg (Ne.symm hxy)]

theorem new_inv (n : Nat) : Inv (new n) id id := by
  have hl : (new n).length = n := by simp [new]
  have hg : ∀ x, x < n → (new n).getD x 0 = x := by
    intro x hx; rw [getD_lt (by rw [hl]; exact hx)]; simp [new]
  constructor <;> intro x hx
  · rw [hl] at *; rw [hg x hx]; exact hx
  · exact hx
  · rw [hl] at *; rw [hg x hx]
  · rw [hl] at *; exact hg _ hx
  · intro _; rfl
  · rw [hl] at *; rw [hg x hx]; intro h; exact absurd rfl h

namespace Inv
variable {g : List Nat} {r d : Nat → Nat} (h : Inv g r d)
include h

theorem rep_rep {x : Nat} (hx : x < g.length) : r (r x) = r x := h.root _ (h.rep_lt x hx) (h.rep_root x hx)

theorem root_iff {x : Nat} (hx : x < g.length) : g.getD x 0 = x ↔ r x = x :=
  ⟨h.root x hx, fun e => by have := h.rep_root x hx; rwa [e] at this⟩

theorem d_rep {x : Nat} (hx : x < g.length) : r x ≠ x → d (r x) < d x := by
  induction hd : d x using Nat.strongRecOn generalizing x with
  | ind k ih =>
    intro hne
    have hp : g.getD x 0 ≠ x := fun e => hne (h.root x hx e)
    have h1 := h.dec x hx hp
    by_cases hr : r (g.getD x 0) = g.getD x 0
    · rw [← h.rep_par x hx, hr, ← hd]; exact h1
    · have := ih (d (g.getD x 0)) (by omega) (h.lt x hx) rfl hr
      rw [h.rep_par x hx] at this; omega

/-- A rank below the number of elements always exists. -/
theorem exists_rank : ∃ d', Inv g r d' ∧ ∀ x, x < g.length → d' x < g.length := by
  refine ⟨fun x => ((List.range g.length).filter (fun y => decide (d y < d x))).length,
    ⟨h.lt, h.rep_lt, h.rep_par, h.rep_root, h.root, ?_⟩, ?_⟩
  · intro x hx hne
    have h1 := h.dec x hx hne
    have hsub : ((List.range g.length).filter (fun y => decide (d y < d (g.getD x 0)))).Sublist
        ((List.range g.length).filter (fun y => decide (d y < d x))) := by
      have : (fun y => decide (d y < d (g.getD x 0))) = fun y => decide (d y < d (g.getD x 0)) && decide (d y < d x) := by
        funext y
        by_cases hy : d y < d (g.getD x 0)
        · have : d y < d x := by omega
          simp only [hy, this, decide_true, Bool.and_self]
        · simp only [hy, decide_false, Bool.false_and]
      rw [this, ← List.filter_filter]
      exact List.filter_sublist
    apply Nat.lt_of_le_of_ne hsub.length_le
    intro e
    have e := hsub.eq_of_length e
    have hm : g.getD x 0 ∈ (List.range g.length).filter (fun y => decide (d y < d x)) := by
      simp only [List.mem_filter, List.mem_range, decide_eq_true_eq]
      exact ⟨h.lt x hx, h1⟩
    rw [← e] at hm
    simp at hm
  · intro x hx
    have hsub : ((List.range g.length).filter (fun y => decide (d y < d x))).Sublist (List.range g.length) :=
      List.filter_sublist
    have : ((List.range g.length).filter (fun y => decide (d y < d x))).length < (List.range g.length).length := by
      apply Nat.lt_of_le_of_ne hsub.length_le
      intro e
      have e := hsub.eq_of_length e
      have hm : x ∈ List.range g.length := by simpa using hx
      rw [← e] at hm
      simp at hm
    simpa using this

theorem findAux_ok {fuel x : Nat} (hx : x < g.length) (hf : d x < fuel) :
    ∃ g', findAux fuel g x = .ok (r x, g') ∧ Inv g' r d ∧ g'.length = g.length := by
  induction fuel generalizing x with
  | zero => omega
  | succ fuel ih =>
    unfold findAux
    rw [vat_lt hx, Res.bind_ok, ← getD_lt hx]
    by_cases hp : x = g.getD x 0
    · rw [if_pos hp, h.root x hx hp.symm]
      exact ⟨g, rfl, h, rfl⟩
    · rw [if_neg hp]
      have h1 := h.dec x hx (Ne.symm hp)
      obtain ⟨g', e1, e2, e3⟩ := ih (h.lt x hx) (by omega)
      rw [e1, Res.bind_ok]
      dsimp only
      have hx' : x < g'.length := by rw [e3]; exact hx
      rw [h.rep_par x hx, vset_lt hx', Res.bind_ok]
      refine ⟨g'.set x (r x), rfl, ?_, by simp [e3]⟩
      have hrx : r x ≠ x := fun e => hp ((h.root_iff hx).2 e).symm
      have hl : (g'.set x (r x)).length = g'.length := by simp
      constructor <;> intro y hy <;> rw [hl] at *
      · rw [getD_set hx']
        split
        · exact e2.rep_lt x hx'
        · exact e2.lt y hy
      · exact e2.rep_lt y hy
      · rw [getD_set hx']
        split
        · subst_vars; exact e2.rep_rep hx'
        · exact e2.rep_par y hy
      · rw [getD_set hx']
        split
        · rename_i e
          exfalso
          have := e2.rep_rep hy
          rw [e] at this; exact hrx this
        · exact e2.rep_root y hy
      · rw [getD_set hx']
        split
        · subst_vars; exact id
        · exact e2.root y hy
      · rw [getD_set hx']
        split
        · subst_vars; exact e2.d_rep hx'
        · exact e2.dec y hy

theorem find_ok {x : Nat} (hx : x < g.length) :
    ∃ g', find g x = .ok (r x, g') ∧ (∃ d', Inv g' r d') ∧ g'.length = g.length := by
  obtain ⟨d', h1, h2⟩ := h.exists_rank
  obtain ⟨g', e1, e2, e3⟩ := h1.findAux_ok (fuel := g.length + 1) hx (by have := h2 x hx; omega)
  exact ⟨g', e1, ⟨d', e2⟩, e3⟩

/-- Representatives after `unite x y`. -/
theorem unite_ok {x y : Nat} (hx : x < g.length) (hy : y < g.length) :
    ∃ g', unite g x y = .ok g' ∧ g'.length = g.length ∧
      ∃ d', Inv g' (fun z => if r z = r x then r y else r z) d' := by
  obtain ⟨g1, e1, ⟨d1, i1⟩, l1⟩ := h.find_ok hx
  have hy1 : y < g1.length := by rw [l1]; exact hy
  have hx1 : x < g1.length := by rw [l1]; exact hx
  obtain ⟨g2, e2, ⟨d2, i2⟩, l2⟩ := i1.find_ok hy1
  have hx2 : x < g2.length := by rw [l2]; exact hx1
  have hy2 : y < g2.length := by rw [l2]; exact hy1
  unfold unite
  rw [e1, Res.bind_ok]
  dsimp only
  rw [e2, Res.bind_ok]
  dsimp only
  by_cases hne : r x = r y
  · rw [if_neg (by simpa using hne)]
    refine ⟨g2, rfl, by omega, d2, ?_⟩
    have : (fun z => if r z = r x then r y else r z) = r := by
      funext z; split
      · rename_i e; rw [e, hne]
      · rfl
    rw [this]; exact i2
  · rw [if_pos hne, vset_lt (i2.rep_lt x hx2)]
    have hl : (g2.set (r x) (r y)).length = g2.length := by simp
    have hset := @getD_set g2 (r x)
    have hpx := i2.rep_lt x hx2
    refine ⟨_, rfl, by omega, fun z => if r z = r x then d2 z + d2 (r y) + 1 else d2 z, ?_⟩
    constructor <;> intro z hz <;> rw [hl] at *
    · rw [hset hpx]
      split
      · exact i2.rep_lt y hy2
      · exact i2.lt z hz
    · split
      · exact i2.rep_lt y hy2
      · exact i2.rep_lt z hz
    · rw [hset hpx]
      split
      · subst_vars
        rw [i2.rep_rep hx2, if_pos rfl]
        split
        · rfl
        · exact i2.rep_rep hy2
      · rw [i2.rep_par z hz]
    · rw [hset hpx]
      split
      · rw [if_neg (Ne.symm hne)]; exact i2.rep_root y hy2
      · exact i2.rep_root z hz
    · rw [hset hpx]
      split
      · intro e
        exact absurd (by rw [← i2.rep_rep hy2, e]; subst_vars; exact i2.rep_rep hx2) (Ne.symm hne)
      · rename_i hz'
        intro e
        rw [i2.root z hz e, if_neg hz']
    · rw [hset hpx]
      split
      · subst_vars
        intro _
        rw [i2.rep_rep hx2, if_pos rfl, i2.rep_rep hy2, if_neg (Ne.symm hne)]
        omega
      · intro e
        have := i2.dec z hz e
        rw [i2.rep_par z hz]
        split <;> omega

theorem size_ok : UnionFind.size g = .ok ((List.range g.length).filter (fun x => decide (r x = x))).length := by
  obtain ⟨k, h1, h2⟩ := foldlM_range_inv
    (fun i k => k = ((List.range i).filter (fun x => decide (r x = x))).length)
    (f := fun ans i => do
      let p ← vat g i
      pure (if i = p then ans + 1 else ans)) g.length (b := 0) rfl (by
      intro i k hi e
      rw [vat_lt hi, Res.bind_ok]
      refine ⟨_, rfl, ?_⟩
      rw [List.range_succ, List.filter_append, List.length_append, ← e, ← getD_lt hi]
      by_cases hr : g.getD i 0 = i
      · rw [if_pos hr.symm]
        simp [(h.root_iff hi).1 hr]
      · rw [if_neg (Ne.symm hr)]
        have : ¬ r i = i := fun e => hr ((h.root_iff hi).2 e)
        simp [this])
  unfold UnionFind.size
  rw [h1, h2]

end Inv
end UnionFind
end Homfa
