import Verif.Spec.UnionFind
import Verif.Proof.UnionFind
/-! Histories of union-find calls. -/

namespace Homfa
open Spec
namespace UnionFind

/-- Executing a call for its effect on the object (the returned representative of `find` is dropped here). -/
def call (g : List Nat) : UfCall → Res (List Nat)
  | .unite x y => unite g x y
  | .find x => do let r ← find g x; pure r.2

/-- Executing a history of calls. -/
def calls (g : List Nat) (cs : List UfCall) : Res (List Nat) := cs.foldlM call g

theorem conn_iff_append {n : Nat} {ps : List (Nat × Nat)} {r : Nat → Nat} {x y : Nat}
    (hr : ∀ a b, a < n → b < n → (r a = r b ↔ Conn ps a b)) (hps : ∀ p ∈ ps, p.1 < n ∧ p.2 < n) (hx : x < n) (hy : y < n) :
    ∀ a b, a < n → b < n →
      ((if r a = r x then r y else r a) = (if r b = r x then r y else r b) ↔ Conn (ps ++ [(x, y)]) a b) := by
  have mono : ∀ {a b}, Conn ps a b → Conn (ps ++ [(x, y)]) a b := by
    intro a b h
    induction h with
    | refl => exact .refl _
    | pair h => exact .pair (by simp [h])
    | symm _ ih => exact ih.symm
    | trans _ _ i j => exact i.trans j
  have hxy : Conn (ps ++ [(x, y)]) x y := .pair (by simp)
  intro a b ha hb
  constructor
  · have key : ∀ c, c < n → Conn (ps ++ [(x, y)]) c (if r c = r x then y else c) := by
      intro c hc
      split
      · rename_i e; exact (mono ((hr c x hc hx).1 e)).trans hxy
      · exact .refl _
    intro e
    have e' : r (if r a = r x then y else a) = r (if r b = r x then y else b) := by
      split <;> split <;> simp_all
    have hl : ∀ c, c < n → (if r c = r x then y else c) < n := by intro c hc; split <;> assumption
    exact ((key a ha).trans (mono ((hr _ _ (hl a ha) (hl b hb)).1 e'))).trans (key b hb).symm
  · intro h
    have gen : ∀ {a b}, Conn (ps ++ [(x, y)]) a b → a = b ∨ (a < n ∧ b < n ∧
        (if r a = r x then r y else r a) = (if r b = r x then r y else r b)) := by
      intro a b h
      induction h with
      | refl => exact .inl rfl
      | @pair u v h =>
        rcases List.mem_append.1 h with h | h
        · have hb := hps _ h
          have := (hr u v hb.1 hb.2).2 (.pair h)
          exact .inr ⟨hb.1, hb.2, by rw [this]⟩
        · simp at h
          obtain ⟨rfl, rfl⟩ := h
          refine .inr ⟨hx, hy, ?_⟩
          rw [if_pos rfl]; split <;> rfl
      | symm _ ih =>
        rcases ih with rfl | ⟨h1, h2, h3⟩
        · exact .inl rfl
        · exact .inr ⟨h2, h1, h3.symm⟩
      | trans _ _ i j =>
        rcases i with rfl | ⟨h1, h2, h3⟩
        · exact j
        · rcases j with rfl | ⟨k1, k2, k3⟩
          · exact .inr ⟨h1, h2, h3⟩
          · exact .inr ⟨h1, k2, h3.trans k3⟩
    rcases gen h with rfl | ⟨_, _, h⟩
    · rfl
    · exact h

theorem united_append (a b : List UfCall) : united (a ++ b) = united a ++ united b := by
  induction a with
  | nil => rfl
  | cons c a ih => cases c <;> simp [united, ih]

theorem united_lt {n : Nat} {cs : List UfCall} (h : ∀ c ∈ cs, c.InRange n) : ∀ p ∈ united cs, p.1 < n ∧ p.2 < n := by
  induction cs with
  | nil => simp [united]
  | cons c cs ih =>
    have hc := h c (by simp)
    have ih := ih (fun c hc => h c (by simp [hc]))
    cases c with
    | unite x y =>
      intro p hp
      rcases List.mem_cons.1 hp with rfl | hp
      · exact hc
      · exact ih p hp
    | find x => exact ih

theorem calls_ok (n : Nat) (cs : List UfCall) (h : ∀ c ∈ cs, c.InRange n) :
    ∃ g r d, calls (new n) cs = .ok g ∧ g.length = n ∧ Inv g r d ∧
      ∀ a b, a < n → b < n → (r a = r b ↔ Conn (united cs) a b) := by
  induction cs using List.reverseRecOn with
  | nil =>
    refine ⟨new n, id, id, rfl, by simp [new], new_inv n, fun a b _ _ => ⟨fun e => ?_, fun e => ?_⟩⟩
    · cases e; exact .refl _
    · have : ∀ {a b}, Conn [] a b → a = b := by
        intro a b h
        induction h with
        | refl => rfl
        | pair h => simp at h
        | symm _ ih => exact ih.symm
        | trans _ _ i j => exact i.trans j
      exact this e
  | append_singleton cs c ih =>
    obtain ⟨g, r, d, h1, h2, h3, h4⟩ := ih (fun c hc => h c (by simp [hc]))
    have hc := h c (by simp)
    have hps := united_lt (n := n) (cs := cs) (fun c hc => h c (by simp [hc]))
    unfold calls at *
    rw [List.foldlM_append, h1, Res.bind_ok]
    cases c with
    | unite x y =>
      obtain ⟨g', e1, e2, d', e3⟩ := h3.unite_ok (x := x) (y := y) (by rw [h2]; exact hc.1) (by rw [h2]; exact hc.2)
      refine ⟨g', _, d', ?_, by omega, e3, ?_⟩
      · simp [call, e1]
      · rw [united_append]
        exact conn_iff_append h4 hps hc.1 hc.2
    | find x =>
      obtain ⟨g', e1, ⟨d', e2⟩, e3⟩ := h3.find_ok (x := x) (by rw [h2]; exact hc)
      refine ⟨g', r, d', ?_, by omega, e2, ?_⟩
      · simp [call, e1, Res.bind_ok, Res.pure_eq]
      · rw [united_append]; simpa [united] using h4

end UnionFind
end Homfa
