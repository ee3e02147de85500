import Verif.Props.Text
import Verif.Proof.Dot
import Verif.Spec.Dot
/-!
# C56, C57: the conversion commands `att2spec`, `spec2att`, `spec2dot`
-/

namespace Homfa
open Spec

/-- **C56 (att2spec).** For every AT&T text whose lines are all well formed, `att2spec` either throws `out_of_range`, exactly
when a path from state 0 leaves the numbered states, or prints the spec text of an automaton accepting
exactly the words labelling a path from state 0 to a final state of the input; the text reads back as that automaton unless
it has more than 2^31 states. -/
theorem C56_att2spec (att : List Char) (lines : List (List Char)) (items : List AttItem) (ht : TextLines att lines)
    (hi : List.Forall₂ AttLine lines items) :
    ((∃ (out : List Char) (h : Graph), doAtt2spec att = .ok out ∧ h.dump = .ok out ∧
        (∀ w, ∃ b, h.accepts w = .ok b ∧ (b = true ↔ NfaAccepts (· = 0) (fun q => AttItem.final q ∈ items) (attStep items) w)) ∧
        (h.size ≤ 2 ^ 31 → Graph.fromIstream out = .ok { h with statesAtDepth := [] })) ∨
      doAtt2spec att = .error .outOfRange) ∧
    (doAtt2spec att = .error .outOfRange ↔
      ∃ w q, Path (attStep items) 0 w q ∧ ∀ s d b, AttItem.edge s d b ∈ items → s < q) := by
  obtain ⟨h1, h2⟩ := C52_att_meaning att lines items ht hi
  unfold doAtt2spec
  rcases h1 with ⟨g, e, hwf, hl⟩ | e
  · have he : ¬ Graph.fromAttIstream att = .error .outOfRange := by rw [e]; simp
    rw [e, Res.bind_ok, Graph.dump_ok hwf]
    refine ⟨.inl ⟨_, g, rfl, Graph.dump_ok hwf, hl, Graph.fromIstream_dump hwf⟩, ?_⟩
    · constructor
      · intro h; simp at h
      · intro h; exact absurd (h2.2 h) he
  · rw [e, Res.bind_err]
    exact ⟨.inr rfl, fun _ => h2.1 e, fun _ => rfl⟩

example : doAtt2spec "0\t1\t0\n1\t0\t1\n1\n".toList = .ok ">0\t1\t2\n1*\t2\t0\n2\t2\t2\n".toList ∧
    doAtt2spec "0\t1\t0\n1\n".toList = .error .outOfRange := by decide

/-- **C56 (spec2att).** For every spec text that reads as an automaton `g` with at least one and at most 2^31 states,
`spec2att` prints an AT&T text; `att2spec` on that text prints the spec text of an automaton that accepts `w` iff `g` accepts `w`
from state 0 — hence iff `g` accepts `w` whenever the initial state of `g` is 0. -/
theorem C56_spec2att (spec : List Char) (g : Graph) (hg : Graph.fromIstream spec = .ok g) (hs : 0 < g.size)
    (hsz : g.size ≤ 2 ^ 31) :
    ∃ (att out : List Char) (h : Graph), doSpec2att spec = .ok att ∧ doAtt2spec att = .ok out ∧ h.dump = .ok out ∧
      (∀ w, h.accepts w = acceptsFrom g 0 w ∧ (g.initialState = 0 → h.accepts w = g.accepts w)) ∧
      (h.size ≤ 2 ^ 31 → Graph.fromIstream out = .ok { h with statesAtDepth := [] }) := by
  have hwf := wf_of_fromIstream hg hs
  obtain ⟨text, h, h1, h2, h3, h4⟩ := C15_att_roundtrip_from_state0 g hwf hsz
  refine ⟨text, _, h, ?_, ?_, Graph.dump_ok h3, fun w => ⟨h4 w, fun hi => ?_⟩, Graph.fromIstream_dump h3⟩
  · unfold doSpec2att
    rw [hg, Res.bind_ok, h1]
  · unfold doAtt2spec
    rw [h2, Res.bind_ok, Graph.dump_ok h3]
  · rw [h4 w]
    unfold acceptsFrom Graph.accepts
    rw [hi]

example : doSpec2att ">0\t0\t1\n1*\t0\t1\n".toList = .ok "0\t0\t0\n0\t1\t1\n1\t0\t0\n1\t1\t1\n1\n".toList := by decide

/-- **C57 (spec2dot).** For every spec text that reads as an automaton with at least one state, `spec2dot` prints a DOT
drawing with these statements and no others, each exactly once: the start arrow to the initial state; one node per state,
with a double border iff the state is final; and from each state `p` to each state `q` one arrow labelled with the letters
leading from `p` to `q`, if there is any. -/
theorem C57_spec2dot (spec : List Char) (g : Graph) (hg : Graph.fromIstream spec = .ok g) (hs : 0 < g.size) :
    ∃ (text : List Char) (stmts : List DotStmt), doSpec2dot spec = .ok text ∧ DotDrawing text stmts ∧ stmts.Nodup ∧
      (∀ q, .start q ∈ stmts ↔ q = g.initialState) ∧
      (∀ q f, .node q f ∈ stmts ↔ q ∈ g.allStates ∧ g.isFinalState q = .ok f) ∧
      (∀ p q l, .edge p q l ∈ stmts ↔ p ∈ g.allStates ∧ l ≠ [] ∧ l = [false, true].filter fun b => g.nextState p b = .ok q) := by
  have hwf := wf_of_fromIstream hg hs
  obtain ⟨text, h1, h2⟩ := Graph.dumpDot_ok hwf
  have hall : ∀ q, q ∈ g.allStates ↔ q < g.size := by intro q; unfold Graph.allStates; simp
  refine ⟨text, _, ?_, h2, ?_, ?_, ?_, ?_⟩
  · unfold doSpec2dot
    rw [hg, Res.bind_ok, h1]
  · rw [List.nodup_cons]
    constructor
    · simp only [List.mem_flatMap, Graph.dotOf, not_exists, not_and]
      intro q _
      split <;> simp
    · rw [List.nodup_flatMap]
      constructor
      · intro q _
        unfold Graph.dotOf
        split <;> simp
      · refine List.nodup_range.pairwise_of_forall_ne ?_
        intro p _ q _ hpq
        simp only [Function.onFun, List.Disjoint, Graph.dotOf]
        intro s hsp hsq
        split at hsp <;> split at hsq <;> simp at hsp hsq <;>
          (rcases hsp with rfl | rfl | rfl <;> simp [hpq] at hsq)
  · intro q
    simp only [List.mem_cons, List.mem_flatMap, Graph.dotOf]
    constructor
    · rintro (h | ⟨p, _, h⟩)
      · injection h
      · revert h; split <;> simp
    · rintro rfl
      exact .inl rfl
  · intro q f
    rw [hall]
    simp only [List.mem_cons, List.mem_flatMap, Graph.dotOf, List.mem_range]
    constructor
    · rintro (h | ⟨p, hp, h⟩)
      · simp at h
      · have : q = p ∧ f = g.fin p := by revert h; split <;> simp
        obtain ⟨rfl, rfl⟩ := this
        exact ⟨hp, hwf.isFinalState_ok hp⟩
    · rintro ⟨hq, h⟩
      rw [hwf.isFinalState_ok hq] at h
      injection h with h
      exact .inr ⟨q, hq, .inl (by rw [h])⟩
  · intro p q l
    rw [hall]
    simp only [List.mem_cons, List.mem_flatMap, Graph.dotOf, List.mem_range]
    constructor
    · rintro (h | ⟨p', hp, h⟩)
      · simp at h
      · have : p = p' ∧ l ≠ [] ∧ l = [false, true].filter fun b => g.nx p' b = q := by
          revert h
          split
          · rename_i he
            simp only [List.mem_cons, List.not_mem_nil, or_false, reduceCtorEq, false_or]
            intro h; injection h with a b c
            subst a b c
            simp [he]
          · rename_i he
            simp only [List.mem_cons, List.not_mem_nil, or_false, reduceCtorEq, false_or]
            rintro (h | h)
            · injection h with a b c
              subst a b c
              simp [Ne.symm he]
            · injection h with a b c
              subst a b c
              simp [he]
        obtain ⟨rfl, h1, h2⟩ := this
        refine ⟨hp, h1, ?_⟩
        rw [h2]
        congr 1
        funext b
        rw [Graph.WF.nextState_ok hp]
        simp
    · rintro ⟨hp, h1, h2⟩
      refine .inr ⟨p, hp, .inr ?_⟩
      have e : ∀ b, g.nextState p b = .ok (g.nx p b) := fun b => Graph.WF.nextState_ok hp b
      simp only [e, Except.ok.injEq] at h2
      by_cases ha : g.nx p false = q <;> by_cases hb : g.nx p true = q
      · subst ha
        simp [hb] at h2 ⊢
        exact h2
      · have : g.nx p false ≠ g.nx p true := fun h => hb (h ▸ ha)
        simp [ha, hb] at h2
        rw [if_neg this]
        simp [h2, ha]
      · have : g.nx p false ≠ g.nx p true := fun h => ha (h ▸ hb)
        simp [ha, hb] at h2
        rw [if_neg this]
        simp [h2, hb]
      · simp [ha, hb] at h2
        exact absurd h2 h1

example : doSpec2dot ">0\t0\t1\n1*\t0\t0\n".toList = .ok (("digraph \"graph\" {\nrankdir=\"LR\"  node[shape=\"circle\"]\n" ++
    "  I [label=\"\", style=invis, width=0]\n  I -> 0\n  0 [label=\"0\"]  0 -> 0 [label=\"0\"]\n  0 -> 1 [label=\"1\"]\n" ++
    "  1 [label=\"1\", peripheries=2]  1 -> 0 [label=\"0,1\"]\n}\n").toList) := by decide +kernel

end Homfa
