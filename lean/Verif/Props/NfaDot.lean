import Verif.Proof.NfaDot
import Verif.Proof.NfaNumbered
import Verif.Props.Ltl
import Verif.Proof.Picture
import Verif.Spec.Automata
/-!
# Property C120: the drawing of a nondeterministic automaton
-/

namespace Homfa
open Homfa.Spec Homfa.NfaDot

theorem mem_arrows {q p r : Nat} {q0s q1s : List Nat} {l : List Bool} :
    .edge p r l ∈ arrows0 q q0s q1s ++ arrows1 q q0s q1s ↔ p = q ∧ l ≠ [] ∧ l = [false, true].filter fun b => decide (r ∈ (if b then q1s else q0s)) := by
  unfold arrows0 arrows1
  simp only [List.mem_append, List.mem_flatMap, List.mem_singleton, NfaStmt.edge.injEq]
  constructor
  · rintro (⟨x, hx, rfl, rfl, rfl⟩ | ⟨x, hx, h⟩)
    · refine ⟨rfl, ?_⟩
      by_cases h : r ∈ q1s <;> simp [h, hx]
    · by_cases h0 : x ∈ q0s
      · simp [h0] at h
      · rw [if_neg h0, List.mem_singleton] at h
        injection h with h1 h2 h3
        subst h1; subst h2; subst h3
        simp [hx, h0]
  · rintro ⟨rfl, h1, h2⟩
    by_cases h0 : r ∈ q0s
    · left
      refine ⟨r, h0, rfl, rfl, ?_⟩
      rw [h2]
      by_cases h : r ∈ q1s <;> simp [h, h0]
    · by_cases h : r ∈ q1s
      · right
        refine ⟨r, h, ?_⟩
        rw [if_neg h0, h2]
        simp [h, h0]
      · rw [h2] at h1
        simp [h, h0] at h1

theorem nodup_arrows {q : Nat} {q0s q1s : List Nat} (h0 : q0s.Nodup) (h1 : q1s.Nodup) : (arrows0 q q0s q1s ++ arrows1 q q0s q1s).Nodup := by
  rw [List.nodup_append]
  refine ⟨?_, ?_, ?_⟩
  · unfold arrows0
    rw [← List.map_eq_flatMap]
    exact h0.map_on fun x _ y _ h => by injection h
  · unfold arrows1
    rw [List.nodup_flatMap]
    refine ⟨fun x _ => by split <;> simp, ?_⟩
    refine h1.imp ?_
    intro x y hxy s hs ht
    dsimp only at hs ht
    by_cases hx : x ∈ q0s
    · simp [hx] at hs
    · by_cases hy : y ∈ q0s
      · simp [hy] at ht
      · rw [if_neg hx, List.mem_singleton] at hs
        rw [if_neg hy, List.mem_singleton] at ht
        rw [hs] at ht
        injection ht with _ ht
        exact hxy ht
  · intro s hs t ht he
    subst he
    unfold arrows0 at hs
    unfold arrows1 at ht
    obtain ⟨x, hx, hs⟩ := List.mem_flatMap.1 hs
    obtain ⟨y, _, ht⟩ := List.mem_flatMap.1 ht
    by_cases hy : y ∈ q0s
    · simp [hy] at ht
    · rw [if_neg hy, List.mem_singleton] at ht
      rw [List.mem_singleton] at hs
      rw [hs] at ht
      injection ht with _ ht
      exact hy (ht ▸ hx)

/-- **C120 (what is drawn).** The drawing consists of these statements and no others: an arrow labelled ε to each initial state; for each row of the table a circle,
doubled iff its state is final; and for each row and each state one arrow labelled with the letters on which the row leads there, if there is any.  If no state
occurs twice in a set or a row and no two rows are about the same state, each is drawn once. -/
theorem C120_drawing (initSts finalSts : List Nat) (delta : NFADelta) :
    ∃ stmts, NfaDrawing (nfaDumpDot initSts finalSts delta) stmts ∧
      (∀ q, .eps q ∈ stmts ↔ q ∈ initSts) ∧
      (∀ q f, .node q f ∈ stmts ↔ (∃ t ∈ delta, t.1 = q) ∧ (f = true ↔ q ∈ finalSts)) ∧
      (∀ p q l, .edge p q l ∈ stmts ↔ l ≠ [] ∧ ∃ t ∈ delta, t.1 = p ∧ l = [false, true].filter fun b => decide (q ∈ (if b then t.2.2 else t.2.1))) ∧
      (initSts.Nodup → (delta.map Prod.fst).Nodup → (∀ t ∈ delta, t.2.1.Nodup ∧ t.2.2.Nodup) → stmts.Nodup) := by
  refine ⟨_, dump_drawing initSts finalSts delta, ?_, ?_, ?_, ?_⟩
  · intro q
    simp only [List.mem_append, List.mem_map, NfaStmt.eps.injEq, exists_eq_right, List.mem_flatMap, or_iff_left_iff_imp]
    rintro ⟨t, _, h⟩
    unfold rowStmts arrows0 arrows1 at h
    simp only [List.mem_cons, reduceCtorEq, List.mem_append, List.mem_flatMap, List.not_mem_nil, or_false, and_false, exists_false, false_or] at h
    obtain ⟨x, _, h⟩ := h
    split at h <;> simp at h
  · intro q f
    simp only [List.mem_append, List.mem_map, reduceCtorEq, and_false, exists_false, false_or, List.mem_flatMap]
    have key : ∀ t : Nat × List Nat × List Nat, NfaStmt.node q f ∈ rowStmts finalSts t ↔ t.1 = q ∧ (f = true ↔ q ∈ finalSts) := by
      intro t
      unfold rowStmts arrows0 arrows1
      simp only [List.mem_cons, NfaStmt.node.injEq, List.mem_append, List.mem_flatMap, reduceCtorEq, List.not_mem_nil, or_false, and_false, exists_false, false_or]
      constructor
      · rintro (⟨rfl, rfl⟩ | ⟨x, _, h⟩)
        · exact ⟨rfl, by simp⟩
        · split at h <;> simp at h
      · rintro ⟨rfl, h⟩
        left
        refine ⟨rfl, ?_⟩
        rw [Bool.eq_iff_iff, h]; simp
    constructor
    · rintro ⟨t, ht, h⟩
      obtain ⟨h1, h2⟩ := (key t).1 h
      exact ⟨⟨t, ht, h1⟩, h2⟩
    · rintro ⟨⟨t, ht, h1⟩, h2⟩
      exact ⟨t, ht, (key t).2 ⟨h1, h2⟩⟩
  · intro p q l
    simp only [List.mem_append, List.mem_map, reduceCtorEq, and_false, exists_false, false_or, List.mem_flatMap]
    have key : ∀ t : Nat × List Nat × List Nat, NfaStmt.edge p q l ∈ rowStmts finalSts t ↔
        p = t.1 ∧ l ≠ [] ∧ l = [false, true].filter fun b => decide (q ∈ (if b then t.2.2 else t.2.1)) := by
      intro t
      unfold rowStmts
      rw [List.mem_cons, mem_arrows]
      simp
    constructor
    · rintro ⟨t, ht, h⟩
      obtain ⟨h1, h2, h3⟩ := (key t).1 h
      exact ⟨h2, t, ht, h1.symm, h3⟩
    · rintro ⟨h2, t, ht, h1, h3⟩
      exact ⟨t, ht, (key t).2 ⟨h1.symm, h2, h3⟩⟩
  · intro h1 h2 h3
    have hrow : ∀ (t : Nat × List Nat × List Nat) (s : NfaStmt), s ∈ rowStmts finalSts t → (∃ f, s = .node t.1 f) ∨ ∃ q l, s = .edge t.1 q l := by
      intro t s hs
      unfold rowStmts arrows0 arrows1 at hs
      simp only [List.mem_cons, List.mem_append, List.mem_flatMap, List.not_mem_nil, or_false] at hs
      rcases hs with rfl | ⟨x, _, rfl⟩ | ⟨x, _, h⟩
      · exact .inl ⟨_, rfl⟩
      · exact .inr ⟨_, _, rfl⟩
      · split at h
        · simp at h
        · rw [List.mem_singleton] at h; exact .inr ⟨_, _, h⟩
    rw [List.nodup_append]
    refine ⟨h1.map_on fun x _ y _ h => by injection h, ?_, ?_⟩
    · rw [List.nodup_flatMap]
      refine ⟨fun t ht => ?_, ?_⟩
      · unfold rowStmts
        rw [List.nodup_cons]
        refine ⟨?_, nodup_arrows (h3 t ht).1 (h3 t ht).2⟩
        unfold arrows0 arrows1
        simp only [List.mem_append, List.mem_flatMap, List.mem_singleton, reduceCtorEq, and_false, exists_false, false_or]
        rintro ⟨x, _, h⟩
        split at h <;> simp at h
      · have h4 : delta.Pairwise fun t u => t.1 ≠ u.1 := List.pairwise_map.1 h2
        refine h4.imp ?_
        intro t u htu s hs hs'
        rcases hrow t s hs with ⟨f, rfl⟩ | ⟨q, l, rfl⟩ <;> rcases hrow u _ hs' with ⟨f', h⟩ | ⟨q', l', h⟩
        · injection h with h; exact htu h
        · cases h
        · cases h
        · injection h with h; exact htu h
    · intro s hs s' hs' he
      subst he
      obtain ⟨q, _, rfl⟩ := List.mem_map.1 hs
      obtain ⟨t, _, h⟩ := List.mem_flatMap.1 hs'
      rcases hrow t _ h with ⟨f, h⟩ | ⟨q, l, h⟩ <;> cases h

/-- **C120 (one reading).** A text is a drawing in one way only. -/
theorem C120_one_reading {text : List Char} {ss ss' : List NfaStmt} (h : NfaDrawing text ss) (h' : NfaDrawing text ss') : ss = ss' := h.unique h'

/-- **C120 (the words).** Let the rows of the table be numbered and let the initial states and all successors have rows.  Reading the drawing as a person does, a
word is accepted exactly if the nondeterministic automaton accepts it. -/
theorem C120_words (initSts finalSts : List Nat) (delta : NFADelta) (hnum : ∀ (i : Nat) (t : Nat × List Nat × List Nat), delta[i]? = some t → t.1 = i) (hi : ∀ q ∈ initSts, q < delta.length)
    (hd : ∀ t ∈ delta, (∀ q ∈ t.2.1, q < delta.length) ∧ ∀ q ∈ t.2.2, q < delta.length) :
    (∃ stmts, NfaDrawing (nfaDumpDot initSts finalSts delta) stmts) ∧
    ∀ stmts, NfaDrawing (nfaDumpDot initSts finalSts delta) stmts → ∀ w, NfaDotAccepts stmts w ↔ NfaAccepts (· ∈ initSts) (· ∈ finalSts) (tableStep delta) w := by
  obtain ⟨st, h0, h1, h2, h3, _⟩ := C120_drawing initSts finalSts delta
  refine ⟨⟨st, h0⟩, fun stmts h w => ?_⟩
  rw [C120_one_reading h h0]
  have hstep : ∀ p b q, (∃ l, NfaStmt.edge p q l ∈ st ∧ b ∈ l) ↔ tableStep delta p b q := by
    intro p b q
    constructor
    · rintro ⟨l, hl, hb⟩
      obtain ⟨_, t, ht, rfl, rfl⟩ := (h3 _ _ _).1 hl
      obtain ⟨i, hi, rfl⟩ := List.mem_iff_getElem.1 ht
      have hn := hnum i _ (List.getElem?_eq_getElem hi)
      refine ⟨delta[i], by rw [hn]; exact List.getElem?_eq_getElem hi, ?_⟩
      have := (List.mem_filter.1 hb).2
      simpa using this
    · rintro ⟨t, ht, hq⟩
      have hb : b ∈ [false, true].filter fun b => decide (q ∈ (if b then t.2.2 else t.2.1)) :=
        List.mem_filter.2 ⟨by cases b <;> simp, by simpa using hq⟩
      exact ⟨_, (h3 p q _).2 ⟨List.ne_nil_of_mem hb, t, List.mem_of_getElem? ht, hnum p t ht, rfl⟩, hb⟩
  have hpath : ∀ (w : List Bool) (p q : Nat), NfaDotPath st p w q ↔ Path (tableStep delta) p w q := by
    intro w
    induction w with
    | nil =>
      intro p q
      constructor
      · intro h; cases h; exact .nil _
      · intro h; cases h; exact .here _
    | cons b w ih =>
      intro p q
      constructor
      · intro h
        cases h with
        | arrow k1 k2 k3 => exact .cons ((hstep _ _ _).1 ⟨_, k1, k2⟩) ((ih _ _).1 k3)
      · intro h
        cases h with
        | cons k1 k2 =>
          obtain ⟨l, k3, k4⟩ := (hstep _ _ _).2 k1
          exact .arrow k3 k4 ((ih _ _).2 k2)
  have hlt : ∀ (w : List Bool) (p q : Nat), p < delta.length → Path (tableStep delta) p w q → q < delta.length := by
    intro w
    induction w with
    | nil => intro p q hp h; cases h; exact hp
    | cons b w ih =>
      intro p q hp h
      cases h with
      | cons k1 k2 =>
        refine ih _ _ ?_ k2
        obtain ⟨t, ht, hq⟩ := k1
        have := hd t (List.mem_of_getElem? ht)
        cases b
        · exact this.1 _ (by simpa using hq)
        · exact this.2 _ (by simpa using hq)
  constructor
  · rintro ⟨p, q, k1, k2, k3⟩
    exact ⟨p, q, (h1 p).1 k1, (hpath w p q).1 k2, ((h2 q true).1 k3).2.1 rfl⟩
  · rintro ⟨p, q, k1, k2, k3⟩
    have hq := hlt w p q (hi p k1) k2
    exact ⟨p, q, (h1 p).2 k1, (hpath w p q).2 k2, (h2 q true).2 ⟨⟨delta[q], List.getElem_mem hq, hnum q _ (List.getElem?_eq_getElem hq)⟩, by simpa using k3⟩⟩

/-- **C120 (the automaton of a formula).** The drawing of the nondeterministic automaton that is made for a formula over `n` propositions accepts exactly the sequences
of `n`-bit letters that the monitor can read; with the all-final option, exactly their prefixes. -/
theorem C120_formula (M : Monitor) (n : Nat) (hM : MonitorOk M n) (allFinal : Bool) :
    ∃ I F D, Ltl.nfaTuple M n allFinal = .ok (I, F, D) ∧
      (∃ stmts, NfaDrawing (nfaDumpDot I F D) stmts) ∧
      ∀ stmts, NfaDrawing (nfaDumpDot I F D) stmts → ∀ w, NfaDotAccepts stmts w ↔
        ∃ (v : List Bool) (letters : List (List Bool)) (q : Nat), (allFinal = false → v = []) ∧
          (∀ a ∈ letters, a.length = n) ∧ w ++ v = letters.flatten ∧ MonitorRun M M.init letters q := by
  obtain ⟨F, D, h1, _, _, h4, h5, h6⟩ := Ltl.nfaTuple_lang' hM allFinal
  have hnum : Ltl.Numbered D := Ltl.nfaTuple_numbered h1
  obtain ⟨k1, k2⟩ := C120_words [M.init] F D hnum (by simpa using h4) (by
    intro t ht
    obtain ⟨p, hp⟩ := List.mem_iff_getElem?.1 ht
    exact ⟨fun q hq => h5 p false q ⟨t, hp, by simpa using hq⟩, fun q hq => h5 p true q ⟨t, hp, by simpa using hq⟩⟩)
  refine ⟨[M.init], F, D, h1, k1, fun stmts hs w => ?_⟩
  rw [k2 stmts hs w, h6 w]
  cases allFinal with
  | false =>
    simp only [Bool.false_eq_true, if_false, forall_const]
    constructor
    · rintro ⟨ls, q, g1, g2, g3⟩
      exact ⟨[], ls, q, rfl, g1, by simpa using g2, g3⟩
    · rintro ⟨v, ls, q, rfl, g1, g2, g3⟩
      exact ⟨ls, q, g1, by simpa using g2, g3⟩
  | true =>
    simp only [if_true, reduceCtorEq, false_implies, true_and]
    rfl

/-- Drawing of the automaton of G(p0 -> X p1): the word 10 01 is accepted, the word 10 10 is not. -/
example : ∃ I F D, Ltl.nfaTuple exMonitor 2 false = .ok (I, F, D) ∧ ∀ stmts, NfaDrawing (nfaDumpDot I F D) stmts →
    NfaDotAccepts stmts [true, false, false, true] ∧ ¬ NfaDotAccepts stmts [true, false, true, false] := by
  obtain ⟨I, F, D, h1, _, h2⟩ := C120_formula exMonitor 2 exMonitor_ok false
  obtain ⟨g, g1, _, g2⟩ := C41_ltl_language exMonitor 2 exMonitor_ok
  refine ⟨I, F, D, h1, fun stmts hs => ?_⟩
  have key : ∀ w b, (do let g ← Graph.fromMonitor exMonitor 2 false; g.accepts w) = .ok b → (NfaDotAccepts stmts w ↔ b = true) := by
    intro w b hb
    rw [g1, Res.bind_ok] at hb
    obtain ⟨b', hb', k⟩ := g2 w
    rw [hb] at hb'
    cases hb'
    rw [h2 stmts hs w, k]
    constructor
    · rintro ⟨v, ls, q, e1, e2, e3, e4⟩
      exact ⟨ls, q, e2, by simpa [e1 rfl] using e3, e4⟩
    · rintro ⟨ls, q, e2, e3, e4⟩
      exact ⟨[], ls, q, fun _ => rfl, e2, by simpa using e3, e4⟩
  exact ⟨(key _ true (by decide +kernel)).2 rfl, fun h => by cases (key _ false (by decide +kernel)).1 h⟩

/-- words that end in 01, nondeterministically -/
def exDotNfa : NFADelta := [(0, [0, 1], [0]), (1, [], [2]), (2, [], [])]

example : String.ofList (nfaDumpDot [0] [2] exDotNfa) =
"digraph \"graph\" {
rankdir=\"LR\"  node[shape=\"circle\"]
  I [label=\"\", style=invis, width=0]
  I -> I0
  I0 [label=\"\"]
  I0 -> 0 [label=\"ε\"]
  0 [label=\"0\"]  0 -> 0 [label=\"0,1\"]
  0 -> 1 [label=\"0\"]
  1 [label=\"1\"]  1 -> 2 [label=\"1\"]
  2 [label=\"2\", peripheries=2]}
" := by decide +kernel

/-- The drawing accepts 101, and not 10. -/
example (stmts : List NfaStmt) (h : NfaDrawing (nfaDumpDot [0] [2] exDotNfa) stmts) : NfaDotAccepts stmts [true, false, true] ∧ ¬ NfaDotAccepts stmts [true, false] := by
  have hall : ∀ t ∈ exDotNfa, (∀ q ∈ t.2.1, q < exDotNfa.length) ∧ ∀ q ∈ t.2.2, q < exDotNfa.length := by decide
  obtain ⟨_, k⟩ := C120_words [0] [2] exDotNfa (by
    intro i t ht
    match i, ht with
    | 0, ht => cases ht; rfl
    | 1, ht => cases ht; rfl
    | 2, ht => cases ht; rfl) (by decide) hall
  constructor
  · rw [k stmts h]
    exact ⟨0, 2, by simp, .cons (q := 0) ⟨(0, [0, 1], [0]), rfl, by decide⟩ (.cons (q := 1) ⟨(0, [0, 1], [0]), rfl, by decide⟩
      (.cons (q := 2) ⟨(1, [], [2]), rfl, by decide⟩ (.nil _))), by simp⟩
  · rw [k stmts h]
    rintro ⟨p, r, hp, h1, hr⟩
    simp only [List.mem_singleton] at hp hr
    subst hp; subst hr
    cases h1 with
    | cons a1 h2 =>
      cases h2 with
      | cons a2 h3 =>
        cases h3
        obtain ⟨t, e1, e2⟩ := a1
        cases e1
        simp only [if_true, List.mem_singleton] at e2
        subst e2
        obtain ⟨t, e1, e2⟩ := a2
        cases e1
        simp at e2

end Homfa
