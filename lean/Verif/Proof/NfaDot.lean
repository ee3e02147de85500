import Verif.Model.NfaDot
import Verif.Spec.NfaDot
import Verif.Proof.Picture
/-!
# The drawing of a nondeterministic automaton
-/

namespace Homfa.NfaDot
open Homfa.Spec

/-- The text `os` is a drawing without its end: `ws` is the white space after the last statement. -/
def Open (os : List Char) (stmts : List NfaStmt) : Prop :=
  ∃ body ws, NfaBody body stmts ∧ (∀ c ∈ ws, c = ' ' ∨ c = '\n') ∧ os = dotHeader ++ "\n  I -> I0\n  I0 [label=\"\"]".toList ++ body ++ ws

theorem body_append {t u : List Char} {ss rs : List NfaStmt} (h : NfaBody t ss) (k : NfaBody u rs) : NfaBody (t ++ u) (ss ++ rs) := by
  induction h with
  | nil => exact k
  | cons ws t s ss h1 h2 _ ih =>
    have := NfaBody.cons ws (t ++ u) s (ss ++ rs) h1 h2 ih
    rw [← List.append_assoc] at this
    exact this

/-- a statement with two blanks before it and white space after it -/
theorem Open.add {os : List Char} {stmts : List NfaStmt} (h : Open os stmts) (s : NfaStmt) (ws' : List Char) (hw : ∀ c ∈ ws', c = ' ' ∨ c = '\n') :
    Open (os ++ "  ".toList ++ s.text ++ ws') (stmts ++ [s]) := by
  obtain ⟨body, ws, h1, h2, rfl⟩ := h
  refine ⟨body ++ (ws ++ "  ".toList ++ s.text), ws', ?_, hw, by simp only [List.append_assoc]⟩
  refine body_append h1 ?_
  have := NfaBody.cons (ws ++ "  ".toList) [] s [] (by simp) (by
    intro c hc
    rcases List.mem_append.1 hc with hc | hc
    · exact h2 c hc
    · left; simpa using hc) .nil
  rwa [List.append_nil] at this

theorem Open.fold {α : Type} {f : List Char → α → List Char} {g : α → List NfaStmt} : ∀ (l : List α) {os : List Char} {stmts : List NfaStmt},
    Open os stmts → (∀ a ∈ l, ∀ os stmts, Open os stmts → Open (f os a) (stmts ++ g a)) → Open (l.foldl f os) (stmts ++ l.flatMap g)
  | [], os, stmts, h, _ => by simpa using h
  | a :: l, os, stmts, h, hf => by
    rw [List.foldl_cons, List.flatMap_cons, ← List.append_assoc]
    exact Open.fold l (hf a List.mem_cons_self os stmts h) fun x hx => hf x (List.mem_cons_of_mem _ hx)

def arrows0 (q : Nat) (q0s q1s : List Nat) : List NfaStmt := q0s.flatMap fun r => [.edge q r (if r ∈ q1s then [false, true] else [false])]
def arrows1 (q : Nat) (q0s q1s : List Nat) : List NfaStmt := q1s.flatMap fun r => if r ∈ q0s then [] else [.edge q r [true]]

theorem find_none {l : List Nat} {r : Nat} : l.find? (· == r) = none ↔ r ∉ l := by
  rw [List.find?_eq_none]
  constructor
  · intro h hr; exact h r hr (by simp)
  · intro h x hx he
    rw [beq_iff_eq] at he
    exact h (he ▸ hx)

theorem showNat_eq (q : Nat) : showNat q = dotNum q := rfl

theorem arrows_open {os : List Char} {stmts : List NfaStmt} (h : Open os stmts) (q : Nat) (q0s q1s : List Nat) :
    Open (nfaDotArrows os q q0s q1s) (stmts ++ arrows0 q q0s q1s ++ arrows1 q q0s q1s) := by
  unfold nfaDotArrows
  dsimp only
  refine Open.fold (g := fun r => if r ∈ q0s then [] else [.edge q r [true]]) q1s
    (Open.fold (g := fun r => [.edge q r (if r ∈ q1s then [false, true] else [false])]) q0s h ?_) ?_
  · intro r _ os stmts h
    by_cases hr : r ∈ q1s
    · rw [if_neg (by rw [find_none]; exact fun h => h hr), if_pos hr]
      have := h.add (.edge q r [false, true]) ['\n'] (by simp)
      simpa [NfaStmt.text, DotStmt.text, dotLetters, List.intercalate, showNat_eq] using this
    · rw [if_pos (find_none.2 hr), if_neg hr]
      have := h.add (.edge q r [false]) ['\n'] (by simp)
      simpa [NfaStmt.text, DotStmt.text, dotLetters, List.intercalate, showNat_eq] using this
  · intro r _ os stmts h
    by_cases hr : r ∈ q0s
    · rw [if_neg (by rw [find_none]; exact fun h => h hr), if_pos hr]
      simpa using h
    · rw [if_pos (find_none.2 hr), if_neg hr]
      have := h.add (.edge q r [true]) ['\n'] (by simp)
      simpa [NfaStmt.text, DotStmt.text, dotLetters, List.intercalate, showNat_eq] using this

def rowStmts (finalSts : List Nat) (t : Nat × List Nat × List Nat) : List NfaStmt :=
  .node t.1 (finalSts.contains t.1) :: (arrows0 t.1 t.2.1 t.2.2 ++ arrows1 t.1 t.2.1 t.2.2)

theorem dump_drawing (initSts finalSts : List Nat) (delta : NFADelta) :
    NfaDrawing (nfaDumpDot initSts finalSts delta) (initSts.map .eps ++ delta.flatMap (rowStmts finalSts)) := by
  have h0 : Open ("digraph \"graph\" {\n".toList ++ "rankdir=\"LR\"".toList ++ "  node[shape=\"circle\"]\n".toList ++
    "  I [label=\"\", style=invis, width=0]\n".toList ++ "  I -> I0\n".toList ++ "  I0 [label=\"\"]\n".toList) [] :=
    ⟨[], ['\n'], .nil, by simp, by rfl⟩
  have h1 := Open.fold (f := fun os q => os ++ "  I0 -> ".toList ++ showNat q ++ " [label=\"ε\"]\n".toList) (g := fun q => [NfaStmt.eps q]) initSts h0 (by
    intro q _ os stmts h
    have := h.add (.eps q) ['\n'] (by simp)
    simpa [NfaStmt.text, showNat_eq] using this)
  have h2 := Open.fold (f := fun os (t : Nat × List Nat × List Nat) =>
    let os := os ++ "  ".toList ++ showNat t.1 ++ " [label=\"".toList ++ showNat t.1 ++ "\"".toList ++
      (if finalSts.contains t.1 then ", peripheries=2".toList else []) ++ "]".toList
    nfaDotArrows os t.1 t.2.1 t.2.2) (g := rowStmts finalSts) delta h1 (by
    intro t _ os stmts h
    dsimp only
    have h3 := h.add (.node t.1 (finalSts.contains t.1)) [] (by simp)
    have h4 := arrows_open h3 t.1 t.2.1 t.2.2
    have he : stmts ++ [NfaStmt.node t.1 (finalSts.contains t.1)] ++ arrows0 t.1 t.2.1 t.2.2 ++ arrows1 t.1 t.2.1 t.2.2 = stmts ++ rowStmts finalSts t := by
      simp [rowStmts]
    rw [he] at h4
    have ho : os ++ "  ".toList ++ (NfaStmt.node t.1 (finalSts.contains t.1)).text ++ [] =
      os ++ "  ".toList ++ showNat t.1 ++ " [label=\"".toList ++ showNat t.1 ++ "\"".toList ++
        (if finalSts.contains t.1 then ", peripheries=2".toList else []) ++ "]".toList := by
      simp only [NfaStmt.text, DotStmt.text, showNat_eq, List.append_nil, List.append_assoc]
    rw [ho] at h4
    exact h4)
  obtain ⟨body, ws, k1, k2, k3⟩ := h2
  refine ⟨body, ws, ?_, k2, ?_⟩
  · rw [List.nil_append] at k1
    rw [List.map_eq_flatMap]
    exact k1
  · unfold nfaDumpDot
    dsimp only at k3 ⊢
    rw [k3]

/-! ## One reading only -/

theorem letters_bracket (l : List Bool) : ∀ c ∈ dotLetters l, c ≠ ']' := by
  induction l with
  | nil => simp [dotLetters]
  | cons b l ih =>
    cases l with
    | nil => cases b <;> decide
    | cons c l =>
      have e : dotLetters (b :: c :: l) = (if b then ['1'] else ['0']) ++ ',' :: dotLetters (c :: l) := by
        simp [dotLetters, List.intercalate]
      rw [e]
      intro d hd
      rcases List.mem_append.1 hd with h | h
      · cases b <;> simp at h <;> subst h <;> decide
      · rcases List.mem_cons.1 h with rfl | h
        · decide
        · exact ih d h

theorem num_bracket (q : Nat) : ∀ c ∈ dotNum q, c ≠ ']' := by
  rintro c hc rfl
  have := (digits_showNat q).2 ']' hc
  revert this; decide

theorem free_append {u v : List Char} (h : ∀ c ∈ u, c ≠ ']') (k : ∀ c ∈ v, c ≠ ']') : ∀ c ∈ u ++ v, c ≠ ']' := by
  intro c hc
  rcases List.mem_append.1 hc with hc | hc
  · exact h c hc
  · exact k c hc

/-- a statement ends with its only closing bracket -/
theorem text_closed (s : NfaStmt) : ∃ u, s.text = u ++ [']'] ∧ ∀ c ∈ u, c ≠ ']' := by
  have b1 : "]".toList = [']'] := by decide
  have b2 : "\"]".toList = "\"".toList ++ [']'] := by decide
  have b3 : " [label=\"ε\"]".toList = " [label=\"ε\"".toList ++ [']'] := by decide
  have f1 : ∀ c ∈ " [label=\"".toList, c ≠ ']' := by decide
  have f2 : ∀ c ∈ "\"".toList, c ≠ ']' := by decide
  have f3 : ∀ c ∈ " -> ".toList, c ≠ ']' := by decide
  have f4 : ∀ c ∈ "I0 -> ".toList, c ≠ ']' := by decide
  have f5 : ∀ c ∈ " [label=\"ε\"".toList, c ≠ ']' := by decide
  have f6 : ∀ f : Bool, ∀ c ∈ (if f then ", peripheries=2".toList else []), c ≠ ']' := by decide
  cases s with
  | eps q =>
    refine ⟨"I0 -> ".toList ++ dotNum q ++ " [label=\"ε\"".toList, ?_, free_append (free_append f4 (num_bracket q)) f5⟩
    rw [NfaStmt.text, b3]; simp only [List.append_assoc]
  | node q f =>
    refine ⟨dotNum q ++ " [label=\"".toList ++ dotNum q ++ "\"".toList ++ (if f then ", peripheries=2".toList else []), ?_,
      free_append (free_append (free_append (free_append (num_bracket q) f1) (num_bracket q)) f2) (f6 f)⟩
    rw [NfaStmt.text, DotStmt.text, b1]
  | edge p q l =>
    refine ⟨dotNum p ++ " -> ".toList ++ dotNum q ++ " [label=\"".toList ++ dotLetters l ++ "\"".toList, ?_,
      free_append (free_append (free_append (free_append (free_append (num_bracket p) f3) (num_bracket q)) f1) (letters_bracket l)) f2⟩
    rw [NfaStmt.text, DotStmt.text, b2]; simp only [List.append_assoc]

theorem nfa_head (s : NfaStmt) : ∃ c r, s.text = c :: r ∧ ¬ (c = ' ' ∨ c = '\n') := by
  cases s with
  | eps q => exact ⟨'I', "0 -> ".toList ++ dotNum q ++ " [label=\"ε\"]".toList, rfl, by decide⟩
  | node q f => exact text_head (.node q f)
  | edge p q l => exact text_head (.edge p q l)

theorem eps_ne_num {q p : Nat} {x y : List Char} : "I0 -> ".toList ++ dotNum q ++ x ≠ dotNum p ++ y := by
  intro h
  obtain ⟨d, r, hd, hdig⟩ := num_head p
  rw [hd, show "I0 -> ".toList = 'I' :: "0 -> ".toList by decide] at h
  simp only [List.cons_append] at h
  injection h with h _
  rw [← h] at hdig
  revert hdig; decide

theorem nfa_text_inj {s s' : NfaStmt} (h : s.text = s'.text) : s = s' := by
  have hs : Sep ['\n'] := ⟨'\n', [], rfl, .inr rfl⟩
  cases s with
  | eps q =>
    cases s' with
    | eps q' =>
      simp only [NfaStmt.text, List.append_assoc] at h
      have h1 := List.append_cancel_left h
      rw [show " [label=\"ε\"]".toList = ' ' :: "[label=\"ε\"]".toList by decide] at h1
      obtain ⟨h2, _⟩ := num_eq (by decide) (by decide) h1
      rw [h2]
    | node q' f' =>
      simp only [NfaStmt.text, DotStmt.text] at h
      simp only [List.append_assoc (dotNum q')] at h
      exact absurd h eps_ne_num
    | edge p' q' l' =>
      simp only [NfaStmt.text, DotStmt.text] at h
      simp only [List.append_assoc (dotNum p')] at h
      exact absurd h eps_ne_num
  | node q f =>
    cases s' with
    | eps q' =>
      simp only [NfaStmt.text, DotStmt.text] at h
      simp only [List.append_assoc (dotNum q)] at h
      exact absurd h.symm eps_ne_num
    | node q' f' =>
      have := (text_inj (s := .node q f) (s' := .node q' f') hs hs (by rw [show (DotStmt.node q f).text = (DotStmt.node q' f').text from h])).1
      injection this with h1 h2
      rw [h1, h2]
    | edge p' q' l' =>
      have := (text_inj (s := .node q f) (s' := .edge p' q' l') hs hs (by rw [show (DotStmt.node q f).text = (DotStmt.edge p' q' l').text from h])).1
      cases this
  | edge p q l =>
    cases s' with
    | eps q' =>
      simp only [NfaStmt.text, DotStmt.text] at h
      simp only [List.append_assoc (dotNum p)] at h
      exact absurd h.symm eps_ne_num
    | node q' f' =>
      have := (text_inj (s := .edge p q l) (s' := .node q' f') hs hs (by rw [show (DotStmt.edge p q l).text = (DotStmt.node q' f').text from h])).1
      cases this
    | edge p' q' l' =>
      have := (text_inj (s := .edge p q l) (s' := .edge p' q' l') hs hs (by rw [show (DotStmt.edge p q l).text = (DotStmt.edge p' q' l').text from h])).1
      injection this with h1 h2 h3
      rw [h1, h2, h3]

theorem body_unique {a : List Char} {ss : List NfaStmt} (h : NfaBody a ss) : ∀ {b : List Char} {ss' : List NfaStmt} {ws ws' : List Char}, NfaBody b ss' →
    (∀ c ∈ ws, c = ' ' ∨ c = '\n') → (∀ c ∈ ws', c = ' ' ∨ c = '\n') → a ++ (ws ++ "}\n".toList) = b ++ (ws' ++ "}\n".toList) → ss = ss' := by
  have hb : "}\n".toList = '}' :: "\n".toList := by decide
  have clash : ∀ {w v u t : List Char} {s : NfaStmt}, (∀ c ∈ w, c = ' ' ∨ c = '\n') → (∀ c ∈ v, c = ' ' ∨ c = '\n') →
      w ++ "}\n".toList = v ++ s.text ++ t ++ u → False := by
    intro w v u t s hw hv e
    obtain ⟨c, r, hr, hc⟩ := nfa_head s
    obtain ⟨x, hx, hx2⟩ := text_closed s
    have e1 : w ++ '}' :: "\n".toList = v ++ c :: (r ++ t ++ u) := by
      rw [← hb, e, hr]; simp
    obtain ⟨_, e2⟩ := span_eq (fun c => c = ' ' ∨ c = '\n') (by decide) hc hw hv e1
    have : ']' ∈ '}' :: "\n".toList := by
      rw [e2]
      have : ']' ∈ c :: r := by rw [← hr, hx]; simp
      rw [← List.cons_append, ← List.cons_append]
      exact List.mem_append_left _ (List.mem_append_left _ this)
    revert this; decide
  induction h with
  | nil =>
    intro b ss' ws ws' h' h1 h2 e
    cases h' with
    | nil => rfl
    | cons v t s ss k1 k2 _ => exact (clash (s := s) (t := t) (u := ws' ++ "}\n".toList) h1 k2 (by simpa using e)).elim
  | cons v t s ss k1 k2 k3 ih =>
    intro b ss' ws ws' h' h1 h2 e
    cases h' with
    | nil => exact (clash (s := s) (t := t) (u := ws ++ "}\n".toList) h2 k2 (by simpa using e.symm)).elim
    | cons v' t' s' ss' j1 j2 j3 =>
      obtain ⟨c, r, hr, hc⟩ := nfa_head s
      obtain ⟨c', r', hr', hc'⟩ := nfa_head s'
      have e1 : v ++ c :: (r ++ (t ++ (ws ++ "}\n".toList))) = v' ++ c' :: (r' ++ (t' ++ (ws' ++ "}\n".toList))) := by
        simpa only [hr, hr', List.append_assoc, List.cons_append] using e
      obtain ⟨_, e2⟩ := span_eq (fun c => c = ' ' ∨ c = '\n') hc hc' k2 j2 e1
      have e3 : s.text ++ (t ++ (ws ++ "}\n".toList)) = s'.text ++ (t' ++ (ws' ++ "}\n".toList)) := by
        rw [hr, hr']; exact e2
      obtain ⟨x, hx, hx2⟩ := text_closed s
      obtain ⟨y, hy, hy2⟩ := text_closed s'
      rw [hx, hy, List.append_assoc, List.append_assoc] at e3
      obtain ⟨e4, e5⟩ := span_eq (fun c => c ≠ ']') (by simp) (by simp) hx2 hy2 e3
      have : s = s' := nfa_text_inj (by rw [hx, hy, e4])
      subst this
      injection e5 with _ e5
      rw [ih j3 h1 h2 e5]

end Homfa.NfaDot

/-- a text is a drawing in one way only -/
theorem Homfa.Spec.NfaDrawing.unique {text : List Char} {ss ss' : List Homfa.Spec.NfaStmt} (h : Homfa.Spec.NfaDrawing text ss) (h' : Homfa.Spec.NfaDrawing text ss') : ss = ss' := by
  obtain ⟨a, ws, h1, h2, rfl⟩ := h
  obtain ⟨b, ws', k1, k2, e⟩ := h'
  refine Homfa.NfaDot.body_unique h1 k1 h2 k2 ?_
  simp only [List.append_assoc] at e
  exact List.append_cancel_left (List.append_cancel_left (by simpa only [List.append_assoc] using e))
