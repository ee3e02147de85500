import Verif.Proof.Dot
import Verif.Proof.Text
import Verif.Spec.Picture
/-! A drawing can be read in one way only, and what a graph's drawing means. -/

namespace Homfa
open Spec

theorem span_eq (P : Char → Prop) {x y : Char} {r s : List Char} (hx : ¬ P x) (hy : ¬ P y) : ∀ {A B : List Char}, (∀ c ∈ A, P c) → (∀ c ∈ B, P c) →
    A ++ x :: r = B ++ y :: s → A = B ∧ x :: r = y :: s
  | [], [], _, _, h => ⟨rfl, h⟩
  | [], b :: B, _, hB, h => by
    injection h with h _
    exact absurd (h ▸ hB b (by simp)) hx
  | a :: A, [], hA, _, h => by
    injection h with h _
    exact absurd (h ▸ hA a (by simp)) hy
  | a :: A, b :: B, hA, hB, h => by
    injection h with h1 h2
    obtain ⟨h3, h4⟩ := span_eq P hx hy (fun c hc => hA c (by simp [hc])) (fun c hc => hB c (by simp [hc])) h2
    exact ⟨by rw [h1, h3], h4⟩

theorem num_eq {x y : Char} {r s : List Char} (hx : x.isDigit = false) (hy : y.isDigit = false) {m n : Nat} (h : dotNum m ++ x :: r = dotNum n ++ y :: s) :
    m = n ∧ x :: r = y :: s := by
  obtain ⟨h1, h2⟩ := span_eq (fun c => c.isDigit = true) (by simp [hx]) (by simp [hy]) (digits_showNat m).2 (digits_showNat n).2 h
  refine ⟨?_, h2⟩
  have : showNat m = showNat n := h1
  rw [← value_showNat m, ← value_showNat n, this]

theorem num_head (n : Nat) : ∃ d r, dotNum n = d :: r ∧ d.isDigit = true := by
  obtain ⟨h1, h2⟩ := digits_showNat n
  cases h : showNat n with
  | nil => exact absurd h h1
  | cons d r => exact ⟨d, r, h, h2 d (by simp [h])⟩

theorem letters_back : ∀ l : List Bool, (dotLetters l).filterMap (fun c => if c = ',' then none else some (decide (c = '1'))) = l := by
  have one : ∀ b : Bool, (if b then ['1'] else ['0'] : List Char).filterMap (fun c => if c = ',' then none else some (decide (c = '1'))) = [b] := by decide
  intro l
  induction l with
  | nil => rfl
  | cons b l ih =>
    cases l with
    | nil => cases b <;> decide
    | cons c l =>
      have e : dotLetters (b :: c :: l) = (if b then ['1'] else ['0']) ++ ',' :: dotLetters (c :: l) := by
        simp [dotLetters, List.intercalate]
      rw [e, List.filterMap_append, one, List.filterMap_cons_none (by simp), ih]
      rfl

theorem letters_quote (l : List Bool) : ∀ c ∈ dotLetters l, c ≠ '"' := by
  induction l with
  | nil => simp [dotLetters]
  | cons b l ih =>
    cases l with
    | nil => cases b <;> decide
    | cons c l =>
      have e : dotLetters (b :: c :: l) = (if b then ['1'] else ['0']) ++ ',' :: dotLetters (c :: l) := by
        simp [dotLetters, List.intercalate]
      rw [e]
      intro d hd
      rcases List.mem_append.1 hd with h | h
      · cases b <;> simp at h <;> subst h <;> decide
      · rcases List.mem_cons.1 h with rfl | h
        · decide
        · exact ih d h

/-- a blank or a newline comes next -/
def Sep (k : List Char) : Prop := ∃ c r, k = c :: r ∧ (c = ' ' ∨ c = '\n')

theorem Sep.notDigit {c : Char} (h : c = ' ' ∨ c = '\n') : c.isDigit = false := by rcases h with rfl | rfl <;> decide

theorem text_head (s : DotStmt) : ∃ c r, s.text = c :: r ∧ ¬ (c = ' ' ∨ c = '\n') := by
  have dig : ∀ {d : Char}, d.isDigit = true → ¬ (d = ' ' ∨ d = '\n') := fun h h' => by rw [Sep.notDigit h'] at h; cases h
  cases s with
  | start q => exact ⟨'I', " -> ".toList ++ dotNum q, rfl, by decide⟩
  | node q f =>
    obtain ⟨d, r, h, hd⟩ := num_head q
    exact ⟨d, r ++ (" [label=\"".toList ++ dotNum q ++ "\"".toList ++ (if f then ", peripheries=2".toList else []) ++ "]".toList), by
      simp only [DotStmt.text, h, List.append_assoc, List.cons_append], dig hd⟩
  | edge p q l =>
    obtain ⟨d, r, h, hd⟩ := num_head p
    exact ⟨d, r ++ (" -> ".toList ++ dotNum q ++ " [label=\"".toList ++ dotLetters l ++ "\"]".toList), by
      simp only [DotStmt.text, h, List.append_assoc, List.cons_append], dig hd⟩

theorem text_inj {s s' : DotStmt} {k k' : List Char} (hk : Sep k) (hk' : Sep k') (h : s.text ++ k = s'.text ++ k') : s = s' ∧ k = k' := by
  obtain ⟨c, r, rfl, hc⟩ := hk
  obtain ⟨c', r', rfl, hc'⟩ := hk'
  have a : "I -> ".toList = 'I' :: " -> ".toList := by decide
  have b : " [label=\"".toList = ' ' :: "[label=\"".toList := by decide
  have b2 : "[label=\"".toList = '[' :: "label=\"".toList := by decide
  have d : " -> ".toList = ' ' :: "-> ".toList := by decide
  have d2 : "-> ".toList = '-' :: "> ".toList := by decide
  have clash : ∀ (q : Nat) (x y : List Char), "I -> ".toList ++ x ≠ dotNum q ++ y := by
    intro q x y h
    obtain ⟨e, t, ht, he⟩ := num_head q
    rw [a, ht] at h
    injection h with h _
    rw [← h] at he
    revert he; decide
  have clash2 : ∀ (x y : List Char), " [label=\"".toList ++ x ≠ " -> ".toList ++ y := by
    intro x y h
    rw [b, d, b2, d2] at h
    injection h with _ h
    injection h with h _
    revert h; decide
  cases s with
  | start q =>
    cases s' with
    | start q' =>
      simp only [DotStmt.text, List.append_assoc] at h
      obtain ⟨h1, h2⟩ := num_eq (Sep.notDigit hc) (Sep.notDigit hc') (List.append_cancel_left h)
      exact ⟨by rw [h1], h2⟩
    | node q' f' =>
      simp only [DotStmt.text, List.append_assoc] at h
      exact absurd h (clash _ _ _)
    | edge p' q' l' =>
      simp only [DotStmt.text, List.append_assoc] at h
      exact absurd h (clash _ _ _)
  | node q f =>
    cases s' with
    | start q' =>
      simp only [DotStmt.text, List.append_assoc] at h
      exact absurd h.symm (clash _ _ _)
    | node q' f' =>
      simp only [DotStmt.text, List.append_assoc] at h
      rw [b] at h
      obtain ⟨h1, h2⟩ := num_eq (by decide) (by decide) h
      subst h1
      injection h2 with _ h2
      have h3 := List.append_cancel_left (List.append_cancel_left (List.append_cancel_left h2))
      have p : ", peripheries=2".toList = ',' :: " peripheries=2".toList := by decide
      have z : "]".toList = [']'] := by decide
      rw [p, z] at h3
      cases f <;> cases f'
      · simp only [Bool.false_eq_true, if_false, List.nil_append] at h3
        exact ⟨rfl, by simpa using h3⟩
      · simp at h3
      · simp at h3
      · simp only [if_true] at h3
        exact ⟨rfl, List.append_cancel_left (List.append_cancel_left h3)⟩
    | edge p' q' l' =>
      simp only [DotStmt.text, List.append_assoc] at h
      have h' := h
      rw [b, d] at h'
      obtain ⟨h1, h2⟩ := num_eq (by decide) (by decide) h'
      subst h1
      exact absurd (List.append_cancel_left h) (clash2 _ _)
  | edge p q l =>
    cases s' with
    | start q' =>
      simp only [DotStmt.text, List.append_assoc] at h
      exact absurd h.symm (clash _ _ _)
    | node q' f' =>
      simp only [DotStmt.text, List.append_assoc] at h
      have h' := h
      rw [b, d] at h'
      obtain ⟨h1, h2⟩ := num_eq (by decide) (by decide) h'
      subst h1
      exact absurd (List.append_cancel_left h).symm (clash2 _ _)
    | edge p' q' l' =>
      simp only [DotStmt.text, List.append_assoc] at h
      rw [d] at h
      obtain ⟨h1, h2⟩ := num_eq (by decide) (by decide) h
      subst h1
      injection h2 with _ h2
      have h3 := List.append_cancel_left h2
      rw [b] at h3
      obtain ⟨h4, h5⟩ := num_eq (by decide) (by decide) h3
      subst h4
      injection h5 with _ h5
      have h6 := List.append_cancel_left h5
      have z : "\"]".toList = '"' :: "]".toList := by decide
      rw [z] at h6
      obtain ⟨h7, h8⟩ := span_eq (fun c => c ≠ '"') (by simp) (by simp) (letters_quote l) (letters_quote l') h6
      have : l = l' := by rw [← letters_back l, ← letters_back l', h7]
      subst this
      injection h8 with _ h8
      exact ⟨rfl, List.append_cancel_left h8⟩

theorem Spec.DotBody.sep {t : List Char} {ss : List DotStmt} (h : DotBody t ss) : Sep (t ++ "\n}\n".toList) := by
  cases h with
  | nil => exact ⟨'\n', "}\n".toList, by decide, Or.inr rfl⟩
  | cons ws t s ss h1 h2 _ =>
    cases ws with
    | nil => exact absurd rfl h1
    | cons c ws => exact ⟨c, ws ++ s.text ++ t ++ "\n}\n".toList, by simp, h2 c (by simp)⟩

theorem Spec.DotBody.unique {a : List Char} {ss : List DotStmt} (h : DotBody a ss) : ∀ {b : List Char} {ss' : List DotStmt}, DotBody b ss' →
    a ++ "\n}\n".toList = b ++ "\n}\n".toList → ss = ss' := by
  induction h with
  | nil =>
    intro b ss' h' e
    cases h' with
    | nil => rfl
    | cons ws t s ss h1 h2 _ =>
      have : ([] : List Char) = ws ++ s.text ++ t := List.append_cancel_right e
      simp at this
      exact absurd this.1 h1
  | cons ws t s ss h1 h2 h3 ih =>
    intro b ss' h' e
    cases h' with
    | nil =>
      have : ws ++ s.text ++ t = [] := List.append_cancel_right e
      simp at this
      exact absurd this.1 h1
    | cons ws' t' s' ss' k1 k2 k3 =>
      obtain ⟨c, r, hr, hc⟩ := text_head s
      obtain ⟨c', r', hr', hc'⟩ := text_head s'
      have e1 : ws ++ c :: (r ++ (t ++ "\n}\n".toList)) = ws' ++ c' :: (r' ++ (t' ++ "\n}\n".toList)) := by
        simpa only [hr, hr', List.append_assoc, List.cons_append] using e
      obtain ⟨_, e2⟩ := span_eq (fun c => c = ' ' ∨ c = '\n') hc hc' h2 k2 e1
      have e3 : s.text ++ (t ++ "\n}\n".toList) = s'.text ++ (t' ++ "\n}\n".toList) := by
        rw [hr, hr']; exact e2
      obtain ⟨rfl, e4⟩ := text_inj h3.sep k3.sep e3
      rw [ih k3 e4]

/-- a text is a drawing in one way only -/
theorem Spec.DotDrawing.unique {text : List Char} {ss ss' : List DotStmt} (h : DotDrawing text ss) (h' : DotDrawing text ss') : ss = ss' := by
  obtain ⟨a, h1, rfl⟩ := h
  obtain ⟨b, h2, e⟩ := h'
  refine h1.unique h2 ?_
  rw [List.append_assoc, List.append_assoc] at e
  exact List.append_cancel_left e

namespace Graph
variable {g : Graph}

/-- the statements of the drawing of `g` -/
def dotStmts (g : Graph) : List DotStmt := .start g.init :: (List.range g.size).flatMap g.dotOf

theorem mem_dotStart {q : Nat} : .start q ∈ g.dotStmts ↔ q = g.init := by
  unfold dotStmts dotOf
  simp only [List.mem_cons, DotStmt.start.injEq, List.mem_flatMap, or_iff_left_iff_imp]
  rintro ⟨p, _, h⟩
  rcases h with h | h
  · cases h
  · split at h <;> simp at h

theorem mem_dotNode {q : Nat} {f : Bool} : .node q f ∈ g.dotStmts ↔ q < g.size ∧ f = g.fin q := by
  unfold dotStmts dotOf
  simp only [List.mem_cons, List.mem_flatMap, List.mem_range, reduceCtorEq, false_or]
  constructor
  · rintro ⟨p, hp, h | h⟩
    · cases h; exact ⟨hp, rfl⟩
    · split at h <;> simp at h
  · rintro ⟨h, rfl⟩
    exact ⟨q, h, Or.inl rfl⟩

theorem mem_dotEdge {p q : Nat} {b : Bool} : (∃ l, .edge p q l ∈ g.dotStmts ∧ b ∈ l) ↔ p < g.size ∧ q = g.nx p b := by
  unfold dotStmts dotOf
  simp only [List.mem_cons, List.mem_flatMap, List.mem_range, reduceCtorEq, false_or]
  constructor
  · rintro ⟨l, ⟨p', hp, h⟩, hb⟩
    split at h
    · next e =>
      simp at h
      obtain ⟨rfl, rfl, rfl⟩ := h
      refine ⟨hp, ?_⟩
      cases b
      · rfl
      · exact e
    · simp at h
      rcases h with ⟨rfl, rfl, rfl⟩ | ⟨rfl, rfl, rfl⟩ <;> (simp at hb; subst hb; exact ⟨hp, rfl⟩)
  · rintro ⟨hp, rfl⟩
    by_cases e : g.nx p false = g.nx p true
    · refine ⟨[false, true], ⟨p, hp, ?_⟩, by cases b <;> simp⟩
      rw [if_pos e]
      cases b <;> simp [e]
    · refine ⟨[b], ⟨p, hp, ?_⟩, by simp⟩
      rw [if_neg e]
      cases b <;> simp

theorem dotPath_iff (hg : g.WF) : ∀ (w : List Bool) {p q : Nat}, p < g.size → (DotPath g.dotStmts p w q ↔ q = w.foldl g.nx p) := by
  intro w
  induction w with
  | nil =>
    intro p q _
    constructor
    · intro h; cases h; rfl
    · rintro rfl; exact .here _
  | cons b w ih =>
    intro p q hp
    have hlt : g.nx p b < g.size := hg.nx_lt hp b
    constructor
    · intro h
      cases h with
      | arrow h1 h2 h3 =>
        obtain ⟨_, rfl⟩ := mem_dotEdge.1 ⟨_, h1, h2⟩
        exact (ih hlt).1 h3
    · intro h
      obtain ⟨l, h1, h2⟩ := mem_dotEdge.2 ⟨hp, (rfl : g.nx p b = g.nx p b)⟩
      exact .arrow h1 h2 ((ih hlt).2 h)

theorem dotAccepts_iff (hg : g.WF) (w : List Bool) : DotAccepts g.dotStmts w ↔ g.dfa.accepts w = true := by
  constructor
  · rintro ⟨p, q, h1, h2, h3⟩
    rw [mem_dotStart] at h1
    subst h1
    rw [dotPath_iff hg w hg.init_lt] at h2
    subst h2
    exact (mem_dotNode.1 h3).2.symm
  · intro h
    refine ⟨g.init, w.foldl g.nx g.init, mem_dotStart.2 rfl, (dotPath_iff hg w hg.init_lt).2 rfl, mem_dotNode.2 ⟨?_, h.symm⟩⟩
    exact (hg.run_ok hg.init_lt w).2

theorem dotStates_eq (g : Graph) : dotStates g.dotStmts = g.size := by
  have one : ∀ q, (g.dotOf q).countP DotStmt.isNode = 1 := by
    intro q
    unfold dotOf
    split <;> rfl
  have sum : ∀ l : List Nat, (l.flatMap g.dotOf).countP DotStmt.isNode = l.length := by
    intro l
    induction l with
    | nil => rfl
    | cons q l ih => rw [List.flatMap_cons, List.countP_append, one, ih, List.length_cons, Nat.add_comm]
  unfold dotStates dotStmts
  rw [List.countP_cons_of_neg (by simp [DotStmt.isNode]), sum, List.length_range]

/-- the drawing determines the printed specification -/
theorem dump_of_dotStmts {k : Graph} (hg : g.WF) (hk : k.WF) (h : g.dotStmts = k.dotStmts) : g.dump = k.dump := by
  have hs : g.size = k.size := by rw [← dotStates_eq g, ← dotStates_eq k, h]
  have hi : g.init = k.init := by
    have := mem_dotStart (g := g) (q := g.init)
    rw [h, mem_dotStart] at this
    simpa using this
  rw [dump_ok hg, dump_ok hk, hs]
  congr 2
  refine List.map_congr_left fun q hq => ?_
  have hq' : q < k.size := List.mem_range.1 hq
  have hf : g.fin q = k.fin q := by
    have := mem_dotNode (g := g) (q := q) (f := g.fin q)
    rw [h, mem_dotNode, hs] at this
    simpa [hq'] using this
  have hn : ∀ b, g.nx q b = k.nx q b := by
    intro b
    have := mem_dotEdge (g := g) (p := q) (q := g.nx q b) (b := b)
    rw [h, mem_dotEdge, hs] at this
    simpa [hq'] using this
  unfold dumpLine
  rw [hi, hf, hn, hn]

end Graph
end Homfa
