import Verif.Model.Text
import Verif.Spec.Text
import Verif.Proof.Nfa
/-! The scanners of the text formats agree with the declarative description. -/

namespace Homfa
open Spec

theorem getlines_cons_delim (d : Char) (l s : List Char) (h : d ∉ l) : getlines d (l ++ d :: s) = l :: getlines d s := by
  induction l with
  | nil => simp [getlines]
  | cons c l ih =>
    simp only [List.mem_cons, not_or] at h
    rw [List.cons_append, getlines, if_neg (fun e => h.1 e.symm), ih h.2]

theorem getlines_nodelim (d : Char) (l : List Char) (h : d ∉ l) (hne : l ≠ []) : getlines d l = [l] := by
  induction l with
  | nil => exact absurd rfl hne
  | cons c l ih =>
    simp only [List.mem_cons, not_or] at h
    rw [getlines, if_neg (fun e => h.1 e.symm)]
    cases l with
    | nil => rfl
    | cons c' l => rw [ih h.2 (by simp)]

theorem getlines_ne_nil {d : Char} {s : List Char} (h : s ≠ []) : getlines d s ≠ [] := by
  cases s with
  | nil => exact absurd rfl h
  | cons c s =>
    rw [getlines]
    split
    · simp
    · split <;> simp

theorem getlines_eq_nil {d : Char} {s : List Char} : getlines d s = [] ↔ s = [] :=
  ⟨fun h => by by_contra hne; exact getlines_ne_nil hne h, fun h => by subst h; rfl⟩

theorem not_mem_getlines {d : Char} {s : List Char} : ∀ l ∈ getlines d s, d ∉ l := by
  induction s with
  | nil => simp [getlines]
  | cons c s ih =>
    intro l hl
    rw [getlines] at hl
    split at hl
    · rcases List.mem_cons.1 hl with rfl | hl
      · simp
      · exact ih l hl
    · rename_i hc
      split at hl
      · simp at hl; subst hl; simpa using fun e => hc e.symm
      · rename_i l' ls' he
        rcases List.mem_cons.1 hl with rfl | hl
        · have := ih l' (by rw [he]; simp)
          simp only [List.mem_cons, not_or]; exact ⟨fun e => hc e.symm, this⟩
        · exact ih l (by rw [he]; simp [hl])

/-- every text is its lines, each ended by the delimiter, up to one missing final delimiter -/
theorem getlines_flat (d : Char) (s : List Char) :
    s = (getlines d s).flatMap (· ++ [d]) ∨
      (s ++ [d] = (getlines d s).flatMap (· ++ [d]) ∧ getlines d s ≠ [] ∧ (getlines d s).getLast? ≠ some []) := by
  induction s with
  | nil => left; rfl
  | cons c s ih =>
    rw [getlines]
    by_cases hc : c = d
    · rw [if_pos hc]
      subst hc
      rcases ih with ih | ⟨ih, h1, h2⟩
      · left; rw [List.flatMap_cons, ← ih]; rfl
      · right
        refine ⟨by rw [List.flatMap_cons, ← ih]; simp, by simp, ?_⟩
        rw [List.getLast?_cons]
        cases hg : (getlines c s).getLast? with
        | none => simp at hg; exact absurd hg h1
        | some x => rw [hg] at h2; simpa using h2
    · rw [if_neg hc]
      cases hg : getlines d s with
      | nil =>
        rw [getlines_eq_nil] at hg; subst hg
        right; simp
      | cons l ls =>
        rw [hg] at ih
        simp only [List.flatMap_cons] at ih ⊢
        rcases ih with ih | ⟨ih, h1, h2⟩
        · left; simpa using ih
        · right
          refine ⟨by simpa using ih, by simp, ?_⟩
          cases ls with
          | nil => simp
          | cons x xs => simpa [List.getLast?_cons] using h2

theorem getlines_unlines {d : Char} {ls : List (List Char)} (h : ∀ l ∈ ls, d ∉ l) :
    getlines d (ls.flatMap (· ++ [d])) = ls := by
  induction ls with
  | nil => rfl
  | cons l ls ih =>
    rw [List.flatMap_cons, List.append_assoc, List.singleton_append, getlines_cons_delim _ _ _ (h l (by simp)),
      ih (fun l hl => h l (by simp [hl]))]

theorem getlines_unlines' {d : Char} {ls : List (List Char)} {s : List Char} (h : ∀ l ∈ ls, d ∉ l)
    (he : s ++ [d] = ls.flatMap (· ++ [d])) (hne : ls ≠ []) (hl : ls.getLast? ≠ some []) : getlines d s = ls := by
  induction ls generalizing s with
  | nil => exact absurd rfl hne
  | cons l ls ih =>
    cases ls with
    | nil =>
      simp at he
      subst he
      refine getlines_nodelim d s (h s (by simp)) ?_
      rintro rfl; simp at hl
    | cons m ms =>
      rw [List.flatMap_cons, List.append_assoc, List.singleton_append] at he
      have hlen : l.length + 1 ≤ s.length := by
        have := congrArg List.length he
        simp at this; omega
      obtain ⟨t, ht⟩ : ∃ t, s = l ++ d :: t := by
        have h1 : (s ++ [d]).take (l.length + 1) = l ++ [d] := by
          rw [he, show l ++ d :: List.flatMap (· ++ [d]) (m :: ms) = (l ++ [d]) ++ List.flatMap (· ++ [d]) (m :: ms) by simp]
          exact List.take_left' (by simp)
        have h2 : s.take (l.length + 1) = l ++ [d] := by
          rw [← h1, List.take_append_of_le_length hlen]
        refine ⟨s.drop (l.length + 1), ?_⟩
        have := List.take_append_drop (l.length + 1) s
        rw [h2] at this
        simpa using this.symm
      subst ht
      rw [getlines_cons_delim _ _ _ (h l (by simp))]
      congr 1
      refine ih (fun l hl => h l (by simp [hl])) ?_ (by simp) (by simpa [List.getLast?_cons] using hl)
      simpa using he

theorem textLines_iff {text : List Char} {ls : List (List Char)} : TextLines text ls ↔ getlines '\n' text = ls := by
  constructor
  · rintro ⟨h, rfl | ⟨h1, h2, h3⟩⟩
    · exact getlines_unlines h
    · exact getlines_unlines' h h1 h2 h3
  · rintro rfl
    exact ⟨not_mem_getlines, getlines_flat _ _⟩

theorem isSpace_iff {c : Char} : isSpace c = true ↔ Blank c := by
  simp [isSpace, Blank, or_assoc]

theorem value_eq (s : List Char) : Nat.ofDigitChars 10 s 0 = value s := by
  rw [Nat.ofDigitChars_eq_foldl]; rfl

theorem stoi_digits {s : List Char} (h : Digits s) : stoi s = if value s < 2 ^ 31 then .ok (value s) else .error .outOfRange := by
  unfold stoi; rw [if_neg h.1, value_eq]

theorem digits_showNat (n : Nat) : Digits (showNat n) :=
  ⟨Nat.toDigits_ne_nil, fun _ hc => Nat.isDigit_of_mem_toDigits (by decide) (by decide) hc⟩

theorem value_showNat (n : Nat) : value (showNat n) = n := by
  rw [← value_eq]; exact Nat.ofDigitChars_ten_toDigits

theorem stoi_showNat {n : Nat} (h : n < 2 ^ 31) : stoi (showNat n) = .ok n := by
  rw [stoi_digits (digits_showNat n), value_showNat, if_pos h]

theorem isTargetField_iff {t : List Char} : isTargetField t = true ↔ TargetField t := by
  simp [isTargetField, TargetField]

/-- digits, commas, underscores and the marks are no blanks -/
theorem digit_not_space {c : Char} (h : c.isDigit = true) : isSpace c = false := by
  by_contra hs
  simp only [Bool.not_eq_false] at hs
  rw [isSpace_iff] at hs
  simp only [Blank, List.mem_cons, List.not_mem_nil, or_false] at hs
  rcases hs with rfl | rfl | rfl | rfl | rfl | rfl <;> revert h <;> decide

theorem targetField_not_space {t : List Char} (h : TargetField t) : ∀ c ∈ t, isSpace c = false := by
  rcases h with rfl | ⟨_, h⟩
  · decide
  · intro c hc
    rcases h c hc with h | rfl
    · exact digit_not_space h
    · decide

theorem targetField_ne_nil {t : List Char} (h : TargetField t) : t ≠ [] := by
  rcases h with rfl | ⟨h, _⟩
  · simp
  · exact h

theorem mem_takeWhile_imp {p : Char → Bool} {s : List Char} {c : Char} (h : c ∈ s.takeWhile p) : p c = true := by
  induction s with
  | nil => simp at h
  | cons d s ih =>
    rw [List.takeWhile_cons] at h
    split at h
    · rcases List.mem_cons.1 h with rfl | h
      · assumption
      · exact ih h
    · simp at h

theorem takeWhile_all {p : Char → Bool} {a b : List Char} (ha : ∀ c ∈ a, p c = true) (hb : ∀ c ∈ b.head?, p c = false) :
    (a ++ b).takeWhile p = a ∧ (a ++ b).dropWhile p = b := by
  induction a with
  | nil =>
    cases b with
    | nil => simp
    | cons c b => simp at hb; simp [hb]
  | cons c a ih =>
    have := ih (fun c hc => ha c (by simp [hc]))
    simp [ha c (by simp), this]

theorem matchSpecLine_iff {line : List Char} {ini fin : Bool} {num t0 t1 : List Char} :
    matchSpecLine line = some (ini, num, fin, t0, t1) ↔ SpecLine line ini num fin t0 t1 := by
  constructor
  · intro h
    unfold matchSpecLine at h
    simp only [Option.ite_none_right_eq_some, Option.some.injEq, Prod.mk.injEq] at h
    obtain ⟨hc, rfl, rfl, rfl, rfl, rfl⟩ := h
    generalize hs1 : (if line.head? = some '>' then line.tail else line) = s1 at *
    generalize hs2 : s1.dropWhile Char.isDigit = s2 at *
    generalize hs3 : (if s2.head? = some '*' then s2.tail else s2) = s3 at *
    generalize hs4 : s3.dropWhile isSpace = s4 at *
    generalize hs5 : s4.dropWhile (fun c => !isSpace c) = s5 at *
    simp only [Bool.and_eq_true, Bool.not_eq_true', List.isEmpty_eq_false_iff, isTargetField_iff] at hc
    obtain ⟨⟨⟨⟨h1, h2⟩, h3⟩, h4⟩, h5⟩ := hc
    refine ⟨s3.takeWhile isSpace, s5.takeWhile isSpace, ?_, ⟨h1, ?_⟩, h3, h5, h2, ?_, h4, ?_⟩
    · rw [List.takeWhile_append_dropWhile, ← hs5, List.takeWhile_append_dropWhile, ← hs4, List.takeWhile_append_dropWhile]
      have e2 : (if decide (s2.head? = some '*') = true then ['*'] else []) ++ s3 = s2 := by
        rw [← hs3]
        cases s2 with
        | nil => simp
        | cons c s => by_cases hc : c = '*' <;> simp [hc]
      rw [e2, ← hs2, List.takeWhile_append_dropWhile, ← hs1]
      cases line with
      | nil => simp
      | cons c s => by_cases hc : c = '>' <;> simp [hc]
    · intro c hc; exact mem_takeWhile_imp hc
    · intro c hc; exact isSpace_iff.1 (mem_takeWhile_imp hc)
    · intro c hc; exact isSpace_iff.1 (mem_takeWhile_imp hc)
  · rintro ⟨b1, b2, rfl, hn, h0, h1, hb1, hb1', hb2, hb2'⟩
    have hdig : ∀ c ∈ num, c.isDigit = true := hn.2
    have hsp1 : ∀ c ∈ b1, isSpace c = true := fun c hc => isSpace_iff.2 (hb1' c hc)
    have hsp2 : ∀ c ∈ b2, isSpace c = true := fun c hc => isSpace_iff.2 (hb2' c hc)
    have headmem : ∀ {l m : List Char}, l ≠ [] → ∀ c ∈ (l ++ m).head?, c ∈ l := by
      intro l m hl c hc
      cases l with
      | nil => exact absurd rfl hl
      | cons x l => simp at hc; subst hc; simp
    -- heads of the successive suffixes
    have hd5 : ∀ c ∈ t1.head?, isSpace c = false := fun c hc =>
      targetField_not_space h1 c (List.mem_of_mem_head? hc)
    have hd4 : ∀ c ∈ (b2 ++ t1).head?, (!isSpace c) = false := fun c hc => by
      rw [hsp2 c (headmem hb2 c hc)]; rfl
    have hd3 : ∀ c ∈ (t0 ++ (b2 ++ t1)).head?, isSpace c = false := fun c hc =>
      targetField_not_space h0 c (headmem (targetField_ne_nil h0) c hc)
    have hd2 : ∀ c ∈ (b1 ++ (t0 ++ (b2 ++ t1))).head?, isSpace c = true := fun c hc => hsp1 c (headmem hb1 c hc)
    have hstar : (b1 ++ (t0 ++ (b2 ++ t1))).head? ≠ some '*' := by
      intro e
      have := hd2 '*' e
      revert this; decide
    have hd1 : ∀ c ∈ ((if fin then ['*'] else []) ++ (b1 ++ (t0 ++ (b2 ++ t1)))).head?, c.isDigit = false := by
      intro c hc
      cases fin
      · simp only [Bool.false_eq_true, if_false, List.nil_append] at hc
        have := hd2 c hc
        by_contra hd
        rw [digit_not_space (by simpa using hd)] at this
        exact absurd this (by decide)
      · simp at hc; subst hc; decide
    have hgt : (num ++ ((if fin then ['*'] else []) ++ (b1 ++ (t0 ++ (b2 ++ t1))))).head? ≠ some '>' := by
      intro e
      have := hdig '>' (headmem hn.1 _ e)
      revert this; decide
    obtain ⟨n1, n2⟩ := takeWhile_all (p := Char.isDigit) hdig hd1
    obtain ⟨p1, p2⟩ := takeWhile_all (p := isSpace) hsp1 hd3
    obtain ⟨q1, q2⟩ := takeWhile_all (p := fun c => !isSpace c) (a := t0)
      (fun c hc => by rw [targetField_not_space h0 c hc]; rfl) hd4
    obtain ⟨r1, r2⟩ := takeWhile_all (p := isSpace) hsp2 hd5
    unfold matchSpecLine
    have e1 : decide (((if ini then ['>'] else []) ++ (num ++ ((if fin then ['*'] else []) ++ (b1 ++ (t0 ++ (b2 ++ t1)))))).head?
        = some '>') = ini := by
      cases ini
      · simpa using hgt
      · simp
    have e2 : decide (((if fin then ['*'] else []) ++ (b1 ++ (t0 ++ (b2 ++ t1)))).head? = some '*') = fin := by
      cases fin
      · simpa using hstar
      · simp
    have e1' : (if ((if ini then ['>'] else []) ++ (num ++ ((if fin then ['*'] else []) ++ (b1 ++ (t0 ++ (b2 ++ t1)))))).head?
        = some '>' then ((if ini then ['>'] else []) ++ (num ++ ((if fin then ['*'] else []) ++ (b1 ++ (t0 ++ (b2 ++ t1)))))).tail
        else ((if ini then ['>'] else []) ++ (num ++ ((if fin then ['*'] else []) ++ (b1 ++ (t0 ++ (b2 ++ t1))))))) =
        num ++ ((if fin then ['*'] else []) ++ (b1 ++ (t0 ++ (b2 ++ t1)))) := by
      cases ini
      · rw [if_neg (by simpa using hgt)]; simp
      · simp
    have e2' : (if ((if fin then ['*'] else []) ++ (b1 ++ (t0 ++ (b2 ++ t1)))).head? = some '*' then
        ((if fin then ['*'] else []) ++ (b1 ++ (t0 ++ (b2 ++ t1)))).tail else
        ((if fin then ['*'] else []) ++ (b1 ++ (t0 ++ (b2 ++ t1))))) = b1 ++ (t0 ++ (b2 ++ t1)) := by
      cases fin
      · rw [if_neg (by simpa using hstar)]; simp
      · simp
    dsimp only
    rw [e1, e1', n1, n2, e2, e2', p1, p2, q1, q2, r1, r2]
    have hcond : (!num.isEmpty && !b1.isEmpty && isTargetField t0 && !b2.isEmpty && isTargetField t1) = true := by
      simp only [Bool.and_eq_true, Bool.not_eq_true', List.isEmpty_eq_false_iff, isTargetField_iff]
      exact ⟨⟨⟨⟨hn.1, hb1⟩, h0⟩, hb2⟩, h1⟩
    rw [if_pos hcond]

theorem matchSpecLine_none {line : List Char} : matchSpecLine line = none ↔ NotSpecLine line := by
  unfold NotSpecLine
  constructor
  · rintro h ⟨ini, num, fin, t0, t1, hs⟩
    rw [matchSpecLine_iff.2 hs] at h
    simp at h
  · intro h
    cases hm : matchSpecLine line with
    | none => rfl
    | some r => exact absurd ⟨r.1, r.2.1, r.2.2.1, r.2.2.2.1, r.2.2.2.2, matchSpecLine_iff.1 hm⟩ h

/-! ### state lists -/

theorem getlines_join {items : List (List Char)} (hne : items ≠ []) (h : ∀ i ∈ items, Digits i) :
    getlines ',' (joinItems items) = items ∧ getlines ',' (joinItems items ++ [',']) = items := by
  have hc : ∀ {i : List Char}, Digits i → ',' ∉ i := by
    intro i hi hm
    have := hi.2 _ hm
    revert this; decide
  induction items with
  | nil => exact absurd rfl hne
  | cons i is ih =>
    cases is with
    | nil =>
      have hi := h i (by simp)
      refine ⟨getlines_nodelim _ _ (hc hi) hi.1, ?_⟩
      show getlines ',' (i ++ [',']) = [i]
      rw [getlines_cons_delim _ _ _ (hc hi)]; rfl
    | cons j js =>
      obtain ⟨a, b⟩ := ih (by simp) (fun i hi => h i (by simp [hi]))
      have hi := h i (by simp)
      refine ⟨?_, ?_⟩
      · rw [joinItems, getlines_cons_delim _ _ _ (hc hi), a]
      · rw [joinItems, List.append_assoc, List.cons_append, getlines_cons_delim _ _ _ (hc hi), b]

theorem join_getlines {t : List Char} (h : t ≠ []) :
    t = joinItems (getlines ',' t) ∨ t = joinItems (getlines ',' t) ++ [','] := by
  induction t with
  | nil => exact absurd rfl h
  | cons c t ih =>
    rw [getlines]
    by_cases hc : c = ','
    · rw [if_pos hc]; subst hc
      cases t with
      | nil => right; rfl
      | cons d t =>
        have ih := ih (by simp)
        cases hg : getlines ',' (d :: t) with
        | nil => rw [getlines_eq_nil] at hg; simp at hg
        | cons l ls => rw [hg] at ih; simpa [joinItems] using ih
    · rw [if_neg hc]
      cases t with
      | nil => left; rfl
      | cons d t =>
        have ih := ih (by simp)
        cases hg : getlines ',' (d :: t) with
        | nil => rw [getlines_eq_nil] at hg; simp at hg
        | cons l ls =>
          rw [hg] at ih
          cases ls with
          | nil => simpa [joinItems] using ih
          | cons m ms => simpa [joinItems] using ih

theorem mem_getlines_mem {d : Char} {s l : List Char} (hl : l ∈ getlines d s) {c : Char} (hc : c ∈ l) : c ∈ s ∧ c ≠ d := by
  refine ⟨?_, fun e => not_mem_getlines l hl (e ▸ hc)⟩
  have key : c ∈ s ∨ c ∈ s ++ [d] := by
    have hm : c ∈ (getlines d s).flatMap (· ++ [d]) := List.mem_flatMap.2 ⟨l, hl, by simp [hc]⟩
    rcases getlines_flat d s with h | ⟨h, _⟩
    · left; rw [h]; exact hm
    · right; rw [h]; exact hm
  rcases key with h | h
  · exact h
  · rcases List.mem_append.1 h with h | h
    · exact h
    · simp at h; exact absurd (h ▸ hc) (not_mem_getlines l hl)

theorem loadStates_iff {t : List Char} (ht : TargetField t) {l : List Nat} : loadStates t = .ok l ↔ Targets t l := by
  unfold loadStates Targets
  by_cases hu : t = ['_']
  · rw [if_pos hu]
    constructor
    · intro h; injection h with h; exact .inl ⟨hu, h.symm⟩
    · rintro (⟨_, rfl⟩ | ⟨items, hne, hd, he, rfl⟩)
      · rfl
      · exfalso
        have hg : getlines ',' t = items := by
          rcases he with rfl | rfl
          · exact (getlines_join hne (fun i hi => (hd i hi).1)).1
          · exact (getlines_join hne (fun i hi => (hd i hi).1)).2
        rw [hu] at hg
        have hg : [['_']] = items := hg
        have := (hd ['_'] (by rw [← hg]; simp)).1.2 '_' (by simp)
        revert this; decide
  · rw [if_neg hu]
    have hfield : ∀ i ∈ getlines ',' t, i ≠ [] → Digits i := by
      intro i hi hne
      refine ⟨hne, fun c hc => ?_⟩
      obtain ⟨h1, h2⟩ := mem_getlines_mem hi hc
      rcases ht with rfl | ⟨_, h⟩
      · exact absurd rfl hu
      · rcases h c h1 with h | h
        · exact h
        · exact absurd h h2
    have hstoi : ∀ i ∈ getlines ',' t, ∀ v, (match stoi i with | .error .invalidArgument => .error .die | r => r : Res Nat) = .ok v ↔
        (Digits i ∧ value i < 2 ^ 31 ∧ v = value i) := by
      intro i hi v
      by_cases hne : i = []
      · subst hne; simp [stoi, Digits]
      · have hd := hfield i hi hne
        rw [stoi_digits hd]
        by_cases hv : value i < 2 ^ 31
        · rw [if_pos hv]
          constructor
          · intro e; injection e with e; exact ⟨hd, hv, e.symm⟩
          · rintro ⟨_, _, rfl⟩; rfl
        · rw [if_neg hv]
          constructor
          · intro e; simp at e
          · rintro ⟨_, h, _⟩; exact absurd h hv
    rw [mapM_eq_ok]
    constructor
    · rintro ⟨hlen, hall⟩
      refine .inr ⟨getlines ',' t, ?_, ?_, join_getlines (targetField_ne_nil ht), ?_⟩
      · exact getlines_ne_nil (targetField_ne_nil ht)
      · intro i hi
        obtain ⟨k, hk, rfl⟩ := List.getElem_of_mem hi
        have := (hstoi _ hi _).1 (hall k hk (by omega))
        exact ⟨this.1, this.2.1⟩
      · refine List.ext_getElem (by simpa using hlen) ?_
        intro k h1 h2
        simp only [List.length_map] at h2
        have := (hstoi _ (List.getElem_mem h2) _).1 (hall k h2 h1)
        simp [this.2.2]
    · rintro (⟨h, _⟩ | ⟨items, hne, hd, he, rfl⟩)
      · exact absurd h hu
      · have hg : getlines ',' t = items := by
          rcases he with rfl | rfl
          · exact (getlines_join hne (fun i hi => (hd i hi).1)).1
          · exact (getlines_join hne (fun i hi => (hd i hi).1)).2
        refine ⟨by simp [hg], ?_⟩
        intro k h1 h2
        have hm := List.getElem_mem h1
        have hd' := hd ((getlines ',' t)[k]) (by rw [← hg]; exact hm)
        refine (hstoi _ hm _).2 ⟨hd'.1, hd'.2, ?_⟩
        simp [hg]

/-- `loadStates` fails only in the two documented ways. -/
theorem loadStates_err {t : List Char} {e : Err} (h : loadStates t = .error e) : e = .die ∨ e = .outOfRange := by
  unfold loadStates at h
  split at h
  · simp at h
  · obtain ⟨x, _, hx⟩ := mapM_err h
    unfold stoi at hx
    by_cases hl : x = []
    · simp [hl] at hx; exact .inl hx.symm
    · simp only [hl, if_false] at hx
      by_cases hv : Nat.ofDigitChars 10 x 0 < 2 ^ 31
      · simp [hv] at hx
      · simp only [hv, if_false] at hx
        injection hx with hx
        exact .inr hx.symm

end Homfa
