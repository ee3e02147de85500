import Verif.Proof.Diagnose
import Verif.Props.Text
/-!
# Property C121: what the log says about a bad specification
-/

namespace Homfa
open Homfa.Spec

theorem finishSpec_not_die {rows : List Row} : finishSpec (rows.foldl addRow emptySpec) ≠ .error .die := by
  by_cases hne : rows = []
  · subst hne; decide
  · rcases finishSpec_rows hne with ⟨g, h, _⟩ | ⟨h, _⟩ <;> rw [h] <;> simp

theorem fromIstreamSaid_read {text : List Char} {lines : List (List Char)} {rows : List Row} (ht : TextLines text lines) (hr : SpecRows 0 lines rows) :
    ∃ n, SkipNotes lines n ∧ fromIstreamSaid text = ⟨n, finishSpec (rows.foldl addRow emptySpec)⟩ := by
  obtain ⟨n, h1, h2⟩ := specLinesSaid_ok (specRows_fold hr (p := emptySpec) rfl)
  refine ⟨n, h1, ?_⟩
  unfold fromIstreamSaid
  rw [textLines_iff.1 ht, show ({ initSts := [], finalSts := [], delta := [], isDfa := true } : SpecSt) = emptySpec from rfl, Said.bind_of_ok h2]
  simp [silent]

/-- **C121 (the log of a specification that is read).** Reading a well-formed specification writes one note for each line that is skipped, in order, and nothing else. -/
theorem C121_read (text : List Char) (lines : List (List Char)) (rows : List Row) (ht : TextLines text lines) (hr : SpecRows 0 lines rows) :
    ∃ n, SkipNotes lines n ∧ (fromIstreamSaid text).notes = n ∧ (fromIstreamSaid text).res = Graph.fromIstream text := by
  obtain ⟨n, h1, h2⟩ := fromIstreamSaid_read ht hr
  exact ⟨n, h1, by rw [h2], by rw [h2, fromIstream_rows ht hr]⟩

/-- **C121 (a line at fault).** If the lines before it are a well-formed specification of `k` states, and the line has an empty item or a number other than `k`, the program
gives up; the log holds the notes about the lines skipped so far, the message about this line, and a backtrace. -/
theorem C121_fault (text : List Char) (a b : List (List Char)) (l m : List Char) (rows : List Row) (ht : TextLines text (a ++ l :: b)) (hr : SpecRows 0 a rows)
    (hf : Fault rows.length l m) :
    ∃ n, SkipNotes a n ∧ (fromIstreamSaid text).notes = n ++ [.error m, .error "Preparing backtrace...".toList, .backtrace] ∧ (fromIstreamSaid text).res = .error .die := by
  obtain ⟨n, h1, h2⟩ := specLinesSaid_ok (specRows_fold hr (p := emptySpec) rfl)
  have hlen : (rows.foldl addRow emptySpec).delta.length = rows.length := (rows_state rows).1
  have h3 : specLinesSaid (rows.foldl addRow emptySpec) (l :: b) = ⟨lastWords m, .error .die⟩ := by
    rw [specLinesSaid]
    exact Said.bind_of_err (specLineSaid_fault (hlen ▸ hf))
  have h4 : fromIstreamSaid text = ⟨n ++ lastWords m, .error .die⟩ := by
    unfold fromIstreamSaid
    rw [textLines_iff.1 ht]
    refine Said.bind_of_err ?_
    have := specLinesSaid_append (b := l :: b) h2
    rw [h3] at this
    exact this
  exact ⟨n, h1, by rw [h4]; rfl, by rw [h4]⟩

/-- **C121 (every end by a message).** Whenever reading a specification ends with a message, a first line is at fault, and the message is the one about it. -/
theorem C121_blames (text : List Char) (lines : List (List Char)) (ht : TextLines text lines) :
    (fromIstreamSaid text).res = Graph.fromIstream text ∧
    (Graph.fromIstream text = .error .die →
      ∃ a l b rows m n, lines = a ++ l :: b ∧ SpecRows 0 a rows ∧ Fault rows.length l m ∧ SkipNotes a n ∧
        (fromIstreamSaid text).notes = n ++ [.error m, .error "Preparing backtrace...".toList, .backtrace]) ∧
    (Graph.fromIstream text ≠ .error .die → ∃ a b n, lines = a ++ b ∧ SkipNotes a n ∧ (fromIstreamSaid text).notes = n) := by
  cases hp : lines.foldlM specLine emptySpec with
  | ok p =>
    obtain ⟨rows, hr⟩ := specRows_of_fold hp
    obtain ⟨n, h1, h2⟩ := fromIstreamSaid_read ht hr
    have h3 := fromIstream_rows ht hr
    refine ⟨by rw [h2, h3], ?_, ?_⟩
    · intro h
      rw [h3] at h
      exact absurd h finishSpec_not_die
    · exact fun _ => ⟨lines, [], n, by simp, h1, by rw [h2]⟩
  | error e =>
    obtain ⟨a, l, b, p, h1, h2, h3⟩ := first_bad _ _ _ hp
    obtain ⟨rows, hr⟩ := specRows_of_fold h2
    have hpe : p = rows.foldl addRow emptySpec := by
      rw [specRows_fold hr rfl] at h2
      exact (Except.ok.inj h2).symm
    have hlen : p.delta.length = rows.length := hpe ▸ (rows_state rows).1
    obtain ⟨n, k1, k2⟩ := specLinesSaid_ok h2
    have hg : Graph.fromIstream text = .error e := by
      unfold Graph.fromIstream
      rw [textLines_iff.1 ht, show ({ initSts := [], finalSts := [], delta := [], isDfa := true } : SpecSt) = emptySpec from rfl, hp]
      rfl
    rcases specLineSaid_cases p l with ⟨_, e2, _⟩ | ⟨_, ⟨p', e2, _⟩ | ⟨e2, e3⟩ | ⟨m, e1, e2⟩⟩
    · rw [h3] at e2; cases e2
    · rw [h3] at e2; cases e2
    · rw [h3] at e2
      cases e2
      have h4 : fromIstreamSaid text = ⟨n, .error .outOfRange⟩ := by
        unfold fromIstreamSaid
        rw [textLines_iff.1 ht, h1]
        refine Said.bind_of_err ?_
        have := specLinesSaid_append (b := l :: b) k2
        rw [specLinesSaid, Said.bind_of_err e3] at this
        simpa [emptySpec] using this
      refine ⟨by rw [h4, hg], fun h => ?_, fun _ => ⟨a, l :: b, n, h1, k1, by rw [h4]⟩⟩
      rw [hg] at h; cases h
    · rw [h3] at e2
      cases e2
      obtain ⟨n', g1, g2, g3⟩ := C121_fault text a b l m rows (h1 ▸ ht) hr (hlen ▸ e1)
      exact ⟨by rw [g3, hg], fun _ => ⟨a, l, b, rows, m, n', h1, hr, hlen ▸ e1, g1, g2⟩, fun h => absurd hg h⟩

theorem numberMessage_inj {n k n' k' : Nat} (h : numberMessage n k = numberMessage n' k') : n = n' ∧ k = k' := by
  unfold numberMessage at h
  simp only [List.append_assoc] at h
  have h := List.append_cancel_left h
  have e : " != ".toList = ' ' :: "!= ".toList := rfl
  rw [e] at h
  simp only [List.cons_append] at h
  have key : ∀ (x : Nat) (r : List Char), (numeral x ++ ' ' :: r).takeWhile Char.isDigit = numeral x ∧ (numeral x ++ ' ' :: r).dropWhile Char.isDigit = ' ' :: r :=
    fun x r => takeWhile_all (p := Char.isDigit) (digits_showNat x).2 (by simp)
  have h1 : numeral n = numeral n' := by
    rw [← (key n ("!= ".toList ++ numeral k)).1, h, (key n' _).1]
  have h2 : ' ' :: ("!= ".toList ++ numeral k) = ' ' :: ("!= ".toList ++ numeral k') := by
    rw [← (key n ("!= ".toList ++ numeral k)).2, h, (key n' _).2]
  have h3 : numeral k = numeral k' := List.append_cancel_left (List.cons.inj h2).2
  refine ⟨?_, ?_⟩
  · rw [← value_showNat n, ← value_showNat n']; exact congrArg value h1
  · rw [← value_showNat k, ← value_showNat k']; exact congrArg value h3

theorem numberMessage_ne_item {n k : Nat} : numberMessage n k ≠ itemMessage := by
  intro h
  have : (numberMessage n k).head? = itemMessage.head? := by rw [h]
  unfold numberMessage at this
  rw [List.append_assoc, List.append_assoc] at this
  revert this
  rw [show "Invalid state number: ".toList = 'I' :: "nvalid state number: ".toList from rfl]
  simp only [List.cons_append, List.head?_cons]
  decide

theorem skipNotes_info {ls : List (List Char)} {n : List Note} (h : SkipNotes ls n) : ∀ x ∈ n, ∃ t, x = .info t := by
  induction h with
  | nil => simp
  | skip _ _ ih =>
    intro x hx
    rcases List.mem_cons.1 hx with rfl | hx
    · exact ⟨_, rfl⟩
    · exact ih x hx
  | state _ _ ih => exact ih

/-- **C121 (finding the line).** If the log says "Invalid state number: n != k", the line at fault is the one after `k` states, and its number is `n`. -/
theorem C121_locate (text : List Char) (lines : List (List Char)) (ht : TextLines text lines) (n k : Nat)
    (h : .error ("Invalid state number: ".toList ++ numeral n ++ " != ".toList ++ numeral k) ∈ (fromIstreamSaid text).notes) :
    ∃ a l b rows ini num fin t0 t1, lines = a ++ l :: b ∧ SpecRows 0 a rows ∧ rows.length = k ∧ SpecLine l ini num fin t0 t1 ∧ value num = n ∧ n ≠ k := by
  change Note.error (numberMessage n k) ∈ _ at h
  obtain ⟨_, h1, h2⟩ := C121_blames text lines ht
  by_cases hd : Graph.fromIstream text = .error .die
  · obtain ⟨a, l, b, rows, m, nn, g1, g2, g3, g4, g5⟩ := h1 hd
    have hm : numberMessage n k = m := by
      rw [g5] at h
      rcases List.mem_append.1 h with h | h
      · obtain ⟨t, ht⟩ := skipNotes_info g4 _ h
        cases ht
      · simp only [List.mem_cons, Note.error.injEq, reduceCtorEq, List.not_mem_nil, or_false] at h
        rcases h with h | h
        · exact h
        · exfalso
          have : (numberMessage n k).head? = "Preparing backtrace...".toList.head? := by rw [h]
          unfold numberMessage at this
          rw [List.append_assoc, List.append_assoc, show "Invalid state number: ".toList = 'I' :: "nvalid state number: ".toList from rfl] at this
          simp only [List.cons_append, List.head?_cons] at this
          revert this
          decide
    subst hm
    generalize hmm : numberMessage n k = m at g3
    cases g3 with
    | item => exact absurd hmm numberMessage_ne_item
    | number k1 k2 k3 k4 k5 =>
      obtain ⟨rfl, rfl⟩ := numberMessage_inj hmm
      exact ⟨a, l, b, rows, _, _, _, _, _, g1, g2, rfl, k1, rfl, k5⟩
  · obtain ⟨a, b, nn, g1, g2, g3⟩ := h2 hd
    rw [g3] at h
    obtain ⟨t, ht⟩ := skipNotes_info g2 _ h
    cases ht

/-- **C121 (AT&T files).** Reading an AT&T file writes nothing to the log unless a line is neither an edge nor a final state; then, if the lines before it can be read, the
program gives up with that line as its message, and it gives up with a message in no other case.  A file that cannot be opened is named. -/
theorem C121_att (text : List Char) (lines : List (List Char)) (ht : TextLines text lines) :
    (fromAttIstreamSaid text).res = Graph.fromAttIstream text ∧
    (Graph.fromAttIstream text ≠ .error .die → (fromAttIstreamSaid text).notes = []) ∧
    (∀ a l b, lines = a ++ l :: b → (∀ x ∈ a, ∃ i, AttLine x i) → ¬ AttShape l →
      (fromAttIstreamSaid text).res = .error .die ∧
      (fromAttIstreamSaid text).notes = [.error ("Invalid line: ".toList ++ l), .error "Preparing backtrace...".toList, .backtrace]) ∧
    (Graph.fromAttIstream text = .error .die → ∃ a l b, lines = a ++ l :: b ∧ (∀ x ∈ a, ∃ i, AttLine x i) ∧ ¬ AttShape l) ∧
    (∀ name, fromAttFileSaid name (some text) = fromAttIstreamSaid text) ∧
    ∀ name, fromAttFileSaid name none = ⟨[.error ("Invalid filename: ".toList ++ name), .error "Preparing backtrace...".toList, .backtrace], .error .die⟩ := by
  have hshape : ∀ x i, AttLine x i → AttShape x := by
    intro x i h
    cases i with
    | edge s d c =>
      obtain ⟨a, b, h1, h2, _, _, _, _, h3⟩ := h
      exact .inr ⟨a, b, _, h1, h2, by cases c <;> simp, h3⟩
    | final q => exact .inl h.1
  have huniq : ∀ {a l b a' l' b'}, a ++ l :: b = a' ++ l' :: b' → (∀ x ∈ a, ∃ i, AttLine x i) → ¬ AttShape l → (∀ x ∈ a', ∃ i, AttLine x i) → ¬ AttShape l' → l = l' := by
    intro a
    induction a with
    | nil =>
      intro l b a' l' b' he _ hl ha' hl'
      cases a' with
      | nil => exact (List.cons.inj he).1
      | cons y a' =>
        obtain ⟨rfl, _⟩ := List.cons.inj he
        obtain ⟨i, hi⟩ := ha' l (by simp)
        exact absurd (hshape _ _ hi) hl
    | cons x a ih =>
      intro l b a' l' b' he ha hl ha' hl'
      cases a' with
      | nil =>
        obtain ⟨rfl, _⟩ := List.cons.inj he
        obtain ⟨i, hi⟩ := ha x (by simp)
        exact absurd (hshape _ _ hi) hl'
      | cons y a' =>
        obtain ⟨_, he⟩ := List.cons.inj he
        exact ih he (fun z hz => ha z (by simp [hz])) hl (fun z hz => ha' z (by simp [hz])) hl'
  have hfold : ∀ a l b p, (∀ x ∈ a, ∃ i, AttLine x i) → ¬ AttShape l → (a ++ l :: b).foldlM attLine p = .error .die := by
    intro a
    induction a with
    | nil =>
      intro l b p _ hl
      rw [List.nil_append, List.foldlM_cons]
      rcases attLineSaid_cases p l with ⟨p', h, _⟩ | ⟨h, _⟩ | ⟨_, h, _⟩
      · obtain ⟨i, hi⟩ := attLine_inv h
        exact absurd (hshape _ _ hi) hl
      · exact absurd h hl
      · rw [h]; rfl
    | cons x a ih =>
      intro l b p ha hl
      obtain ⟨i, hi⟩ := ha x (by simp)
      rw [List.cons_append, List.foldlM_cons, attLine_ok hi, Res.bind_ok]
      exact ih l b _ (fun z hz => ha z (by simp [hz])) hl
  have hl := textLines_iff.1 ht
  refine ⟨?_, ?_, ?_, ?_, fun _ => rfl, fun _ => rfl⟩
  all_goals try unfold Graph.fromAttIstream
  all_goals try unfold fromAttIstreamSaid
  all_goals rw [hl]
  all_goals rcases attLinesSaid_cases lines ([], []) with ⟨p, h1, h2⟩ | ⟨h1, h2⟩ | ⟨a, l, b, k1, k2, k3, k4, k5⟩
  · rw [h1, Res.bind_ok, Said.quiet_bind h2]; rfl
  · rw [h1, Said.bind_of_err h2]; rfl
  · rw [k4, Said.bind_of_err k5]; rfl
  · intro _; rw [Said.quiet_bind h2]; rfl
  · intro _; rw [Said.bind_of_err h2]
  · intro h; rw [k4] at h; exact absurd rfl h
  · intro a l b he ha hl'
    have := hfold a l b ([], []) ha hl'
    rw [← he, h1] at this
    cases this
  · intro a l b he ha hl'
    have := hfold a l b ([], []) ha hl'
    rw [← he, h1] at this
    cases this
  · intro a' l' b' he ha hl'
    rw [Said.bind_of_err k5, huniq (he.symm.trans k1) ha hl' k2 k3]
    exact ⟨rfl, rfl⟩
  · intro h
    rw [h1, Res.bind_ok] at h
    exact absurd h (by
      rcases FromNfa.fromNfa_total (q0n := [0]) (fn := p.1) (dn := p.2) (List.pairwise_singleton _ _) with ⟨⟨g, h⟩, _⟩ | ⟨h, _⟩ <;> rw [h] <;> simp)
  · intro h; rw [h1] at h; cases h
  · exact fun _ => ⟨a, l, b, k1, k2, k3⟩

/-- What is logged about a comment and a wrong number. -/
example : (fromIstreamSaid "# my spec\n>0 0 1\n2* 1 1\n".toList).notes =
    [.info "Skip line \"# my spec\"".toList, .error "Invalid state number: 2 != 1".toList, .error "Preparing backtrace...".toList, .backtrace] := by decide +kernel
/-- What is logged about an empty item. -/
example : (fromIstreamSaid "0 0,,1 1\n".toList).notes =
    [.error "Expected number as comma separted state, but got  (stoi)".toList, .error "Preparing backtrace...".toList, .backtrace] := by decide +kernel
/-- The hypotheses of the theorem about a line at fault. -/
example : TextLines "# my spec\n>0 0 1\n2* 1 1\n".toList (["# my spec".toList, ">0 0 1".toList] ++ "2* 1 1".toList :: []) ∧
    SpecRows 0 ["# my spec".toList, ">0 0 1".toList] [⟨true, false, [0], [1]⟩] ∧ Fault 1 "2* 1 1".toList (numberMessage 2 1) := by
  refine ⟨textLines_iff.2 (by decide), .skip (matchSpecLine_none.1 (by decide)) (.row (matchSpecLine_iff.1 (by decide : matchSpecLine _ = some
    (true, "0".toList, false, "0".toList, "1".toList))) (by decide) (by decide) ?_ ?_ (.nil _)), ?_⟩
  · exact (loadStates_iff (isTargetField_iff.1 (by decide))).1 (by decide)
  · exact (loadStates_iff (isTargetField_iff.1 (by decide))).1 (by decide)
  · exact Fault.number (num := "2".toList) (matchSpecLine_iff.1 (by decide : matchSpecLine _ = some (false, "2".toList, true, "1".toList, "1".toList)))
      ((loadStates_iff (l := [1]) (isTargetField_iff.1 (by decide))).1 (by decide)) ((loadStates_iff (l := [1]) (isTargetField_iff.1 (by decide))).1 (by decide)) (by decide) (by decide)
/-- The same for AT&T files: the second line has a letter that is none. -/
example : (fromAttIstreamSaid "0\t1\t0\n0\t1\t2\n1\n".toList).notes =
    [.error "Invalid line: 0\t1\t2".toList, .error "Preparing backtrace...".toList, .backtrace] := by decide +kernel

end Homfa
