import Verif.Proof.Commands

/-! # C59: what `run plain` prints -/

namespace Homfa
open Spec

/-- **C59.** On a specification that does not refer to states without a row, and an input file of whole records, `run plain` prints `1` if
the automaton the rows describe accepts the bits of the records, and `0` if not. -/
theorem C59_plain_prints (text : List Char) (lines : List (List Char)) (rows : List Row) (ht : TextLines text lines)
    (hr : SpecRows 0 lines rows) (hne : rows ≠ []) (hq : ¬ RefersOutside rows) (ap : Nat) (hap : 0 < ap)
    (rs : List (List Byte)) (hrs : ∀ r ∈ rs, r.length = recordBytes ap) :
    (NfaAccepts (InitialRow rows) (FinalRow rows) (rowStep rows) (rs.flatMap (recordBits ap)) ∧
      doRunPlain text (some rs.flatten) ap = .ok ['1']) ∨
    (¬ NfaAccepts (InitialRow rows) (FinalRow rows) (rowStep rows) (rs.flatMap (recordBits ap)) ∧
      doRunPlain text (some rs.flatten) ap = .ok ['0']) := by
  rcases C16_spec_meaning text lines rows ht hr hne with ⟨_, g, h1, h2, h3⟩ | ⟨h, _⟩
  · obtain ⟨b, hb, hN⟩ := h3 (rs.flatMap (recordBits ap))
    have e : doRunPlain text (some rs.flatten) ap = .ok (printResult b) := by
      unfold Graph.accepts Graph.runWord at hb
      obtain ⟨s, e1, e2⟩ := Res.bind_eq_ok.1 hb
      unfold doRunPlain
      rw [h1, Res.bind_ok, C19_records ap hap rs hrs, e1, Res.bind_ok, e2]
      rfl
    cases b with
    | true => exact .inl ⟨hN.1 rfl, e⟩
    | false => exact .inr ⟨fun h => (by simpa using hN.2 h), e⟩
  · exact absurd h hq

/-- **C59.** If the input file cannot be opened, or its length is not a multiple of the record size, nothing is printed. -/
theorem C59_bad_input (text : List Char) (ap : Nat) (hap : 0 < ap) (input : Option (List Byte))
    (h : ∀ bytes, input = some bytes → ¬ recordBytes ap ∣ bytes.length) (out : List Char) : doRunPlain text input ap ≠ .ok out := by
  intro e
  obtain ⟨g, rs, b, _, _, h3, h4, _⟩ := plain_ok hap e
  apply h _ h3
  have : ∀ rs : List (List Byte), (∀ r ∈ rs, r.length = recordBytes ap) → recordBytes ap ∣ rs.flatten.length := by
    intro rs
    induction rs with
    | nil => intro _; simp
    | cons r rs ih =>
      intro hr
      rw [List.flatten_cons, List.length_append, hr r (by simp)]
      exact Nat.dvd_add (Nat.dvd_refl _) (ih fun x hx => hr x (by simp [hx]))
  exact this rs h4

/-- **C59.** If the lines of the specification are not a well-formed spec, or have no row, or refer to a state without a row, nothing is
printed. -/
theorem C59_bad_spec (text : List Char) (lines : List (List Char)) (ht : TextLines text lines)
    (h : ∀ rows, SpecRows 0 lines rows → rows = [] ∨ RefersOutside rows) (ap : Nat) (input : Option (List Byte)) (out : List Char) :
    doRunPlain text input ap ≠ .ok out := by
  intro e
  unfold doRunPlain at e
  obtain ⟨g, hg, e⟩ := Res.bind_eq_ok.1 e
  by_cases hr : ∃ rows, SpecRows 0 lines rows
  · obtain ⟨rows, hr⟩ := hr
    rcases h rows hr with rfl | ho
    · rw [fromIstream_rows ht hr] at hg
      have : finishSpec (([] : List Row).foldl addRow emptySpec) = .ok (Graph.built 0 [] []) := by decide
      rw [this] at hg
      injection hg with hg; subst hg
      obtain ⟨s, hs, e⟩ := Res.bind_eq_ok.1 e
      obtain ⟨f, hf, _⟩ := Res.bind_eq_ok.1 e
      simp [Graph.isFinalState, Graph.built, vat] at hf
    · by_cases hne : rows = []
      · subst hne
        rcases ho with ⟨_, r, hr, _⟩ | ⟨_, p, w, q, hp, hpath, hlt⟩
        · simp at hr
        · rw [fromIstream_rows ht hr] at hg
          have : finishSpec (([] : List Row).foldl addRow emptySpec) = .ok (Graph.built 0 [] []) := by decide
          rw [this] at hg
          injection hg with hg; subst hg
          obtain ⟨s, hs, e⟩ := Res.bind_eq_ok.1 e
          obtain ⟨f, hf, _⟩ := Res.bind_eq_ok.1 e
          simp [Graph.isFinalState, Graph.built, vat] at hf
      · rcases C16_spec_meaning text lines rows ht hr hne with ⟨h, _⟩ | ⟨_, h⟩
        · exact h ho
        · rw [h] at hg; simp at hg
  · rcases C16_bad_spec_rejected text lines ht hr with h | h <;> rw [h] at hg <;> simp at hg

/-- the hypotheses of both theorems are met: a spec of two rows, and one that names a state without a row -/
example : TextLines ">0\t0\t1\n1*\t1\t1\n".toList [">0\t0\t1".toList, "1*\t1\t1".toList] ∧
    doRunPlain ">0\t0\t1\n1*\t1\t2\n".toList (some [1#8]) 1 = .error .outOfRange ∧
    doRunPlain "0\t0\n".toList (some [1#8]) 1 = .error .outOfRange ∧
    doRunPlain "1\t0\t0\n".toList (some [1#8]) 1 = .error .die := by
  refine ⟨⟨by decide, .inl rfl⟩, ?_, ?_, ?_⟩ <;> decide +kernel

/-- two states, the word must contain a 1: accepted and refused inputs of two records of one proposition -/
example : doRunPlain ">0\t0\t1\n1*\t1\t1\n".toList (some [0#8, 1#8]) 1 = .ok ['1'] := by decide +kernel
example : doRunPlain ">0\t0\t1\n1*\t1\t1\n".toList (some [0#8, 2#8]) 1 = .ok ['0'] := by decide +kernel

end Homfa
