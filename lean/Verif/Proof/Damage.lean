import Verif.Spec.Damage
import Verif.Proof.Cut

/-! Damaged lines of a spec. -/

namespace Homfa
open Spec

/-- the first spec line of `ls` has a number above `k` (and readable targets) -/
def LateLine (k : Nat) (ls : List (List Char)) : Prop :=
  ∃ a l b ini num fin t0 t1 on0 on1, ls = a ++ l :: b ∧ (∀ x ∈ a, NotSpecLine x) ∧ SpecLine l ini num fin t0 t1 ∧ Targets t0 on0 ∧ Targets t1 on1 ∧
    k < value num ∧ value num < 2 ^ 31

theorem LateLine.skip {k : Nat} {ls : List (List Char)} {l : List Char} (hl : NotSpecLine l) (h : LateLine k ls) : LateLine k (l :: ls) := by
  obtain ⟨a, l', b, ini, num, fin, t0, t1, on0, on1, rfl, h1, h2⟩ := h
  refine ⟨l :: a, l', b, ini, num, fin, t0, t1, on0, on1, rfl, ?_, h2⟩
  simpa [hl] using h1

theorem specRows_nil {k : Nat} {ls : List (List Char)} (h : ∀ l ∈ ls, NotSpecLine l) : SpecRows k ls [] := by
  induction ls with
  | nil => exact .nil k
  | cons l ls ih => exact .skip (h l (by simp)) (ih fun x hx => h x (by simp [hx]))

theorem notSpec_of_specRows {k : Nat} {ls : List (List Char)} (h : SpecRows k ls []) : ∀ l ∈ ls, NotSpecLine l := by
  generalize hr : ([] : List Row) = rows at h
  induction h with
  | nil => simp
  | skip hl _ ih => simpa [hl] using ih hr
  | row => cases hr

/-- lines of later states only -/
theorem damaged_late {m : Nat} {ls ls' : List (List Char)} (hd : Damaged ls ls') : ∀ {rows : List Row}, SpecRows m ls rows → ∀ {k : Nat}, k < m →
    (∀ l ∈ ls', NotSpecLine l) ∨ LateLine k ls' := by
  induction hd generalizing m with
  | nil => intro _ _ _ _; exact .inl (by simp)
  | keep hd ih =>
    intro rows hr k hk
    cases hr with
    | skip hl hr =>
      rcases ih hr hk with h | h
      · exact .inl (by simpa [hl] using h)
      · exact .inr (h.skip hl)
    | row hl hv hm h0 h1 hr => exact .inr ⟨[], _, _, _, _, _, _, _, _, _, rfl, by simp, hl, h0, h1, by omega, by omega⟩
  | lose hd ih =>
    intro rows hr k hk
    cases hr with
    | skip hl hr => exact ih hr hk
    | row hl hv hm h0 h1 hr => exact ih hr (by omega)
  | junk hl hd ih =>
    intro rows hr k hk
    rcases ih hr hk with h | h
    · exact .inl (by simpa [hl] using h)
    · exact .inr (h.skip hl)

/-- Damaged lines: the first states, and then nothing or a line with a wrong number. -/
theorem damaged_rows {ls ls' : List (List Char)} (hd : Damaged ls ls') : ∀ {k : Nat} {rows : List Row}, SpecRows k ls rows →
    ∃ j ≤ rows.length, SpecRows k ls' (rows.take j) ∨ ∃ a b, ls' = a ++ b ∧ SpecRows k a (rows.take j) ∧ LateLine (k + j) b := by
  induction hd with
  | nil => intro k rows hr; cases hr; exact ⟨0, le_rfl, .inl (.nil k)⟩
  | keep hd ih =>
    intro k rows hr
    cases hr with
    | skip hl hr =>
      obtain ⟨j, hj, h | ⟨a, b, rfl, h1, h2⟩⟩ := ih hr
      · exact ⟨j, hj, .inl (.skip hl h)⟩
      · exact ⟨j, hj, .inr ⟨_ :: a, b, rfl, .skip hl h1, h2⟩⟩
    | row hl hv hk h0 h1 hr =>
      obtain ⟨j, hj, h | ⟨a, b, rfl, h2, h3⟩⟩ := ih hr
      · exact ⟨j + 1, by simpa using hj, .inl (.row hl hv hk h0 h1 h)⟩
      · exact ⟨j + 1, by simpa using hj, .inr ⟨_ :: a, b, rfl, .row hl hv hk h0 h1 h2, by rw [← Nat.add_assoc, Nat.add_right_comm]; exact h3⟩⟩
  | lose hd ih =>
    intro k rows hr
    cases hr with
    | skip hl hr => exact ih hr
    | row hl hv hk h0 h1 hr =>
      rcases damaged_late hd hr (Nat.lt_succ_self k) with h | h
      · exact ⟨0, Nat.zero_le _, .inl (specRows_nil h)⟩
      · exact ⟨0, Nat.zero_le _, .inr ⟨[], _, rfl, .nil k, h⟩⟩
  | junk hl hd ih =>
    intro k rows hr
    obtain ⟨j, hj, h | ⟨a, b, rfl, h1, h2⟩⟩ := ih hr
    · exact ⟨j, hj, .inl (.skip hl h)⟩
    · exact ⟨j, hj, .inr ⟨_ :: a, b, rfl, .skip hl h1, h2⟩⟩

/-! ## Carriage returns -/

theorem crlf_line {l : List Char} (h : '\n' ∉ l) : crlf l = l := by
  induction l with
  | nil => rfl
  | cons c l ih =>
    simp only [List.mem_cons, not_or] at h
    unfold crlf at ih ⊢
    rw [List.flatMap_cons, ih h.2, if_neg (fun e => h.1 e.symm)]
    rfl

theorem crlf_append (a b : List Char) : crlf (a ++ b) = crlf a ++ crlf b := List.flatMap_append ..

theorem crlf_unlines {ls : List (List Char)} (h : ∀ l ∈ ls, '\n' ∉ l) :
    crlf (ls.flatMap (· ++ ['\n'])) = (ls.map (· ++ ['\r'])).flatMap (· ++ ['\n']) := by
  induction ls with
  | nil => rfl
  | cons l ls ih =>
    rw [List.flatMap_cons, crlf_append, ih fun x hx => h x (by simp [hx]), crlf_append, crlf_line (h l (by simp))]
    simp [crlf]

theorem notSpecLine_cr (l : List Char) : NotSpecLine (l ++ ['\r']) := by
  rintro ⟨ini, num, fin, t0, t1, b1, b2, h, -, -, h1, -⟩
  have hne := targetField_ne_nil h1
  have h' := congrArg List.getLast? h
  rw [← List.append_assoc, ← List.append_assoc, ← List.append_assoc, ← List.append_assoc, ← List.append_assoc,
    List.getLast?_append_of_ne_nil _ hne, List.getLast?_concat] at h'
  have := targetField_not_space h1 _ (List.mem_of_getLast? h'.symm)
  revert this; decide

end Homfa
