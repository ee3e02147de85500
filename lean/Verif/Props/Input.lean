import Verif.Proof.Input

/-! # C19: decoding plaintext input files -/

namespace Homfa

variable {σ : Type}

/-- **C19** On a file made of whole records, `each_input_bit` calls the function exactly on the proposition values
of the records, in order, padding ignored, and returns when (and if) the function does. -/
theorem C19_records (ap : Nat) (hap : 0 < ap) (rs : List (List Byte)) (hrs : ∀ r ∈ rs, r.length = recordBytes ap)
    (func : σ → Bool → Res σ) (s : σ) :
    eachInputBit (some rs.flatten) ap func s = (rs.flatMap (recordBits ap)).foldlM func s := by
  have h := inputBytes_records ap hap func rs [] s hrs
  rw [List.append_nil] at h
  unfold eachInputBit
  show Except.bind (inputBytes ap func rs.flatten 0 s) _ = _
  rw [h]
  cases hf : (rs.flatMap (recordBits ap)).foldlM func s <;> rfl

/-- **C19** When the last record is incomplete the function is called on the bits that are there, and then the
program aborts. -/
theorem C19_truncated (ap : Nat) (hap : 0 < ap) (rs : List (List Byte)) (hrs : ∀ r ∈ rs, r.length = recordBytes ap)
    (last : List Byte) (hne : last ≠ []) (hlast : last.length < recordBytes ap) (func : σ → Bool → Res σ) (s : σ) :
    eachInputBit (some (rs.flatten ++ last)) ap func s =
      ((rs.flatMap (recordBits ap) ++ recordBits (8 * last.length) last).foldlM func s).bind
        fun _ => .error .assertFail := by
  have h := inputBytes_records ap hap func rs last s hrs
  unfold eachInputBit
  show Except.bind (inputBytes ap func (rs.flatten ++ last) 0 s) _ = _
  rw [h, foldlM_append_bind]
  cases hf : (rs.flatMap (recordBits ap)).foldlM func s with
  | error e => rfl
  | ok s' =>
    show Except.bind (inputBytes ap func last 0 s') _ = Except.bind (List.foldlM func s' _) _
    have h0 : inputBytes ap func last 0 s' = inputBytes ap func last ap s' := by
      cases last with
      | nil => exact absurd rfl hne
      | cons v l => rw [inputBytes, inputBytes, if_pos rfl, if_neg (by omega)]
    rw [h0, inputBytes_short ap func last ap s' hap hlast]
    cases hg : (recordBits (8 * last.length) last).foldlM func s' with
    | error e => rfl
    | ok s'' =>
      show ((cassert (ap - 8 * last.length == 0)).bind fun _ => pure s'' : Res σ) = _
      have : (ap - 8 * last.length == 0) = false := by
        rw [beq_eq_false_iff_ne]
        unfold recordBytes at hlast
        omega
      rw [this]; rfl

/-- every byte string is whole records followed by less than one -/
theorem split_records (n : Nat) (hn : 0 < n) (bytes : List Byte) :
    ∃ (rs : List (List Byte)) (last : List Byte), (∀ r ∈ rs, r.length = n) ∧ last.length < n ∧
      bytes = rs.flatten ++ last := by
  induction hk : bytes.length using Nat.strongRecOn generalizing bytes with
  | _ k ih =>
    by_cases h : bytes.length < n
    · exact ⟨[], bytes, by simp, h, by simp⟩
    · obtain ⟨rs, last, h1, h2, h3⟩ := ih (bytes.drop n).length (by rw [List.length_drop]; omega) (bytes.drop n) rfl
      refine ⟨bytes.take n :: rs, last, ?_, h2, ?_⟩
      · intro r hr
        rcases List.mem_cons.1 hr with rfl | hr
        · rw [List.length_take]; omega
        · exact h1 r hr
      · rw [List.flatten_cons, List.append_assoc, ← h3, List.take_append_drop]

/-- **C19** With a function that never stops the program, `each_input_bit` returns exactly for the readable files
whose length is a multiple of the record size; otherwise it aborts. -/
theorem C19_aborts_iff (ap : Nat) (hap : 0 < ap) (file : Option (List Byte)) (func : σ → Bool → σ) (s : σ) :
    ((∃ bytes, file = some bytes ∧ recordBytes ap ∣ bytes.length) ∧
      ∃ t, eachInputBit file ap (fun s b => .ok (func s b)) s = .ok t) ∨
    ((¬ ∃ bytes, file = some bytes ∧ recordBytes ap ∣ bytes.length) ∧
      eachInputBit file ap (fun s b => .ok (func s b)) s = .error .assertFail) := by
  cases file with
  | none => exact .inr ⟨by simp, rfl⟩
  | some bytes =>
    have hpos : 0 < recordBytes ap := by unfold recordBytes; omega
    obtain ⟨rs, last, hrs, hlast, rfl⟩ := split_records (recordBytes ap) hpos bytes
    have hlen : rs.flatten.length = recordBytes ap * rs.length := by
      rw [List.length_flatten, List.map_congr_left hrs, List.map_const', List.sum_replicate_nat, Nat.mul_comm]
    have hfold : ∀ (l : List Bool) (s : σ), l.foldlM (fun s b => (.ok (func s b) : Res σ)) s = .ok (l.foldl func s) := by
      intro l; induction l with
      | nil => intro s; rfl
      | cons b l ih => intro s; exact ih (func s b)
    by_cases hl : last = []
    · subst hl
      refine .inl ⟨⟨_, rfl, by rw [List.append_nil, hlen]; exact Nat.dvd_mul_right _ _⟩, ?_⟩
      rw [List.append_nil, C19_records ap hap rs hrs, hfold]
      exact ⟨_, rfl⟩
    · refine .inr ⟨?_, ?_⟩
      · rintro ⟨b, hb, hd⟩
        rw [← Option.some.inj hb, List.length_append, hlen, Nat.dvd_add_right (Nat.dvd_mul_right _ _)] at hd
        have := List.length_pos_iff.2 hl
        exact absurd (Nat.le_of_dvd this hd) (by omega)
      · rw [C19_truncated ap hap rs hrs last hl hlast, hfold]
        rfl

/-- With no propositions nothing is read from any file (the command line requires `ap > 0`). -/
theorem C19_no_propositions (bytes : List Byte) (func : σ → Bool → Res σ) (s : σ) :
    eachInputBit (some bytes) 0 func s = .ok s := by
  have h : ∀ (bytes : List Byte), inputBytes 0 func bytes 0 s = .ok (0, s) := by
    intro bytes
    induction bytes with
    | nil => rfl
    | cons v b ih =>
      rw [inputBytes]
      simp only [if_true]
      rw [inputByte]
      exact ih
  unfold eachInputBit
  show Except.bind (inputBytes 0 func bytes 0 s) _ = _
  rw [h]
  rfl

/-- non-vacuity: two records of ten propositions -/
example : eachInputBit (some [0b10000001#8, 0b11111110#8, 0x00#8, 0x01#8]) 10
      (fun (l : List Bool) b => .ok (l ++ [b])) [] =
    .ok [true, false, false, false, false, false, false, true, false, true,
         false, false, false, false, false, false, false, false, true, false] := by decide +kernel

example : (∀ r ∈ [[0b10000001#8, 0b11111110#8], [0x00#8, 0x01#8]], r.length = recordBytes 10) ∧
    recordBits 10 [0b10000001#8, 0b11111110#8] =
      [true, false, false, false, false, false, false, true, false, true] := by decide +kernel

/-- non-vacuity of the truncated case -/
example : ([0x05#8] : List Byte) ≠ [] ∧ ([0x05#8] : List Byte).length < recordBytes 10 := by decide

end Homfa
