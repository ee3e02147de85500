import Verif.Model.Input
import Verif.Spec.Input
import Verif.Proof.Cpp
import Mathlib.Data.List.Basic

namespace Homfa

variable {σ : Type}

theorem lowBit (v : Byte) : ((v &&& 1#8) != 0#8) = v.getLsbD 0 := by
  revert v; decide +kernel

/-- the inner loop calls `func` on the low `min n rest` bits -/
theorem inputByte_eq (func : σ → Bool → Res σ) : ∀ (n : Nat) (v : Byte) (rest : Nat) (s : σ),
    inputByte func n v rest s =
      (((List.range (min n rest)).map v.getLsbD).foldlM func s).bind fun s => .ok (rest - n, s)
  | 0, v, rest, s => by simp [inputByte, Except.bind, pure, Except.pure]
  | n + 1, v, rest, s => by
    unfold inputByte
    by_cases h : rest = 0
    · subst h; simp [Except.bind, pure, Except.pure]
    · obtain ⟨r, rfl⟩ := Nat.exists_eq_succ_of_ne_zero h
      rw [if_neg h, lowBit, Nat.succ_eq_add_one, Nat.add_min_add_right, List.range_succ_eq_map, List.map_cons,
        List.foldlM_cons, List.map_map]
      have hsh : (List.map (v.getLsbD ∘ Nat.succ) (List.range (min n r))) =
          List.map (v >>> 1).getLsbD (List.range (min n r)) := by
        refine List.map_congr_left fun i _ => ?_
        simp [Nat.add_comm]
      rw [hsh]
      cases hf : func s (v.getLsbD 0) with
      | error e => rfl
      | ok s' =>
        show inputByte func n (v >>> 1) (r + 1 - 1) s' = Except.bind (List.foldlM func s' _) _
        rw [inputByte_eq]
        simp

theorem foldlM_append_bind (func : σ → Bool → Res σ) (xs ys : List Bool) (s : σ) :
    (xs ++ ys).foldlM func s = (xs.foldlM func s).bind fun s => ys.foldlM func s := by
  rw [List.foldlM_append]; rfl

/-- the bits `inputBytes` presents while a record with `rest` missing bits is being read -/
theorem inputBytes_record (ap : Nat) (func : σ → Bool → Res σ) : ∀ (rec : List Byte) (rest : Nat) (bytes : List Byte)
    (s : σ), 0 < rest → rec.length = recordBytes rest →
    inputBytes ap func (rec ++ bytes) rest s =
      ((recordBits rest rec).foldlM func s).bind (fun s => inputBytes ap func bytes 0 s)
  | [], rest, bytes, s, h, hl => by
    simp only [List.length_nil, recordBytes] at hl; omega
  | v :: rec, rest, bytes, s, h, hl => by
    rw [List.cons_append, inputBytes, if_neg (by omega : ¬ rest = 0)]
    simp only [List.length_cons, recordBytes] at hl
    dsimp only
    rw [inputByte_eq]
    by_cases h8 : rest ≤ 8
    · have hrec : rec = [] := by
        apply List.length_eq_zero_iff.1; omega
      subst hrec
      have hb : recordBits rest [v] = (List.range (min 8 rest)).map v.getLsbD := by
        rw [Nat.min_eq_right h8]
        refine List.map_congr_left fun i hi => ?_
        have hi := List.mem_range.1 hi
        simp [propBit, show i / 8 = 0 by omega, show i % 8 = i by omega]
      rw [hb]
      cases hf : ((List.range (min 8 rest)).map v.getLsbD).foldlM func s with
      | error e => rfl
      | ok s' =>
        show inputBytes ap func bytes (rest - 8) s' = inputBytes ap func bytes 0 s'
        rw [show rest - 8 = 0 by omega]
    · have hb : recordBits rest (v :: rec) = (List.range (min 8 rest)).map v.getLsbD ++ recordBits (rest - 8) rec := by
        rw [Nat.min_eq_left (by omega)]
        have : rest = 8 + (rest - 8) := by omega
        conv_lhs => rw [recordBits, this, List.range_add, List.map_append, List.map_map]
        congr 1
        · refine List.map_congr_left fun i _ => ?_
          simp [propBit, show (8 + i) / 8 = i / 8 + 1 by omega]
      rw [hb, foldlM_append_bind]
      cases hf : ((List.range (min 8 rest)).map v.getLsbD).foldlM func s with
      | error e => rfl
      | ok s' =>
        show inputBytes ap func (rec ++ bytes) (rest - 8) s' = _
        rw [inputBytes_record ap func rec (rest - 8) bytes s' (by omega) (by unfold recordBytes; omega)]
        rfl

/-- a whole record at the start of a record -/
theorem inputBytes_fresh (ap : Nat) (hap : 0 < ap) (func : σ → Bool → Res σ) (rec bytes : List Byte) (s : σ)
    (hl : rec.length = recordBytes ap) :
    inputBytes ap func (rec ++ bytes) 0 s =
      ((recordBits ap rec).foldlM func s).bind (fun s => inputBytes ap func bytes 0 s) := by
  rw [← inputBytes_record ap func rec ap bytes s hap hl]
  cases rec with
  | nil => simp only [List.length_nil, recordBytes] at hl; omega
  | cons v rec =>
    rw [List.cons_append, inputBytes, inputBytes, if_pos rfl, if_neg (by omega)]

theorem inputBytes_records (ap : Nat) (hap : 0 < ap) (func : σ → Bool → Res σ) : ∀ (rs : List (List Byte))
    (bytes : List Byte) (s : σ), (∀ r ∈ rs, r.length = recordBytes ap) →
    inputBytes ap func (rs.flatten ++ bytes) 0 s =
      ((rs.flatMap (recordBits ap)).foldlM func s).bind (fun s => inputBytes ap func bytes 0 s)
  | [], bytes, s, _ => by simp [Except.bind, pure, Except.pure]
  | r :: rs, bytes, s, h => by
    rw [List.flatten_cons, List.append_assoc, inputBytes_fresh ap hap func r _ s (h r (by simp)), List.flatMap_cons,
      foldlM_append_bind]
    cases hf : (recordBits ap r).foldlM func s with
    | error e => rfl
    | ok s' =>
      exact inputBytes_records ap hap func rs bytes s' (fun r hr => h r (by simp [hr]))

/-- an incomplete record leaves bits missing -/
theorem inputBytes_short (ap : Nat) (func : σ → Bool → Res σ) : ∀ (rec : List Byte) (rest : Nat) (s : σ), 
    0 < rest → rec.length < recordBytes rest →
    inputBytes ap func rec rest s =
      ((recordBits (8 * rec.length) rec).foldlM func s).bind (fun s => .ok (rest - 8 * rec.length, s))
  | [], rest, s, h, hl => by simp [inputBytes, recordBits, Except.bind, pure, Except.pure]
  | v :: rec, rest, s, h, hl => by
    rw [inputBytes, if_neg (by omega : ¬ rest = 0)]
    simp only [List.length_cons, recordBytes] at hl
    dsimp only
    rw [inputByte_eq]
    have hb : recordBits (8 * (v :: rec).length) (v :: rec) =
        (List.range (min 8 rest)).map v.getLsbD ++ recordBits (8 * rec.length) rec := by
      rw [Nat.min_eq_left (by omega), List.length_cons, show 8 * (rec.length + 1) = 8 + 8 * rec.length by omega,
        recordBits, List.range_add, List.map_append, List.map_map]
      congr 1
      · refine List.map_congr_left fun i _ => ?_
        simp [propBit, show (8 + i) / 8 = i / 8 + 1 by omega]
    rw [hb, foldlM_append_bind]
    cases hf : ((List.range (min 8 rest)).map v.getLsbD).foldlM func s with
    | error e => rfl
    | ok s' =>
      show inputBytes ap func rec (rest - 8) s' = _
      rw [inputBytes_short ap func rec (rest - 8) s' (by omega) (by unfold recordBytes; omega)]
      simp only [List.length_cons, show rest - 8 * (rec.length + 1) = rest - 8 - 8 * rec.length by omega]
      rfl

end Homfa
