import Verif.Model.Serial
import Verif.Proof.Cpp
import Mathlib.Data.List.Basic
import Mathlib.Data.List.FinRange
import Mathlib.Tactic.IntervalCases

namespace Homfa

variable {l N : Nat}

theorem ofBytes_saveDouble (w : BitVec 64) : ofBytes (saveDouble w) = w := by
  apply BitVec.eq_of_getLsbD_eq
  intro i hi
  have h8 : List.range 8 = [0, 1, 2, 3, 4, 5, 6, 7] := rfl
  rw [saveDouble, h8]
  simp only [List.map_cons, List.map_nil, ofBytes, BitVec.getLsbD_or, BitVec.getLsbD_shiftLeft,
    BitVec.getLsbD_setWidth, BitVec.getLsbD_extractLsb', BitVec.truncate_eq_setWidth]
  have : i / 8 < 8 := by omega
  obtain ⟨q, hq⟩ : ∃ q, q = i / 8 := ⟨_, rfl⟩
  rcases (by omega : q = 0 ∨ q = 1 ∨ q = 2 ∨ q = 3 ∨ q = 4 ∨ q = 5 ∨ q = 6 ∨ q = 7) with
    h | h | h | h | h | h | h | h
  all_goals
    subst h
    obtain ⟨r, hr, hr8⟩ : ∃ r, i = 8 * (i / 8) + r ∧ r < 8 := ⟨i % 8, by omega, by omega⟩
    rw [← hq] at hr
    subst hr
    interval_cases r <;> simp

theorem length_saveDouble (w : BitVec 64) : (saveDouble w).length = 8 := by simp [saveDouble]

theorem loadDouble_ok {is : IStream} {w : BitVec 64} {rest : List Byte}
    (h : is.bytes.drop is.pos = saveDouble w ++ rest) :
    loadDouble is = .ok (w, { is with pos := is.pos + 8 }) := by
  unfold loadDouble
  have ht : (is.bytes.drop is.pos).take 8 = saveDouble w := by
    rw [h, List.take_append_of_le_length (by rw [length_saveDouble]), List.take_of_length_le (by rw [length_saveDouble])]
  dsimp only
  rw [ht, length_saveDouble, ofBytes_saveDouble]
  rfl

theorem drop_drop_of_eq {bytes a rest : List Byte} {p n : Nat} (h : bytes.drop p = a ++ rest) (hn : a.length = n) :
    bytes.drop (p + n) = rest := by
  rw [← List.drop_drop, h, ← hn, List.drop_left]

theorem mem_gswIdx (x : Fin (2 * l) × Fin 2 × Fin N) : x ∈ gswIdx l N := by
  simp only [gswIdx, List.mem_flatMap, List.mem_map, List.mem_finRange, true_and]
  exact ⟨x.1, x.2.1, x.2.2, rfl⟩

theorem length_gswIdx (l N : Nat) : (gswIdx l N).length = (2 * l) * 2 * N := by
  simp only [gswIdx, List.length_flatMap, List.length_map, List.length_finRange, List.map_const', List.sum_replicate_nat]
  simp only [Nat.mul_assoc]

theorem length_saveGsw (c : Gsw l N) : (saveGsw c).length = blockSize l N := by
  simp only [saveGsw, List.length_flatMap, length_saveDouble, List.map_const', List.sum_replicate_nat, length_gswIdx,
    blockSize]

/-- the ciphertext after storing the words of `c` at the indices `xs` -/
def Gsw.setAll (out c : Gsw l N) (xs : List (Fin (2 * l) × Fin 2 × Fin N)) : Gsw l N :=
  xs.foldl (fun o x => o.set x (c x.1 x.2.1 x.2.2)) out

theorem Gsw.setAll_apply (c : Gsw l N) : ∀ (xs : List (Fin (2 * l) × Fin 2 × Fin N)) (out : Gsw l N) (i j k),
    out.setAll c xs i j k = if (i, j, k) ∈ xs then c i j k else out i j k
  | [], out, i, j, k => by simp [Gsw.setAll]
  | x :: xs, out, i, j, k => by
    show Gsw.setAll (out.set x (c x.1 x.2.1 x.2.2)) c xs i j k = _
    rw [Gsw.setAll_apply c xs]
    by_cases h1 : (i, j, k) ∈ xs
    · simp [h1]
    · by_cases h2 : (i, j, k) = x
      · subst h2; simp [h1, Gsw.set]
      · simp [h1, h2, Gsw.set]

theorem Gsw.setAll_all (out c : Gsw l N) : out.setAll c (gswIdx l N) = c := by
  funext i j k
  rw [Gsw.setAll_apply, if_pos (mem_gswIdx _)]

theorem loadWords_ok (c : Gsw l N) : ∀ (xs : List (Fin (2 * l) × Fin 2 × Fin N)) (out : Gsw l N) (is : IStream)
    (rest : List Byte),
    is.bytes.drop is.pos = (xs.flatMap fun x => saveDouble (c x.1 x.2.1 x.2.2)) ++ rest →
    xs.foldlM (fun (acc : Gsw l N × IStream) x => do
      let (w, is) ← loadDouble acc.2
      pure (acc.1.set x w, is)) (out, is) = (.ok (out.setAll c xs, { is with pos := is.pos + 8 * xs.length }) : Res _)
  | [], out, is, rest, _ => rfl
  | x :: xs, out, is, rest, h => by
    rw [List.flatMap_cons, List.append_assoc] at h
    rw [List.foldlM_cons, loadDouble_ok h]
    have := loadWords_ok c xs (out.set x (c x.1 x.2.1 x.2.2)) { is with pos := is.pos + 8 } rest
      (drop_drop_of_eq h (length_saveDouble _))
    refine Eq.trans this ?_
    simp only [List.length_cons, Nat.mul_add, Nat.mul_one, Nat.add_assoc, Nat.add_comm 8]
    rfl

theorem loadGsw_ok (c out : Gsw l N) (is : IStream) (rest : List Byte)
    (h : is.bytes.drop is.pos = saveGsw c ++ rest) :
    loadGsw is out = .ok (c, { is with pos := is.pos + blockSize l N }) := by
  unfold loadGsw
  rw [loadWords_ok c _ out is rest h, Gsw.setAll_all, length_gswIdx, blockSize, Nat.mul_comm 8]

theorem loadWords_short (c : Gsw l N) : ∀ (xs : List (Fin (2 * l) × Fin 2 × Fin N)) (acc : Gsw l N × IStream),
    acc.2.bytes.length < acc.2.pos + 8 * xs.length →
    xs.foldlM (fun (acc : Gsw l N × IStream) x => do
      let (w, is) ← loadDouble acc.2
      pure (acc.1.set x w, is)) acc = (.error .assertFail : Res _) ∨ xs = []
  | [], acc, h => .inr rfl
  | x :: xs, acc, h => by
    left
    rw [List.foldlM_cons]
    rw [List.length_cons] at h
    by_cases h8 : acc.2.pos + 8 ≤ acc.2.bytes.length
    · have hl : loadDouble acc.2 = .ok (ofBytes ((acc.2.bytes.drop acc.2.pos).take 8), { acc.2 with pos := acc.2.pos + 8 }) := by
        unfold loadDouble
        dsimp only
        rw [List.length_take, List.length_drop, Nat.min_eq_left (by omega)]
        rfl
      rw [hl]
      rcases loadWords_short c xs (acc.1.set x (ofBytes ((acc.2.bytes.drop acc.2.pos).take 8)),
        { acc.2 with pos := acc.2.pos + 8 }) (by dsimp only; omega) with h' | h'
      · exact h'
      · subst h'; simp at h; omega
    · have hl : loadDouble acc.2 = .error .assertFail := by
        unfold loadDouble
        dsimp only
        rw [List.length_take, List.length_drop]
        have : (min 8 (acc.2.bytes.length - acc.2.pos) == 8) = false := by
          rw [beq_eq_false_iff_ne]; omega
        rw [this]
        rfl
      rw [hl]
      rfl

theorem seekOffset_eq (off : Int) (h1 : -(2 ^ 63 : Int) ≤ off * blockSize l N) (h2 : off * blockSize l N < 2 ^ 63) :
    seekOffset l N off = off * blockSize l N := by
  unfold seekOffset
  rw [← BitVec.ofInt_natCast, ← BitVec.ofInt_mul, BitVec.toInt_ofInt]
  rw [Int.bmod_eq_of_le]
  · omega
  · omega

end Homfa
