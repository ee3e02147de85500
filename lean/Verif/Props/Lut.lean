import Verif.Proof.Lut

/-!
# C34: table lookup
-/

namespace Homfa

variable {N n l : Nat} {S : Scheme N n l} {δ : Noise} {Enc : Gsw l N → Bool → Prop}

/-- **C34.** `lookup_table` on 2^k entries and `k` encrypted bits leaves in entry 0 the entry addressed by the bits, the first
input being the least significant one, with at most `k` CMUX errors in every coefficient.  (k ≤ 30: `1 << k` is an `int`.) -/
theorem C34_lookup_selects (hS : S.Sound δ Enc) (table ws : List (TRLWE N)) (cs : List (Gsw l N)) (bits : List Bool)
    (hcs : List.Forall₂ Enc cs bits) (hk : bits.length < 31) (ht : table.length = 2 ^ bits.length) :
    ∃ table' ws' out entry, lookupTable S table cs ws = .ok (table', ws') ∧ table'[0]? = some out ∧
      table[lsbIndex bits]? = some entry ∧
      ∀ i, Near (bits.length * δ.cmux) (out.phase S.sk.lvl1 i) (entry.phase S.sk.lvl1 i) := by
  have hl := hcs.length_eq
  obtain ⟨t, w, h1, h2⟩ := lookupTable_ok S table cs ws (trivialTRLWEZero N) (by omega) (by rw [hl]; exact ht)
  have hlt : lsbIndex bits < table.length := by rw [ht]; exact lsbIndex_lt bits
  refine ⟨t, w, _, table[lsbIndex bits], h1, h2, List.getElem?_eq_getElem hlt, ?_⟩
  intro i
  have := lutPure_near hS hcs (fun j => table.getD j (trivialTRLWEZero N)) i
  simpa [hlt] using this

/-- **C34 (wrong size).** Whatever the ciphertexts are, a table whose size is not 2^k fails the assertion. -/
theorem C34_wrong_size (S : Scheme N n l) (table ws : List (TRLWE N)) (cs : List (Gsw l N)) (hk : cs.length < 31)
    (ht : table.length ≠ 2 ^ cs.length) : lookupTable S table cs ws = .error .assertFail := by
  unfold lookupTable
  rw [lookupTableTimer_abort S table cs ws [] hk ht]; rfl

/-- two inputs and four entries: entry 1 is selected by (1, 0) -/
example : ∃ (S : Scheme 2 1 1) (δ : Noise) (Enc : Gsw 1 2 → Bool → Prop) (cs : List (Gsw 1 2)) (table : List (TRLWE 2)),
    S.Sound δ Enc ∧ List.Forall₂ Enc cs [true, false] ∧ table.length = 2 ^ 2 ∧ lsbIndex [true, false] = 1 := by
  have hs := toy_sound (N := 2) (n := 1) (l := 1) ⟨![1, 0], ![1]⟩ (by decide) (by decide)
  exact ⟨_, toyNoise, toyEnc, [true, false].map (Scheme.encrypt _ 0), List.replicate 4 (trivialTRLWEZero 2), hs,
    .cons (hs.encrypt _ _) (.cons (hs.encrypt _ _) .nil), by decide, by decide⟩

end Homfa
