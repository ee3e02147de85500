import Verif.Spec.Collage
import Verif.Proof.Pieces
import Verif.Proof.Runs
import Verif.Proof.CleanRun

/-! # Ciphertext files put together from parts of others -/

namespace Homfa

variable {N n l : Nat}

theorem encryptions_getElem? (S : Scheme N n l) (rand : Nat → Nat) : ∀ (w : List Bool) (k i : Nat),
    (encryptions S rand k w)[i]? = w[i]?.map (S.encrypt (rand (k + i)))
  | [], _, i => by simp [encryptions]
  | b :: w, k, 0 => by simp [encryptions]
  | b :: w, k, i + 1 => by
    rw [encryptions, List.getElem?_cons_succ, List.getElem?_cons_succ, encryptions_getElem? S rand w]
    congr 3
    omega

theorem file_part : ∀ {cs : List (Gsw l N)} {i : Nat} {c : Gsw l N}, cs[i]? = some c →
    ((cs.flatMap saveGsw).drop (i * blockSize l N)).take (blockSize l N) = saveGsw c
  | [], i, c, h => by simp at h
  | a :: cs, 0, c, h => by
    simp only [List.getElem?_cons_zero, Option.some.injEq] at h
    subst h
    rw [List.flatMap_cons, Nat.zero_mul, List.drop_zero, List.take_append_of_le_length (by rw [length_saveGsw]), List.take_of_length_le (by rw [length_saveGsw])]
  | a :: cs, i + 1, c, h => by
    rw [List.getElem?_cons_succ] at h
    have e : (saveGsw a ++ cs.flatMap saveGsw).drop (blockSize l N) = cs.flatMap saveGsw := by
      rw [← length_saveGsw a, List.drop_left]
    rw [List.flatMap_cons, Nat.succ_mul, Nat.add_comm, ← List.drop_drop, e]
    exact file_part h

theorem encryptions_any (S : Scheme N n l) : ∀ {ps : List (List Byte × Bool)}, (∀ p ∈ ps, ∃ r, p.1 = saveGsw (S.encrypt r p.2)) →
    ∃ rand : Nat → Nat, (encryptions S rand 0 (ps.map (·.2))).flatMap saveGsw = ps.flatMap (·.1)
  | [], _ => ⟨id, rfl⟩
  | p :: ps, h => by
    obtain ⟨rand, hr⟩ := encryptions_any S (ps := ps) fun q hq => h q (List.mem_cons_of_mem _ hq)
    obtain ⟨r, hp⟩ := h p List.mem_cons_self
    refine ⟨fun i => i.casesOn r rand, ?_⟩
    rw [List.map_cons, encryptions, List.flatMap_cons, List.flatMap_cons, ← hr, hp]
    congr 2
    exact encryptions_ext S _ fun i _ => by simp [Nat.add_comm 1 i]

end Homfa

namespace Homfa.Cli

variable {N n l : Nat} {L : Lib N n l} {δ : Noise} {Enc : L.Key → Gsw l N → Bool → Prop}

theorem bitBytes_records (w : List Bool) : bitBytes w = (w.map fun b => [if b then (1#8 : Byte) else 0#8]).flatten := by
  induction w with
  | nil => rfl
  | cons b w ih =>
    rw [bitBytes, List.map_cons, List.map_cons, List.flatten_cons, ← ih]
    rfl

theorem bitBytes_bits (w : List Bool) : (w.map fun b => [if b then (1#8 : Byte) else 0#8]).flatMap (recordBits 1) = w := by
  induction w with
  | nil => rfl
  | cons b w ih =>
    rw [List.map_cons, List.flatMap_cons, ih]
    cases b <;> rfl

theorem Encrypted.is (hk : ∀ k, L.loadKey (L.saveKey k) = some k) {k : L.Key} {part : List Byte} {b : Bool} (h : Encrypted L (L.saveKey k) part b) :
    ∃ r, part = saveGsw ((L.client k).encrypt r b) := by
  obtain ⟨fs, fs1, K, I, C, ap, rs, file, i, wK, wI, wC, hne, hap, hap64, h1, h2, h3, h4, h5, h6, rfl⟩ := h
  obtain ⟨rand, e⟩ := (run_enc wK wI wC hk h1 h2 hne hap hap64).1 h4
  rw [enc_eq _ rand hap h3] at e
  injection e with e
  injection e with e _
  subst e
  have : file = (encryptions (L.client k) rand 0 (rs.flatMap (recordBits ap))).flatMap saveGsw := by
    simpa [Files.set] using h5.symm
  subst this
  refine ⟨rand (0 + i), file_part ?_⟩
  rw [encryptions_getElem?, h6]
  rfl

/-- the parts are what `enc` may write for their bits -/
theorem collage_enc (hk : ∀ k, L.loadKey (L.saveKey k) = some k) {k : L.Key} {ps : List (List Byte × Bool)}
    (h : ∀ p ∈ ps, Encrypted L (L.saveKey k) p.1 p.2) :
    ∃ rand, doEnc (L.client k) rand (some (bitBytes (ps.map (·.2)))) 1 = .ok (ps.flatMap (·.1)) := by
  obtain ⟨rand, hr⟩ := encryptions_any (L.client k) (ps := ps) fun p hp => (h p hp).is hk
  refine ⟨rand, ?_⟩
  rw [bitBytes_records, enc_eq _ rand (by decide), bitBytes_bits, hr]
  intro r hr
  obtain ⟨b, _, rfl⟩ := List.mem_map.1 hr
  rfl

/-- `enc` writes one ciphertext for each bit -/
theorem enc_bitBytes_31 (hl : 0 < l) (hN : 0 < N) {w : List Bool} (h : w.length < 2 ^ 31) {P : Scheme N n l} {rand : Nat → Nat} {file : List Byte}
    (he : doEnc P rand (some (bitBytes w)) 1 = .ok file) : file.length < 2 ^ 31 * blockSize l N := by
  have hrs : ∀ r ∈ (w.map fun b => [if b then (1#8 : Byte) else 0#8]), r.length = recordBytes 1 := by
    intro r hr
    obtain ⟨b, _, rfl⟩ := List.mem_map.1 hr
    rfl
  obtain ⟨cs, e1, e2⟩ := enc_ok P rand (by decide) hrs
  rw [bitBytes_records, e1] at he
  cases he
  have hbs0 : 0 < blockSize l N := by unfold blockSize; positivity
  rw [length_file, e2.length_eq, bitBytes_bits]
  exact Nat.mul_lt_mul_of_pos_right h hbs0

/-- the run and `dec` -/
theorem collage_run (hL : L.Sound δ Enc) (hl : 0 < l) (hN : 0 < N) {q q' : Nat} {S K B C R : String} (hn : Usable S S K B C R) {fs : Files} {specB : List Byte}
    (hs : fs S = some specB) (hk : fs K = some (L.saveKey (L.newKey q))) (hb : fs B = some (L.saveBKey (L.newBKey q' (L.newKey q))))
    {ps : List (List Byte × Bool)} (hp : ∀ p ∈ ps, Encrypted L (L.saveKey (L.newKey q)) p.1 p.2) (hc : fs C = some (ps.flatMap (·.1)))
    (hlen : ps.length * blockSize l N < 2 ^ 63) {out : List Char} {X : List String} (hX : RunRight L S B C R specB (bitBytes (ps.map (·.2))) 1 out X) :
    AlwaysPrints L fs [X, ["dec", "--key", K, "--in", R]] out [R] := by
  have wK := hn.words K (by simp)
  have wR := hn.words R (by simp)
  have hbs0 : 0 < blockSize l N := by unfold blockSize; positivity
  have hsum : ∀ ps : List (List Byte × Bool), (∀ p ∈ ps, Encrypted L (L.saveKey (L.newKey q)) p.1 p.2) →
      (ps.flatMap (·.1)).length = ps.length * blockSize l N := by
    intro ps h
    induction ps with
    | nil => simp
    | cons p ps ih =>
      obtain ⟨r, hr⟩ := (h p List.mem_cons_self).is hL.key
      rw [List.flatMap_cons, List.length_append, ih fun p hp => h p (List.mem_cons_of_mem _ hp), hr, length_saveGsw, List.length_cons, Nat.succ_mul, Nat.add_comm]
  obtain ⟨rand, he⟩ := collage_enc hL.key hp
  obtain ⟨cs, hcs⟩ := file_surj (l := l) (N := N) hbs0 ps.length (ps.flatMap (·.1)) (hsum ps hp)
  obtain ⟨h1, h2⟩ := hX q q' rand fs cs hs (by rw [hc, hcs]) hb (by rw [hcs, hsum ps hp]; exact hlen) (by rw [hcs]; exact he)
  have hKR : ∀ c, (fs.set R (L.saveRes c)) K = some (L.saveKey (L.newKey q)) := fun c => by rw [Files.set_other _ _ hn.result.symm]; exact hk
  constructor
  · obtain ⟨r, hr⟩ := h1
    obtain ⟨c, rfl, hd⟩ := h2 r hr
    exact ⟨_, .next hr (.next ((run_dec wK wR hL.key hL.res (hKR c) (Files.set_same _ _ _)).2 rfl) .nil)⟩
  · intro r hr
    cases hr with
    | stop h => obtain ⟨c, h, _⟩ := h2 _ h; cases h
    | next h hr =>
      obtain ⟨c, h, hd⟩ := h2 _ h
      cases h
      cases hr with
      | stop h => cases (run_dec wK wR hL.key hL.res (hKR c) (Files.set_same _ _ _)).1 h
      | next h hr =>
        cases (run_dec wK wR hL.key hL.res (hKR c) (Files.set_same _ _ _)).1 h
        cases hr
        refine ⟨fs.set R (L.saveRes c), ?_, fun f hf => Files.set_other _ _ (by simpa using hf)⟩
        have : doDec (L.client (L.newKey q)) c = out := hd
        rw [this]
        simp [Except.map]

end Homfa.Cli
