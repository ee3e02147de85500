import Verif.Spec.Pieces
import Verif.Proof.Runs

/-! Encrypting in pieces. -/

namespace Homfa

variable {N n l : Nat}

theorem encryptions_append (S : Scheme N n l) (rand : Nat → Nat) : ∀ (v w : List Bool) (k : Nat),
    encryptions S rand k (v ++ w) = encryptions S rand k v ++ encryptions S rand (k + v.length) w := by
  intro v
  induction v with
  | nil => intro w k; simp [encryptions]
  | cons b v ih => intro w k; simp [encryptions, ih, Nat.add_assoc, Nat.add_comm 1]

theorem encryptions_ext (S : Scheme N n l) : ∀ (w : List Bool) {r r' : Nat → Nat} {k k' : Nat}, (∀ i, i < w.length → r (k + i) = r' (k' + i)) →
    encryptions S r k w = encryptions S r' k' w := by
  intro w
  induction w with
  | nil => intros; rfl
  | cons b w ih =>
    intro r r' k k' h
    unfold encryptions
    rw [show r k = r' k' from h 0 (by simp), ih (k := k + 1) (k' := k' + 1)]
    intro i hi
    rw [Nat.add_right_comm, Nat.add_right_comm k']
    exact h (i + 1) (by simpa using hi)

/-- input made of whole records -/
def Whole (ap : Nat) (w : List Byte) : Prop := ∃ rs : List (List Byte), w = rs.flatten ∧ ∀ r ∈ rs, r.length = recordBytes ap

theorem whole_of_dvd {ap : Nat} (hap : 0 < ap) : ∀ {w : List Byte}, recordBytes ap ∣ w.length → Whole ap w := by
  have hpos : 0 < recordBytes ap := by unfold recordBytes; omega
  intro w ⟨k, hk⟩
  induction k generalizing w with
  | zero => exact ⟨[], by rw [List.flatten_nil]; exact List.eq_nil_of_length_eq_zero (by simpa using hk), by simp⟩
  | succ k ih =>
    rw [Nat.mul_succ] at hk
    obtain ⟨rs, h1, h2⟩ := ih (w := w.drop (recordBytes ap)) (by rw [List.length_drop]; omega)
    refine ⟨w.take (recordBytes ap) :: rs, by rw [List.flatten_cons, ← h1, List.take_append_drop], ?_⟩
    intro r hr
    rcases List.mem_cons.1 hr with rfl | hr
    · rw [List.length_take]; omega
    · exact h2 r hr

theorem Whole.append {ap : Nat} {a b : List Byte} (ha : Whole ap a) (hb : Whole ap b) : Whole ap (a ++ b) := by
  obtain ⟨r1, rfl, h1⟩ := ha
  obtain ⟨r2, rfl, h2⟩ := hb
  refine ⟨r1 ++ r2, by rw [List.flatten_append], fun r hr => ?_⟩
  rcases List.mem_append.1 hr with h | h
  · exact h1 r h
  · exact h2 r h

theorem Whole.enc {ap : Nat} (hap : 0 < ap) {a : List Byte} (ha : Whole ap a) (P : Scheme N n l) (rand : Nat → Nat) : ∃ f, doEnc P rand (some a) ap = .ok f := by
  obtain ⟨rs, rfl, h⟩ := ha
  exact ⟨_, enc_eq P rand hap h⟩

/-- encrypting two pieces one after the other is a way of encrypting both -/
theorem enc_append {ap : Nat} (hap : 0 < ap) {a b : List Byte} (ha : Whole ap a) (hb : Whole ap b) {P : Scheme N n l} {r1 r2 : Nat → Nat} {f1 f2 : List Byte}
    (h1 : doEnc P r1 (some a) ap = .ok f1) (h2 : doEnc P r2 (some b) ap = .ok f2) : ∃ r, doEnc P r (some (a ++ b)) ap = .ok (f1 ++ f2) := by
  obtain ⟨ra, rfl, ka⟩ := ha
  obtain ⟨rb, rfl, kb⟩ := hb
  rw [enc_eq P _ hap ka] at h1
  rw [enc_eq P _ hap kb] at h2
  cases h1
  cases h2
  have hk : ∀ r ∈ ra ++ rb, r.length = recordBytes ap := fun r hr => (List.mem_append.1 hr).elim (ka r) (kb r)
  refine ⟨fun i => if i < (ra.flatMap (recordBits ap)).length then r1 i else r2 (i - (ra.flatMap (recordBits ap)).length), ?_⟩
  rw [← List.flatten_append, enc_eq P _ hap hk, List.flatMap_append, encryptions_append, List.flatMap_append]
  congr 3
  · refine encryptions_ext P _ fun i hi => ?_
    rw [Nat.zero_add, if_pos hi]
  · refine encryptions_ext P _ fun i hi => ?_
    rw [Nat.zero_add, if_neg (by omega), Nat.add_sub_cancel_left, Nat.zero_add]

end Homfa

namespace Homfa.Cli

variable {N n l : Nat} {L : Lib N n l} {δ : Noise} {Enc : L.Key → Gsw l N → Bool → Prop}

theorem plainPrints_iff {specB inB : List Byte} {ap : Nat} (hap : 0 < ap) (hap64 : ap < 2 ^ 64) {out : List Char} :
    PlainPrints L specB inB ap out ↔ doRunPlain (textOf specB) (some inB) ap = .ok out := by
  constructor
  · rintro ⟨fs, fs', S, I, wS, wI, hs, hi, h⟩
    have hp := (run_plain wS wI hs hi hap hap64).1 h
    cases h : doRunPlain (textOf specB) (some inB) ap with
    | error e => rw [h] at hp; cases hp
    | ok o => rw [h] at hp; cases hp; rfl
  · intro h
    have ws : Word "s" := by unfold Word; decide
    have wi : Word "i" := by unfold Word; decide
    refine ⟨fun f => if f = "s" then some specB else some inB, fun f => if f = "s" then some specB else some inB, "s", "i", ws, wi, rfl, rfl, (run_plain ws wi rfl rfl hap hap64).2 ?_⟩
    rw [h]
    rfl

/-- What is there when a piece is about to be encrypted. -/
structure PiecesInv (L : Lib N n l) (S K B C : String) (specB : List Byte) (ap q q' : Nat) (ps : List Piece) (before : List Byte) (fs : Files) : Prop where
  spec : fs S = some specB
  key : fs K = some (L.saveKey (L.newKey q))
  bkey : fs B = some (L.saveBKey (L.newBKey q' (L.newKey q)))
  pieces : ∀ p ∈ ps, fs p.file = some p.bytes
  file : ∃ rand, doEnc (L.client (L.newKey q)) rand (some before) ap = .ok ((fs C).getD [])
  whole : Whole ap before

theorem pieces_run (hL : L.Sound δ Enc) {S K B T C R : String} {specB : List Byte} {ap : Nat} (hap : 0 < ap) (hap64 : ap < 2 ^ 64) {total : Nat}
    (hlen : 8 * total * blockSize l N < 2 ^ 63) {X : List String} (good : List Byte → Prop)
    (hX : ∀ w out, w.length ≤ total → good w → doRunPlain (textOf specB) (some w) ap = .ok out → RunRight L S B C R specB w ap out X) (q q' : Nat) :
    ∀ {ps : List Piece} {before : List Byte} {fs : Files} {out : List Char}, PieceNames S K B T C R ps → before.length + (ps.flatMap (·.bytes)).length ≤ total →
      (∀ p ∈ ps, Whole ap p.bytes) → (∀ p ∈ ps, ∀ w, good (w ++ p.bytes)) →
      PiecesInv L S K B C specB ap q q' ps before fs → Verdicts L specB ap before ps out →
      SessionPrints L fs (ps.flatMap (·.cmds ap K T C R X)) out [K, B, T, C, R] := by
  intro ps
  induction ps with
  | nil =>
    intro before fs out _ _ _ _ _ hv
    cases hv
    refine ⟨⟨_, .nil⟩, fun r hr => ?_⟩
    cases hr
    exact ⟨fs, rfl, fun _ _ => rfl⟩
  | cons p ps ih =>
    intro before fs out hn htot hwh hgood hJ hv
    obtain ⟨wS, wK, wB, wT, wC, wR⟩ : Word S ∧ Word K ∧ Word B ∧ Word T ∧ Word C ∧ Word R :=
      ⟨hn.words S (by simp), hn.words K (by simp), hn.words B (by simp), hn.words T (by simp), hn.words C (by simp), hn.words R (by simp)⟩
    have hd := hn.distinct
    simp only [List.nodup_cons, List.mem_cons, List.not_mem_nil, or_false, not_or] at hd
    obtain ⟨⟨dSK, dSB, dST, dSC, dSR⟩, ⟨dKB, dKT, dKC, dKR⟩, ⟨dBT, dBC, dBR⟩, ⟨dTC, dTR⟩, dCR, -⟩ := hd
    have dP : ∀ p' ∈ p :: ps, p'.file ≠ K ∧ p'.file ≠ B ∧ p'.file ≠ T ∧ p'.file ≠ C ∧ p'.file ≠ R := by
      intro p' hp'
      have := hn.pieces p' hp'
      simpa only [List.mem_cons, List.not_mem_nil, or_false, not_or] using this
    have hn' : PieceNames S K B T C R ps := ⟨hn.words, hn.distinct, fun p' h => hn.pieceWords p' (by simp [h]), fun p' h => hn.pieces p' (by simp [h])⟩
    have htot' : (before ++ p.bytes).length + (ps.flatMap (·.bytes)).length ≤ total := by
      simp only [List.flatMap_cons, List.length_append] at htot ⊢
      omega
    have hfile := hJ.pieces p (by simp)
    have hwp := hwh p (by simp)
    -- the files after `enc` and `cat`
    obtain ⟨rand0, henc0⟩ := hJ.file
    have after : ∀ rand f2, doEnc (L.client (L.newKey q)) rand (some p.bytes) ap = .ok f2 → ∀ fs1, fs1 = (fs.set T []).set T f2 → ∀ fs2, fs2 = fs1.set C ((fs1 C).getD [] ++ f2) →
        fs1 T = some f2 ∧ PiecesInv L S K B C specB ap q q' ps (before ++ p.bytes) fs2 ∧ fs2 C = some ((fs C).getD [] ++ f2) ∧ ∀ f, f ∉ [K, B, T, C, R] → fs2 f = fs f := by
      intro rand f2 h2 fs1 hfs1 fs2 hfs2
      have o : ∀ f, f ≠ T → f ≠ C → fs2 f = fs f := by
        intro f h h'
        rw [hfs2, Files.set_other _ _ h', hfs1, Files.set_other _ _ h, Files.set_other _ _ h]
      have hc1 : fs1 C = fs C := by rw [hfs1, Files.set_other _ _ (Ne.symm dTC), Files.set_other _ _ (Ne.symm dTC)]
      have hc2 : fs2 C = some ((fs C).getD [] ++ f2) := by rw [hfs2, Files.set_same, hc1]
      refine ⟨by rw [hfs1, Files.set_same], ⟨?_, ?_, ?_, fun p' hp' => ?_, ?_, hJ.whole.append hwp⟩, hc2, fun f hf => ?_⟩
      · rw [o S dST dSC, hJ.spec]
      · rw [o K dKT dKC, hJ.key]
      · rw [o B dBT dBC, hJ.bkey]
      · obtain ⟨-, -, d3, d4, -⟩ := dP p' (by simp [hp'])
        rw [o _ d3 d4, hJ.pieces p' (by simp [hp'])]
      · rw [hc2]
        exact enc_append hap hJ.whole hwp henc0 h2
      · simp only [List.mem_cons, List.not_mem_nil, or_false, not_or] at hf
        exact o f hf.2.2.1 hf.2.2.2.1
    obtain ⟨dpK, dpB, dpT, dpC, dpR⟩ := dP p (by simp)
    have hrunEnc := fun r => run_enc (L := L) (r := r) wK (hn.pieceWords p (by simp)) wT hL.key hJ.key hfile dpT hap hap64
    -- what follows
    have rest : ∀ rand f2, doEnc (L.client (L.newKey q)) rand (some p.bytes) ap = .ok f2 → ∀ fs1, fs1 = (fs.set T []).set T f2 → ∀ fs2, fs2 = fs1.set C ((fs1 C).getD [] ++ f2) →
        SessionPrints L fs2 ((if p.ask then [.homfa X, .homfa ["dec", "--key", K, "--in", R]] else []) ++ ps.flatMap (·.cmds ap K T C R X)) out [K, B, T, C, R] := by
      intro rand f2 h2 fs1 hfs1 fs2 hfs2
      obtain ⟨-, hJ2, hC2, -⟩ := after rand f2 h2 fs1 hfs1 fs2 hfs2
      cases hv with
      | skip ha hv =>
        rw [ha]
        exact ih hn' htot' (fun p' h => hwh p' (by simp [h])) (fun p' h => hgood p' (by simp [h])) hJ2 hv
      | @ask _ _ _ o out ha hp hv =>
        rw [ha]
        have hplain := (plainPrints_iff hap hap64).1 hp
        obtain ⟨rand', henc'⟩ := hJ2.file
        have hlen' : 8 * (before ++ p.bytes).length * blockSize l N < 2 ^ 63 :=
          lt_of_le_of_lt (Nat.mul_le_mul_right _ (Nat.mul_le_mul_left _ (by omega))) hlen
        obtain ⟨cs, c1, c2⟩ := enc_file hlen' hap hplain (L.pair (L.newKey q) (L.newBKey q' (L.newKey q))) rand'
        have e : (fs2 C).getD [] = cs.flatMap saveGsw := Except.ok.inj (henc'.symm.trans c2)
        have e' : fs2 C = some (cs.flatMap saveGsw) := by rw [← e, hC2]; rfl
        obtain ⟨⟨r0, x1⟩, x2⟩ := hX _ _ (by omega) (hgood p (by simp) before) hplain q q' rand' fs2 cs hJ2.spec e' hJ2.bkey c1 c2
        have hJ3 : ∀ x, PiecesInv L S K B C specB ap q q' ps (before ++ p.bytes) (fs2.set R x) := by
          intro x
          refine ⟨?_, ?_, ?_, fun p' hp' => ?_, ?_, hJ2.whole⟩
          · rw [Files.set_other _ _ dSR, hJ2.spec]
          · rw [Files.set_other _ _ dKR, hJ2.key]
          · rw [Files.set_other _ _ dBR, hJ2.bkey]
          · rw [Files.set_other _ _ (dP p' (by simp [hp'])).2.2.2.2, hJ2.pieces p' hp']
          · rw [Files.set_other _ _ dCR]; exact hJ2.file
        have hih := fun x => ih hn' htot' (fun p' h => hwh p' (by simp [h])) (fun p' h => hgood p' (by simp [h])) (hJ3 x) hv
        have hdec := fun c r => run_dec (L := L) (r := r) wK wR hL.key hL.res (hJ3 (L.saveRes c)).key (Files.set_same _ _ _)
        constructor
        · obtain ⟨c, rfl, hc⟩ := x2 _ x1
          obtain ⟨⟨r, hr⟩, -⟩ := hih (L.saveRes c)
          exact ⟨_, .next x1 (.next ((hdec c _).2 rfl) hr)⟩
        · intro r hr
          cases hr with
          | stop h => obtain ⟨c, h, -⟩ := x2 _ h; cases h
          | next h hr =>
          obtain ⟨c, h, hc⟩ := x2 _ h
          obtain ⟨rfl, rfl⟩ := Prod.mk.inj (Except.ok.inj h)
          cases hr with
          | stop h => have h := (hdec c _).1 h; cases h
          | next h hr =>
          have h := (hdec c _).1 h
          obtain ⟨e1, e2⟩ := Prod.mk.inj (Except.ok.inj h)
          subst e1
          obtain ⟨fs', rfl, hf⟩ := (hih _).2 _ hr
          refine ⟨fs', ?_, fun f hf' => ?_⟩
          · have hc : doDec (L.client (L.newKey q)) c = o := hc
            rw [e2, hc]
            rfl
          · rw [hf f hf']
            simp only [List.mem_cons, List.not_mem_nil, or_false, not_or] at hf'
            rw [Files.set_other _ _ hf'.2.2.2.2]
    rw [List.flatMap_cons, Piece.cmds, List.append_assoc]
    constructor
    · obtain ⟨f2, h2⟩ := hwp.enc hap (L.client (L.newKey q)) (fun _ => 0)
      obtain ⟨⟨r, hr⟩, -⟩ := rest _ f2 h2 _ rfl _ rfl
      obtain ⟨a1, -⟩ := after _ f2 h2 _ rfl _ rfl
      exact ⟨_, .next ((hrunEnc _).2 ⟨fun _ => 0, by rw [h2]; rfl⟩) (.cat a1 hr)⟩
    · intro r hr
      cases hr with
      | stop h =>
        obtain ⟨rand, h⟩ := (hrunEnc _).1 h
        obtain ⟨f2, h2⟩ := hwp.enc hap (L.client (L.newKey q)) rand
        rw [h2] at h
        cases h
      | next h hr =>
      obtain ⟨rand, h⟩ := (hrunEnc _).1 h
      obtain ⟨f2, h2⟩ := hwp.enc hap (L.client (L.newKey q)) rand
      rw [h2] at h
      obtain ⟨e, rfl⟩ := Prod.mk.inj (Except.ok.inj h)
      obtain ⟨a1, -, -, a4⟩ := after rand f2 h2 _ e _ rfl
      cases hr with
      | noFile h => rw [a1] at h; cases h
      | cat h hr =>
      rw [a1] at h
      cases h
      obtain ⟨-, r2⟩ := rest rand _ h2 _ e _ rfl
      obtain ⟨fs', rfl, hf⟩ := r2 _ hr
      refine ⟨fs', by simp [Except.map], fun f hf' => ?_⟩
      rw [hf f hf', a4 f hf']

/-- the whole session -/
theorem pieces_session (hL : L.Sound δ Enc) {S K B T C R : String} {specB : List Byte} {ap : Nat} (hap : 0 < ap) (hap64 : ap < 2 ^ 64) {ps : List Piece}
    (hlen : 8 * (ps.flatMap (·.bytes)).length * blockSize l N < 2 ^ 63) {X : List String} (good : List Byte → Prop)
    (hX : ∀ w out, w.length ≤ (ps.flatMap (·.bytes)).length → good w → doRunPlain (textOf specB) (some w) ap = .ok out → RunRight L S B C R specB w ap out X)
    (hn : PieceNames S K B T C R ps) (fs : Files) (hs : fs S = some specB) (hp : ∀ p ∈ ps, fs p.file = some p.bytes)
    (hw : ∀ p ∈ ps, recordBytes ap ∣ p.bytes.length) (hgood : ∀ p ∈ ps, ∀ w, good (w ++ p.bytes)) (hC : (fs C).getD [] = []) {out : List Char}
    (hv : Verdicts L specB ap [] ps out) : SessionPrints L fs (piecesSession ps ap K B T C R X) out [K, B, T, C, R] := by
  obtain ⟨wK, wB⟩ : Word K ∧ Word B := ⟨hn.words K (by simp), hn.words B (by simp)⟩
  have hd := hn.distinct
  simp only [List.nodup_cons, List.mem_cons, List.not_mem_nil, or_false, not_or] at hd
  obtain ⟨⟨dSK, dSB, dST, dSC, dSR⟩, ⟨dKB, dKT, dKC, dKR⟩, ⟨dBT, dBC, dBR⟩, ⟨dTC, dTR⟩, dCR, -⟩ := hd
  have inv : ∀ q q' fs2, fs2 = (fs.set K (L.saveKey (L.newKey q))).set B (L.saveBKey (L.newBKey q' (L.newKey q))) →
      PiecesInv L S K B C specB ap q q' ps [] fs2 := by
    rintro q q' fs2 rfl
    refine ⟨?_, ?_, Files.set_same _ _ _, fun p h => ?_, ⟨fun _ => 0, ?_⟩, ⟨[], rfl, by simp⟩⟩
    · rw [Files.set_other _ _ dSB, Files.set_other _ _ dSK, hs]
    · rw [Files.set_other _ _ dKB, Files.set_same]
    · have := hn.pieces p h
      simp only [List.mem_cons, List.not_mem_nil, or_false, not_or] at this
      rw [Files.set_other _ _ this.2.1, Files.set_other _ _ this.1, hp p h]
    · rw [Files.set_other _ _ (Ne.symm dBC), Files.set_other _ _ (Ne.symm dKC), hC]
      have := enc_eq (L.client (L.newKey q)) (fun _ => 0) hap (rs := []) (by simp)
      simpa [encryptions] using this
  have main := fun q q' => pieces_run hL hap hap64 hlen good hX q q' hn (by simp) (fun p h => whole_of_dvd hap (hw p h)) hgood (inv q q' _ rfl) hv
  have k1 : ∀ q, (fs.set K (L.saveKey (L.newKey q))) K = some (L.saveKey (L.newKey q)) := fun q => Files.set_same _ _ _
  constructor
  · obtain ⟨⟨r, hr⟩, -⟩ := main 0 0
    exact ⟨_, .next ((run_genkey wK).2 ⟨0, rfl⟩) (.next ((run_genbkey wK wB hL.key (k1 0)).2 ⟨0, rfl⟩) hr)⟩
  · intro r hr
    cases hr with
    | stop h => obtain ⟨q, h⟩ := (run_genkey wK).1 h; cases h
    | next h hr =>
    obtain ⟨q, h⟩ := (run_genkey wK).1 h
    cases h
    cases hr with
    | stop h => obtain ⟨q', h⟩ := (run_genbkey wK wB hL.key (k1 q)).1 h; cases h
    | next h hr =>
    obtain ⟨q', h⟩ := (run_genbkey wK wB hL.key (k1 q)).1 h
    cases h
    obtain ⟨fs', rfl, hf⟩ := (main q q').2 _ hr
    refine ⟨fs', by simp [Except.map], fun f hf' => ?_⟩
    rw [hf f hf']
    simp only [List.mem_cons, List.not_mem_nil, or_false, not_or] at hf'
    rw [Files.set_other _ _ hf'.2.1, Files.set_other _ _ hf'.1]

end Homfa.Cli
