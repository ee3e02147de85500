import Verif.Model.CounterKeys
import Verif.Spec.Tape
import Verif.Spec.Crash
import Verif.Props.Crash

/-!
# C87: the key files of the counter test program
-/

namespace Homfa.Cli

variable {N n l : Nat} {L : Lib N n l}

/-- The evaluation key was made from the secret key. -/
def Lib.Matching (L : Lib N n l) (p : L.Key × L.BKey) : Prop := ∃ r', p.2 = L.newBKey r' p.1

/-- There is no `_bkey`, or it is (a beginning of) the one that belongs to `_skey`. -/
def KeyFilesOk (L : Lib N n l) (fs : Files) : Prop :=
  fs "_bkey" = none ∨ ∃ k r' p, fs "_skey" = some (L.saveKey k) ∧ fs "_bkey" = some p ∧ p <+: L.saveBKey (L.newBKey r' k)

theorem Files.set_other' (fs : Files) {f g : String} (b : List Byte) (h : g ≠ f) : (fs.set f b) g = fs g := if_neg h

theorem Files.set_self' (fs : Files) (f : String) (b : List Byte) : (fs.set f b) f = some b := if_pos rfl

theorem KeyRun.keeps (hA : L.Archives) (hT : L.RejectsTruncated) {fs fs' : Files} {o : Option (L.Key × L.BKey)} (h : KeyRun L fs fs' o)
    (hok : KeyFilesOk L fs) : KeyFilesOk L fs' ∧ ∀ p, o = some p → L.Matching p := by
  have hne : ("_skey" : String) ≠ "_bkey" := by decide
  cases h with
  | @read k b h1 h2 hk hb =>
    refine ⟨hok, fun p hp => ?_⟩
    cases hp
    rcases hok with hok | ⟨k', r', p, e1, e2, e3⟩
    · rw [hok] at h2; cases h2
    · rw [e1, readArchive, hA.key] at hk
      cases hk
      rw [e2, readArchive] at hb
      by_cases hp : p = L.saveBKey (L.newBKey r' k)
      · rw [hp, hA.bkey] at hb
        cases hb
        exact ⟨r', rfl⟩
      · rw [hT.bkey _ _ e3 hp] at hb
        cases hb
  | badKey => exact ⟨hok, by simp⟩
  | badBKey => exact ⟨hok, by simp⟩
  | make r r' hno =>
    refine ⟨.inr ⟨L.newKey r, r', _, ?_, Files.set_self' _ _ _, List.prefix_rfl⟩, fun p hp => ?_⟩
    · rw [Files.set_other' _ _ hne, Files.set_self']
    · cases hp; exact ⟨r', rfl⟩
  | stopped => exact ⟨hok, by simp⟩
  | @stoppedKey r p hno hp =>
    refine ⟨.inl ?_, by simp⟩
    rw [Files.set_other' _ _ hne.symm]
    rcases hok with hok | ⟨k', r', p, e1, e2, e3⟩
    · exact hok
    · exact absurd ⟨by rw [e1]; rfl, by rw [e2]; rfl⟩ hno
  | @stoppedBKey r r' p hno hp =>
    refine ⟨.inr ⟨L.newKey r, r', p, ?_, Files.set_self' _ _ _, hp⟩, by simp⟩
    rw [Files.set_other' _ _ hne, Files.set_self']

/-- **C87 (matching keys).** In a directory without `_bkey`, or with two files made by a run that was not stopped: in any sequence of runs, each of which may be stopped at any moment, every
run that comes to the tests has an evaluation key made from its secret key. -/
theorem C87_keys_match (hA : L.Archives) (hT : L.RejectsTruncated) {fs fs' : Files} {os : List (Option (L.Key × L.BKey))}
    (hfs : fs "_bkey" = none ∨ ∃ k r', fs "_skey" = some (L.saveKey k) ∧ fs "_bkey" = some (L.saveBKey (L.newBKey r' k)))
    (h : KeyRuns L fs fs' os) (p : L.Key × L.BKey) (hp : some p ∈ os) : ∃ r', p.2 = L.newBKey r' p.1 := by
  have hok : KeyFilesOk L fs := by
    rcases hfs with h | ⟨k, r', h1, h2⟩
    · exact .inl h
    · exact .inr ⟨k, r', _, h1, h2, List.prefix_rfl⟩
  clear hfs
  induction h with
  | nil => cases hp
  | next h1 _ ih =>
    obtain ⟨k1, k2⟩ := h1.keeps hA hT hok
    rcases List.mem_cons.1 hp with hp | hp
    · exact k2 p hp.symm
    · exact ih hp k1

/-- **C87 (same keys).** Once a run has come to the tests, every later run that comes to them has the same keys, and the files stay as they are. -/
theorem C87_keys_stay (hA : L.Archives) {fs fs1 fs2 : Files} {p : L.Key × L.BKey} {os : List (Option (L.Key × L.BKey))}
    (h1 : KeyRun L fs fs1 (some p)) (h2 : KeyRuns L fs1 fs2 os) : fs2 = fs1 ∧ ∀ p', some p' ∈ os → p' = p := by
  have hne : ("_skey" : String) ≠ "_bkey" := by decide
  have hfs : readArchive L.loadKey (fs1 "_skey") = .ok p.1 ∧ readArchive L.loadBKey (fs1 "_bkey") = .ok p.2 := by
    cases h1 with
    | read _ _ h3 h4 => exact ⟨h3, h4⟩
    | make r r' _ =>
      rw [Files.set_self', Files.set_other' _ _ hne, Files.set_self']
      exact ⟨by rw [readArchive, hA.key], by rw [readArchive, hA.bkey]⟩
  have hboth : (fs1 "_skey").isSome ∧ (fs1 "_bkey").isSome := by
    constructor
    · cases e : fs1 "_skey" with
      | none => rw [e] at hfs; cases hfs.1
      | some => rfl
    · cases e : fs1 "_bkey" with
      | none => rw [e] at hfs; cases hfs.2
      | some => rfl
  clear h1
  induction h2 with
  | nil => exact ⟨rfl, by simp⟩
  | @next fs fs1 fs2 o os hr _ ih =>
    have hs : fs1 = fs ∧ ∀ p', o = some p' → p' = p := by
      cases hr with
      | read _ _ hk hb =>
        refine ⟨rfl, fun p' e => ?_⟩
        cases e
        rw [hfs.1] at hk
        rw [hfs.2] at hb
        cases hk; cases hb; rfl
      | badKey => exact ⟨rfl, by simp⟩
      | badBKey => exact ⟨rfl, by simp⟩
      | make r r' hno => exact absurd hboth hno
      | stopped => exact ⟨rfl, by simp⟩
      | stoppedKey r hno => exact absurd hboth hno
      | stoppedBKey r r' hno => exact absurd hboth hno
    obtain ⟨rfl, hs⟩ := hs
    obtain ⟨k1, k2⟩ := ih hfs hboth
    refine ⟨k1, fun p' hp' => ?_⟩
    rcases List.mem_cons.1 hp' with h | h
    · exact hs p' h.symm
    · exact k2 p' h

/-- **C87 (stuck).** If a run is stopped while `_bkey` is being written, no later run comes to the tests, and the two files are never repaired. -/
theorem C87_stuck (hT : L.RejectsTruncated) {fs fs' : Files} {k : L.Key} {r' : Nat} {b : List Byte}
    (hs : fs "_skey" = some (L.saveKey k)) (hb : fs "_bkey" = some b) (hpre : b <+: L.saveBKey (L.newBKey r' k))
    (hcut : b ≠ L.saveBKey (L.newBKey r' k)) {os : List (Option (L.Key × L.BKey))} (h : KeyRuns L fs fs' os) :
    fs' = fs ∧ ∀ o ∈ os, o = none := by
  have hboth : (fs "_skey").isSome ∧ (fs "_bkey").isSome := by rw [hs, hb]; exact ⟨rfl, rfl⟩
  induction h with
  | nil => exact ⟨rfl, by simp⟩
  | @next fs fs1 fs2 o os hr _ ih =>
    have : fs1 = fs ∧ o = none := by
      cases hr with
      | read _ _ hk hb' =>
        rw [hb, readArchive, hT.bkey _ _ hpre hcut] at hb'
        cases hb'
      | badKey => exact ⟨rfl, rfl⟩
      | badBKey => exact ⟨rfl, rfl⟩
      | make r r' hno => exact absurd hboth hno
      | stopped => exact ⟨rfl, rfl⟩
      | stoppedKey r hno => exact absurd hboth hno
      | stoppedBKey r r' hno => exact absurd hboth hno
    obtain ⟨rfl, rfl⟩ := this
    obtain ⟨k1, k2⟩ := ih hs hb hboth
    refine ⟨k1, fun o ho => ?_⟩
    rcases List.mem_cons.1 ho with h | h
    · exact h
    · exact k2 o h

/-- **C87 (a left-over `_bkey`).** With a `_bkey` but no `_skey`, a run stopped between the two files makes the next one test with a new secret key and the old evaluation key. -/
theorem C87_mismatch (hA : L.Archives) (fs : Files) (b : L.BKey) (hs : fs "_skey" = none) (hb : fs "_bkey" = some (L.saveBKey b)) (r : Nat) :
    ∃ fs', KeyRuns L fs fs' [none, some (L.newKey r, b)] := by
  have hne : ("_bkey" : String) ≠ "_skey" := by decide
  refine ⟨fs.set "_skey" (L.saveKey (L.newKey r)), .next (.stoppedKey r (by rw [hs]; simp) List.prefix_rfl) (.next (.read ?_ ?_ ?_ ?_) .nil)⟩
  · rw [Files.set_self']; rfl
  · rw [Files.set_other' _ _ hne, hb]; rfl
  · rw [Files.set_self', readArchive, hA.key]
  · rw [Files.set_other' _ _ hne, hb, readArchive, hA.bkey]

/-- **C87 (a left-over `_skey`).** With a `_skey` but no `_bkey`, no run that comes to the tests uses the key in the file: it is replaced by the key of new random numbers. -/
theorem C87_overwrites {fs fs' : Files} {p : L.Key × L.BKey} (hb : fs "_bkey" = none) (h : KeyRun L fs fs' (some p)) :
    ∃ r r', p = (L.newKey r, L.newBKey r' (L.newKey r)) ∧ fs' "_skey" = some (L.saveKey (L.newKey r)) ∧
      fs' "_bkey" = some (L.saveBKey (L.newBKey r' (L.newKey r))) := by
  cases h with
  | read _ h2 => rw [hb] at h2; cases h2
  | make r r' _ =>
    refine ⟨r, r', rfl, ?_, Files.set_self' _ _ _⟩
    rw [Files.set_other' _ _ (by decide), Files.set_self']

/-- A backend meets the hypotheses; in an empty directory a run may be stopped within `_skey`, the next one makes the keys and a third one reads them; and a run may also be stopped within
`_bkey`. -/
example : ∃ L : Lib 16 2 1, L.Archives ∧ L.RejectsTruncated ∧
    (∃ fs', KeyRuns L (fun _ => none) fs' [none, some (L.newKey 1, L.newBKey 2 (L.newKey 1)), some (L.newKey 1, L.newBKey 2 (L.newKey 1))]) ∧
    ∃ fs' b, KeyRuns L (fun _ => none) fs' [none] ∧ fs' "_skey" = some (L.saveKey (L.newKey 1)) ∧ fs' "_bkey" = some b ∧
      b <+: L.saveBKey (L.newBKey 2 (L.newKey 1)) ∧ b ≠ L.saveBKey (L.newBKey 2 (L.newKey 1)) := by
  obtain ⟨φ, hφ⟩ := exists_numbering 16
  have hL := toyLib_sound (n := 2) (l := 1) (by omega) (by omega) hφ
  let L := toyLib 16 2 1 φ
  have hA : L.Archives := ⟨hL.key, hL.bkey, hL.res⟩
  refine ⟨L, hA, toyLib_rejects, ⟨_, .next (.stoppedKey 0 (by simp) (p := []) (List.nil_prefix)) (.next (.make 1 2 ?_) (.next (.read ?_ ?_ ?_ ?_) .nil))⟩,
    _, [], .next (.stoppedBKey 1 2 (by simp) (p := []) List.nil_prefix) .nil, ?_, ?_, List.nil_prefix, ?_⟩
  · rw [Files.set_other' (g := "_bkey") _ _ (by decide)]; simp
  · rfl
  · rfl
  · rw [Files.set_other' _ _ (by decide), Files.set_self', readArchive, hA.key]
  · rw [Files.set_self', readArchive, hA.bkey]
  · rw [Files.set_other' _ _ (by decide), Files.set_self']
  · rw [Files.set_self']
  · simp [L, toyLib]

end Homfa.Cli
