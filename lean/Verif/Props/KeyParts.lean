import Verif.Proof.KeyParts

/-!
# C95: which parts of the evaluation key each method needs

`genbkey` puts five tables into the evaluation key.  What happens when some of them are missing follows from the library calls a run makes
(C79): which of the tables are needed depends on the method, and for all methods on how long the input is.  A key without a table that is not
needed gives the same result.
-/

namespace Homfa

variable {N n l : Nat}

/-- **C95.** With the key made by `genbkey`, no null pointer is ever followed: the commands do what they do with a library that has
everything. -/
theorem C95_generated (S : Scheme N n l) (spec : List Char) (size : Nat) (cs : List (Gsw l N)) (outFile outDir : Option String)
    (outFreq queue boot : Nat) (maxSecond : Option Nat) (isRev sanitize : Bool) :
    (doRunOfflineK .generated spec size cs boot sanitize).runWith S .generated = doRunOffline S spec size cs boot sanitize ∧
    (doRunReverseK .generated spec size cs outFile outDir outFreq boot isRev sanitize).runWith S .generated =
      doRunReverse S spec size cs outFile outDir outFreq boot isRev sanitize ∧
    (doRunBlockK .generated spec cs queue sanitize).runWith S .generated = doRunBlock S spec cs queue sanitize ∧
    (doRunFlutK .generated spec size cs outFile outDir outFreq queue boot maxSecond sanitize).runWith S .generated =
      doRunFlut S spec size cs outFile outDir outFreq queue boot maxSecond sanitize := by
  have h : ∀ k, KeyParts.generated.servesKind k = true := by intro k; cases k <;> rfl
  rw [doRunOfflineK_some rfl, doRunReverseK_some rfl, doRunBlockK_some rfl, doRunFlutK_some rfl rfl, ← doRunOfflineC_run, ← doRunReverseC_run,
    ← doRunBlockC_run, ← doRunFlutC_run]
  simp only [runWith_eq, h, implies_true, if_true, and_self]

/-- **C95**, `run offline`, when the whole key would do: a key without the two tables for bootstrapping gives the same result as long as the input is
shorter than `boot`, and undefined behaviour otherwise; the other tables are never needed.  A key without any tables is noticed. -/
theorem C95_offline (S : Scheme N n l) (spec : List Char) (g : Graph) (hg : Graph.fromIstream spec = .ok g) (hs : 0 < g.size)
    (cs : List (Gsw l N)) (boot : Nat) (hb : 0 < boot) (c : TLWE N) (h : doRunOffline S spec cs.length cs boot false = .ok c) (K : KeyParts) :
    (doRunOfflineK K spec cs.length cs boot false).runWith S K =
      if K.ekey = none then .error .assertFail
      else if cs.length < boot ∨ (K.has .iksk10 = true ∧ K.has .bk01 = true) then .ok c else .error .ub := by
  obtain ⟨m, D, hm, hD, hk⟩ := C79_offline S spec g hg hs cs boot c h
  obtain ⟨m', hm', wf, -⟩ := Graph.minimized_good (wf_of_fromIstream hg hs)
  cases hm.symm.trans hm'
  cases hK : K.ekey with
  | none =>
    rw [if_pos rfl]
    unfold doRunOfflineK
    rw [ret_bind_ok hg, ret_bind_ok hm, hK, ret_bind_err (show offlineMake _ _ _ _ _ = .error .assertFail from rfl)]
    rfl
  | some ps =>
    rw [if_neg (by simp), doRunOfflineK_some (by rw [hK]; rfl), runWith_eq, doRunOfflineC_run, h, hk]
    exact if_congr (serves_stream hb fun i _ => hD.pos wf _) rfl rfl

/-- **C95**, `run reverse`: as `run offline` -/
theorem C95_reverse (S : Scheme N n l) (spec : List Char) (g : Graph) (hg : Graph.fromIstream spec = .ok g) (hs : 0 < g.size)
    (size : Nat) (cs : List (Gsw l N)) (outFile outDir : Option String) (outFreq boot : Nat) (hb : 0 < boot) (isRev : Bool)
    (files : List (OutFile × TLWE N)) (h : doRunReverse S spec size cs outFile outDir outFreq boot isRev false = .ok files) (K : KeyParts) :
    (doRunReverseK K spec size cs outFile outDir outFreq boot isRev false).runWith S K =
      if K.ekey = none then .error .assertFail
      else if cs.length < boot ∨ (K.has .iksk10 = true ∧ K.has .bk01 = true) then .ok files else .error .ub := by
  obtain ⟨m, hm, hk⟩ := C79_reverse S spec g hg size cs outFile outDir outFreq boot isRev files h
  have hpos : 0 < m.size := by
    cases isRev with
    | true => cases hm; exact hs
    | false =>
      obtain ⟨r, hr, hm⟩ := Res.bind_eq_ok.1 hm
      obtain ⟨r', hr', wr, -⟩ := Graph.reversed_spec (wf_of_fromIstream hg hs)
      cases hr.symm.trans hr'
      obtain ⟨m', hm', wf, -⟩ := Graph.minimized_good wr
      cases hm.symm.trans hm'
      exact Nat.lt_of_le_of_lt (Nat.zero_le _) wf.init_lt
  cases hK : K.ekey with
  | none =>
    rw [if_pos rfl]
    rw [← doRunReverseC_run] at h
    unfold doRunReverseC at h
    obtain ⟨_, h1, h, -⟩ := Comp.ret_inv h
    unfold doRunReverseK
    rw [ret_bind_ok h1, ret_bind_ok hg, hK, ret_bind_err (e := .assertFail)]
    · rfl
    · unfold reverseMake
      rw [show (if isRev = true then pure g else do let r ← g.reversed; r.minimized : Res Graph) = .ok m by cases isRev <;> exact hm]
      rfl
  | some ps =>
    rw [if_neg (by simp), doRunReverseK_some (by rw [hK]; rfl), runWith_eq, doRunReverseC_run, h, hk]
    exact if_congr (serves_stream hb fun i _ => hpos) rfl rfl

open Classical in
/-- **C95**, `run block`: the tables for circuit bootstrapping are needed unless a single state can be reached at the beginning of each block. -/
theorem C95_block (S : Scheme N n l) (spec : List Char) (g : Graph) (hg : Graph.fromIstream spec = .ok g) (hs : 0 < g.size)
    (cs : List (Gsw l N)) (qs : Nat) (hq : 0 < qs) (hint : qs ≤ 2 ^ 31) (c : TLWE N) (h : doRunBlock S spec cs qs false = .ok c) (K : KeyParts) :
    ∃ D, Levels g [g.initialState] D ∧
    (doRunBlockK K spec cs qs false).runWith S K =
      if K.ekey = none then .error .assertFail
      else if (∀ b, b * qs < cs.length → (D (b * qs)).length = 1) ∨ (K.has .iksk10 = true ∧ K.has .bk02 = true ∧ K.has .privksk21 = true) then .ok c
      else .error .ub := by
  obtain ⟨D, hD, hk⟩ := C79_block S spec g hg hs cs qs hint c h
  refine ⟨D, hD, ?_⟩
  rw [Nat.max_eq_right hq] at hk
  cases hK : K.ekey with
  | none =>
    rw [if_pos rfl]
    unfold doRunBlockK
    rw [ret_bind_ok hg, hK, ret_bind_err (show cassert (none : Option (List KeyPart)).isSome = .error .assertFail from rfl)]
    rfl
  | some ps =>
    rw [if_neg (by simp), doRunBlockK_some (by rw [hK]; rfl), runWith_eq, doRunBlockC_run, h, hk]
    exact if_congr (serves_block hq) rfl rfl

/-- **C95**, `run flut` with an output file: the table for packing is asked for at once; those for bootstrapping are needed if there are `boot`
blocks or more; those for circuit bootstrapping never are. -/
theorem C95_flut (S : Scheme N n l) (spec : List Char) (g : Graph) (hg : Graph.fromIstream spec = .ok g) (hs : 0 < g.size)
    (size : Nat) (cs : List (Gsw l N)) (outName : String) (outFreq qs boot : Nat) (hqs0 : 0 < qs) (hqs : qs < 31) (hb : 0 < boot)
    (maxSecond : Option Nat) (files : List (OutFile × TLWE N))
    (h : doRunFlut S spec size cs (some outName) none outFreq qs boot maxSecond false = .ok files) (K : KeyParts) :
    (doRunFlutK K spec size cs (some outName) none outFreq qs boot maxSecond false).runWith S K =
      if K.ekey = none ∨ K.tlwe2trlwe = false then .error .assertFail
      else if cs.length ≤ (boot - 1) * qs ∨ (K.has .iksk10 = true ∧ K.has .bk01 = true) then .ok files else .error .ub := by
  obtain ⟨D, hD, hk⟩ := C79_flut S spec g hg hs size cs outName outFreq qs boot hqs0 hqs maxSecond files h
  by_cases hK : K.ekey = none ∨ K.tlwe2trlwe = false
  · rw [if_pos hK]
    unfold doRunFlutK
    rw [ret_bind_ok hg, ret_bind_err (e := .assertFail)]
    · rfl
    · rcases hK with hK | hK
      · rw [hK]; rfl
      · rw [hK, Bool.and_false]; rfl
  · rw [if_neg hK]
    simp only [not_or, Bool.not_eq_false] at hK
    rw [doRunFlutK_some (Option.isSome_iff_ne_none.2 hK.1) hK.2, runWith_eq, doRunFlutC_run, h, hk]
    exact if_congr (serves_flut hqs0 hb hK.2 fun j => hD.pos (wf_of_fromIstream hg hs) j) rfl rfl

/-- Five bits and bootstrapping after every second one: a key for OFFLINE, REVERSE and FLUT and a key for BLOCK, each useless for the other
methods; OFFLINE with the second key works if it bootstraps after every sixth bit. -/
example : let S := toyScheme 4 2 1 ⟨fun _ => 0#32, fun _ => 0#32⟩
    let spec := ">0* 0 1\n1 1 0\n".toList
    let cs := [S.encrypt 0 true, S.encrypt 1 false, S.encrypt 2 true, S.encrypt 3 true, S.encrypt 4 false]
    let A : KeyParts := ⟨some [.iksk10, .bk01], true⟩
    let B : KeyParts := ⟨some [.iksk10, .bk02, .privksk21], true⟩
    (doRunOffline S spec 5 cs 2 false).toBool = true ∧
    ((doRunOfflineK A spec 5 cs 2 false).runWith S A).toBool = true ∧
    ((doRunOfflineK B spec 5 cs 2 false).runWith S B).map (fun _ => ()) = .error .ub ∧
    ((doRunOfflineK B spec 5 cs 6 false).runWith S B).toBool = true ∧
    ((doRunReverseK A spec 5 cs (some "f") none 1 2 true false).runWith S A).toBool = true ∧
    ((doRunReverseK B spec 5 cs (some "f") none 1 2 true false).runWith S B).map (fun _ => ()) = .error .ub ∧
    ((doRunBlockK A spec cs 2 false).runWith S A).map (fun _ => ()) = .error .ub ∧
    ((doRunBlockK B spec cs 2 false).runWith S B).toBool = true ∧
    ((doRunFlutK A spec 5 cs (some "f") none 1 2 2 (some 2) false).runWith S A).toBool = true ∧
    ((doRunFlutK B spec 5 cs (some "f") none 1 2 2 (some 2) false).runWith S B).map (fun _ => ()) = .error .ub ∧
    ((doRunOfflineK .none spec 5 cs 6 false).runWith S .none).map (fun _ => ()) = .error .assertFail := by
  refine ⟨?_, ?_, ?_, ?_, ?_, ?_, ?_, ?_, ?_, ?_, ?_⟩ <;> decide +kernel

end Homfa
