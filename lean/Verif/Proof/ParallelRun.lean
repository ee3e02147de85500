import Verif.Proof.Parallel

/-! # A run of `homfa`, access by access, is a run of `homfa` -/

namespace Homfa.Cli

variable {N n l : Nat} {L : Lib N n l}

/-- what a run of `homfa` gives, from the files at the end and the outcome -/
def outcome (fs : Files) (r : Res (List Char)) : Res (Files × List Char) := r.map fun out => (fs, out)

theorem Finish.outcome {b : Res (List (String × List Byte) × List Char)} {as : List Act} {r : Res (List Char)} (h : Finish b as r) {fs fs' : Files}
    (hr : Replay fs as fs') : outcome fs' r = b.map fun p => (p.1.foldl (fun fs w => fs.set w.1 w.2) fs, p.2) := by
  cases h with
  | ok hw => rw [hw.replay hr]; rfl
  | err => rfl

theorem finish_exists (b : Res (List (String × List Byte) × List Char)) (fs : Files) : ∃ as r fs', Finish b as r ∧ Replay fs as fs' := by
  cases b with
  | error e => exact ⟨[], _, fs, .err, .nil⟩
  | ok p =>
    obtain ⟨as, h1, h2⟩ := writeAll_exists p.1
    exact ⟨as, _, _, .ok h1, h2 fs⟩

theorem bind_map {α β γ : Type} (x : Res α) (f : α → Res β) (g : β → γ) : (x >>= f).map g = x >>= fun a => (f a).map g := by
  cases x <;> rfl

theorem map_pure' {α β : Type} (x : α) (f : α → β) : Except.map f (pure x : Res α) = pure (f x) := rfl

theorem fileOrStdin_congr {read : Option (List Byte) → Res (List Char)} {fs : Files} {stdin : List Char} {name : Option String}
    {x : Option (List Byte)} (h : ∀ s ∈ namedFile name x, s.2 = fs s.1) :
    fileOrStdin read (fun _ => x) stdin name = fileOrStdin read fs stdin name := by
  unfold fileOrStdin namedFile at *
  split
  · rfl
  · rename_i hn
    rw [if_neg hn] at h
    have e : x = fs _ := h _ (List.mem_singleton.2 rfl)
    dsimp only
    rw [e]

theorem readDebugKey_congr {fs : Files} {name : Option String} {d : Option (List Byte)} (h : ∀ f, name = some f → d = fs f) :
    readDebugKey L (fun _ => d) name = readDebugKey L fs name := by
  cases name with
  | none => rfl
  | some f => rw [readDebugKey, readDebugKey, h f rfl]

theorem enc_replay {input out : String} {y : Option (List Byte)} {as : List Act} {cs : List (List Byte)} {a' : List Act} (h : ReadAll [(input, y)] as)
    (hm : Mixed as (puts out 0 cs) a') (hio : input = out → a' = as ++ puts out 0 cs) {fs fs' : Files} (hr : Replay (fs.set out []) a' fs') :
    y = (fs.set out []) input ∧ fs' = (fs.set out []).set out cs.flatten := by
  have key : (∀ a ∈ as, a.Done (fs.set out []) (fs.set out [])) ∧ Replay (fs.set out []) (puts out 0 cs) fs' := by
    by_cases e : input = out
    · rw [hio e] at hr
      obtain ⟨fs1, r1, r2⟩ := hr.split
      obtain ⟨rfl, h1⟩ := r1.reads h.notWrite
      exact ⟨h1, r2⟩
    · refine hm.replay h.notWrite (fun a ha b hb => ?_) hr
      obtain ⟨s, hs, e1⟩ := h.file a ha
      rw [List.mem_singleton.1 hs] at e1
      rw [e1, (puts_mem b hb).2]
      exact Ne.symm e
  obtain ⟨h1, h2⟩ := key
  refine ⟨((h.2 _ (List.mem_singleton.2 rfl)).content h1).symm, ?_⟩
  exact puts_replay (y := []) (by simp [Files.set]) h2

/-- access by access: what a function does is what `Exec` says -/
theorem Does.exec {stdin : List Char} {c : Call} {as : List Act} {r : Res (List Char)} (h : Does L stdin c as r) {fs fs' : Files}
    (hr : Replay fs as fs') : Exec L stdin fs c (outcome fs' r) := by
  cases h with
  | genkey q hf => rw [hf.outcome hr]; exact .genkey q
  | genbkey q h1 hf =>
    obtain ⟨fs1, r1, r2⟩ := hr.split
    obtain ⟨rfl, h2⟩ := h1.content r1
    have e := h2 _ (List.mem_singleton.2 rfl)
    dsimp only at e
    subst e
    rw [hf.outcome r2, bind_map]
    exact .genbkey q
  | @encNoKey skey input out ap x a e h1 h3 =>
    obtain ⟨rfl, h2⟩ := h1.content hr
    have e1 : x = fs' skey := h2 _ (List.mem_singleton.2 rfl)
    have := @Exec.enc N n l L stdin fs' (fun _ => 0) skey input out ap
    rw [← e1, h3, Res.bind_err] at this
    exact this
  | @enc rand skey input out ap x k a y as cs a' b h1 hk h3 hm hio hb hcs =>
    obtain ⟨fs1, r1, r2⟩ := hr.split
    obtain ⟨rfl, h2⟩ := h1.content r1
    have e1 : x = fs1 skey := h2 _ (List.mem_singleton.2 rfl)
    cases r2 with
    | cons hd r2 =>
      cases hd
      obtain ⟨e2, e3⟩ := enc_replay h3 hm hio r2
      have := @Exec.enc N n l L stdin fs1 rand skey input out ap
      rw [← e1, hk, Res.bind_ok] at this
      dsimp only at this
      rw [← e2, hb, Res.bind_ok, Res.pure_eq, ← hcs, ← e3] at this
      exact this
  | @encStop rand skey input out ap x k a y as cs a' e h1 hk h3 hm hio hb =>
    obtain ⟨fs1, r1, r2⟩ := hr.split
    obtain ⟨rfl, h2⟩ := h1.content r1
    have e1 : x = fs1 skey := h2 _ (List.mem_singleton.2 rfl)
    cases r2 with
    | cons hd r2 =>
      cases hd
      obtain ⟨e2, -⟩ := enc_replay h3 hm hio r2
      have := @Exec.enc N n l L stdin fs1 rand skey input out ap
      rw [← e1, hk, Res.bind_ok] at this
      dsimp only at this
      rw [← e2, hb, Res.bind_err] at this
      exact this
  | @dec skey input x y a r h1 e =>
    obtain ⟨rfl, h2⟩ := h1.content hr
    have e1 : x = fs' skey := h2 (skey, x) (by simp)
    have e2 : y = fs' input := h2 (input, y) (by simp)
    have := @Exec.dec N n l L stdin fs' skey input
    rw [← e1, ← e2] at this
    rw [e, outcome]
    simp only [bind_map]
    exact this
  | @runOffline spec input out boot bkey sanitize x y z p a a' r h1 hp hf =>
    obtain ⟨fs1, r1, r2⟩ := hr.split
    obtain ⟨rfl, h2⟩ := h1.content r1
    have e1 : x = fs1 input := h2 (input, x) (by simp)
    have e2 : y = fs1 bkey := h2 (bkey, y) (by simp)
    have e3 : z = fs1 spec := h2 (spec, z) (by simp)
    subst e1 e2 e3
    have := @Exec.runOffline N n l L stdin fs1 spec input out boot bkey sanitize p hp
    rw [hf.outcome r2]
    refine cast (congrArg _ ?_) this
    rcases p with e | ⟨pre, cs⟩
    · rfl
    · simp only [Res.bind_ok, bind_map]
      rfl
  | @runReverse spec input out outDir freq boot isRev bkey sanitize x y z p a a' r h1 hp hf =>
    obtain ⟨fs1, r1, r2⟩ := hr.split
    obtain ⟨rfl, h2⟩ := h1.content r1
    have e1 : x = fs1 input := h2 (input, x) (by simp)
    have e2 : y = fs1 bkey := h2 (bkey, y) (by simp)
    have e3 : z = fs1 spec := h2 (spec, z) (by simp)
    subst e1 e2 e3
    have := @Exec.runReverse N n l L stdin fs1 spec input out outDir freq boot isRev bkey sanitize p hp
    rw [hf.outcome r2]
    refine cast (congrArg _ ?_) this
    rcases p with e | ⟨pre, cs⟩
    · rfl
    · simp only [Res.bind_ok, bind_map, map_pure', foldl_results]
  | @runBlock spec input out queue bkey sanitize x y z p a a' r h1 hp hf =>
    obtain ⟨fs1, r1, r2⟩ := hr.split
    obtain ⟨rfl, h2⟩ := h1.content r1
    have e1 : x = fs1 input := h2 (input, x) (by simp)
    have e2 : y = fs1 bkey := h2 (bkey, y) (by simp)
    have e3 : z = fs1 spec := h2 (spec, z) (by simp)
    subst e1 e2 e3
    have := @Exec.runBlock N n l L stdin fs1 spec input out queue bkey sanitize p hp
    rw [hf.outcome r2]
    refine cast (congrArg _ ?_) this
    rcases p with e | ⟨pre, cs⟩
    · rfl
    · simp only [Res.bind_ok, bind_map]
      rfl
  | @runFlut spec input out outDir freq queue boot bkey maxSecond debugSkey sanitize x y z d p a a' r h1 hp hf =>
    obtain ⟨fs1, r1, r2⟩ := hr.split
    obtain ⟨rfl, h2⟩ := h1.content r1
    have e1 : x = fs1 input := h2 (input, x) (by simp)
    have e2 : y = fs1 bkey := h2 (bkey, y) (by simp)
    have e3 : z = fs1 spec := h2 (spec, z) (by simp)
    have e4 : readDebugKey L (fun _ => d) debugSkey = readDebugKey L fs1 debugSkey :=
      readDebugKey_congr fun f hf => h2 (f, d) (by simp [hf])
    subst e1 e2 e3
    have := @Exec.runFlut N n l L stdin fs1 spec input out outDir freq queue boot bkey maxSecond debugSkey sanitize p hp
    rw [hf.outcome r2]
    refine cast (congrArg _ ?_) this
    rcases p with e | ⟨pre, cs⟩
    · rfl
    · simp only [Res.bind_ok, bind_map, e4, map_pure', foldl_results]
  | @runPlain spec input ap x y a r h1 e =>
    obtain ⟨rfl, h2⟩ := h1.content hr
    have e1 : x = fs' spec := h2 (spec, x) (by simp)
    have e2 : y = fs' input := h2 (input, y) (by simp)
    have := @Exec.runPlain N n l L stdin fs' spec input ap
    rw [← e1, ← e2] at this
    rw [e, outcome]
    simp only [bind_map]
    exact this
  | @ltl2spec formula numVars allFinal r e =>
    cases hr
    have := @Exec.ltl2spec N n l L stdin fs formula numVars allFinal
    rw [e, outcome]
    simp only [bind_map]
    exact this
  | @spec2spec spec m v k x a r h1 e =>
    obtain ⟨rfl, h2⟩ := h1.content hr
    have := @Exec.spec2spec N n l L stdin fs' spec m v k
    rw [← fileOrStdin_congr h2] at this
    rw [e, outcome]
    simp only [bind_map]
    exact this
  | @spec2dot spec x a r h1 e =>
    obtain ⟨rfl, h2⟩ := h1.content hr
    have := @Exec.spec2dot N n l L stdin fs' spec
    rw [← fileOrStdin_congr h2] at this
    rw [e, outcome]
    simp only [bind_map]
    exact this
  | @spec2att spec x a r h1 e =>
    obtain ⟨rfl, h2⟩ := h1.content hr
    have := @Exec.spec2att N n l L stdin fs' spec
    rw [← fileOrStdin_congr h2] at this
    rw [e, outcome]
    simp only [bind_map]
    exact this
  | @att2spec spec x a r h1 e =>
    obtain ⟨rfl, h2⟩ := h1.content hr
    have := @Exec.att2spec N n l L stdin fs' spec
    rw [← fileOrStdin_congr h2] at this
    rw [e, outcome]
    simp only [bind_map]
    exact this

theorem readNamed_exists (fs : Files) (name : Option String) : ∃ as x, ReadAll (namedFile name x) as ∧ Replay fs as fs := by
  by_cases h : name.getD "-" = "-"
  · refine ⟨[], none, ?_, .nil⟩
    rw [namedFile, if_pos h]
    exact ⟨by simp, by simp⟩
  · obtain ⟨a, ha, ra⟩ := readAll_exists fs [name.getD "-"]
    refine ⟨a, fs (name.getD "-"), ?_, ra⟩
    rw [namedFile, if_neg h]
    exact ha

/-- and everything `Exec` says can be done access by access -/
theorem Exec.does {stdin : List Char} {fs : Files} {c : Call} {R : Res (Files × List Char)} (h : Exec L stdin fs c R) :
    ∃ as r fs', Does L stdin c as r ∧ Replay fs as fs' ∧ R = outcome fs' r := by
  cases h with
  | @genkey q out =>
    obtain ⟨as, r, fs', h1, h2⟩ := finish_exists (.ok ([(out, L.saveKey (L.newKey q))], [])) fs
    exact ⟨as, r, fs', .genkey q h1, h2, by rw [h1.outcome h2]; rfl⟩
  | @genbkey q skey out =>
    obtain ⟨a, ha, ra⟩ := readAll_exists fs [skey]
    obtain ⟨as, r, fs', h1, h2⟩ := finish_exists (do
      let k ← readArchive L.loadKey (fs skey)
      pure ([(out, L.saveBKey (L.newBKey q k))], [])) fs
    refine ⟨_, r, fs', .genbkey q ha h1, ra.append h2, ?_⟩
    rw [h1.outcome h2]
    simp only [bind_map]
    rfl
  | @enc rand skey input out ap =>
    obtain ⟨a, ha, ra⟩ := readAll_exists fs [skey]
    cases hk : readArchive L.loadKey (fs skey) with
    | error e => exact ⟨a, _, fs, .encNoKey ha hk, ra, rfl⟩
    | ok k =>
      obtain ⟨as, has, ras⟩ := readAll_exists (fs.set out []) [input]
      cases hb : doEnc (L.client k) rand ((fs.set out []) input) ap with
      | error e =>
        refine ⟨_, _, fs.set out [], .encStop (cs := []) rand ha hk has (mixed_append _ _) (fun _ => rfl) hb, ra.append (.cons .empty ?_), ?_⟩
        · rw [show puts out 0 [] = [] from rfl, List.append_nil]; exact ras
        · rw [Res.bind_ok]; dsimp only; rw [hb]; rfl
      | ok b =>
        have h3 := replay_puts out [b] (y := []) (fs := fs.set out []) (by simp [Files.set])
        refine ⟨_, _, _, .enc (cs := [b]) rand ha hk has (mixed_append _ _) (fun _ => rfl) hb (by simp), ra.append (.cons .empty (ras.append h3)), ?_⟩
        rw [Res.bind_ok]; dsimp only; rw [hb, List.flatten_cons, List.flatten_nil, List.append_nil]; rfl
  | @dec skey input =>
    obtain ⟨a, ha, ra⟩ := readAll_exists fs [skey, input]
    refine ⟨_, _, _, .dec ha rfl, ra, ?_⟩
    simp only [outcome, bind_map]
    rfl
  | @runOffline spec input out boot bkey sanitize p hp =>
    obtain ⟨a, ha, ra⟩ := readAll_exists fs [input, bkey, spec]
    obtain ⟨as, r, fs', h1, h2⟩ := finish_exists (do
      let (pre, cs) ← p
      let b ← readArchive L.loadBKey (fs bkey)
      let s ← readSpec (fs spec)
      let c ← doRunOffline (L.server b) s (pre.headD 0) cs boot sanitize
      pure ([(out, L.saveRes c)], [])) fs
    refine ⟨_, r, fs', .runOffline ha hp h1, ra.append h2, ?_⟩
    rw [h1.outcome h2]
    rcases p with e | ⟨pre, cs⟩
    · rfl
    · simp only [Res.bind_ok, bind_map]
      rfl
  | @runReverse spec input out outDir freq boot isRev bkey sanitize p hp =>
    obtain ⟨a, ha, ra⟩ := readAll_exists fs [input, bkey, spec]
    obtain ⟨as, r, fs', h1, h2⟩ := finish_exists (do
      let (pre, cs) ← p
      let b ← readArchive L.loadBKey (fs bkey)
      let s ← readSpec (fs spec)
      let rs ← doRunReverse (L.server b) s (pre.getLastD 0) cs out outDir freq boot isRev sanitize
      pure (rs.map fun r => (OutFile.path r.1, L.saveRes r.2), [])) fs
    refine ⟨_, r, fs', .runReverse ha hp h1, ra.append h2, ?_⟩
    rw [h1.outcome h2]
    rcases p with e | ⟨pre, cs⟩
    · rfl
    · simp only [Res.bind_ok, bind_map, map_pure', foldl_results]
  | @runBlock spec input out queue bkey sanitize p hp =>
    obtain ⟨a, ha, ra⟩ := readAll_exists fs [input, bkey, spec]
    obtain ⟨as, r, fs', h1, h2⟩ := finish_exists (do
      let (pre, cs) ← p
      let s ← readSpec (fs spec)
      let b ← readArchive L.loadBKey (fs bkey)
      let c ← doRunBlock (L.server b) s cs queue sanitize
      pure ([(out, L.saveRes c)], [])) fs
    refine ⟨_, r, fs', .runBlock ha hp h1, ra.append h2, ?_⟩
    rw [h1.outcome h2]
    rcases p with e | ⟨pre, cs⟩
    · rfl
    · simp only [Res.bind_ok, bind_map]
      rfl
  | @runFlut spec input out outDir freq queue boot bkey maxSecond debugSkey sanitize p hp =>
    obtain ⟨a, ha, ra⟩ := readAll_exists fs ([input, bkey, spec] ++ debugSkey.toList)
    obtain ⟨as, r, fs', h1, h2⟩ := finish_exists (do
      let (pre, cs) ← p
      let s ← readSpec (fs spec)
      let b ← readArchive L.loadBKey (fs bkey)
      let _ ← readDebugKey L fs debugSkey
      let rs ← doRunFlut (L.server b) s (pre.getLastD 0) cs out outDir freq queue boot maxSecond sanitize
      pure (rs.map fun r => (OutFile.path r.1, L.saveRes r.2), [])) fs
    have e4 : readDebugKey L (fun _ => debugSkey.elim none fs) debugSkey = readDebugKey L fs debugSkey :=
      readDebugKey_congr fun f hf => by rw [hf]; rfl
    refine ⟨_, r, fs', .runFlut (d := debugSkey.elim none fs) ?_ hp (by rw [e4]; exact h1), ra.append h2, ?_⟩
    · cases debugSkey <;> exact ha
    rw [h1.outcome h2]
    rcases p with e | ⟨pre, cs⟩
    · rfl
    · simp only [Res.bind_ok, bind_map, map_pure', foldl_results]
  | @runPlain spec input ap =>
    obtain ⟨a, ha, ra⟩ := readAll_exists fs [spec, input]
    refine ⟨_, _, _, .runPlain ha rfl, ra, ?_⟩
    simp only [outcome, bind_map]
    rfl
  | ltl2spec =>
    refine ⟨_, _, _, .ltl2spec rfl, .nil, ?_⟩
    simp only [outcome, bind_map]
    rfl
  | @spec2spec spec m v k =>
    obtain ⟨a, x, ha, ra⟩ := readNamed_exists fs spec
    refine ⟨_, _, _, .spec2spec ha rfl, ra, ?_⟩
    rw [fileOrStdin_congr (ha.content ra).2]
    simp only [outcome, bind_map]
    rfl
  | @spec2dot spec =>
    obtain ⟨a, x, ha, ra⟩ := readNamed_exists fs spec
    refine ⟨_, _, _, .spec2dot ha rfl, ra, ?_⟩
    rw [fileOrStdin_congr (ha.content ra).2]
    simp only [outcome, bind_map]
    rfl
  | @spec2att spec =>
    obtain ⟨a, x, ha, ra⟩ := readNamed_exists fs spec
    refine ⟨_, _, _, .spec2att ha rfl, ra, ?_⟩
    rw [fileOrStdin_congr (ha.content ra).2]
    simp only [outcome, bind_map]
    rfl
  | @att2spec spec =>
    obtain ⟨a, x, ha, ra⟩ := readNamed_exists fs spec
    refine ⟨_, _, _, .att2spec ha rfl, ra, ?_⟩
    rw [fileOrStdin_congr (ha.content ra).2]
    simp only [outcome, bind_map]
    rfl

/-! ## The command line -/

theorem store_congr {ex ex' : String → Bool} {v : String} (h : ex v = ex' v) (o : OptDecl) (a : Args) : o.store ex v a = o.store ex' v a := by
  unfold OptDecl.store
  rw [h]

theorem parseToks_congr {ex ex' : String → Bool} (d : SubDecl) (k : Nat) : ∀ (toks : List String) (s : List OptDecl) (a : Args), toks.length ≤ k →
    (∀ f ∈ toks, ex f = ex' f) → parseToks ex d toks s a = parseToks ex' d toks s a := by
  induction k with
  | zero =>
    intro toks s a hk _
    obtain rfl : toks = [] := List.eq_nil_of_length_eq_zero (by omega)
    rw [parseToks, parseToks]
  | succ k ih =>
    intro toks s a hk h
    cases toks with
    | nil => rw [parseToks, parseToks]
    | cons t toks =>
      rw [List.length_cons] at hk
      have ih1 : ∀ s a, parseToks ex d toks s a = parseToks ex' d toks s a :=
        fun s a => ih toks s a (by omega) fun f hf => h f (by simp [hf])
      rw [parse_cons, parse_cons]
      simp only [ih1, store_congr (h t (by simp))]
      cases toks with
      | nil => rfl
      | cons v rest =>
        rw [List.length_cons] at hk
        have ih2 : ∀ s a, parseToks ex d rest s a = parseToks ex' d rest s a :=
          fun s a => ih rest s a (by omega) fun f hf => h f (by simp [hf])
        simp only [ih2, store_congr (h v (by simp))]

theorem skipGeneral_mem : ∀ (toks : List String), ∀ f ∈ skipGeneral toks, f ∈ toks := by
  intro toks
  induction toks with
  | nil => simp [skipGeneral]
  | cons t toks ih =>
    intro f hf
    rw [skipGeneral] at hf
    split at hf
    · exact List.mem_cons_of_mem _ (ih f hf)
    · exact hf

/-- the parser looks only for files named on the line -/
theorem homfaMain_congr {ex ex' : String → Bool} {toks : List String} (h : ∀ f ∈ toks, ex f = ex' f) : homfaMain ex toks = homfaMain ex' toks := by
  have sub : ∀ (d : SubDecl) (rest : List String), (∀ f ∈ rest, f ∈ toks) → parseSub ex d rest = parseSub ex' d rest := by
    intro d rest hr
    unfold parseSub
    rw [parseToks_congr d rest.length rest [] Args.empty (Nat.le_refl _) fun f hf => h f (hr f hf)]
  have hs := skipGeneral_mem toks
  unfold homfaMain
  generalize skipGeneral toks = ts at hs
  cases ts with
  | nil => rfl
  | cons t rest =>
    dsimp only
    split
    · cases rest with
      | nil => rfl
      | cons s rest =>
        dsimp only
        split
        · rw [sub _ rest fun f hf => hs f (by simp [hf])]
        · rfl
    · split
      · rw [sub _ rest fun f hf => hs f (by simp [hf])]
      · rfl

/-- access by access, a run of `homfa` is what `RunHomfa` says, and conversely -/
theorem Runs.run {stdin : List Char} {toks : List String} {as : List Act} {r : Res (List Char)} (h : Runs L stdin toks as r) {fs fs' : Files}
    (hr : Replay fs as fs') : RunHomfa L stdin fs toks (outcome fs' r) := by
  have look : ∀ {ex : String → Bool} {fs1 : Files}, Replay fs (toks.map fun f => .see f (ex f)) fs1 →
      fs1 = fs ∧ homfaMain ex toks = homfaMain (fun f => (fs f).isSome) toks := by
    intro ex fs1 hr
    obtain ⟨e, hd⟩ := hr.reads (by simp [Act.isWrite])
    refine ⟨e, homfaMain_congr fun f hf => ?_⟩
    have := hd _ (List.mem_map.2 ⟨f, hf, rfl⟩)
    generalize hb : ex f = b at this
    cases this
    rfl
  cases h with
  | call h1 h2 =>
    obtain ⟨fs1, r1, r2⟩ := hr.split
    obtain ⟨rfl, e⟩ := look r1
    exact .call (e ▸ h1) (h2.exec r2)
  | usage h1 =>
    obtain ⟨rfl, e⟩ := look hr
    exact .usage (e ▸ h1)
  | fails h1 =>
    obtain ⟨rfl, e⟩ := look hr
    exact .fails (e ▸ h1)

theorem RunHomfa.runs {stdin : List Char} {fs : Files} {toks : List String} {R : Res (Files × List Char)} (h : RunHomfa L stdin fs toks R) :
    ∃ as r fs', Runs L stdin toks as r ∧ Replay fs as fs' ∧ R = outcome fs' r := by
  have look : Replay fs (toks.map fun f => .see f (fs f).isSome) fs := by
    refine .of_reads fun a ha => ?_
    obtain ⟨f, _, rfl⟩ := List.mem_map.1 ha
    exact .see
  cases h with
  | call h1 h2 =>
    obtain ⟨as, r, fs', h3, h4, h5⟩ := h2.does
    exact ⟨_, r, fs', .call h1 h3, look.append h4, h5⟩
  | usage h1 => exact ⟨_, _, fs, .usage h1, look, rfl⟩
  | fails h1 => exact ⟨_, _, fs, .fails h1, look, rfl⟩

/-! ## The files a command touches -/

theorem opt_mem {u : Usage} {ex : String → Bool} {items : List Item} (h : u.Follows ex items) {n : String} {k : Kind} (hn : (n, k) ∈ u.required) :
    .opt n (opt items n) ∈ items := by
  cases ho : opt? items n with
  | none =>
    obtain ⟨v, hv⟩ := h.all n k hn
    exact absurd (mem_optNames.2 ⟨v, hv⟩) (opt?_none.1 ho)
  | some v => rw [opt, ho, Option.getD_some]; exact opt?_mem ho

theorem opt_infix {items : List Item} {n v : String} (h : .opt n v ∈ items) : [n, v] <:+: line items := by
  obtain ⟨s, t, rfl⟩ := List.append_of_mem h
  exact ⟨line s, line t, by simp [line, Item.words]⟩

theorem arg_mem {items : List Item} {i : Nat} {v : String} (h : (args items)[i]? = some v) : v ∈ line items := by
  have := List.mem_of_getElem? h
  obtain ⟨a, ha, e⟩ := List.mem_filterMap.1 this
  cases a with
  | arg w => cases e; exact List.mem_flatMap.2 ⟨_, ha, by simp [Item.words]⟩
  | _ => cases e

/-- the files a call reads -/
def Call.Needs : Call → String → Prop
  | .genbkey skey _, f => f = skey
  | .enc skey input _ _, f | .dec skey input, f => f = skey ∨ f = input
  | .runOffline spec input _ _ bkey _, f | .runReverse spec input _ _ _ _ _ bkey _, f | .runBlock spec input _ _ bkey _, f =>
    f = input ∨ f = bkey ∨ f = spec
  | .runFlut spec input _ _ _ _ _ bkey _ debugSkey _, f => f = input ∨ f = bkey ∨ f = spec ∨ debugSkey = some f
  | .runPlain spec input _, f => f = spec ∨ f = input
  | .spec2spec spec _ _ _, f | .spec2dot spec, f | .spec2att spec, f | .att2spec spec, f => spec = some f
  | _, _ => False

theorem namedFile_mem {name : Option String} {x : Option (List Byte)} {s : String × Option (List Byte)} (h : s ∈ namedFile name x) :
    name = some s.1 := by
  unfold namedFile at h
  split at h
  · simp at h
  · rename_i hn
    rw [List.mem_singleton.1 h]
    cases name with
    | none => exact absurd rfl hn
    | some f => rfl

theorem Finish.mem {b : Res (List (String × List Byte) × List Char)} {as : List Act} {r : Res (List Char)} (h : Finish b as r) :
    ∀ a ∈ as, ∃ ws out, b = .ok (ws, out) ∧ ∃ w ∈ ws, a.file = w.1 := by
  cases h with
  | ok hw => exact fun a ha => ⟨_, _, rfl, hw.mem a ha⟩
  | err => simp

theorem doRunReverse_paths {S : Scheme N n l} {s : List Char} {k : Nat} {cs : List (Gsw l N)} {out outDir : Option String} {freq boot : Nat}
    {isRev sanitize : Bool} {rs : List (OutFile × TLWE N)} (h1 : doRunReverse S s k cs out outDir freq boot isRev sanitize = .ok rs) :
    ∀ q ∈ rs, out = some (OutFile.path q.1) ∨
      ∃ d k, outDir = some d ∧ OutFile.path q.1 = d ++ "/" ++ String.ofList (Nat.toDigits 10 k) ++ ".out" := by
  intro q0 hq0
  by_contra hn
  unfold doRunReverse at h1
  obtain ⟨_, _, h1⟩ := Res.bind_eq_ok.1 h1
  obtain ⟨_, _, h1⟩ := Res.bind_eq_ok.1 h1
  obtain ⟨_, _, h1⟩ := Res.bind_eq_ok.1 h1
  obtain ⟨q, hq, h1⟩ := Res.bind_eq_ok.1 h1
  obtain ⟨f', hf', h1⟩ := Res.bind_eq_ok.1 h1
  obtain ⟨c, _, h1⟩ := Res.bind_eq_ok.1 h1
  cases h1
  exact paths_of hq hf' _ hn q0 hq0 rfl

theorem doRunFlut_paths {S : Scheme N n l} {s : List Char} {k : Nat} {cs : List (Gsw l N)} {out outDir : Option String} {freq queue boot : Nat}
    {maxSecond : Option Nat} {sanitize : Bool} {rs : List (OutFile × TLWE N)}
    (h1 : doRunFlut S s k cs out outDir freq queue boot maxSecond sanitize = .ok rs) :
    ∀ q ∈ rs, out = some (OutFile.path q.1) ∨
      ∃ d k, outDir = some d ∧ OutFile.path q.1 = d ++ "/" ++ String.ofList (Nat.toDigits 10 k) ++ ".out" := by
  intro q0 hq0
  by_contra hn
  unfold doRunFlut at h1
  obtain ⟨_, _, h1⟩ := Res.bind_eq_ok.1 h1
  obtain ⟨_, _, h1⟩ := Res.bind_eq_ok.1 h1
  dsimp only at h1
  split at h1
  · cases h1
  obtain ⟨q, hq, h1⟩ := Res.bind_eq_ok.1 h1
  obtain ⟨f', hf', h1⟩ := Res.bind_eq_ok.1 h1
  obtain ⟨c, _, h1⟩ := Res.bind_eq_ok.1 h1
  cases h1
  exact paths_of hq hf' _ hn q0 hq0 rfl

theorem Does.mem {stdin : List Char} {c : Call} {as : List Act} {r : Res (List Char)} (h : Does L stdin c as r) :
    ∀ a ∈ as, c.Writes a.file ∨ (a.isWrite = false ∧ c.Needs a.file) := by
  intro a ha
  have rd : ∀ {seen : List (String × Option (List Byte))} {as' : List Act}, ReadAll seen as' → a ∈ as' → (∀ s ∈ seen, c.Needs s.1) →
      c.Writes a.file ∨ (a.isWrite = false ∧ c.Needs a.file) := by
    intro seen as' h1 h2 h3
    obtain ⟨s, hs, e⟩ := h1.file a h2
    exact .inr ⟨h1.notWrite a h2, e ▸ h3 s hs⟩
  cases h with
  | genkey q hf =>
    obtain ⟨ws, o, e, w, hw, e'⟩ := hf.mem a ha
    cases e
    rw [List.mem_singleton.1 hw] at e'
    exact .inl e'
  | genbkey q h1 hf =>
    rcases List.mem_append.1 ha with ha | ha
    · exact rd h1 ha (by simp [Call.Needs])
    · obtain ⟨ws, o, e, w, hw, e'⟩ := hf.mem a ha
      obtain ⟨_, _, e⟩ := Res.bind_eq_ok.1 e
      cases e
      rw [List.mem_singleton.1 hw] at e'
      exact .inl e'
  | encNoKey h1 _ => exact rd h1 ha (by simp [Call.Needs])
  | enc _ h1 _ h3 hm =>
    rcases List.mem_append.1 ha with ha | ha
    · exact rd h1 ha (by simp [Call.Needs])
    · rcases List.mem_cons.1 ha with rfl | ha
      · exact .inl rfl
      · rcases hm.mem a ha with ha | ha
        · exact rd h3 ha (by simp [Call.Needs])
        · exact .inl (puts_mem a ha).2
  | encStop _ h1 _ h3 hm =>
    rcases List.mem_append.1 ha with ha | ha
    · exact rd h1 ha (by simp [Call.Needs])
    · rcases List.mem_cons.1 ha with rfl | ha
      · exact .inl rfl
      · rcases hm.mem a ha with ha | ha
        · exact rd h3 ha (by simp [Call.Needs])
        · exact .inl (puts_mem a ha).2
  | dec h1 _ => exact rd h1 ha (by simp [Call.Needs])
  | runOffline h1 hp hf =>
    rcases List.mem_append.1 ha with ha | ha
    · exact rd h1 ha (by simp [Call.Needs])
    · obtain ⟨ws, o, e, w, hw, e'⟩ := hf.mem a ha
      obtain ⟨⟨_, _⟩, _, e⟩ := Res.bind_eq_ok.1 e
      obtain ⟨_, _, e⟩ := Res.bind_eq_ok.1 e
      obtain ⟨_, _, e⟩ := Res.bind_eq_ok.1 e
      obtain ⟨_, _, e⟩ := Res.bind_eq_ok.1 e
      cases e
      rw [List.mem_singleton.1 hw] at e'
      exact .inl e'
  | runBlock h1 hp hf =>
    rcases List.mem_append.1 ha with ha | ha
    · exact rd h1 ha (by simp [Call.Needs])
    · obtain ⟨ws, o, e, w, hw, e'⟩ := hf.mem a ha
      obtain ⟨⟨_, _⟩, _, e⟩ := Res.bind_eq_ok.1 e
      obtain ⟨_, _, e⟩ := Res.bind_eq_ok.1 e
      obtain ⟨_, _, e⟩ := Res.bind_eq_ok.1 e
      obtain ⟨_, _, e⟩ := Res.bind_eq_ok.1 e
      cases e
      rw [List.mem_singleton.1 hw] at e'
      exact .inl e'
  | runReverse h1 hp hf =>
    rcases List.mem_append.1 ha with ha | ha
    · exact rd h1 ha (by simp [Call.Needs])
    · obtain ⟨ws, o, e, w, hw, e'⟩ := hf.mem a ha
      obtain ⟨⟨_, _⟩, _, e⟩ := Res.bind_eq_ok.1 e
      obtain ⟨_, _, e⟩ := Res.bind_eq_ok.1 e
      obtain ⟨_, _, e⟩ := Res.bind_eq_ok.1 e
      obtain ⟨rs, hrs, e⟩ := Res.bind_eq_ok.1 e
      cases e
      obtain ⟨q, hq, rfl⟩ := List.mem_map.1 hw
      rw [e']
      exact .inl (doRunReverse_paths hrs q hq)
  | runFlut h1 hp hf =>
    rcases List.mem_append.1 ha with ha | ha
    · refine rd h1 ha ?_
      intro s hs
      rcases List.mem_append.1 hs with hs | hs
      · simp only [List.mem_cons, List.not_mem_nil, or_false] at hs
        rcases hs with rfl | rfl | rfl <;> simp [Call.Needs]
      · obtain ⟨f, hf, rfl⟩ := List.mem_map.1 hs
        exact .inr (.inr (.inr (by simpa using hf)))
    · obtain ⟨ws, o, e, w, hw, e'⟩ := hf.mem a ha
      obtain ⟨⟨_, _⟩, _, e⟩ := Res.bind_eq_ok.1 e
      obtain ⟨_, _, e⟩ := Res.bind_eq_ok.1 e
      obtain ⟨_, _, e⟩ := Res.bind_eq_ok.1 e
      obtain ⟨_, _, e⟩ := Res.bind_eq_ok.1 e
      obtain ⟨rs, hrs, e⟩ := Res.bind_eq_ok.1 e
      cases e
      obtain ⟨q, hq, rfl⟩ := List.mem_map.1 hw
      rw [e']
      exact .inl (doRunFlut_paths hrs q hq)
  | runPlain h1 _ => exact rd h1 ha (by simp [Call.Needs])
  | ltl2spec _ => simp at ha
  | spec2spec h1 _ => exact rd h1 ha fun s hs => namedFile_mem hs
  | spec2dot h1 _ => exact rd h1 ha fun s hs => namedFile_mem hs
  | spec2att h1 _ => exact rd h1 ha fun s hs => namedFile_mem hs
  | att2spec h1 _ => exact rd h1 ha fun s hs => namedFile_mem hs

theorem homfaMain_needs {ex : String → Bool} {toks : List String} {c : Call} (h : homfaMain ex toks = .ok (some c)) {f : String} (hf : c.Needs f) :
    f ∈ toks := by
  obtain ⟨general, cmd, w, items, _, _, rfl, hfo, rfl⟩ := C58_only ex toks c h
  refine List.mem_append_right _ ?_
  have o : ∀ {n : String} {k : Kind}, (n, k) ∈ cmd.usage.required → opt items n ∈ line items :=
    fun hn => (opt_infix (opt_mem hfo hn)).subset (by simp)
  cases cmd <;> simp only [Cmd.call, Call.Needs] at hf
  case genbkey => subst hf; exact o (k := .file) (by decide)
  case enc => rcases hf with rfl | rfl <;> exact o (k := .file) (by decide)
  case dec => rcases hf with rfl | rfl <;> exact o (k := .file) (by decide)
  case runOffline => rcases hf with rfl | rfl | rfl <;> exact o (k := .file) (by decide)
  case runReverse => rcases hf with rfl | rfl | rfl <;> exact o (k := .file) (by decide)
  case runBlock => rcases hf with rfl | rfl | rfl <;> exact o (k := .file) (by decide)
  case runFlut =>
    rcases hf with rfl | rfl | rfl | hf
    · exact o (k := .file) (by decide)
    · exact o (k := .file) (by decide)
    · exact o (k := .file) (by decide)
    · exact (opt_infix (opt?_mem hf)).subset (by simp)
  case runPlain => rcases hf with rfl | rfl <;> exact o (k := .file) (by decide)
  all_goals exact arg_mem hf

theorem homfaMain_writes {ex : String → Bool} {toks : List String} {c : Call} (h : homfaMain ex toks = .ok (some c)) {f : String} (hf : c.Writes f) :
    ["--out", f] <:+: toks := by
  obtain ⟨general, cmd, w, items, _, _, rfl, hfo, rfl⟩ := C58_only ex toks c h
  refine List.IsInfix.trans ?_ (List.infix_append' (general ++ w) (line items) []) |>.trans (by rw [List.append_nil])
  have o : ("--out", Kind.text) ∈ cmd.usage.required → f = opt items "--out" → ["--out", f] <:+: line items :=
    fun hn e => e ▸ opt_infix (opt_mem hfo hn)
  cases cmd <;> simp only [Cmd.call, Call.Writes] at hf
  case runReverse => exact o (by decide) (show opt items "--out" = f by simpa using hf).symm
  case runFlut => exact o (by decide) (show opt items "--out" = f by simpa using hf).symm
  all_goals exact o (by decide) hf

/-- all accesses of a run of `homfa` are to files named on its line; it writes only to the one behind `--out` -/
theorem Runs.touches {stdin : List Char} {toks : List String} {as : List Act} {r : Res (List Char)} (h : Runs L stdin toks as r) :
    ∀ a ∈ as, a.file ∈ toks ∧ (a.isWrite = true → ["--out", a.file] <:+: toks) := by
  have look : ∀ {ex : String → Bool}, ∀ a ∈ toks.map (fun f => Act.see f (ex f)), a.file ∈ toks ∧ (a.isWrite = true → ["--out", a.file] <:+: toks) := by
    intro ex a ha
    obtain ⟨f, hf, rfl⟩ := List.mem_map.1 ha
    exact ⟨hf, nofun⟩
  cases h with
  | call h1 h2 =>
    intro a ha
    rcases List.mem_append.1 ha with ha | ha
    · exact look a ha
    · rcases h2.mem a ha with h | ⟨h, h'⟩
      · have := homfaMain_writes h1 h
        exact ⟨this.subset (by simp), fun _ => this⟩
      · refine ⟨homfaMain_needs h1 h', fun e => ?_⟩
        rw [h] at e; cases e
  | usage h1 => exact look
  | fails h1 => exact look

end Homfa.Cli
