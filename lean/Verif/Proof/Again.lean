import Verif.Proof.Tape
import Verif.Proof.ParallelRun
import Verif.Proof.CleanRun
import Verif.Props.Clean

/-! # What a run of `homfa` depends on -/

namespace Homfa.Cli

variable {N n l : Nat} {L : Lib N n l}

/-- files written one after the other -/
def Files.writes (fs : Files) (ws : List (String × List Byte)) : Files := ws.foldl (fun fs w => fs.set w.1 w.2) fs

theorem writes_cases (ws : List (String × List Byte)) (f : String) :
    (∃ x, ∀ fs : Files, fs.writes ws f = some x) ∨ ((∀ w ∈ ws, w.1 ≠ f) ∧ ∀ fs : Files, fs.writes ws f = fs f) := by
  induction ws using List.reverseRecOn with
  | nil => exact .inr ⟨by simp, fun _ => rfl⟩
  | append_singleton ws w ih =>
    have e : ∀ fs : Files, fs.writes (ws ++ [w]) = (fs.writes ws).set w.1 w.2 := fun fs => by simp [Files.writes]
    by_cases hf : f = w.1
    · exact .inl ⟨w.2, fun fs => by rw [e]; simp [Files.set, hf]⟩
    · rcases ih with ⟨x, h⟩ | ⟨h1, h2⟩
      · exact .inl ⟨x, fun fs => by rw [e]; simp [Files.set, hf, h]⟩
      · refine .inr ⟨?_, fun fs => by rw [e]; simp [Files.set, hf, h2]⟩
        intro v hv
        rcases List.mem_append.1 hv with hv | hv
        · exact h1 v hv
        · rw [List.mem_singleton.1 hv]; exact fun h => hf h.symm

theorem writes_other {f : String} (ws : List (String × List Byte)) (h : ∀ w ∈ ws, w.1 ≠ f) (fs : Files) : fs.writes ws f = fs f := by
  induction ws generalizing fs with
  | nil => rfl
  | cons w ws ih =>
    have e : fs.writes (w :: ws) = (fs.set w.1 w.2).writes ws := rfl
    rw [e, ih fun v hv => h v (List.mem_cons_of_mem _ hv)]
    exact Files.set_other _ _ (h w List.mem_cons_self).symm

/-- the outcome of a run that writes these files and prints this, or fails -/
def effect (fs : Files) (r : Res (List (String × List Byte) × List Char)) : Res (Files × List Char) := r.map fun p => (fs.writes p.1, p.2)

theorem effect_bind {α : Type} (fs : Files) (x : Res α) (f : α → Res (List (String × List Byte) × List Char)) :
    effect fs (x >>= f) = x >>= fun a => effect fs (f a) := by
  cases x <;> rfl

theorem effect_print (fs : Files) (o : List Char) : effect fs (.ok ([], o)) = pure (fs, o) := rfl

theorem writeResults_eq (fs : Files) (rs : List (OutFile × TLWE N)) :
    writeResults L fs rs = fs.writes (rs.map fun r => (OutFile.path r.1, L.saveRes r.2)) := by
  unfold writeResults Files.writes
  rw [List.foldl_map]

theorem debugKey_agree {fs fs' : Files} {name : Option String} (h : ∀ f, name = some f → fs' f = fs f) :
    readDebugKey L fs' name = readDebugKey L fs name := by
  cases name with
  | none => rfl
  | some f => simp [readDebugKey, h f rfl]

theorem fileOrStdin_agree {read : Option (List Byte) → Res (List Char)} {fs fs' : Files} {stdin : List Char} {name : Option String}
    (h : ∀ f, name = some f → fs' f = fs f) : fileOrStdin read fs' stdin name = fileOrStdin read fs stdin name := by
  unfold fileOrStdin
  cases name with
  | none => rfl
  | some f => simp [h f rfl]

theorem doRunReverse_some {S : Scheme N n l} {s : List Char} {k : Nat} {cs : List (Gsw l N)} {out outDir : Option String} {freq boot : Nat}
    {isRev sanitize : Bool} {rs : List (OutFile × TLWE N)} (h1 : doRunReverse S s k cs out outDir freq boot isRev sanitize = .ok rs) : rs ≠ [] := by
  unfold doRunReverse at h1
  obtain ⟨_, _, h1⟩ := Res.bind_eq_ok.1 h1
  obtain ⟨_, _, h1⟩ := Res.bind_eq_ok.1 h1
  obtain ⟨_, _, h1⟩ := Res.bind_eq_ok.1 h1
  obtain ⟨q, hq, h1⟩ := Res.bind_eq_ok.1 h1
  obtain ⟨f', hf', h1⟩ := Res.bind_eq_ok.1 h1
  obtain ⟨c, _, h1⟩ := Res.bind_eq_ok.1 h1
  cases h1
  simp

theorem doRunFlut_some {S : Scheme N n l} {s : List Char} {k : Nat} {cs : List (Gsw l N)} {out outDir : Option String} {freq queue boot : Nat}
    {maxSecond : Option Nat} {sanitize : Bool} {rs : List (OutFile × TLWE N)}
    (h1 : doRunFlut S s k cs out outDir freq queue boot maxSecond sanitize = .ok rs) : rs ≠ [] := by
  unfold doRunFlut at h1
  obtain ⟨_, _, h1⟩ := Res.bind_eq_ok.1 h1
  obtain ⟨_, _, h1⟩ := Res.bind_eq_ok.1 h1
  dsimp only at h1
  split at h1
  · cases h1
  obtain ⟨q, hq, h1⟩ := Res.bind_eq_ok.1 h1
  obtain ⟨f', hf', h1⟩ := Res.bind_eq_ok.1 h1
  obtain ⟨c, _, h1⟩ := Res.bind_eq_ok.1 h1
  cases h1
  simp

/-- the files written are those the call is to write -/
def Call.Hits (c : Call) (r : Res (List (String × List Byte) × List Char)) : Prop :=
  ∀ p, r = .ok p → (∀ w ∈ p.1, c.Writes w.1) ∧ (p.1 = [] → ∀ f, ¬c.Writes f)

theorem Call.Hits.bind {α : Type} {c : Call} {x : Res α} {f : α → Res (List (String × List Byte) × List Char)}
    (h : ∀ a, x = .ok a → c.Hits (f a)) : c.Hits (x >>= f) := by
  intro p hp
  obtain ⟨a, h1, h2⟩ := Res.bind_eq_ok.1 hp
  exact h a h1 p h2

theorem Call.Hits.ok {c : Call} {ws : List (String × List Byte)} {o : List Char} (h1 : ∀ w ∈ ws, c.Writes w.1) (h2 : ws = [] → ∀ f, ¬c.Writes f) :
    c.Hits (.ok (ws, o)) := by
  intro p hp
  cases hp
  exact ⟨h1, h2⟩

/-- What a call does depends only on the files it needs. -/
theorem execOn_effect {t : Nat → Nat} {stdin : List Char} {fs : Files} {c : Call} {R : Res (Files × List Char)} (h : ExecOn L t stdin fs c R) :
    ∃ r, c.Hits r ∧ R = effect fs r ∧ ∀ fs' : Files, (∀ f, c.Needs f → fs' f = fs f) → ExecOn L t stdin fs' c (effect fs' r) := by
  cases h with
  | @genkey out => exact ⟨.ok ([(out, L.saveKey (L.newKey (t 0)))], []), (.ok (by simp [Call.Writes]) (by simp)), rfl, fun fs' _ => .genkey⟩
  | @genbkey skey out =>
    refine ⟨readArchive L.loadKey (fs skey) >>= fun k => .ok ([(out, L.saveBKey (L.newBKey (t 0) k))], []), (.bind fun _ _ => (.ok (by simp [Call.Writes]) (by simp))), by rw [effect_bind]; rfl, fun fs' hf => ?_⟩
    rw [effect_bind, ← hf skey rfl]
    exact .genbkey
  | @enc skey input out ap =>
    refine ⟨readArchive L.loadKey (fs skey) >>= fun k => doEnc (L.client k) t (fs.set out [] input) ap >>= fun b => .ok ([(out, []), (out, b)], []),
      (.bind fun _ _ => (.bind fun _ _ => (.ok (by simp [Call.Writes]) (by simp)))), by simp only [effect_bind]; rfl, fun fs' hf => ?_⟩
    have e : fs.set out [] input = fs'.set out [] input := by
      unfold Files.set
      rw [hf input (.inr rfl)]
    simp only [effect_bind, e]
    rw [← hf skey (.inl rfl)]
    exact .enc
  | other hd h =>
    cases h with
    | genkey => cases hd
    | genbkey => cases hd
    | enc => cases hd
    | @dec skey input =>
      refine ⟨readArchive L.loadKey (fs skey) >>= fun k => readArchive L.loadRes (fs input) >>= fun c => .ok ([], doDec (L.client k) c),
        (.bind fun _ _ => (.bind fun _ _ => (.ok (by simp) fun _ _ h => h))), by simp only [effect_bind, effect_print], fun fs' hf => ?_⟩
      simp only [effect_bind, effect_print]
      rw [← hf skey (.inl rfl), ← hf input (.inr rfl)]
      exact .other rfl .dec
    | @runOffline spec input out boot bkey sanitize r hr =>
      refine ⟨r >>= fun p => readArchive L.loadBKey (fs bkey) >>= fun b => readSpec (fs spec) >>= fun s =>
        doRunOffline (L.server b) s (p.1.headD 0) p.2 boot sanitize >>= fun c => .ok ([(out, L.saveRes c)], []),
        (.bind fun _ _ => (.bind fun _ _ => (.bind fun _ _ => (.bind fun _ _ => (.ok (by simp [Call.Writes]) (by simp)))))), by simp only [effect_bind]; rfl, fun fs' hf => ?_⟩
      simp only [effect_bind]
      rw [← hf bkey (.inr (.inl rfl)), ← hf spec (.inr (.inr rfl))]
      exact .other rfl (.runOffline (by rw [hf input (.inl rfl)]; exact hr))
    | @runReverse spec input out outDir freq boot isRev bkey sanitize r hr =>
      refine ⟨r >>= fun p => readArchive L.loadBKey (fs bkey) >>= fun b => readSpec (fs spec) >>= fun s =>
        doRunReverse (L.server b) s (p.1.getLastD 0) p.2 out outDir freq boot isRev sanitize >>= fun rs =>
          .ok (rs.map fun r => (OutFile.path r.1, L.saveRes r.2), []),
        .bind fun _ _ => .bind fun _ _ => .bind fun _ _ => .bind fun rs hrs => .ok (fun w hw => ?_) fun h => absurd (List.map_eq_nil_iff.1 h) (doRunReverse_some hrs), ?_, fun fs' hf => ?_⟩
      · obtain ⟨q, hq, rfl⟩ := List.mem_map.1 hw
        exact doRunReverse_paths hrs q hq
      · simp only [effect_bind]
        simp only [writeResults_eq]
        rfl
      · simp only [effect_bind]
        rw [← hf bkey (.inr (.inl rfl)), ← hf spec (.inr (.inr rfl))]
        have := Exec.runReverse (L := L) (stdin := stdin) (fs := fs') (spec := spec) (input := input) (out := out) (outDir := outDir) (freq := freq)
          (boot := boot) (isRev := isRev) (bkey := bkey) (sanitize := sanitize) (r := r) (by rw [hf input (.inl rfl)]; exact hr)
        simp only [writeResults_eq] at this
        exact .other rfl this
    | @runBlock spec input out queue bkey sanitize r hr =>
      refine ⟨r >>= fun p => readSpec (fs spec) >>= fun s => readArchive L.loadBKey (fs bkey) >>= fun b =>
        doRunBlock (L.server b) s p.2 queue sanitize >>= fun c => .ok ([(out, L.saveRes c)], []),
        (.bind fun _ _ => (.bind fun _ _ => (.bind fun _ _ => (.bind fun _ _ => (.ok (by simp [Call.Writes]) (by simp)))))), by simp only [effect_bind]; rfl, fun fs' hf => ?_⟩
      simp only [effect_bind]
      rw [← hf bkey (.inr (.inl rfl)), ← hf spec (.inr (.inr rfl))]
      exact .other rfl (.runBlock (by rw [hf input (.inl rfl)]; exact hr))
    | @runFlut spec input out outDir freq queue boot bkey maxSecond debugSkey sanitize r hr =>
      refine ⟨r >>= fun p => readSpec (fs spec) >>= fun s => readArchive L.loadBKey (fs bkey) >>= fun b => readDebugKey L fs debugSkey >>= fun _ =>
        doRunFlut (L.server b) s (p.1.getLastD 0) p.2 out outDir freq queue boot maxSecond sanitize >>= fun rs =>
          .ok (rs.map fun r => (OutFile.path r.1, L.saveRes r.2), []),
        .bind fun _ _ => .bind fun _ _ => .bind fun _ _ => .bind fun _ _ => .bind fun rs hrs => .ok (fun w hw => ?_) fun h => absurd (List.map_eq_nil_iff.1 h) (doRunFlut_some hrs), ?_, fun fs' hf => ?_⟩
      · obtain ⟨q, hq, rfl⟩ := List.mem_map.1 hw
        exact doRunFlut_paths hrs q hq
      · simp only [effect_bind]
        simp only [writeResults_eq]
        rfl
      · simp only [effect_bind]
        rw [← hf bkey (.inr (.inl rfl)), ← hf spec (.inr (.inr (.inl rfl))),
          ← debugKey_agree (L := L) (name := debugSkey) fun f h => hf f (.inr (.inr (.inr h)))]
        have := Exec.runFlut (L := L) (stdin := stdin) (fs := fs') (spec := spec) (input := input) (out := out) (outDir := outDir) (freq := freq)
          (queue := queue) (boot := boot) (bkey := bkey) (maxSecond := maxSecond) (debugSkey := debugSkey) (sanitize := sanitize) (r := r)
          (by rw [hf input (.inl rfl)]; exact hr)
        simp only [writeResults_eq] at this
        exact .other rfl this
    | @runPlain spec input ap =>
      refine ⟨readSpec (fs spec) >>= fun s => doRunPlain s (fs input) ap >>= fun o => .ok ([], o), (.bind fun _ _ => (.bind fun _ _ => (.ok (by simp) fun _ _ h => h))), by simp only [effect_bind]; rfl, fun fs' hf => ?_⟩
      simp only [effect_bind]
      rw [← hf spec (.inl rfl), ← hf input (.inr rfl)]
      exact .other rfl .runPlain
    | @ltl2spec formula numVars allFinal =>
      refine ⟨L.monitor formula numVars >>= fun m => doLtl2spec m numVars allFinal >>= fun o => .ok ([], o), (.bind fun _ _ => (.bind fun _ _ => (.ok (by simp) fun _ _ h => h))), by simp only [effect_bind]; rfl, fun fs' _ => ?_⟩
      simp only [effect_bind]
      exact .other rfl .ltl2spec
    | @spec2spec spec m r k =>
      refine ⟨fileOrStdin readSpec fs stdin spec >>= fun s => doSpec2spec s m r k >>= fun o => .ok ([], o), (.bind fun _ _ => (.bind fun _ _ => (.ok (by simp) fun _ _ h => h))), by simp only [effect_bind]; rfl, fun fs' hf => ?_⟩
      rw [← fileOrStdin_agree hf]
      simp only [effect_bind]
      exact .other rfl .spec2spec
    | @spec2dot spec =>
      refine ⟨fileOrStdin readSpec fs stdin spec >>= fun s => doSpec2dot s >>= fun o => .ok ([], o), (.bind fun _ _ => (.bind fun _ _ => (.ok (by simp) fun _ _ h => h))), by simp only [effect_bind]; rfl, fun fs' hf => ?_⟩
      rw [← fileOrStdin_agree hf]
      simp only [effect_bind]
      exact .other rfl .spec2dot
    | @spec2att spec =>
      refine ⟨fileOrStdin readSpec fs stdin spec >>= fun s => doSpec2att s >>= fun o => .ok ([], o), (.bind fun _ _ => (.bind fun _ _ => (.ok (by simp) fun _ _ h => h))), by simp only [effect_bind]; rfl, fun fs' hf => ?_⟩
      rw [← fileOrStdin_agree hf]
      simp only [effect_bind]
      exact .other rfl .spec2att
    | @att2spec spec =>
      refine ⟨fileOrStdin readAtt fs stdin spec >>= fun s => doAtt2spec s >>= fun o => .ok ([], o), (.bind fun _ _ => (.bind fun _ _ => (.ok (by simp) fun _ _ h => h))), by simp only [effect_bind]; rfl, fun fs' hf => ?_⟩
      rw [← fileOrStdin_agree hf]
      simp only [effect_bind]
      exact .other rfl .att2spec

/-- the input stream gives the same to all runs, but for the number of answers to `size()` -/
theorem fetch_unique {kind : StreamKind} (hbs : 0 < blockSize l N) (hbs' : blockSize l N < 2 ^ 63) {file : Option (List Byte)}
    (hlen : ∀ b, file = some b → b.length < 2 ^ 63) {r r' : Res (List Nat × List (Gsw l N))} (h : Fetch kind file r) (h' : Fetch kind file r') :
    (∃ e, r = .error e ∧ r' = .error e) ∨ ∃ pre pre' cs, r = .ok (pre, cs) ∧ r' = .ok (pre', cs) ∧ pre.headD 0 = pre'.headD 0 ∧
      pre.getLastD 0 = pre'.getLastD 0 := by
  by_cases hd : ∃ b, file = some b ∧ blockSize l N ∣ b.length
  · right
    obtain ⟨b, rfl, k, hk⟩ := hd
    obtain ⟨cs, rfl⟩ := file_surj (l := l) (N := N) hbs k b (by rw [hk, Nat.mul_comm])
    have hl := hlen _ rfl
    have hd : ∀ pre : List Nat, pre ≠ [] → (∀ p ∈ pre, p = cs.length) → pre.headD 0 = cs.length ∧ pre.getLastD 0 = cs.length := by
      intro pre h0 hp
      constructor
      · cases pre with
        | nil => exact absurd rfl h0
        | cons p pre => exact hp p (by simp)
      · rw [List.getLastD_eq_getLast?, List.getLast?_eq_getLast_of_ne_nil h0]
        exact hp _ (List.getLast_mem h0)
    cases kind with
    | forward =>
      obtain ⟨_, h2⟩ := fetch_forward hbs hbs' hl
      obtain ⟨pre, h3, rfl⟩ := h2 r h
      obtain ⟨pre', h3', rfl⟩ := h2 r' h'
      obtain ⟨a, b⟩ := hd pre (fetch_ne h) (readsForward_eq hbs hbs' hl h3).2
      obtain ⟨a', b'⟩ := hd pre' (fetch_ne h') (readsForward_eq hbs hbs' hl h3').2
      exact ⟨pre, pre', cs, rfl, rfl, a.trans a'.symm, b.trans b'.symm⟩
    | reversed =>
      obtain ⟨_, h2⟩ := fetch_reversed hbs hbs' hl
      obtain ⟨pre, h3, rfl⟩ := h2 r h
      obtain ⟨pre', h3', rfl⟩ := h2 r' h'
      obtain ⟨_, k2, k3⟩ := readsReversed_eq hbs hbs' hl h3
      obtain ⟨_, k2', k3'⟩ := readsReversed_eq hbs hbs' hl h3'
      obtain ⟨a, b⟩ := hd pre k2 k3
      obtain ⟨a', b'⟩ := hd pre' k2' k3'
      exact ⟨pre, pre', cs.reverse, rfl, rfl, a.trans a'.symm, b.trans b'.symm⟩
  · left
    have key : ∀ r, Fetch (l := l) (N := N) kind file r → ∃ e, r = .error e ∧ e = .assertFail := by
      intro r h
      rcases (fetch_cases hbs hbs' hlen).2 r h with ⟨e, _⟩ | ⟨pre, cs, rfl, _⟩
      · exact ⟨_, e, rfl⟩
      · exact absurd (fetch_whole hbs hlen h) hd
    obtain ⟨_, rfl, rfl⟩ := key r h
    obtain ⟨_, rfl, rfl⟩ := key r' h'
    exact ⟨_, rfl, rfl⟩

theorem execOn_unique (hbs : 0 < blockSize l N) (hbs' : blockSize l N < 2 ^ 63) {t : Nat → Nat} {stdin : List Char} {fs : Files}
    (hlen : ∀ f b, fs f = some b → b.length < 2 ^ 63) {c : Call} {r r' : Res (Files × List Char)} (h : ExecOn L t stdin fs c r)
    (h' : ExecOn L t stdin fs c r') : r = r' := by
  cases h with
  | genkey => cases h' with
    | genkey => rfl
    | other hd => cases hd
  | genbkey => cases h' with
    | genbkey => rfl
    | other hd => cases hd
  | enc => cases h' with
    | enc => rfl
    | other hd => cases hd
  | other hd h =>
    cases h' with
    | genkey => cases hd
    | genbkey => cases hd
    | enc => cases hd
    | other _ h' =>
      cases h with
      | genkey => cases hd
      | genbkey => cases hd
      | enc => cases hd
      | runOffline hq =>
        cases h' with
        | runOffline hq' =>
          rcases fetch_unique hbs hbs' (hlen _) hq hq' with ⟨e, rfl, rfl⟩ | ⟨pre, pre', cs, rfl, rfl, e1, e2⟩
          · rfl
          · simp only [Res.bind_ok, e1]
      | runReverse hq =>
        cases h' with
        | runReverse hq' =>
          rcases fetch_unique hbs hbs' (hlen _) hq hq' with ⟨e, rfl, rfl⟩ | ⟨pre, pre', cs, rfl, rfl, e1, e2⟩
          · rfl
          · simp only [Res.bind_ok, e2]
      | runBlock hq =>
        cases h' with
        | runBlock hq' =>
          rcases fetch_unique hbs hbs' (hlen _) hq hq' with ⟨e, rfl, rfl⟩ | ⟨pre, pre', cs, rfl, rfl, e1, e2⟩
          · rfl
          · rfl
      | runFlut hq =>
        cases h' with
        | runFlut hq' =>
          rcases fetch_unique hbs hbs' (hlen _) hq hq' with ⟨e, rfl, rfl⟩ | ⟨pre, pre', cs, rfl, rfl, e1, e2⟩
          · rfl
          · simp only [Res.bind_ok, e2]
      | dec => cases h'; rfl
      | runPlain => cases h'; rfl
      | ltl2spec => cases h'; rfl
      | spec2spec => cases h'; rfl
      | spec2dot => cases h'; rfl
      | spec2att => cases h'; rfl
      | att2spec => cases h'; rfl

theorem runOn_unique (hbs : 0 < blockSize l N) (hbs' : blockSize l N < 2 ^ 63) {t : Nat → Nat} {stdin : List Char} {fs : Files}
    (hlen : ∀ f b, fs f = some b → b.length < 2 ^ 63) {toks : List String} {r r' : Res (Files × List Char)} (h : RunOn L t stdin fs toks r)
    (h' : RunOn L t stdin fs toks r') : r = r' := by
  cases h with
  | call h1 h2 =>
    cases h' with
    | call h1' h2' =>
      rw [h1] at h1'
      cases h1'
      exact execOn_unique hbs hbs' hlen h2 h2'
    | usage h1' => rw [h1] at h1'; cases h1'
    | fails h1' => rw [h1] at h1'; cases h1'
  | usage h1 =>
    cases h' with
    | call h1' => rw [h1] at h1'; cases h1'
    | usage => rfl
    | fails h1' => rw [h1] at h1'; cases h1'
  | fails h1 =>
    cases h' with
    | call h1' => rw [h1] at h1'; cases h1'
    | usage h1' => rw [h1] at h1'; cases h1'
    | fails h1' => rw [h1] at h1'; cases h1'; rfl

/-! ## Lines -/

theorem infix_of_append {a x : String} : ∀ {p q : List String}, a ∉ p → [a, x] <:+: p ++ q → [a, x] <:+: q
  | [], _, _, h => h
  | b :: p, q, ha, h => by
    simp only [List.mem_cons, not_or] at ha
    rcases List.infix_cons_iff.1 h with h | h
    · exact absurd (List.cons_prefix_cons.1 h).1 ha.1
    · exact infix_of_append ha.2 h

theorem opt_of_infix {f : String} : ∀ {items : List Item}, (∀ n v, .opt n v ∈ items → v ≠ "--out") → (∀ n, .flag n ∈ items → n ≠ "--out") →
    (∀ v, .arg v ∈ items → v ≠ "--out") → ["--out", f] <:+: line items → .opt "--out" f ∈ items
  | [], _, _, _, h => by
    have := h.length_le
    simp [line] at this
  | .opt n v :: items, h1, h2, h3, h => by
    have ih := opt_of_infix (f := f) (items := items) (fun n v h => h1 n v (List.mem_cons_of_mem _ h)) (fun n h => h2 n (List.mem_cons_of_mem _ h))
      (fun v h => h3 v (List.mem_cons_of_mem _ h))
    have e : line (.opt n v :: items) = n :: v :: line items := rfl
    rw [e] at h
    rcases List.infix_cons_iff.1 h with h | h
    · obtain ⟨e1, h⟩ := List.cons_prefix_cons.1 h
      obtain ⟨e2, _⟩ := List.cons_prefix_cons.1 h
      rw [e1, e2]
      exact List.mem_cons_self
    · refine List.mem_cons_of_mem _ (ih (infix_of_append (p := [v]) ?_ h))
      simpa using (h1 n v List.mem_cons_self).symm
  | .flag n :: items, h1, h2, h3, h => by
    have ih := opt_of_infix (f := f) (items := items) (fun n v h => h1 n v (List.mem_cons_of_mem _ h)) (fun n h => h2 n (List.mem_cons_of_mem _ h))
      (fun v h => h3 v (List.mem_cons_of_mem _ h))
    refine List.mem_cons_of_mem _ (ih (infix_of_append (p := [n]) ?_ h))
    simpa using (h2 n List.mem_cons_self).symm
  | .arg v :: items, h1, h2, h3, h => by
    have ih := opt_of_infix (f := f) (items := items) (fun n v h => h1 n v (List.mem_cons_of_mem _ h)) (fun n h => h2 n (List.mem_cons_of_mem _ h))
      (fun v h => h3 v (List.mem_cons_of_mem _ h))
    refine List.mem_cons_of_mem _ (ih (infix_of_append (p := [v]) ?_ h))
    simpa using (h3 v List.mem_cons_self).symm

theorem opt?_of_mem {n v : String} : ∀ {items : List Item}, (optNames items).Nodup → .opt n v ∈ items → opt? items n = some v
  | [], _, h => by simp at h
  | i :: items, h1, h => by
    by_cases hi : i = .opt n v
    · subst hi; simp [opt?]
    · have hm : Item.opt n v ∈ items := by
        rcases List.mem_cons.1 h with h | h
        · exact absurd h.symm hi
        · exact h
      have hn : n ∈ optNames items := mem_optNames.2 ⟨v, hm⟩
      cases i with
      | opt m u =>
        have e : optNames (.opt m u :: items) = m :: optNames items := rfl
        rw [e, List.nodup_cons] at h1
        have hne : m ≠ n := fun e => h1.1 (e ▸ hn)
        have := opt?_of_mem h1.2 hm
        unfold opt? at this ⊢
        simpa [List.findSome?_cons, hne] using this
      | flag m => exact opt?_of_mem (items := items) h1 hm
      | arg u => exact opt?_of_mem (items := items) h1 hm

theorem ok_ne_out {ex : String → Bool} {k : Kind} {v : String} (h : k.Ok ex v) : v ≠ "--out" := by
  rintro rfl
  exact absurd (h.1 (by decide)) (by decide)

theorem out_mem {ex : String → Bool} {general : List String} (hg : ∀ g ∈ general, g = "--verbose" ∨ g = "--quiet") {c : Cmd} {w : List String}
    (hw : w ∈ c.names) {items : List Item} (h : c.usage.Follows ex items) {f : String} (hf : ["--out", f] <:+: general ++ w ++ line items) :
    .opt "--out" f ∈ items := by
  refine opt_of_infix (fun n v hv => ?_) (fun n hn => ?_) (fun v hv => ?_) (infix_of_append (p := general ++ w) ?_ hf)
  · obtain ⟨k, _, h2⟩ := h.known n v hv
    exact ok_ne_out h2
  · have := h.flags n hn
    rintro rfl
    revert this
    cases c <;> decide
  · have hm : v ∈ args items := List.mem_filterMap.2 ⟨_, hv, rfl⟩
    obtain ⟨i, hi, e⟩ := List.mem_iff_getElem.1 hm
    have hl := h.notMore
    exact ok_ne_out (h.kinds i v _ (by rw [List.getElem?_eq_getElem hi, e]) (List.getElem?_eq_getElem (by omega)))
  · intro hm
    rcases List.mem_append.1 hm with hm | hm
    · rcases hg _ hm with h | h <;> exact absurd h (by decide)
    · revert w
      cases c <;> simp [Cmd.names]

/-- a word that occurs once has one word before it -/
theorem before_unique {a b x : String} {toks : List String} (h1 : toks.count x = 1) (ha : [a, x] <:+: toks) (hb : [b, x] <:+: toks) : a = b := by
  have key : ∀ {a : String}, [a, x] <:+: toks → ∃ s, toks.takeWhile (fun y => y != x) = s ++ [a] := by
    rintro a ⟨s, t, e⟩
    refine ⟨s, ?_⟩
    have e' : toks = (s ++ [a]) ++ x :: t := by rw [← e]; simp
    have h0 : x ∉ s ++ [a] := by
      intro hm
      have := List.count_pos_iff.2 hm
      rw [e', List.count_append, List.count_cons_self] at h1
      omega
    rw [e', List.takeWhile_append_of_pos]
    · simp
    · intro y hy
      simp only [bne_iff_ne, ne_eq]
      rintro rfl
      exact h0 hy
  obtain ⟨s, h2⟩ := key ha
  obtain ⟨s', h3⟩ := key hb
  rw [h2] at h3
  have := List.append_inj_right' h3 rfl
  simpa using this

theorem out_kind : ∀ (c : Cmd) {k : Kind}, ("--out", k) ∈ c.usage.required ++ c.usage.optional → k = .text := by
  intro c k h
  cases c <;> simp [Cmd.usage] at h <;> exact h

/-- the word before a file that is read is not `--out`, if the command has an output -/
theorem needs_before {ex : String → Bool} {cmd : Cmd} {items : List Item} (hfo : cmd.usage.Follows ex items) {f g : String} (hg : .opt "--out" g ∈ items)
    (hf : (cmd.call items).Needs f) : ∃ n, n ≠ "--out" ∧ [n, f] <:+: line items := by
  have o : ∀ {n : String} {k : Kind}, (n, k) ∈ cmd.usage.required → [n, opt items n] <:+: line items := fun hn => opt_infix (opt_mem hfo hn)
  obtain ⟨k0, h0, _⟩ := hfo.known _ _ hg
  cases cmd <;> simp only [Cmd.call, Call.Needs] at hf
  case genbkey => subst hf; exact ⟨_, by decide, o (n := "--key") (k := .file) (by decide)⟩
  case enc =>
    rcases hf with rfl | rfl
    · exact ⟨_, by decide, o (n := "--key") (k := .file) (by decide)⟩
    · exact ⟨_, by decide, o (n := "--in") (k := .file) (by decide)⟩
  case runOffline =>
    rcases hf with rfl | rfl | rfl
    · exact ⟨_, by decide, o (n := "--in") (k := .file) (by decide)⟩
    · exact ⟨_, by decide, o (n := "--bkey") (k := .file) (by decide)⟩
    · exact ⟨_, by decide, o (n := "--spec") (k := .file) (by decide)⟩
  case runReverse =>
    rcases hf with rfl | rfl | rfl
    · exact ⟨_, by decide, o (n := "--in") (k := .file) (by decide)⟩
    · exact ⟨_, by decide, o (n := "--bkey") (k := .file) (by decide)⟩
    · exact ⟨_, by decide, o (n := "--spec") (k := .file) (by decide)⟩
  case runBlock =>
    rcases hf with rfl | rfl | rfl
    · exact ⟨_, by decide, o (n := "--in") (k := .file) (by decide)⟩
    · exact ⟨_, by decide, o (n := "--bkey") (k := .file) (by decide)⟩
    · exact ⟨_, by decide, o (n := "--spec") (k := .file) (by decide)⟩
  case runFlut =>
    rcases hf with rfl | rfl | rfl | hf
    · exact ⟨_, by decide, o (n := "--in") (k := .file) (by decide)⟩
    · exact ⟨_, by decide, o (n := "--bkey") (k := .file) (by decide)⟩
    · exact ⟨_, by decide, o (n := "--spec") (k := .file) (by decide)⟩
    · exact ⟨"--debug-secret-key", by decide, opt_infix (opt?_mem hf)⟩
  all_goals simp [Cmd.usage] at h0

/-- a run that ends normally, with other files beside those it reads -/
theorem check_run {t : Nat → Nat} {stdin : List Char} {fs fs1 fs' : Files} {toks : List String} {o : List Char} {out : String}
    (hout : ["--out", out] <:+: toks) (hone : toks.count out = 1) (hagree : ∀ f ∈ toks, f ≠ out → fs' f = fs f)
    (h : RunOn L t stdin fs toks (.ok (fs1, o))) :
    ∃ b, fs1 = fs.set out b ∧ RunOn L t stdin fs' toks (.ok (fs'.set out b, o)) := by
  cases h with
  | call h1 h2 =>
    have h0 := h1
    obtain ⟨general, cmd, w, items, hg, hw, rfl, hfo, rfl⟩ := C58_only _ _ _ h1
    have ho := out_mem hg hw hfo hout
    have hin : ∀ {n v : String}, [n, v] <:+: line items → [n, v] <:+: general ++ w ++ line items := fun h => h.trans ⟨general ++ w, [], by simp⟩
    have hne : ∀ {n v : String}, [n, v] <:+: line items → n ≠ "--out" → v ≠ out := by
      rintro n v h hn rfl
      exact hn (before_unique hone (hin h) hout)
    have hfo' : cmd.usage.Follows (fun f => (fs' f).isSome) items :=
      { hfo with
        known := fun n v hv => by
          obtain ⟨k, k1, k2⟩ := hfo.known n v hv
          refine ⟨k, k1, k2.1, ?_⟩
          have k3 := k2.2
          cases k with
          | file =>
            have hn : n ≠ "--out" := by
              rintro rfl
              cases out_kind cmd k1
            have := opt_infix hv
            dsimp only at k3 ⊢
            rw [hagree v ((hin this).subset (by simp)) (hne this hn)]
            exact k3
          | text => trivial
          | number => exact k3
          | positive => exact k3
        kinds := fun i v k k1 k2 => by
          have k3 := hfo.kinds i v k k1 k2
          refine ⟨k3.1, ?_⟩
          have k4 := k3.2
          cases k with
          | file =>
            exfalso
            have := List.mem_of_getElem? k2
            revert this
            cases cmd <;> decide
          | text => trivial
          | number => exact k4
          | positive => exact k4 }
    obtain ⟨r, hh, hr, hall⟩ := execOn_effect h2
    cases r with
    | error e => cases hr
    | ok p =>
      obtain ⟨ws, o'⟩ := p
      injection hr with hr
      injection hr with hr1 hr2
      subst hr2
      obtain ⟨hws, hnil⟩ := hh _ rfl
      have hW : ∀ f, (cmd.call items).Writes f → f = out := by
        intro f hf
        have := out_mem hg hw hfo (homfaMain_writes h0 hf)
        have hu : ∀ v, .opt "--out" v ∈ items → opt? items "--out" = some v := fun v hv => opt?_of_mem hfo.once hv
        have e1 := hu _ this
        rw [hu _ ho] at e1
        exact (Option.some.inj e1).symm
      have hWo : (cmd.call items).Writes out := by
        obtain ⟨k, k1, _⟩ := hfo.known _ _ ho
        have e1 : opt items "--out" = out := by rw [opt, opt?_of_mem hfo.once ho, Option.getD_some]
        cases cmd <;> simp [Cmd.usage] at k1 <;> simp [Cmd.call, Call.Writes, e1]
      have hlast : ∃ b, ∀ fs : Files, fs.writes ws = fs.set out b := by
        rcases writes_cases ws out with ⟨x, hx⟩ | ⟨hx, _⟩
        · refine ⟨x, fun fs => funext fun f => ?_⟩
          by_cases hf : f = out
          · subst hf; rw [hx]; simp [Files.set]
          · rcases writes_cases ws f with ⟨y, hy⟩ | ⟨_, hy⟩
            · exfalso
              have : ∃ w ∈ ws, w.1 = f := by
                by_contra hc
                have hc' : ∀ w ∈ ws, w.1 ≠ f := fun w hw e => hc ⟨w, hw, e⟩
                have h1 := writes_other ws hc' (fun _ => none)
                rw [hy] at h1
                cases h1
              obtain ⟨w, hw, rfl⟩ := this
              exact hf (hW _ (hws w hw))
            · rw [hy, Files.set_other _ _ hf]
        · exfalso
          cases ws with
          | nil => exact hnil rfl _ hWo
          | cons w ws => exact hx w List.mem_cons_self (hW _ (hws w List.mem_cons_self))
      obtain ⟨b, hb⟩ := hlast
      refine ⟨b, by rw [hr1, hb], .call (C58_runs _ general hg cmd w hw items hfo') ?_⟩
      have := hall fs' fun f hf => by
        obtain ⟨n, hn, hi⟩ := needs_before hfo ho hf
        exact hagree f ((hin hi).subset (by simp)) (hne hi hn)
      unfold effect at this
      simp only [Except.map, hb] at this
      exact this

end Homfa.Cli
