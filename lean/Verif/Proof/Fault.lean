import Verif.Model.Fault
import Verif.Proof.Retry
import Verif.Props.Frame

/-! # Lemmas about runs in which writing fails -/

namespace Homfa.Cli

variable {N n l : Nat} {L : Lib N n l} {δ : Noise} {Enc : L.Key → Gsw l N → Bool → Prop} {cap : Nat}

theorem saveAll_ok {e : Err} {o : OutStream} {ds : List (List Byte)} {r : Res OutStream} (h : SaveAll cap e o ds r) : ∀ {o' : OutStream},
    r = .ok o' → o.pending.length ≤ cap → o'.file ++ o'.pending = o.file ++ o.pending ++ ds.flatten ∧ o'.pending.length ≤ cap := by
  induction h with
  | nil => intro o' hr hc; cases hr; simp [hc]
  | stop => intro o' hr; cases hr
  | next hs hk _ ih =>
    intro o' hr hc
    cases hs with
    | short _ hlt => omega
    | taken hab hb =>
      obtain ⟨h1, h2⟩ := ih hr hb
      refine ⟨?_, h2⟩
      rw [h1, List.flatten_cons]
      simp only [List.append_assoc]
      rw [← List.append_assoc _ _ (List.flatten _), hab]
      simp only [List.append_assoc]

/-- a file whose writing seemed to succeed lacks at most the last `cap` bytes -/
theorem stored_ok {e : Err} {bytes p : List Byte} (h : Stored cap e bytes (.ok p)) : p <+: bytes ∧ bytes.length ≤ p.length + cap := by
  generalize hr : (Except.ok p : Res (List Byte)) = r at h
  cases h with
  | unopened => cases hr
  | stopped => cases hr
  | @closed ds o q hds hsv hq =>
    cases hr
    obtain ⟨h1, h2⟩ := saveAll_ok hsv rfl (Nat.zero_le _)
    simp only [List.nil_append] at h1
    obtain ⟨t, ht⟩ := hq
    refine ⟨⟨t, by rw [List.append_assoc, ht, h1, hds]⟩, ?_⟩
    rw [← hds, ← h1, ← ht]
    simp only [List.length_append]
    have := congrArg List.length ht
    simp only [List.length_append] at this
    omega

theorem stored_of {e : Err} {bytes p : List Byte} (h : p <+: bytes) (hc : bytes.length ≤ p.length + cap) : Stored cap e bytes (.ok p) := by
  obtain ⟨t, rfl⟩ := h
  have := Stored.closed (cap := cap) (e := e) (bytes := p ++ t) (ds := [p ++ t]) (o := ⟨p, t⟩) (p := []) (by simp)
    (.next (o' := ⟨p, t⟩) (k := (p ++ t).length)
      (.taken (o := ⟨[], []⟩) (a := p) (b := t) (by simp) (by rw [List.length_append] at hc; omega)) rfl .nil) List.nil_prefix
  simpa using this

/-- `fs'` is `fs` except that the files `W` may lack up to `cap` bytes at their end -/
def Cut (cap : Nat) (W : String → Prop) (fs fs' : Files) : Prop :=
  ∀ f, fs' f = fs f ∨ W f ∧ ∃ full p, fs f = some full ∧ fs' f = some p ∧ p <+: full ∧ full.length ≤ p.length + cap

theorem Cut.refl {W : String → Prop} (fs : Files) : Cut cap W fs fs := fun _ => .inl rfl

theorem Cut.set {W : String → Prop} {fs fs' : Files} (h : Cut cap W fs fs') (f : String) (hW : W f) {full p : List Byte} (hp : p <+: full)
    (hc : full.length ≤ p.length + cap) : Cut cap W (fs.set f full) (fs'.set f p) := by
  intro g
  by_cases hg : g = f
  · subst hg
    rw [Files.set_same, Files.set_same]
    exact .inr ⟨hW, full, p, rfl, rfl, hp, hc⟩
  · rw [Files.set_other _ _ hg, Files.set_other _ _ hg]
    exact h g

theorem storedAll_ok {W : String → Prop} {fs fs' : Files} {rs : List (OutFile × TLWE N)} {r : Res Files} (h : StoredAll L cap fs rs r) :
    ∀ {fs0 : Files}, (∀ q ∈ rs, W (OutFile.path q.1)) → r = .ok fs' → Cut cap W fs0 fs → Cut cap W (writeResults L fs0 rs) fs' := by
  induction h with
  | nil => intro fs0 _ hr h; cases hr; exact h
  | stop => intro fs0 _ hr; cases hr
  | next hst _ ih =>
    intro fs0 hW hr h
    obtain ⟨h1, h2⟩ := stored_ok hst
    exact ih (fun q hq => hW q (by simp [hq])) hr (h.set _ (hW _ (by simp)) h1 h2)

theorem paths_reverse {S : Scheme N n l} {spec : List Char} {k : Nat} {cs : List (Gsw l N)} {s i b : String} {out outDir : Option String}
    {freq boot : Nat} {isRev z : Bool} {rs : List (OutFile × TLWE N)}
    (h : doRunReverse S spec k cs out outDir freq boot isRev z = .ok rs) :
    ∀ q ∈ rs, (Call.runReverse s i out outDir freq boot isRev b z).Writes (OutFile.path q.1) := by
  intro q hq
  by_contra hc
  unfold doRunReverse at h
  obtain ⟨_, _, h⟩ := Res.bind_eq_ok.1 h
  obtain ⟨_, _, h⟩ := Res.bind_eq_ok.1 h
  obtain ⟨_, _, h⟩ := Res.bind_eq_ok.1 h
  obtain ⟨_, h1, h⟩ := Res.bind_eq_ok.1 h
  obtain ⟨_, h2, h⟩ := Res.bind_eq_ok.1 h
  obtain ⟨c, _, h⟩ := Res.bind_eq_ok.1 h
  cases h
  exact paths_of h1 h2 _ hc q hq rfl

theorem paths_flut {S : Scheme N n l} {spec : List Char} {k : Nat} {cs : List (Gsw l N)} {s i b : String} {out outDir dbg : Option String}
    {freq queue boot : Nat} {d : Option Nat} {z : Bool} {rs : List (OutFile × TLWE N)}
    (h : doRunFlut S spec k cs out outDir freq queue boot d z = .ok rs) :
    ∀ q ∈ rs, (Call.runFlut s i out outDir freq queue boot b d dbg z).Writes (OutFile.path q.1) := by
  intro q hq
  by_contra hc
  unfold doRunFlut at h
  obtain ⟨_, _, h⟩ := Res.bind_eq_ok.1 h
  obtain ⟨_, _, h⟩ := Res.bind_eq_ok.1 h
  dsimp only at h
  split at h
  · cases h
  obtain ⟨_, h1, h⟩ := Res.bind_eq_ok.1 h
  obtain ⟨_, h2, h⟩ := Res.bind_eq_ok.1 h
  obtain ⟨c, _, h⟩ := Res.bind_eq_ok.1 h
  cases h
  exact paths_of h1 h2 _ hc q hq rfl

theorem Res.map_eq_ok {α β : Type} {f : α → β} {r : Res α} {y : β} (h : Except.ok y = r.map f) : ∃ x, r = .ok x ∧ f x = y := by
  cases r with
  | error e => cases h
  | ok x => cases h; exact ⟨x, rfl, rfl⟩

/-- a normal end in spite of failing writes: as without failures, up to the ends of the files -/
theorem exec_of_faulty {stdin : List Char} {fs fs' : Files} {c : Call} {o : List Char} (h : ExecFaulty L cap stdin fs c (.ok (fs', o))) :
    ∃ fs1 o1, Exec L stdin fs c (.ok (fs1, o1)) ∧ o <+: o1 ∧ Cut cap c.Writes fs1 fs' := by
  generalize hr : (Except.ok (fs', o) : Res (Files × List Char)) = r at h
  cases h with
  | stops => cases hr
  | prints _ h1 h2 => cases hr; exact ⟨_, _, h1, h2, .refl _⟩
  | genkey q h1 =>
    obtain ⟨p, rfl, h⟩ := Res.map_eq_ok hr
    cases h
    obtain ⟨a, b⟩ := stored_ok h1
    exact ⟨_, _, .genkey q, List.prefix_refl _, Cut.set (Cut.refl _) _ (by exact rfl) a b⟩
  | @genbkey q skey out k w hk h1 =>
    obtain ⟨p, rfl, h⟩ := Res.map_eq_ok hr
    cases h
    obtain ⟨a, b⟩ := stored_ok h1
    have := Exec.genbkey (L := L) (stdin := stdin) (fs := fs) q (skey := skey) (out := out)
    rw [hk] at this
    exact ⟨_, _, this, List.prefix_refl _, Cut.set (Cut.refl _) _ (by exact rfl) a b⟩
  | @enc rand skey input out ap k bb w hk hb h1 =>
    obtain ⟨p, rfl, h⟩ := Res.map_eq_ok hr
    cases h
    obtain ⟨a, b⟩ := stored_ok h1
    have := Exec.enc (L := L) (stdin := stdin) (fs := fs) rand (skey := skey) (input := input) (out := out) (ap := ap)
    rw [hk, Res.bind_ok] at this
    dsimp only at this
    rw [hb, Res.bind_ok] at this
    exact ⟨_, _, this, List.prefix_refl _, Cut.set (Cut.refl _) _ (by exact rfl) a b⟩
  | @runOffline spec input out boot bkey sanitize pre cs b s c w hf hb hs hd h1 =>
    obtain ⟨p, rfl, h⟩ := Res.map_eq_ok hr
    cases h
    obtain ⟨x, y⟩ := stored_ok h1
    have := Exec.runOffline (L := L) (stdin := stdin) (fs := fs) (spec := spec) (input := input) (out := out) (boot := boot) (bkey := bkey)
      (sanitize := sanitize) hf
    rw [Res.bind_ok] at this
    dsimp only at this
    rw [hb, Res.bind_ok, hs, Res.bind_ok, hd, Res.bind_ok] at this
    exact ⟨_, _, this, List.prefix_refl _, Cut.set (Cut.refl _) _ (by exact rfl) x y⟩
  | @runReverse spec input out outDir freq boot isRev bkey sanitize pre cs b s rs w hf hb hs hd h1 =>
    obtain ⟨p, rfl, h⟩ := Res.map_eq_ok hr
    cases h
    have := Exec.runReverse (L := L) (stdin := stdin) (fs := fs) (spec := spec) (input := input) (out := out) (outDir := outDir) (freq := freq)
      (boot := boot) (isRev := isRev) (bkey := bkey) (sanitize := sanitize) hf
    rw [Res.bind_ok] at this
    dsimp only at this
    rw [hb, Res.bind_ok, hs, Res.bind_ok, hd, Res.bind_ok] at this
    exact ⟨_, _, this, List.prefix_refl _, storedAll_ok h1 (paths_reverse hd) rfl (.refl _)⟩
  | @runBlock spec input out queue bkey sanitize pre cs b s c w hf hs hb hd h1 =>
    obtain ⟨p, rfl, h⟩ := Res.map_eq_ok hr
    cases h
    obtain ⟨x, y⟩ := stored_ok h1
    have := Exec.runBlock (L := L) (stdin := stdin) (fs := fs) (spec := spec) (input := input) (out := out) (queue := queue) (bkey := bkey)
      (sanitize := sanitize) hf
    rw [Res.bind_ok] at this
    dsimp only at this
    rw [hs, Res.bind_ok, hb, Res.bind_ok, hd, Res.bind_ok] at this
    exact ⟨_, _, this, List.prefix_refl _, Cut.set (Cut.refl _) _ (by exact rfl) x y⟩
  | @runFlut spec input out outDir freq queue boot bkey maxSecond debugSkey sanitize pre cs b s rs w hf hs hb hdbg hd h1 =>
    obtain ⟨p, rfl, h⟩ := Res.map_eq_ok hr
    cases h
    have := Exec.runFlut (L := L) (stdin := stdin) (fs := fs) (spec := spec) (input := input) (out := out) (outDir := outDir) (freq := freq)
      (queue := queue) (boot := boot) (bkey := bkey) (maxSecond := maxSecond) (debugSkey := debugSkey) (sanitize := sanitize) hf
    rw [Res.bind_ok] at this
    dsimp only at this
    rw [hs, Res.bind_ok, hb, Res.bind_ok, hdbg, Res.bind_ok, hd, Res.bind_ok] at this
    exact ⟨_, _, this, List.prefix_refl _, storedAll_ok h1 (paths_flut hd) rfl (.refl _)⟩

theorem storedAll_of (L : Lib N n l) : ∀ (rs : List (OutFile × TLWE N)) (fs : Files), StoredAll L cap fs rs (.ok (writeResults L fs rs))
  | [], _ => .nil
  | (_, _) :: rs, _ => .next (stored_of (List.prefix_refl _) (by omega)) (storedAll_of L rs _)

theorem faulty_of_exec {fs : Files} {c : Call} {r : Res (Files × List Char)} (h : Exec L [] fs c r)
    (hc : c.silent = true ∨ c.printsOnly = true) : ExecFaulty L cap [] fs c r := by
  cases r with
  | error e => exact .stops h
  | ok r =>
    rcases hc with hc | hc
    · have whole : ∀ {e : Err} {b : List Byte}, Stored cap e b (.ok b) := stored_of (List.prefix_refl _) (by omega)
      generalize hr : (Except.ok r : Res (Files × List Char)) = x at h ⊢
      cases h with
      | genkey q => cases hr; exact .genkey q whole
      | genbkey q =>
        obtain ⟨k, hk, h⟩ := Res.bind_eq_ok.1 hr.symm
        rw [← hr]
        cases h; exact .genbkey q hk whole
      | enc rand =>
        obtain ⟨k, hk, h⟩ := Res.bind_eq_ok.1 hr.symm
        rw [← hr]
        obtain ⟨b, hb, h⟩ := Res.bind_eq_ok.1 h
        cases h; exact .enc rand hk hb whole
      | runOffline hq =>
        obtain ⟨p, hp, h⟩ := Res.bind_eq_ok.1 hr.symm
        rw [← hr]
        obtain ⟨b, h1, h⟩ := Res.bind_eq_ok.1 h
        obtain ⟨s, h2, h⟩ := Res.bind_eq_ok.1 h
        obtain ⟨c, h3, h⟩ := Res.bind_eq_ok.1 h
        cases h
        rw [hp] at hq
        exact .runOffline hq h1 h2 h3 whole
      | runBlock hq =>
        obtain ⟨p, hp, h⟩ := Res.bind_eq_ok.1 hr.symm
        rw [← hr]
        obtain ⟨s, h2, h⟩ := Res.bind_eq_ok.1 h
        obtain ⟨b, h1, h⟩ := Res.bind_eq_ok.1 h
        obtain ⟨c, h3, h⟩ := Res.bind_eq_ok.1 h
        cases h
        rw [hp] at hq
        exact .runBlock hq h2 h1 h3 whole
      | runReverse hq =>
        obtain ⟨p, hp, h⟩ := Res.bind_eq_ok.1 hr.symm
        rw [← hr]
        obtain ⟨b, h1, h⟩ := Res.bind_eq_ok.1 h
        obtain ⟨s, h2, h⟩ := Res.bind_eq_ok.1 h
        obtain ⟨c, h3, h⟩ := Res.bind_eq_ok.1 h
        cases h
        rw [hp] at hq
        exact .runReverse hq h1 h2 h3 (storedAll_of L _ _)
      | runFlut hq =>
        obtain ⟨p, hp, h⟩ := Res.bind_eq_ok.1 hr.symm
        rw [← hr]
        obtain ⟨s, h2, h⟩ := Res.bind_eq_ok.1 h
        obtain ⟨b, h1, h⟩ := Res.bind_eq_ok.1 h
        obtain ⟨⟨⟩, h4, h⟩ := Res.bind_eq_ok.1 h
        obtain ⟨c, h3, h⟩ := Res.bind_eq_ok.1 h
        cases h
        rw [hp] at hq
        exact .runFlut hq h2 h1 h4 h3 (storedAll_of L _ _)
      | _ => cases hc
    · exact .prints hc h (List.prefix_refl _)

/-- the same for a line whose call is known -/
theorem run_of_faulty {fs fs' : Files} {toks : List String} {o : List Char} {c : Call} (hc : homfaMain (fun _ => true) toks = .ok (some c))
    (h : RunFaulty L cap [] fs toks (.ok (fs', o))) :
    ∃ fs1 o1, RunHomfa L [] fs toks (.ok (fs1, o1)) ∧ Exec L [] fs c (.ok (fs1, o1)) ∧ o <+: o1 ∧ Cut cap c.Writes fs1 fs' ∧
      (∀ f, ¬c.Writes f → fs' f = fs f) ∧ (c.silent = true → o = []) := by
  cases h with
  | call h1 h2 =>
    cases call_of_runs hc h1
    obtain ⟨fs1, o1, h3, h4, h5⟩ := exec_of_faulty h2
    obtain ⟨h6, h7⟩ := C62_calls h3
    refine ⟨fs1, o1, .call h1 h3, h3, h4, h5, fun f hf => ?_, fun hs => ?_⟩
    · rcases h5 f with e | ⟨e, -⟩
      · rw [e, h6 f hf]
      · exact absurd e hf
    · rw [h7 hs, List.prefix_nil] at h4; exact h4

/-- a cut file that can be read as an archive is whole -/
theorem Cut.archive {α : Type} {save : α → List Byte} {load : List Byte → Option α} (h1 : ∀ x, load (save x) = some x)
    (h2 : ∀ x b, b <+: save x → b ≠ save x → load b = none) {W : String → Prop} {fs fs' : Files} (h : Cut cap W fs fs') {f : String} {x y : α}
    (hf : fs f = some (save x)) (hr : readArchive load (fs' f) = .ok y) : fs' f = some (save x) := by
  rcases h f with e | ⟨-, full, p, e1, e2, hp, -⟩
  · rw [e, hf]
  · rw [hf] at e1
    cases e1
    rw [e2] at hr ⊢
    obtain ⟨_, e, hl⟩ := readArchive_ok.1 hr
    cases e
    rw [(archive_whole h1 h2 hp hl).2]

/-- a cut ciphertext file that can be read is whole, if the buffer is smaller than a ciphertext -/
theorem Cut.ctxts (hcap : cap < blockSize l N) {W : String → Prop} {fs fs' : Files} (h : Cut cap W fs fs') {f : String} {cs : List (Gsw l N)}
    (hf : fs f = some (cs.flatMap saveGsw)) (hlen : (cs.flatMap saveGsw).length < 2 ^ 63) {kind : StreamKind} {p : List Nat × List (Gsw l N)}
    (hr : Fetch kind (fs' f) (.ok p)) : fs' f = some (cs.flatMap saveGsw) := by
  rcases h f with e | ⟨-, full, q, e1, e2, hq, hc⟩
  · rw [e, hf]
  · rw [hf] at e1
    cases e1
    rw [e2] at hr ⊢
    have hql := hq.length_le
    obtain ⟨_, e, ⟨a, ha⟩⟩ := fetch_whole (by omega) (fun b hb => by cases hb; omega) hr
    cases e
    rw [length_file] at hql hc
    congr 1
    refine hq.eq_of_length ?_
    rw [length_file, ha, Nat.mul_comm]
    rw [ha, Nat.mul_comm] at hql
    rw [ha, Nat.mul_comm (blockSize l N)] at hc
    have h1 : a ≤ cs.length := Nat.le_of_mul_le_mul_right hql (by omega)
    have h2 : cs.length < a + 1 := by
      refine Nat.lt_of_mul_lt_mul_right (a := blockSize l N) ?_
      rw [Nat.add_mul]; omega
    have : a = cs.length := by omega
    rw [this]

/-- a run command `c` that ends normally has read the ciphertexts in `C` and the evaluation key in `B` -/
def RunReads (L : Lib N n l) (B C : String) (c : Call) : Prop :=
  ∀ (fs : Files) r, Exec L [] fs c (.ok r) → (∃ kind p, Fetch (l := l) (N := N) kind (fs C) (.ok p)) ∧ ∃ b, readArchive L.loadBKey (fs B) = .ok b

theorem reads_offline {S C R B : String} {boot : Nat} {z : Bool} : RunReads L B C (.runOffline S C R boot B z) := by
  intro fs r h
  generalize hr : (Except.ok r : Res (Files × List Char)) = x at h
  cases h with
  | runOffline hf =>
    obtain ⟨p, rfl, h⟩ := Res.bind_eq_ok.1 hr.symm
    obtain ⟨b, h1, h⟩ := Res.bind_eq_ok.1 h
    exact ⟨⟨_, _, hf⟩, b, h1⟩

theorem reads_reverse {S C B : String} {R D : Option String} {freq boot : Nat} {y z : Bool} :
    RunReads L B C (.runReverse S C R D freq boot y B z) := by
  intro fs r h
  generalize hr : (Except.ok r : Res (Files × List Char)) = x at h
  cases h with
  | runReverse hf =>
    obtain ⟨p, rfl, h⟩ := Res.bind_eq_ok.1 hr.symm
    obtain ⟨b, h1, h⟩ := Res.bind_eq_ok.1 h
    exact ⟨⟨_, _, hf⟩, b, h1⟩

theorem reads_block {S C R B : String} {queue : Nat} {z : Bool} : RunReads L B C (.runBlock S C R queue B z) := by
  intro fs r h
  generalize hr : (Except.ok r : Res (Files × List Char)) = x at h
  cases h with
  | runBlock hf =>
    obtain ⟨p, rfl, h⟩ := Res.bind_eq_ok.1 hr.symm
    obtain ⟨_, _, h⟩ := Res.bind_eq_ok.1 h
    obtain ⟨b, h1, h⟩ := Res.bind_eq_ok.1 h
    exact ⟨⟨_, _, hf⟩, b, h1⟩

theorem reads_flut {S C B : String} {R D : Option String} {freq queue boot : Nat} {d : Option Nat} {k : Option String} {z : Bool} :
    RunReads L B C (.runFlut S C R D freq queue boot B d k z) := by
  intro fs r h
  generalize hr : (Except.ok r : Res (Files × List Char)) = x at h
  cases h with
  | runFlut hf =>
    obtain ⟨p, rfl, h⟩ := Res.bind_eq_ok.1 hr.symm
    obtain ⟨_, _, h⟩ := Res.bind_eq_ok.1 h
    obtain ⟨b, h1, h⟩ := Res.bind_eq_ok.1 h
    exact ⟨⟨_, _, hf⟩, b, h1⟩

/-- the sequence, with failing writes -/
theorem faulty_pipeline (hL : L.Sound δ Enc) (hT : L.RejectsTruncated) (hcap : cap < blockSize l N) {S I K B C R : String}
    (hn : Names S I K B C R) (fs : Files) {specB inB : List Byte} (hs : fs S = some specB) (hi : fs I = some inB)
    (hlen : 8 * inB.length * blockSize l N < 2 ^ 63) {ap : Nat} (hap : 0 < ap) (hap64 : ap < 2 ^ 64) {out : List Char}
    (hplain : doRunPlain (textOf specB) (some inB) ap = .ok out) {X : List String}
    (hX : RunRight L S B C R specB inB ap out X) {cX : Call} (hcX : homfaMain (fun _ => true) X = .ok (some cX))
    (hwX : ∀ f, cX.Writes f → f = R) (hsX : cX.silent = true) (hrX : RunReads L B C cX) {fs' : Files} {o : List Char}
    (h : FaultyScript L cap fs [["genkey", "--out", K], ["genbkey", "--key", K, "--out", B],
      ["enc", "--ap", toString ap, "--key", K, "--in", I, "--out", C], X, ["dec", "--key", K, "--in", R]] (.ok (fs', o))) :
    (o = [] ∨ o = out) ∧ ∀ f, f ∉ [K, B, C, R] → fs' f = fs f := by
  obtain ⟨wS, wI, wK, wB, wC, wR⟩ : Word S ∧ Word I ∧ Word K ∧ Word B ∧ Word C ∧ Word R :=
    ⟨hn.words S (by simp), hn.words I (by simp), hn.words K (by simp), hn.words B (by simp), hn.words C (by simp), hn.words R (by simp)⟩
  have hd := hn.distinct
  simp only [List.nodup_cons, List.mem_cons, List.not_mem_nil, or_false, not_or] at hd
  obtain ⟨⟨dSI, dSK, dSB, dSC, dSR⟩, ⟨dIK, dIB, dIC, dIR⟩, ⟨dKB, dKC, dKR⟩, ⟨dBC, dBR⟩, dCR, -⟩ := hd
  have split : ∀ {fs : Files} {toks rest r}, FaultyScript L cap fs (toks :: rest) (.ok r) →
      ∃ fs1 o1 r', RunFaulty L cap [] fs toks (.ok (fs1, o1)) ∧ FaultyScript L cap fs1 rest (.ok r') ∧ r = (r'.1, o1 ++ r'.2) := by
    intro fs toks rest r h
    generalize hr : (Except.ok r : Res (Files × List Char)) = x at h
    cases h with
    | stop => cases hr
    | @next _ _ fs1 o1 _ x h1 h2 =>
      obtain ⟨r', rfl, e⟩ := Res.map_eq_ok hr
      exact ⟨fs1, o1, r', h1, h2, e.symm⟩
  obtain ⟨fs1, o1, r1, h1, k1, e1⟩ := split h
  obtain ⟨fs2, o2, r2, h2, k2, e2⟩ := split k1
  obtain ⟨fs3, o3, r3, h3, k3, e3⟩ := split k2
  obtain ⟨fs4, o4, r4, h4, k4, e4⟩ := split k3
  obtain ⟨fs5, o5, r5, h5, k5, e5⟩ := split k4
  generalize hr5 : (Except.ok r5 : Res (Files × List Char)) = x5 at k5
  cases k5
  cases hr5
  rw [e2, e3, e4, e5] at e1
  clear e2 e3 e4 e5 k1 k2 k3 k4
  -- genkey
  obtain ⟨a1, p1, m1, -, -, c1, f1, s1⟩ := run_of_faulty (main_genkey wK) h1
  obtain ⟨q, e⟩ := (run_genkey wK).1 m1
  cases e
  have s1 := s1 rfl
  subst s1
  -- genbkey
  obtain ⟨a2, p2, m2, x2, -, c2, f2, s2⟩ := run_of_faulty (main_genbkey wK wB) h2
  have s2 := s2 rfl
  subst s2
  have hK1 : fs1 K = some (L.saveKey (L.newKey q)) := by
    generalize hr : (Except.ok (a2, p2) : Res (Files × List Char)) = x at x2
    cases x2 with
    | genbkey =>
      obtain ⟨k, hk, -⟩ := Res.bind_eq_ok.1 hr.symm
      exact c1.archive hL.key hT.key (Files.set_same _ _ _) hk
  obtain ⟨q', e⟩ := (run_genbkey wK wB hL.key hK1).1 m2
  cases e
  have hK2 : fs2 K = some (L.saveKey (L.newKey q)) := by rw [f2 K dKB, hK1]
  -- enc
  obtain ⟨a3, p3, m3, -, -, c3, f3, s3⟩ := run_of_faulty (main_enc wK wI wC hap hap64) h3
  have s3 := s3 rfl
  subst s3
  obtain ⟨rand, e⟩ := (run_enc wK wI wC hL.key hK2 (by rw [f2 I dIB, f1 I dIK, hi]) dIC hap hap64).1 m3
  obtain ⟨cs, hcs, henc⟩ := enc_file hlen hap hplain (L.pair (L.newKey q) (L.newBKey q' (L.newKey q))) rand
  have henc' : doEnc (L.client (L.newKey q)) rand (some inB) ap = .ok (cs.flatMap saveGsw) := henc
  rw [henc'] at e
  cases e
  -- run
  obtain ⟨a4, p4, m4, x4, -, c4, f4, s4⟩ := run_of_faulty hcX h4
  have s4 := s4 hsX
  subst s4
  obtain ⟨⟨kind, pc, hfe⟩, b, hb⟩ := hrX _ _ x4
  rw [f3 B dBC] at hb
  have hB2 := c2.archive hL.bkey hT.bkey (Files.set_same _ _ _) hb
  have hC3 := c3.ctxts hcap (Files.set_same _ _ _) hcs hfe
  obtain ⟨-, hall⟩ := hX q q' rand fs3 cs (by rw [f3 S dSC, f2 S dSB, f1 S dSK, hs]) hC3 (by rw [f3 B dBC, hB2]) hcs henc
  obtain ⟨c, e, hc⟩ := hall _ m4
  cases e
  have f4' : ∀ f, f ≠ R → fs4 f = fs3 f := fun f hf => f4 f fun h => hf (hwX f h)
  -- dec
  obtain ⟨a5, p5, m5, x5, hpre, c5, f5, -⟩ := run_of_faulty (main_dec wK wR) h5
  have hR4 : fs4 R = some (L.saveRes c) := by
    generalize hr : (Except.ok (a5, p5) : Res (Files × List Char)) = x at x5
    cases x5 with
    | dec =>
      obtain ⟨k, -, hr⟩ := Res.bind_eq_ok.1 hr.symm
      obtain ⟨y, hy, -⟩ := Res.bind_eq_ok.1 hr
      exact c4.archive hL.res hT.res (Files.set_same _ _ _) hy
  have e := (run_dec wK wR hL.key hL.res (by rw [f4' K dKR, f3 K dKC, hK2]) hR4).1 m5
  cases e
  have hout : out = printResult (decryptBit c (L.client (L.newKey q)).sk) := hc.symm
  simp only [List.nil_append, List.append_nil, Prod.mk.injEq] at e1
  obtain ⟨rfl, rfl⟩ := e1
  refine ⟨?_, fun f hf => ?_⟩
  · rw [hout]
    exact prefix_printResult hpre
  · simp only [List.mem_cons, List.not_mem_nil, or_false, not_or] at hf
    rw [f5 f id, f4' f hf.2.2.2, f3 f hf.2.2.1, f2 f hf.2.1, f1 f hf.1]

end Homfa.Cli
