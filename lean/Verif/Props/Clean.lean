import Verif.Proof.CleanRun
import Verif.Proof.FlutInv
/-!
# C90: whatever the files contain, every command ends by itself
-/

namespace Homfa
open Cli

variable {N n l : Nat}

theorem readArchive_orderly {α : Type} (load : List Byte → Option α) (file : Option (List Byte)) : Orderly (readArchive load file) := by
  unfold readArchive
  split
  · exact .assertFail
  · split
    · exact .ok _
    · exact .die

theorem readSpec_orderly (file : Option (List Byte)) : Orderly (readSpec file) := by
  cases file
  · exact .assertFail
  · exact .ok _

theorem readAtt_orderly (file : Option (List Byte)) : Orderly (readAtt file) := by
  cases file
  · exact .die
  · exact .ok _

theorem fileOrStdin_orderly {read : Option (List Byte) → Res (List Char)} (h : ∀ f, Orderly (read f)) (fs : Files) (stdin : List Char) (name : Option String) :
    Orderly (fileOrStdin read fs stdin name) := by
  unfold fileOrStdin
  split
  · exact .ok _
  · exact h _

theorem readDebugKey_orderly (L : Lib N n l) (fs : Files) (name : Option String) : Orderly (readDebugKey L fs name) := by
  cases name
  · exact .ok _
  · exact .map _ (readArchive_orderly _ _)

theorem readSpec_some {fs : Files} {f : String} {s : List Char} (h : readSpec (fs f) = .ok s) : ∃ b, fs f = some b ∧ s = textOf b := by
  cases hf : fs f with
  | none => rw [hf] at h; cases h
  | some b => rw [hf] at h; cases h; exact ⟨b, rfl, rfl⟩

/-- **C90.** Any library, any words, any files (broken, cut, empty, of another kind) and any schedule: if no file is larger than a C++ stream
can tell, Spot returns or stops itself, and the spec of `run block` and the options of `run flut` fit in `int`, then the program returns or
stops itself. -/
theorem C90_ends_orderly (L : Lib N n l) (hN : 30 < N) (hl : 0 < l) (hbs : blockSize l N < 2 ^ 63) (stdin : List Char) (fs : Files) (toks : List String)
    (hlen : ∀ f b, fs f = some b → b.length < 2 ^ 63)
    (hmon : ∀ φ k, Orderly (L.monitor φ k))
    (hfit : ∀ c, homfaMain (fun f => (fs f).isSome) toks = .ok (some c) → Fits N fs c)
    (r : Res (Files × List Char)) (h : RunHomfa L stdin fs toks r) : Orderly r := by
  have hN0 : 0 < N := by omega
  have hbs0 : 0 < blockSize l N := by unfold blockSize; positivity
  cases h with
  | usage => exact .die
  | fails h => rw [(C58_never_throws _ _ _ h).1]; exact .die
  | @call c _ hc hx =>
    have ha := C58_run_arguments _ _ _ hc
    have hf := hfit c hc
    cases hx with
    | genkey => exact .ok _
    | genbkey => exact .bind (readArchive_orderly _ _) fun _ _ => .ok _
    | enc => exact .bind (readArchive_orderly _ _) fun _ _ => .bind (enc_orderly _ _ _ _) fun _ _ => .ok _
    | dec => exact .bind (readArchive_orderly _ _) fun _ _ => .bind (readArchive_orderly _ _) fun _ _ => .ok _
    | runPlain => exact .bind (readSpec_orderly _) fun _ _ => .bind (plain_orderly _ _ _) fun _ _ => .ok _
    | ltl2spec => exact .bind (hmon _ _) fun _ _ => .bind (ltl2spec_orderly _ _ _) fun _ _ => .ok _
    | spec2spec => exact .bind (fileOrStdin_orderly readSpec_orderly _ _ _) fun _ _ => .bind (spec2spec_orderly _ _ _ _) fun _ _ => .ok _
    | spec2dot => exact .bind (fileOrStdin_orderly readSpec_orderly _ _ _) fun _ _ => .bind (spec2dot_orderly _) fun _ _ => .ok _
    | spec2att => exact .bind (fileOrStdin_orderly readSpec_orderly _ _ _) fun _ _ => .bind (spec2att_orderly _) fun _ _ => .ok _
    | att2spec => exact .bind (fileOrStdin_orderly readAtt_orderly _ _ _) fun _ _ => .bind (att2spec_orderly _) fun _ _ => .ok _
    | runOffline hr =>
      obtain ⟨hb, rfl⟩ := ha
      rcases (fetch_cases hbs0 hbs (hlen _)).2 _ hr with ⟨rfl, hno⟩ | ⟨pre, cs, rfl, h2, h3⟩
      · exact .assertFail
      · refine .bind (.ok _) fun x hx => ?_
        cases hx
        refine .bind (readArchive_orderly _ _) fun b _ => .bind (readSpec_orderly _) fun s _ => .bind ?_ fun _ _ => .ok _
        rw [h2 rfl]
        rcases fromIstream_cases s with ⟨e, g1, g2⟩ | g1 | ⟨g, g1, g2⟩
        · unfold doRunOffline
          rw [g1, Res.bind_err]
          rcases g2 with rfl | rfl
          · exact .die
          · exact .outOfRange
        · exact offline_empty _ g1 _ _ _
        · exact offline_orderly _ hN0 hl hbs g1 g2 h3 hb
    | runReverse hr =>
      obtain ⟨ho, rfl, _, hb, rfl⟩ := ha
      obtain ⟨out, rfl⟩ := Option.isSome_iff_exists.1 ho
      rcases (fetch_cases hbs0 hbs (hlen _)).2 _ hr with ⟨rfl, hno⟩ | ⟨pre, cs, rfl, _, h3⟩
      · exact .assertFail
      · refine .bind (.ok _) fun x hx => ?_
        cases hx
        refine .bind (readArchive_orderly _ _) fun b _ => .bind (readSpec_orderly _) fun s _ => .bind ?_ fun _ _ => .ok _
        rcases fromIstream_cases s with ⟨e, g1, g2⟩ | g1 | ⟨g, g1, g2⟩
        · unfold doRunReverse
          simp only [Option.isSome_some, Option.isSome_none, Bool.not_false, Bool.and_true, Bool.true_or, cassert_true, Res.bind_ok]
          rw [g1, Res.bind_err]
          rcases g2 with rfl | rfl
          · exact .die
          · exact .outOfRange
        · exact reverse_empty _ g1 hN0 hl hbs h3 hb _ _ _ _
        · exact reverse_orderly _ hN0 hl hbs g1 g2 h3 hb _ _ _ _
    | runBlock hr =>
      obtain ⟨_, rfl⟩ := ha
      rcases (fetch_cases hbs0 hbs (hlen _)).2 _ hr with ⟨rfl, hno⟩ | ⟨pre, cs, rfl, _, h3⟩
      · exact .assertFail
      · refine .bind (.ok _) fun x hx => ?_
        cases hx
        refine .bind (readSpec_orderly _) fun s hs => .bind (readArchive_orderly _ _) fun b _ => .bind ?_ fun _ _ => .ok _
        rcases fromIstream_cases s with ⟨e, g1, g2⟩ | g1 | ⟨g, g1, g2⟩
        · unfold doRunBlock
          rw [g1, Res.bind_err]
          rcases g2 with rfl | rfl
          · exact .die
          · exact .outOfRange
        · exact block_empty _ g1 _ _
        · obtain ⟨by', e1, rfl⟩ := readSpec_some hs
          exact block_orderly _ hN0 g1 g2 (hf _ _ e1 g1) hN _
    | runFlut hr =>
      obtain ⟨ho, rfl, _, hq, hb, ⟨d, rfl, hd⟩, rfl⟩ := ha
      obtain ⟨out, rfl⟩ := Option.isSome_iff_exists.1 ho
      obtain ⟨f1, f2⟩ := hf
      obtain ⟨f2, f3⟩ := f2 d rfl
      rcases (fetch_cases hbs0 hbs (hlen _)).2 _ hr with ⟨rfl, hno⟩ | ⟨pre, cs, rfl, _, h3⟩
      · exact .assertFail
      · refine .bind (.ok _) fun x hx => ?_
        cases hx
        refine .bind (readSpec_orderly _) fun s hs => .bind (readArchive_orderly _ _) fun b _ =>
          .bind (readDebugKey_orderly _ _ _) fun _ _ => .bind ?_ fun _ _ => .ok _
        rcases fromIstream_cases s with ⟨e, g1, g2⟩ | g1 | ⟨g, g1, g2⟩
        · unfold doRunFlut
          rw [g1, Res.bind_err]
          rcases g2 with rfl | rfl
          · exact .die
          · exact .outOfRange
        · exact flut_empty _ g1 _ hq f1 _ _ _ _
        · exact flut_orderly _ hN0 hl hbs g1 g2 h3 hb hq f1 (maxSecond := some d) f2 f3 _ _ _

/-- **C90.** And it does end: under some schedule of the threads there is a result. -/
theorem C90_some_end (L : Lib N n l) (hN : 0 < N) (hl : 0 < l) (hbs : blockSize l N < 2 ^ 63) (stdin : List Char) (fs : Files) (toks : List String)
    (hlen : ∀ f b, fs f = some b → b.length < 2 ^ 63) : ∃ r, RunHomfa L stdin fs toks r := by
  have hbs0 : 0 < blockSize l N := by unfold blockSize; positivity
  cases h : homfaMain (fun f => (fs f).isSome) toks with
  | error e => exact ⟨_, .fails h⟩
  | ok o =>
    cases o with
    | none => exact ⟨_, .usage h⟩
    | some call =>
      have hF : ∀ kind f, ∃ r, Fetch (l := l) (N := N) kind (fs f) r := fun kind f => (fetch_cases hbs0 hbs (hlen f)).1
      suffices ∃ r, Exec L stdin fs call r by
        obtain ⟨r, hr⟩ := this
        exact ⟨r, .call h hr⟩
      obtain ⟨_, c, w, items, _, _, _, _, rfl⟩ := C58_only _ _ _ h
      cases c <;> simp only [Cmd.call]
      case genkey => exact ⟨_, .genkey 0⟩
      case genbkey => exact ⟨_, .genbkey 0⟩
      case enc => exact ⟨_, .enc id⟩
      case dec => exact ⟨_, .dec⟩
      case runOffline => exact (hF _ _).elim fun r hr => ⟨_, .runOffline hr⟩
      case runReverse => exact (hF _ _).elim fun r hr => ⟨_, .runReverse hr⟩
      case runBlock => exact (hF _ _).elim fun r hr => ⟨_, .runBlock hr⟩
      case runFlut => exact (hF _ _).elim fun r hr => ⟨_, .runFlut hr⟩
      case runPlain => exact ⟨_, .runPlain⟩
      case ltl2spec => exact ⟨_, .ltl2spec⟩
      case spec2spec => exact ⟨_, .spec2spec⟩
      case spec2dot => exact ⟨_, .spec2dot⟩
      case spec2att => exact ⟨_, .spec2att⟩
      case att2spec => exact ⟨_, .att2spec⟩

theorem flut_make_wide {g : Graph} (hw : g.WF) (max boot : Nat) {queue : Nat} (hq : 31 ≤ queue) :
    (Flut.make g max queue boot false : Res (Flut N l)) = .error .noMem := by
  obtain ⟨r0, h0, _⟩ := flut_make (N := N) (l := l) hw (max) 30 boot (by decide)
  unfold Flut.make at h0 ⊢
  rw [if_neg (by simp)] at h0 ⊢
  obtain ⟨w, h1, h0⟩ := Res.bind_eq_ok.1 h0
  obtain ⟨memo, h2, _⟩ := Res.bind_eq_ok.1 h0
  have e : List.range (queue + 1) = List.range (30 + 1) ++ 31 :: (List.range (queue - 31)).map (31 + 1 + ·) := by
    have : queue + 1 = 31 + ((queue - 31) + 1) := by omega
    rw [this, List.range_add, List.range_succ_eq_map (n := queue - 31), List.map_cons, List.map_map]
    congr 2
    apply List.map_congr_left
    intro a _
    simp only [Function.comp_apply]
    omega
  dsimp only
  rw [h1, Res.bind_ok, e, List.foldlM_append, h2, Res.bind_ok, List.foldlM_cons]
  rfl

/-- **C90.** The condition on `run flut` cannot be dropped: with a queue of 31 or more bits, on any spec with states and any readable files,
the constructor tries to build a table of 2^64 - 2^31 entries for every state and throws. -/
theorem C90_flut_wide_queue (L : Lib N n l) (hN : 0 < N) (hl : 0 < l) (hbs : blockSize l N < 2 ^ 63) (stdin : List Char) (fs : Files) (toks : List String)
    (hlen : ∀ f b, fs f = some b → b.length < 2 ^ 63) {spec input bkey : String} {out outDir : Option String} {freq queue boot : Nat} {depth : Option Nat}
    (hc : homfaMain (fun f => (fs f).isSome) toks = .ok (some (.runFlut spec input out outDir freq queue boot bkey depth none false)))
    (hq : 31 ≤ queue) {g : Graph} {b : List Byte} (hs : fs spec = some b) (hg : Graph.fromIstream (textOf b) = .ok g) (hg0 : 0 < g.size)
    {kb : List Byte} {k : L.BKey} (hk : fs bkey = some kb) (hk' : L.loadBKey kb = some k) {ib : List Byte} (hi : fs input = some ib)
    (hi' : blockSize l N ∣ ib.length) (r : Res (Files × List Char)) (h : RunHomfa L stdin fs toks r) : r = .error .noMem := by
  have hbs0 : 0 < blockSize l N := by unfold blockSize; positivity
  have hw := wf_of_fromIstream hg hg0
  cases h with
  | usage h => rw [h] at hc; cases hc
  | fails h => rw [h] at hc; cases hc
  | call h hx =>
    rw [hc] at h
    cases h
    cases hx with
    | runFlut hr =>
      have hm := flut_make_wide (N := N) (l := l) hw (depth.getD 8) boot hq
      rcases (fetch_cases hbs0 hbs (hlen _)).2 _ hr with ⟨rfl, hno⟩ | ⟨pre, cs, rfl, _, _⟩
      · exact absurd ⟨ib, hi, hi'⟩ hno
      · rw [Res.bind_ok, hs, hk]
        show (readArchive L.loadBKey (some kb) >>= _) = _
        have : readArchive L.loadBKey (some kb) = .ok k := by unfold readArchive; dsimp only; rw [hk']
        rw [this, Res.bind_ok]
        show (doRunFlut _ _ _ _ _ _ _ _ _ _ _ >>= _) = _
        unfold doRunFlut
        rw [hg, Res.bind_ok, hm]
        rfl

/-- With a depth of 32 or more every evaluation of a queue is undefined. -/
theorem flut_deep_eval (S : Scheme N n l) {r : Flut N l} {qs : Nat} (hg : r.graph.WF) (hmemo : ∀ d ≤ qs, ∃ row, r.memo[d]? = some row ∧ MemoOk r.graph d row)
    (hqs : qs < 31) (hlive : r.live = [r.graph.init]) (hq0 : r.queued ≠ []) (hq : r.queued.length ≤ qs) (hd : 32 ≤ r.maxSecond) :
    r.evalQueued S = .error .ub := by
  have hk0 : r.queued.length ≠ 0 := fun h => hq0 (List.eq_nil_of_length_eq_zero h)
  obtain ⟨row, hrow, hrow'⟩ := hmemo _ hq
  have hs : SSorted r.live := by rw [hlive]; simp [SSorted]
  have hlt : ∀ q ∈ r.live, q < r.graph.size := by rw [hlive]; intro q h; rw [List.mem_singleton.1 h]; exact hg.init_lt
  obtain ⟨st2idx, hi1, _⟩ := flutIdx_ok (g := r.graph) (Graph.sorted_levelSet hs r.queued.length).nodup (Graph.levelSet_lt hlt r.queued.length)
  unfold Flut.evalQueued
  dsimp only
  rw [if_neg hk0, vat_eq_ok.2 hrow, Res.bind_ok, flutNext_ok hg (by omega) hrow' hlt hk0, Res.bind_ok, hi1, Res.bind_ok]
  unfold lutDepths shl1Cap
  rw [if_neg (by omega)]
  rfl

theorem flut_deep_loop (S : Scheme N n l) {qs freq : Nat} (hqs : qs < 31) : ∀ (cs : List (Gsw l N)) (i : Nat) (r : Flut N l), r.graph.WF →
    (∀ d ≤ qs, ∃ row, r.memo[d]? = some row ∧ MemoOk r.graph d row) → r.live = [r.graph.init] → r.queueSize = qs → r.queued.length < qs →
    32 ≤ r.maxSecond → r.queued ++ cs ≠ [] →
    (onlineLoop (fun r c => Flut.evalOne S r c) (fun r => Flut.result S r) none freq cs i r >>= fun p => p.2.result S) = .error .ub
  | [], i, r, hg, hm, hl, hs, hq, hd, hne => by
    show (r.result S) = _
    rw [List.append_nil] at hne
    unfold Flut.result
    rw [flut_deep_eval S hg hm hqs hl hne (by omega) hd, Res.bind_err]
  | c :: cs, i, r, hg, hm, hl, hs, hq, hd, hne => by
    unfold onlineLoop Flut.evalOne
    dsimp only
    rw [List.length_append, List.length_singleton]
    by_cases h : r.queued.length + 1 < r.queueSize
    · rw [if_pos h]
      exact flut_deep_loop S hqs cs (i + 1) _ hg hm hl hs (by rw [List.length_append]; exact hs ▸ h) hd (by simp)
    · rw [if_neg h, flut_deep_eval S (r := { r with queued := r.queued ++ [c] }) hg hm hqs hl (by simp) (by rw [List.length_append]; exact hq) hd]
      rfl

/-- **C90.** Nor can the condition on the depth of the table: with a depth of 32 or more, on any spec with states and any readable files with
at least one ciphertext, the program shifts 1 by that many places, which is undefined. -/
theorem C90_flut_deep (L : Lib N n l) (hN : 0 < N) (hl : 0 < l) (hbs : blockSize l N < 2 ^ 63) (stdin : List Char) (fs : Files) (toks : List String)
    (hlen : ∀ f b, fs f = some b → b.length < 2 ^ 63) {spec input bkey out : String} {freq queue boot depth : Nat}
    (hc : homfaMain (fun f => (fs f).isSome) toks = .ok (some (.runFlut spec input (some out) none freq queue boot bkey (some depth) none false)))
    (hq0 : 0 < queue) (hq : queue < 31) (hd : 32 ≤ depth) {g : Graph} {b : List Byte} (hs : fs spec = some b)
    (hg : Graph.fromIstream (textOf b) = .ok g) (hg0 : 0 < g.size)
    {kb : List Byte} {k : L.BKey} (hk : fs bkey = some kb) (hk' : L.loadBKey kb = some k) {ib : List Byte} (hi : fs input = some ib)
    (hi' : blockSize l N ∣ ib.length) (hi0 : ib ≠ []) (r : Res (Files × List Char)) (h : RunHomfa L stdin fs toks r) : r = .error .ub := by
  have hbs0 : 0 < blockSize l N := by unfold blockSize; positivity
  have hw := wf_of_fromIstream hg hg0
  cases h with
  | usage h => rw [h] at hc; cases hc
  | fails h => rw [h] at hc; cases hc
  | call h hx =>
    rw [hc] at h
    cases h
    cases hx with
    | runFlut hr =>
      obtain ⟨f, m1, m2, m3, m4, _, m6, m7, _, _, m10, _⟩ := flut_make (N := N) (l := l) hw depth queue boot hq
      obtain ⟨j, hj⟩ := hi'
      obtain ⟨cs, rfl⟩ := file_surj (l := l) (N := N) hbs0 j ib (by rw [hj, Nat.mul_comm])
      rw [hi] at hr
      obtain ⟨pre, _, rfl⟩ := (fetch_forward hbs0 hbs (hlen _ _ hi)).2 _ hr
      have hcs : cs ≠ [] := fun h => hi0 (by rw [h]; rfl)
      have key := flut_deep_loop (L.server k) (freq := freq) hq cs 0 f (m2 ▸ hw) (m2 ▸ m10) (m2 ▸ m7) m4 (by rw [m6]; exact hq0) (by omega)
        (fun h => hcs (List.append_eq_nil_iff.1 h).2)
      rw [Res.bind_ok, hs, hk]
      show (readArchive L.loadBKey (some kb) >>= _) = _
      have : readArchive L.loadBKey (some kb) = .ok k := by unfold readArchive; dsimp only; rw [hk']
      rw [this, Res.bind_ok]
      show (doRunFlut _ _ _ _ _ _ _ _ _ _ _ >>= _) = _
      unfold doRunFlut
      rw [hg, Res.bind_ok]
      show ((Flut.make g depth queue boot false >>= _) >>= _) = _
      rw [m1, Res.bind_ok]
      cases hx : onlineLoop (fun r c => Flut.evalOne (L.server k) r c) (fun r => Flut.result (L.server k) r) none freq cs 0 f with
      | error e => rw [hx] at key; cases key; rfl
      | ok p =>
        rw [hx, Res.bind_ok] at key
        show ((p.2.result (L.server k) >>= _) >>= _) = _
        rw [key]
        rfl

/-- **C90.** A spec file without a line: `run plain` throws, on every input, but `run reverse` (without `--spec-reversed`) runs as if the spec
were the automaton that rejects everything. -/
theorem C90_empty_spec (S : Scheme N n l) (input : Option (List Byte)) (ap : Nat) (hap : 0 < ap) (cs : List (Gsw l N)) (boot size freq : Nat) (out : String) :
    (∀ o, doRunPlain [] input ap ≠ .ok o) ∧
    doRunReverse S [] size cs (some out) none freq boot false false =
      doRunReverse S ">0\t0\t0\n".toList size cs (some out) none freq boot true false := by
  have h : Graph.fromIstream [] = .ok emptyGraph := by decide
  refine ⟨fun o ho => ?_, reverse_empty_as S h cs boot size freq out⟩
  obtain ⟨g, _, _, h1, h2, _⟩ := plain_ok hap ho
  rw [h] at h1
  cases h1
  exact absurd h2.init_lt (by decide)

/-- a spec, a key, a file of three blocks that no one encrypted, and a file that ends inside a block -/
def messFiles : Files := fun f =>
  if f = "a.spec" then some (">0* 0 1\n1 1 0\n".toList.map fun c => BitVec.ofNat 8 c.toNat)
  else if f = "bk" then some [2#8]
  else if f = "three" then some (List.replicate 3072 170#8)
  else if f = "cut" then some (List.replicate 1500 7#8)
  else none

def messWords (input queue depth : String) : List String :=
  ["run", "flut", "--bkey", "bk", "--out", "res", "--spec", "a.spec", "--in", input, "--out-freq", "1", "--queue-size", queue,
    "--max-second-lut-depth", depth, "--bootstrapping-freq", "3"]

theorem messFiles_cases {f : String} {b : List Byte} (h : messFiles f = some b) :
    b = ">0* 0 1\n1 1 0\n".toList.map (fun c => BitVec.ofNat 8 c.toNat) ∨ b = [2#8] ∨ b = List.replicate 3072 170#8 ∨ b = List.replicate 1500 7#8 := by
  unfold messFiles at h
  split at h
  · exact .inl (Option.some.inj h).symm
  · split at h
    · exact .inr (.inl (Option.some.inj h).symm)
    · split at h
      · exact .inr (.inr (.inl (Option.some.inj h).symm))
      · split at h
        · exact .inr (.inr (.inr (Option.some.inj h).symm))
        · cases h

/-- `run flut` on the strange files ends in an orderly way; with a queue of 40 bits it does not. -/
example : (∃ φ : TLWE 32 → Nat, ∀ input, input = "three" ∨ input = "cut" → ∃ r, RunHomfa (toyLib 32 2 1 φ) [] messFiles (messWords input "4" "3") r ∧ Orderly r) ∧
    ∃ φ : TLWE 32 → Nat, ∀ r, RunHomfa (toyLib 32 2 1 φ) [] messFiles (messWords "three" "40" "3") r → r = .error .noMem := by
  have hlen : ∀ f b, messFiles f = some b → b.length < 2 ^ 63 := by
    intro f b h
    rcases messFiles_cases h with rfl | rfl | rfl | rfl
    · decide
    · decide
    · rw [List.length_replicate]; decide
    · rw [List.length_replicate]; decide
  refine ⟨⟨fun _ => 0, fun input hi => ?_⟩, fun _ => 0, fun r hr => ?_⟩
  · obtain ⟨r, hr⟩ := C90_some_end (toyLib 32 2 1 fun _ => 0) (by decide) (by decide) (by decide) [] messFiles (messWords input "4" "3") hlen
    refine ⟨r, hr, C90_ends_orderly _ (by decide) (by decide) (by decide) [] messFiles _ hlen (fun _ _ => .die) ?_ r hr⟩
    · intro c hc
      rcases hi with rfl | rfl
      · have h' : homfaMain (fun f => (messFiles f).isSome) (messWords "three" "4" "3") = .ok (some (.runFlut "a.spec" "three" (some "res") none 1 4 3 "bk" (some 3) none false)) := by decide +kernel
        rw [h'] at hc
        cases hc
        exact ⟨by decide, fun d h => by cases h; decide⟩
      · have h' : homfaMain (fun f => (messFiles f).isSome) (messWords "cut" "4" "3") = .ok (some (.runFlut "a.spec" "cut" (some "res") none 1 4 3 "bk" (some 3) none false)) := by decide +kernel
        rw [h'] at hc
        cases hc
        exact ⟨by decide, fun d h => by cases h; decide⟩
  · have h' : homfaMain (fun f => (messFiles f).isSome) (messWords "three" "40" "3") = .ok (some (.runFlut "a.spec" "three" (some "res") none 1 40 3 "bk" (some 3) none false)) := by decide +kernel
    exact C90_flut_wide_queue (toyLib 32 2 1 fun _ => 0) (by decide) (by decide) (by decide) [] messFiles _ hlen h' (by decide) (g := Graph.built 0 [0] [(0, 0, 1), (1, 1, 0)])
      rfl (by decide +kernel) (by decide) rfl rfl rfl (by decide +kernel) r hr

/-- With a depth of 32 it runs into undefined behaviour on the same files. -/
example : ∀ r, RunHomfa (toyLib 32 2 1 fun _ => 0) [] messFiles (messWords "three" "4" "32") r → r = .error .ub := by
  have hlen : ∀ f b, messFiles f = some b → b.length < 2 ^ 63 := by
    intro f b h
    rcases messFiles_cases h with rfl | rfl | rfl | rfl
    · decide
    · decide
    · rw [List.length_replicate]; decide
    · rw [List.length_replicate]; decide
  have h' : homfaMain (fun f => (messFiles f).isSome) (messWords "three" "4" "32") = .ok (some (.runFlut "a.spec" "three" (some "res") none 1 4 3 "bk" (some 32) none false)) := by decide +kernel
  exact C90_flut_deep (toyLib 32 2 1 fun _ => 0) (by decide) (by decide) (by decide) [] messFiles _ hlen h' (by decide) (by decide) (by decide)
    (g := Graph.built 0 [0] [(0, 0, 1), (1, 1, 0)]) rfl (by decide +kernel) (by decide) rfl rfl rfl (by decide +kernel) (fun h => by have := congrArg List.length h; rw [List.length_replicate] at this; cases this)

end Homfa
