import Verif.Proof.BenchEnd
import Verif.Props.BenchLog
/-!
# C97: the benchmark program ends by itself, and what it has printed by then is right
-/

namespace Homfa.Cli

variable {N n l : Nat}

/-- **C97.** Any library, any words, any files (broken, cut, empty, of another kind), any keys and any randomness: if the spec of `bbs` and the
options of `qtrlwe2` fit in `int`, then the benchmark program returns or stops itself. -/
theorem C97_ends_orderly (L : Lib N n l) (hN : 30 < N) (hl : 0 < l) (fs : Files) (toks : List String)
    (hfit : ∀ c, benchMain (fun f => (fs f).isSome) toks = .ok (some c) → BenchFits N fs c)
    (text : List Char) (r : Res Unit) (h : RunBench L fs toks text r) : Orderly r := by
  have hN0 : 0 < N := by omega
  rcases (C58_bench (fun f => (fs f).isSome) toks).2 with hm | ⟨c, k, items, -, hf, hm⟩
  · cases h with
    | done h1 => rw [hm] at h1; cases h1
    | fails h1 => rw [hm] at h1; cases h1
    | usage => exact .die
    | bad h1 => rw [hm] at h1; cases h1
  · cases h with
    | done => exact .ok _
    | usage => exact .die
    | bad h1 => rw [hm] at h1; cases h1
    | fails h1 h2 =>
      rw [hm] at h1
      cases h1
      have hfit := hfit _ hm
      have key : ∀ x, BenchExec L fs (benchVerbose toks) (c.call items) x → Tidy x fun _ => True := by
        intro x hx
        cases c with
        | plain =>
          cases hx with
          | plain => exact plain_tidy fs _ _ (num_positive hf (n := "--out-freq") (by decide) (by decide)).1 _
        | offline =>
          cases hx with
          | offline q q' rand => exact offline_tidy _ hN0 _ rand fs _ _ (num_positive hf (n := "--bootstrapping-freq") (by decide) (by decide)).1 _ _
        | reversed =>
          cases hx with
          | reversed q q' rand =>
            unfold logReversed
            refine (Tidy.print _ _).bind fun _ _ => (Tidy.print _ _).bind fun _ _ => (Tidy.print _ _).bind fun _ _ => (Tidy.print _ _).bind fun _ _ =>
              (Tidy.print _ _).bind fun _ _ => (Tidy.print _ _).bind fun _ _ => (Tidy.print _ _).bind fun _ _ => Tidy.logKeys.bind fun _ _ =>
              (tidy_online (num_positive hf (n := "--out-freq") (by decide) (by decide)).1 (evalOut_res _ _) resultOut_res fun b g _ _ hg =>
                reverse_serves _ hN0 hg (num_positive hf (n := "--bootstrapping-freq") (by decide) (by decide)).1 _ _).bind fun _ _ => .pure trivial
        | qtrlwe2 =>
          cases hx with
          | flut q q' rand =>
            obtain ⟨f1, f2, f3⟩ := hfit
            unfold logFlut
            refine (Tidy.print _ _).bind fun _ _ => (Tidy.print _ _).bind fun _ _ => (Tidy.print _ _).bind fun _ _ => (Tidy.print _ _).bind fun _ _ =>
              (Tidy.print _ _).bind fun _ _ => (Tidy.print _ _).bind fun _ _ => (Tidy.print _ _).bind fun _ _ => (Tidy.print _ _).bind fun _ _ =>
              (Tidy.print _ _).bind fun _ _ => Tidy.logKeys.bind fun _ _ =>
              (tidy_online (num_positive hf (n := "--out-freq") (by decide) (by decide)).1 (fun _ _ => rfl) (fun _ => rfl) fun b g _ _ hg =>
                flut_serves _ hg hl (num_positive hf (n := "--queue-size") (by decide) (by decide)).1 f1 f2 f3
                  (num_positive hf (n := "--bootstrapping-freq") (by decide) (by decide)).1 _).bind fun _ _ => .pure trivial
        | bbs =>
          cases hx with
          | block q q' rand =>
            unfold logBlock
            refine (Tidy.print _ _).bind fun _ _ => (Tidy.print _ _).bind fun _ _ => (Tidy.print _ _).bind fun _ _ => (Tidy.print _ _).bind fun _ _ =>
              (Tidy.print _ _).bind fun _ _ => (Tidy.print _ _).bind fun _ _ => (Tidy.print _ _).bind fun _ _ => Tidy.logKeys.bind fun _ _ =>
              (tidy_online (num_positive hf (n := "--out-freq") (by decide) (by decide)).1 (fun _ _ => rfl) (fun _ => rfl) fun b g h1 h2 hg =>
                block_serves _ hg (hfit b g h1 h2) hN _ _).bind fun _ _ => .pure trivial
      exact fun e he => by cases he; exact (key _ h2).1 _ rfl

/-- **C97.** And it does end: there is a run. -/
theorem C97_some_end (L : Lib N n l) (fs : Files) (toks : List String) : ∃ text r, RunBench L fs toks text r := by
  cases hm : benchMain (fun f => (fs f).isSome) toks with
  | error e => exact ⟨_, _, .bad hm⟩
  | ok o =>
    cases o with
    | none => exact ⟨_, _, .usage hm⟩
    | some c =>
      have hex : ∃ x, BenchExec L fs (benchVerbose toks) c x := by
        rcases (C58_bench (fun f => (fs f).isSome) toks).2 with hm' | ⟨c', k, items, -, hf, hm'⟩
        · rw [hm] at hm'; cases hm'
        · rw [hm] at hm'
          cases hm'
          cases c' with
          | plain => exact ⟨_, .plain⟩
          | offline => exact ⟨_, .offline 0 0 id⟩
          | reversed => exact ⟨_, .reversed 0 0 id⟩
          | qtrlwe2 => exact ⟨_, .flut 0 0 id⟩
          | bbs => exact ⟨_, .block 0 0 id⟩
      obtain ⟨⟨rows, e | timer⟩, hx⟩ := hex
      · obtain ⟨errs, he⟩ := dieRows_exists e
        obtain ⟨text, ht⟩ := shows_exists (⟨"time", .date⟩ :: rows ++ errs)
        exact ⟨_, _, .fails hm hx he ht⟩
      · obtain ⟨text, ht⟩ := shows_exists (⟨"time", .date⟩ :: rows)
        have hs : ((timer.map fun p => (⟨p.1, BitVec.ofNat 64 p.2, 0⟩ : Sample)).map Sample.time).sum < 2 ^ 63 := by
          rw [List.map_map]
          have : (List.map (Sample.time ∘ fun p : Target × Nat => (⟨p.1, BitVec.ofNat 64 p.2, 0⟩ : Sample)) timer).sum = 0 := by
            apply List.sum_eq_zero
            intro x hx
            obtain ⟨p, _, rfl⟩ := List.mem_map.1 hx
            rfl
          omega
        obtain ⟨es, he, _⟩ := Timeit.summarize_ok _ (samples_time hs)
        exact ⟨_, _, .done hm hx ht (samples := timer.map fun p => ⟨p.1, BitVec.ofNat 64 p.2, 0⟩) (by rw [List.map_map]; rfl) hs
          ⟨es, es, he, .refl _, rfl⟩⟩

variable {L : Lib N n l} {δ : Noise} {Enc : L.Key → Gsw l N → Bool → Prop}

/-- **C97**, `benchmark qtrlwe2` on an automaton with too many live states: let input `i` be the first one at which a block is evaluated after
which 2^`--max-second-lut-depth` states or more can be reached.  Then the program prints everything about the inputs before `i`, with the right
results, and stops with an error message in the evaluation of input `i`. -/
theorem C97_qtrlwe2_stops (hL : L.Sound δ Enc) (fs : Files) (k : Nat) (items : List Item)
    (hf : BenchCmd.qtrlwe2.usage.Follows (fun f => (fs f).isSome) items) (hsan : has items "--sanitize-result" = false)
    {g : Graph} {w : List Bool} (hr : Readable fs items g w) {skip : List (List Char)} (hskip : SkipsIn fs items skip)
    {W : Nat} (hW : LiveMax g W)
    (hq31 : num items "--queue-size" < 31) (hd31 : num items "--max-second-lut-depth" < 31) (hdN : 2 ^ num items "--max-second-lut-depth" ≤ N)
    (hbud : W * 2 ^ (num items "--queue-size" / 2) * flutErr δ W (num items "--queue-size") (num items "--bootstrapping-freq" - 1) +
      num items "--queue-size" * δ.cmux + δ.ks + δ.ms < 2 ^ 30)
    {v : Nat → Bool} (hv : ∀ i ≤ w.length, g.accepts (w.take i) = .ok (v i))
    (i : Nat) (hi : i < w.length) (heval : pending (num items "--out-freq") (num items "--queue-size") (i + 1) = 0)
    (hmany : 2 ^ num items "--max-second-lut-depth" ≤ liveCount g (i + 1))
    (hfirst : ∀ j < i, pending (num items "--out-freq") (num items "--queue-size") (j + 1) = 0 →
      liveCount g (j + 1) < 2 ^ num items "--max-second-lut-depth") :
    AlwaysStops L fs (List.replicate k "--verbose" ++ "qtrlwe2" :: line items)
      ([⟨"time", .date⟩, ⟨"config-method", .str "qtrlwe2"⟩, ⟨"config-spec", .str (opt items "--spec")⟩,
        ⟨"config-input", .str (opt items "--in")⟩, ⟨"config-output_freq", .num (num items "--out-freq")⟩,
        ⟨"config-max_second_lut_depth", .num (num items "--max-second-lut-depth")⟩, ⟨"config-queue_size", .num (num items "--queue-size")⟩,
        ⟨"config-bootstrapping_freq", .num (num items "--bootstrapping-freq")⟩, ⟨"config-num_ap", .num (num items "--ap")⟩,
        ⟨"config-sanitize_result", .num 0⟩, ⟨"skey", .time⟩, ⟨"bkey", .time⟩] ++ skipNotes skip ++
        [⟨"init", .time⟩, ⟨"config-spec_num_states", .num g.size⟩, ⟨"config-input_size", .num w.length⟩] ++
        (List.range i).flatMap (bitRows (num items "--out-freq")
          (fun i => flutInfo g (num items "--out-freq") (num items "--queue-size") (num items "--max-second-lut-depth") i ++
            flutNotes (0 < k) g (num items "--out-freq") (num items "--queue-size") (num items "--max-second-lut-depth") i) v) ++
        ⟨"enc", .time⟩ :: flutInfo g (num items "--out-freq") (num items "--queue-size") (num items "--max-second-lut-depth") i ++
        liveNotes (0 < k) g (num items "--out-freq") (num items "--queue-size") i) := by
  obtain ⟨⟨sb, hs1, hs2⟩, hsz, ⟨rs, hi1, hi2, rfl⟩⟩ := hr
  have hg := wf_of_fromIstream hs2 hsz
  obtain ⟨lines, hl, hk⟩ := hskip sb hs1
  have hread := readSpecOut_ok hs1 hs2 hl hk
  have hverb : benchVerbose (List.replicate k "--verbose" ++ "qtrlwe2" :: line items) = decide (0 < k) := benchVerbose_replicate k .qtrlwe2 _
  have hap := num_positive hf (n := "--ap") (by decide) (by decide)
  have hfr := num_positive hf (n := "--out-freq") (by decide) (by decide)
  have hqs := num_positive hf (n := "--queue-size") (by decide) (by decide)
  have hbt := num_positive hf (n := "--bootstrapping-freq") (by decide) (by decide)
  have hm : benchMain (fun f => (fs f).isSome) (List.replicate k "--verbose" ++ "qtrlwe2" :: line items) = .ok (some (BenchCmd.qtrlwe2.call items)) :=
    (C58_bench (fun f => (fs f).isSome) _).1 .qtrlwe2 k items rfl hf
  refine ⟨C97_some_end L fs _, ?_⟩
  have key : ∀ x, BenchExec L fs (decide (0 < k)) (BenchCmd.qtrlwe2.call items) x → x = ⟨[⟨"config-method", .str "qtrlwe2"⟩, ⟨"config-spec", .str (opt items "--spec")⟩,
        ⟨"config-input", .str (opt items "--in")⟩, ⟨"config-output_freq", .num (num items "--out-freq")⟩,
        ⟨"config-max_second_lut_depth", .num (num items "--max-second-lut-depth")⟩, ⟨"config-queue_size", .num (num items "--queue-size")⟩,
        ⟨"config-bootstrapping_freq", .num (num items "--bootstrapping-freq")⟩, ⟨"config-num_ap", .num (num items "--ap")⟩,
        ⟨"config-sanitize_result", .num 0⟩, ⟨"skey", .time⟩, ⟨"bkey", .time⟩] ++ skipNotes skip ++
        [⟨"init", .time⟩, ⟨"config-spec_num_states", .num g.size⟩, ⟨"config-input_size", .num (rs.flatMap (recordBits (num items "--ap"))).length⟩] ++
        (List.range i).flatMap (bitRows (num items "--out-freq")
          (fun i => flutInfo g (num items "--out-freq") (num items "--queue-size") (num items "--max-second-lut-depth") i ++
            flutNotes (0 < k) g (num items "--out-freq") (num items "--queue-size") (num items "--max-second-lut-depth") i) v) ++
        ⟨"enc", .time⟩ :: flutInfo g (num items "--out-freq") (num items "--queue-size") (num items "--max-second-lut-depth") i ++
        liveNotes (0 < k) g (num items "--out-freq") (num items "--queue-size") i, .error .die⟩ := by
    intro x hx
    unfold BenchCmd.call at hx
    rw [hsan] at hx
    cases hx with
    | flut q q' rand =>
    have hS := hL.pair q q'
    change (L.process (L.newKey q) (L.newBKey q' (L.newKey q))).Sound δ _ at hS
    generalize L.process (L.newKey q) (L.newBKey q' (L.newKey q)) = S at hS
    obtain ⟨r0, h1, h2⟩ := finv_make (N := N) (l := l) (S := S) (δ := δ) (Enc := Enc (L.newKey q)) hg (num items "--max-second-lut-depth")
      (num items "--queue-size") (num items "--bootstrapping-freq") W hq31
    have hp0 : pending (num items "--out-freq") (num items "--queue-size") 0 = 0 := by simp [pending]
    have he0 : evaluated (num items "--out-freq") (num items "--queue-size") 0 = 0 := by simp [evaluated]
    have hsplit : r0.first = 0 ∧ r0.second = 0 := by
      unfold Flut.make at h1
      rw [if_neg (by simp)] at h1
      obtain ⟨_, _, h1⟩ := Res.bind_eq_ok.1 h1
      obtain ⟨_, _, h1⟩ := Res.bind_eq_ok.1 h1
      cases h1
      exact ⟨rfl, rfl⟩
    have hloop := fold_stops (logTurn S rand (fun r c => Flut.evalOneOut (decide (0 < k)) S r c) (fun r => Flut.resultOut (decide (0 < k)) S r)
        (fun r => [⟨"num_live_states", .num r.live.length⟩, ⟨"first_lut_depth", .num r.first⟩, ⟨"second_lut_depth", .num r.second⟩])
        (num items "--out-freq"))
      (rs.flatMap (recordBits (num items "--ap")))
      (fun i s => s.2 = i ∧ FlutLoop S δ (Enc (L.newKey q)) g (num items "--out-freq") (num items "--max-second-lut-depth") (num items "--queue-size")
        (num items "--bootstrapping-freq") W (rs.flatMap (recordBits (num items "--ap"))) i s.1)
      (bitRows (num items "--out-freq") (fun i => flutInfo g (num items "--out-freq") (num items "--queue-size") (num items "--max-second-lut-depth") i ++
        flutNotes (0 < k) g (num items "--out-freq") (num items "--queue-size") (num items "--max-second-lut-depth") i) v) i hi
      (last := ⟨"enc", .time⟩ :: flutInfo g (num items "--out-freq") (num items "--queue-size") (num items "--max-second-lut-depth") i ++
        liveNotes (0 < k) g (num items "--out-freq") (num items "--queue-size") i) (e := .die)
      (by
        rintro j hj ⟨r, _⟩ ⟨rfl, h⟩
        obtain ⟨r', e1, e2⟩ := flut_turn hS hg hfr.1 hqs.1 (hW.level hg) hq31 hd31 hdN hbt.1 hbud rand hv (Nat.lt_trans hj hi) (hfirst _ hj) (decide (0 < k)) h
        exact ⟨_, e1, rfl, e2⟩)
      (by
        rintro ⟨r, _⟩ ⟨rfl, h⟩
        exact flut_turn_dies hS hg hfr.1 hqs.1 (hW.level hg) hq31 hd31 hdN hbt.1 hbud rand hi heval hmany (decide (0 < k)) h)
      (r0, 0) ⟨rfl, ⟨⟨[], [], h2, by simp, by rw [hp0]; rfl⟩, by
        have : lastBlock (num items "--out-freq") (num items "--queue-size") 0 = 0 := by unfold lastBlock; rw [he0, if_pos rfl]
        rw [this]
        exact ⟨by rw [hsplit.2]; simp, by rw [hsplit.1]; simp⟩⟩⟩
    have honline : logOnline S rand fs (opt items "--spec") (opt items "--in") (num items "--out-freq") (num items "--ap")
        (fun gr => Flut.make gr (num items "--max-second-lut-depth") (num items "--queue-size") (num items "--bootstrapping-freq") false) Flut.graph
        (fun r c => Flut.evalOneOut (decide (0 < k)) S r c) (fun r => Flut.resultOut (decide (0 < k)) S r)
        (fun r => [⟨"num_live_states", .num r.live.length⟩, ⟨"first_lut_depth", .num r.first⟩, ⟨"second_lut_depth", .num r.second⟩]) =
        ⟨skipNotes skip ++ [⟨"init", .time⟩, ⟨"config-spec_num_states", .num g.size⟩,
          ⟨"config-input_size", .num (rs.flatMap (recordBits (num items "--ap"))).length⟩] ++
          ((List.range i).flatMap (bitRows (num items "--out-freq")
            (fun i => flutInfo g (num items "--out-freq") (num items "--queue-size") (num items "--max-second-lut-depth") i ++
              flutNotes (0 < k) g (num items "--out-freq") (num items "--queue-size") (num items "--max-second-lut-depth") i) v) ++
          (⟨"enc", .time⟩ :: flutInfo g (num items "--out-freq") (num items "--queue-size") (num items "--max-second-lut-depth") i ++
            liveNotes (0 < k) g (num items "--out-freq") (num items "--queue-size") i)), .error .die⟩ := by
      unfold logOnline
      rw [elapsed_ok (rows := skipNotes skip) (a := r0) "init" (by rw [hread, out_ok]; beta_reduce; rw [h1]; simp [quiet]), out_ok, print_bind]
      dsimp only
      rw [hi1, inputSize_records hap.1 hi2, quiet_bind, print_bind]
      dsimp only
      rw [eachOut_records hap.1 hi2, hloop, out_error, h2.graph]
      simp
    unfold logFlut
    simp only [print_bind, logKeys_bind, honline, out_error, List.cons_append, List.append_assoc, List.nil_append, Bool.toNat_false]
  intro text r hrun
  cases hrun with
  | done h1 h2 =>
    rw [hm] at h1
    cases h1
    rw [hverb] at h2
    have := key _ h2
    cases this
  | fails h1 h2 he h3 =>
    rw [hm] at h1
    cases h1
    rw [hverb] at h2
    have := key _ h2
    cases this
    cases he with
    | die message trace => exact ⟨rfl, message, trace, by simpa using h3⟩
    | other h => exact absurd rfl h
  | usage h1 => rw [hm] at h1; cases h1
  | bad h1 => rw [hm] at h1; cases h1

/-- **C97.** The condition on `qtrlwe2` cannot be dropped: with a queue of 31 or more bits, on any spec with states, the constructor tries to
build a table of 2^64 - 2^31 entries for every state and throws; only the settings have been printed by then. -/
theorem C97_qtrlwe2_wide_queue (L : Lib N n l) (fs : Files) (k : Nat) (items : List Item)
    (hf : BenchCmd.qtrlwe2.usage.Follows (fun f => (fs f).isSome) items) (hsan : has items "--sanitize-result" = false)
    {g : Graph} {sb : List Byte} (hs : fs (opt items "--spec") = some sb) (hg : Graph.fromIstream (textOf sb) = .ok g) (hg0 : 0 < g.size)
    (hq : 31 ≤ num items "--queue-size") : AlwaysFails L fs (List.replicate k "--verbose" ++ "qtrlwe2" :: line items) .noMem := by
  refine alwaysFails_of ((C58_bench _ _).1 .qtrlwe2 k items rfl hf) ⟨_, .flut 0 0 id⟩ fun x hx => ?_
  unfold BenchCmd.call at hx
  rw [hsan] at hx
  cases hx
  unfold logFlut
  simp only [print_bind, logKeys_bind]
  obtain ⟨skip, hk⟩ := skips_exists (getlines '\n' (textOf sb))
  rw [logOnline_make_fails (readSpecOut_ok hs hg (textLines_iff.2 rfl) hk) (flut_make_wide (wf_of_fromIstream hg hg0) _ _ hq), out_error]
  have hkeys : ∀ row ∈ skipNotes skip, row.key ∉ ["enc", "run", "dec", "state", "result"] := fun row h => by rw [skipNotes_key skip row h]; decide
  exact ⟨rfl, by simpa using hkeys⟩

/-! ## The hypotheses are met -/

/-- the files of `exFiles` with an automaton that counts the ones modulo 8 -/
def wideFiles : Files := fun f =>
  if f = "a.spec" then
    some (">0*\t0\t1\n1\t1\t2\n2\t2\t3\n3\t3\t4\n4\t4\t5\n5\t5\t6\n6\t6\t7\n7\t7\t0\n".toList.map fun c => BitVec.ofNat 8 c.toNat)
  else exFiles f

def wideG : Graph := match wideFiles "a.spec" with
  | none => emptyGraph
  | some b => match Graph.fromIstream (textOf b) with
    | .ok g => g
    | .error _ => emptyGraph

theorem wideG_read : ∃ b, wideFiles "a.spec" = some b ∧ Graph.fromIstream (textOf b) = .ok wideG ∧ wideG.WF ∧ wideG.size = 8 := by
  obtain ⟨b, hb⟩ : ∃ b, wideFiles "a.spec" = some b := ⟨_, rfl⟩
  have hp : ((wideFiles "a.spec").elim (.error .die) fun b => doRunPlain (textOf b) (some []) 5) = .ok ['1'] := by decide +kernel
  have hs : wideG.size = 8 := by decide +kernel
  rw [hb] at hp
  obtain ⟨g', _, _, h1, h2, _⟩ := plain_ok (by omega) hp
  have : wideG = g' := by
    unfold wideG
    rw [hb]
    dsimp only
    rw [h1]
  subst this
  exact ⟨b, hb, h1, h2, hs⟩

/-- no line of this spec is skipped -/
theorem wideSkips : SkipsIn wideFiles (exItems .qtrlwe2) [] := by
  intro sb hs
  have : wideFiles (opt (exItems .qtrlwe2) "--spec") =
    some (">0*\t0\t1\n1\t1\t2\n2\t2\t3\n3\t3\t4\n4\t4\t5\n5\t5\t6\n6\t6\t7\n7\t7\t0\n".toList.map fun c => BitVec.ofNat 8 c.toNat) := by decide
  rw [this] at hs
  cases hs
  refine ⟨_, textLines_iff.2 rfl, ?_⟩
  have hall : ∀ l ∈ getlines '\n' (textOf (">0*\t0\t1\n1\t1\t2\n2\t2\t3\n3\t3\t4\n4\t4\t5\n5\t5\t6\n6\t6\t7\n7\t7\t0\n".toList.map
    fun c => BitVec.ofNat 8 c.toNat)), (matchSpecLine l).isSome = true := by decide +kernel
  generalize getlines '\n' (textOf (List.map (fun c : Char => BitVec.ofNat 8 c.toNat) _)) = lines at hall ⊢
  induction lines with
  | nil => exact .nil
  | cons l lines ih =>
    refine .state (fun h => ?_) (ih fun l hl => hall l (by simp [hl]))
    have := hall l (by simp)
    rw [matchSpecLine_none.2 h] at this
    cases this

/-- `qtrlwe2 --verbose` with tables of depth 3 on 15 inputs: after 3 and 4 inputs 4 and 5 states can be reached, after 7 inputs 8; so the program stops at
the seventh input, after one result. -/
example : ∃ L : Lib 16 2 1, AlwaysStops L wideFiles ("--verbose" :: "qtrlwe2" :: line (exItems .qtrlwe2))
    ([⟨"time", .date⟩, ⟨"config-method", .str "qtrlwe2"⟩, ⟨"config-spec", .str "a.spec"⟩, ⟨"config-input", .str "in"⟩,
      ⟨"config-output_freq", .num 4⟩, ⟨"config-max_second_lut_depth", .num 3⟩, ⟨"config-queue_size", .num 3⟩,
      ⟨"config-bootstrapping_freq", .num 2⟩, ⟨"config-num_ap", .num 5⟩, ⟨"config-sanitize_result", .num 0⟩, ⟨"skey", .time⟩, ⟨"bkey", .time⟩,
      ⟨"init", .time⟩, ⟨"config-spec_num_states", .num 8⟩, ⟨"config-input_size", .num 15⟩] ++
      (List.replicate 2 [⟨"enc", .time⟩, ⟨"num_live_states", .num 1⟩, ⟨"first_lut_depth", .num 0⟩, ⟨"second_lut_depth", .num 0⟩, ⟨"run", .time⟩]).flatten ++
      [⟨"enc", .time⟩, ⟨"num_live_states", .num 1⟩, ⟨"first_lut_depth", .num 0⟩, ⟨"second_lut_depth", .num 0⟩,
        ⟨"debug", .message "live states: 1".toList⟩, ⟨"debug", .message "next live states: 4".toList⟩, ⟨"debug", .message "LUT 2 + 1 = 3".toList⟩,
        ⟨"run", .time⟩] ++
      [⟨"enc", .time⟩, ⟨"num_live_states", .num 4⟩, ⟨"first_lut_depth", .num 2⟩, ⟨"second_lut_depth", .num 1⟩,
        ⟨"debug", .message "live states: 4".toList⟩, ⟨"debug", .message "next live states: 5".toList⟩, ⟨"debug", .message "LUT 1 + 0 = 1".toList⟩,
        ⟨"run", .time⟩, ⟨"dec", .time⟩, ⟨"result", .num 0⟩] ++
      (List.replicate 2 [⟨"enc", .time⟩, ⟨"num_live_states", .num 5⟩, ⟨"first_lut_depth", .num 1⟩, ⟨"second_lut_depth", .num 0⟩, ⟨"run", .time⟩]).flatten ++
      [⟨"enc", .time⟩, ⟨"num_live_states", .num 5⟩, ⟨"first_lut_depth", .num 1⟩, ⟨"second_lut_depth", .num 0⟩,
        ⟨"debug", .message "live states: 5".toList⟩, ⟨"debug", .message "next live states: 8".toList⟩]) := by
  obtain ⟨φ, hφ⟩ := exists_numbering 16
  obtain ⟨b, hb, hread, hw, hs⟩ := wideG_read
  have hex : (fun f => (wideFiles f).isSome) = fun f => (exFiles f).isSome := by
    funext f
    unfold wideFiles
    split
    · rename_i h; rw [h]; decide
    · rfl
  have hlive : ∀ d, liveCount wideG d = (wideG.levelSet [wideG.init] d).length := liveCount_eq hw
  have h := C97_qtrlwe2_stops (toyLib_sound (n := 2) (l := 1) (by omega) (by omega) hφ) wideFiles 1 (exItems .qtrlwe2)
    (by rw [hex]; exact exItems_follows .qtrlwe2) (by decide) (g := wideG) (w := exW)
    ⟨⟨b, hb, hread⟩, by rw [hs]; decide, [[0x1f#8], [0xe1#8], [0x10#8]], by decide, by decide, by decide⟩ wideSkips
    (liveMax_of_size hw) (by decide) (by decide) (by decide) (by rw [hs]; decide) (v := fun i => wideG.fin ((exW.take i).foldl wideG.nx wideG.init))
    (fun i _ => hw.accepts_eq _) 6 (by decide) (by decide) (by rw [hlive]; decide +kernel) (by simp only [hlive]; decide +kernel)
  refine ⟨toyLib 16 2 1 φ, ?_⟩
  convert h using 1
  · rfl
  rw [hs]
  unfold flutInfo flutNotes liveNotes
  simp only [hlive]
  decide +kernel

/-- Each of the five methods, on any two files whatever as spec and input. -/
example (L : Lib 32 2 1) (c : BenchCmd) (spec input : List Byte) (hspec : ∀ g, Graph.fromIstream (textOf spec) = .ok g → g.size < 2 ^ 30)
    (text : List Char) (r : Res Unit) :
    RunBench L (fun f => if f = "a.spec" then some spec else if f = "in" then some input else none) (c.name :: line (exItems c)) text r → Orderly r := by
  refine C97_ends_orderly L (by decide) (by decide) _ _ (fun c' hc' => ?_) text r
  have hex : (fun f : String => (if f = "a.spec" then some spec else if f = "in" then some input else none).isSome) = fun f => (exFiles f).isSome := by
    funext f
    unfold exFiles
    split
    · rfl
    · split <;> rfl
  have hm : benchMain (fun f => (exFiles f).isSome) (c.name :: line (exItems c)) = .ok (some (c.call (exItems c))) :=
    (C58_bench _ _).1 c 0 (exItems c) rfl (exItems_follows c)
  rw [hex, hm] at hc'
  cases hc'
  cases c with
  | bbs => exact fun b g h1 h2 => hspec g (by cases (Option.some.inj h1 : spec = b); exact h2)
  | qtrlwe2 => exact ⟨by decide, by decide, by decide⟩
  | plain => trivial
  | offline => trivial
  | reversed => trivial

/-- the options of `qtrlwe2` with a queue of 40 bits -/
def wideItems : List Item :=
  [.opt "--ap" "5", .opt "--spec" "a.spec", .opt "--in" "in", .opt "--out-freq" "4", .opt "--queue-size" "40", .opt "--bootstrapping-freq" "2",
    .opt "--max-second-lut-depth" "3"]

example (L : Lib 16 2 1) : AlwaysFails L wideFiles ("qtrlwe2" :: line wideItems) .noMem := by
  obtain ⟨b, hb, hread, hw, hs⟩ := wideG_read
  have hex : (fun f => (wideFiles f).isSome) = fun f => (exFiles f).isSome := by
    funext f
    unfold wideFiles
    split
    · rename_i h; rw [h]; decide
    · rfl
  have h0 := exItems_follows .qtrlwe2
  refine C97_qtrlwe2_wide_queue L wideFiles 0 wideItems ?_ (by decide) hb hread (by rw [hs]; decide) (by decide)
  rw [hex]
  constructor
  · intro m v h
    by_cases hq : (Item.opt m v) = .opt "--queue-size" "40"
    · cases hq
      exact ⟨.positive, of_decide_eq_true rfl, by decide, 40, ⟨by decide, by decide⟩, by decide⟩
    · refine h0.known m v ?_
      simp only [wideItems, List.mem_cons, hq, List.not_mem_nil, or_false, false_or] at h
      simp only [exItems, List.mem_append, List.mem_cons]
      rcases h with h | h | h | h | h | h <;> simp [h]
  · exact h0.once
  · intro m k h
    obtain ⟨v, hv⟩ := h0.all m k h
    by_cases hm : m = "--queue-size"
    · exact ⟨"40", by subst hm; decide⟩
    · refine ⟨v, ?_⟩
      simp [exItems] at hv
      simp [wideItems]
      tauto
  · intro m h
    simp [wideItems] at h
  · exact h0.enough
  · exact h0.notMore
  · intro i v k h
    simp [wideItems, args] at h

end Homfa.Cli
