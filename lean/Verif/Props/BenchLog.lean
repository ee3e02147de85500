import Verif.Proof.BenchRun
import Verif.Props.Bench
import Verif.Props.Cli
import Verif.Props.Minimize
import Verif.Proof.Pipeline

/-!
# C77: what the benchmark program prints

The whole output of a run of `benchmark`, from its command line to the dump of its timer.  Log messages come in between: one for each line of
the spec that is skipped, and with `--verbose` some about the evaluation.
-/

namespace Homfa.Cli

variable {N n l : Nat} {L : Lib N n l} {δ : Noise} {Enc : L.Key → Gsw l N → Bool → Prop}

/-- **C77**, `benchmark plain`: the settings, for each input the state it leads to, and after every `--out-freq` inputs whether they are
accepted. -/
theorem C77_plain (L : Lib N n l) (fs : Files) (k : Nat) (items : List Item) (hf : BenchCmd.plain.usage.Follows (fun f => (fs f).isSome) items)
    {g : Graph} {w : List Bool} (hr : Readable fs items g w) {skip : List (List Char)} (hskip : SkipsIn fs items skip) {st : Nat → Nat} {v : Nat → Bool}
    (hst : ∀ i ≤ w.length, g.runWord g.initialState (w.take i) = .ok (st i)) (hv : ∀ i ≤ w.length, g.accepts (w.take i) = .ok (v i)) :
    AlwaysLogs L fs (List.replicate k "--verbose" ++ "plain" :: line items)
      ([⟨"time", .date⟩, ⟨"config-method", .str "plain"⟩, ⟨"config-spec", .str (opt items "--spec")⟩, ⟨"config-input", .str (opt items "--in")⟩,
        ⟨"config-num_ap", .num (num items "--ap")⟩] ++ skipNotes skip ++
        [⟨"config-spec_num_states", .num g.size⟩, ⟨"config-input_size", .num w.length⟩] ++
        (List.range w.length).flatMap (plainRows (num items "--out-freq") st v)) [] := by
  obtain ⟨⟨sb, hs1, hs2⟩, hsz, ⟨rs, hi1, hi2, rfl⟩⟩ := hr
  have hg := wf_of_fromIstream hs2 hsz
  obtain ⟨lines, hl, hk⟩ := hskip sb hs1
  have hread := readSpecOut_ok hs1 hs2 hl hk
  have hap := num_positive hf (n := "--ap") (by decide) (by decide)
  have hfr := num_positive hf (n := "--out-freq") (by decide) (by decide)
  refine alwaysLogs_of ((C58_bench _ _).1 .plain k items rfl hf) ⟨_, .plain⟩ ?_
  intro x hx
  rw [show benchVerbose (List.replicate k "--verbose" ++ "plain" :: line items) = decide (0 < k) from benchVerbose_replicate k .plain _] at hx
  cases hx
  refine ⟨[], ?_, by simp, by decide⟩
  obtain ⟨s', k1, _⟩ := fold_log (logPlainTurn g (num items "--out-freq")) _ (fun i s => s = (st i, i)) _ (by
    rintro i hi s rfl
    exact ⟨_, plain_turn hg hfr.1 hst hv hi, rfl⟩) (g.initialState, 0) (by
      have := hst 0 (Nat.zero_le _)
      rw [List.take_zero] at this
      have := Except.ok.inj this
      rw [← this])
  unfold logPlain
  simp only [print_bind, hread, quiet_bind, out_ok, hi1, inputSize_records hap.1 hi2, eachOut_records hap.1 hi2, k1]
  simp [out_pure]

/-- **C77**, `benchmark offline`: the settings, the time each step took, and at the end whether the inputs are accepted; but 0 if there are
none. -/
theorem C77_offline (hL : L.Sound δ Enc) (hN : 0 < N) (fs : Files) (k : Nat) (items : List Item)
    (hf : BenchCmd.offline.usage.Follows (fun f => (fs f).isSome) items) (hsan : has items "--sanitize-result" = false)
    {g : Graph} {w : List Bool} (hr : Readable fs items g w) {skip : List (List Char)} (hskip : SkipsIn fs items skip) (hbud : δ.br + num items "--bootstrapping-freq" * δ.cmux + δ.ks + δ.ms < 2 ^ 30)
    (h31 : w.length < 2 ^ 31) {b : Bool} (hb : g.accepts w = .ok b) :
    AlwaysLogs L fs (List.replicate k "--verbose" ++ "offline" :: line items)
      ([⟨"time", .date⟩, ⟨"config-method", .str "offline"⟩, ⟨"config-spec", .str (opt items "--spec")⟩,
        ⟨"config-input", .str (opt items "--in")⟩, ⟨"config-bootstrapping_freq", .num (num items "--bootstrapping-freq")⟩,
        ⟨"config-num_ap", .num (num items "--ap")⟩, ⟨"config-sanitize_result", .num 0⟩, ⟨"skey", .time⟩, ⟨"bkey", .time⟩] ++ skipNotes skip ++
        [⟨"init", .time⟩, ⟨"config-spec_num_states", .num g.size⟩, ⟨"config-input_size", .num w.length⟩] ++
        (List.range w.length).flatMap (fun i =>
          [⟨"enc", .time⟩] ++ bootNote (0 < k) (num items "--bootstrapping-freq") i ++ [⟨"run", .time⟩]) ++
        [⟨"dec", .time⟩, ⟨"result", .num (if w = [] then 0 else b.toNat)⟩]) [] := by
  obtain ⟨⟨sb, hs1, hs2⟩, hsz, ⟨rs, hi1, hi2, rfl⟩⟩ := hr
  have hg := wf_of_fromIstream hs2 hsz
  obtain ⟨lines, hl, hk⟩ := hskip sb hs1
  have hread := readSpecOut_ok hs1 hs2 hl hk
  have hap := num_positive hf (n := "--ap") (by decide) (by decide)
  have hbt := num_positive hf (n := "--bootstrapping-freq") (by decide) (by decide)
  refine alwaysLogs_of ((C58_bench _ _).1 .offline k items rfl hf) ⟨_, .offline 0 0 id⟩ ?_
  intro x hx
  rw [show benchVerbose (List.replicate k "--verbose" ++ "offline" :: line items) = decide (0 < k) from benchVerbose_replicate k .offline _] at hx
  unfold BenchCmd.call at hx
  rw [hsan] at hx
  cases hx with
  | offline q q' rand =>
  have hS := hL.pair q q'
  change (L.process (L.newKey q) (L.newBKey q' (L.newKey q))).Sound δ _ at hS
  generalize L.process (L.newKey q) (L.newBKey q' (L.newKey q)) = S at hS
  refine ⟨[], ?_, by simp, by decide⟩
  have hbits : eachInputBit (some rs.flatten) (num items "--ap") (fun (s : List Bool) b => .ok (s ++ [b])) [] =
      .ok (rs.flatMap (recordBits (num items "--ap"))) := by
    rw [C19_records _ hap.1 rs hi2, bits_fold, List.nil_append]
  generalize rs.flatMap (recordBits (num items "--ap")) = w at *
  have henc : ∀ (w : List Bool) (k : Nat), List.Forall₂ (Enc (L.newKey q)) ((w.zipIdx k).map fun p => S.encrypt (rand p.2) p.1) w := by
    intro w
    induction w with
    | nil => intro k; exact .nil
    | cons b w ih => intro k; exact .cons (hS.encrypt _ _) (ih (k + 1))
  obtain ⟨r, r', c, o1, o2, o3, o4⟩ := C28_offline_decides hS hN g hg _ hbt.1 w _ (henc w.reverse 0) (by
      have : min (num items "--bootstrapping-freq") w.length * δ.cmux ≤ num items "--bootstrapping-freq" * δ.cmux :=
        Nat.mul_le_mul_right _ (Nat.min_le_left _ _)
      omega) h31
  obtain ⟨r0, m1, m2, _, _, m5, m6, _⟩ := Backstream.make_ok (n := n) (l := l) hg hN (num items "--bootstrapping-freq") (some w.length)
  have m1 : offlineMake g w.length (num items "--bootstrapping-freq") true false = .ok r0 := m1
  rw [o1] at m1
  cases m1
  have hsize : r.graph.size = g.size := by rw [m2]; rfl
  obtain ⟨s, q1, q2, q3⟩ := benchOffline_fold (S := S) rand w.reverse 0 r r' ⟨fun _ => 0, 0⟩ c w.length (by simp) o2 o3
  have hlog := offline_log (S := S) (decide (0 < k)) rand _ 0 _ _ q1 m6 m5
  rw [List.length_zipIdx, List.length_reverse, ← List.range_eq_range'] at hlog
  have hres : (decryptBit s.2.1 S.sk).toNat = if w = [] then 0 else b.toNat := by
    by_cases hw : w = []
    · rw [if_pos hw, q3 (by simp [hw])]
      have : Near 0 ((⟨fun _ => 0, 0⟩ : TLWE N).phase S.sk.lvl1) (half false) := by
        have h0 : (⟨fun _ => 0, 0⟩ : TLWE N).phase S.sk.lvl1 = 0 := by simp [TLWE.phase]
        rw [h0]
        exact Near.refl _
      rw [C24_decrypts _ _ S.sk (this.mono (by omega))]
      rfl
    · rw [if_neg hw, q2 (by simpa using hw)]
      rw [hb] at o4
      rw [← Except.ok.inj o4]
  unfold logOffline logKeys
  have hinit : printElapsed "init" (readSpecOut fs (opt items "--spec") >>= fun gr =>
      quiet (offlineMake gr w.length (num items "--bootstrapping-freq") true false)) = ⟨skipNotes skip ++ [⟨"init", .time⟩], .ok r⟩ :=
    elapsed_ok (rows := skipNotes skip) (a := r) "init" (by rw [hread, out_ok, o1]; simp [quiet])
  have hdec : printElapsed "dec" (pure (decryptBit s.2.1 S.sk)) = ⟨[⟨"dec", .time⟩], .ok (decryptBit s.2.1 S.sk)⟩ :=
    elapsed_ok (rows := []) "dec" rfl
  simp only [print_bind, hi1, hbits, quiet_bind, hinit, out_ok, hsize, hlog, hdec, hres]
  simp [out_pure, out_ok, print]

/-- **C77**, `benchmark reversed`: the settings, the time each step took, and after every `--out-freq` inputs whether they are accepted.  The
number of states is that of a smallest automaton for the reversed language.  At the end the number of CMUX gates and of bootstrappings. -/
theorem C77_reversed (hL : L.Sound δ Enc) (hN : 0 < N) (fs : Files) (k : Nat) (items : List Item)
    (hf : BenchCmd.reversed.usage.Follows (fun f => (fs f).isSome) items) (hsan : has items "--sanitize-result" = false)
    {g : Graph} {w : List Bool} (hr : Readable fs items g w) {skip : List (List Char)} (hskip : SkipsIn fs items skip) (hbud : δ.br + num items "--bootstrapping-freq" * δ.cmux + δ.ks + δ.ms < 2 ^ 30)
    {v : Nat → Bool} (hv : ∀ i ≤ w.length, g.accepts (if has items "--spec-reversed" then (w.take i).reverse else w.take i) = .ok (v i))
    {states : Nat} (hst : if has items "--spec-reversed" then states = g.size else
      IsLeast {k | ∃ d : Spec.Dfa (Fin k), ∀ u, g.accepts u.reverse = .ok (d.accepts u)} states) :
    AlwaysLogs L fs (List.replicate k "--verbose" ++ "reversed" :: line items)
      ([⟨"time", .date⟩, ⟨"config-method", .str "reversed"⟩, ⟨"config-spec", .str (opt items "--spec")⟩,
        ⟨"config-input", .str (opt items "--in")⟩, ⟨"config-output_freq", .num (num items "--out-freq")⟩,
        ⟨"config-bootstrapping_freq", .num (num items "--bootstrapping-freq")⟩,
        ⟨"config-num_ap", .num (num items "--ap")⟩, ⟨"config-sanitize_result", .num 0⟩] ++
        onlineRows skip states w.length (num items "--out-freq") (bootNote (0 < k) (num items "--bootstrapping-freq")) v)
      (reversedTotals states w.length (num items "--bootstrapping-freq")) := by
  obtain ⟨⟨sb, hs1, hs2⟩, hsz, ⟨rs, hi1, hi2, rfl⟩⟩ := hr
  have hg := wf_of_fromIstream hs2 hsz
  obtain ⟨lines, hl, hk⟩ := hskip sb hs1
  have hread := readSpecOut_ok hs1 hs2 hl hk
  have hap := num_positive hf (n := "--ap") (by decide) (by decide)
  have hfr := num_positive hf (n := "--out-freq") (by decide) (by decide)
  have hbt := num_positive hf (n := "--bootstrapping-freq") (by decide) (by decide)
  refine alwaysLogs_of ((C58_bench _ _).1 .reversed k items rfl hf) ⟨_, .reversed 0 0 id⟩ ?_
  intro x hx
  rw [show benchVerbose (List.replicate k "--verbose" ++ "reversed" :: line items) = decide (0 < k) from benchVerbose_replicate k .reversed _] at hx
  unfold BenchCmd.call at hx
  rw [hsan] at hx
  cases hx with
  | reversed q q' rand =>
  have hS := hL.pair q q'
  change (L.process (L.newKey q) (L.newBKey q' (L.newKey q))).Sound δ _ at hS
  generalize L.process (L.newKey q) (L.newBKey q' (L.newKey q)) = S at hS
  -- the graph that is walked
  obtain ⟨m, m1, m2, m3, m4⟩ : ∃ m : Graph, m.WF ∧ m.size = states ∧
      (∀ i ≤ (rs.flatMap (recordBits (num items "--ap"))).length, m.accepts ((rs.flatMap (recordBits (num items "--ap"))).take i).reverse = .ok (v i)) ∧
      reverseMake (N := N) g (num items "--bootstrapping-freq") (has items "--spec-reversed") true false =
        Backstream.make m (num items "--bootstrapping-freq") none true false := by
    by_cases hrev : has items "--spec-reversed" = true
    · rw [if_pos hrev] at hst
      refine ⟨g, hg, hst.symm, fun i hi => ?_, ?_⟩
      · have := hv i hi
        rwa [if_pos hrev] at this
      · unfold reverseMake
        rw [if_pos hrev]
        rfl
    · rw [if_neg hrev] at hst
      obtain ⟨g1, a1, a2, a3⟩ := C03_reversed_language g hg
      obtain ⟨g2, b1, b2, b3⟩ := C04_minimized_language g1 a2
      refine ⟨g2, b2, ?_, fun i hi => ?_, ?_⟩
      · apply Nat.le_antisymm
        · obtain ⟨d, hd⟩ := hst.1
          exact C05_minimized_minimal g1 a2 g2 b1 states d (fun u => by rw [a3, hd])
        · refine hst.2 ?_
          obtain ⟨d, hd⟩ := exists_dfa b2
          exact ⟨d, fun u => by rw [← hd, b3, a3]⟩
      · have := hv i hi
        rw [if_neg hrev] at this
        rw [b3, a3, List.reverse_reverse, this]
      · unfold reverseMake
        rw [if_neg hrev, a1, Res.bind_ok, b1, Res.bind_ok]
  obtain ⟨r0, h1, h2, h3, h4, h5, h6, h7, _⟩ := Backstream.make_ok (n := n) (l := l) m1 hN (num items "--bootstrapping-freq") none
  have h2 : r0.graph = m := h2
  have hb2 : ∀ x, δ.br + min (num items "--bootstrapping-freq") x * δ.cmux + δ.ks + δ.ms < 2 ^ 30 := by
    intro x
    have : min (num items "--bootstrapping-freq") x * δ.cmux ≤ num items "--bootstrapping-freq" * δ.cmux :=
      Nat.mul_le_mul_right _ (Nat.min_le_left _ _)
    omega
  obtain ⟨r, k1, k2⟩ := logOnline_ok (S := S) (rand := rand) (freq := num items "--out-freq") (graph := Backstream.graph)
    (evalOne := fun r c => Backstream.evalOut (decide (0 < k)) S r c) (result := fun r => do let c ← quiet r.result; pure (c, r)) (info := fun _ => [])
    (make := fun gr => reverseMake gr (num items "--bootstrapping-freq") (has items "--spec-reversed") true false) hread hi1
    hap.1 hi2 (m4.trans h1) (bootNote (decide (0 < k)) (num items "--bootstrapping-freq")) v
    (ReverseLoop S (Enc (L.newKey q)) m (num items "--bootstrapping-freq") (rs.flatMap (recordBits (num items "--ap"))))
    ⟨h2, h4, h5, h6, h3, ⟨r0, [], h1, .nil, rfl⟩, by rw [h7]; simp, by rw [h7]; rfl, by rw [h7]; rfl, by rw [h7, Nat.zero_div]; rfl⟩
    (fun i hi r h => reverse_turn hS hN m1 hfr.1 hbt.1 (hb2 _) rand m3 hi h _)
  refine ⟨r.timer, ?_, k2.pos, by rw [← m2]; exact reverse_totals k2⟩
  unfold logReversed
  simp only [print_bind, logKeys_bind, k1, out_ok, h2, m2]
  simp [out_pure, onlineRows]

/-- **C77**, `benchmark qtrlwe2`: the settings, the time each step took, before each evaluation the number of states that can be reached by the
inputs evaluated so far and how the last block was cut, and after every `--out-freq` inputs whether they are accepted.  There are no totals. -/
theorem C77_qtrlwe2 (hL : L.Sound δ Enc) (fs : Files) (k : Nat) (items : List Item)
    (hf : BenchCmd.qtrlwe2.usage.Follows (fun f => (fs f).isSome) items) (hsan : has items "--sanitize-result" = false)
    {g : Graph} {w : List Bool} (hr : Readable fs items g w) {skip : List (List Char)} (hskip : SkipsIn fs items skip) {W : Nat} (hW : LiveMax g W) (hWd : W < 2 ^ num items "--max-second-lut-depth")
    (hq31 : num items "--queue-size" < 31) (hd31 : num items "--max-second-lut-depth" < 31) (hdN : 2 ^ num items "--max-second-lut-depth" ≤ N)
    (hbud : W * 2 ^ (num items "--queue-size" / 2) * flutErr δ W (num items "--queue-size") (num items "--bootstrapping-freq" - 1) +
      num items "--queue-size" * δ.cmux + δ.ks + δ.ms < 2 ^ 30)
    {v : Nat → Bool} (hv : ∀ i ≤ w.length, g.accepts (w.take i) = .ok (v i)) :
    AlwaysLogs L fs (List.replicate k "--verbose" ++ "qtrlwe2" :: line items)
      ([⟨"time", .date⟩, ⟨"config-method", .str "qtrlwe2"⟩, ⟨"config-spec", .str (opt items "--spec")⟩,
        ⟨"config-input", .str (opt items "--in")⟩, ⟨"config-output_freq", .num (num items "--out-freq")⟩,
        ⟨"config-max_second_lut_depth", .num (num items "--max-second-lut-depth")⟩, ⟨"config-queue_size", .num (num items "--queue-size")⟩,
        ⟨"config-bootstrapping_freq", .num (num items "--bootstrapping-freq")⟩, ⟨"config-num_ap", .num (num items "--ap")⟩,
        ⟨"config-sanitize_result", .num 0⟩] ++
        onlineRows skip g.size w.length (num items "--out-freq")
          (fun i => flutInfo g (num items "--out-freq") (num items "--queue-size") (num items "--max-second-lut-depth") i ++
            flutNotes (0 < k) g (num items "--out-freq") (num items "--queue-size") (num items "--max-second-lut-depth") i) v) [] := by
  obtain ⟨⟨sb, hs1, hs2⟩, hsz, ⟨rs, hi1, hi2, rfl⟩⟩ := hr
  have hg := wf_of_fromIstream hs2 hsz
  obtain ⟨lines, hl, hk⟩ := hskip sb hs1
  have hread := readSpecOut_ok hs1 hs2 hl hk
  have hap := num_positive hf (n := "--ap") (by decide) (by decide)
  have hfr := num_positive hf (n := "--out-freq") (by decide) (by decide)
  have hqs := num_positive hf (n := "--queue-size") (by decide) (by decide)
  have hbt := num_positive hf (n := "--bootstrapping-freq") (by decide) (by decide)
  refine alwaysLogs_of ((C58_bench _ _).1 .qtrlwe2 k items rfl hf) ⟨_, .flut 0 0 id⟩ ?_
  intro x hx
  rw [show benchVerbose (List.replicate k "--verbose" ++ "qtrlwe2" :: line items) = decide (0 < k) from benchVerbose_replicate k .qtrlwe2 _] at hx
  unfold BenchCmd.call at hx
  rw [hsan] at hx
  cases hx with
  | flut q q' rand =>
  have hS := hL.pair q q'
  change (L.process (L.newKey q) (L.newBKey q' (L.newKey q))).Sound δ _ at hS
  generalize L.process (L.newKey q) (L.newBKey q' (L.newKey q)) = S at hS
  obtain ⟨r0, h1, h2⟩ := finv_make (N := N) (l := l) (S := S) (δ := δ) (Enc := Enc (L.newKey q)) hg (num items "--max-second-lut-depth")
    (num items "--queue-size") (num items "--bootstrapping-freq") W hq31
  have hp0 : pending (num items "--out-freq") (num items "--queue-size") 0 = 0 := by simp [pending]
  have he0 : evaluated (num items "--out-freq") (num items "--queue-size") 0 = 0 := by simp [evaluated]
  have hsplit : r0.first = 0 ∧ r0.second = 0 := by
    unfold Flut.make at h1
    rw [if_neg (by simp)] at h1
    obtain ⟨_, _, h1⟩ := Res.bind_eq_ok.1 h1
    obtain ⟨_, _, h1⟩ := Res.bind_eq_ok.1 h1
    cases h1
    exact ⟨rfl, rfl⟩
  obtain ⟨r, k1, k2⟩ := logOnline_ok (S := S) (rand := rand) (freq := num items "--out-freq") (graph := Flut.graph)
    (evalOne := fun r c => Flut.evalOneOut (decide (0 < k)) S r c) (result := fun r => Flut.resultOut (decide (0 < k)) S r)
    (info := fun r => [⟨"num_live_states", .num r.live.length⟩, ⟨"first_lut_depth", .num r.first⟩, ⟨"second_lut_depth", .num r.second⟩])
    (make := fun gr => Flut.make gr (num items "--max-second-lut-depth") (num items "--queue-size") (num items "--bootstrapping-freq") false)
    hread hi1 hap.1 hi2 h1 (fun i => flutInfo g (num items "--out-freq") (num items "--queue-size") (num items "--max-second-lut-depth") i ++
      flutNotes (decide (0 < k)) g (num items "--out-freq") (num items "--queue-size") (num items "--max-second-lut-depth") i) v
    (FlutLoop S δ (Enc (L.newKey q)) g (num items "--out-freq") (num items "--max-second-lut-depth") (num items "--queue-size")
      (num items "--bootstrapping-freq") W (rs.flatMap (recordBits (num items "--ap"))))
    ⟨⟨[], [], h2, by simp, by rw [hp0]; rfl⟩, by
      have : lastBlock (num items "--out-freq") (num items "--queue-size") 0 = 0 := by unfold lastBlock; rw [he0, if_pos rfl]
      rw [this]
      exact ⟨by rw [hsplit.2]; simp, by rw [hsplit.1]; simp⟩⟩
    (fun i hi r h => flut_turn hS hg hfr.1 hqs.1 (hW.level hg) hq31 hd31 hdN hbt.1 hbud rand hv hi
      (fun _ => by rw [liveCount_eq hg]; exact Nat.lt_of_le_of_lt (hW.level hg _) hWd) _ h)
  refine ⟨[], ?_, by simp, by decide⟩
  unfold logFlut
  simp only [print_bind, logKeys_bind, k1, out_ok, h2.graph]
  simp [out_pure, onlineRows]

/-- **C77**, `benchmark bbs`: the settings, the time each step took, before each evaluation the number of states that can be reached by the
inputs evaluated so far, and after every `--out-freq` inputs whether they are accepted.  At the end the number of CMUX gates and of circuit
bootstrappings. -/
theorem C77_bbs (hL : L.Sound δ Enc) (fs : Files) (k : Nat) (items : List Item)
    (hf : BenchCmd.bbs.usage.Follows (fun f => (fs f).isSome) items) (hsan : has items "--sanitize-result" = false)
    {g : Graph} {w : List Bool} (hr : Readable fs items g w) {skip : List (List Char)} (hskip : SkipsIn fs items skip) {W : Nat} (hW : LiveBits g W) (hWN : W < N) (hW31 : W < 31)
    (hint : num items "--queue-size" ≤ 2 ^ 31) (hbud : (num items "--queue-size" + W) * δ.cmux + δ.cb < 2 ^ 29)
    {v : Nat → Bool} (hv : ∀ i ≤ w.length, g.accepts (w.take i) = .ok (v i)) :
    AlwaysLogs L fs (List.replicate k "--verbose" ++ "bbs" :: line items)
      ([⟨"time", .date⟩, ⟨"config-method", .str "bbs"⟩, ⟨"config-spec", .str (opt items "--spec")⟩,
        ⟨"config-input", .str (opt items "--in")⟩, ⟨"config-output_freq", .num (num items "--out-freq")⟩,
        ⟨"config-queue_size", .num (num items "--queue-size")⟩, ⟨"config-num_ap", .num (num items "--ap")⟩,
        ⟨"config-sanitize_reuslt", .num 0⟩] ++
        onlineRows skip g.size w.length (num items "--out-freq") (blockInfo g (num items "--out-freq") (num items "--queue-size")) v)
      (blockTotals g (num items "--out-freq") (num items "--queue-size") w.length) := by
  obtain ⟨⟨sb, hs1, hs2⟩, hsz, ⟨rs, hi1, hi2, rfl⟩⟩ := hr
  have hg := wf_of_fromIstream hs2 hsz
  obtain ⟨lines, hl, hk⟩ := hskip sb hs1
  have hread := readSpecOut_ok hs1 hs2 hl hk
  have hap := num_positive hf (n := "--ap") (by decide) (by decide)
  have hfr := num_positive hf (n := "--out-freq") (by decide) (by decide)
  have hqs := num_positive hf (n := "--queue-size") (by decide) (by decide)
  refine alwaysLogs_of ((C58_bench _ _).1 .bbs k items rfl hf) ⟨_, .block 0 0 id⟩ ?_
  intro x hx
  rw [show benchVerbose (List.replicate k "--verbose" ++ "bbs" :: line items) = decide (0 < k) from benchVerbose_replicate k .bbs _] at hx
  unfold BenchCmd.call at hx
  rw [hsan] at hx
  cases hx with
  | block q q' rand =>
  have hS := hL.pair q q'
  change (L.process (L.newKey q) (L.newBKey q' (L.newKey q))).Sound δ _ at hS
  generalize L.process (L.newKey q) (L.newBKey q' (L.newKey q)) = S at hS
  have hmax : max 1 (num items "--queue-size") = num items "--queue-size" := by omega
  obtain ⟨r0, h1, h2, h3⟩ := binv_make (S := S) (Enc := Enc (L.newKey q)) (g := g) (num items "--queue-size")
    ((max 1 (num items "--queue-size") + W) * δ.cmux)
  have hp0 : pending (num items "--out-freq") (num items "--queue-size") 0 = 0 := by simp [pending]
  have he0 : evaluated (num items "--out-freq") (num items "--queue-size") 0 = 0 := by simp [evaluated]
  obtain ⟨r, k1, k2⟩ := logOnline_ok (S := S) (rand := rand) (freq := num items "--out-freq") (graph := Block.graph)
    (evalOne := fun r c => quiet (Block.evalOne S r c)) (result := fun r => quiet (Block.result S r))
    (info := fun r => [⟨"num_live_states", .num r.live.length⟩])
    (make := fun gr => Block.make gr (num items "--queue-size") false)
    hread hi1 hap.1 hi2 h1 (blockInfo g (num items "--out-freq") (num items "--queue-size")) v
    (BlockLoop S (Enc (L.newKey q)) g (num items "--out-freq") (num items "--queue-size")
      ((max 1 (num items "--queue-size") + W) * δ.cmux) (rs.flatMap (recordBits (num items "--ap"))))
    ⟨by
      rw [he0, hp0]
      cases h1
      exact ⟨rfl, rfl, rfl, rfl, fun h => absurd rfl h⟩, ⟨[], [], h2, by simp, by simp⟩, by
      rw [he0, h3]
      exact ⟨by simp, rfl, rfl, rfl⟩⟩
    (fun i hi r h => block_turn hS hg hfr.1 hqs.1 hint (hW.level hg) hWN hW31 (by rw [hmax]; exact hbud) rand hv hi h)
  refine ⟨r.timer, ?_, k2.timer.pos, blockTimer_totals k2.timer⟩
  unfold logBlock
  simp only [print_bind, logKeys_bind, k1, out_ok, h2.graph]
  simp [out_pure, onlineRows]

/-- **C77 (incomplete input).** If the input ends inside a record every method stops with a failed assertion, before anything is encrypted or
evaluated. -/
theorem C77_incomplete (L : Lib N n l) (hN : 0 < N) (fs : Files) (k : Nat) (c : BenchCmd) (items : List Item)
    (hf : c.usage.Follows (fun f => (fs f).isSome) items) (hsan : has items "--sanitize-result" = false)
    (hq31 : c = .qtrlwe2 → num items "--queue-size" < 31) {sb ib : List Byte} {g : Graph} (hs : fs (opt items "--spec") = some sb)
    (hg : Graph.fromIstream (textOf sb) = .ok g) (hsz : 0 < g.size) (hi : fs (opt items "--in") = some ib)
    (hcut : ¬ recordBytes (num items "--ap") ∣ ib.length) :
    AlwaysFails L fs (List.replicate k "--verbose" ++ c.name :: line items) .assertFail := by
  have hwf := wf_of_fromIstream hg hsz
  have hap : 0 < num items "--ap" := by
    cases c <;> exact (num_positive hf (n := "--ap") (by decide) (by decide)).1
  have habort : ∀ {σ : Type} (func : σ → Bool → σ) (s : σ),
      eachInputBit (fs (opt items "--in")) (num items "--ap") (fun s b => .ok (func s b)) s = .error .assertFail := by
    intro σ func s
    rcases C19_aborts_iff (num items "--ap") hap (fs (opt items "--in")) func s with ⟨⟨b, h1, h2⟩, _⟩ | ⟨_, h⟩
    · rw [hi] at h1
      cases h1
      exact absurd h2 hcut
    · exact h
  have hsize : benchInputSize (fs (opt items "--in")) (num items "--ap") = .error .assertFail := habort (fun s _ => s + 1) 0
  obtain ⟨skip, hk⟩ := skips_exists (getlines '\n' (textOf sb))
  have hread := readSpecOut_ok hs hg (textLines_iff.2 rfl) hk
  have hkeys : ∀ row ∈ skipNotes skip, row.key ∉ ["enc", "run", "dec", "state", "result"] := fun row h => by rw [skipNotes_key skip row h]; decide
  refine alwaysFails_of ((C58_bench _ _).1 c k items rfl hf) (by cases c <;> exact ⟨_, by first | exact .plain | exact .offline 0 0 id | exact .reversed 0 0 id | exact .flut 0 0 id | exact .block 0 0 id⟩) ?_
  intro x hx
  cases c with
  | plain =>
    cases hx
    unfold logPlain
    simp only [print_bind, hread, out_ok, hsize, quiet_error]
    exact ⟨trivial, by
      have := hkeys
      simp at this ⊢
      rintro a (h | rfl)
      · exact this a h
      · simp⟩
  | offline =>
    unfold BenchCmd.call at hx
    rw [hsan] at hx
    cases hx
    unfold logOffline
    simp only [print_bind, logKeys_bind, habort (fun (s : List Bool) b => s ++ [b]), quiet_error]
    exact ⟨trivial, by simp⟩
  | reversed =>
    unfold BenchCmd.call at hx
    rw [hsan] at hx
    cases hx
    obtain ⟨r, hr⟩ := reverseMake_ok (N := N) hwf hN (num items "--bootstrapping-freq") (has items "--spec-reversed")
    unfold logReversed
    simp only [print_bind, logKeys_bind]
    rw [logOnline_input_fails hread hr hsize, out_error]
    exact ⟨rfl, by
      have := hkeys
      simp at this ⊢
      rintro a (h | rfl | rfl)
      · exact this a h
      · decide
      · simp⟩
  | qtrlwe2 =>
    unfold BenchCmd.call at hx
    rw [hsan] at hx
    cases hx
    obtain ⟨r, hr, _⟩ := flut_make (N := N) (l := l) hwf (num items "--max-second-lut-depth") (num items "--queue-size")
      (num items "--bootstrapping-freq") (hq31 rfl)
    unfold logFlut
    simp only [print_bind, logKeys_bind]
    rw [logOnline_input_fails hread hr hsize, out_error]
    exact ⟨rfl, by
      have := hkeys
      simp at this ⊢
      rintro a (h | rfl | rfl)
      · exact this a h
      · decide
      · simp⟩
  | bbs =>
    unfold BenchCmd.call at hx
    rw [hsan] at hx
    cases hx
    unfold logBlock
    simp only [print_bind, logKeys_bind]
    rw [logOnline_input_fails hread (binv_make (N := N) (l := l) (S := L.process (L.newKey 0) (L.newBKey 0 (L.newKey 0))) (Enc := fun _ _ => True) _ 0).choose_spec.1 hsize, out_error]
    exact ⟨rfl, by
      have := hkeys
      simp at this ⊢
      rintro a (h | rfl | rfl)
      · exact this a h
      · decide
      · simp⟩

/-- **C77 (`--sanitize-result`).** The four methods with encryption do not support it: they stop with an error message before anything is
encrypted or evaluated. -/
theorem C77_sanitize (L : Lib N n l) (fs : Files) (k : Nat) (c : BenchCmd) (items : List Item)
    (hf : c.usage.Follows (fun f => (fs f).isSome) items) (hsan : has items "--sanitize-result" = true)
    {g : Graph} {w : List Bool} (hr : Readable fs items g w) :
    AlwaysFails L fs (List.replicate k "--verbose" ++ c.name :: line items) .die := by
  obtain ⟨⟨sb, hs, hg⟩, hsz, ⟨rs, hi1, hi2, rfl⟩⟩ := hr
  have hwf := wf_of_fromIstream hg hsz
  obtain ⟨skip, hk⟩ := skips_exists (getlines '\n' (textOf sb))
  have hread := readSpecOut_ok hs hg (textLines_iff.2 rfl) hk
  have hkeys : ∀ row ∈ skipNotes skip, row.key ∉ ["enc", "run", "dec", "state", "result"] := fun row h => by rw [skipNotes_key skip row h]; decide
  have hap : 0 < num items "--ap" := by
    cases c <;> exact (num_positive hf (n := "--ap") (by decide) (by decide)).1
  refine alwaysFails_of ((C58_bench _ _).1 c k items rfl hf) (by cases c <;> exact ⟨_, by first | exact .plain | exact .offline 0 0 id | exact .reversed 0 0 id | exact .flut 0 0 id | exact .block 0 0 id⟩) ?_
  intro x hx
  cases c with
  | plain =>
    have := hf.flags "--sanitize-result" (of_decide_eq_true hsan)
    cases this
  | offline =>
    unfold BenchCmd.call at hx
    rw [hsan] at hx
    cases hx
    have hbits : eachInputBit (some rs.flatten) (num items "--ap") (fun (s : List Bool) b => .ok (s ++ [b])) [] =
        .ok (rs.flatMap (recordBits (num items "--ap"))) := by
      rw [C19_records _ hap rs hi2, bits_fold, List.nil_append]
    have hinit : ∀ m, (printElapsed "init" (readSpecOut fs (opt items "--spec") >>= fun gr =>
        quiet (offlineMake gr m (num items "--bootstrapping-freq") true true)) : Out (Backstream N)) = ⟨skipNotes skip, .error .die⟩ := by
      intro m
      unfold printElapsed
      rw [hread, out_ok]
      show (⟨skipNotes skip ++ [], .error .die⟩ : Out _) = _
      rw [List.append_nil]
    unfold logOffline
    simp only [print_bind, logKeys_bind, hi1, hbits, quiet_bind, hinit, out_error]
    exact ⟨trivial, by simpa using hkeys⟩
  | reversed =>
    unfold BenchCmd.call at hx
    rw [hsan] at hx
    cases hx
    unfold logReversed
    simp only [print_bind, logKeys_bind]
    rw [logOnline_make_fails hread (reverseMake_sanitize hwf _ _), out_error]
    exact ⟨rfl, by simpa using hkeys⟩
  | qtrlwe2 =>
    unfold BenchCmd.call at hx
    rw [hsan] at hx
    cases hx
    unfold logFlut
    simp only [print_bind, logKeys_bind]
    rw [logOnline_make_fails hread rfl, out_error]
    exact ⟨rfl, by simpa using hkeys⟩
  | bbs =>
    unfold BenchCmd.call at hx
    rw [hsan] at hx
    cases hx
    unfold logBlock
    simp only [print_bind, logKeys_bind]
    rw [logOnline_make_fails hread rfl, out_error]
    exact ⟨rfl, by simpa using hkeys⟩

/-! ## The hypotheses are met -/

/-- `--ap 5 --spec a.spec --in in --out-freq 4 --queue-size 3 --bootstrapping-freq 2 --max-second-lut-depth 3`, or a part of it -/
def exItems (c : BenchCmd) : List Item :=
  [.opt "--ap" "5", .opt "--spec" "a.spec", .opt "--in" "in"] ++ (if c = .offline then [] else [.opt "--out-freq" "4"]) ++
    (if c = .bbs ∨ c = .qtrlwe2 then [.opt "--queue-size" "3"] else []) ++
    (if c = .plain ∨ c = .bbs then [] else [.opt "--bootstrapping-freq" "2"]) ++
    (if c = .qtrlwe2 then [.opt "--max-second-lut-depth" "3"] else [])

theorem exItems_follows (c : BenchCmd) : c.usage.Follows (fun f => (exFiles f).isSome) (exItems c) := by
  have num_ok : ∀ s : String, s ∈ ["2", "3", "4", "5"] → Kind.positive.Ok (fun f => (exFiles f).isSome) s := by
    intro s hs
    simp only [List.mem_cons, List.not_mem_nil, or_false] at hs
    rcases hs with rfl | rfl | rfl | rfl
    · exact ⟨by decide, 2, ⟨by decide, by decide⟩, by decide⟩
    · exact ⟨by decide, 3, ⟨by decide, by decide⟩, by decide⟩
    · exact ⟨by decide, 4, ⟨by decide, by decide⟩, by decide⟩
    · exact ⟨by decide, 5, ⟨by decide, by decide⟩, by decide⟩
  have file_ok : ∀ s : String, s ∈ ["a.spec", "in"] → Kind.file.Ok (fun f => (exFiles f).isSome) s := by
    intro s hs
    simp only [List.mem_cons, List.not_mem_nil, or_false] at hs
    rcases hs with rfl | rfl
    · exact ⟨by decide, by decide⟩
    · exact ⟨by decide, by decide⟩
  constructor
  · intro m v h
    cases c <;> simp [exItems] at h
    on_goal 1 => rcases h with h | h | h | h
    on_goal 5 => rcases h with h | h | h | h
    on_goal 9 => rcases h with h | h | h | h | h
    on_goal 14 => rcases h with h | h | h | h | h | h | h
    on_goal 21 => rcases h with h | h | h | h | h
    all_goals
      obtain ⟨rfl, rfl⟩ := h
      first
      | exact ⟨.positive, of_decide_eq_true rfl, num_ok _ (of_decide_eq_true rfl)⟩
      | exact ⟨.file, of_decide_eq_true rfl, file_ok _ (of_decide_eq_true rfl)⟩
  · cases c <;> decide
  · intro m k h
    cases c <;> simp [BenchCmd.usage] at h
    on_goal 1 => rcases h with h | h | h | h
    on_goal 5 => rcases h with h | h | h | h
    on_goal 9 => rcases h with h | h | h | h | h
    on_goal 14 => rcases h with h | h | h | h | h | h | h
    on_goal 21 => rcases h with h | h | h | h | h
    all_goals
      obtain ⟨rfl, rfl⟩ := h
      simp [exItems]
  · intro m h
    cases c <;> simp [exItems] at h
  · cases c <;> decide
  · cases c <;> decide
  · intro i v k h1 h2
    cases c <;> simp [exItems, args] at h1

/-- the automaton of `a.spec` -/
def exG : Graph := match Graph.fromIstream (textOf (exSpec.map fun c => BitVec.ofNat 8 c.toNat)) with
  | .ok g => g
  | .error _ => Graph.built 0 [] []

theorem exG_read : Graph.fromIstream (textOf (exSpec.map fun c => BitVec.ofNat 8 c.toNat)) = .ok exG := by
  unfold exG
  have : ∃ g, Graph.fromIstream (textOf (exSpec.map fun c => BitVec.ofNat 8 c.toNat)) = .ok g := by
    have hp : doRunPlain (textOf (exSpec.map fun c => BitVec.ofNat 8 c.toNat)) (some []) 5 = .ok ['1'] := by decide +kernel
    obtain ⟨g', _, _, h1, _⟩ := plain_ok (by omega) hp
    exact ⟨g', h1⟩
  obtain ⟨g, hg⟩ := this
  rw [hg]

/-- the bits of `in` -/
def exW : List Bool := [true, true, true, true, true, true, false, false, false, false, false, false, false, false, true]

theorem exItems_readable (c : BenchCmd) : Readable exFiles (exItems c) exG exW := by
  refine ⟨⟨_, ?_, exG_read⟩, ?_, [[0x1f#8], [0xe1#8], [0x10#8]], ?_, ?_, ?_⟩
  · cases c <;> decide
  · rw [(exSpec_size exG exG_read).2]; decide
  · cases c <;> decide
  · cases c <;> decide
  · cases c <;> decide

/-- the first line of `a.spec` is skipped -/
theorem exItems_skips (c : BenchCmd) : SkipsIn exFiles (exItems c) ["# comment".toList] := by
  intro sb hs
  have : exFiles (opt (exItems c) "--spec") = some (exSpec.map fun c => BitVec.ofNat 8 c.toNat) := by cases c <;> decide
  rw [this] at hs
  cases hs
  refine ⟨["# comment".toList, ">0\t0\t0,1".toList, ">1*  _ 1,".toList], textLines_iff.2 (by decide +kernel), ?_⟩
  have hstate : ∀ {l : List Char}, (matchSpecLine l).isSome = true → ¬ Spec.NotSpecLine l := by
    intro l h1 h2
    rw [matchSpecLine_none.2 h2] at h1
    cases h1
  exact .skip (matchSpecLine_none.1 (by decide)) (.state (hstate (by decide)) (.state (hstate (by decide)) .nil))

/-- the states after the first `i` of these bits, and whether they are accepted -/
def exState (i : Nat) : Nat := (exW.take i).foldl exG.nx exG.init
def exVerdict (i : Nat) : Bool := exG.fin (exState i)

theorem exState_eq (i : Nat) : exG.runWord exG.initialState (exW.take i) = .ok (exState i) :=
  ((exSpec_size exG exG_read).1.run_ok (exSpec_size exG exG_read).1.init_lt _).1
theorem exVerdict_eq (i : Nat) : exG.accepts (exW.take i) = .ok (exVerdict i) := (exSpec_size exG exG_read).1.accepts_eq _

/-- `plain` on `exFiles`: the settings, a message about the comment in the spec, 15 states and after 4, 8 and 12 inputs a result. -/
example (L : Lib N n l) : AlwaysLogs L exFiles ("plain" :: line (exItems .plain))
    ([⟨"time", .date⟩, ⟨"config-method", .str "plain"⟩, ⟨"config-spec", .str "a.spec"⟩, ⟨"config-input", .str "in"⟩, ⟨"config-num_ap", .num 5⟩,
      ⟨"info", .message "Skip line \"# comment\"".toList⟩, ⟨"config-spec_num_states", .num 2⟩, ⟨"config-input_size", .num 15⟩,
      ⟨"state", .num 0⟩, ⟨"state", .num 0⟩, ⟨"state", .num 0⟩, ⟨"state", .num 0⟩, ⟨"result", .num 1⟩,
      ⟨"state", .num 0⟩, ⟨"state", .num 0⟩, ⟨"state", .num 1⟩, ⟨"state", .num 1⟩, ⟨"result", .num 0⟩,
      ⟨"state", .num 1⟩, ⟨"state", .num 1⟩, ⟨"state", .num 1⟩, ⟨"state", .num 1⟩, ⟨"result", .num 0⟩,
      ⟨"state", .num 1⟩, ⟨"state", .num 1⟩, ⟨"state", .num 0⟩]) [] := by
  have h := C77_plain L exFiles 0 (exItems .plain) (exItems_follows _) (exItems_readable _) (exItems_skips _) (fun i _ => exState_eq i) (fun i _ => exVerdict_eq i)
  convert h using 1
  all_goals decide +kernel

/-- `offline` on `exFiles` with `--verbose`, with a library that meets the assumptions: the last line is `result,1`. -/
theorem exOffline_verbose : ∃ L : Lib 16 2 1, AlwaysLogs L exFiles ("--verbose" :: "offline" :: line (exItems .offline))
    ([⟨"time", .date⟩, ⟨"config-method", .str "offline"⟩, ⟨"config-spec", .str "a.spec"⟩, ⟨"config-input", .str "in"⟩,
      ⟨"config-bootstrapping_freq", .num 2⟩, ⟨"config-num_ap", .num 5⟩, ⟨"config-sanitize_result", .num 0⟩, ⟨"skey", .time⟩, ⟨"bkey", .time⟩,
      ⟨"info", .message "Skip line \"# comment\"".toList⟩, ⟨"init", .time⟩, ⟨"config-spec_num_states", .num 2⟩, ⟨"config-input_size", .num 15⟩] ++
      (List.replicate 7 [⟨"enc", .time⟩, ⟨"run", .time⟩, ⟨"enc", .time⟩, ⟨"debug", .message "Bootstrapping occurred".toList⟩, ⟨"run", .time⟩]).flatten ++
      [⟨"enc", .time⟩, ⟨"run", .time⟩, ⟨"dec", .time⟩, ⟨"result", .num 1⟩]) [] := by
  obtain ⟨φ, hφ⟩ := exists_numbering 16
  have h := C77_offline (toyLib_sound (n := 2) (l := 1) (by omega) (by omega) hφ) (by omega) exFiles 1 _ (exItems_follows .offline) (by decide)
    (exItems_readable _) (exItems_skips _) (by decide) (by decide) (b := exVerdict 15) (exVerdict_eq 15)
  refine ⟨toyLib 16 2 1 φ, ?_⟩
  convert h using 1
  all_goals decide +kernel

/-- The example's words are those whose last bit, if there is one, is 1. -/
theorem exG_accepts (u : List Bool) : exG.accepts u.reverse = .ok (u.headD true) := by
  have hw := (exSpec_size exG exG_read).1
  rw [hw.accepts_eq]
  cases u with
  | nil => exact congrArg _ (by decide +kernel)
  | cons b t =>
    have hq : exG.dfa.run exG.dfa.start t.reverse < 2 := by
      rw [← (exSpec_size exG exG_read).2]; exact (hw.run_ok hw.init_lt _).2
    have : exG.dfa.accepts (t.reverse ++ [b]) = exG.dfa.accept (exG.dfa.next (exG.dfa.run exG.dfa.start t.reverse) b) := by
      simp [Spec.Dfa.accepts, Spec.Dfa.run]
    rw [List.reverse_cons, this, List.headD_cons]
    generalize exG.dfa.run exG.dfa.start t.reverse = q at hq
    have := (by decide +kernel : ∀ q < 2, ∀ b, exG.dfa.accept (exG.dfa.next q b) = b) q hq b
    rw [this]

/-- The words whose last bit, if there is one, is 1; the smallest automaton for the words whose first bit is 1 has three states. -/
theorem exG_least : IsLeast {k | ∃ d : Spec.Dfa (Fin k), ∀ u, exG.accepts u.reverse = .ok (d.accepts u)} 3 := by
  simp only [exG_accepts]
  refine ⟨⟨⟨0, fun q b => if q = 0 then (if b then 1 else 2) else q, fun q => q ≠ 2⟩, fun u => ?_⟩, ?_⟩
  · refine congrArg _ ?_
    have hs : ∀ (t : List Bool) (q : Fin 3), q ≠ 0 → t.foldl (fun q b => if q = 0 then (if b then 1 else 2) else q) q = q := by
      intro t
      induction t with
      | nil => intros; rfl
      | cons c t ih => intro q hq; simp only [List.foldl_cons, if_neg hq]; exact ih q hq
    cases u with
    | nil => rfl
    | cons b t =>
      simp only [Spec.Dfa.accepts, Spec.Dfa.run, List.foldl_cons, if_true, List.headD_cons]
      rw [hs t _ (by cases b <;> decide)]
      cases b <;> rfl
  · rintro k ⟨d, hd⟩
    have hd' : ∀ u, d.accepts u = u.headD true := fun u => (Except.ok.inj (hd u)).symm
    let f : Fin 3 → Fin k := fun i => d.run d.start (if i = 0 then [] else if i = 1 then [true] else [false])
    have h0 := hd' []
    have h1 := hd' [true]
    have h2 := hd' [false]
    have h3 := hd' [true, false]
    have hf : Function.Injective f := by
      simp only [Spec.Dfa.accepts, Spec.Dfa.run, List.foldl_cons, List.foldl_nil, List.headD] at h0 h1 h2 h3
      have ab : d.start ≠ d.next d.start true := fun e => by rw [← e, h2] at h3; cases h3
      have ac : d.start ≠ d.next d.start false := fun e => by rw [← e, h0] at h2; cases h2
      have bc : d.next d.start true ≠ d.next d.start false := fun e => by rw [← e, h1] at h2; cases h2
      intro i j hij
      fin_cases i <;> fin_cases j <;> first | rfl | exact absurd hij ab | exact absurd hij ac | exact absurd hij bc | exact absurd hij.symm ab | exact absurd hij.symm ac | exact absurd hij.symm bc
    simpa using Fintype.card_le_of_injective f hf

/-- `reversed` on `exFiles`: 45 CMUX gates and 21 bootstrappings. -/
example : ∃ L : Lib 16 2 1, ∃ rows, AlwaysLogs L exFiles ("reversed" :: line (exItems .reversed)) rows
    [⟨"time_recorder-cmux", .total 45⟩, ⟨"time_recorder-bootstrapping", .total 21⟩] := by
  obtain ⟨φ, hφ⟩ := exists_numbering 16
  exact ⟨_, _, C77_reversed (toyLib_sound (n := 2) (l := 1) (by omega) (by omega) hφ) (by omega) exFiles 0 _ (exItems_follows .reversed) (by decide)
    (exItems_readable _) (exItems_skips _) (by decide) (fun i _ => exVerdict_eq i) (states := 3) exG_least⟩

/-- `qtrlwe2` on `exFiles`. -/
example : ∃ L : Lib 16 2 1, ∃ rows, AlwaysLogs L exFiles ("qtrlwe2" :: line (exItems .qtrlwe2)) rows [] := by
  obtain ⟨φ, hφ⟩ := exists_numbering 16
  exact ⟨_, _, C77_qtrlwe2 (toyLib_sound (n := 2) (l := 1) (by omega) (by omega) hφ) exFiles 0 _ (exItems_follows .qtrlwe2) (by decide)
    (exItems_readable _) (exItems_skips _) (liveMax_of_size (exSpec_size exG exG_read).1) (by rw [(exSpec_size exG exG_read).2]; decide) (by decide) (by decide)
    (by decide) (by rw [(exSpec_size exG exG_read).2]; decide) (fun i _ => exVerdict_eq i)⟩

/-- With `--verbose` it tells about the block that is evaluated with the third input. -/
example : flutNotes true exG 4 3 3 2 = [⟨"debug", .message "live states: 1".toList⟩, ⟨"debug", .message "next live states: 2".toList⟩,
    ⟨"debug", .message "LUT 2 + 1 = 3".toList⟩] := by
  unfold flutNotes liveNotes
  simp only [liveCount_eq (exSpec_size exG exG_read).1]
  decide +kernel

/-- `bbs` on `exFiles`: 47 CMUX gates and 12 circuit bootstrappings. -/
example : ∃ L : Lib 16 2 1, ∃ rows, AlwaysLogs L exFiles ("bbs" :: line (exItems .bbs)) rows
    [⟨"time_recorder-cmux", .total 47⟩, ⟨"time_recorder-circuit_bootstrapping", .total 12⟩] := by
  obtain ⟨φ, hφ⟩ := exists_numbering 16
  have hw := (exSpec_size exG exG_read).1
  have h := C77_bbs (toyLib_sound (n := 2) (l := 1) (by omega) (by omega) hφ) exFiles 0 _ (exItems_follows .bbs) (by decide)
    (exItems_readable _) (exItems_skips _) (liveBits_of_size hw (B := 2) (by rw [(exSpec_size exG exG_read).2]; decide)) (by decide) (by decide) (by decide) (by decide)
    (fun i _ => exVerdict_eq i)
  have e : blockTotals exG (num (exItems .bbs) "--out-freq") (num (exItems .bbs) "--queue-size") exW.length =
      [⟨"time_recorder-cmux", .total 47⟩, ⟨"time_recorder-circuit_bootstrapping", .total 12⟩] := by
    simp only [blockTotals, liveCount_eq hw]
    decide +kernel
  rw [e] at h
  exact ⟨_, _, h⟩

/-- With `--ap 10` the three bytes of `in` are a record and a half. -/
example (L : Lib 16 2 1) : AlwaysFails L exFiles
    ("bbs" :: line [.opt "--ap" "10", .opt "--spec" "a.spec", .opt "--in" "in", .opt "--out-freq" "4", .opt "--queue-size" "3"]) .assertFail := by
  refine C77_incomplete L (by omega) exFiles 0 .bbs _ ?_ (by decide) (by decide) (sb := exSpec.map fun c => BitVec.ofNat 8 c.toNat) rfl exG_read
    (exItems_readable .bbs).states (ib := [0x1f, 0xe1, 0x10]) rfl (by decide)
  have h := exItems_follows .bbs
  refine ⟨?_, by decide, ?_, ?_, by decide, by decide, ?_⟩
  · intro m v hm
    simp only [List.mem_cons, List.not_mem_nil, or_false] at hm
    rcases hm with hm | hm
    · cases hm
      exact ⟨.positive, by decide, by decide, 10, ⟨by decide, by decide⟩, by decide⟩
    · exact h.known m v (by rcases hm with hm | hm | hm | hm <;> cases hm <;> decide)
  · intro m k hm
    obtain ⟨v, hv⟩ := h.all m k hm
    simp [exItems] at hv ⊢
    rcases hv with hv | hv | hv | hv | hv <;> simp [hv]
  · intro m hm
    simp at hm
  · intro i v k hm
    simp [args] at hm

/-- `reversed` with `--sanitize-result`. -/
example (L : Lib N n l) : AlwaysFails L exFiles ("reversed" :: line (.flag "--sanitize-result" :: exItems .reversed)) .die := by
  have h := exItems_follows .reversed
  refine C77_sanitize L exFiles 0 .reversed (.flag "--sanitize-result" :: exItems .reversed) ⟨?_, h.once, ?_, ?_, h.enough, h.notMore, h.kinds⟩
    (by decide) (g := exG) (w := exW) ?_
  · intro m v hm
    exact h.known m v (by simpa using hm)
  · intro m k hm
    obtain ⟨v, hv⟩ := h.all m k hm
    exact ⟨v, List.mem_cons_of_mem _ hv⟩
  · intro m hm
    simp [exItems] at hm
    rw [hm]
    decide
  · have := exItems_readable .reversed
    exact ⟨this.spec, this.states, this.input⟩

/-! ## The date -/

/-- a numeral up to a character that is no digit can be told from the text -/
theorem showNat_split {a b : Nat} {c : Char} (hc : c.isDigit = false) {s t : List Char} (h : showNat a ++ c :: s = showNat b ++ c :: t) :
    a = b ∧ s = t := by
  have key : ∀ (x y s t : List Char), (∀ d ∈ x, d.isDigit = true) → (∀ d ∈ y, d.isDigit = true) → x ++ c :: s = y ++ c :: t → x = y ∧ s = t := by
    intro x
    induction x with
    | nil =>
      intro y s t _ hy h
      cases y with
      | nil => exact ⟨rfl, (List.cons.inj h).2⟩
      | cons d y =>
        have := hy d (by simp)
        rw [← (List.cons.inj h).1, hc] at this
        cases this
    | cons e x ih =>
      intro y s t hx hy h
      cases y with
      | nil =>
        have := hx e (by simp)
        rw [(List.cons.inj h).1, hc] at this
        cases this
      | cons d y =>
        obtain ⟨h1, h2⟩ := List.cons.inj h
        obtain ⟨h3, h4⟩ := ih y s t (fun d hd => hx d (by simp [hd])) (fun d hd => hy d (by simp [hd])) h2
        exact ⟨by rw [h1, h3], h4⟩
  obtain ⟨h1, h2⟩ := key _ _ _ _ (digits_showNat a).2 (digits_showNat b).2 h
  exact ⟨by rw [← value_showNat a, h1, value_showNat], h2⟩

/-- **C77**, the line `time`: on the day `d` of the month `m` (January being 1) of the year `y`, at `h:mi:s`, it shows the year, the number of
the month before, the day, and the time, each without leading zeros; and different moments are shown differently. -/
theorem C77_time :
    (∀ y m d h mi s : Nat, 1900 ≤ y → 1 ≤ m →
      currentTimeStr ⟨y - 1900, m - 1, d, h, mi, s⟩ =
        (toString y ++ "-" ++ toString (m - 1) ++ "-" ++ toString d ++ "_" ++ toString h ++ "-" ++ toString mi ++ "-" ++ toString s).toList) ∧
    ∀ t t' : Tm, currentTimeStr t = currentTimeStr t' → t = t' := by
  constructor
  · intro y m d h mi s hy hm
    unfold currentTimeStr
    dsimp only
    rw [Nat.sub_add_cancel hy]
    simp only [String.toList_append, show ∀ k : Nat, (toString k).toList = showNat k from fun k => by simp [showNat, Nat.repr, toString]]
    rfl
  · intro t t' h
    unfold currentTimeStr at h
    simp only [List.append_assoc, List.singleton_append] at h
    obtain ⟨h1, h⟩ := showNat_split (by decide) h
    obtain ⟨h2, h⟩ := showNat_split (by decide) h
    obtain ⟨h3, h⟩ := showNat_split (by decide) h
    obtain ⟨h4, h⟩ := showNat_split (by decide) h
    obtain ⟨h5, h⟩ := showNat_split (by decide) h
    have h6 := value_showNat t.sec
    rw [h, value_showNat] at h6
    cases t; cases t'
    simp only [Tm.mk.injEq] at *
    omega

/-- New Year's Eve 2026 is shown as the 31st of the month 11. -/
example : currentTimeStr ⟨2026 - 1900, 12 - 1, 31, 23, 59, 7⟩ = "2026-11-31_23-59-7".toList := by decide

end Homfa.Cli
