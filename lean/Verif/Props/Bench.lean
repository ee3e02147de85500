import Verif.Model.Bench
import Verif.Props.Commands

/-!
# C40 (benchmark loop) and C53: the benchmark program
-/

namespace Homfa

variable {N n l : Nat} {S : Scheme N n l} {δ : Noise} {Enc : Gsw l N → Bool → Prop}

/-- the ciphertexts produced by a run of the loop from index `k` on -/
def encFrom (S : Scheme N n l) (rand : Nat → Nat) : Nat → List Bool → List (Gsw l N)
  | _, [] => []
  | k, b :: w => S.encrypt (rand k) b :: encFrom S rand (k + 1) w

theorem encFrom_sound (hS : S.Sound δ Enc) (rand : Nat → Nat) : ∀ (w : List Bool) (k : Nat), List.Forall₂ Enc (encFrom S rand k w) w
  | [], _ => .nil
  | _ :: w, k => .cons (hS.encrypt _ _) (encFrom_sound hS rand w (k + 1))

theorem benchResults_append (a b : List BenchLine) : benchResults (a ++ b) = benchResults a ++ benchResults b := List.filterMap_append

theorem benchTurn_out {ρ : Type} (rand : Nat → Nat) (evalOne : ρ → Gsw l N → Res ρ) (result : ρ → Res (TLWE N × ρ))
    (info : ρ → List BenchLine) {f : Nat} (hf : f ≠ 0) {s : BenchSt ρ} (b : Bool) (hd : f ∣ s.numProcessed + 1) :
    benchTurn S rand evalOne result info f s b = (evalOne s.runner (S.encrypt (rand s.numProcessed) b)).bind fun r =>
      (result r).bind fun p => .ok { runner := p.2, numProcessed := s.numProcessed + 1,
                                     out := s.out ++ info s.runner ++ [.result (decryptBit p.1 S.sk)] } := by
  unfold benchTurn
  dsimp only
  simp only [if_neg hf, Nat.mod_eq_zero_of_dvd hd, ne_eq, not_true_eq_false, if_false]
  rfl

theorem benchTurn_skip {ρ : Type} (rand : Nat → Nat) (evalOne : ρ → Gsw l N → Res ρ) (result : ρ → Res (TLWE N × ρ))
    (info : ρ → List BenchLine) {f : Nat} (hf : f ≠ 0) {s : BenchSt ρ} (b : Bool) (hd : ¬ f ∣ s.numProcessed + 1) :
    benchTurn S rand evalOne result info f s b = (evalOne s.runner (S.encrypt (rand s.numProcessed) b)).bind fun r =>
      .ok { runner := r, numProcessed := s.numProcessed + 1, out := s.out ++ info s.runner } := by
  unfold benchTurn
  dsimp only
  have : (s.numProcessed + 1) % f ≠ 0 := fun h => hd (Nat.dvd_of_mod_eq_zero h)
  simp only [if_neg hf, this, ne_eq, not_false_eq_true, if_true]
  rfl

/-- the loop is a history of calls -/
theorem benchTurn_fold {ρ : Type} (rand : Nat → Nat) (evalOne : ρ → Gsw l N → Res ρ) (result : ρ → Res (TLWE N × ρ))
    (info : ρ → List BenchLine) (hinfo : ∀ r, benchResults (info r) = []) (f : Nat) :
    ∀ (w : List Bool) (_ : w ≠ [] → f ≠ 0) (s : BenchSt ρ),
    (∀ e, runCalls evalOne result s.runner (loopCalls (some f) (encFrom S rand s.numProcessed w) s.numProcessed) = .error e →
      w.foldlM (benchTurn S rand evalOne result info f) s = .error e) ∧
    (∀ outs r', runCalls evalOne result s.runner (loopCalls (some f) (encFrom S rand s.numProcessed w) s.numProcessed) = .ok (outs, r') →
      ∃ s', w.foldlM (benchTurn S rand evalOne result info f) s = .ok s' ∧
        benchResults s'.out = benchResults s.out ++ outs.map fun c => decryptBit c S.sk) := by
  intro w
  induction w with
  | nil =>
    intro _ s
    refine ⟨fun e h => (by cases h), fun outs r' h => ⟨s, rfl, ?_⟩⟩
    cases h
    simp
  | cons b w ih =>
    intro hf' s
    have hf := hf' (by simp)
    replace ih := ih fun _ => hf
    rw [List.foldlM_cons, encFrom, loopCalls, runCalls]
    by_cases hd : f ∣ s.numProcessed + 1
    · rw [benchTurn_out rand evalOne result info hf b hd]
      rw [if_pos hd]
      simp only [List.singleton_append, runCalls]
      cases he : evalOne s.runner (S.encrypt (rand s.numProcessed) b) with
      | error e => exact ⟨fun e' h => (by cases h; rfl), fun outs r' h => (by cases h)⟩
      | ok r =>
        show (∀ e, (result r >>= _) = _ → ((result r).bind _ >>= _) = _) ∧ (∀ outs r', (result r >>= _) = _ → ∃ s', ((result r).bind _ >>= _) = _ ∧ _)
        cases hr : result r with
        | error e => exact ⟨fun e' h => (by cases h; rfl), fun outs r' h => (by cases h)⟩
        | ok p =>
          obtain ⟨ih1, ih2⟩ := ih { runner := p.2, numProcessed := s.numProcessed + 1,
                                    out := s.out ++ info s.runner ++ [.result (decryptBit p.1 S.sk)] }
          dsimp only at ih1 ih2
          cases hc : runCalls evalOne result p.2 (loopCalls (some f) (encFrom S rand (s.numProcessed + 1) w) (s.numProcessed + 1)) with
          | error e =>
            refine ⟨fun e' h => ?_, fun outs r' h => ?_⟩
            · rw [Res.bind_ok] at h
              rw [hc] at h
              cases h
              exact ih1 e hc
            · rw [Res.bind_ok] at h
              rw [hc] at h
              cases h
          | ok q =>
            refine ⟨fun e' h => ?_, fun outs r' h => ?_⟩
            · rw [Res.bind_ok] at h
              rw [hc] at h
              cases h
            · rw [Res.bind_ok] at h
              rw [hc] at h
              cases h
              obtain ⟨s', h1, h2⟩ := ih2 q.1 q.2 hc
              refine ⟨s', h1, ?_⟩
              rw [h2, benchResults_append, benchResults_append, hinfo]
              simp [benchResults]
    · rw [benchTurn_skip rand evalOne result info hf b hd]
      rw [if_neg hd, List.nil_append]
      cases he : evalOne s.runner (S.encrypt (rand s.numProcessed) b) with
      | error e => exact ⟨fun e' h => (by cases h; rfl), fun outs r' h => (by cases h)⟩
      | ok r =>
        obtain ⟨ih1, ih2⟩ := ih { runner := r, numProcessed := s.numProcessed + 1, out := s.out ++ info s.runner }
        refine ⟨fun e h => ih1 e h, fun outs r' h => ?_⟩
        obtain ⟨s', h1, h2⟩ := ih2 outs r' h
        refine ⟨s', h1, ?_⟩
        rw [h2, benchResults_append, hinfo, List.append_nil]

/-- the verdicts after each multiple of `f` bits -/
def verdicts (verdict : List Bool → Res Bool) (f : Nat) (w : List Bool) : List (Res Bool) :=
  (((List.range w.length).map (· + 1)).filter fun k => f ∣ k).map fun k => verdict (w.take k)

theorem benchPlain_fold (g : Graph) (hg : g.WF) (f : Nat) (hf : f ≠ 0) : ∀ (v u : List Bool) (out : List BenchLine) (q : Nat),
    g.runWord g.initialState u = .ok q → ∃ q' out', v.foldlM (benchPlainTurn g f) (q, u.length, out) = .ok (q', u.length + v.length, out') ∧
      (benchResults out').map Except.ok = (benchResults out).map Except.ok ++
        (loopMarks (some f) v.length u.length).map fun k => g.accepts ((u ++ v).take k) := by
  intro v
  induction v with
  | nil => intro u out q hq; exact ⟨q, out, rfl, by simp [loopMarks]⟩
  | cons b v ih =>
    intro u out q hq
    have hlt : q < g.size := by
      have := (hg.run_ok hg.init_lt u).1
      rw [show g.initialState = g.init from rfl, this] at hq
      rw [← Except.ok.inj hq]
      exact hg.run_lt hg.init_lt u
    have hq' : g.runWord g.initialState (u ++ [b]) = .ok (g.nx q b) := by
      unfold Graph.runWord at hq ⊢
      rw [List.foldlM_append, hq, Res.bind_ok, List.foldlM_cons, Graph.WF.nextState_ok hlt b]
      rfl
    have hacc : g.accepts (u ++ [b]) = .ok (g.fin (g.nx q b)) := by
      unfold Graph.accepts
      rw [hq', Res.bind_ok]
      exact hg.isFinalState_ok (hg.nx_lt hlt b)
    rw [List.foldlM_cons]
    unfold benchPlainTurn
    dsimp only
    rw [Graph.WF.nextState_ok hlt b, Res.bind_ok, if_neg hf]
    rw [List.length_cons, loopMarks_succ]
    dsimp only
    by_cases hd : f ∣ u.length + 1
    · rw [if_pos (Nat.mod_eq_zero_of_dvd hd), if_pos hd, hg.isFinalState_ok (hg.nx_lt hlt b)]
      obtain ⟨q2, out2, h1, h2⟩ := ih (u ++ [b]) (out ++ [.state (g.nx q b)] ++ [.result (g.fin (g.nx q b))]) (g.nx q b) hq'
      rw [List.length_append, List.length_singleton] at h1 h2
      refine ⟨q2, out2, ?_, ?_⟩
      · rw [Nat.add_assoc, Nat.add_comm 1] at h1
        exact h1
      · rw [h2, benchResults_append, benchResults_append]
        simp only [List.append_assoc, List.singleton_append, List.map_append, List.map_cons]
        congr 1
        have : (u ++ b :: v).take (u.length + 1) = u ++ [b] := by
          rw [List.take_append, List.take_of_length_le (by omega)]
          simp
        rw [this, hacc]
        rfl
    · rw [if_neg (fun h => hd (Nat.dvd_of_mod_eq_zero h)), if_neg hd, Res.pure_eq, Res.bind_ok, List.nil_append]
      obtain ⟨q2, out2, h1, h2⟩ := ih (u ++ [b]) (out ++ [.state (g.nx q b)]) (g.nx q b) hq'
      rw [List.length_append, List.length_singleton] at h1 h2
      refine ⟨q2, out2, ?_, ?_⟩
      · rw [Nat.add_assoc, Nat.add_comm 1] at h1
        exact h1
      · rw [h2, benchResults_append]
        simp [benchResults]

/-- what a successful plaintext benchmark tells -/
theorem benchPlain_ok {spec : List Char} {input : Option (List Byte)} {f ap : Nat} (hap : 0 < ap) {lines : List BenchLine}
    (h : benchPlain spec input f ap = .ok lines) :
    ∃ (g : Graph) (rs : List (List Byte)), Graph.fromIstream spec = .ok g ∧ input = some rs.flatten ∧
      (∀ r ∈ rs, r.length = recordBytes ap) ∧ (rs.flatMap (recordBits ap) ≠ [] → f ≠ 0 ∧ g.WF) ∧
      ∃ s : Nat × Nat × List BenchLine, (rs.flatMap (recordBits ap)).foldlM (benchPlainTurn g f) (g.initialState, 0, []) = .ok s ∧
        s.2.2 = lines := by
  unfold benchPlain at h
  obtain ⟨g, hg, h⟩ := Res.bind_eq_ok.1 h
  obtain ⟨_, _, h⟩ := Res.bind_eq_ok.1 h
  obtain ⟨s, hs, h⟩ := Res.bind_eq_ok.1 h
  obtain ⟨rs, h1, h2, h3⟩ := eachInputBit_ok hap hs
  refine ⟨g, rs, hg, h1, h2, fun hne => ?_, s, h3, Except.ok.inj h⟩
  cases hw : rs.flatMap (recordBits ap) with
  | nil => exact absurd hw hne
  | cons b w =>
    rw [hw, List.foldlM_cons] at h3
    obtain ⟨s1, h4, _⟩ := Res.bind_eq_ok.1 h3
    unfold benchPlainTurn at h4
    obtain ⟨q, h5, h4⟩ := Res.bind_eq_ok.1 h4
    dsimp only at h5
    refine ⟨fun hf => (by rw [if_pos hf] at h4; cases h4), wf_of_fromIstream hg ?_⟩
    unfold Graph.nextState at h5
    obtain ⟨t, h6, _⟩ := Res.bind_eq_ok.1 h5
    unfold vat at h6
    cases hd : g.delta with
    | nil => rw [hd] at h6; simp at h6
    | cons a as => unfold Graph.size; rw [hd]; simp

/-- the results of a plaintext benchmark that completes -/
theorem benchPlain_results {spec : List Char} {input : Option (List Byte)} {f ap : Nat} (hap : 0 < ap) {lines : List BenchLine}
    (h : benchPlain spec input f ap = .ok lines) :
    ∃ (g : Graph) (rs : List (List Byte)), Graph.fromIstream spec = .ok g ∧ input = some rs.flatten ∧
      (∀ r ∈ rs, r.length = recordBytes ap) ∧ (rs.flatMap (recordBits ap) ≠ [] → f ≠ 0) ∧
      (benchResults lines).map Except.ok = verdicts g.accepts f (rs.flatMap (recordBits ap)) := by
  obtain ⟨g, rs, h1, h2, h3, h4, s, h5, h6⟩ := benchPlain_ok hap h
  refine ⟨g, rs, h1, h2, h3, fun h => (h4 h).1, ?_⟩
  by_cases hw : rs.flatMap (recordBits ap) = []
  · rw [hw] at h5 ⊢
    cases h5
    rw [← h6]
    rfl
  · obtain ⟨hf, hg⟩ := h4 hw
    obtain ⟨q', out', k1, k2⟩ := benchPlain_fold g hg f hf (rs.flatMap (recordBits ap)) [] [] g.initialState rfl
    rw [List.length_nil, h5] at k1
    have k1 := Except.ok.inj k1
    rw [k1] at h6
    rw [← h6, k2]
    unfold verdicts loopMarks
    simp [benchResults]

/-- **C40 (plaintext benchmark).** If the plaintext benchmark completes then, for each multiple `k` of the output frequency, in order, it
prints one result: whether the spec accepts the first `k` bits. -/
theorem C40_bench_plain (spec : List Char) (input : Option (List Byte)) (f ap : Nat) (hap : 0 < ap) (lines : List BenchLine)
    (h : benchPlain spec input f ap = .ok lines) :
    ∃ (g : Graph) (rs : List (List Byte)), Graph.fromIstream spec = .ok g ∧ input = some rs.flatten ∧
      (∀ r ∈ rs, r.length = recordBytes ap) ∧
      (benchResults lines).map Except.ok = verdicts g.accepts f (rs.flatMap (recordBits ap)) := by
  obtain ⟨g, rs, h1, h2, h3, -, h4⟩ := benchPlain_results hap h
  exact ⟨g, rs, h1, h2, h3, h4⟩

/-- the encrypted loops print what the plaintext benchmark prints -/
theorem benchLoop_ok {ρ : Type} (rand : Nat → Nat) (evalOne : ρ → Gsw l N → Res ρ) (result : ρ → Res (TLWE N × ρ))
    (info : ρ → List BenchLine) (hinfo : ∀ r, benchResults (info r) = []) (f : Nat) (ap : Nat) (hap : 0 < ap)
    (rs : List (List Byte)) (hf : rs.flatMap (recordBits ap) ≠ [] → f ≠ 0) (hrs : ∀ r ∈ rs, r.length = recordBytes ap) (r : ρ)
    (verdict : List Bool → Res Bool) (outs : List (TLWE N)) (r' : ρ)
    (h : runCalls evalOne result r (loopCalls (some f) (encFrom S rand 0 (rs.flatMap (recordBits ap))) 0) = .ok (outs, r'))
    (hv : outs.map (fun c => Except.ok (decryptBit c S.sk)) =
      (resultWords [] (loopCalls (some f) (rs.flatMap (recordBits ap)) 0)).map verdict) :
    ∃ lines, benchLoop S rand evalOne result info f (some rs.flatten) ap r = .ok lines ∧
      (benchResults lines).map Except.ok = verdicts verdict f (rs.flatMap (recordBits ap)) := by
  obtain ⟨s', h1, h2⟩ := (benchTurn_fold (S := S) rand evalOne result info hinfo f (rs.flatMap (recordBits ap)) hf
    { runner := r, numProcessed := 0, out := [] }).2 outs r' h
  refine ⟨s'.out, ?_, ?_⟩
  · unfold benchLoop
    rw [C19_records ap hap rs hrs, h1, Res.bind_ok, Res.pure_eq]
  · rw [h2]
    have hw := resultWords_loop (some f) (rs.flatMap (recordBits ap)) []
    rw [List.length_nil, List.nil_append] at hw
    rw [hw, List.map_map] at hv
    simp only [benchResults, List.filterMap_nil, List.nil_append, List.map_map]
    rw [show (Except.ok ∘ fun c : TLWE N => decryptBit c S.sk : TLWE N → Res Bool) = fun c => Except.ok (decryptBit c S.sk) from rfl, hv]
    unfold verdicts loopMarks
    simp [Function.comp_def]

theorem benchInputSize_ok {ap : Nat} (hap : 0 < ap) {rs : List (List Byte)} (hrs : ∀ r ∈ rs, r.length = recordBytes ap) :
    ∃ k, benchInputSize (some rs.flatten) ap = .ok k := by
  unfold benchInputSize
  rw [C19_records ap hap rs hrs]
  generalize rs.flatMap (recordBits ap) = w
  generalize 0 = k
  induction w generalizing k with
  | nil => exact ⟨k, rfl⟩
  | cons b w ih => exact ih (k + 1)

/-- **C40, C53 (REVERSE benchmark).** On every spec and input on which the plaintext benchmark completes, the REVERSE benchmark completes and
prints the same results (with `--spec-reversed`, acceptance of the reversed prefixes). -/
theorem C53_bench_reversed (hS : S.Sound δ Enc) (hN : 0 < N) (rand : Nat → Nat) (spec : List Char) (input : Option (List Byte))
    (f ap boot : Nat) (hap : 0 < ap) (hb : 0 < boot) (hbud : δ.br + boot * δ.cmux + δ.ks + δ.ms < 2 ^ 30)
    (g : Graph) (hspec : Graph.fromIstream spec = .ok g) (hg : 0 < g.size) (isRev : Bool)
    (lines : List BenchLine) (h : benchPlain spec input f ap = .ok lines) :
    ∃ lines', benchReversed S rand spec input f boot ap isRev false = .ok lines' ∧
      (isRev = false → benchResults lines' = benchResults lines) ∧
      (isRev = true → ∃ rs : List (List Byte), input = some rs.flatten ∧ (∀ r ∈ rs, r.length = recordBytes ap) ∧
        (benchResults lines').map Except.ok = verdicts (fun u => g.accepts u.reverse) f (rs.flatMap (recordBits ap))) := by
  obtain ⟨g', rs, h1, h2, h3, hf, h4⟩ := benchPlain_results hap h
  rw [hspec] at h1
  cases h1
  have hwf := wf_of_fromIstream hspec hg
  obtain ⟨r, r', outs, o1, o2, o3⟩ := reverse_history hS hN g hwf boot hb isRev hbud _ _
    (loopCalls_rel (some f) (encFrom_sound hS rand (rs.flatMap (recordBits ap)) 0) 0)
  obtain ⟨lines', k1, k2⟩ := benchLoop_ok rand _ _ (fun _ => []) (fun _ => rfl) f ap hap rs hf h3 r _ outs r' o2 o3
  refine ⟨lines', ?_, ?_, ?_⟩
  · unfold benchReversed
    obtain ⟨k, hk⟩ := benchInputSize_ok hap h3
    rw [hspec, Res.bind_ok, o1, Res.bind_ok, h2, hk, Res.bind_ok, k1]
  · rintro rfl
    simp only [Bool.false_eq_true, if_false] at k2
    exact List.map_injective_iff.2 (fun _ _ => Except.ok.inj) (k2.trans h4.symm)
  · rintro rfl
    exact ⟨rs, h2, h3, by simpa using k2⟩

/-- **C53 (BLOCK benchmark).** The same for the BLOCK benchmark. -/
theorem C53_bench_block (hS : S.Sound δ Enc) (rand : Nat → Nat) (spec : List Char) (input : Option (List Byte))
    (f ap qs B : Nat) (hap : 0 < ap) (g : Graph) (hspec : Graph.fromIstream spec = .ok g) (hg : 0 < g.size)
    (hB : LiveBits g B) (hBN : B < N) (hB31 : B < 31) (hint : qs ≤ 2 ^ 31) (hbud : (max 1 qs + B) * δ.cmux + δ.cb < 2 ^ 29)
    (lines : List BenchLine) (h : benchPlain spec input f ap = .ok lines) :
    ∃ lines', benchBlock S rand spec input f qs ap false = .ok lines' ∧ benchResults lines' = benchResults lines := by
  obtain ⟨g', rs, h1, h2, h3, hf, h4⟩ := benchPlain_results hap h
  rw [hspec] at h1
  cases h1
  have hwf := wf_of_fromIstream hspec hg
  obtain ⟨r, r', outs, o1, o2, o3⟩ := C30_block_decides hS g hwf qs B hB hBN hB31 hbud hint _ _
    (loopCalls_rel (some f) (encFrom_sound hS rand (rs.flatMap (recordBits ap)) 0) 0) (by
      intro rest he
      cases hw : rs.flatMap (recordBits ap) with
      | nil => rw [hw] at he; cases he
      | cons b w => rw [hw] at he; cases he)
  obtain ⟨lines', k1, k2⟩ := benchLoop_ok rand _ _ (fun r : Block N l => [.numLive r.live.length]) (fun _ => rfl) f ap hap rs hf h3 r _
    outs r' o2 o3
  refine ⟨lines', ?_, List.map_injective_iff.2 (fun _ _ => Except.ok.inj) (k2.trans h4.symm)⟩
  unfold benchBlock
  obtain ⟨k, hk⟩ := benchInputSize_ok hap h3
  rw [hspec, Res.bind_ok, o1, Res.bind_ok, h2, hk, Res.bind_ok, k1]

/-- **C53 (FLUT benchmark).** The same for the FLUT benchmark, unless it prints an error message and exits. -/
theorem C53_bench_flut (hS : S.Sound δ Enc) (rand : Nat → Nat) (spec : List Char) (input : Option (List Byte))
    (f ap maxSecond qs boot L : Nat) (hap : 0 < ap) (g : Graph) (hspec : Graph.fromIstream spec = .ok g) (hg : 0 < g.size)
    (hL : LiveMax g L) (hqs0 : 0 < qs) (hqs : qs < 31) (hmax : maxSecond < 31) (hmaxN : 2 ^ maxSecond ≤ N) (hb : 0 < boot)
    (hbud : L * 2 ^ (qs / 2) * flutErr δ L qs (boot - 1) + qs * δ.cmux + δ.ks + δ.ms < 2 ^ 30)
    (lines : List BenchLine) (h : benchPlain spec input f ap = .ok lines) :
    (L < 2 ^ maxSecond → benchFlut S rand spec input f maxSecond qs boot ap false ≠ .error .die) ∧
    (benchFlut S rand spec input f maxSecond qs boot ap false = .error .die ∨
    ∃ lines', benchFlut S rand spec input f maxSecond qs boot ap false = .ok lines' ∧ benchResults lines' = benchResults lines) := by
  obtain ⟨g', rs, h1, h2, h3, hf, h4⟩ := benchPlain_results hap h
  rw [hspec] at h1
  cases h1
  have hwf := wf_of_fromIstream hspec hg
  have hrel := loopCalls_rel (some f) (encFrom_sound hS rand (rs.flatMap (recordBits ap)) 0) 0
  have hrun : ∀ r, Flut.make g maxSecond qs boot false = .ok r → benchFlut S rand spec input f maxSecond qs boot ap false =
      benchLoop S rand (fun r c => Flut.evalOne S r c) (fun r => Flut.result S r)
        (fun r => [.numLive r.live.length, .firstLut r.first, .secondLut r.second]) f (some rs.flatten) ap r := by
    intro r hr
    unfold benchFlut
    obtain ⟨k, hk⟩ := benchInputSize_ok hap h3
    rw [hspec, Res.bind_ok, hr, Res.bind_ok, h2, hk, Res.bind_ok]
  have hdec : ∀ r outs r', Flut.make g maxSecond qs boot false = .ok r →
      runCalls (fun r c => Flut.evalOne S r c) (fun r => Flut.result S r) r
        (loopCalls (some f) (encFrom S rand 0 (rs.flatMap (recordBits ap))) 0) = .ok (outs, r') →
      outs.map (fun c => Except.ok (decryptBit c S.sk)) =
        (resultWords [] (loopCalls (some f) (rs.flatMap (recordBits ap)) 0)).map g.accepts →
      ∃ lines', benchFlut S rand spec input f maxSecond qs boot ap false = .ok lines' ∧ benchResults lines' = benchResults lines := by
    intro r outs r' o1 o2 o3
    obtain ⟨lines', k1, k2⟩ := benchLoop_ok rand _ _ (fun r : Flut N l => [.numLive r.live.length, .firstLut r.first, .secondLut r.second])
      (fun _ => rfl) f ap hap rs hf h3 r _ outs r' o2 o3
    exact ⟨lines', by rw [hrun r o1, k1], List.map_injective_iff.2 (fun _ _ => Except.ok.inj) (k2.trans h4.symm)⟩
  refine ⟨fun hLm hd => ?_, ?_⟩
  · obtain ⟨r, r', outs, o1, o2, o3⟩ := C32_flut_no_exit hS g hwf _ qs boot L hL hLm hqs0 hqs hmax hmaxN hb hbud _ _ hrel
    obtain ⟨c, q, _⟩ := hdec r outs r' o1 o2 o3
    rw [q] at hd
    cases hd
  · obtain ⟨r, o1, o2⟩ := C32_flut_decides hS g hwf _ qs boot L hL hqs0 hqs hmax hmaxN hb hbud _ _ hrel
    rcases o2 with o2 | ⟨r', outs, o2, o3⟩
    · left
      rw [hrun r o1]
      have := (benchTurn_fold (S := S) rand _ _ (fun r : Flut N l => [.numLive r.live.length, .firstLut r.first, .secondLut r.second])
        (fun _ => rfl) f (rs.flatMap (recordBits ap)) hf { runner := r, numProcessed := 0, out := [] }).1 _ o2
      unfold benchLoop
      rw [C19_records ap hap rs h3, this]
      rfl
    · exact .inr (hdec r outs r' o1 o2 o3)

theorem bits_fold : ∀ (w s : List Bool), w.foldlM (fun (s : List Bool) b => (.ok (s ++ [b]) : Res (List Bool))) s = .ok (s ++ w)
  | [], s => by simp [pure, Except.pure]
  | b :: w, s => by
    rw [List.foldlM_cons]
    show List.foldlM _ (s ++ [b]) w = _
    rw [bits_fold w]
    simp

theorem benchOffline_fold (rand : Nat → Nat) : ∀ (w : List Bool) (k : Nat) (r r' : Backstream N) (c0 c : TLWE N) (rem : Nat),
    rem = w.length → r.evalAll S ((w.zipIdx k).map fun p => S.encrypt (rand p.2) p.1) = .ok r' → r'.result = .ok c →
    ∃ s, (w.zipIdx k).foldlM (fun s (p : Bool × Nat) => benchOfflineRun S s (S.encrypt (rand p.2) p.1)) (r, c0, rem) = .ok s ∧
      (w ≠ [] → s.2.1 = c) ∧ (w = [] → s.2.1 = c0) := by
  intro w
  induction w with
  | nil => intro k r r' c0 c rem _ _ _; exact ⟨_, rfl, fun h => absurd rfl h, fun _ => rfl⟩
  | cons b w ih =>
    intro k r r' c0 c rem hrem h hc
    rw [List.zipIdx_cons, List.map_cons] at h
    unfold Backstream.evalAll at h
    rw [List.foldlM_cons] at h
    obtain ⟨r1, h1, h2⟩ := Res.bind_eq_ok.1 h
    rw [List.zipIdx_cons, List.foldlM_cons]
    unfold benchOfflineRun
    dsimp only at h1 ⊢
    rw [h1, Res.bind_ok]
    subst hrem
    cases w with
    | nil =>
      rw [if_pos (by simp)]
      cases h2
      rw [hc, Res.bind_ok]
      exact ⟨_, rfl, fun _ => rfl, fun h => by cases h⟩
    | cons b' w =>
      rw [if_neg (by simp), Res.pure_eq, Res.bind_ok]
      obtain ⟨s, h3, h4, _⟩ := ih (k + 1) r1 r' c0 c ((b :: b' :: w).length - 1) (by simp) h2 hc
      exact ⟨s, h3, fun _ => h4 (by simp), fun h => by cases h⟩

theorem benchOffline_fold_error (rand : Nat → Nat) {e : Err} : ∀ (w : List Bool) (k : Nat) (r : Backstream N) (c0 : TLWE N) (rem : Nat),
    rem = w.length → r.evalAll S ((w.zipIdx k).map fun p => S.encrypt (rand p.2) p.1) = .error e →
    (w.zipIdx k).foldlM (fun s (p : Bool × Nat) => benchOfflineRun S s (S.encrypt (rand p.2) p.1)) (r, c0, rem) = .error e := by
  intro w
  induction w with
  | nil => intro k r c0 rem _ h; cases h
  | cons b w ih =>
    intro k r c0 rem hrem h
    rw [List.zipIdx_cons, List.map_cons] at h
    unfold Backstream.evalAll at h
    rw [List.foldlM_cons] at h
    rw [List.zipIdx_cons, List.foldlM_cons]
    unfold benchOfflineRun
    dsimp only at h ⊢
    subst hrem
    cases h1 : r.eval S (S.encrypt (rand k) b) with
    | error e' => rw [h1] at h; cases h; rfl
    | ok r1 =>
      rw [h1, Res.bind_ok] at h
      rw [Res.bind_ok]
      cases w with
      | nil => cases h
      | cons b' w =>
        rw [if_neg (by simp), Res.pure_eq, Res.bind_ok]
        exact ih (k + 1) r1 c0 _ (by simp) h

/-- **C53 (OFFLINE benchmark).** On every non-empty input on which `run plain` prints a result the OFFLINE benchmark prints the same; on an
input without bits it always prints 0, whatever `run plain` prints. -/
theorem C53_bench_offline (hS : S.Sound δ Enc) (hN : 0 < N) (rand : Nat → Nat) (spec : List Char) (input : Option (List Byte))
    (ap boot : Nat) (hap : 0 < ap) (hb : 0 < boot) (hbud : δ.br + boot * δ.cmux + δ.ks + δ.ms < 2 ^ 30)
    (h31 : (input.getD []).length / recordBytes ap * ap < 2 ^ 31) (out : List Char) (h : doRunPlain spec input ap = .ok out) :
    ∃ b, benchOffline S rand spec input boot ap false = .ok b ∧
      (input ≠ some [] → out = printResult b) ∧ (input = some [] → b = false) := by
  obtain ⟨g, rs, b, h1, h2, h3, h4, h5, h6⟩ := plain_ok hap h
  subst h3
  have hbits : eachInputBit (some rs.flatten) ap (fun (s : List Bool) b => .ok (s ++ [b])) [] = .ok (rs.flatMap (recordBits ap)) := by
    rw [C19_records ap hap rs h4, bits_fold, List.nil_append]
  have henc : ∀ (w : List Bool) (k : Nat), List.Forall₂ Enc ((w.zipIdx k).map fun p => S.encrypt (rand p.2) p.1) w := by
    intro w
    induction w with
    | nil => intro k; exact .nil
    | cons b w ih => intro k; exact .cons (hS.encrypt _ _) (ih (k + 1))
  obtain ⟨r, r', c, o1, o2, o3, o4⟩ := C28_offline_decides hS hN g h2 boot hb (rs.flatMap (recordBits ap)) _
    (henc (rs.flatMap (recordBits ap)).reverse 0) (by
      have : min boot (rs.flatMap (recordBits ap)).length * δ.cmux ≤ boot * δ.cmux := Nat.mul_le_mul_right _ (Nat.min_le_left _ _)
      omega) (by rw [length_bits hap h4]; exact h31)
  obtain ⟨s, q1, q2, q3⟩ := benchOffline_fold (S := S) rand (rs.flatMap (recordBits ap)).reverse 0 r r' ⟨fun _ => 0, 0⟩ c
    (rs.flatMap (recordBits ap)).length (by simp) o2 o3
  refine ⟨decryptBit s.2.1 S.sk, ?_, ?_, ?_⟩
  · unfold benchOffline
    rw [hbits, Res.bind_ok, h1, Res.bind_ok, o1, Res.bind_ok, q1, Res.bind_ok, Res.pure_eq]
  · intro hne
    have hw : (rs.flatMap (recordBits ap)).reverse ≠ [] := by
      cases rs with
      | nil => exact absurd rfl hne
      | cons r rs =>
        intro h0
        have := congrArg List.length h0
        simp [recordBits] at this
        exact absurd this.1 (by omega)
    rw [q2 hw]
    rw [h5] at o4
    rw [h6, Except.ok.inj o4]
  · intro he
    have he := Option.some.inj he
    have hrec : 0 < recordBytes ap := by unfold recordBytes; omega
    have hrs : rs = [] := by
      cases rs with
      | nil => rfl
      | cons r rs =>
        have := congrArg List.length he
        have hr := h4 r (by simp)
        rw [List.flatten_cons, List.length_append, List.length_nil] at this
        omega
    subst hrs
    rw [q3 rfl]
    have : Near 0 ((⟨fun _ => 0, 0⟩ : TLWE N).phase S.sk.lvl1) (half false) := by
      have h0 : (⟨fun _ => 0, 0⟩ : TLWE N).phase S.sk.lvl1 = 0 := by simp [TLWE.phase]
      rw [h0]
      exact Near.refl _
    rw [C24_decrypts _ _ S.sk (this.mono (by omega))]

/-- **C53 (OFFLINE benchmark, empty input: the claim that it always agrees with `run plain` is false).** A spec that accepts the empty word:
`run plain` prints 1, the OFFLINE benchmark 0. -/
theorem C53_bench_offline_empty_wrong (hS : S.Sound δ Enc) (hN : 0 < N) (rand : Nat → Nat) (boot : Nat) (hb : 0 < boot)
    (hbud : δ.br + boot * δ.cmux + δ.ks + δ.ms < 2 ^ 30) :
    doRunPlain exSpec (some []) 5 = .ok ['1'] ∧ benchOffline S rand exSpec (some []) boot 5 false = .ok false := by
  have hp : doRunPlain exSpec (some []) 5 = .ok ['1'] := by decide +kernel
  refine ⟨hp, ?_⟩
  obtain ⟨b, h1, _, h2⟩ := C53_bench_offline hS hN rand exSpec (some []) 5 boot (by omega) hb hbud (by decide) _ hp
  rw [h1, h2 rfl]

/-- Non-vacuity: a plaintext benchmark with output frequency 4 on 10 bits prints two results; the toy backend meets the other hypotheses. -/
example : (benchPlain exSpec (some [0x1f#8, 0x02#8]) 4 5).map benchResults = .ok [true, false] ∧
    (∃ (S : Scheme 4 2 1) (δ : Noise) (Enc : Gsw 1 4 → Bool → Prop), S.Sound δ Enc ∧ δ.br + 100 * δ.cmux + δ.ks + δ.ms < 2 ^ 30) :=
  ⟨by decide +kernel, _, toyNoise, toyEnc, toy_sound (N := 4) (n := 2) (l := 1) ⟨![1, 0, 1, 0], ![1, 0]⟩ (by decide) (by decide), by decide⟩

end Homfa
