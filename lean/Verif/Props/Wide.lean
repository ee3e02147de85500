import Verif.Props.Shell
import Verif.Props.BenchLog

/-! # C98: numbers of inputs that do not fit in an `int` -/

namespace Homfa

variable {N n l : Nat}

/-! ## OFFLINE -/

namespace Cli

variable {L : Lib N n l}

/-- **C98**, `run offline`: on a file of 2^31 ciphertexts or more it always ends with a failed assertion, whatever the ciphertexts, the keys and
the libraries are; in particular it writes no result and so never a wrong one. -/
theorem C98_offline (hbk : ∀ b, L.loadBKey (L.saveBKey b) = some b) (hN : 0 < N) (hl : 0 < l) (hbs : blockSize l N < 2 ^ 63)
    {fs : Files} {B R S C : String} (wB : Word B) (wR : Word R) (wS : Word S) (wC : Word C) {b : L.BKey} (hB : fs B = some (L.saveBKey b))
    {specB : List Byte} (hS : fs S = some specB) {g : Graph} (hg : Graph.fromIstream (textOf specB) = .ok g) (hg0 : 0 < g.size)
    {cs : List (Gsw l N)} (hC : fs C = some (cs.flatMap saveGsw)) (h63 : cs.length * blockSize l N < 2 ^ 63) (h31 : 2 ^ 31 ≤ cs.length)
    {boot : Nat} (hb : 0 < boot) (hb64 : boot < 2 ^ 64) :
    (∃ r, RunHomfa L [] fs ["run", "offline", "--bkey", B, "--out", R, "--spec", S, "--in", C, "--bootstrapping-freq", toString boot] r) ∧
    ∀ r, RunHomfa L [] fs ["run", "offline", "--bkey", B, "--out", R, "--spec", S, "--in", C, "--bootstrapping-freq", toString boot] r →
      r = .error .assertFail := by
  have hbs0 : 0 < blockSize l N := by unfold blockSize; positivity
  have hlen : (cs.flatMap saveGsw).length < 2 ^ 63 := by rw [length_file]; exact h63
  obtain ⟨⟨pre, f1⟩, f2⟩ := fetch_reversed hbs0 hbs hlen
  have hrun := fun r => run_offline (L := L) (r := r) wB wR wS wC hbk hB hS hC hb hb64
  refine ⟨⟨_, (hrun _).2 ⟨_, f1, rfl⟩⟩, fun r hr => ?_⟩
  obtain ⟨q2, hq2, rfl⟩ := (hrun r).1 hr
  obtain ⟨pre, hrd, rfl⟩ := f2 q2 hq2
  obtain ⟨k1, k2, k3⟩ := readsReversed_eq hbs0 hbs hlen hrd
  have hsz : pre.headD 0 = cs.reverse.length := by
    cases pre with
    | nil => exact absurd rfl k2
    | cons p pre => rw [List.length_reverse]; exact k3 p (by simp)
  show (doRunOffline _ _ (pre.headD 0) _ _ _).map _ = _
  rw [hsz, offline_too_many _ hN hg (wf_of_fromIstream hg hg0) hb (by rw [List.length_reverse]; exact h31)]
  rfl

/-- There are such files. -/
example : ∃ (L : Lib 16 2 1) (fs : Files) (cs : List (Gsw 1 16)), cs.length = 2 ^ 31 ∧ fs "ctxt" = some (cs.flatMap saveGsw) ∧
    ∀ r, RunHomfa L [] fs ["run", "offline", "--bkey", "bk", "--out", "res", "--spec", "a.spec", "--in", "ctxt", "--bootstrapping-freq", toString 30] r →
      r = .error .assertFail := by
  obtain ⟨φ, hφ⟩ := exists_numbering 16
  have hL := toyLib_sound (n := 2) (l := 1) (by omega) (by omega) hφ
  obtain ⟨cs, hcs⟩ : ∃ cs : List (Gsw 1 16), cs.length = 2 ^ 31 := ⟨List.replicate _ (fun _ _ _ => 0#64), List.length_replicate ..⟩
  refine ⟨toyLib 16 2 1 φ, ((exFiles.set "bk" ((toyLib 16 2 1 φ).saveBKey ((toyLib 16 2 1 φ).newBKey 0 ((toyLib 16 2 1 φ).newKey 0))))).set "ctxt" _,
    cs, hcs, Files.set_same _ _ _, ?_⟩
  have w : ∀ f ∈ ["a.spec", "in", "sk", "bk", "ctxt", "res"], Word f := exNames.words
  exact (C98_offline hL.bkey (by omega) (by omega) (by decide) (w _ (by simp)) (w _ (by simp)) (w _ (by simp)) (w _ (by simp))
    (by rw [Files.set_other _ _ (by decide)]; exact Files.set_same _ _ _)
    (by rw [Files.set_other _ _ (by decide), Files.set_other _ _ (by decide)]; rfl) exG_read (by rw [(exSpec_size exG exG_read).2]; decide)
    (Files.set_same _ _ _) (by rw [hcs]; decide) (by rw [hcs]) (by omega) (by omega)).2

end Cli

/-! ## BLOCK -/

theorem countDown_zero {k : Nat} (h : 2 ^ 31 < k) (h' : k ≤ 2 ^ 32) : countDown k = 0 := by
  have : narrow ((k : Int) - 1) < 0 := by
    unfold narrow
    rw [BitVec.toInt_ofInt, Int.bmod_def]
    split <;> omega
  unfold countDown
  omega

/-- inputs are collected until the queue is full -/
theorem block_collect (S : Scheme N n l) : ∀ (cs : List (Gsw l N)) (r : Block N l), r.queued.length + cs.length < r.queueSize →
    cs.foldlM (fun r c => r.evalOne S c) r = .ok { r with queued := r.queued ++ cs }
  | [], r, _ => by simp [pure, Except.pure]
  | c :: cs, r, h => by
    rw [List.length_cons] at h
    rw [List.foldlM_cons]
    have e : r.evalOne S c = .ok { r with queued := r.queued ++ [c] } := by
      unfold Block.evalOne
      dsimp only
      rw [List.length_append, List.length_singleton, if_pos (by omega)]
      rfl
    rw [e, Res.bind_ok, block_collect S cs]
    · simp
    · simp only [List.length_append, List.length_singleton]; omega

/-- a run on a single block -/
theorem block_single (S : Scheme N n l) {spec : List Char} {g : Graph} (hg : Graph.fromIstream spec = .ok g) (hg0 : 0 < g.size) {B : Nat}
    (hB : LiveBits g B) (hBN : B < N) (hB31 : B < 31) {qs : Nat} {cs : List (Gsw l N)} (hq : cs.length ≤ qs) (hne : cs ≠ []) :
    ∃ hN : 0 < N, doRunBlock S spec cs qs false = .ok (sampleExtract (blockPure S g (wFirst N g (g.levelSet [g.init] cs.length))
      (cs.take (countDown cs.length)) g.init) ⟨0, hN⟩) := by
  have hN : 0 < N := by omega
  refine ⟨hN, ?_⟩
  have hwf := wf_of_fromIstream hg hg0
  have hl := hB.level hwf
  let r0 : Block N l := ⟨g, qs, [], none, [g.init], [], []⟩
  have hi : ∀ q ∈ [g.init], q < g.size := init_lt_all hwf
  obtain ⟨r', w, h1, -, -, h4, h5, h6, -, h8, -⟩ := evalQueued_any S (r := { r0 with queued := cs }) hwf hne (List.pairwise_singleton _ _) hi
    (fun h => absurd rfl h)
    (by
      have h0 : (g.levelSet [g.init] cs.length).length ≠ 0 := fun h0 => levelSet_ne_nil hwf _ (List.eq_nil_of_length_eq_zero h0)
      have := log2_lt_of h0 (hl cs.length)
      exact Nat.lt_of_le_of_lt this hBN) (fun h => absurd rfl h) (show Nat.log2 1 + 1 < 31 by decide)
  have hw := h8 rfl g.init (List.mem_singleton.2 rfl)
  rw [h5] at hw
  have hw : w = blockPure S g (wFirst N g (g.levelSet [g.init] cs.length)) (cs.take (countDown cs.length)) g.init := hw
  have hmk : doRunBlock S spec cs qs false = (do
      let r ← cs.foldlM (fun r c => r.evalOne S c) r0
      let c ← r.result S
      pure c.1) := by
    unfold doRunBlock
    rw [hg, Res.bind_ok]
    rfl
  rw [hmk]
  have hres : ∀ {r : Block N l}, r.evalQueued S = .ok r' → r.result S = .ok (sampleExtract w ⟨0, hN⟩, r') := by
    intro r h
    unfold Block.result
    rw [h, Res.bind_ok, h6]
    dsimp only
    rw [sampleExtractAt_ok hN]
    rfl
  by_cases hlt : cs.length < qs
  · rw [block_collect S cs r0 (by simpa [r0] using hlt), Res.bind_ok]
    show (Block.result S { r0 with queued := cs } >>= _) = _
    rw [hres h1, Res.bind_ok, hw]
    rfl
  · have he : cs.length = qs := by omega
    obtain ⟨ds, c, hds⟩ : ∃ ds c, cs = ds ++ [c] := by
      rcases List.eq_nil_or_concat cs with h | ⟨ds, c, h⟩
      · exact absurd h hne
      · exact ⟨ds, c, by simpa using h⟩
    have hdl : ds.length + 1 = qs := by rw [← he, hds]; simp
    have hfold : cs.foldlM (fun r c => r.evalOne S c) r0 = .ok r' := by
      rw [hds, List.foldlM_append, block_collect S ds r0 (show 0 + ds.length < qs by omega), Res.bind_ok, List.foldlM_cons]
      have e : Block.evalOne S { r0 with queued := r0.queued ++ ds } c = .ok r' := by
        unfold Block.evalOne
        dsimp only
        rw [if_neg (by show ¬ ([] ++ ds ++ [c]).length < qs; simp; omega)]
        show Block.evalQueued S { r0 with queued := ds ++ [c] } = _
        rw [← hds]
        exact h1
      rw [e]
      rfl
    rw [hfold, Res.bind_ok, hres (evalQueued_empty S h4), Res.bind_ok, hw]
    rfl

/-- **C98**, `run block`: if the queue takes more than 2^31 inputs (and up to 2^32) and that many are given, the ciphertext that is written does
not depend on them; nor on the key or the libraries. -/
theorem C98_block_ignored {spec : List Char} {g : Graph} (hg : Graph.fromIstream spec = .ok g) (hg0 : 0 < g.size) {B : Nat}
    (hB : LiveBits g B) (hBN : B < N) (hB31 : B < 31) {qs k : Nat} (hq : k ≤ qs) (h31 : 2 ^ 31 < k) (h32 : k ≤ 2 ^ 32) :
    ∃ c : TLWE N, ∀ (n l : Nat) (S : Scheme N n l) (cs : List (Gsw l N)), cs.length = k → doRunBlock S spec cs qs false = .ok c := by
  refine ⟨sampleExtract (wFirst N g (g.levelSet [g.init] k) g.init) ⟨0, by omega⟩, fun n l S cs hk => ?_⟩
  obtain ⟨_, h⟩ := block_single S hg hg0 hB hBN hB31 (qs := qs) (cs := cs) (by omega) (by rintro rfl; simp at hk; omega)
  rw [h, hk, countDown_zero h31 h32]
  rfl

/-- **C98**, `run block`, the same said of the verdicts: whatever is done with the ciphertext afterwards, of two inputs of such a length of which one
is accepted and the other is not, at least one gets the wrong verdict, whichever ciphertexts of its bits are given to the command. -/
theorem C98_block_wrong {spec : List Char} {g : Graph} (hg : Graph.fromIstream spec = .ok g) (hg0 : 0 < g.size) {B : Nat}
    (hB : LiveBits g B) (hBN : B < N) (hB31 : B < 31) {qs k : Nat} (hq : k ≤ qs) (h31 : 2 ^ 31 < k) (h32 : k ≤ 2 ^ 32)
    {u v : List Bool} (hu : u.length = k) (hv : v.length = k) (huv : g.accepts u ≠ g.accepts v) (S : Scheme N n l) :
    ∃ w ∈ [u, v], ∀ cs : List (Gsw l N), cs.length = w.length → ∃ c, doRunBlock S spec cs qs false = .ok c ∧
      g.accepts w ≠ .ok (decryptBit c S.sk) := by
  obtain ⟨c, hc⟩ := C98_block_ignored (N := N) hg hg0 hB hBN hB31 hq h31 h32
  by_cases h : g.accepts u = .ok (decryptBit c S.sk)
  · exact ⟨v, by simp, fun cs hcs => ⟨c, hc _ _ S cs (hcs.trans hv), fun h' => huv (h.trans h'.symm)⟩⟩
  · exact ⟨u, by simp, fun cs hcs => ⟨c, hc _ _ S cs (hcs.trans hu), h⟩⟩

/-- For the spec whose words end with 1, and a queue for 2^31 + 1 inputs. -/
example (S : Scheme 16 2 1) : ∃ w : List Bool, w.length = 2 ^ 31 + 1 ∧ ∀ cs : List (Gsw 1 16), cs.length = w.length → ∃ c,
    doRunBlock S (Cli.textOf (exSpec.map fun c => BitVec.ofNat 8 c.toNat)) cs (2 ^ 31 + 1) false = .ok c ∧
      Cli.exG.accepts w ≠ .ok (decryptBit c S.sk) := by
  have hx := Cli.exSpec_size Cli.exG Cli.exG_read
  have ha : ∀ b k, Cli.exG.accepts (List.replicate (k + 1) b) = .ok b := by
    intro b k
    rw [← List.reverse_replicate, Cli.exG_accepts, List.replicate_succ]
    rfl
  obtain ⟨w, hw, h⟩ := C98_block_wrong (N := 16) Cli.exG_read (by rw [hx.2]; decide) (liveBits_of_size hx.1 (B := 2) (by rw [hx.2]; decide)) (by decide)
    (by decide) (Nat.le_refl (2 ^ 31 + 1)) (by decide) (by decide) (u := List.replicate (2 ^ 31 + 1) true) (v := List.replicate (2 ^ 31 + 1) false)
    (List.length_replicate ..) (List.length_replicate ..) (by rw [ha, ha]; decide) S
  refine ⟨w, ?_, h⟩
  simp only [List.mem_cons, List.not_mem_nil, or_false] at hw
  rcases hw with rfl | rfl <;> exact List.length_replicate ..

end Homfa
