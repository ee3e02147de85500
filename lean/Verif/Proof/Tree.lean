import Verif.Spec.Tree
import Verif.Props.Backstream
import Verif.Props.Commands
import Verif.Proof.Prepared

/-! # The weights of the OFFLINE and REVERSE runners are decision trees -/

namespace Homfa

variable {N n l : Nat}

theorem bootHalf_total (S : Scheme N n l) (hN : 0 < N) (x : TRLWE N) : S.bootHalf x = .ok (S.bsHalfToHalf (S.iks (sampleExtract x ⟨0, hN⟩))) := by
  unfold Scheme.bootHalf
  rw [sampleExtractAt_ok hN]; rfl

/-- only the words as long as the inputs matter -/
theorem tree_congr (S : Scheme N n l) (boot : Nat) : ∀ (cs : List (Gsw l N)) (p q : List Bool → Bool), (∀ w, w.length = cs.length → p w = q w) →
    tree S boot cs p = tree S boot cs q
  | [], p, q, h => by unfold tree; rw [h [] rfl]
  | c :: cs, p, q, h => by
    unfold tree
    rw [tree_congr S boot cs _ _ fun w hw => h (true :: w) (by simp [hw]), tree_congr S boot cs _ _ fun w hw => h (false :: w) (by simp [hw])]

theorem tree_total (S : Scheme N n l) (hN : 0 < N) (boot : Nat) : ∀ (cs : List (Gsw l N)) (p : List Bool → Bool), ∃ v, tree S boot cs p = .ok v
  | [], p => ⟨_, rfl⟩
  | c :: cs, p => by
    obtain ⟨a, ha⟩ := tree_total S hN boot cs fun w => p (true :: w)
    obtain ⟨b, hb⟩ := tree_total S hN boot cs fun w => p (false :: w)
    unfold tree
    rw [ha, Res.bind_ok, hb, Res.bind_ok]
    dsimp only
    split
    · exact ⟨_, bootHalf_total S hN _⟩
    · exact ⟨_, rfl⟩

namespace Backstream

variable {S : Scheme N n l}

/-- One call of `eval`: the exact new weights. -/
theorem eval_value (hN : 0 < N) {r : Backstream N} {sts : List Nat} (c : Gsw l N)
    (hst : evalStates r.graph r.inputSize r.numProcessed = .ok sts) (hnd : sts.Nodup) (hlt : ∀ q ∈ sts, q < r.graph.size)
    (hb : 0 < r.bootInterval) {V : Nat → TRLWE N} (hw : ∀ q ∈ sts, ∀ b, r.weight[r.graph.nx q b]? = some (V (r.graph.nx q b))) :
    ∃ r', r.eval S c = .ok r' ∧ r'.graph = r.graph ∧ r'.inputSize = r.inputSize ∧ r'.bootInterval = r.bootInterval ∧
      r'.numProcessed = r.numProcessed + 1 ∧ ∀ q ∈ sts, ∃ v, r'.weight[q]? = some v ∧
        (if (r.numProcessed + 1) % r.bootInterval = 0 then S.bootHalf (S.cmux c (V (r.graph.nx q true)) (V (r.graph.nx q false)))
          else pure (S.cmux c (V (r.graph.nx q true)) (V (r.graph.nx q false)))) = .ok v := by
  unfold Backstream.eval
  dsimp only
  rw [hst, Res.bind_ok]
  have hlen := vresize_length r.workspace r.graph.size (trivialTRLWEZero N)
  obtain ⟨w', h1, h2, h3, h4⟩ := parFor_write (task := backstreamTask S r.graph c) (rest := [r.weight])
    (P := fun q x => x = S.cmux c (V (r.graph.nx q true)) (V (r.graph.nx q false)))
    (w0 := vresize r.workspace r.graph.size (trivialTRLWEZero N)) sts hnd (by
      intro q hq w hwlen _
      have hq' := hlt q hq
      refine ⟨_, rfl, ?_⟩
      unfold backstreamTask
      rw [Prog.run_local _ (Graph.WF.nextState_ok hq' false), Prog.run_local _ (Graph.WF.nextState_ok hq' true)]
      rw [Prog.run_read1 (hw q hq false), Prog.run_read1 (hw q hq true), Prog.run_write0 (by rw [hwlen, hlen]; exact hq')])
    (by rw [hlen]; exact hlt)
  rw [h1, Res.bind_ok]
  show ∃ r', (if r.bootInterval = 0 then _ else _) = _ ∧ _
  rw [if_neg (by omega)]
  by_cases hz : (r.numProcessed + 1) % r.bootInterval = 0
  · rw [if_pos hz]
    simp only [hz, if_true]
    unfold Backstream.bootstrapWeight
    dsimp only
    obtain ⟨w'', k1, k2, k3, k4⟩ := parFor_write (task := bootTask S) (rest := [])
      (P := fun q x => S.bootHalf (S.cmux c (V (r.graph.nx q true)) (V (r.graph.nx q false))) = .ok x) (w0 := w') sts hnd (by
        intro q hq w hwlen hsame
        obtain ⟨x, hx, rfl⟩ := h3 q hq
        refine ⟨_, bootHalf_total S hN _, ?_⟩
        unfold bootTask
        rw [Prog.run_read0 (hsame.trans hx), Prog.run_local _ (bootHalf_total S hN _),
          Prog.run_write0 (by rw [hwlen, h2, hlen]; exact hlt q hq)]) (by rw [h2, hlen]; exact hlt)
    rw [k1, Res.bind_ok]
    exact ⟨_, rfl, rfl, rfl, rfl, rfl, fun q hq => k3 q hq⟩
  · rw [if_neg hz]
    simp only [hz, if_false]
    refine ⟨_, rfl, rfl, rfl, rfl, rfl, fun q hq => ?_⟩
    obtain ⟨x, hx, rfl⟩ := h3 q hq
    exact ⟨_, hx, rfl⟩

/-- The whole run: the weights that matter are the trees of the words accepted from the states. -/
theorem evalAll_value (hN : 0 < N) {r : Backstream N} (hb : 0 < r.bootInterval)
    (hnp : r.numProcessed = 0) (dom : Nat → List Nat) (m : Nat)
    (hst : ∀ k < m, evalStates r.graph r.inputSize k = .ok (dom (k + 1)))
    (hnd : ∀ k, (dom k).Nodup) (hlt : ∀ k, ∀ q ∈ dom k, q < r.graph.size)
    (hcl : ∀ k < m, ∀ q ∈ dom (k + 1), ∀ b, r.graph.nx q b ∈ dom k)
    (hw : ∀ q ∈ dom 0, r.weight[q]? = some (if r.graph.fin q then trivialTRLWE2 N else trivialTRLWEZero N))
    (cs : List (Gsw l N)) (hm : cs.length ≤ m) :
    ∃ r', r.evalAll S cs = .ok r' ∧ r'.graph = r.graph ∧ r'.inputSize = r.inputSize ∧ r'.bootInterval = r.bootInterval ∧
      r'.numProcessed = cs.length ∧ ∀ q ∈ dom cs.length, ∃ v, r'.weight[q]? = some v ∧
        tree S r.bootInterval cs.reverse (fun w => r.graph.fin (w.foldl r.graph.nx q)) = .ok v := by
  induction cs using List.reverseRecOn with
  | nil => exact ⟨r, rfl, rfl, rfl, rfl, hnp, fun q hq => ⟨_, hw q hq, rfl⟩⟩
  | append_singleton cs c ih =>
    rw [List.length_append, List.length_singleton] at hm
    obtain ⟨r1, h1, h2, h3, h4, h5, h6⟩ := ih (by omega)
    -- the weights after `cs`
    let V : Nat → TRLWE N := fun q => (tree_total S hN r.bootInterval cs.reverse fun w => r.graph.fin (w.foldl r.graph.nx q)).choose
    have hV : ∀ q, tree S r.bootInterval cs.reverse (fun w => r.graph.fin (w.foldl r.graph.nx q)) = .ok (V q) :=
      fun q => (tree_total S hN r.bootInterval cs.reverse fun w => r.graph.fin (w.foldl r.graph.nx q)).choose_spec
    obtain ⟨r2, k1, k2, k3, k4, k5, k6⟩ := eval_value (S := S) hN (r := r1) (sts := dom (cs.length + 1)) c
      (by rw [h3, h2, h5]; exact hst cs.length (by omega)) (hnd _) (by rw [h2]; exact hlt _) (by rw [h4]; exact hb) (V := V)
      (by
        intro q hq b
        rw [h2]
        obtain ⟨v, h7, h8⟩ := h6 _ (hcl cs.length (by omega) q hq b)
        rw [hV] at h8
        cases h8
        exact h7)
    refine ⟨r2, ?_, by rw [k2, h2], by rw [k3, h3], by rw [k4, h4], by rw [k5, h5]; simp, fun q hq => ?_⟩
    · rw [evalAll_append, h1]
      show [c].foldlM (fun r c => r.eval S c) r1 = _
      rw [List.foldlM_cons, k1]
      rfl
    · rw [List.length_append, List.length_singleton] at hq
      obtain ⟨v, h7, h8⟩ := k6 q hq
      rw [h2, h4, h5] at h8
      refine ⟨v, h7, ?_⟩
      rw [List.reverse_append, List.reverse_singleton, List.singleton_append]
      unfold tree
      simp only [List.foldl_cons]
      rw [hV, Res.bind_ok, hV, Res.bind_ok, List.length_reverse]
      exact h8

theorem result_value {r : Backstream N} {boot : Nat} {cs : List (Gsw l N)} {p : List Bool → Bool} {v : TRLWE N}
    (h : r.weight[r.graph.init]? = some v) (ht : tree S boot cs p = .ok v) : r.result = treeAnswer S boot cs p := by
  unfold result treeAnswer
  rw [ht, Res.bind_ok]
  show (do let w ← vat r.weight r.graph.init; sampleExtractAt w 0) = _
  rw [vat_eq_ok.2 h, Res.bind_ok]

end Backstream

theorem treeAnswer_congr (S : Scheme N n l) (boot : Nat) {cs : List (Gsw l N)} {p q : List Bool → Bool} (h : ∀ w, w.length = cs.length → p w = q w) :
    treeAnswer S boot cs p = treeAnswer S boot cs q := by
  unfold treeAnswer
  rw [tree_congr S boot cs p q h]

theorem treeAnswer_total (S : Scheme N n l) (hN : 0 < N) (boot : Nat) (cs : List (Gsw l N)) (p : List Bool → Bool) :
    ∃ c, treeAnswer S boot cs p = .ok c := by
  obtain ⟨v, hv⟩ := tree_total S hN boot cs p
  unfold treeAnswer
  rw [hv, Res.bind_ok, sampleExtractAt_ok hN]
  exact ⟨_, rfl⟩

/-- the OFFLINE runner -/
theorem offline_value (S : Scheme N n l) (hN : 0 < N) {g : Graph} (hg : g.WF) {boot : Nat} (hb : 0 < boot) {cs : List (Gsw l N)}
    (h31 : cs.length < 2 ^ 31) :
    ∃ r r', offlineMake g cs.length boot true false = .ok r ∧ r.evalAll S cs = .ok r' ∧ r'.result = treeAnswer S boot cs.reverse g.dfa.accepts := by
  obtain ⟨r, h1, h2, h3, h4, h5, h6, h7, h8⟩ := Backstream.make_weight (N := N) hg boot (some cs.length)
  have hnx : r.graph.nx = g.nx := by rw [h2]; rfl
  have hfin : r.graph.fin = g.fin := by rw [h2]; rfl
  have hsz : r.graph.size = g.size := by rw [h2]; rfl
  have hin : r.graph.init = g.init := by rw [h2]
  obtain ⟨r', k1, k2, _, _, _, k8⟩ := Backstream.evalAll_value (S := S) hN (by rw [h5]; exact hb) h6
    (offDom g cs.length) cs.length
    (by intro k hk; rw [h2, h4]; exact offStates _ _ hk h31)
    (fun k => (Graph.sorted_levelSet (by simp) _).nodup)
    (fun k q hq => by rw [hsz]; exact Graph.levelSet_lt (init_lt_all hg) _ q hq)
    (by
      intro k hk q hq b
      rw [hnx]
      have : cs.length - k = (cs.length - (k + 1)) + 1 := by omega
      unfold offDom
      rw [this, Graph.levelSet, hg.mem_nextSet (Graph.levelSet_lt (init_lt_all hg) _)]
      exact ⟨q, hq, b, rfl⟩)
    (by
      intro q hq
      rw [hfin]
      exact h8 q (Graph.levelSet_lt (init_lt_all hg) _ q hq)) cs (Nat.le_refl _)
  obtain ⟨v, e1, e2⟩ := k8 g.init (by unfold offDom; simp [Graph.levelSet])
  refine ⟨r, r', h1, k1, ?_⟩
  rw [hfin, hnx, h5] at e2
  exact Backstream.result_value (by rw [k2, hin]; exact e1) e2

/-- the REVERSE runner on its own graph -/
theorem make_value (S : Scheme N n l) (hN : 0 < N) {g : Graph} (hg : g.WF) {boot : Nat} (hb : 0 < boot) :
    ∃ r, Backstream.make g boot none true false = .ok r ∧ ∀ cs : List (Gsw l N), ∃ r', r.evalAll S cs = .ok r' ∧
      r'.result = treeAnswer S boot cs.reverse g.dfa.accepts := by
  obtain ⟨r, h1, h2, h3, h4, h5, h6, h7, h8⟩ := Backstream.make_weight (N := N) hg boot none
  have h2 : r.graph = g := h2
  refine ⟨r, h1, fun cs => ?_⟩
  obtain ⟨r', k1, k2, _, _, _, k8⟩ := Backstream.evalAll_value (S := S) hN (by rw [h5]; exact hb) h6
    (fun _ => List.range g.size) cs.length
    (by intro k hk; rw [h2, h4]; rfl)
    (fun k => List.nodup_range)
    (fun k q hq => by rw [h2]; exact List.mem_range.1 hq)
    (by intro k hk q hq b; rw [h2]; exact List.mem_range.2 (hg.nx_lt (List.mem_range.1 hq) b))
    (by intro q hq; rw [h2]; exact h8 q (List.mem_range.1 hq)) cs (Nat.le_refl _)
  obtain ⟨v, e1, e2⟩ := k8 g.init (List.mem_range.2 hg.init_lt)
  refine ⟨r', k1, ?_⟩
  rw [h2, h5] at e2
  exact Backstream.result_value (by rw [k2, h2]; exact e1) e2

theorem reverse_value (S : Scheme N n l) (hN : 0 < N) {g : Graph} (hg : g.WF) {boot : Nat} (hb : 0 < boot) (isRev : Bool) :
    ∃ r, reverseMake g boot isRev true false = .ok r ∧ ∀ cs : List (Gsw l N), ∃ r', r.evalAll S cs = .ok r' ∧
      r'.result = treeAnswer S boot cs.reverse fun w => g.dfa.accepts (if isRev then w else w.reverse) := by
  unfold reverseMake
  cases isRev with
  | true => exact make_value S hN hg hb
  | false =>
    obtain ⟨g1, a1, a2, a3⟩ := C03_reversed_language g hg
    obtain ⟨g2, b1, b2, b3⟩ := C04_minimized_language g1 a2
    have e : ∀ w, g2.dfa.accepts w = g.dfa.accepts w.reverse := fun w => by
      have h1 := b3 w
      rw [a3, b2.accepts_eq, hg.accepts_eq] at h1
      exact Except.ok.inj h1
    simp only [Bool.false_eq_true, if_false]
    rw [a1, Res.bind_ok, b1, Res.bind_ok]
    obtain ⟨r, h1, h2⟩ := make_value S hN b2 hb
    refine ⟨r, h1, fun cs => ?_⟩
    obtain ⟨r', k1, k2⟩ := h2 cs
    exact ⟨r', k1, k2.trans (treeAnswer_congr S boot fun w _ => e w)⟩

end Homfa

namespace Homfa.Cli

variable {N n l : Nat} {L : Lib N n l}

theorem exec_offline {fs : Files} {spec input bkey out : String} {boot : Nat} {san : Bool} {r : Res (Files × List Char)} :
    Exec L [] fs (.runOffline spec input out boot bkey san) r ↔ ∃ q, Fetch .reversed (fs input) q ∧ r = (do
        let (pre, cs) ← q
        let b ← readArchive L.loadBKey (fs bkey)
        let s ← readSpec (fs spec)
        let c ← doRunOffline (L.server b) s (pre.headD 0) cs boot san
        pure (fs.set out (L.saveRes c), [])) := by
  constructor
  · intro h; cases h with
    | runOffline hq => exact ⟨_, hq, rfl⟩
  · rintro ⟨q, hq, rfl⟩
    exact .runOffline hq

theorem run_offline_line {fs : Files} {B R S C : String} (hB : Word B) (hR : Word R) (hS : Word S) (hC : Word C)
    (h : (fs B).isSome) (hs : (fs S).isSome) (hc : (fs C).isSome) {boot : Nat} (h0 : 0 < boot) (h64 : boot < 2 ^ 64)
    {r : Res (Files × List Char)} :
    RunHomfa L [] fs ["run", "offline", "--bkey", B, "--out", R, "--spec", S, "--in", C, "--bootstrapping-freq", toString boot] r ↔
      Exec L [] fs (.runOffline S C R boot B false) r := by
  obtain ⟨b, h⟩ := Option.isSome_iff_exists.1 h
  obtain ⟨s, hs⟩ := Option.isSome_iff_exists.1 hs
  obtain ⟨c, hc⟩ := Option.isSome_iff_exists.1 hc
  have hf : Cmd.runOffline.usage.Follows (fun f => (fs f).isSome) (optItems Cmd.runOffline.usage [B, R, S, C, toString boot]) := by
    refine follows_opts rfl (by decide) rfl fun p hp => ?_
    simp only [Cmd.usage, List.zip_cons_cons, List.zip_nil_right, List.mem_cons, List.not_mem_nil, or_false] at hp
    rcases hp with rfl | rfl | rfl | rfl | rfl
    · exact hB.file h
    · exact hR.text _
    · exact hS.file hs
    · exact hC.file hc
    · exact positive_ok h0 h64 _
  refine (run_iff (L := L) (stdin := []) .runOffline (w := ["run", "offline"]) (by simp [Cmd.names]) hf).trans ?_
  have : Cmd.runOffline.call (optItems Cmd.runOffline.usage [B, R, S, C, toString boot]) =
    .runOffline S C R (Nat.ofDigitChars 10 (toString boot).toList 0) B false := rfl
  rw [this, ofDigits_toString]

/-- as `fetch_cases`, with the size of the file -/
theorem fetch_size {kind : StreamKind} (hbs : 0 < blockSize l N) (hbs' : blockSize l N < 2 ^ 63) {file : List Byte} (hlen : file.length < 2 ^ 63)
    {r : Res (List Nat × List (Gsw l N))} (h : Fetch kind (some file) r) :
    (∃ e, r = .error e) ∨ ∃ pre cs, r = .ok (pre, cs) ∧ (kind = .reversed → pre.headD 0 = cs.length) ∧ cs.length * blockSize l N = file.length := by
  cases r with
  | error e => exact .inl ⟨e, rfl⟩
  | ok p =>
    right
    obtain ⟨b, e, k, hk⟩ := fetch_whole hbs (fun b hb => by cases hb; exact hlen) h
    cases e
    obtain ⟨cs, rfl⟩ := file_surj (l := l) (N := N) hbs k file (by rw [hk, Nat.mul_comm])
    have hn : (cs.flatMap saveGsw).length = cs.length * blockSize l N := length_file cs
    cases kind with
    | forward =>
      obtain ⟨pre, _, e⟩ := (fetch_forward hbs hbs' hlen).2 _ h
      exact ⟨_, _, e, fun h => (by cases h), hn.symm⟩
    | reversed =>
      obtain ⟨pre, h3, e⟩ := (fetch_reversed hbs hbs' hlen).2 _ h
      obtain ⟨_, k2, k3⟩ := readsReversed_eq hbs hbs' hlen h3
      refine ⟨_, _, e, fun _ => ?_, by rw [List.length_reverse]; exact hn.symm⟩
      cases pre with
      | nil => exact absurd rfl k2
      | cons p pre => rw [List.length_reverse]; exact k3 p (by simp)

end Homfa.Cli
