import Verif.Proof.Clean
import Verif.Props.Commands
import Verif.Props.Oblivious
import Verif.Props.Noise
import Verif.Proof.Crash
/-!
# Helpers for C90: the run commands on any file
-/

namespace Homfa
open Spec

variable {N n l : Nat}

/-! ## Bytes are ciphertexts -/

theorem saveDouble_ofBytes {b : List Byte} (h : b.length = 8) : saveDouble (ofBytes b) = b := by
  match b, h with
  | [b0, b1, b2, b3, b4, b5, b6, b7], _ =>
    have h8 : List.range 8 = [0, 1, 2, 3, 4, 5, 6, 7] := rfl
    rw [saveDouble, h8]
    simp only [List.map_cons, List.map_nil, ofBytes, List.cons.injEq, and_true]
    refine ⟨?_, ?_, ?_, ?_, ?_, ?_, ?_, ?_⟩ <;> (apply BitVec.eq_of_getLsbD_eq; intro i hi; interval_cases i <;> simp)

theorem nodup_gswIdx (l N : Nat) : (gswIdx l N).Nodup := by
  unfold gswIdx
  rw [List.nodup_flatMap]
  refine ⟨fun i _ => ?_, ?_⟩
  · rw [List.nodup_flatMap]
    refine ⟨fun j _ => (List.nodup_finRange N).map fun a b h => by simpa using h, ?_⟩
    refine (List.nodup_finRange 2).imp fun {a b} hab => ?_
    intro x h1 h2
    simp only [List.mem_map, List.mem_finRange, true_and] at h1 h2
    obtain ⟨_, rfl⟩ := h1
    obtain ⟨_, h⟩ := h2
    simp at h
    exact hab h.1.symm
  · refine (List.nodup_finRange (2 * l)).imp fun {a b} hab => ?_
    intro x h1 h2
    simp only [List.mem_flatMap, List.mem_map, List.mem_finRange, true_and] at h1 h2
    obtain ⟨_, _, rfl⟩ := h1
    obtain ⟨_, _, h⟩ := h2
    simp at h
    exact hab h.1.symm

/-- words for any indices without repetition -/
theorem words_surj : ∀ (xs : List (Fin (2 * l) × Fin 2 × Fin N)), xs.Nodup → ∀ b : List Byte, b.length = xs.length * 8 →
    ∃ c : Gsw l N, (xs.flatMap fun x => saveDouble (c x.1 x.2.1 x.2.2)) = b := by
  intro xs
  induction xs with
  | nil => intro _ b h; exact ⟨fun _ _ _ => 0#64, by simp at h; simp [h]⟩
  | cons x xs ih =>
    intro hnd b h
    obtain ⟨h1, h2⟩ := List.nodup_cons.1 hnd
    rw [List.length_cons] at h
    obtain ⟨c, hc⟩ := ih h2 (b.drop 8) (by rw [List.length_drop]; omega)
    refine ⟨c.set x (ofBytes (b.take 8)), ?_⟩
    rw [List.flatMap_cons]
    have e1 : (c.set x (ofBytes (b.take 8))) x.1 x.2.1 x.2.2 = ofBytes (b.take 8) := by simp [Gsw.set]
    rw [e1, saveDouble_ofBytes (by rw [List.length_take]; omega)]
    have e2 : (xs.flatMap fun y => saveDouble ((c.set x (ofBytes (b.take 8))) y.1 y.2.1 y.2.2)) =
        xs.flatMap fun y => saveDouble (c y.1 y.2.1 y.2.2) := by
      apply List.flatMap_congr
      intro y hy
      have : y ≠ x := fun h => h1 (h ▸ hy)
      simp [Gsw.set, this]
    rw [e2, hc, List.take_append_drop]

theorem saveGsw_surj {b : List Byte} (h : b.length = blockSize l N) : ∃ c : Gsw l N, saveGsw c = b :=
  words_surj _ (nodup_gswIdx l N) b (by rw [length_gswIdx, h, blockSize])

/-- a file of whole blocks is a file of ciphertexts -/
theorem file_surj (hbs : 0 < blockSize l N) : ∀ (k : Nat) (b : List Byte), b.length = k * blockSize l N → ∃ cs : List (Gsw l N),
    cs.flatMap saveGsw = b
  | 0, b, h => ⟨[], by simp at h; simp [h]⟩
  | k + 1, b, h => by
    rw [Nat.succ_mul] at h
    obtain ⟨c, hc⟩ := saveGsw_surj (l := l) (N := N) (b := b.take (blockSize l N)) (by rw [List.length_take]; omega)
    obtain ⟨cs, hcs⟩ := file_surj hbs k (b.drop (blockSize l N)) (by rw [List.length_drop]; omega)
    exact ⟨c :: cs, by rw [List.flatMap_cons, hc, hcs, List.take_append_drop]⟩

open Cli in
/-- what a run command gets from its input stream, whatever the file is: an orderly end, or ciphertexts and their number -/
theorem fetch_cases {kind : StreamKind} (hbs : 0 < blockSize l N) (hbs' : blockSize l N < 2 ^ 63) {file : Option (List Byte)}
    (hlen : ∀ b, file = some b → b.length < 2 ^ 63) :
    (∃ r, Fetch (l := l) (N := N) kind file r) ∧ ∀ r, Fetch kind file r → (r = .error .assertFail ∧ ¬ ∃ b, file = some b ∧ blockSize l N ∣ b.length) ∨
      ∃ pre cs, r = .ok (pre, cs) ∧ (kind = .reversed → pre.headD 0 = cs.length) ∧ (cs : List (Gsw l N)).length * blockSize l N < 2 ^ 63 := by
  by_cases h : ∃ b, file = some b ∧ blockSize l N ∣ b.length
  · obtain ⟨b, rfl, k, hk⟩ := h
    obtain ⟨cs, rfl⟩ := file_surj (l := l) (N := N) hbs k b (by rw [hk, Nat.mul_comm])
    have hl := hlen _ rfl
    have hn : cs.length * blockSize l N < 2 ^ 63 := by
      have : (cs.flatMap saveGsw).length = cs.length * blockSize l N := by
        simp only [List.length_flatMap, length_saveGsw, List.map_const', List.sum_replicate_nat]
      rwa [this] at hl
    cases kind with
    | forward =>
      obtain ⟨⟨pre, _, h1⟩, h2⟩ := fetch_forward hbs hbs' hl
      refine ⟨⟨_, h1⟩, fun r hr => ?_⟩
      obtain ⟨pre, _, rfl⟩ := h2 r hr
      exact .inr ⟨_, _, rfl, fun h => (by cases h), hn⟩
    | reversed =>
      obtain ⟨⟨pre, h1⟩, h2⟩ := fetch_reversed hbs hbs' hl
      refine ⟨⟨_, h1⟩, fun r hr => ?_⟩
      obtain ⟨pre, h3, rfl⟩ := h2 r hr
      obtain ⟨_, k2, k3⟩ := readsReversed_eq hbs hbs' hl h3
      refine .inr ⟨_, _, rfl, fun _ => ?_, by rwa [List.length_reverse]⟩
      cases pre with
      | nil => exact absurd rfl k2
      | cons p pre => rw [List.length_reverse]; exact k3 p (by simp)
  · have hbad := C21_bad_file kind hbs file fun b hb => ⟨hlen b hb, fun hd => h ⟨b, hb, hd⟩⟩
    refine ⟨⟨_, .bad (hbad (fun _ _ _ => 0#64) [])⟩, fun r hr => ?_⟩
    cases hr with
    | bad h0 => rw [hbad] at h0; cases h0; exact .inl ⟨rfl, h⟩
    | dies h0 => rw [hbad] at h0; cases h0
    | forward h1 h2 => exact absurd (fetch_whole hbs hlen (.forward h1 h2)) h
    | reversed h1 => exact absurd (fetch_whole hbs hlen (.reversed h1)) h

/-! ## A library without errors -/

/-- every operation decrypts and encrypts trivially -/
def exactScheme (N n l : Nat) : Scheme N n l where
  sk := ⟨fun _ => 0#32, fun _ => 0#32⟩
  cmux := fun g c1 c0 =>
    let b := if h : 0 < l ∧ 0 < N then g ⟨0, by omega⟩ 0 ⟨0, h.2⟩ == 1#64 else false
    trivialTRLWE (fun i => (if b then c1 else c0).phase (fun _ => 0#32) i)
  iks := fun c => ⟨fun _ => 0, c.phase (fun _ => 0#32)⟩
  blindRotate := fun c v => trivialTRLWE (fun i => if 0 < (c.phase (fun _ => 0#32)).toInt then v i else -v i)
  tlwe2trlwe := fun c => trivialTRLWE (fun i => if i.val = 0 then c.phase (fun _ => 0#32) else 0)
  cb := fun c => fun _ _ _ => if 0 < (c.phase (fun _ => 0#32)).toInt then 1#64 else 0#64
  encrypt := fun _ b => fun _ _ _ => if b then 1#64 else 0#64

theorem near_refl (x : Torus) : Near 0 x x := by
  unfold Near
  rw [sub_self]; decide

theorem exact_sound (hl : 0 < l) (hN : 0 < N) : (exactScheme N n l).Sound ⟨0, 0, 0, 0, 0, 0⟩ toyEnc where
  cmux := by
    rintro g b c1 c0 i ⟨h, h', hb⟩
    simp only [exactScheme]
    rw [phase_trivial, dif_pos ⟨h, h'⟩]
    have : (g ⟨0, by omega⟩ 0 ⟨0, h'⟩ == 1#64) = b := by rw [hb]; cases b <;> rfl
    rw [this]
    exact near_refl _
  iks := by
    intro c
    simp only [exactScheme]
    rw [trivialTLWE_phase]
    exact near_refl _
  blindRotate_pos := by
    intro c mu i hi h1 _
    simp only [exactScheme] at *
    rw [phase_trivial]
    rw [if_pos (by omega)]
    exact near_refl _
  blindRotate_neg := by
    intro c mu i hi _ h1
    simp only [exactScheme] at *
    rw [phase_trivial]
    rw [if_neg (by omega)]
    exact near_refl _
  tlwe2trlwe := by
    intro c i
    simp only [exactScheme]
    rw [phase_trivial]
    exact near_refl _
  cb_pos := by
    intro c h1 _
    simp only [exactScheme] at *
    exact ⟨hl, hN, by rw [if_pos (by omega)]; rfl⟩
  cb_neg := by
    intro c _ h1
    simp only [exactScheme] at *
    exact ⟨hl, hN, by rw [if_neg (by omega)]; rfl⟩
  encrypt := by
    intro r b
    exact ⟨hl, hN, rfl⟩

theorem flutErr_zero (L qs : Nat) : ∀ j, flutErr ⟨0, 0, 0, 0, 0, 0⟩ L qs j = 0
  | 0 => rfl
  | j + 1 => by rw [flutErr, flutErr_zero L qs j]; simp

/-- a plaintext of `m` bits, its verdict and its encryption without errors -/
theorem exact_setup {spec : List Char} {g : Graph} (h : Graph.fromIstream spec = .ok g) (hg : g.WF) (m : Nat) :
    ∃ (out : List Char) (cs : List (Gsw l N)), doRunPlain spec (some (List.replicate m 0#8)) 1 = .ok out ∧
      doEnc (exactScheme N n l) id (some (List.replicate m 0#8)) 1 = .ok (cs.flatMap saveGsw) ∧ cs.length = m := by
  have e : List.replicate m 0#8 = (List.replicate m [0#8]).flatten := by
    induction m with
    | zero => rfl
    | succ m ih => rw [List.replicate_succ, List.replicate_succ, List.flatten_cons, ← ih]; rfl
  have hrs : ∀ r ∈ List.replicate m [0#8], r.length = recordBytes 1 := by
    intro r hr
    rw [List.eq_of_mem_replicate hr]; rfl
  rw [e]
  obtain ⟨cs, h1, h2⟩ := enc_ok (exactScheme N n l) id (ap := 1) (by decide) hrs
  refine ⟨printResult (g.dfa.accepts ((List.replicate m [0#8]).flatMap (recordBits 1))), cs, ?_, h1, ?_⟩
  · have := hg.accepts_eq ((List.replicate m [0#8]).flatMap (recordBits 1))
    unfold Graph.accepts at this
    obtain ⟨q, q1, q2⟩ := Res.bind_eq_ok.1 this
    unfold doRunPlain
    rw [h, Res.bind_ok, C19_records 1 (by decide) _ hrs]
    have q1 : ((List.replicate m [0#8]).flatMap (recordBits 1)).foldlM (fun s b => g.nextState s b) g.initialState = .ok q := q1
    rw [q1, Res.bind_ok, q2, Res.bind_ok, Res.pure_eq]
  · have := h2.length_eq
    rw [this]
    simp [recordBits]

theorem orderly_of_map_eq {α β γ : Type} {r : Res α} {r' : Res β} {f : α → γ} {f' : β → γ} (h : r.map f = r'.map f') (h' : Orderly r') : Orderly r :=
  .of_map (f := f) (h ▸ .map f' h')

/-! ## The commands on a complete graph -/

section
variable (S : Scheme N n l) (hN : 0 < N) (hl : 0 < l) (hbs : blockSize l N < 2 ^ 63) {spec : List Char} {g : Graph}
  (h : Graph.fromIstream spec = .ok g) (hg : g.WF) {cs : List (Gsw l N)} (hlen : cs.length * blockSize l N < 2 ^ 63)
include hN hl hbs h hg hlen

theorem offline_orderly {boot : Nat} (hb : 0 < boot) : Orderly (doRunOffline S spec cs.length cs boot false) := by
  by_cases h31 : 2 ^ 31 ≤ cs.length
  · rw [offline_too_many S hN h hg hb h31]
    exact .assertFail
  obtain ⟨out, cs0, e1, e2, e3⟩ := exact_setup (N := N) (n := n) (l := l) h hg cs.length
  obtain ⟨file, k1, k2⟩ := C36_offline (exact_sound hl hN) hN hl hbs id spec _ 1 (by decide) boot hb (by simp) out e1
  rw [e2] at k1
  cases k1
  have hbs0 : 0 < blockSize l N := by unfold blockSize; positivity
  have hl0 : (cs0.flatMap saveGsw).length < 2 ^ 63 := by rw [length_file, e3]; exact hlen
  obtain ⟨c, k3, _⟩ := (k2 hl0).2 (by rw [length_file, e3]; exact Nat.mul_lt_mul_of_pos_right (by omega) hbs0) _ _ (readsReversed_exists hbs0 hbs cs0 0 hl0)
  have k3 : doRunOffline (exactScheme N n l) spec cs0.length cs0.reverse boot false = .ok c := k3
  rw [e3] at k3
  exact orderly_of_map_eq (C63_offline S (exactScheme N n l) cs cs0.reverse (by rw [List.length_reverse, e3]) spec cs.length boot false) (.of_eq_ok k3)

theorem reverse_orderly {boot : Nat} (hb : 0 < boot) (size freq : Nat) (isRev : Bool) (out : String) :
    Orderly (doRunReverse S spec size cs (some out) none freq boot isRev false) := by
  obtain ⟨_, cs0, e1, e2, e3⟩ := exact_setup (N := N) (n := n) (l := l) h hg cs.length
  obtain ⟨file, k1, k2⟩ := C37_reverse (exact_sound hl hN) hN hl hbs id spec _ 1 (by decide) boot hb (by simp) _ e1 out freq isRev
  rw [e2] at k1
  cases k1
  have hbs0 : 0 < blockSize l N := by unfold blockSize; positivity
  have hl0 : (cs0.flatMap saveGsw).length < 2 ^ 63 := by rw [length_file, e3]; exact hlen
  obtain ⟨c, k3, _⟩ := (k2 hl0).2 _ _ (readsForward_exists hbs0 hbs cs0 1 hl0)
  have k4 : doRunReverse (exactScheme N n l) spec size cs0 (some out) none freq boot isRev false = .ok [(.file out, c)] := k3
  exact orderly_of_map_eq (C63_reverse S (exactScheme N n l) cs cs0 e3.symm spec size (some out) none freq boot isRev false) (.of_eq_ok k4)

omit hl hbs hlen in
theorem block_orderly (hsz : g.size < 2 ^ 30) (hN' : 30 < N) (queue : Nat) : Orderly (doRunBlock S spec cs queue false) := by
  have hB := (liveBits_of_size hg hsz).level hg
  have key : ∀ (cs : List (Gsw l N)) (r : Block N l) d k, BStr g queue r d k →
      ∃ r' d' k', cs.foldlM (fun r c => r.evalOne S c) r = .ok r' ∧ BStr g queue r' d' k' ∧ d' + k' = d + k + cs.length := by
    intro cs
    induction cs with
    | nil => intro r d k h; exact ⟨r, d, k, rfl, h, rfl⟩
    | cons c cs ih =>
      intro r d k h
      obtain ⟨r1, e1, e2⟩ := bstr_one S hg hB hN' (by decide) h c
      rw [List.foldlM_cons, e1, Res.bind_ok]
      rcases e2 with ⟨_, e2, _⟩ | ⟨_, e2, _⟩
      · obtain ⟨r', d', k', a, b, e⟩ := ih r1 _ _ e2
        exact ⟨r', d', k', a, b, by rw [e, List.length_cons]; omega⟩
      · obtain ⟨r', d', k', a, b, e⟩ := ih r1 _ _ e2
        exact ⟨r', d', k', a, b, by rw [e, List.length_cons]; omega⟩
  obtain ⟨r', d, k, a, b, e⟩ := key cs ⟨g, queue, [], none, [g.init], [], []⟩ 0 0 ⟨rfl, rfl, rfl, rfl, fun h => absurd rfl h⟩
  have hmk : doRunBlock S spec cs queue false = (do let c ← r'.result S; pure c.1) := by
    unfold doRunBlock
    rw [h, Res.bind_ok]
    show (cs.foldlM (fun r c => r.evalOne S c) (⟨g, queue, [], none, [g.init], [], []⟩ : Block N l) >>= _) = _
    rw [a, Res.bind_ok]
  rw [hmk]
  cases cs with
  | nil =>
    cases a
    exact .assertFail
  | cons c cs =>
    obtain ⟨c, r2, e1, _⟩ := bstr_result S hg hB hN' (by decide) b (by rw [e, List.length_cons]; omega)
    rw [e1]
    exact .ok _

theorem flut_orderly {boot queue : Nat} (hb : 0 < boot) (hq : 0 < queue) (hq' : queue < 31) {maxSecond : Option Nat} (hm : maxSecond.getD 8 < 31)
    (hmN : 2 ^ maxSecond.getD 8 ≤ N) (size freq : Nat) (out : String) :
    Orderly (doRunFlut S spec size cs (some out) none freq queue boot maxSecond false) := by
  obtain ⟨_, cs0, e1, e2, e3⟩ := exact_setup (N := N) (n := n) (l := l) h hg cs.length
  obtain ⟨file, k1, k2⟩ := C39_flut (exact_sound hl hN) hN hl hbs id spec _ 1 (by decide) maxSecond queue boot g.size
    (fun g' h' => by rw [h] at h'; cases h'; exact liveMax_of_size hg) hq hq' hm hmN hb (by rw [flutErr_zero]; simp) _ e1 out freq
  rw [e2] at k1
  cases k1
  have hbs0 : 0 < blockSize l N := by unfold blockSize; positivity
  have hl0 : (cs0.flatMap saveGsw).length < 2 ^ 63 := by rw [length_file, e3]; exact hlen
  refine orderly_of_map_eq (C63_flut S (exactScheme N n l) cs cs0 e3.symm spec size (some out) none freq queue boot maxSecond false) ?_
  rcases ((k2 hl0).2 _ _ (readsForward_exists hbs0 hbs cs0 1 hl0)).2 with k3 | ⟨c, k3, _⟩
  · have k3 : doRunFlut (exactScheme N n l) spec size cs0 (some out) none freq queue boot maxSecond false = .error .die := k3
    rw [k3]; exact .die
  · have k3 : doRunFlut (exactScheme N n l) spec size cs0 (some out) none freq queue boot maxSecond false = .ok _ := k3
    exact .of_eq_ok k3

end

/-! ## The commands on the graph without states (an empty spec file) -/

/-- the graph of a file without lines -/
abbrev emptyGraph : Graph := Graph.built 0 [] []

theorem block_empty_eval (S : Scheme N n l) {r : Block N l} (h1 : r.graph = emptyGraph) (h2 : r.live = [0]) :
    (r.queued = [] ∧ r.evalQueued S = .ok r) ∨ r.evalQueued S = .error .outOfRange := by
  unfold Block.evalQueued
  cases hq : r.queued with
  | nil => left; exact ⟨rfl, rfl⟩
  | cons c q =>
    right
    dsimp only [List.length_cons]
    rw [if_neg (by omega), h1, h2]
    have : emptyGraph.trackLiveStates [0] (q.length + 1) = .error .outOfRange := by
      unfold Graph.trackLiveStates
      rw [List.range_succ_eq_map, List.foldlM_cons]
      rfl
    rw [this, Res.bind_err]

theorem flut_empty_make {queue : Nat} (hq' : queue < 31) (max boot : Nat) : Flut.make emptyGraph max queue boot false = (.ok { graph := emptyGraph, weight := [], queued := [], maxSecond := max, queueSize := queue, live := [0], memo := List.replicate (queue + 1) [], numEval := 0, bootFreq := boot, first := 0, second := 0 } : Res (Flut N l)) := by
  have hrow : ∀ d, d < 31 → memoRow emptyGraph d = .ok [] := by
    intro d hd
    unfold memoRow shl1
    rw [if_pos hd, Res.bind_ok]
    generalize 2 ^ d = k
    induction (List.range k) with
    | nil => rfl
    | cons x xs ih => rw [List.foldlM_cons]; exact ih
  have hmemo : ∀ k, k ≤ 31 → ∀ m0 : List (List Nat), (List.range k).foldlM (fun (memo : List (List Nat)) depth => do
      let row ← memoRow emptyGraph depth
      pure (memo ++ [row])) m0 = .ok (m0 ++ List.replicate k []) := by
    intro k
    induction k with
    | zero => intro _ m0; simp; rfl
    | succ k ih =>
      intro hk m0
      rw [List.range_succ, List.foldlM_append, ih (by omega), Res.bind_ok, List.foldlM_cons, hrow k (by omega)]
      show Except.ok _ = _
      rw [List.replicate_succ', List.append_assoc]
  unfold Flut.make
  rw [hmemo _ (by omega)]
  rfl

theorem flut_empty_eval (S : Scheme N n l) {queue : Nat} (hq' : queue < 31) {r : Flut N l} (h1 : r.graph = emptyGraph) (h2 : r.live = [0])
    (h3 : r.memo = List.replicate (queue + 1) []) (h4 : r.queued.length ≤ queue) :
    (r.queued = [] ∧ r.evalQueued S = .ok r) ∨ r.evalQueued S = .error .outOfRange := by
  unfold Flut.evalQueued
  cases hq : r.queued with
  | nil => left; exact ⟨rfl, rfl⟩
  | cons c q =>
    right
    rw [hq] at h4
    rw [List.length_cons] at h4
    dsimp only [List.length_cons]
    rw [if_neg (by omega), h1, h2, h3]
    have e1 : vat (List.replicate (queue + 1) ([] : List Nat)) (q.length + 1) = .ok [] := by
      rw [vat_eq_ok, List.getElem?_replicate, if_pos (by omega)]
    have e2 : flutNext emptyGraph [] [0] (q.length + 1) = .error .outOfRange := by
      unfold flutNext shl1
      rw [if_pos (by omega), Res.bind_ok]
      obtain ⟨k, hk⟩ : ∃ k, 2 ^ (q.length + 1) = k + 1 := ⟨2 ^ (q.length + 1) - 1, by have := Nat.two_pow_pos (q.length + 1); omega⟩
      rw [hk, List.range_succ_eq_map, List.foldlM_cons]
      rfl
    rw [e1, Res.bind_ok, e2, Res.bind_err]

theorem feed_orderly {ρ : Type} {evalOne : ρ → Gsw l N → Res ρ} {I : ρ → Prop} (step : ∀ r c, I r → Orderly (evalOne r c) ∧ ∀ r', evalOne r c = .ok r' → I r')
    {result : ρ → Res (TLWE N × ρ)} {f : Nat} : ∀ (cs : List (Gsw l N)) (i : Nat) (r : ρ), I r →
      (Orderly (cs.foldlM evalOne r) ∧ ∀ r', cs.foldlM evalOne r = .ok r' → I r') ∧
      Orderly (onlineLoop evalOne result none f cs i r) ∧ ∀ p, onlineLoop evalOne result none f cs i r = .ok p → I p.2 := by
  intro cs
  induction cs with
  | nil =>
    intro i r h
    exact ⟨⟨.ok _, fun r' e => by cases e; exact h⟩, .ok _, fun p e => by rw [onlineLoop] at e; cases e; exact h⟩
  | cons c cs ih =>
    intro i r h
    obtain ⟨s1, s2⟩ := step r c h
    rw [List.foldlM_cons, onlineLoop]
    cases he : evalOne r c with
    | error e =>
      rw [he] at s1
      have : ∀ {α : Type}, Orderly (.error e : Res α) := fun e' h' => by cases h'; exact s1 e rfl
      exact ⟨⟨this, fun _ h => (by cases h)⟩, this, fun _ h => (by cases h)⟩
    | ok r1 =>
      rw [Res.bind_ok, Res.bind_ok]
      exact ih (i + 1) r1 (s2 r1 he)

section
variable (S : Scheme N n l) {spec : List Char} (h : Graph.fromIstream spec = .ok emptyGraph)
include h

theorem offline_empty (size : Nat) (cs : List (Gsw l N)) (boot : Nat) : Orderly (doRunOffline S spec size cs boot false) := by
  unfold doRunOffline
  rw [h, Res.bind_ok, show emptyGraph.minimized = .error .outOfRange from by decide, Res.bind_err]
  exact .outOfRange

/-- without `--spec-reversed` the runner has one state, which is not final -/
theorem reverse_empty_as (cs : List (Gsw l N)) (boot size freq : Nat) (out : String) :
    doRunReverse S spec size cs (some out) none freq boot false false =
      doRunReverse S ">0\t0\t0\n".toList size cs (some out) none freq boot true false := by
  have h1 : Graph.fromIstream ">0\t0\t0\n".toList = .ok (Graph.built 0 [] [(0, 0, 0)]) := by decide
  have hm : reverseMake emptyGraph boot false true false = (reverseMake (Graph.built 0 [] [(0, 0, 0)]) boot true true false : Res (Backstream N)) := by
    unfold reverseMake
    simp only [Bool.false_eq_true, if_false, if_true]
    rw [show emptyGraph.reversed = .ok (Graph.built 0 [] [(0, 0, 0)]) from by decide, Res.bind_ok,
      show (Graph.built 0 [] [(0, 0, 0)]).minimized = .ok (Graph.built 0 [] [(0, 0, 0)]) from by decide]
    rfl
  unfold doRunReverse
  rw [h, h1, Res.bind_ok, Res.bind_ok, hm]

theorem reverse_empty (hN : 0 < N) (hl : 0 < l) (hbs : blockSize l N < 2 ^ 63) {cs : List (Gsw l N)} (hlen : cs.length * blockSize l N < 2 ^ 63)
    {boot : Nat} (hb : 0 < boot) (size freq : Nat) (isRev : Bool) (out : String) :
    Orderly (doRunReverse S spec size cs (some out) none freq boot isRev false) := by
  cases isRev with
  | false =>
    have h1 : Graph.fromIstream ">0\t0\t0\n".toList = .ok (Graph.built 0 [] [(0, 0, 0)]) := by decide
    rw [reverse_empty_as S h]
    exact reverse_orderly S hN hl hbs h1 (wf_of_fromIstream h1 (by decide)) hlen hb size freq true out
  | true =>
    unfold doRunReverse
    simp only [Option.isSome_some, Option.isSome_none, Bool.not_false, Bool.and_true, Bool.true_or, cassert_true, Res.bind_ok]
    rw [h, Res.bind_ok]
    have hm : reverseMake emptyGraph boot true true false =
      (.ok { graph := emptyGraph, weight := [], inputSize := none, bootInterval := boot, numProcessed := 0, workspace := [], timer := [] } : Res (Backstream N)) := rfl
    rw [hm, Res.bind_ok]
    have hI := feed_orderly (evalOne := fun (r : Backstream N) c => r.eval S c) (result := fun r => do let c ← r.result; pure (c, r)) (f := freq)
      (I := fun r => r.graph = emptyGraph ∧ r.weight = [] ∧ r.inputSize = none ∧ r.bootInterval = boot ∧ r.workspace = []) (fun r c hr => by
        obtain ⟨h1, h2, h3, h4, h5⟩ := hr
        unfold Backstream.eval
        rw [h1, h2, h3, h5]
        have e1 : evalStates emptyGraph none r.numProcessed = .ok [] := rfl
        have e2 : vresize ([] : List (TRLWE N)) emptyGraph.size (trivialTRLWEZero N) = [] := rfl
        rw [e1, Res.bind_ok, e2]
        show Orderly (if r.bootInterval = 0 then _ else _) ∧ ∀ r', (if r.bootInterval = 0 then _ else _) = _ → _
        rw [if_neg (by rw [h4]; omega)]
        split
        · exact ⟨.ok _, fun r' e => by cases e; exact ⟨rfl, rfl, rfl, h4, rfl⟩⟩
        · exact ⟨.ok _, fun r' e => by cases e; exact ⟨rfl, rfl, rfl, h4, rfl⟩⟩)
      cs 0 { graph := emptyGraph, weight := [], inputSize := none, bootInterval := boot, numProcessed := 0, workspace := [], timer := [] } ⟨rfl, rfl, rfl, rfl, rfl⟩
    refine .bind hI.2.1 fun p hp => ?_
    obtain ⟨h1, h2, _⟩ := hI.2.2 p hp
    refine .bind (.ok _) fun _ _ => .bind ?_ fun _ _ => .ok _
    unfold Backstream.result
    rw [h1, h2]
    exact .outOfRange

theorem block_empty (cs : List (Gsw l N)) (queue : Nat) : Orderly (doRunBlock S spec cs queue false) := by
  unfold doRunBlock
  rw [h, Res.bind_ok]
  have hm : Block.make emptyGraph queue false = (.ok { graph := emptyGraph, queueSize := queue, queued := [], selector := none, live := [0], ws4 := [], timer := [] } : Res (Block N l)) := rfl
  rw [hm, Res.bind_ok]
  have hq := fun (r : Block N l) => block_empty_eval S (r := r)
  have hI := feed_orderly (evalOne := fun (r : Block N l) c => r.evalOne S c) (result := fun r => r.result S) (f := 1)
    (I := fun r => r.graph = emptyGraph ∧ r.live = [0] ∧ r.selector = none) (fun r c hr => by
      obtain ⟨h1, h2, h3⟩ := hr
      unfold Block.evalOne
      dsimp only
      split
      · exact ⟨.ok _, fun r' e => by cases e; exact ⟨h1, h2, h3⟩⟩
      · rcases hq { r with queued := r.queued ++ [c] } h1 h2 with ⟨k, _⟩ | k
        · simp at k
        · rw [k]; exact ⟨.outOfRange, fun r' e => by cases e⟩)
    cs 0 { graph := emptyGraph, queueSize := queue, queued := [], selector := none, live := [0], ws4 := [], timer := [] } ⟨rfl, rfl, rfl⟩
  refine .bind hI.1.1 fun r hr => ?_
  obtain ⟨h1, h2, h3⟩ := hI.1.2 r hr
  refine .bind ?_ fun _ _ => .ok _
  unfold Block.result
  rcases hq r h1 h2 with ⟨_, k⟩ | k
  · rw [k, Res.bind_ok, h3]; exact .assertFail
  · rw [k]; exact .outOfRange

theorem flut_empty (cs : List (Gsw l N)) {boot queue : Nat} (hq0 : 0 < queue) (hq' : queue < 31) (maxSecond : Option Nat) (size freq : Nat) (out : String) :
    Orderly (doRunFlut S spec size cs (some out) none freq queue boot maxSecond false) := by
  unfold doRunFlut
  rw [h, Res.bind_ok]
  have hm := flut_empty_make (N := N) (l := l) hq' (maxSecond.getD 8) boot
  rw [hm, Res.bind_ok]
  simp only [Option.isSome_none, Bool.false_eq_true, false_and, if_false]
  have hq := fun (r : Flut N l) => flut_empty_eval S hq' (r := r)
  have hI := feed_orderly (evalOne := fun (r : Flut N l) c => r.evalOne S c) (result := fun r => r.result S) (f := freq)
    (I := fun r => r.graph = emptyGraph ∧ r.live = [0] ∧ r.memo = List.replicate (queue + 1) [] ∧ r.queueSize = queue ∧ r.queued.length < queue) (fun r c hr => by
      obtain ⟨h1, h2, h3, h4, h5⟩ := hr
      unfold Flut.evalOne
      dsimp only
      split
      · rename_i hlt
        rw [h4] at hlt
        exact ⟨.ok _, fun r' e => by cases e; exact ⟨h1, h2, h3, h4, hlt⟩⟩
      · rcases hq { r with queued := r.queued ++ [c] } h1 h2 h3 (by rw [List.length_append]; exact h5) with ⟨k, _⟩ | k
        · simp at k
        · rw [k]; exact ⟨.outOfRange, fun r' e => by cases e⟩)
    cs 0 { graph := emptyGraph, weight := [], queued := [], maxSecond := maxSecond.getD 8, queueSize := queue, live := [0], memo := List.replicate (queue + 1) [], numEval := 0, bootFreq := boot, first := 0, second := 0 } ⟨rfl, rfl, rfl, rfl, hq0⟩
  refine .bind hI.2.1 fun p hp => ?_
  obtain ⟨h1, h2, h3, h4, h5⟩ := hI.2.2 p hp
  refine .bind (.ok _) fun _ _ => .bind ?_ fun _ _ => .ok _
  unfold Flut.result
  rcases hq p.2 h1 h2 h3 h5.le with ⟨_, k⟩ | k
  · rw [k, Res.bind_ok, h1, h2]; exact .outOfRange
  · rw [k]; exact .outOfRange

end

end Homfa
