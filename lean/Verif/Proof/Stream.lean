import Verif.Proof.Serial
import Verif.Spec.Stream

namespace Homfa

variable {l N : Nat}

/-- run the steps of a loader task without interruption -/
def runTask (ops : List (LoadOp l N)) (s : IStream × Gsw l N) : Res (IStream × Gsw l N) :=
  ops.foldlM (fun s op => op.run s) s

theorem runTask_append (a b : List (LoadOp l N)) (s : IStream × Gsw l N) :
    runTask (a ++ b) s = (runTask a s).bind (runTask b) := by
  unfold runTask; rw [List.foldlM_append]; rfl

theorem runTask_loads (c : Gsw l N) : ∀ (xs : List (Fin (2 * l) × Fin 2 × Fin N)) (out : Gsw l N) (is : IStream)
    (rest : List Byte),
    is.bytes.drop is.pos = (xs.flatMap fun x => saveDouble (c x.1 x.2.1 x.2.2)) ++ rest →
    runTask (xs.map .load) (is, out) = .ok ({ is with pos := is.pos + 8 * xs.length }, out.setAll c xs)
  | [], out, is, rest, _ => rfl
  | x :: xs, out, is, rest, h => by
    rw [List.flatMap_cons, List.append_assoc] at h
    rw [List.map_cons, runTask, List.foldlM_cons]
    show Except.bind (Except.bind (loadDouble is) _) _ = _
    rw [loadDouble_ok h]
    have := runTask_loads c xs (out.set x (c x.1 x.2.1 x.2.2)) { is with pos := is.pos + 8 } rest
      (drop_drop_of_eq h (length_saveDouble _))
    refine Eq.trans this ?_
    simp only [List.length_cons, Nat.mul_add, Nat.mul_one, Nat.add_assoc, Nat.add_comm 8]
    rfl

/-- the bytes of a file of ciphertexts -/
theorem length_file (cs : List (Gsw l N)) : (cs.flatMap saveGsw).length = cs.length * blockSize l N := by
  simp only [List.length_flatMap, length_saveGsw, List.map_const', List.sum_replicate_nat]

/-- the stream at block `p` of the file -/
def atBlock (cs : List (Gsw l N)) (p : Nat) : IStream :=
  { bytes := cs.flatMap saveGsw, pos := p * blockSize l N, fail := false }

theorem drop_file (a : List (Gsw l N)) (c : Gsw l N) (b : List (Gsw l N)) :
    ((a ++ c :: b).flatMap saveGsw).drop (a.length * blockSize l N) = saveGsw c ++ b.flatMap saveGsw := by
  rw [List.flatMap_append, List.flatMap_cons, ← length_file, List.drop_left]

/-- the ciphertexts in the order in which the stream delivers them -/
def StreamKind.order (kind : StreamKind) (cs : List (Gsw l N)) : List (Gsw l N) :=
  match kind with
  | .forward => cs
  | .reversed => cs.reverse

/-- where the file position is while `n` of the ciphertexts `cs` are still to be loaded -/
def StreamKind.idle (kind : StreamKind) (cs : List (Gsw l N)) (n : Nat) : IStream :=
  match kind with
  | .forward => atBlock cs (cs.length - n)
  | .reversed => atBlock cs n

theorem deserSeek_back (hbs : blockSize l N < 2 ^ 63) (cs : List (Gsw l N)) (p : Nat) :
    deserSeek l N (atBlock cs (p + 1)) (-1) .cur = atBlock cs p := by
  unfold deserSeek
  rw [seekOffset_eq _ (by omega) (by omega)]
  have hs : ∀ (is : IStream) (off : Int) (dir : SeekDir), is.fail = false → is.seekg off dir =
      (let base : Int := match dir with
        | .beg => 0
        | .cur => is.pos
        | .end_ => is.bytes.length
      if base + off < 0 then { is with fail := true } else { is with pos := (base + off).toNat }) := by
    intro is off dir h; unfold IStream.seekg; rw [h]; cases dir <;> simp
  rw [hs _ _ _ rfl]
  have hp : (atBlock cs (p + 1)).pos = p * blockSize l N + blockSize l N := by simp [atBlock, Nat.add_mul]
  dsimp only
  rw [hp, if_neg (by omega)]
  simp only [atBlock]
  congr 1
  omega

theorem deserIsBeg_atBlock (hbs : 0 < blockSize l N) (cs : List (Gsw l N)) (p : Nat) :
    deserIsBeg (atBlock cs p) = decide (p = 0) := by
  simp only [deserIsBeg, atBlock, IStream.tellg, SeekDir.toInt]
  by_cases h : p = 0
  · subst h; simp
  · have : p * blockSize l N ≠ 0 := Nat.mul_ne_zero h (by omega)
    simp [h]
    omega

/-- a task started at an idle position loads the next ciphertext and moves to the next idle position -/
theorem task_ok (hbs : 0 < blockSize l N) (hbs' : blockSize l N < 2 ^ 63) (kind : StreamKind) (cs : List (Gsw l N))
    (done : List (Gsw l N)) (c : Gsw l N) (rem : List (Gsw l N)) (h : kind.order cs = done ++ c :: rem)
    (out : Gsw l N) :
    runTask (kind.task l N) (kind.idle cs (rem.length + 1), out) = .ok (kind.idle cs rem.length, c) := by
  cases kind with
  | forward =>
    simp only [StreamKind.order] at h
    subst h
    have hp : ((done ++ c :: rem).length - (rem.length + 1)) = done.length := by
      simp
    have hp' : ((done ++ c :: rem).length - rem.length) = done.length + 1 := by
      simp; omega
    simp only [StreamKind.task, StreamKind.idle, hp, hp']
    rw [runTask_loads c (gswIdx l N) out _ (rem.flatMap saveGsw) (drop_file done c rem), Gsw.setAll_all, length_gswIdx]
    simp only [atBlock, Nat.add_mul, Nat.one_mul]
    have : 8 * (2 * l * 2 * N) = blockSize l N := by rw [blockSize, Nat.mul_comm 8]
    rw [this]
  | reversed =>
    simp only [StreamKind.order] at h
    have h : cs = rem.reverse ++ c :: done.reverse := by
      rw [← List.reverse_reverse cs, h]; simp
    have hl : (rem.reverse).length = rem.length := List.length_reverse
    simp only [StreamKind.task, StreamKind.idle]
    rw [runTask_append, runTask_append]
    have h1 : runTask [LoadOp.assertNotBeg, LoadOp.seekBack] (atBlock cs (rem.length + 1), out) =
        .ok (atBlock cs rem.length, out) := by
      show Except.bind (Except.bind (cassert (!deserIsBeg (atBlock cs (rem.length + 1)))) _) _ = _
      rw [deserIsBeg_atBlock hbs]
      show Except.ok (deserSeek l N (atBlock cs (rem.length + 1)) (-1) .cur, out) = _
      rw [deserSeek_back hbs']
    rw [h1]
    show Except.bind (runTask _ (atBlock cs rem.length, out)) _ = _
    rw [runTask_loads c (gswIdx l N) out _ (done.reverse.flatMap saveGsw)
      (by subst h; have := drop_file rem.reverse c done.reverse; rw [hl] at this; exact this),
      Gsw.setAll_all, length_gswIdx]
    have hb : ({ atBlock cs rem.length with pos := (atBlock cs rem.length).pos + 8 * (2 * l * 2 * N) } : IStream) =
        atBlock cs (rem.length + 1) := by
      have : 8 * (2 * l * 2 * N) = blockSize l N := by rw [blockSize, Nat.mul_comm 8]
      simp only [atBlock, this, Nat.add_mul, Nat.one_mul]
    rw [hb]
    show Except.ok (deserSeek l N (atBlock cs (rem.length + 1)) (-1) .cur, c) = _
    rw [deserSeek_back hbs']

/-- the loader is loading the first of the remaining ciphertexts, or idle if there is none -/
def Loading (kind : StreamKind) (cs rem : List (Gsw l N)) (s : StreamState l N) : Prop :=
  match rem with
  | [] => s.task = none ∧ s.is = kind.idle cs 0
  | c :: rem => ∃ ops, s.task = some ops ∧ runTask ops (s.is, s.loaded) = .ok (kind.idle cs rem.length, c)

/-- the loader is idle -/
def Idle (kind : StreamKind) (cs rem : List (Gsw l N)) (s : StreamState l N) : Prop :=
  s.task = none ∧ s.is = kind.idle cs rem.length

/-- the last steps of `next()` -/
def StreamKind.tail (kind : StreamKind) : List (CallOp l N) :=
  match kind with
  | .forward => [.dec, .startIfNonEmpty, .ret]
  | .reversed => [.startIfNotBeg, .dec, .ret]

theorem StreamKind.next_eq (kind : StreamKind) :
    kind.next l N = .assertNonEmpty :: .get :: ((gswIdx l N).map .copy ++ kind.tail) := by
  cases kind <;> simp [StreamKind.next, StreamKind.tail]

/-- the call in progress: `rem` are the ciphertexts not yet returned by completed calls -/
inductive Phase (kind : StreamKind) (cs : List (Gsw l N)) : List (Gsw l N) → StreamState l N → Prop
  /-- between calls -/
  | rest (rem s) : s.pc = [] → s.size = rem.length → Loading kind cs rem s → Phase kind cs rem s
  | begin (rem s) : s.pc = kind.next l N → s.size = rem.length → Loading kind cs rem s → Phase kind cs rem s
  | wait (c rem s) : s.pc = .get :: ((gswIdx l N).map .copy ++ kind.tail) → s.size = rem.length + 1 →
      Loading kind cs (c :: rem) s → Phase kind cs (c :: rem) s
  | copy (c rem s xs) : s.pc = xs.map .copy ++ kind.tail → s.size = rem.length + 1 → s.loaded = c →
      s.ret.setAll c xs = c → Idle kind cs rem s → Phase kind cs (c :: rem) s
  | fwdStart (c rem s) : kind = .forward → s.pc = [.startIfNonEmpty, .ret] → s.size = rem.length → s.ret = c →
      Idle kind cs rem s → Phase kind cs (c :: rem) s
  | revDec (c rem s) : kind = .reversed → s.pc = [.dec, .ret] → s.size = rem.length + 1 → s.ret = c →
      Loading kind cs rem s → Phase kind cs (c :: rem) s
  | last (c rem s) : s.pc = [.ret] → s.size = rem.length → s.ret = c → Loading kind cs rem s →
      Phase kind cs (c :: rem) s

/-- the calls whose answers are still missing, including the one in progress -/
def pendingCalls (s : StreamState l N) : List StreamCall := if s.pc = [] then s.script else .next :: s.script

/-- the invariant of all schedules -/
structure StreamInv (kind : StreamKind) (cs : List (Gsw l N)) (script : List StreamCall) (s : StreamState l N) :
    Prop where
  spec : ∃ (done rem : List (Gsw l N)), kind.order cs = done ++ rem ∧
    (s.out ++ (streamSpec rem (pendingCalls s)).1, (streamSpec rem (pendingCalls s)).2) =
      streamSpec (kind.order cs) script ∧
    ((s.died = none ∧ Phase kind cs rem s) ∨
      (s.died = some .assertFail ∧ rem = [] ∧ ∃ r, pendingCalls s = .next :: r))

theorem Loading.congr {kind : StreamKind} {cs rem : List (Gsw l N)} {s t : StreamState l N}
    (h : Loading kind cs rem s) (h1 : t.task = s.task) (h2 : t.is = s.is) (h3 : t.loaded = s.loaded) :
    Loading kind cs rem t := by
  cases rem with
  | nil => exact ⟨h1.trans h.1, h2.trans h.2⟩
  | cons c rem =>
    obtain ⟨ops, ho, hr⟩ := h
    exact ⟨ops, h1.trans ho, by rw [h2, h3]; exact hr⟩

/-- a loader step keeps the invariant -/
theorem loading_step {kind : StreamKind} {cs rem : List (Gsw l N)} {s : StreamState l N} {op : LoadOp l N}
    {ops : List (LoadOp l N)} (ht : s.task = some (op :: ops)) (h : Loading kind cs rem s) :
    ∃ is c, op.run (s.is, s.loaded) = .ok (is, c) ∧
      Loading kind cs rem { s with is := is, loaded := c, task := some ops } := by
  cases rem with
  | nil => rw [h.1] at ht; simp at ht
  | cons c rem =>
    obtain ⟨ops', ho, hr⟩ := h
    rw [ho] at ht
    obtain rfl := Option.some.inj ht
    rw [runTask, List.foldlM_cons] at hr
    cases hop : op.run (s.is, s.loaded) with
    | error e => rw [hop] at hr; simp [bind, Except.bind] at hr
    | ok r =>
      obtain ⟨is, c'⟩ := r
      refine ⟨is, c', rfl, ops, rfl, ?_⟩
      rw [hop] at hr
      exact hr

theorem Phase.loader {kind : StreamKind} {cs rem : List (Gsw l N)} {s : StreamState l N} {op : LoadOp l N}
    {ops : List (LoadOp l N)} (ht : s.task = some (op :: ops)) (h : Phase kind cs rem s) :
    ∃ is c, op.run (s.is, s.loaded) = .ok (is, c) ∧
      Phase kind cs rem { s with is := is, loaded := c, task := some ops } := by
  cases h with
  | rest _ _ h1 h2 h3 =>
    obtain ⟨is, c, e, h⟩ := loading_step ht h3
    exact ⟨is, c, e, .rest _ _ h1 h2 h⟩
  | begin _ _ h1 h2 h3 =>
    obtain ⟨is, c, e, h⟩ := loading_step ht h3
    exact ⟨is, c, e, .begin _ _ h1 h2 h⟩
  | wait c' rem _ h1 h2 h3 =>
    obtain ⟨is, c, e, h⟩ := loading_step ht h3
    exact ⟨is, c, e, .wait _ _ _ h1 h2 h⟩
  | copy c' rem _ xs h1 h2 h3 h4 h5 => rw [h5.1] at ht; simp at ht
  | fwdStart c' rem _ h0 h1 h2 h3 h4 => rw [h4.1] at ht; simp at ht
  | revDec c' rem _ h0 h1 h2 h3 h4 =>
    obtain ⟨is, c, e, h⟩ := loading_step ht h4
    exact ⟨is, c, e, .revDec _ _ _ h0 h1 h2 h3 h⟩
  | last c' rem _ h1 h2 h3 h4 =>
    obtain ⟨is, c, e, h⟩ := loading_step ht h4
    exact ⟨is, c, e, .last _ _ _ h1 h2 h3 h⟩

theorem order_length (kind : StreamKind) (cs : List (Gsw l N)) : (kind.order cs).length = cs.length := by
  cases kind <;> simp [StreamKind.order]

/-- starting the next load from an idle position -/
theorem loading_start (hbs : 0 < blockSize l N) (hbs' : blockSize l N < 2 ^ 63) {kind : StreamKind}
    {cs done rem : List (Gsw l N)} (h : kind.order cs = done ++ rem) (s : StreamState l N) (hi : Idle kind cs rem s) :
    (rem ≠ [] → Loading kind cs rem (startLoading kind s) ∧ (startLoading kind s).died = s.died) ∧
    (rem = [] → Loading kind cs rem s) := by
  constructor
  · intro hne
    obtain ⟨c, rem, rfl⟩ := List.exists_cons_of_ne_nil hne
    have : startLoading kind s = { s with task := some (kind.task l N) } := by
      unfold startLoading; rw [hi.1]
    rw [this]
    refine ⟨⟨_, rfl, ?_⟩, rfl⟩
    show runTask _ (s.is, s.loaded) = _
    rw [hi.2, List.length_cons]
    exact task_ok hbs hbs' kind cs done c rem h s.loaded
  · rintro rfl
    exact hi

theorem startLoading_fields (kind : StreamKind) (s : StreamState l N) :
    (startLoading kind s).pc = s.pc ∧ (startLoading kind s).size = s.size ∧ (startLoading kind s).ret = s.ret ∧
      (startLoading kind s).script = s.script ∧ (startLoading kind s).out = s.out := by
  unfold startLoading; split <;> simp

theorem callerStep_pc {kind : StreamKind} {s : StreamState l N} {op : CallOp l N} {pc : List (CallOp l N)}
    (hd : s.died = none) (h : s.pc = op :: pc) : callerStep kind s = op.run kind { s with pc := pc } := by
  rcases s with ⟨is, loaded, task, size, pc', ret, script, out, died⟩
  dsimp only at hd h
  subst hd h
  rfl

theorem callerStep_next {kind : StreamKind} {s : StreamState l N} {r : List StreamCall}
    (hd : s.died = none) (h : s.pc = []) (hs : s.script = .next :: r) :
    callerStep kind s = some { s with pc := kind.next l N, script := r } := by
  rcases s with ⟨is, loaded, task, size, pc', ret, script, out, died⟩
  dsimp only at hd h hs
  subst hd h hs
  rfl

theorem callerStep_size {kind : StreamKind} {s : StreamState l N} {r : List StreamCall}
    (hd : s.died = none) (h : s.pc = []) (hs : s.script = .size :: r) :
    callerStep kind s = some { s with script := r, out := s.out ++ [.size s.size] } := by
  rcases s with ⟨is, loaded, task, size, pc', ret, script, out, died⟩
  dsimp only at hd h hs
  subst hd h hs
  rfl

theorem callerStep_done {kind : StreamKind} {s : StreamState l N} (h : s.pc = []) (hs : s.script = []) :
    callerStep kind s = none := by
  rcases s with ⟨is, loaded, task, size, pc', ret, script, out, died⟩
  dsimp only at h hs
  subst h hs
  cases died <;> rfl

theorem loaderStep_ok {s : StreamState l N} {op : LoadOp l N} {ops : List (LoadOp l N)} {is : IStream} {c : Gsw l N}
    (hd : s.died = none) (h : s.task = some (op :: ops)) (hr : op.run (s.is, s.loaded) = .ok (is, c)) :
    loaderStep s = some { s with is := is, loaded := c, task := some ops } := by
  rcases s with ⟨is, loaded, task, size, pc', ret, script, out, died⟩
  dsimp only at hd h hr
  subst hd h
  unfold loaderStep
  dsimp only
  rw [hr]

theorem spec_keep {rem : List (Gsw l N)} {s s' : StreamState l N} {R : List (StreamOut l N) × Bool}
    (h : (s.out ++ (streamSpec rem (.next :: s.script)).1, (streamSpec rem (.next :: s.script)).2) = R)
    (hpc : s'.pc ≠ []) (hs : s'.script = s.script) (ho : s'.out = s.out) :
    (s'.out ++ (streamSpec rem (pendingCalls s')).1, (streamSpec rem (pendingCalls s')).2) = R := by
  unfold pendingCalls; rw [if_neg hpc, hs, ho]; exact h

theorem inv_step (hbs : 0 < blockSize l N) (hbs' : blockSize l N < 2 ^ 63) {kind : StreamKind} {cs : List (Gsw l N)}
    {script : List StreamCall} {s t : StreamState l N} (hi : StreamInv kind cs script s) (hst : StreamStep kind s t) :
    StreamInv kind cs script t := by
  obtain ⟨done, rem, hord, hspec, hph⟩ := hi.spec
  rcases hph with ⟨hdied, hph⟩ | ⟨hdied, -, -⟩
  swap
  · rcases hst with hst | hst
    · simp [loaderStep, hdied] at hst
    · simp [callerStep, hdied] at hst
  rcases hst with hst | hst
  · -- the loader moves
    cases ht : s.task with
    | none => simp [loaderStep, hdied, ht] at hst
    | some ops =>
      cases ops with
      | nil => simp [loaderStep, hdied, ht] at hst
      | cons op ops =>
        obtain ⟨is, c, e, h⟩ := hph.loader ht
        rw [loaderStep_ok hdied ht e] at hst
        obtain rfl := Option.some.inj hst
        exact ⟨done, rem, hord, hspec, .inl ⟨hdied, h⟩⟩
  · -- the caller moves
    cases hph with
    | rest _ _ h1 h2 h3 =>
      have hpend : pendingCalls s = s.script := by unfold pendingCalls; rw [if_pos h1]
      rw [hpend] at hspec
      cases hsc : s.script with
      | nil => rw [callerStep_done h1 hsc] at hst; simp at hst
      | cons call r =>
        rw [hsc] at hspec
        cases call with
        | next =>
          rw [callerStep_next hdied h1 hsc] at hst
          obtain rfl := Option.some.inj hst
          refine ⟨done, rem, hord, ?_, .inl ⟨hdied, .begin _ _ rfl h2 (h3.congr rfl rfl rfl)⟩⟩
          have : pendingCalls { s with pc := kind.next l N, script := r } = .next :: r := by
            unfold pendingCalls; rw [if_neg]; rw [StreamKind.next_eq]; simp
          rw [this]; exact hspec
        | size =>
          rw [callerStep_size hdied h1 hsc] at hst
          obtain rfl := Option.some.inj hst
          refine ⟨done, rem, hord, ?_, .inl ⟨hdied, .rest _ _ h1 h2 (h3.congr rfl rfl rfl)⟩⟩
          have : pendingCalls { s with script := r, out := s.out ++ [.size s.size] } = r := by
            unfold pendingCalls; rw [if_pos h1]
          rw [this, ← hspec]
          cases rem <;> simp [streamSpec, h2]
    | begin _ _ h1 h2 h3 =>
      rw [StreamKind.next_eq] at h1
      rw [callerStep_pc hdied h1] at hst
      have hpend : pendingCalls s = .next :: s.script := by unfold pendingCalls; rw [if_neg (by rw [h1]; simp)]
      rw [hpend] at hspec
      simp only [CallOp.run] at hst
      obtain rfl := Option.some.inj hst
      have hpend' : ∀ s' : StreamState l N, s'.pc = .get :: ((gswIdx l N).map .copy ++ kind.tail) →
          s'.script = s.script → pendingCalls s' = .next :: s.script := by
        intro s' hp hs; unfold pendingCalls; rw [if_neg (by rw [hp]; simp), hs]
      cases rem with
      | nil =>
        rw [if_neg (by rw [h2]; simp)]
        refine ⟨done, [], hord, ?_, .inr ⟨rfl, rfl, _, hpend' _ rfl rfl⟩⟩
        exact spec_keep hspec (by simp) rfl rfl
      | cons c rem =>
        rw [if_pos (by rw [h2]; simp)]
        refine ⟨done, c :: rem, hord, ?_, .inl ⟨hdied, .wait _ _ _ rfl h2 (h3.congr rfl rfl rfl)⟩⟩
        exact spec_keep hspec (by simp) rfl rfl
    | wait c rem _ h1 h2 h3 =>
      rw [callerStep_pc hdied h1] at hst
      have hpend : pendingCalls s = .next :: s.script := by unfold pendingCalls; rw [if_neg (by rw [h1]; simp)]
      rw [hpend] at hspec
      simp only [CallOp.run] at hst
      obtain ⟨ops, ho, hr⟩ := h3
      rw [ho] at hst
      cases ops with
      | cons op ops => simp at hst
      | nil =>
        obtain rfl := Option.some.inj hst
        have hr : (s.is, s.loaded) = (kind.idle cs rem.length, c) := Except.ok.inj hr
        refine ⟨done, c :: rem, hord, ?_, .inl ⟨hdied, .copy c rem _ (gswIdx l N) rfl h2 (Prod.mk.inj hr).2
          (Gsw.setAll_all _ _) ⟨rfl, (Prod.mk.inj hr).1⟩⟩⟩
        exact spec_keep hspec (by cases kind <;> simp [StreamKind.tail]) rfl rfl
    | copy c rem _ xs h1 h2 h3 h4 h5 =>
      have hpend : pendingCalls s = .next :: s.script := by
        unfold pendingCalls; rw [if_neg (by rw [h1]; cases kind <;> simp [StreamKind.tail])]
      rw [hpend] at hspec
      cases xs with
      | cons x xs =>
        rw [List.map_cons, List.cons_append] at h1
        rw [callerStep_pc hdied h1] at hst
        simp only [CallOp.run] at hst
        obtain rfl := Option.some.inj hst
        refine ⟨done, c :: rem, hord, ?_, .inl ⟨hdied, .copy c rem _ xs rfl h2 h3 ?_ h5⟩⟩
        · exact spec_keep hspec (by cases kind <;> simp [StreamKind.tail]) rfl rfl
        · rw [h3]; exact h4
      | nil =>
        rw [List.map_nil, List.nil_append] at h1
        have h4 : s.ret = c := h4
        have hord' : kind.order cs = (done ++ [c]) ++ rem := by rw [hord]; simp
        cases kind with
        | forward =>
          rw [callerStep_pc hdied h1] at hst
          simp only [CallOp.run] at hst
          obtain rfl := Option.some.inj hst
          refine ⟨done, c :: rem, hord, ?_, .inl ⟨hdied, .fwdStart c rem _ rfl rfl ?_ h4 h5⟩⟩
          · exact spec_keep hspec (by simp) rfl rfl
          · show s.size - 1 = _; omega
        | reversed =>
          rw [callerStep_pc hdied h1] at hst
          simp only [CallOp.run] at hst
          obtain rfl := Option.some.inj hst
          have hb : deserIsBeg s.is = decide (rem.length = 0) := by
            rw [h5.2]; exact deserIsBeg_atBlock hbs cs _
          rw [hb]
          have hls := loading_start hbs hbs' hord' { s with pc := [.dec, .ret] } h5
          obtain ⟨f1, f2, f3, f4, f5⟩ := startLoading_fields .reversed ({ s with pc := [.dec, .ret] } : StreamState l N)
          by_cases hr : rem = []
          · rw [if_neg (by simp [hr])]
            refine ⟨done, c :: rem, hord, ?_, .inl ⟨hdied, .revDec c rem _ rfl rfl h2 h4 (hls.2 hr)⟩⟩
            exact spec_keep hspec (by simp) rfl rfl
          · rw [if_pos (by simp [hr])]
            refine ⟨done, c :: rem, hord, ?_, .inl ⟨(hls.1 hr).2.trans hdied, .revDec c rem _ rfl f1 (f2.trans h2)
              (f3.trans h4) (hls.1 hr).1⟩⟩
            exact spec_keep hspec (by rw [f1]; simp) f4 f5
    | fwdStart c rem _ h0 h1 h2 h3 h4 =>
      subst h0
      have hpend : pendingCalls s = .next :: s.script := by unfold pendingCalls; rw [if_neg (by rw [h1]; simp)]
      rw [hpend] at hspec
      rw [callerStep_pc hdied h1] at hst
      simp only [CallOp.run] at hst
      obtain rfl := Option.some.inj hst
      have hord' : StreamKind.forward.order cs = (done ++ [c]) ++ rem := by rw [hord]; simp
      have hls := loading_start hbs hbs' hord' { s with pc := [.ret] } h4
      obtain ⟨f1, f2, f3, f4, f5⟩ := startLoading_fields .forward ({ s with pc := [.ret] } : StreamState l N)
      by_cases hr : rem = []
      · rw [if_neg (by rw [h2]; simp [hr])]
        refine ⟨done, c :: rem, hord, ?_, .inl ⟨hdied, .last c rem _ rfl h2 h3 (hls.2 hr)⟩⟩
        exact spec_keep hspec (by simp) rfl rfl
      · rw [if_pos (by rw [h2]; exact List.length_pos_iff.2 hr)]
        refine ⟨done, c :: rem, hord, ?_, .inl ⟨(hls.1 hr).2.trans hdied, .last c rem _ f1 (f2.trans h2)
          (f3.trans h3) (hls.1 hr).1⟩⟩
        exact spec_keep hspec (by rw [f1]; simp) f4 f5
    | revDec c rem _ h0 h1 h2 h3 h4 =>
      have hpend : pendingCalls s = .next :: s.script := by unfold pendingCalls; rw [if_neg (by rw [h1]; simp)]
      rw [hpend] at hspec
      rw [callerStep_pc hdied h1] at hst
      simp only [CallOp.run] at hst
      obtain rfl := Option.some.inj hst
      refine ⟨done, c :: rem, hord, ?_, .inl ⟨hdied, .last c rem _ rfl ?_ h3 (h4.congr rfl rfl rfl)⟩⟩
      · have : pendingCalls { s with pc := [.ret], size := s.size - 1 } = .next :: s.script := by
          unfold pendingCalls; rw [if_neg (by simp)]
        rw [this]; exact hspec
      · show s.size - 1 = _; omega
    | last c rem _ h1 h2 h3 h4 =>
      have hpend : pendingCalls s = .next :: s.script := by unfold pendingCalls; rw [if_neg (by rw [h1]; simp)]
      rw [hpend] at hspec
      rw [callerStep_pc hdied h1] at hst
      simp only [CallOp.run] at hst
      obtain rfl := Option.some.inj hst
      refine ⟨done ++ [c], rem, by rw [hord]; simp, ?_, .inl ⟨hdied, .rest rem _ rfl h2 (h4.congr rfl rfl rfl)⟩⟩
      have : pendingCalls { s with pc := [], out := s.out ++ [.ctxt s.ret] } = s.script := by
        unfold pendingCalls; rw [if_pos rfl]
      rw [this, ← hspec, h3]
      simp [streamSpec]

end Homfa
