import Verif.Model.Drop
import Verif.Proof.StreamRun

/-! # Destroying a stream: invariant, progress, termination -/

namespace Homfa

variable {l N : Nat}

/-- a stream that has not died and where nobody can move is between two calls, with none left -/
theorem stuck_rest {kind : StreamKind} {cs : List (Gsw l N)} {script : List StreamCall} {s : StreamState l N}
    (hi : StreamInv kind cs script s) (hd : s.died = none) (hs : StreamStuck kind s) : s.pc = [] ∧ s.script = [] := by
  obtain ⟨done, rem, hord, hspec, hph⟩ := hi.spec
  rcases hph with ⟨-, hph⟩ | ⟨hd', -⟩
  · have hcs : ∀ t, callerStep kind s ≠ some t := fun t h => hs t (.inr h)
    have hlo : ∀ t, loaderStep s ≠ some t := fun t h => hs t (.inl h)
    have hpc : ∀ (op : CallOp l N) pc, s.pc = op :: pc → (∀ s' : StreamState l N, ∃ t, op.run kind s' = some t) →
        False := by
      intro op pc h hop
      obtain ⟨t, ht⟩ := hop { s with pc := pc }
      exact hcs t (by rw [callerStep_pc hd h, ht])
    cases hph with
    | rest _ _ h1 h2 h3 =>
      refine ⟨h1, ?_⟩
      cases hsc : s.script with
      | nil => rfl
      | cons call r =>
        cases call with
        | next => exact absurd (callerStep_next hd h1 hsc) (hcs _)
        | size => exact absurd (callerStep_size hd h1 hsc) (hcs _)
    | begin _ _ h1 h2 h3 =>
      rw [StreamKind.next_eq] at h1
      exact (hpc _ _ h1 fun s' => ⟨_, rfl⟩).elim
    | wait c rem _ h1 h2 h3 =>
      obtain ⟨ops, ho, hr⟩ := h3
      cases ops with
      | nil =>
        refine absurd ?_ (hcs { s with pc := (gswIdx l N).map .copy ++ kind.tail, task := none })
        rw [callerStep_pc hd h1]
        simp only [CallOp.run, ho]
      | cons op ops =>
        obtain ⟨t, ht⟩ := loader_enabled (kind := kind) (cs := cs) (rem := c :: rem) hd ⟨_, ho, hr⟩ ho
        exact absurd ht (hlo t)
    | copy c rem _ xs h1 h2 h3 h4 h5 =>
      cases xs with
      | cons x xs => exact (hpc _ _ h1 fun s' => ⟨_, rfl⟩).elim
      | nil =>
        cases kind with
        | forward => exact (hpc _ _ h1 fun s' => ⟨_, rfl⟩).elim
        | reversed => exact (hpc _ _ h1 fun s' => ⟨_, rfl⟩).elim
    | fwdStart c rem _ h0 h1 h2 h3 h4 => exact (hpc _ _ h1 fun s' => ⟨_, rfl⟩).elim
    | revDec c rem _ h0 h1 h2 h3 h4 => exact (hpc _ _ h1 fun s' => ⟨_, rfl⟩).elim
    | last c rem _ h1 h2 h3 h4 => exact (hpc _ _ h1 fun s' => ⟨_, rfl⟩).elim
  · rw [hd] at hd'; simp at hd'

/-- the loader thread has something to do -/
def busy (s : StreamState l N) : Prop := ∃ op ops, s.task = some (op :: ops)

theorem loaderStep_fields {s t : StreamState l N} (h : loaderStep s = some t) : t.pc = s.pc ∧ t.script = s.script := by
  unfold loaderStep at h
  split at h
  · split at h <;> (obtain rfl := Option.some.inj h; exact ⟨rfl, rfl⟩)
  · simp at h

/-- what holds of the destructor's part of the state -/
def DropFlags (d : DropState l N) : Prop :=
  match d.dtor with
  | none => d.stop = false ∧ d.exited = false ∧ d.fileOpen = true ∧ d.released = false ∧ d.future = true
  | some ops => d.s.pc = [] ∧ d.s.script = [] ∧ d.s.died = none ∧
    ((ops = [.dropFuture, .stopPool, .joinWorker, .closeFile, .release] ∧
        d.exited = false ∧ d.fileOpen = true ∧ d.released = false ∧ d.stop = false) ∨
      (ops = [.stopPool, .joinWorker, .closeFile, .release] ∧
        d.exited = false ∧ d.fileOpen = true ∧ d.released = false ∧ d.stop = false ∧ d.future = false) ∨
      (ops = [.joinWorker, .closeFile, .release] ∧ d.stop = true ∧ d.fileOpen = true ∧ d.released = false ∧
        d.future = false) ∨
      (ops = [.closeFile, .release] ∧ d.exited = true ∧ d.fileOpen = true ∧ d.future = false) ∨
      (ops = [.release] ∧ d.exited = true ∧ d.fileOpen = false ∧ d.future = false) ∨
      (ops = [] ∧ d.exited = true ∧ d.fileOpen = false ∧ d.released = true ∧ d.future = false))

structure DropInv (kind : StreamKind) (cs : List (Gsw l N)) (script : List StreamCall) (d : DropState l N) : Prop where
  inv : StreamInv kind cs script d.s
  flags : DropFlags d
  idle : d.exited = true → ¬ busy d.s

theorem StreamInv.died_cases {kind : StreamKind} {cs : List (Gsw l N)} {script : List StreamCall} {s : StreamState l N}
    (hi : StreamInv kind cs script s) : s.died = none ∨ s.died = some .assertFail := by
  obtain ⟨done, rem, hord, hspec, ⟨h, -⟩ | ⟨h, -⟩⟩ := hi.spec
  · exact .inl h
  · exact .inr h

/-- between calls a busy loader can move, and does so without dying -/
theorem loader_ok_rest {kind : StreamKind} {cs : List (Gsw l N)} {script : List StreamCall} {s : StreamState l N}
    (hi : StreamInv kind cs script s) (hd : s.died = none) (hb : busy s) :
    ∃ t, loaderStep s = some t ∧ t.died = none := by
  obtain ⟨op, ops, ht⟩ := hb
  obtain ⟨done, rem, hord, hspec, ⟨-, hph⟩ | ⟨h, -⟩⟩ := hi.spec
  · obtain ⟨is, c, e, -⟩ := hph.loader ht
    exact ⟨_, loaderStep_ok hd ht e, hd⟩
  · rw [hd] at h; simp at h

theorem dropLoader_busy {d : DropState l N} (hd : d.s.died = none) (hx : d.exited = false) (hr : d.released = false)
    (hf : d.fileOpen = true) (hb : busy d.s) :
    dropLoader d = (loaderStep d.s).map fun s => { d with s := s } := by
  obtain ⟨op, ops, ht⟩ := hb
  unfold dropLoader
  simp [hd, hx, hr, hf, ht]

theorem dropLoader_idle {d : DropState l N} (hd : d.s.died = none) (hx : d.exited = false) (hr : d.released = false)
    (hb : ¬ busy d.s) :
    dropLoader d = if d.stop then some { d with exited := true } else none := by
  unfold dropLoader
  cases ht : d.s.task with
  | none => simp [hd, hx, hr]
  | some ops =>
    cases ops with
    | nil => simp [hd, hx, hr]
    | cons op ops => exact absurd ⟨op, ops, ht⟩ hb

theorem dropLoader_dead {d : DropState l N} (h : d.s.died ≠ none ∨ d.exited = true) : dropLoader d = none := by
  unfold dropLoader
  rcases h with h | h
  · cases hd : d.s.died with
    | none => exact absurd hd h
    | some e => simp
  · simp [h]

theorem dropCaller_call {kind : StreamKind} {d : DropState l N} (hd : d.s.died = none) (hdt : d.dtor = none)
    (hrest : ¬ (d.s.pc = [] ∧ d.s.script = [])) :
    dropCaller kind d = (callerStep kind d.s).map fun s => { d with s := s } := by
  rcases d with ⟨s, dtor, fu, st, ex, fo, rl⟩
  dsimp only at hd hdt hrest ⊢
  subst hdt
  unfold dropCaller
  dsimp only
  rw [hd]
  cases hpc : s.pc with
  | cons op pc => rfl
  | nil =>
    cases hsc : s.script with
    | cons c r => rfl
    | nil => exact absurd ⟨hpc, hsc⟩ hrest

theorem drop_inv_step (hbs : 0 < blockSize l N) (hbs' : blockSize l N < 2 ^ 63) {kind : StreamKind}
    {cs : List (Gsw l N)} {script : List StreamCall} {d e : DropState l N} (hi : DropInv kind cs script d)
    (hst : DropStep kind d e) : DropInv kind cs script e := by
  obtain ⟨hinv, hfl, hidle⟩ := hi
  have hd : d.s.died = none := by
    by_contra hne
    rcases hst with h | h
    · rw [dropLoader_dead (.inl hne)] at h; simp at h
    · have : d.s.died.isSome := by cases hx : d.s.died with
        | none => exact absurd hx hne
        | some _ => rfl
      simp [dropCaller, this] at h
  rcases hst with h | h
  · have hx : d.exited = false := by
      by_contra hne
      rw [dropLoader_dead (.inr (by simpa using hne))] at h
      simp at h
    have hr : d.released = false ∧ d.fileOpen = true := by
      unfold DropFlags at hfl
      cases hdt : d.dtor with
      | none => rw [hdt] at hfl; exact ⟨hfl.2.2.2.1, hfl.2.2.1⟩
      | some ops =>
        rw [hdt] at hfl
        obtain ⟨-, -, -, h | h | h | h | h | h⟩ := hfl
        · exact ⟨h.2.2.2.1, h.2.2.1⟩
        · exact ⟨h.2.2.2.1, h.2.2.1⟩
        · exact ⟨h.2.2.2.1, h.2.2.1⟩
        · rw [hx] at h; simp at h
        · rw [hx] at h; simp at h
        · rw [hx] at h; simp at h
    by_cases hb : busy d.s
    · rw [dropLoader_busy hd hx hr.1 hr.2 hb] at h
      obtain ⟨t, ht, rfl⟩ := Option.map_eq_some_iff.1 h
      obtain ⟨t', ht', hdt⟩ := loader_ok_rest hinv hd hb
      obtain rfl : t = t' := Option.some.inj (ht.symm.trans ht')
      have hf := loaderStep_fields ht
      refine ⟨inv_step hbs hbs' hinv (.inl ht), ?_, ?_⟩
      · unfold DropFlags at hfl ⊢
        dsimp only
        cases hdd : d.dtor with
        | none => rw [hdd] at hfl; exact hfl
        | some ops =>
          rw [hdd] at hfl
          exact ⟨hf.1.trans hfl.1, hf.2.trans hfl.2.1, hdt, hfl.2.2.2⟩
      · intro hx'; dsimp only at hx'; rw [hx] at hx'; simp at hx'
    · rw [dropLoader_idle hd hx hr.1 hb] at h
      cases hs : d.stop with
      | false => rw [hs] at h; simp at h
      | true =>
        rw [hs, if_pos rfl] at h
        obtain rfl := Option.some.inj h
        refine ⟨hinv, ?_, fun _ => hb⟩
        unfold DropFlags at hfl ⊢
        dsimp only
        cases hdt : d.dtor with
        | none => rw [hdt] at hfl; rw [hs] at hfl; simp at hfl
        | some ops =>
          rw [hdt] at hfl
          obtain ⟨h1, h2, h3, h | h | h | h | h | h⟩ := hfl
          · rw [hs] at h; simp at h
          · rw [hs] at h; simp at h
          · exact ⟨h1, h2, h3, .inr (.inr (.inl ⟨h.1, rfl, h.2.2⟩))⟩
          · rw [hx] at h; simp at h
          · rw [hx] at h; simp at h
          · rw [hx] at h; simp at h
  · have hns : d.s.died.isSome = false := by rw [hd]; rfl
    cases hdt : d.dtor with
    | none =>
      unfold DropFlags at hfl
      rw [hdt] at hfl
      dsimp only at hfl
      by_cases hrest : d.s.pc = [] ∧ d.s.script = []
      · have he : e = { d with dtor := some dropOps } := by
          unfold dropCaller at h
          rw [hns] at h
          simp only [Bool.false_eq_true, if_false, hdt, hrest.1, hrest.2] at h
          exact (Option.some.inj h).symm
        subst he
        refine ⟨hinv, ?_, hidle⟩
        unfold DropFlags
        exact ⟨hrest.1, hrest.2, hd, .inl ⟨rfl, hfl.2.1, hfl.2.2.1, hfl.2.2.2.1, hfl.1⟩⟩
      · rw [dropCaller_call hd hdt hrest] at h
        obtain ⟨t, ht, rfl⟩ := Option.map_eq_some_iff.1 h
        refine ⟨inv_step hbs hbs' hinv (.inr ht), ?_, ?_⟩
        · unfold DropFlags
          dsimp only
          rw [hdt]
          exact hfl
        · intro hx; dsimp only at hx; rw [hfl.2.1] at hx; simp at hx
    | some ops =>
      cases ops with
      | nil => simp [dropCaller, hns, hdt] at h
      | cons op ops =>
        have hr : op.run { d with dtor := some ops } = some e := by
          simpa [dropCaller, hns, hdt] using h
        unfold DropFlags at hfl
        rw [hdt] at hfl
        obtain ⟨h1, h2, h3, h | h | h | h | h | h⟩ := hfl
        · obtain ⟨ho, hf⟩ := h
          obtain ⟨rfl, rfl⟩ := List.cons.inj ho
          obtain rfl := Option.some.inj hr
          exact ⟨hinv, ⟨h1, h2, h3, .inr (.inl ⟨rfl, hf.1, hf.2.1, hf.2.2.1, hf.2.2.2, rfl⟩)⟩, hidle⟩
        · obtain ⟨ho, hf⟩ := h
          obtain ⟨rfl, rfl⟩ := List.cons.inj ho
          obtain rfl := Option.some.inj hr
          exact ⟨hinv, ⟨h1, h2, h3, .inr (.inr (.inl ⟨rfl, rfl, hf.2.1, hf.2.2.1, hf.2.2.2.2⟩))⟩, hidle⟩
        · obtain ⟨ho, hf⟩ := h
          obtain ⟨rfl, rfl⟩ := List.cons.inj ho
          unfold DropOp.run at hr
          dsimp only at hr
          cases hx : d.exited with
          | false => rw [hx] at hr; simp at hr
          | true =>
            rw [hx, if_pos rfl] at hr
            obtain rfl := Option.some.inj hr
            exact ⟨hinv, ⟨h1, h2, h3, .inr (.inr (.inr (.inl ⟨rfl, rfl, hf.2.1, hf.2.2.2⟩)))⟩, fun _ => hidle hx⟩
        · obtain ⟨ho, hf⟩ := h
          obtain ⟨rfl, rfl⟩ := List.cons.inj ho
          obtain rfl := Option.some.inj hr
          exact ⟨hinv, ⟨h1, h2, h3, .inr (.inr (.inr (.inr (.inl ⟨rfl, hf.1, rfl, hf.2.2⟩))))⟩, hidle⟩
        · obtain ⟨ho, hf⟩ := h
          obtain ⟨rfl, rfl⟩ := List.cons.inj ho
          obtain rfl := Option.some.inj hr
          exact ⟨hinv, ⟨h1, h2, h3, .inr (.inr (.inr (.inr (.inr ⟨rfl, hf.1, hf.2.1, rfl, hf.2.2⟩))))⟩, hidle⟩
        · simp at h

theorem drop_inv_exec (hbs : 0 < blockSize l N) (hbs' : blockSize l N < 2 ^ 63) {kind : StreamKind}
    {cs : List (Gsw l N)} {script : List StreamCall} {n : Nat} {d e : DropState l N} (he : DropExec kind n d e)
    (hi : DropInv kind cs script d) : DropInv kind cs script e := by
  induction he with
  | refl => exact hi
  | step _ hst ih => exact drop_inv_step hbs hbs' (ih hi) hst

theorem drop_inv_start {kind : StreamKind} {cs : List (Gsw l N)} {script : List StreamCall} {s : StreamState l N}
    (hi : StreamInv kind cs script s) : DropInv kind cs script (.ofStream s) :=
  ⟨hi, ⟨rfl, rfl, rfl, rfl, rfl⟩, fun h => by simp [DropState.ofStream] at h⟩

/-- no thread can take a step -/
def DropStuck (kind : StreamKind) (d : DropState l N) : Prop := ∀ e, ¬ DropStep kind d e

theorem drop_stuck {kind : StreamKind} {cs : List (Gsw l N)} {script : List StreamCall} {d : DropState l N}
    (hi : DropInv kind cs script d) (hs : DropStuck kind d) :
    d.s.out = (streamSpec (kind.order cs) script).1 ∧
      d.s.died = (if (streamSpec (kind.order cs) script).2 then some .assertFail else none) ∧
      (d.s.died = none → d.dtor = some [] ∧ d.exited = true ∧ d.fileOpen = false ∧ d.released = true ∧
        d.future = false) := by
  obtain ⟨hinv, hfl, hidle⟩ := hi
  have hlo : ∀ e, dropLoader d ≠ some e := fun e h => hs e (.inl h)
  have hca : ∀ e, dropCaller kind d ≠ some e := fun e h => hs e (.inr h)
  by_cases hd : d.s.died = none
  swap
  · have hst : StreamStuck kind d.s := by
      intro t ht
      cases hx : d.s.died with
      | none => exact hd hx
      | some e =>
        rcases ht with h | h
        · simp [loaderStep, hx] at h
        · simp [callerStep, hx] at h
    have := stuck_done hinv hst
    exact ⟨this.1, this.2, fun h => absurd h hd⟩
  have hns : d.s.died.isSome = false := by rw [hd]; rfl
  unfold DropFlags at hfl
  cases hdt : d.dtor with
  | none =>
    rw [hdt] at hfl
    dsimp only at hfl
    exfalso
    by_cases hrest : d.s.pc = [] ∧ d.s.script = []
    · refine hca { d with dtor := some dropOps } ?_
      unfold dropCaller
      rw [hns]
      simp only [Bool.false_eq_true, if_false, hdt, hrest.1, hrest.2]
    · refine hrest (stuck_rest hinv hd ?_)
      intro t ht
      rcases ht with h | h
      · have hb : busy d.s := by
          cases htk : d.s.task with
          | none => simp [loaderStep, hd, htk] at h
          | some ops =>
            cases ops with
            | nil => simp [loaderStep, hd, htk] at h
            | cons op ops => exact ⟨op, ops, htk⟩
        refine hlo { d with s := t } ?_
        rw [dropLoader_busy hd hfl.2.1 hfl.2.2.2.1 hfl.2.2.1 hb, h]
        rfl
      · refine hca { d with s := t } ?_
        rw [dropCaller_call hd hdt hrest, h]
        rfl
  | some ops =>
    rw [hdt] at hfl
    obtain ⟨h1, h2, -, h⟩ := hfl
    have hrun : ∀ op ops' e, ops = op :: ops' → op.run { d with dtor := some ops' } ≠ some e := by
      intro op ops' e ho hr
      subst ho
      refine hca e ?_
      simpa [dropCaller, hns, hdt] using hr
    rcases h with h | h | h | h | h | h
    · exact absurd rfl (hrun _ _ _ h.1)
    · exact absurd rfl (hrun _ _ _ h.1)
    · exfalso
      cases hx : d.exited with
      | true => exact hrun _ _ _ h.1 (if_pos hx)
      | false =>
        by_cases hb : busy d.s
        · obtain ⟨t, ht, -⟩ := loader_ok_rest hinv hd hb
          refine hlo { d with s := t } ?_
          rw [dropLoader_busy hd hx h.2.2.2.1 h.2.2.1 hb, ht]
          rfl
        · refine hlo { d with exited := true } ?_
          rw [dropLoader_idle hd hx h.2.2.2.1 hb, h.2.1, if_pos rfl]
    · exact absurd rfl (hrun _ _ _ h.1)
    · exact absurd rfl (hrun _ _ _ h.1)
    · obtain ⟨rfl, hx, hf, hrl, hfu⟩ := h
      have hsp : d.s.out = (streamSpec (kind.order cs) script).1 ∧
          (streamSpec (kind.order cs) script).2 = false := by
        obtain ⟨done, rem, hord, hspec, -⟩ := hinv.spec
        have hp : pendingCalls d.s = [] := by unfold pendingCalls; rw [if_pos h1, h2]
        have hz : streamSpec rem ([] : List StreamCall) = ([], false) := by cases rem <;> rfl
        rw [hp, hz] at hspec
        rw [← hspec]
        simp
      exact ⟨hsp.1, by rw [hd, hsp.2]; rfl, fun _ => ⟨rfl, hx, hf, hrl, hfu⟩⟩

/-! ### Termination -/

/-- number of steps an execution can still take -/
def dropFuel (kind : StreamKind) (d : DropState l N) : Nat :=
  if d.s.died = none then
    fuel kind d.s + (match d.dtor with
      | none => dropOps.length + 1
      | some ops => ops.length) + (if d.exited then 0 else 1)
  else 0

theorem fuel_pos {kind : StreamKind} {s : StreamState l N} (h : s.died = none) : 0 < fuel kind s := by
  unfold fuel; rw [if_pos h]; omega

theorem dropFuel_ub {kind : StreamKind} {d : DropState l N} (hd : d.s.died = none) : dropFuel kind d.ub < dropFuel kind d := by
  have := fuel_pos (kind := kind) hd
  unfold dropFuel DropState.ub
  rw [if_neg (by simp), if_pos hd]
  omega

theorem dropFuel_base {kind : StreamKind} {d : DropState l N} {t : StreamState l N} (hd : d.s.died = none)
    (h : fuel kind t < fuel kind d.s) : dropFuel kind { d with s := t } < dropFuel kind d := by
  have := fuel_pos (kind := kind) hd
  unfold dropFuel
  rw [if_pos hd]
  dsimp only
  split <;> omega

theorem dropFuel_step {kind : StreamKind} {d e : DropState l N} (h : DropStep kind d e) :
    dropFuel kind e < dropFuel kind d := by
  have hd : d.s.died = none := by
    by_contra hne
    rcases h with h | h
    · rw [dropLoader_dead (.inl hne)] at h; simp at h
    · have : d.s.died.isSome := by cases hx : d.s.died with
        | none => exact absurd hx hne
        | some _ => rfl
      simp [dropCaller, this] at h
  have hns : d.s.died.isSome = false := by rw [hd]; rfl
  rcases h with h | h
  · have hx : d.exited = false := by
      by_contra hne
      rw [dropLoader_dead (.inr (by simpa using hne))] at h
      simp at h
    unfold dropLoader at h
    rw [hns, hx] at h
    simp only [Bool.or_self, Bool.false_eq_true, if_false] at h
    split at h
    · obtain rfl := Option.some.inj h; exact dropFuel_ub hd
    · split at h
      · split at h
        · obtain ⟨t, ht, rfl⟩ := Option.map_eq_some_iff.1 h
          have := dropFuel_base (d := d) hd (fuel_step (kind := kind) (.inl ht))
          rw [hx] at this
          exact this
        · obtain rfl := Option.some.inj h; exact dropFuel_ub hd
      · split at h
        · obtain rfl := Option.some.inj h
          unfold dropFuel
          dsimp only
          rw [if_pos hd, if_pos hd, hx]
          simp
        · simp at h
  · cases hdt : d.dtor with
    | none =>
      by_cases hrest : d.s.pc = [] ∧ d.s.script = []
      · have he : e = { d with dtor := some dropOps } := by
          unfold dropCaller at h
          rw [hns] at h
          simp only [Bool.false_eq_true, if_false, hdt, hrest.1, hrest.2] at h
          exact (Option.some.inj h).symm
        subst he
        unfold dropFuel
        dsimp only
        rw [if_pos hd, if_pos hd, hdt]
        dsimp only
        omega
      · rw [dropCaller_call hd hdt hrest] at h
        obtain ⟨t, ht, rfl⟩ := Option.map_eq_some_iff.1 h
        exact dropFuel_base hd (fuel_step (.inr ht))
    | some ops =>
      cases ops with
      | nil => simp [dropCaller, hns, hdt] at h
      | cons op ops =>
        have hr : op.run { d with dtor := some ops } = some e := by
          simpa [dropCaller, hns, hdt] using h
        have he : e.s = d.s ∧ e.dtor = some ops ∧ e.exited = d.exited := by
          cases op <;> simp only [DropOp.run] at hr
          · obtain rfl := Option.some.inj hr; exact ⟨rfl, rfl, rfl⟩
          · obtain rfl := Option.some.inj hr; exact ⟨rfl, rfl, rfl⟩
          · split at hr
            · obtain rfl := Option.some.inj hr; exact ⟨rfl, rfl, rfl⟩
            · simp at hr
          · obtain rfl := Option.some.inj hr; exact ⟨rfl, rfl, rfl⟩
          · obtain rfl := Option.some.inj hr; exact ⟨rfl, rfl, rfl⟩
        unfold dropFuel
        rw [he.1, he.2.1, he.2.2, if_pos hd, if_pos hd, hdt]
        simp

theorem drop_exec_bound {kind : StreamKind} {n : Nat} {d e : DropState l N} (h : DropExec kind n d e) :
    n + dropFuel kind e ≤ dropFuel kind d := by
  induction h with
  | refl => omega
  | step _ hst ih => have := dropFuel_step hst; omega

end Homfa
