import Verif.Proof.Stream

namespace Homfa

variable {l N : Nat}

theorem seekg_ok (is : IStream) (off : Int) (dir : SeekDir) (p : Nat) (hf : is.fail = false)
    (h : (match dir with
        | .beg => (0 : Int)
        | .cur => is.pos
        | .end_ => is.bytes.length) + off = p) :
    is.seekg off dir = { is with pos := p } := by
  unfold IStream.seekg
  rw [hf]
  cases dir <;> simp only at h <;> simp [h]

theorem deserSeek_zero (is : IStream) (dir : SeekDir) (hf : is.fail = false) :
    deserSeek l N is 0 dir = { is with pos := match dir with
      | .beg => 0
      | .cur => is.pos
      | .end_ => is.bytes.length } := by
  unfold deserSeek
  have : seekOffset l N 0 = 0 := by simp [seekOffset]
  rw [this]
  apply seekg_ok _ _ _ _ hf
  cases dir <;> simp

theorem tell_atBlock (hbs : 0 < blockSize l N) (cs : List (Gsw l N)) (p : Nat) (hp : p * blockSize l N < 2 ^ 63) :
    deserTell l N (atBlock cs p) = .ok p := by
  unfold deserTell
  have : (BitVec.ofInt 64 (atBlock cs p).tellg).toNat = p * blockSize l N := by
    simp only [atBlock, IStream.tellg, Bool.false_eq_true, if_false]
    rw [BitVec.ofInt_natCast, BitVec.toNat_ofNat, Nat.mod_eq_of_lt]
    exact Nat.lt_of_lt_of_le hp (Nat.pow_le_pow_right (by omega) (by omega))
  rw [this]
  dsimp only
  rw [Nat.mul_mod_left, Nat.mul_div_cancel _ hbs]
  rfl

theorem open_inv (hbs : 0 < blockSize l N) (hbs' : blockSize l N < 2 ^ 63) (kind : StreamKind) (cs : List (Gsw l N))
    (hlen : (cs.flatMap saveGsw).length < 2 ^ 63) (junk : Gsw l N) (script : List StreamCall) :
    ∃ s, openStream kind (some (cs.flatMap saveGsw)) junk script = .ok s ∧ StreamInv kind cs script s := by
  rw [length_file] at hlen
  have he : deserSeek l N { bytes := cs.flatMap saveGsw, pos := 0, fail := false } 0 .end_ = atBlock cs cs.length := by
    rw [deserSeek_zero _ _ rfl]
    simp only [atBlock, length_file]
  have hb : deserSeek l N (atBlock cs cs.length) 0 .beg = atBlock cs 0 := by
    rw [deserSeek_zero _ _ rfl]
    simp [atBlock]
  unfold openStream
  show ∃ s, (Except.bind (deserTell l N _) _ : Res _) = .ok s ∧ _
  rw [he, tell_atBlock hbs _ _ hlen]
  refine ⟨_, rfl, ?_⟩
  have hidle : ∀ s : StreamState l N, s.task = none → s.is = (match kind with
      | .forward => deserSeek l N (atBlock cs cs.length) 0 .beg
      | .reversed => atBlock cs cs.length) → Idle kind cs (kind.order cs) s := by
    intro s h1 h2
    refine ⟨h1, ?_⟩
    rw [h2, order_length]
    cases kind with
    | forward => simp [hb, StreamKind.idle]
    | reversed => simp [StreamKind.idle]
  have key : ∀ s : StreamState l N, s.died = none → s.pc = [] → s.size = cs.length → s.script = script → s.out = [] →
      Loading kind cs (kind.order cs) s → StreamInv kind cs script s := by
    intro s h1 h2 h3 h4 h5 h6
    refine ⟨⟨[], kind.order cs, rfl, ?_, .inl ⟨h1, .rest _ _ h2 (by rw [order_length, h3]) h6⟩⟩⟩
    unfold pendingCalls
    rw [if_pos h2, h4, h5]
    rfl
  have hls := fun s hi => loading_start hbs hbs' (kind := kind) (cs := cs) (done := []) (rem := kind.order cs) rfl s hi
  have hnil : kind.order cs = [] ↔ cs.length = 0 := by
    rw [← order_length kind cs, List.length_eq_zero_iff]
  cases kind with
  | forward =>
    dsimp only
    by_cases h0 : cs.length = 0
    · rw [if_neg (by omega)]
      exact key _ rfl rfl rfl rfl rfl ((hls _ (hidle _ rfl rfl)).2 (hnil.2 h0))
    · rw [if_pos (by omega)]
      have hne : StreamKind.forward.order cs ≠ [] := fun h => h0 (hnil.1 h)
      exact key _ ((hls _ (hidle _ rfl rfl)).1 hne).2 (startLoading_fields _ _).1 (startLoading_fields _ _).2.1
        (startLoading_fields _ _).2.2.2.1 (startLoading_fields _ _).2.2.2.2 ((hls _ (hidle _ rfl rfl)).1 hne).1
  | reversed =>
    dsimp only
    rw [deserIsBeg_atBlock hbs]
    by_cases h0 : cs.length = 0
    · rw [if_neg (by simp [h0])]
      exact key _ rfl rfl rfl rfl rfl ((hls _ (hidle _ rfl rfl)).2 (hnil.2 h0))
    · rw [if_pos (by simp [h0])]
      have hne : StreamKind.reversed.order cs ≠ [] := fun h => h0 (hnil.1 h)
      exact key _ ((hls _ (hidle _ rfl rfl)).1 hne).2 (startLoading_fields _ _).1 (startLoading_fields _ _).2.1
        (startLoading_fields _ _).2.2.2.1 (startLoading_fields _ _).2.2.2.2 ((hls _ (hidle _ rfl rfl)).1 hne).1

theorem inv_exec (hbs : 0 < blockSize l N) (hbs' : blockSize l N < 2 ^ 63) {kind : StreamKind} {cs : List (Gsw l N)}
    {script : List StreamCall} {n : Nat} {s t : StreamState l N} (he : StreamExec kind n s t)
    (hi : StreamInv kind cs script s) : StreamInv kind cs script t := by
  induction he with
  | refl => exact hi
  | step _ hst ih => exact inv_step hbs hbs' (ih hi) hst

/-- a loader that is not finished can move -/
theorem loader_enabled {kind : StreamKind} {cs rem : List (Gsw l N)} {s : StreamState l N} (hd : s.died = none)
    (h : Loading kind cs rem s) {op : LoadOp l N} {ops : List (LoadOp l N)} (ht : s.task = some (op :: ops)) :
    ∃ t, loaderStep s = some t := by
  obtain ⟨is, c, e, -⟩ := loading_step ht h
  exact ⟨_, loaderStep_ok hd ht e⟩

/-- the execution only ends when all calls are answered or one aborted -/
theorem stuck_done {kind : StreamKind} {cs : List (Gsw l N)} {script : List StreamCall} {s : StreamState l N}
    (hi : StreamInv kind cs script s) (hs : StreamStuck kind s) :
    s.out = (streamSpec (kind.order cs) script).1 ∧
      s.died = if (streamSpec (kind.order cs) script).2 then some .assertFail else none := by
  obtain ⟨done, rem, hord, hspec, hph⟩ := hi.spec
  rcases hph with ⟨hd, hph⟩ | ⟨hd, rfl, r, hr⟩
  · have hcs : ∀ t, callerStep kind s ≠ some t := fun t h => hs t (.inr h)
    have hlo : ∀ t, loaderStep s ≠ some t := fun t h => hs t (.inl h)
    have hpc : ∀ (op : CallOp l N) pc, s.pc = op :: pc → (∀ s' : StreamState l N, ∃ t, op.run kind s' = some t) →
        False := by
      intro op pc h hop
      obtain ⟨t, ht⟩ := hop { s with pc := pc }
      exact hcs t (by rw [callerStep_pc hd h, ht])
    cases hph with
    | rest _ _ h1 h2 h3 =>
      cases hsc : s.script with
      | nil =>
        have hp : pendingCalls s = [] := by unfold pendingCalls; rw [if_pos h1, hsc]
        have hz : streamSpec rem ([] : List StreamCall) = ([], false) := by cases rem <;> rfl
        rw [hp, hz] at hspec
        rw [← hspec]
        simp [hd]
      | cons call r =>
        cases call with
        | next => exact absurd (callerStep_next hd h1 hsc) (hcs _)
        | size => exact absurd (callerStep_size hd h1 hsc) (hcs _)
    | begin _ _ h1 h2 h3 =>
      rw [StreamKind.next_eq] at h1
      exact (hpc _ _ h1 fun s' => ⟨_, rfl⟩).elim
    | wait c rem _ h1 h2 h3 =>
      obtain ⟨ops, ho, hr⟩ := h3
      cases ops with
      | nil =>
        refine absurd ?_ (hcs { s with pc := (gswIdx l N).map .copy ++ kind.tail, task := none })
        rw [callerStep_pc hd h1]
        simp only [CallOp.run, ho]
      | cons op ops =>
        obtain ⟨t, ht⟩ := loader_enabled (kind := kind) (cs := cs) (rem := c :: rem) hd ⟨_, ho, hr⟩ ho
        exact absurd ht (hlo t)
    | copy c rem _ xs h1 h2 h3 h4 h5 =>
      cases xs with
      | cons x xs => exact (hpc _ _ h1 fun s' => ⟨_, rfl⟩).elim
      | nil =>
        cases kind with
        | forward => exact (hpc _ _ h1 fun s' => ⟨_, rfl⟩).elim
        | reversed => exact (hpc _ _ h1 fun s' => ⟨_, rfl⟩).elim
    | fwdStart c rem _ h0 h1 h2 h3 h4 => exact (hpc _ _ h1 fun s' => ⟨_, rfl⟩).elim
    | revDec c rem _ h0 h1 h2 h3 h4 => exact (hpc _ _ h1 fun s' => ⟨_, rfl⟩).elim
    | last c rem _ h1 h2 h3 h4 => exact (hpc _ _ h1 fun s' => ⟨_, rfl⟩).elim
  · rw [hr] at hspec
    rw [← hspec]
    simp [streamSpec, hd]

/-! ### Termination -/

def CallOp.cost (T : Nat) : CallOp l N → Nat
  | .startIfNonEmpty => 1 + T
  | .startIfNotBeg => 1 + T
  | _ => 1

def pcCost (T : Nat) (pc : List (CallOp l N)) : Nat := (pc.map (CallOp.cost T)).sum

/-- number of steps an execution can still take -/
def fuel (kind : StreamKind) (s : StreamState l N) : Nat :=
  if s.died = none then
    1 + s.script.length * (1 + pcCost (kind.task l N).length (kind.next l N)) +
      pcCost (kind.task l N).length s.pc + (s.task.map List.length).getD 0
  else 0

theorem fuel_start (kind : StreamKind) (s : StreamState l N) :
    fuel kind (startLoading kind s) ≤ fuel kind s + (kind.task l N).length := by
  unfold startLoading fuel
  cases h : s.task with
  | none => dsimp only; split <;> simp
  | some ops => simp

theorem callOp_fuel (kind : StreamKind) (op : CallOp l N) (s t : StreamState l N) (h : op.run kind s = some t) :
    fuel kind t ≤ fuel kind s + (op.cost (kind.task l N).length - 1) := by
  cases op with
  | assertNonEmpty =>
    simp only [CallOp.run] at h
    obtain rfl := Option.some.inj h
    split
    · omega
    · simp [fuel]
  | get =>
    simp only [CallOp.run] at h
    cases ht : s.task with
    | none => rw [ht] at h; obtain rfl := Option.some.inj h; simp [fuel]
    | some ops =>
      rw [ht] at h
      cases ops with
      | nil => obtain rfl := Option.some.inj h; simp [fuel, ht]
      | cons _ _ => simp at h
  | copy x => simp only [CallOp.run] at h; obtain rfl := Option.some.inj h; simp [fuel]
  | dec => simp only [CallOp.run] at h; obtain rfl := Option.some.inj h; simp [fuel]
  | ret => simp only [CallOp.run] at h; obtain rfl := Option.some.inj h; simp [fuel]
  | startIfNonEmpty =>
    simp only [CallOp.run] at h
    obtain rfl := Option.some.inj h
    have := fuel_start kind s
    simp only [CallOp.cost]
    split <;> omega
  | startIfNotBeg =>
    simp only [CallOp.run] at h
    obtain rfl := Option.some.inj h
    have := fuel_start kind s
    simp only [CallOp.cost]
    split <;> omega

theorem fuel_step {kind : StreamKind} {s t : StreamState l N} (h : StreamStep kind s t) :
    fuel kind t < fuel kind s := by
  rcases hd : s.died with _ | e
  swap
  · rcases h with h | h
    · simp [loaderStep, hd] at h
    · simp [callerStep, hd] at h
  rcases h with h | h
  · cases ht : s.task with
    | none => simp [loaderStep, hd, ht] at h
    | some ops =>
      cases ops with
      | nil => simp [loaderStep, hd, ht] at h
      | cons op ops =>
        cases hr : op.run (s.is, s.loaded) with
        | ok r =>
          obtain ⟨is, c⟩ := r
          rw [loaderStep_ok hd ht hr] at h
          obtain rfl := Option.some.inj h
          simp [fuel, hd, ht]
        | error e =>
          have : t = { s with died := some e } := by
            have h' : loaderStep s = some { s with died := some e } := by
              rcases s with ⟨is, loaded, task, size, pc', ret, script, out, died⟩
              dsimp only at hd ht hr
              subst hd ht
              unfold loaderStep
              dsimp only
              rw [hr]
            rw [h'] at h; exact (Option.some.inj h).symm
          subst this
          simp only [fuel, hd]
          simp
  · cases hpc : s.pc with
    | cons op pc =>
      rw [callerStep_pc hd hpc] at h
      have h1 := callOp_fuel kind op _ _ h
      have h2 : fuel kind s = fuel kind { s with pc := pc } + op.cost (kind.task l N).length := by
        simp only [fuel, hd, hpc, pcCost, List.map_cons, List.sum_cons, if_true]
        omega
      have h3 : 0 < op.cost (kind.task l N).length := by cases op <;> simp [CallOp.cost]
      omega
    | nil =>
      cases hsc : s.script with
      | nil => rw [callerStep_done hpc hsc] at h; simp at h
      | cons call r =>
        cases call with
        | next =>
          rw [callerStep_next hd hpc hsc] at h
          obtain rfl := Option.some.inj h
          simp only [fuel, hd, hpc, hsc, if_true, List.length_cons, Nat.add_mul, Nat.one_mul]
          simp [pcCost]
          omega
        | size =>
          rw [callerStep_size hd hpc hsc] at h
          obtain rfl := Option.some.inj h
          simp only [fuel, hd, hpc, hsc, if_true, List.length_cons, Nat.add_mul, Nat.one_mul]
          omega

theorem exec_bound {kind : StreamKind} {n : Nat} {s t : StreamState l N} (h : StreamExec kind n s t) :
    n + fuel kind t ≤ fuel kind s := by
  induction h with
  | refl => omega
  | step _ hst ih => have := fuel_step hst; omega

end Homfa
