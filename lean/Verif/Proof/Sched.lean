import Verif.Model.Sched
import Verif.Props.Par

/-!
# Whole runs under any schedule (for C64)
-/

namespace Homfa

variable {N n l : Nat}

/-- Both succeed with the same value, or neither succeeds. -/
structure SameOk {α : Type} (x y : Res α) : Prop where
  iff : ∀ a, x = .ok a ↔ y = .ok a

theorem SameOk.rfl {α : Type} {x : Res α} : SameOk x x := ⟨fun _ => Iff.rfl⟩

theorem SameOk.bind {α β : Type} {x y : Res α} {f g : α → Res β} (h : SameOk x y) (hf : ∀ a, y = .ok a → SameOk (f a) (g a)) :
    SameOk (x >>= f) (y >>= g) := by
  refine ⟨fun b => ?_⟩
  rw [Res.bind_eq_ok, Res.bind_eq_ok]
  constructor
  · rintro ⟨a, h1, h2⟩
    exact ⟨a, (h.iff a).1 h1, ((hf a ((h.iff a).1 h1)).iff b).1 h2⟩
  · rintro ⟨a, h1, h2⟩
    exact ⟨a, (h.iff a).2 h1, ((hf a h1).iff b).2 h2⟩

theorem SameOk.bind' {α β : Type} {y : Res α} {f g : α → Res β} (hf : ∀ a, y = .ok a → SameOk (f a) (g a)) :
    SameOk (y >>= f) (y >>= g) := SameOk.bind SameOk.rfl hf

/-- a schedule-free loop has the outcome of the sequential run -/
theorem ScheduleFree.sameOk {α : Type} {ts : List (Prog α)} (h : ScheduleFree ts) {m : Mem α} {o : Res (Mem α)} (ho : AnySchedule ts m o) :
    SameOk o (parFor ts m) := by
  refine ⟨fun k => ?_⟩
  constructor
  · rintro rfl
    obtain ⟨us, h1, h2⟩ := ho
    exact h.complete _ _ _ h1 h2
  · intro hk
    cases o with
    | ok k' =>
      obtain ⟨us, h1, h2⟩ := ho
      rw [h.complete _ _ _ h1 h2] at hk
      exact hk
    | error e =>
      obtain ⟨us, k', h1, p, hp, hf⟩ := ho
      refine absurd ?_ (h.safe _ _ hk _ _ h1).1
      refine ⟨p, hp, ?_⟩
      rcases hf with hf | ⟨v, i, f, hf, he⟩ | ⟨v, i, x, f, hf, he⟩
      · exact .inl ⟨e, hf⟩
      · exact .inr (.inl ⟨v, i, f, hf, fun x h => by rw [he] at h; cases h⟩)
      · exact .inr (.inr ⟨v, i, x, f, hf, fun x h => by rw [he] at h; cases h⟩)

theorem Loops.Schedules.same {pf : Loops} (hp : pf.Schedules) {α : Type} {ts : List (Prog α)} (h : ScheduleFree ts) (id : LoopId) (m : Mem α) :
    SameOk (pf.run id ts m) (parFor ts m) := h.sameOk (hp id ts m)

/-! ## The steps of the runners -/

theorem Backstream.bootstrapWeight_same {pf : Loops} (hp : pf.Schedules) (S : Scheme N n l) (r : Backstream N) {sts : List Nat} (h : sts.Nodup) :
    SameOk (r.bootstrapWeightWith pf S sts) (r.bootstrapWeight S sts) := by
  unfold Backstream.bootstrapWeightWith Backstream.bootstrapWeight
  refine SameOk.bind (hp.same ?_ _ _) fun _ _ => SameOk.rfl
  exact scheduleFree_map h (fun _ _ => False) (fun _ _ h => h) (fun _ _ => .read (.inr ⟨_root_.rfl, _root_.rfl⟩) fun _ => .local fun _ _ =>
    .write ⟨_root_.rfl, _root_.rfl⟩ .ret)

theorem Backstream.eval_same {pf : Loops} (hp : pf.Schedules) (S : Scheme N n l) (r : Backstream N) (c : Gsw l N)
    (h : ∀ k sts, evalStates r.graph r.inputSize k = .ok sts → sts.Nodup) : SameOk (r.evalWith pf S c) (r.eval S c) := by
  unfold Backstream.evalWith Backstream.eval
  dsimp only
  refine SameOk.bind' fun sts hs => ?_
  refine SameOk.bind (hp.same (scheduleFree_map (h _ _ hs) (fun v _ => v = 1) (fun _ _ h => by simp at h)
    (fun q _ => backstreamTask_within S _ c q)) _ _) fun m _ => ?_
  refine SameOk.bind' fun p _ => ?_
  split
  · exact SameOk.bind' fun _ h => by cases h
  split
  · exact Backstream.bootstrapWeight_same hp S _ (h _ _ hs)
  · exact SameOk.rfl

theorem lutLoop_same {pf : Loops} (hp : pf.Schedules) (k : Nat) (S : Scheme N n l) (sz : Nat) (cs : List (Gsw l N)) (i : Nat)
    (tmp table : List (TRLWE N)) (timer : List (Target × Nat)) :
    SameOk (lutLoopWith pf k S sz cs i tmp table timer) (lutLoop S sz cs i tmp table timer) := by
  induction cs generalizing i tmp table timer with
  | nil => exact SameOk.rfl
  | cons c cs ih =>
    rw [lutLoopWith, lutLoop]
    refine SameOk.bind' fun cnt _ => ?_
    refine SameOk.bind (hp.same (C35_lookup_layer S c cnt) _ _) fun m _ => ?_
    exact SameOk.bind' fun p _ => ih _ _ _ _

theorem lookupTableTimer_same {pf : Loops} (hp : pf.Schedules) (k : Nat) (S : Scheme N n l) (table : List (TRLWE N)) (cs : List (Gsw l N))
    (ws : List (TRLWE N)) (timer : List (Target × Nat)) :
    SameOk (lookupTableTimerWith pf k S table cs ws timer) (lookupTableTimer S table cs ws timer) := by
  unfold lookupTableTimerWith lookupTableTimer
  dsimp only
  refine SameOk.bind' fun _ _ => SameOk.bind' fun _ _ => ?_
  split
  · exact SameOk.rfl
  · exact SameOk.bind' fun _ _ => SameOk.bind (lutLoop_same hp ..) fun _ _ => SameOk.rfl

theorem lookupTable_same {pf : Loops} (hp : pf.Schedules) (k : Nat) (S : Scheme N n l) (table : List (TRLWE N)) (cs : List (Gsw l N))
    (ws : List (TRLWE N)) : SameOk (lookupTableWith pf k S table cs ws) (lookupTable S table cs ws) :=
  SameOk.bind (lookupTableTimer_same hp ..) fun _ _ => SameOk.rfl

theorem blockPropagate_same {pf : Loops} (hp : pf.Schedules) (S : Scheme N n l) (g : Graph) (cs : List (Gsw l N)) (atDepth : List (List Nat))
    (hd : ∀ i sts, vat atDepth i = .ok sts → sts.Nodup) (i : Nat) (weight out : List (TRLWE N)) (timer : List (Target × Nat)) :
    SameOk (blockPropagateWith pf S g cs atDepth i weight out timer) (blockPropagate S g cs atDepth i weight out timer) := by
  induction i generalizing weight out timer with
  | zero => exact SameOk.rfl
  | succ i ih =>
    rw [blockPropagateWith, blockPropagate]
    refine SameOk.bind' fun sts hs => ?_
    refine SameOk.bind (hp.same (scheduleFree_map (hd _ _ hs) (fun v _ => v = 1) (fun _ _ h => by simp at h)
      (fun _ _ => .local fun _ _ => .local fun _ _ => .read (.inl rfl) fun _ => .read (.inl rfl) fun _ => .local fun _ _ =>
      .write ⟨rfl, rfl⟩ .ret)) _ _) fun m _ => ?_
    exact SameOk.bind' fun p _ => ih _ _ _

/-- what is needed of a BLOCK runner -/
def Block.Ready (r : Block N l) : Prop := r.graph.WF ∧ SSorted r.live ∧ ∀ q ∈ r.live, q < r.graph.size

theorem Block.evalQueued_same {pf : Loops} (hp : pf.Schedules) (S : Scheme N n l) (r : Block N l) (h : r.Ready) :
    SameOk (r.evalQueuedWith pf S) (r.evalQueued S) := by
  unfold Block.evalQueuedWith Block.evalQueued
  dsimp only
  split
  · exact SameOk.rfl
  refine SameOk.bind' fun atDepth hd => ?_
  refine SameOk.bind' fun weight _ => ?_
  have hnd : ∀ i sts, vat atDepth i = .ok sts → sts.Nodup := by
    intro i sts hs
    rw [Graph.track_ok' h.1 h.2.1 h.2.2] at hd
    cases hd
    obtain ⟨j, _, rfl⟩ := List.mem_map.1 (List.mem_of_getElem? (vat_eq_ok.1 hs))
    exact (Graph.sorted_levelSet h.2.1 _).nodup
  refine SameOk.bind (blockPropagate_same hp S _ _ _ hnd _ _ _ _) fun p _ => ?_
  split
  · exact SameOk.rfl
  refine SameOk.bind' fun sel _ => ?_
  refine SameOk.bind (hp.same (C35_block_extract _ _) _ _) fun _ _ => ?_
  refine SameOk.bind' fun _ _ => ?_
  refine SameOk.bind (hp.same (C35_block_circuit_bootstrap S _ _) _ _) fun _ _ => ?_
  refine SameOk.bind' fun _ _ => SameOk.bind' fun _ _ => SameOk.bind' fun _ _ => ?_
  exact SameOk.bind (lookupTableTimer_same hp ..) fun _ _ => SameOk.rfl

theorem Block.evalOne_same {pf : Loops} (hp : pf.Schedules) (S : Scheme N n l) (r : Block N l) (c : Gsw l N) (h : r.Ready) :
    SameOk (r.evalOneWith pf S c) (r.evalOne S c) := by
  unfold Block.evalOneWith Block.evalOne
  dsimp only
  split
  · exact SameOk.rfl
  · exact Block.evalQueued_same hp S _ h

theorem Block.result_same {pf : Loops} (hp : pf.Schedules) (S : Scheme N n l) (r : Block N l) (h : r.Ready) :
    SameOk (r.resultWith pf S) (r.result S) :=
  SameOk.bind (Block.evalQueued_same hp S r h) fun _ _ => SameOk.rfl

theorem Flut.evalQueued_same {pf : Loops} (hp : pf.Schedules) (S : Scheme N n l) (r : Flut N l) :
    SameOk (r.evalQueuedWith pf S) (r.evalQueued S) := by
  unfold Flut.evalQueuedWith Flut.evalQueued
  dsimp only
  split
  · exact SameOk.rfl
  refine SameOk.bind' fun memo _ => SameOk.bind' fun next hn => SameOk.bind' fun st2idx _ => SameOk.bind' fun d _ =>
    SameOk.bind' fun cnt1 _ => SameOk.bind' fun cnt2 _ => ?_
  refine SameOk.bind (hp.same (C35_flut_fill ..) _ _) fun _ _ => SameOk.bind' fun p _ => ?_
  refine SameOk.bind (lookupTable_same hp ..) fun t1 _ => ?_
  refine SameOk.bind (hp.same (C35_flut_rotate ..) _ _) fun _ _ => SameOk.bind' fun t _ => ?_
  refine SameOk.bind (lookupTable_same hp ..) fun t2 _ => ?_
  split
  · exact SameOk.bind' fun _ h => by cases h
  exact SameOk.bind (hp.same (C35_flut_split S _ _ _ _ _ hn _ _) _ _) fun _ _ => SameOk.rfl

theorem Flut.evalOne_same {pf : Loops} (hp : pf.Schedules) (S : Scheme N n l) (r : Flut N l) (c : Gsw l N) :
    SameOk (r.evalOneWith pf S c) (r.evalOne S c) := by
  unfold Flut.evalOneWith Flut.evalOne
  dsimp only
  split
  · exact SameOk.rfl
  · exact Flut.evalQueued_same hp S _

theorem Flut.result_same {pf : Loops} (hp : pf.Schedules) (S : Scheme N n l) (r : Flut N l) :
    SameOk (r.resultWith pf S) (r.result S) :=
  SameOk.bind (Flut.evalQueued_same hp S r) fun _ _ => SameOk.rfl

theorem Online1.evalOne_same {pf : Loops} (hp : pf.Schedules) (S : Scheme N n l) (r : Online1 N) (c : Gsw l N) :
    SameOk (r.evalOneWith pf S c) (r.evalOne S c) := by
  unfold Online1.evalOneWith Online1.evalOne
  dsimp only
  refine SameOk.bind (hp.same (C35_online1_update ..) _ _) fun _ _ => SameOk.bind' fun p _ => ?_
  split
  · exact SameOk.bind' fun _ h => by cases h
  split
  · exact SameOk.bind (hp.same (C35_online1_bootstrap ..) _ _) fun _ _ => SameOk.rfl
  · exact SameOk.rfl

/-! ## Histories -/

/-- step-wise agreement under an invariant of the sequential run lifts to histories -/
theorem runCalls_same {ρ α β : Type} {evalW : Loops → ρ → α → Res ρ} {resW : Loops → ρ → Res (β × ρ)} {ev : ρ → α → Res ρ}
    {re : ρ → Res (β × ρ)} (I : ρ → Prop) (he : ∀ pf r c, pf.Schedules → I r → SameOk (evalW pf r c) (ev r c))
    (hr : ∀ pf r, pf.Schedules → I r → SameOk (resW pf r) (re r))
    (ke : ∀ r c r', I r → ev r c = .ok r' → I r') (kr : ∀ r b r', I r → re r = .ok (b, r') → I r')
    (cs : List (Loops × Call α)) (hs : ∀ p ∈ cs, p.1.Schedules) (r : ρ) (h0 : I r) :
    SameOk (runCallsWith evalW resW r cs) (runCalls ev re r (cs.map Prod.snd)) := by
  induction cs generalizing r with
  | nil => exact SameOk.rfl
  | cons p cs ih =>
    obtain ⟨pf, c⟩ := p
    have hp : pf.Schedules := hs (pf, c) List.mem_cons_self
    have hs' : ∀ p ∈ cs, p.1.Schedules := fun p hp => hs p (List.mem_cons_of_mem _ hp)
    cases c with
    | feed x =>
      rw [List.map_cons, runCallsWith, runCalls]
      exact SameOk.bind (he pf r x hp h0) fun r' h => ih hs' r' (ke _ _ _ h0 h)
    | result =>
      rw [List.map_cons, runCallsWith, runCalls]
      refine SameOk.bind (hr pf r hp h0) fun q h => ?_
      obtain ⟨b, r'⟩ := q
      exact SameOk.bind (ih hs' r' (kr _ _ _ h0 h)) fun _ _ => SameOk.rfl

/-! ## There are such schedules -/

theorem ParExec.trans {α : Type} {ts us vs : List (Prog α)} {m n k : Mem α} (h : ParExec ts m us n) (h2 : ParExec us n vs k) :
    ParExec ts m vs k := by
  induction h2 with
  | refl => exact h
  | tail _ h3 ih => exact .tail ih h3

theorem par_task_run {α : Type} {pre post : List (Prog α)} {p : Prog α} {m : Mem α} :
    match p.run m with
    | .ok m' => ParExec (pre ++ p :: post) m (pre ++ .ret :: post) m'
    | .error e => ∃ q n, ParExec (pre ++ p :: post) m (pre ++ q :: post) n ∧ q.FailsWith n e := by
  induction p generalizing m with
  | ret => exact .refl
  | fail e => exact ⟨_, _, .refl, .inl rfl⟩
  | read v i k ih =>
    unfold Prog.run
    cases hx : mread m v i with
    | error e => exact ⟨_, _, .refl, .inr (.inl ⟨v, i, k, rfl, hx⟩)⟩
    | ok x =>
      rw [Res.bind_ok]
      have := ih x (m := m)
      have h1 : ParExec (pre ++ .read v i k :: post) m (pre ++ k x :: post) m := .tail .refl (.step (.read hx))
      split at this
      · exact h1.trans this
      · obtain ⟨q, n, h2, h3⟩ := this
        exact ⟨q, n, h1.trans h2, h3⟩
  | write v i x k ih =>
    unfold Prog.run
    cases hx : mwrite m v i x with
    | error e => exact ⟨_, _, .refl, .inr (.inr ⟨v, i, x, k, rfl, hx⟩)⟩
    | ok m1 =>
      rw [Res.bind_ok]
      have := ih (m := m1)
      have h1 : ParExec (pre ++ .write v i x k :: post) m (pre ++ k :: post) m1 := .tail .refl (.step (.write hx))
      split at this
      · exact h1.trans this
      · obtain ⟨q, n, h2, h3⟩ := this
        exact ⟨q, n, h1.trans h2, h3⟩

theorem AnySchedule.prepend {α : Type} {ts us : List (Prog α)} {m n : Mem α} (h : ParExec ts m us n) {o : Res (Mem α)} (ho : AnySchedule us n o) :
    AnySchedule ts m o := by
  cases o with
  | ok k => obtain ⟨vs, h1, h2⟩ := ho; exact ⟨vs, h.trans h1, h2⟩
  | error e => obtain ⟨vs, k, h1, h2⟩ := ho; exact ⟨vs, k, h.trans h1, h2⟩

theorem parFor_anySchedule {α : Type} (ts : List (Prog α)) : ∀ (pre : List (Prog α)) (m : Mem α), (∀ p ∈ pre, p = .ret) →
    AnySchedule (pre ++ ts) m (parFor ts m) := by
  induction ts with
  | nil => exact fun pre m h => ⟨_, .refl, by rw [List.append_nil]; exact h⟩
  | cons p ts ih =>
    intro pre m h
    rw [parFor_cons]
    have := par_task_run (pre := pre) (post := ts) (p := p) (m := m)
    cases hp : p.run m with
    | ok m1 =>
      rw [hp] at this
      rw [Res.bind_ok]
      refine AnySchedule.prepend this ?_
      have h2 := ih (pre ++ [.ret]) m1 (fun p hp => by
        rcases List.mem_append.1 hp with hp | hp
        · exact h p hp
        · simpa using hp)
      rw [List.append_assoc] at h2
      exact h2
    | error e =>
      rw [hp] at this
      obtain ⟨q, k, h1, h2⟩ := this
      exact ⟨_, k, h1, q, by simp, h2⟩

/-- Running the tasks one after the other is one of the schedules. -/
theorem Loops.sequential_schedules : Loops.sequential.Schedules := fun _ ts m => parFor_anySchedule ts [] m (by simp)

/-- Every outcome of every loop is an outcome under some choice of schedules. -/
theorem Loops.exists_schedules {α : Type} (id : LoopId) (ts : List (Prog α)) (m : Mem α) (o : Res (Mem α)) (h : AnySchedule ts m o) :
    ∃ pf : Loops, pf.Schedules ∧ pf.run id ts m = o := by
  classical
  have key : ∀ (α' : Type) (id' : LoopId) (ts' : List (Prog α')) (m' : Mem α'), ∃ o' : Res (Mem α'), AnySchedule ts' m' o' ∧
      ∀ e : α' = α, id' = id → e ▸ ts' = ts → e ▸ m' = m → e ▸ o' = o := by
    intro α' id' ts' m'
    by_cases hα : α' = α
    · subst hα
      by_cases hc : id' = id ∧ ts' = ts ∧ m' = m
      · obtain ⟨rfl, rfl, rfl⟩ := hc
        exact ⟨o, h, fun _ _ _ _ => rfl⟩
      · exact ⟨_, parFor_anySchedule ts' [] m' (by simp), fun _ h1 h2 h3 => absurd ⟨h1, h2, h3⟩ hc⟩
    · exact ⟨_, parFor_anySchedule ts' [] m' (by simp), fun e => absurd e hα⟩
  choose f h1 h2 using key
  exact ⟨⟨fun {α'} id' ts' m' => f α' id' ts' m'⟩, fun id' ts' m' => h1 _ id' ts' m', h2 α id ts m rfl rfl rfl rfl⟩

end Homfa
