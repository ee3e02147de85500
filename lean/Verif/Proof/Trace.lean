import Verif.Proof.Calls
import Verif.Proof.Oblivious
import Verif.Spec.Calls

/-!
# Programs whose calls do not depend on ciphertexts

`CompAlike R p q`: whatever the library answers, `p` and `q` call the same functions in the same order, and end alike.
-/

namespace Homfa

variable {N n l : Nat}

inductive CompAlike {α β : Type} (R : α → β → Prop) : Comp N n l α → Comp N n l β → Prop
  | ret {r : Res α} {r' : Res β} (h : Alike R r r') : CompAlike R (.ret r) (.ret r')
  | call {c c' : OpCall N n l} {k : c.Ans → Comp N n l α} {k' : c'.Ans → Comp N n l β} (h : c.kind = c'.kind)
      (hk : ∀ a b, CompAlike R (k a) (k' b)) : CompAlike R (.call c k) (.call c' k')

section
variable {α β γ δ : Type} {R : α → β → Prop} {Q : γ → δ → Prop}

theorem CompAlike.kinds_eq {p : Comp N n l α} {q : Comp N n l β} (h : CompAlike R p q) (S S' : Scheme N n l) : p.kinds S = q.kinds S' := by
  induction h with
  | ret h => rfl
  | @call c c' k k' h hk ih =>
    show c.kind :: (k (c.answer S)).kinds S = c'.kind :: (k' (c'.answer S')).kinds S'
    rw [h, ih]

theorem CompAlike.bind {x : Comp N n l α} {y : Comp N n l β} {f : α → Comp N n l γ} {g : β → Comp N n l δ} (h : CompAlike R x y)
    (hf : ∀ a b, R a b → CompAlike Q (f a) (g b)) : CompAlike Q (x >>= f) (y >>= g) := by
  induction h with
  | @ret r r' h =>
    cases r <;> cases r' <;> simp only [Alike] at h
    · subst h; exact .ret rfl
    · exact hf _ _ h
  | call h hk ih => exact .call h ih

theorem CompAlike.bind_ret {x : Res α} {y : Res β} {f : α → Comp N n l γ} {g : β → Comp N n l δ} (h : Alike R x y)
    (hf : ∀ a b, R a b → CompAlike Q (f a) (g b)) : CompAlike Q ((.ret x : Comp N n l α) >>= f) ((.ret y : Comp N n l β) >>= g) :=
  CompAlike.bind (.ret h) hf

theorem CompAlike.bind_same {x : Res α} {f : α → Comp N n l γ} {g : α → Comp N n l δ} (hf : ∀ a, CompAlike Q (f a) (g a)) :
    CompAlike Q ((.ret x : Comp N n l α) >>= f) ((.ret x : Comp N n l α) >>= g) :=
  .bind_ret (Alike.refl x) fun a b h => by subst h; exact hf a

theorem CompAlike.pure {a : α} {b : β} (h : R a b) : CompAlike R (Pure.pure a : Comp N n l α) (Pure.pure b : Comp N n l β) := .ret h

theorem CompAlike.foldlM {ι κ : Type} {P : ι → κ → Prop} {f : α → ι → Comp N n l α} {g : β → κ → Comp N n l β} {xs : List ι} {ys : List κ}
    (h : List.Forall₂ P xs ys) (hf : ∀ a b x y, R a b → P x y → CompAlike R (f a x) (g b y)) :
    ∀ {a : α} {b : β}, R a b → CompAlike R (xs.foldlM f a) (ys.foldlM g b) := by
  induction h with
  | nil => intro a b hab; exact .pure hab
  | cons hp _ ih =>
    intro a b hab
    rw [List.foldlM_cons, List.foldlM_cons]
    exact (hf _ _ _ _ hab hp).bind fun _ _ h => ih h

theorem CompAlike.foldlM_same {ι : Type} {f : α → ι → Comp N n l α} {g : β → ι → Comp N n l β} (xs : List ι)
    (hf : ∀ a b x, R a b → CompAlike R (f a x) (g b x)) {a : α} {b : β} (hab : R a b) : CompAlike R (xs.foldlM f a) (xs.foldlM g b) := by
  refine CompAlike.foldlM (P := (· = ·)) (List.forall₂_same.2 fun _ _ => rfl) ?_ hab
  rintro a b x _ h rfl
  exact hf a b x h

theorem CompAlike.foldlM_len {eval eval' : α → Gsw l N → Comp N n l α} {Q : α → α → Prop}
    (he : ∀ r r' c c', Q r r' → CompAlike Q (eval r c) (eval' r' c')) {cs cs' : List (Gsw l N)} (h : cs.length = cs'.length) {r r' : α}
    (hr : Q r r') : CompAlike Q (cs.foldlM eval r) (cs'.foldlM eval' r') := by
  refine CompAlike.foldlM (P := fun _ _ => True) ?_ (fun a b x y hab _ => he a b x y hab) hr
  rw [List.forall₂_iff_get]
  exact ⟨h, fun _ _ _ => trivial⟩

end

theorem cmuxC_alike (g g' : Gsw l N) (a a' b b' : TRLWE N) : CompAlike (fun _ _ => True) (cmuxC g a b : Comp N n l _) (cmuxC g' a' b') :=
  .call rfl fun _ _ => .ret trivial
theorem iksC_alike (c c' : TLWE N) : CompAlike (fun _ _ => True) (iksC c : Comp N n l _) (iksC c') := .call rfl fun _ _ => .ret trivial
theorem tlwe2trlweC_alike (c c' : TLWE N) : CompAlike (fun _ _ => True) (tlwe2trlweC c : Comp N n l _) (tlwe2trlweC c') := .call rfl fun _ _ => .ret trivial
theorem cbC_alike (c c' : TLWE N) : CompAlike (fun _ _ => True) (cbC c : Comp N n l _) (cbC c') := .call rfl fun _ _ => .ret trivial

theorem bsHalfToHalfC_alike (c c' : TLWE n) : CompAlike (fun _ _ => True) (bsHalfToHalfC c : Comp N n l _) (bsHalfToHalfC c') :=
  .call rfl fun _ _ => .ret trivial

theorem bootHalfC_alike (w w' : TRLWE N) : CompAlike (fun _ _ => True) (bootHalfC w : Comp N n l _) (bootHalfC w') :=
  .bind_ret (sampleExtractAt_alike w w' 0) fun _ _ _ => (iksC_alike _ _).bind fun _ _ _ => bsHalfToHalfC_alike _ _

/-! ## OFFLINE and REVERSE -/

theorem backstreamTaskC_alike (g : Graph) (c c' : Gsw l N) {m m' : Mem (TRLWE N)} (h : SameShape m m') (q : Nat) :
    CompAlike SameShape (backstreamTaskC g c m q : Comp N n l _) (backstreamTaskC g c' m' q) :=
  .bind_same fun _ => .bind_same fun _ => .bind_ret (mread_alike h _ _) fun _ _ _ => .bind_ret (mread_alike h _ _) fun _ _ _ =>
    (cmuxC_alike ..).bind fun _ _ _ => .ret (mwrite_alike h _ _ _ _)

theorem bootTaskC_alike {m m' : Mem (TRLWE N)} (h : SameShape m m') (q : Nat) :
    CompAlike SameShape (bootTaskC m q : Comp N n l _) (bootTaskC m' q) :=
  .bind_ret (mread_alike h _ _) fun _ _ _ => (bootHalfC_alike _ _).bind fun _ _ _ => .ret (mwrite_alike h _ _ _ _)

theorem Backstream.evalC_alike {r r' : Backstream N} (h : r.Same r') (c c' : Gsw l N) :
    CompAlike Backstream.Same (r.evalC c : Comp N n l _) (r'.evalC c') := by
  obtain ⟨g, w, k, b, np, ws, t⟩ := r
  obtain ⟨g', w', k', b', np', ws', t'⟩ := r'
  obtain ⟨h1, h2, h3, h4, h5, h6, h7⟩ := h
  dsimp only at h1 h2 h3 h4 h5 h6 h7
  subst h1 h3 h4 h5 h7
  unfold Backstream.evalC
  dsimp only
  refine .bind_same fun states => ?_
  refine (CompAlike.foldlM_same states (fun m m' q hm => backstreamTaskC_alike g c c' hm q) (sameShape_two (vresize_sameLength h6 _ _ _) h2)).bind
    fun m m' hm => ?_
  refine .bind_ret (two_alike hm) fun p p' hp => ?_
  by_cases hb : b = 0
  · rw [if_pos hb, if_pos hb]; exact .ret rfl
  · rw [if_neg hb, if_neg hb]
    by_cases hd : (np + 1) % b = 0
    · rw [if_pos hd, if_pos hd]
      unfold Backstream.bootstrapWeightC
      refine (CompAlike.foldlM_same _ (fun m m' q hm => bootTaskC_alike hm q) (sameShape_one hp.1)).bind fun m m' hm => ?_
      exact .bind_ret (one_alike hm) fun w w' hw => .pure ⟨rfl, hw, rfl, rfl, rfl, hp.2, rfl⟩
    · rw [if_neg hd, if_neg hd]
      exact .pure ⟨rfl, hp.1, rfl, rfl, rfl, hp.2, rfl⟩

/-! ## Lookup tables -/

theorem lutTaskC_alike (c c' : Gsw l N) {m m' : Mem (TRLWE N)} (h : SameShape m m') (j : Nat) :
    CompAlike SameShape (lutTaskC c m j : Comp N n l _) (lutTaskC c' m' j) :=
  .bind_ret (mread_alike h _ _) fun _ _ _ => .bind_ret (mread_alike h _ _) fun _ _ _ =>
    (cmuxC_alike ..).bind fun _ _ _ => .ret (mwrite_alike h _ _ _ _)

theorem lutLoopC_alike (inputSize : Nat) : ∀ (cs cs' : List (Gsw l N)), cs.length = cs'.length → ∀ (i : Nat) (tmp table tmp' table' : List (TRLWE N))
    (timer : List (Target × Nat)), tmp.length = tmp'.length → table.length = table'.length →
    CompAlike SameTables (lutLoopC inputSize cs i tmp table timer : Comp N n l _) (lutLoopC inputSize cs' i tmp' table' timer) := by
  intro cs
  induction cs with
  | nil =>
    intro cs' h i tmp table tmp' table' timer h1 h2
    cases cs' with
    | nil => exact .pure ⟨h1, h2, rfl⟩
    | cons => simp at h
  | cons c cs ih =>
    intro cs' h i tmp table tmp' table' timer h1 h2
    cases cs' with
    | nil => simp at h
    | cons c' cs' =>
      rw [lutLoopC, lutLoopC]
      refine .bind_same fun cnt => ?_
      refine (CompAlike.foldlM_same _ (fun m m' q hm => lutTaskC_alike c c' hm q) (sameShape_two h1 h2)).bind fun m m' hm => ?_
      refine .bind_ret (two_alike hm) fun p p' hp => ?_
      exact ih cs' (by simpa using h) _ _ _ _ _ _ hp.2 hp.1

theorem lookupTableTimerC_alike {table table' ws ws' : List (TRLWE N)} {cs cs' : List (Gsw l N)} (timer : List (Target × Nat))
    (h1 : table.length = table'.length) (h2 : ws.length = ws'.length) (h : cs.length = cs'.length) :
    CompAlike SameTables (lookupTableTimerC table cs ws timer : Comp N n l _) (lookupTableTimerC table' cs' ws' timer) := by
  unfold lookupTableTimerC
  dsimp only
  rw [h, h1]
  refine .bind_same fun sz => .bind_same fun _ => ?_
  by_cases h0 : cs'.length = 0
  · rw [if_pos h0, if_pos h0]; exact .pure ⟨h1, h2, rfl⟩
  · rw [if_neg h0, if_neg h0]
    refine .bind_same fun half => ?_
    exact (lutLoopC_alike _ cs cs' h 0 _ _ _ _ timer rfl h1).bind fun p q hpq => .pure ⟨hpq.2.1, hpq.1, hpq.2.2⟩

theorem lookupTableC_alike {table table' ws ws' : List (TRLWE N)} {cs cs' : List (Gsw l N)}
    (h1 : table.length = table'.length) (h2 : ws.length = ws'.length) (h : cs.length = cs'.length) :
    CompAlike (fun p q => p.1.length = q.1.length ∧ p.2.length = q.2.length) (lookupTableC table cs ws : Comp N n l _) (lookupTableC table' cs' ws') :=
  (lookupTableTimerC_alike [] h1 h2 h).bind fun _ _ hpq => .pure ⟨hpq.1, hpq.2.1⟩

/-! ## BLOCK -/

theorem blockTaskC_alike (g : Graph) {cs cs' : List (Gsw l N)} (h : cs.length = cs'.length) (i : Nat) {m m' : Mem (TRLWE N)}
    (hm : SameShape m m') (q : Nat) : CompAlike SameShape (blockTaskC g cs i m q : Comp N n l _) (blockTaskC g cs' i m' q) :=
  .bind_same fun _ => .bind_same fun _ => .bind_ret (mread_alike hm _ _) fun _ _ _ => .bind_ret (mread_alike hm _ _) fun _ _ _ =>
    .bind_ret (vat_alike h i) fun _ _ _ => (cmuxC_alike ..).bind fun _ _ _ => .ret (mwrite_alike hm _ _ _ _)

theorem cbTaskC_alike {ws ws' : List (TLWE N)} (h : ws.length = ws'.length) {m m' : Mem (Gsw l N)}
    (hm : SameShape m m') (i : Nat) : CompAlike SameShape (cbTaskC ws m i : Comp N n l _) (cbTaskC ws' m' i) :=
  .bind_ret (vat_alike h i) fun _ _ _ => (cbC_alike ..).bind fun _ _ _ => .ret (mwrite_alike hm _ _ _ _)

theorem blockPropagateC_alike (g : Graph) {cs cs' : List (Gsw l N)} (h : cs.length = cs'.length) (d : List (List Nat)) :
    ∀ (k : Nat) (w out w' out' : List (TRLWE N)) (timer : List (Target × Nat)), w.length = w'.length → out.length = out'.length →
    CompAlike SameTables (blockPropagateC g cs d k w out timer : Comp N n l _) (blockPropagateC g cs' d k w' out' timer) := by
  intro k
  induction k with
  | zero => intro w out w' out' timer h1 h2; exact .pure ⟨h1, h2, rfl⟩
  | succ k ih =>
    intro w out w' out' timer h1 h2
    rw [blockPropagateC, blockPropagateC]
    refine .bind_same fun states => ?_
    refine (CompAlike.foldlM_same _ (fun m m' q hm => blockTaskC_alike g h k hm q) (sameShape_two h2 h1)).bind fun m m' hm => ?_
    exact .bind_ret (two_alike hm) fun p p' hp => ih _ _ _ _ _ hp.1 hp.2

theorem Block.evalQueuedC_alike {r r' : Block N l} (h : r.Same r') : CompAlike Block.Same (r.evalQueuedC : Comp N n l _) r'.evalQueuedC := by
  obtain ⟨g, qs, cs, sel, live, ws, t⟩ := r
  obtain ⟨g', qs', cs', sel', live', ws', t'⟩ := r'
  obtain ⟨h1, h2, h3, h4, h5, h6, h7⟩ := h
  dsimp only at h1 h2 h3 h4 h5 h6 h7
  subst h1 h2 h5 h7
  unfold Block.evalQueuedC
  dsimp only
  rw [← h3]
  by_cases h0 : cs.length = 0
  · rw [if_pos h0, if_pos h0]; exact .pure ⟨rfl, rfl, h3, h4, rfl, h6, rfl⟩
  · rw [if_neg h0, if_neg h0]
    refine .bind_same fun atDepth => .bind_same fun weight => ?_
    refine (blockPropagateC_alike g h3 atDepth (countDown cs.length) weight _ weight _ t rfl rfl).bind fun p p' hp => ?_
    obtain ⟨p1, p2, p3⟩ := hp
    by_cases hl : live.length = 1
    · rw [if_pos hl, if_pos hl]
      refine .bind_same fun q => ?_
      exact .bind_ret (vat_alike p1 q) fun w w' _ => .pure ⟨rfl, rfl, rfl, rfl, rfl, h6, p3⟩
    · rw [if_neg hl, if_neg hl]
      refine .bind_ret (R := fun _ _ => True) (by
        cases sel <;> cases sel' <;> first | rfl | trivial) fun s s' _ => ?_
      refine .bind_ret ((parFor_alike (tasks_alike _ (extractTask_alike s s')) (sameShape_one (vresize_sameLength h6 _ _ _))).bind
        fun m m' hm => one_alike hm) fun ws1 ws1' hws => ?_
      refine (CompAlike.foldlM_same _ (fun m m' q hm => cbTaskC_alike hws hm q) (sameShape_one rfl)).bind fun m m' hm => ?_
      refine .bind_ret (one_alike hm) fun cond cond' hcond => ?_
      refine .bind_ret (Alike.foldlM_same (R := fun a b => a.length = b.length) _ (fun a b i hab => ?_) p2) fun out out' hout => ?_
      · refine Alike.bind_same fun q => ?_
        exact (vat_alike p1 q).bind fun w w' _ => vset_alike hab _ _ _
      · refine .bind_same fun sz => ?_
        rw [p3]
        refine (lookupTableTimerC_alike _ (vresize_sameLength hout _ _ _) (vresize_sameLength p1 _ _ _) hcond).bind fun t t' ht => ?_
        exact .bind_ret (vat_alike ht.1 0) fun w w' _ => .pure ⟨rfl, rfl, rfl, rfl, rfl, hws, ht.2.2⟩

theorem Block.evalOneC_alike {r r' : Block N l} (h : r.Same r') (c c' : Gsw l N) :
    CompAlike Block.Same (r.evalOneC c : Comp N n l _) (r'.evalOneC c') := by
  have h' : Block.Same { r with queued := r.queued ++ [c] } { r' with queued := r'.queued ++ [c'] } :=
    ⟨h.graph, h.queueSize, by simp [h.queued], h.selector, h.live, h.ws4, h.timer⟩
  unfold Block.evalOneC
  dsimp only
  have hl : (r.queued ++ [c]).length = (r'.queued ++ [c']).length := h'.queued
  have hs := h.queueSize
  by_cases hq : (r.queued ++ [c]).length < r.queueSize
  · rw [if_pos hq, if_pos (by omega)]; exact .pure h'
  · rw [if_neg hq, if_neg (by omega)]; exact Block.evalQueuedC_alike h'

theorem Block.resultC_alike {r r' : Block N l} (h : r.Same r') :
    CompAlike (fun p q => p.2.Same q.2) (r.resultC : Comp N n l _) r'.resultC := by
  unfold Block.resultC
  refine (Block.evalQueuedC_alike h).bind fun r r' hr => ?_
  have := hr.selector
  cases e : r.selector <;> cases e' : r'.selector <;> rw [e, e'] at this <;>
    simp only [Option.isSome_none, Option.isSome_some, reduceCtorEq] at this
  · exact .ret rfl
  · exact .bind_ret (sampleExtractAt_alike _ _ _) fun _ _ _ => .pure hr

/-! ## FLUT -/

theorem splitTaskC_alike (st2idx : List Nat) (boot : Bool) {m m' : Mem (TRLWE N)} (hm : SameShape m m') (st : Nat) :
    CompAlike SameShape (splitTaskC st2idx boot m st : Comp N n l _) (splitTaskC st2idx boot m' st) := by
  refine .bind_ret (mread_alike hm _ _) fun _ _ _ => .bind_same fun idx => .bind_ret (sampleExtractAt_alike _ _ idx) fun t t' _ => ?_
  refine CompAlike.bind (R := fun _ _ => True) ?_ fun _ _ _ => (tlwe2trlweC_alike _ _).bind fun _ _ _ => .ret (mwrite_alike hm _ _ _ _)
  cases boot
  · exact .pure trivial
  · exact (iksC_alike _ _).bind fun _ _ _ => (bsHalfToHalfC_alike _ _).bind fun _ _ _ => .ret (sampleExtractAt_alike _ _ _)

theorem Flut.evalQueuedC_alike {r r' : Flut N l} (h : r.Same r') : CompAlike Flut.Same (r.evalQueuedC : Comp N n l _) r'.evalQueuedC := by
  obtain ⟨g, w, cs, ms, qs, live, memo, ne, bf, fi, se⟩ := r
  obtain ⟨g', w', cs', ms', qs', live', memo', ne', bf', fi', se'⟩ := r'
  obtain ⟨h1, h2, h3, h4, h5, h6, h7, h8, h9, h10, h11⟩ := h
  dsimp only at h1 h2 h3 h4 h5 h6 h7 h8 h9 h10 h11
  subst h1 h4 h5 h6 h7 h8 h9 h10 h11
  unfold Flut.evalQueuedC
  dsimp only
  rw [← h3]
  by_cases h0 : cs.length = 0
  · rw [if_pos h0, if_pos h0]; exact .pure ⟨rfl, h2, h3, rfl, rfl, rfl, rfl, rfl, rfl, rfl, rfl⟩
  · rw [if_neg h0, if_neg h0]
    refine .bind_same fun m => .bind_same fun next => .bind_same fun st2idx => .bind_same fun d =>
      .bind_same fun cnt1 => .bind_same fun cnt2 => ?_
    refine .bind_ret ((parFor_alike (tasks_alike _ fun i => fillTask_alike g m st2idx d.1 next.length i _) (sameShape_two rfl h2)).bind
      fun mm mm' hm => two_alike hm) fun p p' hp => ?_
    refine (lookupTableC_alike hp.1 rfl (by simp [h3])).bind fun t1 t1' ht1 => ?_
    refine .bind_ret ((parFor_alike (tasks_alike _ fun i => rotTask_alike next.length (i + 1)) (sameShape_one (vresize_sameLength ht1.1 _ _ _))).bind
      fun mm mm' hm => one_alike hm) fun table table' htab => ?_
    refine (lookupTableC_alike htab ht1.2 (by simp [h3])).bind fun t2 t2' ht2 => ?_
    by_cases hb : bf = 0
    · rw [if_pos hb, if_pos hb]; exact .ret rfl
    · rw [if_neg hb, if_neg hb]
      refine (CompAlike.foldlM_same _ (fun m m' q hm => splitTaskC_alike st2idx _ hm q) (sameShape_two h2 ht2.1)).bind fun mm mm' hm => ?_
      exact .bind_ret (two_alike hm) fun p p' hp => .pure ⟨rfl, hp.1, rfl, rfl, rfl, rfl, rfl, rfl, rfl, rfl, rfl⟩

theorem Flut.evalOneC_alike {r r' : Flut N l} (h : r.Same r') (c c' : Gsw l N) :
    CompAlike Flut.Same (r.evalOneC c : Comp N n l _) (r'.evalOneC c') := by
  have h' : Flut.Same { r with queued := r.queued ++ [c] } { r' with queued := r'.queued ++ [c'] } :=
    ⟨h.graph, h.weight, by simp [h.queued], h.maxSecond, h.queueSize, h.live, h.memo, h.numEval, h.bootFreq, h.first, h.second⟩
  unfold Flut.evalOneC
  dsimp only
  have hl : (r.queued ++ [c]).length = (r'.queued ++ [c']).length := h'.queued
  have hs := h.queueSize
  by_cases hq : (r.queued ++ [c]).length < r.queueSize
  · rw [if_pos hq, if_pos (by omega)]; exact .pure h'
  · rw [if_neg hq, if_neg (by omega)]; exact Flut.evalQueuedC_alike h'

theorem Flut.resultC_alike {r r' : Flut N l} (h : r.Same r') : CompAlike (fun p q => p.2.Same q.2) (r.resultC : Comp N n l _) r'.resultC := by
  unfold Flut.resultC
  refine (Flut.evalQueuedC_alike h).bind fun r r' hr => ?_
  rw [hr.graph, hr.live]
  refine .bind_ret (Alike.foldlM_same (R := fun _ _ => True) _ (fun a b st _ => ?_) trivial) fun a b _ => ?_
  · refine Alike.bind_same fun f => ?_
    cases f
    · trivial
    · exact (vat_alike hr.weight st).bind fun _ _ _ => trivial
  · exact .bind_ret (sampleExtractAt_alike _ _ _) fun _ _ _ => .pure hr

/-! ## The commands -/

theorem onlineLoopC_alike {ρ : Type} {Q : ρ → ρ → Prop} {eval eval' : ρ → Gsw l N → Comp N n l ρ} {result result' : ρ → Comp N n l (TLWE N × ρ)}
    (he : ∀ r r' c c', Q r r' → CompAlike Q (eval r c) (eval' r' c'))
    (hr : ∀ r r', Q r r' → CompAlike (fun p q => Q p.2 q.2) (result r) (result' r'))
    (outDir : Option String) (freq : Nat) : ∀ (cs cs' : List (Gsw l N)), cs.length = cs'.length → ∀ (i : Nat) (r r' : ρ), Q r r' →
    CompAlike (fun p q => p.1.map (·.1) = q.1.map (·.1) ∧ Q p.2 q.2) (onlineLoopC eval result outDir freq cs i r)
      (onlineLoopC eval' result' outDir freq cs' i r') := by
  intro cs
  induction cs with
  | nil =>
    intro cs' h i r r' hq
    cases cs' with
    | nil => exact .pure ⟨rfl, hq⟩
    | cons => simp at h
  | cons c cs ih =>
    intro cs' h i r r' hq
    cases cs' with
    | nil => simp at h
    | cons c' cs' =>
      have h : cs.length = cs'.length := by simpa using h
      rw [onlineLoopC, onlineLoopC]
      refine (he r r' c c' hq).bind fun r1 r1' h1 => ?_
      cases outDir with
      | none => exact ih cs' h _ _ _ h1
      | some dir =>
        dsimp only
        by_cases hf : freq = 0
        · rw [if_pos hf, if_pos hf]; exact .ret rfl
        · rw [if_neg hf, if_neg hf]
          by_cases hi : i % freq = freq - 1
          · rw [if_pos hi, if_pos hi]
            refine (hr r1 r1' h1).bind fun p p' hp => ?_
            exact (ih cs' h _ _ _ hp).bind fun q q' hqq => .pure ⟨by simp [hqq.1], hqq.2⟩
          · rw [if_neg hi, if_neg hi]
            exact ih cs' h _ _ _ h1

theorem doRunOfflineC_alike (spec : List Char) (size boot : Nat) (sanitize : Bool) (cs cs' : List (Gsw l N)) (h : cs.length = cs'.length) :
    CompAlike (fun _ _ => True) (doRunOfflineC spec size cs boot sanitize : Comp N n l _) (doRunOfflineC spec size cs' boot sanitize) := by
  unfold doRunOfflineC
  refine .bind_same fun g => .bind_same fun g => .bind_same fun r => .bind_same fun _ => ?_
  exact (CompAlike.foldlM_len (fun _ _ c c' hr => Backstream.evalC_alike hr c c') h (Backstream.Same.refl r)).bind fun _ _ hr => .ret hr.result_alike

theorem doRunReverseC_alike (spec : List Char) (hidden : Nat) (outFile outDir : Option String) (freq boot : Nat) (rev sanitize : Bool)
    (cs cs' : List (Gsw l N)) (h : cs.length = cs'.length) :
    CompAlike (fun p q => p.map (·.1) = q.map (·.1)) (doRunReverseC spec hidden cs outFile outDir freq boot rev sanitize : Comp N n l _)
      (doRunReverseC spec hidden cs' outFile outDir freq boot rev sanitize) := by
  unfold doRunReverseC
  refine .bind_same fun _ => .bind_same fun g => .bind_same fun r => ?_
  refine (onlineLoopC_alike (Q := Backstream.Same) (fun _ _ c c' hr => Backstream.evalC_alike hr c c')
    (fun r r' hr => .bind_ret hr.result_alike fun _ _ _ => .pure hr) outDir freq cs cs' h 0 r r (Backstream.Same.refl r)).bind fun p q hpq => ?_
  refine .bind_same fun f => ?_
  exact .bind_ret hpq.2.result_alike fun _ _ _ => .pure (by simp [hpq.1])

theorem doRunFlutC_alike (spec : List Char) (hidden : Nat) (outFile outDir : Option String) (freq qs boot : Nat) (ms : Option Nat)
    (sanitize : Bool) (cs cs' : List (Gsw l N)) (h : cs.length = cs'.length) :
    CompAlike (fun p q => p.map (·.1) = q.map (·.1)) (doRunFlutC spec hidden cs outFile outDir freq qs boot ms sanitize : Comp N n l _)
      (doRunFlutC spec hidden cs' outFile outDir freq qs boot ms sanitize) := by
  unfold doRunFlutC
  refine .bind_same fun g => .bind_same fun r => ?_
  by_cases h0 : outDir.isSome ∧ qs = 0
  · rw [if_pos h0, if_pos h0]; exact .ret rfl
  · rw [if_neg h0, if_neg h0]
    refine (onlineLoopC_alike (Q := Flut.Same) (fun _ _ c c' hr => Flut.evalOneC_alike hr c c')
      (fun r r' hr => Flut.resultC_alike hr) outDir freq cs cs' h 0 r r (Flut.Same.refl r)).bind fun p q hpq => ?_
    refine .bind_same fun f => ?_
    exact (Flut.resultC_alike hpq.2).bind fun _ _ _ => .pure (by simp [hpq.1])

theorem doRunBlockC_alike (spec : List Char) (qs : Nat) (sanitize : Bool) (cs cs' : List (Gsw l N)) (h : cs.length = cs'.length) :
    CompAlike (fun _ _ => True) (doRunBlockC spec cs qs sanitize : Comp N n l _) (doRunBlockC spec cs' qs sanitize) := by
  unfold doRunBlockC
  refine .bind_same fun g => .bind_same fun r => ?_
  refine (CompAlike.foldlM_len (fun _ _ c c' hr => Block.evalOneC_alike hr c c') h (Block.Same.refl r)).bind fun r r' hr => ?_
  exact (Block.resultC_alike hr).bind fun _ _ _ => .pure trivial

end Homfa
