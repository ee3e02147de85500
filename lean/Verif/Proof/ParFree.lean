import Verif.Spec.Par
import Verif.Proof.Par
import Mathlib.Order.GameAdd

/-! Disjoint tasks are schedule free. -/

namespace Homfa

variable {α : Type} {R W : Nat → Nat → Nat → Prop}

/-- A write outside the footprint of a task, followed by the task. -/
theorem Prog.Within.write_run {R W : Nat → Nat → Prop} {p : Prog α} (hp : p.Within R W) {v i : Nat} {y : α}
    (hR : ¬ R v i) (hW : ¬ W v i) :
    ∀ {m m2 m' : Mem α}, mwrite m v i y = .ok m2 → p.run m2 = .ok m' →
      ∃ m1, p.run m = .ok m1 ∧ mwrite m1 v i y = .ok m' := by
  induction hp with
  | ret => intro m m2 m' h h'; cases h'; exact ⟨m, rfl, h⟩
  | fail => intro m m2 m' h h'; cases h'
  | @read v' i' k hloc _ ih =>
    intro m m2 m' h h'
    unfold Prog.run at h'
    rw [Res.bind_eq_ok] at h'
    obtain ⟨x, h1, h2⟩ := h'
    rw [mread_mwrite_ne h (by rintro ⟨rfl, rfl⟩; exact hloc.elim hR hW)] at h1
    obtain ⟨m1, h3, h4⟩ := ih x h h2
    refine ⟨m1, ?_, h4⟩
    unfold Prog.run
    rw [h1]
    exact h3
  | @write v' i' x k hW' _ ih =>
    intro m m2 m' h h'
    unfold Prog.run at h'
    rw [Res.bind_eq_ok] at h'
    obtain ⟨m0, h1, h2⟩ := h'
    have hne : ¬ (v = v' ∧ i = i') := by rintro ⟨rfl, rfl⟩; exact hW hW'
    obtain ⟨m3, h5, h6⟩ := mwrite_comm h h1 hne
    obtain ⟨m1, h7, h8⟩ := ih h6 h2
    refine ⟨m1, ?_, h8⟩
    unfold Prog.run
    rw [h5]
    exact h7

theorem parFor_write_run {l : List (Prog α)} {v i : Nat} {y : α}
    (h : ∀ p ∈ l, ∃ R W : Nat → Nat → Prop, p.Within R W ∧ ¬ R v i ∧ ¬ W v i) :
    ∀ {m m2 m' : Mem α}, mwrite m v i y = .ok m2 → parFor l m2 = .ok m' →
      ∃ m1, parFor l m = .ok m1 ∧ mwrite m1 v i y = .ok m' := by
  induction l with
  | nil => intro m m2 m' h1 h2; cases h2; exact ⟨m, rfl, h1⟩
  | cons p l ih =>
    intro m m2 m' h1 h2
    rw [parFor_cons, Res.bind_eq_ok] at h2
    obtain ⟨m0, h3, h4⟩ := h2
    obtain ⟨R, W, hw, hr, hn⟩ := h p (by simp)
    obtain ⟨m3, h5, h6⟩ := hw.write_run hr hn h1 h3
    obtain ⟨m1, h7, h8⟩ := ih (fun p hp => h p (by simp [hp])) h6 h4
    exact ⟨m1, by rw [parFor_cons, h5]; exact h7, h8⟩

/-- One access of any task, backwards. -/
theorem parFor_step_back {ts us : List (Prog α)} {m n m' : Mem α} (hd : Disjoint' R W ts) (h : ParStep ts m us n)
    (hs : parFor us n = .ok m') : parFor ts m = .ok m' := by
  cases h with
  | @step l r p p' m n h =>
  rw [parFor_append, Res.bind_eq_ok] at hs
  obtain ⟨m1, h1, h2⟩ := hs
  rw [parFor_cons, Res.bind_eq_ok] at h2
  obtain ⟨m2, h3, h4⟩ := h2
  have hl : ∀ q ∈ l, ∃ j, j ≠ l.length ∧ q.Within (R j) (W j) := by
    intro q hq
    obtain ⟨j, hj, rfl⟩ := List.mem_iff_getElem.1 hq
    refine ⟨j, by omega, hd.1 j _ ?_⟩
    rw [List.getElem?_append_left hj, List.getElem?_eq_getElem hj]
  have hp := hd.1 l.length p (by simp)
  cases h with
  | @read _ v i x k hx =>
    cases hp with
    | read hloc hk =>
    have : mread m1 v i = mread m v i := by
      refine parFor_frame (fun q hq => ?_) h1
      obtain ⟨j, hj, hw⟩ := hl q hq
      refine ⟨R j, W j, hw, fun hWj => ?_⟩
      have := hd.2 j l.length hj v i hWj
      exact hloc.elim this.1 this.2
    rw [parFor_append, h1]
    show parFor (Prog.read v i k :: r) m1 = _
    rw [parFor_cons, Prog.run_read (this.trans hx), h3]
    exact h4
  | @write _ _ v i x _ hx =>
    cases hp with
    | write hW hk =>
    obtain ⟨m4, h7, h8⟩ := parFor_write_run (l := l) (fun q hq => by
      obtain ⟨j, hj, hw⟩ := hl q hq
      have := hd.2 l.length j (Ne.symm hj) v i hW
      exact ⟨R j, W j, hw, this⟩) hx h1
    rw [parFor_append, h7]
    show parFor (Prog.write v i x p' :: r) m4 = _
    rw [parFor_cons, Prog.run, h8]
    show (Prog.run p' m1 >>= _) = _
    rw [h3]
    exact h4

theorem disjoint_exec {ts us : List (Prog α)} {m n : Mem α} (hd : Disjoint' R W ts) (h : ParExec ts m us n) : Disjoint' R W us := by
  induction h with
  | refl => exact hd
  | tail _ h2 ih => exact ih.step h2

theorem parFor_exec_back {ts us : List (Prog α)} {m n m' : Mem α} (hd : Disjoint' R W ts) (h : ParExec ts m us n)
    (hs : parFor us n = .ok m') : parFor ts m = .ok m' := by
  induction h with
  | refl => exact hs
  | tail h1 h2 ih => exact ih (parFor_step_back (disjoint_exec hd h1) h2 hs)

/-! ## Termination -/

/-- `p'` is what is left of `p` after one access -/
inductive Sub : Prog α → Prog α → Prop
  | read {v i k x} : Sub (k x) (.read v i k)
  | write {v i x k} : Sub k (.write v i x k)

theorem sub_acc (p : Prog α) : Acc Sub p := by
  induction p with
  | ret => exact ⟨_, fun q h => by cases h⟩
  | fail e => exact ⟨_, fun q h => by cases h⟩
  | read v i k ih => exact ⟨_, fun q h => by cases h; exact ih _⟩
  | write v i x k ih => exact ⟨_, fun q h => by cases h; exact ih⟩

/-- one task of the list has made an access -/
def SubList (us ts : List (Prog α)) : Prop := ∃ l r p p', ts = l ++ p :: r ∧ us = l ++ p' :: r ∧ Sub p' p

theorem subList_acc (ts : List (Prog α)) : Acc SubList ts := by
  induction ts with
  | nil =>
    refine ⟨_, fun us h => ?_⟩
    obtain ⟨l, r, p, p', h, _⟩ := h
    simp at h
  | cons p ts ih =>
    have hg : Acc (Prod.GameAdd Sub SubList) (p, ts) := Acc.prod_gameAdd (sub_acc p) ih
    generalize hx : (p, ts) = x at hg
    induction hg generalizing p ts with
    | intro x _ ih2 =>
      subst hx
      refine ⟨_, fun us h => ?_⟩
      obtain ⟨l, r, q, q', h1, h2, h3⟩ := h
      cases l with
      | nil =>
        simp only [List.nil_append, List.cons.injEq] at h1
        obtain ⟨rfl, rfl⟩ := h1
        subst h2
        exact ih2 (q', ts) (.fst h3) q' ts ih rfl
      | cons a l =>
        simp only [List.cons_append, List.cons.injEq] at h1
        obtain ⟨rfl, rfl⟩ := h1
        subst h2
        have hs : SubList (l ++ q' :: r) (l ++ q :: r) := ⟨l, r, q, q', rfl, rfl, h3⟩
        exact ih2 (p, l ++ q' :: r) (.snd hs) p _ (ih.inv hs) rfl

theorem ParStep.subList {ts us : List (Prog α)} {m n : Mem α} (h : ParStep ts m us n) : SubList us ts := by
  cases h with
  | @step l r p p' m n h =>
    refine ⟨l, r, p, p', rfl, rfl, ?_⟩
    cases h with
    | read _ => exact .read
    | write _ => exact .write

theorem no_infinite (ts : List (Prog α)) (f : Nat → List (Prog α) × Mem α) (h0 : (f 0).1 = ts) :
    ∃ i, ¬ ParStep (f i).1 (f i).2 (f (i + 1)).1 (f (i + 1)).2 := by
  have := subList_acc ts
  induction this generalizing f with
  | intro ts _ ih =>
    by_cases h : ParStep (f 0).1 (f 0).2 (f 1).1 (f 1).2
    · have hs := h.subList
      rw [h0] at hs
      obtain ⟨i, hi⟩ := ih _ hs (fun i => f (i + 1)) rfl
      exact ⟨i + 1, hi⟩
    · exact ⟨0, h⟩

theorem Disjoint'.scheduleFree {ts : List (Prog α)} (hd : Disjoint' R W ts) : ScheduleFree ts where
  complete m us n h hdone := parFor_exec_back hd h (parFor_done hdone)
  safe m m' h us n he := by
    obtain ⟨h1, h2⟩ := parFor_exec hd he h
    have h3 := parFor_no_throw h1 h2
    by_cases hdone : Done us
    · exact ⟨h3, .inl hdone⟩
    · exact ⟨h3, .inr (par_progress hdone h3)⟩
  finite f h0 := no_infinite ts f h0

/-! ## Building footprints -/

theorem Prog.Within.local {β : Type} {R W : Nat → Nat → Prop} {r : Res β} {k : β → Prog α} (h : ∀ x, r = .ok x → (k x).Within R W) :
    (Prog.local r k).Within R W := by
  cases r with
  | ok x => exact h x rfl
  | error e => exact .fail

/-- Task `q` reads locations in `R` and element `q` of vector 0, and writes element `q` of vector 0; `R` contains no element written by any
task. -/
theorem scheduleFree_map {task : Nat → Prog α} {sts : List Nat} (hnd : sts.Nodup) (R : Nat → Nat → Prop)
    (hR : ∀ q ∈ sts, ¬ R 0 q) (h : ∀ q ∈ sts, (task q).Within R (fun v i => v = 0 ∧ i = q)) : ScheduleFree (sts.map task) := by
  refine Disjoint'.scheduleFree (R := fun _ => R) (W := fun j v i => v = 0 ∧ sts[j]? = some i) ⟨?_, ?_⟩
  · intro j p hp
    rw [List.getElem?_map] at hp
    cases hq : sts[j]? with
    | none => rw [hq] at hp; cases hp
    | some q =>
      rw [hq] at hp
      cases hp
      have := h q (List.mem_of_getElem? hq)
      have he : (fun v i => v = 0 ∧ sts[j]? = some i) = (fun v i : Nat => v = 0 ∧ i = q) := by
        funext v i
        rw [hq]
        simp [eq_comm]
      dsimp only
      rw [he]
      exact this
  · rintro j j' hne v i ⟨rfl, hi⟩
    refine ⟨hR i (List.mem_of_getElem? hi), ?_⟩
    rintro ⟨_, hi'⟩
    obtain ⟨l1, e1⟩ := List.getElem?_eq_some_iff.1 hi
    obtain ⟨l2, e2⟩ := List.getElem?_eq_some_iff.1 hi'
    exact hne ((hnd.getElem_inj_iff (hi := l1) (hj := l2)).1 (e1.trans e2.symm))

end Homfa
