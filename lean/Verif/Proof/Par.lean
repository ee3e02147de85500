import Verif.Model.Par
import Verif.Proof.Cpp

/-! Parallel loops: the sequential run of disjoint tasks, and independence of the schedule. -/

namespace Homfa

variable {α : Type}

@[simp] theorem mread_zero {v : List α} {r : Mem α} {i : Nat} : mread (v :: r) 0 i = vat v i := rfl
@[simp] theorem mread_one {v u : List α} {r : Mem α} {i : Nat} : mread (v :: u :: r) 1 i = vat u i := rfl

theorem mwrite_zero {v : List α} {r : Mem α} {i : Nat} {x : α} (h : i < v.length) :
    mwrite (v :: r) 0 i x = .ok (v.set i x :: r) := by
  show (do let vec ← vset v i x; pure ((v :: r).set 0 vec)) = _
  rw [vset_lt h]; rfl

theorem Prog.run_local {β : Type} {r : Res β} {x : β} (k : β → Prog α) (h : r = .ok x) : Prog.local r k = k x := by
  subst h; rfl

theorem Prog.run_read {m : Mem α} {v i : Nat} {k : α → Prog α} {x : α} (h : mread m v i = .ok x) :
    (Prog.read v i k).run m = (k x).run m := by
  rw [Prog.run, h]; rfl

theorem Prog.run_read0 {w : List α} {rest : Mem α} {i : Nat} {k : α → Prog α} {x : α} (h : w[i]? = some x) :
    (Prog.read 0 i k).run (w :: rest) = (k x).run (w :: rest) := Prog.run_read (by rw [mread_zero]; exact vat_eq_ok.2 h)

theorem Prog.run_read1 {w v : List α} {rest : Mem α} {i : Nat} {k : α → Prog α} {x : α} (h : v[i]? = some x) :
    (Prog.read 1 i k).run (w :: v :: rest) = (k x).run (w :: v :: rest) :=
  Prog.run_read (by rw [mread_one]; exact vat_eq_ok.2 h)

theorem Prog.run_write0 {w : List α} {rest : Mem α} {i : Nat} {x : α} (h : i < w.length) :
    (Prog.write 0 i x .ret).run (w :: rest) = .ok (w.set i x :: rest) := by
  rw [Prog.run, mwrite_zero h]; rfl

/-- A loop whose task `q` writes only element `q` of the first vector. -/
theorem parFor_write {task : Nat → Prog α} {rest : Mem α} {P : Nat → α → Prop} {w0 : List α} (sts : List Nat)
    (hnd : sts.Nodup)
    (h : ∀ q ∈ sts, ∀ w : List α, w.length = w0.length → w[q]? = w0[q]? →
      ∃ x, P q x ∧ (task q).run (w :: rest) = .ok (w.set q x :: rest))
    (hlt : ∀ q ∈ sts, q < w0.length) :
    ∃ w', parFor (sts.map task) (w0 :: rest) = .ok (w' :: rest) ∧ w'.length = w0.length ∧
      (∀ q ∈ sts, ∃ x, w'[q]? = some x ∧ P q x) ∧ ∀ q, q ∉ sts → w'[q]? = w0[q]? := by
  have key : ∀ (l : List Nat) (w : List α), l.Nodup → w.length = w0.length → (∀ q ∈ l, q ∈ sts) →
      (∀ q ∈ l, w[q]? = w0[q]?) →
      ∃ w', parFor (l.map task) (w :: rest) = .ok (w' :: rest) ∧ w'.length = w0.length ∧
        (∀ q ∈ l, ∃ x, w'[q]? = some x ∧ P q x) ∧ ∀ q, q ∉ l → w'[q]? = w[q]? := by
    intro l
    induction l with
    | nil => intro w _ hw _ _; exact ⟨w, rfl, hw, by simp, by simp⟩
    | cons a l ih =>
      intro w hnd hw hsub heq
      rw [List.nodup_cons] at hnd
      obtain ⟨x, hx, hrun⟩ := h a (hsub a (by simp)) w hw (heq a (by simp))
      have hlen : (w.set a x).length = w0.length := by rw [List.length_set, hw]
      obtain ⟨w', h1, h2, h3, h4⟩ := ih (w.set a x) hnd.2 hlen (fun q hq => hsub q (by simp [hq])) (by
        intro q hq
        have hne : a ≠ q := fun h => hnd.1 (h ▸ hq)
        rw [List.getElem?_set_ne hne]
        exact heq q (by simp [hq]))
      refine ⟨w', ?_, h2, ?_, ?_⟩
      · show (do let m ← (task a).run (w :: rest); parFor (l.map task) m) = _
        rw [hrun]; exact h1
      · intro q hq
        rw [List.mem_cons] at hq
        rcases hq with rfl | hq
        · refine ⟨x, ?_, hx⟩
          rw [h4 q hnd.1]
          rw [List.getElem?_set_self]
          rw [hw]; exact hlt q (hsub q (by simp))
        · exact h3 q hq
      · intro q hq
        simp only [List.mem_cons, not_or] at hq
        rw [h4 q hq.2, List.getElem?_set_ne (Ne.symm hq.1)]
  exact key sts w0 hnd rfl (fun q hq => hq) (fun q _ => rfl)

/-! ## Independence of the schedule -/

/-- The task reads only locations satisfying `R` or `W` and writes only locations satisfying `W`. -/
inductive Prog.Within (R W : Nat → Nat → Prop) : Prog α → Prop
  | ret : Within R W .ret
  | fail {e} : Within R W (.fail e)
  | read {v i k} : (R v i ∨ W v i) → (∀ x, Within R W (k x)) → Within R W (.read v i k)
  | write {v i x k} : W v i → Within R W k → Within R W (.write v i x k)

theorem mread_mwrite_ne {m m' : Mem α} {v i v' i' : Nat} {x : α} (h : mwrite m v i x = .ok m')
    (hne : ¬ (v = v' ∧ i = i')) : mread m' v' i' = mread m v' i' := by
  unfold mwrite at h
  cases hv : m[v]? with
  | none => rw [hv] at h; exact absurd h (by simp)
  | some vec =>
    rw [hv] at h
    rw [Res.bind_eq_ok] at h
    obtain ⟨vec', h1, h2⟩ := h
    rw [vset_eq_ok] at h1
    have hm : m.set v vec' = m' := by injection h2
    subst hm
    unfold mread
    by_cases hvv : v = v'
    · subst hvv
      have hlt : v < m.length := by
        rcases Nat.lt_or_ge v m.length with h | h
        · exact h
        · rw [List.getElem?_eq_none h] at hv; cases hv
      rw [List.getElem?_set_self hlt, hv]
      dsimp only
      unfold vat
      rw [h1.2, List.getElem?_set_ne (fun h => hne ⟨rfl, h⟩)]
    · rw [List.getElem?_set_ne hvv]

theorem mwrite_comm {m m1 m2 : Mem α} {v i v' i' : Nat} {x y : α} (h1 : mwrite m v i x = .ok m1)
    (h2 : mwrite m1 v' i' y = .ok m2) (hne : ¬ (v = v' ∧ i = i')) :
    ∃ m1', mwrite m v' i' y = .ok m1' ∧ mwrite m1' v i x = .ok m2 := by
  unfold mwrite at h1
  cases hv : m[v]? with
  | none => rw [hv] at h1; exact absurd h1 (by simp)
  | some vec =>
  rw [hv] at h1
  rw [Res.bind_eq_ok] at h1
  obtain ⟨vec1, h3, h4⟩ := h1
  rw [vset_eq_ok] at h3
  have hm : m.set v vec1 = m1 := by injection h4
  subst hm
  have hlt : v < m.length := by
    rcases Nat.lt_or_ge v m.length with h | h
    · exact h
    · rw [List.getElem?_eq_none h] at hv; cases hv
  unfold mwrite at h2
  by_cases hvv : v = v'
  · subst hvv
    have hi : i ≠ i' := fun h => hne ⟨rfl, h⟩
    rw [List.getElem?_set_self hlt] at h2
    dsimp only at h2
    rw [Res.bind_eq_ok] at h2
    obtain ⟨vec2, h5, h6⟩ := h2
    rw [vset_eq_ok] at h5
    have hm : (m.set v vec1).set v vec2 = m2 := by injection h6
    subst hm
    have hlen : vec1.length = vec.length := by rw [h3.2, List.length_set]
    refine ⟨m.set v (vec.set i' y), ?_, ?_⟩
    · unfold mwrite
      rw [hv]
      dsimp only
      rw [vset_lt (by omega)]
      rfl
    · unfold mwrite
      rw [List.getElem?_set_self hlt]
      dsimp only
      rw [vset_lt (by rw [List.length_set]; omega)]
      show Except.ok _ = Except.ok _
      rw [List.set_set, List.set_set, h5.2, h3.2, List.set_comm _ _ (Ne.symm hi)]
  · rw [List.getElem?_set_ne hvv] at h2
    cases hv' : m[v']? with
    | none => rw [hv'] at h2; exact absurd h2 (by simp)
    | some vec' =>
    rw [hv'] at h2
    dsimp only at h2
    rw [Res.bind_eq_ok] at h2
    obtain ⟨vec2, h5, h6⟩ := h2
    have hm : (m.set v vec1).set v' vec2 = m2 := by injection h6
    subst hm
    refine ⟨m.set v' vec2, ?_, ?_⟩
    · unfold mwrite
      rw [hv']
      dsimp only
      rw [h5]; rfl
    · unfold mwrite
      rw [List.getElem?_set_ne (Ne.symm hvv), hv]
      dsimp only
      rw [vset_lt h3.1, ← h3.2]
      show Except.ok _ = Except.ok _
      rw [List.set_comm _ _ (Ne.symm hvv)]

/-- Running a task does not change locations outside its write set. -/
theorem Prog.Within.run_frame {R W : Nat → Nat → Prop} {p : Prog α} (hp : p.Within R W) :
    ∀ {m m' : Mem α}, p.run m = .ok m' → ∀ v i, ¬ W v i → mread m' v i = mread m v i := by
  induction hp with
  | ret => intro m m' h v i _; cases h; rfl
  | fail => intro m m' h; cases h
  | @read v i k _ _ ih =>
    intro m m' h v' i' hw
    unfold Prog.run at h
    rw [Res.bind_eq_ok] at h
    obtain ⟨x, _, h2⟩ := h
    exact ih x h2 v' i' hw
  | @write v i x k hW _ ih =>
    intro m m' h v' i' hw
    unfold Prog.run at h
    rw [Res.bind_eq_ok] at h
    obtain ⟨m1, h1, h2⟩ := h
    rw [ih h2 v' i' hw]
    refine mread_mwrite_ne h1 ?_
    rintro ⟨rfl, rfl⟩
    exact hw hW

/-- A write outside the footprint of a task commutes with running the task. -/
theorem Prog.Within.run_write {R W : Nat → Nat → Prop} {p : Prog α} (hp : p.Within R W) {v i : Nat} {y : α}
    (hR : ¬ R v i) (hW : ¬ W v i) :
    ∀ {m m1 m' : Mem α}, p.run m = .ok m1 → mwrite m1 v i y = .ok m' →
      ∃ m2, mwrite m v i y = .ok m2 ∧ p.run m2 = .ok m' := by
  induction hp with
  | ret => intro m m1 m' h h'; cases h; exact ⟨m', h', rfl⟩
  | fail => intro m m1 m' h; cases h
  | @read v' i' k hloc _ ih =>
    intro m m1 m' h h'
    unfold Prog.run at h
    rw [Res.bind_eq_ok] at h
    obtain ⟨x, h1, h2⟩ := h
    obtain ⟨m2, h3, h4⟩ := ih x h2 h'
    refine ⟨m2, h3, ?_⟩
    unfold Prog.run
    rw [mread_mwrite_ne h3 (by rintro ⟨rfl, rfl⟩; exact hloc.elim hR hW), h1]
    exact h4
  | @write v' i' x k hW' _ ih =>
    intro m m1 m' h h'
    unfold Prog.run at h
    rw [Res.bind_eq_ok] at h
    obtain ⟨m0, h1, h2⟩ := h
    obtain ⟨m2, h3, h4⟩ := ih h2 h'
    have hne : ¬ (v' = v ∧ i' = i) := by rintro ⟨rfl, rfl⟩; exact hW hW'
    obtain ⟨m3, h5, h6⟩ := mwrite_comm h1 h3 hne
    refine ⟨m3, h5, ?_⟩
    unfold Prog.run
    rw [h6]
    exact h4

/-- Every task has a read set and a write set; nobody else touches what a task writes. -/
def Disjoint' (R W : Nat → Nat → Nat → Prop) (ts : List (Prog α)) : Prop :=
  (∀ (j : Nat) (p : Prog α), ts[j]? = some p → p.Within (R j) (W j)) ∧
  ∀ j j', j ≠ j' → ∀ v i, W j v i → ¬ R j' v i ∧ ¬ W j' v i

theorem TaskStep.within {R W : Nat → Nat → Prop} {p p' : Prog α} {m m' : Mem α} (h : TaskStep p m p' m')
    (hp : p.Within R W) : p'.Within R W := by
  cases h with
  | read _ => cases hp with | read _ h2 => exact h2 _
  | write _ => cases hp with | write _ h2 => exact h2

theorem parFor_append (l r : List (Prog α)) (m : Mem α) :
    parFor (l ++ r) m = (parFor l m >>= fun m' => parFor r m') := by
  unfold parFor
  rw [List.foldlM_append]

theorem parFor_cons (p : Prog α) (r : List (Prog α)) (m : Mem α) :
    parFor (p :: r) m = (p.run m >>= fun m' => parFor r m') := rfl

/-- The sequential run of tasks with footprints away from a location keeps its content. -/
theorem parFor_frame {l : List (Prog α)} {v i : Nat}
    (h : ∀ p ∈ l, ∃ R W : Nat → Nat → Prop, p.Within R W ∧ ¬ W v i) :
    ∀ {m m' : Mem α}, parFor l m = .ok m' → mread m' v i = mread m v i := by
  induction l with
  | nil => intro m m' h; cases h; rfl
  | cons p l ih =>
    intro m m' hr
    rw [parFor_cons, Res.bind_eq_ok] at hr
    obtain ⟨m1, h1, h2⟩ := hr
    obtain ⟨R, W, hw, hn⟩ := h p (by simp)
    rw [ih (fun p hp => h p (by simp [hp])) h2, hw.run_frame h1 v i hn]

theorem parFor_write_comm {l : List (Prog α)} {v i : Nat} {y : α}
    (h : ∀ p ∈ l, ∃ R W : Nat → Nat → Prop, p.Within R W ∧ ¬ R v i ∧ ¬ W v i) :
    ∀ {m m1 m' : Mem α}, parFor l m = .ok m1 → mwrite m1 v i y = .ok m' →
      ∃ m2, mwrite m v i y = .ok m2 ∧ parFor l m2 = .ok m' := by
  induction l with
  | nil => intro m m1 m' h1 h2; cases h1; exact ⟨m', h2, rfl⟩
  | cons p l ih =>
    intro m m1 m' h1 h2
    rw [parFor_cons, Res.bind_eq_ok] at h1
    obtain ⟨m0, h3, h4⟩ := h1
    obtain ⟨m2, h5, h6⟩ := ih (fun p hp => h p (by simp [hp])) h4 h2
    obtain ⟨R, W, hw, hr, hn⟩ := h p (by simp)
    obtain ⟨m3, h7, h8⟩ := hw.run_write hr hn h3 h5
    exact ⟨m3, h7, by rw [parFor_cons, h8]; exact h6⟩

variable {R W : Nat → Nat → Nat → Prop}

theorem Disjoint'.step {ts us : List (Prog α)} {m m' : Mem α} (hd : Disjoint' R W ts) (h : ParStep ts m us m') :
    Disjoint' R W us := by
  refine ⟨?_, hd.2⟩
  cases h with
  | @step l r p p' m m' h =>
    intro j q hq
    by_cases hj : j = l.length
    · subst hj
      have h1 := hd.1 l.length p (by simp)
      have : q = p' := by simpa using hq.symm
      subst this
      exact h.within h1
    · apply hd.1 j q
      rw [← hq]
      rcases Nat.lt_or_ge j l.length with h2 | h2
      · rw [List.getElem?_append_left h2, List.getElem?_append_left h2]
      · rw [List.getElem?_append_right h2, List.getElem?_append_right h2]
        obtain ⟨d, hd⟩ : ∃ d, j - l.length = d + 1 := ⟨j - l.length - 1, by omega⟩
        rw [hd]; rfl

/-- One access of any task leaves the result of the sequential run unchanged. -/
theorem parFor_step {ts us : List (Prog α)} {m n m' : Mem α} (hd : Disjoint' R W ts) (h : ParStep ts m us n)
    (hs : parFor ts m = .ok m') : parFor us n = .ok m' := by
  cases h with
  | @step l r p p' m n h =>
  rw [parFor_append, Res.bind_eq_ok] at hs
  obtain ⟨m1, h1, h2⟩ := hs
  rw [parFor_cons, Res.bind_eq_ok] at h2
  obtain ⟨m2, h3, h4⟩ := h2
  have hl : ∀ q ∈ l, ∃ j, j ≠ l.length ∧ q.Within (R j) (W j) := by
    intro q hq
    obtain ⟨j, hj, rfl⟩ := List.mem_iff_getElem.1 hq
    refine ⟨j, by omega, hd.1 j _ ?_⟩
    rw [List.getElem?_append_left hj, List.getElem?_eq_getElem hj]
  have hp := hd.1 l.length p (by simp)
  cases h with
  | @read _ v i x k hx =>
    cases hp with
    | read hloc hk =>
    unfold Prog.run at h3
    rw [Res.bind_eq_ok] at h3
    obtain ⟨y, h5, h6⟩ := h3
    have : mread m1 v i = mread m v i := by
      refine parFor_frame (fun q hq => ?_) h1
      obtain ⟨j, hj, hw⟩ := hl q hq
      refine ⟨R j, W j, hw, fun hWj => ?_⟩
      have := hd.2 j l.length hj v i hWj
      exact hloc.elim this.1 this.2
    rw [this, hx] at h5
    cases h5
    rw [parFor_append, h1]
    show parFor (k x :: r) m1 = _
    rw [parFor_cons, h6]
    exact h4
  | @write _ _ v i x _ hx =>
    cases hp with
    | write hW hk =>
    unfold Prog.run at h3
    rw [Res.bind_eq_ok] at h3
    obtain ⟨m3, h5, h6⟩ := h3
    obtain ⟨m4, h7, h8⟩ := parFor_write_comm (l := l) (fun q hq => by
      obtain ⟨j, hj, hw⟩ := hl q hq
      have := hd.2 l.length j (Ne.symm hj) v i hW
      exact ⟨R j, W j, hw, this⟩) h1 h5
    rw [hx] at h7
    cases h7
    rw [parFor_append, h8]
    show parFor (p' :: r) m3 = _
    rw [parFor_cons, h6]
    exact h4

theorem parFor_exec {ts us : List (Prog α)} {m n m' : Mem α} (hd : Disjoint' R W ts) (h : ParExec ts m us n)
    (hs : parFor ts m = .ok m') : Disjoint' R W us ∧ parFor us n = .ok m' := by
  induction h with
  | refl => exact ⟨hd, hs⟩
  | tail _ h2 ih =>
    exact ⟨ih.1.step h2, parFor_step ih.1 h2 ih.2⟩

theorem parFor_done {ts : List (Prog α)} {m : Mem α} (h : Done ts) : parFor ts m = .ok m := by
  induction ts with
  | nil => rfl
  | cons p ts ih =>
    rw [h p (by simp), parFor_cons]
    exact ih (fun q hq => h q (by simp [hq]))

/-- when the sequential run succeeds, no interleaving throws -/
theorem parFor_no_throw {ts : List (Prog α)} {m m' : Mem α} (hd : Disjoint' R W ts) (hs : parFor ts m = .ok m') :
    ¬ Throws ts m := by
  rintro ⟨p, hp, hcase⟩
  obtain ⟨l, r, rfl⟩ := List.append_of_mem hp
  rw [parFor_append, Res.bind_eq_ok] at hs
  obtain ⟨m1, h1, h2⟩ := hs
  rw [parFor_cons, Res.bind_eq_ok] at h2
  obtain ⟨m2, h3, h4⟩ := h2
  have hl : ∀ q ∈ l, ∃ j, j ≠ l.length ∧ q.Within (R j) (W j) := by
    intro q hq
    obtain ⟨j, hj, rfl⟩ := List.mem_iff_getElem.1 hq
    refine ⟨j, by omega, hd.1 j _ ?_⟩
    rw [List.getElem?_append_left hj, List.getElem?_eq_getElem hj]
  have hp := hd.1 l.length p (by simp)
  rcases hcase with ⟨e, rfl⟩ | ⟨v, i, k, rfl, hno⟩ | ⟨v, i, x, k, rfl, hno⟩
  · cases h3
  · cases hp with
    | read hloc hk =>
    unfold Prog.run at h3
    rw [Res.bind_eq_ok] at h3
    obtain ⟨y, h5, h6⟩ := h3
    have : mread m1 v i = mread m v i := by
      refine parFor_frame (fun q hq => ?_) h1
      obtain ⟨j, hj, hw⟩ := hl q hq
      refine ⟨R j, W j, hw, fun hWj => ?_⟩
      have := hd.2 j l.length hj v i hWj
      exact hloc.elim this.1 this.2
    exact hno y (this ▸ h5)
  · cases hp with
    | write hW hk =>
    unfold Prog.run at h3
    rw [Res.bind_eq_ok] at h3
    obtain ⟨m3, h5, h6⟩ := h3
    obtain ⟨m4, h7, h8⟩ := parFor_write_comm (l := l) (fun q hq => by
      obtain ⟨j, hj, hw⟩ := hl q hq
      have := hd.2 l.length j (Ne.symm hj) v i hW
      exact ⟨R j, W j, hw, this⟩) h1 h5
    exact hno m4 h7

/-- an unfinished loop can always make a step, unless some task throws -/
theorem par_progress {ts : List (Prog α)} {m : Mem α} (hnd : ¬ Done ts) (hnt : ¬ Throws ts m) :
    ∃ us n, ParStep ts m us n := by
  have : ∃ p ∈ ts, p ≠ Prog.ret := by
    refine Classical.byContradiction fun hcon => hnd fun p hp => Classical.byContradiction fun hne => hcon ⟨p, hp, hne⟩
  obtain ⟨p, hp, hne⟩ := this
  obtain ⟨l, r, rfl⟩ := List.append_of_mem hp
  cases p with
  | ret => exact absurd rfl hne
  | fail e => exact absurd ⟨_, hp, Or.inl ⟨e, rfl⟩⟩ hnt
  | read v i k =>
    cases hx : mread m v i with
    | ok x => exact ⟨_, _, .step (.read hx)⟩
    | error e => exact absurd ⟨_, hp, Or.inr (Or.inl ⟨v, i, k, rfl, fun x h => by rw [hx] at h; cases h⟩)⟩ hnt
  | write v i x k =>
    cases hx : mwrite m v i x with
    | ok m' => exact ⟨_, _, .step (.write hx)⟩
    | error e => exact absurd ⟨_, hp, Or.inr (Or.inr ⟨v, i, x, k, rfl, fun x h => by rw [hx] at h; cases h⟩)⟩ hnt

end Homfa
