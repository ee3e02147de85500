import Verif.Model.Cpp
import Verif.Spec.Graph
import Mathlib.Tactic.Tauto
/-! Reasoning rules for the C++ fragment: bind, loops, vectors, sets, maps. -/

namespace Homfa

theorem Res.bind_ok {α β : Type _} (x : α) (f : α → Res β) : (Except.ok x >>= f : Res β) = f x := rfl
theorem Res.bind_err {α β : Type _} (e : Err) (f : α → Res β) : (Except.error e >>= f : Res β) = .error e := rfl
theorem Res.pure_eq {α : Type _} (x : α) : (pure x : Res α) = .ok x := rfl

theorem Res.bind_eq_ok {α β : Type _} {x : Res α} {f : α → Res β} {b : β} :
    (x >>= f) = .ok b ↔ ∃ a, x = .ok a ∧ f a = .ok b := by
  cases x with
  | error e => simp [Res.bind_err]
  | ok a => simp [Res.bind_ok]

theorem vat_lt {α : Type _} {v : List α} {i : Nat} (h : i < v.length) : vat v i = .ok v[i] := by
  simp [vat, h]

theorem vat_ge {α : Type _} {v : List α} {i : Nat} (h : v.length ≤ i) : vat v i = .error .outOfRange := by
  simp [vat, h]

theorem vat_eq_ok {α : Type _} {v : List α} {i : Nat} {x : α} : vat v i = .ok x ↔ v[i]? = some x := by
  unfold vat; split <;> simp_all

theorem vset_lt {α : Type _} {v : List α} {i : Nat} {x : α} (h : i < v.length) :
    vset v i x = .ok (v.set i x) := by simp [vset, h]

theorem vset_ge {α : Type _} {v : List α} {i : Nat} {x : α} (h : v.length ≤ i) :
    vset v i x = .error .outOfRange := by simp [vset]; omega

theorem vset_eq_ok {α : Type _} {v w : List α} {i : Nat} {x : α} :
    vset v i x = .ok w ↔ i < v.length ∧ w = v.set i x := by
  unfold vset; split
  · simp_all [eq_comm]
  · simp; omega

@[simp] theorem cassert_true : cassert true = .ok () := rfl
@[simp] theorem cassert_false : cassert false = .error .assertFail := rfl

/-- Invariant rule for `for (x : l)` loops. `I pre b` speaks about the processed prefix. -/
theorem foldlM_inv {α β : Type _} (I : List α → β → Prop) {f : β → α → Res β} (l : List α) {b : β}
    (h0 : I [] b)
    (hs : ∀ pre x post b, l = pre ++ x :: post → I pre b → ∃ b', f b x = .ok b' ∧ I (pre ++ [x]) b') :
    ∃ b', l.foldlM f b = .ok b' ∧ I l b' := by
  suffices H : ∀ (post pre : List α) (b : β), l = pre ++ post → I pre b →
      ∃ b', post.foldlM f b = .ok b' ∧ I l b' from H l [] b (by simp) h0
  intro post
  induction post with
  | nil => intro pre b hl hI; exact ⟨b, rfl, by simpa [hl] using hI⟩
  | cons x post ih =>
    intro pre b hl hI
    obtain ⟨b', h1, h2⟩ := hs pre x post b hl hI
    obtain ⟨b'', h3, h4⟩ := ih (pre ++ [x]) b' (by simp [hl]) h2
    exact ⟨b'', by rw [List.foldlM_cons, h1]; exact h3, h4⟩

/-- Invariant rule for loops over `0, …, n-1`. -/
theorem foldlM_range_inv {β : Type _} (I : Nat → β → Prop) {f : β → Nat → Res β} (n : Nat) {b : β}
    (h0 : I 0 b) (hs : ∀ i b, i < n → I i b → ∃ b', f b i = .ok b' ∧ I (i + 1) b') :
    ∃ b', (List.range n).foldlM f b = .ok b' ∧ I n b' := by
  induction n with
  | zero => exact ⟨b, rfl, h0⟩
  | succ n ih =>
    obtain ⟨b', h1, h2⟩ := ih (fun i b hi => hs i b (by omega))
    obtain ⟨b'', h3, h4⟩ := hs n b' (by omega) h2
    refine ⟨b'', ?_, h4⟩
    rw [List.range_succ, List.foldlM_append, h1]
    show (List.foldlM f b' [n]) = _
    rw [List.foldlM_cons, h3]; rfl

/-- Partial-correctness rule: if a loop returned, the invariant holds at the end. -/
theorem foldlM_ok_inv {α β : Type _} (I : List α → β → Prop) {f : β → α → Res β} {l : List α} {b b' : β}
    (h : l.foldlM f b = .ok b') (h0 : I [] b)
    (hs : ∀ pre x post b b', l = pre ++ x :: post → I pre b → f b x = .ok b' → I (pre ++ [x]) b') :
    I l b' := by
  suffices H : ∀ (post pre : List α) (b : β), l = pre ++ post → I pre b →
      post.foldlM f b = .ok b' → I l b' from H l [] b (by simp) h0 h
  intro post
  induction post with
  | nil =>
    intro pre b hl hI hb
    have : b = b' := by simpa [Res.pure_eq] using hb
    subst this; simpa [hl] using hI
  | cons x post ih =>
    intro pre b hl hI hb
    rw [List.foldlM_cons, Res.bind_eq_ok] at hb
    obtain ⟨b1, h1, h2⟩ := hb
    exact ih (pre ++ [x]) b1 (by simp [hl]) (hs _ _ _ _ _ hl hI h1) h2

/-- If every step is a pure function on the values it sees, the loop is a `foldl`. -/
theorem foldlM_pure {α β : Type _} {f : β → α → Res β} {g : β → α → β} (P : β → Prop) {l : List α} {b : β}
    (h0 : P b) (hs : ∀ b x, x ∈ l → P b → f b x = .ok (g b x) ∧ P (g b x)) :
    l.foldlM f b = .ok (l.foldl g b) ∧ P (l.foldl g b) := by
  induction l generalizing b with
  | nil => exact ⟨rfl, h0⟩
  | cons x l ih =>
    obtain ⟨h1, h2⟩ := hs b x (by simp) h0
    rw [List.foldlM_cons, h1]
    exact ih h2 (fun b y hy => hs b y (by simp [hy]))

/-- `mapM` of a function that never fails on the list. -/
theorem mapM_ok {α β : Type _} {f : α → Res β} {g : α → β} {l : List α} (h : ∀ x ∈ l, f x = .ok (g x)) :
    l.mapM f = .ok (l.map g) := by
  induction l with
  | nil => rfl
  | cons x l ih =>
    rw [List.mapM_cons, h x (by simp), Res.bind_ok, ih (fun y hy => h y (by simp [hy]))]; rfl

theorem foldlM_err {α β : Type _} {f : β → α → Res β} {l : List α} {b : β} {e : Err} (h : l.foldlM f b = .error e) :
    ∃ b x, x ∈ l ∧ f b x = .error e := by
  induction l generalizing b with
  | nil => simp [pure, Except.pure] at h
  | cons x l ih =>
    rw [List.foldlM_cons] at h
    cases hx : f b x with
    | error e' => rw [hx, Res.bind_err] at h; exact ⟨b, x, by simp, by rw [hx]; exact h⟩
    | ok y =>
      rw [hx, Res.bind_ok] at h
      obtain ⟨b', z, hz, he⟩ := ih h
      exact ⟨b', z, by simp [hz], he⟩

theorem vat_err {α : Type _} {v : List α} {i : Nat} {e : Err} (h : vat v i = .error e) : e = .outOfRange := by
  unfold vat at h; split at h <;> simp_all

theorem vset_err {α : Type _} {v : List α} {i : Nat} {x : α} {e : Err} (h : vset v i x = .error e) : e = .outOfRange := by
  unfold vset at h; split at h <;> simp_all

theorem Res.bind_eq_err {α β : Type _} {x : Res α} {f : α → Res β} {e : Err} :
    (x >>= f) = .error e ↔ x = .error e ∨ ∃ a, x = .ok a ∧ f a = .error e := by
  cases x with
  | error e' => simp [Res.bind_err]
  | ok a => simp [Res.bind_ok]

theorem mapM_err {α β : Type _} {f : α → Res β} {l : List α} {e : Err} (h : l.mapM f = .error e) : ∃ x ∈ l, f x = .error e := by
  induction l with
  | nil => simp [pure, Except.pure] at h
  | cons x l ih =>
    rw [List.mapM_cons] at h
    cases hx : f x with
    | error e' => rw [hx, Res.bind_err] at h; exact ⟨x, by simp, by rw [hx]; injection h with h; rw [h]⟩
    | ok y =>
      rw [hx, Res.bind_ok] at h
      cases hl : l.mapM f with
      | error e' =>
        rw [hl, Res.bind_err] at h
        obtain ⟨z, hz, he⟩ := ih (by rw [hl]; exact h)
        exact ⟨z, by simp [hz], he⟩
      | ok r => rw [hl, Res.bind_ok] at h; simp [Res.pure_eq] at h

theorem mapM_eq_ok {α β : Type _} {f : α → Res β} {l : List α} {r : List β} :
    l.mapM f = .ok r ↔ r.length = l.length ∧ ∀ i (h : i < l.length) (h' : i < r.length), f l[i] = .ok r[i] := by
  induction l generalizing r with
  | nil =>
    simp [Res.pure_eq, eq_comm]
  | cons x l ih =>
    rw [List.mapM_cons, Res.bind_eq_ok]
    constructor
    · rintro ⟨a, h1, h2⟩
      rw [Res.bind_eq_ok] at h2
      obtain ⟨as, h3, h4⟩ := h2
      cases h4
      obtain ⟨h5, h6⟩ := ih.1 h3
      refine ⟨by simp [h5], ?_⟩
      intro i h h'
      cases i with
      | zero => simpa using h1
      | succ i => simpa using h6 i (by simpa using h) (by simpa using h')
    · rintro ⟨h1, h2⟩
      cases r with
      | nil => simp at h1
      | cons y r =>
        refine ⟨y, h2 0 (by simp) (by simp), ?_⟩
        rw [Res.bind_eq_ok]
        refine ⟨r, ih.2 ⟨by simpa using h1, ?_⟩, rfl⟩
        intro i h h'
        exact h2 (i + 1) (by simpa using h) (by simpa using h')

/-- Total-correctness rule for `while`. -/
theorem whileM_inv {σ : Type _} {cond : σ → Bool} {body : σ → Res σ} (I : σ → Prop) (μ : σ → Nat)
    (hs : ∀ s, I s → cond s = true → ∃ s', body s = .ok s' ∧ I s' ∧ μ s' < μ s)
    {fuel : Nat} {s : σ} (hI : I s) (hf : μ s ≤ fuel) :
    ∃ s', whileM cond body fuel s = .ok s' ∧ I s' ∧ cond s' = false := by
  induction fuel generalizing s with
  | zero =>
    cases hc : cond s with
    | false => exact ⟨s, by simp [whileM, hc], hI, hc⟩
    | true => obtain ⟨s', _, _, h⟩ := hs s hI hc; omega
  | succ n ih =>
    cases hc : cond s with
    | false => exact ⟨s, by simp [whileM, hc], hI, hc⟩
    | true =>
      obtain ⟨s', h1, h2, h3⟩ := hs s hI hc
      obtain ⟨s'', h4, h5⟩ := ih h2 (by omega)
      exact ⟨s'', by simp only [whileM, hc, if_true, h1]; exact h4, h5⟩

/-- Rule for `while` loops whose body may fail: the loop terminates with the invariant, or with an error of the
body that satisfies `Q`. -/
theorem whileM_inv_err {σ : Type _} {cond : σ → Bool} {body : σ → Res σ} (I : σ → Prop) (Q : Err → Prop) (μ : σ → Nat)
    (hp : ∀ s, I s → cond s = true → 0 < μ s)
    (hs : ∀ s, I s → cond s = true →
      (∃ s', body s = .ok s' ∧ I s' ∧ μ s' < μ s) ∨ (∃ e, body s = .error e ∧ Q e))
    {fuel : Nat} {s : σ} (hI : I s) (hf : μ s ≤ fuel) :
    (∃ s', whileM cond body fuel s = .ok s' ∧ I s' ∧ cond s' = false) ∨
    (∃ e, whileM cond body fuel s = .error e ∧ Q e) := by
  induction fuel generalizing s with
  | zero =>
    cases hc : cond s with
    | false => exact .inl ⟨s, by simp [whileM, hc], hI, hc⟩
    | true =>
      rcases hs s hI hc with ⟨s', _, _, h⟩ | ⟨e, h1, h2⟩
      · omega
      · have := hp s hI hc
        omega
  | succ n ih =>
    cases hc : cond s with
    | false => exact .inl ⟨s, by simp [whileM, hc], hI, hc⟩
    | true =>
      rcases hs s hI hc with ⟨s', h1, h2, h3⟩ | ⟨e, h1, h2⟩
      · rcases ih h2 (by omega) with ⟨s'', h4, h5⟩ | ⟨e, h4, h5⟩
        · exact .inl ⟨s'', by simp only [whileM, hc, if_true, h1]; exact h4, h5⟩
        · exact .inr ⟨e, by simp only [whileM, hc, if_true, h1]; exact h4, h5⟩
      · exact .inr ⟨e, by simp only [whileM, hc, if_true, h1]; rfl, h2⟩

/-- Partial-correctness rule for `while`. -/
theorem whileM_ok_inv {σ : Type _} {cond : σ → Bool} {body : σ → Res σ} (I : σ → Prop)
    (hs : ∀ s s', I s → cond s = true → body s = .ok s' → I s')
    {fuel : Nat} {s s' : σ} (hI : I s) (h : whileM cond body fuel s = .ok s') :
    I s' ∧ cond s' = false := by
  induction fuel generalizing s with
  | zero =>
    unfold whileM at h
    split at h
    · simp at h
    · cases h; exact ⟨hI, by simp_all⟩
  | succ n ih =>
    unfold whileM at h
    split at h
    · cases hb : body s with
      | error e => simp [hb, Except.bind] at h
      | ok s1 =>
        rw [hb] at h
        exact ih (hs s s1 hI ‹_› hb) h
    · cases h; exact ⟨hI, by simp_all⟩

/-! ### `std::set<int>` -/

@[simp] theorem mem_sinsert {x y : Nat} {s : List Nat} : y ∈ sinsert x s ↔ y = x ∨ y ∈ s := by
  induction s with
  | nil => simp [sinsert]
  | cons z s ih =>
    unfold sinsert
    split
    · simp
    · split
      · subst_vars; simp
      · simp [ih]; tauto

theorem sorted_sinsert {x : Nat} {s : List Nat} (h : SSorted s) : SSorted (sinsert x s) := by
  induction s with
  | nil => simp [sinsert]
  | cons z s ih =>
    rw [SSorted, List.pairwise_cons] at h
    unfold sinsert
    split
    · refine List.pairwise_cons.2 ⟨?_, List.pairwise_cons.2 h⟩
      intro y hy
      rcases List.mem_cons.1 hy with rfl | hy
      · assumption
      · have := h.1 y hy; omega
    · split
      · exact List.pairwise_cons.2 h
      · refine List.pairwise_cons.2 ⟨?_, ih h.2⟩
        intro y hy
        rcases mem_sinsert.1 hy with rfl | hy
        · omega
        · exact h.1 y hy

@[simp] theorem mem_sinsertAll {y : Nat} {s xs : List Nat} : y ∈ sinsertAll s xs ↔ y ∈ s ∨ y ∈ xs := by
  unfold sinsertAll
  induction xs generalizing s with
  | nil => simp
  | cons x xs ih => simp [ih]; tauto

theorem sorted_sinsertAll {s xs : List Nat} (h : SSorted s) : SSorted (sinsertAll s xs) := by
  unfold sinsertAll
  induction xs generalizing s with
  | nil => exact h
  | cons x xs ih => exact ih (sorted_sinsert h)

/-- Two sets with the same elements are equal. -/
theorem SSorted.ext {s t : List Nat} (hs : SSorted s) (ht : SSorted t) (h : ∀ x, x ∈ s ↔ x ∈ t) : s = t := by
  induction s generalizing t with
  | nil =>
    cases t with
    | nil => rfl
    | cons y t => exact absurd ((h y).2 (by simp)) (by simp)
  | cons x s ih =>
    cases t with
    | nil => exact absurd ((h x).1 (by simp)) (by simp)
    | cons y t =>
      rw [SSorted, List.pairwise_cons] at hs ht
      have hxy : x = y := by
        rcases List.mem_cons.1 ((h x).1 (by simp)) with e | e
        · exact e
        · rcases List.mem_cons.1 ((h y).2 (by simp)) with e' | e'
          · exact e'.symm
          · have := hs.1 y e'; have := ht.1 x e; omega
      subst hxy
      congr 1
      refine ih hs.2 ht.2 (fun z => ?_)
      constructor
      · intro hz
        rcases List.mem_cons.1 ((h z).1 (by simp [hz])) with e | e
        · have := hs.1 z hz; omega
        · exact e
      · intro hz
        rcases List.mem_cons.1 ((h z).2 (by simp [hz])) with e | e
        · have := ht.1 z hz; omega
        · exact e

theorem SSorted.nodup {s : List Nat} (h : SSorted s) : s.Nodup :=
  h.imp (fun h => Nat.ne_of_lt h)

theorem ssorted_range (n : Nat) : SSorted (List.range n) := List.pairwise_lt_range

end Homfa
