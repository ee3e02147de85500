import Verif.Proof.CounterCalls

/-!
# The BTT runner does not look at its ciphertexts

`GAlike R p q`: whatever the library answers, `p` and `q` call the same functions in the same order, and end alike.
-/

namespace Homfa

variable {N n l : Nat} {α β γ δ σ ι : Type} {R : α → β → Prop} {Q : γ → δ → Prop}

inductive GAlike {α β : Type} (R : α → β → Prop) : GComp N n l α → GComp N n l β → Prop
  | ret {r : Res α} {r' : Res β} (h : Alike R r r') : GAlike R (.ret r) (.ret r')
  | call {c c' : GateCall N n l} {k : c.Ans → GComp N n l α} {k' : c'.Ans → GComp N n l β} (h : c.kind = c'.kind)
      (hk : ∀ a b, GAlike R (k a) (k' b)) : GAlike R (.call c k) (.call c' k')

namespace GAlike

theorem kinds_eq {p : GComp N n l α} {q : GComp N n l β} (h : GAlike R p q) (S S' : GateScheme N n l) : p.kinds S = q.kinds S' := by
  induction h with
  | ret h => rfl
  | @call c c' k k' h hk ih =>
    show c.kind :: (k (c.answer S)).kinds S = c'.kind :: (k' (c'.answer S')).kinds S'
    rw [h, ih]

theorem run_alike {p : GComp N n l α} {q : GComp N n l β} (h : GAlike R p q) (S S' : GateScheme N n l) : Alike R (p.run S) (q.run S') := by
  induction h with
  | ret h => exact h
  | call h hk ih => exact ih _ _

theorem mono {R' : α → β → Prop} {p : GComp N n l α} {q : GComp N n l β} (h : GAlike R p q) (hr : ∀ a b, R a b → R' a b) : GAlike R' p q := by
  induction h with
  | ret h => exact .ret (h.mono hr)
  | call h hk ih => exact .call h ih

theorem bind {x : GComp N n l α} {y : GComp N n l β} {f : α → GComp N n l γ} {g : β → GComp N n l δ} (h : GAlike R x y)
    (hf : ∀ a b, R a b → GAlike Q (f a) (g b)) : GAlike Q (x >>= f) (y >>= g) := by
  induction h with
  | @ret r r' h =>
    cases r <;> cases r' <;> simp only [Alike] at h
    · subst h; exact .ret rfl
    · exact hf _ _ h
  | call h hk ih => exact .call h ih

theorem bind_ret {x : Res α} {y : Res β} {f : α → GComp N n l γ} {g : β → GComp N n l δ} (h : Alike R x y)
    (hf : ∀ a b, R a b → GAlike Q (f a) (g b)) : GAlike Q ((.ret x : GComp N n l α) >>= f) ((.ret y : GComp N n l β) >>= g) :=
  GAlike.bind (.ret h) hf

theorem bind_same {x : Res α} {f : α → GComp N n l γ} {g : α → GComp N n l δ} (hf : ∀ a, GAlike Q (f a) (g a)) :
    GAlike Q ((.ret x : GComp N n l α) >>= f) ((.ret x : GComp N n l α) >>= g) :=
  .bind_ret (Alike.refl x) fun a b h => by subst h; exact hf a

theorem pure {a : α} {b : β} (h : R a b) : GAlike R (Pure.pure a : GComp N n l α) (Pure.pure b : GComp N n l β) := .ret h

theorem foldlM {ι κ : Type} {P : ι → κ → Prop} {f : α → ι → GComp N n l α} {g : β → κ → GComp N n l β} {xs : List ι} {ys : List κ}
    (h : List.Forall₂ P xs ys) (hf : ∀ a b x y, R a b → P x y → GAlike R (f a x) (g b y)) :
    ∀ {a : α} {b : β}, R a b → GAlike R (xs.foldlM f a) (ys.foldlM g b) := by
  induction h with
  | nil => intro a b hab; exact .pure hab
  | cons hp _ ih =>
    intro a b hab
    rw [List.foldlM_cons, List.foldlM_cons]
    exact (hf _ _ _ _ hab hp).bind fun _ _ h => ih h

theorem foldlM_same {ι : Type} {f : α → ι → GComp N n l α} {g : β → ι → GComp N n l β} (xs : List ι)
    (hf : ∀ a b x, R a b → GAlike R (f a x) (g b x)) {a : α} {b : β} (hab : R a b) : GAlike R (xs.foldlM f a) (xs.foldlM g b) := by
  refine GAlike.foldlM (P := (· = ·)) (List.forall₂_same.2 fun _ _ => rfl) ?_ hab
  rintro a b x _ h rfl
  exact hf a b x h

theorem gmap {ι κ : Type} {P : ι → κ → Prop} {f : ι → GComp N n l α} {g : κ → GComp N n l β} {xs : List ι} {ys : List κ}
    (h : List.Forall₂ P xs ys) (hf : ∀ x y, P x y → GAlike R (f x) (g y)) :
    GAlike (fun a b => List.Forall₂ R a b ∧ a.length = xs.length) (gmap f xs) (gmap g ys) := by
  induction h with
  | nil => exact .pure ⟨.nil, rfl⟩
  | cons hp _ ih => exact (hf _ _ hp).bind fun _ _ h => ih.bind fun _ _ h' => .pure ⟨.cons h h'.1, by simp [h'.2]⟩

theorem gmap_same {ι : Type} {f : ι → GComp N n l α} {g : ι → GComp N n l β} (xs : List ι)
    (hf : ∀ x ∈ xs, GAlike R (f x) (g x)) :
    GAlike (fun a b => List.Forall₂ R a b ∧ a.length = xs.length) (Homfa.gmap f xs) (Homfa.gmap g xs) := by
  refine GAlike.gmap (P := fun x y => x = y ∧ x ∈ xs) (List.forall₂_same.2 fun x hx => ⟨rfl, hx⟩) ?_
  rintro x _ ⟨rfl, hx⟩
  exact hf x hx

end GAlike

/-! ## Vectors -/

theorem vat_rel {xs : List α} {ys : List β} (h : List.Forall₂ R xs ys) (i : Nat) : Alike R (vat xs i) (vat ys i) := by
  induction h generalizing i with
  | nil => rfl
  | cons hp _ ih =>
    cases i with
    | zero => exact hp
    | succ i => simpa [vat] using ih i

theorem set_rel {xs : List α} {ys : List β} (h : List.Forall₂ R xs ys) (i : Nat) {x : α} {y : β} (hxy : R x y) :
    List.Forall₂ R (xs.set i x) (ys.set i y) := by
  induction h generalizing i with
  | nil => exact .nil
  | cons hp ht ih =>
    cases i with
    | zero => exact .cons hxy ht
    | succ i => exact .cons hp (ih i)

theorem vset_rel {xs : List α} {ys : List β} (h : List.Forall₂ R xs ys) (i : Nat) {x : α} {y : β} (hxy : R x y) :
    Alike (List.Forall₂ R) (vset xs i x) (vset ys i y) := by
  unfold vset
  rw [h.length_eq]
  split
  · exact set_rel h i hxy
  · rfl

theorem replicate_rel (k : Nat) {x : α} {y : β} (hxy : R x y) : List.Forall₂ R (List.replicate k x) (List.replicate k y) := by
  induction k with
  | zero => exact .nil
  | succ k ih => exact .cons hxy ih

theorem append_rel {xs xs' : List α} {ys ys' : List β} (h : List.Forall₂ R xs ys) (h' : List.Forall₂ R xs' ys') :
    List.Forall₂ R (xs ++ xs') (ys ++ ys') := by
  induction h with
  | nil => exact h'
  | cons hp _ ih => exact .cons hp ih

theorem take_rel {xs : List α} {ys : List β} (h : List.Forall₂ R xs ys) (k : Nat) : List.Forall₂ R (xs.take k) (ys.take k) := by
  induction h generalizing k with
  | nil => simp
  | cons hp _ ih =>
    cases k with
    | zero => simp
    | succ k => exact .cons hp (ih k)

theorem vresize_rel {xs : List α} {ys : List β} (h : List.Forall₂ R xs ys) (k : Nat) {x : α} {y : β} (hxy : R x y) :
    List.Forall₂ R (vresize xs k x) (vresize ys k y) := by
  unfold vresize
  rw [h.length_eq]
  exact append_rel (take_rel h k) (replicate_rel _ hxy)

theorem mapM_rel {ι κ : Type} {P : ι → κ → Prop} {f : ι → Res α} {g : κ → Res β} {xs : List ι} {ys : List κ}
    (h : List.Forall₂ P xs ys) (hf : ∀ x y, P x y → Alike R (f x) (g y)) : Alike (List.Forall₂ R) (xs.mapM f) (ys.mapM g) := by
  induction h with
  | nil => exact List.Forall₂.nil
  | cons hp _ ih =>
    rw [List.mapM_cons, List.mapM_cons]
    exact (hf _ _ hp).bind fun _ _ h => ih.bind fun _ _ h' => Alike.pure (.cons h h')

theorem any_rel {xs : List α} {ys : List β} (h : xs.length = ys.length) : List.Forall₂ (fun _ _ => True) xs ys := by
  induction xs generalizing ys with
  | nil => cases ys with
    | nil => exact .nil
    | cons => simp at h
  | cons x xs ih => cases ys with
    | nil => simp at h
    | cons y ys => exact .cons trivial (ih (by simpa using h))

/-- related vectors -/
abbrev MemRel (R : α → β → Prop) (m : Mem α) (m' : Mem β) : Prop := List.Forall₂ (List.Forall₂ R) m m'

theorem mread_rel {m : Mem α} {m' : Mem β} (h : MemRel R m m') (v i : Nat) : Alike R (mread m v i) (mread m' v i) := by
  have := vat_rel h v
  unfold vat at this
  unfold mread
  cases e : m[v]? <;> cases e' : m'[v]? <;> rw [e, e'] at this <;> simp only [Alike] at this
  · rfl
  · exact vat_rel this i

theorem mwrite_rel {m : Mem α} {m' : Mem β} (h : MemRel R m m') (v i : Nat) {x : α} {y : β} (hxy : R x y) :
    Alike (MemRel R) (mwrite m v i x) (mwrite m' v i y) := by
  have := vat_rel h v
  unfold vat at this
  unfold mwrite
  cases e : m[v]? <;> cases e' : m'[v]? <;> rw [e, e'] at this <;> simp only [Alike] at this
  · rfl
  · exact (vset_rel this i hxy).bind fun _ _ hab => Alike.pure (set_rel h v hab)

theorem one_rel {m : Mem α} {m' : Mem β} (h : MemRel R m m') : Alike (List.Forall₂ R) (one m) (one m') := by
  cases h with
  | nil => rfl
  | cons h1 h => cases h with
    | nil => exact h1
    | cons => rfl

theorem two_rel {m : Mem α} {m' : Mem β} (h : MemRel R m m') :
    Alike (fun p q => List.Forall₂ R p.1 q.1 ∧ List.Forall₂ R p.2 q.2) (two m) (two m') := by
  cases h with
  | nil => rfl
  | cons h1 h => cases h with
    | nil => rfl
    | cons h2 h => cases h with
      | nil => exact ⟨h1, h2⟩
      | cons => rfl

/-! ## Counters -/

/-- equal up to the ciphertexts, with as many ciphertexts as bits -/
structure Counter.Same (c c' : Counter N) : Prop where
  width : c.width = c'.width
  init : c.init = c'.init
  len : c.c.length = c.width
  len' : c'.c.length = c'.width

theorem Counter.Same.length {c c' : Counter N} (h : c.Same c') : c.c.length = c'.c.length := by rw [h.len, h.len', h.width]

/-- with a counter of width `w` -/
def Counter.SameW (w : Nat) (c c' : Counter N) : Prop := c.Same c' ∧ c.width = w

theorem foldlM_vset_length {xs : List ι} {f : ι → List α → Res (List α)} (hf : ∀ i c c', f i c = .ok c' → c'.length = c.length)
    {c c' : List α} (h : xs.foldlM (fun c i => f i c) c = .ok c') : c'.length = c.length := by
  induction xs generalizing c with
  | nil => cases h; rfl
  | cons x xs ih =>
    rw [List.foldlM_cons] at h
    obtain ⟨d, h1, h2⟩ := Res.bind_eq_ok.1 h
    rw [ih h2, hf _ _ _ h1]

theorem vset_length {xs ys : List α} {i : Nat} {x : α} (h : vset xs i x = .ok ys) : ys.length = xs.length := by
  unfold vset at h
  split at h
  · cases h; simp
  · cases h

theorem Counter.reset_alike {c c' : Counter N} (hw : c.width = c'.width) (hi : c.init = c'.init) : Alike Counter.Same c.reset c'.reset := by
  obtain ⟨c, w, i⟩ := c
  obtain ⟨c', w', i'⟩ := c'
  dsimp only at hw hi
  subst hw hi
  unfold Counter.reset
  dsimp only
  refine (Alike.foldlM_same (R := fun c c' : List (TRLWE N) => c.length = w ∧ c'.length = w) _ ?_ ⟨by simp [vresize]; omega, by simp [vresize]; omega⟩).bind
    fun a b h => Alike.pure ⟨rfl, rfl, h.1, h.2⟩
  intro a b j ⟨h1, h2⟩
  refine Alike.bind_same fun bit => ?_
  have := vset_alike (h1.trans h2.symm) j (if bit then trivialTRLWE8 N else trivialTRLWEMinus8 N) (if bit then trivialTRLWE8 N else trivialTRLWEMinus8 N)
  cases e : vset a j (if bit then trivialTRLWE8 N else trivialTRLWEMinus8 N) <;> cases e' : vset b j (if bit then trivialTRLWE8 N else trivialTRLWEMinus8 N) <;>
    rw [e, e'] at this <;> simp only [Alike] at this ⊢
  · exact this
  · exact ⟨(vset_length e).trans h1, (vset_length e').trans h2⟩

theorem Counter.make_alike (w : Nat) (i : BitVec 64) : Alike (Counter.SameW (N := N) w) (Counter.make w i) (Counter.make w i) := by
  have := Counter.reset_alike (N := N) (c := ⟨[], w, i⟩) (c' := ⟨[], w, i⟩) rfl rfl
  unfold Counter.make
  cases e : Counter.reset (N := N) ⟨[], w, i⟩ with
  | error => rfl
  | ok c =>
    rw [e] at this
    refine ⟨this, ?_⟩
    unfold Counter.reset at e
    obtain ⟨d, -, e⟩ := Res.bind_eq_ok.1 e
    cases e
    rfl

theorem gcmux_alike (g g' : Gsw l N) (a a' b b' : TRLWE N) : GAlike (fun _ _ => True) (gcmux g a b : GComp N n l _) (gcmux g' a' b') :=
  .call rfl fun _ _ => .ret trivial
theorem giks_alike (c c' : TLWE N) : GAlike (fun _ _ => True) (giks c : GComp N n l _) (giks c') := .call rfl fun _ _ => .ret trivial
theorem gxor_alike (x x' y y' : TLWE n) : GAlike (fun _ _ => True) (gxor x y : GComp N n l _) (gxor x' y') := .call rfl fun _ _ => .ret trivial
theorem gor_alike (x x' y y' : TLWE n) : GAlike (fun _ _ => True) (gor x y : GComp N n l _) (gor x' y') := .call rfl fun _ _ => .ret trivial
theorem gandny_alike (x x' y y' : TLWE n) : GAlike (fun _ _ => True) (gandny x y : GComp N n l _) (gandny x' y') := .call rfl fun _ _ => .ret trivial
theorem gcb_alike (c c' : TLWE n) : GAlike (fun _ _ => True) (gcb c : GComp N n l _) (gcb c') := .call rfl fun _ _ => .ret trivial

theorem bitToLvl0C_alike (c c' : TRLWE N) : GAlike (fun _ _ => True) (bitToLvl0C c : GComp N n l _) (bitToLvl0C c') :=
  .bind_ret (sampleExtractAt_alike c c' 0) fun _ _ _ => giks_alike _ _

/-- `k` OR gates -/
def ors : Nat → GComp N n l (TLWE n) → Prop
  | 0, p => ∃ x, p = .ret (.ok x)
  | k + 1, p => ∃ x y f, p = .call (.homOR x y) f ∧ ∀ a, ors k (f a)

theorem ors_alike {k : Nat} {p p' : GComp N n l (TLWE n)} (h : ors k p) (h' : ors k p') : GAlike (fun _ _ => True) p p' := by
  induction k generalizing p p' with
  | zero =>
    obtain ⟨x, rfl⟩ := h
    obtain ⟨x', rfl⟩ := h'
    exact .ret trivial
  | succ k ih =>
    obtain ⟨x, y, f, rfl, hf⟩ := h
    obtain ⟨x', y', f', rfl, hf'⟩ := h'
    exact .call rfl fun a b => ih (hf a) (hf' b)

theorem ors_bind {j k : Nat} {p : GComp N n l (TLWE n)} {f : TLWE n → GComp N n l (TLWE n)} (h : ors j p) (hf : ∀ a, ors k (f a)) :
    ors (j + k) (p >>= f) := by
  induction j generalizing p with
  | zero =>
    obtain ⟨x, rfl⟩ := h
    rw [Nat.zero_add]
    exact hf x
  | succ j ih =>
    obtain ⟨x, y, g, rfl, hg⟩ := h
    rw [Nat.succ_add]
    exact ⟨x, y, fun a => g a >>= f, rfl, fun a => ih (hg a)⟩

theorem RedTree.evalC_ors (vals : List (TLWE n)) (t : RedTree) (h : ∀ i ∈ t.leaves, i < vals.length) :
    1 ≤ t.leaves.length ∧ ors (t.leaves.length - 1) (t.evalC vals : GComp N n l _) := by
  induction t with
  | leaf i =>
    have hi : i < vals.length := h i (by simp [RedTree.leaves])
    exact ⟨by simp [RedTree.leaves], vals[i], by simp [RedTree.evalC, vat, hi]⟩
  | node a b iha ihb =>
    obtain ⟨a1, a2⟩ := iha fun i hi => h i (by simp [RedTree.leaves, hi])
    obtain ⟨b1, b2⟩ := ihb fun i hi => h i (by simp [RedTree.leaves, hi])
    simp only [RedTree.leaves, List.length_append]
    refine ⟨by omega, ?_⟩
    rw [show a.leaves.length + b.leaves.length - 1 = (a.leaves.length - 1) + ((b.leaves.length - 1) + 1) by omega]
    refine ors_bind a2 fun x => ors_bind b2 fun y => ?_
    exact ⟨x, y, _, rfl, fun a => ⟨a, rfl⟩⟩

theorem RedTree.Valid.ors {t : RedTree} {vals : List (TLWE n)} (h : t.Valid vals.length) :
    ors (vals.length - 1) (t.evalC vals : GComp N n l _) := by
  have := (RedTree.evalC_ors (N := N) (l := l) vals t fun i hi => by simpa using h.mem_iff.1 hi).2
  rwa [h.length_eq, List.length_range] at this

theorem Counter.isZeroC_alike {w : Nat} {c c' : Counter N} (h : c.SameW w c') {t t' : RedTree} (ht : t.Valid (w + 1)) (ht' : t'.Valid (w + 1)) :
    GAlike (fun _ _ => True) (c.isZeroC t : GComp N n l _) (c'.isZeroC t') := by
  unfold Counter.isZeroC
  have h1 : c.c.length = w := h.1.len.trans h.2
  have h2 : c'.c.length = w := h.1.length ▸ h1
  refine (GAlike.gmap (P := fun _ _ => True) (R := fun _ _ => True) (any_rel h.1.length) fun x y _ => bitToLvl0C_alike x y).bind fun ts ts' hts => ?_
  have l1 : (trivialTLWEMinus8 n :: ts).length = w + 1 := by simp [hts.2, h1]
  have l2 : (trivialTLWEMinus8 n :: ts').length = w + 1 := by simp [← hts.1.length_eq, hts.2, h1]
  have o1 := RedTree.Valid.ors (N := N) (l := l) (l1.symm ▸ ht)
  have o2 := RedTree.Valid.ors (N := N) (l := l) (l2.symm ▸ ht')
  rw [l1] at o1
  rw [l2] at o2
  exact (ors_alike o1 o2).bind fun _ _ _ => .pure trivial

theorem minusTaskC_alike {memo memo' : List (TLWE n)} (hm : memo.length = memo'.length) {m m' : Mem (TRLWE N)} (h : SameShape m m') (i : Nat) :
    GAlike SameShape (minusTaskC memo m i : GComp N n l _) (minusTaskC memo' m' i) :=
  .bind_ret (vat_alike hm _) fun _ _ _ => .bind_ret (vat_alike hm _) fun _ _ _ => (gxor_alike _ _ _ _).bind fun _ _ _ =>
    .ret (mwrite_alike h 0 i _ _)

/-- one vector of length `w` -/
def OneOf (w : Nat) (m m' : Mem (TRLWE N)) : Prop := ∃ c c', m = [c] ∧ m' = [c'] ∧ c.length = w ∧ c'.length = w

theorem minusTaskC_one {memo memo' : List (TLWE n)} (hm : memo.length = memo'.length) {w : Nat} {m m' : Mem (TRLWE N)} (h : OneOf w m m') (i : Nat) :
    GAlike (OneOf w) (minusTaskC memo m i : GComp N n l _) (minusTaskC memo' m' i) := by
  obtain ⟨c, c', rfl, rfl, h1, h2⟩ := h
  refine .bind_ret (vat_alike hm _) fun _ _ _ => .bind_ret (vat_alike hm _) fun _ _ _ => (gxor_alike _ _ _ _).bind fun x y _ => .ret ?_
  simp only [mwrite, List.getElem?_cons_zero]
  have := vset_alike (h1.trans h2.symm) i x y
  cases e : vset c i x <;> cases e' : vset c' i y <;> rw [e, e'] at this <;> simp only [Alike] at this
  · exact this
  · exact ⟨_, _, rfl, rfl, (vset_length e).trans h1, (vset_length e').trans h2⟩

theorem borrowC_alike {c c' : Counter N} (h : c.Same c') {p p' : List (TLWE n) × TLWE n} (hp : p.1.length = p'.1.length) (i : Nat) :
    GAlike (fun p p' => p.1.length = p'.1.length) (borrowC c p i : GComp N n l _) (borrowC c' p' i) :=
  .bind_ret (vat_alike h.length i) fun _ _ _ => (bitToLvl0C_alike _ _).bind fun _ _ _ => (gandny_alike _ _ _ _).bind fun _ _ _ =>
    .pure (by simp [hp])

theorem Counter.minusOneC_alike {w : Nat} {c c' : Counter N} (h : c.SameW w c') (b b' : TLWE n) :
    GAlike (Counter.SameW w) (c.minusOneC b : GComp N n l _) (c'.minusOneC b') := by
  unfold Counter.minusOneC
  obtain ⟨h, hw⟩ := h
  rw [← h.width]
  refine GAlike.bind (R := fun (p p' : List (TLWE n) × TLWE n) => p.1.length = p'.1.length)
    (GAlike.foldlM_same _ (fun _ _ i hp => borrowC_alike h hp i) rfl) fun p p' hp => ?_
  refine (GAlike.foldlM_same (R := OneOf w) _ (fun _ _ i hm => minusTaskC_one hp hm i) ⟨_, _, rfl, rfl, h.len.trans hw, h.length ▸ h.len.trans hw⟩).bind
    fun m m' hm => ?_
  obtain ⟨d, d', rfl, rfl, h1, h2⟩ := hm
  exact .pure ⟨⟨rfl, h.init, h1.trans hw.symm, h2.trans hw.symm⟩, hw⟩

theorem Counter.cmuxC_alike {w : Nat} {o o' a a' b b' : Counter N} (ho : o.SameW w o') (ha : a.SameW w a') (hb : b.SameW w b') (g g' : Gsw l N) :
    GAlike (Counter.SameW w) (o.cmuxC g a b : GComp N n l _) (o'.cmuxC g' a' b') := by
  unfold Counter.cmuxC
  have lo : o.c.length = w := ho.1.len.trans ho.2
  have lo' : o'.c.length = w := ho.1.length ▸ lo
  rw [lo, lo', ha.1.length, hb.1.length]
  refine .bind_same fun _ => .bind_same fun _ => ?_
  refine (GAlike.foldlM_same (R := fun c c' : List (TRLWE N) => c.length = w ∧ c'.length = w) _ ?_ ⟨lo, lo'⟩).bind
    fun c c' hc => .pure ⟨⟨ho.1.width, ho.1.init, hc.1.trans ho.2.symm, hc.2.trans (ho.1.width ▸ ho.2.symm)⟩, ho.2⟩
  intro c c' i ⟨h1, h2⟩
  refine .bind_ret (vat_alike ha.1.length i) fun _ _ _ => .bind_ret (vat_alike hb.1.length i) fun _ _ _ => (gcmux_alike _ _ _ _ _ _).bind fun x y _ => .ret ?_
  have := vset_alike (h1.trans h2.symm) i x y
  cases e : vset c i x <;> cases e' : vset c' i y <;> rw [e, e'] at this <;> simp only [Alike] at this
  · exact this
  · exact ⟨(vset_length e).trans h1, (vset_length e').trans h2⟩

/-! ## Weights -/

/-- counters of the widths `ws`, equal up to the ciphertexts -/
def CtrsSame (ws : List Nat) (cs cs' : List (Counter N)) : Prop :=
  cs.length = ws.length ∧ cs'.length = ws.length ∧
  ∀ (i : Nat) (w : Nat) (c c' : Counter N), ws[i]? = some w → cs[i]? = some c → cs'[i]? = some c' → c.SameW w c'

def Weight.Same (ws : List Nat) (w w' : Weight N) : Prop := CtrsSame ws w.counter w'.counter

theorem CtrsSame.vat {ws : List Nat} {cs cs' : List (Counter N)} (h : CtrsSame ws cs cs') (i : Nat) :
    Alike (fun c c' => ∃ w, ws[i]? = some w ∧ c.SameW w c') (vat cs i) (vat cs' i) := by
  obtain ⟨h1, h2, h3⟩ := h
  unfold Homfa.vat
  by_cases hi : i < ws.length
  · have e1 : cs[i]? = some cs[i] := List.getElem?_eq_getElem (by omega)
    have e2 : cs'[i]? = some cs'[i] := List.getElem?_eq_getElem (by omega)
    rw [e1, e2]
    exact ⟨ws[i], List.getElem?_eq_getElem hi, h3 i _ _ _ (List.getElem?_eq_getElem hi) e1 e2⟩
  · rw [List.getElem?_eq_none (l := cs) (by omega), List.getElem?_eq_none (l := cs') (by omega)]
    rfl

theorem CtrsSame.vset {ws : List Nat} {cs cs' : List (Counter N)} (h : CtrsSame ws cs cs') {i w : Nat} (hw : ws[i]? = some w) {c c' : Counter N}
    (hc : c.SameW w c') : Alike (CtrsSame ws) (vset cs i c) (vset cs' i c') := by
  obtain ⟨h1, h2, h3⟩ := h
  have hi : i < ws.length := (List.getElem?_eq_some_iff.1 hw).1
  unfold Homfa.vset
  rw [if_pos (by omega), if_pos (by omega)]
  refine ⟨by simpa using h1, by simpa using h2, ?_⟩
  intro j v d d' e e1 e2
  by_cases hj : i = j
  · subst hj
    rw [hw] at e
    cases e
    rw [List.getElem?_set_self (by omega)] at e1 e2
    cases e1; cases e2
    exact hc
  · rw [List.getElem?_set_ne hj] at e1 e2
    exact h3 j v d d' e e1 e2

theorem Weight.mark_alike {ws : List Nat} {w w' : Weight N} (h : Weight.Same ws w w') (i : Nat) : Alike (Weight.Same ws) (w.mark i) (w'.mark i) :=
  Alike.bind_same fun _ => Alike.pure h

theorem Weight.fromSrc_alike {ws : List Nat} (s : BitVec 64) {w w' : Weight N} (h : Weight.Same ws w w') :
    Alike (Weight.Same ws) (Weight.fromSrc s w) (Weight.fromSrc s w') := by
  unfold Weight.fromSrc
  rw [h.1, h.2.1]
  exact Alike.bind_same fun _ => Alike.pure h

theorem Weight.resetCounter_alike {ws : List Nat} {w w' : Weight N} (h : Weight.Same ws w w') (i : Nat) :
    Alike (Weight.Same ws) (w.resetCounter i) (w'.resetCounter i) := by
  unfold Weight.resetCounter
  refine (CtrsSame.vat h i).bind fun c c' hc => ?_
  obtain ⟨k, hk, hc⟩ := hc
  have hr : Alike (fun d d' => d.SameW k d') c.reset c'.reset := by
    have := Counter.reset_alike hc.1.width hc.1.init
    cases e : c.reset <;> cases e' : c'.reset <;> rw [e, e'] at this <;> simp only [Alike] at this
    · exact this
    · refine ⟨this, ?_⟩
      unfold Counter.reset at e
      obtain ⟨d, -, e⟩ := Res.bind_eq_ok.1 e
      cases e
      exact hc.2
  exact hr.bind fun d d' hd => (CtrsSame.vset h hk hd).bind fun _ _ hcs => Alike.pure hcs

theorem alterWeight_alike {ws : List Nat} {w w' : Weight N} (h : Weight.Same ws w w') (acc : Bool) (reset inc : List Nat) :
    Alike (Weight.Same ws) (alterWeight w acc reset inc) (alterWeight w' acc reset inc) := by
  unfold alterWeight
  refine Alike.bind (R := Weight.Same ws) ?_ fun a a' ha => ?_
  · cases acc
    · exact Alike.pure h
    · exact Weight.mark_alike h 0
  · refine (Alike.foldlM_same (R := Weight.Same ws) reset (fun _ _ i h => Weight.resetCounter_alike h i) ha).bind fun b b' hb => ?_
    exact Alike.foldlM_same (R := Weight.Same ws) inc (fun _ _ i h => Weight.mark_alike h (N / 2 + i)) hb

theorem Weight.cmuxC_alike {ws : List Nat} {o o' a a' b b' : Weight N} (ho : Weight.Same ws o o') (ha : Weight.Same ws a a')
    (hb : Weight.Same ws b b') (g g' : Gsw l N) : GAlike (Weight.Same ws) (o.cmuxC g a b : GComp N n l _) (o'.cmuxC g' a' b') := by
  unfold Weight.cmuxC
  rw [ho.1, ho.2.1, ha.1, ha.2.1, hb.1, hb.2.1]
  refine .bind_same fun _ => .bind_same fun _ => (gcmux_alike _ _ _ _ _ _).bind fun x y _ => ?_
  refine (GAlike.foldlM_same (R := CtrsSame ws) _ ?_ ho).bind fun _ _ h => .pure h
  intro cs cs' i h
  refine .bind_ret (h.vat i) fun c c' ⟨w, hw, hc⟩ => ?_
  refine .bind_ret (CtrsSame.vat ha i) fun d d' ⟨w', hw', hd⟩ => ?_
  refine .bind_ret (CtrsSame.vat hb i) fun e e' ⟨w'', hw'', he⟩ => ?_
  cases hw.symm.trans hw'
  cases hw.symm.trans hw''
  exact (Counter.cmuxC_alike hc hd he g g').bind fun _ _ hx => .ret (h.vset hw hx)

theorem Weight.conditionsC_alike {ws : List Nat} {w w' : Weight N} (h : Weight.Same ws w w') {t t' : Nat → RedTree}
    (ht : ∀ i k, ws[i]? = some k → (t i).Valid (k + 1)) (ht' : ∀ i k, ws[i]? = some k → (t' i).Valid (k + 1)) :
    GAlike (fun a b => List.Forall₂ (fun _ _ => True) a b) (w.conditionsC t : GComp N n l _) (w'.conditionsC t') := by
  unfold Weight.conditionsC
  rw [h.1, h.2.1]
  have : GAlike (fun a b => List.Forall₂ (fun _ _ => True) a b ∧ a.length = (List.range ws.length).length)
      (gmap (fun i => do
        let c ← .ret (Homfa.vat w.counter i)
        let t ← c.isZeroC (t i)
        gcb t) (List.range ws.length) : GComp N n l (List (Gsw l N)))
      (gmap (fun i => do
        let c ← .ret (Homfa.vat w'.counter i)
        let t ← c.isZeroC (t' i)
        gcb t) (List.range ws.length)) := by
    refine GAlike.gmap_same _ fun i hi => ?_
    refine .bind_ret (CtrsSame.vat h i) fun c c' ⟨k, hk, hc⟩ => ?_
    exact (Counter.isZeroC_alike hc (ht i k hk) (ht' i k hk)).bind fun _ _ _ => gcb_alike _ _
  exact this.mono fun _ _ h => h.1

theorem Weight.selectorsC_alike (w w' : Weight N) (k : Nat) :
    GAlike (fun a b => List.Forall₂ (fun _ _ => True) a b) (w.selectorsC k : GComp N n l _) (w'.selectorsC k) := by
  unfold Weight.selectorsC
  refine (GAlike.gmap_same (R := fun _ _ => True) _ fun i hi => ?_).mono fun _ _ h => h.1
  exact .bind_ret (sampleExtractAt_alike _ _ _) fun _ _ _ => (giks_alike _ _).bind fun _ _ _ => gcb_alike _ _

/-- the counters as the only vector -/
def OneCtrs (ws : List Nat) (m m' : Mem (Counter N)) : Prop := ∃ cs cs', m = [cs] ∧ m' = [cs'] ∧ CtrsSame ws cs cs'

theorem updateTaskC_alike {ws : List Nat} (g g' : TRLWE N) {m m' : Mem (Counter N)} (h : OneCtrs ws m m') (i : Nat) :
    GAlike (OneCtrs ws) (updateTaskC g m i : GComp N n l _) (updateTaskC g' m' i) := by
  obtain ⟨cs, cs', rfl, rfl, h⟩ := h
  unfold updateTaskC
  refine .bind_ret (sampleExtractAt_alike _ _ _) fun x x' _ => ?_
  refine .bind_ret (h.vat i) fun c c' ⟨k, hk, hc⟩ => ?_
  refine (giks_alike _ _).bind fun b b' _ => (Counter.minusOneC_alike hc b b').bind fun d d' hd => .ret ?_
  simp only [mwrite, List.getElem?_cons_zero]
  exact (h.vset hk hd).bind fun _ _ h => Alike.pure ⟨_, _, rfl, rfl, h⟩

theorem Weight.updateCountersC_alike {ws : List Nat} {w w' : Weight N} (h : Weight.Same ws w w') :
    GAlike (Weight.Same ws) (w.updateCountersC : GComp N n l _) w'.updateCountersC := by
  unfold Weight.updateCountersC
  rw [h.1, h.2.1]
  refine (GAlike.foldlM_same (R := OneCtrs ws) _ (fun _ _ i h => updateTaskC_alike _ _ h i) ⟨_, _, rfl, rfl, h⟩).bind fun m m' hm => ?_
  obtain ⟨cs, cs', rfl, rfl, h⟩ := hm
  exact .pure h

theorem wlutTaskC_alike {ws : List Nat} (g g' : Gsw l N) {m m' : Mem (Weight N)} (h : MemRel (Weight.Same ws) m m') (j : Nat) :
    GAlike (MemRel (Weight.Same ws)) (wlutTaskC g m j : GComp N n l _) (wlutTaskC g' m' j) :=
  .bind_ret (mread_rel h _ _) fun _ _ h1 => .bind_ret (mread_rel h _ _) fun _ _ h2 => .bind_ret (mread_rel h _ _) fun _ _ h3 =>
    (Weight.cmuxC_alike h1 h2 h3 g g').bind fun _ _ h4 => .ret (mwrite_rel h _ _ h4)

theorem wlutLoopC_alike {ws : List Nat} (k : Nat) {cs cs' : List (Gsw l N)} (hc : List.Forall₂ (fun _ _ => True) cs cs') :
    ∀ (i : Nat) {tmp tmp' table table' : List (Weight N)}, List.Forall₂ (Weight.Same ws) tmp tmp' → List.Forall₂ (Weight.Same ws) table table' →
    GAlike (fun p q => List.Forall₂ (Weight.Same ws) p.2 q.2) (wlutLoopC k cs i tmp table : GComp N n l _) (wlutLoopC k cs' i tmp' table') := by
  induction hc with
  | nil => intro i tmp tmp' table table' h1 h2; exact .pure h2
  | cons _ _ ih =>
    intro i tmp tmp' table table' h1 h2
    rw [wlutLoopC, wlutLoopC]
    refine .bind_same fun cnt => ?_
    refine (GAlike.foldlM_same (R := MemRel (Weight.Same ws)) _ (fun _ _ j h => wlutTaskC_alike _ _ h j) (.cons h1 (.cons h2 .nil))).bind fun m m' hm => ?_
    exact .bind_ret (two_rel hm) fun p p' hp => ih _ hp.2 hp.1

theorem wlookupTableC_alike {ws : List Nat} {cs cs' : List (Gsw l N)} (hc : List.Forall₂ (fun _ _ => True) cs cs') {table table' : List (Weight N)}
    (h : List.Forall₂ (Weight.Same ws) table table') :
    GAlike (List.Forall₂ (Weight.Same ws)) (wlookupTableC table cs : GComp N n l _) (wlookupTableC table' cs') := by
  unfold wlookupTableC
  rw [hc.length_eq, h.length_eq]
  refine .bind_same fun sz => .bind_same fun _ => ?_
  split
  · exact .pure h
  · refine .bind_same fun half => .bind_ret (vat_rel h 0) fun d d' hd => ?_
    exact (wlutLoopC_alike _ hc 0 (replicate_rel half hd) h).bind fun _ _ h => .pure h

/-! ## The runner -/

/-- both absent, or related -/
def OptSame (ws : List Nat) : Option (Weight N) → Option (Weight N) → Prop
  | none, none => True
  | some w, some w' => Weight.Same ws w w'
  | _, _ => False

theorem optValue_alike {ws : List Nat} {o o' : Option (Weight N)} (h : OptSame ws o o') : Alike (Weight.Same ws) (optValue o) (optValue o') := by
  cases o <;> cases o' <;> first | exact h | rfl

theorem bttTaskC_alike {ws : List Nat} (b : Btt) {st st' : Weight N} (hst : Weight.Same ws st st') (c c' : Gsw l N)
    {m m' : Mem (Option (Weight N))} (h : MemRel (OptSame ws) m m') (q : Nat) :
    GAlike (MemRel (OptSame ws)) (bttTaskC b st c m q : GComp N n l _) (bttTaskC b st' c' m' q) :=
  .bind_same fun _ => .bind_ret (mread_rel h _ _) fun _ _ h1 =>
    .bind_ret ((optValue_alike h1).bind fun _ _ h => alterWeight_alike h _ _ _) fun _ _ h2 => .bind_ret (mread_rel h _ _) fun _ _ h3 =>
    .bind_ret ((optValue_alike h3).bind fun _ _ h => alterWeight_alike h _ _ _) fun _ _ h4 =>
    .bind_ret (Weight.fromSrc_alike _ hst) fun _ _ h5 => (Weight.cmuxC_alike h5 h4 h2 c c').bind fun _ _ h6 => .ret (mwrite_rel h _ _ h6)

theorem bttBlockC_alike {ws : List Nat} (b : Btt) {st st' : Weight N} (hst : Weight.Same ws st st') {cs cs' : List (Gsw l N)}
    (hc : List.Forall₂ (fun _ _ => True) cs cs') (d : List (List Nat)) (k : Nat) :
    ∀ {w w' t t' : List (Option (Weight N))}, List.Forall₂ (OptSame ws) w w' → List.Forall₂ (OptSame ws) t t' →
    GAlike (List.Forall₂ (OptSame ws)) (bttBlockC b st cs d k w t : GComp N n l _) (bttBlockC b st' cs' d k w' t') := by
  induction k with
  | zero => intro w w' t t' h1 h2; exact .pure h1
  | succ k ih =>
    intro w w' t t' h1 h2
    rw [bttBlockC, bttBlockC]
    refine .bind_ret (vat_rel hc k) fun c c' _ => .bind_same fun states => ?_
    refine (GAlike.foldlM_same _ (fun _ _ q h => bttTaskC_alike b hst c c' h q) (.cons h2 (.cons h1 .nil))).bind fun m m' hm => ?_
    exact .bind_ret (two_rel hm) fun p p' hp => ih hp.1 hp.2

theorem bttInit_alike {ws : List Nat} (g : Graph) (b : Btt) {st st' : Weight N} (hst : Weight.Same ws st st') (next : List Nat) :
    Alike (List.Forall₂ (OptSame ws)) (bttInit g b st next) (bttInit g b st' next) := by
  unfold bttInit
  refine Alike.bind_same fun idx => ?_
  refine Alike.foldlM_same _ ?_ (replicate_rel _ trivial)
  intro w w' q h
  exact Alike.bind_same fun i => (Weight.fromSrc_alike _ hst).bind fun _ _ h' => vset_rel h _ h'

theorem bttSelectC_alike {ws : List Nat} {st st' : Weight N} (hst : Weight.Same ws st st') (live : List Nat) {w w' : List (Option (Weight N))}
    (h : List.Forall₂ (OptSame ws) w w') : GAlike (Weight.Same ws) (bttSelectC st live w : GComp N n l _) (bttSelectC st' live w') := by
  unfold bttSelectC
  split
  · exact .bind_ret (vat_rel h 0) fun _ _ h => .ret (optValue_alike h)
  · dsimp only
    refine (Weight.selectorsC_alike st st' _).bind fun cs cs' hcs => ?_
    refine GAlike.bind_ret (R := List.Forall₂ (Weight.Same ws)) ?_ fun cand cand' hcand => ?_
    · refine mapM_rel (P := (· = ·)) (List.forall₂_same.2 fun _ _ => rfl) ?_
      rintro i _ rfl
      exact Alike.bind_same fun q => (vat_rel h q).bind fun _ _ h => optValue_alike h
    · refine .bind_same fun sz => .bind_ret (Weight.fromSrc_alike _ hst) fun d d' hd => ?_
      exact (wlookupTableC_alike hcs (vresize_rel hcand _ hd)).bind fun _ _ h => .ret (vat_rel h 0)

/-- equal up to the ciphertexts -/
structure BttRunner.Same (r r' : BttRunner N l) : Prop where
  btt : r.btt = r'.btt
  graph : r.graph = r'.graph
  queueSize : r.queueSize = r'.queueSize
  queued : r.queued.length = r'.queued.length
  state : Weight.Same (r.btt.counters.map (·.1)) r.state r'.state
  live : r.live = r'.live

theorem Btt.TreesFor.get {b : Btt} {t : Nat → RedTree} (h : b.TreesFor t) (i k : Nat) (hi : (b.counters.map (·.1))[i]? = some k) :
    (t i).Valid (k + 1) := by
  rw [List.getElem?_map, Option.map_eq_some_iff] at hi
  obtain ⟨s, hs, rfl⟩ := hi
  exact h i s hs

theorem BttRunner.evalQueuedC_alike {r r' : BttRunner N l} (h : r.Same r') {t t' : Nat → RedTree} (ht : r.btt.TreesFor t) (ht' : r.btt.TreesFor t') :
    GAlike (fun s s' => s.Same s' ∧ s.btt = r.btt) (r.evalQueuedC t : GComp N n l _) (r'.evalQueuedC t') := by
  obtain ⟨b, g, qs, q, st, live⟩ := r
  obtain ⟨b', g', qs', q', st', live'⟩ := r'
  obtain ⟨h1, h2, h3, h4, h5, h6⟩ := h
  dsimp only at h1 h2 h3 h4 h5 h6 ht ht'
  subst h1 h2 h3 h6
  unfold BttRunner.evalQueuedC
  dsimp only
  rw [h4]
  split
  · exact .pure ⟨⟨rfl, rfl, rfl, h4, h5, rfl⟩, rfl⟩
  · refine (Weight.conditionsC_alike h5 ht.get ht'.get).bind fun cs cs' hcs => ?_
    have hin : List.Forall₂ (fun _ _ => True) (cs ++ q) (cs' ++ q') := append_rel hcs (any_rel h4)
    rw [hin.length_eq]
    refine .bind_same fun d => .bind_ret (bttInit_alike g b h5 _) fun w w' hw => ?_
    refine (bttBlockC_alike b h5 hin d _ hw (replicate_rel (x := none) (y := none) _ trivial)).bind fun w w' hw => ?_
    refine (bttSelectC_alike h5 live hw).bind fun s s' hs => (Weight.updateCountersC_alike hs).bind fun s s' hs => ?_
    exact .pure ⟨⟨rfl, rfl, rfl, rfl, hs, rfl⟩, rfl⟩

theorem BttRunner.evalOneC_alike {r r' : BttRunner N l} (h : r.Same r') (c c' : Gsw l N) {t t' : Nat → RedTree} (ht : r.btt.TreesFor t)
    (ht' : r.btt.TreesFor t') : GAlike (fun s s' => s.Same s' ∧ s.btt = r.btt) (r.evalOneC c t : GComp N n l _) (r'.evalOneC c' t') := by
  unfold BttRunner.evalOneC
  dsimp only
  have hq : (r.queued ++ [c]).length = (r'.queued ++ [c']).length := by simp [h.queued]
  rw [hq, h.queueSize]
  have hs : BttRunner.Same { r with queued := r.queued ++ [c], queueSize := r'.queueSize } { r' with queued := r'.queued ++ [c'] } :=
    ⟨h.btt, h.graph, rfl, hq, h.state, h.live⟩
  split
  · exact .pure ⟨hs, rfl⟩
  · exact BttRunner.evalQueuedC_alike hs ht ht'

theorem BttRunner.resultC_alike {r r' : BttRunner N l} (h : r.Same r') {t t' : Nat → RedTree} (ht : r.btt.TreesFor t)
    (ht' : r.btt.TreesFor t') : GAlike (fun p q => p.2.Same q.2) (r.resultC t : GComp N n l _) (r'.resultC t') :=
  (BttRunner.evalQueuedC_alike h ht ht').bind fun _ _ hs => .bind_ret (sampleExtractAt_alike _ _ 0) fun _ _ _ => .pure hs.1

theorem Weight.make_alike (cts : List (Nat × BitVec 64)) : Alike (Weight.Same (cts.map (·.1))) (Weight.make N 0#64 cts) (Weight.make N 0#64 cts) := by
  unfold Weight.make
  refine Alike.bind_same fun x => ?_
  refine Alike.bind (R := fun cs cs' => CtrsSame (cts.map fun x : Nat × BitVec 64 => x.1) cs cs') ?_ fun _ _ h => Alike.pure h
  cases e : (cts.mapM fun s => Counter.make (N := N) s.1 s.2) with
  | error => rfl
  | ok cs =>
    obtain ⟨h1, h2⟩ := mapM_eq_ok.1 e
    refine ⟨by simpa using h1, by simpa using h1, ?_⟩
    intro i w c c' hw hc hc'
    cases hc.symm.trans hc'
    obtain ⟨hi, rfl⟩ := List.getElem?_eq_some_iff.1 hc
    have hi' : i < cts.length := h1 ▸ hi
    rw [List.getElem?_map, List.getElem?_eq_getElem hi'] at hw
    cases hw
    have := Counter.make_alike (N := N) (cts[i]).1 (cts[i]).2
    rw [h2 i hi' hi] at this
    exact this

theorem BttRunner.make_alike (b : Btt) (q : Nat) : Alike (fun (r r' : BttRunner N l) => r.Same r' ∧ r.btt = b) (BttRunner.make b q) (BttRunner.make b q) := by
  unfold BttRunner.make
  refine Alike.bind_same fun g => ?_
  exact (Weight.make_alike b.counters).bind fun _ _ h => Alike.pure ⟨⟨rfl, rfl, rfl, rfl, h, rfl⟩, rfl⟩

theorem bttRunC_alike (b : Btt) (queue : Nat) {cs cs' : List (Gsw l N × (Nat → RedTree))} (h : cs.length = cs'.length)
    (ht : ∀ c ∈ cs, b.TreesFor c.2) (ht' : ∀ c ∈ cs', b.TreesFor c.2) {t t' : Nat → RedTree} (hr : b.TreesFor t) (hr' : b.TreesFor t') :
    GAlike (fun p q => p.2.Same q.2) (bttRunC b queue cs t : GComp N n l _) (bttRunC b queue cs' t') := by
  unfold bttRunC
  refine .bind_ret (BttRunner.make_alike b queue) fun r r' hrr => ?_
  have hf : List.Forall₂ (fun (c c' : Gsw l N × (Nat → RedTree)) => b.TreesFor c.2 ∧ b.TreesFor c'.2) cs cs' := by
    clear hrr
    induction cs generalizing cs' with
    | nil => cases cs' with
      | nil => exact .nil
      | cons => simp at h
    | cons c cs ih => cases cs' with
      | nil => simp at h
      | cons c' cs' => exact .cons ⟨ht c (by simp), ht' c' (by simp)⟩ (ih (by simpa using h) (fun x hx => ht x (by simp [hx])) fun x hx => ht' x (by simp [hx]))
  refine (GAlike.foldlM (R := fun (r r' : BttRunner N l) => r.Same r' ∧ r.btt = b) hf ?_ hrr).bind fun s s' hs => ?_
  · intro s s' c c' hs hc
    refine (BttRunner.evalOneC_alike hs.1 c.1 c'.1 (by rw [hs.2]; exact hc.1) (by rw [hs.2]; exact hc.2)).mono fun _ _ h => ⟨h.1, h.2.trans hs.2⟩
  · exact BttRunner.resultC_alike hs.1 (by rw [hs.2]; exact hr) (by rw [hs.2]; exact hr')

end Homfa
