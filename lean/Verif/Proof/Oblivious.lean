import Verif.Model.Block
import Verif.Model.Flut
import Verif.Model.Commands
import Verif.Proof.Serial

/-!
# Computations that do not depend on ciphertexts

`Alike R x y`: `x` and `y` end in the same way, and if they end normally their results are related by `R`.
-/

namespace Homfa

variable {N n l : Nat}

def Alike {α β : Type} (R : α → β → Prop) : Res α → Res β → Prop
  | .ok a, .ok b => R a b
  | .error e, .error e' => e = e'
  | _, _ => False

section
variable {α β γ δ : Type} {R : α → β → Prop} {Q : γ → δ → Prop}

theorem Alike.bind {x : Res α} {y : Res β} {f : α → Res γ} {g : β → Res δ} (h : Alike R x y) (hf : ∀ a b, R a b → Alike Q (f a) (g b)) :
    Alike Q (x >>= f) (y >>= g) := by
  cases x <;> cases y <;> simp only [Alike] at h
  · subst h; rfl
  · exact hf _ _ h

theorem Alike.ok {a : α} {b : β} (h : R a b) : Alike R (.ok a) (.ok b) := h
theorem Alike.pure {a : α} {b : β} (h : R a b) : Alike R (Pure.pure a : Res α) (Pure.pure b : Res β) := h
theorem Alike.error {e : Err} : Alike R (.error e) (.error e) := rfl

theorem Alike.refl (x : Res α) : Alike (· = ·) x x := by cases x <;> rfl

theorem Alike.mono {R' : α → β → Prop} {x : Res α} {y : Res β} (h : Alike R x y) (hr : ∀ a b, R a b → R' a b) : Alike R' x y := by
  cases x <;> cases y <;> simp only [Alike] at h ⊢
  · exact h
  · exact hr _ _ h

/-- the same computation first -/
theorem Alike.bind_same {x : Res α} {f : α → Res γ} {g : α → Res δ} (hf : ∀ a, Alike Q (f a) (g a)) : Alike Q (x >>= f) (x >>= g) :=
  (Alike.refl x).bind fun a b h => by subst h; exact hf a

theorem Alike.foldlM {ι κ : Type} {P : ι → κ → Prop} {f : α → ι → Res α} {g : β → κ → Res β} {xs : List ι} {ys : List κ}
    (h : List.Forall₂ P xs ys) (hf : ∀ a b x y, R a b → P x y → Alike R (f a x) (g b y)) :
    ∀ {a : α} {b : β}, R a b → Alike R (xs.foldlM f a) (ys.foldlM g b) := by
  induction h with
  | nil => intro a b hab; exact hab
  | cons hp _ ih =>
    intro a b hab
    rw [List.foldlM_cons, List.foldlM_cons]
    exact (hf _ _ _ _ hab hp).bind fun _ _ h => ih h

theorem Alike.foldlM_same {ι : Type} {f : α → ι → Res α} {g : β → ι → Res β} (xs : List ι)
    (hf : ∀ a b x, R a b → Alike R (f a x) (g b x)) {a : α} {b : β} (hab : R a b) : Alike R (xs.foldlM f a) (xs.foldlM g b) := by
  refine Alike.foldlM (P := (· = ·)) (List.forall₂_same.2 fun _ _ => rfl) ?_ hab
  rintro a b x _ h rfl
  exact hf a b x h

theorem Alike.map_eq {x : Res α} {y : Res β} {φ : α → γ} {ψ : β → γ} (h : Alike R x y) (hr : ∀ a b, R a b → φ a = ψ b) :
    x.map φ = y.map ψ := by
  cases x <;> cases y <;> simp only [Alike] at h
  · subst h; rfl
  · simp [Except.map, hr _ _ h]

theorem vat_alike {xs : List α} {ys : List β} (h : xs.length = ys.length) (i : Nat) : Alike (fun _ _ => True) (vat xs i) (vat ys i) := by
  unfold vat
  by_cases hi : i < xs.length
  · rw [List.getElem?_eq_getElem hi, List.getElem?_eq_getElem (h ▸ hi)]; trivial
  · rw [List.getElem?_eq_none (by omega), List.getElem?_eq_none (by omega)]; rfl

theorem vset_alike {xs : List α} {ys : List β} (h : xs.length = ys.length) (i : Nat) (x : α) (y : β) :
    Alike (fun a b => a.length = b.length) (vset xs i x) (vset ys i y) := by
  unfold vset
  by_cases hi : i < xs.length
  · rw [if_pos hi, if_pos (by omega)]
    show (xs.set i x).length = (ys.set i y).length
    simp [h]
  · rw [if_neg hi, if_neg (by omega)]; rfl

theorem vresize_sameLength {xs : List α} {ys : List β} (h : xs.length = ys.length) (k : Nat) (x : α) (y : β) :
    (vresize xs k x).length = (vresize ys k y).length := by
  simp [vresize, h]

/-! ## Parallel loops -/

/-- tasks that access the same places -/
inductive ProgAlike : Prog α → Prog β → Prop
  | ret : ProgAlike .ret .ret
  | fail (e : Err) : ProgAlike (.fail e) (.fail e)
  | read (v i : Nat) {k : α → Prog α} {k' : β → Prog β} : (∀ x y, ProgAlike (k x) (k' y)) → ProgAlike (.read v i k) (.read v i k')
  | write (v i : Nat) (x : α) (y : β) {k : Prog α} {k' : Prog β} : ProgAlike k k' → ProgAlike (.write v i x k) (.write v i y k')

theorem ProgAlike.local {r : Res γ} {r' : Res δ} {k : γ → Prog α} {k' : δ → Prog β} (h : Alike Q r r')
    (hk : ∀ a b, Q a b → ProgAlike (k a) (k' b)) : ProgAlike (Prog.local r k) (Prog.local r' k') := by
  cases r <;> cases r' <;> simp only [Alike] at h
  · subst h; exact .fail _
  · exact hk _ _ h

theorem ProgAlike.local_same {r : Res γ} {k : γ → Prog α} {k' : γ → Prog β} (hk : ∀ a, ProgAlike (k a) (k' a)) :
    ProgAlike (Prog.local r k) (Prog.local r k') :=
  .local (Alike.refl r) fun a b h => by subst h; exact hk a

/-- vectors of the same lengths -/
def SameShape (m : Mem α) (m' : Mem β) : Prop := m.map List.length = m'.map List.length

theorem SameShape.get {m : Mem α} {m' : Mem β} (h : SameShape m m') (v : Nat) :
    (m[v]?).map List.length = (m'[v]?).map List.length := by
  have := congrArg (·[v]?) h
  simpa using this

theorem mread_alike {m : Mem α} {m' : Mem β} (h : SameShape m m') (v i : Nat) : Alike (fun _ _ => True) (mread m v i) (mread m' v i) := by
  have := h.get v
  unfold mread
  cases e : m[v]? <;> cases e' : m'[v]? <;> rw [e, e'] at this <;> simp only [Option.map_some, Option.map_none, Option.some.injEq, reduceCtorEq] at this
  · rfl
  · exact vat_alike this i

theorem mwrite_alike {m : Mem α} {m' : Mem β} (h : SameShape m m') (v i : Nat) (x : α) (y : β) :
    Alike SameShape (mwrite m v i x) (mwrite m' v i y) := by
  have := h.get v
  unfold mwrite
  cases e : m[v]? <;> cases e' : m'[v]? <;> rw [e, e'] at this <;> simp only [Option.map_some, Option.map_none, Option.some.injEq, reduceCtorEq] at this
  · rfl
  · refine (vset_alike this i x y).bind fun a b hab => Alike.pure ?_
    unfold SameShape
    rw [List.map_set, List.map_set, hab, h]

theorem ProgAlike.run {p : Prog α} {p' : Prog β} (h : ProgAlike p p') : ∀ {m : Mem α} {m' : Mem β}, SameShape m m' →
    Alike SameShape (p.run m) (p'.run m') := by
  induction h with
  | ret => intro m m' hm; exact hm
  | fail e => intro m m' hm; rfl
  | read v i _ ih => intro m m' hm; exact (mread_alike hm v i).bind fun x y _ => ih x y hm
  | write v i x y _ ih => intro m m' hm; exact (mwrite_alike hm v i x y).bind fun _ _ h => ih h

theorem parFor_alike {ts : List (Prog α)} {ts' : List (Prog β)} (h : List.Forall₂ ProgAlike ts ts') {m : Mem α} {m' : Mem β}
    (hm : SameShape m m') : Alike SameShape (parFor ts m) (parFor ts' m') :=
  Alike.foldlM h (fun _ _ _ _ hm hp => hp.run hm) hm

theorem tasks_alike {ι : Type} (xs : List ι) {f : ι → Prog α} {g : ι → Prog β} (h : ∀ i, ProgAlike (f i) (g i)) :
    List.Forall₂ ProgAlike (xs.map f) (xs.map g) := by
  rw [List.forall₂_map_left_iff, List.forall₂_map_right_iff]
  exact List.forall₂_same.2 fun i _ => h i

theorem two_alike {m : Mem α} {m' : Mem β} (h : SameShape m m') :
    Alike (fun p q => p.1.length = q.1.length ∧ p.2.length = q.2.length) (two m) (two m') := by
  unfold SameShape at h
  match m, m' with
  | [], [] => rfl
  | [_], [_] => rfl
  | [a, b], [a', b'] =>
    simp only [List.map_cons, List.map_nil, List.cons.injEq, and_true] at h
    exact h
  | _ :: _ :: _ :: _, _ :: _ :: _ :: _ => rfl
  | [], _ :: _ => simp at h
  | _ :: _, [] => simp at h
  | [_], _ :: _ :: _ => simp at h
  | _ :: _ :: _, [_] => simp at h
  | [_, _], _ :: _ :: _ :: _ => simp at h
  | _ :: _ :: _ :: _, [_, _] => simp at h

theorem one_alike {m : Mem α} {m' : Mem β} (h : SameShape m m') : Alike (fun p q => p.length = q.length) (one m) (one m') := by
  unfold SameShape at h
  match m, m' with
  | [], [] => rfl
  | [a], [a'] =>
    simp only [List.map_cons, List.map_nil, List.cons.injEq, and_true] at h
    exact h
  | _ :: _ :: _, _ :: _ :: _ => rfl
  | [], _ :: _ => simp at h
  | _ :: _, [] => simp at h
  | [_], _ :: _ :: _ => simp at h
  | _ :: _ :: _, [_] => simp at h

theorem sameShape_two {a b : List α} {a' b' : List β} (h : a.length = a'.length) (h' : b.length = b'.length) : SameShape [a, b] [a', b'] := by
  simp [SameShape, h, h']

theorem sameShape_one {a : List α} {a' : List β} (h : a.length = a'.length) : SameShape [a] [a'] := by
  simp [SameShape, h]

end

theorem sampleExtractAt_alike (w w' : TRLWE N) (i : Nat) : Alike (fun _ _ => True) (sampleExtractAt w i) (sampleExtractAt w' i) := by
  unfold sampleExtractAt
  by_cases h : i < N
  · rw [dif_pos h, dif_pos h]; trivial
  · rw [dif_neg h, dif_neg h]; rfl

variable (S S' : Scheme N n l)

/-! ## OFFLINE and REVERSE -/

/-- equal up to the ciphertexts -/
structure Backstream.Same (r r' : Backstream N) : Prop where
  graph : r.graph = r'.graph
  weight : r.weight.length = r'.weight.length
  inputSize : r.inputSize = r'.inputSize
  bootInterval : r.bootInterval = r'.bootInterval
  numProcessed : r.numProcessed = r'.numProcessed
  workspace : r.workspace.length = r'.workspace.length
  timer : r.timer = r'.timer

theorem Backstream.Same.refl (r : Backstream N) : r.Same r := ⟨rfl, rfl, rfl, rfl, rfl, rfl, rfl⟩

theorem bootHalf_alike (w w' : TRLWE N) : Alike (fun _ _ => True) (S.bootHalf w) (S'.bootHalf w') :=
  (sampleExtractAt_alike w w' 0).bind fun _ _ _ => trivial

theorem bootTask_alike (q : Nat) : ProgAlike (bootTask S q) (bootTask S' q) :=
  .read _ _ fun w w' => .local (bootHalf_alike S S' w w') fun _ _ _ => .write _ _ _ _ .ret

theorem backstreamTask_alike (g : Graph) (c c' : Gsw l N) (q : Nat) : ProgAlike (backstreamTask S g c q) (backstreamTask S' g c' q) :=
  .local_same fun _ => .local_same fun _ => .read _ _ fun _ _ => .read _ _ fun _ _ => .write _ _ _ _ .ret

theorem Backstream.eval_alike {r r' : Backstream N} (h : r.Same r') (c c' : Gsw l N) :
    Alike Backstream.Same (r.eval S c) (r'.eval S' c') := by
  obtain ⟨g, w, k, b, np, ws, t⟩ := r
  obtain ⟨g', w', k', b', np', ws', t'⟩ := r'
  obtain ⟨h1, h2, h3, h4, h5, h6, h7⟩ := h
  dsimp only at h1 h2 h3 h4 h5 h6 h7
  subst h1 h3 h4 h5 h7
  unfold Backstream.eval
  dsimp only
  refine Alike.bind_same fun states => ?_
  refine (parFor_alike (tasks_alike _ (backstreamTask_alike S S' g c c')) (sameShape_two (vresize_sameLength h6 _ _ _) h2)).bind fun m m' hm => ?_
  refine (two_alike hm).bind fun p p' hp => ?_
  by_cases hb : b = 0
  · rw [if_pos hb, if_pos hb]; rfl
  · rw [if_neg hb, if_neg hb]
    by_cases hd : (np + 1) % b = 0
    · rw [if_pos hd, if_pos hd]
      unfold Backstream.bootstrapWeight
      refine (parFor_alike (tasks_alike _ (bootTask_alike S S')) (sameShape_one hp.1)).bind fun m m' hm => ?_
      exact (one_alike hm).bind fun w w' hw => Alike.pure ⟨rfl, hw, rfl, rfl, rfl, hp.2, rfl⟩
    · rw [if_neg hd, if_neg hd]
      exact Alike.pure ⟨rfl, hp.1, rfl, rfl, rfl, hp.2, rfl⟩

theorem Backstream.Same.result_alike {r r' : Backstream N} (h : r.Same r') : Alike (fun _ _ => True) r.result r'.result := by
  unfold Backstream.result
  rw [h.graph]
  exact (vat_alike h.weight _).bind fun _ _ _ => sampleExtractAt_alike _ _ _

/-! ## Lookup tables -/

theorem lutTask_alike (c c' : Gsw l N) (j : Nat) : ProgAlike (lutTask S c j) (lutTask S' c' j) :=
  .read _ _ fun _ _ => .read _ _ fun _ _ => .write _ _ _ _ .ret

/-- two vectors of the same lengths and the same timer -/
def SameTables (p q : List (TRLWE N) × List (TRLWE N) × List (Target × Nat)) : Prop :=
  p.1.length = q.1.length ∧ p.2.1.length = q.2.1.length ∧ p.2.2 = q.2.2

theorem lutLoop_alike (inputSize : Nat) : ∀ (cs cs' : List (Gsw l N)), cs.length = cs'.length → ∀ (i : Nat) (tmp table tmp' table' : List (TRLWE N))
    (timer : List (Target × Nat)), tmp.length = tmp'.length → table.length = table'.length →
    Alike SameTables (lutLoop S inputSize cs i tmp table timer) (lutLoop S' inputSize cs' i tmp' table' timer) := by
  intro cs
  induction cs with
  | nil =>
    intro cs' h i tmp table tmp' table' timer h1 h2
    cases cs' with
    | nil => exact ⟨h1, h2, rfl⟩
    | cons => simp at h
  | cons c cs ih =>
    intro cs' h i tmp table tmp' table' timer h1 h2
    cases cs' with
    | nil => simp at h
    | cons c' cs' =>
      rw [lutLoop, lutLoop]
      refine Alike.bind_same fun cnt => ?_
      refine (parFor_alike (tasks_alike _ (lutTask_alike S S' c c')) (sameShape_two h1 h2)).bind fun m m' hm => ?_
      refine (two_alike hm).bind fun p p' hp => ?_
      exact ih cs' (by simpa using h) _ _ _ _ _ _ hp.2 hp.1

theorem lookupTableTimer_alike {table table' ws ws' : List (TRLWE N)} {cs cs' : List (Gsw l N)} (timer : List (Target × Nat))
    (h1 : table.length = table'.length) (h2 : ws.length = ws'.length) (h : cs.length = cs'.length) :
    Alike SameTables (lookupTableTimer S table cs ws timer) (lookupTableTimer S' table' cs' ws' timer) := by
  unfold lookupTableTimer
  dsimp only
  rw [h, h1]
  refine Alike.bind_same fun sz => Alike.bind_same fun _ => ?_
  by_cases h0 : cs'.length = 0
  · rw [if_pos h0, if_pos h0]; exact ⟨h1, h2, rfl⟩
  · rw [if_neg h0, if_neg h0]
    refine Alike.bind_same fun half => ?_
    exact (lutLoop_alike S S' _ cs cs' h 0 _ _ _ _ timer rfl h1).bind fun p q hpq => ⟨hpq.2.1, hpq.1, hpq.2.2⟩

theorem lookupTable_alike {table table' ws ws' : List (TRLWE N)} {cs cs' : List (Gsw l N)}
    (h1 : table.length = table'.length) (h2 : ws.length = ws'.length) (h : cs.length = cs'.length) :
    Alike (fun p q => p.1.length = q.1.length ∧ p.2.length = q.2.length) (lookupTable S table cs ws) (lookupTable S' table' cs' ws') :=
  (lookupTableTimer_alike S S' [] h1 h2 h).bind fun _ _ hpq => ⟨hpq.1, hpq.2.1⟩

/-! ## BLOCK -/

structure Block.Same (r r' : Block N l) : Prop where
  graph : r.graph = r'.graph
  queueSize : r.queueSize = r'.queueSize
  queued : r.queued.length = r'.queued.length
  selector : r.selector.isSome = r'.selector.isSome
  live : r.live = r'.live
  ws4 : r.ws4.length = r'.ws4.length
  timer : r.timer = r'.timer

theorem Block.Same.refl (r : Block N l) : r.Same r := ⟨rfl, rfl, rfl, rfl, rfl, rfl, rfl⟩

theorem blockTask_alike (g : Graph) {cs cs' : List (Gsw l N)} (h : cs.length = cs'.length) (i q : Nat) :
    ProgAlike (blockTask S g cs i q) (blockTask S' g cs' i q) :=
  .local_same fun _ => .local_same fun _ => .read _ _ fun _ _ => .read _ _ fun _ _ =>
    .local (vat_alike h i) fun _ _ _ => .write _ _ _ _ .ret

theorem extractTask_alike (s s' : TRLWE N) (i : Nat) : ProgAlike (extractTask s i) (extractTask s' i) :=
  .local (sampleExtractAt_alike s s' _) fun _ _ _ => .write _ _ _ _ .ret

theorem cbTask_alike {ws ws' : List (TLWE N)} (h : ws.length = ws'.length) (i : Nat) : ProgAlike (cbTask S ws i) (cbTask S' ws' i) :=
  .local (vat_alike h i) fun _ _ _ => .write _ _ _ _ .ret

theorem blockPropagate_alike (g : Graph) {cs cs' : List (Gsw l N)} (h : cs.length = cs'.length) (d : List (List Nat)) :
    ∀ (k : Nat) (w out w' out' : List (TRLWE N)) (timer : List (Target × Nat)), w.length = w'.length → out.length = out'.length →
    Alike SameTables (blockPropagate S g cs d k w out timer) (blockPropagate S' g cs' d k w' out' timer) := by
  intro k
  induction k with
  | zero => intro w out w' out' timer h1 h2; exact ⟨h1, h2, rfl⟩
  | succ k ih =>
    intro w out w' out' timer h1 h2
    rw [blockPropagate, blockPropagate]
    refine Alike.bind_same fun states => ?_
    refine (parFor_alike (tasks_alike _ (blockTask_alike S S' g h k)) (sameShape_two h2 h1)).bind fun m m' hm => ?_
    exact (two_alike hm).bind fun p p' hp => ih _ _ _ _ _ hp.1 hp.2

theorem Block.evalQueued_alike {r r' : Block N l} (h : r.Same r') : Alike Block.Same (r.evalQueued S) (r'.evalQueued S') := by
  obtain ⟨g, qs, cs, sel, live, ws, t⟩ := r
  obtain ⟨g', qs', cs', sel', live', ws', t'⟩ := r'
  obtain ⟨h1, h2, h3, h4, h5, h6, h7⟩ := h
  dsimp only at h1 h2 h3 h4 h5 h6 h7
  subst h1 h2 h5 h7
  unfold Block.evalQueued
  dsimp only
  rw [← h3]
  by_cases h0 : cs.length = 0
  · rw [if_pos h0, if_pos h0]; exact ⟨rfl, rfl, h3, h4, rfl, h6, rfl⟩
  · rw [if_neg h0, if_neg h0]
    refine Alike.bind_same fun atDepth => Alike.bind_same fun weight => ?_
    refine (blockPropagate_alike S S' g h3 atDepth (countDown cs.length) weight _ weight _ t rfl rfl).bind fun p p' hp => ?_
    obtain ⟨p1, p2, p3⟩ := hp
    by_cases hl : live.length = 1
    · rw [if_pos hl, if_pos hl]
      refine Alike.bind_same fun q => ?_
      exact (vat_alike p1 q).bind fun w w' _ => Alike.pure ⟨rfl, rfl, rfl, rfl, rfl, h6, p3⟩
    · rw [if_neg hl, if_neg hl]
      refine Alike.bind (R := fun _ _ => True) (by
        cases sel <;> cases sel' <;> first | rfl | trivial) fun s s' _ => ?_
      refine (parFor_alike (tasks_alike _ (extractTask_alike s s')) (sameShape_one (vresize_sameLength h6 _ _ _))).bind fun m m' hm => ?_
      refine (one_alike hm).bind fun ws1 ws1' hws => ?_
      refine (parFor_alike (tasks_alike _ (cbTask_alike S S' hws)) (sameShape_one rfl)).bind fun m m' hm => ?_
      refine (one_alike hm).bind fun cond cond' hcond => ?_
      refine (Alike.foldlM_same (R := fun a b => a.length = b.length) _ (fun a b i hab => ?_) p2).bind fun out out' hout => ?_
      · refine Alike.bind_same fun q => ?_
        exact (vat_alike p1 q).bind fun w w' _ => vset_alike hab _ _ _
      · refine Alike.bind_same fun sz => ?_
        rw [p3]
        refine (lookupTableTimer_alike S S' _ (vresize_sameLength hout _ _ _) (vresize_sameLength p1 _ _ _) hcond).bind fun t t' ht => ?_
        exact (vat_alike ht.1 0).bind fun w w' _ => Alike.pure ⟨rfl, rfl, rfl, rfl, rfl, hws, ht.2.2⟩

theorem Block.evalOne_alike {r r' : Block N l} (h : r.Same r') (c c' : Gsw l N) : Alike Block.Same (r.evalOne S c) (r'.evalOne S' c') := by
  have h' : Block.Same { r with queued := r.queued ++ [c] } { r' with queued := r'.queued ++ [c'] } :=
    ⟨h.graph, h.queueSize, by simp [h.queued], h.selector, h.live, h.ws4, h.timer⟩
  unfold Block.evalOne
  dsimp only
  have hl : (r.queued ++ [c]).length = (r'.queued ++ [c']).length := h'.queued
  have hs := h.queueSize
  by_cases hq : (r.queued ++ [c]).length < r.queueSize
  · rw [if_pos hq, if_pos (by omega)]; exact h'
  · rw [if_neg hq, if_neg (by omega)]; exact Block.evalQueued_alike S S' h'

theorem Block.result_alike {r r' : Block N l} (h : r.Same r') : Alike (fun p q => p.2.Same q.2) (r.result S) (r'.result S') := by
  unfold Block.result
  refine (Block.evalQueued_alike S S' h).bind fun r r' hr => ?_
  have := hr.selector
  cases e : r.selector <;> cases e' : r'.selector <;> rw [e, e'] at this <;>
    simp only [Option.isSome_none, Option.isSome_some, reduceCtorEq] at this
  · rfl
  · exact (sampleExtractAt_alike _ _ _).bind fun _ _ _ => hr

/-! ## FLUT -/

structure Flut.Same (r r' : Flut N l) : Prop where
  graph : r.graph = r'.graph
  weight : r.weight.length = r'.weight.length
  queued : r.queued.length = r'.queued.length
  maxSecond : r.maxSecond = r'.maxSecond
  queueSize : r.queueSize = r'.queueSize
  live : r.live = r'.live
  memo : r.memo = r'.memo
  numEval : r.numEval = r'.numEval
  bootFreq : r.bootFreq = r'.bootFreq
  first : r.first = r'.first
  second : r.second = r'.second

theorem Flut.Same.refl (r : Flut N l) : r.Same r := ⟨rfl, rfl, rfl, rfl, rfl, rfl, rfl, rfl, rfl, rfl, rfl⟩

theorem pget_alike (s s' : Poly N) (i : Int) : Alike (fun _ _ => True) (pget s i) (pget s' i) := by
  unfold pget
  split
  · trivial
  · rfl

theorem pset_alike (s s' : Poly N) (i : Int) (v v' : Torus) : Alike (fun _ _ => True) (pset s i v) (pset s' i v') := by
  unfold pset
  split
  · trivial
  · rfl

theorem polyMultXk_alike (o o' s s' : Poly N) (k : Nat) : Alike (fun _ _ => True) (polyMultXk o s k) (polyMultXk o' s' k) := by
  have step : ∀ (xs : List Nat) (f : Nat → Int) (g : Nat → Int) (φ : Torus → Torus) (o o' : Poly N), Alike (fun _ _ => True)
      (xs.foldlM (fun out (i : Nat) => do let v ← pget s (f i); pset out (g i) (φ v)) o)
      (xs.foldlM (fun out (i : Nat) => do let v ← pget s' (f i); pset out (g i) (φ v)) o') := by
    intro xs f g φ o o'
    refine Alike.foldlM_same (R := fun _ _ => True) xs (fun a b i _ => ?_) trivial
    exact (pget_alike s s' (f i)).bind fun _ _ _ => pset_alike a b (g i) _ _
  unfold polyMultXk
  split
  · trivial
  · split
    · exact (step _ _ _ _ _ _).bind fun _ _ _ => step _ _ _ id _ _
    · exact (step _ _ _ id _ _).bind fun _ _ _ => step _ _ _ _ _ _

theorem multXk_alike (o o' s s' : TRLWE N) (k : Nat) : Alike (fun _ _ => True) (o.multXk s k) (o'.multXk s' k) :=
  (polyMultXk_alike _ _ _ _ _).bind fun _ _ _ => (polyMultXk_alike _ _ _ _ _).bind fun _ _ _ => trivial

theorem fillTask_alike (g : Graph) (memo st2idx : List Nat) (first numNext input1 : Nat) (pairs : List (Nat × Nat)) :
    ProgAlike (fillTask (N := N) g memo st2idx first numNext input1 pairs) (fillTask (N := N) g memo st2idx first numNext input1 pairs) := by
  induction pairs with
  | nil => exact .ret
  | cons p rest ih =>
    rw [fillTask]
    exact .local_same fun _ => .read _ _ fun _ _ => .local_same fun _ => .local (multXk_alike _ _ _ _ _) fun _ _ _ =>
      .read _ _ fun _ _ => .write _ _ _ _ ih

theorem rotTask_alike (numNext i : Nat) : ProgAlike (rotTask N numNext i) (rotTask N numNext i) := by
  refine .read _ _ fun _ _ => .read _ _ fun _ _ => .local (Q := fun _ _ => True) ?_ fun _ _ _ => .write _ _ _ _ .ret
  split
  · exact multXk_alike _ _ _ _ _
  · rfl

theorem splitTask_alike (st2idx : List Nat) (boot : Bool) (st : Nat) : ProgAlike (splitTask S st2idx boot st) (splitTask S' st2idx boot st) := by
  refine .read _ _ fun _ _ => .local_same fun idx => .local (sampleExtractAt_alike _ _ idx) fun t t' _ => ?_
  refine .local (Q := fun _ _ => True) ?_ fun _ _ _ => .write _ _ _ _ .ret
  cases boot
  · trivial
  · exact sampleExtractAt_alike _ _ _

theorem Flut.evalQueued_alike {r r' : Flut N l} (h : r.Same r') : Alike Flut.Same (r.evalQueued S) (r'.evalQueued S') := by
  obtain ⟨g, w, cs, ms, qs, live, memo, ne, bf, fi, se⟩ := r
  obtain ⟨g', w', cs', ms', qs', live', memo', ne', bf', fi', se'⟩ := r'
  obtain ⟨h1, h2, h3, h4, h5, h6, h7, h8, h9, h10, h11⟩ := h
  dsimp only at h1 h2 h3 h4 h5 h6 h7 h8 h9 h10 h11
  subst h1 h4 h5 h6 h7 h8 h9 h10 h11
  unfold Flut.evalQueued
  dsimp only
  rw [← h3]
  by_cases h0 : cs.length = 0
  · rw [if_pos h0, if_pos h0]; exact ⟨rfl, h2, h3, rfl, rfl, rfl, rfl, rfl, rfl, rfl, rfl⟩
  · rw [if_neg h0, if_neg h0]
    refine Alike.bind_same fun m => Alike.bind_same fun next => Alike.bind_same fun st2idx => Alike.bind_same fun d =>
      Alike.bind_same fun cnt1 => Alike.bind_same fun cnt2 => ?_
    refine (parFor_alike (tasks_alike _ fun i => fillTask_alike g m st2idx d.1 next.length i _) (sameShape_two rfl h2)).bind fun mm mm' hm => ?_
    refine (two_alike hm).bind fun p p' hp => ?_
    refine (lookupTable_alike S S' hp.1 rfl (by simp [h3])).bind fun t1 t1' ht1 => ?_
    refine (parFor_alike (tasks_alike _ fun i => rotTask_alike next.length (i + 1)) (sameShape_one (vresize_sameLength ht1.1 _ _ _))).bind
      fun mm mm' hm => ?_
    refine (one_alike hm).bind fun table table' htab => ?_
    refine (lookupTable_alike S S' htab ht1.2 (by simp [h3])).bind fun t2 t2' ht2 => ?_
    by_cases hb : bf = 0
    · rw [if_pos hb, if_pos hb]; rfl
    · rw [if_neg hb, if_neg hb]
      refine (parFor_alike (tasks_alike _ (splitTask_alike S S' st2idx _)) (sameShape_two h2 ht2.1)).bind fun mm mm' hm => ?_
      exact (two_alike hm).bind fun p p' hp => Alike.pure ⟨rfl, hp.1, rfl, rfl, rfl, rfl, rfl, rfl, rfl, rfl, rfl⟩

theorem Flut.evalOne_alike {r r' : Flut N l} (h : r.Same r') (c c' : Gsw l N) : Alike Flut.Same (r.evalOne S c) (r'.evalOne S' c') := by
  have h' : Flut.Same { r with queued := r.queued ++ [c] } { r' with queued := r'.queued ++ [c'] } :=
    ⟨h.graph, h.weight, by simp [h.queued], h.maxSecond, h.queueSize, h.live, h.memo, h.numEval, h.bootFreq, h.first, h.second⟩
  unfold Flut.evalOne
  dsimp only
  have hl : (r.queued ++ [c]).length = (r'.queued ++ [c']).length := h'.queued
  have hs := h.queueSize
  by_cases hq : (r.queued ++ [c]).length < r.queueSize
  · rw [if_pos hq, if_pos (by omega)]; exact h'
  · rw [if_neg hq, if_neg (by omega)]; exact Flut.evalQueued_alike S S' h'

theorem Flut.result_alike {r r' : Flut N l} (h : r.Same r') : Alike (fun p q => p.2.Same q.2) (r.result S) (r'.result S') := by
  unfold Flut.result
  refine (Flut.evalQueued_alike S S' h).bind fun r r' hr => ?_
  rw [hr.graph, hr.live]
  refine (Alike.foldlM_same (R := fun _ _ => True) _ (fun a b st _ => ?_) trivial).bind fun a b _ => ?_
  · refine Alike.bind_same fun f => ?_
    cases f
    · trivial
    · exact (vat_alike hr.weight st).bind fun _ _ _ => trivial
  · exact (sampleExtractAt_alike _ _ _).bind fun _ _ _ => hr

/-! ## The loop of the online commands -/

theorem onlineLoop_alike {ρ : Type} {Q : ρ → ρ → Prop} {eval eval' : ρ → Gsw l N → Res ρ} {result result' : ρ → Res (TLWE N × ρ)}
    (he : ∀ r r' c c', Q r r' → Alike Q (eval r c) (eval' r' c')) (hr : ∀ r r', Q r r' → Alike (fun p q => Q p.2 q.2) (result r) (result' r'))
    (outDir : Option String) (freq : Nat) : ∀ (cs cs' : List (Gsw l N)), cs.length = cs'.length → ∀ (i : Nat) (r r' : ρ), Q r r' →
    Alike (fun p q => p.1.map (·.1) = q.1.map (·.1) ∧ Q p.2 q.2) (onlineLoop eval result outDir freq cs i r)
      (onlineLoop eval' result' outDir freq cs' i r') := by
  intro cs
  induction cs with
  | nil =>
    intro cs' h i r r' hq
    cases cs' with
    | nil => exact ⟨rfl, hq⟩
    | cons => simp at h
  | cons c cs ih =>
    intro cs' h i r r' hq
    cases cs' with
    | nil => simp at h
    | cons c' cs' =>
      have h : cs.length = cs'.length := by simpa using h
      rw [onlineLoop, onlineLoop]
      refine (he r r' c c' hq).bind fun r1 r1' h1 => ?_
      cases outDir with
      | none => exact ih cs' h _ _ _ h1
      | some dir =>
        dsimp only
        by_cases hf : freq = 0
        · rw [if_pos hf, if_pos hf]; rfl
        · rw [if_neg hf, if_neg hf]
          by_cases hi : i % freq = freq - 1
          · rw [if_pos hi, if_pos hi]
            refine (hr r1 r1' h1).bind fun p p' hp => ?_
            exact (ih cs' h _ _ _ hp).bind fun q q' hqq => Alike.pure ⟨by simp [hqq.1], hqq.2⟩
          · rw [if_neg hi, if_neg hi]
            exact ih cs' h _ _ _ h1

/-! ## Encryption -/

theorem inputByte_alike {σ τ : Type} {R : σ → τ → Prop} {f : σ → Bool → Res σ} {g : τ → Bool → Res τ}
    (h : ∀ s t b b', R s t → Alike R (f s b) (g t b')) : ∀ (k : Nat) (v v' : Byte) (rest : Nat) (s : σ) (t : τ), R s t →
    Alike (fun p q => p.1 = q.1 ∧ R p.2 q.2) (inputByte f k v rest s) (inputByte g k v' rest t) := by
  intro k
  induction k with
  | zero => intro v v' rest s t hst; exact ⟨rfl, hst⟩
  | succ k ih =>
    intro v v' rest s t hst
    rw [inputByte, inputByte]
    by_cases h0 : rest = 0
    · rw [if_pos h0, if_pos h0]; exact ⟨rfl, hst⟩
    · rw [if_neg h0, if_neg h0]
      exact (h _ _ _ _ hst).bind fun s t hst => ih _ _ _ s t hst

theorem inputBytes_alike {σ τ : Type} {R : σ → τ → Prop} {f : σ → Bool → Res σ} {g : τ → Bool → Res τ}
    (h : ∀ s t b b', R s t → Alike R (f s b) (g t b')) (numAp : Nat) : ∀ (bs bs' : List Byte), bs.length = bs'.length →
    ∀ (rest : Nat) (s : σ) (t : τ), R s t →
    Alike (fun p q => p.1 = q.1 ∧ R p.2 q.2) (inputBytes numAp f bs rest s) (inputBytes numAp g bs' rest t) := by
  intro bs
  induction bs with
  | nil =>
    intro bs' hl rest s t hst
    cases bs' with
    | nil => exact ⟨rfl, hst⟩
    | cons => simp at hl
  | cons v bs ih =>
    intro bs' hl rest s t hst
    cases bs' with
    | nil => simp at hl
    | cons v' bs' =>
      rw [inputBytes, inputBytes]
      refine (inputByte_alike h 8 v v' _ s t hst).bind fun p q hpq => ?_
      obtain ⟨rest, s⟩ := p
      obtain ⟨rest', t⟩ := q
      obtain ⟨rfl, hst⟩ := hpq
      exact ih bs' (by simpa using hl) _ s t hst

theorem doEnc_alike (rand rand' : Nat → Nat) (bs bs' : List Byte) (h : bs.length = bs'.length) (numAp : Nat) :
    Alike (fun p q => p.length = q.length) (doEnc S rand (some bs) numAp) (doEnc S' rand' (some bs') numAp) := by
  unfold doEnc eachInputBit
  refine Alike.bind (R := fun p q => p.1 = q.1 ∧ p.2.length = q.2.length) ?_ fun p q hpq => Alike.pure hpq.2
  refine Alike.bind (R := fun p q => p.length = q.length) (x := .ok bs) (y := .ok bs') (Alike.ok h) fun bs bs' h => ?_
  refine (inputBytes_alike (R := fun p q => p.1 = q.1 ∧ p.2.length = q.2.length) (fun s t b b' hst => ?_) numAp bs bs' h 0 (0, []) (0, []) ⟨rfl, rfl⟩).bind
    fun p q hpq => ?_
  · exact ⟨by rw [hst.1], by simp [hst.2, length_saveGsw]⟩
  · obtain ⟨rest, s⟩ := p
    obtain ⟨rest', t⟩ := q
    obtain ⟨rfl, hst⟩ := hpq
    exact Alike.bind_same fun _ => hst

/-! ## The commands -/

theorem foldlM_alike {ρ : Type} {Q : ρ → ρ → Prop} {eval eval' : ρ → Gsw l N → Res ρ} (he : ∀ r r' c c', Q r r' → Alike Q (eval r c) (eval' r' c'))
    {cs cs' : List (Gsw l N)} (h : cs.length = cs'.length) {r r' : ρ} (hr : Q r r') : Alike Q (cs.foldlM eval r) (cs'.foldlM eval' r') := by
  refine Alike.foldlM (P := fun _ _ => True) ?_ (fun a b x y hab _ => he a b x y hab) hr
  rw [List.forall₂_iff_get]
  exact ⟨h, fun _ _ _ => trivial⟩

theorem doRunOffline_alike (spec : List Char) (size boot : Nat) (sanitize : Bool) (cs cs' : List (Gsw l N)) (h : cs.length = cs'.length) :
    Alike (fun _ _ => True) (doRunOffline S spec size cs boot sanitize) (doRunOffline S' spec size cs' boot sanitize) := by
  unfold doRunOffline
  refine Alike.bind_same fun g => Alike.bind_same fun g => Alike.bind_same fun r => Alike.bind_same fun _ => ?_
  exact (foldlM_alike (fun _ _ c c' hr => Backstream.eval_alike S S' hr c c') h (Backstream.Same.refl r)).bind fun _ _ hr => hr.result_alike

theorem doRunReverse_alike (spec : List Char) (hidden : Nat) (outFile outDir : Option String) (freq boot : Nat) (rev sanitize : Bool)
    (cs cs' : List (Gsw l N)) (h : cs.length = cs'.length) :
    Alike (fun p q => p.map (·.1) = q.map (·.1)) (doRunReverse S spec hidden cs outFile outDir freq boot rev sanitize)
      (doRunReverse S' spec hidden cs' outFile outDir freq boot rev sanitize) := by
  unfold doRunReverse
  refine Alike.bind_same fun _ => Alike.bind_same fun g => Alike.bind_same fun r => ?_
  refine (onlineLoop_alike (Q := Backstream.Same) (fun _ _ c c' hr => Backstream.eval_alike S S' hr c c')
    (fun r r' hr => hr.result_alike.bind fun _ _ _ => Alike.pure hr) outDir freq cs cs' h 0 r r (Backstream.Same.refl r)).bind fun p q hpq => ?_
  refine Alike.bind_same fun f => ?_
  exact hpq.2.result_alike.bind fun _ _ _ => Alike.pure (by simp [hpq.1])

theorem doRunFlut_alike (spec : List Char) (hidden : Nat) (outFile outDir : Option String) (freq qs boot : Nat) (ms : Option Nat)
    (sanitize : Bool) (cs cs' : List (Gsw l N)) (h : cs.length = cs'.length) :
    Alike (fun p q => p.map (·.1) = q.map (·.1)) (doRunFlut S spec hidden cs outFile outDir freq qs boot ms sanitize)
      (doRunFlut S' spec hidden cs' outFile outDir freq qs boot ms sanitize) := by
  unfold doRunFlut
  refine Alike.bind_same fun g => Alike.bind_same fun r => ?_
  by_cases h0 : outDir.isSome ∧ qs = 0
  · rw [if_pos h0, if_pos h0]; rfl
  · rw [if_neg h0, if_neg h0]
    refine (onlineLoop_alike (Q := Flut.Same) (fun _ _ c c' hr => Flut.evalOne_alike S S' hr c c')
      (fun r r' hr => Flut.result_alike S S' hr) outDir freq cs cs' h 0 r r (Flut.Same.refl r)).bind fun p q hpq => ?_
    refine Alike.bind_same fun f => ?_
    exact (Flut.result_alike S S' hpq.2).bind fun _ _ _ => Alike.pure (by simp [hpq.1])

theorem doRunBlock_alike (spec : List Char) (qs : Nat) (sanitize : Bool) (cs cs' : List (Gsw l N)) (h : cs.length = cs'.length) :
    Alike (fun _ _ => True) (doRunBlock S spec cs qs sanitize) (doRunBlock S' spec cs' qs sanitize) := by
  unfold doRunBlock
  refine Alike.bind_same fun g => Alike.bind_same fun r => ?_
  refine (foldlM_alike (fun _ _ c c' hr => Block.evalOne_alike S S' hr c c') h (Block.Same.refl r)).bind fun r r' hr => ?_
  exact (Block.result_alike S S' hr).bind fun _ _ _ => trivial

end Homfa
