import Verif.Proof.LtlTable
import Verif.Proof.Reverse
/-!
# The language of the table built from a monitor
-/

namespace Homfa.Ltl
open Spec

variable {ix : List (Nat × Nat)} {n d ns : Nat}

/-! ## Reversing a table -/

theorem pushAll_ok (x : Nat) (l : List Nat) (P : List (List Nat)) (h : ∀ q ∈ l, q < P.length) :
    ∃ P', l.foldlM (fun p q => pushAt p q x) P = .ok P' ∧ P'.length = P.length ∧
      ∀ q p : Nat, p ∈ (P'[q]?).getD [] ↔ p ∈ (P[q]?).getD [] ∨ (p = x ∧ q ∈ l) := by
  obtain ⟨P', h1, h2, h3⟩ := foldlM_inv (f := fun p q => pushAt p q x)
    (fun pre P' => P'.length = P.length ∧ ∀ q p : Nat, p ∈ (P'[q]?).getD [] ↔ p ∈ (P[q]?).getD [] ∨ (p = x ∧ q ∈ pre)) l (b := P)
    ⟨rfl, by simp⟩ (by
      rintro pre y post P1 hl ⟨g1, g2⟩
      have hy : y < P1.length := by rw [g1]; exact h y (by rw [hl]; simp)
      refine ⟨P1.set y (P1[y] ++ [x]), ?_, by simpa using g1, ?_⟩
      · unfold pushAt
        rw [vat_lt hy, Res.bind_ok, vset_lt hy]
      · intro q p
        rw [List.getElem?_set]
        by_cases e : y = q
        · subst e
          have := g2 y p
          rw [List.getElem?_eq_getElem hy, Option.getD_some] at this
          simp only [hy, if_true, Option.getD_some, List.mem_append, List.mem_singleton, this, or_true, and_true]
          constructor
          · rintro ((h | h) | h)
            · exact .inl h
            · exact .inr h.1
            · exact .inr h
          · rintro (h | h)
            · exact .inl (.inl h)
            · exact .inr h
        · rw [if_neg e, g2]
          simp only [List.mem_append, List.mem_singleton, show q ≠ y from fun h => e h.symm, or_false])
  exact ⟨P', h1, h2, h3⟩

theorem tableStep_row {D : NFADelta} {p q : Nat} {b : Bool} : tableStep D p b q ↔ q ∈ row D p b := by
  unfold tableStep row
  cases h : D[p]? with
  | none => simp
  | some t => simp

theorem reversedNfaDelta_spec {D : NFADelta} (hr : ∀ p b q, tableStep D p b q → q < D.length) :
    ∃ R, reversedNfaDelta D = .ok R ∧ R.length = D.length ∧ ∀ p b q, tableStep R q b p ↔ tableStep D p b q := by
  unfold reversedNfaDelta
  obtain ⟨ps, h1, h2, h3, h4, h5⟩ := foldlM_inv (f := fun (ps : List (List Nat) × List (List Nat)) (e : (Nat × List Nat × List Nat) × Nat) => do
      let p0 ← e.1.2.1.foldlM (fun p q0 => pushAt p q0 e.2) ps.1
      let p1 ← e.1.2.2.foldlM (fun p q1 => pushAt p q1 e.2) ps.2
      pure (p0, p1))
    (fun pre ps => ps.1.length = D.length ∧ ps.2.length = D.length ∧
      (∀ q p : Nat, p ∈ (ps.1[q]?).getD [] ↔ p < pre.length ∧ q ∈ row D p false) ∧
      (∀ q p : Nat, p ∈ (ps.2[q]?).getD [] ↔ p < pre.length ∧ q ∈ row D p true)) D.zipIdx
    (b := (List.replicate D.length [], List.replicate D.length [])) (by
      have : ∀ q : Nat, ((List.replicate D.length ([] : List Nat))[q]?).getD [] = [] := by
        intro q
        rw [List.getElem?_replicate]
        split <;> rfl
      refine ⟨by simp, by simp, ?_, ?_⟩ <;> intro q p <;> dsimp only <;> rw [this] <;> simp) (by
      rintro pre ⟨t, i⟩ post ⟨A, B⟩ hpre ⟨g1, g2, g3, g4⟩
      have hpos : D.zipIdx[pre.length]? = some (t, i) := by rw [hpre]; simp
      rw [List.getElem?_zipIdx] at hpos
      obtain ⟨t', he', hp'⟩ := Option.map_eq_some_iff.1 hpos
      simp only [Nat.zero_add, Prod.mk.injEq] at hp'
      obtain ⟨rfl, rfl⟩ := hp'
      simp only at g1 g2 g3 g4
      have r0 : row D pre.length false = t'.2.1 := by unfold row; rw [he']; rfl
      have r1 : row D pre.length true = t'.2.2 := by unfold row; rw [he']; rfl
      obtain ⟨A', a1, a2, a3⟩ := pushAll_ok pre.length t'.2.1 A (fun q hq => by
        rw [g1]; exact hr pre.length false q (tableStep_row.2 (by rw [r0]; exact hq)))
      obtain ⟨B', b1, b2, b3⟩ := pushAll_ok pre.length t'.2.2 B (fun q hq => by
        rw [g2]; exact hr pre.length true q (tableStep_row.2 (by rw [r1]; exact hq)))
      refine ⟨(A', B'), ?_, a2.trans g1, b2.trans g2, ?_, ?_⟩
      · dsimp only
        rw [a1, Res.bind_ok, b1, Res.bind_ok, Res.pure_eq]
      · intro q p
        dsimp only
        rw [a3, g3, List.length_append]
        simp only [List.length_cons, List.length_nil]
        constructor
        · rintro (⟨h, h'⟩ | ⟨rfl, h'⟩)
          · exact ⟨by omega, h'⟩
          · exact ⟨by omega, by rw [r0]; exact h'⟩
        · rintro ⟨h, h'⟩
          rcases Nat.lt_or_ge p pre.length with hlt | hge
          · exact .inl ⟨hlt, h'⟩
          · have : p = pre.length := by omega
            subst this
            exact .inr ⟨rfl, by rw [← r0]; exact h'⟩
      · intro q p
        dsimp only
        rw [b3, g4, List.length_append]
        simp only [List.length_cons, List.length_nil]
        constructor
        · rintro (⟨h, h'⟩ | ⟨rfl, h'⟩)
          · exact ⟨by omega, h'⟩
          · exact ⟨by omega, by rw [r1]; exact h'⟩
        · rintro ⟨h, h'⟩
          rcases Nat.lt_or_ge p pre.length with hlt | hge
          · exact .inl ⟨hlt, h'⟩
          · have : p = pre.length := by omega
            subst this
            exact .inr ⟨rfl, by rw [← r1]; exact h'⟩)
  rw [h1, Res.bind_ok, mapM_ok (g := fun q => (q, (ps.1[q]?).getD [], (ps.2[q]?).getD []))]
  · refine ⟨_, rfl, by simp, ?_⟩
    intro p b q
    rw [tableStep_row, tableStep_row]
    unfold row
    rw [List.getElem?_map]
    rcases Nat.lt_or_ge q D.length with hq | hq
    · rw [List.getElem?_range hq]
      simp only [Option.map_some]
      have key : ∀ b, (p < D.zipIdx.length ∧ q ∈ row D p b) ↔ q ∈ row D p b := by
        intro b
        refine ⟨fun h => h.2, fun h => ⟨?_, h⟩⟩
        rw [List.length_zipIdx]
        rcases Nat.lt_or_ge p D.length with h' | h'
        · exact h'
        · unfold row at h; rw [List.getElem?_eq_none h'] at h; simp at h
      cases b
      · simp only [Bool.false_eq_true, if_false]
        rw [h4, key]; unfold row; simp
      · simp only [if_true]
        rw [h5, key]; unfold row; simp
    · rw [List.getElem?_eq_none (by simpa using hq)]
      simp only [Option.map_none, List.not_mem_nil, false_iff]
      intro h
      have := hr p b q (tableStep_row.2 (by unfold row; exact h))
      omega
  · intro q hq
    have hq : q < D.length := by simpa using hq
    rw [vat_lt (by rw [h2]; exact hq), Res.bind_ok, vat_lt (by rw [h3]; exact hq), Res.bind_ok, Res.pure_eq,
      List.getElem?_eq_getElem (by rw [h2]; exact hq), List.getElem?_eq_getElem (by rw [h3]; exact hq)]
    rfl

/-! ## Reading one letter -/

/-- What is left of a diagram after the bits with indices `k`, `k + 1`, ... -/
def rest (ix : List (Nat × Nat)) : Nat → Bdd → List Bool → Bdd
  | _, b, [] => b
  | k, b, c :: u => rest ix (k + 1) (nxt ix k b c) u

theorem Ord.nxt {k : Nat} {b : Bdd} (h : Ord ix n k b) (c : Bool) : Ord ix n (k + 1) (nxt ix k b c) := by
  cases b with
  | ff => trivial
  | tt => trivial
  | node v lo hi =>
    obtain ⟨i, h1, h2, h3, h4, h5⟩ := h
    simp only [Ltl.nxt]
    split
    · rename_i e
      rw [h1] at e
      cases e
      cases c
      · exact h4
      · exact h5
    · rename_i e
      refine ⟨i, h1, ?_, h3, h4, h5⟩
      rw [h1] at e
      have : i ≠ k := fun h => e (by rw [h])
      omega

theorem Sat.of_nxt {k : Nat} {b : Bdd} {c : Bool} (h : Sat (nxt ix k b c)) : Sat b := by
  cases b with
  | ff => exact h
  | tt => exact h
  | node v lo hi =>
    simp only [nxt] at h
    split at h
    · cases c
      · exact .inl h
      · exact .inr h
    · exact h

theorem Sat.of_rest : ∀ {u : List Bool} {k : Nat} {b : Bdd}, Sat (rest ix k b u) → Sat b
  | [], _, _, h => h
  | _ :: _, _, _, h => (Sat.of_rest (b := nxt _ _ _ _) h).of_nxt

theorem Ord.const {b : Bdd} (h : Ord ix n n b) : b = .tt ∨ b = .ff := by
  cases b with
  | ff => exact .inr rfl
  | tt => exact .inl rfl
  | node v lo hi =>
    obtain ⟨i, _, h2, h3, _⟩ := h
    omega

theorem exists_sat_nxt {k : Nat} {b : Bdd} (h : Sat b) : ∃ c, Sat (nxt ix k b c) := by
  cases b with
  | ff => exact h.elim
  | tt => exact ⟨false, trivial⟩
  | node v lo hi =>
    simp only [nxt]
    by_cases e : List.lookup v ix = some k
    · simp only [e, if_true]
      rcases h with h | h
      · exact ⟨false, h⟩
      · exact ⟨true, h⟩
    · simp only [e, if_false]
      exact ⟨false, h⟩

/-- A satisfiable diagram has a word leading to true. -/
theorem exists_rest : ∀ {m k : Nat} {b : Bdd}, k + m = n → Ord ix n k b → Sat b → ∃ u : List Bool, u.length = m ∧ rest ix k b u = .tt
  | 0, k, b, hk, ho, hs => by
    have : k = n := by omega
    subst this
    rcases ho.const with rfl | rfl
    · exact ⟨[], rfl, rfl⟩
    · exact hs.elim
  | m + 1, k, b, hk, ho, hs => by
    obtain ⟨c, hc⟩ := exists_sat_nxt (ix := ix) (k := k) hs
    obtain ⟨u, h1, h2⟩ := exists_rest (m := m) (k := k + 1) (by omega) (ho.nxt c) hc
    exact ⟨c :: u, by simp [h1], h2⟩

theorem bddEval_nxt {val : Nat → Bool} {k : Nat} {b : Bdd} {c : Bool} (h : ∀ v, ix.lookup v = some k → val v = c) :
    bddEval val (nxt ix k b c) = bddEval val b := by
  cases b with
  | ff => rfl
  | tt => rfl
  | node v lo hi =>
    simp only [nxt]
    split
    · rename_i e
      simp only [bddEval, h v e]
      cases c <;> rfl
    · rfl

/-- Following the bits is evaluating the diagram. -/
theorem rest_iff_eval {val : Nat → Bool} : ∀ {u : List Bool} {k : Nat} {b : Bdd}, k + u.length = n → Ord ix n k b →
    (∀ v i, ix.lookup v = some i → k ≤ i → i < n → u[i - k]? = some (val v)) → (rest ix k b u = .tt ↔ bddEval val b = true)
  | [], k, b, hk, ho, _ => by
    have : k = n := by simpa using hk
    subst this
    rcases ho.const with rfl | rfl <;> simp [rest, bddEval]
  | c :: u, k, b, hk, ho, hv => by
    simp only [List.length_cons] at hk
    have hc : ∀ v, ix.lookup v = some k → val v = c := by
      intro v h
      have := hv v k h (Nat.le_refl k) (by omega)
      simp at this
      exact this.symm
    show rest ix (k + 1) (nxt ix k b c) u = .tt ↔ _
    rw [rest_iff_eval (u := u) (k := k + 1) (by omega) (ho.nxt c), bddEval_nxt hc]
    intro v i h1 h2 h3
    have := hv v i h1 (by omega) h3
    rw [show i - k = (i - (k + 1)) + 1 by omega, List.getElem?_cons_succ] at this
    exact this

/-! ## Paths in the table -/

variable {done : Nat → List (Bdd × Nat)} {L : List Lab} {D : NFADelta}

theorem Path.split {σ : Type} {step : σ → Bool → σ → Prop} {u v : List Bool} {p r : σ} (h : Path step p (u ++ v) r) :
    ∃ q, Path step p u q ∧ Path step q v r := by
  induction u generalizing p with
  | nil => exact ⟨p, .nil _, h⟩
  | cons c u ih =>
    cases h with
    | cons hs hp =>
      obtain ⟨q, h1, h2⟩ := ih hp
      exact ⟨q, .cons hs h1, h2⟩

theorem TInv.lt (hT : TInv ix n ns done L D) {x k : Nat} {b : Bdd} (h : L[x]? = some (some (k, b, d))) : ns ≤ x := by
  rcases Nat.lt_or_ge x ns with h' | h'
  · rw [hT.mon x h'] at h; cases h
  · exact h'

theorem TInv.info (hT : TInv ix n ns done L D) {x k : Nat} {b : Bdd} (h : L[x]? = some (some (k, b, d))) :
    k < n ∧ d < ns ∧ Sat b ∧ Ord ix n k b ∧ RowOk ix n D L x k b d := by
  obtain ⟨k', b', d', h1, h2⟩ := hT.lab x (hT.lt h) (lt_of_get h)
  rw [h] at h1
  cases h1
  exact h2

/-- Where a path leads from a state that stands for a diagram. -/
theorem TInv.path_rep (hT : TInv ix n ns done L D) : ∀ {u : List Bool} {k : Nat} {b : Bdd} {x y : Nat}, Rep L n d k b x →
    k + u.length ≤ n → Path (tableStep D) x u y → Rep L n d (k + u.length) (rest ix k b u) y
  | [], k, b, x, y, hr, _, hp => by
    cases hp
    simpa [rest] using hr
  | c :: u, k, b, x, y, hr, hk, hp => by
    simp only [List.length_cons] at hk
    cases hp with
    | cons hs hp =>
      rename_i z
      rcases hr with ⟨h, _⟩ | ⟨_, hl⟩
      · omega
      · obtain ⟨_, _, _, _, hrow⟩ := hT.info hl
        have hz := tableStep_row.1 hs
        by_cases hsat : Sat (nxt ix k b c)
        · obtain ⟨x', h1, h2⟩ := (hrow c).1 hsat
          rw [h1, List.mem_singleton] at hz
          subst hz
          have := TInv.path_rep hT (u := u) h2 (by omega) hp
          rw [List.length_cons, show k + (u.length + 1) = k + 1 + u.length by omega]
          exact this
        · rw [(hrow c).2 hsat] at hz
          cases hz

/-- A satisfied diagram has a path. -/
theorem TInv.rep_path (hT : TInv ix n ns done L D) : ∀ {u : List Bool} {k : Nat} {b : Bdd} {x : Nat}, Rep L n d k b x →
    k + u.length = n → rest ix k b u = .tt → Path (tableStep D) x u d
  | [], k, b, x, hr, hk, _ => by
    simp only [List.length_nil, Nat.add_zero] at hk
    rcases hr with ⟨_, _, rfl⟩ | ⟨h, _⟩
    · exact .nil _
    · omega
  | c :: u, k, b, x, hr, hk, he => by
    simp only [List.length_cons] at hk
    rcases hr with ⟨h, _⟩ | ⟨_, hl⟩
    · omega
    · obtain ⟨_, _, _, _, hrow⟩ := hT.info hl
      have hsat : Sat (nxt ix k b c) := by
        have : Sat (rest ix (k + 1) (nxt ix k b c) u) := by
          have : rest ix (k + 1) (nxt ix k b c) u = .tt := he
          rw [this]; trivial
        exact this.of_rest
      obtain ⟨x', h1, h2⟩ := (hrow c).1 hsat
      exact .cons (tableStep_row.2 (by rw [h1]; simp)) (TInv.rep_path hT (u := u) h2 (by omega) he)

/-- Runs over letters in terms of `rest`. -/
inductive LRun (ix : List (Nat × Nat)) (n : Nat) (done : Nat → List (Bdd × Nat)) : Nat → List (List Bool) → Nat → Prop
  | nil (q : Nat) : LRun ix n done q [] q
  | cons {p r : Nat} {a : List Bool} {as : List (List Bool)} {e : Bdd × Nat} :
      e ∈ done p → a.length = n → rest ix 0 e.1 a = .tt → LRun ix n done e.2 as r → LRun ix n done p (a :: as) r

theorem LRun.append {p q r : Nat} {as bs : List (List Bool)} (h : LRun ix n done p as q) (h' : LRun ix n done q bs r) :
    LRun ix n done p (as ++ bs) r := by
  induction h with
  | nil => exact h'
  | cons h1 h2 h3 _ ih => exact .cons h1 h2 h3 (ih h')

theorem LRun.lengths {p r : Nat} {as : List (List Bool)} (h : LRun ix n done p as r) : ∀ a ∈ as, a.length = n := by
  induction h with
  | nil => simp
  | cons _ h2 _ _ ih =>
    intro a ha
    rcases List.mem_cons.1 ha with rfl | ha
    · exact h2
    · exact ih a ha

theorem TInv.run_path (hT : TInv ix n ns done L D) (hn : 0 < n) (hd : ∀ q < ns, ∀ e ∈ done q, e.2 < ns) {p r : Nat} {as : List (List Bool)}
    (h : LRun ix n done p as r) (hp : p < ns) : Path (tableStep D) p as.flatten r ∧ r < ns := by
  induction h with
  | nil => exact ⟨.nil _, hp⟩
  | @cons p r a as e h1 h2 h3 _ ih =>
    obtain ⟨i1, i2⟩ := ih (hd p hp e h1)
    refine ⟨?_, i2⟩
    rw [List.flatten_cons]
    refine Spec.Path.append ?_ i1
    match a, h2, h3 with
    | [], h2, _ => simp at h2; omega
    | c :: u, h2, h3 =>
      simp only [List.length_cons] at h2
      have hsat : Sat (nxt ix 0 e.1 c) := by
        have : Sat (rest ix 1 (nxt ix 0 e.1 c) u) := by
          have : rest ix 1 (nxt ix 0 e.1 c) u = .tt := h3
          rw [this]; trivial
        exact this.of_rest
      obtain ⟨x, x1, x2⟩ := (hT.src p hp c).2 e h1 hsat
      exact .cons (tableStep_row.2 x1) (hT.rep_path x2 (by omega) h3)

/-- Where a path from a state of the monitor leads. -/
theorem TInv.path_run (hT : TInv ix n ns done L D) (hd : ∀ q < ns, ∀ e ∈ done q, e.2 < ns) : ∀ (m : Nat) {w : List Bool} {p y : Nat},
    w.length ≤ m → p < ns → Path (tableStep D) p w y →
    ∃ as q u, LRun ix n done p as q ∧ q < ns ∧ w = as.flatten ++ u ∧
      ((u = [] ∧ y = q) ∨ (∃ e ∈ done q, L[y]? = some (some (u.length, rest ix 0 e.1 u, e.2)))) := by
  intro m
  induction m with
  | zero =>
    intro w p y hw hp h
    have : w = [] := List.length_eq_zero_iff.1 (by omega)
    subst this
    cases h
    exact ⟨[], p, [], .nil _, hp, rfl, .inl ⟨rfl, rfl⟩⟩
  | succ m ih =>
    intro w p y hw hp h
    cases h with
    | nil => exact ⟨[], p, [], .nil _, hp, rfl, .inl ⟨rfl, rfl⟩⟩
    | @cons _ x _ c w' hs hpath =>
      obtain ⟨e, e1, e2, e3⟩ := (hT.src p hp c).1 x (tableStep_row.1 hs)
      simp only [List.length_cons] at hw
      rcases Nat.lt_or_ge (1 + w'.length) n with hlt | hge
      · have := hT.path_rep e3 (by omega) hpath
        rcases this with ⟨h, _⟩ | ⟨_, h⟩
        · omega
        · refine ⟨[], p, c :: w', .nil _, hp, rfl, .inr ⟨e, e1, ?_⟩⟩
          rw [List.length_cons, Nat.add_comm]
          exact h
      · have hn1 : 1 ≤ n := by
          rcases e3 with ⟨h, _⟩ | ⟨h, _⟩ <;> omega
        have hsplit : w' = w'.take (n - 1) ++ w'.drop (n - 1) := (List.take_append_drop _ _).symm
        rw [hsplit] at hpath
        obtain ⟨z, z1, z2⟩ := Path.split hpath
        have hlen : (w'.take (n - 1)).length = n - 1 := by rw [List.length_take]; omega
        have := hT.path_rep e3 (by omega) z1
        rw [hlen] at this
        rcases this with ⟨_, hrest, rfl⟩ | ⟨h, _⟩
        · obtain ⟨as, q, u, k1, k2, k3, k4⟩ := ih (w := w'.drop (n - 1)) (by rw [List.length_drop]; omega) (hd p hp e e1) z2
          refine ⟨(c :: w'.take (n - 1)) :: as, q, u, .cons e1 (by simp only [List.length_cons]; omega) hrest k1, k2, ?_, k4⟩
          rw [List.flatten_cons, List.append_assoc, ← k3, List.cons_append, ← hsplit]
        · omega

/-- A path stays in the table. -/
theorem TInv.path_lt (hT : TInv ix n ns done L D) (hd : ∀ q < ns, ∀ e ∈ done q, e.2 < ns) {p : Nat} {b : Bool} {q : Nat}
    (h : tableStep D p b q) : q < D.length := by
  have hq := tableStep_row.1 h
  have hrep : ∀ {k : Nat} {b : Bdd} {x : Nat} {d : Nat}, d < ns → Rep L n d k b x → x < D.length := by
    intro k b x d hd hr
    rw [← hT.len]
    rcases hr with ⟨_, _, rfl⟩ | ⟨_, h⟩
    · exact Nat.lt_of_lt_of_le hd hT.nsLe
    · exact lt_of_get h
  rcases Nat.lt_or_ge p ns with hp | hp
  · obtain ⟨e, e1, _, e3⟩ := (hT.src p hp b).1 q hq
    exact hrep (hd p hp e e1) e3
  · rcases Nat.lt_or_ge p D.length with hp' | hp'
    · obtain ⟨k, b', d, _, _, h3, _, _, hrow⟩ := hT.lab p hp (by rw [hT.len]; exact hp')
      by_cases hsat : Sat (nxt ix k b' b)
      · obtain ⟨x', h1, h2⟩ := (hrow b).1 hsat
        rw [h1, List.mem_singleton] at hq
        subst hq
        exact hrep h3 h2
      · rw [(hrow b).2 hsat] at hq
        cases hq
    · unfold row at hq
      rw [List.getElem?_eq_none hp'] at hq
      cases hq

theorem paths_lt {D : NFADelta} (h : ∀ p b q, tableStep D p b q → q < D.length) {p q : Nat} {w : List Bool} (hp : p < D.length)
    (hpath : Path (tableStep D) p w q) : q < D.length := by
  induction hpath with
  | nil => exact hp
  | cons hs _ ih => exact ih (h _ _ _ hs)

/-! ## From the specification to the model -/

theorem var2idx_lookup {f : Nat → Option Nat} {n : Nat} (hd : ∀ i j v, i < n → j < n → f i = some v → f j = some v → i = j) {v i : Nat} :
    (var2idx f n).lookup v = some i ↔ i < n ∧ f i = some v := by
  have key : ∀ l : List Nat, (∀ i ∈ l, i < n) →
      ((l.filterMap fun i => (f i).map fun v => (v, i)).lookup v = some i ↔ i ∈ l ∧ f i = some v) := by
    intro l
    induction l with
    | nil => simp
    | cons j l ih =>
      intro hl
      have ih := ih (fun i hi => hl i (List.mem_cons_of_mem _ hi))
      have hj := hl j (by simp)
      rw [List.filterMap_cons]
      cases hf : f j with
      | none =>
        simp only [Option.map_none]
        rw [ih]
        constructor
        · rintro ⟨h1, h2⟩; exact ⟨List.mem_cons_of_mem _ h1, h2⟩
        · rintro ⟨h1, h2⟩
          rcases List.mem_cons.1 h1 with rfl | h1
          · rw [hf] at h2; cases h2
          · exact ⟨h1, h2⟩
      | some u =>
        simp only [Option.map_some, List.lookup_cons]
        by_cases e : v = u
        · subst e
          simp only [beq_self_eq_true]
          constructor
          · intro h; cases h; exact ⟨by simp, hf⟩
          · rintro ⟨h1, h2⟩
            rw [hd i j v (hl i h1) hj h2 hf]
        · have : (v == u) = false := by simpa using e
          rw [this]
          simp only
          rw [ih]
          constructor
          · rintro ⟨h1, h2⟩; exact ⟨List.mem_cons_of_mem _ h1, h2⟩
          · rintro ⟨h1, h2⟩
            rcases List.mem_cons.1 h1 with rfl | h1
            · rw [hf] at h2; cases h2; exact absurd rfl e
            · exact ⟨h1, h2⟩
  have := key (List.range n) (fun i hi => List.mem_range.1 hi)
  rw [List.mem_range] at this
  exact this

theorem ord_of_ordered {f : Nat → Option Nat} (hd : ∀ i j v, i < n → j < n → f i = some v → f j = some v → i = j) :
    ∀ {b : Bdd} {k : Nat}, OrderedBdd f n k b → Ord (var2idx f n) n k b := by
  intro b
  induction b with
  | ff => exact fun _ => trivial
  | tt => exact fun _ => trivial
  | node v lo hi ihl ihr =>
    rintro k ⟨i, h1, h2, h3, h4, h5⟩
    exact ⟨i, (var2idx_lookup hd).2 ⟨h3, h1⟩, h2, h3, ihl h4, ihr h5⟩

theorem sat_of_eval {val : Nat → Bool} : ∀ {b : Bdd}, bddEval val b = true → Sat b := by
  intro b
  induction b with
  | ff => intro h; cases h
  | tt => exact fun _ => trivial
  | node v lo hi ihl ihr =>
    intro h
    simp only [bddEval] at h
    split at h
    · exact .inr (ihr h)
    · exact .inl (ihl h)

theorem satisfies_iff {M : Monitor} (hd : ∀ i j v, i < n → j < n → M.varOf i = some v → M.varOf j = some v → i = j) {c : Bdd}
    (ho : OrderedBdd M.varOf n 0 c) {a : List Bool} (ha : a.length = n) :
    Satisfies M a c ↔ rest (var2idx M.varOf n) 0 c a = .tt := by
  constructor
  · rintro ⟨val, h1, h2⟩
    rw [rest_iff_eval (n := n) (by omega) (ord_of_ordered hd ho) (val := val)]
    · exact h2
    · intro v i g1 _ g3
      rw [Nat.sub_zero]
      exact h1 i v ((var2idx_lookup hd).1 g1).2 (by omega)
  · intro h
    let val : Nat → Bool := fun v => match (var2idx M.varOf n).lookup v with
      | some i => a.getD i false
      | none => false
    have hv : ∀ i v, i < n → M.varOf i = some v → a[i]? = some (val v) := by
      intro i v h1 h2
      have hl := (var2idx_lookup hd).2 ⟨h1, h2⟩
      have : val v = a.getD i false := by simp only [val, hl]
      rw [this, List.getElem?_eq_getElem (by omega)]
      simp [List.getD, show i < a.length by omega]
    refine ⟨val, fun i v h1 h2 => hv i v (by omega) h1, ?_⟩
    rw [rest_iff_eval (n := n) (by omega) (ord_of_ordered hd ho) (val := val)] at h
    · exact h
    · intro v i g1 _ g3
      rw [Nat.sub_zero]
      exact hv i v g3 ((var2idx_lookup hd).1 g1).2

theorem lrun_iff {M : Monitor} (hM : MonitorOk M n) {p r : Nat} {as : List (List Bool)} :
    LRun (var2idx M.varOf n) n (fun q => (M.out[q]?).getD []) p as r ↔ (∀ a ∈ as, a.length = n) ∧ MonitorRun M p as r := by
  constructor
  · intro h
    refine ⟨h.lengths, ?_⟩
    induction h with
    | nil => exact .nil _
    | @cons p r a as e h1 h2 h3 _ ih =>
      cases ho : M.out[p]? with
      | none => simp [ho] at h1
      | some es =>
        simp only [ho, Option.getD_some] at h1
        exact .cons ho h1 ((satisfies_iff hM.distinct (hM.ordered es (List.mem_of_getElem? ho) e h1) h2).2 h3) ih
  · rintro ⟨hl, h⟩
    induction h with
    | nil => exact .nil _
    | @cons p q r a as es c h1 h2 h3 _ ih =>
      have ha := hl a (by simp)
      exact .cons (e := (c, q)) (by simpa [h1] using h2) ha
        ((satisfies_iff hM.distinct (hM.ordered es (List.mem_of_getElem? h1) _ h2) ha).1 h3) (ih fun a h => hl a (List.mem_cons_of_mem _ h))

/-- The table of a well-formed monitor: its paths and the words it accepts. -/
theorem nfaTuple_lang {M : Monitor} (hn : 0 < n) (hM : MonitorOk M n) (allFinal : Bool) :
    ∃ F D, nfaTuple M n allFinal = .ok ([M.init], F, D) ∧ SSorted F ∧ (∀ q ∈ F, q < D.length) ∧ M.init < D.length ∧
      (∀ p b q, tableStep D p b q → q < D.length) ∧
      ∀ w, NfaAccepts (· ∈ [M.init]) (· ∈ F) (tableStep D) w ↔
        if allFinal then ∃ v, MonitorAccepts M n (w ++ v) else MonitorAccepts M n w := by
  obtain ⟨D, L, h1, hT⟩ := nfaTuple_spec (n := n) hn hM.dst_lt (fun es hes e he => by
      obtain ⟨val, hv⟩ := hM.satisfiable es hes e he
      exact sat_of_eval hv) (fun es hes e he => ord_of_ordered hM.distinct (hM.ordered es hes e he)) allFinal
  have hd : ∀ q < M.out.length, ∀ e ∈ (M.out[q]?).getD [], e.2 < M.out.length := by
    intro q hq e he
    rw [List.getElem?_eq_getElem hq, Option.getD_some] at he
    exact hM.dst_lt _ (List.getElem_mem hq) e he
  have hord : ∀ q < M.out.length, ∀ e ∈ (M.out[q]?).getD [], Ord (var2idx M.varOf n) n 0 e.1 := by
    intro q hq e he
    rw [List.getElem?_eq_getElem hq, Option.getD_some] at he
    exact ord_of_ordered hM.distinct (hM.ordered _ (List.getElem_mem hq) e he)
  have hns : M.out.length ≤ D.length := by rw [← hT.len]; exact hT.nsLe
  have hinit := hM.init_lt
  have hstep : ∀ p b q, tableStep D p b q → q < D.length := fun p b q h => hT.path_lt hd h
  refine ⟨_, D, h1, ssorted_range _, ?_, by omega, hstep, ?_⟩
  · intro q hq
    have := List.mem_range.1 hq
    split at this <;> omega
  · intro w
    cases allFinal with
    | false =>
      simp only [Bool.false_eq_true, if_false]
      constructor
      · rintro ⟨p, r, hp, hpath, hr⟩
        have hp : p = M.init := by simpa using hp
        subst hp
        obtain ⟨as, q, u, k1, k2, k3, k4⟩ := hT.path_run hd _ (Nat.le_refl _) hinit hpath
        rcases k4 with ⟨rfl, rfl⟩ | ⟨e, _, k4⟩
        · obtain ⟨l1, l2⟩ := (lrun_iff hM).1 k1
          exact ⟨as, r, l1, by simpa using k3, l2⟩
        · have := hT.lt k4
          have := List.mem_range.1 hr
          omega
      · rintro ⟨as, q, k1, rfl, k3⟩
        obtain ⟨h2, h3⟩ := hT.run_path hn hd ((lrun_iff hM).2 ⟨k1, k3⟩) hinit
        exact ⟨M.init, q, by simp, h2, List.mem_range.2 h3⟩
    | true =>
      simp only [if_true]
      constructor
      · rintro ⟨p, r, hp, hpath, hr⟩
        have hp : p = M.init := by simpa using hp
        subst hp
        obtain ⟨as, q, u, k1, k2, k3, k4⟩ := hT.path_run hd _ (Nat.le_refl _) hinit hpath
        rcases k4 with ⟨rfl, rfl⟩ | ⟨e, e1, k4⟩
        · obtain ⟨l1, l2⟩ := (lrun_iff hM).1 k1
          exact ⟨[], as, r, l1, by simpa using k3, l2⟩
        · obtain ⟨i1, i2, i3, i4, _⟩ := hT.info k4
          obtain ⟨v, v1, v2⟩ := exists_rest (m := n - u.length) (by omega) i4 i3
          have happ : ∀ (u : List Bool) (k : Nat) (b : Bdd), rest (var2idx M.varOf n) k b (u ++ v) =
              rest (var2idx M.varOf n) (k + u.length) (rest (var2idx M.varOf n) k b u) v := by
            intro u
            induction u with
            | nil => intro k b; rfl
            | cons c u ih =>
              intro k b
              show rest _ (k + 1) _ (u ++ v) = _
              rw [ih, List.length_cons, show k + 1 + u.length = k + (u.length + 1) by omega]
              rfl
          have hlast : LRun (var2idx M.varOf n) n (fun q => (M.out[q]?).getD []) q [u ++ v] e.2 :=
            .cons e1 (by rw [List.length_append]; omega) (by rw [happ, Nat.zero_add]; exact v2) (.nil _)
          obtain ⟨l1, l2⟩ := (lrun_iff hM).1 (k1.append hlast)
          exact ⟨v, as ++ [u ++ v], e.2, l1, by rw [k3]; simp, l2⟩
      · rintro ⟨v, as, q, k1, k2, k3⟩
        obtain ⟨h2, h3⟩ := hT.run_path hn hd ((lrun_iff hM).2 ⟨k1, k3⟩) hinit
        rw [← k2] at h2
        obtain ⟨y, y1, _⟩ := Path.split h2
        exact ⟨M.init, y, by simp, y1, List.mem_range.2 (paths_lt hstep (by omega) y1)⟩

end Homfa.Ltl

namespace Homfa.Ltl
open Spec

/-! ## No propositions -/

theorem expandEdge_zero {ix : List (Nat × Nat)} {ns src d : Nat} (hd : d < ns) :
    expandEdge ix 0 src ((List.range ns).map fun i => (i, [], [])) (.tt, d) = .ok ((List.range ns).map fun i => (i, [], [])) := by
  have h1 : expandEdge ix 0 src ((List.range ns).map fun i => (i, [], [])) (.tt, d) =
      addSrc ((List.range ns).map fun i => (i, [], [])) src d := rfl
  rw [h1]
  unfold addSrc
  rw [vat_lt (by simpa using hd), Res.bind_ok]
  simp only [List.getElem_map, List.getElem_range]
  rfl

theorem nfaTuple_zero {M : Monitor} (hd : ∀ es ∈ M.out, ∀ e ∈ es, e.2 < M.out.length) (ht : ∀ es ∈ M.out, ∀ e ∈ es, e.1 = .tt) (allFinal : Bool) :
    nfaTuple M 0 allFinal = .ok ([M.init], List.range M.out.length, (List.range M.out.length).map fun i => (i, [], [])) := by
  unfold nfaTuple
  dsimp only
  obtain ⟨D, h1, h2⟩ := foldlM_inv (f := fun delta (p : List (Bdd × Nat) × Nat) => p.1.foldlM (expandEdge (var2idx M.varOf 0) 0 p.2) delta)
    (fun _ D => D = (List.range M.out.length).map fun i => (i, [], [])) M.out.zipIdx
    (b := (List.range M.out.length).map fun i => (i, [], [])) rfl (by
      rintro pre ⟨es, src⟩ post D hpre rfl
      have hes : es ∈ M.out := List.mem_of_getElem? (List.mk_mem_zipIdx_iff_getElem?.1 (show (es, src) ∈ M.out.zipIdx by rw [hpre]; simp))
      refine foldlM_inv (f := expandEdge (var2idx M.varOf 0) 0 src)
        (fun _ D => D = (List.range M.out.length).map fun i => (i, [], [])) es rfl ?_
      rintro pre' ⟨c, d⟩ post' D he rfl
      have hem : (c, d) ∈ es := by rw [he]; simp
      have := ht es hes _ hem
      simp only at this
      subst this
      exact ⟨_, expandEdge_zero (hd es hes _ hem), rfl⟩)
  rw [h1, Res.bind_ok, h2, Res.pure_eq]
  simp

/-- `nfaTuple_lang` without the hypothesis that there is a proposition. -/
theorem nfaTuple_lang' {n : Nat} {M : Monitor} (hM : MonitorOk M n) (allFinal : Bool) :
    ∃ F D, nfaTuple M n allFinal = .ok ([M.init], F, D) ∧ SSorted F ∧ (∀ q ∈ F, q < D.length) ∧ M.init < D.length ∧
      (∀ p b q, tableStep D p b q → q < D.length) ∧
      ∀ w, NfaAccepts (· ∈ [M.init]) (· ∈ F) (tableStep D) w ↔
        if allFinal then ∃ v, MonitorAccepts M n (w ++ v) else MonitorAccepts M n w := by
  rcases Nat.eq_zero_or_pos n with rfl | hn
  · have hstep : ∀ p b q, ¬ tableStep ((List.range M.out.length).map fun i => (i, [], [])) p b q := by
      rintro p b q ⟨t, h1, h2⟩
      obtain ⟨i, _, rfl⟩ := List.mem_map.1 (List.mem_of_getElem? h1)
      simp at h2
    refine ⟨_, _, nfaTuple_zero hM.dst_lt ?_ allFinal, ssorted_range _, by simp, by simpa using hM.init_lt,
      fun p b q h => absurd h (hstep p b q), ?_⟩
    · intro es hes e he
      have ho := hM.ordered es hes e he
      obtain ⟨val, hv⟩ := hM.satisfiable es hes e he
      cases hc : e.1 with
      | ff => rw [hc] at hv; cases hv
      | tt => rfl
      | node v lo hi =>
        rw [hc] at ho
        obtain ⟨i, _, _, h, _⟩ := ho
        omega
    · intro w
      have hl : NfaAccepts (· ∈ [M.init]) (· ∈ List.range M.out.length)
          (tableStep ((List.range M.out.length).map fun i => (i, [], []))) w ↔ w = [] := by
        constructor
        · rintro ⟨p, r, _, hp, _⟩
          cases hp with
          | nil => rfl
          | cons h _ => exact absurd h (hstep _ _ _)
        · rintro rfl
          exact ⟨M.init, M.init, by simp, .nil _, by simpa using hM.init_lt⟩
      have hr : ∀ w, MonitorAccepts M 0 w ↔ w = [] := by
        intro w
        constructor
        · rintro ⟨as, q, h1, rfl, _⟩
          rw [List.flatten_eq_nil_iff]
          exact fun l hl => List.length_eq_zero_iff.1 (h1 l hl)
        · rintro rfl
          exact ⟨[], M.init, by simp, rfl, .nil _⟩
      rw [hl]
      cases allFinal
      · simp [hr]
      · simp [hr]
  · exact nfaTuple_lang hn hM allFinal

end Homfa.Ltl
