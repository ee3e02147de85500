import Verif.Model.Minimize
import Verif.Proof.Graph
import Mathlib.Data.List.Basic
import Mathlib.Data.List.Nodup
/-! The table-filling algorithm marks exactly the distinguishable pairs. -/

namespace Homfa

theorem foldlM_flatMap {α β γ : Type _} (f : γ → β → Res γ) (F : α → List β) (l : List α) (s : γ) :
    (l.flatMap F).foldlM f s = l.foldlM (fun s x => (F x).foldlM f s) s := by
  induction l generalizing s with
  | nil => rfl
  | cons x l ih =>
    rw [List.flatMap_cons, List.foldlM_append, List.foldlM_cons]
    congr 1
    funext s'
    exact ih s'

namespace Graph

/-- Acceptance from state `q`. -/
def accFrom (g : Graph) (q : Nat) (w : List Bool) : Bool := g.fin (w.foldl g.nx q)

/-- Language equivalence of states. -/
def Equiv (g : Graph) (a b : Nat) : Prop := ∀ w, g.accFrom a w = g.accFrom b w

theorem Equiv.symm {g : Graph} {a b : Nat} (h : g.Equiv a b) : g.Equiv b a := fun w => (h w).symm
theorem Equiv.trans {g : Graph} {a b c : Nat} (h : g.Equiv a b) (h' : g.Equiv b c) : g.Equiv a c := fun w => (h w).trans (h' w)
theorem Equiv.next {g : Graph} {a b : Nat} (h : g.Equiv a b) (i : Bool) : g.Equiv (g.nx a i) (g.nx b i) :=
  fun w => h (i :: w)
theorem Equiv.fin {g : Graph} {a b : Nat} (h : g.Equiv a b) : g.fin a = g.fin b := h []

/-- table entry of an ordered pair -/
def mkd (n : Nat) (t : List Bool) (a b : Nat) : Prop := t[a + b * n]? = some true

/-- table entry of an unordered pair -/
def mkS (n : Nat) (t : List Bool) (a b : Nat) : Prop := (a < b ∧ mkd n t a b) ∨ (b < a ∧ mkd n t b a)

theorem idx_inj2 {n a b c d : Nat} (ha : a < n) (hc : c < n) (h : a + b * n = c + d * n) : a = c ∧ b = d := by
  have h1 : (a + b * n) % n = a := by rw [Nat.add_mul_mod_self_right, Nat.mod_eq_of_lt ha]
  have h2 : (c + d * n) % n = c := by rw [Nat.add_mul_mod_self_right, Nat.mod_eq_of_lt hc]
  have h3 : a = c := by rw [← h1, ← h2, h]
  subst h3
  refine ⟨rfl, ?_⟩
  have : b * n = d * n := by omega
  exact Nat.eq_of_mul_eq_mul_right (by omega) this

theorem idx_lt {n a b : Nat} (ha : a < n) (hb : b < n) : a + b * n < n * n := by
  have : b * n + n ≤ n * n := by
    have := Nat.mul_le_mul_right n (show b + 1 ≤ n by omega)
    rw [Nat.succ_mul] at this; exact this
  omega

theorem mk_set {n a b c d : Nat} {t : List Bool} (ht : t.length = n * n) (ha : a < n) (hb : b < n) (hc : c < n) :
    mkd n (t.set (a + b * n) true) c d ↔ mkd n t c d ∨ (c = a ∧ d = b) := by
  unfold mkd
  rw [List.getElem?_set]
  by_cases h : a + b * n = c + d * n
  · obtain ⟨rfl, rfl⟩ := idx_inj2 ha hc h
    simp [ht, idx_lt ha hb]
  · rw [if_neg h]
    constructor
    · exact .inl
    · rintro (h' | ⟨rfl, rfl⟩)
      · exact h'
      · exact absurd rfl h

/-- Invariant of the table-filling loop; `pend a b` says that the predecessors of (a,b) may still have to be looked at
although the pair is not in the queue. -/
structure TInv (g : Graph) (s : TableSt) (pend : Nat → Nat → Prop) : Prop where
  len : s.1.length = g.size * g.size
  sound : ∀ a b, a < b → b < g.size → mkd g.size s.1 a b → ¬ g.Equiv a b
  que : ∀ p ∈ s.2, p.1 < p.2 ∧ p.2 < g.size ∧ mkd g.size s.1 p.1 p.2
  base : ∀ a b, a < b → b < g.size → g.fin a ≠ g.fin b → mkd g.size s.1 a b
  clos : ∀ a b, a < b → b < g.size → mkd g.size s.1 a b → (a, b) ∈ s.2 ∨ pend a b ∨
    ∀ i pa pb, pa < g.size → pb < g.size → g.nx pa i = a → g.nx pb i = b → mkS g.size s.1 pa pb

/-- Measure: queue length plus number of unmarked entries. -/
def tmeas (s : TableSt) : Nat := s.2.length + s.1.count false

variable {g : Graph}

/-- The common core of the two branches of `tableMark`. -/
theorem markStep {s : TableSt} {pend : Nat → Nat → Prop} (hI : TInv g s pend) {a b : Nat} (hab : a < b) (hb : b < g.size)
    (hd : ¬ g.Equiv a b) :
    ∃ s', (do
        let m ← vat s.1 (a + g.size * b)
        if !m then
          let t ← vset s.1 (a + g.size * b) true
          pure (t, s.2 ++ [(a, b)])
        else pure s : Res TableSt) = .ok s' ∧ TInv g s' pend ∧ mkd g.size s'.1 a b ∧ tmeas s' = tmeas s ∧
      (∀ c d, c < g.size → mkd g.size s.1 c d → mkd g.size s'.1 c d) := by
  have hidx : a + g.size * b = a + b * g.size := by rw [Nat.mul_comm]
  have hlt : a + b * g.size < s.1.length := by rw [hI.len]; exact idx_lt (by omega) hb
  rw [hidx, vat_lt hlt, Res.bind_ok]
  cases hm : s.1[a + b * g.size] with
  | true =>
    refine ⟨s, rfl, hI, ?_, rfl, fun _ _ _ h => h⟩
    unfold mkd; rw [List.getElem?_eq_getElem hlt, hm]
  | false =>
    simp only [Bool.not_false, if_true]
    rw [vset_lt hlt, Res.bind_ok]
    have hset : ∀ c d, c < g.size → (mkd g.size (s.1.set (a + b * g.size) true) c d ↔ mkd g.size s.1 c d ∨ (c = a ∧ d = b)) :=
      fun c d hc => mk_set hI.len (by omega) hb hc
    have hmono : ∀ c d, c < g.size → mkd g.size s.1 c d → mkd g.size (s.1.set (a + b * g.size) true) c d :=
      fun c d hc h => (hset c d hc).2 (.inl h)
    refine ⟨_, rfl, ?_, (hset a b (by omega)).2 (.inr ⟨rfl, rfl⟩), ?_, hmono⟩
    · constructor
      · simpa using hI.len
      · intro c d hcd hds h
        rcases (hset c d (by omega)).1 h with h | ⟨rfl, rfl⟩
        · exact hI.sound c d hcd hds h
        · exact hd
      · intro p hp
        rcases List.mem_append.1 hp with h | h
        · obtain ⟨h1, h2, h3⟩ := hI.que p h
          exact ⟨h1, h2, hmono _ _ (by omega) h3⟩
        · simp at h; subst h
          exact ⟨hab, hb, (hset a b (by omega)).2 (.inr ⟨rfl, rfl⟩)⟩
      · intro c d hcd hds h
        exact hmono _ _ (by omega) (hI.base c d hcd hds h)
      · intro c d hcd hds h
        rcases (hset c d (by omega)).1 h with h | ⟨rfl, rfl⟩
        · rcases hI.clos c d hcd hds h with h | h | h
          · exact .inl (by simp [h])
          · exact .inr (.inl h)
          · refine .inr (.inr ?_)
            intro i pa pb hpa hpb e1 e2
            rcases h i pa pb hpa hpb e1 e2 with ⟨l, m⟩ | ⟨l, m⟩
            · exact .inl ⟨l, hmono _ _ hpa m⟩
            · exact .inr ⟨l, hmono _ _ hpb m⟩
        · exact .inl (by simp)
    · unfold tmeas
      have hc : 0 < s.1.count false := by
        rw [List.count_pos_iff, ← hm]; exact List.getElem_mem hlt
      rw [List.count_set hlt, hm]
      simp
      omega

theorem tableMark_ok {s : TableSt} {pend : Nat → Nat → Prop} (hI : TInv g s pend) {a b : Nat} (ha : a < g.size) (hb : b < g.size)
    (hd : ¬ g.Equiv a b) :
    ∃ s', tableMark g.size s a b = .ok s' ∧ TInv g s' pend ∧ mkS g.size s'.1 a b ∧ tmeas s' = tmeas s ∧
      (∀ c d, c < g.size → mkd g.size s.1 c d → mkd g.size s'.1 c d) := by
  unfold tableMark
  by_cases h : a < b
  · rw [if_pos h]
    obtain ⟨s', h1, h2, h3, h4, h5⟩ := markStep hI h hb hd
    exact ⟨s', h1, h2, .inl ⟨h, h3⟩, h4, h5⟩
  · by_cases h' : b < a
    · rw [if_neg h, if_pos h']
      obtain ⟨s', h1, h2, h3, h4, h5⟩ := markStep hI h' ha (fun e => hd e.symm)
      exact ⟨s', h1, h2, .inr ⟨h', h3⟩, h4, h5⟩
    · have : a = b := by omega
      exact absurd (fun w => by rw [this]) hd

/-- The predecessor pairs visited for the queue entry (a, b). -/
def predPairs (g : Graph) (a b : Nat) : List (Nat × Nat) :=
  [true, false].flatMap (fun i => ((List.range g.size).filter (fun p => g.nx p i = a)).flatMap (fun pa =>
    ((List.range g.size).filter (fun p => g.nx p i = b)).map (fun pb => (pa, pb))))

theorem tableBody_eq (hg : g.WF) {s : TableSt} {a b : Nat} {rest : List (Nat × Nat)} (hs : s.2 = (a, b) :: rest)
    (hab : a < b) (hb : b < g.size) :
    g.tableBody s = (g.predPairs a b).foldlM (fun s (p : Nat × Nat) => tableMark g.size s p.1 p.2) (s.1, rest) := by
  unfold tableBody predPairs
  rw [hs]
  dsimp only
  rw [decide_eq_true hab, cassert_true, Res.bind_ok, foldlM_flatMap]
  congr 1
  funext s' i
  rw [hg.prevStates_ok (by omega), Res.bind_ok, foldlM_flatMap]
  congr 1
  funext s'' pa
  rw [hg.prevStates_ok hb, Res.bind_ok, List.foldlM_map]

theorem mem_predPairs {a b pa pb : Nat} :
    (pa, pb) ∈ g.predPairs a b ↔ pa < g.size ∧ pb < g.size ∧ ∃ i, g.nx pa i = a ∧ g.nx pb i = b := by
  unfold predPairs
  simp only [List.mem_flatMap, List.mem_map, List.mem_filter, List.mem_range, decide_eq_true_eq, Prod.mk.injEq]
  constructor
  · rintro ⟨i, _, x, ⟨h1, h2⟩, y, ⟨h3, h4⟩, rfl, rfl⟩
    exact ⟨h1, h3, i, h2, h4⟩
  · rintro ⟨h1, h2, i, h3, h4⟩
    exact ⟨i, by cases i <;> simp, pa, ⟨h1, h3⟩, pb, ⟨h2, h4⟩, rfl, rfl⟩

theorem tableBody_ok (hg : g.WF) {s : TableSt} (hI : TInv g s (fun _ _ => False)) (hc : (!s.2.isEmpty) = true) :
    ∃ s', g.tableBody s = .ok s' ∧ TInv g s' (fun _ _ => False) ∧ tmeas s' < tmeas s := by
  cases hs : s.2 with
  | nil => simp [hs] at hc
  | cons p rest =>
    obtain ⟨a, b⟩ := p
    obtain ⟨hab, hb, hm⟩ := hI.que (a, b) (by simp [hs])
    dsimp only at hab hb hm
    rw [tableBody_eq hg hs hab hb]
    have hdist := hI.sound a b hab hb hm
    have hI0 : TInv g (s.1, rest) (fun c d => c = a ∧ d = b) := by
      refine ⟨hI.len, hI.sound, fun p hp => hI.que p (by simp [hs, hp]), hI.base, ?_⟩
      intro c d hcd hd h
      rcases hI.clos c d hcd hd h with h | h | h
      · rw [hs] at h
        rcases List.mem_cons.1 h with h | h
        · exact .inr (.inl (by simpa using h))
        · exact .inl h
      · exact absurd h (by simp)
      · exact .inr (.inr h)
    obtain ⟨s', h1, h2, h3, h4⟩ := foldlM_inv
      (fun (pre : List (Nat × Nat)) (s' : TableSt) => TInv g s' (fun c d => c = a ∧ d = b) ∧
        (∀ p ∈ pre, mkS g.size s'.1 p.1 p.2) ∧ tmeas s' = tmeas (s.1, rest))
      (f := fun s (p : Nat × Nat) => tableMark g.size s p.1 p.2) (g.predPairs a b) (b := (s.1, rest))
      ⟨hI0, by simp, rfl⟩ (by
        rintro pre ⟨pa, pb⟩ post s' hd ⟨e1, e2, e3⟩
        have hmem : (pa, pb) ∈ g.predPairs a b := by rw [hd]; simp
        obtain ⟨m1, m2, i, m3, m4⟩ := mem_predPairs.1 hmem
        obtain ⟨s'', k1, k2, k3, k4, k5⟩ := tableMark_ok e1 m1 m2 (fun e => hdist (by
          have := e.next i; rwa [m3, m4] at this))
        refine ⟨s'', k1, k2, ?_, by rw [k4, e3]⟩
        intro p hp
        rcases List.mem_append.1 hp with hp | hp
        · have hp' : p ∈ g.predPairs a b := by rw [hd]; simp [hp]
          obtain ⟨n1, n2, _⟩ := mem_predPairs.1 (show (p.1, p.2) ∈ _ from hp')
          rcases e2 p hp with ⟨l, m⟩ | ⟨l, m⟩
          · exact .inl ⟨l, k5 _ _ n1 m⟩
          · exact .inr ⟨l, k5 _ _ n2 m⟩
        · simp at hp; subst hp; exact k3)
    refine ⟨s', h1, ⟨h2.len, h2.sound, h2.que, h2.base, ?_⟩, ?_⟩
    · intro c d hcd hd h
      rcases h2.clos c d hcd hd h with h | ⟨rfl, rfl⟩ | h
      · exact .inl h
      · refine .inr (.inr ?_)
        intro i pa pb hpa hpb e1 e2
        exact h3 (pa, pb) (mem_predPairs.2 ⟨hpa, hpb, i, e1, e2⟩)
      · exact .inr (.inr h)
    · rw [h4]; unfold tmeas; rw [hs]; simp

theorem mem_pairs {n a b : Nat} : (a, b) ∈ pairs n ↔ a < b ∧ b < n := by
  unfold pairs
  simp only [List.mem_flatMap, List.mem_range, List.mem_map, List.mem_range'_1, Prod.mk.injEq]
  constructor
  · rintro ⟨x, hx, y, ⟨h1, h2⟩, rfl, rfl⟩; omega
  · rintro ⟨h1, h2⟩; exact ⟨a, by omega, b, by omega, rfl, rfl⟩

theorem pairs_nodup (n : Nat) : (pairs n).Nodup := by
  unfold pairs
  rw [List.nodup_flatMap]
  refine ⟨fun a _ => ?_, ?_⟩
  · exact (List.nodup_range' ..).map (fun x y h => by simpa using h)
  · refine List.nodup_range.imp ?_
    intro a b hab p h1 h2
    simp only [List.mem_map] at h1 h2
    obtain ⟨x, _, rfl⟩ := h1
    obtain ⟨y, _, e⟩ := h2
    simp at e
    exact hab e.1.symm

theorem tableInit_ok (hg : g.WF) : ∃ s, g.tableInit = .ok s ∧ TInv g s (fun _ _ => False) ∧ tmeas s ≤ g.size * g.size := by
  obtain ⟨s, h1, hlen, hsound, hque, hbase, hallq, _, hmeas⟩ := foldlM_inv
    (fun (pre : List (Nat × Nat)) (s : TableSt) => s.1.length = g.size * g.size ∧
      (∀ a b, a < b → b < g.size → mkd g.size s.1 a b → ¬ g.Equiv a b) ∧
      (∀ p ∈ s.2, p.1 < p.2 ∧ p.2 < g.size ∧ mkd g.size s.1 p.1 p.2) ∧
      (∀ p ∈ pre, g.fin p.1 ≠ g.fin p.2 → mkd g.size s.1 p.1 p.2) ∧
      (∀ a b, a < b → b < g.size → mkd g.size s.1 a b → (a, b) ∈ s.2) ∧ (∀ p ∈ s.2, p ∈ pre) ∧
      tmeas s ≤ g.size * g.size)
    (f := fun (s : TableSt) p => do
      let fa ← g.isFinalState p.1
      let fb ← g.isFinalState p.2
      if (fa && !fb) || (!fa && fb) then
        let t ← vset s.1 (p.1 + p.2 * g.size) true
        pure (t, s.2 ++ [p])
      else pure s) (pairs g.size) (b := (List.replicate (g.size * g.size) false, []))
    (by
      have hno : ∀ a b, ¬ mkd g.size (List.replicate (g.size * g.size) false) a b := by
        intro a b h
        unfold mkd at h
        obtain ⟨_, h⟩ := List.getElem?_eq_some_iff.1 h
        simp at h
      refine ⟨by simp, fun a b _ _ h => absurd h (hno a b), by simp, by simp, fun a b _ _ h => absurd h (hno a b), by simp, ?_⟩
      simp [tmeas]) (by
      rintro pre ⟨a, b⟩ post s hd ⟨hlen, hsound, hque, hbase, hallq, hqpre, hmeas⟩
      have hmem : (a, b) ∈ pairs g.size := by rw [hd]; simp
      obtain ⟨hab, hb⟩ := mem_pairs.1 hmem
      have ha : a < g.size := by omega
      dsimp only
      rw [hg.isFinalState_ok ha, Res.bind_ok, hg.isFinalState_ok hb, Res.bind_ok]
      have hcond : ((g.fin a && !g.fin b) || (!g.fin a && g.fin b)) = decide (g.fin a ≠ g.fin b) := by
        cases g.fin a <;> cases g.fin b <;> rfl
      rw [hcond]
      by_cases hf : g.fin a ≠ g.fin b
      · rw [decide_eq_true hf, if_pos rfl]
        have hlt : a + b * g.size < s.1.length := by rw [hlen]; exact idx_lt ha hb
        rw [vset_lt hlt, Res.bind_ok]
        have hset : ∀ c d, c < g.size → (mkd g.size (s.1.set (a + b * g.size) true) c d ↔ mkd g.size s.1 c d ∨ (c = a ∧ d = b)) :=
          fun c d hc => mk_set hlen (by omega) hb hc
        have hmono : ∀ c d, c < g.size → mkd g.size s.1 c d → mkd g.size (s.1.set (a + b * g.size) true) c d :=
          fun c d hc h => (hset c d hc).2 (.inl h)
        refine ⟨_, rfl, by simpa using hlen, ?_, ?_, ?_, ?_, ?_, ?_⟩
        · intro c d hcd hds h
          rcases (hset c d (by omega)).1 h with h | ⟨rfl, rfl⟩
          · exact hsound c d hcd hds h
          · exact fun e => hf e.fin
        · intro p hp
          rcases List.mem_append.1 hp with h | h
          · obtain ⟨h1, h2, h3⟩ := hque p h
            exact ⟨h1, h2, hmono _ _ (by omega) h3⟩
          · simp at h; subst h
            exact ⟨hab, hb, (hset a b (by omega)).2 (.inr ⟨rfl, rfl⟩)⟩
        · intro p hp h
          rcases List.mem_append.1 hp with hp | hp
          · have hp' : p ∈ pairs g.size := by rw [hd]; simp [hp]
            have := mem_pairs.1 (show (p.1, p.2) ∈ _ from hp')
            exact hmono _ _ (by omega) (hbase p hp h)
          · simp at hp; subst hp
            exact (hset a b ha).2 (.inr ⟨rfl, rfl⟩)
        · intro c d hcd hds h
          rcases (hset c d (by omega)).1 h with h | ⟨rfl, rfl⟩
          · simp [hallq c d hcd hds h]
          · simp
        · intro p hp
          rcases List.mem_append.1 hp with h | h
          · simp [hqpre p h]
          · simp at h; simp [h]
        · refine Nat.le_trans ?_ hmeas
          unfold tmeas
          rw [List.count_set hlt]
          cases hm : s.1[a + b * g.size] with
          | false =>
            have hc : 0 < s.1.count false := by
              rw [List.count_pos_iff, ← hm]; exact List.getElem_mem hlt
            simp; omega
          | true =>
            exfalso
            have hmk : mkd g.size s.1 a b := by unfold mkd; rw [List.getElem?_eq_getElem hlt, hm]
            -- the pair (a,b) is new: it does not occur in the prefix, so it is not in the queue
            have := hqpre _ (hallq a b hab hb hmk)
            have hn := pairs_nodup g.size
            rw [hd, List.nodup_append] at hn
            exact hn.2.2 _ this _ (by simp) rfl
      · rw [decide_eq_false hf, if_neg (by simp)]
        refine ⟨_, rfl, hlen, hsound, hque, ?_, hallq, fun p hp => by simp [hqpre p hp], hmeas⟩
        intro p hp h
        rcases List.mem_append.1 hp with hp | hp
        · exact hbase p hp h
        · simp at hp; subst hp; exact absurd h hf)
  refine ⟨s, h1, ⟨hlen, hsound, hque, ?_, ?_⟩, hmeas⟩
  · intro a b hab hb hf
    exact hbase (a, b) (mem_pairs.2 ⟨hab, hb⟩) hf
  · intro a b hab hb h
    exact .inl (hallq a b hab hb h)

/-- The table-filling algorithm terminates and marks exactly the inequivalent pairs. -/
theorem fillTable_ok (hg : g.WF) : ∃ t, g.fillTable = .ok t ∧ t.length = g.size * g.size ∧
    ∀ a b, a < b → b < g.size → (mkd g.size t a b ↔ ¬ g.Equiv a b) := by
  obtain ⟨s0, h1, h2, h3⟩ := tableInit_ok hg
  obtain ⟨s, k1, k2, k3⟩ := whileM_inv (cond := fun s : TableSt => !s.2.isEmpty) (body := g.tableBody)
    (fun s => TInv g s (fun _ _ => False)) tmeas (fun s hI hc => tableBody_ok hg hI hc) (fuel := g.size * g.size + 1) h2 (by omega)
  refine ⟨s.1, ?_, k2.len, ?_⟩
  · unfold fillTable
    rw [h1, Res.bind_ok, k1, Res.bind_ok]; rfl
  · have hq : s.2 = [] := by simpa using k3
    intro a b hab hb
    refine ⟨k2.sound a b hab hb, fun hne => ?_⟩
    -- unmarked pairs form a bisimulation
    have key : ∀ w a b, a < g.size → b < g.size → ¬ mkS g.size s.1 a b → g.accFrom a w = g.accFrom b w := by
      intro w
      induction w with
      | nil =>
        intro a b ha hb hm
        by_contra hf
        have hf : g.fin a ≠ g.fin b := hf
        rcases Nat.lt_trichotomy a b with h | h | h
        · exact hm (.inl ⟨h, k2.base a b h hb hf⟩)
        · subst h; exact hf rfl
        · exact hm (.inr ⟨h, k2.base b a h ha (Ne.symm hf)⟩)
      | cons i w ih =>
        intro a b ha hb hm
        refine ih (g.nx a i) (g.nx b i) (hg.nx_lt ha i) (hg.nx_lt hb i) (fun h => hm ?_)
        rcases h with ⟨l, m⟩ | ⟨l, m⟩
        · rcases k2.clos _ _ l (hg.nx_lt hb i) m with h | h | h
          · rw [hq] at h; simp at h
          · exact absurd h (by simp)
          · exact h i a b ha hb rfl rfl
        · rcases k2.clos _ _ l (hg.nx_lt ha i) m with h | h | h
          · rw [hq] at h; simp at h
          · exact absurd h (by simp)
          · exact (h i b a hb ha rfl rfl).symm
    by_contra hm
    apply hne
    intro w
    refine key w a b (by omega) hb ?_
    rintro (⟨_, m⟩ | ⟨l, _⟩)
    · exact hm m
    · omega

end Graph
end Homfa
