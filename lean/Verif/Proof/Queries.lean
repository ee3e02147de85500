import Verif.Proof.Graph
import Mathlib.Data.List.Basic
/-! `negated`, `reserve_states_at_depth`, `track_live_states`, `transition64`. -/

namespace Homfa
namespace Graph
variable {g : Graph}

theorem WF.of_same_delta (hg : g.WF) {fs : List Nat} (hs : SSorted fs) (hb : ∀ q ∈ fs, q < g.size) :
    ∃ r, make g.init fs g.delta = .ok r ∧ r.WF ∧ r.statesAtDepth = [] ∧ r.init = g.init ∧ r.delta = g.delta ∧ r.finals = fs := by
  have hc : Closed fs g.delta := ⟨hg.closed.1, hb⟩
  refine ⟨_, make_ok hc, ⟨make_ok hc, hg.idx, hg.init_lt, hs⟩, rfl, rfl, rfl, rfl⟩

theorem negated_spec (hg : g.WF) :
    ∃ r, g.negated = .ok r ∧ r.WF ∧ r.statesAtDepth = [] ∧ r.init = g.init ∧ r.delta = g.delta ∧
      r.finals = (List.range g.size).filter (fun q => !g.fin q) := by
  obtain ⟨fs, h1, h2, h3⟩ := foldlM_inv
    (fun (pre : List Nat) (s : List Nat) => SSorted s ∧ ∀ q, q ∈ s ↔ q ∈ pre ∧ g.fin q = false)
    (f := fun s q => do
      let f ← g.isFinalState q
      pure (if f then s else sinsert q s)) (List.range g.size) (b := []) (by simp) (by
      intro pre q post s hd ⟨e1, e2⟩
      have hq : q < g.size := by
        have : q ∈ List.range g.size := by rw [hd]; simp
        simpa using this
      rw [hg.isFinalState_ok hq, Res.bind_ok]
      refine ⟨_, rfl, ?_⟩
      cases hf : g.fin q
      · simp only [Bool.false_eq_true, if_false]
        refine ⟨sorted_sinsert e1, fun x => ?_⟩
        rw [mem_sinsert, e2 x]
        by_cases hx : x = q <;> simp [hx, hf]
      · simp only [if_true]
        refine ⟨e1, fun x => ?_⟩
        rw [e2 x]
        by_cases hx : x = q <;> simp [hx, hf])
  have hfs : fs = (List.range g.size).filter (fun q => !g.fin q) := by
    refine h2.ext ((ssorted_range _).filter _) (fun x => ?_)
    rw [h3 x]; simp
  have h4 := WF.of_same_delta hg (fs := fs) h2 (by
    intro q hq
    have := ((h3 q).1 hq).1
    simpa using this)
  obtain ⟨r, h5, h6, h7, h8, h9, h10⟩ := h4
  refine ⟨r, ?_, h6, h7, h8, h9, by rw [h10, hfs]⟩
  unfold negated
  rw [show g.allStates = List.range g.size from rfl, h1, Res.bind_ok, h5]

/-- Successors of a set of states, as a sorted list. -/
def nextSet (g : Graph) (L : List Nat) : List Nat :=
  (List.range g.size).filter (fun q => decide (∃ p ∈ L, ∃ b, g.nx p b = q))

/-- Sets of states at depth `d` from the set `L`. -/
def levelSet (g : Graph) (L : List Nat) : Nat → List Nat
  | 0 => L
  | d + 1 => g.nextSet (levelSet g L d)

theorem sorted_nextSet (L : List Nat) : SSorted (g.nextSet L) := (ssorted_range _).filter _

theorem mem_nextSet_lt {L : List Nat} {q : Nat} (h : q ∈ g.nextSet L) : q < g.size := by
  simpa using (List.mem_filter.1 h).1

theorem WF.mem_nextSet (hg : g.WF) {L : List Nat} (hL : ∀ q ∈ L, q < g.size) {q : Nat} :
    q ∈ g.nextSet L ↔ ∃ p ∈ L, ∃ b, g.nx p b = q := by
  unfold nextSet
  simp only [List.mem_filter, List.mem_range, decide_eq_true_eq, and_iff_right_iff_imp]
  rintro ⟨p, hp, b, rfl⟩
  exact hg.nx_lt (hL p hp) b

theorem levelSet_lt {L : List Nat} (hL : ∀ q ∈ L, q < g.size) (d : Nat) : ∀ q ∈ g.levelSet L d, q < g.size := by
  cases d with
  | zero => exact hL
  | succ d => intro q hq; exact mem_nextSet_lt hq

theorem sorted_levelSet {L : List Nat} (hs : SSorted L) (d : Nat) : SSorted (g.levelSet L d) := by
  cases d with
  | zero => exact hs
  | succ d => exact sorted_nextSet _

theorem WF.mem_levelSet (hg : g.WF) {L : List Nat} (hL : ∀ q ∈ L, q < g.size) {d q : Nat} :
    q ∈ g.levelSet L d ↔ ∃ p ∈ L, ∃ w : List Bool, w.length = d ∧ w.foldl g.nx p = q := by
  induction d generalizing q with
  | zero =>
    constructor
    · intro h; exact ⟨q, h, [], rfl, rfl⟩
    · rintro ⟨p, hp, w, hw, rfl⟩
      have : w = [] := List.eq_nil_of_length_eq_zero hw
      subst this; exact hp
  | succ d ih =>
    rw [levelSet, hg.mem_nextSet (levelSet_lt hL d)]
    constructor
    · rintro ⟨p, hp, b, rfl⟩
      obtain ⟨p0, h0, w, hw, rfl⟩ := ih.1 hp
      exact ⟨p0, h0, w ++ [b], by simp [hw], by simp⟩
    · rintro ⟨p, hp, w, hw, rfl⟩
      rcases List.eq_nil_or_concat w with rfl | ⟨u, b, rfl⟩
      · simp at hw
      · refine ⟨u.foldl g.nx p, ih.2 ⟨p, hp, u, by simpa using hw, rfl⟩, b, by simp⟩

theorem liveRound_ok (hg : g.WF) {L : List Nat} (hL : ∀ q ∈ L, q < g.size) :
    g.liveRound L = .ok (g.nextSet L) := by
  obtain ⟨s, h1, h2, h3⟩ := foldlM_inv
    (fun (pre s : List Nat) => SSorted s ∧ ∀ x, x ∈ s ↔ ∃ p ∈ pre, ∃ b, g.nx p b = x)
    (f := fun tmp2 q => do
      let q1 ← g.nextState q true
      let q0 ← g.nextState q false
      pure (sinsert q0 (sinsert q1 tmp2))) L (b := []) (by simp) (by
      intro pre q post s hd ⟨e1, e2⟩
      have hq : q < g.size := hL q (by rw [hd]; simp)
      rw [WF.nextState_ok hq, Res.bind_ok, WF.nextState_ok hq, Res.bind_ok]
      refine ⟨_, rfl, sorted_sinsert (sorted_sinsert e1), fun x => ?_⟩
      rw [mem_sinsert, mem_sinsert, e2 x]
      constructor
      · rintro (rfl | rfl | ⟨p, hp, h⟩)
        · exact ⟨q, by simp, false, rfl⟩
        · exact ⟨q, by simp, true, rfl⟩
        · exact ⟨p, by simp [hp], h⟩
      · rintro ⟨p, hp, b, h⟩
        rcases List.mem_append.1 hp with hp | hp
        · exact .inr (.inr ⟨p, hp, b, h⟩)
        · simp at hp; subst hp
          cases b
          · exact .inl h.symm
          · exact .inr (.inl h.symm))
  unfold liveRound
  rw [h1]
  congr 1
  refine h2.ext (sorted_nextSet _) (fun x => ?_)
  rw [h3 x, hg.mem_nextSet hL]

theorem trackLiveStates_ok (hg : g.WF) {L : List Nat} (hL : ∀ q ∈ L, q < g.size) (D : Nat) :
    g.trackLiveStates L D = .ok (L :: (List.range D).map (fun d => g.levelSet (sinsertAll [] L) (d + 1))) := by
  have hL' : ∀ q ∈ sinsertAll [] L, q < g.size := by
    intro q hq; exact hL q (by simpa using hq)
  obtain ⟨r, h1, h2⟩ := foldlM_range_inv
    (fun i (r : List Nat × List (List Nat)) => r.1 = g.levelSet (sinsertAll [] L) i ∧
      r.2 = L :: (List.range i).map (fun d => g.levelSet (sinsertAll [] L) (d + 1)))
    (f := fun (r : List Nat × List (List Nat)) _ => do
      let tmp ← g.liveRound r.1
      pure (tmp, r.2 ++ [tmp])) D (b := (sinsertAll [] L, [L])) ⟨rfl, rfl⟩ (by
      rintro i r hi ⟨e1, e2⟩
      rw [e1, liveRound_ok hg (levelSet_lt hL' i), Res.bind_ok]
      refine ⟨_, rfl, rfl, ?_⟩
      rw [e2, List.range_succ, List.map_append]
      rfl)
  unfold trackLiveStates
  rw [h1, Res.bind_ok, ← h2.2]
  rfl

/-- The bit vector of a set. -/
def bits (n : Nat) (L : List Nat) : List Bool := (List.range n).map (fun q => decide (q ∈ L))

theorem depthRound_ok (hg : g.WF) {L : List Nat} (hs : SSorted L) (hL : ∀ q ∈ L, q < g.size) :
    g.depthRound (bits g.size L) = .ok (bits g.size (g.nextSet L), L) := by
  obtain ⟨r, h1, h2, h3⟩ := foldlM_range_inv
    (fun i (r : List Bool × List Nat) => r.1 = bits g.size (L.filter (fun q => decide (i ≤ q))) ∧
      r.2 = L.filter (fun q => decide (q < i)))
    (f := fun (r : List Bool × List Nat) st => do
      let b ← vat r.1 st
      let sts ← vset r.1 st false
      pure (sts, if b then r.2 ++ [st] else r.2)) g.size (b := (bits g.size L, [])) (by
        constructor
        · simp
        · simp) (by
      rintro i r hi ⟨e1, e2⟩
      rw [e1, bits, vat_map hi, Res.bind_ok, vset_map hi, Res.bind_ok]
      refine ⟨_, rfl, ?_, ?_⟩
      · unfold bits
        apply List.map_congr_left
        intro q _
        by_cases hq : q = i
        · simp [hq]
        · by_cases hql : q ∈ L
          · simp [hq, hql]; omega
          · simp [hq, hql]
      · rw [e2]
        have hl : SSorted (L.filter (fun q => decide (q < i + 1))) := List.Pairwise.filter _ hs
        refine SSorted.ext ?_ hl ?_
        · split
          · rw [SSorted, List.pairwise_append]
            refine ⟨List.Pairwise.filter _ hs, by simp, ?_⟩
            intro a ha b hb
            simp at ha hb; omega
          · exact List.Pairwise.filter _ hs
        · intro x
          by_cases hiL : i ∈ L
          · simp [hiL]
            constructor
            · rintro (⟨h, h'⟩ | rfl)
              · exact ⟨h, by omega⟩
              · exact ⟨hiL, by omega⟩
            · rintro ⟨h, h'⟩
              by_cases hx : x = i
              · exact .inr hx
              · exact .inl ⟨h, by omega⟩
          · simp [hiL]
            intro hx
            constructor
            · intro; omega
            · intro h
              have : x ≠ i := by rintro rfl; exact hiL hx
              omega)
  have h2' : r.1 = bits g.size [] := by
    rw [h2]
    congr 1
    rw [List.filter_eq_nil_iff]
    intro q hq; have := hL q hq; simp; omega
  have h3' : r.2 = L := by
    rw [h3, List.filter_eq_self]
    intro q hq; simpa using hL q hq
  obtain ⟨v, h4, h5⟩ := foldlM_inv
    (fun (pre : List Nat) (v : List Bool) => v = bits g.size (pre.flatMap (fun q => [g.nx q false, g.nx q true])))
    (f := fun sts st => do
      let q0 ← g.nextState st false
      let sts ← vset sts q0 true
      let q1 ← g.nextState st true
      vset sts q1 true) L (b := bits g.size []) (by simp) (by
      intro pre q post v hd e
      have hq : q < g.size := hL q (by rw [hd]; simp)
      rw [WF.nextState_ok hq, Res.bind_ok, e, bits, vset_map (hg.nx_lt hq false), Res.bind_ok, WF.nextState_ok hq, Res.bind_ok,
        vset_map (hg.nx_lt hq true)]
      refine ⟨_, rfl, ?_⟩
      unfold bits
      apply List.map_congr_left
      intro x _
      by_cases hx1 : x = g.nx q true
      · simp [hx1]
      · by_cases hx0 : x = g.nx q false
        · simp [hx0]
        · simp [hx0, hx1])
  unfold depthRound
  rw [h1, Res.bind_ok, h2', h3', h4, Res.bind_ok, h5]
  have : bits g.size (L.flatMap (fun q => [g.nx q false, g.nx q true])) = bits g.size (g.nextSet L) := by
    unfold bits
    apply List.map_congr_left
    intro x _
    rw [decide_eq_decide, hg.mem_nextSet hL]
    simp [eq_comm, or_comm]
  rw [this]; rfl

theorem reserve_ok (hg : g.WF) (D : Nat) :
    g.reserveStatesAtDepth D = .ok { g with statesAtDepth := (List.range D).map (g.levelSet [g.init]) } := by
  have hL : ∀ q ∈ [g.init], q < g.size := by
    intro q hq; simp at hq; subst hq; exact hg.init_lt
  obtain ⟨r, h1, h2⟩ := foldlM_range_inv
    (fun i (r : List Bool × List (List Nat)) => r.1 = bits g.size (g.levelSet [g.init] i) ∧
      r.2 = (List.range i).map (g.levelSet [g.init]))
    (f := fun (r : List Bool × List (List Nat)) _ => do
      let p ← g.depthRound r.1
      pure (p.1, r.2 ++ [p.2])) D (b := (bits g.size [g.init], [])) ⟨rfl, rfl⟩ (by
      rintro i r hi ⟨e1, e2⟩
      rw [e1, depthRound_ok hg (sorted_levelSet (by simp) i) (levelSet_lt hL i), Res.bind_ok]
      refine ⟨_, rfl, rfl, ?_⟩
      rw [e2, List.range_succ, List.map_append]
      rfl)
  unfold reserveStatesAtDepth
  have h0 : vset (List.replicate g.size false) g.initialState true = .ok (bits g.size [g.init]) := by
    rw [replicate_eq_map, initialState, vset_map hg.init_lt]
    congr 1
    unfold bits
    apply List.map_congr_left
    intro x _
    by_cases hx : x = g.init <;> simp [hx]
  rw [h0, Res.bind_ok, h1, Res.bind_ok, h2.2]
  rfl

theorem WF.withDepth (hg : g.WF) (t : List (List Nat)) : ({ g with statesAtDepth := t } : Graph).WF :=
  ⟨hg.built, hg.idx, hg.init_lt, hg.fin_sorted⟩

theorem shl_ok {i : Nat} (h : i < 31) : shlInt64 i = .ok (1#64 <<< i) := by
  unfold shlInt64
  rw [if_pos (by omega)]
  congr 1
  rw [BitVec.signExtend_eq_setWidth_of_msb_false]
  · apply BitVec.eq_of_toNat_eq
    simp [Nat.shiftLeft_eq]
    have h1 : 2 ^ i < 2 ^ 31 := Nat.pow_lt_pow_right (by omega) h
    rw [Nat.mod_eq_of_lt (by omega), Nat.mod_eq_of_lt (by omega), Nat.mod_eq_of_lt (by omega)]
  · rw [BitVec.msb_eq_decide]
    have h1 : 2 ^ i < 2 ^ 31 := Nat.pow_lt_pow_right (by omega) h
    simp [Nat.shiftLeft_eq]
    rw [Nat.mod_eq_of_lt (by omega)]; omega

theorem and_shl_ne_zero (x : BitVec 64) (i : Nat) (h : i < 64) : ((x &&& (1#64 <<< i)) != 0#64) = x.getLsbD i := by
  rw [← BitVec.twoPow_eq, BitVec.and_twoPow]
  cases hx : x.getLsbD i
  · simp
  · simp only [if_true, bne_iff_ne, ne_eq]
    intro h0
    have := congrArg (fun v => BitVec.getLsbD v i) h0
    simp [h] at this

theorem transition64_ok (hg : g.WF) {q : Nat} (hq : q < g.size) (x : BitVec 64) {len : Nat} (hl : len ≤ 31) :
    g.transition64 q x len = .ok (((List.range len).map x.getLsbD).foldl g.nx q) := by
  unfold transition64
  have := foldlM_pure (f := fun dst i => do
      let m ← shlInt64 i
      g.nextState dst ((x &&& m) != 0#64)) (g := fun s i => g.nx s (x.getLsbD i)) (· < g.size) (l := List.range len) hq (by
    intro s i hi hs
    have hi : i < len := by simpa using hi
    rw [shl_ok (by omega), Res.bind_ok, and_shl_ne_zero x i (by omega), WF.nextState_ok hs]
    exact ⟨rfl, hg.nx_lt hs _⟩)
  rw [this.1, List.foldl_map]

theorem shl31 : shlInt64 31 = .ok 0xFFFFFFFF80000000#64 := by decide

theorem mask31 : ∀ i < 64, (0xFFFFFFFF80000000#64).getLsbD i = decide (31 ≤ i) := by decide

theorem and_high_ne_zero (x : BitVec 64) : ((x &&& 0xFFFFFFFF80000000#64) != 0#64) = (x >>> 31 != 0#64) := by
  have key : (x &&& 0xFFFFFFFF80000000#64 = 0#64) ↔ (x >>> 31 = 0#64) := by
    generalize hm : (0xFFFFFFFF80000000#64 : BitVec 64) = m
    have hm' : ∀ i < 64, m.getLsbD i = decide (31 ≤ i) := hm ▸ mask31
    constructor <;> intro h
    · apply BitVec.eq_of_getLsbD_eq
      intro i hi
      by_cases h64 : 31 + i < 64
      · have := congrArg (fun v => BitVec.getLsbD v (31 + i)) h
        rw [BitVec.getLsbD_and, hm' _ h64] at this
        simpa using this
      · rw [BitVec.getLsbD_ushiftRight, BitVec.getLsbD_of_ge _ _ (by omega)]; simp
    · apply BitVec.eq_of_getLsbD_eq
      intro i hi
      rw [BitVec.getLsbD_and, hm' _ hi]
      by_cases hlt : i < 31
      · simp; omega
      · have := congrArg (fun v => BitVec.getLsbD v (i - 31)) h
        have h2 : 31 + (i - 31) = i := by omega
        rw [BitVec.getLsbD_ushiftRight, h2] at this
        simp only [this, BitVec.getLsbD_zero, Bool.false_and]
  by_cases h : x >>> 31 = 0#64
  · rw [key.2 h, h]
  · have := (not_congr key).2 h
    rw [bne_iff_ne.2 this, bne_iff_ne.2 h]

theorem transition64_32 (hg : g.WF) {q : Nat} (hq : q < g.size) (x : BitVec 64) :
    g.transition64 q x 32 =
      .ok (g.nx (((List.range 31).map x.getLsbD).foldl g.nx q) (x >>> 31 != 0#64)) := by
  have h31 := transition64_ok hg hq x (Nat.le_refl 31)
  unfold transition64 at h31 ⊢
  rw [show List.range 32 = List.range 31 ++ [31] from rfl, List.foldlM_append, h31, Res.bind_ok, List.foldlM_cons, shl31, Res.bind_ok,
    and_high_ne_zero, WF.nextState_ok, Res.bind_ok]
  · rfl
  · exact hg.run_lt hq _

theorem transition64_ub (hg : g.WF) {q : Nat} (hq : q < g.size) (x : BitVec 64) {len : Nat} (hl : 33 ≤ len) :
    g.transition64 q x len = .error .ub := by
  have h := transition64_32 hg hq x
  unfold transition64 at h ⊢
  obtain ⟨k, rfl⟩ : ∃ k, len = 33 + k := ⟨len - 33, by omega⟩
  rw [show 33 + k = 32 + (k + 1) by omega, List.range_add, List.foldlM_append, h, Res.bind_ok, List.range_succ_eq_map (n := k), List.map_cons,
    List.foldlM_cons]
  rfl

end Graph
end Homfa
