import Verif.Proof.Att
/-! `dump` and `dump_att`. -/

namespace Homfa
open Spec
namespace Graph
variable {g : Graph}

/-- the line of state `q` -/
def dumpLine (g : Graph) (q : Nat) : List Char :=
  (if g.init = q then ['>'] else []) ++ showNat q ++ (if g.fin q then ['*'] else []) ++ ['\t'] ++
    showNat (g.nx q false) ++ ['\t'] ++ showNat (g.nx q true)

theorem dump_ok (hg : g.WF) : g.dump = .ok (((List.range g.size).map g.dumpLine).flatMap (· ++ ['\n'])) := by
  unfold dump allStates
  obtain ⟨b, h1, h2⟩ := foldlM_range_inv (fun i os => os = ((List.range i).map g.dumpLine).flatMap (· ++ ['\n']))
    (f := fun os q => do
      let f ← g.isFinalState q
      let q0 ← g.nextState q false
      let q1 ← g.nextState q true
      pure (os ++ (if g.initialState = q then ['>'] else []) ++ showNat q ++ (if f then ['*'] else []) ++ ['\t'] ++
        showNat q0 ++ ['\t'] ++ showNat q1 ++ ['\n'])) g.size (b := []) rfl (by
      intro i os hi hos
      rw [hg.isFinalState_ok hi, Res.bind_ok, WF.nextState_ok hi, Res.bind_ok, WF.nextState_ok hi, Res.bind_ok]
      refine ⟨_, rfl, ?_⟩
      rw [hos, List.range_succ, List.map_append, List.flatMap_append]
      simp [dumpLine, initialState]
      rfl)
  rw [h1, h2]

theorem not_newline_showNat (n : Nat) : '\n' ∉ showNat n := by
  intro h
  have := (digits_showNat n).2 _ h
  revert this; decide

theorem not_newline_dumpLine (q : Nat) : '\n' ∉ g.dumpLine q := by
  unfold dumpLine
  simp only [List.mem_append, not_or]
  refine ⟨⟨⟨⟨⟨⟨?_, not_newline_showNat _⟩, ?_⟩, by decide⟩, not_newline_showNat _⟩, by decide⟩, not_newline_showNat _⟩
  · split <;> decide
  · split <;> decide

/-- the row of state `q` -/
def dumpRow (g : Graph) (q : Nat) : Row := ⟨decide (g.init = q), g.fin q, [g.nx q false], [g.nx q true]⟩

theorem targetField_showNat (n : Nat) : TargetField (showNat n) :=
  .inr ⟨(digits_showNat n).1, fun c hc => .inl ((digits_showNat n).2 c hc)⟩

theorem targets_showNat {n : Nat} (h : n < 2 ^ 31) : Targets (showNat n) [n] :=
  .inr ⟨[showNat n], by simp, by simpa using ⟨digits_showNat n, by rw [value_showNat]; exact h⟩, .inl rfl, by simp [value_showNat]⟩

theorem specLine_dumpLine (q : Nat) :
    SpecLine (g.dumpLine q) (decide (g.init = q)) (showNat q) (g.fin q) (showNat (g.nx q false)) (showNat (g.nx q true)) :=
  ⟨['\t'], ['\t'], by simp [dumpLine], digits_showNat q, targetField_showNat _, targetField_showNat _, by simp, by simp [Blank],
    by simp, by simp [Blank]⟩

theorem specRows_dump (hg : g.WF) (hsz : g.size ≤ 2 ^ 31) (n : Nat) : ∀ k, k + n = g.size →
    SpecRows k ((List.range' k n).map g.dumpLine) ((List.range' k n).map g.dumpRow) := by
  induction n with
  | zero => intro k _; exact .nil k
  | succ n ih =>
    intro k hk
    have hkl : k < g.size := by omega
    have h0 := hg.nx_lt hkl false
    have h1 := hg.nx_lt hkl true
    rw [List.range'_succ, List.map_cons, List.map_cons]
    exact .row (specLine_dumpLine k) (value_showNat k) (by omega) (targets_showNat (by omega)) (targets_showNat (by omega))
      (ih (k + 1) (by omega))

theorem fromIstream_dump (hg : g.WF) (hsz : g.size ≤ 2 ^ 31) :
    fromIstream (((List.range g.size).map g.dumpLine).flatMap (· ++ ['\n'])) = .ok { g with statesAtDepth := [] } := by
  unfold fromIstream
  rw [getlines_unlines (by
    intro l hl
    obtain ⟨q, _, rfl⟩ := List.mem_map.1 hl
    exact not_newline_dumpLine q)]
  have hr := specRows_dump hg hsz g.size 0 (by omega)
  rw [← List.range_eq_range'] at hr
  rw [show ({ initSts := [], finalSts := [], delta := [], isDfa := true } : SpecSt) = emptySpec from rfl,
    specRows_fold hr rfl, Res.bind_ok]
  obtain ⟨h1, h2, h3, h4, h5, h6, h7⟩ := rows_state ((List.range g.size).map g.dumpRow)
  generalize ((List.range g.size).map g.dumpRow).foldl addRow emptySpec = p at *
  have hget : ∀ (q : Nat) (r : Row), ((List.range g.size).map g.dumpRow)[q]? = some r ↔ q < g.size ∧ r = g.dumpRow q := by
    intro q r
    by_cases hq : q < g.size
    · simp [hq, eq_comm]
    · simp [hq]
  have e1 : p.initSts = [g.init] := by
    refine length_one_of h3 (fun q => ?_)
    rw [h4]
    constructor
    · rintro ⟨r, hr, hi⟩
      obtain ⟨_, rfl⟩ := (hget q r).1 hr
      simpa [dumpRow, eq_comm] using hi
    · rintro rfl
      exact ⟨_, (hget _ _).2 ⟨hg.init_lt, rfl⟩, by simp [dumpRow]⟩
  have e2 : p.finalSts = g.finals := by
    refine h5.ext hg.fin_sorted (fun q => ?_)
    rw [h6]
    constructor
    · rintro ⟨r, hr, hi⟩
      obtain ⟨_, rfl⟩ := (hget q r).1 hr
      simpa [dumpRow, fin] using hi
    · intro hq
      exact ⟨_, (hget _ _).2 ⟨hg.closed.2 q hq, rfl⟩, by simpa [dumpRow, fin] using hq⟩
  have e3 : p.delta = (List.range g.size).map (fun q => (q, [g.nx q false], [g.nx q true])) := by
    refine List.ext_getElem (by simpa using h1) ?_
    intro i a b
    have hi : i < g.size := by simpa using b
    have := h2 i _ ((hget i _).2 ⟨hi, rfl⟩)
    rw [List.getElem?_eq_getElem a] at this
    injection this with this
    rw [this]; simp [dumpRow]
  have e4 : p.isDfa = true := by
    rw [h7]
    intro r hr
    obtain ⟨q, _, rfl⟩ := List.mem_map.1 hr
    simp [dumpRow]
  unfold finishSpec
  dsimp only
  rw [e1, e2, e4, e3]
  simp only [List.length_singleton, Nat.one_ne_zero, if_false, ne_eq, not_true_eq_false, if_true, decide_true, cassert_true,
    Res.bind_ok]
  rw [mapM_ok (g := fun t => (t.1, t.2.1.headD 0, t.2.2.headD 0))]
  · rw [Res.bind_ok, vat_lt (by simp), Res.bind_ok]
    have e := hg.delta_eq
    rw [List.map_map]
    refine Eq.trans ?_ hg.built
    conv_rhs => rw [e]
    rfl
  · intro t ht
    obtain ⟨q, _, rfl⟩ := List.mem_map.1 ht
    rfl

/-- the AT&T lines of state `q` -/
def attLinesOf (g : Graph) (q : Nat) : List (List Char) :=
  [showNat q ++ '\t' :: (showNat (g.nx q false) ++ ['\t', '0']), showNat q ++ '\t' :: (showNat (g.nx q true) ++ ['\t', '1'])] ++
    (if g.fin q then [showNat q] else [])

def attItemsOf (g : Graph) (q : Nat) : List AttItem :=
  [.edge q (g.nx q false) false, .edge q (g.nx q true) true] ++ (if g.fin q then [.final q] else [])

theorem dumpAtt_ok (hg : g.WF) : g.dumpAtt = .ok (((List.range g.size).flatMap g.attLinesOf).flatMap (· ++ ['\n'])) := by
  unfold dumpAtt allStates
  obtain ⟨b, h1, h2⟩ := foldlM_range_inv (fun i os => os = ((List.range i).flatMap g.attLinesOf).flatMap (· ++ ['\n']))
    (f := fun os q => do
      let q0 ← g.nextState q false
      let q1 ← g.nextState q true
      let f ← g.isFinalState q
      pure (os ++ showNat q ++ ['\t'] ++ showNat q0 ++ "\t0\n".toList ++ showNat q ++ ['\t'] ++ showNat q1 ++ "\t1\n".toList ++
        (if f then showNat q ++ ['\n'] else []))) g.size (b := []) rfl (by
      intro i os hi hos
      rw [WF.nextState_ok hi, Res.bind_ok, WF.nextState_ok hi, Res.bind_ok, hg.isFinalState_ok hi, Res.bind_ok]
      refine ⟨_, rfl, ?_⟩
      rw [hos, List.range_succ, List.flatMap_append, List.flatMap_append]
      cases hf : g.fin i <;> simp [attLinesOf, hf, List.flatMap_cons])
  rw [h1, h2]

theorem attItems_ok (hg : g.WF) (hsz : g.size ≤ 2 ^ 31) {l : List Nat} (hl : ∀ q ∈ l, q < g.size) :
    List.Forall₂ AttLine (l.flatMap g.attLinesOf) (l.flatMap g.attItemsOf) := by
  have hd := digits_showNat
  have hv := value_showNat
  induction l with
  | nil => exact .nil
  | cons q l ih =>
    have hq := hl q (by simp)
    have h0 := hg.nx_lt hq false
    have h1 := hg.nx_lt hq true
    rw [List.flatMap_cons, List.flatMap_cons]
    have ih := ih (fun q hq => hl q (by simp [hq]))
    have e0 : AttLine (showNat q ++ '\t' :: (showNat (g.nx q false) ++ ['\t', '0'])) (.edge q (g.nx q false) false) :=
      ⟨_, _, hd q, hd _, hv q, hv _, by omega, by omega, by simp⟩
    have e1 : AttLine (showNat q ++ '\t' :: (showNat (g.nx q true) ++ ['\t', '1'])) (.edge q (g.nx q true) true) :=
      ⟨_, _, hd q, hd _, hv q, hv _, by omega, by omega, by simp⟩
    unfold attLinesOf attItemsOf
    cases hf : g.fin q
    · exact .cons e0 (.cons e1 ih)
    · exact .cons e0 (.cons e1 (.cons ⟨hd q, hv q, by omega⟩ ih))

theorem fromAtt_dump (hg : g.WF) (hsz : g.size ≤ 2 ^ 31) :
    ∃ h, fromAttIstream (((List.range g.size).flatMap g.attLinesOf).flatMap (· ++ ['\n'])) = .ok h ∧ h.WF ∧
      (∀ w, h.dfa.accepts w = g.fin (w.foldl g.nx 0)) ∧ (∀ q < h.size, ∃ w : List Bool, w.foldl h.nx h.init = q) ∧
      ∀ u v : List Bool, u.foldl h.nx h.init = v.foldl h.nx h.init ↔ u.foldl g.nx 0 = v.foldl g.nx 0 := by
  have hnl : ∀ l ∈ (List.range g.size).flatMap g.attLinesOf, '\n' ∉ l := by
    intro l hl
    obtain ⟨q, _, hl⟩ := List.mem_flatMap.1 hl
    unfold attLinesOf at hl
    have hn := not_newline_showNat
    rcases List.mem_append.1 hl with hl | hl
    · simp only [List.mem_cons, List.not_mem_nil, or_false] at hl
      rcases hl with rfl | rfl <;> simp [hn]
    · split at hl
      · simp at hl; subst hl; exact hn q
      · simp at hl
  have hit := attItems_ok hg hsz (l := List.range g.size) (by simp)
  have h0 : 0 < g.size := Nat.lt_of_le_of_lt (Nat.zero_le _) hg.init_lt
  have hedge : ∀ s d b, AttItem.edge s d b ∈ (List.range g.size).flatMap g.attItemsOf ↔ s < g.size ∧ d = g.nx s b := by
    intro s d b
    simp only [List.mem_flatMap, List.mem_range]
    constructor
    · rintro ⟨q, hq, h⟩
      unfold attItemsOf at h
      rcases List.mem_append.1 h with h | h
      · simp only [List.mem_cons, AttItem.edge.injEq, List.not_mem_nil, or_false] at h
        rcases h with ⟨rfl, rfl, rfl⟩ | ⟨rfl, rfl, rfl⟩ <;> exact ⟨hq, rfl⟩
      · split at h <;> simp at h
    · rintro ⟨hs, rfl⟩
      refine ⟨s, hs, ?_⟩
      unfold attItemsOf
      cases b <;> simp
  have hfin : ∀ q, AttItem.final q ∈ (List.range g.size).flatMap g.attItemsOf ↔ q < g.size ∧ g.fin q = true := by
    intro q
    simp only [List.mem_flatMap, List.mem_range]
    constructor
    · rintro ⟨p, hp, h⟩
      unfold attItemsOf at h
      rcases List.mem_append.1 h with h | h
      · simp at h
      · split at h
        · rename_i hf; simp at h; subst h; exact ⟨hp, hf⟩
        · simp at h
    · rintro ⟨hq, hf⟩
      exact ⟨q, hq, by simp [attItemsOf, hf]⟩
  have hpath := fun (q r : Nat) (w : List Bool) (hq : q < g.size) => path_dfa (q := q) (r := r) (w := w)
    (step := attStep ((List.range g.size).flatMap g.attItemsOf)) (P := fun q => q < g.size) (f := g.nx)
    (fun q b hq => hg.nx_lt hq b) (fun q b r hq => by
      unfold attStep
      rw [hedge]
      exact ⟨fun h => h.2, fun h => ⟨hq, h⟩⟩) hq
  rcases fromAtt_items (text := ((List.range g.size).flatMap g.attLinesOf).flatMap (· ++ ['\n']))
    (items := (List.range g.size).flatMap g.attItemsOf) (by rw [getlines_unlines hnl]; exact hit) with
    ⟨h, e1, e2, e3, _⟩ | ⟨_, w, q, hp, hlt⟩
  · obtain ⟨s1, s2⟩ := fromAtt_states (by rw [getlines_unlines hnl]; exact hit) e1
    refine ⟨h, e1, e2, fun w => ?_, s1, fun u v => (s2 u v).trans ⟨fun e => ?_, fun e q => ?_⟩⟩
    rotate_left
    · exact (hpath _ _ v h0).1 ((e _).1 ((hpath _ _ u h0).2 rfl))
    · rw [hpath _ _ u h0, hpath _ _ v h0, e]
    have e3 := e3 w
    have : NfaAccepts (· = 0) (fun q => AttItem.final q ∈ (List.range g.size).flatMap g.attItemsOf)
        (attStep ((List.range g.size).flatMap g.attItemsOf)) w ↔ g.fin (w.foldl g.nx 0) = true := by
      unfold NfaAccepts
      constructor
      · rintro ⟨p, r, rfl, hp, hr⟩
        rw [(hpath _ _ w h0).1 hp] at hr
        exact ((hfin _).1 hr).2
      · intro hf
        exact ⟨0, _, rfl, (hpath _ _ w h0).2 rfl, (hfin _).2 ⟨hg.run_lt h0 w, hf⟩⟩
    rw [this] at e3
    exact Bool.eq_iff_iff.2 e3
  · exfalso
    have hq := (hpath _ _ w h0).1 hp
    have : q < g.size := by rw [hq]; exact hg.run_lt h0 w
    have := hlt q (g.nx q false) false ((hedge _ _ _).2 ⟨this, rfl⟩)
    omega

end Graph
end Homfa
