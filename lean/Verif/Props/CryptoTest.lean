import Verif.Proof.CryptoTest
import Verif.Proof.CleanRun
import Verif.Props.Queries
/-!
# Property C119: what the verdict of the random test of the runners means
-/

namespace Homfa
open Homfa.Spec Homfa.PlainTest Homfa.CryptoTest

variable {N n l : Nat} {S : Scheme N n l} {δ : Noise} {Enc : Gsw l N → Bool → Prop}

/-- **C119 (the runners are right).** Whatever the method, the run the test makes on a word of whole letters decrypts to whether the monitor of the formula
can read the letters; this is what the oracle of the test says about the same word. -/
theorem C119_runners_right (hS : S.Sound δ Enc) (hN : 0 < N) (m : Method) (M : Monitor) (ap : Nat) (hM : MonitorOk M ap) (hap : 0 < ap) (len : Nat)
    (hbud : ∀ g, TestedAutomaton M ap g → WithinBudget N δ g len m) (r0 r1 : Nat) :
    ∃ g, TestedAutomaton M ap g ∧ ∀ w : List Bool, ap ∣ w.length → w.length ≤ len →
      ∃ b, got S m g w (S.encrypt r0 false) (S.encrypt r1 true) = .ok b ∧ checkMonitor M w ap = .ok b ∧ (b = true ↔ MonitorAccepts M ap w) := by
  obtain ⟨gr, h1, hw1, hacc⟩ := C41_ltl_language M ap hM
  obtain ⟨mgr, h2, hw2, hm⟩ := C04_minimized_language gr hw1
  refine ⟨mgr, ⟨gr, h1, h2⟩, fun w hw hlen => ?_⟩
  obtain ⟨b, hb, hbi⟩ := oracle_accepts hM hap hw
  obtain ⟨b', hb', hbi'⟩ := hacc w
  have he : b' = b := by
    rw [Bool.eq_iff_iff, hbi, hbi']; rfl
  subst he
  exact ⟨b', by rw [got_ok hS hN hw2 (hbud mgr ⟨gr, h1, h2⟩) hlen (hS.encrypt _ _) (hS.encrypt _ _), hm, hb'], hb, hbi⟩

/-- one input of the test -/
theorem testInput_spec (hS : S.Sound δ Enc) (hN : 0 < N) {m : Method} {M : Monitor} {ap : Nat} (hM : MonitorOk M ap) (hap : 0 < ap)
    {apVars props : List Nat} (hp : Mentioned M ap apVars props) {len : Nat} {g : Graph} (hg : TestedAutomaton M ap g)
    (hbud : WithinBudget N δ g len m) {c0 c1 : Gsw l N} (h0 : Enc c0 false) (h1 : Enc c1 true) (t : List (List Nat)) {w : List Bool}
    (hw : ap ∣ w.length) (hlen : w.length ≤ len) :
    ∃ w', Shuffled ap props w w' ∧
      (((MonitorAccepts M ap w ↔ MonitorAccepts M ap w') ∧
        testInput S m M { g with statesAtDepth := t } ((List.range ap).map fun k => props.getD k 0) ap c0 c1 w = .ok ()) ∨
      (¬ (MonitorAccepts M ap w ↔ MonitorAccepts M ap w') ∧
        testInput S m M { g with statesAtDepth := t } ((List.range ap).map fun k => props.getD k 0) ap c0 c1 w = .error .die)) := by
  obtain ⟨as, has, rfl⟩ := letters_of_dvd hw
  have has' : ∀ a ∈ as.map (shuffledLetter ap props), a.length = ap := by
    intro a ha
    obtain ⟨x, _, rfl⟩ := List.mem_map.1 ha
    exact length_shuffled
  have hlen' : (as.map (shuffledLetter ap props)).flatten.length = as.flatten.length := by
    rw [length_flatten_letters has', length_flatten_letters has, List.length_map]
  refine ⟨_, ⟨as, has, rfl, rfl⟩, ?_⟩
  obtain ⟨b, hb, hbi⟩ := oracle_accepts hM hap hw
  obtain ⟨b2, _, hbi2⟩ := oracle_accepts hM hap (w := (as.map (shuffledLetter ap props)).flatten) (by rw [hlen']; exact hw)
  obtain ⟨gr, k1, hw1, hacc⟩ := C41_ltl_language M ap hM
  obtain ⟨mgr, k2, hw2, hm⟩ := C04_minimized_language gr hw1
  obtain ⟨g0, e1, e2⟩ := hg
  rw [k1] at e1
  cases e1
  rw [k2] at e2
  cases e2
  have hgot : got S m { g with statesAtDepth := t } (as.map (shuffledLetter ap props)).flatten c0 c1 = .ok b2 := by
    rw [got_ok hS hN (hw2.withDepth t) (withinBudget_depth hbud t) (by rw [hlen']; exact hlen) h0 h1]
    show g.accepts _ = _
    rw [hm]
    obtain ⟨b', hb', hbi'⟩ := hacc (as.map (shuffledLetter ap props)).flatten
    rw [hb']
    congr 1
    rw [Bool.eq_iff_iff, hbi2, hbi']; rfl
  rw [testInput, permutate_ok hap hp.lt has, Res.bind_ok, hb, Res.bind_ok, hgot, Res.bind_ok, ← hbi, ← hbi2]
  by_cases he : b = b2
  · subst he
    exact .inl ⟨Iff.rfl, by rw [if_neg (by simp), Res.pure_eq]⟩
  · exact .inr ⟨fun h => he (Bool.eq_iff_iff.2 h), by rw [if_pos he]⟩

theorem forM_ok_or_die {α : Type} {f : α → Res Unit} : ∀ {l : List α}, (∀ a ∈ l, f a = .ok () ∨ f a = .error .die) →
    (l.forM f = .ok () ∧ ∀ a ∈ l, f a = .ok ()) ∨ (l.forM f = .error .die ∧ ∃ a ∈ l, f a = .error .die)
  | [], _ => .inl ⟨rfl, by simp⟩
  | a :: l, h => by
    rcases h a List.mem_cons_self with h1 | h1
    · have he : (a :: l).forM f = l.forM f := by
        show (do f a; l.forM f) = _
        rw [h1, Res.bind_ok]
      rw [he]
      rcases forM_ok_or_die (l := l) (fun x hx => h x (List.mem_cons_of_mem _ hx)) with ⟨h2, h3⟩ | ⟨h2, x, hx, h3⟩
      · exact .inl ⟨h2, by
          intro x hx
          rcases List.mem_cons.1 hx with rfl | hx
          · exact h1
          · exact h3 x hx⟩
      · exact .inr ⟨h2, x, List.mem_cons_of_mem _ hx, h3⟩
    · exact .inr ⟨forM_error h1, a, List.mem_cons_self, h1⟩

theorem mapM_mem_of {α β : Type} {f : α → Res β} : ∀ {l : List α} {r : List β}, l.mapM f = .ok r → ∀ a ∈ l, ∀ y, f a = .ok y → y ∈ r
  | [], _, _, a, ha, _, _ => by simp at ha
  | a :: l, r, h, x, hx, y, hy => by
    rw [List.mapM_cons] at h
    obtain ⟨z, hz, h⟩ := Res.bind_eq_ok.1 h
    obtain ⟨zs, hzs, h⟩ := Res.bind_eq_ok.1 h
    rw [Res.pure_eq] at h
    injection h with h
    subst h
    rcases List.mem_cons.1 hx with rfl | hx
    · rw [hy] at hz; injection hz with hz; subst hz; exact List.mem_cons_self
    · exact List.mem_cons_of_mem _ (mapM_mem_of hzs x hx y hy)

theorem shuffled_unique {ap : Nat} (hap : 0 < ap) {props : List Nat} {w u v : List Bool} (h1 : Shuffled ap props w u) (h2 : Shuffled ap props w v) : u = v := by
  obtain ⟨as, a1, a2, a3⟩ := h1
  obtain ⟨bs, b1, b2, b3⟩ := h2
  rw [a3, b3, letters_unique hap as bs a1 b1 (a2.symm.trans b2)]

/-- one formula -/
theorem testFormula_spec (hS : S.Sound δ Enc) (hN : 0 < N) {m : Method} {M : Monitor} {ap : Nat} (hM : MonitorOk M ap) (hap : 0 < ap) (hap32 : ap ≤ 32)
    {apVars props : List Nat} (hp : Mentioned M ap apVars props) {rand : List (Nat × (Nat → Bool))} {len : Nat}
    (hlen : ∀ w, IsInput ap rand w → w.length ≤ len) (hbud : ∀ g, TestedAutomaton M ap g → WithinBudget N δ g len m)
    {c0 c1 : Gsw l N} (h0 : Enc c0 false) (h1 : Enc c1 true) {bv : List (List Bool)} (hbv : rand.mapM (fun r => randomBvec r.1 r.2 ap) = .ok bv) :
    (CryptoTest.testFormula S m M apVars ap c0 c1 bv = .ok () ∧
      ∀ w w', IsInput ap rand w → Shuffled ap props w w' → (MonitorAccepts M ap w ↔ MonitorAccepts M ap w')) ∨
    (CryptoTest.testFormula S m M apVars ap c0 c1 bv = .error .die ∧
      ∃ w w', IsInput ap rand w ∧ Shuffled ap props w w' ∧ ¬ (MonitorAccepts M ap w ↔ MonitorAccepts M ap w')) := by
  obtain ⟨gr, k1, hw1, _⟩ := C41_ltl_language M ap hM
  obtain ⟨mgr, k2, hw2, _⟩ := C04_minimized_language gr hw1
  have hg : TestedAutomaton M ap mgr := ⟨gr, k1, k2⟩
  have hinp : ∀ i < 10 + bv.length, ∃ w, (if i < 10 then int2bvec (i + 1) ap else vat bv (i - 10) : Res (List Bool)) = .ok w ∧
      ap ∣ w.length ∧ IsInput ap rand w := by
    intro i hi
    by_cases hi1 : i < 10
    · obtain ⟨w, hw, hd⟩ := int2bvec_ok hap hap32 (i := i + 1) (by omega)
      exact ⟨w, by rw [if_pos hi1]; exact hw, hd, .inl ⟨i + 1, by omega, by omega, hw⟩⟩
    · have hlt : i - 10 < bv.length := by omega
      obtain ⟨r, hr1, hr2⟩ := mapM_mem hbv _ (List.getElem_mem hlt)
      obtain ⟨w, hw, hd⟩ := randomBvec_ok hap r.1 r.2
      rw [hw] at hr2
      injection hr2 with hr2
      exact ⟨w, by rw [if_neg hi1, vat, List.getElem?_eq_getElem hlt, hr2], hd, .inr ⟨r, hr1, hw⟩⟩
  have hcov : ∀ w, IsInput ap rand w → ∃ i < 10 + bv.length, (if i < 10 then int2bvec (i + 1) ap else vat bv (i - 10) : Res (List Bool)) = .ok w := by
    rintro w (⟨i, h2, h3, h4⟩ | ⟨r, hr, h4⟩)
    · exact ⟨i - 1, by omega, by rw [if_pos (by omega), Nat.sub_add_cancel h2]; exact h4⟩
    · obtain ⟨j, hj, he⟩ := List.mem_iff_getElem.1 (mapM_mem_of hbv r hr w h4)
      exact ⟨10 + j, by omega, by rw [if_neg (by omega), Nat.add_sub_cancel_left, vat, List.getElem?_eq_getElem hj, he]⟩
  unfold CryptoTest.testFormula
  rw [k1, Res.bind_ok, k2, Res.bind_ok, Graph.reserve_ok hw2, Res.bind_ok, permTable_ok hM hp, Res.bind_ok]
  have hone : ∀ i < 10 + bv.length, ∀ w, (if i < 10 then int2bvec (i + 1) ap else vat bv (i - 10) : Res (List Bool)) = .ok w → IsInput ap rand w → ap ∣ w.length → _ :=
    fun i _ w _ h3 h4 => testInput_spec hS hN hM hap hp hg (hbud _ hg) h0 h1 ((List.range 10000).map (mgr.levelSet [mgr.init])) h4 (hlen w h3)
  rcases forM_ok_or_die (l := List.range (10 + bv.length)) (f := fun i => do
      let inSrc ← (if i < 10 then int2bvec (i + 1) ap else vat bv (i - 10) : Res (List Bool))
      testInput S m M { mgr with statesAtDepth := (List.range 10000).map (mgr.levelSet [mgr.init]) } ((List.range ap).map fun k => props.getD k 0) ap c0 c1 inSrc)
      (by
        intro i hi
        obtain ⟨w, e1, e2, e3⟩ := hinp i (List.mem_range.1 hi)
        obtain ⟨w', _, ⟨_, h5⟩ | ⟨_, h5⟩⟩ := hone i (List.mem_range.1 hi) w e1 e3 e2
        · left; rw [e1, Res.bind_ok]; exact h5
        · right; rw [e1, Res.bind_ok]; exact h5) with ⟨h2, h3⟩ | ⟨h2, i, hi, h3⟩
  · refine .inl ⟨h2, fun w w' hw hsh => ?_⟩
    obtain ⟨i, hi, he⟩ := hcov w hw
    obtain ⟨w1, e1, e2, e3⟩ := hinp i hi
    rw [he] at e1
    injection e1 with e1
    subst e1
    obtain ⟨w2, s2, ⟨h4, _⟩ | ⟨_, h5⟩⟩ := hone i hi w he e3 e2
    · rw [shuffled_unique hap hsh s2]; exact h4
    · have := h3 i (List.mem_range.2 hi)
      rw [he, Res.bind_ok, h5] at this
      cases this
  · refine .inr ⟨h2, ?_⟩
    obtain ⟨w, e1, e2, e3⟩ := hinp i (List.mem_range.1 hi)
    obtain ⟨w', s2, ⟨_, h5⟩ | ⟨h4, _⟩⟩ := hone i (List.mem_range.1 hi) w e1 e3 e2
    · rw [e1, Res.bind_ok, h5] at h3
      cases h3
    · exact ⟨w, w', e3, s2, h4⟩

/-- **C119 (what the verdict means).** With sound operations the test either passes or reports a mismatch, whatever the keys, the randomness and the draws.  It
passes exactly if, for every formula and every input of the test, the monitor can read the input if and only if it can read the input with the letters shuffled. -/
theorem C119_verdict (hS : S.Sound δ Enc) (hN : 0 < N) (m : Method) (ap : Nat) (hap : 0 < ap) (hap32 : ap ≤ 32) (r0 r1 : Nat)
    (rand : List (Nat × (Nat → Bool))) (len : Nat) (hlen : ∀ w, IsInput ap rand w → w.length ≤ len) (fs : List (Monitor × List Nat))
    (hfs : ∀ f ∈ fs, MonitorOk f.1 ap ∧ (∃ props, Mentioned f.1 ap f.2 props) ∧ ∀ g, TestedAutomaton f.1 ap g → WithinBudget N δ g len m) :
    (testAll S m ap r0 r1 rand fs = .ok () ∧ ∀ f ∈ fs, ∀ props, Mentioned f.1 ap f.2 props → ∀ w w', IsInput ap rand w → Shuffled ap props w w' →
      (MonitorAccepts f.1 ap w ↔ MonitorAccepts f.1 ap w')) ∨
    (testAll S m ap r0 r1 rand fs = .error .die ∧ ∃ f ∈ fs, ∃ props, Mentioned f.1 ap f.2 props ∧ ∃ w w', IsInput ap rand w ∧ Shuffled ap props w w' ∧
      ¬ (MonitorAccepts f.1 ap w ↔ MonitorAccepts f.1 ap w')) := by
  obtain ⟨bv, hbv⟩ := PlainTest.mapM_ok (l := rand) (f := fun r => randomBvec r.1 r.2 ap) (fun r _ => by
    obtain ⟨w, hw, _⟩ := randomBvec_ok hap r.1 r.2; exact ⟨w, hw⟩)
  unfold testAll
  dsimp only
  rw [hbv, Res.bind_ok]
  rcases forM_ok_or_die (l := fs) (f := fun a => CryptoTest.testFormula S m a.1 a.2 ap (S.encrypt r0 false) (S.encrypt r1 true) bv) (by
    intro f hf
    obtain ⟨k1, ⟨props, k2⟩, k3⟩ := hfs f hf
    rcases testFormula_spec hS hN k1 hap hap32 k2 hlen k3 (hS.encrypt r0 false) (hS.encrypt r1 true) hbv with ⟨h, _⟩ | ⟨h, _⟩
    · exact .inl h
    · exact .inr h) with ⟨h1, h2⟩ | ⟨h1, f, hf, h2⟩
  · refine .inl ⟨h1, fun f hf props hp => ?_⟩
    obtain ⟨k1, _, k3⟩ := hfs f hf
    rcases testFormula_spec hS hN k1 hap hap32 hp hlen k3 (hS.encrypt r0 false) (hS.encrypt r1 true) hbv with ⟨_, h⟩ | ⟨h, _⟩
    · exact h
    · rw [h2 f hf] at h; cases h
  · refine .inr ⟨h1, f, hf, ?_⟩
    obtain ⟨k1, ⟨props, k2⟩, k3⟩ := hfs f hf
    rcases testFormula_spec hS hN k1 hap hap32 k2 hlen k3 (hS.encrypt r0 false) (hS.encrypt r1 true) hbv with ⟨h, _⟩ | ⟨_, h⟩
    · rw [h] at h2; cases h2
    · exact ⟨props, k2, h⟩

/-- **C119 (a pass).** If the propositions of every formula are p0, ..., p(k-1) for some `k`, the test passes, with every method, whatever the keys, the randomness
and the draws. -/
theorem C119_passes (hS : S.Sound δ Enc) (hN : 0 < N) (m : Method) (ap : Nat) (hap : 0 < ap) (hap32 : ap ≤ 32) (r0 r1 : Nat)
    (rand : List (Nat × (Nat → Bool))) (len : Nat) (hlen : ∀ w, IsInput ap rand w → w.length ≤ len) (fs : List (Monitor × List Nat))
    (hfs : ∀ f ∈ fs, MonitorOk f.1 ap ∧ (∃ k, Mentioned f.1 ap f.2 (List.range k)) ∧ ∀ g, TestedAutomaton f.1 ap g → WithinBudget N δ g len m) :
    testAll S m ap r0 r1 rand fs = .ok () := by
  rcases C119_verdict hS hN m ap hap hap32 r0 r1 rand len hlen fs (fun f hf => by
    obtain ⟨h1, ⟨k, h2⟩, h3⟩ := hfs f hf
    exact ⟨h1, ⟨_, h2⟩, h3⟩) with ⟨h, _⟩ | ⟨_, f, hf, props, h2, w, w', _, h4, h5⟩
  · exact h
  · obtain ⟨h1, ⟨k, h3⟩, _⟩ := hfs f hf
    have : props = List.range k := by
      rw [← filterMap_lookup h1 h2.vars h2.lt, ← filterMap_lookup h1 h3.vars h3.lt]
    subst this
    exact absurd (shuffled_prefix h1 hap h3 h4) h5

/-- the monitor of the formula `p1` over five propositions -/
def exP1 : Monitor where
  out := [[(.node 1 .ff .tt, 1)], [(.tt, 1)]]
  init := 0
  varOf := fun i => if i = 1 then some 1 else none

theorem exP1_ok : MonitorOk exP1 5 where
  init_lt := by decide
  dst_lt := by decide
  distinct := by
    intro i j v _ _ h1 h2
    simp only [exP1] at h1 h2
    split at h1 <;> split at h2 <;> simp_all
  ordered := by
    intro es hes e he
    simp only [exP1, List.mem_cons, List.not_mem_nil, or_false] at hes
    rcases hes with rfl | rfl <;> rw [List.mem_singleton] at he <;> subst he
    · exact ⟨1, rfl, by omega, by omega, trivial, trivial⟩
    · trivial
  satisfiable := by
    intro es hes e he
    simp only [exP1, List.mem_cons, List.not_mem_nil, or_false] at hes
    rcases hes with rfl | rfl <;> rw [List.mem_singleton] at he <;> subst he
    · exact ⟨fun _ => true, rfl⟩
    · exact ⟨fun _ => true, rfl⟩

theorem exP1_mentioned : Mentioned exP1 5 [1] [1] where
  vars := .cons rfl .nil
  nodup := by decide
  lt := by decide
  about := by
    intro es hes e he v hv
    simp only [exP1, List.mem_cons, List.not_mem_nil, or_false] at hes
    rcases hes with rfl | rfl <;> rw [List.mem_singleton] at he <;> subst he
    · simp only [Mentions, or_false] at hv
      rw [← hv]; exact List.mem_cons_self
    · exact hv.elim

/-- **C119 (a false alarm).** A list of formulas with the formula `p1` in it makes the test report a mismatch, with every method and whatever the keys, the randomness
and the draws, although by `C119_runners_right` the runners are right. -/
theorem C119_false_alarm (hS : S.Sound δ Enc) (hN : 0 < N) (m : Method) (r0 r1 : Nat)
    (rand : List (Nat × (Nat → Bool))) (len : Nat) (hlen : ∀ w, IsInput 5 rand w → w.length ≤ len) (fs : List (Monitor × List Nat))
    (hfs : ∀ f ∈ fs, MonitorOk f.1 5 ∧ (∃ props, Mentioned f.1 5 f.2 props) ∧ ∀ g, TestedAutomaton f.1 5 g → WithinBudget N δ g len m)
    (hp1 : (exP1, [1]) ∈ fs) :
    testAll S m 5 r0 r1 rand fs = .error .die := by
  rcases C119_verdict hS hN m 5 (by decide) (by decide) r0 r1 rand len hlen fs hfs with ⟨_, h⟩ | ⟨h, _⟩
  · have h1 := h _ hp1 [1] exP1_mentioned [true, false, false, false, false] [false, true, true, true, true]
      (.inl ⟨1, by decide, by decide, by decide⟩) ⟨[[true, false, false, false, false]], by decide, by decide, by decide⟩
    obtain ⟨b, hb, hbi⟩ := oracle_accepts exP1_ok (by decide) (w := [true, false, false, false, false]) (by decide)
    obtain ⟨b', hb', hbi'⟩ := oracle_accepts exP1_ok (by decide) (w := [false, true, true, true, true]) (by decide)
    have e1 : checkMonitor exP1 [true, false, false, false, false] 5 = .ok false := by decide
    have e2 : checkMonitor exP1 [false, true, true, true, true] 5 = .ok true := by decide
    rw [e1] at hb
    rw [e2] at hb'
    cases hb
    cases hb'
    simp only at h1
    rw [← hbi, ← hbi'] at h1
    simp at h1
  · exact h

/-! The hypotheses are met: exact operations, `G(p0 -> X p1)` over two propositions and `p1` over five. -/

theorem atMostLive_size {g : Graph} (hg : g.WF) : AtMostLive g g.size := by
  intro d X hX h
  have := (List.subperm_of_subset hX (l₂ := List.range g.size) (fun q hq => by
    obtain ⟨w, _, hw⟩ := h q hq
    rw [show g.initialState = g.init from rfl, (hg.run_ok hg.init_lt w).1] at hw
    injection hw with hw
    rw [← hw]
    exact List.mem_range.2 (hg.run_lt hg.init_lt w))).length_le
  simpa using this

/-- with exact operations and a small automaton every method is within its limits -/
theorem exact_budget {M : Monitor} {ap k : Nat} (hM : MonitorOk M ap) (hN : 2 ^ 8 ≤ N) {len : Nat} (hlen : len < 2 ^ 31)
    (hk : (do let g0 ← Graph.fromMonitor M ap false; let g ← g0.minimized; pure g.size) = (.ok k : Res Nat)) (hk8 : k < 2 ^ 8) (m : Method)
    (g : Graph) (hg : TestedAutomaton M ap g) : WithinBudget N ⟨0, 0, 0, 0, 0, 0⟩ g len m := by
  obtain ⟨gr, k1, hw1, _⟩ := C41_ltl_language M ap hM
  obtain ⟨mgr, k2, hw2, _⟩ := C04_minimized_language gr hw1
  obtain ⟨g0, e1, e2⟩ := hg
  rw [k1] at e1
  cases e1
  rw [k2] at e2
  cases e2
  rw [k1, Res.bind_ok, k2, Res.bind_ok, Res.pure_eq] at hk
  injection hk with hk
  cases m with
  | offline => exact ⟨by simp, hlen⟩
  | reversed => show _ < _; simp
  | qtrlwe2 => exact ⟨hN, _, atMostLive_size hw2, by omega, by simp [flutErr]⟩

def exDraws : List (Nat × (Nat → Bool)) := [(3, fun i => i % 3 == 0), (200, fun _ => true)]

theorem exDraws_length {ap len : Nat} (h1 : (List.range 10).all (fun i => (int2bvec (i + 1) ap).toOption.all fun w => decide (w.length ≤ len)) = true)
    (h2 : exDraws.all (fun r => (randomBvec r.1 r.2 ap).toOption.all fun w => decide (w.length ≤ len)) = true) :
    ∀ w, IsInput ap exDraws w → w.length ≤ len := by
  rintro w (⟨i, k1, k2, k3⟩ | ⟨r, k1, k2⟩)
  · have := List.all_eq_true.1 h1 (i - 1) (List.mem_range.2 (by omega))
    rw [Nat.sub_add_cancel k1, k3] at this
    simpa [Except.toOption] using this
  · have := List.all_eq_true.1 h2 r k1
    rw [k2] at this
    simpa [Except.toOption] using this

theorem exMonitor_mentioned : Mentioned exMonitor 2 [4, 7] (List.range 2) where
  vars := .cons rfl (.cons rfl .nil)
  nodup := by decide
  lt := by decide
  about := by
    intro es hes e he v hv
    simp only [exMonitor, List.mem_cons, List.not_mem_nil, or_false] at hes
    rcases hes with rfl | rfl <;> simp only [List.mem_cons, List.not_mem_nil, or_false] at he <;> rcases he with rfl | rfl <;>
      simp only [Mentions, or_false, false_or] at hv <;> simp only [List.mem_cons, List.not_mem_nil, or_false] <;> omega

/-- The runners on `G(p0 -> X p1)`: a word is read as the monitor reads it. -/
example (m : Method) : ∃ g, TestedAutomaton exMonitor 2 g ∧
    got (exactScheme 256 1 1) m g [true, false, true, false] ((exactScheme 256 1 1).encrypt 3 false) ((exactScheme 256 1 1).encrypt 4 true) = .ok false ∧
    got (exactScheme 256 1 1) m g [true, false, false, true] ((exactScheme 256 1 1).encrypt 3 false) ((exactScheme 256 1 1).encrypt 4 true) = .ok true := by
  obtain ⟨g, h1, h2⟩ := C119_runners_right (exact_sound (N := 256) (n := 1) (l := 1) (by decide) (by decide)) (by decide) m exMonitor 2 exMonitor_ok (by decide) 4
    (exact_budget exMonitor_ok (by decide) (by decide) (k := 7) (by decide +kernel) (by decide) m) 3 4
  refine ⟨g, h1, ?_, ?_⟩
  · obtain ⟨b, k1, k2, _⟩ := h2 [true, false, true, false] (by decide) (by decide)
    rw [show checkMonitor exMonitor [true, false, true, false] 2 = .ok false by decide] at k2
    rw [k1, ← k2]
  · obtain ⟨b, k1, k2, _⟩ := h2 [true, false, false, true] (by decide) (by decide)
    rw [show checkMonitor exMonitor [true, false, false, true] 2 = .ok true by decide] at k2
    rw [k1, ← k2]

/-- The test passes on `G(p0 -> X p1)`. -/
example (m : Method) : testAll (exactScheme 256 1 1) m 2 3 4 exDraws [(exMonitor, [4, 7])] = .ok () :=
  C119_passes (exact_sound (by decide) (by decide)) (by decide) m 2 (by decide) (by decide) 3 4 exDraws 202
    (exDraws_length (by decide +kernel) (by decide +kernel)) _ (by
      intro f hf
      rw [List.mem_singleton] at hf
      subst hf
      exact ⟨exMonitor_ok, ⟨2, exMonitor_mentioned⟩, exact_budget exMonitor_ok (by decide) (by decide) (k := 7) (by decide +kernel) (by decide) m⟩)

/-- The test reports a mismatch on `p1`. -/
example (m : Method) : testAll (exactScheme 256 1 1) m 5 3 4 exDraws [(exP1, [1])] = .error .die :=
  C119_false_alarm (exact_sound (by decide) (by decide)) (by decide) m 3 4 exDraws 205
    (exDraws_length (by decide +kernel) (by decide +kernel)) _ (by
      intro f hf
      rw [List.mem_singleton] at hf
      subst hf
      exact ⟨exP1_ok, ⟨[1], exP1_mentioned⟩, exact_budget exP1_ok (by decide) (by decide) (k := 8) (by decide +kernel) (by decide) m⟩) List.mem_cons_self

end Homfa
