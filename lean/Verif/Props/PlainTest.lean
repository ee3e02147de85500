import Verif.Proof.PlainTest
import Verif.Props.Ltl
import Verif.Props.Minimize
import Verif.Props.Determinize
/-!
# Property C72: the random test of the automata can only pass
-/

namespace Homfa
open Homfa.Spec Homfa.PlainTest

/-- **C72.** The walk over the sets of states of the monitor, the oracle of the random test, says whether the monitor can read the letters of the input;
bits after the last whole letter are ignored. -/
theorem C72_oracle (M : Monitor) (n : Nat) (hM : MonitorOk M n) (hn : 0 < n) (letters : List (List Bool)) (rest : List Bool)
    (hl : ∀ a ∈ letters, a.length = n) (hr : rest.length < n) :
    ∃ b, checkMonitor M (letters.flatten ++ rest) n = .ok b ∧ (b = true ↔ ∃ q, MonitorRun M M.init letters q) :=
  checkMonitor_spec hM hn hl hr rfl

/-- `G(p0 -> X p1)`: a satisfied and a violated sequence of two letters, and a cut letter. -/
example : checkMonitor exMonitor [true, false, false, true] 2 = .ok true ∧ checkMonitor exMonitor [true, false, true, false] 2 = .ok false ∧
    checkMonitor exMonitor [true, false, true] 2 = .ok true := by decide

/-- **C72.** On every input of whole letters the oracle, the automaton of the formula, its minimized form, and, on the input read backwards, its reversal,
the reversed construction and their minimized forms all give the same answer. -/
theorem C72_agree (M : Monitor) (n : Nat) (hM : MonitorOk M n) (hn : 0 < n) :
    ∃ gr mgr rgr mrgr rgr2 mrgr2, Graph.fromMonitor M n false = .ok gr ∧ gr.minimized = .ok mgr ∧ gr.reversed = .ok rgr ∧ rgr.minimized = .ok mrgr ∧
      Graph.fromMonitorReversed M n false = .ok rgr2 ∧ rgr2.minimized = .ok mrgr2 ∧
      ∀ w : List Bool, n ∣ w.length → ∃ b, checkMonitor M w n = .ok b ∧ gr.accepts w = .ok b ∧ mgr.accepts w = .ok b ∧
        rgr.accepts w.reverse = .ok b ∧ mrgr.accepts w.reverse = .ok b ∧ rgr2.accepts w.reverse = .ok b ∧ mrgr2.accepts w.reverse = .ok b := by
  obtain ⟨gr, h1, hw1, hacc⟩ := C41_ltl_language M n hM
  obtain ⟨mgr, h2, _, hm⟩ := C04_minimized_language gr hw1
  obtain ⟨rgr, h3, hw3, hr⟩ := C03_reversed_language gr hw1
  obtain ⟨mrgr, h4, _, hmr⟩ := C04_minimized_language rgr hw3
  obtain ⟨gr', rgr2, h1', h5, hw5, hr2⟩ := C42_ltl_reversed M n hM false
  obtain ⟨mrgr2, h6, _, hmr2⟩ := C04_minimized_language rgr2 hw5
  rw [h1] at h1'; injection h1' with h1'; subst h1'
  refine ⟨gr, mgr, rgr, mrgr, rgr2, mrgr2, h1, h2, h3, h4, h5, h6, fun w hw => ?_⟩
  obtain ⟨k, hk⟩ := hw
  obtain ⟨as, tail, hlen, has, hs⟩ := exists_letters n k w (by omega)
  have htail : tail = [] := by
    have hfl : as.flatten.length = as.length * n := by
      rw [List.length_flatten, List.map_eq_replicate_iff.2 (fun x hx => has x hx), List.sum_replicate]; simp
    have := congrArg List.length hs
    rw [List.length_append, hfl, hlen, hk, Nat.mul_comm k n] at this
    exact List.length_eq_zero_iff.1 (by omega)
  subst htail
  rw [List.append_nil] at hs
  obtain ⟨b, hb, hbi⟩ := checkMonitor_spec (tail := []) hM hn has (by simpa using hn) (by simpa using hs)
  obtain ⟨b', hb', hbi'⟩ := hacc w
  have he : b' = b := by
    rw [Bool.eq_iff_iff, hbi, hbi']
    constructor
    · rintro ⟨ls, q, h7, h8, h9⟩
      rw [← letters_unique hn ls as h7 has (h8.symm.trans hs)]
      exact ⟨q, h9⟩
    · rintro ⟨q, h9⟩
      exact ⟨as, q, has, hs, h9⟩
  subst he
  refine ⟨b', hb, hb', ?_, ?_, ?_, ?_, ?_⟩
  · rw [hm, hb']
  · rw [hr, List.reverse_reverse, hb']
  · rw [hmr, hr, List.reverse_reverse, hb']
  · rw [hr2, List.reverse_reverse, hb']
  · rw [hmr2, hr2, List.reverse_reverse, hb']

theorem forM_ok {α : Type} {f : α → Res Unit} : ∀ {l : List α}, (∀ a ∈ l, f a = .ok ()) → l.forM f = .ok ()
  | [], _ => rfl
  | a :: l, h => by
    show (do f a; l.forM f) = _
    rw [h a List.mem_cons_self, Res.bind_ok]
    exact forM_ok fun x hx => h x (List.mem_cons_of_mem _ hx)

theorem forM_error {α : Type} {f : α → Res Unit} {a : α} {l : List α} {e : Err} (h : f a = .error e) : (a :: l).forM f = .error e := by
  show (do f a; l.forM f) = _
  rw [h]; rfl

/-- **C72.** The random test of the automata passes for every formula over 1 to 32 propositions and whatever the generator draws. -/
theorem C72_test_passes (M : Monitor) (n : Nat) (hM : MonitorOk M n) (hn : 0 < n) (hn32 : n ≤ 32) (rand : List (Nat × (Nat → Bool))) :
    testFormula M n rand = .ok () := by
  obtain ⟨gr, mgr, rgr, mrgr, rgr2, mrgr2, h1, h2, h3, h4, h5, h6, hall⟩ := C72_agree M n hM hn
  have hcmp : ∀ {g : Graph} {w : List Bool} {b : Bool}, g.accepts w = .ok b → compareGr b g w = .ok () := by
    intro g w b h
    rw [compareGr, checkGraph_eq, h, Res.bind_ok, if_neg (by simp), Res.pure_eq]
  have hopt : ∀ {g m : Graph}, g.minimized = .ok m → ∃ o, minimizedOpt g = .ok o ∧
      ∀ {w : List Bool} {b : Bool}, m.accepts w = .ok b → compareOpt b o w = .ok () := by
    intro g m h
    by_cases hs : g.size < 10000
    · exact ⟨some m, by rw [minimizedOpt, if_pos hs, h, Res.bind_ok, Res.pure_eq], fun hb => hcmp hb⟩
    · exact ⟨none, by rw [minimizedOpt, if_neg hs, Res.pure_eq], fun _ => rfl⟩
  obtain ⟨o1, ho1, hc1⟩ := hopt h2
  obtain ⟨o2, ho2, hc2⟩ := hopt h4
  obtain ⟨o3, ho3, hc3⟩ := hopt h6
  obtain ⟨bv, hbv⟩ := PlainTest.mapM_ok (l := rand) (f := fun r => randomBvec r.1 r.2 n) (fun r _ => by
    obtain ⟨w, hw, _⟩ := randomBvec_ok hn r.1 r.2; exact ⟨w, hw⟩)
  rw [testFormula, hbv, Res.bind_ok, h1, Res.bind_ok, h3, Res.bind_ok, h5, Res.bind_ok, ho1, Res.bind_ok, ho2, Res.bind_ok, ho3, Res.bind_ok]
  refine forM_ok fun i hi => ?_
  have hinp : ∃ w, (if i < 100 then int2bvec (i + 1) n else vat bv (i - 100) : Res (List Bool)) = .ok w ∧ n ∣ w.length := by
    by_cases hi1 : i < 100
    · rw [if_pos hi1]; exact int2bvec_ok hn hn32 (by omega)
    · rw [if_neg hi1]
      have hlt : i - 100 < bv.length := by
        have := mapM_length hbv; have := List.mem_range.1 hi; omega
      refine ⟨bv[i - 100], by rw [vat, List.getElem?_eq_getElem hlt], ?_⟩
      obtain ⟨r, _, hr⟩ := mapM_mem hbv _ (List.getElem_mem hlt)
      obtain ⟨w, hw, hd⟩ := randomBvec_ok hn r.1 r.2
      rw [hw] at hr; injection hr with hr
      rw [← hr]; exact hd
  obtain ⟨w, hw, hd⟩ := hinp
  obtain ⟨b, hb, k1, k2, k3, k4, k5, k6⟩ := hall w hd
  rw [hw, Res.bind_ok, hb, Res.bind_ok, hcmp k1, Res.bind_ok, hc1 k2, Res.bind_ok, hcmp k3, Res.bind_ok, hc2 k4, Res.bind_ok, hcmp k5, Res.bind_ok]
  exact hc3 k6

/-- The test on the monitor above. -/
example : testFormula exMonitor 2 [(3, fun i => i % 3 == 0), (200, fun _ => true)] = .ok () :=
  C72_test_passes exMonitor 2 exMonitor_ok (by decide) (by decide) _

/-- **C72.** With more than 32 propositions the test is undefined on its first input: `int2bvec` shifts the `int` 1 by 32 and more. -/
theorem C72_test_undefined (M : Monitor) (n : Nat) (hM : MonitorOk M n) (hn : 32 < n) (rand : List (Nat × (Nat → Bool))) :
    testFormula M n rand = .error .ub := by
  obtain ⟨gr, mgr, rgr, mrgr, rgr2, mrgr2, h1, h2, h3, h4, h5, h6, _⟩ := C72_agree M n hM (by omega)
  have hopt : ∀ {g m : Graph}, g.minimized = .ok m → ∃ o, minimizedOpt g = .ok o := by
    intro g m h
    by_cases hs : g.size < 10000
    · exact ⟨some m, by rw [minimizedOpt, if_pos hs, h, Res.bind_ok, Res.pure_eq]⟩
    · exact ⟨none, by rw [minimizedOpt, if_neg hs, Res.pure_eq]⟩
  obtain ⟨o1, ho1⟩ := hopt h2
  obtain ⟨o2, ho2⟩ := hopt h4
  obtain ⟨o3, ho3⟩ := hopt h6
  obtain ⟨bv, hbv⟩ := PlainTest.mapM_ok (l := rand) (f := fun r => randomBvec r.1 r.2 n) (fun r _ => by
    obtain ⟨w, hw, _⟩ := randomBvec_ok (n := n) (by omega) r.1 r.2; exact ⟨w, hw⟩)
  rw [testFormula, hbv, Res.bind_ok, h1, Res.bind_ok, h3, Res.bind_ok, h5, Res.bind_ok, ho1, Res.bind_ok, ho2, Res.bind_ok, ho3, Res.bind_ok,
    Nat.add_comm 100, List.range_succ_eq_map]
  refine forM_error ?_
  rw [if_pos (by omega), int2bvec_ub hn]
  rfl

/-- `G p32`, over 33 propositions. -/
example : testFormula { out := [[(.node 32 .ff .tt, 0)]], init := 0, varOf := some } 33 [] = .error .ub :=
  C72_test_undefined _ 33
    { init_lt := by decide
      dst_lt := by decide
      distinct := by
        intro i j v _ _ hi hj
        injection hi with hi; injection hj with hj; omega
      ordered := by
        intro es hes e he
        rw [List.mem_singleton] at hes; subst hes
        rw [List.mem_singleton] at he; subst he
        exact ⟨32, rfl, by omega, by omega, trivial, trivial⟩
      satisfiable := by
        intro es hes e he
        rw [List.mem_singleton] at hes; subst hes
        rw [List.mem_singleton] at he; subst he
        exact ⟨fun _ => true, rfl⟩ } (by decide) _

end Homfa
