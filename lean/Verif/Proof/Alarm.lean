import Verif.Proof.Temporal
import Verif.Props.Commands
import Verif.Spec.Alarm
/-! The automaton a command reads from the output of `ltl2spec`, and verdicts along a history. -/

namespace Homfa
open Spec

theorem ltl_graph {M : Monitor} {n : Nat} (hM : MonitorOk M n) {allFinal : Bool} {out : List Char} (h : doLtl2spec M n allFinal = .ok out)
    (hlen : out.length ≤ 2 ^ 31) : ∃ g, Graph.fromIstream out = .ok g ∧ g.WF ∧ ∀ w, ∃ b, g.accepts w = .ok b ∧ (b = true ↔
      ∃ (v : List Bool) (letters : List (List Bool)) (q : Nat), (allFinal = false → v = []) ∧
        (∀ a ∈ letters, a.length = n) ∧ w ++ v = letters.flatten ∧ MonitorRun M M.init letters q) := by
  have key : ∃ g, Graph.fromMonitor M n allFinal = .ok g ∧ g.WF ∧ ∀ w, ∃ b, g.accepts w = .ok b ∧ (b = true ↔
        ∃ (v : List Bool) (letters : List (List Bool)) (q : Nat), (allFinal = false → v = []) ∧
          (∀ a ∈ letters, a.length = n) ∧ w ++ v = letters.flatten ∧ MonitorRun M M.init letters q) := by
    cases allFinal with
    | true => simpa using C43_ltl_prefixes M n hM
    | false => simpa using C41_ltl_language M n hM
  obtain ⟨g, h1, h2, h3⟩ := key
  unfold doLtl2spec at h
  rw [h1, Res.bind_ok] at h
  obtain ⟨out', e1, e2⟩ := C14_dump_parse g h2 (Nat.le_trans (Graph.length_dump h2 h) hlen)
  rw [h] at e1
  cases e1
  exact ⟨_, e2, wf_of_fromIstream e2 (show 0 < g.size from Nat.lt_of_le_of_lt (Nat.zero_le _) h2.init_lt), h3⟩

theorem length_flatten {n : Nat} {as : List (List Bool)} (h : ∀ a ∈ as, a.length = n) : as.flatten.length = as.length * n := by
  induction as with
  | nil => simp
  | cons a as ih =>
    rw [List.flatten_cons, List.length_append, h a (by simp), ih fun x hx => h x (by simp [hx]), List.length_cons]
    ring

/-- a word of whole letters is cut in one way -/
theorem letters_of_dvd {n : Nat} : ∀ (k : Nat) (u : List Bool), u.length = k * n → ∃ as : List (List Bool), (∀ a ∈ as, a.length = n) ∧ u = as.flatten := by
  intro k
  induction k with
  | zero => intro u h; exact ⟨[], by simp, by simpa using h⟩
  | succ k ih =>
    intro u h
    have h' : u.length = k * n + n := by rw [h]; ring
    obtain ⟨as, h1, h2⟩ := ih (u.drop n) (by rw [List.length_drop]; omega)
    refine ⟨u.take n :: as, ?_, ?_⟩
    · intro a ha
      rcases List.mem_cons.1 ha with rfl | ha
      · rw [List.length_take]; omega
      · exact h1 a ha
    · rw [List.flatten_cons, ← h2, List.take_append_drop]

theorem flatten_getElem? {n : Nat} (hn : 0 < n) : ∀ (as : List (List Bool)), (∀ a ∈ as, a.length = n) → ∀ k : Nat,
    as.flatten[k]? = (as[k / n]?).bind fun a => a[k % n]? := by
  intro as
  induction as with
  | nil => simp
  | cons a as ih =>
    intro h k
    have ha := h a (by simp)
    rw [List.flatten_cons]
    by_cases hk : k < n
    · rw [List.getElem?_append_left (by omega), Nat.div_eq_of_lt hk, Nat.mod_eq_of_lt hk]
      rfl
    · rw [List.getElem?_append_right (by omega), ha, ih (fun x hx => h x (by simp [hx]))]
      have e1 : k / n = (k - n) / n + 1 := by rw [Nat.div_eq_sub_div hn (by omega)]
      have e2 : k % n = (k - n) % n := Nat.mod_eq_sub_mod (by omega)
      rw [e1, e2]
      rfl

theorem resultWords_start {β : Type} : ∀ (ps : List (Call β)) (u : List β), ∀ w ∈ resultWords u ps, u <+: w := by
  intro ps
  induction ps with
  | nil => intro u w h; cases h
  | cons p ps ih =>
    intro u w h
    cases p with
    | feed b => exact (List.prefix_append u [b]).trans (ih _ _ h)
    | result =>
      rcases List.mem_cons.1 h with rfl | h
      · exact List.prefix_rfl
      · exact ih _ _ h

/-- the words of the results of a history are beginnings of each other, in order -/
theorem resultWords_prefix {β : Type} : ∀ (ps : List (Call β)) (u : List β), (resultWords u ps).Pairwise (· <+: ·) := by
  intro ps
  induction ps with
  | nil => intro u; exact .nil
  | cons p ps ih =>
    intro u
    cases p with
    | feed b => exact ih _
    | result => exact .cons (resultWords_start ps u) (ih u)

theorem neverTakenBack_of {ws : List (List Bool)} (acc : List Bool → Res Bool) (hws : ws.Pairwise (· <+: ·))
    (hacc : ∀ u ∈ ws, ∀ w ∈ ws, u <+: w → acc w = .ok true → acc u = .ok true) {vs : List Bool} (h : vs.map Except.ok = ws.map acc) : NeverTakenBack vs := by
  unfold NeverTakenBack
  have key : ∀ (ws : List (List Bool)) (vs : List Bool), ws.Pairwise (fun u w => acc w = .ok true → acc u = .ok true) → vs.map Except.ok = ws.map acc →
      vs.Pairwise fun a b => a = false → b = false := by
    intro ws
    induction ws with
    | nil => intro vs _ h; rw [List.map_nil, List.map_eq_nil_iff] at h; subst h; exact .nil
    | cons w ws ih =>
      intro vs hp h
      cases vs with
      | nil => exact .nil
      | cons v vs =>
        rw [List.map_cons, List.map_cons] at h
        injection h with h1 h2
        obtain ⟨hw, hp⟩ := List.pairwise_cons.1 hp
        refine .cons (fun b hb hv => ?_) (ih vs hp h2)
        subst hv
        cases b with
        | false => rfl
        | true =>
          have : (Except.ok true : Res Bool) ∈ vs.map Except.ok := List.mem_map_of_mem hb
          rw [h2] at this
          obtain ⟨w', hw', e⟩ := List.mem_map.1 this
          have := hw w' hw' e
          rw [← h1] at this
          cases this
  refine key ws vs ?_ h
  refine List.Pairwise.imp_of_mem ?_ hws
  intro u w hu hw hp
  exact hacc u hu w hw hp

namespace Cli

theorem ok_of_map {fs fs1 : Files} {spec : List Char} {r : Res (List Char)} (h : (.ok (fs1, spec) : Res (Files × List Char)) = r.map fun o => (fs, o)) : r = .ok spec := by
  cases r with
  | error e => cases h
  | ok o => cases h; rfl

end Cli
end Homfa
