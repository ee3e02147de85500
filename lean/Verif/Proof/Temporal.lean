import Verif.Proof.Pipeline
import Verif.Props.Ltl
import Verif.Spec.Temporal
/-! From the monitor of a formula to what `homfa run plain` prints. -/

namespace Homfa
open Spec

/-- lists of letters of the same positive length are determined by their concatenation -/
theorem flatten_letters {n : Nat} (hn : 0 < n) : ∀ (as bs : List (List Bool)), (∀ a ∈ as, a.length = n) → (∀ b ∈ bs, b.length = n) →
    ∀ v, as.flatten ++ v = bs.flatten → ∃ cs, bs = as ++ cs := by
  intro as
  induction as with
  | nil => intro bs _ _ v _; exact ⟨bs, rfl⟩
  | cons a as ih =>
    intro bs ha hb v h
    cases bs with
    | nil =>
      have : a = [] := by simp at h; exact h.1
      have h1 := ha a (by simp)
      rw [this] at h1
      simp at h1
      omega
    | cons b bs =>
      rw [List.flatten_cons, List.flatten_cons, List.append_assoc] at h
      obtain ⟨h1, h2⟩ := List.append_inj h (by rw [ha a (by simp), hb b (by simp)])
      obtain ⟨cs, rfl⟩ := ih bs (fun x hx => ha x (by simp [hx])) (fun x hx => hb x (by simp [hx])) v h2
      exact ⟨cs, by rw [h1]; rfl⟩

theorem monitorRun_prefix {M : Monitor} : ∀ (as : List (List Bool)) (cs : List (List Bool)) (p q : Nat), MonitorRun M p (as ++ cs) q →
    ∃ q', MonitorRun M p as q' := by
  intro as
  induction as with
  | nil => intro cs p q _; exact ⟨p, .nil p⟩
  | cons a as ih =>
    intro cs p q h
    cases h with
    | cons h1 h2 h3 h4 =>
      obtain ⟨q', h⟩ := ih cs _ _ h4
      exact ⟨q', .cons h1 h2 h3 h⟩

namespace Graph

theorem length_dump {g : Graph} (hg : g.WF) {out : List Char} (h : g.dump = .ok out) : g.size ≤ out.length := by
  rw [dump_ok hg] at h
  cases h
  have : ∀ ls : List (List Char), ls.length ≤ (ls.flatMap (· ++ ['\n'])).length := by
    intro ls
    induction ls with
    | nil => simp
    | cons a ls ih => simp only [List.flatMap_cons, List.length_append, List.length_cons, List.length_nil]; omega
  have := this ((List.range g.size).map g.dumpLine)
  simpa using this

end Graph

/-- `ltl2spec` never fails on a proper monitor, and what it prints is what `run plain` needs. -/
theorem ltl_plain {M : Monitor} {ap : Nat} (hap : 0 < ap) (hM : MonitorOk M ap) (allFinal : Bool) :
    ∃ out, doLtl2spec M ap allFinal = .ok out ∧ (out.length ≤ 2 ^ 31 → ∀ rs : List (List Byte), (∀ r ∈ rs, r.length = recordBytes ap) →
      ∃ b, doRunPlain out (some rs.flatten) ap = .ok (printResult b) ∧
        (b = true ↔ ∃ q, MonitorRun M M.init (rs.map (recordBits ap)) q)) := by
  have key : ∃ g, Graph.fromMonitor M ap allFinal = .ok g ∧ g.WF ∧ ∀ w, ∃ b, g.accepts w = .ok b ∧ (b = true ↔
        ∃ (v : List Bool) (letters : List (List Bool)) (q : Nat), (allFinal = false → v = []) ∧
          (∀ a ∈ letters, a.length = ap) ∧ w ++ v = letters.flatten ∧ MonitorRun M M.init letters q) := by
    cases allFinal with
    | true => simpa using C43_ltl_prefixes M ap hM
    | false => simpa using C41_ltl_language M ap hM
  obtain ⟨g, h1, h2, h3⟩ := key
  obtain ⟨out, h4⟩ : ∃ out, g.dump = .ok out := ⟨_, Graph.dump_ok h2⟩
  refine ⟨out, ?_, fun hlen rs hrs => ?_⟩
  · unfold doLtl2spec
    rw [h1, Res.bind_ok, h4]
  · obtain ⟨out', e1, e2⟩ := C14_dump_parse g h2 (Nat.le_trans (Graph.length_dump h2 h4) hlen)
    rw [h4] at e1
    cases e1
    obtain ⟨b, e3, e4⟩ := h3 (rs.flatMap (recordBits ap))
    have hl : ∀ a ∈ rs.map (recordBits ap), a.length = ap := by
      intro a ha
      obtain ⟨r, _, rfl⟩ := List.mem_map.1 ha
      simp [recordBits]
    have hf : rs.flatMap (recordBits ap) = (rs.map (recordBits ap)).flatten := List.flatMap_def
    refine ⟨b, ?_, e4.trans ⟨?_, ?_⟩⟩
    · unfold doRunPlain
      rw [e2, Res.bind_ok, C19_records ap hap rs hrs]
      have e3' : ({ g with statesAtDepth := [] } : Graph).accepts (rs.flatMap (recordBits ap)) = .ok b := e3
      unfold Graph.accepts Graph.runWord at e3'
      obtain ⟨q, f1, f2⟩ := Res.bind_eq_ok.1 e3'
      rw [f1, Res.bind_ok, f2, Res.bind_ok]
      rfl
    · rintro ⟨v, letters, q, _, f2, f3, f4⟩
      rw [hf] at f3
      obtain ⟨cs, rfl⟩ := flatten_letters hap _ _ hl f2 v f3
      exact monitorRun_prefix _ _ _ _ f4
    · rintro ⟨q, hq⟩
      exact ⟨[], _, q, fun _ => rfl, hl, by rw [List.append_nil, hf], hq⟩

namespace Cli

variable {N n l : Nat} {L : Lib N n l}

theorem number_ok {k : Nat} (h : k < 2 ^ 64) (ex : String → Bool) : Kind.number.Ok ex (toString k) := by
  have e : (toString k).toList = Nat.toDigits 10 k := by simp [toString, Nat.repr]
  refine ⟨?_, k, e, h⟩
  intro h'
  rw [e] at h'
  exfalso
  cases hd : Nat.toDigits 10 k with
  | nil => rw [hd] at h'; simp at h'
  | cons c cs =>
    rw [hd] at h'
    simp at h'
    have := Nat.isDigit_of_mem_toDigits (b := 10) (n := k) (by omega) (by omega) (c := c) (by rw [hd]; simp)
    rw [h'] at this
    revert this; decide

theorem run_ltl2spec {fs : Files} {stdin : List Char} {fml : String} (hf : Word fml) {ap : Nat} (h64 : ap < 2 ^ 64) {M : Monitor}
    (hM : L.monitor fml ap = .ok M) (flag : List String) (hflag : flag = [] ∨ flag = ["--make-all-live-states-final"]) {r : Res (Files × List Char)} :
    RunHomfa L stdin fs (["ltl2spec"] ++ flag ++ [fml, toString ap]) r ↔
      r = (doLtl2spec M ap (decide (flag ≠ []))).map fun o => (fs, o) := by
  have hF : ∀ fi : List Item, fi = [] ∨ fi = [.flag "--make-all-live-states-final"] →
      Cmd.ltl2spec.usage.Follows (fun f => (fs f).isSome) (fi ++ [.arg fml, .arg (toString ap)]) := by
    intro fi hfi
    have ha : args (fi ++ [.arg fml, .arg (toString ap)]) = [fml, toString ap] := by rcases hfi with rfl | rfl <;> rfl
    refine ⟨?_, ?_, by simp [Cmd.usage], ?_, by rw [ha]; simp [Cmd.usage], by rw [ha]; simp [Cmd.usage], ?_⟩
    · intro m v h; rcases hfi with rfl | rfl <;> simp at h
    · rcases hfi with rfl | rfl <;> exact List.nodup_nil
    · intro m h
      rcases hfi with rfl | rfl <;> simp [Cmd.usage] at h ⊢
      exact h
    · intro i v k h1 h2
      rw [ha] at h1
      match i with
      | 0 => simp [Cmd.usage] at h1 h2; subst h1; subst h2; exact hf.text _
      | 1 => simp [Cmd.usage] at h1 h2; subst h1; subst h2; exact number_ok h64 _
      | i + 2 => simp at h1
  have main : ∀ (af : Bool), Exec L stdin fs (.ltl2spec fml ap af) r ↔ r = (doLtl2spec M ap af).map fun o => (fs, o) := by
    intro af
    have key : (do
        let m ← L.monitor fml ap
        let out ← doLtl2spec m ap af
        pure (fs, out) : Res (Files × List Char)) = (doLtl2spec M ap af).map fun o => (fs, o) := by
      rw [hM]
      show ((doLtl2spec M ap af).bind fun o => .ok (fs, o)) = _
      cases doLtl2spec M ap af <;> rfl
    constructor
    · intro h; cases h with
      | ltl2spec => exact key
    · rintro rfl
      rw [← key]
      exact .ltl2spec
  rcases hflag with rfl | rfl
  · refine (run_iff (L := L) .ltl2spec (w := ["ltl2spec"]) (by simp [Cmd.names]) (hF [] (.inl rfl))).trans ?_
    have : Cmd.ltl2spec.call ([] ++ [.arg fml, .arg (toString ap)]) = .ltl2spec fml (Nat.ofDigitChars 10 (toString ap).toList 0) false := rfl
    rw [this, ofDigits_toString]
    exact main false
  · refine (run_iff (L := L) .ltl2spec (w := ["ltl2spec"]) (by simp [Cmd.names]) (hF _ (.inr rfl))).trans ?_
    have : Cmd.ltl2spec.call ([.flag "--make-all-live-states-final"] ++ [.arg fml, .arg (toString ap)]) =
        .ltl2spec fml (Nat.ofDigitChars 10 (toString ap).toList 0) true := rfl
    rw [this, ofDigits_toString]
    exact main true

end Cli
end Homfa
