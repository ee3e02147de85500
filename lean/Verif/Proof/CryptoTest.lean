import Mathlib.Data.List.GetD
import Verif.Spec.CryptoTest
import Verif.Proof.PlainTest
import Verif.Proof.Commands
import Verif.Props.Backstream
import Verif.Props.Flut
import Verif.Props.PlainTest
/-!
# The random test of the runners
-/

namespace Homfa.CryptoTest
open Homfa.Spec Homfa.PlainTest

section Perm
variable {M : Monitor} {n : Nat} {apVars props : List Nat}

theorem length_props (h : Mentioned M n apVars props) : props.length ≤ n := by
  have := (List.subperm_of_subset h.nodup (l₂ := List.range n) (fun i hi => List.mem_range.2 (h.lt i hi))).length_le
  simpa using this

theorem filterMap_lookup (hM : MonitorOk M n) : ∀ {apVars props : List Nat}, List.Forall₂ (fun v i => M.varOf i = some v) apVars props →
    (∀ i ∈ props, i < n) → apVars.filterMap (fun v => (Ltl.var2idx M.varOf n).lookup v) = props
  | _, _, .nil, _ => rfl
  | _, _, .cons (a := v) (b := i) h t, hlt => by
    rw [List.filterMap_cons, (Ltl.var2idx_lookup hM.distinct (v := v) (i := i)).2 ⟨hlt i List.mem_cons_self, h⟩]
    simp only
    rw [filterMap_lookup hM t fun j hj => hlt j (List.mem_cons_of_mem _ hj)]

theorem permTable_ok (hM : MonitorOk M n) (h : Mentioned M n apVars props) :
    permTable M apVars n = .ok ((List.range n).map fun k => props.getD k 0) := by
  have hl := length_props h
  unfold permTable
  dsimp only
  rw [filterMap_lookup hM h.vars h.lt]
  have : (props ++ List.replicate (n - props.length) 0).length = n := by
    rw [List.length_append, List.length_replicate]; omega
  rw [this, cassert, if_pos (by simp), Res.bind_ok, Res.pure_eq]
  congr 1
  apply List.ext_getElem (by rw [this]; simp)
  intro k h1 h2
  rw [List.getElem_map, List.getElem_range]
  by_cases hk : k < props.length
  · rw [List.getElem_append_left hk, List.getD_eq_getElem _ _ hk]
  · rw [List.getElem_append_right (by omega), List.getElem_replicate, List.getD_eq_default _ _ (by omega)]

theorem inner_ok {src a : List Bool} {off : Nat} (hat : At src off a) : ∀ (tbl : List Nat) (acc : List Bool), (∀ j ∈ tbl, j < a.length) →
    tbl.foldlM (fun acc j => do
      let b ← vat src (off + j)
      pure (acc ++ [b])) acc = (.ok (acc ++ tbl.map fun j => a.getD j false) : Res (List Bool))
  | [], acc, _ => by simp [Res.pure_eq]
  | j :: tbl, acc, h => by
    have hj := h j List.mem_cons_self
    have hs : vat src (off + j) = .ok (a.getD j false) := by
      rw [vat, hat j hj, List.getElem?_eq_getElem hj, List.getD_eq_getElem _ _ hj]
    rw [List.foldlM_cons, hs, Res.bind_ok, Res.pure_eq, Res.bind_ok, inner_ok hat tbl _ fun k hk => h k (List.mem_cons_of_mem _ hk)]
    simp

theorem length_flatten_letters {as : List (List Bool)} (has : ∀ a ∈ as, a.length = n) : as.flatten.length = as.length * n := by
  rw [List.length_flatten, List.map_eq_replicate_iff.2 (fun x hx => has x hx), List.sum_replicate]; simp

theorem permutate_ok (hn : 0 < n) (hlt : ∀ i ∈ props, i < n) {as : List (List Bool)} (has : ∀ a ∈ as, a.length = n) :
    permutate ((List.range n).map fun k => props.getD k 0) as.flatten = .ok (as.map (shuffledLetter n props)).flatten := by
  have hlen : ((List.range n).map fun k => props.getD k 0).length = n := by simp
  unfold permutate
  rw [hlen, if_neg (by omega), length_flatten_letters has, Nat.mul_div_cancel _ hn]
  obtain ⟨r, h1, h2⟩ := foldlM_range_inv (fun i (acc : List Bool) => acc = ((as.take i).map (shuffledLetter n props)).flatten)
    (f := fun acc i => ((List.range n).map fun k => props.getD k 0).foldlM (fun acc j => do
      let b ← vat as.flatten (i * n + j)
      pure (acc ++ [b])) acc) as.length (b := []) rfl (by
      rintro i acc hi rfl
      have hat : At as.flatten (i * n) as[i] := by
        have := at_flatten (n := n) (pre := as.take i) (as := as.drop i) (rest' := as.drop (i + 1)) (tail := []) (a := as[i])
          (fun x hx => has x (List.mem_of_mem_take hx)) (List.drop_eq_getElem_cons hi)
        rw [List.append_nil, ← List.flatten_append, List.take_append_drop, List.length_take, Nat.min_eq_left (by omega)] at this
        exact this
      refine ⟨_, inner_ok hat _ _ ?_, ?_⟩
      · intro j hj
        rw [has _ (List.getElem_mem hi)]
        obtain ⟨k, _, rfl⟩ := List.mem_map.1 hj
        by_cases hk : k < props.length
        · rw [List.getD_eq_getElem _ _ hk]; exact hlt _ (List.getElem_mem hk)
        · rw [List.getD_eq_default _ _ (by omega)]; exact hn
      · rw [List.take_add_one, List.getElem?_eq_getElem hi, List.map_append, List.flatten_append]
        simp [shuffledLetter, Function.comp_def])
  rw [h1, h2, List.take_length]

theorem length_shuffled {a : List Bool} : (shuffledLetter n props a).length = n := by simp [shuffledLetter]

theorem letters_of_dvd {w : List Bool} (hw : n ∣ w.length) : ∃ as : List (List Bool), (∀ a ∈ as, a.length = n) ∧ w = as.flatten := by
  obtain ⟨k, hk⟩ := hw
  obtain ⟨as, tail, hlen, has, hs⟩ := exists_letters n k w (by omega)
  have : tail = [] := by
    have := congrArg List.length hs
    rw [List.length_append, length_flatten_letters has, hlen, hk, Nat.mul_comm k n] at this
    exact List.length_eq_zero_iff.1 (by omega)
  subst this
  exact ⟨as, has, by simpa using hs⟩

/-- on words of whole letters the oracle decides the language of the monitor -/
theorem oracle_accepts (hM : MonitorOk M n) (hn : 0 < n) {w : List Bool} (hw : n ∣ w.length) :
    ∃ b, checkMonitor M w n = .ok b ∧ (b = true ↔ MonitorAccepts M n w) := by
  obtain ⟨as, has, hs⟩ := letters_of_dvd hw
  obtain ⟨b, hb, hbi⟩ := checkMonitor_spec (tail := []) hM hn has (by simpa using hn) (by simpa using hs)
  refine ⟨b, hb, hbi.trans ⟨fun ⟨q, h⟩ => ⟨as, q, has, hs, h⟩, ?_⟩⟩
  rintro ⟨ls, q, h1, h2, h3⟩
  rw [letters_unique hn ls as h1 has (h2.symm.trans hs)] at h3
  exact ⟨q, h3⟩

theorem bddEval_congr {val val' : Nat → Bool} : ∀ {c : Bdd}, (∀ v, Mentions v c → val v = val' v) → bddEval val c = bddEval val' c
  | .ff, _ => rfl
  | .tt, _ => rfl
  | .node v lo hi, h => by
    rw [bddEval, bddEval, h v (.inl rfl), bddEval_congr (c := lo) fun u hu => h u (.inr (.inl hu)),
      bddEval_congr (c := hi) fun u hu => h u (.inr (.inr hu))]

/-- a condition does not depend on the propositions it does not mention -/
theorem satisfies_congr (hM : MonitorOk M n) {a b : List Bool} (ha : a.length = n) (hb : b.length = n) {c : Bdd}
    (hc : ∀ v, Mentions v c → ∃ i < n, M.varOf i = some v ∧ a[i]? = b[i]?) (h : Satisfies M a c) : Satisfies M b c := by
  obtain ⟨val, h1, h2⟩ := h
  let val' : Nat → Bool := fun v => match (Ltl.var2idx M.varOf n).lookup v with
    | some i => b[i]?.getD false
    | none => false
  have hv : ∀ i v, M.varOf i = some v → i < b.length → b[i]? = some (val' v) := by
    intro i v k1 k2
    have hl := (Ltl.var2idx_lookup hM.distinct (v := v) (i := i)).2 ⟨by omega, k1⟩
    simp only [val', hl]
    rw [List.getElem?_eq_getElem k2]; rfl
  refine ⟨val', hv, ?_⟩
  rw [← h2]
  refine bddEval_congr fun v hm => ?_
  obtain ⟨i, k1, k2, k3⟩ := hc v hm
  have e1 := h1 i v k2 (by omega)
  have e2 := hv i v k2 (by omega)
  rw [k3, e2] at e1
  injection e1

theorem run_congr (hM : MonitorOk M n) {φ : List Bool → List Bool} (hφ : ∀ a, a.length = n → (φ a).length = n)
    (hc : ∀ a, a.length = n → ∀ es ∈ M.out, ∀ e ∈ es, ∀ v, Mentions v e.1 → ∃ i < n, M.varOf i = some v ∧ a[i]? = (φ a)[i]?) :
    ∀ (as : List (List Bool)) (p q : Nat), (∀ a ∈ as, a.length = n) → (MonitorRun M p as q ↔ MonitorRun M p (as.map φ) q)
  | [], p, q, _ => Iff.rfl
  | a :: as, p, q, h => by
    have ha := h a List.mem_cons_self
    have ih := fun p' => run_congr hM hφ hc as p' q fun x hx => h x (List.mem_cons_of_mem _ hx)
    rw [List.map_cons]
    constructor
    · intro hr
      cases hr with
      | cons h1 h2 h3 h4 =>
        exact .cons h1 h2 (satisfies_congr hM ha (hφ a ha) (hc a ha _ (List.mem_of_getElem? h1) _ h2) h3) ((ih _).1 h4)
    · intro hr
      cases hr with
      | cons h1 h2 h3 h4 =>
        refine .cons h1 h2 (satisfies_congr hM (hφ a ha) ha (fun v hv => ?_) h3) ((ih _).2 h4)
        obtain ⟨i, k1, k2, k3⟩ := hc a ha _ (List.mem_of_getElem? h1) _ h2 v hv
        exact ⟨i, k1, k2, k3.symm⟩

theorem forall₂_left {α β : Type} {R : α → β → Prop} {xs : List α} {ys : List β} (h : List.Forall₂ R xs ys) {x : α} (hx : x ∈ xs) : ∃ y ∈ ys, R x y := by
  induction h with
  | nil => simp at hx
  | cons h t ih =>
    rcases List.mem_cons.1 hx with rfl | hx
    · exact ⟨_, List.mem_cons_self, h⟩
    · obtain ⟨y, h1, h2⟩ := ih hx
      exact ⟨y, List.mem_cons_of_mem _ h1, h2⟩

/-- Shuffling the letters does not matter if the propositions mentioned are p0, ..., p(k-1). -/
theorem shuffled_prefix (hM : MonitorOk M n) (hn : 0 < n) {k : Nat} (h : Mentioned M n apVars (List.range k)) {w w' : List Bool}
    (hs : Shuffled n (List.range k) w w') : MonitorAccepts M n w ↔ MonitorAccepts M n w' := by
  obtain ⟨as, has, rfl, rfl⟩ := hs
  have hkn : k ≤ n := by simpa using length_props h
  have has' : ∀ a ∈ as.map (shuffledLetter n (List.range k)), a.length = n := by
    intro a ha
    obtain ⟨x, _, rfl⟩ := List.mem_map.1 ha
    exact length_shuffled
  have key : ∀ {bs : List (List Bool)}, (∀ a ∈ bs, a.length = n) → (MonitorAccepts M n bs.flatten ↔ ∃ q, MonitorRun M M.init bs q) := by
    intro bs hbs
    constructor
    · rintro ⟨ls, q, h1, h2, h3⟩
      rw [letters_unique hn ls bs h1 hbs h2.symm] at h3
      exact ⟨q, h3⟩
    · rintro ⟨q, h3⟩
      exact ⟨bs, q, hbs, rfl, h3⟩
  rw [key has, key has']
  refine exists_congr fun q => run_congr hM (fun a _ => length_shuffled) ?_ as _ q has
  intro a ha es hes e he v hv
  obtain ⟨i, hi, hiv⟩ := forall₂_left h.vars (h.about es hes e he v hv)
  have hik : i < k := List.mem_range.1 hi
  refine ⟨i, by omega, hiv, ?_⟩
  rw [shuffledLetter, List.getElem?_map, List.getElem?_range (by omega), Option.map_some, List.getD_eq_getElem (List.range k) _ (by simpa using hik),
    List.getElem_range, List.getD_eq_getElem _ _ (by omega), List.getElem?_eq_getElem (by omega)]

end Perm

section Runs
variable {N n l : Nat} {S : Scheme N n l} {δ : Noise} {Enc : Gsw l N → Bool → Prop}

theorem enc_stream {c0 c1 : Gsw l N} (h0 : Enc c0 false) (h1 : Enc c1 true) : ∀ w : List Bool,
    List.Forall₂ Enc (w.map fun b => if b then c1 else c0) w
  | [] => .nil
  | b :: w => .cons (by cases b <;> simpa) (enc_stream h0 h1 w)

theorem runCalls_feed {ρ α β : Type} (evalOne : ρ → α → Res ρ) (result : ρ → Res (β × ρ)) :
    ∀ (cs : List α) (r : ρ), runCalls evalOne result r (cs.map .feed) = (do
      let r ← cs.foldlM evalOne r
      pure ([], r))
  | [], r => rfl
  | c :: cs, r => by
    rw [List.map_cons, runCalls, List.foldlM_cons]
    cases evalOne r c with
    | error e => rfl
    | ok r1 => rw [Res.bind_ok, Res.bind_ok, runCalls_feed evalOne result cs r1]

theorem resultWords_feed {β : Type} (cs : List (Call β)) : ∀ (w u : List β), resultWords u (w.map .feed ++ cs) = resultWords (u ++ w) cs
  | [], u => by simp
  | b :: w, u => by
    rw [List.map_cons, List.cons_append, resultWords, resultWords_feed cs w, List.append_assoc]; rfl

theorem feed_rel {cs : List (Gsw l N)} {w : List Bool} (h : List.Forall₂ Enc cs w) :
    List.Forall₂ (Call.Rel Enc) (cs.map .feed ++ [.result]) (w.map .feed ++ [.result]) := by
  induction h with
  | nil => exact .cons .result .nil
  | cons h _ ih => exact .cons (.feed h) ih

theorem got_ok (hS : S.Sound δ Enc) (hN : 0 < N) {m : Method} {g : Graph} (hg : g.WF) {len : Nat} (hbud : WithinBudget N δ g len m)
    {w : List Bool} (hlen : w.length ≤ len) {c0 c1 : Gsw l N} (h0 : Enc c0 false) (h1 : Enc c1 true) :
    got S m g w c0 c1 = g.accepts w := by
  have hmin : min 30000 w.length * δ.cmux ≤ min 30000 len * δ.cmux := Nat.mul_le_mul_right _ (by omega)
  cases m with
  | offline =>
    obtain ⟨hb1, hb2⟩ := hbud
    obtain ⟨r, r', c, k1, k2, k3, k4⟩ := C28_offline_decides hS hN g hg 30000 (by decide) w _ (enc_stream h0 h1 w.reverse) (by omega) (by omega)
    unfold got reversedTestStream
    dsimp only
    rw [k1, Res.bind_ok, k2, Res.bind_ok, k3, Res.bind_ok, Res.pure_eq, k4]
  | reversed =>
    have hb1 : δ.br + min 30000 len * δ.cmux + δ.ks + δ.ms < 2 ^ 30 := hbud
    obtain ⟨r, k1, k⟩ := C29_reverse_decides hS hN g hg 30000 (by decide) w _ (enc_stream h0 h1 w) (by omega)
    obtain ⟨r', c, k2, k3, k4⟩ := k w.length (le_refl _)
    rw [List.take_of_length_le (by simp)] at k2
    rw [List.take_length] at k4
    unfold got testStream
    dsimp only
    rw [k1, Res.bind_ok, k2, Res.bind_ok, k3, Res.bind_ok, Res.pure_eq, k4]
  | qtrlwe2 =>
    obtain ⟨hb1, L, hL, hL8, hb2⟩ := hbud
    obtain ⟨r, r', outs, k1, k2, k3⟩ := C32_flut_no_exit hS g hg 8 15 1 L hL hL8 (by decide) (by decide) (by decide) hb1 (by decide) hb2 _ _
      (feed_rel (enc_stream h0 h1 w))
    rw [resultWords_feed] at k3
    rw [runCalls_append, runCalls_feed] at k2
    obtain ⟨p, q1, k2⟩ := Res.bind_eq_ok.1 k2
    obtain ⟨r1, q2, q1⟩ := Res.bind_eq_ok.1 q1
    rw [Res.pure_eq] at q1
    cases q1
    obtain ⟨p2, q3, k2⟩ := Res.bind_eq_ok.1 k2
    rw [runCalls] at q3
    obtain ⟨p3, q4, q3⟩ := Res.bind_eq_ok.1 q3
    simp only [runCalls, Res.bind_ok, Res.pure_eq] at q3
    cases q3
    rw [Res.pure_eq] at k2
    cases k2
    simp only [List.nil_append, resultWords, List.map_cons, List.map_nil] at k3
    injection k3 with k3 _
    unfold got testStream
    dsimp only
    rw [k1, Res.bind_ok, q2, Res.bind_ok]
    dsimp only at q4
    rw [q4, Res.bind_ok, Res.pure_eq, ← k3]

theorem withinBudget_depth {g : Graph} {len : Nat} {m : Method} (h : WithinBudget N δ g len m) (t : List (List Nat)) :
    WithinBudget N δ ({ g with statesAtDepth := t } : Graph) len m := by
  cases m with
  | offline => exact h
  | reversed => exact h
  | qtrlwe2 => exact h

end Runs
end Homfa.CryptoTest
