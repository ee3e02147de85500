import Verif.Props.Canon
import Verif.Proof.Count
import Verif.Proof.CleanRun
import Mathlib.Data.Fintype.Card
import Mathlib.Data.Fintype.Pi
import Mathlib.Data.Fintype.BigOperators

/-! # Automata whose reversal is large -/

namespace Homfa
open Homfa.Spec

variable {N n l : Nat}

theorem minimized_le {g k m : Graph} (hg : g.WF) (hk : k.WF) (hm : g.minimized = .ok m) (h : ∀ w, g.accepts w = k.accepts w) : m.size ≤ k.size := by
  obtain ⟨d, hd⟩ := exists_dfa hk
  exact C05_minimized_minimal g hg m hm _ d fun w => (h w).trans (hd w)

theorem reversed_le {g r : Graph} (hg : g.WF) (hr : g.reversed = .ok r) : r.size ≤ 2 ^ g.size := by
  rw [Graph.reversed_eq hg] at hr
  obtain ⟨-, -, -, h, -⟩ := FromNfa.fromNfa_good hg.fin_sorted hr
  simpa [Graph.revTable] using h

theorem levels_le {m : Graph} (hm : m.WF) {D : Nat → List Nat} (hD : Levels m [m.init] D) (j : Nat) : (D j).length ≤ m.size := by
  have h1 : D j ⊆ List.range m.size := fun q hq => by
    obtain ⟨p, hp, w, -, hw⟩ := ((hD j).2 q).1 hq
    rw [List.mem_singleton.1 hp, (hm.run_ok hm.init_lt w).1] at hw
    cases hw
    exact List.mem_range.2 (hm.run_lt hm.init_lt w)
  simpa using ((hD j).1.subperm h1).length_le

/-- An automaton that knows the bit that came `k` bits ago has `2 ^ k` states that are reached by words of each length from `k` on. -/
theorem kth_levels {m : Graph} (hm : m.WF) {k : Nat} (hL : ∀ w : List Bool, k ≤ w.length → m.dfa.accepts w = (w[w.length - k]?).getD false) {D : Nat → List Nat}
    (hD : Levels m [m.init] D) {j : Nat} (hj : k ≤ j) : 2 ^ k ≤ (D j).length := by
  classical
  let st : List Bool → Nat := fun u => (List.replicate (j - k) false ++ u).foldl m.nx m.init
  have hmem : ∀ v : Fin k → Bool, st (List.ofFn v) ∈ D j := fun v =>
    ((hD j).2 _).2 ⟨m.init, by simp, List.replicate (j - k) false ++ List.ofFn v, by simp; omega, (hm.run_ok hm.init_lt _).1⟩
  have hinj : Function.Injective fun v : Fin k → Bool => (⟨st (List.ofFn v), hmem v⟩ : {q // q ∈ D j}) := by
    intro u v e
    have e : st (List.ofFn u) = st (List.ofFn v) := congrArg Subtype.val e
    funext i
    have key : ∀ v : Fin k → Bool, m.fin ((List.replicate i.val false).foldl m.nx (st (List.ofFn v))) = v i := fun v => by
      have := hL (List.replicate (j - k) false ++ List.ofFn v ++ List.replicate i.val false) (by simp; omega)
      rw [show m.dfa.accepts (List.replicate (j - k) false ++ List.ofFn v ++ List.replicate i.val false) =
          m.fin ((List.replicate i.val false).foldl m.nx (st (List.ofFn v))) by
        simp only [Dfa.accepts, Dfa.run, Graph.dfa, st, List.foldl_append]] at this
      rw [this]
      have hi := i.2
      rw [show (List.replicate (j - k) false ++ List.ofFn v ++ List.replicate i.val false).length - k = j - k + i.val by simp; omega,
        List.append_assoc, List.getElem?_append_right (by simp), List.length_replicate, Nat.add_sub_cancel_left, List.getElem?_append_left (by simpa using hi),
        List.getElem?_ofFn, dif_pos hi]
      rfl
    rw [← key u, ← key v, e]
  have := Fintype.card_le_of_injective _ hinj
  simp only [Fintype.card_pi, Fintype.card_bool, Finset.prod_const, Finset.card_univ, Fintype.card_fin] at this
  have h2 : Fintype.card {q // q ∈ D j} = (D j).length := by
    rw [Fintype.card_of_subtype (D j).toFinset (by simp), List.toFinset_card_of_nodup (hD j).1]
  omega

/-! ## A spec that looks at one position -/

/-- Row `i < k - 1` counts; row `k - 1` looks at the bit; rows `k` and `k + 1` are the answers. -/
def kthDelta (k : Nat) : List (Nat × Nat × Nat) :=
  (List.range (k + 2)).map fun i => if i + 1 < k then (i, i + 1, i + 1) else if i + 1 = k then (i, k + 1, k) else (i, i, i)

def kthGraph (k : Nat) : Graph := Graph.built 0 [k] (kthDelta k)

theorem kthGraph_size (k : Nat) : (kthGraph k).size = k + 2 := by simp [kthGraph, Graph.size, Graph.built, kthDelta]

theorem kthGraph_wf (k : Nat) : (kthGraph k).WF := by
  have hlen : (kthDelta k).length = k + 2 := by simp [kthDelta]
  refine ⟨Graph.make_ok_iff.2 ⟨⟨fun t ht => ?_, fun q hq => ?_⟩, rfl⟩, fun i t h => ?_, by rw [kthGraph_size]; exact Nat.succ_pos _, by simp [kthGraph, Graph.built, SSorted]⟩
  · obtain ⟨i, hi, rfl⟩ := List.mem_map.1 (show t ∈ (List.range (k + 2)).map _ from ht)
    have hi := List.mem_range.1 hi
    rw [show (kthGraph k).delta.length = k + 2 from hlen]
    split
    · simp only; omega
    · split
      · simp only; omega
      · simp only; omega
  · rw [show (kthGraph k).delta.length = k + 2 from hlen]
    have : q = k := by simpa [kthGraph, Graph.built] using hq
    omega
  · have h : (kthDelta k)[i]? = some t := h
    simp only [kthDelta, List.getElem?_map, List.getElem?_range] at h
    obtain ⟨j, hj, rfl⟩ := Option.map_eq_some_iff.1 h
    have := List.getElem?_eq_some_iff.1 hj
    obtain ⟨h1, h2⟩ := this
    rw [List.getElem_range] at h2
    subst h2
    split
    · rfl
    · split <;> rfl

theorem kthGraph_nx {k i : Nat} (h : i < k + 2) (b : Bool) : (kthGraph k).nx i b = if i + 1 < k then i + 1 else if i + 1 = k then (if b then k else k + 1) else i := by
  have : (kthGraph k).delta.getD i (0, 0, 0) = if i + 1 < k then (i, i + 1, i + 1) else if i + 1 = k then (i, k + 1, k) else (i, i, i) := by
    rw [show (kthGraph k).delta = kthDelta k from rfl, kthDelta, List.getD_eq_getElem?_getD, List.getElem?_map, List.getElem?_range h]
    rfl
  unfold Graph.nx
  rw [this]
  by_cases h1 : i + 1 < k
  · simp [h1]
  · by_cases h2 : i + 1 = k
    · cases b <;> simp [h2]
    · simp [h1, h2]

theorem kthGraph_fin (k i : Nat) : (kthGraph k).fin i = decide (i = k) := by simp [Graph.fin, kthGraph, Graph.built]

theorem kthGraph_stay {k i : Nat} (h : k ≤ i) (h2 : i < k + 2) (w : List Bool) : w.foldl (kthGraph k).nx i = i := by
  induction w with
  | nil => rfl
  | cons b w ih => rw [List.foldl_cons, kthGraph_nx h2, if_neg (by omega), if_neg (by omega), ih]

theorem kthGraph_run {k : Nat} (w : List Bool) : ∀ i, i < k → (kthGraph k).fin (w.foldl (kthGraph k).nx i) = decide (w[k - 1 - i]? = some true) := by
  induction w with
  | nil => intro i hi; rw [List.foldl_nil, kthGraph_fin]; simp; omega
  | cons b w ih =>
    intro i hi
    rw [List.foldl_cons, kthGraph_nx (by omega)]
    by_cases h1 : i + 1 < k
    · rw [if_pos h1, ih _ h1, show k - 1 - i = (k - 1 - (i + 1)) + 1 by omega, List.getElem?_cons_succ]
    · rw [if_neg h1, if_pos (by omega), show k - 1 - i = 0 by omega, List.getElem?_cons_zero]
      cases b
      · rw [if_neg (by simp), kthGraph_stay (by omega) (by omega), kthGraph_fin]; simp
      · rw [if_pos rfl, kthGraph_stay (by omega) (by omega), kthGraph_fin]; simp

theorem kthGraph_accepts {k : Nat} (hk : 0 < k) (w : List Bool) : (kthGraph k).dfa.accepts w = decide (w[k - 1]? = some true) :=
  kthGraph_run w 0 hk

theorem getD_kth {w : List Bool} {i : Nat} : decide (w[i]? = some true) = (w[i]?).getD false := by
  cases w[i]? with
  | none => rfl
  | some b => cases b <;> rfl

/-- an automaton for the reversed words has `2 ^ k` states after `k` or more bits -/
theorem kth_reversed {m : Graph} (hm : m.WF) {k : Nat} (hk : 0 < k) (hL : ∀ w, m.dfa.accepts w = (kthGraph k).dfa.accepts w.reverse)
    {D : Nat → List Nat} (hD : Levels m [m.init] D) {j : Nat} (hj : k ≤ j) : 2 ^ k ≤ (D j).length := by
  refine kth_levels hm (fun w hw => ?_) hD hj
  rw [hL, kthGraph_accepts hk, getD_kth, List.getElem?_reverse (by omega), show w.length - 1 - (k - 1) = w.length - k by omega]

/-! ## The runs end -/

theorem ok_of_map_eq {α β γ : Type} {r : Res α} {r' : Res β} {f : α → γ} {f' : β → γ} (h : r.map f = r'.map f') {b : β} (h' : r' = .ok b) : ∃ a, r = .ok a := by
  subst h'
  cases r with
  | ok a => exact ⟨a, rfl⟩
  | error e => cases h

section
variable (S : Scheme N n l) (hN : 0 < N) (hl : 0 < l) (hbs : blockSize l N < 2 ^ 63) {spec : List Char} {g : Graph}
  (h : Graph.fromIstream spec = .ok g) (hg : g.WF) {cs : List (Gsw l N)} (hlen : cs.length * blockSize l N < 2 ^ 63)
include hN hl hbs h hg hlen

theorem offline_ends (h31 : cs.length < 2 ^ 31) {boot : Nat} (hb : 0 < boot) : ∃ c, doRunOffline S spec cs.length cs boot false = .ok c := by
  obtain ⟨out, cs0, e1, e2, e3⟩ := exact_setup (N := N) (n := n) (l := l) h hg cs.length
  obtain ⟨file, k1, k2⟩ := C36_offline (exact_sound hl hN) hN hl hbs id spec _ 1 (by decide) boot hb (by simp) out e1
  rw [e2] at k1
  cases k1
  have hbs0 : 0 < blockSize l N := by unfold blockSize; positivity
  have hl0 : (cs0.flatMap saveGsw).length < 2 ^ 63 := by rw [length_file, e3]; exact hlen
  obtain ⟨c, k3, _⟩ := (k2 hl0).2 (by rw [length_file, e3]; exact Nat.mul_lt_mul_of_pos_right (by omega) hbs0) _ _ (readsReversed_exists hbs0 hbs cs0 0 hl0)
  have k3 : doRunOffline (exactScheme N n l) spec cs0.length cs0.reverse boot false = .ok c := k3
  rw [e3] at k3
  exact ok_of_map_eq (C63_offline S (exactScheme N n l) cs cs0.reverse (by rw [List.length_reverse, e3]) spec cs.length boot false) k3

theorem reverse_ends {boot : Nat} (hb : 0 < boot) (size freq : Nat) (isRev : Bool) (out : String) :
    ∃ files, doRunReverse S spec size cs (some out) none freq boot isRev false = .ok files := by
  obtain ⟨_, cs0, e1, e2, e3⟩ := exact_setup (N := N) (n := n) (l := l) h hg cs.length
  obtain ⟨file, k1, k2⟩ := C37_reverse (exact_sound hl hN) hN hl hbs id spec _ 1 (by decide) boot hb (by simp) _ e1 out freq isRev
  rw [e2] at k1
  cases k1
  have hbs0 : 0 < blockSize l N := by unfold blockSize; positivity
  have hl0 : (cs0.flatMap saveGsw).length < 2 ^ 63 := by rw [length_file, e3]; exact hlen
  obtain ⟨c, k3, _⟩ := (k2 hl0).2 _ _ (readsForward_exists hbs0 hbs cs0 1 hl0)
  have k4 : doRunReverse (exactScheme N n l) spec size cs0 (some out) none freq boot isRev false = .ok [(.file out, c)] := k3
  exact ok_of_map_eq (C63_reverse S (exactScheme N n l) cs cs0 e3.symm spec size (some out) none freq boot isRev false) k4
end

end Homfa
