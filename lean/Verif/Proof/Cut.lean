import Verif.Spec.Cut
import Verif.Proof.Dump
import Mathlib.Tactic.IntervalCases

/-! Beginnings of the text of a spec. -/

namespace Homfa
open Spec

theorem range_split {q n : Nat} (h : q < n) : List.range n = List.range q ++ q :: List.range' (q + 1) (n - (q + 1)) := by
  have := List.range'_append_1 (s := 0) (m := q) (n := n - (q + 1) + 1)
  rw [Nat.zero_add, List.range'_succ, show q + (n - (q + 1) + 1) = n by omega] at this
  rw [List.range_eq_range', List.range_eq_range', this]

/-- a beginning of a text: whole lines and a beginning of the next -/
theorem prefix_unlines {t : List Char} : ∀ {ls : List (List Char)}, t <+: ls.flatMap (· ++ ['\n']) →
    ∃ k p, t = (ls.take k).flatMap (· ++ ['\n']) ++ p ∧ (k = ls.length ∧ p = [] ∨ ∃ l, ls[k]? = some l ∧ p <+: l) := by
  intro ls
  induction ls generalizing t with
  | nil =>
    intro h
    rw [List.flatMap_nil, List.prefix_nil] at h
    exact ⟨0, [], by simp [h], .inl ⟨rfl, rfl⟩⟩
  | cons l ls ih =>
    intro h
    rw [List.flatMap_cons] at h
    rcases List.prefix_or_prefix_of_prefix h (List.prefix_append (l ++ ['\n']) _) with h1 | ⟨t', rfl⟩
    · rcases List.prefix_concat_iff.1 h1 with rfl | h1
      · cases ls with
        | nil => exact ⟨1, [], by simp, .inl ⟨rfl, rfl⟩⟩
        | cons l' ls => exact ⟨1, [], by simp, .inr ⟨l', rfl, List.nil_prefix⟩⟩
      · exact ⟨0, t, by simp, .inr ⟨l, rfl, h1⟩⟩
    · obtain ⟨k, p, rfl, hk⟩ := ih ((List.prefix_append_right_inj _).1 h)
      refine ⟨k + 1, p, by simp, ?_⟩
      rcases hk with ⟨rfl, rfl⟩ | ⟨l', h1, h2⟩
      · exact .inl ⟨rfl, rfl⟩
      · exact .inr ⟨l', h1, h2⟩

theorem textLines_append {ls : List (List Char)} {p : List Char} (h : ∀ l ∈ ls, '\n' ∉ l) (hp : '\n' ∉ p) :
    TextLines (ls.flatMap (· ++ ['\n']) ++ p) (if p = [] then ls else ls ++ [p]) := by
  by_cases hp0 : p = []
  · rw [if_pos hp0, hp0, List.append_nil]
    exact ⟨h, .inl rfl⟩
  · rw [if_neg hp0]
    refine ⟨fun l hl => ?_, .inr ⟨by simp, by simp, by simpa using hp0⟩⟩
    rw [List.mem_append, List.mem_singleton] at hl
    rcases hl with hl | rfl
    · exact h l hl
    · exact hp

theorem specRows_append {k : Nat} {a b : List (List Char)} {r1 r2 : List Row} (h1 : SpecRows k a r1) (h2 : SpecRows (k + r1.length) b r2) :
    SpecRows k (a ++ b) (r1 ++ r2) := by
  induction h1 with
  | nil => simpa using h2
  | skip hl _ ih => exact .skip hl (ih h2)
  | row hl hv hk h0 h1 _ ih =>
    exact .row hl hv hk h0 h1 (ih (by rw [List.length_cons] at h2; rw [Nat.add_assoc, Nat.add_comm 1]; exact h2))

theorem specRows_one {k : Nat} {l : List Char} {ls : List (List Char)} {rows : List Row} (h : SpecRows k ls rows) (hl : NotSpecLine l) :
    SpecRows k (ls ++ [l]) rows := by
  have := specRows_append h (.skip hl (.nil _))
  simpa using this

namespace Graph
variable {g : Graph}

theorem specRows_range (hg : g.WF) (hsz : g.size ≤ 2 ^ 31) : ∀ k, k ≤ g.size →
    SpecRows 0 ((List.range k).map g.dumpLine) ((List.range k).map g.dumpRow) := by
  intro k
  induction k with
  | zero => intro _; exact .nil 0
  | succ k ih =>
    intro hk
    have h0 := hg.nx_lt (show k < g.size by omega) false
    have h1 := hg.nx_lt (show k < g.size by omega) true
    rw [List.range_succ, List.map_append, List.map_append]
    refine specRows_append (ih (by omega)) ?_
    rw [List.length_map, List.length_range, Nat.zero_add]
    exact .row (specLine_dumpLine k) (value_showNat k) (by omega) (targets_showNat (by omega)) (targets_showNat (by omega)) (.nil _)

/-- the line of a state up to its last number -/
def lineHead (g : Graph) (q : Nat) : List Char :=
  (if g.init = q then ['>'] else []) ++ showNat q ++ (if g.fin q then ['*'] else []) ++ ['\t'] ++ showNat (g.nx q false)

theorem dumpLine_eq (q : Nat) : g.dumpLine q = g.lineHead q ++ '\t' :: showNat (g.nx q true) := by
  simp [dumpLine, lineHead]

theorem countP_digits {s : List Char} (h : Digits s) : s.countP isSpace = 0 := by
  rw [List.countP_eq_zero]
  intro c hc
  simp [digit_not_space (h.2 c hc)]

theorem countP_lineHead (q : Nat) : (g.lineHead q).countP isSpace = 1 := by
  unfold lineHead
  simp only [List.countP_append, countP_digits (digits_showNat _)]
  split <;> split <;> decide

theorem countP_specLine {l : List Char} {ini fin : Bool} {num t0 t1 : List Char} (h : SpecLine l ini num fin t0 t1) :
    2 ≤ l.countP isSpace ∧ ∀ a, l ≠ a ++ ['\t'] := by
  obtain ⟨b1, b2, rfl, hn, h0, h1, hb1, hb1s, hb2, hb2s⟩ := h
  constructor
  · have key : ∀ {b : List Char}, b ≠ [] → (∀ c ∈ b, Blank c) → 1 ≤ b.countP isSpace := by
      intro b hb hs
      obtain ⟨c, hc⟩ := List.exists_mem_of_ne_nil _ hb
      exact List.countP_pos_iff.2 ⟨c, hc, isSpace_iff.2 (hs c hc)⟩
    have k1 := key hb1 hb1s
    have k2 := key hb2 hb2s
    simp only [List.countP_append]
    omega
  · intro a h
    have hne := targetField_ne_nil h1
    have h' := congrArg List.getLast? h
    rw [← List.append_assoc, ← List.append_assoc, ← List.append_assoc, ← List.append_assoc, ← List.append_assoc,
      List.getLast?_append_of_ne_nil _ hne, List.getLast?_concat] at h'
    have := targetField_not_space h1 _ (List.mem_of_getLast? h')
    revert this; decide

/-- a beginning of a line that is itself a spec line stops inside the last number or after it -/
theorem specLine_prefix {q : Nat} {p : List Char} (hp : p <+: g.dumpLine q) :
    NotSpecLine p ∨ ∃ d, d ≠ [] ∧ d <+: showNat (g.nx q true) ∧ p = g.lineHead q ++ '\t' :: d := by
  by_cases hs : NotSpecLine p
  · exact .inl hs
  · right
    obtain ⟨ini, num, fin, t0, t1, h⟩ := not_not.1 hs
    obtain ⟨h1, h2⟩ := countP_specLine h
    rw [dumpLine_eq, List.append_cons] at hp
    rcases List.prefix_or_prefix_of_prefix hp (List.prefix_append (g.lineHead q ++ ['\t']) _) with hp1 | ⟨d, rfl⟩
    · rcases List.prefix_concat_iff.1 hp1 with e | hp1
      · exact absurd e (h2 _)
      · have := hp1.sublist.countP_le (p := isSpace)
        rw [countP_lineHead] at this
        omega
    · refine ⟨d, ?_, (List.prefix_append_right_inj _).1 hp, by simp⟩
      rintro rfl
      exact h2 _ (by rw [List.append_nil])

theorem mem_of_range_map {k : Nat} {q : Nat} {r : Row} : ((List.range k).map g.dumpRow)[q]? = some r ↔ q < k ∧ r = g.dumpRow q := by
  by_cases hq : q < k
  · simp [hq, eq_comm]
  · simp [hq]

/-- A beginning of the text of a graph: cut in a number, or the first rows. -/
theorem cut_rows (hg : g.WF) (hsz : g.size ≤ 2 ^ 31) {text t : List Char} (hd : g.dump = .ok text) (ht : t <+: text) :
    CutInLastNumber text t ∧ 10 < g.size ∨
      ∃ k lines, k ≤ g.size ∧ (g.init < k ∨ CutBeforeInitial text t) ∧ TextLines t lines ∧ SpecRows 0 lines ((List.range k).map g.dumpRow) := by
  rw [dump_ok hg] at hd
  cases hd
  obtain ⟨k, p, rfl, hk⟩ := prefix_unlines ht
  have hnl : ∀ l ∈ (List.range g.size).map g.dumpLine, '\n' ∉ l := by
    intro l hl
    obtain ⟨q, -, rfl⟩ := List.mem_map.1 hl
    exact not_newline_dumpLine q
  have hkl : k ≤ g.size := by
    rcases hk with ⟨rfl, -⟩ | ⟨l, h1, -⟩
    · simp
    · have := (List.getElem?_eq_some_iff.1 h1).1
      simpa using this.le
  have htake : ((List.range g.size).map g.dumpLine).take k = (List.range k).map g.dumpLine := by
    rw [← List.map_take, List.take_range, Nat.min_eq_left hkl]
  have hnlk : ∀ l ∈ (List.range k).map g.dumpLine, '\n' ∉ l := fun l hl => hnl l (List.mem_of_mem_take (htake ▸ hl))
  -- the text around line `q`
  have hsplit : ∀ q, q < g.size → ∃ b, ((List.range g.size).map g.dumpLine).flatMap (· ++ ['\n']) =
      ((List.range q).map g.dumpLine).flatMap (· ++ ['\n']) ++ (g.dumpLine q ++ '\n' :: b) := by
    intro q hq
    refine ⟨((List.range' (q + 1) (g.size - (q + 1))).map g.dumpLine).flatMap (· ++ ['\n']), ?_⟩
    rw [range_split hq]
    simp
  -- cut before the end of the initial line
  have hinit : ∀ p', k ≤ g.init → (g.init = k → p' <+: g.dumpLine k ∧ p' ≠ g.dumpLine k) → (k ≠ g.init → ∃ l, ((List.range g.size).map g.dumpLine)[k]? = some l ∧ p' <+: l) →
      CutBeforeInitial (((List.range g.size).map g.dumpLine).flatMap (· ++ ['\n'])) (((List.range k).map g.dumpLine).flatMap (· ++ ['\n']) ++ p') := by
    intro p' hki h1 h2
    obtain ⟨b, hb⟩ := hsplit g.init hg.init_lt
    obtain ⟨l, hl⟩ : ∃ l, g.dumpLine g.init = '>' :: l := ⟨_, by unfold dumpLine; rw [if_pos rfl]; rfl⟩
    refine ⟨_, l, b, by rw [hb, hl]; rfl, fun h => not_newline_dumpLine (g := g) g.init (by rw [hl]; simp [h]), ?_⟩
    rw [← hl]
    rcases Nat.eq_or_lt_of_le hki with e | hlt
    · obtain ⟨h3, h4⟩ := h1 e.symm
      rw [← e]
      exact ⟨(List.prefix_append_right_inj _).2 h3, fun h => h4 (List.append_cancel_left h)⟩
    · obtain ⟨l', h3, h4⟩ := h2 (by omega)
      rw [List.getElem?_map, List.getElem?_range (by have := hg.init_lt; omega), Option.map_some] at h3
      cases h3
      rw [range_split hlt, List.map_append, List.flatMap_append, List.append_assoc]
      obtain ⟨s, hs⟩ := h4
      constructor
      · rw [List.prefix_append_right_inj, List.map_cons, List.flatMap_cons, ← hs]
        simp only [List.append_assoc]
        exact List.prefix_append _ _
      · intro h
        have := List.append_cancel_left h
        rw [List.map_cons, List.flatMap_cons, ← hs] at this
        have := congrArg List.length this
        simp at this
  rw [htake]
  rcases hk with ⟨rfl, rfl⟩ | ⟨l, h1, h2⟩
  · right
    refine ⟨g.size, _, le_rfl, .inl hg.init_lt, ?_, specRows_range hg hsz g.size le_rfl⟩
    rw [List.length_map, List.length_range]
    have := textLines_append (p := []) hnl (by simp)
    rw [if_pos rfl] at this
    exact this
  · have hkl' : k < g.size := by
      have := (List.getElem?_eq_some_iff.1 h1).1
      simpa using this
    have hl : l = g.dumpLine k := by
      rw [List.getElem?_map, List.getElem?_range hkl', Option.map_some] at h1
      cases h1; rfl
    subst hl
    have hpn : '\n' ∉ p := fun h => not_newline_dumpLine (g := g) k (h2.subset h)
    have htl := textLines_append hnlk hpn
    rcases specLine_prefix h2 with hns | ⟨d, hd0, hdp, rfl⟩
    · right
      refine ⟨k, _, hkl, ?_, htl, ?_⟩
      · by_cases hi : g.init < k
        · exact .inl hi
        · refine .inr (hinit p (by omega) (fun _ => ⟨h2, ?_⟩) (fun _ => ⟨_, h1, h2⟩))
          rintro rfl
          exact hns ⟨_, _, _, _, _, specLine_dumpLine k⟩
      · split
        · exact specRows_range hg hsz k hkl
        · exact specRows_one (specRows_range hg hsz k hkl) hns
    · by_cases hfull : d = showNat (g.nx k true)
      · right
        subst hfull
        rw [← dumpLine_eq] at *
        refine ⟨k + 1, _, hkl', ?_, htl, ?_⟩
        · by_cases hi : g.init < k + 1
          · exact .inl hi
          · exact .inr (hinit _ (by omega) (fun e => by omega) (fun _ => ⟨_, h1, h2⟩))
        · rw [if_neg (by rw [dumpLine_eq]; simp)]
          have := specRows_range hg hsz (k + 1) hkl'
          conv at this => arg 2; rw [List.range_succ, List.map_append]
          exact this
      · left
        obtain ⟨d', hd'⟩ := hdp
        obtain ⟨b, hb⟩ := hsplit k hkl'
        have hdig := digits_showNat (g.nx k true)
        refine ⟨?_, ?_⟩
        swap
        · by_contra hsm
          have hlt := hg.nx_lt hkl' true
          have hlen : (showNat (g.nx k true)).length = 1 := by
            generalize g.nx k true = m at hlt
            have : m < 10 := by omega
            interval_cases m <;> rfl
          rw [← hd', List.length_append] at hlen
          have := List.length_pos_iff.2 hd0
          have : d' = [] := List.length_eq_zero_iff.1 (by omega)
          rw [this, List.append_nil] at hd'
          exact hfull hd'
        refine ⟨((List.range k).map g.dumpLine).flatMap (· ++ ['\n']) ++ g.lineHead k, d, d', b, ?_, by simp, ⟨hd0, fun c hc => hdig.2 c ?_⟩,
          ⟨?_, fun c hc => hdig.2 c ?_⟩⟩
        · rw [hb, dumpLine_eq, ← hd']; simp
        · rw [← hd']; simp [hc]
        · rintro rfl
          rw [List.append_nil] at hd'
          exact hfull hd'
        · rw [← hd']; simp [hc]

/-- the first rows of a graph, if they include the initial one and name no others, have the language of the graph -/
theorem rows_language {k : Nat} (hi : g.init < k)
    (hcl : ∀ q < k, ∀ b, g.nx q b < k) (w : List Bool) :
    NfaAccepts (InitialRow ((List.range k).map g.dumpRow)) (FinalRow ((List.range k).map g.dumpRow)) (rowStep ((List.range k).map g.dumpRow)) w ↔
      g.dfa.accepts w = true := by
  have hstep : ∀ q b r, q < k → (rowStep ((List.range k).map g.dumpRow) q b r ↔ r = g.nx q b) := by
    intro q b r hq
    unfold rowStep
    simp only [mem_of_range_map]
    constructor
    · rintro ⟨_, ⟨-, rfl⟩, h⟩
      cases b <;> simpa [dumpRow] using h
    · rintro rfl
      exact ⟨_, ⟨hq, rfl⟩, by cases b <;> simp [dumpRow]⟩
  have hinit : ∀ q, InitialRow ((List.range k).map g.dumpRow) q ↔ q = g.init := by
    intro q
    unfold InitialRow
    simp only [mem_of_range_map]
    constructor
    · rintro (⟨_, ⟨-, rfl⟩, h⟩ | ⟨h, -⟩)
      · simpa [dumpRow, eq_comm] using h
      · have := h _ (List.mem_map_of_mem (List.mem_range.2 hi))
        simp [dumpRow] at this
    · rintro rfl
      exact .inl ⟨_, ⟨hi, rfl⟩, by simp [dumpRow]⟩
  have hpath := fun r => path_dfa (P := fun q => q < k) (f := g.nx) (fun q b hq => hcl q hq b) hstep (r := r) hi (w := w)
  have hlt : w.foldl g.nx g.init < k := by
    have : ∀ (w : List Bool) q, q < k → w.foldl g.nx q < k := by
      intro w
      induction w with
      | nil => exact fun _ h => h
      | cons b w ih => exact fun q h => ih _ (hcl q h b)
    exact this w _ hi
  constructor
  · rintro ⟨p, r, hp, h1, r', h2, h3⟩
    cases (hinit p).1 hp
    cases (hpath r).1 h1
    obtain ⟨-, rfl⟩ := mem_of_range_map.1 h2
    exact h3
  · intro h
    exact ⟨_, _, (hinit _).2 rfl, (hpath _).2 rfl, _, mem_of_range_map.2 ⟨hlt, rfl⟩, h⟩

/-- deterministic rows that name others refer outside -/
theorem rows_outside {k : Nat} (hi : g.init < k) (hcl : ¬∀ q < k, ∀ b, g.nx q b < k) : RefersOutside ((List.range k).map g.dumpRow) := by
  refine .inl ⟨⟨fun r hr => ?_, g.init, fun q => ?_⟩, ?_⟩
  · obtain ⟨q, -, rfl⟩ := List.mem_map.1 hr
    exact ⟨rfl, rfl⟩
  · unfold InitialRow
    simp only [mem_of_range_map]
    constructor
    · rintro (⟨_, ⟨-, rfl⟩, h⟩ | ⟨h, -⟩)
      · simpa [dumpRow, eq_comm] using h
      · have := h _ (List.mem_map_of_mem (List.mem_range.2 hi))
        simp [dumpRow] at this
    · rintro rfl
      exact .inl ⟨_, ⟨hi, rfl⟩, by simp [dumpRow]⟩
  · push Not at hcl
    obtain ⟨q, hq, b, h⟩ := hcl
    refine ⟨_, List.mem_map_of_mem (List.mem_range.2 hq), g.nx q b, ?_, by simpa using h⟩
    cases b <;> simp [dumpRow]

end Graph
end Homfa
