import Verif.Proof.Text
import Verif.Proof.Reverse
/-! `from_istream`: from lines to graph. -/

namespace Homfa
open Spec

/-- Effect of one row on the parser state. -/
def addRow (p : SpecSt) (r : Row) : SpecSt :=
  { initSts := if r.ini then sinsert p.delta.length p.initSts else p.initSts
    finalSts := if r.fin then sinsert p.delta.length p.finalSts else p.finalSts
    delta := p.delta ++ [(p.delta.length, r.on0, r.on1)]
    isDfa := p.isDfa && r.on0.length == 1 && r.on1.length == 1 }

def emptySpec : SpecSt := { initSts := [], finalSts := [], delta := [], isDfa := true }

theorem specLine_row {p : SpecSt} {l : List Char} {ini fin : Bool} {num t0 t1 : List Char} {on0 on1 : List Nat}
    (h : SpecLine l ini num fin t0 t1) (hk : value num = p.delta.length) (hlt : p.delta.length < 2 ^ 31)
    (h0 : Targets t0 on0) (h1 : Targets t1 on1) : specLine p l = .ok (addRow p ⟨ini, fin, on0, on1⟩) := by
  have hd := h
  obtain ⟨_, _, _, hnum, ht0, ht1, _⟩ := hd
  unfold specLine
  rw [matchSpecLine_iff.2 h]
  dsimp only
  rw [(loadStates_iff ht0).2 h0, Res.bind_ok, (loadStates_iff ht1).2 h1, Res.bind_ok, stoi_digits hnum, hk, if_pos hlt,
    Res.bind_ok, if_neg (by simp)]
  rfl

theorem specLine_skip {p : SpecSt} {l : List Char} (h : NotSpecLine l) : specLine p l = .ok p := by
  unfold specLine; rw [matchSpecLine_none.2 h]

theorem specRows_fold {k : Nat} {ls : List (List Char)} {rows : List Row} (h : SpecRows k ls rows) {p : SpecSt}
    (hp : p.delta.length = k) : ls.foldlM specLine p = .ok (rows.foldl addRow p) := by
  induction h generalizing p with
  | nil => rfl
  | skip hn _ ih => rw [List.foldlM_cons, specLine_skip hn, Res.bind_ok]; exact ih hp
  | row hl hv hk h0 h1 _ ih =>
    rw [List.foldlM_cons, specLine_row hl (hv.trans hp.symm) (hp ▸ hk) h0 h1, Res.bind_ok]
    exact ih (by simp [addRow, hp])

theorem specRows_of_fold {ls : List (List Char)} {p p' : SpecSt} (h : ls.foldlM specLine p = .ok p') :
    ∃ rows, SpecRows p.delta.length ls rows := by
  induction ls generalizing p with
  | nil => exact ⟨[], .nil _⟩
  | cons l ls ih =>
    rw [List.foldlM_cons, Res.bind_eq_ok] at h
    obtain ⟨p1, h1, h2⟩ := h
    obtain ⟨rows, hr⟩ := ih h2
    unfold specLine at h1
    cases hm : matchSpecLine l with
    | none =>
      rw [hm] at h1
      injection h1 with h1; subst h1
      exact ⟨rows, .skip (matchSpecLine_none.1 hm) hr⟩
    | some c =>
      obtain ⟨ini, num, fin, t0, t1⟩ := c
      rw [hm] at h1
      dsimp only at h1
      have hl := matchSpecLine_iff.1 hm
      have hd := hl
      obtain ⟨_, _, _, hnum, ht0, ht1, _⟩ := hd
      rw [Res.bind_eq_ok] at h1
      obtain ⟨on0, e0, h1⟩ := h1
      rw [Res.bind_eq_ok] at h1
      obtain ⟨on1, e1, h1⟩ := h1
      rw [Res.bind_eq_ok] at h1
      obtain ⟨n, en, h1⟩ := h1
      rw [stoi_digits hnum] at en
      split at en
      · rename_i hlt
        injection en with en
        split at h1
        · simp at h1
        · rename_i hne
          have hq : p.delta.length = n := by simpa using hne
          rw [Res.pure_eq] at h1
          injection h1 with h1
          refine ⟨⟨ini, fin, on0, on1⟩ :: rows, .row hl (en.trans hq.symm) (by omega) ((loadStates_iff ht0).1 e0)
            ((loadStates_iff ht1).1 e1) ?_⟩
          rw [← h1] at hr
          simpa using hr
      · simp at en

/-- all failures of the line loop -/
theorem specLines_err {ls : List (List Char)} {p : SpecSt} {e : Err} (h : ls.foldlM specLine p = .error e) :
    e = .die ∨ e = .outOfRange := by
  induction ls generalizing p with
  | nil => simp [pure, Except.pure] at h
  | cons l ls ih =>
    rw [List.foldlM_cons] at h
    cases hl : specLine p l with
    | ok p1 => rw [hl, Res.bind_ok] at h; exact ih h
    | error e' =>
      rw [hl, Res.bind_err] at h
      injection h with h; subst h
      unfold specLine at hl
      cases hm : matchSpecLine l with
      | none => rw [hm] at hl; simp at hl
      | some c =>
        obtain ⟨ini, num, fin, t0, t1⟩ := c
        obtain ⟨_, _, _, hnum, ht0, ht1, _⟩ := matchSpecLine_iff.1 hm
        rw [hm] at hl
        dsimp only at hl
        cases h0 : loadStates t0 with
        | error e0 => rw [h0, Res.bind_err] at hl; injection hl with hl; subst hl; exact loadStates_err h0
        | ok q0 =>
          rw [h0, Res.bind_ok] at hl
          cases h1 : loadStates t1 with
          | error e1 => rw [h1, Res.bind_err] at hl; injection hl with hl; subst hl; exact loadStates_err h1
          | ok q1 =>
            rw [h1, Res.bind_ok, stoi_digits hnum] at hl
            split at hl
            · rw [Res.bind_ok] at hl
              split at hl
              · injection hl with hl; exact .inl hl.symm
              · simp [Res.pure_eq] at hl
            · rw [Res.bind_err] at hl; injection hl with hl; exact .inr hl.symm

/-- The parser state for a list of rows. -/
theorem rows_state (rows : List Row) :
    let p := rows.foldl addRow emptySpec
    p.delta.length = rows.length ∧
    (∀ (i : Nat) (r : Row), rows[i]? = some r → p.delta[i]? = some (i, r.on0, r.on1)) ∧
    SSorted p.initSts ∧ (∀ q, q ∈ p.initSts ↔ ∃ r, rows[q]? = some r ∧ r.ini = true) ∧
    SSorted p.finalSts ∧ (∀ q, q ∈ p.finalSts ↔ ∃ r, rows[q]? = some r ∧ r.fin = true) ∧
    (p.isDfa = true ↔ ∀ r ∈ rows, r.on0.length = 1 ∧ r.on1.length = 1) := by
  induction rows using List.reverseRecOn with
  | nil => simp [emptySpec]
  | append_singleton rows r ih =>
    simp only [List.foldl_append, List.foldl_cons, List.foldl_nil]
    generalize rows.foldl addRow emptySpec = p at ih
    obtain ⟨h1, h2, h3, h4, h5, h6, h7⟩ := ih
    have hget : ∀ (q : Nat) (r' : Row), (rows ++ [r])[q]? = some r' ↔ (rows[q]? = some r' ∨ (q = rows.length ∧ r' = r)) := by
      intro q r'
      rcases Nat.lt_trichotomy q rows.length with hq | hq | hq
      · rw [List.getElem?_append_left hq]
        constructor
        · exact .inl
        · rintro (h | ⟨h, _⟩)
          · exact h
          · omega
      · subst hq
        simp [eq_comm]
      · rw [List.getElem?_append_right (by omega)]
        simp only [List.getElem?_singleton]
        rw [if_neg (by omega)]
        constructor
        · intro h; simp at h
        · rintro (h | ⟨h, _⟩)
          · rw [List.getElem?_eq_none (by omega)] at h; simp at h
          · omega
    have hset : ∀ (f : Row → Bool) (S : List Nat), SSorted S → (∀ q, q ∈ S ↔ ∃ r, rows[q]? = some r ∧ f r = true) →
        SSorted (if f r then sinsert p.delta.length S else S) ∧
        (∀ q, q ∈ (if f r then sinsert p.delta.length S else S) ↔ ∃ r', (rows ++ [r])[q]? = some r' ∧ f r' = true) := by
      intro f S hS hm
      constructor
      · split
        · exact sorted_sinsert hS
        · exact hS
      · intro q
        have : (∃ r', (rows ++ [r])[q]? = some r' ∧ f r' = true) ↔ (q ∈ S ∨ (q = rows.length ∧ f r = true)) := by
          rw [hm]
          constructor
          · rintro ⟨r', h, hf⟩
            rcases (hget q r').1 h with h | ⟨hq, rfl⟩
            · exact .inl ⟨r', h, hf⟩
            · exact .inr ⟨hq, hf⟩
          · rintro (⟨r', h, hf⟩ | ⟨h, hf⟩)
            · exact ⟨r', (hget q r').2 (.inl h), hf⟩
            · exact ⟨r, (hget q r).2 (.inr ⟨h, rfl⟩), hf⟩
        rw [this]
        by_cases hf : f r = true
        · rw [if_pos hf, mem_sinsert, h1]
          constructor
          · rintro (h | h)
            · exact .inr ⟨h, hf⟩
            · exact .inl h
          · rintro (h | ⟨h, _⟩)
            · exact .inr h
            · exact .inl h
        · rw [if_neg hf]
          constructor
          · exact .inl
          · rintro (h | ⟨_, h⟩)
            · exact h
            · exact absurd h hf
    obtain ⟨i1, i2⟩ := hset (·.ini) p.initSts h3 h4
    obtain ⟨f1, f2⟩ := hset (·.fin) p.finalSts h5 h6
    refine ⟨by simp [addRow, h1], ?_, i1, i2, f1, f2, ?_⟩
    · intro i r' hr
      rcases (hget i r').1 hr with h | ⟨rfl, rfl⟩
      · have hlt : i < p.delta.length := by rw [h1]; exact (List.getElem?_eq_some_iff.1 h).1
        show (p.delta ++ _)[i]? = _
        rw [List.getElem?_append_left hlt]
        exact h2 i r' h
      · show (p.delta ++ _)[rows.length]? = _
        rw [← h1]; simp
    · show (p.isDfa && r.on0.length == 1 && r.on1.length == 1) = true ↔ _
      simp only [Bool.and_eq_true, beq_iff_eq, h7]
      constructor
      · rintro ⟨⟨h, a⟩, b⟩ r' hr
        rcases List.mem_append.1 hr with hr | hr
        · exact h r' hr
        · simp at hr; subst hr; exact ⟨a, b⟩
      · intro h
        exact ⟨⟨fun r' hr => h r' (by simp [hr]), (h r (by simp)).1⟩, (h r (by simp)).2⟩

theorem tableStep_rows {rows : List Row} {d : NFADelta} (hl : d.length = rows.length)
    (h : ∀ (i : Nat) (r : Row), rows[i]? = some r → d[i]? = some (i, r.on0, r.on1)) :
    ∀ p b q, tableStep d p b q ↔ rowStep rows p b q := by
  intro p b q
  unfold tableStep rowStep
  by_cases hp : p < rows.length
  · have e := h p rows[p] (List.getElem?_eq_getElem hp)
    rw [e, List.getElem?_eq_getElem hp]
    simp
  · rw [List.getElem?_eq_none (by omega), List.getElem?_eq_none (by omega)]
    simp

theorem nfaAccepts_congr {I I' F F' : Nat → Prop} {s s' : Nat → Bool → Nat → Prop} (hI : ∀ q, I q ↔ I' q)
    (hF : ∀ q, F q ↔ F' q) (hs : ∀ p b q, s p b q ↔ s' p b q) (w : List Bool) : NfaAccepts I F s w ↔ NfaAccepts I' F' s' w := by
  have hI : I = I' := funext fun q => propext (hI q)
  have hF : F = F' := funext fun q => propext (hF q)
  have hs : s = s' := funext fun p => funext fun b => funext fun q => propext (hs p b q)
  rw [hI, hF, hs]

/-- length of a strictly increasing list with one element -/
theorem length_one_of {s : List Nat} (hs : SSorted s) {a : Nat} (h : ∀ q, q ∈ s ↔ q = a) : s = [a] :=
  hs.ext (by simp) (by simpa using h)

/-- **Main lemma**: the outcome of `from_istream` on a well-formed spec with at least one row. -/
theorem finishSpec_rows {rows : List Row} (hne : rows ≠ []) :
    (∃ g, finishSpec (rows.foldl addRow emptySpec) = .ok g ∧ g.WF ∧ g.statesAtDepth = [] ∧
      (∀ w, g.dfa.accepts w = true ↔ NfaAccepts (InitialRow rows) (FinalRow rows) (rowStep rows) w) ∧ ¬ RefersOutside rows) ∨
    (finishSpec (rows.foldl addRow emptySpec) = .error .outOfRange ∧ RefersOutside rows) := by
  obtain ⟨h1, h2, h3, h4, h5, h6, h7⟩ := rows_state rows
  generalize rows.foldl addRow emptySpec = p at *
  have hstep := tableStep_rows h1 h2
  have hrl : 0 < rows.length := List.length_pos_of_ne_nil hne
  have hI : ∃ I, (if p.initSts.length = 0 then sinsert 0 p.initSts else p.initSts) = I ∧ SSorted I ∧
      (∀ q, q ∈ I ↔ InitialRow rows q) ∧ ∀ q ∈ I, q < rows.length := by
    refine ⟨_, rfl, ?_, ?_, ?_⟩
    · split
      · exact sorted_sinsert h3
      · exact h3
    · intro q
      unfold InitialRow
      split
      · rename_i h0
        have h0 : p.initSts = [] := List.length_eq_zero_iff.1 h0
        rw [h0] at h4 ⊢
        have hno : ∀ q', ¬ ∃ r : Row, rows[q']? = some r ∧ r.ini = true := fun q' hh => by
          have := (h4 q').2 hh; simp at this
        simp only [mem_sinsert, List.not_mem_nil, or_false]
        constructor
        · rintro rfl
          refine .inr ⟨fun r hr => ?_, rfl⟩
          obtain ⟨i, hi, rfl⟩ := List.getElem_of_mem hr
          have := hno i
          simp only [List.getElem?_eq_getElem hi] at this
          simpa using this
        · rintro (h | ⟨_, h⟩)
          · exact absurd h (hno q)
          · exact h
      · rename_i h0
        rw [h4]
        constructor
        · exact .inl
        · rintro (h | ⟨h, _⟩)
          · exact h
          · exfalso
            apply h0
            rw [List.length_eq_zero_iff, List.eq_nil_iff_forall_not_mem]
            intro x hx
            obtain ⟨r, hr, hr'⟩ := (h4 x).1 hx
            have := h r (List.mem_of_getElem? hr)
            rw [this] at hr'; simp at hr'
    · intro q hq
      split at hq
      · rename_i h0
        have h0 : p.initSts = [] := List.length_eq_zero_iff.1 h0
        rw [h0] at hq
        simp at hq; subst hq; exact hrl
      · obtain ⟨r, hr, _⟩ := (h4 q).1 hq
        exact (List.getElem?_eq_some_iff.1 hr).1
  obtain ⟨I, hIe, hIs, hIm, hIlt⟩ := hI
  unfold finishSpec
  dsimp only
  rw [hIe]
  have hFm : ∀ q, q ∈ p.finalSts ↔ FinalRow rows q := h6
  have hFlt : ∀ q ∈ p.finalSts, q < rows.length := by
    intro q hq
    obtain ⟨r, hr, _⟩ := (h6 q).1 hq
    exact (List.getElem?_eq_some_iff.1 hr).1
  by_cases hd : I.length = 1 ∧ p.isDfa = true
  · -- deterministic branch
    obtain ⟨hI1, hdfa⟩ := hd
    obtain ⟨i0, rfl⟩ := List.length_eq_one_iff.1 hI1
    have hone := h7.1 hdfa
    have hdet : DetRows rows := ⟨hone, i0, fun q => (hIm q).symm.trans (by simp)⟩
    rw [if_pos (by simp [hdfa])]
    rw [show decide ([i0].length = 1) = true from by simp, cassert_true, Res.bind_ok]
    have hrow : ∀ (i : Nat) (hi : i < rows.length), ∃ a b, rows[i].on0 = [a] ∧ rows[i].on1 = [b] := by
      intro i hi
      obtain ⟨a, ha⟩ := List.length_eq_one_iff.1 (hone rows[i] (List.getElem_mem hi)).1
      obtain ⟨b, hb⟩ := List.length_eq_one_iff.1 (hone rows[i] (List.getElem_mem hi)).2
      exact ⟨a, b, ha, hb⟩
    let f0 : Nat → Nat := fun i => ((rows[i]?.map (·.on0)).getD []).headD 0
    let f1 : Nat → Nat := fun i => ((rows[i]?.map (·.on1)).getD []).headD 0
    have hf0 : ∀ (i : Nat) (hi : i < rows.length), rows[i].on0 = [f0 i] := by
      intro i hi
      obtain ⟨a, b, ha, hb⟩ := hrow i hi
      simp [f0, List.getElem?_eq_getElem hi, ha]
    have hf1 : ∀ (i : Nat) (hi : i < rows.length), rows[i].on1 = [f1 i] := by
      intro i hi
      obtain ⟨a, b, ha, hb⟩ := hrow i hi
      simp [f1, List.getElem?_eq_getElem hi, hb]
    have hdelta : p.delta = (List.range rows.length).map (fun i => (i, [f0 i], [f1 i])) := by
      refine List.ext_getElem (by simp [h1]) ?_
      intro i a b
      have hi : i < rows.length := by omega
      have := h2 i rows[i] (List.getElem?_eq_getElem hi)
      rw [List.getElem?_eq_getElem a] at this
      injection this with this
      rw [this, hf0 i hi, hf1 i hi]
      simp
    have hmap : (p.delta.mapM (fun t => do
        cassert (t.2.1.length = 1 && t.2.2.length = 1)
        let a ← vat t.2.1 0
        let b ← vat t.2.2 0
        pure (t.1, a, b)) : Res (List (Nat × Nat × Nat))) = .ok ((List.range rows.length).map (fun i => (i, f0 i, f1 i))) := by
      rw [mapM_ok (g := fun t => (t.1, t.2.1.headD 0, t.2.2.headD 0))]
      · rw [hdelta]; simp
      · intro t ht
        rw [hdelta] at ht
        obtain ⟨i, _, rfl⟩ := List.mem_map.1 ht
        rfl
    rw [hmap, Res.bind_ok, vat_lt (by simp), Res.bind_ok]
    show (∃ g, Graph.make i0 p.finalSts ((List.range rows.length).map (fun i => (i, f0 i, f1 i))) = .ok g ∧ _) ∨ _
    by_cases hb : ∀ i, i < rows.length → f0 i < rows.length ∧ f1 i < rows.length
    · left
      obtain ⟨g, g1, g2, g3, g4, g5, g6, g7⟩ := Graph.make_wf (init := i0) (n := rows.length) (finals := p.finalSts) (f0 := f0)
        (f1 := f1) (hIlt i0 (by simp)) hFlt h5 (fun i hi => (hb i hi).1) (fun i hi => (hb i hi).2)
      refine ⟨g, g1, g2, g6, ?_, ?_⟩
      swap
      · rintro (⟨_, r, hr, q, hq, hlt⟩ | ⟨h, _⟩)
        · obtain ⟨i, hi, rfl⟩ := List.getElem_of_mem hr
          rw [hf0 i hi, hf1 i hi] at hq
          have := hb i hi
          simp only [List.cons_append, List.nil_append, List.mem_cons, List.not_mem_nil, or_false] at hq
          rcases hq with rfl | rfl <;> omega
        · exact h hdet
      intro w
      rw [← nfaAccepts_congr hIm hFm (fun _ _ _ => Iff.rfl) w]
      have hnx : ∀ q, q < rows.length → ∀ b, rowStep rows q b (g.nx q b) ∧ ∀ r, rowStep rows q b r → r = g.nx q b := by
        intro q hq b
        have e : g.nx q b = if b then f1 q else f0 q := by
          cases b
          · exact (g7 q hq).1
          · exact (g7 q hq).2
        rw [e]
        unfold rowStep
        rw [List.getElem?_eq_getElem hq]
        have a0 := hf0 q hq
        have a1 := hf1 q hq
        constructor
        · exact ⟨_, rfl, by cases b <;> simp [a0, a1]⟩
        · rintro r ⟨_, h, hr⟩
          injection h with h; subst h
          cases b <;> simpa [a0, a1] using hr
      have hpath := fun (q r : Nat) (hq : q < rows.length) => path_dfa (q := q) (r := r) (w := w) (step := rowStep rows) (P := fun q => q < rows.length) (f := g.nx)
        (fun q b hq => by have := g2.nx_lt (q := q) (by rw [g3]; exact hq) b; rwa [g3] at this)
        (fun q b r hq => ⟨(hnx q hq b).2 r, fun e => e ▸ (hnx q hq b).1⟩) hq
      show g.fin (w.foldl g.nx g.init) = true ↔ _
      unfold NfaAccepts Graph.fin
      rw [g4, g5]
      constructor
      · intro h
        exact ⟨i0, _, by simp, (hpath _ _ (hIlt i0 (by simp))).2 rfl, by simpa using h⟩
      · rintro ⟨p0, r, hp, hpa, hr⟩
        simp at hp; subst hp
        rw [← (hpath _ _ (hIlt p0 (by simp))).1 hpa]
        simpa using hr
    · right
      have hnc : ¬ Graph.Closed p.finalSts ((List.range rows.length).map (fun i => (i, f0 i, f1 i))) := by
        intro hc
        apply hb
        intro i hi
        have := hc.1 (i, f0 i, f1 i) (List.mem_map.2 ⟨i, by simpa using hi, rfl⟩)
        simpa using this
      constructor
      · cases hm : Graph.make i0 p.finalSts ((List.range rows.length).map (fun i => (i, f0 i, f1 i))) with
        | ok g => exact absurd (Graph.make_ok_iff.1 hm).1 hnc
        | error e =>
          have := Graph.make_err hm
          subst this; exact hm
      · refine .inl ⟨hdet, ?_⟩
        by_contra hno
        apply hb
        intro i hi
        constructor
        · by_contra hlt
          exact hno ⟨rows[i], List.getElem_mem hi, f0 i, by rw [hf0 i hi]; simp, by omega⟩
        · by_contra hlt
          exact hno ⟨rows[i], List.getElem_mem hi, f1 i, by rw [hf1 i hi]; simp, by omega⟩
  · -- nondeterministic branch
    rw [if_neg (by
      intro hh
      apply hd
      split at hh
      · simp at hh
      · rename_i hl; exact ⟨by simpa using hl, hh⟩)]
    have e := nfaAccepts_congr hIm hFm hstep
    have hnd : ¬ DetRows rows := by
      rintro ⟨ho, i0, hi0⟩
      apply hd
      refine ⟨?_, h7.2 ho⟩
      rw [length_one_of hIs (a := i0) fun q => (hIm q).trans (hi0 q)]
      rfl
    have hst : tableStep p.delta = rowStep rows := funext fun a => funext fun b => funext fun c => propext (hstep a b c)
    rcases FromNfa.fromNfa_total (fn := p.finalSts) (dn := p.delta) hIs with ⟨⟨g, hg⟩, hir⟩ | ⟨he, hr⟩
    · left
      obtain ⟨hwf, hsd, _, _, _, _, _, hacc⟩ := FromNfa.fromNfa_good hIs hg
      refine ⟨g, hg, hwf, hsd, fun w => (hacc w).trans (e w), ?_⟩
      rintro (⟨h, _⟩ | ⟨_, p0, w, q, hp, hpath, hlt⟩)
      · exact hnd h
      · have := hir p0 ((hIm p0).2 hp) w q (by rw [hst]; exact hpath)
        omega
    · right
      refine ⟨he, .inr ⟨hnd, ?_⟩⟩
      by_contra hno
      apply hr
      intro p0 hp0 w q hpath
      by_contra hlt
      exact hno ⟨p0, w, q, (hIm p0).1 hp0, by rw [← hst]; exact hpath, by omega⟩

/-- A spec all of whose rows name only states with a row does not refer outside. -/
theorem not_refersOutside {rows : List Row} (hne : rows ≠ []) (h : ∀ r ∈ rows, ∀ q ∈ r.on0 ++ r.on1, q < rows.length) :
    ¬ RefersOutside rows := by
  rintro (⟨_, r, hr, q, hq, hlt⟩ | ⟨_, p, w, q, hp, hpath, hlt⟩)
  · exact absurd (h r hr q hq) (Nat.not_lt.2 hlt)
  · have hp : p < rows.length := by
      rcases hp with ⟨r, hr, _⟩ | ⟨_, rfl⟩
      · exact (List.getElem?_eq_some_iff.1 hr).1
      · exact List.length_pos_of_ne_nil hne
    have : ∀ {p w q}, Path (rowStep rows) p w q → p < rows.length → q < rows.length := by
      intro p w q hpath
      induction hpath with
      | nil => exact id
      | @cons a b c bit w hs _ ih =>
        intro _
        obtain ⟨r, hr, hq⟩ := hs
        apply ih
        apply h r (List.mem_of_getElem? hr)
        rw [List.mem_append]
        split at hq
        · exact .inr hq
        · exact .inl hq
    exact absurd (this hpath hp) (Nat.not_lt.2 hlt)

theorem loadStates_emptyItem {t : List Char} (h : EmptyItem t) : loadStates t = .error .die := by
  obtain ⟨items, rest, hi, rfl⟩ := h
  unfold loadStates
  have hc : ',' ∈ items.flatMap (· ++ [',']) ++ ',' :: rest := by simp
  rw [if_neg (fun e => by rw [e] at hc; revert hc; decide)]
  clear hc
  induction items with
  | nil =>
    rw [List.flatMap_nil, List.nil_append, getlines, if_pos rfl, List.mapM_cons]
    rfl
  | cons i is ih =>
    obtain ⟨hd, hv⟩ := hi i (by simp)
    have hc : ',' ∉ i := fun hm => by
      have := hd.2 _ hm
      revert this; decide
    rw [List.flatMap_cons, List.append_assoc, List.append_assoc, List.singleton_append, getlines_cons_delim _ _ _ hc, List.mapM_cons,
      stoi_digits hd, if_pos hv]
    dsimp only
    rw [Res.bind_ok, ih fun j hj => hi j (by simp [hj])]
    rfl

/-- the two halves of `from_istream` -/
theorem fromIstream_rows {text : List Char} {lines : List (List Char)} {rows : List Row} (ht : TextLines text lines)
    (hr : SpecRows 0 lines rows) : Graph.fromIstream text = finishSpec (rows.foldl addRow emptySpec) := by
  unfold Graph.fromIstream
  rw [textLines_iff.1 ht, show ({ initSts := [], finalSts := [], delta := [], isDfa := true } : SpecSt) = emptySpec from rfl,
    specRows_fold hr rfl, Res.bind_ok]

end Homfa
