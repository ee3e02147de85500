import Verif.Proof.SpecFile
/-! AT&T files. -/

namespace Homfa
open Spec

theorem tab_not_digit : ('\t').isDigit = false := by decide

theorem matchAttEdge_edge {l : List Char} {src dst : Nat} {b : Bool} (h : AttLine l (.edge src dst b)) :
    ∃ a c, matchAttEdge l = some (a, c, [if b then '1' else '0']) ∧ stoi a = .ok src ∧ stoi c = .ok dst := by
  obtain ⟨a, c, ha, hc, va, vc, hs, hd, rfl⟩ := h
  refine ⟨a, c, ?_, ?_, ?_⟩
  · obtain ⟨e1, e2⟩ := takeWhile_all (p := Char.isDigit) ha.2 (b := '\t' :: (c ++ ['\t', if b then '1' else '0']))
      (by simp [tab_not_digit])
    obtain ⟨f1, f2⟩ := takeWhile_all (p := Char.isDigit) hc.2 (b := ['\t', if b then '1' else '0']) (by simp [tab_not_digit])
    unfold matchAttEdge
    dsimp only
    rw [e1, e2]
    have h1 : a.isEmpty = false := by simpa using ha.1
    have h2 : c.isEmpty = false := by simpa using hc.1
    simp only [h1, List.head?_cons, ne_eq, not_true_eq_false, decide_false, Bool.or_self, Bool.false_eq_true, if_false,
      List.tail_cons, f1, f2, h2]
    cases b <;> simp
  · rw [stoi_digits ha, va, if_pos hs]
  · rw [stoi_digits hc, vc, if_pos hd]

theorem matchAttEdge_none {l : List Char} (h : ∀ c ∈ l, c.isDigit = true) : matchAttEdge l = none := by
  unfold matchAttEdge
  have e1 : l.takeWhile Char.isDigit = l ∧ l.dropWhile Char.isDigit = [] := by
    have := takeWhile_all (p := Char.isDigit) (a := l) (b := []) h (by simp)
    simpa using this
  dsimp only
  rw [e1.1, e1.2]
  simp

/-- Effect of one item. -/
def attAdd (p : List Nat × NFADelta) : AttItem → List Nat × NFADelta
  | .edge src dst b =>
    let d := growRows p.2 (src + 1 - p.2.length)
    let t := d.getD src (0, [], [])
    (p.1, d.set src (if b then (t.1, t.2.1, t.2.2 ++ [dst]) else (t.1, t.2.1 ++ [dst], t.2.2)))
  | .final q => (sinsert q p.1, p.2)

theorem growRows_length (d : NFADelta) (n : Nat) : (growRows d n).length = d.length + n := by
  induction n generalizing d with
  | zero => rfl
  | succ n ih => rw [growRows, ih]; simp; omega

theorem growRows_get (d : NFADelta) (n i : Nat) :
    (growRows d n)[i]? = if i < d.length then d[i]? else if i < d.length + n then some (i, [], []) else none := by
  induction n generalizing d with
  | zero =>
    rw [growRows]
    split
    · rfl
    · rw [if_neg (by omega)]; exact List.getElem?_eq_none (by omega)
  | succ n ih =>
    rw [growRows, ih]
    simp only [List.length_append, List.length_singleton]
    by_cases h1 : i < d.length
    · rw [if_pos (by omega), if_pos h1, List.getElem?_append_left h1]
    · rw [if_neg h1]
      by_cases h2 : i = d.length
      · subst h2; rw [if_pos (by omega), if_pos (by omega)]; simp
      · rw [if_neg (by omega)]
        by_cases h3 : i < d.length + (n + 1)
        · rw [if_pos (by omega), if_pos h3]
        · rw [if_neg (by omega), if_neg h3]

theorem attLine_ok {p : List Nat × NFADelta} {l : List Char} {i : AttItem} (h : AttLine l i) : attLine p l = .ok (attAdd p i) := by
  cases i with
  | edge src dst b =>
    obtain ⟨a, c, h1, h2, h3⟩ := matchAttEdge_edge h
    unfold attLine
    rw [h1]
    dsimp only
    rw [h2, Res.bind_ok, h3, Res.bind_ok]
    have hlen : src < (growRows p.2 (src + 1 - p.2.length)).length := by rw [growRows_length]; omega
    have e : (growRows p.2 (src + 1 - p.2.length)).getD src (0, [], []) = (growRows p.2 (src + 1 - p.2.length))[src] := by
      simp [List.getElem?_eq_getElem hlen]
    cases b
    · rw [show stoi [if false = true then '1' else '0'] = .ok 0 by decide, Res.bind_ok, if_pos rfl, vat_lt hlen, Res.bind_ok,
        vset_lt hlen, Res.bind_ok]
      simp [attAdd, List.getElem?_eq_getElem hlen, Res.pure_eq]
    · rw [show stoi [if true = true then '1' else '0'] = .ok 1 by decide, Res.bind_ok, if_neg (by decide), if_pos rfl, vat_lt hlen,
        Res.bind_ok, vset_lt hlen, Res.bind_ok]
      simp [attAdd, List.getElem?_eq_getElem hlen, Res.pure_eq]
  | final q =>
    obtain ⟨h1, h2, h3⟩ := h
    unfold attLine
    rw [matchAttEdge_none h1.2]
    dsimp only
    have : matchAttFinal l = some l := by
      unfold matchAttFinal
      rw [if_pos]
      simp only [Bool.and_eq_true, Bool.not_eq_true', List.isEmpty_eq_false_iff, List.all_eq_true]
      exact ⟨h1.1, h1.2⟩
    rw [this]
    dsimp only
    rw [stoi_digits h1, h2, if_pos h3, Res.bind_ok]
    rfl

theorem attLine_inv {p p' : List Nat × NFADelta} {l : List Char} (h : attLine p l = .ok p') : ∃ i, AttLine l i := by
  unfold attLine at h
  cases hm : matchAttEdge l with
  | some c =>
    obtain ⟨a, b, c⟩ := c
    rw [hm] at h
    dsimp only at h
    obtain ⟨src, hsrc, h⟩ := Res.bind_eq_ok.1 h
    obtain ⟨dst, hdst, h⟩ := Res.bind_eq_ok.1 h
    unfold matchAttEdge at hm
    dsimp only at hm
    generalize hs2 : l.dropWhile Char.isDigit = s2 at hm
    split at hm
    · simp at hm
    · rename_i h1
      generalize hs3 : s2.tail.dropWhile Char.isDigit = s3 at hm
      split at hm
      · simp at hm
      · rename_i h2
        split at hm
        · rename_i h3
          simp only [Option.some.injEq, Prod.mk.injEq] at hm
          obtain ⟨rfl, rfl, rfl⟩ := hm
          simp only [ne_eq, Bool.or_eq_true, List.isEmpty_iff, decide_eq_true_eq, not_or, not_not] at h1 h2 h3
          have da : Digits (l.takeWhile Char.isDigit) := ⟨h1.1, fun c hc => mem_takeWhile_imp hc⟩
          have db : Digits (s2.tail.takeWhile Char.isDigit) := ⟨h2.1, fun c hc => mem_takeWhile_imp hc⟩
          rw [stoi_digits da] at hsrc
          rw [stoi_digits db] at hdst
          split at hsrc
          · split at hdst
            · rename_i ha hb
              injection hsrc with hsrc
              injection hdst with hdst
              refine ⟨.edge src dst (decide (s3.tail = ['1'])), _, _, da, db, hsrc, hdst, by omega, by omega, ?_⟩
              have e2 : s2 = '\t' :: s2.tail := by
                cases s2 with
                | nil => simp at h1
                | cons c s => simp at h1; simp [h1.2]
              have e3 : s3 = '\t' :: s3.tail := by
                cases s3 with
                | nil => simp at h2
                | cons c s => simp at h2; simp [h2.2]
              have e4 : s3.tail = [if decide (s3.tail = ['1']) = true then '1' else '0'] := by
                rcases h3 with h3 | h3 <;> simp [h3]
              conv_lhs => rw [← List.takeWhile_append_dropWhile (p := Char.isDigit) (l := l), hs2, e2,
                ← List.takeWhile_append_dropWhile (p := Char.isDigit) (l := s2.tail), hs3, e3, e4]
            · simp at hdst
          · simp at hsrc
        · simp at hm
  | none =>
    rw [hm] at h
    dsimp only at h
    cases hf : matchAttFinal l with
    | none => rw [hf] at h; simp at h
    | some a =>
      rw [hf] at h
      dsimp only at h
      obtain ⟨q, hq, h⟩ := Res.bind_eq_ok.1 h
      unfold matchAttFinal at hf
      split at hf
      · rename_i hc
        injection hf with hf; subst hf
        simp only [Bool.and_eq_true, Bool.not_eq_true', List.isEmpty_eq_false_iff, List.all_eq_true] at hc
        have hd : Digits l := hc
        rw [stoi_digits hd] at hq
        split at hq
        · injection hq with hq
          exact ⟨.final q, hd, hq, by omega⟩
        · simp at hq
      · simp at hf

theorem attLine_err {p : List Nat × NFADelta} {l : List Char} {e : Err} (h : attLine p l = .error e) : e = .die ∨ e = .outOfRange := by
  have stoi_err : ∀ {s : List Char} {e : Err}, s ≠ [] → stoi s = .error e → e = .outOfRange := by
    intro s e hs h
    unfold stoi at h
    rw [if_neg hs] at h
    dsimp only at h
    split at h
    · simp at h
    · injection h with h; exact h.symm
  unfold attLine at h
  cases hm : matchAttEdge l with
  | some c =>
    obtain ⟨a, b, c⟩ := c
    rw [hm] at h
    dsimp only at h
    have hne : a ≠ [] ∧ b ≠ [] ∧ c ≠ [] := by
      unfold matchAttEdge at hm
      dsimp only at hm
      split at hm
      · simp at hm
      · split at hm
        · simp at hm
        · split at hm
          · rename_i h1 h2 h3
            simp only [Option.some.injEq, Prod.mk.injEq] at hm
            obtain ⟨rfl, rfl, rfl⟩ := hm
            simp only [ne_eq, Bool.or_eq_true, List.isEmpty_iff, decide_eq_true_eq, not_or, not_not] at h1 h2 h3
            refine ⟨h1.1, h2.1, ?_⟩
            rcases h3 with h3 | h3 <;> simp [h3]
          · simp at hm
    rcases Res.bind_eq_err.1 h with h | ⟨_, _, h⟩
    · exact .inr (stoi_err hne.1 h)
    rcases Res.bind_eq_err.1 h with h | ⟨_, _, h⟩
    · exact .inr (stoi_err hne.2.1 h)
    rcases Res.bind_eq_err.1 h with h | ⟨_, _, h⟩
    · exact .inr (stoi_err hne.2.2 h)
    split at h
    · rcases Res.bind_eq_err.1 h with h | ⟨_, _, h⟩
      · exact .inr (vat_err h)
      rcases Res.bind_eq_err.1 h with h | ⟨_, _, h⟩
      · exact .inr (vset_err h)
      · simp [Res.pure_eq] at h
    · split at h
      · rcases Res.bind_eq_err.1 h with h | ⟨_, _, h⟩
        · exact .inr (vat_err h)
        rcases Res.bind_eq_err.1 h with h | ⟨_, _, h⟩
        · exact .inr (vset_err h)
        · simp [Res.pure_eq] at h
      · injection h with h; exact .inl h.symm
  | none =>
    rw [hm] at h
    dsimp only at h
    cases hf : matchAttFinal l with
    | none => rw [hf] at h; injection h with h; exact .inl h.symm
    | some a =>
      rw [hf] at h
      dsimp only at h
      have hne : a ≠ [] := by
        unfold matchAttFinal at hf
        split at hf
        · rename_i hc
          injection hf with hf; subst hf
          simp only [Bool.and_eq_true, Bool.not_eq_true', List.isEmpty_eq_false_iff] at hc
          exact hc.1
        · simp at hf
      rcases Res.bind_eq_err.1 h with h | ⟨_, _, h⟩
      · exact .inr (stoi_err hne h)
      · simp [Res.pure_eq] at h

theorem attLines_ok {ls : List (List Char)} {items : List AttItem} (h : List.Forall₂ AttLine ls items)
    (p : List Nat × NFADelta) : ls.foldlM attLine p = .ok (items.foldl attAdd p) := by
  induction h generalizing p with
  | nil => rfl
  | cons h _ ih => rw [List.foldlM_cons, attLine_ok h, Res.bind_ok]; exact ih _

theorem attLines_inv {ls : List (List Char)} {p p' : List Nat × NFADelta} (h : ls.foldlM attLine p = .ok p') :
    ∃ items, List.Forall₂ AttLine ls items := by
  induction ls generalizing p with
  | nil => exact ⟨[], .nil⟩
  | cons l ls ih =>
    rw [List.foldlM_cons, Res.bind_eq_ok] at h
    obtain ⟨p1, h1, h2⟩ := h
    obtain ⟨i, hi⟩ := attLine_inv h1
    obtain ⟨is, his⟩ := ih h2
    exact ⟨i :: is, .cons hi his⟩

/-- the table after the items -/
theorem att_state (items : List AttItem) :
    let p := items.foldl attAdd ([], [])
    SSorted p.1 ∧ (∀ q, q ∈ p.1 ↔ AttItem.final q ∈ items) ∧
    (∀ s b d, tableStep p.2 s b d ↔ AttItem.edge s d b ∈ items) ∧
    (∀ (i : Nat) (t : Nat × List Nat × List Nat), p.2[i]? = some t → t.1 = i) ∧
    (∀ q, q < p.2.length ↔ ∃ s d b, AttItem.edge s d b ∈ items ∧ q ≤ s) := by
  induction items using List.reverseRecOn with
  | nil => simp [tableStep]
  | append_singleton items i ih =>
    simp only [List.foldl_append, List.foldl_cons, List.foldl_nil]
    generalize items.foldl attAdd ([], []) = p at ih
    obtain ⟨h1, h2, h3, h4, h5⟩ := ih
    cases i with
    | final q0 =>
      refine ⟨sorted_sinsert h1, fun q => ?_, fun s b d => ?_, h4, fun q => ?_⟩
      · simp [attAdd, h2, or_comm]
      · simp only [attAdd, h3]; simp
      · simp only [attAdd, h5]; simp
    | edge src dst c =>
      have hlen : (growRows p.2 (src + 1 - p.2.length)).length = max p.2.length (src + 1) := by
        rw [growRows_length]; omega
      have hget := growRows_get p.2 (src + 1 - p.2.length)
      have hlt : src < (growRows p.2 (src + 1 - p.2.length)).length := by omega
      have hget' : ∀ (j : Nat) (t : Nat × List Nat × List Nat), (growRows p.2 (src + 1 - p.2.length))[j]? = some t →
          t.1 = j ∧ ∀ b d, d ∈ (if b then t.2.2 else t.2.1) ↔ tableStep p.2 j b d := by
        intro j t ht
        rw [hget] at ht
        split at ht
        · refine ⟨h4 j t ht, fun b d => ?_⟩
          unfold tableStep
          rw [ht]; simp
        · split at ht
          · injection ht with ht; subst ht
            refine ⟨rfl, fun b d => ?_⟩
            unfold tableStep
            rw [List.getElem?_eq_none (by omega)]
            cases b <;> simp
          · simp at ht
      have hrow : ∀ j, p.2.length ≤ j → ∀ b d, ¬ tableStep p.2 j b d := by
        intro j hj b d
        unfold tableStep
        rw [List.getElem?_eq_none hj]; simp
      refine ⟨h1, fun q => by simp [attAdd, h2], fun s b d => ?_, ?_, ?_⟩
      · have e : (AttItem.edge s d b ∈ items ++ [AttItem.edge src dst c]) ↔
            (tableStep p.2 s b d ∨ (s = src ∧ d = dst ∧ b = c)) := by
          rw [h3]; simp
        rw [e]
        show (∃ t, (List.set _ src _)[s]? = some t ∧ _) ↔ _
        by_cases hs : s = src
        · subst hs
          rw [List.getElem?_set_self hlt]
          have ht := hget' s _ (List.getElem?_eq_getElem hlt)
          rw [List.getD_eq_getElem?_getD, List.getElem?_eq_getElem hlt]
          simp only [Option.getD_some, Option.some.injEq, exists_eq_left', true_and]
          generalize (growRows p.2 (s + 1 - p.2.length))[s] = t at ht
          rw [← ht.2 b d]
          cases b <;> cases c <;> simp
        · rw [List.getElem?_set_ne (fun e => hs e.symm)]
          simp only [hs, false_and, or_false]
          constructor
          · rintro ⟨t, ht, hd⟩
            exact ((hget' s t ht).2 b d).1 hd
          · intro h
            have h' := h
            obtain ⟨t, ht, hd⟩ := h'
            have : s < p.2.length := (List.getElem?_eq_some_iff.1 ht).1
            refine ⟨t, ?_, hd⟩
            rw [hget, if_pos this, ht]
      · intro j t ht
        change (List.set _ src _)[j]? = some t at ht
        by_cases hs : j = src
        · subst hs
          rw [List.getElem?_set_self hlt] at ht
          have hj := hget' j _ (List.getElem?_eq_getElem hlt)
          rw [List.getD_eq_getElem?_getD, List.getElem?_eq_getElem hlt] at ht
          simp only [Option.getD_some, Option.some.injEq] at ht
          subst ht
          cases c <;> exact hj.1
        · rw [List.getElem?_set_ne (fun e => hs e.symm)] at ht
          exact (hget' j t ht).1
      · intro q
        show q < (List.set _ src _).length ↔ _
        rw [List.length_set, hlen]
        constructor
        · intro h
          by_cases hq : q < p.2.length
          · obtain ⟨s, d, b, h6, h7⟩ := (h5 q).1 hq
            exact ⟨s, d, b, by simp [h6], h7⟩
          · exact ⟨src, dst, c, by simp, by omega⟩
        · rintro ⟨s, d, b, h6, h7⟩
          rcases List.mem_append.1 h6 with h6 | h6
          · have := (h5 q).2 ⟨s, d, b, h6, h7⟩
            omega
          · simp at h6
            omega

/-- Outcome of `from_att_istream` on well-formed lines. -/
theorem fromAtt_items {text : List Char} {items : List AttItem} (h : List.Forall₂ AttLine (getlines '\n' text) items) :
    (∃ g, Graph.fromAttIstream text = .ok g ∧ g.WF ∧
      (∀ w, g.dfa.accepts w = true ↔ NfaAccepts (· = 0) (fun q => AttItem.final q ∈ items) (attStep items) w) ∧
      (∀ w q, Path (attStep items) 0 w q → ∃ s d b, AttItem.edge s d b ∈ items ∧ q ≤ s)) ∨
    (Graph.fromAttIstream text = .error .outOfRange ∧
      ∃ w q, Path (attStep items) 0 w q ∧ ∀ s d b, AttItem.edge s d b ∈ items → s < q) := by
  obtain ⟨h1, h2, h3, h4, h5⟩ := att_state items
  unfold Graph.fromAttIstream
  rw [attLines_ok h, Res.bind_ok]
  generalize items.foldl attAdd ([], []) = p at *
  have hstep : tableStep p.2 = attStep items := by
    funext a b c; exact propext (h3 a b c)
  have hsort : SSorted [0] := by simp
  rcases FromNfa.fromNfa_total (fn := p.1) (dn := p.2) hsort with ⟨⟨g, hg⟩, hr⟩ | ⟨he, hr⟩
  · left
    obtain ⟨hwf, _, _, _, _, _, _, hacc⟩ := FromNfa.fromNfa_good hsort hg
    refine ⟨g, hg, hwf, fun w => ?_, ?_⟩
    · rw [hacc w]
      exact nfaAccepts_congr (by simp) h2 h3 w
    · intro w q hp
      rw [← hstep] at hp
      exact (h5 q).1 (hr 0 (by simp) w q hp)
  · right
    refine ⟨he, ?_⟩
    by_contra hno
    apply hr
    intro p0 hp0 w q hpath
    simp at hp0; subst hp0
    rw [hstep] at hpath
    rw [h5]
    by_contra hq
    apply hno
    refine ⟨w, q, hpath, fun s d b he => ?_⟩
    by_contra hlt
    exact hq ⟨s, d, b, he, by omega⟩

/-- The states of the automaton `from_att_istream` builds: all can be reached, and two words lead to the same one exactly if they lead to the same
states of the file. -/
theorem fromAtt_states {text : List Char} {items : List AttItem} (h : List.Forall₂ AttLine (getlines '\n' text) items) {g : Graph}
    (hok : Graph.fromAttIstream text = .ok g) :
    (∀ q < g.size, ∃ w : List Bool, w.foldl g.nx g.init = q) ∧
    ∀ u v : List Bool, u.foldl g.nx g.init = v.foldl g.nx g.init ↔ ∀ q, Path (attStep items) 0 u q ↔ Path (attStep items) 0 v q := by
  obtain ⟨_, _, h3, _, _⟩ := att_state items
  unfold Graph.fromAttIstream at hok
  rw [attLines_ok h, Res.bind_ok] at hok
  generalize items.foldl attAdd ([], []) = p at *
  have hstep : tableStep p.2 = attStep items := by
    funext a b c; exact propext (h3 a b c)
  have hsort : SSorted [0] := by simp
  obtain ⟨_, _, _, _, _, hreach, heq, _⟩ := FromNfa.fromNfa_good hsort hok
  refine ⟨hreach, fun u v => (heq u v).trans ?_⟩
  have hm : ∀ (w : List Bool) (x : Nat), x ∈ FromNfa.runSet p.2 [0] w ↔ Path (attStep items) 0 w x := by
    intro w x
    rw [FromNfa.mem_runSet, hstep]
    simp
  constructor
  · intro e q
    rw [← hm, ← hm, e]
  · intro e
    exact SSorted.ext (FromNfa.sorted_runSet hsort u) (FromNfa.sorted_runSet hsort v) (fun x => by rw [hm, hm, e])

end Homfa
