import Verif.Proof.LtlExpand
import Mathlib.Algebra.BigOperators.Group.List.Basic
/-!
# The expansion of one edge: the work list
-/

namespace Homfa.Ltl

variable {ix : List (Nat × Nat)} {n d : Nat} {K : List Bdd} {D0 : NFADelta} {L0 : List Lab} {cond : Bdd}

/-- the edge of node number `r` for `bit` leads to a visited node -/
def Filled (K : List Bdd) (V : List Nat) (r : Nat) (bit : Bool) : Prop :=
  ∃ v lo hi c, K[r]? = some (Bdd.node v lo hi) ∧ K[c]? = some (if bit then hi else lo) ∧ c ∈ V

/-- Invariant of the work-list loop; `t` is the number of the true node. -/
structure EInv (ix : List (Nat × Nat)) (n d : Nat) (K : List Bdd) (D0 : NFADelta) (L0 : List Lab) (cond : Bdd) (t : Nat) (L : List Lab)
    (s : ExpSt) : Prop where
  core : Core ix n d K D0 L0 (Filled K s.visited) L s
  que : ∀ it ∈ s.que, Item ix n d K s.rst2st it
  vis : ∀ r ∈ s.visited, ∃ b, K[r]? = some b ∧ Sat b
  clo : ∀ r ∈ s.visited, ∀ p v lo hi, K[p]? = some (Bdd.node v lo hi) → (K[r]? = some lo ∨ K[r]? = some hi) →
    p ∈ s.visited ∨ p ∈ s.que.map (·.1)
  tt : t ∈ s.visited ∨ t ∈ s.que.map (·.1)
  alt : (0 ∈ s.visited → ∃ x, s.srcAlt = some x ∧ Rep L n d 0 cond x) ∧ (0 ∉ s.visited → s.srcAlt = none)

theorem parent_size {b : Bdd} {v : Nat} {lo hi : Bdd} (h : Bdd.node v lo hi ∈ b.subs) : sizeOf (Bdd.node v lo hi) ≤ sizeOf b := by
  induction b with
  | ff => simp [Bdd.subs] at h
  | tt => simp [Bdd.subs] at h
  | node w l r ihl ihr =>
    simp only [Bdd.subs, List.mem_cons, List.mem_append] at h
    rcases h with h | h | h
    · rw [h]
    · have := ihl h; simp only [Bdd.node.sizeOf_spec] at this ⊢; omega
    · have := ihr h; simp only [Bdd.node.sizeOf_spec] at this ⊢; omega

/-- weights of the measure -/
def wt (rev : List (List Nat × List Nat × Bdd)) (r : Nat) : Nat :=
  match rev[r]? with
  | some e => e.1.length + e.2.1.length
  | none => 0

def emu (rev : List (List Nat × List Nat × Bdd)) (s : ExpSt) : Nat :=
  s.que.length + (((List.range rev.length).filter (fun r => !s.visited.contains r)).map (wt rev)).sum

theorem emu_visit {rev : List (List Nat × List Nat × Bdd)} {V l : List Nat} {r : Nat} (hnd : l.Nodup) (hr : r ∈ l) (hv : r ∉ V) :
    ((l.filter (fun c => !(V ++ [r]).contains c)).map (wt rev)).sum + wt rev r = ((l.filter (fun c => !V.contains c)).map (wt rev)).sum := by
  induction l with
  | nil => simp at hr
  | cons a l ih =>
    have hnd' := List.nodup_cons.1 hnd
    by_cases e : a = r
    · subst e
      have : l.filter (fun c => !(V ++ [a]).contains c) = l.filter (fun c => !V.contains c) := by
        apply List.filter_congr
        intro c hc
        have : c ≠ a := by rintro rfl; exact hnd'.1 hc
        simp [this]
      simp only [List.filter_cons, this]
      simp [hv, Nat.add_comm]
    · have hr' : r ∈ l := by
        rcases List.mem_cons.1 hr with h | h
        · exact absurd h.symm e
        · exact h
      have := ih hnd'.2 hr'
      by_cases hav : a ∈ V
      · simp only [List.filter_cons]
        simp only [List.contains_eq_mem, List.mem_append, hav, true_or, decide_true, Bool.not_true, Bool.false_eq_true, if_false]
        simpa using this
      · simp only [List.filter_cons]
        simp only [List.contains_eq_mem, List.mem_append, hav, List.mem_singleton, e, or_false, decide_false, Bool.not_false, if_true,
          List.map_cons, List.sum_cons]
        simp only [List.contains_eq_mem, List.mem_append, List.mem_singleton] at this
        omega

theorem filled_snoc {K : List Bdd} {V : List Nat} {c r : Nat} {bit : Bool} :
    Filled K (V ++ [c]) r bit ↔ Filled K V r bit ∨ ∃ v lo hi, K[r]? = some (Bdd.node v lo hi) ∧ K[c]? = some (if bit then hi else lo) := by
  unfold Filled
  constructor
  · rintro ⟨v, lo, hi, c', h1, h2, h3⟩
    rcases List.mem_append.1 h3 with h3 | h3
    · exact .inl ⟨v, lo, hi, c', h1, h2, h3⟩
    · rw [List.mem_singleton.1 h3] at h2
      exact .inr ⟨v, lo, hi, h1, h2⟩
  · rintro (⟨v, lo, hi, c', h1, h2, h3⟩ | ⟨v, lo, hi, h1, h2⟩)
    · exact ⟨v, lo, hi, c', h1, h2, List.mem_append_left _ h3⟩
    · exact ⟨v, lo, hi, c, h1, h2, List.mem_append_right _ (by simp)⟩

theorem get_inj {K : List Bdd} (hn : K.Nodup) {i j : Nat} {b : Bdd} (hi : K[i]? = some b) (hj : K[j]? = some b) : i = j := by
  rw [← idxOf_of_getElem? hn hi, ← idxOf_of_getElem? hn hj]

theorem expBody_spec {r : RevSt} (hr : RevOk cond K r) (hord : Ord ix n 0 cond) {t : Nat} {s : ExpSt}
    (hI : ∃ L, EInv ix n d K D0 L0 cond t L s) (hc : (!s.que.isEmpty) = true) :
    ∃ s', expBody ix r.reversed s = .ok s' ∧ (∃ L, EInv ix n d K D0 L0 cond t L s') ∧ emu r.reversed s' < emu r.reversed s := by
  obtain ⟨L, hI⟩ := hI
  unfold expBody
  cases hq : s.que with
  | nil => simp [hq] at hc
  | cons it rest =>
    obtain ⟨curRq, curVarIdx, curQ⟩ := it
    dsimp only
    by_cases hv : s.visited.contains curRq = true
    · rw [if_pos hv]
      refine ⟨_, rfl, ⟨L, ?_, ?_, hI.vis, ?_, ?_, hI.alt⟩, ?_⟩
      · exact hI.core.congr (by rfl) (by rfl) (fun _ _ => Iff.rfl)
      · intro it hit; exact hI.que it (by rw [hq]; exact List.mem_cons_of_mem _ hit)
      · intro r' hr' p v lo hi h1 h2
        rcases hI.clo r' hr' p v lo hi h1 h2 with h | h
        · exact .inl h
        · rw [hq] at h
          rcases List.mem_cons.1 h with h | h
          · simp only at h; subst h; exact .inl (by simpa using hv)
          · exact .inr h
      · rcases hI.tt with h | h
        · exact .inl h
        · rw [hq] at h
          rcases List.mem_cons.1 h with h | h
          · simp only at h; subst h; exact .inl (by simpa using hv)
          · exact .inr h
      · simp [emu, hq]
    · rw [if_neg hv]
      have hv' : curRq ∉ s.visited := by simpa using hv
      obtain ⟨b, hb, hsat, hk, hrep⟩ := hI.que (curRq, curVarIdx, curQ) (by rw [hq]; simp)
      simp only at hb hk hrep
      have hbm := List.mem_of_getElem? hb
      have hbo : Ord ix n 0 b := hord.subs (hr.sub b hbm)
      have hX : Rep L n d (lvl ix n b) b curQ := by
        rcases hrep with ⟨rfl, rfl⟩ | h
        · exact .inl ⟨rfl, rfl, rfl⟩
        · obtain ⟨_, v, lo, hi, k, h1, h2, h3⟩ := hI.core.dom _ _ h
          rw [hb] at h1
          cases h1
          obtain ⟨i, g1, _, g3, _⟩ := hbo
          rw [h2] at g1
          cases g1
          exact .inr ⟨by simp [lvl, h2, g3], by simpa [lvl, h2] using h3⟩
      obtain ⟨e, he, heb, nd0, nd1, m0, m1⟩ := hr.get curRq b hb
      have hmu : (((List.range r.reversed.length).filter (fun c => !(s.visited ++ [curRq]).contains c)).map (wt r.reversed)).sum +
          wt r.reversed curRq = (((List.range r.reversed.length).filter (fun c => !s.visited.contains c)).map (wt r.reversed)).sum :=
        emu_visit List.nodup_range (List.mem_range.2 (lt_of_get he)) hv'
      have hwt : wt r.reversed curRq = e.1.length + e.2.1.length := by unfold wt; rw [he]
      -- consequences of having no parents
      have hroot : e.1 = [] → e.2.1 = [] → b = cond := by
        intro h0 h1
        rcases hr.parent b hbm with h | ⟨v, lo, hi, h, h'⟩
        · exact h
        · obtain ⟨j, hj⟩ := List.mem_iff_getElem?.1 h
          rcases h' with h' | h'
          · subst h'
            have := (m0 j).2 ⟨v, hi, hj⟩
            rw [h0] at this; cases this
          · subst h'
            have := (m1 j).2 ⟨v, lo, hj⟩
            rw [h1] at this; cases this
      have hnoparent : b = cond → e.1 = [] ∧ e.2.1 = [] := by
        intro hbc
        constructor
        · apply List.eq_nil_iff_forall_not_mem.2
          intro j hj
          obtain ⟨v, hi, h⟩ := (m0 j).1 hj
          have := parent_size (hr.sub _ (List.mem_of_getElem? h))
          rw [hbc] at this
          simp only [Bdd.node.sizeOf_spec] at this
          omega
        · apply List.eq_nil_iff_forall_not_mem.2
          intro j hj
          obtain ⟨v, lo, h⟩ := (m1 j).1 hj
          have := parent_size (hr.sub _ (List.mem_of_getElem? h))
          rw [hbc] at this
          simp only [Bdd.node.sizeOf_spec] at this
          omega
      have hzero : curVarIdx = 0 → e.1 = [] ∧ e.2.1 = [] := by
        intro h0
        apply hnoparent
        rcases hr.parent b hbm with h | ⟨v, lo, hi, h, h'⟩
        · exact h
        · exfalso
          obtain ⟨i, g1, g2, g3, g4, g5⟩ := hord.subs (hr.sub _ h)
          rcases h' with rfl | rfl
          · have := g4.lvl_ge (by omega); omega
          · have := g5.lvl_ge (by omega); omega
      have hfirst : b = cond → curRq = 0 := fun hbc => get_inj hr.nodup hb (by rw [hbc]; exact hr.first)
      have visOk : ∀ r' ∈ s.visited ++ [curRq], ∃ b, K[r']? = some b ∧ Sat b := by
        intro r' hr'
        rcases List.mem_append.1 hr' with h | h
        · exact hI.vis r' h
        · rw [List.mem_singleton.1 h]; exact ⟨b, hb, hsat⟩
      have ttOk : ∀ q' : List (Nat × Nat × Nat), (∀ x ∈ rest.map (·.1), x ∈ q'.map (·.1)) → t ∈ s.visited ++ [curRq] ∨ t ∈ q'.map (·.1) := by
        intro q' hq'
        rcases hI.tt with h | h
        · exact .inl (List.mem_append_left _ h)
        · rw [hq] at h
          rcases List.mem_cons.1 h with h | h
          · exact .inl (List.mem_append_right _ (by simp [h]))
          · exact .inr (hq' _ h)
      have cloOk : ∀ q' : List (Nat × Nat × Nat), (∀ x ∈ rest.map (·.1), x ∈ q'.map (·.1)) →
          (∀ x ∈ e.1, x ∈ q'.map (·.1)) → (∀ x ∈ e.2.1, x ∈ q'.map (·.1)) →
          ∀ r' ∈ s.visited ++ [curRq], ∀ p v lo hi, K[p]? = some (Bdd.node v lo hi) → (K[r']? = some lo ∨ K[r']? = some hi) →
            p ∈ s.visited ++ [curRq] ∨ p ∈ q'.map (·.1) := by
        intro q' hq' hp0 hp1 r' hr' p v lo hi h1 h2
        rcases List.mem_append.1 hr' with h | h
        · rcases hI.clo r' h p v lo hi h1 h2 with h | h
          · exact .inl (List.mem_append_left _ h)
          · rw [hq] at h
            rcases List.mem_cons.1 h with h | h
            · exact .inl (List.mem_append_right _ (by simp [h]))
            · exact .inr (hq' _ h)
        · rw [List.mem_singleton.1 h, hb] at h2
          rcases h2 with h2 | h2
          · cases h2; exact .inr (hp0 p ((m0 p).2 ⟨v, hi, h1⟩))
          · cases h2; exact .inr (hp1 p ((m1 p).2 ⟨v, lo, h1⟩))
      -- the edges that become filled by this visit
      have hfill : ∀ r' bit, Filled K (s.visited ++ [curRq]) r' bit ↔ Filled K s.visited r' bit ∨
          (r' ∈ (if bit then e.2.1 else e.1)) := by
        intro r' bit
        rw [filled_snoc]
        apply or_congr Iff.rfl
        cases bit
        · simp only [Bool.false_eq_true, if_false]
          rw [m0]
          constructor
          · rintro ⟨v, lo, hi, h1, h2⟩
            rw [hb] at h2; cases h2
            exact ⟨v, hi, h1⟩
          · rintro ⟨v, hi, h1⟩
            exact ⟨v, b, hi, h1, hb⟩
        · simp only [if_true]
          rw [m1]
          constructor
          · rintro ⟨v, lo, hi, h1, h2⟩
            rw [hb] at h2; cases h2
            exact ⟨v, lo, h1⟩
          · rintro ⟨v, lo, h1⟩
            exact ⟨v, lo, b, h1, hb⟩
      unfold expNode
      rw [vat_eq_ok.2 he, Res.bind_ok]
      by_cases h0 : curVarIdx = 0
      · rw [if_pos h0]
        obtain ⟨e0, e1⟩ := hzero h0
        have hbc := hroot e0 e1
        have hcur := hfirst hbc
        have halt : s.srcAlt = none := hI.alt.2 (by rw [← hcur]; exact hv')
        rw [e0, e1, halt]
        refine ⟨{ s with que := rest, visited := s.visited ++ [curRq], srcAlt := some curQ }, rfl, ⟨L, ?_, ?_, ?_, ?_, ?_, ?_, ?_⟩, ?_⟩
        · refine hI.core.congr (by rfl) (by rfl) (fun r' bit => ?_)
          rw [hfill, e0, e1]
          simp
        · intro it hit; exact hI.que it (by rw [hq]; exact List.mem_cons_of_mem _ hit)
        · exact visOk
        · exact cloOk rest (fun _ h => h) (by rw [e0]; simp) (by rw [e1]; simp)
        · exact ttOk rest (fun _ h => h)
        · intro _
          refine ⟨curQ, rfl, ?_⟩
          rw [← hbc]
          rw [hk] at h0
          rw [← h0]; exact hX
        · intro h; exact absurd (List.mem_append_right _ (by simp [hcur])) h
        · simp only [emu, hq, List.length_cons]
          omega
      · rw [if_neg h0]
        by_cases hemp : (e.1.isEmpty && e.2.1.isEmpty) = true
        · rw [if_pos hemp]
          obtain ⟨e0, e1⟩ : e.1 = [] ∧ e.2.1 = [] := by simpa using hemp
          have hbc := hroot e0 e1
          have hcur := hfirst hbc
          have halt : s.srcAlt = none := hI.alt.2 (by rw [← hcur]; exact hv')
          obtain ⟨L', p1, c1, x1⟩ := Core.chain (k := 0) hsat curVarIdx hI.core (x := curQ) (by rw [Nat.zero_add, hk]; exact hX)
            (by omega) (by rw [Nat.zero_add, hk]; exact hbo.at_lvl)
          rw [halt]
          refine ⟨{ s with delta := (Ltl.chain s.delta curQ curVarIdx).1, que := rest, visited := s.visited ++ [curRq],
                           srcAlt := some (Ltl.chain s.delta curQ curVarIdx).2 }, rfl, ⟨L', ?_, ?_, ?_, ?_, ?_, ?_, ?_⟩, ?_⟩
          · refine c1.congr (by rfl) (by rfl) (fun r' bit => ?_)
            rw [hfill, e0, e1]
            simp
          · intro it hit; exact hI.que it (by rw [hq]; exact List.mem_cons_of_mem _ hit)
          · exact visOk
          · exact cloOk rest (fun _ h => h) (by rw [e0]; simp) (by rw [e1]; simp)
          · exact ttOk rest (fun _ h => h)
          · intro _
            refine ⟨_, rfl, ?_⟩
            rw [← hbc]; exact x1
          · intro h; exact absurd (List.mem_append_right _ (by simp [hcur])) h
          · simp only [emu, hq, List.length_cons]
            omega
        · rw [if_neg hemp, hk]
          have hne : b ≠ cond := by
            intro h
            obtain ⟨e0, e1⟩ := hnoparent h
            exact hemp (by rw [e0, e1]; rfl)
          have hcur : curRq ≠ 0 := by
            intro h
            rw [h, hr.first] at hb
            cases hb
            exact hne rfl
          have hnf : ∀ p bit, p ∈ (if bit then e.2.1 else e.1) → ¬ Filled K s.visited p bit := by
            rintro p bit hp ⟨v, lo, hi, c, h1, h2, h3⟩
            have : K[c]? = some b := by
              cases bit
              · obtain ⟨v', hi', h⟩ := (m0 p).1 (by simpa using hp)
                rw [h1] at h; cases h; simpa using h2
              · obtain ⟨v', lo', h⟩ := (m1 p).1 (by simpa using hp)
                rw [h1] at h; cases h; simpa using h2
            rw [get_inj hr.nodup this hb] at h3
            exact hv' h3
          have core0 : Core ix n d K D0 L0 (Filled K s.visited) L { s with que := rest, visited := s.visited ++ [curRq] } := by
            refine hI.core.congr ?_ ?_ (fun _ _ => Iff.rfl)
            · rfl
            · rfl
          obtain ⟨s1, L1, a1, a2, a3, a4, a5, a6, a7, a8⟩ := parents_spec (bit := false) (c := b) (ps := e.1) (curQ := curQ) hr hord core0
            (fun it hit => hI.que it (by rw [hq]; exact List.mem_cons_of_mem _ hit)) nd0
            (fun p hp => by
              obtain ⟨v, hi, h⟩ := (m0 p).1 hp
              exact ⟨v, b, hi, h, by simp⟩) hsat hX (fun p hp => hnf p false (by simpa using hp))
          obtain ⟨s2, L2, b1, b2, b3, b4, b5, b6, b7, b8⟩ := parents_spec (bit := true) (c := b) (ps := e.2.1) (curQ := curQ) hr hord a3 a4 nd1
            (fun p hp => by
              obtain ⟨v, lo, h⟩ := (m1 p).1 hp
              exact ⟨v, lo, b, h, by simp⟩) hsat (hX.mono a2) (fun p hp hf => by
                rcases hf with hf | hf
                · exact hnf p true (by simpa using hp) hf
                · cases hf.2)
          rw [a1, Res.bind_ok]
          have hvis : s2.visited = s.visited ++ [curRq] := b6.trans a6
          have hque : s2.que.map (·.1) = rest.map (·.1) ++ e.1 ++ e.2.1 := by rw [b8, a8]
          refine ⟨s2, b1, ⟨L2, ?_, b4, ?_, ?_, ?_, ?_, ?_⟩, ?_⟩
          · refine b3.congr (by rfl) (by rfl) (fun r' bit => ?_)
            rw [hvis, hfill]
            cases bit
            · simp
            · simp
          · rw [hvis]; exact visOk
          · rw [hvis]
            exact cloOk s2.que (fun x h => by rw [hque]; simp only [List.mem_append]; exact .inl (.inl h))
              (fun x h => by rw [hque]; simp only [List.mem_append]; exact .inl (.inr h))
              (fun x h => by rw [hque]; simp only [List.mem_append]; exact .inr h)
          · rw [hvis]
            exact ttOk s2.que (fun x h => by rw [hque]; simp only [List.mem_append]; exact .inl (.inl h))
          · intro h
            rw [hvis] at h
            have h : 0 ∈ s.visited := by
              rcases List.mem_append.1 h with h | h
              · exact h
              · exact absurd (List.mem_singleton.1 h).symm hcur
            obtain ⟨x, h1, h2⟩ := hI.alt.1 h
            exact ⟨x, by rw [b7, a7]; exact h1, (h2.mono a2).mono b2⟩
          · intro h
            rw [hvis] at h
            rw [b7, a7]
            exact hI.alt.2 (fun h' => h (List.mem_append_left _ h'))
          · have hl : s2.que.length = rest.length + e.1.length + e.2.1.length := by
              have := congrArg List.length hque
              simpa [Nat.add_assoc] using this
            simp only [emu, hq, List.length_cons, hvis, hl]
            omega

end Homfa.Ltl
