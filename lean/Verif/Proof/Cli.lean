import Verif.Spec.Cli
import Verif.Proof.Cpp
import Mathlib.Data.List.Nodup

/-! # Lemmas about the command line parser -/

namespace Homfa.Cli

/-! ## Parsing words is folding items -/

def setFlag (a : Args) (f : FlagField) : Args := { a with flag := fun g => if g = f then true else a.flag g }

def stepItem (ex : String → Bool) (d : SubDecl) (s : List OptDecl × Args) : Item → Option (List OptDecl × Args)
  | .flag n => match d.flags.lookup n with
    | some f => some (s.1, setFlag s.2 f)
    | none => none
  | .opt n v => match d.opts.find? (fun o => o.name == n) with
    | some o => if isOption v || s.1.contains o then none else
      match o.store ex v s.2 with
      | some a => some (o :: s.1, a)
      | none => none
    | none => none
  | .arg v => if isOption v then none else match d.poss.find? (fun o => !s.1.contains o) with
    | some o => match o.store ex v s.2 with
      | some a => some (o :: s.1, a)
      | none => none
    | none => none

/-- The tables make sense. -/
def SubDecl.wf (d : SubDecl) : Bool :=
  decide (d.opts.map (·.name)).Nodup && decide ((d.opts ++ d.poss).map (·.dest)).Nodup &&
  d.opts.all (fun o => isOption o.name) && d.flags.all (fun p => isOption p.1) &&
  d.flags.all (fun p => d.opts.all fun o => decide (p.1 ≠ o.name)) && decide (d.flags.map (·.1)).Nodup &&
  decide (d.flags.map (·.2)).Nodup &&
  (d.opts ++ d.poss).all (fun o => match o.dest with
    | .str _ => decide (o.check ≠ .positive)
    | .num _ => decide (o.check ≠ .existing))

structure SubDecl.Wf (d : SubDecl) : Prop where
  names : (d.opts.map (·.name)).Nodup
  dests : ((d.opts ++ d.poss).map (·.dest)).Nodup
  optDash : ∀ o ∈ d.opts, isOption o.name = true
  flagDash : ∀ p ∈ d.flags, isOption p.1 = true
  disj : ∀ p ∈ d.flags, ∀ o ∈ d.opts, p.1 ≠ o.name
  flagNames : (d.flags.map (·.1)).Nodup
  flagFields : (d.flags.map (·.2)).Nodup
  checkStr : ∀ o ∈ d.opts ++ d.poss, ∀ f, o.dest = .str f → o.check ≠ .positive
  checkNum : ∀ o ∈ d.opts ++ d.poss, ∀ f, o.dest = .num f → o.check ≠ .existing

theorem SubDecl.wf_iff {d : SubDecl} (h : d.wf = true) : d.Wf := by
  unfold SubDecl.wf at h
  simp only [Bool.and_eq_true, decide_eq_true_iff, List.all_eq_true] at h
  obtain ⟨⟨⟨⟨⟨⟨⟨h1, h2⟩, h3⟩, h4⟩, h5⟩, h6⟩, h7⟩, h8⟩ := h
  refine ⟨h1, h2, h3, h4, h5, h6, h7, fun o ho f hf => ?_, fun o ho f hf => ?_⟩
  · have := h8 o ho; rw [hf] at this; simpa using this
  · have := h8 o ho; rw [hf] at this; simpa using this

theorem lookup_mem {l : List (String × FlagField)} {n : String} {f : FlagField} (h : l.lookup n = some f) : (n, f) ∈ l := by
  induction l with
  | nil => simp at h
  | cons p l ih =>
    rw [List.lookup_cons] at h
    split at h
    · rename_i e
      have := eq_of_beq e
      cases h
      rw [this]
      simp
    · exact List.mem_cons_of_mem _ (ih h)

theorem mem_lookup {l : List (String × FlagField)} (hn : (l.map (·.1)).Nodup) {n : String} {f : FlagField} (h : (n, f) ∈ l) :
    l.lookup n = some f := by
  induction l with
  | nil => simp at h
  | cons p l ih =>
    rw [List.map_cons, List.nodup_cons] at hn
    rw [List.lookup_cons]
    rcases List.mem_cons.1 h with e | e
    · rw [← e]; simp
    · have hne : (n == p.1) = false := by
        rw [beq_eq_false_iff_ne]
        intro e2
        exact hn.1 (by rw [← e2]; exact List.mem_map.2 ⟨(n, f), e, rfl⟩)
      rw [hne]
      exact ih hn.2 e

theorem find_name {l : List OptDecl} {n : String} {o : OptDecl} (h : l.find? (fun o => o.name == n) = some o) : o ∈ l ∧ o.name = n :=
  ⟨List.mem_of_find?_eq_some h, eq_of_beq (by simpa using List.find?_some h)⟩

theorem name_find {l : List OptDecl} (hn : (l.map (·.name)).Nodup) {o : OptDecl} (h : o ∈ l) :
    l.find? (fun x => x.name == o.name) = some o := by
  induction l with
  | nil => simp at h
  | cons p l ih =>
    rw [List.map_cons, List.nodup_cons] at hn
    rw [List.find?_cons]
    rcases List.mem_cons.1 h with e | e
    · rw [e]; simp
    · have hne : (p.name == o.name) = false := by
        rw [beq_eq_false_iff_ne]
        intro e2
        exact hn.1 (by rw [e2]; exact List.mem_map.2 ⟨o, e, rfl⟩)
      rw [hne]
      exact ih hn.2 e

theorem parse_cons (ex : String → Bool) (d : SubDecl) (t : String) (toks : List String) (s : List OptDecl) (a : Args) :
    parseToks ex d (t :: toks) s a =
      if isOption t then match d.flags.lookup t with
        | some f => parseToks ex d toks s (setFlag a f)
        | none => match toks with
          | [] => none
          | v :: rest => match d.opts.find? (fun o => o.name == t) with
            | some o => if isOption v || s.contains o then none else
              match o.store ex v a with
              | some a => parseToks ex d rest (o :: s) a
              | none => none
            | none => none
      else match d.poss.find? (fun o => !s.contains o) with
        | some o => match o.store ex t a with
          | some a => parseToks ex d toks (o :: s) a
          | none => none
        | none => none := by
  cases toks with
  | nil =>
    rw [parseToks]
    split
    · split <;> rename_i e <;> rw [e] <;> simp [parseToks, setFlag]
    · split <;> rename_i e <;> rw [e]
      dsimp only
      rename_i o
      cases o.store ex t a <;> simp [parseToks]
  | cons v rest => rw [parseToks]; rfl

theorem parseToks_sound {ex : String → Bool} {d : SubDecl} (k : Nat) : ∀ {toks : List String} {s : List OptDecl} {a : Args}
    {r : List OptDecl × Args}, toks.length ≤ k → parseToks ex d toks s a = some r →
      ∃ items, toks = line items ∧ items.foldlM (stepItem ex d) (s, a) = some r := by
  induction k with
  | zero =>
    intro toks s a r hk h
    have : toks = [] := List.length_eq_zero_iff.1 (by omega)
    subst this
    rw [parseToks] at h
    exact ⟨[], rfl, h⟩
  | succ k ih =>
    intro toks s a r hk h
    cases toks with
    | nil => rw [parseToks] at h; exact ⟨[], rfl, h⟩
    | cons t toks =>
      rw [List.length_cons] at hk
      rw [parse_cons] at h
      by_cases ho : isOption t = true
      · rw [if_pos ho] at h
        cases hf : d.flags.lookup t with
        | some f =>
          rw [hf] at h
          obtain ⟨items, e1, e2⟩ := ih (by omega) h
          refine ⟨.flag t :: items, by rw [e1]; rfl, ?_⟩
          rw [List.foldlM_cons]
          simp only [stepItem, hf]
          exact e2
        | none =>
          rw [hf] at h
          cases toks with
          | nil => simp at h
          | cons v rest =>
            dsimp only at h
            rw [List.length_cons] at hk
            cases hd : d.opts.find? (fun o => o.name == t) with
            | none => rw [hd] at h; simp at h
            | some o =>
              rw [hd] at h
              dsimp only at h
              split at h
              · simp at h
              · rename_i hc
                cases hst : o.store ex v a with
                | none => rw [hst] at h; simp at h
                | some a' =>
                  rw [hst] at h
                  obtain ⟨items, e1, e2⟩ := ih (by omega) h
                  refine ⟨.opt t v :: items, by rw [e1]; rfl, ?_⟩
                  rw [List.foldlM_cons]
                  simp only [stepItem, hd, if_neg hc, hst]
                  exact e2
      · rw [if_neg ho] at h
        cases hd : d.poss.find? (fun o => !s.contains o) with
        | none => rw [hd] at h; simp at h
        | some o =>
          rw [hd] at h
          dsimp only at h
          cases hst : o.store ex t a with
          | none => rw [hst] at h; simp at h
          | some a' =>
            rw [hst] at h
            obtain ⟨items, e1, e2⟩ := ih (by omega) h
            refine ⟨.arg t :: items, by rw [e1]; rfl, ?_⟩
            rw [List.foldlM_cons]
            simp only [stepItem, hd, if_neg ho, hst]
            exact e2

theorem parseToks_complete {ex : String → Bool} {d : SubDecl} (hd : d.Wf) : ∀ {items : List Item} {s : List OptDecl} {a : Args}
    {r : List OptDecl × Args}, items.foldlM (stepItem ex d) (s, a) = some r → parseToks ex d (line items) s a = some r := by
  intro items
  induction items with
  | nil =>
    intro s a r h
    show parseToks ex d [] s a = _
    rw [parseToks]
    exact h
  | cons i items ih =>
    intro s a r h
    rw [List.foldlM_cons, Option.bind_eq_bind, Option.bind_eq_some_iff] at h
    obtain ⟨s', h1, h2⟩ := h
    cases i with
    | flag n =>
      show parseToks ex d (n :: line items) s a = _
      rw [parse_cons]
      rw [stepItem] at h1
      cases hf : d.flags.lookup n with
      | none => rw [hf] at h1; simp at h1
      | some f =>
        rw [hf] at h1
        rw [if_pos (hd.flagDash _ (lookup_mem hf))]
        cases h1
        exact ih h2
    | opt n v =>
      show parseToks ex d (n :: v :: line items) s a = _
      rw [parse_cons]
      rw [stepItem] at h1
      cases ho : d.opts.find? (fun o => o.name == n) with
      | none => rw [ho] at h1; simp at h1
      | some o =>
        rw [ho] at h1
        dsimp only at h1
        obtain ⟨m1, m2⟩ := find_name ho
        have hn : d.flags.lookup n = none := by
          cases hf : d.flags.lookup n with
          | none => rfl
          | some f => exact absurd m2.symm (hd.disj _ (lookup_mem hf) o m1)
        rw [if_pos (m2 ▸ hd.optDash o m1), hn]
        dsimp only
        split at h1
        · simp at h1
        · rename_i hc
          rw [if_neg hc]
          cases hst : o.store ex v a with
          | none => rw [hst] at h1; simp at h1
          | some a' => rw [hst] at h1; cases h1; exact ih h2
    | arg v =>
      show parseToks ex d (v :: line items) s a = _
      rw [parse_cons]
      rw [stepItem] at h1
      split at h1
      · simp at h1
      · rename_i hv
        rw [if_neg hv]
        cases ho : d.poss.find? (fun o => !s.contains o) with
        | none => rw [ho] at h1; simp at h1
        | some o =>
          rw [ho] at h1
          dsimp only at h1 ⊢
          cases hst : o.store ex v a with
          | none => rw [hst] at h1; simp at h1
          | some a' => rw [hst] at h1; cases h1; exact ih h2

end Homfa.Cli
