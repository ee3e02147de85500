import Verif.Proof.CliInv

/-! # The registered tables say what the manual says -/

namespace Homfa.Cli

/-- the manual entry of a table -/
def usageOf (d : SubDecl) : Usage where
  required := (d.opts.filter (·.required)).map fun o => (o.name, kindOf o)
  optional := (d.opts.filter (!·.required)).map fun o => (o.name, kindOf o)
  flags := d.flags.map (·.1)
  requiredArgs := (d.poss.filter (·.required)).map kindOf
  optionalArgs := (d.poss.filter (!·.required)).map kindOf

theorem mem_usage {d : SubDecl} {n : String} {k : Kind} :
    (n, k) ∈ (usageOf d).required ++ (usageOf d).optional ↔ ∃ o ∈ d.opts, o.name = n ∧ kindOf o = k := by
  simp only [usageOf, List.mem_append, List.mem_map, List.mem_filter, Prod.mk.injEq]
  constructor
  · rintro (⟨o, ⟨h1, _⟩, h2⟩ | ⟨o, ⟨h1, _⟩, h2⟩) <;> exact ⟨o, h1, h2⟩
  · rintro ⟨o, h1, h2⟩
    cases hr : o.required with
    | true => exact .inl ⟨o, ⟨h1, hr⟩, h2⟩
    | false => exact .inr ⟨o, ⟨h1, by rw [hr]; rfl⟩, h2⟩

/-- required positional arguments come first -/
def PossSorted (d : SubDecl) : Prop := d.poss = d.poss.filter (·.required) ++ d.poss.filter (!·.required)

theorem args_kinds {d : SubDecl} (h : PossSorted d) : (usageOf d).requiredArgs ++ (usageOf d).optionalArgs = d.poss.map kindOf := by
  unfold PossSorted at h
  conv_rhs => rw [h]
  simp [usageOf]

theorem follows_iff {d : SubDecl} (hs : PossSorted d) (ex : String → Bool) (items : List Item) :
    (usageOf d).Follows ex items ↔ Fits ex d items ∧ Complete d items := by
  have hk := args_kinds hs
  have hlen : ((usageOf d).requiredArgs ++ (usageOf d).optionalArgs).length = d.poss.length := by rw [hk, List.length_map]
  have hreq : (usageOf d).requiredArgs.length ≤ (args items).length ↔
      ∀ (i : Nat) (o : OptDecl), d.poss[i]? = some o → o.required = true → i < (args items).length := by
    have hl : (usageOf d).requiredArgs.length = (d.poss.filter (·.required)).length := by simp [usageOf]
    rw [hl]
    unfold PossSorted at hs
    constructor
    · intro h i o hi hr
      by_contra hc
      rw [hs, List.getElem?_append, if_neg (by omega)] at hi
      have := List.mem_of_getElem? hi
      rw [List.mem_filter] at this
      rw [hr] at this
      simp at this
    · intro h
      by_contra hc
      have hlt : (args items).length < (d.poss.filter (·.required)).length := by omega
      have hi : d.poss[(args items).length]? = some (d.poss.filter (·.required))[(args items).length] := by
        conv_lhs => rw [hs]
        rw [List.getElem?_append, if_pos hlt, List.getElem?_eq_getElem hlt]
      have hr : ((d.poss.filter (·.required))[(args items).length]).required = true :=
        (List.mem_filter.1 (List.getElem_mem hlt)).2
      exact absurd (h _ _ hi hr) (by omega)
  constructor
  · intro h
    refine ⟨⟨?_, h.once, ?_, hlen ▸ h.notMore, ?_⟩, ?_, hreq.1 h.enough⟩
    · intro n v hm
      obtain ⟨k, h1, h2⟩ := h.known n v hm
      obtain ⟨o, ho, e1, e2⟩ := mem_usage.1 h1
      exact ⟨o, ho, e1, e2 ▸ h2⟩
    · intro n hm
      obtain ⟨q, h1, h2⟩ := List.mem_map.1 (h.flags n hm)
      exact ⟨q.2, by rw [← h2]; exact h1⟩
    · intro i v o hi ho
      exact h.kinds i v (kindOf o) hi (by rw [hk, List.getElem?_map, ho]; rfl)
    · intro o ho hr
      obtain ⟨v, hv⟩ := h.all o.name (kindOf o) (List.mem_map.2 ⟨o, List.mem_filter.2 ⟨ho, hr⟩, rfl⟩)
      exact mem_optNames.2 ⟨v, hv⟩
  · rintro ⟨hf, hc⟩
    refine ⟨?_, hf.once, ?_, ?_, hreq.2 hc.poss, hlen ▸ hf.notMore, ?_⟩
    · intro n v hm
      obtain ⟨o, ho, e1, e2⟩ := hf.known n v hm
      exact ⟨kindOf o, mem_usage.2 ⟨o, ho, e1, rfl⟩, e2⟩
    · intro n k hm
      obtain ⟨o, ho, e⟩ := List.mem_map.1 hm
      obtain ⟨h1, h2⟩ := List.mem_filter.1 ho
      cases e
      exact mem_optNames.1 (hc.opts o h1 h2)
    · intro n hm
      obtain ⟨f, h1⟩ := hf.flags n hm
      exact List.mem_map.2 ⟨(n, f), h1, rfl⟩
    · intro i v k hi hk2
      rw [hk, List.getElem?_map] at hk2
      obtain ⟨o, ho, rfl⟩ := Option.map_eq_some_iff.1 hk2
      exact hf.kinds i v o hi ho

/-- parsing a subcommand, in terms of the manual -/
theorem parseSub_usage {ex : String → Bool} {d : SubDecl} (hd : d.wf = true) (hs : PossSorted d) (toks : List String) :
    (∀ a, parseSub ex d toks = some a → ∃ items s a0, toks = line items ∧ (usageOf d).Follows ex items ∧ Inv ex d items s a0 ∧
      a = { a0 with type := d.type }) ∧
    (∀ items, toks = line items → (usageOf d).Follows ex items → ∃ s a0, Inv ex d items s a0 ∧
      parseSub ex d toks = some { a0 with type := d.type }) := by
  obtain ⟨h1, h2⟩ := parseSub_iff (ex := ex) (SubDecl.wf_iff hd) toks
  constructor
  · intro a ha
    obtain ⟨items, s, a0, e1, e2, e3, e4⟩ := h1 a ha
    exact ⟨items, s, a0, e1, (follows_iff hs ex items).2 ⟨e3.fits, e2⟩, e3, e4⟩
  · intro items e hf
    obtain ⟨k1, k2⟩ := (follows_iff hs ex items).1 hf
    exact h2 items e k1 k2

/-- a required option has a value -/
theorem Usage.Follows.get {u : Usage} {ex : String → Bool} {items : List Item} (h : u.Follows ex items) {n : String} {k : Kind}
    (hm : (n, k) ∈ u.required) : opt? items n = some (opt items n) := by
  unfold opt
  cases ho : opt? items n with
  | none =>
    obtain ⟨v, hv⟩ := h.all n k hm
    exact absurd (mem_optNames.2 ⟨v, hv⟩) (opt?_none.1 ho)
  | some v => rfl

theorem Usage.Follows.arg {u : Usage} {ex : String → Bool} {items : List Item} (h : u.Follows ex items) {i : Nat}
    (hi : i < u.requiredArgs.length) : (args items)[i]? = some ((args items)[i]?.getD "") := by
  have := h.enough
  rw [List.getElem?_eq_getElem (by omega)]
  rfl

theorem opt?_mem {items : List Item} {n v : String} (h : opt? items n = some v) : .opt n v ∈ items := by
  unfold opt? at h
  obtain ⟨i, hi, e⟩ := List.exists_of_findSome?_eq_some h
  cases i with
  | opt m w =>
    simp only [Option.ite_none_right_eq_some, Option.some.injEq] at e
    rw [← e.1, ← e.2]
    exact hi
  | flag m => simp at e
  | arg m => simp at e

/-- the table of a command -/
def Cmd.decl : Cmd → SubDecl
  | .genkey => Cli.genkey
  | .genbkey => Cli.genbkey
  | .enc => Cli.enc
  | .dec => Cli.dec
  | .runOffline => Cli.runOffline
  | .runReverse => Cli.runReverse
  | .runBlock => Cli.runBlock
  | .runFlut => Cli.runFlut
  | .runPlain => Cli.runPlain
  | .ltl2spec => Cli.ltl2spec
  | .spec2spec => Cli.spec2spec
  | .spec2dot => Cli.spec2dot
  | .spec2att => Cli.spec2att
  | .att2spec => Cli.att2spec

theorem Cmd.decl_wf (c : Cmd) : c.decl.wf = true ∧ PossSorted c.decl ∧ usageOf c.decl = c.usage := by
  cases c <;> (refine ⟨by decide, by unfold PossSorted; decide, by rfl⟩)

def BenchCmd.decl : BenchCmd → SubDecl
  | .plain => bPlain
  | .offline => bOffline
  | .reversed => bReversed
  | .qtrlwe2 => bFlut
  | .bbs => bBlock

theorem BenchCmd.decl_wf (c : BenchCmd) : c.decl.wf = true ∧ PossSorted c.decl ∧ usageOf c.decl = c.usage := by
  cases c <;> (refine ⟨by decide, by unfold PossSorted; decide, by rfl⟩)

end Homfa.Cli
