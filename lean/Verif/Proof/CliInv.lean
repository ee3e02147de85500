import Verif.Proof.Cli

/-! # What the parser has stored after some items -/

namespace Homfa.Cli

def kindOf (o : OptDecl) : Kind := match o.dest, o.check with
  | .str _, .existing => .file
  | .str _, _ => .text
  | .num _, .positive => .positive
  | .num _, _ => .number

/-- the number a word stands for -/
def natOf (v : String) : Nat := Nat.ofDigitChars 10 v.toList 0

def setArg (a : Args) (o : OptDecl) (v : String) : Args := match o.dest with
  | .str f => { a with str := fun g => if g = f then some v else a.str g }
  | .num f => { a with num := fun g => if g = f then some (natOf v) else a.num g }

theorem isOption_iff (v : String) : isOption v = false ↔ (v.toList.head? = some '-' → v = "-") := by
  unfold isOption
  constructor
  · intro h hd
    apply String.toList_inj.1
    cases hv : v.toList with
    | nil => rw [hv] at hd; simp at hd
    | cons c cs =>
      rw [hv] at hd h
      cases hd
      cases cs with
      | nil => rfl
      | cons c' cs => simp at h
  · intro h
    split
    · rename_i c cs hv
      have := h (by rw [hv]; rfl)
      rw [this] at hv
      exact absurd hv (by simp)
    · rfl

theorem toSize_iff (v : String) (k : Nat) : toSize v = some k ↔ IsNumber v k := by
  unfold toSize IsNumber
  dsimp only
  constructor
  · intro h
    split at h
    · rename_i hc; cases h; exact hc
    · simp at h
  · rintro ⟨h1, h2⟩
    have hk : Nat.ofDigitChars 10 v.toList 0 = k := by rw [h1]; exact Nat.ofDigitChars_ten_toDigits
    rw [hk, if_pos ⟨h1, h2⟩]

theorem natOf_eq {v : String} {k : Nat} (h : IsNumber v k) : natOf v = k := by
  unfold natOf; rw [h.1]; exact Nat.ofDigitChars_ten_toDigits

theorem store_iff {d : SubDecl} (hd : d.Wf) {ex : String → Bool} {o : OptDecl} (ho : o ∈ d.opts ++ d.poss) {v : String}
    (hv : isOption v = false) (a a' : Args) : o.store ex v a = some a' ↔ (kindOf o).Ok ex v ∧ a' = setArg a o v := by
  have hv' := (isOption_iff v).1 hv
  have h1 := hd.checkStr o ho
  have h2 := hd.checkNum o ho
  obtain ⟨name, dest, req, chk⟩ := o
  cases dest with
  | str f =>
    have h1 := h1 f rfl
    cases chk with
    | positive => exact absurd rfl h1
    | any =>
      constructor
      · intro h; simp [OptDecl.store] at h; exact ⟨⟨hv', trivial⟩, h.symm⟩
      · rintro ⟨_, rfl⟩; simp [OptDecl.store, setArg]
    | existing =>
      cases hx : ex v with
      | true =>
        constructor
        · intro h; simp [OptDecl.store, hx] at h; exact ⟨⟨hv', hx⟩, h.symm⟩
        · rintro ⟨_, rfl⟩; simp [OptDecl.store, setArg, hx]
      | false => simp [OptDecl.store, kindOf, Kind.Ok, setArg, hx]
  | num f =>
    have h2 := h2 f rfl
    cases chk with
    | existing => exact absurd rfl h2
    | any =>
      simp only [OptDecl.store, kindOf, Kind.Ok, setArg]
      cases hs : toSize v with
      | none =>
        constructor
        · intro h; simp at h
        · rintro ⟨⟨_, m, hm⟩, _⟩
          rw [(toSize_iff v m).2 hm] at hs; simp at hs
      | some k =>
        have hk := (toSize_iff v k).1 hs
        rw [natOf_eq hk]
        constructor
        · intro h; simp at h; exact ⟨⟨hv', k, hk⟩, h.symm⟩
        · rintro ⟨_, rfl⟩; simp
    | positive =>
      simp only [OptDecl.store, kindOf, Kind.Ok, setArg]
      cases hs : toSize v with
      | none =>
        constructor
        · intro h; simp at h
        · rintro ⟨⟨_, m, hm, _⟩, _⟩
          rw [(toSize_iff v m).2 hm] at hs; simp at hs
      | some k =>
        have hk := (toSize_iff v k).1 hs
        rw [natOf_eq hk]
        by_cases h0 : k = 0
        · subst h0
          constructor
          · intro h; simp at h
          · rintro ⟨⟨_, m, hm, hp⟩, _⟩
            rw [(toSize_iff v m).2 hm] at hs; cases hs; exact absurd hp (by omega)
        · constructor
          · intro h; simp [h0] at h; exact ⟨⟨hv', k, hk, by omega⟩, h.symm⟩
          · rintro ⟨_, rfl⟩; simp [h0]

/-! ## Lists of items -/

theorem optNames_append (p q : List Item) : optNames (p ++ q) = optNames p ++ optNames q := List.filterMap_append ..
theorem args_append (p q : List Item) : args (p ++ q) = args p ++ args q := List.filterMap_append ..

theorem mem_optNames {p : List Item} {n : String} : n ∈ optNames p ↔ ∃ v, Item.opt n v ∈ p := by
  unfold optNames
  rw [List.mem_filterMap]
  constructor
  · rintro ⟨i, hi, h⟩
    cases i with
    | opt m v => cases h; exact ⟨v, hi⟩
    | flag m => simp at h
    | arg m => simp at h
  · rintro ⟨v, hv⟩
    exact ⟨_, hv, rfl⟩

theorem opt?_append (p q : List Item) (n : String) : opt? (p ++ q) n = (opt? p n).or (opt? q n) := by
  unfold opt?
  rw [List.findSome?_append]

theorem opt?_none {p : List Item} {n : String} : opt? p n = none ↔ n ∉ optNames p := by
  rw [mem_optNames]
  unfold opt?
  rw [List.findSome?_eq_none_iff]
  constructor
  · rintro h ⟨v, hv⟩
    have := h _ hv
    simp at this
  · intro h i hi
    cases i with
    | opt m v =>
      have : m ≠ n := fun e => h ⟨v, e ▸ hi⟩
      simp [this]
    | flag m => rfl
    | arg m => rfl

/-! ## The invariant -/

structure Inv (ex : String → Bool) (d : SubDecl) (p : List Item) (s : List OptDecl) (a : Args) : Prop where
  known : ∀ n v, .opt n v ∈ p → ∃ o ∈ d.opts, o.name = n ∧ (kindOf o).Ok ex v
  once : (optNames p).Nodup
  flags : ∀ n, .flag n ∈ p → ∃ f, (n, f) ∈ d.flags
  notMore : (args p).length ≤ d.poss.length
  kinds : ∀ (i : Nat) (v : String) (o : OptDecl), (args p)[i]? = some v → d.poss[i]? = some o → (kindOf o).Ok ex v
  seenOpt : ∀ o ∈ d.opts, o ∈ s ↔ o.name ∈ optNames p
  seenPos : ∀ (i : Nat) (o : OptDecl), d.poss[i]? = some o → (o ∈ s ↔ i < (args p).length)
  type : a.type = .unspecified
  strOpt : ∀ o ∈ d.opts, ∀ f, o.dest = .str f → a.str f = opt? p o.name
  numOpt : ∀ o ∈ d.opts, ∀ f, o.dest = .num f → a.num f = (opt? p o.name).map natOf
  strPos : ∀ (i : Nat) (o : OptDecl), d.poss[i]? = some o → ∀ f, o.dest = .str f → a.str f = (args p)[i]?
  numPos : ∀ (i : Nat) (o : OptDecl), d.poss[i]? = some o → ∀ f, o.dest = .num f → a.num f = ((args p)[i]?).map natOf
  strNone : ∀ f, (∀ o ∈ d.opts ++ d.poss, o.dest ≠ .str f) → a.str f = none
  numNone : ∀ f, (∀ o ∈ d.opts ++ d.poss, o.dest ≠ .num f) → a.num f = none
  flag : ∀ n f, (n, f) ∈ d.flags → a.flag f = has p n
  flagNone : ∀ f, (∀ q ∈ d.flags, q.2 ≠ f) → a.flag f = false

theorem Inv.init (ex : String → Bool) (d : SubDecl) : Inv ex d [] [] Args.empty := by
  constructor <;> simp [optNames, args, Args.empty, opt?, has]

theorem dest_inj {d : SubDecl} (hd : d.Wf) {o o' : OptDecl} (h : o ∈ d.opts ++ d.poss) (h' : o' ∈ d.opts ++ d.poss)
    (e : o.dest = o'.dest) : o = o' := List.inj_on_of_nodup_map hd.dests h h' e

theorem nodup_decls {d : SubDecl} (hd : d.Wf) : (d.opts ++ d.poss).Nodup := List.Nodup.of_map _ hd.dests

theorem setArg_str (a : Args) (o : OptDecl) (v : String) (f : StrField) :
    (setArg a o v).str f = if o.dest = .str f then some v else a.str f := by
  unfold setArg
  split
  · rename_i g hg
    rw [hg]
    by_cases e : f = g
    · simp [e]
    · have : ¬ g = f := fun h => e h.symm
      simp [e, this]
  · rename_i g hg
    rw [hg]; simp

theorem setArg_num (a : Args) (o : OptDecl) (v : String) (f : NumField) :
    (setArg a o v).num f = if o.dest = .num f then some (natOf v) else a.num f := by
  unfold setArg
  split
  · rename_i g hg
    rw [hg]; simp
  · rename_i g hg
    rw [hg]
    by_cases e : f = g
    · simp [e]
    · have : ¬ g = f := fun h => e h.symm
      simp [e, this]

theorem setArg_flag (a : Args) (o : OptDecl) (v : String) : (setArg a o v).flag = a.flag := by
  unfold setArg; split <;> rfl

theorem setArg_type (a : Args) (o : OptDecl) (v : String) : (setArg a o v).type = a.type := by
  unfold setArg; split <;> rfl

section
variable {ex : String → Bool} {d : SubDecl} {p : List Item} {s : List OptDecl} {a : Args}

theorem Inv.flagStep (h : Inv ex d p s a) (hd : d.Wf) {n : String} {f : FlagField} (hf : (n, f) ∈ d.flags) :
    Inv ex d (p ++ [.flag n]) s (setFlag a f) := by
  have e1 : optNames (p ++ [.flag n]) = optNames p := by rw [optNames_append]; simp [optNames]
  have e2 : args (p ++ [.flag n]) = args p := by rw [args_append]; simp [args]
  have e3 : ∀ m, opt? (p ++ [.flag n]) m = opt? p m := by intro m; rw [opt?_append]; simp [opt?]
  constructor
  · intro m v hm
    rcases List.mem_append.1 hm with hm | hm
    · exact h.known m v hm
    · simp at hm
  · rw [e1]; exact h.once
  · intro m hm
    rcases List.mem_append.1 hm with hm | hm
    · exact h.flags m hm
    · simp at hm; exact ⟨f, hm ▸ hf⟩
  · rw [e2]; exact h.notMore
  · rw [e2]; exact h.kinds
  · rw [e1]; exact h.seenOpt
  · rw [e2]; exact h.seenPos
  · exact h.type
  · intro o ho g hg; rw [e3]; exact h.strOpt o ho g hg
  · intro o ho g hg; rw [e3]; exact h.numOpt o ho g hg
  · rw [e2]; exact h.strPos
  · rw [e2]; exact h.numPos
  · exact h.strNone
  · exact h.numNone
  · intro m g hg
    show (if g = f then true else a.flag g) = _
    by_cases e : g = f
    · subst e
      have := List.inj_on_of_nodup_map hd.flagFields hf hg rfl
      cases this
      simp [has]
    · rw [if_neg e, h.flag m g hg]
      have hne : m ≠ n := by
        rintro rfl
        have := List.inj_on_of_nodup_map hd.flagNames hf hg rfl
        cases this
        exact e rfl
      unfold has
      simp [hne]
  · intro g hg
    show (if g = f then true else a.flag g) = _
    have : g ≠ f := fun e => hg _ hf e.symm
    rw [if_neg this]
    exact h.flagNone g hg

theorem Inv.optStep (h : Inv ex d p s a) (hd : d.Wf) {o : OptDecl} (ho : o ∈ d.opts) (hs : o ∉ s) {v : String}
    (hk : (kindOf o).Ok ex v) : Inv ex d (p ++ [.opt o.name v]) (o :: s) (setArg a o v) := by
  have ho' : o ∈ d.opts ++ d.poss := List.mem_append_left _ ho
  have hnew : o.name ∉ optNames p := fun e => hs ((h.seenOpt o ho).2 e)
  have e1 : optNames (p ++ [.opt o.name v]) = optNames p ++ [o.name] := by rw [optNames_append]; simp [optNames]
  have e2 : args (p ++ [.opt o.name v]) = args p := by rw [args_append]; simp [args]
  have e3 : ∀ m, m ≠ o.name → opt? (p ++ [.opt o.name v]) m = opt? p m := by
    intro m hm
    have hm' : ¬ o.name = m := fun e => hm e.symm
    rw [opt?_append]
    simp [opt?, hm']
  have e4 : opt? (p ++ [.opt o.name v]) o.name = some v := by
    rw [opt?_append, opt?_none.2 hnew]; simp [opt?]
  have hname : ∀ o' ∈ d.opts, o'.name = o.name → o' = o := fun o' h' e => List.inj_on_of_nodup_map hd.names h' ho e
  have hpos : ∀ (i : Nat) (o' : OptDecl), d.poss[i]? = some o' → o' ≠ o := by
    rintro i o' hi rfl
    exact (List.nodup_append.1 (nodup_decls hd)).2.2 o' ho o' (List.mem_of_getElem? hi) rfl
  constructor
  · intro m w hm
    rcases List.mem_append.1 hm with hm | hm
    · exact h.known m w hm
    · simp at hm; exact ⟨o, ho, hm.1.symm, hm.2 ▸ hk⟩
  · rw [e1, List.nodup_append]
    exact ⟨h.once, by simp, by
      intro x hx y hy e
      simp at hy
      exact hnew (hy ▸ e ▸ hx)⟩
  · intro m hm
    rcases List.mem_append.1 hm with hm | hm
    · exact h.flags m hm
    · simp at hm
  · rw [e2]; exact h.notMore
  · rw [e2]; exact h.kinds
  · intro o' h'
    rw [e1, List.mem_cons, List.mem_append, List.mem_singleton, h.seenOpt o' h']
    constructor
    · rintro (e | e)
      · exact .inr (by rw [e])
      · exact .inl e
    · rintro (e | e)
      · exact .inr e
      · exact .inl (hname o' h' e)
  · intro i o' hi
    rw [e2, List.mem_cons]
    rw [← h.seenPos i o' hi]
    exact or_iff_right (hpos i o' hi)
  · rw [setArg_type]; exact h.type
  · intro o' h' f hf
    rw [setArg_str]
    by_cases e : o' = o
    · subst e; rw [if_pos hf, e4]
    · have hne : o'.name ≠ o.name := fun x => e (hname o' h' x)
      rw [e3 _ hne, if_neg (fun x => e (dest_inj hd (List.mem_append_left _ h') ho' (hf.trans x.symm))), h.strOpt o' h' f hf]
  · intro o' h' f hf
    rw [setArg_num]
    by_cases e : o' = o
    · subst e; rw [if_pos hf, e4]; rfl
    · have hne : o'.name ≠ o.name := fun x => e (hname o' h' x)
      rw [e3 _ hne, if_neg (fun x => e (dest_inj hd (List.mem_append_left _ h') ho' (hf.trans x.symm))), h.numOpt o' h' f hf]
  · intro i o' hi f hf
    rw [setArg_str, e2, if_neg (fun x => hpos i o' hi (dest_inj hd (List.mem_append_right _ (List.mem_of_getElem? hi)) ho'
      (hf.trans x.symm))), h.strPos i o' hi f hf]
  · intro i o' hi f hf
    rw [setArg_num, e2, if_neg (fun x => hpos i o' hi (dest_inj hd (List.mem_append_right _ (List.mem_of_getElem? hi)) ho'
      (hf.trans x.symm))), h.numPos i o' hi f hf]
  · intro f hf
    rw [setArg_str, if_neg (hf o ho'), h.strNone f hf]
  · intro f hf
    rw [setArg_num, if_neg (hf o ho'), h.numNone f hf]
  · intro n f hf
    rw [setArg_flag, h.flag n f hf]
    simp [has]
  · intro f hf
    rw [setArg_flag]; exact h.flagNone f hf

theorem Inv.argStep (h : Inv ex d p s a) (hd : d.Wf) {o : OptDecl} (ho : d.poss[(args p).length]? = some o) {v : String}
    (hk : (kindOf o).Ok ex v) : Inv ex d (p ++ [.arg v]) (o :: s) (setArg a o v) := by
  have hmem : o ∈ d.poss := List.mem_of_getElem? ho
  have ho' : o ∈ d.opts ++ d.poss := List.mem_append_right _ hmem
  have e1 : optNames (p ++ [.arg v]) = optNames p := by rw [optNames_append]; simp [optNames]
  have e2 : args (p ++ [.arg v]) = args p ++ [v] := by rw [args_append]; simp [args]
  have e3 : ∀ m, opt? (p ++ [.arg v]) m = opt? p m := by intro m; rw [opt?_append]; simp [opt?]
  have hlt : (args p).length < d.poss.length := (List.getElem?_eq_some_iff.1 ho).1
  have hnd := (List.nodup_append.1 (nodup_decls hd))
  have hopt : ∀ o' ∈ d.opts, o' ≠ o := fun o' h' e => hnd.2.2 o' h' o hmem e
  have hidx : ∀ (i : Nat), d.poss[i]? = some o → i = (args p).length := by
    intro i hi
    have hi' := (List.getElem?_eq_some_iff.1 hi)
    obtain ⟨hi1, hi2⟩ := hi'
    obtain ⟨_, hj⟩ := (List.getElem?_eq_some_iff.1 ho)
    exact (List.Nodup.getElem_inj_iff hnd.2.1).1 (hi2.trans hj.symm)
  have eget : ∀ (i : Nat), i ≠ (args p).length → (args p ++ [v])[i]? = (args p)[i]? := by
    intro i hi
    rw [List.getElem?_append]
    split
    · rfl
    · have h1 : ¬ i - (args p).length = 0 := by omega
      rw [List.getElem?_eq_none (by simp; omega), List.getElem?_eq_none (by omega)]
  have eget' : (args p ++ [v])[(args p).length]? = some v := by simp
  constructor
  · intro m w hm
    rcases List.mem_append.1 hm with hm | hm
    · exact h.known m w hm
    · simp at hm
  · rw [e1]; exact h.once
  · intro m hm
    rcases List.mem_append.1 hm with hm | hm
    · exact h.flags m hm
    · simp at hm
  · rw [e2]; simp; omega
  · intro i w o' hi ho2
    rw [e2] at hi
    by_cases e : i = (args p).length
    · subst e
      rw [eget'] at hi
      rw [ho] at ho2
      cases hi; cases ho2
      exact hk
    · rw [eget i e] at hi
      exact h.kinds i w o' hi ho2
  · intro o' h'
    rw [e1, List.mem_cons, h.seenOpt o' h']
    exact or_iff_right (hopt o' h')
  · intro i o' hi
    rw [e2, List.mem_cons, h.seenPos i o' hi]
    simp only [List.length_append, List.length_singleton]
    constructor
    · rintro (e | e)
      · subst e; have := hidx i hi; omega
      · omega
    · intro e
      by_cases e2 : i = (args p).length
      · left
        subst e2
        rw [ho] at hi
        cases hi; rfl
      · right; omega
  · rw [setArg_type]; exact h.type
  · intro o' h' f hf
    rw [setArg_str, e3, if_neg (fun x => hopt o' h' (dest_inj hd (List.mem_append_left _ h') ho' (hf.trans x.symm))), h.strOpt o' h' f hf]
  · intro o' h' f hf
    rw [setArg_num, e3, if_neg (fun x => hopt o' h' (dest_inj hd (List.mem_append_left _ h') ho' (hf.trans x.symm))), h.numOpt o' h' f hf]
  · intro i o' hi f hf
    rw [setArg_str, e2]
    by_cases e : i = (args p).length
    · subst e
      rw [ho] at hi; cases hi
      rw [if_pos hf, eget']
    · have hne : o' ≠ o := fun x => e (hidx i (x ▸ hi))
      rw [eget i e, if_neg (fun x => hne (dest_inj hd (List.mem_append_right _ (List.mem_of_getElem? hi)) ho' (hf.trans x.symm))),
        h.strPos i o' hi f hf]
  · intro i o' hi f hf
    rw [setArg_num, e2]
    by_cases e : i = (args p).length
    · subst e
      rw [ho] at hi; cases hi
      rw [if_pos hf, eget']; rfl
    · have hne : o' ≠ o := fun x => e (hidx i (x ▸ hi))
      rw [eget i e, if_neg (fun x => hne (dest_inj hd (List.mem_append_right _ (List.mem_of_getElem? hi)) ho' (hf.trans x.symm))),
        h.numPos i o' hi f hf]
  · intro f hf
    rw [setArg_str, if_neg (hf o ho'), h.strNone f hf]
  · intro f hf
    rw [setArg_num, if_neg (hf o ho'), h.numNone f hf]
  · intro n f hf
    rw [setArg_flag, h.flag n f hf]
    simp [has]
  · intro f hf
    rw [setArg_flag]; exact h.flagNone f hf

/-- the next free positional argument -/
theorem Inv.find (h : Inv ex d p s a) : d.poss.find? (fun o => !s.contains o) = d.poss[(args p).length]? := by
  cases ho : d.poss[(args p).length]? with
  | none =>
    rw [List.getElem?_eq_none_iff] at ho
    rw [List.find?_eq_none]
    intro o hm
    obtain ⟨i, hi, e⟩ := List.mem_iff_getElem.1 hm
    have := (h.seenPos i o (by rw [List.getElem?_eq_getElem hi, e])).2 (by omega)
    simp [this]
  | some o =>
    obtain ⟨hlt, e⟩ := List.getElem?_eq_some_iff.1 ho
    rw [List.find?_eq_some_iff_getElem]
    refine ⟨?_, (args p).length, hlt, e, ?_⟩
    · have : o ∉ s := fun hm => absurd ((h.seenPos _ o ho).1 hm) (by omega)
      simp [this]
    · intro j hj
      have := (h.seenPos j _ (List.getElem?_eq_getElem (by omega))).2 hj
      simp [this]

theorem Inv.stepOut (h : Inv ex d p s a) (hd : d.Wf) {i : Item} {r : List OptDecl × Args} (hr : stepItem ex d (s, a) i = some r) :
    Inv ex d (p ++ [i]) r.1 r.2 := by
  cases i with
  | flag n =>
    rw [stepItem] at hr
    split at hr
    · rename_i f hf
      cases hr
      exact h.flagStep hd (lookup_mem hf)
    · simp at hr
  | opt n v =>
    rw [stepItem] at hr
    split at hr
    · rename_i o ho
      obtain ⟨m1, rfl⟩ := find_name ho
      split at hr
      · simp at hr
      · rename_i hc
        simp only [Bool.or_eq_true, not_or, Bool.not_eq_true, List.contains_eq_mem, decide_eq_false_iff_not] at hc
        split at hr
        · rename_i a' ha
          cases hr
          obtain ⟨k1, rfl⟩ := (store_iff hd (List.mem_append_left _ m1) hc.1 _ _).1 ha
          exact h.optStep hd m1 hc.2 k1
        · simp at hr
    · simp at hr
  | arg v =>
    rw [stepItem] at hr
    split at hr
    · simp at hr
    · rename_i hv
      rw [h.find] at hr
      split at hr
      · rename_i o ho
        split at hr
        · rename_i a' ha
          cases hr
          obtain ⟨k1, rfl⟩ := (store_iff hd (List.mem_append_right _ (List.mem_of_getElem? ho)) (by simpa using hv) _ _).1 ha
          exact h.argStep hd ho k1
        · simp at hr
      · simp at hr

theorem Kind.Ok.word {k : Kind} {v : String} (h : k.Ok ex v) : isOption v = false := (isOption_iff v).2 h.1

theorem Inv.stepIn (h : Inv ex d p s a) (hd : d.Wf) {i : Item}
    (known : ∀ n v, .opt n v ∈ p ++ [i] → ∃ o ∈ d.opts, o.name = n ∧ (kindOf o).Ok ex v)
    (once : (optNames (p ++ [i])).Nodup)
    (flags : ∀ n, .flag n ∈ p ++ [i] → ∃ f, (n, f) ∈ d.flags)
    (notMore : (args (p ++ [i])).length ≤ d.poss.length)
    (kinds : ∀ (j : Nat) (v : String) (o : OptDecl), (args (p ++ [i]))[j]? = some v → d.poss[j]? = some o → (kindOf o).Ok ex v) :
    ∃ r, stepItem ex d (s, a) i = some r := by
  cases i with
  | flag n =>
    obtain ⟨f, hf⟩ := flags n (by simp)
    refine ⟨(s, setFlag a f), ?_⟩
    rw [stepItem, mem_lookup hd.flagNames hf]
  | opt n v =>
    obtain ⟨o, m1, rfl, m2⟩ := known n v (by simp)
    have hs : o ∉ s := by
      rw [h.seenOpt o m1]
      rw [optNames_append, List.nodup_append] at once
      intro hm
      exact once.2.2 _ hm o.name (by simp [optNames]) rfl
    refine ⟨(o :: s, setArg a o v), ?_⟩
    rw [stepItem, name_find hd.names m1]
    dsimp only
    rw [m2.word]
    simp only [Bool.false_or, List.contains_eq_mem, decide_eq_true_iff, if_neg hs]
    rw [(store_iff hd (List.mem_append_left _ m1) m2.word a _).2 ⟨m2, rfl⟩]
  | arg v =>
    have e2 : args (p ++ [.arg v]) = args p ++ [v] := by rw [args_append]; simp [args]
    rw [e2] at notMore kinds
    simp only [List.length_append, List.length_singleton] at notMore
    have hlt : (args p).length < d.poss.length := by omega
    have ho : d.poss[(args p).length]? = some d.poss[(args p).length] := List.getElem?_eq_getElem hlt
    have hk := kinds (args p).length v _ (by simp) ho
    refine ⟨(d.poss[(args p).length] :: s, setArg a d.poss[(args p).length] v), ?_⟩
    rw [stepItem, hk.word, h.find, ho]
    simp only [Bool.false_eq_true, if_false]
    rw [(store_iff hd (List.mem_append_right _ (List.mem_of_getElem? ho)) hk.word a _).2 ⟨hk, rfl⟩]

theorem Inv.foldOut (hd : d.Wf) : ∀ (q p : List Item) (s : List OptDecl) (a : Args) (r : List OptDecl × Args), Inv ex d p s a →
    q.foldlM (stepItem ex d) (s, a) = some r → Inv ex d (p ++ q) r.1 r.2 := by
  intro q
  induction q with
  | nil => intro p s a r h hr; cases hr; rw [List.append_nil]; exact h
  | cons i q ih =>
    intro p s a r h hr
    rw [List.foldlM_cons, Option.bind_eq_bind, Option.bind_eq_some_iff] at hr
    obtain ⟨⟨s', a'⟩, h1, h2⟩ := hr
    have := ih (p ++ [i]) s' a' r (h.stepOut hd h1) h2
    rw [List.append_assoc] at this
    exact this

end

/-- the items fit the declaration -/
structure Fits (ex : String → Bool) (d : SubDecl) (p : List Item) : Prop where
  known : ∀ n v, .opt n v ∈ p → ∃ o ∈ d.opts, o.name = n ∧ (kindOf o).Ok ex v
  once : (optNames p).Nodup
  flags : ∀ n, .flag n ∈ p → ∃ f, (n, f) ∈ d.flags
  notMore : (args p).length ≤ d.poss.length
  kinds : ∀ (i : Nat) (v : String) (o : OptDecl), (args p)[i]? = some v → d.poss[i]? = some o → (kindOf o).Ok ex v

theorem Fits.prefix {ex : String → Bool} {d : SubDecl} {p q : List Item} (h : Fits ex d (p ++ q)) : Fits ex d p := by
  refine ⟨fun n v hm => h.known n v (List.mem_append_left _ hm), ?_, fun n hm => h.flags n (List.mem_append_left _ hm), ?_, ?_⟩
  · have := h.once; rw [optNames_append] at this; exact (List.nodup_append.1 this).1
  · have := h.notMore; rw [args_append, List.length_append] at this; omega
  · intro i v o hi ho
    refine h.kinds i v o ?_ ho
    rw [args_append, List.getElem?_append, if_pos (List.getElem?_eq_some_iff.1 hi).1]; exact hi

theorem Inv.foldIn {ex : String → Bool} {d : SubDecl} (hd : d.Wf) : ∀ (q p : List Item) (s : List OptDecl) (a : Args), Inv ex d p s a →
    Fits ex d (p ++ q) → ∃ r, q.foldlM (stepItem ex d) (s, a) = some r := by
  intro q
  induction q with
  | nil => intro p s a _ _; exact ⟨_, rfl⟩
  | cons i q ih =>
    intro p s a h hf
    have hf' : Fits ex d ((p ++ [i]) ++ q) := by rw [List.append_assoc]; exact hf
    have hp := hf'.prefix
    obtain ⟨r, hr⟩ := h.stepIn hd hp.known hp.once hp.flags hp.notMore hp.kinds
    obtain ⟨r', hr'⟩ := ih (p ++ [i]) r.1 r.2 (h.stepOut hd hr) hf'
    refine ⟨r', ?_⟩
    rw [List.foldlM_cons, hr]
    exact hr'

theorem Inv.fits {ex : String → Bool} {d : SubDecl} {p : List Item} {s : List OptDecl} {a : Args} (h : Inv ex d p s a) : Fits ex d p :=
  ⟨h.known, h.once, h.flags, h.notMore, h.kinds⟩

/-- the required ones are there -/
structure Complete (d : SubDecl) (p : List Item) : Prop where
  opts : ∀ o ∈ d.opts, o.required = true → o.name ∈ optNames p
  poss : ∀ (i : Nat) (o : OptDecl), d.poss[i]? = some o → o.required = true → i < (args p).length

theorem Inv.complete_iff {ex : String → Bool} {d : SubDecl} {p : List Item} {s : List OptDecl} {a : Args} (h : Inv ex d p s a) :
    (d.opts ++ d.poss).all (fun o => !o.required || s.contains o) = true ↔ Complete d p := by
  rw [List.all_eq_true]
  constructor
  · intro hall
    refine ⟨fun o ho hr => ?_, fun i o hi hr => ?_⟩
    · have := hall o (List.mem_append_left _ ho)
      simp [hr] at this
      exact (h.seenOpt o ho).1 this
    · have := hall o (List.mem_append_right _ (List.mem_of_getElem? hi))
      simp [hr] at this
      exact (h.seenPos i o hi).1 this
  · intro hc o ho
    cases hr : o.required with
    | false => rfl
    | true =>
      simp only [Bool.not_true, Bool.false_or, List.contains_eq_mem, decide_eq_true_iff]
      rcases List.mem_append.1 ho with ho | ho
      · exact (h.seenOpt o ho).2 (hc.opts o ho hr)
      · obtain ⟨i, hi, e⟩ := List.mem_iff_getElem.1 ho
        have hi' : d.poss[i]? = some o := by rw [List.getElem?_eq_getElem hi, e]
        exact (h.seenPos i o hi').2 (hc.poss i o hi' hr)

theorem parseSub_iff {ex : String → Bool} {d : SubDecl} (hd : d.Wf) (toks : List String) :
    (∀ a, parseSub ex d toks = some a → ∃ items s a0, toks = line items ∧ Complete d items ∧ Inv ex d items s a0 ∧
      a = { a0 with type := d.type }) ∧
    (∀ items, toks = line items → Fits ex d items → Complete d items → ∃ s a0, Inv ex d items s a0 ∧
      parseSub ex d toks = some { a0 with type := d.type }) := by
  constructor
  · intro a h
    unfold parseSub at h
    split at h
    · rename_i s a0 hp
      split at h
      · rename_i hall
        cases h
        obtain ⟨items, e1, e2⟩ := parseToks_sound toks.length (Nat.le_refl _) hp
        have hi := Inv.foldOut hd items [] [] Args.empty _ (Inv.init ex d) e2
        rw [List.nil_append] at hi
        exact ⟨items, s, a0, e1, hi.complete_iff.1 hall, hi, rfl⟩
      · simp at h
    · simp at h
  · rintro items rfl hf hc
    obtain ⟨r, hr⟩ := Inv.foldIn hd items [] [] Args.empty (Inv.init ex d) hf
    have hi := Inv.foldOut hd items [] [] Args.empty _ (Inv.init ex d) hr
    rw [List.nil_append] at hi
    refine ⟨r.1, r.2, hi, ?_⟩
    unfold parseSub
    rw [parseToks_complete hd hr]
    dsimp only
    rw [if_pos (hi.complete_iff.2 hc)]

end Homfa.Cli
