import Verif.Spec.TestBench
import Verif.Proof.Shell
import Verif.Props.BenchLog

/-! # The regression test of the benchmark program -/

namespace Homfa.Cli

variable {N n l : Nat}

/-! ## Lines of a log -/

theorem getlines_line : ∀ (a rest : List Char), '\n' ∉ a → getlines '\n' (a ++ '\n' :: rest) = a :: getlines '\n' rest
  | [], rest, _ => by simp [getlines]
  | c :: a, rest, h => by
    simp only [List.mem_cons, not_or] at h
    rw [List.cons_append, getlines, if_neg (fun e => h.1 e.symm), getlines_line a rest h.2]

theorem showNat_line (k : Nat) : '\n' ∉ showNat k := by
  unfold showNat
  intro h
  have := Nat.isDigit_of_mem_toDigits (by omega) (by omega) h
  revert this; decide

theorem tm_line (t : Tm) : '\n' ∉ currentTimeStr t := by
  unfold currentTimeStr
  simp [showNat_line]

/-- A row that takes one line: the key and a name or message in the value do not break it. -/
def Row.OneLine (r : Row) : Prop :=
  '\n' ∉ r.key.toList ∧ (∀ s, r.val = .str s → '\n' ∉ s.toList) ∧ ∀ s, r.val = .message s → '\n' ∉ s

theorem val_line {r : Row} (h : r.OneLine) {v : List Char} (hv : r.val.Shows v) : '\n' ∉ v := by
  obtain ⟨key, val⟩ := r
  obtain ⟨_, h2, _⟩ := h
  dsimp only at hv h2
  cases hv with
  | str s => exact h2 s rfl
  | num k => exact showNat_line k
  | time k => exact showNat_line k
  | date t => exact tm_line t
  | total k t => simp [showNat_line]

theorem prefix_key : ∀ (p key v : List Char), ',' ∉ p → p.isPrefixOf (key ++ ',' :: v) = p.isPrefixOf key
  | [], key, v, _ => by cases key <;> rfl
  | c :: p, [], v, h => by
    simp only [List.mem_cons, not_or] at h
    simp only [List.nil_append, List.isPrefixOf, beq_iff_eq, Bool.and_eq_false_imp]
    intro e
    exact absurd e.symm h.1
  | c :: p, k :: key, v, h => by
    simp only [List.mem_cons, not_or] at h
    simp only [List.cons_append, List.isPrefixOf, prefix_key p key v h.2]

/-- the line of a row with the key "result" -/
def Row.resultLine? (r : Row) : Option (List Char) := match r.val with
  | .num k => if r.key = "result" then some ("result,".toList ++ showNat k) else none
  | _ => none

/-- A row of a log: its key is "result" and its value a number, or does not begin like that. -/
def Row.Ordinary (r : Row) : Prop := r.OneLine ∧ ((r.key = "result" ∧ ∃ k, r.val = .num k) ∨ ("result".toList).isPrefixOf r.key.toList = false)

theorem grepResult_shows {rows : List Row} {text : List Char} (h : Shows rows text) (ho : ∀ r ∈ rows, r.Ordinary) :
    grepResult text = rows.filterMap Row.resultLine? := by
  induction h with
  | nil => rfl
  | @cons row rows v text hv _ ih =>
    have ih := ih fun r hr => ho r (List.mem_cons_of_mem _ hr)
    obtain ⟨h1, h2⟩ := ho row (by simp)
    have hline : '\n' ∉ row.key.toList ++ [','] ++ v := by
      simp only [List.mem_append, List.mem_singleton, not_or]
      exact ⟨⟨h1.1, by decide⟩, val_line h1 hv⟩
    unfold grepResult at ih ⊢
    rw [List.append_assoc _ ['\n'], List.singleton_append, getlines_line _ _ hline, List.filter_cons, List.append_assoc, List.singleton_append,
      prefix_key _ _ _ (by decide), ih, List.filterMap_cons]
    obtain ⟨key, val⟩ := row
    rcases h2 with ⟨h2, k, h3⟩ | h2
    · dsimp only at h2 h3 hv ⊢
      subst h2 h3
      cases hv
      have hl : Row.resultLine? ⟨"result", .num k⟩ = some ("result".toList ++ ',' :: showNat k) := by
        unfold Row.resultLine?
        dsimp only
        rw [if_pos rfl, show "result,".toList = "result".toList ++ [','] from by decide, List.append_assoc, List.singleton_append]
      rw [if_pos (by decide), hl]
    · dsimp only at h2 ⊢
      have hk : ¬ key = "result" := by rintro rfl; revert h2; decide
      rw [h2, if_neg (by simp)]
      have : Row.resultLine? ⟨key, val⟩ = none := by
        unfold Row.resultLine?
        cases val <;> simp [hk]
      rw [this]
  | @log level s rows text stamp hst _ ih =>
    have ih := ih fun r hr => ho r (List.mem_cons_of_mem _ hr)
    obtain ⟨h1, _⟩ := ho ⟨level, .message s⟩ (by simp)
    have hline : '\n' ∉ "[".toList ++ stamp ++ "] [".toList ++ level.toList ++ "] ".toList ++ s := by
      simp only [List.mem_append, not_or]
      exact ⟨⟨⟨⟨⟨by decide, hst⟩, by decide⟩, h1.1⟩, by decide⟩, h1.2.2 s rfl⟩
    unfold grepResult at ih ⊢
    rw [List.append_assoc _ ['\n'], List.singleton_append, getlines_line _ _ hline, List.filter_cons, ih]
    rfl

/-! ## The logs of the methods -/

theorem ordinary_num {key : String} (k : Nat) (h : (key == "result" || (!("result".toList).isPrefixOf key.toList)) = true)
    (h' : (key.toList.contains '\n') = false) : (⟨key, .num k⟩ : Row).Ordinary := by
  refine ⟨⟨by simpa using h', (fun s e => by cases e), (fun s e => by cases e)⟩, ?_⟩
  rcases Bool.or_eq_true_iff.1 h with h | h
  · exact .inl ⟨by simpa using h, k, rfl⟩
  · exact .inr (by simpa using h)

theorem ordinary_other {key : String} {v : Val} (h : (("result".toList).isPrefixOf key.toList) = false)
    (h' : (key.toList.contains '\n') = false) (hs : ∀ s, v = .str s → '\n' ∉ s.toList)
    (hm : ∀ s, v = .message s → '\n' ∉ s := by intro s e; cases e) : (⟨key, v⟩ : Row).Ordinary :=
  ⟨⟨by simpa using h', hs, hm⟩, .inr h⟩

theorem bootNote_off (boot i : Nat) : bootNote (decide (0 < 0)) boot i = [] := by
  unfold bootNote note
  split <;> rfl

theorem flutNotes_off (g : Graph) (f qs max i : Nat) : flutNotes (decide (0 < 0)) g f qs max i = [] := by
  unfold flutNotes liveNotes note
  dsimp only
  split <;> rfl

theorem skipNotes_ordinary {skip : List (List Char)} (h : ∀ l ∈ skip, '\n' ∉ l) : ∀ r ∈ skipNotes skip, r.Ordinary := by
  intro r hr
  unfold skipNotes at hr
  obtain ⟨l, hl, rfl⟩ := List.mem_map.1 hr
  refine ordinary_other (by decide) (by decide) (fun s e => by cases e) fun s e => ?_
  cases e
  simp [h l hl]

theorem skipNotes_results (skip : List (List Char)) : (skipNotes skip).filterMap Row.resultLine? = [] := by
  rw [List.filterMap_eq_nil_iff]
  intro r hr
  unfold skipNotes at hr
  obtain ⟨l, hl, rfl⟩ := List.mem_map.1 hr
  rfl

theorem skips_found (fs : Files) (items : List Item) : ∃ skip, SkipsIn fs items skip ∧ ∀ l ∈ skip, '\n' ∉ l := by
  cases h : fs (opt items "--spec") with
  | none => exact ⟨[], (fun sb hs => by rw [h] at hs; cases hs), by simp⟩
  | some sb =>
    obtain ⟨skip, hk⟩ := skips_exists (getlines '\n' (textOf sb))
    exact ⟨skip, (fun sb' hs => by rw [h] at hs; cases hs; exact ⟨_, textLines_iff.2 rfl, hk⟩), skips_line hk (textLines_iff.2 rfl : Spec.TextLines (textOf sb) _).1⟩

/-- the lines with results among the rows of a loop -/
theorem results_range (freq len : Nat) (v : Nat → Bool) (rows : Nat → List Row)
    (h : ∀ i, (rows i).filterMap Row.resultLine? = if freq ∣ i + 1 then [resultLine (v (i + 1))] else []) :
    ((List.range len).flatMap rows).filterMap Row.resultLine? =
      ((List.range (len + 1)).filter fun i => decide (0 < i ∧ freq ∣ i)).map fun i => resultLine (v i) := by
  induction len with
  | zero => simp
  | succ len ih =>
    rw [List.range_succ, List.flatMap_append, List.filterMap_append, ih, List.range_succ (n := len + 1), List.filter_append, List.map_append]
    congr 1
    simp only [List.flatMap_cons, List.flatMap_nil, List.append_nil, h]
    by_cases hd : freq ∣ len + 1 <;> simp [hd]

theorem resultLine?_result (b : Bool) : Row.resultLine? ⟨"result", .num b.toNat⟩ = some (resultLine b) := by
  cases b <;> decide

theorem total_ordinary {label : String} {k : Nat} (h : (("result".toList).isPrefixOf label.toList) = false)
    (h' : (label.toList.contains '\n') = false) : ∀ r ∈ totalRow label k, r.Ordinary ∧ r.resultLine? = none := by
  intro r hr
  unfold totalRow at hr
  split at hr
  · simp at hr
  · simp only [List.mem_singleton] at hr
    subst hr
    exact ⟨ordinary_other h h' (fun s e => by cases e), rfl⟩

/-- what `grep` finds in the log of a run -/
theorem grep_log {L : Lib N n l} {fs : Files} {toks : List String} {rows totals : List Row} (h : AlwaysLogs L fs toks rows totals)
    {text : List Char} {r : Res Unit} (hr : RunBench L fs toks text r) {res : List (List Char)} (hres : rows.filterMap Row.resultLine? = res)
    (ho : ∀ r ∈ rows, r.Ordinary) (ht : ∀ r ∈ totals, r.Ordinary ∧ r.resultLine? = none) : r = .ok () ∧ grepResult text = res := by
  subst hres
  obtain ⟨h1, order, h2, h3⟩ := h.2 text r hr
  refine ⟨h1, ?_⟩
  rw [grepResult_shows h3, List.filterMap_append]
  · have : order.filterMap Row.resultLine? = [] := by
      rw [List.filterMap_eq_nil_iff]
      intro x hx
      exact (ht x (h2.subset hx)).2
    rw [this, List.append_nil]
  · intro x hx
    rcases List.mem_append.1 hx with hx | hx
    · exact ho x hx
    · exact (ht x (h2.subset hx)).1

/-! ## The command lines -/

/-- options and then flags -/
def itemsOf (ps : List (String × String)) (fl : List String) : List Item := ps.map (fun p => .opt p.1 p.2) ++ fl.map .flag

theorem follows_pairs {u : Usage} {ex : String → Bool} {ps : List (String × String)} {fl : List String}
    (known : ∀ p ∈ ps, ∃ k : Kind, (p.1, k) ∈ u.required ∧ k.Ok ex p.2) (nodup : (ps.map (·.1)).Nodup)
    (all : ∀ r ∈ u.required, r.1 ∈ ps.map (·.1)) (flags : ∀ f ∈ fl, f ∈ u.flags) (hargs : u.requiredArgs = []) :
    u.Follows ex (itemsOf ps fl) := by
  have hmem : ∀ m v, Item.opt m v ∈ itemsOf ps fl ↔ (m, v) ∈ ps := by
    intro m v
    simp [itemsOf]
  have hflag : ∀ f, Item.flag f ∈ itemsOf ps fl ↔ f ∈ fl := by
    intro f
    simp [itemsOf]
  have hno : args (itemsOf ps fl) = [] := by
    unfold args
    rw [List.filterMap_eq_nil_iff]
    intro i hi
    unfold itemsOf at hi
    rcases List.mem_append.1 hi with hi | hi <;> obtain ⟨p, _, rfl⟩ := List.mem_map.1 hi <;> rfl
  have hnames : optNames (itemsOf ps fl) = ps.map (·.1) := by
    have h1 : ∀ ps : List (String × String), optNames (ps.map fun p => .opt p.1 p.2) = ps.map (·.1) := by
      intro ps
      induction ps with
      | nil => rfl
      | cons p ps ih => rw [List.map_cons, List.map_cons, ← ih]; rfl
    have h2 : optNames (fl.map .flag) = [] := by
      unfold optNames
      rw [List.filterMap_eq_nil_iff]
      intro i hi
      obtain ⟨_, _, rfl⟩ := List.mem_map.1 hi
      rfl
    have h3 : optNames (itemsOf ps fl) = optNames (ps.map fun p => .opt p.1 p.2) ++ optNames (fl.map .flag) := List.filterMap_append
    rw [h3, h1, h2, List.append_nil]
  constructor
  · intro m v h
    obtain ⟨k, h1, h2⟩ := known _ ((hmem m v).1 h)
    exact ⟨k, List.mem_append_left _ h1, h2⟩
  · rw [hnames]; exact nodup
  · intro m k h
    obtain ⟨p, h1, h2⟩ := List.mem_map.1 (all _ h)
    obtain ⟨a, b⟩ := p
    obtain rfl : a = m := h2
    exact ⟨b, (hmem _ _).2 h1⟩
  · intro f h
    exact flags f ((hflag f).1 h)
  · rw [hargs]; simp
  · rw [hno]; simp
  · intro i v k h; rw [hno] at h; simp at h

variable {L : Lib N n l} {fs : Files} {S I : String} {g : Graph} {w : List Bool} {ap : Nat}

theorem specFile_wf (h : SpecFile fs S g) : g.WF := by
  obtain ⟨b, _, h2, h3⟩ := h
  exact wf_of_fromIstream h2 h3

theorem readable_of {items : List Item} (hS : SpecFile fs S g) (hI : InputFile fs I ap w) (h1 : opt items "--spec" = S)
    (h2 : opt items "--in" = I) (h3 : num items "--ap" = ap) : Readable fs items g w := by
  obtain ⟨b, s1, s2, s3⟩ := hS
  exact ⟨⟨b, by rw [h1]; exact s1, s2⟩, s3, by rw [h2, h3]; exact hI⟩

theorem file_ok (hn : ScriptName S) (hS : SpecFile fs S g) : Kind.file.Ok (fun f => (fs f).isSome) S := by
  obtain ⟨b, h, _⟩ := hS
  exact hn.1.file h

theorem input_ok (hn : ScriptName I) (hI : InputFile fs I ap w) : Kind.file.Ok (fun f => (fs f).isSome) I := by
  obtain ⟨rs, h, _⟩ := hI
  exact hn.1.file h

theorem str_ordinary {key S : String} (h : (("result".toList).isPrefixOf key.toList) = false)
    (h' : (key.toList.contains '\n') = false) (hn : ScriptName S) : (⟨key, .str S⟩ : Row).Ordinary :=
  ordinary_other h h' fun s e => by cases e; exact hn.2

theorem lit_ordinary {key s : String} (h : (("result".toList).isPrefixOf key.toList) = false)
    (h' : (key.toList.contains '\n') = false) (hs : (s.toList.contains '\n') = false) : (⟨key, .str s⟩ : Row).Ordinary :=
  ordinary_other h h' fun s e => by cases e; simpa using hs

theorem mem_range_flatMap {α : Type} {P : α → Prop} {len : Nat} {rows : Nat → List α} (h : ∀ i, ∀ r ∈ rows i, P r) :
    ∀ r ∈ (List.range len).flatMap rows, P r := by
  intro r hr
  obtain ⟨i, _, hi⟩ := List.mem_flatMap.1 hr
  exact h i r hi

theorem plain_run (hns : ScriptName S) (hni : ScriptName I) (hS : SpecFile fs S g) (hI : InputFile fs I ap w) (hap : 0 < ap) (hap64 : ap < 2 ^ 64)
    {f : String} {freq : Nat} (hf : Kind.positive.Ok (fun f => (fs f).isSome) f) (hf' : Nat.ofDigitChars 10 f.toList 0 = freq)
    {v : Nat → Bool} (hv : ∀ i ≤ w.length, g.accepts (w.take i) = .ok (v i)) :
    (∃ text r, RunBench L fs ["plain", "--spec", S, "--in", I, "--out-freq", f, "--ap", toString ap] text r) ∧
    ∀ text r, RunBench L fs ["plain", "--spec", S, "--in", I, "--out-freq", f, "--ap", toString ap] text r → r = .ok () ∧
      grepResult text = ((List.range (w.length + 1)).filter fun i => decide (0 < i ∧ freq ∣ i)).map fun i => resultLine (v i) := by
  let items := itemsOf [("--spec", S), ("--in", I), ("--out-freq", f), ("--ap", toString ap)] []
  obtain ⟨skip, hskip, hsk⟩ := skips_found fs items
  have h := C77_plain L fs 0 items (follows_pairs (by
      intro p hp
      simp only [List.mem_cons, List.not_mem_nil, or_false] at hp
      rcases hp with rfl | rfl | rfl | rfl
      · exact ⟨.file, by simp [BenchCmd.usage], file_ok hns hS⟩
      · exact ⟨.file, by simp [BenchCmd.usage], input_ok hni hI⟩
      · exact ⟨.positive, by simp [BenchCmd.usage], hf⟩
      · exact ⟨.positive, by simp [BenchCmd.usage], positive_ok hap hap64 _⟩) (by simp) (by simp [BenchCmd.usage]) (by simp) rfl)
    (readable_of hS hI rfl rfl (ofDigits_toString ap)) hskip
    (st := fun i => (w.take i).foldl g.nx g.init)
    (fun i _ => ((specFile_wf hS).run_ok (specFile_wf hS).init_lt _).1) hv
  rw [show num items "--out-freq" = freq from hf'] at h
  refine ⟨h.1, fun text r hr => ?_⟩
  refine grep_log h hr ?_ ?_ (by simp)
  · rw [List.filterMap_append, List.filterMap_append, List.filterMap_append, skipNotes_results, results_range freq w.length v]
    · rfl
    · intro i
      unfold plainRows
      rw [List.filterMap_cons]
      by_cases hd : freq ∣ i + 1
      · rw [if_pos hd, if_pos hd]
        simp only [List.filterMap_cons, resultLine?_result, List.filterMap_nil]
        rfl
      · rw [if_neg hd, if_neg hd]
        rfl
  · intro r hr
    simp only [List.mem_append, or_assoc] at hr
    rcases hr with hr | hr | hr | hr
    · simp only [List.mem_cons, List.not_mem_nil, or_false] at hr
      rcases hr with rfl | rfl | rfl | rfl | rfl
      · exact ordinary_other (by decide) (by decide) fun s e => by cases e
      · exact lit_ordinary (by decide) (by decide) (by decide)
      · exact str_ordinary (by decide) (by decide) hns
      · exact str_ordinary (by decide) (by decide) hni
      · exact ordinary_num _ (by decide) (by decide)
    · exact skipNotes_ordinary hsk r hr
    · simp only [List.mem_cons, List.not_mem_nil, or_false] at hr
      rcases hr with rfl | rfl <;> exact ordinary_num _ (by decide) (by decide)
    · refine mem_range_flatMap (fun i r hr => ?_) r hr
      unfold plainRows at hr
      rcases List.mem_cons.1 hr with rfl | hr
      · exact ordinary_num _ (by decide) (by decide)
      · split at hr
        · simp only [List.mem_singleton] at hr
          subst hr
          exact ordinary_num _ (by decide) (by decide)
        · simp at hr

theorem bitRows_results (freq : Nat) (info : Nat → List Row) (v : Nat → Bool) (i : Nat) (hi : ∀ r ∈ info i, r.resultLine? = none) :
    (bitRows freq info v i).filterMap Row.resultLine? = if freq ∣ i + 1 then [resultLine (v (i + 1))] else [] := by
  unfold bitRows
  have h1 : (info i).filterMap Row.resultLine? = [] := List.filterMap_eq_nil_iff.2 hi
  rw [List.filterMap_append, List.filterMap_append, List.filterMap_append, h1]
  by_cases hd : freq ∣ i + 1
  · rw [if_pos hd, if_pos hd]
    simp only [List.filterMap_cons, resultLine?_result, List.filterMap_nil]
    rfl
  · rw [if_neg hd, if_neg hd]
    rfl

theorem bitRows_ordinary (freq : Nat) (info : Nat → List Row) (v : Nat → Bool) (i : Nat) (hi : ∀ r ∈ info i, r.Ordinary) :
    ∀ r ∈ bitRows freq info v i, r.Ordinary := by
  intro r hr
  unfold bitRows at hr
  simp only [List.mem_append, List.mem_singleton, or_assoc] at hr
  rcases hr with rfl | hr | rfl | hr
  · exact ordinary_other (by decide) (by decide) fun s e => by cases e
  · exact hi r hr
  · exact ordinary_other (by decide) (by decide) fun s e => by cases e
  · split at hr
    · simp only [List.mem_cons, List.not_mem_nil, or_false] at hr
      rcases hr with rfl | rfl
      · exact ordinary_other (by decide) (by decide) fun s e => by cases e
      · exact ordinary_num _ (by decide) (by decide)
    · simp at hr

theorem onlineRows_results (skip : List (List Char)) (states len freq : Nat) (info : Nat → List Row) (v : Nat → Bool)
    (hi : ∀ i, ∀ r ∈ info i, r.Ordinary ∧ r.resultLine? = none) :
    (onlineRows skip states len freq info v).filterMap Row.resultLine? =
      ((List.range (len + 1)).filter fun i => decide (0 < i ∧ freq ∣ i)).map fun i => resultLine (v i) := by
  unfold onlineRows
  rw [List.filterMap_append, List.filterMap_append, List.filterMap_append, skipNotes_results,
    results_range freq len v _ fun i => bitRows_results freq info v i fun r hr => (hi i r hr).2]
  rfl

theorem onlineRows_ordinary {skip : List (List Char)} (hskip : ∀ l ∈ skip, '\n' ∉ l) (states len freq : Nat) (info : Nat → List Row) (v : Nat → Bool)
    (hi : ∀ i, ∀ r ∈ info i, r.Ordinary ∧ r.resultLine? = none) : ∀ r ∈ onlineRows skip states len freq info v, r.Ordinary := by
  intro r hr
  unfold onlineRows at hr
  simp only [List.mem_append, or_assoc] at hr
  rcases hr with hr | hr | hr | hr
  · simp only [List.mem_cons, List.not_mem_nil, or_false] at hr
    rcases hr with rfl | rfl <;> exact ordinary_other (by decide) (by decide) fun s e => by cases e
  · exact skipNotes_ordinary hskip r hr
  · simp only [List.mem_cons, List.not_mem_nil, or_false] at hr
    rcases hr with rfl | rfl | rfl
    · exact ordinary_other (by decide) (by decide) fun s e => by cases e
    · exact ordinary_num _ (by decide) (by decide)
    · exact ordinary_num _ (by decide) (by decide)
  · exact mem_range_flatMap (fun i => bitRows_ordinary freq info v i fun r hr => (hi i r hr).1) r hr

variable {δ : Noise} {Enc : L.Key → Gsw l N → Bool → Prop}

theorem offline_run (hL : L.Sound δ Enc) (hN : 0 < N) (hns : ScriptName S) (hni : ScriptName I) (hS : SpecFile fs S g) (hI : InputFile fs I ap w)
    (hap : 0 < ap) (hap64 : ap < 2 ^ 64) (hbud : δ.br + 30000 * δ.cmux + δ.ks + δ.ms < 2 ^ 30) (h31 : w.length < 2 ^ 31)
    {b : Bool} (hb : g.accepts w = .ok b) :
    (∃ text r, RunBench L fs ["offline", "--spec", S, "--in", I, "--bootstrapping-freq", "30000", "--ap", toString ap] text r) ∧
    ∀ text r, RunBench L fs ["offline", "--spec", S, "--in", I, "--bootstrapping-freq", "30000", "--ap", toString ap] text r → r = .ok () ∧
      grepResult text = [resultLine (if w = [] then false else b)] := by
  let items := itemsOf [("--spec", S), ("--in", I), ("--bootstrapping-freq", "30000"), ("--ap", toString ap)] []
  obtain ⟨skip, hskip, hsk⟩ := skips_found fs items
  have h := C77_offline hL hN fs 0 items (follows_pairs (by
      intro p hp
      simp only [List.mem_cons, List.not_mem_nil, or_false] at hp
      rcases hp with rfl | rfl | rfl | rfl
      · exact ⟨.file, by simp [BenchCmd.usage], file_ok hns hS⟩
      · exact ⟨.file, by simp [BenchCmd.usage], input_ok hni hI⟩
      · exact ⟨.positive, by simp [BenchCmd.usage], positive_ok (k := 30000) (by omega) (by omega) _⟩
      · exact ⟨.positive, by simp [BenchCmd.usage], positive_ok hap hap64 _⟩) (by simp) (by simp [BenchCmd.usage]) (by simp) rfl) (by rfl)
    (readable_of hS hI rfl rfl (ofDigits_toString ap)) hskip (by
      rw [show num items "--bootstrapping-freq" = 30000 from (by decide : Nat.ofDigitChars 10 "30000".toList 0 = 30000)]; exact hbud) h31 hb
  refine ⟨h.1, fun text r hr => ?_⟩
  refine grep_log h hr ?_ ?_ (by simp)
  · have hmid : ((List.range w.length).flatMap fun i => [(⟨"enc", .time⟩ : Row)] ++ bootNote (decide (0 < 0)) (num items "--bootstrapping-freq") i ++
        [⟨"run", .time⟩]).filterMap Row.resultLine? = [] := by
      rw [List.filterMap_eq_nil_iff]
      refine mem_range_flatMap fun i r hr => ?_
      rw [bootNote_off] at hr
      simp only [List.append_nil, List.cons_append, List.nil_append, List.mem_cons, List.not_mem_nil, or_false] at hr
      rcases hr with rfl | rfl <;> rfl
    rw [List.filterMap_append, List.filterMap_append, List.filterMap_append, List.filterMap_append, skipNotes_results, hmid]
    have : (if w = [] then 0 else b.toNat) = (if w = [] then false else b).toNat := by split <;> rfl
    rw [this]
    simp only [List.filterMap_cons, resultLine?_result, List.filterMap_nil]
    rfl
  · intro r hr
    simp only [List.mem_append, or_assoc] at hr
    rcases hr with hr | hr | hr | hr | hr
    · simp only [List.mem_cons, List.not_mem_nil, or_false] at hr
      rcases hr with rfl | rfl | rfl | rfl | rfl | rfl | rfl | rfl | rfl
      · exact ordinary_other (by decide) (by decide) fun s e => by cases e
      · exact lit_ordinary (by decide) (by decide) (by decide)
      · exact str_ordinary (by decide) (by decide) hns
      · exact str_ordinary (by decide) (by decide) hni
      · exact ordinary_num _ (by decide) (by decide)
      · exact ordinary_num _ (by decide) (by decide)
      · exact ordinary_num _ (by decide) (by decide)
      · exact ordinary_other (by decide) (by decide) fun s e => by cases e
      · exact ordinary_other (by decide) (by decide) fun s e => by cases e
    · exact skipNotes_ordinary hsk r hr
    · simp only [List.mem_cons, List.not_mem_nil, or_false] at hr
      rcases hr with rfl | rfl | rfl
      · exact ordinary_other (by decide) (by decide) fun s e => by cases e
      · exact ordinary_num _ (by decide) (by decide)
      · exact ordinary_num _ (by decide) (by decide)
    · refine mem_range_flatMap (fun i r hr => ?_) r hr
      rw [bootNote_off] at hr
      simp only [List.append_nil, List.cons_append, List.nil_append, List.mem_cons, List.not_mem_nil, or_false] at hr
      rcases hr with rfl | rfl <;> exact ordinary_other (by decide) (by decide) fun s e => by cases e
    · simp only [List.mem_cons, List.not_mem_nil, or_false] at hr
      rcases hr with rfl | rfl
      · exact ordinary_other (by decide) (by decide) fun s e => by cases e
      · exact ordinary_num _ (by decide) (by decide)

theorem reversed_run (hL : L.Sound δ Enc) (hN : 0 < N) (hns : ScriptName S) (hni : ScriptName I) (hS : SpecFile fs S g) (hI : InputFile fs I ap w)
    (hap : 0 < ap) (hap64 : ap < 2 ^ 64) (hbud : δ.br + 30000 * δ.cmux + δ.ks + δ.ms < 2 ^ 30) {v : Nat → Bool}
    (hv : ∀ i ≤ w.length, g.accepts (w.take i).reverse = .ok (v i)) :
    (∃ text r, RunBench L fs ["reversed", "--spec", S, "--in", I, "--bootstrapping-freq", "30000", "--out-freq", "30", "--ap", toString ap,
      "--spec-reversed"] text r) ∧
    ∀ text r, RunBench L fs ["reversed", "--spec", S, "--in", I, "--bootstrapping-freq", "30000", "--out-freq", "30", "--ap", toString ap,
      "--spec-reversed"] text r → r = .ok () ∧ grepResult text = (reported w.length).map fun i => resultLine (v i) := by
  let items := itemsOf [("--spec", S), ("--in", I), ("--bootstrapping-freq", "30000"), ("--out-freq", "30"), ("--ap", toString ap)] ["--spec-reversed"]
  have hrev : has items "--spec-reversed" = true := by
    unfold has
    rw [decide_eq_true_eq]
    simp [items, itemsOf]
  have hsan : has items "--sanitize-result" = false := by
    unfold has
    rw [decide_eq_false_iff_not]
    simp [items, itemsOf]
  obtain ⟨skip, hskip, hsk⟩ := skips_found fs items
  have h := C77_reversed hL hN fs 0 items (follows_pairs (by
      intro p hp
      simp only [List.mem_cons, List.not_mem_nil, or_false] at hp
      rcases hp with rfl | rfl | rfl | rfl | rfl
      · exact ⟨.file, by simp [BenchCmd.usage], file_ok hns hS⟩
      · exact ⟨.file, by simp [BenchCmd.usage], input_ok hni hI⟩
      · exact ⟨.positive, by simp [BenchCmd.usage], positive_ok (k := 30000) (by omega) (by omega) _⟩
      · exact ⟨.positive, by simp [BenchCmd.usage], positive_ok (k := 30) (by omega) (by omega) _⟩
      · exact ⟨.positive, by simp [BenchCmd.usage], positive_ok hap hap64 _⟩) (by simp) (by simp [BenchCmd.usage]) (by decide) rfl) hsan
    (readable_of hS hI rfl rfl (ofDigits_toString ap)) hskip (by
      rw [show num items "--bootstrapping-freq" = 30000 from (by decide : Nat.ofDigitChars 10 "30000".toList 0 = 30000)]; exact hbud) (v := v) (by rw [hrev]; exact hv) (states := g.size) (by rw [hrev]; rfl)
  refine ⟨h.1, fun text r hr => ?_⟩
  refine grep_log h hr ?_ ?_ ?_
  · rw [List.filterMap_append, onlineRows_results _ _ _ _ _ _ (by intro i; rw [bootNote_off]; simp),
      show num items "--out-freq" = 30 from (by decide : Nat.ofDigitChars 10 "30".toList 0 = 30)]
    rfl
  · intro r hr
    rcases List.mem_append.1 hr with hr | hr
    · simp only [List.mem_cons, List.not_mem_nil, or_false] at hr
      rcases hr with rfl | rfl | rfl | rfl | rfl | rfl | rfl | rfl
      · exact ordinary_other (by decide) (by decide) fun s e => by cases e
      · exact lit_ordinary (by decide) (by decide) (by decide)
      · exact str_ordinary (by decide) (by decide) hns
      · exact str_ordinary (by decide) (by decide) hni
      all_goals exact ordinary_num _ (by decide) (by decide)
    · exact onlineRows_ordinary hsk _ _ _ _ _ (by intro i; rw [bootNote_off]; simp) r hr
  · intro r hr
    unfold reversedTotals at hr
    rcases List.mem_append.1 hr with hr | hr
    · exact total_ordinary (by decide) (by decide) r hr
    · exact total_ordinary (by decide) (by decide) r hr

theorem flut_run (hL : L.Sound δ Enc) (hns : ScriptName S) (hni : ScriptName I) (hS : SpecFile fs S g) (hI : InputFile fs I ap w)
    (hap : 0 < ap) (hap64 : ap < 2 ^ 64) {W : Nat} (hW : LiveMax g W) (hWd : W < 2 ^ 8) (hN : 2 ^ 8 ≤ N)
    (hbud : W * 2 ^ 7 * flutErr δ W 15 0 + 15 * δ.cmux + δ.ks + δ.ms < 2 ^ 30) {v : Nat → Bool}
    (hv : ∀ i ≤ w.length, g.accepts (w.take i) = .ok (v i)) :
    (∃ text r, RunBench L fs ["qtrlwe2", "--spec", S, "--in", I, "--bootstrapping-freq", "1", "--out-freq", "30", "--ap", toString ap,
      "--queue-size", "15", "--max-second-lut-depth", "8"] text r) ∧
    ∀ text r, RunBench L fs ["qtrlwe2", "--spec", S, "--in", I, "--bootstrapping-freq", "1", "--out-freq", "30", "--ap", toString ap,
      "--queue-size", "15", "--max-second-lut-depth", "8"] text r → r = .ok () ∧
      grepResult text = (reported w.length).map fun i => resultLine (v i) := by
  let items := itemsOf [("--spec", S), ("--in", I), ("--bootstrapping-freq", "1"), ("--out-freq", "30"), ("--ap", toString ap),
    ("--queue-size", "15"), ("--max-second-lut-depth", "8")] []
  have e1 : num items "--queue-size" = 15 := (by decide : Nat.ofDigitChars 10 "15".toList 0 = 15)
  have e2 : num items "--max-second-lut-depth" = 8 := (by decide : Nat.ofDigitChars 10 "8".toList 0 = 8)
  have e3 : num items "--bootstrapping-freq" = 1 := (by decide : Nat.ofDigitChars 10 "1".toList 0 = 1)
  obtain ⟨skip, hskip, hsk⟩ := skips_found fs items
  have h := C77_qtrlwe2 hL fs 0 items (follows_pairs (by
      intro p hp
      simp only [List.mem_cons, List.not_mem_nil, or_false] at hp
      rcases hp with rfl | rfl | rfl | rfl | rfl | rfl | rfl
      · exact ⟨.file, by simp [BenchCmd.usage], file_ok hns hS⟩
      · exact ⟨.file, by simp [BenchCmd.usage], input_ok hni hI⟩
      · exact ⟨.positive, by simp [BenchCmd.usage], positive_ok (k := 1) (by omega) (by omega) _⟩
      · exact ⟨.positive, by simp [BenchCmd.usage], positive_ok (k := 30) (by omega) (by omega) _⟩
      · exact ⟨.positive, by simp [BenchCmd.usage], positive_ok hap hap64 _⟩
      · exact ⟨.positive, by simp [BenchCmd.usage], positive_ok (k := 15) (by omega) (by omega) _⟩
      · exact ⟨.positive, by simp [BenchCmd.usage], positive_ok (k := 8) (by omega) (by omega) _⟩) (by simp) (by simp [BenchCmd.usage]) (by simp) rfl) (by rfl)
    (readable_of hS hI rfl rfl (ofDigits_toString ap)) hskip hW (by rw [e2]; exact hWd) (by rw [e1]; decide)
    (by rw [e2]; decide) (by rw [e2]; exact hN) (by rw [e1, e3]; exact hbud) hv
  have hinfo : ∀ i, ∀ r ∈ flutInfo g (num items "--out-freq") (num items "--queue-size") (num items "--max-second-lut-depth") i ++
      flutNotes (decide (0 < 0)) g (num items "--out-freq") (num items "--queue-size") (num items "--max-second-lut-depth") i, r.Ordinary ∧ r.resultLine? = none := by
    intro i r hr
    rw [flutNotes_off, List.append_nil] at hr
    unfold flutInfo at hr
    simp only [List.mem_cons, List.not_mem_nil, or_false] at hr
    rcases hr with rfl | rfl | rfl <;> exact ⟨ordinary_num _ (by decide) (by decide), rfl⟩
  refine ⟨h.1, fun text r hr => ?_⟩
  refine grep_log h hr ?_ ?_ (by simp)
  · rw [List.filterMap_append, onlineRows_results _ _ _ _ _ _ hinfo,
      show num items "--out-freq" = 30 from (by decide : Nat.ofDigitChars 10 "30".toList 0 = 30)]
    rfl
  · intro r hr
    rcases List.mem_append.1 hr with hr | hr
    · simp only [List.mem_cons, List.not_mem_nil, or_false] at hr
      rcases hr with rfl | rfl | rfl | rfl | rfl | rfl | rfl | rfl | rfl | rfl
      · exact ordinary_other (by decide) (by decide) fun s e => by cases e
      · exact lit_ordinary (by decide) (by decide) (by decide)
      · exact str_ordinary (by decide) (by decide) hns
      · exact str_ordinary (by decide) (by decide) hni
      all_goals exact ordinary_num _ (by decide) (by decide)
    · exact onlineRows_ordinary hsk _ _ _ _ _ hinfo r hr

theorem bbs_run (hL : L.Sound δ Enc) (hns : ScriptName S) (hni : ScriptName I) (hS : SpecFile fs S g) (hI : InputFile fs I ap w)
    (hap : 0 < ap) (hap64 : ap < 2 ^ 64) {B : Nat} (hB : LiveBits g B) (hBN : B < N) (hB31 : B < 31) (hbud : (30 + B) * δ.cmux + δ.cb < 2 ^ 29)
    {v : Nat → Bool} (hv : ∀ i ≤ w.length, g.accepts (w.take i) = .ok (v i)) :
    (∃ text r, RunBench L fs ["bbs", "--spec", S, "--in", I, "--out-freq", "30", "--ap", toString ap, "--queue-size", "30"] text r) ∧
    ∀ text r, RunBench L fs ["bbs", "--spec", S, "--in", I, "--out-freq", "30", "--ap", toString ap, "--queue-size", "30"] text r →
      r = .ok () ∧ grepResult text = (reported w.length).map fun i => resultLine (v i) := by
  let items := itemsOf [("--spec", S), ("--in", I), ("--out-freq", "30"), ("--ap", toString ap), ("--queue-size", "30")] []
  have e1 : num items "--queue-size" = 30 := (by decide : Nat.ofDigitChars 10 "30".toList 0 = 30)
  obtain ⟨skip, hskip, hsk⟩ := skips_found fs items
  have h := C77_bbs hL fs 0 items (follows_pairs (by
      intro p hp
      simp only [List.mem_cons, List.not_mem_nil, or_false] at hp
      rcases hp with rfl | rfl | rfl | rfl | rfl
      · exact ⟨.file, by simp [BenchCmd.usage], file_ok hns hS⟩
      · exact ⟨.file, by simp [BenchCmd.usage], input_ok hni hI⟩
      · exact ⟨.positive, by simp [BenchCmd.usage], positive_ok (k := 30) (by omega) (by omega) _⟩
      · exact ⟨.positive, by simp [BenchCmd.usage], positive_ok hap hap64 _⟩
      · exact ⟨.positive, by simp [BenchCmd.usage], positive_ok (k := 30) (by omega) (by omega) _⟩) (by simp) (by simp [BenchCmd.usage]) (by simp) rfl) (by rfl)
    (readable_of hS hI rfl rfl (ofDigits_toString ap)) hskip hB hBN hB31 (by rw [e1]; decide) (by rw [e1]; exact hbud) hv
  have hinfo : ∀ i, ∀ r ∈ blockInfo g (num items "--out-freq") (num items "--queue-size") i, r.Ordinary ∧ r.resultLine? = none := by
    intro i r hr
    unfold blockInfo at hr
    simp only [List.mem_cons, List.not_mem_nil, or_false] at hr
    obtain rfl := hr
    exact ⟨ordinary_num _ (by decide) (by decide), rfl⟩
  refine ⟨h.1, fun text r hr => ?_⟩
  refine grep_log h hr ?_ ?_ ?_
  · rw [List.filterMap_append, onlineRows_results _ _ _ _ _ _ hinfo,
      show num items "--out-freq" = 30 from (by decide : Nat.ofDigitChars 10 "30".toList 0 = 30)]
    rfl
  · intro r hr
    rcases List.mem_append.1 hr with hr | hr
    · simp only [List.mem_cons, List.not_mem_nil, or_false] at hr
      rcases hr with rfl | rfl | rfl | rfl | rfl | rfl | rfl | rfl
      · exact ordinary_other (by decide) (by decide) fun s e => by cases e
      · exact lit_ordinary (by decide) (by decide) (by decide)
      · exact str_ordinary (by decide) (by decide) hns
      · exact str_ordinary (by decide) (by decide) hni
      all_goals exact ordinary_num _ (by decide) (by decide)
    · exact onlineRows_ordinary hsk _ _ _ _ _ hinfo r hr
  · intro r hr
    unfold blockTotals at hr
    rcases List.mem_append.1 hr with hr | hr
    · exact total_ordinary (by decide) (by decide) r hr
    · exact total_ordinary (by decide) (by decide) r hr

/-! ## The script -/

theorem run_bench {s : Scratch} {mode a S I f : String} {cs : List TestCmd} {logs : List (String × List Char)} {ok : Bool}
    {toks : List String} (ht : runBenchmark mode a S I f = some toks) (h : TestRun L fs s (.bench mode a S I f :: cs) logs ok) :
    (∃ text logs', RunBench L fs toks text (.ok ()) ∧ TestRun L fs { s with log := text } cs logs' ok ∧ logs = (mode, text) :: logs') ∨
    (∃ text e, RunBench L fs toks text (.error e) ∧ ok = false) := by
  generalize hc : TestCmd.bench mode a S I f :: cs = cmds at h
  cases h with
  | done => cases hc
  | stop h =>
    injection hc with h1 h2
    subst h1
    generalize hb : false = b at h
    cases h with
    | @bench _ _ _ _ _ toks' text r h1 h2 =>
      rw [ht] at h1; injection h1 with h1; subst h1
      cases r with
      | ok _ => cases hb
      | error e => exact .inr ⟨text, e, h2, hb.symm⟩
    | failwith h1 => rw [ht] at h1; cases h1
  | next h h' =>
    injection hc with h1 h2
    subst h1 h2
    generalize hb : true = b at h
    cases h with
    | @bench _ _ _ _ _ toks' text r h1 h2 =>
      rw [ht] at h1; injection h1 with h1; subst h1
      cases r with
      | ok _ => exact .inl ⟨text, _, h2, h', rfl⟩
      | error e => cases hb
    | failwith h1 => cases hb

theorem run_keepLast {s : Scratch} {cs : List TestCmd} {logs : List (String × List Char)} {ok : Bool}
    (h : TestRun L fs s (.keepLast :: cs) logs ok) : TestRun L fs { s with last := (grepResult s.log).getLast?.toList } cs logs ok := by
  generalize hc : TestCmd.keepLast :: cs = cmds at h
  cases h with
  | done => cases hc
  | stop h => injection hc with h1 h2; subst h1; cases h
  | next h h' => injection hc with h1 h2; subst h1 h2; cases h; exact h'

theorem run_keep {s : Scratch} {cs : List TestCmd} {logs : List (String × List Char)} {ok : Bool}
    (h : TestRun L fs s (.keep :: cs) logs ok) :
    (grepResult s.log = [] ∧ ok = false) ∨ (grepResult s.log ≠ [] ∧ TestRun L fs { s with plain := grepResult s.log } cs logs ok) := by
  generalize hc : TestCmd.keep :: cs = cmds at h
  cases h with
  | done => cases hc
  | stop h =>
    injection hc with h1 h2; subst h1
    generalize hb : false = b at h
    cases h
    exact .inl ⟨by simpa using hb, rfl⟩
  | next h h' =>
    injection hc with h1 h2; subst h1 h2
    generalize hb : true = b at h
    cases h
    exact .inr ⟨by simpa using hb, h'⟩

theorem run_diffLast {s : Scratch} {cs : List TestCmd} {logs : List (String × List Char)} {ok : Bool}
    (h : TestRun L fs s (.diffLast :: cs) logs ok) :
    (s.last ≠ grepResult s.log ∧ ok = false) ∨ (s.last = grepResult s.log ∧ TestRun L fs s cs logs ok) := by
  generalize hc : TestCmd.diffLast :: cs = cmds at h
  cases h with
  | done => cases hc
  | stop h =>
    injection hc with h1 h2; subst h1
    generalize hb : false = b at h
    cases h
    exact .inl ⟨by simpa using hb, rfl⟩
  | next h h' =>
    injection hc with h1 h2; subst h1 h2
    generalize hb : true = b at h
    cases h
    exact .inr ⟨by simpa using hb, h'⟩

theorem run_diff {s : Scratch} {cs : List TestCmd} {logs : List (String × List Char)} {ok : Bool}
    (h : TestRun L fs s (.diff :: cs) logs ok) :
    (s.plain ≠ grepResult s.log ∧ ok = false) ∨ (s.plain = grepResult s.log ∧ TestRun L fs s cs logs ok) := by
  generalize hc : TestCmd.diff :: cs = cmds at h
  cases h with
  | done => cases hc
  | stop h =>
    injection hc with h1 h2; subst h1
    generalize hb : false = b at h
    cases h
    exact .inl ⟨by simpa using hb, rfl⟩
  | next h h' =>
    injection hc with h1 h2; subst h1 h2
    generalize hb : true = b at h
    cases h
    exact .inr ⟨by simpa using hb, h'⟩

/-- a script whose benchmark runs have outcomes has an outcome -/
theorem run_exists : ∀ (cs : List TestCmd) (s : Scratch), (∀ mode a S I f, TestCmd.bench mode a S I f ∈ cs →
    ∃ toks, runBenchmark mode a S I f = some toks ∧ ∃ text r, RunBench L fs toks text r) → ∃ logs ok, TestRun L fs s cs logs ok
  | [], s, _ => ⟨_, _, .done⟩
  | c :: cs, s, h => by
    have hstep : ∃ t logs ok, TestStep L fs s c t logs ok := by
      cases c with
      | bench mode a S I f =>
        obtain ⟨toks, h1, text, r, h2⟩ := h mode a S I f (by simp)
        exact ⟨_, _, _, .bench h1 h2⟩
      | keepLast => exact ⟨_, _, _, .keepLast⟩
      | keep => exact ⟨_, _, _, .keep⟩
      | diffLast => exact ⟨_, _, _, .diffLast⟩
      | diff => exact ⟨_, _, _, .diff⟩
    obtain ⟨t, logs, ok, h1⟩ := hstep
    cases ok with
    | false => exact ⟨_, _, .stop h1⟩
    | true =>
      obtain ⟨logs', ok', h2⟩ := run_exists cs t fun mode a S I f hm => h mode a S I f (List.mem_cons_of_mem _ hm)
      exact ⟨_, _, .next h1 h2⟩

theorem reported_nil (len : Nat) : reported len = [] ↔ len < 30 := by
  unfold reported
  rw [List.filter_eq_nil_iff]
  constructor
  · intro h
    by_contra hlen
    exact h 30 (by simp; omega) (by decide)
  · intro h i hi
    have := List.mem_range.1 hi
    simp only [decide_eq_true_eq, not_and]
    intro h0 hd
    obtain ⟨k, rfl⟩ := hd
    omega

theorem reported_mem (len i : Nat) : i ∈ reported len ↔ i ≤ len ∧ 0 < i ∧ 30 ∣ i := by
  unfold reported
  rw [List.mem_filter, List.mem_range, decide_eq_true_eq]
  omega

theorem resultLine_inj {a b : Bool} (h : resultLine a = resultLine b) : a = b := by
  revert h; cases a <;> cases b <;> decide

theorem reported_eq {len : Nat} {u v : Nat → Bool} :
    ((reported len).map fun i => resultLine (u i)) = ((reported len).map fun i => resultLine (v i)) ↔ ∀ i ≤ len, 0 < i → 30 ∣ i → u i = v i := by
  rw [List.map_inj_left]
  constructor
  · intro h i h1 h2 h3
    exact resultLine_inj (h i ((reported_mem len i).2 ⟨h1, h2, h3⟩))
  · intro h i hi
    obtain ⟨h1, h2, h3⟩ := (reported_mem len i).1 hi
    rw [h i h1 h2 h3]

theorem last_line {len : Nat} (h : 0 < len) (v : Nat → Bool) :
    (((List.range (len + 1)).filter fun i => decide (0 < i ∧ 1 ∣ i)).map fun i => resultLine (v i)).getLast?.toList = [resultLine (v len)] := by
  rw [List.range_succ, List.filter_append, List.map_append]
  have : ([len].filter fun i => decide (0 < i ∧ 1 ∣ i)) = [len] := by simp [h]
  rw [this]
  simp

end Homfa.Cli
