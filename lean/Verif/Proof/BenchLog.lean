import Verif.Spec.BenchLog
import Verif.Spec.Shell
import Verif.Proof.Count
import Verif.Props.Bench
import Verif.Props.Timeit

/-! # The log of the benchmark program -/

namespace Homfa.Cli

variable {N n l : Nat} {σ : Type}

/-! ## Computations that print -/

theorem out_ok {α β : Type} (rows : List Row) (a : α) (f : α → Out β) : ((⟨rows, .ok a⟩ : Out α) >>= f) = ⟨rows ++ (f a).rows, (f a).res⟩ := rfl

theorem out_error {α β : Type} (rows : List Row) (e : Err) (f : α → Out β) : ((⟨rows, .error e⟩ : Out α) >>= f) = ⟨rows, .error e⟩ := rfl

theorem out_pure {α : Type} (a : α) : (pure a : Out α) = ⟨[], .ok a⟩ := rfl

theorem quiet_bind {α β : Type} (a : α) (f : α → Out β) : (quiet (.ok a) >>= f) = f a := rfl

theorem quiet_error {α β : Type} (e : Err) (f : α → Out β) : (quiet (.error e : Res α) >>= f) = ⟨[], .error e⟩ := rfl

theorem print_bind {β : Type} (key : String) (v : Val) (f : Unit → Out β) : (print key v >>= f) = ⟨⟨key, v⟩ :: (f ()).rows, (f ()).res⟩ := rfl

theorem out_pure_bind {α β : Type} (a : α) (f : α → Out β) : ((pure a : Out α) >>= f) = f a := rfl

theorem out_assoc {α β γ : Type} (x : Out α) (f : α → Out β) (g : β → Out γ) : (x >>= f >>= g) = (x >>= fun a => f a >>= g) := by
  obtain ⟨rows, _ | a⟩ := x
  · rfl
  · rw [out_ok, out_ok]
    rcases hf : f a with ⟨rows', _ | b⟩
    · rfl
    · rw [out_ok]
      dsimp only
      rw [List.append_assoc]
      rfl

instance : LawfulMonad Out := LawfulMonad.mk' Out
  (id_map := by rintro α ⟨rows, _ | a⟩ <;> simp [Functor.map, Out.bind, Pure.pure])
  (pure_bind := fun _ _ => rfl)
  (bind_assoc := out_assoc)

theorem elapsed_ok {α : Type} (key : String) {x : Out α} {rows : List Row} {a : α} (h : x = ⟨rows, .ok a⟩) :
    printElapsed key x = ⟨rows ++ [⟨key, .time⟩], .ok a⟩ := by
  subst h; rfl

/-! ## `each_input_bit` -/

theorem inputByteOut_eq (func : σ → Bool → Out σ) : ∀ (n : Nat) (v : Byte) (rest : Nat) (s : σ),
    inputByteOut func n v rest s =
      (((List.range (min n rest)).map v.getLsbD).foldlM func s >>= fun s => pure (rest - n, s))
  | 0, v, rest, s => by simp [inputByteOut]
  | n + 1, v, rest, s => by
    unfold inputByteOut
    by_cases h : rest = 0
    · subst h; simp
    · obtain ⟨r, rfl⟩ := Nat.exists_eq_succ_of_ne_zero h
      rw [if_neg h, lowBit, Nat.succ_eq_add_one, Nat.add_min_add_right, List.range_succ_eq_map, List.map_cons,
        List.foldlM_cons, List.map_map]
      have hsh : (List.map (v.getLsbD ∘ Nat.succ) (List.range (min n r))) =
          List.map (v >>> 1).getLsbD (List.range (min n r)) := by
        refine List.map_congr_left fun i _ => ?_
        simp [Nat.add_comm]
      rw [hsh, out_assoc]
      congr 1
      funext s'
      rw [inputByteOut_eq]
      simp

theorem inputBytesOut_record (ap : Nat) (func : σ → Bool → Out σ) : ∀ (rec : List Byte) (rest : Nat) (bytes : List Byte)
    (s : σ), 0 < rest → rec.length = recordBytes rest →
    inputBytesOut ap func (rec ++ bytes) rest s =
      ((recordBits rest rec).foldlM func s >>= fun s => inputBytesOut ap func bytes 0 s)
  | [], rest, bytes, s, h, hl => by
    simp only [List.length_nil, recordBytes] at hl; omega
  | v :: rec, rest, bytes, s, h, hl => by
    rw [List.cons_append, inputBytesOut, if_neg (by omega : ¬ rest = 0)]
    simp only [List.length_cons, recordBytes] at hl
    rw [inputByteOut_eq, out_assoc]
    simp only [out_pure_bind]
    by_cases h8 : rest ≤ 8
    · have hrec : rec = [] := by
        apply List.length_eq_zero_iff.1; omega
      subst hrec
      have hb : recordBits rest [v] = (List.range (min 8 rest)).map v.getLsbD := by
        rw [Nat.min_eq_right h8]
        refine List.map_congr_left fun i hi => ?_
        have hi := List.mem_range.1 hi
        simp [propBit, show i / 8 = 0 by omega, show i % 8 = i by omega]
      rw [hb, show rest - 8 = 0 by omega]
      rfl
    · have hb : recordBits rest (v :: rec) = (List.range (min 8 rest)).map v.getLsbD ++ recordBits (rest - 8) rec := by
        rw [Nat.min_eq_left (by omega)]
        have : rest = 8 + (rest - 8) := by omega
        conv_lhs => rw [recordBits, this, List.range_add, List.map_append, List.map_map]
        congr 1
        · refine List.map_congr_left fun i _ => ?_
          simp [propBit, show (8 + i) / 8 = i / 8 + 1 by omega]
      rw [hb, List.foldlM_append, out_assoc]
      congr 1
      funext s'
      exact inputBytesOut_record ap func rec (rest - 8) bytes s' (by omega) (by unfold recordBytes; omega)

theorem inputBytesOut_records (ap : Nat) (hap : 0 < ap) (func : σ → Bool → Out σ) : ∀ (rs : List (List Byte)) (s : σ),
    (∀ r ∈ rs, r.length = recordBytes ap) →
    inputBytesOut ap func rs.flatten 0 s = ((rs.flatMap (recordBits ap)).foldlM func s >>= fun s => pure (0, s))
  | [], s, _ => by simp [inputBytesOut]
  | r :: rs, s, h => by
    have hr := h r (by simp)
    rw [List.flatten_cons, List.flatMap_cons, List.foldlM_append, out_assoc]
    have h0 : inputBytesOut ap func (r ++ rs.flatten) 0 s = inputBytesOut ap func (r ++ rs.flatten) ap s := by
      cases r with
      | nil => simp only [List.length_nil, recordBytes] at hr; omega
      | cons v rec => rw [List.cons_append, inputBytesOut, inputBytesOut, if_pos rfl, if_neg (by omega)]
    rw [h0, inputBytesOut_record ap func r ap _ s hap hr]
    congr 1
    funext s'
    exact inputBytesOut_records ap hap func rs s' (fun r hr => h r (by simp [hr]))

/-- on complete records, the callback is called on the bits of the records in order -/
theorem eachOut_records {ap : Nat} (hap : 0 < ap) {rs : List (List Byte)} (hrs : ∀ r ∈ rs, r.length = recordBytes ap)
    (func : σ → Bool → Out σ) (s : σ) :
    eachInputBitOut (some rs.flatten) ap func s = (rs.flatMap (recordBits ap)).foldlM func s := by
  unfold eachInputBitOut
  rw [quiet_bind, inputBytesOut_records ap hap func rs s hrs, out_assoc]
  simp only [out_pure_bind]
  show ((rs.flatMap (recordBits ap)).foldlM func s >>= fun s => pure s) = _
  simp

theorem inputSize_records {ap : Nat} (hap : 0 < ap) {rs : List (List Byte)} (hrs : ∀ r ∈ rs, r.length = recordBytes ap) :
    benchInputSize (some rs.flatten) ap = .ok (rs.flatMap (recordBits ap)).length := by
  unfold benchInputSize
  rw [C19_records ap hap rs hrs]
  generalize rs.flatMap (recordBits ap) = w
  have : ∀ k, List.foldlM (fun (s : Nat) (_ : Bool) => (Except.ok (s + 1) : Res Nat)) k w = .ok (k + w.length) := by
    induction w with
    | nil => intro k; rfl
    | cons b w ih =>
      intro k
      rw [List.foldlM_cons]
      show List.foldlM _ (k + 1) w = _
      rw [ih, List.length_cons]
      congr 1
      omega
  simpa using this 0

/-! ## The loop of the online methods -/

/-- A loop whose turns keep an invariant and print given lines. -/
theorem fold_log {α : Type} (func : σ → α → Out σ) (w : List α) (Inv : Nat → σ → Prop) (rows : Nat → List Row)
    (h : ∀ i (hi : i < w.length) s, Inv i s → ∃ s', func s w[i] = ⟨rows i, .ok s'⟩ ∧ Inv (i + 1) s') :
    ∀ s, Inv 0 s → ∃ s', w.foldlM func s = ⟨(List.range w.length).flatMap rows, .ok s'⟩ ∧ Inv w.length s' := by
  induction w using List.reverseRecOn with
  | nil => intro s hs; exact ⟨s, rfl, hs⟩
  | append_singleton w b ih =>
    intro s hs
    obtain ⟨s1, h1, h2⟩ := ih (by
      intro i hi s hI
      have := h i (by simp; omega) s hI
      rwa [List.getElem_append_left hi] at this) s hs
    obtain ⟨s2, h3, h4⟩ := h w.length (by simp) s1 h2
    rw [List.getElem_append_right (Nat.le_refl _)] at h3
    simp only [Nat.sub_self, List.getElem_cons_zero] at h3
    refine ⟨s2, ?_, by simpa using h4⟩
    rw [List.foldlM_append, h1, out_ok, List.foldlM_cons, h3, out_ok]
    simp [out_pure, List.range_succ]

theorem logTurn_ok {ρ : Type} {S : Scheme N n l} {rand : Nat → Nat} {evalOne : ρ → Gsw l N → Out ρ} {result : ρ → Out (TLWE N × ρ)}
    {info : ρ → List Row} {freq : Nat} (hf : 0 < freq) {r r' r'' : ρ} {i : Nat} {b : Bool} {c : TLWE N} {verdict : Nat → Bool} {inf : Nat → List Row}
    {rowsE rowsR : List Row} (hi : info r ++ rowsE ++ (if freq ∣ i + 1 then rowsR else []) = inf i)
    (he : evalOne r (S.encrypt (rand i) b) = ⟨rowsE, .ok r'⟩)
    (hr : freq ∣ i + 1 → result r' = ⟨rowsR, .ok (c, r'')⟩ ∧ decryptBit c S.sk = verdict (i + 1)) :
    logTurn S rand evalOne result info freq (r, i) b =
      ⟨bitRows freq inf verdict i, .ok (if freq ∣ i + 1 then r'' else r', i + 1)⟩ := by
  unfold logTurn
  dsimp only
  rw [elapsed_ok "enc" (out_pure _), out_ok]
  by_cases hd : freq ∣ i + 1
  · obtain ⟨h1, h2⟩ := hr hd
    rw [if_pos hd] at hi
    rw [elapsed_ok "run" (rows := info r ++ rowsE ++ rowsR) (a := (r'', some c)) (by
      rw [out_ok, he, out_ok, if_neg (by omega), if_neg (by simpa using Nat.mod_eq_zero_of_dvd hd), h1, out_ok]
      simp [out_pure]), out_ok]
    dsimp only
    rw [elapsed_ok "dec" (out_pure _), out_ok, print_bind, hi]
    simp only [if_pos hd, bitRows, hi, h2, out_pure, List.nil_append, List.append_assoc, List.cons_append]
  · rw [if_neg hd, List.append_nil] at hi
    rw [elapsed_ok "run" (rows := info r ++ rowsE) (a := (r', none)) (by
      rw [out_ok, he, out_ok, if_neg (by omega), if_pos (fun h => hd (Nat.dvd_of_mod_eq_zero h))]
      simp [out_pure]), out_ok, hi]
    dsimp only
    simp only [if_neg hd, bitRows, hi, out_pure, List.nil_append, List.cons_append, List.append_nil]

/-! ## The text -/

theorem Shows.append {a b : List Row} {x y : List Char} (ha : Shows a x) (hb : Shows b y) : Shows (a ++ b) (x ++ y) := by
  induction ha with
  | nil => exact hb
  | cons hv _ ih =>
    have := Shows.cons hv ih
    simpa using this
  | @log level s rows text stamp hs _ ih =>
    have := Shows.log (level := level) (s := s) stamp hs ih
    simpa using this

theorem shows_exists : ∀ rows : List Row, ∃ text, Shows rows text
  | [] => ⟨_, .nil⟩
  | ⟨key, v⟩ :: rows => by
    obtain ⟨text, h⟩ := shows_exists rows
    cases v with
    | str s => exact ⟨_, .cons (.str s) h⟩
    | num k => exact ⟨_, .cons (.num k) h⟩
    | time => exact ⟨_, .cons (.time 0) h⟩
    | date => exact ⟨_, .cons (.date ⟨0, 0, 0, 0, 0, 0⟩) h⟩
    | total k => exact ⟨_, .cons (.total k 0) h⟩
    | message s => exact ⟨_, .log [] (by simp) h⟩

/-! ## The dump of the timer -/

/-- the labels of the timer -/
def labelOf : Target → String
  | .circuitBootstrapping => "time_recorder-circuit_bootstrapping"
  | .bootstrapping => "time_recorder-bootstrapping"
  | .cmux => "time_recorder-cmux"

/-- the totals of a timer -/
def totalsOf (timer : List (Target × Nat)) : List Row :=
  [Target.circuitBootstrapping, .bootstrapping, .cmux].flatMap fun t => totalRow (labelOf t) (recorded t timer)

theorem recorded_pos {t : Target} {timer : List (Target × Nat)} (h : ∀ p ∈ timer, p.2 ≠ 0) : recorded t timer = 0 ↔ ∀ p ∈ timer, p.1 ≠ t := by
  induction timer with
  | nil => simp [recorded]
  | cons p timer ih =>
    have hp := h p (by simp)
    have ih := ih fun q hq => h q (by simp [hq])
    rw [show p :: timer = [p] ++ timer from rfl, recorded_append, Nat.add_eq_zero_iff, ih]
    simp only [List.singleton_append, List.mem_cons, forall_eq_or_imp]
    refine and_congr_left fun _ => ?_
    by_cases hpt : p.1 = t <;> simp [recorded, hpt, hp]

theorem samples_total {samples : List Sample} {timer : List (Target × Nat)} (t : Target)
    (h : samples.map (fun s : Sample => (s.target, s.count)) = timer.map (fun p => (p.1, BitVec.ofNat 64 p.2))) :
    totalCount samples t % 2 ^ 64 = recorded t timer % 2 ^ 64 := by
  induction samples generalizing timer with
  | nil =>
    cases timer with
    | nil => rfl
    | cons p timer => cases h
  | cons s samples ih =>
    cases timer with
    | nil => cases h
    | cons p timer =>
      simp only [List.map_cons, List.cons.injEq, Prod.mk.injEq] at h
      obtain ⟨⟨h1, h2⟩, h3⟩ := h
      have ih := ih h3
      have e1 : totalCount (s :: samples) t = (if s.target = t then s.count.toNat else 0) + totalCount samples t := by
        unfold totalCount
        by_cases hs : s.target = t <;> simp [hs]
      have e2 : recorded t (p :: timer) = (if p.1 = t then p.2 else 0) + recorded t timer := by
        unfold recorded
        by_cases hs : p.1 = t <;> simp [hs]
      rw [e1, e2, h1, h2, BitVec.toNat_ofNat, Nat.add_mod, ih, Nat.add_mod (if p.1 = t then p.2 else 0)]
      congr 2
      split <;> simp

theorem samples_time {samples : List Sample} {b : Nat} (h : (samples.map Sample.time).sum < b) (t : Target) : totalTime samples t < b := by
  refine Nat.lt_of_le_of_lt ?_ h
  unfold totalTime
  induction samples with
  | nil => simp
  | cons s samples ih =>
    have ih := ih (by simp at h; omega)
    rw [List.filter_cons]
    split <;> simp at ih ⊢ <;> omega

/-- the line of an entry -/
def entryRow (e : Sample) : Row := ⟨labelOf e.target, .total e.count.toNat⟩

theorem shows_entries : ∀ order : List Sample, Shows (order.map entryRow) (order.flatMap Sample.line)
  | [] => .nil
  | e :: order => by
    have := Shows.cons (row := entryRow e) (Val.Shows.total e.count.toNat e.time) (shows_entries order)
    have hl : (entryRow e).key.toList = e.target.label := by
      unfold entryRow labelOf Target.label
      cases e.target <;> rfl
    rw [List.map_cons, List.flatMap_cons]
    rw [hl] at this
    simpa [Sample.line] using this

/-- what a dump shows -/
theorem dump_rows {samples : List Sample} {timer : List (Target × Nat)} {dump : List Char}
    (h : samples.map (fun s : Sample => (s.target, s.count)) = timer.map (fun p => (p.1, BitVec.ofNat 64 p.2)))
    (ht : (samples.map Sample.time).sum < 2 ^ 63) (hpos : ∀ p ∈ timer, p.2 ≠ 0) (hd : DumpCSV samples dump) :
    ∃ order, order.Perm (totalsOf timer) ∧ Shows order dump := by
  obtain ⟨entries, order, h1, h2, rfl⟩ := hd
  obtain ⟨es, h3, h4⟩ := Timeit.summarize_ok samples (samples_time ht)
  rw [h1] at h3
  cases h3
  refine ⟨order.map entryRow, (h2.map entryRow).trans ?_, shows_entries order⟩
  have e1 : entries.map entryRow = (entries.map Sample.target).map fun t => (⟨labelOf t, .total (recorded t timer % 2 ^ 64)⟩ : Row) := by
    rw [List.map_map]
    refine List.map_congr_left fun e he => ?_
    unfold entryRow
    dsimp only [Function.comp]
    rw [(h4.tot e he).1, samples_total e.target h]
  have e2 : totalsOf timer = (([Target.circuitBootstrapping, .bootstrapping, .cmux].filter fun t => recorded t timer ≠ 0).map
      fun t => (⟨labelOf t, .total (recorded t timer % 2 ^ 64)⟩ : Row)) := by
    unfold totalsOf
    generalize [Target.circuitBootstrapping, .bootstrapping, .cmux] = ts
    induction ts with
    | nil => rfl
    | cons t ts ih =>
      rw [List.flatMap_cons, ih, List.filter_cons]
      unfold totalRow
      by_cases h0 : recorded t timer = 0 <;> simp [h0]
  rw [e1, e2]
  refine List.Perm.map _ ((List.perm_ext_iff_of_nodup h4.nodup (List.Nodup.filter _ (by decide))).2 fun t => ?_)
  rw [h4.mem, List.mem_filter]
  have hall : t ∈ [Target.circuitBootstrapping, .bootstrapping, .cmux] := by cases t <;> decide
  have hmem : (∃ s ∈ samples, s.target = t) ↔ ∃ p ∈ timer, p.1 = t := by
    have h5 := congrArg (List.map Prod.fst) h
    rw [List.map_map, List.map_map] at h5
    have : (t ∈ samples.map (Prod.fst ∘ fun s : Sample => (s.target, s.count))) ↔
        t ∈ timer.map (Prod.fst ∘ fun p : Target × Nat => (p.1, BitVec.ofNat 64 p.2)) := by rw [h5]
    simpa [List.mem_map] using this
  rw [hmem]
  simp only [hall, true_and, ne_eq, decide_not, Bool.not_eq_true', decide_eq_false_iff_not]
  rw [recorded_pos hpos]
  simp

/-! ## Log messages -/

theorem skips_of {p p' : SpecSt} : ∀ {lines : List (List Char)}, lines.foldlM specLine p = .ok p' → ∀ {skip}, Skips lines skip → skipped p lines = skip
  | [], _, _, hs => by cases hs; rfl
  | l :: lines, h, _, hs => by
    rw [List.foldlM_cons] at h
    obtain ⟨p1, h1, h2⟩ := Res.bind_eq_ok.1 h
    unfold skipped
    rw [h1]
    cases hs with
    | skip hl hs => dsimp only; rw [matchSpecLine_none.2 hl, skips_of h2 hs]; rfl
    | state hl hs =>
      dsimp only
      rw [if_neg (by rw [Option.isNone_iff_eq_none]; exact fun e => hl (matchSpecLine_none.1 e)), skips_of h2 hs]
      rfl

theorem readSpecOut_ok {fs : Files} {spec : String} {sb : List Byte} {g : Graph} (hs : fs spec = some sb)
    (hg : Graph.fromIstream (textOf sb) = .ok g) {lines skip : List (List Char)} (hl : Spec.TextLines (textOf sb) lines) (hk : Skips lines skip) :
    readSpecOut fs spec = ⟨skipNotes skip, .ok g⟩ := by
  unfold readSpecOut
  rw [hs]
  show (⟨(skipped _ (getlines '\n' (textOf sb))).map skipRow, Graph.fromIstream (textOf sb)⟩ : Out Graph) = _
  rw [hg, textLines_iff.1 hl]
  unfold Graph.fromIstream at hg
  rw [textLines_iff.1 hl] at hg
  obtain ⟨p, h1, _⟩ := Res.bind_eq_ok.1 hg
  rw [skips_of h1 hk]
  rfl

theorem skips_exists : ∀ lines : List (List Char), ∃ skip, Skips lines skip
  | [] => ⟨_, .nil⟩
  | l :: lines => by
    obtain ⟨skip, h⟩ := skips_exists lines
    by_cases hl : Spec.NotSpecLine l
    · exact ⟨_, .skip hl h⟩
    · exact ⟨_, .state hl h⟩

theorem skipsIn_exists (fs : Files) (items : List Item) : ∃ skip, SkipsIn fs items skip := by
  cases h : fs (opt items "--spec") with
  | none => exact ⟨[], fun sb hs => by rw [h] at hs; cases hs⟩
  | some sb =>
    obtain ⟨skip, hk⟩ := skips_exists (getlines '\n' (textOf sb))
    exact ⟨skip, fun sb' hs => by rw [h] at hs; cases hs; exact ⟨_, textLines_iff.2 rfl, hk⟩⟩

/-- a skipped line is a line -/
theorem skips_line : ∀ {lines skip : List (List Char)}, Skips lines skip → (∀ l ∈ lines, '\n' ∉ l) → ∀ l ∈ skip, '\n' ∉ l
  | _, _, .nil, _ => by simp
  | _, _, .skip _ hs, h => by
    intro l hl
    rcases List.mem_cons.1 hl with rfl | hl
    · exact h _ (by simp)
    · exact skips_line hs (fun l hl => h l (by simp [hl])) l hl
  | _, _, .state _ hs, h => skips_line hs (fun l hl => h l (by simp [hl]))

theorem toString_list (k : Nat) : (toString k).toList = showNat k := by simp [showNat, Nat.repr, toString]

theorem benchVerbose_replicate (k : Nat) (c : BenchCmd) (rest : List String) :
    benchVerbose (List.replicate k "--verbose" ++ c.name :: rest) = decide (0 < k) := by
  cases k with
  | zero => cases c <;> rfl
  | succ k => rfl

theorem dieRows_exists (e : Err) : ∃ errs, DieRows e errs := by
  by_cases h : e = .die
  · subst h; exact ⟨_, .die [] []⟩
  · exact ⟨_, .other h⟩

/-- from the runs of the chosen method to the runs of the program -/
theorem alwaysLogs_of {L : Lib N n l} {fs : Files} {toks : List String} {c : Call} {rows totals : List Row}
    (hm : benchMain (fun f => (fs f).isSome) toks = .ok (some c)) (hex : ∃ x, BenchExec L fs (benchVerbose toks) c x)
    (h : ∀ x, BenchExec L fs (benchVerbose toks) c x → ∃ timer, x = ⟨rows, .ok timer⟩ ∧ (∀ p ∈ timer, p.2 ≠ 0) ∧ (totalsOf timer).Perm totals) :
    AlwaysLogs L fs toks (⟨"time", .date⟩ :: rows) totals := by
  constructor
  · obtain ⟨x, hx⟩ := hex
    obtain ⟨timer, rfl, _, _⟩ := h x hx
    obtain ⟨text, ht⟩ := shows_exists (⟨"time", .date⟩ :: rows)
    have hs : ((timer.map fun p => (⟨p.1, BitVec.ofNat 64 p.2, 0⟩ : Sample)).map Sample.time).sum < 2 ^ 63 := by
      rw [List.map_map]
      have : (List.map (Sample.time ∘ fun p : Target × Nat => (⟨p.1, BitVec.ofNat 64 p.2, 0⟩ : Sample)) timer).sum = 0 := by
        apply List.sum_eq_zero
        intro x hx
        obtain ⟨p, _, rfl⟩ := List.mem_map.1 hx
        rfl
      omega
    obtain ⟨es, he, _⟩ := Timeit.summarize_ok _ (samples_time hs)
    exact ⟨_, _, .done hm hx ht (samples := timer.map fun p => ⟨p.1, BitVec.ofNat 64 p.2, 0⟩) (by rw [List.map_map]; rfl) hs
      ⟨es, es, he, .refl _, rfl⟩⟩
  · intro text r hr
    cases hr with
    | done h1 h2 h3 h4 h5 h6 =>
      rw [hm] at h1
      cases h1
      obtain ⟨timer, e, hpos, htot⟩ := h _ h2
      cases e
      obtain ⟨order, o1, o2⟩ := dump_rows h4 h5 hpos h6
      exact ⟨rfl, order, o1.trans htot, h3.append o2⟩
    | fails h1 h2 h3 =>
      rw [hm] at h1
      cases h1
      obtain ⟨timer, e, _⟩ := h _ h2
      cases e
    | usage h1 => rw [hm] at h1; cases h1
    | bad h1 => rw [hm] at h1; cases h1

end Homfa.Cli
