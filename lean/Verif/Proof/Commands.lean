import Verif.Model.Commands
import Verif.Props.Input
import Verif.Props.Stream
import Verif.Props.Text
import Verif.Props.Backstream
import Verif.Props.Block
import Verif.Props.Flut

/-! # Lemmas about the commands -/

namespace Homfa

variable {N n l : Nat} {S : Scheme N n l} {δ : Noise} {Enc : Gsw l N → Bool → Prop}

/-! ## `run plain` and `enc` -/

/-- `each_input_bit` only returns on whole records -/
theorem eachInputBit_ok {σ : Type} {input : Option (List Byte)} {ap : Nat} (hap : 0 < ap) {func : σ → Bool → Res σ} {s t : σ}
    (h : eachInputBit input ap func s = .ok t) :
    ∃ rs : List (List Byte), input = some rs.flatten ∧ (∀ r ∈ rs, r.length = recordBytes ap) ∧
      (rs.flatMap (recordBits ap)).foldlM func s = .ok t := by
  cases input with
  | none => cases h
  | some bytes =>
    have hpos : 0 < recordBytes ap := by unfold recordBytes; omega
    obtain ⟨rs, last, hrs, hlast, rfl⟩ := split_records (recordBytes ap) hpos bytes
    by_cases hl : last = []
    · subst hl
      rw [List.append_nil] at h ⊢
      exact ⟨rs, rfl, hrs, by rw [← C19_records ap hap rs hrs]; exact h⟩
    · rw [C19_truncated ap hap rs hrs last hl hlast] at h
      cases hf : (rs.flatMap (recordBits ap) ++ recordBits (8 * last.length) last).foldlM func s with
      | error e => rw [hf] at h; cases h
      | ok s' => rw [hf] at h; cases h

theorem wf_of_accepts {text : List Char} {g : Graph} (h : Graph.fromIstream text = .ok g) {w : List Bool} {b : Bool}
    (ha : g.accepts w = .ok b) : g.WF := by
  by_cases hs : 0 < g.size
  · exact wf_of_fromIstream h hs
  · exfalso
    unfold Graph.fromIstream at h
    obtain ⟨p, hp, h⟩ := Res.bind_eq_ok.1 h
    obtain ⟨rows, hr⟩ := specRows_of_fold hp
    rw [specRows_fold hr rfl] at hp
    rw [show ({ initSts := [], finalSts := [], delta := [], isDfa := true } : SpecSt) = emptySpec from rfl] at hp
    injection hp with hp; subst hp
    by_cases hne : rows = []
    · subst hne
      have : finishSpec (([] : List Spec.Row).foldl addRow emptySpec) = .ok (Graph.built 0 [] []) := by decide
      rw [this] at h
      injection h with h; subst h
      unfold Graph.accepts at ha
      obtain ⟨q, _, ha⟩ := Res.bind_eq_ok.1 ha
      simp [Graph.isFinalState, Graph.built, vat] at ha
    · rcases finishSpec_rows hne with ⟨g', h1, h2, _⟩ | ⟨h1, _⟩
      · rw [h1] at h; injection h with h; subst h; exact hs (Nat.lt_of_le_of_lt (Nat.zero_le _) h2.init_lt)
      · rw [h1] at h; simp at h

/-- what a successful plaintext run tells -/
theorem plain_ok {spec : List Char} {input : Option (List Byte)} {ap : Nat} (hap : 0 < ap) {out : List Char}
    (h : doRunPlain spec input ap = .ok out) :
    ∃ (g : Graph) (rs : List (List Byte)) (b : Bool), Graph.fromIstream spec = .ok g ∧ g.WF ∧ input = some rs.flatten ∧
      (∀ r ∈ rs, r.length = recordBytes ap) ∧ g.accepts (rs.flatMap (recordBits ap)) = .ok b ∧ out = printResult b := by
  unfold doRunPlain at h
  obtain ⟨g, hg, h⟩ := Res.bind_eq_ok.1 h
  obtain ⟨q, hq, h⟩ := Res.bind_eq_ok.1 h
  obtain ⟨b, hb, h⟩ := Res.bind_eq_ok.1 h
  obtain ⟨rs, h1, h2, h3⟩ := eachInputBit_ok hap hq
  have ha : g.accepts (rs.flatMap (recordBits ap)) = .ok b := by
    unfold Graph.accepts Graph.runWord
    rw [h3, Res.bind_ok, hb]
  exact ⟨g, rs, b, hg, wf_of_accepts hg ha, h1, h2, ha, (Except.ok.inj h).symm⟩

/-- the encryptions `enc` makes of the bits `w`, from its `k`-th on -/
def encryptions (S : Scheme N n l) (rand : Nat → Nat) : Nat → List Bool → List (Gsw l N)
  | _, [] => []
  | k, b :: w => S.encrypt (rand k) b :: encryptions S rand (k + 1) w

theorem encryptions_length (S : Scheme N n l) (rand : Nat → Nat) : ∀ (w : List Bool) (k : Nat), (encryptions S rand k w).length = w.length := by
  intro w
  induction w with
  | nil => intro k; rfl
  | cons b w ih => intro k; simp [encryptions, ih]

theorem encryptions_take (S : Scheme N n l) (rand : Nat → Nat) : ∀ (w : List Bool) (k m : Nat),
    encryptions S rand k (w.take m) = (encryptions S rand k w).take m := by
  intro w
  induction w with
  | nil => intro k m; simp [encryptions]
  | cons b w ih =>
    intro k m
    cases m with
    | zero => simp [encryptions]
    | succ m => simp [encryptions, ih]

theorem encryptions_rel (S : Scheme N n l) (rand : Nat → Nat) : ∀ (w : List Bool) (k : Nat),
    List.Forall₂ (fun c b => ∃ r, c = S.encrypt r b) (encryptions S rand k w) w := by
  intro w
  induction w with
  | nil => intro k; exact .nil
  | cons b w ih => intro k; exact .cons ⟨_, rfl⟩ (ih _)

theorem enc_fold (S : Scheme N n l) (rand : Nat → Nat) : ∀ (w : List Bool) (k : Nat) (file : List Byte),
    w.foldlM (encOne S rand) (k, file) = .ok (k + w.length, file ++ (encryptions S rand k w).flatMap saveGsw) := by
  intro w
  induction w with
  | nil => intro k file; simp [encryptions, pure, Except.pure]
  | cons b w ih =>
    intro k file
    rw [List.foldlM_cons]
    show List.foldlM _ _ w = _
    rw [ih]
    simp [encryptions, Nat.add_assoc, Nat.add_comm 1]

theorem enc_eq (S : Scheme N n l) (rand : Nat → Nat) {ap : Nat} (hap : 0 < ap) {rs : List (List Byte)}
    (hrs : ∀ r ∈ rs, r.length = recordBytes ap) :
    doEnc S rand (some rs.flatten) ap = .ok ((encryptions S rand 0 (rs.flatMap (recordBits ap))).flatMap saveGsw) := by
  unfold doEnc
  rw [C19_records ap hap rs hrs, enc_fold, Res.bind_ok, Res.pure_eq, List.nil_append]

/-- `enc` writes one encryption per bit -/
theorem enc_ok (S : Scheme N n l) (rand : Nat → Nat) {ap : Nat} (hap : 0 < ap) {rs : List (List Byte)}
    (hrs : ∀ r ∈ rs, r.length = recordBytes ap) :
    ∃ cs : List (Gsw l N), doEnc S rand (some rs.flatten) ap = .ok (cs.flatMap saveGsw) ∧
      List.Forall₂ (fun c b => ∃ r, c = S.encrypt r b) cs (rs.flatMap (recordBits ap)) :=
  ⟨_, enc_eq S rand hap hrs, encryptions_rel S rand _ 0⟩

theorem enc_sound (hS : S.Sound δ Enc) {cs : List (Gsw l N)} {w : List Bool}
    (h : List.Forall₂ (fun c b => ∃ r, c = S.encrypt r b) cs w) : List.Forall₂ Enc cs w :=
  h.imp (fun _ _ ⟨_, h⟩ => h ▸ hS.encrypt _ _)

/-! ## Reading the ciphertexts -/

/-- a bounded system reaches a stuck state -/
theorem exists_stuck {kind : StreamKind} {s₀ : StreamState l N} {bound : Nat}
    (h : ∀ n t, StreamExec kind n s₀ t → n ≤ bound) : ∃ n t, StreamExec kind n s₀ t ∧ StreamStuck kind t := by
  have key : ∀ m n t, StreamExec kind n s₀ t → bound - n = m → ∃ n t, StreamExec kind n s₀ t ∧ StreamStuck kind t := by
    intro m
    induction m using Nat.strongRecOn with
    | _ m ih =>
      intro n t he hm
      by_cases hs : StreamStuck kind t
      · exact ⟨n, t, he, hs⟩
      · unfold StreamStuck at hs
        simp only [not_forall, Classical.not_not] at hs
        obtain ⟨u, hu⟩ := hs
        have he' := StreamExec.step he hu
        have := h _ _ he'
        exact ih (bound - (n + 1)) (by omega) (n + 1) u he' rfl
  exact key _ 0 s₀ (.refl _) rfl

/-- the answers of a sequential stream holding `cs` -/
def Answers (cs : List (Gsw l N)) (outs : List (StreamOut l N)) : Prop := ∃ script more, outs ++ more = (streamSpec cs script).1

theorem Answers.size {cs : List (Gsw l N)} {k : Nat} {outs : List (StreamOut l N)} (h : Answers cs (.size k :: outs)) :
    k = cs.length ∧ Answers cs outs := by
  obtain ⟨script, more, h⟩ := h
  cases script with
  | nil => simp [streamSpec] at h
  | cons s script =>
    cases s with
    | size =>
      simp only [streamSpec, List.cons_append, List.cons.injEq, StreamOut.size.injEq] at h
      exact ⟨h.1, script, more, h.2⟩
    | next => cases cs <;> simp [streamSpec] at h

theorem Answers.next {cs : List (Gsw l N)} {c : Gsw l N} {outs : List (StreamOut l N)} (h : Answers cs (.ctxt c :: outs)) :
    ∃ cs', cs = c :: cs' ∧ Answers cs' outs := by
  obtain ⟨script, more, h⟩ := h
  cases script with
  | nil => simp [streamSpec] at h
  | cons s script =>
    cases s with
    | size => simp [streamSpec] at h
    | next =>
      cases cs with
      | nil => simp [streamSpec] at h
      | cons d cs =>
        simp only [streamSpec, List.cons_append, List.cons.injEq, StreamOut.ctxt.injEq] at h
        exact ⟨cs, by rw [h.1], script, more, h.2⟩

theorem Answers.pre {cs : List (Gsw l N)} {outs : List (StreamOut l N)} : ∀ (pre : List Nat),
    Answers cs (pre.map .size ++ outs) → (∀ p ∈ pre, p = cs.length) ∧ Answers cs outs
  | [], h => ⟨by simp, h⟩
  | p :: pre, h => by
    obtain ⟨h1, h2⟩ := Answers.size h
    obtain ⟨h3, h4⟩ := Answers.pre pre h2
    exact ⟨by simpa [h1] using h3, h4⟩

theorem Answers.loop {outs : List (StreamOut l N)} {cs' : List (Gsw l N)} (ht : LoopTrace outs cs') :
    ∀ {cs : List (Gsw l N)}, Answers cs outs → cs' = cs := by
  induction ht with
  | stop => intro cs h; exact (List.eq_nil_of_length_eq_zero h.size.1.symm).symm
  | next _ _ ih =>
    intro cs h
    obtain ⟨cs'', h1, h2⟩ := h.size.2.next
    rw [h1, ih h2]

theorem Answers.all {cs' : List (Gsw l N)} : ∀ {cs : List (Gsw l N)}, Answers cs (cs'.map .ctxt) → cs'.length = cs.length → cs' = cs := by
  induction cs' with
  | nil => intro cs _ h; exact (List.eq_nil_of_length_eq_zero h.symm).symm
  | cons c cs' ih =>
    intro cs h hl
    obtain ⟨cs'', h1, h2⟩ := Answers.next h
    subst h1
    rw [ih h2 (by simpa using hl)]

theorem streamAnswers_forward (hbs : 0 < blockSize l N) (hbs' : blockSize l N < 2 ^ 63) {cs : List (Gsw l N)}
    (hlen : (cs.flatMap saveGsw).length < 2 ^ 63) {outs : List (StreamOut l N)} (h : StreamAnswers .forward (cs.flatMap saveGsw) outs) :
    Answers cs outs := by
  obtain ⟨junk, script, s₀, k, t, h0, he, _, ho⟩ := h
  obtain ⟨s₁, h1, _, h2⟩ := C21_forward_stream hbs hbs' cs hlen junk script
  rw [h0] at h1
  obtain rfl := Except.ok.inj h1
  obtain ⟨⟨more, h3⟩, _⟩ := h2 k t he
  exact ⟨script, more, by rw [← ho, h3]⟩

theorem streamAnswers_reversed (hbs : 0 < blockSize l N) (hbs' : blockSize l N < 2 ^ 63) {cs : List (Gsw l N)}
    (hlen : (cs.flatMap saveGsw).length < 2 ^ 63) {outs : List (StreamOut l N)} (h : StreamAnswers .reversed (cs.flatMap saveGsw) outs) :
    Answers cs.reverse outs := by
  obtain ⟨junk, script, s₀, k, t, h0, he, _, ho⟩ := h
  obtain ⟨s₁, h1, _, h2⟩ := C22_reversed_stream hbs hbs' cs hlen junk script
  rw [h0] at h1
  obtain rfl := Except.ok.inj h1
  obtain ⟨⟨more, h3⟩, _⟩ := h2 k t he
  exact ⟨script, more, by rw [← ho, h3]⟩

/-- under every schedule the loop of the online commands fetches the ciphertexts of the file -/
theorem readsForward_eq (hbs : 0 < blockSize l N) (hbs' : blockSize l N < 2 ^ 63) {cs cs' : List (Gsw l N)} {pre : List Nat}
    (hlen : (cs.flatMap saveGsw).length < 2 ^ 63) (h : ReadsForward (cs.flatMap saveGsw) pre cs') :
    cs' = cs ∧ ∀ p ∈ pre, p = cs.length := by
  obtain ⟨outs, h1, h2⟩ := h
  obtain ⟨h3, h4⟩ := (streamAnswers_forward hbs hbs' hlen h1).pre
  exact ⟨h4.loop h2, h3⟩

theorem readsReversed_eq (hbs : 0 < blockSize l N) (hbs' : blockSize l N < 2 ^ 63) {cs cs' : List (Gsw l N)} {pre : List Nat}
    (hlen : (cs.flatMap saveGsw).length < 2 ^ 63) (h : ReadsReversed (cs.flatMap saveGsw) pre cs') :
    cs' = cs.reverse ∧ pre ≠ [] ∧ ∀ p ∈ pre, p = cs.length := by
  obtain ⟨h1, h2⟩ := h
  obtain ⟨h3, h4⟩ := (streamAnswers_reversed hbs hbs' hlen h1).pre
  rw [List.length_reverse] at h3
  refine ⟨h4.all ?_, ?_, h3⟩
  · rw [List.length_reverse]; exact h3 _ (List.mem_of_getLast? h2)
  · rintro rfl; simp at h2

/-! Such reads exist. -/

theorem streamSpec_sizes (cs : List (Gsw l N)) (script : List StreamCall) : ∀ k : Nat,
    streamSpec cs (List.replicate k .size ++ script) =
      ((List.replicate k cs.length).map .size ++ (streamSpec cs script).1, (streamSpec cs script).2)
  | 0 => rfl
  | k + 1 => by
    rw [List.replicate_succ, List.cons_append, streamSpec, streamSpec_sizes cs script k]
    rfl

theorem streamSpec_loop : ∀ cs : List (Gsw l N), ∃ script, LoopTrace (streamSpec cs script).1 cs ∧ (streamSpec cs script).2 = false
  | [] => ⟨[.size], LoopTrace.stop, rfl⟩
  | c :: cs => by
    obtain ⟨script, h1, h2⟩ := streamSpec_loop cs
    exact ⟨.size :: .next :: script, LoopTrace.next (by simp) h1, h2⟩

theorem streamSpec_nexts : ∀ cs : List (Gsw l N), ∃ script, (streamSpec cs script).1 = cs.map .ctxt ∧ (streamSpec cs script).2 = false
  | [] => ⟨[], rfl, rfl⟩
  | c :: cs => by
    obtain ⟨script, h1, h2⟩ := streamSpec_nexts cs
    exact ⟨.next :: script, by simp [streamSpec, h1], h2⟩

theorem readsForward_exists (hbs : 0 < blockSize l N) (hbs' : blockSize l N < 2 ^ 63) (cs : List (Gsw l N)) (k : Nat)
    (hlen : (cs.flatMap saveGsw).length < 2 ^ 63) : ReadsForward (cs.flatMap saveGsw) (List.replicate k cs.length) cs := by
  obtain ⟨script, h1, h2⟩ := streamSpec_loop cs
  have junk : Gsw l N := fun _ _ _ => 0
  obtain ⟨s₀, a1, ⟨bound, a2⟩, a3⟩ := C21_forward_stream hbs hbs' cs hlen junk (List.replicate k .size ++ script)
  obtain ⟨m, t, e1, e2⟩ := exists_stuck a2
  obtain ⟨_, a4⟩ := a3 m t e1
  obtain ⟨a5, a6⟩ := a4 e2
  rw [streamSpec_sizes] at a5 a6
  rw [h2] at a6
  exact ⟨_, ⟨junk, _, s₀, m, t, a1, e1, by simpa using a6, a5⟩, h1⟩

theorem readsReversed_exists (hbs : 0 < blockSize l N) (hbs' : blockSize l N < 2 ^ 63) (cs : List (Gsw l N)) (k : Nat)
    (hlen : (cs.flatMap saveGsw).length < 2 ^ 63) :
    ReadsReversed (cs.flatMap saveGsw) (List.replicate (k + 1) cs.length) cs.reverse := by
  obtain ⟨script, h1, h2⟩ := streamSpec_nexts cs.reverse
  have junk : Gsw l N := fun _ _ _ => 0
  obtain ⟨s₀, a1, ⟨bound, a2⟩, a3⟩ := C22_reversed_stream hbs hbs' cs hlen junk (List.replicate (k + 1) .size ++ script)
  obtain ⟨m, t, e1, e2⟩ := exists_stuck a2
  obtain ⟨_, _, a4⟩ := a3 m t e1
  obtain ⟨a5, a6⟩ := a4 e2
  rw [streamSpec_sizes] at a5 a6
  rw [h2] at a6
  rw [h1, List.length_reverse] at a5
  exact ⟨⟨junk, _, s₀, m, t, a1, e1, by simpa using a6, a5⟩, by simp [List.getLast?_replicate]⟩

/-! ## The loop of the online commands as a history of calls -/

/-- the calls made from index `i` on: a result whenever the number of inputs so far is a multiple of the frequency -/
def loopCalls {α : Type} (freq : Option Nat) : List α → Nat → List (Call α)
  | [], _ => []
  | c :: cs, i =>
    .feed c :: ((match freq with
      | none => []
      | some f => if f ∣ i + 1 then [.result] else []) ++ loopCalls freq cs (i + 1))

/-- the numbers of inputs after which a result is written -/
def loopMarks (freq : Option Nat) (len i : Nat) : List Nat :=
  match freq with
  | none => []
  | some f => ((List.range len).map (fun j => i + j + 1)).filter (fun k => f ∣ k)

theorem loopMarks_succ (freq : Option Nat) (len i : Nat) :
    loopMarks freq (len + 1) i = (match freq with
      | none => []
      | some f => if f ∣ i + 1 then [i + 1] else []) ++ loopMarks freq len (i + 1) := by
  cases freq with
  | none => rfl
  | some f =>
    unfold loopMarks
    dsimp only
    have e : ((List.range len).map Nat.succ).map (fun j => i + j + 1) = (List.range len).map (fun j => i + 1 + j + 1) := by
      rw [List.map_map]
      apply List.map_congr_left
      intro j _
      simp only [Function.comp]
      omega
    rw [List.range_succ_eq_map, List.map_cons, List.filter_cons, e, Nat.add_zero]
    split <;> split <;> simp_all

theorem mod_freq {f i : Nat} (hf : f ≠ 0) : (i % f = f - 1) ↔ f ∣ i + 1 := by
  have h1 := Nat.mod_lt i (Nat.pos_of_ne_zero hf)
  constructor
  · intro h
    refine ⟨i / f + 1, ?_⟩
    have := Nat.div_add_mod i f
    rw [Nat.mul_add, Nat.mul_one]
    omega
  · rintro ⟨k, hk⟩
    have := Nat.div_add_mod i f
    have hlt : i / f < k := by
      rw [Nat.div_lt_iff_lt_mul (Nat.pos_of_ne_zero hf), Nat.mul_comm]
      omega
    have h2 : f * (i / f + 1) ≤ f * k := Nat.mul_le_mul_left f hlt
    rw [Nat.mul_add, Nat.mul_one] at h2
    omega

/-- the loop is the history `loopCalls`, its results going to the files `<k>.out` -/
theorem onlineLoop_calls {ρ : Type} (evalOne : ρ → Gsw l N → Res ρ) (result : ρ → Res (TLWE N × ρ)) (dir : String) (f : Nat)
    (hf : f ≠ 0) : ∀ (cs : List (Gsw l N)) (i : Nat) (r : ρ),
    onlineLoop evalOne result (some dir) f cs i r =
      (runCalls evalOne result r (loopCalls (some f) cs i)).map fun p =>
        (((loopMarks (some f) cs.length i).map (OutFile.inDir dir)).zip p.1, p.2) := by
  intro cs
  induction cs with
  | nil => intro i r; rfl
  | cons c cs ih =>
    intro i r
    rw [onlineLoop, loopCalls, runCalls, List.length_cons, loopMarks_succ]
    cases he : evalOne r c with
    | error e => rfl
    | ok r1 =>
      rw [Res.bind_ok, Res.bind_ok]
      dsimp only
      rw [if_neg hf]
      by_cases hd : f ∣ i + 1
      · rw [if_pos ((mod_freq hf).2 hd), if_pos hd, if_pos hd]
        simp only [List.singleton_append, runCalls, List.map_cons]
        cases hr : result r1 with
        | error e => rfl
        | ok p =>
          rw [Res.bind_ok, Res.bind_ok, ih]
          cases hq : runCalls evalOne result p.2 (loopCalls (some f) cs (i + 1)) with
          | error e => rfl
          | ok q => rfl
      · rw [if_neg (fun h => hd ((mod_freq hf).1 h)), if_neg hd, if_neg hd, ih]
        simp only [List.nil_append]

theorem onlineLoop_none {ρ : Type} (evalOne : ρ → Gsw l N → Res ρ) (result : ρ → Res (TLWE N × ρ)) (f : Nat) :
    ∀ (cs : List (Gsw l N)) (i : Nat) (r : ρ),
    onlineLoop evalOne result none f cs i r = (runCalls evalOne result r (cs.map .feed)).map fun p => (([] : List (OutFile × TLWE N)), p.2) := by
  intro cs
  induction cs with
  | nil => intro i r; rfl
  | cons c cs ih =>
    intro i r
    rw [onlineLoop, List.map_cons, runCalls]
    cases he : evalOne r c with
    | error e => rfl
    | ok r1 => rw [Res.bind_ok, Res.bind_ok]; dsimp only; rw [ih]

theorem runCalls_append {ρ α β : Type} (evalOne : ρ → α → Res ρ) (result : ρ → Res (β × ρ)) :
    ∀ (h1 h2 : List (Call α)) (r : ρ), runCalls evalOne result r (h1 ++ h2) = (do
      let p ← runCalls evalOne result r h1
      let q ← runCalls evalOne result p.2 h2
      pure (p.1 ++ q.1, q.2)) := by
  intro h1
  induction h1 with
  | nil =>
    intro h2 r
    rw [List.nil_append, runCalls, Res.bind_ok]
    cases runCalls evalOne result r h2 with
    | error e => rfl
    | ok q => rfl
  | cons c h1 ih =>
    intro h2 r
    cases c with
    | feed x =>
      rw [List.cons_append, runCalls, runCalls]
      cases evalOne r x with
      | error e => rfl
      | ok r1 => rw [Res.bind_ok, Res.bind_ok, ih]
    | result =>
      rw [List.cons_append, runCalls, runCalls]
      cases result r with
      | error e => rfl
      | ok p =>
        rw [Res.bind_ok, Res.bind_ok]
        dsimp only
        rw [ih]
        cases runCalls evalOne result p.2 h1 with
        | error e => rfl
        | ok q =>
          rw [Res.bind_ok, Res.bind_ok, Res.pure_eq, Res.bind_ok]
          dsimp only
          cases runCalls evalOne result q.2 h2 with
          | error e => rfl
          | ok q2 => rfl

theorem loopCalls_rel {P : Gsw l N → Bool → Prop} (freq : Option Nat) {cs : List (Gsw l N)} {w : List Bool}
    (h : List.Forall₂ P cs w) : ∀ i, List.Forall₂ (Call.Rel P) (loopCalls freq cs i) (loopCalls freq w i) := by
  induction h with
  | nil => intro i; exact .nil
  | cons h _ ih =>
    intro i
    refine .cons (.feed h) ?_
    cases freq with
    | none => exact ih _
    | some f =>
      dsimp only
      split
      · exact .cons .result (ih _)
      · exact ih _

theorem resultWords_loop (freq : Option Nat) : ∀ (w u : List Bool), resultWords u (loopCalls freq w u.length) =
    (loopMarks freq w.length u.length).map (fun k => (u ++ w).take k) := by
  intro w
  induction w with
  | nil => intro u; cases freq <;> rfl
  | cons b w ih =>
    intro u
    have := ih (u ++ [b])
    rw [List.length_append, List.length_singleton] at this
    rw [List.length_cons, loopMarks_succ]
    show resultWords (u ++ [b]) _ = _
    cases freq with
    | none =>
      dsimp only at this ⊢
      rw [List.nil_append, List.nil_append, this, List.append_assoc, List.singleton_append]
    | some f =>
      dsimp only
      split
      · rw [List.singleton_append, resultWords, this, List.singleton_append, List.map_cons, List.append_assoc, List.singleton_append]
        congr 1
        rw [List.take_append, List.take_of_length_le (by omega)]
        simp
      · rw [List.nil_append, List.nil_append, this, List.append_assoc, List.singleton_append]

end Homfa
