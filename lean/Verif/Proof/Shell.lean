import Verif.Spec.Shell
import Verif.Proof.Secret
import Verif.Proof.Commands
import Verif.Props.Cli

/-! # Lemmas about whole programs -/

namespace Homfa.Cli

variable {N n l : Nat} {L : Lib N n l} {δ : Noise} {Enc : L.Key → Gsw l N → Bool → Prop}

/-! ## The input stream does not die -/

theorem stuck_of_died {kind : StreamKind} {t : StreamState l N} {e : Err} (h : t.died = some e) : StreamStuck kind t := by
  intro u hu
  rcases hu with hu | hu
  · simp [loaderStep, h] at hu
  · simp [callerStep, h] at hu

theorem loopIssued_alive {calls : List StreamCall} {outs : List (StreamOut l N)} (h : LoopIssued calls outs) : ∀ cs : List (Gsw l N),
    (streamSpec cs calls).1 = outs → (streamSpec cs calls).2 = false := by
  induction h with
  | start => intro cs _; cases cs <;> rfl
  | askSize => intro cs h; cases cs <;> rfl
  | stop => intro cs h; cases cs <;> rfl
  | askNext hk =>
    intro cs h
    cases cs with
    | nil =>
      simp [streamSpec] at h
      exact absurd h.symm hk
    | cons c cs => cases cs <;> rfl
  | next hk _ ih =>
    intro cs h
    cases cs with
    | nil => simp [streamSpec] at h
    | cons c cs =>
      simp only [streamSpec, List.cons.injEq] at h ⊢
      exact ih cs h.2.2

theorem forwardIssued_alive {calls : List StreamCall} {outs : List (StreamOut l N)} (h : ForwardIssued calls outs) : ∀ cs : List (Gsw l N),
    (streamSpec cs calls).1 = outs → (streamSpec cs calls).2 = false := by
  induction h with
  | loop h => exact loopIssued_alive h
  | askSize => intro cs h; cases cs <;> rfl
  | size _ ih =>
    intro cs h
    simp only [streamSpec, List.cons.injEq] at h ⊢
    exact ih cs h.2

theorem streamSpec_replicate : ∀ (j : Nat) (cs : List (Gsw l N)), j ≤ cs.length → (streamSpec cs (List.replicate j .next)).2 = false := by
  intro j
  induction j with
  | zero => intro cs _; cases cs <;> rfl
  | succ j ih =>
    intro cs h
    cases cs with
    | nil => simp at h
    | cons c cs =>
      rw [List.replicate_succ]
      simp only [streamSpec]
      exact ih cs (by simpa using h)

theorem reversedIssued_alive {calls : List StreamCall} {outs : List (StreamOut l N)} (h : ReversedIssued calls outs) : ∀ cs : List (Gsw l N),
    (streamSpec cs calls).1 = outs → (streamSpec cs calls).2 = false := by
  induction h with
  | start => intro cs _; cases cs <;> rfl
  | askSize => intro cs h; cases cs <;> rfl
  | size _ ih =>
    intro cs h
    simp only [streamSpec, List.cons.injEq] at h ⊢
    exact ih cs h.2
  | nexts hj =>
    intro cs h
    simp only [streamSpec, List.cons.injEq, StreamOut.size.injEq] at h ⊢
    exact streamSpec_replicate _ _ (by omega)

/-- what `run reverse`, `run block` and `run flut` get from a file of ciphertexts -/
theorem fetch_forward (hbs : 0 < blockSize l N) (hbs' : blockSize l N < 2 ^ 63) {cs : List (Gsw l N)}
    (hlen : (cs.flatMap saveGsw).length < 2 ^ 63) :
    (∃ pre, pre ≠ [] ∧ Fetch .forward (some (cs.flatMap saveGsw)) (.ok (pre, cs))) ∧
    ∀ r, Fetch .forward (some (cs.flatMap saveGsw)) r → ∃ pre, ReadsForward (cs.flatMap saveGsw) pre cs ∧ r = .ok (pre, cs) := by
  constructor
  · exact ⟨_, by simp, .forward (by simp) (readsForward_exists hbs hbs' cs 1 hlen)⟩
  · intro r h
    generalize hk : StreamKind.forward = kind at h
    generalize hf : some (cs.flatMap saveGsw) = file at h
    cases h with
    | @bad _ _ junk script e h =>
      subst hk hf
      obtain ⟨s₀, h0, _⟩ := C21_forward_stream hbs hbs' cs hlen junk script
      rw [h] at h0; cases h0
    | @dies _ _ junk calls outs s₀ t k e h0 he hd ho hi =>
      subst hk hf
      obtain ⟨s₁, h1, _, h2⟩ := C21_forward_stream hbs hbs' cs hlen junk calls
      rw [h0] at h1
      obtain rfl := Except.ok.inj h1
      obtain ⟨h3, h4⟩ := (h2 k t he).2 (stuck_of_died hd)
      rw [forwardIssued_alive hi cs (by rw [← h3, ho]), hd] at h4
      simp at h4
    | @forward file pre cs' _ h =>
      injection hf with hf; subst hf
      obtain ⟨rfl, _⟩ := readsForward_eq hbs hbs' hlen h
      exact ⟨pre, h, rfl⟩
    | reversed h => cases hk

/-- what `run offline` gets from a file of ciphertexts -/
theorem fetch_reversed (hbs : 0 < blockSize l N) (hbs' : blockSize l N < 2 ^ 63) {cs : List (Gsw l N)}
    (hlen : (cs.flatMap saveGsw).length < 2 ^ 63) :
    (∃ pre, Fetch .reversed (some (cs.flatMap saveGsw)) (.ok (pre, cs.reverse))) ∧
    ∀ r, Fetch .reversed (some (cs.flatMap saveGsw)) r → ∃ pre, ReadsReversed (cs.flatMap saveGsw) pre cs.reverse ∧ r = .ok (pre, cs.reverse) := by
  constructor
  · exact ⟨_, .reversed (readsReversed_exists hbs hbs' cs 0 hlen)⟩
  · intro r h
    generalize hk : StreamKind.reversed = kind at h
    generalize hf : some (cs.flatMap saveGsw) = file at h
    cases h with
    | @bad _ _ junk script e h =>
      subst hk hf
      obtain ⟨s₀, h0, _⟩ := C22_reversed_stream hbs hbs' cs hlen junk script
      rw [h] at h0; cases h0
    | @dies _ _ junk calls outs s₀ t k e h0 he hd ho hi =>
      subst hk hf
      obtain ⟨s₁, h1, _, h2⟩ := C22_reversed_stream hbs hbs' cs hlen junk calls
      rw [h0] at h1
      obtain rfl := Except.ok.inj h1
      obtain ⟨h3, h4⟩ := (h2 k t he).2.2 (stuck_of_died hd)
      rw [reversedIssued_alive hi cs.reverse (by rw [← h3, ho]), hd] at h4
      simp at h4
    | forward _ h => cases hk
    | @reversed file pre cs' h =>
      injection hf with hf; subst hf
      obtain ⟨rfl, _⟩ := readsReversed_eq hbs hbs' hlen h
      exact ⟨pre, h, rfl⟩

/-! ## Command lines -/

/-- the required options in the order of the manual -/
def optItems (u : Usage) (vals : List String) : List Item := (u.required.zip vals).map fun p => .opt p.1.1 p.2

theorem follows_opts {u : Usage} {ex : String → Bool} {vals : List String} (hlen : vals.length = u.required.length)
    (hnd : (u.required.map (·.1)).Nodup) (ha : u.requiredArgs = [])
    (hok : ∀ p ∈ u.required.zip vals, p.1.2.Ok ex p.2) : u.Follows ex (optItems u vals) := by
  have hargs : args (optItems u vals) = [] := by
    unfold args optItems
    rw [List.filterMap_eq_nil_iff]
    intro i hi
    obtain ⟨p, _, rfl⟩ := List.mem_map.1 hi
    rfl
  have hmem : ∀ i, i ∈ optItems u vals ↔ ∃ p ∈ u.required.zip vals, i = .opt p.1.1 p.2 := by
    intro i
    unfold optItems
    rw [List.mem_map]
    constructor
    · rintro ⟨p, h1, rfl⟩; exact ⟨p, h1, rfl⟩
    · rintro ⟨p, h1, rfl⟩; exact ⟨p, h1, rfl⟩
  constructor
  · intro m v h
    obtain ⟨p, h1, h2⟩ := (hmem _).1 h
    injection h2 with h2 h3
    subst h2 h3
    exact ⟨p.1.2, List.mem_append_left _ (List.of_mem_zip h1).1, hok p h1⟩
  · have : optNames (optItems u vals) = u.required.map (·.1) := by
      unfold optNames optItems
      rw [List.filterMap_map]
      show List.filterMap (fun p => some p.1.1) (u.required.zip vals) = _
      rw [show (fun p : (String × Kind) × String => some p.1.1) = some ∘ fun p => p.1.1 from rfl, List.filterMap_eq_map]
      rw [show (fun p : (String × Kind) × String => p.1.1) = (fun r : String × Kind => r.1) ∘ Prod.fst from rfl, ← List.map_map,
        List.map_fst_zip (by omega)]
    rw [this]; exact hnd
  · intro m k h
    obtain ⟨i, hi, e⟩ := List.getElem_of_mem h
    refine ⟨vals[i]'(by omega), (hmem _).2 ⟨(u.required[i], vals[i]'(by omega)), ?_, ?_⟩⟩
    · rw [List.mem_iff_getElem]
      exact ⟨i, by simp; omega, by simp⟩
    · rw [e]
  · intro m h
    obtain ⟨p, _, h2⟩ := (hmem _).1 h
    cases h2
  · rw [ha]; simp
  · rw [hargs]; simp
  · intro i v k h; rw [hargs] at h; simp at h

/-- a line that follows the manual -/
theorem run_iff {fs : Files} {stdin : List Char} (c : Cmd) {w : List String} (hw : w ∈ c.names) {items : List Item}
    (h : c.usage.Follows (fun f => (fs f).isSome) items) {r : Res (Files × List Char)} :
    RunHomfa L stdin fs (w ++ line items) r ↔ Exec L stdin fs (c.call items) r := by
  have e := C58_runs (fun f => (fs f).isSome) [] (by simp) c w hw items h
  rw [List.nil_append] at e
  constructor
  · intro h
    cases h with
    | call h1 h2 => rw [e] at h1; injection h1 with h1; injection h1 with h1; subst h1; exact h2
    | usage h1 => rw [e] at h1; cases h1
    | fails h1 => rw [e] at h1; cases h1
  · intro h; exact .call e h

theorem Word.text {f : String} (h : Word f) (ex : String → Bool) : Kind.text.Ok ex f := ⟨fun h' => absurd h' h, trivial⟩

theorem Word.file {f : String} (h : Word f) {fs : Files} {b : List Byte} (hb : fs f = some b) :
    Kind.file.Ok (fun f => (fs f).isSome) f := ⟨fun h' => absurd h' h, by simp [hb]⟩

theorem positive_ok {k : Nat} (h0 : 0 < k) (h : k < 2 ^ 64) (ex : String → Bool) : Kind.positive.Ok ex (toString k) := by
  have e : (toString k).toList = Nat.toDigits 10 k := by simp [toString, Nat.repr]
  refine ⟨?_, k, ⟨e, h⟩, h0⟩
  intro h'
  rw [e] at h'
  have hm := List.mem_of_mem_head? h'
  have := Nat.isDigit_of_mem_toDigits (by omega) (by omega) hm
  simp at this

theorem ofDigits_toString (k : Nat) : Nat.ofDigitChars 10 (toString k).toList 0 = k := by
  have e : (toString k).toList = Nat.toDigits 10 k := by simp [toString, Nat.repr]
  rw [e]; simp

/-! ## Files -/

theorem Files.set_same (fs : Files) (f : String) (b : List Byte) : fs.set f b f = some b := by simp [Files.set]
theorem Files.set_other (fs : Files) {f g : String} (b : List Byte) (h : g ≠ f) : fs.set f b g = fs g := by simp [Files.set, h]

end Homfa.Cli
