import Verif.Spec.Chance
import Verif.Props.Calls
import Verif.Props.Oblivious
import Verif.Proof.Crash

/-! # The union bound over encryptions and library calls -/

namespace Homfa

open MeasureTheory
open scoped ENNReal

variable {N n l : Nat} {Ω : Type} [MeasurableSpace Ω] {μ : Measure Ω} {S : Ω → Scheme N n l} {Enc : Ω → Gsw l N → Bool → Prop}
  {rand : Ω → Nat → Nat} {δ : Noise}

theorem union_list {β : Type} (ε : β → ℝ≥0∞) : ∀ (K : List β) (B : Nat → Set Ω), (∀ i k, K[i]? = some k → μ (B i) ≤ ε k) →
    μ {ω | ∃ i < K.length, ω ∈ B i} ≤ (K.map ε).sum := by
  intro K
  induction K with
  | nil => intro B _; simp
  | cons k K ih =>
    intro B h
    have e : {ω | ∃ i < (k :: K).length, ω ∈ B i} ⊆ B 0 ∪ {ω | ∃ i < K.length, ω ∈ B (i + 1)} := by
      rintro ω ⟨i, hi, hω⟩
      cases i with
      | zero => exact Or.inl hω
      | succ i => exact Or.inr ⟨i, by simpa using hi, hω⟩
    rw [List.map_cons, List.sum_cons]
    exact (measure_mono e).trans ((measure_union_le _ _).trans (add_le_add (h 0 k rfl) (ih (fun i => B (i + 1)) fun i k hk => h (i + 1) k hk)))

/-- the encryptions are good and the calls within their bounds except with this chance -/
theorem chance {w : List Bool} {α : Type} {p : List (Gsw l N) → Comp N n l α} {εe : ℝ≥0∞} {ε : CallKind → ℝ≥0∞}
    (h : FailureRates μ S Enc rand δ w p εe ε) {K : List CallKind} (hK : MakesCalls w.length p K) {Right : Ω → Prop}
    (hR : ∀ ω, (∀ m b, w[m]? = some b → Enc ω ((S ω).encrypt (rand ω m) b) b) →
      (∀ c ∈ (p (ctxts (S ω) (rand ω) w)).trace (S ω), c.Within (S ω) δ (Enc ω)) → Right ω) :
    μ {ω | ¬ Right ω} ≤ w.length * εe + (K.map ε).sum := by
  have e : {ω | ¬ Right ω} ⊆ {ω | ∃ m < w.length, ω ∈ {ω | ∃ b, w[m]? = some b ∧ ¬ Enc ω ((S ω).encrypt (rand ω m) b) b}} ∪
      {ω | ∃ i < K.length, ω ∈ {ω | ∃ c, ((p (ctxts (S ω) (rand ω) w)).trace (S ω))[i]? = some c ∧ K[i]? = some c.kind ∧
        ¬ c.Within (S ω) δ (Enc ω)}} := by
    intro ω hω
    by_contra hn
    rw [Set.mem_union, not_or] at hn
    refine hω (hR ω ?_ ?_)
    · intro m b hm
      by_contra hb
      exact hn.1 ⟨m, (List.getElem?_eq_some_iff.1 hm).1, b, hm, hb⟩
    · intro c hc
      by_contra hb
      obtain ⟨i, hi, rfl⟩ := List.getElem_of_mem hc
      have hk := hK (S ω) (ctxts (S ω) (rand ω) w) (by simp [ctxts])
      refine hn.2 ⟨i, ?_, _, List.getElem?_eq_getElem hi, ?_, hb⟩
      · rw [← hk]; simpa [Comp.kinds] using hi
      · rw [← hk]; simp [Comp.kinds, List.getElem?_eq_getElem hi]
  refine (measure_mono e).trans ((measure_union_le _ _).trans (add_le_add ?_ ?_))
  · refine (union_list (fun _ => εe) w _ ?_).trans (le_of_eq ?_)
    · intro m b hm
      refine (measure_mono ?_).trans (h.enc m b hm)
      rintro ω ⟨b', h1, h2⟩
      rw [hm] at h1
      cases h1
      exact h2
    · simp
  · refine union_list ε K _ ?_
    intro i k hk
    refine (measure_mono ?_).trans (h.call i k)
    rintro ω ⟨c, h1, h2, h3⟩
    rw [hk] at h2
    exact ⟨c, h1, (Option.some.inj h2).symm, h3⟩

theorem encryptions_eq (S : Scheme N n l) (rand : Nat → Nat) (w : List Bool) (k : Nat) :
    encryptions S rand k w = (w.zipIdx k).map fun p => S.encrypt (rand p.2) p.1 := by
  induction w generalizing k with
  | nil => rfl
  | cons b w ih => simp [encryptions, ih]

theorem holdsBits_eq {ap : Nat} (hap : 0 < ap) {bytes : List Byte} {w w' : List Bool} (h : Cli.HoldsBits ap bytes w)
    (h' : Cli.HoldsBits ap bytes w') : w = w' := by
  obtain ⟨r1, h1⟩ := Cli.inputBytes_all hap h
  obtain ⟨r2, h2⟩ := Cli.inputBytes_all hap h'
  have hf : ∀ (w acc : List Bool), w.foldlM (fun (s : List Bool) b => (.ok (s ++ [b]) : Res _)) acc = .ok (acc ++ w) := by
    intro w
    induction w with
    | nil => intro acc; simp [pure, Except.pure]
    | cons b w ih =>
      intro acc
      rw [List.foldlM_cons]
      show List.foldlM _ _ w = _
      rw [ih, List.append_assoc]; rfl
  have e := (h1 (fun (s : List Bool) b => .ok (s ++ [b])) []).symm.trans (h2 _ [])
  rw [hf, hf] at e
  exact (Prod.mk.inj (Except.ok.inj e)).2

theorem holdsBits_records {ap : Nat} (hap : 0 < ap) {rs : List (List Byte)} (hrs : ∀ r ∈ rs, r.length = recordBytes ap) :
    Cli.HoldsBits ap rs.flatten (rs.flatMap (recordBits ap)) :=
  ⟨rs, [], by simp, hrs, by show 0 < recordBytes ap; unfold recordBytes; omega, by simp [recordBits]⟩

theorem encryptsWell_of {S : Scheme N n l} {Enc : Gsw l N → Bool → Prop} {rand : Nat → Nat} {ap : Nat} (hap : 0 < ap) {rs : List (List Byte)}
    (hrs : ∀ r ∈ rs, r.length = recordBytes ap)
    (h : ∀ m b, (rs.flatMap (recordBits ap))[m]? = some b → Enc (S.encrypt (rand m) b) b) : EncryptsWell S Enc rand ap (some rs.flatten) := by
  intro bytes w hb hw m b hm
  cases hb
  rw [holdsBits_eq hap hw (holdsBits_records hap hrs)] at hm
  exact h m b hm

theorem makesCalls_of {α : Type} (p : List (Gsw l N) → Comp N n l α) (len : Nat)
    (h : ∀ (T T' : Scheme N n l) (cs cs' : List (Gsw l N)), cs.length = cs'.length → (p cs).kinds T = (p cs').kinds T') : ∃ K, MakesCalls len p K :=
  ⟨(p (List.replicate len fun _ _ _ => 0#64)).kinds (toyScheme N n l ⟨fun _ => 0#32, fun _ => 0#32⟩), fun T cs hc => h _ _ _ _ (hc.trans (List.length_replicate (n := len)).symm)⟩

/-- the file written by `enc` -/
theorem enc_file (S : Scheme N n l) (rand : Nat → Nat) {ap : Nat} (hap : 0 < ap) {rs : List (List Byte)}
    (hrs : ∀ r ∈ rs, r.length = recordBytes ap) {file : List Byte} (h : doEnc S rand (some rs.flatten) ap = .ok file) :
    file = (ctxts S rand (rs.flatMap (recordBits ap))).flatMap saveGsw ∧
      file.length = (rs.flatMap (recordBits ap)).length * blockSize l N := by
  rw [enc_eq _ _ hap hrs] at h
  obtain rfl := Except.ok.inj h
  rw [encryptions_eq]
  refine ⟨rfl, ?_⟩
  rw [length_file]
  simp

theorem blockSize_pos (hl : 0 < l) (hN : 0 < N) : 0 < blockSize l N := by unfold blockSize; positivity

theorem last_size {pre : List Nat} {k : Nat} (hne : pre ≠ []) (h : ∀ p ∈ pre, p = k) : pre.getLastD 0 = k := by
  rw [List.getLastD_eq_getLast?, List.getLast?_eq_some_getLast hne]
  exact h _ (List.getLast_mem hne)

end Homfa
