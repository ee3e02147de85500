import Verif.Proof.Pipeline

/-! # The files written by the commands -/

namespace Homfa.Cli

variable {N n l : Nat}

theorem writeResults_other (L : Lib N n l) : ∀ (rs : List (OutFile × TLWE N)) (fs : Files) (f : String),
    (∀ r ∈ rs, OutFile.path r.1 ≠ f) → writeResults L fs rs f = fs f := by
  intro rs
  induction rs with
  | nil => intro fs f _; rfl
  | cons r rs ih =>
    intro fs f h
    show writeResults L (fs.set (OutFile.path r.1) (L.saveRes r.2)) rs f = _
    rw [ih _ _ (fun r hr => h r (by simp [hr])), Files.set_other _ _ (Ne.symm (h r (by simp)))]

theorem onlineLoop_paths {ρ : Type} (evalOne : ρ → Gsw l N → Res ρ) (result : ρ → Res (TLWE N × ρ)) (outDir : Option String) (freq : Nat) :
    ∀ (cs : List (Gsw l N)) (i : Nat) (r : ρ) (p : List (OutFile × TLWE N) × ρ),
      onlineLoop evalOne result outDir freq cs i r = .ok p → ∀ q ∈ p.1, ∃ d k, outDir = some d ∧ q.1 = .inDir d k := by
  intro cs
  induction cs with
  | nil => intro i r p h; cases h; simp
  | cons c cs ih =>
    intro i r p h
    rw [onlineLoop] at h
    obtain ⟨r1, _, h⟩ := Res.bind_eq_ok.1 h
    cases outDir with
    | none => exact ih _ _ _ h
    | some dir =>
      dsimp only at h
      split at h
      · cases h
      · split at h
        · obtain ⟨a, _, h⟩ := Res.bind_eq_ok.1 h
          obtain ⟨b, hb, h⟩ := Res.bind_eq_ok.1 h
          cases h
          intro q hq
          rcases List.mem_cons.1 hq with rfl | hq
          · exact ⟨dir, _, rfl, rfl⟩
          · exact ih _ _ _ hb q hq
        · exact ih _ _ _ h

theorem lastOut_path {out outDir : Option String} {k : Nat} {f : OutFile} (h : lastOut out outDir k = .ok f) :
    (∃ n, out = some n ∧ f = .file n) ∨ ∃ d, outDir = some d ∧ f = .inDir d k := by
  unfold lastOut at h
  split at h <;> cases h
  · exact .inl ⟨_, rfl, rfl⟩
  · exact .inr ⟨_, rfl, rfl⟩

/-- the files written by the online commands -/
theorem paths_of {ρ : Type} {evalOne : ρ → Gsw l N → Res ρ} {result : ρ → Res (TLWE N × ρ)} {out outDir : Option String} {freq k i : Nat}
    {cs : List (Gsw l N)} {r : ρ} {p : List (OutFile × TLWE N) × ρ} {f : OutFile} {c : TLWE N}
    (h : onlineLoop evalOne result outDir freq cs i r = .ok p) (hf : lastOut out outDir k = .ok f) (name : String)
    (hn : ¬(out = some name ∨ ∃ d k, outDir = some d ∧ name = d ++ "/" ++ String.ofList (Nat.toDigits 10 k) ++ ".out")) :
    ∀ q ∈ p.1 ++ [(f, c)], OutFile.path q.1 ≠ name := by
  intro q hq e
  subst e
  apply hn
  rcases List.mem_append.1 hq with hq | hq
  · obtain ⟨d, k, h1, h2⟩ := onlineLoop_paths _ _ _ _ _ _ _ _ h q hq
    exact .inr ⟨d, k, h1, by rw [h2]; rfl⟩
  · rw [List.mem_singleton.1 hq]
    rcases lastOut_path hf with ⟨m, h1, rfl⟩ | ⟨d, h1, rfl⟩
    · exact .inl h1
    · exact .inr ⟨d, _, h1, rfl⟩

end Homfa.Cli
