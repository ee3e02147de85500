import Verif.Proof.CounterTest

/-! The test program of counter.cpp. -/

namespace Homfa

variable {N n l : Nat} {S : GateScheme N n l} {b : Btt} {len : Nat}

/-! ## The runner with queue size 1 -/

theorem bttRun_snoc (cs : List (Gsw l N × (Nat → RedTree))) (c : Gsw l N × (Nat → RedTree)) :
    bttRun S b (cs ++ [c]) = (do let r ← bttRun S b cs; r.evalOne S c.1 c.2) := by
  unfold bttRun
  cases BttRunner.make (N := N) (l := l) b 1 with
  | error e => rfl
  | ok r =>
    rw [Res.bind_ok, Res.bind_ok, List.foldlM_append]
    congr 1
    funext r
    rw [List.foldlM_cons]
    cases r.evalOne S c.1 c.2 <;> rfl

theorem evalQueued_idle {r r' : BttRunner N l} {t : Nat → RedTree} (h : r.evalQueued S t = .ok r') :
    r'.queued = [] ∧ r'.queueSize = r.queueSize := by
  unfold BttRunner.evalQueued at h
  by_cases h0 : r.queued.length = 0
  · rw [if_pos h0] at h
    cases h
    exact ⟨List.eq_nil_of_length_eq_zero h0, rfl⟩
  · rw [if_neg h0] at h
    obtain ⟨_, _, h⟩ := Res.bind_eq_ok.1 h
    obtain ⟨_, _, h⟩ := Res.bind_eq_ok.1 h
    obtain ⟨_, _, h⟩ := Res.bind_eq_ok.1 h
    obtain ⟨_, _, h⟩ := Res.bind_eq_ok.1 h
    obtain ⟨_, _, h⟩ := Res.bind_eq_ok.1 h
    obtain ⟨_, _, h⟩ := Res.bind_eq_ok.1 h
    cases h
    exact ⟨rfl, rfl⟩

theorem bttRun_idle {cs : List (Gsw l N × (Nat → RedTree))} {r : BttRunner N l} (h : bttRun S b cs = .ok r) :
    r.queued = [] ∧ r.queueSize = 1 := by
  induction cs using List.reverseRecOn generalizing r with
  | nil =>
    unfold bttRun at h
    obtain ⟨r', h1, h2⟩ := Res.bind_eq_ok.1 h
    cases h2
    unfold BttRunner.make at h1
    obtain ⟨_, _, h1⟩ := Res.bind_eq_ok.1 h1
    obtain ⟨_, _, h1⟩ := Res.bind_eq_ok.1 h1
    cases h1
    exact ⟨rfl, rfl⟩
  | append_singleton cs c ih =>
    rw [bttRun_snoc] at h
    obtain ⟨r', h1, h2⟩ := Res.bind_eq_ok.1 h
    obtain ⟨k1, k2⟩ := ih h1
    unfold BttRunner.evalOne at h2
    dsimp only at h2
    rw [k1, k2, if_neg (by simp)] at h2
    obtain ⟨j1, j2⟩ := evalQueued_idle h2
    exact ⟨j1, by rw [j2]⟩

theorem result_idle {r : BttRunner N l} (h : r.queued = []) (t : Nat → RedTree) :
    r.result S t = (do let c ← r.state.getAccept; pure (c, r)) := by
  have : r.evalQueued S t = .ok r := by
    unfold BttRunner.evalQueued
    rw [h]
    rfl
  unfold BttRunner.result
  rw [this, Res.bind_ok]

/-! ## One test -/

/-- the variables of a test are what they should be -/
structure CTest.Track (S : GateScheme N n l) (b : Btt) (s : CTest N l) : Prop where
  sent : Sent S b s.sent s.history
  len : s.history.length = s.done
  plain : plainRun b s.history = .ok s.plain
  enc : bttRun S b s.sent = .ok s.enc

theorem Compared.inj {cs : List (Gsw l N × (Nat → RedTree))} {hs : List Bool} {u v u' v' : Bool} (h : Compared S b cs hs u v)
    (h' : Compared S b cs hs u' v') : u = u' ∧ v = v' := by
  obtain ⟨p, r, c, h1, h2, h3, h4, h5⟩ := h
  obtain ⟨p', r', c', k1, k2, k3, k4, k5⟩ := h'
  rw [h1] at k1
  rw [h2] at k2
  cases k1
  cases k2
  have h6 := h3 (fun _ => .leaf 0)
  rw [k3] at h6
  cases h6
  exact ⟨h4.symm.trans k4, h5.symm.trans k5⟩

theorem ctestMessage_head (hs : List Bool) (u v : Bool) (d d' : List Char) : ∃ rest, ctestMessage hs u d v d' = failHead hs ++ rest := by
  unfold ctestMessage failHead
  rw [show (hs.zipIdx.map fun (x, i) => "Input ".toList ++ showNat i ++ ":\t".toList ++ showBool x ++ ['\n']) =
      hs.mapIdx fun i x => s!"Input {i}:\t{x.toNat}\n".toList by
    rw [List.mapIdx_eq_zipIdx_map]
    refine List.map_congr_left (fun x _ => ?_)
    dsimp only
    rw [showBool_eq]
    simp [toString, showNat]]
  simp only [List.append_assoc]
  exact ⟨_, rfl⟩

theorem CTest.body_ok {s s' : CTest N l} (hs : s.Track S b) {x : Bool} {rnd : Nat} {t t' : Nat → RedTree} {o : Option (List Char)}
    (ht : ∀ (i : Nat) (c : Nat × BitVec 64), b.counters[i]? = some c → (t i).leaves.Perm (List.range (c.1 + 1)))
    (h : s.body S x rnd t t' = .ok (s', o)) :
    s'.Track S b ∧ s'.done = s.done + 1 ∧ (∃ c, s'.sent = s.sent ++ [c]) ∧ s'.history = s.history ++ [x] ∧
      ((o = none ∧ ∃ v, Compared S b s'.sent s'.history v v) ∨
        ∃ msg v rest, o = some msg ∧ msg = failHead s'.history ++ rest ∧ Compared S b s'.sent s'.history v (!v)) := by
  unfold CTest.body at h
  obtain ⟨enc, h1, h⟩ := Res.bind_eq_ok.1 h
  obtain ⟨⟨c, enc'⟩, h2, h⟩ := Res.bind_eq_ok.1 h
  obtain ⟨plain, h3, h⟩ := Res.bind_eq_ok.1 h
  dsimp only at h
  have hrun : bttRun S b (s.sent ++ [(S.encrypt rnd x, t)]) = .ok enc := by rw [bttRun_snoc, hs.enc, Res.bind_ok, h1]
  have hidle := (bttRun_idle hrun).1
  rw [result_idle hidle] at h2
  obtain ⟨c', h4, h5⟩ := Res.bind_eq_ok.1 h2
  cases h5
  have hres : ∀ trees, enc.result S trees = .ok (c, enc) := fun trees => by
    rw [result_idle hidle, h4, Res.bind_ok]
    rfl
  have hpl : plainRun b (s.history ++ [x]) = .ok plain := by rw [plainRun_snoc, hs.plain, Res.bind_ok, h3]
  have hcmp : Compared S b (s.sent ++ [(S.encrypt rnd x, t)]) (s.history ++ [x]) (tlweSymDecrypt c S.sk) plain.accept :=
    ⟨plain, enc, c, hpl, hrun, hres, rfl, rfl⟩
  have htr : CTest.Track S b ⟨s.done + 1, plain, enc, s.history ++ [x], s.sent ++ [(S.encrypt rnd x, t)]⟩ := by
    refine ⟨List.rel_append hs.sent (.cons ⟨⟨rnd, rfl⟩, ht⟩ .nil), by simp [hs.len], hpl, hrun⟩
  by_cases hne : (tlweSymDecrypt c S.sk != plain.accept) = true
  · rw [if_pos hne] at h
    obtain ⟨d, h6, h⟩ := Res.bind_eq_ok.1 h
    cases h
    refine ⟨htr, rfl, ⟨_, rfl⟩, rfl, .inr ?_⟩
    obtain ⟨rest, hrest⟩ := ctestMessage_head (s.history ++ [x]) (tlweSymDecrypt c S.sk) plain.accept d plain.dump
    refine ⟨_, tlweSymDecrypt c S.sk, rest, rfl, hrest, ?_⟩
    have : plain.accept = !tlweSymDecrypt c S.sk := by
      revert hne
      cases tlweSymDecrypt c S.sk <;> cases plain.accept <;> simp
    rw [this] at hcmp
    exact hcmp
  · rw [if_neg hne] at h
    cases h
    refine ⟨htr, rfl, ⟨_, rfl⟩, rfl, .inl ⟨rfl, tlweSymDecrypt c S.sk, ?_⟩⟩
    have : plain.accept = tlweSymDecrypt c S.sk := by
      revert hne
      cases tlweSymDecrypt c S.sk <;> cases plain.accept <;> simp
    rw [this] at hcmp
    exact hcmp

theorem AllAgree.snoc {cs : List (Gsw l N × (Nat → RedTree))} {hs : List Bool} {c : Gsw l N × (Nat → RedTree)} {x v : Bool}
    (hl : cs.length = hs.length) (h : AllAgree S b cs hs) (h' : Compared S b (cs ++ [c]) (hs ++ [x]) v v) : AllAgree S b (cs ++ [c]) (hs ++ [x]) := by
  intro i h0 hi
  rw [List.length_append, List.length_singleton] at hi
  by_cases hlt : i ≤ hs.length
  · rw [List.take_append_of_le_length (by omega), List.take_append_of_le_length hlt]
    exact h i h0 hlt
  · rw [List.take_of_length_le (by simp; omega), List.take_of_length_le (by simp; omega)]
    exact ⟨v, h'⟩

/-! ## All tests -/

/-- what is known about a test -/
def CTask.Ok (S : GateScheme N n l) (b : Btt) (len : Nat) (f : Bool) : CTask N l → Prop
  | .loop s => s.Track S b ∧ s.done ≤ len ∧ AllAgree S b s.sent s.history
  | .failed s msg => s.Track S b ∧ s.done ≤ len ∧ 0 < s.done ∧ ∃ v rest, msg = failHead s.history ++ rest ∧ Compared S b s.sent s.history v (!v)
  | .returned s msg => s.Track S b ∧ s.done ≤ len ∧ ((msg = [] ∧ AllAgree S b s.sent s.history ∧ (s.done = len ∨ f = true)) ∨
      f = true ∧ 0 < s.done ∧ ∃ v rest, msg = failHead s.history ++ rest ∧ Compared S b s.sent s.history v (!v))

theorem CTask.Ok.flag {t : CTask N l} {f f' : Bool} (h : t.Ok S b len f) (hf : f = true → f' = true) : t.Ok S b len f' := by
  cases t with
  | loop s => exact h
  | failed s msg => exact h
  | returned s msg =>
    obtain ⟨h1, h2, h3⟩ := h
    refine ⟨h1, h2, ?_⟩
    rcases h3 with ⟨a, c, d⟩ | ⟨a, c⟩
    · exact .inl ⟨a, c, d.imp_right hf⟩
    · exact .inr ⟨hf a, c⟩

theorem CStep.ok {t t' : CTask N l} {f f' : Bool} (h : CStep S b len t f t' f') (ht : t.Ok S b len f) :
    t'.Ok S b len f' ∧ (f = true → f' = true) ∧ (f' = true → f = true ∨ ∃ s msg, t' = .returned s msg ∧ msg ≠ []) := by
  cases h with
  | finish h => exact ⟨⟨ht.1, ht.2.1, .inl ⟨rfl, ht.2.2, .inl h⟩⟩, id, .inl⟩
  | abort h => exact ⟨⟨ht.1, ht.2.1, .inl ⟨rfl, ht.2.2, .inr rfl⟩⟩, id, .inl⟩
  | @agree s s' x rnd u u' hd hu hb =>
    obtain ⟨k1, k2, ⟨c, k3⟩, k4, k5⟩ := CTest.body_ok ht.1 hu hb
    refine ⟨⟨k1, by omega, ?_⟩, id, .inl⟩
    rcases k5 with ⟨_, v, k5⟩ | ⟨_, _, _, k5, _⟩
    · rw [k3, k4] at k5 ⊢
      exact AllAgree.snoc ht.1.sent.length_eq ht.2.2 k5
    · cases k5
  | @differ s s' x rnd u u' msg hd hu hb =>
    obtain ⟨k1, k2, ⟨c, k3⟩, k4, k5⟩ := CTest.body_ok ht.1 hu hb
    refine ⟨⟨k1, by omega, ?_⟩, id, .inl⟩
    rcases k5 with ⟨k5, _⟩ | ⟨_, v, rest, k5, k6, k7⟩
    · cases k5
    · cases k5
      exact ⟨by omega, v, rest, k6, k7⟩
  | @store s msg =>
    refine ⟨⟨ht.1, ht.2.1, .inr ⟨rfl, ht.2.2⟩⟩, fun _ => rfl, fun _ => .inr ⟨s, msg, rfl, ?_⟩⟩
    obtain ⟨_, v, rest, h1, _⟩ := ht.2.2
    rw [h1]
    intro h
    exact absurd (List.append_eq_nil_iff.1 (List.append_eq_nil_iff.1 h).1).1 (by decide)

/-- what is known about all tests -/
structure CInv (S : GateScheme N n l) (b : Btt) (len : Nat) (ts : List (CTask N l)) (f : Bool) : Prop where
  ok : ∀ t ∈ ts, t.Ok S b len f
  why : f = true → ∃ s msg, .returned s msg ∈ ts ∧ msg ≠ []

theorem CStep.from {t t' : CTask N l} {f f' : Bool} (h : CStep S b len t f t' f') : (∃ s, t = .loop s) ∨ ∃ s msg, t = .failed s msg := by
  cases h <;> simp

theorem CInv.step {pre suf : List (CTask N l)} {p p' : CTask N l} {f f' : Bool} (hI : CInv S b len (pre ++ p :: suf) f)
    (h : CStep S b len p f p' f') : CInv S b len (pre ++ p' :: suf) f' := by
  obtain ⟨k1, k2, k3⟩ := h.ok (hI.ok p (by simp))
  refine ⟨?_, ?_⟩
  · intro t ht
    simp only [List.mem_append, List.mem_cons] at ht
    rcases ht with ht | rfl | ht
    · exact (hI.ok t (by simp [ht])).flag k2
    · exact k1
    · exact (hI.ok t (by simp [ht])).flag k2
  · intro hf
    rcases k3 hf with hf | ⟨s, msg, rfl, hm⟩
    · obtain ⟨s, msg, h1, h2⟩ := hI.why hf
      refine ⟨s, msg, ?_, h2⟩
      simp only [List.mem_append, List.mem_cons] at h1 ⊢
      rcases h1 with h1 | rfl | h1
      · exact .inl h1
      · rcases h.from with ⟨_, h3⟩ | ⟨_, _, h3⟩ <;> cases h3
      · exact .inr (.inr h1)
    · exact ⟨s, msg, by simp, hm⟩

theorem CInv.exec {ts ts' : List (CTask N l)} {f f' : Bool} (h : CExec S b len ts f ts' f') (hI : CInv S b len ts f) : CInv S b len ts' f' := by
  induction h with
  | refl => exact hI
  | tail _ h ih => exact ih.step h

theorem CInv.start {k : Nat} {ts : List (CTask N l)} (h : counterTestStart b k = .ok ts) : CInv S b len ts false := by
  unfold counterTestStart at h
  obtain ⟨r, h1, h⟩ := Res.bind_eq_ok.1 h
  cases h
  refine ⟨?_, by simp⟩
  intro t ht
  rw [List.eq_of_mem_replicate ht]
  exact ⟨⟨.nil, rfl, rfl, by show bttRun S b [] = _; unfold bttRun; rw [h1]; rfl⟩, Nat.zero_le _, fun i h0 hi => by
    rw [List.length_nil] at hi; omega⟩

theorem CExec.length {ts ts' : List (CTask N l)} {f f' : Bool} (h : CExec S b len ts f ts' f') : ts'.length = ts.length := by
  induction h with
  | refl => rfl
  | tail _ _ ih => simpa using ih

theorem flatten_infix {α : Type} {L : List (List α)} {x : List α} (h : x ∈ L) : ∃ a c, L.flatten = a ++ x ++ c := by
  obtain ⟨A, C, rfl⟩ := List.append_of_mem h
  exact ⟨A.flatten, C.flatten, by simp⟩

end Homfa
