import Verif.Proof.Counter
/-!
# C50: encrypted counters
-/

namespace Homfa

variable {N n l : Nat} {S : GateScheme N n l} {δ : Noise} {Enc : Gsw l N → Bool → Prop} {m g : Nat}

theorem Counter.run_ok (hS : S.Sound δ Enc m g) (hN : 0 < N) (he : δ.ks + δ.br ≤ m) (hg : g ≤ m) (hm : 4 * m + δ.ms < 2 ^ 30)
    {ops : List (CtrOp n)} {h : List (Option Bool)} (ho : List.Forall₂ (CtrMeans S m) ops h) :
    ∀ {ctr : Counter N} {f : Nat → Bool}, ctr.width ≤ 64 → ctr.Bits S δ.br f →
      ∃ r f', ctr.run S ops = .ok r ∧ r.width = ctr.width ∧ r.Bits S δ.br f' ∧
        lsbIndex ((List.range ctr.width).map f') =
          countdown ctr.width ctr.init.toNat (lsbIndex ((List.range ctr.width).map f)) h := by
  induction ho with
  | nil => intro ctr f _ hb; exact ⟨ctr, f, rfl, rfl, hb, rfl⟩
  | @cons op a ops h hop _ ih =>
    intro ctr f hw hb
    cases hop with
    | reset =>
      obtain ⟨r, h1, h2, h3, h4⟩ := Counter.reset_ok (S := S) ctr hw
      obtain ⟨r', f', k1, k2, k3, k4⟩ := ih (ctr := r) (by omega) (h4.mono (Nat.zero_le _))
      refine ⟨r', f', ?_, by omega, k3, ?_⟩
      · show (do let s ← ctr.reset; Counter.run S s ops) = _
        rw [h1, Res.bind_ok, k1]
      · rw [h2, h3, lsb_mod] at k4
        exact k4
    | @minus c b hc =>
      obtain ⟨r, h1, h2, h3, h4⟩ := Counter.minusOne_ok hS hN he hg hm hb hc
      obtain ⟨r', f', k1, k2, k3, k4⟩ := ih (ctr := r) (by omega) h4
      refine ⟨r', f', ?_, by omega, k3, ?_⟩
      · show (do let s ← ctr.minusOne S c; Counter.run S s ops) = _
        rw [h1, Res.bind_ok, k1]
      · rw [h2, h3, lsb_sub_mod] at k4
        exact k4

/-- **C50.** Take any backend whose errors fit the budget, any counter of at most 64 bits with any initial value, and any
history of resets and subtractions of encrypted bits.  Then no operation fails; `is_zero`, in whatever order the parallel
reduction combines the bits, gives an encryption of "the number is 0", where the number starts at the initial value
modulo 2^width, returns to it at a reset, and is decreased modulo 2^width by every encrypted bit; and `decrypt` gives the
number itself if it is below 2^32 and otherwise has undefined behaviour (it shifts `1u` by 32 or more). -/
theorem C50_counter (hS : S.Sound δ Enc m g) (hN : 0 < N) (he : δ.ks + δ.br ≤ m) (hg : g ≤ m) (hm : 4 * m + δ.ms < 2 ^ 30)
    (width : Nat) (hw : width ≤ 64) (init : BitVec 64) (ops : List (CtrOp n)) (h : List (Option Bool))
    (ho : List.Forall₂ (CtrMeans S m) ops h) :
    ∃ ctr : Counter N, (do let c ← Counter.make width init; c.run S ops) = .ok ctr ∧
      (∀ tree : RedTree, tree.Valid (width + 1) → ∃ z, ctr.isZero S tree = .ok z ∧
        Near m (z.phase S.sk.lvl0) (eighth (decide (countdown width init.toNat (init.toNat % 2 ^ width) h = 0)))) ∧
      (countdown width init.toNat (init.toNat % 2 ^ width) h < 2 ^ 32 →
        ctr.decrypt S.sk = .ok (BitVec.ofNat 64 (countdown width init.toNat (init.toNat % 2 ^ width) h))) ∧
      (2 ^ 32 ≤ countdown width init.toNat (init.toNat % 2 ^ width) h → ctr.decrypt S.sk = .error .ub) := by
  obtain ⟨c, h1, h2, h3, h4⟩ := Counter.reset_ok (S := S) { c := [], width := width, init := init } hw
  obtain ⟨r, f, k1, k2, k3, k4⟩ := Counter.run_ok hS hN he hg hm ho (ctr := c) (by rw [h2]; exact hw) (h4.mono (Nat.zero_le _))
  refine ⟨r, ?_, ?_, ?_⟩
  · unfold Counter.make
    rw [h1, Res.bind_ok, k1]
  · intro tree ht
    obtain ⟨z, e1, e2⟩ := Counter.isZero_ok hS hN he hg k3 (by rw [k2, h2]; exact ht)
    refine ⟨z, e1, ?_⟩
    rw [k2, k4, h2, h3, lsb_mod] at e2
    exact e2
  · have := Counter.decrypt_eq hN (by omega) k3
    rw [k2, k4, h2, h3, lsb_mod] at this
    exact ⟨fun h => by rw [this, if_pos h], fun h => by rw [this]; exact if_neg (Nat.not_lt.2 h)⟩

/-- The toy backend with gates that decrypt, compute and encrypt with an error of one unit. -/
def toyGates (N n l : Nat) (sk : SecretKey N n) : GateScheme N n l where
  toScheme := toyScheme N n l sk
  homOR := fun x y => ⟨fun _ => 0, eighth (decide (0 < (x.phase sk.lvl0).toInt) || decide (0 < (y.phase sk.lvl0).toInt)) + 1⟩
  homANDNY := fun x y => ⟨fun _ => 0, eighth (!decide (0 < (x.phase sk.lvl0).toInt) && decide (0 < (y.phase sk.lvl0).toInt)) + 1⟩
  cb01 := fun c => fun _ _ _ => if 0 < (c.phase sk.lvl0).toInt then 1#64 else 0#64

/-- Non-vacuity of C50 (and C51): the toy backend is sound with room to spare. -/
theorem toyGates_sound (sk : SecretKey N n) (hl : 0 < l) (hN : 0 < N) :
    (toyGates N n l sk).Sound toyNoise toyEnc (2 ^ 20) 1 where
  base := toy_sound sk hl hN
  homOR := by
    intro x y a b hx hy
    show Near 1 ((⟨fun _ => 0, _⟩ : TLWE n).phase _) _
    rw [trivialTLWE_phase]
    have e1 := sign_eighth hx (by decide)
    have e2 := sign_eighth hy (by decide)
    change decide (0 < (x.phase sk.lvl0).toInt) = a at e1
    change decide (0 < (y.phase sk.lvl0).toInt) = b at e2
    rw [e1, e2]
    exact near_add_one _
  homANDNY := by
    intro x y a b hx hy
    show Near 1 ((⟨fun _ => 0, _⟩ : TLWE n).phase _) _
    rw [trivialTLWE_phase]
    have e1 := sign_eighth hx (by decide)
    have e2 := sign_eighth hy (by decide)
    change decide (0 < (x.phase sk.lvl0).toInt) = a at e1
    change decide (0 < (y.phase sk.lvl0).toInt) = b at e2
    rw [e1, e2]
    exact near_add_one _
  cb01 := by
    intro c b hc
    have e1 := sign_eighth hc (by decide)
    change decide (0 < (c.phase sk.lvl0).toInt) = b at e1
    refine ⟨hl, hN, ?_⟩
    show (if 0 < (c.phase sk.lvl0).toInt then 1#64 else 0#64) = _
    cases b
    · rw [if_neg (by simpa using e1)]; rfl
    · rw [if_pos (by simpa using e1)]; rfl

/-- A history on a 3-bit counter starting at 5: six decrements wrap around to 7, a reset gives 5 again. -/
example : ∃ ops : List (CtrOp 2), List.Forall₂ (CtrMeans (toyGates 4 2 1 ⟨![1, 0, 1, 0], ![1, 0]⟩) (2 ^ 20)) ops
      [some true, some true, some true, some true, some true, some true, some false] ∧
    toyNoise.ks + toyNoise.br ≤ 2 ^ 20 ∧ 4 * 2 ^ 20 + toyNoise.ms < 2 ^ 30 ∧
    countdown 3 5 5 [some true, some true, some true, some true, some true, some true, some false] = 7 ∧
    countdown 3 5 5 [some true, none, some true] = 4 ∧ (RedTree.node (.leaf 2) (.node (.node (.leaf 0) (.leaf 3)) (.leaf 1))).Valid 4 := by
  have hm : ∀ b, CtrMeans (toyGates 4 2 1 ⟨![1, 0, 1, 0], ![1, 0]⟩) (2 ^ 20) (.minus ⟨fun _ => 0, eighth b⟩) (some b) := by
    intro b
    refine .minus ?_
    rw [trivialTLWE_phase]
    exact Near.rfl'
  exact ⟨_, .cons (hm _) (.cons (hm _) (.cons (hm _) (.cons (hm _) (.cons (hm _) (.cons (hm _) (.cons (hm _) .nil)))))),
    by decide, by decide, by decide, by decide, by unfold RedTree.Valid; decide⟩

end Homfa
