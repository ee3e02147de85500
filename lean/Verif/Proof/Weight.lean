import Verif.Proof.Counter

/-! Weights of the BTT runner. -/

namespace Homfa

variable {N n l : Nat} {S : GateScheme N n l} {δ : Noise} {Enc : Gsw l N → Bool → Prop} {m g : Nat}
  {sp : List (Nat × BitVec 64)}

/-- what a weight stands for -/
structure Tgt where
  acc : Bool
  idx : Nat
  mks : Nat → Bool
  bits : Nat → Nat → Bool

/-- the right number of counters, of the right widths and initial values -/
structure WShape (sp : List (Nat × BitVec 64)) (w : Weight N) : Prop where
  len : w.counter.length = sp.length
  ctr : ∀ (i : Nat) (c : Counter N) (s : Nat × BitVec 64), w.counter[i]? = some c → sp[i]? = some s → c.c.length = s.1 ∧ c.width = s.1 ∧ c.init = s.2

/-- accept bit and state number -/
structure GenOk (S : GateScheme N n l) (e : Nat) (w : Weight N) (acc : Bool) (idx : Nat) : Prop where
  acc : ∀ k : Fin N, k.val = 0 → Near e (w.general.phase S.sk.lvl1 k) (eighth acc)
  idx : ∀ k : Fin N, 0 < k.val → k.val ≤ 64 → Near e (w.general.phase S.sk.lvl1 k) (eighth (idx.testBit (k.val - 1)))

/-- borrow marks -/
def MkOk (S : GateScheme N n l) (K e : Nat) (w : Weight N) (mk : Nat → Bool) : Prop :=
  ∀ k : Fin N, N / 2 ≤ k.val → k.val < N / 2 + K → Near e (w.general.phase S.sk.lvl1 k) (eighth (mk (k.val - N / 2)))

/-- counter bits -/
def CtrOk (S : GateScheme N n l) (e : Nat) (w : Weight N) (bits : Nat → Nat → Bool) : Prop :=
  ∀ i c, w.counter[i]? = some c → ∀ j x, c.c[j]? = some x → ∀ k : Fin N, k.val = 0 →
    Near e (x.phase S.sk.lvl1 k) (eighth (bits i j))

structure WOk (S : GateScheme N n l) (sp : List (Nat × BitVec 64)) (e ec : Nat) (w : Weight N) (t : Tgt) : Prop where
  shape : WShape sp w
  gen : GenOk S e w t.acc t.idx
  mks : MkOk S sp.length e w t.mks
  ctr : CtrOk S ec w t.bits

theorem WOk.mono {e e' ec ec' : Nat} {w : Weight N} {t : Tgt} (h : WOk S sp e ec w t) (he : e ≤ e') (hec : ec ≤ ec') :
    WOk S sp e' ec' w t :=
  ⟨h.shape, ⟨fun k hk => (h.gen.acc k hk).mono he, fun k h1 h2 => (h.gen.idx k h1 h2).mono he⟩, fun k h1 h2 => (h.mks k h1 h2).mono he,
    fun i c hc j x hx k hk => (h.ctr i c hc j x hx k hk).mono hec⟩

theorem pset_ok {p : Poly N} {i : Nat} {x : Torus} (h : i < N) :
    pset p (i : Int) x = .ok (fun j => if j.val = i then x else p j) := by
  unfold pset
  rw [if_pos (by omega)]
  congr 1
  funext j
  simp only [Nat.cast_inj]

theorem initGeneral_ok (K : Nat) (st : BitVec 64) (h64 : 64 < N / 2) (hK : N / 2 + K ≤ N) :
    ∃ p, initGeneral N K st = .ok (trivialTRLWE p) ∧ (∀ k : Fin N, k.val = 0 → p k = eighth false) ∧
      (∀ k : Fin N, 0 < k.val → k.val ≤ 64 → p k = eighth (st.toNat.testBit (k.val - 1))) ∧
      (∀ k : Fin N, N / 2 ≤ k.val → k.val < N / 2 + K → p k = eighth false) ∧
      (∀ k : Fin N, N / 2 + K ≤ k.val → p k = 0#32) := by
  unfold initGeneral
  have h0 : pset (N := N) (fun _ => 0#32) ((0 : Nat) : Int) (-mu8) = .ok (fun j => if j.val = 0 then -mu8 else 0#32) := pset_ok (by omega)
  rw [show (0 : Int) = ((0 : Nat) : Int) from rfl, h0, Res.bind_ok]
  obtain ⟨p1, h1, h2⟩ := foldlM_range_inv
    (fun i (p : Poly N) => p = fun j => if j.val = 0 ∨ (N / 2 ≤ j.val ∧ j.val < N / 2 + i) then -mu8 else 0#32)
    (f := fun p (i : Nat) => pset p ((N / 2 + i : Nat) : Int) (-mu8)) K
    (b := fun j => if j.val = 0 then -mu8 else 0#32) (by
      funext j
      by_cases hj : j.val = 0
      · rw [if_pos hj, if_pos (.inl hj)]
      · rw [if_neg hj, if_neg (by omega)]) (by
      rintro i p hi rfl
      refine ⟨_, pset_ok (by omega), ?_⟩
      funext j
      by_cases hj : j.val = N / 2 + i
      · rw [if_pos hj, if_pos (by omega)]
      · rw [if_neg hj]
        by_cases hj' : j.val = 0 ∨ (N / 2 ≤ j.val ∧ j.val < N / 2 + i)
        · rw [if_pos hj', if_pos (by omega)]
        · rw [if_neg hj', if_neg (by omega)])
  rw [h1, Res.bind_ok]
  obtain ⟨p2, h3, h4⟩ := foldlM_range_inv
    (fun i (p : Poly N) => p = fun j => if 0 < j.val ∧ j.val ≤ i then eighth (st.toNat.testBit (j.val - 1)) else p1 j)
    (f := fun p (i : Nat) => do
      let b ← bit64 st i
      pset p ((i + 1 : Nat) : Int) (if b then mu8 else -mu8)) 64 (b := p1) (by
      funext j
      rw [if_neg (by omega)]) (by
      rintro i p hi rfl
      rw [bit64_ok _ hi, Res.bind_ok]
      refine ⟨_, pset_ok (by omega), ?_⟩
      funext j
      by_cases hj : j.val = i + 1
      · rw [if_pos hj]
        refine Eq.trans ?_ (if_pos (by omega)).symm
        rw [hj]; rfl
      · rw [if_neg hj]
        by_cases hj' : 0 < j.val ∧ j.val ≤ i
        · rw [if_pos hj', if_pos (by omega)]
        · rw [if_neg hj', if_neg (by omega)])
  rw [h3, Res.bind_ok]
  refine ⟨p2, rfl, ?_, ?_, ?_, ?_⟩
  · intro k hk
    rw [h4, h2]
    dsimp only
    rw [if_neg (by omega), if_pos (.inl hk)]; rfl
  · intro k a b
    rw [h4]
    dsimp only
    rw [if_pos ⟨a, b⟩]
  · intro k a b
    rw [h4, h2]
    dsimp only
    rw [if_neg (by omega), if_pos (.inr ⟨a, b⟩)]; rfl
  · intro k a
    rw [h4, h2]
    dsimp only
    rw [if_neg (by omega), if_neg (by omega)]

theorem fromSrc_ok (st : BitVec 64) {src : Weight N} (h64 : 64 < N / 2) (hK : N / 2 + sp.length ≤ N) (hs : WShape sp src) {ec : Nat}
    {bits : Nat → Nat → Bool} (hc : CtrOk S ec src bits) :
    ∃ w, Weight.fromSrc st src = .ok w ∧ WOk S sp 0 ec w ⟨false, st.toNat, fun _ => false, bits⟩ := by
  unfold Weight.fromSrc
  rw [hs.len]
  obtain ⟨p, h1, h2, h3, h4, _⟩ := initGeneral_ok sp.length st h64 hK
  rw [h1, Res.bind_ok]
  refine ⟨_, rfl, ⟨hs.len, hs.ctr⟩, ⟨?_, ?_⟩, ?_, hc⟩
  · intro k hk
    show Near 0 ((trivialTRLWE p).phase _ k) _
    rw [phase_trivial]; exact Near.of_eq (h2 k hk)
  · intro k a b
    show Near 0 ((trivialTRLWE p).phase _ k) _
    rw [phase_trivial]; exact Near.of_eq (h3 k a b)
  · intro k a b
    show Near 0 ((trivialTRLWE p).phase _ k) _
    rw [phase_trivial]; exact Near.of_eq (h4 k a b)

theorem mark_ok (w : Weight N) {i : Nat} (hi : i < N) :
    ∃ w', w.mark i = .ok w' ∧ w'.counter = w.counter ∧
      ∀ key (k : Fin N), w'.general.phase key k = w.general.phase key k + if k.val = i then mu4 else 0 := by
  unfold Weight.mark
  rw [pset_ok hi, Res.bind_ok]
  refine ⟨_, rfl, rfl, fun key k => ?_⟩
  show (w.general.add _).phase key k = _
  rw [phase_add, phase_trivial]
  rfl

theorem eighth_mark : eighth false + mu4 = eighth true := by decide

theorem markAccept_ok {w : Weight N} {e ec : Nat} {t : Tgt} (h0 : 0 < N / 2) (h : WOk S sp e ec w t) (ht : t.acc = false) :
    ∃ w', w.markAccept = .ok w' ∧ WOk S sp e ec w' { t with acc := true } := by
  obtain ⟨w', h1, h2, h3⟩ := mark_ok w (i := 0) (by omega)
  refine ⟨w', h1, ⟨⟨by rw [h2]; exact h.shape.len, by rw [h2]; exact h.shape.ctr⟩, ⟨?_, ?_⟩, ?_, ?_⟩⟩
  · intro k hk
    rw [h3, if_pos hk]
    have := (h.gen.acc k hk).add_const mu4
    rwa [ht, eighth_mark] at this
  · intro k a b
    rw [h3, if_neg (by omega), add_zero]
    exact h.gen.idx k a b
  · intro k a b
    rw [h3, if_neg (by omega), add_zero]
    exact h.mks k a b
  · unfold CtrOk; rw [h2]; exact h.ctr

theorem markCounter_ok {w : Weight N} {e ec : Nat} {t : Tgt} (h64 : 64 < N / 2) (hK : N / 2 + sp.length ≤ N) (h : WOk S sp e ec w t)
    {i : Nat} (hi : i < sp.length) (ht : t.mks i = false) :
    ∃ w', w.markCounter i = .ok w' ∧ WOk S sp e ec w' { t with mks := fun j => if j = i then true else t.mks j } := by
  obtain ⟨w', h1, h2, h3⟩ := mark_ok w (i := N / 2 + i) (by omega)
  refine ⟨w', h1, ⟨⟨by rw [h2]; exact h.shape.len, by rw [h2]; exact h.shape.ctr⟩, ⟨?_, ?_⟩, ?_, ?_⟩⟩
  · intro k hk
    rw [h3, if_neg (by omega), add_zero]
    exact h.gen.acc k hk
  · intro k a b
    rw [h3, if_neg (by omega), add_zero]
    exact h.gen.idx k a b
  · intro k a b
    rw [h3]
    dsimp only
    by_cases hk : k.val = N / 2 + i
    · rw [if_pos hk, if_pos (by omega)]
      have := (h.mks k a b).add_const mu4
      rwa [show k.val - N / 2 = i by omega, ht, eighth_mark] at this
    · rw [if_neg hk, if_neg (by omega), add_zero]
      exact h.mks k a b
  · unfold CtrOk; rw [h2]; exact h.ctr

theorem resetCounter_ok {w : Weight N} {e ec : Nat} {t : Tgt} (h : WOk S sp e ec w t) {i : Nat} {s : Nat × BitVec 64}
    (hi : sp[i]? = some s) (hs : s.1 ≤ 64) :
    ∃ w', w.resetCounter i = .ok w' ∧
      WOk S sp e ec w' { t with bits := fun j => if j = i then s.2.toNat.testBit else t.bits j } := by
  have hil : i < w.counter.length := by rw [h.shape.len]; exact (List.getElem?_eq_some_iff.1 hi).1
  unfold Weight.resetCounter
  rw [vat_lt hil, Res.bind_ok]
  obtain ⟨_, hw, hini⟩ := h.shape.ctr i _ s (List.getElem?_eq_getElem hil) hi
  obtain ⟨c, h1, h2, h3, h4⟩ := Counter.reset_ok (S := S) (w.counter[i]'hil) (by rw [hw]; exact hs)
  rw [h1, Res.bind_ok, vset_lt hil, Res.bind_ok]
  refine ⟨_, rfl, ⟨by simp [h.shape.len], ?_⟩, ⟨h.gen.acc, h.gen.idx⟩, h.mks, ?_⟩
  · intro j c' s' hc' hs'
    dsimp only at hc'
    by_cases hj : i = j
    · subst hj
      rw [List.getElem?_set_self hil] at hc'
      cases hc'
      rw [hi] at hs'
      cases hs'
      exact ⟨by rw [h4.len, h2, hw], by rw [h2, hw], by rw [h3, hini]⟩
    · rw [List.getElem?_set_ne hj] at hc'
      exact h.shape.ctr j c' s' hc' hs'
  · intro j c' hc' p x hx k hk
    dsimp only at hc' ⊢
    by_cases hj : i = j
    · subst hj
      rw [List.getElem?_set_self hil] at hc'
      cases hc'
      rw [if_pos rfl]
      have := h4.near p x hx k hk
      rw [hini] at this
      exact this.mono (Nat.zero_le _)
    · rw [List.getElem?_set_ne hj] at hc'
      rw [if_neg (Ne.symm hj)]
      exact h.ctr j c' hc' p x hx k hk

/-- the target after the actions of an edge -/
def Tgt.act (sp : List (Nat × BitVec 64)) (t : Tgt) (accept : Bool) (reset inc : List Nat) : Tgt where
  acc := t.acc || accept
  idx := t.idx
  mks := fun i => t.mks i || decide (i ∈ inc)
  bits := fun i => if i ∈ reset then (sp.getD i (0, 0)).2.toNat.testBit else t.bits i

theorem alterWeight_ok {w : Weight N} {e ec : Nat} {t : Tgt} (h64 : 64 < N / 2) (hK : N / 2 + sp.length ≤ N)
    (hsp : ∀ s ∈ sp, s.1 ≤ 64) (h : WOk S sp e ec w t) {accept : Bool} {reset inc : List Nat}
    (hr : ∀ i ∈ reset, i < sp.length) (hi : ∀ i ∈ inc, i < sp.length) (hnd : inc.Nodup)
    (hacc : accept = true → t.acc = false) (hmk : ∀ i ∈ inc, t.mks i = false) :
    ∃ w', alterWeight w accept reset inc = .ok w' ∧ WOk S sp e ec w' (t.act sp accept reset inc) := by
  unfold alterWeight
  have h1 : ∃ w', (if accept then w.markAccept else pure w : Res (Weight N)) = .ok w' ∧
      WOk S sp e ec w' { t with acc := t.acc || accept } := by
    cases accept
    · exact ⟨w, rfl, by simpa using h⟩
    · obtain ⟨w', a, b⟩ := markAccept_ok (by omega) h (hacc rfl)
      exact ⟨w', a, by simpa using b⟩
  obtain ⟨w1, e1, o1⟩ := h1
  rw [e1, Res.bind_ok]
  obtain ⟨w2, e2, o2⟩ := foldlM_inv
    (fun (pre : List Nat) (r : Weight N) => WOk S sp e ec r
      { t with acc := t.acc || accept, bits := fun i => if i ∈ pre then (sp.getD i (0, 0)).2.toNat.testBit else t.bits i })
    (f := fun r i => Weight.resetCounter r i) reset (b := w1) (by simpa using o1) (by
      intro pre i post r hd o
      have hi := hr i (by rw [hd]; simp)
      obtain ⟨w', a, b⟩ := resetCounter_ok o (List.getElem?_eq_getElem hi) (hsp _ (List.getElem_mem hi))
      refine ⟨w', a, ?_⟩
      have : (fun j => if j = i then (sp[i]'hi).2.toNat.testBit else if j ∈ pre then (sp.getD j (0, 0)).2.toNat.testBit else t.bits j) =
          fun j => if j ∈ pre ++ [i] then (sp.getD j (0, 0)).2.toNat.testBit else t.bits j := by
        funext j
        by_cases hj : j = i
        · subst hj
          rw [if_pos rfl, if_pos (by simp)]
          simp [List.getD_eq_getElem?_getD, List.getElem?_eq_getElem hi]
        · rw [if_neg hj]
          by_cases hp : j ∈ pre
          · rw [if_pos hp, if_pos (by simp [hp])]
          · rw [if_neg hp, if_neg (by simp [hp, hj])]
      rw [← this]
      exact b)
  rw [e2, Res.bind_ok]
  obtain ⟨w3, e3, o3⟩ := foldlM_inv
    (fun (pre : List Nat) (r : Weight N) => WOk S sp e ec r
      { t with acc := t.acc || accept, bits := fun i => if i ∈ reset then (sp.getD i (0, 0)).2.toNat.testBit else t.bits i,
               mks := fun i => t.mks i || decide (i ∈ pre) })
    (f := fun r i => Weight.markCounter r i) inc (b := w2) (by simpa using o2) (by
      intro pre i post r hd o
      have hi' := hi i (by rw [hd]; simp)
      have hnot : i ∉ pre := by
        intro hc
        rw [hd] at hnd
        exact (List.nodup_append.1 hnd).2.2 i hc i (by simp) rfl
      obtain ⟨w', a, b⟩ := markCounter_ok h64 hK o hi' (by
        dsimp only
        rw [hmk i (by rw [hd]; simp), decide_eq_false hnot]; rfl)
      refine ⟨w', a, ?_⟩
      have : (fun j => if j = i then true else t.mks j || decide (j ∈ pre)) = fun j => t.mks j || decide (j ∈ pre ++ [i]) := by
        funext j
        by_cases hj : j = i
        · subst hj; simp
        · rw [if_neg hj]; simp [hj]
      rw [← this]
      exact b)
  exact ⟨w3, e3, o3⟩

theorem Counter.cmux_ok (S : Scheme N n l) {out in1 in0 : Counter N} (sel : Gsw l N) (h1 : out.c.length = in1.c.length)
    (h0 : out.c.length = in0.c.length) :
    ∃ c, Counter.cmux S out sel in1 in0 = .ok { out with c := c } ∧ c.length = out.c.length ∧
      ∀ (j : Nat) (x : TRLWE N), c[j]? = some x → ∃ a b, in1.c[j]? = some a ∧ in0.c[j]? = some b ∧ x = S.cmux sel a b := by
  unfold Counter.cmux
  rw [decide_eq_true h1, decide_eq_true h0, cassert_true, Res.bind_ok, Res.bind_ok]
  obtain ⟨c, e1, e2, e3⟩ := foldlM_range_inv
    (fun i (c : List (TRLWE N)) => c.length = out.c.length ∧ ∀ j < i, ∃ a b, in1.c[j]? = some a ∧ in0.c[j]? = some b ∧
      c[j]? = some (S.cmux sel a b))
    (f := fun (c : List (TRLWE N)) i => do
      let a ← vat in1.c i
      let b ← vat in0.c i
      vset c i (S.cmux sel a b)) out.c.length (b := out.c) ⟨rfl, by simp⟩ (by
      rintro i c hi ⟨e1, e2⟩
      rw [vat_lt (by omega), Res.bind_ok, vat_lt (by omega), Res.bind_ok, vset_lt (by omega)]
      refine ⟨_, rfl, by simp [e1], fun j hj => ?_⟩
      by_cases hji : i = j
      · subst hji
        exact ⟨_, _, List.getElem?_eq_getElem (by omega), List.getElem?_eq_getElem (by omega), by
          rw [List.getElem?_set_self (by omega)]⟩
      · obtain ⟨a, b, k1, k2, k3⟩ := e2 j (by omega)
        exact ⟨a, b, k1, k2, by rw [List.getElem?_set_ne hji]; exact k3⟩)
  rw [e1, Res.bind_ok]
  refine ⟨c, rfl, e2, fun j x hx => ?_⟩
  have hj : j < out.c.length := by rw [← e2]; exact (List.getElem?_eq_some_iff.1 hx).1
  obtain ⟨a, b, k1, k2, k3⟩ := e3 j hj
  rw [hx] at k3
  cases k3
  exact ⟨a, b, k1, k2, rfl⟩

theorem Weight.cmux_ok (hS : S.Sound δ Enc m g) {out in1 in0 : Weight N} {sel : Gsw l N} {b : Bool} (hb : Enc sel b) {e ec : Nat}
    {t1 t0 : Tgt} (ho : WShape sp out) (h1 : WOk S sp e ec in1 t1) (h0 : WOk S sp e ec in0 t0) :
    ∃ w, Weight.cmux S.toScheme out sel in1 in0 = .ok w ∧ WOk S sp (e + δ.cmux) (ec + δ.cmux) w (if b then t1 else t0) := by
  have hsel : ∀ (c1 c0 : TRLWE N) (x1 x0 : Torus) (k : Fin N) (e : Nat), Near e (c1.phase S.sk.lvl1 k) x1 → Near e (c0.phase S.sk.lvl1 k) x0 →
      Near (e + δ.cmux) ((S.cmux sel c1 c0).phase S.sk.lvl1 k) (if b then x1 else x0) := by
    intro c1 c0 x1 x0 k e a1 a0
    have := hS.base.cmux sel b c1 c0 k hb
    cases b
    · rw [Nat.add_comm]; exact this.trans a0
    · rw [Nat.add_comm]; exact this.trans a1
  unfold Weight.cmux
  rw [decide_eq_true (by rw [ho.len, h1.shape.len]), decide_eq_true (by rw [ho.len, h0.shape.len]), cassert_true, Res.bind_ok,
    Res.bind_ok]
  obtain ⟨cs, e1, e2, e3, e4⟩ := foldlM_range_inv
    (fun i (cs : List (Counter N)) => cs.length = out.counter.length ∧
      (∀ j, i ≤ j → cs[j]? = out.counter[j]?) ∧
      ∀ j < i, ∃ c o a b, cs[j]? = some c ∧ out.counter[j]? = some o ∧ in1.counter[j]? = some a ∧ in0.counter[j]? = some b ∧
        c.c.length = o.c.length ∧ c.width = o.width ∧ c.init = o.init ∧
        ∀ p x, c.c[p]? = some x → ∃ xa xb, a.c[p]? = some xa ∧ b.c[p]? = some xb ∧ x = S.cmux sel xa xb)
    (f := fun (cs : List (Counter N)) i => do
      let o ← vat cs i
      let a ← vat in1.counter i
      let b ← vat in0.counter i
      let c ← Counter.cmux S.toScheme o sel a b
      vset cs i c) out.counter.length (b := out.counter) ⟨rfl, fun _ _ => rfl, by simp⟩ (by
      rintro i cs hi ⟨k1, k2, k3⟩
      have hi1 : i < in1.counter.length := by rw [h1.shape.len, ← ho.len]; exact hi
      have hi0 : i < in0.counter.length := by rw [h0.shape.len, ← ho.len]; exact hi
      have his : i < sp.length := by rw [← ho.len]; exact hi
      have hcs : cs[i]? = some out.counter[i] := by rw [k2 i (Nat.le_refl _)]; exact List.getElem?_eq_getElem hi
      obtain ⟨l1, _, _⟩ := h1.shape.ctr i _ _ (List.getElem?_eq_getElem hi1) (List.getElem?_eq_getElem his)
      obtain ⟨l0, _, _⟩ := h0.shape.ctr i _ _ (List.getElem?_eq_getElem hi0) (List.getElem?_eq_getElem his)
      obtain ⟨lo, _, _⟩ := ho.ctr i _ _ (List.getElem?_eq_getElem hi) (List.getElem?_eq_getElem his)
      rw [vat_eq_ok.2 hcs, Res.bind_ok, vat_lt hi1, Res.bind_ok, vat_lt hi0, Res.bind_ok]
      obtain ⟨c, c1, c2, c3⟩ := Counter.cmux_ok S.toScheme (out := out.counter[i]) (in1 := in1.counter[i]) (in0 := in0.counter[i]) sel
        (by rw [lo, l1]) (by rw [lo, l0])
      rw [c1, Res.bind_ok, vset_lt (by omega)]
      refine ⟨_, rfl, by simp [k1], fun j hj => ?_, fun j hj => ?_⟩
      · rw [List.getElem?_set_ne (by omega)]
        exact k2 j (by omega)
      · by_cases hji : i = j
        · subst hji
          exact ⟨_, _, _, _, List.getElem?_set_self (by omega), List.getElem?_eq_getElem hi, List.getElem?_eq_getElem hi1,
            List.getElem?_eq_getElem hi0, c2, rfl, rfl, c3⟩
        · obtain ⟨c', o, a, b, q1, q2⟩ := k3 j (by omega)
          exact ⟨c', o, a, b, by rw [List.getElem?_set_ne hji]; exact q1, q2⟩)
  rw [e1, Res.bind_ok]
  refine ⟨_, rfl, ⟨by rw [← ho.len]; exact e2, ?_⟩, ⟨?_, ?_⟩, ?_, ?_⟩
  · intro i c s hc hs
    have hi : i < out.counter.length := by rw [ho.len]; exact (List.getElem?_eq_some_iff.1 hs).1
    obtain ⟨c', o, a, b, q1, q2, q3, q4, q5, q6, q7, q8⟩ := e4 i hi
    change cs[i]? = some c at hc
    rw [q1] at hc
    cases hc
    obtain ⟨l1, l2, l3⟩ := ho.ctr i o s q2 hs
    exact ⟨by rw [q5, l1], by rw [q6, l2], by rw [q7, l3]⟩
  · intro k hk
    have := hsel _ _ _ _ k e (h1.gen.acc k hk) (h0.gen.acc k hk)
    cases b <;> exact this
  · intro k ha hb
    have := hsel _ _ _ _ k e (h1.gen.idx k ha hb) (h0.gen.idx k ha hb)
    cases b <;> exact this
  · intro k ha hb
    have := hsel _ _ _ _ k e (h1.mks k ha hb) (h0.mks k ha hb)
    cases b <;> exact this
  · intro i c hc p x hx k hk
    have hi : i < out.counter.length := by rw [← e2]; exact (List.getElem?_eq_some_iff.1 hc).1
    obtain ⟨c', o, a, b', q1, q2, q3, q4, q5, q6, q7, q8⟩ := e4 i hi
    change cs[i]? = some c at hc
    rw [q1] at hc
    cases hc
    obtain ⟨xa, xb, r1, r2, rfl⟩ := q8 p x hx
    have := hsel _ _ _ _ k ec (h1.ctr i a q3 p xa r1 k hk) (h0.ctr i b' q4 p xb r2 k hk)
    cases b <;> exact this

/-- the tree of CMUXes on weights -/
theorem wlutLoop_ok (hS : S.Sound δ Enc m g) (K : Nat) (hK : K < 32) {rest : List (Gsw l N)} {bs : List Bool}
    (hb : List.Forall₂ Enc rest bs) : ∀ (i : Nat) (tmp table : List (Weight N)) (e ec : Nat) (T : Nat → Tgt), i + rest.length = K →
    2 ^ rest.length ≤ table.length → (rest ≠ [] → 2 ^ (rest.length - 1) ≤ tmp.length) → (∀ w ∈ tmp, WShape sp w) →
    (∀ j < 2 ^ rest.length, ∃ w, table[j]? = some w ∧ WOk S sp e ec w (T j)) → (∀ w ∈ table, WShape sp w) →
    ∃ tmp' table' w, wlutLoop S.toScheme K rest i tmp table = .ok (tmp', table') ∧ table'[0]? = some w ∧
      WOk S sp (e + rest.length * δ.cmux) (ec + rest.length * δ.cmux) w (T (lsbIndex bs)) := by
  induction hb with
  | nil =>
    intro i tmp table e ec T _ h1 _ _ hT _
    obtain ⟨w, e1, e2⟩ := hT 0 (by simp)
    exact ⟨tmp, table, w, rfl, e1, by simpa [lsbIndex] using e2⟩
  | @cons c b rest bs hc _ ih =>
    intro i tmp table e ec T hi h1 h2 htmp hT htab
    have h2' := h2 (by simp)
    rw [show (c :: rest).length - 1 = rest.length from rfl] at h2'
    rw [List.length_cons, Nat.pow_succ] at h1 hT
    rw [List.length_cons] at hi
    have hlen : K - i - 1 = rest.length := by omega
    rw [wlutLoop, hlen, shl1_ok (by omega), Res.bind_ok]
    obtain ⟨w', e1, e2, e3, e4⟩ := parFor_write (task := wlutTask S.toScheme c) (rest := [table])
      (P := fun j x => WOk S sp (e + δ.cmux) (ec + δ.cmux) x (if b then T (j * 2 + 1) else T (j * 2)))
      (w0 := tmp) (List.range (2 ^ rest.length)) List.nodup_range (by
        intro j hj w hw hwj
        rw [List.mem_range] at hj
        obtain ⟨w1, a1, a2⟩ := hT (j * 2 + 1) (by omega)
        obtain ⟨w0, b1, b2⟩ := hT (j * 2) (by omega)
        have hjl : j < tmp.length := by omega
        rw [List.getElem?_eq_getElem hjl] at hwj
        obtain ⟨r, r1, r2⟩ := Weight.cmux_ok hS hc (htmp _ (List.getElem_mem hjl)) a2 b2
        refine ⟨r, r2, ?_⟩
        unfold wlutTask
        rw [Prog.run_read0 hwj, Prog.run_read1 a1, Prog.run_read1 b1, Prog.run_local _ r1, Prog.run_write0 (by omega)]) (by
        intro j hj; rw [List.mem_range] at hj; omega)
    rw [e1, Res.bind_ok]
    show ∃ tmp' table' w, wlutLoop S.toScheme K rest (i + 1) table w' = _ ∧ _
    obtain ⟨t1, t2, w, f1, f2, f3⟩ := ih (i + 1) table w' (e + δ.cmux) (ec + δ.cmux) (fun j => if b then T (j * 2 + 1) else T (j * 2))
      (by omega) (by rw [e2]; exact h2') (by
        intro _
        have : 2 ^ (rest.length - 1) ≤ 2 ^ rest.length := Nat.pow_le_pow_right (by omega) (by omega)
        omega) htab (by
        intro j hj
        obtain ⟨x, hx, hP⟩ := e3 j (List.mem_range.2 hj)
        exact ⟨x, hx, hP⟩) (by
        intro x hx
        obtain ⟨j, hj, rfl⟩ := List.getElem_of_mem hx
        by_cases hjr : j < 2 ^ rest.length
        · obtain ⟨y, hy, hP⟩ := e3 j (List.mem_range.2 hjr)
          rw [List.getElem?_eq_getElem hj] at hy
          cases hy
          exact hP.shape
        · have := e4 j (by simpa using hjr)
          rw [List.getElem?_eq_getElem hj, List.getElem?_eq_getElem (by omega)] at this
          injection this with this
          rw [this]
          exact htmp _ (List.getElem_mem _))
    refine ⟨t1, t2, w, f1, f2, ?_⟩
    have : (if b then T (lsbIndex bs * 2 + 1) else T (lsbIndex bs * 2)) = T (lsbIndex (b :: bs)) := by
      cases b
      · simp [lsbIndex, Nat.mul_comm]
      · simp [lsbIndex, Nat.mul_comm, Nat.add_comm]
    rw [this] at f3
    refine f3.mono ?_ ?_
    · rw [List.length_cons, Nat.add_mul]; omega
    · rw [List.length_cons, Nat.add_mul]; omega

theorem wlookupTable_ok (hS : S.Sound δ Enc m g) {inputs : List (Gsw l N)} {bs : List Bool} (hb : List.Forall₂ Enc inputs bs)
    (hk : inputs.length < 31) {table : List (Weight N)} (ht : table.length = 2 ^ inputs.length) {e ec : Nat} {T : Nat → Tgt}
    (hT : ∀ j < 2 ^ inputs.length, ∃ w, table[j]? = some w ∧ WOk S sp e ec w (T j)) :
    ∃ t w, wlookupTable S.toScheme table inputs = .ok t ∧ vat t 0 = .ok w ∧
      WOk S sp (e + inputs.length * δ.cmux) (ec + inputs.length * δ.cmux) w (T (lsbIndex bs)) := by
  unfold wlookupTable
  rw [shl1_ok hk, Res.bind_ok, decide_eq_true ht, cassert_true, Res.bind_ok]
  have hshape : ∀ w ∈ table, WShape sp w := by
    intro w hw
    obtain ⟨j, hj, rfl⟩ := List.getElem_of_mem hw
    obtain ⟨w', a, b⟩ := hT j (by omega)
    rw [List.getElem?_eq_getElem hj] at a
    cases a
    exact b.shape
  by_cases h0 : inputs.length = 0
  · rw [if_pos h0]
    have : inputs = [] := List.eq_nil_of_length_eq_zero h0
    subst this
    cases hb
    obtain ⟨w, a, b⟩ := hT 0 (by simp)
    exact ⟨table, w, rfl, vat_eq_ok.2 a, by simpa [lsbIndex] using b⟩
  · rw [if_neg h0, shl1_ok (by omega), Res.bind_ok]
    have hp := Nat.two_pow_pos inputs.length
    rw [vat_lt (by omega), Res.bind_ok]
    obtain ⟨t1, t2, w, f1, f2, f3⟩ := wlutLoop_ok hS inputs.length (by omega) hb 0
      (List.replicate (2 ^ (inputs.length - 1)) (table[0]'(by omega))) table e ec T (by omega) (by omega) (by simp) (by
        intro w hw
        rw [List.eq_of_mem_replicate hw]
        exact hshape _ (List.getElem_mem _)) hT hshape
    rw [f1, Res.bind_ok]
    exact ⟨t2, w, rfl, vat_eq_ok.2 f2, f3⟩

/-- the bits of a counter as `Counter.Bits` -/
theorem CtrOk.bits {w : Weight N} {e : Nat} {bits : Nat → Nat → Bool} (hs : WShape sp w) (hc : CtrOk S e w bits) {i : Nat} {c : Counter N}
    {s : Nat × BitVec 64} (hi : w.counter[i]? = some c) (hsi : sp[i]? = some s) : c.Bits S e (bits i) := by
  obtain ⟨h1, h2, _⟩ := hs.ctr i c s hi hsi
  exact ⟨by rw [h1, h2], fun j x hx k hk => hc i c hi j x hx k hk⟩

theorem updateCounters_ok (hS : S.Sound δ Enc m g) {w : Weight N} {e ec : Nat} {t : Tgt} (h : WOk S sp e ec w t) (h64 : 64 < N / 2)
    (hK : N / 2 + sp.length ≤ N) (he : δ.ks + e ≤ m) (hec : δ.ks + ec ≤ m) (hg : g ≤ m) (hm : 4 * m + δ.ms < 2 ^ 30) :
    ∃ w', w.updateCounters S = .ok w' ∧ WShape sp w' ∧ GenOk S e w' t.acc t.idx ∧
      CtrOk S δ.br w' (fun i j => t.bits i j != borrowAt (t.bits i) (t.mks i) j) ∧ MkOk S sp.length e w' t.mks := by
  have hN : 0 < N := by omega
  unfold Weight.updateCounters
  obtain ⟨cs, e1, e2, e3, e4⟩ := parFor_write (task := updateTask S w.general) (rest := [])
    (P := fun i c => ∃ o s, w.counter[i]? = some o ∧ sp[i]? = some s ∧ c.width = o.width ∧ c.init = o.init ∧
      c.Bits S δ.br (fun j => t.bits i j != borrowAt (t.bits i) (t.mks i) j))
    (w0 := w.counter) (List.range w.counter.length) List.nodup_range (by
      intro i hi v hv hvi
      rw [List.mem_range] at hi
      have his : i < sp.length := by rw [← h.shape.len]; exact hi
      have hiN : N / 2 + i < N := by omega
      rw [List.getElem?_eq_getElem hi] at hvi
      have hbits := CtrOk.bits h.shape h.ctr (List.getElem?_eq_getElem hi) (List.getElem?_eq_getElem his)
      have hbor : Near m ((S.iks (sampleExtract w.general ⟨N / 2 + i, hiN⟩)).phase S.sk.lvl0) (eighth (t.mks i)) := by
        have := h.mks ⟨N / 2 + i, hiN⟩ (Nat.le_add_right _ _) (by dsimp only; omega)
        have e0 : (⟨N / 2 + i, hiN⟩ : Fin N).val - N / 2 = i := by dsimp only; omega
        rw [e0] at this
        exact (hS.base.iks_near this).mono he
      obtain ⟨c, c1, c2, c3, c4⟩ := Counter.minusOne_ok hS hN hec hg hm hbits hbor
      refine ⟨c, ⟨_, _, List.getElem?_eq_getElem hi, List.getElem?_eq_getElem his, c2, c3, c4⟩, ?_⟩
      unfold updateTask
      rw [Prog.run_local _ (sampleExtractAt_ok hiN), Prog.run_read0 hvi, Prog.run_local _ c1, Prog.run_write0 (by omega)]) (by
      intro i hi; exact List.mem_range.1 hi)
  rw [e1, Res.bind_ok]
  refine ⟨{ w with counter := cs }, rfl, ⟨by rw [← h.shape.len]; exact e2, ?_⟩, ⟨h.gen.acc, h.gen.idx⟩, ?_, h.mks⟩
  · intro i c s hc hs
    have hi : i < w.counter.length := by rw [h.shape.len]; exact (List.getElem?_eq_some_iff.1 hs).1
    obtain ⟨c', hc', o, s', q1, q2, q3, q4, q5⟩ := e3 i (List.mem_range.2 hi)
    change cs[i]? = some c at hc
    rw [hc'] at hc
    cases hc
    obtain ⟨_, l2, l3⟩ := h.shape.ctr i o s q1 hs
    exact ⟨by rw [q5.len, q3, l2], by rw [q3, l2], by rw [q4, l3]⟩
  · intro i c hc j x hx k hk
    have hi : i < w.counter.length := by rw [← e2]; exact (List.getElem?_eq_some_iff.1 hc).1
    obtain ⟨c', hc', o, s', q1, q2, q3, q4, q5⟩ := e3 i (List.mem_range.2 hi)
    change cs[i]? = some c at hc
    rw [hc'] at hc
    cases hc
    exact q5.near j x hx k hk

theorem mapM_range_forall₂ {α β : Type} {f : Nat → Res α} {P : α → β → Prop} {b : Nat → β} (k : Nat)
    (h : ∀ i < k, ∃ x, f i = .ok x ∧ P x (b i)) :
    ∃ xs, (List.range k).mapM f = .ok xs ∧ xs.length = k ∧ List.Forall₂ P xs ((List.range k).map b) := by
  have key : ∀ (l : List Nat), (∀ i ∈ l, ∃ x, f i = .ok x ∧ P x (b i)) →
      ∃ xs, l.mapM f = .ok xs ∧ xs.length = l.length ∧ List.Forall₂ P xs (l.map b) := by
    intro l
    induction l with
    | nil => intro _; exact ⟨[], rfl, rfl, .nil⟩
    | cons a l ih =>
      intro h
      obtain ⟨x, h1, h2⟩ := h a (by simp)
      obtain ⟨xs, h3, h4, h5⟩ := ih (fun i hi => h i (by simp [hi]))
      exact ⟨x :: xs, by rw [List.mapM_cons, h1, Res.bind_ok, h3, Res.bind_ok]; rfl, by simp [h4], .cons h2 h5⟩
  obtain ⟨xs, h1, h2, h3⟩ := key (List.range k) (fun i hi => h i (List.mem_range.1 hi))
  exact ⟨xs, h1, by simpa using h2, h3⟩

theorem conditions_ok (hS : S.Sound δ Enc m g) (hN : 0 < N) {w : Weight N} {ec : Nat} {bits : Nat → Nat → Bool} (hs : WShape sp w)
    (hc : CtrOk S ec w bits) (hec : δ.ks + ec ≤ m) (hg : g ≤ m) {trees : Nat → RedTree}
    (ht : ∀ i s, sp[i]? = some s → (trees i).Valid (s.1 + 1)) :
    ∃ cs, w.conditions S trees = .ok cs ∧ cs.length = sp.length ∧
      List.Forall₂ Enc cs ((List.range sp.length).map fun i =>
        decide (lsbIndex ((List.range (sp.getD i (0, 0)).1).map (bits i)) = 0)) := by
  unfold Weight.conditions
  rw [hs.len]
  refine mapM_range_forall₂ sp.length (fun i hi => ?_)
  have hil : i < w.counter.length := by rw [hs.len]; exact hi
  rw [vat_lt hil, Res.bind_ok]
  have hsi : sp[i]? = some sp[i] := List.getElem?_eq_getElem hi
  obtain ⟨_, l2, _⟩ := hs.ctr i _ _ (List.getElem?_eq_getElem hil) hsi
  obtain ⟨z, h1, h2⟩ := Counter.isZero_ok hS hN hec hg (CtrOk.bits hs hc (List.getElem?_eq_getElem hil) hsi)
    (t := trees i) (by rw [l2]; exact ht i _ hsi)
  rw [h1, Res.bind_ok]
  refine ⟨_, rfl, ?_⟩
  rw [l2] at h2
  rw [List.getD_eq_getElem?_getD, hsi, Option.getD_some]
  exact hS.cb01 _ _ h2

theorem selectors_ok (hS : S.Sound δ Enc m g) {w : Weight N} {e : Nat} {acc : Bool} {idx : Nat} (hgen : GenOk S e w acc idx)
    (he : δ.ks + e ≤ m) (h64 : 64 < N) {k : Nat} (hk : k ≤ 64) :
    ∃ cs, w.selectors S k = .ok cs ∧ cs.length = k ∧ List.Forall₂ Enc cs ((List.range k).map idx.testBit) := by
  unfold Weight.selectors
  refine mapM_range_forall₂ k (fun i hi => ?_)
  have hiN : i + 1 < N := by omega
  rw [sampleExtractAt_ok hiN, Res.bind_ok]
  refine ⟨_, rfl, hS.cb01 _ _ ?_⟩
  have := hgen.idx ⟨i + 1, hiN⟩ (Nat.succ_pos _) (by dsimp only; omega)
  exact (hS.base.iks_near this).mono he

end Homfa
