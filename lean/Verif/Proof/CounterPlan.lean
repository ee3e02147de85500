import Verif.Proof.CounterAlike
import Verif.Proof.BttThrow

/-!
# Which functions the BTT runner calls

`GPlan P ks p`: whatever the library answers, `p` fails after some of the calls `ks`, or makes these calls in this order and has a result with `P`.
-/

namespace Homfa

variable {N n l : Nat} {α β σ ι : Type} {P : α → Prop} {Q : β → Prop}

inductive GPlan {α : Type} (P : α → Prop) : List GateKind → GComp N n l α → Prop
  | ok {a : α} (h : P a) : GPlan P [] (.ret (.ok a))
  | error {e : Err} {ks : List GateKind} : GPlan P ks (.ret (.error e))
  | call {c : GateCall N n l} {k : c.Ans → GComp N n l α} {ks : List GateKind} (h : ∀ a, GPlan P ks (k a)) : GPlan P (c.kind :: ks) (.call c k)

namespace GPlan

theorem kinds_eq {ks : List GateKind} {p : GComp N n l α} (h : GPlan P ks p) {S : GateScheme N n l} {a : α} (hr : p.run S = .ok a) :
    p.kinds S = ks ∧ P a := by
  induction h with
  | ok h => cases hr; exact ⟨rfl, h⟩
  | error => cases hr
  | @call c k ks _ ih =>
    obtain ⟨h1, h2⟩ := ih (c.answer S) hr
    refine ⟨?_, h2⟩
    show c.kind :: (k (c.answer S)).kinds S = _
    rw [h1]

theorem mono {P' : α → Prop} {ks : List GateKind} {p : GComp N n l α} (h : GPlan P ks p) (hp : ∀ a, P a → P' a) : GPlan P' ks p := by
  induction h with
  | ok h => exact .ok (hp _ h)
  | error => exact .error
  | call _ ih => exact .call ih

theorem bind {ks ks' : List GateKind} {p : GComp N n l α} {f : α → GComp N n l β} (h : GPlan P ks p) (hf : ∀ a, P a → GPlan Q ks' (f a)) :
    GPlan Q (ks ++ ks') (p >>= f) := by
  induction h with
  | ok h => exact hf _ h
  | error => exact .error
  | call _ ih => exact .call ih

theorem bind_ret {ks : List GateKind} {x : Res α} {f : α → GComp N n l β} (hx : ∀ a, x = .ok a → P a) (hf : ∀ a, P a → GPlan Q ks (f a)) :
    GPlan Q ks ((.ret x : GComp N n l α) >>= f) := by
  cases x with
  | error => exact .error
  | ok a => exact hf a (hx a rfl)

theorem ret {x : Res α} (hx : ∀ a, x = .ok a → P a) : GPlan P [] (.ret x : GComp N n l α) := by
  cases x with
  | error => exact .error
  | ok a => exact .ok (hx a rfl)

theorem pure {a : α} (h : P a) : GPlan P [] (Pure.pure a : GComp N n l α) := .ok h

theorem foldlM {f : α → ι → GComp N n l α} {ks : ι → List GateKind} : ∀ (xs : List ι), (∀ s, ∀ x ∈ xs, P s → GPlan P (ks x) (f s x)) →
    ∀ {s : α}, P s → GPlan P (xs.flatMap ks) (xs.foldlM f s) := by
  intro xs
  induction xs with
  | nil => intro _ s hs; exact .pure hs
  | cons x xs ih =>
    intro hf s hs
    rw [List.foldlM_cons, List.flatMap_cons]
    exact (hf s x (by simp) hs).bind fun a ha => ih (fun s y hy => hf s y (by simp [hy])) ha

theorem gmap {f : ι → GComp N n l α} {ks : ι → List GateKind} : ∀ (xs : List ι), (∀ x ∈ xs, GPlan P (ks x) (f x)) →
    GPlan (fun ys => ys.length = xs.length) (xs.flatMap ks) (Homfa.gmap f xs) := by
  intro xs
  induction xs with
  | nil => intro _; exact .pure rfl
  | cons x xs ih =>
    intro hf
    rw [List.flatMap_cons]
    refine (hf x (by simp)).bind fun a _ => ?_
    rw [← List.append_nil (xs.flatMap ks)]
    exact (ih fun y hy => hf y (by simp [hy])).bind fun ys hys => .pure (by simp [hys])

theorem cast {ks ks' : List GateKind} {p : GComp N n l α} (h : GPlan P ks p) (e : ks = ks') : GPlan P ks' p := e ▸ h

end GPlan

theorem gcmux_plan (g : Gsw l N) (a b : TRLWE N) : GPlan (fun _ => True) [.cmux] (gcmux g a b : GComp N n l _) :=
  GPlan.call (c := .cmux g a b) (ks := []) fun _ => .ok trivial
theorem giks_plan (c : TLWE N) : GPlan (fun _ => True) [.keySwitch] (giks c : GComp N n l _) :=
  GPlan.call (c := .iks c) (ks := []) fun _ => .ok trivial
theorem gxor_plan (x y : TLWE n) : GPlan (fun _ => True) [.xorGate] (gxor x y : GComp N n l _) :=
  GPlan.call (c := .homXor x y) (ks := []) fun _ => .ok trivial
theorem gandny_plan (x y : TLWE n) : GPlan (fun _ => True) [.andNotGate] (gandny x y : GComp N n l _) :=
  GPlan.call (c := .homANDNY x y) (ks := []) fun _ => .ok trivial
theorem gcb_plan (c : TLWE n) : GPlan (fun _ => True) [.circuitBootstrapping] (gcb c : GComp N n l _) :=
  GPlan.call (c := .cb01 c) (ks := []) fun _ => .ok trivial

theorem bitToLvl0C_plan (c : TRLWE N) : GPlan (fun _ => True) [.keySwitch] (bitToLvl0C c : GComp N n l _) :=
  .bind_ret (P := fun _ => True) (fun _ _ => trivial) fun _ _ => giks_plan _

theorem ors_plan {k : Nat} {p : GComp N n l (TLWE n)} (h : ors k p) : GPlan (fun _ => True) (List.replicate k .orGate) p := by
  induction k generalizing p with
  | zero => obtain ⟨x, rfl⟩ := h; exact .ok trivial
  | succ k ih =>
    obtain ⟨x, y, f, rfl, hf⟩ := h
    exact .call fun a => ih (hf a)

/-- as many ciphertexts as bits, `w` of them -/
abbrev Counter.Of (w : Nat) (c : Counter N) : Prop := c.SameW w c

/-- counters of the widths `ws` -/
abbrev Weight.Of (ws : List Nat) (w : Weight N) : Prop := Weight.Same ws w w

theorem Alike.self {R : α → α → Prop} {x : Res α} (h : Alike R x x) : ∀ a, x = .ok a → R a a := by
  intro a e
  subst e
  exact h

theorem flatMap_const (k : Nat) (xs : List ι) (c : GateKind) : (xs.flatMap fun _ => List.replicate k c) = List.replicate (xs.length * k) c := by
  induction xs with
  | nil => simp
  | cons x xs ih => rw [List.flatMap_cons, ih, List.length_cons, Nat.add_mul, Nat.one_mul, Nat.add_comm, List.replicate_add]

theorem Counter.isZeroC_plan {w : Nat} {c : Counter N} (h : c.Of w) {t : RedTree} (ht : t.Valid (w + 1)) :
    GPlan (fun _ => True) (List.replicate w .keySwitch ++ List.replicate w .orGate) (c.isZeroC t : GComp N n l _) := by
  have h1 : c.c.length = w := h.1.len.trans h.2
  unfold Counter.isZeroC
  have e1 : List.replicate w GateKind.keySwitch = c.c.flatMap fun _ => [.keySwitch] := by
    have := flatMap_const 1 c.c GateKind.keySwitch
    rw [h1, Nat.mul_one] at this
    exact this.symm
  rw [e1]
  refine (GPlan.gmap c.c fun x _ => bitToLvl0C_plan x).bind fun ts hts => ?_
  have l1 : (trivialTLWEMinus8 n :: ts).length = w + 1 := by simp [hts, h1]
  have o1 := RedTree.Valid.ors (N := N) (l := l) (l1.symm ▸ ht)
  rw [l1] at o1
  rw [← List.append_nil (List.replicate w GateKind.orGate)]
  exact (ors_plan o1).bind fun _ _ => .pure trivial

theorem Counter.minusOneC_plan {w : Nat} {c : Counter N} (h : c.Of w) (b : TLWE n) :
    GPlan (Counter.Of w) ((List.replicate w [.keySwitch, .andNotGate]).flatten ++ List.replicate w .xorGate) (c.minusOneC b : GComp N n l _) := by
  unfold Counter.minusOneC
  obtain ⟨h, hw⟩ := h
  have e1 : (List.replicate w [GateKind.keySwitch, .andNotGate]).flatten = (List.range c.width).flatMap fun _ => [.keySwitch, .andNotGate] := by
    rw [hw, List.flatMap_def, List.map_const', List.length_range]
  have e2 : List.replicate w GateKind.xorGate = (List.range c.width).flatMap fun _ => [.xorGate] := by
    have := flatMap_const 1 (List.range c.width) GateKind.xorGate
    rw [List.length_range, hw, Nat.mul_one] at this
    rw [hw]
    exact this.symm
  rw [e1, e2]
  refine (GPlan.foldlM (P := fun _ => True) (ks := fun _ => [.keySwitch, .andNotGate]) _ (fun p i _ _ => ?_) trivial).bind fun p _ => ?_
  · refine .bind_ret (P := fun _ => True) (fun _ _ => trivial) fun ci _ => ?_
    refine (bitToLvl0C_plan ci).bind fun t _ => ?_
    exact (gandny_plan t p.2).bind fun _ _ => .pure trivial
  rw [← List.append_nil ((List.range c.width).flatMap fun _ => [GateKind.xorGate])]
  refine (GPlan.foldlM (P := fun m => OneOf w m m) (ks := fun _ => [.xorGate]) _ (fun m i _ hm => ?_) ?_).bind fun m hm => ?_
  · refine .bind_ret (P := fun _ => True) (fun _ _ => trivial) fun x _ => .bind_ret (P := fun _ => True) (fun _ _ => trivial) fun y _ => ?_
    refine (gxor_plan x y).bind fun z _ => .ret ?_
    obtain ⟨d, d', rfl, -, h1, -⟩ := hm
    intro m' hm'
    simp only [mwrite, List.getElem?_cons_zero] at hm'
    obtain ⟨v, hv, hm'⟩ := Res.bind_eq_ok.1 hm'
    cases hm'
    exact ⟨v, v, rfl, rfl, (vset_length hv).trans h1, (vset_length hv).trans h1⟩
  · exact ⟨_, _, rfl, rfl, h.len.trans hw, h.len.trans hw⟩
  · obtain ⟨d, d', rfl, -, h1, -⟩ := hm
    exact .pure ⟨⟨rfl, rfl, h1.trans hw.symm, h1.trans hw.symm⟩, hw⟩

theorem Counter.cmuxC_plan {w : Nat} {o a b : Counter N} (ho : o.Of w) (g : Gsw l N) :
    GPlan (Counter.Of w) (List.replicate w .cmux) (o.cmuxC g a b : GComp N n l _) := by
  unfold Counter.cmuxC
  have lo : o.c.length = w := ho.1.len.trans ho.2
  refine .bind_ret (P := fun _ => True) (fun _ _ => trivial) fun _ _ => .bind_ret (P := fun _ => True) (fun _ _ => trivial) fun _ _ => ?_
  have e1 : List.replicate w GateKind.cmux = (List.range o.c.length).flatMap fun _ => [.cmux] := by
    have := flatMap_const 1 (List.range o.c.length) GateKind.cmux
    rw [List.length_range, lo, Nat.mul_one] at this
    rw [lo]
    exact this.symm
  rw [e1, ← List.append_nil ((List.range o.c.length).flatMap fun _ => [GateKind.cmux])]
  refine (GPlan.foldlM (P := fun c => c.length = w) (ks := fun _ => [.cmux]) _ (fun c i _ hc => ?_) lo).bind fun c hc =>
    .pure ⟨⟨rfl, rfl, hc.trans ho.2.symm, hc.trans ho.2.symm⟩, ho.2⟩
  refine .bind_ret (P := fun _ => True) (fun _ _ => trivial) fun x _ => .bind_ret (P := fun _ => True) (fun _ _ => trivial) fun y _ => ?_
  exact (gcmux_plan g x y).bind fun z _ => .ret fun v hv => (vset_length hv).trans hc

theorem flatMap_range_get {γ : Type} (f : Nat → List γ) (ws : List Nat) :
    ((List.range ws.length).flatMap fun i => f (ws.getD i 0)) = ws.flatMap f := by
  induction ws with
  | nil => rfl
  | cons w ws ih =>
    rw [List.length_cons, List.range_succ_eq_map, List.flatMap_cons, List.flatMap_cons, List.flatMap_map]
    simp only [List.getD_cons_zero, List.getD_cons_succ]
    rw [ih]

theorem flatMap_replicate (ws : List Nat) (c : GateKind) : (ws.flatMap fun w => List.replicate w c) = List.replicate ws.sum c := by
  induction ws with
  | nil => rfl
  | cons w ws ih => rw [List.flatMap_cons, ih, List.sum_cons, List.replicate_add]

theorem getD_of {ws : List Nat} {i k : Nat} (h : ws[i]? = some k) : ws.getD i 0 = k := by rw [List.getD_eq_getElem?_getD, h]; rfl

theorem Weight.cmuxC_plan {ws : List Nat} {o a b : Weight N} (ho : Weight.Of ws o) (g : Gsw l N) :
    GPlan (Weight.Of ws) (List.replicate (ws.sum + 1) .cmux) (o.cmuxC g a b : GComp N n l _) := by
  unfold Weight.cmuxC
  refine .bind_ret (P := fun _ => True) (fun _ _ => trivial) fun _ _ => .bind_ret (P := fun _ => True) (fun _ _ => trivial) fun _ _ => ?_
  rw [List.replicate_succ]
  refine (gcmux_plan g a.general b.general).bind fun x _ => ?_
  rw [ho.1, ← flatMap_replicate, ← flatMap_range_get (fun w => List.replicate w GateKind.cmux),
    ← List.append_nil ((List.range ws.length).flatMap _)]
  refine (GPlan.foldlM (P := fun cs => CtrsSame ws cs cs) _ (fun cs i _ hcs => ?_) ho).bind fun cs hcs => .pure hcs
  refine .bind_ret (P := fun c => ∃ w, ws[i]? = some w ∧ c.Of w) (hcs.vat i).self fun c ⟨k, hk, hc⟩ => ?_
  refine .bind_ret (P := fun _ => True) (fun _ _ => trivial) fun x _ => .bind_ret (P := fun _ => True) (fun _ _ => trivial) fun y _ => ?_
  rw [getD_of hk, ← List.append_nil (List.replicate k GateKind.cmux)]
  exact (Counter.cmuxC_plan hc g).bind fun d hd => .ret (hcs.vset hk hd).self

theorem Weight.conditionsC_plan {ws : List Nat} {w : Weight N} (h : Weight.Of ws w) {t : Nat → RedTree}
    (ht : ∀ i k, ws[i]? = some k → (t i).Valid (k + 1)) :
    GPlan (fun cs => cs.length = ws.length) (ws.flatMap fun w => List.replicate w .keySwitch ++ List.replicate w .orGate ++ [.circuitBootstrapping])
      (w.conditionsC t : GComp N n l _) := by
  unfold Weight.conditionsC
  rw [h.1, ← flatMap_range_get (fun w => List.replicate w GateKind.keySwitch ++ List.replicate w GateKind.orGate ++ [GateKind.circuitBootstrapping])]
  refine (GPlan.gmap (P := fun _ => True) (List.range ws.length) fun i _ => ?_).mono fun cs hcs => by simpa using hcs
  refine .bind_ret (P := fun c => ∃ w, ws[i]? = some w ∧ c.Of w) (CtrsSame.vat h i).self fun c ⟨k, hk, hc⟩ => ?_
  rw [getD_of hk]
  exact (Counter.isZeroC_plan hc (ht i k hk)).bind fun x _ => gcb_plan x

theorem Weight.selectorsC_plan (w : Weight N) (k : Nat) :
    GPlan (fun cs => cs.length = k) (List.replicate k [.keySwitch, .circuitBootstrapping]).flatten (w.selectorsC k : GComp N n l _) := by
  unfold Weight.selectorsC
  have e1 : (List.replicate k [GateKind.keySwitch, .circuitBootstrapping]).flatten =
      (List.range k).flatMap fun _ => [.keySwitch, .circuitBootstrapping] := by
    rw [List.flatMap_def, List.map_const', List.length_range]
  rw [e1]
  refine (GPlan.gmap (P := fun _ => True) (List.range k) fun i _ => ?_).mono fun cs hcs => by simpa using hcs
  refine .bind_ret (P := fun _ => True) (fun _ _ => trivial) fun x _ => ?_
  exact (giks_plan x).bind fun y _ => gcb_plan y

theorem Weight.updateCountersC_plan {ws : List Nat} {w : Weight N} (h : Weight.Of ws w) :
    GPlan (Weight.Of ws) (ws.flatMap fun w => .keySwitch :: ((List.replicate w [.keySwitch, .andNotGate]).flatten ++ List.replicate w .xorGate))
      (w.updateCountersC : GComp N n l _) := by
  unfold Weight.updateCountersC
  rw [h.1, ← flatMap_range_get (fun w => GateKind.keySwitch :: ((List.replicate w [GateKind.keySwitch, GateKind.andNotGate]).flatten ++ List.replicate w GateKind.xorGate)),
    ← List.append_nil ((List.range ws.length).flatMap _)]
  refine (GPlan.foldlM (P := fun m => OneCtrs ws m m) _ (fun m i _ hm => ?_) ⟨_, _, rfl, rfl, h⟩).bind fun m hm => ?_
  · obtain ⟨cs, cs', rfl, e, hcs⟩ := hm
    cases e
    unfold updateTaskC
    refine .bind_ret (P := fun _ => True) (fun _ _ => trivial) fun x _ => ?_
    refine .bind_ret (P := fun c => ∃ w, ws[i]? = some w ∧ c.Of w) (x := vat cs i) (hcs.vat i).self fun c ⟨k, hk, hc⟩ => ?_
    rw [getD_of hk]
    refine (giks_plan x).bind fun y _ => ?_
    show GPlan _ ((List.replicate k [GateKind.keySwitch, GateKind.andNotGate]).flatten ++ List.replicate k GateKind.xorGate) _
    rw [← List.append_nil ((List.replicate k [GateKind.keySwitch, GateKind.andNotGate]).flatten ++ _)]
    refine (Counter.minusOneC_plan hc y).bind fun d hd => .ret ?_
    intro m' hm'
    simp only [mwrite, List.getElem?_cons_zero] at hm'
    obtain ⟨v, hv, hm'⟩ := Res.bind_eq_ok.1 hm'
    cases hm'
    exact ⟨v, v, rfl, rfl, (hcs.vset hk hd).self v hv⟩
  · obtain ⟨cs, cs', rfl, e, hcs⟩ := hm
    cases e
    exact .pure hcs

theorem forall₂_self {R : α → α → Prop} {xs : List α} : List.Forall₂ R xs xs ↔ ∀ x ∈ xs, R x x := List.forall₂_same

theorem wlutTaskC_plan {ws : List Nat} (g : Gsw l N) {m : Mem (Weight N)} (h : MemRel (Weight.Same ws) m m) (j : Nat) :
    GPlan (fun m => MemRel (Weight.Same ws) m m) (List.replicate (ws.sum + 1) .cmux) (wlutTaskC g m j : GComp N n l _) := by
  refine .bind_ret (mread_rel h _ _).self fun o ho => .bind_ret (mread_rel h _ _).self fun a _ => .bind_ret (mread_rel h _ _).self fun b _ => ?_
  rw [← List.append_nil (List.replicate _ _)]
  exact (Weight.cmuxC_plan ho g).bind fun x hx => .ret (mwrite_rel h _ _ hx).self

theorem wlutLoopC_plan {ws : List Nat} (k : Nat) : ∀ (cs : List (Gsw l N)) (i : Nat) {tmp table : List (Weight N)}, i + cs.length = k →
    List.Forall₂ (Weight.Same ws) tmp tmp → List.Forall₂ (Weight.Same ws) table table →
    GPlan (fun p => List.Forall₂ (Weight.Same ws) p.2 p.2) (List.replicate ((2 ^ cs.length - 1) * (ws.sum + 1)) .cmux)
      (wlutLoopC k cs i tmp table : GComp N n l _) := by
  intro cs
  induction cs with
  | nil => intro i tmp table _ h1 h2; rw [show (2 ^ ([] : List (Gsw l N)).length - 1) * (ws.sum + 1) = 0 by simp]; exact .pure h2
  | cons c cs ih =>
    intro i tmp table hi h1 h2
    rw [wlutLoopC]
    rw [List.length_cons] at hi
    refine .bind_ret (P := fun cnt => cnt = 2 ^ cs.length) (fun cnt hcnt => ?_) fun cnt hcnt => ?_
    · rw [(lt_of_shl1 hcnt).2]; congr 1; omega
    · subst hcnt
      have e : (2 ^ (c :: cs).length - 1) * (ws.sum + 1) = (List.range (2 ^ cs.length)).length * (ws.sum + 1) + (2 ^ cs.length - 1) * (ws.sum + 1) := by
        rw [← Nat.add_mul, List.length_range, List.length_cons]
        congr 1
        have := Nat.one_le_two_pow (n := cs.length)
        rw [Nat.pow_succ]; omega
      rw [e, List.replicate_add, ← flatMap_const]
      refine (GPlan.foldlM (P := fun m => MemRel (Weight.Same ws) m m) _ (fun m j _ hm => wlutTaskC_plan c hm j) (.cons h1 (.cons h2 .nil))).bind fun m hm => ?_
      exact .bind_ret (two_rel hm).self fun p hp => ih _ (by omega) hp.2 hp.1

theorem wlookupTableC_plan {ws : List Nat} (cs : List (Gsw l N)) {table : List (Weight N)} (h : List.Forall₂ (Weight.Same ws) table table) :
    GPlan (fun t => List.Forall₂ (Weight.Same ws) t t) (List.replicate ((2 ^ cs.length - 1) * (ws.sum + 1)) .cmux)
      (wlookupTableC table cs : GComp N n l _) := by
  unfold wlookupTableC
  refine .bind_ret (P := fun _ => True) (fun _ _ => trivial) fun _ _ => .bind_ret (P := fun _ => True) (fun _ _ => trivial) fun _ _ => ?_
  split
  · next h0 => rw [h0]; simp only [Nat.pow_zero, Nat.sub_self, Nat.zero_mul, List.replicate_zero]; exact .pure h
  · refine .bind_ret (P := fun _ => True) (fun _ _ => trivial) fun half _ => .bind_ret (vat_rel h 0).self fun d hd => ?_
    rw [← List.append_nil (List.replicate _ _)]
    exact (wlutLoopC_plan _ cs 0 (by omega) (replicate_rel half hd) h).bind fun _ h => .pure h

theorem bttTaskC_plan {ws : List Nat} (b : Btt) {st : Weight N} (hst : Weight.Of ws st) (c : Gsw l N)
    {m : Mem (Option (Weight N))} (h : MemRel (OptSame ws) m m) (q : Nat) :
    GPlan (fun m => MemRel (OptSame ws) m m) (List.replicate (ws.sum + 1) .cmux) (bttTaskC b st c m q : GComp N n l _) := by
  refine .bind_ret (P := fun _ => True) (fun _ _ => trivial) fun e _ => .bind_ret (P := fun _ => True) (fun _ _ => trivial) fun _ _ => ?_
  refine .bind_ret (P := fun _ => True) (fun _ _ => trivial) fun _ _ => .bind_ret (P := fun _ => True) (fun _ _ => trivial) fun _ _ => ?_
  refine .bind_ret (P := fun _ => True) (fun _ _ => trivial) fun _ _ => .bind_ret (Weight.fromSrc_alike _ hst).self fun o ho => ?_
  rw [← List.append_nil (List.replicate _ _)]
  exact (Weight.cmuxC_plan ho c).bind fun x hx => .ret (mwrite_rel (R := OptSame ws) h _ _ (x := some x) (y := some x) hx).self

theorem bttBlockC_plan {ws : List Nat} (b : Btt) {st : Weight N} (hst : Weight.Of ws st) (cs : List (Gsw l N)) (d : List (List Nat)) (sz : Nat → Nat) :
    ∀ (k : Nat), (∀ i < k, ∀ L, d[i]? = some L → L.length = sz i) → ∀ {w t : List (Option (Weight N))}, List.Forall₂ (OptSame ws) w w →
    List.Forall₂ (OptSame ws) t t →
    GPlan (fun w => List.Forall₂ (OptSame ws) w w) (List.replicate (((List.range k).map sz).sum * (ws.sum + 1)) .cmux)
      (bttBlockC b st cs d k w t : GComp N n l _) := by
  intro k
  induction k with
  | zero => intro _ w t h1 h2; simp only [List.range_zero, List.map_nil, List.sum_nil, Nat.zero_mul, List.replicate_zero]; exact .pure h1
  | succ k ih =>
    intro hd w t h1 h2
    rw [bttBlockC]
    refine .bind_ret (P := fun _ => True) (fun _ _ => trivial) fun c _ => .bind_ret (P := fun L => L.length = sz k) (fun L hL => ?_) fun L hL => ?_
    · exact hd k (by omega) L (vat_eq_ok.1 hL)
    · have e : ((List.range (k + 1)).map sz).sum * (ws.sum + 1) = L.length * (ws.sum + 1) + ((List.range k).map sz).sum * (ws.sum + 1) := by
        rw [List.range_succ, List.map_append, List.sum_append, Nat.add_mul, hL]; simp; omega
      rw [e, List.replicate_add, ← flatMap_const]
      refine (GPlan.foldlM (P := fun m => MemRel (OptSame ws) m m) _ (fun m q _ hm => bttTaskC_plan b hst c hm q) (.cons h2 (.cons h1 .nil))).bind fun m hm => ?_
      exact .bind_ret (two_rel hm).self fun p hp => ih (fun i hi => hd i (by omega)) hp.1 hp.2

theorem bttSelectC_plan {ws : List Nat} {st : Weight N} (hst : Weight.Of ws st) (live : List Nat) {w : List (Option (Weight N))}
    (h : List.Forall₂ (OptSame ws) w w) :
    GPlan (Weight.Of ws) (if live.length = 1 then [] else (List.replicate (Nat.clog 2 live.length) [.keySwitch, .circuitBootstrapping]).flatten ++
      List.replicate ((2 ^ Nat.clog 2 live.length - 1) * (ws.sum + 1)) .cmux) (bttSelectC st live w : GComp N n l _) := by
  unfold bttSelectC
  split
  · exact .bind_ret (vat_rel h 0).self fun o ho => .ret (optValue_alike ho).self
  · dsimp only
    refine (Weight.selectorsC_plan st _).bind fun cs hcs => ?_
    have hcand : Alike (List.Forall₂ (Weight.Same ws)) ((List.range live.length).mapM fun i => do
        let q ← vat live i
        let w ← vat w q
        optValue w) ((List.range live.length).mapM fun i => do
        let q ← vat live i
        let w ← vat w q
        optValue w) := by
      refine mapM_rel (P := (· = ·)) (List.forall₂_same.2 fun _ _ => rfl) ?_
      rintro i _ rfl
      exact Alike.bind_same fun q => (vat_rel h q).bind fun _ _ h => optValue_alike h
    refine .bind_ret hcand.self fun cand hc => .bind_ret (P := fun _ => True) (fun _ _ => trivial) fun sz _ => ?_
    refine .bind_ret (Weight.fromSrc_alike _ hst).self fun d hd => ?_
    rw [← hcs, ← List.append_nil (List.replicate _ _)]
    exact (wlookupTableC_plan cs (vresize_rel hc _ hd)).bind fun t ht => .ret (vat_rel ht 0).self

/-- one block -/
theorem BttRunner.evalQueuedC_plan {r : BttRunner N l} (hg : r.graph.WF) (hsort : SSorted r.live) (hlt : ∀ q ∈ r.live, q < r.graph.size)
    {ws : List Nat} (h : Weight.Of ws r.state) (hq : r.queued ≠ []) {t : Nat → RedTree} (ht : ∀ i k, ws[i]? = some k → (t i).Valid (k + 1)) :
    GPlan (fun r' => Weight.Of ws r'.state ∧ r'.live = r.graph.levelSet r.live (ws.length + r.queued.length) ∧ r'.btt = r.btt ∧ r'.graph = r.graph ∧
        r'.queueSize = r.queueSize ∧ r'.queued = [])
      (bttBlockCalls ws (fun j => (r.graph.levelSet r.live j).length) (ws.length + r.queued.length)) (r.evalQueuedC t : GComp N n l _) := by
  unfold BttRunner.evalQueuedC
  rw [if_neg (by simpa using hq)]
  unfold bttBlockCalls
  rw [List.append_assoc, List.append_assoc]
  refine (Weight.conditionsC_plan h ht).bind fun cs hcs => ?_
  dsimp only
  have hl : (cs ++ r.queued).length = ws.length + r.queued.length := by simp [hcs]
  rw [hl, Graph.track_ok' hg hsort hlt]
  have hlast : ((List.range (ws.length + r.queued.length + 1)).map (r.graph.levelSet r.live)).getLastD [] =
      r.graph.levelSet r.live (ws.length + r.queued.length) := by
    rw [List.range_succ, List.map_append]; simp
  refine .bind_ret (P := fun d => d = (List.range (ws.length + r.queued.length + 1)).map (r.graph.levelSet r.live))
    (fun d hd => by cases hd; rfl) fun d hd => ?_
  subst hd
  rw [hlast]
  refine .bind_ret (bttInit_alike r.graph r.btt h _).self fun w hw => ?_
  refine (bttBlockC_plan r.btt h (cs ++ r.queued) _ (fun j => (r.graph.levelSet r.live j).length) (ws.length + r.queued.length) ?_ hw
    (replicate_rel (x := none) (y := none) _ trivial)).bind fun w hw => ?_
  · intro i hi L hL
    rw [List.getElem?_map, List.getElem?_range (by omega)] at hL
    cases hL
    rfl
  · refine (bttSelectC_plan h r.live hw).bind fun s hs => ?_
    rw [← List.append_nil (ws.flatMap _)]
    exact (Weight.updateCountersC_plan hs).bind fun s hs => .pure ⟨hs, rfl, rfl, rfl, rfl, rfl⟩

/-- what is known after `u` inputs -/
structure PlanInv (b : Btt) (G : Graph) (Q u : Nat) (r : BttRunner N l) : Prop where
  btt : r.btt = b
  graph : r.graph = G
  size : r.queueSize = Q
  queued : r.queued.length = u % Q
  live : r.live = G.levelSet [0] (u / Q * (b.counters.length + Q))
  state : Weight.Of (b.counters.map (·.1)) r.state

theorem PlanInv.make {b : Btt} {G : Graph} (hG : b.toGraph = .ok G) {Q : Nat} {r : BttRunner N l} (h : BttRunner.make b Q = .ok r) :
    PlanInv b G Q 0 r := by
  unfold BttRunner.make at h
  rw [hG, Res.bind_ok] at h
  obtain ⟨st, h1, h⟩ := Res.bind_eq_ok.1 h
  cases h
  exact ⟨rfl, rfl, rfl, by simp, by simp [Graph.levelSet], (Weight.make_alike b.counters).self st h1⟩

theorem PlanInv.block {b : Btt} {G : Graph} (hG : G.WF) (hs : 0 < G.size) {Q u : Nat} {r : BttRunner N l} (hI : PlanInv b G Q u r)
    {qs : List (Gsw l N)} (hq : qs ≠ []) {t : Nat → RedTree} (ht : b.TreesFor t) {m : Nat} (hm : b.counters.length + qs.length = m) :
    GPlan (fun r' => Weight.Of (b.counters.map (·.1)) r'.state ∧ r'.live = G.levelSet [0] (u / Q * (b.counters.length + Q) + m) ∧ r'.btt = b ∧
        r'.graph = G ∧ r'.queueSize = Q ∧ r'.queued = [])
      (bttBlockCalls (b.counters.map (·.1)) (fun j => (G.levelSet [0] (u / Q * (b.counters.length + Q) + j)).length) m)
      (({ r with queued := qs } : BttRunner N l).evalQueuedC t : GComp N n l _) := by
  obtain ⟨ib, ig, isz, iq, il, ist⟩ := hI
  have h0 : ∀ q ∈ [0], q < G.size := by simpa using hs
  obtain ⟨rb, rg, rs, rq, rst, rl⟩ := r
  dsimp only at ib ig isz il ist
  subst ib ig isz il
  have := BttRunner.evalQueuedC_plan (n := n) (r := ⟨rb, rg, rs, qs, rst, rg.levelSet [0] (u / rs * (rb.counters.length + rs))⟩) hG
    (Graph.sorted_levelSet (by simp) _) (Graph.levelSet_lt h0 _) ist hq (t := t) (by
      intro i k hk
      rw [List.getElem?_map] at hk
      obtain ⟨s, h1, rfl⟩ := Option.map_eq_some_iff.1 hk
      exact ht i s h1)
  rw [List.length_map] at this
  dsimp only at this
  rw [hm] at this
  simp only [Graph.levelSet_add] at this
  exact this

theorem bttSteps_plan {b : Btt} {G : Graph} (hG : G.WF) (hs : 0 < G.size) {Q : Nat} (hQ : 0 < Q) :
    ∀ (cs : List (Gsw l N × (Nat → RedTree))), (∀ c ∈ cs, b.TreesFor c.2) → ∀ (u : Nat) {r : BttRunner N l}, PlanInv b G Q u r →
    GPlan (PlanInv b G Q (u + cs.length))
      ((List.range cs.length).flatMap fun i => if (u + i + 1) % Q = 0 then
        bttBlockCalls (b.counters.map (·.1)) (fun j => (G.levelSet [0] ((u + i) / Q * (b.counters.length + Q) + j)).length) (b.counters.length + Q) else [])
      (cs.foldlM (fun r c => r.evalOneC c.1 c.2) r : GComp N n l _) := by
  intro cs
  induction cs with
  | nil => intro _ u r h; exact .pure h
  | cons c cs ih =>
    intro ht u r h
    rw [List.foldlM_cons, List.length_cons, List.range_succ_eq_map, List.flatMap_cons, List.flatMap_map]
    have hmod : (u + 1) % Q = if u % Q + 1 = Q then 0 else u % Q + 1 := by
      have h1 := Nat.mod_lt u hQ
      split
      · next e => rw [← Nat.mod_add_mod, e, Nat.mod_self]
      · rw [← Nat.mod_add_mod, Nat.mod_eq_of_lt (by omega)]
    have hdiv : (u + 1) / Q = if u % Q + 1 = Q then u / Q + 1 else u / Q := by
      have h1 := Nat.div_add_mod u Q
      have h2 := Nat.mod_lt u hQ
      split
      · next e =>
        have : u + 1 = Q * (u / Q + 1) := by rw [Nat.mul_add, Nat.mul_one]; omega
        rw [this, Nat.mul_div_cancel_left _ hQ]
      · next e =>
        rw [show u + 1 = Q * (u / Q) + (u % Q + 1) by omega, Nat.mul_add_div hQ, Nat.div_eq_of_lt (a := u % Q + 1) (by omega), Nat.add_zero]
    refine GPlan.bind (P := PlanInv b G Q (u + 1)) ?_ fun r' hr' => ?_
    · unfold BttRunner.evalOneC
      dsimp only
      have hl : (r.queued ++ [c.1]).length < r.queueSize ↔ u % Q + 1 < Q := by
        rw [List.length_append, List.length_singleton, h.queued, h.size]
      simp only [Nat.add_zero]
      have h1 := Nat.mod_lt u hQ
      by_cases e : u % Q + 1 = Q
      · rw [if_pos (show (u + 1) % Q = 0 by rw [hmod, if_pos e]), if_neg (by rw [hl]; omega)]
        refine (h.block hG hs (qs := r.queued ++ [c.1]) (m := b.counters.length + Q) (by simp) (ht c (by simp)) (by simp [h.queued, e])).mono ?_
        rintro r' ⟨a1, a2, a3, a4, a5, a6⟩
        refine ⟨a3, a4, a5, by rw [a6, hmod, if_pos e]; rfl, ?_, a1⟩
        rw [a2, hdiv, if_pos e, Nat.add_mul, Nat.one_mul]
      · rw [if_neg (show ¬ (u + 1) % Q = 0 by rw [hmod, if_neg e]; omega), if_pos (by rw [hl]; omega)]
        refine .pure ⟨h.btt, h.graph, h.size, ?_, ?_, h.state⟩
        · simp [h.queued, hmod, e]
        · show r.live = _
          rw [h.live, hdiv, if_neg e]
    · have := ih (fun x hx => ht x (by simp [hx])) (u + 1) hr'
      rw [show u + (cs.length + 1) = u + 1 + cs.length by omega]
      refine this.cast ?_
      congr 1
      funext i
      rw [show u + 1 + i = u + (i + 1) by omega]

theorem flatMap_blocks {γ : Type} (f : Nat → List γ) {Q : Nat} (hQ : 0 < Q) : ∀ (L : Nat),
    ((List.range L).flatMap fun i => if (i + 1) % Q = 0 then f (i / Q) else []) = (List.range (L / Q)).flatMap f := by
  intro L
  induction L with
  | zero => simp
  | succ L ih =>
    rw [List.range_succ, List.flatMap_append, ih, List.flatMap_singleton]
    have h1 := Nat.div_add_mod L Q
    have h2 := Nat.mod_lt L hQ
    by_cases e : (L + 1) % Q = 0
    · rw [if_pos e, Nat.succ_div_of_mod_eq_zero e, List.range_succ, List.flatMap_append, List.flatMap_singleton]
    · rw [if_neg e, List.append_nil, Nat.succ_div_of_mod_ne_zero e]

/-- the calls of a whole run -/
theorem bttRunC_plan {b : Btt} {G : Graph} (hG : b.toGraph = .ok G) (hwf : G.WF) (hpos : 0 < G.size) {Q : Nat} (hQ : 0 < Q)
    {cs : List (Gsw l N × (Nat → RedTree))} (hcs : ∀ c ∈ cs, b.TreesFor c.2) {t : Nat → RedTree} (ht : b.TreesFor t) :
    GPlan (fun _ => True) (bttCalls (b.counters.map (·.1)) (fun d => (G.levelSet [0] d).length) Q cs.length)
      (bttRunC b Q cs t : GComp N n l _) := by
  unfold bttRunC
  refine .bind_ret (P := PlanInv b G Q 0) (fun r hr => PlanInv.make hG hr) fun r hr => ?_
  unfold bttCalls
  rw [List.length_map, ← flatMap_blocks (fun t => bttBlockCalls (b.counters.map (·.1))
    (fun j => (G.levelSet [0] (t * (b.counters.length + Q) + j)).length) (b.counters.length + Q)) hQ cs.length]
  have := bttSteps_plan (n := n) hwf hpos hQ cs hcs 0 hr
  simp only [Nat.zero_add] at this
  refine this.bind fun r hr => ?_
  unfold BttRunner.resultC
  have key : GPlan (fun _ => True) (if cs.length % Q = 0 then [] else bttBlockCalls (b.counters.map (·.1))
      (fun j => (G.levelSet [0] (cs.length / Q * (b.counters.length + Q) + j)).length) (b.counters.length + cs.length % Q))
      (r.evalQueuedC t : GComp N n l _) := by
    by_cases e : cs.length % Q = 0
    · rw [if_pos e]
      have : r.queued = [] := List.length_eq_zero_iff.1 (by rw [hr.queued, e])
      unfold BttRunner.evalQueuedC
      rw [this]
      exact .pure trivial
    · rw [if_neg e]
      exact (hr.block hwf hpos (qs := r.queued) (fun h => e (by rw [← hr.queued, h]; rfl)) ht (by rw [hr.queued])).mono fun _ _ => trivial
  exact (key.bind fun r _ => .bind_ret (P := fun _ => True) (fun _ _ => trivial) fun _ _ => .pure trivial).cast (List.append_nil _)

end Homfa
