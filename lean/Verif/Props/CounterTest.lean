import Verif.Proof.CTest
import Verif.Props.Btt
/-!
# C84: the dumps of the two BTT runners; C85: the test program
-/

namespace Homfa

variable {N n l : Nat} {S : GateScheme N n l} {δ : Noise} {Enc : Gsw l N → Bool → Prop} {m g : Nat}

/-- `Takes` is a function: the plaintext runner has one transition for an input. -/
theorem takes_unique {b : Btt} (hb : b.Fit) {bs : List Bool} {p : BttPlain} (hp : plainRun b bs = .ok p) (x : Bool) : ∃! e, p.Takes x e := by
  have h : p.btt = b ∧ p.cur < b.size ∧ p.counter.length = b.counters.length := by
    induction bs using List.reverseRecOn generalizing p with
    | nil => cases hp; exact ⟨rfl, hb.size_pos, by simp [BttPlain.make]⟩
    | append_singleton bs x ih =>
      rw [plainRun_snoc] at hp
      obtain ⟨p0, h1, h2⟩ := Res.bind_eq_ok.1 hp
      obtain ⟨a1, a2, a3⟩ := ih h1
      obtain ⟨c1, c2, _, c4, _⟩ := evalOne_plain hb a1 a2 a3 h2
      exact ⟨c1, by rw [c2]; exact hb.dst _ (hb.edge_mem (hb.walk_lt _ a2) _), c4⟩
  obtain ⟨a1, a2, a3⟩ := h
  refine ⟨_, (BttPlain.takes_iff hb.toTable a1 a2 a3 x _ (hb.walk_lt _ a2)).2 rfl, fun e he => ?_⟩
  exact (BttPlain.takes_iff hb.toTable a1 a2 a3 x e (hb.walk_lt _ a2)).1 he

/-- **C84.** In the situation of C51 (a BTT in `Fit`, a history within the counters' ranges, a backend within the budget), with at most 31 counters of
at most 32 bits, after any history the dump of the encrypted runner succeeds.  It prints the accept bit and the state that the dump of the
plaintext runner prints; for counter `i` it prints the number that, added to the number the plaintext runner prints, gives the counter's
target modulo 2^width; and it prints as `info` the number whose bit `i` says whether the last transition incremented counter `i` (0 before any input). -/
theorem C84_dump (hS : S.Sound δ Enc m g) {b : Btt} (hb : b.Fit) {W : Nat} (hW : b.size ≤ 2 ^ W) (hW' : W < 31)
    (h64 : 64 < N / 2) (hK : N / 2 + b.counters.length ≤ N) (h31 : b.counters.length ≤ 31) (h32 : ∀ s ∈ b.counters, s.1 ≤ 32)
    (he : δ.ks + δ.br + (b.counters.length + 1 + W) * δ.cmux ≤ m) (hg : g ≤ m) (hm : 4 * m + δ.ms < 2 ^ 30)
    {cs : List (Gsw l N × (Nat → RedTree))} {bs : List Bool} (hin : List.Forall₂ (BttInput b Enc) cs bs)
    {p : BttPlain} (hp : plainRun b bs = .ok p)
    (hsm : ∀ u x v, bs = u ++ x :: v → ∀ p, plainRun b u = .ok p → p.Small) :
    p.dump = bttDump p.accept p.cur none p.counter ∧
    ∃ r info vs, bttRun S b cs = .ok r ∧ r.dump S.sk = .ok (bttDump p.accept p.cur (some info) vs) ∧
      info < 2 ^ b.counters.length ∧ (bs = [] → info = 0) ∧
      (∀ u x, bs = u ++ [x] → ∃ p0 e, plainRun b u = .ok p0 ∧ p0.Takes x e ∧ ∀ i < b.counters.length, info.testBit i = decide (i ∈ e.inc)) ∧
      p.counter.length = b.counters.length ∧ vs.length = b.counters.length ∧
      ∀ (i : Nat) (s : Nat × BitVec 64) (v y : Nat), b.counters[i]? = some s → vs[i]? = some v → p.counter[i]? = some y →
        v < 2 ^ s.1 ∧ (v + y) % 2 ^ s.1 = s.2.toNat := by
  refine ⟨p.dump_eq, ?_⟩
  obtain ⟨G, _, h2, h3, h4, r0, h5, h6⟩ := bttMake_ok (S := S) (δ := δ) (W := W) (l := l) hb h64
  have hfin : ∀ {r : BttRunner N l} {t : Nat} {mk : Nat → Bool}, BttInv S δ W b G t r p →
      (∀ i < b.counters.length, trlweSymDecryptAt r.state.general S.sk (N / 2 + i) = .ok (mk i)) →
      ∃ vs, r.dump S.sk = .ok (bttDump p.accept p.cur (some (lsbIndex ((List.range b.counters.length).map mk))) vs) ∧
        p.counter.length = b.counters.length ∧ vs.length = b.counters.length ∧
        ∀ (i : Nat) (s : Nat × BitVec 64) (v y : Nat), b.counters[i]? = some s → vs[i]? = some v → p.counter[i]? = some y →
          v < 2 ^ s.1 ∧ (v + y) % 2 ^ s.1 = s.2.toNat := by
    intro r t mk hI hmk
    obtain ⟨vs, k1, k2, k3⟩ := hI.dump_ok hb h3 hW hW' h64 hK h31 h32 (by omega) (by omega) hmk
    refine ⟨vs, k1, hI.len, k2, fun i s v y hs hv hy => ?_⟩
    have := k3 i s v hs hv
    rw [List.getD_eq_getElem?_getD, hy, Option.getD_some] at this
    exact this
  have hlt : ∀ mk : Nat → Bool, lsbIndex ((List.range b.counters.length).map mk) < 2 ^ b.counters.length := fun mk => by
    have := lsbIndex_lt ((List.range b.counters.length).map mk)
    simpa using this
  rcases List.eq_nil_or_concat bs with hn | ⟨u, x, hn⟩
  · subst hn
    cases hin
    cases hp
    obtain ⟨vs, k1, k2, k3, k4⟩ := hfin (mk := fun _ => false) h6 (fun i hi => bttMake_info h5 h64 S.sk (by omega))
    refine ⟨r0, _, vs, by unfold bttRun; rw [h5, Res.bind_ok]; rfl, k1, hlt _, fun _ => ?_, fun u x h => by simp at h, k2, k3, k4⟩
    rw [lsb_zero_iff]
    simp
  · rw [List.concat_eq_append] at hn
    subst hn
    obtain ⟨p0, e1, e2⟩ : ∃ p0, plainRun b u = .ok p0 ∧ p0.evalOne x = .ok p := by
      rw [plainRun_snoc] at hp
      exact Res.bind_eq_ok.1 hp
    obtain ⟨cs1, cs2, i1, i2, rfl⟩ : ∃ cs1 cs2, List.Forall₂ (BttInput b Enc) cs1 u ∧ List.Forall₂ (BttInput b Enc) cs2 [x] ∧ cs = cs1 ++ cs2 := by
      refine ⟨cs.take u.length, cs.drop u.length, ?_, ?_, (List.take_append_drop _ _).symm⟩
      · have := List.forall₂_take u.length hin
        simpa using this
      · have := List.forall₂_drop u.length hin
        simpa using this
    cases i2 with
    | @cons c _ _ _ hc htl =>
    cases htl
    obtain ⟨r1, k1, k2⟩ := bttRun_inv hS hb h2 h3 h4 h64 hK hW hW' he hg hm i1 [] (BttPlain.make b) r0 rfl h6
      (by intro w y v hw; exact hsm w y (v ++ [x]) (by rw [show u = w ++ y :: v from hw]; simp)) p0 e1
    rw [List.nil_append] at k2
    obtain ⟨r, j1, j2, j3⟩ := k2.step hS hb h2 h3 h4 h64 hK hW hW' he hg hm (hsm u x [] rfl p0 e1) hc e2
    obtain ⟨vs, f1, f2, f3, f4⟩ := hfin (mk := fun i => decide (i ∈ (b.edge (b.walk p0.cur (plainConds b.counters p0.counter)) x).inc)) j2 (by
      intro i hi
      unfold trlweSymDecryptAt
      rw [dif_pos (by omega), sign_eighth (j3 ⟨N / 2 + i, by omega⟩ (Nat.le_add_right _ _) (by dsimp only; omega)) (by omega)]
      simp)
    refine ⟨r, _, vs, ?_, f1, hlt _, fun h => by simp at h, ?_, f2, f3, f4⟩
    · unfold bttRun
      rw [h5, Res.bind_ok, List.foldlM_append, k1, Res.bind_ok, List.foldlM_cons, j1]
      rfl
    · intro u' x' hu
      obtain ⟨rfl, hx⟩ := List.append_inj' hu rfl
      obtain rfl : x = x' := by simpa using hx
      have hcur : p0.cur < b.size := by
        rw [← h3]
        have := k2.cur
        rw [k2.live] at this
        exact Graph.levelSet_lt (by simp [h3, hb.size_pos]) _ _ this
      refine ⟨p0, _, e1, (BttPlain.takes_iff hb.toTable k2.pbtt hcur k2.len x _ (hb.walk_lt _ hcur)).2 rfl, fun i hi => ?_⟩
      rw [testBit_lsbIndex _ _ (by simpa using hi)]
      simp

/-- The dumps of the BTT of the repository's test after some inputs: the hypotheses hold (`testBtt_fit`, `toyGates_sound`), and the texts are these. -/
example : testBtt.Fit ∧ testBtt.counters.length ≤ 31 ∧ (∀ s ∈ testBtt.counters, s.1 ≤ 32) ∧
    (plainRun testBtt [true, false, false]).toOption.map (fun p => (p.accept, p.cur, p.counter)) = some (true, 2, [1]) ∧
    bttDump true 2 (some 1) [9] = "acc:  1\nst#:  2\ninfo: 1\ncnt0: 9\n".toList ∧
    bttDump true 2 none [1] = "acc:  1\nst#:  2\ncnt0: 1\n".toList :=
  ⟨testBtt_fit, by decide, by decide, by decide, by decide, by decide⟩

/-! ## The test program -/

/-- **C85, what a silent end means.**  Take any backend, any BTT, any number `k` of parallel tests of `len` inputs each, any random inputs, any encryption
randomness, and any interleaving of the tests.  If all tests have returned, the program prints nothing further if and only if every test
has made all its `len` comparisons and the two runners agreed in each of them.  If it prints something, it prints for some test its inputs, and the two runners
differ after these inputs.  The exit status is 0 in both cases. -/
theorem C85_report (S : GateScheme N n l) (b : Btt) (k len : Nat) {ts₀ ts : List (CTask N l)} {f : Bool}
    (h0 : counterTestStart b k = .ok ts₀) (hx : CExec S b len ts₀ false ts f) (hd : CDone ts) :
    ts.length = k ∧ (∀ t ∈ ts, Sent S b t.test.sent t.test.history ∧ t.test.history.length ≤ len) ∧
    ((counterTestEnd ts f).1 = [] ↔ ∀ t ∈ ts, t.test.history.length = len ∧ AllAgree S b t.test.sent t.test.history) ∧
    ((counterTestEnd ts f).1 ≠ [] → ∃ (i : Nat) (t : CTask N l) (v : Bool) (pre suf : List Char), ts[i]? = some t ∧ Compared S b t.test.sent t.test.history v (!v) ∧
      (counterTestEnd ts f).1 = pre ++ s!"TEST {i}\n".toList ++ failHead t.test.history ++ suf) ∧
    (counterTestEnd ts f).2 = 0 := by
  have hI := (CInv.start (S := S) (len := len) h0).exec hx
  have hlen : ts.length = k := by
    rw [hx.length]
    unfold counterTestStart at h0
    obtain ⟨r, _, h⟩ := Res.bind_eq_ok.1 h0
    cases h
    simp
  have hrep : f = true → ∃ (i : Nat) (t : CTask N l) (v : Bool) (pre suf : List Char), ts[i]? = some t ∧ 0 < t.test.history.length ∧ Compared S b t.test.sent t.test.history v (!v) ∧
      (counterTestEnd ts f).1 = pre ++ s!"TEST {i}\n".toList ++ failHead t.test.history ++ suf := by
    intro hf
    obtain ⟨s, msg, h1, h2⟩ := hI.why hf
    obtain ⟨i, hi, hti⟩ := List.getElem_of_mem h1
    obtain ⟨k1, k2, k3⟩ := hI.ok _ h1
    rcases k3 with ⟨h, _⟩ | ⟨_, k4, v, rest, k5, k6⟩
    · exact absurd h h2
    · have hmem : "TEST ".toList ++ showNat i ++ ['\n'] ++ msg ++ ['\n'] ∈ ts.zipIdx.map (fun p => p.1.report p.2) := by
        refine List.mem_map.2 ⟨(.returned s msg, i), ?_, ?_⟩
        · rw [List.mem_zipIdx_iff_getElem?]
          simp [List.getElem?_eq_getElem hi, hti]
        · exact if_neg (by simpa using h2)
      obtain ⟨pre, suf, hps⟩ := flatten_infix hmem
      refine ⟨i, _, v, pre, rest ++ ['\n'] ++ suf, (List.getElem?_eq_getElem hi).trans (congrArg some hti), ?_, k6, ?_⟩
      · show 0 < s.history.length
        rw [k1.len]; exact k4
      · unfold counterTestEnd
        rw [if_pos hf]
        show List.flatten _ = _
        rw [hps, k5]
        simp [toString, showNat, CTask.test]
  refine ⟨hlen, ?_, ⟨?_, ?_⟩, ?_, rfl⟩
  · intro t ht
    obtain ⟨s, msg, rfl⟩ := hd t ht
    obtain ⟨k1, k2, _⟩ := hI.ok _ ht
    exact ⟨k1.sent, by rw [show (CTask.returned s msg).test = s from rfl, k1.len]; exact k2⟩
  · intro hout t ht
    obtain ⟨s, msg, rfl⟩ := hd t ht
    cases f with
    | true =>
      obtain ⟨i, t, v, pre, suf, _, _, _, h⟩ := hrep rfl
      rw [hout] at h
      exact absurd (List.append_eq_nil_iff.1 (List.append_eq_nil_iff.1 (List.append_eq_nil_iff.1 h.symm).1).2).1 (by decide)
    | false =>
      obtain ⟨k1, k2, k3⟩ := hI.ok _ ht
      rcases k3 with ⟨_, k4, k5⟩ | ⟨h, _⟩
      · refine ⟨?_, k4⟩
        rw [show (CTask.returned s msg).test = s from rfl, k1.len]
        exact k5.resolve_right (by simp)
      · cases h
  · intro hall
    cases f with
    | false => rfl
    | true =>
      obtain ⟨i, t, v, pre, suf, h1, h2, h3, _⟩ := hrep rfl
      obtain ⟨_, h4⟩ := hall t (List.mem_of_getElem? h1)
      obtain ⟨w, h5⟩ := h4 _ h2 (Nat.le_refl _)
      have hsl : t.test.sent.length = t.test.history.length := by
        obtain ⟨s, msg, rfl⟩ := hd t (List.mem_of_getElem? h1)
        exact (hI.ok _ (List.mem_of_getElem? h1)).1.sent.length_eq
      rw [List.take_length, List.take_of_length_le (by omega)] at h5
      obtain ⟨e1, e2⟩ := h5.inj h3
      rw [e1] at e2
      cases v <;> cases e2
  · intro hne
    cases f with
    | false => exact absurd rfl hne
    | true =>
      obtain ⟨i, t, v, pre, suf, h1, _, h3, h4⟩ := hrep rfl
      exact ⟨i, t, v, pre, suf, h1, h3, h4⟩

theorem CTest.body_sound (hS : S.Sound δ Enc m g) (h64 : 64 < N / 2) (he : δ.ks + δ.br + 6 * δ.cmux ≤ m) (hg : g ≤ m)
    (hm : 4 * m + δ.ms < 2 ^ 30) {s : CTest N l} (hs : s.Track S testBtt) (x : Bool) (rnd : Nat) (t t' : Nat → RedTree)
    (ht : ∀ (i : Nat) (c : Nat × BitVec 64), testBtt.counters[i]? = some c → (t i).leaves.Perm (List.range (c.1 + 1))) :
    ∃ s', s.body S x rnd t t' = .ok (s', none) := by
  have hsent : List.Forall₂ (fun c x => Enc c.1 x ∧ (c.2 0).Valid 11) (s.sent ++ [(S.encrypt rnd x, t)]) (s.history ++ [x]) := by
    refine List.rel_append (hs.sent.imp fun c x h => ?_) (.cons ⟨hS.base.encrypt _ _, ht 0 _ rfl⟩ .nil)
    obtain ⟨⟨r, hr⟩, h2⟩ := h
    exact ⟨by rw [hr]; exact hS.base.encrypt _ _, h2 0 _ rfl⟩
  obtain ⟨p, r, h1, h2, h3⟩ := C51_test_btt hS h64 he hg hm hsent
  rw [plainRun_snoc, hs.plain, Res.bind_ok] at h1
  rw [bttRun_snoc, hs.enc, Res.bind_ok] at h2
  obtain ⟨c, h4, h5⟩ := h3 t'
  unfold CTest.body
  refine ⟨⟨s.done + 1, p, r, s.history ++ [x], s.sent ++ [(S.encrypt rnd x, t)]⟩, ?_⟩
  dsimp only at h2 ⊢
  rw [h2, Res.bind_ok, h4, Res.bind_ok]
  dsimp only
  rw [h1, Res.bind_ok, if_neg (by simp [h5])]
  rfl

/-- **C85, no false alarm.**  With any backend within the budget, the tests of the repository's BTT start; and whatever the inputs, the randomness and the
interleaving, at every moment no test is about to throw, the flag is not set, no test has an error message, and a test that has not returned
can go on; a test that has returned has made all its comparisons; and when all have returned nothing is printed. -/
theorem C85_quiet (hS : S.Sound δ Enc m g) (h64 : 64 < N / 2) (he : δ.ks + δ.br + 6 * δ.cmux ≤ m) (hg : g ≤ m)
    (hm : 4 * m + δ.ms < 2 ^ 30) (k len : Nat) :
    ∃ ts₀ : List (CTask N l), counterTestStart testBtt k = .ok ts₀ ∧ ∀ ts f, CExec S testBtt len ts₀ false ts f →
      ¬ CCrash S testBtt len ts f ∧ f = false ∧
      (∀ t ∈ ts, (∃ s, t = .loop s ∧ ∀ x rnd, ∃ t', CStep S testBtt len t f t' f ∧ (s.done < len → t'.test.history = s.history ++ [x] ∧
          ∃ tr, t'.test.sent = s.sent ++ [(S.encrypt rnd x, tr)])) ∨ ∃ s, t = .returned s [] ∧ s.history.length = len) ∧
      (CDone ts → counterTestEnd ts f = ([], 0)) := by
  have hstart : ∃ ts₀ : List (CTask N l), counterTestStart testBtt k = .ok ts₀ := by
    obtain ⟨_, _, _, _, _, r0, h5, _⟩ := bttMake_ok (S := S) (δ := δ) (W := 4) (l := l) testBtt_fit h64
    unfold counterTestStart
    rw [h5, Res.bind_ok]
    exact ⟨_, rfl⟩
  obtain ⟨ts₀, h0⟩ := hstart
  refine ⟨ts₀, h0, fun ts f hx => ?_⟩
  have key : f = false ∧ ∀ t ∈ ts, (∃ s, t = .loop s) ∨ ∃ s, t = .returned s [] ∧ s.done = len := by
    generalize hf0 : false = f0 at hx
    induction hx with
    | refl =>
      subst hf0
      refine ⟨rfl, fun t ht => .inl ?_⟩
      unfold counterTestStart at h0
      obtain ⟨r, _, h⟩ := Res.bind_eq_ok.1 h0
      cases h
      exact ⟨_, List.eq_of_mem_replicate ht⟩
    | @tail pre p suf f1 p' f2 hx hstep ih =>
      subst hf0
      obtain ⟨rfl, ih⟩ := ih
      have hI := (CInv.start (S := S) (len := len) h0).exec hx
      have hp := hI.ok p (by simp)
      have hrest : ∀ t, t ∈ pre ∨ t ∈ suf → (∃ s, t = .loop s) ∨ ∃ s, t = .returned s [] ∧ s.done = len := by
        intro t ht
        exact ih t (by simp only [List.mem_append, List.mem_cons]; tauto)
      have hnew : f2 = false ∧ ((∃ s, p' = .loop s) ∨ ∃ s, p' = .returned s [] ∧ s.done = len) := by
        cases hstep with
        | @finish s _ h => exact ⟨rfl, .inr ⟨s, rfl, h⟩⟩
        | @agree s s' x rnd u u' hd hu hb => exact ⟨rfl, .inl ⟨s', rfl⟩⟩
        | @differ s s' x rnd u u' msg hd hu hb =>
          obtain ⟨s'', h⟩ := CTest.body_sound hS h64 he hg hm hp.1 x rnd u u' hu
          rw [h] at hb
          cases hb
        | @store s msg _ =>
          rcases ih (.failed s msg) (by simp) with ⟨_, h⟩ | ⟨_, h, _⟩ <;> cases h
      refine ⟨hnew.1, fun t ht => ?_⟩
      simp only [List.mem_append, List.mem_cons] at ht
      rcases ht with ht | rfl | ht
      · exact hrest t (.inl ht)
      · exact hnew.2
      · exact hrest t (.inr ht)
  obtain ⟨rfl, key⟩ := key
  have hI := (CInv.start (S := S) (len := len) h0).exec hx
  refine ⟨?_, rfl, ?_, fun _ => rfl⟩
  · rintro ⟨s, x, rnd, t, t', e, hmem, _, _, ht, hb⟩
    obtain ⟨s', h⟩ := CTest.body_sound hS h64 he hg hm (hI.ok _ hmem).1 x rnd t t' ht
    rw [h] at hb
    cases hb
  · intro t ht
    rcases key t ht with ⟨s, rfl⟩ | ⟨s, rfl, hs⟩
    · refine .inl ⟨s, rfl, fun x rnd => ?_⟩
      obtain ⟨k1, k2, k3⟩ := hI.ok _ ht
      by_cases hlt : s.done < len
      · have hv : ∃ tr : RedTree, tr.leaves.Perm (List.range 11) :=
          ⟨(List.range 10).foldl (fun t i => .node t (.leaf (i + 1))) (.leaf 0), by decide⟩
        obtain ⟨tr, htr⟩ := hv
        have ht' : ∀ (i : Nat) (c : Nat × BitVec 64), testBtt.counters[i]? = some c →
            ((fun _ => tr : Nat → RedTree) i).leaves.Perm (List.range (c.1 + 1)) := by
          intro i c hc
          have : c = (10, 10#64) := by
            cases i with
            | zero => simpa [testBtt] using hc.symm
            | succ i => simp [testBtt] at hc
          subst this
          exact htr
        obtain ⟨s', hs'⟩ := CTest.body_sound hS h64 he hg hm k1 x rnd (fun _ => tr) (fun _ => tr) ht'
        refine ⟨.loop s', .agree hlt ht' hs', fun _ => ?_⟩
        unfold CTest.body at hs'
        obtain ⟨_, _, h⟩ := Res.bind_eq_ok.1 hs'
        obtain ⟨⟨_, _⟩, _, h⟩ := Res.bind_eq_ok.1 h
        obtain ⟨_, _, h⟩ := Res.bind_eq_ok.1 h
        dsimp only at h
        split at h
        · obtain ⟨_, _, h⟩ := Res.bind_eq_ok.1 h
          cases h
        · cases h
          exact ⟨rfl, _, rfl⟩
      · exact ⟨.returned s [], .finish (by omega), fun h => absurd h hlt⟩
    · exact .inr ⟨s, rfl, by rw [(hI.ok _ ht).1.len]; exact hs⟩

/-! ### A failed test goes unnoticed by the caller -/

/-- The toy backend, but `encrypt` encrypts 0 whatever the bit. -/
def brokenGates (N n l : Nat) (sk : SecretKey N n) : GateScheme N n l :=
  { toyGates N n l sk with encrypt := fun r _ => (toyGates N n l sk).encrypt r false }

theorem broken_bttTask (sk : SecretKey N n) (b : Btt) (w : Weight N) (c : Gsw l N) (q : Nat) :
    bttTask (brokenGates N n l sk).toScheme b w c q = bttTask (toyGates N n l sk).toScheme b w c q := rfl

theorem broken_bttBlock (sk : SecretKey N n) (b : Btt) (w : Weight N) (cs : List (Gsw l N)) (d : List (List Nat)) :
    ∀ (i : Nat) (u v : List (Option (Weight N))),
      bttBlock (brokenGates N n l sk).toScheme b w cs d i u v = bttBlock (toyGates N n l sk).toScheme b w cs d i u v := by
  intro i
  induction i with
  | zero => intro u v; rfl
  | succ i ih =>
    intro u v
    unfold bttBlock
    simp only [ih]
    rfl

theorem broken_wlutLoop (sk : SecretKey N n) (k : Nat) : ∀ (cs : List (Gsw l N)) (i : Nat) (u v : List (Weight N)),
    wlutLoop (brokenGates N n l sk).toScheme k cs i u v = wlutLoop (toyGates N n l sk).toScheme k cs i u v := by
  intro cs
  induction cs with
  | nil => intro i u v; rfl
  | cons c cs ih =>
    intro i u v
    unfold wlutLoop
    simp only [ih]
    rfl

theorem broken_evalQueued (sk : SecretKey N n) (r : BttRunner N l) (t : Nat → RedTree) :
    r.evalQueued (brokenGates N n l sk) t = r.evalQueued (toyGates N n l sk) t := by
  unfold BttRunner.evalQueued bttSelect wlookupTable
  simp only [broken_bttBlock, broken_wlutLoop]
  rfl

theorem broken_evalOne (sk : SecretKey N n) (r : BttRunner N l) (c : Gsw l N) (t : Nat → RedTree) :
    r.evalOne (brokenGates N n l sk) c t = r.evalOne (toyGates N n l sk) c t := by
  unfold BttRunner.evalOne
  simp only [broken_evalQueued]

theorem broken_result (sk : SecretKey N n) (r : BttRunner N l) (t : Nat → RedTree) :
    r.result (brokenGates N n l sk) t = r.result (toyGates N n l sk) t := by
  unfold BttRunner.result
  simp only [broken_evalQueued]

theorem tree11 : ∃ tr : RedTree, tr.leaves.Perm (List.range 11) :=
  ⟨(List.range 10).foldl (fun t i => .node t (.leaf (i + 1))) (.leaf 0), by decide⟩

/-- **C85, the status does not tell.**  With a backend that encrypts wrongly, five tests of 10000 inputs can end with a report of a difference, and the exit
status is 0 all the same. -/
theorem C85_status (sk : SecretKey 130 2) : ∃ ts₀ ts, counterTestStart testBtt 5 = .ok ts₀ ∧
    CExec (brokenGates 130 2 1 sk) testBtt 10000 ts₀ false ts true ∧ CDone ts ∧
    (counterTestEnd ts true).1 ≠ [] ∧ (counterTestEnd ts true).2 = 0 := by
  have hS := toyGates_sound (N := 130) (n := 2) (l := 1) sk (by decide) (by decide)
  obtain ⟨tr, htr⟩ := tree11
  have hin : List.Forall₂ (BttInput testBtt toyEnc) [((toyGates 130 2 1 sk).encrypt 0 false, fun _ => tr)] [false] :=
    .cons ⟨hS.base.encrypt 0 false, fun i s hs => by
      have : s = (10, 10#64) := by
        cases i with
        | zero => simpa [testBtt] using hs.symm
        | succ i => simp [testBtt] at hs
      subst this
      exact htr⟩ .nil
  obtain ⟨p, r, h1, h2, h3⟩ := C51_test_btt hS (by decide) (by decide) (by decide) (by decide)
    (cs := [((toyGates 130 2 1 sk).encrypt 0 false, fun _ => tr)]) (bs := [false]) (.cons ⟨hS.base.encrypt 0 false, htr⟩ .nil)
  obtain ⟨_, r', info, vs, k1, k2, _⟩ := C84_dump hS testBtt_fit (W := 4) (by decide) (by decide) (by decide) (by decide) (by decide)
    (by decide) (by decide) (by decide) (by decide) hin h1 (by
      intro u x v hu q hq
      obtain ⟨q', y, e1, e2, _, e4, e5⟩ := testBtt_small u
      rw [hq] at e1
      cases e1
      intro i s hs z hz
      rw [e2] at hs
      rw [e4] at hz
      cases i with
      | zero =>
        have : s = (10, 10#64) := by simpa [testBtt] using hs.symm
        subst this
        have : z = y := by simpa using hz.symm
        subst this
        show z < 10 + 2 ^ 10
        omega
      | succ i => simp at hz)
  rw [h2] at k1
  cases k1
  have hacc : p.accept = false := by
    have : (plainRun testBtt [false]).toOption.map (·.accept) = some false := by decide
    rw [h1] at this
    simpa [Except.toOption] using this
  obtain ⟨p1, hp1, hacc1⟩ : ∃ p1, (BttPlain.make testBtt).evalOne true = .ok p1 ∧ p1.accept = true := ⟨_, rfl, rfl⟩
  unfold bttRun at h2
  obtain ⟨r0, h4, h5⟩ := Res.bind_eq_ok.1 h2
  rw [List.foldlM_cons] at h5
  obtain ⟨r1, h6, h7⟩ := Res.bind_eq_ok.1 h5
  cases h7
  obtain ⟨c, h8, h9⟩ := h3 (fun _ => tr)
  let s0 : CTest 130 1 := ⟨0, BttPlain.make testBtt, r0, [], []⟩
  have hbody : s0.body (brokenGates 130 2 1 sk) true 0 (fun _ => tr) (fun _ => tr) =
      .ok (⟨1, p1, r, [true], [((toyGates 130 2 1 sk).encrypt 0 false, fun _ => tr)]⟩,
        some (ctestMessage [true] false (bttDump p.accept p.cur (some info) vs) true p1.dump)) := by
    unfold CTest.body
    dsimp only
    rw [broken_evalOne]
    have h6' : s0.enc.evalOne (toyGates 130 2 1 sk) ((brokenGates 130 2 1 sk).encrypt 0 true) (fun _ => tr) = .ok r := h6
    rw [h6', Res.bind_ok, broken_result, h8, Res.bind_ok]
    have hp1' : s0.plain.evalOne true = .ok p1 := hp1
    dsimp only
    rw [hp1', Res.bind_ok, show (brokenGates 130 2 1 sk).sk = (toyGates 130 2 1 sk).sk from rfl, h9, hacc, hacc1, if_pos (by decide), k2, Res.bind_ok,
      hacc]
    rfl
  have hperm : ∀ (i : Nat) (c : Nat × BitVec 64), testBtt.counters[i]? = some c →
      ((fun _ => tr : Nat → RedTree) i).leaves.Perm (List.range (c.1 + 1)) := by
    intro i c hc
    have : c = (10, 10#64) := by
      cases i with
      | zero => simpa [testBtt] using hc.symm
      | succ i => simp [testBtt] at hc
    subst this
    exact htr
  have e0 : counterTestStart (N := 130) (l := 1) testBtt 5 = .ok (List.replicate 5 (.loop s0)) := by
    unfold counterTestStart
    rw [h4, Res.bind_ok]
    rfl
  generalize hs1 : (⟨1, p1, r, [true], [((toyGates 130 2 1 sk).encrypt 0 false, fun _ => tr)]⟩ : CTest 130 1) = s1 at hbody
  generalize hmsg : ctestMessage [true] false (bttDump p.accept p.cur (some info) vs) true p1.dump = msg at hbody
  have x1 : CExec (brokenGates 130 2 1 sk) testBtt 10000 (List.replicate 5 (.loop s0)) false
      ([] ++ .failed s1 msg :: List.replicate 4 (.loop s0)) false :=
    .tail (pre := []) (suf := List.replicate 4 (.loop s0)) .refl (.differ (show 0 < 10000 by decide) hperm hbody)
  have x2 : CExec (brokenGates 130 2 1 sk) testBtt 10000 (List.replicate 5 (.loop s0)) false
      ([] ++ .returned s1 msg :: List.replicate 4 (.loop s0)) true := .tail x1 .store
  have ab : CStep (brokenGates 130 2 1 sk) testBtt 10000 (.loop s0) true (.returned s0 []) true := .abort (show 0 < 10000 by decide)
  have x3 := CExec.tail (pre := [.returned s1 msg]) (suf := List.replicate 3 (.loop s0)) x2 ab
  have x4 := CExec.tail (pre := [.returned s1 msg, .returned s0 []]) (suf := List.replicate 2 (.loop s0)) x3 ab
  have x5 := CExec.tail (pre := [.returned s1 msg, .returned s0 [], .returned s0 []]) (suf := List.replicate 1 (.loop s0)) x4 ab
  have x6 := CExec.tail (pre := [.returned s1 msg, .returned s0 [], .returned s0 [], .returned s0 []]) (suf := []) x5 ab
  refine ⟨_, _, e0, x6, ?_, ?_, rfl⟩
  · intro t ht
    simp only [List.cons_append, List.nil_append, List.mem_cons, List.not_mem_nil, or_false] at ht
    rcases ht with rfl | rfl | rfl | rfl | rfl <;> exact ⟨_, _, rfl⟩
  · have hne : msg.isEmpty = false := by
      rw [← hmsg]
      rfl
    intro h
    obtain ⟨pre, suf, hps⟩ := flatten_infix (List.mem_map_of_mem (f := fun p : CTask 130 1 × Nat => p.1.report p.2)
      (show (CTask.returned s1 msg, 0) ∈ ([.returned s1 msg, .returned s0 [], .returned s0 [], .returned s0 []] ++
        .returned s0 [] :: [] : List (CTask 130 1)).zipIdx by simp [List.zipIdx]))
    have h' : List.flatten _ = ([] : List Char) := h
    rw [hps] at h'
    have := (List.append_eq_nil_iff.1 (List.append_eq_nil_iff.1 h').1).2
    rw [show (CTask.returned s1 msg).report 0 = "TEST ".toList ++ showNat 0 ++ ['\n'] ++ msg ++ ['\n'] from if_neg (by simp [hne])] at this
    simp at this

/-- The hypotheses of `C85_quiet` are met by the toy backend. -/
example : (toyGates 130 2 1 ⟨fun _ => 1, fun _ => 0⟩).Sound toyNoise toyEnc (2 ^ 20) 1 ∧ 64 < 130 / 2 ∧
    toyNoise.ks + toyNoise.br + 6 * toyNoise.cmux ≤ 2 ^ 20 ∧ 4 * 2 ^ 20 + toyNoise.ms < 2 ^ 30 :=
  ⟨toyGates_sound _ (by decide) (by decide), by decide, by decide, by decide⟩

end Homfa
