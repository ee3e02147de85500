import Verif.Proof.Btt

/-! Histories of the BTT runners. -/

namespace Homfa

variable {N n l : Nat} {S : GateScheme N n l} {δ : Noise} {Enc : Gsw l N → Bool → Prop} {m g : Nat} {W : Nat}

/-- the relation between the two runners after `t` inputs -/
structure BttInv (S : GateScheme N n l) (δ : Noise) (W : Nat) (b : Btt) (G : Graph) (t : Nat) (r : BttRunner N l) (p : BttPlain) : Prop where
  btt : r.btt = b
  graph : r.graph = G
  size : r.queueSize = 1
  queued : r.queued = []
  live : r.live = G.levelSet [0] (t * (b.counters.length + 1))
  pbtt : p.btt = b
  cur : p.cur ∈ r.live
  len : p.counter.length = b.counters.length
  shape : WShape b.counters r.state
  gen : GenOk S ((b.counters.length + 1 + W) * δ.cmux) r.state p.accept (r.live.idxOf p.cur)
  ctr : ∃ bits, CtrOk S δ.br r.state bits ∧ ∀ (i : Nat) (s : Nat × BitVec 64), b.counters[i]? = some s →
    (lsbIndex ((List.range s.1).map (bits i)) + p.counter.getD i 0) % 2 ^ s.1 = s.2.toNat

theorem tgtAt_silent {b : Btt} {sp : List (Nat × BitVec 64)} {T : Nat → Tgt} {V : Nat → Nat → Prop} {k : Nat}
    (hV : ∀ i < k, ∀ q, V i q → ∀ x, (b.edge q x).accept = false ∧ (b.edge q x).reset = [] ∧ (b.edge q x).inc = [] ∧
      V (i + 1) (b.edge q x).dst) (x : Bool) :
    ∀ (cs : List Bool) (i q : Nat), V i q → i + cs.length ≤ k → tgtAt b sp T (cs ++ [x]) q = tgtAt b sp T [x] (b.walk q cs) := by
  intro cs
  induction cs with
  | nil => intro i q _ _; rfl
  | cons c cs ih =>
    intro i q hq hl
    rw [List.length_cons] at hl
    obtain ⟨h1, h2, h3, h4⟩ := hV i (by omega) q hq c
    rw [List.cons_append, tgtAt, h1, h2, h3, Tgt.act_silent, ih (i + 1) _ h4 (by omega)]
    rfl

theorem BttInv.step (hS : S.Sound δ Enc m g) {b : Btt} (hb : b.Fit) {G : Graph} (hG : G.WF) (hs : G.size = b.size)
    (hnx : ∀ q < b.size, ∀ x, G.nx q x = (b.edge q x).dst) (h64 : 64 < N / 2) (hK : N / 2 + b.counters.length ≤ N)
    (hW : b.size ≤ 2 ^ W) (hW' : W < 31) (he : δ.ks + δ.br + (b.counters.length + 1 + W) * δ.cmux ≤ m) (hg : g ≤ m)
    (hm : 4 * m + δ.ms < 2 ^ 30) {t : Nat} {r : BttRunner N l} {p p' : BttPlain} (hI : BttInv S δ W b G t r p) (hsm : p.Small)
    {c : Gsw l N × (Nat → RedTree)} {x : Bool} (hc : BttInput b Enc c x) (hp : p.evalOne x = .ok p') :
    ∃ r', r.evalOne S c.1 c.2 = .ok r' ∧ BttInv S δ W b G (t + 1) r' p' ∧
      MkOk S b.counters.length ((b.counters.length + 1 + W) * δ.cmux) r'.state
        (fun i => decide (i ∈ (b.edge (b.walk p.cur (plainConds b.counters p.counter)) x).inc)) := by
  obtain ⟨ib, ig, isz, iq, il, ipb, icur, ilen, ish, igen, bits, ictr, ival⟩ := hI
  have h0 : ∀ q ∈ [0], q < G.size := by simp [hs, hb.size_pos]
  have hsort : SSorted r.live := by rw [il]; exact Graph.sorted_levelSet (by simp) _
  have hlt : ∀ q ∈ r.live, q < G.size := by rw [il]; exact Graph.levelSet_lt h0 _
  have hlvl : ∀ i, G.levelSet r.live i = G.levelSet [0] (t * (b.counters.length + 1) + i) := by
    intro i; rw [il, Graph.levelSet_add]
  have hlenle : ∀ L : List Nat, SSorted L → (∀ q ∈ L, q < G.size) → L.length ≤ b.size := by
    intro L h1 h2
    have hsub : L ⊆ List.range G.size := fun q hq => List.mem_range.2 (h2 q hq)
    have := (List.subperm_of_subset h1.nodup hsub).length_le
    rw [List.length_range, hs] at this
    exact this
  have h31 : (2 : Nat) ^ W < 2 ^ 31 := Nat.pow_lt_pow_right (by omega) hW'
  have hcur : p.cur < b.size := by rw [← hs]; exact hlt _ icur
  obtain ⟨pb, pc, pa, pl, pcnt⟩ := evalOne_plain hb ipb hcur ilen hp
  have hwid : ∀ s ∈ b.counters, s.1 ≤ 64 := fun s h => (hb.width s h).1
  unfold BttRunner.evalOne
  dsimp only
  rw [iq, isz, if_neg (by simp)]
  unfold BttRunner.evalQueued
  dsimp only
  rw [if_neg (by simp)]
  obtain ⟨conds, c1, c2, c3⟩ := conditions_ok hS (by omega) ish ictr (by omega) hg (trees := c.2) (fun i s h => hc.2 i s h)
  have hconds : ((List.range b.counters.length).map fun i =>
      decide (lsbIndex ((List.range (b.counters.getD i (0, 0)).1).map (bits i)) = 0)) = plainConds b.counters p.counter := by
    unfold plainConds
    refine List.map_congr_left (fun i hi => ?_)
    have hi := List.mem_range.1 hi
    have hsi : b.counters[i]? = some b.counters[i] := List.getElem?_eq_getElem hi
    have hv := ival i _ hsi
    rw [List.getD_eq_getElem?_getD, hsi, Option.getD_some]
    have hinit := (hb.width _ (List.getElem_mem hi)).2
    have hx : p.counter.getD i 0 < (b.counters[i]).2.toNat + 2 ^ (b.counters[i]).1 := by
      have hi' : i < p.counter.length := by omega
      rw [List.getD_eq_getElem?_getD, List.getElem?_eq_getElem hi', Option.getD_some]
      exact hsm i _ (by rw [ipb]; exact hsi) _ (List.getElem?_eq_getElem hi')
    have hl := lsbIndex_lt ((List.range (b.counters[i]).1).map (bits i))
    simp only [List.length_map, List.length_range] at hl
    generalize lsbIndex ((List.range (b.counters[i]).1).map (bits i)) = v at hv hl ⊢
    generalize p.counter.getD i 0 = y at hv hx ⊢
    generalize (b.counters[i]).2.toNat = ini at hv hx hinit ⊢
    generalize 2 ^ (b.counters[i]).1 = M at hv hx hinit hl ⊢
    rw [decide_eq_decide]
    constructor
    · rintro rfl
      rw [Nat.zero_add] at hv
      by_cases hy : y < M
      · rw [Nat.mod_eq_of_lt hy] at hv; exact hv
      · rw [Nat.mod_eq_sub_mod (by omega), Nat.mod_eq_of_lt (by omega)] at hv
        omega
    · rintro rfl
      by_cases hy : v + y < M
      · rw [Nat.mod_eq_of_lt hy] at hv; omega
      · rw [Nat.mod_eq_sub_mod (by omega), Nat.mod_eq_of_lt (by omega)] at hv
        omega
  rw [hconds] at c3
  rw [c1, Res.bind_ok, List.nil_append]
  have hilen : (conds ++ [c.1]).length = b.counters.length + 1 := by simp [c2]
  rw [ig, Graph.track_ok' hG hsort hlt, Res.bind_ok]
  have hlast : ((List.range ((conds ++ [c.1]).length + 1)).map (G.levelSet r.live)).getLastD [] =
      G.levelSet r.live (b.counters.length + 1) := by
    rw [List.range_succ, List.map_append, hilen]; simp
  rw [hlast]
  have hnsort := Graph.sorted_levelSet (g := G) hsort (b.counters.length + 1)
  have hnlt := Graph.levelSet_lt (g := G) hlt (b.counters.length + 1)
  generalize hnext : G.levelSet r.live (b.counters.length + 1) = next at hnsort hnlt
  have hnlen := hlenle next hnsort hnlt
  rw [ib]
  obtain ⟨weight, w1, w2, w3⟩ := bttInit_ok (S := S) (b := b) hs hnsort.nodup hnlt h64 hK (by omega) ish ictr
  rw [w1, Res.bind_ok]
  have hxs : List.Forall₂ Enc (conds ++ [c.1]) (plainConds b.counters p.counter ++ [x]) :=
    List.rel_append c3 (.cons hc.1 .nil)
  have hpcl : (plainConds b.counters p.counter).length = b.counters.length := by simp [plainConds]
  have hreach := hb.reach_iff hG hs hnx
  have hsil : ∀ i < b.counters.length, ∀ q ∈ G.levelSet r.live i, ∀ y,
      (b.edge q y).accept = false ∧ (b.edge q y).reset = [] ∧ (b.edge q y).inc = [] ∧ (b.edge q y).dst ∈ G.levelSet r.live (i + 1) := by
    intro i hi q hq y
    have hqs : q < b.size := by rw [← hs]; exact Graph.levelSet_lt hlt i q hq
    have hr := hq
    rw [hlvl i, hreach] at hr
    obtain ⟨a1, a2, a3⟩ := hb.silent _ q (by rw [Nat.mul_comm, Nat.mul_add_mod, Nat.mod_eq_of_lt (by omega)]; exact hi) hr _
      (hb.edge_mem hqs y) (hb.edge_src hqs y)
    refine ⟨a1, a2, a3, ?_⟩
    rw [← hnx q hqs y]
    exact hG.step_levelSet hlt hq y
  obtain ⟨weight', v1, v2, v3⟩ := bttBlock_ok hS hb hG hs hnx hsort hlt h64 hK hwid ish ictr hxs
    (fun q => ⟨false, next.idxOf q, fun _ => false, bits⟩) (by
      intro i hi q hq y
      have hqs : q < b.size := by rw [← hs]; exact Graph.levelSet_lt hlt i q hq
      have hmem := hb.edge_mem hqs y
      rw [List.length_append, hpcl, List.length_singleton] at hi
      by_cases hik : i < b.counters.length
      · obtain ⟨a1, a2, a3, _⟩ := hsil i hik q hq y
        exact ⟨by simp [a2], by simp [a3], by simp [a3], by simp [a1], by simp [a3]⟩
      · have : (plainConds b.counters p.counter ++ [x]).drop (i + 1) = [] := List.drop_of_length_le (by simp [hpcl]; omega)
        rw [this]
        exact ⟨hb.reset _ hmem, hb.inc _ hmem, hb.once _ hmem, fun _ => rfl, fun _ _ => rfl⟩)
    (conds ++ [c.1]).length (Nat.le_refl _) 0 weight (List.replicate b.size none) w2 (by simp) (by
      intro q hq
      rw [hilen, hnext] at hq
      obtain ⟨w, a1, a2⟩ := w3 q hq
      refine ⟨w, a1, ?_⟩
      rw [List.drop_of_length_le (by rw [hxs.length_eq])]
      exact a2)
  rw [v1, Res.bind_ok]
  rw [hilen, Nat.zero_add] at v3
  obtain ⟨w, u1, u2⟩ := bttSelect_ok hS h64 hK (List.ne_nil_of_mem icur) (by
      intro h1
      obtain ⟨a, ha⟩ := List.length_eq_one_iff.1 h1
      have h2 : ∀ q, b.Reach (t * (b.counters.length + 1)) q ↔ q = a := by
        intro q
        rw [← hreach, ← il, ha, List.mem_singleton]
      rw [ha, hb.single t a ((h2 a).2 rfl) (fun q' h => (h2 q').1 h)]) (W := W) (Nat.le_trans (hlenle _ hsort hlt) hW) hW' ish ictr icur igen
    (by omega) v3
  rw [u1, Res.bind_ok]
  have htot : (b.counters.length + 1) * δ.cmux + W * δ.cmux = (b.counters.length + 1 + W) * δ.cmux := by rw [← Nat.add_mul]
  rw [htot] at u2
  rw [tgtAt_silent (V := fun i q => q ∈ G.levelSet r.live i) hsil x _ 0 p.cur icur (by omega)] at u2
  obtain ⟨st, s1, s2, s3, s4, s5⟩ := updateCounters_ok hS u2 h64 hK (by omega) (by omega) hg hm
  rw [s1, Res.bind_ok]
  set q := b.walk p.cur (plainConds b.counters p.counter) with hqdef
  have hq : q ∈ G.levelSet r.live b.counters.length := by
    have : ∀ (cs : List Bool) (i q : Nat), q ∈ G.levelSet r.live i → i + cs.length ≤ b.counters.length →
        b.walk q cs ∈ G.levelSet r.live (i + cs.length) := by
      intro cs
      induction cs with
      | nil => intro i q h _; exact h
      | cons y cs ih =>
        intro i q h hl
        rw [List.length_cons] at hl ⊢
        have := ih (i + 1) _ (hsil i (by omega) q h y).2.2.2 (by omega)
        rw [show i + (cs.length + 1) = i + 1 + cs.length by omega]
        exact this
    have := this (plainConds b.counters p.counter) 0 p.cur icur (by omega)
    rwa [Nat.zero_add, hpcl] at this
  have hqs : q < b.size := by rw [← hs]; exact Graph.levelSet_lt hlt _ q hq
  refine ⟨_, rfl, ⟨rfl, rfl, rfl, rfl, ?_, pb, ?_, pl, s2, ?_, _, s4, ?_⟩, ?_⟩
  · show next = _
    rw [← hnext, hlvl, Nat.add_mul, Nat.one_mul]
  · show p'.cur ∈ next
    rw [pc, ← hnext, ← hnx q hqs x]
    exact hG.step_levelSet hlt hq x
  · show GenOk S _ _ _ (next.idxOf p'.cur)
    rw [pc, pa]
    have hacc : (tgtAt b b.counters (fun q => ⟨false, next.idxOf q, fun _ => false, bits⟩) [x] q).acc = (b.edge q x).accept := by
      simp [tgtAt, Tgt.act]
    rw [hacc] at s3
    exact s3
  · intro i s hsi
    have hi : i < b.counters.length := (List.getElem?_eq_some_iff.1 hsi).1
    have hv := ival i s hsi
    have hinit := (hb.width s (List.mem_of_getElem? hsi)).2
    rw [pcnt i hi]
    have ht : tgtAt b b.counters (fun q => ⟨false, next.idxOf q, fun _ => false, bits⟩) [x] q =
      ⟨(b.edge q x).accept, next.idxOf (b.edge q x).dst, fun i => decide (i ∈ (b.edge q x).inc),
        fun i => if i ∈ (b.edge q x).reset then (b.counters.getD i (0, 0)).2.toNat.testBit else bits i⟩ := by
      simp [tgtAt, Tgt.act]
    rw [ht]
    dsimp only
    rw [lsb_sub_mod]
    have hv0 : (lsbIndex ((List.range s.1).map (if i ∈ (b.edge q x).reset then (b.counters.getD i (0, 0)).2.toNat.testBit else bits i)) +
        (if i ∈ (b.edge q x).reset then 0 else p.counter.getD i 0)) % 2 ^ s.1 = s.2.toNat := by
      by_cases hr : i ∈ (b.edge q x).reset
      · rw [if_pos hr, if_pos hr, lsb_mod, Nat.add_zero, List.getD_eq_getElem?_getD, hsi, Option.getD_some, Nat.mod_mod,
          Nat.mod_eq_of_lt hinit]
      · rw [if_neg hr, if_neg hr]; exact hv
    have hM : 0 < 2 ^ s.1 := Nat.two_pow_pos _
    generalize lsbIndex ((List.range s.1).map (if i ∈ (b.edge q x).reset then (b.counters.getD i (0, 0)).2.toNat.testBit else bits i)) = v
      at hv0
    generalize (if i ∈ (b.edge q x).reset then 0 else p.counter.getD i 0) = y at hv0
    have hb1 : (decide (i ∈ (b.edge q x).inc)).toNat = if i ∈ (b.edge q x).inc then 1 else 0 := by
      by_cases h : i ∈ (b.edge q x).inc <;> simp [h]
    rw [hb1]
    have hz : (if i ∈ (b.edge q x).inc then 1 else 0) ≤ 1 := by split <;> omega
    generalize (if i ∈ (b.edge q x).inc then 1 else 0) = z at hz
    rw [Nat.mod_add_mod, show v + 2 ^ s.1 - z + (y + z) = (v + y) + 2 ^ s.1 by omega, Nat.add_mod_right]
    exact hv0
  · have hmk : (tgtAt b b.counters (fun q => ⟨false, next.idxOf q, fun _ => false, bits⟩) [x] q).mks =
        fun i => decide (i ∈ (b.edge q x).inc) := by
      simp [tgtAt, Tgt.act]
    rw [hmk] at s5
    exact s5

theorem plainRun_snoc (b : Btt) (u : List Bool) (x : Bool) :
    plainRun b (u ++ [x]) = (do let r ← plainRun b u; r.evalOne x) := by
  unfold plainRun
  rw [List.foldlM_append]
  congr 1
  funext r
  simp

/-- the invariant along a history -/
theorem bttRun_inv (hS : S.Sound δ Enc m g) {b : Btt} (hb : b.Fit) {G : Graph} (h2 : G.WF) (h3 : G.size = b.size)
    (h4 : ∀ q < b.size, ∀ x, G.nx q x = (b.edge q x).dst) (h64 : 64 < N / 2) (hK : N / 2 + b.counters.length ≤ N)
    (hW : b.size ≤ 2 ^ W) (hW' : W < 31) (he : δ.ks + δ.br + (b.counters.length + 1 + W) * δ.cmux ≤ m) (hg : g ≤ m)
    (hm : 4 * m + δ.ms < 2 ^ 30) {cs : List (Gsw l N × (Nat → RedTree))} {bs : List Bool} (hin : List.Forall₂ (BttInput b Enc) cs bs) :
    ∀ (u : List Bool) (q : BttPlain) (r : BttRunner N l), plainRun b u = .ok q → BttInv S δ W b G u.length r q →
      (∀ w x v, u ++ bs = w ++ x :: v → ∀ p, plainRun b w = .ok p → p.Small) → ∀ p, plainRun b (u ++ bs) = .ok p →
      ∃ r', cs.foldlM (fun r c => r.evalOne S c.1 c.2) r = .ok r' ∧ BttInv S δ W b G (u ++ bs).length r' p := by
  induction hin with
  | nil =>
    intro u q r hu hI _ p hp
    rw [List.append_nil] at hp ⊢
    rw [hu] at hp
    cases hp
    exact ⟨r, rfl, hI⟩
  | @cons c x cs bs hc _ ih =>
    intro u q r hu hI hsm p hp
    have hsplit : u ++ x :: bs = (u ++ [x]) ++ bs := by simp
    have h7 : ∃ q', q.evalOne x = .ok q' := by
      rw [hsplit] at hp
      unfold plainRun at hp
      rw [List.foldlM_append] at hp
      obtain ⟨q', h8, _⟩ := Res.bind_eq_ok.1 hp
      change plainRun b (u ++ [x]) = _ at h8
      rw [plainRun_snoc, hu, Res.bind_ok] at h8
      exact ⟨q', h8⟩
    obtain ⟨q', hq'⟩ := h7
    obtain ⟨r', k1, k2, _⟩ := hI.step hS hb h2 h3 h4 h64 hK hW hW' he hg hm (hsm u x bs rfl q hu) hc hq'
    obtain ⟨r'', k3, k4⟩ := ih (u ++ [x]) q' r' (by rw [plainRun_snoc, hu, Res.bind_ok, hq']) (by simpa using k2)
      (by intro w y v hw; exact hsm w y v (by rw [hsplit, hw])) p (by rw [← hsplit]; exact hp)
    refine ⟨r'', ?_, by rw [hsplit]; exact k4⟩
    rw [List.foldlM_cons, k1, Res.bind_ok, k3]

theorem bttMake_ok {b : Btt} (hb : b.Fit) (h64 : 64 < N / 2) :
    ∃ G, b.toGraph = .ok G ∧ G.WF ∧ G.size = b.size ∧ (∀ q < b.size, ∀ x, G.nx q x = (b.edge q x).dst) ∧
      ∃ r : BttRunner N l, BttRunner.make b 1 = .ok r ∧ BttInv S δ W b G 0 r (BttPlain.make b) := by
  obtain ⟨G, h1, h2, h3, h4⟩ := hb.toGraph_ok
  refine ⟨G, h1, h2, h3, h4, ?_⟩
  unfold BttRunner.make
  rw [h1, Res.bind_ok]
  unfold Weight.make
  obtain ⟨p, k1, k2, k3, _⟩ := initGeneral_ok (N := N) 0 0#64 h64 (by omega)
  rw [k1, Res.bind_ok]
  obtain ⟨cs, e1, e2, e3⟩ : ∃ cs, b.counters.mapM (fun s => Counter.make (N := N) s.1 s.2) = .ok cs ∧ cs.length = b.counters.length ∧
      List.Forall₂ (fun (c : Counter N) s => c.width = s.1 ∧ c.init = s.2 ∧ c.Bits S 0 s.2.toNat.testBit) cs b.counters := by
    have : ∀ sp : List (Nat × BitVec 64), (∀ s ∈ sp, s.1 ≤ 64) → ∃ cs, sp.mapM (fun s => Counter.make (N := N) s.1 s.2) = .ok cs ∧
        cs.length = sp.length ∧
        List.Forall₂ (fun (c : Counter N) s => c.width = s.1 ∧ c.init = s.2 ∧ c.Bits S 0 s.2.toNat.testBit) cs sp := by
      intro sp
      induction sp with
      | nil => intro _; exact ⟨[], rfl, rfl, .nil⟩
      | cons s sp ih =>
        intro h
        obtain ⟨cs, a1, a2, a3⟩ := ih (fun s hs => h s (by simp [hs]))
        obtain ⟨c, r1, r2, r3, r4⟩ := Counter.reset_ok (S := S) ({ c := [], width := s.1, init := s.2 } : Counter N) (h s (by simp))
        refine ⟨c :: cs, ?_, by simp [a2], .cons ⟨r2, r3, r4⟩ a3⟩
        rw [List.mapM_cons]
        unfold Counter.make at a1 ⊢
        rw [r1, Res.bind_ok, a1, Res.bind_ok]
        rfl
    exact this _ (fun s hs => (hb.width s hs).1)
  rw [e1, Res.bind_ok]
  have hat : ∀ (i : Nat) (c : Counter N) (s : Nat × BitVec 64), cs[i]? = some c → b.counters[i]? = some s →
      c.width = s.1 ∧ c.init = s.2 ∧ c.Bits S 0 s.2.toNat.testBit := by
    intro i c s hc hs
    obtain ⟨hi, rfl⟩ := List.getElem?_eq_some_iff.1 hc
    obtain ⟨hi', rfl⟩ := List.getElem?_eq_some_iff.1 hs
    exact (List.forall₂_iff_get.1 e3).2 i hi hi'
  have hsh : WShape b.counters (⟨trivialTRLWE p, cs⟩ : Weight N) := ⟨e2, by
    intro i c s hc hs
    obtain ⟨a1, a2, a3⟩ := hat i c s hc hs
    exact ⟨by rw [a3.len, a1], a1, a2⟩⟩
  refine ⟨_, rfl, ⟨rfl, rfl, rfl, rfl, ?_, rfl, by simp [BttPlain.make], by simp [BttPlain.make], hsh, ⟨?_, ?_⟩,
    fun i => (b.counters.getD i (0, 0)).2.toNat.testBit, ?_, ?_⟩⟩
  · simp [Graph.levelSet]
  · intro k hk
    show Near _ ((trivialTRLWE p).phase _ k) _
    rw [phase_trivial]
    exact (Near.of_eq (k2 k hk)).mono (Nat.zero_le _)
  · intro k ha hb'
    show Near _ ((trivialTRLWE p).phase _ k) _
    rw [phase_trivial]
    refine (Near.of_eq ((k3 k ha hb').trans ?_)).mono (Nat.zero_le _)
    simp [BttPlain.make]
  · intro i c hc j x hx k hk
    change cs[i]? = some c at hc
    have hi : i < b.counters.length := by rw [← e2]; exact (List.getElem?_eq_some_iff.1 hc).1
    obtain ⟨_, _, a3⟩ := hat i c _ hc (List.getElem?_eq_getElem hi)
    dsimp only
    rw [List.getD_eq_getElem?_getD, List.getElem?_eq_getElem hi, Option.getD_some]
    exact (a3.near j x hx k hk).mono (Nat.zero_le _)
  · intro i s hs
    have hi : i < b.counters.length := (List.getElem?_eq_some_iff.1 hs).1
    dsimp only
    rw [lsb_mod, List.getD_eq_getElem?_getD, hs, Option.getD_some]
    have : (BttPlain.make b).counter.getD i 0 = 0 := by
      simp [BttPlain.make, hi]
    rw [this, Nat.add_zero, Nat.mod_mod, Nat.mod_eq_of_lt (hb.width s (List.mem_of_getElem? hs)).2]

end Homfa
