import Verif.Spec.Btt
import Verif.Proof.Weight

/-! The BTT runners. -/

namespace Homfa

variable {N n l : Nat} {S : GateScheme N n l} {δ : Noise} {Enc : Gsw l N → Bool → Prop} {m g : Nat}

theorem cassert_ok {c : Bool} {u : Unit} : cassert c = .ok u ↔ c = true := by
  cases c <;> simp

/-! ## The table -/

/-- the transition from `q` on `x` -/
def Btt.edge (b : Btt) (q : Nat) (x : Bool) : BttEdge :=
  b.delta.getD (q * 2 + x.toNat) ⟨0, false, 0, false, [], [], none⟩

theorem Btt.make_shape {b : Btt} (h : Btt.make 0 b.delta b.counters = .ok b) :
    b.delta.length % 2 = 0 ∧ ∀ (i : Nat) (e : BttEdge), b.delta[i]? = some e → e.src = i / 2 ∧ e.input = decide (i % 2 ≠ 0) := by
  unfold Btt.make at h
  rw [decide_eq_true rfl, cassert_true, Res.bind_ok] at h
  obtain ⟨_, h1, h2⟩ := Res.bind_eq_ok.1 h
  have h1' := (cassert_ok.1 h1)
  obtain ⟨_, h3, _⟩ := Res.bind_eq_ok.1 h2
  refine ⟨by simpa using h1', ?_⟩
  have key : ∀ k ≤ b.delta.length, (∃ u, (List.range k).foldlM (fun (_ : Unit) i => do
      let e ← vat b.delta i
      cassert (decide (e.src = i / 2))
      cassert (e.input == decide (i % 2 ≠ 0))) () = .ok u) → ∀ i < k, ∀ e, b.delta[i]? = some e →
        e.src = i / 2 ∧ e.input = decide (i % 2 ≠ 0) := by
    intro k
    induction k with
    | zero => intro _ _ i hi; omega
    | succ k ih =>
      rintro hk ⟨u, hu⟩ i hi e he
      rw [List.range_succ, List.foldlM_append] at hu
      obtain ⟨v, h4, h5⟩ := Res.bind_eq_ok.1 hu
      by_cases hik : i = k
      · subst hik
        rw [List.foldlM_cons] at h5
        obtain ⟨w, h6, _⟩ := Res.bind_eq_ok.1 h5
        rw [vat_eq_ok.2 he, Res.bind_ok] at h6
        obtain ⟨_, h7, h8⟩ := Res.bind_eq_ok.1 h6
        exact ⟨by simpa using cassert_ok.1 h7, by simpa using cassert_ok.1 h8⟩
      · exact ih (by omega) ⟨v, h4⟩ i (by omega) e he
  intro i e he
  exact key _ (Nat.le_refl _) ⟨_, h3⟩ i (List.getElem?_eq_some_iff.1 he).1 e he

namespace Btt.Table
variable {b : Btt} (hb : b.Table)
include hb

theorem even : b.delta.length = b.size * 2 := by
  have := (Btt.make_shape hb.made).1
  unfold Btt.size
  omega

theorem size_pos : 0 < b.size := by
  have := hb.even
  have := List.length_pos_iff.2 hb.nonempty
  omega

theorem edge_some {q : Nat} (hq : q < b.size) (x : Bool) : b.delta[q * 2 + x.toNat]? = some (b.edge q x) := by
  have := hb.even
  have : x.toNat ≤ 1 := Bool.toNat_le x
  unfold Btt.edge
  rw [List.getD_eq_getElem?_getD, List.getElem?_eq_getElem (by omega)]
  rfl

theorem edge_mem {q : Nat} (hq : q < b.size) (x : Bool) : b.edge q x ∈ b.delta := List.mem_of_getElem? (hb.edge_some hq x)

theorem edge_src {q : Nat} (hq : q < b.size) (x : Bool) : (b.edge q x).src = q := by
  have := ((Btt.make_shape hb.made).2 _ _ (hb.edge_some hq x)).1
  have : x.toNat ≤ 1 := Bool.toNat_le x
  omega

theorem edge_input {q : Nat} (hq : q < b.size) (x : Bool) : (b.edge q x).input = x := by
  have := ((Btt.make_shape hb.made).2 _ _ (hb.edge_some hq x)).2
  rw [this]
  cases x <;> simp

theorem mem_edge {e : BttEdge} (he : e ∈ b.delta) : e.src < b.size ∧ ∃ x, e = b.edge e.src x := by
  obtain ⟨i, hi, rfl⟩ := List.getElem_of_mem he
  have h1 := ((Btt.make_shape hb.made).2 i _ (List.getElem?_eq_getElem hi)).1
  have h2 := hb.even
  rw [h1]
  refine ⟨by omega, decide (i % 2 = 1), ?_⟩
  have h3 : i / 2 * 2 + (decide (i % 2 = 1)).toNat = i := by
    rcases Nat.mod_two_eq_zero_or_one i with h | h <;> simp [h] <;> omega
  unfold Btt.edge
  rw [h3, List.getD_eq_getElem?_getD, List.getElem?_eq_getElem hi]
  rfl

theorem getEdge_ok {q : Nat} (hq : q < b.size) : b.getEdge q = .ok (b.edge q false, b.edge q true) := by
  unfold Btt.getEdge
  have h0 := hb.edge_some hq false
  have h1 := hb.edge_some hq true
  rw [show (q * 2 + false.toNat) = q * 2 from rfl] at h0
  rw [vat_eq_ok.2 h0, Res.bind_ok, vat_eq_ok.2 (show b.delta[q * 2 + 1]? = _ from h1), Res.bind_ok]
  rfl

theorem toGraph_ok : ∃ G, b.toGraph = .ok G ∧ G.WF ∧ G.size = b.size ∧ ∀ q < b.size, ∀ x, G.nx q x = (b.edge q x).dst := by
  unfold Btt.toGraph
  obtain ⟨p, h1, h2⟩ := foldlM_range_inv
    (fun i (p : List Nat × List (Nat × Nat × Nat)) => p = (List.range i, (List.range i).map fun q =>
      (q, (b.edge q false).dst, (b.edge q true).dst)))
    (f := fun (p : List Nat × List (Nat × Nat × Nat)) q => do
      let e ← b.getEdge q
      pure (sinsert q p.1, p.2 ++ [(q, e.1.dst, e.2.dst)])) b.size (b := ([], [])) rfl (by
      rintro i p hi rfl
      rw [hb.getEdge_ok hi, Res.bind_ok]
      refine ⟨_, rfl, ?_⟩
      rw [List.range_succ, List.map_append, List.map_singleton]
      congr 1
      exact (sorted_sinsert (ssorted_range i)).ext (by rw [← List.range_succ]; exact ssorted_range _) (by
        intro x; simp only [mem_sinsert, List.mem_append, List.mem_singleton, List.mem_range]; omega))
  rw [h1, Res.bind_ok, h2]
  obtain ⟨G, k1, k2, k3, _, _, _, k7⟩ := Graph.make_wf (init := 0) (n := b.size) (finals := List.range b.size)
    (f0 := fun q => (b.edge q false).dst) (f1 := fun q => (b.edge q true).dst) hb.size_pos (by simp) (ssorted_range _)
    (fun q hq => hb.dst _ (hb.edge_mem hq _)) (fun q hq => hb.dst _ (hb.edge_mem hq _))
  refine ⟨G, k1, k2, k3, fun q hq x => ?_⟩
  cases x
  · exact (k7 q hq).1
  · exact (k7 q hq).2

theorem reach_iff {G : Graph} (hG : G.WF) (hs : G.size = b.size) (hnx : ∀ q < b.size, ∀ x, G.nx q x = (b.edge q x).dst) (d : Nat) :
    ∀ q, q ∈ G.levelSet [0] d ↔ b.Reach d q := by
  have h0 : ∀ q ∈ [0], q < G.size := by simp [hs, hb.size_pos]
  induction d with
  | zero =>
    intro q
    constructor
    · intro h
      have : q = 0 := by simpa [Graph.levelSet] using h
      subst this; exact .zero
    · intro h; cases h; simp [Graph.levelSet]
  | succ d ih =>
    intro q
    rw [Graph.levelSet, hG.mem_nextSet (Graph.levelSet_lt h0 d)]
    constructor
    · rintro ⟨p, hp, x, rfl⟩
      have hlt : p < b.size := by rw [← hs]; exact Graph.levelSet_lt h0 d p hp
      rw [hnx p hlt x]
      exact .step ((ih p).1 hp) (hb.edge_mem hlt x) (hb.edge_src hlt x)
    · rintro (_ | ⟨h1, h2, h3⟩)
      rename_i p e
      obtain ⟨hlt, x, hx⟩ := hb.mem_edge h2
      subst h3
      refine ⟨e.src, (ih _).2 h1, x, ?_⟩
      rw [hnx _ hlt x, ← hx]

end Btt.Table

/-! ## The plaintext runner -/

/-- the counter conditions -/
def plainConds (sp : List (Nat × BitVec 64)) (cnt : List Nat) : List Bool :=
  (List.range sp.length).map fun i => decide (cnt.getD i 0 = (sp.getD i (0, 0)).2.toNat)

/-- walking along transitions -/
def Btt.walk (b : Btt) (q : Nat) (xs : List Bool) : Nat := xs.foldl (fun q x => (b.edge q x).dst) q

theorem Btt.Fit.walk_lt {b : Btt} (hb : b.Fit) : ∀ (xs : List Bool) {q : Nat}, q < b.size → b.walk q xs < b.size := by
  intro xs
  induction xs with
  | nil => intro q h; exact h
  | cons x xs ih => intro q h; exact ih (hb.dst _ (hb.edge_mem h x))

theorem evalOne_plain {b : Btt} (hb : b.Fit) {p p' : BttPlain} (hp : p.btt = b) (hc : p.cur < b.size)
    (hl : p.counter.length = b.counters.length) {x : Bool} (h : p.evalOne x = .ok p') :
    let q := b.walk p.cur (plainConds b.counters p.counter)
    p'.btt = b ∧ p'.cur = (b.edge q x).dst ∧ p'.accept = (b.edge q x).accept ∧ p'.counter.length = b.counters.length ∧
      ∀ i < b.counters.length, p'.counter.getD i 0 = (if i ∈ (b.edge q x).reset then 0 else p.counter.getD i 0) +
        (if i ∈ (b.edge q x).inc then 1 else 0) := by
  intro q
  unfold BttPlain.evalOne at h
  rw [hp] at h
  obtain ⟨c, h1, h2⟩ := foldlM_range_inv
    (fun i c => c = b.walk p.cur ((plainConds b.counters p.counter).take i))
    (f := fun cur i => do
      let spec ← vat b.counters i
      let x ← vat p.counter i
      let e ← b.getEdge cur
      pure (if x = spec.2.toNat then e.2 else e.1).dst) b.counters.length (b := p.cur) (by simp [Btt.walk]) (by
      rintro i c hi rfl
      have hlt := hb.walk_lt ((plainConds b.counters p.counter).take i) hc
      rw [vat_lt hi, Res.bind_ok, vat_lt (by omega), Res.bind_ok, hb.getEdge_ok hlt, Res.bind_ok]
      refine ⟨_, rfl, ?_⟩
      have hil : i < (plainConds b.counters p.counter).length := by simpa [plainConds] using hi
      rw [← List.take_concat_get' _ i hil, Btt.walk, Btt.walk, List.foldl_append, List.foldl_cons, List.foldl_nil]
      have hi' : i < p.counter.length := by omega
      have : (plainConds b.counters p.counter)[i] = decide (p.counter[i] = (b.counters[i]).2.toNat) := by
        simp [plainConds, List.getD_eq_getElem?_getD, List.getElem?_eq_getElem hi, List.getElem?_eq_getElem hi']
      rw [this]
      by_cases hx : p.counter[i] = (b.counters[i]).2.toNat
      · rw [if_pos hx, decide_eq_true hx]
      · rw [if_neg hx, decide_eq_false hx])
  rw [List.take_of_length_le (by simp [plainConds])] at h2
  rw [h1, Res.bind_ok] at h
  have hq : q < b.size := hb.walk_lt _ hc
  have hcq : c = q := h2
  rw [hcq, hb.getEdge_ok hq, Res.bind_ok] at h
  have he : (if x then (b.edge q false, b.edge q true).2 else (b.edge q false, b.edge q true).1) = b.edge q x := by cases x <;> rfl
  dsimp only at h he
  rw [he] at h
  have hemem := hb.edge_mem hq x
  generalize he' : b.edge q x = e at h hemem ⊢
  obtain ⟨c1, k1, k2, k3⟩ := foldlM_inv
    (fun (pre : List Nat) (c : List Nat) => c.length = b.counters.length ∧
      ∀ i < b.counters.length, c.getD i 0 = if i ∈ pre then 0 else p.counter.getD i 0)
    (f := fun c i => vset c i 0) e.reset (b := p.counter) ⟨hl, by simp⟩ (by
      rintro pre i post c hd ⟨e1, e2⟩
      have hi := hb.reset e hemem i (by rw [hd]; simp)
      rw [vset_lt (by omega)]
      refine ⟨_, rfl, by simp [e1], fun j hj => ?_⟩
      by_cases hij : i = j
      · subst hij
        simp [List.getD_eq_getElem?_getD, List.getElem?_set_self (show i < c.length by omega)]
      · rw [List.getD_eq_getElem?_getD, List.getElem?_set_ne hij, ← List.getD_eq_getElem?_getD, e2 j hj]
        simp [Ne.symm hij])
  rw [k1, Res.bind_ok] at h
  have hkey : ∀ (post pre : List Nat) (c r : List Nat), (pre ++ post).Nodup → (∀ i ∈ post, i < b.counters.length) →
      c.length = b.counters.length → post.foldlM incInt c = .ok r → r.length = b.counters.length ∧
      ∀ i < b.counters.length, r.getD i 0 = c.getD i 0 + if i ∈ post then 1 else 0 := by
    intro post
    induction post with
    | nil => intro pre c r _ _ hl h; cases h; exact ⟨hl, by simp⟩
    | cons a post ih =>
      intro pre c r hnd hlt hl h
      rw [List.foldlM_cons] at h
      obtain ⟨c', h3, h4⟩ := Res.bind_eq_ok.1 h
      have ha := hlt a (by simp)
      unfold incInt at h3
      rw [vat_lt (by omega), Res.bind_ok] at h3
      split at h3
      · rw [vset_lt (by omega)] at h3
        cases h3
        have hnd' : (a :: post).Nodup := (List.nodup_append.1 hnd).2.1
        obtain ⟨r1, r2⟩ := ih [] _ r (List.nodup_cons.1 hnd').2 (fun i hi => hlt i (by simp [hi])) (by simp [hl]) h4
        refine ⟨r1, fun i hi => ?_⟩
        rw [r2 i hi]
        by_cases hai : a = i
        · subst hai
          have : a ∉ post := (List.nodup_cons.1 hnd').1
          simp [List.getD_eq_getElem?_getD, List.getElem?_set_self (show a < c.length by omega),
            List.getElem?_eq_getElem (show a < c.length by omega), this]
        · rw [List.getD_eq_getElem?_getD, List.getElem?_set_ne hai, ← List.getD_eq_getElem?_getD]
          simp [Ne.symm hai]
      · cases h3
  obtain ⟨c2, h5, h6⟩ := Res.bind_eq_ok.1 h
  obtain ⟨l1, l2⟩ := hkey e.inc [] c1 c2 (by simpa using hb.once e hemem) (hb.inc e hemem) k2 h5
  cases h6
  exact ⟨rfl, rfl, rfl, l1, fun i hi => by rw [l2 i hi, k3 i hi]⟩

/-! ## One evaluation of the encrypted runner -/

variable {sp : List (Nat × BitVec 64)}

/-- the target of the weight of `q` over the inputs `xs`, from the targets `T` at the end -/
def tgtAt (b : Btt) (sp : List (Nat × BitVec 64)) (T : Nat → Tgt) : List Bool → Nat → Tgt
  | [], q => T q
  | x :: xs, q => (tgtAt b sp T xs (b.edge q x).dst).act sp (b.edge q x).accept (b.edge q x).reset (b.edge q x).inc

theorem Tgt.act_silent (t : Tgt) : t.act sp false [] [] = t := by
  unfold Tgt.act
  simp

theorem bttInit_ok {G : Graph} {b : Btt} (hs : G.size = b.size) {next : List Nat} (hnd : next.Nodup) (hlt : ∀ q ∈ next, q < G.size)
    (h64 : 64 < N / 2) (hK : N / 2 + sp.length ≤ N) (hlen : next.length < 2 ^ 64) {state : Weight N} (hsh : WShape sp state) {ec : Nat}
    {bits : Nat → Nat → Bool} (hc : CtrOk S ec state bits) :
    ∃ weight, bttInit G b state next = .ok weight ∧ weight.length = b.size ∧
      ∀ q ∈ next, ∃ w, weight[q]? = some (some w) ∧ WOk S sp 0 ec w ⟨false, next.idxOf q, fun _ => false, bits⟩ := by
  unfold bttInit
  obtain ⟨idx, h1, h2, h3⟩ := foldlM_range_inv (fun k (v : List (Option Nat)) => v.length = G.size ∧
      ∀ j (h : j < next.length), j < k → v[next[j]]? = some (some j))
    (f := fun (v : List (Option Nat)) i => do
      let q ← vat next i
      vset v q (some i)) next.length (b := List.replicate G.size none) ⟨by simp, by intro j _ h; omega⟩ (by
      rintro i v hi ⟨e1, e2⟩
      rw [vat_lt hi, Res.bind_ok, vset_lt (by rw [e1]; exact hlt _ (List.getElem_mem _))]
      refine ⟨_, rfl, by rw [List.length_set, e1], ?_⟩
      intro j hj hji
      by_cases h : j = i
      · subst h
        rw [List.getElem?_set_self (by rw [e1]; exact hlt _ (List.getElem_mem _))]
      · rw [List.getElem?_set_ne]
        · exact e2 j hj (by omega)
        · intro he
          exact h ((List.Nodup.getElem_inj_iff hnd).1 he).symm)
  rw [h1, Res.bind_ok]
  obtain ⟨w, k1, k2, k3⟩ := foldlM_inv (fun (pre : List Nat) (w : List (Option (Weight N))) => w.length = b.size ∧
      (∀ q ∈ pre, ∃ x, w[q]? = some (some x) ∧ WOk S sp 0 ec x ⟨false, next.idxOf q, fun _ => false, bits⟩))
    (f := fun (weight : List (Option (Weight N))) q => do
      let i ← vat idx q
      let w ← Weight.fromSrc (match i with
        | some i => BitVec.ofNat 64 i
        | none => BitVec.allOnes 64) state
      vset weight q (some w)) next (b := List.replicate b.size none)
    ⟨by simp, by simp⟩ (by
      rintro pre q post w hd ⟨e1, e2⟩
      have hq : q ∈ next := by rw [hd]; simp
      have hqs := hlt q hq
      have hi : next.idxOf q < next.length := List.idxOf_lt_length_iff.2 hq
      have hidx := h3 (next.idxOf q) hi hi
      rw [List.getElem_idxOf] at hidx
      rw [vat_eq_ok.2 hidx, Res.bind_ok]
      obtain ⟨x, f1, f2⟩ := fromSrc_ok (S := S) (BitVec.ofNat 64 (next.idxOf q)) h64 hK hsh hc
      dsimp only
      rw [f1, Res.bind_ok, vset_lt (by omega)]
      rw [BitVec.toNat_ofNat, Nat.mod_eq_of_lt (by omega)] at f2
      refine ⟨_, rfl, by rw [List.length_set, e1], ?_⟩
      intro p hp
      by_cases hpq : q = p
      · subst hpq
        exact ⟨x, List.getElem?_set_self (by omega), f2⟩
      · rw [List.getElem?_set_ne hpq]
        refine e2 p ?_
        rcases List.mem_append.1 hp with h | h
        · exact h
        · simp at h; exact absurd h.symm hpq)
  exact ⟨w, k1, k2, k3⟩

/-- the actions of a transition can be applied to a weight with target `t` -/
structure EdgeOk (sp : List (Nat × BitVec 64)) (e : BttEdge) (t : Tgt) : Prop where
  reset : ∀ i ∈ e.reset, i < sp.length
  inc : ∀ i ∈ e.inc, i < sp.length
  once : e.inc.Nodup
  acc : e.accept = true → t.acc = false
  mks : ∀ i ∈ e.inc, t.mks i = false

theorem bttBlock_ok (hS : S.Sound δ Enc m g) {G : Graph} {b : Btt} (hb : b.Fit) (hG : G.WF) (hs : G.size = b.size)
    (hnx : ∀ q < b.size, ∀ x, G.nx q x = (b.edge q x).dst) {L : List Nat} (hsort : SSorted L) (hL : ∀ q ∈ L, q < G.size)
    (h64 : 64 < N / 2) (hK : N / 2 + sp.length ≤ N) (hsp : ∀ s ∈ sp, s.1 ≤ 64)
    {state : Weight N} (hsh : WShape sp state) {ec : Nat} {bits : Nat → Nat → Bool} (hc : CtrOk S ec state bits)
    {inputs : List (Gsw l N)} {xs : List Bool} (hin : List.Forall₂ Enc inputs xs) (T : Nat → Tgt)
    (hA : ∀ i < xs.length, ∀ q ∈ G.levelSet L i, ∀ x,
      EdgeOk sp (b.edge q x) (tgtAt b sp T (xs.drop (i + 1)) (b.edge q x).dst)) :
    ∀ (k : Nat), k ≤ inputs.length → ∀ (e : Nat) (weight temp : List (Option (Weight N))), weight.length = b.size → temp.length = b.size →
    (∀ q ∈ G.levelSet L k, ∃ w, weight[q]? = some (some w) ∧ WOk S sp e (ec + e) w (tgtAt b sp T (xs.drop k) q)) →
    ∃ weight', bttBlock S.toScheme b state inputs ((List.range (inputs.length + 1)).map (G.levelSet L)) k weight temp = .ok weight' ∧
      weight'.length = b.size ∧
      ∀ q ∈ L, ∃ w, weight'[q]? = some (some w) ∧ WOk S sp (e + k * δ.cmux) (ec + (e + k * δ.cmux)) w (tgtAt b sp T xs q) := by
  have hlen : inputs.length = xs.length := hin.length_eq
  intro k
  induction k with
  | zero =>
    intro _ e weight temp hw _ hT
    exact ⟨weight, rfl, hw, by simpa [Graph.levelSet] using hT⟩
  | succ i ih =>
    intro hk e weight temp hw ht hT
    have hi : i < inputs.length := by omega
    have hix : i < xs.length := by omega
    rw [bttBlock, vat_lt hi, Res.bind_ok, vat_map (by omega), Res.bind_ok]
    have hEnc : Enc inputs[i] xs[i] := (List.forall₂_iff_get.1 hin).2 i hi hix
    obtain ⟨w', e1, e2, e3, e4⟩ := parFor_write (task := bttTask S.toScheme b state inputs[i]) (rest := [weight])
      (P := fun q o => ∃ x, o = some x ∧ WOk S sp (e + δ.cmux) (ec + (e + δ.cmux)) x (tgtAt b sp T (xs.drop i) q)) (w0 := temp)
      (G.levelSet L i) (Graph.sorted_levelSet hsort i).nodup (by
        intro q hq w hwl _
        have hq' : q < b.size := by rw [← hs]; exact Graph.levelSet_lt hL i q hq
        have hstep : ∀ x, ∃ a a', weight[(b.edge q x).dst]? = some (some a) ∧
            alterWeight a (b.edge q x).accept (b.edge q x).reset (b.edge q x).inc = .ok a' ∧
            WOk S sp e (ec + e) a' ((tgtAt b sp T (xs.drop (i + 1)) (b.edge q x).dst).act sp (b.edge q x).accept (b.edge q x).reset
              (b.edge q x).inc) := by
          intro x
          obtain ⟨a, a1, a2⟩ := hT (b.edge q x).dst (by rw [← hnx q hq' x]; exact hG.step_levelSet hL hq x)
          have hE := hA i hix q hq x
          obtain ⟨a', a3, a4⟩ := alterWeight_ok h64 hK hsp a2 hE.reset hE.inc hE.once hE.acc hE.mks
          exact ⟨a, a', a1, a3, a4⟩
        obtain ⟨a0, a0', p1, p2, p3⟩ := hstep false
        obtain ⟨a1, a1', q1, q2, q3⟩ := hstep true
        obtain ⟨o, o1, o2⟩ := fromSrc_ok (S := S) 0#64 h64 hK hsh hc
        obtain ⟨r, r1, r2⟩ := Weight.cmux_ok hS hEnc o2.shape q3 p3
        refine ⟨some r, ⟨r, rfl, ?_⟩, ?_⟩
        · rw [List.drop_eq_getElem_cons hix]
          have : (if xs[i] = true then
                (tgtAt b sp T (xs.drop (i + 1)) (b.edge q true).dst).act sp (b.edge q true).accept (b.edge q true).reset (b.edge q true).inc
              else (tgtAt b sp T (xs.drop (i + 1)) (b.edge q false).dst).act sp (b.edge q false).accept (b.edge q false).reset
                (b.edge q false).inc) = tgtAt b sp T (xs[i] :: xs.drop (i + 1)) q := by
            cases xs[i] <;> rfl
          rw [← this]
          exact r2.mono (Nat.le_refl _) (by omega)
        · unfold bttTask
          rw [Prog.run_local _ (hb.getEdge_ok hq'), Prog.run_read1 p1, Prog.run_local (r := (do
              let w ← optValue (some a0); alterWeight w (b.edge q false).accept (b.edge q false).reset (b.edge q false).inc)) _ p2,
            Prog.run_read1 q1, Prog.run_local (r := (do
              let w ← optValue (some a1); alterWeight w (b.edge q true).accept (b.edge q true).reset (b.edge q true).inc)) _ q2,
            Prog.run_local (x := r) _ (by rw [o1, Res.bind_ok]; exact r1), Prog.run_write0 (by omega)]) (by
        rw [ht, ← hs]; exact Graph.levelSet_lt hL i)
    rw [e1, Res.bind_ok]
    obtain ⟨w2, f1, f2, f3⟩ := ih (by omega) (e + δ.cmux) w' weight (by omega) hw (by
      intro q hq
      obtain ⟨x, hx, y, rfl, hy⟩ := e3 q hq
      exact ⟨y, hx, hy⟩)
    refine ⟨w2, f1, f2, fun q hq => ?_⟩
    obtain ⟨w, w1, w3⟩ := f3 q hq
    have : e + δ.cmux + i * δ.cmux = e + (i + 1) * δ.cmux := by rw [Nat.add_mul]; omega
    rw [this] at w3
    exact ⟨w, w1, w3⟩

theorem bttSelect_ok (hS : S.Sound δ Enc m g) {state : Weight N} {live : List Nat} {weight : List (Option (Weight N))}
    (h64 : 64 < N / 2) (hK : N / 2 + sp.length ≤ N) (hne : live ≠ []) (hone : live.length = 1 → live = [0])
    {W : Nat} (hW : live.length ≤ 2 ^ W) (hW' : W < 31)
    (hsh : WShape sp state) {ec e : Nat} {bits : Nat → Nat → Bool} (hc : CtrOk S ec state bits) {eg : Nat} {acc : Bool} {cur : Nat}
    (hcur : cur ∈ live) (hgen : GenOk S eg state acc (live.idxOf cur)) (heg : δ.ks + eg ≤ m) {Q : Nat → Tgt}
    (hw : ∀ q ∈ live, ∃ w, weight[q]? = some (some w) ∧ WOk S sp e (ec + e) w (Q q)) :
    ∃ w, bttSelect S state live weight = .ok w ∧ WOk S sp (e + W * δ.cmux) (ec + (e + W * δ.cmux)) w (Q cur) := by
  unfold bttSelect
  by_cases h1 : live.length = 1
  · rw [if_pos h1]
    have hl := hone h1
    have : cur = 0 := by rw [hl] at hcur; simpa using hcur
    subst this
    obtain ⟨w, a1, a2⟩ := hw 0 hcur
    rw [vat_eq_ok.2 a1, Res.bind_ok]
    exact ⟨w, rfl, a2.mono (by omega) (by omega)⟩
  · rw [if_neg h1]
    dsimp only
    have hpos : 0 < live.length := List.length_pos_iff.2 hne
    have hcl : Nat.clog 2 live.length ≤ W := (Nat.clog_le_iff_le_pow (by omega)).2 hW
    have hpow : live.length ≤ 2 ^ Nat.clog 2 live.length := Nat.le_pow_clog (by omega) _
    obtain ⟨sel, s1, s2, s3⟩ := selectors_ok hS hgen heg (by omega) (k := Nat.clog 2 live.length) (by omega)
    rw [s1, Res.bind_ok]
    have hidx : live.idxOf cur < live.length := List.idxOf_lt_length_iff.2 hcur
    obtain ⟨cand, c1, c2, c3⟩ := mapM_range_forall₂ (f := fun i => do
        let q ← vat live i
        let w ← vat weight q
        optValue w) (P := fun w t => WOk S sp e (ec + e) w t) (b := fun i => Q (live.getD i 0)) live.length (by
      intro i hi
      obtain ⟨w, a1, a2⟩ := hw live[i] (List.getElem_mem hi)
      rw [vat_lt hi, Res.bind_ok, vat_eq_ok.2 a1, Res.bind_ok]
      refine ⟨w, rfl, ?_⟩
      rw [List.getD_eq_getElem?_getD, List.getElem?_eq_getElem hi]
      exact a2)
    rw [c1, Res.bind_ok, shl1_ok (by omega), Res.bind_ok]
    obtain ⟨d, d1, d2⟩ := fromSrc_ok (S := S) 0#64 h64 hK hsh hc
    rw [d1, Res.bind_ok]
    obtain ⟨t, w, t1, t2, t3⟩ := wlookupTable_ok hS s3 (by omega) (table := vresize cand (2 ^ Nat.clog 2 live.length) d) (by
        rw [s2]; unfold vresize; simp [c2]; omega) (e := e) (ec := ec + e)
      (T := fun j => if j < live.length then Q (live.getD j 0) else ⟨false, 0, fun _ => false, bits⟩) (by
        rw [s2]
        intro j hj
        unfold vresize
        rw [List.take_of_length_le (by omega)]
        by_cases hjl : j < live.length
        · rw [if_pos hjl, List.getElem?_append_left (by omega)]
          refine ⟨cand[j]'(by omega), List.getElem?_eq_getElem (by omega), ?_⟩
          have := (List.forall₂_iff_get.1 c3).2 j (by omega) (by simpa using hjl)
          simpa using this
        · rw [if_neg hjl, List.getElem?_append_right (by omega), List.getElem?_replicate, if_pos (by omega)]
          exact ⟨d, rfl, d2.mono (by omega) (by omega)⟩)
    rw [t1, Res.bind_ok, t2]
    refine ⟨w, rfl, ?_⟩
    rw [lsbIndex_testBit _ _ (by omega), if_pos hidx, List.getD_eq_getElem?_getD, List.getElem?_eq_getElem hidx, List.getElem_idxOf,
      Option.getD_some, s2] at t3
    have : Nat.clog 2 live.length * δ.cmux ≤ W * δ.cmux := Nat.mul_le_mul_right _ hcl
    exact t3.mono (by omega) (by omega)

end Homfa
