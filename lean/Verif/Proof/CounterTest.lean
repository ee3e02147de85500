import Verif.Proof.BttRun
import Verif.Proof.FlutTable
import Verif.Spec.CounterTest

/-! The dumps of the BTT runners. -/

namespace Homfa

variable {N n l : Nat} {S : GateScheme N n l} {δ : Noise} {Enc : Gsw l N → Bool → Prop} {m g : Nat} {W : Nat}

/-! ## The text -/

theorem dumpCounters_eq (vs : List Nat) : dumpCounters vs = (vs.mapIdx fun i v => s!"cnt{i}: {v}\n".toList).flatten := by
  unfold dumpCounters
  congr 1
  rw [List.mapIdx_eq_zipIdx_map]
  refine List.map_congr_left (fun x _ => ?_)
  simp [toString, showNat]

theorem showBool_eq (b : Bool) : showBool b = Nat.toDigits 10 b.toNat := by cases b <;> rfl

theorem dump_info (a : Bool) (q i : Nat) (vs : List Nat) :
    "acc:  ".toList ++ showBool a ++ ['\n'] ++ "st#:  ".toList ++ showNat q ++ ['\n'] ++ "info: ".toList ++ showNat i ++ ['\n'] ++
      dumpCounters vs = bttDump a q (some i) vs := by
  unfold bttDump
  rw [dumpCounters_eq, showBool_eq]
  simp [toString, showNat]

theorem BttPlain.dump_eq (p : BttPlain) : p.dump = bttDump p.accept p.cur none p.counter := by
  unfold BttPlain.dump bttDump
  rw [dumpCounters_eq, showBool_eq]
  simp [toString, showNat]

/-! ## Bits -/

theorem orBits_ok {bit : Nat → Res Bool} {k v : Nat} (hb : ∀ i < k, bit i = .ok (v.testBit i)) (h31 : v < 2 ^ 31) (hk : v < 2 ^ k) :
    orBits bit k = .ok v := by
  unfold orBits
  obtain ⟨w, h1, h2⟩ := foldlM_range_inv (fun i w => w = v % 2 ^ i) (f := fun v i => do
    let b ← bit i
    if b then do
      let m ← shl1Int i
      pure (v ||| m)
    else pure v) k (b := 0) (by simp [Nat.mod_one]) (by
      rintro i w hi rfl
      rw [hb i hi, Res.bind_ok]
      cases hv : v.testBit i
      · refine ⟨_, if_neg (by simp), ?_⟩
        refine Nat.eq_of_testBit_eq (fun j => ?_)
        rw [Nat.testBit_mod_two_pow, Nat.testBit_mod_two_pow]
        by_cases hj : j = i
        · subst hj; simp [hv]
        · congr 1
          rw [decide_eq_decide]; omega
      · rw [if_pos rfl]
        have hi31 : i < 31 := by
          by_contra h
          rw [Nat.testBit_lt_two_pow (Nat.lt_of_lt_of_le h31 (Nat.pow_le_pow_right (by omega) (by omega)))] at hv
          cases hv
        rw [shl1Int, if_pos hi31, Res.bind_ok]
        refine ⟨_, rfl, ?_⟩
        refine Nat.eq_of_testBit_eq (fun j => ?_)
        rw [Nat.testBit_or, Nat.testBit_mod_two_pow, Nat.testBit_mod_two_pow, Nat.testBit_two_pow]
        by_cases hj : j = i
        · subst hj; simp [hv]
        · rw [decide_eq_false (p := i = j) (fun h => hj h.symm), Bool.or_false]
          congr 1
          rw [decide_eq_decide]; omega)
  rw [h1, h2, Nat.mod_eq_of_lt hk]

/-! ## The state of the encrypted runner -/

/-- what the dump of a weight prints -/
theorem Weight.decrypt_ok (h64 : 64 < N / 2) {sp : List (Nat × BitVec 64)} (hK : N / 2 + sp.length ≤ N) (h31 : sp.length ≤ 31)
    (h32 : ∀ s ∈ sp, s.1 ≤ 32) {w : Weight N} {e ec : Nat} (he : e < 2 ^ 29) (hec : ec < 2 ^ 29) {acc : Bool} {idx : Nat}
    (hs : WShape sp w) (hg : GenOk S e w acc idx) (hidx : idx < 2 ^ 31) {bits : Nat → Nat → Bool} (hc : CtrOk S ec w bits)
    {mk : Nat → Bool} (hmk : ∀ i < sp.length, trlweSymDecryptAt w.general S.sk (N / 2 + i) = .ok (mk i)) :
    w.decrypt S.sk = .ok (acc, idx, lsbIndex ((List.range sp.length).map mk),
      (List.range sp.length).map fun i => BitVec.ofNat 64 (lsbIndex ((List.range (sp.getD i (0, 0)).1).map (bits i)))) := by
  have hN : 0 < N := by omega
  unfold Weight.decrypt
  have e1 : trlweSymDecryptAt w.general S.sk 0 = .ok acc := by
    unfold trlweSymDecryptAt
    rw [dif_pos hN, sign_eighth (hg.acc ⟨0, hN⟩ rfl) he]
  have e2 : orBits (fun i => trlweSymDecryptAt w.general S.sk (i + 1)) 64 = .ok idx := by
    refine orBits_ok (fun i hi => ?_) hidx (Nat.lt_of_lt_of_le hidx (Nat.pow_le_pow_right (by omega) (by omega)))
    unfold trlweSymDecryptAt
    rw [dif_pos (by omega), sign_eighth (hg.idx ⟨i + 1, by omega⟩ (Nat.succ_pos _) (by dsimp only; omega)) he]
    rfl
  have hl := lsbIndex_lt ((List.range sp.length).map mk)
  simp only [List.length_map, List.length_range] at hl
  have e3 : orBits (fun i => trlweSymDecryptAt w.general S.sk (N / 2 + i)) w.counter.length =
      .ok (lsbIndex ((List.range sp.length).map mk)) := by
    rw [hs.len]
    refine orBits_ok (fun i hi => ?_) (Nat.lt_of_lt_of_le hl (Nat.pow_le_pow_right (by omega) h31)) hl
    rw [hmk i hi, testBit_lsbIndex _ _ (by simpa using hi)]
    simp
  have e4 : w.counter.mapM (fun c => c.decrypt S.sk) =
      .ok ((List.range sp.length).map fun i => BitVec.ofNat 64 (lsbIndex ((List.range (sp.getD i (0, 0)).1).map (bits i)))) := by
    have key : ∀ (cs : List (Counter N)) (vs : List (BitVec 64)), List.Forall₂ (fun c v => c.decrypt S.sk = .ok v) cs vs →
        cs.mapM (fun c => c.decrypt S.sk) = .ok vs := by
      intro cs vs h
      induction h with
      | nil => rfl
      | cons h _ ih => rw [List.mapM_cons, h, Res.bind_ok, ih, Res.bind_ok]; rfl
    refine key _ _ (List.forall₂_iff_get.2 ⟨by simp [hs.len], ?_⟩)
    intro i h1 h2
    have hi : i < sp.length := by rw [← hs.len]; exact h1
    have hsi : sp[i]? = some sp[i] := List.getElem?_eq_getElem hi
    have hci : w.counter[i]? = some w.counter[i] := List.getElem?_eq_getElem h1
    obtain ⟨_, l2, _⟩ := hs.ctr i _ _ hci hsi
    have hd := Counter.decrypt_eq hN hec (CtrOk.bits hs hc hci hsi)
    have hlt := lsbIndex_lt ((List.range (sp[i]).1).map (bits i))
    simp only [List.length_map, List.length_range] at hlt
    have hle : (2 : Nat) ^ (sp[i]).1 ≤ 2 ^ 32 := Nat.pow_le_pow_right (by omega) (h32 _ (List.getElem_mem hi))
    rw [l2, if_pos (by omega)] at hd
    simp only [List.get_eq_getElem, List.getElem_map, List.getElem_range]
    rw [hd, List.getD_eq_getElem?_getD, hsi, Option.getD_some]
  rw [e1, Res.bind_ok, e2, Res.bind_ok, e3, Res.bind_ok, e4, Res.bind_ok]
  rfl

/-- what the dump of the runner prints, from the invariant -/
theorem BttInv.dump_ok {b : Btt} {G : Graph} {t : Nat} {r : BttRunner N l} {p : BttPlain} (hI : BttInv S δ W b G t r p)
    (hb : b.Fit) (hs : G.size = b.size) (hW : b.size ≤ 2 ^ W) (hW' : W < 31) (h64 : 64 < N / 2) (hK : N / 2 + b.counters.length ≤ N)
    (h31 : b.counters.length ≤ 31) (h32 : ∀ s ∈ b.counters, s.1 ≤ 32) (he : (b.counters.length + 1 + W) * δ.cmux < 2 ^ 29)
    (hec : δ.br < 2 ^ 29) {mk : Nat → Bool}
    (hmk : ∀ i < b.counters.length, trlweSymDecryptAt r.state.general S.sk (N / 2 + i) = .ok (mk i)) :
    ∃ vs, r.dump S.sk = .ok (bttDump p.accept p.cur (some (lsbIndex ((List.range b.counters.length).map mk))) vs) ∧
      vs.length = b.counters.length ∧ ∀ i s v, b.counters[i]? = some s → vs[i]? = some v →
        v < 2 ^ s.1 ∧ (v + p.counter.getD i 0) % 2 ^ s.1 = s.2.toNat := by
  obtain ⟨bits, hc, hv⟩ := hI.ctr
  have hlt : ∀ q ∈ r.live, q < G.size := by
    rw [hI.live]; exact Graph.levelSet_lt (by simp [hs, hb.size_pos]) _
  have hsort : SSorted r.live := by rw [hI.live]; exact Graph.sorted_levelSet (by simp) _
  have hidx := List.idxOf_lt_length_of_mem hI.cur
  have hlen : r.live.length ≤ b.size := by
    have := (List.subperm_of_subset hsort.nodup (fun q hq => List.mem_range.2 (hlt q hq) : r.live ⊆ List.range G.size)).length_le
    rwa [List.length_range, hs] at this
  have h31' : (2 : Nat) ^ W < 2 ^ 31 := Nat.pow_lt_pow_right (by omega) hW'
  unfold BttRunner.dump
  rw [Weight.decrypt_ok h64 hK h31 h32 he hec hI.shape hI.gen (by omega) hc hmk, Res.bind_ok]
  dsimp only
  rw [vat_lt hidx, List.getElem_idxOf, Res.bind_ok, dump_info]
  refine ⟨_, rfl, by simp, ?_⟩
  intro i s v hsi hvi
  have hi : i < b.counters.length := (List.getElem?_eq_some_iff.1 hsi).1
  have hlt := lsbIndex_lt ((List.range s.1).map (bits i))
  simp only [List.length_map, List.length_range] at hlt
  have hle : (2 : Nat) ^ s.1 ≤ 2 ^ 32 := Nat.pow_le_pow_right (by omega) (h32 _ (List.mem_of_getElem? hsi))
  rw [List.map_map, List.getElem?_map, List.getElem?_range hi, Option.map_some, Option.some_inj] at hvi
  subst hvi
  simp only [Function.comp]
  rw [List.getD_eq_getElem?_getD, hsi, Option.getD_some, BitVec.toNat_ofNat, Nat.mod_eq_of_lt (by omega)]
  exact ⟨hlt, hv i s hsi⟩

/-- a new runner has no marks -/
theorem bttMake_info {b : Btt} {r : BttRunner N l} {size : Nat} (h : BttRunner.make b size = .ok r) (h64 : 64 < N / 2) (sk : SecretKey N n)
    {i : Nat} (hi : N / 2 + i < N) : trlweSymDecryptAt r.state.general sk (N / 2 + i) = .ok false := by
  unfold BttRunner.make at h
  obtain ⟨G, _, h⟩ := Res.bind_eq_ok.1 h
  obtain ⟨w, hw, h⟩ := Res.bind_eq_ok.1 h
  cases h
  unfold Weight.make at hw
  obtain ⟨p, k1, _, _, _, k5⟩ := initGeneral_ok (N := N) 0 0#64 h64 (by omega)
  rw [k1, Res.bind_ok] at hw
  obtain ⟨cs, _, hw⟩ := Res.bind_eq_ok.1 hw
  cases hw
  unfold trlweSymDecryptAt
  rw [dif_pos hi]
  dsimp only
  rw [phase_trivial, k5 _ (by dsimp only; omega)]
  rfl

/-! ## The transition the plaintext runner takes -/

theorem Btt.Table.along_walk {b : Btt} (hb : b.Table) : ∀ (bs : List Bool) {q : Nat}, q < b.size → b.Along q bs (b.walk q bs) := by
  intro bs
  induction bs with
  | nil => intro q _; exact .nil
  | cons x bs ih =>
    intro q hq
    have h1 := Btt.Along.cons (hb.edge_mem hq x) (hb.edge_input hq x) (ih (hb.dst _ (hb.edge_mem hq x)))
    rw [hb.edge_src hq] at h1
    exact h1

theorem Btt.Table.edge_eq {b : Btt} (hb : b.Table) {e : BttEdge} (he : e ∈ b.delta) : e.src < b.size ∧ e = b.edge e.src e.input := by
  obtain ⟨h1, x, h2⟩ := hb.mem_edge he
  have h3 := hb.edge_input h1 x
  rw [← h2] at h3
  exact ⟨h1, by rw [h3]; exact h2⟩

theorem Btt.Table.walk_of_along {b : Btt} (hb : b.Table) {q q' : Nat} {bs : List Bool} (h : b.Along q bs q') : b.walk q bs = q' := by
  induction h with
  | nil => rfl
  | @cons e x bs q he hx _ ih =>
    subst hx
    unfold Btt.walk at ih ⊢
    rw [List.foldl_cons, ← (hb.edge_eq he).2]
    exact ih

theorem zipConds {cnt : List Nat} {sp : List (Nat × BitVec 64)} (h : cnt.length = sp.length) :
    List.zipWith (fun (y : Nat) (s : Nat × BitVec 64) => decide (y = s.2.toNat)) cnt sp = plainConds sp cnt := by
  unfold plainConds
  refine List.ext_getElem (by simp [h]) (fun i h1 h2 => ?_)
  have hi : i < sp.length := by simpa using h2
  simp only [List.getElem_zipWith, List.getElem_map, List.getElem_range, List.getD_eq_getElem?_getD]
  rw [List.getElem?_eq_getElem (by omega), List.getElem?_eq_getElem hi]
  rfl

theorem BttPlain.takes_iff {b : Btt} (hb : b.Table) {p : BttPlain} (hp : p.btt = b) (hc : p.cur < b.size)
    (hl : p.counter.length = b.counters.length) (x : Bool) (e : BttEdge) (hw : b.walk p.cur (plainConds b.counters p.counter) < b.size) :
    p.Takes x e ↔ e = b.edge (b.walk p.cur (plainConds b.counters p.counter)) x := by
  unfold BttPlain.Takes
  rw [hp, zipConds hl]
  constructor
  · rintro ⟨q, h1, h2, h3, h4⟩
    rw [hb.walk_of_along h1, ← h3, ← h4]
    exact (hb.edge_eq h2).2
  · rintro rfl
    exact ⟨_, hb.along_walk _ hc, hb.edge_mem hw x, hb.edge_src hw x, hb.edge_input hw x⟩

end Homfa
