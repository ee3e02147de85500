import Verif.Model.PlainTest
import Verif.Spec.Ltl
import Verif.Proof.LtlLang
/-!
# The oracle of the random test
-/

namespace Homfa.PlainTest
open Homfa.Spec

variable {M : Monitor} {n : Nat}

theorem checkGraph_eq (g : Graph) (src : List Bool) : checkGraph g src = g.accepts src := rfl

/-- the bits from `offset` on are the letter `a` -/
def At (src : List Bool) (offset : Nat) (a : List Bool) : Prop := ∀ i < a.length, src[offset + i]? = a[i]?

theorem condHolds_eval (hM : MonitorOk M n) {src a : List Bool} {offset : Nat} (ha : a.length = n) (hat : At src offset a) {val : Nat → Bool}
    (hv : ∀ i v, M.varOf i = some v → i < a.length → a[i]? = some (val v)) :
    ∀ {c : Bdd} {k : Nat}, OrderedBdd M.varOf n k c → condHolds (Ltl.var2idx M.varOf n) src offset c = .ok (bddEval val c)
  | .ff, _, _ => rfl
  | .tt, _, _ => rfl
  | .node v lo hi, k, h => by
    obtain ⟨i, hi1, _, hin, hlo, hhi⟩ := h
    have hl := (Ltl.var2idx_lookup hM.distinct (v := v) (i := i)).2 ⟨hin, hi1⟩
    have hb := hv i v hi1 (by omega)
    have hs := hat i (by omega)
    rw [condHolds, mapAt, hl]
    simp only [Res.bind_ok]
    rw [vat, hs, hb]
    simp only [Res.bind_ok]
    rw [bddEval]
    by_cases hvv : val v = true
    · rw [if_pos hvv, if_pos hvv]; exact condHolds_eval hM ha hat hv hhi
    · rw [if_neg hvv, if_neg hvv]; exact condHolds_eval hM ha hat hv hlo

theorem condHolds_spec (hM : MonitorOk M n) {src a : List Bool} {offset : Nat} (ha : a.length = n) (hat : At src offset a) {c : Bdd}
    (hc : OrderedBdd M.varOf n 0 c) :
    ∃ b, condHolds (Ltl.var2idx M.varOf n) src offset c = .ok b ∧ (b = true ↔ Satisfies M a c) := by
  let val : Nat → Bool := fun v => match (Ltl.var2idx M.varOf n).lookup v with
    | some i => a[i]?.getD false
    | none => false
  have hv : ∀ i v, M.varOf i = some v → i < a.length → a[i]? = some (val v) := by
    intro i v h1 h2
    have hl := (Ltl.var2idx_lookup hM.distinct (v := v) (i := i)).2 ⟨by omega, h1⟩
    simp only [val, hl]
    rw [List.getElem?_eq_getElem h2]; rfl
  refine ⟨_, condHolds_eval hM ha hat hv hc, fun h => ⟨val, hv, h⟩, ?_⟩
  rintro ⟨val', hv', he⟩
  have := condHolds_eval hM ha hat hv hc
  rw [condHolds_eval hM ha hat hv' hc] at this
  injection this with this
  rw [← this, he]

theorem edges_spec (hM : MonitorOk M n) {src a : List Bool} {offset : Nat} (ha : a.length = n) (hat : At src offset a) :
    ∀ (es : List (Bdd × Nat)) (acc : List Nat), (∀ e ∈ es, OrderedBdd M.varOf n 0 e.1) →
    ∃ r, es.foldlM (fun acc (e : Bdd × Nat) => do
        let b ← condHolds (Ltl.var2idx M.varOf n) src offset e.1
        pure (if b then sinsert e.2 acc else acc)) acc = (.ok r : Res (List Nat)) ∧
      ∀ q, q ∈ r ↔ q ∈ acc ∨ ∃ c, (c, q) ∈ es ∧ Satisfies M a c
  | [], acc, _ => ⟨acc, rfl, fun q => by simp⟩
  | e :: es, acc, h => by
    obtain ⟨b, hb, hs⟩ := condHolds_spec hM ha hat (h e List.mem_cons_self)
    obtain ⟨r, hr, hq⟩ := edges_spec hM ha hat es (if b then sinsert e.2 acc else acc) (fun x hx => h x (List.mem_cons_of_mem _ hx))
    refine ⟨r, ?_, fun q => ?_⟩
    · rw [List.foldlM_cons, hb, Res.bind_ok, Res.pure_eq, Res.bind_ok]; exact hr
    · rw [hq]
      have he : q ∈ (if b = true then sinsert e.2 acc else acc) ↔ q ∈ acc ∨ (q = e.2 ∧ Satisfies M a e.1) := by
        by_cases hbt : b = true
        · rw [if_pos hbt, mem_sinsert]; have := hs.1 hbt; tauto
        · rw [if_neg hbt]; have : ¬ Satisfies M a e.1 := fun hh => hbt (hs.2 hh)
          tauto
      rw [he]
      constructor
      · rintro ((h1 | ⟨rfl, h2⟩) | ⟨c, hc, h2⟩)
        · exact .inl h1
        · exact .inr ⟨e.1, List.mem_cons_self, h2⟩
        · exact .inr ⟨c, List.mem_cons_of_mem _ hc, h2⟩
      · rintro (h1 | ⟨c, hc, h2⟩)
        · exact .inl (.inl h1)
        · rcases List.mem_cons.1 hc with h3 | h3
          · subst h3; exact .inl (.inr ⟨rfl, h2⟩)
          · exact .inr ⟨c, h3, h2⟩

theorem nextQs_spec (hM : MonitorOk M n) {src a : List Bool} {offset : Nat} (ha : a.length = n) (hat : At src offset a) {qs : List Nat}
    (hqs : ∀ q ∈ qs, q < M.out.length) :
    ∃ r, nextQs M (Ltl.var2idx M.varOf n) src offset qs = .ok r ∧
      ∀ q, q ∈ r ↔ ∃ p ∈ qs, ∃ es c, M.out[p]? = some es ∧ (c, q) ∈ es ∧ Satisfies M a c := by
  have key : ∀ (qs acc : List Nat), (∀ q ∈ qs, q < M.out.length) →
      ∃ r, qs.foldlM (fun acc q =>
        match M.out[q]? with
        | none => .error .ub
        | some es => es.foldlM (fun acc (e : Bdd × Nat) => do
            let b ← condHolds (Ltl.var2idx M.varOf n) src offset e.1
            pure (if b then sinsert e.2 acc else acc)) acc) acc = (.ok r : Res (List Nat)) ∧
        ∀ q, q ∈ r ↔ q ∈ acc ∨ ∃ p ∈ qs, ∃ es c, M.out[p]? = some es ∧ (c, q) ∈ es ∧ Satisfies M a c := by
    intro qs
    induction qs with
    | nil => intro acc _; exact ⟨acc, rfl, fun q => by simp⟩
    | cons p qs ih =>
      intro acc h
      have hp := h p List.mem_cons_self
      have hes : M.out[p]? = some M.out[p] := List.getElem?_eq_getElem hp
      obtain ⟨r1, h1, hq1⟩ := edges_spec hM ha hat M.out[p] acc (hM.ordered _ (List.getElem_mem hp))
      obtain ⟨r, h2, hq2⟩ := ih r1 (fun q hq => h q (List.mem_cons_of_mem _ hq))
      refine ⟨r, ?_, fun q => ?_⟩
      · rw [List.foldlM_cons, hes]
        simp only [h1, Res.bind_ok]
        exact h2
      · rw [hq2, hq1]
        constructor
        · rintro ((h3 | ⟨c, hc, h4⟩) | ⟨p', hp', h4⟩)
          · exact .inl h3
          · exact .inr ⟨p, List.mem_cons_self, _, c, hes, hc, h4⟩
          · exact .inr ⟨p', List.mem_cons_of_mem _ hp', h4⟩
        · rintro (h3 | ⟨p', hp', es, c, h4, hc, h5⟩)
          · exact .inl (.inl h3)
          · rcases List.mem_cons.1 hp' with h6 | h6
            · subst h6
              rw [hes] at h4; injection h4 with h4; subst h4
              exact .inl (.inr ⟨c, hc, h5⟩)
            · exact .inr ⟨p', h6, es, c, h4, hc, h5⟩
  obtain ⟨r, h1, h2⟩ := key qs [] hqs
  exact ⟨r, h1, fun q => by rw [h2]; simp⟩

theorem at_flatten {pre as rest' : List (List Bool)} {tail a : List Bool} (hpre : ∀ x ∈ pre, x.length = n) (h : as = a :: rest') :
    At (pre.flatten ++ as.flatten ++ tail) (pre.length * n) a := by
  intro i hi
  subst h
  have hl : pre.flatten.length = pre.length * n := by
    rw [List.length_flatten, List.map_eq_replicate_iff.2 (fun x hx => hpre x hx), List.sum_replicate]; simp
  rw [List.flatten_cons, List.append_assoc, List.getElem?_append_right (by omega), List.append_assoc,
    List.getElem?_append_left (by omega)]
  congr 1; omega

theorem walk_spec (hM : MonitorOk M n) {tail : List Bool} :
    ∀ (as pre : List (List Bool)) (qs : List Nat) (src : List Bool), (∀ x ∈ pre, x.length = n) → (∀ x ∈ as, x.length = n) →
      (∀ q ∈ qs, q < M.out.length) → src = pre.flatten ++ as.flatten ++ tail →
      ∃ b, walk M (Ltl.var2idx M.varOf n) n src as.length pre.length qs = .ok b ∧
        (b = true ↔ ∃ p ∈ qs, ∃ r, MonitorRun M p as r)
  | [], pre, qs, src, _, _, _, _ => by
    refine ⟨_, rfl, ?_⟩
    cases qs with
    | nil => simp
    | cons q qs => simp; exact .inl ⟨q, .nil q⟩
  | a :: as, pre, qs, src, hpre, has, hqs, hsrc => by
    have ha := has a List.mem_cons_self
    have hat : At src (pre.length * n) a := by rw [hsrc]; exact at_flatten hpre rfl
    obtain ⟨r, hr, hm⟩ := nextQs_spec hM ha hat hqs
    have hrlt : ∀ q ∈ r, q < M.out.length := by
      intro q hq
      obtain ⟨p, _, es, c, h1, h2, _⟩ := (hm q).1 hq
      exact hM.dst_lt es (List.mem_of_getElem? h1) _ h2
    have hrun : (∃ p ∈ qs, ∃ r, MonitorRun M p (a :: as) r) ↔ ∃ p ∈ r, ∃ r, MonitorRun M p as r := by
      constructor
      · rintro ⟨p, hp, z, h⟩
        cases h with
        | cons h1 h2 h3 h4 => exact ⟨_, (hm _).2 ⟨p, hp, _, _, h1, h2, h3⟩, z, h4⟩
      · rintro ⟨q, hq, z, h⟩
        obtain ⟨p, hp, es, c, h1, h2, h3⟩ := (hm q).1 hq
        exact ⟨p, hp, z, .cons h1 h2 h3 h⟩
    obtain ⟨b, hb, hbi⟩ := walk_spec hM (tail := tail) as (pre ++ [a]) r src
      (fun x hx => by
        rcases List.mem_append.1 hx with h | h
        · exact hpre x h
        · rw [List.mem_singleton.1 h]; exact ha)
      (fun x hx => has x (List.mem_cons_of_mem _ hx)) hrlt (by rw [hsrc]; simp)
    rw [List.length_append] at hb
    rw [List.length_cons, walk, hr, Res.bind_ok]
    by_cases he : r.isEmpty = true
    · rw [if_pos he]
      refine ⟨false, rfl, ?_⟩
      rw [hrun, List.isEmpty_iff.1 he]; simp
    · rw [if_neg he]
      exact ⟨b, hb, hbi.trans hrun.symm⟩

/-- A word whose length is a multiple of `n` is a sequence of letters. -/
theorem exists_letters (n : Nat) : ∀ (k : Nat) (src : List Bool), n * k ≤ src.length →
    ∃ (as : List (List Bool)) (tail : List Bool), as.length = k ∧ (∀ a ∈ as, a.length = n) ∧ src = as.flatten ++ tail
  | 0, src, _ => ⟨[], src, rfl, by simp, by simp⟩
  | k + 1, src, h => by
    have h1 : n * (k + 1) = n * k + n := Nat.mul_succ n k
    obtain ⟨as, tail, hk, hl, hs⟩ := exists_letters n k (src.drop n) (by rw [List.length_drop]; omega)
    refine ⟨src.take n :: as, tail, by simp [hk], ?_, ?_⟩
    · intro a ha
      rcases List.mem_cons.1 ha with h2 | h2
      · rw [h2, List.length_take]; omega
      · exact hl a h2
    · rw [List.flatten_cons, List.append_assoc, ← hs, List.take_append_drop]

theorem checkMonitor_spec (hM : MonitorOk M n) (hn : 0 < n) {src : List Bool} {as : List (List Bool)} {tail : List Bool}
    (has : ∀ a ∈ as, a.length = n) (ht : tail.length < n) (hsrc : src = as.flatten ++ tail) :
    ∃ b, checkMonitor M src n = .ok b ∧ (b = true ↔ ∃ r, MonitorRun M M.init as r) := by
  have hl : as.flatten.length = as.length * n := by
    rw [List.length_flatten, List.map_eq_replicate_iff.2 (fun x hx => has x hx), List.sum_replicate]; simp
  have hk : src.length / n = as.length := by
    rw [hsrc, List.length_append, hl, Nat.add_comm, Nat.add_mul_div_right _ _ hn, Nat.div_eq_of_lt ht]; omega
  obtain ⟨b, hb, hbi⟩ := walk_spec hM (tail := tail) as [] [M.init] src (by simp) has (by simp; exact hM.init_lt) (by simpa using hsrc)
  refine ⟨b, ?_, by simpa using hbi⟩
  rw [checkMonitor, if_neg (by omega), hk]
  exact hb

/-- Two sequences of letters of `n > 0` bits with the same bits are equal. -/
theorem letters_unique (hn : 0 < n) : ∀ (as bs : List (List Bool)), (∀ a ∈ as, a.length = n) → (∀ a ∈ bs, a.length = n) →
    as.flatten = bs.flatten → as = bs
  | [], [], _, _, _ => rfl
  | [], b :: bs, _, hb, h => by
    have := congrArg List.length h
    have h2 := hb b List.mem_cons_self
    rw [List.flatten_cons, List.length_append] at this; simp only [List.flatten_nil, List.length_nil] at this; omega
  | a :: as, [], ha, _, h => by
    have := congrArg List.length h
    have h2 := ha a List.mem_cons_self
    rw [List.flatten_cons, List.length_append] at this; simp only [List.flatten_nil, List.length_nil] at this; omega
  | a :: as, b :: bs, ha, hb, h => by
    rw [List.flatten_cons, List.flatten_cons] at h
    obtain ⟨h1, h2⟩ := List.append_inj h ((ha a List.mem_cons_self).trans (hb b List.mem_cons_self).symm)
    rw [h1, letters_unique hn as bs (fun x hx => ha x (List.mem_cons_of_mem _ hx)) (fun x hx => hb x (List.mem_cons_of_mem _ hx)) h2]

theorem shlInt64_ok {b : Nat} (hb : b < 32) : ∃ m, shlInt64 b = .ok m := by
  rw [shlInt64, if_pos hb]; exact ⟨_, rfl⟩

theorem mapM_length {α β : Type} {f : α → Res β} : ∀ {l : List α} {r : List β}, l.mapM f = .ok r → r.length = l.length
  | [], r, h => by rw [List.mapM_nil, Res.pure_eq] at h; injection h with h; subst h; rfl
  | a :: l, r, h => by
    rw [List.mapM_cons] at h
    obtain ⟨x, _, h⟩ := Res.bind_eq_ok.1 h
    obtain ⟨y, hy, h⟩ := Res.bind_eq_ok.1 h
    rw [Res.pure_eq] at h; injection h with h; subst h
    simp [mapM_length hy]

theorem mapM_ok {α β : Type} {f : α → Res β} : ∀ {l : List α}, (∀ a ∈ l, ∃ b, f a = .ok b) → ∃ r, l.mapM f = .ok r
  | [], _ => ⟨[], rfl⟩
  | a :: l, h => by
    obtain ⟨b, hb⟩ := h a List.mem_cons_self
    obtain ⟨r, hr⟩ := mapM_ok (l := l) (fun x hx => h x (List.mem_cons_of_mem _ hx))
    exact ⟨b :: r, by rw [List.mapM_cons, hb, Res.bind_ok, hr, Res.bind_ok, Res.pure_eq]⟩

theorem mapM_mem {α β : Type} {f : α → Res β} : ∀ {l : List α} {r : List β}, l.mapM f = .ok r → ∀ y ∈ r, ∃ a ∈ l, f a = .ok y
  | [], r, h, y, hy => by rw [List.mapM_nil, Res.pure_eq] at h; injection h with h; subst h; simp at hy
  | a :: l, r, h, y, hy => by
    rw [List.mapM_cons] at h
    obtain ⟨x, hx, h⟩ := Res.bind_eq_ok.1 h
    obtain ⟨z, hz, h⟩ := Res.bind_eq_ok.1 h
    rw [Res.pure_eq] at h; injection h with h; subst h
    rcases List.mem_cons.1 hy with h1 | h1
    · subst h1; exact ⟨a, List.mem_cons_self, hx⟩
    · obtain ⟨a', h2, h3⟩ := mapM_mem hz y h1; exact ⟨a', List.mem_cons_of_mem _ h2, h3⟩

theorem mapM_error {α β : Type} {f : α → Res β} {e : Err} : ∀ {l : List α}, (∀ a ∈ l, (∃ b, f a = .ok b) ∨ f a = .error e) →
    (∃ a ∈ l, f a = .error e) → l.mapM f = .error e
  | [], _, h => by obtain ⟨a, h, _⟩ := h; simp at h
  | a :: l, h, hex => by
    rw [List.mapM_cons]
    rcases h a List.mem_cons_self with ⟨b, hb⟩ | he
    · rw [hb, Res.bind_ok, mapM_error (l := l) (fun x hx => h x (List.mem_cons_of_mem _ hx))]
      · rfl
      · obtain ⟨x, hx, hxe⟩ := hex
        rcases List.mem_cons.1 hx with h1 | h1
        · subst h1; rw [hb] at hxe; cases hxe
        · exact ⟨x, h1, hxe⟩
    · rw [he]; rfl

/-- The loop that rounds up to a multiple. -/
theorem roundUp_spec (hn : 0 < n) : ∀ (fuel s : Nat), (n - s % n) % n ≤ fuel →
    ∃ t, whileM (fun size : Nat => decide (size % n ≠ 0)) (fun size => .ok (size + 1)) fuel s = .ok t ∧ n ∣ t ∧ s ≤ t ∧ t < s + n
  | 0, s, h => by
    have hlt := Nat.mod_lt s hn
    have h0 : s % n = 0 := by
      by_contra hne
      rw [Nat.mod_eq_of_lt (by omega)] at h; omega
    refine ⟨s, ?_, Nat.dvd_of_mod_eq_zero h0, le_refl _, by omega⟩
    rw [whileM, if_neg (by simp [h0])]
  | fuel + 1, s, h => by
    have hlt := Nat.mod_lt s hn
    by_cases h0 : s % n = 0
    · refine ⟨s, ?_, Nat.dvd_of_mod_eq_zero h0, le_refl _, by omega⟩
      rw [whileM, if_neg (by simp [h0])]
    · have h1 : (s + 1) % n = if s % n + 1 = n then 0 else s % n + 1 := by
        rw [Nat.add_mod]
        by_cases h2 : s % n + 1 = n
        · rw [if_pos h2]
          by_cases h3 : n = 1
          · subst h3; simp [Nat.mod_one]
          · rw [Nat.mod_eq_of_lt (a := 1) (by omega), h2, Nat.mod_self]
        · rw [if_neg h2]
          rw [Nat.mod_eq_of_lt (a := 1) (by omega), Nat.mod_eq_of_lt (by omega)]
      rw [Nat.mod_eq_of_lt (by omega)] at h
      obtain ⟨t, ht, hd, h3, h4⟩ := roundUp_spec hn fuel (s + 1) (by
        rw [h1]
        by_cases h2 : s % n + 1 = n
        · rw [if_pos h2]; simp
        · rw [if_neg h2, Nat.mod_eq_of_lt (by omega)]; omega)
      have h5 : t ≠ s + n := by
        intro he
        subst he
        have := Nat.mod_eq_zero_of_dvd hd
        rw [Nat.add_mod_right] at this
        exact h0 this
      refine ⟨t, ?_, hd, by omega, by omega⟩
      rw [whileM, if_pos (by simp [h0])]
      exact ht

theorem int2bvec_ok (hn : 0 < n) (hn32 : n ≤ 32) {i : Nat} (hi : i ≤ 100) : ∃ w, int2bvec i n = .ok w ∧ n ∣ w.length := by
  have hlog : Nat.log2 i + 1 ≤ 7 := by
    by_cases h0 : i = 0
    · subst h0; simp
    · have := (Nat.log2_lt h0 (k := 7)).2 (by omega)
      omega
  obtain ⟨t, ht, hd, h1, h2⟩ := roundUp_spec hn n (Nat.log2 i + 1) (Nat.le_of_lt (Nat.mod_lt _ hn))
  have ht32 : t ≤ 32 := by
    obtain ⟨m, rfl⟩ := hd
    by_contra hgt
    have hm : 0 < m := by
      rcases Nat.eq_zero_or_pos m with h | h
      · subst h; omega
      · exact h
    by_cases hm1 : m = 1
    · subst hm1; omega
    · have : 2 ≤ m := by omega
      have : n * 2 ≤ n * m := Nat.mul_le_mul_left _ this
      omega
  obtain ⟨r, hr⟩ := mapM_ok (l := List.range t) (f := fun b => do
      let m ← shlInt64 b
      pure (decide (BitVec.ofNat 64 i &&& m ≠ 0#64))) (fun b hb => by
    obtain ⟨m, hm⟩ := shlInt64_ok (b := b) (by have := List.mem_range.1 hb; omega)
    exact ⟨_, by rw [hm, Res.bind_ok, Res.pure_eq]⟩)
  refine ⟨r, ?_, ?_⟩
  · rw [int2bvec, if_neg (by omega), ht, Res.bind_ok]; exact hr
  · have := mapM_length hr
    rw [List.length_range] at this
    rw [this]; exact hd

theorem int2bvec_ub (hn : 32 < n) (i : Nat) : int2bvec i n = .error .ub := by
  obtain ⟨t, ht, hd, h1, h2⟩ := roundUp_spec (n := n) (by omega) n (Nat.log2 i + 1) (Nat.le_of_lt (Nat.mod_lt _ (by omega)))
  have htn : n ≤ t := Nat.le_of_dvd (by omega) hd
  rw [int2bvec, if_neg (by omega), ht, Res.bind_ok]
  refine mapM_error (fun b _ => ?_) ⟨32, List.mem_range.2 (by omega), ?_⟩
  · by_cases hb : b < 32
    · obtain ⟨m, hm⟩ := shlInt64_ok hb
      exact .inl ⟨_, by rw [hm, Res.bind_ok, Res.pure_eq]⟩
    · right; rw [shlInt64, if_neg hb]; rfl
  · rfl

theorem randomBvec_ok (hn : 0 < n) (l : Nat) (bit : Nat → Bool) : ∃ w, randomBvec l bit n = .ok w ∧ n ∣ w.length := by
  refine ⟨_, by rw [randomBvec, if_neg (by omega)], ?_⟩
  rw [List.length_map, List.length_range]
  have h1 := Nat.mod_lt l hn
  have h2 := Nat.div_add_mod l n
  refine ⟨l / n + 1, ?_⟩
  rw [Nat.mul_add]; omega

end Homfa.PlainTest
