import Verif.Model.Ltl
import Verif.Proof.Nfa
/-!
# The reversal of a decision diagram (first half of the expansion of an LTL edge)
-/

namespace Homfa.Ltl

/-- Key/index map with keys `K`. -/
theorem lookup_zipIdx {κ : Type} [DecidableEq κ] {K : List κ} (hn : K.Nodup) {b : κ} {i : Nat} :
    (K.zipIdx).lookup b = some i ↔ K[i]? = some b := by
  suffices H : ∀ k, (K.zipIdx k).lookup b = some (k + i) ↔ K[i]? = some b by simpa using H 0
  intro k
  induction K generalizing k i with
  | nil => simp
  | cons T K ih =>
    rw [List.zipIdx_cons, List.lookup_cons]
    have hn' := List.nodup_cons.1 hn
    by_cases e : b = T
    · subst e
      simp only [beq_self_eq_true, Option.some.injEq]
      cases i with
      | zero => simp
      | succ i =>
        simp only [List.getElem?_cons_succ]
        constructor
        · intro h; omega
        · intro h; exact absurd (List.mem_of_getElem? h) hn'.1
    · have h1 : (b == T) = false := by simpa using e
      rw [h1]
      cases i with
      | zero =>
        simp only [List.getElem?_cons_zero, Option.some.injEq]
        constructor
        · intro h
          exfalso
          have : ∀ (k j : Nat) (L : List κ), (L.zipIdx k).lookup b = some j → k ≤ j := by
            intro k j L
            induction L generalizing k with
            | nil => simp
            | cons a L ihL =>
              rw [List.zipIdx_cons, List.lookup_cons]
              split
              · intro h; simp at h; omega
              · intro h; have := ihL _ h; omega
          have := this _ _ _ h
          omega
        · intro h; exact absurd h.symm e
      | succ i =>
        have := ih hn'.2 (k := k + 1) (i := i)
        rw [List.getElem?_cons_succ, ← this]
        rw [show k + 1 + i = k + (i + 1) by omega]

theorem lookup_zipIdx_eq_none {κ : Type} [DecidableEq κ] {K : List κ} (hn : K.Nodup) {b : κ} :
    (K.zipIdx).lookup b = none ↔ b ∉ K := by
  constructor
  · intro h hb
    obtain ⟨i, hi⟩ := List.mem_iff_getElem?.1 hb
    rw [← lookup_zipIdx hn, h] at hi
    cases hi
  · intro h
    cases hl : (K.zipIdx).lookup b with
    | none => rfl
    | some i => exact absurd (List.mem_of_getElem? ((lookup_zipIdx hn).1 hl)) h

/-- `u` is an inner node whose low (high, if `bit`) child is `b` -/
def par (bit : Bool) (b : Bdd) : Bdd → Bool
  | .node _ lo hi => decide ((if bit then hi else lo) = b)
  | _ => false

/-- the row of `b` in `reversed` when the nodes `V` have been visited and `K` are known -/
def rows (K V V' : List Bdd) (b : Bdd) : List Nat × List Nat × Bdd :=
  ((V.filter (par false b)).map (fun u => K.idxOf u), (V'.filter (par true b)).map (fun u => K.idxOf u), b)

/-- Known diagrams after a `get`. -/
def addK (K : List Bdd) (b : Bdd) : List Bdd := K ++ (if b ∈ K then [] else [b])

theorem mem_addK {K : List Bdd} {b c : Bdd} : c ∈ addK K b ↔ c ∈ K ∨ c = b := by
  unfold addK
  split
  · rename_i h
    simp only [List.append_nil]
    exact ⟨.inl, fun h' => h'.elim id (fun e => e ▸ h)⟩
  · simp

theorem nodup_addK {K : List Bdd} (h : K.Nodup) (b : Bdd) : (addK K b).Nodup := by
  unfold addK
  split
  · simpa using h
  · rename_i hb
    rw [List.nodup_append]
    refine ⟨h, by simp, ?_⟩
    intro a ha c hc
    simp only [List.mem_singleton] at hc
    subst hc
    rintro rfl
    exact hb ha

theorem addK_prefix (K : List Bdd) (b : Bdd) : K <+: addK K b := ⟨_, rfl⟩

theorem idxOf_addK {K : List Bdd} {b c : Bdd} (h : c ∈ K) : (addK K b).idxOf c = K.idxOf c := by
  unfold addK
  exact List.idxOf_append_of_mem h

theorem getElem?_idxOf' {K : List Bdd} {b : Bdd} (h : b ∈ K) : K[K.idxOf b]? = some b := by
  have := List.idxOf_lt_length_iff.2 h
  rw [List.getElem?_eq_getElem this]
  simp

theorem idxOf_of_getElem? {K : List Bdd} (hn : K.Nodup) {i : Nat} {b : Bdd} (h : K[i]? = some b) : K.idxOf b = i := by
  obtain ⟨hi, rfl⟩ := List.getElem?_eq_some_iff.1 h
  exact hn.idxOf_getElem i hi

/-- The invariant of the loop. -/
structure RInv (cond : Bdd) (K : List Bdd) (s : RevSt) : Prop where
  nodupK : K.Nodup
  first : K[0]? = some cond
  map : s.bdd2rst = K.zipIdx
  rev : s.reversed = K.map (rows K s.visited s.visited)
  nodupV : s.visited.Nodup
  visK : ∀ b ∈ s.visited, b ∈ K
  queK : ∀ b ∈ s.que, b ∈ K
  pend : ∀ b ∈ K, b ∈ s.visited ∨ b ∈ s.que
  sub : ∀ b ∈ K, b ∈ cond.subs
  child : ∀ v lo hi, Bdd.node v lo hi ∈ s.visited → lo ∈ K ∧ hi ∈ K
  parent : ∀ b ∈ K, b = cond ∨ ∃ v lo hi, Bdd.node v lo hi ∈ s.visited ∧ (b = lo ∨ b = hi)

theorem revGet_eq {s : RevSt} {K : List Bdd} (hn : K.Nodup) (hm : s.bdd2rst = K.zipIdx) (hl : s.reversed.length = K.length) (b : Bdd) :
    revGet s b = ((addK K b).idxOf b, { s with
      reversed := s.reversed ++ (if b ∈ K then [] else [([], [], b)]), bdd2rst := (addK K b).zipIdx }) := by
  unfold revGet
  cases h : s.bdd2rst.lookup b with
  | some i =>
    rw [hm, lookup_zipIdx hn] at h
    have hb := List.mem_of_getElem? h
    have hi := idxOf_of_getElem? hn h
    simp [addK, hb, hi, ← hm]
  | none =>
    rw [hm, lookup_zipIdx_eq_none hn] at h
    simp [addK, h, hm, hl, List.zipIdx_append, List.idxOf_append_of_notMem]

theorem pushEdge_map {α : Type} {K : List Bdd} (hn : K.Nodup) {x : Bdd} (hx : x ∈ K) {f g : Bdd → List Nat × List Nat × α} {bit : Bool}
    {q : Nat} (hg : g x = if bit then ((f x).1, (f x).2.1 ++ [q], (f x).2.2) else ((f x).1 ++ [q], (f x).2.1, (f x).2.2))
    (ho : ∀ b ∈ K, b ≠ x → g b = f b) : pushEdge bit (K.map f) (K.idxOf x) q = .ok (K.map g) := by
  have hlt := List.idxOf_lt_length_iff.2 hx
  unfold pushEdge
  rw [vat_lt (by simpa using hlt), Res.bind_ok, vset_lt (by simpa using hlt)]
  congr 1
  apply List.ext_getElem (by simp)
  intro i h1 h2
  rw [List.getElem_set]
  simp only [List.length_map] at h2
  split
  · rename_i e
    subst e
    simp only [List.getElem_map, List.getElem_idxOf]
    rw [hg]
  · rename_i e
    simp only [List.getElem_map]
    rw [ho _ (List.getElem_mem h2)]
    intro hc
    apply e
    rw [← hc]
    exact hn.idxOf_getElem i h2

theorem map_rows_addK {K V V' : List Bdd} {b : Bdd} (hV : ∀ u ∈ V, u ∈ K) (hV' : ∀ u ∈ V', u ∈ K)
    (hc : ∀ v lo hi, Bdd.node v lo hi ∈ V ∨ Bdd.node v lo hi ∈ V' → lo ∈ K ∧ hi ∈ K) :
    K.map (rows K V V') ++ (if b ∈ K then [] else [([], [], b)]) = (addK K b).map (rows (addK K b) V V') := by
  have e : ∀ c, rows (addK K b) V V' c = rows K V V' c := by
    intro c
    unfold rows
    congr 1
    · apply List.map_congr_left
      intro u hu
      exact idxOf_addK (hV u (List.mem_filter.1 hu).1)
    · congr 1
      apply List.map_congr_left
      intro u hu
      exact idxOf_addK (hV' u (List.mem_filter.1 hu).1)
  rw [List.map_congr_left (fun c _ => e c)]
  unfold addK
  rw [List.map_append]
  congr 1
  split
  · rfl
  · rename_i hb
    simp only [List.map_cons, List.map_nil]
    congr 1
    unfold rows
    have h0 : V.filter (par false b) = [] := by
      rw [List.filter_eq_nil_iff]
      intro u hu hp
      cases u with
      | ff => simp [par] at hp
      | tt => simp [par] at hp
      | node v lo hi =>
        simp only [par, Bool.false_eq_true, if_false, decide_eq_true_eq] at hp
        exact hb (hp ▸ (hc v lo hi (.inl hu)).1)
    have h1 : V'.filter (par true b) = [] := by
      rw [List.filter_eq_nil_iff]
      intro u hu hp
      cases u with
      | ff => simp [par] at hp
      | tt => simp [par] at hp
      | node v lo hi =>
        simp only [par, if_true, decide_eq_true_eq] at hp
        exact hb (hp ▸ (hc v lo hi (.inr hu)).2)
    rw [h0, h1]
    rfl

theorem mem_subs_self (b : Bdd) : b ∈ b.subs := by cases b <;> simp [Bdd.subs]

theorem subs_child {b : Bdd} {v : Nat} {lo hi : Bdd} (h : Bdd.node v lo hi ∈ b.subs) : lo ∈ b.subs ∧ hi ∈ b.subs := by
  induction b with
  | ff => simp [Bdd.subs] at h
  | tt => simp [Bdd.subs] at h
  | node w l r ihl ihr =>
    simp only [Bdd.subs, List.mem_cons, List.mem_append] at h ⊢
    rcases h with h | h | h
    · cases h
      exact ⟨.inr (.inl (mem_subs_self _)), .inr (.inr (mem_subs_self _))⟩
    · exact ⟨.inr (.inl (ihl h).1), .inr (.inl (ihl h).2)⟩
    · exact ⟨.inr (.inr (ihr h).1), .inr (.inr (ihr h).2)⟩

/-- the measure of the loop -/
def rmu (cond : Bdd) (s : RevSt) : Nat := s.que.length + 2 * (cond.subs.filter (fun b => !s.visited.contains b)).length

theorem filter_visit {L V : List Bdd} {b : Bdd} (hb : b ∈ L) (hv : b ∉ V) :
    (L.filter (fun c => !(V ++ [b]).contains c)).length + 1 ≤ (L.filter (fun c => !V.contains c)).length := by
  induction L with
  | nil => simp at hb
  | cons a L ih =>
    have mono : (L.filter (fun c => !(V ++ [b]).contains c)).length ≤ (L.filter (fun c => !V.contains c)).length := by
      rw [← List.countP_eq_length_filter, ← List.countP_eq_length_filter]
      apply List.countP_mono_left
      intro c _ h
      simp at h ⊢
      exact h.1
    by_cases e : a = b
    · subst e
      rw [List.filter_cons, List.filter_cons]
      simp only [List.contains_eq_mem, List.mem_append, List.mem_singleton, or_true, decide_true, Bool.not_true,
        Bool.false_eq_true, if_false, hv, decide_false, Bool.not_false, if_true, List.length_cons]
      simp only [List.contains_eq_mem, List.mem_append, List.mem_singleton] at mono
      omega
    · have hb' : b ∈ L := by
        rcases List.mem_cons.1 hb with h | h
        · exact absurd h.symm e
        · exact h
      have := ih hb'
      rw [List.filter_cons, List.filter_cons]
      by_cases hav : a ∈ V
      · simp [hav] at this ⊢
        exact this
      · simp [hav, e] at this ⊢
        exact this

theorem revNode_spec {cond : Bdd} {K : List Bdd} {s : RevSt} {rest : List Bdd} {v : Nat} {low high : Bdd} (hI : RInv cond K s)
    (hq : s.que = Bdd.node v low high :: rest) (hv : Bdd.node v low high ∉ s.visited) :
    ∃ K' s', revNode { s with que := rest, visited := s.visited ++ [Bdd.node v low high] } (Bdd.node v low high) low high = .ok s' ∧
      RInv cond K' s' ∧ s'.visited = s.visited ++ [Bdd.node v low high] ∧ s'.que = rest ++ [low, high] := by
  set u := Bdd.node v low high with hu
  have huK : u ∈ K := hI.queK u (by rw [hq]; simp)
  have hlen : s.reversed.length = K.length := by rw [hI.rev]; simp
  set K1 := addK K low with hK1
  set K2 := addK K1 high with hK2
  have hn1 : K1.Nodup := nodup_addK hI.nodupK _
  have hn2 : K2.Nodup := nodup_addK hn1 _
  have hmK1 : ∀ c, c ∈ K1 ↔ c ∈ K ∨ c = low := fun c => mem_addK
  have hmK2 : ∀ c, c ∈ K2 ↔ (c ∈ K ∨ c = low) ∨ c = high := fun c => by rw [hK2, mem_addK, hmK1]
  have hsub : ∀ c ∈ K, c ∈ K2 := fun c h => (hmK2 c).2 (.inl (.inl h))
  have hlow2 : low ∈ K2 := (hmK2 low).2 (.inl (.inr rfl))
  have hhigh2 : high ∈ K2 := (hmK2 high).2 (.inr rfl)
  set V := s.visited with hV
  unfold revNode
  have e1 : mapAt s.bdd2rst u = .ok (K.idxOf u) := by
    unfold mapAt
    rw [hI.map, (lookup_zipIdx hI.nodupK).2 (getElem?_idxOf' huK)]
  have hidx2 : ∀ c ∈ K, K2.idxOf c = K.idxOf c := fun c h => by
    rw [hK2, idxOf_addK ((hmK1 c).2 (.inl h)), hK1, idxOf_addK h]
  have r1 : s.reversed ++ (if low ∈ K then [] else [([], [], low)]) = K1.map (rows K1 V V) := by
    rw [hI.rev, map_rows_addK hI.visK hI.visK (fun v lo hi h => hI.child v lo hi (h.elim id id))]
  have r2 : K1.map (rows K1 V V) ++ (if high ∈ K1 then [] else [([], [], high)]) = K2.map (rows K2 V V) := by
    refine map_rows_addK (fun b hb => (hmK1 b).2 (.inl (hI.visK b hb))) (fun b hb => (hmK1 b).2 (.inl (hI.visK b hb))) ?_
    intro v lo hi h
    have := hI.child v lo hi (h.elim id id)
    exact ⟨(hmK1 _).2 (.inl this.1), (hmK1 _).2 (.inl this.2)⟩
  have hl2 : K2.idxOf low = K1.idxOf low := idxOf_addK ((hmK1 low).2 (.inr rfl))
  have p1 : pushEdge false (K2.map (rows K2 V V)) (K1.idxOf low) (K.idxOf u) = .ok (K2.map (rows K2 (V ++ [u]) V)) := by
    rw [← hl2]
    refine pushEdge_map hn2 hlow2 ?_ ?_
    · simp only [rows, List.filter_append, List.map_append, Bool.false_eq_true, if_false]
      congr 2
      have : par false low u = true := by simp [par, hu]
      simp [this, hidx2 u huK]
    · intro b _ hb
      have : par false b u = false := by simp [par, hu]; exact fun h => hb h.symm
      simp [rows, this]
  have p2 : pushEdge true (K2.map (rows K2 (V ++ [u]) V)) (K2.idxOf high) (K.idxOf u) = .ok (K2.map (rows K2 (V ++ [u]) (V ++ [u]))) := by
    refine pushEdge_map hn2 hhigh2 ?_ ?_
    · simp only [rows, List.filter_append, List.map_append, if_true]
      have : par true high u = true := by simp [par, hu]
      simp [List.filter_cons, this, hidx2 u huK]
    · intro b _ hb
      have : par true b u = false := by simp [par, hu]; exact fun h => hb h.symm
      simp [rows, this]
  have g0 := revGet_eq (s := { s with que := rest, visited := V ++ [u] }) hI.nodupK hI.map hlen low
  have g1 := revGet_eq (s := { s with que := rest, visited := V ++ [u], reversed := K1.map (rows K1 V V), bdd2rst := K1.zipIdx }) hn1 rfl
    (by simp) high
  simp only [r1, ← hK1] at g0
  simp only [r2, ← hK2] at g1
  refine ⟨K2, { reversed := K2.map (rows K2 (V ++ [u]) (V ++ [u])), bdd2rst := K2.zipIdx, que := rest ++ [low, high],
                visited := V ++ [u] }, ?_, ?_, rfl, rfl⟩
  · simp only [e1, Res.bind_ok, g0, g1, p1, p2, Res.pure_eq]
  · refine ⟨hn2, ?_, rfl, rfl, ?_, ?_, ?_, ?_, ?_, ?_, ?_⟩
    · have h := hI.first
      obtain ⟨t1, ht1⟩ := addK_prefix K low
      obtain ⟨t2, ht2⟩ := addK_prefix K1 high
      rw [hK2, ← ht2, hK1, ← ht1, List.append_assoc, List.getElem?_append_left (List.getElem?_eq_some_iff.1 h).1]
      exact h
    · rw [List.nodup_append]
      refine ⟨hI.nodupV, by simp, ?_⟩
      intro a ha c hc
      simp only [List.mem_singleton] at hc
      subst hc
      rintro rfl
      exact hv ha
    · intro b hb
      rcases List.mem_append.1 hb with h | h
      · exact hsub b (hI.visK b h)
      · rw [List.mem_singleton.1 h]; exact hsub u huK
    · intro b hb
      rcases List.mem_append.1 hb with h | h
      · exact hsub b (hI.queK b (by rw [hq]; exact List.mem_cons_of_mem _ h))
      · simp only [List.mem_cons, List.not_mem_nil, or_false] at h
        rcases h with h | h
        · rw [h]; exact hlow2
        · rw [h]; exact hhigh2
    · intro b hb
      simp only [List.mem_append, List.mem_cons, List.not_mem_nil, or_false]
      rcases (hmK2 b).1 hb with (h | h) | h
      · rcases hI.pend b h with h | h
        · exact .inl (.inl h)
        · rw [hq] at h
          rcases List.mem_cons.1 h with h | h
          · exact .inl (.inr h)
          · exact .inr (.inl h)
      · exact .inr (.inr (.inl h))
      · exact .inr (.inr (.inr h))
    · have huS := hI.sub u huK
      have := subs_child (v := v) (lo := low) (hi := high) huS
      intro b hb
      rcases (hmK2 b).1 hb with (h | h) | h
      · exact hI.sub b h
      · rw [h]; exact this.1
      · rw [h]; exact this.2
    · intro v' lo hi h
      rcases List.mem_append.1 h with h | h
      · have := hI.child v' lo hi h
        exact ⟨hsub _ this.1, hsub _ this.2⟩
      · have := List.mem_singleton.1 h
        rw [hu] at this
        cases this
        exact ⟨hlow2, hhigh2⟩
    · intro b hb
      rcases (hmK2 b).1 hb with (h | h) | h
      · rcases hI.parent b h with h | ⟨v', lo, hi, h, h'⟩
        · exact .inl h
        · exact .inr ⟨v', lo, hi, List.mem_append_left _ h, h'⟩
      · exact .inr ⟨v, low, high, List.mem_append_right _ (by simp [hu]), .inl h⟩
      · exact .inr ⟨v, low, high, List.mem_append_right _ (by simp [hu]), .inr h⟩

theorem revBody_spec {cond : Bdd} {s : RevSt} (hI : ∃ K, RInv cond K s) (hc : (!s.que.isEmpty) = true) :
    ∃ s', revBody s = .ok s' ∧ (∃ K, RInv cond K s') ∧ rmu cond s' < rmu cond s := by
  obtain ⟨K, hI⟩ := hI
  unfold revBody
  cases hq : s.que with
  | nil => simp [hq] at hc
  | cons node rest =>
    dsimp only
    have huK : node ∈ K := hI.queK node (by rw [hq]; simp)
    by_cases hv : s.visited.contains node = true
    · rw [if_pos hv]
      refine ⟨_, rfl, ⟨K, ?_⟩, ?_⟩
      · refine ⟨hI.nodupK, hI.first, hI.map, hI.rev, hI.nodupV, hI.visK, ?_, ?_, hI.sub, hI.child, hI.parent⟩
        · intro b hb; exact hI.queK b (by rw [hq]; exact List.mem_cons_of_mem _ hb)
        · intro b hb
          rcases hI.pend b hb with h | h
          · exact .inl h
          · rw [hq] at h
            rcases List.mem_cons.1 h with h | h
            · subst h; exact .inl (by simpa using hv)
            · exact .inr h
      · simp [rmu, hq]
    · rw [if_neg hv]
      have hv' : node ∉ s.visited := by simpa using hv
      have hmu := filter_visit (hI.sub node huK) hv'
      have leaf : (∀ v lo hi, node ≠ Bdd.node v lo hi) →
          (∃ K, RInv cond K { s with que := rest, visited := s.visited ++ [node] }) ∧
          rmu cond { s with que := rest, visited := s.visited ++ [node] } < rmu cond s := by
        intro hne
        have hp : ∀ bit b, par bit b node = false := by
          intro bit b
          cases node with
          | ff => rfl
          | tt => rfl
          | node v lo hi => exact absurd rfl (hne v lo hi)
        refine ⟨⟨K, hI.nodupK, hI.first, hI.map, ?_, ?_, ?_, ?_, ?_, hI.sub, ?_, ?_⟩, ?_⟩
        · rw [hI.rev]
          apply List.map_congr_left
          intro b _
          simp [rows, hp]
        · show (s.visited ++ [node]).Nodup
          rw [List.nodup_append]
          refine ⟨hI.nodupV, by simp, ?_⟩
          intro a ha c hc
          simp only [List.mem_singleton] at hc
          subst hc
          rintro rfl
          exact hv' ha
        · intro b hb
          rcases List.mem_append.1 hb with h | h
          · exact hI.visK b h
          · rw [List.mem_singleton.1 h]; exact huK
        · intro b hb; exact hI.queK b (by rw [hq]; exact List.mem_cons_of_mem _ hb)
        · intro b hb
          rcases hI.pend b hb with h | h
          · exact .inl (List.mem_append_left _ h)
          · rw [hq] at h
            rcases List.mem_cons.1 h with h | h
            · exact .inl (List.mem_append_right _ (by simp [h]))
            · exact .inr h
        · intro v lo hi h
          rcases List.mem_append.1 h with h | h
          · exact hI.child v lo hi h
          · exact absurd (List.mem_singleton.1 h).symm (hne v lo hi)
        · intro b hb
          rcases hI.parent b hb with h | ⟨v, lo, hi, h, h'⟩
          · exact .inl h
          · exact .inr ⟨v, lo, hi, List.mem_append_left _ h, h'⟩
        · simp only [rmu, hq, List.length_cons]
          omega
      cases node with
      | ff => exact ⟨_, rfl, leaf (by intros; simp)⟩
      | tt => exact ⟨_, rfl, leaf (by intros; simp)⟩
      | node v lo hi =>
        obtain ⟨K', s', h1, h2, h3, h4⟩ := revNode_spec hI hq hv'
        refine ⟨s', h1, ⟨K', h2⟩, ?_⟩
        simp only [rmu, h3, h4, hq, List.length_cons, List.length_append, List.length_nil]
        omega

/-- What the reversal returns: `K` lists the sub-diagrams in the order of their numbers. -/
structure RevOk (cond : Bdd) (K : List Bdd) (r : RevSt) : Prop where
  nodup : K.Nodup
  first : K[0]? = some cond
  map : r.bdd2rst = K.zipIdx
  len : r.reversed.length = K.length
  get : ∀ (i : Nat) (b : Bdd), K[i]? = some b → ∃ e, r.reversed[i]? = some e ∧ e.2.2 = b ∧ e.1.Nodup ∧ e.2.1.Nodup ∧
    (∀ j : Nat, j ∈ e.1 ↔ ∃ v hi, K[j]? = some (.node v b hi)) ∧ (∀ j : Nat, j ∈ e.2.1 ↔ ∃ v lo, K[j]? = some (.node v lo b))
  sub : ∀ b ∈ K, b ∈ cond.subs
  child : ∀ v lo hi, Bdd.node v lo hi ∈ K → lo ∈ K ∧ hi ∈ K
  parent : ∀ b ∈ K, b = cond ∨ ∃ v lo hi, Bdd.node v lo hi ∈ K ∧ (b = lo ∨ b = hi)

theorem nodup_map_idxOf {K l : List Bdd} (hl : l.Nodup) (hs : ∀ b ∈ l, b ∈ K) : (l.map (fun u => K.idxOf u)).Nodup := by
  rw [List.nodup_map_iff_inj_on hl]
  intro a ha b hb e
  exact (List.idxOf_inj (hs a ha)).1 e

theorem mem_map_idxOf {K V : List Bdd} (hn : K.Nodup) (hV : ∀ b, b ∈ V ↔ b ∈ K) {p : Bdd → Bool} {j : Nat} :
    j ∈ (V.filter p).map (fun u => K.idxOf u) ↔ ∃ u, K[j]? = some u ∧ p u = true := by
  rw [List.mem_map]
  constructor
  · rintro ⟨u, hu, rfl⟩
    have := List.mem_filter.1 hu
    exact ⟨u, getElem?_idxOf' ((hV u).1 this.1), this.2⟩
  · rintro ⟨u, h1, h2⟩
    exact ⟨u, List.mem_filter.2 ⟨(hV u).2 (List.mem_of_getElem? h1), h2⟩, idxOf_of_getElem? hn h1⟩

theorem revBdd_spec (cond : Bdd) : ∃ K r, revBdd cond = .ok r ∧ RevOk cond K r := by
  have h0 : RInv cond [cond] { reversed := [([], [], cond)], bdd2rst := [(cond, 0)], que := [cond], visited := [] } := by
    refine ⟨by simp, by simp, rfl, rfl, by simp, by simp, by simp, by simp, ?_, by simp, by simp⟩
    intro b hb
    rw [List.mem_singleton.1 hb]
    exact mem_subs_self _
  obtain ⟨s, h1, ⟨K, hI⟩, h3⟩ := whileM_inv (cond := fun s : RevSt => !s.que.isEmpty) (body := revBody) (fun s => ∃ K, RInv cond K s)
    (rmu cond) (fun s h c => revBody_spec h c) (fuel := 2 * cond.subs.length + 1) ⟨[cond], h0⟩ (by
      simp only [rmu]
      have := List.length_filter_le (fun b => !([] : List Bdd).contains b) cond.subs
      simp only [List.length_cons, List.length_nil]
      omega)
  have hq : s.que = [] := by simpa using h3
  have hV : ∀ b, b ∈ s.visited ↔ b ∈ K := by
    intro b
    refine ⟨hI.visK b, fun h => ?_⟩
    rcases hI.pend b h with h | h
    · exact h
    · rw [hq] at h; cases h
  refine ⟨K, s, h1, hI.nodupK, hI.first, hI.map, by rw [hI.rev]; simp, ?_, hI.sub, ?_, ?_⟩
  · intro i b hb
    refine ⟨rows K s.visited s.visited b, ?_, rfl, ?_, ?_, ?_, ?_⟩
    · rw [hI.rev, List.getElem?_map, hb]; rfl
    · exact nodup_map_idxOf (hI.nodupV.filter _) (fun b h => hI.visK b (List.mem_filter.1 h).1)
    · exact nodup_map_idxOf (hI.nodupV.filter _) (fun b h => hI.visK b (List.mem_filter.1 h).1)
    · intro j
      simp only [rows]
      rw [mem_map_idxOf hI.nodupK hV]
      constructor
      · rintro ⟨u, h1, h2⟩
        cases u with
        | ff => simp [par] at h2
        | tt => simp [par] at h2
        | node v lo hi =>
          simp only [par, Bool.false_eq_true, if_false, decide_eq_true_eq] at h2
          subst h2
          exact ⟨v, hi, h1⟩
      · rintro ⟨v, hi, h⟩
        exact ⟨_, h, by simp [par]⟩
    · intro j
      simp only [rows]
      rw [mem_map_idxOf hI.nodupK hV]
      constructor
      · rintro ⟨u, h1, h2⟩
        cases u with
        | ff => simp [par] at h2
        | tt => simp [par] at h2
        | node v lo hi =>
          simp only [par, if_true, decide_eq_true_eq] at h2
          subst h2
          exact ⟨v, lo, h1⟩
      · rintro ⟨v, lo, h⟩
        exact ⟨_, h, by simp [par]⟩
  · intro v lo hi h
    exact hI.child v lo hi ((hV _).2 h)
  · intro b hb
    rcases hI.parent b hb with h | ⟨v, lo, hi, h, h'⟩
    · exact .inl h
    · exact .inr ⟨v, lo, hi, (hV _).1 h, h'⟩

end Homfa.Ltl
