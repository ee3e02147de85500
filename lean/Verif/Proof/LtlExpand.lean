import Verif.Proof.LtlRev
/-!
# The expansion of one edge of a monitor into bit-level states

Every new state gets a ghost label `(k, b, d)`: it has read `k` bits of a letter, the diagram `b` over the remaining bits decides, and the
edge leads to the monitor state `d`.
-/

namespace Homfa.Ltl

/-- Indices (by the map `ix`) strictly increase along the paths of a diagram, start at `k` or later and end before `n`. -/
def Ord (ix : List (Nat × Nat)) (n : Nat) : Nat → Bdd → Prop
  | _, .ff => True
  | _, .tt => True
  | k, .node v lo hi => ∃ i, ix.lookup v = some i ∧ k ≤ i ∧ i < n ∧ Ord ix n (i + 1) lo ∧ Ord ix n (i + 1) hi

/-- Index of the top variable, `n` for constants. -/
def lvl (ix : List (Nat × Nat)) (n : Nat) : Bdd → Nat
  | .node v _ _ => (ix.lookup v).getD n
  | _ => n

/-- Some path leads to true. -/
def Sat : Bdd → Prop
  | .ff => False
  | .tt => True
  | .node _ lo hi => Sat lo ∨ Sat hi

/-- What remains of a diagram after the bit with index `k`. -/
def nxt (ix : List (Nat × Nat)) (k : Nat) (b : Bdd) (bit : Bool) : Bdd :=
  match b with
  | .node v lo hi => if ix.lookup v = some k then (if bit then hi else lo) else b
  | b => b

/-- The successors of a state on a bit. -/
def row (delta : NFADelta) (q : Nat) (bit : Bool) : List Nat :=
  match delta[q]? with
  | some t => if bit then t.2.2 else t.2.1
  | none => []

/-- `none` for the states of the monitor. -/
abbrev Lab := Option (Nat × Bdd × Nat)

/-- State `x` stands for the diagram `b` from index `k` on, with destination `d`. -/
def Rep (L : List Lab) (n d k : Nat) (b : Bdd) (x : Nat) : Prop :=
  (k = n ∧ b = .tt ∧ x = d) ∨ (k < n ∧ L[x]? = some (some (k, b, d)))

variable {ix : List (Nat × Nat)} {n d : Nat} {K : List Bdd} {D0 : NFADelta} {L0 : List Lab}

theorem prefix_get {α : Type} {l m : List α} (h : l <+: m) {i : Nat} {x : α} (hx : l[i]? = some x) : m[i]? = some x := by
  obtain ⟨t, rfl⟩ := h
  rw [List.getElem?_append_left (List.getElem?_eq_some_iff.1 hx).1]
  exact hx

theorem Rep.mono {L L' : List Lab} (h : L <+: L') {k x : Nat} {b : Bdd} (hr : Rep L n d k b x) : Rep L' n d k b x := by
  rcases hr with hr | ⟨h1, h2⟩
  · exact .inl hr
  · exact .inr ⟨h1, prefix_get h h2⟩

theorem Ord.mono {k k' : Nat} {b : Bdd} (h : Ord ix n k b) (hk : k' ≤ k) : Ord ix n k' b := by
  cases b with
  | ff => trivial
  | tt => trivial
  | node v lo hi =>
    obtain ⟨i, h1, h2, h3⟩ := h
    exact ⟨i, h1, by omega, h3⟩

theorem Ord.lvl_ge {k : Nat} {b : Bdd} (h : Ord ix n k b) (hk : k ≤ n) : k ≤ lvl ix n b := by
  cases b with
  | ff => exact hk
  | tt => exact hk
  | node v lo hi =>
    obtain ⟨i, h1, h2, h3⟩ := h
    simp [lvl, h1, h2]

theorem Ord.lvl_le {k : Nat} {b : Bdd} (h : Ord ix n k b) : lvl ix n b ≤ n := by
  cases b with
  | ff => exact Nat.le_refl _
  | tt => exact Nat.le_refl _
  | node v lo hi =>
    obtain ⟨i, h1, h2, h3, _⟩ := h
    simp only [lvl, h1, Option.getD_some]
    omega

theorem Ord.at_lvl {k : Nat} {b : Bdd} (h : Ord ix n k b) : Ord ix n (lvl ix n b) b := by
  cases b with
  | ff => trivial
  | tt => trivial
  | node v lo hi =>
    obtain ⟨i, h1, h2, h3⟩ := h
    exact ⟨i, h1, by simp [lvl, h1], h3⟩

theorem Ord.subs {k : Nat} {b c : Bdd} (h : Ord ix n k b) (hc : c ∈ b.subs) : Ord ix n k c := by
  induction b generalizing k with
  | ff => simp only [Bdd.subs, List.mem_singleton] at hc; subst hc; trivial
  | tt => simp only [Bdd.subs, List.mem_singleton] at hc; subst hc; trivial
  | node v lo hi ihl ihr =>
    simp only [Bdd.subs, List.mem_cons, List.mem_append] at hc
    rcases hc with hc | hc | hc
    · subst hc; exact h
    · obtain ⟨i, h1, h2, h3, h4, h5⟩ := h
      exact (ihl h4 hc).mono (by omega)
    · obtain ⟨i, h1, h2, h3, h4, h5⟩ := h
      exact (ihr h5 hc).mono (by omega)

theorem row_append_left {D E : NFADelta} {q : Nat} (h : q < D.length) (bit : Bool) : row (D ++ E) q bit = row D q bit := by
  unfold row
  rw [List.getElem?_append_left h]

theorem row_append_new {D : NFADelta} {t : Nat × List Nat × List Nat} (bit : Bool) :
    row (D ++ [t]) D.length bit = if bit then t.2.2 else t.2.1 := by
  unfold row
  simp

/-- Ghost invariant of the expansion of an edge to `d`.  `F r bit`: the edge of node number `r` for `bit` has been added. -/
structure Core (ix : List (Nat × Nat)) (n d : Nat) (K : List Bdd) (D0 : NFADelta) (L0 : List Lab) (F : Nat → Bool → Prop) (L : List Lab)
    (s : ExpSt) : Prop where
  pre : D0 <+: s.delta
  len : L.length = s.delta.length
  preL : L0 <+: L
  labs : ∀ q, D0.length ≤ q → q < L.length → ∃ k b, L[q]? = some (some (k, b, d)) ∧ k < n ∧ Sat b ∧ Ord ix n k b
  dom : ∀ r q, s.rst2st.lookup r = some q → D0.length ≤ q ∧ ∃ v lo hi k, K[r]? = some (.node v lo hi) ∧ ix.lookup v = some k ∧
    L[q]? = some (some (k, .node v lo hi, d))
  node : ∀ r q, s.rst2st.lookup r = some q → ∀ v lo hi k, K[r]? = some (.node v lo hi) → ix.lookup v = some k → ∀ bit : Bool,
    (F r bit → ∃ x, row s.delta q bit = [x] ∧ Rep L n d (k + 1) (if bit then hi else lo) x) ∧ (¬ F r bit → row s.delta q bit = [])
  chn : ∀ q k b, D0.length ≤ q → L[q]? = some (some (k, b, d)) → (∃ r, s.rst2st.lookup r = some q) ∨
    (k < lvl ix n b ∧ ∀ bit, ∃ x, row s.delta q bit = [x] ∧ Rep L n d (k + 1) b x)
  fdom : ∀ r bit, F r bit → ∃ q, s.rst2st.lookup r = some q

theorem Core.congr {F : Nat → Bool → Prop} {L : List Lab} {s t : ExpSt} (h : Core ix n d K D0 L0 F L s) (h1 : t.delta = s.delta)
    (h2 : t.rst2st = s.rst2st) {F' : Nat → Bool → Prop} (hF : ∀ r b, F' r b ↔ F r b) : Core ix n d K D0 L0 F' L t := by
  have : F' = F := by funext r b; exact propext (hF r b)
  subst this
  constructor
  · rw [h1]; exact h.pre
  · rw [h1]; exact h.len
  · exact h.preL
  · exact h.labs
  · rw [h2]; exact h.dom
  · rw [h2, h1]; exact h.node
  · rw [h2, h1]; exact h.chn
  · rw [h2]; exact h.fdom

theorem lt_of_get {α : Type} {l : List α} {i : Nat} {x : α} (h : l[i]? = some x) : i < l.length := (List.getElem?_eq_some_iff.1 h).1

/-- one turn of a chain loop -/
theorem Core.chain1 {F : Nat → Bool → Prop} {L : List Lab} {s : ExpSt} (h : Core ix n d K D0 L0 F L s) {k x : Nat} {b : Bdd}
    (hx : Rep L n d (k + 1) b x) (hk : k + 1 ≤ lvl ix n b) (hs : Sat b) (ho : Ord ix n (k + 1) b) :
    Core ix n d K D0 L0 F (L ++ [some (k, b, d)]) { s with delta := s.delta ++ [(s.delta.length, [x], [x])] } ∧
      Rep (L ++ [some (k, b, d)]) n d k b s.delta.length := by
  have hL : L <+: L ++ [some (k, b, d)] := List.prefix_append _ _
  have hkn : k < n := by have := ho.lvl_le; omega
  have hnew : (L ++ [some (k, b, d)])[s.delta.length]? = some (some (k, b, d)) := by rw [← h.len]; simp
  have split : ∀ q y, (L ++ [some (k, b, d)])[q]? = some y → (q < L.length ∧ L[q]? = some y) ∨ (q = s.delta.length ∧ y = some (k, b, d)) := by
    intro q y hq
    rcases Nat.lt_or_ge q L.length with hlt | hge
    · rw [List.getElem?_append_left hlt] at hq
      exact .inl ⟨hlt, hq⟩
    · have := lt_of_get hq
      simp only [List.length_append, List.length_cons, List.length_nil] at this
      have e : q = L.length := by omega
      subst e
      simp only [List.getElem?_concat_length, Option.some.injEq] at hq
      exact .inr ⟨h.len, hq.symm⟩
  refine ⟨⟨?_, ?_, ?_, ?_, ?_, ?_, ?_, h.fdom⟩, .inr ⟨hkn, hnew⟩⟩
  · exact h.pre.trans (List.prefix_append _ _)
  · simp [h.len]
  · exact h.preL.trans hL
  · intro q h1 h2
    rcases Nat.lt_or_ge q L.length with hlt | hge
    · obtain ⟨k', b', h3, h4⟩ := h.labs q h1 hlt
      exact ⟨k', b', prefix_get hL h3, h4⟩
    · simp only [List.length_append, List.length_cons, List.length_nil] at h2
      have e : q = L.length := by omega
      subst e
      exact ⟨k, b, by simp, hkn, hs, ho.mono (by omega)⟩
  · intro r q hr
    obtain ⟨h1, v, lo, hi, k', h2, h3, h4⟩ := h.dom r q hr
    exact ⟨h1, v, lo, hi, k', h2, h3, prefix_get hL h4⟩
  · intro r q hr v lo hi k' h1 h2 bit
    obtain ⟨_, _, _, _, _, _, _, hl⟩ := h.dom r q hr
    have hlt : q < s.delta.length := by rw [← h.len]; exact lt_of_get hl
    dsimp only
    rw [row_append_left hlt]
    obtain ⟨a1, a2⟩ := h.node r q hr v lo hi k' h1 h2 bit
    refine ⟨fun hF => ?_, a2⟩
    obtain ⟨y, hy1, hy2⟩ := a1 hF
    exact ⟨y, hy1, hy2.mono hL⟩
  · intro q k' b' h1 h2
    dsimp only
    rcases split q _ h2 with ⟨hlt, h3⟩ | ⟨e, h3⟩
    · rcases h.chn q k' b' h1 h3 with h4 | ⟨h4, h5⟩
      · exact .inl h4
      · refine .inr ⟨h4, fun bit => ?_⟩
        rw [row_append_left (by rw [← h.len]; exact hlt)]
        obtain ⟨y, hy1, hy2⟩ := h5 bit
        exact ⟨y, hy1, hy2.mono hL⟩
    · cases h3
      subst e
      refine .inr ⟨by omega, fun bit => ⟨x, ?_, hx.mono hL⟩⟩
      rw [row_append_new]
      cases bit <;> rfl

theorem Core.chain {F : Nat → Bool → Prop} {b : Bdd} (hs : Sat b) (m : Nat) : ∀ {L : List Lab} {s : ExpSt} {k x : Nat},
    Core ix n d K D0 L0 F L s → Rep L n d (k + m) b x → k + m ≤ lvl ix n b → Ord ix n (k + m) b →
    ∃ L', L <+: L' ∧ Core ix n d K D0 L0 F L' { s with delta := (chain s.delta x m).1 } ∧ Rep L' n d k b (chain s.delta x m).2 := by
  induction m with
  | zero => intro L s k x h hx _ _; exact ⟨L, List.prefix_refl _, h, hx⟩
  | succ m ih =>
    intro L s k x h hx hk ho
    obtain ⟨h1, h2⟩ := h.chain1 (k := k + m) hx hk hs ho
    obtain ⟨L', h3, h4, h5⟩ := ih (s := { s with delta := s.delta ++ [(s.delta.length, [x], [x])] }) h1 h2 (by omega) (ho.mono (by omega))
    exact ⟨L', (List.prefix_append _ _).trans h3, h4, h5⟩

theorem lookup_concat {l : List (Nat × Nat)} {r r' q : Nat} (hn : l.lookup r = none) :
    (l ++ [(r, q)]).lookup r' = if r' = r then some q else l.lookup r' := by
  rw [List.lookup_append]
  by_cases e : r' = r
  · subst e; simp [hn]
  · have : (r' == r) = false := by simpa using e
    simp [List.lookup_cons, this, e]

theorem Core.get {F : Nat → Bool → Prop} {L : List Lab} {s : ExpSt} (h : Core ix n d K D0 L0 F L s) {p v k : Nat} {lo hi : Bdd}
    (hp : K[p]? = some (.node v lo hi)) (hv : ix.lookup v = some k) (hk : k < n) (hs : Sat (.node v lo hi)) (ho : Ord ix n k (.node v lo hi)) :
    ∃ L', L <+: L' ∧ Core ix n d K D0 L0 F L' (expGet s p).2 ∧ (expGet s p).2.rst2st.lookup p = some (expGet s p).1 ∧
      (∀ r q, s.rst2st.lookup r = some q → (expGet s p).2.rst2st.lookup r = some q) ∧
      (expGet s p).2.visited = s.visited ∧ (expGet s p).2.que = s.que ∧ (expGet s p).2.srcAlt = s.srcAlt := by
  unfold expGet
  cases hl : s.rst2st.lookup p with
  | some q => exact ⟨L, List.prefix_refl _, h, hl, fun _ _ h => h, rfl, rfl, rfl⟩
  | none =>
    dsimp only
    have hL : L <+: L ++ [some (k, .node v lo hi, d)] := List.prefix_append _ _
    have hnew : (L ++ [some (k, Bdd.node v lo hi, d)])[s.delta.length]? = some (some (k, .node v lo hi, d)) := by rw [← h.len]; simp
    have hlk := fun r' => lookup_concat (l := s.rst2st) (r := p) (r' := r') (q := s.delta.length) hl
    have hm0 : D0.length ≤ s.delta.length := h.pre.length_le
    refine ⟨L ++ [some (k, .node v lo hi, d)], hL, ⟨?_, ?_, ?_, ?_, ?_, ?_, ?_, ?_⟩, ?_, ?_, rfl, rfl, rfl⟩
    · exact h.pre.trans (List.prefix_append _ _)
    · simp [h.len]
    · exact h.preL.trans hL
    · intro q h1 h2
      rcases Nat.lt_or_ge q L.length with hlt | hge
      · obtain ⟨k', b', h3, h4⟩ := h.labs q h1 hlt
        exact ⟨k', b', prefix_get hL h3, h4⟩
      · simp only [List.length_append, List.length_cons, List.length_nil] at h2
        have e : q = L.length := by omega
        subst e
        exact ⟨k, .node v lo hi, by simp, hk, hs, ho⟩
    · intro r q hr
      rw [hlk] at hr
      split at hr
      · rename_i e
        subst e
        cases hr
        exact ⟨hm0, v, lo, hi, k, hp, hv, hnew⟩
      · obtain ⟨h1, v', lo', hi', k', h2, h3, h4⟩ := h.dom r q hr
        exact ⟨h1, v', lo', hi', k', h2, h3, prefix_get hL h4⟩
    · intro r q hr v' lo' hi' k' h1 h2 bit
      rw [hlk] at hr
      split at hr
      · rename_i e
        subst e
        cases hr
        have hF : ¬ F r bit := by
          intro hF
          obtain ⟨q, hq⟩ := h.fdom r bit hF
          rw [hl] at hq
          cases hq
        refine ⟨fun h => absurd h hF, fun _ => ?_⟩
        rw [row_append_new]
        cases bit <;> rfl
      · obtain ⟨_, _, _, _, _, _, _, hl'⟩ := h.dom r q hr
        have hlt : q < s.delta.length := by rw [← h.len]; exact lt_of_get hl'
        rw [row_append_left hlt]
        obtain ⟨a1, a2⟩ := h.node r q hr v' lo' hi' k' h1 h2 bit
        refine ⟨fun hF => ?_, a2⟩
        obtain ⟨y, hy1, hy2⟩ := a1 hF
        exact ⟨y, hy1, hy2.mono hL⟩
    · intro q k' b' h1 h2
      rcases Nat.lt_or_ge q L.length with hlt | hge
      · rw [List.getElem?_append_left hlt] at h2
        rcases h.chn q k' b' h1 h2 with ⟨r, hr⟩ | ⟨h4, h5⟩
        · refine .inl ⟨r, ?_⟩
          rw [hlk, if_neg]
          · exact hr
          · rintro rfl
            rw [hl] at hr
            cases hr
        · refine .inr ⟨h4, fun bit => ?_⟩
          rw [row_append_left (by rw [← h.len]; exact hlt)]
          obtain ⟨y, hy1, hy2⟩ := h5 bit
          exact ⟨y, hy1, hy2.mono hL⟩
      · have := lt_of_get h2
        simp only [List.length_append, List.length_cons, List.length_nil] at this
        have e : q = L.length := by omega
        exact .inl ⟨p, by rw [hlk, if_pos rfl, e, h.len]⟩
    · intro r bit hF
      obtain ⟨q, hq⟩ := h.fdom r bit hF
      refine ⟨q, ?_⟩
      rw [hlk, if_neg]
      · exact hq
      · rintro rfl
        rw [hl] at hq
        cases hq
    · rw [hlk, if_pos rfl]
    · intro r q hr
      rw [hlk, if_neg]
      · exact hr
      · rintro rfl
        rw [hl] at hr
        cases hr

/-- the new row after `push_back` -/
theorem pushRow_ok {delta : NFADelta} {q : Nat} (hq : q < delta.length) (bit : Bool) (x : Nat) :
    ∃ delta', pushRow bit delta q x = .ok delta' ∧ delta'.length = delta.length ∧
      (∀ q' c, row delta' q' c = if q' = q ∧ c = bit then row delta q bit ++ [x] else row delta q' c) ∧
      (∀ D : NFADelta, D <+: delta → D.length ≤ q → D <+: delta') := by
  unfold pushRow
  rw [vat_lt hq, Res.bind_ok, vset_lt hq]
  refine ⟨_, rfl, by simp, ?_, ?_⟩
  · intro q' c
    unfold row
    rw [List.getElem?_set]
    by_cases e : q = q'
    · subst e
      simp only [hq, if_true, true_and, List.getElem?_eq_getElem hq]
      cases bit <;> cases c <;> simp
    · have e' : q' ≠ q := fun h => e h.symm
      simp [e, e']
  · intro D hD hl
    obtain ⟨t, rfl⟩ := hD
    rw [List.set_append_right _ _ hl]
    exact List.prefix_append _ _

theorem Core.push {F : Nat → Bool → Prop} {L : List Lab} {s : ExpSt} (hn : K.Nodup) (h : Core ix n d K D0 L0 F L s) {p q v k x : Nat} {lo hi : Bdd}
    {bit : Bool} (hp : K[p]? = some (.node v lo hi)) (hv : ix.lookup v = some k) (hq : s.rst2st.lookup p = some q) (hF : ¬ F p bit)
    (hx : Rep L n d (k + 1) (if bit then hi else lo) x) :
    ∃ delta', pushRow bit s.delta q x = .ok delta' ∧
      Core ix n d K D0 L0 (fun r c => F r c ∨ (r = p ∧ c = bit)) L { s with delta := delta' } := by
  obtain ⟨hm, v', lo', hi', k', h1, h2, h3⟩ := h.dom p q hq
  have hlt : q < s.delta.length := by rw [← h.len]; exact lt_of_get h3
  obtain ⟨delta', e1, e2, e3, e4⟩ := pushRow_ok hlt bit x
  have huniq : ∀ r, s.rst2st.lookup r = some q → r = p := by
    intro r hr
    obtain ⟨_, v'', lo'', hi'', k'', g1, g2, g3⟩ := h.dom r q hr
    rw [h3] at g3
    cases g3
    rw [← idxOf_of_getElem? hn g1, ← idxOf_of_getElem? hn h1]
  refine ⟨delta', e1, e4 _ h.pre hm, by rw [e2]; exact h.len, h.preL, h.labs, h.dom, ?_, ?_, ?_⟩
  · intro r q' hr v'' lo'' hi'' k'' g1 g2 c
    dsimp only
    rw [e3]
    obtain ⟨a1, a2⟩ := h.node r q' hr v'' lo'' hi'' k'' g1 g2 c
    by_cases e : q' = q ∧ c = bit
    · obtain ⟨rfl, rfl⟩ := e
      have := huniq r hr
      subst this
      rw [hp] at g1
      cases g1
      rw [hv] at g2
      cases g2
      rw [if_pos ⟨rfl, rfl⟩, a2 hF]
      exact ⟨fun _ => ⟨x, rfl, hx⟩, fun h => absurd (.inr ⟨rfl, rfl⟩) h⟩
    · rw [if_neg e]
      have hne : ¬ (r = p ∧ c = bit) := by
        rintro ⟨rfl, rfl⟩
        rw [hr] at hq
        cases hq
        exact e ⟨rfl, rfl⟩
      refine ⟨fun h => a1 (h.resolve_right hne), fun h => a2 (fun h' => h (.inl h'))⟩
  · intro q' k'' b g1 g2
    dsimp only
    by_cases e : q' = q
    · subst e; exact .inl ⟨p, hq⟩
    · rcases h.chn q' k'' b g1 g2 with g | ⟨g, g'⟩
      · exact .inl g
      · refine .inr ⟨g, fun c => ?_⟩
        rw [e3, if_neg (fun h => e h.1)]
        exact g' c
  · intro r c hF'
    rcases hF' with hF' | ⟨rfl, _⟩
    · exact h.fdom r c hF'
    · exact ⟨q, hq⟩

/-- An entry of the work list. -/
def Item (ix : List (Nat × Nat)) (n d : Nat) (K : List Bdd) (rst : List (Nat × Nat)) (it : Nat × Nat × Nat) : Prop :=
  ∃ b, K[it.1]? = some b ∧ Sat b ∧ it.2.1 = lvl ix n b ∧ ((b = .tt ∧ it.2.2 = d) ∨ rst.lookup it.1 = some it.2.2)

theorem Item.mono {rst rst' : List (Nat × Nat)} (h : ∀ r q : Nat, rst.lookup r = some q → rst'.lookup r = some q) {it : Nat × Nat × Nat}
    (hi : Item ix n d K rst it) : Item ix n d K rst' it := by
  obtain ⟨b, h1, h2, h3, h4⟩ := hi
  exact ⟨b, h1, h2, h3, h4.imp id (h _ _)⟩

theorem parentStep_spec {F : Nat → Bool → Prop} {L : List Lab} {s : ExpSt} {cond : Bdd} {r : RevSt} (hr : RevOk cond K r) (hord : Ord ix n 0 cond)
    (h : Core ix n d K D0 L0 F L s) (hque : ∀ it ∈ s.que, Item ix n d K s.rst2st it)
    {p v : Nat} {lo hi c : Bdd} {bit : Bool} (hp : K[p]? = some (.node v lo hi)) (hc : (if bit then hi else lo) = c)
    (hs : Sat c) {curQ : Nat} (hx : Rep L n d (lvl ix n c) c curQ) (hF : ¬ F p bit) :
    ∃ s' L', parentStep ix r.reversed (lvl ix n c) curQ bit s p = .ok s' ∧ L <+: L' ∧
      Core ix n d K D0 L0 (fun r c => F r c ∨ (r = p ∧ c = bit)) L' s' ∧ (∀ it ∈ s'.que, Item ix n d K s'.rst2st it) ∧
      (∀ r q : Nat, s.rst2st.lookup r = some q → s'.rst2st.lookup r = some q) ∧ s'.visited = s.visited ∧ s'.srcAlt = s.srcAlt ∧
      s'.que.map (·.1) = s.que.map (·.1) ++ [p] := by
  have hsub := hr.sub _ (List.mem_of_getElem? hp)
  have hnode := hord.subs hsub
  have hsat : Sat (.node v lo hi) := by
    cases bit
    · exact .inl (by rw [show lo = c by simpa using hc]; exact hs)
    · exact .inr (by rw [show hi = c by simpa using hc]; exact hs)
  obtain ⟨k, hv, _, hk, hl, hh⟩ := hnode
  have hoc : Ord ix n (k + 1) c := by
    subst hc
    cases bit
    · exact hl
    · exact hh
  have hlv := hoc.lvl_ge (by omega)
  obtain ⟨e, he, hb, _⟩ := hr.get p _ hp
  unfold parentStep
  have hmap : mapAt ix v = .ok k := by unfold mapAt; rw [hv]
  have hke : k + 1 + (lvl ix n c - (k + 1)) = lvl ix n c := by omega
  obtain ⟨L1, p1, c1, x1⟩ := Core.chain hs (lvl ix n c - (k + 1)) (k := k + 1) h (by rw [hke]; exact hx) (by omega) (by rw [hke]; exact hoc.at_lvl)
  obtain ⟨L2, p2, c2, g1, g2, g3, g4, g5⟩ := Core.get c1 hp hv hk hsat ⟨k, hv, Nat.le_refl _, hk, hl, hh⟩
  have hx2 := x1.mono p2
  rw [← hc] at hx2
  obtain ⟨delta', d1, d2⟩ := c2.push hr.nodup hp hv g1 hF hx2
  refine ⟨{ (expGet { s with delta := (Ltl.chain s.delta curQ (lvl ix n c - (k + 1))).1 } p).2 with
      delta := delta', que := s.que ++ [(p, k, (expGet { s with delta := (Ltl.chain s.delta curQ (lvl ix n c - (k + 1))).1 } p).1)] }, L2, ?_, p1.trans p2, ?_, ?_, ?_, g3, g5, ?_⟩
  · rw [vat_eq_ok.2 he, Res.bind_ok, hb]
    simp only [Res.bind_ok, hmap]
    rw [hc] at d1
    rw [d1, Res.bind_ok, Res.pure_eq, g4]
  · refine d2.congr ?_ ?_ (fun _ _ => Iff.rfl)
    · rfl
    · rfl
  · intro it hit
    rcases List.mem_append.1 hit with hit | hit
    · exact (hque it hit).mono g2
    · rw [List.mem_singleton.1 hit]
      exact ⟨_, hp, hsat, by simp [lvl, hv], .inr g1⟩
  · exact g2
  · simp

theorem parents_spec {F : Nat → Bool → Prop} {L : List Lab} {s : ExpSt} {cond : Bdd} {r : RevSt} (hr : RevOk cond K r) (hord : Ord ix n 0 cond)
    (h : Core ix n d K D0 L0 F L s) (hque : ∀ it ∈ s.que, Item ix n d K s.rst2st it) {c : Bdd} {bit : Bool} {ps : List Nat}
    (hnd : ps.Nodup) (hps : ∀ p ∈ ps, ∃ v lo hi, K[p]? = some (.node v lo hi) ∧ (if bit then hi else lo) = c)
    (hs : Sat c) {curQ : Nat} (hx : Rep L n d (lvl ix n c) c curQ) (hF : ∀ p ∈ ps, ¬ F p bit) :
    ∃ s' L', ps.foldlM (parentStep ix r.reversed (lvl ix n c) curQ bit) s = .ok s' ∧ L <+: L' ∧
      Core ix n d K D0 L0 (fun r c => F r c ∨ (r ∈ ps ∧ c = bit)) L' s' ∧ (∀ it ∈ s'.que, Item ix n d K s'.rst2st it) ∧
      (∀ r q : Nat, s.rst2st.lookup r = some q → s'.rst2st.lookup r = some q) ∧ s'.visited = s.visited ∧ s'.srcAlt = s.srcAlt ∧
      s'.que.map (·.1) = s.que.map (·.1) ++ ps := by
  obtain ⟨s', h1, L', h2⟩ := foldlM_inv (f := parentStep ix r.reversed (lvl ix n c) curQ bit) (fun pre (s' : ExpSt) => ∃ L', L <+: L' ∧
      Core ix n d K D0 L0 (fun r c => F r c ∨ (r ∈ pre ∧ c = bit)) L' s' ∧ (∀ it ∈ s'.que, Item ix n d K s'.rst2st it) ∧
      (∀ r q : Nat, s.rst2st.lookup r = some q → s'.rst2st.lookup r = some q) ∧ s'.visited = s.visited ∧ s'.srcAlt = s.srcAlt ∧
      s'.que.map (·.1) = s.que.map (·.1) ++ pre) ps (b := s)
    ⟨L, List.prefix_refl _, h.congr rfl rfl (by simp), hque, fun _ _ h => h, rfl, rfl, by simp⟩ (by
      rintro pre p post t he ⟨L1, a1, a2, a3, a4, a5, a6, a7⟩
      have hpm : p ∈ ps := by rw [he]; simp
      obtain ⟨v, lo, hi, hp, hc⟩ := hps p hpm
      have hnp : p ∉ pre := by
        rw [he] at hnd
        have := (List.nodup_append.1 hnd).2.2
        intro hpp
        exact this p hpp p (by simp) rfl
      obtain ⟨t', L2, b1, b2, b3, b4, b5, b6, b7, b8⟩ := parentStep_spec hr hord a2 a3 hp hc hs (hx.mono a1)
        (fun hf => hf.elim (hF p hpm) (fun h => hnp h.1))
      refine ⟨t', b1, L2, a1.trans b2, b3.congr rfl rfl ?_, b4, fun r q h => b5 _ _ (a4 _ _ h), b6.trans a5, b7.trans a6, ?_⟩
      · intro r' c'
        simp only [List.mem_append, List.mem_singleton]
        constructor
        · rintro (h | ⟨h | h, h'⟩)
          · exact .inl (.inl h)
          · exact .inl (.inr ⟨h, h'⟩)
          · exact .inr ⟨h, h'⟩
        · rintro ((h | h) | h)
          · exact .inl h
          · exact .inr ⟨.inl h.1, h.2⟩
          · exact .inr ⟨.inr h.1, h.2⟩
      · rw [b8, a7, List.append_assoc])
  exact ⟨s', L', h1, h2⟩

end Homfa.Ltl
