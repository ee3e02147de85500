import Verif.Model.KeyParts
import Verif.Props.Plan

/-! # The parts of the evaluation key -/

namespace Homfa

open Homfa.Comp

variable {N n l : Nat} {α β : Type}

/-- the parts serve the calls of this kind -/
def KeyParts.servesKind (K : KeyParts) : CallKind → Bool
  | .cmux => true
  | .keySwitch => K.has .iksk10
  | .blindRotate => K.has .bk01
  | .toTrlwe => K.tlwe2trlwe
  | .circuitBootstrapping => K.has .iksk10 && K.has .bk02 && K.has .privksk21

theorem serves_kind (K : KeyParts) (c : OpCall N n l) : K.serves c = K.servesKind c.kind := by cases c <;> rfl

/-- a key with these parts is enough, or a null pointer is followed -/
theorem runWith_eq (S : Scheme N n l) (K : KeyParts) (p : Comp N n l α) :
    p.runWith S K = if ∀ k ∈ p.kinds S, K.servesKind k = true then p.run S else .error .ub := by
  induction p with
  | ret r => simp [runWith, kinds, trace, run]
  | call c k ih =>
    have hk : (Comp.call c k).kinds S = c.kind :: (k (c.answer S)).kinds S := rfl
    rw [hk]
    show (if K.serves c then _ else _) = _
    rw [serves_kind, ih]
    simp only [List.forall_mem_cons]
    by_cases h : K.servesKind c.kind = true
    · simp [h, run]
    · simp [h]

theorem ret_bind_ok {x : Res α} {a : α} (h : x = .ok a) (f : α → Comp N n l β) : ((.ret x : Comp N n l α) >>= f) = f a := by subst h; rfl

theorem ret_bind_err {x : Res α} {e : Err} (h : x = .error e) (f : α → Comp N n l β) : ((.ret x : Comp N n l α) >>= f) = .ret (.error e) := by
  subst h; rfl

theorem doRunOfflineK_some {K : KeyParts} (h : K.ekey.isSome = true) : doRunOfflineK (N := N) (n := n) (l := l) K = doRunOfflineC := by
  unfold doRunOfflineK doRunOfflineC
  rw [h]

theorem doRunReverseK_some {K : KeyParts} (h : K.ekey.isSome = true) : doRunReverseK (N := N) (n := n) (l := l) K = doRunReverseC := by
  unfold doRunReverseK doRunReverseC
  rw [h]

theorem doRunBlockK_some {K : KeyParts} (h : K.ekey.isSome = true) : doRunBlockK (N := N) (n := n) (l := l) K = doRunBlockC := by
  unfold doRunBlockK doRunBlockC
  rw [h]
  rfl

theorem doRunFlutK_some {K : KeyParts} (h : K.ekey.isSome = true) (h' : K.tlwe2trlwe = true) :
    doRunFlutK (N := N) (n := n) (l := l) K = doRunFlutC := by
  unfold doRunFlutK doRunFlutC
  rw [h, h']
  rfl

/-- some state is reached by the words of each length -/
theorem Levels.pos {g : Graph} {D : Nat → List Nat} (hD : Levels g [g.initialState] D) (wf : g.WF) (j : Nat) : 0 < (D j).length := by
  obtain ⟨h1, -⟩ := wf.run_ok (q := g.initialState) wf.init_lt (List.replicate j false)
  exact List.length_pos_of_mem (((hD j).2 _).2 ⟨g.initialState, by simp, List.replicate j false, by simp, h1⟩)

theorem serves_stream {K : KeyParts} {boot len : Nat} {gates : Nat → Nat} (hb : 0 < boot) (hg : ∀ i < len, 0 < gates i) :
    (∀ k ∈ streamCalls boot gates len, K.servesKind k = true) ↔ len < boot ∨ (K.has .iksk10 = true ∧ K.has .bk01 = true) := by
  unfold streamCalls
  constructor
  · intro h
    by_cases hlt : len < boot
    · exact .inl hlt
    · have hk : ∀ k ∈ ([.keySwitch, .blindRotate] : List CallKind), K.servesKind k = true := by
        intro k hk
        refine h k (List.mem_flatMap.2 ⟨boot - 1, List.mem_range.2 (by omega), List.mem_append_right _ ?_⟩)
        rw [if_pos (by rw [Nat.sub_add_cancel hb, Nat.mod_self])]
        exact List.mem_flatten.2 ⟨_, List.mem_replicate.2 ⟨by have := hg (boot - 1) (by omega); omega, rfl⟩, hk⟩
      exact .inr ⟨hk .keySwitch (by simp), hk .blindRotate (by simp)⟩
  · rintro h k hk
    obtain ⟨i, hi, hk⟩ := List.mem_flatMap.1 hk
    rw [List.mem_range] at hi
    rcases List.mem_append.1 hk with hk | hk
    · rw [(List.mem_replicate.1 hk).2]; rfl
    · split at hk
      · next hm =>
        have hle : boot ≤ i + 1 := Nat.le_of_dvd (by omega) (Nat.dvd_of_mod_eq_zero hm)
        obtain ⟨h1, h2⟩ := h.resolve_left (by omega)
        obtain ⟨x, hx, hk⟩ := List.mem_flatten.1 hk
        rw [(List.mem_replicate.1 hx).2] at hk
        simp only [List.mem_cons, List.not_mem_nil, or_false] at hk
        rcases hk with rfl | rfl
        · exact h1
        · exact h2
      · cases hk

theorem blocks_lt {q len b : Nat} (hq : 0 < q) : b < (len + q - 1) / q ↔ b * q < len := by
  rw [Nat.lt_iff_add_one_le, Nat.le_div_iff_mul_le hq, Nat.add_mul]
  omega

theorem serves_block {K : KeyParts} {q len : Nat} {live : Nat → Nat} (hq : 0 < q) :
    (∀ k ∈ inBlocks q len (fun _ s k => blockCalls live s k), K.servesKind k = true) ↔
      (∀ b, b * q < len → live (b * q) = 1) ∨ (K.has .iksk10 = true ∧ K.has .bk02 = true ∧ K.has .privksk21 = true) := by
  unfold inBlocks blockCalls
  constructor
  · intro h
    by_cases hone : ∀ b, b * q < len → live (b * q) = 1
    · exact .inl hone
    · simp only [not_forall] at hone
      obtain ⟨b, hb, hne⟩ := hone
      have : K.servesKind .circuitBootstrapping = true := by
        refine h _ (List.mem_flatMap.2 ⟨b, List.mem_range.2 ((blocks_lt hq).2 hb), List.mem_append_right _ ?_⟩)
        rw [if_neg hne]
        exact List.mem_append_left _ (List.mem_replicate.2 ⟨by omega, rfl⟩)
      right
      simpa [KeyParts.servesKind, and_assoc] using this
  · intro h k hk
    obtain ⟨b, hb, hk⟩ := List.mem_flatMap.1 hk
    rw [List.mem_range, blocks_lt hq] at hb
    rcases List.mem_append.1 hk with hk | hk
    · rw [(List.mem_replicate.1 hk).2]; rfl
    · split at hk
      · cases hk
      · next hne =>
        obtain ⟨h1, h2, h3⟩ := h.resolve_left fun h => hne (h b hb)
        rcases List.mem_append.1 hk with hk | hk
        · rw [(List.mem_replicate.1 hk).2]; simp [KeyParts.servesKind, h1, h2, h3]
        · rw [(List.mem_replicate.1 hk).2]; rfl

theorem serves_flut {K : KeyParts} {q len boot maxSecond : Nat} {live : Nat → Nat} (hq : 0 < q) (hb : 0 < boot) (hK : K.tlwe2trlwe = true)
    (hl : ∀ j, 0 < live j) :
    (∀ k ∈ inBlocks q len (fun b s k => flutCalls live maxSecond boot b s k), K.servesKind k = true) ↔
      len ≤ (boot - 1) * q ∨ (K.has .iksk10 = true ∧ K.has .bk01 = true) := by
  unfold inBlocks flutCalls
  constructor
  · intro h
    by_cases hle : len ≤ (boot - 1) * q
    · exact .inl hle
    · have hk : ∀ k ∈ ([.keySwitch, .blindRotate, .toTrlwe] : List CallKind), K.servesKind k = true := by
        intro k hk
        refine h k (List.mem_flatMap.2 ⟨boot - 1, List.mem_range.2 ((blocks_lt hq).2 (by omega)), List.mem_append_right _ ?_⟩)
        rw [if_pos (by rw [Nat.sub_add_cancel hb, Nat.mod_self])]
        exact List.mem_flatten.2 ⟨_, List.mem_replicate.2 ⟨by have := hl ((boot - 1) * q + min q (len - (boot - 1) * q)); omega, rfl⟩, hk⟩
      exact .inr ⟨hk .keySwitch (by simp), hk .blindRotate (by simp)⟩
  · intro h k hk
    obtain ⟨b, hlt, hk⟩ := List.mem_flatMap.1 hk
    rw [List.mem_range, blocks_lt hq] at hlt
    rcases List.mem_append.1 hk with hk | hk
    · rcases List.mem_append.1 hk with hk | hk <;> (rw [(List.mem_replicate.1 hk).2]; rfl)
    · obtain ⟨x, hx, hk⟩ := List.mem_flatten.1 hk
      rw [(List.mem_replicate.1 hx).2] at hk
      split at hk
      · next hm =>
        have hle : boot ≤ b + 1 := Nat.le_of_dvd (by omega) (Nat.dvd_of_mod_eq_zero hm)
        have hmul : (boot - 1) * q ≤ b * q := Nat.mul_le_mul_right _ (by omega)
        obtain ⟨h1, h2⟩ := h.resolve_left (by omega)
        simp only [List.mem_cons, List.not_mem_nil, or_false] at hk
        rcases hk with rfl | rfl | rfl
        · exact h1
        · exact h2
        · exact hK
      · simp only [List.mem_cons, List.not_mem_nil, or_false] at hk
        subst hk
        exact hK

end Homfa
