import Verif.Proof.LtlLang
/-!
# Conditions the construction refuses
-/

namespace Homfa.Ltl
open Spec

variable {ix : List (Nat × Nat)} {n d : Nat} {K : List Bdd} {cond : Bdd}

theorem parentStep_que {rev : List (List Nat × List Nat × Bdd)} {curVarIdx curQ : Nat} {bit : Bool} {s s' : ExpSt} {p : Nat}
    (h : parentStep ix rev curVarIdx curQ bit s p = .ok s') :
    s'.visited = s.visited ∧ (∃ idx q, s'.que = s.que ++ [(p, idx, q)]) ∧
      ∃ e v lo hi idx, rev[p]? = some e ∧ e.2.2 = .node v lo hi ∧ ix.lookup v = some idx := by
  unfold parentStep at h
  obtain ⟨e, h1, h⟩ := Res.bind_eq_ok.1 h
  obtain ⟨v, h2, h⟩ := Res.bind_eq_ok.1 h
  obtain ⟨idx, h3, h⟩ := Res.bind_eq_ok.1 h
  dsimp only at h
  obtain ⟨D, h4, h⟩ := Res.bind_eq_ok.1 h
  rw [Res.pure_eq] at h
  cases h
  have hg : ∀ s : ExpSt, (expGet s p).2.visited = s.visited ∧ (expGet s p).2.que = s.que := by
    intro s
    unfold expGet
    cases s.rst2st.lookup p <;> exact ⟨rfl, rfl⟩
  refine ⟨(hg _).1, ⟨idx, _, by dsimp only; rw [(hg _).2]⟩, ?_⟩
  have h1 := vat_eq_ok.1 h1
  cases hb : e.2.2 with
  | ff => rw [hb] at h2; cases h2
  | tt => rw [hb] at h2; cases h2
  | node u lo hi =>
    rw [hb] at h2
    cases h2
    refine ⟨e, v, lo, hi, idx, h1, hb, ?_⟩
    unfold mapAt at h3
    cases hl : ix.lookup v with
    | none => rw [hl] at h3; cases h3
    | some i => rw [hl] at h3; cases h3; rfl

theorem parents_que {rev : List (List Nat × List Nat × Bdd)} {curVarIdx curQ : Nat} {bit : Bool} {s s' : ExpSt} {l : List Nat}
    (h : l.foldlM (parentStep ix rev curVarIdx curQ bit) s = .ok s') :
    s'.visited = s.visited ∧ (∀ x ∈ s.que, x ∈ s'.que) ∧ ∀ p ∈ l, (∃ idx q, (p, idx, q) ∈ s'.que) ∧
      ∃ e v lo hi idx, rev[p]? = some e ∧ e.2.2 = .node v lo hi ∧ ix.lookup v = some idx := by
  induction l generalizing s with
  | nil => cases h; exact ⟨rfl, fun _ h => h, by simp⟩
  | cons p l ih =>
    rw [List.foldlM_cons] at h
    obtain ⟨s1, h1, h⟩ := Res.bind_eq_ok.1 h
    obtain ⟨a1, ⟨idx, q, a2⟩, a3⟩ := parentStep_que h1
    obtain ⟨b1, b2, b3⟩ := ih h
    refine ⟨b1.trans a1, fun x hx => b2 x (by rw [a2]; exact List.mem_append_left _ hx), ?_⟩
    intro p' hp'
    rcases List.mem_cons.1 hp' with rfl | hp'
    · exact ⟨⟨idx, q, b2 _ (by rw [a2]; simp)⟩, a3⟩
    · exact b3 p' hp'

/-- What a finished expansion of an edge has looked up. -/
structure QInv (ix : List (Nat × Nat)) (K : List Bdd) (t : Nat) (s : ExpSt) : Prop where
  tt : t ∈ s.visited ∨ ∃ k q, (t, k, q) ∈ s.que
  clo : ∀ c ∈ s.visited, ∀ p v lo hi, K[p]? = some (Bdd.node v lo hi) → (K[c]? = some lo ∨ K[c]? = some hi) →
    (∃ i, ix.lookup v = some i) ∧ (p ∈ s.visited ∨ ∃ k q, (p, k, q) ∈ s.que)

theorem expBody_q {r : RevSt} (hr : RevOk cond K r) {t : Nat} {s s' : ExpSt} (hI : QInv ix K t s)
    (h : expBody ix r.reversed s = .ok s') : QInv ix K t s' := by
  unfold expBody at h
  cases hq : s.que with
  | nil => rw [hq] at h; cases h; exact hI
  | cons it rest =>
    obtain ⟨c, k, q⟩ := it
    rw [hq] at h
    dsimp only at h
    split at h
    · rename_i hv
      cases h
      have hv : c ∈ s.visited := by simpa using hv
      refine ⟨?_, ?_⟩
      · rcases hI.tt with h | ⟨k', q', h⟩
        · exact .inl h
        · rw [hq] at h
          rcases List.mem_cons.1 h with h | h
          · cases h; exact .inl hv
          · exact .inr ⟨k', q', h⟩
      · intro c' hc' p v lo hi h1 h2
        obtain ⟨h3, h4⟩ := hI.clo c' hc' p v lo hi h1 h2
        refine ⟨h3, ?_⟩
        rcases h4 with h | ⟨k', q', h⟩
        · exact .inl h
        · rw [hq] at h
          rcases List.mem_cons.1 h with h | h
          · cases h; exact .inl hv
          · exact .inr ⟨k', q', h⟩
    · -- a new node
      have main : s'.visited = s.visited ++ [c] ∧ (∀ x ∈ rest, x ∈ s'.que) ∧ ∃ e, r.reversed[c]? = some e ∧
          ∀ p, p ∈ e.1 ∨ p ∈ e.2.1 → (∃ idx q, (p, idx, q) ∈ s'.que) ∧
            ∃ e v lo hi idx, r.reversed[p]? = some e ∧ e.2.2 = .node v lo hi ∧ ix.lookup v = some idx := by
        unfold expNode at h
        obtain ⟨e, h1, h⟩ := Res.bind_eq_ok.1 h
        have h1 := vat_eq_ok.1 h1
        have hnone : (e.1.isEmpty && e.2.1.isEmpty) = true → ∀ p, ¬ (p ∈ e.1 ∨ p ∈ e.2.1) := by
          intro he p
          rw [Bool.and_eq_true, List.isEmpty_iff, List.isEmpty_iff] at he
          rw [he.1, he.2]
          simp
        split at h
        · obtain ⟨_, ha, h⟩ := Res.bind_eq_ok.1 h
          cases h
          refine ⟨rfl, fun x hx => hx, e, h1, fun p hp => absurd hp (hnone ?_ p)⟩
          cases hb : (e.1.isEmpty && e.2.1.isEmpty) with
          | true => rfl
          | false => rw [hb] at ha; cases ha
        · split at h
          · rename_i hb
            obtain ⟨_, ha, h⟩ := Res.bind_eq_ok.1 h
            cases h
            exact ⟨rfl, fun x hx => hx, e, h1, fun p hp => absurd hp (hnone hb p)⟩
          · obtain ⟨s1, g1, g2⟩ := Res.bind_eq_ok.1 h
            obtain ⟨a1, a2, a3⟩ := parents_que g1
            obtain ⟨b1, b2, b3⟩ := parents_que g2
            refine ⟨b1.trans a1, fun x hx => b2 x (a2 x hx), e, h1, ?_⟩
            rintro p (hp | hp)
            · obtain ⟨⟨idx, q', x1⟩, x2⟩ := a3 p hp
              exact ⟨⟨idx, q', b2 _ x1⟩, x2⟩
            · exact b3 p hp
      obtain ⟨m1, m2, e, m3, m4⟩ := main
      have hkeep : ∀ p, (p ∈ s.visited ∨ ∃ k q, (p, k, q) ∈ s.que) → (p ∈ s'.visited ∨ ∃ k q, (p, k, q) ∈ s'.que) := by
        rintro p (h | ⟨k', q', h⟩)
        · exact .inl (by rw [m1]; exact List.mem_append_left _ h)
        · rw [hq] at h
          rcases List.mem_cons.1 h with h | h
          · cases h; exact .inl (by rw [m1]; simp)
          · exact .inr ⟨k', q', m2 _ h⟩
      refine ⟨hkeep t hI.tt, ?_⟩
      intro c' hc' p v lo hi h1 h2
      rw [m1] at hc'
      rcases List.mem_append.1 hc' with hc' | hc'
      · obtain ⟨h3, h4⟩ := hI.clo c' hc' p v lo hi h1 h2
        exact ⟨h3, hkeep p h4⟩
      · rw [List.mem_singleton] at hc'
        subst hc'
        have hpar : p ∈ e.1 ∨ p ∈ e.2.1 := by
          rcases h2 with h2 | h2
          · obtain ⟨e', g1, _, _, _, g2, _⟩ := hr.get c' lo h2
            rw [m3] at g1; cases g1
            exact .inl ((g2 p).2 ⟨v, hi, h1⟩)
          · obtain ⟨e', g1, _, _, _, _, g2⟩ := hr.get c' hi h2
            rw [m3] at g1; cases g1
            exact .inr ((g2 p).2 ⟨v, lo, h1⟩)
        obtain ⟨⟨idx, q', x1⟩, e', v', lo', hi', i, x2, x3, x4⟩ := m4 p hpar
        refine ⟨?_, .inr ⟨idx, q', x1⟩⟩
        obtain ⟨e'', g1, g2, _⟩ := hr.get p _ h1
        rw [x2] at g1; cases g1
        rw [x3] at g2
        cases g2
        exact ⟨i, x4⟩

theorem node_mem_of_subs {r : RevSt} (hr : RevOk cond K r) : ∀ {b : Bdd}, b ∈ K → ∀ x ∈ b.subs, x ∈ K := by
  intro b
  induction b with
  | ff => intro h x hx; rw [List.mem_singleton.1 hx]; exact h
  | tt => intro h x hx; rw [List.mem_singleton.1 hx]; exact h
  | node v lo hi ihl ihr =>
    intro h x hx
    have := hr.child v lo hi h
    rcases List.mem_cons.1 hx with rfl | hx
    · exact h
    · rcases List.mem_append.1 hx with hx | hx
      · exact ihl this.1 x hx
      · exact ihr this.2 x hx

theorem sat_of_tt_sub : ∀ {b : Bdd}, Bdd.tt ∈ b.subs → Sat b := by
  intro b
  induction b with
  | ff => intro h; cases List.mem_singleton.1 h
  | tt => exact fun _ => trivial
  | node v lo hi ihl ihr =>
    intro h
    rcases List.mem_cons.1 h with h | h
    · cases h
    · rcases List.mem_append.1 h with h | h
      · exact .inl (ihl h)
      · exact .inr (ihr h)

/-- An expanded edge has a satisfiable condition, and the variables of its satisfiable nodes are known. -/
theorem expandEdge_ok {src : Nat} {D D' : NFADelta} (h : expandEdge ix n src D (cond, d) = .ok D') :
    Sat cond ∧ ∀ v lo hi, Bdd.node v lo hi ∈ cond.subs → Sat (.node v lo hi) → ∃ i, ix.lookup v = some i := by
  obtain ⟨K, r, h1, hr⟩ := revBdd_spec cond
  unfold expandEdge at h
  simp only [h1, Res.bind_ok] at h
  obtain ⟨t, ht, h⟩ := Res.bind_eq_ok.1 h
  have ht : K[t]? = some .tt := by
    unfold mapAt at ht
    rw [hr.map] at ht
    cases hl : K.zipIdx.lookup Bdd.tt with
    | none => rw [hl] at ht; cases ht
    | some i => rw [hl] at ht; cases ht; exact (lookup_zipIdx hr.nodup).1 hl
  obtain ⟨s, hs, _⟩ := Res.bind_eq_ok.1 h
  obtain ⟨hI, hc⟩ := whileM_ok_inv (fun s => QInv ix K t s) (fun s s' hI _ hb => expBody_q hr hI hb)
    (⟨.inr ⟨n, d, by simp⟩, by simp⟩ : QInv ix K t { delta := D, rst2st := [], visited := [], que := [(t, n, d)], srcAlt := none }) hs
  have hq : s.que = [] := by simpa using hc
  refine ⟨sat_of_tt_sub (hr.sub _ (List.mem_of_getElem? ht)), ?_⟩
  have hvis : ∀ b : Bdd, Sat b → ∀ i : Nat, K[i]? = some b → i ∈ s.visited := by
    intro b
    induction b with
    | ff => intro h; cases h
    | tt =>
      intro _ i hi
      rw [get_inj hr.nodup hi ht]
      rcases hI.tt with h | ⟨k, q, h⟩
      · exact h
      · rw [hq] at h; cases h
    | node v lo hi ihl ihr =>
      intro hs i hi'
      have hc := hr.child v lo hi (List.mem_of_getElem? hi')
      have : ∀ c, (c = lo ∨ c = hi) → c ∈ K → (∀ i : Nat, K[i]? = some c → i ∈ s.visited) → i ∈ s.visited := by
        intro c h1 h2 h3
        obtain ⟨j, hj⟩ := List.mem_iff_getElem?.1 h2
        rcases (hI.clo j (h3 j hj) i v lo hi hi' (h1.imp (fun h => by rw [hj, h]) (fun h => by rw [hj, h]))).2 with h | ⟨k, q, h⟩
        · exact h
        · rw [hq] at h; cases h
      rcases hs with hs | hs
      · exact this lo (.inl rfl) hc.1 (ihl hs)
      · exact this hi (.inr rfl) hc.2 (ihr hs)
  intro v lo hi hsub hs
  have hK := node_mem_of_subs hr (List.mem_of_getElem? hr.first) _ hsub
  obtain ⟨p, hp⟩ := List.mem_iff_getElem?.1 hK
  have hc := hr.child v lo hi hK
  rcases hs with hs | hs
  · obtain ⟨j, hj⟩ := List.mem_iff_getElem?.1 hc.1
    exact (hI.clo j (hvis lo hs j hj) p v lo hi hp (.inl hj)).1
  · obtain ⟨j, hj⟩ := List.mem_iff_getElem?.1 hc.2
    exact (hI.clo j (hvis hi hs j hj) p v lo hi hp (.inr hj)).1

theorem foldlM_each {α β : Type} {f : β → α → Res β} {l : List α} {b b' : β} (h : l.foldlM f b = .ok b') :
    ∀ x ∈ l, ∃ c c', f c x = .ok c' := by
  induction l generalizing b with
  | nil => simp
  | cons y l ih =>
    rw [List.foldlM_cons] at h
    obtain ⟨b1, h1, h⟩ := Res.bind_eq_ok.1 h
    intro x hx
    rcases List.mem_cons.1 hx with rfl | hx
    · exact ⟨b, b1, h1⟩
    · exact ih h x hx

theorem nfaTuple_ok {M : Monitor} {allFinal : Bool} {t : List Nat × List Nat × NFADelta} (h : nfaTuple M n allFinal = .ok t) :
    ∀ es ∈ M.out, ∀ e ∈ es, Sat e.1 ∧
      ∀ v lo hi, Bdd.node v lo hi ∈ e.1.subs → Sat (.node v lo hi) → ∃ i, (var2idx M.varOf n).lookup v = some i := by
  unfold nfaTuple at h
  dsimp only at h
  obtain ⟨D, h, _⟩ := Res.bind_eq_ok.1 h
  intro es hes e he
  obtain ⟨i, hi⟩ := List.mem_iff_getElem?.1 hes
  obtain ⟨c, c', h1⟩ := foldlM_each h (es, i) (List.mk_mem_zipIdx_iff_getElem?.2 hi)
  obtain ⟨c, c', h2⟩ := foldlM_each h1 e he
  exact expandEdge_ok h2

theorem lookup_known {f : Nat → Option Nat} {v i : Nat} (h : (var2idx f n).lookup v = some i) : i < n ∧ f i = some v := by
  have key : ∀ l : List Nat, (l.filterMap fun i => (f i).map fun v => (v, i)).lookup v = some i → i ∈ l ∧ f i = some v := by
    intro l
    induction l with
    | nil => simp
    | cons j l ih =>
      rw [List.filterMap_cons]
      cases hf : f j with
      | none =>
        simp only [Option.map_none]
        exact fun h => ⟨List.mem_cons_of_mem _ (ih h).1, (ih h).2⟩
      | some u =>
        simp only [Option.map_some, List.lookup_cons]
        by_cases e : v = u
        · subst e
          simp only [beq_self_eq_true]
          intro h; cases h; exact ⟨by simp, hf⟩
        · have : (v == u) = false := by simpa using e
          rw [this]
          exact fun h => ⟨List.mem_cons_of_mem _ (ih h).1, (ih h).2⟩
  obtain ⟨h1, h2⟩ := key (List.range n) h
  exact ⟨List.mem_range.1 h1, h2⟩

/-- In a reduced diagram every node leads to true. -/
theorem sat_of_reduced : ∀ {b : Bdd}, Reduced b → b ≠ .ff → Sat b := by
  intro b
  induction b with
  | ff => exact fun _ h => absurd rfl h
  | tt => exact fun _ _ => trivial
  | node v lo hi ihl ihr =>
    rintro ⟨h1, h2, h3⟩ _
    by_cases e : lo = .ff
    · exact .inr (ihr h3 (fun h => h1 (by rw [e, h])))
    · exact .inl (ihl h2 e)

theorem mentions_node : ∀ {b : Bdd} {v : Nat}, Reduced b → Mentions v b → ∃ lo hi, Bdd.node v lo hi ∈ b.subs ∧ Sat (.node v lo hi) := by
  intro b v
  induction b with
  | ff => exact fun _ h => h.elim
  | tt => exact fun _ h => h.elim
  | node u lo hi ihl ihr =>
    intro hr h
    rcases h with rfl | h | h
    · exact ⟨lo, hi, by simp [Bdd.subs], sat_of_reduced hr (by simp)⟩
    · obtain ⟨lo', hi', h1, h2⟩ := ihl hr.2.1 h
      exact ⟨lo', hi', by simp [Bdd.subs, h1], h2⟩
    · obtain ⟨lo', hi', h1, h2⟩ := ihr hr.2.2 h
      exact ⟨lo', hi', by simp [Bdd.subs, h1], h2⟩

end Homfa.Ltl
