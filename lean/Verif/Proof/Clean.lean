import Verif.Spec.Clean
import Verif.Proof.LtlReject
import Verif.Proof.Shell
import Verif.Props.Convert
import Verif.Props.Ltl
/-!
# Helpers for C90: pieces that end orderly
-/

namespace Homfa
open Spec

namespace Orderly

variable {α β : Type}

theorem ok (x : α) : Orderly (.ok x : Res α) := fun e h => by cases h
theorem die : Orderly (.error .die : Res α) := fun e h => by cases h; exact .inl rfl
theorem assertFail : Orderly (.error .assertFail : Res α) := fun e h => by cases h; exact .inr (.inl rfl)
theorem outOfRange : Orderly (.error .outOfRange : Res α) := fun e h => by cases h; exact .inr (.inr rfl)

theorem of_eq_ok {r : Res α} {x : α} (h : r = .ok x) : Orderly r := h ▸ ok x

theorem bind {r : Res α} {f : α → Res β} (h : Orderly r) (hf : ∀ x, r = .ok x → Orderly (f x)) : Orderly (r >>= f) := by
  cases r with
  | ok x => exact hf x rfl
  | error e =>
    intro e' h'
    rw [Res.bind_err] at h'
    cases h'
    exact h e rfl

theorem map {r : Res α} (f : α → β) (h : Orderly r) : Orderly (r.map f) := by
  cases r with
  | ok x => exact ok _
  | error e => intro e' h'; cases h'; exact h e rfl

theorem of_map {r : Res α} {f : α → β} (h : Orderly (r.map f)) : Orderly r := by
  cases r with
  | ok x => exact ok _
  | error e => intro e' h'; cases h'; exact h e rfl

theorem foldlM {f : β → α → Res β} {xs : List α} (h : ∀ b x, x ∈ xs → Orderly (f b x)) : ∀ b, Orderly (xs.foldlM f b) := by
  induction xs with
  | nil => intro b; exact ok b
  | cons x xs ih =>
    intro b
    rw [List.foldlM_cons]
    exact bind (h b x (by simp)) fun c _ => ih (fun b y hy => h b y (by simp [hy])) c

theorem vat (v : List α) (i : Nat) : Orderly (Homfa.vat v i) := by
  unfold Homfa.vat
  cases v[i]? with
  | some x => exact ok x
  | none => exact outOfRange

theorem vset (v : List α) (i : Nat) (x : α) : Orderly (Homfa.vset v i x) := by
  unfold Homfa.vset
  split
  · exact ok _
  · exact outOfRange

theorem cassert (b : Bool) : Orderly (Homfa.cassert b) := by
  cases b
  · exact assertFail
  · exact ok _

theorem mapAt {κ : Type} [BEq κ] (m : List (κ × α)) (k : κ) : Orderly (Homfa.mapAt m k) := by
  unfold Homfa.mapAt
  cases m.lookup k with
  | some x => exact ok x
  | none => exact outOfRange

theorem nextState (g : Graph) (q : Nat) (b : Bool) : Orderly (g.nextState q b) := bind (vat _ _) fun _ _ => ok _

theorem inputByte {σ : Type} {func : σ → Bool → Res σ} (h : ∀ s b, Orderly (func s b)) : ∀ (n : Nat) (v : Byte) (rest : Nat) (s : σ),
    Orderly (Homfa.inputByte func n v rest s)
  | 0, _, _, _ => ok _
  | n + 1, v, rest, s => by
    unfold Homfa.inputByte
    split
    · exact ok _
    · exact bind (h _ _) fun s' _ => inputByte h n _ _ s'

theorem inputBytes {σ : Type} {func : σ → Bool → Res σ} (h : ∀ s b, Orderly (func s b)) (ap : Nat) : ∀ (bytes : List Byte) (rest : Nat) (s : σ),
    Orderly (Homfa.inputBytes ap func bytes rest s)
  | [], _, _ => ok _
  | v :: bytes, rest, s => by
    unfold Homfa.inputBytes
    exact bind (inputByte h _ _ _ _) fun p _ => inputBytes h ap bytes _ _

theorem eachInputBit {σ : Type} {func : σ → Bool → Res σ} (h : ∀ s b, Orderly (func s b)) (file : Option (List Byte)) (ap : Nat) (s : σ) :
    Orderly (Homfa.eachInputBit file ap func s) := by
  unfold Homfa.eachInputBit
  refine bind ?_ fun bytes _ => bind (inputBytes h _ _ _ _) fun p _ => bind (cassert _) fun _ _ => ok _
  cases file with
  | none => exact assertFail
  | some b => exact ok b

end Orderly

/-- what parsing a spec can give: an orderly end, the graph without states, or a complete graph -/
theorem fromIstream_cases (text : List Char) :
    (∃ e, Graph.fromIstream text = .error e ∧ (e = .die ∨ e = .outOfRange)) ∨ Graph.fromIstream text = .ok (Graph.built 0 [] []) ∨
    ∃ g, Graph.fromIstream text = .ok g ∧ g.WF := by
  unfold Graph.fromIstream
  cases hp : (getlines '\n' text).foldlM specLine { initSts := [], finalSts := [], delta := [], isDfa := true } with
  | error e => exact .inl ⟨e, rfl, specLines_err hp⟩
  | ok p =>
    obtain ⟨rows, hr⟩ := specRows_of_fold hp
    rw [specRows_fold hr rfl] at hp
    rw [show ({ initSts := [], finalSts := [], delta := [], isDfa := true } : SpecSt) = emptySpec from rfl] at hp
    injection hp with hp
    subst hp
    rw [Res.bind_ok]
    by_cases hne : rows = []
    · subst hne
      exact .inr (.inl (by decide))
    · rcases finishSpec_rows hne with ⟨g', h1, h2, _⟩ | ⟨h1, _⟩
      · exact .inr (.inr ⟨g', h1, h2⟩)
      · exact .inl ⟨_, h1, .inr rfl⟩

theorem orderly_spec {text : List Char} {α : Type} {f : Graph → Res α} (h0 : Orderly (f (Graph.built 0 [] [])))
    (h : ∀ g, Graph.fromIstream text = .ok g → g.WF → Orderly (f g)) : Orderly (Graph.fromIstream text >>= f) := by
  rcases fromIstream_cases text with ⟨e, h1, h2⟩ | h1 | ⟨g, h1, h2⟩
  · rw [h1, Res.bind_err]
    rcases h2 with rfl | rfl
    · exact .die
    · exact .outOfRange
  · rw [h1, Res.bind_ok]; exact h0
  · rw [h1, Res.bind_ok]; exact h g h1 h2

theorem spec2spec_orderly (text : List Char) (m r k : Bool) : Orderly (doSpec2spec text m r k) := by
  refine orderly_spec ?_ fun g h1 h2 => ?_
  · cases m <;> cases r <;> cases k <;> first
      | exact .of_eq_ok (x := []) (by decide)
      | exact .of_eq_ok (x := ">0\t0\t0\n".toList) (by decide)
      | (have h : ∀ {r : Res (List Char)}, r = .error .outOfRange → Orderly r := fun h => h ▸ .outOfRange
         exact h (by decide))
  · obtain ⟨out, _, h, _⟩ := C18_spec2spec text g h1 (Nat.lt_of_le_of_lt (Nat.zero_le _) h2.init_lt) m r k
    have : doSpec2spec text m r k = (do
      let g ← (if k then g.negated else pure g : Res Graph)
      let g ← (if r then g.reversed else pure g : Res Graph)
      let g ← (if m then g.minimized else pure g : Res Graph)
      g.dump) := by unfold doSpec2spec; rw [h1, Res.bind_ok]
    rw [this] at h
    exact .of_eq_ok h

theorem spec2dot_orderly (text : List Char) : Orderly (doSpec2dot text) := by
  refine orderly_spec (f := fun g => g.dumpDot) ?_ fun g h1 h2 => ?_
  · exact .of_eq_ok rfl
  · obtain ⟨out, _, h, _⟩ := C57_spec2dot text g h1 (Nat.lt_of_le_of_lt (Nat.zero_le _) h2.init_lt)
    unfold doSpec2dot at h
    rw [h1, Res.bind_ok] at h
    exact .of_eq_ok h

theorem spec2att_orderly (text : List Char) : Orderly (doSpec2att text) := by
  refine orderly_spec (f := fun g => g.dumpAtt) ?_ fun g h1 h2 => ?_
  · exact .of_eq_ok rfl
  · exact .of_eq_ok (Graph.dumpAtt_ok h2)

theorem fromAtt_orderly (text : List Char) : Orderly (Graph.fromAttIstream text) := by
  unfold Graph.fromAttIstream
  cases hl : (getlines '\n' text).foldlM attLine ([], []) with
  | error e =>
    obtain ⟨_, _, _, h⟩ := foldlM_err hl
    rw [Res.bind_err]
    rcases attLine_err h with rfl | rfl
    · exact .die
    · exact .outOfRange
  | ok p =>
    rw [Res.bind_ok]
    rcases FromNfa.fromNfa_total (q0n := [0]) (fn := p.1) (dn := p.2) (by simp [SSorted]) with ⟨⟨g, h⟩, _⟩ | ⟨h, _⟩
    · exact .of_eq_ok h
    · rw [h]; exact .outOfRange

theorem att2spec_orderly (text : List Char) : Orderly (doAtt2spec text) := by
  refine .bind (fromAtt_orderly text) fun g h => ?_
  exact .of_eq_ok (Graph.dump_ok (C17_built_graphs_complete.2.1 text g h))

theorem plain_orderly (text : List Char) (file : Option (List Byte)) (ap : Nat) : Orderly (doRunPlain text file ap) := by
  have key : ∀ g : Graph, Orderly (do
      let s ← eachInputBit file ap (fun s b => g.nextState s b) g.initialState
      let res ← g.isFinalState s
      pure (printResult res)) := fun g =>
    .bind (.eachInputBit (fun s b => .nextState g s b) _ _ _) fun s _ => .bind (.vat _ _) fun _ _ => .ok _
  exact orderly_spec (key _) fun g _ _ => key g

theorem enc_orderly {N n l : Nat} (S : Scheme N n l) (rand : Nat → Nat) (file : Option (List Byte)) (ap : Nat) : Orderly (doEnc S rand file ap) :=
  .bind (.eachInputBit (fun _ _ => .ok _) _ _ _) fun _ _ => .ok _

/-! ## Formulas -/

namespace Ltl

variable {ix : List (Nat × Nat)} {K : List Bdd} {cond : Bdd}

theorem parentStep_orderly {rev : List (List Nat × List Nat × Bdd)} {cv cq : Nat} {bit : Bool} {s : ExpSt} {p : Nat}
    (h : ∀ e, rev[p]? = some e → ∃ v lo hi, e.2.2 = .node v lo hi) : Orderly (parentStep ix rev cv cq bit s p) := by
  unfold parentStep
  refine .bind (.vat _ _) fun e he => ?_
  obtain ⟨v, lo, hi, hn⟩ := h e (vat_eq_ok.1 he)
  rw [hn]
  refine .bind (.ok _) fun v _ => .bind (.mapAt _ _) fun idx _ => .bind ?_ fun _ _ => .ok _
  exact .bind (.vat _ _) fun _ _ => .vset _ _ _

theorem parents_length {rev : List (List Nat × List Nat × Bdd)} {cv cq : Nat} {bit : Bool} {l : List Nat} : ∀ {s s' : ExpSt},
    l.foldlM (parentStep ix rev cv cq bit) s = .ok s' → s'.visited = s.visited ∧ s'.que.length = s.que.length + l.length := by
  induction l with
  | nil => intro s s' h; cases h; exact ⟨rfl, rfl⟩
  | cons p l ih =>
    intro s s' h
    rw [List.foldlM_cons] at h
    obtain ⟨s1, h1, h⟩ := Res.bind_eq_ok.1 h
    obtain ⟨a1, ⟨idx, q, a2⟩, _⟩ := parentStep_que h1
    obtain ⟨b1, b2⟩ := ih h
    refine ⟨b1.trans a1, ?_⟩
    rw [b2, a2, List.length_append, List.length_cons]
    simp only [List.length_cons, List.length_nil]
    omega

theorem expBody_orderly {r : RevSt} (hr : RevOk cond K r) (s : ExpSt) (hc : (!s.que.isEmpty) = true) :
    Orderly (expBody ix r.reversed s) ∧ ∀ s', expBody ix r.reversed s = .ok s' → emu r.reversed s' < emu r.reversed s := by
  unfold expBody
  cases hq : s.que with
  | nil => simp [hq] at hc
  | cons it rest =>
    obtain ⟨c, k, q⟩ := it
    dsimp only
    by_cases hv : s.visited.contains c = true
    · rw [if_pos hv]
      refine ⟨.ok _, fun s' h => ?_⟩
      cases h
      simp [emu, hq]
    · rw [if_neg hv]
      have hv' : c ∉ s.visited := by simpa using hv
      have hnode : ∀ e, r.reversed[c]? = some e → ∀ p, p ∈ e.1 ∨ p ∈ e.2.1 → ∀ e', r.reversed[p]? = some e' → ∃ v lo hi, e'.2.2 = .node v lo hi := by
        intro e he p hp e' he'
        have hcK : c < K.length := by rw [← hr.len]; exact lt_of_get he
        obtain ⟨e1, g1, _, _, _, g2, g3⟩ := hr.get c K[c] (List.getElem?_eq_getElem hcK)
        rw [he] at g1; cases g1
        rcases hp with hp | hp
        · obtain ⟨v, hi, h⟩ := (g2 p).1 hp
          obtain ⟨e2, k1, k2, _⟩ := hr.get p _ h
          rw [he'] at k1; cases k1
          exact ⟨_, _, _, k2⟩
        · obtain ⟨v, lo, h⟩ := (g3 p).1 hp
          obtain ⟨e2, k1, k2, _⟩ := hr.get p _ h
          rw [he'] at k1; cases k1
          exact ⟨_, _, _, k2⟩
      unfold expNode
      constructor
      · refine .bind (.vat _ _) fun e he => ?_
        have he := vat_eq_ok.1 he
        dsimp only
        split
        · exact .bind (.cassert _) fun _ _ => .ok _
        · split
          · exact .bind (.cassert _) fun _ _ => .ok _
          · refine .bind (.foldlM (fun s p hp => parentStep_orderly (hnode e he p (.inl hp))) _) fun s1 _ => ?_
            exact .foldlM (fun s p hp => parentStep_orderly (hnode e he p (.inr hp))) _
      · intro s' h
        obtain ⟨e, he, h⟩ := Res.bind_eq_ok.1 h
        have he := vat_eq_ok.1 he
        have hlt : c < r.reversed.length := lt_of_get he
        have hw := emu_visit (rev := r.reversed) (V := s.visited) (l := List.range r.reversed.length) List.nodup_range (List.mem_range.2 hlt) hv'
        have hwc : wt r.reversed c = e.1.length + e.2.1.length := by unfold wt; rw [he]
        dsimp only at h
        have : s'.visited = s.visited ++ [c] ∧ s'.que.length ≤ rest.length + (e.1.length + e.2.1.length) := by
          split at h
          · obtain ⟨_, _, h⟩ := Res.bind_eq_ok.1 h
            cases h
            exact ⟨rfl, by simp⟩
          · split at h
            · obtain ⟨_, _, h⟩ := Res.bind_eq_ok.1 h
              cases h
              exact ⟨rfl, by simp⟩
            · obtain ⟨s1, g1, g2⟩ := Res.bind_eq_ok.1 h
              obtain ⟨a1, a2⟩ := parents_length g1
              obtain ⟨b1, b2⟩ := parents_length g2
              refine ⟨b1.trans a1, ?_⟩
              rw [b2, a2]
              simp only
              omega
        unfold emu
        rw [this.1, hq, List.length_cons]
        omega

theorem addSrc_orderly (D : NFADelta) (src alt : Nat) : Orderly (addSrc D src alt) := by
  have push : ∀ (bit : Bool) (D : NFADelta) (q x : Nat), Orderly (pushRow bit D q x) := fun bit D q x =>
    .bind (.vat _ _) fun _ _ => .vset _ _ _
  unfold addSrc
  refine .bind (.vat _ _) fun t _ => .bind (.cassert _) fun _ _ => .bind ?_ fun D' _ => ?_
  · split
    · exact .bind (.vat _ _) fun _ _ => push _ _ _ _
    · exact .ok _
  · split
    · exact .bind (.vat _ _) fun _ _ => push _ _ _ _
    · exact .ok _

theorem expandEdge_orderly (n src : Nat) (D : NFADelta) (e : Bdd × Nat) : Orderly (expandEdge ix n src D e) := by
  obtain ⟨K, r, h1, hr⟩ := revBdd_spec e.1
  unfold expandEdge
  rw [h1, Res.bind_ok]
  refine .bind (.mapAt _ _) fun t _ => .bind ?_ fun s _ => ?_
  · have := whileM_inv_err (cond := fun s : ExpSt => !s.que.isEmpty) (body := expBody ix r.reversed) (fun _ => True)
      (fun e => e = .die ∨ e = .assertFail ∨ e = .outOfRange) (emu r.reversed)
      (fun s _ hc => by
        unfold emu
        have : s.que ≠ [] := by simpa using hc
        have := List.length_pos_of_ne_nil this
        omega)
      (fun s _ hc => by
        obtain ⟨h1, h2⟩ := expBody_orderly (ix := ix) hr s hc
        cases hb : expBody ix r.reversed s with
        | ok s' => exact .inl ⟨s', rfl, trivial, h2 s' hb⟩
        | error e => exact .inr ⟨e, rfl, h1 e hb⟩)
      (fuel := (r.reversed.map fun e => e.1.length + e.2.1.length).sum + 1)
      (s := { delta := D, rst2st := [], visited := [], que := [(t, n, e.2)], srcAlt := none }) trivial (by
        unfold emu
        have hf : (List.range r.reversed.length).filter (fun c => !([] : List Nat).contains c) = List.range r.reversed.length := by
          rw [List.filter_eq_self]; intro a _; rfl
        have : ((List.range r.reversed.length).map (wt r.reversed)) = r.reversed.map fun e => e.1.length + e.2.1.length := by
          apply List.ext_getElem
          · simp
          · intro i h1 h2
            simp only [List.getElem_map, List.getElem_range]
            unfold wt
            rw [List.getElem?_eq_getElem (by simpa using h2)]
        rw [hf, this]
        simp only [List.length_cons, List.length_nil]
        omega)
    rcases this with ⟨s', h, _⟩ | ⟨e, h, h'⟩
    · exact .of_eq_ok h
    · intro e' he'
      rw [h] at he'
      cases he'
      exact h'
  · cases s.srcAlt with
    | none => exact .assertFail
    | some alt => exact addSrc_orderly _ _ _

theorem nfaTuple_orderly (M : Monitor) (n : Nat) (allFinal : Bool) : Orderly (nfaTuple M n allFinal) := by
  unfold nfaTuple
  refine .bind ?_ fun _ _ => .ok _
  exact .foldlM (fun D p _ => .foldlM (fun D e _ => expandEdge_orderly _ _ _ _) _) _

end Ltl

theorem fromMonitor_orderly (M : Monitor) (n : Nat) (allFinal : Bool) : Orderly (Graph.fromMonitor M n allFinal) := by
  unfold Graph.fromMonitor
  refine .bind (Ltl.nfaTuple_orderly M n allFinal) fun t ht => ?_
  have h1 : t.1 = [M.init] := by
    unfold Ltl.nfaTuple at ht
    obtain ⟨D, _, h⟩ := Res.bind_eq_ok.1 ht
    cases h
    rfl
  rw [h1]
  rcases FromNfa.fromNfa_total (q0n := [M.init]) (fn := t.2.1) (dn := t.2.2) (by simp [SSorted]) with ⟨⟨g, h⟩, _⟩ | ⟨h, _⟩
  · exact .of_eq_ok h
  · rw [h]; exact .outOfRange

theorem ltl2spec_orderly (M : Monitor) (n : Nat) (allFinal : Bool) : Orderly (doLtl2spec M n allFinal) := by
  unfold doLtl2spec
  refine .bind (fromMonitor_orderly M n allFinal) fun g h => ?_
  unfold Graph.fromMonitor at h
  obtain ⟨t, ht, h⟩ := Res.bind_eq_ok.1 h
  have h1 : t.1 = [M.init] := by
    unfold Ltl.nfaTuple at ht
    obtain ⟨D, _, h⟩ := Res.bind_eq_ok.1 ht
    cases h
    rfl
  rw [h1] at h
  exact .of_eq_ok (Graph.dump_ok (FromNfa.fromNfa_good (by simp [SSorted]) h).1)

end Homfa
