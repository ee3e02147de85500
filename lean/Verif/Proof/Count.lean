import Verif.Proof.Trace
import Verif.Proof.Lut
import Verif.Proof.Backstream
import Mathlib.Algebra.BigOperators.Intervals

/-! # Counting the calls of a run -/

namespace Homfa

variable {N n l : Nat} {α β σ ι : Type} {S : Scheme N n l}

namespace Comp

theorem kinds_bind_ok {x : Comp N n l α} {a : α} (h : x.run S = .ok a) (f : α → Comp N n l β) :
    (x >>= f).kinds S = x.kinds S ++ (f a).kinds S := by
  unfold kinds
  rw [trace_bind_ok h, List.map_append]

theorem kinds_pure (a : α) : (pure a : Comp N n l α).kinds S = [] := rfl

/-- a successful `x >>= f` -/
theorem bind_inv {x : Comp N n l α} {f : α → Comp N n l β} {b : β} (h : (x >>= f).run S = .ok b) :
    ∃ a, x.run S = .ok a ∧ (f a).run S = .ok b ∧ (x >>= f).kinds S = x.kinds S ++ (f a).kinds S := by
  rw [run_bind] at h
  obtain ⟨a, h1, h2⟩ := Res.bind_eq_ok.1 h
  exact ⟨a, h1, h2, kinds_bind_ok h1 f⟩

theorem ret_inv {x : Res α} {f : α → Comp N n l β} {b : β} (h : ((.ret x : Comp N n l α) >>= f).run S = .ok b) :
    ∃ a, x = .ok a ∧ (f a).run S = .ok b ∧ ((.ret x : Comp N n l α) >>= f).kinds S = (f a).kinds S := by
  obtain ⟨a, h1, h2, h3⟩ := bind_inv h
  exact ⟨a, h1, h2, h3⟩

/-- a loop of tasks, each of which makes the calls `ks` -/
theorem foldlM_kinds {f : σ → ι → Comp N n l σ} {ks : List CallKind} (hf : ∀ s i s', (f s i).run S = .ok s' → (f s i).kinds S = ks) :
    ∀ (xs : List ι) (s s' : σ), (xs.foldlM f s).run S = .ok s' → (xs.foldlM f s).kinds S = (List.replicate xs.length ks).flatten := by
  intro xs
  induction xs with
  | nil => intro s s' _; rfl
  | cons x xs ih =>
    intro s s' h
    rw [List.foldlM_cons] at h ⊢
    obtain ⟨a, h1, h2, h3⟩ := bind_inv h
    rw [h3, hf _ _ _ h1, ih _ _ h2]
    rfl

end Comp

open Homfa.Comp

theorem cmuxC_kinds (g : Gsw l N) (a b : TRLWE N) : (cmuxC g a b : Comp N n l _).kinds S = [.cmux] := rfl

theorem backstreamTaskC_kinds {g : Graph} {c : Gsw l N} {m m' : Mem (TRLWE N)} {q : Nat} (h : (backstreamTaskC g c m q : Comp N n l _).run S = .ok m') :
    (backstreamTaskC g c m q : Comp N n l _).kinds S = [.cmux] := by
  unfold backstreamTaskC at h ⊢
  obtain ⟨_, _, h, e⟩ := ret_inv h; rw [e]; clear e
  obtain ⟨_, _, h, e⟩ := ret_inv h; rw [e]; clear e
  obtain ⟨_, _, h, e⟩ := ret_inv h; rw [e]; clear e
  obtain ⟨_, _, h, e⟩ := ret_inv h; rw [e]; clear e
  rfl

theorem bootTaskC_kinds {m m' : Mem (TRLWE N)} {q : Nat} (h : (bootTaskC m q : Comp N n l _).run S = .ok m') :
    (bootTaskC m q : Comp N n l _).kinds S = [.keySwitch, .blindRotate] := by
  unfold bootTaskC at h ⊢
  obtain ⟨w, _, h, e⟩ := ret_inv h; rw [e]; clear e
  obtain ⟨w', h1, h, e⟩ := bind_inv h; rw [e]; clear e
  unfold bootHalfC at h1 ⊢
  obtain ⟨_, _, h1, e⟩ := ret_inv h1; rw [e]
  rfl

theorem lutTaskC_kinds {c : Gsw l N} {m m' : Mem (TRLWE N)} {j : Nat} (h : (lutTaskC c m j : Comp N n l _).run S = .ok m') :
    (lutTaskC c m j : Comp N n l _).kinds S = [.cmux] := by
  unfold lutTaskC at h ⊢
  obtain ⟨_, _, h, e⟩ := ret_inv h; rw [e]; clear e
  obtain ⟨_, _, h, e⟩ := ret_inv h; rw [e]; clear e
  rfl

theorem blockTaskC_kinds {g : Graph} {cs : List (Gsw l N)} {i : Nat} {m m' : Mem (TRLWE N)} {q : Nat}
    (h : (blockTaskC g cs i m q : Comp N n l _).run S = .ok m') : (blockTaskC g cs i m q : Comp N n l _).kinds S = [.cmux] := by
  unfold blockTaskC at h ⊢
  obtain ⟨_, _, h, e⟩ := ret_inv h; rw [e]; clear e
  obtain ⟨_, _, h, e⟩ := ret_inv h; rw [e]; clear e
  obtain ⟨_, _, h, e⟩ := ret_inv h; rw [e]; clear e
  obtain ⟨_, _, h, e⟩ := ret_inv h; rw [e]; clear e
  obtain ⟨_, _, h, e⟩ := ret_inv h; rw [e]; clear e
  rfl

theorem cbTaskC_kinds {ws : List (TLWE N)} {m m' : Mem (Gsw l N)} {i : Nat} (h : (cbTaskC ws m i : Comp N n l _).run S = .ok m') :
    (cbTaskC ws m i : Comp N n l _).kinds S = [.circuitBootstrapping] := by
  unfold cbTaskC at h ⊢
  obtain ⟨_, _, h, e⟩ := ret_inv h; rw [e]; clear e
  rfl

theorem mwrite_shape {m m' : Mem α} {v i : Nat} {x : α} (h : mwrite m v i x = .ok m') : SameShape m' m := by
  unfold mwrite at h
  cases e : m[v]? with
  | none => rw [e] at h; cases h
  | some a =>
    rw [e] at h
    obtain ⟨b, hb, h⟩ := Res.bind_eq_ok.1 h
    cases h
    unfold vset at hb
    split at hb
    · cases hb
      obtain ⟨hv, rfl⟩ := List.getElem?_eq_some_iff.1 e
      unfold SameShape
      rw [List.map_set, List.length_set]
      apply List.ext_getElem (by simp)
      intro k h1 h2
      by_cases hk : v = k
      · subst hk; simp
      · simp [List.getElem_set_ne hk]
    · cases hb

theorem cbTaskC_shape {ws : List (TLWE N)} {m m' : Mem (Gsw l N)} {i : Nat} (h : (cbTaskC ws m i : Comp N n l _).run S = .ok m') :
    SameShape m' m := by
  unfold cbTaskC at h
  obtain ⟨_, _, h, _⟩ := ret_inv h
  obtain ⟨_, _, h, _⟩ := bind_inv h
  exact mwrite_shape h

theorem foldlM_shape {f : Mem α → ι → Comp N n l (Mem α)} (hf : ∀ s i s', (f s i).run S = .ok s' → SameShape s' s) :
    ∀ (xs : List ι) (s s' : Mem α), (xs.foldlM f s).run S = .ok s' → SameShape s' s := by
  intro xs
  induction xs with
  | nil => intro s s' h; cases h; rfl
  | cons x xs ih =>
    intro s s' h
    rw [List.foldlM_cons] at h
    obtain ⟨a, h1, h2, _⟩ := bind_inv h
    exact (ih _ _ h2).trans (hf _ _ _ h1)

theorem splitTaskC_kinds {st2idx : List Nat} {boot : Bool} {m m' : Mem (TRLWE N)} {st : Nat}
    (h : (splitTaskC st2idx boot m st : Comp N n l _).run S = .ok m') :
    (splitTaskC st2idx boot m st : Comp N n l _).kinds S = if boot then [.keySwitch, .blindRotate, .toTrlwe] else [.toTrlwe] := by
  unfold splitTaskC at h ⊢
  obtain ⟨_, _, h, e⟩ := ret_inv h; rw [e]; clear e
  obtain ⟨_, _, h, e⟩ := ret_inv h; rw [e]; clear e
  obtain ⟨_, _, h, e⟩ := ret_inv h; rw [e]; clear e
  obtain ⟨_, h1, h, e⟩ := bind_inv h; rw [e]; clear e
  cases boot <;> rfl

theorem flatten_replicate_one (k : Nat) (x : α) : (List.replicate k [x]).flatten = List.replicate k x := by
  induction k with
  | zero => rfl
  | succ k ih => rw [List.replicate_succ, List.flatten_cons, ih]; rfl

theorem Backstream.evalC_kinds {r r' : Backstream N} {c : Gsw l N} (h : (r.evalC c : Comp N n l _).run S = .ok r') :
    ∃ sts, evalStates r.graph r.inputSize r.numProcessed = .ok sts ∧
      (r.evalC c : Comp N n l _).kinds S = List.replicate sts.length .cmux ++
        (if (r.numProcessed + 1) % r.bootInterval = 0 then (List.replicate sts.length [.keySwitch, .blindRotate]).flatten else []) ∧
      r'.timer = r.timer ++ (Target.cmux, sts.length) ::
        (if (r.numProcessed + 1) % r.bootInterval = 0 then [(Target.bootstrapping, sts.length)] else []) ∧
      r'.graph = r.graph ∧ r'.inputSize = r.inputSize ∧ r'.numProcessed = r.numProcessed + 1 := by
  unfold Backstream.evalC at h ⊢
  obtain ⟨sts, h0, h, e⟩ := ret_inv h; dsimp only; rw [e]; clear e
  obtain ⟨m, h1, h, e⟩ := bind_inv h; rw [e]; clear e
  obtain ⟨p, h2, h, e⟩ := ret_inv h; rw [e]; clear e
  refine ⟨sts, h0, ?_⟩
  rw [foldlM_kinds (fun _ _ _ => backstreamTaskC_kinds) _ _ _ h1, flatten_replicate_one]
  dsimp only at h ⊢
  by_cases hb : r.bootInterval = 0
  · rw [if_pos hb] at h; cases h
  · rw [if_neg hb] at h ⊢
    by_cases hd : (r.numProcessed + 1) % r.bootInterval = 0
    · rw [if_pos hd] at h; simp only [if_pos hd]
      unfold Backstream.bootstrapWeightC at h ⊢
      obtain ⟨m, h1, h, e⟩ := bind_inv h; rw [e]; clear e
      obtain ⟨w, h2, h, e⟩ := ret_inv h; rw [e]; clear e
      rw [foldlM_kinds (fun _ _ _ => bootTaskC_kinds) _ _ _ h1]
      cases h
      refine ⟨by simp [Comp.kinds, Comp.trace, pure], by simp, rfl, rfl, rfl⟩
    · rw [if_neg hd] at h; simp only [if_neg hd]
      cases h
      exact ⟨by simp [Comp.kinds, Comp.trace, pure], by simp, rfl, rfl, rfl⟩

theorem recorded_append (t : Target) (a b : List (Target × Nat)) : recorded t (a ++ b) = recorded t a + recorded t b := by
  simp [recorded]

theorem count_flatten_replicate (k : Nat) (xs : List CallKind) (x : CallKind) :
    (List.replicate k xs).flatten.count x = k * xs.count x := by
  induction k with
  | zero => simp
  | succ k ih => rw [List.replicate_succ, List.flatten_cons, List.count_append, ih]; ring

/-- the entries `e` record the calls `ks` -/
def Records (ks : List CallKind) (e : List (Target × Nat)) : Prop := ∀ t, recorded t e = ks.count t.kind

theorem Records.nil : Records [] [] := fun _ => rfl

theorem Records.append {ks ks' : List CallKind} {e e' : List (Target × Nat)} (h : Records ks e) (h' : Records ks' e') :
    Records (ks ++ ks') (e ++ e') := by
  intro t
  rw [recorded_append, List.count_append, h t, h' t]

theorem Records.cmux (k : Nat) : Records (List.replicate k .cmux) [(.cmux, k)] := by
  intro t
  rw [List.count_replicate]
  cases t <;> simp [recorded, Target.kind]

theorem Records.cb (k : Nat) : Records (List.replicate k .circuitBootstrapping) [(.circuitBootstrapping, k)] := by
  intro t
  rw [List.count_replicate]
  cases t <;> simp [recorded, Target.kind]

theorem Records.boot (k : Nat) : Records (List.replicate k [CallKind.keySwitch, .blindRotate]).flatten [(.bootstrapping, k)] := by
  intro t
  rw [count_flatten_replicate]
  cases t <;> simp [recorded, Target.kind]

theorem Backstream.evalC_records {r r' : Backstream N} {c : Gsw l N} (h : (r.evalC c : Comp N n l _).run S = .ok r') :
    ∃ e, r'.timer = r.timer ++ e ∧ Records ((r.evalC c : Comp N n l _).kinds S) e := by
  obtain ⟨sts, _, h1, h2, _⟩ := Backstream.evalC_kinds h
  refine ⟨_, h2, ?_⟩
  rw [h1]
  by_cases hd : (r.numProcessed + 1) % r.bootInterval = 0
  · simp only [if_pos hd]; exact (Records.cmux _).append (Records.boot _)
  · simp only [if_neg hd]; exact (Records.cmux _).append Records.nil

/-- a loop over the ciphertexts -/
theorem foldl_records {ρ : Type} (timer : ρ → List (Target × Nat)) {eval : ρ → Gsw l N → Comp N n l ρ}
    (he : ∀ r c r', (eval r c).run S = .ok r' → ∃ e, timer r' = timer r ++ e ∧ Records ((eval r c).kinds S) e) (cs : List (Gsw l N)) :
    ∀ r r', (cs.foldlM eval r).run S = .ok r' → ∃ e, timer r' = timer r ++ e ∧ Records ((cs.foldlM eval r).kinds S) e := by
  induction cs with
  | nil => intro r r' h; cases h; exact ⟨[], by simp, .nil⟩
  | cons c cs ih =>
    intro r r' h
    rw [List.foldlM_cons] at h ⊢
    obtain ⟨a, h1, h2, h3⟩ := bind_inv h
    obtain ⟨e1, t1, r1⟩ := he _ _ _ h1
    obtain ⟨e2, t2, r2⟩ := ih _ _ h2
    exact ⟨e1 ++ e2, by rw [t2, t1, List.append_assoc], h3 ▸ r1.append r2⟩

/-! ## Lookup tables -/

theorem lutLoopC_records (k : Nat) : ∀ (cs : List (Gsw l N)) (i : Nat) (tmp table : List (TRLWE N)) (timer : List (Target × Nat)) p,
    (lutLoopC k cs i tmp table timer : Comp N n l _).run S = .ok p →
    ∃ e, p.2.2 = timer ++ e ∧ Records ((lutLoopC k cs i tmp table timer : Comp N n l _).kinds S) e ∧
      (k = i + cs.length → (lutLoopC k cs i tmp table timer : Comp N n l _).kinds S = List.replicate (2 ^ cs.length - 1) .cmux) := by
  intro cs
  induction cs with
  | nil => intro i tmp table timer p h; cases h; exact ⟨[], by simp, .nil, fun _ => rfl⟩
  | cons c cs ih =>
    intro i tmp table timer p h
    rw [lutLoopC] at h ⊢
    obtain ⟨cnt, h0, h, e⟩ := ret_inv h; rw [e]; clear e
    obtain ⟨m, h1, h, e⟩ := bind_inv h; rw [e]; clear e
    obtain ⟨q, h2, h, e⟩ := ret_inv h; rw [e]; clear e
    rw [foldlM_kinds (fun _ _ _ => lutTaskC_kinds) _ _ _ h1, flatten_replicate_one, List.length_range]
    obtain ⟨e, t, r, hk⟩ := ih _ _ _ _ _ h
    refine ⟨(.cmux, cnt) :: e, by rw [t, List.append_assoc]; rfl, (Records.cmux cnt).append r, fun hlen => ?_⟩
    rw [hk (by rw [hlen, List.length_cons]; omega), ← List.replicate_add]
    have : cnt = 2 ^ cs.length := by
      rw [(lt_of_shl1 h0).2, hlen, List.length_cons]; congr 1; omega
    rw [this, List.length_cons, Nat.pow_succ]
    have := Nat.one_le_two_pow (n := cs.length)
    congr 1
    omega

theorem lookupTableTimerC_records {table ws : List (TRLWE N)} {cs : List (Gsw l N)} {timer : List (Target × Nat)} {p}
    (h : (lookupTableTimerC table cs ws timer : Comp N n l _).run S = .ok p) :
    ∃ e, p.2.2 = timer ++ e ∧ Records ((lookupTableTimerC table cs ws timer : Comp N n l _).kinds S) e ∧
      (lookupTableTimerC table cs ws timer : Comp N n l _).kinds S = List.replicate (2 ^ cs.length - 1) .cmux := by
  unfold lookupTableTimerC at h ⊢
  dsimp only at h ⊢
  obtain ⟨_, _, h, e⟩ := ret_inv h; rw [e]; clear e
  obtain ⟨_, _, h, e⟩ := ret_inv h; rw [e]; clear e
  by_cases h0 : cs.length = 0
  · rw [if_pos h0] at h ⊢; cases h; rw [h0]; exact ⟨[], by simp, .nil, rfl⟩
  · rw [if_neg h0] at h ⊢
    obtain ⟨_, _, h, e⟩ := ret_inv h; rw [e]; clear e
    obtain ⟨q, h1, h, e⟩ := bind_inv h; rw [e]; clear e
    cases h
    obtain ⟨e, t, r, hk⟩ := lutLoopC_records _ _ _ _ _ _ _ h1
    rw [kinds_pure, List.append_nil]
    exact ⟨e, t, r, hk (by omega)⟩

theorem lookupTableC_kinds {table ws : List (TRLWE N)} {cs : List (Gsw l N)} {p}
    (h : (lookupTableC table cs ws : Comp N n l _).run S = .ok p) :
    (lookupTableC table cs ws : Comp N n l _).kinds S = List.replicate (2 ^ cs.length - 1) .cmux := by
  unfold lookupTableC at h ⊢
  obtain ⟨q, h1, h, e⟩ := bind_inv h; rw [e]; clear e
  obtain ⟨_, _, _, hk⟩ := lookupTableTimerC_records h1
  rw [hk, kinds_pure, List.append_nil]

/-! ## BLOCK -/

theorem blockPropagateC_records {g : Graph} {cs : List (Gsw l N)} {d : List (List Nat)} : ∀ (k : Nat) (w out : List (TRLWE N))
    (timer : List (Target × Nat)) p, (blockPropagateC g cs d k w out timer : Comp N n l _).run S = .ok p →
    ∃ e, p.2.2 = timer ++ e ∧ Records ((blockPropagateC g cs d k w out timer : Comp N n l _).kinds S) e ∧
      (blockPropagateC g cs d k w out timer : Comp N n l _).kinds S = List.replicate ((d.take k).map List.length).sum .cmux := by
  intro k
  induction k with
  | zero => intro w out timer p h; cases h; exact ⟨[], by simp, .nil, by simp [blockPropagateC, kinds_pure]⟩
  | succ k ih =>
    intro w out timer p h
    rw [blockPropagateC] at h ⊢
    obtain ⟨sts, h0, h, e⟩ := ret_inv h; rw [e]; clear e
    obtain ⟨m, h1, h, e⟩ := bind_inv h; rw [e]; clear e
    obtain ⟨q, h2, h, e⟩ := ret_inv h; rw [e]; clear e
    rw [foldlM_kinds (fun _ _ _ => blockTaskC_kinds) _ _ _ h1, flatten_replicate_one]
    obtain ⟨e, t, r, hks⟩ := ih _ _ _ _ h
    refine ⟨(.cmux, sts.length) :: e, by rw [t, List.append_assoc]; rfl, (Records.cmux _).append r, ?_⟩
    rw [hks, ← List.replicate_add]
    have hs : d[k]? = some sts := by
      unfold vat at h0
      cases e : d[k]? <;> rw [e] at h0 <;> cases h0
      rfl
    obtain ⟨hk, rfl⟩ := List.getElem?_eq_some_iff.1 hs
    rw [List.take_succ_eq_append_getElem hk, List.map_append, List.sum_append, Nat.add_comm]
    simp

theorem Block.evalQueuedC_records {r r' : Block N l} (h : (r.evalQueuedC : Comp N n l _).run S = .ok r') :
    ∃ e, r'.timer = r.timer ++ e ∧ Records ((r.evalQueuedC : Comp N n l _).kinds S) e ∧
      (r.queued.length ≠ 0 → ∃ d, r.graph.trackLiveStates r.live r.queued.length = .ok d ∧ r'.live = d.getLastD [] ∧
        (r.evalQueuedC : Comp N n l _).kinds S = List.replicate ((d.take (countDown r.queued.length)).map List.length).sum .cmux ++
          (if r.live.length = 1 then [] else List.replicate (Nat.log2 r.live.length + 1) .circuitBootstrapping ++
            List.replicate (2 ^ (Nat.log2 r.live.length + 1) - 1) .cmux)) := by
  unfold Block.evalQueuedC at h ⊢
  dsimp only at h ⊢
  by_cases h0 : r.queued.length = 0
  · rw [if_pos h0] at h ⊢; cases h; exact ⟨[], by simp, .nil, fun h => absurd h0 h⟩
  · rw [if_neg h0] at h ⊢
    obtain ⟨d, hd, h, e⟩ := ret_inv h; rw [e]; clear e
    obtain ⟨w, _, h, e⟩ := ret_inv h; rw [e]; clear e
    obtain ⟨p, h1, h, e⟩ := bind_inv h; rw [e]; clear e
    obtain ⟨e1, t1, r1, k1⟩ := blockPropagateC_records _ _ _ _ _ h1
    by_cases hl : r.live.length = 1
    · rw [if_pos hl] at h ⊢
      obtain ⟨_, _, h, e⟩ := ret_inv h; rw [e]; clear e
      obtain ⟨_, _, h, e⟩ := ret_inv h; rw [e]; clear e
      cases h
      rw [kinds_pure, List.append_nil]
      exact ⟨e1, t1, r1, fun _ => ⟨d, hd, rfl, by rw [k1, if_pos hl, List.append_nil]⟩⟩
    · rw [if_neg hl] at h ⊢
      obtain ⟨_, _, h, e⟩ := ret_inv h; rw [e]; clear e
      obtain ⟨_, _, h, e⟩ := ret_inv h; rw [e]; clear e
      obtain ⟨m, h2, h, e⟩ := bind_inv h; rw [e]; clear e
      obtain ⟨cond, hc, h, e⟩ := ret_inv h; rw [e]; clear e
      obtain ⟨_, _, h, e⟩ := ret_inv h; rw [e]; clear e
      obtain ⟨_, _, h, e⟩ := ret_inv h; rw [e]; clear e
      obtain ⟨t, h3, h, e⟩ := bind_inv h; rw [e]; clear e
      obtain ⟨_, _, h, e⟩ := ret_inv h; rw [e]; clear e
      cases h
      obtain ⟨e3, t3, r3, k3⟩ := lookupTableTimerC_records h3
      rw [foldlM_kinds (fun _ _ _ => cbTaskC_kinds) _ _ _ h2, flatten_replicate_one, List.length_range, kinds_pure, List.append_nil]
      have hlen : cond.length = Nat.log2 r.live.length + 1 := by
        have := foldlM_shape (fun _ _ _ => cbTaskC_shape) _ _ _ h2
        cases m with
        | nil => simp [SameShape] at this
        | cons a m =>
          cases m with
          | cons => simp [SameShape] at this
          | nil => 
            cases hc
            unfold SameShape at this
            rw [List.map_cons, List.map_cons] at this
            exact (List.cons.inj this).1.trans List.length_replicate
      refine ⟨e1 ++ ([(.circuitBootstrapping, _)] ++ e3), by rw [t3, t1]; simp, r1.append ((Records.cb _).append r3), fun _ => ⟨d, hd, rfl, ?_⟩⟩
      rw [k1, if_neg hl, k3, hlen]

theorem Block.evalOneC_records {r r' : Block N l} {c : Gsw l N} (h : (r.evalOneC c : Comp N n l _).run S = .ok r') :
    ∃ e, r'.timer = r.timer ++ e ∧ Records ((r.evalOneC c : Comp N n l _).kinds S) e := by
  unfold Block.evalOneC at h ⊢
  dsimp only at h ⊢
  by_cases hq : (r.queued ++ [c]).length < r.queueSize
  · rw [if_pos hq] at h ⊢; cases h; exact ⟨[], by simp, .nil⟩
  · rw [if_neg hq] at h ⊢; obtain ⟨e, t, r, _⟩ := Block.evalQueuedC_records h; exact ⟨e, t, r⟩

theorem Block.resultC_records {r : Block N l} {p} (h : (r.resultC : Comp N n l _).run S = .ok p) :
    ∃ e, p.2.timer = r.timer ++ e ∧ Records ((r.resultC : Comp N n l _).kinds S) e := by
  unfold Block.resultC at h ⊢
  obtain ⟨r1, h1, h, e⟩ := bind_inv h; rw [e]; clear e
  obtain ⟨e, t, rr, _⟩ := Block.evalQueuedC_records h1
  cases hs : r1.selector with
  | none => rw [hs] at h; cases h
  | some s =>
    rw [hs] at h
    obtain ⟨_, _, h, e'⟩ := ret_inv h; dsimp only; rw [e']; clear e'
    cases h
    exact ⟨e, t, by rw [kinds_pure, List.append_nil]; exact rr⟩

/-! ## FLUT -/

theorem Flut.evalQueuedC_kinds {r r' : Flut N l} (h : (r.evalQueuedC : Comp N n l _).run S = .ok r') (h0 : r.queued.length ≠ 0) :
    (r.evalQueuedC : Comp N n l _).kinds S = List.replicate (2 ^ r'.first - 1) .cmux ++ List.replicate (2 ^ r'.second - 1) .cmux ++
      (List.replicate r'.live.length (if (r.numEval + 1) % r.bootFreq = 0 then [CallKind.keySwitch, .blindRotate, .toTrlwe]
        else [.toTrlwe])).flatten ∧
    r'.first + r'.second = r.queued.length ∧ r'.queued = [] ∧ r'.numEval = r.numEval + 1 ∧ r'.bootFreq = r.bootFreq := by
  unfold Flut.evalQueuedC at h ⊢
  dsimp only at h ⊢
  rw [if_neg h0] at h ⊢
  obtain ⟨memo, _, h, e⟩ := ret_inv h; rw [e]; clear e
  obtain ⟨next, _, h, e⟩ := ret_inv h; rw [e]; clear e
  obtain ⟨_, _, h, e⟩ := ret_inv h; rw [e]; clear e
  obtain ⟨d, hd, h, e⟩ := ret_inv h; rw [e]; clear e
  obtain ⟨_, _, h, e⟩ := ret_inv h; rw [e]; clear e
  obtain ⟨_, _, h, e⟩ := ret_inv h; rw [e]; clear e
  obtain ⟨_, _, h, e⟩ := ret_inv h; rw [e]; clear e
  obtain ⟨t1, h1, h, e⟩ := bind_inv h; rw [e]; clear e
  obtain ⟨_, _, h, e⟩ := ret_inv h; rw [e]; clear e
  obtain ⟨t2, h2, h, e⟩ := bind_inv h; rw [e]; clear e
  have hsum : d.1 + d.2 = r.queued.length := by
    unfold lutDepths at hd
    obtain ⟨cap, _, hd⟩ := Res.bind_eq_ok.1 hd
    split at hd
    · cases hd
    · obtain ⟨_, hc, hd⟩ := Res.bind_eq_ok.1 hd
      cases hd
      unfold cassert at hc
      split at hc
      · next hcc => simpa using hcc
      · cases hc
  rw [lookupTableC_kinds h1, lookupTableC_kinds h2, List.length_take, List.length_drop, Nat.min_eq_left (by omega),
    show r.queued.length - d.1 = d.2 by omega]
  by_cases hb : r.bootFreq = 0
  · rw [if_pos hb] at h; cases h
  · rw [if_neg hb] at h ⊢
    obtain ⟨m, h3, h, e⟩ := bind_inv h; rw [e]; clear e
    obtain ⟨_, _, h, e⟩ := ret_inv h; rw [e]; clear e
    cases h
    rw [foldlM_kinds (fun _ _ _ => splitTaskC_kinds) _ _ _ h3, kinds_pure, List.append_nil, List.append_assoc]
    refine ⟨?_, hsum, rfl, rfl, rfl⟩
    simp only [decide_eq_true_eq]

/-! ## Totals -/

theorem levels_levelSet {g : Graph} (hg : g.WF) {L : List Nat} (hs : SSorted L) (hL : ∀ q ∈ L, q < g.size) : Levels g L (g.levelSet L) := by
  intro j
  refine ⟨(Graph.sorted_levelSet hs j).nodup, fun q => ?_⟩
  rw [hg.mem_levelSet hL]
  constructor
  · rintro ⟨p, hp, w, hw, rfl⟩; exact ⟨p, hp, w, hw, (hg.run_ok (hL p hp) w).1⟩
  · rintro ⟨p, hp, w, hw, h⟩
    rw [(hg.run_ok (hL p hp) w).1] at h
    cases h
    exact ⟨p, hp, w, hw, rfl⟩

theorem backstream_total {G : Graph} {isz : Option Nat} {sz : Nat → Nat} {M : Nat}
    (hsz : ∀ np sts, np < M → evalStates G isz np = .ok sts → sts.length = sz np) (cs : List (Gsw l N)) :
    ∀ (r r' : Backstream N), r.numProcessed + cs.length ≤ M → r.graph = G → r.inputSize = isz → (cs.foldlM Backstream.evalC r : Comp N n l _).run S = .ok r' →
    ((cs.foldlM Backstream.evalC r : Comp N n l _).kinds S).count .cmux = ∑ i ∈ Finset.range cs.length, sz (r.numProcessed + i) := by
  induction cs with
  | nil => intro r r' _ _ _ _; rfl
  | cons c cs ih =>
    intro r r' hM hg hi h
    rw [List.foldlM_cons] at h ⊢
    obtain ⟨a, h1, h2, h3⟩ := bind_inv h
    obtain ⟨sts, e1, e2, _, e4, e5, e6⟩ := Backstream.evalC_kinds h1
    rw [h3, List.count_append, ih _ _ (by rw [e6]; rw [List.length_cons] at hM; omega) (e4.trans hg) (e5.trans hi) h2, e2, List.count_append, List.count_replicate_self, e6]
    rw [hg, hi] at e1
    rw [hsz _ _ (by rw [List.length_cons] at hM; omega) e1, List.length_cons, Finset.sum_range_succ', Nat.add_comm]
    congr 1
    · exact Finset.sum_congr rfl fun i _ => by congr 1; omega
    · split
      · rw [count_flatten_replicate]; simp
      · simp

/-- every `eval` of a run that succeeds finds its states -/
theorem backstream_states {G : Graph} {isz : Option Nat} (cs : List (Gsw l N)) :
    ∀ (r r' : Backstream N), r.graph = G → r.inputSize = isz → (cs.foldlM Backstream.evalC r : Comp N n l _).run S = .ok r' →
    ∀ i < cs.length, ∃ sts, evalStates G isz (r.numProcessed + i) = .ok sts := by
  induction cs with
  | nil => intro r r' _ _ _ i hi; cases hi
  | cons c cs ih =>
    intro r r' hg hi h i hlt
    rw [List.foldlM_cons] at h
    obtain ⟨a, h1, h2, h3⟩ := bind_inv h
    obtain ⟨sts, e1, e2, _, e4, e5, e6⟩ := Backstream.evalC_kinds h1
    cases i with
    | zero => rw [hg, hi] at e1; exact ⟨sts, e1⟩
    | succ i =>
      obtain ⟨s, hs⟩ := ih _ _ (e4.trans hg) (e5.trans hi) h2 i (by simpa using hlt)
      rw [e6] at hs
      exact ⟨s, by rw [← hs]; congr 1; omega⟩

/-- OFFLINE gets through all its inputs only if an `int` can count them -/
theorem offline_small {r r' : Backstream N} {cs : List (Gsw l N)} (h0 : r.numProcessed = 0) (hi : r.inputSize = some cs.length)
    (h : (cs.foldlM Backstream.evalC r : Comp N n l _).run S = .ok r') : cs.length < 2 ^ 31 := by
  by_contra hc
  obtain ⟨sts, hs⟩ := backstream_states cs r r' rfl hi h (cs.length - 2 ^ 31) (by omega)
  unfold evalStates at hs
  dsimp only at hs
  have : (cs.length : Int) - ((r.numProcessed + (cs.length - 2 ^ 31) : Nat) : Int) = 2 ^ 31 := by omega
  rw [this] at hs
  cases hs

/-- the loop of the online commands makes the calls of `eval` -/
theorem onlineLoopC_reverse_calls (outDir : Option String) (freq : Nat) (cs : List (Gsw l N)) : ∀ (i : Nat) (r : Backstream N) p,
    (onlineLoopC Backstream.evalC (fun r => do let c ← .ret r.result; pure (c, r)) outDir freq cs i r : Comp N n l _).run S = .ok p →
    (cs.foldlM Backstream.evalC r : Comp N n l _).run S = .ok p.2 ∧
    (onlineLoopC Backstream.evalC (fun r => do let c ← .ret r.result; pure (c, r)) outDir freq cs i r : Comp N n l _).kinds S =
      (cs.foldlM Backstream.evalC r : Comp N n l _).kinds S := by
  induction cs with
  | nil => intro i r p h; cases h; exact ⟨rfl, rfl⟩
  | cons c cs ih =>
    intro i r p h
    rw [onlineLoopC] at h ⊢
    rw [List.foldlM_cons]
    obtain ⟨r1, h1, h, e⟩ := bind_inv h; rw [e]; clear e
    rw [kinds_bind_ok h1, run_bind, h1, Res.bind_ok]
    cases outDir with
    | none => obtain ⟨a, b⟩ := ih _ _ _ h; exact ⟨a, by rw [b]⟩
    | some dir =>
      dsimp only at h ⊢
      by_cases hf : freq = 0
      · rw [if_pos hf] at h; cases h
      · rw [if_neg hf] at h ⊢
        by_cases hi : i % freq = freq - 1
        · rw [if_pos hi] at h ⊢
          obtain ⟨p1, h2, h, e⟩ := bind_inv h; rw [e]; clear e
          obtain ⟨c1, h3, h2, e⟩ := ret_inv h2; rw [e]; clear e
          cases h2
          obtain ⟨q, h4, h, e⟩ := bind_inv h; rw [e]; clear e
          cases h
          obtain ⟨a, b⟩ := ih _ _ _ h4
          exact ⟨a, by rw [b, kinds_pure, kinds_pure, List.append_nil, List.nil_append]⟩
        · rw [if_neg hi] at h ⊢
          obtain ⟨a, b⟩ := ih _ _ _ h
          exact ⟨a, by rw [b]⟩

end Homfa
