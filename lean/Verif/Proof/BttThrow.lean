import Verif.Proof.BttRun
import Verif.Proof.Count
import Verif.Proof.PlainTest

/-! What a run of the encrypted BTT runner that does not fail tells, for any backend. -/

namespace Homfa

variable {N n l : Nat} {S : GateScheme N n l}

theorem parFor_inv_keeps {α : Type} {Q : Mem α → Prop} : ∀ {ts : List (Prog α)} {m m' : Mem α},
    (∀ p ∈ ts, ∀ m m', Q m → p.run m = .ok m' → Q m') → Q m → parFor ts m = .ok m' → Q m' := by
  intro ts
  induction ts with
  | nil => intro m m' _ hm h; cases h; exact hm
  | cons p ts ih =>
    intro m m' hp hm h
    rw [parFor_cons] at h
    obtain ⟨m1, h1, h2⟩ := Res.bind_eq_ok.1 h
    exact ih (fun p h => hp p (by simp [h])) (hp p (by simp) m m1 hm h1) h2

theorem foldlM_inv_keeps {α β : Type} {Q : β → Prop} {f : β → α → Res β} : ∀ {xs : List α} {s s' : β},
    (∀ s x s', Q s → f s x = .ok s' → Q s') → Q s → xs.foldlM f s = .ok s' → Q s' := by
  intro xs
  induction xs with
  | nil => intro s s' _ hs h; cases h; exact hs
  | cons x xs ih =>
    intro s s' hf hs h
    rw [List.foldlM_cons] at h
    obtain ⟨s1, h1, h2⟩ := Res.bind_eq_ok.1 h
    exact ih hf (hf s x s1 hs h1) h2

theorem vset_length {α : Type} {v v' : List α} {i : Nat} {x : α} (h : vset v i x = .ok v') : v'.length = v.length := by
  unfold vset at h
  split at h
  · cases h; simp
  · cases h

theorem local_run {α β : Type} {r : Res β} {k : β → Prog α} {m m' : Mem α} (h : (Prog.local r k).run m = .ok m') :
    ∃ x, r = .ok x ∧ (k x).run m = .ok m' := by
  cases r with
  | error e => cases h
  | ok x => exact ⟨x, rfl, h⟩

theorem read_run {α : Type} {v i : Nat} {k : α → Prog α} {m m' : Mem α} (h : (Prog.read v i k).run m = .ok m') :
    ∃ x, mread m v i = .ok x ∧ (k x).run m = .ok m' := Res.bind_eq_ok.1 h

theorem write_run {α : Type} {v i : Nat} {x : α} {m m' : Mem α} (h : (Prog.write v i x .ret).run m = .ok m') : mwrite m v i x = .ok m' := by
  obtain ⟨m1, h1, h2⟩ := Res.bind_eq_ok.1 (show (do let m ← mwrite m v i x; Prog.ret.run m) = .ok m' from h)
  cases h2
  exact h1

theorem Weight.cmux_length {S : Scheme N n l} {o a b w : Weight N} {sel : Gsw l N} (h : Weight.cmux S o sel a b = .ok w) :
    w.counter.length = o.counter.length := by
  unfold Weight.cmux at h
  obtain ⟨_, _, h⟩ := Res.bind_eq_ok.1 h
  obtain ⟨_, _, h⟩ := Res.bind_eq_ok.1 h
  obtain ⟨cs, h1, h⟩ := Res.bind_eq_ok.1 h
  cases h
  refine foldlM_inv_keeps (Q := fun cs : List (Counter N) => cs.length = o.counter.length) (fun s i s' hs hf => ?_) rfl h1
  obtain ⟨_, _, hf⟩ := Res.bind_eq_ok.1 hf
  obtain ⟨_, _, hf⟩ := Res.bind_eq_ok.1 hf
  obtain ⟨_, _, hf⟩ := Res.bind_eq_ok.1 hf
  obtain ⟨_, _, hf⟩ := Res.bind_eq_ok.1 hf
  rw [vset_length hf, hs]

theorem Weight.fromSrc_counter {st : BitVec 64} {src w : Weight N} (h : Weight.fromSrc st src = .ok w) : w.counter = src.counter := by
  unfold Weight.fromSrc at h
  obtain ⟨_, _, h⟩ := Res.bind_eq_ok.1 h
  cases h
  rfl

theorem bttTask_run {S : Scheme N n l} {b : Btt} {state : Weight N} {input : Gsw l N} {q : Nat} {m m' : Mem (Option (Weight N))}
    (h : (bttTask S b state input q).run m = .ok m') :
    ∃ out : Weight N, out.counter.length = state.counter.length ∧ mwrite m 0 q (some out) = .ok m' := by
  unfold bttTask at h
  obtain ⟨_, _, h⟩ := local_run h
  obtain ⟨_, _, h⟩ := read_run h
  obtain ⟨_, _, h⟩ := local_run h
  obtain ⟨_, _, h⟩ := read_run h
  obtain ⟨_, _, h⟩ := local_run h
  obtain ⟨out, h1, h⟩ := local_run h
  obtain ⟨o, h2, h1⟩ := Res.bind_eq_ok.1 h1
  exact ⟨out, by rw [Weight.cmux_length h1, Weight.fromSrc_counter h2], write_run h⟩

/-- the weights present in a vector: of states at the depths `i, i + 2, ...`, with `k` counters -/
def Present (k : Nat) (atDepth : List (List Nat)) (i : Nat) (v : List (Option (Weight N))) : Prop :=
  ∀ (q : Nat) (w : Weight N), v[q]? = some (some w) → w.counter.length = k ∧ ∃ (j : Nat) (L : List Nat), atDepth[i + 2 * j]? = some L ∧ q ∈ L

theorem Present.shift {k : Nat} {atDepth : List (List Nat)} {i : Nat} {v : List (Option (Weight N))} (h : Present k atDepth (i + 2) v) :
    Present k atDepth i v := by
  intro q w hq
  obtain ⟨h1, j, L, h2, h3⟩ := h q w hq
  exact ⟨h1, j + 1, L, by rw [← h2]; congr 1; omega, h3⟩

theorem bttBlock_present {S : Scheme N n l} {b : Btt} {state : Weight N} {inputs : List (Gsw l N)} {atDepth : List (List Nat)} :
    ∀ (i : Nat) {weight temp out : List (Option (Weight N))}, Present state.counter.length atDepth i weight →
      Present state.counter.length atDepth (i + 1) temp → bttBlock S b state inputs atDepth i weight temp = .ok out →
      Present state.counter.length atDepth 0 out := by
  intro i
  induction i with
  | zero => intro weight temp out hw _ h; cases h; exact hw
  | succ i ih =>
    intro weight temp out hw ht h
    unfold bttBlock at h
    obtain ⟨input, _, h⟩ := Res.bind_eq_ok.1 h
    obtain ⟨states, h1, h⟩ := Res.bind_eq_ok.1 h
    obtain ⟨m, h2, h⟩ := Res.bind_eq_ok.1 h
    obtain ⟨p, h3, h⟩ := Res.bind_eq_ok.1 h
    have hm : ∃ t, m = [t, weight] ∧ Present state.counter.length atDepth i t := by
      refine parFor_inv_keeps (Q := fun m => ∃ t, m = [t, weight] ∧ Present state.counter.length atDepth i t) ?_ ⟨temp, rfl, ht.shift⟩ h2
      rintro p hp m m' ⟨t, rfl, hP⟩ hr
      obtain ⟨q, hq, rfl⟩ := List.mem_map.1 hp
      obtain ⟨o, ho, hwr⟩ := bttTask_run hr
      obtain ⟨v, hv, hm⟩ := Res.bind_eq_ok.1 (show (do let vec ← vset t q (some o); pure (([t, weight] : Mem _).set 0 vec)) = .ok m' from hwr)
      cases hm
      refine ⟨v, rfl, ?_⟩
      unfold vset at hv
      split at hv
      · rename_i hlt
        cases hv
        intro q' w' hw'
        by_cases hqq : q = q'
        · subst hqq
          rw [List.getElem?_set_self hlt] at hw'
          cases hw'
          exact ⟨ho, 0, states, vat_eq_ok.1 h1, hq⟩
        · rw [List.getElem?_set_ne hqq] at hw'
          exact hP q' w' hw'
      · cases hv
    obtain ⟨t, rfl, hP⟩ := hm
    cases h3
    exact ih hP hw h

theorem bttInit_present {G : Graph} {b : Btt} {state : Weight N} {next : List Nat} {weight : List (Option (Weight N))}
    (h : bttInit G b state next = .ok weight) :
    ∀ (q : Nat) (w : Weight N), weight[q]? = some (some w) → w.counter.length = state.counter.length ∧ q ∈ next := by
  unfold bttInit at h
  obtain ⟨idx, _, h⟩ := Res.bind_eq_ok.1 h
  have key : ∀ (todo : List Nat) (v v' : List (Option (Weight N))), (∀ q ∈ todo, q ∈ next) →
      (∀ (q : Nat) (w : Weight N), v[q]? = some (some w) → w.counter.length = state.counter.length ∧ q ∈ next) →
      todo.foldlM (fun (weight : List (Option (Weight N))) q => do
        let i ← vat idx q
        let w ← Weight.fromSrc (match i with
          | some i => BitVec.ofNat 64 i
          | none => BitVec.allOnes 64) state
        vset weight q (some w)) v = .ok v' →
      ∀ (q : Nat) (w : Weight N), v'[q]? = some (some w) → w.counter.length = state.counter.length ∧ q ∈ next := by
    intro todo
    induction todo with
    | nil => intro v v' _ hv h; cases h; exact hv
    | cons a todo ih =>
      intro v v' ht hv h
      rw [List.foldlM_cons] at h
      obtain ⟨v1, h1, h2⟩ := Res.bind_eq_ok.1 h
      refine ih v1 v' (fun q hq => ht q (by simp [hq])) ?_ h2
      obtain ⟨i, _, h1⟩ := Res.bind_eq_ok.1 h1
      obtain ⟨w, h3, h1⟩ := Res.bind_eq_ok.1 h1
      unfold vset at h1
      split at h1
      · rename_i hlt
        cases h1
        intro q w' hw'
        by_cases hqq : a = q
        · subst hqq
          rw [List.getElem?_set_self hlt] at hw'
          cases hw'
          exact ⟨by rw [Weight.fromSrc_counter h3], ht a (by simp)⟩
        · rw [List.getElem?_set_ne hqq] at hw'
          exact hv q w' hw'
      · cases h1
  refine key next _ weight (fun q h => h) ?_ h
  intro q w hq
  rw [List.getElem?_replicate] at hq
  split at hq <;> cases hq

theorem optValue_ok {α : Type} {o : Option α} {x : α} (h : optValue o = .ok x) : o = some x := by
  cases o with
  | none => cases h
  | some y => cases h; rfl

theorem wlutLoop_length {S : Scheme N n l} {k sz : Nat} : ∀ (cs : List (Gsw l N)) (i : Nat) {tmp table : List (Weight N)}
    {r : List (Weight N) × List (Weight N)}, (∀ w ∈ tmp, w.counter.length = k) → (∀ w ∈ table, w.counter.length = k) →
    wlutLoop S sz cs i tmp table = .ok r → ∀ w ∈ r.2, w.counter.length = k := by
  intro cs
  induction cs with
  | nil => intro i tmp table r _ h2 h; cases h; exact h2
  | cons c cs ih =>
    intro i tmp table r h1 h2 h
    unfold wlutLoop at h
    obtain ⟨cnt, _, h⟩ := Res.bind_eq_ok.1 h
    obtain ⟨m, h3, h⟩ := Res.bind_eq_ok.1 h
    obtain ⟨p, h4, h⟩ := Res.bind_eq_ok.1 h
    have hm : ∃ t, m = [t, table] ∧ ∀ w ∈ t, w.counter.length = k := by
      refine parFor_inv_keeps (Q := fun m => ∃ t, m = [t, table] ∧ ∀ w ∈ t, w.counter.length = k) ?_ ⟨tmp, rfl, h1⟩ h3
      rintro p hp m m' ⟨t, rfl, hP⟩ hr
      obtain ⟨j, _, rfl⟩ := List.mem_map.1 hp
      unfold wlutTask at hr
      obtain ⟨o, ho, hr⟩ := read_run hr
      obtain ⟨_, _, hr⟩ := read_run hr
      obtain ⟨_, _, hr⟩ := read_run hr
      obtain ⟨x, hx, hr⟩ := local_run hr
      have hwr := write_run hr
      obtain ⟨v, hv, hm⟩ := Res.bind_eq_ok.1 (show (do let vec ← vset t j x; pure (([t, table] : Mem _).set 0 vec)) = .ok m' from hwr)
      cases hm
      refine ⟨v, rfl, ?_⟩
      unfold vset at hv
      split at hv
      · cases hv
        intro w hw
        rcases List.mem_or_eq_of_mem_set hw with hw | rfl
        · exact hP w hw
        · rw [Weight.cmux_length hx]
          exact hP o (List.mem_of_getElem? (vat_eq_ok.1 ho))
      · cases hv
    obtain ⟨t, rfl, hP⟩ := hm
    cases h4
    exact ih (i + 1) h2 hP h

theorem bttSelect_run {k : Nat} {state : Weight N} (hk : state.counter.length = k) {live : List Nat} {weight : List (Option (Weight N))}
    {atDepth : List (List Nat)} (hw : Present k atDepth 0 weight) {w : Weight N} (h : bttSelect S state live weight = .ok w) :
    w.counter.length = k ∧ (live.length = 1 → ∃ (j : Nat) (L : List Nat), atDepth[2 * j]? = some L ∧ 0 ∈ L) := by
  unfold bttSelect at h
  split at h
  · obtain ⟨o, h1, h⟩ := Res.bind_eq_ok.1 h
    rw [optValue_ok h] at h1
    obtain ⟨h2, j, L, h3, h4⟩ := hw 0 w (vat_eq_ok.1 h1)
    exact ⟨h2, fun _ => ⟨j, L, by rw [← h3]; congr 1; omega, h4⟩⟩
  · rename_i hl
    refine ⟨?_, fun h => absurd h hl⟩
    obtain ⟨sels, _, h⟩ := Res.bind_eq_ok.1 h
    obtain ⟨cand, h1, h⟩ := Res.bind_eq_ok.1 h
    obtain ⟨sz, _, h⟩ := Res.bind_eq_ok.1 h
    obtain ⟨d, h2, h⟩ := Res.bind_eq_ok.1 h
    obtain ⟨t, h3, h⟩ := Res.bind_eq_ok.1 h
    have hcand : ∀ c ∈ cand, c.counter.length = k := by
      intro c hc
      have key : ∀ (xs : List Nat) (cand : List (Weight N)), xs.mapM (fun i => do
          let q ← vat live i
          let w ← vat weight q
          optValue w) = .ok cand → ∀ c ∈ cand, c.counter.length = k := by
        intro xs
        induction xs with
        | nil => intro cand h c hc; cases h; simp at hc
        | cons x xs ih =>
          intro cand h c hc
          rw [List.mapM_cons] at h
          obtain ⟨y, h4, h⟩ := Res.bind_eq_ok.1 h
          obtain ⟨ys, h5, h⟩ := Res.bind_eq_ok.1 h
          cases h
          rcases List.mem_cons.1 hc with rfl | hc
          · obtain ⟨q, _, h4⟩ := Res.bind_eq_ok.1 h4
            obtain ⟨o, h6, h4⟩ := Res.bind_eq_ok.1 h4
            rw [optValue_ok h4] at h6
            exact (hw q _ (vat_eq_ok.1 h6)).1
          · exact ih ys h5 c hc
      exact key _ cand h1 c hc
    have htab : ∀ c ∈ vresize cand sz d, c.counter.length = k := by
      intro c hc
      unfold vresize at hc
      rcases List.mem_append.1 hc with hc | hc
      · exact hcand c (List.mem_of_mem_take hc)
      · rw [List.eq_of_mem_replicate hc, Weight.fromSrc_counter h2, hk]
    have ht : ∀ c ∈ t, c.counter.length = k := by
      unfold wlookupTable at h3
      obtain ⟨_, _, h3⟩ := Res.bind_eq_ok.1 h3
      obtain ⟨_, _, h3⟩ := Res.bind_eq_ok.1 h3
      split at h3
      · cases h3; exact htab
      · obtain ⟨hf, _, h3⟩ := Res.bind_eq_ok.1 h3
        obtain ⟨d', h7, h3⟩ := Res.bind_eq_ok.1 h3
        obtain ⟨r, h8, h3⟩ := Res.bind_eq_ok.1 h3
        cases h3
        refine wlutLoop_length _ _ ?_ htab h8
        intro c hc
        rw [List.eq_of_mem_replicate hc]
        exact htab _ (List.mem_of_getElem? (vat_eq_ok.1 h7))
    exact ht w (List.mem_of_getElem? (vat_eq_ok.1 h))

theorem updateCounters_length {w w' : Weight N} (h : w.updateCounters S = .ok w') : w'.counter.length = w.counter.length := by
  unfold Weight.updateCounters at h
  obtain ⟨m, h1, h⟩ := Res.bind_eq_ok.1 h
  obtain ⟨cs, h2, h⟩ := Res.bind_eq_ok.1 h
  cases h
  have hm : ∃ t, m = [t] ∧ t.length = w.counter.length := by
    refine parFor_inv_keeps (Q := fun m => ∃ t, m = [t] ∧ t.length = w.counter.length) ?_ ⟨_, rfl, rfl⟩ h1
    rintro p hp m m' ⟨t, rfl, hP⟩ hr
    obtain ⟨j, _, rfl⟩ := List.mem_map.1 hp
    unfold updateTask at hr
    obtain ⟨_, _, hr⟩ := local_run hr
    obtain ⟨_, _, hr⟩ := read_run hr
    obtain ⟨x, _, hr⟩ := local_run hr
    have hwr := write_run hr
    obtain ⟨v, hv, hm⟩ := Res.bind_eq_ok.1 (show (do let vec ← vset t j x; pure (([t] : Mem _).set 0 vec)) = .ok m' from hwr)
    cases hm
    exact ⟨v, rfl, by rw [vset_length hv, hP]⟩
  obtain ⟨t, rfl, ht⟩ := hm
  cases h2
  exact ht

/-- what is known after `t` inputs that did not fail -/
structure RunInv (b : Btt) (G : Graph) (t : Nat) (r : BttRunner N l) : Prop where
  btt : r.btt = b
  graph : r.graph = G
  size : r.queueSize = 1
  queued : r.queued = []
  live : r.live = G.levelSet [0] (t * (b.counters.length + 1))
  len : r.state.counter.length = b.counters.length

theorem RunInv.make {b : Btt} {G : Graph} (hG : b.toGraph = .ok G) {r : BttRunner N l} (h : BttRunner.make b 1 = .ok r) : RunInv b G 0 r := by
  unfold BttRunner.make at h
  rw [hG, Res.bind_ok] at h
  obtain ⟨st, h1, h⟩ := Res.bind_eq_ok.1 h
  cases h
  refine ⟨rfl, rfl, rfl, rfl, by simp [Graph.levelSet], ?_⟩
  unfold Weight.make at h1
  obtain ⟨_, _, h1⟩ := Res.bind_eq_ok.1 h1
  obtain ⟨cs, h2, h1⟩ := Res.bind_eq_ok.1 h1
  cases h1
  exact PlainTest.mapM_length h2

theorem RunInv.step {b : Btt} {G : Graph} (hG : G.WF) (hs : 0 < G.size) {t : Nat} {r r' : BttRunner N l} (hI : RunInv b G t r) {c : Gsw l N}
    {trees : Nat → RedTree} (h : r.evalOne S c trees = .ok r') : RunInv b G (t + 1) r' ∧
      (r.live.length = 1 → ∃ j, 2 * j ≤ b.counters.length + 1 ∧ 0 ∈ G.levelSet [0] (t * (b.counters.length + 1) + 2 * j)) := by
  obtain ⟨ib, ig, isz, iq, il, ilen⟩ := hI
  have h0 : ∀ q ∈ [0], q < G.size := by simpa using hs
  have hsort : SSorted r.live := by rw [il]; exact Graph.sorted_levelSet (by simp) _
  have hlt : ∀ q ∈ r.live, q < G.size := by rw [il]; exact Graph.levelSet_lt h0 _
  unfold BttRunner.evalOne at h
  dsimp only at h
  rw [iq, isz, if_neg (by simp)] at h
  unfold BttRunner.evalQueued at h
  dsimp only at h
  rw [if_neg (by simp)] at h
  obtain ⟨conds, h1, h⟩ := Res.bind_eq_ok.1 h
  have hcl : conds.length = b.counters.length := by
    unfold Weight.conditions at h1
    rw [PlainTest.mapM_length h1, List.length_range, ilen]
  rw [List.nil_append] at h
  have hilen : (conds ++ [c]).length = b.counters.length + 1 := by simp [hcl]
  rw [ig, ib, Graph.track_ok' hG hsort hlt, Res.bind_ok, hilen] at h
  have hlast : ((List.range (b.counters.length + 1 + 1)).map (G.levelSet r.live)).getLastD [] = G.levelSet r.live (b.counters.length + 1) := by
    rw [List.range_succ, List.map_append]; simp
  rw [hlast] at h
  obtain ⟨w0, h2, h⟩ := Res.bind_eq_ok.1 h
  obtain ⟨w1, h3, h⟩ := Res.bind_eq_ok.1 h
  obtain ⟨st, h4, h⟩ := Res.bind_eq_ok.1 h
  obtain ⟨st', h5, h⟩ := Res.bind_eq_ok.1 h
  cases h
  have hat : ∀ i L, ((List.range (b.counters.length + 1 + 1)).map (G.levelSet r.live))[i]? = some L → i ≤ b.counters.length + 1 ∧
      L = G.levelSet r.live i := by
    intro i L h
    rw [List.getElem?_map] at h
    by_cases hi : i < b.counters.length + 1 + 1
    · rw [List.getElem?_range hi] at h
      cases h
      exact ⟨by omega, rfl⟩
    · rw [List.getElem?_eq_none (by simp; omega)] at h
      cases h
  have hp := bttBlock_present (b.counters.length + 1) (weight := w0) (temp := List.replicate b.size none) (out := w1) (by
      intro q w hq
      obtain ⟨a1, a2⟩ := bttInit_present h2 q w hq
      refine ⟨a1, 0, _, ?_, a2⟩
      rw [List.getElem?_map, List.getElem?_range (by omega)]
      rfl) (by
      intro q w hq
      rw [List.getElem?_replicate] at hq
      split at hq <;> cases hq) h3
  obtain ⟨k1, k2⟩ := bttSelect_run (S := S) rfl hp h4
  refine ⟨⟨rfl, rfl, rfl, rfl, ?_, ?_⟩, fun h1 => ?_⟩
  · show G.levelSet r.live (b.counters.length + 1) = _
    rw [il, Graph.levelSet_add, Nat.add_mul, Nat.one_mul]
  · show st'.counter.length = _
    rw [updateCounters_length h5, k1, ilen]
  · obtain ⟨j, L, a1, a2⟩ := k2 h1
    obtain ⟨a3, rfl⟩ := hat _ _ a1
    refine ⟨j, a3, ?_⟩
    rw [il, Graph.levelSet_add] at a2
    exact a2

/-- if the runner takes `t + 1` inputs and only one state is possible before the last of them, state 0 is possible an even number of transitions later -/
theorem bttRun_single {b : Btt} (hb : b.Table) {cs : List (Gsw l N × (Nat → RedTree))} {r : BttRunner N l} (h : bttRun S b cs = .ok r) {t q : Nat}
    (ht : t < cs.length) (hq : ∀ q', b.Reach (t * (b.counters.length + 1)) q' ↔ q' = q) :
    ∃ j, 2 * j ≤ b.counters.length + 1 ∧ b.Reach (t * (b.counters.length + 1) + 2 * j) 0 := by
  obtain ⟨G, hG, hwf, hs, hnx⟩ := hb.toGraph_ok
  have hpos : 0 < G.size := by rw [hs]; exact hb.size_pos
  unfold bttRun at h
  obtain ⟨r0, h0, h⟩ := Res.bind_eq_ok.1 h
  have hI := RunInv.make hG h0
  have hsplit : cs = cs.take t ++ cs[t] :: cs.drop (t + 1) := by rw [← List.drop_eq_getElem_cons ht, List.take_append_drop]
  rw [hsplit, List.foldlM_append] at h
  obtain ⟨r1, h1, h⟩ := Res.bind_eq_ok.1 h
  rw [List.foldlM_cons] at h
  obtain ⟨r2, h2, _⟩ := Res.bind_eq_ok.1 h
  have key : ∀ (xs : List (Gsw l N × (Nat → RedTree))) (u : Nat) (r r' : BttRunner N l), RunInv b G u r →
      xs.foldlM (fun r c => r.evalOne S c.1 c.2) r = .ok r' → RunInv b G (u + xs.length) r' := by
    intro xs
    induction xs with
    | nil => intro u r r' h e; cases e; exact h
    | cons x xs ih =>
      intro u r r' h e
      rw [List.foldlM_cons] at e
      obtain ⟨r'', e1, e2⟩ := Res.bind_eq_ok.1 e
      have := ih (u + 1) r'' r' (h.step hwf hpos e1).1 e2
      rw [List.length_cons, show u + (xs.length + 1) = u + 1 + xs.length by omega]
      exact this
  have hI1 := key _ 0 r0 r1 hI h1
  rw [Nat.zero_add, List.length_take, Nat.min_eq_left (by omega)] at hI1
  have hlive : r1.live = [q] := by
    have hsort : SSorted r1.live := by rw [hI1.live]; exact Graph.sorted_levelSet (by simp) _
    exact hsort.ext (by simp) (fun x => by rw [hI1.live, hb.reach_iff hwf hs hnx, hq, List.mem_singleton])
  obtain ⟨j, a1, a2⟩ := (hI1.step hwf hpos h2).2 (by rw [hlive]; rfl)
  exact ⟨j, a1, (hb.reach_iff hwf hs hnx _ _).1 a2⟩

end Homfa
