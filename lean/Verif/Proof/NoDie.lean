import Verif.Model.Commands
import Verif.Model.SpecTools
import Verif.Model.Shell
/-!
# Helpers for C122: the parts of the program that say nothing never give up with `error_die`
-/

namespace Homfa

variable {N n l : Nat} {α β σ : Type}

/-- The computation does not end in `error_die`. -/
structure NoDie (r : Res α) : Prop where
  out : r ≠ .error .die

namespace NoDie

theorem ok (x : α) : NoDie (.ok x : Res α) := ⟨nofun⟩

theorem err {e : Err} (h : e ≠ .die) : NoDie (.error e : Res α) := ⟨fun h' => h (Except.error.inj h')⟩

theorem bind {r : Res α} {f : α → Res β} (h : NoDie r) (hf : ∀ x, NoDie (f x)) : NoDie (r >>= f) := by
  cases r with
  | ok x => exact hf x
  | error e =>
    refine ⟨fun h' => ?_⟩
    have : e = .die := Except.error.inj h'
    subst this
    exact h.out rfl

theorem bind' {r : Res α} {f : α → Res β} (h : NoDie r) (hf : ∀ x, NoDie (f x)) : NoDie (Except.bind r f) := bind h hf

theorem foldlM {f : β → α → Res β} (h : ∀ b x, NoDie (f b x)) : ∀ (xs : List α) (b : β), NoDie (xs.foldlM f b)
  | [], b => ok b
  | x :: xs, b => by
    rw [List.foldlM_cons]
    exact bind (h b x) fun c => foldlM h xs c

theorem mapM {f : α → Res β} (h : ∀ x, NoDie (f x)) : ∀ xs : List α, NoDie (xs.mapM f)
  | [] => ok []
  | x :: xs => by
    rw [List.mapM_cons]
    exact bind (h x) fun y => bind (mapM h xs) fun ys => ok _

theorem whileM {cond : σ → Bool} {body : σ → Res σ} (h : ∀ s, NoDie (body s)) : ∀ (k : Nat) (s : σ), NoDie (Homfa.whileM cond body k s)
  | 0, s => by
    unfold Homfa.whileM
    split
    · exact err nofun
    · exact ok _
  | k + 1, s => by
    unfold Homfa.whileM
    split
    · exact bind' (h s) fun t => whileM h k t
    · exact ok _

theorem vat (v : List α) (i : Nat) : NoDie (Homfa.vat v i) := by
  unfold Homfa.vat
  cases v[i]? with
  | some x => exact ok x
  | none => exact err nofun

theorem vset (v : List α) (i : Nat) (x : α) : NoDie (Homfa.vset v i x) := by
  unfold Homfa.vset
  split
  · exact ok _
  · exact err nofun

theorem cassert (b : Bool) : NoDie (Homfa.cassert b) := by
  cases b
  · exact err nofun
  · exact ok _

theorem mapAt {κ : Type} [BEq κ] (m : List (κ × α)) (k : κ) : NoDie (Homfa.mapAt m k) := by
  unfold Homfa.mapAt
  cases m.lookup k with
  | some x => exact ok x
  | none => exact err nofun

end NoDie

/-- One step of such a proof; more steps are added below. -/
syntax "nodie1" : tactic
macro_rules | `(tactic| nodie1) => `(tactic| dsimp only)
macro_rules | `(tactic| nodie1) => `(tactic| split)
macro_rules | `(tactic| nodie1) => `(tactic| intro _)
macro_rules | `(tactic| nodie1) => `(tactic| refine NoDie.bind' ?_ ?_)
macro_rules | `(tactic| nodie1) => `(tactic| refine NoDie.bind ?_ ?_)
macro_rules | `(tactic| nodie1) => `(tactic| refine NoDie.foldlM ?_ _ _)
macro_rules | `(tactic| nodie1) => `(tactic| refine NoDie.mapM ?_ _)
macro_rules | `(tactic| nodie1) => `(tactic| refine NoDie.whileM ?_ _ _)
macro_rules | `(tactic| nodie1) => `(tactic| exact NoDie.err nofun)
macro_rules | `(tactic| nodie1) => `(tactic| exact NoDie.ok _)
macro_rules | `(tactic| nodie1) => `(tactic| with_reducible exact NoDie.vat _ _)
macro_rules | `(tactic| nodie1) => `(tactic| with_reducible exact NoDie.vset _ _ _)
macro_rules | `(tactic| nodie1) => `(tactic| with_reducible exact NoDie.cassert _)
macro_rules | `(tactic| nodie1) => `(tactic| with_reducible exact NoDie.mapAt _ _)
macro_rules | `(tactic| nodie1) => `(tactic| assumption)
/-- All steps. -/
macro "nodie" : tactic => `(tactic| repeat' nodie1)

namespace NoDie

theorem pushAt (v : List (List Nat)) (i x : Nat) : NoDie (Homfa.pushAt v i x) := by unfold Homfa.pushAt; nodie
macro_rules | `(tactic| nodie1) => `(tactic| with_reducible exact NoDie.pushAt _ _ _)
theorem shlInt64 (i : Nat) : NoDie (Homfa.shlInt64 i) := by unfold Homfa.shlInt64; nodie
macro_rules | `(tactic| nodie1) => `(tactic| with_reducible exact NoDie.shlInt64 _)

theorem make (init : Nat) (finals : List Nat) (delta : List (Nat × Nat × Nat)) : NoDie (Graph.make init finals delta) := by unfold Graph.make; nodie
macro_rules | `(tactic| nodie1) => `(tactic| with_reducible exact NoDie.make _ _ _)
theorem isFinalState (g : Graph) (q : Nat) : NoDie (g.isFinalState q) := by unfold Graph.isFinalState; nodie
macro_rules | `(tactic| nodie1) => `(tactic| with_reducible exact NoDie.isFinalState _ _)
theorem nextState (g : Graph) (q : Nat) (b : Bool) : NoDie (g.nextState q b) := by unfold Graph.nextState; nodie
macro_rules | `(tactic| nodie1) => `(tactic| with_reducible exact NoDie.nextState _ _ _)
theorem prevStates (g : Graph) (q : Nat) (b : Bool) : NoDie (g.prevStates q b) := by unfold Graph.prevStates; nodie
macro_rules | `(tactic| nodie1) => `(tactic| with_reducible exact NoDie.prevStates _ _ _)
theorem transition64 (g : Graph) (q : Nat) (x : BitVec 64) (k : Nat) : NoDie (g.transition64 q x k) := by unfold Graph.transition64; nodie
macro_rules | `(tactic| nodie1) => `(tactic| with_reducible exact NoDie.transition64 _ _ _ _)
theorem depthRound (g : Graph) (s : List Bool) : NoDie (g.depthRound s) := by unfold Graph.depthRound; nodie
macro_rules | `(tactic| nodie1) => `(tactic| with_reducible exact NoDie.depthRound _ _)
theorem reserveStatesAtDepth (g : Graph) (k : Nat) : NoDie (g.reserveStatesAtDepth k) := by unfold Graph.reserveStatesAtDepth; nodie
macro_rules | `(tactic| nodie1) => `(tactic| with_reducible exact NoDie.reserveStatesAtDepth _ _)
theorem statesAtDepthAt (g : Graph) (k : Nat) : NoDie (g.statesAtDepthAt k) := by unfold Graph.statesAtDepthAt; nodie
macro_rules | `(tactic| nodie1) => `(tactic| with_reducible exact NoDie.statesAtDepthAt _ _)
theorem liveRound (g : Graph) (s : List Nat) : NoDie (g.liveRound s) := by unfold Graph.liveRound; nodie
macro_rules | `(tactic| nodie1) => `(tactic| with_reducible exact NoDie.liveRound _ _)
theorem trackLiveStates (g : Graph) (s : List Nat) (k : Nat) : NoDie (g.trackLiveStates s k) := by unfold Graph.trackLiveStates; nodie
macro_rules | `(tactic| nodie1) => `(tactic| with_reducible exact NoDie.trackLiveStates _ _ _)
theorem negated (g : Graph) : NoDie g.negated := by unfold Graph.negated; nodie
macro_rules | `(tactic| nodie1) => `(tactic| with_reducible exact NoDie.negated _)

theorem succs (dn : NFADelta) (qs : List Nat) : NoDie (FromNfa.succs dn qs) := by unfold FromNfa.succs; nodie
macro_rules | `(tactic| nodie1) => `(tactic| with_reducible exact NoDie.succs _ _)
theorem body (fn : List Nat) (dn : NFADelta) (s : FromNfa.St) : NoDie (FromNfa.body fn dn s) := by unfold FromNfa.body; nodie
macro_rules | `(tactic| nodie1) => `(tactic| with_reducible exact NoDie.body _ _ _)
theorem finishDelta (df : List (Option (Nat × Nat))) : NoDie (FromNfa.finishDelta df) := by unfold FromNfa.finishDelta; nodie
macro_rules | `(tactic| nodie1) => `(tactic| with_reducible exact NoDie.finishDelta _)
theorem fromNfa (a b : List Nat) (dn : NFADelta) : NoDie (Graph.fromNfa a b dn) := by unfold Graph.fromNfa; nodie
macro_rules | `(tactic| nodie1) => `(tactic| with_reducible exact NoDie.fromNfa _ _ _)
theorem reversed (g : Graph) : NoDie g.reversed := by unfold Graph.reversed; nodie
macro_rules | `(tactic| nodie1) => `(tactic| with_reducible exact NoDie.reversed _)

theorem findAux : ∀ (k : Nat) (g : List Nat) (x : Nat), NoDie (UnionFind.findAux k g x)
  | 0, _, _ => err nofun
  | k + 1, g, x => by
    have := findAux k
    unfold UnionFind.findAux
    refine bind (NoDie.vat _ _) fun p => ?_
    split
    · exact ok _
    · refine bind (this _ _) fun q => ?_
      nodie
theorem find (g : List Nat) (x : Nat) : NoDie (UnionFind.find g x) := findAux _ _ _
macro_rules | `(tactic| nodie1) => `(tactic| with_reducible exact NoDie.find _ _)
theorem unite (g : List Nat) (x y : Nat) : NoDie (UnionFind.unite g x y) := by unfold UnionFind.unite; nodie
macro_rules | `(tactic| nodie1) => `(tactic| with_reducible exact NoDie.unite _ _ _)
theorem size (g : List Nat) : NoDie (UnionFind.size g) := by unfold UnionFind.size; nodie
macro_rules | `(tactic| nodie1) => `(tactic| with_reducible exact NoDie.size _)
theorem reachBody (g : Graph) (s : List Nat × List Nat) : NoDie (g.reachBody s) := by unfold Graph.reachBody; nodie
macro_rules | `(tactic| nodie1) => `(tactic| with_reducible exact NoDie.reachBody _ _)
theorem removedUnreachable (g : Graph) : NoDie g.removedUnreachable := by unfold Graph.removedUnreachable; nodie
macro_rules | `(tactic| nodie1) => `(tactic| with_reducible exact NoDie.removedUnreachable _)
theorem tableInit (g : Graph) : NoDie g.tableInit := by unfold Graph.tableInit; nodie
macro_rules | `(tactic| nodie1) => `(tactic| with_reducible exact NoDie.tableInit _)
theorem tableMark (k : Nat) (s : Graph.TableSt) (a b : Nat) : NoDie (Graph.tableMark k s a b) := by unfold Graph.tableMark; nodie
macro_rules | `(tactic| nodie1) => `(tactic| with_reducible exact NoDie.tableMark _ _ _ _)
theorem tableBody (g : Graph) (s : Graph.TableSt) : NoDie (g.tableBody s) := by unfold Graph.tableBody; nodie
macro_rules | `(tactic| nodie1) => `(tactic| with_reducible exact NoDie.tableBody _ _)
theorem fillTable (g : Graph) : NoDie g.fillTable := by unfold Graph.fillTable; nodie
macro_rules | `(tactic| nodie1) => `(tactic| with_reducible exact NoDie.fillTable _)
theorem uniteAll (k : Nat) (t : List Bool) : NoDie (Graph.uniteAll k t) := by unfold Graph.uniteAll; nodie
macro_rules | `(tactic| nodie1) => `(tactic| with_reducible exact NoDie.uniteAll _ _)
theorem groupBody (s : Graph.GroupSt) (q : Nat) : NoDie (Graph.groupBody s q) := by unfold Graph.groupBody; nodie
macro_rules | `(tactic| nodie1) => `(tactic| with_reducible exact NoDie.groupBody _ _)
theorem groupOf (a : List (Option Nat)) (b : List Nat) (q : Nat) : NoDie (Graph.groupOf a b q) := by unfold Graph.groupOf; nodie
macro_rules | `(tactic| nodie1) => `(tactic| with_reducible exact NoDie.groupOf _ _ _)
theorem outBody (g : Graph) (a : List (Option Nat)) (o : Graph.OutSt) (e : List Nat × Nat) : NoDie (g.outBody a o e) := by unfold Graph.outBody; nodie
macro_rules | `(tactic| nodie1) => `(tactic| with_reducible exact NoDie.outBody _ _ _ _)
theorem groupedNondistinguishable (g : Graph) : NoDie g.groupedNondistinguishable := by unfold Graph.groupedNondistinguishable; nodie
macro_rules | `(tactic| nodie1) => `(tactic| with_reducible exact NoDie.groupedNondistinguishable _)
theorem minimized (g : Graph) : NoDie g.minimized := by unfold Graph.minimized; nodie
macro_rules | `(tactic| nodie1) => `(tactic| with_reducible exact NoDie.minimized _)

theorem dump (g : Graph) : NoDie g.dump := by unfold Graph.dump; nodie
macro_rules | `(tactic| nodie1) => `(tactic| with_reducible exact NoDie.dump _)
theorem dumpAtt (g : Graph) : NoDie g.dumpAtt := by unfold Graph.dumpAtt; nodie
macro_rules | `(tactic| nodie1) => `(tactic| with_reducible exact NoDie.dumpAtt _)
theorem dumpDot (g : Graph) : NoDie g.dumpDot := by unfold Graph.dumpDot; nodie
macro_rules | `(tactic| nodie1) => `(tactic| with_reducible exact NoDie.dumpDot _)


/-! ## Formulas -/

theorem pushEdge (b : Bool) (v : List (List Nat × List Nat × α)) (i x : Nat) : NoDie (Ltl.pushEdge b v i x) := by unfold Ltl.pushEdge; nodie
macro_rules | `(tactic| nodie1) => `(tactic| with_reducible exact NoDie.pushEdge _ _ _ _)
theorem revNode (s : Ltl.RevSt) (a b c : Bdd) : NoDie (Ltl.revNode s a b c) := by unfold Ltl.revNode; nodie
macro_rules | `(tactic| nodie1) => `(tactic| with_reducible exact NoDie.revNode _ _ _ _)
theorem revBody (s : Ltl.RevSt) : NoDie (Ltl.revBody s) := by unfold Ltl.revBody; nodie
macro_rules | `(tactic| nodie1) => `(tactic| with_reducible exact NoDie.revBody _)
theorem revBdd (c : Bdd) : NoDie (Ltl.revBdd c) := by unfold Ltl.revBdd; nodie
macro_rules | `(tactic| nodie1) => `(tactic| with_reducible exact NoDie.revBdd _)
theorem pushRow (b : Bool) (d : NFADelta) (q x : Nat) : NoDie (Ltl.pushRow b d q x) := by unfold Ltl.pushRow; nodie
macro_rules | `(tactic| nodie1) => `(tactic| with_reducible exact NoDie.pushRow _ _ _ _)
theorem parentStep (v : List (Nat × Nat)) (r : List (List Nat × List Nat × Bdd)) (a b : Nat) (c : Bool) (s : Ltl.ExpSt) (p : Nat) : NoDie (Ltl.parentStep v r a b c s p) := by unfold Ltl.parentStep; nodie
macro_rules | `(tactic| nodie1) => `(tactic| with_reducible exact NoDie.parentStep _ _ _ _ _ _ _)
theorem expNode (v : List (Nat × Nat)) (r : List (List Nat × List Nat × Bdd)) (a b c : Nat) (s : Ltl.ExpSt) : NoDie (Ltl.expNode v r a b c s) := by unfold Ltl.expNode; nodie
macro_rules | `(tactic| nodie1) => `(tactic| with_reducible exact NoDie.expNode _ _ _ _ _ _)
theorem expBody (v : List (Nat × Nat)) (r : List (List Nat × List Nat × Bdd)) (s : Ltl.ExpSt) : NoDie (Ltl.expBody v r s) := by unfold Ltl.expBody; nodie
macro_rules | `(tactic| nodie1) => `(tactic| with_reducible exact NoDie.expBody _ _ _)
theorem addSrc (d : NFADelta) (a b : Nat) : NoDie (Ltl.addSrc d a b) := by unfold Ltl.addSrc; nodie
macro_rules | `(tactic| nodie1) => `(tactic| with_reducible exact NoDie.addSrc _ _ _)
theorem expandEdge (v : List (Nat × Nat)) (a b : Nat) (d : NFADelta) (e : Bdd × Nat) : NoDie (Ltl.expandEdge v a b d e) := by unfold Ltl.expandEdge; nodie
macro_rules | `(tactic| nodie1) => `(tactic| with_reducible exact NoDie.expandEdge _ _ _ _ _)
theorem nfaTuple (m : Monitor) (k : Nat) (f : Bool) : NoDie (Ltl.nfaTuple m k f) := by unfold Ltl.nfaTuple; nodie
macro_rules | `(tactic| nodie1) => `(tactic| with_reducible exact NoDie.nfaTuple _ _ _)
theorem fromMonitor (m : Monitor) (k : Nat) (f : Bool) : NoDie (Graph.fromMonitor m k f) := by unfold Graph.fromMonitor; nodie
macro_rules | `(tactic| nodie1) => `(tactic| with_reducible exact NoDie.fromMonitor _ _ _)
theorem doLtl2spec (m : Monitor) (k : Nat) (f : Bool) : NoDie (Homfa.doLtl2spec m k f) := by unfold Homfa.doLtl2spec; nodie
macro_rules | `(tactic| nodie1) => `(tactic| with_reducible exact NoDie.doLtl2spec _ _ _)

/-! ## Inputs -/

theorem inputByte {func : σ → Bool → Res σ} (h : ∀ s b, NoDie (func s b)) : ∀ (k : Nat) (v : Byte) (r : Nat) (s : σ), NoDie (Homfa.inputByte func k v r s)
  | 0, _, _, _ => ok _
  | k + 1, v, r, s => by
    unfold Homfa.inputByte
    split
    · exact ok _
    · exact bind (h _ _) fun s => inputByte h k _ _ s

theorem inputBytes {func : σ → Bool → Res σ} (h : ∀ s b, NoDie (func s b)) (ap : Nat) : ∀ (bs : List Byte) (r : Nat) (s : σ), NoDie (Homfa.inputBytes ap func bs r s)
  | [], _, _ => ok _
  | v :: bs, r, s => by
    unfold Homfa.inputBytes
    exact bind (inputByte h _ _ _ _) fun p => inputBytes h ap bs _ _

theorem eachInputBit {func : σ → Bool → Res σ} (h : ∀ s b, NoDie (func s b)) (file : Option (List Byte)) (ap : Nat) (s : σ) : NoDie (Homfa.eachInputBit file ap func s) := by
  unfold Homfa.eachInputBit
  refine bind (by nodie) fun bytes => bind (inputBytes h _ _ _ _) fun p => ?_
  nodie

theorem doEnc (S : Scheme N n l) (rand : Nat → Nat) (input : Option (List Byte)) (ap : Nat) : NoDie (Homfa.doEnc S rand input ap) := by
  unfold Homfa.doEnc
  exact bind (eachInputBit (fun _ _ => ok _) _ _ _) fun _ => ok _

/-! ## The tasks of parallel loops -/

/-- No access of the task ends in `error_die`. -/
inductive _root_.Homfa.Calm : Prog α → Prop
  | ret : Calm .ret
  | fail {e} : e ≠ .die → Calm (.fail e)
  | read {v i k} : (∀ x, Calm (k x)) → Calm (.read v i k)
  | write {v i x k} : Calm k → Calm (.write v i x k)

theorem calm_local {r : Res β} {k : β → Prog α} (h : NoDie r) (hk : ∀ x, Calm (k x)) : Calm (Prog.local r k) := by
  cases r with
  | ok x => exact hk x
  | error e => exact .fail fun he => h.out (by rw [he])

theorem run {p : Prog α} (h : Calm p) : ∀ m : Mem α, NoDie (p.run m) := by
  induction h with
  | ret => exact fun m => ok m
  | fail he => exact fun m => err he
  | read _ ih =>
    intro m
    refine bind ?_ fun x => ih x m
    unfold mread
    nodie
  | write _ ih =>
    intro m
    refine bind ?_ fun m => ih m
    unfold mwrite
    nodie

theorem foldlM_mem {f : β → α → Res β} : ∀ (xs : List α) (b : β), (∀ x ∈ xs, ∀ b, NoDie (f b x)) → NoDie (xs.foldlM f b)
  | [], b, _ => ok b
  | x :: xs, b, h => by
    rw [List.foldlM_cons]
    exact bind (h x (by simp) b) fun c => foldlM_mem xs c fun y hy => h y (by simp [hy])

theorem parFor {ι : Type} {f : ι → Prog α} (h : ∀ i, Calm (f i)) (is : List ι) (m : Mem α) : NoDie (Homfa.parFor (is.map f) m) := by
  refine foldlM_mem _ _ fun p hp m => ?_
  obtain ⟨i, _, rfl⟩ := List.mem_map.1 hp
  exact run (h i) m

macro_rules | `(tactic| nodie1) => `(tactic| refine NoDie.parFor ?_ _ _)
macro_rules | `(tactic| nodie1) => `(tactic| refine Calm.read ?_)
macro_rules | `(tactic| nodie1) => `(tactic| refine Calm.write ?_)
macro_rules | `(tactic| nodie1) => `(tactic| exact Calm.ret)
macro_rules | `(tactic| nodie1) => `(tactic| refine NoDie.calm_local ?_ ?_)

/-! ## Ciphertexts and lookup tables -/

theorem sampleExtractAt (c : TRLWE N) (i : Nat) : NoDie (Homfa.sampleExtractAt c i) := by unfold Homfa.sampleExtractAt; nodie
macro_rules | `(tactic| nodie1) => `(tactic| with_reducible exact NoDie.sampleExtractAt _ _)
theorem bootHalf (S : Scheme N n l) (c : TRLWE N) : NoDie (S.bootHalf c) := by unfold Scheme.bootHalf; nodie
macro_rules | `(tactic| nodie1) => `(tactic| with_reducible exact NoDie.bootHalf _ _)
theorem pget (c : Poly N) (i : Int) : NoDie (Homfa.pget c i) := by unfold Homfa.pget; nodie
macro_rules | `(tactic| nodie1) => `(tactic| with_reducible exact NoDie.pget _ _)
theorem pset (c : Poly N) (i : Int) (x : Torus) : NoDie (Homfa.pset c i x) := by unfold Homfa.pset; nodie
macro_rules | `(tactic| nodie1) => `(tactic| with_reducible exact NoDie.pset _ _ _)
theorem polyMultXk (c d : Poly N) (i : Nat) : NoDie (Homfa.polyMultXk c d i) := by unfold Homfa.polyMultXk; nodie
macro_rules | `(tactic| nodie1) => `(tactic| with_reducible exact NoDie.polyMultXk _ _ _)
theorem multXk (c d : TRLWE N) (i : Nat) : NoDie (c.multXk d i) := by unfold TRLWE.multXk; nodie
macro_rules | `(tactic| nodie1) => `(tactic| with_reducible exact NoDie.multXk _ _ _)
theorem shl1 (i : Nat) : NoDie (Homfa.shl1 i) := by unfold Homfa.shl1; nodie
macro_rules | `(tactic| nodie1) => `(tactic| with_reducible exact NoDie.shl1 _)
theorem shl1Cap (i : Nat) : NoDie (Homfa.shl1Cap i) := by unfold Homfa.shl1Cap; nodie
macro_rules | `(tactic| nodie1) => `(tactic| with_reducible exact NoDie.shl1Cap _)
theorem two (m : Mem α) : NoDie (Homfa.two m) := by unfold Homfa.two; nodie
macro_rules | `(tactic| nodie1) => `(tactic| with_reducible exact NoDie.two _)
theorem one (m : Mem α) : NoDie (Homfa.one m) := by unfold Homfa.one; nodie
macro_rules | `(tactic| nodie1) => `(tactic| with_reducible exact NoDie.one _)
theorem lutTask (S : Scheme N n l) (c : Gsw l N) (j : Nat) : Calm (Homfa.lutTask S c j) := by unfold Homfa.lutTask; nodie
macro_rules | `(tactic| nodie1) => `(tactic| with_reducible exact NoDie.lutTask _ _ _)
theorem lutLoop (S : Scheme N n l) (k : Nat) : ∀ (cs : List (Gsw l N)) (i : Nat) (a b : List (TRLWE N)) (t : List (Target × Nat)), NoDie (Homfa.lutLoop S k cs i a b t)
  | [], _, _, _, _ => ok _
  | c :: cs, i, a, b, t => by
    unfold Homfa.lutLoop
    have := lutLoop S k cs
    refine bind (by nodie) fun cnt => bind (by nodie) fun m => bind (by nodie) fun p => this _ _ _ _
macro_rules | `(tactic| nodie1) => `(tactic| with_reducible exact NoDie.lutLoop _ _ _ _ _ _ _)
theorem lookupTableTimer (S : Scheme N n l) (a : List (TRLWE N)) (cs : List (Gsw l N)) (b : List (TRLWE N)) (t : List (Target × Nat)) : NoDie (Homfa.lookupTableTimer S a cs b t) := by unfold Homfa.lookupTableTimer; nodie
macro_rules | `(tactic| nodie1) => `(tactic| with_reducible exact NoDie.lookupTableTimer _ _ _ _ _)
theorem lookupTable (S : Scheme N n l) (a : List (TRLWE N)) (cs : List (Gsw l N)) (b : List (TRLWE N)) : NoDie (Homfa.lookupTable S a cs b) := by unfold Homfa.lookupTable; nodie
macro_rules | `(tactic| nodie1) => `(tactic| with_reducible exact NoDie.lookupTable _ _ _ _)

/-! ## OFFLINE and REVERSE -/

theorem backstreamMake (g : Graph) (b : Nat) (k : Option Nat) (key : Bool) : NoDie (Backstream.make g b k key false : Res (Backstream N)) := by
  unfold Backstream.make
  rw [if_neg (by simp)]
  nodie
macro_rules | `(tactic| nodie1) => `(tactic| with_reducible exact NoDie.backstreamMake _ _ _ _)
theorem backstreamResult (r : Backstream N) : NoDie (r.result) := by unfold Backstream.result; nodie
macro_rules | `(tactic| nodie1) => `(tactic| with_reducible exact NoDie.backstreamResult _)
theorem totalCmux (r : Backstream N) (k : Nat) : NoDie (r.totalCmux k) := by unfold Backstream.totalCmux; nodie
macro_rules | `(tactic| nodie1) => `(tactic| with_reducible exact NoDie.totalCmux _ _)
theorem backstreamTask (S : Scheme N n l) (g : Graph) (c : Gsw l N) (q : Nat) : Calm (Homfa.backstreamTask S g c q) := by unfold Homfa.backstreamTask; nodie
macro_rules | `(tactic| nodie1) => `(tactic| with_reducible exact NoDie.backstreamTask _ _ _ _)
theorem bootTask (S : Scheme N n l) (q : Nat) : Calm (Homfa.bootTask S q) := by unfold Homfa.bootTask; nodie
macro_rules | `(tactic| nodie1) => `(tactic| with_reducible exact NoDie.bootTask _ _)
theorem bootstrapWeight (S : Scheme N n l) (r : Backstream N) (qs : List Nat) : NoDie (r.bootstrapWeight S qs) := by unfold Backstream.bootstrapWeight; nodie
macro_rules | `(tactic| nodie1) => `(tactic| with_reducible exact NoDie.bootstrapWeight _ _ _)
theorem evalStates (g : Graph) (k : Option Nat) (i : Nat) : NoDie (Homfa.evalStates g k i) := by unfold Homfa.evalStates; nodie
macro_rules | `(tactic| nodie1) => `(tactic| with_reducible exact NoDie.evalStates _ _ _)
theorem backstreamEval (S : Scheme N n l) (r : Backstream N) (c : Gsw l N) : NoDie (r.eval S c) := by unfold Backstream.eval; nodie
macro_rules | `(tactic| nodie1) => `(tactic| with_reducible exact NoDie.backstreamEval _ _ _)

/-! ## BLOCK -/

theorem blockMake (g : Graph) (k : Nat) : NoDie (Block.make g k false : Res (Block N l)) := ok _
macro_rules | `(tactic| nodie1) => `(tactic| with_reducible exact NoDie.blockMake _ _)
theorem setB (w : TRLWE N) (i : Nat) (x : Torus) : NoDie (Homfa.setB w i x) := by unfold Homfa.setB; nodie
macro_rules | `(tactic| nodie1) => `(tactic| with_reducible exact NoDie.setB _ _ _)
theorem blockWeight (w : TRLWE N) (f : Bool) (t k : Nat) : NoDie (Homfa.blockWeight w f t k) := by unfold Homfa.blockWeight; nodie
macro_rules | `(tactic| nodie1) => `(tactic| with_reducible exact NoDie.blockWeight _ _ _ _)
theorem blockInit (g : Graph) (qs : List Nat) : NoDie (Homfa.blockInit g qs : Res (List (TRLWE N))) := by unfold Homfa.blockInit; nodie
macro_rules | `(tactic| nodie1) => `(tactic| with_reducible exact NoDie.blockInit _ _)
theorem blockTask (S : Scheme N n l) (g : Graph) (cs : List (Gsw l N)) (i q : Nat) : Calm (Homfa.blockTask S g cs i q) := by unfold Homfa.blockTask; nodie
macro_rules | `(tactic| nodie1) => `(tactic| with_reducible exact NoDie.blockTask _ _ _ _ _)
theorem blockPropagate (S : Scheme N n l) (g : Graph) (cs : List (Gsw l N)) (ls : List (List Nat)) : ∀ (i : Nat) (a b : List (TRLWE N)) (t : List (Target × Nat)),
    NoDie (Homfa.blockPropagate S g cs ls i a b t)
  | 0, _, _, _ => ok _
  | i + 1, a, b, t => by
    unfold Homfa.blockPropagate
    have := blockPropagate S g cs ls i
    refine bind (by nodie) fun cnt => bind (by nodie) fun m => bind (by nodie) fun p => this _ _ _
macro_rules | `(tactic| nodie1) => `(tactic| with_reducible exact NoDie.blockPropagate _ _ _ _ _ _ _ _)
theorem extractTask (c : TRLWE N) (i : Nat) : Calm (Homfa.extractTask c i) := by unfold Homfa.extractTask; nodie
macro_rules | `(tactic| nodie1) => `(tactic| with_reducible exact NoDie.extractTask _ _)
theorem cbTask (S : Scheme N n l) (cs : List (TLWE N)) (i : Nat) : Calm (Homfa.cbTask S cs i) := by unfold Homfa.cbTask; nodie
macro_rules | `(tactic| nodie1) => `(tactic| with_reducible exact NoDie.cbTask _ _ _)
theorem blockQueued (S : Scheme N n l) (r : Block N l) : NoDie (r.evalQueued S) := by unfold Block.evalQueued; nodie
macro_rules | `(tactic| nodie1) => `(tactic| with_reducible exact NoDie.blockQueued _ _)
theorem blockResult (S : Scheme N n l) (r : Block N l) : NoDie (r.result S) := by unfold Block.result; nodie
macro_rules | `(tactic| nodie1) => `(tactic| with_reducible exact NoDie.blockResult _ _)
theorem blockOne (S : Scheme N n l) (r : Block N l) (c : Gsw l N) : NoDie (r.evalOne S c) := by unfold Block.evalOne; nodie
macro_rules | `(tactic| nodie1) => `(tactic| with_reducible exact NoDie.blockOne _ _ _)

/-! ## FLUT -/

theorem memoRow (g : Graph) (k : Nat) : NoDie (Homfa.memoRow g k) := by unfold Homfa.memoRow; nodie
macro_rules | `(tactic| nodie1) => `(tactic| with_reducible exact NoDie.memoRow _ _)
theorem flutMake (g : Graph) (a b c : Nat) : NoDie (Flut.make g a b c false : Res (Flut N l)) := by
  unfold Flut.make
  rw [if_neg (by simp)]
  nodie
macro_rules | `(tactic| nodie1) => `(tactic| with_reducible exact NoDie.flutMake _ _ _ _)
theorem flutNext (g : Graph) (a b : List Nat) (k : Nat) : NoDie (Homfa.flutNext g a b k) := by unfold Homfa.flutNext; nodie
macro_rules | `(tactic| nodie1) => `(tactic| with_reducible exact NoDie.flutNext _ _ _ _)
theorem flutIdx (g : Graph) (a : List Nat) : NoDie (Homfa.flutIdx g a) := by unfold Homfa.flutIdx; nodie
macro_rules | `(tactic| nodie1) => `(tactic| with_reducible exact NoDie.flutIdx _ _)
theorem fillTask (g : Graph) (memo idx : List Nat) (a b c : Nat) : ∀ ps : List (Nat × Nat), Calm (Homfa.fillTask g memo idx a b c ps : Prog (TRLWE N))
  | [] => .ret
  | (q, i) :: ps => by
    have := fillTask g memo idx a b c ps
    unfold Homfa.fillTask
    nodie
macro_rules | `(tactic| nodie1) => `(tactic| with_reducible exact NoDie.fillTask _ _ _ _ _ _ _)
theorem rotTask (k i : Nat) : Calm (Homfa.rotTask N k i) := by unfold Homfa.rotTask; nodie
macro_rules | `(tactic| nodie1) => `(tactic| with_reducible exact NoDie.rotTask _ _)
theorem splitTask (S : Scheme N n l) (a : List Nat) (b : Bool) (q : Nat) : Calm (Homfa.splitTask S a b q) := by unfold Homfa.splitTask; nodie
macro_rules | `(tactic| nodie1) => `(tactic| with_reducible exact NoDie.splitTask _ _ _ _)

theorem flutQueued (S : Scheme N n l) (r : Flut N l) {memo next : List Nat} {cap : Nat} (h1 : Homfa.vat r.memo r.queued.length = .ok memo)
    (h2 : Homfa.flutNext r.graph memo r.live r.queued.length = .ok next) (h3 : Homfa.shl1Cap r.maxSecond = .ok cap) (h4 : ¬ next.length ≥ cap) :
    NoDie (r.evalQueued S) := by
  have hd : NoDie (lutDepths r.maxSecond next.length r.queued.length) := by
    unfold lutDepths
    rw [h3]
    show NoDie (if next.length ≥ cap then _ else _)
    rw [if_neg h4]
    nodie
  unfold Flut.evalQueued
  dsimp only
  split
  · exact ok _
  · rw [h1]
    show NoDie (Homfa.flutNext r.graph memo r.live r.queued.length >>= _)
    rw [h2]
    show NoDie (Homfa.flutIdx r.graph next >>= _)
    refine bind (by nodie) fun idx => bind hd fun d => ?_
    nodie

end NoDie
end Homfa
