import Verif.Props.FewestLive
import Verif.Props.Gap

/-!
# C124: what a run costs depends on the words only, and no specification for the same words is cheaper
-/

namespace Homfa

variable {N n l : Nat}

/-- **C124**, `run offline`: whatever specification it is given, it evaluates, for each position of the input, at most as many CMUX gates as states
can be live there in any automaton `k` for the same words. -/
theorem C124_offline_least (S : Scheme N n l) {spec : List Char} {g : Graph} (hg : Graph.fromIstream spec = .ok g) (hs : 0 < g.size)
    (cs : List (Gsw l N)) (boot : Nat) {c : TLWE N} (h : doRunOffline S spec cs.length cs boot false = .ok c)
    (k : Graph) (hk : k.WF) (hw : ∀ w, g.accepts w = k.accepts w) {D : Nat → List Nat} (hD : Levels k [k.initialState] D) :
    offlineGates S spec cs boot ≤ ∑ j ∈ Finset.range cs.length, (D j).length := by
  obtain ⟨m, D', hm, hD', -, e⟩ := C71_offline_total S spec g hg hs cs boot c h
  rw [offlineGates, e]
  refine Finset.sum_le_sum fun j _ => ?_
  obtain ⟨Y, y1, y2, y3⟩ := C123_fewest_live g k (wf_of_fromIstream hg hs) hk hw m hm j (D' j) (hD' j).1 (fun q hq => by
    obtain ⟨p, hp, w, h1, h2⟩ := ((hD' j).2 q).1 hq
    cases List.mem_singleton.1 hp
    exact ⟨w, h1, h2⟩)
  rw [← y2]
  refine (y1.subperm fun q hq => ?_).length_le
  obtain ⟨w, h1, h2⟩ := y3 q hq
  exact ((hD j).2 q).2 ⟨_, by simp, w, h1, h2⟩

/-- **C124**, `run offline`: with two specifications for the same words it evaluates equally many CMUX gates, whatever the ciphertexts, libraries and
bootstrapping frequencies, if there are equally many ciphertexts. -/
theorem C124_offline_same {N' n' l' : Nat} (S : Scheme N n l) (S' : Scheme N' n' l') {spec spec' : List Char} {g g' : Graph}
    (hg : Graph.fromIstream spec = .ok g) (hs : 0 < g.size) (hg' : Graph.fromIstream spec' = .ok g') (hs' : 0 < g'.size)
    (hw : ∀ w, g.accepts w = g'.accepts w) (cs : List (Gsw l N)) (cs' : List (Gsw l' N')) (hn : cs.length = cs'.length) (boot boot' : Nat)
    {c : TLWE N} {c' : TLWE N'} (h : doRunOffline S spec cs.length cs boot false = .ok c)
    (h' : doRunOffline S' spec' cs'.length cs' boot' false = .ok c') : offlineGates S spec cs boot = offlineGates S' spec' cs' boot' := by
  obtain ⟨m, D, hm, hD, -, e⟩ := C71_offline_total S spec g hg hs cs boot c h
  obtain ⟨m', D', hm', hD', -, e'⟩ := C71_offline_total S' spec' g' hg' hs' cs' boot' c' h'
  have key : ∀ {a b x : Graph}, a.WF → b.WF → (∀ w, a.accepts w = b.accepts w) → b.minimized = .ok x → x.WF ∧ ∀ w, a.accepts w = x.accepts w := by
    intro a b x ha hb hab hx
    obtain ⟨x', h1, h2, _, h3, _⟩ := Graph.minimized_good hb
    cases hx.symm.trans h1
    refine ⟨h2, fun w => ?_⟩
    rw [hab, hb.accepts_eq, h2.accepts_eq, h3]
  have w1 := wf_of_fromIstream hg hs
  have w2 := wf_of_fromIstream hg' hs'
  obtain ⟨k1, k2⟩ := key w1 w2 hw hm'
  obtain ⟨k3, k4⟩ := key w2 w1 (fun w => (hw w).symm) hm
  have a1 := C124_offline_least S hg hs cs boot h m' k1 k2 hD'
  have a2 := C124_offline_least S' hg' hs' cs' boot' h' m k3 k4 hD
  have e1 : offlineGates S spec cs boot = ∑ j ∈ Finset.range cs.length, (D j).length := e
  have e2 : offlineGates S' spec' cs' boot' = ∑ j ∈ Finset.range cs'.length, (D' j).length := e'
  rw [hn, ← e2] at a1
  rw [← hn, ← e1] at a2
  exact Nat.le_antisymm a1 a2

/-- **C124**, `run reverse`: whatever specification it is given, it evaluates for each ciphertext at most as many CMUX gates as any automaton for the
reversed words has states. -/
theorem C124_reverse_least (S : Scheme N n l) {spec : List Char} {g : Graph} (hg : Graph.fromIstream spec = .ok g) (hs : 0 < g.size)
    (cs : List (Gsw l N)) (size : Nat) (out : String) (freq boot : Nat) {files : List (OutFile × TLWE N)}
    (h : doRunReverse S spec size cs (some out) none freq boot false false = .ok files)
    (k : Graph) (hk : k.WF) (hw : ∀ w : List Bool, g.accepts w.reverse = k.accepts w) :
    reverseGates S spec cs size out freq boot ≤ cs.length * k.size := by
  obtain ⟨m, hm, e⟩ := C71_reverse_total S spec g hg size cs (some out) none freq boot false files h
  have hwf := wf_of_fromIstream hg hs
  rw [if_neg (by simp)] at hm
  obtain ⟨r, hr, hm⟩ := Res.bind_eq_ok.1 hm
  obtain ⟨r', hr', wr, -, -, -, hl⟩ := Graph.reversed_spec hwf
  cases hr.symm.trans hr'
  rw [reverseGates, e]
  refine Nat.mul_le_mul_left _ (minimized_le wr hk hm fun w => ?_)
  rw [← hw w, wr.accepts_eq, hwf.accepts_eq, hl]

/-- **C124**, `run reverse`: with two specifications for the same words it evaluates equally many CMUX gates. -/
theorem C124_reverse_same {N' n' l' : Nat} (S : Scheme N n l) (S' : Scheme N' n' l') {spec spec' : List Char} {g g' : Graph}
    (hg : Graph.fromIstream spec = .ok g) (hs : 0 < g.size) (hg' : Graph.fromIstream spec' = .ok g') (hs' : 0 < g'.size)
    (hw : ∀ w, g.accepts w = g'.accepts w) (cs : List (Gsw l N)) (cs' : List (Gsw l' N')) (hn : cs.length = cs'.length)
    (size size' : Nat) (out out' : String) (freq freq' boot boot' : Nat) {files : List (OutFile × TLWE N)} {files' : List (OutFile × TLWE N')}
    (h : doRunReverse S spec size cs (some out) none freq boot false false = .ok files)
    (h' : doRunReverse S' spec' size' cs' (some out') none freq' boot' false false = .ok files') :
    reverseGates S spec cs size out freq boot = reverseGates S' spec' cs' size' out' freq' boot' := by
  have key : ∀ {N n l : Nat} (S : Scheme N n l) {spec : List Char} {g : Graph}, Graph.fromIstream spec = .ok g → 0 < g.size →
      ∀ (cs : List (Gsw l N)) (size : Nat) (out : String) (freq boot : Nat) (files : List (OutFile × TLWE N)),
      doRunReverse S spec size cs (some out) none freq boot false false = .ok files →
      ∃ m : Graph, m.WF ∧ (∀ w : List Bool, g.accepts w.reverse = m.accepts w) ∧ reverseGates S spec cs size out freq boot = cs.length * m.size := by
    intro N n l S spec g hg hs cs size out freq boot files h
    obtain ⟨m, hm, e⟩ := C71_reverse_total S spec g hg size cs (some out) none freq boot false files h
    have hwf := wf_of_fromIstream hg hs
    rw [if_neg (by simp)] at hm
    obtain ⟨r, hr, hm⟩ := Res.bind_eq_ok.1 hm
    obtain ⟨r', hr', wr, -, -, -, hl⟩ := Graph.reversed_spec hwf
    cases hr.symm.trans hr'
    obtain ⟨m', hm', wm, -, hlm, -⟩ := Graph.minimized_good wr
    cases hm.symm.trans hm'
    exact ⟨m, wm, fun w => by rw [hwf.accepts_eq, wm.accepts_eq, hlm, hl], e⟩
  obtain ⟨m, m1, m2, m3⟩ := key S hg hs cs size out freq boot files h
  obtain ⟨m', n1, n2, n3⟩ := key S' hg' hs' cs' size' out' freq' boot' files' h'
  have a1 := C124_reverse_least S hg hs cs size out freq boot h m' n1 (fun w => (hw _).trans (n2 w))
  have a2 := C124_reverse_least S' hg' hs' cs' size' out' freq' boot' h' m m1 (fun w => (hw _).symm.trans (m2 w))
  rw [hn, ← n3] at a1
  rw [← hn, ← m3] at a2
  exact Nat.le_antisymm a1 a2

/-! ## The hypotheses are met -/

/-- Three bits, a specification of four states and one of two for the words that end in 1: `run offline` evaluates five CMUX gates with either (walking
the four states would take six), and `run reverse` nine (the automaton of the reversed words has three states). -/
example : let S := toyScheme 4 2 1 ⟨fun _ => 0#32, fun _ => 0#32⟩
    let cs := [S.encrypt 0 true, S.encrypt 1 false, S.encrypt 2 true]
    (doRunOffline S (Cli.textOf Cli.fatSpec) 3 cs 2 false).toOption.isSome ∧ (doRunOffline S (Cli.textOf Cli.thinSpec) 3 cs 2 false).toOption.isSome ∧
    offlineGates S (Cli.textOf Cli.fatSpec) cs 2 = 5 ∧ offlineGates S (Cli.textOf Cli.thinSpec) cs 2 = 5 ∧
    (doRunReverse S (Cli.textOf Cli.fatSpec) 3 cs (some "f") none 1 2 false false).toOption.isSome ∧
    (doRunReverse S (Cli.textOf Cli.thinSpec) 3 cs (some "f") none 1 2 false false).toOption.isSome ∧
    reverseGates S (Cli.textOf Cli.fatSpec) cs 3 "f" 1 2 = 9 ∧ reverseGates S (Cli.textOf Cli.thinSpec) cs 3 "f" 1 2 = 9 := by
  refine ⟨?_, ?_, ?_, ?_, ?_, ?_, ?_, ?_⟩ <;> decide +kernel

end Homfa
