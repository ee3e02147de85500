import Verif.Proof.Gap
import Verif.Props.Count

/-!
# C108: how much more one method may cost than another

`run offline` works with the automaton of the spec, `run reverse` with the one of the reversed words.  Their sizes, and so the numbers of CMUX
gates, may differ exponentially, in either direction; more than exponentially they cannot differ.
-/

namespace Homfa
open Homfa.Spec

variable {N n l : Nat}

/-- the CMUX gates evaluated by `run offline` -/
def offlineGates (S : Scheme N n l) (spec : List Char) (cs : List (Gsw l N)) (boot : Nat) : Nat :=
  ((doRunOfflineC spec cs.length cs boot false : Comp N n l (TLWE N)).kinds S).count .cmux

/-- the CMUX gates evaluated by `run reverse`, without `--spec-reversed` -/
def reverseGates (S : Scheme N n l) (spec : List Char) (cs : List (Gsw l N)) (size : Nat) (out : String) (freq boot : Nat) : Nat :=
  ((doRunReverseC spec size cs (some out) none freq boot false false : Comp N n l (List (OutFile × TLWE N))).kinds S).count .cmux

/-- **C108**, `run offline`: at most one CMUX gate for every ciphertext and every row of the spec. -/
theorem C108_offline_bound (S : Scheme N n l) {spec : List Char} {g : Graph} (hg : Graph.fromIstream spec = .ok g) (hs : 0 < g.size)
    (cs : List (Gsw l N)) (boot : Nat) {c : TLWE N} (h : doRunOffline S spec cs.length cs boot false = .ok c) :
    offlineGates S spec cs boot ≤ cs.length * g.size := by
  obtain ⟨m, D, hm, hD, -, e⟩ := C71_offline_total S spec g hg hs cs boot c h
  have hwf := wf_of_fromIstream hg hs
  obtain ⟨m', hm', wm, -⟩ := Graph.minimized_good hwf
  cases hm.symm.trans hm'
  rw [offlineGates, e]
  calc ∑ j ∈ Finset.range cs.length, (D j).length ≤ ∑ _j ∈ Finset.range cs.length, g.size :=
        Finset.sum_le_sum fun j _ => le_trans (levels_le wm hD j) (minimized_le hwf hwf hm fun _ => rfl)
    _ = cs.length * g.size := by simp

/-- **C108**, `run reverse`: at most `2 ^ rows` CMUX gates for every ciphertext. -/
theorem C108_reverse_bound (S : Scheme N n l) {spec : List Char} {g : Graph} (hg : Graph.fromIstream spec = .ok g) (hs : 0 < g.size)
    (cs : List (Gsw l N)) (size : Nat) (out : String) (freq boot : Nat) {files : List (OutFile × TLWE N)}
    (h : doRunReverse S spec size cs (some out) none freq boot false false = .ok files) :
    reverseGates S spec cs size out freq boot ≤ cs.length * 2 ^ g.size := by
  obtain ⟨m, hm, e⟩ := C71_reverse_total S spec g hg size cs (some out) none freq boot false files h
  have hwf := wf_of_fromIstream hg hs
  rw [if_neg (by simp)] at hm
  obtain ⟨r, hr, hm⟩ := Res.bind_eq_ok.1 hm
  obtain ⟨r', hr', wr, -⟩ := Graph.reversed_spec hwf
  cases hr.symm.trans hr'
  rw [reverseGates, e]
  exact Nat.mul_le_mul_left _ (le_trans (minimized_le wr wr hm fun _ => rfl) (reversed_le hwf hr))

/-- **C108**, the gap.  For every `k` there is a spec with `k + 2` rows - the words whose `k`-th bit is 1 - for which `run offline` takes at most
`k + 2` CMUX gates for every ciphertext, and `run reverse` at least `2 ^ k`. -/
theorem C108_gap (k : Nat) (hk : 0 < k) (hk' : k + 2 ≤ 2 ^ 31) :
    ∃ (spec : List Char) (g : Graph), Graph.fromIstream spec = .ok g ∧ g.size = k + 2 ∧
      (∀ w : List Bool, g.accepts w = .ok (decide (w[k - 1]? = some true))) ∧
      ∀ (N n l : Nat) (S : Scheme N n l) (cs : List (Gsw l N)) (boot : Nat),
        (∀ c, doRunOffline S spec cs.length cs boot false = .ok c → offlineGates S spec cs boot ≤ cs.length * (k + 2)) ∧
        ∀ size out freq files, doRunReverse S spec size cs (some out) none freq boot false false = .ok files →
          cs.length * 2 ^ k ≤ reverseGates S spec cs size out freq boot := by
  have hwf := kthGraph_wf k
  have hsz := kthGraph_size k
  obtain ⟨spec, hread⟩ : ∃ spec, Graph.fromIstream spec = .ok (kthGraph k) := ⟨_, Graph.fromIstream_dump hwf (by omega)⟩
  have hacc : ∀ w : List Bool, (kthGraph k).accepts w = .ok (decide (w[k - 1]? = some true)) := fun w => by rw [hwf.accepts_eq, kthGraph_accepts hk]
  refine ⟨spec, kthGraph k, hread, hsz, hacc, fun N n l S cs boot => ⟨fun c h => ?_, fun size out freq files h => ?_⟩⟩
  · exact hsz ▸ C108_offline_bound S hread (by omega) cs boot h
  · obtain ⟨m, hm, e⟩ := C71_reverse_total S _ _ hread size cs (some out) none freq boot false files h
    rw [if_neg (by simp)] at hm
    obtain ⟨r, hr, hm⟩ := Res.bind_eq_ok.1 hm
    obtain ⟨r', hr', wr, -, -, -, hl⟩ := Graph.reversed_spec hwf
    cases hr.symm.trans hr'
    obtain ⟨m', hm', wm, -, hlm, -⟩ := Graph.minimized_good wr
    cases hm.symm.trans hm'
    rw [reverseGates, e]
    have hD := levels_levelSet wm (L := [m.init]) (by simp) (by simpa using wm.init_lt)
    exact Nat.mul_le_mul_left _ (le_trans (kth_reversed wm hk (fun w => (hlm w).trans (hl w)) hD (Nat.le_refl k)) (levels_le wm hD k))

/-- **C108**, the gap the other way round.  For every `k` there is a spec - the one above after `spec2spec --reversed`, the words whose `k`-th last
bit is 1 - for which `run reverse` takes at most `k + 2` CMUX gates for every ciphertext, and `run offline` at least `2 ^ k` for all but `k` of
them. -/
theorem C108_gap_reversed (k : Nat) (hk : 0 < k) (hk' : k ≤ 29) :
    ∃ (spec spec' : List Char) (g : Graph), doSpec2spec spec false true false = .ok spec' ∧ Graph.fromIstream spec' = .ok g ∧
      (∀ w : List Bool, g.accepts w = .ok (decide (w.reverse[k - 1]? = some true))) ∧
      ∀ (N n l : Nat) (S : Scheme N n l) (cs : List (Gsw l N)) (boot : Nat),
        (∀ size out freq files, doRunReverse S spec' size cs (some out) none freq boot false false = .ok files →
          reverseGates S spec' cs size out freq boot ≤ cs.length * (k + 2)) ∧
        ∀ c, doRunOffline S spec' cs.length cs boot false = .ok c → (cs.length - k) * 2 ^ k ≤ offlineGates S spec' cs boot := by
  have hwf := kthGraph_wf k
  have hsz := kthGraph_size k
  obtain ⟨spec, hread⟩ : ∃ spec, Graph.fromIstream spec = .ok (kthGraph k) := ⟨_, Graph.fromIstream_dump hwf (by omega)⟩
  obtain ⟨r, hr, wr, hr0, -, -, hl⟩ := Graph.reversed_spec hwf
  have hrsz : r.size ≤ 2 ^ 31 := by
    refine le_trans (reversed_le hwf hr) ?_
    rw [hsz]
    exact Nat.pow_le_pow_right (by omega) (by omega)
  have hread' := Graph.fromIstream_dump wr hrsz
  have he : ({ r with statesAtDepth := [] } : Graph) = r := by cases r; simp_all
  rw [he] at hread'
  refine ⟨spec, _, r, ?_, hread', fun w => by rw [wr.accepts_eq, hl, kthGraph_accepts hk], fun N n l S cs boot =>
    ⟨fun size out freq files h => ?_, fun c h => ?_⟩⟩
  · unfold doSpec2spec
    rw [hread, Res.bind_ok]
    simp only [Bool.false_eq_true, if_false, if_true, Res.pure_eq, Res.bind_ok, hr]
    exact Graph.dump_ok wr
  · obtain ⟨m, hm, e⟩ := C71_reverse_total S _ _ hread' size cs (some out) none freq boot false files h
    rw [if_neg (by simp)] at hm
    obtain ⟨s, hs, hm⟩ := Res.bind_eq_ok.1 hm
    obtain ⟨s', hs', ws, -, -, -, hl'⟩ := Graph.reversed_spec wr
    cases hs.symm.trans hs'
    rw [reverseGates, e]
    refine Nat.mul_le_mul_left _ (hsz ▸ minimized_le ws hwf hm fun w => ?_)
    rw [ws.accepts_eq, hwf.accepts_eq, hl', hl, List.reverse_reverse]
  · obtain ⟨m, D, hm, hD, -, e⟩ := C71_offline_total S _ _ hread' (Nat.lt_of_le_of_lt (Nat.zero_le _) wr.init_lt) cs boot c h
    obtain ⟨m', hm', wm, -, hlm, -⟩ := Graph.minimized_good wr
    cases hm.symm.trans hm'
    rw [offlineGates, e]
    calc (cs.length - k) * 2 ^ k = ∑ _j ∈ Finset.Ico k cs.length, 2 ^ k := by simp
      _ ≤ ∑ j ∈ Finset.Ico k cs.length, (D j).length :=
        Finset.sum_le_sum fun j hj => kth_reversed wm hk (fun w => (hlm w).trans (hl w)) hD (Finset.mem_Ico.1 hj).1
      _ ≤ ∑ j ∈ Finset.range cs.length, (D j).length :=
        Finset.sum_le_sum_of_subset fun j hj => Finset.mem_range.2 (Finset.mem_Ico.1 hj).2

/-- The runs counted here do end normally, with every library and on all ciphertexts. -/
theorem C108_ends (S : Scheme N n l) (hN : 0 < N) (hl : 0 < l) (hbs : blockSize l N < 2 ^ 63) {spec : List Char} {g : Graph}
    (hg : Graph.fromIstream spec = .ok g) (hs : 0 < g.size) {cs : List (Gsw l N)} (hlen : cs.length * blockSize l N < 2 ^ 63) (h31 : cs.length < 2 ^ 31)
    {boot : Nat} (hb : 0 < boot) :
    (∃ c, doRunOffline S spec cs.length cs boot false = .ok c) ∧
      ∀ size out freq, ∃ files, doRunReverse S spec size cs (some out) none freq boot false false = .ok files :=
  ⟨offline_ends S hN hl hbs hg (wf_of_fromIstream hg hs) hlen h31 hb,
    fun size out freq => reverse_ends S hN hl hbs hg (wf_of_fromIstream hg hs) hlen hb size freq false out⟩

/-! ## The hypotheses are met -/

/-- `k = 20` and 1000 ciphertexts: 22 rows and at most 22 000 gates for one method, more than a thousand million for the other. -/
example : ∃ (spec : List Char) (g : Graph), Graph.fromIstream spec = .ok g ∧ g.size = 22 ∧
    ∀ cs : List (Gsw 1 16), cs.length = 1000 →
      (∃ c, doRunOffline (exactScheme 16 2 1) spec cs.length cs 50 false = .ok c) ∧
      (∃ files, doRunReverse (exactScheme 16 2 1) spec 1000 cs (some "out") none 1 50 false false = .ok files) ∧
      offlineGates (exactScheme 16 2 1) spec cs 50 ≤ 22000 ∧ 1048576000 ≤ reverseGates (exactScheme 16 2 1) spec cs 1000 "out" 1 50 := by
  obtain ⟨spec, g, h1, h2, -, h3⟩ := C108_gap 20 (by omega) (by omega)
  refine ⟨spec, g, h1, h2, fun cs hcs => ?_⟩
  obtain ⟨⟨c, hc⟩, hr⟩ := C108_ends (exactScheme 16 2 1) (by omega) (by omega) (by decide) h1 (by omega) (cs := cs) (by rw [hcs]; decide) (by omega) (boot := 50) (by omega)
  obtain ⟨files, hf⟩ := hr 1000 "out" 1
  obtain ⟨a, b⟩ := h3 16 2 1 (exactScheme 16 2 1) cs 50
  have a := a c hc
  have b := b 1000 "out" 1 files hf
  rw [hcs] at a b
  exact ⟨⟨c, hc⟩, ⟨files, hf⟩, a, b⟩

end Homfa
