import Verif.Model.Timeit
import Verif.Proof.Cpp
/-! Property C47: totals of the time recorder. -/

namespace Homfa

/-- Sum of the counts of the recordings of one kind. -/
def totalCount (recs : List Sample) (t : Target) : Nat := ((recs.filter (fun s => s.target = t)).map (fun s => s.count.toNat)).sum

/-- Sum of their durations. -/
def totalTime (recs : List Sample) (t : Target) : Nat := ((recs.filter (fun s => s.target = t)).map (fun s => s.time)).sum

namespace Timeit

theorem recorder_clear (pre : List RecOp) (recs : List Sample) : recorder (pre ++ .clear :: recs.map .timeit) = recs := by
  unfold recorder
  rw [List.foldl_append, List.foldl_cons]
  show (recs.map RecOp.timeit).foldl RecOp.run [] = recs
  have : ∀ acc, (recs.map RecOp.timeit).foldl RecOp.run acc = acc ++ recs := by
    induction recs with
    | nil => simp
    | cons r recs ih => intro acc; rw [List.map_cons, List.foldl_cons, ih]; simp [RecOp.run]
  simpa using this []

theorem recorder_fresh (recs : List Sample) : recorder (recs.map .timeit) = recs := recorder_clear [] recs

theorem total_append (recs : List Sample) (s : Sample) (t : Target) :
    totalCount (recs ++ [s]) t = totalCount recs t + (if s.target = t then s.count.toNat else 0) ∧
    totalTime (recs ++ [s]) t = totalTime recs t + (if s.target = t then s.time else 0) := by
  unfold totalCount totalTime
  rw [List.filter_append, List.filter_singleton]
  by_cases h : s.target = t <;> simp [h]

theorem total_mono (pre post : List Sample) (t : Target) : totalTime pre t ≤ totalTime (pre ++ post) t := by
  unfold totalTime
  rw [List.filter_append, List.map_append, List.sum_append]
  omega

structure SumInv (pre : List Sample) (es : List Sample) : Prop where
  nodup : (es.map Sample.target).Nodup
  mem : ∀ t, t ∈ es.map Sample.target ↔ ∃ r ∈ pre, r.target = t
  tot : ∀ e ∈ es, e.count.toNat = totalCount pre e.target % 2 ^ 64 ∧ e.time = totalTime pre e.target

theorem summarize_ok (recs : List Sample) (ht : ∀ t, totalTime recs t < 2 ^ 63) : ∃ es, summarize recs = .ok es ∧ SumInv recs es := by
  unfold summarize
  refine foldlM_inv (fun pre es => SumInv pre es) recs ⟨by simp, by simp, by simp⟩ ?_
  intro pre s post es hl hI
  by_cases hany : es.any (fun e => e.target == s.target) = true
  · rw [if_pos hany]
    unfold addSample
    rw [mapM_ok (g := fun e => if e.target = s.target then { e with count := e.count + s.count, time := e.time + s.time } else e)]
    · refine ⟨_, rfl, ?_, ?_, ?_⟩
      · rw [List.map_map]
        convert hI.nodup using 2
        funext e
        simp only [Function.comp]
        split <;> rfl
      · intro t
        rw [List.map_map]
        have : (Sample.target ∘ fun e => if e.target = s.target then { e with count := e.count + s.count, time := e.time + s.time } else e) = Sample.target := by
          funext e
          simp only [Function.comp]
          split <;> rfl
        rw [this, hI.mem]
        constructor
        · rintro ⟨r, h1, h2⟩; exact ⟨r, List.mem_append_left _ h1, h2⟩
        · rintro ⟨r, h1, h2⟩
          rcases List.mem_append.1 h1 with h1 | h1
          · exact ⟨r, h1, h2⟩
          · rw [List.mem_singleton.1 h1] at h2
            obtain ⟨e, he, h⟩ := List.any_eq_true.1 hany
            have h : e.target = s.target := by simpa using h
            obtain ⟨r', g1, g2⟩ := (hI.mem s.target).1 (List.mem_map.2 ⟨e, he, h⟩)
            exact ⟨r', g1, g2.trans h2⟩
      · intro e he
        obtain ⟨e', h1, rfl⟩ := List.mem_map.1 he
        obtain ⟨t1, t2⟩ := hI.tot e' h1
        obtain ⟨a1, a2⟩ := total_append pre s e'.target
        by_cases h : e'.target = s.target
        · rw [if_pos h]
          dsimp only
          rw [a1, a2, if_pos h.symm, if_pos h.symm, ← t2, BitVec.toNat_add, t1]
          refine ⟨?_, rfl⟩
          rw [Nat.mod_add_mod]
        · rw [if_neg h]
          rw [a1, a2, if_neg (fun x => h x.symm), if_neg (fun x => h x.symm)]
          exact ⟨t1, t2⟩
    · intro e he
      by_cases h : e.target = s.target
      · rw [if_pos h, if_pos h, if_pos]
        have := ht e.target
        rw [hl, show pre ++ s :: post = (pre ++ [s]) ++ post by simp] at this
        have h1 := total_mono (pre ++ [s]) post e.target
        rw [(total_append pre s e.target).2, if_pos h.symm] at h1
        have := (hI.tot e he).2
        omega
      · rw [if_neg h, if_neg h]
  · rw [if_neg hany]
    have hno : ∀ e ∈ es, e.target ≠ s.target := by
      intro e he h
      exact hany (List.any_eq_true.2 ⟨e, he, by simpa using h⟩)
    have hnew : ∀ r ∈ pre, r.target ≠ s.target := by
      intro r hr h
      obtain ⟨e, he, h'⟩ := List.mem_map.1 ((hI.mem s.target).2 ⟨r, hr, h⟩)
      exact hno e he h'
    refine ⟨_, rfl, ?_, ?_, ?_⟩
    · rw [List.map_append, List.nodup_append]
      refine ⟨hI.nodup, by simp, ?_⟩
      intro a ha b hb
      obtain ⟨e, he, rfl⟩ := List.mem_map.1 ha
      simp only [List.map_cons, List.map_nil, List.mem_singleton] at hb
      subst hb
      exact hno e he
    · intro t
      rw [List.map_append, List.mem_append, hI.mem]
      simp only [List.map_cons, List.map_nil, List.mem_singleton, List.mem_append]
      constructor
      · rintro (⟨r, h1, h2⟩ | rfl)
        · exact ⟨r, .inl h1, h2⟩
        · exact ⟨s, .inr rfl, rfl⟩
      · rintro ⟨r, h1 | rfl, h2⟩
        · exact .inl ⟨r, h1, h2⟩
        · exact .inr h2.symm
    · intro e he
      rcases List.mem_append.1 he with he | he
      · obtain ⟨a1, a2⟩ := total_append pre s e.target
        rw [a1, a2, if_neg (fun x => hno e he x.symm), if_neg (fun x => hno e he x.symm)]
        exact hI.tot e he
      · rw [List.mem_singleton.1 he]
        obtain ⟨a1, a2⟩ := total_append pre s s.target
        have z : pre.filter (fun r => r.target = s.target) = [] := by
          rw [List.filter_eq_nil_iff]
          intro r hr
          simpa using hnew r hr
        rw [a1, a2, if_pos rfl, if_pos rfl]
        unfold totalCount totalTime
        rw [z]
        simp
        exact (Nat.mod_eq_of_lt s.count.isLt).symm

end Timeit

/-- The line the user expects for the kind `t` of operation. -/
def csvLine (recs : List Sample) (t : Target) : List Char :=
  (match t with
    | .circuitBootstrapping => "time_recorder-circuit_bootstrapping".toList
    | .bootstrapping => "time_recorder-bootstrapping".toList
    | .cmux => "time_recorder-cmux".toList) ++ ",".toList ++ Nat.toDigits 10 (totalCount recs t % 2 ^ 64) ++ ",".toList ++
    Nat.toDigits 10 (totalTime recs t) ++ "\n".toList

/-- **C47.** Let `recs` be the recordings since the construction or the last `clear`.  If the times fit in 63 bits, `dumpCSV` succeeds, and whatever the
order of the hash table, the text consists of exactly one line for each kind of operation that occurs in `recs`, with the sum of the counts (a `size_t`) and
the sum of the times. -/
theorem C47_dump_csv (hist : List RecOp) (recs : List Sample)
    (hh : hist = recs.map .timeit ∨ ∃ pre, hist = pre ++ .clear :: recs.map .timeit) (ht : ∀ t, totalTime recs t < 2 ^ 63) :
    (∃ text, DumpCSV (recorder hist) text) ∧
    ∀ text, DumpCSV (recorder hist) text →
      ∃ kinds : List Target, kinds.Nodup ∧ (∀ t, t ∈ kinds ↔ ∃ r ∈ recs, r.target = t) ∧ text = kinds.flatMap (csvLine recs) := by
  have hr : recorder hist = recs := by
    rcases hh with rfl | ⟨pre, rfl⟩
    · exact Timeit.recorder_fresh recs
    · exact Timeit.recorder_clear pre recs
  rw [hr]
  obtain ⟨es, h1, hI⟩ := Timeit.summarize_ok recs ht
  refine ⟨⟨_, es, es, h1, .refl _, rfl⟩, ?_⟩
  rintro text ⟨es', order, g1, g2, rfl⟩
  rw [h1] at g1
  cases g1
  refine ⟨order.map Sample.target, (g2.map _).nodup_iff.2 hI.nodup, fun t => ?_, ?_⟩
  · rw [(g2.map Sample.target).mem_iff, hI.mem]
  · rw [List.flatMap_map]
    have : ∀ l : List Sample, (∀ e ∈ l, e ∈ es) → l.flatMap Sample.line = l.flatMap fun a => csvLine recs a.target := by
      intro l
      induction l with
      | nil => intro _; rfl
      | cons e l ih =>
        intro hl
        rw [List.flatMap_cons, List.flatMap_cons, ih fun e he => hl e (List.mem_cons_of_mem _ he)]
        congr 1
        obtain ⟨t1, t2⟩ := hI.tot e (hl e (by simp))
        unfold Sample.line csvLine showNat
        rw [t1, ← t2]
        cases e.target <;> rfl
    exact this order fun e he => g2.mem_iff.1 he

/-- Three recordings of two kinds after a `clear`. -/
example : summarize (recorder [.timeit ⟨.cmux, 7, 100⟩, .clear, .timeit ⟨.cmux, 2, 30⟩, .timeit ⟨.bootstrapping, 1, 9⟩, .timeit ⟨.cmux, 3, 4⟩]) =
    .ok [⟨.cmux, 5, 34⟩, ⟨.bootstrapping, 1, 9⟩] := by decide

end Homfa
