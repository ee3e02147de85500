import Verif.Proof.Drop

/-! # C101: an input stream may be destroyed at any moment -/

namespace Homfa

variable {l N : Nat}

/-- **C101** On a file of ciphertexts `cs`, whatever calls a user makes (`script`) before the stream is destroyed (all, some
or none of the ciphertexts may have been read, and the loader thread may be anywhere in its work), and however the two
threads are scheduled: the constructor returns; no execution is infinite; the answers are always the first of the expected
ones; nothing is ever undefined (the thread touches neither a closed file nor released storage) and the only way to die is
the assertion of a call of `next()` on the exhausted stream; and when nobody can move any more, all calls are answered and
either that assertion has failed or the destructor has returned, with the thread ended, the file closed and the storage
released. -/
theorem C101_drop_any_time (kind : StreamKind) (hbs : 0 < blockSize l N) (hbs' : blockSize l N < 2 ^ 63)
    (cs : List (Gsw l N)) (hlen : (cs.flatMap saveGsw).length < 2 ^ 63) (junk : Gsw l N) (script : List StreamCall) :
    ∃ s₀, openStream kind (some (cs.flatMap saveGsw)) junk script = .ok s₀ ∧
      (∃ bound, ∀ n t, DropExec kind n (.ofStream s₀) t → n ≤ bound) ∧
      ∀ n t, DropExec kind n (.ofStream s₀) t →
        let answers := streamSpec (if kind = .forward then cs else cs.reverse) script
        (∃ more, t.s.out ++ more = answers.1) ∧
        (t.s.died = none ∨ t.s.died = some .assertFail) ∧
        ((∀ u, ¬ DropStep kind t u) → t.s.out = answers.1 ∧
          t.s.died = (if answers.2 then some .assertFail else none) ∧
          (answers.2 = false → t.dtor = some [] ∧ t.exited = true ∧ t.fileOpen = false ∧ t.released = true)) := by
  obtain ⟨s₀, h0, hi⟩ := open_inv hbs hbs' kind cs hlen junk script
  refine ⟨s₀, h0, ⟨dropFuel kind (.ofStream s₀), fun n t he => by have := drop_exec_bound he; omega⟩, fun n t he => ?_⟩
  have hi' := drop_inv_exec hbs hbs' he (drop_inv_start hi)
  have hord : (if kind = .forward then cs else cs.reverse) = kind.order cs := by cases kind <;> rfl
  rw [hord]
  refine ⟨?_, hi'.inv.died_cases, fun hs => ?_⟩
  · obtain ⟨done, rem, hord, hspec, -⟩ := hi'.inv.spec
    exact ⟨_, (Prod.mk.inj hspec).1⟩
  · obtain ⟨h1, h2, h3⟩ := drop_stuck hi' hs
    refine ⟨h1, h2, fun h => ?_⟩
    rw [h, if_neg (by simp)] at h2
    obtain ⟨a, b, c, d, -⟩ := h3 h2
    exact ⟨a, b, c, d⟩

/-- **C101** The load that is going on when the destructor begins is completed, not cut off: as long as the thread has work
left the file is open, the storage is there and the destructor has not got past joining the thread. -/
theorem C101_load_completed (kind : StreamKind) (hbs : 0 < blockSize l N) (hbs' : blockSize l N < 2 ^ 63)
    (cs : List (Gsw l N)) (hlen : (cs.flatMap saveGsw).length < 2 ^ 63) (junk : Gsw l N) (script : List StreamCall)
    (s₀ : StreamState l N) (h0 : openStream kind (some (cs.flatMap saveGsw)) junk script = .ok s₀) (n : Nat)
    (t : DropState l N) (he : DropExec kind n (.ofStream s₀) t) (op : LoadOp l N) (ops : List (LoadOp l N))
    (ht : t.s.task = some (op :: ops)) :
    t.exited = false ∧ t.fileOpen = true ∧ t.released = false ∧
      ∀ rest, t.dtor = some rest → DropOp.joinWorker ∈ rest := by
  obtain ⟨s₀', h0', hi⟩ := open_inv hbs hbs' kind cs hlen junk script
  rw [h0] at h0'
  obtain rfl := Except.ok.inj h0'
  obtain ⟨-, hfl, hidle⟩ := drop_inv_exec hbs hbs' he (drop_inv_start hi)
  have hx : t.exited = false := by
    by_contra hne
    exact hidle (by simpa using hne) ⟨op, ops, ht⟩
  unfold DropFlags at hfl
  cases hdt : t.dtor with
  | none => rw [hdt] at hfl; exact ⟨hx, hfl.2.2.1, hfl.2.2.2.1, fun rest h => by simp at h⟩
  | some rest =>
    rw [hdt] at hfl
    obtain ⟨-, -, -, h | h | h | h | h | h⟩ := hfl
    · exact ⟨hx, h.2.2.1, h.2.2.2.1, fun r hr => by rw [← Option.some.inj hr, h.1]; simp⟩
    · exact ⟨hx, h.2.2.1, h.2.2.2.1, fun r hr => by rw [← Option.some.inj hr, h.1]; simp⟩
    · exact ⟨hx, h.2.2.1, h.2.2.2.1, fun r hr => by rw [← Option.some.inj hr, h.1]; simp⟩
    · rw [hx] at h; simp at h
    · rw [hx] at h; simp at h
    · rw [hx] at h; simp at h

/-- non-vacuity: with the parameters of the 128-bit set, a stream of three ciphertexts of which one is read; and a schedule
in which the destructor begins while the loader has not done anything of its first task -/
example (c d e : Gsw 3 1024) : streamSpec [c, d, e] [.size, .next] = ([.size 3, .ctxt c], false) := rfl
example (c junk : Gsw 1 1) (hc : c = fun _ _ _ => 0x3ff0000000000000#64) (hj : junk = fun _ _ _ => 0#64) :
    ∃ s₀ t, openStream .forward (some ([c].flatMap saveGsw)) junk [] = .ok s₀ ∧
      DropExec .forward 3 (.ofStream s₀) t ∧ t.dtor = some [.joinWorker, .closeFile, .release] ∧
      t.s.task.map List.length = some 4 := by
  obtain ⟨s₀, h0, -⟩ := open_inv (l := 1) (N := 1) (by decide) (by decide) .forward [c] (by
    rw [length_file, List.length_singleton]; decide) junk []
  have hv : (openStream .forward (some ([c].flatMap saveGsw)) junk []).toOption.map
      (fun s => (s.died, s.pc.length, s.script, s.task.map List.length)) = some (none, 0, [], some 4) := by
    subst hc hj; decide +kernel
  have hs : s₀.died = none ∧ s₀.pc = [] ∧ s₀.script = [] ∧ s₀.task.map List.length = some 4 := by
    rw [h0] at hv
    have hv := Option.some.inj hv
    simp only [Prod.mk.injEq] at hv
    exact ⟨hv.1, List.length_eq_zero_iff.1 hv.2.1, hv.2.2.1, hv.2.2.2⟩
  obtain ⟨hd, hpc, hsc, htk⟩ := hs
  have e1 : DropStep .forward (.ofStream s₀) { DropState.ofStream s₀ with dtor := some dropOps } := .inr (by
    simp [dropCaller, DropState.ofStream, hd, hpc, hsc])
  have e2 : DropStep .forward { DropState.ofStream s₀ with dtor := some dropOps }
      { DropState.ofStream s₀ with dtor := some [.stopPool, .joinWorker, .closeFile, .release], future := false } := .inr (by
    simp [dropCaller, DropState.ofStream, hd, dropOps, DropOp.run])
  have e3 : DropStep .forward
      { DropState.ofStream s₀ with dtor := some [.stopPool, .joinWorker, .closeFile, .release], future := false }
      { DropState.ofStream s₀ with dtor := some [.joinWorker, .closeFile, .release], future := false, stop := true } :=
    .inr (by simp [dropCaller, DropState.ofStream, hd, DropOp.run])
  exact ⟨s₀, _, h0, .step (.step (.step (.refl _) e1) e2) e3, rfl, htk⟩

end Homfa
