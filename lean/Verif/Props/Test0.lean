import Verif.Proof.Test0
import Verif.Props.Text
import Verif.Props.Determinize
import Verif.Props.Minimize
import Verif.Props.Queries
import Verif.Props.Ltl
import Verif.Props.Cut
import Verif.Proof.Pipeline

/-!
# C93: what a pass of the unit test program means

`test0` builds automata from the files of test/ and from four formulas, and compares what is printed with a table in the program; then it saves
and loads ciphertexts made with a fresh key.  The theorems are about any such tables, any files, any library and any schedule of the threads.
-/

namespace Homfa.Cli

open Spec

variable {N n l : Nat} {L : Lib N n l}

/-- **C93.** The program passes if the tables are right and no ciphertext contains a NaN, whatever the keys, the randomness and the schedule of the
threads: it can only end normally, and has then changed the file `_test_in` alone. -/
theorem C93_passes (hbs : 0 < blockSize l N) (hbs' : 2 * blockSize l N < 2 ^ 63) {cs : List DumpCheck} {fs : Files}
    (hg : ∀ c ∈ cs, ∃ g text, c.graph L fs = .ok g ∧ g.dump = .ok text ∧ expectedDump c.expect = .ok text)
    (hnan : ∀ q rnd b, NoNaN (L.encrypt (L.newKey q) rnd b)) :
    (∃ r, Test0Run L cs fs r) ∧ ∀ r, Test0Run L cs fs r → ∃ fs', r = .ok fs' ∧ ∀ f, f ≠ "_test_in" → fs' f = fs f := by
  have hall : cs.forM (DumpCheck.run L fs) = .ok () := by
    refine forM_ok.2 fun c hc => ?_
    obtain ⟨g, text, h1, h2, h3⟩ := hg c hc
    unfold DumpCheck.run
    rw [h1, Res.bind_ok, h2, Res.bind_ok, h3, Res.bind_ok]
    simp [cassert]
  have hser : ∀ q rnd junk, testSerializer (L.encrypt (L.newKey q) rnd true) junk = .ok () := by
    intro q rnd junk
    rw [testSerializer_eq, if_pos ((gswEq_self _).2 (hnan _ _ _))]
  have hck : ∀ q r0 b0 r1 b1, checkAnswers (L.encrypt (L.newKey q) r0 b0) (L.encrypt (L.newKey q) r1 b1)
      [.size 2, .ctxt (L.encrypt (L.newKey q) r0 b0), .size 1, .ctxt (L.encrypt (L.newKey q) r1 b1), .size 0] = .ok () := by
    intro q r0 b0 r1 b1
    rw [checkAnswers_self, (gswEq_self _).2 (hnan _ _ _), (gswEq_self _).2 (hnan _ _ _)]
    rfl
  constructor
  · refine ⟨_, .stream (q := 0) (rnd := 0) (junk := fun _ _ _ => 0#64) hall (hser _ _ _) (.forward (q := 0) (r0 := 0) (r1 := 0)
      (outs := .ok [.size 2, .ctxt (L.encrypt (L.newKey 0) 0 true), .size 1, .ctxt (L.encrypt (L.newKey 0) 0 false), .size 0])
      (outs' := .ok [.size 2, .ctxt (L.encrypt (L.newKey 0) 0 false), .size 1, .ctxt (L.encrypt (L.newKey 0) 0 true), .size 0])
      rfl rfl rfl ?_ ?_ ?_ rfl)⟩
    · rw [Files.set_same]
      exact (answers_iff hbs hbs' .reversed _ _ _).2 rfl
    · exact hck _ _ _ _ _
    · rw [Files.set_same]
      exact (answers_iff hbs hbs' .forward _ _ _).2 rfl
  · intro r hr
    cases hr with
    | graphs h => rw [hall] at h; cases h
    | serializer _ h => rw [hser] at h; cases h
    | stream _ _ h =>
      cases h with
      | reversed h0 h1 hf ha hc =>
        subst h0 h1 hf
        rw [Files.set_same] at ha
        rw [(answers_iff hbs hbs' .reversed _ _ _).1 ha] at hc
        have hc : checkAnswers _ _ _ = _ := hc
        rw [hck] at hc
        cases hc
      | forward h0 h1 hf ha hc ha' hc' =>
        subst h0 h1 hf
        rw [Files.set_same] at ha'
        rw [(answers_iff hbs hbs' .forward _ _ _).1 ha'] at hc'
        have hc' : checkAnswers _ _ _ = _ := hc'
        rw [hck] at hc'
        subst hc'
        exact ⟨_, rfl, fun f hf => Files.set_other _ _ hf⟩

theorem run_means {fs : Files} {c : DumpCheck} (h : DumpCheck.run L fs c = .ok ()) :
    ∃ g text, c.graph L fs = .ok g ∧ g.dump = .ok text ∧ expectedDump c.expect = .ok text := by
  unfold DumpCheck.run at h
  obtain ⟨g, h1, h⟩ := Res.bind_eq_ok.1 h
  obtain ⟨d, h2, h⟩ := Res.bind_eq_ok.1 h
  obtain ⟨e, h3, h⟩ := Res.bind_eq_ok.1 h
  refine ⟨g, d, h1, h2, ?_⟩
  unfold cassert at h
  split at h
  · rename_i he
    rw [beq_iff_eq.1 he]
    exact h3
  · cases h

/-- **C93.** What a pass tells about the automata: each was built, and printed as the table says. -/
theorem C93_tables {cs : List DumpCheck} {fs fs' : Files} (h : Test0Run L cs fs (.ok fs')) :
    ∀ c ∈ cs, ∃ g text, c.graph L fs = .ok g ∧ g.dump = .ok text ∧ expectedDump c.expect = .ok text := by
  have hall : cs.forM (DumpCheck.run L fs) = .ok () := by
    generalize hr : (Except.ok fs' : Res Files) = r at h
    cases h with
    | graphs h => cases hr
    | serializer h _ => exact h
    | stream h _ _ => exact h
  exact fun c hc => run_means (forM_ok.1 hall c hc)

/-- **C93.** What a pass tells about a spec file: the table in the program is a spec of exactly the words of the automaton in the file, of their
reversals, or of all other words. -/
theorem C93_spec_language {cs : List DumpCheck} {fs fs' : Files} (h : Test0Run L cs fs (.ok fs')) {f : String} {op : GraphOp} {expect : List String}
    (hc : .spec f op expect ∈ cs) {text : List Char} (ht : expectedDump expect = .ok text) (hlen : text.length ≤ 2 ^ 31) {g : Graph}
    (hg : SpecFile fs f g) : ∃ e, Graph.fromIstream text = .ok e ∧ ∀ w, e.accepts w = op.language g w := by
  obtain ⟨x, t, h1, h2, h3⟩ := C93_tables h _ hc
  rw [show DumpCheck.expect (.spec f op expect) = expect from rfl, ht] at h3
  cases h3
  obtain ⟨b, k1, k2, k3⟩ := hg
  have hwf := wf_of_fromIstream k2 k3
  have h1 : (readSpec (fs f)).bind (fun t => (Graph.fromIstream t).bind fun g => op.run g) = .ok x := h1
  rw [k1] at h1
  have h1 : (Graph.fromIstream (textOf b)).bind (fun g => op.run g) = .ok x := h1
  rw [k2] at h1
  have h1 : op.run g = .ok x := h1
  obtain ⟨hx, hl⟩ : x.WF ∧ ∀ w, x.accepts w = op.language g w := by
    cases op with
    | asIs => cases h1; exact ⟨hwf, fun _ => rfl⟩
    | reversed =>
      obtain ⟨r, e1, e2, e3⟩ := C03_reversed_language g hwf
      rw [show GraphOp.run .reversed g = g.reversed from rfl, e1] at h1
      cases h1
      exact ⟨e2, e3⟩
    | minimized =>
      obtain ⟨r, e1, e2, e3⟩ := C04_minimized_language g hwf
      rw [show GraphOp.run .minimized g = g.minimized from rfl, e1] at h1
      cases h1
      exact ⟨e2, e3⟩
    | negated =>
      obtain ⟨r, e1, e2, e3⟩ := C09_negated_language g hwf
      rw [show GraphOp.run .negated g = g.negated from rfl, e1] at h1
      cases h1
      refine ⟨e2, fun w => ?_⟩
      obtain ⟨b, b1, b2⟩ := e3 w
      rw [b2]
      show _ = (g.accepts w).map not
      rw [b1]
      rfl
  obtain ⟨t', e1, e2⟩ := C14_dump_parse x hx (Nat.le_trans (Graph.length_dump hx h2) hlen)
  rw [h2] at e1
  cases e1
  exact ⟨_, e2, hl⟩

/-- **C93.** What a pass tells about a formula: the table is a spec of exactly the bit strings of the runs of the monitor. -/
theorem C93_formula_language {cs : List DumpCheck} {fs fs' : Files} (h : Test0Run L cs fs (.ok fs')) {fml : String} {ap : Nat} {expect : List String}
    (hc : .formula fml ap expect ∈ cs) {text : List Char} (ht : expectedDump expect = .ok text) (hlen : text.length ≤ 2 ^ 31) {M : Monitor}
    (hm : L.monitor fml ap = .ok M) (hM : MonitorOk M ap) :
    ∃ e, Graph.fromIstream text = .ok e ∧ ∀ w, ∃ b, e.accepts w = .ok b ∧ (b = true ↔
      ∃ (letters : List (List Bool)) (q : Nat), (∀ a ∈ letters, a.length = ap) ∧ w = letters.flatten ∧ MonitorRun M M.init letters q) := by
  obtain ⟨x, t, h1, h2, h3⟩ := C93_tables h _ hc
  rw [show DumpCheck.expect (.formula fml ap expect) = expect from rfl, ht] at h3
  cases h3
  have h1 : (L.monitor fml ap).bind (fun m => Graph.fromMonitor m ap false) = .ok x := h1
  rw [hm] at h1
  have h1 : Graph.fromMonitor M ap false = .ok x := h1
  obtain ⟨g, e1, hx, hl⟩ := C41_ltl_language M ap hM
  rw [h1] at e1
  cases e1
  obtain ⟨t', e1, e2⟩ := C14_dump_parse x hx (Nat.le_trans (Graph.length_dump hx h2) hlen)
  rw [h2] at e1
  cases e1
  exact ⟨_, e2, hl⟩

/-- **C93.** What a pass tells about the ciphertexts: it leaves two of them in `_test_in`, an encryption of 0 and one of 1 with the same key, and
no coefficient of them was a NaN.  (The comparison is `==` of `double`, which no NaN passes.) -/
theorem C93_ciphertexts (hbs : 0 < blockSize l N) (hbs' : 2 * blockSize l N < 2 ^ 63) {cs : List DumpCheck} {fs fs' : Files}
    (h : Test0Run L cs fs (.ok fs')) :
    ∃ q r0 r1, fs' = fs.set "_test_in" (saveGsw (L.encrypt (L.newKey q) r0 false) ++ saveGsw (L.encrypt (L.newKey q) r1 true)) ∧
      NoNaN (L.encrypt (L.newKey q) r0 false) ∧ NoNaN (L.encrypt (L.newKey q) r1 true) := by
  generalize hr : (Except.ok fs' : Res Files) = r at h
  cases h with
  | graphs h => cases hr
  | serializer h _ => cases hr
  | stream _ _ h =>
    cases h with
    | reversed => cases hr
    | @forward q r0 r1 outs outs' _ _ _ r h0 h1 hf ha hc ha' hc' =>
      subst h0 h1 hf
      rw [Files.set_same] at ha'
      rw [(answers_iff hbs hbs' .forward _ _ _).1 ha'] at hc'
      have hc' : checkAnswers _ _ _ = r := hc'
      rw [checkAnswers_self] at hc'
      by_cases hb : (gswEq (L.encrypt (L.newKey q) r0 false) (L.encrypt (L.newKey q) r0 false) &&
          gswEq (L.encrypt (L.newKey q) r1 true) (L.encrypt (L.newKey q) r1 true)) = true
      · rw [if_pos hb] at hc'
        subst hc'
        rw [Bool.and_eq_true] at hb
        exact ⟨q, r0, r1, Except.ok.inj hr, (gswEq_self _).1 hb.1, (gswEq_self _).1 hb.2⟩
      · rw [if_neg hb] at hc'
        subst hc'
        cases hr

/-- the spec files of the repository the program reads -/
def repoSpecs : List (String × String) := [
  ("test/01.spec", ">0* 1   2\n1   3   4\n2   3   0\n3   5   6\n4   7   8\n5   3   4\n6   3   0\n7   4   4\n8   0   0\n"),
  ("test/02.spec", ">0  1   0\n1*  2   1\n2*  0   1\n"),
  ("test/03.spec", "0*   1   0\n>1*  0   1\n"),
  ("test/04.spec", ">0  1   2\n1   0   3\n2*  4   5\n3*  4   5\n4*  4   5\n5   5   5\n"),
  ("test/05.spec", ">0  1   3\n1   0   3\n2   1   4\n3*  5   5\n4   3   3\n5*  5   5\n"),
  ("test/06.spec", "0*  2   0\n>1  0   1,2\n>2  1   _\n"),
  ("test/07.spec", ">0* 8       2,6,8\n1   0       _\n2   _       0\n3   1,2,5,6 _\n4   7       1,5,7\n5   3       _\n6   _       3\n7   4       _\n8   _       4\n"),
  ("test/08.spec", ">0* 1   2\n1*  0   0\n2*  3   3\n3*  5   4\n4*  3   _\n5*  0   _\n"),
  ("test/09.spec", ">0* 1,4 1\n1   0   _\n2   _   0\n>3  2,5 2\n4   3   _\n5   _   3\n6   6   4,5,6\n")]

/-- monitors of the formulas in the program, with p0, p1, ... as the variables 0, 1, ... -/
def repoMonitors : List (String × Nat × Monitor) := [
  ("!F(p0 & Xp1)", 2, { out := [[(.node 0 .tt .ff, 0), (.node 0 .ff .tt, 1)], [(.node 0 (.node 1 .tt .ff) .ff, 0), (.node 0 .ff (.node 1 .tt .ff), 1)]], init := 0, varOf := some }),
  ("G(p0 -> p1 W p2)", 3, { out := [[(.node 0 .tt (.node 2 .ff .tt), 0), (.node 0 .ff (.node 1 .ff (.node 2 .tt .ff)), 1)],
      [(.node 2 .ff .tt, 0), (.node 1 .ff (.node 2 .tt .ff), 1)]], init := 0, varOf := some }),
  ("G(p3 | p4 | (p0 & p1 & p2))", 5, { out := [[(.node 0 (.node 3 (.node 4 .ff .tt) .tt) (.node 1 (.node 3 (.node 4 .ff .tt) .tt) (.node 2 (.node 3 (.node 4 .ff .tt) .tt) .tt)), 0)]], init := 0, varOf := some }),
  ("G(p3 & p4)", 5, { out := [[(.node 3 .ff (.node 4 .ff .tt), 0)]], init := 0, varOf := some })]

theorem spec_ok {fs : Files} {f : String} {s : String} (h : fs f = some (bytesOf s)) {op : GraphOp} {e : List String}
    (hc : (do let g ← Graph.fromIstream (textOf (bytesOf s)); let g ← op.run g; let d ← g.dump; let e ← expectedDump e; cassert (d == e)) =
      (.ok () : Res Unit)) : DumpCheck.run L fs (.spec f op e) = .ok () := by
  unfold DumpCheck.run DumpCheck.graph
  show ((readSpec (fs f)).bind _).bind _ = _
  rw [h, ← hc]
  show ((Graph.fromIstream (textOf (bytesOf s))).bind _).bind _ = _
  cases Graph.fromIstream (textOf (bytesOf s)) with
  | error _ => rfl
  | ok g => rfl

theorem formula_ok {fs : Files} {fml : String} {ap : Nat} {M : Monitor} (h : L.monitor fml ap = .ok M) {e : List String}
    (hc : (do let g ← Graph.fromMonitor M ap false; let d ← g.dump; let e ← expectedDump e; cassert (d == e)) =
      (.ok () : Res Unit)) : DumpCheck.run L fs (.formula fml ap e) = .ok () := by
  unfold DumpCheck.run DumpCheck.graph
  show ((L.monitor fml ap).bind _).bind _ = _
  rw [h, ← hc]
  rfl

/-- **C93, the program as it is.** With the spec files of the repository, with Spot giving those monitors for the four formulas, and with a library
whose ciphertexts contain no NaN, the program can only pass. -/
theorem C93_repo (hbs : 0 < blockSize l N) (hbs' : 2 * blockSize l N < 2 ^ 63) {fs : Files} (hspec : ∀ p ∈ repoSpecs, fs p.1 = some (bytesOf p.2))
    (hmon : ∀ p ∈ repoMonitors, L.monitor p.1 p.2.1 = .ok p.2.2) (hnan : ∀ q rnd b, NoNaN (L.encrypt (L.newKey q) rnd b)) :
    (∃ r, Test0Run L repoTest0 fs r) ∧ ∀ r, Test0Run L repoTest0 fs r → ∃ fs', r = .ok fs' ∧ ∀ f, f ≠ "_test_in" → fs' f = fs f := by
  have hs : ∀ (i : Nat) (p : String × String), repoSpecs[i]? = some p → fs p.1 = some (bytesOf p.2) := fun i p h => hspec p (List.mem_of_getElem? h)
  have hm : ∀ (i : Nat) (p : String × Nat × Monitor), repoMonitors[i]? = some p → L.monitor p.1 p.2.1 = .ok p.2.2 :=
    fun i p h => hmon p (List.mem_of_getElem? h)
  refine C93_passes hbs hbs' ?_ hnan
  have key : ∀ c ∈ repoTest0, DumpCheck.run L fs c = .ok () := by
    simp only [repoTest0, List.forall_mem_cons, List.not_mem_nil, false_imp_iff, implies_true, and_true]
    exact ⟨spec_ok (hs 1 _ rfl) (by decide +kernel),
      spec_ok (hs 2 _ rfl) (by decide +kernel),
      spec_ok (hs 3 _ rfl) (by decide +kernel),
      spec_ok (hs 5 _ rfl) (by decide +kernel),
      spec_ok (hs 6 _ rfl) (by decide +kernel),
      spec_ok (hs 7 _ rfl) (by decide +kernel),
      spec_ok (hs 8 _ rfl) (by decide +kernel),
      spec_ok (hs 0 _ rfl) (by decide +kernel),
      spec_ok (hs 1 _ rfl) (by decide +kernel),
      spec_ok (hs 1 _ rfl) (by decide +kernel),
      spec_ok (hs 2 _ rfl) (by decide +kernel),
      spec_ok (hs 3 _ rfl) (by decide +kernel),
      spec_ok (hs 4 _ rfl) (by decide +kernel),
      formula_ok (hm 0 _ rfl) (by decide +kernel),
      formula_ok (hm 1 _ rfl) (by decide +kernel),
      formula_ok (hm 2 _ rfl) (by decide +kernel),
      formula_ok (hm 3 _ rfl) (by decide +kernel),
      spec_ok (hs 1 _ rfl) (by decide +kernel),
      spec_ok (hs 2 _ rfl) (by decide +kernel),
      spec_ok (hs 3 _ rfl) (by decide +kernel),
      spec_ok (hs 5 _ rfl) (by decide +kernel),
      spec_ok (hs 6 _ rfl) (by decide +kernel),
      spec_ok (hs 7 _ rfl) (by decide +kernel),
      spec_ok (hs 8 _ rfl) (by decide +kernel)⟩
  exact fun c hc => run_means (key c hc)

/-- **C93, the text of a table.** The items are taken three by three, a line each; a table with another number of items makes the program fail. -/
theorem C93_table_text (items : List String) (text : List Char) :
    expectedDump items = .ok text ↔ ∃ rows : List (String × String × String), items = rows.flatMap (fun r => [r.1, r.2.1, r.2.2]) ∧
      text = rows.flatMap fun r => (r.1 ++ "\t" ++ r.2.1 ++ "\t" ++ r.2.2 ++ "\n").toList := by
  induction items using expectedDump.induct generalizing text with
  | case1 =>
    constructor
    · rintro ⟨⟩
      exact ⟨[], rfl, rfl⟩
    · rintro ⟨rows, h, rfl⟩
      cases rows with
      | nil => rfl
      | cons r rows => cases h
  | case2 a b c rest ih =>
    unfold expectedDump
    constructor
    · intro h
      obtain ⟨t, h1, h2⟩ := Res.bind_eq_ok.1 h
      obtain ⟨rows, h3, rfl⟩ := (ih t).1 h1
      cases h2
      exact ⟨(a, b, c) :: rows, by rw [h3]; rfl, by simp⟩
    · rintro ⟨rows, h, rfl⟩
      cases rows with
      | nil => cases h
      | cons r rows =>
        obtain ⟨x, y, z⟩ := r
        injection h with h1 h
        injection h with h2 h
        injection h with h3 h
        subst h1 h2 h3
        rw [(ih _).2 ⟨rows, h, rfl⟩, Res.bind_ok, Res.pure_eq]
        simp
  | case3 items h1 h2 =>
    constructor
    · intro h
      unfold expectedDump at h
      split at h
      · exact absurd rfl h1
      · exact absurd rfl (h2 _ _ _ _)
      · cases h
    · rintro ⟨rows, rfl, rfl⟩
      cases rows with
      | nil => exact absurd rfl h1
      | cons r rows => exact absurd rfl (h2 _ _ _ _)

/-- **C93, the comparisons of the stream test.** The answers pass if and only if they are the three sizes and the two ciphertexts in this order,
the ciphertexts equal as numbers. -/
theorem C93_comparison (a b : Gsw l N) (outs : List (StreamOut l N)) :
    checkAnswers a b outs = .ok () ↔ ∃ a' b', outs = [.size 2, .ctxt a', .size 1, .ctxt b', .size 0] ∧ SameNumbers a' a ∧ SameNumbers b' b := by
  unfold checkAnswers cassert
  have hsize : ∀ (x : StreamOut l N) n, answerEq x (.size n) = true ↔ x = .size n := by
    intro x n
    cases x <;> simp [answerEq]
  have hctxt : ∀ (x : StreamOut l N) c, answerEq x (.ctxt c) = true ↔ ∃ c', x = .ctxt c' ∧ SameNumbers c' c := by
    intro x c
    cases x <;> simp [answerEq, gswEq_iff]
  constructor
  · intro h
    match outs with
    | [x1, x2, x3, x4, x5] =>
      dsimp only at h
      split at h
      · rename_i hc
        simp only [List.length_cons, List.length_nil, beq_self_eq_true, Bool.true_and, List.zip_cons_cons, List.zip_nil_right, List.all_cons,
          List.all_nil, Bool.and_true, Bool.and_eq_true, hsize, hctxt] at hc
        obtain ⟨rfl, ⟨a', rfl, ha⟩, rfl, ⟨b', rfl, hb⟩, rfl⟩ := hc
        exact ⟨a', b', rfl, ha, hb⟩
      · cases h
    | [] | [_] | [_, _] | [_, _, _] | [_, _, _, _] => cases h
    | _ :: _ :: _ :: _ :: _ :: _ :: _ => simp at h
  · rintro ⟨a', b', rfl, ha, hb⟩
    rw [if_pos]
    simp only [List.length_cons, List.length_nil, beq_self_eq_true, Bool.true_and, List.zip_cons_cons, List.zip_nil_right, List.all_cons,
      List.all_nil, Bool.and_true, Bool.and_eq_true, hsize, hctxt]
    exact ⟨trivial, ⟨a', rfl, ha⟩, trivial, ⟨b', rfl, hb⟩, trivial⟩

/-! ## The hypotheses are met -/

/-- the files of the repository -/
def exTest0Files : Files := fun f => (repoSpecs.lookup f).map bytesOf

/-- a library with ciphertexts of zeros and ones that knows the monitors -/
noncomputable def exTest0Lib (φ : TLWE 16 → Nat) : Lib 16 2 1 :=
  { toyLib 16 2 1 φ with
    encrypt := fun _ _ b _ _ _ => if b then 0x3ff0000000000000#64 else 0#64
    monitor := fun fml ap => match repoMonitors.find? (fun p => p.1 == fml && p.2.1 == ap) with
      | some p => .ok p.2.2
      | none => .error .die }

/-- There is a library and there are files with which the program passes, and its end leaves two blocks in `_test_in`; then, as an instance of what
the pass tells, the nine-line table in the program is a spec of the reversed words of test/01.spec. -/
example : ∃ (φ : TLWE 16 → Nat) (fs' : Files), Test0Run (exTest0Lib φ) repoTest0 exTest0Files (.ok fs') ∧
    (∃ b, fs' "_test_in" = some b ∧ b.length = 2 * blockSize 1 16) ∧
    ∃ g e, SpecFile exTest0Files "test/01.spec" g ∧
      Graph.fromIstream ">0*\t1\t2\n1\t3\t4\n2\t3\t5\n3\t3\t3\n4\t6\t7\n5*\t8\t8\n6\t4\t3\n7\t5\t3\n8\t5\t5\n".toList = .ok e ∧
      ∀ w, e.accepts w = g.accepts w.reverse := by
  obtain ⟨φ, -⟩ := exists_numbering 16
  have hr := C93_repo (L := exTest0Lib φ) (by decide) (by decide) (fs := exTest0Files) ?_ ?_ ?_
  · obtain ⟨⟨r, h⟩, h'⟩ := hr
    obtain ⟨fs', rfl, -⟩ := h' r h
    refine ⟨φ, fs', h, ?_, ?_⟩
    · obtain ⟨q, r0, r1, e, -⟩ := C93_ciphertexts (by decide) (by decide) h
      refine ⟨_, by rw [e, Files.set_same], ?_⟩
      rw [List.length_append, length_saveGsw, length_saveGsw]
      omega
    · have hz : (Graph.fromIstream (textOf (bytesOf ">0* 1   2\n1   3   4\n2   3   0\n3   5   6\n4   7   8\n5   3   4\n6   3   0\n7   4   4\n8   0   0\n"))).map
          Graph.size = .ok 9 := by decide +kernel
      cases hg : Graph.fromIstream (textOf (bytesOf ">0* 1   2\n1   3   4\n2   3   0\n3   5   6\n4   7   8\n5   3   4\n6   3   0\n7   4   4\n8   0   0\n")) with
      | error e => rw [hg] at hz; cases hz
      | ok g =>
        have hsz : g.size = 9 := by rw [hg] at hz; exact Except.ok.inj hz
        have hf : SpecFile exTest0Files "test/01.spec" g := ⟨_, rfl, hg, by omega⟩
        obtain ⟨e, e1, e2⟩ := C93_spec_language h (f := "test/01.spec") (op := .reversed)
          (expect := [">0*", "1", "2", "1", "3", "4", "2", "3", "5", "3", "3", "3", "4", "6", "7", "5*", "8", "8", "6", "4", "3", "7", "5", "3", "8", "5", "5"])
          (by simp [repoTest0])
          (text := ">0*\t1\t2\n1\t3\t4\n2\t3\t5\n3\t3\t3\n4\t6\t7\n5*\t8\t8\n6\t4\t3\n7\t5\t3\n8\t5\t5\n".toList) (by decide) (by decide) hf
        exact ⟨g, e, hf, e1, e2⟩
  · intro p hp
    simp only [repoSpecs, List.mem_cons, List.not_mem_nil, or_false] at hp
    rcases hp with rfl | rfl | rfl | rfl | rfl | rfl | rfl | rfl | rfl <;> rfl
  · intro p hp
    simp only [repoMonitors, List.mem_cons, List.not_mem_nil, or_false] at hp
    rcases hp with rfl | rfl | rfl | rfl <;> rfl
  · intro q rnd b i j k
    show ¬ IsNaN (if b then 0x3ff0000000000000#64 else 0#64)
    cases b <;> decide

/-- With a library all of whose ciphertexts contain a NaN the program cannot pass, although every byte is saved and loaded again. -/
example (φ : TLWE 16 → Nat) (cs : List DumpCheck) (fs fs' : Files) :
    ¬ Test0Run { toyLib 16 2 1 φ with encrypt := fun _ _ _ _ _ _ => 0x7ff8000000000000#64 } cs fs (.ok fs') := by
  intro h
  obtain ⟨q, r0, r1, -, h, -⟩ := C93_ciphertexts (by decide) (by decide) h
  exact h 0 0 0 (by show IsNaN (0x7ff8000000000000#64); decide)

end Homfa.Cli
