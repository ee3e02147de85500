import Verif.Spec.Parallel
import Verif.Proof.ParallelRun

/-! # Processes that do not disturb one another -/

namespace Homfa.Cli

variable {N n l : Nat} {L : Lib N n l}

/-- a process whose files no other process writes to does what it would do alone -/
theorem Parallel.isolated {fs fs' : Files} {ts : List (List Act)} (h : Parallel fs ts fs') {T : String → Prop} : ∀ {k : Nat} {t : List Act}, ts[k]? = some t →
    (∀ a ∈ t, T a.file) → (∀ j s, j ≠ k → ts[j]? = some s → ∀ a ∈ s, a.isWrite = true → ¬T a.file) →
    ∀ g : Files, (∀ f, T f → g f = fs f) → ∃ g', Replay g t g' ∧ ∀ f, T f → g' f = fs' f := by
  induction h with
  | done h =>
    intro k t hk _ _ g hg
    rw [h t (List.mem_of_getElem? hk)]
    exact ⟨g, .nil, hg⟩
  | @step fs ts i a t0 fs1 fs' hi hd _ ih =>
    intro k t hk hT hW g hg
    have hilt : i < ts.length := (List.getElem?_eq_some_iff.1 hi).1
    by_cases e : i = k
    · subst e
      rw [hi] at hk
      cases hk
      obtain ⟨g1, hg1, hs⟩ := hd.transfer (g := g) (hg _ (hT a (by simp)))
      obtain ⟨g', hr, hf⟩ := ih (k := i) (t := t0) (by rw [List.getElem?_set_self hilt]) (fun b hb => hT b (by simp [hb]))
        (fun j s hj hs => hW j s hj (by rwa [List.getElem?_set_ne (Ne.symm hj)] at hs)) g1 fun f hf => hs f (.inr (hg f hf))
      exact ⟨g', .cons hg1 hr, hf⟩
    · refine ih (k := k) (t := t) (by rw [List.getElem?_set_ne e]; exact hk) hT (fun j s hj hs => ?_) g fun f hf => ?_
      · by_cases e' : i = j
        · subst e'
          rw [List.getElem?_set_self hilt] at hs
          cases hs
          exact fun b hb => hW i _ e hi b (by simp [hb])
        · exact hW j s hj (by rwa [List.getElem?_set_ne e'] at hs)
      · rw [hg f hf]
        refine (hd.other fun hw he => ?_).symm
        exact hW i _ e hi a (by simp) hw (he ▸ hf)

/-- files nobody writes to stay as they are -/
theorem Parallel.unwritten {fs fs' : Files} {ts : List (List Act)} (h : Parallel fs ts fs') {f : String}
    (hf : ∀ t ∈ ts, ∀ a ∈ t, a.isWrite = true → a.file ≠ f) : fs' f = fs f := by
  induction h with
  | done _ => rfl
  | @step fs ts i a t fs1 fs' hi hd _ ih =>
    have hm := List.mem_of_getElem? hi
    rw [ih, hd.other (hf _ hm a (by simp))]
    intro s hs b hb
    rcases List.mem_or_eq_of_mem_set hs with hs | rfl
    · exact hf s hs b hb
    · exact hf _ hm b (by simp [hb])

theorem Replay.parallel {fs fs1 fs' : Files} {t : List Act} {ts : List (List Act)} (h : Replay fs t fs1) (h' : Parallel fs1 ([] :: ts) fs') :
    Parallel fs (t :: ts) fs' := by
  induction h with
  | nil => exact h'
  | cons hd _ ih => exact .step (i := 0) rfl hd (ih h')

theorem Parallel.idle {fs fs' : Files} {ts : List (List Act)} (h : Parallel fs ts fs') : Parallel fs ([] :: ts) fs' := by
  induction h with
  | done h =>
    refine .done fun t ht => ?_
    rcases List.mem_cons.1 ht with rfl | ht
    · rfl
    · exact h t ht
  | @step _ _ i _ _ _ _ hi hd _ ih => exact .step (i := i + 1) hi hd ih

/-- what is known about one of several independent processes -/
structure Alone (L : Lib N n l) (fs fs' : Files) (p : Proc) : Prop where
  runs : Runs L [] p.line p.acts p.outcome
  free : ∀ g : Files, (∀ f ∈ p.line, g f = fs f) → ∃ g', Replay g p.acts g' ∧ ∀ f ∈ p.line, g' f = fs' f

theorem Together.alone {fs fs' : Files} {ps : List Proc} (hi : Independent (ps.map (·.line))) (h : Together L fs ps fs') :
    ∀ p ∈ ps, Alone L fs fs' p := by
  intro p hp
  obtain ⟨k, hk⟩ := List.getElem?_of_mem hp
  refine ⟨h.1 p hp, h.2.isolated (T := (· ∈ p.line)) (k := k) (by rw [List.getElem?_map, hk]; rfl) (fun a ha => ((h.1 p hp).touches a ha).1) ?_⟩
  intro j s hj hs a ha hw
  rw [List.getElem?_map] at hs
  obtain ⟨q, hq, rfl⟩ := Option.map_eq_some_iff.1 hs
  have hout := ((h.1 q (List.mem_of_getElem? hq)).touches a ha).2 hw
  have hp' := List.pairwise_iff_getElem.1 hi
  obtain ⟨hk1, hk2⟩ := List.getElem?_eq_some_iff.1 hk
  obtain ⟨hj1, hj2⟩ := List.getElem?_eq_some_iff.1 hq
  rcases Nat.lt_or_gt_of_ne hj with hlt | hlt
  · have := (hp' j k (by simpa using hj1) (by simpa using hk1) hlt).1 a.file
    rw [List.getElem_map, List.getElem_map, hj2, hk2] at this
    exact this hout
  · have := (hp' k j (by simpa using hk1) (by simpa using hj1) hlt).2 a.file
    rw [List.getElem_map, List.getElem_map, hj2, hk2] at this
    exact this hout

theorem Together.unwritten {fs fs' : Files} {ps : List Proc} (h : Together L fs ps fs') {f : String} (hf : ∀ p ∈ ps, ¬["--out", f] <:+: p.line) :
    fs' f = fs f := by
  refine h.2.unwritten fun t ht a ha hw e => ?_
  obtain ⟨p, hp, rfl⟩ := List.mem_map.1 ht
  exact hf p hp (e ▸ ((h.1 p hp).touches a ha).2 hw)

/-- independent processes, one after the other -/
theorem serial {fs fs' : Files} : ∀ {ps : List Proc}, Independent (ps.map (·.line)) → (∀ p ∈ ps, Alone L fs fs' p) → ∀ g : Files,
    (∀ p ∈ ps, ∀ f ∈ p.line, g f = fs f) → (∀ f, (∀ p ∈ ps, ¬["--out", f] <:+: p.line) → g f = fs' f) →
    Session L g (ps.map fun p => .homfa p.line) ((allOf (ps.map (·.outcome))).map fun out => (fs', out)) := by
  intro ps
  induction ps with
  | nil =>
    intro _ _ g _ hg
    have : g = fs' := funext fun f => hg f (by simp)
    rw [this]
    exact .nil
  | cons p ps ih =>
    intro hi ha g hg1 hg2
    obtain ⟨hi1, hi2⟩ := List.pairwise_cons.1 hi
    obtain ⟨hr, hf⟩ := ha p (by simp)
    obtain ⟨g', hg', hT⟩ := hf g (hg1 p (by simp))
    have hrun := hr.run hg'
    have hoff : ∀ f, ¬["--out", f] <:+: p.line → g' f = g f :=
      fun f hn => hg'.other fun a ha hw e => hn (e ▸ (hr.touches a ha).2 hw)
    rw [List.map_cons, List.map_cons]
    cases ho : p.outcome with
    | error e =>
      rw [ho] at hrun
      exact .stop hrun
    | ok o =>
      rw [ho] at hrun
      have := ih hi2 (fun q hq => ha q (by simp [hq])) g' (fun q hq f hf => ?_) (fun f hn => ?_)
      · have := Session.next (rest := ps.map fun p => .homfa p.line) hrun this
        rw [allOf]
        cases ha : allOf (ps.map (·.outcome)) with
        | error e => rw [ha] at this; exact this
        | ok t => rw [ha] at this; exact this
      · rw [hoff f fun hn => ((hi1 _ (List.mem_map.2 ⟨q, hq, rfl⟩)).1 f hn) hf]
        exact hg1 q (by simp [hq]) f hf
      · by_cases hw : ["--out", f] <:+: p.line
        · exact hT f (hw.subset (by simp))
        · rw [hoff f hw]
          refine hg2 f fun q hq => ?_
          rcases List.mem_cons.1 hq with rfl | hq
          · exact hw
          · exact hn q hq

theorem independent_perm {ps qs : List Proc} (h : ps.Perm qs) (hi : Independent (ps.map (·.line))) : Independent (qs.map (·.line)) :=
  (List.Perm.pairwise_iff (fun h => ⟨h.2, h.1⟩) (h.map _)).1 hi

/-- commands run one after the other run together in one of the possible ways -/
theorem together_of_session {cmds : List (List String)} : ∀ {fs fs' : Files} {out : List Char}, Session L fs (cmds.map .homfa) (.ok (fs', out)) →
    ∃ ps : List Proc, ps.map (·.line) = cmds ∧ Together L fs ps fs' ∧ allOf (ps.map (·.outcome)) = .ok out := by
  induction cmds with
  | nil =>
    intro fs fs' out h
    generalize hr : (Except.ok (fs', out) : Res (Files × List Char)) = r at h
    cases h
    cases hr
    exact ⟨[], rfl, ⟨by simp, .done (by simp)⟩, rfl⟩
  | cons c cmds ih =>
    intro fs fs' out h
    rw [List.map_cons] at h
    generalize hr : (Except.ok (fs', out) : Res (Files × List Char)) = r at h
    cases h with
    | @next _ _ fs1 o1 _ r h1 h2 =>
      cases r with
      | error e => cases hr
      | ok p =>
        cases hr
        obtain ⟨ps, e1, ⟨h3, h4⟩, h5⟩ := ih h2
        obtain ⟨as, r, fs1', h6, h7, h8⟩ := h1.runs
        cases r with
        | error e => cases h8
        | ok o =>
          cases h8
          refine ⟨⟨c, as, .ok o1⟩ :: ps, by rw [List.map_cons, e1], ⟨?_, h7.parallel h4.idle⟩, ?_⟩
          · intro p hp
            rcases List.mem_cons.1 hp with rfl | hp
            · exact h6
            · exact h3 p hp
          · rw [List.map_cons, allOf, h5]; rfl
    | stop h1 => cases hr

theorem session_append {a b : List ShellCmd} : ∀ {fs fs1 : Files} {o1 : List Char} {r : Res (Files × List Char)}, Session L fs a (.ok (fs1, o1)) →
    Session L fs1 b r → Session L fs (a ++ b) (r.map fun p => (p.1, o1 ++ p.2)) := by
  induction a with
  | nil =>
    intro fs fs1 o1 r h h'
    cases h
    rw [show (r.map fun p : Files × List Char => (p.1, [] ++ p.2)) = r by cases r <;> rfl]
    exact h'
  | cons c a ih =>
    intro fs fs1 o1 r h h'
    generalize hr : (Except.ok (fs1, o1) : Res (Files × List Char)) = r1 at h
    cases h with
    | @next _ args fs2 o2 _ r2 h1 h2 =>
      cases r2 with
      | error e => cases hr
      | ok p =>
        cases hr
        have := Session.next h1 (ih h2 h')
        refine cast (congrArg _ ?_) this
        cases r with
        | error e => rfl
        | ok q => simp [Except.map, List.append_assoc]
    | stop _ => cases hr
    | cat h1 h2 => subst hr; exact .cat h1 (ih h2 h')
    | noFile _ => cases hr
    | redirect h1 h2 => subst hr; exact .redirect h1 (ih h2 h')
    | redirectStop _ => cases hr
    | copy h1 h2 => subst hr; exact .copy h1 (ih h2 h')
    | noCopy _ => cases hr
    | remove h2 => subst hr; exact .remove (ih h2 h')
    | write h2 => subst hr; exact .write (ih h2 h')

theorem session_stop {a b : List ShellCmd} : ∀ {fs : Files} {e : Err}, Session L fs a (.error e) → Session L fs (a ++ b) (.error e) := by
  induction a with
  | nil => intro fs e h; cases h
  | cons c a ih =>
    intro fs e h
    generalize hr : (Except.error e : Res (Files × List Char)) = r1 at h
    cases h with
    | @next _ args fs2 o2 _ r2 h1 h2 =>
      cases r2 with
      | ok p => cases hr
      | error e => cases hr; exact .next h1 (ih h2)
    | stop h => cases hr; exact .stop h
    | cat h1 h2 => subst hr; exact .cat h1 (ih h2)
    | noFile h => cases hr; exact .noFile h
    | redirect h1 h2 => subst hr; exact .redirect h1 (ih h2)
    | redirectStop h => cases hr; exact .redirectStop h
    | copy h1 h2 => subst hr; exact .copy h1 (ih h2)
    | noCopy h => cases hr; exact .noCopy h
    | remove h2 => subst hr; exact .remove (ih h2)
    | write h2 => subst hr; exact .write (ih h2)

theorem session_split {a b : List ShellCmd} : ∀ {fs fs' : Files} {out : List Char}, Session L fs (a ++ b) (.ok (fs', out)) →
    ∃ fs1 o1 o2, Session L fs a (.ok (fs1, o1)) ∧ Session L fs1 b (.ok (fs', o2)) ∧ out = o1 ++ o2 := by
  induction a with
  | nil => exact fun h => ⟨_, [], _, .nil, h, rfl⟩
  | cons c a ih =>
    intro fs fs' out h
    rw [List.cons_append] at h
    generalize hr : (Except.ok (fs', out) : Res (Files × List Char)) = r1 at h
    cases h with
    | @next _ args fs2 o2 _ r2 h1 h2 =>
      cases r2 with
      | error e => cases hr
      | ok p =>
        cases hr
        obtain ⟨fs1, o1, o3, h3, h4, h5⟩ := ih h2
        exact ⟨fs1, _, o3, .next h1 h3, h4, by rw [h5, List.append_assoc]⟩
    | stop _ => cases hr
    | cat h1 h2 => subst hr; obtain ⟨fs1, o1, o3, h3, h4, h5⟩ := ih h2; exact ⟨fs1, o1, o3, .cat h1 h3, h4, h5⟩
    | noFile _ => cases hr
    | redirect h1 h2 => subst hr; obtain ⟨fs1, o1, o3, h3, h4, h5⟩ := ih h2; exact ⟨fs1, o1, o3, .redirect h1 h3, h4, h5⟩
    | redirectStop _ => cases hr
    | copy h1 h2 => subst hr; obtain ⟨fs1, o1, o3, h3, h4, h5⟩ := ih h2; exact ⟨fs1, o1, o3, .copy h1 h3, h4, h5⟩
    | noCopy _ => cases hr
    | remove h2 => subst hr; obtain ⟨fs1, o1, o3, h3, h4, h5⟩ := ih h2; exact ⟨fs1, o1, o3, .remove h3, h4, h5⟩
    | write h2 => subst hr; obtain ⟨fs1, o1, o3, h3, h4, h5⟩ := ih h2; exact ⟨fs1, o1, o3, .write h3, h4, h5⟩

/-- a part of the first of two processes, then the second one, then the rest -/
theorem parallel_nested {fs fs1 fs2 fs3 : Files} {a b t : List Act} (h1 : Replay fs a fs1) (h2 : Replay fs1 t fs2) (h3 : Replay fs2 b fs3) :
    Parallel fs [a ++ b, t] fs3 := by
  induction h1 with
  | cons hd _ ih => exact .step (i := 0) rfl hd (ih h2)
  | nil =>
    rw [List.nil_append]
    induction h2 with
    | cons hd _ ih => exact .step (i := 1) rfl hd (ih h3)
    | nil => exact h3.parallel (.done (by simp))

end Homfa.Cli
