import Verif.Spec.OutageParallel
import Verif.Proof.Outage
import Verif.Proof.ParallelPool

/-! # Commands that run at the same time, some of which are stopped -/

namespace Homfa.Cli

variable {N n l : Nat} {L : Lib N n l} {δ : Noise} {Enc : L.Key → Gsw l N → Bool → Prop}

theorem mem_outWords_infix {f : String} {args : List String} (h : ["--out", f] <:+: args) : f ∈ outWords args := by
  obtain ⟨a, b, rfl⟩ := h
  have := mem_outWords_append a (v := f) b
  simpa using this

theorem StoppedRun.touches {line : List String} {acts : List Act} (h : StoppedRun L line acts) :
    ∀ a ∈ acts, a.file ∈ line ∧ (a.isWrite = true → ["--out", a.file] <:+: line) := by
  rcases h with rfl | ⟨as, r, h1, h2⟩
  · simp
  · exact fun a ha => h1.touches a (h2.subset ha)

theorem TogetherStopped.touches {fs fs' : Files} {ps : List (Proc × Bool)} (h : TogetherStopped L fs ps fs') {p : Proc × Bool} (hp : p ∈ ps) :
    ∀ a ∈ p.1.acts, a.file ∈ p.1.line ∧ (a.isWrite = true → ["--out", a.file] <:+: p.1.line) := by
  cases hb : p.2 with
  | true => exact ((h.1 p hp).1 hb).touches
  | false => exact ((h.1 p hp).2 hb).touches

theorem TogetherStopped.free {fs fs' : Files} {ps : List (Proc × Bool)} (hi : Independent (ps.map (·.1.line))) (h : TogetherStopped L fs ps fs') :
    ∀ p ∈ ps, ∀ g : Files, (∀ f ∈ p.1.line, g f = fs f) → ∃ g', Replay g p.1.acts g' ∧ ∀ f ∈ p.1.line, g' f = fs' f := by
  intro p hp
  obtain ⟨k, hk⟩ := List.getElem?_of_mem hp
  refine h.2.isolated (T := (· ∈ p.1.line)) (k := k) (by rw [List.getElem?_map, hk]; rfl) (fun a ha => (h.touches hp a ha).1) ?_
  intro j s hj hs a ha hw
  rw [List.getElem?_map] at hs
  obtain ⟨q, hq, rfl⟩ := Option.map_eq_some_iff.1 hs
  have hout := (h.touches (List.mem_of_getElem? hq) a ha).2 hw
  have hp' := List.pairwise_iff_getElem.1 hi
  obtain ⟨hk1, hk2⟩ := List.getElem?_eq_some_iff.1 hk
  obtain ⟨hj1, hj2⟩ := List.getElem?_eq_some_iff.1 hq
  rcases Nat.lt_or_gt_of_ne hj with hlt | hlt
  · have := (hp' j k (by simpa using hj1) (by simpa using hk1) hlt).1 a.file
    rw [List.getElem_map, List.getElem_map, hj2, hk2] at this
    exact this hout
  · have := (hp' k j (by simpa using hk1) (by simpa using hj1) hlt).2 a.file
    rw [List.getElem_map, List.getElem_map, hj2, hk2] at this
    exact this hout

theorem TogetherStopped.unwritten {fs fs' : Files} {ps : List (Proc × Bool)} (h : TogetherStopped L fs ps fs') {f : String}
    (hf : ∀ p ∈ ps, ¬["--out", f] <:+: p.1.line) : fs' f = fs f := by
  refine h.2.unwritten fun t ht a ha hw e => ?_
  obtain ⟨p, hp, rfl⟩ := List.mem_map.1 ht
  exact hf p hp (e ▸ (h.touches hp a ha).2 hw)

/-! ## Sessions in which a command that is stopped leaves anything in its output files -/

inductive LooseSession (L : Lib N n l) : Files → List (ShellCmd × Bool) → Res (Files × List Char) → Prop
  | nil {fs} : LooseSession L fs [] (.ok (fs, []))
  | done {fs c fs1 o1 rest r} : Session L fs [c] (.ok (fs1, o1)) → LooseSession L fs1 rest r →
      LooseSession L fs ((c, true) :: rest) (r.map fun p => (p.1, o1 ++ p.2))
  | fails {fs c e rest} : Session L fs [c] (.error e) → LooseSession L fs ((c, true) :: rest) (.error e)
  | cut {fs c fs1 rest r} : (∀ f, f ∉ c.outputs → fs1 f = fs f) → LooseSession L fs1 rest r → LooseSession L fs ((c, false) :: rest) r

theorem loose_history (hL : L.Sound δ Enc) (hN : 0 < N) (hl : 0 < l) (hbs : blockSize l N < 2 ^ 63) {w w' : World} {cs : List (ShellCmd × Bool)}
    {out : List Char} (h : StoppedHistory L δ w cs w' out) {fs : Files} (hf : w.Fits L fs) :
    (∃ fs', Session L fs ((cs.filter (·.2)).map (·.1)) (.ok (fs', out))) ∧
      ∀ r, LooseSession L fs cs r → ∃ fs', r = .ok (fs', out) ∧ w'.Fits L fs' := by
  induction h generalizing fs with
  | nil =>
    refine ⟨⟨_, .nil⟩, fun r hr => ?_⟩
    cases hr
    exact ⟨fs, rfl, hf⟩
  | @done w c w1 o cs w2 out hs _ ih =>
    obtain ⟨⟨r, h1⟩, h2⟩ := step_session hL hN hl hbs hs hf [] (fun w fs _ => w.Fits L fs) [] fun fs' h =>
      ⟨⟨_, .nil⟩, fun r hr => by cases hr; exact ⟨fs', rfl, h⟩⟩
    rw [List.append_nil] at h2
    constructor
    · obtain ⟨fs1, rfl, h3⟩ := h2 r h1
      obtain ⟨⟨fs2, h4⟩, -⟩ := ih h3
      refine ⟨fs2, ?_⟩
      rw [List.filter_cons_of_pos rfl, List.map_cons]
      exact session_cons h1 h4
    · intro r h
      cases h with
      | fails h => obtain ⟨_, h, -⟩ := h2 _ h; cases h
      | done h h' =>
        obtain ⟨fs1, e, h3⟩ := h2 _ h
        obtain ⟨rfl, rfl⟩ := Prod.mk.inj (Except.ok.inj e)
        obtain ⟨fs2, rfl, h4⟩ := (ih h3).2 _ h'
        exact ⟨fs2, rfl, h4⟩
  | @cut w c cs w2 out _ ih =>
    constructor
    · obtain ⟨⟨fs', h⟩, -⟩ := ih (hf.lose (fs1 := fs) fun _ _ => rfl)
      exact ⟨fs', by simpa using h⟩
    · intro r h
      cases h with
      | cut h h' => exact (ih (hf.lose h)).2 _ h'

theorem map_comp (r : Res (Files × List Char)) (a b : List Char) :
    ((r.map fun p => (p.1, b ++ p.2)).map fun p => (p.1, a ++ p.2)) = r.map fun p => (p.1, (a ++ b) ++ p.2) := by
  cases r <;> simp [Except.map]

/-- the processes one after the other, and then the rest -/
theorem loose_serial {fs fs' : Files} {rest : List (ShellCmd × Bool)} {r : Res (Files × List Char)} : ∀ {ps : List (Proc × Bool)},
    Independent (ps.map (·.1.line)) →
    (∀ p ∈ ps, (p.2 = true → Runs L [] p.1.line p.1.acts p.1.outcome) ∧
      (∀ a ∈ p.1.acts, a.isWrite = true → ["--out", a.file] <:+: p.1.line) ∧
      ∀ g : Files, (∀ f ∈ p.1.line, g f = fs f) → ∃ g', Replay g p.1.acts g' ∧ ∀ f ∈ p.1.line, g' f = fs' f) →
    ∀ g : Files, (∀ p ∈ ps, ∀ f ∈ p.1.line, g f = fs f) → (∀ f, (∀ p ∈ ps, ¬["--out", f] <:+: p.1.line) → g f = fs' f) →
    ((∀ e, textsOf ps = .error e → LooseSession L g (ps.map (fun p => (.homfa p.1.line, p.2)) ++ rest) (.error e)) ∧
      ∀ o, textsOf ps = .ok o → LooseSession L fs' rest r →
        LooseSession L g (ps.map (fun p => (.homfa p.1.line, p.2)) ++ rest) (r.map fun p => (p.1, o ++ p.2))) := by
  intro ps
  induction ps with
  | nil =>
    intro _ _ g _ hg
    have : g = fs' := funext fun f => hg f (by simp)
    subst this
    refine ⟨nofun, fun o ho h => ?_⟩
    cases ho
    rw [map_silent]
    exact h
  | cons p ps ih =>
    intro hi ha g hg1 hg2
    obtain ⟨hi1, hi2⟩ := List.pairwise_cons.1 hi
    obtain ⟨hr, ht, hf⟩ := ha p (by simp)
    obtain ⟨g', hg', hT⟩ := hf g (hg1 p (by simp))
    have hoff : ∀ f, ¬["--out", f] <:+: p.1.line → g' f = g f :=
      fun f hn => hg'.other fun a ha hw e => hn (e ▸ ht a ha hw)
    obtain ⟨ih1, ih2⟩ := ih hi2 (fun q hq => ha q (by simp [hq])) g' (fun q hq f hf => by
        rw [hoff f fun hn => ((hi1 _ (List.mem_map.2 ⟨q, hq, rfl⟩)).1 f hn) hf]
        exact hg1 q (by simp [hq]) f hf) (fun f hn => by
        by_cases hw : ["--out", f] <:+: p.1.line
        · exact hT f (hw.subset (by simp))
        · rw [hoff f hw]
          refine hg2 f fun q hq => ?_
          rcases List.mem_cons.1 hq with rfl | hq
          · exact hw
          · exact hn q hq)
    rw [List.map_cons, List.cons_append]
    cases hb : p.2 with
    | false =>
      have e : textsOf (p :: ps) = textsOf ps := by simp [textsOf, hb]
      rw [e]
      have hcut : ∀ f, f ∉ (ShellCmd.homfa p.1.line).outputs → g' f = g f := fun f hn => hoff f fun h => hn (mem_outWords_infix h)
      exact ⟨fun e he => .cut hcut (ih1 e he), fun o ho h => .cut hcut (ih2 o ho h)⟩
    | true =>
      have hrun := (hr hb).run hg'
      cases ho : p.1.outcome with
      | error e =>
        rw [ho] at hrun
        have e' : textsOf (p :: ps) = .error e := by simp [textsOf, hb, ho, allOf]
        rw [e']
        exact ⟨fun e1 he => by cases he; exact .fails (.stop hrun), fun o ho => by cases ho⟩
      | ok o =>
        rw [ho] at hrun
        have e' : textsOf (p :: ps) = (textsOf ps).map fun t => o ++ t := by simp [textsOf, hb, ho, allOf]
        rw [e']
        have h1 : Session L g [.homfa p.1.line] (.ok (g', o)) := by
          have := Session.next hrun .nil
          rw [show ((Except.ok (g', []) : Res (Files × List Char)).map fun p => (p.1, o ++ p.2)) = .ok (g', o) by
            simp [Except.map]] at this
          exact this
        constructor
        · intro e he
          cases hx : textsOf ps with
          | ok t => rw [hx] at he; cases he
          | error e1 =>
            rw [hx] at he
            cases he
            exact LooseSession.done h1 (ih1 _ hx)
        · intro t ht h
          cases hx : textsOf ps with
          | error e1 => rw [hx] at ht; cases ht
          | ok t1 =>
            rw [hx] at ht
            cases ht
            rw [← map_comp]
            exact LooseSession.done h1 (ih2 _ hx h)

theorem loose_schedule {jobs : List StoppableJob} (hi : ∀ cmds, .par cmds ∈ jobs → Independent (cmds.map (·.1))) {fs : Files}
    {r : Res (Files × List Char)} (h : StoppedSchedule L fs jobs r) : LooseSession L fs (jobs.flatMap StoppableJob.cmds) r := by
  induction h with
  | nil => exact .nil
  | one h1 _ ih => exact .done h1 (ih fun c hc => hi c (by simp [hc]))
  | oneFails h1 => exact .fails h1
  | oneCut h1 _ ih => exact .cut (fun f hf => cutShort_frame h1 hf) (ih fun c hc => hi c (by simp [hc]))
  | @par fs ps fs1 o1 rest r h1 h2 _ ih =>
    have hi' : Independent (ps.map (·.1.line)) := by
      have := hi _ (List.mem_cons_self ..)
      rwa [List.map_map] at this
    rw [List.flatMap_cons, StoppableJob.cmds, List.map_map]
    exact (loose_serial hi' (fun p hp => ⟨(h1.1 p hp).1, fun a ha => (h1.touches hp a ha).2, h1.free hi' p hp⟩) fs (fun _ _ _ _ => rfl)
      (fun f hf => (h1.unwritten hf).symm)).2 o1 h2 (ih fun c hc => hi c (by simp [hc]))
  | @parFails fs ps fs1 e rest h1 h2 =>
    have hi' : Independent (ps.map (·.1.line)) := by
      have := hi _ (List.mem_cons_self ..)
      rwa [List.map_map] at this
    rw [List.flatMap_cons, StoppableJob.cmds, List.map_map]
    exact (loose_serial (r := .error e) hi' (fun p hp => ⟨(h1.1 p hp).1, fun a ha => (h1.touches hp a ha).2, h1.free hi' p hp⟩) fs (fun _ _ _ _ => rfl)
      (fun f hf => (h1.unwritten hf).symm)).1 e h2

/-! ## There is such a schedule -/

theorem together_of_kept {cmds : List (List String × Bool)} : ∀ {fs fs' : Files} {out : List Char},
    Session L fs ((cmds.filter (·.2)).map fun c => .homfa c.1) (.ok (fs', out)) →
    ∃ ps : List (Proc × Bool), ps.map (fun p => (p.1.line, p.2)) = cmds ∧ TogetherStopped L fs ps fs' ∧ textsOf ps = .ok out := by
  induction cmds with
  | nil =>
    intro fs fs' out h
    generalize hr : (Except.ok (fs', out) : Res (Files × List Char)) = r at h
    cases h
    cases hr
    exact ⟨[], rfl, ⟨by simp, .done (by simp)⟩, rfl⟩
  | cons c cmds ih =>
    obtain ⟨c, b⟩ := c
    intro fs fs' out h
    cases b with
    | false =>
      obtain ⟨ps, e1, ⟨h3, h4⟩, h5⟩ := ih (by simpa using h)
      refine ⟨(⟨c, [], .ok []⟩, false) :: ps, by rw [List.map_cons, e1], ⟨?_, h4.idle⟩, by simpa [textsOf] using h5⟩
      intro p hp
      rcases List.mem_cons.1 hp with rfl | hp
      · exact ⟨nofun, fun _ => .inl rfl⟩
      · exact h3 p hp
    | true =>
      rw [List.filter_cons_of_pos rfl, List.map_cons] at h
      generalize hr : (Except.ok (fs', out) : Res (Files × List Char)) = r at h
      cases h with
      | @next _ _ fs1 o1 _ r h1 h2 =>
        cases r with
        | error e => cases hr
        | ok p =>
          cases hr
          obtain ⟨ps, e1, ⟨h3, h4⟩, h5⟩ := ih h2
          obtain ⟨as, r, fs1', h6, h7, h8⟩ := h1.runs
          cases r with
          | error e => cases h8
          | ok o =>
            cases h8
            refine ⟨(⟨c, as, .ok o1⟩, true) :: ps, by rw [List.map_cons, e1], ⟨?_, h7.parallel h4.idle⟩, ?_⟩
            · intro p hp
              rcases List.mem_cons.1 hp with rfl | hp
              · exact ⟨fun _ => h6, nofun⟩
              · exact h3 p hp
            · unfold textsOf at h5 ⊢
              rw [List.filter_cons_of_pos rfl, List.map_cons, allOf, h5]
              rfl
      | stop => cases hr

theorem schedule_of_kept {jobs : List StoppableJob} : ∀ {fs fs' : Files} {out : List Char},
    Session L fs (((jobs.flatMap StoppableJob.cmds).filter (·.2)).map (·.1)) (.ok (fs', out)) → StoppedSchedule L fs jobs (.ok (fs', out)) := by
  induction jobs with
  | nil => intro fs fs' out h; cases h; exact .nil
  | cons j jobs ih =>
    intro fs fs' out h
    rw [List.flatMap_cons, List.filter_append, List.map_append] at h
    obtain ⟨fs1, o1, o2, h1, h2, rfl⟩ := session_split h
    cases j with
    | one c b =>
      cases b with
      | true => exact .one (by simpa [StoppableJob.cmds] using h1) (ih h2)
      | false =>
        have : Session L fs [] (.ok (fs1, o1)) := by simpa [StoppableJob.cmds] using h1
        cases this
        exact .oneCut .early (ih h2)
    | par cmds =>
      have h1' : Session L fs ((cmds.filter (·.2)).map fun c => .homfa c.1) (.ok (fs1, o1)) := by
        rw [StoppableJob.cmds, List.filter_map, List.map_map] at h1
        exact h1
      obtain ⟨ps, rfl, h3, h4⟩ := together_of_kept h1'
      exact .par h3 h4 (ih h2)

end Homfa.Cli
