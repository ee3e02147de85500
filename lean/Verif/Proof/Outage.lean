import Verif.Spec.Outage
import Verif.Proof.World
import Verif.Proof.Retry

/-! # Histories in which commands are stopped -/

namespace Homfa.Cli

variable {N n l : Nat} {L : Lib N n l} {δ : Noise} {Enc : L.Key → Gsw l N → Bool → Prop}

theorem mem_outWords_append (a : List String) {v : String} (b : List String) : v ∈ outWords (a ++ "--out" :: v :: b) := by
  induction a with
  | nil => simp [outWords]
  | cons x a ih =>
    cases a with
    | nil =>
      simp only [List.nil_append, List.cons_append] at ih ⊢
      rw [outWords]
      split
      · exact List.mem_cons_of_mem _ ih
      · exact ih
    | cons y a =>
      simp only [List.cons_append] at ih ⊢
      rw [outWords]
      split
      · exact List.mem_cons_of_mem _ ih
      · exact ih

theorem mem_outWords_line {pre : List String} {items : List Item} {v : String} (h : .opt "--out" v ∈ items) : v ∈ outWords (pre ++ line items) := by
  obtain ⟨a, b, rfl⟩ := List.append_of_mem h
  have e : pre ++ line (a ++ .opt "--out" v :: b) = (pre ++ line a) ++ "--out" :: v :: line b := by
    simp [line, Item.words]
  rw [e]
  exact mem_outWords_append _ _

/-- a run that is stopped leaves all files as they are but those named by `--out` -/
theorem stopped_frame {fs fs1 : Files} {args : List String} {o : List Char} (h : RunInterrupted L fs args (fs1, o)) {f : String} (hf : f ∉ outWords args) :
    fs1 f = fs f := by
  generalize hp : (fs1, o) = p at h
  cases h with
  | parsing => cases hp; rfl
  | call h1 h2 =>
    subst hp
    obtain ⟨general, c, w, items, _, _, rfl, hfol, rfl⟩ := C58_only _ _ _ h1
    refine (interrupted_frame h2).1 f (c.call_writes items f ?_)
    by_cases hw : c.writesFile = true
    · refine .inl fun e => hf (mem_outWords_line ?_)
      obtain ⟨v, hv⟩ : ∃ v, Item.opt "--out" v ∈ items := by
        cases c <;> first | (cases hw; done) | exact hfol.all "--out" .text (by simp [Cmd.usage])
      obtain ⟨u, hu⟩ : ∃ u, opt? items "--out" = some u := by
        rw [← Option.isSome_iff_exists, opt?, List.findSome?_isSome_iff]
        exact ⟨_, hv, by simp⟩
      have : Item.opt "--out" u ∈ items := by
        obtain ⟨i, hi, hiu⟩ := List.exists_of_findSome?_eq_some hu
        cases i with
        | opt m x =>
          simp only at hiu
          split at hiu
          · rename_i hm; subst hm; cases hiu; exact hi
          · cases hiu
        | flag | arg => cases hiu
      rw [e, opt, hu]
      exact this
    · exact .inr (by simpa using hw)

theorem cutShort_frame {fs fs1 : Files} {c : ShellCmd} (h : CutShort L fs c fs1) {f : String} (hf : f ∉ c.outputs) : fs1 f = fs f := by
  cases h with
  | early => rfl
  | homfa h => exact stopped_frame h hf
  | redirect h =>
    simp only [ShellCmd.outputs, List.mem_cons, not_or] at hf
    rw [Files.set_other _ _ hf.1, stopped_frame h hf.2, Files.set_other _ _ hf.1]
  | append h | copy h | remove h | write h => exact h f (by simpa [ShellCmd.outputs] using hf)

theorem World.Fits.lose {w : World} {fs fs1 : Files} (h : w.Fits L fs) {files : List String} (hf : ∀ f, f ∉ files → fs1 f = fs f) :
    (w.lose files).Fits L fs1 := by
  obtain ⟨q, hq⟩ := h
  refine ⟨q, fun f => ?_⟩
  show HoldsAs L q w.keys (fs1 f) (if f ∈ files then .other else w.holds f)
  split
  · trivial
  · rename_i h
    rw [hf f h]
    exact hq f

theorem stopped_history (hL : L.Sound δ Enc) (hN : 0 < N) (hl : 0 < l) (hbs : blockSize l N < 2 ^ 63) {w w' : World} {cs : List (ShellCmd × Bool)}
    {out : List Char} (h : StoppedHistory L δ w cs w' out) {fs : Files} (hf : w.Fits L fs) :
    (∃ r, StoppedSession L fs cs r) ∧ ∀ r, StoppedSession L fs cs r → ∃ fs', r = .ok (fs', out) ∧ w'.Fits L fs' := by
  induction h generalizing fs with
  | nil =>
    refine ⟨⟨_, .nil⟩, fun r hr => ?_⟩
    cases hr
    exact ⟨fs, rfl, hf⟩
  | @done w c w1 o cs w2 out hs _ ih =>
    obtain ⟨⟨r, h1⟩, h2⟩ := step_session hL hN hl hbs hs hf [] (fun w fs _ => w.Fits L fs) [] fun fs' h =>
      ⟨⟨_, .nil⟩, fun r hr => by cases hr; exact ⟨fs', rfl, h⟩⟩
    rw [List.append_nil] at h2
    constructor
    · obtain ⟨fs1, rfl, h3⟩ := h2 r h1
      obtain ⟨⟨r, h4⟩, -⟩ := ih h3
      exact ⟨_, .done h1 h4⟩
    · intro r h
      cases h with
      | fails h => obtain ⟨_, h, -⟩ := h2 _ h; cases h
      | done h h' =>
        obtain ⟨fs1, e, h3⟩ := h2 _ h
        obtain ⟨rfl, rfl⟩ := Prod.mk.inj (Except.ok.inj e)
        obtain ⟨fs2, rfl, h4⟩ := (ih h3).2 _ h'
        exact ⟨fs2, rfl, h4⟩
  | @cut w c cs w2 out _ ih =>
    constructor
    · obtain ⟨⟨r, h⟩, -⟩ := ih (hf.lose (fs1 := fs) fun _ _ => rfl)
      exact ⟨r, .cut .early h⟩
    · intro r h
      cases h with
      | cut h h' => exact (ih (hf.lose fun f hn => cutShort_frame h hn)).2 _ h'

theorem map_silent (r : Res (Files × List Char)) : (r.map fun p => (p.1, [] ++ p.2)) = r := by cases r <;> rfl

theorem stopped_silent {fs fs1 : Files} {c : ShellCmd} {rest : List (ShellCmd × Bool)} {r : Res (Files × List Char)}
    (h : Session L fs [c] (.ok (fs1, []))) (h' : StoppedSession L fs1 rest r) : StoppedSession L fs ((c, true) :: rest) r := by
  have := StoppedSession.done h h'
  rwa [map_silent] at this

theorem session_cons {fs fs1 : Files} {c : ShellCmd} {o1 : List Char} {rest : List ShellCmd} {r : Res (Files × List Char)}
    (h : Session L fs [c] (.ok (fs1, o1))) (h' : Session L fs1 rest r) : Session L fs (c :: rest) (r.map fun p => (p.1, o1 ++ p.2)) := by
  generalize hx : (.ok (fs1, o1) : Res (Files × List Char)) = x at h
  cases h with
  | next h h1 =>
    cases h1
    cases hx
    rw [List.append_nil]
    exact .next h h'
  | stop h => cases hx
  | cat h h1 => cases h1; cases hx; rw [map_silent]; exact .cat h h'
  | noFile h => cases hx
  | redirect h h1 => cases h1; cases hx; rw [map_silent]; exact .redirect h h'
  | redirectStop h => cases hx
  | copy h h1 => cases h1; cases hx; rw [map_silent]; exact .copy h h'
  | noCopy h => cases hx
  | remove h1 => cases h1; cases hx; rw [map_silent]; exact .remove h'
  | write h1 => cases h1; cases hx; rw [map_silent]; exact .write h'

theorem session_fails {fs : Files} {c : ShellCmd} {e : Err} {rest : List ShellCmd} (h : Session L fs [c] (.error e)) :
    Session L fs (c :: rest) (.error e) := by
  generalize hx : (.error e : Res (Files × List Char)) = x at h
  cases h with
  | next h h1 => cases h1; cases hx
  | stop h => cases hx; exact .stop h
  | cat h h1 => cases h1; cases hx
  | noFile h => cases hx; exact .noFile h
  | redirect h h1 => cases h1; cases hx
  | redirectStop h => cases hx; exact .redirectStop h
  | copy h h1 => cases h1; cases hx
  | noCopy h => cases hx; exact .noCopy h
  | remove h1 => cases h1; cases hx
  | write h1 => cases h1; cases hx

end Homfa.Cli
