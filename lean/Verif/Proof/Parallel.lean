import Verif.Model.Parallel
import Verif.Props.Cli
import Verif.Props.Frame

/-! # Lemmas about processes side by side -/

namespace Homfa.Cli

variable {N n l : Nat} {L : Lib N n l}

/-! ## Accesses -/

theorem Act.Reads.notWrite {a : Act} {f : String} {x : Option (List Byte)} (h : a.Reads f x) : a.isWrite = false := by
  cases a <;> first | rfl | exact h.elim

theorem Act.Reads.file {a : Act} {f : String} {x : Option (List Byte)} (h : a.Reads f x) : a.file = f := by
  cases a <;> first | exact h.1 | exact h.elim

/-- a reading access changes nothing -/
theorem Act.Done.read {a : Act} {fs fs' : Files} (h : a.Done fs fs') (hw : a.isWrite = false) : fs' = fs := by
  cases h <;> first | rfl | cases hw

/-- an access changes at most its own file -/
theorem Act.Done.other {a : Act} {fs fs' : Files} (h : a.Done fs fs') {f : String} (hf : a.isWrite = true → a.file ≠ f) : fs' f = fs f := by
  cases h with
  | empty => exact Files.set_other _ _ (Ne.symm (hf rfl))
  | put => exact Files.set_other _ _ (Ne.symm (hf rfl))
  | _ => rfl

/-- an access depends only on its own file -/
theorem Act.Done.transfer {a : Act} {fs fs1 : Files} (h : a.Done fs fs1) {g : Files} (hg : g a.file = fs a.file) :
    ∃ g1, a.Done g g1 ∧ ∀ f, (f = a.file ∨ g f = fs f) → g1 f = fs1 f := by
  cases h with
  | @see f =>
    refine ⟨g, ?_, ?_⟩
    · rw [← show g f = fs f from hg]; exact .see
    · rintro f' (rfl | h)
      · exact hg
      · exact h
  | piece h1 h2 h3 =>
    refine ⟨g, .piece (hg.trans h1) h2 h3, ?_⟩
    rintro f' (rfl | h)
    · exact hg
    · exact h
  | fin h1 =>
    refine ⟨g, .fin (hg.trans h1), ?_⟩
    rintro f' (rfl | h)
    · exact hg
    · exact h
  | @empty f =>
    refine ⟨_, .empty, fun f' hf => ?_⟩
    show Files.set g f [] f' = Files.set fs f [] f'
    unfold Files.set
    split
    · rfl
    · rcases hf with rfl | h
      · exact hg
      · exact h
  | @put f p c =>
    refine ⟨_, .put, fun f' hf => ?_⟩
    rw [show g f = fs f from hg]
    show Files.set g f _ f' = Files.set fs f _ f'
    unfold Files.set
    split
    · rfl
    · rcases hf with rfl | h
      · exact hg
      · exact h

theorem Replay.append {fs fs1 fs2 : Files} {as bs : List Act} (h : Replay fs as fs1) (h' : Replay fs1 bs fs2) : Replay fs (as ++ bs) fs2 := by
  induction h with
  | nil => exact h'
  | cons hd _ ih => exact .cons hd (ih h')

theorem Replay.split {as bs : List Act} : ∀ {fs fs2 : Files}, Replay fs (as ++ bs) fs2 → ∃ fs1, Replay fs as fs1 ∧ Replay fs1 bs fs2 := by
  induction as with
  | nil => exact fun h => ⟨_, .nil, h⟩
  | cons a as ih =>
    intro fs fs2 h
    cases h with
    | cons hd h =>
      obtain ⟨fs1, h1, h2⟩ := ih h
      exact ⟨fs1, .cons hd h1, h2⟩

/-- a sequence of reading accesses -/
theorem Replay.reads {fs fs' : Files} {as : List Act} (h : Replay fs as fs') (hr : ∀ a ∈ as, a.isWrite = false) :
    fs' = fs ∧ ∀ a ∈ as, a.Done fs fs := by
  induction h with
  | nil => exact ⟨rfl, by simp⟩
  | cons hd _ ih =>
    have e := hd.read (hr _ (by simp))
    subst e
    obtain ⟨e, h⟩ := ih fun a ha => hr a (by simp [ha])
    refine ⟨e, ?_⟩
    rintro a (_ | ⟨_, ha⟩)
    · exact hd
    · exact h a ha

theorem Replay.of_reads {fs : Files} {as : List Act} (h : ∀ a ∈ as, a.Done fs fs) : Replay fs as fs := by
  induction as with
  | nil => exact .nil
  | cons a as ih => exact .cons (h a (by simp)) (ih fun a ha => h a (by simp [ha]))

theorem Replay.other {fs fs' : Files} {as : List Act} (h : Replay fs as fs') {f : String} (hf : ∀ a ∈ as, a.isWrite = true → a.file ≠ f) :
    fs' f = fs f := by
  induction h with
  | nil => rfl
  | cons hd _ ih => rw [ih fun a ha => hf a (by simp [ha]), hd.other (hf _ (by simp))]

/-! ## Reading -/

/-- if the accesses have seen all of a file, the file is as they say -/
theorem Covered.content {fs : Files} {as : List Act} (hd : ∀ a ∈ as, a.Done fs fs) {f : String} {x : Option (List Byte)} (h : Covered f as x) :
    fs f = x := by
  cases x with
  | none =>
    have h1 := hd _ h
    generalize hb : false = b at h1
    cases h1
    exact Option.not_isSome_iff_eq_none.1 (by rw [← hb]; simp)
  | some y =>
    obtain ⟨h1, h2⟩ := h
    have h1 := hd _ h1
    generalize hk : y.length = k at h1
    cases h1 with
    | @fin _ y0 e =>
      rw [e]
      congr 1
      apply List.ext_getElem hk.symm
      intro i hi hi'
      obtain ⟨p, c, h3, ⟨_, y', ey, h4, h5⟩, h6, h7⟩ := h2 i hi'
      cases ey
      have h3 := hd _ h3
      cases h3 with
      | piece e' h8 h9 =>
        rw [e] at e'
        cases e'
        have a1 : y0[i]? = y[i]? := by
          have b1 : c[i - p]? = y0[i]? := by
            rw [← h9, List.getElem?_take_of_lt (by omega), List.getElem?_drop, show p + (i - p) = i by omega]
          have b2 : c[i - p]? = y[i]? := by
            rw [← h5, List.getElem?_take_of_lt (by omega), List.getElem?_drop, show p + (i - p) = i by omega]
          rw [← b1, b2]
        rw [List.getElem?_eq_getElem hi, List.getElem?_eq_getElem hi'] at a1
        exact Option.some.inj a1

theorem ReadAll.notWrite {seen : List (String × Option (List Byte))} {as : List Act} (h : ReadAll seen as) : ∀ a ∈ as, a.isWrite = false := by
  intro a ha
  obtain ⟨s, _, h⟩ := h.1 a ha
  exact h.notWrite

theorem ReadAll.file {seen : List (String × Option (List Byte))} {as : List Act} (h : ReadAll seen as) : ∀ a ∈ as, ∃ s ∈ seen, a.file = s.1 := by
  intro a ha
  obtain ⟨s, hs, h⟩ := h.1 a ha
  exact ⟨s, hs, h.file⟩

theorem ReadAll.content {fs fs' : Files} {seen : List (String × Option (List Byte))} {as : List Act} (h : ReadAll seen as)
    (hr : Replay fs as fs') : fs' = fs ∧ ∀ s ∈ seen, s.2 = fs s.1 := by
  obtain ⟨e, hd⟩ := hr.reads h.notWrite
  exact ⟨e, fun s hs => ((h.2 s hs).content hd).symm⟩

/-- reading each file in one piece -/
def readActs (fs : Files) (f : String) : List Act :=
  match fs f with
  | none => [.see f false]
  | some y => [.piece f 0 y, .fin f y.length]

theorem readActs_done (fs : Files) (f : String) : ∀ a ∈ readActs fs f, a.Done fs fs ∧ a.Reads f (fs f) := by
  intro a ha
  unfold readActs at ha
  split at ha
  · rename_i e
    obtain rfl : a = .see f false := by simpa using ha
    refine ⟨?_, rfl, by rw [e]; rfl⟩
    rw [show false = (fs f).isSome by rw [e]; rfl]
    exact .see
  · rename_i y e
    rcases List.mem_cons.1 ha with rfl | ha
    · exact ⟨.piece e (by omega) (by simp), rfl, y, e, by omega, by simp⟩
    · obtain rfl : a = .fin f y.length := by simpa using ha
      exact ⟨.fin e, rfl, y, e, rfl⟩

theorem readActs_covered (fs : Files) (f : String) {as : List Act} (h : ∀ a ∈ readActs fs f, a ∈ as) : Covered f as (fs f) := by
  unfold readActs at h
  split at h
  · rename_i e
    rw [e]
    exact h _ (by simp)
  · rename_i y e
    rw [e]
    refine ⟨h _ (by simp), fun i hi => ⟨0, y, h _ (by simp), ⟨rfl, y, rfl, by omega, by simp⟩, by omega, by omega⟩⟩

theorem readAll_exists (fs : Files) (fl : List String) :
    ∃ as, ReadAll (fl.map fun f => (f, fs f)) as ∧ Replay fs as fs := by
  refine ⟨fl.flatMap (readActs fs), ⟨?_, ?_⟩, .of_reads ?_⟩
  · intro a ha
    obtain ⟨f, hf, ha⟩ := List.mem_flatMap.1 ha
    exact ⟨_, List.mem_map.2 ⟨f, hf, rfl⟩, (readActs_done fs f a ha).2⟩
  · intro s hs
    obtain ⟨f, hf, rfl⟩ := List.mem_map.1 hs
    exact readActs_covered fs f fun a ha => List.mem_flatMap.2 ⟨f, hf, ha⟩
  · intro a ha
    obtain ⟨f, hf, ha⟩ := List.mem_flatMap.1 ha
    exact (readActs_done fs f a ha).1

/-! ## Writing -/

theorem puts_mem {f : String} : ∀ {cs : List (List Byte)} {p : Nat}, ∀ a ∈ puts f p cs, a.isWrite = true ∧ a.file = f := by
  intro cs
  induction cs with
  | nil => intro p a ha; simp [puts] at ha
  | cons c cs ih =>
    intro p a ha
    rcases List.mem_cons.1 ha with rfl | ha
    · exact ⟨rfl, rfl⟩
    · exact ih a ha

theorem overwrite_end (y c : List Byte) : overwrite y y.length c = y ++ c := by
  simp [overwrite]

theorem Files.set_set (fs : Files) (f : String) (a b : List Byte) : (fs.set f a).set f b = fs.set f b := by
  funext g
  simp only [Files.set]
  split <;> rfl

theorem Files.set_self (fs : Files) {f : String} {y : List Byte} (h : fs f = some y) : fs.set f y = fs := by
  funext g
  simp only [Files.set]
  split
  · rename_i e; rw [e, h]
  · rfl

theorem puts_replay {f : String} : ∀ {cs : List (List Byte)} {y : List Byte} {fs fs' : Files}, fs f = some y →
    Replay fs (puts f y.length cs) fs' → fs' = fs.set f (y ++ cs.flatten) := by
  intro cs
  induction cs with
  | nil =>
    intro y fs fs' hy h
    cases h
    rw [List.flatten_nil, List.append_nil, Files.set_self fs hy]
  | cons c cs ih =>
    intro y fs fs' hy h
    cases h with
    | cons hd h =>
      cases hd
      rw [hy, Option.getD_some, overwrite_end] at h
      have := ih (y := y ++ c) (fs := fs.set f (y ++ c)) (by simp [Files.set]) (by rw [List.length_append]; exact h)
      rw [this, Files.set_set, List.flatten_cons, List.append_assoc]

theorem replay_puts (f : String) : ∀ (cs : List (List Byte)) {y : List Byte} {fs : Files}, fs f = some y →
    Replay fs (puts f y.length cs) (fs.set f (y ++ cs.flatten)) := by
  intro cs
  induction cs with
  | nil =>
    intro y fs hy
    rw [List.flatten_nil, List.append_nil, Files.set_self fs hy]
    exact .nil
  | cons c cs ih =>
    intro y fs hy
    have := ih (y := y ++ c) (fs := fs.set f (y ++ c)) (by simp [Files.set])
    rw [Files.set_set, List.append_assoc, List.length_append] at this
    refine .cons .put ?_
    rw [hy, Option.getD_some, overwrite_end]
    exact this

theorem WriteAll.replay {ws : List (String × List Byte)} {as : List Act} (h : WriteAll ws as) : ∀ {fs fs' : Files}, Replay fs as fs' →
    fs' = ws.foldl (fun fs w => fs.set w.1 w.2) fs := by
  induction h with
  | nil => intro fs fs' h; cases h; rfl
  | @cons f cs ws acts _ ih =>
    intro fs fs' h
    rw [List.cons_append] at h
    cases h with
    | cons hd h =>
      cases hd
      obtain ⟨fs1, h1, h2⟩ := h.split
      have e := puts_replay (y := []) (by simp [Files.set]) h1
      rw [Files.set_set, List.nil_append] at e
      subst e
      exact ih h2

theorem WriteAll.mem {ws : List (String × List Byte)} {as : List Act} (h : WriteAll ws as) : ∀ a ∈ as, ∃ w ∈ ws, a.file = w.1 := by
  induction h with
  | nil => simp
  | @cons f cs ws acts _ ih =>
    intro a ha
    rcases List.mem_append.1 ha with ha | ha
    · refine ⟨(f, cs.flatten), by simp, ?_⟩
      rcases List.mem_cons.1 ha with rfl | ha
      · rfl
      · exact (puts_mem a ha).2
    · obtain ⟨w, hw, e⟩ := ih a ha
      exact ⟨w, by simp [hw], e⟩

theorem writeAll_exists (ws : List (String × List Byte)) : ∃ as, WriteAll ws as ∧
    ∀ fs, Replay fs as (ws.foldl (fun fs w => fs.set w.1 w.2) fs) := by
  induction ws with
  | nil => exact ⟨[], .nil, fun _ => .nil⟩
  | cons w ws ih =>
    obtain ⟨as, h1, h2⟩ := ih
    obtain ⟨f, b⟩ := w
    refine ⟨.empty f :: puts f 0 [b] ++ as, ?_, fun fs => ?_⟩
    · have := WriteAll.cons (f := f) (cs := [b]) h1
      rwa [List.flatten_cons, List.flatten_nil, List.append_nil] at this
    · have h3 := replay_puts f [b] (y := []) (fs := fs.set f []) (by simp [Files.set])
      rw [Files.set_set, List.nil_append, List.flatten_cons, List.flatten_nil, List.append_nil] at h3
      exact .cons .empty (h3.append (h2 _))

theorem foldl_results (L : Lib N n l) (rs : List (OutFile × TLWE N)) (fs : Files) :
    (rs.map fun r => (OutFile.path r.1, L.saveRes r.2)).foldl (fun fs w => fs.set w.1 w.2) fs = writeResults L fs rs := by
  rw [List.foldl_map]; rfl

/-! ## Mixed accesses of one process -/

theorem Mixed.replay {as bs cs : List Act} (h : Mixed as bs cs) : ∀ {fs fs' : Files}, (∀ a ∈ as, a.isWrite = false) →
    (∀ a ∈ as, ∀ b ∈ bs, b.file ≠ a.file) → Replay fs cs fs' → (∀ a ∈ as, a.Done fs fs) ∧ Replay fs bs fs' := by
  induction h with
  | nil => intro fs fs' _ _ h; exact ⟨by simp, h⟩
  | @left a as bs cs _ ih =>
    intro fs fs' hw hf h
    cases h with
    | cons hd h =>
      have e := hd.read (hw a (by simp))
      subst e
      obtain ⟨h1, h2⟩ := ih (fun a ha => hw a (by simp [ha])) (fun a ha => hf a (by simp [ha])) h
      refine ⟨?_, h2⟩
      rintro a (_ | ⟨_, ha⟩)
      · exact hd
      · exact h1 a ha
  | @right b as bs cs _ ih =>
    intro fs fs' hw hf h
    cases h with
    | @cons _ _ fs1 _ _ hd h =>
      obtain ⟨h1, h2⟩ := ih hw (fun a ha b hb => hf a ha b (by simp [hb])) h
      refine ⟨fun a ha => ?_, .cons hd h2⟩
      obtain ⟨g1, hg, -⟩ := (h1 a ha).transfer (g := fs) (hd.other fun _ => hf a ha b (by simp)).symm
      have e := hg.read (hw a ha)
      subst e
      exact hg

theorem mixed_append (as bs : List Act) : Mixed as bs (as ++ bs) := by
  induction as with
  | nil =>
    induction bs with
    | nil => exact .nil
    | cons b bs ih => exact .right ih
  | cons a as ih => exact .left ih

theorem Mixed.mem {as bs cs : List Act} (h : Mixed as bs cs) : ∀ a ∈ cs, a ∈ as ∨ a ∈ bs := by
  induction h with
  | nil => simp
  | left _ ih =>
    intro a ha
    rcases List.mem_cons.1 ha with rfl | ha
    · simp
    · rcases ih a ha with h | h <;> simp [h]
  | right _ ih =>
    intro a ha
    rcases List.mem_cons.1 ha with rfl | ha
    · simp
    · rcases ih a ha with h | h <;> simp [h]

end Homfa.Cli
