import Verif.Model.Diagnose
import Verif.Proof.Att
/-!
# What the readers of specifications write to the log
-/

namespace Homfa
open Homfa.Spec

namespace Said

variable {α β : Type}

theorem ext' {x y : Said α} (h1 : x.notes = y.notes) (h2 : x.res = y.res) : x = y := by
  cases x; cases y; cases h1; cases h2; rfl

theorem bind_of_ok {x : Said α} {f : α → Said β} {n : List Note} {a : α} (h : x = ⟨n, .ok a⟩) : x >>= f = ⟨n ++ (f a).notes, (f a).res⟩ := by
  subst h; rfl

theorem bind_of_err {x : Said α} {f : α → Said β} {n : List Note} {e : Err} (h : x = ⟨n, .error e⟩) : x >>= f = ⟨n, .error e⟩ := by
  subst h; rfl

theorem silent_ok {a : α} {f : α → Said β} : silent (.ok a) >>= f = f a := rfl

theorem silent_err {e : Err} {f : α → Said β} : silent (.error e) >>= f = ⟨[], .error e⟩ := rfl

theorem quiet_bind {x : Said α} {f : α → Said β} {a : α} (h : x = ⟨[], .ok a⟩) : x >>= f = f a := by
  subst h; rfl

end Said

/-- What reading one item gives. -/
def readItem (field : List Char) : Res Nat :=
  match stoi field with
  | .error .invalidArgument => .error .die
  | r => r

theorem readItem_empty : readItem [] = .error .die := rfl

theorem readItem_digits {s : List Char} (h : Digits s) : readItem s = if value s < 2 ^ 31 then .ok (value s) else .error .outOfRange := by
  unfold readItem
  rw [stoi_digits h]
  by_cases hv : value s < 2 ^ 31
  · rw [if_pos hv]
  · rw [if_neg hv]

theorem loadStates_eq {t : List Char} : loadStates t = if t = ['_'] then .ok [] else (getlines ',' t).mapM readItem := rfl

/-- The three ends of the loop over the items. -/
theorem loadFieldsSaid_cases : ∀ fs : List (List Char), (∀ f ∈ fs, ∀ c ∈ f, c.isDigit = true) →
    (∃ l, fs.mapM readItem = .ok l ∧ loadFieldsSaid fs = ⟨[], .ok l⟩) ∨
    (fs.mapM readItem = .error .outOfRange ∧ loadFieldsSaid fs = ⟨[], .error .outOfRange⟩) ∨
    (fs.mapM readItem = .error .die ∧ loadFieldsSaid fs = ⟨lastWords itemMessage, .error .die⟩) := by
  intro fs
  induction fs with
  | nil => exact fun _ => .inl ⟨[], rfl, rfl⟩
  | cons f fs ih =>
    intro h
    by_cases he : f = []
    · subst he
      exact .inr (.inr ⟨rfl, rfl⟩)
    · have hd : Digits f := ⟨he, h f (by simp)⟩
      rw [List.mapM_cons, readItem_digits hd, loadFieldsSaid, stoi_digits hd]
      by_cases hv : value f < 2 ^ 31
      · rw [if_pos hv, Res.bind_ok]
        dsimp only
        rw [Said.silent_ok]
        rcases ih (fun f hf => h f (by simp [hf])) with ⟨l, h1, h2⟩ | ⟨h1, h2⟩ | ⟨h1, h2⟩
        · exact .inl ⟨value f :: l, by rw [h1]; rfl, by rw [Said.quiet_bind h2]; rfl⟩
        · exact .inr (.inl ⟨by rw [h1]; rfl, Said.bind_of_err h2⟩)
        · exact .inr (.inr ⟨by rw [h1]; rfl, Said.bind_of_err h2⟩)
      · rw [if_neg hv]
        exact .inr (.inl ⟨rfl, rfl⟩)

theorem emptyItem_of_die : ∀ (n : Nat) (t : List Char), t.length ≤ n → (∀ c ∈ t, c.isDigit = true ∨ c = ',') → (getlines ',' t).mapM readItem = .error .die → EmptyItem t := by
  intro n
  induction n with
  | zero =>
    intro t hn _ h
    have : t = [] := List.length_eq_zero_iff.1 (by omega)
    subst this
    cases h
  | succ n ih =>
    intro t hn hc h
    by_cases hm : ',' ∈ t
    · obtain ⟨l, s, rfl, hl⟩ := List.append_of_mem hm |> fun _ => (List.eq_append_cons_of_mem hm)
      rw [getlines_cons_delim _ _ _ hl, List.mapM_cons] at h
      by_cases he : l = []
      · subst he
        exact ⟨[], s, by simp, by simp⟩
      · have hd : Digits l := ⟨he, fun c hcl => (hc c (by simp [hcl])).resolve_right fun e => hl (e ▸ hcl)⟩
        rw [readItem_digits hd] at h
        by_cases hv : value l < 2 ^ 31
        · rw [if_pos hv, Res.bind_ok] at h
          have h' : (getlines ',' s).mapM readItem = .error .die := by
            cases hs : (getlines ',' s).mapM readItem with
            | ok x => rw [hs] at h; cases h
            | error e => rw [hs] at h; cases h; rfl
          simp only [List.length_append, List.length_cons] at hn
          obtain ⟨items, rest, h1, h2⟩ := ih s (by omega) (fun c hcs => hc c (by simp [hcs])) h'
          refine ⟨l :: items, rest, ?_, by rw [h2]; simp⟩
          intro i hi
          rcases List.mem_cons.1 hi with rfl | hi
          · exact ⟨hd, hv⟩
          · exact h1 i hi
        · rw [if_neg hv] at h
          cases h
    · by_cases he : t = []
      · subst he; cases h
      · rw [getlines_nodelim _ _ hm he, List.mapM_cons] at h
        have hd : Digits t := ⟨he, fun c hcl => (hc c hcl).resolve_right fun e => hm (e ▸ hcl)⟩
        rw [readItem_digits hd] at h
        by_cases hv : value t < 2 ^ 31
        · rw [if_pos hv] at h; cases h
        · rw [if_neg hv] at h; cases h

theorem loadStatesSaid_cases {t : List Char} (ht : TargetField t) :
    (∃ l, Targets t l ∧ loadStates t = .ok l ∧ loadStatesSaid t = ⟨[], .ok l⟩) ∨
    (loadStates t = .error .outOfRange ∧ loadStatesSaid t = ⟨[], .error .outOfRange⟩) ∨
    (EmptyItem t ∧ loadStates t = .error .die ∧ loadStatesSaid t = ⟨lastWords itemMessage, .error .die⟩) := by
  by_cases hu : t = ['_']
  · subst hu
    exact .inl ⟨[], .inl ⟨rfl, rfl⟩, rfl, rfl⟩
  · have hc : ∀ c ∈ t, c.isDigit = true ∨ c = ',' := (ht.resolve_left hu).2
    have e1 : loadStatesSaid t = loadFieldsSaid (getlines ',' t) := if_neg hu
    have e2 : loadStates t = (getlines ',' t).mapM readItem := by rw [loadStates_eq, if_neg hu]
    rcases loadFieldsSaid_cases (getlines ',' t) (by
      intro f hf c hcf
      obtain ⟨h1, h2⟩ := mem_getlines_mem hf hcf
      exact (hc c h1).resolve_right h2) with ⟨l, h1, h2⟩ | ⟨h1, h2⟩ | ⟨h1, h2⟩
    · exact .inl ⟨l, (loadStates_iff ht).1 (e2.trans h1), e2.trans h1, e1.trans h2⟩
    · exact .inr (.inl ⟨e2.trans h1, e1.trans h2⟩)
    · exact .inr (.inr ⟨emptyItem_of_die _ t (Nat.le_refl _) hc h1, e2.trans h1, e1.trans h2⟩)

theorem loadStatesSaid_ok {t : List Char} (ht : TargetField t) {l : List Nat} (h : Targets t l) : loadStatesSaid t = ⟨[], .ok l⟩ := by
  have h' := (loadStates_iff ht).2 h
  rcases loadStatesSaid_cases ht with ⟨l', _, h1, h2⟩ | ⟨h1, _⟩ | ⟨_, h1, _⟩
  · rw [h'] at h1; cases h1; exact h2
  · rw [h'] at h1; cases h1
  · rw [h'] at h1; cases h1

theorem loadStatesSaid_item {t : List Char} (ht : TargetField t) (h : EmptyItem t) : loadStatesSaid t = ⟨lastWords itemMessage, .error .die⟩ := by
  have h' := loadStates_emptyItem h
  rcases loadStatesSaid_cases ht with ⟨l', _, h1, h2⟩ | ⟨h1, _⟩ | ⟨_, _, h1⟩
  · rw [h'] at h1; cases h1
  · rw [h'] at h1; cases h1
  · exact h1

/-- A line at fault. -/
theorem specLineSaid_fault {p : SpecSt} {l m : List Char} (h : Fault p.delta.length l m) : specLineSaid p l = ⟨lastWords m, .error .die⟩ := by
  cases h with
  | item hl he =>
    have hd := hl
    obtain ⟨_, _, _, hnum, ht0, ht1, _⟩ := hd
    unfold specLineSaid
    rw [matchSpecLine_iff.2 hl]
    dsimp only
    rcases he with h | ⟨⟨on0, h0⟩, h⟩
    · exact Said.bind_of_err (loadStatesSaid_item ht0 h)
    · rw [Said.quiet_bind (loadStatesSaid_ok ht0 h0)]
      exact Said.bind_of_err (loadStatesSaid_item ht1 h)
  | number hl h0 h1 hv hk =>
    have hd := hl
    obtain ⟨_, _, _, hnum, ht0, ht1, _⟩ := hd
    unfold specLineSaid
    rw [matchSpecLine_iff.2 hl]
    dsimp only
    rw [Said.quiet_bind (loadStatesSaid_ok ht0 h0), Said.quiet_bind (loadStatesSaid_ok ht1 h1), stoi_digits hnum, if_pos hv, Said.silent_ok,
      if_pos (fun e => hk e.symm), Said.silent_ok]
    rfl

/-- What a line does. -/
theorem specLineSaid_cases (p : SpecSt) (l : List Char) :
    (NotSpecLine l ∧ specLine p l = .ok p ∧ specLineSaid p l = ⟨[.info ("Skip line \"".toList ++ l ++ "\"".toList)], .ok p⟩) ∨
    (¬ NotSpecLine l ∧ ((∃ p', specLine p l = .ok p' ∧ specLineSaid p l = ⟨[], .ok p'⟩) ∨
      (specLine p l = .error .outOfRange ∧ specLineSaid p l = ⟨[], .error .outOfRange⟩) ∨
      ∃ m, Fault p.delta.length l m ∧ specLine p l = .error .die)) := by
  cases hm : matchSpecLine l with
  | none =>
    refine .inl ⟨matchSpecLine_none.1 hm, specLine_skip (matchSpecLine_none.1 hm), ?_⟩
    unfold specLineSaid
    rw [hm]
    rfl
  | some c =>
    obtain ⟨ini, num, fin, t0, t1⟩ := c
    have hl := matchSpecLine_iff.1 hm
    have hd := hl
    obtain ⟨_, _, _, hnum, ht0, ht1, _⟩ := hd
    refine .inr ⟨fun h => h ⟨_, _, _, _, _, hl⟩, ?_⟩
    unfold specLine specLineSaid
    rw [hm]
    dsimp only
    rcases loadStatesSaid_cases ht0 with ⟨l0, a1, a2, a3⟩ | ⟨a1, a2⟩ | ⟨a1, a2, _⟩
    · rw [a2, Res.bind_ok, Said.quiet_bind a3]
      rcases loadStatesSaid_cases ht1 with ⟨l1, b1, b2, b3⟩ | ⟨b1, b2⟩ | ⟨b1, b2, _⟩
      · rw [b2, Res.bind_ok, Said.quiet_bind b3, stoi_digits hnum]
        by_cases hv : value num < 2 ^ 31
        · rw [if_pos hv, Res.bind_ok, Said.silent_ok]
          by_cases hq : p.delta.length = value num
          · rw [if_neg (not_not.2 hq), if_neg (not_not.2 hq)]
            exact .inl ⟨_, rfl, rfl⟩
          · rw [if_pos hq]
            exact .inr (.inr ⟨_, .number hl a1 b1 hv (fun e => hq e.symm), rfl⟩)
        · rw [if_neg hv]
          exact .inr (.inl ⟨rfl, rfl⟩)
      · rw [b1]
        exact .inr (.inl ⟨rfl, Said.bind_of_err b2⟩)
      · rw [b2]
        exact .inr (.inr ⟨_, .item hl (.inr ⟨⟨_, a1⟩, b1⟩), rfl⟩)
    · rw [a1]
      exact .inr (.inl ⟨rfl, Said.bind_of_err a2⟩)
    · rw [a2]
      exact .inr (.inr ⟨_, .item hl (.inl a1), rfl⟩)

/-- Lines that are read: what they say. -/
theorem specLinesSaid_ok {p p' : SpecSt} : ∀ {ls : List (List Char)}, ls.foldlM specLine p = .ok p' → ∃ n, SkipNotes ls n ∧ specLinesSaid p ls = ⟨n, .ok p'⟩ := by
  intro ls
  induction ls generalizing p with
  | nil => intro h; cases h; exact ⟨[], .nil, rfl⟩
  | cons l ls ih =>
    intro h
    rw [List.foldlM_cons] at h
    obtain ⟨p1, h1, h⟩ := Res.bind_eq_ok.1 h
    obtain ⟨n, k1, k2⟩ := ih h
    rw [specLinesSaid]
    rcases specLineSaid_cases p l with ⟨e1, e2, e3⟩ | ⟨e1, ⟨p', e2, e3⟩ | ⟨e2, _⟩ | ⟨m, _, e2⟩⟩
    · rw [h1] at e2
      cases e2
      exact ⟨_, .skip e1 k1, by rw [Said.bind_of_ok e3, k2]; rfl⟩
    · rw [h1] at e2
      cases e2
      exact ⟨n, .state e1 k1, by rw [Said.quiet_bind e3, k2]⟩
    · rw [h1] at e2; cases e2
    · rw [h1] at e2; cases e2

theorem specLinesSaid_append {p p' : SpecSt} {n : List Note} : ∀ {a b : List (List Char)}, specLinesSaid p a = ⟨n, .ok p'⟩ →
    specLinesSaid p (a ++ b) = ⟨n ++ (specLinesSaid p' b).notes, (specLinesSaid p' b).res⟩ := by
  intro a
  induction a generalizing p n with
  | nil => intro b h; cases h; rfl
  | cons l a ih =>
    intro b h
    rw [specLinesSaid] at h
    rw [List.cons_append, specLinesSaid]
    cases hx : specLineSaid p l with
    | mk n1 r =>
      cases r with
      | error e => rw [Said.bind_of_err hx] at h; cases h
      | ok p1 =>
        rw [Said.bind_of_ok hx] at h
        rw [Said.bind_of_ok rfl]
        injection h with h1 h2
        have := ih (p := p1) (n := (specLinesSaid p1 a).notes) (b := b) (Said.ext' rfl h2)
        rw [this, ← h1]
        simp

/-- The first bad line. -/
theorem first_bad : ∀ (ls : List (List Char)) (p : SpecSt) (e : Err), ls.foldlM specLine p = .error e →
    ∃ a l b p', ls = a ++ l :: b ∧ a.foldlM specLine p = .ok p' ∧ specLine p' l = .error e := by
  intro ls
  induction ls with
  | nil => intro p e h; cases h
  | cons x ls ih =>
    intro p e h
    rw [List.foldlM_cons] at h
    cases hx : specLine p x with
    | error e' =>
      rw [hx, Res.bind_err] at h
      cases h
      exact ⟨[], x, ls, p, rfl, rfl, hx⟩
    | ok p1 =>
      rw [hx, Res.bind_ok] at h
      obtain ⟨a, l, b, p', h1, h2, h3⟩ := ih p1 e h
      exact ⟨x :: a, l, b, p', by rw [h1]; rfl, by rw [List.foldlM_cons, hx, Res.bind_ok]; exact h2, h3⟩

/-! ## AT&T files -/

theorem matchAttEdge_some {l a b c : List Char} (h : matchAttEdge l = some (a, b, c)) :
    Digits a ∧ Digits b ∧ (c = ['0'] ∨ c = ['1']) ∧ l = a ++ '\t' :: (b ++ '\t' :: c) := by
  unfold matchAttEdge at h
  dsimp only at h
  generalize hs2 : l.dropWhile Char.isDigit = s2 at h
  split at h
  · cases h
  · rename_i h1
    generalize hs3 : s2.tail.dropWhile Char.isDigit = s3 at h
    split at h
    · cases h
    · rename_i h2
      split at h
      · rename_i h3
        simp only [Option.some.injEq, Prod.mk.injEq] at h
        obtain ⟨rfl, rfl, rfl⟩ := h
        simp only [ne_eq, Bool.or_eq_true, List.isEmpty_iff, decide_eq_true_eq, not_or, not_not] at h1 h2 h3
        refine ⟨⟨h1.1, fun c hc => mem_takeWhile_imp hc⟩, ⟨h2.1, fun c hc => mem_takeWhile_imp hc⟩, h3, ?_⟩
        have t2 : s2 = '\t' :: s2.tail := by
          cases s2 with
          | nil => simp at h1
          | cons x s2 => simp only [List.head?_cons, Option.some.injEq] at h1; rw [h1.2]; rfl
        have t3 : s3 = '\t' :: s3.tail := by
          cases s3 with
          | nil => simp at h2
          | cons x s3 => simp only [List.head?_cons, Option.some.injEq] at h2; rw [h2.2]; rfl
        rw [← t3, ← hs3, List.takeWhile_append_dropWhile, ← t2, ← hs2, List.takeWhile_append_dropWhile]
      · cases h

theorem matchAttEdge_shape {a b : List Char} {c : Char} (ha : Digits a) (hb : Digits b) (hc : c = '0' ∨ c = '1') :
    matchAttEdge (a ++ '\t' :: (b ++ ['\t', c])) = some (a, b, [c]) := by
  obtain ⟨e1, e2⟩ := takeWhile_all (p := Char.isDigit) ha.2 (b := '\t' :: (b ++ ['\t', c])) (by simp [tab_not_digit])
  obtain ⟨f1, f2⟩ := takeWhile_all (p := Char.isDigit) hb.2 (b := ['\t', c]) (by simp [tab_not_digit])
  unfold matchAttEdge
  dsimp only
  rw [e1, e2]
  have h1 : a.isEmpty = false := by simpa using ha.1
  have h2 : b.isEmpty = false := by simpa using hb.1
  simp only [h1, List.head?_cons, ne_eq, not_true_eq_false, decide_false, Bool.or_self, Bool.false_eq_true, if_false,
    List.tail_cons, f1, f2, h2]
  rcases hc with rfl | rfl <;> simp

theorem matchAttFinal_iff {l a : List Char} : matchAttFinal l = some a ↔ a = l ∧ Digits l := by
  unfold matchAttFinal Digits
  split
  · rename_i h
    simp only [Bool.and_eq_true, Bool.not_eq_true', List.isEmpty_eq_false_iff, List.all_eq_true] at h
    simp only [Option.some.injEq]
    exact ⟨fun e => ⟨e.symm, h⟩, fun e => e.1.symm⟩
  · rename_i h
    simp only [Bool.and_eq_true, Bool.not_eq_true', List.isEmpty_eq_false_iff, List.all_eq_true] at h
    simp only [reduceCtorEq, false_iff, not_and]
    exact fun _ h1 h2 => h ⟨h1, h2⟩

/-- What a line of an AT&T file does. -/
theorem attLineSaid_cases (p : List Nat × NFADelta) (l : List Char) :
    (∃ p', attLine p l = .ok p' ∧ attLineSaid p l = ⟨[], .ok p'⟩) ∨
    (AttShape l ∧ attLine p l = .error .outOfRange ∧ attLineSaid p l = ⟨[], .error .outOfRange⟩) ∨
    (¬ AttShape l ∧ attLine p l = .error .die ∧ attLineSaid p l = ⟨lastWords ("Invalid line: ".toList ++ l), .error .die⟩) := by
  cases hm : matchAttEdge l with
  | some c =>
    obtain ⟨a, b, c⟩ := c
    obtain ⟨ha, hb, hc, hl⟩ := matchAttEdge_some hm
    have hshape : AttShape l := by
      rcases hc with rfl | rfl
      · exact .inr ⟨a, b, '0', ha, hb, .inl rfl, hl⟩
      · exact .inr ⟨a, b, '1', ha, hb, .inr rfl, hl⟩
    by_cases va : value a < 2 ^ 31
    · by_cases vb : value b < 2 ^ 31
      · have hline : AttLine l (.edge (value a) (value b) (decide (c = ['1']))) := by
          refine ⟨a, b, ha, hb, rfl, rfl, va, vb, ?_⟩
          rcases hc with rfl | rfl
          · exact hl
          · exact hl
        have hok := attLine_ok (p := p) hline
        refine .inl ⟨_, hok, ?_⟩
        unfold attLine at hok
        unfold attLineSaid
        rw [hm] at hok ⊢
        dsimp only at hok ⊢
        rw [stoi_digits ha, if_pos va, stoi_digits hb, if_pos vb, Res.bind_ok, Res.bind_ok] at hok
        rw [stoi_digits ha, if_pos va, stoi_digits hb, if_pos vb, Said.silent_ok, Said.silent_ok]
        rcases hc with rfl | rfl
        · rw [show stoi ['0'] = .ok 0 from rfl, Res.bind_ok, if_pos rfl] at hok
          rw [show stoi ['0'] = .ok 0 from rfl, Said.silent_ok, if_pos rfl]
          exact congrArg (Said.mk []) hok
        · rw [show stoi ['1'] = .ok 1 from rfl, Res.bind_ok, if_neg (by decide), if_pos rfl] at hok
          rw [show stoi ['1'] = .ok 1 from rfl, Said.silent_ok, if_neg (by decide), if_pos rfl]
          exact congrArg (Said.mk []) hok
      · refine .inr (.inl ⟨hshape, ?_, ?_⟩)
        · unfold attLine
          rw [hm]
          dsimp only
          rw [stoi_digits ha, if_pos va, stoi_digits hb, if_neg vb]
          rfl
        · unfold attLineSaid
          rw [hm]
          dsimp only
          rw [stoi_digits ha, if_pos va, stoi_digits hb, if_neg vb]
          rfl
    · refine .inr (.inl ⟨hshape, ?_, ?_⟩)
      · unfold attLine
        rw [hm]
        dsimp only
        rw [stoi_digits ha, if_neg va]
        rfl
      · unfold attLineSaid
        rw [hm]
        dsimp only
        rw [stoi_digits ha, if_neg va]
        rfl
  | none =>
    cases hf : matchAttFinal l with
    | some a =>
      obtain ⟨rfl, hd⟩ := matchAttFinal_iff.1 hf
      unfold attLine attLineSaid
      rw [hm]
      dsimp only
      rw [hf]
      dsimp only
      rw [stoi_digits hd]
      by_cases hv : value a < 2 ^ 31
      · rw [if_pos hv]
        exact .inl ⟨_, rfl, rfl⟩
      · rw [if_neg hv]
        exact .inr (.inl ⟨.inl hd, rfl, rfl⟩)
    | none =>
      refine .inr (.inr ⟨?_, ?_, ?_⟩)
      · rintro (hd | ⟨a, b, c, ha, hb, hc, rfl⟩)
        · rw [matchAttFinal_iff.2 ⟨rfl, hd⟩] at hf; cases hf
        · rw [matchAttEdge_shape ha hb hc] at hm; cases hm
      · unfold attLine
        rw [hm]
        dsimp only
        rw [hf]
      · unfold attLineSaid
        rw [hm]
        dsimp only
        rw [hf]
        rfl

/-- What the lines of an AT&T file do. -/
theorem attLinesSaid_cases : ∀ (ls : List (List Char)) (p : List Nat × NFADelta),
    (∃ p', ls.foldlM attLine p = .ok p' ∧ attLinesSaid p ls = ⟨[], .ok p'⟩) ∨
    (ls.foldlM attLine p = .error .outOfRange ∧ attLinesSaid p ls = ⟨[], .error .outOfRange⟩) ∨
    ∃ a l b, ls = a ++ l :: b ∧ (∀ x ∈ a, ∃ i, AttLine x i) ∧ ¬ AttShape l ∧ ls.foldlM attLine p = .error .die ∧
      attLinesSaid p ls = ⟨lastWords ("Invalid line: ".toList ++ l), .error .die⟩ := by
  intro ls
  induction ls with
  | nil => exact fun p => .inl ⟨p, rfl, rfl⟩
  | cons x ls ih =>
    intro p
    rw [List.foldlM_cons, attLinesSaid]
    rcases attLineSaid_cases p x with ⟨p', h1, h2⟩ | ⟨_, h1, h2⟩ | ⟨h0, h1, h2⟩
    · rw [h1, Res.bind_ok, Said.quiet_bind h2]
      rcases ih p' with h | h | ⟨a, l, b, k1, k2, k3, k4, k5⟩
      · exact .inl h
      · exact .inr (.inl h)
      · refine .inr (.inr ⟨x :: a, l, b, by rw [k1]; rfl, ?_, k3, k4, k5⟩)
        intro y hy
        rcases List.mem_cons.1 hy with rfl | hy
        · exact attLine_inv h1
        · exact k2 y hy
    · rw [h1, Said.bind_of_err h2]
      exact .inr (.inl ⟨rfl, rfl⟩)
    · rw [h1, Said.bind_of_err h2]
      exact .inr (.inr ⟨[], x, ls, rfl, by simp, h0, rfl, rfl⟩)

end Homfa
