import Verif.Spec.Test0
import Verif.Props.Stream
import Verif.Proof.Commands
import Verif.Proof.Shell

namespace Homfa.Cli

variable {N n l : Nat} {L : Lib N n l}

theorem isNaN_iff (w : BitVec 64) : isNaN w = true ↔ IsNaN w := by
  unfold isNaN IsNaN
  rw [decide_eq_true_iff, BitVec.lt_def, BitVec.toNat_and, show (0x7fffffffffffffff#64).toNat = 2 ^ 63 - 1 from rfl, Nat.and_two_pow_sub_one_eq_mod,
    show (0x7ff0000000000000#64).toNat = 2047 * 2 ^ 52 from rfl]
  have := w.isLt
  omega

theorem doubleEq_self (w : BitVec 64) : doubleEq w w = !isNaN w := by
  unfold doubleEq
  simp

theorem abs_eq_zero_iff (w : BitVec 64) : (w &&& 0x7fffffffffffffff#64 == 0#64) = true ↔ w.toNat % 2 ^ 63 = 0 := by
  rw [beq_iff_eq, BitVec.toNat_eq, BitVec.toNat_and]
  show w.toNat &&& (2 ^ 63 - 1) = 0 ↔ _
  rw [Nat.and_two_pow_sub_one_eq_mod]

theorem doubleEq_iff (a b : BitVec 64) : doubleEq a b = true ↔ SameDouble a b := by
  unfold doubleEq SameDouble
  rw [← isNaN_iff, ← isNaN_iff, ← abs_eq_zero_iff, ← abs_eq_zero_iff]
  simp [and_assoc]

theorem gswEq_iff (a b : Gsw l N) : gswEq a b = true ↔ SameNumbers a b := by
  unfold gswEq SameNumbers
  rw [List.all_eq_true]
  exact ⟨fun h i j k => (doubleEq_iff _ _).1 (h (i, j, k) (mem_gswIdx (i, j, k))), fun h x _ => (doubleEq_iff _ _).2 (h _ _ _)⟩

theorem gswEq_self (c : Gsw l N) : gswEq c c = true ↔ NoNaN c := by
  unfold gswEq NoNaN
  rw [List.all_eq_true]
  have key : ∀ i j k, doubleEq (c i j k) (c i j k) = true ↔ ¬ IsNaN (c i j k) := by
    intro i j k
    rw [doubleEq_self, ← isNaN_iff]
    simp
  constructor
  · intro h i j k
    exact (key i j k).1 (h (i, j, k) (mem_gswIdx (i, j, k)))
  · intro h x _
    exact (key _ _ _).2 (h _ _ _)

theorem forM_ok {α : Type} {f : α → Res Unit} : ∀ {cs : List α}, cs.forM f = .ok () ↔ ∀ c ∈ cs, f c = .ok ()
  | [] => by simp [List.forM, pure, Except.pure]
  | c :: cs => by
    show ((f c).bind fun _ => cs.forM f) = _ ↔ _
    constructor
    · intro h
      obtain ⟨u, h1, h2⟩ := Res.bind_eq_ok.1 h
      intro c' hc'
      rcases List.mem_cons.1 hc' with rfl | hc'
      · exact h1
      · exact forM_ok.1 h2 c' hc'
    · intro h
      rw [h c (by simp)]
      exact forM_ok.2 fun c' h' => h c' (by simp [h'])

/-- what the streams answer -/
theorem answers_iff (hbs : 0 < blockSize l N) (hbs' : 2 * blockSize l N < 2 ^ 63) (kind : StreamKind) (c0 c1 : Gsw l N) (r : Res (List (StreamOut l N))) :
    Answers kind (some (saveGsw c0 ++ saveGsw c1)) testCalls r ↔
      r = .ok (match kind with
        | .forward => [.size 2, .ctxt c0, .size 1, .ctxt c1, .size 0]
        | .reversed => [.size 2, .ctxt c1, .size 1, .ctxt c0, .size 0]) := by
  have hfile : saveGsw c0 ++ saveGsw c1 = [c0, c1].flatMap saveGsw := by simp
  have hlen : ([c0, c1].flatMap saveGsw).length < 2 ^ 63 := by rw [← hfile]; simp only [List.length_append, length_saveGsw]; omega
  rw [hfile]
  have hfw : ∀ junk : Gsw l N, ∃ s₀, openStream kind (some ([c0, c1].flatMap saveGsw)) junk testCalls = .ok s₀ ∧
      (∃ bound, ∀ n t, StreamExec kind n s₀ t → n ≤ bound) ∧ ∀ n t, StreamExec kind n s₀ t → StreamStuck kind t →
        t.out = (match kind with
          | .forward => [.size 2, .ctxt c0, .size 1, .ctxt c1, .size 0]
          | .reversed => [.size 2, .ctxt c1, .size 1, .ctxt c0, .size 0]) ∧ t.died = none := by
    intro junk
    cases kind with
    | forward =>
      obtain ⟨s₀, h1, h2, h3⟩ := C21_forward_stream hbs (by omega) [c0, c1] hlen junk testCalls
      exact ⟨s₀, h1, h2, fun n t he hs => (h3 n t he).2 hs⟩
    | reversed =>
      obtain ⟨s₀, h1, h2, h3⟩ := C22_reversed_stream hbs (by omega) [c0, c1] hlen junk testCalls
      exact ⟨s₀, h1, h2, fun n t he hs => (h3 n t he).2.2 hs⟩
  constructor
  · intro h
    cases h with
    | bad h =>
      rename_i junk _
      obtain ⟨s₀, h1, -⟩ := hfw junk
      rw [h1] at h; cases h
    | dies h he hd =>
      obtain ⟨s₀, h1, -, h3⟩ := hfw _
      rw [h1] at h; cases h
      have := (h3 _ _ he (stuck_of_died hd)).2
      rw [hd] at this; cases this
    | ends h he hd hs =>
      obtain ⟨s₀, h1, -, h3⟩ := hfw _
      rw [h1] at h; cases h
      rw [(h3 _ _ he hs).1]
  · rintro rfl
    obtain ⟨s₀, h1, ⟨bound, h2⟩, h3⟩ := hfw (fun _ _ _ => 0#64)
    obtain ⟨k, t, he, hs⟩ := exists_stuck h2
    obtain ⟨e1, e2⟩ := h3 _ _ he hs
    rw [← e1]
    exact .ends h1 he e2 hs

theorem checkAnswers_self (a b : Gsw l N) :
    checkAnswers a b [.size 2, .ctxt a, .size 1, .ctxt b, .size 0] = if gswEq a a && gswEq b b then .ok () else .error .assertFail := by
  simp [checkAnswers, cassert, answerEq]

theorem testSerializer_eq (c junk : Gsw l N) : testSerializer c junk = if gswEq c c then .ok () else .error .assertFail := by
  unfold testSerializer
  have h := C20_load_saved c junk [] [] false
  simp only [List.nil_append, List.append_nil, List.length_nil] at h
  simp only [IStream.seekg, Bool.false_eq_true, if_false]
  norm_num
  rw [h, Res.bind_ok]
  rfl

end Homfa.Cli
