import Verif.Spec.Convert2
import Verif.Proof.Temporal
import Verif.Props.Convert
import Verif.Props.Text

/-! # The converters on the command line: lemmas -/

namespace Homfa

theorem plain_records {spec : List Char} {g : Graph} (hg : Graph.fromIstream spec = .ok g) {ap : Nat} (hap : 0 < ap) {rs : List (List Byte)}
    (hrs : ∀ r ∈ rs, r.length = recordBytes ap) {b : Bool} (hb : g.accepts (rs.flatMap (recordBits ap)) = .ok b) :
    doRunPlain spec (some rs.flatten) ap = .ok (printResult b) := by
  unfold Graph.accepts Graph.runWord at hb
  obtain ⟨s, e1, e2⟩ := Res.bind_eq_ok.1 hb
  unfold doRunPlain
  rw [hg, Res.bind_ok, C19_records ap hap rs hrs, e1, Res.bind_ok, e2]
  rfl

namespace Cli

variable {N n l : Nat} {L : Lib N n l}

/-- a word for the file: a single dash or one that does not begin with a dash -/
theorem arg_ok {F : String} (h : F = "-" ∨ Word F) (ex : String → Bool) : Kind.text.Ok ex F := by
  rcases h with rfl | h
  · exact ⟨fun _ => rfl, trivial⟩
  · exact h.text ex

def convItems (flags file : List String) : List Item := flags.map .flag ++ file.map .arg

theorem line_conv (flags file : List String) : line (convItems flags file) = flags ++ file := by
  unfold line convItems
  rw [List.flatMap_append]
  congr 1
  · induction flags with
    | nil => rfl
    | cons f fl ih => simpa [Item.words] using ih
  · induction file with
    | nil => rfl
    | cons f fl ih => simpa [Item.words] using ih

theorem args_conv (flags file : List String) : args (convItems flags file) = file := by
  unfold args convItems
  rw [List.filterMap_append]
  have h1 : ∀ fl : List String, List.filterMap (fun i : Item => match i with | .arg v => some v | _ => none) (fl.map Item.flag) = [] := by
    intro fl
    induction fl with
    | nil => rfl
    | cons f fl ih => simpa using ih
  have h2 : ∀ fl : List String, List.filterMap (fun i : Item => match i with | .arg v => some v | _ => none) (fl.map Item.arg) = fl := by
    intro fl
    induction fl with
    | nil => rfl
    | cons f fl ih => simpa using ih
  exact (congrArg₂ (· ++ ·) (h1 flags) (h2 file)).trans (List.nil_append _)

theorem has_conv (flags file : List String) (f : String) : has (convItems flags file) f = decide (f ∈ flags) := by
  unfold has convItems
  simp

theorem follows_conv {u : Usage} (h1 : u.required = []) (h3 : u.requiredArgs = []) (h4 : u.optionalArgs = [.text]) (ex : String → Bool) {flags file : List String}
    (hfl : ∀ f ∈ flags, f ∈ u.flags) (hlen : file.length ≤ 1) (hfile : ∀ F ∈ file, F = "-" ∨ Word F) :
    u.Follows ex (convItems flags file) where
  known n v h := by simp [convItems] at h
  once := by
    have : optNames (convItems flags file) = [] := by
      unfold optNames convItems
      rw [List.filterMap_eq_nil_iff]
      intro i hi
      simp only [List.mem_append, List.mem_map] at hi
      rcases hi with ⟨_, _, rfl⟩ | ⟨_, _, rfl⟩ <;> rfl
    rw [this]
    exact List.nodup_nil
  all n k h := by rw [h1] at h; cases h
  flags n h := by
    refine hfl n ?_
    simpa [convItems] using h
  enough := by rw [h3]; exact Nat.zero_le _
  notMore := by rw [h3, h4, args_conv]; exact hlen
  kinds i v k hv hk := by
    rw [args_conv] at hv
    rw [h3, h4] at hk
    match i with
    | 0 =>
      cases hk
      exact arg_ok (hfile v (List.mem_of_getElem? hv)) ex
    | i + 1 => simp at hk

/-- the file, if one is named -/
def fileWords : Option String → List String
  | none => []
  | some F => [F]

theorem run_spec2spec {stdin : List Char} {fs : Files} {flags : List String} (hfl : ∀ f ∈ flags, f = "--minimized" ∨ f = "--reversed" ∨ f = "--negated")
    {F : Option String} (hF : ∀ f, F = some f → f = "-" ∨ Word f) {r : Res (Files × List Char)} :
    RunHomfa L stdin fs ("spec2spec" :: flags ++ fileWords F) r ↔
      r = (do
        let s ← fileOrStdin readSpec fs stdin F
        let out ← doSpec2spec s (decide ("--minimized" ∈ flags)) (decide ("--reversed" ∈ flags)) (decide ("--negated" ∈ flags))
        pure (fs, out)) := by
  have hf : Cmd.spec2spec.usage.Follows (fun f => (fs f).isSome) (convItems flags (fileWords F)) := by
    refine follows_conv rfl rfl rfl _ (by simpa [Cmd.usage] using hfl) (by cases F <;> simp [fileWords]) ?_
    cases F with
    | none => simp [fileWords]
    | some f => simpa [fileWords] using hF f rfl
  have h := run_iff (L := L) (stdin := stdin) .spec2spec (w := ["spec2spec"]) (by simp [Cmd.names]) hf (r := r)
  rw [line_conv] at h
  have e : Cmd.spec2spec.call (convItems flags (fileWords F)) =
      .spec2spec F (decide ("--minimized" ∈ flags)) (decide ("--reversed" ∈ flags)) (decide ("--negated" ∈ flags)) := by
    simp only [Cmd.call, args_conv, has_conv]
    cases F <;> rfl
  rw [e] at h
  refine Iff.trans (Iff.of_eq (by simp)) (h.trans ⟨fun h => ?_, ?_⟩)
  · cases h with
    | spec2spec => rfl
  · rintro rfl; exact .spec2spec

theorem run_spec2dot {stdin : List Char} {fs : Files} {F : Option String} (hF : ∀ f, F = some f → f = "-" ∨ Word f) {r : Res (Files × List Char)} :
    RunHomfa L stdin fs ("spec2dot" :: fileWords F) r ↔
      r = (do
        let s ← fileOrStdin readSpec fs stdin F
        let out ← doSpec2dot s
        pure (fs, out)) := by
  have hf : Cmd.spec2dot.usage.Follows (fun f => (fs f).isSome) (convItems [] (fileWords F)) := by
    refine follows_conv rfl rfl rfl _ (by simp) (by cases F <;> simp [fileWords]) ?_
    cases F with
    | none => simp [fileWords]
    | some f => simpa [fileWords] using hF f rfl
  have h := run_iff (L := L) (stdin := stdin) .spec2dot (w := ["spec2dot"]) (by simp [Cmd.names]) hf (r := r)
  rw [line_conv] at h
  have e : Cmd.spec2dot.call (convItems [] (fileWords F)) = .spec2dot F := by
    simp only [Cmd.call, args_conv]
    cases F <;> rfl
  rw [e] at h
  refine h.trans ⟨fun h => ?_, ?_⟩
  · cases h with
    | spec2dot => rfl
  · rintro rfl; exact .spec2dot

theorem run_spec2att {stdin : List Char} {fs : Files} {F : Option String} (hF : ∀ f, F = some f → f = "-" ∨ Word f) {r : Res (Files × List Char)} :
    RunHomfa L stdin fs ("spec2att" :: fileWords F) r ↔
      r = (do
        let s ← fileOrStdin readSpec fs stdin F
        let out ← doSpec2att s
        pure (fs, out)) := by
  have hf : Cmd.spec2att.usage.Follows (fun f => (fs f).isSome) (convItems [] (fileWords F)) := by
    refine follows_conv rfl rfl rfl _ (by simp) (by cases F <;> simp [fileWords]) ?_
    cases F with
    | none => simp [fileWords]
    | some f => simpa [fileWords] using hF f rfl
  have h := run_iff (L := L) (stdin := stdin) .spec2att (w := ["spec2att"]) (by simp [Cmd.names]) hf (r := r)
  rw [line_conv] at h
  have e : Cmd.spec2att.call (convItems [] (fileWords F)) = .spec2att F := by
    simp only [Cmd.call, args_conv]
    cases F <;> rfl
  rw [e] at h
  refine h.trans ⟨fun h => ?_, ?_⟩
  · cases h with
    | spec2att => rfl
  · rintro rfl; exact .spec2att

theorem run_att2spec {stdin : List Char} {fs : Files} {F : Option String} (hF : ∀ f, F = some f → f = "-" ∨ Word f) {r : Res (Files × List Char)} :
    RunHomfa L stdin fs ("att2spec" :: fileWords F) r ↔
      r = (do
        let s ← fileOrStdin readAtt fs stdin F
        let out ← doAtt2spec s
        pure (fs, out)) := by
  have hf : Cmd.att2spec.usage.Follows (fun f => (fs f).isSome) (convItems [] (fileWords F)) := by
    refine follows_conv rfl rfl rfl _ (by simp) (by cases F <;> simp [fileWords]) ?_
    cases F with
    | none => simp [fileWords]
    | some f => simpa [fileWords] using hF f rfl
  have h := run_iff (L := L) (stdin := stdin) .att2spec (w := ["att2spec"]) (by simp [Cmd.names]) hf (r := r)
  rw [line_conv] at h
  have e : Cmd.att2spec.call (convItems [] (fileWords F)) = .att2spec F := by
    simp only [Cmd.call, args_conv]
    cases F <;> rfl
  rw [e] at h
  refine h.trans ⟨fun h => ?_, ?_⟩
  · cases h with
    | att2spec => rfl
  · rintro rfl; exact .att2spec

theorem word_ne_dash {F : String} (h : Word F) : F ≠ "-" := by
  rintro rfl
  exact h rfl

end Cli

end Homfa
