import Verif.Spec.Crash
import Verif.Proof.Frame

/-! # Lemmas about interrupted runs -/

namespace Homfa.Cli

variable {N n l : Nat} {L : Lib N n l} {δ : Noise} {Enc : L.Key → Gsw l N → Bool → Prop}

/-! ## The end is one of the moments -/

theorem writeResults_append (L : Lib N n l) (fs : Files) (rs : List (OutFile × TLWE N)) (f : OutFile) (c : TLWE N) :
    writeResults L fs (rs ++ [(f, c)]) = (writeResults L fs rs).set (OutFile.path f) (L.saveRes c) := by
  simp [writeResults]

theorem Files.set_set (fs : Files) (f : String) (a b : List Byte) : (fs.set f a).set f b = fs.set f b := by
  funext g
  unfold Files.set
  split <;> rfl

theorem interrupted_of_exec {stdin : List Char} {fs : Files} {c : Call} {r : Files × List Char} (h : Exec L stdin fs c (.ok r)) :
    Interrupted L fs c r := by
  generalize hr : (Except.ok r : Res (Files × List Char)) = x at h
  cases h with
  | genkey q => cases hr; exact .genkey q (List.prefix_refl _)
  | genbkey q =>
    obtain ⟨k, hk, h⟩ := Res.bind_eq_ok.1 hr.symm
    cases h; exact .genbkey q hk (List.prefix_refl _)
  | @enc rand skey input out ap =>
    obtain ⟨k, hk, h⟩ := Res.bind_eq_ok.1 hr.symm
    obtain ⟨b, hb, h⟩ := Res.bind_eq_ok.1 h
    cases h
    rw [Files.set_set]
    unfold doEnc at hb
    obtain ⟨s, hs, hb⟩ := Res.bind_eq_ok.1 hb
    cases hb
    unfold eachInputBit at hs
    cases hi : (fs.set out []) input with
    | none => rw [hi] at hs; cases hs
    | some bytes =>
      rw [hi] at hs
      obtain ⟨y, hy, hs⟩ := Res.bind_eq_ok.1 hs
      cases hy
      obtain ⟨⟨rest, s'⟩, hs1, hs⟩ := Res.bind_eq_ok.1 hs
      obtain ⟨_, _, hs⟩ := Res.bind_eq_ok.1 hs
      cases hs
      exact .enc rand hk hi hs1 (List.prefix_refl _)
  | dec =>
    obtain ⟨k, hk, h⟩ := Res.bind_eq_ok.1 hr.symm
    obtain ⟨b, hb, h⟩ := Res.bind_eq_ok.1 h
    cases h; exact .dec hk hb (List.prefix_refl _)
  | runOffline hq =>
    obtain ⟨p, hp, h⟩ := Res.bind_eq_ok.1 hr.symm
    obtain ⟨b, h1, h⟩ := Res.bind_eq_ok.1 h
    obtain ⟨s, h2, h⟩ := Res.bind_eq_ok.1 h
    obtain ⟨c, h3, h⟩ := Res.bind_eq_ok.1 h
    cases h
    rw [hp] at hq
    exact .runOffline hq h1 h2 h3 (List.prefix_refl _)
  | runBlock hq =>
    obtain ⟨p, hp, h⟩ := Res.bind_eq_ok.1 hr.symm
    obtain ⟨b, h1, h⟩ := Res.bind_eq_ok.1 h
    obtain ⟨s, h2, h⟩ := Res.bind_eq_ok.1 h
    obtain ⟨c, h3, h⟩ := Res.bind_eq_ok.1 h
    cases h
    rw [hp] at hq
    exact .runBlock hq h1 h2 h3 (List.prefix_refl _)
  | runReverse hq =>
    obtain ⟨p, hp, h⟩ := Res.bind_eq_ok.1 hr.symm
    obtain ⟨b, h1, h⟩ := Res.bind_eq_ok.1 h
    obtain ⟨s, h2, h⟩ := Res.bind_eq_ok.1 h
    obtain ⟨rs, h3, h⟩ := Res.bind_eq_ok.1 h
    cases h
    rw [hp] at hq
    obtain ⟨rs', f, c, rfl⟩ : ∃ rs' f c, rs = rs' ++ [(f, c)] := by
      unfold doRunReverse at h3
      obtain ⟨_, _, h3⟩ := Res.bind_eq_ok.1 h3
      obtain ⟨_, _, h3⟩ := Res.bind_eq_ok.1 h3
      obtain ⟨_, _, h3⟩ := Res.bind_eq_ok.1 h3
      obtain ⟨q, _, h3⟩ := Res.bind_eq_ok.1 h3
      obtain ⟨f', _, h3⟩ := Res.bind_eq_ok.1 h3
      obtain ⟨c, _, h3⟩ := Res.bind_eq_ok.1 h3
      cases h3
      exact ⟨_, _, _, rfl⟩
    rw [writeResults_append]
    exact .runReverse hq h1 h2 h3 (List.prefix_refl _)
  | runFlut hq =>
    obtain ⟨p, hp, h⟩ := Res.bind_eq_ok.1 hr.symm
    obtain ⟨s, h2, h⟩ := Res.bind_eq_ok.1 h
    obtain ⟨b, h1, h⟩ := Res.bind_eq_ok.1 h
    obtain ⟨⟨⟩, hdbg, h⟩ := Res.bind_eq_ok.1 h
    obtain ⟨rs, h3, h⟩ := Res.bind_eq_ok.1 h
    cases h
    rw [hp] at hq
    obtain ⟨rs', f, c, rfl⟩ : ∃ rs' f c, rs = rs' ++ [(f, c)] := by
      unfold doRunFlut at h3
      obtain ⟨_, _, h3⟩ := Res.bind_eq_ok.1 h3
      obtain ⟨_, _, h3⟩ := Res.bind_eq_ok.1 h3
      dsimp only at h3
      split at h3
      · cases h3
      obtain ⟨q, _, h3⟩ := Res.bind_eq_ok.1 h3
      obtain ⟨f', _, h3⟩ := Res.bind_eq_ok.1 h3
      obtain ⟨c, _, h3⟩ := Res.bind_eq_ok.1 h3
      cases h3
      exact ⟨_, _, _, rfl⟩
    rw [writeResults_append]
    exact .runFlut hq h2 h1 h3 (List.prefix_refl _) hdbg
  | runPlain =>
    obtain ⟨k, hk, h⟩ := Res.bind_eq_ok.1 hr.symm
    obtain ⟨b, hb, h⟩ := Res.bind_eq_ok.1 h
    cases h; exact .runPlain hk hb (List.prefix_refl _)
  | ltl2spec | spec2spec | spec2dot | spec2att | att2spec =>
    obtain ⟨k, hk, h⟩ := Res.bind_eq_ok.1 hr.symm
    obtain ⟨b, hb, h⟩ := Res.bind_eq_ok.1 h
    cases h; exact .converter rfl

/-! ## The call does not depend on the files -/

theorem Kind.Ok.mono {ex : String → Bool} {k : Kind} {v : String} (h : k.Ok ex v) : k.Ok (fun _ => true) v := by
  refine ⟨h.1, ?_⟩
  have := h.2
  cases k
  · trivial
  · rfl
  · exact this
  · exact this

theorem Follows.mono {u : Usage} {ex : String → Bool} {items : List Item} (h : u.Follows ex items) : u.Follows (fun _ => true) items where
  known := fun n v hv => by
    obtain ⟨k, h1, h2⟩ := h.known n v hv
    exact ⟨k, h1, h2.mono⟩
  once := h.once
  all := h.all
  flags := h.flags
  enough := h.enough
  notMore := h.notMore
  kinds := fun i v k h1 h2 => (h.kinds i v k h1 h2).mono

theorem homfaMain_mono {ex : String → Bool} {toks : List String} {c : Call} (h : homfaMain ex toks = .ok (some c)) :
    homfaMain (fun _ => true) toks = .ok (some c) := by
  obtain ⟨general, cmd, w, items, h1, h2, rfl, h3, rfl⟩ := C58_only ex toks c h
  exact C58_runs _ general h1 cmd w h2 items (Follows.mono h3)

theorem call_of_runs {fs : Files} {toks : List String} {c c0 : Call} (h0 : homfaMain (fun _ => true) toks = .ok (some c0))
    (h : homfaMain (fun f => (fs f).isSome) toks = .ok (some c)) : c = c0 := by
  have := homfaMain_mono h
  rw [h0] at this
  injection this with this
  injection this with this
  exact this.symm

/-- whatever the end of a run, its traces are those of an interrupted call -/
theorem attempt_interrupted {fs : Files} {toks : List String} {c0 : Call} (h0 : homfaMain (fun _ => true) toks = .ok (some c0)) {e : Bool}
    {r : Files × List Char} (h : Attempt L fs toks e r) : Interrupted L fs c0 r := by
  cases e with
  | true =>
    cases h with
    | call h1 h2 => rw [← call_of_runs h0 h1]; exact interrupted_of_exec h2
  | false =>
    cases h with
    | call h1 h2 => rw [← call_of_runs h0 h1]; exact h2
    | parsing => exact .early

/-! ## Truncated ciphertext files -/

theorem inputBytes_all {ap : Nat} (hap : 0 < ap) {bytes : List Byte} {w : List Bool} (h : HoldsBits ap bytes w) :
    ∃ rest, ∀ {σ : Type} (func : σ → Bool → Res σ) (s : σ),
      inputBytes ap func bytes 0 s = (w.foldlM func s).bind fun s => .ok (rest, s) := by
  obtain ⟨rs, last, rfl, hrs, hlast, rfl⟩ := h
  by_cases hl : last = []
  · subst hl
    refine ⟨0, fun func s => ?_⟩
    rw [inputBytes_records ap hap func rs [] s hrs]
    simp only [List.length_nil, Nat.mul_zero, recordBits, List.range_zero, List.map_nil, List.append_nil]
    rfl
  · refine ⟨ap - 8 * last.length, fun func s => ?_⟩
    rw [inputBytes_records ap hap func rs last s hrs, foldlM_append_bind]
    cases (rs.flatMap (recordBits ap)).foldlM func s with
    | error e => rfl
    | ok s' =>
      show inputBytes ap func last 0 s' = _
      have h0 : inputBytes ap func last 0 s' = inputBytes ap func last ap s' := by
        cases last with
        | nil => exact absurd rfl hl
        | cons v l => rw [inputBytes, inputBytes, if_pos rfl, if_neg (by omega)]
      rw [h0, inputBytes_short ap func last ap s' hap hlast]
      rfl

/-- what `enc` writes before its last assertion -/
theorem enc_written (S : Scheme N n l) (rand : Nat → Nat) {ap : Nat} (hap : 0 < ap) {bytes : List Byte} {w : List Bool}
    (h : HoldsBits ap bytes w) {rest m : Nat} {written : List Byte}
    (hw : inputBytes ap (encOne S rand) bytes 0 (0, []) = .ok (rest, (m, written))) :
    written = (encryptions S rand 0 w).flatMap saveGsw := by
  obtain ⟨rest', hr⟩ := inputBytes_all hap h
  rw [hr, enc_fold] at hw
  cases hw
  simp

/-- a prefix of a file of ciphertexts that is a whole number of blocks -/
theorem prefix_blocks {cs : List (Gsw l N)} {b : List Byte} (h : b <+: cs.flatMap saveGsw)
    (hd : blockSize l N ∣ b.length) : ∃ m, m ≤ cs.length ∧ b = (cs.take m).flatMap saveGsw := by
  induction cs generalizing b with
  | nil =>
    rw [List.flatMap_nil, List.prefix_nil] at h
    exact ⟨0, by simp, by simp [h]⟩
  | cons c cs ih =>
    rw [List.flatMap_cons] at h
    by_cases hb : b = []
    · exact ⟨0, by simp, by simp [hb]⟩
    · have hlen : blockSize l N ≤ b.length := Nat.le_of_dvd (by cases b <;> simp_all) hd
      obtain ⟨b', rfl⟩ : saveGsw c <+: b := by
        refine List.prefix_of_prefix_length_le (List.prefix_append _ _) h ?_
        rw [length_saveGsw]; exact hlen
      rw [List.prefix_append_right_inj] at h
      rw [List.length_append, length_saveGsw] at hd
      obtain ⟨m, h1, h2⟩ := ih h ((Nat.dvd_add_right (dvd_refl _)).1 hd)
      exact ⟨m + 1, by simpa using h1, by simp [h2]⟩

/-- a file that ends inside a ciphertext, or does not exist, cannot be read -/
theorem fetch_whole {kind : StreamKind} (hbs : 0 < blockSize l N) {file : Option (List Byte)} (hlen : ∀ b, file = some b → b.length < 2 ^ 63)
    {p : List Nat × List (Gsw l N)} (h : Fetch kind file (.ok p)) : ∃ b, file = some b ∧ blockSize l N ∣ b.length := by
  by_contra hc
  have hbad : ∀ bytes, file = some bytes → bytes.length < 2 ^ 63 ∧ ¬ blockSize l N ∣ bytes.length :=
    fun b hb => ⟨hlen b hb, fun hd => hc ⟨b, hb, hd⟩⟩
  generalize hr : (Except.ok p : Res (List Nat × List (Gsw l N))) = r at h
  cases h with
  | bad => cases hr
  | dies => cases hr
  | forward _ h =>
    obtain ⟨outs, ⟨junk, script, s₀, k, t, h0, -⟩, -⟩ := h
    rw [C21_bad_file .forward hbs _ hbad junk script] at h0
    cases h0
  | reversed h =>
    obtain ⟨⟨junk, script, s₀, k, t, h0, -⟩, -⟩ := h
    rw [C21_bad_file .reversed hbs _ hbad junk script] at h0
    cases h0

/-- one byte per bit -/
def bitByte (b : Bool) : Byte := if b then 1#8 else 0#8

theorem recordBits_bitByte (w : List Bool) : (w.map fun b => [bitByte b]).flatMap (recordBits 1) = w := by
  induction w with
  | nil => rfl
  | cons b w ih =>
    rw [List.map_cons, List.flatMap_cons, ih]
    cases b <;> rfl

theorem records_bitByte (w : List Bool) : ∀ r ∈ w.map (fun b => [bitByte b]), r.length = recordBytes 1 := by
  intro r hr
  obtain ⟨b, _, rfl⟩ := List.mem_map.1 hr
  rfl

/-- the encryptions of any bits are what `enc` writes for some input -/
theorem enc_bitByte (S : Scheme N n l) (rand : Nat → Nat) (w : List Bool) :
    doEnc S rand (some (w.map fun b => [bitByte b]).flatten) 1 = .ok ((encryptions S rand 0 w).flatMap saveGsw) := by
  rw [enc_eq S rand (by omega) (records_bitByte w), recordBits_bitByte]

theorem plain_bitByte {spec : List Char} {g : Graph} (h : Graph.fromIstream spec = .ok g) {w : List Bool} {b : Bool}
    (ha : g.accepts w = .ok b) : doRunPlain spec (some (w.map fun b => [bitByte b]).flatten) 1 = .ok (printResult b) := by
  unfold doRunPlain
  rw [h, Res.bind_ok, C19_records 1 (by omega) _ (records_bitByte w), recordBits_bitByte]
  unfold Graph.accepts Graph.runWord at ha
  obtain ⟨q, h1, h2⟩ := Res.bind_eq_ok.1 ha
  rw [h1, Res.bind_ok, h2, Res.bind_ok]
  rfl

theorem accepts_ok {g : Graph} (hg : g.WF) (w : List Bool) : ∃ b, g.accepts w = .ok b := by
  exact ⟨_, hg.accepts_eq w⟩

/-! ## The sequence -/

/-- What is known of a run command `c` that reads `S`, `B` and `C` and writes `R`: it does nothing unless it can read the ciphertexts and the
evaluation key, and on proper ciphertexts of `w` it writes (part of) a result that decrypts to the verdict on `w`. -/
structure RunGood (L : Lib N n l) (g : Graph) (specB : List Byte) (S B C R : String) (m : Nat) (c : Call) : Prop where
  reads : ∀ (fs : Files) r, Interrupted L fs c r → r = (fs, []) ∨
    ∃ kind p b, Fetch (l := l) (N := N) kind (fs C) (.ok p) ∧ readArchive L.loadBKey (fs B) = .ok b
  writes : ∀ (fs : Files) r q q' rand (w : List Bool), w.length ≤ m → Interrupted L fs c r → fs S = some specB →
    fs C = some ((encryptions (L.pair (L.newKey q) (L.newBKey q' (L.newKey q))) rand 0 w).flatMap saveGsw) →
    ((encryptions (L.pair (L.newKey q) (L.newBKey q' (L.newKey q))) rand 0 w).flatMap saveGsw).length < 2 ^ 63 →
    readArchive L.loadBKey (fs B) = .ok (L.newBKey q' (L.newKey q)) → r = (fs, []) ∨
    ∃ t p b, p <+: L.saveRes t ∧ r = (fs.set R p, []) ∧ g.accepts w = .ok b ∧ doDec (L.client (L.newKey q)) t = printResult b

theorem readArchive_ok {α : Type} {load : List Byte → Option α} {file : Option (List Byte)} {x : α} :
    readArchive load file = .ok x ↔ ∃ b, file = some b ∧ load b = some x := by
  unfold readArchive
  cases file with
  | none => simp
  | some b =>
    dsimp only
    cases h : load b <;> simp [h]

/-- an archive read from what is left of it is the whole archive -/
theorem archive_whole {α : Type} {save : α → List Byte} {load : List Byte → Option α} (h1 : ∀ x, load (save x) = some x)
    (h2 : ∀ x b, b <+: save x → b ≠ save x → load b = none) {x y : α} {b : List Byte} (hb : b <+: save x) (h : load b = some y) :
    y = x ∧ b = save x := by
  by_cases he : b = save x
  · subst he
    rw [h1] at h
    injection h with h
    exact ⟨h.symm, rfl⟩
  · rw [h2 x b hb he] at h; cases h

theorem prefix_printResult {o : List Char} {b : Bool} (h : o <+: printResult b) : o = [] ∨ o = printResult b := by
  cases b <;> simp only [printResult] at h ⊢ <;> cases o with
  | nil => exact .inl rfl
  | cons c o =>
    right
    obtain ⟨t, h⟩ := h
    simp_all

theorem bits_length {ap : Nat} {bytes : List Byte} {w : List Bool} (h : HoldsBits ap bytes w) : w.length ≤ 8 * bytes.length := by
  obtain ⟨rs, last, rfl, hrs, hlast, rfl⟩ := h
  have key : (rs.flatMap (recordBits ap)).length ≤ 8 * rs.flatten.length := by
    induction rs with
    | nil => simp
    | cons r rs ih =>
      have h1 := ih (fun r hr => hrs r (by simp [hr]))
      have h2 := hrs r (by simp)
      have h3 : (recordBits ap r).length ≤ 8 * r.length := by
        unfold recordBits
        rw [h2, List.length_map, List.length_range, recordBytes]
        omega
      simp only [List.flatMap_cons, List.flatten_cons, List.length_append]
      omega
  have h4 : (recordBits (8 * last.length) last).length = 8 * last.length := by simp [recordBits]
  simp only [List.length_append, h4]
  omega

/-- every file holds some bits -/
theorem holdsBits_exists {ap : Nat} (hap : 0 < ap) (bytes : List Byte) : ∃ w, HoldsBits ap bytes w := by
  have hr : 0 < recordBytes ap := by unfold recordBytes; omega
  have key : ∀ k (bytes : List Byte), bytes.length ≤ k → ∃ (rs : List (List Byte)) (last : List Byte), bytes = rs.flatten ++ last ∧
      (∀ r ∈ rs, r.length = recordBytes ap) ∧ last.length < recordBytes ap := by
    intro k
    induction k with
    | zero =>
      intro bytes h
      exact ⟨[], bytes, by simp, by simp, by omega⟩
    | succ k ih =>
      intro bytes h
      by_cases hs : bytes.length < recordBytes ap
      · exact ⟨[], bytes, by simp, by simp, hs⟩
      · obtain ⟨rs, last, h1, h2, h3⟩ := ih (bytes.drop (recordBytes ap)) (by rw [List.length_drop]; omega)
        refine ⟨bytes.take (recordBytes ap) :: rs, last, ?_, ?_, h3⟩
        · rw [List.flatten_cons, List.append_assoc, ← h1, List.take_append_drop]
        · intro r hr
          rcases List.mem_cons.1 hr with rfl | hr
          · rw [List.length_take]; omega
          · exact h2 r hr
  obtain ⟨rs, last, h1, h2, h3⟩ := key _ bytes le_rfl
  exact ⟨_, rs, last, h1, h2, h3, rfl⟩

theorem encryptions_client (k : L.Key) (b : L.BKey) (rand : Nat → Nat) : ∀ (w : List Bool) (i : Nat),
    encryptions (L.client k) rand i w = encryptions (L.pair k b) rand i w := by
  intro w
  induction w with
  | nil => intro i; rfl
  | cons x w ih => intro i; simp only [encryptions, ih]; rfl

/-- the call of a line that follows the manual -/
theorem main_of (c : Cmd) {w : List String} (hw : w ∈ c.names) {vals : List String} (hlen : vals.length = c.usage.required.length)
    (hnd : (c.usage.required.map (·.1)).Nodup) (ha : c.usage.requiredArgs = [])
    (hok : ∀ p ∈ c.usage.required.zip vals, p.1.2.Ok (fun _ => true) p.2) :
    homfaMain (fun _ => true) (w ++ line (optItems c.usage vals)) = .ok (some (c.call (optItems c.usage vals))) := by
  have := C58_runs (fun _ => true) [] (by simp) c w hw _ (follows_opts hlen hnd ha hok)
  rwa [List.nil_append] at this

theorem Word.anyFile {f : String} (h : Word f) : Kind.file.Ok (fun _ => true) f := ⟨fun h' => absurd h' h, rfl⟩

theorem main_genkey {K : String} (hK : Word K) : homfaMain (fun _ => true) ["genkey", "--out", K] = .ok (some (.genkey K)) := by
  refine main_of .genkey (w := ["genkey"]) (vals := [K]) (by simp [Cmd.names]) rfl (by decide) rfl fun p hp => ?_
  simp only [Cmd.usage, List.zip_cons_cons, List.zip_nil_right, List.mem_cons, List.not_mem_nil, or_false] at hp
  subst hp; exact hK.text _

theorem main_genbkey {K B : String} (hK : Word K) (hB : Word B) :
    homfaMain (fun _ => true) ["genbkey", "--key", K, "--out", B] = .ok (some (.genbkey K B)) := by
  refine main_of .genbkey (w := ["genbkey"]) (vals := [K, B]) (by simp [Cmd.names]) rfl (by decide) rfl fun p hp => ?_
  simp only [Cmd.usage, List.zip_cons_cons, List.zip_nil_right, List.mem_cons, List.not_mem_nil, or_false] at hp
  rcases hp with rfl | rfl
  · exact hK.anyFile
  · exact hB.text _

theorem main_enc {K I C : String} (hK : Word K) (hI : Word I) (hC : Word C) {ap : Nat} (h0 : 0 < ap) (h64 : ap < 2 ^ 64) :
    homfaMain (fun _ => true) ["enc", "--ap", toString ap, "--key", K, "--in", I, "--out", C] = .ok (some (.enc K I C ap)) := by
  have := main_of .enc (w := ["enc"]) (vals := [toString ap, K, I, C]) (by simp [Cmd.names]) rfl (by decide) rfl fun p hp => by
    simp only [Cmd.usage, List.zip_cons_cons, List.zip_nil_right, List.mem_cons, List.not_mem_nil, or_false] at hp
    rcases hp with rfl | rfl | rfl | rfl
    · exact positive_ok h0 h64 _
    · exact hK.anyFile
    · exact hI.anyFile
    · exact hC.text _
  rw [show Cmd.enc.call (optItems Cmd.enc.usage [toString ap, K, I, C]) = .enc K I C (Nat.ofDigitChars 10 (toString ap).toList 0) from rfl,
    ofDigits_toString] at this
  exact this

theorem main_dec {K R : String} (hK : Word K) (hR : Word R) :
    homfaMain (fun _ => true) ["dec", "--key", K, "--in", R] = .ok (some (.dec K R)) := by
  refine main_of .dec (w := ["dec"]) (vals := [K, R]) (by simp [Cmd.names]) rfl (by decide) rfl fun p hp => ?_
  simp only [Cmd.usage, List.zip_cons_cons, List.zip_nil_right, List.mem_cons, List.not_mem_nil, or_false] at hp
  rcases hp with rfl | rfl
  · exact hK.anyFile
  · exact hR.anyFile

theorem main_offline {B R S C : String} (hB : Word B) (hR : Word R) (hS : Word S) (hC : Word C) {boot : Nat} (h0 : 0 < boot)
    (h64 : boot < 2 ^ 64) : homfaMain (fun _ => true)
      ["run", "offline", "--bkey", B, "--out", R, "--spec", S, "--in", C, "--bootstrapping-freq", toString boot] =
      .ok (some (.runOffline S C R boot B false)) := by
  have := main_of .runOffline (w := ["run", "offline"]) (vals := [B, R, S, C, toString boot]) (by simp [Cmd.names]) rfl (by decide) rfl
    fun p hp => by
      simp only [Cmd.usage, List.zip_cons_cons, List.zip_nil_right, List.mem_cons, List.not_mem_nil, or_false] at hp
      rcases hp with rfl | rfl | rfl | rfl | rfl
      · exact hB.anyFile
      · exact hR.text _
      · exact hS.anyFile
      · exact hC.anyFile
      · exact positive_ok h0 h64 _
  rw [show Cmd.runOffline.call (optItems Cmd.runOffline.usage [B, R, S, C, toString boot]) =
    .runOffline S C R (Nat.ofDigitChars 10 (toString boot).toList 0) B false from rfl, ofDigits_toString] at this
  exact this

theorem main_reverse {B R S C : String} (hB : Word B) (hR : Word R) (hS : Word S) (hC : Word C) {freq boot : Nat} (hf0 : 0 < freq)
    (hf64 : freq < 2 ^ 64) (h0 : 0 < boot) (h64 : boot < 2 ^ 64) : homfaMain (fun _ => true)
      ["run", "reverse", "--bkey", B, "--out", R, "--spec", S, "--in", C, "--out-freq", toString freq,
        "--bootstrapping-freq", toString boot] = .ok (some (.runReverse S C (some R) none freq boot false B false)) := by
  have := main_of .runReverse (w := ["run", "reverse"]) (vals := [B, R, S, C, toString freq, toString boot]) (by simp [Cmd.names]) rfl
    (by decide) rfl fun p hp => by
      simp only [Cmd.usage, List.zip_cons_cons, List.zip_nil_right, List.mem_cons, List.not_mem_nil, or_false] at hp
      rcases hp with rfl | rfl | rfl | rfl | rfl | rfl
      · exact hB.anyFile
      · exact hR.text _
      · exact hS.anyFile
      · exact hC.anyFile
      · exact positive_ok hf0 hf64 _
      · exact positive_ok h0 h64 _
  rw [show Cmd.runReverse.call (optItems Cmd.runReverse.usage [B, R, S, C, toString freq, toString boot]) =
    .runReverse S C (some R) none (Nat.ofDigitChars 10 (toString freq).toList 0) (Nat.ofDigitChars 10 (toString boot).toList 0) false B
      false from rfl, ofDigits_toString, ofDigits_toString] at this
  exact this

theorem main_block {B R S C : String} (hB : Word B) (hR : Word R) (hS : Word S) (hC : Word C) {freq queue : Nat} (hf0 : 0 < freq)
    (hf64 : freq < 2 ^ 64) (h0 : 0 < queue) (h64 : queue < 2 ^ 64) : homfaMain (fun _ => true)
      ["run", "block", "--bkey", B, "--out", R, "--spec", S, "--in", C, "--out-freq", toString freq, "--queue-size", toString queue] =
      .ok (some (.runBlock S C R queue B false)) := by
  have := main_of .runBlock (w := ["run", "block"]) (vals := [B, R, S, C, toString freq, toString queue]) (by simp [Cmd.names]) rfl
    (by decide) rfl fun p hp => by
      simp only [Cmd.usage, List.zip_cons_cons, List.zip_nil_right, List.mem_cons, List.not_mem_nil, or_false] at hp
      rcases hp with rfl | rfl | rfl | rfl | rfl | rfl
      · exact hB.anyFile
      · exact hR.text _
      · exact hS.anyFile
      · exact hC.anyFile
      · exact positive_ok hf0 hf64 _
      · exact positive_ok h0 h64 _
  rw [show Cmd.runBlock.call (optItems Cmd.runBlock.usage [B, R, S, C, toString freq, toString queue]) =
    .runBlock S C R (Nat.ofDigitChars 10 (toString queue).toList 0) B false from rfl, ofDigits_toString] at this
  exact this

theorem main_flut {B R S C : String} (hB : Word B) (hR : Word R) (hS : Word S) (hC : Word C) {freq queue depth boot : Nat} (hf0 : 0 < freq)
    (hf64 : freq < 2 ^ 64) (hq0 : 0 < queue) (hq64 : queue < 2 ^ 64) (hd0 : 0 < depth) (hd64 : depth < 2 ^ 64) (h0 : 0 < boot)
    (h64 : boot < 2 ^ 64) : homfaMain (fun _ => true)
      ["run", "flut", "--bkey", B, "--out", R, "--spec", S, "--in", C, "--out-freq", toString freq,
        "--queue-size", toString queue, "--max-second-lut-depth", toString depth, "--bootstrapping-freq", toString boot] =
      .ok (some (.runFlut S C (some R) none freq queue boot B (some depth) none false)) := by
  have := main_of .runFlut (w := ["run", "flut"]) (vals := [B, R, S, C, toString freq, toString queue, toString depth, toString boot])
    (by simp [Cmd.names]) rfl (by decide) rfl fun p hp => by
      simp only [Cmd.usage, List.zip_cons_cons, List.zip_nil_right, List.mem_cons, List.not_mem_nil, or_false] at hp
      rcases hp with rfl | rfl | rfl | rfl | rfl | rfl | rfl | rfl
      · exact hB.anyFile
      · exact hR.text _
      · exact hS.anyFile
      · exact hC.anyFile
      · exact positive_ok hf0 hf64 _
      · exact positive_ok hq0 hq64 _
      · exact positive_ok hd0 hd64 _
      · exact positive_ok h0 h64 _
  rw [show Cmd.runFlut.call (optItems Cmd.runFlut.usage [B, R, S, C, toString freq, toString queue, toString depth, toString boot]) =
    .runFlut S C (some R) none (Nat.ofDigitChars 10 (toString freq).toList 0) (Nat.ofDigitChars 10 (toString queue).toList 0)
      (Nat.ofDigitChars 10 (toString boot).toList 0) B (some (Nat.ofDigitChars 10 (toString depth).toList 0)) none false from rfl,
    ofDigits_toString, ofDigits_toString, ofDigits_toString, ofDigits_toString] at this
  exact this

/-- The sequence genkey, genbkey, enc, run, dec, every one of which may be interrupted. -/
theorem crash_pipeline (hL : L.Sound δ Enc) (hT : L.RejectsTruncated) (hbs : 0 < blockSize l N) {S I K B C R : String}
    (hn : Names S I K B C R) (fs : Files) (hnew : ∀ f ∈ [K, B, C, R], fs f = none) {specB inB : List Byte} (hs : fs S = some specB)
    (hi : fs I = some inB) (hlen : 8 * inB.length * blockSize l N < 2 ^ 63) {ap : Nat} (hap : 0 < ap) (hap64 : ap < 2 ^ 64) {g : Graph}
    {w : List Bool} (hw : HoldsBits ap inB w) {X : List String} {cX : Call} (hX : homfaMain (fun _ => true) X = .ok (some cX))
    (hgood : RunGood L g specB S B C R w.length cX) {ends : List Bool} {fs' : Files} {o : List Char}
    (h : CrashScript L fs [["genkey", "--out", K], ["genbkey", "--key", K, "--out", B],
      ["enc", "--ap", toString ap, "--key", K, "--in", I, "--out", C], X, ["dec", "--key", K, "--in", R]] ends (fs', o)) :
    o = [] ∨ ∃ m b, g.accepts (w.take m) = .ok b ∧ o = printResult b ∧ (ends[2]? = some true → w.take m = w) := by
  obtain ⟨wS, wI, wK, wB, wC, wR⟩ : Word S ∧ Word I ∧ Word K ∧ Word B ∧ Word C ∧ Word R :=
    ⟨hn.words S (by simp), hn.words I (by simp), hn.words K (by simp), hn.words B (by simp), hn.words C (by simp), hn.words R (by simp)⟩
  have hd := hn.distinct
  simp only [List.nodup_cons, List.mem_cons, List.not_mem_nil, or_false, not_or] at hd
  obtain ⟨⟨dSI, dSK, dSB, dSC, dSR⟩, ⟨dIK, dIB, dIC, dIR⟩, ⟨dKB, dKC, dKR⟩, ⟨dBC, dBR⟩, dCR, -⟩ := hd
  generalize hr : (fs', o) = r at h
  cases h with
  | @next _ _ e1 fs1 o1 _ _ r1 h1 h =>
  cases h with
  | @next _ _ e2 fs2 o2 _ _ r2 h2 h =>
  cases h with
  | @next _ _ e3 fs3 o3 _ _ r3 h3 h =>
  cases h with
  | @next _ _ e4 fs4 o4 _ _ r4 h4 h =>
  cases h with
  | @next _ _ e5 fs5 o5 _ _ r5 h5 h =>
  cases h with
  | nil =>
  -- the key
  have i1 := attempt_interrupted (main_genkey wK) h1
  have g1 : o1 = [] ∧ (∀ f, f ≠ K → fs1 f = fs f) ∧ ∀ k, readArchive L.loadKey (fs1 K) = .ok k → ∃ q, k = L.newKey q := by
    generalize hr : (fs1, o1) = r at i1
    cases i1 with
    | early =>
      cases hr
      refine ⟨rfl, fun _ _ => rfl, fun k hk => ?_⟩
      rw [hnew K (by simp)] at hk; cases hk
    | genkey q hb =>
      cases hr
      refine ⟨rfl, fun f hf => Files.set_other _ _ hf, fun k hk => ?_⟩
      rw [Files.set_same] at hk
      obtain ⟨b', hb', hk⟩ := readArchive_ok.1 hk
      cases hb'
      exact ⟨q, (archive_whole hL.key hT.key hb hk).1⟩
    | converter hc => cases hc
  obtain ⟨rfl, f1, key1⟩ := g1
  -- the evaluation key
  have i2 := attempt_interrupted (main_genbkey wK wB) h2
  have g2 : o2 = [] ∧ (∀ f, f ≠ B → fs2 f = fs1 f) ∧ ∀ b, readArchive L.loadBKey (fs2 B) = .ok b →
      ∃ q q', readArchive L.loadKey (fs1 K) = .ok (L.newKey q) ∧ b = L.newBKey q' (L.newKey q) := by
    generalize hr : (fs2, o2) = r at i2
    cases i2 with
    | early =>
      cases hr
      refine ⟨rfl, fun _ _ => rfl, fun k hk => ?_⟩
      rw [f1 B (fun h => dKB h.symm), hnew B (by simp)] at hk; cases hk
    | genbkey q' hk hb =>
      cases hr
      refine ⟨rfl, fun f hf => Files.set_other _ _ hf, fun b hb' => ?_⟩
      rw [Files.set_same] at hb'
      obtain ⟨b', e, hb'⟩ := readArchive_ok.1 hb'
      cases e
      obtain ⟨q, rfl⟩ := key1 _ hk
      exact ⟨q, q', hk, (archive_whole hL.bkey hT.bkey hb hb').1⟩
    | converter hc => cases hc
  obtain ⟨rfl, f2, key2⟩ := g2
  -- the ciphertexts
  have i3 := attempt_interrupted (main_enc wK wI wC hap hap64) h3
  have hI2 : (fs2.set C []) I = some inB := by rw [Files.set_other _ _ dIC, f2 I dIB, f1 I dIK, hi]
  have g3 : o3 = [] ∧ (∀ f, f ≠ C → fs3 f = fs2 f) ∧ (fs3 C = none ∨ ∃ k rand p, readArchive L.loadKey (fs2 K) = .ok k ∧ fs3 C = some p ∧
      p <+: (encryptions (L.client k) rand 0 w).flatMap saveGsw ∧
      (e3 = true → p = (encryptions (L.client k) rand 0 w).flatMap saveGsw)) := by
    by_cases he : e3 = true
    · subst he
      cases h3 with
      | call c1 c2 =>
        have := call_of_runs (main_enc wK wI wC hap hap64) c1
        subst this
        generalize hr : (Except.ok (fs3, o3) : Res (Files × List Char)) = x at c2
        cases c2 with
        | enc rand =>
          obtain ⟨k, hk, hr⟩ := Res.bind_eq_ok.1 hr.symm
          obtain ⟨b, hb, hr⟩ := Res.bind_eq_ok.1 hr
          cases hr
          rw [hI2] at hb
          unfold doEnc at hb
          obtain ⟨s, hs', hb⟩ := Res.bind_eq_ok.1 hb
          cases hb
          unfold eachInputBit at hs'
          obtain ⟨y, hy, hs'⟩ := Res.bind_eq_ok.1 hs'
          cases hy
          obtain ⟨⟨rest, s'⟩, hs1, hs'⟩ := Res.bind_eq_ok.1 hs'
          obtain ⟨_, _, hs'⟩ := Res.bind_eq_ok.1 hs'
          cases hs'
          have := enc_written (m := s.1) (written := s.2) _ rand hap hw hs1
          refine ⟨rfl, fun f hf => by rw [Files.set_other _ _ hf, Files.set_other _ _ hf], .inr ⟨k, rand, s.2, hk, Files.set_same _ _ _, ?_,
            fun _ => this⟩⟩
          rw [this]
    · generalize hr : (fs3, o3) = r at i3
      cases i3 with
      | early =>
        cases hr
        refine ⟨rfl, fun _ _ => rfl, .inl ?_⟩
        rw [f2 C (fun h => dBC h.symm), f1 C (fun h => dKC h.symm), hnew C (by simp)]
      | enc rand hk hin hwr hp =>
        cases hr
        rw [hI2] at hin
        cases hin
        have := enc_written _ rand hap hw hwr
        subst this
        exact ⟨rfl, fun f hf => Files.set_other _ _ hf, .inr ⟨_, rand, _, hk, Files.set_same _ _ _, hp, fun h => absurd h he⟩⟩
      | encNoInput hk =>
        cases hr
        exact ⟨rfl, fun f hf => Files.set_other _ _ hf, .inr ⟨_, fun _ => 0, [], hk, Files.set_same _ _ _, List.nil_prefix,
          fun h => absurd h he⟩⟩
      | converter hc => cases hc
  obtain ⟨rfl, f3, key3⟩ := g3
  -- the result
  have i4 := attempt_interrupted hX h4
  have hR3 : fs3 R = none := by
    rw [f3 R (fun h => dCR h.symm), f2 R (fun h => dBR h.symm), f1 R (fun h => dKR h.symm), hnew R (by simp)]
  have g4 : o4 = [] ∧ fs4 K = fs1 K ∧ (fs4 R = none ∨ ∃ t p m b q, p <+: L.saveRes t ∧ fs4 R = some p ∧ g.accepts (w.take m) = .ok b ∧
      readArchive L.loadKey (fs1 K) = .ok (L.newKey q) ∧ doDec (L.client (L.newKey q)) t = printResult b ∧ (e3 = true → w.take m = w)) := by
    have hK3 : fs3 K = fs1 K := by rw [f3 K dKC, f2 K dKB]
    rcases hgood.reads _ _ i4 with e | ⟨kind, pc, b, hfe, hb⟩
    · cases e
      exact ⟨rfl, hK3, .inl hR3⟩
    rw [f3 B dBC] at hb
    obtain ⟨q, q', hq, rfl⟩ := key2 b hb
    rcases key3 with hc | ⟨k, rand, p, hk, hp, hpre, hfull⟩
    · rw [hc] at hfe
      obtain ⟨b, hb, -⟩ := fetch_whole hbs (by simp) hfe
      cases hb
    rw [f2 K dKB, hq] at hk
    cases hk
    have hmax : ((encryptions (L.client (L.newKey q)) rand 0 w).flatMap saveGsw).length < 2 ^ 63 := by
      rw [length_file, encryptions_length]
      calc _ ≤ 8 * inB.length * blockSize l N := Nat.mul_le_mul_right _ (bits_length hw)
        _ < _ := hlen
    have hplen := lt_of_le_of_lt hpre.length_le hmax
    rw [hp] at hfe
    obtain ⟨b', hb', hdvd⟩ := fetch_whole hbs (fun b hb => by cases hb; exact hplen) hfe
    cases hb'
    obtain ⟨m, hm, hpm⟩ := prefix_blocks hpre hdvd
    rw [← encryptions_take, encryptions_client _ (L.newBKey q' (L.newKey q))] at hpm
    have hm' : e3 = true → w.take m = w := by
      intro he
      have := congrArg List.length ((hfull he).symm.trans hpm)
      rw [length_file, length_file, encryptions_length, encryptions_length] at this
      have := Nat.eq_of_mul_eq_mul_right hbs this
      rw [List.length_take] at this
      exact List.take_of_length_le (by omega)
    rcases hgood.writes fs3 _ q q' rand (w.take m) (List.length_take_le' _ _) i4 (by rw [f3 S dSC, f2 S dSB, f1 S dSK, hs]) (by rw [hp, hpm]) (by rwa [← hpm])
      (by rw [f3 B dBC]; exact hb) with e | ⟨t, p', b, ht, e, hacc, hdec⟩
    · cases e
      exact ⟨rfl, hK3, .inl hR3⟩
    · cases e
      exact ⟨rfl, by rw [Files.set_other _ _ dKR]; exact hK3, .inr ⟨t, p', m, b, q, ht, Files.set_same _ _ _, hacc, hq, hdec, hm'⟩⟩
  obtain ⟨rfl, hK4, key4⟩ := g4
  -- the verdict
  have i5 := attempt_interrupted (main_dec wK wR) h5
  have hr := congrArg Prod.snd hr
  simp only [List.nil_append, List.append_nil] at hr
  subst hr
  generalize hr : (fs5, o) = r at i5
  cases i5 with
  | early => cases hr; exact .inl rfl
  | dec hk hc ho =>
    cases hr
    rw [hK4] at hk
    rcases key4 with e | ⟨t, p, m, b, q, ht, hp, hacc, hq, hdec, hm⟩
    · rw [e] at hc; cases hc
    · rw [hp] at hc
      obtain ⟨b', e, hc⟩ := readArchive_ok.1 hc
      cases e
      obtain ⟨rfl, -⟩ := archive_whole hL.res hT.res ht hc
      rw [hq] at hk
      cases hk
      rw [hdec] at ho
      rcases prefix_printResult ho with e | e
      · exact .inl e
      · refine .inr ⟨m, b, hacc, e, fun he => hm ?_⟩
        simpa using he
  | converter hc => cases hc

/-! ## The four run commands -/

theorem onlineLoop_none {ρ : Type} {evalOne : ρ → Gsw l N → Res ρ} {result : ρ → Res (TLWE N × ρ)} {freq : Nat} :
    ∀ (cs : List (Gsw l N)) (i : Nat) (r : ρ) {q}, onlineLoop evalOne result none freq cs i r = .ok q → q.1 = [] := by
  intro cs
  induction cs with
  | nil => intro i r q h; cases h; rfl
  | cons c cs ih =>
    intro i r q h
    obtain ⟨r1, _, h⟩ := Res.bind_eq_ok.1 h
    exact ih _ _ h

theorem good_offline (hL : L.Sound δ Enc) (hN : 0 < N) (hl : 0 < l) (hbs : blockSize l N < 2 ^ 63) {S B C R : String} {specB : List Byte}
    {g : Graph} (hg : Graph.fromIstream (textOf specB) = .ok g) (hg0 : 0 < g.size) {boot : Nat} (hb : 0 < boot)
    (hbud : δ.br + boot * δ.cmux + δ.ks + δ.ms < 2 ^ 30) {m : Nat} (h31 : m < 2 ^ 31) :
    RunGood L g specB S B C R m (.runOffline S C R boot B false) := by
  have hbs0 : 0 < blockSize l N := by unfold blockSize; positivity
  refine ⟨fun fs r h => ?_, fun fs r q q' rand w hm h h1 h2 h3 h4 => ?_⟩
  · cases h with
    | early => exact .inl rfl
    | runOffline hf hb' => exact .inr ⟨_, _, _, hf, hb'⟩
    | converter hc => cases hc
  · cases h with
    | early => exact .inl rfl
    | converter hc => cases hc
    | @runOffline _ _ _ _ _ _ pre cs b s c p hf hb' hsp hc hp =>
      right
      rw [h4] at hb'
      cases hb'
      rw [h1] at hsp
      cases hsp
      rw [h2] at hf
      obtain ⟨b, hacc⟩ := accepts_ok (wf_of_fromIstream hg hg0) w
      obtain ⟨file, e1, e2⟩ := C36_offline (hL.pair q q') hN hl hbs rand _ _ 1 (by omega) boot hb hbud _ (plain_bitByte hg hacc)
      rw [enc_bitByte] at e1
      cases e1
      obtain ⟨-, e3⟩ := e2 h3
      replace e3 := e3 (by
        rw [length_file, encryptions_length]
        exact Nat.mul_lt_mul_of_pos_right (by omega) hbs0)
      obtain ⟨-, f2⟩ := fetch_reversed hbs0 hbs h3
      obtain ⟨pre', hrd, e⟩ := f2 _ hf
      cases e
      obtain ⟨c', hc1, hc2⟩ := e3 _ _ hrd
      rw [← C60_offline (server_same (L.newKey q) _), hc] at hc1
      cases hc1
      exact ⟨c, p, b, hp, rfl, hacc, hc2⟩

theorem good_reverse (hL : L.Sound δ Enc) (hN : 0 < N) (hl : 0 < l) (hbs : blockSize l N < 2 ^ 63) {S B C R : String} {specB : List Byte}
    {g : Graph} (hg : Graph.fromIstream (textOf specB) = .ok g) (hg0 : 0 < g.size) {freq boot m : Nat} (hb : 0 < boot)
    (hbud : δ.br + boot * δ.cmux + δ.ks + δ.ms < 2 ^ 30) :
    RunGood L g specB S B C R m (.runReverse S C (some R) none freq boot false B false) := by
  have hbs0 : 0 < blockSize l N := by unfold blockSize; positivity
  refine ⟨fun fs r h => ?_, fun fs r q q' rand w hm h h1 h2 h3 h4 => ?_⟩
  · cases h with
    | early => exact .inl rfl
    | runReverseLoop hf hb' => exact .inr ⟨_, _, _, hf, hb'⟩
    | runReverse hf hb' => exact .inr ⟨_, _, _, hf, hb'⟩
    | converter hc => cases hc
  · cases h with
    | early => exact .inl rfl
    | converter hc => cases hc
    | runReverseLoop _ _ _ _ _ _ hq hrs =>
      rw [onlineLoop_none _ _ _ hq] at hrs
      simp at hrs
    | @runReverse _ _ _ _ _ _ _ _ _ pre cs b s rs f c p hf hb' hsp hc hp =>
      right
      rw [h4] at hb'
      cases hb'
      rw [h1] at hsp
      cases hsp
      rw [h2] at hf
      obtain ⟨b, hacc⟩ := accepts_ok (wf_of_fromIstream hg hg0) w
      obtain ⟨file, e1, e2⟩ := C37_reverse (hL.pair q q') hN hl hbs rand _ _ 1 (by omega) boot hb hbud _ (plain_bitByte hg hacc) R freq false
      rw [enc_bitByte] at e1
      cases e1
      obtain ⟨-, e3⟩ := e2 h3
      obtain ⟨-, f2⟩ := fetch_forward hbs0 hbs h3
      obtain ⟨pre', hrd, e⟩ := f2 _ hf
      cases e
      obtain ⟨c', hc1, hc2, -⟩ := e3 _ _ hrd
      rw [← C60_reverse (server_same (L.newKey q) _), hc] at hc1
      have hc1 := Except.ok.inj hc1
      rw [← List.nil_append [(OutFile.file R, c')], List.append_singleton_inj] at hc1
      obtain ⟨rfl, e⟩ := hc1
      cases e
      exact ⟨c, p, b, hp, rfl, hacc, hc2 rfl⟩

theorem good_block (hL : L.Sound δ Enc) (hN : 0 < N) (hl : 0 < l) (hbs : blockSize l N < 2 ^ 63) {S B C R : String} {specB : List Byte}
    {g : Graph} (hg : Graph.fromIstream (textOf specB) = .ok g) (hg0 : 0 < g.size) {queue W : Nat} (hq : 0 < queue)
    (hW : LiveBits g W) (hWN : W < N) (hW31 : W < 31)
    (hbud : (queue + W) * δ.cmux + δ.cb < 2 ^ 29) (hqi : queue ≤ 2 ^ 31) {m : Nat} : RunGood L g specB S B C R m (.runBlock S C R queue B false) := by
  have hbs0 : 0 < blockSize l N := by unfold blockSize; positivity
  refine ⟨fun fs r h => ?_, fun fs r q q' rand w hm h h1 h2 h3 h4 => ?_⟩
  · cases h with
    | early => exact .inl rfl
    | runBlock hf _ hb' => exact .inr ⟨_, _, _, hf, hb'⟩
    | converter hc => cases hc
  · cases h with
    | early => exact .inl rfl
    | converter hc => cases hc
    | @runBlock _ _ _ _ _ _ pre cs b s c p hf hsp hb' hc hp =>
      right
      rw [h4] at hb'
      cases hb'
      rw [h1] at hsp
      cases hsp
      rw [h2] at hf
      obtain ⟨b, hacc⟩ := accepts_ok (wf_of_fromIstream hg hg0) w
      obtain ⟨file, e1, e2⟩ := C38_block (hL.pair q q') hN hl hbs rand _ _ 1 (by omega) queue W
        (fun g' h' => by rw [hg] at h'; cases h'; exact hW) hWN hW31 (by rwa [Nat.max_eq_right hq]) hqi _ (plain_bitByte hg hacc)
      rw [enc_bitByte] at e1
      cases e1
      obtain ⟨-, e3⟩ := e2 h3
      obtain ⟨-, f2⟩ := fetch_forward hbs0 hbs h3
      obtain ⟨pre', hrd, e⟩ := f2 _ hf
      cases e
      obtain ⟨hc1, hc2⟩ := e3 _ _ hrd
      by_cases he : w = []
      · subst he
        rw [← C60_block (server_same (L.newKey q) _)] at hc2
        rw [hc2 rfl] at hc; cases hc
      · obtain ⟨c', hc1, hc2⟩ := hc1 (by cases w with
          | nil => exact absurd rfl he
          | cons b w => simp)
        rw [← C60_block (server_same (L.newKey q) _), hc] at hc1
        cases hc1
        exact ⟨c, p, b, hp, rfl, hacc, hc2⟩

theorem good_flut (hL : L.Sound δ Enc) (hN : 0 < N) (hl : 0 < l) (hbs : blockSize l N < 2 ^ 63) {S B C R : String} {specB : List Byte}
    {g : Graph} (hg : Graph.fromIstream (textOf specB) = .ok g) (hg0 : 0 < g.size) {freq queue depth boot W m : Nat} (hq : 0 < queue)
    (hq31 : queue < 31) (hd31 : depth < 31) (hdN : 2 ^ depth ≤ N) (hb : 0 < boot) (hW : LiveMax g W)
    (hbud : W * 2 ^ (queue / 2) * flutErr δ W queue (boot - 1) + queue * δ.cmux + δ.ks + δ.ms < 2 ^ 30) :
    RunGood L g specB S B C R m (.runFlut S C (some R) none freq queue boot B (some depth) none false) := by
  have hbs0 : 0 < blockSize l N := by unfold blockSize; positivity
  refine ⟨fun fs r h => ?_, fun fs r q q' rand w hm h h1 h2 h3 h4 => ?_⟩
  · cases h with
    | early => exact .inl rfl
    | runFlutLoop hf hb' => exact .inr ⟨_, _, _, hf, hb'⟩
    | runFlut hf _ hb' => exact .inr ⟨_, _, _, hf, hb'⟩
    | converter hc => cases hc
  · cases h with
    | early => exact .inl rfl
    | converter hc => cases hc
    | runFlutLoop _ _ _ _ _ _ hq hrs =>
      rw [onlineLoop_none _ _ _ hq] at hrs
      simp at hrs
    | @runFlut _ _ _ _ _ _ _ _ _ _ _ pre cs b s rs f c p hf hsp hb' hc hp =>
      right
      rw [h4] at hb'
      cases hb'
      rw [h1] at hsp
      cases hsp
      rw [h2] at hf
      obtain ⟨b, hacc⟩ := accepts_ok (wf_of_fromIstream hg hg0) w
      obtain ⟨file, e1, e2⟩ := C39_flut (hL.pair q q') hN hl hbs rand _ _ 1 (by omega) (some depth) queue boot W
        (fun g' h' => by rw [hg] at h'; cases h'; exact hW) hq hq31 hd31 hdN hb hbud _ (plain_bitByte hg hacc) R freq
      rw [enc_bitByte] at e1
      cases e1
      obtain ⟨-, e3⟩ := e2 h3
      obtain ⟨-, f2⟩ := fetch_forward hbs0 hbs h3
      obtain ⟨pre', hrd, e⟩ := f2 _ hf
      cases e
      obtain ⟨-, hc'⟩ := e3 _ _ hrd
      rw [← C60_flut (server_same (L.newKey q) _), hc] at hc'
      obtain ⟨c', hc1, hc2⟩ := hc'.resolve_left (by simp)
      have hc1 := Except.ok.inj hc1
      rw [← List.nil_append [(OutFile.file R, c')], List.append_singleton_inj] at hc1
      obtain ⟨rfl, e⟩ := hc1
      cases e
      exact ⟨c, p, b, hp, rfl, hacc, hc2⟩

end Homfa.Cli
