import Verif.Props.Parallel

/-!
# C96: two inputs encrypted into one file at the same time

Both commands end normally, and the file may hold a mixture: the ciphertexts of an input that nobody has encrypted.
-/

namespace Homfa.Cli

variable {N n l : Nat} {L : Lib N n l} {δ : Noise} {Enc : L.Key → Gsw l N → Bool → Prop}

theorem enc_length {ap : Nat} (hap : 0 < ap) {a b : List Byte} (ha : Whole ap a) (hb : Whole ap b) (hab : a.length = b.length) {P : Scheme N n l}
    {r1 r2 : Nat → Nat} {f1 f2 : List Byte} (h1 : doEnc P r1 (some a) ap = .ok f1) (h2 : doEnc P r2 (some b) ap = .ok f2) : f1.length = f2.length := by
  obtain ⟨ra, rfl, ka⟩ := ha
  obtain ⟨rb, rfl, kb⟩ := hb
  rw [enc_eq P _ hap ka] at h1
  rw [enc_eq P _ hap kb] at h2
  cases h1
  cases h2
  have hlen : ∀ (r : Nat → Nat) (rs : List (List Byte)), (∀ x ∈ rs, x.length = recordBytes ap) →
      ((encryptions P r 0 (rs.flatMap (recordBits ap))).flatMap saveGsw).length = rs.length * (ap * blockSize l N) := by
    intro r rs hrs
    have h1 : (rs.flatMap (recordBits ap)).length = rs.length * ap := by
      induction rs with
      | nil => simp
      | cons x xs ih =>
        rw [List.flatMap_cons, List.length_append, ih fun y hy => hrs y (by simp [hy]), List.length_cons, Nat.succ_mul, Nat.add_comm]
        congr 1
        simp [recordBits]
    have h2 : ∀ cs : List (Gsw l N), (cs.flatMap saveGsw).length = cs.length * blockSize l N := by
      intro cs
      simp only [List.length_flatMap, length_saveGsw, List.map_const', List.sum_replicate_nat]
    rw [h2, encryptions_length, h1, Nat.mul_assoc]
  have hcount : ∀ rs : List (List Byte), (∀ x ∈ rs, x.length = recordBytes ap) → rs.flatten.length = rs.length * recordBytes ap := by
    intro rs hrs
    induction rs with
    | nil => simp
    | cons x xs ih =>
      rw [List.flatten_cons, List.length_append, ih fun y hy => hrs y (by simp [hy]), List.length_cons, Nat.succ_mul, Nat.add_comm, hrs x (by simp)]
  have hpos : 0 < recordBytes ap := by unfold recordBytes; omega
  rw [hcount ra ka, hcount rb kb] at hab
  rw [hlen r1 ra ka, hlen r2 rb kb, Nat.eq_of_mul_eq_mul_right hpos hab]

/-- Two processes take turns: the first part of one, the first part of the other, then the second parts. -/
theorem parallel_alternate {fs fs1 fs2 fs3 fs4 : Files} {a a' b b' : List Act} (h1 : Replay fs a fs1) (h2 : Replay fs1 b fs2) (h3 : Replay fs2 a' fs3)
    (h4 : Replay fs3 b' fs4) : Parallel fs [a ++ a', b ++ b'] fs4 := by
  induction h1 with
  | cons hd _ ih => exact .step (i := 0) rfl hd (ih h2)
  | nil =>
    rw [List.nil_append]
    induction h2 with
    | cons hd _ ih => exact .step (i := 1) rfl hd (ih h3)
    | nil =>
      rw [List.nil_append]
      induction h3 with
      | cons hd _ ih => exact .step (i := 0) rfl hd (ih h4)
      | nil =>
        induction h4 with
        | cons hd _ ih => exact .step (i := 1) rfl hd ih
        | nil => exact .done (by simp)

/-- the line of `enc` -/
theorem enc_line {fs : Files} {K I C : String} (wK : Word K) (wI : Word I) (wC : Word C) {kb ib : List Byte} (hk : fs K = some kb) (hi : fs I = some ib)
    {ap : Nat} (h0 : 0 < ap) (h64 : ap < 2 ^ 64) :
    homfaMain (fun f => (fs f).isSome) ["enc", "--ap", toString ap, "--key", K, "--in", I, "--out", C] = .ok (some (.enc K I C ap)) := by
  have hf : Cmd.enc.usage.Follows (fun f => (fs f).isSome) (optItems Cmd.enc.usage [toString ap, K, I, C]) := by
    refine follows_opts rfl (by decide) rfl fun p hp => ?_
    simp only [Cmd.usage, List.zip_cons_cons, List.zip_nil_right, List.mem_cons, List.not_mem_nil, or_false] at hp
    rcases hp with rfl | rfl | rfl | rfl
    · exact positive_ok h0 h64 _
    · exact wK.file hk
    · exact wI.file hi
    · exact wC.text _
  have := C58_runs (fun f => (fs f).isSome) [] (by simp) .enc ["enc"] (by simp [Cmd.names]) _ hf
  rw [show Cmd.enc.call (optItems Cmd.enc.usage [toString ap, K, I, C]) = .enc K I C (Nat.ofDigitChars 10 (toString ap).toList 0) from rfl,
    ofDigits_toString] at this
  exact this

/-- What `enc` does until it begins to write, and the command as a whole when it writes two pieces. -/
theorem enc_acts (hL : L.Sound δ Enc) {fs : Files} {K I C : String} (wK : Word K) (wI : Word I) (wC : Word C) (cI : C ≠ I) {k : L.Key}
    {ib : List Byte} (hk : fs K = some (L.saveKey k)) (hi : fs I = some ib) {ap : Nat} (h0 : 0 < ap) (h64 : ap < 2 ^ 64) {rand : Nat → Nat} {b1 b2 : List Byte}
    (he : doEnc (L.client k) rand (some ib) ap = .ok (b1 ++ b2)) :
    ∃ as, Replay fs as (fs.set C []) ∧ Runs L [] ["enc", "--ap", toString ap, "--key", K, "--in", I, "--out", C] (as ++ [.put C 0 b1, .put C b1.length b2]) (.ok []) := by
  obtain ⟨a, ha, ra⟩ := readAll_exists fs [K]
  obtain ⟨as, has, ras⟩ := readAll_exists (fs.set C []) [I]
  have hk' : readArchive L.loadKey (fs K) = .ok k := by
    rw [hk]
    unfold readArchive
    dsimp only
    rw [hL.key]
  have d := Does.enc (L := L) (stdin := []) (cs := [b1, b2]) (out := C) (ap := ap) rand ha hk' has (mixed_append _ _) (fun _ => rfl)
    (by rw [Files.set_other _ _ (Ne.symm cI), hi]; exact he) (by simp)
  have look : Replay fs (["enc", "--ap", toString ap, "--key", K, "--in", I, "--out", C].map fun f => .see f (fs f).isSome) fs := by
    refine .of_reads fun a ha => ?_
    obtain ⟨f, _, rfl⟩ := List.mem_map.1 ha
    exact .see
  refine ⟨_, look.append (ra.append (.cons .empty ras)), ?_⟩
  have := Runs.call (enc_line wK wI wC hk hi h0 h64) d
  refine cast ?_ this
  simp [puts]

/-- writing over the middle of a file -/
theorem overwrite_middle (u m t m' t' : List Byte) (hm : m.length = m'.length) (ht : t = [] ∨ t' = []) :
    overwrite (u ++ (m ++ t)) u.length (m' ++ t') = u ++ (m' ++ (t ++ t')) := by
  unfold overwrite
  rw [List.take_left, show u.length - (u ++ (m ++ t)).length = 0 by simp, List.replicate_zero, List.append_nil, ← List.append_assoc u m t,
    List.append_assoc, List.append_assoc]
  rcases ht with rfl | rfl
  · rw [List.append_nil, List.drop_eq_nil_of_le (by simp; omega), List.append_nil, List.nil_append]
  · rw [List.append_nil, List.append_nil, List.drop_left' (by simp; omega)]
    rfl

/-- **C96, the condition is needed.**  After any history two inputs `u1 m1 t1` and `u2 m2 t2`, of which parts with equal numbers have equal
lengths (the longer one has a third part), are encrypted into the same file at the same time.  Both commands may end normally and leave what
everything that follows takes for the ciphertexts of `u1 m2` and the third part. -/
theorem C96_shared_output (hL : L.Sound δ Enc) (hN : 0 < N) (hl : 0 < l) (hbs : blockSize l N < 2 ^ 63) {fs0 fs : Files} {cmds : List ShellCmd} {w : World}
    {out0 : List Char} (hist : History L δ (World.start fs0) cmds w out0) (hs : Session L fs0 cmds (.ok (fs, out0))) {K I1 I2 C : String}
    (wK : Word K) (w1 : Word I1) (w2 : Word I2) (wC : Word C) (hC : C ∉ [K, I1, I2]) {i ap : Nat} {u1 m1 t1 u2 m2 t2 : List Byte}
    (hK : w.holds K = .key i) (hI1 : w.holds I1 = .bytes (u1 ++ (m1 ++ t1))) (hI2 : w.holds I2 = .bytes (u2 ++ (m2 ++ t2)))
    (h0 : 0 < ap) (h64 : ap < 2 ^ 64) (hu : u1.length = u2.length) (hm : m1.length = m2.length) (ht : t1 = [] ∨ t2 = [])
    (hr : ∀ p ∈ [u1, m1, t1, t2], recordBytes ap ∣ p.length) {rest : List ShellCmd} {w' : World} {out : List Char}
    (hrest : History L δ (w.set C (.ctxts i ap (u1 ++ (m2 ++ (t1 ++ t2))))) rest w' out) :
    ∃ fs', Schedule L fs (.par [["enc", "--ap", toString ap, "--key", K, "--in", I1, "--out", C], ["enc", "--ap", toString ap, "--key", K, "--in", I2, "--out", C]] ::
      rest.map .one) (.ok (fs', out)) := by
  simp only [List.mem_cons, List.not_mem_nil, or_false, not_or] at hC
  obtain ⟨cK, c1, c2⟩ := hC
  obtain ⟨fs', e, hfit⟩ := (history_session hL hN hl hbs hist (World.start_fits fs0)).2 _ hs
  cases e
  obtain ⟨q, hq⟩ := hfit
  have wu1 := whole_of_dvd h0 (hr u1 (by simp))
  have wm1 := whole_of_dvd h0 (hr m1 (by simp))
  have wt1 := whole_of_dvd h0 (hr t1 (by simp))
  have wt2 := whole_of_dvd h0 (hr t2 (by simp))
  have wu2 : Whole ap u2 := whole_of_dvd h0 (hu ▸ hr u1 (by simp))
  have wm2 : Whole ap m2 := whole_of_dvd h0 (hm ▸ hr m1 (by simp))
  have hk := hq K
  rw [hK] at hk
  have hi1 := hq I1
  rw [hI1] at hi1
  have hi2 := hq I2
  rw [hI2] at hi2
  obtain ⟨bu1, eu1⟩ := wu1.enc h0 (L.client (L.newKey (q i))) fun _ => 0
  obtain ⟨bm1, em1⟩ := wm1.enc h0 (L.client (L.newKey (q i))) fun _ => 0
  obtain ⟨bt1, et1⟩ := wt1.enc h0 (L.client (L.newKey (q i))) fun _ => 0
  obtain ⟨bu2, eu2⟩ := wu2.enc h0 (L.client (L.newKey (q i))) fun _ => 0
  obtain ⟨bm2, em2⟩ := wm2.enc h0 (L.client (L.newKey (q i))) fun _ => 0
  obtain ⟨bt2, et2⟩ := wt2.enc h0 (L.client (L.newKey (q i))) fun _ => 0
  have lu := enc_length h0 wu1 wu2 hu eu1 eu2
  have lm := enc_length h0 wm1 wm2 hm em1 em2
  have lt : bt1 = [] ∨ bt2 = [] := by
    have hnil : ∀ {r : Nat → Nat} {b : List Byte}, doEnc (L.client (L.newKey (q i))) r (some []) ap = .ok b → b = [] := by
      intro r b h
      have := enc_eq (L.client (L.newKey (q i))) r h0 (rs := []) (by simp)
      rw [List.flatten_nil] at this
      rw [h] at this
      cases this
      rfl
    rcases ht with rfl | rfl
    · exact .inl (hnil et1)
    · exact .inr (hnil et2)
  obtain ⟨_, e1⟩ := enc_append h0 wm1 wt1 em1 et1
  obtain ⟨ra1, e1⟩ := enc_append h0 wu1 (wm1.append wt1) eu1 e1
  obtain ⟨_, e2⟩ := enc_append h0 wm2 wt2 em2 et2
  obtain ⟨ra2, e2⟩ := enc_append h0 wu2 (wm2.append wt2) eu2 e2
  obtain ⟨_, e3⟩ := enc_append h0 wt1 wt2 et1 et2
  obtain ⟨_, e3⟩ := enc_append h0 wm2 (wt1.append wt2) em2 e3
  obtain ⟨ra3, e3⟩ := enc_append h0 wu1 (wm2.append (wt1.append wt2)) eu1 e3
  have hfit1 : (w.set C (.ctxts i ap (u1 ++ (m2 ++ (t1 ++ t2))))).Fits L (fs.set C (bu1 ++ (bm2 ++ (bt1 ++ bt2)))) :=
    ⟨q, fits_set hq C ⟨hk.1, h0, h64, wu1.append (wm2.append (wt1.append wt2)), _, _, rfl, e3⟩⟩
  obtain ⟨⟨r, hrun⟩, hall⟩ := history_session hL hN hl hbs hrest hfit1
  obtain ⟨fs1, rfl, _⟩ := hall r hrun
  obtain ⟨as, ra, hp⟩ := enc_acts hL wK w1 wC c1 hk.2 hi1 h0 h64 e1
  obtain ⟨bs, rb, hq'⟩ := enc_acts hL (fs := fs.set C []) wK w2 wC c2 (by rw [Files.set_other _ _ (Ne.symm cK)]; exact hk.2)
    (by rw [Files.set_other _ _ (Ne.symm c2)]; exact hi2) h0 h64 e2
  rw [Files.set_set] at rb
  have put : ∀ (y c : List Byte) (p : Nat), Replay (fs.set C y) [.put C p c] (fs.set C (overwrite y p c)) := by
    intro y c p
    have := Act.Done.put (fs := fs.set C y) (f := C) (p := p) (c := c)
    rw [Files.set_same, Option.getD_some, Files.set_set] at this
    exact .cons this .nil
  have p1 : overwrite [] 0 bu2 = bu2 := overwrite_end [] bu2
  have p2 : overwrite bu2 0 bu1 = bu1 := by
    have := overwrite_middle [] bu2 [] bu1 [] lu.symm (.inl rfl)
    simpa using this
  have p3 : overwrite bu1 bu1.length (bm1 ++ bt1) = bu1 ++ (bm1 ++ bt1) := overwrite_end _ _
  have p4 : overwrite (bu1 ++ (bm1 ++ bt1)) bu2.length (bm2 ++ bt2) = bu1 ++ (bm2 ++ (bt1 ++ bt2)) := by
    rw [← lu]
    exact overwrite_middle _ _ _ _ _ lm lt
  have r1 := put [] bu2 0
  have r2 := put bu2 bu1 0
  have r3 := put bu1 (bm1 ++ bt1) bu1.length
  have r4 := put (bu1 ++ (bm1 ++ bt1)) (bm2 ++ bt2) bu2.length
  rw [p1] at r1
  rw [p2] at r2
  rw [p3] at r3
  rw [p4] at r4
  have hpar := parallel_alternate ra (rb.append r1) (r2.append r3) r4
  rw [List.append_assoc] at hpar
  have ht' : Together L fs [⟨["enc", "--ap", toString ap, "--key", K, "--in", I1, "--out", C], as ++ [.put C 0 bu1, .put C bu1.length (bm1 ++ bt1)], .ok []⟩,
      ⟨["enc", "--ap", toString ap, "--key", K, "--in", I2, "--out", C], bs ++ [.put C 0 bu2, .put C bu2.length (bm2 ++ bt2)], .ok []⟩]
      (fs.set C (bu1 ++ (bm2 ++ (bt1 ++ bt2)))) := by
    refine ⟨fun p h => ?_, hpar⟩
    rcases List.mem_cons.1 h with rfl | h
    · exact hp
    · rw [List.mem_singleton.1 h]
      exact hq'
  have hsch : Schedule L _ (rest.map .one) (.ok (fs1, out)) := schedule_of_session (jobs := rest.map .one) (by
    have : (rest.map Job.one).flatMap Job.cmds = rest := by
      rw [List.flatMap_map]
      simp [Job.cmds]
    rw [this]
    exact hrun)
  have := Schedule.par ht' (o1 := []) rfl hsch
  exact ⟨fs1, this⟩

/-! ## The hypotheses are met -/

/-- an even number of ones -/
def evenSpec : List Byte := ">0* 0 1\n1 1 0\n".toList.map fun c => BitVec.ofNat 8 c.toNat

/-- Both inputs have an even number of ones; the mixture has an odd number, and this is what the later verdict says. -/
example : ∃ (L : Lib 16 2 1) (fs fs' : Files), fs "i" = some [1#8, 1#8] ∧ fs "j" = some [0#8, 0#8, 0#8] ∧ fs "s" = some evenSpec ∧
    PlainPrints L evenSpec [1#8, 1#8] 5 ['1'] ∧ PlainPrints L evenSpec [0#8, 0#8, 0#8] 5 ['1'] ∧
    Schedule L fs [.par [["enc", "--ap", toString 5, "--key", "k", "--in", "i", "--out", "c"], ["enc", "--ap", toString 5, "--key", "k", "--in", "j", "--out", "c"]],
      .one (.homfa ["run", "offline", "--bkey", "b", "--out", "r", "--spec", "s", "--in", "c", "--bootstrapping-freq", toString 50]),
      .one (.homfa ["dec", "--key", "k", "--in", "r"])] (.ok (fs', ['0'])) := by
  obtain ⟨φ, hφ⟩ := exists_numbering 16
  have hL := toyLib_sound (n := 2) (l := 1) (by omega) (by omega) hφ
  have w : ∀ f ∈ ["k", "b", "s", "i", "j", "c", "r"], Word f := by
    intro f hf
    simp only [List.mem_cons, List.not_mem_nil, or_false] at hf
    rcases hf with rfl | rfl | rfl | rfl | rfl | rfl | rfl <;> simp [Word]
  have hist : History (toyLib 16 2 1 φ) toyNoise (World.start exPieceFiles) [.homfa ["genkey", "--out", "k"], .homfa ["genbkey", "--key", "k", "--out", "b"],
      .write "i" [1#8, 1#8], .write "j" [0#8, 0#8, 0#8], .write "s" evenSpec] _ [] :=
    .cons (o := []) (.genkey (w "k" (by decide))) <| .cons (o := []) (.genbkey (w "k" (by decide)) (w "b" (by decide)) rfl) <| .cons (o := []) .write <|
      .cons (o := []) .write <| .cons (o := []) .write .nil
  obtain ⟨⟨r, hr⟩, hall⟩ := history_session hL (by omega) (by omega) (by decide) hist (World.start_fits exPieceFiles)
  obtain ⟨fs, rfl, hfit⟩ := hall r hr
  have hp : ∀ {u : List Byte} {v : List Char}, doRunPlain (textOf evenSpec) (some u) 5 = .ok v → PlainPrints (toyLib 16 2 1 φ) evenSpec u 5 v :=
    fun h => (plainPrints_iff (by omega) (by omega)).2 h
  obtain ⟨fs', h1⟩ := C96_shared_output hL (by omega) (by omega) (by decide) hist hr (K := "k") (I1 := "i") (I2 := "j") (C := "c")
    (w _ (by decide)) (w _ (by decide)) (w _ (by decide)) (w _ (by decide)) (by decide) (ap := 5)
    (u1 := [1#8]) (m1 := [1#8]) (t1 := []) (u2 := [0#8]) (m2 := [0#8]) (t2 := [0#8]) rfl rfl rfl (by omega) (by omega) rfl rfl (.inl rfl) (by decide)
    (.cons (o := []) (.run (out := ['0']) (w "b" (by decide)) (w "s" (by decide)) (w "c" (by decide)) (w "r" (by decide)) rfl rfl rfl (by decide)
      (.offline (boot := 50) (by omega) (by omega) (by decide) (by decide)) (hp (by decide +kernel))) <|
      .cons (o := ['0']) (.dec (w "k" (by decide)) (w "r" (by decide)) rfl rfl) .nil)
  exact ⟨toyLib 16 2 1 φ, fs, fs', hfit.known.1 "i" _ rfl, hfit.known.1 "j" _ rfl, hfit.known.1 "s" _ rfl, hp (by decide +kernel), hp (by decide +kernel), h1⟩

end Homfa.Cli
