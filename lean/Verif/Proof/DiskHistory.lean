import Verif.Spec.DiskHistory
import Verif.Proof.Outage
import Verif.Proof.Fault

/-! # Histories on a disk that may fail -/

namespace Homfa.Cli

variable {N n l : Nat} {L : Lib N n l} {δ : Noise} {Enc : L.Key → Gsw l N → Bool → Prop} {cap : Nat}

/-- contents whose end may be missing -/
def Content.Soft : Content → Prop
  | .key _ | .bkey _ | .ctxts .. | .result .. => True
  | _ => False

/-- all files hold what the account says, but the ends of keys, ciphertexts and results may be missing -/
def World.FitsCut (L : Lib N n l) (cap : Nat) (w : World) (fs : Files) : Prop :=
  ∃ q fs0, (∀ f, HoldsAs L q w.keys (fs0 f) (w.holds f)) ∧ Cut cap (fun f => (w.holds f).Soft) fs0 fs

theorem World.FitsCut.known {w : World} {fs : Files} (h : w.FitsCut L cap fs) : w.Known fs := by
  obtain ⟨q, fs0, h, hc⟩ := h
  refine ⟨fun f b hb => ?_, fun f hf => ?_⟩
  · have := h f
    rw [hb] at this
    rcases hc f with e | ⟨e, -⟩
    · rw [e]; exact this
    · rw [hb] at e; exact e.elim
  · have := h f
    rw [hf] at this
    rcases hc f with e | ⟨e, -⟩
    · rw [e]; exact this
    · rw [hf] at e; exact e.elim

theorem World.Fits.cut {w : World} {fs : Files} (h : w.Fits L fs) : w.FitsCut L cap fs := by
  obtain ⟨q, h⟩ := h
  exact ⟨q, fs, h, .refl _⟩

/-- the account of the files that are whole -/
def World.intact (w : World) (fs0 fs : Files) : World := ⟨fun f => if fs f = fs0 f then w.holds f else .other, w.keys⟩

theorem World.intact_holds {w : World} {fs0 fs : Files} {f : String} (h : fs f = fs0 f) : (w.intact fs0 fs).holds f = w.holds f := if_pos h

theorem World.intact_fits {w : World} {fs0 fs : Files} {q : Nat → Nat} (h : ∀ f, HoldsAs L q w.keys (fs0 f) (w.holds f)) (f : String) :
    HoldsAs L q (w.intact fs0 fs).keys (fs f) ((w.intact fs0 fs).holds f) := by
  show HoldsAs L q w.keys (fs f) (if fs f = fs0 f then w.holds f else .other)
  split
  · rename_i e; rw [e]; exact h f
  · trivial

theorem cut_hard {w : World} {fs0 fs : Files} (h : Cut cap (fun f => (w.holds f).Soft) fs0 fs) {f : String} {b : List Byte}
    (hf : w.holds f = .bytes b) : fs f = fs0 f := by
  rcases h f with e | ⟨e, -⟩
  · exact e
  · rw [hf] at e; exact e.elim

/-- a command that makes one file -/
theorem make_step (hL : L.Sound δ Enc) (hN : 0 < N) (hl : 0 < l) (hbs : blockSize l N < 2 ^ 63) {w : World} {fs0 fs fs' : Files} {q : Nat → Nat}
    (hq : ∀ f, HoldsAs L q w.keys (fs0 f) (w.holds f)) (hcut : Cut cap (fun f => (w.holds f).Soft) fs0 fs) {args : List String} {o : List Char}
    (h : RunFaulty L cap [] fs args (.ok (fs', o))) {c : Call} (hc : homfaMain (fun _ => true) args = .ok (some c)) {R : String}
    (hW : ∀ f, c.Writes f → f = R) (hsil : c.silent = true) {x : Content} (hx : x.Soft) {k : Nat} (hk : w.keys ≤ k)
    (hs : Step L δ (w.intact fs0 fs) (.homfa args) { (w.intact fs0 fs).set R x with keys := k } []) :
    o <+: [] ∧ World.FitsCut L cap { w.set R x with keys := k } fs' := by
  obtain ⟨fs1, o1, h1, -, -, h2, h3, h4⟩ := run_of_faulty hc h
  obtain ⟨fs2, e, q', hq', hf⟩ := (step_homfa_as hL hN hl hbs hs rfl (World.intact_fits hq)).2 _ h1
  obtain ⟨rfl, rfl⟩ := Prod.mk.inj (Except.ok.inj e)
  rw [h4 hsil]
  refine ⟨List.nil_prefix, q', fun f => if f = R then fs1 f else fs0 f, fun f => ?_, fun f => ?_⟩
  · show HoldsAs L q' k (if f = R then fs1 f else fs0 f) (if f = R then x else w.holds f)
    by_cases e : f = R
    · rw [if_pos e, if_pos e]
      have := hf f
      rwa [show ({ (w.intact fs0 fs).set R x with keys := k } : World).holds f = x from if_pos e] at this
    · rw [if_neg e, if_neg e]
      exact (hq f).mono hk hq'
  · show fs' f = (if f = R then fs1 f else fs0 f) ∨ (if f = R then x else w.holds f).Soft ∧ _
    by_cases e : f = R
    · simp only [if_pos e]
      rcases h2 f with e | ⟨-, e⟩
      · exact .inl e
      · exact .inr ⟨hx, e⟩
    · simp only [if_neg e]
      rw [h3 f fun h => e (hW f h)]
      exact hcut f

theorem runLine_call {S B C R : String} (wB : Word B) (wS : Word S) (wC : Word C) (wR : Word R) {s b : List Byte} {ap : Nat} {X : List String}
    (h : RunLine N l δ s b ap B S C R X) : ∃ c, homfaMain (fun _ => true) X = .ok (some c) ∧ (∀ f, c.Writes f → f = R) ∧ c.silent = true ∧
      RunReads L B C c := by
  cases h with
  | offline h1 h2 => exact ⟨_, main_offline wB wR wS wC h1 h2, fun _ h => h, rfl, reads_offline⟩
  | reverse h1 h2 h3 h4 => exact ⟨_, main_reverse wB wR wS wC h1 h2 h3 h4, fun _ h => by simpa [Call.Writes, eq_comm] using h, rfl, reads_reverse⟩
  | block _ h1 h2 h3 h4 => exact ⟨_, main_block wB wR wS wC h1 h2 h3 (by omega), fun _ h => h, rfl, reads_block⟩
  | flut h1 h2 h3 h4 h5 h6 _ h7 h8 =>
    exact ⟨_, main_flut wB wR wS wC h1 h2 h3 (by omega) h5 (by omega) h7 h8, fun _ h => by simpa [Call.Writes, eq_comm] using h, rfl, reads_flut⟩

theorem faulty_known {fs fs' : Files} {args : List String} {o o' : List Char} (ho : outWords args = [])
    (h : ∀ r, RunHomfa L [] fs args r ↔ r = .ok (fs, o)) (hr : RunFaulty L cap [] fs args (.ok (fs', o'))) : fs' = fs ∧ o' <+: o := by
  cases hr with
  | call h1 h2 =>
    obtain ⟨fs1, o1, h3, h4, h5⟩ := exec_of_faulty h2
    have e := (h _).1 (.call h1 h3)
    obtain ⟨rfl, rfl⟩ := Prod.mk.inj (Except.ok.inj e)
    refine ⟨?_, h4⟩
    funext f
    rcases h5 f with e | ⟨e, -⟩
    · exact e
    · exfalso
      obtain ⟨general, c, w, items, _, _, rfl, hfol, rfl⟩ := C58_only _ _ _ h1
      by_cases hw : c.writesFile = true
      · obtain ⟨v, hv⟩ : ∃ v, Item.opt "--out" v ∈ items := by
          cases c <;> first | (cases hw; done) | exact hfol.all "--out" .text (by simp [Cmd.usage])
        have := mem_outWords_line (pre := general ++ w) hv
        rw [ho] at this
        cases this
      · exact c.call_writes items f (.inr (by simpa using hw)) e

theorem disk_step (hL : L.Sound δ Enc) (hT : L.RejectsTruncated) (hN : 0 < N) (hl : 0 < l) (hbs : blockSize l N < 2 ^ 63) (hcap : cap < blockSize l N)
    {w w' : World} {c : ShellCmd} {out : List Char} (hs : DiskStep L δ w c w' out) {args : List String} (hc : c = .homfa args) {fs fs' : Files}
    (hf : w.FitsCut L cap fs) {o : List Char} (h : RunFaulty L cap [] fs args (.ok (fs', o))) : o <+: out ∧ w'.FitsCut L cap fs' := by
  have hknown := hf.known
  have hf0 := hf
  obtain ⟨q, fs0, hq, hcut⟩ := hf
  cases hs with
  | copy => cases hc
  | remove => cases hc
  | write => cases hc
  | known h1 h2 =>
    obtain rfl := ShellCmd.homfa.inj hc
    obtain ⟨rfl, h3⟩ := faulty_known h1 (h2 fs hknown) h
    exact ⟨h3, hf0⟩
  | @genkey K wK =>
    obtain rfl := ShellCmd.homfa.inj hc
    exact make_step hL hN hl hbs hq hcut h (main_genkey wK) (fun _ h => h) rfl (x := .key _) trivial (by omega) (.genkey wK)
  | @genbkey K B i wK wB hK =>
    obtain rfl := ShellCmd.homfa.inj hc
    have hk := hq K
    rw [hK] at hk
    have e : fs K = fs0 K := by
      obtain ⟨a, p, -, x, -⟩ := run_of_faulty (main_genbkey wK wB) h
      generalize hr : (Except.ok (a, p) : Res (Files × List Char)) = y at x
      cases x with
      | genbkey =>
        obtain ⟨k, hk', -⟩ := Res.bind_eq_ok.1 hr.symm
        rw [hk.2]
        exact hcut.archive hL.key hT.key hk.2 hk'
    exact make_step hL hN hl hbs hq hcut h (main_genbkey wK wB) (fun _ h => h) rfl (x := .bkey _) trivial (by omega)
      (.genbkey wK wB ((World.intact_holds e).trans hK))
  | @enc K I C i ap b wK wI wC hK hI hne hap hap64 hdvd =>
    obtain rfl := ShellCmd.homfa.inj hc
    have hk := hq K
    rw [hK] at hk
    have e : fs K = fs0 K := by
      obtain ⟨a, p, -, x, -⟩ := run_of_faulty (main_enc wK wI wC hap hap64) h
      generalize hr : (Except.ok (a, p) : Res (Files × List Char)) = y at x
      cases x with
      | enc =>
        obtain ⟨k, hk', -⟩ := Res.bind_eq_ok.1 hr.symm
        rw [hk.2]
        exact hcut.archive hL.key hT.key hk.2 hk'
    exact make_step hL hN hl hbs hq hcut h (main_enc wK wI wC hap hap64) (fun _ h => h) rfl (x := .ctxts ..) trivial (by omega)
      (.enc wK wI wC ((World.intact_holds e).trans hK) ((World.intact_holds (cut_hard hcut hI)).trans hI) hne hap hap64 hdvd)
  | @dec K R i out wK wR hK hR =>
    obtain rfl := ShellCmd.homfa.inj hc
    have hk := hq K
    rw [hK] at hk
    have hr := hq R
    rw [hR] at hr
    obtain ⟨-, ct, hct, hv⟩ := hr
    obtain ⟨a, p, m, x, hpre, -, hfr, -⟩ := run_of_faulty (main_dec wK wR) h
    have e : fs K = fs0 K ∧ fs R = fs0 R := by
      generalize hr : (Except.ok (a, p) : Res (Files × List Char)) = y at x
      cases x with
      | dec =>
        obtain ⟨k, hk', hr⟩ := Res.bind_eq_ok.1 hr.symm
        obtain ⟨y, hy, -⟩ := Res.bind_eq_ok.1 hr
        rw [hk.2, hct]
        exact ⟨hcut.archive hL.key hT.key hk.2 hk', hcut.archive hL.res hT.res hct hy⟩
    have e' := (run_dec wK wR hL.key hL.res (e.1.trans hk.2) (e.2.trans hct)).1 m
    rw [hv] at e'
    cases e'
    have : fs' = fs := funext fun f => hfr f id
    subst this
    exact ⟨hpre, hf0⟩
  | @run B S C R i ap s b out X wB wS wC wR hB hS hC hlen hX hp =>
    obtain rfl := ShellCmd.homfa.inj hc
    have hb := hq B
    rw [hB] at hb
    have hcx := hq C
    rw [hC] at hcx
    obtain ⟨hi, q', hb⟩ := hb
    obtain ⟨-, hap, hap64, hw, rand, f, hf1, hf2⟩ := hcx
    have hplain := (plainPrints_iff hap hap64).1 hp
    obtain ⟨cX, hcX, hwX, hsX, hrX⟩ := runLine_call (L := L) wB wS wC wR hX
    obtain ⟨a, p, -, x, -⟩ := run_of_faulty hcX h
    obtain ⟨⟨kind, pc, hfe⟩, bk, hbk⟩ := hrX _ _ x
    obtain ⟨cs, c1, c2⟩ := enc_file hlen hap hplain (L.pair (L.newKey (q i)) (L.newBKey q' (L.newKey (q i)))) rand
    have e : f = cs.flatMap saveGsw := Except.ok.inj (hf2.symm.trans c2)
    subst e
    have eB : fs B = fs0 B := by rw [hb]; exact hcut.archive hL.bkey hT.bkey hb hbk
    have eC : fs C = fs0 C := by rw [hf1]; exact hcut.ctxts hcap hf1 c1 hfe
    exact make_step hL hN hl hbs hq hcut h hcX hwX hsX (x := .result ..) trivial (by omega)
      (.run wB wS wC wR ((World.intact_holds eB).trans hB) ((World.intact_holds (cut_hard hcut hS)).trans hS) ((World.intact_holds eC).trans hC)
        hlen hX hp)

theorem disk_other {w w' : World} {c : ShellCmd} {out : List Char} (hs : DiskStep L δ w c w' out) (hc : ∀ args, c ≠ .homfa args) {fs fs' : Files}
    (hf : w.FitsCut L cap fs) {o : List Char} (h : Session L fs [c] (.ok (fs', o))) : o <+: out ∧ w'.FitsCut L cap fs' := by
  obtain ⟨q, fs0, hq, hcut⟩ := hf
  have one : ∀ {f : String} {a b : Option (List Byte)} {x : Content}, HoldsAs L q w.keys a x →
      (b = a ∨ x.Soft ∧ ∃ full p, a = some full ∧ b = some p ∧ p <+: full ∧ full.length ≤ p.length + cap) →
      ∀ {fs1 : Files}, (∀ g, fs1 g = if g = f then b else fs g) → World.FitsCut L cap (w.set f x) fs1 := by
    intro f a b x h1 h2 fs1 h3
    refine ⟨q, fun g => if g = f then a else fs0 g, fun g => ?_, fun g => ?_⟩
    · show HoldsAs L q w.keys (if g = f then a else fs0 g) (if g = f then x else w.holds g)
      split
      · exact h1
      · exact hq g
    · show fs1 g = (if g = f then a else fs0 g) ∨ (if g = f then x else w.holds g).Soft ∧ _
      rw [h3]
      by_cases e : g = f
      · simp only [if_pos e]; exact h2
      · simp only [if_neg e]; exact hcut g
  generalize hr : (Except.ok (fs', o) : Res (Files × List Char)) = r at h
  cases hs with
  | genkey => exact absurd rfl (hc _)
  | genbkey => exact absurd rfl (hc _)
  | enc => exact absurd rfl (hc _)
  | run => exact absurd rfl (hc _)
  | dec => exact absurd rfl (hc _)
  | known => exact absurd rfl (hc _)
  | copy h1 h2 =>
    cases h with
    | noCopy => cases hr
    | copy h h' =>
      cases h'
      cases hr
      refine ⟨List.nil_prefix, one (hq _) (hcut _) fun g => ?_⟩
      rw [h]; rfl
  | remove =>
    cases h with
    | remove h' =>
      cases h'
      cases hr
      exact ⟨List.nil_prefix, one (a := none) (b := none) (x := .absent) rfl (.inl rfl) fun g => rfl⟩
  | write =>
    cases h with
    | write h' =>
      cases h'
      cases hr
      exact ⟨List.nil_prefix, one (a := some _) (b := some _) (x := .bytes _) rfl (.inl rfl) fun g => rfl⟩

theorem World.FitsCut.lose {w : World} {fs fs1 : Files} (h : w.FitsCut L cap fs) {files : List String} (hf : ∀ f, f ∉ files → fs1 f = fs f) :
    (w.lose files).FitsCut L cap fs1 := by
  obtain ⟨q, fs0, hq, hcut⟩ := h
  refine ⟨q, fun f => if f ∈ files then fs1 f else fs0 f, fun f => ?_, fun f => ?_⟩
  · show HoldsAs L q w.keys (if f ∈ files then fs1 f else fs0 f) (if f ∈ files then .other else w.holds f)
    split
    · trivial
    · exact hq f
  · show fs1 f = (if f ∈ files then fs1 f else fs0 f) ∨ (if f ∈ files then .other else w.holds f).Soft ∧ _
    by_cases e : f ∈ files
    · rw [if_pos e]; exact .inl rfl
    · simp only [if_neg e]; rw [hf f e]; exact hcut f

theorem disk_history (hL : L.Sound δ Enc) (hT : L.RejectsTruncated) (hN : 0 < N) (hl : 0 < l) (hbs : blockSize l N < 2 ^ 63)
    (hcap : cap < blockSize l N) {w w' : World} {cs : List (ShellCmd × Bool)} {outs : List (List Char)} (h : DiskHistory L δ w cs w' outs)
    {fs fs' : Files} (hf : w.FitsCut L cap fs) {os : List (List Char)} (hs : DiskSession L cap fs cs fs' os) :
    List.Forall₂ (· <+: ·) os outs ∧ w'.FitsCut L cap fs' := by
  induction h generalizing fs os with
  | nil => cases hs; exact ⟨.nil, hf⟩
  | ends h _ ih =>
    cases hs with
    | homfa h1 h2 =>
      obtain ⟨a, b⟩ := disk_step hL hT hN hl hbs hcap h rfl hf h1
      obtain ⟨c, d⟩ := ih b h2
      exact ⟨.cons a c, d⟩
    | other h0 h1 h2 =>
      obtain ⟨a, b⟩ := disk_other h h0 hf h1
      obtain ⟨c, d⟩ := ih b h2
      exact ⟨.cons a c, d⟩
  | not _ ih =>
    cases hs with
    | not h1 h2 => exact ih (hf.lose h1) h2

theorem DiskStep.step {w w' : World} {c : ShellCmd} {out : List Char} (h : DiskStep L δ w c w' out) : Step L δ w c w' out := by
  cases h with
  | genkey a => exact .genkey a
  | genbkey a b c => exact .genbkey a b c
  | enc a b c d e f g h i => exact .enc a b c d e f g h i
  | run a b c d e f g h i j => exact .run a b c d e f g h i j
  | dec a b c d => exact .dec a b c d
  | known _ a => exact .known a
  | copy a b => exact .copy a b
  | remove => exact .remove
  | write => exact .write

end Homfa.Cli
