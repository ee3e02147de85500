import Verif.Model.Shell

/-!
# Command lines with the random numbers given

`genkey`, `genbkey` and `enc` are the commands that draw random numbers (TFHEpp's generator, called from src/main.cpp:225-252); everything else is as in `Verif.Model.Shell`.
A process draws from its own tape of numbers: the key generations use its first number as seed, `enc` one number for each bit.
-/

namespace Homfa.Cli

variable {N n l : Nat}

/-- the commands that draw random numbers (`do_genkey`, `do_genbkey`, `do_enc`, src/main.cpp:225-252) -/
def Call.draws : Call → Bool
  | .genkey .. | .genbkey .. | .enc .. => true
  | _ => false

/-- As `Exec`, for a process with the tape `t` (src/main.cpp:225-252 for the three commands that read it). -/
inductive ExecOn (L : Lib N n l) (t : Nat → Nat) (stdin : List Char) (fs : Files) : Call → Res (Files × List Char) → Prop
  | genkey {out} : ExecOn L t stdin fs (.genkey out) (.ok (fs.set out (L.saveKey (L.newKey (t 0))), []))
  | genbkey {skey out} : ExecOn L t stdin fs (.genbkey skey out) (do
      let k ← readArchive L.loadKey (fs skey)
      pure (fs.set out (L.saveBKey (L.newBKey (t 0) k)), []))
  | enc {skey input out ap} : ExecOn L t stdin fs (.enc skey input out ap) (do
      let k ← readArchive L.loadKey (fs skey)
      let fs := fs.set out []
      let b ← doEnc (L.client k) t (fs input) ap
      pure (fs.set out b, []))
  | other {c r} : c.draws = false → Exec L stdin fs c r → ExecOn L t stdin fs c r

/-- As `RunHomfa`, for a process with the tape `t`. (src/main.cpp:590-755) -/
inductive RunOn (L : Lib N n l) (t : Nat → Nat) (stdin : List Char) (fs : Files) (toks : List String) : Res (Files × List Char) → Prop
  | call {c r} : homfaMain (fun f => (fs f).isSome) toks = .ok (some c) → ExecOn L t stdin fs c r → RunOn L t stdin fs toks r
  | usage : homfaMain (fun f => (fs f).isSome) toks = .ok none → RunOn L t stdin fs toks (.error .die)
  | fails {e} : homfaMain (fun f => (fs f).isSome) toks = .error e → RunOn L t stdin fs toks (.error e)

/-- As `Script`: the i-th run has the i-th tape. (test_homfa.sh:25-59) -/
inductive ScriptOn (L : Lib N n l) : (Nat → Nat → Nat) → Files → List (List String) → Res (Files × List Char) → Prop
  | nil {ts fs} : ScriptOn L ts fs [] (.ok (fs, []))
  | next {ts fs toks fs1 o1 rest r} : RunOn L (ts 0) [] fs toks (.ok (fs1, o1)) → ScriptOn L (fun i => ts (i + 1)) fs1 rest r →
      ScriptOn L ts fs (toks :: rest) (r.map fun p => (p.1, o1 ++ p.2))
  | stop {ts fs toks rest e} : RunOn L (ts 0) [] fs toks (.error e) → ScriptOn L ts fs (toks :: rest) (.error e)

end Homfa.Cli
