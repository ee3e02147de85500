import Verif.Proof.Dump
import Verif.Spec.Dot
/-! `dump_dot`. -/

namespace Homfa
open Spec

theorem Spec.DotBody.append {a b : List Char} {x y : List DotStmt} (ha : DotBody a x) (hb : DotBody b y) : DotBody (a ++ b) (x ++ y) := by
  induction ha with
  | nil => exact hb
  | cons ws t s ss h1 h2 _ ih =>
    have := DotBody.cons ws (t ++ b) s (ss ++ y) h1 h2 ih
    rwa [← List.append_assoc] at this

theorem Spec.DotBody.one {ws : List Char} {s : DotStmt} (h1 : ws ≠ []) (h2 : ∀ c ∈ ws, c = ' ' ∨ c = '\n') : DotBody (ws ++ s.text) [s] := by
  have := DotBody.cons ws [] s [] h1 h2 .nil
  rwa [List.append_nil] at this

namespace Graph
variable {g : Graph}

/-- the statements of state `q` -/
def dotOf (g : Graph) (q : Nat) : List DotStmt :=
  .node q (g.fin q) :: (if g.nx q false = g.nx q true then [.edge q (g.nx q false) [false, true]] else
    [.edge q (g.nx q false) [false], .edge q (g.nx q true) [true]])

theorem dotStart (g : Graph) : "digraph \"graph\" {\n".toList ++ "rankdir=\"LR\"".toList ++ "  node[shape=\"circle\"]\n".toList ++
    "  I [label=\"\", style=invis, width=0]\n".toList ++ "  I -> ".toList ++ showNat g.initialState ++ "\n".toList =
    dotHeader ++ ("\n  ".toList ++ (DotStmt.start g.init).text) ++ ['\n'] := by
  have e1 : "  I [label=\"\", style=invis, width=0]\n".toList = "  I [label=\"\", style=invis, width=0]".toList ++ ['\n'] := by decide
  have e2 : "\n  ".toList ++ "I -> ".toList = ['\n'] ++ "  I -> ".toList := by decide
  have e3 : (DotStmt.start g.init).text = "I -> ".toList ++ showNat g.initialState := rfl
  have e4 : "\n".toList = ['\n'] := by decide
  rw [e1, e3, e4, ← List.append_assoc "\n  ".toList, e2]
  unfold dotHeader
  simp only [List.append_assoc]

private theorem a1 : "\n  ".toList = ['\n'] ++ "  ".toList := by decide
private theorem a2 : " [label=\"0,1\"]\n".toList = " [label=\"".toList ++ (dotLetters [false, true] ++ ("\"]".toList ++ ['\n'])) := by decide
private theorem a3 : " [label=\"0\"]\n".toList = " [label=\"".toList ++ (dotLetters [false] ++ ("\"]".toList ++ ['\n'])) := by decide
private theorem a4 : " [label=\"1\"]\n".toList = " [label=\"".toList ++ (dotLetters [true] ++ ("\"]".toList ++ ['\n'])) := by decide
theorem node_text (q : Nat) (f : Bool) : (DotStmt.node q f).text =
    showNat q ++ " [label=\"".toList ++ showNat q ++ "\"".toList ++ (if f then ", peripheries=2".toList else []) ++ "]".toList := rfl
theorem edge_text (p q : Nat) (l : List Bool) : (DotStmt.edge p q l).text =
    showNat p ++ " -> ".toList ++ showNat q ++ " [label=\"".toList ++ dotLetters l ++ "\"]".toList := rfl

theorem dumpDot_ok (hg : g.WF) : ∃ text, g.dumpDot = .ok text ∧
    DotDrawing text (.start g.init :: (List.range g.size).flatMap g.dotOf) := by
  have hs : DotBody ("\n  ".toList ++ (DotStmt.start g.init).text) [.start g.init] := DotBody.one (by decide) (by decide)
  unfold dumpDot allStates
  rw [dotStart]
  obtain ⟨b, h1, body, h2, h3⟩ := foldlM_range_inv
    (fun i os => ∃ body, DotBody body (.start g.init :: (List.range i).flatMap g.dotOf) ∧ os = dotHeader ++ body ++ ['\n'])
    (f := fun os q => do
      let q0 ← g.nextState q false
      let q1 ← g.nextState q true
      let f ← g.isFinalState q
      let os := os ++ "  ".toList ++ showNat q ++ " [label=\"".toList ++ showNat q ++ "\"".toList ++
        (if f then ", peripheries=2".toList else []) ++ "]".toList
      if q0 = q1 then
        pure (os ++ "  ".toList ++ showNat q ++ " -> ".toList ++ showNat q0 ++ " [label=\"0,1\"]\n".toList)
      else
        pure (os ++ "  ".toList ++ showNat q ++ " -> ".toList ++ showNat q0 ++ " [label=\"0\"]\n".toList ++
          "  ".toList ++ showNat q ++ " -> ".toList ++ showNat q1 ++ " [label=\"1\"]\n".toList)) g.size
    (b := dotHeader ++ ("\n  ".toList ++ (DotStmt.start g.init).text) ++ ['\n'])
    ⟨_, hs, rfl⟩ (by
      rintro i os hi ⟨body, hb, rfl⟩
      rw [WF.nextState_ok hi, Res.bind_ok, WF.nextState_ok hi, Res.bind_ok, hg.isFinalState_ok hi, Res.bind_ok]
      dsimp only
      have hn : DotBody ("\n  ".toList ++ (DotStmt.node i (g.fin i)).text) [.node i (g.fin i)] := DotBody.one (by decide) (by decide)
      by_cases he : g.nx i false = g.nx i true
      · rw [if_pos he]
        have he1 : DotBody ("  ".toList ++ (DotStmt.edge i (g.nx i false) [false, true]).text) [.edge i (g.nx i false) [false, true]] :=
          DotBody.one (by decide) (by decide)
        have hbb := hb.append (hn.append he1)
        refine ⟨_, rfl, body ++ (("\n  ".toList ++ (DotStmt.node i (g.fin i)).text) ++ ("  ".toList ++ (DotStmt.edge i (g.nx i false) [false, true]).text)), ?_, ?_⟩
        · rw [List.range_succ, List.flatMap_append, List.flatMap_singleton, dotOf, if_pos he]
          exact hbb
        · rw [a1, a2, node_text]
          simp only [edge_text, List.append_assoc]
      · rw [if_neg he]
        have he1 : DotBody ("  ".toList ++ (DotStmt.edge i (g.nx i false) [false]).text) [.edge i (g.nx i false) [false]] :=
          DotBody.one (by decide) (by decide)
        have he2 : DotBody ("\n  ".toList ++ (DotStmt.edge i (g.nx i true) [true]).text) [.edge i (g.nx i true) [true]] :=
          DotBody.one (by decide) (by decide)
        have hbb := hb.append (hn.append (he1.append he2))
        refine ⟨_, rfl, body ++ (("\n  ".toList ++ (DotStmt.node i (g.fin i)).text) ++ (("  ".toList ++ (DotStmt.edge i (g.nx i false) [false]).text) ++
          ("\n  ".toList ++ (DotStmt.edge i (g.nx i true) [true]).text))), ?_, ?_⟩
        · rw [List.range_succ, List.flatMap_append, List.flatMap_singleton, dotOf, if_neg he]
          exact hbb
        · rw [a1, a3, a4, node_text]
          simp only [edge_text, List.append_assoc])
  rw [h1, Res.bind_ok]
  exact ⟨_, rfl, body, h2, by
    have a5 : "\n}\n".toList = ['\n'] ++ "}\n".toList := by decide
    rw [h3, a5]
    simp only [List.append_assoc]⟩

end Graph
end Homfa
