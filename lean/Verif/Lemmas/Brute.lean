import Verif.Model.Solve

/-!
# A computable solver for binary models

It tries all 0/1 assignments of the declared variables.  It is used to run the model on
concrete instances.
-/

namespace Verif.Model

/-- All 0/1 assignments of the declared variables. -/
def bruteAssign : List VarDecl → List (V → ℚ)
  | [] => [fun _ => 0]
  | d :: ds => (bruteAssign ds).flatMap fun ρ => [ρ, fun v => if v = d.v then 1 else ρ v]

/-- The first best one of a list of assignments. -/
def bruteBest (g : GModel) : List (V → ℚ) → Option (ℚ × (V → ℚ))
  | [] => none
  | ρ :: l =>
    let v := g.obj.eval ρ
    match bruteBest g l with
    | none => some (v, ρ)
    | some r => if (if g.maximize then r.1 ≤ v else v ≤ r.1) then some (v, ρ) else some r

/-- Exhaustive search over the 0/1 assignments. -/
def brute (g : GModel) : GResult :=
  match bruteBest g ((bruteAssign g.vars).filter fun ρ => decide (g.Feas ρ)) with
  | none => ⟨3, none, 0, 0⟩
  | some r => ⟨2, some r.2, r.1, r.1⟩

/-- An environment for concrete runs: exhaustive search, no shuffling, a clock that advances by
`d` at every reading. -/
def bruteEnv (norm : Norm) (d : ℚ) : Env where
  norm := norm
  argsort := .default
  srt := .default
  shuffle := fun _ _ => .id
  sub := fun _ _ => brute
  cc := fun _ => brute
  lb := fun _ => brute
  acc := fun _ _ => brute
  big := fun _ => brute
  clock := fun k => k * d

end Verif.Model
