import Verif.Model.Units

/-!
# Specification for the unit layer

The physical content of a quantity, and addressing inside trees.
-/

namespace Jaxoplanet.Units

/-- the physical value: dimension and number of SI base units -/
noncomputable def Quantity.phys (q : Quantity) : Dim × ℝ := (q.units.dim, q.magnitude * q.units.size)

/-- the subtree at a path of child positions -/
def Tree.at {α : Type} : List ℕ → Tree α → Option (Tree α)
  | [], t => some t
  | i :: p, .node _ cs => cs[i]?.bind (Tree.at p)
  | _ :: _, _ => Option.none

/-- a parameter that can be given units by name -/
def Plain (sig : List Param) (name : String) : Prop :=
  ∃ p ∈ sig, p.name = name ∧ (p.kind = .positionalOrKeyword ∨ p.kind = .keywordOnly)

end Jaxoplanet.Units
