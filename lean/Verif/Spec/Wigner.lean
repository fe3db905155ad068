import Mathlib.Analysis.SpecialFunctions.Sqrt
import Mathlib.Algebra.BigOperators.Intervals
import Mathlib.Order.Interval.Finset.Basic

/-!
# Specification: the Wigner 3j symbol

Racah's formula, for integer arguments.
-/

namespace Jaxoplanet.Starry.Spec

/-- `n!`, for `n ≥ 0` -/
noncomputable def fact (n : ℤ) : ℝ := (n.toNat.factorial : ℝ)

/-- `1 / n!`, zero for negative `n` -/
noncomputable def invFact (n : ℤ) : ℝ := if n < 0 then 0 else 1 / fact n

/-- the term of Racah's sum; zero unless all arguments of the factorials are non-negative -/
noncomputable def racahTerm (j1 j2 j3 m1 m2 k : ℤ) : ℝ :=
  (-1) ^ k * (invFact k * invFact (j1 + j2 - j3 - k) * invFact (j1 - m1 - k) * invFact (j2 + m2 - k) * invFact (j3 - j2 + m1 + k) *
    invFact (j3 - j1 - m2 + k))

/-- Racah's sum -/
noncomputable def racahSum (j1 j2 j3 m1 m2 : ℤ) : ℝ := ∑ k ∈ Finset.Icc 0 (j1 + j2 - j3), racahTerm j1 j2 j3 m1 m2 k

/-- the selection rules -/
def Selected (j1 j2 j3 m1 m2 m3 : ℤ) : Prop :=
  m1 + m2 + m3 = 0 ∧ |m1| ≤ j1 ∧ |m2| ≤ j2 ∧ |m3| ≤ j3 ∧ |j2 - j3| ≤ j1 ∧ j1 ≤ j2 + j3

/-- the radicand of Racah's formula -/
noncomputable def racahNorm (j1 j2 j3 m1 m2 m3 : ℤ) : ℝ :=
  fact (j1 + j2 - j3) * fact (j1 - j2 + j3) * fact (-j1 + j2 + j3) / fact (j1 + j2 + j3 + 1) *
    (fact (j1 + m1) * fact (j1 - m1) * fact (j2 + m2) * fact (j2 - m2) * fact (j3 + m3) * fact (j3 - m3))

open Classical in
/-- the Wigner 3j symbol -/
noncomputable def wigner3j (j1 j2 j3 m1 m2 m3 : ℤ) : ℝ :=
  if Selected j1 j2 j3 m1 m2 m3 then
    (-1) ^ (j1 - j2 - m3) * √(racahNorm j1 j2 j3 m1 m2 m3) * racahSum j1 j2 j3 m1 m2
  else 0

end Jaxoplanet.Starry.Spec
