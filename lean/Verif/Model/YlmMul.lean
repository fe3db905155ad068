import Verif.Model.Harmonics
import Verif.Model.Wigner
import Mathlib.Analysis.SpecialFunctions.Trigonometric.Basic

/-!
# Model of the product of two maps, `src/jaxoplanet/starry/ylm.py:148-152, 176-219`
-/

namespace Jaxoplanet.Starry

open Real Wig

/-- the pairs `(ell, m)` in the order of the loops `for ell in range(L + 1): for m in range(-ell, ell + 1)`,
`starry/ylm.py:188-190, 195-198` -/
def keysUpTo (L : ℕ) : List (ℕ × ℤ) := (List.range (L + 1)).flatMap fun l : ℕ => (rangeUp (-(l : ℤ)) (l + 1)).map fun m => (l, m)

/-- the innermost loop, `starry/ylm.py:203-218` -/
noncomputable def mulInner (ellmax_fg : ℕ) (k1 k2 : ℕ × ℤ) (v1 v2 : ℝ) (w3j_m : Arr) (fg : Dict (ℕ × ℤ)) : Dict (ℕ × ℤ) :=
  let m3 := k1.2 + k2.2
  let sum1 := √((2 * k1.1 + 1) / (4 * π)) * v1
  let sum2 := √(2 * k2.1 + 1) * v2
  (rangeUp (max |m3| |(k1.1 : ℤ) - k2.1|) (min ((k1.1 : ℤ) + k2.1) ellmax_fg + 1)).foldl
    (fun fg ell3 => Dict.accum fg (ell3.toNat, m3)
      ((-1) ^ ((k1.1 : ℤ) + k2.1 + ell3 + m3) * √(2 * ell3 + 1) * w3j_m ell3 * sum1 * sum2)) fg

/-- the loop body over `ell2`, `m2`, `starry/ylm.py:195-218` -/
noncomputable def mulStep (f g : Ylm) (k1 : ℕ × ℤ) (v1 : ℝ) (fg : Dict (ℕ × ℤ)) (k2 : ℕ × ℤ) : Except WErr (Dict (ℕ × ℤ)) :=
  match Dict.get1 g.data k2 with
  | none => .ok fg
  | some v2 => do
    let w3j_m ← calculate k1.1 k2.1 k1.2 k2.2
    .ok (mulInner (f.deg + g.deg) k1 k2 v1 v2 w3j_m fg)

/-- the loop body over `ell1`, `m1`, `starry/ylm.py:188-218` -/
noncomputable def mulRow (f g : Ylm) (fg : Dict (ℕ × ℤ)) (k1 : ℕ × ℤ) : Except WErr (Dict (ℕ × ℤ)) :=
  match Dict.get1 f.data k1 with
  | none => .ok fg
  | some v1 => (keysUpTo g.deg).foldlM (mulStep f g k1 v1) fg

/-- `_mul`, `starry/ylm.py:176-219`; the sum of the degrees bounds the indices of the calculator's array -/
noncomputable def Ylm.mul (f g : Ylm) : Except WErr Ylm := do
  let fg ← (keysUpTo f.deg).foldlM (mulRow f g) []
  .ok ⟨fg⟩

end Jaxoplanet.Starry
