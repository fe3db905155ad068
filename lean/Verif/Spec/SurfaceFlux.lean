import Verif.Spec.Rotation
import Verif.Spec.Harmonics
import Verif.Spec.LimbDark

/-!
# Specification: the brightness of a mapped, limb-darkened star on the sky

The observer looks along the `z` axis; the star is the unit disc of the sky plane; the point `p` of the disc is the point
`(p.1, p.2, mu p)` of the visible hemisphere.
-/

namespace Jaxoplanet.Starry.Spec

open Real MeasureTheory
open _root_.Jaxoplanet.Spec

/-- the disc of an occultor of radius `r` centred at `(x, y)` -/
def occultorAt (x y r : ℝ) : Set (ℝ × ℝ) := {p | (p.1 - x) ^ 2 + (p.2 - y) ^ 2 ≤ r ^ 2}

/-- the point of the map seen at the point `p` of the visible hemisphere, for a star with inclination `inc`, obliquity
`obl` and rotated by `theta`: undo the obliquity (about the line of sight), the inclination (about the `x` axis), the
rotation and the convention that the pole of a map is its `y` axis when seen with inclination `π/2` -/
noncomputable def observerView (inc obl theta : ℝ) (p : V3) : V3 :=
  rotX (-(π / 2)) (rotZ (-theta) (rotX inc (rotZ (-obl) p)))

/-- the obliquity that the code applies: with an inclination that is not given (`None`) the obliquity acts with the
opposite sign (finding F19) -/
def usedObl (inc obl : Option ℝ) : ℝ := if inc = none then -obl.getD 0 else obl.getD 0

/-- the value of the map `Σ y_{lm} Y_{lm}` at a point of the sphere -/
noncomputable def mapAt (y : Ylm) (p : V3) : ℝ :=
  ∑ l ∈ Finset.range (y.deg + 1), ∑ q ∈ Finset.range (2 * l + 1),
    coef y l ((q : ℤ) - l) * realHarmonic l ((q : ℤ) - l) p.1 p.2.1 p.2.2

/-- the intensity of the star at the point `p` of its disc: the map (normalised such that the coefficient
`y_{00} = 1` alone is the intensity 1) times the limb-darkening profile -/
noncomputable def skyIntensity (y : Ylm) (u : List ℝ) (inc obl theta : ℝ) (p : ℝ × ℝ) : ℝ :=
  2 * √π * mapAt y (observerView inc obl theta (p.1, p.2, mu p)) * profile u (mu p)

/-- the flux of the part `V` of the disc, relative to the flux of a star with the same limb darkening and the
constant map `y_{00} = 1` -/
noncomputable def relativeFlux (y : Ylm) (u : List ℝ) (inc obl theta : ℝ) (V : Set (ℝ × ℝ)) : ℝ :=
  (∫ p in V, skyIntensity y u inc obl theta p) / totalFlux u

/-- `relativeFlux` of a surface: the part `V` of its disc, at the rotation angle `theta` (zero if not given) -/
noncomputable def fluxOf (s : Surface) (theta : Option ℝ) (V : Set (ℝ × ℝ)) : ℝ :=
  relativeFlux s.y s.u (s.inc.getD 0) (usedObl s.inc s.obl) (theta.getD 0) V

/-- the part of the disc of a star that `n` occultors leave visible: the `i`-th one has the radius `r i` and is at
`(x i, y i, z i)` in units of the radius of the star; it hides what is behind it if it is in front, `0 < z i` -/
def visiblePart (n : ℕ) (r x y z : ℕ → ℝ) : Set (ℝ × ℝ) :=
  {p | p ∈ stellarDisc ∧ ∀ i < n, 0 < z i → p ∉ occultorAt (x i) (y i) (r i)}

/-- no point of the disc is behind two occultors -/
def NoMutualOverlap (n : ℕ) (r x y z : ℕ → ℝ) : Prop :=
  ∀ i < n, ∀ j < n, i ≠ j → 0 < z i → 0 < z j →
    ∀ p ∈ stellarDisc, p ∈ occultorAt (x i) (y i) (r i) → p ∉ occultorAt (x j) (y j) (r j)

/-- the part of the disc that one occultor leaves visible -/
def visibleBehind (r x y z : ℝ) : Set (ℝ × ℝ) := {p | p ∈ stellarDisc ∧ (0 < z → p ∉ occultorAt x y r)}

end Jaxoplanet.Starry.Spec
