import Verif.Spec.Kepler
import Verif.Model.Keplerian

/-!
# Specification: bodies and orbits

Only the *data types* of the model (records of arguments / results) are used here.
-/

namespace Jaxoplanet.Spec

open Real Keplerian

/-- mass, radius and density of a homogeneous sphere -/
def SphereRelation (mass radius density : ℝ) : Prop :=
  density * (4 / 3 * π * radius ^ 3) = mass

/-- "given" / "not given" -/
def Given {α : Type} (o : Option α) : Prop := ∃ a, o = some a

/-- if given, the value is a scalar -/
def ScalarIfGiven {α : Type} (ndim : α → ℕ) (o : Option α) : Prop := ∀ a, o = some a → ndim a = 0

/-- The documented rules for the arguments of `Body` (English: property C10). -/
structure AcceptedBody {α : Type} (ndim : α → ℕ) (b : Body α) : Prop where
  exactly_one_period : (Given b.period ∧ ¬ Given b.semimajor) ∨ (¬ Given b.period ∧ Given b.semimajor)
  scalars :
    ScalarIfGiven ndim b.time_transit ∧ ScalarIfGiven ndim b.time_peri ∧
    ScalarIfGiven ndim b.period ∧ ScalarIfGiven ndim b.semimajor ∧
    ScalarIfGiven ndim b.inclination ∧ ScalarIfGiven ndim b.impact_param ∧
    ScalarIfGiven ndim b.eccentricity ∧ ScalarIfGiven ndim b.omega_peri ∧
    ScalarIfGiven ndim b.sin_omega_peri ∧ ScalarIfGiven ndim b.cos_omega_peri ∧
    ScalarIfGiven ndim b.asc_node ∧ ScalarIfGiven ndim b.sin_asc_node ∧
    ScalarIfGiven ndim b.cos_asc_node ∧ ScalarIfGiven ndim b.mass ∧
    ScalarIfGiven ndim b.radius ∧ ScalarIfGiven ndim b.radial_velocity_semiamplitude ∧
    ScalarIfGiven ndim b.parallax
  omega_one_form : Given b.omega_peri → ¬ Given b.sin_omega_peri ∧ ¬ Given b.cos_omega_peri
  omega_pair : Given b.sin_omega_peri ↔ Given b.cos_omega_peri
  node_one_form : Given b.asc_node → ¬ Given b.sin_asc_node ∧ ¬ Given b.cos_asc_node
  node_pair : Given b.sin_asc_node ↔ Given b.cos_asc_node
  ecc_iff_omega : Given b.eccentricity ↔
    (Given b.omega_peri ∨ Given b.sin_omega_peri ∨ Given b.cos_omega_peri)
  one_inclination : ¬ (Given b.impact_param ∧ Given b.inclination)
  one_time : ¬ (Given b.time_transit ∧ Given b.time_peri)

/-- a solver that really returns the sine and cosine of the true anomaly -/
def ExactSolver (kep : ℝ → ℝ → ℝ × ℝ) : Prop :=
  ∀ M e, 0 ≤ e → e < 1 → ∃ f, TrueAnomalyAt M e f ∧ kep M e = (sin f, cos f)

/-- a solver that returns a point of the unit circle -/
def UnitSolver (kep : ℝ → ℝ → ℝ × ℝ) : Prop :=
  ∀ M e, (kep M e).1 ^ 2 + (kep M e).2 ^ 2 = 1

/-- physically meaningful eccentricity and argument of periastron -/
def ValidEcc (ecc : Option Ecc) : Prop :=
  ∀ k, ecc = some k → 0 ≤ k.e ∧ k.e < 1 ∧ k.sinw ^ 2 + k.cosw ^ 2 = 1

/-- sine and cosine of an actual longitude of the node, if any -/
def ValidNode (node : Option (ℝ × ℝ)) : Prop := ∀ s c, node = some (s, c) → s ^ 2 + c ^ 2 = 1

/-- squared length -/
def normSq (v : V3) : ℝ := v.x ^ 2 + v.y ^ 2 + v.z ^ 2

/-- the derivative of a moving point, component by component -/
def HasVelocityAt (p : ℝ → V3) (v : V3) (t : ℝ) : Prop :=
  HasDerivAt (fun s => (p s).x) v.x t ∧ HasDerivAt (fun s => (p s).y) v.y t ∧
  HasDerivAt (fun s => (p s).z) v.z t

end Jaxoplanet.Spec
