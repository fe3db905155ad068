import Verif.Model.OrbitGrad
import Verif.Proofs.Autodiff
import Verif.Proofs.LimbDarkGrad
import Verif.Proofs.SurfaceGrad
import Verif.Proofs.Orbit
import Verif.Props.Orbit

/-!
# Auxiliary lemmas for C94: derivatives of Keplerian orbits
-/

namespace Jaxoplanet.Keplerian
open Real Spec AD AD.Dual Filter Topology

/-- a relation between a function of a parameter and a number with derivative that the operations of the program preserve -/
class OrbitRel (t : outParam ℝ) (R : (ℝ → ℝ) → Dual → Prop) : Prop extends Starry.Closed R where
  val : ∀ {f a}, R f a → f t = a.v
  square : ∀ {f a}, R f a → R (fun s => f s ^ 2) a.square
  sqrt : ∀ {f a}, R f a → 0 < a.v → R (fun s => √(f s)) a.sqrt
  atan2 : ∀ {f g a b}, R f a → R g b → (0 < b.v ∨ a.v ≠ 0) → R (fun s => arctan2 (f s) (g s)) (Dual.atan2 a b)
  cbrt : ∀ {f a}, R f a → 0 < a.v → R (fun s => Jaxoplanet.cbrt (f s)) (cbrtD a)

/-- the same for the solver of Kepler's equation -/
def KepRel (kep : ℝ → ℝ → ℝ × ℝ) (R : (ℝ → ℝ) → Dual → Prop) : Prop :=
  ∀ {f g a b}, R f a → R g b → 0 ≤ b.v → b.v < 1 → R (fun s => (kep (f s) (g s)).1) (keplerD kep a b).1 ∧ R (fun s => (kep (f s) (g s)).2) (keplerD kep a b).2

/-- the value, and that the derivative is finite -/
def FinV (t : ℝ) (f : ℝ → ℝ) (a : Dual) : Prop := f t = a.v ∧ Dual.Fin a

theorem fin_keplerD (kep : ℝ → ℝ → ℝ × ℝ) {a b : Dual} (ha : Dual.Fin a) (hb : Dual.Fin b) (h0 : 0 ≤ b.v) (h1 : b.v < 1) :
    Dual.Fin (keplerD kep a b).1 ∧ Dual.Fin (keplerD kep a b).2 := by
  obtain ⟨da, ha⟩ := ha
  obtain ⟨db, hb⟩ := hb
  have h : ¬ (1 - b.v ^ 2 ≤ 0) := by nlinarith
  unfold keplerD
  simp only [if_neg h, ha, hb, Option.map₂_some_some, Option.map_some]
  exact ⟨⟨_, rfl⟩, ⟨_, rfl⟩⟩

theorem fin_cbrtD {a : Dual} (ha : Dual.Fin a) (h : 0 < a.v) : Dual.Fin (cbrtD a) := by
  unfold cbrtD
  simp only [if_neg h.ne']
  exact lin_some ha

instance (t : ℝ) : OrbitRel t (FinV t) where
  const := fun c => ⟨rfl, fin_const c⟩
  add := fun h h' => ⟨by simp [h.1, h'.1], fin_add h.2 h'.2⟩
  sub := fun h h' => ⟨by simp [h.1, h'.1], fin_sub h.2 h'.2⟩
  neg := fun h => ⟨by simp [h.1], fin_neg h.2⟩
  mul := fun h h' => ⟨by simp [h.1, h'.1], fin_mul h.2 h'.2⟩
  div := fun h h' h0 => ⟨by simp [h.1, h'.1], fin_div h.2 h'.2 h0⟩
  cos := fun h => ⟨by simp [h.1], fin_cos h.2⟩
  sin := fun h => ⟨by simp [h.1], fin_sin h.2⟩
  val := And.left
  square := fun h => ⟨by simp [h.1], fin_square h.2⟩
  sqrt := fun h h0 => ⟨by simp [h.1], fin_sqrt h.2 h0⟩
  atan2 := fun h h' h0 => ⟨by simp [h.1, h'.1], fin_atan2 h.2 h'.2 fun h => h0.elim (fun h1 => h1.ne' h.2) fun h1 => h1 h.1⟩
  cbrt := fun h h0 => ⟨by simp only [h.1]; rfl, fin_cbrtD h.2 h0⟩

theorem kepRel_fin (t : ℝ) (kep : ℝ → ℝ → ℝ × ℝ) : KepRel kep (FinV t) :=
  fun h h' h0 h1 => ⟨⟨by simp only [h.1, h'.1]; rfl, (fin_keplerD kep h.2 h'.2 h0 h1).1⟩, ⟨by simp only [h.1, h'.1]; rfl, (fin_keplerD kep h.2 h'.2 h0 h1).2⟩⟩

/-- an exact solver, also for the negative eccentricities that a derivative at zero eccentricity sees -/
def ExactNear (kep : ℝ → ℝ → ℝ × ℝ) : Prop := ∀ M e, |e| < 1 → ∃ f, TrueAnomalyAt M e f ∧ kep M e = (Real.sin f, Real.cos f)

/-- a solver that returns a point of the unit circle for the eccentricities of bound orbits -/
def UnitInRange (kep : ℝ → ℝ → ℝ × ℝ) : Prop := ∀ M e, 0 ≤ e → e < 1 → (kep M e).1 ^ 2 + (kep M e).2 ^ 2 = 1

theorem ExactNear.unit {kep : ℝ → ℝ → ℝ × ℝ} (h : ExactNear kep) : UnitInRange kep := by
  intro M e h0 h1
  obtain ⟨f, -, hf⟩ := h M e (abs_lt.2 ⟨by linarith, h1⟩)
  rw [hf]
  exact Real.sin_sq_add_cos_sq f

theorem ExactNear.exact {kep : ℝ → ℝ → ℝ × ℝ} (h : ExactNear kep) : ExactSolver kep :=
  fun M e h0 h1 => h M e (abs_lt.2 ⟨by linarith, h1⟩)

theorem cbrt_hasDerivAt {x : ℝ} (hx : 0 < x) : HasDerivAt Jaxoplanet.cbrt (1 / 3 * (1 / Jaxoplanet.cbrt x ^ 2)) x := by
  have h1 : Jaxoplanet.cbrt x = x ^ (1 / 3 : ℝ) := if_pos hx.le
  have h2 : HasDerivAt (fun y : ℝ => y ^ (1 / 3 : ℝ)) ((1 / 3 : ℝ) * x ^ ((1 / 3 : ℝ) - 1)) x := Real.hasDerivAt_rpow_const (Or.inl hx.ne')
  have h3 : x ^ ((1 / 3 : ℝ) - 1) = 1 / Jaxoplanet.cbrt x ^ 2 := by
    rw [h1, ← Real.rpow_natCast, ← Real.rpow_mul hx.le, one_div (x ^ _), ← Real.rpow_neg hx.le]
    norm_num
  rw [← h3]
  refine h2.congr_of_eventuallyEq ?_
  filter_upwards [eventually_gt_nhds hx] with y hy
  exact if_pos hy.le

theorem track_cbrt {f : ℝ → ℝ} {t : ℝ} {a : Dual} (h : Tracks f t a) (h0 : 0 < a.v) : Tracks (fun s => Jaxoplanet.cbrt (f s)) t (cbrtD a) := by
  obtain ⟨hv, d, hd, hD⟩ := h
  refine ⟨by simp only [hv]; rfl, 1 / 3 * (1 / Jaxoplanet.cbrt a.v ^ 2) * d, ?_, ?_⟩
  · unfold cbrtD
    simp only [if_neg h0.ne', hd]
    rfl
  · have := cbrt_hasDerivAt (x := f t) (by rw [hv]; exact h0)
    rw [← hv]
    exact this.comp t hD

theorem track_kepler {kep : ℝ → ℝ → ℝ × ℝ} (hkep : ExactNear kep) {f g : ℝ → ℝ} {t : ℝ} {a b : Dual} (hf : Tracks f t a) (hg : Tracks g t b) (h0 : 0 ≤ b.v) (h1 : b.v < 1) :
    Tracks (fun s => (kep (f s) (g s)).1) t (keplerD kep a b).1 ∧ Tracks (fun s => (kep (f s) (g s)).2) t (keplerD kep a b).2 := by
  classical
  obtain ⟨hfv, df, hdf, hDf⟩ := hf
  obtain ⟨hgv, dg, hdg, hDg⟩ := hg
  have hn : ¬ (1 - b.v ^ 2 ≤ 0) := by nlinarith
  have hch : ∀ s, ∃ F, |g s| < 1 → TrueAnomalyAt (f s) (g s) F ∧ kep (f s) (g s) = (Real.sin F, Real.cos F) := by
    intro s
    by_cases h : |g s| < 1
    · obtain ⟨F, hF⟩ := hkep (f s) (g s) h
      exact ⟨F, fun _ => hF⟩
    · exact ⟨0, fun h' => absurd h' h⟩
  choose F hF using hch
  have hgt : |g t| < 1 := by rw [hgv]; exact abs_lt.2 ⟨by linarith, h1⟩
  have hev : ∀ᶠ s in 𝓝 t, |g s| < 1 := hDg.continuousAt.abs.eventually_lt continuousAt_const hgt
  obtain ⟨j1, j2⟩ := Kepler.jvp_correct (by rw [hgv]; exact h0) (by rw [hgv]; exact h1) hDf hDg (hev.mono fun s hs => (hF s hs).1)
  have hk := (hF t hgt).2
  have hk1 : Real.sin (F t) = (kep a.v b.v).1 := by rw [← hfv, ← hgv, hk]
  have hk2 : Real.cos (F t) = (kep a.v b.v).2 := by rw [← hfv, ← hgv, hk]
  rw [hk1, hk2, hgv] at j1 j2
  constructor
  · refine ⟨by simp only [hfv, hgv]; rfl, _, ?_, j1.congr_of_eventuallyEq (hev.mono fun s hs => by simp only [(hF s hs).2])⟩
    unfold keplerD
    simp only [if_neg hn, hdf, hdg, Option.map₂_some_some, Option.map_some]
  · refine ⟨by simp only [hfv, hgv]; rfl, _, ?_, j2.congr_of_eventuallyEq (hev.mono fun s hs => by simp only [(hF s hs).2])⟩
    unfold keplerD
    simp only [if_neg hn, hdf, hdg, Option.map₂_some_some, Option.map_some]

instance (t : ℝ) : OrbitRel t (Starry.Tk t) where
  val := And.left
  square := track_square
  sqrt := track_sqrt
  atan2 := fun h h' h0 => track_atan2 h h' h0
  cbrt := track_cbrt

theorem kepRel_tracks (t : ℝ) {kep : ℝ → ℝ → ℝ × ℝ} (hkep : ExactNear kep) : KepRel kep (Starry.Tk t) := track_kepler hkep

theorem exists_exactNear : ∃ kep, ExactNear kep := by
  have h : ∀ M e : ℝ, ∃ p : ℝ × ℝ, |e| < 1 → ∃ f, TrueAnomalyAt M e f ∧ p = (Real.sin f, Real.cos f) := by
    intro M e
    by_cases he : |e| < 1
    · have hE := Kepler.exactE_spec (M := M) he
      obtain ⟨f, hf⟩ : ∃ f, IsTrueAnomaly e (Kepler.exactE M e) f := by
        have hp : 0 < 1 - e * Real.cos (Kepler.exactE M e) := by
          have h1 := abs_mul e (Real.cos (Kepler.exactE M e))
          have h2 := Real.abs_cos_le_one (Kepler.exactE M e)
          have h3 := le_abs_self (e * Real.cos (Kepler.exactE M e))
          nlinarith [abs_nonneg e, abs_nonneg (Real.cos (Kepler.exactE M e))]
        have hsq : (√(1 - e ^ 2) * Real.sin (Kepler.exactE M e) / (1 - e * Real.cos (Kepler.exactE M e))) ^ 2 +
            ((Real.cos (Kepler.exactE M e) - e) / (1 - e * Real.cos (Kepler.exactE M e))) ^ 2 = 1 := by
          have hq : √(1 - e ^ 2) ^ 2 = 1 - e ^ 2 := Real.sq_sqrt (by nlinarith [sq_abs e, abs_nonneg e])
          rw [div_pow, div_pow, mul_pow, hq, ← add_div, div_eq_one_iff_eq (by positivity)]
          linear_combination (1 - e ^ 2) * Real.sin_sq_add_cos_sq (Kepler.exactE M e)
        obtain ⟨f, hs, hc⟩ := Kepler.exists_angle hsq
        refine ⟨f, ?_, ?_⟩
        · rw [← hc]; field_simp
        · rw [← hs]; field_simp
      exact ⟨(Real.sin f, Real.cos f), fun _ => ⟨f, ⟨_, hE, hf⟩, rfl⟩⟩
    · exact ⟨(0, 1), fun h => absurd h he⟩
  choose kep hkep using h
  exact ⟨kep, hkep⟩

/-! ## The orbit -/

/-- the same arguments with other values -/
def Body.map {α β : Type} (g : α → β) (b : Body α) : Body β where
  time_transit := b.time_transit.map g
  time_peri := b.time_peri.map g
  period := b.period.map g
  semimajor := b.semimajor.map g
  inclination := b.inclination.map g
  impact_param := b.impact_param.map g
  eccentricity := b.eccentricity.map g
  omega_peri := b.omega_peri.map g
  sin_omega_peri := b.sin_omega_peri.map g
  cos_omega_peri := b.cos_omega_peri.map g
  asc_node := b.asc_node.map g
  sin_asc_node := b.sin_asc_node.map g
  cos_asc_node := b.cos_asc_node.map g
  mass := b.mass.map g
  radius := b.radius.map g
  radial_velocity_semiamplitude := b.radial_velocity_semiamplitude.map g
  parallax := b.parallax.map g

/-- which arguments are accepted only depends on which are given -/
theorem checkInit_map {α β : Type} (g : α → β) (b : Body α) : (b.map g).checkInit (fun _ => 0) = b.checkInit (fun _ => 0) := by
  unfold Body.checkInit
  have hany : ∀ (γ : Type) (l : List γ), (l.any fun _ => false) = false := by
    intro γ l
    induction l <;> simp_all
  simp only [Body.map, Option.isNone_map, Option.isSome_map, bne_self_eq_false, hany]

/-- step 1 of the rotation -/
noncomputable def rotateOmega (ecc : Option Ecc) (x y : ℝ) : ℝ × ℝ :=
  match ecc with
  | none => (x, y)
  | some k => (k.cosw * x - k.sinw * y, k.sinw * x + k.cosw * y)

/-- step 3 of the rotation -/
noncomputable def rotateNode (node : Option (ℝ × ℝ)) (x2 y2 Z : ℝ) : V3 :=
  match node with
  | none => ⟨x2, y2, Z⟩
  | some n => ⟨n.2 * x2 - n.1 * y2, n.1 * x2 + n.2 * y2, Z⟩

theorem rotateVector_parts (o : OrbitalBody) (x y : ℝ) (i : Bool) : o.rotateVector x y i =
    if i then rotateNode o.node (rotateOmega o.ecc x y).1 (o.cos_inclination * (rotateOmega o.ecc x y).2) (-o.sin_inclination * (rotateOmega o.ecc x y).2)
    else rotateNode o.node (rotateOmega o.ecc x y).1 (rotateOmega o.ecc x y).2 (-(rotateOmega o.ecc x y).2) := by
  unfold OrbitalBody.rotateVector rotateNode rotateOmega
  cases o.ecc <;> cases o.node <;> cases i <;> rfl

/-- the amplitude of a body with a mass -/
noncomputable def amplitudeOfMass (o : OrbitalBody) (mass : Option ℝ) : ℝ :=
  match o.ecc with
  | none => 2 * π * o.semimajor * mass.getD 1 / (o.total_mass * o.period)
  | some k => 2 * π * o.semimajor * mass.getD 1 / (o.total_mass * o.period) / √(1 - k.e ^ 2)

/-- the amplitude -/
noncomputable def amplitude (au : ℝ) (o : OrbitalBody) (mass semiamplitude parallax : Option ℝ) : ℝ :=
  match semiamplitude.orElse fun _ => o.radial_velocity_semiamplitude with
  | some K => K
  | none =>
    match parallax.orElse fun _ => o.parallax with
    | none => amplitudeOfMass o mass
    | some p => amplitudeOfMass o mass * au * p

/-- the scale of the orbit -/
noncomputable def scaleOf (au : ℝ) (o : OrbitalBody) (semimajor parallax : Option ℝ) : ℝ :=
  match semimajor with
  | none => 1
  | some a =>
    match parallax.orElse fun _ => o.parallax with
    | none => a
    | some p => a * au * p

/-- the distance -/
noncomputable def distanceOf (ecc : Option Ecc) (r0 cosf : ℝ) : ℝ :=
  match ecc with
  | none => r0
  | some k => r0 * ((1 - k.e ^ 2) / (1 + k.e * cosf))

/-- the second component of the velocity in the plane -/
noncomputable def v2Of (ecc : Option Ecc) (k0 cosf : ℝ) : ℝ :=
  match ecc with
  | none => k0 * cosf
  | some k => k0 * (cosf + k.e)

theorem posVel_parts (kep : ℝ → ℝ → ℝ × ℝ) (au : ℝ) (o : OrbitalBody) (t : ℝ) (a m K p : Option ℝ) : o.posVel kep au t a m K p =
    (o.rotateVector (distanceOf o.ecc (scaleOf au o a p) (o.trueAnomaly kep t).2 * (o.trueAnomaly kep t).2)
        (distanceOf o.ecc (scaleOf au o a p) (o.trueAnomaly kep t).2 * (o.trueAnomaly kep t).1),
      o.rotateVector (-amplitude au o m K p * (o.trueAnomaly kep t).1) (v2Of o.ecc (amplitude au o m K p) (o.trueAnomaly kep t).2)
        (K.orElse fun _ => o.radial_velocity_semiamplitude).isNone) := by
  unfold OrbitalBody.posVel distanceOf scaleOf amplitude amplitudeOfMass v2Of
  cases a <;> cases m <;> cases K <;> cases p <;> cases o.ecc <;> cases o.radial_velocity_semiamplitude <;> cases o.parallax <;> rfl

variable {t : ℝ} {R : (ℝ → ℝ) → Dual → Prop} [hR : OrbitRel t R]
set_option linter.unusedSectionVars false
include hR

/-- an optional number -/
def TrOpt (R : (ℝ → ℝ) → Dual → Prop) (F : ℝ → Option ℝ) (a : Option Dual) : Prop :=
  match a with
  | none => ∀ s, F s = none
  | some a => ∃ f, (∀ s, F s = some (f s)) ∧ R f a

/-- the eccentricity -/
def TrEcc (R : (ℝ → ℝ) → Dual → Prop) (F : ℝ → Option Ecc) (a : Option EccD) : Prop :=
  match a with
  | none => ∀ s, F s = none
  | some k => ∃ f g h, (∀ s, F s = some ⟨f s, g s, h s⟩) ∧ R f k.e ∧ R g k.sinw ∧ R h k.cosw

/-- the node -/
def TrNode (R : (ℝ → ℝ) → Dual → Prop) (F : ℝ → Option (ℝ × ℝ)) (a : Option (Dual × Dual)) : Prop :=
  match a with
  | none => ∀ s, F s = none
  | some k => ∃ f g, (∀ s, F s = some (f s, g s)) ∧ R f k.1 ∧ R g k.2

/-- an orbit that depends on a parameter, with its derivatives -/
structure TrOrbit (R : (ℝ → ℝ) → Dual → Prop) (O : ℝ → OrbitalBody) (o : OrbitalBodyD) : Prop where
  cmass : R (fun s => (O s).central.mass) o.central.mass
  cradius : R (fun s => (O s).central.radius) o.central.radius
  time_ref : R (fun s => (O s).time_ref) o.time_ref
  time_transit : R (fun s => (O s).time_transit) o.time_transit
  period : R (fun s => (O s).period) o.period
  semimajor : R (fun s => (O s).semimajor) o.semimajor
  sin_inclination : R (fun s => (O s).sin_inclination) o.sin_inclination
  cos_inclination : R (fun s => (O s).cos_inclination) o.cos_inclination
  impact_param : R (fun s => (O s).impact_param) o.impact_param
  mass : TrOpt R (fun s => (O s).mass) o.mass
  ecc : TrEcc R (fun s => (O s).ecc) o.ecc
  node : TrNode R (fun s => (O s).node) o.node
  semiamplitude : TrOpt R (fun s => (O s).radial_velocity_semiamplitude) o.radial_velocity_semiamplitude
  parallax : TrOpt R (fun s => (O s).parallax) o.parallax

theorem trOpt_map {p : Option ((ℝ → ℝ) × Dual)} (h : ∀ q, p = some q → R q.1 q.2) :
    TrOpt R (fun s => p.map fun q => q.1 s) (p.map Prod.snd) := by
  cases p with
  | none => exact fun _ => rfl
  | some q => exact ⟨q.1, fun _ => rfl, h q rfl⟩

theorem trTotalMass {c : ℝ → Central} {cD : CentralD} (hc : R (fun s => (c s).mass) cD.mass) {F : ℝ → Option ℝ} {a : Option Dual} (h : TrOpt R F a) :
    R (fun s => totalMass (c s) (F s)) (totalMassD cD a) := by
  cases a with
  | none =>
    simp only [totalMassD]
    rwa [show (fun s => totalMass (c s) (F s)) = fun s => (c s).mass from funext fun s => by rw [h s]; rfl]
  | some a =>
    obtain ⟨f, hf, hr⟩ := h
    have := hR.add hr hc
    simp only [totalMassD]
    rwa [show (fun s => totalMass (c s) (F s)) = fun s => f s + (c s).mass from funext fun s => by rw [hf s]; rfl]

/-- the values at the parameter at which the derivative is taken are regular -/
structure RegularOrbit (c : Central) (o : OrbitalBody) (impact : Prop) : Prop where
  period : 0 < o.period
  semimajor : 0 < o.semimajor
  radius : 0 < c.radius
  ecc : ValidEcc o.ecc
  transit : ∀ k, o.ecc = some k → k.sinw ≠ -1
  tilt : impact → o.cos_inclination ^ 2 < 1

section init
variable {G : ℝ} {c : ℝ → Central} {cD : CentralD} {P : Body ((ℝ → ℝ) × Dual)}

theorem trPeriod (hP : ∀ q, some q ∈ P.args → R q.1 q.2) (hc : R (fun s => (c s).mass) cD.mass) {p0 a0 : ℝ}
    (h : periodSemimajor G (c t) (P.map fun q => q.1 t) = .ok (p0, a0)) (hp0 : 0 < p0) (ha0 : 0 < a0) :
    ∃ p a fP fA, periodSemimajorD G cD (P.map Prod.snd) = .ok (p, a) ∧ (∀ s, periodSemimajor G (c s) (P.map fun q => q.1 s) = .ok (fP s, fA s)) ∧ R fP p ∧ R fA a := by
  have hm : R (fun s => G * totalMass (c s) (P.mass.map fun q => q.1 s)) (Dual.const G * totalMassD cD (P.mass.map Prod.snd)) :=
    hR.mul (hR.const G) (trTotalMass hc (trOpt_map (R := R) fun q hq => hP q (by simp [Body.args, hq])))
  have hmv := hR.val hm
  cases hs : P.semimajor with
  | none =>
    cases hp : P.period with
    | none => simp [periodSemimajor, Body.map, hs, hp] at h
    | some p =>
      have hpr := hP p (by simp [Body.args, hp])
      have hx : R (fun s => G * totalMass (c s) (P.mass.map fun q => q.1 s) * p.1 s ^ 2 / (4 * π ^ 2))
          (Dual.const G * totalMassD cD (P.mass.map Prod.snd) * p.2.square / Dual.const (4 * π ^ 2)) :=
        hR.div (hR.mul hm (hR.square hpr)) (hR.const _) (by rw [const_v]; positivity)
      simp only [periodSemimajor, Body.map, hs, hp, Option.map_none, Option.map_some, Except.ok.injEq, Prod.mk.injEq] at h
      have hpos : 0 < (Dual.const G * totalMassD cD (P.mass.map Prod.snd) * p.2.square / Dual.const (4 * π ^ 2)).v := by
        rw [← hR.val hx]
        by_contra hn
        have h2 := h.2
        rw [not_lt] at hn
        unfold cbrt at h2
        split_ifs at h2 with h0
        · have : G * totalMass (c t) (P.mass.map fun q => q.1 t) * p.1 t ^ 2 / (4 * π ^ 2) = 0 := le_antisymm hn h0
          rw [this, Real.zero_rpow (by norm_num)] at h2
          linarith
        · have := Real.rpow_nonneg (x := -(G * totalMass (c t) (P.mass.map fun q => q.1 t) * p.1 t ^ 2 / (4 * π ^ 2))) (by linarith) (1 / 3)
          linarith
      exact ⟨_, _, p.1, fun s => Jaxoplanet.cbrt (G * totalMass (c s) (P.mass.map fun q => q.1 s) * p.1 s ^ 2 / (4 * π ^ 2)),
        by simp only [periodSemimajorD, Body.map, hs, hp, Option.map_none, Option.map_some], fun s => by
          simp only [periodSemimajor, Body.map, hs, hp, Option.map_none, Option.map_some], hpr, hR.cbrt hx hpos⟩
  | some a =>
    cases hp : P.period with
    | some p => simp [periodSemimajor, Body.map, hs, hp] at h
    | none =>
      have har := hP a (by simp [Body.args, hs])
      simp only [periodSemimajor, Body.map, hs, hp, Option.map_none, Option.map_some, Except.ok.injEq, Prod.mk.injEq] at h
      have hq : 0 < a.1 t / (G * totalMass (c t) (P.mass.map fun q => q.1 t)) := by
        by_contra hn
        rw [Real.sqrt_eq_zero_of_nonpos (not_lt.1 hn)] at h
        linarith [h.1]
      have hm0 : (Dual.const G * totalMassD cD (P.mass.map Prod.snd)).v ≠ 0 := by
        rw [← hmv]
        intro h0
        rw [h0, div_zero] at hq
        exact lt_irrefl _ hq
      have hd := hR.div har hm hm0
      exact ⟨_, _, fun s => 2 * π * a.1 s * √(a.1 s / (G * totalMass (c s) (P.mass.map fun q => q.1 s))), a.1,
        by simp only [periodSemimajorD, Body.map, hs, hp, Option.map_none, Option.map_some], fun s => by
          simp only [periodSemimajor, Body.map, hs, hp, Option.map_none, Option.map_some],
        hR.mul (hR.mul (hR.const _) har) (hR.sqrt hd (by rw [← hR.val hd]; exact hq)), har⟩

theorem trEccOf (hP : ∀ q, some q ∈ P.args → R q.1 q.2) {k0 : Option Ecc} (h : eccOf (P.map fun q => q.1 t) = .ok k0) :
    ∃ k F, eccOfD (P.map Prod.snd) = .ok k ∧ (∀ s, eccOf (P.map fun q => q.1 s) = .ok (F s)) ∧ TrEcc R F k := by
  cases he : P.eccentricity with
  | none => exact ⟨none, fun _ => none, by simp [eccOfD, Body.map, he], fun s => by simp [eccOf, Body.map, he], fun _ => rfl⟩
  | some e =>
    have her := hP e (by simp [Body.args, he])
    cases hw : P.omega_peri with
    | some w =>
      have hwr := hP w (by simp [Body.args, hw])
      exact ⟨some ⟨e.2, w.2.sin, w.2.cos⟩, fun s => some ⟨e.1 s, Real.sin (w.1 s), Real.cos (w.1 s)⟩, by simp [eccOfD, Body.map, he, hw],
        fun s => by simp [eccOf, Body.map, he, hw], e.1, _, _, fun _ => rfl, her, hR.sin hwr, hR.cos hwr⟩
    | none =>
      cases hs : P.sin_omega_peri with
      | none => simp [eccOf, Body.map, he, hw, hs] at h
      | some sw =>
        cases hcw : P.cos_omega_peri with
        | none => simp [eccOf, Body.map, he, hw, hs, hcw] at h
        | some cw =>
          exact ⟨some ⟨e.2, sw.2, cw.2⟩, fun s => some ⟨e.1 s, sw.1 s, cw.1 s⟩, by simp [eccOfD, Body.map, he, hw, hs, hcw],
            fun s => by simp [eccOf, Body.map, he, hw, hs, hcw], e.1, _, _, fun _ => rfl, her, hP sw (by simp [Body.args, hs]), hP cw (by simp [Body.args, hcw])⟩

theorem trNodeOf (hP : ∀ q, some q ∈ P.args → R q.1 q.2) : TrNode R (fun s => nodeOf (P.map fun q => q.1 s)) (nodeOfD (P.map Prod.snd)) := by
  cases hw : P.asc_node with
  | some w =>
    have hwr := hP w (by simp [Body.args, hw])
    simp only [nodeOfD, nodeOf, Body.map, hw, Option.map_some]
    exact ⟨_, _, fun _ => rfl, hR.sin hwr, hR.cos hwr⟩
  | none =>
    cases hs : P.sin_asc_node with
    | none => simp [nodeOfD, nodeOf, Body.map, hw, hs, TrNode]
    | some sw =>
      cases hcw : P.cos_asc_node with
      | none => simp [nodeOfD, nodeOf, Body.map, hw, hs, hcw, TrNode]
      | some cw =>
        simp only [nodeOfD, nodeOf, Body.map, hw, hs, hcw, Option.map_some, Option.map_none]
        exact ⟨_, _, fun _ => rfl, hP sw (by simp [Body.args, hs]), hP cw (by simp [Body.args, hcw])⟩

theorem TrEcc.M0 {F : ℝ → Option Ecc} {k : Option EccD} (h : TrEcc R F k) (hv : ValidEcc (F t)) (hs : ∀ k, F t = some k → k.sinw ≠ -1) :
    R (fun s => M0of (F s)) (M0ofD k) := by
  cases k with
  | none =>
    simp only [M0ofD]
    rw [show (fun s => M0of (F s)) = fun _ => 0.5 * π from funext fun s => by rw [h s]; rfl]
    exact hR.const _
  | some k =>
    obtain ⟨f, g, w, hF, hf, hg, hw⟩ := h
    obtain ⟨h0, h1, h2⟩ := hv _ (hF t)
    have h3 := hs _ (hF t)
    simp only at h0 h1 h2 h3
    have hE : R (fun s => 2 * arctan2 (√(1 - f s) * w s) (√(1 + f s) * (1 + g s))) (E0ofD k) := by
      have hx1 := hR.sub (hR.const 1) hf
      have hx2 := hR.add (hR.const 1) hf
      refine hR.mul (hR.const 2) (hR.atan2 (hR.mul (hR.sqrt hx1 ?_) hw) (hR.mul (hR.sqrt hx2 ?_) (hR.add (hR.const 1) hg)) ?_)
      · rw [← hR.val hx1]; linarith
      · rw [← hR.val hx2]; linarith
      · left
        rw [mul_v, sqrt_v, ← hR.val hx2, add_v, const_v, ← hR.val hg]
        have : -1 ≤ g t := by nlinarith [sq_nonneg (w t)]
        have : -1 < g t := lt_of_le_of_ne this (Ne.symm h3)
        have : 0 < √(1 + f t) := Real.sqrt_pos.2 (by linarith)
        exact mul_pos this (by linarith)
    simp only [M0ofD]
    rw [show (fun s => M0of (F s)) = fun s => (2 * arctan2 (√(1 - f s) * w s) (√(1 + f s) * (1 + g s))) -
      f s * Real.sin (2 * arctan2 (√(1 - f s) * w s) (√(1 + f s) * (1 + g s))) from funext fun s => by rw [hF s]; rfl]
    exact hR.sub hE (hR.mul hf (hR.sin hE))

theorem TrEcc.incl {F : ℝ → Option Ecc} {k : Option EccD} (h : TrEcc R F k) (hv : ValidEcc (F t)) :
    R (fun s => inclFactor (F s)) (inclFactorD k) ∧ 0 < inclFactor (F t) := by
  cases k with
  | none =>
    simp only [inclFactorD]
    rw [show (fun s => inclFactor (F s)) = fun _ => 1 from funext fun s => by rw [h s]; rfl, h t]
    exact ⟨hR.const _, one_pos⟩
  | some k =>
    obtain ⟨f, g, w, hF, hf, hg, hw⟩ := h
    obtain ⟨h0, h1, h2⟩ := hv _ (hF t)
    simp only at h0 h1 h2
    have hd := hR.sub (hR.const 1) (hR.square hf)
    have hd0 : 0 < 1 - f t ^ 2 := by nlinarith
    simp only [inclFactorD]
    rw [show (fun s => inclFactor (F s)) = fun s => (1 + f s * g s) / (1 - f s ^ 2) from funext fun s => by rw [hF s]; rfl, hF t]
    refine ⟨hR.div (hR.add (hR.const 1) (hR.mul hf hg)) hd (by rw [← hR.val hd]; exact hd0.ne'), ?_⟩
    have : |g t| ≤ 1 := abs_le_of_sq_le_sq (by nlinarith [sq_nonneg (w t)]) zero_le_one
    have h5 := (abs_le.1 this).1
    exact div_pos (by simp only; nlinarith) hd0

theorem trIncl (hP : ∀ q, some q ∈ P.args → R q.1 q.2) {f : ℝ → ℝ} {d : Dual} (hd : R f d) (h0 : f t ≠ 0)
    (htilt : P.impact_param.isSome → (inclOf (f t) (P.map fun q => q.1 t)).2.1 ^ 2 < 1) :
    R (fun s => (inclOf (f s) (P.map fun q => q.1 s)).1) (inclOfD d (P.map Prod.snd)).1 ∧
    R (fun s => (inclOf (f s) (P.map fun q => q.1 s)).2.1) (inclOfD d (P.map Prod.snd)).2.1 ∧
    R (fun s => (inclOf (f s) (P.map fun q => q.1 s)).2.2) (inclOfD d (P.map Prod.snd)).2.2 := by
  cases hb : P.impact_param with
  | some b =>
    have hbr := hP b (by simp [Body.args, hb])
    have ht := htilt (by simp [hb])
    simp only [inclOf, inclOfD, Body.map, hb, Option.map_some] at ht ⊢
    have hc := hR.mul hd hbr
    have hx := hR.sub (hR.const 1) (hR.square hc)
    exact ⟨hbr, hc, hR.sqrt hx (by rw [← hR.val hx]; linarith)⟩
  | none =>
    cases hi : P.inclination with
    | some i =>
      have hir := hP i (by simp [Body.args, hi])
      simp only [inclOf, inclOfD, Body.map, hb, hi, Option.map_some, Option.map_none]
      exact ⟨hR.div (hR.cos hir) hd (by rw [← hR.val hd]; exact h0), hR.cos hir, hR.sin hir⟩
    | none =>
      simp only [inclOf, inclOfD, Body.map, hb, hi, Option.map_none]
      exact ⟨hR.const 0, hR.const 0, hR.const 1⟩

omit hR in
/-- the last lines of `OrbitalBodyD.init` -/
noncomputable def buildOrbitD (cD : CentralD) (b : Body Dual) (p a : Dual) (k : Option EccD) : OrbitalBodyD :=
  { central := cD, time_ref := -M0ofD k * p / Dual.const (2 * π), time_transit := timeTransitD (-M0ofD k * p / Dual.const (2 * π)) b, period := p, semimajor := a,
    sin_inclination := (inclOfD (inclFactorD k * cD.radius / a) b).2.2, cos_inclination := (inclOfD (inclFactorD k * cD.radius / a) b).2.1,
    impact_param := (inclOfD (inclFactorD k * cD.radius / a) b).1, mass := b.mass, ecc := k, node := nodeOfD b,
    radial_velocity_semiamplitude := b.radial_velocity_semiamplitude, parallax := b.parallax }

theorem trInit (hP : ∀ q, some q ∈ P.args → R q.1 q.2) (hc : R (fun s => (c s).mass) cD.mass) (hr : R (fun s => (c s).radius) cD.radius)
    {o : OrbitalBody} (h : mkOrbitalBody G (c t) (P.map fun q => q.1 t) = .ok o) (hreg : RegularOrbit (c t) o P.impact_param.isSome) :
    ∃ O oD, mkOrbitalBodyD G cD (P.map Prod.snd) = .ok oD ∧ (∀ s, mkOrbitalBody G (c s) (P.map fun q => q.1 s) = .ok (O s)) ∧ O t = o ∧ TrOrbit R O oD := by
  have hcheck : P.checkInit (fun _ => 0) = .ok () := by
    rw [← checkInit_map (fun q => q.1 t)]
    unfold mkOrbitalBody Body.create at h
    cases hh : (P.map fun q => q.1 t).checkInit (fun _ => 0) with
    | error e => rw [hh] at h; simp [Except.map, Bind.bind, Except.bind] at h
    | ok u => rfl
  obtain ⟨-, p0, a0, k0, hps, hec, rfl⟩ := mkOrbitalBody_ok h
  obtain ⟨p, a, fP, fA, hpD, hpS, hpr, har⟩ := trPeriod (R := R) (cD := cD) hP hc hps hreg.period hreg.semimajor
  obtain ⟨k, F, hkD, hkS, hkr⟩ := trEccOf (R := R) hP hec
  have e1 : fP t = p0 ∧ fA t = a0 := by
    have := hpS t
    rw [hps] at this
    simpa using this.symm
  have e2 : F t = k0 := by
    have := hkS t
    rw [hec] at this
    simpa using this.symm
  have hv : ValidEcc (F t) := by rw [e2]; exact hreg.ecc
  have hM0 := hkr.M0 (t := t) hv (by rw [e2]; exact hreg.transit)
  obtain ⟨hI, hI0⟩ := hkr.incl (t := t) hv
  have hav : a.v = a0 := by rw [← hR.val har, e1.2]
  have hdc := hR.div (hR.mul hI hr) har (by rw [hav]; exact hreg.semimajor.ne')
  have hinc := trIncl (R := R) (t := t) hP hdc
    (div_ne_zero (mul_ne_zero hI0.ne' hreg.radius.ne') (by rw [e1.2]; exact hreg.semimajor.ne'))
    (fun hb => by
      have := hreg.tilt hb
      rw [e1.2, e2]
      exact this)
  have htr := hR.div (hR.mul (hR.neg hM0) hpr) (hR.const (2 * π)) (by rw [const_v]; positivity)
  refine ⟨fun s => buildOrbit (c s) (P.map fun q => q.1 s) (fP s) (fA s) (F s), buildOrbitD cD (P.map Prod.snd) p a k, ?_, fun s => ?_, ?_, ?_⟩
  rotate_left
  · unfold mkOrbitalBody Body.create
    rw [checkInit_map, hcheck]
    simp only [Except.map, Bind.bind, Except.bind, OrbitalBody.init, hpS s, hkS s]
    rfl
  · simp only [e1.1, e1.2, e2]
  rotate_left
  · unfold mkOrbitalBodyD Body.create
    rw [checkInit_map, hcheck]
    simp only [Except.map, Bind.bind, Except.bind, OrbitalBodyD.init, hpD, hkD]
    rfl
  refine ⟨hc, hr, htr, ?_, hpr, har, hinc.2.2, hinc.2.1, hinc.1, trOpt_map (R := R) fun q hq => hP q (by simp [Body.args, hq]), hkr, trNodeOf (t := t) hP,
    trOpt_map (R := R) fun q hq => hP q (by simp [Body.args, hq]), trOpt_map (R := R) fun q hq => hP q (by simp [Body.args, hq])⟩
  simp only [buildOrbit, buildOrbitD, timeTransitD]
  cases h1 : P.time_transit with
  | some q =>
    simp only [Body.map, h1, Option.map_some]
    exact hP q (by simp [Body.args, h1])
  | none =>
    cases h2 : P.time_peri with
    | some q =>
      simp only [Body.map, h1, h2, Option.map_some, Option.map_none]
      exact hR.sub (hP q (by simp [Body.args, h2])) htr
    | none =>
      simp only [Body.map, h1, h2, Option.map_none]
      exact hR.const 0

end init

/-! ## Positions and velocities -/

/-- a vector with its derivatives -/
structure TrV (R : (ℝ → ℝ) → Dual → Prop) (F : ℝ → V3) (v : V3D) : Prop where
  x : R (fun s => (F s).x) v.x
  y : R (fun s => (F s).y) v.y
  z : R (fun s => (F s).z) v.z

include hR

variable {O : ℝ → OrbitalBody} {o : OrbitalBodyD}

theorem TrEcc.rotateOmega {F : ℝ → Option Ecc} {k : Option EccD} (h : TrEcc R F k) {x y : ℝ → ℝ} {xD yD : Dual} (hx : R x xD) (hy : R y yD) :
    R (fun s => (Keplerian.rotateOmega (F s) (x s) (y s)).1) (rotateOmegaD k xD yD).1 ∧ R (fun s => (Keplerian.rotateOmega (F s) (x s) (y s)).2) (rotateOmegaD k xD yD).2 := by
  cases k with
  | none =>
    simp only [rotateOmegaD, Keplerian.rotateOmega, show ∀ s, F s = none from h]
    exact ⟨hx, hy⟩
  | some k =>
    obtain ⟨f, g, w, hF, hf, hg, hw⟩ := h
    simp only [rotateOmegaD, Keplerian.rotateOmega, hF]
    exact ⟨hR.sub (hR.mul hw hx) (hR.mul hg hy), hR.add (hR.mul hg hx) (hR.mul hw hy)⟩

theorem TrNode.rotate {F : ℝ → Option (ℝ × ℝ)} {k : Option (Dual × Dual)} (h : TrNode R F k) {x y z : ℝ → ℝ} {xD yD zD : Dual} (hx : R x xD) (hy : R y yD) (hz : R z zD) :
    TrV R (fun s => rotateNode (F s) (x s) (y s) (z s)) (rotateNodeD k xD yD zD) := by
  cases k with
  | none =>
    simp only [rotateNodeD, rotateNode, show ∀ s, F s = none from h]
    exact ⟨hx, hy, hz⟩
  | some k =>
    obtain ⟨f, g, hF, hf, hg⟩ := h
    simp only [rotateNodeD, rotateNode, hF]
    exact ⟨hR.sub (hR.mul hg hx) (hR.mul hf hy), hR.add (hR.mul hf hx) (hR.mul hg hy), hz⟩

theorem TrOrbit.rotateVector (h : TrOrbit R O o) {x y : ℝ → ℝ} {xD yD : Dual} (hx : R x xD) (hy : R y yD) (i : Bool) :
    TrV R (fun s => (O s).rotateVector (x s) (y s) i) (o.rotateVector xD yD i) := by
  have hw := h.ecc.rotateOmega hx hy
  simp only [rotateVector_parts, OrbitalBodyD.rotateVector]
  cases i <;> simp only [if_true, Bool.false_eq_true, if_false]
  · exact h.node.rotate hw.1 hw.2 (hR.neg hw.2)
  · exact h.node.rotate hw.1 (hR.mul h.cos_inclination hw.2) (hR.mul (hR.neg h.sin_inclination) hw.2)

theorem TrOrbit.meanAnomaly (h : TrOrbit R O o) (hp : (O t).period ≠ 0) {f : ℝ → ℝ} {a : Dual} (hf : R f a) :
    R (fun s => (O s).meanAnomaly (f s)) (o.meanAnomaly a) :=
  hR.div (hR.mul (hR.const _) (hR.sub (hR.sub hf h.time_transit) h.time_ref)) h.period (by rw [← hR.val h.period]; exact hp)

theorem TrOrbit.trueAnomaly (h : TrOrbit R O o) {kep : ℝ → ℝ → ℝ × ℝ} (hkep : KepRel kep R) (hp : (O t).period ≠ 0) (hv : ValidEcc (O t).ecc)
    {f : ℝ → ℝ} {a : Dual} (hf : R f a) :
    R (fun s => ((O s).trueAnomaly kep (f s)).1) (o.trueAnomaly kep a).1 ∧ R (fun s => ((O s).trueAnomaly kep (f s)).2) (o.trueAnomaly kep a).2 := by
  have hM := h.meanAnomaly hp hf
  have he := h.ecc
  unfold OrbitalBody.trueAnomaly OrbitalBodyD.trueAnomaly
  cases hk : o.ecc with
  | none =>
    rw [hk] at he
    simp only [show ∀ s, (O s).ecc = none from he]
    exact ⟨hR.sin hM, hR.cos hM⟩
  | some k =>
    rw [hk] at he
    obtain ⟨e, g, w, hF, hf, hg, hw⟩ := he
    obtain ⟨h0, h1, -⟩ := hv _ (hF t)
    simp only at h0 h1
    simp only [hF]
    exact hkep hM hf (by rw [← hR.val hf]; exact h0) (by rw [← hR.val hf]; exact h1)

theorem TrOpt.or {F F' : ℝ → Option ℝ} {a a' : Option Dual} (h : TrOpt R F a) (h' : TrOpt R F' a') :
    TrOpt R (fun s => (F s).orElse fun _ => F' s) (a.orElse fun _ => a') := by
  cases a with
  | none =>
    simp only [show ∀ s, F s = none from h, Option.orElse_none]
    exact h'
  | some a =>
    obtain ⟨f, hf, hr⟩ := h
    exact ⟨f, fun s => by simp [hf], hr⟩

theorem TrOpt.isNone {F : ℝ → Option ℝ} {a : Option Dual} (h : TrOpt R F a) (s : ℝ) : (F s).isNone = a.isNone := by
  cases a with
  | none => simp [show ∀ s, F s = none from h]
  | some a =>
    obtain ⟨f, hf, hr⟩ := h
    simp [hf]

theorem TrOrbit.amplitudeOfMass (h : TrOrbit R O o) (hp : (O t).period ≠ 0) (hm : (O t).total_mass ≠ 0) (hv : ValidEcc (O t).ecc)
    {m : ℝ → Option ℝ} {mD : Option Dual} (hmr : TrOpt R m mD) : R (fun s => Keplerian.amplitudeOfMass (O s) (m s)) (o.amplitudeOfMass mD) := by
  have hg : R (fun s => (m s).getD 1) (mD.getD (Dual.const 1)) := by
    cases mD with
    | none =>
      simp only [show ∀ s, m s = none from hmr]
      exact hR.const 1
    | some a =>
      obtain ⟨f, hf, hr⟩ := hmr
      simp only [hf]
      exact hr
  have ht : R (fun s => (O s).total_mass) o.total_mass := trTotalMass h.cmass h.mass
  have hd := hR.mul ht h.period
  have hk := hR.div (hR.mul (hR.mul (hR.const (2 * π)) h.semimajor) hg) hd (by rw [← hR.val hd]; exact mul_ne_zero hm hp)
  have he := h.ecc
  unfold Keplerian.amplitudeOfMass OrbitalBodyD.amplitudeOfMass
  cases hk' : o.ecc with
  | none =>
    rw [hk'] at he
    simp only [show ∀ s, (O s).ecc = none from he]
    exact hk
  | some k =>
    rw [hk'] at he
    obtain ⟨e, g, w, hF, hf, hg, hw⟩ := he
    obtain ⟨h0, h1, -⟩ := hv _ (hF t)
    simp only at h0 h1
    have hx := hR.sub (hR.const 1) (hR.square hf)
    have hx0 : 0 < 1 - e t ^ 2 := by nlinarith
    simp only [hF]
    exact hR.div hk (hR.sqrt hx (by rw [← hR.val hx]; exact hx0)) (by rw [sqrt_v, ← hR.val hx]; exact (Real.sqrt_pos.2 hx0).ne')

theorem TrOrbit.amplitude (h : TrOrbit R O o) (hp : (O t).period ≠ 0) (hm : (O t).total_mass ≠ 0) (hv : ValidEcc (O t).ecc) (au : ℝ)
    {m K p : ℝ → Option ℝ} {mD KD pD : Option Dual} (hmr : TrOpt R m mD) (hK : TrOpt R K KD) (hpr : TrOpt R p pD) :
    R (fun s => Keplerian.amplitude au (O s) (m s) (K s) (p s)) (o.k0 au mD KD pD) := by
  have h1 := h.amplitudeOfMass hp hm hv hmr
  have h2 := hK.or h.semiamplitude
  have h3 := hpr.or h.parallax
  unfold Keplerian.amplitude OrbitalBodyD.k0
  revert h2
  generalize (KD.orElse fun _ => o.radial_velocity_semiamplitude) = KD'
  intro h2
  cases KD' with
  | some k =>
    obtain ⟨f, hf, hr⟩ := h2
    simp only [hf]
    exact hr
  | none =>
    simp only [show ∀ s, ((K s).orElse fun _ => (O s).radial_velocity_semiamplitude) = none from h2]
    revert h3
    generalize (pD.orElse fun _ => o.parallax) = pD'
    intro h3
    cases pD' with
    | none =>
      simp only [show ∀ s, ((p s).orElse fun _ => (O s).parallax) = none from h3]
      exact h1
    | some q =>
      obtain ⟨f, hf, hr⟩ := h3
      simp only [hf]
      exact hR.mul (hR.mul h1 (hR.const au)) hr

theorem TrOrbit.scale (h : TrOrbit R O o) (au : ℝ) {a p : ℝ → Option ℝ} {aD pD : Option Dual} (ha : TrOpt R a aD) (hpr : TrOpt R p pD) :
    R (fun s => scaleOf au (O s) (a s) (p s)) (o.r0 au aD pD) := by
  have h3 := hpr.or h.parallax
  unfold scaleOf OrbitalBodyD.r0
  cases aD with
  | none =>
    simp only [show ∀ s, a s = none from ha]
    exact hR.const 1
  | some b =>
    obtain ⟨f, hf, hr⟩ := ha
    simp only [hf]
    revert h3
    generalize (pD.orElse fun _ => o.parallax) = pD'
    intro h3
    cases pD' with
    | none =>
      simp only [show ∀ s, ((p s).orElse fun _ => (O s).parallax) = none from h3]
      exact hr
    | some q =>
      obtain ⟨g, hg, hr'⟩ := h3
      simp only [hg]
      exact hR.mul (hR.mul hr (hR.const au)) hr'

theorem TrOrbit.posVel (h : TrOrbit R O o) {kep : ℝ → ℝ → ℝ × ℝ} (hkep : KepRel kep R) (hu : UnitInRange kep) (hp : (O t).period ≠ 0) (hm : (O t).total_mass ≠ 0) (hv : ValidEcc (O t).ecc) (au : ℝ)
    {f : ℝ → ℝ} {tD : Dual} (hf : R f tD) {a m K p : ℝ → Option ℝ} {aD mD KD pD : Option Dual} (ha : TrOpt R a aD) (hmr : TrOpt R m mD) (hK : TrOpt R K KD) (hpr : TrOpt R p pD) :
    TrV R (fun s => ((O s).posVel kep au (f s) (a s) (m s) (K s) (p s)).1) (o.posVel kep au tD aD mD KD pD).1 ∧
    TrV R (fun s => ((O s).posVel kep au (f s) (a s) (m s) (K s) (p s)).2) (o.posVel kep au tD aD mD KD pD).2 := by
  obtain ⟨h1, h2⟩ := h.trueAnomaly hkep hp hv hf
  have hk := h.amplitude hp hm hv au hmr hK hpr
  have hr0 := h.scale au ha hpr
  have he := h.ecc
  have hd : R (fun s => distanceOf (O s).ecc (scaleOf au (O s) (a s) (p s)) ((O s).trueAnomaly kep (f s)).2) (distanceD o.ecc (o.r0 au aD pD) (o.trueAnomaly kep tD).2) ∧
      R (fun s => v2Of (O s).ecc (Keplerian.amplitude au (O s) (m s) (K s) (p s)) ((O s).trueAnomaly kep (f s)).2) (v2D o.ecc (o.k0 au mD KD pD) (o.trueAnomaly kep tD).2) := by
    unfold distanceOf distanceD v2Of v2D
    cases hk' : o.ecc with
    | none =>
      rw [hk'] at he
      simp only [show ∀ s, (O s).ecc = none from he]
      exact ⟨hr0, hR.mul hk h2⟩
    | some k =>
      rw [hk'] at he
      obtain ⟨e, g, w, hF, hf', hg, hw⟩ := he
      obtain ⟨h0, h1', -⟩ := hv _ (hF t)
      simp only at h0 h1'
      simp only [hF]
      have hx := hR.add (hR.const 1) (hR.mul hf' h2)
      refine ⟨hR.mul hr0 (hR.div (hR.sub (hR.const 1) (hR.square hf')) hx ?_), hR.mul hk (hR.add h2 hf')⟩
      rw [← hR.val hx]
      have hc : |((O t).trueAnomaly kep (f t)).2| ≤ 1 := by
        have : ((O t).trueAnomaly kep (f t)).1 ^ 2 + ((O t).trueAnomaly kep (f t)).2 ^ 2 = 1 := by
          have hFt : (O t).ecc = _ := hF t
          unfold OrbitalBody.trueAnomaly
          rw [hFt]
          exact hu _ _ h0 h1'
        exact abs_le_of_sq_le_sq (by nlinarith [sq_nonneg ((O t).trueAnomaly kep (f t)).1]) zero_le_one
      have := (abs_le.1 hc).1
      have : 0 < 1 + e t * ((O t).trueAnomaly kep (f t)).2 := by nlinarith
      exact this.ne'
  simp only [posVel_parts, OrbitalBodyD.posVel]
  refine ⟨h.rotateVector (hR.mul hd.1 h2) (hR.mul hd.1 h1) true, ?_⟩
  have hi := (hK.or h.semiamplitude).isNone
  simp only [hi]
  exact h.rotateVector (hR.mul (hR.neg hk) h1) hd.2 _

end Jaxoplanet.Keplerian
