import Verif.Props.KeplerAccuracy
import Verif.Props.Elements

/-!
# C77: positions, velocities and transits with the code's own Kepler solver

`transit_is_transit_partial`, `velocity_is_derivative` and `relative_position_from_elements` are about an exact Kepler
solver. Here the error bound of the code's own solver (C76) is carried through to the positions, velocities, radial
velocities and transits.
-/

namespace Jaxoplanet.Keplerian

open Real Spec

/-- the distance of two vectors is at most `d` -/
def Within (d : ℝ) (v w : V3) : Prop := normSq ⟨v.x - w.x, v.y - w.y, v.z - w.z⟩ ≤ d ^ 2

theorem Within.coord {d : ℝ} {v w : V3} (hd : 0 ≤ d) (h : Within d v w) :
    |v.x - w.x| ≤ d ∧ |v.y - w.y| ≤ d ∧ |v.z - w.z| ≤ d := by
  unfold Within normSq at h
  simp only at h
  refine ⟨?_, ?_, ?_⟩ <;> refine abs_le_of_sq_le_sq ?_ hd <;>
    nlinarith [sq_nonneg (v.x - w.x), sq_nonneg (v.y - w.y), sq_nonneg (v.z - w.z)]

theorem rotateVector_sub (o : OrbitalBody) (inc : Bool) (x y x' y' : ℝ) :
    (⟨(o.rotateVector x y inc).x - (o.rotateVector x' y' inc).x, (o.rotateVector x y inc).y - (o.rotateVector x' y' inc).y,
      (o.rotateVector x y inc).z - (o.rotateVector x' y' inc).z⟩ : V3) = o.rotateVector (x - x') (y - y') inc := by
  rw [rotateVector_linear o inc x y, rotateVector_linear o inc x' y', rotateVector_linear o inc (x - x') (y - y')]
  ext <;> simp only <;> ring

/-- in the orbital plane: the point is within `6.3e-14` semimajor axes of the exact one, uniformly in the eccentricity -/
theorem plane_accurate {e : ℝ} (he0 : 0 ≤ e) (he : e < 1) (M f : ℝ) (hf : TrueAnomalyAt M e f) :
    ((1 - e ^ 2) / (1 + e * (Kepler.kepler M e).2) * (Kepler.kepler M e).2 - (1 - e ^ 2) / (1 + e * cos f) * cos f) ^ 2 +
    ((1 - e ^ 2) / (1 + e * (Kepler.kepler M e).2) * (Kepler.kepler M e).1 - (1 - e ^ 2) / (1 + e * cos f) * sin f) ^ 2 ≤
      (6.3e-14) ^ 2 := by
  obtain ⟨E', hE', hfE'⟩ := hf
  obtain ⟨n, E, h1, h2⟩ := Kepler.solveE_accurate he0 he M
  have hEE := Kepler.keplerEq_unique he0 he h1 (Kepler.keplerEq_add_two_pi n hE')
  have hT : Kepler.toTrueAnomaly e E = (sin f, cos f) := by
    rw [hEE, Kepler.toTrueAnomaly_add_two_pi he0 he, Kepler.toTrueAnomaly_of_isTrueAnomaly he0 he hfE']
  have hee : 0 < 1 - e ^ 2 := by nlinarith
  have pt : ∀ x : ℝ, (1 - e ^ 2) / (1 + e * (Kepler.toTrueAnomaly e x).2) * (Kepler.toTrueAnomaly e x).2 = cos x - e ∧
      (1 - e ^ 2) / (1 + e * (Kepler.toTrueAnomaly e x).2) * (Kepler.toTrueAnomaly e x).1 = √(1 - e ^ 2) * sin x := by
    intro x
    have p := Kepler.one_sub_ecos_pos he0 he x
    have hden : 1 + e * ((cos x - e) / (1 - e * cos x)) = (1 - e ^ 2) / (1 - e * cos x) := by
      field_simp
      ring
    rw [Kepler.toTrueAnomaly_eq he0 he]
    simp only
    rw [hden, div_div_cancel₀ hee.ne']
    constructor <;> field_simp
  have hk : Kepler.kepler M e = Kepler.toTrueAnomaly e (Kepler.solveE M e) := rfl
  have hs : sin f = (Kepler.toTrueAnomaly e E).1 := by rw [hT]
  have hc : cos f = (Kepler.toTrueAnomaly e E).2 := by rw [hT]
  rw [hk, hs, hc, (pt _).1, (pt _).1, (pt _).2, (pt _).2]
  have hq : √(1 - e ^ 2) ^ 2 = 1 - e ^ 2 := sq_sqrt hee.le
  generalize Kepler.solveE M e = x at *
  have b := abs_le.1 h2
  have hx : (x - E) ^ 2 ≤ (6.3e-14) ^ 2 := by
    rw [← sq_abs]; gcongr
  have h3 := one_sub_sq_div_two_le_cos (x := x - E)
  rw [cos_sub] at h3
  have s1 := sin_sq_add_cos_sq x
  have s2 := sin_sq_add_cos_sq E
  refine le_trans ?_ hx
  have : (√(1 - e ^ 2) * sin x - √(1 - e ^ 2) * sin E) ^ 2 = (1 - e ^ 2) * (sin x - sin E) ^ 2 := by
    linear_combination (sin x - sin E) ^ 2 * hq
  rw [this]
  nlinarith [sq_nonneg (e * (sin x - sin E))]

variable {o : OrbitalBody}

theorem eVal_mem (hk : ValidEcc o.ecc) : 0 ≤ o.eVal ∧ o.eVal < 1 := by
  unfold OrbitalBody.eVal
  cases ho : o.ecc with
  | none => simp
  | some k => exact ⟨(hk k ho).1, (hk k ho).2.1⟩

/-- the true anomaly that the code's solver returns, against that of an exact solver -/
theorem trueAnomaly_accurate {kep : ℝ → ℝ → ℝ × ℝ} (hkep : ExactSolver kep) (hk : ValidEcc o.ecc) (t : ℝ) :
    ((o.trueAnomaly Kepler.kepler t).1 - (o.trueAnomaly kep t).1) ^ 2 +
      ((o.trueAnomaly Kepler.kepler t).2 - (o.trueAnomaly kep t).2) ^ 2 ≤ (1.3e-13) ^ 2 ∧
    (o.rho (o.trueAnomaly Kepler.kepler t).2 * (o.trueAnomaly Kepler.kepler t).2 -
        o.rho (o.trueAnomaly kep t).2 * (o.trueAnomaly kep t).2) ^ 2 +
      (o.rho (o.trueAnomaly Kepler.kepler t).2 * (o.trueAnomaly Kepler.kepler t).1 -
        o.rho (o.trueAnomaly kep t).2 * (o.trueAnomaly kep t).1) ^ 2 ≤ (6.3e-14) ^ 2 := by
  cases ho : o.ecc with
  | none =>
    have : o.trueAnomaly Kepler.kepler t = o.trueAnomaly kep t := by unfold OrbitalBody.trueAnomaly; rw [ho]
    rw [this]
    simp
    norm_num
  | some k =>
    obtain ⟨h0, h1, -⟩ := hk k ho
    obtain ⟨f, hf, hkf⟩ := hkep (o.meanAnomaly t) k.e h0 h1
    have e1 : o.trueAnomaly Kepler.kepler t = Kepler.kepler (o.meanAnomaly t) k.e := by
      unfold OrbitalBody.trueAnomaly; rw [ho]
    have e2 : o.trueAnomaly kep t = (sin f, cos f) := by
      unfold OrbitalBody.trueAnomaly; rw [ho]; exact hkf
    have e3 : ∀ x, o.rho x = (1 - k.e ^ 2) / (1 + k.e * x) := by
      intro x; unfold OrbitalBody.rho OrbitalBody.eVal; rw [ho]
    rw [e1, e2, e3, e3]
    exact ⟨Kepler.kepler_accurate h0 h1 _ f hf, plane_accurate h0 h1 _ f hf⟩

/-- the length unit of a position: with a parallax (of the call or of the body) positions are angles -/
noncomputable def posScale (o : OrbitalBody) (au : ℝ) (p : Option ℝ) : ℝ :=
  match p with
  | some p => au * p
  | none => match o.parallax with
    | some p => au * p
    | none => 1

theorem posVel_fst_scaled (kep : ℝ → ℝ → ℝ × ℝ) (au : ℝ) (o : OrbitalBody) (t a : ℝ) (m K p : Option ℝ) :
    (o.posVel kep au t (some a) m K p).1 =
      o.rotateVector (a * posScale o au p * (o.rho (o.trueAnomaly kep t).2 * (o.trueAnomaly kep t).2))
        (a * posScale o au p * (o.rho (o.trueAnomaly kep t).2 * (o.trueAnomaly kep t).1)) := by
  rw [posVel_fst]
  unfold posScale
  cases p <;> cases o.parallax <;> simp [mul_assoc]

theorem velocity_amplitude_scaled (o : OrbitalBody) (mu : ℝ) (au : ℝ) (kep : ℝ → ℝ → ℝ × ℝ) (t : ℝ)
    (hK : o.radial_velocity_semiamplitude = none) (V : ℝ)
    (hV : V = 2 * π * o.semimajor / o.period / √(1 - o.eVal ^ 2) * posScale o au none) :
    (o.posVel kep au t none (some mu) none none).2 =
      o.rotateVector (-(mu / o.total_mass * V) * (o.trueAnomaly kep t).1)
        (mu / o.total_mass * V * ((o.trueAnomaly kep t).2 + o.eVal)) := by
  rw [velocity_amplitude o mu au _ t hK, hV]
  unfold posScale
  cases o.parallax <;> simp only [mul_one, one_mul] <;> (congr 1 <;> ring)

theorem posVel_fst_accurate {kep : ℝ → ℝ → ℝ × ℝ} (hkep : ExactSolver kep) (au : ℝ) (hk : ValidEcc o.ecc)
    (hn : ValidNode o.node) (hi : o.sin_inclination ^ 2 + o.cos_inclination ^ 2 = 1) (t a : ℝ) (m K p : Option ℝ) :
    Within (6.3e-14 * (a * posScale o au p))
      (o.posVel Kepler.kepler au t (some a) m K p).1 (o.posVel kep au t (some a) m K p).1 := by
  unfold Within
  rw [posVel_fst_scaled, posVel_fst_scaled, rotateVector_sub, rotateVector_normSq o hk hn hi]
  generalize a * posScale o au p = s
  have h := (trueAnomaly_accurate hkep hk t).2
  calc _ = s ^ 2 * ((o.rho (o.trueAnomaly Kepler.kepler t).2 * (o.trueAnomaly Kepler.kepler t).2 -
        o.rho (o.trueAnomaly kep t).2 * (o.trueAnomaly kep t).2) ^ 2 +
      (o.rho (o.trueAnomaly Kepler.kepler t).2 * (o.trueAnomaly Kepler.kepler t).1 -
        o.rho (o.trueAnomaly kep t).2 * (o.trueAnomaly kep t).1) ^ 2) := by ring
    _ ≤ s ^ 2 * (6.3e-14) ^ 2 := by gcongr
    _ = _ := by ring

/-- **C77 (a).** Positions: `position`, `relative_position` and `central_position`, with the code's own solver, are
within `6.3e-14` times the size of the respective orbit of the positions that an exact solver gives (which C12, C18 and
C59 are about), for every eccentricity, orientation, time and parallax. -/
theorem positions_accurate {kep : ℝ → ℝ → ℝ × ℝ} (hkep : ExactSolver kep) (au : ℝ) (hk : ValidEcc o.ecc)
    (hn : ValidNode o.node) (hi : o.sin_inclination ^ 2 + o.cos_inclination ^ 2 = 1) (t : ℝ) (p : Option ℝ) :
    Within (6.3e-14 * (o.semimajor * posScale o au p)) (o.relative_position Kepler.kepler au t p)
      (o.relative_position kep au t p) ∧
    Within (6.3e-14 * (o.semimajor * o.central.mass / o.total_mass * posScale o au p)) (o.position Kepler.kepler au t p)
      (o.position kep au t p) ∧
    (∀ m, o.mass = some m → ∃ q q', o.central_position Kepler.kepler au t p = .ok q ∧
      o.central_position kep au t p = .ok q' ∧
      Within (6.3e-14 * (o.semimajor * m / o.total_mass * posScale o au p)) q q') := by
  have h := fun a => posVel_fst_accurate hkep au hk hn hi t a none none p
  refine ⟨?_, ?_, fun m hm => ⟨_, _, by unfold OrbitalBody.central_position; rw [hm],
    by unfold OrbitalBody.central_position; rw [hm], h _⟩⟩
  · have := h (-o.semimajor)
    unfold Within at this ⊢
    unfold OrbitalBody.relative_position
    refine this.trans (le_of_eq ?_)
    ring
  · have := h (-o.semimajor * o.central.mass / o.total_mass)
    unfold Within at this ⊢
    unfold OrbitalBody.position
    refine this.trans (le_of_eq ?_)
    ring

/-- **C77 (b).** Velocities: `velocity`, `relative_velocity` and `central_velocity` are within `1.3e-13` times the
velocity scale `2π a / (P √(1-e²))` of the respective orbit of those that an exact solver gives, which are the time
derivatives of the exact positions (C18). -/
theorem velocities_accurate {kep : ℝ → ℝ → ℝ × ℝ} (hkep : ExactSolver kep) (au : ℝ) (hk : ValidEcc o.ecc)
    (hn : ValidNode o.node) (hi : o.sin_inclination ^ 2 + o.cos_inclination ^ 2 = 1)
    (hK : o.radial_velocity_semiamplitude = none) (t : ℝ) :
    let V := 2 * π * o.semimajor / o.period / √(1 - o.eVal ^ 2) * posScale o au none
    (∃ v v', o.velocity Kepler.kepler au t = .ok v ∧ o.velocity kep au t = .ok v' ∧
      Within (1.3e-13 * (o.central.mass / o.total_mass * V)) v v') ∧
    (∃ v v', o.relative_velocity Kepler.kepler au t = .ok v ∧ o.relative_velocity kep au t = .ok v' ∧
      Within (1.3e-13 * (o.total_mass / o.total_mass * V)) v v') ∧
    (∀ m, o.mass = some m →
      Within (1.3e-13 * (m / o.total_mass * V)) (o.central_velocity Kepler.kepler au t) (o.central_velocity kep au t)) := by
  intro V
  have key : ∀ mu, Within (1.3e-13 * (mu / o.total_mass * V)) (o.posVel Kepler.kepler au t none (some mu) none none).2
      (o.posVel kep au t none (some mu) none none).2 := by
    intro mu
    unfold Within
    rw [velocity_amplitude_scaled o mu au _ t hK V rfl, velocity_amplitude_scaled o mu au _ t hK V rfl]
    rw [rotateVector_sub, rotateVector_normSq o hk hn hi]
    generalize mu / o.total_mass * V = s
    have h := (trueAnomaly_accurate hkep hk t).1
    calc _ = s ^ 2 * (((o.trueAnomaly Kepler.kepler t).1 - (o.trueAnomaly kep t).1) ^ 2 +
          ((o.trueAnomaly Kepler.kepler t).2 - (o.trueAnomaly kep t).2) ^ 2) := by ring
      _ ≤ s ^ 2 * (1.3e-13) ^ 2 := by gcongr
      _ = _ := by ring
  have neg : ∀ mu v v', Within (1.3e-13 * (-mu / o.total_mass * V)) v v' → Within (1.3e-13 * (mu / o.total_mass * V)) v v' := by
    intro mu v v' h
    unfold Within at h ⊢
    refine h.trans (le_of_eq ?_)
    ring
  refine ⟨⟨_, _, rfl, rfl, neg _ _ _ (key _)⟩, ⟨_, _, rfl, rfl, neg _ _ _ (key _)⟩, fun m hm => ?_⟩
  unfold OrbitalBody.central_velocity
  simp only [hm]
  exact key m

/-- **C77 (c).** The radial velocity with a semi-amplitude `K` (given to the method or carried by the body) is within
`1.3e-13 K` of the textbook curve `K (cos(ω + f) + e cos ω)` at the exact true anomaly. -/
theorem radial_velocity_accurate (au : ℝ) (t K : ℝ) (arg : Option ℝ)
    (h : arg = some K ∨ (arg = none ∧ o.radial_velocity_semiamplitude = some K))
    {e w : ℝ} (he0 : 0 ≤ e) (he : e < 1) (hecc : o.ecc = some ⟨e, sin w, cos w⟩) (f : ℝ)
    (hf : TrueAnomalyAt (2 * π * (t - o.time_peri) / o.period) e f) :
    |o.radial_velocity Kepler.kepler au t arg - K * (cos (w + f) + e * cos w)| ≤ 1.3e-13 * |K| := by
  rw [radial_velocity_prescribed _ au o t K arg h, hecc, cos_add]
  rw [← meanAnomaly_eq] at hf
  have h1 := Kepler.kepler_accurate he0 he _ f hf
  have e1 : o.trueAnomaly Kepler.kepler t = Kepler.kepler (o.meanAnomaly t) e := by
    unfold OrbitalBody.trueAnomaly; rw [hecc]
  simp only [e1]
  have h2 : K * (cos w * (Kepler.kepler (o.meanAnomaly t) e).2 - sin w * (Kepler.kepler (o.meanAnomaly t) e).1 + e * cos w) -
      K * (cos w * cos f - sin w * sin f + e * cos w) =
      (cos w * ((Kepler.kepler (o.meanAnomaly t) e).2 - cos f) - sin w * ((Kepler.kepler (o.meanAnomaly t) e).1 - sin f)) * K := by
    ring
  rw [h2, abs_mul]
  gcongr
  refine abs_le_of_sq_le_sq (le_trans ?_ h1) (by norm_num)
  have := sin_sq_add_cos_sq w
  generalize (Kepler.kepler (o.meanAnomaly t) e).2 - cos f = p
  generalize (Kepler.kepler (o.meanAnomaly t) e).1 - sin f = q
  nlinarith [sq_nonneg (cos w * q + sin w * p)]

/-- **C77 (d).** The textbook position: `relative_position` is within `6.3e-14 a` of the textbook position of the orbital
elements that were given (C59, here for the code's own solver). -/
theorem relative_position_from_elements_accurate (au : ℝ)
    {G : ℝ} {c : Central} {b : Body ℝ} (h : mkOrbitalBody G c b = .ok o)
    {e w i Ω : ℝ} (he : EccIs b e) (he0 : 0 ≤ e) (he1 : e < 1) (hw : OmegaIs b w) (hi : InclIs b i)
    (hΩ : NodeIs b Ω) (hp : b.parallax = none) (t : ℝ) :
    ∃ f, TrueAnomalyAt (2 * π * (t - o.time_peri) / o.period) e f ∧
      Within (6.3e-14 * o.semimajor) (o.relative_position Kepler.kepler au t)
        (elementPosition (o.semimajor * ((1 - e ^ 2) / (1 + e * cos f))) f w i Ω) := by
  obtain ⟨kep, hkep⟩ := exists_exactSolver
  obtain ⟨f, hf, hr⟩ := relative_position_from_elements hkep au h he he0 he1 hw hi hΩ hp t
  refine ⟨f, hf, ?_⟩
  rw [← hr]
  have hk : ValidEcc o.ecc := by
    intro k hk
    rcases ecc_resolved h he hw with ⟨hec, _, _⟩ | hec
    · rw [hec] at hk; cases hk
    · rw [hec] at hk; cases hk
      exact ⟨he0, he1, sin_sq_add_cos_sq w⟩
  have hn : ValidNode o.node := by
    intro s c hs
    rcases node_resolved h hΩ with ⟨hec, _⟩ | hec
    · rw [hec] at hs; cases hs
    · rw [hec] at hs; cases hs
      exact sin_sq_add_cos_sq Ω
  obtain ⟨his, hic⟩ := incl_resolved h hi
  have hpar : o.parallax = none := by
    obtain ⟨_, P, a, ecc, _, _, rfl⟩ := mkOrbitalBody_ok h
    exact hp
  have := (positions_accurate hkep au hk hn (by rw [his, hic]; exact sin_sq_add_cos_sq i) t none).1
  unfold posScale at this
  rw [hpar] at this
  simpa using this

/-- **C77 (e).** Transits: at `time_transit + n * period` the code's own solver puts the body within `6.3e-14 a` of the
point `|impact_param| R_star` away from the centre of the star, in front of the star at the distance of conjunction (C12, here
for the code's own solver). -/
theorem transit_is_transit_accurate (au : ℝ)
    {G : ℝ} {c : Central} {b : Body ℝ} (h : mkOrbitalBody G c b = .ok o) (hP : 0 < o.period) (ha : 0 < o.semimajor)
    (hR : 0 < c.radius) (hk : ValidEcc o.ecc) (hs : ∀ k, o.ecc = some k → k.sinw ≠ -1)
    (hn : ValidNode o.node) (hi : o.sin_inclination ^ 2 + o.cos_inclination ^ 2 = 1)
    (hpar : o.parallax = none) (n : ℤ) :
    Within (6.3e-14 * o.semimajor) (o.relative_position Kepler.kepler au (o.time_transit + n * o.period))
      (match o.node with
        | none => ⟨0, -(o.impact_param * c.radius), o.sin_inclination * conjRadius o⟩
        | some (sΩ, cΩ) => ⟨sΩ * (o.impact_param * c.radius), -(cΩ * (o.impact_param * c.radius)),
            o.sin_inclination * conjRadius o⟩) := by
  obtain ⟨kep, hkep⟩ := exists_exactSolver
  have h1 := (positions_accurate hkep au hk hn hi (o.time_transit + n * o.period) none).1
  obtain ⟨h2, h3, -⟩ := transit_is_transit_partial hkep au h hP ha hR hk hs hpar n
  unfold posScale at h1
  rw [hpar] at h1
  simp only [mul_one] at h1
  have : (match o.node with
        | none => (⟨0, -(o.impact_param * c.radius), o.sin_inclination * conjRadius o⟩ : V3)
        | some (sΩ, cΩ) => ⟨sΩ * (o.impact_param * c.radius), -(cΩ * (o.impact_param * c.radius)),
            o.sin_inclination * conjRadius o⟩) = o.relative_position kep au (o.time_transit + n * o.period) := by
    rcases hno : o.node with _ | ⟨s, c⟩ <;> rw [hno] at h2 <;> ext
    · exact h2.1.symm
    · exact h2.2.symm
    · exact h3.symm
    · exact h2.1.symm
    · exact h2.2.symm
    · exact h3.symm
  rw [this]
  exact h1

theorem sqrt_sub_sqrt_le (x y x' y' : ℝ) :
    |√(x ^ 2 + y ^ 2) - √(x' ^ 2 + y' ^ 2)| ≤ √((x - x') ^ 2 + (y - y') ^ 2) := by
  have hn : ∀ a b : ℝ, √(a ^ 2 + b ^ 2) = ‖(⟨a, b⟩ : ℂ)‖ := by
    intro a b
    rw [Complex.norm_def, Complex.normSq_mk]
    congr 1
    ring
  rw [hn, hn, hn]
  exact abs_norm_sub_norm_le _ _

/-- **C77 (f).** The sky-projected separation that `relative_angles` returns at a transit is `|impact_param| R_star` up to
`6.3e-14 a`; and the body is in front of the star if it is so by more than that. -/
theorem transit_separation_accurate (au : ℝ)
    {G : ℝ} {c : Central} {b : Body ℝ} (h : mkOrbitalBody G c b = .ok o) (hP : 0 < o.period) (ha : 0 < o.semimajor)
    (hR : 0 < c.radius) (hk : ValidEcc o.ecc) (hs : ∀ k, o.ecc = some k → k.sinw ≠ -1)
    (hn : ValidNode o.node) (hi : o.sin_inclination ^ 2 + o.cos_inclination ^ 2 = 1)
    (hpar : o.parallax = none) (n : ℤ) :
    |(o.relative_angles Kepler.kepler au (o.time_transit + n * o.period)).1 - |o.impact_param| * c.radius| ≤
      6.3e-14 * o.semimajor ∧
    (6.3e-14 * o.semimajor < o.sin_inclination * conjRadius o →
      0 < (o.relative_position Kepler.kepler au (o.time_transit + n * o.period)).z) := by
  have hW := transit_is_transit_accurate au h hP ha hR hk hs hn hi hpar n
  have hd : (0 : ℝ) ≤ 6.3e-14 * o.semimajor := by positivity
  unfold OrbitalBody.relative_angles
  simp only
  generalize o.relative_position Kepler.kepler au (o.time_transit + n * o.period) = r at *
  have main : ∀ w : V3, Within (6.3e-14 * o.semimajor) r w → w.x ^ 2 + w.y ^ 2 = (|o.impact_param| * c.radius) ^ 2 →
      w.z = o.sin_inclination * conjRadius o →
      |√(r.x ^ 2 + r.y ^ 2) - |o.impact_param| * c.radius| ≤ 6.3e-14 * o.semimajor ∧
      (6.3e-14 * o.semimajor < o.sin_inclination * conjRadius o → 0 < r.z) := by
    intro w hw h1 h2
    constructor
    · have h3 : |o.impact_param| * c.radius = √(w.x ^ 2 + w.y ^ 2) := by
        rw [h1, sqrt_sq (by positivity)]
      rw [h3]
      refine (sqrt_sub_sqrt_le _ _ _ _).trans (sqrt_le_iff.2 ⟨hd, ?_⟩)
      unfold Within normSq at hw
      simp only at hw
      linarith [sq_nonneg (r.z - w.z)]
    · intro h3
      have h4 := abs_le.1 (hw.coord hd).2.2
      rw [h2] at h4
      linarith [h4.1]
  rcases hno : o.node with _ | ⟨s, q⟩ <;> rw [hno] at hW
  · exact main _ hW (by simp only; rw [mul_pow, sq_abs]; ring) rfl
  · have := hn s q hno
    exact main _ hW (by simp only; rw [mul_pow |o.impact_param|, sq_abs]; linear_combination (o.impact_param * c.radius) ^ 2 * this) rfl

/-- non-vacuity: a highly eccentric, inclined orbit with a node, built by the code -/
example : ∃ o, mkOrbitalBody 1 ⟨1, 1, 1⟩
    { period := some 100, eccentricity := some 0.95, omega_peri := some 1, asc_node := some 2,
      inclination := some 1.5, time_transit := some 5 } = .ok o ∧ ∀ t, ∃ f,
      TrueAnomalyAt (2 * π * (t - o.time_peri) / o.period) 0.95 f ∧
      Within (6.3e-14 * o.semimajor) (o.relative_position Kepler.kepler 1 t)
        (elementPosition (o.semimajor * ((1 - 0.95 ^ 2) / (1 + 0.95 * cos f))) f 1 1.5 2) := by
  obtain ⟨o, ho⟩ := mkOrbitalBody_of_accepted 1 ⟨1, 1, 1⟩
    (b := { period := some 100, eccentricity := some 0.95, omega_peri := some 1,
            asc_node := some 2, inclination := some 1.5, time_transit := some 5 })
    (by constructor <;> simp [Given, ScalarIfGiven])
  exact ⟨o, ho, fun t => relative_position_from_elements_accurate 1 ho (Or.inl rfl) (by norm_num) (by norm_num)
    (Or.inl rfl) (Or.inl ⟨rfl, rfl⟩) (Or.inl rfl) rfl t⟩

/-- non-vacuity of (e), (f): an eccentric, inclined orbit, built by the code, meets every hypothesis -/
example : ∃ o, mkOrbitalBody 1 ⟨1, 1, 1⟩
    { period := some 100, eccentricity := some 0.3, omega_peri := some 0, asc_node := some 2,
      inclination := some 1.5, time_transit := some 5 } = .ok o ∧ o.time_transit = 5 ∧ ∀ n : ℤ,
      |(o.relative_angles Kepler.kepler 1 (5 + n * o.period)).1 - |o.impact_param| * 1| ≤ 6.3e-14 * o.semimajor := by
  obtain ⟨o, ho⟩ := mkOrbitalBody_of_accepted 1 ⟨1, 1, 1⟩
    (b := { period := some 100, eccentricity := some 0.3, omega_peri := some 0,
            asc_node := some 2, inclination := some 1.5, time_transit := some 5 })
    (by constructor <;> simp [Given, ScalarIfGiven])
  have h3 := kepler_third_law (by norm_num) (by simp) (by simp) ho
  have hecc := (ecc_resolved ho (e := 0.3) (w := 0) (Or.inl rfl) (Or.inl rfl)).resolve_left (by norm_num)
  have hno := (node_resolved ho (Ω := 2) (Or.inl rfl)).resolve_left (by norm_num)
  obtain ⟨his, hic⟩ := incl_resolved ho (i := 1.5) (Or.inl ⟨rfl, rfl⟩)
  have ht := (time_transit_kept ho).1 5 rfl
  refine ⟨o, ho, ht, fun n => ?_⟩
  have := (transit_separation_accurate 1 ho h3.2.1 h3.2.2.1 one_pos
    (by intro k hk; rw [hecc] at hk; cases hk; norm_num)
    (by intro k hk; rw [hecc] at hk; cases hk; norm_num)
    (by intro s c hk; rw [hno] at hk; cases hk; exact sin_sq_add_cos_sq 2)
    (by rw [his, hic]; exact sin_sq_add_cos_sq 1.5)
    (by obtain ⟨_, P, a, ecc, _, _, rfl⟩ := mkOrbitalBody_ok ho; rfl) n).1
  rwa [ht] at this

end Jaxoplanet.Keplerian
