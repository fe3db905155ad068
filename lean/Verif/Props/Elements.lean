import Verif.Spec.Elements
import Verif.Props.Orbit

/-!
# C59, C60, C61: orbital elements, options of a body, velocities with a semi-amplitude
-/

namespace Jaxoplanet

open Real Spec Keplerian

/-- resolved eccentricity: with an eccentricity, the sine and cosine are those of the argument -/
theorem ecc_resolved {G : ℝ} {c : Central} {b : Body ℝ} {o : OrbitalBody} (h : mkOrbitalBody G c b = .ok o)
    {e w : ℝ} (he : EccIs b e) (hw : OmegaIs b w) :
    (o.ecc = none ∧ e = 0 ∧ w = 0) ∨ o.ecc = some ⟨e, sin w, cos w⟩ := by
  obtain ⟨hacc, P, a, ecc, _, hecc, rfl⟩ := mkOrbitalBody_ok h
  show (ecc = none ∧ _) ∨ ecc = _
  have hiff := hacc.ecc_iff_omega
  unfold eccOf at hecc
  rcases he with he | ⟨he, rfl⟩
  · right
    rw [he] at hecc hiff
    rcases hw with hw | ⟨hw, hs, hc⟩ | ⟨hw, hs, hc, rfl⟩
    · rw [hw] at hecc
      simpa using hecc.symm
    · rw [hw, hs, hc] at hecc
      simpa using hecc.symm
    · rw [hw, hs, hc] at hiff
      simp [Given] at hiff
  · left
    rw [he] at hecc hiff
    refine ⟨by simpa using hecc.symm, rfl, ?_⟩
    rcases hw with hw | ⟨hw, hs, hc⟩ | ⟨_, _, _, hw⟩
    · rw [hw] at hiff; simp [Given] at hiff
    · rw [hw, hs, hc] at hiff; simp [Given] at hiff
    · exact hw

theorem node_resolved {G : ℝ} {c : Central} {b : Body ℝ} {o : OrbitalBody} (h : mkOrbitalBody G c b = .ok o)
    {Ω : ℝ} (hΩ : NodeIs b Ω) : (o.node = none ∧ Ω = 0) ∨ o.node = some (sin Ω, cos Ω) := by
  obtain ⟨_, P, a, ecc, _, _, rfl⟩ := mkOrbitalBody_ok h
  show (nodeOf b = none ∧ _) ∨ nodeOf b = _
  unfold nodeOf
  rcases hΩ with h | ⟨h, hs, hc⟩ | ⟨h, hs, hc, rfl⟩
  · right; rw [h]
  · right; rw [h, hs, hc]
  · left; rw [h, hs, hc]; simp

theorem incl_resolved {G : ℝ} {c : Central} {b : Body ℝ} {o : OrbitalBody} (h : mkOrbitalBody G c b = .ok o)
    {i : ℝ} (hi : InclIs b i) : o.sin_inclination = sin i ∧ o.cos_inclination = cos i := by
  obtain ⟨_, P, a, ecc, _, _, rfl⟩ := mkOrbitalBody_ok h
  rcases hi with ⟨h1, h2⟩ | ⟨h1, h2, rfl⟩
  · constructor <;> simp [buildOrbit, inclOf, h1, h2]
  · constructor <;> simp [buildOrbit, inclOf, h1, h2]

theorem meanAnomaly_eq (o : OrbitalBody) (t : ℝ) :
    o.meanAnomaly t = 2 * π * (t - o.time_peri) / o.period := by
  unfold OrbitalBody.meanAnomaly OrbitalBody.warpTimes OrbitalBody.time_peri
  ring

/-- **C59.** The relative position is the textbook position for the orbital elements that were given
(missing elements: circular, node 0, edge on), at the true anomaly of the mean anomaly
`2π (t - time_peri) / period`, at distance `a (1 - e²) / (1 + e cos f)`. -/
theorem relative_position_from_elements {kep : ℝ → ℝ → ℝ × ℝ} (hkep : ExactSolver kep) (au : ℝ)
    {G : ℝ} {c : Central} {b : Body ℝ} {o : OrbitalBody} (h : mkOrbitalBody G c b = .ok o)
    {e w i Ω : ℝ} (he : EccIs b e) (he0 : 0 ≤ e) (he1 : e < 1) (hw : OmegaIs b w) (hi : InclIs b i)
    (hΩ : NodeIs b Ω) (hp : b.parallax = none) (t : ℝ) :
    ∃ f, TrueAnomalyAt (2 * π * (t - o.time_peri) / o.period) e f ∧
      o.relative_position kep au t =
        elementPosition (o.semimajor * ((1 - e ^ 2) / (1 + e * cos f))) f w i Ω := by
  have hpar : o.parallax = none := by
    obtain ⟨_, P, a, ecc, _, _, rfl⟩ := mkOrbitalBody_ok h
    exact hp
  obtain ⟨his, hic⟩ := incl_resolved h hi
  have hn := node_resolved h hΩ
  rcases ecc_resolved h he hw with ⟨hec, rfl, rfl⟩ | hec
  · refine ⟨o.meanAnomaly t, ⟨o.meanAnomaly t, ?_, ?_⟩, ?_⟩
    · rw [← meanAnomaly_eq]; simp [KeplerEq]
    · simp [IsTrueAnomaly]
    · unfold OrbitalBody.relative_position OrbitalBody.posVel OrbitalBody.trueAnomaly
        OrbitalBody.rotateVector elementPosition rotZ rotX
      rw [hec, hpar, his, hic]
      rcases hn with ⟨hn, rfl⟩ | hn
      · rw [hn]
        ext <;> simp
      · rw [hn]
        ext <;> simp <;> ring
  · obtain ⟨f, hf, hkf⟩ := hkep (o.meanAnomaly t) e he0 he1
    refine ⟨f, by rw [← meanAnomaly_eq]; exact hf, ?_⟩
    unfold OrbitalBody.relative_position OrbitalBody.posVel OrbitalBody.trueAnomaly
      OrbitalBody.rotateVector elementPosition rotZ rotX
    rw [hec, hpar, his, hic]
    simp only [hkf]
    rcases hn with ⟨hn, rfl⟩ | hn
    · rw [hn]
      ext <;> simp <;> ring
    · rw [hn]
      ext <;> simp <;> ring

/-- **C60.** The `inclination` and `omega_peri` properties return the angles that were given. -/
theorem angles_kept {G : ℝ} {c : Central} {b : Body ℝ} {o : OrbitalBody} (h : mkOrbitalBody G c b = .ok o) :
    (∀ i, InclIs b i → -π < i → i ≤ π → o.inclination = i) ∧
    (∀ e w, b.eccentricity = some e → OmegaIs b w → -π < w → w ≤ π → o.omega_peri = some w) ∧
    (b.eccentricity = none → o.omega_peri = none) := by
  have harg : ∀ α : ℝ, -π < α → α ≤ π → arctan2 (sin α) (cos α) = α := by
    intro α h1 h2
    unfold arctan2
    have := Complex.arg_cos_add_sin_mul_I (θ := α) ⟨h1, h2⟩
    rw [← Complex.ofReal_cos, ← Complex.ofReal_sin] at this
    have h3 : (⟨cos α, sin α⟩ : ℂ) = ((cos α : ℝ) : ℂ) + ((sin α : ℝ) : ℂ) * Complex.I := by
      apply Complex.ext <;> simp [-Complex.ofReal_cos, -Complex.ofReal_sin]
    rw [h3, this]
  refine ⟨fun i hi h1 h2 => ?_, fun e w he hw h1 h2 => ?_, fun he => ?_⟩
  · obtain ⟨his, hic⟩ := incl_resolved h hi
    unfold OrbitalBody.inclination
    rw [his, hic, harg i h1 h2]
  · rcases ecc_resolved h (Or.inl he) hw with ⟨hec, _, _⟩ | hec
    · obtain ⟨_, P, a, ecc, _, hecc, rfl⟩ := mkOrbitalBody_ok h
      change ecc = none at hec
      subst hec
      unfold eccOf at hecc
      rw [he] at hecc
      simp only at hecc
      split at hecc <;> simp at hecc
    · unfold OrbitalBody.omega_peri
      rw [hec]
      simp [harg w h1 h2]
  · obtain ⟨_, P, a, ecc, _, hecc, rfl⟩ := mkOrbitalBody_ok h
    unfold eccOf at hecc
    rw [he] at hecc
    simp only [Except.ok.injEq] at hecc
    subst hecc
    rfl

/-- **C60.** Giving `omega_peri` or its sine and cosine, `asc_node` or its sine and cosine, is the same. -/
theorem angle_or_sine_cosine (G : ℝ) (c : Central) (b : Body ℝ) (w Ω : ℝ) :
    let b0 := { b with omega_peri := none, sin_omega_peri := none, cos_omega_peri := none }
    let n0 := { b with asc_node := none, sin_asc_node := none, cos_asc_node := none }
    (∀ o, mkOrbitalBody G c { b0 with omega_peri := some w } = .ok o ↔
      mkOrbitalBody G c { b0 with sin_omega_peri := some (sin w), cos_omega_peri := some (cos w) } = .ok o) ∧
    (∀ o, mkOrbitalBody G c { n0 with asc_node := some Ω } = .ok o ↔
      mkOrbitalBody G c { n0 with sin_asc_node := some (sin Ω), cos_asc_node := some (cos Ω) } = .ok o) := by
  have acc : ∀ b1 b2 : Body ℝ, (AcceptedBody (fun _ => 0) b1 ↔ AcceptedBody (fun _ => 0) b2) →
      (∀ P a ecc, buildOrbit c b1 P a ecc = buildOrbit c b2 P a ecc) →
      periodSemimajor G c b1 = periodSemimajor G c b2 → eccOf b1 = eccOf b2 →
      ∀ o, mkOrbitalBody G c b1 = .ok o ↔ mkOrbitalBody G c b2 = .ok o := by
    intro b1 b2 hA hB hP hE o
    have half : ∀ b1 b2 : Body ℝ, (AcceptedBody (fun _ => 0) b1 ↔ AcceptedBody (fun _ => 0) b2) →
      (∀ P a ecc, buildOrbit c b1 P a ecc = buildOrbit c b2 P a ecc) →
      periodSemimajor G c b1 = periodSemimajor G c b2 → eccOf b1 = eccOf b2 →
      mkOrbitalBody G c b1 = .ok o → mkOrbitalBody G c b2 = .ok o := by
      intro b1 b2 hA hB hP hE h
      obtain ⟨ha, P, a, ecc, h1, h2, h3⟩ := mkOrbitalBody_ok h
      obtain ⟨o', ho'⟩ := mkOrbitalBody_of_accepted G c (hA.1 ha)
      obtain ⟨_, P', a', ecc', h1', h2', h3'⟩ := mkOrbitalBody_ok ho'
      rw [← hP, h1, Except.ok.injEq, Prod.mk.injEq] at h1'
      rw [← hE, h2, Except.ok.injEq] at h2'
      obtain ⟨rfl, rfl⟩ := h1'
      subst h2'
      rw [ho', h3', h3, hB]
    exact ⟨half b1 b2 hA hB hP hE, half b2 b1 hA.symm (fun P a e => (hB P a e).symm) hP.symm hE.symm⟩
  refine ⟨acc _ _ ?_ ?_ ?_ ?_, acc _ _ ?_ ?_ ?_ ?_⟩
  · constructor
    · rintro ⟨h1, h2, h3, h4, h5, h6, h7, h8, h9⟩
      refine ⟨h1, ?_, ?_, ?_, h5, h6, ?_, h8, h9⟩ <;> simp_all [Given, ScalarIfGiven]
    · rintro ⟨h1, h2, h3, h4, h5, h6, h7, h8, h9⟩
      refine ⟨h1, ?_, ?_, ?_, h5, h6, ?_, h8, h9⟩ <;> simp_all [Given, ScalarIfGiven]
  · intro P a ecc; rfl
  · rfl
  · rfl
  · constructor
    · rintro ⟨h1, h2, h3, h4, h5, h6, h7, h8, h9⟩
      refine ⟨h1, ?_, h3, h4, ?_, ?_, h7, h8, h9⟩ <;> simp_all [Given, ScalarIfGiven]
    · rintro ⟨h1, h2, h3, h4, h5, h6, h7, h8, h9⟩
      refine ⟨h1, ?_, h3, h4, ?_, ?_, h7, h8, h9⟩ <;> simp_all [Given, ScalarIfGiven]
  · intro P a ecc; rfl
  · rfl
  · rfl

/-- **C60.** The parallax of the body is the default of the `parallax` argument of every position method,
and an argument overrides it. -/
theorem parallax_default (kep : ℝ → ℝ → ℝ × ℝ) (au : ℝ) (o : OrbitalBody) (t p : ℝ) :
    (o.parallax = some p →
      o.relative_position kep au t = o.relative_position kep au t (some p) ∧
      o.position kep au t = o.position kep au t (some p) ∧
      o.central_position kep au t = o.central_position kep au t (some p) ∧
      o.relative_angles kep au t = o.relative_angles kep au t (some p)) ∧
    (∀ q : Option ℝ, ({ o with parallax := q }).relative_position kep au t (some p) =
        o.relative_position kep au t (some p) ∧
      ({ o with parallax := q }).position kep au t (some p) = o.position kep au t (some p)) := by
  constructor
  · intro h
    have key : ∀ a m s, o.posVel kep au t a m s none = o.posVel kep au t a m s (some p) := by
      intro a m s
      unfold OrbitalBody.posVel
      rw [h]
    have h1 : o.relative_position kep au t = o.relative_position kep au t (some p) := by
      unfold OrbitalBody.relative_position; rw [key]
    refine ⟨h1, ?_, ?_, ?_⟩
    · unfold OrbitalBody.position; rw [key]
    · unfold OrbitalBody.central_position
      cases o.mass with
      | none => rfl
      | some m => simp only [key]
    · unfold OrbitalBody.relative_angles; rw [h1]
  · intro q
    exact ⟨rfl, rfl⟩

/-- **C60.** `relative_angles` are polar coordinates of the relative position on the sky. -/
theorem relative_angles_polar (kep : ℝ → ℝ → ℝ × ℝ) (au : ℝ) (o : OrbitalBody) (t : ℝ) (p : Option ℝ) :
    let r := o.relative_position kep au t p
    let a := o.relative_angles kep au t p
    0 ≤ a.1 ∧ r.x = a.1 * cos a.2 ∧ r.y = a.1 * sin a.2 ∧ -π < a.2 ∧ a.2 ≤ π := by
  simp only [OrbitalBody.relative_angles]
  generalize o.relative_position kep au t p = r
  have hn : √(r.x ^ 2 + r.y ^ 2) = ‖(⟨r.x, r.y⟩ : ℂ)‖ := by
    rw [Complex.norm_def, Complex.normSq_mk]; ring_nf
  refine ⟨Real.sqrt_nonneg _, ?_, ?_, Complex.neg_pi_lt_arg _, Complex.arg_le_pi _⟩
  · rw [hn]
    unfold arctan2
    have := Complex.norm_mul_cos_arg (⟨r.x, r.y⟩ : ℂ)
    rw [this]
  · rw [hn]
    unfold arctan2
    have := Complex.norm_mul_sin_arg (⟨r.x, r.y⟩ : ℂ)
    rw [this]

/-- **C61.** With a semi-amplitude passed to the methods, momenta balance, the relative velocity is the
difference of the two, and the star's velocity does not depend on the body's own semi-amplitude. -/
theorem momentum_balance_semiamplitude (kep : ℝ → ℝ → ℝ × ℝ) (au : ℝ) (o : OrbitalBody) {m K : ℝ}
    (hm : o.mass = some m) (hm0 : m ≠ 0) (t : ℝ) :
    ∃ v w, o.velocity kep au t (some K) = .ok v ∧ o.relative_velocity kep au t (some K) = .ok w ∧
      let q := o.central_velocity kep au t (some K)
      (m * v.x + o.central.mass * q.x = 0 ∧ m * v.y + o.central.mass * q.y = 0 ∧
       m * v.z + o.central.mass * q.z = 0) ∧
      (w.x = v.x - q.x ∧ w.y = v.y - q.y ∧ w.z = v.z - q.z) := by
  have htm : o.total_mass = m + o.central.mass := by
    unfold OrbitalBody.total_mass totalMass; rw [hm]
  have hv : ∀ k : ℝ, (o.posVel kep au t none none (some k) none).2 =
      o.rotateVector (-k * (o.trueAnomaly kep t).1) (k * ((o.trueAnomaly kep t).2 + o.eVal)) false := by
    intro k
    unfold OrbitalBody.posVel OrbitalBody.eVal
    cases o.ecc <;> simp
  refine ⟨_, _, by simp only [OrbitalBody.velocity, hm]; rfl, by simp only [OrbitalBody.relative_velocity, hm]; rfl, ?_⟩
  simp only [OrbitalBody.central_velocity, hv]
  simp only [rotateVector_linear o false (_ * _) (_ * _), htm]
  constructor <;> refine ⟨?_, ?_, ?_⟩ <;> (field_simp; ring)

/-- **C61.** Without a mass these methods fail instead of dividing by nothing. -/
theorem velocity_semiamplitude_massless (kep : ℝ → ℝ → ℝ × ℝ) (au : ℝ) (o : OrbitalBody) (K t : ℝ)
    (hm : o.mass = none) :
    (∃ s, o.velocity kep au t (some K) = .error (.typeError s)) ∧
    (∃ s, o.relative_velocity kep au t (some K) = .error (.typeError s)) := by
  simp [OrbitalBody.velocity, OrbitalBody.relative_velocity, hm]

/-- the hypotheses of `relative_position_from_elements` are met by a body with every angle given -/
example : ∃ b : Body ℝ, ∃ o, mkOrbitalBody 1 ⟨1, 1, 1⟩ b = .ok o ∧ EccIs b 0.3 ∧ OmegaIs b 1 ∧ InclIs b 1.5 ∧
    NodeIs b 0.7 ∧ b.parallax = none := by
  let b : Body ℝ := { period := some 2, eccentricity := some 0.3, omega_peri := some 1, inclination := some 1.5, asc_node := some 0.7 }
  obtain ⟨o, ho⟩ := mkOrbitalBody_of_accepted 1 ⟨1, 1, 1⟩ (b := b) (by
      constructor <;> simp [Given, ScalarIfGiven, b])
  exact ⟨b, o, ho, Or.inl rfl, Or.inl rfl, Or.inl ⟨rfl, rfl⟩, Or.inl rfl, rfl⟩

end Jaxoplanet
