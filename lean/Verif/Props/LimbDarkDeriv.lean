import Verif.Proofs.LimbDarkGrad
import Verif.Props.LimbDark
import Verif.Model.LightCurve

/-!
# C90: the gradient of a light curve is its derivative
-/

namespace Jaxoplanet.LimbDark
open Real AD AD.Dual Filter Topology MeasureTheory Spec
variable {t : ℝ}

/-- C90: **the gradient is the derivative.** At every regular point, if limb darkening, position and radius are differentiable functions
of a parameter, the derivative that is computed (in either mode) is the derivative of the light curve that is computed. -/
theorem gradient_is_derivative {eps : ℝ} (he : 0 < eps) (he1 : 10 * eps ≤ 1) (strict : Bool) (quad : List (ℝ × ℝ)) (u : List (ℝ → ℝ)) (b r : ℝ → ℝ)
    (hu : ∀ f ∈ u, DifferentiableAt ℝ f t) (hb : DifferentiableAt ℝ b t) (hr : DifferentiableAt ℝ r t)
    (htot : totalFlux (u.map (· t)) ≠ 0) (hreg : Regular eps quad (b t) (r t)) :
    ∃ d, (lightCurveD eps strict quad (u.map (input t)) (input t b) (input t r)).d = some d ∧
      HasDerivAt (fun s => lightCurve eps quad (u.map (· s)) (b s) (r s)) d t :=
  (track_lightCurve he he1 strict hu (track_input hb) (track_input hr) (norm_ne htot) hreg).2

theorem totalFlux_nil_ne : totalFlux [] ≠ 0 := by
  have hs : (volume stellarDisc).toReal = π := by
    have := whole_star 0
    simpa [gtil, Measure.real] using this
  have : totalFlux [] = π := by
    simp only [totalFlux, profile, List.map_nil, List.length_nil, Finset.univ_eq_empty, Finset.sum_empty, sub_zero, setIntegral_const,
      smul_eq_mul, mul_one, Measure.real]
    exact hs
  rw [this]
  exact pi_pos.ne'

/-- C90, uniform star: the gradient is the exact derivative of the hidden fraction of the disc, with the sign changed. -/
theorem uniform_gradient {eps : ℝ} (he : 0 < eps) (he1 : 10 * eps ≤ 1) (strict : Bool) (quad : List (ℝ × ℝ)) (b r : ℝ → ℝ)
    (hb : DifferentiableAt ℝ b t) (hr : DifferentiableAt ℝ r t) (hreg : Regular eps [] (b t) (r t)) :
    ∃ d, (lightCurveD eps strict quad [] (input t b) (input t r)).d = some d ∧
      HasDerivAt (fun s => -(volume (stellarDisc ∩ occultor (b s) (r s))).toReal / π) d t := by
  have htot := totalFlux_nil_ne
  obtain ⟨d, h, h'⟩ := gradient_is_derivative he he1 strict [] [] b r (by simp) hb hr htot hreg
  refine ⟨d, h, ?_⟩
  have e : (fun s => -(volume (stellarDisc ∩ occultor (b s) (r s))).toReal / π) = fun s => lightCurve eps [] [] (b s) (r s) :=
    funext fun s => (uniform_light_curve eps [] (b s) (r s)).symm
  rw [e]
  exact h'

/-- C90: the light curve of an orbit. Away from the line of sight through the two centres the gradient is finite, in front of the star and behind it. -/
theorem orbit_gradient_finite {eps : ℝ} (he : 0 < eps) (strict : Bool) (quad : List (ℝ × ℝ)) (u : List Dual) (x y z radius r_star : Dual)
    (hu : ∀ a ∈ u, ∃ d, a.d = some d) (hx : ∃ d, x.d = some d) (hy : ∃ d, y.d = some d) (hR : ∃ d, radius.d = some d)
    (hS : ∃ d, r_star.d = some d) (htot : totalFlux (u.map (·.v)) ≠ 0)
    (hxy : ¬ (x.v = 0 ∧ y.v = 0)) (hrs : r_star.v ≠ 0) (hsize : radius.v ≠ 0) :
    ∃ d, (orbitFluxD eps strict quad u x y z radius r_star).d = some d := by
  have hpos : 0 < x.v ^ 2 + y.v ^ 2 := by
    rcases not_and_or.1 hxy with h | h <;> positivity
  have hb : Fin (Dual.sqrt (x.square + y.square) / r_star) := by
    refine fin_div ?_ hS hrs
    obtain ⟨d, hd⟩ := fin_add (fin_square hx) (fin_square hy)
    refine ⟨0.5 / √(x.v ^ 2 + y.v ^ 2) * d, ?_⟩
    have hpos' : 0 < (x.square + y.square).v := hpos
    change lin (if (x.square + y.square).v ≤ 0 then none else _) (x.square + y.square).d = _
    rw [if_neg (not_le.2 hpos'), hd]
    rfl
  have hr : Fin (radius / r_star) := fin_div hR hS hrs
  refine fin_where (gradient_finite he strict quad u _ _ hu hb hr htot ?_ ?_) (fin_const 0)
  · rintro ⟨-, h⟩
    exact div_ne_zero hsize hrs h
  · rintro ⟨h, -⟩
    exact div_ne_zero (Real.sqrt_pos.2 hpos).ne' hrs h

/-- C90: the light curve of an orbit. The gradient is the derivative of the flux in front of the star, and zero behind it. -/
theorem orbit_gradient_is_derivative {eps : ℝ} (he : 0 < eps) (he1 : 10 * eps ≤ 1) (strict : Bool) (quad : List (ℝ × ℝ)) (u : List (ℝ → ℝ))
    (x y z radius r_star : ℝ → ℝ) (hu : ∀ f ∈ u, DifferentiableAt ℝ f t) (hx : DifferentiableAt ℝ x t) (hy : DifferentiableAt ℝ y t)
    (hz : DifferentiableAt ℝ z t) (hR : DifferentiableAt ℝ radius t) (hS : DifferentiableAt ℝ r_star t)
    (htot : totalFlux (u.map (· t)) ≠ 0)
    (hxy : ¬ (x t = 0 ∧ y t = 0)) (hrs : r_star t ≠ 0) (hz0 : z t ≠ 0)
    (hreg : Regular eps quad (√(x t ^ 2 + y t ^ 2) / r_star t) (radius t / r_star t)) :
    ∃ d, (orbitFluxD eps strict quad (u.map (input t)) (input t x) (input t y) (input t z) (input t radius) (input t r_star)).d = some d ∧
      HasDerivAt (fun s => LightCurve.limbDarkTerm eps quad (u.map (· s)) (r_star s) (radius s) ⟨x s, y s, z s⟩) d t ∧
      (z t < 0 → d = 0) := by
  classical
  have hpos : 0 < x t ^ 2 + y t ^ 2 := by
    rcases not_and_or.1 hxy with h | h <;> positivity
  have hb := track_div (track_sqrt (track_add (track_square (track_input hx)) (track_square (track_input hy))) hpos) (track_input hS) hrs
  have hr := track_div (track_input hR) (track_input hS) hrs
  have hlc := track_lightCurve he he1 strict hu hb hr (norm_ne htot) hreg
  rcases lt_or_gt_of_ne hz0 with h | h
  · have hev : ∀ᶠ s in 𝓝 t, ¬ z s > 0 := ((track_input hz).ev_lt (c := 0) h).mono fun s hs => not_lt.2 hs.le
    have hc : ¬ (input t z).v > 0 := not_lt.2 (le_of_lt h)
    have h0 := track_where_neg (st := strict) (f := fun s => LimbDark.lightCurve eps quad (u.map (· s)) (√(x s ^ 2 + y s ^ 2) / r_star s) (radius s / r_star s)) hlc.fin (track_const 0 t) hc hev
    obtain ⟨d, hd, hd'⟩ := h0.2
    refine ⟨d, hd, ?_, fun _ => ?_⟩
    · refine hd'.congr_of_eventuallyEq (hev.mono fun s hs => ?_)
      simp only [LightCurve.limbDarkTerm, if_neg hs]
    · have hz' := (hasDerivAt_const t (0 : ℝ)).congr_of_eventuallyEq (hev.mono fun s hs => show (if z s > 0 then LimbDark.lightCurve eps quad (u.map (· s)) (√(x s ^ 2 + y s ^ 2) / r_star s) (radius s / r_star s) else 0) = 0 from if_neg hs)
      exact hd'.unique hz'
  · have hev : ∀ᶠ s in 𝓝 t, z s > 0 := (track_input hz).ev_gt (c := 0) h
    have hc : (input t z).v > 0 := h
    have h0 := track_where_pos (st := strict) (g := fun _ => 0) hlc (fin_const 0) hc hev
    obtain ⟨d, hd, hd'⟩ := h0.2
    refine ⟨d, hd, ?_, fun h' => absurd h' (not_lt.2 h.le)⟩
    refine hd'.congr_of_eventuallyEq (hev.mono fun s hs => ?_)
    simp only [LightCurve.limbDarkTerm, if_pos hs]

/-- a body inside the disc of the star: regular for every quadrature rule, with the `eps` of double precision -/
theorem regular_inside (quad : List (ℝ × ℝ)) : Regular (2 ^ (-52 : ℤ)) quad (1 / 2) (1 / 10) := by
  have hb : |(1 / 2 : ℝ)| = 1 / 2 := by norm_num
  have hr : |(1 / 10 : ℝ)| = 1 / 10 := by norm_num
  have h1r : |(1 - 1 / 10 : ℝ)| = 9 / 10 := by norm_num
  have he : (10 : ℝ) * 2 ^ (-52 : ℤ) < 1 / 100 := by norm_num
  refine ⟨by norm_num, by norm_num, by rw [hb, hr]; norm_num, by rw [hb, hr, h1r]; norm_num, fun h => ?_, fun _ => ?_, fun _ xw _ => ?_⟩
  · rw [hb, hr, Lens, h1r] at h
    norm_num at h
  · rw [hb, hr]
    intro h
    linarith
  · rw [hb, hr]
    have h1 := Real.cos_le_one (0.5 * (kappas (1 / 2) (1 / 10)).2.1 * xw.1 + 0.5 * (kappas (1 / 2) (1 / 10)).2.1)
    have h2 := Real.neg_one_le_cos (0.5 * (kappas (1 / 2) (1 / 10)).2.1 * xw.1 + 0.5 * (kappas (1 / 2) (1 / 10)).2.1)
    constructor <;> intro h <;> linarith

/-- a body crossing the limb, with the rule of order 1 -/
theorem regular_limb : Regular (2 ^ (-52 : ℤ)) [(0, 2)] 1 (1 / 2) := by
  have hb : |(1 : ℝ)| = 1 := by norm_num
  have hr : |(1 / 2 : ℝ)| = 1 / 2 := by norm_num
  have h1r : |(1 - 1 / 2 : ℝ)| = 1 / 2 := by norm_num
  have he : (10 : ℝ) * 2 ^ (-52 : ℤ) < 1 / 100 := by norm_num
  have hl : Lens (1 : ℝ) (1 / 2) := by
    rw [Lens, h1r]; norm_num
  obtain ⟨-, ha, -, -, -, hcos, -, -, -, hk, hkπ⟩ := lens_kappas hl
  refine ⟨by norm_num, by norm_num, by rw [hb, hr]; norm_num, by rw [hb, hr, h1r]; norm_num, fun h => ?_, fun _ => ?_, fun _ xw hxw => ?_⟩
  · rw [hb, hr, ha]
    norm_num
  · rw [hb, hr]
    intro h
    linarith
  · obtain rfl : xw = (0, 2) := by simpa using hxw
    rw [hb, hr]
    have hc2 := Real.cos_sq ((kappas 1 (1 / 2)).2.1 / 2)
    rw [mul_div_cancel₀ _ two_ne_zero, hcos] at hc2
    have hpos : 0 < Real.cos ((kappas 1 (1 / 2)).2.1 / 2) := Real.cos_pos_of_mem_Ioo ⟨by linarith, by linarith⟩
    have e : 0.5 * (kappas 1 (1 / 2)).2.1 * (0, (2 : ℝ)).1 + 0.5 * (kappas 1 (1 / 2)).2.1 = (kappas 1 (1 / 2)).2.1 / 2 := by simp; ring
    rw [e]
    norm_num at hc2
    have h1 : Real.cos ((kappas 1 (1 / 2)).2.1 / 2) < 8 / 10 := by nlinarith
    have h2 : 7 / 10 < Real.cos ((kappas 1 (1 / 2)).2.1 / 2) := by nlinarith
    constructor <;> intro h <;> linarith

/-- the hypotheses of the theorems are met: quadratic limb darkening, a transit with a changing impact parameter, reverse mode -/
example (quad : List (ℝ × ℝ)) : ∃ d, (lightCurveD (2 ^ (-52 : ℤ)) true quad ([fun _ => (0.3 : ℝ), fun s => s / 4].map (input (1 / 2)))
    (input (1 / 2) fun s => s) (input (1 / 2) fun _ => 1 / 10)).d = some d ∧
      HasDerivAt (fun s => lightCurve (2 ^ (-52 : ℤ)) quad [0.3, s / 4] s (1 / 10)) d (1 / 2) := by
  refine gradient_is_derivative (by positivity) (by norm_num) true quad [fun _ => (0.3 : ℝ), fun s => s / 4] (fun s => s) (fun _ => 1 / 10) ?_ differentiableAt_id
    (differentiableAt_const _) ?_ (regular_inside quad)
  · intro f hf
    simp only [List.mem_cons, List.not_mem_nil, or_false] at hf
    rcases hf with rfl | rfl
    · exact differentiableAt_const _
    · exact differentiableAt_id.div_const _
  · rw [totalFlux_eq (by simp)]
    refine mul_ne_zero pi_pos.ne' ?_
    simp [greens, gHigh, pCoeff, uAug, Finset.sum_range_succ]
    norm_num

end Jaxoplanet.LimbDark
