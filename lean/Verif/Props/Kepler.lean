import Verif.Proofs.Kepler

/-!
# Properties C01–C07, C54: `kepler()` and `zero_safe_sqrt`
-/

namespace Jaxoplanet.Kepler

open Real Spec

/-- **C01.** `kepler M e` is `(sin f, cos f)` of an actual angle `f` (so the pair is on the unit
circle), for every mean anomaly and eccentricity. -/
theorem kepler_on_unit_circle (M e : ℝ) :
    (kepler M e).1 ^ 2 + (kepler M e).2 ^ 2 = 1 ∧ ∃ f, kepler M e = (sin f, cos f) := by
  have h := toTrueAnomaly_sq e (solveE M e)
  obtain ⟨f, hs, hc⟩ := exists_angle h
  exact ⟨h, f, Prod.ext hs hc⟩

/-- **C02.** Any whole number of revolutions added to `M` does not change the result. -/
theorem kepler_periodic (M e : ℝ) (n : ℤ) : kepler (M + n * (2 * π)) e = kepler M e := by
  unfold kepler; rw [solveE_add_two_pi]

/-- non-vacuity of C02: distinct mean anomalies are identified, e.g. by `-3` revolutions -/
example : kepler (1 + (-3 : ℤ) * (2 * π)) 0.5 = kepler 1 0.5 := kepler_periodic 1 0.5 (-3)

/-- **C03.** Time reversal: changing the sign of `M` changes the sign of `sin f` and keeps
`cos f`, for every `M` (including periastron `M ≡ 0` and the fold point `M ≡ π`). -/
theorem kepler_time_reversal {e : ℝ} (he0 : 0 ≤ e) (he : e < 1) (M : ℝ) :
    kepler (-M) e = (-(kepler M e).1, (kepler M e).2) := by
  unfold kepler
  by_cases h0 : fmod M (2 * π) = 0
  · have h0' : fmod (-M) (2 * π) = 0 := by rw [fmod_neg M two_pi_pos, if_pos h0]
    rw [solveE_of_fmod_zero he0 he h0, solveE_of_fmod_zero he0 he h0',
      toTrueAnomaly_eq he0 he]
    simp
  by_cases hpi : fmod M (2 * π) = π
  · have hpi' : fmod (-M) (2 * π) = π := by
      rw [fmod_neg M two_pi_pos, if_neg h0, hpi]; ring
    rw [solveE_of_fmod_pi he0 he hpi, solveE_of_fmod_pi he0 he hpi', toTrueAnomaly_eq he0 he]
    simp
  · rw [solveE_neg h0 hpi, toTrueAnomaly_two_pi_sub he0 he]

example : kepler (-2) 0.3 = (-(kepler 2 0.3).1, (kepler 2 0.3).2) :=
  kepler_time_reversal (by norm_num) (by norm_num) 2

/-- **C04 (a).** Kepler's equation has exactly one solution for every mean anomaly. -/
theorem kepler_equation_exists_unique {e : ℝ} (he0 : 0 ≤ e) (he : e < 1) (M : ℝ) :
    ∃! E, KeplerEq M e E := by
  obtain ⟨E, hE⟩ := keplerEq_exists he0 he M
  exact ⟨E, hE, fun E' hE' => keplerEq_unique he0 he hE' hE⟩

/-- **C04 (b).** The conversion from eccentric to true anomaly is exact for *every* eccentric
anomaly, including the pole of `tan (E/2)`. -/
theorem conversion_exact {e : ℝ} (he0 : 0 ≤ e) (he : e < 1) (E f : ℝ)
    (hf : IsTrueAnomaly e E f) : toTrueAnomaly e E = (sin f, cos f) :=
  toTrueAnomaly_of_isTrueAnomaly he0 he hf

/-- the value that the model assigns at the pole of `tan (E/2)` is the limit of the code's
formula; the formula used away from the pole is the code's -/
theorem toTrueAnomaly_continuous {e : ℝ} (he0 : 0 ≤ e) (he : e < 1) :
    Continuous (toTrueAnomaly e) := by
  have : toTrueAnomaly e = fun E =>
      (√(1 - e ^ 2) * sin E / (1 - e * cos E), (cos E - e) / (1 - e * cos E)) :=
    funext (toTrueAnomaly_eq he0 he)
  rw [this]
  have h : ∀ E, 1 - e * cos E ≠ 0 := fun E => (one_sub_ecos_pos he0 he E).ne'
  fun_prop (disch := exact h _)

/-- **C04 (c).** If the solver's eccentric anomaly satisfies Kepler's equation (modulo whole
revolutions), `kepler` returns exactly the sine and cosine of the true anomaly at `M`. -/
theorem kepler_exact_of_solved {e : ℝ} (he0 : 0 ≤ e) (he : e < 1) (M : ℝ) (n : ℤ)
    (hsol : KeplerEq (M + n * (2 * π)) e (solveE M e)) (f : ℝ) (hf : TrueAnomalyAt M e f) :
    kepler M e = (sin f, cos f) := by
  obtain ⟨E, hE, hfE⟩ := hf
  have h1 := keplerEq_add_two_pi n hE
  have h2 := keplerEq_unique he0 he hsol h1
  unfold kepler
  rw [h2, toTrueAnomaly_add_two_pi he0 he]
  exact toTrueAnomaly_of_isTrueAnomaly he0 he hfE

/-- **C04 (d).** In general the error of `(sin f, cos f)` is at most `√((1+e)/(1-e))` times the
error of the solver's eccentric anomaly. -/
theorem kepler_error_le {e : ℝ} (he0 : 0 ≤ e) (he : e < 1) (M : ℝ) (f : ℝ)
    (hf : TrueAnomalyAt M e f) (n : ℤ) (E : ℝ) (hE : KeplerEq (M + n * (2 * π)) e E) :
    |(kepler M e).1 - sin f| ≤ √((1 + e) / (1 - e)) * |solveE M e - E| ∧
    |(kepler M e).2 - cos f| ≤ √((1 + e) / (1 - e)) * |solveE M e - E| := by
  obtain ⟨E', hE', hfE'⟩ := hf
  have hEE := keplerEq_unique he0 he hE (keplerEq_add_two_pi n hE')
  have h := toTrueAnomaly_lipschitz he0 he (solveE M e) E
  rw [hEE, toTrueAnomaly_add_two_pi he0 he, toTrueAnomaly_of_isTrueAnomaly he0 he hfE',
    ← hEE] at h
  exact h

/-- non-vacuity of C04: at apastron the hypotheses of (c) hold for every eccentricity, and the
result is `(0, -1)` -/
theorem kepler_apastron {e : ℝ} (he0 : 0 ≤ e) (he : e < 1) : kepler π e = (0, -1) := by
  have hfm : fmod π (2 * π) = π := fmod_of_mem pi_pos.le (by linarith [pi_pos])
  have h := solveE_of_fmod_pi he0 he hfm
  have := kepler_exact_of_solved he0 he π 0
    (by rw [h]; unfold KeplerEq; simp) π
    ⟨π, by unfold KeplerEq; simp, by unfold IsTrueAnomaly; simp; ring⟩
  simpa using this

theorem kepler_periastron {e : ℝ} (he0 : 0 ≤ e) (he : e < 1) : kepler 0 e = (0, 1) := by
  have hfm : fmod 0 (2 * π) = 0 := fmod_of_mem le_rfl two_pi_pos
  have h := solveE_of_fmod_zero he0 he hfm
  have := kepler_exact_of_solved he0 he 0 0
    (by rw [h]; unfold KeplerEq; simp) 0
    ⟨0, by unfold KeplerEq; simp, by unfold IsTrueAnomaly; simp⟩
  simpa using this

/-- **C05 (a).** The starter stays in `[0, π]` on the folded range and satisfies exactly Kepler's
equation with `sin E` replaced by `E - αE³/(6α + 3E²)`; it is exact at both ends. -/
theorem starter_spec {M e : ℝ} (he0 : 0 ≤ e) (he : e < 1) (hM0 : 0 ≤ M) (hM : M ≤ π) :
    0 ≤ starter M e (1 - e) ∧ starter M e (1 - e) ≤ π ∧
    (∃ α > 0, let E := starter M e (1 - e)
      E - e * (E - α * E ^ 3 / (6 * α + 3 * E ^ 2)) = M) ∧
    starter 0 e (1 - e) = 0 ∧ starter π e (1 - e) = π := by
  refine ⟨starter_nonneg he0 he hM0 hM, starter_le_pi he0 he hM0 hM,
    ⟨alphaP M e, alphaP_pos he0 hM, ?_⟩, starter_zero he0 he, starter_pi he0 he⟩
  have := starter_pade he0 he hM0 hM
  simp only at this ⊢
  rw [add_comm (6 * _)]
  linarith

/-- **C06.** With zero eccentricity `kepler` returns exactly `(sin M, cos M)`. -/
theorem kepler_circular (M : ℝ) : kepler M 0 = (sin M, cos M) := by
  unfold kepler
  rw [solveE_zero_ecc, toTrueAnomaly_eq le_rfl one_pos]
  obtain ⟨n, hn⟩ := fmod_eq_sub M (2 * π)
  rw [hn, sin_sub_int_mul_two_pi, cos_sub_int_mul_two_pi]
  simp

/-- **C07.** The custom JVP rule is the derivative of the true anomaly's sine and cosine: along any
differentiable path `(M t, e t)` with `0 ≤ e < 1` at the point considered and any exact solution
`f` of the Kepler problem along the path, the tangent computed by the rule from the primal values
is the derivative. -/
theorem jvp_correct {M e f : ℝ → ℝ} {t M' e' : ℝ} (he0 : 0 ≤ e t) (he1 : e t < 1)
    (hM : HasDerivAt M M' t) (he : HasDerivAt e e' t)
    (hf : ∀ᶠ s in nhds t, TrueAnomalyAt (M s) (e s) (f s)) :
    HasDerivAt (fun s => sin (f s)) (jvpTangent (sin (f t)) (cos (f t)) (e t) M' e').1 t ∧
    HasDerivAt (fun s => cos (f s)) (jvpTangent (sin (f t)) (cos (f t)) (e t) M' e').2 t := by
  have he0t : |e t| < 1 := abs_lt.2 ⟨by linarith, he1⟩
  have he0 : ∀ᶠ s in nhds t, |e s| < 1 :=
    he.continuousAt.abs.eventually_lt continuousAt_const he0t
  set E : ℝ → ℝ := fun s => exactE (M s) (e s) with hEdef
  have hsol : ∀ᶠ s in nhds t, KeplerEq (M s) (e s) (E s) := by
    filter_upwards [he0] with s hs using exactE_spec hs
  have hEd := hasDerivAt_keplerEq he0t hM he hsol
  have hS : (fun s => sin (f s)) =ᶠ[nhds t]
      fun s => √(1 - e s ^ 2) * sin (E s) / (1 - e s * cos (E s)) := by
    filter_upwards [he0, hf] with s hs hfs
    obtain ⟨E', hE', hfE'⟩ := hfs
    have hEE : E s = E' := exactE_eq hs hE'
    have hpos := one_sub_ecos_pos' hs E'
    rw [hEE, ← hfE'.2]; field_simp
  have hC : (fun s => cos (f s)) =ᶠ[nhds t]
      fun s => (cos (E s) - e s) / (1 - e s * cos (E s)) := by
    filter_upwards [he0, hf] with s hs hfs
    obtain ⟨E', hE', hfE'⟩ := hfs
    have hEE : E s = E' := exactE_eq hs hE'
    have hpos := one_sub_ecos_pos' hs E'
    rw [hEE, ← hfE'.1]; field_simp
  have hpos := one_sub_ecos_pos' he0t (E t)
  have hSt := hS.self_of_nhds
  have hCt := hC.self_of_nhds
  simp only at hSt hCt
  have h1e : 0 < 1 - e t ^ 2 := by nlinarith [abs_lt.1 he0t]
  have hq : 0 < √(1 - e t ^ 2) := sqrt_pos.2 h1e
  have hq2 : √(1 - e t ^ 2) ^ 2 = 1 - e t ^ 2 := sq_sqrt h1e.le
  have hpow : (1 - e t ^ 2) ^ (1.5 : ℝ) = √(1 - e t ^ 2) ^ 3 := by
    rw [sqrt_eq_rpow, ← rpow_natCast _ 3, ← rpow_mul h1e.le]; norm_num
  have hesq : HasDerivAt (fun s => 1 - e s ^ 2) (-(2 * e t * e')) t := by
    have h := (he.pow 2).const_sub 1
    refine h.congr_deriv ?_
    norm_num
  have hsq : HasDerivAt (fun s => √(1 - e s ^ 2)) (-(2 * e t * e') / (2 * √(1 - e t ^ 2))) t :=
    hesq.sqrt h1e.ne'
  have hsin : HasDerivAt (fun s => sin (E s)) _ t := hEd.sin
  have hcos : HasDerivAt (fun s => cos (E s)) _ t := hEd.cos
  have hden : HasDerivAt (fun s => 1 - e s * cos (E s)) _ t := (he.mul hcos).const_sub 1
  have hnumS : HasDerivAt (fun s => √(1 - e s ^ 2) * sin (E s)) _ t := hsq.mul hsin
  have hnumC : HasDerivAt (fun s => cos (E s) - e s) _ t := hcos.sub he
  have hsc := sin_sq_add_cos_sq (E t)
  constructor
  · refine ((hnumS.div hden hpos.ne').congr_of_eventuallyEq hS).congr_deriv ?_
    unfold jvpTangent
    simp only
    rw [hSt, hCt, hpow]
    have h := jvp_algebra_sin (m := M') (n := e') hpos.ne' hq.ne' hsc hq2
    rw [hq2] at h
    exact h
  · refine ((hnumC.div hden hpos.ne').congr_of_eventuallyEq hC).congr_deriv ?_
    unfold jvpTangent
    simp only
    rw [hSt, hCt, hpow]
    have h := jvp_algebra_cos (m := M') (n := e') hpos.ne' hq.ne' hsc hq2
    rw [hq2] at h
    exact h

/-- non-vacuity of C07: along every differentiable path an exact true anomaly exists, here for
`M t = t`, `e t = t²/2` at `t = 1` -/
example : ∃ f : ℝ → ℝ, ∀ᶠ s in nhds (1 : ℝ), TrueAnomalyAt s (s ^ 2 / 2) (f s) := by
  have hev : ∀ᶠ s in nhds (1 : ℝ), 0 ≤ s ^ 2 / 2 ∧ s ^ 2 / 2 < 1 := by
    have hc : ContinuousAt (fun s : ℝ => s ^ 2 / 2) 1 := by fun_prop
    filter_upwards [hc.eventually_lt (continuousAt_const (y := (1 : ℝ))) (by norm_num)] with s hs
    exact ⟨by positivity, hs⟩
  have h : ∀ s : ℝ, ∃ f : ℝ, (0 ≤ s ^ 2 / 2 ∧ s ^ 2 / 2 < 1) → TrueAnomalyAt s (s ^ 2 / 2) f := by
    intro s
    by_cases hs : 0 ≤ s ^ 2 / 2 ∧ s ^ 2 / 2 < 1
    · obtain ⟨E, hE⟩ := keplerEq_exists hs.1 hs.2 s
      obtain ⟨f, hf⟩ := exists_isTrueAnomaly hs.1 hs.2 E
      exact ⟨f, fun _ => ⟨E, hE, hf⟩⟩
    · exact ⟨0, fun h => absurd h hs⟩
  choose f hf using h
  exact ⟨f, hev.mono fun s hs => hf s hs⟩

/-- The rule returns the primal value of `kepler` unchanged and, when that value is exact, the exact
derivative's formula evaluated at it. -/
theorem jvp_primal (M e M_dot e_dot : ℝ) : (keplerJvp M e M_dot e_dot).1 = kepler M e := rfl

/-- **C54.** `zero_safe_sqrt` is the square root; its tangent is the derivative of the square root
for `x` at or above the threshold, and is `0` (finite) at `x = 0`. -/
theorem zeroSafeSqrt_correct {eps : ℝ} (heps : 0 < eps) (x_dot : ℝ) :
    (∀ x, 0 ≤ x → 0 ≤ zeroSafeSqrt x ∧ zeroSafeSqrt x ^ 2 = x) ∧
    (∀ x, 10 * eps ≤ x →
      HasDerivAt (fun s => zeroSafeSqrt (x + s * x_dot)) (zeroSafeSqrtTangent eps x x_dot) 0) ∧
    zeroSafeSqrtTangent eps 0 x_dot = 0 := by
  refine ⟨fun x hx => ⟨sqrt_nonneg x, sq_sqrt hx⟩, ?_, ?_⟩
  · intro x hx
    have hxpos : 0 < x := by linarith
    have h1 : HasDerivAt (fun s : ℝ => x + s * x_dot) x_dot 0 := by
      simpa using ((hasDerivAt_id (0 : ℝ)).mul_const x_dot).const_add x
    have h2 := h1.sqrt (by simpa using hxpos.ne')
    refine h2.congr_deriv ?_
    unfold zeroSafeSqrtTangent
    rw [if_neg (not_lt.2 hx)]
    have hs : 0 < √x := sqrt_pos.2 hxpos
    have hs2 : √x ^ 2 = x := sq_sqrt hxpos.le
    simp only [zero_mul, add_zero]
    rw [div_eq_div_iff (by positivity) hxpos.ne']
    nth_rewrite 1 [← hs2]
    ring
  · unfold zeroSafeSqrtTangent; simp

/-- Below the threshold (`0 < x < 10 eps`) the tangent is *not* the derivative: the code damps it to
`√x/2`, which is strictly smaller than the true `1/(2√x)` in magnitude (documented behaviour:
"zero safe"). -/
theorem zeroSafeSqrt_damped {eps x : ℝ} (hx0 : 0 < x) (hx : x < 10 * eps) (hx1 : x < 1) :
    zeroSafeSqrtTangent eps x 1 = √x / 2 ∧ zeroSafeSqrtTangent eps x 1 < 1 / (2 * √x) := by
  have hs : 0 < √x := sqrt_pos.2 hx0
  have h : zeroSafeSqrtTangent eps x 1 = √x / 2 := by
    unfold zeroSafeSqrtTangent; rw [if_pos hx]; norm_num; ring
  refine ⟨h, ?_⟩
  rw [h, div_lt_div_iff₀ (by norm_num) (by positivity)]
  have hs2 : √x ^ 2 = x := sq_sqrt hx0.le
  nlinarith

end Jaxoplanet.Kepler
