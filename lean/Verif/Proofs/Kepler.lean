import Verif.Model.Kepler
import Verif.Spec.Kepler
import Verif.Proofs.Basic
import Mathlib.Analysis.SpecialFunctions.Trigonometric.Deriv
import Mathlib.Analysis.SpecialFunctions.Trigonometric.Bounds
import Mathlib.Topology.Order.IntermediateValue
import Mathlib.Analysis.Real.Pi.Bounds
import Mathlib.Tactic

/-! Helper lemmas for the Kepler solver. -/

namespace Jaxoplanet.Kepler

open Real Spec

theorem abs_sin_sub_sin_le (x y : ℝ) : |sin x - sin y| ≤ |x - y| := by
  rw [sin_sub_sin]
  have h1 : |sin ((x - y) / 2)| ≤ |(x - y) / 2| := abs_sin_le_abs
  have h2 : |cos ((x + y) / 2)| ≤ 1 := abs_cos_le_one _
  rw [abs_mul, abs_mul, abs_two]
  calc 2 * |sin ((x - y) / 2)| * |cos ((x + y) / 2)| ≤ 2 * |(x - y) / 2| * 1 := by gcongr
    _ = |x - y| := by rw [abs_div, abs_two]; ring

/-- solutions of Kepler's equation depend Lipschitz-continuously on `(M, e)` -/
theorem keplerEq_lipschitz {M1 M2 e1 e2 E1 E2 : ℝ} (h1 : KeplerEq M1 e1 E1)
    (h2 : KeplerEq M2 e2 E2) : |E1 - E2| * (1 - |e1|) ≤ |M1 - M2| + |e1 - e2| := by
  unfold KeplerEq at *
  have h : E1 - E2 = (M1 - M2) + e1 * (sin E1 - sin E2) + (e1 - e2) * sin E2 := by
    rw [← h1, ← h2]; ring
  have hb : |E1 - E2| ≤ |M1 - M2| + |e1| * |E1 - E2| + |e1 - e2| := by
    calc |E1 - E2| = |(M1 - M2) + e1 * (sin E1 - sin E2) + (e1 - e2) * sin E2| := by rw [← h]
      _ ≤ |M1 - M2| + |e1 * (sin E1 - sin E2)| + |(e1 - e2) * sin E2| := by
          exact (abs_add_le _ _).trans (by gcongr; exact abs_add_le _ _)
      _ ≤ |M1 - M2| + |e1| * |E1 - E2| + |e1 - e2| := by
          rw [abs_mul, abs_mul]
          have := abs_sin_sub_sin_le E1 E2
          have h' : |e1 - e2| * |sin E2| ≤ |e1 - e2| * 1 := by
            gcongr; exact abs_sin_le_one _
          have : |e1| * |sin E1 - sin E2| ≤ |e1| * |E1 - E2| := by gcongr
          linarith
  linarith

theorem keplerEq_unique' {M e E1 E2 : ℝ} (he : |e| < 1) (h1 : KeplerEq M e E1)
    (h2 : KeplerEq M e E2) : E1 = E2 := by
  have h := keplerEq_lipschitz h1 h2
  simp only [sub_self, abs_zero, add_zero] at h
  have h' : |E1 - E2| ≤ 0 := by
    by_contra hc
    push Not at hc
    nlinarith [mul_pos hc (sub_pos.2 he)]
  exact sub_eq_zero.1 (abs_nonpos_iff.1 h')

theorem keplerEq_unique {M e E1 E2 : ℝ} (he0 : 0 ≤ e) (he : e < 1) (h1 : KeplerEq M e E1)
    (h2 : KeplerEq M e E2) : E1 = E2 :=
  keplerEq_unique' (abs_lt.2 ⟨by linarith, he⟩) h1 h2

theorem keplerEq_exists' {e : ℝ} (he' : |e| < 1) (M : ℝ) : ∃ E, KeplerEq M e E := by
  obtain ⟨he0, he⟩ := abs_lt.1 he'
  have hc : ContinuousOn (fun E => E - e * sin E) (Set.Icc (M - 1) (M + 1)) := by fun_prop
  have := intermediate_value_Icc (by linarith : M - 1 ≤ M + 1) hc
  have hm : M ∈ Set.Icc ((M - 1) - e * sin (M - 1)) ((M + 1) - e * sin (M + 1)) := by
    constructor
    · have h : |e * sin (M - 1)| ≤ 1 := by
        rw [abs_mul]; exact mul_le_one₀ he'.le (abs_nonneg _) (abs_sin_le_one _)
      linarith [(abs_le.1 h).1]
    · have h : |e * sin (M + 1)| ≤ 1 := by
        rw [abs_mul]; exact mul_le_one₀ he'.le (abs_nonneg _) (abs_sin_le_one _)
      linarith [(abs_le.1 h).2]
  obtain ⟨E, _, hE⟩ := this hm
  exact ⟨E, hE⟩

theorem keplerEq_exists {e : ℝ} (he0 : 0 ≤ e) (he : e < 1) (M : ℝ) : ∃ E, KeplerEq M e E :=
  keplerEq_exists' (abs_lt.2 ⟨by linarith, he⟩) M

theorem keplerEq_add_two_pi {M e E : ℝ} (n : ℤ) (h : KeplerEq M e E) :
    KeplerEq (M + n * (2 * π)) e (E + n * (2 * π)) := by
  unfold KeplerEq at *
  rw [sin_add_int_mul_two_pi]
  linarith

theorem keplerEq_neg {M e E : ℝ} (h : KeplerEq M e E) : KeplerEq (-M) e (-E) := by
  unfold KeplerEq at *
  rw [sin_neg]
  linarith

/-! ### eccentric → true anomaly -/

theorem one_sub_ecos_pos' {e : ℝ} (he : |e| < 1) (E : ℝ) : 0 < 1 - e * cos E := by
  have h : |e * cos E| ≤ |e| := by
    rw [abs_mul]; exact mul_le_of_le_one_right (abs_nonneg _) (abs_cos_le_one _)
  linarith [(abs_le.1 h).2]

theorem one_sub_ecos_pos {e : ℝ} (he0 : 0 ≤ e) (he : e < 1) (E : ℝ) : 0 < 1 - e * cos E := by
  have := cos_le_one E
  nlinarith

theorem one_add_ecos_pos {e : ℝ} (he0 : 0 ≤ e) (he : e < 1) (E : ℝ) : 0 < 1 + e * cos E := by
  have := neg_one_le_cos E
  nlinarith

/-- closed form of the conversion -/
theorem toTrueAnomaly_eq {e : ℝ} (he0 : 0 ≤ e) (he : e < 1) (E : ℝ) :
    toTrueAnomaly e E =
      (√(1 - e ^ 2) * sin E / (1 - e * cos E), (cos E - e) / (1 - e * cos E)) := by
  have hpos := one_sub_ecos_pos he0 he E
  have h1e : 0 < 1 - e := by linarith
  have h1e' : 0 < 1 + e := by linarith
  have hhalf : E = 2 * (0.5 * E) := by ring
  unfold toTrueAnomaly
  split_ifs with hc
  · have hcos : cos E = -1 := by
      rw [hhalf, cos_two_mul, hc]; norm_num
    have hsin : sin E = 0 := by
      rw [hhalf, sin_two_mul, hc]; norm_num
    rw [hcos, hsin]
    ext
    · simp
    · simp only
      rw [eq_div_iff (by linarith)]
      ring
  · set θ := 0.5 * E with hθ
    have hcos : cos E = 2 * cos θ ^ 2 - 1 := by rw [hhalf, cos_two_mul]
    have hsin : sin E = 2 * sin θ * cos θ := by rw [hhalf, sin_two_mul]
    set k := √((1 + e) / (1 - e)) with hk
    have hk2 : k ^ 2 = (1 + e) / (1 - e) := sq_sqrt (by positivity)
    have hk3 : √(1 - e ^ 2) = k * (1 - e) := by
      rw [show 1 - e ^ 2 = ((1 + e) / (1 - e)) * (1 - e) ^ 2 by field_simp; ring,
        sqrt_mul (by positivity), sqrt_sq h1e.le]
    have hs2 : sin θ ^ 2 = 1 - cos θ ^ 2 := by linarith [sin_sq_add_cos_sq θ]
    have htan : tan θ = sin θ / cos θ := tan_eq_sin_div_cos θ
    have hden : 1 + (k * tan θ) ^ 2 = (1 - e * cos E) / ((1 - e) * cos θ ^ 2) := by
      rw [mul_pow, hk2, htan, div_pow, hs2, hcos]
      field_simp
      ring
    have hden0 : 1 + (k * tan θ) ^ 2 ≠ 0 := by positivity
    simp only
    rw [hden]
    ext
    · simp only
      rw [hsin, htan, hk3]
      field_simp
    · simp only
      rw [mul_pow, hk2, htan, div_pow, hs2, hcos]
      have : 1 - e * (2 * cos θ ^ 2 - 1) ≠ 0 := by rw [← hcos]; exact hpos.ne'
      field_simp
      ring

theorem toTrueAnomaly_sq (e E : ℝ) : (toTrueAnomaly e E).1 ^ 2 + (toTrueAnomaly e E).2 ^ 2 = 1 := by
  unfold toTrueAnomaly
  split_ifs with hc
  · norm_num
  · simp only
    set t := √((1 + e) / (1 - e)) * tan (0.5 * E)
    have : 1 + t ^ 2 ≠ 0 := by positivity
    field_simp
    ring

theorem toTrueAnomaly_of_isTrueAnomaly {e E f : ℝ} (he0 : 0 ≤ e) (he : e < 1)
    (h : IsTrueAnomaly e E f) : toTrueAnomaly e E = (sin f, cos f) := by
  have hpos := one_sub_ecos_pos he0 he E
  rw [toTrueAnomaly_eq he0 he, ← h.1, ← h.2]
  ext
  · simp only; field_simp
  · simp only; field_simp

theorem exists_angle {s c : ℝ} (h : s ^ 2 + c ^ 2 = 1) : ∃ f, s = sin f ∧ c = cos f := by
  refine ⟨Complex.arg ⟨c, s⟩, ?_, ?_⟩
  · have hn : ‖(⟨c, s⟩ : ℂ)‖ = 1 := by
      rw [Complex.norm_eq_sqrt_sq_add_sq]; simp only; rw [add_comm, h, sqrt_one]
    rw [Complex.sin_arg, hn]; simp
  · have hn : ‖(⟨c, s⟩ : ℂ)‖ = 1 := by
      rw [Complex.norm_eq_sqrt_sq_add_sq]; simp only; rw [add_comm, h, sqrt_one]
    rw [Complex.cos_arg (by intro h0; rw [h0] at hn; simp at hn), hn]; simp

theorem exists_isTrueAnomaly {e : ℝ} (he0 : 0 ≤ e) (he : e < 1) (E : ℝ) :
    ∃ f, IsTrueAnomaly e E f := by
  have hpos := one_sub_ecos_pos he0 he E
  obtain ⟨f, hs, hc⟩ := exists_angle (toTrueAnomaly_sq e E)
  rw [toTrueAnomaly_eq he0 he] at hs hc
  refine ⟨f, ?_, ?_⟩
  · rw [← hc]; simp only; field_simp
  · rw [← hs]; simp only; field_simp

theorem toTrueAnomaly_add_two_pi {e : ℝ} (he0 : 0 ≤ e) (he : e < 1) (E : ℝ) (n : ℤ) :
    toTrueAnomaly e (E + n * (2 * π)) = toTrueAnomaly e E := by
  rw [toTrueAnomaly_eq he0 he, toTrueAnomaly_eq he0 he, sin_add_int_mul_two_pi,
    cos_add_int_mul_two_pi]

theorem toTrueAnomaly_two_pi_sub {e : ℝ} (he0 : 0 ≤ e) (he : e < 1) (E : ℝ) :
    toTrueAnomaly e (2 * π - E) = (-(toTrueAnomaly e E).1, (toTrueAnomaly e E).2) := by
  rw [toTrueAnomaly_eq he0 he, toTrueAnomaly_eq he0 he, sin_two_pi_sub, cos_two_pi_sub]
  ext
  · simp only; ring
  · simp only

/-! ### the starter solves Markley's cubic -/

theorem cardano {r q u : ℝ} (hu : 0 < u) (h : u ^ 6 - q ^ 3 = 2 * r * u ^ 3) :
    2 * r * u ^ 2 / ((u ^ 2) ^ 2 + u ^ 2 * q + q ^ 2) = (u ^ 2 - q) / u := by
  have hden : 0 < (u ^ 2) ^ 2 + u ^ 2 * q + q ^ 2 := by
    have : 0 < u ^ 2 := by positivity
    nlinarith [sq_nonneg (u ^ 2 + 2 * q), sq_nonneg q]
  rw [div_eq_div_iff hden.ne' hu.ne']
  nlinarith

theorem cardano_root {r q u : ℝ} (hu : 0 < u) (h : u ^ 6 - q ^ 3 = 2 * r * u ^ 3) :
    ((u ^ 2 - q) / u) ^ 3 + 3 * q * ((u ^ 2 - q) / u) - 2 * r = 0 := by
  have h' : r = (u ^ 6 - q ^ 3) / (2 * u ^ 3) := by field_simp; linarith
  rw [h']
  field_simp
  ring

/-- Markley's parameter `α` (l.84-85). -/
noncomputable def alphaP (M e : ℝ) : ℝ :=
  3 * π / (π - 6 / π) + 1.6 / (π - 6 / π) * (π - M) / (1 + e)

theorem pi_sub_pos : 0 < π - 6 / π := by
  have := pi_gt_three
  rw [sub_pos, div_lt_iff₀ pi_pos]
  nlinarith

theorem alphaP_ge {M e : ℝ} (he0 : 0 ≤ e) (hM : M ≤ π) :
    3 * π / (π - 6 / π) ≤ alphaP M e := by
  unfold alphaP
  have := pi_sub_pos
  have : 0 ≤ 1.6 / (π - 6 / π) * (π - M) / (1 + e) := by
    have : 0 ≤ π - M := by linarith
    positivity
  linarith

theorem alpha0_pos : 0 < 3 * π / (π - 6 / π) := by
  have := pi_sub_pos
  have := pi_pos
  positivity

theorem alphaP_pos {M e : ℝ} (he0 : 0 ≤ e) (hM : M ≤ π) : 0 < alphaP M e :=
  lt_of_lt_of_le alpha0_pos (alphaP_ge he0 hM)

theorem root_of_sum {r q S : ℝ} (hS2 : S ^ 2 = q ^ 3 + r ^ 2) (hsum : 0 < r + S) :
    let w := (cbrt (r + S)) ^ 2
    let x := 2 * r * w / (w ^ 2 + w * q + q ^ 2)
    x ^ 3 + 3 * q * x - 2 * r = 0 := by
  intro w x
  have hupos : 0 < cbrt (r + S) := cbrt_pos hsum
  have hu3 : cbrt (r + S) ^ 3 = r + S := cbrt_pow hsum.le
  have hcar : cbrt (r + S) ^ 6 - q ^ 3 = 2 * r * cbrt (r + S) ^ 3 := by
    have : cbrt (r + S) ^ 6 = (r + S) ^ 2 := by
      calc cbrt (r + S) ^ 6 = (cbrt (r + S) ^ 3) ^ 2 := by ring
        _ = (r + S) ^ 2 := by rw [hu3]
    rw [this, hu3]; nlinarith
  have hroot := cardano_root hupos hcar
  rw [← cardano hupos hcar] at hroot
  exact hroot

theorem disc_nonneg {M q r : ℝ} (hM0 : 0 ≤ M) (hqM : -(M ^ 2) ≤ q) (hrM : M ^ 3 ≤ r) :
    0 ≤ q ^ 2 * q + r * r := by
  have h1 : (M ^ 3) ^ 2 ≤ r ^ 2 := by gcongr
  have h2 : -(M ^ 2) ^ 3 ≤ q ^ 3 := by
    rcases le_or_gt 0 q with h | h
    · have : 0 ≤ q ^ 3 := by positivity
      have : 0 ≤ (M ^ 2) ^ 3 := by positivity
      linarith
    · have h3 : (-q) ^ 3 ≤ (M ^ 2) ^ 3 := pow_le_pow_left₀ (by linarith) (by linarith) 3
      have h4 : (-q) ^ 3 = - q ^ 3 := by ring
      linarith
  have h5 : (M ^ 3) ^ 2 = (M ^ 2) ^ 3 := by ring
  have h6 : q ^ 2 * q + r * r = q ^ 3 + r ^ 2 := by ring
  linarith

theorem starter_core {α d ome M r q : ℝ} (hα : 0 < α) (hd : 0 < d) (ho : 0 < ome)
    (hdo : 0 < d - ome) (hM0 : 0 ≤ M)
    (hr : r = (3 * (α * d) * (d - ome) + M ^ 2) * M) (hq : q = 2 * (α * d) * ome - M ^ 2) :
    let w := (cbrt (|r| + √(q ^ 2 * q + r * r))) ^ 2
    let E := (2 * r * w / (w ^ 2 + w * q + q ^ 2) + M) / d
    d * E ^ 3 - 3 * E ^ 2 * M + 6 * α * ome * E - 6 * α * M = 0 := by
  have hr0 : 0 ≤ r := by rw [hr]; positivity
  have hqM : -(M ^ 2) ≤ q := by
    have : 0 ≤ 2 * (α * d) * ome := by positivity
    rw [hq]; linarith
  have hrM : M ^ 3 ≤ r := by
    have : 0 ≤ 3 * (α * d) * (d - ome) * M := by positivity
    rw [hr]; nlinarith
  have hdisc := disc_nonneg hM0 hqM hrM
  rw [abs_of_nonneg hr0]
  have hS0 : 0 ≤ √(q ^ 2 * q + r * r) := sqrt_nonneg _
  have hS2 : √(q ^ 2 * q + r * r) ^ 2 = q ^ 3 + r ^ 2 := by rw [sq_sqrt hdisc]; ring
  have hsum : 0 < r + √(q ^ 2 * q + r * r) := by
    rcases hM0.eq_or_lt with h | h
    · have hq' : 0 < q := by rw [hq, ← h]; simp; positivity
      have : 0 < √(q ^ 2 * q + r * r) := sqrt_pos.2 (by positivity)
      linarith
    · have : 0 < r := by rw [hr]; positivity
      linarith
  have hroot := root_of_sum hS2 hsum
  simp only at hroot ⊢
  generalize 2 * r * cbrt (r + √(q ^ 2 * q + r * r)) ^ 2 /
    ((cbrt (r + √(q ^ 2 * q + r * r)) ^ 2) ^ 2 +
      cbrt (r + √(q ^ 2 * q + r * r)) ^ 2 * q + q ^ 2) = x at hroot ⊢
  obtain ⟨E, hE⟩ : ∃ E, E = (x + M) / d := ⟨_, rfl⟩
  rw [← hE]
  have hx : x = d * E - M := by rw [hE]; field_simp; ring
  have key : d ^ 2 * (d * E ^ 3 - 3 * E ^ 2 * M + 6 * α * ome * E - 6 * α * M) = 0 := by
    rw [← hroot, hx, hq, hr]; ring
  have hd2 : d ^ 2 ≠ 0 := by positivity
  exact (mul_eq_zero.1 key).resolve_left hd2

/-- The starter satisfies Kepler's equation with `sin E` replaced by Markley's rational
approximation `E - α E³ / (6 α + 3 E²)`. -/
theorem starter_cubic {M e : ℝ} (he0 : 0 ≤ e) (he : e < 1) (hM0 : 0 ≤ M) (hM : M ≤ π) :
    (3 * (1 - e) + alphaP M e * e) * starter M e (1 - e) ^ 3
      - 3 * starter M e (1 - e) ^ 2 * M + 6 * alphaP M e * (1 - e) * starter M e (1 - e)
      - 6 * alphaP M e * M = 0 := by
  have hα := alphaP_pos he0 hM
  have ho : 0 < 1 - e := by linarith
  have hαe : 0 ≤ alphaP M e * e := by positivity
  exact starter_core (d := 3 * (1 - e) + alphaP M e * e) hα (by linarith) ho (by linarith) hM0
    rfl rfl

/-- `starter_cubic` as a perturbed Kepler equation. -/
theorem starter_pade {M e : ℝ} (he0 : 0 ≤ e) (he : e < 1) (hM0 : 0 ≤ M) (hM : M ≤ π) :
    let E := starter M e (1 - e)
    (1 - e) * E + e * (alphaP M e * E ^ 3 / (3 * E ^ 2 + 6 * alphaP M e)) = M := by
  intro E
  have hα := alphaP_pos he0 hM
  have h := starter_cubic he0 he hM0 hM
  have : 3 * E ^ 2 + 6 * alphaP M e ≠ 0 := by positivity
  field_simp
  change (3 * (1 - e) + alphaP M e * e) * E ^ 3
      - 3 * E ^ 2 * M + 6 * alphaP M e * (1 - e) * E
      - 6 * alphaP M e * M = 0 at h
  linarith

theorem starter_nonneg {M e : ℝ} (he0 : 0 ≤ e) (he : e < 1) (hM0 : 0 ≤ M) (hM : M ≤ π) :
    0 ≤ starter M e (1 - e) := by
  have hα := alphaP_pos he0 hM
  have h := starter_pade he0 he hM0 hM
  simp only at h
  set E := starter M e (1 - e)
  by_contra hneg
  push Not at hneg
  have h1 : (1 - e) * E < 0 := mul_neg_of_pos_of_neg (by linarith) hneg
  have h2 : e * (alphaP M e * E ^ 3 / (3 * E ^ 2 + 6 * alphaP M e)) ≤ 0 := by
    apply mul_nonpos_of_nonneg_of_nonpos he0
    apply div_nonpos_of_nonpos_of_nonneg
    · have : E ^ 3 ≤ 0 := by
        have : 0 < (-E) ^ 3 := pow_pos (by linarith) 3
        nlinarith
      nlinarith
    · positivity
  linarith

theorem pade_at_pi {α : ℝ} (hα : 3 * π / (π - 6 / π) ≤ α) :
    π ≤ α * π ^ 3 / (3 * π ^ 2 + 6 * α) := by
  have h0 := alpha0_pos
  have hp := pi_pos
  have hα0 : 0 < α := lt_of_lt_of_le h0 hα
  rw [le_div_iff₀ (by positivity)]
  rw [div_le_iff₀ pi_sub_pos] at hα
  have : π * (α * (π - 6 / π)) = α * (π ^ 2 - 6) := by field_simp
  have h3 : 3 * π ^ 2 ≤ α * (π ^ 2 - 6) := by rw [← this]; nlinarith
  nlinarith

theorem starter_le_pi {M e : ℝ} (he0 : 0 ≤ e) (he : e < 1) (hM0 : 0 ≤ M) (hM : M ≤ π) :
    starter M e (1 - e) ≤ π := by
  have hα := alphaP_pos he0 hM
  have h := starter_pade he0 he hM0 hM
  simp only at h
  set E := starter M e (1 - e)
  set α := alphaP M e
  by_contra hneg
  push Not at hneg
  have hp := pi_pos
  have h1 : (1 - e) * π < (1 - e) * E := mul_lt_mul_of_pos_left hneg (by linarith)
  have h2 : α * π ^ 3 / (3 * π ^ 2 + 6 * α) ≤ α * E ^ 3 / (3 * E ^ 2 + 6 * α) := by
    rw [div_le_div_iff₀ (by positivity) (by positivity)]
    have h3 : π ^ 3 ≤ E ^ 3 := by gcongr
    have hE : 0 < E := by linarith
    have h4 : π ^ 3 * E ^ 2 ≤ E ^ 3 * π ^ 2 := by
      have : 0 ≤ π ^ 2 * E ^ 2 * (E - π) := by
        have : 0 ≤ E - π := by linarith
        positivity
      nlinarith
    nlinarith [mul_le_mul_of_nonneg_left h3 (mul_pos hα hα).le,
      mul_le_mul_of_nonneg_left h4 hα.le]
  have h3 := pade_at_pi (alphaP_ge he0 hM)
  have h4 : e * π ≤ e * (α * E ^ 3 / (3 * E ^ 2 + 6 * α)) := by
    gcongr; exact h3.trans h2
  linarith

theorem starter_zero {e : ℝ} (he0 : 0 ≤ e) (he : e < 1) : starter 0 e (1 - e) = 0 := by
  have h0 := starter_nonneg he0 he le_rfl pi_pos.le
  have h := starter_pade he0 he le_rfl pi_pos.le
  have hα := alphaP_pos he0 pi_pos.le
  simp only at h
  set E := starter 0 e (1 - e)
  have : 0 ≤ e * (alphaP 0 e * E ^ 3 / (3 * E ^ 2 + 6 * alphaP 0 e)) := by positivity
  have h2 : (1 - e) * E ≤ 0 := by linarith
  by_contra hc
  have : 0 < E := lt_of_le_of_ne h0 (Ne.symm hc)
  have : 0 < (1 - e) * E := mul_pos (by linarith) this
  linarith

theorem alphaP_pi (e : ℝ) : alphaP π e = 3 * π / (π - 6 / π) := by
  unfold alphaP; simp

theorem starter_pi {e : ℝ} (he0 : 0 ≤ e) (he : e < 1) : starter π e (1 - e) = π := by
  have h0 := starter_nonneg he0 he pi_pos.le le_rfl
  have h1 := starter_le_pi he0 he pi_pos.le le_rfl
  have h := starter_pade he0 he pi_pos.le le_rfl
  have hα := alphaP_pos he0 (le_refl π)
  simp only at h
  have hpi : alphaP π e * π ^ 3 / (3 * π ^ 2 + 6 * alphaP π e) = π := by
    rw [alphaP_pi]
    have := pi_sub_pos
    have hp := pi_pos
    have h6 : π ^ 2 - 6 ≠ 0 := by nlinarith [pi_gt_three]
    have e1 : π - 6 / π = (π ^ 2 - 6) / π := by field_simp
    rw [e1]
    field_simp
    ring
  set E := starter π e (1 - e)
  set α := alphaP π e
  by_contra hc
  have hlt : E < π := lt_of_le_of_ne h1 hc
  have hp := pi_pos
  have h2 : α * E ^ 3 / (3 * E ^ 2 + 6 * α) ≤ α * π ^ 3 / (3 * π ^ 2 + 6 * α) := by
    rw [div_le_div_iff₀ (by positivity) (by positivity)]
    have h3 : E ^ 3 ≤ π ^ 3 := by gcongr
    have h4 : E ^ 3 * π ^ 2 ≤ π ^ 3 * E ^ 2 := by
      have : 0 ≤ π ^ 2 * E ^ 2 * (π - E) := by
        have : 0 ≤ π - E := by linarith
        positivity
      nlinarith
    nlinarith [mul_le_mul_of_nonneg_left h3 (mul_pos hα hα).le,
      mul_le_mul_of_nonneg_left h4 hα.le]
  have h5 : e * (α * E ^ 3 / (3 * E ^ 2 + 6 * α)) ≤ e * π := by
    gcongr; rw [← hpi]; exact h2
  have h6 : (1 - e) * E < (1 - e) * π := mul_lt_mul_of_pos_left hlt (by linarith)
  linarith

/-! ### refinement -/

theorem refine_of_keplerEq {M e E : ℝ} (h : KeplerEq M e E) : refine M e (1 - e) E = E := by
  unfold KeplerEq at h
  unfold refine
  simp only
  have : e * (E - sin E) + E * (1 - e) - M = 0 := by rw [← h]; ring
  rw [this]
  simp

theorem solveE_add_two_pi (M e : ℝ) (n : ℤ) : solveE (M + n * (2 * π)) e = solveE M e := by
  unfold solveE
  rw [fmod_add_int _ two_pi_pos]

/-- what the solver returns on the folded range -/
theorem solveE_low {M e : ℝ} (h : fmod M (2 * π) ≤ π) :
    solveE M e = refine (fmod M (2 * π)) e (1 - e) (starter (fmod M (2 * π)) e (1 - e)) := by
  unfold solveE; simp [not_lt.2 h]

theorem solveE_high {M e : ℝ} (h : π < fmod M (2 * π)) :
    solveE M e = 2 * π - refine (2 * π - fmod M (2 * π)) e (1 - e)
      (starter (2 * π - fmod M (2 * π)) e (1 - e)) := by
  unfold solveE; simp [h]

theorem solveE_of_fmod_zero {M e : ℝ} (he0 : 0 ≤ e) (he : e < 1) (h : fmod M (2 * π) = 0) :
    solveE M e = 0 := by
  rw [solveE_low (by rw [h]; exact pi_pos.le), h, starter_zero he0 he]
  exact refine_of_keplerEq (by unfold KeplerEq; simp)

theorem solveE_of_fmod_pi {M e : ℝ} (he0 : 0 ≤ e) (he : e < 1) (h : fmod M (2 * π) = π) :
    solveE M e = π := by
  rw [solveE_low (by rw [h]), h, starter_pi he0 he]
  exact refine_of_keplerEq (by unfold KeplerEq; simp)

theorem refine_zero_ecc (M E : ℝ) : refine M 0 (1 - 0) E = M := by
  unfold refine
  norm_num

theorem solveE_zero_ecc (M : ℝ) : solveE M 0 = fmod M (2 * π) := by
  unfold solveE
  simp only [refine_zero_ecc]
  split_ifs <;> ring

theorem solveE_neg {M e : ℝ} (h0 : fmod M (2 * π) ≠ 0) (hpi : fmod M (2 * π) ≠ π) :
    solveE (-M) e = 2 * π - solveE M e := by
  have hneg : fmod (-M) (2 * π) = 2 * π - fmod M (2 * π) := by
    rw [fmod_neg M two_pi_pos, if_neg h0]
  rcases lt_or_gt_of_ne hpi with h | h
  · rw [solveE_low h.le, solveE_high (by rw [hneg]; linarith), hneg]
    simp
  · rw [solveE_high h, solveE_low (by rw [hneg]; linarith), hneg]
    simp

/-! ### Lipschitz dependence of the true anomaly on the eccentric anomaly -/

theorem sqrt_ratio {e : ℝ} (he0 : 0 ≤ e) (he : e < 1) :
    √((1 + e) / (1 - e)) = √(1 - e ^ 2) / (1 - e) := by
  have h1e : 0 < 1 - e := by linarith
  rw [eq_div_iff h1e.ne', show 1 - e ^ 2 = ((1 + e) / (1 - e)) * (1 - e) ^ 2 by field_simp; ring,
    sqrt_mul (by positivity), sqrt_sq h1e.le]

theorem hasDerivAt_trueSin {e : ℝ} (he0 : 0 ≤ e) (he : e < 1) (E : ℝ) :
    HasDerivAt (fun E => √(1 - e ^ 2) * sin E / (1 - e * cos E))
      (√(1 - e ^ 2) * (cos E - e) / (1 - e * cos E) ^ 2) E := by
  have hpos := one_sub_ecos_pos he0 he E
  have h1 : HasDerivAt (fun E => √(1 - e ^ 2) * sin E) (√(1 - e ^ 2) * cos E) E :=
    (hasDerivAt_sin E).const_mul _
  have h2 : HasDerivAt (fun E => 1 - e * cos E) (-(e * (-sin E))) E := by
    simpa using ((hasDerivAt_cos E).const_mul e).const_sub 1
  refine (h1.div h2 hpos.ne').congr_deriv ?_
  congr 1
  have := sin_sq_add_cos_sq E
  linear_combination (-(√(1 - e ^ 2) * e)) * this

theorem hasDerivAt_trueCos {e : ℝ} (he0 : 0 ≤ e) (he : e < 1) (E : ℝ) :
    HasDerivAt (fun E => (cos E - e) / (1 - e * cos E))
      (-(1 - e ^ 2) * sin E / (1 - e * cos E) ^ 2) E := by
  have hpos := one_sub_ecos_pos he0 he E
  have h1 : HasDerivAt (fun E => cos E - e) (-sin E) E := (hasDerivAt_cos E).sub_const _
  have h2 : HasDerivAt (fun E => 1 - e * cos E) (-(e * (-sin E))) E := by
    simpa using ((hasDerivAt_cos E).const_mul e).const_sub 1
  refine (h1.div h2 hpos.ne').congr_deriv ?_
  congr 1
  ring

theorem trueSin_deriv_le {e : ℝ} (he0 : 0 ≤ e) (he : e < 1) (E : ℝ) :
    |√(1 - e ^ 2) * (cos E - e) / (1 - e * cos E) ^ 2| ≤ √((1 + e) / (1 - e)) := by
  have hpos := one_sub_ecos_pos he0 he E
  have h1e : 0 < 1 - e := by linarith
  have hsq : 0 ≤ √(1 - e ^ 2) := sqrt_nonneg _
  have hle : |cos E - e| ≤ 1 - e * cos E := by
    have h1 := cos_le_one E
    have h2 := neg_one_le_cos E
    rw [abs_le]; constructor <;> nlinarith
  have hge : 1 - e ≤ 1 - e * cos E := by nlinarith [cos_le_one E]
  rw [sqrt_ratio he0 he, abs_div, abs_mul, abs_of_nonneg hsq, abs_of_pos (pow_pos hpos 2)]
  rw [div_le_div_iff₀ (by positivity) h1e]
  have : |cos E - e| * (1 - e) ≤ (1 - e * cos E) ^ 2 := by nlinarith [abs_nonneg (cos E - e)]
  nlinarith [mul_le_mul_of_nonneg_left this hsq]

theorem trueCos_deriv_le {e : ℝ} (he0 : 0 ≤ e) (he : e < 1) (E : ℝ) :
    |-(1 - e ^ 2) * sin E / (1 - e * cos E) ^ 2| ≤ √((1 + e) / (1 - e)) := by
  have hpos := one_sub_ecos_pos he0 he E
  have h1e : 0 < 1 - e := by linarith
  have hsq : 0 ≤ √(1 - e ^ 2) := sqrt_nonneg _
  have hsq2 : √(1 - e ^ 2) ^ 2 = 1 - e ^ 2 := sq_sqrt (by nlinarith)
  have hge : 1 - e ≤ 1 - e * cos E := by nlinarith [cos_le_one E]
  -- √(1-e²)|sin E| ≤ 1 - e cos E
  have hle : √(1 - e ^ 2) * |sin E| ≤ 1 - e * cos E := by
    apply abs_le_of_sq_le_sq' _ hpos.le |>.2
    rw [mul_pow, hsq2, sq_abs]
    have := sin_sq_add_cos_sq E
    nlinarith [sq_nonneg (cos E - e)]
  rw [sqrt_ratio he0 he, abs_div, abs_mul, abs_neg, abs_of_pos (pow_pos hpos 2),
    abs_of_nonneg (by nlinarith : 0 ≤ 1 - e ^ 2)]
  rw [div_le_div_iff₀ (by positivity) h1e]
  have h3 : (√(1 - e ^ 2) * |sin E|) * (1 - e) ≤ (1 - e * cos E) ^ 2 := by
    have : 0 ≤ √(1 - e ^ 2) * |sin E| := by positivity
    nlinarith
  have h4 : (1 - e ^ 2) * |sin E| * (1 - e) = √(1 - e ^ 2) * (√(1 - e ^ 2) * |sin E| * (1 - e)) := by
    nth_rewrite 1 [← hsq2]; ring
  rw [h4]
  exact mul_le_mul_of_nonneg_left h3 hsq

theorem toTrueAnomaly_lipschitz {e : ℝ} (he0 : 0 ≤ e) (he : e < 1) (E1 E2 : ℝ) :
    |(toTrueAnomaly e E1).1 - (toTrueAnomaly e E2).1| ≤ √((1 + e) / (1 - e)) * |E1 - E2| ∧
    |(toTrueAnomaly e E1).2 - (toTrueAnomaly e E2).2| ≤ √((1 + e) / (1 - e)) * |E1 - E2| := by
  rw [toTrueAnomaly_eq he0 he, toTrueAnomaly_eq he0 he]
  constructor
  · have := Convex.norm_image_sub_le_of_norm_hasDerivWithin_le (s := Set.univ)
      (fun x _ => (hasDerivAt_trueSin he0 he x).hasDerivWithinAt)
      (fun x _ => by rw [Real.norm_eq_abs]; exact trueSin_deriv_le he0 he x) convex_univ
      (Set.mem_univ E2) (Set.mem_univ E1)
    simpa [Real.norm_eq_abs] using this
  · have := Convex.norm_image_sub_le_of_norm_hasDerivWithin_le (s := Set.univ)
      (fun x _ => (hasDerivAt_trueCos he0 he x).hasDerivWithinAt)
      (fun x _ => by rw [Real.norm_eq_abs]; exact trueCos_deriv_le he0 he x) convex_univ
      (Set.mem_univ E2) (Set.mem_univ E1)
    simpa [Real.norm_eq_abs] using this

theorem jvp_algebra_sin {ε q S c m n : ℝ} (hd : 1 - ε * c ≠ 0) (hq0 : q ≠ 0)
    (hS : S ^ 2 + c ^ 2 = 1) (hq : q ^ 2 = 1 - ε ^ 2) :
    ((-(2 * ε * n) / (2 * q) * S + q * (c * ((m + n * S) / (1 - ε * c)))) * (1 - ε * c)
      - q * S * -(n * c + ε * (-S * ((m + n * S) / (1 - ε * c))))) / (1 - ε * c) ^ 2
    = (c - ε) / (1 - ε * c) * (m * (1 + ε * ((c - ε) / (1 - ε * c))) ^ 2 / q ^ 3
      + n * (2 + ε * ((c - ε) / (1 - ε * c))) * (q * S / (1 - ε * c)) / q ^ 2) := by
  have h1 : 1 + ε * ((c - ε) / (1 - ε * c)) = q ^ 2 / (1 - ε * c) := by
    rw [hq]; field_simp; ring
  rw [h1]
  have h2 : S ^ 2 = 1 - c ^ 2 := by linarith
  field_simp
  grind

theorem jvp_algebra_cos {ε q S c m n : ℝ} (hd : 1 - ε * c ≠ 0) (hq0 : q ≠ 0)
    (hS : S ^ 2 + c ^ 2 = 1) (hq : q ^ 2 = 1 - ε ^ 2) :
    ((-S * ((m + n * S) / (1 - ε * c)) - n) * (1 - ε * c)
      - (c - ε) * -(n * c + ε * (-S * ((m + n * S) / (1 - ε * c))))) / (1 - ε * c) ^ 2
    = -(q * S / (1 - ε * c)) * (m * (1 + ε * ((c - ε) / (1 - ε * c))) ^ 2 / q ^ 3
      + n * (2 + ε * ((c - ε) / (1 - ε * c))) * (q * S / (1 - ε * c)) / q ^ 2) := by
  have h1 : 1 + ε * ((c - ε) / (1 - ε * c)) = q ^ 2 / (1 - ε * c) := by
    rw [hq]; field_simp; ring
  rw [h1]
  have h2 : S ^ 2 = 1 - c ^ 2 := by linarith
  field_simp
  grind

/-! ### the exact solution as a function, and its derivative -/

/-- the solution of Kepler's equation (junk value `0` outside `|e| < 1`) -/
noncomputable def exactE (M e : ℝ) : ℝ :=
  if h : |e| < 1 then (keplerEq_exists' h M).choose else 0

theorem exactE_spec {M e : ℝ} (he : |e| < 1) : KeplerEq M e (exactE M e) := by
  unfold exactE; rw [dif_pos he]; exact (keplerEq_exists' he M).choose_spec

theorem exactE_eq {M e E : ℝ} (he : |e| < 1) (h : KeplerEq M e E) :
    exactE M e = E := keplerEq_unique' he (exactE_spec he) h

/-- Derivative of a solution of Kepler's equation along a path `(M t, e t)`. -/
theorem hasDerivAt_keplerEq {M e E : ℝ → ℝ} {t M' e' : ℝ} (he : |e t| < 1)
    (hM : HasDerivAt M M' t) (hE : HasDerivAt e e' t)
    (hsol : ∀ᶠ s in nhds t, KeplerEq (M s) (e s) (E s)) :
    HasDerivAt E ((M' + e' * sin (E t)) / (1 - e t * cos (E t))) t := by
  have hpos := one_sub_ecos_pos' he (E t)
  have h1e : 0 < 1 - |e t| := by linarith
  have hsolt : KeplerEq (M t) (e t) (E t) := hsol.self_of_nhds
  -- continuity
  have hcont : ContinuousAt E t := by
    rw [ContinuousAt, tendsto_iff_dist_tendsto_zero]
    have hb : ∀ᶠ s in nhds t, dist (E s) (E t) ≤ (|M t - M s| + |e t - e s|) / (1 - |e t|) := by
      filter_upwards [hsol] with s hs
      rw [le_div_iff₀ h1e, Real.dist_eq, abs_sub_comm]
      exact keplerEq_lipschitz hsolt hs
    have hlim : Filter.Tendsto (fun s => (|M t - M s| + |e t - e s|) / (1 - |e t|)) (nhds t)
        (nhds 0) := by
      have h1 : ContinuousAt (fun s => (|M t - M s| + |e t - e s|) / (1 - |e t|)) t := by
        have := hM.continuousAt
        have := hE.continuousAt
        fun_prop
      have := h1.tendsto
      simpa using this
    exact squeeze_zero' (Filter.Eventually.of_forall fun _ => dist_nonneg) hb hlim
  -- the slope of sin along E
  have hds := hasDerivAt_sin (E t)
  rw [hasDerivAt_iff_tendsto_slope] at hM hE ⊢
  -- g(x) = dslope sin
  have hg : ContinuousAt (dslope sin (E t)) (E t) := by
    rw [continuousAt_dslope_same]; exact hds.differentiableAt
  have hgE : Filter.Tendsto (fun s => dslope sin (E t) (E s)) (nhdsWithin t {t}ᶜ)
      (nhds (cos (E t))) := by
    have h2 : ContinuousAt (fun s => dslope sin (E t) (E s)) t :=
      ContinuousAt.comp (g := dslope sin (E t)) (f := E) hg hcont
    have := h2.tendsto.mono_left (nhdsWithin_le_nhds (s := {t}ᶜ))
    simpa [dslope_same, hds.deriv] using this
  have hEt : Filter.Tendsto E (nhdsWithin t {t}ᶜ) (nhds (E t)) :=
    hcont.tendsto.mono_left nhdsWithin_le_nhds
  have het : Filter.Tendsto e (nhdsWithin t {t}ᶜ) (nhds (e t)) := by
    have : HasDerivAt e e' t := by rw [hasDerivAt_iff_tendsto_slope]; exact hE
    exact this.continuousAt.tendsto.mono_left nhdsWithin_le_nhds
  have hden : Filter.Tendsto (fun s => 1 - e t * dslope sin (E t) (E s)) (nhdsWithin t {t}ᶜ)
      (nhds (1 - e t * cos (E t))) := (hgE.const_mul _).const_sub 1
  have hnum : Filter.Tendsto (fun s => slope M t s + slope e t s * sin (E s))
      (nhdsWithin t {t}ᶜ) (nhds (M' + e' * sin (E t))) :=
    hM.add (hE.mul ((continuous_sin.tendsto _).comp hEt))
  refine (hnum.div hden hpos.ne').congr' ?_
  have hne : ∀ᶠ s in nhdsWithin t {t}ᶜ, 1 - e t * dslope sin (E t) (E s) ≠ 0 :=
    hden.eventually_ne hpos.ne'
  filter_upwards [hne, hsol.filter_mono nhdsWithin_le_nhds, self_mem_nhdsWithin] with s hs hk hst
  have hst' : s - t ≠ 0 := sub_ne_zero.2 hst
  simp only [slope_def_field, Pi.div_apply] at *
  rw [div_eq_iff hs]
  have hd : (E s - E t) * dslope sin (E t) (E s) = sin (E s) - sin (E t) := by
    have := sub_smul_dslope sin (E t) (E s)
    simpa using this
  unfold KeplerEq at hk hsolt
  rw [← hk, ← hsolt]
  field_simp
  linear_combination (e t) * hd

end Jaxoplanet.Kepler
