import Verif.Proofs.KeplerFloatRoot
import Mathlib.Analysis.Real.Pi.Irrational

/-!
# C97: `kepler()` in floating-point arithmetic

The runs of `Model/KeplerFloat.lean` make an arbitrary relative error of at most `u` in every operation.
-/

namespace Jaxoplanet.KeplerFloat

open Real Kepler Spec

/-- **C97 (a).** Whatever the rounding errors, the mean anomaly and the eccentricity, the result of `kepler()` is within
`17 u` of the unit circle. -/
theorem float_on_unit_circle {u M e : ℝ} (hu0 : 0 ≤ u) (hu : u ≤ 1e-10) (R : KeplerRun u M e) :
    |√(R.result.1 ^ 2 + R.result.2 ^ 2) - 1| ≤ 17 * u := conv_unit hu0 hu R.conv

/-- the constant `two_pi` of a run -/
theorem two_pi_rnd {u M e : ℝ} (hu0 : 0 ≤ u) (hu : u ≤ 1e-10) (R : KeplerRun u M e) :
    |R.pi - π| ≤ 3.15 * u ∧ |R.two_pi - 2 * π| ≤ 12.7 * u ∧ |R.two_pi - 2 * R.pi| ≤ 6.4 * u ∧ R.two_pi ≤ 6.3 ∧ 6.28 ≤ R.two_pi ∧
      |R.two_pi - 2 * π| ≤ 2.01 * u * (2 * π) := by
  have h1 := R.hpi
  have h2 := R.htwo_pi
  unfold Rnd at h1 h2
  have p1 := pi_gt_d4
  have p2 := pi_lt_d4
  norm_num at p1 p2 hu
  rw [abs_of_pos pi_pos] at h1
  have a1 : |R.pi - π| ≤ 3.15 * u := h1.trans (by norm_num; nlinarith)
  have huu : u * u ≤ 0.0001 * u := mul_le_mul_of_nonneg_right (by norm_num; linarith) hu0
  have huπ : u * u * π ≤ 0.0001 * u * π := by gcongr
  obtain ⟨l, r⟩ := abs_le.1 a1
  obtain ⟨l', r'⟩ := abs_le.1 h1
  norm_num at l r huu huπ
  have hp : 0 < 2 * R.pi := by linarith
  rw [abs_of_pos hp] at h2
  have a2 : u * (2 * R.pi) ≤ 2.001 * u * π := by
    have : u * R.pi ≤ u * (π + u * π) := by gcongr; linarith
    norm_num at this ⊢
    linarith
  have a3 : |R.two_pi - 2 * π| ≤ 2.01 * u * (2 * π) := by
    have := abs_add_le (R.two_pi - 2 * R.pi) (2 * R.pi - 2 * π)
    rw [sub_add_sub_cancel, ← mul_sub 2 R.pi, abs_mul, abs_of_pos (by norm_num : (0 : ℝ) < 2)] at this
    have h0 : 0 ≤ u * π := by positivity
    norm_num at this a2 ⊢
    linarith
  have a4 : u * π ≤ u * 3.1416 := by gcongr; norm_num; linarith
  have a5 : |R.two_pi - 2 * π| ≤ 12.7 * u := a3.trans (by norm_num at a4 ⊢; linarith)
  obtain ⟨l2, r2⟩ := abs_le.1 a5
  norm_num at l2 r2
  refine ⟨a1, a5, ?_, by norm_num; linarith, by norm_num; linarith, a3⟩
  refine h2.trans (a2.trans ?_)
  norm_num at a4 ⊢
  linarith

/-- the reduction to one revolution -/
theorem reduce_rnd {u M e : ℝ} (hu0 : 0 ≤ u) (hu : u ≤ 1e-10) (R : KeplerRun u M e) :
    |R.Mr - (M - R.n * (2 * π))| ≤ u * (3 * |M| + 20) := by
  obtain ⟨-, -, -, t1, t0, t2⟩ := two_pi_rnd hu0 hu R
  have h := R.hMr
  have h0 := R.hMr0
  have h1 := R.hMr1
  unfold Rnd at h
  generalize hX : M - R.n * R.two_pi = X at *
  have hXb : |X| ≤ 6.31 := by
    have a := abs_sub_abs_le_abs_sub X R.Mr
    rw [abs_sub_comm X, abs_of_nonneg h0] at a
    have b : u * |X| ≤ 0.0001 * |X| := mul_le_mul_of_nonneg_right (by norm_num at hu ⊢; linarith) (abs_nonneg _)
    have := abs_nonneg X
    norm_num at b t1 ⊢
    linarith
  have hn : |(R.n : ℝ)| * R.two_pi ≤ |M| + 6.31 := by
    have a : (R.n : ℝ) * R.two_pi = M - X := by rw [← hX]; ring
    have b : |(R.n : ℝ)| * R.two_pi = |M - X| := by
      rw [← a, abs_mul, abs_of_pos (by norm_num at t0; linarith : 0 < R.two_pi)]
    rw [b]
    exact (abs_sub _ _).trans (by linarith)
  have hn' : |(R.n : ℝ)| * (2 * π) ≤ 1.01 * (|M| + 6.31) := by
    have : 2 * π ≤ 1.01 * R.two_pi := by
      have := pi_lt_d4
      norm_num at this t0 ⊢
      linarith
    calc |(R.n : ℝ)| * (2 * π) ≤ |(R.n : ℝ)| * (1.01 * R.two_pi) := by gcongr
      _ = 1.01 * (|(R.n : ℝ)| * R.two_pi) := by ring
      _ ≤ _ := by gcongr
  have e1 : R.Mr - (M - R.n * (2 * π)) = (R.Mr - X) + -(R.n * (R.two_pi - 2 * π)) := by rw [← hX]; ring
  rw [e1]
  refine (abs_add_le _ _).trans ?_
  rw [abs_neg, abs_mul]
  have e2 : |(R.n : ℝ)| * |R.two_pi - 2 * π| ≤ |(R.n : ℝ)| * (2.01 * u * (2 * π)) := by gcongr
  have e3 : u * (|(R.n : ℝ)| * (2 * π)) ≤ u * (1.01 * (|M| + 6.31)) := by gcongr
  have e4 : u * |X| ≤ u * 6.31 := by gcongr
  have e5 : 0 ≤ u * |M| := by positivity
  norm_num at e2 e3 e4 ⊢
  linarith

/-- the folded mean anomaly of a run and the exact mean anomaly it stands for -/
theorem fold_rnd {u M e : ℝ} (hu0 : 0 ≤ u) (hu : u ≤ 1e-10) (R : KeplerRun u M e) :
    ∃ Ms, 0 ≤ Ms ∧ Ms ≤ π ∧ Rnd (5 * u) Ms (if R.pi < R.Mr then R.Mh else R.Mr) ∧
      (¬ R.pi < R.Mr → Ms = min R.Mr π) ∧
      |(if R.pi < R.Mr then 2 * π - Ms else Ms) - R.Mr| ≤ 33 * u := by
  obtain ⟨p0, p1, p2, p3, p4, -⟩ := two_pi_rnd hu0 hu R
  have hπ := pi_pos
  have hπ3 := pi_gt_d4
  have hπ4 := pi_lt_d4
  obtain ⟨l0, r0⟩ := abs_le.1 p0
  obtain ⟨l1, r1⟩ := abs_le.1 p1
  obtain ⟨l2, r2⟩ := abs_le.1 p2
  split_ifs with hh
  · have hM := R.hMh
    have h1 := R.hMr1
    unfold Rnd at hM
    rw [abs_of_nonneg (by linarith : 0 ≤ R.two_pi - R.Mr)] at hM
    have hus : u ≤ 0.0001 := by norm_num at hu ⊢; linarith
    have b1 : u * (R.two_pi - R.Mr) ≤ u * 3.2 := by
      gcongr
      norm_num at l0 r0 l2 r2 hus hπ3 hπ4 hu ⊢
      linarith
    obtain ⟨l3, r3⟩ := abs_le.1 hM
    have h0 : 0 ≤ R.Mh := by
      have : u * (R.two_pi - R.Mr) ≤ 1 * (R.two_pi - R.Mr) := by
        refine mul_le_mul_of_nonneg_right ?_ (by linarith)
        norm_num at hus; linarith
      linarith
    have hlt : R.Mh - π ≤ 12.8 * u := by
      norm_num at l0 r0 l2 r2 l3 r3 b1 ⊢
      linarith
    refine ⟨min R.Mh π, le_min h0 hπ.le, min_le_right _ _, ?_, fun h => absurd hh h, ?_⟩
    · rcases le_total R.Mh π with h | h
      · rw [min_eq_left h]
        exact Rnd.refl (by positivity) _
      · rw [min_eq_right h]
        unfold Rnd
        rw [abs_of_nonneg (by linarith), abs_of_pos hπ]
        norm_num at hlt hπ3 ⊢
        nlinarith
    · have hmin : |min R.Mh π - R.Mh| ≤ 12.8 * u := by
        rcases le_total R.Mh π with h | h
        · rw [min_eq_left h, sub_self, abs_zero]; positivity
        · rw [min_eq_right h, abs_sub_comm, abs_of_nonneg (by linarith)]; exact hlt
      generalize min R.Mh π = m at *
      obtain ⟨l4, r4⟩ := abs_le.1 hmin
      rw [abs_le]
      norm_num at l1 r1 l3 r3 l4 r4 b1 ⊢
      constructor <;> linarith
  · have h0 := R.hMr0
    push Not at hh
    have hlt : R.Mr - π ≤ 3.15 * u := by linarith
    have hm0 : |min R.Mr π - R.Mr| ≤ 3.15 * u := by
      rcases le_total R.Mr π with h | h
      · rw [min_eq_left h, sub_self, abs_zero]; positivity
      · rw [min_eq_right h, abs_sub_comm, abs_of_nonneg (by linarith)]; exact hlt
    refine ⟨min R.Mr π, le_min h0 hπ.le, min_le_right _ _, ?_, fun _ => rfl, hm0.trans (by gcongr; norm_num)⟩
    rcases le_total R.Mr π with h | h
    · rw [min_eq_left h]
      exact Rnd.refl (by positivity) _
    · rw [min_eq_right h]
      unfold Rnd
      rw [abs_of_nonneg (by linarith), abs_of_pos hπ]
      norm_num at hlt hπ3 ⊢
      nlinarith

/-- the result of a run against the exact mean anomaly `Ms` that its folded mean anomaly stands for -/
theorem run_accurate {u M e Ms : ℝ} (hu0 : 0 ≤ u) (hu : u ≤ 1e-10) (he0 : 0 ≤ e) (he : 400 * u ≤ 1 - e) (he1 : e < 1)
    (R : KeplerRun u M e) (h0 : 0 ≤ Ms) (h1 : Ms ≤ π) (hM : Rnd (5 * u) Ms (if R.pi < R.Mr then R.Mh else R.Mr)) :
    ((0 < R.start.c3 ∧ 0 < R.start.m3 ∧ 0 < R.start.s3 ∧ 0 < R.start.p4 ∧ 0 < R.start.d) ∧
      (0 < R.ref.f_1 ∧ 0 < R.ref.g4 ∧ 0 < R.ref.h7 ∧ 0 < R.ref.i11)) ∧
    ∃ f, TrueAnomalyAt (if R.pi < R.Mr then 2 * π - Ms else Ms) e f ∧ gap R.result (sin f, cos f) ≤ 1.5e-13 + 108 * u / (1 - e) := by
  obtain ⟨Ee, hK⟩ := keplerEq_exists he0 he1 Ms
  obtain ⟨hpos, E, hE0, hE, hEe, hout⟩ := solve_rounding hu0 hu he0 he he1 h0 h1 R.hpi hM R.home R.start R.ref hK
  refine ⟨hpos, ?_⟩
  obtain ⟨E', hE', hg⟩ := conv_accurate hu0 hu he0 he1 R.conv
  obtain ⟨-, p1, -, p3, p4, -⟩ := two_pi_rnd hu0 hu R
  obtain ⟨hσ0, hσ1, hσ2, hσE, hf1', -, -⟩ := half_facts he0 he1 hE0 hE
  have hf1 : 0 < 1 - e * cos E := one_sub_ecos_pos he0 he1 E
  have hV0 : 0 ≤ e * sin (E / 2) ^ 2 := by positivity
  -- the range of the eccentric anomaly
  have e1 : (1.3e-13 * (e * sin (E / 2) ^ 3) + 41.1 * (u * sin (E / 2))) / (1 - e * cos E) ≤ 0.103 * sin (E / 2) := by
    rw [div_le_iff₀ hf1]
    have a1 : sin (E / 2) * (2 * (e * sin (E / 2) ^ 2)) ≤ sin (E / 2) * (1 - e * cos E) := by
      gcongr
      linarith
    have a2 : sin (E / 2) * (400 * u) ≤ sin (E / 2) * (1 - e * cos E) := by
      gcongr
      linarith
    have a3 : 0 ≤ sin (E / 2) * (1 - e * cos E) := by positivity
    norm_num
    linarith
  have e2 : 0 ≤ R.ref.out ∧ R.ref.out ≤ 3.32 := by
    obtain ⟨l1, r1⟩ := abs_le.1 hEe
    obtain ⟨l2, r2⟩ := abs_le.1 (hout.trans e1)
    norm_num at l1 r1 l2 r2 hE ⊢
    constructor <;> linarith
  have h32 : 76 * u / (1 - e) + 32 * u ≤ 108 * u / (1 - e) := by
    have : 32 * u ≤ 32 * u / (1 - e) := by
      rw [le_div_iff₀ (by linarith)]
      exact mul_le_of_le_one_right (by positivity) (by linarith)
    have : 108 * u / (1 - e) = 76 * u / (1 - e) + 32 * u / (1 - e) := by ring
    linarith
  obtain ⟨l1, r1⟩ := abs_le.1 p1
  have hus : u ≤ 0.0001 := by norm_num at hu ⊢; linarith
  norm_num at hus p3 p4 e2 l1 r1
  split_ifs at hE' ⊢ with hh
  · -- folded
    have k1 : |R.Eh - (2 * π - R.ref.out)| ≤ 19.1 * u := by
      have a1 : |R.two_pi - R.ref.out - (2 * π - R.ref.out)| ≤ 12.7 * u := by rw [sub_sub_sub_cancel_right]; exact p1
      have a2 : |R.two_pi - R.ref.out| ≤ 6.3 := by
        rw [abs_le]
        norm_num
        constructor <;> linarith
      refine (abs_rnd hu0 a1 R.hEh a2).trans ?_
      norm_num
      linarith
    have k2 : |R.Eh| ≤ 6.31 := by
      refine (abs_le_of_err (X := 6.3) k1 ?_).trans ?_
      · have := pi_lt_d4
        have := pi_gt_d4
        rw [abs_le]
        norm_num at *
        constructor <;> linarith
      · norm_num
        linarith
    have k3 : |E' - R.Eh| ≤ 6.31 * u := hE'.trans (by rw [mul_comm]; gcongr)
    have k4 : |2 * π - E' - Ee| ≤ (1.3e-13 * (e * sin (E / 2) ^ 3) + 41.1 * (u * sin (E / 2))) / (1 - e * cos E) + 27 * u := by
      have e3 : 2 * π - E' - Ee = (R.ref.out - Ee) + (-(R.Eh - (2 * π - R.ref.out)) + -(E' - R.Eh)) := by ring
      rw [e3]
      refine (abs_add_le _ _).trans (add_le_add hout ((abs_add_le _ _).trans ?_))
      rw [abs_neg, abs_neg]
      norm_num at k1 k3
      linarith
    have hG := gap_rounding (F := 2 * π - Ee) (F' := E') hu0 hu he0 he he1 hE0 hE hEe k4 (cos_two_pi_sub _)
      (by rw [cos_two_pi_sub]) (by rw [show E' - (2 * π - Ee) = -(2 * π - E' - Ee) by ring, abs_neg])
    obtain ⟨f, hf⟩ := exists_isTrueAnomaly he0 he1 (2 * π - Ee)
    refine ⟨f, ⟨2 * π - Ee, ?_, hf⟩, ?_⟩
    · unfold KeplerEq at *
      rw [sin_two_pi_sub]
      linarith
    · rw [← toTrueAnomaly_of_isTrueAnomaly he0 he1 hf]
      have := gap_triangle R.result (toTrueAnomaly e E') (toTrueAnomaly e (2 * π - Ee))
      have hg' : gap R.result (toTrueAnomaly e E') ≤ 32 * u := hg
      linarith
  · have k3 : |E' - R.ref.out| ≤ 27 * u := hE'.trans (by
      rw [abs_of_nonneg e2.1]
      have : u * R.ref.out ≤ u * (83 / 25) := by gcongr; exact e2.2
      linarith)
    have k4 : |E' - Ee| ≤ (1.3e-13 * (e * sin (E / 2) ^ 3) + 41.1 * (u * sin (E / 2))) / (1 - e * cos E) + 27 * u := by
      rw [show E' - Ee = (R.ref.out - Ee) + (E' - R.ref.out) by ring]
      exact (abs_add_le _ _).trans (add_le_add hout k3)
    have hG := gap_rounding (F := Ee) (F' := E') hu0 hu he0 he he1 hE0 hE hEe k4 rfl rfl rfl
    obtain ⟨f, hf⟩ := exists_isTrueAnomaly he0 he1 Ee
    refine ⟨f, ⟨Ee, hK, hf⟩, ?_⟩
    rw [← toTrueAnomaly_of_isTrueAnomaly he0 he1 hf]
    have := gap_triangle R.result (toTrueAnomaly e E') (toTrueAnomaly e Ee)
    have hg' : gap R.result (toTrueAnomaly e E') ≤ 32 * u := hg
    linarith

/-- **C97 (b).** Accuracy: every floating-point run of `kepler(M, ecc)` with unit roundoff `u ≤ 1e-10` and
`1 - ecc ≥ 400 u` returns, up to `1.5e-13 + 108 u / (1 - ecc)`, the sine and cosine of the exact true anomaly at a mean
anomaly that differs from `M`, reduced to one revolution, by at most `u (3 |M| + 60)`. -/
theorem float_accurate {u M e : ℝ} (hu0 : 0 ≤ u) (hu : u ≤ 1e-10) (he0 : 0 ≤ e) (he : 400 * u ≤ 1 - e) (he1 : e < 1)
    (R : KeplerRun u M e) :
    ∃ M' f, |M' - (M - R.n * (2 * π))| ≤ u * (3 * |M| + 60) ∧ TrueAnomalyAt M' e f ∧
      gap R.result (sin f, cos f) ≤ 1.5e-13 + 108 * u / (1 - e) := by
  obtain ⟨Ms, h0, h1, h2, -, h3⟩ := fold_rnd hu0 hu R
  obtain ⟨-, f, hf, hg⟩ := run_accurate hu0 hu he0 he he1 R h0 h1 h2
  refine ⟨_, f, ?_, hf, hg⟩
  have h4 := reduce_rnd hu0 hu R
  have := abs_add_le ((if R.pi < R.Mr then 2 * π - Ms else Ms) - R.Mr) (R.Mr - (M - R.n * (2 * π)))
  rw [sub_add_sub_cancel] at this
  linarith

/-- **C97 (c).** When the mean anomaly is in `[0, π]` and the reduction leaves it as it is, as C's `fmod` does, the result
is the true anomaly at that very mean anomaly up to `1.5e-13 + 108 u / (1 - ecc)`. -/
theorem float_accurate_half {u M e : ℝ} (hu0 : 0 ≤ u) (hu : u ≤ 1e-10) (he0 : 0 ≤ e) (he : 400 * u ≤ 1 - e) (he1 : e < 1)
    (R : KeplerRun u M e) (hM : R.Mr = M) (hpi : M ≤ R.pi) (hπ : M ≤ π) {f : ℝ} (hf : TrueAnomalyAt M e f) :
    gap R.result (sin f, cos f) ≤ 1.5e-13 + 108 * u / (1 - e) := by
  obtain ⟨Ms, h0, h1, h2, h3, -⟩ := fold_rnd hu0 hu R
  have hn : ¬ R.pi < R.Mr := by rw [hM]; exact not_lt.2 hpi
  obtain ⟨-, f', hf', hg⟩ := run_accurate hu0 hu he0 he he1 R h0 h1 h2
  rw [if_neg hn, h3 hn, hM, min_eq_left hπ] at hf'
  obtain ⟨E, hE, hfE⟩ := hf
  obtain ⟨E', hE', hfE'⟩ := hf'
  have hEE := keplerEq_unique he0 he1 hE hE'
  subst hEE
  rw [← toTrueAnomaly_of_isTrueAnomaly he0 he1 hfE, toTrueAnomaly_of_isTrueAnomaly he0 he1 hfE']
  exact hg

/-- **C97 (d).** No run divides by zero or takes the square root of a negative number: `kepler()` produces no `nan` or
`inf` from its own arithmetic. -/
theorem float_no_failure {u M e : ℝ} (hu0 : 0 ≤ u) (hu : u ≤ 1e-10) (he0 : 0 ≤ e) (he : 400 * u ≤ 1 - e) (he1 : e < 1)
    (R : KeplerRun u M e) :
    (0 < R.pi ∧ 0 < R.start.c3 ∧ 0 < R.start.m3 ∧ 0 ≤ R.start.s3 ∧ 0 < R.start.p4 ∧ 0 < R.start.d) ∧
      (0 < R.ref.f_1 ∧ 0 < R.ref.g4 ∧ 0 < R.ref.h7 ∧ 0 < R.ref.i11) ∧
      (0 < R.conv.k2 ∧ 0 ≤ R.conv.k3 ∧ 0 < R.conv.k7) := by
  obtain ⟨Ms, h0, h1, h2, -, -⟩ := fold_rnd hu0 hu R
  obtain ⟨⟨⟨a1, a2, a3, a4, a5⟩, hb⟩, -⟩ := run_accurate hu0 hu he0 he he1 R h0 h1 h2
  have hu1 : u < 1 := by norm_num at hu; linarith
  have k2 : 0 < R.conv.k2 := Rnd.pos hu1 R.conv.hk2 (by linarith)
  have k1 : 0 < R.conv.k1 := Rnd.pos hu1 R.conv.hk1 (by linarith)
  have t2 : 0 ≤ R.conv.t2 := Rnd.nonneg hu1.le R.conv.ht2 (mul_self_nonneg _)
  exact ⟨⟨Rnd.pos hu1 R.hpi pi_pos, a1, a2, a3.le, a4, a5⟩, hb, k2,
    (Rnd.pos hu1 R.conv.hk3 (div_pos k1 k2)).le, Rnd.pos hu1 R.conv.hk7 (by linarith)⟩

theorem rnd_zero {x y : ℝ} : Rnd 0 x y ↔ y = x := by
  unfold Rnd
  rw [zero_mul, abs_nonpos_iff, sub_eq_zero]

/-- with exact operations, a run of `starter` is the model of exact arithmetic -/
theorem StarterRun.exact {M e o : ℝ} (S : StarterRun 0 π M e o) : S.out = starter M e o := by
  rw [rnd_zero.1 S.hout, rnd_zero.1 S.hn4, rnd_zero.1 S.hn3, rnd_zero.1 S.hp4, rnd_zero.1 S.hp3, rnd_zero.1
    S.hp2, rnd_zero.1 S.hp1, rnd_zero.1 S.hn2, rnd_zero.1 S.hn1, rnd_zero.1 S.hw, rnd_zero.1 S.hs6, rnd_zero.1
    S.hs5, rnd_zero.1 S.hs4, rnd_zero.1 S.hs3, rnd_zero.1 S.hs2, rnd_zero.1 S.hs1, rnd_zero.1 S.hq2,
    rnd_zero.1 S.hq, rnd_zero.1 S.hq1, rnd_zero.1 S.hq0, rnd_zero.1 S.hr, rnd_zero.1 S.hr4, rnd_zero.1 S.hr3,
    rnd_zero.1 S.hr2, rnd_zero.1 S.hr1, rnd_zero.1 S.halphad, rnd_zero.1 S.hd, rnd_zero.1 S.hd2, rnd_zero.1
    S.hd1, rnd_zero.1 S.halpha, rnd_zero.1 S.hm4, rnd_zero.1 S.hm3, rnd_zero.1 S.hm2, rnd_zero.1 S.hm1,
    rnd_zero.1 S.hc6, rnd_zero.1 S.hc5, rnd_zero.1 S.hc4, rnd_zero.1 S.hc3, rnd_zero.1 S.hc2, rnd_zero.1
    S.hc1, rnd_zero.1 S.hM2]
  simp only [starter, pow_two]

/-- with exact operations, a run of `refine` is the model of exact arithmetic -/
theorem RefineRun.exact {M e o E : ℝ} (S : RefineRun 0 M e o E) : S.out = Kepler.refine M e o E := by
  rw [rnd_zero.1 S.hout, rnd_zero.1 S.hdE, rnd_zero.1 S.hi11, rnd_zero.1 S.hi10, rnd_zero.1 S.hi9, rnd_zero.1
    S.hi8, rnd_zero.1 S.hi7, rnd_zero.1 S.hi6, rnd_zero.1 S.hi5, rnd_zero.1 S.hi4, rnd_zero.1 S.hi3,
    rnd_zero.1 S.hi2, rnd_zero.1 S.hi1, rnd_zero.1 S.hd_42, rnd_zero.1 S.hd_4, rnd_zero.1 S.hh7, rnd_zero.1
    S.hh6, rnd_zero.1 S.hh5, rnd_zero.1 S.hh4, rnd_zero.1 S.hh3, rnd_zero.1 S.hh2, rnd_zero.1 S.hh1,
    rnd_zero.1 S.hd_3, rnd_zero.1 S.hg4, rnd_zero.1 S.hg3, rnd_zero.1 S.hg2, rnd_zero.1 S.hg1, rnd_zero.1
    S.hf_3, rnd_zero.1 S.hf_2, rnd_zero.1 S.he1, rnd_zero.1 S.hf_1, rnd_zero.1 S.hb1, rnd_zero.1 S.hf_0,
    rnd_zero.1 S.ha3, rnd_zero.1 S.ha2, rnd_zero.1 S.ha1, rnd_zero.1 S.hcE, rnd_zero.1 S.hcs, rnd_zero.1
    S.hsE, rnd_zero.1 S.hsn]
  rfl

/-- with exact operations, a run of the conversion is the model of exact arithmetic -/
theorem ConvRun.exact {e E : ℝ} (S : ConvRun 0 e E) : (S.sinf, S.cosf) = toTrueAnomaly e E := by
  have h := S.hk5'
  rw [rnd_zero.1 S.hk5] at h
  rw [rnd_zero.1 S.hcosf, rnd_zero.1 S.hk9, rnd_zero.1 S.hsinf, rnd_zero.1 S.hk8, rnd_zero.1 S.hdenom,
    rnd_zero.1 S.hk7, rnd_zero.1 S.ht2, rnd_zero.1 S.ht, rnd_zero.1 S.hk6, rnd_zero.1 S.hk5, rnd_zero.1 S.hk4,
    rnd_zero.1 S.hk3, rnd_zero.1 S.hk2, rnd_zero.1 S.hk1]
  simp only [toTrueAnomaly, if_neg h, pow_two]

/-- **C97 (e).** The runs with no rounding error are the exact model of `kepler()` that the other properties are about. -/
theorem float_exact {M e : ℝ} (R : KeplerRun 0 M e) (hM : R.Mr < R.two_pi) : R.result = kepler M e := by
  obtain ⟨pi, hpi, two_pi, htwo_pi, n, Mr, hMr, hMr0, hMr1, Mh, hMh, ome, home, start, ref, Eh, hEh, conv⟩ := R
  simp only [Rnd, zero_mul, abs_nonpos_iff, sub_eq_zero] at hpi htwo_pi hMr hMh home hEh
  subst hpi htwo_pi hMh home hEh
  have h1 := start.exact
  have h2 := ref.exact
  have h3 := conv.exact
  simp only at hM
  have h4 : fmod M (2 * π) = Mr := fmod_unique two_pi_pos n hMr hMr0 hM
  simp only [KeplerRun.result, h3, h2, h1, kepler, solveE, h4]

theorem cos_rat_ne_zero (q : ℚ) : cos q ≠ 0 := by
  intro h
  obtain ⟨k, hk⟩ := cos_eq_zero_iff.1 h
  refine irrational_pi ⟨2 * q / (2 * k + 1), ?_⟩
  have h1 : (2 * (k : ℝ) + 1) ≠ 0 := by
    have : 2 * k + 1 ≠ 0 := by omega
    exact_mod_cast this
  push_cast
  rw [hk]
  field_simp

/-- every positive unit roundoff has a rounding function into the rational numbers -/
theorem exists_rounding {u : ℝ} (hu : 0 < u) : ∃ fl : ℝ → ℚ, ∀ x, Rnd u x (fl x) := by
  have h : ∀ x : ℝ, ∃ q : ℚ, Rnd u x q := by
    intro x
    rcases eq_or_ne x 0 with rfl | hx
    · exact ⟨0, by simp [Rnd]⟩
    · have : 0 < u * |x| := by positivity
      obtain ⟨q, h1, h2⟩ := exists_rat_btwn (show x - u * |x| < x + u * |x| by linarith)
      exact ⟨q, abs_le.2 ⟨by linarith, by linarith⟩⟩
  choose fl h using h
  exact ⟨fl, h⟩

/-- the run of `starter` with a rounding function -/
noncomputable def StarterRun.ofRounding {u : ℝ} (fl : ℝ → ℚ) (h : ∀ x, Rnd u x (fl x)) (pi M e o : ℝ) : StarterRun u pi M e o :=
  ⟨_, h _, _, h _, _, h _, _, h _, _, h _, _, h _, _, h _, _, h _, _, h _, _, h _, _, h _, _, h _, _, h _, _,
    h _, _, h _, _, h _, _, h _, _, h _, _, h _, _, h _, _, h _, _, h _, _, h _, _, h _, _, h _, _, h _, _, h
    _, _, h _, _, h _, _, h _, _, h _, _, h _, _, h _, _, h _, _, h _, _, h _, _, h _, _, h _, _, h _, _, h _,
    _, h _⟩

/-- the run of `refine` with a rounding function -/
noncomputable def RefineRun.ofRounding {u : ℝ} (fl : ℝ → ℚ) (h : ∀ x, Rnd u x (fl x)) (M e o E : ℝ) : RefineRun u M e o E :=
  ⟨_, h _, _, h _, _, h _, _, h _, _, h _, _, h _, _, h _, _, h _, _, h _, _, h _, _, h _, _, h _, _, h _, _,
    h _, _, h _, _, h _, _, h _, _, h _, _, h _, _, h _, _, h _, _, h _, _, h _, _, h _, _, h _, _, h _, _, h
    _, _, h _, _, h _, _, h _, _, h _, _, h _, _, h _, _, h _, _, h _, _, h _, _, h _, _, h _, _, h _, _, h _⟩

/-- the run of the conversion with a rounding function: a rational number is no pole of the tangent -/
noncomputable def ConvRun.ofRounding {u : ℝ} (fl : ℝ → ℚ) (h : ∀ x, Rnd u x (fl x)) (e E : ℝ) : ConvRun u e E :=
  ⟨_, h _, _, h _, _, h _, _, h _, _, h _, cos_rat_ne_zero _, _, h _, _, h _, _, h _, _, h _, _, h _, _, h _, _, h _, _, h _, _, h _⟩

/-- the run of `kepler(M, ecc)` with a rounding function into the rational numbers, such as the rounding of a floating-point
format: every operation is rounded by it, except that the remainder is exact, as that of C's `fmod` -/
noncomputable def KeplerRun.ofRounding {u : ℝ} (hu0 : 0 ≤ u) (hu1 : u < 1) (fl : ℝ → ℚ) (h : ∀ x, Rnd u x (fl x)) (M e : ℝ) : KeplerRun u M e :=
  have hpos : (0 : ℝ) < fl (2 * fl π) := Rnd.pos hu1 (h _) (mul_pos two_pos (Rnd.pos hu1 (h _) pi_pos))
  { pi := fl π
    hpi := h _
    two_pi := fl (2 * fl π)
    htwo_pi := h _
    n := ⌊M / fl (2 * fl π)⌋
    Mr := fmod M (fl (2 * fl π))
    hMr := by
      have : M - ⌊M / fl (2 * fl π)⌋ * (fl (2 * fl π) : ℝ) = fmod M (fl (2 * fl π)) := by unfold fmod; ring
      rw [this]
      exact Rnd.refl hu0 _
    hMr0 := fmod_nonneg M hpos
    hMr1 := (fmod_lt M hpos).le
    Mh := fl (fl (2 * fl π) - fmod M (fl (2 * fl π)))
    hMh := h _
    ome := fl (1 - e)
    home := h _
    start := StarterRun.ofRounding fl h _ _ _ _
    ref := RefineRun.ofRounding fl h _ _ _ _
    Eh := fl (fl (2 * fl π) - (RefineRun.ofRounding fl h _ _ _ _).out)
    hEh := h _
    conv := ConvRun.ofRounding fl h _ _ }

/-- **C97 (f).** Double precision: for eccentricities up to `0.9` and mean anomalies in `[0, 3]`, `kepler()` evaluated with
any rounding of unit roundoff `2⁻⁵²` returns the sine and cosine of the true anomaly up to `4e-13`. -/
theorem float_double (fl : ℝ → ℚ) (h : ∀ x, Rnd (2 ^ (-52 : ℤ)) x (fl x)) {M e f : ℝ} (hM0 : 0 ≤ M) (hM : M ≤ 3) (he0 : 0 ≤ e) (he : e ≤ 0.9)
    (hf : TrueAnomalyAt M e f) :
    gap (KeplerRun.ofRounding (u := 2 ^ (-52 : ℤ)) (by positivity) (by norm_num) fl h M e).result (sin f, cos f) ≤ 4e-13 := by
  have hpi := h π
  have hpi2 := h (2 * fl π)
  have h3 := pi_gt_d2
  have e1 : (2 : ℝ) ^ (-52 : ℤ) ≤ 2.3e-16 := by norm_num
  have e0 : (0 : ℝ) < 2 ^ (-52 : ℤ) := by positivity
  have b1 : (3.13 : ℝ) ≤ fl π := by
    have := Rnd.ge hpi pi_pos.le
    norm_num at this h3 ⊢
    linarith
  have b2 : (6 : ℝ) < fl (2 * fl π) := by
    have := Rnd.ge hpi2 (by norm_num at b1; linarith)
    norm_num at this b1 ⊢
    linarith
  have hr : (KeplerRun.ofRounding (u := 2 ^ (-52 : ℤ)) (by positivity) (by norm_num) fl h M e).Mr = M :=
    fmod_of_mem hM0 (by linarith)
  refine (float_accurate_half e0.le (e1.trans (by norm_num)) he0 (by norm_num at he ⊢; linarith) (by norm_num at he; linarith) _ hr
    (hM.trans ?_) (by norm_num at h3; linarith) hf).trans ?_
  · show (3 : ℝ) ≤ fl π
    norm_num at b1
    linarith
  · have : 108 * (2 : ℝ) ^ (-52 : ℤ) / (1 - e) ≤ 108 * (2 : ℝ) ^ (-52 : ℤ) / 0.1 := by
      gcongr
      norm_num at he ⊢
      linarith
    refine (add_le_add_right this _).trans ?_
    norm_num

/-- the hypotheses are met: there is a rounding of that unit roundoff, and every mean anomaly has a true anomaly -/
example : ∃ (fl : ℝ → ℚ) (h : ∀ x, Rnd (2 ^ (-52 : ℤ)) x (fl x)) (f : ℝ), TrueAnomalyAt 1.5 0.8 f ∧
    gap (KeplerRun.ofRounding (u := 2 ^ (-52 : ℤ)) (by positivity) (by norm_num) fl h 1.5 0.8).result (sin f, cos f) ≤ 4e-13 := by
  obtain ⟨fl, h⟩ := exists_rounding (u := 2 ^ (-52 : ℤ)) (by positivity)
  obtain ⟨E, hE⟩ := keplerEq_exists (e := 0.8) (by norm_num) (by norm_num) 1.5
  obtain ⟨f, hf⟩ := exists_isTrueAnomaly (e := 0.8) (by norm_num) (by norm_num) E
  exact ⟨fl, h, f, ⟨E, hE, hf⟩, float_double fl h (by norm_num) (by norm_num) (by norm_num) (by norm_num) ⟨E, hE, hf⟩⟩

end Jaxoplanet.KeplerFloat
