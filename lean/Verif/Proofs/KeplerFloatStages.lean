import Verif.Proofs.KeplerFloatError

/-! The rounding errors of the three stages of the refinement step. -/

namespace Jaxoplanet.KeplerFloat

open Real Kepler

/-- error of a product -/
theorem step_mul {u x y x' y' z A B X X' Y' : ℝ} (hu0 : 0 ≤ u) (hx : |x' - x| ≤ A) (hy : |y' - y| ≤ B) (hX : |x| ≤ X)
    (hX' : |x'| ≤ X') (hY' : |y'| ≤ Y') (hz : Rnd u (x' * y') z) : |z - x * y| ≤ A * Y' + X * B + u * (X' * Y') :=
  abs_rnd hu0 (abs_mul_err hx hy hX hY') hz (abm hX' hY')

/-- error of a sum -/
theorem step_add {u x y x' y' z A B S : ℝ} (hu0 : 0 ≤ u) (hx : |x' - x| ≤ A) (hy : |y' - y| ≤ B) (hS : |x + y| ≤ S)
    (hz : Rnd u (x' + y') z) : |z - (x + y)| ≤ A + B + u * (S + (A + B)) :=
  abs_rnd hu0 (abs_add_err hx hy) hz (abs_le_of_err (abs_add_err hx hy) hS)

/-- error of a difference -/
theorem step_sub {u x y x' y' z A B S : ℝ} (hu0 : 0 ≤ u) (hx : |x' - x| ≤ A) (hy : |y' - y| ≤ B) (hS : |x - y| ≤ S)
    (hz : Rnd u (x' - y') z) : |z - (x - y)| ≤ A + B + u * (S + (A + B)) :=
  abs_rnd hu0 (abs_sub_err hx hy) hz (abs_le_of_err (abs_sub_err hx hy) hS)

/-- the denominator of the first stage -/
theorem stage3F {u e σ f0 f1 f2 f0' f1' f2' g1 g2 g3 g4 : ℝ} (hu0 : 0 ≤ u) (hu : u ≤ 1e-10) (he0 : 0 ≤ e) (hσ0 : 0 ≤ σ)
    (hf1 : 0 < f1) (hf12 : f1 ≤ 2) (huf : 400 * u ≤ f1) (hes : 2 * (e * σ ^ 2) ≤ f1)
    (hf0 : |f0| ≤ 0.00352 * σ * f1) (hf2 : |f2| ≤ 2 * (e * σ)) (h0 : |f0' - f0| ≤ 30.1 * u * σ) (h1 : |f1' - f1| ≤ 8.4 * u)
    (h2 : |f2' - f2| ≤ 11.2 * (e * (u * σ))) (hg1 : Rnd u (0.5 * f0') g1) (hg2 : Rnd u (g1 * f2') g2)
    (hg3 : Rnd u (g2 / f1') g3) (hg4 : Rnd u (f1' - g3) g4) (hD : |f1 - 0.5 * f0 * f2 / f1| ≤ 2.01) :
    0 < f1' ∧ |g4 - (f1 - 0.5 * f0 * f2 / f1)| ≤ 26.3 * u := by
  have hus : 1000000 * u ≤ 0.0001 := by norm_num at hu ⊢; linarith
  norm_num at hus
  have hf1' : 0.979 * f1 ≤ f1' := by
    have := (abs_le.1 h1).1
    norm_num at this ⊢
    linarith
  have hp1' : 0 < f1' := lt_of_lt_of_le (by positivity) hf1'
  refine ⟨hp1', ?_⟩
  have huσ : 0 ≤ u * σ := by positivity
  have hσf : u * σ ≤ 0.0025 * (σ * f1) := by
    have : σ * (400 * u) ≤ σ * f1 := by gcongr
    norm_num
    linarith
  have hσf0 : 0 ≤ σ * f1 := by positivity
  have q1 : |g1 - 0.5 * f0| ≤ 15.2 * (u * σ) := by
    have e1 : |0.5 * f0' - 0.5 * f0| ≤ 15.05 * (u * σ) := by
      rw [← mul_sub, abs_mul, abs_of_pos (by norm_num : (0 : ℝ) < 0.5)]
      norm_num at h0 ⊢
      linarith
    have e2 : |0.5 * f0| ≤ 0.00176 * (σ * f1) := by
      rw [abs_mul, abs_of_pos (by norm_num : (0 : ℝ) < 0.5)]
      norm_num at hf0 ⊢
      linarith
    refine (abs_rnd hu0 e1 hg1 (abs_le_of_err e1 e2)).trans ?_
    have e3 : 0.00176 * (σ * f1) + 15.05 * (u * σ) ≤ 0.05 * (σ * f1) := by norm_num at hσf ⊢; linarith
    have e4 : u * (0.00176 * (σ * f1) + 15.05 * (u * σ)) ≤ 0.1 * (u * σ) := by
      calc _ ≤ u * (0.05 * (σ * f1)) := by gcongr
        _ ≤ u * (0.05 * (σ * 2)) := by gcongr
        _ = _ := by ring
    norm_num at e4 ⊢
    linarith
  have q1a : |0.5 * f0| ≤ 0.00176 * (σ * f1) := by
    rw [abs_mul, abs_of_pos (by norm_num : (0 : ℝ) < 0.5)]
    norm_num at hf0 ⊢
    linarith
  have q1b : |g1| ≤ 0.04 * (σ * f1) := by
    refine (abs_le_of_err q1 q1a).trans ?_
    norm_num at hσf ⊢
    linarith
  have hes0 : 0 ≤ e * σ := by positivity
  have q2a : |f2'| ≤ 2.001 * (e * σ) := by
    refine (abs_le_of_err h2 hf2).trans ?_
    have : u * (e * σ) ≤ 0.00001 * (e * σ) := mul_le_mul_of_nonneg_right (by norm_num; linarith) hes0
    norm_num at this ⊢
    linarith
  have hV0 : 0 ≤ e * σ ^ 2 := by positivity
  have q2 : |g2 - 0.5 * f0 * f2| ≤ 30.7 * (u * (e * σ ^ 2)) := by
    refine (step_mul hu0 q1 h2 q1a q1b q2a hg2).trans ?_
    have e1 : 15.2 * (u * σ) * (2.001 * (e * σ)) + 0.00176 * (σ * f1) * (11.2 * (e * (u * σ))) + u * (0.04 * (σ * f1) * (2.001 * (e * σ)))
        = (15.2 * 2.001 + (0.00176 * 11.2 + 0.04 * 2.001) * f1) * (u * (e * σ ^ 2)) := by ring
    rw [e1]
    refine mul_le_mul_of_nonneg_right ?_ (by positivity)
    norm_num
    linarith
  have q2b : |0.5 * f0 * f2| ≤ 0.00352 * (f1 * (e * σ ^ 2)) := by
    refine (abm q1a hf2).trans (le_of_eq ?_)
    ring
  have hVf : u * (e * σ ^ 2) ≤ 0.0025 * (f1 * (e * σ ^ 2)) := by
    have : e * σ ^ 2 * (400 * u) ≤ e * σ ^ 2 * f1 := by gcongr
    norm_num
    linarith
  have hfV : 0 ≤ f1 * (e * σ ^ 2) := by positivity
  have q2c : |g2| ≤ 0.081 * (f1 * (e * σ ^ 2)) := by
    refine (abs_le_of_err q2 q2b).trans ?_
    norm_num at hVf ⊢
    linarith
  have q3 : |g2 / f1' - 0.5 * f0 * f2 / f1| ≤ 15.7 * u := by
    have e1 : g2 / f1' - 0.5 * f0 * f2 / f1 = ((g2 - 0.5 * f0 * f2) + -(0.5 * f0 * f2 / f1) * (f1' - f1)) / f1' := by
      field_simp
      ring
    have e2 : |-(0.5 * f0 * f2 / f1)| ≤ 0.00352 * (e * σ ^ 2) := by
      rw [abs_neg, abs_div, abs_of_pos hf1, div_le_iff₀ hf1]
      refine q2b.trans (le_of_eq (by ring))
    rw [e1, abs_div, abs_of_pos hp1', div_le_iff₀ hp1']
    refine (abs_add_le _ _).trans ((add_le_add q2 (abm e2 h1)).trans ?_)
    have e3 : 15.7 * u * (0.979 * f1) ≤ 15.7 * u * f1' := by gcongr
    have e4 : u * (2 * (e * σ ^ 2)) ≤ u * f1 := by gcongr
    have e5 : 0 ≤ u * (e * σ ^ 2) := by positivity
    norm_num at e3 ⊢
    linarith
  have q3b : |g2 / f1'| ≤ 0.1 := by
    rw [abs_div, abs_of_pos hp1', div_le_iff₀ hp1']
    have : f1 * (e * σ ^ 2) ≤ f1 * 1 := by gcongr; linarith
    norm_num at q2c hf1' this ⊢
    linarith
  have q3c : |g3 - 0.5 * f0 * f2 / f1| ≤ 15.8 * u := by
    refine (abs_rnd hu0 q3 hg3 q3b).trans ?_
    norm_num
    linarith
  refine (step_sub hu0 h1 q3c hD hg4).trans ?_
  have huu : u * u ≤ 0.001 * u := mul_le_mul_of_nonneg_right (by norm_num; linarith) hu0
  norm_num at huu ⊢
  linarith

/-- the common part of the denominators of the second and third stage -/
theorem stage4F {u e σ x f1 f2 f3 f1' f2' f3' d d' h1 h2 h3 h4 h5 h6 h7 : ℝ} (hu0 : 0 ≤ u) (hu : u ≤ 1e-10) (he0 : 0 ≤ e)
    (hσ0 : 0 ≤ σ) (hσ1 : σ ≤ 1) (hf1 : 0 < f1) (hf12 : f1 ≤ 2) (hes : 2 * (e * σ ^ 2) ≤ f1) (hx0 : 0 ≤ x)
    (hxe : x * (e * σ) ≤ 16.75 * u) (hxσ : x * σ ≤ 33.5 * u) (hx1 : x ≤ 0.08375 * σ) (hux : u * σ ≤ 0.06 * x)
    (hf2 : |f2| ≤ 2 * (e * σ)) (hf3 : |f3| ≤ 1) (k1 : |f1' - f1| ≤ 8.4 * u)
    (k2 : |f2' - f2| ≤ 11.2 * (e * (u * σ))) (k3 : |f3' - f3| ≤ 9.6 * u) (hd : |d| ≤ 0.0036 * σ) (hd' : |d' - d| ≤ x)
    (hh1 : Rnd u (0.5 * d') h1) (hh2 : Rnd u (h1 * f2') h2) (hh3 : Rnd u (f1' + h2) h3) (hh4 : Rnd u (d' * d') h4)
    (hh5 : Rnd u (h4 * f3') h5) (hh6 : Rnd u (h5 / 6) h6) (hh7 : Rnd u (h3 + h6) h7)
    (hD : |f1 + 0.5 * d * f2 + (d * d) * f3 / 6| ≤ 2.01) :
    |h4 - d * d| ≤ 0.0915 * (x * σ) ∧ |h4| ≤ 0.0078 * σ ^ 2 ∧ |d'| ≤ 0.0874 * σ ∧
      |h7 - (f1 + 0.5 * d * f2 + (d * d) * f3 / 6)| ≤ 30.2 * u := by
  have hus : 1000000 * u ≤ 0.0001 := by norm_num at hu ⊢; linarith
  norm_num at hus
  have huσ : 0 ≤ u * σ := by positivity
  have hes0 : 0 ≤ e * σ := by positivity
  have hV0 : 0 ≤ e * σ ^ 2 := by positivity
  have hσ2 : σ ^ 2 ≤ 1 := by nlinarith
  have hda : |d'| ≤ 0.0874 * σ := by
    refine (abs_le_of_err hd' hd).trans ?_
    norm_num at hx1 ⊢
    linarith
  have huu : u * u ≤ 0.001 * u := mul_le_mul_of_nonneg_right (by norm_num; linarith) hu0
  -- 0.5 d
  have q1 : |h1 - 0.5 * d| ≤ 0.503 * x := by
    have e1 : |0.5 * d' - 0.5 * d| ≤ 0.5 * x := by
      rw [← mul_sub, abs_mul, abs_of_pos (by norm_num : (0 : ℝ) < 0.5)]
      norm_num at hd' ⊢
      linarith
    have e2 : |0.5 * d'| ≤ 0.0437 * σ := by
      rw [abs_mul, abs_of_pos (by norm_num : (0 : ℝ) < 0.5)]
      norm_num at hda ⊢
      linarith
    refine (abs_rnd hu0 e1 hh1 e2).trans ?_
    norm_num at hux ⊢
    linarith
  have q1a : |0.5 * d| ≤ 0.0018 * σ := by
    rw [abs_mul, abs_of_pos (by norm_num : (0 : ℝ) < 0.5)]
    norm_num at hd ⊢
    linarith
  have q1b : |h1| ≤ 0.044 * σ := by
    refine (abs_le_of_err q1 q1a).trans ?_
    norm_num at hx1 ⊢
    linarith
  have q2a : |f2'| ≤ 2.001 * (e * σ) := by
    refine (abs_le_of_err k2 hf2).trans ?_
    have : u * (e * σ) ≤ 0.00001 * (e * σ) := mul_le_mul_of_nonneg_right (by norm_num; linarith) hes0
    norm_num at this ⊢
    linarith
  have hV1 : u * (e * σ ^ 2) ≤ u := mul_le_of_le_one_right hu0 (by linarith)
  have q2 : |h2 - 0.5 * d * f2| ≤ 17 * u := by
    refine (step_mul hu0 q1 k2 q1a q1b q2a hh2).trans ?_
    have e1 : 0.503 * x * (2.001 * (e * σ)) + 0.0018 * σ * (11.2 * (e * (u * σ))) + u * (0.044 * σ * (2.001 * (e * σ)))
        = 0.503 * 2.001 * (x * (e * σ)) + (0.0018 * 11.2 + 0.044 * 2.001) * (u * (e * σ ^ 2)) := by ring
    rw [e1]
    norm_num at hxe ⊢
    linarith
  have q2b : |0.5 * d * f2| ≤ 0.0036 := by
    refine (abm q1a hf2).trans ?_
    have : 0.0018 * σ * (2 * (e * σ)) = 0.0036 * (e * σ ^ 2) := by ring
    rw [this]
    norm_num
    linarith
  have q3a : |f1 + 0.5 * d * f2| ≤ 2.01 := by
    refine (abs_add_le _ _).trans ?_
    rw [abs_of_pos hf1]
    norm_num at q2b ⊢
    linarith
  have q3 : |h3 - (f1 + 0.5 * d * f2)| ≤ 27.5 * u := by
    refine (step_add hu0 k1 q2 q3a hh3).trans ?_
    norm_num at huu ⊢
    linarith
  -- d²
  have q4 : |h4 - d * d| ≤ 0.0915 * (x * σ) := by
    refine (step_mul hu0 hd' hd' hd hda hda hh4).trans ?_
    have e1 : x * (0.0874 * σ) + 0.0036 * σ * x + u * (0.0874 * σ * (0.0874 * σ)) = 0.091 * (x * σ) + 0.0874 ^ 2 * (u * σ * σ) := by
      ring
    have e2 : u * σ * σ ≤ 0.06 * x * σ := by gcongr
    rw [e1]
    have : 0 ≤ x * σ := by positivity
    norm_num at e2 ⊢
    linarith
  have q4a : |d * d| ≤ 0.000013 * σ ^ 2 := by
    refine (abm hd hd).trans ?_
    have : 0 ≤ σ ^ 2 := sq_nonneg σ
    have e1 : 0.0036 * σ * (0.0036 * σ) = 0.00001296 * σ ^ 2 := by ring
    rw [e1]
    norm_num
    linarith
  have q4b : |h4| ≤ 0.0078 * σ ^ 2 := by
    refine (abs_le_of_err q4 q4a).trans ?_
    have e2 : x * σ ≤ 0.08375 * σ * σ := by gcongr
    norm_num at e2 ⊢
    nlinarith [sq_nonneg σ]
  have q5a : |f3'| ≤ 1.001 := by
    refine (abs_le_of_err k3 hf3).trans ?_
    norm_num
    linarith
  have q5 : |h5 - d * d * f3| ≤ 3.1 * u := by
    have q4a' : |d * d| ≤ 0.000013 := q4a.trans (mul_le_of_le_one_right (by norm_num) hσ2)
    have q4b' : |h4| ≤ 0.0078 := q4b.trans (mul_le_of_le_one_right (by norm_num) hσ2)
    refine (step_mul hu0 q4 k3 q4a' q4b' q5a hh5).trans ?_
    norm_num at hxσ ⊢
    linarith
  have q5b : |d * d * f3| ≤ 0.000013 := by
    refine (abm (q4a.trans (mul_le_of_le_one_right (by norm_num) hσ2)) hf3).trans ?_
    norm_num
  have q6 : |h6 - d * d * f3 / 6| ≤ 0.52 * u := by
    have e1 : |h5 / 6 - d * d * f3 / 6| ≤ 3.1 * u / 6 := by
      rw [← sub_div, abs_div, abs_of_pos (by norm_num : (0 : ℝ) < 6)]
      gcongr
    have e2 : |d * d * f3 / 6| ≤ 0.0001 := by
      rw [abs_div, abs_of_pos (by norm_num : (0 : ℝ) < 6)]
      norm_num at q5b ⊢
      linarith
    refine (abs_rnd hu0 e1 hh6 (abs_le_of_err e1 e2)).trans ?_
    norm_num at huu ⊢
    linarith
  refine ⟨q4, q4b, hda, (step_add hu0 q3 q6 hD hh7).trans ?_⟩
  norm_num at huu ⊢
  linarith

/-- the last term of the third stage -/
theorem stage5F {u e σ x f2 f2' d d' h4 i7 V i8 i9 i10 i11 : ℝ} (hu0 : 0 ≤ u) (hu : u ≤ 1e-10) (he : e < 1)
    (hσ0 : 0 ≤ σ) (hσ1 : σ ≤ 1) (hx0 : 0 ≤ x) (hxσ : x * σ ≤ 33.5 * u)
    (hf2 : |f2| ≤ 1) (k2 : |f2' - f2| ≤ 11.2 * (e * (u * σ))) (hd : |d| ≤ 0.0036 * σ) (hd' : |d' - d| ≤ x)
    (hda : |d'| ≤ 0.0874 * σ) (hh4 : |h4 - d * d| ≤ 0.0915 * (x * σ)) (hh4b : |h4| ≤ 0.0078 * σ ^ 2)
    (hi8 : Rnd u (h4 * d') i8) (hi9 : Rnd u (i8 * f2') i9) (hi10 : Rnd u (i9 / 24) i10) (hi11 : Rnd u (i7 - i10) i11)
    (hi7 : |i7 - V| ≤ 30.2 * u) (hD : |V - (d * d) * d * f2 / 24| ≤ 2.01) :
    |i11 - (V - (d * d) * d * f2 / 24)| ≤ 32.3 * u := by
  have hus : 1000000 * u ≤ 0.0001 := by norm_num at hu ⊢; linarith
  norm_num at hus
  have hσ2 : σ ^ 2 ≤ 1 := by nlinarith
  have huu : u * u ≤ 0.001 * u := mul_le_mul_of_nonneg_right (by norm_num; linarith) hu0
  have a1 : |d'| ≤ 0.0874 := hda.trans (mul_le_of_le_one_right (by norm_num) hσ1)
  have a2 : |h4| ≤ 0.0078 := hh4b.trans (mul_le_of_le_one_right (by norm_num) hσ2)
  have a3 : |d * d| ≤ 0.000013 * σ := by
    refine (abm hd hd).trans ?_
    have : σ * σ ≤ σ := mul_le_of_le_one_right hσ0 hσ1
    norm_num at this ⊢
    linarith
  have q8 : |i8 - d * d * d| ≤ 0.28 * u := by
    refine (step_mul hu0 hh4 hd' a3 a2 a1 hi8).trans ?_
    have : 0 ≤ x * σ := by positivity
    norm_num at hxσ ⊢
    linarith
  have a4 : |d| ≤ 0.0036 := hd.trans (mul_le_of_le_one_right (by norm_num) hσ1)
  have a5 : |d * d * d| ≤ 0.0001 := by
    refine (abm (abm a4 a4) a4).trans ?_
    norm_num
  have a6 : |i8| ≤ 0.001 := by
    refine (abs_le_of_err q8 a5).trans ?_
    norm_num
    linarith
  have a7 : |f2' - f2| ≤ 11.2 * u := by
    refine k2.trans ?_
    have : e * (u * σ) ≤ 1 * (u * 1) := by gcongr
    norm_num at this ⊢
    linarith
  have a8 : |f2'| ≤ 1.001 := by
    refine (abs_le_of_err a7 hf2).trans ?_
    norm_num
    linarith
  have q9 : |i9 - d * d * d * f2| ≤ 0.3 * u := by
    refine (step_mul hu0 q8 a7 a5 a6 a8 hi9).trans ?_
    norm_num
    linarith
  have a9 : |d * d * d * f2 / 24| ≤ 0.001 := by
    rw [abs_div, abs_of_pos (by norm_num : (0 : ℝ) < 24), div_le_iff₀ (by norm_num)]
    refine (abm a5 hf2).trans ?_
    norm_num
  have q10 : |i10 - d * d * d * f2 / 24| ≤ 0.02 * u := by
    have e1 : |i9 / 24 - d * d * d * f2 / 24| ≤ 0.3 * u / 24 := by
      rw [← sub_div, abs_div, abs_of_pos (by norm_num : (0 : ℝ) < 24)]
      gcongr
    refine (abs_rnd hu0 e1 hi10 (abs_le_of_err e1 a9)).trans ?_
    norm_num at huu ⊢
    linarith
  refine (step_sub hu0 hi7 q10 hD hi11).trans ?_
  norm_num at huu ⊢
  linarith

/-- the rounded square of a step -/
theorem sqF {u σ x d d' h : ℝ} (hu0 : 0 ≤ u) (hσ0 : 0 ≤ σ) (hx0 : 0 ≤ x) (hx1 : x ≤ 0.08375 * σ) (hux : u * σ ≤ 0.06 * x)
    (hd : |d| ≤ 0.0036 * σ) (hd' : |d' - d| ≤ x) (hh : Rnd u (d' * d') h) :
    |h - d * d| ≤ 0.0915 * (x * σ) ∧ |h| ≤ 0.0078 * σ ^ 2 := by
  have hda : |d'| ≤ 0.0874 * σ := by
    refine (abs_le_of_err hd' hd).trans ?_
    norm_num at hx1 ⊢
    linarith
  have q4 : |h - d * d| ≤ 0.0915 * (x * σ) := by
    refine (step_mul hu0 hd' hd' hd hda hda hh).trans ?_
    have e1 : x * (0.0874 * σ) + 0.0036 * σ * x + u * (0.0874 * σ * (0.0874 * σ)) = 0.091 * (x * σ) + 0.0874 ^ 2 * (u * σ * σ) := by
      ring
    have e2 : u * σ * σ ≤ 0.06 * x * σ := by gcongr
    rw [e1]
    have : 0 ≤ x * σ := by positivity
    norm_num at e2 ⊢
    linarith
  refine ⟨q4, ?_⟩
  have q4a : |d * d| ≤ 0.000013 * σ ^ 2 := by
    refine (abm hd hd).trans ?_
    have : 0 ≤ σ ^ 2 := sq_nonneg σ
    have e1 : 0.0036 * σ * (0.0036 * σ) = 0.00001296 * σ ^ 2 := by ring
    rw [e1]
    norm_num
    linarith
  refine (abs_le_of_err q4 q4a).trans ?_
  have e2 : x * σ ≤ 0.08375 * σ * σ := by gcongr
  norm_num at e2 ⊢
  nlinarith [sq_nonneg σ]

set_option maxHeartbeats 800000 in
/-- the rounding error of `refine`: it never divides by zero, and its result is close to that of the exact step -/
theorem refine_rounding {u M M' e o E : ℝ} (hu0 : 0 ≤ u) (hu : u ≤ 1e-10) (he0 : 0 ≤ e) (he : 400 * u ≤ 1 - e) (he1 : e < 1)
    (hM0 : 0 ≤ M) (hM' : Rnd (5 * u) M M') (ho : Rnd u (1 - e) o) (hE0 : 0 ≤ E) (hE : E ≤ 3.2)
    (hf : |E - e * sin E - M| ≤ 0.00352 * sin (E / 2) * (1 - e * cos E)) (R : RefineRun u M' e o E) :
    (0 < R.f_1 ∧ 0 < R.g4 ∧ 0 < R.h7 ∧ 0 < R.i11) ∧ ∃ d, |d| ≤ 0.0036 * sin (E / 2) ∧
      |E + d - e * sin (E + d) - M| ≤ 1.82e-11 * |E - e * sin E - M| ∧
      |R.out - (E + d)| ≤ 41 * u * sin (E / 2) / (1 - e * cos E) := by
  obtain ⟨k1, k0⟩ := refine_inputs0 hu0 hu he0 he1 hM0 hM' ho hE0 hE hf R
  obtain ⟨j1, j2, j3⟩ := refine_inputs1 hu0 hu he0 he1 ho hE0 hE R k1
  clear k1
  obtain ⟨hf1p, D3, D4, D5, d3, d4, d5, hres⟩ := refine_coreF (M := M) he0 he1 hE0 hE hf
  obtain ⟨hσ0, hσ1, hσ2, hσE, hf1, hs, hs1⟩ := half_facts he0 he1 hE0 hE
  have hf3 : |e * cos E| ≤ 1 := by
    rw [abs_mul, abs_of_nonneg he0]
    exact mul_le_one₀ he1.le (abs_nonneg _) (abs_cos_le_one E)
  generalize hF0 : E - e * sin E - M = f0 at *
  generalize hF1 : 1 - e * cos E = f1 at *
  generalize hF2 : e * sin E = f2 at *
  generalize hF3 : e * cos E = f3 at *
  generalize hS : sin (E / 2) = σ at *
  have hV0 : 0 ≤ e * σ ^ 2 := by positivity
  have hσsq : σ ^ 2 ≤ 1 := by nlinarith
  have hes : 2 * (e * σ ^ 2) ≤ f1 := by linarith
  have huf : 400 * u ≤ f1 := by linarith
  have hf12 : f1 ≤ 2 := by
    have : e * σ ^ 2 ≤ e * 1 := by gcongr
    linarith
  have hσf : σ ^ 2 ≤ f1 := by nlinarith
  have bd : ∀ D : ℝ, |D - f1| ≤ 0.003 * f1 → |D| ≤ 2.01 := fun D h => by
    have := abs_le_of_err h (abs_of_pos hf1p).le
    norm_num at this ⊢
    linarith
  obtain ⟨x, hx⟩ : ∃ x, x = 33.5 * u * σ / f1 := ⟨_, rfl⟩
  have hx0 : 0 ≤ x := by rw [hx]; positivity
  have hxe : x * (e * σ) ≤ 16.75 * u := by
    rw [hx, div_mul_eq_mul_div, div_le_iff₀ hf1p]
    have : u * (2 * (e * σ ^ 2)) ≤ u * f1 := by gcongr
    norm_num
    linarith
  have hxσ : x * σ ≤ 33.5 * u := by
    rw [hx, div_mul_eq_mul_div, div_le_iff₀ hf1p]
    have : u * σ ^ 2 ≤ u * f1 := by gcongr
    norm_num
    linarith
  have hx1 : x ≤ 0.08375 * σ := by
    rw [hx, div_le_iff₀ hf1p]
    have : σ * (400 * u) ≤ σ * f1 := by gcongr
    norm_num
    linarith
  have hux : u * σ ≤ 0.06 * x := by
    rw [hx, ← mul_div_assoc, le_div_iff₀ hf1p]
    have : u * σ * f1 ≤ u * σ * 2 := by gcongr
    have : 0 ≤ u * σ := by positivity
    norm_num
    linarith
  obtain ⟨p1, g⟩ := stage3F hu0 hu he0 hσ0 hf1p hf12 huf hes hf hs k0 j1 j2 R.hg1 R.hg2 R.hg3 R.hg4 (bd _ D3)
  obtain ⟨p2, s3⟩ := div_stepF hu0 hu hσ0 hf1p hf12 huf hf D3 k0 g (by norm_num) R.hd_3
  rw [← hx] at s3
  obtain ⟨-, -, -, g'⟩ := stage4F hu0 hu he0 hσ0 hσ1 hf1p hf12 hes hx0 hxe hxσ hx1 hux hs hf3 j1 j2 j3 d3 s3 R.hh1 R.hh2 R.hh3
    R.hh4 R.hh5 R.hh6 R.hh7 (bd _ D4)
  obtain ⟨p3, s4⟩ := div_stepF hu0 hu hσ0 hf1p hf12 huf hf D4 k0 g' (by norm_num) R.hd_4
  rw [← hx] at s4
  generalize hd4 : -f0 / (f1 + 0.5 * (-f0 / (f1 - 0.5 * f0 * f2 / f1)) * f2 +
    -f0 / (f1 - 0.5 * f0 * f2 / f1) * (-f0 / (f1 - 0.5 * f0 * f2 / f1)) * f3 / 6) = D at *
  have hDσ : |D| ≤ 0.0036 := d4.trans (mul_le_of_le_one_right (by norm_num) hσ1)
  have hVb : |f1 + 0.5 * D * f2 + D * D * f3 / 6| ≤ 2.01 := by
    have h1 : |0.5 * D * f2| ≤ 0.5 * 0.0036 * 1 :=
      abm (abm (abs_of_pos (by norm_num : (0 : ℝ) < 0.5)).le hDσ) hs1
    have h2 : |D * D * f3 / 6| ≤ 0.0036 * 0.0036 * 1 / 6 := by
      rw [abs_div, abs_of_pos (by norm_num : (0 : ℝ) < 6)]
      gcongr
      exact abm (abm hDσ hDσ) hf3
    refine (abs_add_three _ _ _).trans ?_
    rw [abs_of_pos hf1p]
    norm_num at h1 h2 ⊢
    linarith
  obtain ⟨-, -, hda, g5⟩ := stage4F hu0 hu he0 hσ0 hσ1 hf1p hf12 hes hx0 hxe hxσ hx1 hux hs hf3 j1 j2 j3 d4 s4 R.hi1 R.hi2 R.hi3
    R.hi4 R.hi5 R.hi6 R.hi7 hVb
  obtain ⟨q1, q2⟩ := sqF hu0 hσ0 hx0 hx1 hux d4 s4 R.hd_42
  have g6 := stage5F hu0 hu he1 hσ0 hσ1 hx0 hxσ hs1 j2 d4 s4 hda q1 q2 R.hi8 R.hi9 R.hi10 R.hi11 g5 (bd _ D5)
  obtain ⟨p4, s5⟩ := div_stepF hu0 hu hσ0 hf1p hf12 huf hf D5 k0 g6 (by norm_num) R.hdE
  refine ⟨⟨p1, p2, p3, p4⟩, _, d5, hres, ?_⟩
  generalize -f0 / (f1 + 0.5 * D * f2 + D * D * f3 / 6 - D * D * D * f2 / 24) = dd at *
  have h1 : |E + R.dE - (E + dd)| ≤ x := by
    rw [add_sub_add_left_eq_sub, hx]
    exact s5
  have h2 : |E + dd| ≤ 3.4936 * σ := by
    refine (abs_add_le _ _).trans ?_
    rw [abs_of_nonneg hE0]
    norm_num at d5 hσE ⊢
    linarith
  refine (abs_rnd hu0 h1 R.hout (abs_le_of_err h1 h2)).trans ?_
  have h3 : 41 * u * σ / f1 = x + 7.5 * u * σ / f1 := by rw [hx]; ring
  rw [h3]
  refine add_le_add_right ?_ _
  rw [le_div_iff₀ hf1p]
  have h4 : 3.4936 * σ + x ≤ 3.6 * σ := by norm_num at hx1 ⊢; linarith
  calc u * (3.4936 * σ + x) * f1 ≤ u * (3.6 * σ) * 2 := by gcongr
    _ = 7.2 * (u * σ) := by ring
    _ ≤ 7.5 * (u * σ) := by
      have : 0 ≤ u * σ := by positivity
      gcongr
      norm_num
    _ = _ := by ring

end Jaxoplanet.KeplerFloat
