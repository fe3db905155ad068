import Verif.Proofs.KeplerFloatRefine

/-! The rounding errors of the refinement step. -/

namespace Jaxoplanet.KeplerFloat

open Real Kepler

/-- one division of the refinement step -/
theorem div_stepF {u σ f1 f0 D f0' D' A d' : ℝ} (hu0 : 0 ≤ u) (hu : u ≤ 1e-10) (hσ : 0 ≤ σ) (hf1 : 0 < f1) (hf12 : f1 ≤ 2)
    (huf : 400 * u ≤ f1) (hf0 : |f0| ≤ 0.00352 * σ * f1) (hD : |D - f1| ≤ 0.003 * f1) (hf0' : |f0' - f0| ≤ 30.1 * u * σ)
    (hD' : |D' - D| ≤ A * u) (hA : A ≤ 36) (hd' : Rnd u (-f0' / D') d') :
    0 < D' ∧ |d' - -f0 / D| ≤ 33.5 * u * σ / f1 := by
  obtain ⟨D1, D2⟩ := abs_le.1 hD
  obtain ⟨D3, D4⟩ := abs_le.1 hD'
  have hAu : A * u ≤ 0.09 * f1 := by
    have : A * u ≤ 36 * u := by gcongr
    norm_num
    linarith
  norm_num at D1 D2 hAu
  have hDp : 0.997 * f1 ≤ D := by norm_num; linarith
  have hDp' : 0.907 * f1 ≤ D' := by norm_num; linarith
  have hD0 : 0 < D := lt_of_lt_of_le (by positivity) hDp
  have hD0' : 0 < D' := lt_of_lt_of_le (by positivity) hDp'
  refine ⟨hD0', ?_⟩
  have e1 : -f0' / D' - -f0 / D = (-(f0' - f0) + f0 / D * (D' - D)) / D' := by
    field_simp
    ring
  have e2 : |f0 / D| ≤ 0.0036 * σ := by
    rw [abs_div, abs_of_pos hD0, div_le_iff₀ hD0]
    refine hf0.trans ?_
    have : 0.0036 * σ * (0.997 * f1) ≤ 0.0036 * σ * D := by gcongr
    have : 0 ≤ σ * f1 := by positivity
    norm_num at *
    linarith
  have e3 : |-f0' / D' - -f0 / D| ≤ 33.4 * u * σ / f1 := by
    rw [e1, abs_div, abs_of_pos hD0', div_le_div_iff₀ hD0' hf1]
    have h1 : |-(f0' - f0) + f0 / D * (D' - D)| ≤ 30.1 * u * σ + 0.0036 * σ * (36 * u) := by
      refine (abs_add_le _ _).trans (add_le_add (by rw [abs_neg]; exact hf0') (abm e2 (hD'.trans (by gcongr))))
    have h2 : 33.4 * u * σ * (0.907 * f1) ≤ 33.4 * u * σ * D' := by gcongr
    have h3 : |-(f0' - f0) + f0 / D * (D' - D)| * f1 ≤ (30.1 * u * σ + 0.0036 * σ * (36 * u)) * f1 := by gcongr
    have h4 : 0 ≤ u * σ * f1 := by positivity
    norm_num at *
    linarith
  have e4 : |-f0 / D| ≤ 0.0036 * σ := by rw [neg_div, abs_neg]; exact e2
  have e5 := abs_le_of_err e3 e4
  refine (abs_rnd hu0 e3 hd' e5).trans ?_
  have h5 : u * (0.0036 * σ + 33.4 * u * σ / f1) ≤ 0.1 * u * σ / f1 := by
    rw [le_div_iff₀ hf1]
    have : u * (0.0036 * σ + 33.4 * u * σ / f1) * f1 = (0.0036 * f1 + 33.4 * u) * (u * σ) := by
      field_simp
    rw [this]
    have h6 : 0.0036 * f1 + 33.4 * u ≤ 0.1 := by norm_num at *; linarith
    calc (0.0036 * f1 + 33.4 * u) * (u * σ) ≤ 0.1 * (u * σ) := by gcongr
      _ = _ := by ring
  have h7 : 33.5 * u * σ / f1 = 33.4 * u * σ / f1 + 0.1 * u * σ / f1 := by ring
  rw [h7]
  linarith

set_option maxHeartbeats 400000 in
/-- the error of `f_0` -/
theorem refine_inputs0 {u M M' e o E : ℝ} (hu0 : 0 ≤ u) (hu : u ≤ 1e-10) (he0 : 0 ≤ e) (he : e < 1) (hM0 : 0 ≤ M)
    (hM' : Rnd (5 * u) M M') (ho : Rnd u (1 - e) o) (hE0 : 0 ≤ E) (hE : E ≤ 3.2)
    (hf : |E - e * sin E - M| ≤ 0.00352 * sin (E / 2) * (1 - e * cos E)) (R : RefineRun u M' e o E) :
    |R.sE - (E - sin E)| ≤ 1.06 * (u * E) ∧ |R.f_0 - (E - e * sin E - M)| ≤ 30.1 * u * sin (E / 2) := by
  obtain ⟨hσ0, hσ1, hσ2, hσE, hf1, hs, hs1⟩ := half_facts he0 he hE0 hE
  have hus : 1000000 * u ≤ 0.0001 := by norm_num at hu ⊢; linarith
  norm_num at hus
  have hsc : |sin E| + |E - sin E| ≤ 1.05 * E := by
    have h1 : sin E ≤ E := sin_le hE0
    rw [abs_of_nonneg (by linarith : 0 ≤ E - sin E)]
    rcases le_total 0 (sin E) with h | h
    · rw [abs_of_nonneg h]
      norm_num
      linarith
    · rw [abs_of_nonpos h]
      have h3 : π ≤ E ∨ E ≤ 0 := by
        by_contra hc
        push Not at hc
        have := sin_pos_of_pos_of_lt_pi hc.2 hc.1
        linarith
      rcases h3 with h3 | h3
      · have h4 : -sin E ≤ E - π := by
          have := sin_le (x := E - π) (by linarith)
          rw [sin_sub_pi] at this
          exact this
        have := pi_gt_d2
        norm_num at *
        linarith
      · have : E = 0 := le_antisymm h3 hE0
        subst this
        simp
  have hsa : |sin E| ≤ E := abs_sin_le_abs.trans (abs_of_nonneg hE0).le
  have huE : 0 ≤ u * E := by positivity
  have hsn : |R.sn - sin E| ≤ u * |sin E| := R.hsn
  -- sE
  have k1 : |R.sE - (E - sin E)| ≤ 1.06 * (u * E) := by
    have h1 : |E - R.sn - (E - sin E)| ≤ u * |sin E| := by
      rw [show E - R.sn - (E - sin E) = -(R.sn - sin E) by ring, abs_neg]; exact hsn
    refine (abs_rnd hu0 h1 R.hsE (abs_le_of_err h1 le_rfl)).trans ?_
    have h2 : u * (|sin E| + |E - sin E|) ≤ u * (1.05 * E) := by gcongr
    have h3 : u * (u * |sin E|) ≤ 0.001 * (u * E) := by
      rw [← mul_assoc, show (0.001 : ℝ) * (u * E) = (0.001 * u) * E by ring]
      refine mul_le_mul ?_ hsa (abs_nonneg _) (by positivity)
      exact mul_le_mul_of_nonneg_right (by norm_num; linarith) hu0
    norm_num at *
    linarith
  have k1' : |R.sE| ≤ 1.06 * E := by
    refine (abs_le_of_err k1 (X := 1.05 * E) (by have := abs_nonneg (sin E); linarith)).trans ?_
    have : u * E ≤ 0.001 * E := by gcongr; norm_num; linarith
    norm_num at *
    linarith
  -- f_0
  have hea : |e| ≤ e := (abs_of_nonneg he0).le
  have k2 : |R.a1 - e * (E - sin E)| ≤ 2.13 * (e * (u * E)) := by
    have h1 : |e * R.sE - e * (E - sin E)| ≤ e * (1.06 * (u * E)) := by
      rw [← mul_sub, abs_mul, abs_of_nonneg he0]
      exact mul_le_mul_of_nonneg_left k1 he0
    refine (abs_rnd hu0 h1 R.ha1 (abm hea k1')).trans ?_
    have : 0 ≤ e * (u * E) := by positivity
    norm_num
    linarith
  have k3 : |R.a2 - E * (1 - e)| ≤ 2.01 * ((1 - e) * (u * E)) := by
    have h0 : |o - (1 - e)| ≤ u * (1 - e) := by
      unfold Rnd at ho
      rwa [abs_of_pos (by linarith : 0 < 1 - e)] at ho
    have h1 : |E * o - E * (1 - e)| ≤ E * (u * (1 - e)) := by
      rw [← mul_sub, abs_mul, abs_of_nonneg hE0]
      exact mul_le_mul_of_nonneg_left h0 hE0
    have h2 : |E * (1 - e)| ≤ E * (1 - e) := (abs_of_nonneg (mul_nonneg hE0 (by linarith))).le
    refine (abs_rnd hu0 h1 R.ha2 (abs_le_of_err h1 h2)).trans ?_
    have h3 : 0 ≤ (1 - e) * (u * E) := mul_nonneg (by linarith) huE
    have h4 : u * ((1 - e) * (u * E)) ≤ 0.01 * ((1 - e) * (u * E)) := by
      refine mul_le_mul_of_nonneg_right (by norm_num; linarith) h3
    norm_num at *
    linarith
  have k4 : |R.a1 + R.a2 - (E - e * sin E)| ≤ 2.13 * (u * E) := by
    have h1 := abs_add_err k2 k3
    rw [show e * (E - sin E) + E * (1 - e) = E - e * sin E by ring] at h1
    have : 0 ≤ (1 - e) * (u * E) := mul_nonneg (by linarith) huE
    norm_num at *
    linarith
  have hV : |E - e * sin E| ≤ 1.05 * E := by
    rw [show E - e * sin E = (1 - e) * E + e * (E - sin E) by ring]
    refine (abs_add_le _ _).trans ?_
    rw [abs_mul, abs_mul, abs_of_nonneg hE0, abs_of_nonneg he0, abs_of_pos (by linarith : 0 < 1 - e)]
    have h1 : |E - sin E| ≤ 1.05 * E := by have := abs_nonneg (sin E); linarith
    have h2 : e * |E - sin E| ≤ e * (1.05 * E) := by gcongr
    have h3 : 0 ≤ (1 - e) * E := mul_nonneg (by linarith) hE0
    norm_num at *
    linarith
  have k5 : |R.a3 - (E - e * sin E)| ≤ 3.2 * (u * E) := by
    refine (abs_rnd hu0 k4 R.ha3 (abs_le_of_err k4 hV)).trans ?_
    have h2 : u * (1.05 * E + 2.13 * (u * E)) ≤ 1.06 * (u * E) := by
      have h0 : u * E ≤ 0.0001 * E := mul_le_mul_of_nonneg_right (by norm_num; linarith) hE0
      have : 2.13 * (u * E) ≤ 0.01 * E := by norm_num at h0 ⊢; linarith
      calc u * (1.05 * E + 2.13 * (u * E)) ≤ u * (1.05 * E + 0.01 * E) := by gcongr
        _ = _ := by ring
    norm_num at *
    linarith
  have hf1p : 0 < 1 - e * cos E := one_sub_ecos_pos he0 he E
  have hf12 : 1 - e * cos E ≤ 2 := by
    rw [hf1]
    have : sin (E / 2) ^ 2 ≤ 1 := by nlinarith
    nlinarith
  have hf' : |E - e * sin E - M| ≤ 0.004 * E := by
    refine hf.trans ?_
    have h1 : 0.00352 * sin (E / 2) * (1 - e * cos E) ≤ 0.00352 * sin (E / 2) * 2 := by gcongr
    norm_num at *
    linarith
  have hMa : |M' - M| ≤ 5.3 * (u * E) := by
    unfold Rnd at hM'
    rw [abs_of_nonneg hM0] at hM'
    have h1 : M ≤ 1.06 * E := by
      have h2 := (abs_le.1 hf').1
      have h3 := (abs_le.1 hV).2
      norm_num at *
      linarith
    have h2 : 5 * u * M ≤ 5 * u * (1.06 * E) := by gcongr
    norm_num at *
    linarith
  have k6 : |R.f_0 - (E - e * sin E - M)| ≤ 8.6 * (u * E) := by
    have h1 := abs_sub_err k5 hMa
    refine (abs_rnd hu0 h1 R.hf_0 (abs_le_of_err h1 hf')).trans ?_
    have h2 : u * (0.004 * E + (3.2 * (u * E) + 5.3 * (u * E))) ≤ 0.01 * (u * E) := by
      have h0 : u * E ≤ 0.0001 * E := mul_le_mul_of_nonneg_right (by norm_num; linarith) hE0
      have : 3.2 * (u * E) + 5.3 * (u * E) ≤ 0.006 * E := by norm_num at h0 ⊢; linarith
      calc u * (0.004 * E + (3.2 * (u * E) + 5.3 * (u * E))) ≤ u * (0.004 * E + 0.006 * E) := by gcongr
        _ = _ := by ring
    norm_num at h2 ⊢
    linarith
  have huE2 : u * E ≤ 3.49 * (u * sin (E / 2)) := by
    calc u * E ≤ u * (3.49 * sin (E / 2)) := by gcongr
      _ = _ := by ring
  refine ⟨k1, k6.trans ?_⟩
  clear k1 k2 k3 k4 k5 k6 hV hsc hsn hea hMa hf hf' hsa k1' hf1 hs hs1 hf1p hf12
  norm_num at *
  linarith

/-- the errors of `f_1, f_2, f_3` -/
theorem refine_inputs1 {u M' e o E : ℝ} (hu0 : 0 ≤ u) (hu : u ≤ 1e-10) (he0 : 0 ≤ e) (he : e < 1)
    (ho : Rnd u (1 - e) o) (hE0 : 0 ≤ E) (hE : E ≤ 3.2) (R : RefineRun u M' e o E) (k1 : |R.sE - (E - sin E)| ≤ 1.06 * (u * E)) :
    |R.f_1 - (1 - e * cos E)| ≤ 8.4 * u ∧
      |R.f_2 - e * sin E| ≤ 11.2 * (e * (u * sin (E / 2))) ∧ |R.f_3 - e * cos E| ≤ 9.6 * u := by
  obtain ⟨hσ0, hσ1, hσ2, hσE, hf1, hs, hs1⟩ := half_facts he0 he hE0 hE
  have hus : 1000000 * u ≤ 0.0001 := by norm_num at hu ⊢; linarith
  norm_num at hus
  have hsa : |sin E| ≤ E := abs_sin_le_abs.trans (abs_of_nonneg hE0).le
  have huE : 0 ≤ u * E := by positivity
  have huE2 : u * E ≤ 3.49 * (u * sin (E / 2)) := by
    calc u * E ≤ u * (3.49 * sin (E / 2)) := by gcongr
      _ = _ := by ring
  have hf1p : 0 < 1 - e * cos E := one_sub_ecos_pos he0 he E
  have hf12 : 1 - e * cos E ≤ 2 := by
    rw [hf1]
    have : sin (E / 2) ^ 2 ≤ 1 := by nlinarith
    nlinarith
  have k7 : |R.cs - cos E| ≤ u := by
    have h := R.hcs
    unfold Rnd at h
    exact h.trans (mul_le_of_le_one_right hu0 (abs_cos_le_one E))
  have huu : u * u ≤ 0.001 * u := mul_le_mul_of_nonneg_right (by norm_num; linarith) hu0
  have hc2 : |1 - cos E| ≤ 2 := by
    rw [abs_le]
    constructor <;> linarith [cos_le_one E, neg_one_le_cos E]
  have k8 : |R.cE - (1 - cos E)| ≤ 3.01 * u := by
    have h1 : |1 - R.cs - (1 - cos E)| ≤ u := by
      rw [show 1 - R.cs - (1 - cos E) = -(R.cs - cos E) by ring, abs_neg]; exact k7
    refine (abs_rnd hu0 h1 R.hcE (abs_le_of_err h1 hc2)).trans ?_
    norm_num at *
    linarith
  have k9 : |R.b1 - e * (1 - cos E)| ≤ 5.02 * u := by
    have h1 : |e * R.cE - e * (1 - cos E)| ≤ 3.01 * u := by
      rw [← mul_sub, abs_mul, abs_of_nonneg he0]
      calc e * |R.cE - (1 - cos E)| ≤ 1 * (3.01 * u) := by gcongr
        _ = _ := by ring
    have h2 : |e * (1 - cos E)| ≤ 2 := by
      rw [abs_mul, abs_of_nonneg he0]
      calc e * |1 - cos E| ≤ 1 * 2 := by gcongr
        _ = _ := by ring
    refine (abs_rnd hu0 h1 R.hb1 (abs_le_of_err h1 h2)).trans ?_
    norm_num at *
    linarith
  have k10 : |R.f_1 - (1 - e * cos E)| ≤ 8.4 * u := by
    have h0 : |o - (1 - e)| ≤ u := by
      unfold Rnd at ho
      rw [abs_of_pos (by linarith : 0 < 1 - e)] at ho
      refine ho.trans (mul_le_of_le_one_right hu0 (by linarith))
    have h1 := abs_add_err k9 h0
    rw [show e * (1 - cos E) + (1 - e) = 1 - e * cos E by ring] at h1
    have h2 : |1 - e * cos E| ≤ 2 := by rw [abs_of_pos hf1p]; exact hf12
    refine (abs_rnd hu0 h1 R.hf_1 (abs_le_of_err h1 h2)).trans ?_
    norm_num at *
    linarith
  have k11 : |R.e1 - sin E| ≤ 2.1 * (u * E) := by
    have h1 : |E - R.sE - sin E| ≤ 1.06 * (u * E) := by
      rw [show E - R.sE - sin E = -(R.sE - (E - sin E)) by ring, abs_neg]; exact k1
    refine (abs_rnd hu0 h1 R.he1 (abs_le_of_err h1 hsa)).trans ?_
    have h3 : u * (u * E) ≤ 0.001 * (u * E) := mul_le_mul_of_nonneg_right (by norm_num; linarith) huE
    norm_num at *
    linarith
  have k12 : |R.f_2 - e * sin E| ≤ 3.2 * (e * (u * E)) := by
    have h1 : |e * R.e1 - e * sin E| ≤ e * (2.1 * (u * E)) := by
      rw [← mul_sub, abs_mul, abs_of_nonneg he0]
      exact mul_le_mul_of_nonneg_left k11 he0
    have h2 : |e * sin E| ≤ e * E := by
      rw [abs_mul, abs_of_nonneg he0]
      exact mul_le_mul_of_nonneg_left hsa he0
    refine (abs_rnd hu0 h1 R.hf_2 (abs_le_of_err h1 h2)).trans ?_
    have h3 : u * (e * (u * E)) ≤ 0.001 * (e * (u * E)) :=
      mul_le_mul_of_nonneg_right (by norm_num; linarith) (by positivity)
    have h4 : 0 ≤ e * (u * E) := by positivity
    have h5 : e * (2.1 * (u * E)) + u * (e * E + e * (2.1 * (u * E))) = 3.1 * (e * (u * E)) + 2.1 * (u * (e * (u * E))) := by
      ring
    rw [h5]
    norm_num at h3 ⊢
    linarith
  have k13 : |R.f_3 - e * cos E| ≤ 9.6 * u := by
    have h1 : |1 - R.f_1 - e * cos E| ≤ 8.4 * u := by
      rw [show 1 - R.f_1 - e * cos E = -(R.f_1 - (1 - e * cos E)) by ring, abs_neg]; exact k10
    have h2 : |e * cos E| ≤ 1 := by
      rw [abs_mul, abs_of_nonneg he0]
      calc e * |cos E| ≤ 1 * 1 := by gcongr; exact abs_cos_le_one E
        _ = _ := by ring
    refine (abs_rnd hu0 h1 R.hf_3 (abs_le_of_err h1 h2)).trans ?_
    norm_num at *
    linarith
  refine ⟨k10, ?_, k13⟩
  · refine k12.trans ?_
    have h1 : e * (u * E) ≤ e * (3.49 * (u * sin (E / 2))) := by gcongr
    have h2 : 0 ≤ e * (u * sin (E / 2)) := by positivity
    have h3 : e * (3.49 * (u * sin (E / 2))) = 3.49 * (e * (u * sin (E / 2))) := by ring
    rw [h3] at h1
    norm_num at h1 ⊢
    linarith

end Jaxoplanet.KeplerFloat
