import Verif.Proofs.KeplerFloatStages
import Verif.Proofs.KeplerFloatConv
import Verif.Props.KeplerAccuracy

/-! From the rounding errors of the eccentric anomaly to those of the true anomaly. -/

namespace Jaxoplanet.KeplerFloat

open Real Kepler Spec

/-- the exact solution of Kepler's equation is close to the exact step -/
theorem root_near {M e E d Ee : ℝ} (he0 : 0 ≤ e) (he : e < 1) (hE0 : 0 ≤ E) (hE : E ≤ 3.2)
    (hf : |E - e * sin E - M| ≤ 0.00352 * sin (E / 2) * (1 - e * cos E)) (hd : |d| ≤ 0.0036 * sin (E / 2))
    (hres : |E + d - e * sin (E + d) - M| ≤ 1.82e-11 * |E - e * sin E - M|) (hK : KeplerEq M e Ee) :
    |E + d - Ee| ≤ 1.84e-11 * |E - e * sin E - M| / (1 - e * cos E) ∧ |Ee - E| ≤ 0.00361 * sin (E / 2) := by
  have hf1 : 0 < 1 - e * cos E := one_sub_ecos_pos he0 he E
  have hσ0 : 0 ≤ sin (E / 2) := (half_facts he0 he hE0 hE).1
  unfold KeplerEq at hK
  obtain ⟨Δ, hΔ⟩ : ∃ Δ, Δ = 1.84e-11 * |E - e * sin E - M| / (1 - e * cos E) := ⟨_, rfl⟩
  have hΔ0 : 0 ≤ Δ := by rw [hΔ]; positivity
  have hΔ1 : Δ ≤ 0.00001 * sin (E / 2) := by
    rw [hΔ, div_le_iff₀ hf1]
    have : 0 ≤ sin (E / 2) * (1 - e * cos E) := by positivity
    norm_num at hf ⊢
    linarith
  have hslope : ∀ y, E + d - Δ ≤ y → y ≤ E + d + Δ → 0.99 * (1 - e * cos E) ≤ 1 - e * cos y := by
    intro y hy1 hy2
    have h1 : |y - E| ≤ 0.00361 * sin (E / 2) + 0 := by
      obtain ⟨l, r⟩ := abs_le.1 hd
      rw [abs_le]
      norm_num at l r hΔ1 ⊢
      constructor <;> linarith
    have h2 := slope_near he0 he hE0 hE (by norm_num) le_rfl h1
    rw [show E + (y - E) = y by ring] at h2
    have h3 := (abs_le.1 h2).1
    norm_num at h3 ⊢
    linarith
  have hmono : ∀ x y : ℝ, x < y → x - e * sin x < y - e * sin y := by
    intro x y hxy
    have := kepler_slope (e := e) (C := 1 - e) (a := x) (b := y) (fun z _ _ => by nlinarith [cos_le_one z]) hxy.le
    have h2 : 0 < (1 - e) * (y - x) := mul_pos (by linarith) (by linarith)
    linarith
  have hresb := abs_le.1 hres
  have hgap : 1.82e-11 * |E - e * sin E - M| ≤ 0.99 * (1 - e * cos E) * Δ := by
    have h1 : 0.99 * (1 - e * cos E) * Δ = 0.99 * 1.84e-11 * |E - e * sin E - M| := by
      rw [hΔ]
      field_simp
    rw [h1]
    gcongr
    norm_num
  have hup : Ee ≤ E + d + Δ := by
    by_contra hc
    push Not at hc
    have h2 := kepler_slope (e := e) (C := 0.99 * (1 - e * cos E)) (a := E + d) (b := E + d + Δ)
      (fun y h1 h2 => hslope y (by linarith) h2) (by linarith)
    have h3 := hmono _ _ hc
    rw [hK] at h3
    rw [show E + d + Δ - (E + d) = Δ by ring] at h2
    linarith [hresb.1]
  have hlo : E + d - Δ ≤ Ee := by
    by_contra hc
    push Not at hc
    have h2 := kepler_slope (e := e) (C := 0.99 * (1 - e * cos E)) (a := E + d - Δ) (b := E + d)
      (fun y h1 h2 => hslope y h1 (by linarith)) (by linarith)
    have h3 := hmono _ _ hc
    rw [hK] at h3
    rw [show E + d - (E + d - Δ) = Δ by ring] at h2
    linarith [hresb.2]
  rw [← hΔ]
  obtain ⟨l, r⟩ := abs_le.1 hd
  constructor
  · rw [abs_le]
    constructor <;> linarith
  · rw [abs_le]
    norm_num at l r hΔ1 ⊢
    constructor <;> linarith

/-- the eccentric anomaly of a run on the folded range -/
theorem solve_rounding {u pi M M' e o Ee : ℝ} (hu0 : 0 ≤ u) (hu : u ≤ 1e-10) (he0 : 0 ≤ e) (he : 400 * u ≤ 1 - e) (he1 : e < 1)
    (hM0 : 0 ≤ M) (hM : M ≤ π) (hpi : Rnd u π pi) (hM' : Rnd (5 * u) M M') (ho : Rnd u (1 - e) o)
    (S : StarterRun u pi M' e o) (R : RefineRun u M' e o S.out) (hK : KeplerEq M e Ee) :
    ((0 < S.c3 ∧ 0 < S.m3 ∧ 0 < S.s3 ∧ 0 < S.p4 ∧ 0 < S.d) ∧ (0 < R.f_1 ∧ 0 < R.g4 ∧ 0 < R.h7 ∧ 0 < R.i11)) ∧
    ∃ E, 0 ≤ E ∧ E ≤ 3.2 ∧ |Ee - E| ≤ 0.00361 * sin (E / 2) ∧ |R.out - Ee| ≤ (1.3e-13 * (e * sin (E / 2) ^ 3) + 41.1 * (u * sin (E / 2))) / (1 - e * cos E) := by
  obtain ⟨hpos, hS⟩ := start_accurate hu0 hu he0 he1 hM0 hM hpi hM' ho S
  obtain ⟨hE0, hE, hf, hf'⟩ := residualF he0 he1 hM0 hM (by positivity) (by norm_num at hu ⊢; linarith) hS
  generalize hEE : S.out = E at *
  obtain ⟨hpos', d, hd, hres, hout⟩ := refine_rounding hu0 hu he0 he he1 hM0 hM' ho hE0 hE hf' R
  obtain ⟨h1, h2⟩ := root_near he0 he1 hE0 hE hf' hd hres hK
  refine ⟨⟨hpos, hpos'⟩, E, hE0, hE, h2, ?_⟩
  have hf1 : 0 < 1 - e * cos E := one_sub_ecos_pos he0 he1 E
  obtain ⟨hσ0, hσ1, -, -, hf1', -, -⟩ := half_facts he0 he1 hE0 hE
  have hf12 : 1 - e * cos E ≤ 2 := by nlinarith [neg_one_le_cos E]
  have h3 := abs_sub_abs_le_abs_sub (R.out - Ee) (E + d - Ee)
  rw [show R.out - Ee - (E + d - Ee) = R.out - (E + d) by ring] at h3
  have h4 : |R.out - Ee| ≤ 41 * u * sin (E / 2) / (1 - e * cos E) + 1.84e-11 * |E - e * sin E - M| / (1 - e * cos E) := by linarith
  refine h4.trans ?_
  rw [← add_div]
  refine div_le_div_of_nonneg_right ?_ hf1.le
  generalize sin (E / 2) = σ at *
  generalize 1 - e * cos E = f1 at *
  have h5 : u * σ * f1 ≤ u * σ * 2 := by gcongr
  have h6 : 0 ≤ u * σ := by positivity
  have h7 : 0 ≤ e * σ ^ 3 := by positivity
  norm_num at hf ⊢
  nlinarith

/-- `(1 - e²) e² σ⁶ ≤ f1⁴` -/
theorem ecc_key {e σ f1 : ℝ} (he0 : 0 ≤ e) (he : e < 1) (hσ0 : 0 ≤ σ) (hσ1 : σ ≤ 1) (hf1' : f1 = (1 - e) + 2 * (e * σ ^ 2)) :
    √(1 - e ^ 2) * (e * σ ^ 3) ≤ f1 ^ 2 ∧ √(1 - e ^ 2) * σ ≤ f1 := by
  have hw : 0 ≤ e * σ ^ 2 := by positivity
  have h1e : 0 < 1 - e := by linarith
  have hf1 : 0 < f1 := by linarith
  have hee : 0 ≤ 1 - e ^ 2 := by nlinarith
  have hσ2 : σ ^ 2 ≤ 1 := pow_le_one₀ hσ0 hσ1
  have h2 : √(1 - e ^ 2) * σ ≤ f1 := by
    refine abs_le_of_sq_le_sq' ?_ hf1.le |>.2
    rw [mul_pow, sq_sqrt hee, hf1']
    have h3 : 0 ≤ (1 - e) ^ 2 * (1 - σ ^ 2) := mul_nonneg (sq_nonneg _) (by linarith)
    have h4 : 0 ≤ (1 - e) * (e * σ ^ 2) := by positivity
    nlinarith [sq_nonneg (e * σ ^ 2)]
  refine ⟨?_, h2⟩
  calc √(1 - e ^ 2) * (e * σ ^ 3) = (√(1 - e ^ 2) * σ) * (e * σ ^ 2) := by ring
    _ ≤ f1 * f1 := by
      gcongr
      linarith
    _ = _ := by ring

/-- the true anomaly of two eccentric anomalies -/
theorem gap_rounding {u e E Ee E' F F' : ℝ} (hu0 : 0 ≤ u) (hu : u ≤ 1e-10) (he0 : 0 ≤ e) (he : 400 * u ≤ 1 - e) (he1 : e < 1) (hE0 : 0 ≤ E)
    (hE : E ≤ 3.2) (h1 : |Ee - E| ≤ 0.00361 * sin (E / 2))
    (h2 : |E' - Ee| ≤ (1.3e-13 * (e * sin (E / 2) ^ 3) + 41.1 * (u * sin (E / 2))) / (1 - e * cos E) + 27 * u)
    (hF : cos F = cos Ee) (hF' : cos F' = cos E') (hFF : |F' - F| = |E' - Ee|) :
    gap (toTrueAnomaly e F') (toTrueAnomaly e F) ≤ 1.5e-13 + 76 * u / (1 - e) := by
  have hf1 : 0 < 1 - e * cos E := one_sub_ecos_pos he0 he1 E
  obtain ⟨hσ0, hσ1, -, -, hf1', -, -⟩ := half_facts he0 he1 hE0 hE
  obtain ⟨k1, k2⟩ := ecc_key he0 he1 hσ0 hσ1 hf1'
  have hee : 0 ≤ 1 - e ^ 2 := by nlinarith
  have hq1 : √(1 - e ^ 2) ≤ 1 := by rw [sqrt_le_one]; nlinarith [sq_nonneg e]
  have hV0 : 0 ≤ e * sin (E / 2) ^ 2 := by positivity
  have hc : 0 ≤ 27 * u := by positivity
  have e1 : |E' - Ee| ≤ 0.103 * sin (E / 2) + 27 * u := by
    refine h2.trans (add_le_add_left ?_ _)
    rw [div_le_iff₀ hf1]
    have a1 : sin (E / 2) * (2 * (e * sin (E / 2) ^ 2)) ≤ sin (E / 2) * (1 - e * cos E) := by
      gcongr
      linarith
    have a2 : sin (E / 2) * (400 * u) ≤ sin (E / 2) * (1 - e * cos E) := by
      gcongr
      linarith
    have a3 : 0 ≤ sin (E / 2) * (1 - e * cos E) := by positivity
    norm_num
    linarith
  have r1 : 0.99 * (1 - e * cos E) ≤ 1 - e * cos Ee := by
    have a := slope_near (ρ := 0.00361) (c := 0) he0 he1 hE0 hE (by norm_num) le_rfl (by rw [add_zero]; exact h1)
    rw [show E + (Ee - E) = Ee by ring] at a
    have a := (abs_le.1 a).1
    norm_num at a ⊢
    linarith
  have r2 : 0.8182 * (1 - e * cos E) ≤ 1 - e * cos E' := by
    have a0 : |E' - E| ≤ 0.10661 * sin (E / 2) + 27 * u := by
      have := abs_add_le (E' - Ee) (Ee - E)
      rw [sub_add_sub_cancel] at this
      norm_num at this h1 e1 ⊢
      linarith
    have a := slope_near he0 he1 hE0 hE (by norm_num) hc a0
    rw [show E + (E' - E) = E' by ring] at a
    have a := (abs_le.1 a).1
    have hcc : (27 * u) ^ 2 ≤ 0.00001 * (400 * u) := by nlinarith
    norm_num at a hcc ⊢
    linarith
  have hrr : (0.9 * (1 - e * cos E)) ^ 2 ≤ (1 - e * cos F') * (1 - e * cos F) := by
    rw [hF, hF']
    have := mul_le_mul r2 r1 (by positivity) (le_trans (by positivity) r2)
    refine le_trans ?_ this
    nlinarith [sq_nonneg (1 - e * cos E)]
  have hB : 0 ≤ 1.5e-13 + 76 * u / (1 - e) := by
    have : 0 ≤ 1 - e := by linarith
    positivity
  rw [gap_le hB, toTrueAnomaly_dist he0 he1]
  have hr0 : 0 < (1 - e * cos F') * (1 - e * cos F) :=
    mul_pos (one_sub_ecos_pos he0 he1 _) (one_sub_ecos_pos he0 he1 _)
  rw [div_le_iff₀ hr0]
  have s1 : 2 * (1 - e ^ 2) * (1 - cos (F' - F)) ≤ (√(1 - e ^ 2) * |E' - Ee|) ^ 2 := by
    rw [mul_pow, sq_sqrt hee, ← hFF, sq_abs]
    have := one_sub_sq_div_two_le_cos (x := F' - F)
    nlinarith
  refine s1.trans ?_
  have s2 : √(1 - e ^ 2) * |E' - Ee| ≤ (1.5e-13 + 76 * u / (1 - e)) * (0.9 * (1 - e * cos E)) := by
    have b1 : √(1 - e ^ 2) * |E' - Ee| ≤ √(1 - e ^ 2) * ((1.3e-13 * (e * sin (E / 2) ^ 3) + 41.1 * (u * sin (E / 2))) / (1 - e * cos E) + 27 * u) := by
      gcongr
    refine b1.trans ?_
    generalize sin (E / 2) = σ at *
    generalize 1 - e * cos E = f1 at *
    generalize √(1 - e ^ 2) = q at *
    have b2 : q * ((1.3e-13 * (e * σ ^ 3) + 41.1 * (u * σ)) / f1 + 27 * u) = (1.3e-13 * (q * (e * σ ^ 3)) + 41.1 * (u * (q * σ))) / f1 + 27 * (u * q) := by
      ring
    rw [b2]
    have b3 : (1.3e-13 * (q * (e * σ ^ 3)) + 41.1 * (u * (q * σ))) / f1 ≤ 1.3e-13 * f1 + 41.1 * u := by
      rw [div_le_iff₀ hf1]
      have : 41.1 * (u * (q * σ)) ≤ 41.1 * (u * f1) := by gcongr
      norm_num at this ⊢
      linarith
    have b4 : u * q ≤ u * 1 := by gcongr
    have b5 : u ≤ u / (1 - e) * f1 := by
      rw [div_mul_eq_mul_div, le_div_iff₀ (by linarith)]
      gcongr
      linarith
    have b6 : 76 * u / (1 - e) = 76 * (u / (1 - e)) := by ring
    rw [b6]
    norm_num at b3 ⊢
    linarith
  have h0 : 0 ≤ √(1 - e ^ 2) * |E' - Ee| := by positivity
  calc (√(1 - e ^ 2) * |E' - Ee|) ^ 2 ≤ ((1.5e-13 + 76 * u / (1 - e)) * (0.9 * (1 - e * cos E))) ^ 2 := by gcongr
    _ = (1.5e-13 + 76 * u / (1 - e)) ^ 2 * (0.9 * (1 - e * cos E)) ^ 2 := by ring
    _ ≤ _ := by gcongr

end Jaxoplanet.KeplerFloat
