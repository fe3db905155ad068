import Verif.Spec.Transit
import Verif.Props.MpConverge

/-!
# Helpers for transits: the hidden flux depends on the separation only, and continuously
-/

namespace Jaxoplanet.LightCurve
open _root_.Jaxoplanet.Starry _root_.Jaxoplanet.Spec _root_.Jaxoplanet.Keplerian
open Real MeasureTheory
open scoped Pointwise

theorem skyDisc_meas (x y R : ℝ) : MeasurableSet (skyDisc x y R) := by
  unfold skyDisc
  exact (isClosed_le (by fun_prop) continuous_const).measurableSet

/-- the rotation that brings `(b, 0)` to `(x, y)` -/
theorem rot2_skyDisc (x y r : ℝ) :
    rot2 (arctan2 y x) '' (stellarDisc ∩ occultor √(x ^ 2 + y ^ 2) r) = stellarDisc ∩ skyDisc x y r := by
  have hc : ∀ q : ℝ × ℝ, q ∈ occultor √(x ^ 2 + y ^ 2) r ↔ rot2 (arctan2 y x) q ∈ skyDisc x y r := by
    intro q
    have hx : √(x ^ 2 + y ^ 2) * cos (arctan2 y x) = x := by
      have := Complex.norm_mul_cos_arg ⟨x, y⟩
      rw [Complex.norm_def, Complex.normSq_mk] at this
      simpa [arctan2, show x * x + y * y = x ^ 2 + y ^ 2 by ring] using this
    have hy : √(x ^ 2 + y ^ 2) * sin (arctan2 y x) = y := by
      have := Complex.norm_mul_sin_arg ⟨x, y⟩
      rw [Complex.norm_def, Complex.normSq_mk] at this
      simpa [arctan2, show x * x + y * y = x ^ 2 + y ^ 2 by ring] using this
    have h1 := sin_sq_add_cos_sq (arctan2 y x)
    generalize √(x ^ 2 + y ^ 2) = b at *
    simp only [occultor, skyDisc, rot2, Set.mem_ofPred_eq]
    have : (cos (arctan2 y x) * q.1 - sin (arctan2 y x) * q.2 - x) ^ 2 + (sin (arctan2 y x) * q.1 + cos (arctan2 y x) * q.2 - y) ^ 2 =
        (q.1 - b) ^ 2 + q.2 ^ 2 := by
      generalize cos (arctan2 y x) = c at *
      generalize sin (arctan2 y x) = s at *
      rw [← hx, ← hy]
      linear_combination ((q.1 - b) ^ 2 + q.2 ^ 2) * h1
    rw [this]
  ext p
  constructor
  · rintro ⟨q, ⟨h1, h2⟩, rfl⟩
    refine ⟨?_, (hc q).1 h2⟩
    rw [← rot2_disc (arctan2 y x)]
    exact ⟨q, h1, rfl⟩
  · rintro ⟨h1, h2⟩
    refine ⟨rot2 (-arctan2 y x) p, ⟨?_, ?_⟩, rot2_neg _ p⟩
    · rw [← rot2_disc (-arctan2 y x)]
      exact ⟨p, h1, rfl⟩
    · rw [hc, rot2_neg]; exact h2

/-- the flux hidden by an occultor at `(x, y)` is that hidden by an occultor at the same distance on the `x` axis -/
theorem blocked_rot (u : List ℝ) (x y r : ℝ) :
    ∫ q in stellarDisc ∩ skyDisc x y r, profile u (mu q) = blockedFlux u √(x ^ 2 + y ^ 2) r := by
  rw [← rot2_skyDisc, integral_rot2]
  · simp only [mu_rot2]; rfl
  · exact (isClosed_le (by fun_prop) continuous_const).measurableSet.inter (isClosed_le (by fun_prop) continuous_const).measurableSet

theorem smul_skyDisc {R : ℝ} (hR : 0 < R) (x y r : ℝ) : R • skyDisc x y r = skyDisc (R * x) (R * y) (R * r) := by
  ext q
  rw [Set.mem_smul_set_iff_inv_smul_mem₀ hR.ne']
  simp only [skyDisc, Set.mem_ofPred_eq, Prod.smul_fst, Prod.smul_snd, smul_eq_mul]
  have : (R⁻¹ * q.1 - x) ^ 2 + (R⁻¹ * q.2 - y) ^ 2 = ((q.1 - R * x) ^ 2 + (q.2 - R * y) ^ 2) / R ^ 2 := by
    field_simp
  rw [this, div_le_iff₀ (by positivity)]
  ring_nf

theorem stellarDisc_eq : stellarDisc = skyDisc 0 0 1 := by
  ext q; simp [stellarDisc, skyDisc]

/-- the integrals over the disc of a star of radius `R` in terms of the unit disc -/
theorem integral_brightness (u : List ℝ) {R : ℝ} (hR : 0 < R) (S : Set (ℝ × ℝ)) :
    ∫ q in R • S, brightness u R q = R ^ 2 * ∫ q in S, profile u (mu q) := by
  have h := Measure.setIntegral_comp_smul (volume : Measure (ℝ × ℝ)) (brightness u R) S hR.ne'
  have hf : Module.finrank ℝ (ℝ × ℝ) = 2 := by simp
  rw [hf, smul_eq_mul, abs_of_pos (by positivity)] at h
  have e : (fun q : ℝ × ℝ => brightness u R (R • q)) = fun q => profile u (mu q) := by
    funext q
    unfold brightness mu
    congr 2
    simp only [Prod.smul_fst, Prod.smul_snd, smul_eq_mul]
    field_simp
    ring
  rw [e] at h
  rw [h]
  field_simp

/-- the hidden fraction in terms of the separation in units of the stellar radius -/
theorem hiddenFraction_eq (u : List ℝ) {R : ℝ} (hR : 0 < R) (ρ : ℝ) {p : V3} (hz : 0 < p.z) :
    hiddenFraction u R ρ p = blockedFlux u (√(p.x ^ 2 + p.y ^ 2) / R) (ρ / R) / totalFlux u := by
  have e1 : skyDisc 0 0 R = R • stellarDisc := by rw [stellarDisc_eq, smul_skyDisc hR]; simp
  have e2 : skyDisc 0 0 R ∩ skyDisc p.x p.y ρ = R • (stellarDisc ∩ skyDisc (p.x / R) (p.y / R) (ρ / R)) := by
    rw [Set.smul_set_inter₀ hR.ne', smul_skyDisc hR, ← e1]
    congr 2 <;> field_simp
  have e3 : √((p.x / R) ^ 2 + (p.y / R) ^ 2) = √(p.x ^ 2 + p.y ^ 2) / R := by
    rw [div_pow, div_pow, ← add_div, sqrt_div (by positivity), sqrt_sq hR.le]
  unfold hiddenFraction
  rw [if_pos hz, e2, e1, integral_brightness u hR, integral_brightness u hR, blocked_rot, e3]
  rw [mul_div_mul_left _ _ (by positivity)]
  rfl

/-- a bound for the brightness -/
def profileBound (u : List ℝ) : ℝ := 1 + (u.map abs).sum

theorem profile_le (u : List ℝ) {p : ℝ × ℝ} : |profile u (mu p)| ≤ profileBound u := by
  have h0 : 0 ≤ mu p := sqrt_nonneg _
  have h1 : mu p ≤ 1 := by
    unfold mu
    rw [sqrt_le_one]
    nlinarith [sq_nonneg p.1, sq_nonneg p.2]
  unfold profile profileBound
  have hs : (u.map abs).sum = ∑ i : Fin u.length, |u[i]| := by
    rw [← List.sum_ofFn]
    congr 1
    apply List.ext_getElem <;> simp
  rw [hs]
  refine (abs_sub _ _).trans ?_
  rw [abs_one]
  gcongr
  refine (Finset.abs_sum_le_sum_abs _ _).trans (Finset.sum_le_sum fun i _ => ?_)
  rw [abs_mul, abs_of_nonneg (by positivity : (0:ℝ) ≤ (1 - mu p) ^ (i.val + 1))]
  have : (1 - mu p) ^ (i.val + 1) ≤ 1 := pow_le_one₀ (by linarith) (by linarith)
  nlinarith [abs_nonneg u[i]]

/-- the part of a disc that a shifted copy of it does not cover -/
theorem occultor_diff (b b' : ℝ) {r : ℝ} (hr : 0 ≤ r) :
    volume (occultor b r \ occultor b' r) ≤ ENNReal.ofReal (2 * r * |b - b'|) := by
  have hm : MeasurableSet (occultor b r \ occultor b' r) := by
    unfold occultor
    exact (isClosed_le (by fun_prop) continuous_const).measurableSet.diff (isClosed_le (by fun_prop) continuous_const).measurableSet
  rw [Measure.volume_eq_prod, Measure.prod_apply_symm hm]
  calc _ ≤ ∫⁻ y, (Set.Icc (-r) r).indicator (fun _ => ENNReal.ofReal |b - b'|) y := by
        refine lintegral_mono fun y => ?_
        by_cases hy : y ∈ Set.Icc (-r) r
        · rw [Set.indicator_of_mem hy]
          have hy2 : 0 ≤ r ^ 2 - y ^ 2 := by nlinarith [hy.1, hy.2]
          set h := √(r ^ 2 - y ^ 2) with hh
          have hsq : h ^ 2 = r ^ 2 - y ^ 2 := sq_sqrt hy2
          have h0 : 0 ≤ h := sqrt_nonneg _
          have hin : ∀ c x : ℝ, (x - c) ^ 2 + y ^ 2 ≤ r ^ 2 ↔ c - h ≤ x ∧ x ≤ c + h := by
            intro c x
            rw [show (x - c) ^ 2 + y ^ 2 ≤ r ^ 2 ↔ (x - c) ^ 2 ≤ h ^ 2 by rw [hsq]; constructor <;> intro _ <;> linarith, sq_le_sq, abs_of_nonneg h0,
              abs_le]
            constructor <;> rintro ⟨_, _⟩ <;> constructor <;> linarith
          rcases le_total b b' with hb | hb
          · calc _ ≤ volume (Set.Icc (b - h) (b' - h)) := by
                  refine measure_mono fun x hx => ?_
                  simp only [Set.mem_preimage, Set.mem_sdiff, occultor, Set.mem_ofPred_eq, hin, not_and_or, not_le] at hx
                  obtain ⟨⟨h1, h2⟩, h3 | h3⟩ := hx
                  · exact ⟨h1, h3.le⟩
                  · exfalso; linarith
              _ = _ := by rw [Real.volume_Icc, abs_of_nonpos (by linarith)]; congr 1; ring
          · calc _ ≤ volume (Set.Icc (b' + h) (b + h)) := by
                  refine measure_mono fun x hx => ?_
                  simp only [Set.mem_preimage, Set.mem_sdiff, occultor, Set.mem_ofPred_eq, hin, not_and_or, not_le] at hx
                  obtain ⟨⟨h1, h2⟩, h3 | h3⟩ := hx
                  · exfalso; linarith
                  · exact ⟨h3.le, h2⟩
              _ = _ := by rw [Real.volume_Icc, abs_of_nonneg (by linarith)]; congr 1; ring
        · rw [Set.indicator_of_notMem hy]
          have : (fun x => (x, y)) ⁻¹' (occultor b r \ occultor b' r) = ∅ := by
            ext x
            simp only [Set.mem_preimage, Set.mem_sdiff, occultor, Set.mem_ofPred_eq, Set.mem_empty_iff_false, iff_false, not_and]
            intro hx
            exfalso
            refine hy (abs_le.1 (abs_le_of_sq_le_sq ?_ hr))
            nlinarith [sq_nonneg (x - b)]
          rw [this, measure_empty]
    _ = _ := by
        rw [lintegral_indicator measurableSet_Icc, setLIntegral_const, Real.volume_Icc, ← ENNReal.ofReal_mul (abs_nonneg _)]
        congr 1
        ring

/-- the hidden flux is a Lipschitz function of the separation -/
theorem blockedFlux_lipschitz (u : List ℝ) (b b' : ℝ) {r : ℝ} (hr : 0 ≤ r) :
    |blockedFlux u b r - blockedFlux u b' r| ≤ profileBound u * (4 * r * |b - b'|) := by
  set S := stellarDisc ∩ occultor b r with hS
  set T := stellarDisc ∩ occultor b' r with hT
  have mS : MeasurableSet stellarDisc := (isClosed_le (by fun_prop) continuous_const).measurableSet
  have mo : ∀ c, MeasurableSet (occultor c r) := fun c => (isClosed_le (by fun_prop) continuous_const).measurableSet
  have hi : IntegrableOn (fun q : ℝ × ℝ => profile u (mu q)) stellarDisc := integrableOn_disc_cont (Mp.continuous_profile u)
  have one : ∀ c c', |∫ q in (stellarDisc ∩ occultor c r) \ (stellarDisc ∩ occultor c' r), profile u (mu q)| ≤
      profileBound u * (2 * r * |c - c'|) := by
    intro c c'
    have hsub : (stellarDisc ∩ occultor c r) \ (stellarDisc ∩ occultor c' r) ⊆ occultor c r \ occultor c' r := by
      rintro q ⟨⟨h1, h2⟩, h3⟩
      exact ⟨h2, fun h => h3 ⟨h1, h⟩⟩
    have hv := (measure_mono hsub).trans (occultor_diff c c' hr)
    have hfin : volume ((stellarDisc ∩ occultor c r) \ (stellarDisc ∩ occultor c' r)) < ⊤ := hv.trans_lt ENNReal.ofReal_lt_top
    have := norm_setIntegral_le_of_norm_le_const (μ := volume) hfin (f := fun q : ℝ × ℝ => profile u (mu q)) (C := profileBound u)
      (fun q _ => profile_le u)
    rw [Real.norm_eq_abs] at this
    refine this.trans ?_
    have hp : 0 ≤ profileBound u := (abs_nonneg _).trans (profile_le u (p := (0, 0)))
    gcongr
    exact ENNReal.toReal_le_of_le_ofReal (by positivity) hv
  have e1 : blockedFlux u b r = (∫ q in S \ T, profile u (mu q)) + ∫ q in S ∩ T, profile u (mu q) := by
    unfold blockedFlux
    rw [add_comm, integral_inter_add_sdiff ((mS.inter (mo b'))) (hi.mono_set Set.inter_subset_left)]
  have e2 : blockedFlux u b' r = (∫ q in T \ S, profile u (mu q)) + ∫ q in S ∩ T, profile u (mu q) := by
    unfold blockedFlux
    rw [add_comm, Set.inter_comm S T, integral_inter_add_sdiff ((mS.inter (mo b))) (hi.mono_set Set.inter_subset_left)]
  rw [e1, e2, add_sub_add_right_eq_sub]
  refine (abs_sub _ _).trans ?_
  have h1 := one b b'
  have h2 := one b' b
  rw [abs_sub_comm b' b] at h2
  linarith

end Jaxoplanet.LightCurve
