import Verif.Model.Solution
import Verif.Spec.Occultation
import Verif.Props.Green
import Verif.Props.DiscIntegral
import Verif.Props.LimbDark

/-!
# Green's theorem on the visible part of the stellar disc
-/

namespace Jaxoplanet.Starry

open _root_.Jaxoplanet.Starry.Spec _root_.Jaxoplanet.Spec _root_.Jaxoplanet.Green _root_.Jaxoplanet.LimbDark
open Real intervalIntegral MeasureTheory Set

/-! ### the occultor on the `y` axis -/

theorem occultorY_preimage (b r : ℝ) : occultorY b r = Prod.swap ⁻¹' (occultor b r) := by
  ext p
  simp only [occultorY, occultor, mem_preimage, mem_ofPred_eq, Prod.fst_swap, Prod.snd_swap]
  constructor <;> intro h <;> linarith

theorem star_preimage : stellarDisc = Prod.swap ⁻¹' stellarDisc := by
  ext p
  simp only [stellarDisc, mem_preimage, mem_ofPred_eq, Prod.fst_swap, Prod.snd_swap]
  constructor <;> intro h <;> linarith

theorem measurableSet_occultorY (b r : ℝ) : MeasurableSet (occultorY b r) := by
  rw [occultorY_preimage]
  exact measurable_swap (measurableSet_occultor b r)

theorem isCompact_occultorY (b r : ℝ) : IsCompact (occultorY b r) := by
  have hc : IsClosed (occultorY b r) := isClosed_le (by fun_prop) (by fun_prop)
  refine (isCompact_Icc.prod isCompact_Icc).of_isClosed_subset hc (s := Icc (-|r|) |r| ×ˢ Icc (b - |r|) (b + |r|)) fun p hp => ?_
  simp only [occultorY, mem_ofPred_eq] at hp
  have h1 : |p.1| ≤ |r| := sq_le_sq.1 (by nlinarith [sq_nonneg (p.2 - b)])
  have h2 : |p.2 - b| ≤ |r| := sq_le_sq.1 (by nlinarith [sq_nonneg p.1])
  rw [abs_le] at h1 h2
  exact ⟨⟨by linarith, by linarith⟩, ⟨by linarith, by linarith⟩⟩

theorem swap_integral (S : Set (ℝ × ℝ)) (f : ℝ × ℝ → ℝ) :
    ∫ p in Prod.swap ⁻¹' S, f p = ∫ p in S, f p.swap := by
  have hp : MeasurePreserving (Prod.swap : ℝ × ℝ → ℝ × ℝ) volume volume := Measure.measurePreserving_swap
  have := hp.setIntegral_preimage_emb (MeasurableEquiv.prodComm (α := ℝ) (β := ℝ)).measurableEmbedding (fun q => f q.swap) S
  simpa using this

theorem integral_occY_polar {f : ℝ × ℝ → ℝ} (hf : Continuous f) (b : ℝ) {r : ℝ} (hr : 0 ≤ r) :
    ∫ p in occultorY b r, f p = ∫ s in (0 : ℝ)..r, ∫ φ in (-π)..π, s * f (s * sin φ, b - s * cos φ) := by
  rw [occultorY_preimage, swap_integral, integral_occultor_polar (by fun_prop) b hr]
  refine integral_congr fun s _ => ?_
  have := integral_comp_neg (a := -π) (b := π) (fun φ => s * f (s * sin φ, b - s * cos φ))
  rw [neg_neg] at this
  rw [← this]
  refine integral_congr fun φ _ => ?_
  simp

/-! ### Green's theorem on a disc for `C¹` functions -/

/-- `F` has the continuous partial derivatives `Fx`, `Fy` and obeys the chain rule -/
structure ChainC1 (F Fx Fy : ℝ → ℝ → ℝ) : Prop where
  chain : ∀ (X Y : ℝ → ℝ) (X' Y' t : ℝ), HasDerivAt X X' t → HasDerivAt Y Y' t →
    HasDerivAt (fun t => F (X t) (Y t)) (Fx (X t) (Y t) * X' + Fy (X t) (Y t) * Y') t
  contF : Continuous (Function.uncurry F)
  contX : Continuous (Function.uncurry Fx)
  contY : Continuous (Function.uncurry Fy)

theorem hasDerivAt_px (s φ : ℝ) : HasDerivAt (fun s : ℝ => s * sin φ) (sin φ) s ∧ HasDerivAt (fun φ => s * sin φ) (s * cos φ) φ := by
  refine ⟨?_, (hasDerivAt_sin φ).const_mul s⟩
  simpa using (hasDerivAt_id s).mul_const (sin φ)

theorem hasDerivAt_py (b s φ : ℝ) : HasDerivAt (fun s : ℝ => b - s * cos φ) (-cos φ) s ∧ HasDerivAt (fun φ => b - s * cos φ) (s * sin φ) φ := by
  refine ⟨?_, ?_⟩
  · simpa using ((hasDerivAt_id s).mul_const (cos φ)).const_sub b
  · refine (((hasDerivAt_cos φ).const_mul s).const_sub b).congr_deriv ?_
    ring

/-- Fubini and the fundamental theorem in polar coordinates -/
theorem polar_ftc {A B As Bp : ℝ → ℝ → ℝ} (hA : ∀ s φ, HasDerivAt (fun s => A s φ) (As s φ) s)
    (hB : ∀ s φ, HasDerivAt (fun φ => B s φ) (Bp s φ) φ) (hAc : Continuous (Function.uncurry As)) (hBc : Continuous (Function.uncurry Bp))
    (hper : ∀ s, B s π = B s (-π)) (h0 : ∀ φ, A 0 φ = 0) {r : ℝ} (hr : 0 ≤ r) :
    ∫ s in (0 : ℝ)..r, ∫ φ in (-π)..π, (As s φ + Bp s φ) = ∫ φ in (-π)..π, A r φ := by
  have hle : -π ≤ π := by linarith [pi_pos]
  have hA1 : ∀ s, Continuous (As s) := fun s => hAc.comp (Continuous.prodMk_right s)
  have hB1 : ∀ s, Continuous (Bp s) := fun s => hBc.comp (Continuous.prodMk_right s)
  have hA2 : ∀ φ, Continuous fun s => As s φ := fun φ => hAc.comp (Continuous.prodMk_left φ)
  have e1 : ∀ s, ∫ φ in (-π)..π, (As s φ + Bp s φ) = ∫ φ in (-π)..π, As s φ := by
    intro s
    rw [intervalIntegral.integral_add ((hA1 s).intervalIntegrable _ _) ((hB1 s).intervalIntegrable _ _),
      integral_eq_sub_of_hasDerivAt (fun φ _ => hB s φ) ((hB1 s).intervalIntegrable _ _)]
    simp [hper]
  simp only [e1]
  rw [Green.swap hAc hr hle]
  refine integral_congr fun φ _ => ?_
  rw [integral_eq_sub_of_hasDerivAt (fun s _ => hA s φ) ((hA2 φ).intervalIntegrable _ _)]
  simp [h0]

theorem green_x {F Fx Fy : ℝ → ℝ → ℝ} (h : ChainC1 F Fx Fy) (b : ℝ) {r : ℝ} (hr : 0 ≤ r) :
    ∫ p in occultorY b r, Fx p.1 p.2 = ∫ φ in (-π)..π, F (r * sin φ) (b - r * cos φ) * (r * sin φ) := by
  have hF : Continuous fun p : ℝ × ℝ => F p.1 p.2 := h.contF
  have hX : Continuous fun p : ℝ × ℝ => Fx p.1 p.2 := h.contX
  have hY : Continuous fun p : ℝ × ℝ => Fy p.1 p.2 := h.contY
  have cF : Continuous fun q : ℝ × ℝ => F (q.1 * sin q.2) (b - q.1 * cos q.2) :=
    hF.comp (by fun_prop : Continuous fun q : ℝ × ℝ => (q.1 * sin q.2, b - q.1 * cos q.2))
  have cX : Continuous fun q : ℝ × ℝ => Fx (q.1 * sin q.2) (b - q.1 * cos q.2) :=
    hX.comp (by fun_prop : Continuous fun q : ℝ × ℝ => (q.1 * sin q.2, b - q.1 * cos q.2))
  have cY : Continuous fun q : ℝ × ℝ => Fy (q.1 * sin q.2) (b - q.1 * cos q.2) :=
    hY.comp (by fun_prop : Continuous fun q : ℝ × ℝ => (q.1 * sin q.2, b - q.1 * cos q.2))
  rw [integral_occY_polar hX b hr]
  rw [← polar_ftc (A := fun s φ => F (s * sin φ) (b - s * cos φ) * (s * sin φ)) (B := fun s φ => F (s * sin φ) (b - s * cos φ) * cos φ)
    (As := fun s φ => (Fx (s * sin φ) (b - s * cos φ) * sin φ + Fy (s * sin φ) (b - s * cos φ) * -cos φ) * (s * sin φ) +
      F (s * sin φ) (b - s * cos φ) * sin φ)
    (Bp := fun s φ => (Fx (s * sin φ) (b - s * cos φ) * (s * cos φ) + Fy (s * sin φ) (b - s * cos φ) * (s * sin φ)) * cos φ +
      F (s * sin φ) (b - s * cos φ) * -sin φ)
    (fun s φ => (h.chain _ _ _ _ s (hasDerivAt_px s φ).1 (hasDerivAt_py b s φ).1).mul (hasDerivAt_px s φ).1)
    (fun s φ => (h.chain _ _ _ _ φ (hasDerivAt_px s φ).2 (hasDerivAt_py b s φ).2).mul (hasDerivAt_cos φ))
    (by
      have : Continuous fun q : ℝ × ℝ => (Fx (q.1 * sin q.2) (b - q.1 * cos q.2) * sin q.2 + Fy (q.1 * sin q.2) (b - q.1 * cos q.2) * -cos q.2) * (q.1 * sin q.2) +
        F (q.1 * sin q.2) (b - q.1 * cos q.2) * sin q.2 := by fun_prop
      exact this)
    (by
      have : Continuous fun q : ℝ × ℝ => (Fx (q.1 * sin q.2) (b - q.1 * cos q.2) * (q.1 * cos q.2) + Fy (q.1 * sin q.2) (b - q.1 * cos q.2) * (q.1 * sin q.2)) * cos q.2 +
        F (q.1 * sin q.2) (b - q.1 * cos q.2) * -sin q.2 := by fun_prop
      exact this)
    (fun s => by simp) (fun φ => by simp) hr]
  refine integral_congr fun s _ => integral_congr fun φ _ => ?_
  simp only
  linear_combination (-(s * Fx (s * sin φ) (b - s * cos φ))) * sin_sq_add_cos_sq φ

theorem green_y {F Fx Fy : ℝ → ℝ → ℝ} (h : ChainC1 F Fx Fy) (b : ℝ) {r : ℝ} (hr : 0 ≤ r) :
    ∫ p in occultorY b r, Fy p.1 p.2 = -∫ φ in (-π)..π, F (r * sin φ) (b - r * cos φ) * (r * cos φ) := by
  have hF : Continuous fun p : ℝ × ℝ => F p.1 p.2 := h.contF
  have hX : Continuous fun p : ℝ × ℝ => Fx p.1 p.2 := h.contX
  have hY : Continuous fun p : ℝ × ℝ => Fy p.1 p.2 := h.contY
  have cF : Continuous fun q : ℝ × ℝ => F (q.1 * sin q.2) (b - q.1 * cos q.2) :=
    hF.comp (by fun_prop : Continuous fun q : ℝ × ℝ => (q.1 * sin q.2, b - q.1 * cos q.2))
  have cX : Continuous fun q : ℝ × ℝ => Fx (q.1 * sin q.2) (b - q.1 * cos q.2) :=
    hX.comp (by fun_prop : Continuous fun q : ℝ × ℝ => (q.1 * sin q.2, b - q.1 * cos q.2))
  have cY : Continuous fun q : ℝ × ℝ => Fy (q.1 * sin q.2) (b - q.1 * cos q.2) :=
    hY.comp (by fun_prop : Continuous fun q : ℝ × ℝ => (q.1 * sin q.2, b - q.1 * cos q.2))
  rw [integral_occY_polar hY b hr, ← intervalIntegral.integral_neg]
  have e : ∫ φ in (-π)..π, -(F (r * sin φ) (b - r * cos φ) * (r * cos φ)) = ∫ φ in (-π)..π, F (r * sin φ) (b - r * cos φ) * (-(r * cos φ)) :=
    integral_congr fun φ _ => by ring
  rw [e]
  rw [← polar_ftc (A := fun s φ => F (s * sin φ) (b - s * cos φ) * (-(s * cos φ))) (B := fun s φ => F (s * sin φ) (b - s * cos φ) * sin φ)
    (As := fun s φ => (Fx (s * sin φ) (b - s * cos φ) * sin φ + Fy (s * sin φ) (b - s * cos φ) * -cos φ) * (-(s * cos φ)) +
      F (s * sin φ) (b - s * cos φ) * -cos φ)
    (Bp := fun s φ => (Fx (s * sin φ) (b - s * cos φ) * (s * cos φ) + Fy (s * sin φ) (b - s * cos φ) * (s * sin φ)) * sin φ +
      F (s * sin φ) (b - s * cos φ) * cos φ)
    (fun s φ => (h.chain _ _ _ _ s (hasDerivAt_px s φ).1 (hasDerivAt_py b s φ).1).mul
      (by simpa using ((hasDerivAt_id s).mul_const (cos φ)).fun_neg))
    (fun s φ => (h.chain _ _ _ _ φ (hasDerivAt_px s φ).2 (hasDerivAt_py b s φ).2).mul (hasDerivAt_sin φ))
    (by
      have : Continuous fun q : ℝ × ℝ => (Fx (q.1 * sin q.2) (b - q.1 * cos q.2) * sin q.2 + Fy (q.1 * sin q.2) (b - q.1 * cos q.2) * -cos q.2) * (-(q.1 * cos q.2)) +
        F (q.1 * sin q.2) (b - q.1 * cos q.2) * -cos q.2 := by fun_prop
      exact this)
    (by
      have : Continuous fun q : ℝ × ℝ => (Fx (q.1 * sin q.2) (b - q.1 * cos q.2) * (q.1 * cos q.2) + Fy (q.1 * sin q.2) (b - q.1 * cos q.2) * (q.1 * sin q.2)) * sin q.2 +
        F (q.1 * sin q.2) (b - q.1 * cos q.2) * cos q.2 := by fun_prop
      exact this)
    (fun s => by simp) (fun φ => by simp) hr]
  refine integral_congr fun s _ => integral_congr fun φ _ => ?_
  simp only
  linear_combination (-(s * Fy (s * sin φ) (b - s * cos φ))) * sin_sq_add_cos_sq φ

/-! ### the fields -/

/-- `x^a y^c H(1 - x² - y²)` is continuously differentiable -/
theorem monoField_C1 (a c : ℕ) {H H' : ℝ → ℝ} (hH : ∀ t, HasDerivAt H (H' t) t) (hc : Continuous H') :
    ChainC1 (fun x y => x ^ a * y ^ c * H (1 - x ^ 2 - y ^ 2))
      (fun x y => a * x ^ (a - 1) * y ^ c * H (1 - x ^ 2 - y ^ 2) - 2 * x ^ (a + 1) * y ^ c * H' (1 - x ^ 2 - y ^ 2))
      (fun x y => c * x ^ a * y ^ (c - 1) * H (1 - x ^ 2 - y ^ 2) - 2 * x ^ a * y ^ (c + 1) * H' (1 - x ^ 2 - y ^ 2)) := by
  have hHc : Continuous H := continuous_iff_continuousAt.2 fun x => (hH x).continuousAt
  refine ⟨fun X Y X' Y' t hX hY => ?_, ?_, ?_, ?_⟩
  · have h1 : HasDerivAt (fun t => 1 - X t ^ 2 - Y t ^ 2) (-(2 * X t * X') - 2 * Y t * Y') t := by
      refine (((hX.pow 2).const_sub 1).sub (hY.pow 2)).congr_deriv ?_
      push_cast
      ring
    have h2 : HasDerivAt (fun t => H (1 - X t ^ 2 - Y t ^ 2)) (H' (1 - X t ^ 2 - Y t ^ 2) * (-(2 * X t * X') - 2 * Y t * Y')) t :=
      (hH _).comp t h1
    refine (((hX.pow a).mul (hY.pow c)).mul h2).congr_deriv ?_
    simp only [Pi.pow_apply, Pi.mul_apply]
    ring
  · have : Continuous fun p : ℝ × ℝ => p.1 ^ a * p.2 ^ c * H (1 - p.1 ^ 2 - p.2 ^ 2) := by fun_prop
    exact this
  · have : Continuous fun p : ℝ × ℝ => a * p.1 ^ (a - 1) * p.2 ^ c * H (1 - p.1 ^ 2 - p.2 ^ 2) - 2 * p.1 ^ (a + 1) * p.2 ^ c * H' (1 - p.1 ^ 2 - p.2 ^ 2) := by
      fun_prop
    exact this
  · have : Continuous fun p : ℝ × ℝ => c * p.1 ^ a * p.2 ^ (c - 1) * H (1 - p.1 ^ 2 - p.2 ^ 2) - 2 * p.1 ^ a * p.2 ^ (c + 1) * H' (1 - p.1 ^ 2 - p.2 ^ 2) := by
      fun_prop
    exact this

/-! ### arcs -/

/-- the integrand of a line integral along the occultor's limb; `φ = 0` is the point nearest to the `x` axis -/
noncomputable def occLine (G : ℝ → ℝ → ℝ × ℝ) (b r φ : ℝ) : ℝ :=
  (G (r * sin φ) (b - r * cos φ)).1 * (r * cos φ) + (G (r * sin φ) (b - r * cos φ)).2 * (r * sin φ)

/-- the integrand of a line integral along the stellar limb -/
noncomputable def limbLine (G : ℝ → ℝ → ℝ × ℝ) (θ : ℝ) : ℝ :=
  (G (cos θ) (sin θ)).1 * (-sin θ) + (G (cos θ) (sin θ)).2 * cos θ

theorem arcIntegral_occ (G : ℝ → ℝ → ℝ × ℝ) (b r κ : ℝ) :
    arcIntegral G 0 b r (-(π / 2) - κ) (-(π / 2) + κ) = ∫ φ in (-κ)..κ, occLine G b r φ := by
  unfold arcIntegral
  rw [show -(π / 2) - κ = -κ - π / 2 by ring, show -(π / 2) + κ = κ - π / 2 by ring,
    ← integral_comp_sub_right (fun φ => (G (0 + r * cos φ) (b + r * sin φ)).1 * (-(r * sin φ)) + (G (0 + r * cos φ) (b + r * sin φ)).2 * (r * cos φ)) (π / 2)]
  refine integral_congr fun φ _ => ?_
  simp only [cos_sub_pi_div_two, sin_sub_pi_div_two, occLine, zero_add]
  rw [show b + r * -cos φ = b - r * cos φ by ring]
  ring

theorem arcIntegral_limb (G : ℝ → ℝ → ℝ × ℝ) (a c : ℝ) : arcIntegral G 0 0 1 a c = ∫ θ in a..c, limbLine G θ := by
  unfold arcIntegral limbLine
  simp only [zero_add, one_mul]

theorem limbLine_periodic (G : ℝ → ℝ → ℝ × ℝ) : Function.Periodic (limbLine G) (2 * π) := by
  intro θ
  simp [limbLine]

theorem kappas_eq (b r : ℝ) : kappas b r = (LimbDark.kappas b r).2 := rfl

theorem none_kappas {b r : ℝ} (hb : 0 ≤ b) (hr : 0 ≤ r) (h : 1 + r ≤ b) : kappas b r = (0, 0) := by
  have hcond : ¬ (b > |1 - r| ∧ b < 1 + r) := fun h' => by linarith [h'.2]
  have e0 : arctan2 0 (b ^ 2 + (r - 1) * (r + 1)) = 0 :=
    Complex.arg_ofReal_of_nonneg (x := b ^ 2 + (r - 1) * (r + 1)) (by nlinarith)
  have e1 : arctan2 0 (b ^ 2 - (r - 1) * (r + 1)) = 0 :=
    Complex.arg_ofReal_of_nonneg (x := b ^ 2 - (r - 1) * (r + 1)) (by nlinarith)
  simp only [kappas, if_neg hcond, e0, e1]

theorem full_kappas {b r : ℝ} (hb : 0 ≤ b) (h : 1 + b ≤ r) (hne : ¬ (b = 0 ∧ r = 1)) : kappas b r = (0, π) := by
  have hcond : ¬ (b > |1 - r| ∧ b < 1 + r) := by
    rintro ⟨h', -⟩
    rw [abs_of_nonpos (by linarith)] at h'
    linarith
  have e0 : arctan2 0 (b ^ 2 + (r - 1) * (r + 1)) = 0 :=
    Complex.arg_ofReal_of_nonneg (x := b ^ 2 + (r - 1) * (r + 1)) (by nlinarith [sq_nonneg b])
  have hneg : b ^ 2 - (r - 1) * (r + 1) < 0 := by
    rcases hb.eq_or_lt with rfl | hb'
    · have : r ≠ 1 := fun h => hne ⟨rfl, h⟩
      have : 1 < r := lt_of_le_of_ne (by linarith) (Ne.symm this)
      nlinarith
    · nlinarith
  have e1 : arctan2 0 (b ^ 2 - (r - 1) * (r + 1)) = π := Complex.arg_ofReal_of_neg (x := b ^ 2 - (r - 1) * (r + 1)) hneg
  simp only [kappas, if_neg hcond, e0, e1]

/-- the exact coincidence `b = 0`, `r = 1`: `arctan2(0, 0) = 0` -/
theorem equal_kappas : kappas 0 1 = (0, 0) := by
  have hcond : ¬ ((0 : ℝ) > |1 - 1| ∧ (0 : ℝ) < 1 + 1) := by simp
  have e0 : arctan2 0 0 = 0 := Complex.arg_ofReal_of_nonneg (x := 0) le_rfl
  simp only [kappas, if_neg hcond]
  norm_num
  exact e0

/-- from the whole disc and the hidden part to the visible part -/
theorem visible_of (G : ℝ → ℝ → ℝ × ℝ) (f : ℝ × ℝ → ℝ) (hf : Continuous f) (hl : Continuous (limbLine G))
    (W : ∫ p in stellarDisc, f p = ∫ θ in (-π)..π, limbLine G θ) {b r : ℝ} (hb : 0 ≤ b) (hr : 0 ≤ r)
    (H : b < 1 + r → r < 1 + b → ∫ p in stellarDisc ∩ occultorY b r, f p =
      (∫ φ in (-(kappas b r).1)..(kappas b r).1, occLine G b r φ) + ∫ θ in (π / 2 - (kappas b r).2)..(π / 2 + (kappas b r).2), limbLine G θ)
    (hne : ¬ (b = 0 ∧ r = 1)) :
    ∫ p in stellarDisc \ occultorY b r, f p =
      arcIntegral G 0 0 1 (π - (π / 2 - (kappas b r).2)) (2 * π + (π / 2 - (kappas b r).2)) -
        arcIntegral G 0 b r (-(π / 2) - (kappas b r).1) (-(π / 2) + (kappas b r).1) := by
  rw [arcIntegral_occ, arcIntegral_limb]
  have key := integral_inter_add_sdiff (measurableSet_occultorY b r) (integrableOn_disc_cont hf)
  have hper := (limbLine_periodic G).intervalIntegral_add_eq (-π) (π / 2 - (kappas b r).2)
  rw [show -π + 2 * π = π by ring] at hper
  have hsplit := intervalIntegral.integral_add_adjacent_intervals (μ := volume) (hl.intervalIntegrable (π / 2 - (kappas b r).2) (π / 2 + (kappas b r).2))
    (hl.intervalIntegrable (π / 2 + (kappas b r).2) (π / 2 - (kappas b r).2 + 2 * π))
  rw [show π - (π / 2 - (kappas b r).2) = π / 2 + (kappas b r).2 by ring,
    show 2 * π + (π / 2 - (kappas b r).2) = π / 2 - (kappas b r).2 + 2 * π by ring]
  rcases le_or_gt (1 + r) b with h1 | h1
  · have h0 : ∫ p in stellarDisc ∩ occultorY b r, f p = 0 := by
      rw [star_preimage, occultorY_preimage, ← preimage_inter, swap_integral]
      exact setIntegral_measure_zero _ (touching_null hr h1)
    rw [none_kappas hb hr h1] at *
    simp only [sub_zero, add_zero, integral_same, zero_add, neg_zero] at *
    linarith
  · rcases le_or_gt (1 + b) r with h2 | h2
    · have h0 : stellarDisc \ occultorY b r = ∅ := by
        rw [star_preimage, occultorY_preimage, ← preimage_sdiff, sdiff_eq_empty.2 (covered hb h2), preimage_empty]
      rw [h0, full_kappas hb h2 hne]
      simp only [Measure.restrict_empty, integral_zero_measure, neg_zero, integral_same, sub_zero]
      rw [show π / 2 - π + 2 * π = π / 2 + π by ring, integral_same]
    · have := H h1 h2
      linarith

/-- a function vanishing off the occulting arc -/
theorem restrict_arc {b r : ℝ} (hb : 0 ≤ b) (hr : 0 ≤ r) (h1 : b < 1 + r) (h2 : r < 1 + b) {g : ℝ → ℝ} (hg : Continuous g)
    (h0 : ∀ φ, w b r φ ≤ 0 → g φ = 0) :
    ∫ φ in (-π)..π, g φ = ∫ φ in (-(kappas b r).1)..(kappas b r).1, g φ := by
  obtain ⟨k0, kπ, hpos, hneg⟩ := w_sign hb hr h1 h2
  rw [← kappas_eq] at *
  have e1 : ∫ φ in (kappas b r).1..π, g φ = 0 := by
    rw [integral_of_le kπ]
    exact setIntegral_eq_zero_of_forall_eq_zero fun φ hφ => h0 φ (hneg φ hφ.1 hφ.2)
  have e2 : ∫ φ in (-π)..(-(kappas b r).1), g φ = 0 := by
    have := integral_comp_neg (a := (kappas b r).1) (b := π) g
    rw [← this, integral_of_le kπ]
    refine setIntegral_eq_zero_of_forall_eq_zero fun φ hφ => h0 _ ?_
    have := hneg φ hφ.1 hφ.2
    simpa [w] using this
  rw [← intervalIntegral.integral_add_adjacent_intervals (hg.intervalIntegrable (-π) (-(kappas b r).1)) (hg.intervalIntegrable _ _),
    ← intervalIntegral.integral_add_adjacent_intervals (hg.intervalIntegrable (-(kappas b r).1) (kappas b r).1) (hg.intervalIntegrable _ _), e1, e2]
  ring

theorem whole_of (G : ℝ → ℝ → ℝ × ℝ) : ∫ φ in (-π)..π, occLine G 0 1 φ = ∫ θ in (-π)..π, limbLine G θ := by
  have := arcIntegral_occ G 0 1 π
  rw [arcIntegral_limb] at this
  rw [← this]
  have h := (limbLine_periodic G).intervalIntegral_add_eq (-π) (-(π / 2) - π)
  rw [show -π + 2 * π = π by ring, show -(π / 2) - π + 2 * π = -(π / 2) + π by ring] at h
  exact h.symm

theorem star_eqY : stellarDisc = occultorY 0 1 := by ext p; simp [stellarDisc, occultorY]

/-! ### the fields with `z³` -/

theorem sqrt_cube (t : ℝ) : √t ^ 3 = (max t 0) ^ (3 / 2 : ℝ) := by
  rcases le_total 0 t with h | h
  · rw [max_eq_left h, sqrt_eq_rpow, ← rpow_natCast, ← rpow_mul h]
    norm_num
  · rw [max_eq_right h, sqrt_eq_zero_of_nonpos h, zero_rpow (by norm_num)]
    norm_num

theorem sqrt_pos_part (t : ℝ) : √t = (max t 0) ^ (1 / 2 : ℝ) := by
  rcases le_total 0 t with h | h
  · rw [max_eq_left h, sqrt_eq_rpow]
  · rw [max_eq_right h, sqrt_eq_zero_of_nonpos h, zero_rpow (by norm_num)]

theorem hasDerivAt_cube (t : ℝ) : HasDerivAt (fun t => √t ^ 3) (3 / 2 * √t) t := by
  have := hasDerivAt_pospow (a := 3 / 2) (by norm_num) t
  have e : (fun t : ℝ => √t ^ 3) = fun t => (max t 0) ^ (3 / 2 : ℝ) := funext sqrt_cube
  rw [e, sqrt_pos_part t]
  convert this using 2
  norm_num

theorem w_occ (b r φ : ℝ) : 1 - (r * sin φ) ^ 2 - (b - r * cos φ) ^ 2 = w b r φ := by
  unfold w; linear_combination (-r ^ 2) * sin_sq_add_cos_sq φ

theorem occultorY_inter {f g : ℝ × ℝ → ℝ} (b r : ℝ) (hfg : ∀ᵐ p : ℝ × ℝ, p ∈ stellarDisc → g p = f p)
    (h0 : ∀ p, p ∉ stellarDisc → f p = 0) :
    ∫ p in stellarDisc ∩ occultorY b r, g p = ∫ p in occultorY b r, f p := by
  have hm := measurableSet_stellarDisc.inter (measurableSet_occultorY b r)
  rw [setIntegral_congr_ae hm (g := f) (by filter_upwards [hfg] with p hp hps; exact hp hps.1)]
  exact (setIntegral_eq_of_subset_of_forall_sdiff_eq_zero (measurableSet_occultorY b r)
    inter_subset_right fun p hp => h0 p fun h => hp.2 ⟨h, hp.1⟩).symm

/-- the line integral of a field with both components continuously differentiable and vanishing off the star -/
theorem visible_cube {F1 F1x F1y F2 F2x F2y : ℝ → ℝ → ℝ} (C1 : ChainC1 F1 F1x F1y) (C2 : ChainC1 F2 F2x F2y)
    (z1 : ∀ x y, 1 - x ^ 2 - y ^ 2 ≤ 0 → F1 x y = 0 ∧ F2 x y = 0 ∧ F1y x y = 0 ∧ F2x x y = 0) (f : ℝ × ℝ → ℝ) (hf : Continuous f)
    (hff : ∀ x y : ℝ, x ^ 2 + y ^ 2 < 1 → f (x, y) = F2x x y - F1y x y)
    {b r : ℝ} (hb : 0 ≤ b) (hr : 0 ≤ r) (hne : ¬ (b = 0 ∧ r = 1)) :
    let G : ℝ → ℝ → ℝ × ℝ := fun x y => (F1 x y, F2 x y)
    ∫ p in stellarDisc \ occultorY b r, f p =
      arcIntegral G 0 0 1 (π - (π / 2 - (kappas b r).2)) (2 * π + (π / 2 - (kappas b r).2)) -
        arcIntegral G 0 b r (-(π / 2) - (kappas b r).1) (-(π / 2) + (kappas b r).1) := by
  intro G
  have cont1 : Continuous fun p : ℝ × ℝ => F1 p.1 p.2 := C1.contF
  have cont2 : Continuous fun p : ℝ × ℝ => F2 p.1 p.2 := C2.contF
  have c1y : Continuous fun p : ℝ × ℝ => F1y p.1 p.2 := C1.contY
  have c2x : Continuous fun p : ℝ × ℝ => F2x p.1 p.2 := C2.contX
  have hlimb : limbLine G = fun _ => 0 := by
    funext θ
    obtain ⟨a1, a2, _, _⟩ := z1 (cos θ) (sin θ) (by linarith [sin_sq_add_cos_sq θ])
    simp [limbLine, G, a1, a2]
  have hocc : ∀ b r : ℝ, Continuous (occLine G b r) := by
    intro b r
    have e1 : Continuous fun φ : ℝ => F1 (r * sin φ) (b - r * cos φ) :=
      cont1.comp (by fun_prop : Continuous fun φ : ℝ => (r * sin φ, b - r * cos φ))
    have e2 : Continuous fun φ : ℝ => F2 (r * sin φ) (b - r * cos φ) :=
      cont2.comp (by fun_prop : Continuous fun φ : ℝ => (r * sin φ, b - r * cos φ))
    unfold occLine
    simp only [G]
    fun_prop
  have hid : ∀ b r : ℝ, 0 ≤ r → ∫ p in stellarDisc ∩ occultorY b r, f p = ∫ φ in (-π)..π, occLine G b r φ := by
    intro b r hr
    rw [occultorY_inter (f := fun p => F2x p.1 p.2 - F1y p.1 p.2) b r]
    · have e1 : Continuous fun φ : ℝ => F1 (r * sin φ) (b - r * cos φ) :=
        cont1.comp (by fun_prop : Continuous fun φ : ℝ => (r * sin φ, b - r * cos φ))
      have e2 : Continuous fun φ : ℝ => F2 (r * sin φ) (b - r * cos φ) :=
        cont2.comp (by fun_prop : Continuous fun φ : ℝ => (r * sin φ, b - r * cos φ))
      have i1 : IntegrableOn (fun p : ℝ × ℝ => F2x p.1 p.2) (occultorY b r) := by
        exact c2x.continuousOn.integrableOn_compact (isCompact_occultorY b r)
      have i2 : IntegrableOn (fun p : ℝ × ℝ => F1y p.1 p.2) (occultorY b r) := by
        exact c1y.continuousOn.integrableOn_compact (isCompact_occultorY b r)
      rw [MeasureTheory.integral_sub i1 i2, green_x C2 b hr, green_y C1 b hr, sub_neg_eq_add, ← intervalIntegral.integral_add]
      · refine integral_congr fun φ _ => ?_
        simp only [occLine, G]
        ring
      · apply Continuous.intervalIntegrable; fun_prop
      · apply Continuous.intervalIntegrable; fun_prop
    · filter_upwards [ae_mu_pos] with p hp hps
      have := hp hps
      have h2 : 0 < 1 - p.1 ^ 2 - p.2 ^ 2 := by
        unfold mu at this
        exact Real.sqrt_pos.1 this
      exact hff p.1 p.2 (by linarith)
    · intro p hp
      rw [mem_star, not_le] at hp
      obtain ⟨_, _, a1, a2⟩ := z1 p.1 p.2 hp.le
      simp [a1, a2]
  refine visible_of G f hf (by rw [hlimb]; fun_prop) ?_ hb hr ?_ hne
  · have := hid 0 1 zero_le_one
    rw [← star_eqY, inter_self] at this
    rw [this, whole_of]
  · intro h1 h2
    rw [hid b r hr, restrict_arc hb hr h1 h2 (hocc b r), hlimb]
    · simp
    · intro φ hw
      obtain ⟨a1, a2, _, _⟩ := z1 (r * sin φ) (b - r * cos φ) (by rw [w_occ]; exact hw)
      simp [occLine, G, a1, a2]

end Jaxoplanet.Starry
