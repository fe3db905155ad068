import Verif.Model.Basic
import Mathlib.Analysis.Complex.Angle
import Mathlib.Analysis.SpecialFunctions.Trigonometric.ArctanDeriv
import Mathlib.Analysis.SpecialFunctions.Complex.Arg
import Mathlib.Analysis.Calculus.Deriv.MeanValue
import Mathlib.Tactic.Linarith
import Mathlib.Tactic.FieldSimp
import Mathlib.Tactic.Positivity

/-! How `arctan2` reacts to a change of its arguments. -/

namespace Jaxoplanet.LimbDarkFloat

open Real

theorem arctan2_nonneg {A : ℝ} (hA : 0 ≤ A) (x : ℝ) : 0 ≤ arctan2 A x := Complex.arg_nonneg_iff.2 hA

theorem arctan2_le_pi (A x : ℝ) : arctan2 A x ≤ π := Complex.arg_le_pi _

theorem abs_arctan2_sub_le {A A' : ℝ} (hA : 0 ≤ A) (hA' : 0 ≤ A') (x x' : ℝ) : |arctan2 A x - arctan2 A' x'| ≤ π :=
  abs_le.2 ⟨by linarith [arctan2_nonneg hA x, arctan2_le_pi A' x'], by linarith [arctan2_nonneg hA' x', arctan2_le_pi A x]⟩

/-- rounding to the unit circle -/
theorem unit_sub_le {z w : ℂ} (hz : z ≠ 0) (hw : w ≠ 0) : ‖z / (‖z‖ : ℂ) - w / (‖w‖ : ℂ)‖ * ‖z‖ ≤ 2 * ‖z - w‖ := by
  have hz' : 0 < ‖z‖ := norm_pos_iff.2 hz
  have hw' : 0 < ‖w‖ := norm_pos_iff.2 hw
  have hzc : (‖z‖ : ℂ) ≠ 0 := by exact_mod_cast hz'.ne'
  have hwc : (‖w‖ : ℂ) ≠ 0 := by exact_mod_cast hw'.ne'
  have e : (z / (‖z‖ : ℂ) - w / (‖w‖ : ℂ)) * (‖z‖ : ℂ) = (z - w) + w / (‖w‖ : ℂ) * ((‖w‖ : ℂ) - ‖z‖) := by
    field_simp
    ring
  have e1 : ‖z / (‖z‖ : ℂ) - w / (‖w‖ : ℂ)‖ * ‖z‖ = ‖(z - w) + w / (‖w‖ : ℂ) * ((‖w‖ : ℂ) - ‖z‖)‖ := by
    rw [← e, norm_mul, Complex.norm_real, norm_norm]
  rw [e1]
  refine (norm_add_le _ _).trans ?_
  have e2 : ‖w / (‖w‖ : ℂ) * ((‖w‖ : ℂ) - ‖z‖)‖ = |‖w‖ - ‖z‖| := by
    rw [norm_mul, norm_div, Complex.norm_real, norm_norm, div_self hw'.ne', one_mul, ← Complex.ofReal_sub,
      Complex.norm_real, Real.norm_eq_abs]
  rw [e2]
  have := abs_norm_sub_norm_le w z
  rw [norm_sub_rev] at this
  linarith

theorem arg_sub_le {z w : ℂ} (hz : 0 ≤ z.im) (hw : 0 ≤ w.im) : |z.arg - w.arg| * ‖z‖ ≤ π * ‖z - w‖ := by
  have hπ := pi_pos
  rcases eq_or_ne z 0 with rfl | hz0
  · simp; positivity
  rcases eq_or_ne w 0 with rfl | hw0
  · simp only [Complex.arg_zero, sub_zero]
    exact mul_le_mul_of_nonneg_right (Complex.abs_arg_le_pi z) (norm_nonneg _)
  have a0 := Complex.arg_nonneg_iff.2 hz
  have b0 := Complex.arg_nonneg_iff.2 hw
  have a1 := Complex.arg_le_pi z
  have b1 := Complex.arg_le_pi w
  have ez : z / (‖z‖ : ℂ) = Complex.exp (z.arg * Complex.I) := by
    have := Complex.norm_mul_exp_arg_mul_I z
    have h : (‖z‖ : ℂ) ≠ 0 := by exact_mod_cast (norm_pos_iff.2 hz0).ne'
    rw [div_eq_iff h, mul_comm]
    exact this.symm
  have ew : w / (‖w‖ : ℂ) = Complex.exp (w.arg * Complex.I) := by
    have := Complex.norm_mul_exp_arg_mul_I w
    have h : (‖w‖ : ℂ) ≠ 0 := by exact_mod_cast (norm_pos_iff.2 hw0).ne'
    rw [div_eq_iff h, mul_comm]
    exact this.symm
  have key : |z.arg - w.arg| ≤ π / 2 * ‖z / (‖z‖ : ℂ) - w / (‖w‖ : ℂ)‖ := by
    rw [ez, ew]
    have h1 := Complex.angle_le_mul_norm_sub (Complex.norm_exp_ofReal_mul_I z.arg) (Complex.norm_exp_ofReal_mul_I w.arg)
    rcases le_total w.arg z.arg with h | h
    · rw [Complex.angle_exp_exp, (toIocMod_eq_self two_pi_pos).2 ⟨by linarith, by linarith⟩] at h1
      exact h1
    · rw [InnerProductGeometry.angle_comm, Complex.angle_exp_exp,
        (toIocMod_eq_self two_pi_pos).2 ⟨by linarith, by linarith⟩, abs_sub_comm] at h1
      exact h1
  have h2 := mul_le_mul_of_nonneg_right key (norm_nonneg z)
  have h3 := mul_le_mul_of_nonneg_left (unit_sub_le hz0 hw0) (by positivity : 0 ≤ π / 2)
  linarith

theorem norm_mk (x A : ℝ) : ‖(⟨x, A⟩ : ℂ)‖ = √(A ^ 2 + x ^ 2) := by
  rw [Complex.norm_def, Complex.normSq_mk]
  congr 1
  ring

/-- a change of the second argument -/
theorem arctan2_sub_x {A : ℝ} (hA : 0 ≤ A) (x y : ℝ) :
    |arctan2 A y - arctan2 A x| * √(A ^ 2 + x ^ 2) ≤ π * |y - x| := by
  have h := arg_sub_le (z := ⟨x, A⟩) (w := ⟨y, A⟩) hA hA
  rw [norm_mk] at h
  have e : (⟨x, A⟩ - ⟨y, A⟩ : ℂ) = ((x - y : ℝ) : ℂ) := by
    apply Complex.ext <;> simp
  rw [e, Complex.norm_real, Real.norm_eq_abs, abs_sub_comm x y, abs_sub_comm] at h
  exact h

/-- a change of the first argument -/
theorem arctan2_sub_A {A A' : ℝ} (hA : 0 ≤ A) (hA' : 0 ≤ A') (x : ℝ) :
    |arctan2 A' x - arctan2 A x| * √(A ^ 2 + x ^ 2) ≤ π * |A' - A| := by
  have h := arg_sub_le (z := ⟨x, A⟩) (w := ⟨x, A'⟩) hA hA'
  rw [norm_mk] at h
  have e : (⟨x, A⟩ - ⟨x, A'⟩ : ℂ) = ((A - A' : ℝ) : ℂ) * Complex.I := by
    apply Complex.ext <;> simp
  rw [e, norm_mul, Complex.norm_I, mul_one, Complex.norm_real, Real.norm_eq_abs, abs_sub_comm A A', abs_sub_comm] at h
  exact h

/-- `arctan2` above the axis -/
theorem arctan2_eq_arctan {x : ℝ} (hx : x ≠ 0) {A : ℝ} (hA : 0 ≤ A) :
    arctan2 A x = (if x < 0 then π else 0) + arctan (A / x) := by
  have hs : arctan2 A x = if 0 ≤ x then arcsin (A / ‖(⟨x, A⟩ : ℂ)‖) else arcsin (-A / ‖(⟨x, A⟩ : ℂ)‖) + π := by
    unfold arctan2
    rw [Complex.arg]
    simp [hA]
  rw [hs, norm_mk]
  have key : ∀ t : ℝ, 0 < t → ∀ B : ℝ, arcsin (B / √(B ^ 2 + t ^ 2)) = arctan (B / t) := by
    intro t ht B
    rw [arctan_eq_arcsin]
    congr 1
    have : √(1 + (B / t) ^ 2) = √(B ^ 2 + t ^ 2) / t := by
      rw [show 1 + (B / t) ^ 2 = (B ^ 2 + t ^ 2) / t ^ 2 by field_simp; ring, sqrt_div (by positivity), sqrt_sq ht.le]
    rw [this]
    have : 0 < √(B ^ 2 + t ^ 2) := by positivity
    field_simp
  rcases lt_or_gt_of_ne hx with h | h
  · rw [if_neg (not_le.2 h), if_pos h]
    have := key (-x) (by linarith) (-A)
    rw [neg_sq, neg_sq, neg_div_neg_eq] at this
    rw [this]
    ring
  · rw [if_pos h.le, if_neg (not_lt.2 h.le), key x h A, zero_add]

theorem hasDerivAt_lin {x D : ℝ} (hx : x ≠ 0) (a : ℝ) :
    HasDerivAt (fun a => arctan (a / x) - a * x / D) (x / (a ^ 2 + x ^ 2) - x / D) a := by
  have h1 : HasDerivAt (fun a : ℝ => a / x) (1 / x) a := (hasDerivAt_id a).div_const x
  have h2 := h1.arctan
  have h3 : HasDerivAt (fun a : ℝ => a * x / D) (1 * x / D) a := ((hasDerivAt_id a).mul_const x).div_const D
  refine (h2.sub h3).congr_deriv ?_
  have : 0 < a ^ 2 + x ^ 2 := by positivity
  have : 0 < 1 + (a / x) ^ 2 := by positivity
  rw [one_mul]
  congr 1
  field_simp
  ring

theorem lin_aux {x D σ E l h : ℝ} (hx : x ≠ 0) (hD : D = σ + x ^ 2) (hD0 : 0 < D) (hlh : l ≤ h)
    (hE : ∀ a, l ≤ a → a ≤ h → |σ - a ^ 2| ≤ E) :
    |(arctan (h / x) - h * x / D) - (arctan (l / x) - l * x / D)| ≤ E / D * |arctan (h / x) - arctan (l / x)| := by
  have hE0 : 0 ≤ E := (abs_nonneg _).trans (hE l le_rfl hlh)
  have hd : ∀ t, |t| ≤ 1 → MonotoneOn (fun a => E / D * arctan (a / |x|) + t * (arctan (a / x) - a * x / D)) (Set.Icc l h) := by
    intro t ht
    have hx' : |x| ≠ 0 := abs_ne_zero.2 hx
    have hder : ∀ a, HasDerivAt (fun a => E / D * arctan (a / |x|) + t * (arctan (a / x) - a * x / D))
        (E / D * (|x| / (a ^ 2 + x ^ 2)) + t * (x / (a ^ 2 + x ^ 2) - x / D)) a := by
      intro a
      have h1 : HasDerivAt (fun a : ℝ => arctan (a / |x|)) (|x| / (a ^ 2 + x ^ 2)) a := by
        have := hasDerivAt_lin (D := 0) hx' a
        simpa using this
      exact (h1.const_mul _).add ((hasDerivAt_lin hx a).const_mul t)
    refine monotoneOn_of_deriv_nonneg (convex_Icc _ _) (fun a _ => (hder a).continuousAt.continuousWithinAt)
      (fun a _ => (hder a).differentiableAt.differentiableWithinAt) fun a ha => ?_
    rw [interior_Icc] at ha
    rw [(hder a).deriv]
    have p : 0 < a ^ 2 + x ^ 2 := by positivity
    have e : x / (a ^ 2 + x ^ 2) - x / D = x * (σ - a ^ 2) / ((a ^ 2 + x ^ 2) * D) := by
      rw [div_sub_div _ _ p.ne' hD0.ne']
      congr 1
      rw [hD]; ring
    have b : |t * (x / (a ^ 2 + x ^ 2) - x / D)| ≤ E / D * (|x| / (a ^ 2 + x ^ 2)) := by
      rw [e, abs_mul, abs_div, abs_mul, abs_of_pos (mul_pos p hD0)]
      have := hE a ha.1.le ha.2.le
      calc |t| * (|x| * |σ - a ^ 2| / ((a ^ 2 + x ^ 2) * D)) ≤ 1 * (|x| * E / ((a ^ 2 + x ^ 2) * D)) := by
            refine mul_le_mul ht ?_ (by positivity) zero_le_one
            exact div_le_div_of_nonneg_right (mul_le_mul_of_nonneg_left this (abs_nonneg _)) (by positivity)
        _ = _ := by field_simp
    linarith [(abs_le.1 b).1]
  have m1 := hd 1 (by simp) (Set.left_mem_Icc.2 hlh) (Set.right_mem_Icc.2 hlh) hlh
  have m2 := hd (-1) (by simp) (Set.left_mem_Icc.2 hlh) (Set.right_mem_Icc.2 hlh) hlh
  simp only at m1 m2
  have habs : |arctan (h / x) - arctan (l / x)| = arctan (h / |x|) - arctan (l / |x|) := by
    have mono : arctan (l / |x|) ≤ arctan (h / |x|) :=
      arctan_mono (div_le_div_of_nonneg_right hlh (abs_nonneg _))
    rcases lt_or_gt_of_ne hx with h' | h'
    · rw [abs_of_neg h'] at mono ⊢
      rw [div_neg, div_neg, arctan_neg, arctan_neg] at mono ⊢
      rw [abs_of_nonpos (by linarith)]; ring
    · rw [abs_of_pos h'] at mono ⊢
      rw [abs_of_nonneg (by linarith)]
  rw [habs, abs_le]
  constructor <;> linarith

/-- **the first-order effect of the area**: with `D = σ + x²`, moving the first argument from `A0` to `A'` changes the angle
by `(A' - A0) x / D`, up to the deviation of the areas from `√σ` -/
theorem arctan2_lin {x D σ E A0 A' : ℝ} (hD : D = σ + x ^ 2) (hD0 : 0 < D) (h0 : 0 ≤ A0) (h' : 0 ≤ A')
    (e0 : |σ - A0 ^ 2| ≤ E) (e' : |σ - A' ^ 2| ≤ E) :
    |arctan2 A' x - arctan2 A0 x - (A' - A0) * x / D| ≤ E / D * |arctan2 A' x - arctan2 A0 x| := by
  have hE0 : 0 ≤ E := (abs_nonneg _).trans e0
  rcases eq_or_ne x 0 with rfl | hx
  · have hσ : D = σ := by rw [hD]; ring
    rw [mul_zero, zero_div, sub_zero]
    have one : ∀ B : ℝ, 0 < B → arctan2 B 0 = π / 2 := by
      intro B hB
      unfold arctan2
      have : (⟨0, B⟩ : ℂ) = (B : ℂ) * Complex.I := by apply Complex.ext <;> simp
      rw [this, Complex.arg_real_mul _ hB, Complex.arg_I]
    rcases h0.eq_or_lt with q0 | q0
    · have : 1 ≤ E / D := by
        rw [le_div_iff₀ hD0, one_mul, hσ]
        rw [← q0] at e0
        have := (le_abs_self _).trans e0
        linarith
      exact le_mul_of_one_le_left (abs_nonneg _) this
    rcases h'.eq_or_lt with q' | q'
    · have : 1 ≤ E / D := by
        rw [le_div_iff₀ hD0, one_mul, hσ]
        rw [← q'] at e'
        have := (le_abs_self _).trans e'
        linarith
      exact le_mul_of_one_le_left (abs_nonneg _) this
    rw [one _ q0, one _ q', sub_self, abs_zero, mul_zero]
  · have hE : ∀ l h a, 0 ≤ l → l ≤ a → a ≤ h → |σ - l ^ 2| ≤ E → |σ - h ^ 2| ≤ E → |σ - a ^ 2| ≤ E := by
      intro l h a hl h1 h2 hx1 hx2
      have s1 : l ^ 2 ≤ a ^ 2 := pow_le_pow_left₀ hl h1 2
      have s2 : a ^ 2 ≤ h ^ 2 := pow_le_pow_left₀ (hl.trans h1) h2 2
      rw [abs_le] at *
      constructor <;> linarith
    rw [arctan2_eq_arctan hx h0, arctan2_eq_arctan hx h']
    generalize (if x < 0 then π else 0) = c
    rcases le_total A0 A' with hle | hle
    · have := lin_aux hx hD hD0 hle (fun a h1 h2 => hE A0 A' a h0 h1 h2 e0 e')
      rw [show c + arctan (A' / x) - (c + arctan (A0 / x)) - (A' - A0) * x / D =
        (arctan (A' / x) - A' * x / D) - (arctan (A0 / x) - A0 * x / D) by ring,
        show c + arctan (A' / x) - (c + arctan (A0 / x)) = arctan (A' / x) - arctan (A0 / x) by ring]
      exact this
    · have := lin_aux hx hD hD0 hle (fun a h1 h2 => hE A' A0 a h' h1 h2 e' e0)
      rw [show c + arctan (A' / x) - (c + arctan (A0 / x)) - (A' - A0) * x / D =
        -((arctan (A0 / x) - A0 * x / D) - (arctan (A' / x) - A' * x / D)) by ring,
        show c + arctan (A' / x) - (c + arctan (A0 / x)) = -(arctan (A0 / x) - arctan (A' / x)) by ring, abs_neg, abs_neg]
      exact this

end Jaxoplanet.LimbDarkFloat
