import Verif.Proofs.LimbRate
import Verif.Props.SurfaceConverge

/-!
# A rate of convergence for the line integrals along the edge of the occultor
-/

namespace Jaxoplanet.Starry
open _root_.Jaxoplanet.Starry.Spec _root_.Jaxoplanet.Spec _root_.Jaxoplanet.Green _root_.Jaxoplanet.LimbDark _root_.Jaxoplanet.Gauss
open Real MeasureTheory

/-- a function of the size `c Dⁿ` with a Lipschitz constant `c n Dⁿ` -/
def DL (D c : ℝ) (n : ℕ) (f : ℝ → ℝ) : Prop :=
  (∀ φ, |f φ| ≤ c * D ^ n) ∧ ∀ φ φ', |f φ - f φ'| ≤ c * n * D ^ n * |φ - φ'|

theorem DL.mul {D c c' : ℝ} {m n : ℕ} {f g : ℝ → ℝ} (hf : DL D c m f) (hg : DL D c' n g) : DL D (c * c') (m + n) fun φ => f φ * g φ := by
  refine ⟨fun φ => ?_, fun φ φ' => ?_⟩
  · rw [abs_mul, pow_add]
    refine (mul_le_mul (hf.1 φ) (hg.1 φ) (abs_nonneg _) ((abs_nonneg _).trans (hf.1 φ))).trans (le_of_eq (by ring))
  · refine (lip_mul (hf.1 φ) (hg.1 φ') (hf.2 φ φ') (hg.2 φ φ')).trans (le_of_eq ?_)
    push_cast
    ring

theorem DL.pow {D : ℝ} {f : ℝ → ℝ} (hf : DL D 1 1 f) (n : ℕ) : DL D 1 n fun φ => f φ ^ n := by
  induction n with
  | zero => exact ⟨fun φ => by simp, fun φ φ' => by simp⟩
  | succ n ih =>
    have := ih.mul hf
    simpa only [pow_succ, mul_one] using this

theorem DL.mono {D c : ℝ} {m n : ℕ} {f : ℝ → ℝ} (hD : 1 ≤ D) (hc : 0 ≤ c) (hf : DL D c m f) (h : m ≤ n) : DL D c n f := by
  have hp : D ^ m ≤ D ^ n := pow_le_pow_right₀ hD h
  have hn : (m : ℝ) ≤ n := by exact_mod_cast h
  refine ⟨fun φ => (hf.1 φ).trans (mul_le_mul_of_nonneg_left hp hc), fun φ φ' => (hf.2 φ φ').trans (mul_le_mul_of_nonneg_right ?_ (abs_nonneg _))⟩
  have : 0 ≤ D ^ m := by positivity
  gcongr

theorem DL.neg {D c : ℝ} {n : ℕ} {f : ℝ → ℝ} (hf : DL D c n f) : DL D c n fun φ => -f φ :=
  ⟨fun φ => by rw [abs_neg]; exact hf.1 φ, fun φ φ' => by rw [neg_sub_neg, abs_sub_comm]; exact hf.2 φ φ'⟩

theorem DL.add {D c c' : ℝ} {n : ℕ} {f g : ℝ → ℝ} (hf : DL D c n f) (hg : DL D c' n g) : DL D (c + c') n fun φ => f φ + g φ := by
  refine ⟨fun φ => (abs_add_le _ _).trans ?_, fun φ φ' => ?_⟩
  · have := add_le_add (hf.1 φ) (hg.1 φ)
    linarith
  · rw [add_sub_add_comm]
    have := add_le_add (hf.2 φ φ') (hg.2 φ φ')
    refine (abs_add_le _ _).trans (this.trans (le_of_eq (by ring)))

section
variable {D b r : ℝ} (hD : 1 ≤ D) (hb : 0 ≤ b) (hr : 0 ≤ r) (hbr : b + r ≤ D)
include hD hb hr hbr

theorem dl_sin : DL D 1 1 fun φ => r * sin φ := by
  refine ⟨fun φ => ?_, fun φ φ' => ?_⟩
  · rw [abs_mul, abs_of_nonneg hr, one_mul, pow_one]
    exact (mul_le_of_le_one_right hr (abs_sin_le_one φ)).trans (by linarith)
  · rw [← mul_sub, abs_mul, abs_of_nonneg hr]
    have := Real.abs_sin_sub_sin_le φ φ'
    simp only [Nat.cast_one, one_mul, pow_one]
    exact mul_le_mul (by linarith) this (abs_nonneg _) (by linarith)

theorem dl_cos : DL D 1 1 fun φ => r * cos φ := by
  refine ⟨fun φ => ?_, fun φ φ' => ?_⟩
  · rw [abs_mul, abs_of_nonneg hr, one_mul, pow_one]
    exact (mul_le_of_le_one_right hr (abs_cos_le_one φ)).trans (by linarith)
  · rw [← mul_sub, abs_mul, abs_of_nonneg hr]
    simp only [Nat.cast_one, one_mul, pow_one]
    exact mul_le_mul (by linarith) (cos_lip φ φ') (abs_nonneg _) (by linarith)

theorem dl_y : DL D 1 1 fun φ => b - r * cos φ := by
  have h := dl_cos hD hb hr hbr
  refine ⟨fun φ => ?_, fun φ φ' => ?_⟩
  · have : |r * cos φ| ≤ r := by
      rw [abs_mul, abs_of_nonneg hr]; exact mul_le_of_le_one_right hr (abs_cos_le_one φ)
    rw [one_mul, pow_one]
    refine (abs_sub _ _).trans ?_
    rw [abs_of_nonneg hb]; linarith
  · rw [sub_sub_sub_cancel_left, abs_sub_comm]
    exact h.2 φ φ'

omit hD hb hr hbr in
theorem z_sq (φ : ℝ) : √(1 - (r * sin φ) ^ 2 - (b - r * cos φ) ^ 2) = √(max (w b r φ) 0) := by
  have e : 1 - (r * sin φ) ^ 2 - (b - r * cos φ) ^ 2 = w b r φ := by
    unfold w
    linear_combination (-r ^ 2) * sin_sq_add_cos_sq φ
  rw [e]
  rcases le_total 0 (w b r φ) with h | h
  · rw [max_eq_left h]
  · rw [max_eq_right h, sqrt_eq_zero_of_nonpos h, sqrt_zero]

omit hD hbr in
theorem max_w_le (φ : ℝ) : max (w b r φ) 0 ≤ 1 := by
  refine max_le ?_ zero_le_one
  unfold w
  nlinarith [cos_le_one φ, sq_nonneg (b - r), mul_nonneg hb hr]

theorem max_w_lip (φ φ' : ℝ) : |max (w b r φ) 0 - max (w b r φ') 0| ≤ 2 * D ^ 2 * |φ - φ'| := by
  refine (abs_max_sub_max_le_abs _ _ _).trans ?_
  have : w b r φ - w b r φ' = 2 * (b * r) * (cos φ - cos φ') := by unfold w; ring
  have h0 : 0 ≤ b * r := mul_nonneg hb hr
  have h1 : b * r ≤ D ^ 2 := by nlinarith
  rw [this, abs_mul, abs_of_nonneg (by positivity)]
  exact mul_le_mul (by linarith) (cos_lip _ _) (abs_nonneg _) (by positivity)

theorem dl_z3 : DL D 1 6 fun φ => √(1 - (r * sin φ) ^ 2 - (b - r * cos φ) ^ 2) ^ 3 := by
  have h26 : D ^ 2 ≤ D ^ 6 := pow_le_pow_right₀ hD (by norm_num)
  refine ⟨fun φ => ?_, fun φ φ' => ?_⟩
  · beta_reduce
    rw [z_sq, abs_of_nonneg (by positivity), one_mul]
    refine (pow_le_one₀ (sqrt_nonneg _) ?_).trans (one_le_pow₀ hD)
    rw [sqrt_le_one]
    exact max_w_le hb hr φ
  · beta_reduce
    rw [z_sq, z_sq]
    refine (sqrt_pow_lipschitz (le_max_right _ _) (max_w_le hb hr _) (le_max_right _ _) (max_w_le hb hr _) 3 (by norm_num)).trans ?_
    have h := max_w_lip hD hb hr hbr φ φ'
    have := mul_le_mul_of_nonneg_right h26 (abs_nonneg (φ - φ'))
    push_cast
    linarith

theorem dl_frac : DL D 1 2 fun φ => (1 + √(1 - (r * sin φ) ^ 2 - (b - r * cos φ) ^ 2) + √(1 - (r * sin φ) ^ 2 - (b - r * cos φ) ^ 2) ^ 2) /
    (3 * (1 + √(1 - (r * sin φ) ^ 2 - (b - r * cos φ) ^ 2))) := by
  refine ⟨fun φ => ?_, fun φ φ' => ?_⟩
  · beta_reduce
    rw [z_sq]
    have h0 := sqrt_nonneg (max (w b r φ) 0)
    have h1 : √(max (w b r φ) 0) ≤ 1 := by rw [sqrt_le_one]; exact max_w_le hb hr φ
    rw [abs_of_nonneg (by positivity), one_mul]
    exact (slope_bound h0 h1).trans ((by norm_num : (1 / 2 : ℝ) ≤ 1).trans (one_le_pow₀ hD))
  · beta_reduce
    rw [z_sq, z_sq]
    refine (frac_lip (sqrt_nonneg _) (sqrt_nonneg _)).trans ?_
    rw [sq_sqrt (le_max_right _ _), sq_sqrt (le_max_right _ _)]
    have h := max_w_lip hD hb hr hbr φ φ'
    push_cast
    linarith

theorem dl_occLine (l q : ℕ) (hq : q ≤ 2 * l) : DL D 2 (l + 5) (occLine (greenField (2 * l - q) q) b r) := by
  have s := dl_sin hD hb hr hbr
  have c := dl_cos hD hb hr hbr
  have y := dl_y hD hb hr hbr
  have z3 := dl_z3 hD hb hr hbr
  have fr := dl_frac hD hb hr hbr
  have one : ∀ {n : ℕ} {f : ℝ → ℝ}, DL D 1 n f → n ≤ l + 5 → DL D 2 (l + 5) f := fun h hn => by
    have h := h.mono hD zero_le_one hn
    have hp : 0 ≤ D ^ (l + 5) := by positivity
    refine ⟨fun φ => (h.1 φ).trans (by linarith), fun φ φ' => (h.2 φ φ').trans (mul_le_mul_of_nonneg_right ?_ (abs_nonneg _))⟩
    have : 0 ≤ ((l + 5 : ℕ) : ℝ) * D ^ (l + 5) := by positivity
    linarith
  unfold occLine greenField
  simp only
  by_cases h0 : q % 2 = 0
  · simp only [h0, if_true, zero_mul, zero_add]
    have := ((s.pow ((2 * l - q + 2) / 2)).mul (y.pow (q / 2))).mul s
    simp only [mul_one] at this
    exact one this (by omega)
  simp only [h0, if_false]
  by_cases h1 : 2 * l - q = 1 ∧ q = 1
  · simp only [if_pos h1]
    have t1 := ((fr.neg.mul y).mul c)
    have t2 := ((fr.mul s).mul s)
    have := (t1.add t2).mono hD (by norm_num) (show 2 + 1 + 1 ≤ l + 5 by omega)
    simpa only [mul_one, neg_div, one_add_one_eq_two] using this
  simp only [if_neg h1]
  by_cases h2 : 2 * l - q = 1 ∧ (2 * l - q + q) / 2 % 2 = 0
  · simp only [if_pos h2, zero_mul, add_zero]
    have := ((s.pow ((2 * l - q + q) / 2 - 2)).mul z3).mul c
    simp only [mul_one] at this
    exact one this (by omega)
  simp only [if_neg h2]
  by_cases h3 : 2 * l - q = 1
  · simp only [if_pos h3, zero_mul, add_zero]
    have := (((s.pow ((2 * l - q + q) / 2 - 3)).mul y).mul z3).mul c
    simp only [mul_one] at this
    exact one this (by omega)
  · simp only [if_neg h3, zero_mul, zero_add]
    have := (((s.pow ((2 * l - q - 3) / 2)).mul (y.pow ((q - 1) / 2))).mul z3).mul s
    simp only [mul_one] at this
    exact one this (by omega)

/-- the line element of both points of the edge at an angle -/
theorem edgePair_lip (l q : ℕ) (hq : q ≤ 2 * l) (φ φ' : ℝ) :
    |edgePair (greenField (2 * l - q) q) b r φ - edgePair (greenField (2 * l - q) q) b r φ'| ≤ 4 * (l + 5) * D ^ (l + 5) * |φ - φ'| := by
  have h := dl_occLine hD hb hr hbr l q hq
  have e : ∀ φ, edgePair (greenField (2 * l - q) q) b r φ = occLine (greenField (2 * l - q) q) b r φ + occLine (greenField (2 * l - q) q) b r (-φ) := fun φ => rfl
  rw [e, e, add_sub_add_comm]
  have h1 := h.2 φ φ'
  have h2 := h.2 (-φ) (-φ')
  rw [show -φ - -φ' = -(φ - φ') by ring, abs_neg] at h2
  refine (abs_add_le _ _).trans ((add_le_add h1 h2).trans (le_of_eq ?_))
  push_cast
  ring

/-- the error of the Gauss-Legendre rule along the edge, at any order -/
theorem edgeError_rate {n : ℕ} (hn : 0 < n) {rule : List (ℝ × ℝ)} (h : IsGaussLegendre n rule) {κ : ℝ} (h0 : 0 ≤ κ) (hκ : κ ≤ π) (l q : ℕ)
    (hq : q ≤ 2 * l) : |edgeError rule b r κ l q| ≤ π ^ 2 * (4 * (l + 5) * D ^ (l + 5)) / √((2 * n - 1 : ℕ) : ℝ) := by
  have := arc_rate h hn h0 hκ (by positivity) (edgePair_lip hD hb hr hbr l q hq)
  unfold edgeError
  simp only
  rwa [mul_sub, scaled_integral]

end

end Jaxoplanet.Starry
