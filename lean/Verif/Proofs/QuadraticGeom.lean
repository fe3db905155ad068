import Verif.Proofs.S0Float
import Verif.Model.QuadraticFloat

/-! The geometry of the computed light curve of a limb-darkened star: the errors of the kite area and of the two angles. -/

namespace Jaxoplanet.LimbDarkFloat

open Real KeplerFloat LimbDark

/-- the kite area -/
noncomputable def area0 (b r : ℝ) : ℝ := √(max 0 (heron b r))

/-- the angle at the occultor -/
noncomputable def angle0 (b r : ℝ) : ℝ := arctan2 (area0 b r) (b ^ 2 + r ^ 2 - 1)

/-- the angle at the star -/
noncomputable def angle1 (b r : ℝ) : ℝ := arctan2 (area0 b r) (b ^ 2 + 1 - r ^ 2)

theorem area0_nonneg (b r : ℝ) : 0 ≤ area0 b r := sqrt_nonneg _

theorem area0_sq (b r : ℝ) : area0 b r ^ 2 = max 0 (heron b r) := sq_sqrt (le_max_left _ _)

theorem area0_of_nonpos {b r : ℝ} (h : heron b r ≤ 0) : area0 b r = 0 := by
  unfold area0
  rw [max_eq_left h, sqrt_zero]

theorem heron_inside {b r : ℝ} (hb : 0 ≤ b) (hr : 0 ≤ r) (h : b ≤ 1 - r) : heron b r ≤ 0 := by
  unfold heron
  have := mul_nonneg (mul_nonneg (mul_nonneg (by linarith : 0 ≤ r + b + 1) (by linarith : 0 ≤ -r + b + 1)) (by linarith : 0 ≤ r - b + 1))
    (by linarith : 0 ≤ 1 - r - b)
  linarith

theorem heron_outside {b r : ℝ} (hr : 0 ≤ r) (h : 1 + r ≤ b) : heron b r ≤ 0 := by
  unfold heron
  have := mul_nonneg (mul_nonneg (mul_nonneg (by linarith : 0 ≤ r + b + 1) (by linarith : 0 ≤ -r + b + 1)) (by linarith : 0 ≤ b - r - 1))
    (by linarith : 0 ≤ r + b - 1)
  linarith

/-- the exact program computes these -/
theorem kappas_closed {b r : ℝ} (hb : 0 ≤ b) (hr : 0 ≤ r) (hr1 : r ≤ 1 / 2) : LimbDark.kappas b r = (area0 b r, angle0 b r, angle1 b r) := by
  have key : ∀ A : ℝ, A = area0 b r → (A, arctan2 A (b ^ 2 + (r - 1) * (r + 1)), arctan2 A (b ^ 2 - (r - 1) * (r + 1))) =
      (area0 b r, angle0 b r, angle1 b r) := by
    rintro A rfl
    unfold angle0 angle1
    rw [show b ^ 2 + (r - 1) * (r + 1) = b ^ 2 + r ^ 2 - 1 by ring, show b ^ 2 - (r - 1) * (r + 1) = b ^ 2 + 1 - r ^ 2 by ring]
  unfold LimbDark.kappas
  simp only
  split_ifs with h
  · refine key _ ?_
    exact congrArg (fun z => √(max 0 z)) (heron_sort b r prod4 fun _ _ _ => rfl)
  · refine key _ ?_
    rw [abs_of_nonneg (by linarith)] at h
    by_cases h1 : 1 - r < b
    · have : ¬ b < 1 + r := fun h2 => h ⟨h1, h2⟩
      exact (area0_of_nonpos (heron_outside hr (not_lt.1 this))).symm
    · exact (area0_of_nonpos (heron_inside hb hr (not_lt.1 h1))).symm

theorem angle_near {A A' x y d a e : ℝ} (hA : 0 ≤ A) (hA' : 0 ≤ A') (hD : d ^ 2 ≤ A ^ 2 + x ^ 2) (ha : |A' - A| ≤ a)
    (he : |y - x| ≤ e) : |arctan2 A' y - arctan2 A x| * d ≤ π * (a + e) := by
  have h := arg_sub_le (z := ⟨x, A⟩) (w := ⟨y, A'⟩) hA hA'
  rw [norm_mk, abs_sub_comm] at h
  have h1 : d ≤ √(A ^ 2 + x ^ 2) := le_sqrt_of_sq_le hD
  have h2 : ‖(⟨x, A⟩ : ℂ) - ⟨y, A'⟩‖ ≤ a + e := by
    refine (Complex.norm_le_abs_re_add_abs_im _).trans ?_
    simp only [Complex.sub_re, Complex.sub_im]
    rw [abs_sub_comm x, abs_sub_comm A]
    linarith
  exact (mul_le_mul_of_nonneg_left h1 (abs_nonneg _)).trans (h.trans (mul_le_mul_of_nonneg_left h2 pi_pos.le))

/-- rounding an approximate operand -/
theorem near_rnd {u x X y e M : ℝ} (hu0 : 0 ≤ u) (hu : u ≤ 1e-6) (h : Rnd u x y) (hx : |x - X| ≤ e) (hX : |X| ≤ M) :
    |y - X| ≤ 1.001 * e + u * M := by
  have h1 : |y - x| ≤ u * |x| := h
  have h2 := abs_sub_abs_le_abs_sub x X
  have h3 : u * |x| ≤ u * (e + M) := mul_le_mul_of_nonneg_left (by linarith) hu0
  have h4 := abs_sub_le y x X
  have he : 0 ≤ e := (abs_nonneg _).trans hx
  have h5 : u * e ≤ 1e-6 * e := mul_le_mul_of_nonneg_right hu he
  norm_num at h5 ⊢
  linarith

theorem near_zero {u x y M : ℝ} (hu0 : 0 ≤ u) (hu : u ≤ 1e-6) (h : Rnd u x y) (hX : |x| ≤ M) : |y - x| ≤ u * M := by
  have := near_rnd hu0 hu h (e := 0) (X := x) (by rw [sub_self, abs_zero]) hX
  linarith

theorem near_mul {x X y Y e f M N : ℝ} (hx : |x - X| ≤ e) (hy : |y - Y| ≤ f) (hX : |X| ≤ M) (hY : |Y| ≤ N) :
    |x * y - X * Y| ≤ e * N + M * f + e * f := by
  have he : 0 ≤ e := (abs_nonneg _).trans hx
  rw [show x * y - X * Y = (x - X) * Y + X * (y - Y) + (x - X) * (y - Y) by ring]
  refine (abs_add_three _ _ _).trans ?_
  rw [abs_mul, abs_mul, abs_mul]
  exact add_le_add (add_le_add (mul_le_mul hx hY (abs_nonneg _) he) (mul_le_mul hX hy (abs_nonneg _) ((abs_nonneg _).trans hX)))
    (mul_le_mul hx hy (abs_nonneg _) he)

theorem near_add {x X y Y e f : ℝ} (hx : |x - X| ≤ e) (hy : |y - Y| ≤ f) : |x + y - (X + Y)| ≤ e + f := by
  rw [show x + y - (X + Y) = (x - X) + (y - Y) by ring]
  exact (abs_add_le _ _).trans (add_le_add hx hy)

theorem near_sub {x X y Y e f : ℝ} (hx : |x - X| ≤ e) (hy : |y - Y| ≤ f) : |x - y - (X - Y)| ≤ e + f := by
  rw [show x - y - (X - Y) = (x - X) - (y - Y) by ring]
  exact (abs_sub _ _).trans (add_le_add hx hy)

/-- the computed cosines -/
theorem ys_near {u b r op : ℝ} (hu0 : 0 ≤ u) (hu : u ≤ 1e-6) (hb : 0 ≤ b) (hb1 : b ≤ 1.51) (hr : 0 ≤ r) (hr1 : r ≤ 1 / 2)
    (k : KappasRun u b r op) : |k.y1 - (b ^ 2 + 1 - r ^ 2)| ≤ 9 * u ∧ |k.y0 - (b ^ 2 + r ^ 2 - 1)| ≤ 9 * u := by
  have hu4 : u ≤ 1e-4 := hu.trans (by norm_num)
  have hbb : b * b ≤ 2.2801 := by nlinarith
  have hrr : r * r ≤ 1 / 4 := by nlinarith
  have hbb0 : 0 ≤ b * b := mul_self_nonneg b
  have hrr0 : 0 ≤ r * r := mul_self_nonneg r
  have h1 : |k.b2 - b * b| ≤ 2.2801 * u := by
    have := Rnd.sub_abs k.hb2
    rw [abs_of_nonneg hbb0] at this
    nlinarith
  have h2 : |k.factor - (r - 1) * (r + 1)| ≤ 3.1 * u := by
    have := Rnd.sub_abs (factor_rnd hu0 hu4 k)
    have h3 : |(r - 1) * (r + 1)| ≤ 1 := by
      rw [_root_.abs_le]; constructor <;> nlinarith
    nlinarith
  constructor
  · have := near_rnd hu0 hu k.hy1 (near_sub h1 h2) (M := 3.2801) (by rw [_root_.abs_le]; constructor <;> nlinarith)
    rw [show b ^ 2 + 1 - r ^ 2 = b * b - (r - 1) * (r + 1) by ring]
    norm_num at this ⊢
    linarith
  · have := near_rnd hu0 hu k.hy0 (near_add h1 h2) (M := 3) (by rw [_root_.abs_le]; constructor <;> nlinarith)
    rw [show b ^ 2 + r ^ 2 - 1 = b * b + (r - 1) * (r + 1) by ring]
    norm_num at this ⊢
    linarith

/-- the computed kite area, when the program sees an occultation -/
theorem area_near {u τ b r op : ℝ} (hu0 : 0 ≤ u) (hu : u ≤ 1e-6) (hτ0 : 0 ≤ τ) (hτ : u ≤ τ ^ 2) (hb : 0 ≤ b) (hr : 0 ≤ r) (hr1 : r ≤ 1 / 2)
    (hop : Rnd u (1 + r) op) (k : KappasRun u b r op) (hbop : b < op) : 0 ≤ k.area ∧ |k.area - area0 b r| ≤ 34 * τ := by
  have hu4 : u ≤ 1e-4 := hu.trans (by norm_num)
  have hom := Rnd.sub_abs k.hom
  rw [abs_of_nonneg (by linarith : 0 ≤ 1 - r)] at hom
  have homle : |k.om| ≤ (1 + u) * (1 - r) := by
    have := k.hom.abs_le
    rwa [abs_of_nonneg (by linarith : 0 ≤ 1 - r)] at this
  have hople : op ≤ (1 + u) * (1 + r) := hop.le (by linarith)
  norm_num at hu
  have hb1 : b ≤ 1.501 := by norm_num; nlinarith
  have hfrom : ∀ A' : ℝ, 0 ≤ A' → |max 0 (heron b r) - A' ^ 2| ≤ 1156 * u → |A' - area0 b r| ≤ 34 * τ := by
    intro A' hA' h
    refine (abs_sub_le_sqrt hA' (area0_nonneg b r) (e := 1156 * u) ?_).trans ?_
    · rw [area0_sq, abs_sub_comm]
      exact h
    · rw [sqrt_le_left (by positivity)]
      nlinarith
  rw [k.harea]
  split_ifs with hc
  · have hb0 : 0 < b := lt_of_le_of_lt (abs_nonneg _) hc.1
    have hom2 : 1 - r - u * (1 - r) ≤ |k.om| := by
      have := (_root_.abs_le.1 hom).1
      have := le_abs_self k.om
      linarith
    have g2 : |1 - r| ≤ b * (1 + 1.001 * u) := by
      rw [abs_of_nonneg (by linarith)]
      have h1 : (1 - r) * (1 - u) ≤ b := by nlinarith [hc.1]
      have h2 : 1 ≤ (1 - u) * (1 + 1.001 * u) := by norm_num; nlinarith
      have h3 := mul_le_mul_of_nonneg_right h1 (by norm_num; linarith : 0 ≤ 1 + 1.001 * u)
      nlinarith
    have g3 : |1 - r| ≤ 1.001 * b := by
      refine g2.trans ?_
      norm_num
      nlinarith
    have g4 : b ≤ (1 + u) * (1 + r) := hc.2.le.trans hople
    have g5 : b ≤ 1.001 * (1 + r) := by norm_num; nlinarith
    have hb_ : k.b_ = b := by rw [k.hb_, if_pos hc]
    have hS : Sides b (1 + r) (sort3 r k.b_ 1).1 (sort3 r k.b_ 1).2.1 (sort3 r k.b_ 1).2.2 := by
      rw [hb_]; exact sides_of hr hb g3 g5
    have hP : prod4 (sort3 r k.b_ 1).1 (sort3 r k.b_ 1).2.1 (sort3 r k.b_ 1).2.2 = heron b r := by
      rw [hb_]; exact heron_sort b r prod4 fun _ _ _ => rfl
    have hn := heron_ge hu0 hb hr g2 hu4 g4
    obtain ⟨a0, a1, -⟩ := LimbDarkFloat.kite_area hu0 hu4 hS hb (by norm_num at g5 ⊢; linarith) (by rw [hP]; exact hn) k.kite
    rw [hP] at a1
    suffices hE : 210 * u * (1 + r) ^ 3 * b ≤ 1100 * u by
      refine ⟨a0, hfrom _ a0 ?_⟩
      have h1 := a1.trans hE
      rcases le_total 0 (heron b r) with h0 | h0
      · rw [max_eq_right h0]; linarith
      · rw [max_eq_left h0, zero_sub, abs_neg, abs_of_nonneg (sq_nonneg _)]
        have := (_root_.abs_le.1 h1).1
        linarith
    have h3 : (1 + r) ^ 3 ≤ 3.375 := by
      have := pow_le_pow_left₀ (by linarith : 0 ≤ 1 + r) (by linarith : 1 + r ≤ 3 / 2) 3
      norm_num at this ⊢; linarith
    have h4 : (1 + r) ^ 3 * b ≤ 3.375 * 1.501 := mul_le_mul h3 hb1 hb (by norm_num)
    have := mul_le_mul_of_nonneg_left h4 (by positivity : 0 ≤ 210 * u)
    norm_num at this ⊢
    nlinarith
  · refine ⟨le_rfl, hfrom 0 le_rfl ?_⟩
    have hbo : b ≤ |k.om| := by
      by_contra h
      exact hc ⟨not_le.1 h, hbop⟩
    have h5 : b + r - 1 ≤ u := by nlinarith
    rw [zero_pow (by norm_num), sub_zero, abs_of_nonneg (le_max_left _ _)]
    refine max_le (by positivity) ?_
    rcases le_total b (1 - r) with h6 | h6
    · exact (heron_inside hb hr h6).trans (by positivity)
    · rcases le_total (1 + r) b with h7 | h7
      · exact (heron_outside hr h7).trans (by positivity)
      have a1 : (r + b + 1) * (-r + b + 1) ≤ 3 * 3 := mul_le_mul (by linarith) (by linarith) (by linarith) (by norm_num)
      have a2 : (r + b + 1) * (-r + b + 1) * (r - b + 1) ≤ 3 * 3 * 2 :=
        mul_le_mul a1 (by linarith) (by linarith) (by norm_num)
      have a3 : heron b r ≤ 3 * 3 * 2 * u := mul_le_mul a2 (by linarith) (by linarith) (by norm_num)
      linarith

theorem area_sq_ge (b r : ℝ) : heron b r ≤ area0 b r ^ 2 := by
  rw [area0_sq]; exact le_max_right _ _

/-- the computed angles, before the rounding of `arctan2`, when the program sees an occultation -/
theorem angles_near {u τ b r op : ℝ} (hu0 : 0 ≤ u) (hu : u ≤ 1e-6) (hτ0 : 0 ≤ τ) (hτ1 : τ ≤ 1e-3) (hτ : u ≤ τ ^ 2) (hb : 0 ≤ b) (hr : 0 ≤ r)
    (hr1 : r ≤ 1 / 2) (hop : Rnd u (1 + r) op) (k : KappasRun u b r op) (hbop : b < op) :
    r * |arctan2 k.area k.y0 - angle0 b r| ≤ 225 * τ ∧ |arctan2 k.area k.y1 - angle1 b r| ≤ 225 * τ := by
  have hu4 : u ≤ 1e-4 := hu.trans (by norm_num)
  obtain ⟨a0, a1⟩ := area_near hu0 hu hτ0 hτ hb hr hr1 hop k hbop
  have hb1 : b ≤ 1.51 := by
    have := hop.le (by linarith : 0 ≤ 1 + r)
    norm_num at hu ⊢
    nlinarith
  obtain ⟨y1, y0⟩ := ys_near hu0 hu hb hb1 hr hr1 k
  have hπ := pi_lt_d2
  have hp := pi_pos
  have huτ : 9 * u ≤ τ := by
    norm_num at hτ1
    nlinarith
  rcases le_total b (1 / 4) with hb4 | hb4
  · have hA0 : area0 b r = 0 := area0_of_nonpos (heron_inside hb hr (by linarith))
    have hom := Rnd.sub_abs k.hom
    rw [abs_of_nonneg (by linarith : 0 ≤ 1 - r)] at hom
    have hA : k.area = 0 := by
      rw [k.harea, if_neg]
      rintro ⟨h, -⟩
      have := (_root_.abs_le.1 hom).1
      have := le_abs_self k.om
      norm_num at hu
      nlinarith
    have x1 : 1 / 2 ≤ b ^ 2 + 1 - r ^ 2 := by nlinarith
    have x0 : b ^ 2 + r ^ 2 - 1 ≤ -(1 / 2) := by nlinarith
    norm_num at hu
    have hy1 : 0 ≤ k.y1 := by linarith [(_root_.abs_le.1 y1).1]
    have hy0 : k.y0 < 0 := by linarith [(_root_.abs_le.1 y0).2]
    unfold angle0 angle1
    rw [hA0, hA, arctan2_zero_pos hy1, arctan2_zero_pos (by linarith : 0 ≤ b ^ 2 + 1 - r ^ 2), arctan2_zero_neg hy0,
      arctan2_zero_neg (by linarith : b ^ 2 + r ^ 2 - 1 < 0), sub_self, sub_self,
      abs_zero, mul_zero]
    exact ⟨by positivity, by positivity⟩
  · have hpi : π * (34 * τ + 9 * u) ≤ 3.15 * (35 * τ) := mul_le_mul hπ.le (by linarith) (by positivity) (by norm_num)
    have hge := area_sq_ge b r
    have c0 := angle_near (d := 2 * b * r) (area0_nonneg b r) a0 (by nlinarith [heron_x0 b r]) a1 y0
    have c1 := angle_near (d := 2 * b) (area0_nonneg b r) a0 (by nlinarith [heron_x1 b r]) a1 y1
    have e0 := mul_le_mul_of_nonneg_right hb4 (mul_nonneg hr (abs_nonneg (arctan2 k.area k.y0 - angle0 b r)))
    have e1 := mul_le_mul_of_nonneg_right hb4 (abs_nonneg (arctan2 k.area k.y1 - angle1 b r))
    change |arctan2 k.area k.y0 - angle0 b r| * _ ≤ _ at c0
    change |arctan2 k.area k.y1 - angle1 b r| * _ ≤ _ at c1
    norm_num at hpi
    constructor
    · linarith
    · linarith

/-- when the program sees no occultation, the exact geometry is close to none -/
theorem angles_none {u τ b r op : ℝ} (hu0 : 0 ≤ u) (hu : u ≤ 1e-6) (hτ0 : 0 ≤ τ) (hτ1 : τ ≤ 1e-3) (hτ : u ≤ τ ^ 2) (hr : 0 ≤ r)
    (hr1 : r ≤ 1 / 2) (hop : Rnd u (1 + r) op) (hbop : op ≤ b) :
    area0 b r ≤ 10 * τ ∧ r * angle0 b r ≤ 20 * τ ∧ angle1 b r ≤ 20 * τ := by
  have hople := hop.ge (by linarith : 0 ≤ 1 + r)
  have hb : 1 + r - 2 * u ≤ b := by nlinarith
  norm_num at hu
  have hA : area0 b r ≤ 10 * τ := by
    unfold area0
    rw [sqrt_le_left (by positivity)]
    refine max_le (by positivity) ?_
    rcases le_total (1 + r) b with h | h
    · exact (heron_outside hr h).trans (by positivity)
    · rcases le_total b (1 - r) with h7 | h7
      · exact (heron_inside (by linarith) hr h7).trans (by positivity)
      have a1 : (r + b + 1) * (-r + b + 1) ≤ 3 * 3 := mul_le_mul (by linarith) (by linarith) (by linarith) (by norm_num)
      have a2 : (r + b + 1) * (-r + b + 1) * (r - b + 1) ≤ 3 * 3 * (2 * u) := mul_le_mul a1 (by linarith) (by linarith) (by norm_num)
      have a3 : heron b r ≤ 3 * 3 * (2 * u) * 2 := mul_le_mul a2 (by linarith) (by linarith) (by positivity)
      nlinarith
  have hge := area_sq_ge b r
  have hx1 : 0 ≤ b ^ 2 + 1 - r ^ 2 := by nlinarith
  have z1 : arctan2 0 (b ^ 2 + 1 - r ^ 2) = 0 := arctan2_zero_pos hx1
  have hπ := pi_lt_d2
  have hA' : |0 - area0 b r| ≤ area0 b r := by rw [zero_sub, abs_neg, abs_of_nonneg (area0_nonneg b r)]
  have n0 : 0 ≤ angle0 b r := arctan2_nonneg (area0_nonneg b r) _
  have n1 : 0 ≤ angle1 b r := arctan2_nonneg (area0_nonneg b r) _
  have hpa : π * (area0 b r + 0) ≤ 3.15 * (10 * τ) := mul_le_mul hπ.le (by linarith) (by linarith [area0_nonneg b r]) (by norm_num)
  have c1 := angle_near (d := 2 * b) (area0_nonneg b r) le_rfl (by nlinarith [heron_x1 b r]) hA' (le_of_eq (by rw [sub_self, abs_zero]) : |b ^ 2 + 1 - r ^ 2 - (b ^ 2 + 1 - r ^ 2)| ≤ 0)
  rw [z1, zero_sub, abs_neg] at c1
  change |angle1 b r| * _ ≤ _ at c1
  rw [abs_of_nonneg n1] at c1
  have hb0 : 0.99 ≤ b := by norm_num; linarith
  refine ⟨hA, ?_, ?_⟩
  · rcases le_total (b ^ 2 + r ^ 2) 1 with h | h
    · -- only for a tiny occultor
      have hr2 : r ≤ 2 * u := by nlinarith
      have h3 : angle0 b r ≤ 3.15 := (arctan2_le_pi _ _).trans hπ.le
      have := mul_le_mul hr2 h3 n0 (by positivity)
      norm_num at this hτ1
      nlinarith
    · have z0 : arctan2 0 (b ^ 2 + r ^ 2 - 1) = 0 := arctan2_zero_pos (by linarith)
      have c0 := angle_near (d := 2 * b * r) (area0_nonneg b r) le_rfl (by nlinarith [heron_x0 b r]) hA' (le_of_eq (by rw [sub_self, abs_zero]) : |b ^ 2 + r ^ 2 - 1 - (b ^ 2 + r ^ 2 - 1)| ≤ 0)
      rw [z0, zero_sub, abs_neg] at c0
      change |angle0 b r| * _ ≤ _ at c0
      rw [abs_of_nonneg n0] at c0
      have := mul_le_mul_of_nonneg_right hb0 (mul_nonneg hr n0)
      norm_num at this hpa
      linarith
  · have := mul_le_mul_of_nonneg_right hb0 n1
    norm_num at this hpa
    linarith

end Jaxoplanet.LimbDarkFloat
