import Verif.Proofs.QuadraticGeom
import Verif.Proofs.LimbRate

/-! One value of the computed line integrand. -/

namespace Jaxoplanet.LimbDarkFloat

open Real KeplerFloat LimbDark Spec

/-- `1 - V ^ (3/2)` in terms of the line integrand -/
theorem sqrt_cubes {x y M : ℝ} (hx : 0 ≤ x) (hy : 0 ≤ y) (hxM : √x + √y ≤ M) : |x * √x - y * √y| ≤ M * |x - y| := by
  obtain ⟨a, ha, rfl⟩ : ∃ a, 0 ≤ a ∧ x = a ^ 2 := ⟨√x, sqrt_nonneg _, (sq_sqrt hx).symm⟩
  obtain ⟨b, hb, rfl⟩ : ∃ b, 0 ≤ b ∧ y = b ^ 2 := ⟨√y, sqrt_nonneg _, (sq_sqrt hy).symm⟩
  rw [sqrt_sq ha, sqrt_sq hb] at *
  rw [show a ^ 2 * a - b ^ 2 * b = (a - b) * (a ^ 2 + a * b + b ^ 2) by ring, show a ^ 2 - b ^ 2 = (a - b) * (a + b) by ring, abs_mul, abs_mul,
    abs_of_nonneg (by positivity : 0 ≤ a ^ 2 + a * b + b ^ 2), abs_of_nonneg (by positivity : 0 ≤ a + b)]
  have h1 : a ^ 2 + a * b + b ^ 2 ≤ M * (a + b) := by
    have := mul_le_mul_of_nonneg_right hxM (by positivity : 0 ≤ a + b)
    nlinarith [mul_nonneg ha hb]
  have := mul_le_mul_of_nonneg_left h1 (abs_nonneg (a - b))
  linarith

/-- the computed cosine of a node -/
theorem cos_near {u eps b r b2 r2 kappa κ rng x0 x : ℝ} (hu0 : 0 ≤ u) (hu : u ≤ 1e-6) (hκ0 : 0 ≤ κ) (hκ : κ ≤ π) (hk : Rnd u κ kappa)
    (hrng : Rnd u (0.5 * kappa) rng) (hx : Rnd u x0 x) (hx0 : |x0| ≤ 1) (N : NodeRun u eps b r b2 r2 rng x) :
    |N.c - cos (κ / 2 * (x0 + 1))| ≤ 14 * u := by
  have hπ := pi_lt_d2
  have h1 := near_zero hu0 hu hk (M := 3.15) (by rw [abs_of_nonneg hκ0]; linarith)
  have h2 := near_rnd hu0 hu hrng (X := κ / 2) (e := 1.575 * u) (M := 1.575) (by
    rw [show 0.5 * kappa - κ / 2 = 0.5 * (kappa - κ) by ring, abs_mul, abs_of_nonneg (by norm_num)]; norm_num at h1 ⊢; linarith)
    (by rw [abs_of_nonneg (by positivity)]; norm_num at hπ ⊢; linarith)
  have h3 := near_zero hu0 hu hx hx0
  have hκ2 : |κ / 2| ≤ 1.575 := by rw [abs_of_nonneg (by positivity)]; norm_num at hπ ⊢; linarith
  have h4 := near_rnd hu0 hu N.hphi (near_mul h2 h3 hκ2 hx0) (M := 1.575) (by
    rw [abs_mul]; exact (mul_le_mul hκ2 hx0 (abs_nonneg _) (by norm_num)).trans (by norm_num))
  have h5 := near_rnd hu0 hu N.harg (near_add h4 h2) (M := 3.15) (by
    refine (abs_add_le _ _).trans ?_
    rw [abs_mul]
    have := mul_le_mul hκ2 hx0 (abs_nonneg _) (by norm_num)
    norm_num at this hκ2 ⊢; linarith)
  have h6 := cos_lip N.arg (κ / 2 * x0 + κ / 2)
  have h7 := near_rnd hu0 hu N.hc (h6.trans h5) (abs_cos_le_one _)
  rw [show κ / 2 * (x0 + 1) = κ / 2 * x0 + κ / 2 by ring]
  refine h7.trans ?_
  norm_num at hu ⊢
  have : u * u ≤ 1 / 1000000 * u := mul_le_mul_of_nonneg_right hu hu0
  nlinarith

/-- the computed squared distances, and the factor in front -/
theorem node_dist {u eps b r b2 r2 rng x C : ℝ} (hu0 : 0 ≤ u) (hu : u ≤ 1e-6) (hb : 0 ≤ b) (hb1 : b ≤ 1.51) (hr : 0 ≤ r) (hr1 : r ≤ 1 / 2)
    (e1 : |b2 - b * b| ≤ 2.3 * u) (e2 : |r2 - r * r| ≤ 0.25 * u) (hC : |C| ≤ 1) (N : NodeRun u eps b r b2 r2 rng x) (hc : |N.c - C| ≤ 14 * u) :
    |N.omz2 - (r * r + b * b - 2 * b * r * C)| ≤ 36 * u ∧ |N.z2 - (1 - (r * r + b * b - 2 * b * r * C))| ≤ 40 * u ∧
      |N.n4 - 2 * r * (r - b * C)| ≤ 30 * u := by
  have hbb : b * b ≤ 2.2801 := by
    have := mul_le_mul hb1 hb1 hb (by norm_num)
    norm_num at this ⊢
    exact this
  have hrr : r * r ≤ 1 / 4 := by
    have := mul_le_mul hr1 hr1 hr (by norm_num)
    norm_num at this ⊢
    exact this
  have hbb0 : 0 ≤ b * b := mul_self_nonneg b
  have hrr0 : 0 ≤ r * r := mul_self_nonneg r
  have hu6 := hu
  norm_num at hu6
  have huu : u * u ≤ 1 / 1000000 * u := mul_le_mul_of_nonneg_right hu6 hu0
  obtain ⟨hC1, hC2⟩ := _root_.abs_le.1 hC
  have hQ0 : 0 ≤ r * r + b * b - 2 * b * r * C := by nlinarith [sq_nonneg (r - b), mul_nonneg (mul_nonneg hb hr) (by linarith : 0 ≤ 1 - C)]
  have hbr : 2 * b * r ≤ 1.51 := by
    have := mul_le_mul hb1 hr1 hr (by norm_num)
    norm_num at this ⊢; linarith
  have hbr0 : 0 ≤ 2 * b * r := by positivity
  have hbrC : |2 * b * r * C| ≤ 1.51 := by
    rw [abs_mul, abs_of_nonneg hbr0]
    exact (mul_le_mul hbr hC (abs_nonneg _) (by norm_num)).trans (by norm_num)
  have hQ1 : r * r + b * b - 2 * b * r * C ≤ 4.1 := by
    have := (_root_.abs_le.1 hbrC).1
    norm_num at this hbb ⊢; linarith
  have t1 := near_rnd hu0 hu N.ht1 (near_add e2 e1) (M := 2.6) (by rw [abs_of_nonneg (by positivity)]; norm_num at hbb ⊢; linarith)
  have t2 := near_zero hu0 hu N.ht2 (M := 3.02) (by rw [abs_of_nonneg (by positivity)]; norm_num at hb1 ⊢; linarith)
  have t3 := near_rnd hu0 hu N.ht3 (X := 2 * b * r) (e := 1.51 * u) (M := 1.51) (by
    rw [← sub_mul, abs_mul, abs_of_nonneg hr]
    have := mul_le_mul t2 hr1 hr (by positivity)
    norm_num at this ⊢; linarith) (by rw [abs_of_nonneg hbr0]; exact hbr)
  have t4 := near_rnd hu0 hu N.ht4 (near_mul t3 hc (M := 1.51) (N := 1) (by rw [abs_of_nonneg hbr0]; exact hbr) hC) hbrC
  have t5 := near_rnd hu0 hu N.ht5 (near_sub t1 t4) (M := 4.1) (by rw [abs_of_nonneg hQ0]; exact hQ1)
  have o1 : |N.omz2 - (r * r + b * b - 2 * b * r * C)| ≤ 36 * u := by
    rw [N.homz2]
    have h1 := abs_max_sub_max_le_abs N.t5 (r * r + b * b - 2 * b * r * C) 0
    rw [max_comm, max_comm _ (0 : ℝ), max_eq_right hQ0] at h1
    refine h1.trans (t5.trans ?_)
    norm_num
    nlinarith
  have z1 := near_rnd hu0 hu N.hz2 (near_sub (le_of_eq (by rw [sub_self, abs_zero]) : |(1 : ℝ) - 1| ≤ 0) o1) (M := 3.1) (by
    rw [_root_.abs_le]; norm_num at hQ1 ⊢; constructor <;> linarith)
  have n1 := near_zero hu0 hu N.hn1 (M := 1) (by rw [abs_of_nonneg (by positivity)]; linarith)
  have hbC : |b * C| ≤ 1.51 := by
    rw [abs_mul, abs_of_nonneg hb]
    exact (mul_le_mul hb1 hC (abs_nonneg _) (by norm_num)).trans (by norm_num)
  have n2 := near_rnd hu0 hu N.hn2 (X := b * C) (e := 21.14 * u) (M := 1.51) (by
    rw [← mul_sub, abs_mul, abs_of_nonneg hb]
    have := mul_le_mul hb1 hc (abs_nonneg _) (by norm_num)
    norm_num at this ⊢; linarith) hbC
  have hN : |r - b * C| ≤ 2.01 := by
    refine (abs_sub _ _).trans ?_
    rw [abs_of_nonneg hr]
    norm_num at hbC ⊢; linarith
  have n3 := near_rnd hu0 hu N.hn3 (near_sub (le_of_eq (by rw [sub_self, abs_zero]) : |r - r| ≤ 0) n2) hN
  have n4 := near_rnd hu0 hu N.hn4 (near_mul n1 n3 (M := 1) (N := 2.01) (by rw [abs_of_nonneg (by positivity)]; linarith) hN) (M := 2.01) (by
    rw [abs_mul, abs_of_nonneg (by positivity)]
    exact (mul_le_mul (by linarith : 2 * r ≤ 1) hN (abs_nonneg _) (by norm_num)).trans (by norm_num))
  refine ⟨o1, ?_, ?_⟩
  · norm_num at z1
    linarith
  · refine n4.trans ?_
    norm_num
    nlinarith

theorem arc_facts {b r φ : ℝ} (hr : 0 ≤ r) :
    |arcIntegrand b r 1 φ| ≤ r * |r - b * cos φ| ∧
      arcIntegrand b r 1 φ * (3 * (1 - max 0 (Green.w b r φ))) =
        2 * r * (r - b * cos φ) * (1 - max 0 (Green.w b r φ) * √(max 0 (Green.w b r φ))) := by
  have hw1 : Green.w b r φ ≤ 1 := Green.w_le_one b r φ
  have hz : √(Green.w b r φ) = √(max 0 (Green.w b r φ)) := by
    rcases le_total 0 (Green.w b r φ) with h | h
    · rw [max_eq_right h]
    · rw [max_eq_left h, sqrt_zero, sqrt_eq_zero_of_nonpos h]
  have e : arcIntegrand b r 1 φ = 2 * r * (r - b * cos φ) *
      ((1 + √(max 0 (Green.w b r φ)) + √(max 0 (Green.w b r φ)) ^ 2) / (3 * (1 + √(max 0 (Green.w b r φ))))) := by
    rw [← hz]; simp [arcIntegrand, Green.w]
  have hV0 : 0 ≤ max 0 (Green.w b r φ) := le_max_left _ _
  have hV1 : max 0 (Green.w b r φ) ≤ 1 := max_le zero_le_one hw1
  rw [e]
  generalize max 0 (Green.w b r φ) = V at hV0 hV1
  obtain ⟨z, hz0, rfl⟩ : ∃ z, 0 ≤ z ∧ V = z ^ 2 := ⟨√V, sqrt_nonneg _, (sq_sqrt hV0).symm⟩
  rw [sqrt_sq hz0]
  have hz1 : z ≤ 1 := by nlinarith
  constructor
  · rw [abs_mul, abs_mul, abs_of_nonneg (by positivity : 0 ≤ 2 * r), abs_of_nonneg (by positivity : 0 ≤ (1 + z + z ^ 2) / (3 * (1 + z)))]
    have h1 : (1 + z + z ^ 2) / (3 * (1 + z)) ≤ 1 / 2 := by
      rw [div_le_div_iff₀ (by positivity) (by norm_num)]
      nlinarith
    have := mul_le_mul_of_nonneg_left h1 (by positivity : 0 ≤ 2 * r * |r - b * cos φ|)
    linarith
  · field_simp
    ring

theorem div_rnd {u F n6 X n7 res : ℝ} (hu0 : 0 ≤ u) (hu : u ≤ 1e-6) (h6 : Rnd u F n6) (h7 : Rnd u X n7) (h : Rnd u (n6 / n7) res) :
    Rnd (3.1 * u) (F / X) res := by
  norm_num at hu
  have h8 := (h6.div0 h7 hu0 hu0 (by linarith)).mono (ε' := 2.01 * u) (by
    rw [div_le_iff₀ (by linarith)]
    norm_num
    nlinarith)
  refine (h8.trans h (by positivity) hu0).mono ?_
  norm_num
  nlinarith

theorem near_div {u F X G res e : ℝ} (hu0 : 0 ≤ u) (hu : u ≤ 1e-6) (hX : 0 < X) (h : Rnd (3.1 * u) (F / X) res) (hF : |F - G * X| ≤ e * X)
    (hG : |G| ≤ 1.1) (he : e ≤ 0.1) : |res - G| ≤ e + 4 * u := by
  have h1 : |F / X - G| ≤ e := by
    rw [show F / X - G = (F - G * X) / X by field_simp, abs_div, abs_of_pos hX, div_le_iff₀ hX]
    exact hF
  have h2 := abs_sub_abs_le_abs_sub (F / X) G
  have h3 : |res - F / X| ≤ 3.1 * u * |F / X| := h
  have h4 : 3.1 * u * |F / X| ≤ 3.1 * u * 1.2 := mul_le_mul_of_nonneg_left (by norm_num at *; linarith) (by positivity)
  have h5 := abs_sub_le res (F / X) G
  norm_num at h3 h4
  linarith

/-- the value of the root and of the power, where the limb guard does not fire -/
theorem cube_near {u z2 sq z3 V n5 : ℝ} (hu0 : 0 ≤ u) (hu : u ≤ 1e-6) (hz0 : 0 ≤ z2) (hz1 : z2 ≤ 1.001) (hV0 : 0 ≤ V) (hV1 : V ≤ 1)
    (hVz : |z2 - V| ≤ 40 * u) (s1 : Rnd u (√z2) sq) (s2 : Rnd u (z2 * sq) z3) (s3 : Rnd u (1 - z3) n5) :
    |n5 - (1 - V * √V)| ≤ 84 * u ∧ 0 ≤ 1 - V * √V ∧ 1 - V * √V ≤ 1.5 * (1 - V) := by
  have hsV : √V ≤ 1 := sqrt_le_one.2 hV1
  have hsz : √z2 ≤ 1.001 := by
    rw [sqrt_le_left (by norm_num)]
    norm_num at hz1 ⊢
    linarith
  have c1 := sqrt_cubes hz0 hV0 (M := 2.01) (by norm_num at hsz ⊢; linarith)
  have c2 : |z2 * sq - z2 * √z2| ≤ 1.1 * u := by
    rw [← mul_sub, abs_mul, abs_of_nonneg hz0]
    have h1 : |sq - √z2| ≤ u * √z2 := by
      have := Rnd.sub_abs s1
      rwa [abs_of_nonneg (sqrt_nonneg _)] at this
    have h2 : |sq - √z2| ≤ u * 1.001 := h1.trans (mul_le_mul_of_nonneg_left hsz hu0)
    have h3 := mul_le_mul hz1 h2 (abs_nonneg _) (by norm_num)
    norm_num at h3 ⊢
    linarith
  have c3 : |z2 * sq - V * √V| ≤ 81.6 * u := by
    have h1 := abs_sub_le (z2 * sq) (z2 * √z2) (V * √V)
    have h2 := mul_le_mul_of_nonneg_left hVz (by norm_num : (0 : ℝ) ≤ 2.01)
    norm_num at h2 c1 c2 ⊢
    linarith
  have hVV : V * √V ≤ 1 := by
    have := mul_le_mul hV1 hsV (sqrt_nonneg _) zero_le_one
    linarith
  have hVV0 : 0 ≤ V * √V := by positivity
  have c4 := near_rnd hu0 hu s2 c3 (M := 1) (by rw [abs_of_nonneg hVV0]; exact hVV)
  have c5 := near_rnd hu0 hu s3 (near_sub (le_of_eq (by rw [sub_self, abs_zero]) : |(1 : ℝ) - 1| ≤ 0) c4) (M := 1) (by
    rw [abs_of_nonneg (by linarith)]; linarith)
  refine ⟨c5.trans (by norm_num; linarith), by linarith, ?_⟩
  clear c1 c2 c3 c4 c5 hVz
  have h2 := sq_sqrt hV0
  have h3 := sqrt_nonneg V
  generalize √V = y at *
  rw [← h2]
  norm_num
  nlinarith [mul_nonneg (mul_nonneg h3 h3) (by linarith : 0 ≤ 1 - y), mul_nonneg h3 (by linarith : 0 ≤ 1 - y), sq_nonneg (1 - y)]

theorem u_dist {u eps τ D O Q : ℝ} (hu0 : 0 ≤ u) (hue : u ≤ eps) (hτ0 : 0 ≤ τ) (hτ : τ ^ 2 = eps) (hO : 10 * eps ≤ O) (hO0 : 0 < O) (hD : D ^ 2 ≤ Q)
    (hQ : Q ≤ O + 36 * u) : u * |D| ≤ 0.7 * τ * O := by
  refine abs_le_of_sq_le_sq' ?_ (by positivity) |>.2
  have he : 0 ≤ eps := hu0.trans hue
  rw [mul_pow, mul_pow, mul_pow, sq_abs, hτ]
  have h1 : D ^ 2 ≤ 4.6 * O := by norm_num; linarith
  have h2 : u ^ 2 ≤ eps ^ 2 := pow_le_pow_left₀ hu0 hue 2
  have h3 : u ^ 2 * D ^ 2 ≤ eps ^ 2 * (4.6 * O) := mul_le_mul h2 h1 (sq_nonneg _) (sq_nonneg _)
  have h4 := mul_le_mul_of_nonneg_left hO (mul_nonneg he hO0.le)
  have h5 : 0 ≤ eps ^ 2 * O := by positivity
  norm_num at h3 ⊢
  linarith

/-- the computed value, where no guard fires -/
theorem regular_value {u eps τ D O Q V G n4 n5 r : ℝ} (hu0 : 0 ≤ u) (hue : u ≤ eps) (hτ0 : 0 ≤ τ) (hτ : τ ^ 2 = eps) (huτ : u ≤ 1 / 1000 * τ)
    (hO : 10 * eps ≤ O) (hO0 : 0 < O) (hD : D ^ 2 ≤ Q) (hQ : Q ≤ O + 36 * u) (hG : |G| ≤ 1 / 2 * |D|) (h2rD : |2 * r * D| ≤ |D|)
    (hE0 : 0 ≤ 1 - V * √V) (hE : 1 - V * √V ≤ 1.5 * (1 - V)) (hVO : |1 - V - O| ≤ 36 * u) (A : G * (3 * (1 - V)) = 2 * r * D * (1 - V * √V))
    (h4 : |n4 - 2 * r * D| ≤ 30 * u) (h5 : |n5 - (1 - V * √V)| ≤ 84 * u) : |n4 * n5 - G * (3 * O)| ≤ 33 * τ * (3 * O) := by
  have hF := near_mul h4 h5 h2rD (by rw [abs_of_nonneg hE0] : |1 - V * √V| ≤ 1 - V * √V)
  have huD := u_dist hu0 hue hτ0 hτ hO hO0 hD hQ
  have huu : u * u ≤ u * (O / 10) := mul_le_mul_of_nonneg_left (by linarith) hu0
  have hE2 : 1 - V * √V ≤ 1.5 * (O + 36 * u) := by
    have := (_root_.abs_le.1 hVO).2
    norm_num at hE ⊢
    linarith
  have huE : u * (1 - V * √V) ≤ u * (1.5 * (O + 36 * u)) := mul_le_mul_of_nonneg_left hE2 hu0
  have huτ' : u * O ≤ 1 / 1000 * τ * O := mul_le_mul_of_nonneg_right huτ hO0.le
  rw [show n4 * n5 - G * (3 * O) = (n4 * n5 - 2 * r * D * (1 - V * √V)) + G * 3 * (1 - V - O) by rw [← A]; ring]
  refine (abs_add_le _ _).trans ?_
  have h1 : |G * 3 * (1 - V - O)| ≤ 1 / 2 * |D| * 3 * (36 * u) := by
    rw [abs_mul, abs_mul, abs_of_pos (by norm_num : (0 : ℝ) < 3)]
    exact mul_le_mul (mul_le_mul_of_nonneg_right hG (by norm_num)) hVO (abs_nonneg _) (by positivity)
  norm_num at huD huE
  have h6 : 0 ≤ τ * O := by positivity
  linarith

/-- the computed value, where the limb guard fires -/
theorem limb_value {u n4 z3 n5 O sq : ℝ} (hu0 : 0 ≤ u) (hu : u ≤ 1e-6) (s1 : Rnd u 1 sq) (s2 : Rnd u sq z3) (s3 : Rnd u (1 - z3) n5) (hn4 : |n4| ≤ 2.1)
    (hO : 0.99 ≤ O) : |n4 * n5 - 0 * (3 * O)| ≤ 2 * u * (3 * O) := by
  have s3' := near_zero hu0 hu s1 (M := 1) (by rw [abs_one])
  have s4 := near_rnd hu0 hu s2 s3' (M := 1) (by rw [abs_one])
  have s5 := near_rnd hu0 hu s3 (X := 0) (e := 2.01 * u) (M := 0) (by
    rw [sub_zero, abs_sub_comm]; norm_num at s4 ⊢; linarith) (by rw [abs_zero])
  rw [sub_zero] at s5
  rw [zero_mul, sub_zero, abs_mul]
  have h1 := mul_le_mul hn4 s5 (abs_nonneg _) (by norm_num)
  have h2 := mul_le_mul_of_nonneg_left hO (by positivity : 0 ≤ 2 * u * 3)
  norm_num at h1 h2
  linarith

/-- one value of the computed line integrand -/
theorem node_value {u eps τ η b r b2 r2 rng x φ : ℝ} (hu0 : 0 ≤ u) (heps : 0 < eps) (heps1 : eps ≤ 1e-6) (hτ0 : 0 ≤ τ) (hτ : τ ^ 2 = eps) (hue : u ≤ eps)
    (hη : 6 * eps ≤ η) (hb : 0 ≤ b) (hb1 : b ≤ 1.51) (hr : 0 ≤ r) (hr1 : r ≤ 1 / 2) (N : NodeRun u eps b r b2 r2 rng x)
    (o : |N.omz2 - (r * r + b * b - 2 * b * r * cos φ)| ≤ 36 * u) (z : |N.z2 - (1 - (r * r + b * b - 2 * b * r * cos φ))| ≤ 40 * u)
    (n4 : |N.n4 - 2 * r * (r - b * cos φ)| ≤ 30 * u) :
    |N.out - arcIntegrand b r 1 φ| ≤ 45 * τ + r * (b + r) * bump η b r φ := by
  have hu : u ≤ 1e-6 := hue.trans heps1
  obtain ⟨A1, A2⟩ := arc_facts (b := b) (φ := φ) hr
  have hw : Green.w b r φ = 1 - (r * r + b * b - 2 * b * r * cos φ) := by unfold Green.w; ring
  set Q := r * r + b * b - 2 * b * r * cos φ with hQ
  set D := r - b * cos φ with hD
  set G := arcIntegrand b r 1 φ with hG
  have hNQ : D ^ 2 ≤ Q := by
    rw [hD, hQ]
    nlinarith [sin_sq_add_cos_sq φ, mul_nonneg (sq_nonneg b) (sq_nonneg (sin φ))]
  have hDbr : |D| ≤ b + r := by
    rw [hD]
    refine (abs_sub _ _).trans ?_
    rw [abs_of_nonneg hr, abs_mul, abs_of_nonneg hb]
    have := mul_le_mul_of_nonneg_left (abs_cos_le_one φ) hb
    linarith
  have hη0 : 0 < η := by linarith
  have hbump := bump_nonneg η b r φ
  have hbr0 : 0 ≤ r * (b + r) := by positivity
  have hbb := mul_nonneg hbr0 hbump
  have hnum := heps1
  norm_num at hnum
  have hτ3 : τ ≤ 1 / 1000 := by nlinarith
  have huτ : u ≤ 1 / 1000 * τ := by nlinarith
  rw [N.hout]
  split_ifs with hc
  · -- the guard at the centre of the star
    have h1 : D ^ 2 ≤ (7 * τ) ^ 2 := by
      have := (_root_.abs_le.1 o).1
      nlinarith
    have h2 := abs_le_of_sq_le_sq h1 (by positivity)
    rw [zero_sub, abs_neg]
    have h3 : |D| ≤ 7 * τ := h2
    have := mul_le_mul hr1 h3 (abs_nonneg _) (by norm_num)
    linarith
  have hO : 10 * eps ≤ N.omz2 := not_lt.1 hc
  have hO0 : 0 < N.omz2 := by linarith
  have hO' : N.omz2' = N.omz2 := by rw [N.homz2', if_neg hc]
  have hDle : |D| ≤ 2.01 := by norm_num at hb1 ⊢; linarith
  have hQ0 : 0 ≤ Q := (sq_nonneg D).trans hNQ
  have hG1 : |G| ≤ 1 / 2 * |D| := A1.trans (mul_le_mul_of_nonneg_right hr1 (abs_nonneg D))
  have h2rD : |2 * r * D| ≤ |D| := by
    rw [abs_mul, abs_of_nonneg (by positivity)]
    exact mul_le_of_le_one_left (abs_nonneg D) (by linarith)
  have hres : Rnd (3.1 * u) (N.n4 * N.n5 / (3 * N.omz2)) N.res := by
    have h7 := N.hn7
    rw [hO'] at h7
    exact div_rnd hu0 hu N.hn6 h7 N.hres
  obtain ⟨o1, o2⟩ := _root_.abs_le.1 o
  obtain ⟨z1, z2⟩ := _root_.abs_le.1 z
  have s1 := N.hsq
  have s2 := N.hz3
  by_cases hm : N.z2 < 10 * eps
  · -- the guard at the limb
    have hz' : N.z2' = 1 := by rw [N.hz2', if_pos hm]
    rw [hz'] at s1 s2
    rw [sqrt_one] at s1
    rw [one_mul] at s2
    have hOl : 0.99 ≤ N.omz2 := by norm_num; linarith
    have hb1' : bump η b r φ = 1 := by
      refine bump_eq_one hη0 ?_
      rw [hw]
      linarith
    have hn4 : |N.n4| ≤ 2.1 := by
      have := abs_sub_abs_le_abs_sub N.n4 (2 * r * D)
      norm_num at hDle ⊢
      linarith
    have h1 := near_div hu0 hu (by positivity) hres (limb_value hu0 hu s1 s2 N.hn5 hn4 hOl) (by rw [abs_zero]; norm_num) (by norm_num; linarith)
    have h2 := abs_sub_le N.res 0 G
    rw [zero_sub, abs_neg] at h2
    have h7 := mul_le_mul_of_nonneg_left hDbr hr
    rw [hb1', mul_one]
    linarith
  · have hm' : 10 * eps ≤ N.z2 := not_lt.1 hm
    have hz' : N.z2' = N.z2 := by rw [N.hz2', if_neg hm]
    rw [hz'] at s1 s2
    have hz0 : 0 ≤ N.z2 := by linarith
    have hzpos : N.omz2 ≤ 1 := by
      by_contra h
      have h1 : 0 ≤ -N.z2 := N.hz2.neg.nonneg (by linarith) (by linarith [not_le.1 h])
      linarith
    set V := max 0 (Green.w b r φ) with hV
    have hV0 : 0 ≤ V := le_max_left _ _
    have hV1 : V ≤ 1 := max_le zero_le_one (Green.w_le_one b r φ)
    have hVz : |N.z2 - V| ≤ 40 * u := by
      rw [hV, hw]
      rcases le_total 0 (1 - Q) with h | h
      · rw [max_eq_right h]; exact z
      · rw [max_eq_left h, sub_zero, abs_of_nonneg hz0]; linarith
    have hVO : |1 - V - N.omz2| ≤ 36 * u := by
      rw [hV, hw]
      rcases le_total 0 (1 - Q) with h | h
      · rw [max_eq_right h, show 1 - (1 - Q) - N.omz2 = -(N.omz2 - Q) by ring, abs_neg]; exact o
      · rw [max_eq_left h, sub_zero, _root_.abs_le]; constructor <;> linarith
    obtain ⟨c5, hE0, hE⟩ := cube_near hu0 hu hz0 (by norm_num; linarith) hV0 hV1 hVz s1 s2 N.hn5
    have key := regular_value hu0 hue hτ0 hτ huτ hO hO0 hNQ (by linarith) hG1 h2rD hE0 hE hVO A2 n4 c5
    have h1 := near_div hu0 hu (by positivity) hres key (by norm_num at hDle ⊢; linarith) (by norm_num; linarith)
    linarith

end Jaxoplanet.LimbDarkFloat
