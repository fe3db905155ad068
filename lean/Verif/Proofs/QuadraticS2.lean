import Verif.Proofs.QuadraticGeom

/-! The second entry of the computed solution vector. -/

namespace Jaxoplanet.LimbDarkFloat

open Real KeplerFloat LimbDark

/-- the exact geometry of an occultor inside the star, up to rounding -/
theorem angles_inside {u τ b r : ℝ} (hu0 : 0 ≤ u) (hu : u ≤ 1e-6) (hτ0 : 0 ≤ τ) (hτ1 : τ ≤ 1e-3) (hτ : u ≤ τ ^ 2) (hb : 0 ≤ b) (hr : 0 ≤ r)
    (hr1 : r ≤ 1 / 2) (h : b + r ≤ 1 + 4 * u) :
    area0 b r ≤ 10 * τ ∧ r * (π - angle0 b r) ≤ 70 * τ ∧ angle1 b r ≤ 70 * τ := by
  have hπ := pi_lt_d2
  have n0 : 0 ≤ angle0 b r := arctan2_nonneg (area0_nonneg b r) _
  have n1 : 0 ≤ angle1 b r := arctan2_nonneg (area0_nonneg b r) _
  norm_num at hu hτ1
  have huτ : u ≤ 1 / 1000 * τ := by nlinarith
  have hA : area0 b r ≤ 10 * τ := by
    unfold area0
    rw [sqrt_le_left (by positivity)]
    refine max_le (by positivity) ?_
    rcases le_total b (1 - r) with h7 | h7
    · exact (heron_inside (by linarith) hr h7).trans (by positivity)
    rcases le_total (1 + r) b with h6 | h6
    · exact (heron_outside hr h6).trans (by positivity)
    have a1 : (r + b + 1) * (-r + b + 1) ≤ 3 * 3 := mul_le_mul (by linarith) (by linarith) (by linarith) (by norm_num)
    have a2 : (r + b + 1) * (-r + b + 1) * (r - b + 1) ≤ 3 * 3 * 2 := mul_le_mul a1 (by linarith) (by linarith) (by norm_num)
    have a3 : heron b r ≤ 3 * 3 * 2 * (4 * u) := mul_le_mul a2 (by linarith) (by linarith) (by positivity)
    nlinarith
  have hge := area_sq_ge b r
  have hx1 : 0 ≤ b ^ 2 + 1 - r ^ 2 := by nlinarith
  have z1 : arctan2 0 (b ^ 2 + 1 - r ^ 2) = 0 := arctan2_zero_pos hx1
  refine ⟨hA, ?_⟩
  rcases le_total b (1 / 4) with hb4 | hb4
  · have hA0 : area0 b r = 0 := area0_of_nonpos (heron_inside hb hr (by linarith))
    have x0 : b ^ 2 + r ^ 2 - 1 < 0 := by nlinarith
    unfold angle0 angle1
    rw [hA0, z1, arctan2_zero_neg x0, sub_self, mul_zero]
    exact ⟨by positivity, by positivity⟩
  have hA' : |0 - area0 b r| ≤ area0 b r := by rw [zero_sub, abs_neg, abs_of_nonneg (area0_nonneg b r)]
  have hpa : π * (area0 b r + 0) ≤ 3.15 * (10 * τ) := mul_le_mul hπ.le (by linarith) (by linarith [area0_nonneg b r]) (by norm_num)
  norm_num at hpa
  have c1 := angle_near (d := 2 * b) (area0_nonneg b r) le_rfl (by nlinarith [heron_x1 b r]) hA' (le_of_eq (by rw [sub_self, abs_zero]) : |b ^ 2 + 1 - r ^ 2 - (b ^ 2 + 1 - r ^ 2)| ≤ 0)
  rw [z1, zero_sub, abs_neg] at c1
  change |angle1 b r| * _ ≤ _ at c1
  rw [abs_of_nonneg n1] at c1
  constructor
  · rcases le_or_gt 0 (b ^ 2 + r ^ 2 - 1) with h0 | h0
    · have hr2 : r ≤ 20 * u := by nlinarith
      have := mul_le_mul hr2 (by linarith : π - angle0 b r ≤ 3.15) (by linarith [arctan2_le_pi (area0 b r) (b ^ 2 + r ^ 2 - 1), show angle0 b r = arctan2 (area0 b r) (b ^ 2 + r ^ 2 - 1) from rfl]) (by positivity)
      norm_num at this
      linarith
    · have z0 := arctan2_zero_neg h0
      have c0 := angle_near (d := 2 * b * r) (area0_nonneg b r) le_rfl (by nlinarith [heron_x0 b r]) hA' (le_of_eq (by rw [sub_self, abs_zero]) : |b ^ 2 + r ^ 2 - 1 - (b ^ 2 + r ^ 2 - 1)| ≤ 0)
      rw [z0] at c0
      change |π - angle0 b r| * _ ≤ _ at c0
      have n2 : 0 ≤ π - angle0 b r := sub_nonneg.2 (arctan2_le_pi _ _)
      rw [abs_of_nonneg n2] at c0
      have := mul_le_mul_of_nonneg_right hb4 (mul_nonneg hr n2)
      linarith
  · have := mul_le_mul_of_nonneg_right hb4 n1
    linarith

theorem eta_near {u b r b2 r2 h1 h2 h3 eta2 : ℝ} (hu0 : 0 ≤ u) (hu : u ≤ 1e-6) (hb : 0 ≤ b) (hb1 : b ≤ 1.51) (hr : 0 ≤ r) (hr1 : r ≤ 1 / 2)
    (hb2 : Rnd u (b * b) b2) (hr2 : Rnd u (r * r) r2) (hh1 : Rnd u (0.5 * r2) h1) (hh2 : Rnd u (2 * b2) h2) (hh3 : Rnd u (r2 + h2) h3)
    (he : Rnd u (h1 * h3) eta2) :
    |b2 - b * b| ≤ 2.3 * u ∧ |r2 - r * r| ≤ 0.25 * u ∧ |eta2 - 0.5 * (r * r) * (r * r + 2 * (b * b))| ≤ 4.2 * u := by
  have hbb : b * b ≤ 2.2801 := by nlinarith
  have hrr : r * r ≤ 1 / 4 := by nlinarith
  have hbb0 : 0 ≤ b * b := mul_self_nonneg b
  have hrr0 : 0 ≤ r * r := mul_self_nonneg r
  generalize b * b = B at *
  generalize r * r = R at *
  have e1 := near_zero hu0 hu hb2 (M := 2.3) (by rw [abs_of_nonneg hbb0]; norm_num at hbb ⊢; linarith)
  have e2 := near_zero hu0 hu hr2 (M := 0.25) (by rw [abs_of_nonneg hrr0]; norm_num; linarith)
  have e3 := near_rnd hu0 hu hh1 (X := 0.5 * R) (e := 0.125 * u) (M := 0.125) (by
    rw [← mul_sub, abs_mul, abs_of_nonneg (by norm_num)]; norm_num at e2 ⊢; linarith) (by rw [abs_of_nonneg (by positivity)]; norm_num; linarith)
  have e4 := near_rnd hu0 hu hh2 (X := 2 * B) (e := 4.6 * u) (M := 4.6) (by
    rw [← mul_sub, abs_mul, abs_of_nonneg (by norm_num)]; norm_num at e1 ⊢; linarith) (by rw [abs_of_nonneg (by positivity)]; norm_num at hbb ⊢; linarith)
  have e5 := near_rnd hu0 hu hh3 (near_add e2 e4) (M := 4.9) (by rw [abs_of_nonneg (by positivity)]; norm_num at hbb ⊢; linarith)
  have e6 := near_rnd hu0 hu he (near_mul e3 e5 (M := 0.125) (N := 4.9) (by rw [abs_of_nonneg (by positivity)]; norm_num; linarith)
    (by rw [abs_of_nonneg (by positivity)]; norm_num at hbb ⊢; linarith)) (M := 0.62) (by
      rw [abs_of_nonneg (by positivity)]
      have := mul_le_mul hrr (by norm_num at hbb; linarith : R + 2 * B ≤ 4.9) (by positivity) (by norm_num)
      norm_num at this ⊢
      linarith)
  refine ⟨by linarith, by linarith, e6.trans ?_⟩
  norm_num at hu ⊢
  have : u * u ≤ 1 / 1000000 * u := mul_le_mul_of_nonneg_right hu hu0
  nlinarith

theorem area0_le {b r : ℝ} (hb : 0 ≤ b) (hr : 0 ≤ r) : area0 b r ≤ 2 * b * r := by
  unfold area0
  rw [sqrt_le_left (by positivity)]
  refine max_le (by positivity) ?_
  nlinarith [heron_x0 b r, sq_nonneg (b ^ 2 + r ^ 2 - 1)]

/-- the exact second entry -/
noncomputable def exact2 (b r : ℝ) : ℝ :=
  2 * (π - overlap b r) + 2 * (-(π - angle1 b r) + 2 * (0.5 * (r * r) * (r * r + 2 * (b * b))) * angle0 b r
    - 0.25 * area0 b r * (1 + 5 * (r * r) + b * b))

set_option maxHeartbeats 400000 in
/-- the second entry in the branch for crossing discs -/
theorem s2_sml_near {u τ pi b r b2 r2 area kappa0 kappa1 : ℝ} (hu0 : 0 ≤ u) (hu : u ≤ 1e-6) (hτ : u ≤ 1 / 1000 * τ) (hτ1 : τ ≤ 1e-3)
    (hb : 0 ≤ b) (hb1 : b ≤ 1.51) (hr : 0 ≤ r) (hr1 : r ≤ 1 / 2) (hpi : Rnd u π pi)
    (hb2 : Rnd u (b * b) b2) (hr2 : Rnd u (r * r) r2) (S : S0Run u pi b r r2 area kappa0 kappa1) (T : S2Run b2 S)
    (hA : |area - area0 b r| ≤ 34 * τ) (hk0 : r * |kappa0 - angle0 b r| ≤ 226 * τ) (hk0' : |kappa0| ≤ 3.2) (hk1 : |kappa1 - angle1 b r| ≤ 226 * τ)
    (hs0 : |S.s0_sml - (π - overlap b r)| ≤ 14 * τ) (hov : |π - overlap b r| ≤ 3.15) : |T.sml - exact2 b r| ≤ 1700 * τ := by
  have hτ0 : 0 ≤ τ := by linarith
  obtain ⟨e1, e2, e3⟩ := eta_near hu0 hu hb hb1 hr hr1 hb2 hr2 T.hh1 T.hh2 T.hh3 T.heta2
  have hπ := pi_lt_d2
  have hp := pi_gt_three
  have hA0 := area0_nonneg b r
  have hA1 : area0 b r ≤ 1.51 := by
    have := area0_le hb hr
    have h2 : b * r ≤ 1.51 * (1 / 2) := mul_le_mul hb1 hr1 hr (by norm_num)
    norm_num at h2 ⊢
    linarith
  have k0n : 0 ≤ angle0 b r := arctan2_nonneg hA0 _
  have k1n : 0 ≤ angle1 b r := arctan2_nonneg hA0 _
  have k0p : angle0 b r ≤ π := arctan2_le_pi _ _
  have k1p : angle1 b r ≤ π := arctan2_le_pi _ _
  have hbb : b * b ≤ 2.2801 := by
    have := mul_le_mul hb1 hb1 hb (by norm_num)
    norm_num at this ⊢
    exact this
  have hrr : r * r ≤ 1 / 4 := by
    have := mul_le_mul hr1 hr1 hr (by norm_num)
    norm_num at this ⊢
    exact this
  have hbb0 : 0 ≤ b * b := mul_self_nonneg b
  have hrr0 : 0 ≤ r * r := mul_self_nonneg r
  have hη : r * (r * r + 2 * (b * b)) ≤ 1 / 2 * 4.9 := mul_le_mul hr1 (by norm_num at hbb ⊢; linarith) (by positivity) (by norm_num)
  have hη0 : 0 ≤ r * (r * r + 2 * (b * b)) := by positivity
  have hηη : 0.5 * (r * r) * (r * r + 2 * (b * b)) ≤ 0.62 := by
    have := mul_le_mul_of_nonneg_right hr1 hη0
    norm_num at this hη ⊢
    linarith
  set B := b * b with hB
  set R := r * r with hR
  have hη2 : 0 ≤ 0.5 * R * (R + 2 * B) := by positivity
  have m3 := near_rnd hu0 hu T.hm3 (X := 2 * (0.5 * R * (R + 2 * B))) (e := 8.4 * u) (M := 1.24) (by
    rw [← mul_sub, abs_mul, abs_two]; norm_num at e3 ⊢; linarith) (by rw [abs_of_nonneg (by positivity)]; norm_num at hηη ⊢; linarith)
  -- the term with the angle at the occultor
  have key : |T.m3 * kappa0 - 2 * (0.5 * R * (R + 2 * B)) * angle0 b r| ≤ 554 * τ := by
    rw [show T.m3 * kappa0 - 2 * (0.5 * R * (R + 2 * B)) * angle0 b r =
      (T.m3 - 2 * (0.5 * R * (R + 2 * B))) * kappa0 + r * (R + 2 * B) * (r * (kappa0 - angle0 b r)) by rw [hR]; ring]
    refine (abs_add_le _ _).trans ?_
    rw [abs_mul, abs_mul (r * (R + 2 * B)), abs_mul r (kappa0 - _), abs_of_nonneg hη0, abs_of_nonneg hr]
    have a1 := mul_le_mul m3 hk0' (abs_nonneg _) (by positivity)
    have a2 := mul_le_mul hη hk0 (by positivity) (by norm_num)
    norm_num at a1 a2
    norm_num
    linarith
  have hX4 : 0 ≤ 2 * (0.5 * R * (R + 2 * B)) * angle0 b r := by positivity
  have hX4' : 2 * (0.5 * R * (R + 2 * B)) * angle0 b r ≤ 2 * 0.62 * 3.15 :=
    mul_le_mul (by linarith) (by linarith) k0n (by norm_num)
  have m4 := near_rnd hu0 hu T.hm4 key (M := 3.91) (by rw [abs_of_nonneg hX4]; norm_num at hX4' ⊢; linarith)
  have hpi1 := near_zero hu0 hu hpi (M := 3.15) (by rw [abs_of_pos pi_pos]; exact hπ.le)
  have m2 := near_rnd hu0 hu T.hm2 (near_sub hpi1 hk1) (M := 3.15) (by rw [abs_of_nonneg (by linarith)]; linarith)
  have m2' : |-T.m2 - -(π - angle1 b r)| ≤ 227 * τ := by rw [neg_sub_neg, abs_sub_comm]; refine m2.trans ?_; norm_num; linarith
  norm_num at hX4'
  have m5 := near_rnd hu0 hu T.hm5 (near_add m2' m4) (M := 7.1) (by rw [_root_.abs_le]; norm_num; constructor <;> linarith)
  have m6 := near_rnd hu0 hu T.hm6 (X := 0.25 * area0 b r) (e := 8.5 * τ) (M := 0.4) (by
    rw [← mul_sub, abs_mul, abs_of_nonneg (by norm_num)]; norm_num at hA ⊢; linarith) (by rw [abs_of_nonneg (by positivity)]; norm_num at hA1 ⊢; linarith)
  have m7 := near_rnd hu0 hu T.hm7 (X := 5 * R) (e := 1.25 * u) (M := 1.25) (by
    rw [← mul_sub, abs_mul, abs_of_nonneg (by norm_num)]; norm_num at e2 ⊢; linarith) (by rw [abs_of_nonneg (by positivity)]; norm_num; linarith)
  have m8 := near_rnd hu0 hu T.hm8 (X := 1 + 5 * R) (e := 2.6 * u) (M := 2.25) (by
    rw [add_sub_add_left_eq_sub]; norm_num at m7 ⊢; linarith) (by rw [abs_of_nonneg (by positivity)]; norm_num; linarith)
  have m9 := near_rnd hu0 hu T.hm9 (near_add m8 e1) (M := 4.6) (by rw [abs_of_nonneg (by positivity)]; norm_num at hbb ⊢; linarith)
  have hX10 : 0.25 * area0 b r * (1 + 5 * R + B) ≤ 0.4 * 4.6 := mul_le_mul (by norm_num at hA1 ⊢; linarith) (by norm_num at hbb ⊢; linarith) (by positivity) (by norm_num)
  have m10 := near_rnd hu0 hu T.hm10 (near_mul m6 m9 (M := 0.4) (N := 4.6) (by rw [abs_of_nonneg (by positivity)]; norm_num at hA1 ⊢; linarith)
    (by rw [abs_of_nonneg (by positivity)]; norm_num at hbb ⊢; linarith)) (M := 1.84) (by
      rw [abs_of_nonneg (by positivity)]; norm_num at hX10 ⊢; linarith)
  have hX10' : 0 ≤ 0.25 * area0 b r * (1 + 5 * R + B) := by positivity
  have hu6 := hu
  norm_num at hX10 hu6 hτ1
  have huu : u * u ≤ 1 / 1000000 * u := mul_le_mul_of_nonneg_right hu6 hu0
  have huτ : τ * u ≤ 1 / 1000 * u := mul_le_mul_of_nonneg_right hτ1 hu0
  have m5' : |T.m5 - (-(π - angle1 b r) + 2 * (0.5 * R * (R + 2 * B)) * angle0 b r)| ≤ 783 * τ := m5.trans (by norm_num; linarith)
  have m10' : |T.m10 - 0.25 * area0 b r * (1 + 5 * R + B)| ≤ 41 * τ := m10.trans (by norm_num; linarith)
  have m11 := near_rnd hu0 hu T.hm11 (near_sub m5' m10') (M := 9) (by rw [_root_.abs_le]; constructor <;> linarith)
  have m12 := near_rnd hu0 hu T.hm12 (X := 2 * (-(π - angle1 b r) + 2 * (0.5 * R * (R + 2 * B)) * angle0 b r - 0.25 * area0 b r * (1 + 5 * R + B)))
    (e := 1652 * τ) (M := 18) (by
    rw [← mul_sub, abs_mul, abs_two]; norm_num at m11 ⊢; linarith) (by
    rw [abs_mul, abs_two]
    have : |(-(π - angle1 b r) + 2 * (0.5 * R * (R + 2 * B)) * angle0 b r - 0.25 * area0 b r * (1 + 5 * R + B))| ≤ 9 := by
      rw [_root_.abs_le]; constructor <;> linarith
    linarith)
  have m1 := near_rnd hu0 hu T.hm1 (X := 2 * (π - overlap b r)) (e := 28 * τ) (M := 6.3) (by
    rw [← mul_sub, abs_mul, abs_two]; linarith) (by rw [abs_mul, abs_two]; norm_num at hov ⊢; linarith)
  have fin := near_rnd hu0 hu T.hsml (near_add m1 m12) (M := 25) (by
    refine (abs_add_le _ _).trans ?_
    rw [abs_mul 2, abs_mul 2, abs_two]
    have : |(-(π - angle1 b r) + 2 * (0.5 * R * (R + 2 * B)) * angle0 b r - 0.25 * area0 b r * (1 + 5 * R + B))| ≤ 9 := by
      rw [_root_.abs_le]; constructor <;> linarith
    norm_num at hov
    linarith)
  refine fin.trans ?_
  norm_num
  linarith

/-- the second entry in the branch for an occultor inside the star -/
theorem s2_lrg_near {u τ pi b r b2 r2 area kappa0 kappa1 : ℝ} (hu0 : 0 ≤ u) (hu : u ≤ 1e-6) (hτ : u ≤ 1 / 1000 * τ) (hτ1 : τ ≤ 1e-3)
    (hτ2 : u ≤ τ ^ 2) (hb : 0 ≤ b) (hb1 : b ≤ 1.51) (hr : 0 ≤ r) (hr1 : r ≤ 1 / 2) (hpi : Rnd u π pi)
    (hb2 : Rnd u (b * b) b2) (hr2 : Rnd u (r * r) r2) (S : S0Run u pi b r r2 area kappa0 kappa1) (T : S2Run b2 S)
    (hin : b + r ≤ 1 + 4 * u)
    (hs0 : |S.s0_lrg - (π - overlap b r)| ≤ 14 * τ) (hov : |π - overlap b r| ≤ 3.15) : |T.lrg - exact2 b r| ≤ 1700 * τ := by
  have hτ0 : 0 ≤ τ := by linarith
  obtain ⟨-, -, e3⟩ := eta_near hu0 hu hb hb1 hr hr1 hb2 hr2 T.hh1 T.hh2 T.hh3 T.heta2
  obtain ⟨g1, g2, g3⟩ := angles_inside hu0 hu hτ0 hτ1 hτ2 hb hr hr1 hin
  have hπ := pi_lt_d2
  have hA0 := area0_nonneg b r
  have k1n : 0 ≤ angle1 b r := arctan2_nonneg hA0 _
  have k0p : angle0 b r ≤ π := arctan2_le_pi _ _
  have hbb : b * b ≤ 2.2801 := by
    have := mul_le_mul hb1 hb1 hb (by norm_num)
    norm_num at this ⊢
    exact this
  have hrr : r * r ≤ 1 / 4 := by
    have := mul_le_mul hr1 hr1 hr (by norm_num)
    norm_num at this ⊢
    exact this
  have hbb0 : 0 ≤ b * b := mul_self_nonneg b
  have hrr0 : 0 ≤ r * r := mul_self_nonneg r
  have hη : r * (r * r + 2 * (b * b)) ≤ 1 / 2 * 4.9 := mul_le_mul hr1 (by norm_num at hbb ⊢; linarith) (by positivity) (by norm_num)
  have hη0 : 0 ≤ r * (r * r + 2 * (b * b)) := by positivity
  have hηη : 0.5 * (r * r) * (r * r + 2 * (b * b)) ≤ 0.62 := by
    have := mul_le_mul_of_nonneg_right hr1 hη0
    norm_num at this hη ⊢
    linarith
  set B := b * b with hB
  set R := r * r with hR
  have hη2 : 0 ≤ 0.5 * R * (R + 2 * B) := by positivity
  have hu6 := hu
  norm_num at hu6
  have huu : u * u ≤ 1 / 1000000 * u := mul_le_mul_of_nonneg_right hu6 hu0
  have l1 := near_rnd hu0 hu T.hl1 (X := 2 * (π - overlap b r)) (e := 28 * τ) (M := 6.3) (by
    rw [← mul_sub, abs_mul, abs_two]; linarith) (by rw [abs_mul, abs_two]; norm_num at hov ⊢; linarith)
  have hpi1 := near_zero hu0 hu hpi (M := 3.15) (by rw [abs_of_pos pi_pos]; exact hπ.le)
  have l2 := near_rnd hu0 hu T.hl2 (X := 4 * π) (e := 12.6 * u) (M := 12.6) (by
    rw [← mul_sub, abs_mul, abs_of_nonneg (by norm_num)]; norm_num at hpi1 ⊢; linarith) (by rw [abs_of_nonneg (by positivity)]; norm_num at hπ ⊢; linarith)
  have l3 := near_rnd hu0 hu T.hl3 (X := 0.5 * R * (R + 2 * B) - 0.5) (e := 4.2 * u) (M := 0.62) (by
    rw [sub_sub_sub_cancel_right]; exact e3) (by rw [_root_.abs_le]; norm_num at hηη ⊢; constructor <;> linarith)
  have l4 := near_rnd hu0 hu T.hl4 (near_mul l2 l3 (M := 12.6) (N := 0.62) (by rw [abs_of_nonneg (by positivity)]; norm_num at hπ ⊢; linarith)
    (by rw [_root_.abs_le]; norm_num at hηη ⊢; constructor <;> linarith)) (M := 7.9) (by
      rw [abs_mul, abs_of_nonneg (by positivity : 0 ≤ 4 * π)]
      have : |0.5 * R * (R + 2 * B) - 0.5| ≤ 0.62 := by rw [_root_.abs_le]; norm_num at hηη ⊢; constructor <;> linarith
      have := mul_le_mul (by norm_num at hπ ⊢; linarith : 4 * π ≤ 12.6) this (abs_nonneg _) (by norm_num)
      norm_num at this ⊢
      linarith)
  have l4' : |T.l4 - 4 * π * (0.5 * R * (R + 2 * B) - 0.5)| ≤ τ := l4.trans (by norm_num; linarith)
  have fin := near_rnd hu0 hu T.hlrg (near_add l1 l4') (M := 15) (by
    refine (abs_add_le _ _).trans ?_
    rw [abs_mul 2, abs_two, abs_mul, abs_of_nonneg (by positivity : 0 ≤ 4 * π)]
    have : |0.5 * R * (R + 2 * B) - 0.5| ≤ 0.62 := by rw [_root_.abs_le]; norm_num at hηη ⊢; constructor <;> linarith
    have := mul_le_mul (by norm_num at hπ ⊢; linarith : 4 * π ≤ 12.6) this (abs_nonneg _) (by norm_num)
    norm_num at this hov ⊢
    linarith)
  have h1 : 0 ≤ r * (R + 2 * B) * (r * (π - angle0 b r)) := mul_nonneg hη0 (mul_nonneg hr (by linarith))
  have h2 : r * (R + 2 * B) * (r * (π - angle0 b r)) ≤ 1 / 2 * 4.9 * (70 * τ) := mul_le_mul hη g2 (mul_nonneg hr (by linarith)) (by norm_num)
  have h3 : 0.25 * area0 b r * (1 + 5 * R + B) ≤ 0.25 * (10 * τ) * 4.6 :=
    mul_le_mul (by linarith) (by norm_num at hbb ⊢; linarith) (by positivity) (by positivity)
  have h4 : 0 ≤ 0.25 * area0 b r * (1 + 5 * R + B) := by positivity
  have ex : |2 * (π - overlap b r) + 4 * π * (0.5 * R * (R + 2 * B) - 0.5) - exact2 b r| ≤ 600 * τ := by
    have : 2 * (π - overlap b r) + 4 * π * (0.5 * R * (R + 2 * B) - 0.5) - exact2 b r =
      2 * (r * (R + 2 * B) * (r * (π - angle0 b r))) - 2 * angle1 b r + 2 * (0.25 * area0 b r * (1 + 5 * R + B)) := by
      unfold exact2; rw [hR, hB]; ring
    rw [this, _root_.abs_le]
    norm_num at h2 h3
    norm_num
    constructor <;> linarith
  have tri := abs_sub_le T.lrg (2 * (π - overlap b r) + 4 * π * (0.5 * R * (R + 2 * B) - 0.5)) (exact2 b r)
  norm_num at fin
  linarith

end Jaxoplanet.LimbDarkFloat
