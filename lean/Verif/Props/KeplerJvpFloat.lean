import Verif.Model.KeplerJvpFloat
import Verif.Props.KeplerFloat
import Verif.Props.KeplerJvp
import Verif.Proofs.OrbitGrad

/-!
# C115: the derivatives of `kepler()` in floating-point arithmetic
-/

namespace Jaxoplanet.KeplerFloat

open Real Kepler Spec

theorem Rnd.pow15 {a O o : ℝ} (h : Rnd a O o) (ha0 : 0 ≤ a) (ha : a ≤ 1) (hO : 0 < O) : Rnd (2 * a) (O ^ (1.5 : ℝ)) (o ^ (1.5 : ℝ)) := by
  obtain ⟨δ, hδ, rfl⟩ := h.factor ha0
  obtain ⟨l, r⟩ := _root_.abs_le.1 hδ
  have h1 : 0 ≤ 1 + δ := by linarith
  have e1 : (1 + δ) ^ (1.5 : ℝ) = (1 + δ) * √(1 + δ) := by
    rcases h1.eq_or_lt with h0 | h0
    · rw [← h0]; norm_num
    · rw [show (1.5 : ℝ) = 1 + 1 / 2 by norm_num, rpow_add h0, rpow_one, ← sqrt_eq_rpow]
  rw [mul_rpow hO.le h1, e1, show (1 + δ) * √(1 + δ) = 1 + ((1 + δ) * √(1 + δ) - 1) by ring]
  refine Rnd.of_factor (_root_.abs_le.2 ⟨?_, ?_⟩)
  · rcases le_total 0 δ with hd | hd
    · have : 1 ≤ √(1 + δ) := one_le_sqrt.2 (by linarith)
      nlinarith
    · have : 1 + δ ≤ √(1 + δ) := le_sqrt_of_sq_le (by nlinarith)
      nlinarith [mul_le_mul_of_nonneg_left this h1]
  · have : √(1 + δ) ≤ 1 + δ / 2 := by
      rw [sqrt_le_left (by linarith)]
      nlinarith [sq_nonneg δ]
    have := mul_le_mul_of_nonneg_left this h1
    nlinarith

section
variable {u ε s c e Md ed : ℝ}

theorem ome2_rnd (hu0 : 0 ≤ u) (hε : ε ≤ 1 / 400) (he0 : 0 ≤ e) (he1 : e < 1) (hu : u = ε * (1 - e ^ 2)) (R : TangentRun u s c e Md ed) :
    Rnd (2.01 * ε) (1 - e ^ 2) R.ome2 := by
  have hO : 0 < 1 - e ^ 2 := by nlinarith
  have hε0 : 0 ≤ ε := by
    by_contra h
    have := mul_neg_of_neg_of_pos (not_le.1 h) hO
    linarith
  have huε : u ≤ ε := by rw [hu]; nlinarith [sq_nonneg e]
  have h1 := R.he2
  have h2 := R.home2
  unfold Rnd at *
  rw [abs_of_nonneg (mul_self_nonneg e)] at h1
  have h3 : |1 - R.e2| ≤ (1 - e ^ 2) + u * (e * e) := by
    rw [show 1 - R.e2 = (1 - e ^ 2) - (R.e2 - e * e) by ring]
    exact (abs_sub _ _).trans (add_le_add (abs_of_pos hO).le h1)
  rw [abs_of_pos hO, show R.ome2 - (1 - e ^ 2) = (R.ome2 - (1 - R.e2)) - (R.e2 - e * e) by ring]
  refine (abs_sub _ _).trans ((add_le_add h2 h1).trans ?_)
  have h4 := mul_le_mul_of_nonneg_left h3 hu0
  have h5 : e * e ≤ 1 := by nlinarith
  have h6 : u * (u * (e * e)) ≤ u * (1 / 400) := mul_le_mul_of_nonneg_left (by nlinarith [mul_nonneg hu0 (mul_self_nonneg e)]) hu0
  have h7 : 2.01 * ε * (1 - e ^ 2) = 2.01 * u := by rw [hu]; ring
  rw [h7]
  nlinarith [h4, h6]

theorem x2_rnd (hu0 : 0 ≤ u) (hε0 : 0 ≤ ε) (hε : ε ≤ 1 / 400) (he0 : 0 ≤ e) (he1 : e < 1) (hu : u = ε * (1 - e ^ 2))
    (R : TangentRun u s c e Md ed) :
    Rnd (8.5 * ε) (Md / (1 - e ^ 2) ^ (1.5 : ℝ) * (R.p1 * R.p1)) R.x2 := by
  have hO : 0 < 1 - e ^ 2 := by nlinarith
  have huε : u ≤ ε := by rw [hu]; nlinarith [sq_nonneg e]
  have ho := ome2_rnd hu0 hε he0 he1 hu R
  have hee : ε * ε ≤ ε * (1 / 400) := mul_le_mul_of_nonneg_left hε hε0
  have hq : Rnd (5.05 * ε) ((1 - e ^ 2) ^ (1.5 : ℝ)) R.q := by
    refine ((ho.pow15 (by linarith) (by linarith) hO).trans R.hq (by linarith) hu0).mono ?_
    have : 2 * (2.01 * ε) * u ≤ 2 * (2.01 * ε) * ε := by gcongr
    linarith
  have hx1 : Rnd (2.01 * ε) (Md * (R.p1 * R.p1)) R.x1 := by
    refine (((Rnd.refl (le_refl 0) Md).mul0 R.hp2 (le_refl 0) hu0).trans R.hx1 (by linarith) hu0).mono ?_
    have : u * u ≤ ε * ε := by gcongr
    linarith
  have h1 := (hx1.div0 hq (by linarith) (by linarith) (by linarith)).mono (ε' := 7.2 * ε)
    (by rw [div_le_iff₀ (by linarith)]; nlinarith)
  have h2 := h1.trans R.hx2 (by linarith) hu0
  rw [show Md / (1 - e ^ 2) ^ (1.5 : ℝ) * (R.p1 * R.p1) = Md * (R.p1 * R.p1) / (1 - e ^ 2) ^ (1.5 : ℝ) by ring]
  refine h2.mono ?_
  have : 7.2 * ε * u ≤ 7.2 * ε * ε := by gcongr
  linarith

theorem y4_rnd (hu0 : 0 ≤ u) (hε0 : 0 ≤ ε) (hε : ε ≤ 1 / 400) (he0 : 0 ≤ e) (he1 : e < 1) (hu : u = ε * (1 - e ^ 2))
    (R : TangentRun u s c e Md ed) :
    Rnd (5.2 * ε) (ed / (1 - e ^ 2) * (R.y1 * s)) R.y4 := by
  have hO : 0 < 1 - e ^ 2 := by nlinarith
  have huε : u ≤ ε := by rw [hu]; nlinarith [sq_nonneg e]
  have ho := ome2_rnd hu0 hε he0 he1 hu R
  have hee : ε * ε ≤ ε * (1 / 400) := mul_le_mul_of_nonneg_left hε hε0
  have hy3 : Rnd (2.01 * ε) (ed * R.y1 * s) R.y3 := by
    refine ((R.hy2.mul0 (Rnd.refl (le_refl 0) s) hu0 (le_refl 0)).trans R.hy3 (by linarith) hu0).mono ?_
    have : u * u ≤ ε * ε := by gcongr
    linarith
  have h1 := (hy3.div0 ho (by linarith) (by linarith) (by linarith)).mono (ε' := 4.1 * ε)
    (by rw [div_le_iff₀ (by linarith)]; nlinarith)
  have h2 := h1.trans R.hy4 (by linarith) hu0
  rw [show ed / (1 - e ^ 2) * (R.y1 * s) = ed * R.y1 * s / (1 - e ^ 2) by ring]
  refine h2.mono ?_
  have : 4.1 * ε * u ≤ 4.1 * ε * ε := by gcongr
  linarith

/-- `1 + ecosf` and `2 + ecosf` -/
theorem p1_y1_abs {c' δ : ℝ} (hu0 : 0 ≤ u) (hε0 : 0 ≤ ε) (hε : ε ≤ 1 / 400) (huε : u ≤ ε) (he0 : 0 ≤ e) (he1 : e < 1)
    (hc : |c| ≤ 1.01) (hc' : |c'| ≤ 1) (hcc : |c - c'| ≤ δ) (R : TangentRun u s c e Md ed) :
    |R.p1 - (1 + e * c')| ≤ δ + 3.1 * ε ∧ |R.y1 - (2 + e * c')| ≤ δ + 4.1 * ε := by
  have h1 : |R.ecosf - e * c| ≤ 1.01 * ε := by
    refine le_trans R.hecosf ?_
    rw [abs_mul, abs_of_nonneg he0]
    have : e * |c| ≤ 1.01 := by nlinarith [abs_nonneg c]
    calc u * (e * |c|) ≤ ε * 1.01 := mul_le_mul huε this (by positivity) hε0
      _ = _ := by ring
  have h2 : |e * c - e * c'| ≤ δ := by
    rw [← mul_sub, abs_mul, abs_of_nonneg he0]
    nlinarith [abs_nonneg (c - c')]
  have h3 : |R.ecosf| ≤ 1.02 := by
    rw [show R.ecosf = (R.ecosf - e * c) + e * c by ring]
    refine (abs_add_le _ _).trans ?_
    rw [abs_mul e c, abs_of_nonneg he0]
    have : e * |c| ≤ 1.01 := by nlinarith [abs_nonneg c]
    linarith
  have key : ∀ (k v : ℝ), 0 ≤ k → Rnd u (k + R.ecosf) v → |v - (k + e * c')| ≤ δ + (1.01 + k + 1.02) * ε := by
    intro k v hk hv
    have h4 : |v - (k + R.ecosf)| ≤ ε * (k + 1.02) := by
      refine le_trans hv (mul_le_mul huε ?_ (abs_nonneg _) hε0)
      exact (abs_add_le _ _).trans (by rw [abs_of_nonneg hk]; linarith)
    rw [show v - (k + e * c') = (v - (k + R.ecosf)) + ((R.ecosf - e * c) + (e * c - e * c')) by ring]
    refine (abs_add_le _ _).trans ((add_le_add h4 ((abs_add_le _ _).trans (add_le_add h1 h2))).trans ?_)
    linarith
  constructor
  · refine (key 1 _ zero_le_one R.hp1).trans ?_
    linarith
  · refine (key 2 _ zero_le_two R.hy1).trans ?_
    linarith

theorem x2_abs {c' δ : ℝ} (hu0 : 0 ≤ u) (hε0 : 0 ≤ ε) (hε : ε ≤ 1 / 400) (he0 : 0 ≤ e) (he1 : e < 1) (hu : u = ε * (1 - e ^ 2))
    (hc : |c| ≤ 1.01) (hc' : |c'| ≤ 1) (hcc : |c - c'| ≤ δ) (hδ : δ ≤ 0.3) (R : TangentRun u s c e Md ed) :
    |R.x2 - Md / (1 - e ^ 2) ^ (1.5 : ℝ) * (1 + e * c') ^ 2| ≤ |Md / (1 - e ^ 2) ^ (1.5 : ℝ)| * (4.4 * δ + 60 * ε) := by
  have huε : u ≤ ε := by rw [hu]; nlinarith [sq_nonneg e]
  have hx := x2_rnd hu0 hε0 hε he0 he1 hu R
  have hp := (p1_y1_abs hu0 hε0 hε huε he0 he1 hc hc' hcc R).1
  set A := Md / (1 - e ^ 2) ^ (1.5 : ℝ)
  have hδ0 : 0 ≤ δ := (abs_nonneg _).trans hcc
  obtain ⟨l, r⟩ := _root_.abs_le.1 hp
  have hx1 : |1 + e * c'| ≤ 2 := by
    refine (abs_add_le _ _).trans ?_
    rw [abs_mul, abs_of_nonneg he0, abs_one]
    nlinarith [abs_nonneg c']
  have hp1 : |R.p1| ≤ 2.31 := by
    rw [show R.p1 = (R.p1 - (1 + e * c')) + (1 + e * c') by ring]
    refine (abs_add_le _ _).trans ?_
    linarith
  have h1 : |R.p1 * R.p1 - (1 + e * c') ^ 2| ≤ (δ + 3.1 * ε) * 4.31 := by
    rw [show R.p1 * R.p1 - (1 + e * c') ^ 2 = (R.p1 - (1 + e * c')) * (R.p1 + (1 + e * c')) by ring, abs_mul]
    exact mul_le_mul hp ((abs_add_le _ _).trans (by linarith)) (abs_nonneg _) (by linarith)
  have h2 : |R.p1 * R.p1| ≤ 5.4 := by
    rw [abs_mul]
    nlinarith [abs_nonneg R.p1]
  have h3 : |R.x2 - A * (R.p1 * R.p1)| ≤ |A| * (45.9 * ε) := by
    refine le_trans hx ?_
    rw [abs_mul A]
    have : |A| * |R.p1 * R.p1| ≤ |A| * 5.4 := by gcongr
    calc 8.5 * ε * (|A| * |R.p1 * R.p1|) ≤ 8.5 * ε * (|A| * 5.4) := by gcongr
      _ = _ := by ring
  rw [show R.x2 - A * (1 + e * c') ^ 2 = (R.x2 - A * (R.p1 * R.p1)) + A * (R.p1 * R.p1 - (1 + e * c') ^ 2) by ring]
  refine (abs_add_le _ _).trans ?_
  rw [abs_mul A (R.p1 * R.p1 - _)]
  have h4 := mul_le_mul_of_nonneg_left h1 (abs_nonneg A)
  have h5 : |A| * (45.9 * ε) + |A| * ((δ + 3.1 * ε) * 4.31) ≤ |A| * (4.4 * δ + 60 * ε) := by
    rw [← mul_add]
    refine mul_le_mul_of_nonneg_left ?_ (abs_nonneg A)
    nlinarith
  linarith

theorem y4_abs {s' c' δ : ℝ} (hu0 : 0 ≤ u) (hε0 : 0 ≤ ε) (hε : ε ≤ 1 / 400) (he0 : 0 ≤ e) (he1 : e < 1) (hu : u = ε * (1 - e ^ 2))
    (hc : |c| ≤ 1.01) (hs : |s| ≤ 1.01) (hc' : |c'| ≤ 1) (hs' : |s'| ≤ 1) (hcc : |c - c'| ≤ δ) (hss : |s - s'| ≤ δ) (hδ : δ ≤ 0.3)
    (R : TangentRun u s c e Md ed) :
    |R.y4 - ed / (1 - e ^ 2) * ((2 + e * c') * s')| ≤ |ed / (1 - e ^ 2)| * (4.4 * δ + 60 * ε) := by
  have huε : u ≤ ε := by rw [hu]; nlinarith [sq_nonneg e]
  have hx := y4_rnd hu0 hε0 hε he0 he1 hu R
  have hp := (p1_y1_abs hu0 hε0 hε huε he0 he1 hc hc' hcc R).2
  set B := ed / (1 - e ^ 2)
  have hδ0 : 0 ≤ δ := (abs_nonneg _).trans hcc
  have hx1 : |2 + e * c'| ≤ 3 := by
    refine (abs_add_le _ _).trans ?_
    rw [abs_mul, abs_of_nonneg he0, abs_two]
    nlinarith [abs_nonneg c']
  have hy1 : |R.y1| ≤ 3.32 := by
    rw [show R.y1 = (R.y1 - (2 + e * c')) + (2 + e * c') by ring]
    refine (abs_add_le _ _).trans ?_
    linarith
  have h1 : |R.y1 * s - (2 + e * c') * s'| ≤ (δ + 4.1 * ε) * 1.01 + 3 * δ := by
    rw [show R.y1 * s - (2 + e * c') * s' = (R.y1 - (2 + e * c')) * s + (2 + e * c') * (s - s') by ring]
    refine (abs_add_le _ _).trans ?_
    rw [abs_mul, abs_mul]
    exact add_le_add (mul_le_mul hp hs (abs_nonneg _) (by linarith)) (mul_le_mul hx1 hss (abs_nonneg _) (by norm_num))
  have h2 : |R.y1 * s| ≤ 3.4 := by
    rw [abs_mul]
    exact (mul_le_mul hy1 hs (abs_nonneg _) (by norm_num)).trans (by norm_num)
  have h3 : |R.y4 - B * (R.y1 * s)| ≤ |B| * (17.7 * ε) := by
    refine le_trans hx ?_
    rw [abs_mul B]
    calc 5.2 * ε * (|B| * |R.y1 * s|) ≤ 5.2 * ε * (|B| * 3.4) := by gcongr
      _ = |B| * (17.68 * ε) := by ring
      _ ≤ _ := by gcongr; norm_num
  rw [show R.y4 - B * ((2 + e * c') * s') = (R.y4 - B * (R.y1 * s)) + B * (R.y1 * s - (2 + e * c') * s') by ring]
  refine (abs_add_le _ _).trans ?_
  rw [abs_mul B (R.y1 * s - _)]
  have h4 := mul_le_mul_of_nonneg_left h1 (abs_nonneg B)
  have h5 : |B| * (17.7 * ε) + |B| * ((δ + 4.1 * ε) * 1.01 + 3 * δ) ≤ |B| * (4.4 * δ + 60 * ε) := by
    rw [← mul_add]
    refine mul_le_mul_of_nonneg_left ?_ (abs_nonneg B)
    nlinarith
  linarith

/-- the derivative of the true anomaly -/
theorem f_dot_abs {s' c' δ : ℝ} (hu0 : 0 ≤ u) (hε0 : 0 ≤ ε) (hε : ε ≤ 1 / 400) (he0 : 0 ≤ e) (he1 : e < 1) (hu : u = ε * (1 - e ^ 2))
    (hc : |c| ≤ 1.01) (hs : |s| ≤ 1.01) (hc' : |c'| ≤ 1) (hs' : |s'| ≤ 1) (hcc : |c - c'| ≤ δ) (hss : |s - s'| ≤ δ) (hδ : δ ≤ 0.3)
    (R : TangentRun u s c e Md ed) (w w' v : ℝ) (hw : |w| ≤ 1.01) (hw' : |w'| ≤ 1) (hww : |w - w'| ≤ δ) (hv : Rnd u (w * R.f_dot) v) :
    |v - w' * (Md / (1 - e ^ 2) ^ (1.5 : ℝ) * (1 + e * c') ^ 2 + ed / (1 - e ^ 2) * ((2 + e * c') * s'))| ≤
      (9 * δ + 76 * ε) * (|Md / (1 - e ^ 2) ^ (1.5 : ℝ)| + |ed / (1 - e ^ 2)|) := by
  have huε : u ≤ ε := by rw [hu]; nlinarith [sq_nonneg e]
  have hδ0 : 0 ≤ δ := (abs_nonneg _).trans hcc
  have h1 := x2_abs hu0 hε0 hε he0 he1 hu hc hc' hcc hδ R
  have h2 := y4_abs hu0 hε0 hε he0 he1 hu hc hs hc' hs' hcc hss hδ R
  set A := Md / (1 - e ^ 2) ^ (1.5 : ℝ)
  set B := ed / (1 - e ^ 2)
  have hx1 : |1 + e * c'| ≤ 2 := by
    refine (abs_add_le _ _).trans ?_
    rw [abs_mul, abs_of_nonneg he0, abs_one]
    nlinarith [abs_nonneg c']
  have hx2 : |2 + e * c'| ≤ 3 := by
    refine (abs_add_le _ _).trans ?_
    rw [abs_mul, abs_of_nonneg he0, abs_two]
    nlinarith [abs_nonneg c']
  set X := A * (1 + e * c') ^ 2
  set Y := B * ((2 + e * c') * s')
  have hX : |X| ≤ 4 * |A| := by
    rw [abs_mul, abs_pow]
    have : |1 + e * c'| ^ 2 ≤ 4 := by nlinarith [abs_nonneg (1 + e * c')]
    nlinarith [abs_nonneg A]
  have hY : |Y| ≤ 4 * |B| := by
    rw [abs_mul, abs_mul]
    have : |2 + e * c'| * |s'| ≤ 3 * 1 := mul_le_mul hx2 hs' (abs_nonneg _) (by norm_num)
    nlinarith [abs_nonneg B]
  have hF : |X + Y| ≤ 4 * (|A| + |B|) := (abs_add_le _ _).trans (by linarith)
  set S := |A| + |B| with hS
  have hS0 : 0 ≤ S := by positivity
  have h3 : |R.x2 + R.y4 - (X + Y)| ≤ (4.4 * δ + 60 * ε) * S := by
    rw [show R.x2 + R.y4 - (X + Y) = (R.x2 - X) + (R.y4 - Y) by ring]
    exact (abs_add_le _ _).trans ((add_le_add h1 h2).trans_eq (by rw [hS]; ring))
  have h4 : |R.x2 + R.y4| ≤ 5.6 * S := by
    rw [show R.x2 + R.y4 = (R.x2 + R.y4 - (X + Y)) + (X + Y) by ring]
    refine (abs_add_le _ _).trans ((add_le_add h3 hF).trans ?_)
    rw [← add_mul]
    exact mul_le_mul_of_nonneg_right (by linarith) hS0
  have h5 : |R.f_dot - (R.x2 + R.y4)| ≤ 5.6 * ε * S := by
    refine le_trans R.hf_dot ((mul_le_mul huε h4 (abs_nonneg _) hε0).trans_eq (by ring))
  have h6 : |R.f_dot - (X + Y)| ≤ (4.4 * δ + 65.6 * ε) * S := by
    rw [show R.f_dot - (X + Y) = (R.f_dot - (R.x2 + R.y4)) + (R.x2 + R.y4 - (X + Y)) by ring]
    exact (abs_add_le _ _).trans ((add_le_add h5 h3).trans_eq (by ring))
  have h7 : |R.f_dot| ≤ 5.7 * S := by
    rw [show R.f_dot = (R.f_dot - (X + Y)) + (X + Y) by ring]
    refine (abs_add_le _ _).trans ((add_le_add h6 hF).trans ?_)
    rw [← add_mul]
    exact mul_le_mul_of_nonneg_right (by linarith) hS0
  have h8 : |v - w * R.f_dot| ≤ 5.8 * ε * S := by
    refine le_trans hv ?_
    rw [abs_mul]
    calc u * (|w| * |R.f_dot|) ≤ ε * (1.01 * (5.7 * S)) := by gcongr
      _ = 5.757 * (ε * S) := by ring
      _ ≤ 5.8 * (ε * S) := by gcongr; norm_num
      _ = _ := by ring
  rw [show v - w' * (X + Y) = (v - w * R.f_dot) + (w * (R.f_dot - (X + Y)) + (w - w') * (X + Y)) by ring]
  have h9 : |w * (R.f_dot - (X + Y))| ≤ 1.01 * ((4.4 * δ + 65.6 * ε) * S) := by
    rw [abs_mul]
    exact mul_le_mul hw h6 (abs_nonneg _) (by norm_num)
  have h10 : |(w - w') * (X + Y)| ≤ δ * (4 * S) := by
    rw [abs_mul]
    exact mul_le_mul hww hF (abs_nonneg _) hδ0
  refine (abs_add_le _ _).trans ((add_le_add h8 ((abs_add_le _ _).trans (add_le_add h9 h10))).trans ?_)
  nlinarith [mul_nonneg hδ0 hS0, mul_nonneg hε0 hS0]

end

/-- **C115 (a).** Whatever the rounding errors: if the floating-point sine and cosine are within `δ` of a point of the unit circle, the
tangents are within `9 δ + 76 u / (1 - e²)`, times `|M'| / (1 - e²)^(3/2) + |e'| / (1 - e²)`, of the exact rule there. -/
theorem tangent_float {u s c e Md ed s' c' δ : ℝ} (hu0 : 0 ≤ u) (he0 : 0 ≤ e) (he1 : e < 1) (he : 400 * u ≤ 1 - e)
    (hs : |s| ≤ 1.01) (hc : |c| ≤ 1.01) (h' : s' ^ 2 + c' ^ 2 = 1) (hss : |s - s'| ≤ δ) (hcc : |c - c'| ≤ δ) (hδ : δ ≤ 0.3)
    (R : TangentRun u s c e Md ed) :
    |R.out1 - (jvpTangent s' c' e Md ed).1| ≤
      (9 * δ + 76 * (u / (1 - e ^ 2))) * (|Md| / (1 - e ^ 2) ^ (1.5 : ℝ) + |ed| / (1 - e ^ 2)) ∧
    |R.out2 - (jvpTangent s' c' e Md ed).2| ≤
      (9 * δ + 76 * (u / (1 - e ^ 2))) * (|Md| / (1 - e ^ 2) ^ (1.5 : ℝ) + |ed| / (1 - e ^ 2)) := by
  have hO : 0 < 1 - e ^ 2 := by nlinarith
  have hP : 0 < (1 - e ^ 2) ^ (1.5 : ℝ) := rpow_pos_of_pos hO _
  have hε : u / (1 - e ^ 2) ≤ 1 / 400 := by
    rw [div_le_iff₀ hO]
    nlinarith
  have hε0 : 0 ≤ u / (1 - e ^ 2) := div_nonneg hu0 hO.le
  have hu : u = u / (1 - e ^ 2) * (1 - e ^ 2) := (div_mul_cancel₀ _ hO.ne').symm
  have bc : |c'| ≤ 1 := abs_le_of_sq_le_sq (by nlinarith [sq_nonneg s']) zero_le_one
  have bs : |s'| ≤ 1 := abs_le_of_sq_le_sq (by nlinarith [sq_nonneg c']) zero_le_one
  have h1 := f_dot_abs hu0 hε0 hε he0 he1 hu hc hs bc bs hcc hss hδ R c c' R.out1 hc bc hcc R.hout1
  have h2 := f_dot_abs hu0 hε0 hε he0 he1 hu hc hs bc bs hcc hss hδ R (-s) (-s') R.out2 (by rwa [abs_neg]) (by rwa [abs_neg])
    (by rwa [← neg_sub', abs_neg]) R.hout2
  rw [abs_div, abs_div, abs_of_pos hP, abs_of_pos hO] at h1 h2
  have e1 : (jvpTangent s' c' e Md ed).1 =
      c' * (Md / (1 - e ^ 2) ^ (1.5 : ℝ) * (1 + e * c') ^ 2 + ed / (1 - e ^ 2) * ((2 + e * c') * s')) := by
    simp only [jvpTangent]; ring
  have e2 : (jvpTangent s' c' e Md ed).2 =
      -s' * (Md / (1 - e ^ 2) ^ (1.5 : ℝ) * (1 + e * c') ^ 2 + ed / (1 - e ^ 2) * ((2 + e * c') * s')) := by
    simp only [jvpTangent]; ring
  exact ⟨by rw [e1]; exact h1, by rw [e2]; exact h2⟩

theorem gap_parts {p q : ℝ × ℝ} : |p.1 - q.1| ≤ gap p q ∧ |p.2 - q.2| ≤ gap p q := by
  unfold gap
  refine ⟨abs_le_sqrt (by nlinarith [sq_nonneg (p.2 - q.2)]), abs_le_sqrt (by nlinarith [sq_nonneg (p.1 - q.1)])⟩

theorem unit_parts {p : ℝ × ℝ} {u : ℝ} (hu : u ≤ 1e-10) (h : |√(p.1 ^ 2 + p.2 ^ 2) - 1| ≤ 17 * u) : |p.1| ≤ 1.01 ∧ |p.2| ≤ 1.01 := by
  have h1 : √(p.1 ^ 2 + p.2 ^ 2) ≤ 1.01 := by
    have := (_root_.abs_le.1 h).2
    norm_num at hu ⊢
    linarith
  refine ⟨le_trans (abs_le_sqrt (by nlinarith [sq_nonneg p.2])) h1, le_trans (abs_le_sqrt (by nlinarith [sq_nonneg p.1])) h1⟩

/-- the tangents, given the accuracy of the primal outputs -/
theorem jvp_of_gap {u M e Md ed f : ℝ} (hu0 : 0 ≤ u) (hu : u ≤ 1e-10) (he0 : 0 ≤ e) (he : 400 * u ≤ 1 - e) (he1 : e < 1)
    (R : JvpRun u M e Md ed) (hg : gap R.primal.result (sin f, cos f) ≤ 1.5e-13 + 108 * u / (1 - e)) :
    |R.tangents.1 - (jvpTangent (sin f) (cos f) e Md ed).1| ≤
      (1.4e-12 + 1050 * u / (1 - e)) * (|Md| / (1 - e ^ 2) ^ (1.5 : ℝ) + |ed| / (1 - e ^ 2)) ∧
    |R.tangents.2 - (jvpTangent (sin f) (cos f) e Md ed).2| ≤
      (1.4e-12 + 1050 * u / (1 - e)) * (|Md| / (1 - e ^ 2) ^ (1.5 : ℝ) + |ed| / (1 - e ^ 2)) := by
  have hw : 0 < 1 - e := by linarith
  have hO : 0 < 1 - e ^ 2 := by nlinarith
  have hP : 0 < (1 - e ^ 2) ^ (1.5 : ℝ) := rpow_pos_of_pos hO _
  obtain ⟨b1, b2⟩ := unit_parts hu (float_on_unit_circle hu0 hu R.primal)
  have hux : u / (1 - e) ≤ 1 / 400 := by rw [div_le_iff₀ hw]; linarith
  have huw : u / (1 - e ^ 2) ≤ u / (1 - e) := div_le_div_of_nonneg_left hu0 hw (by nlinarith)
  have e1 : 108 * u / (1 - e) = 108 * (u / (1 - e)) := by ring
  have e2 : 1050 * u / (1 - e) = 1050 * (u / (1 - e)) := by ring
  have hδ : gap R.primal.result (sin f, cos f) ≤ 0.3 := by
    rw [e1] at hg
    norm_num at hg ⊢
    linarith
  obtain ⟨h1, h2⟩ := tangent_float hu0 he0 he1 he b1 b2 (sin_sq_add_cos_sq f)
    (gap_parts (q := (sin f, cos f))).1 (gap_parts (q := (sin f, cos f))).2 hδ R.tangent
  have hk : 9 * gap R.primal.result (sin f, cos f) + 76 * (u / (1 - e ^ 2)) ≤ 1.4e-12 + 1050 * u / (1 - e) := by
    rw [e1] at hg
    rw [e2]
    have : 0 ≤ u / (1 - e) := div_nonneg hu0 hw.le
    norm_num at hg ⊢
    linarith
  have hS : 0 ≤ |Md| / (1 - e ^ 2) ^ (1.5 : ℝ) + |ed| / (1 - e ^ 2) := by positivity
  exact ⟨h1.trans (mul_le_mul_of_nonneg_right hk hS), h2.trans (mul_le_mul_of_nonneg_right hk hS)⟩

/-- Specification: `(ds, dc)` are the derivatives of the sine and cosine of the true anomaly at mean anomaly `M` and eccentricity `e`,
along every curve with the velocity `(Md, ed)`. -/
def AnomalyDerivative (M e Md ed ds dc : ℝ) : Prop :=
  ∀ (Mt et f : ℝ → ℝ) (t : ℝ), Mt t = M → et t = e → HasDerivAt Mt Md t → HasDerivAt et ed t →
    (∀ᶠ s in nhds t, TrueAnomalyAt (Mt s) (et s) (f s)) →
    HasDerivAt (fun s => sin (f s)) ds t ∧ HasDerivAt (fun s => cos (f s)) dc t

theorem anomalyDerivative {M e f : ℝ} (Md ed : ℝ) (he0 : 0 ≤ e) (he1 : e < 1) (hf : TrueAnomalyAt M e f) :
    AnomalyDerivative M e Md ed (jvpTangent (sin f) (cos f) e Md ed).1 (jvpTangent (sin f) (cos f) e Md ed).2 := by
  rintro Mt et ft t rfl rfl hM hE hft
  obtain ⟨E, hE1, hf1⟩ := hf
  obtain ⟨E', hE2, hf2⟩ := hft.self_of_nhds
  have hEE := keplerEq_unique he0 he1 hE1 hE2
  subst hEE
  have h3 : (sin f, cos f) = (sin (ft t), cos (ft t)) := by
    rw [← toTrueAnomaly_of_isTrueAnomaly he0 he1 hf1, ← toTrueAnomaly_of_isTrueAnomaly he0 he1 hf2]
  obtain ⟨h4, h5⟩ := Prod.mk.inj h3
  rw [h4, h5]
  exact jvp_correct he0 he1 hM hE hft

/-- the derivatives are determined by the specification -/
theorem anomalyDerivative_unique {M e Md ed ds dc ds' dc' : ℝ} (he0 : 0 ≤ e) (he1 : e < 1) (h : AnomalyDerivative M e Md ed ds dc)
    (h' : AnomalyDerivative M e Md ed ds' dc') : ds = ds' ∧ dc = dc' := by
  obtain ⟨kep, hk⟩ := Keplerian.exists_exactNear
  have hk' : ∀ M e : ℝ, ∃ f, |e| < 1 → TrueAnomalyAt M e f := by
    intro M e
    by_cases he : |e| < 1
    · obtain ⟨f, hf, -⟩ := hk M e he
      exact ⟨f, fun _ => hf⟩
    · exact ⟨0, fun h => absurd h he⟩
  choose f hf using hk'
  have hM : HasDerivAt (fun t : ℝ => M + t * Md) Md 0 := by
    simpa using ((hasDerivAt_id (0 : ℝ)).mul_const Md).const_add M
  have hE : HasDerivAt (fun t : ℝ => e + t * ed) ed 0 := by
    simpa using ((hasDerivAt_id (0 : ℝ)).mul_const ed).const_add e
  have hn : ∀ᶠ t in nhds (0 : ℝ), TrueAnomalyAt (M + t * Md) (e + t * ed) (f (M + t * Md) (e + t * ed)) := by
    have h0 : |e + 0 * ed| < 1 := by rw [zero_mul, add_zero, abs_of_nonneg he0]; exact he1
    filter_upwards [hE.continuousAt.abs.eventually_lt continuousAt_const h0] with t ht
    exact hf _ _ ht
  obtain ⟨a1, a2⟩ := h _ _ _ 0 (by simp) (by simp) hM hE hn
  obtain ⟨b1, b2⟩ := h' _ _ _ 0 (by simp) (by simp) hM hE hn
  exact ⟨a1.unique b1, a2.unique b2⟩

/-- **C115 (b).** Accuracy of the derivatives: every floating-point run of the derivative rule with unit roundoff `u ≤ 1e-10` and
`1 - ecc ≥ 400 u` returns the derivatives of the sine and cosine of the exact true anomaly, at a mean anomaly that differs from `M`,
reduced to one revolution, by at most `u (3 |M| + 60)`, up to `(1.4e-12 + 1050 u / (1 - ecc))` times
`|M'| / (1 - ecc²)^(3/2) + |ecc'| / (1 - ecc²)`, which is how large the derivatives themselves may be. -/
theorem jvp_float {u M e Md ed : ℝ} (hu0 : 0 ≤ u) (hu : u ≤ 1e-10) (he0 : 0 ≤ e) (he : 400 * u ≤ 1 - e) (he1 : e < 1)
    (R : JvpRun u M e Md ed) :
    ∃ M' ds dc, |M' - (M - R.primal.n * (2 * π))| ≤ u * (3 * |M| + 60) ∧ AnomalyDerivative M' e Md ed ds dc ∧
      |R.tangents.1 - ds| ≤ (1.4e-12 + 1050 * u / (1 - e)) * (|Md| / (1 - e ^ 2) ^ (1.5 : ℝ) + |ed| / (1 - e ^ 2)) ∧
      |R.tangents.2 - dc| ≤ (1.4e-12 + 1050 * u / (1 - e)) * (|Md| / (1 - e ^ 2) ^ (1.5 : ℝ) + |ed| / (1 - e ^ 2)) := by
  obtain ⟨M', f, h1, h2, h3⟩ := float_accurate hu0 hu he0 he he1 R.primal
  exact ⟨M', _, _, h1, anomalyDerivative Md ed he0 he1 h2, jvp_of_gap hu0 hu he0 he he1 R h3⟩

/-- **C115 (c).** For a mean anomaly in `[0, π]` they are the derivatives at that very mean anomaly. -/
theorem jvp_float_half {u M e Md ed : ℝ} (hu0 : 0 ≤ u) (hu : u ≤ 1e-10) (he0 : 0 ≤ e) (he : 400 * u ≤ 1 - e) (he1 : e < 1)
    (R : JvpRun u M e Md ed) (hM : R.primal.Mr = M) (hpi : M ≤ R.primal.pi) (hπ : M ≤ π) :
    ∃ ds dc, AnomalyDerivative M e Md ed ds dc ∧
      |R.tangents.1 - ds| ≤ (1.4e-12 + 1050 * u / (1 - e)) * (|Md| / (1 - e ^ 2) ^ (1.5 : ℝ) + |ed| / (1 - e ^ 2)) ∧
      |R.tangents.2 - dc| ≤ (1.4e-12 + 1050 * u / (1 - e)) * (|Md| / (1 - e ^ 2) ^ (1.5 : ℝ) + |ed| / (1 - e ^ 2)) := by
  obtain ⟨f, hf⟩ : ∃ f, TrueAnomalyAt M e f := by
    obtain ⟨f, hf⟩ := exists_isTrueAnomaly he0 he1 (exactE M e)
    exact ⟨f, _, exactE_spec (by rwa [abs_of_nonneg he0]), hf⟩
  exact ⟨_, _, anomalyDerivative Md ed he0 he1 hf,
    jvp_of_gap hu0 hu he0 he he1 R (float_accurate_half hu0 hu he0 he he1 R.primal hM hpi hπ hf)⟩

/-- **C115 (d).** No run divides by zero or takes a power of a negative number: the derivatives are never `nan` or `inf` of its own
making. -/
theorem jvp_float_no_failure {u M e Md ed : ℝ} (hu0 : 0 ≤ u) (hu : u ≤ 1e-10) (he0 : 0 ≤ e) (he : 400 * u ≤ 1 - e) (he1 : e < 1)
    (R : JvpRun u M e Md ed) : 0 < R.tangent.ome2 ∧ 0 < R.tangent.q := by
  have hO : 0 < 1 - e ^ 2 := by nlinarith
  have hu1 : u < 1 := by norm_num at hu; linarith
  have hε : u / (1 - e ^ 2) ≤ 1 / 400 := by
    rw [div_le_iff₀ hO]
    nlinarith
  have h1 := ome2_rnd hu0 hε he0 he1 (div_mul_cancel₀ _ hO.ne').symm R.tangent
  have h2 : 0 < R.tangent.ome2 := Rnd.pos (by linarith) h1 hO
  exact ⟨h2, Rnd.pos hu1 R.tangent.hq (rpow_pos_of_pos h2 _)⟩

/-- **C115 (e).** With exact operations the run is the model of exact arithmetic. -/
theorem jvp_float_exact {M e Md ed : ℝ} (R : JvpRun 0 M e Md ed) (hM : R.primal.Mr < R.primal.two_pi) :
    (R.primal.result, R.tangents) = keplerJvp M e Md ed := by
  have h := float_exact R.primal hM
  simp only [keplerJvp, ← h, jvpTangent, JvpRun.tangents]
  rw [rnd_zero.1 R.tangent.hout1, rnd_zero.1 R.tangent.hout2, rnd_zero.1 R.tangent.hf_dot, rnd_zero.1 R.tangent.hy4,
    rnd_zero.1 R.tangent.hy3, rnd_zero.1 R.tangent.hy2, rnd_zero.1 R.tangent.hy1, rnd_zero.1 R.tangent.hx2, rnd_zero.1 R.tangent.hq,
    rnd_zero.1 R.tangent.hx1, rnd_zero.1 R.tangent.hp2, rnd_zero.1 R.tangent.hp1, rnd_zero.1 R.tangent.home2, rnd_zero.1 R.tangent.he2,
    rnd_zero.1 R.tangent.hecosf]
  simp only [pow_two]

/-- the run of the derivative rule with a rounding function -/
noncomputable def TangentRun.ofRounding {u : ℝ} (fl : ℝ → ℚ) (h : ∀ x, Rnd u x (fl x)) (s c e Md ed : ℝ) : TangentRun u s c e Md ed :=
  ⟨_, h _, _, h _, _, h _, _, h _, _, h _, _, h _, _, h _, _, h _, _, h _, _, h _, _, h _, _, h _, _, h _, _, h _, _, h _⟩

/-- the run of the whole rule with a rounding function -/
noncomputable def JvpRun.ofRounding {u : ℝ} (hu0 : 0 ≤ u) (hu1 : u < 1) (fl : ℝ → ℚ) (h : ∀ x, Rnd u x (fl x)) (M e Md ed : ℝ) :
    JvpRun u M e Md ed :=
  ⟨KeplerRun.ofRounding hu0 hu1 fl h M e, TangentRun.ofRounding fl h _ _ _ _ _⟩

/-- **C115 (f).** Double precision: for eccentricities up to `0.9`, the derivatives returned with any rounding of unit roundoff `2⁻⁵²` are
those of the exact true anomaly (at a mean anomaly within the rounding of the reduction) up to `4e-12` of their size. -/
theorem jvp_float_double (fl : ℝ → ℚ) (h : ∀ x, Rnd (2 ^ (-52 : ℤ)) x (fl x)) {M e : ℝ} (Md ed : ℝ) (he0 : 0 ≤ e) (he : e ≤ 0.9) :
    ∃ M' ds dc, ∃ n : ℤ, |M' - (M - n * (2 * π))| ≤ 2 ^ (-52 : ℤ) * (3 * |M| + 60) ∧ AnomalyDerivative M' e Md ed ds dc ∧
      |(JvpRun.ofRounding (u := 2 ^ (-52 : ℤ)) (by positivity) (by norm_num) fl h M e Md ed).tangents.1 - ds| ≤
        4e-12 * (|Md| / (1 - e ^ 2) ^ (1.5 : ℝ) + |ed| / (1 - e ^ 2)) ∧
      |(JvpRun.ofRounding (u := 2 ^ (-52 : ℤ)) (by positivity) (by norm_num) fl h M e Md ed).tangents.2 - dc| ≤
        4e-12 * (|Md| / (1 - e ^ 2) ^ (1.5 : ℝ) + |ed| / (1 - e ^ 2)) := by
  have hw : 0.1 ≤ 1 - e := by norm_num at he ⊢; linarith
  have hw0 : 0 < 1 - e := by norm_num at hw; linarith
  have hO : 0 < 1 - e ^ 2 := by nlinarith
  have hP : 0 < (1 - e ^ 2) ^ (1.5 : ℝ) := rpow_pos_of_pos hO _
  have hS : 0 ≤ |Md| / (1 - e ^ 2) ^ (1.5 : ℝ) + |ed| / (1 - e ^ 2) := by positivity
  have hu0 : (0 : ℝ) ≤ 2 ^ (-52 : ℤ) := by positivity
  obtain ⟨M', ds, dc, h1, h2, h3, h4⟩ := jvp_float (M := M) (e := e) (Md := Md) (ed := ed) (u := 2 ^ (-52 : ℤ)) hu0 (by norm_num) he0
    (le_trans (by norm_num) hw) (by linarith) (JvpRun.ofRounding hu0 (by norm_num) fl h M e Md ed)
  have hb : (1.4e-12 : ℝ) + 1050 * 2 ^ (-52 : ℤ) / (1 - e) ≤ 4e-12 := by
    have : (1050 : ℝ) * 2 ^ (-52 : ℤ) / (1 - e) ≤ 1050 * 2 ^ (-52 : ℤ) / 0.1 := div_le_div_of_nonneg_left (by positivity) (by norm_num) hw
    refine (add_le_add_right this _).trans (by norm_num)
  exact ⟨M', ds, dc, _, h1, h2, h3.trans (mul_le_mul_of_nonneg_right hb hS), h4.trans (mul_le_mul_of_nonneg_right hb hS)⟩

/-- non-vacuity: such runs exist for every input -/
example : ∃ fl : ℝ → ℚ, ∀ x, Rnd (2 ^ (-52 : ℤ)) x (fl x) := exists_rounding (by positivity)

end Jaxoplanet.KeplerFloat
