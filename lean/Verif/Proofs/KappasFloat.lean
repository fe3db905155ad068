import Verif.Proofs.LensPerturb
import Verif.Proofs.KiteFloat

/-! The rounding errors of `kappas` and of the choice between the regimes. -/

namespace Jaxoplanet.LimbDarkFloat

open Real KeplerFloat

/-- the product `(r - 1) * (r + 1)` -/
theorem factor_rnd {u b r op : ℝ} (hu0 : 0 ≤ u) (hu : u ≤ 1e-4) (k : KappasRun u b r op) :
    Rnd (3.1 * u) ((r - 1) * (r + 1)) k.factor := by
  norm_num at hu
  have huu : u * u ≤ 1 / 10000 * u := mul_le_mul_of_nonneg_right hu hu0
  have huuu : u * u * u ≤ 1 / 10000 * u * u := mul_le_mul_of_nonneg_right huu hu0
  refine ((k.hrm.mul0 k.hrp hu0 hu0).trans k.hfactor (by positivity) hu0).mono ?_
  norm_num
  linarith

/-- the computed cosines when the program believes that the discs cross -/
theorem cosines {u b r op : ℝ} (hu0 : 0 ≤ u) (hu : u ≤ 1e-4) (hb : 0 ≤ b) (hr : 0 ≤ r) (h1 : |1 - r| ≤ 1.001 * b)
    (h2 : b ≤ 1.001 * (1 + r)) (k : KappasRun u b r op) :
    |k.y1 - (b ^ 2 + 1 - r ^ 2)| ≤ b * (7 * u * (1 + r)) ∧ |k.y0 - (b ^ 2 + r ^ 2 - 1)| ≤ b * (7 * u * (1 + r)) := by
  have hf := factor_rnd hu0 hu k
  norm_num at hu
  have hf1 := Rnd.sub_abs hf
  have hb1 := Rnd.sub_abs k.hb2
  have hy1 := Rnd.sub_abs k.hy1
  have hy0 := Rnd.sub_abs k.hy0
  have hbb : |b * b| ≤ 1.001 * (b * (1 + r)) := by
    rw [abs_of_nonneg (by positivity)]
    have := mul_le_mul_of_nonneg_left h2 hb
    norm_num at this ⊢; linarith
  have hff : |(r - 1) * (r + 1)| ≤ 1.001 * (b * (1 + r)) := by
    rw [abs_mul, abs_sub_comm, abs_of_nonneg (by linarith : 0 ≤ r + 1)]
    have := mul_le_mul_of_nonneg_right h1 (by linarith : 0 ≤ r + 1)
    norm_num at this ⊢; linarith
  generalize hw : b * (1 + r) = w at hbb hff
  have hw0 : 0 ≤ w := by rw [← hw]; positivity
  have huw : 0 ≤ u * w := by positivity
  have huw' : u * w ≤ 1 / 10000 * w := mul_le_mul_of_nonneg_right hu hw0
  have t1 : |k.b2 - b * b| ≤ 1.001 * (u * w) := hb1.trans ((mul_le_mul_of_nonneg_left hbb hu0).trans (by norm_num; linarith))
  have t2 : |k.factor - (r - 1) * (r + 1)| ≤ 3.11 * (u * w) :=
    hf1.trans ((mul_le_mul_of_nonneg_left hff (by positivity)).trans (by norm_num; linarith))
  have t3 : |k.b2| ≤ 1.003 * w := by
    have := abs_sub_abs_le_abs_sub k.b2 (b * b)
    norm_num at *; linarith
  have t4 : |k.factor| ≤ 1.003 * w := by
    have := abs_sub_abs_le_abs_sub k.factor ((r - 1) * (r + 1))
    norm_num at *; linarith
  have t5 : |k.b2 - k.factor| ≤ 2.006 * w := (abs_sub _ _).trans (by norm_num at *; linarith)
  have t6 : |k.b2 + k.factor| ≤ 2.006 * w := (abs_add_le _ _).trans (by norm_num at *; linarith)
  have t7 : |k.y1 - (k.b2 - k.factor)| ≤ 2.006 * (u * w) :=
    hy1.trans ((mul_le_mul_of_nonneg_left t5 hu0).trans (le_of_eq (by ring)))
  have t8 : |k.y0 - (k.b2 + k.factor)| ≤ 2.006 * (u * w) :=
    hy0.trans ((mul_le_mul_of_nonneg_left t6 hu0).trans (le_of_eq (by ring)))
  rw [show b * (7 * u * (1 + r)) = 7 * (u * w) by rw [← hw]; ring]
  norm_num at t1 t2 t7 t8
  constructor
  · rw [show k.y1 - (b ^ 2 + 1 - r ^ 2) = (k.y1 - (k.b2 - k.factor)) + (k.b2 - b * b) - (k.factor - (r - 1) * (r + 1)) by ring]
    refine (abs_sub _ _).trans ?_
    have := abs_add_le (k.y1 - (k.b2 - k.factor)) (k.b2 - b * b)
    linarith
  · rw [show k.y0 - (b ^ 2 + r ^ 2 - 1) = (k.y0 - (k.b2 + k.factor)) + (k.b2 - b * b) + (k.factor - (r - 1) * (r + 1)) by ring]
    refine (abs_add_le _ _).trans ?_
    have := abs_add_le (k.y0 - (k.b2 + k.factor)) (k.b2 - b * b)
    linarith

theorem rnd_neg {ε x y : ℝ} (hε : ε < 1) (h : Rnd ε x y) (hx : x < 0) : y < 0 := by
  have := h.neg.pos hε (by linarith)
  linarith

/-- the angles when the program believes that the smaller disc is inside the larger one -/
theorem kappas_inside {u b r op : ℝ} (hu0 : 0 ≤ u) (hu : u ≤ 1e-4) (hb : 0 ≤ b) (hr : 0 ≤ r) (hur : u * (1 + r) ≤ 1e-3)
    (k : KappasRun u b r op) (hin : b ≤ |k.om|) (hne : r ≠ 1) :
    (r < 1 → arctan2 0 k.y1 = 0 ∧ (3.1 * u < r → arctan2 0 k.y0 = π)) ∧
    (1 < r → arctan2 0 k.y1 = π ∧ arctan2 0 k.y0 = 0) := by
  have hf := factor_rnd hu0 hu k
  norm_num at hu hur
  have hu1 : u < 1 := by linarith
  obtain ⟨θ, hθ, eθ⟩ := hf.factor (by positivity)
  obtain ⟨δ, hδ, eδ⟩ := k.hb2.factor hu0
  have hθ2 := abs_le.1 hθ
  have hδ2 := abs_le.1 hδ
  norm_num at hθ2
  have hom := k.hom.abs_le
  have hb2 : 0 ≤ k.b2 := k.hb2.nonneg hu1.le (by positivity)
  have hbo : b ≤ (1 + u) * |1 - r| := hin.trans hom
  have hbsq : k.b2 ≤ (1 + 3.1 * u) * (1 - r) ^ 2 := by
    have h1 : b * b ≤ ((1 + u) * |1 - r|) * ((1 + u) * |1 - r|) := mul_le_mul hbo hbo hb (by positivity)
    have h2 : ((1 + u) * |1 - r|) * ((1 + u) * |1 - r|) = (1 + u) ^ 2 * (1 - r) ^ 2 := by rw [← sq_abs (1 - r)]; ring
    have h3 : k.b2 ≤ b * b * (1 + u) := by
      rw [eδ]
      exact mul_le_mul_of_nonneg_left (by linarith) (by positivity)
    have h4 : b * b * (1 + u) ≤ (1 + u) ^ 2 * (1 - r) ^ 2 * (1 + u) :=
      mul_le_mul_of_nonneg_right (h1.trans h2.le) (by linarith)
    have huu : u * u ≤ 1 / 10000 * u := mul_le_mul_of_nonneg_right hu hu0
    have huuu : u * u * u ≤ 1 / 10000 * u * u := mul_le_mul_of_nonneg_right huu hu0
    have h5 : (1 + u) ^ 3 ≤ 1 + 3.1 * u := by norm_num; linarith
    have h6 := mul_le_mul_of_nonneg_right h5 (sq_nonneg (1 - r))
    linarith
  constructor
  · intro h
    have hfn : k.factor < 0 := by
      rw [eθ]
      refine mul_neg_of_neg_of_pos (mul_neg_of_neg_of_pos (by linarith) (by linarith)) (by linarith)
    refine ⟨arctan2_zero_pos (k.hy1.pos hu1 (by linarith)).le, fun hr' => arctan2_zero_neg (rnd_neg hu1 k.hy0 ?_)⟩
    have h1 : k.factor ≤ -((1 - r) * (1 + r) * (1 - 3.1 * u)) := by
      rw [eθ, show (r - 1) * (r + 1) * (1 + θ) = -((1 - r) * (1 + r) * (1 + θ)) by ring]
      refine neg_le_neg (mul_le_mul_of_nonneg_left ?_ (mul_nonneg (by linarith) (by linarith)))
      norm_num; linarith
    have h2 : (1 + 3.1 * u) * (1 - r) ^ 2 - (1 - r) * (1 + r) * (1 - 3.1 * u) = (1 - r) * (2 * (3.1 * u - r)) := by ring
    have h3 : (1 - r) * (2 * (3.1 * u - r)) < 0 := mul_neg_of_pos_of_neg (by linarith) (by linarith)
    linarith
  · intro h
    have hfp : 0 < k.factor := by
      rw [eθ]
      exact mul_pos (mul_pos (by linarith) (by linarith)) (by linarith)
    refine ⟨arctan2_zero_neg (rnd_neg hu1 k.hy1 ?_), arctan2_zero_pos (k.hy0.pos hu1 (by linarith)).le⟩
    have h1 : (r - 1) * (1 + r) * (1 - 3.1 * u) ≤ k.factor := by
      rw [eθ, show (r - 1) * (r + 1) * (1 + θ) = ((r - 1) * (1 + r) * (1 + θ)) by ring]
      refine (mul_le_mul_of_nonneg_left ?_ (mul_nonneg (by linarith) (by linarith)))
      norm_num; linarith
    have h2 : (1 + 3.1 * u) * (1 - r) ^ 2 - (r - 1) * (1 + r) * (1 - 3.1 * u) = (r - 1) * (2 * (3.1 * (u * r) - 1)) := by ring
    have h3 : (r - 1) * (2 * (3.1 * (u * r) - 1)) < 0 :=
      mul_neg_of_pos_of_neg (by linarith) (by norm_num; linarith)
    linarith

/-- Heron's product is hardly negative when the program believes that the discs cross -/
theorem heron_ge {u b r : ℝ} (hu0 : 0 ≤ u) (hb : 0 ≤ b) (hr : 0 ≤ r) (h1 : |1 - r| ≤ b * (1 + 1.001 * u)) (hu : u ≤ 1e-4)
    (h2 : b ≤ (1 + u) * (1 + r)) : -(173 * u * (1 + r) ^ 3 * b) ≤ heron b r := by
  norm_num at hu h1
  obtain ⟨h3, h4⟩ := abs_le.1 h1
  have hub : 0 ≤ u * b := by positivity
  have ub : u * b ≤ 1 / 10000 * b := mul_le_mul_of_nonneg_right hu hb
  have hR : 0 ≤ 1 + r := by linarith
  have uR : u * (1 + r) ≤ 1 / 10000 * (1 + r) := mul_le_mul_of_nonneg_right hu hR
  generalize hRd : 1 + r = R at *
  have g0 : 0 ≤ r + b + 1 := by linarith
  have g0' : r + b + 1 ≤ 2.01 * R := by norm_num; linarith
  have gr : -(1.01 * (u * b)) ≤ -r + b + 1 := by norm_num; linarith
  have gr' : -r + b + 1 ≤ 2.01 * b := by norm_num; linarith
  have g1 : -(1.01 * (u * b)) ≤ r + b - 1 := by norm_num; linarith
  have g1' : r + b - 1 ≤ 2.01 * b := by norm_num; linarith
  have gb : -(u * R) ≤ r - b + 1 := by linarith
  have gb' : r - b + 1 ≤ R := by linarith
  have hbR : b ≤ 1.01 * R := by norm_num; linarith
  unfold heron
  have fin : ∀ c : ℝ, c ≤ 173 → -(173 * u * R ^ 3 * b) ≤ -(c * (u * R ^ 3 * b)) := by
    intro c hc
    have : 0 ≤ u * R ^ 3 * b := by positivity
    nlinarith
  have bR2 : b * b ≤ 1.01 * R * b := mul_le_mul_of_nonneg_right hbR hb
  by_cases c1 : -r + b + 1 < 0
  · -- the occultor is larger
    have p1 : 0 ≤ r - b + 1 := by linarith
    have p2 : 0 ≤ r + b - 1 := by linarith
    have q1 : (r + b + 1) * (r - b + 1) * (r + b - 1) ≤ 2.01 * R * R * (2.01 * b) :=
      mul_le_mul (mul_le_mul g0' gb' p1 (by positivity)) g1' p2 (by positivity)
    have q2 : (r + b + 1) * (r - b + 1) * (r + b - 1) * (1.01 * (u * b)) ≤ 2.01 * R * R * (2.01 * b) * (1.01 * (u * b)) :=
      mul_le_mul_of_nonneg_right q1 (by positivity)
    have q3 : -((r + b + 1) * (r - b + 1) * (r + b - 1) * (1.01 * (u * b))) ≤ (r + b + 1) * (r - b + 1) * (r + b - 1) * (-r + b + 1) := by
      rw [← mul_neg]
      exact mul_le_mul_of_nonneg_left gr (by positivity)
    have q4 : 2.01 * R * R * (2.01 * b) * (1.01 * (u * b)) ≤ 5 * (u * R ^ 3 * b) := by
      have := mul_le_mul_of_nonneg_left bR2 (by positivity : 0 ≤ 2.01 * 2.01 * 1.01 * (R ^ 2 * u))
      have h0 : 0 ≤ u * R ^ 3 * b := by positivity
      calc 2.01 * R * R * (2.01 * b) * (1.01 * (u * b)) = 2.01 * 2.01 * 1.01 * (R ^ 2 * u) * (b * b) := by ring
        _ ≤ _ := this
        _ = (2.01 * 2.01 * 1.01 * 1.01) * (u * R ^ 3 * b) := by ring
        _ ≤ _ := mul_le_mul_of_nonneg_right (by norm_num) h0
    linarith [fin 5 (by norm_num)]
  by_cases c2 : r + b - 1 < 0
  · have p1 : 0 ≤ r - b + 1 := by linarith
    have p2 : 0 ≤ -r + b + 1 := by linarith
    have q1 : (r + b + 1) * (r - b + 1) * (-r + b + 1) ≤ 2.01 * R * R * (2.01 * b) :=
      mul_le_mul (mul_le_mul g0' gb' p1 (by positivity)) gr' p2 (by positivity)
    have q2 : (r + b + 1) * (r - b + 1) * (-r + b + 1) * (1.01 * (u * b)) ≤ 2.01 * R * R * (2.01 * b) * (1.01 * (u * b)) :=
      mul_le_mul_of_nonneg_right q1 (by positivity)
    have q3 : -((r + b + 1) * (r - b + 1) * (-r + b + 1) * (1.01 * (u * b))) ≤ (r + b + 1) * (r - b + 1) * (-r + b + 1) * (r + b - 1) := by
      rw [← mul_neg]
      exact mul_le_mul_of_nonneg_left g1 (by positivity)
    have q4 : 2.01 * R * R * (2.01 * b) * (1.01 * (u * b)) ≤ 5 * (u * R ^ 3 * b) := by
      have := mul_le_mul_of_nonneg_left bR2 (by positivity : 0 ≤ 2.01 * 2.01 * 1.01 * (R ^ 2 * u))
      have h0 : 0 ≤ u * R ^ 3 * b := by positivity
      calc 2.01 * R * R * (2.01 * b) * (1.01 * (u * b)) = 2.01 * 2.01 * 1.01 * (R ^ 2 * u) * (b * b) := by ring
        _ ≤ _ := this
        _ = (2.01 * 2.01 * 1.01 * 1.01) * (u * R ^ 3 * b) := by ring
        _ ≤ _ := mul_le_mul_of_nonneg_right (by norm_num) h0
    linarith [fin 5 (by norm_num)]
  rw [not_lt] at c1 c2
  have q1 : (r + b + 1) * (-r + b + 1) * (r + b - 1) ≤ 2.01 * R * (2.01 * b) * (2.01 * b) :=
    mul_le_mul (mul_le_mul g0' gr' c1 (by positivity)) g1' c2 (by positivity)
  have q2 : (r + b + 1) * (-r + b + 1) * (r + b - 1) * (u * R) ≤ 2.01 * R * (2.01 * b) * (2.01 * b) * (u * R) :=
    mul_le_mul_of_nonneg_right q1 (by positivity)
  have q3 : -((r + b + 1) * (-r + b + 1) * (r + b - 1) * (u * R)) ≤ (r + b + 1) * (-r + b + 1) * (r + b - 1) * (r - b + 1) := by
    rw [← mul_neg]
    exact mul_le_mul_of_nonneg_left gb (by positivity)
  have q4 : 2.01 * R * (2.01 * b) * (2.01 * b) * (u * R) ≤ 9 * (u * R ^ 3 * b) := by
    have := mul_le_mul_of_nonneg_left bR2 (by positivity : 0 ≤ 2.01 * 2.01 * 2.01 * (R ^ 2 * u))
    have h0 : 0 ≤ u * R ^ 3 * b := by positivity
    calc 2.01 * R * (2.01 * b) * (2.01 * b) * (u * R) = 2.01 * 2.01 * 2.01 * (R ^ 2 * u) * (b * b) := by ring
      _ ≤ _ := this
      _ = (2.01 * 2.01 * 2.01 * 1.01) * (u * R ^ 3 * b) := by ring
      _ ≤ _ := mul_le_mul_of_nonneg_right (by norm_num) h0
  linarith [fin 9 (by norm_num)]

end Jaxoplanet.LimbDarkFloat
