import Verif.Proofs.DiscOverlap
import Mathlib.Analysis.Real.Pi.Bounds

/-! The lens area under perturbations of the kite area and of the cosines. -/

namespace Jaxoplanet.LimbDarkFloat

open Real

theorem abs_sub_le_sqrt {a b : ℝ} (ha : 0 ≤ a) (hb : 0 ≤ b) {e : ℝ} (h : |a ^ 2 - b ^ 2| ≤ e) : |a - b| ≤ √e := by
  refine abs_le_sqrt ?_
  refine le_trans ?_ h
  rw [show a ^ 2 - b ^ 2 = (a - b) * (a + b) by ring, abs_mul, abs_of_nonneg (add_nonneg ha hb), ← sq_abs, sq]
  refine mul_le_mul_of_nonneg_left ?_ (abs_nonneg _)
  rw [abs_le]; constructor <;> linarith

/-- one angle, a change of the area -/
theorem angle_area {σ x D E A0 A' d : ℝ} (hD : D = σ + x ^ 2) (hd : 0 < d) (hDd : D = d ^ 2) (h0 : 0 ≤ A0) (h' : 0 ≤ A')
    (hs : σ ≤ A0 ^ 2) (e0 : |σ - A0 ^ 2| ≤ E) (e' : |σ - A' ^ 2| ≤ E) :
    |arctan2 A' x - arctan2 A0 x - (A' - A0) * x / D| ≤ E / D * min π (π * √(2 * E) / d) := by
  have hD0 : 0 < D := by rw [hDd]; positivity
  refine (arctan2_lin hD hD0 h0 h' e0 e').trans (mul_le_mul_of_nonneg_left (le_min (abs_arctan2_sub_le h' h0 _ _) ?_) ?_)
  · rw [le_div_iff₀ hd]
    have h1 := arctan2_sub_A h0 h' x
    have h2 : d ≤ √(A0 ^ 2 + x ^ 2) := by
      refine le_sqrt_of_sq_le ?_
      rw [← hDd, hD]; linarith
    have h3 : |A' - A0| ≤ √(2 * E) := by
      refine abs_sub_le_sqrt h' h0 ?_
      rw [show A' ^ 2 - A0 ^ 2 = (σ - A0 ^ 2) - (σ - A' ^ 2) by ring]
      exact (abs_sub _ _).trans (by linarith)
    calc |arctan2 A' x - arctan2 A0 x| * d ≤ |arctan2 A' x - arctan2 A0 x| * √(A0 ^ 2 + x ^ 2) :=
          mul_le_mul_of_nonneg_left h2 (abs_nonneg _)
      _ ≤ π * |A' - A0| := h1
      _ ≤ π * √(2 * E) := mul_le_mul_of_nonneg_left h3 pi_pos.le
  · exact div_nonneg ((abs_nonneg _).trans e0) hD0.le

theorem lens_area_pert {b r E A0 A' : ℝ} (hb : 0 < b) (hr : 0 < r) (h0 : 0 ≤ A0) (h' : 0 ≤ A')
    (hs : heron b r ≤ A0 ^ 2) (e0 : |heron b r - A0 ^ 2| ≤ E) (e' : |heron b r - A' ^ 2| ≤ E) :
    |lens r A' (b ^ 2 + 1 - r ^ 2) (b ^ 2 + r ^ 2 - 1) - lens r A0 (b ^ 2 + 1 - r ^ 2) (b ^ 2 + r ^ 2 - 1)| ≤
      E / (4 * b ^ 2) * (min π (π * √(2 * E) / (2 * b)) + min π (π * √(2 * E) / (2 * b * r))) := by
  have k1 := angle_area (heron_x1 b r).symm (by positivity : 0 < 2 * b) (by ring) h0 h' hs e0 e'
  have k0 := angle_area (heron_x0 b r).symm (by positivity : 0 < 2 * b * r) (by ring) h0 h' hs e0 e'
  set x1 := b ^ 2 + 1 - r ^ 2 with hx1
  set x0 := b ^ 2 + r ^ 2 - 1 with hx0
  set m1 := min π (π * √(2 * E) / (2 * b))
  set m0 := min π (π * √(2 * E) / (2 * b * r))
  have e : lens r A' x1 x0 - lens r A0 x1 x0 = (arctan2 A' x1 - arctan2 A0 x1 - (A' - A0) * x1 / (4 * b ^ 2)) +
      r ^ 2 * (arctan2 A' x0 - arctan2 A0 x0 - (A' - A0) * x0 / (4 * b ^ 2 * r ^ 2)) := by
    unfold lens
    have : (A' - A0) * x1 / (4 * b ^ 2) + r ^ 2 * ((A' - A0) * x0 / (4 * b ^ 2 * r ^ 2)) = (A' - A0) / 2 := by
      rw [hx1, hx0]
      field_simp
      ring
    linear_combination this
  rw [e]
  refine (abs_add_le _ _).trans ?_
  rw [abs_mul, abs_of_nonneg (sq_nonneg r), mul_add]
  refine add_le_add k1 ?_
  refine (mul_le_mul_of_nonneg_left k0 (sq_nonneg r)).trans (le_of_eq ?_)
  field_simp

/-- one angle, a change of the cosine -/
theorem angle_cos {σ x y D E A' d ξ : ℝ} (hD : D = σ + x ^ 2) (hd : 0 < d) (hDd : E + d ^ 2 ≤ D) (h' : 0 ≤ A')
    (e' : |σ - A' ^ 2| ≤ E) (hξ : |y - x| ≤ ξ) : |arctan2 A' y - arctan2 A' x| ≤ π * ξ / d := by
  rw [le_div_iff₀ hd]
  have h1 := arctan2_sub_x h' x y
  have h2 : d ≤ √(A' ^ 2 + x ^ 2) := by
    refine le_sqrt_of_sq_le ?_
    have := (abs_le.1 e').2
    linarith
  calc _ ≤ |arctan2 A' y - arctan2 A' x| * √(A' ^ 2 + x ^ 2) := mul_le_mul_of_nonneg_left h2 (abs_nonneg _)
    _ ≤ π * |y - x| := h1
    _ ≤ _ := mul_le_mul_of_nonneg_left hξ pi_pos.le

theorem le_self_mul_sqrt {X c : ℝ} (h : c ^ 2 ≤ X) : c * X ≤ X * √X := by
  have h1 : c ≤ √X := le_sqrt_of_sq_le h
  have : 0 ≤ X := (sq_nonneg c).trans h
  rw [mul_comm]
  exact mul_le_mul_of_nonneg_left h1 this

/-- the two changes of cosines; `X = E / b²` -/
theorem lens_cos_pert {b r E X A' y1 y0 v : ℝ} (hb : 0 < b) (hr : 0 ≤ r) (hX : E = X * b ^ 2) (h' : 0 ≤ A')
    (e' : |heron b r - A' ^ 2| ≤ E) (h1 : |y1 - (b ^ 2 + 1 - r ^ 2)| ≤ b * v) (h0 : |y0 - (b ^ 2 + r ^ 2 - 1)| ≤ b * v) :
    |lens r A' y1 y0 - lens r A' (b ^ 2 + 1 - r ^ 2) (b ^ 2 + r ^ 2 - 1)| ≤
      π * (v / 1.7) + π * (v * r / 1.4) + (if X ≤ 1 then 0 else π) + (if X ≤ 2 * r ^ 2 then 0 else π * r ^ 2) := by
  have hπ := pi_pos
  have hv : 0 ≤ v := by
    by_contra hv
    have : b * v < 0 := mul_neg_of_pos_of_neg hb (not_le.1 hv)
    linarith [abs_nonneg (y1 - (b ^ 2 + 1 - r ^ 2))]
  set x1 := b ^ 2 + 1 - r ^ 2 with hx1
  set x0 := b ^ 2 + r ^ 2 - 1 with hx0
  have k1 : |arctan2 A' y1 - arctan2 A' x1| ≤ π * (v / 1.7) + (if X ≤ 1 then 0 else π) := by
    split_ifs with hc
    · have hE : E + (1.7 * b) ^ 2 ≤ 4 * b ^ 2 := by
        have := mul_le_mul_of_nonneg_right hc (sq_nonneg b)
        rw [← hX] at this
        have := sq_nonneg b
        norm_num [mul_pow]; linarith
      have := angle_cos (heron_x1 b r).symm (by positivity : (0 : ℝ) < 1.7 * b) hE h' e' h1
      refine this.trans (le_of_eq ?_)
      field_simp; ring
    · refine (abs_arctan2_sub_le h' h' _ _).trans ?_
      have : 0 ≤ π * (v / 1.7) := by positivity
      linarith
  have k0 : r ^ 2 * |arctan2 A' y0 - arctan2 A' x0| ≤ π * (v * r / 1.4) + (if X ≤ 2 * r ^ 2 then 0 else π * r ^ 2) := by
    split_ifs with hc
    · rcases hr.eq_or_lt with rfl | hr'
      · simp
      have hE : E + (1.4 * (b * r)) ^ 2 ≤ 4 * b ^ 2 * r ^ 2 := by
        have := mul_le_mul_of_nonneg_right hc (sq_nonneg b)
        rw [← hX] at this
        have := mul_nonneg (sq_nonneg b) (sq_nonneg r)
        norm_num [mul_pow]; linarith
      have := angle_cos (heron_x0 b r).symm (by positivity : (0 : ℝ) < 1.4 * (b * r)) hE h' e' h0
      refine (mul_le_mul_of_nonneg_left this (sq_nonneg r)).trans (le_of_eq ?_)
      field_simp; ring
    · refine (mul_le_mul_of_nonneg_left (abs_arctan2_sub_le h' h' _ _) (sq_nonneg r)).trans ?_
      have : 0 ≤ π * (v * r / 1.4) := by positivity
      linarith
  have e : lens r A' y1 y0 - lens r A' x1 x0 = (arctan2 A' y1 - arctan2 A' x1) + r ^ 2 * (arctan2 A' y0 - arctan2 A' x0) := by
    unfold lens; ring
  rw [e]
  refine (abs_add_le _ _).trans ?_
  rw [abs_mul, abs_of_nonneg (sq_nonneg r)]
  linarith

/-- both perturbations, an occultor at least half as large as the star -/
theorem lens_pert_large {b r E X A0 A' y1 y0 v : ℝ} (hb : 0 < b) (hr : 1 / 2 ≤ r) (hX : E = X * b ^ 2) (h0 : 0 ≤ A0)
    (h' : 0 ≤ A') (hs : heron b r ≤ A0 ^ 2) (e0 : |heron b r - A0 ^ 2| ≤ E) (e' : |heron b r - A' ^ 2| ≤ E)
    (h1 : |y1 - (b ^ 2 + 1 - r ^ 2)| ≤ b * v) (h2 : |y0 - (b ^ 2 + r ^ 2 - 1)| ≤ b * v) :
    |lens r A' y1 y0 - lens r A0 (b ^ 2 + 1 - r ^ 2) (b ^ 2 + r ^ 2 - 1)| ≤ 2.3 * v * (1 + r) + 7.4 * (X * √X) := by
  have hπ := pi_pos
  have hπ1 := pi_lt_d2
  have hr0 : 0 < r := by linarith
  have hE0 : 0 ≤ E := (abs_nonneg _).trans e0
  have hX0 : 0 ≤ X := by
    rw [hX] at hE0
    exact nonneg_of_mul_nonneg_left hE0 (by positivity)
  have hv : 0 ≤ v := by
    by_contra hv
    have : b * v < 0 := mul_neg_of_pos_of_neg hb (not_le.1 hv)
    linarith [abs_nonneg (y1 - (b ^ 2 + 1 - r ^ 2))]
  have c := lens_cos_pert hb hr0.le hX h' e' h1 h2
  have a := lens_area_pert hb hr0 h0 h' hs e0 e'
  have hXX : 0 ≤ X * √X := by positivity
  have i1 : (if X ≤ 1 then (0 : ℝ) else π) ≤ 3.15 * (X * √X) := by
    split_ifs with hc
    · positivity
    · have := le_self_mul_sqrt (X := X) (c := 1) (by linarith)
      have : 1 ≤ X * √X := by linarith
      norm_num at *; nlinarith
  have i2 : (if X ≤ 2 * r ^ 2 then (0 : ℝ) else π * r ^ 2) ≤ 2.3 * (X * √X) := by
    split_ifs with hc
    · positivity
    · have hr2 : 1 / 4 ≤ r ^ 2 := by nlinarith
      have := le_self_mul_sqrt (X := X) (c := 0.7) (by norm_num; linarith)
      have h3 : π * r ^ 2 ≤ 3.15 * (X / 2) := mul_le_mul (hπ1.le) (by linarith) (sq_nonneg r) (by norm_num)
      norm_num at *; linarith
  have hsq : √(2 * E) ≤ 1.42 * (√X * b) := by
    rw [hX, show 2 * (X * b ^ 2) = 2 * (X * b ^ 2) from rfl]
    refine sqrt_le_iff.2 ⟨by positivity, ?_⟩
    rw [mul_pow, mul_pow, sq_sqrt hX0]
    have : 0 ≤ X * b ^ 2 := by positivity
    norm_num; linarith
  have hA : E / (4 * b ^ 2) * (min π (π * √(2 * E) / (2 * b)) + min π (π * √(2 * E) / (2 * b * r))) ≤ 1.7 * (X * √X) := by
    have q0 : E / (4 * b ^ 2) = X / 4 := by rw [hX]; field_simp
    have q1 : min π (π * √(2 * E) / (2 * b)) ≤ 3.15 * (0.71 * √X) := by
      refine (min_le_right _ _).trans ?_
      rw [div_le_iff₀ (by positivity)]
      refine (mul_le_mul hπ1.le hsq (sqrt_nonneg _) (by norm_num)).trans (le_of_eq (by ring))
    have q2 : min π (π * √(2 * E) / (2 * b * r)) ≤ 3.15 * (1.42 * √X) := by
      refine (min_le_right _ _).trans ?_
      rw [div_le_iff₀ (by positivity)]
      refine (mul_le_mul hπ1.le hsq (sqrt_nonneg _) (by norm_num)).trans ?_
      have : 0 ≤ √X * b := by positivity
      have h3 : √X * b * 1 ≤ √X * b * (2 * r) := mul_le_mul_of_nonneg_left (by linarith) this
      calc 3.15 * (1.42 * (√X * b)) = 3.15 * 1.42 * (√X * b * 1) := by ring
        _ ≤ 3.15 * 1.42 * (√X * b * (2 * r)) := mul_le_mul_of_nonneg_left h3 (by norm_num)
        _ = _ := by ring
    rw [q0]
    refine (mul_le_mul_of_nonneg_left (add_le_add q1 q2) (by positivity)).trans ?_
    norm_num; linarith
  have hvr : π * (v / 1.7) + π * (v * r / 1.4) ≤ 2.3 * v * (1 + r) := by
    have t1 : π * (v / 1.7) ≤ 3.15 * (v / 1.7) := mul_le_mul_of_nonneg_right hπ1.le (by positivity)
    have t2 : π * (v * r / 1.4) ≤ 3.15 * (v * r / 1.4) := mul_le_mul_of_nonneg_right hπ1.le (by positivity)
    have : 0 ≤ v * r := by positivity
    norm_num at t1 t2 ⊢; linarith
  have := abs_sub_le (lens r A' y1 y0) (lens r A' (b ^ 2 + 1 - r ^ 2) (b ^ 2 + r ^ 2 - 1))
    (lens r A0 (b ^ 2 + 1 - r ^ 2) (b ^ 2 + r ^ 2 - 1))
  refine this.trans ((add_le_add (c.trans (add_le_add (add_le_add hvr i1) i2)) (a.trans hA)).trans ?_)
  norm_num
  linarith

/-- both perturbations, any occultor -/
theorem lens_pert_small {b r E X A0 A' y1 y0 v : ℝ} (hb : 0 < b) (hr : 0 ≤ r) (hX : E = X * b ^ 2) (h0 : 0 ≤ A0)
    (h' : 0 ≤ A') (hs : heron b r ≤ A0 ^ 2) (e0 : |heron b r - A0 ^ 2| ≤ E) (e' : |heron b r - A' ^ 2| ≤ E)
    (h1 : |y1 - (b ^ 2 + 1 - r ^ 2)| ≤ b * v) (h2 : |y0 - (b ^ 2 + r ^ 2 - 1)| ≤ b * v) (hA0 : r = 0 → A0 = 0) :
    |lens r A' y1 y0 - lens r A0 (b ^ 2 + 1 - r ^ 2) (b ^ 2 + r ^ 2 - 1)| ≤ 2.3 * v * (1 + r) + 6.5 * X := by
  have hπ := pi_pos
  have hπ1 := pi_lt_d2
  have hE0 : 0 ≤ E := (abs_nonneg _).trans e0
  have hX0 : 0 ≤ X := by
    rw [hX] at hE0
    exact nonneg_of_mul_nonneg_left hE0 (by positivity)
  have hv : 0 ≤ v := by
    by_contra hv
    have : b * v < 0 := mul_neg_of_pos_of_neg hb (not_le.1 hv)
    linarith [abs_nonneg (y1 - (b ^ 2 + 1 - r ^ 2))]
  have c := lens_cos_pert hb hr hX h' e' h1 h2
  have i1 : (if X ≤ 1 then (0 : ℝ) else π) ≤ 3.15 * X := by
    split_ifs with hc
    · positivity
    · norm_num at *; nlinarith
  have i2 : (if X ≤ 2 * r ^ 2 then (0 : ℝ) else π * r ^ 2) ≤ 1.6 * X := by
    split_ifs with hc
    · positivity
    · have h3 : π * r ^ 2 ≤ 3.15 * (X / 2) := mul_le_mul (hπ1.le) (by linarith) (sq_nonneg r) (by norm_num)
      norm_num at *; linarith
  have q0 : E / (4 * b ^ 2) = X / 4 := by rw [hX]; field_simp
  have hA : |lens r A' (b ^ 2 + 1 - r ^ 2) (b ^ 2 + r ^ 2 - 1) - lens r A0 (b ^ 2 + 1 - r ^ 2) (b ^ 2 + r ^ 2 - 1)| ≤ 1.6 * X := by
    rcases hr.eq_or_lt with hr0 | hr0
    · have hA00 := hA0 hr0.symm
      rw [← hr0] at hs e0 e' ⊢
      have hx0 := heron_x0 b 0
      have hx1 := heron_x1 b 0
      have k1 := angle_area hx1.symm (by positivity : 0 < 2 * b) (by ring) h0 h' hs e0 e'
      rw [hA00] at e0 k1 ⊢
      set x1 : ℝ := b ^ 2 + 1 - 0 ^ 2 with hx1d
      set x0 : ℝ := b ^ 2 + 0 ^ 2 - 1 with hx0d
      have hh : heron b 0 = -x0 ^ 2 := by linarith
      have s1 : |x0| ≤ √E := by
        refine abs_le_sqrt ?_
        have := (abs_le.1 e0).1
        rw [hh] at this; linarith
      have s2 : |A'| ≤ √E := by
        refine abs_le_sqrt ?_
        have := (abs_le.1 e').1
        rw [hh] at this
        linarith [sq_nonneg x0]
      have s3 : |A' * x0| ≤ E := by
        rw [abs_mul]
        refine (mul_le_mul s2 s1 (abs_nonneg _) (sqrt_nonneg _)).trans (le_of_eq (mul_self_sqrt hE0))
      have e : lens 0 A' x1 x0 - lens 0 0 x1 x0 = (arctan2 A' x1 - arctan2 0 x1 - (A' - 0) * x1 / (4 * b ^ 2)) -
          A' * x0 / (4 * b ^ 2) := by
        unfold lens
        have : (A' - 0) * x1 / (4 * b ^ 2) + A' * x0 / (4 * b ^ 2) = A' / 2 := by
          rw [hx1d, hx0d]; field_simp; ring
        linear_combination this
      rw [e]
      refine (abs_sub _ _).trans ?_
      have t1 : |A' * x0 / (4 * b ^ 2)| ≤ X / 4 := by
        rw [abs_div, abs_of_pos (by positivity : 0 < 4 * b ^ 2), ← q0]
        exact div_le_div_of_nonneg_right s3 (by positivity)
      have t2 : E / (4 * b ^ 2) * min π (π * √(2 * E) / (2 * b)) ≤ X / 4 * 3.15 := by
        rw [q0]
        exact mul_le_mul_of_nonneg_left ((min_le_left _ _).trans hπ1.le) (by positivity)
      refine (add_le_add (k1.trans t2) t1).trans ?_
      norm_num; linarith
    · have a := lens_area_pert hb hr0 h0 h' hs e0 e'
      rw [q0] at a
      have : X / 4 * (min π (π * √(2 * E) / (2 * b)) + min π (π * √(2 * E) / (2 * b * r))) ≤ X / 4 * (3.15 + 3.15) :=
        mul_le_mul_of_nonneg_left (add_le_add ((min_le_left _ _).trans hπ1.le) ((min_le_left _ _).trans hπ1.le)) (by positivity)
      refine a.trans (this.trans ?_)
      norm_num; linarith
  have hvr : π * (v / 1.7) + π * (v * r / 1.4) ≤ 2.3 * v * (1 + r) := by
    have t1 : π * (v / 1.7) ≤ 3.15 * (v / 1.7) := mul_le_mul_of_nonneg_right hπ1.le (by positivity)
    have t2 : π * (v * r / 1.4) ≤ 3.15 * (v * r / 1.4) := mul_le_mul_of_nonneg_right hπ1.le (by positivity)
    have : 0 ≤ v * r := by positivity
    norm_num at t1 t2 ⊢; linarith
  have := abs_sub_le (lens r A' y1 y0) (lens r A' (b ^ 2 + 1 - r ^ 2) (b ^ 2 + r ^ 2 - 1))
    (lens r A0 (b ^ 2 + 1 - r ^ 2) (b ^ 2 + r ^ 2 - 1))
  refine this.trans ((add_le_add (c.trans (add_le_add (add_le_add hvr i1) i2)) hA).trans ?_)
  norm_num
  linarith

end Jaxoplanet.LimbDarkFloat
