import Verif.Proofs.KappasFloat

/-! The rounding errors of `s0s2`. -/

namespace Jaxoplanet.LimbDarkFloat

open Real KeplerFloat

theorem rnd_abs {ε x y B : ℝ} (hε : 0 ≤ ε) (h : Rnd ε x y) (hx : |x| ≤ B) : |y - x| ≤ ε * B :=
  le_trans (Rnd.sub_abs h) (mul_le_mul_of_nonneg_left hx hε)

/-- the small-`k` value -/
theorem s0_sml_rnd {u pi b r r2 A K0 K1 k0 k1 : ℝ} (hu0 : 0 ≤ u) (hu : u ≤ 1e-4) (hpi : Rnd u π pi)
    (hr2 : Rnd u (r * r) r2) (hK0 : 0 ≤ K0) (hK1 : 0 ≤ K1) (hK0' : K0 ≤ π) (hK1' : K1 ≤ π) (hA : 0 ≤ A)
    (h0 : Rnd u K0 k0) (h1 : Rnd u K1 k1) (S : S0Run u pi b r r2 A k0 k1) :
    |S.s0_sml - (π - (K1 + r ^ 2 * K0 - A / 2))| ≤ 9 * u * (π * (1 + r ^ 2)) + 1.6 * u * A := by
  norm_num at hu
  have hπ := pi_pos
  have huu : u * u ≤ 1 / 10000 * u := mul_le_mul_of_nonneg_right hu hu0
  have huuu : u * u * u ≤ 1 / 10000 * u * u := mul_le_mul_of_nonneg_right huu hu0
  set Q := π * (1 + r ^ 2) with hQ
  have hQ1 : π ≤ Q := by rw [hQ]; nlinarith [sq_nonneg r]
  have hQ0 : 0 ≤ Q := hπ.le.trans hQ1
  have uQ : u * Q ≤ 1 / 10000 * Q := mul_le_mul_of_nonneg_right hu hQ0
  have huQ : 0 ≤ u * Q := by positivity
  have uA : u * A ≤ 1 / 10000 * A := mul_le_mul_of_nonneg_right hu hA
  have huA : 0 ≤ u * A := by positivity
  have uπ : u * π ≤ u * Q := mul_le_mul_of_nonneg_left hQ1 hu0
  have hKr : 0 ≤ r * r * K0 := by have := mul_self_nonneg r; positivity
  have hKr' : r * r * K0 ≤ Q - π := by
    rw [hQ]; nlinarith [mul_self_nonneg r]
  have a1 : Rnd (3.1 * u) (r * r * K0) S.a1 :=
    ((hr2.mul0 h0 hu0 hu0).trans S.ha1 (by positivity) hu0).mono (by norm_num; linarith)
  have b1 : |S.a1 - r * r * K0| ≤ 3.1 * u * (Q - π) := rnd_abs (by positivity) a1 (by rw [abs_of_nonneg hKr]; exact hKr')
  have b2 : |k1 - K1| ≤ u * π := rnd_abs hu0 h1 (by rw [abs_of_nonneg hK1]; exact hK1')
  have uQπ : 0 ≤ u * (Q - π) := mul_nonneg hu0 (by linarith)
  obtain ⟨b1l, b1u⟩ := abs_le.1 b1
  obtain ⟨b2l, b2u⟩ := abs_le.1 b2
  norm_num at b1l b1u
  have c2 : |k1 + S.a1| ≤ 1.01 * Q := by
    rw [abs_le]; norm_num; constructor <;> linarith
  have b3 : |S.a2 - (k1 + S.a1)| ≤ u * (1.01 * Q) := rnd_abs hu0 S.ha2 c2
  obtain ⟨b3l, b3u⟩ := abs_le.1 b3
  obtain ⟨c2l, c2u⟩ := abs_le.1 c2
  norm_num at b3l b3u c2l c2u
  have b4 : |S.a3 - A * 0.5| ≤ u * (A * 0.5) := rnd_abs hu0 S.ha3 (by rw [abs_of_nonneg (by positivity)])
  obtain ⟨b4l, b4u⟩ := abs_le.1 b4
  norm_num at b4l b4u
  have c5 : |S.a2 - S.a3| ≤ 1.02 * Q + 0.51 * A := by
    rw [abs_le]; norm_num; constructor <;> linarith
  have b5 : |S.Alens - (S.a2 - S.a3)| ≤ u * (1.02 * Q + 0.51 * A) := rnd_abs hu0 S.hAlens c5
  obtain ⟨b5l, b5u⟩ := abs_le.1 b5
  obtain ⟨c5l, c5u⟩ := abs_le.1 c5
  norm_num at b5l b5u c5l c5u
  have b6 : |pi - π| ≤ u * π := rnd_abs hu0 hpi (by rw [abs_of_pos hπ])
  obtain ⟨b6l, b6u⟩ := abs_le.1 b6
  have c7 : |pi - S.Alens| ≤ 2.05 * Q + 0.52 * A := by
    rw [abs_le]; norm_num; constructor <;> linarith
  have b7 : |S.s0_sml - (pi - S.Alens)| ≤ u * (2.05 * Q + 0.52 * A) := rnd_abs hu0 S.hs0_sml c7
  obtain ⟨b7l, b7u⟩ := abs_le.1 b7
  norm_num at b7l b7u
  rw [show r ^ 2 * K0 = r * r * K0 by ring, abs_le]
  norm_num
  constructor <;> linarith

/-- the large-`k` value -/
theorem s0_lrg_rnd {u pi b r r2 A k0 k1 : ℝ} (hu0 : 0 ≤ u) (hu : u ≤ 1e-4) (hpi : Rnd u π pi)
    (hr2 : Rnd u (r * r) r2) (S : S0Run u pi b r r2 A k0 k1) :
    |S.s0_lrg - π * (1 - r ^ 2)| ≤ 5 * u * (π * (1 + r ^ 2)) := by
  norm_num at hu
  have hπ := pi_pos
  have huu : u * u ≤ 1 / 10000 * u := mul_le_mul_of_nonneg_right hu hu0
  have h1 : |r2 - r ^ 2| ≤ u * (1 + r ^ 2) := by
    rw [sq]
    refine rnd_abs hu0 hr2 ?_
    rw [abs_of_nonneg (mul_self_nonneg r)]; linarith
  set q := 1 + r ^ 2 with hq
  have hq1 : 1 ≤ q := by rw [hq]; nlinarith [sq_nonneg r]
  have hr2q : r ^ 2 = q - 1 := by rw [hq]; ring
  obtain ⟨a1, a2⟩ := abs_le.1 h1
  have uq : u * q ≤ 1 / 10000 * q := mul_le_mul_of_nonneg_right hu (by linarith)
  have huq : 0 ≤ u * q := by positivity
  have c2 : |1 - r2| ≤ 1.01 * q := by rw [abs_le]; norm_num; constructor <;> linarith
  have h2 : |S.t1 - (1 - r2)| ≤ u * (1.01 * q) := rnd_abs hu0 S.ht1 c2
  have h3 : |S.t1 - (1 - r ^ 2)| ≤ 2.02 * (u * q) := by
    rw [show S.t1 - (1 - r ^ 2) = (S.t1 - (1 - r2)) - (r2 - r ^ 2) by ring]
    refine (abs_sub _ _).trans ?_
    norm_num at h2 ⊢; linarith
  have c4 : |S.t1| ≤ 1.02 * q := by
    obtain ⟨d1, d2⟩ := abs_le.1 h3
    rw [abs_le]; norm_num at *; constructor <;> linarith
  have h4 : Rnd (2.1 * u) (π * S.t1) S.s0_lrg :=
    ((hpi.mul0 (Rnd.refl le_rfl S.t1) hu0 le_rfl).trans S.hs0_lrg (by positivity) hu0).mono (by norm_num; linarith)
  have h5 : |S.s0_lrg - π * S.t1| ≤ 2.1 * u * (π * (1.02 * q)) := by
    refine rnd_abs (by positivity) h4 ?_
    rw [abs_mul, abs_of_pos hπ]
    exact mul_le_mul_of_nonneg_left c4 hπ.le
  have h6 : |π * S.t1 - π * (1 - r ^ 2)| ≤ π * (2.02 * (u * q)) := by
    rw [← mul_sub, abs_mul, abs_of_pos hπ]
    exact mul_le_mul_of_nonneg_left h3 hπ.le
  refine (abs_sub_le _ _ _).trans ((add_le_add h5 h6).trans ?_)
  have : 0 ≤ π * (u * q) := by positivity
  norm_num
  linarith

/-- when the program takes the large-`k` branch the occultor is inside the star up to rounding -/
theorem lrg_inside {u pi b r r2 A k0 k1 : ℝ} (hu0 : 0 ≤ u) (hu : u ≤ 1e-4) (hb : 0 ≤ b) (hr : 0 ≤ r)
    (S : S0Run u pi b r r2 A k0 k1) (h : S.sum > S.delta) : b + r ≤ 1 + 3 * u := by
  norm_num at hu
  have hu1 : u < 1 := by linarith
  have ht0 : 0 ≤ b + r := by linarith
  have hbpr := S.hbpr.ge ht0
  have hbpr0 : 0 ≤ S.bpr := S.hbpr.nonneg hu1.le ht0
  have ut : u * (b + r) ≤ 1 / 10000 * (b + r) := mul_le_mul_of_nonneg_right hu ht0
  rcases le_or_gt S.bpr 1 with c | c
  · have : (1 - u) * (b + r) ≤ 1 := hbpr.trans c
    have h1 : b + r ≤ 2 := by linarith
    have : u * (b + r) ≤ u * 2 := mul_le_mul_of_nonneg_left h1 hu0
    linarith
  · -- the difference is negative, and is absorbed by the sum
    have e1 : (1 - u) * (1 + S.bpr) ≤ S.e1 := S.he1.ge (by linarith)
    have e1p : 0 < S.e1 := S.he1.pos hu1 (by linarith)
    have e2 : (1 - u) * (S.bpr - 1) ≤ -S.e2 := by
      have h1 : Rnd u (S.bpr - 1) (-S.e2) := by
        have := S.he2.neg
        rwa [neg_sub] at this
      exact h1.ge (by linarith)
    have e2p : 0 ≤ -S.e2 := le_trans (mul_nonneg (by linarith) (by linarith)) e2
    have e3 : (1 - u) * (S.e1 * -S.e2) ≤ -S.onembpr2 := by
      have h1 : Rnd u (S.e1 * -S.e2) (-S.onembpr2) := by
        have := S.honembpr2.neg
        rwa [← mul_neg] at this
      exact h1.ge (mul_nonneg e1p.le e2p)
    have d0 : 0 ≤ S.delta1 := S.hdelta1.nonneg hu1.le (by linarith)
    have d1 : S.delta1 ≤ (1 + u) * (4 * b) := S.hdelta1.le (by linarith)
    have d2 : S.delta ≤ (1 + u) * (S.delta1 * r) := S.hdelta.le (mul_nonneg d0 hr)
    have dn : 0 ≤ S.delta := S.hdelta.nonneg hu1.le (mul_nonneg d0 hr)
    have hn : -S.onembpr2 ≤ u * S.delta := by
      have hsum := S.hsum
      rcases le_or_gt 0 (S.onembpr2 + S.delta) with hc | hc
      · have h1 := hsum.le hc
        have h2 : 0 ≤ -S.onembpr2 := le_trans (mul_nonneg (by linarith) (mul_nonneg e1p.le e2p)) e3
        have h3 : 0 ≤ u * -S.onembpr2 := mul_nonneg hu0 h2
        linarith
      · have := rnd_neg hu1 hsum hc
        linarith
    have d3 : S.delta ≤ (1 + u) * ((1 + u) * (4 * b) * r) :=
      d2.trans (mul_le_mul_of_nonneg_left (mul_le_mul_of_nonneg_right d1 hr) (by linarith))
    have d4 : S.delta ≤ (1 + u) ^ 2 * (b + r) ^ 2 := by
      refine d3.trans ?_
      rw [show (1 + u) * ((1 + u) * (4 * b) * r) = (1 + u) ^ 2 * (4 * b * r) by ring]
      exact mul_le_mul_of_nonneg_left (by nlinarith [sq_nonneg (b - r)]) (by positivity)
    have f1 : (1 - u) * ((1 - u) * (1 + S.bpr) * ((1 - u) * (S.bpr - 1))) ≤ u * ((1 + u) ^ 2 * (b + r) ^ 2) := by
      refine le_trans (mul_le_mul_of_nonneg_left (mul_le_mul e1 e2 ?_ e1p.le) (by linarith)) (e3.trans (hn.trans ?_))
      · exact mul_nonneg (by linarith) (by linarith)
      · exact mul_le_mul_of_nonneg_left d4 hu0
    set t := b + r with ht
    -- (1 + bpr) ≥ (1 - u) t
    have f2 : (1 - u) * t ≤ 1 + S.bpr := by linarith
    have f3 : (1 - u) ^ 4 * (t * (S.bpr - 1)) ≤ u * ((1 + u) ^ 2 * t ^ 2) := by
      refine le_trans ?_ f1
      have : (1 - u) * t * (S.bpr - 1) ≤ (1 + S.bpr) * (S.bpr - 1) := mul_le_mul_of_nonneg_right f2 (by linarith)
      have := mul_le_mul_of_nonneg_left this (by have : 0 ≤ 1 - u := by linarith
                                                 positivity : 0 ≤ (1 - u) ^ 3)
      linarith
    have htp : 0 < t := by
      have := S.hbpr.abs_le
      by_contra hc
      have h0 : t = 0 := le_antisymm (not_lt.1 hc) ht0
      rw [← ht, h0, abs_zero, mul_zero] at this
      linarith [le_abs_self S.bpr]
    have f4 : (1 - u) ^ 4 * (S.bpr - 1) ≤ u * ((1 + u) ^ 2 * t) := by
      have : t * ((1 - u) ^ 4 * (S.bpr - 1)) ≤ t * (u * ((1 + u) ^ 2 * t)) := by linarith
      exact le_of_mul_le_mul_left this htp
    have g1 : (0.999 : ℝ) ≤ (1 - u) ^ 4 := by
      calc (0.999 : ℝ) ≤ (1 - 1 / 10000) ^ 4 := by norm_num
        _ ≤ (1 - u) ^ 4 := pow_le_pow_left₀ (by norm_num) (by linarith) 4
    have g2 : (1 + u) ^ 2 ≤ 1.001 := by
      calc (1 + u) ^ 2 ≤ (1 + 1 / 10000) ^ 2 := pow_le_pow_left₀ (by linarith) (by linarith) 2
        _ ≤ 1.001 := by norm_num
    have f5 : 0.999 * (S.bpr - 1) ≤ u * (1.001 * t) := by
      refine (mul_le_mul_of_nonneg_right g1 (by linarith)).trans (f4.trans ?_)
      exact mul_le_mul_of_nonneg_left (mul_le_mul_of_nonneg_right g2 htp.le) hu0
    norm_num at f5
    -- (1 - u) t - 1 ≤ 1.003 u t
    have f6 : t - u * t - 1 ≤ 1.003 * (u * t) := by norm_num; linarith
    norm_num at f6
    have f7 : t ≤ 2 := by linarith
    have f8 : t ≤ 1 + 2.003 * (u * 2) := by
      have : u * t ≤ u * 2 := mul_le_mul_of_nonneg_left f7 hu0
      norm_num; linarith
    norm_num at f8
    have f9 : t ≤ 1.001 := by norm_num; linarith
    have : u * t ≤ u * 1.001 := mul_le_mul_of_nonneg_left f9 hu0
    norm_num at this
    linarith

/-- inside the star up to rounding, the overlap is the disc of the occultor -/
theorem overlap_inside {b r δ : ℝ} (hb : 0 ≤ b) (hr : 0 ≤ r) (hδ : 0 ≤ δ) (h : b + r ≤ 1 + δ) :
    |overlap b r - π * r ^ 2| ≤ 2 * π * r * δ := by
  have hπ := pi_pos
  have h1 := overlap_le_occultor b hr
  have h0 := overlap_nonneg b r
  rw [abs_of_nonpos (by linarith)]
  have key : r ^ 2 - 2 * r * δ ≤ 0 ∨ π * (r - δ) ^ 2 ≤ overlap b r := by
    rcases le_or_gt r δ with c | c
    · left; nlinarith
    · right
      refine disc_le_overlap (c := b) (by linarith) ?_ ?_
      · rw [abs_of_nonneg hb]; linarith
      · simp; exact hδ
  rcases key with k | k
  · have : π * (r ^ 2 - 2 * r * δ) ≤ 0 := mul_nonpos_of_nonneg_of_nonpos hπ.le k
    linarith
  · have : 0 ≤ π * δ ^ 2 := by positivity
    nlinarith

/-- covered up to rounding -/
theorem overlap_covered {b r δ : ℝ} (hb : 0 ≤ b) (hδ : 0 ≤ δ) (h1 : δ ≤ 1) (h : 1 + b ≤ r + δ) :
    |overlap b r - π| ≤ 2 * π * δ := by
  have hπ := pi_pos
  have h2 := overlap_le_pi b r
  have h3 := disc_le_overlap (c := 0) (ρ := 1 - δ) (b := b) (r := r) (by linarith) (by simp; exact hδ)
    (by simp [abs_of_nonneg hb]; linarith)
  rw [abs_of_nonpos (by linarith)]
  have : 0 ≤ π * δ ^ 2 := by positivity
  nlinarith

end Jaxoplanet.LimbDarkFloat
