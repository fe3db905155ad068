import Verif.Proofs.KeplerFloatConv

/-! The starting value of the Kepler solver in floating-point arithmetic. -/

namespace Jaxoplanet.KeplerFloat

open Real Kepler

theorem abs_mul_err {x y x' y' A B X Y : ℝ} (hx : |x' - x| ≤ A) (hy : |y' - y| ≤ B) (hX : |x| ≤ X) (hY : |y'| ≤ Y) :
    |x' * y' - x * y| ≤ A * Y + X * B := by
  rw [show x' * y' - x * y = (x' - x) * y' + x * (y' - y) by ring]
  refine (abs_add_le _ _).trans (add_le_add (abm hx hY) (abm hX hy))

theorem abs_rnd {u x x' z A X : ℝ} (hu0 : 0 ≤ u) (h : |x' - x| ≤ A) (hz : Rnd u x' z) (hX : |x'| ≤ X) :
    |z - x| ≤ A + u * X := by
  unfold Rnd at hz
  have h1 := abs_add_le (z - x') (x' - x)
  rw [sub_add_sub_cancel] at h1
  have h2 : u * |x'| ≤ u * X := by gcongr
  linarith

theorem abs_add_err {x y x' y' A B : ℝ} (hx : |x' - x| ≤ A) (hy : |y' - y| ≤ B) : |x' + y' - (x + y)| ≤ A + B := by
  rw [show x' + y' - (x + y) = (x' - x) + (y' - y) by ring]
  exact (abs_add_le _ _).trans (add_le_add hx hy)

theorem abs_sub_err {x y x' y' A B : ℝ} (hx : |x' - x| ≤ A) (hy : |y' - y| ≤ B) : |x' - y' - (x - y)| ≤ A + B := by
  rw [show x' - y' - (x - y) = (x' - x) - (y' - y) by ring]
  exact (abs_sub _ _).trans (add_le_add hx hy)

theorem abs_le_of_err {x x' A X : ℝ} (h : |x' - x| ≤ A) (hX : |x| ≤ X) : |x'| ≤ X + A := by
  have := abs_sub_abs_le_abs_sub x' x
  linarith

theorem rnd_sqrt1 {ε x x' : ℝ} (h : Rnd ε x x') (hε : 0 ≤ ε) (hε1 : ε ≤ 0.01) (hx : 0 ≤ x) : Rnd (0.51 * ε) (√x) (√x') := by
  obtain ⟨δ, h1, rfl⟩ := h.factor hε
  obtain ⟨l, r⟩ := _root_.abs_le.1 h1
  norm_num at hε1
  rw [Real.sqrt_mul hx, show √(1 + δ) = 1 + (√(1 + δ) - 1) by ring]
  refine Rnd.of_factor ?_
  have hs : √(1 + δ) ^ 2 = 1 + δ := Real.sq_sqrt (by linarith)
  have h0 := Real.sqrt_nonneg (1 + δ)
  generalize √(1 + δ) = s at *
  rw [_root_.abs_le]
  constructor <;> norm_num <;> nlinarith

theorem rnd_cbrt1 {ε x x' : ℝ} (h : Rnd ε x x') (hε : 0 ≤ ε) (hε1 : ε ≤ 0.01) (hx : 0 ≤ x) : Rnd (0.35 * ε) (cbrt x) (cbrt x') := by
  obtain ⟨δ, h1, rfl⟩ := h.factor hε
  obtain ⟨l, r⟩ := _root_.abs_le.1 h1
  norm_num at hε1
  have hp : 0 ≤ 1 + δ := by linarith
  have hc : cbrt (x * (1 + δ)) = cbrt x * (1 + (cbrt (1 + δ) - 1)) := by
    refine cbrt_unique ?_ ?_
    · have := cbrt_nonneg hx
      have := cbrt_nonneg hp
      ring_nf
      positivity
    · rw [mul_pow, cbrt_pow hx, show 1 + (cbrt (1 + δ) - 1) = cbrt (1 + δ) by ring, cbrt_pow hp]
  rw [hc]
  refine Rnd.of_factor ?_
  have hs := cbrt_pow hp
  have h0 := cbrt_nonneg hp
  generalize cbrt (1 + δ) = s at *
  have h9 : 0.99 ≤ s := by
    by_contra hc
    push Not at hc
    have : s ^ 3 < 0.99 ^ 3 := by gcongr
    norm_num at this
    linarith
  norm_num at h9
  have h3 : δ = (s - 1) * (s ^ 2 + s + 1) := by linear_combination -hs
  have h4 : 2.9 ≤ s ^ 2 + s + 1 := by norm_num; nlinarith
  have h5 : |s - 1| * 2.9 ≤ ε := by
    refine le_trans ?_ h1
    rw [h3, abs_mul]
    refine mul_le_mul_of_nonneg_left ?_ (abs_nonneg _)
    exact h4.trans (le_abs_self _)
  norm_num at h5 ⊢
  linarith

/-- the `alpha` of the run -/
theorem start_alpha {u pi M M' e o : ℝ} (hu0 : 0 ≤ u) (hu : u ≤ 1e-10) (he0 : 0 ≤ e) (hM0 : 0 ≤ M)
    (hM : M ≤ π) (hpi : Rnd u π pi) (hM' : Rnd (5 * u) M M') (R : StarterRun u pi M' e o) :
    0 < R.c3 ∧ Rnd (36 * u) (alphaP M e) R.alpha := by
  have r0 : ∀ x : ℝ, Rnd (0 * u) x x := fun x => Rnd.refl (by simp) x
  have r1 : ∀ {x y : ℝ}, Rnd u x y → Rnd (1 * u) x y := fun h => by rw [one_mul]; exact h
  obtain ⟨kb1, kb2, kb3, -⟩ := K_bounds
  have p1 := pi_gt_d2
  have p2 := pi_lt_d2
  have hX := pi_sub_pos
  have hc2 : Rnd (4 * u) (6 / π) R.c2 := rnd_div hu0 hu (r0 6) (r1 hpi) R.hc2 le_rfl (by norm_num) (by norm_num) (by norm_num) (by norm_num)
  have hXl : 1.23 ≤ π - 6 / π := by
    rw [one_div] at kb2
    have := (inv_le_comm₀ hX (by norm_num : (0:ℝ) < 0.811865)).1 kb2
    norm_num at this ⊢
    linarith
  have hXu : π - 6 / π ≤ 1.24 := by
    rw [one_div] at kb1
    have := (le_inv_comm₀ (by norm_num : (0:ℝ) < 0.811812) hX).1 kb1
    norm_num at this ⊢
    linarith
  have h6 : |6 / π| ≤ 1.92 := by
    rw [abs_of_pos (by positivity), div_le_iff₀ pi_pos]
    norm_num at *
    linarith
  have hpa : |pi - π| ≤ 3.15 * u := by
    unfold Rnd at hpi
    rw [abs_of_pos pi_pos] at hpi
    refine hpi.trans ?_
    rw [mul_comm]
    exact mul_le_mul_of_nonneg_right p2.le hu0
  have hc3 : Rnd (11 * u) (π - 6 / π) R.c3 := by
    refine rnd_comp hu0 hu (k1 := 9) ?_ R.hc3 (by norm_num) (by norm_num) (by norm_num)
    refine rnd_of_abs (A := 3.15 * u + 7.68 * u) (c := 1.23) (abs_sub_err hpa ?_) ?_ (by positivity) (hXl.trans (le_abs_self _))
    · unfold Rnd at hc2
      refine hc2.trans ((mul_le_mul_of_nonneg_left h6 (by positivity)).trans (le_of_eq ?_))
      ring
    · norm_num
      linarith
  have hc1 : Rnd (3 * u) (3 * π) R.c1 := rnd_mul hu0 hu (r0 3) (r1 hpi) R.hc1 le_rfl (by norm_num) (by norm_num) (by norm_num) (by norm_num)
  have hc4 : Rnd (17 * u) (3 * π / (π - 6 / π)) R.c4 :=
    rnd_div hu0 hu hc1 hc3 R.hc4 (by norm_num) (by norm_num) (by norm_num) (by norm_num) (by norm_num)
  have hc6 : Rnd (15 * u) (1.6 / (π - 6 / π)) R.c6 :=
    rnd_div hu0 hu (r1 R.hc5) hc3 R.hc6 (by norm_num) (by norm_num) (by norm_num) (by norm_num) (by norm_num)
  have hMa : |M' - M| ≤ 15.75 * u := by
    unfold Rnd at hM'
    rw [abs_of_nonneg hM0] at hM'
    have : 5 * u * M ≤ 5 * u * 3.15 := by gcongr; linarith
    norm_num at this ⊢
    linarith
  have hus : u ≤ 0.001 := by norm_num at hu ⊢; linarith
  norm_num at hus
  have hm0 : |pi - M' - (π - M)| ≤ 18.9 * u := (abs_sub_err hpa hMa).trans (by norm_num; linarith)
  have hpm : |π - M| ≤ 3.15 := by rw [abs_of_nonneg (by linarith)]; linarith
  have hm0' := abs_le_of_err hm0 hpm
  have hm1 : |R.m1 - (π - M)| ≤ 23 * u := by
    refine (abs_rnd hu0 hm0 R.hm1 hm0').trans ?_
    have : u * (3.15 + 18.9 * u) ≤ u * 4 := by gcongr; norm_num; linarith
    norm_num at *
    linarith
  have hm1' : |R.m1| ≤ 3.2 := (abs_le_of_err hm1 hpm).trans (by norm_num; linarith)
  have hKb : |1.6 / (π - 6 / π)| ≤ 1.31 := by
    rw [abs_of_pos (by positivity), div_le_iff₀ hX]
    norm_num at hXl ⊢
    linarith
  have hc6a : |R.c6 - 1.6 / (π - 6 / π)| ≤ 20 * u := by
    unfold Rnd at hc6
    refine hc6.trans ((mul_le_mul_of_nonneg_left hKb (by positivity)).trans ?_)
    norm_num
    linarith
  have hm2a : |R.c6 * R.m1 - 1.6 / (π - 6 / π) * (π - M)| ≤ 95 * u := by
    refine (abs_mul_err hc6a hm1 hKb hm1').trans ?_
    norm_num
    linarith
  have hvb : |1.6 / (π - 6 / π) * (π - M)| ≤ 4.13 := (abm hKb hpm).trans (by norm_num)
  have hm2 : |R.m2 - 1.6 / (π - 6 / π) * (π - M)| ≤ 100 * u := by
    refine (abs_rnd hu0 hm2a R.hm2 (abs_le_of_err hm2a hvb)).trans ?_
    have : u * (4.13 + 95 * u) ≤ u * 5 := by gcongr; norm_num; linarith
    norm_num at *
    linarith
  have hm4a : |R.m2 / (1 + e) - 1.6 / (π - 6 / π) * (π - M) / (1 + e)| ≤ 100 * u := by
    rw [← sub_div, abs_div, abs_of_pos (by linarith : 0 < 1 + e), div_le_iff₀ (by linarith)]
    refine hm2.trans (le_mul_of_one_le_right (by positivity) (by linarith))
  have hvb2 : |1.6 / (π - 6 / π) * (π - M) / (1 + e)| ≤ 4.13 := by
    rw [abs_div, abs_of_pos (by linarith : 0 < 1 + e), div_le_iff₀ (by linarith)]
    refine hvb.trans (le_mul_of_one_le_right (by norm_num) (by linarith))
  have hm4c : Rnd (5 * u) (R.m2 / (1 + e)) R.m4 :=
    rnd_div hu0 hu (r0 _) (r1 R.hm3) R.hm4 le_rfl (by norm_num) (by norm_num) (by norm_num) (by norm_num)
  have hm4 : |R.m4 - 1.6 / (π - 6 / π) * (π - M) / (1 + e)| ≤ 122 * u := by
    refine (abs_rnd (by positivity) hm4a hm4c (abs_le_of_err hm4a hvb2)).trans ?_
    have : 5 * u * (4.13 + 100 * u) ≤ 5 * u * 4.3 := by gcongr; norm_num; linarith
    norm_num at *
    linarith
  have hc4b : |3 * π / (π - 6 / π)| ≤ 7.69 := by
    rw [abs_of_pos (by positivity), div_le_iff₀ hX]
    norm_num at *
    linarith
  have hc4l : 7.59 ≤ 3 * π / (π - 6 / π) := by
    rw [le_div_iff₀ hX]
    norm_num at *
    linarith
  have hc4a : |R.c4 - 3 * π / (π - 6 / π)| ≤ 131 * u := by
    unfold Rnd at hc4
    refine hc4.trans ((mul_le_mul_of_nonneg_left hc4b (by positivity)).trans ?_)
    norm_num
    linarith
  have hge := alphaP_ge he0 hM
  refine ⟨hc3.pos (by linarith) hX, ?_⟩
  refine rnd_comp hu0 hu (k1 := 34) (x' := R.c4 + R.m4) ?_ R.halpha (by norm_num) (by norm_num) (by norm_num)
  refine rnd_of_abs (A := 131 * u + 122 * u) (c := 7.65) (abs_add_err hc4a hm4) (by norm_num; linarith) (by positivity) ?_
  refine le_trans ?_ (le_abs_self _)
  refine le_trans ?_ hge
  have : 3 * π / (π - 6 / π) = 3 * (π * (1 / (π - 6 / π))) := by ring
  rw [this]
  norm_num at kb3 ⊢
  linarith

/-- facts about the exact starting value -/
theorem start_facts {α d o M : ℝ} (hα : 7.6 ≤ α) (hd : 3 ≤ d) (ho : 0 < o) (hdo : 2 ≤ d - o) (hM0 : 0 ≤ M) (hM : M ≤ 3.15) :
    let A := 2 * (α * d) * o
    let B := A + M ^ 2
    let r := (3 * (α * d) * (d - o) + M ^ 2) * M
    let q := A - M ^ 2
    let D := q ^ 2 * q + r * r
    0 < B ∧ |q| ≤ B ∧ 0 ≤ r ∧ 0 < D ∧ B ^ 3 ≤ 27 * D ∧ r * r ≤ 1.01 * D := by
  intro A B r q D
  have hαd : 22.8 ≤ α * d := by
    have := mul_le_mul hα hd (by norm_num) (by linarith)
    norm_num at this ⊢
    linarith
  have hA : 0 < A := by
    have : 0 < α * d := by norm_num at hαd; linarith
    positivity
  have hM2 : 0 ≤ M ^ 2 := sq_nonneg M
  have hB : 0 < B := by simp only [B]; linarith
  have hqB : |q| ≤ B := by
    rw [abs_le]
    simp only [q, B]
    constructor <;> linarith
  have hr136 : 136 * M ≤ r := by
    simp only [r]
    refine mul_le_mul_of_nonneg_right ?_ hM0
    have : 22.8 * 2 ≤ (α * d) * (d - o) := mul_le_mul hαd hdo (by norm_num) (by norm_num at hαd; linarith)
    norm_num at this
    linarith
  have hr0 : 0 ≤ r := by linarith
  have hrr : 18496 * M ^ 2 ≤ r * r := by
    have := mul_le_mul hr136 hr136 (by positivity) hr0
    linarith [this, (by ring : 136 * M * (136 * M) = 18496 * M ^ 2)]
  have hM4 : M ^ 4 ≤ 98.5 := by
    calc M ^ 4 ≤ 3.15 ^ 4 := by gcongr
      _ ≤ 98.5 := by norm_num
  have hM6 : M ^ 6 ≤ 98.5 * M ^ 2 := by
    calc M ^ 6 = M ^ 4 * M ^ 2 := by ring
      _ ≤ 98.5 * M ^ 2 := by gcongr
  have hq3 : -(M ^ 6) ≤ q ^ 3 := by
    rcases le_or_gt 0 q with h | h
    · have : 0 ≤ q ^ 3 := by positivity
      have : 0 ≤ M ^ 6 := by positivity
      linarith
    · have h3 : (-q) ^ 3 ≤ (M ^ 2) ^ 3 := pow_le_pow_left₀ (by linarith) (by simp only [q]; linarith) 3
      have h4 : (-q) ^ 3 = - q ^ 3 := by ring
      have h5 : (M ^ 2) ^ 3 = M ^ 6 := by ring
      linarith
  have hDe : D = q ^ 3 + r * r := by simp only [D]; ring
  have hrD : r * r ≤ 1.01 * D := by
    rw [hDe]
    norm_num at hM6 ⊢
    linarith
  have hBD : B ^ 3 ≤ 27 * D := by
    rcases le_or_gt (2 * M ^ 2) A with h | h
    · have h1 : B / 3 ≤ q := by simp only [q, B]; linarith
      have h2 : (B / 3) ^ 3 ≤ q ^ 3 := by gcongr
      have h3 : (B / 3) ^ 3 = B ^ 3 / 27 := by ring
      have : 0 ≤ r * r := mul_self_nonneg r
      rw [hDe]
      linarith
    · have h1 : B ≤ 3 * M ^ 2 := by simp only [B]; linarith
      have h2 : B ^ 3 ≤ (3 * M ^ 2) ^ 3 := by gcongr
      have h3 : (3 * M ^ 2) ^ 3 = 27 * M ^ 6 := by ring
      norm_num at hrD hM6
      linarith
  refine ⟨hB, hqB, hr0, ?_, hBD, hrD⟩
  have : 0 < B ^ 3 := by positivity
  linarith

/-- the discriminant and the cube root, from the errors of `r` and `q` -/
theorem start_root {u r q B : ℝ} {r' q' q2 s1 s2 s3 s4 s5 s6 w : ℝ} (hu0 : 0 ≤ u) (hu : u ≤ 1e-10)
    (hB : 0 < B) (hqB : |q| ≤ B) (hr0 : 0 ≤ r) (hD : 0 < q ^ 2 * q + r * r) (hBD : B ^ 3 ≤ 27 * (q ^ 2 * q + r * r))
    (hrD : r * r ≤ 1.01 * (q ^ 2 * q + r * r))
    (hr' : Rnd (154 * u) r r') (hq' : |q' - q| ≤ 85 * u * B)
    (hq2 : Rnd u (q' * q') q2) (hs1 : Rnd u (q2 * q') s1) (hs2 : Rnd u (r' * r') s2) (hs3 : Rnd u (s1 + s2) s3)
    (hs4 : Rnd u (√s3) s4) (hs5 : Rnd u (|r'| + s4) s5) (hs6 : Rnd u (cbrt s5) s6) (hw : Rnd u (s6 * s6) w) :
    0 < s3 ∧ |q2 - q ^ 2| ≤ 173 * u * B ^ 2 ∧ |q'| ≤ 1.01 * B ∧ 0 < (cbrt (|r| + √(q ^ 2 * q + r * r))) ^ 2 ∧
      B ≤ 3 * (cbrt (|r| + √(q ^ 2 * q + r * r))) ^ 2 ∧ Rnd (2650 * u) ((cbrt (|r| + √(q ^ 2 * q + r * r))) ^ 2) w := by
  have hus : 1000000 * u ≤ 0.0001 := by norm_num at hu ⊢; linarith
  norm_num at hus
  have hq'B : |q'| ≤ 1.01 * B := by
    refine (abs_le_of_err hq' hqB).trans ?_
    have : 85 * u * B ≤ 0.01 * B := by gcongr; norm_num; linarith
    norm_num at *
    linarith
  have hqq : |q' * q' - q ^ 2| ≤ 171 * u * B ^ 2 := by
    rw [sq]
    refine (abs_mul_err hq' hq' hqB hq'B).trans ?_
    have : 0 ≤ u * B ^ 2 := by positivity
    norm_num
    linarith
  have hq2b : |q ^ 2| ≤ B ^ 2 := by rw [abs_pow]; gcongr
  have hq2e : |q2 - q ^ 2| ≤ 173 * u * B ^ 2 := by
    have h1 : |q' * q'| ≤ 1.1 * B ^ 2 := (abm hq'B hq'B).trans (by ring_nf; nlinarith [sq_nonneg B])
    refine (abs_rnd hu0 hqq hq2 h1).trans ?_
    have : 0 ≤ u * B ^ 2 := by positivity
    norm_num
    linarith
  have hq2' : |q2| ≤ 1.01 * B ^ 2 := by
    refine (abs_le_of_err hq2e hq2b).trans ?_
    have : 173 * u * B ^ 2 ≤ 0.01 * B ^ 2 := by gcongr; norm_num; linarith
    norm_num at *
    linarith
  have hq3b : |q ^ 2 * q| ≤ B ^ 3 := (abm hq2b hqB).trans (le_of_eq (by ring))
  have hs1a : |q2 * q' - q ^ 2 * q| ≤ 260 * u * B ^ 3 := by
    refine (abs_mul_err hq2e hq' hq2b hq'B).trans ?_
    have : 0 ≤ u * B ^ 3 := by positivity
    have h2 : 173 * u * B ^ 2 * (1.01 * B) + B ^ 2 * (85 * u * B) = (173 * 1.01 + 85) * (u * B ^ 3) := by ring
    rw [h2]
    norm_num
    linarith
  have hB3 : 0 < B ^ 3 := by positivity
  have hs1e : |s1 - q ^ 2 * q| ≤ 262 * u * B ^ 3 := by
    have h1 : |q2 * q'| ≤ 1.1 * B ^ 3 := (abm hq2' hq'B).trans (by norm_num; nlinarith)
    refine (abs_rnd hu0 hs1a hs1 h1).trans ?_
    have : 0 ≤ u * B ^ 3 := by positivity
    norm_num
    linarith
  have hs2r : Rnd (310 * u) (r * r) s2 := rnd_mul hu0 hu hr' hr' hs2 (by norm_num) (by norm_num) (by norm_num) (by norm_num) (by norm_num)
  have hs2e : |s2 - r * r| ≤ 310 * u * (r * r) := by
    unfold Rnd at hs2r
    rwa [abs_of_nonneg (mul_self_nonneg r)] at hs2r
  obtain ⟨D, hDd⟩ : ∃ D, D = q ^ 2 * q + r * r := ⟨_, rfl⟩
  rw [← hDd] at hD hBD hrD ⊢
  have hs3a : Rnd (7395 * u) D (s1 + s2) := by
    rw [hDd]
    refine rnd_of_abs (abs_add_err hs1e hs2e) (c := D) ?_ (by positivity) (by rw [← hDd]; exact le_abs_self _)
    have e1 : 262 * u * B ^ 3 ≤ 262 * u * (27 * D) := by gcongr
    have e2 : 310 * u * (r * r) ≤ 310 * u * (1.01 * D) := by gcongr
    have : 0 ≤ u * D := by positivity
    norm_num at *
    linarith
  have hs3e : Rnd (7397 * u) D s3 := rnd_comp hu0 hu hs3a hs3 (by norm_num) (by norm_num) (by norm_num)
  have hs3p : 0 < s3 := hs3e.pos (by linarith) hD
  have hs4e : Rnd (3775 * u) (√D) s4 :=
    rnd_comp hu0 hu (k1 := 3773) ((rnd_sqrt1 hs3e (by positivity) (by norm_num; linarith) hD.le).mono (by norm_num; linarith)) hs4
      (by norm_num) (by norm_num) (by norm_num)
  have hra : Rnd (3775 * u) |r| |r'| := by
    have := hr'.nonneg (by linarith) hr0
    rw [abs_of_nonneg this, abs_of_nonneg hr0]
    exact hr'.mono (by linarith)
  have hs5e : Rnd (3777 * u) (|r| + √D) s5 :=
    rnd_add hu0 hu hra hs4e hs5 (abs_nonneg _) (sqrt_nonneg _) (by norm_num) (by norm_num) (by norm_num)
  obtain ⟨T, hT⟩ : ∃ T, T = |r| + √D := ⟨_, rfl⟩
  rw [← hT] at hs5e ⊢
  have hTp : 0 < T := by
    rw [hT]
    have := sqrt_pos.2 hD
    have := abs_nonneg r
    linarith
  have hs6e : Rnd (1324 * u) (cbrt T) s6 :=
    rnd_comp hu0 hu (k1 := 1322) ((rnd_cbrt1 hs5e (by positivity) (by norm_num; linarith) hTp.le).mono (by norm_num; linarith)) hs6
      (by norm_num) (by norm_num) (by norm_num)
  have hwe : Rnd (2650 * u) (cbrt T ^ 2) w := by
    rw [sq]
    exact rnd_mul hu0 hu hs6e hs6e hw (by norm_num) (by norm_num) (by norm_num) (by norm_num) (by norm_num)
  obtain ⟨W, hW⟩ : ∃ W, W = cbrt T ^ 2 := ⟨_, rfl⟩
  have hWp : 0 < W := by
    rw [hW]
    have := cbrt_pos hTp
    positivity
  have hW3 : W ^ 3 = T ^ 2 := by
    rw [hW, show (cbrt T ^ 2) ^ 3 = (cbrt T ^ 3) ^ 2 by ring, cbrt_pow hTp.le]
  have hWD : D ≤ W ^ 3 := by
    rw [hW3, hT]
    have h1 := sq_sqrt hD.le
    have h2 := abs_nonneg r
    have h3 := sqrt_nonneg D
    nlinarith
  have hBW : B ≤ 3 * W := by
    by_contra hc
    push Not at hc
    have h1 : (3 * W) ^ 3 < B ^ 3 := by gcongr
    have h2 : (3 * W) ^ 3 = 27 * W ^ 3 := by ring
    linarith
  rw [← hW] at hwe ⊢
  exact ⟨hs3p, hq2e, hq'B, hWp, hBW, hwe⟩

/-- everything after the cube root `W` -/
theorem start_tail {u d M r q B W : ℝ} {d' M' r' q' q2 w n1 n2 p1 p2 p3 p4 n3 n4 out : ℝ} (hu0 : 0 ≤ u) (hu : u ≤ 1e-10)
    (hB : 0 < B) (hqB : |q| ≤ B) (hr0 : 0 ≤ r) (hM0 : 0 ≤ M) (hWp : 0 < W) (hBW : B ≤ 3 * W) (hwe : Rnd (2650 * u) W w)
    (hq2e : |q2 - q ^ 2| ≤ 173 * u * B ^ 2) (hq'B : |q'| ≤ 1.01 * B)
    (hd' : Rnd (40 * u) d d') (hM' : Rnd (5 * u) M M') (hr' : Rnd (154 * u) r r') (hq' : |q' - q| ≤ 85 * u * B)
    (hn1 : Rnd u (2 * r') n1) (hn2 : Rnd u (n1 * w) n2) (hp1 : Rnd u (w * w) p1) (hp2 : Rnd u (w * q') p2)
    (hp3 : Rnd u (p1 + p2) p3) (hp4 : Rnd u (p3 + q2) p4) (hn3 : Rnd u (n2 / p4) n3) (hn4 : Rnd u (n3 + M') n4)
    (hout : Rnd u (n4 / d') out) :
    0 < p4 ∧ Rnd (23300 * u) ((2 * r * W / (W ^ 2 + W * q + q ^ 2) + M) / d) out := by
  have hus : 1000000 * u ≤ 0.0001 := by norm_num at hu ⊢; linarith
  norm_num at hus
  have hwa : |w - W| ≤ 2650 * u * W := by
    unfold Rnd at hwe
    rwa [abs_of_pos hWp] at hwe
  have hWa : |W| ≤ W := (abs_of_pos hWp).le
  have hw' : |w| ≤ 1.01 * W := by
    refine (abs_le_of_err hwa hWa).trans ?_
    have : 2650 * u * W ≤ 0.01 * W := by gcongr; norm_num; linarith
    norm_num at *
    linarith
  have hq'W : |q'| ≤ 3.03 * W := hq'B.trans (by norm_num; linarith)
  have hqe3 : |q' - q| ≤ 255 * u * W := by
    refine hq'.trans ?_
    have : u * B ≤ u * (3 * W) := by gcongr
    linarith
  have huW : 0 ≤ u * W ^ 2 := by positivity
  have hW2 : 0 < W ^ 2 := by positivity
  have hp1e : |p1 - W ^ 2| ≤ 5302 * u * W ^ 2 := by
    have h1 : Rnd (5302 * u) (W * W) p1 := rnd_mul hu0 hu hwe hwe hp1 (by norm_num) (by norm_num) (by norm_num) (by norm_num) (by norm_num)
    unfold Rnd at h1
    rwa [abs_of_nonneg (mul_self_nonneg W), ← sq] at h1
  have hp2e : |p2 - W * q| ≤ 8300 * u * W ^ 2 := by
    have h1 : |w * q' - W * q| ≤ 8285 * u * W ^ 2 := by
      refine (abs_mul_err hwa hqe3 hWa hq'W).trans ?_
      have : 2650 * u * W * (3.03 * W) + W * (255 * u * W) = (2650 * 3.03 + 255) * (u * W ^ 2) := by ring
      rw [this]
      norm_num
      linarith
    have h2 : |w * q'| ≤ 4 * W ^ 2 := (abm hw' hq'W).trans (by norm_num; nlinarith)
    refine (abs_rnd hu0 h1 hp2 h2).trans ?_
    linarith
  have hq2W : |q2 - q ^ 2| ≤ 1557 * u * W ^ 2 := by
    refine hq2e.trans ?_
    have : u * B ^ 2 ≤ u * (3 * W) ^ 2 := by gcongr
    linarith [this, (by ring : u * (3 * W) ^ 2 = 9 * (u * W ^ 2))]
  have hp4e : Rnd (20300 * u) (W ^ 2 + W * q + q ^ 2) p4 := by
    have hs : u * W ^ 2 * 1000000 ≤ 0.01 * W ^ 2 := by
      have : u * 1000000 ≤ 0.01 := by norm_num; linarith
      nlinarith
    norm_num at hs
    have hqW : |q| ≤ 3 * W := hqB.trans hBW
    have hWq : |W * q| ≤ 3 * W ^ 2 := (abm hWa hqW).trans (le_of_eq (by ring))
    have hqq2 : |q ^ 2| ≤ 9 * W ^ 2 := by
      rw [sq]
      exact (abm hqW hqW).trans (le_of_eq (by ring))
    have hW2a : |W ^ 2| ≤ W ^ 2 := (abs_of_pos hW2).le
    have h1 := abs_add_err hp1e hp2e
    have h2 : |W ^ 2 + W * q| ≤ 4 * W ^ 2 := (abs_add_le _ _).trans (by linarith)
    have h3 : |p1 + p2| ≤ 5 * W ^ 2 := (abs_le_of_err h1 h2).trans (by linarith)
    have h4 := abs_rnd hu0 h1 hp3 h3
    have h5 := abs_add_err h4 hq2W
    have h6 : |W ^ 2 + W * q + q ^ 2| ≤ 13 * W ^ 2 := (abs_add_le _ _).trans (by linarith)
    have h7 : |p3 + q2| ≤ 14 * W ^ 2 := (abs_le_of_err h5 h6).trans (by linarith)
    have h8 := abs_rnd hu0 h5 hp4 h7
    refine rnd_of_abs h8 (c := 3 / 4 * W ^ 2) ?_ (by positivity) ?_
    · linarith
    · refine le_trans ?_ (le_abs_self _)
      nlinarith [sq_nonneg (W + 2 * q)]
  have hPp : 0 < W ^ 2 + W * q + q ^ 2 := by nlinarith [sq_nonneg (W + 2 * q)]
  refine ⟨hp4e.pos (by linarith) hPp, ?_⟩
  have hn1e : Rnd (156 * u) (2 * r) n1 :=
    rnd_mul hu0 hu (Rnd.refl (by simp) 2 : Rnd (0 * u) 2 2) hr' hn1 le_rfl (by norm_num) (by norm_num) (by norm_num) (by norm_num)
  have hn2e : Rnd (2808 * u) (2 * r * W) n2 :=
    rnd_mul hu0 hu hn1e hwe hn2 (by norm_num) (by norm_num) (by norm_num) (by norm_num) (by norm_num)
  have hn3e : Rnd (23200 * u) (2 * r * W / (W ^ 2 + W * q + q ^ 2)) n3 :=
    rnd_div hu0 hu hn2e hp4e hn3 (by norm_num) (by norm_num) (by norm_num) (by norm_num) (by norm_num)
  have hn4e : Rnd (23202 * u) (2 * r * W / (W ^ 2 + W * q + q ^ 2) + M) n4 :=
    rnd_add hu0 hu hn3e (hM'.mono (by linarith)) hn4 (by positivity) hM0 (by norm_num) (by norm_num) (by norm_num)
  exact rnd_div hu0 hu hn4e hd' hout (by norm_num) (by norm_num) (by norm_num) (by norm_num) (by norm_num)

/-- **the starting value**: every run of `starter` is accurate to `23300` roundings, never takes the square root of a
negative number and never divides by zero -/
theorem start_accurate {u pi M M' e o : ℝ} (hu0 : 0 ≤ u) (hu : u ≤ 1e-10) (he0 : 0 ≤ e) (he : e < 1) (hM0 : 0 ≤ M)
    (hM : M ≤ π) (hpi : Rnd u π pi) (hM' : Rnd (5 * u) M M') (ho : Rnd u (1 - e) o) (R : StarterRun u pi M' e o) :
    (0 < R.c3 ∧ 0 < R.m3 ∧ 0 < R.s3 ∧ 0 < R.p4 ∧ 0 < R.d) ∧ Rnd (23300 * u) (starter M e (1 - e)) R.out := by
  obtain ⟨hc3, hal⟩ := start_alpha hu0 hu he0 hM0 hM hpi hM' R
  have r1 : ∀ {x y : ℝ}, Rnd u x y → Rnd (1 * u) x y := fun h => by rw [one_mul]; exact h
  have r0 : ∀ x : ℝ, Rnd (0 * u) x x := fun x => Rnd.refl (by simp) x
  have hus : 1000000 * u ≤ 0.0001 := by norm_num at hu ⊢; linarith
  norm_num at hus
  have hα : 7.6 ≤ alphaP M e := by
    refine le_trans ?_ (alphaP_ge he0 hM)
    have : 3 * π / (π - 6 / π) = 3 * (π * (1 / (π - 6 / π))) := by ring
    rw [this]
    obtain ⟨-, -, kb3, -⟩ := K_bounds
    norm_num at kb3 ⊢
    linarith
  have hst : starter M e (1 - e) = (2 * ((3 * (alphaP M e * (3 * (1 - e) + alphaP M e * e)) * ((3 * (1 - e) + alphaP M e * e) - (1 - e)) + M ^ 2) * M) *
      (cbrt (|(3 * (alphaP M e * (3 * (1 - e) + alphaP M e * e)) * ((3 * (1 - e) + alphaP M e * e) - (1 - e)) + M ^ 2) * M| +
        √((2 * (alphaP M e * (3 * (1 - e) + alphaP M e * e)) * (1 - e) - M ^ 2) ^ 2 * (2 * (alphaP M e * (3 * (1 - e) + alphaP M e * e)) * (1 - e) - M ^ 2) +
          ((3 * (alphaP M e * (3 * (1 - e) + alphaP M e * e)) * ((3 * (1 - e) + alphaP M e * e) - (1 - e)) + M ^ 2) * M) *
          ((3 * (alphaP M e * (3 * (1 - e) + alphaP M e * e)) * ((3 * (1 - e) + alphaP M e * e) - (1 - e)) + M ^ 2) * M)))) ^ 2 /
      (((cbrt (|(3 * (alphaP M e * (3 * (1 - e) + alphaP M e * e)) * ((3 * (1 - e) + alphaP M e * e) - (1 - e)) + M ^ 2) * M| +
        √((2 * (alphaP M e * (3 * (1 - e) + alphaP M e * e)) * (1 - e) - M ^ 2) ^ 2 * (2 * (alphaP M e * (3 * (1 - e) + alphaP M e * e)) * (1 - e) - M ^ 2) +
          ((3 * (alphaP M e * (3 * (1 - e) + alphaP M e * e)) * ((3 * (1 - e) + alphaP M e * e) - (1 - e)) + M ^ 2) * M) *
          ((3 * (alphaP M e * (3 * (1 - e) + alphaP M e * e)) * ((3 * (1 - e) + alphaP M e * e) - (1 - e)) + M ^ 2) * M)))) ^ 2) ^ 2 +
        (cbrt (|(3 * (alphaP M e * (3 * (1 - e) + alphaP M e * e)) * ((3 * (1 - e) + alphaP M e * e) - (1 - e)) + M ^ 2) * M| +
        √((2 * (alphaP M e * (3 * (1 - e) + alphaP M e * e)) * (1 - e) - M ^ 2) ^ 2 * (2 * (alphaP M e * (3 * (1 - e) + alphaP M e * e)) * (1 - e) - M ^ 2) +
          ((3 * (alphaP M e * (3 * (1 - e) + alphaP M e * e)) * ((3 * (1 - e) + alphaP M e * e) - (1 - e)) + M ^ 2) * M) *
          ((3 * (alphaP M e * (3 * (1 - e) + alphaP M e * e)) * ((3 * (1 - e) + alphaP M e * e) - (1 - e)) + M ^ 2) * M)))) ^ 2 *
          (2 * (alphaP M e * (3 * (1 - e) + alphaP M e * e)) * (1 - e) - M ^ 2) +
          (2 * (alphaP M e * (3 * (1 - e) + alphaP M e * e)) * (1 - e) - M ^ 2) ^ 2) + M) / (3 * (1 - e) + alphaP M e * e) := rfl
  rw [hst]
  clear hst
  generalize alphaP M e = α at hal hα ⊢
  obtain ⟨d, hd⟩ : ∃ d, d = 3 * (1 - e) + α * e := ⟨_, rfl⟩
  rw [← hd]
  have hd3 : 3 ≤ d := by
    rw [hd]
    norm_num at hα
    nlinarith
  have hdo : 2 ≤ d - (1 - e) := by
    rw [hd]
    norm_num at hα
    nlinarith
  have ho1 : 0 < 1 - e := by linarith
  have hM5 : M ≤ 3.15 := hM.trans pi_lt_d2.le
  obtain ⟨hB, hqB, hr0, hD, hBD, hrD⟩ := start_facts hα hd3 ho1 hdo hM0 hM5
  have hα0 : 0 ≤ α := by norm_num at hα; linarith
  have hd1e : Rnd (3 * u) (3 * (1 - e)) R.d1 := rnd_mul hu0 hu (r0 3) (r1 ho) R.hd1 le_rfl (by norm_num) (by norm_num) (by norm_num) (by norm_num)
  have hd2e : Rnd (38 * u) (α * e) R.d2 := rnd_mul hu0 hu hal (r0 e) R.hd2 (by norm_num) (by norm_num) le_rfl (by norm_num) (by norm_num)
  have hde : Rnd (40 * u) d R.d := by
    rw [hd]
    exact rnd_add hu0 hu (hd1e.mono (by linarith)) hd2e R.hd (by linarith) (by positivity) (by norm_num) (by norm_num) (by norm_num)
  have hade : Rnd (78 * u) (α * d) R.alphad := rnd_mul hu0 hu hal hde R.halphad (by norm_num) (by norm_num) (by norm_num) (by norm_num) (by norm_num)
  have hr1e : Rnd (80 * u) (3 * (α * d)) R.r1 := rnd_mul hu0 hu (r0 3) hade R.hr1 le_rfl (by norm_num) (by norm_num) (by norm_num) (by norm_num)
  have hr2e : Rnd (63 * u) (d - (1 - e)) R.r2 := by
    refine rnd_comp hu0 hu (k1 := 61) ?_ R.hr2 (by norm_num) (by norm_num) (by norm_num)
    have h1 := hde
    have h2 := ho
    unfold Rnd at h1 h2
    rw [abs_of_pos (by linarith : 0 < d)] at h1
    rw [abs_of_pos ho1] at h2
    refine rnd_of_abs (abs_sub_err h1 h2) (c := d - (1 - e)) ?_ (by positivity) (le_abs_self _)
    have : 0 ≤ α * e * u := by positivity
    have : 0 ≤ (1 - e) * u := by positivity
    rw [hd]
    linarith
  have hr3e : Rnd (145 * u) (3 * (α * d) * (d - (1 - e))) R.r3 := rnd_mul hu0 hu hr1e hr2e R.hr3 (by norm_num) (by norm_num) (by norm_num) (by norm_num) (by norm_num)
  have hM2e : Rnd (12 * u) (M ^ 2) R.M2 := by
    rw [sq]
    exact rnd_mul hu0 hu hM' hM' R.hM2 (by norm_num) (by norm_num) (by norm_num) (by norm_num) (by norm_num)
  have hd0 : 0 ≤ d := by linarith
  have hr4e : Rnd (147 * u) (3 * (α * d) * (d - (1 - e)) + M ^ 2) R.r4 :=
    rnd_add hu0 hu hr3e (hM2e.mono (by linarith)) R.hr4 (mul_nonneg (by positivity) (by linarith)) (sq_nonneg M) (by norm_num) (by norm_num) (by norm_num)
  have hre : Rnd (154 * u) ((3 * (α * d) * (d - (1 - e)) + M ^ 2) * M) R.r :=
    rnd_mul hu0 hu hr4e hM' R.hr (by norm_num) (by norm_num) (by norm_num) (by norm_num) (by norm_num)
  have hq0e : Rnd (80 * u) (2 * (α * d)) R.q0 := rnd_mul hu0 hu (r0 2) hade R.hq0 le_rfl (by norm_num) (by norm_num) (by norm_num) (by norm_num)
  have hq1e : Rnd (83 * u) (2 * (α * d) * (1 - e)) R.q1 := rnd_mul hu0 hu hq0e (r1 ho) R.hq1 (by norm_num) (by norm_num) (by norm_num) (by norm_num) (by norm_num)
  obtain ⟨A, hA⟩ : ∃ A, A = 2 * (α * d) * (1 - e) := ⟨_, rfl⟩
  have hA0 : 0 ≤ A := by rw [hA]; positivity
  rw [← hA] at hq1e hB hqB hD hBD hrD ⊢
  have hqe : |R.q - (A - M ^ 2)| ≤ 85 * u * (A + M ^ 2) := by
    have h1 := hq1e
    have h2 := hM2e
    unfold Rnd at h1 h2
    rw [abs_of_nonneg hA0] at h1
    have hM20 := sq_nonneg M
    rw [abs_of_nonneg hM20] at h2
    have h3 := abs_sub_err h1 h2
    have hub : 83 * u * A + 12 * u * M ^ 2 ≤ 0.1 * (A + M ^ 2) := by
      have : u * A ≤ 0.001 * A := by gcongr; norm_num; linarith
      have : u * M ^ 2 ≤ 0.001 * M ^ 2 := by gcongr; norm_num; linarith
      norm_num at *
      linarith
    refine (abs_rnd hu0 h3 R.hq (abs_le_of_err h3 hqB)).trans ?_
    have h4 : u * (A + M ^ 2 + (83 * u * A + 12 * u * M ^ 2)) ≤ u * (1.1 * (A + M ^ 2)) := by
      gcongr
      norm_num at *
      linarith
    have : 0 ≤ u * M ^ 2 := by positivity
    have : 0 ≤ u * A := by positivity
    norm_num at h4
    linarith
  obtain ⟨h1, g1, g2, g3, g4, g5⟩ := start_root hu0 hu hB hqB hr0 hD hBD hrD hre hqe R.hq2 R.hs1 R.hs2 R.hs3 R.hs4 R.hs5 R.hs6 R.hw
  obtain ⟨h2, h3⟩ := start_tail hu0 hu hB hqB hr0 hM0 g3 g4 g5 g1 g2 hde hM' hre hqe R.hn1 R.hn2 R.hp1 R.hp2 R.hp3 R.hp4 R.hn3 R.hn4 R.hout
  refine ⟨⟨hc3, R.hm3.pos (by linarith) (by linarith), h1, h2, hde.pos (by linarith) (by linarith)⟩, h3⟩

end Jaxoplanet.KeplerFloat
