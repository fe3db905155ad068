import Verif.Proofs.QuadraticVec

/-! The transformed limb-darkening coefficients in floating-point arithmetic. -/

namespace Jaxoplanet.LimbDarkFloat

open Real KeplerFloat

theorem div_near {u f F x X a c M res : ℝ} (hu0 : 0 ≤ u) (hu : u ≤ 1e-6) (hx : 3 / 2 ≤ x) (hX : 3 / 2 ≤ X) (hf : |f - F| ≤ a) (hxX : |x - X| ≤ c)
    (hF : |F| ≤ M) (h : Rnd u (f / x) res) : |res - F / X| ≤ 1.001 * (2 / 3 * a + 4 / 9 * M * c) + u * (2 / 3 * M) := by
  have hx0 : 0 < x := by linarith
  have hX0 : 0 < X := by linarith
  have ha := (abs_nonneg _).trans hf
  have hc := (abs_nonneg _).trans hxX
  have hM := (abs_nonneg _).trans hF
  refine near_rnd hu0 hu h ?_ ?_
  · rw [show f / x - F / X = (f - F) / x + F * (X - x) / (x * X) by field_simp; ring]
    refine (abs_add_le _ _).trans (add_le_add ?_ ?_)
    · rw [abs_div, abs_of_pos hx0, div_le_iff₀ hx0]
      have := mul_le_mul_of_nonneg_left hx ha
      linarith
    · rw [abs_div, abs_mul, abs_of_pos (mul_pos hx0 hX0), div_le_iff₀ (mul_pos hx0 hX0)]
      have h1 : |F| * |X - x| ≤ M * c := mul_le_mul hF (by rw [abs_sub_comm]; exact hxX) (abs_nonneg _) hM
      have h2 : 3 / 2 * (3 / 2) ≤ x * X := mul_le_mul hx hX (by norm_num) hx0.le
      have h3 := mul_le_mul_of_nonneg_left h2 (mul_nonneg hM hc)
      linarith
  · rw [abs_div, abs_of_pos hX0, div_le_iff₀ hX0]
    have := mul_le_mul_of_nonneg_left hX hM
    linarith

/-- the coefficients as computed -/
theorem greens_near {u pi u1 u2 : ℝ} (hu0 : 0 ≤ u) (hu : u ≤ 1e-6) (hpi : Rnd u π pi) (h1 : |u1| ≤ 2) (h2 : |u2| ≤ 1) (hq : 1 / 2 ≤ 1 - u1 / 3 - u2 / 6)
    (G : GreensRun u pi u1 u2) :
    |G.n0 - (1 - u1 - 1.5 * u2) / (π * (1 - u1 / 3 - u2 / 6))| ≤ 500 * u ∧ |G.n1 - (u1 + 2 * u2) / (π * (1 - u1 / 3 - u2 / 6))| ≤ 500 * u ∧
      |G.n2 - (-u2 / 4) / (π * (1 - u1 / 3 - u2 / 6))| ≤ 500 * u := by
  have hu6 := hu
  norm_num at hu
  obtain ⟨u1a, u1b⟩ := _root_.abs_le.1 h1
  obtain ⟨u2a, u2b⟩ := _root_.abs_le.1 h2
  have e0 := G.ha0.error hu0 (by norm_num; linarith)
  have e1 := G.ha1.error hu0 (by norm_num; linarith)
  have e2 := G.ha2.error hu0 (by norm_num; linarith)
  norm_num at e0 e1 e2
  have s0 : |G.a0 - (-1 + (u1 + u2))| ≤ 32 * u := by
    refine e0.trans ?_
    have := mul_le_mul_of_nonneg_left (show 1 + (|u1| + |u2|) ≤ 4 by linarith) (show 0 ≤ 2 * 4 * u by positivity)
    linarith
  have s1 : |G.a1 - (u1 + 2 * u2)| ≤ 24 * u := by
    refine e1.trans ?_
    have := mul_le_mul_of_nonneg_left (show |u1| + 2 * |u2| ≤ 4 by linarith) (show 0 ≤ 2 * 3 * u by positivity)
    linarith
  have s2 : |G.a2 - u2| ≤ 4 * u := by
    refine e2.trans ?_
    have := mul_le_mul_of_nonneg_left h2 (show 0 ≤ 2 * 2 * u by positivity)
    linarith
  have p0 : |G.p0 - (1 - u1 - u2)| ≤ 32 * u := by
    rw [G.hp0, ← abs_neg]
    convert s0 using 2
    ring
  have p1 : |G.p1 - (u1 + 2 * u2)| ≤ 24 * u := by rw [G.hp1]; exact s1
  have p2 : |G.p2 - -u2| ≤ 4 * u := by
    rw [G.hp2, ← abs_neg]
    convert s2 using 2
    ring
  have g2 := near_rnd (X := -u2 / 4) (e := u) (M := 1 / 4) hu0 hu6 G.hg2 (by
    rw [show G.p2 / 4 - -u2 / 4 = (G.p2 - -u2) / 4 by ring, abs_div, abs_of_pos (show (0 : ℝ) < 4 by norm_num)]
    linarith) (by rw [_root_.abs_le]; constructor <;> linarith)
  norm_num at g2
  have tg := near_rnd (X := 2 * (-u2 / 4)) (e := 2 * (1001 / 1000 * u + u * (1 / 4))) (M := 1 / 2) hu0 hu6 G.htg (by
    rw [← mul_sub, abs_mul, abs_two]
    linarith) (by rw [_root_.abs_le]; constructor <;> linarith)
  have g0 := near_rnd (X := 1 - u1 - u2 + 2 * (-u2 / 4)) (M := 9 / 2) hu0 hu6 G.hg0 (near_add p0 tg) (by rw [_root_.abs_le]; constructor <;> linarith)
  have q1 := near_rnd (X := (u1 + 2 * u2) / 1.5) (e := 16 * u) (M := 8 / 3) hu0 hu6 G.hq1 (by
    rw [← sub_div, abs_div, abs_of_pos (show (0 : ℝ) < 1.5 by norm_num)]
    norm_num
    linarith) (by rw [_root_.abs_le]; constructor <;> norm_num <;> linarith)
  have q2 := near_rnd (X := 1 - u1 - u2 + 2 * (-u2 / 4) + (u1 + 2 * u2) / 1.5) (M := 2) hu0 hu6 G.hq2 (near_add g0 q1) (by rw [_root_.abs_le]; constructor <;> norm_num <;> linarith)
  have hπ := pi_lt_d2
  have hπ' := pi_gt_d2
  norm_num at hπ hπ'
  have hpi' := near_zero (M := 63 / 20) hu0 hu6 hpi (by rw [abs_of_pos pi_pos]; linarith)
  have q2' : |G.q2 - (1 - u1 / 3 - u2 / 6)| ≤ 67 * u := by
    rw [show 1 - u1 / 3 - u2 / 6 = 1 - u1 - u2 + 2 * (-u2 / 4) + (u1 + 2 * u2) / 1.5 by ring]
    refine q2.trans ?_
    norm_num
    linarith
  have hQ : |1 - u1 / 3 - u2 / 6| ≤ 2 := by rw [_root_.abs_le]; constructor <;> linarith
  have hm := near_mul hpi' q2' (M := 63 / 20) (N := 2) (by rw [abs_of_pos pi_pos]; linarith) hQ
  have hX : 157 / 100 ≤ π * (1 - u1 / 3 - u2 / 6) := by
    have := mul_le_mul hπ'.le hq (by norm_num) pi_pos.le
    linarith
  have hXb : |π * (1 - u1 / 3 - u2 / 6)| ≤ 63 / 10 := by
    rw [abs_mul, abs_of_pos pi_pos]
    have := mul_le_mul hπ.le hQ (abs_nonneg _) (by norm_num)
    linarith
  have huu : u * u ≤ 1 / 1000000 * u := mul_le_mul_of_nonneg_right hu hu0
  have hn := near_rnd hu0 hu6 G.hnorm hm hXb
  have hN : |G.norm - π * (1 - u1 / 3 - u2 / 6)| ≤ 226 * u := by
    refine hn.trans ?_
    norm_num
    linarith
  have hN1 : 3 / 2 ≤ G.norm := by
    have := (_root_.abs_le.1 hN).1
    linarith
  have g0' : |G.g0 - (1 - u1 - 1.5 * u2)| ≤ 41 * u := by
    rw [show 1 - u1 - 1.5 * u2 = 1 - u1 - u2 + 2 * (-u2 / 4) by ring]
    refine g0.trans ?_
    norm_num
    linarith
  refine ⟨?_, ?_, ?_⟩
  · refine (div_near (M := 9 / 2) hu0 hu6 hN1 (by linarith) g0' hN (by rw [_root_.abs_le]; constructor <;> norm_num <;> linarith) G.hn0).trans ?_
    norm_num
    linarith
  · refine (div_near (M := 4) hu0 hu6 hN1 (by linarith) p1 hN (by rw [_root_.abs_le]; constructor <;> linarith) G.hn1).trans ?_
    norm_num
    linarith
  · refine (div_near (M := 1 / 4) hu0 hu6 hN1 (by linarith) g2 hN (by rw [_root_.abs_le]; constructor <;> linarith) G.hn2).trans ?_
    norm_num
    linarith

end Jaxoplanet.LimbDarkFloat
