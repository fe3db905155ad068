import Verif.Model.LimbDarkFloat
import Verif.Proofs.Rounding

/-! The rounding errors of `kite_area`. -/

namespace Jaxoplanet.LimbDarkFloat

open Real KeplerFloat

theorem sort3_cases (a b c : ℝ) :
    (sort3 a b c = (a, b, c) ∧ a ≤ b ∧ b ≤ c) ∨ (sort3 a b c = (a, c, b) ∧ a ≤ c ∧ c ≤ b) ∨
    (sort3 a b c = (b, a, c) ∧ b ≤ a ∧ a ≤ c) ∨ (sort3 a b c = (b, c, a) ∧ b ≤ c ∧ c ≤ a) ∨
    (sort3 a b c = (c, a, b) ∧ c ≤ a ∧ a ≤ b) ∨ (sort3 a b c = (c, b, a) ∧ c ≤ b ∧ b ≤ a) := by
  simp only [sort3, LimbDark.sort2]
  rcases le_total a b with h | h
  · simp only [min_eq_left h, max_eq_right h]
    rcases le_total b c with h' | h'
    · simp only [min_eq_left h', max_eq_right h', min_eq_left h, max_eq_right h]
      exact Or.inl ⟨trivial, h, h'⟩
    · simp only [min_eq_right h', max_eq_left h']
      rcases le_total a c with h'' | h''
      · simp only [min_eq_left h'', max_eq_right h'']
        exact Or.inr (Or.inl ⟨trivial, h'', h'⟩)
      · simp only [min_eq_right h'', max_eq_left h'']
        exact Or.inr (Or.inr (Or.inr (Or.inr (Or.inl ⟨trivial, h'', h⟩))))
  · simp only [min_eq_right h, max_eq_left h]
    rcases le_total a c with h' | h'
    · simp only [min_eq_left h', max_eq_right h', min_eq_left h, max_eq_right h]
      exact Or.inr (Or.inr (Or.inl ⟨trivial, h, h'⟩))
    · simp only [min_eq_right h', max_eq_left h']
      rcases le_total b c with h'' | h''
      · simp only [min_eq_left h'', max_eq_right h'']
        exact Or.inr (Or.inr (Or.inr (Or.inl ⟨trivial, h'', h'⟩)))
      · simp only [min_eq_right h'', max_eq_left h'']
        exact Or.inr (Or.inr (Or.inr (Or.inr (Or.inr ⟨trivial, h'', h⟩))))

/-- what the sorted sides satisfy when the program believes that the discs cross -/
structure Sides (b R p q s : ℝ) : Prop where
  p0 : 0 ≤ p
  pq : p ≤ q
  qs : q ≤ s
  pb : p ≤ b
  sq : s - q ≤ 1.01 * b
  s4 : |p + q - s| ≤ 2.02 * b
  sR : s ≤ 1.01 * R
  sum : p + q + s ≤ 2.01 * R

theorem sides_of {b r : ℝ} (hr : 0 ≤ r) (hb : 0 ≤ b) (h1 : |1 - r| ≤ 1.001 * b) (h2 : b ≤ 1.001 * (1 + r)) :
    Sides b (1 + r) (sort3 r b 1).1 (sort3 r b 1).2.1 (sort3 r b 1).2.2 := by
  obtain ⟨h3, h4⟩ := abs_le.1 h1
  norm_num at h2 h3 h4
  have e1 : (1.001 : ℝ) = 1001 / 1000 := by norm_num
  have e2 : (1.01 : ℝ) = 101 / 100 := by norm_num
  have e3 : (2.01 : ℝ) = 201 / 100 := by norm_num
  have e4 : (2.02 : ℝ) = 202 / 100 := by norm_num
  rcases sort3_cases r b 1 with ⟨h, u1, u2⟩ | ⟨h, u1, u2⟩ | ⟨h, u1, u2⟩ | ⟨h, u1, u2⟩ | ⟨h, u1, u2⟩ | ⟨h, u1, u2⟩ <;>
    rw [h] <;> constructor <;> simp only [abs_le] <;> rw [] <;> (try rw [e2]) <;> (try rw [e3]) <;> (try rw [e4]) <;>
    (try constructor) <;> linarith

theorem heron_sort (b r : ℝ) (P : ℝ → ℝ → ℝ → ℝ) (hP : ∀ p q s, P p q s = (p + (q + s)) * (s - (p - q)) * (s + (p - q)) * (p + (q - s))) :
    P (sort3 r b 1).1 (sort3 r b 1).2.1 (sort3 r b 1).2.2 = (r + b + 1) * (-r + b + 1) * (r - b + 1) * (r + b - 1) := by
  rcases sort3_cases r b 1 with ⟨h, u1, u2⟩ | ⟨h, u1, u2⟩ | ⟨h, u1, u2⟩ | ⟨h, u1, u2⟩ | ⟨h, u1, u2⟩ | ⟨h, u1, u2⟩ <;>
    rw [h, hP] <;> ring

/-- the exact product of the four factors -/
def prod4 (p q s : ℝ) : ℝ := (p + (q + s)) * (s - (p - q)) * (s + (p - q)) * (p + (q - s))

theorem Rnd.sub_abs {ε x y : ℝ} (h : Rnd ε x y) : |y - x| ≤ ε * |x| := h

theorem kite_factors {u b R p q s : ℝ} (hu0 : 0 ≤ u) (hu : u ≤ 1e-4) (S : Sides b R p q s) (hb : 0 ≤ b)
    (k : KiteRun u p q s) :
    Rnd (2.1 * u) (p + (q + s)) k.f1 ∧ Rnd (2.1 * u) (s - (p - q)) k.f2 ∧
      |k.f3 - (s + (p - q))| ≤ 2.04 * u * R ∧ |k.f4 - (p + (q - s))| ≤ 3.04 * u * b := by
  obtain ⟨p0, pq, qs, pb, sq, s4, sR, sum⟩ := S
  have hq0 := p0.trans pq
  have hs0 := hq0.trans qs
  norm_num at hu
  have huu : u * u ≤ 1 / 10000 * u := mul_le_mul_of_nonneg_right hu hu0
  have w : u + u + u * u ≤ 2.1 * u := by norm_num; linarith
  have ed := Rnd.sub_abs k.hd
  rw [abs_of_nonpos (by linarith : p - q ≤ 0)] at ed
  have e4 := Rnd.sub_abs k.hd4
  rw [abs_of_nonpos (by linarith : q - s ≤ 0)] at e4
  refine ⟨?_, ?_, ?_, ?_⟩
  · have h1 : Rnd u (p + (q + s)) (p + k.qs) := by
      have := Rnd.sub_abs k.hqs
      unfold Rnd
      rw [show p + k.qs - (p + (q + s)) = k.qs - (q + s) by ring]
      refine this.trans (mul_le_mul_of_nonneg_left ?_ hu0)
      rw [abs_of_nonneg (by linarith), abs_of_nonneg (by linarith)]
      linarith
    exact (h1.trans k.hf1 hu0 hu0).mono w
  · have h1 : Rnd u (s - (p - q)) (s - k.d) := by
      unfold Rnd
      rw [show s - k.d - (s - (p - q)) = -(k.d - (p - q)) by ring, abs_neg]
      refine ed.trans (mul_le_mul_of_nonneg_left ?_ hu0)
      rw [abs_of_nonneg (by linarith)]
      linarith
    exact (h1.trans k.hf2 hu0 hu0).mono w
  · have h1 := Rnd.sub_abs k.hf3
    have h2 : u * -(p - q) ≤ u * s := mul_le_mul_of_nonneg_left (by linarith) hu0
    have h3 : |s + k.d| ≤ s + u * s := by
      rw [show s + k.d = (s + (p - q)) + (k.d - (p - q)) by ring]
      refine (abs_add_le _ _).trans (add_le_add ?_ (ed.trans h2))
      rw [abs_of_nonneg (by linarith)]
      linarith
    have h4 := mul_le_mul_of_nonneg_left h3 hu0
    have h5 : u * (u * s) ≤ 1 / 10000 * (u * s) := mul_le_mul_of_nonneg_right hu (by positivity)
    have h6 : u * s ≤ u * (1.01 * R) := mul_le_mul_of_nonneg_left sR hu0
    calc |k.f3 - (s + (p - q))| ≤ |k.f3 - (s + k.d)| + |k.d - (p - q)| := by
          rw [show k.f3 - (s + (p - q)) = (k.f3 - (s + k.d)) + (k.d - (p - q)) by ring]
          exact abs_add_le _ _
      _ ≤ u * (s + u * s) + u * s := add_le_add (h1.trans h4) (ed.trans h2)
      _ ≤ 2.04 * u * R := by
        have hR : 0 ≤ R := by norm_num at sR; linarith
        have : 0 ≤ u * R := by positivity
        norm_num at h6 ⊢; linarith
  · have h1 := Rnd.sub_abs k.hf4
    have h2 : u * -(q - s) ≤ u * (1.01 * b) := mul_le_mul_of_nonneg_left (by linarith) hu0
    have h3 : |p + k.d4| ≤ 2.02 * b + u * (1.01 * b) := by
      rw [show p + k.d4 = (p + q - s) + (k.d4 - (q - s)) by ring]
      exact (abs_add_le _ _).trans (add_le_add s4 (e4.trans h2))
    have h4 := mul_le_mul_of_nonneg_left h3 hu0
    have h5 : u * (u * (1.01 * b)) ≤ 1 / 10000 * (u * (1.01 * b)) := mul_le_mul_of_nonneg_right hu (by positivity)
    have h7 : 0 ≤ u * b := by positivity
    calc |k.f4 - (p + (q - s))| ≤ |k.f4 - (p + k.d4)| + |k.d4 - (q - s)| := by
          rw [show k.f4 - (p + (q - s)) = (k.f4 - (p + k.d4)) + (k.d4 - (q - s)) by ring]
          exact abs_add_le _ _
      _ ≤ u * (2.02 * b + u * (1.01 * b)) + u * (1.01 * b) := add_le_add (h1.trans h4) (e4.trans h2)
      _ ≤ 3.04 * u * b := by norm_num at h5 ⊢; linarith

theorem kite_products {u p q s : ℝ} (hu0 : 0 ≤ u) (hu : u ≤ 1e-4) (k : KiteRun u p q s) {F1 F2 : ℝ}
    (h1 : Rnd (2.1 * u) F1 k.f1) (h2 : Rnd (2.1 * u) F2 k.f2) :
    Rnd (7.6 * u) (F1 * F2 * (k.f3 * k.f4)) k.sq := by
  norm_num at hu
  have huu : u * u ≤ 1 / 10000 * u := mul_le_mul_of_nonneg_right hu hu0
  have m1 : Rnd (4.3 * u) (F1 * F2) (k.f1 * k.f2) :=
    (h1.mul0 h2 (by positivity) (by positivity)).mono (by norm_num; linarith)
  have m2 : Rnd (5.4 * u) (F1 * F2) k.g1 := (m1.trans k.hg1 (by positivity) hu0).mono (by norm_num; linarith)
  have m3 : Rnd (6.5 * u) (F1 * F2 * k.f3) k.g2 :=
    ((m2.mul0 (Rnd.refl le_rfl k.f3) (by positivity) le_rfl).trans k.hg2 (by positivity) hu0).mono
      (by norm_num; linarith)
  have m4 := ((m3.mul0 (Rnd.refl le_rfl k.f4) (by positivity) le_rfl).trans k.hsq (by positivity) hu0).mono
      (ε' := 7.6 * u) (by norm_num; linarith)
  rw [show F1 * F2 * (k.f3 * k.f4) = F1 * F2 * k.f3 * k.f4 by ring]
  exact m4

theorem kite_sq {u b R p q s : ℝ} (hu0 : 0 ≤ u) (hu : u ≤ 1e-4) (S : Sides b R p q s) (hb : 0 ≤ b) (hbR : b ≤ 1.01 * R)
    (k : KiteRun u p q s) :
    |k.sq - prod4 p q s| ≤ 173 * u * R ^ 3 * b ∧ |prod4 p q s| ≤ 17 * R ^ 3 * b := by
  obtain ⟨h1, h2, h3, h4⟩ := kite_factors hu0 hu S hb k
  have hp := kite_products hu0 hu k h1 h2
  obtain ⟨p0, pq, qs, pb, sq, s4, sR, sum⟩ := S
  norm_num at hu
  have hR : 0 ≤ R := by norm_num at hbR; linarith
  set F1 := p + (q + s)
  set F2 := s - (p - q)
  set F3 := s + (p - q)
  set F4 := p + (q - s)
  have b1 : 0 ≤ F1 := by simp only [F1]; linarith
  have b2 : 0 ≤ F2 := by simp only [F2]; linarith
  have b1' : F1 ≤ 2.01 * R := by simp only [F1]; linarith
  have b2' : F2 ≤ 2.02 * R := by simp only [F2]; norm_num at sR ⊢; linarith
  have b3 : |F3| ≤ 2.04 * R := by
    rw [abs_of_nonneg (by simp only [F3]; linarith)]
    simp only [F3]; norm_num at sq hbR ⊢; linarith
  have b4 : |F4| ≤ 2.02 * b := by simp only [F4]; rw [show p + (q - s) = p + q - s by ring]; exact s4
  have b12 : F1 * F2 ≤ 4.07 * R ^ 2 := by
    refine (mul_le_mul b1' b2' b2 (by positivity)).trans ?_
    have : 0 ≤ R ^ 2 := sq_nonneg R
    norm_num
    linarith
  have hub : 0 ≤ u * b := by positivity
  have huR : 0 ≤ u * R := by positivity
  have uR : u * R ≤ 1 / 10000 * R := mul_le_mul_of_nonneg_right hu hR
  have ub : u * b ≤ 1 / 10000 * b := mul_le_mul_of_nonneg_right hu hb
  have c3 : |k.f3| ≤ 2.05 * R := by
    have := abs_sub_abs_le_abs_sub k.f3 F3
    norm_num at *; linarith
  have c4 : |k.f4| ≤ 2.03 * b := by
    have := abs_sub_abs_le_abs_sub k.f4 F4
    norm_num at *; linarith
  have hRb : 0 ≤ R * b := by positivity
  have c34 : |k.f3 * k.f4| ≤ 4.17 * (R * b) := by
    rw [abs_mul]
    refine (mul_le_mul c3 c4 (abs_nonneg _) (by positivity)).trans ?_
    norm_num; linarith
  have d34 : |k.f3 * k.f4 - F3 * F4| ≤ 10.4 * (u * (R * b)) := by
    rw [show k.f3 * k.f4 - F3 * F4 = k.f3 * (k.f4 - F4) + (k.f3 - F3) * F4 by ring]
    refine (abs_add_le _ _).trans ?_
    rw [abs_mul, abs_mul]
    have t1 := mul_le_mul c3 h4 (abs_nonneg _) (by positivity)
    have t2 := mul_le_mul h3 b4 (abs_nonneg _) (by positivity)
    have : 0 ≤ u * (R * b) := by positivity
    norm_num at t1 t2 ⊢; linarith
  have e34 : |F3 * F4| ≤ 4.13 * (R * b) := by
    rw [abs_mul]
    refine (mul_le_mul b3 b4 (abs_nonneg _) (by positivity)).trans ?_
    norm_num; linarith
  have eF : prod4 p q s = F1 * F2 * (F3 * F4) := by simp only [prod4, F1, F2, F3, F4]; ring
  have n12 : 0 ≤ F1 * F2 := mul_nonneg b1 b2
  have hR3 : 0 ≤ R ^ 2 * (R * b) := by positivity
  constructor
  · have e1 := Rnd.sub_abs hp
    rw [abs_mul, abs_of_nonneg n12] at e1
    have e2 : |F1 * F2 * (k.f3 * k.f4) - F1 * F2 * (F3 * F4)| ≤ 4.07 * R ^ 2 * (10.4 * (u * (R * b))) := by
      rw [← mul_sub, abs_mul, abs_of_nonneg n12]
      exact mul_le_mul b12 d34 (abs_nonneg _) (by positivity)
    have e3 : 7.6 * u * (F1 * F2 * |k.f3 * k.f4|) ≤ 7.6 * u * (4.07 * R ^ 2 * (4.17 * (R * b))) :=
      mul_le_mul_of_nonneg_left (mul_le_mul b12 c34 (abs_nonneg _) (by positivity)) (by positivity)
    rw [eF]
    calc |k.sq - F1 * F2 * (F3 * F4)| ≤ |k.sq - F1 * F2 * (k.f3 * k.f4)| +
          |F1 * F2 * (k.f3 * k.f4) - F1 * F2 * (F3 * F4)| := abs_sub_le _ _ _
      _ ≤ _ := add_le_add (e1.trans e3) e2
      _ ≤ 173 * u * R ^ 3 * b := by
        have : 0 ≤ u * (R ^ 2 * (R * b)) := by positivity
        norm_num
        linarith
  · rw [eF, abs_mul, abs_of_nonneg n12]
    refine (mul_le_mul b12 e34 (abs_nonneg _) (by positivity)).trans ?_
    norm_num
    linarith

/-- **the computed area**: its square is Heron's product up to `210 u R³ b` -/
theorem kite_area {u b R p q s : ℝ} (hu0 : 0 ≤ u) (hu : u ≤ 1e-4) (S : Sides b R p q s) (hb : 0 ≤ b) (hbR : b ≤ 1.01 * R)
    (hneg : -(173 * u * R ^ 3 * b) ≤ prod4 p q s) (k : KiteRun u p q s) :
    0 ≤ k.out ∧ |prod4 p q s - k.out ^ 2| ≤ 210 * u * R ^ 3 * b ∧ k.out ^ 2 ≤ 18 * R ^ 3 * b := by
  obtain ⟨h1, h2⟩ := kite_sq hu0 hu S hb hbR k
  have hR : 0 ≤ R := by norm_num at hbR; linarith
  norm_num at hu
  have hout := k.hout
  set m := max 0 k.sq with hm
  have hm0 : 0 ≤ m := le_max_left _ _
  have o0 : 0 ≤ k.out := hout.nonneg (by linarith) (sqrt_nonneg _)
  obtain ⟨δ, hδ, e⟩ := hout.factor hu0
  have e2 : k.out ^ 2 = m + m * (2 * δ + δ ^ 2) := by
    rw [e, mul_pow, sq_sqrt hm0]; ring
  have hδ2 : |2 * δ + δ ^ 2| ≤ 2.01 * u := by
    have : |δ| ≤ 1 / 10000 := hδ.trans hu
    rw [show 2 * δ + δ ^ 2 = δ * (2 + δ) by ring, abs_mul]
    have h : |2 + δ| ≤ 2.01 := by
      rw [abs_le] at *; norm_num; constructor <;> linarith
    rw [mul_comm]
    exact mul_le_mul h hδ (abs_nonneg _) (by norm_num)
  have hRb : 0 ≤ R ^ 3 * b := by positivity
  have huRb : u * (R ^ 3 * b) ≤ 1 / 10000 * (R ^ 3 * b) := mul_le_mul_of_nonneg_right hu hRb
  have hmle : m ≤ 17.1 * (R ^ 3 * b) := by
    refine max_le (by positivity) ?_
    have t1 := (abs_le.1 h1).2
    have t2 := (abs_le.1 h2).2
    norm_num
    linarith
  have hd : |prod4 p q s - m| ≤ 173 * u * R ^ 3 * b := by
    rw [abs_le] at h1 ⊢
    rcases le_total 0 k.sq with h | h
    · rw [hm, max_eq_right h]; constructor <;> linarith
    · rw [hm, max_eq_left h]; constructor <;> linarith
  have h3 : |m * (2 * δ + δ ^ 2)| ≤ 17.1 * (R ^ 3 * b) * (2.01 * u) := by
    rw [abs_mul, abs_of_nonneg hm0]
    exact mul_le_mul hmle hδ2 (abs_nonneg _) (by positivity)
  have hu3 : 0 ≤ u * (R ^ 3 * b) := by positivity
  refine ⟨o0, ?_, ?_⟩
  · rw [e2, show prod4 p q s - (m + m * (2 * δ + δ ^ 2)) = (prod4 p q s - m) - m * (2 * δ + δ ^ 2) by ring]
    refine (abs_sub _ _).trans ?_
    norm_num at h3 ⊢
    linarith
  · rw [e2]
    have := (le_abs_self _).trans h3
    norm_num at this hmle ⊢
    linarith

end Jaxoplanet.LimbDarkFloat
