import Verif.Proofs.CellRules

/-!
# C98: how accurate exposure-time integration and interpolation are
-/

namespace Jaxoplanet.LightCurve

open MeasureTheory Real Set intervalIntegral

/-- the number of cells into which `integrate` divides an exposure: one per sample for order 0, one between successive samples
for the trapezoid rule, one for every two intervals for Simpson's rule -/
def cells (order N : ℕ) : ℕ :=
  match order with
  | 0 => oddSamples N
  | 1 => oddSamples N - 1
  | _ => oddSamples N / 2

/-- the rule on the cell of midpoint `c` and half width `T` -/
noncomputable def cellRule (order : ℕ) (f : ℝ → ℝ) (c T : ℝ) : ℝ :=
  match order with
  | 0 => 2 * T * f c
  | 1 => T * (f (c + T) + f (c - T))
  | _ => T / 3 * (f (c - T) + 4 * f c + f (c + T))

theorem cells_pos {order N : ℕ} (ho : order ≤ 2) (hN : order = 0 ∨ 2 ≤ N) : 0 < cells order N := by
  obtain ⟨m, hm, hm1⟩ := oddSamples_spec N
  match order, ho, hN with
  | 0, _, _ => simp only [cells]; omega
  | 1, _, .inr h => have := hm1 h; simp only [cells]; omega
  | 2, _, .inr h => have := hm1 h; simp only [cells]; omega

/-- `integrate` is the composite rule -/
theorem integrate_composite {order N : ℕ} (ho : order ≤ 2) (hN : order = 0 ∨ 2 ≤ N) (f : ℝ → ℝ) {e : ℝ} (he : 0 < e) (t : ℝ)
    {g : ℝ → ℝ} (hg : integrate f (some e) 0 order N = .ok g) :
    g t = (∑ j ∈ Finset.range (cells order N),
      cellRule order f (t - e / 2 + (2 * j + 1) * (e / (2 * cells order N))) (e / (2 * cells order N))) / e := by
  have hC := cells_pos ho hN
  rw [integrate_eq ho hN, Except.ok.injEq] at hg
  subst hg
  obtain ⟨m, hm, hm1⟩ := oddSamples_spec N
  simp only
  rw [sum_rawWeight ho hm (by omega)]
  have hCR : (0 : ℝ) < cells order N := by exact_mod_cast hC
  match order, ho, hN with
  | 0, _, _ =>
    simp only [cells, cellRule, totalWeight, rawWeight, one_mul, offset] at *
    rw [← Finset.mul_sum]
    have e1 : ∀ i : ℕ, f (t + (-(1 / 2) + (2 * (i : ℝ) + 1) / (2 * (oddSamples N : ℝ))) * e) =
        f (t - e / 2 + (2 * i + 1) * (e / (2 * oddSamples N))) := fun i => by
      congr 1
      field_simp
      ring
    simp only [e1]
    field_simp
  | 1, _, .inr h =>
    have hm1 := hm1 h
    have hcast : ((oddSamples N - 1 : ℕ) : ℝ) = oddSamples N - 1 := by rw [Nat.cast_sub (by omega)]; simp
    rw [trapezoid_sum _ (by omega)]
    simp only [cells, cellRule, totalWeight, offset, hcast] at *
    rw [← Finset.mul_sum]
    have e1 : ∀ j : ℕ, f (t - e / 2 + (2 * j + 1) * (e / (2 * (oddSamples N - 1))) + e / (2 * (oddSamples N - 1))) +
        f (t - e / 2 + (2 * j + 1) * (e / (2 * (oddSamples N - 1))) - e / (2 * (oddSamples N - 1))) =
        f (t + (-(1 / 2) + (j : ℝ) / (oddSamples N - 1)) * e) + f (t + (-(1 / 2) + ((j + 1 : ℕ) : ℝ) / (oddSamples N - 1)) * e) := fun j => by
      rw [add_comm]
      congr 2
      · field_simp
        ring
      · push_cast
        field_simp
        ring
    simp only [e1]
    generalize (Finset.sum _ _ : ℝ) = S
    field_simp
  | 2, _, .inr h =>
    have hm1 := hm1 h
    have hcells : cells 2 N = m := by simp only [cells]; omega
    rw [hcells] at hCR ⊢
    rw [hm, simpson_sum _ hm1]
    have hn1 : ((2 * m + 1 : ℕ) : ℝ) - 1 = 2 * m := by push_cast; ring
    simp only [cellRule, totalWeight, offset, hn1]
    rw [← Finset.mul_sum]
    have e1 : ∀ j : ℕ, f (t - e / 2 + (2 * j + 1) * (e / (2 * m)) - e / (2 * m)) + 4 * f (t - e / 2 + (2 * j + 1) * (e / (2 * m))) +
        f (t - e / 2 + (2 * j + 1) * (e / (2 * m)) + e / (2 * m)) =
        f (t + (-(1 / 2) + ((2 * j : ℕ) : ℝ) / (2 * m)) * e) + 4 * f (t + (-(1 / 2) + ((2 * j + 1 : ℕ) : ℝ) / (2 * m)) * e) +
        f (t + (-(1 / 2) + ((2 * j + 2 : ℕ) : ℝ) / (2 * m)) * e) := fun j => by
      have a1 : t - e / 2 + (2 * (j : ℝ) + 1) * (e / (2 * m)) - e / (2 * m) = t + (-(1 / 2) + ((2 * j : ℕ) : ℝ) / (2 * m)) * e := by
        push_cast; field_simp; ring
      have a2 : t - e / 2 + (2 * (j : ℝ) + 1) * (e / (2 * m)) = t + (-(1 / 2) + ((2 * j + 1 : ℕ) : ℝ) / (2 * m)) * e := by
        push_cast; field_simp; ring
      have a3 : t - e / 2 + (2 * (j : ℝ) + 1) * (e / (2 * m)) + e / (2 * m) = t + (-(1 / 2) + ((2 * j + 2 : ℕ) : ℝ) / (2 * m)) * e := by
        push_cast; field_simp; ring
      rw [a1, a3, a2]
    simp only [e1]
    generalize (Finset.sum _ _ : ℝ) = S
    field_simp

/-- the error of the composite rule from the errors on the cells -/
theorem integrate_error {order N : ℕ} (ho : order ≤ 2) (hN : order = 0 ∨ 2 ≤ N) {f : ℝ → ℝ} {e t B : ℝ} (he : 0 < e)
    (hf : ContinuousOn f (Icc (t - e / 2) (t + e / 2))) {g : ℝ → ℝ} (hg : integrate f (some e) 0 order N = .ok g)
    (hB : ∀ c, t - e / 2 ≤ c - e / (2 * cells order N) → c + e / (2 * cells order N) ≤ t + e / 2 →
      |(∫ s in (c - e / (2 * cells order N))..(c + e / (2 * cells order N)), f s) - cellRule order f c (e / (2 * cells order N))| ≤ B) :
    |g t - (∫ s in (t - e / 2)..(t + e / 2), f s) / e| ≤ cells order N * B / e := by
  have hC := cells_pos ho hN
  rw [integrate_composite ho hN f he t hg]
  have hn : (0 : ℝ) < cells order N := by exact_mod_cast hC
  generalize cells order N = n at *
  let a : ℕ → ℝ := fun j => t - e / 2 + j * (e / n)
  have hH : 0 < e / n := by positivity
  have ha : ∀ j : ℕ, j ≤ n → a j ∈ Icc (t - e / 2) (t + e / 2) := fun j hj => by
    have hj' : (j : ℝ) ≤ n := by exact_mod_cast hj
    have h1 : (j : ℝ) * (e / n) ≤ n * (e / n) := by gcongr
    have h2 : n * (e / n) = e := by field_simp
    have h3 : 0 ≤ (j : ℝ) * (e / n) := by positivity
    exact ⟨by simp only [a]; linarith, by simp only [a]; linarith⟩
  have hint : ∀ j < n, IntervalIntegrable f volume (a j) (a (j + 1)) := fun j hj => by
    refine (hf.mono ?_).intervalIntegrable
    have := ha j hj.le
    have := ha (j + 1) hj
    exact uIcc_subset_Icc (ha j hj.le) (ha (j + 1) hj)
  have hsplit : ∫ s in (t - e / 2)..(t + e / 2), f s = ∑ j ∈ Finset.range n, ∫ s in (a j)..(a (j + 1)), f s := by
    rw [sum_integral_adjacent_intervals hint]
    simp only [a]
    congr 1
    · simp
    · field_simp; ring
  have hcell : ∀ j < n, |(∫ s in (a j)..(a (j + 1)), f s) -
      cellRule order f (t - e / 2 + (2 * j + 1) * (e / (2 * n))) (e / (2 * n))| ≤ B := fun j hj => by
    have e1 : t - e / 2 + (2 * (j : ℝ) + 1) * (e / (2 * n)) - e / (2 * n) = a j := by simp only [a]; field_simp; ring
    have e2 : t - e / 2 + (2 * (j : ℝ) + 1) * (e / (2 * n)) + e / (2 * n) = a (j + 1) := by simp only [a]; push_cast; field_simp; ring
    have := hB (t - e / 2 + (2 * j + 1) * (e / (2 * n))) (by rw [e1]; exact (ha j hj.le).1) (by rw [e2]; exact (ha (j + 1) hj).2)
    rwa [e1, e2] at this
  rw [hsplit, ← sub_div, ← Finset.sum_sub_distrib, abs_div, abs_of_pos he]
  gcongr
  refine (Finset.abs_sum_le_sum_abs _ _).trans ((Finset.sum_le_sum (g := fun _ => B) fun j hj => ?_).trans ?_)
  · rw [abs_sub_comm]
    exact hcell j (Finset.mem_range.1 hj)
  · rw [Finset.sum_const, Finset.card_range, nsmul_eq_mul]

/-- **C98 (a).** Exposure-time integration of any order converges for light curves with corners: if the light curve changes by at
most `L` per day during the exposure, the result is within `L e / (2 C)` of the mean over the exposure, where `C` is the number of
cells. -/
theorem integrate_accurate_lipschitz {order N : ℕ} (ho : order ≤ 2) (hN : order = 0 ∨ 2 ≤ N) {f : ℝ → ℝ} {e t L : ℝ} (he : 0 < e) (hL : 0 ≤ L)
    (hf : ∀ x ∈ Icc (t - e / 2) (t + e / 2), ∀ y ∈ Icc (t - e / 2) (t + e / 2), |f x - f y| ≤ L * |x - y|) {g : ℝ → ℝ}
    (hg : integrate f (some e) 0 order N = .ok g) :
    |g t - (∫ s in (t - e / 2)..(t + e / 2), f s) / e| ≤ L * e / (2 * cells order N) := by
  have hC := cells_pos ho hN
  have hn : (0 : ℝ) < cells order N := by exact_mod_cast hC
  have hcont : ContinuousOn f (Icc (t - e / 2) (t + e / 2)) := by
    have : LipschitzOnWith ⟨L, hL⟩ f (Icc (t - e / 2) (t + e / 2)) := LipschitzOnWith.of_dist_le_mul fun x hx y hy => by
      rw [Real.dist_eq, Real.dist_eq]; exact hf x hx y hy
    exact this.continuousOn
  refine (integrate_error ho hN he hcont hg (B := L * (e / (2 * cells order N)) * (2 * (e / (2 * cells order N)))) ?_).trans (le_of_eq ?_)
  · intro c h1 h2
    have hT : 0 < e / (2 * cells order N) := by positivity
    generalize e / (2 * (cells order N : ℝ)) = T at *
    have hmem : ∀ s ∈ Icc (c - T) (c + T), s ∈ Icc (t - e / 2) (t + e / 2) := fun s hs => ⟨by linarith [hs.1], by linarith [hs.2]⟩
    have hi : IntervalIntegrable f volume (c - T) (c + T) := by
      refine (hcont.mono ?_).intervalIntegrable
      rw [uIcc_of_le (by linarith)]
      exact hmem
    -- the rule is the integral of a constant
    obtain ⟨k, hk, hkb⟩ : ∃ k, cellRule order f c T = 2 * T * k ∧ ∀ s ∈ Icc (c - T) (c + T), |f s - k| ≤ L * T := by
      have hm1 : c - T ∈ Icc (c - T) (c + T) := ⟨le_rfl, by linarith⟩
      have hm2 : c ∈ Icc (c - T) (c + T) := ⟨by linarith, by linarith⟩
      have hm3 : c + T ∈ Icc (c - T) (c + T) := ⟨by linarith, le_rfl⟩
      have b1 : ∀ s ∈ Icc (c - T) (c + T), |f s - f (c - T)| ≤ L * (s - (c - T)) := fun s hs => by
        have := hf s (hmem s hs) _ (hmem _ hm1)
        rwa [abs_of_nonneg (by linarith [hs.1] : 0 ≤ s - (c - T))] at this
      have b3 : ∀ s ∈ Icc (c - T) (c + T), |f s - f (c + T)| ≤ L * (c + T - s) := fun s hs => by
        have := hf s (hmem s hs) _ (hmem _ hm3)
        rwa [abs_of_nonpos (by linarith [hs.2] : s - (c + T) ≤ 0), neg_sub] at this
      have b2 : ∀ s ∈ Icc (c - T) (c + T), |f s - f c| ≤ L * T := fun s hs => by
        refine (hf s (hmem s hs) _ (hmem _ hm2)).trans (mul_le_mul_of_nonneg_left ?_ hL)
        rw [abs_le]
        exact ⟨by linarith [hs.1], by linarith [hs.2]⟩
      match order, ho with
      | 0, _ => exact ⟨f c, by simp only [cellRule], b2⟩
      | 1, _ =>
        refine ⟨(f (c + T) + f (c - T)) / 2, by simp only [cellRule]; ring, fun s hs => ?_⟩
        have := abs_le.1 (b1 s hs)
        have := abs_le.1 (b3 s hs)
        rw [abs_le]
        constructor <;> linarith
      | 2, _ =>
        refine ⟨(f (c - T) + 4 * f c + f (c + T)) / 6, by simp only [cellRule]; ring, fun s hs => ?_⟩
        have := abs_le.1 (b1 s hs)
        have := abs_le.1 (b3 s hs)
        have := abs_le.1 (b2 s hs)
        rw [abs_le]
        constructor <;> linarith
    have e1 : 2 * T * k = ∫ _s in (c - T)..(c + T), k := by
      rw [intervalIntegral.integral_const, smul_eq_mul]
      ring
    rw [hk, e1, ← intervalIntegral.integral_sub hi (by simp)]
    have := norm_integral_le_of_norm_le_const (a := c - T) (b := c + T) (C := L * T) (f := fun s => f s - k) (fun s hs => ?_)
    · rwa [show c + T - (c - T) = 2 * T by ring, abs_of_pos (by linarith), norm_eq_abs] at this
    · rw [uIoc_of_le (by linarith)] at hs
      exact hkb s ⟨hs.1.le, hs.2⟩
  · field_simp

/-- **C98 (b).** Away from the contacts, where the light curve has a derivative that changes by at most `K` per day: the error is at
most `K e² / (24 C²)` for the default scheme and `K e² / (12 C²)` for the trapezoid scheme. -/
theorem integrate_accurate_smooth {order N : ℕ} (ho : order ≤ 1) (hN : order = 0 ∨ 2 ≤ N) {f f' : ℝ → ℝ} {e t K : ℝ} (he : 0 < e)
    (hf : ∀ x ∈ Icc (t - e / 2) (t + e / 2), HasDerivAt f (f' x) x)
    (hK : ∀ x ∈ Icc (t - e / 2) (t + e / 2), ∀ y ∈ Icc (t - e / 2) (t + e / 2), |f' x - f' y| ≤ K * |x - y|) {g : ℝ → ℝ}
    (hg : integrate f (some e) 0 order N = .ok g) :
    |g t - (∫ s in (t - e / 2)..(t + e / 2), f s) / e| ≤ (if order = 0 then 1 / 24 else 1 / 12) * (K * e ^ 2) / (cells order N : ℝ) ^ 2 := by
  have hC := cells_pos (by omega) hN
  have hn : (0 : ℝ) < cells order N := by exact_mod_cast hC
  have hT : 0 < e / (2 * cells order N) := by positivity
  refine (integrate_error (by omega) hN he (fun x hx => (hf x hx).continuousAt.continuousWithinAt) hg
    (B := (if order = 0 then 1 / 3 else 2 / 3) * K * (e / (2 * cells order N)) ^ 3) ?_).trans (le_of_eq ?_)
  · intro c h1 h2
    have hmem : ∀ s ∈ Icc (c - e / (2 * cells order N)) (c + e / (2 * cells order N)), s ∈ Icc (t - e / 2) (t + e / 2) :=
      fun s hs => ⟨by linarith [hs.1], by linarith [hs.2]⟩
    match order, ho with
    | 0, _ =>
      refine (midpoint_error (K := K) hT.le (fun x hx => hf x (hmem x hx)) fun x hx y hy => hK x (hmem x hx) y (hmem y hy)).trans (le_of_eq ?_)
      rw [if_pos rfl]
      ring
    | 1, _ =>
      refine (trapezoid_error (K := K) hT.le (fun x hx => hf x (hmem x hx)) fun x hx y hy => hK x (hmem x hx) y (hmem y hy)).trans (le_of_eq ?_)
      rw [if_neg one_ne_zero]
      ring
  · split_ifs
    · field_simp
      ring
    · field_simp
      ring

/-- **C98 (c).** Simpson's scheme, where the light curve is three times differentiable with a third derivative that changes by at
most `K` per day: the error is at most `K e⁴ / (180 (n - 1)⁴)` for `n` samples. -/
theorem integrate_accurate_simpson {N : ℕ} (hN : 2 ≤ N) {f f1 f2 f3 : ℝ → ℝ} {e t K : ℝ} (he : 0 < e)
    (hf : ∀ x ∈ Icc (t - e / 2) (t + e / 2), HasDerivAt f (f1 x) x)
    (hf1 : ∀ x ∈ Icc (t - e / 2) (t + e / 2), HasDerivAt f1 (f2 x) x)
    (hf2 : ∀ x ∈ Icc (t - e / 2) (t + e / 2), HasDerivAt f2 (f3 x) x)
    (hK : ∀ x ∈ Icc (t - e / 2) (t + e / 2), ∀ y ∈ Icc (t - e / 2) (t + e / 2), |f3 x - f3 y| ≤ K * |x - y|) {g : ℝ → ℝ}
    (hg : integrate f (some e) 0 2 N = .ok g) :
    |g t - (∫ s in (t - e / 2)..(t + e / 2), f s) / e| ≤ K * e ^ 4 / (180 * ((oddSamples N : ℝ) - 1) ^ 4) := by
  have hC := cells_pos le_rfl (.inr hN)
  have hn : (0 : ℝ) < cells 2 N := by exact_mod_cast hC
  have hT : 0 < e / (2 * cells 2 N) := by positivity
  have hodd : (oddSamples N : ℝ) - 1 = 2 * cells 2 N := by
    obtain ⟨m, hm, -⟩ := oddSamples_spec N
    have : cells 2 N = m := by simp only [cells]; omega
    rw [this, hm]
    push_cast
    ring
  refine (integrate_error le_rfl (.inr hN) he (fun x hx => (hf x hx).continuousAt.continuousWithinAt) hg
    (B := K / 90 * (e / (2 * cells 2 N)) ^ 5) ?_).trans (le_of_eq ?_)
  · intro c h1 h2
    have hmem : ∀ s ∈ Icc (c - e / (2 * cells 2 N)) (c + e / (2 * cells 2 N)), s ∈ Icc (t - e / 2) (t + e / 2) :=
      fun s hs => ⟨by linarith [hs.1], by linarith [hs.2]⟩
    exact simpson_error (K := K) hT.le (fun x hx => hf x (hmem x hx)) (fun x hx => hf1 x (hmem x hx)) (fun x hx => hf2 x (hmem x hx))
      fun x hx y hy => hK x (hmem x hx) y (hmem y hy)
  · rw [hodd]
    field_simp
    ring

/-- every time of the window lies in a cell of the grid -/
theorem grid_locate {n : ℕ} (hn : 2 ≤ n) {t0 d h t : ℝ} (hpos : 0 < h) (hdh : d = (n - 1) * h) (ht : -(d / 2) ≤ t - t0 ∧ t - t0 ≤ d / 2) :
    ∃ k : ℕ, ∃ s : ℝ, k + 1 < n ∧ 0 ≤ s ∧ s ≤ 1 ∧ t = t0 - d / 2 + (k + s) * h := by
  set x := (t - (t0 - d / 2)) / h with hx
  have hx0 : 0 ≤ x := div_nonneg (by linarith [ht.1]) hpos.le
  have hx1 : x ≤ n - 1 := by
    rw [hx, div_le_iff₀ hpos, ← hdh]; linarith [ht.2]
  have htx : t = t0 - d / 2 + x * h := by rw [hx]; field_simp; ring
  rcases lt_or_ge ⌊x⌋₊ (n - 1) with hfl | hfl
  · refine ⟨⌊x⌋₊, x - ⌊x⌋₊, by omega, ?_, ?_, ?_⟩
    · linarith [Nat.floor_le hx0]
    · linarith [Nat.lt_floor_add_one x]
    · rw [htx]; ring
  · refine ⟨n - 2, 1, by omega, zero_le_one, le_rfl, ?_⟩
    have h1 : ((n - 1 : ℕ) : ℝ) ≤ x := (Nat.cast_le.2 hfl).trans (Nat.floor_le hx0)
    rw [Nat.cast_sub (by omega)] at h1
    push_cast at h1
    have : x = n - 1 := le_antisymm hx1 h1
    rw [htx, this, Nat.cast_sub (by omega)]
    push_cast
    ring

/-- the interpolant depends on the light curve through its values on the grid, and no more than they change -/
theorem interpolate_stable {P : ℝ} (hP : 0 < P) (tiny : ℝ) {f g : ℝ → ℝ} {t0 d ε : ℝ} {n : ℕ} (hn : 2 ≤ n) (hd : 0 < d ∧ d < P)
    (htiny : tiny < d / (n - 1)) {t : ℝ} (ht : |t - t0| ≤ d / 2) (m : ℤ)
    (h : ∀ i < n, |f (t0 - d / 2 + i * (d / (n - 1))) - g (t0 - d / 2 + i * (d / (n - 1)))| ≤ ε) :
    |interpolate tiny f P t0 n (some d) (t + m * P) - interpolate tiny g P t0 n (some d) (t + m * P)| ≤ ε := by
  have hn1 : (0 : ℝ) < n - 1 := by
    have : (2 : ℝ) ≤ n := by exact_mod_cast hn
    linarith
  obtain ⟨k, s, hk, hs0, hs1, rfl⟩ := grid_locate hn (div_pos hd.1 hn1) (by field_simp : d = (n - 1) * (d / (n - 1))) (abs_le.1 ht)
  have a := interpolate_linear_in_cell hP tiny hn (f := f) (t0 := t0) (dur := some d) hd htiny hk m hs0 hs1
  have b := interpolate_linear_in_cell hP tiny hn (f := g) (t0 := t0) (dur := some d) hd htiny hk m hs0 hs1
  have h1 := h k (by omega)
  have h2 := h (k + 1) hk
  simp only [Option.getD_some] at a b
  push_cast at h2
  rw [a, b]
  rw [abs_le] at *
  constructor <;> nlinarith

/-- **C98 (d).** Interpolation, where the light curve has a derivative that changes by at most `K` per day over the window of the
grid: at every time of the window, and at every time a whole number of periods later or earlier, the result is within `K h² / 8` of
the light curve, where `h` is the spacing of the grid. -/
theorem interpolate_accurate_smooth {P : ℝ} (hP : 0 < P) (tiny : ℝ) {f f' : ℝ → ℝ} {t0 : ℝ} {n : ℕ} (hn : 2 ≤ n) {dur : Option ℝ}
    (hw : GoodWindow f t0 P dur) (htiny : tiny < dur.getD P / (n - 1)) {K : ℝ} (hK0 : 0 ≤ K)
    (hf : ∀ x, |x - t0| ≤ dur.getD P / 2 → HasDerivAt f (f' x) x)
    (hK : ∀ x y, |x - t0| ≤ dur.getD P / 2 → |y - t0| ≤ dur.getD P / 2 → |f' x - f' y| ≤ K * |x - y|) {t : ℝ}
    (ht : |t - t0| ≤ dur.getD P / 2) (m : ℤ) :
    |interpolate tiny f P t0 n dur (t + m * P) - f t| ≤ K * (dur.getD P / (n - 1)) ^ 2 / 8 := by
  have hn1 : (0 : ℝ) < n - 1 := by
    have : (2 : ℝ) ≤ n := by exact_mod_cast hn
    linarith
  set h := dur.getD P / (n - 1 : ℝ) with hh
  have hpos : 0 < h := div_pos (hw.spec hP).1 hn1
  have hdh : dur.getD P = (n - 1) * h := by rw [hh]; field_simp
  rw [abs_le] at ht
  obtain ⟨k, s, hk, hs0, hs1, hts⟩ := grid_locate hn hpos hdh (t := t) (t0 := t0) ht
  have key := interpolate_linear_in_cell hP tiny hn hw htiny hk m hs0 hs1
  rw [← hh, ← hts] at key
  rw [key]
  have hkn : (k : ℝ) + 1 ≤ n - 1 := by
    have : ((k + 1 + 1 : ℕ) : ℝ) ≤ n := by exact_mod_cast hk
    push_cast at this
    linarith
  set a := t0 - dur.getD P / 2 + k * h with ha
  set b := t0 - dur.getD P / 2 + (k + 1) * h with hb
  have hab : b - a = h := by rw [ha, hb]; ring
  have hk0 : 0 ≤ (k : ℝ) * h := by positivity
  have hkh : ((k : ℝ) + 1) * h ≤ (n - 1) * h := mul_le_mul_of_nonneg_right hkn hpos.le
  have hmem : ∀ x ∈ Icc a b, |x - t0| ≤ dur.getD P / 2 := fun x hx => by
    have h1 := hx.1
    have h2 := hx.2
    rw [abs_le]
    rw [ha] at h1
    rw [hb] at h2
    exact ⟨by linarith, by linarith⟩
  have e1 : t = (1 - s) * a + s * b := by rw [hts, ha, hb]; ring
  have := interpolation_error (fun x hx => hf x (hmem x hx)) (fun x hx y hy => hK x y (hmem x hx) (hmem y hy)) hs0 hs1
    (by linarith : a ≤ b)
  rw [← e1, hab] at this
  refine this.trans ?_
  have h5 : 0 ≤ K * h ^ 2 := by positivity
  nlinarith [mul_nonneg h5 (sq_nonneg (1 - 2 * s))]

/-- a full period of a periodic light curve: every time is covered -/
theorem interpolate_accurate_periodic {P : ℝ} (hP : 0 < P) (tiny : ℝ) {f f' : ℝ → ℝ} {t0 : ℝ} {n : ℕ} (hn : 2 ≤ n)
    (hper : ∀ t, f (t + P) = f t) (htiny : tiny < P / (n - 1)) {K : ℝ} (hK0 : 0 ≤ K)
    (hf : ∀ x, HasDerivAt f (f' x) x) (hK : ∀ x y, |f' x - f' y| ≤ K * |x - y|) (t : ℝ) :
    |interpolate tiny f P t0 n none t - f t| ≤ K * (P / (n - 1)) ^ 2 / 8 := by
  have hw : GoodWindow f t0 P none := by
    have := hper (t0 - P / 2)
    simp only [GoodWindow]
    rw [← this]
    congr 1
    ring
  obtain ⟨τ, m, hτ, rfl⟩ : ∃ τ : ℝ, ∃ m : ℤ, |τ - t0| ≤ P / 2 ∧ t = τ + m * P := by
    refine ⟨t - round ((t - t0) / P) * P, round ((t - t0) / P), ?_, by ring⟩
    have h1 := abs_sub_round ((t - t0) / P)
    have e1 : t - round ((t - t0) / P) * P - t0 = ((t - t0) / P - round ((t - t0) / P)) * P := by field_simp; ring
    rw [e1, abs_mul, abs_of_pos hP]
    calc |(t - t0) / P - round ((t - t0) / P)| * P ≤ 1 / 2 * P := mul_le_mul_of_nonneg_right h1 hP.le
      _ = P / 2 := by ring
  have hfm : f (τ + m * P) = f τ := (show Function.Periodic f P from hper).int_mul m τ
  rw [hfm]
  exact interpolate_accurate_smooth hP tiny hn hw htiny hK0 (fun x _ => hf x) (fun x y _ _ => hK x y) hτ m

/-! ## The hypotheses are met -/

theorem cos_lipschitz_one (x y : ℝ) : |cos x - cos y| ≤ |x - y| := by
  rw [cos_sub_cos, abs_mul, abs_mul, abs_neg, abs_two]
  have h1 := abs_sin_le_one ((x + y) / 2)
  have h2 := (abs_sin_le_abs (x := (x - y) / 2))
  rw [abs_div, abs_two] at h2
  nlinarith [abs_nonneg (sin ((x + y) / 2)), abs_nonneg (sin ((x - y) / 2))]

/-- there is a result -/
theorem integrate_exists {order N : ℕ} (ho : order ≤ 2) (hN : order = 0 ∨ 2 ≤ N) (f : ℝ → ℝ) (e : ℝ) :
    ∃ g, integrate f (some e) 0 order N = .ok g := ⟨_, integrate_eq ho hN f e⟩

/-- `sin`, over an exposure of 0.3: a derivative with a Lipschitz constant -/
example : ∃ g, integrate sin (some 0.3) 0 1 7 = .ok g ∧
    |g 0.2 - (∫ s in (0.2 - 0.3 / 2)..(0.2 + 0.3 / 2), sin s) / 0.3| ≤
      (if 1 = 0 then 1 / 24 else 1 / 12) * (1 * 0.3 ^ 2) / (cells 1 7 : ℝ) ^ 2 := by
  obtain ⟨g, hg⟩ := integrate_exists (order := 1) (N := 7) (by omega) (.inr (by omega)) sin 0.3
  refine ⟨g, hg, ?_⟩
  exact integrate_accurate_smooth (by omega) (.inr (by omega)) (f' := cos) (by norm_num) (fun x _ => hasDerivAt_sin x)
    (fun x _ y _ => by rw [one_mul]; exact cos_lipschitz_one x y) hg

/-- Simpson's rule for the same exposure -/
example : ∃ g, integrate sin (some 0.3) 0 2 7 = .ok g ∧
    |g 0.2 - (∫ s in (0.2 - 0.3 / 2)..(0.2 + 0.3 / 2), sin s) / 0.3| ≤ 1 * 0.3 ^ 4 / (180 * ((oddSamples 7 : ℝ) - 1) ^ 4) := by
  obtain ⟨g, hg⟩ := integrate_exists (order := 2) (N := 7) (by omega) (.inr (by omega)) sin 0.3
  refine ⟨g, hg, ?_⟩
  exact integrate_accurate_simpson (by omega) (f1 := cos) (f2 := fun x => -sin x) (f3 := fun x => -cos x)
    (by norm_num) (fun x _ => hasDerivAt_sin x) (fun x _ => hasDerivAt_cos x) (fun x _ => (hasDerivAt_sin x).neg)
    (fun x _ y _ => by rw [one_mul, neg_sub_neg, abs_sub_comm]; exact cos_lipschitz_one x y) hg

/-- a light curve with a corner, trapezoid rule -/
example : ∃ g, integrate (fun t => |t|) (some 0.3) 0 1 7 = .ok g ∧
    |g 0.1 - (∫ s in (0.1 - 0.3 / 2)..(0.1 + 0.3 / 2), |s|) / 0.3| ≤ 1 * 0.3 / (2 * cells 1 7) := by
  obtain ⟨g, hg⟩ := integrate_exists (order := 1) (N := 7) (by omega) (.inr (by omega)) (fun t => |t|) 0.3
  refine ⟨g, hg, ?_⟩
  exact integrate_accurate_lipschitz (by omega) (.inr (by omega)) (by norm_num) zero_le_one
    (fun x _ y _ => by rw [one_mul]; exact abs_abs_sub_abs_le x y) hg

/-- the interpolant of `sin` over its period, at every time -/
example (t : ℝ) : |interpolate 0 sin (2 * π) 0 200 none t - sin t| ≤ 1 * (2 * π / ((200 : ℕ) - 1)) ^ 2 / 8 :=
  interpolate_accurate_periodic (by positivity) 0 (by omega) sin_add_two_pi (by push_cast; exact div_pos (by positivity) (by norm_num))
    zero_le_one hasDerivAt_sin (fun x y => by rw [one_mul]; exact cos_lipschitz_one x y) t

end Jaxoplanet.LightCurve
