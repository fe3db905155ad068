import Verif.Model.Solution
import Verif.Proofs.TrigPow
import Verif.Proofs.LimbDark
import Verif.Props.PolyBasis

/-!
# C49: the disc integrals of the polynomial basis
-/

namespace Jaxoplanet.Starry

open _root_.Jaxoplanet.LimbDark _root_.Jaxoplanet.Green _root_.Jaxoplanet.Starry.Spec _root_.Jaxoplanet.Spec Real intervalIntegral MeasureTheory

/-! ### the integral of a monomial over the disc -/

theorem radial_zero (t : ℕ) : ∫ s in (0 : ℝ)..1, s ^ (2 * t + 1) = 1 / (2 * t + 2) := by
  rw [integral_pow]
  push_cast
  norm_num
  ring

theorem radial_rec (t : ℕ) : (2 * (t : ℝ) + 5) * (∫ s in (0 : ℝ)..1, s ^ (2 * (t + 1) + 1) * √(1 - s ^ 2)) =
    (2 * (t : ℝ) + 2) * ∫ s in (0 : ℝ)..1, s ^ (2 * t + 1) * √(1 - s ^ 2) := by
  have h := integral_eq_sub_of_hasDerivAt_of_le (a := 0) (b := 1) zero_le_one
    (f := fun s => s ^ (2 * t + 2) * √(1 - s ^ 2) ^ 3)
    (f' := fun s => (2 * (t : ℝ) + 2) * (s ^ (2 * t + 1) * √(1 - s ^ 2)) - (2 * (t : ℝ) + 5) * (s ^ (2 * (t + 1) + 1) * √(1 - s ^ 2)))
    (by fun_prop) (by
      intro s hs
      have h0 : 0 < 1 - s ^ 2 := by nlinarith [hs.1, hs.2]
      have h1 : HasDerivAt (fun s : ℝ => √(1 - s ^ 2)) (-(2 * s) / (2 * √(1 - s ^ 2))) s := by
        have := ((hasDerivAt_pow 2 s).const_sub 1).sqrt h0.ne'
        refine this.congr_deriv ?_
        norm_num
      have h2 := (hasDerivAt_pow (2 * t + 2) s).mul (h1.pow 3)
      refine h2.congr_deriv ?_
      have hs0 : √(1 - s ^ 2) ≠ 0 := (Real.sqrt_pos.2 h0).ne'
      have hsq : √(1 - s ^ 2) ^ 2 = 1 - s ^ 2 := Real.sq_sqrt h0.le
      simp only [Pi.pow_apply, Nat.add_succ_sub_one]
      rw [show 3 - 1 = 2 from rfl]
      generalize √(1 - s ^ 2) = w at *
      push_cast
      have e : s ^ 2 = 1 - w ^ 2 := by linarith
      field_simp
      rw [show s ^ (2 * (t + 1) + 1) = s ^ (2 * t + 1) * s ^ 2 by ring, show s ^ (2 * t + 2) = s ^ (2 * t + 1) * s by ring]
      linear_combination (s ^ (2 * t + 1) * ((2 * t + 2))) * e)
    (by apply Continuous.intervalIntegrable; fun_prop)
  rw [intervalIntegral.integral_sub (by apply Continuous.intervalIntegrable; fun_prop) (by apply Continuous.intervalIntegrable; fun_prop),
    intervalIntegral.integral_const_mul, intervalIntegral.integral_const_mul] at h
  have hz : (0 : ℝ) ^ (2 * t + 2) = 0 := zero_pow (by omega)
  rw [hz] at h
  norm_num at h
  linarith

theorem radial_one (t : ℕ) : ∫ s in (0 : ℝ)..1, s ^ (2 * t + 1) * √(1 - s ^ 2) =
    (t.factorial : ℝ) * Gamma (3 / 2) / (2 * Gamma ((t : ℝ) + 5 / 2)) := by
  induction t with
  | zero =>
    have h := integral_eq_sub_of_hasDerivAt_of_le (a := 0) (b := 1) zero_le_one
      (f := fun s => -(1 / 3) * √(1 - s ^ 2) ^ 3)
      (f' := fun s => s ^ (2 * 0 + 1) * √(1 - s ^ 2))
      (by fun_prop) (by
        intro s hs
        have h0 : 0 < 1 - s ^ 2 := by nlinarith [hs.1, hs.2]
        have h1 : HasDerivAt (fun s : ℝ => √(1 - s ^ 2)) (-(2 * s) / (2 * √(1 - s ^ 2))) s := by
          have := ((hasDerivAt_pow 2 s).const_sub 1).sqrt h0.ne'
          refine this.congr_deriv ?_
          norm_num
        refine ((h1.pow 3).const_mul (-(1 / 3))).congr_deriv ?_
        have hs0 : √(1 - s ^ 2) ≠ 0 := (Real.sqrt_pos.2 h0).ne'
        simp only [show 3 - 1 = 2 from rfl]
        field_simp
        push_cast
        ring)
      (by apply Continuous.intervalIntegrable; fun_prop)
    rw [h]
    have g : Gamma (((0 : ℕ) : ℝ) + 5 / 2) = 3 / 2 * Gamma (3 / 2) := by
      rw [← Gamma_add_one (by norm_num)]; norm_num
    rw [g]
    have : Gamma (3 / 2) ≠ 0 := (Gamma_pos_of_pos (by norm_num)).ne'
    norm_num
    field_simp
  | succ t ih =>
    have := radial_rec t
    rw [ih] at this
    have g : Gamma (((t + 1 : ℕ) : ℝ) + 5 / 2) = ((t : ℝ) + 5 / 2) * Gamma ((t : ℝ) + 5 / 2) := by
      rw [← Gamma_add_one (by positivity)]; push_cast; ring_nf
    have gp : Gamma ((t : ℝ) + 5 / 2) ≠ 0 := (Gamma_pos_of_pos (by positivity)).ne'
    rw [g, Nat.factorial_succ]
    generalize Gamma ((t : ℝ) + 5 / 2) = A at *
    generalize Gamma (3 / 2) = B at *
    have hp : (2 * (t : ℝ) + 5) ≠ 0 := by positivity
    have hp2 : ((t : ℝ) + 5 / 2) ≠ 0 := by positivity
    apply mul_left_cancel₀ hp
    rw [this]
    push_cast
    field_simp

/-- closed form of the integral of `x^i y^j z^k`, `k ≤ 1`, over the disc -/
noncomputable def discClosed (i j k : ℕ) : ℝ :=
  if i % 2 = 0 ∧ j % 2 = 0 then
    Gamma (((i / 2 : ℕ) : ℝ) + 1 / 2) * Gamma (((j / 2 : ℕ) : ℝ) + 1 / 2) *
      (if k = 0 then 1 / ((i / 2 + j / 2 + 1).factorial : ℝ) else Gamma (3 / 2) / Gamma (((i / 2 + j / 2 : ℕ) : ℝ) + 5 / 2))
  else 0

theorem disc_mono (i j k : ℕ) (hk : k ≤ 1) : ∫ p in stellarDisc, p.1 ^ i * p.2 ^ j * mu p ^ k = discClosed i j k := by
  have hmu : Continuous mu := continuous_mu
  rw [star_eq, integral_occultor_polar (by fun_prop) 0 zero_le_one]
  have e : ∀ s ∈ Set.uIcc (0 : ℝ) 1, (∫ φ in (-π)..π, s * ((0 - s * cos φ, -(s * sin φ)).1 ^ i * (0 - s * cos φ, -(s * sin φ)).2 ^ j *
      mu (0 - s * cos φ, -(s * sin φ)) ^ k)) =
      (s ^ (i + j + 1) * √(1 - s ^ 2) ^ k) * ((-1) ^ (i + j) * ∫ φ in (-π)..π, cos φ ^ i * sin φ ^ j) := by
    intro s _
    rw [← intervalIntegral.integral_const_mul, ← intervalIntegral.integral_const_mul]
    refine integral_congr fun φ _ => ?_
    have hm : mu (0 - s * cos φ, -(s * sin φ)) = √(1 - s ^ 2) := by
      unfold mu
      congr 1
      linear_combination (-s ^ 2) * sin_sq_add_cos_sq φ
    simp only [hm]
    rw [show (0 - s * cos φ) = (-1) * (s * cos φ) by ring, show -(s * sin φ) = (-1) * (s * sin φ) by ring, mul_pow, mul_pow, mul_pow, mul_pow]
    ring
  rw [integral_congr e, intervalIntegral.integral_mul_const]
  unfold discClosed
  split_ifs with h hk0
  · obtain ⟨a, rfl⟩ : ∃ a, i = 2 * a := ⟨i / 2, by omega⟩
    obtain ⟨b, rfl⟩ : ∃ b, j = 2 * b := ⟨j / 2, by omega⟩
    rw [hk0, trig_circle_even, show 2 * a + 2 * b = 2 * (a + b) by ring]
    simp only [pow_zero, mul_one]
    rw [radial_zero, pow_mul, show 2 * a / 2 = a by omega, show 2 * b / 2 = b by omega, Nat.factorial_succ]
    have : ((a + b).factorial : ℝ) ≠ 0 := by positivity
    push_cast
    norm_num
    field_simp
  · obtain ⟨a, rfl⟩ : ∃ a, i = 2 * a := ⟨i / 2, by omega⟩
    obtain ⟨b, rfl⟩ : ∃ b, j = 2 * b := ⟨j / 2, by omega⟩
    have hk1 : k = 1 := by omega
    rw [hk1, trig_circle_even, show 2 * a + 2 * b = 2 * (a + b) by ring]
    simp only [pow_one]
    rw [radial_one, pow_mul, show 2 * a / 2 = a by omega, show 2 * b / 2 = b by omega]
    have : ((a + b).factorial : ℝ) ≠ 0 := by positivity
    have gp : Gamma (((a + b : ℕ) : ℝ) + 5 / 2) ≠ 0 := (Gamma_pos_of_pos (by positivity)).ne'
    norm_num
    push_cast at gp
    field_simp
  · rw [trig_circle_odd i j (by omega)]
    ring

/-! ### the loops -/

/-- closed form of the entry `n` of `rT` -/
noncomputable def rtClosed (n : ℕ) : ℝ := discClosed (n2ijk n).1 (n2ijk n).2.1 (n2ijk n).2.2

/-- the list holds zeros and correct entries, and correct entries on `P` -/
def RtOk (N : ℕ) (rt : List ℝ) (P : ℕ → Prop) : Prop :=
  rt.length = N ∧ (∀ n < N, rt.getD n 0 = 0 ∨ rt.getD n 0 = rtClosed n) ∧ ∀ n < N, P n → rt.getD n 0 = rtClosed n

theorem getD_set (L : List ℝ) (i n : ℕ) (v : ℝ) (hn : n < L.length) : (L.set i v).getD n 0 = if i = n then v else L.getD n 0 := by
  rw [List.getD_eq_getElem?_getD, List.getD_eq_getElem?_getD, List.getElem?_set]
  split_ifs <;> simp_all

theorem RtOk.set {N : ℕ} {rt : List ℝ} {P : ℕ → Prop} (h : RtOk N rt P) (i : ℕ) (v : ℝ) (hv : v = rtClosed i) :
    RtOk N (rt.set i v) (fun n => P n ∨ n = i) := by
  obtain ⟨h1, h2, h3⟩ := h
  refine ⟨by simpa using h1, fun n hn => ?_, fun n hn hp => ?_⟩
  · rw [getD_set _ _ _ _ (by omega)]
    split_ifs with h
    · right; rw [hv, h]
    · exact h2 n hn
  · rw [getD_set _ _ _ _ (by omega)]
    split_ifs with h
    · rw [hv, h]
    · exact h3 n hn (by rcases hp with hp | hp <;> [exact hp; exact absurd hp.symm h])

theorem RtOk.mono {N : ℕ} {rt : List ℝ} {P Q : ℕ → Prop} (h : RtOk N rt P) (hq : ∀ n < N, Q n → P n) : RtOk N rt Q :=
  ⟨h.1, h.2.1, fun n hn hp => h.2.2 n hn (hq n hn hp)⟩

/-- the indices written by the inner loop body -/
def written (lmax ell m n : ℕ) : Prop :=
  n = ell * ell + ell + m ∨ n = ell * ell + ell - m ∨
    (ell < lmax ∧ (n = (ell + 1) * (ell + 1) + ell + m + 1 ∨ n = (ell + 1) * (ell + 1) + ell - m + 1))

noncomputable def ampOf (d t s : ℕ) : ℝ := Gamma ((t : ℝ) - s + 1 / 2) * Gamma ((t : ℝ) + s + d + 1 / 2)

theorem half_ne (t s : ℕ) : (t : ℝ) - s - 1 / 2 ≠ 0 := by
  intro h
  have : (2 * (t : ℤ) : ℤ) - 2 * s - 1 = 0 := by
    have : (2 * (t : ℝ)) - 2 * s - 1 = 0 := by linarith
    exact_mod_cast this
  omega

theorem ampOf_succ (d t s : ℕ) : ampOf d t (s + 1) * ((t : ℝ) - s - 1 / 2) = ampOf d t s * ((t : ℝ) + s + d + 1 / 2) := by
  unfold ampOf
  have g1 := Gamma_add_one (half_ne t s)
  have g2 := Gamma_add_one (s := (t : ℝ) + s + d + 1 / 2) (by positivity)
  push_cast
  rw [show (t : ℝ) - (s + 1) + 1 / 2 = (t : ℝ) - s - 1 / 2 by ring,
    show (t : ℝ) + (s + 1) + d + 1 / 2 = (t : ℝ) + s + d + 1 / 2 + 1 by ring, g2,
    show (t : ℝ) - s + 1 / 2 = (t : ℝ) - s - 1 / 2 + 1 by ring, g1]
  ring

theorem closed_idx0 (a b : ℕ) : rtClosed ((2 * (a + b)) ^ 2 + 4 * b) =
    Gamma ((a : ℝ) + 1 / 2) * Gamma ((b : ℝ) + 1 / 2) * (1 / ((a + b + 1).factorial : ℝ)) := by
  unfold rtClosed
  rw [n2ijk_block _ _ (by omega)]
  unfold discClosed
  simp only
  rw [show (2 * (2 * (a + b)) - 4 * b) / 2 = 2 * a by omega, show 4 * b / 2 = 2 * b by omega, show 4 * b % 2 = 0 by omega]
  rw [if_pos (by omega), if_pos rfl, show 2 * a / 2 = a by omega, show 2 * b / 2 = b by omega]

theorem closed_idx1 (a b : ℕ) : rtClosed ((2 * (a + b) + 1) ^ 2 + (4 * b + 1)) =
    Gamma ((a : ℝ) + 1 / 2) * Gamma ((b : ℝ) + 1 / 2) * (Gamma (3 / 2) / Gamma (((a + b : ℕ) : ℝ) + 5 / 2)) := by
  unfold rtClosed
  rw [n2ijk_block _ _ (by omega)]
  unfold discClosed
  simp only
  rw [show (2 * (2 * (a + b) + 1) - (4 * b + 1)) / 2 = 2 * a by omega, show (4 * b + 1) / 2 = 2 * b by omega, show (4 * b + 1) % 2 = 1 by omega]
  rw [if_pos (by omega), if_neg (by omega), show 2 * a / 2 = a by omega, show 2 * b / 2 = b by omega]

theorem rtInner_ok {N lmax : ℕ} (d t s : ℕ) (hs : s ≤ t) (rt : List ℝ) (P : ℕ → Prop) (h : RtOk N rt P) (f1 f2 : ℝ)
    (h1 : f1 = 1 / ((2 * t + d + 1).factorial : ℝ)) (h2 : f2 = Gamma (3 / 2) / Gamma (((2 * t + d : ℕ) : ℝ) + 5 / 2)) :
    (rtInner lmax (4 * t + 2 * d) f1 f2 (rt, ampOf d t s) (2 * d + 4 * s)).2 = ampOf d t (s + 1) ∧
    RtOk N (rtInner lmax (4 * t + 2 * d) f1 f2 (rt, ampOf d t s) (2 * d + 4 * s)).1
      (fun n => P n ∨ written lmax (4 * t + 2 * d) (2 * d + 4 * s) n) := by
  obtain ⟨a, rfl⟩ : ∃ a, t = a + s := ⟨t - s, by omega⟩
  have hamp : ampOf d (a + s) s = Gamma ((a : ℝ) + 1 / 2) * Gamma (((a + 2 * s + d : ℕ) : ℝ) + 1 / 2) := by
    unfold ampOf
    push_cast
    congr 2 <;> ring
  constructor
  · have := ampOf_succ d (a + s) s
    have hne := half_ne (a + s) s
    unfold rtInner
    simp only
    rw [← mul_div_assoc, div_eq_iff (by push_cast at hne ⊢; intro hc; apply hne; linarith)]
    push_cast at this ⊢
    linear_combination (-4) * this
  · have i1 : rtClosed ((4 * (a + s) + 2 * d) * (4 * (a + s) + 2 * d) + (4 * (a + s) + 2 * d) + (2 * d + 4 * s)) = ampOf d (a + s) s * f1 := by
      rw [show (4 * (a + s) + 2 * d) * (4 * (a + s) + 2 * d) + (4 * (a + s) + 2 * d) + (2 * d + 4 * s) =
        (2 * (a + (a + 2 * s + d))) ^ 2 + 4 * (a + 2 * s + d) by ring, closed_idx0, hamp, h1]
      congr 4
      ring
    have i2 : rtClosed ((4 * (a + s) + 2 * d) * (4 * (a + s) + 2 * d) + (4 * (a + s) + 2 * d) - (2 * d + 4 * s)) = ampOf d (a + s) s * f1 := by
      rw [show (4 * (a + s) + 2 * d) * (4 * (a + s) + 2 * d) + (4 * (a + s) + 2 * d) - (2 * d + 4 * s) =
        (4 * (a + s) + 2 * d) * (4 * (a + s) + 2 * d) + 4 * a by omega]
      rw [show (4 * (a + s) + 2 * d) * (4 * (a + s) + 2 * d) + 4 * a = (2 * ((a + 2 * s + d) + a)) ^ 2 + 4 * a by ring, closed_idx0, hamp, h1,
        show a + 2 * s + d + a + 1 = 2 * (a + s) + d + 1 by ring]
      ring
    have i3 : rtClosed ((4 * (a + s) + 2 * d + 1) * (4 * (a + s) + 2 * d + 1) + (4 * (a + s) + 2 * d) + (2 * d + 4 * s) + 1) =
        ampOf d (a + s) s * f2 := by
      rw [show (4 * (a + s) + 2 * d + 1) * (4 * (a + s) + 2 * d + 1) + (4 * (a + s) + 2 * d) + (2 * d + 4 * s) + 1 =
        (2 * (a + (a + 2 * s + d)) + 1) ^ 2 + (4 * (a + 2 * s + d) + 1) by ring, closed_idx1, hamp, h2]
      congr 5
      ring
    have i4 : rtClosed ((4 * (a + s) + 2 * d + 1) * (4 * (a + s) + 2 * d + 1) + (4 * (a + s) + 2 * d) - (2 * d + 4 * s) + 1) =
        ampOf d (a + s) s * f2 := by
      rw [show (4 * (a + s) + 2 * d + 1) * (4 * (a + s) + 2 * d + 1) + (4 * (a + s) + 2 * d) - (2 * d + 4 * s) + 1 =
        (4 * (a + s) + 2 * d + 1) * (4 * (a + s) + 2 * d + 1) + 4 * a + 1 by omega]
      rw [show (4 * (a + s) + 2 * d + 1) * (4 * (a + s) + 2 * d + 1) + 4 * a + 1 = (2 * ((a + 2 * s + d) + a) + 1) ^ 2 + (4 * a + 1) by ring,
        closed_idx1, hamp, h2, show a + 2 * s + d + a = 2 * (a + s) + d by ring]
      ring
    unfold rtInner
    simp only
    have hA := (h.set _ _ i1.symm).set _ _ i2.symm
    split_ifs with hl
    · refine ((hA.set _ _ i3.symm).set _ _ i4.symm).mono ?_
      intro n _ hn
      unfold written at hn
      tauto
    · refine hA.mono ?_
      intro n _ hn
      unfold written at hn
      tauto

theorem rtInner_fold {N lmax : ℕ} (d t : ℕ) (rt : List ℝ) (P : ℕ → Prop) (h : RtOk N rt P) (f1 f2 : ℝ)
    (h1 : f1 = 1 / ((2 * t + d + 1).factorial : ℝ)) (h2 : f2 = Gamma (3 / 2) / Gamma (((2 * t + d : ℕ) : ℝ) + 5 / 2)) (k : ℕ) (hk : k ≤ t + 1) :
    (((List.range k).map fun i => 2 * d + 4 * i).foldl (rtInner lmax (4 * t + 2 * d) f1 f2) (rt, ampOf d t 0)).2 = ampOf d t k ∧
    RtOk N (((List.range k).map fun i => 2 * d + 4 * i).foldl (rtInner lmax (4 * t + 2 * d) f1 f2) (rt, ampOf d t 0)).1
      (fun n => P n ∨ ∃ s < k, written lmax (4 * t + 2 * d) (2 * d + 4 * s) n) := by
  induction k with
  | zero => simpa using h
  | succ k ih =>
    obtain ⟨e1, e2⟩ := ih (by omega)
    rw [List.range_succ, List.map_append, List.foldl_append, List.map_singleton, List.foldl_cons, List.foldl_nil]
    generalize ((List.range k).map fun i => 2 * d + 4 * i).foldl (rtInner lmax (4 * t + 2 * d) f1 f2) (rt, ampOf d t 0) = st at *
    obtain ⟨st1, st2⟩ := st
    simp only at e1 e2
    subst e1
    obtain ⟨a1, a2⟩ := rtInner_ok (lmax := lmax) d t k (by omega) st1 _ e2 f1 f2 h1 h2
    refine ⟨a1, a2.mono ?_⟩
    rintro n _ (hp | ⟨s, hs, hw⟩)
    · exact Or.inl (Or.inl hp)
    · rcases Nat.lt_succ_iff_lt_or_eq.1 hs with h | rfl
      · exact Or.inl (Or.inr ⟨s, h, hw⟩)
      · exact Or.inr hw

theorem gamma_two_steps (x : ℝ) (hx : 0 < x) : Gamma (x + 2) = (x + 1) * (x * Gamma x) := by
  rw [← Gamma_add_one hx.ne', ← Gamma_add_one (by positivity)]
  ring_nf

theorem rtOuter_fold {N lmax : ℕ} (d : ℕ) (upd : ℝ → ℝ)
    (hupd : ∀ t : ℕ, upd ((4 * t + 2 * d : ℕ) : ℝ) = ((t : ℝ) + 1 / 2) * ((t : ℝ) + d + 1 / 2)) (st : RtState) (P : ℕ → Prop)
    (h : RtOk N st.rt P) (ha : st.amp0 = ampOf d 0 0) (h1 : st.lfac1 = 1 / ((d + 1).factorial : ℝ))
    (h2 : st.lfac2 = Gamma (3 / 2) / Gamma ((d : ℝ) + 5 / 2)) (k : ℕ) :
    let st' := ((List.range k).map fun i => 2 * d + 4 * i).foldl (rtOuter lmax (2 * d) upd) st
    st'.amp0 = ampOf d k 0 ∧ st'.lfac1 = 1 / ((2 * k + d + 1).factorial : ℝ) ∧
    st'.lfac2 = Gamma (3 / 2) / Gamma (((2 * k + d : ℕ) : ℝ) + 5 / 2) ∧
    RtOk N st'.rt (fun n => P n ∨ ∃ t < k, ∃ s ≤ t, written lmax (4 * t + 2 * d) (2 * d + 4 * s) n) := by
  induction k with
  | zero => simpa using ⟨ha, by simpa using h1, h2, h⟩
  | succ k ih =>
    obtain ⟨e1, e2, e3, e4⟩ := ih
    simp only
    rw [List.range_succ, List.map_append, List.foldl_append, List.map_singleton, List.foldl_cons, List.foldl_nil]
    generalize ((List.range k).map fun i => 2 * d + 4 * i).foldl (rtOuter lmax (2 * d) upd) st = st' at *
    have hr : range4 (2 * d) (2 * d + 4 * k + 1) = (List.range (k + 1)).map fun i => 2 * d + 4 * i := by
      unfold range4
      congr 2
      omega
    obtain ⟨_, b2⟩ := rtInner_fold (lmax := lmax) d k st'.rt _ e4 st'.lfac1 st'.lfac2 e2 e3 (k + 1) le_rfl
    unfold rtOuter
    simp only
    refine ⟨?_, ?_, ?_, ?_⟩
    · rw [e1, show 2 * d + 4 * k = 4 * k + 2 * d by ring, hupd k]
      unfold ampOf
      have g1 := Gamma_add_one (s := (k : ℝ) + 1 / 2) (by positivity)
      have g2 := Gamma_add_one (s := (k : ℝ) + d + 1 / 2) (by positivity)
      push_cast
      rw [show (k : ℝ) + 1 - 0 + 1 / 2 = (k : ℝ) + 1 / 2 + 1 by ring, show (k : ℝ) + 1 + 0 + d + 1 / 2 = (k : ℝ) + d + 1 / 2 + 1 by ring, g1, g2,
        sub_zero, add_zero]
      ring
    · rw [e2, show 2 * (k + 1) + d + 1 = 2 * k + d + 1 + 1 + 1 by ring, Nat.factorial_succ (2 * k + d + 1 + 1), Nat.factorial_succ (2 * k + d + 1)]
      have : ((2 * k + d + 1).factorial : ℝ) ≠ 0 := by positivity
      rw [div_div]
      congr 1
      generalize (2 * k + d + 1).factorial = F at *
      push_cast
      ring
    · rw [e3]
      have := gamma_two_steps (((2 * k + d : ℕ) : ℝ) + 5 / 2) (by positivity)
      have gp : Gamma (((2 * k + d : ℕ) : ℝ) + 5 / 2) ≠ 0 := (Gamma_pos_of_pos (by positivity)).ne'
      rw [show ((2 * (k + 1) + d : ℕ) : ℝ) + 5 / 2 = ((2 * k + d : ℕ) : ℝ) + 5 / 2 + 2 by push_cast; ring, this]
      generalize Gamma (((2 * k + d : ℕ) : ℝ) + 5 / 2) = A at *
      have hp1 : ((2 * k + d : ℕ) : ℝ) + 5 / 2 ≠ 0 := by positivity
      have hp2 : ((2 * k + d : ℕ) : ℝ) + 5 / 2 + 1 ≠ 0 := by positivity
      rw [div_div]
      congr 1
      push_cast
      ring
    · rw [hr, e1, show 2 * d + 4 * k = 4 * k + 2 * d by ring]
      refine b2.mono ?_
      rintro n _ (hp | ⟨t, ht, s, hs, hw⟩)
      · exact Or.inl (Or.inl hp)
      · rcases Nat.lt_succ_iff_lt_or_eq.1 ht with h | rfl
        · exact Or.inl (Or.inr ⟨t, h, s, hs, hw⟩)
        · exact Or.inr ⟨s, by omega, hw⟩

theorem rtClosed_eq_zero (lmax l q : ℕ) (hl : l ≤ lmax) (hq : q ≤ 2 * l)
    (h : ∀ d ≤ 1, ∀ t s : ℕ, s ≤ t → 4 * t + 2 * d ≤ lmax → ¬ written lmax (4 * t + 2 * d) (2 * d + 4 * s) (l ^ 2 + q)) :
    rtClosed (l ^ 2 + q) = 0 := by
  unfold rtClosed
  rw [n2ijk_block _ _ hq]
  unfold discClosed
  simp only
  rw [if_neg]
  rintro ⟨hi, hj⟩
  obtain ⟨a, ha⟩ : ∃ a, (2 * l - q) / 2 = 2 * a := ⟨(2 * l - q) / 2 / 2, by omega⟩
  obtain ⟨b, hb⟩ : ∃ b, q / 2 = 2 * b := ⟨q / 2 / 2, by omega⟩
  -- the pair (d, t, s) of the write
  obtain ⟨d, t, s, hd, hs, hab⟩ : ∃ d t s : ℕ, d ≤ 1 ∧ s ≤ t ∧ ((a = t - s ∧ b = t + s + d) ∨ (b = t - s ∧ a = t + s + d)) := by
    refine ⟨(a + b) % 2, (a + b) / 2, (a + b) / 2 - min a b, by omega, by omega, ?_⟩
    rcases le_total a b with h | h
    · left; rw [min_eq_left h]; omega
    · right; rw [min_eq_right h]; omega
  rcases Nat.mod_two_eq_zero_or_one q with h2 | h2
  · have hl' : l = 4 * t + 2 * d := by omega
    subst hl'
    refine h d hd t s hs (by omega) ?_
    unfold written
    rw [sq]
    rcases hab with ⟨h3, h4⟩ | ⟨h3, h4⟩
    · left; omega
    · right; left; omega
  · have hl' : l = 4 * t + 2 * d + 1 := by omega
    subst hl'
    refine h d hd t s hs (by omega) ?_
    unfold written
    rw [sq]
    right; right
    refine ⟨by omega, ?_⟩
    rcases hab with ⟨h3, h4⟩ | ⟨h3, h4⟩
    · left; omega
    · right; omega

theorem rT_closed (lmax : ℕ) : (rT lmax).length = (lmax + 1) ^ 2 ∧
    ∀ l ≤ lmax, ∀ q ≤ 2 * l, (rT lmax).getD (l ^ 2 + q) 0 = rtClosed (l ^ 2 + q) := by
  have hN : (lmax + 1) * (lmax + 1) = (lmax + 1) ^ 2 := by ring
  have h0 : RtOk ((lmax + 1) * (lmax + 1)) (List.replicate ((lmax + 1) * (lmax + 1)) (0 : ℝ)) (fun _ => False) := by
    refine ⟨by simp, fun n hn => ?_, fun _ _ h => h.elim⟩
    left
    simp [List.getD_eq_getElem?_getD, List.getElem?_replicate]
    split_ifs
    simp
  have ghalf : Gamma (1 / 2) = √π := Gamma_one_half_eq
  have g32 : Gamma (3 / 2) = 1 / 2 * √π := by
    rw [← ghalf, ← Gamma_add_one (by norm_num)]; norm_num
  have g52 : Gamma (5 / 2) = 3 / 2 * Gamma (3 / 2) := by
    rw [← Gamma_add_one (by norm_num)]; norm_num
  have g72 : Gamma (7 / 2) = 5 / 2 * Gamma (5 / 2) := by
    rw [← Gamma_add_one (by norm_num)]; norm_num
  have gp : Gamma (3 / 2) ≠ 0 := (Gamma_pos_of_pos (by norm_num)).ne'
  obtain ⟨_, _, _, a4⟩ := rtOuter_fold (N := (lmax + 1) * (lmax + 1)) (lmax := lmax) 0 (fun ell => 0.0625 * (ell + 2) * (ell + 2))
    (by intro t; push_cast; norm_num; ring)
    { rt := List.replicate ((lmax + 1) * (lmax + 1)) (0 : ℝ), amp0 := π, lfac1 := 1, lfac2 := 2 / 3 } _ h0
    (by unfold ampOf; simp only [Nat.cast_zero, sub_zero, add_zero, zero_add]; rw [ghalf, mul_self_sqrt pi_pos.le]) (by simp)
    (by simp only [Nat.cast_zero, zero_add]; rw [g52]; field_simp) ((lmax + 1 + 3 - 0) / 4)
  obtain ⟨_, _, _, b4⟩ := rtOuter_fold (N := (lmax + 1) * (lmax + 1)) (lmax := lmax) 1 (fun ell => 0.0625 * ell * (ell + 4))
    (by intro t; push_cast; norm_num; ring)
    { rt := (((List.range ((lmax + 1 + 3 - 0) / 4)).map fun i => 2 * 0 + 4 * i).foldl (rtOuter lmax (2 * 0) fun ell => 0.0625 * (ell + 2) * (ell + 2))
        { rt := List.replicate ((lmax + 1) * (lmax + 1)) (0 : ℝ), amp0 := π, lfac1 := 1, lfac2 := 2 / 3 }).rt,
        amp0 := 0.5 * π, lfac1 := 0.5, lfac2 := 4 / 15 } _ a4
    (by
      unfold ampOf
      simp only [Nat.cast_zero, sub_zero, add_zero, zero_add, Nat.cast_one]
      rw [show (1 : ℝ) + 1 / 2 = 3 / 2 by norm_num, ghalf, g32]
      have := mul_self_sqrt pi_pos.le
      linear_combination (-1 / 2) * this)
    (by norm_num)
    (by simp only [Nat.cast_one]; rw [show (1 : ℝ) + 5 / 2 = 7 / 2 by norm_num, g72, g52]; field_simp; norm_num) ((lmax + 1 + 3 - 2) / 4)
  have hrt : rT lmax = (((List.range ((lmax + 1 + 3 - 2) / 4)).map fun i => 2 * 1 + 4 * i).foldl (rtOuter lmax (2 * 1) fun ell => 0.0625 * ell * (ell + 4))
      { rt := (((List.range ((lmax + 1 + 3 - 0) / 4)).map fun i => 2 * 0 + 4 * i).foldl (rtOuter lmax (2 * 0) fun ell => 0.0625 * (ell + 2) * (ell + 2))
        { rt := List.replicate ((lmax + 1) * (lmax + 1)) (0 : ℝ), amp0 := π, lfac1 := 1, lfac2 := 2 / 3 }).rt,
        amp0 := 0.5 * π, lfac1 := 0.5, lfac2 := 4 / 15 }).rt := rfl
  rw [← hrt] at b4
  obtain ⟨c1, c2, c3⟩ := b4
  refine ⟨by rw [c1, hN], fun l hl q hq => ?_⟩
  have hlt : l ^ 2 + q < (lmax + 1) * (lmax + 1) := by nlinarith
  rcases c2 _ hlt with hz | hz
  · by_cases hw : ∃ d ≤ 1, ∃ t s : ℕ, s ≤ t ∧ 4 * t + 2 * d ≤ lmax ∧ written lmax (4 * t + 2 * d) (2 * d + 4 * s) (l ^ 2 + q)
    · obtain ⟨d, hd, t, s, hs, hle, hw⟩ := hw
      refine c3 _ hlt ?_
      have : d = 0 ∨ d = 1 := by omega
      rcases this with rfl | rfl
      · exact Or.inl (Or.inr ⟨t, by omega, s, hs, hw⟩)
      · exact Or.inr ⟨t, by omega, s, hs, hw⟩
    · push Not at hw
      rw [hz, rtClosed_eq_zero lmax l q hl hq hw]
  · exact hz

/-- C49: `rT(lmax)` has `(lmax + 1)²` entries; the entry of degree `l` and order `m = q - l` is the integral over the
stellar disc of the basis monomial: `x^((2l-q)/2) y^(q/2)`, times `z` if `q` is odd -/
theorem rT_spec (lmax : ℕ) : (rT lmax).length = (lmax + 1) ^ 2 ∧ ∀ l ≤ lmax, ∀ q ≤ 2 * l,
    (rT lmax).getD (l ^ 2 + q) 0 = ∫ p in stellarDisc, p.1 ^ ((2 * l - q) / 2) * p.2 ^ (q / 2) * mu p ^ (q % 2) := by
  obtain ⟨h1, h2⟩ := rT_closed lmax
  refine ⟨h1, fun l hl q hq => ?_⟩
  rw [h2 l hl q hq, disc_mono _ _ _ (by omega)]
  unfold rtClosed
  rw [n2ijk_block _ _ hq]

theorem integrableOn_disc_cont {f : ℝ × ℝ → ℝ} (hf : Continuous f) : IntegrableOn f stellarDisc :=
  hf.continuousOn.integrableOn_compact isCompact_stellarDisc

/-- C49: the product with a coefficient vector is the flux of the polynomial -/
theorem rT_dot (lmax : ℕ) (c : List ℝ) (hc : c.length = (lmax + 1) ^ 2) :
    ((rT lmax).zipWith (· * ·) c).sum = ∫ p in stellarDisc, denseVal c p.1 p.2 (mu p) := by
  obtain ⟨h1, h2⟩ := rT_spec lmax
  have hmu : Continuous mu := continuous_mu
  unfold denseVal
  rw [integral_finsetSum _ (fun n _ => integrableOn_disc_cont (by fun_prop))]
  have e : (rT lmax).zipWith (· * ·) c = (List.range ((lmax + 1) ^ 2)).map fun n => (rT lmax).getD n 0 * c.getD n 0 := by
    apply List.ext_getElem
    · simp [h1, hc]
    · intro n a1 a2
      simp only [List.getElem_zipWith, List.getElem_map, List.getElem_range]
      rw [List.getD_eq_getElem _ _ (by simp [h1, hc] at a1; omega), List.getD_eq_getElem _ _ (by simp [h1, hc] at a1; omega)]
  rw [e, listSum_range, hc]
  refine Finset.sum_congr rfl fun n hn => ?_
  have hb := sqrt_bounds n
  have hn := Finset.mem_range.1 hn
  have hs : Nat.sqrt n ≤ lmax := by
    have : Nat.sqrt n < lmax + 1 := by rw [Nat.sqrt_lt]; nlinarith
    omega
  have := h2 (Nat.sqrt n) hs (n - Nat.sqrt n ^ 2) (by omega)
  rw [show Nat.sqrt n ^ 2 + (n - Nat.sqrt n ^ 2) = n by omega] at this
  rw [this, MeasureTheory.integral_const_mul]
  ring

/-- the disc has area `π`, a Lambert sphere `2π/3` -/
example : (rT 1).getD 0 0 = π ∧ (rT 1).getD 2 0 = 2 / 3 * π := by
  obtain ⟨_, h2⟩ := rT_closed 1
  constructor
  · have := h2 0 (by omega) 0 (by omega)
    rw [show 0 ^ 2 + 0 = 0 from rfl] at this
    rw [this]
    have e := closed_idx0 0 0
    simp only [mul_zero, add_zero] at e
    rw [show (0 : ℕ) ^ 2 = 0 from rfl] at e
    rw [e]
    simp only [Nat.cast_zero, zero_add]
    rw [Gamma_one_half_eq, mul_self_sqrt pi_pos.le]
    norm_num
  · have := h2 1 (by omega) 1 (by omega)
    rw [show 1 ^ 2 + 1 = 2 from rfl] at this
    rw [this]
    have e := closed_idx1 0 0
    simp only [mul_zero, add_zero, zero_add] at e
    rw [show (1 : ℕ) ^ 2 + 1 = 2 from rfl] at e
    rw [e]
    simp only [Nat.cast_zero, zero_add]
    have g52 : Gamma (5 / 2) = 3 / 2 * Gamma (3 / 2) := by
      rw [← Gamma_add_one (by norm_num)]; norm_num
    have gp : Gamma (3 / 2) ≠ 0 := (Gamma_pos_of_pos (by norm_num)).ne'
    rw [Gamma_one_half_eq, mul_self_sqrt pi_pos.le, g52]
    field_simp

end Jaxoplanet.Starry
