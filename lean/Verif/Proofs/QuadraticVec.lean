import Verif.Proofs.QuadraticExact
import Verif.Props.LimbDarkFloat

/-! The computed solution vector of a quadratically limb-darkened star. -/

namespace Jaxoplanet.LimbDarkFloat

open Real KeplerFloat LimbDark Spec MeasureTheory Green Set
open _root_.Jaxoplanet.Starry.Spec (quadSum IsGaussLegendre)

/-- the run of the uniform star inside the run of the limb-darkened one -/
noncomputable def QuadraticRun.uniform {u eps u1 u2 b r : ℝ} {table : List (ℝ × ℝ)} (hu0 : 0 ≤ u) (Q : QuadraticRun u eps u1 u2 b r table) :
    UniformRun u b r where
  pi := Q.pi
  hpi := Q.hpi
  g0 := 1 / Q.pi
  hg0 := Rnd.refl hu0 _
  op := Q.op
  hop := Q.hop
  kappas := Q.kappas
  opb := Q.opb
  hopb := Q.hopb
  b_ := Q.b_
  hb_ := Q.hb_
  r2 := Q.r2
  hr2 := Q.hr2
  s0run := Q.s0run
  s0 := Q.s0
  hs0 := Q.hs0
  prod := Q.s0 * (1 / Q.pi)
  hprod := Rnd.refl hu0 _
  out := Q.s0 * (1 / Q.pi) - 1
  hout := Rnd.refl hu0 _

/-- a small occultor never covers the star, as the program sees it -/
theorem not_covered {u b r opb : ℝ} (hu : u ≤ 1e-6) (hb : 0 ≤ b) (hr1 : r ≤ 1 / 2) (h : Rnd u (1 + b) opb) : ¬ opb ≤ r := by
  have h1 := h.ge (by linarith)
  have h2 : u * (1 + b) ≤ 1e-6 * (1 + b) := mul_le_mul_of_nonneg_right hu (by linarith)
  norm_num at h2
  intro h3
  linarith

theorem amp_small {u τ b r : ℝ} (hu0 : 0 ≤ u) (hu : u ≤ 1e-6) (hτ0 : 0 ≤ τ) (hτ1 : τ ≤ 1e-3) (hτ : u ≤ τ ^ 2) (hr1 : |r| ≤ 1 / 2) :
    4200 * u * (1 + |r|) ^ 2 + 23000 * (amplification u b r * √(amplification u b r)) ≤ 14 * τ := by
  norm_num at hτ1
  have hr := abs_nonneg r
  have ht : τ * τ ≤ 1 / 1000 * τ := mul_le_mul_of_nonneg_right hτ1 hτ0
  rw [sq] at hτ
  have hden : 1 / 2 ≤ max |b| (abs (1 - |r|)) := le_max_of_le_right (by rw [abs_of_nonneg (by linarith)]; linarith)
  have h2 : (1 + |r|) ^ 2 ≤ (3 / 2) ^ 2 := pow_le_pow_left₀ (by linarith) (by linarith) 2
  have h3 : (1 + |r|) ^ 3 ≤ (3 / 2) ^ 3 := pow_le_pow_left₀ (by linarith) (by linarith) 3
  have ha : amplification u b r ≤ 6.76 * u := by
    unfold amplification
    rw [div_le_iff₀ (by linarith)]
    have a1 := mul_le_mul_of_nonneg_left h3 hu0
    have a2 := mul_le_mul_of_nonneg_left hden (show 0 ≤ 6.76 * u by positivity)
    norm_num at a1 a2 ⊢
    linarith
  have ha0 : 0 ≤ amplification u b r := by unfold amplification; positivity
  have hs : √(amplification u b r) ≤ 2.6 * τ := by
    rw [← sqrt_sq (show 0 ≤ 2.6 * τ by positivity)]
    apply sqrt_le_sqrt
    refine ha.trans ?_
    rw [mul_pow, sq τ]
    norm_num
    nlinarith
  have h4 := mul_le_mul ha hs (sqrt_nonneg _) (by positivity)
  have h5 : u * τ ≤ 1e-6 * τ := mul_le_mul_of_nonneg_right hu hτ0
  have h6 := mul_le_mul_of_nonneg_left h2 (show 0 ≤ 4200 * u by positivity)
  norm_num at h4 h5 h6 ⊢
  linarith

theorem s0_near {u eps τ u1 u2 b r : ℝ} {table : List (ℝ × ℝ)} (hu0 : 0 ≤ u) (hu : u ≤ 1e-6) (hτ0 : 0 ≤ τ) (hτ1 : τ ≤ 1e-3) (hτ : u ≤ τ ^ 2)
    (hr1 : |r| ≤ 1 / 2) (Q : QuadraticRun u eps u1 u2 b r table) : |Q.s0 - (π - overlap |b| |r|)| ≤ 14 * τ := by
  have h := s0_accurate (b := b) (r := r) hu0 (hu.trans (by norm_num)) (by
    have := mul_le_mul_of_nonneg_left hr1 hu0
    norm_num at hu ⊢
    linarith) (Or.inr (by linarith)) (Q.uniform hu0)
  exact h.trans (amp_small hu0 hu hτ0 hτ1 hτ hr1)

theorem visible_range (b r : ℝ) : 0 ≤ π - overlap b r ∧ |π - overlap b r| ≤ 3.15 := by
  have h1 := overlap_nonneg b r
  have h2 := overlap_le_pi b r
  have h3 := pi_lt_d2
  refine ⟨by linarith, ?_⟩
  rw [abs_of_nonneg (by linarith)]
  norm_num at h3 ⊢
  linarith

/-- the angles as computed, when the discs may overlap -/
theorem kappas_near {u τ b r op : ℝ} (hu0 : 0 ≤ u) (hu : u ≤ 1e-6) (hτ0 : 0 ≤ τ) (hτ1 : τ ≤ 1e-3) (hτ : u ≤ τ ^ 2) (hb : 0 ≤ b) (hr : 0 ≤ r)
    (hr1 : r ≤ 1 / 2) (hop : Rnd u (1 + r) op) (k : KappasRun u b r op) (hbop : b < op) :
    r * |k.kappa0 - angle0 b r| ≤ 226 * τ ∧ |k.kappa0| ≤ 3.2 ∧ |k.kappa1 - angle1 b r| ≤ 226 * τ := by
  obtain ⟨a0, a1⟩ := angles_near hu0 hu hτ0 hτ1 hτ hb hr hr1 hop k hbop
  have hπ := pi_lt_d2
  have hut : u ≤ 1 / 1000 * τ := by
    have := mul_le_mul_of_nonneg_right hτ1 hτ0
    norm_num at this ⊢
    rw [sq] at hτ
    linarith
  have hx : ∀ y : ℝ, |arctan2 k.area y| ≤ 3.15 := fun y => (Complex.abs_arg_le_pi _).trans hπ.le
  have h0 := near_zero hu0 hu k.hkappa0 (hx _)
  have h1 := near_zero hu0 hu k.hkappa1 (hx _)
  have b0 := abs_sub_le k.kappa0 (arctan2 k.area k.y0) (angle0 b r)
  have b1 := abs_sub_le k.kappa1 (arctan2 k.area k.y1) (angle1 b r)
  have b2 := abs_sub_abs_le_abs_sub k.kappa0 (arctan2 k.area k.y0)
  have b3 := hx k.y0
  norm_num at h0 h1 b3 hu ⊢
  refine ⟨?_, ?_, ?_⟩
  · have c1 := mul_le_mul_of_nonneg_left b0 hr
    have c2 := mul_le_mul_of_nonneg_left h0 hr
    have c3 := mul_le_mul_of_nonneg_right hr1 (show 0 ≤ u * (63 / 20) by positivity)
    linarith
  · linarith
  · linarith

theorem s2_near {u eps τ u1 u2 b r : ℝ} {table : List (ℝ × ℝ)} (hu0 : 0 ≤ u) (hu : u ≤ 1e-6) (hτ0 : 0 ≤ τ) (hτ1 : τ ≤ 1e-3) (hτ : u ≤ τ ^ 2)
    (hr1 : |r| ≤ 1 / 2) (Q : QuadraticRun u eps u1 u2 b r table) : |Q.s2 - (exact2 |b| |r|)| ≤ 1700 * τ := by
  have hs0 := s0_near hu0 hu hτ0 hτ1 hτ hr1 Q
  obtain ⟨v0, v1⟩ := visible_range |b| |r|
  obtain ⟨pi, hpi, greens, op, hop, k, opb, hopb, b_, hb_, b2, hb2, r2, hr2, S, T, s0, hs0e, s2, hs2, prun, P, hP, k1, hk1, k2, hk2, k3, hk3, s1, hs1, dot, hdot, out, hout⟩ := Q
  show |s2 - _| ≤ _
  change |s0 - _| ≤ _ at hs0
  have hb := abs_nonneg b
  have hr := abs_nonneg r
  generalize |b| = b at *
  generalize |r| = r at *
  have hnf := not_covered hu hb hr1 hopb
  simp only [hnf, or_false, if_false] at hb_ hs0e hs2 hP
  have hut : u ≤ 1 / 1000 * τ := by
    have := mul_le_mul_of_nonneg_right hτ1 hτ0
    norm_num at this ⊢
    rw [sq] at hτ
    linarith
  rcases le_or_gt op b with h | h
  · rw [if_pos h] at hs0e hs2
    subst hs0e hs2
    have hπ := near_zero (M := 63 / 20) hu0 hu hpi (by rw [abs_of_pos pi_pos]; exact pi_lt_d2.le.trans (by norm_num))
    have hov : |π - overlap b r - π| ≤ 14 * τ + u * (63 / 20) := by
      have := abs_sub_le (π - overlap b r) s0 π
      rw [abs_sub_comm (π - overlap b r) s0] at this
      linarith
    rw [zero_sub, abs_neg]
    rcases le_or_gt (1 + r) b with h1 | h1
    · obtain ⟨o1, o2, o3⟩ := angles_outside hr h1
      unfold exact2
      rw [o1, o2, o3, show 2 * (π - overlap b r) + 2 * (-(π - 0) + 2 * (0.5 * (r * r) * (r * r + 2 * (b * b))) * 0 - 0.25 * 0 * (1 + 5 * (r * r) + b * b)) =
        2 * (π - overlap b r - π) by ring, abs_mul, abs_two]
      linarith
    · obtain ⟨o1, o2, o3⟩ := angles_none hu0 hu hτ0 hτ1 hτ hr hr1 hop h
      have o4 := area0_nonneg b r
      have o5 := (angle0_range (b := b) (r := r)).1
      have o6 := (angle1_range (b := b) (r := r)).1
      have hbb : b * b ≤ 3 / 2 * (3 / 2) := mul_self_le_mul_self hb (by linarith)
      have hrr : r * r ≤ 1 / 2 * (1 / 2) := mul_self_le_mul_self hr hr1
      have c1 : r * (r * r + 2 * (b * b)) ≤ 1 / 2 * 4.75 := mul_le_mul hr1 (by norm_num; linarith) (by positivity) (by norm_num)
      have c2 := mul_le_mul c1 o2 (by positivity) (by norm_num)
      have c3 : area0 b r * (1 + 5 * (r * r) + b * b) ≤ 10 * τ * 4.5 := mul_le_mul o1 (by norm_num; linarith) (by positivity) (by positivity)
      have c4 : 0 ≤ area0 b r * (1 + 5 * (r * r) + b * b) := by positivity
      have c5 : 0 ≤ r * (r * r + 2 * (b * b)) * (r * angle0 b r) := by positivity
      unfold exact2
      rw [show 2 * (π - overlap b r) + 2 * (-(π - angle1 b r) + 2 * (0.5 * (r * r) * (r * r + 2 * (b * b))) * angle0 b r - 0.25 * area0 b r * (1 + 5 * (r * r) + b * b)) =
        2 * (π - overlap b r - π) + 2 * angle1 b r + 2 * (r * (r * r + 2 * (b * b)) * (r * angle0 b r)) - 0.5 * (area0 b r * (1 + 5 * (r * r) + b * b)) by ring]
      obtain ⟨d1, d2⟩ := _root_.abs_le.1 hov
      norm_num at c2 c3
      refine _root_.abs_le.2 ⟨?_, ?_⟩ <;> norm_num <;> linarith
  · rw [if_neg (not_le.2 h)] at hs0e hs2 hb_
    subst hs0e hs2
    subst b_
    have hople : op ≤ (1 + u) * (1 + r) := hop.le (by linarith)
    have hb1 : b ≤ 1.51 := by
      have : (1 + u) * (1 + r) ≤ (1 + 1e-6) * (3 / 2) := mul_le_mul (by linarith) (by linarith) (by linarith) (by norm_num)
      norm_num at this ⊢
      linarith
    obtain ⟨ka, kb, kc⟩ := kappas_near hu0 hu hτ0 hτ1 hτ hb hr hr1 hop k h
    obtain ⟨-, ar⟩ := area_near hu0 hu hτ0 hτ hb hr hr1 hop k h
    have hTs := T.hs2
    have hSs := S.hs0
    by_cases hc : S.sum > S.delta
    · rw [if_pos hc] at hTs hSs
      rw [hTs]
      rw [hSs] at hs0
      have hin := lrg_inside hu0 (hu.trans (by norm_num)) hb hr S hc
      exact s2_lrg_near hu0 hu hut hτ1 hτ hb hb1 hr hr1 hpi hb2 hr2 S T (by linarith) hs0 v1
    · rw [if_neg hc] at hTs hSs
      rw [hTs]
      rw [hSs] at hs0
      exact s2_sml_near hu0 hu hut hτ1 hb hb1 hr hr1 hpi hb2 hr2 S T ar ka kb kc hs0 v1

/-- the angle at the star vanishes when the program sees no overlap -/
theorem kappa1_none {u b r op : ℝ} (hu0 : 0 ≤ u) (hu : u ≤ 1e-6) (hr : 0 ≤ r) (hr1 : r ≤ 1 / 2) (k : KappasRun u b r op) (h : op ≤ b) :
    k.kappa1 = 0 := by
  have hu1 : u ≤ 1 := hu.trans (by norm_num)
  have ha : k.area = 0 := by
    rw [k.harea, if_neg]
    exact fun hc => absurd hc.2 (not_lt.2 h)
  have hrm : 0 ≤ -k.rm := (Rnd.neg k.hrm).nonneg hu1 (by linarith)
  have hrp : 0 ≤ k.rp := k.hrp.nonneg hu1 (by linarith)
  have hf : 0 ≤ -k.factor := (Rnd.neg k.hfactor).nonneg hu1 (by
    have := mul_nonneg hrm hrp
    linarith)
  have hb2 : 0 ≤ k.b2 := k.hb2.nonneg hu1 (mul_self_nonneg _)
  have hy : 0 ≤ k.y1 := k.hy1.nonneg hu1 (by linarith)
  have h1 := k.hkappa1
  rw [ha, arctan2_zero_pos hy] at h1
  have h2 : |k.kappa1 - 0| ≤ u * |(0 : ℝ)| := h1
  simpa using h2

theorem combine_s1 {u τ kappa1 a1 k1 k2 k3 pi s1 P I EP : ℝ} (hu0 : 0 ≤ u) (hu : u ≤ 1e-6) (hut : u ≤ 1 / 1000 * τ) (hpi : Rnd u π pi)
    (hk : |kappa1 - a1| ≤ 226 * τ) (ha : 0 ≤ a1) (ha1 : a1 ≤ π) (hk1 : Rnd u (kappa1 - pi) k1) (hk2 : Rnd u (2 * k1) k2) (hk3 : Rnd u (k2 / 3) k3)
    (hs1 : Rnd u (-P - k3) s1) (hP : |P - I| ≤ EP) (hI : |I| ≤ 3.2) : |s1 - (-I - 2 * (a1 - π) / 3)| ≤ 1.001 * EP + 155 * τ := by
  have hπ := pi_lt_d2
  norm_num at hπ
  have h0 := near_zero (M := 63 / 20) hu0 hu hpi (by rw [abs_of_pos pi_pos]; linarith)
  have h1 := near_rnd (M := 63 / 20) hu0 hu hk1 (near_sub hk h0) (by rw [_root_.abs_le]; constructor <;> linarith)
  have h2 := near_rnd (X := 2 * (a1 - π)) (e := 2 * (1.001 * (226 * τ + u * (63 / 20)) + u * (63 / 20))) (M := 63 / 10) hu0 hu hk2 (by
    rw [← mul_sub, abs_mul, abs_two]
    linarith) (by rw [_root_.abs_le]; constructor <;> linarith)
  have h3 := near_rnd (X := 2 * (a1 - π) / 3) (e := (1.001 * (2 * (1.001 * (226 * τ + u * (63 / 20)) + u * (63 / 20))) + u * (63 / 10)) / 3) (M := 21 / 10) hu0 hu hk3 (by
    rw [← sub_div, abs_div, abs_of_pos (show (0 : ℝ) < 3 by norm_num)]
    exact div_le_div_of_nonneg_right h2 (by norm_num)) (by rw [_root_.abs_le]; constructor <;> linarith)
  have hP' : |-P - -I| ≤ EP := by rw [← abs_neg]; convert hP using 2; ring
  norm_num at hI
  obtain ⟨i1, i2⟩ := _root_.abs_le.1 hI
  have h4 := near_rnd (M := 53 / 10) hu0 hu hs1 (near_sub hP' h3) (by rw [_root_.abs_le]; constructor <;> linarith)
  refine h4.trans ?_
  norm_num
  linarith

theorem arc_total_le {b r : ℝ} (hb : 0 ≤ b) (hb1 : b ≤ 1.51) (hr : 0 ≤ r) (hr1 : r ≤ 1 / 2) :
    |∫ φ in (0 : ℝ)..(angle0 b r), arcIntegrand b r 1 φ| ≤ 2.01 * (r * angle0 b r) := by
  have h := integral_move (continuous_arcIntegrand b r 1) (a := angle0 b r) (c := 0) (fun φ => arc_abs_le (φ := φ) hb hb1 hr hr1)
  rw [intervalIntegral.integral_same, sub_zero, sub_zero, abs_of_nonneg angle0_range.1] at h
  rw [← mul_assoc]
  exact h

theorem s1_near {u eps τ η u1 u2 b r : ℝ} {order : ℕ} {rule table : List (ℝ × ℝ)} (hu0 : 0 ≤ u) (heps : 0 < eps) (heps1 : eps ≤ 1e-6)
    (hτ0 : 0 ≤ τ) (hτ1 : τ ≤ 1e-3) (hτ : τ ^ 2 = eps) (hue : u ≤ eps) (hη : 6 * eps ≤ η) (hη1 : η ≤ 0.02)
    (hq : IsGaussLegendre order rule) (ho : 0 < order) (ht : List.Forall₂ (fun p q => Rnd u p.1 q.1 ∧ Rnd u p.2 q.2) rule table)
    (hou : (order + 1) * u ≤ 1 / 2) (hr1 : |r| ≤ 1 / 2) (Q : QuadraticRun u eps u1 u2 b r table) :
    |Q.s1 - (exact1 |b| |r|)| ≤ 22 * √η + 1210 * τ + 48 * ((order + 1) * u) + 49 / η / √((2 * order - 1 : ℕ) : ℝ) := by
  obtain ⟨pi, hpi, greens, op, hop, k, opb, hopb, b_, hb_, b2, hb2, r2, hr2, S, T, s0, hs0e, s2, hs2, prun, P, hP, k1, hk1, k2, hk2, k3, hk3, s1, hs1, dot, hdot, out, hout⟩ := Q
  show |s1 - _| ≤ _
  have hb := abs_nonneg b
  have hr := abs_nonneg r
  generalize |b| = b at *
  generalize |r| = r at *
  have hnf := not_covered (hue.trans heps1) hb hr1 hopb
  simp only [hnf, or_false, if_false] at hb_ hs0e hs2 hP
  have hu : u ≤ 1e-6 := hue.trans heps1
  have hτ' : u ≤ τ ^ 2 := by rw [hτ]; exact hue
  have hη0 : 0 < η := by linarith
  have hut : u ≤ 1 / 1000 * τ := by
    have := mul_le_mul_of_nonneg_right hτ1 hτ0
    norm_num at this ⊢
    rw [sq] at hτ'
    linarith
  have hsη := sqrt_nonneg η
  have hrate : 48 / η / √((2 * order - 1 : ℕ) : ℝ) * 1.001 ≤ 49 / η / √((2 * order - 1 : ℕ) : ℝ) := by
    rw [div_div, div_div, div_mul_eq_mul_div]
    exact div_le_div_of_nonneg_right (by norm_num) (by positivity)
  have hrate0 : 0 ≤ 49 / η / √((2 * order - 1 : ℕ) : ℝ) := by positivity
  have hou0 : 0 ≤ ((order : ℝ) + 1) * u := by positivity
  have hk0 := angle0_range (b := b) (r := r)
  have hk1r := angle1_range (b := b) (r := r)
  have hπ := pi_lt_d2
  unfold exact1
  rcases le_or_gt op b with h | h
  · rw [if_pos h] at hP
    subst P
    have hz := kappa1_none hu0 hu hr hr1 k h
    have hI : |∫ φ in (0 : ℝ)..(angle0 b r), arcIntegrand b r 1 φ| ≤ 41 * τ ∧ angle1 b r ≤ 20 * τ := by
      rcases le_or_gt (1 + r) b with h1 | h1
      · obtain ⟨-, o2, o3⟩ := angles_outside hr h1
        rw [o2, o3]
        simp [hτ0]
      · obtain ⟨-, o2, o3⟩ := angles_none hu0 hu hτ0 hτ1 hτ' hr hr1 hop h
        refine ⟨(arc_total_le hb (by norm_num; linarith) hr hr1).trans ?_, o3⟩
        norm_num
        linarith
    norm_num at hτ1
    have hc := combine_s1 (P := 0) (EP := 41 * τ) hu0 hu hut hpi (by rw [hz, zero_sub, abs_neg, abs_of_nonneg hk1r.1]; linarith [hI.2]) hk1r.1 hk1r.2 hk1 hk2 hk3 hs1
      (by rw [zero_sub, abs_neg]; exact hI.1) (hI.1.trans (by norm_num; linarith))
    norm_num at hc
    linarith
  · rw [if_neg (not_le.2 h)] at hP hb_
    subst P
    subst b_
    have hople : op ≤ (1 + u) * (1 + r) := hop.le (by linarith)
    have hb1 : b ≤ 1.51 := by
      have : (1 + u) * (1 + r) ≤ (1 + 1e-6) * (3 / 2) := mul_le_mul (by linarith) (by linarith) (by linarith) (by norm_num)
      norm_num at this ⊢
      linarith
    obtain ⟨ka, kb, kc⟩ := kappas_near hu0 hu hτ0 hτ1 hτ' hb hr hr1 hop k h
    obtain ⟨ar0, -⟩ := area_near hu0 hu hτ0 hτ' hb hr hr1 hop k h
    obtain ⟨an0, -⟩ := angles_near hu0 hu hτ0 hτ1 hτ' hb hr hr1 hop k h
    have e1 := (eta_near hu0 hu hb hb1 hr hr1 hb2 hr2 T.hh1 T.hh2 T.hh3 T.heta2).1
    have e2 := (eta_near hu0 hu hb hb1 hr hr1 hb2 hr2 T.hh1 T.hh2 T.hh3 T.heta2).2.1
    have hPt := P_total hu0 heps heps1 hτ0 hτ1 hτ hue hη hη1 hb hb1 hr hr1 e1 e2 (Complex.arg_nonneg_iff.2 ar0) (Complex.arg_le_pi _) k.hkappa0 an0
      hq ho ht hou prun
    have hI : |∫ φ in (0 : ℝ)..(angle0 b r), arcIntegrand b r 1 φ| ≤ 3.2 := by
      refine (arc_total_le hb hb1 hr hr1).trans ?_
      have := mul_le_mul hr1 hk0.2 hk0.1 (by norm_num)
      norm_num at hπ ⊢
      linarith
    have hc := combine_s1 hu0 hu hut hpi kc hk1r.1 hk1r.2 hk1 hk2 hk3 hs1 hPt hI
    refine hc.trans ?_
    norm_num at hrate ⊢
    linarith

end Jaxoplanet.LimbDarkFloat
