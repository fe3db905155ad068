import Verif.Proofs.QuadraticSum

/-! The computed line integral of a quadratically limb-darkened star. -/

namespace Jaxoplanet.LimbDarkFloat

open Real KeplerFloat LimbDark Spec MeasureTheory Green
open _root_.Jaxoplanet.Starry.Spec (quadSum IsGaussLegendre)
open Gauss

theorem arc_abs_le {b r φ : ℝ} (hb : 0 ≤ b) (hb1 : b ≤ 1.51) (hr : 0 ≤ r) (hr1 : r ≤ 1 / 2) : |arcIntegrand b r 1 φ| ≤ 2.01 * r := by
  refine (arc_facts hr).1.trans ?_
  rw [mul_comm]
  refine mul_le_mul_of_nonneg_right ?_ hr
  have h1 := abs_sub r (b * cos φ)
  rw [abs_mul, abs_of_nonneg hb, abs_of_nonneg hr] at h1
  have h2 := mul_le_mul_of_nonneg_left (abs_cos_le_one φ) hb
  norm_num at hb1 ⊢
  linarith

/-- the sum over the nodes of the rule -/
theorem sum_near {u eps τ η b r b2 r2 κ kappa : ℝ} {order : ℕ} {rule table : List (ℝ × ℝ)} (hu0 : 0 ≤ u) (heps : 0 < eps) (heps1 : eps ≤ 1e-6)
    (hτ0 : 0 ≤ τ) (hτ1 : τ ≤ 1e-3) (hτ : τ ^ 2 = eps) (hue : u ≤ eps) (hη : 6 * eps ≤ η) (hb : 0 ≤ b) (hb1 : b ≤ 1.51) (hr : 0 ≤ r) (hr1 : r ≤ 1 / 2)
    (e1 : |b2 - b * b| ≤ 2.3 * u) (e2 : |r2 - r * r| ≤ 0.25 * u) (hκ0 : 0 ≤ κ) (hκ : κ ≤ π) (hk : Rnd u κ kappa)
    (hq : IsGaussLegendre order rule) (ho : 0 < order) (ht : List.Forall₂ (fun p q => Rnd u p.1 q.1 ∧ Rnd u p.2 q.2) rule table)
    (hou : (order + 1) * u ≤ 1 / 2) (N : PRun u eps b r b2 r2 kappa table) :
    |N.sum - quadSum rule (fun x => arcIntegrand b r 1 (κ / 2 * (x + 1)))| ≤
        r * (b + r) * quadSum rule (fun x => bump η b r (κ / 2 * (x + 1))) + 90 * τ + 12 * ((order + 1) * u) ∧
      |quadSum rule (fun x => arcIntegrand b r 1 (κ / 2 * (x + 1)))| ≤ 2.01 := by
  obtain ⟨rng, hrng, node, sum, hsum, P, hP⟩ := N
  show |sum - _| ≤ _ ∧ _
  have hu6 : u ≤ 1e-6 := hue.trans heps1
  have hlen : table.length = order := by rw [← ht.length_eq, hq.length]
  have hw : ∀ p ∈ rule, 0 ≤ p.2 := fun p hp => (node_facts hq hp).1.le
  have hws := weights_sum hq ho
  have hconst : ∀ c : ℝ, quadSum rule (fun _ => c) = 2 * c := fun c => by
    have := quadSum_mul rule c (fun _ => (1 : ℝ))
    rw [hws] at this
    simpa [mul_comm] using this
  have harc : ∀ φ, |arcIntegrand b r 1 φ| ≤ 1.005 := fun φ => (arc_abs_le hb hb1 hr hr1).trans (by norm_num; linarith)
  have hrb : r * (b + r) ≤ 1.005 := by
    have := mul_le_mul hr1 (show b + r ≤ 2.01 by norm_num at hb1 ⊢; linarith) (by positivity) (by norm_num)
    refine this.trans (by norm_num)
  have hrb0 : 0 ≤ r * (b + r) := by positivity
  obtain ⟨i1, i2⟩ := table_near (f := fun x => arcIntegrand b r 1 (κ / 2 * (x + 1))) (B := fun x => 45 * τ + r * (b + r) * bump η b r (κ / 2 * (x + 1)))
    (out := fun q => (node q).out) hu0 hu6 ht hw (fun p hp q hpq => by
      have hx := (node_facts hq hp).2
      have hx1 : |p.1| ≤ 1 := _root_.abs_le.2 ⟨hx.1.le, hx.2.le⟩
      have hc := cos_near hu0 hu6 hκ0 hκ hk hrng hpq hx1 (node q)
      obtain ⟨n1, n2, n3⟩ := node_dist hu0 hu6 hb hb1 hr hr1 e1 e2 (abs_cos_le_one _) (node q) hc
      have hv := node_value hu0 heps heps1 hτ0 hτ hue hη hb hb1 hr hr1 (node q) n1 n2 n3
      refine ⟨hv, ?_⟩
      have h2 := mul_le_mul_of_nonneg_left (bump_le_one η b r (κ / 2 * (p.1 + 1))) hrb0
      have h3 := abs_sub_abs_le_abs_sub (node q).out (arcIntegrand b r 1 (κ / 2 * (p.1 + 1)))
      have h4 := harc (κ / 2 * (p.1 + 1))
      norm_num at hτ1 h4 hrb ⊢
      linarith)
  have hd := hsum.error hu0 (by rw [List.length_map, hlen]; push_cast; exact hou)
  rw [List.length_map, hlen] at hd
  rw [hconst] at i2
  have hqs : quadSum rule (fun x => 45 * τ + r * (b + r) * bump η b r (κ / 2 * (x + 1)) + 2.1 * u) =
      2 * (45 * τ) + r * (b + r) * quadSum rule (fun x => bump η b r (κ / 2 * (x + 1))) + 2 * (2.1 * u) := by
    have hm := quadSum_mul rule (r * (b + r)) (fun x => bump η b r (κ / 2 * (x + 1)))
    rw [quadSum_add, quadSum_add, hm, hconst, hconst]
  rw [hqs] at i1
  have hd2 := mul_le_mul_of_nonneg_left i2 (show (0 : ℝ) ≤ 2 * ((order + 1 : ℕ) : ℝ) * u by positivity)
  have h6 := abs_sub_le sum ((table.map fun q => ((node q).out, q.2)).map fun p => p.1 * p.2).sum (quadSum rule (fun x => arcIntegrand b r 1 (κ / 2 * (x + 1))))
  have ho1 : (1 : ℝ) ≤ order := by exact_mod_cast ho
  have h7 : 2 * u ≤ (order + 1) * u := mul_le_mul_of_nonneg_right (by linarith) hu0
  push_cast at hd hd2
  constructor
  · refine h6.trans ((add_le_add (hd.trans hd2) i1).trans ?_)
    generalize r * (b + r) * quadSum rule (fun x => bump η b r (κ / 2 * (x + 1))) = qb
    generalize ((order : ℝ) + 1) = m at *
    norm_num
    linarith
  · refine _root_.abs_le.2 ⟨?_, ?_⟩
    · have := quadSum_mono (rule := rule) (f := fun _ => -1.005) (g := fun x => arcIntegrand b r 1 (κ / 2 * (x + 1)))
        fun p hp => ⟨hw p hp, (_root_.abs_le.1 (harc _)).1⟩
      rw [hconst] at this
      norm_num at this ⊢
      linarith
    · have := quadSum_mono (rule := rule) (g := fun _ => 1.005) (f := fun x => arcIntegrand b r 1 (κ / 2 * (x + 1)))
        fun p hp => ⟨hw p hp, (_root_.abs_le.1 (harc _)).2⟩
      rw [hconst] at this
      norm_num at this ⊢
      linarith

theorem combine_P {u κ rng S Q P A Bp qb E1 E2 LA LB : ℝ} (hu0 : 0 ≤ u) (hu : u ≤ 1e-6) (hκ0 : 0 ≤ κ) (hκ : κ ≤ 3.15) (hr : |rng - κ / 2| ≤ 3.2 * u)
    (hS : |S - Q| ≤ qb + E1) (hE0 : 0 ≤ E1) (hE : E1 ≤ 6.2) (hqb : qb ≤ 2.01) (hQ : |Q| ≤ 2.01) (hP : |P - rng * S| ≤ u * |rng * S|)
    (hA : |κ / 2 * Q - A| ≤ LA) (hB : |κ / 2 * qb - Bp| ≤ LB) (hE2 : E2 = 1.6 * E1 + 55 * u) : |P - A| ≤ Bp + E2 + (LA + LB) := by
  have h1 : |S| ≤ 10.3 := by
    have := abs_sub_abs_le_abs_sub S Q
    norm_num at hE hqb hQ ⊢
    linarith
  have h2 : |rng| ≤ 1.6 := by
    have := abs_sub_abs_le_abs_sub rng (κ / 2)
    rw [abs_of_nonneg (by linarith : 0 ≤ κ / 2)] at this
    norm_num at hκ hu ⊢
    linarith
  have h3 : |rng * S| ≤ 33 / 2 := by
    rw [abs_mul]
    refine (mul_le_mul h2 h1 (abs_nonneg _) (by norm_num)).trans (by norm_num)
  have h4 := mul_le_mul_of_nonneg_left h3 hu0
  have h5 : |(rng - κ / 2) * S| ≤ 33 * u := by
    rw [abs_mul]
    refine (mul_le_mul hr h1 (abs_nonneg _) (by positivity)).trans ?_
    norm_num
    linarith
  have h6 : |κ / 2 * (S - Q)| ≤ κ / 2 * (qb + E1) := by
    rw [abs_mul, abs_of_nonneg (by linarith : 0 ≤ κ / 2)]
    exact mul_le_mul_of_nonneg_left hS (by linarith)
  have h7 : κ / 2 * E1 ≤ 8 / 5 * E1 := mul_le_mul_of_nonneg_right (by norm_num at hκ ⊢; linarith) hE0
  have h8 : |P - A| ≤ |P - rng * S| + |(rng - κ / 2) * S| + |κ / 2 * (S - Q)| + |κ / 2 * Q - A| := by
    have := abs_add_le (P - rng * S + (rng - κ / 2) * S + κ / 2 * (S - Q)) (κ / 2 * Q - A)
    have := abs_add_le (P - rng * S + (rng - κ / 2) * S) (κ / 2 * (S - Q))
    have := abs_add_le (P - rng * S) ((rng - κ / 2) * S)
    rw [show P - A = P - rng * S + (rng - κ / 2) * S + κ / 2 * (S - Q) + (κ / 2 * Q - A) by ring]
    linarith
  have h9 := (_root_.abs_le.1 hB).2
  norm_num at hE2 ⊢
  linarith

/-- the computed line integral against the integral over the computed arc -/
theorem P_near {u eps τ η b r b2 r2 κ kappa : ℝ} {order : ℕ} {rule table : List (ℝ × ℝ)} (hu0 : 0 ≤ u) (heps : 0 < eps) (heps1 : eps ≤ 1e-6)
    (hτ0 : 0 ≤ τ) (hτ1 : τ ≤ 1e-3) (hτ : τ ^ 2 = eps) (hue : u ≤ eps) (hη : 6 * eps ≤ η) (hη1 : η ≤ 1) (hb : 0 ≤ b) (hb1 : b ≤ 1.51) (hr : 0 ≤ r) (hr1 : r ≤ 1 / 2)
    (e1 : |b2 - b * b| ≤ 2.3 * u) (e2 : |r2 - r * r| ≤ 0.25 * u) (hκ0 : 0 ≤ κ) (hκ : κ ≤ π) (hk : Rnd u κ kappa)
    (hq : IsGaussLegendre order rule) (ho : 0 < order) (ht : List.Forall₂ (fun p q => Rnd u p.1 q.1 ∧ Rnd u p.2 q.2) rule table)
    (hou : (order + 1) * u ≤ 1 / 2) (N : PRun u eps b r b2 r2 kappa table) :
    |N.P - ∫ φ in (0 : ℝ)..κ, arcIntegrand b r 1 φ| ≤ r * (b + r) * (∫ φ in (0 : ℝ)..κ, bump η b r φ) + 144 * τ + 47 * ((order + 1) * u) +
      48 / η / √((2 * order - 1 : ℕ) : ℝ) := by
  obtain ⟨s1, s2⟩ := sum_near hu0 heps heps1 hτ0 hτ1 hτ hue hη hb hb1 hr hr1 e1 e2 hκ0 hκ hk hq ho ht hou N
  have hu6 : u ≤ 1e-6 := hue.trans heps1
  have hη0 : 0 < η := by linarith
  have hrb0 : 0 ≤ r * (b + r) := by positivity
  have hws := weights_sum hq ho
  have hπ := pi_lt_d2
  have hκ2 : κ ≤ 3.15 := hκ.trans hπ.le
  have hrng : |N.rng - κ / 2| ≤ 3.2 * u := by
    have h1 := near_zero (M := 3.15) hu0 hu6 hk (by rw [abs_of_nonneg hκ0]; exact hκ2)
    have h2 := near_rnd (X := κ / 2) (e := 0.5 * (u * 3.15)) (M := 1.6) hu0 hu6 N.hrng (by
      rw [show 0.5 * kappa - κ / 2 = 0.5 * (kappa - κ) by ring, abs_mul, abs_of_nonneg (by norm_num : (0 : ℝ) ≤ 0.5)]
      exact mul_le_mul_of_nonneg_left h1 (by norm_num)) (by rw [abs_of_nonneg (by linarith)]; norm_num at hκ2 ⊢; linarith)
    norm_num at h2 ⊢
    linarith
  have ho1 : (1 : ℝ) ≤ order := by exact_mod_cast ho
  have h7 : 2 * u ≤ (order + 1) * u := mul_le_mul_of_nonneg_right (by linarith) hu0
  have hqb0 : quadSum rule (fun x => bump η b r (κ / 2 * (x + 1))) ≤ 2 := by
    rw [← hws]
    exact quadSum_mono fun p hp => ⟨(node_facts hq hp).1.le, bump_le_one _ _ _ _⟩
  have hrb : r * (b + r) ≤ 1.005 := by
    have := mul_le_mul hr1 (show b + r ≤ 2.01 by norm_num at hb1 ⊢; linarith) (by positivity) (by norm_num)
    refine this.trans (by norm_num)
  have hbr : b * r ≤ 0.755 := (mul_le_mul hb1 hr1 hr (by norm_num)).trans (by norm_num)
  have hbr0 : 0 ≤ b * r := by positivity
  have hqb : r * (b + r) * quadSum rule (fun x => bump η b r (κ / 2 * (x + 1))) ≤ 2.01 := by
    have := mul_le_mul_of_nonneg_left hqb0 hrb0
    norm_num at hrb ⊢
    linarith
  have hA := arc_rate hq ho hκ0 hκ (g := fun φ => arcIntegrand b r 1 φ) (L := 2 * (b * r) + 4 * (1 : ℕ) * (b * r) * (r * (b + r))) (by positivity)
    (arcIntegrand_lip hb hr (Or.inl rfl))
  have hB := arc_rate hq ho hκ0 hκ (g := fun φ => r * (b + r) * bump η b r φ) (L := r * (b + r) * (b * r / (5 * η))) (by positivity) (fun φ φ' => by
    rw [← mul_sub, abs_mul, abs_of_nonneg hrb0, mul_assoc (r * (b + r)) (b * r / (5 * η))]
    exact mul_le_mul_of_nonneg_left (bump_lip hη0 hb hr φ φ') hrb0)
  rw [quadSum_mul, intervalIntegral.integral_const_mul] at hB
  have hc := combine_P (E2 := 1.6 * (90 * τ + 12 * ((order + 1) * u)) + 55 * u) hu0 hu6 hκ0 hκ2 hrng (by rw [← add_assoc]; exact s1) (by positivity)
    (by norm_num at hτ1 hou ⊢; linarith) hqb s2 N.hP hA hB rfl
  refine hc.trans ?_
  have hL : π ^ 2 * (2 * (b * r) + 4 * (1 : ℕ) * (b * r) * (r * (b + r))) + π ^ 2 * (r * (b + r) * (b * r / (5 * η))) ≤ 48 / η := by
    have hp2 : π ^ 2 ≤ 9.93 := by
      have := mul_le_mul hπ.le hπ.le pi_pos.le (by norm_num)
      rw [← sq] at this
      exact this.trans (by norm_num)
    have h8 : (b * r) * (r * (b + r)) ≤ 0.755 * 1.005 := mul_le_mul hbr hrb hrb0 (by norm_num)
    have h9 : 2 * (b * r) + 4 * (1 : ℕ) * (b * r) * (r * (b + r)) ≤ 4.55 := by
      push_cast
      norm_num at h8 hbr ⊢
      linarith
    have hi : 1 ≤ 1 / η := by rw [le_div_iff₀ hη0]; linarith
    have h10 : r * (b + r) * (b * r / (5 * η)) ≤ 0.16 * (1 / η) := by
      rw [show r * (b + r) * (b * r / (5 * η)) = (b * r) * (r * (b + r)) / 5 * (1 / η) by field_simp]
      exact mul_le_mul_of_nonneg_right (by norm_num at h8 ⊢; linarith) (by positivity)
    rw [← mul_add]
    have h11 : (2 * (b * r) + 4 * (1 : ℕ) * (b * r) * (r * (b + r))) + r * (b + r) * (b * r / (5 * η)) ≤ 4.71 * (1 / η) := by
      norm_num at h9 h10 hi ⊢
      linarith
    refine (mul_le_mul hp2 h11 (by positivity) (by norm_num)).trans ?_
    rw [show (48 : ℝ) / η = 48 * (1 / η) by ring, ← mul_assoc]
    exact mul_le_mul_of_nonneg_right (by norm_num) (by positivity)
  have hL2 := div_le_div_of_nonneg_right hL (sqrt_nonneg ((2 * order - 1 : ℕ) : ℝ))
  rw [add_div] at hL2
  norm_num at hL2 ⊢
  linarith

end Jaxoplanet.LimbDarkFloat
