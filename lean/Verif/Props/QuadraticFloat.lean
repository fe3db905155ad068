import Verif.Proofs.QuadraticGreens

/-! Property C116: the light curve of a quadratically limb-darkened star in floating-point arithmetic. -/

namespace Jaxoplanet.LimbDarkFloat

open Real KeplerFloat LimbDark Spec MeasureTheory Set
open _root_.Jaxoplanet.Starry.Spec (quadSum IsGaussLegendre)

private theorem blocked_term_le (b r : ℝ) (n : ℕ) (hn : ∀ z : ℝ, 0 ≤ z → z ≤ 1 → |gtil n z| ≤ 2) :
    |∫ p in stellarDisc ∩ occultor b r, gtil n (mu p)| ≤ 2 * overlap b r := by
  have h := norm_setIntegral_le_of_norm_le_const (μ := volume) (s := stellarDisc ∩ occultor b r) (f := fun p => gtil n (mu p)) (C := 2)
    (overlap_lt_top b r) (fun p _ => by
      refine hn _ (sqrt_nonneg _) ?_
      unfold mu
      rw [sqrt_le_one]
      nlinarith [sq_nonneg p.1, sq_nonneg p.2])
  exact h

theorem exact1_le {b r : ℝ} (hb : 0 ≤ b) (hr : 0 ≤ r) (hr1 : r ≤ 1 / 2) : |exact1 b r| ≤ 8.4 := by
  have h := hidden_one hb hr hr1
  rw [whole_star] at h
  change 2 * π / 3 - _ = _ at h
  have h1 := blocked_term_le b r 1 (fun z h0 h1 => by
    unfold gtil
    rw [abs_of_nonneg h0]
    linarith)
  have h2 := overlap_le_pi b r
  have h3 := pi_lt_d2
  have h4 := pi_pos
  rw [← h]
  refine (abs_sub _ _).trans ?_
  rw [abs_of_pos (by positivity)]
  norm_num at h3 ⊢
  linarith

theorem exact2_le {b r : ℝ} (hb : 0 ≤ b) (hr : 0 ≤ r) (hr1 : r ≤ 1 / 2) : |exact2 b r| ≤ 6.3 := by
  have h := hidden_two hb hr hr1
  rw [whole_star] at h
  change 0 - _ = _ at h
  have h1 := blocked_term_le b r 2 (fun z h0 h1 => by
    have : z ^ 2 ≤ 1 := pow_le_one₀ h0 h1
    have : 0 ≤ z ^ 2 := sq_nonneg z
    simp only [gtil]
    norm_num
    rw [_root_.abs_le]
    constructor <;> linarith)
  have h2 := overlap_le_pi b r
  have h3 := pi_lt_d2
  rw [← h, zero_sub, abs_neg]
  norm_num at h3 ⊢
  linarith

private theorem coefficient_le {x q M : ℝ} (hq : 1 / 2 ≤ q) (hx : |x| ≤ M) (hM : M ≤ 9 / 2) : |x / (π * q)| ≤ 3 := by
  have hπ := pi_gt_d2
  have h1 : 157 / 100 ≤ π * q := by
    have := mul_le_mul hπ.le hq (by norm_num) pi_pos.le
    norm_num at this ⊢
    linarith
  rw [abs_div, abs_of_pos (show 0 < π * q by linarith), div_le_iff₀ (by linarith)]
  linarith

private theorem combine_dot {u s0 s1 s2 n0 n1 n2 S0 S1 S2 N0 N1 N2 e0 e1 e2 dot out : ℝ} (hu0 : 0 ≤ u) (hu : u ≤ 1e-6)
    (h0 : |s0 - S0| ≤ e0) (h1 : |s1 - S1| ≤ e1) (h2 : |s2 - S2| ≤ e2) (k0 : |n0 - N0| ≤ 500 * u) (k1 : |n1 - N1| ≤ 500 * u) (k2 : |n2 - N2| ≤ 500 * u)
    (hS0 : |S0| ≤ 3.15) (hS1 : |S1| ≤ 8.4) (hS2 : |S2| ≤ 6.3) (hN0 : |N0| ≤ 3) (hN1 : |N1| ≤ 3) (hN2 : |N2| ≤ 3)
    (hdot : FloatDot u [(s0, n0), (s1, n1), (s2, n2)] dot) (hout : Rnd u (dot - 1) out) :
    |out - (S0 * N0 + S1 * N1 + S2 * N2 - 1)| ≤ 3.3 * (e0 + e1 + e2) + 10000 * u := by
  have hu6 := hu
  norm_num at hu hS0 hS1 hS2
  have a0 := near_mul h0 k0 hS0 hN0
  have a1 := near_mul h1 k1 hS1 hN1
  have a2 := near_mul h2 k2 hS2 hN2
  have e00 := (abs_nonneg _).trans h0
  have e10 := (abs_nonneg _).trans h1
  have e20 := (abs_nonneg _).trans h2
  have m0 := mul_le_mul_of_nonneg_left hu e00
  have m1 := mul_le_mul_of_nonneg_left hu e10
  have m2 := mul_le_mul_of_nonneg_left hu e20
  have b0 : |S0 * N0| ≤ 10 := by
    rw [abs_mul]; exact (mul_le_mul hS0 hN0 (abs_nonneg _) (by norm_num)).trans (by norm_num)
  have b1 : |S1 * N1| ≤ 26 := by
    rw [abs_mul]; exact (mul_le_mul hS1 hN1 (abs_nonneg _) (by norm_num)).trans (by norm_num)
  have b2 : |S2 * N2| ≤ 19 := by
    rw [abs_mul]; exact (mul_le_mul hS2 hN2 (abs_nonneg _) (by norm_num)).trans (by norm_num)
  have c0 := abs_sub_abs_le_abs_sub (s0 * n0) (S0 * N0)
  have c1 := abs_sub_abs_le_abs_sub (s1 * n1) (S1 * N1)
  have c2 := abs_sub_abs_le_abs_sub (s2 * n2) (S2 * N2)
  have hd := hdot.error hu0 (by norm_num; linarith)
  simp only [List.map_cons, List.map_nil, List.sum_cons, List.sum_nil, List.length_cons, List.length_nil] at hd
  have hT : |s0 * n0| + (|s1 * n1| + (|s2 * n2| + 0)) ≤ 56 + 31 / 10 * (e0 + e1 + e2) := by
    linarith
  have hT2 := mul_le_mul_of_nonneg_left hT (show (0 : ℝ) ≤ 2 * ((0 + 1 + 1 + 1 + 1 : ℕ) : ℝ) * u by positivity)
  have hd2 : |dot - (s0 * n0 + (s1 * n1 + (s2 * n2 + 0)))| ≤ 448 * u + 1 / 1000 * (e0 + e1 + e2) := by
    refine (hd.trans hT2).trans ?_
    norm_num
    linarith
  have hsum := near_add (near_add a0 a1) a2
  have hd3 := abs_sub_le dot (s0 * n0 + s1 * n1 + s2 * n2) (S0 * N0 + S1 * N1 + S2 * N2)
  rw [add_zero, ← add_assoc] at hd2
  have hd4 : |dot - (S0 * N0 + S1 * N1 + S2 * N2)| ≤ 3.2 * (e0 + e1 + e2) + 9500 * u := by
    norm_num
    linarith
  have hD : |S0 * N0 + S1 * N1 + S2 * N2 - 1| ≤ 56 := by
    obtain ⟨p0, q0⟩ := _root_.abs_le.1 b0
    obtain ⟨p1, q1⟩ := _root_.abs_le.1 b1
    obtain ⟨p2, q2⟩ := _root_.abs_le.1 b2
    rw [_root_.abs_le]
    constructor <;> linarith
  have hfin := near_rnd (X := S0 * N0 + S1 * N1 + S2 * N2 - 1) (e := 3.2 * (e0 + e1 + e2) + 9500 * u) hu0 hu6 hout (by
    rw [show dot - 1 - (S0 * N0 + S1 * N1 + S2 * N2 - 1) = dot - (S0 * N0 + S1 * N1 + S2 * N2) by ring]
    exact hd4) hD
  refine hfin.trans ?_
  norm_num
  linarith

/-- **C116**: the light curve of a quadratically limb-darkened star, in floating-point arithmetic.  For an occultor of at most
half the radius of the star, at any distance from its centre, every run of the program (unit roundoff `u`, machine epsilon
`eps`, line integral by the rule of order `order` whose table is rounded to working precision) returns minus the fraction of
the star's light that the occultor hides, up to an explicit error.  `η` is a parameter of the bound. -/
theorem quadratic_flux_accurate {u eps η u1 u2 b r : ℝ} {order : ℕ} {rule table : List (ℝ × ℝ)} (hu0 : 0 ≤ u) (hue : u ≤ eps) (heps : 0 < eps)
    (heps1 : eps ≤ 1e-6) (hη : 6 * eps ≤ η) (hη1 : η ≤ 0.02) (hr : |r| ≤ 1 / 2) (h1 : |u1| ≤ 2) (h2 : |u2| ≤ 1) (hq : 1 / 2 ≤ 1 - u1 / 3 - u2 / 6)
    (hrule : IsGaussLegendre order rule) (ho : 0 < order) (ht : List.Forall₂ (fun p q => Rnd u p.1 q.1 ∧ Rnd u p.2 q.2) rule table)
    (hou : (order + 1) * u ≤ 1 / 2) (Q : QuadraticRun u eps u1 u2 b r table) :
    |Q.out - -blockedFlux [u1, u2] b r / totalFlux [u1, u2]| ≤
      9710 * √eps + 75 * √η + 160 * ((order + 1) * u) + 165 / η / √((2 * order - 1 : ℕ) : ℝ) := by
  have hτ : √eps ^ 2 = eps := sq_sqrt heps.le
  have hτ0 := sqrt_nonneg eps
  have hτ1 : √eps ≤ 1e-3 := by
    rw [sqrt_le_left (by norm_num)]
    exact heps1.trans (by norm_num)
  have hu : u ≤ 1e-6 := hue.trans heps1
  have hτ' : u ≤ √eps ^ 2 := by rw [hτ]; exact hue
  have s0 := s0_near hu0 hu hτ0 hτ1 hτ' hr Q
  have s1 := s1_near hu0 heps heps1 hτ0 hτ1 hτ hue hη hη1 hrule ho ht hou hr Q
  have s2 := s2_near hu0 hu hτ0 hτ1 hτ' hr Q
  obtain ⟨n0, n1, n2⟩ := greens_near hu0 hu Q.hpi h1 h2 hq Q.greens
  have hb := abs_nonneg b
  have hr0 := abs_nonneg r
  have hex := exact_flux (u1 := u1) (u2 := u2) hb hr0 hr (by linarith)
  rw [occultor_abs b r [u1, u2]] at hex
  obtain ⟨u1a, u1b⟩ := _root_.abs_le.1 h1
  obtain ⟨u2a, u2b⟩ := _root_.abs_le.1 h2
  have hc := combine_dot hu0 hu s0 s1 s2 n0 n1 n2 (visible_range |b| |r|).2 (exact1_le hb hr0 hr) (exact2_le hb hr0 hr)
    (coefficient_le (M := 9 / 2) hq (by rw [_root_.abs_le]; constructor <;> norm_num <;> linarith) le_rfl)
    (coefficient_le (M := 4) hq (by rw [_root_.abs_le]; constructor <;> linarith) (by norm_num))
    (coefficient_le (M := 1 / 4) hq (by rw [_root_.abs_le]; constructor <;> linarith) (by norm_num)) Q.hdot Q.hout
  rw [hex, add_div, add_div, mul_div_assoc, mul_div_assoc, mul_div_assoc]
  refine hc.trans ?_
  have hut : u ≤ 1 / 1000 * √eps := by
    have := mul_le_mul_of_nonneg_right hτ1 hτ0
    norm_num at this ⊢
    rw [sq] at hτ'
    linarith
  have hη0 : 0 < η := by linarith
  have hsη := sqrt_nonneg η
  have hou0 : 0 ≤ ((order : ℝ) + 1) * u := by positivity
  have hrate : 3.3 * (49 / η / √((2 * order - 1 : ℕ) : ℝ)) ≤ 165 / η / √((2 * order - 1 : ℕ) : ℝ) := by
    rw [div_div, div_div, mul_div_assoc']
    exact div_le_div_of_nonneg_right (by norm_num) (by positivity)
  norm_num at hrate ⊢
  linarith

/-- **C116**: the error vanishes in the limit: for every accuracy there are a precision and an order from which on the light
curve is that accurate, whatever the limb darkening, the radius ratio and the position of the occultor. -/
theorem quadratic_flux_converges {δ : ℝ} (hδ : 0 < δ) :
    ∃ eps0 : ℝ, 0 < eps0 ∧ ∃ N : ℕ, ∀ order : ℕ, N ≤ order → ∀ (u eps u1 u2 b r : ℝ) (rule table : List (ℝ × ℝ)), 0 ≤ u → u ≤ eps → 0 < eps →
      eps ≤ eps0 → (order + 1) * u ≤ eps0 → |r| ≤ 1 / 2 → |u1| ≤ 2 → |u2| ≤ 1 → 1 / 2 ≤ 1 - u1 / 3 - u2 / 6 → IsGaussLegendre order rule →
      List.Forall₂ (fun p q => Rnd u p.1 q.1 ∧ Rnd u p.2 q.2) rule table → ∀ Q : QuadraticRun u eps u1 u2 b r table,
        |Q.out - -blockedFlux [u1, u2] b r / totalFlux [u1, u2]| ≤ δ := by
  obtain ⟨η, hη0, hη1, hη2⟩ : ∃ η : ℝ, 0 < η ∧ η ≤ 0.02 ∧ 75 * √η ≤ δ / 4 := by
    refine ⟨min 0.02 ((δ / 300) ^ 2), lt_min (by norm_num) (by positivity), min_le_left _ _, ?_⟩
    have h := sqrt_le_sqrt (min_le_right (0.02 : ℝ) ((δ / 300) ^ 2))
    rw [sqrt_sq (by positivity)] at h
    linarith
  obtain ⟨eps0, he0, he1, he2, he3, he4, he5⟩ : ∃ e : ℝ, 0 < e ∧ e ≤ 1e-6 ∧ 6 * e ≤ η ∧ 9710 * √e ≤ δ / 4 ∧ 160 * e ≤ δ / 4 ∧ e ≤ 1 / 2 := by
    refine ⟨min (min 1e-6 (η / 6)) (min ((δ / 38840) ^ 2) (δ / 640)), lt_min (lt_min (by norm_num) (by positivity)) (lt_min (by positivity) (by positivity)),
      (min_le_left _ _).trans (min_le_left _ _), ?_, ?_, ?_, ?_⟩
    · have := (min_le_left (min 1e-6 (η / 6)) (min ((δ / 38840) ^ 2) (δ / 640))).trans (min_le_right _ _)
      linarith
    · have h := sqrt_le_sqrt ((min_le_right (min 1e-6 (η / 6)) (min ((δ / 38840) ^ 2) (δ / 640))).trans (min_le_left _ _))
      rw [sqrt_sq (by positivity)] at h
      linarith
    · have := (min_le_right (min 1e-6 (η / 6)) (min ((δ / 38840) ^ 2) (δ / 640))).trans (min_le_right _ _)
      linarith
    · exact ((min_le_left _ _).trans (min_le_left _ _)).trans (by norm_num)
  obtain ⟨N, hN⟩ := exists_nat_ge ((165 / η / (δ / 4)) ^ 2 + 1)
  refine ⟨eps0, he0, N, fun order hord u eps u1 u2 b r rule table hu0 hue heps hepse hou hr h1 h2 hq hrule ht Q => ?_⟩
  have hno : (N : ℝ) ≤ order := by exact_mod_cast hord
  have hsq0 := sq_nonneg (165 / η / (δ / 4))
  have ho : 0 < order := by
    have : (0 : ℝ) < order := by linarith
    exact_mod_cast this
  have h := quadratic_flux_accurate hu0 hue heps (hepse.trans he1) (by linarith) hη1 hr h1 h2 hq hrule ho ht (hou.trans he5) Q
  have hs := sqrt_le_sqrt hepse
  have hrate : 165 / η / √((2 * order - 1 : ℕ) : ℝ) ≤ δ / 4 := by
    have hc : ((2 * order - 1 : ℕ) : ℝ) = 2 * (order : ℝ) - 1 := by
      rw [Nat.cast_sub (by omega)]
      push_cast
      ring
    have h3 : 165 / η / (δ / 4) ≤ √((2 * order - 1 : ℕ) : ℝ) := by
      apply le_sqrt_of_sq_le
      rw [hc]
      linarith
    rw [div_le_iff₀ (by positivity)] at h3
    have h4 : 0 < √((2 * order - 1 : ℕ) : ℝ) := by
      apply sqrt_pos.2
      rw [hc]
      have : (1 : ℝ) ≤ order := by exact_mod_cast ho
      linarith
    rw [div_le_iff₀ h4]
    linarith
  linarith

/-! With exact arithmetic the runs are the program of `Model/LimbDark.lean`; and with every way of rounding there is a run. -/

theorem FloatDot.exact {l : List (ℝ × ℝ)} {x : ℝ} (h : FloatDot 0 l x) : x = (l.map fun p => p.1 * p.2).sum := by
  have := h.error le_rfl (by norm_num)
  norm_num at this
  linarith

theorem NodeRun.exact {eps b r b2 r2 kappa0 x : ℝ} (N : NodeRun 0 eps b r b2 r2 (0.5 * kappa0) x) : N.out = pIntegrand eps b r b2 r2 kappa0 1 x := by
  obtain ⟨phi, hphi, arg, harg, c, hc, t1, ht1, t2, ht2, t3, ht3, t4, ht4, t5, ht5, omz2, homz2, z2, hz2, z2', hz2', sq, hsq, z3, hz3, omz2', homz2',
    n1, hn1, n2, hn2, n3, hn3, n4, hn4, n5, hn5, n6, hn6, n7, hn7, res, hres, out, hout⟩ := N
  show out = _
  have hphi := rnd_zero.1 hphi
  have harg := rnd_zero.1 harg
  have hc := rnd_zero.1 hc
  have ht1 := rnd_zero.1 ht1
  have ht2 := rnd_zero.1 ht2
  have ht3 := rnd_zero.1 ht3
  have ht4 := rnd_zero.1 ht4
  have ht5 := rnd_zero.1 ht5
  have hz2 := rnd_zero.1 hz2
  have hsq := rnd_zero.1 hsq
  have hz3 := rnd_zero.1 hz3
  have hn1 := rnd_zero.1 hn1
  have hn2 := rnd_zero.1 hn2
  have hn3 := rnd_zero.1 hn3
  have hn4 := rnd_zero.1 hn4
  have hn5 := rnd_zero.1 hn5
  have hn6 := rnd_zero.1 hn6
  have hn7 := rnd_zero.1 hn7
  have hres := rnd_zero.1 hres
  subst hphi harg hc ht1 ht2 ht3 ht4 ht5 homz2 hz2 hz2' hsq hz3 homz2' hn1 hn2 hn3 hn4 hn5 hn6 hn7 hres hout
  simp only [pIntegrand, if_true, Kepler.zeroSafeSqrt]

theorem S2Run.exact {b r area k0 k1 : ℝ} {S : S0Run 0 π b r (r ^ 2) area k0 k1} (T : S2Run (b ^ 2) S) :
    T.s2 = (s0s2 b r (b ^ 2) (r ^ 2) area k0 k1).2 := by
  have heta : T.eta2 = 0.5 * r ^ 2 * (r ^ 2 + 2 * b ^ 2) := by
    rw [rnd_zero.1 T.heta2, rnd_zero.1 T.hh1, rnd_zero.1 T.hh3, rnd_zero.1 T.hh2]
  rw [T.hs2, rnd_zero.1 S.hsum, rnd_zero.1 S.hdelta, rnd_zero.1 S.hdelta1, rnd_zero.1 S.honembpr2, rnd_zero.1 S.he1,
    rnd_zero.1 S.he2, rnd_zero.1 S.hbpr, rnd_zero.1 T.hlrg, rnd_zero.1 T.hl4, rnd_zero.1 T.hl1, rnd_zero.1 T.hl2, rnd_zero.1 T.hl3,
    rnd_zero.1 T.hsml, rnd_zero.1 T.hm1, rnd_zero.1 T.hm12, rnd_zero.1 T.hm11, rnd_zero.1 T.hm5, rnd_zero.1 T.hm4, rnd_zero.1 T.hm3,
    rnd_zero.1 T.hm2, rnd_zero.1 T.hm10, rnd_zero.1 T.hm6, rnd_zero.1 T.hm9, rnd_zero.1 T.hm8, rnd_zero.1 T.hm7, heta,
    rnd_zero.1 S.hs0_lrg, rnd_zero.1 S.ht1, rnd_zero.1 S.hs0_sml, rnd_zero.1 S.hAlens, rnd_zero.1 S.ha2, rnd_zero.1 S.ha1, rnd_zero.1 S.ha3]
  simp only [s0s2]
  split_ifs <;> ring

theorem GreensRun.exact {u1 u2 : ℝ} (G : GreensRun 0 π u1 u2) :
    G.norm = π * (greens [u1, u2] 0 + greens [u1, u2] 1 / 1.5) ∧ G.n0 = greens [u1, u2] 0 / G.norm ∧ G.n1 = greens [u1, u2] 1 / G.norm ∧
      G.n2 = greens [u1, u2] 2 / G.norm := by
  obtain ⟨g0, g1, g2⟩ := greens_two u1 u2
  have a0 := G.ha0.exact
  have a1 := G.ha1.exact
  have a2 := G.ha2.exact
  simp only [List.map_cons, List.map_nil, List.sum_cons, List.sum_nil] at a0 a1 a2
  have e2 : G.g2 = greens [u1, u2] 2 := by
    rw [rnd_zero.1 G.hg2, G.hp2, a2, g2]
    ring
  have e1 : G.p1 = greens [u1, u2] 1 := by
    rw [G.hp1, a1, g1]
    ring
  have e0 : G.g0 = greens [u1, u2] 0 := by
    rw [rnd_zero.1 G.hg0, rnd_zero.1 G.htg, e2, G.hp0, a0, g2, g0]
    ring
  refine ⟨?_, ?_, ?_, ?_⟩
  · rw [rnd_zero.1 G.hnorm, rnd_zero.1 G.hq2, rnd_zero.1 G.hq1, e0, e1]
  · rw [rnd_zero.1 G.hn0, e0]
  · rw [rnd_zero.1 G.hn1, e1]
  · rw [rnd_zero.1 G.hn2, e2]

/-- with exact arithmetic the run is the program of `Model/LimbDark.lean` -/
theorem quadratic_run_exact {eps u1 u2 b r : ℝ} {table : List (ℝ × ℝ)} (Q : QuadraticRun 0 eps u1 u2 b r table) :
    Q.out = lightCurve eps table [u1, u2] b r := by
  obtain ⟨pi, hpi, G, op, hop, k, opb, hopb, b_, hb_, b2, hb2, r2, hr2, S, T, s0, hs0, s2, hs2, N, P, hP, k1, hk1, k2, hk2, k3, hk3, s1, hs1,
    dot, hdot, out, hout⟩ := Q
  show out = _
  have hpi := rnd_zero.1 hpi
  have hop := rnd_zero.1 hop
  have hopb := rnd_zero.1 hopb
  have hb2 := rnd_zero.1 hb2
  have hr2 := rnd_zero.1 hr2
  rw [← sq] at hb2 hr2
  subst hpi hop hopb hb2 hr2
  have hk := k.exact
  have hS := S.exact
  have hT := T.exact
  obtain ⟨e, e0, e1, e2⟩ := G.exact
  have hNP : N.P = pIntegral eps table b_ |r| (b_ ^ 2) (|r| ^ 2) k.kappa0 1 := by
    have hrng := rnd_zero.1 N.hrng
    have hn : ∀ xw : ℝ × ℝ, (N.node xw).out = pIntegrand eps b_ |r| (b_ ^ 2) (|r| ^ 2) k.kappa0 1 xw.1 := fun xw => by
      have := N.node xw
      obtain ⟨rng, h1, node, h2, h3, h4, h5⟩ := N
      have h1' := rnd_zero.1 h1
      subst h1'
      exact (node xw).exact
    rw [rnd_zero.1 N.hP, hrng, N.hsum.exact]
    simp only [List.map_map, Function.comp_def, hn]
    rfl
  have hd := hdot.exact
  simp only [List.map_cons, List.map_nil, List.sum_cons, List.sum_nil] at hd
  rw [rnd_zero.1 hout, hd, rnd_zero.1 hs1, rnd_zero.1 hk3, rnd_zero.1 hk2, rnd_zero.1 hk1, hs0, hs2, hP, hS, hT, hNP, e0, e1, e2, e]
  simp only [lightCurve, List.length_cons, List.length_nil, Finset.sum_range_succ, Finset.sum_range_zero, solution, ← hk, ← hb_]
  ring

theorem floatSum_exists {u : ℝ} (fl : ℝ → ℝ) (h : ∀ x, Rnd u x (fl x)) (l : List ℝ) (hl : l ≠ []) : ∃ x, FloatSum u l x := by
  induction l with
  | nil => exact absurd rfl hl
  | cons a l ih =>
    rcases eq_or_ne l [] with rfl | hne
    · exact ⟨a, .single a⟩
    · obtain ⟨y, hy⟩ := ih hne
      exact ⟨fl (a + y), .add (l := [a]) (.single a) hy (h _)⟩

theorem floatDot_exists {u : ℝ} (fl : ℝ → ℝ) (h : ∀ x, Rnd u x (fl x)) (l : List (ℝ × ℝ)) (hl : l ≠ []) : ∃ x, FloatDot u l x := by
  obtain ⟨x, hx⟩ := floatSum_exists fl h (l.map fun p => fl (p.1 * p.2)) (by simpa using hl)
  refine ⟨x, _, ?_, hx⟩
  rw [List.forall₂_map_right_iff]
  exact List.forall₂_same.2 fun p _ => h _

/-- a run with a rounding function, such as the rounding of a floating-point format -/
theorem quadraticRun_exists {u : ℝ} (fl : ℝ → ℝ) (h : ∀ x, Rnd u x (fl x)) (eps u1 u2 b r : ℝ) {table : List (ℝ × ℝ)} (ht : table ≠ []) :
    Nonempty (QuadraticRun u eps u1 u2 b r table) := by
  have node : ∀ b r b2 r2 rng root : ℝ, NodeRun u eps b r b2 r2 rng root := fun b r b2 r2 rng root =>
    ⟨_, h _, _, h _, _, h _, _, h _, _, h _, _, h _, _, h _, _, h _, _, rfl, _, h _, _, rfl, _, h _, _, h _, _, rfl, _, h _, _, h _, _, h _, _, h _,
      _, h _, _, h _, _, h _, _, h _, _, rfl⟩
  have greens : ∀ pi : ℝ, GreensRun u pi u1 u2 := fun pi =>
    ⟨_, (floatDot_exists fl h _ (by simp)).choose_spec, _, (floatDot_exists fl h _ (by simp)).choose_spec, _, (floatDot_exists fl h _ (by simp)).choose_spec,
      _, rfl, _, rfl, _, rfl, _, h _, _, h _, _, h _, _, h _, _, h _, _, h _, _, h _, _, h _, _, h _⟩
  have s2 : ∀ {pi b r r2 area k0 k1 : ℝ} (b2 : ℝ) (S : S0Run u pi b r r2 area k0 k1), S2Run b2 S := fun b2 S =>
    ⟨_, h _, _, h _, _, h _, _, h _, _, h _, _, h _, _, h _, _, h _, _, h _, _, h _, _, h _, _, h _, _, h _, _, h _, _, h _, _, h _, _, h _, _, h _,
      _, h _, _, h _, _, h _, _, h _, _, rfl⟩
  have p : ∀ b r b2 r2 k0 : ℝ, PRun u eps b r b2 r2 k0 table := fun b r b2 r2 k0 =>
    ⟨_, h _, fun xw => node _ _ _ _ _ _, _, (floatDot_exists fl h _ (by simpa using ht)).choose_spec, _, h _⟩
  exact ⟨⟨_, h _, greens _, _, h _, KappasRun.ofRounding fl h _ _ _, _, h _, _, rfl, _, h _, _, h _, S0Run.ofRounding fl h _ _ _ _ _ _ _, s2 _ _,
    _, rfl, _, rfl, p _ _ _ _ _, _, rfl, _, h _, _, h _, _, h _, _, h _, _, (floatDot_exists fl h _ (by simp)).choose_spec, _, h _⟩⟩

/-- non-vacuity: a star with limb darkening `[0.4, 0.2]`, a planet of a tenth of its radius over the limb, in a working precision
of 40 digits with a rule of high order: there are runs, and all of them are accurate to a third of the depth of the transit -/
example : ∃ (rule table : List (ℝ × ℝ)), IsGaussLegendre (10 ^ 30) rule ∧ Nonempty (QuadraticRun 1e-40 2e-40 0.4 0.2 0.95 0.1 table) ∧
    ∀ Q : QuadraticRun 1e-40 2e-40 0.4 0.2 0.95 0.1 table, |Q.out - -blockedFlux [0.4, 0.2] 0.95 0.1 / totalFlux [0.4, 0.2]| ≤ 0.003 := by
  obtain ⟨fl, h⟩ := exists_rounding (u := 1e-40) (by norm_num)
  obtain ⟨order, ho⟩ : ∃ n : ℕ, n = 10 ^ 30 := ⟨_, rfl⟩
  rw [← ho]
  have hor : (order : ℝ) = 1e30 := by rw [ho]; norm_num
  have ho0 : 0 < order := by rw [ho]; positivity
  obtain ⟨rule, hq⟩ := Gauss.exists_gauss order
  have ht : List.Forall₂ (fun p q => Rnd 1e-40 p.1 q.1 ∧ Rnd 1e-40 p.2 q.2) rule (rule.map fun p => ((fl p.1 : ℝ), (fl p.2 : ℝ))) := by
    rw [List.forall₂_map_right_iff]
    exact List.forall₂_same.2 fun p _ => ⟨h _, h _⟩
  refine ⟨rule, rule.map fun p => ((fl p.1 : ℝ), (fl p.2 : ℝ)), hq, quadraticRun_exists (fun x => fl x) h _ _ _ _ _ ?_, fun Q => ?_⟩
  · intro h0
    have := congrArg List.length h0
    rw [List.length_map, hq.length] at this
    simp only [List.length_nil] at this
    omega
  · refine (quadratic_flux_accurate (η := 1e-10) (by norm_num) (by norm_num) (by norm_num) (by norm_num) (by norm_num) (by norm_num)
      (by rw [abs_of_pos] <;> norm_num) (by rw [abs_of_pos] <;> norm_num) (by rw [abs_of_pos] <;> norm_num) (by norm_num) hq ho0 ht
      (by rw [hor]; norm_num) Q).trans ?_
    rw [hor, Nat.cast_sub (by omega)]
    push_cast
    rw [hor]
    have a1 : √(2e-40) ≤ 1e-10 := by rw [sqrt_le_left] <;> norm_num
    have a2 : √(1e-10) ≤ 1.1e-5 := by rw [sqrt_le_left] <;> norm_num
    have a3 : 165 / 1e-10 / √(2 * 1e30 - 1) ≤ 1.3e-3 := by
      have a4 : (1.3e15 : ℝ) ≤ √(2 * 1e30 - 1) := by rw [le_sqrt] <;> norm_num
      rw [div_le_iff₀ (by linarith)]
      norm_num at a4 ⊢
      linarith
    norm_num at a1 a2 a3 ⊢
    linarith

/-! Inside the disc of the star the rounding errors are separated from the error of the rule. -/

/-- the computed line integral against the same rule in exact arithmetic, when the occultor is inside the disc -/
theorem P_inside {u eps τ b r b2 r2 κ kappa : ℝ} {order : ℕ} {rule table : List (ℝ × ℝ)} (hu0 : 0 ≤ u) (heps : 0 < eps) (heps1 : eps ≤ 1e-6)
    (hτ0 : 0 ≤ τ) (hτ1 : τ ≤ 1e-3) (hτ : τ ^ 2 = eps) (hue : u ≤ eps) (hb : 0 ≤ b) (hr : 0 ≤ r) (hr1 : r ≤ 1 / 2) (hin : 120 * eps ≤ 1 - (b + r) ^ 2)
    (e1 : |b2 - b * b| ≤ 2.3 * u) (e2 : |r2 - r * r| ≤ 0.25 * u) (hκ0 : 0 ≤ κ) (hκ : κ ≤ π) (hk : Rnd u κ kappa) (ha : r * |κ - angle0 b r| ≤ 225 * τ)
    (hq : IsGaussLegendre order rule) (ho : 0 < order) (ht : List.Forall₂ (fun p q => Rnd u p.1 q.1 ∧ Rnd u p.2 q.2) rule table)
    (hou : (order + 1) * u ≤ 1 / 2) (N : PRun u eps b r b2 r2 kappa table) :
    |N.P - pIntegral eps rule b r (b ^ 2) (r ^ 2) (angle0 b r) 1| ≤ 3470 * τ + 47 * ((order + 1) * u) ∧
      |pIntegral eps rule b r (b ^ 2) (r ^ 2) (angle0 b r) 1| ≤ 3.2 := by
  have hu6 : u ≤ 1e-6 := hue.trans heps1
  have hbr1 : b + r ≤ 1 := by
    have : (b + r) ^ 2 ≤ 1 ^ 2 := by linarith
    exact le_of_sq_le_sq this (by norm_num)
  have hb1 : b ≤ 1.51 := by norm_num; linarith
  obtain ⟨η, hη⟩ : ∃ η, η = (1 - (b + r) ^ 2) / 20 := ⟨_, rfl⟩
  have hη0 : 0 < η := by rw [hη]; linarith
  have hη6 : 6 * eps ≤ η := by rw [hη]; linarith
  have hwb : ∀ φ, 20 * η ≤ Green.w b r φ := fun φ => by
    have h3 := mul_le_mul_of_nonneg_left (neg_one_le_cos φ) (mul_nonneg hb hr)
    unfold Green.w
    rw [hη]
    linarith
  have hbz : ∀ φ, bump η b r φ = 0 := fun φ => bump_eq_zero hη0 (hwb φ)
  obtain ⟨s1, s2⟩ := sum_near hu0 heps heps1 hτ0 hτ1 hτ hue hη6 hb hb1 hr hr1 e1 e2 hκ0 hκ hk hq ho ht hou N
  have hw : ∀ p ∈ rule, 0 ≤ p.2 := fun p hp => (Gauss.node_facts hq hp).1.le
  have hws := Gauss.weights_sum hq ho
  have hconst : ∀ c : ℝ, quadSum rule (fun _ => c) = 2 * c := fun c => by
    have := Gauss.quadSum_mul rule c (fun _ => (1 : ℝ))
    rw [hws] at this
    simpa [mul_comm] using this
  have habs : ∀ (f : ℝ → ℝ) (c : ℝ), (∀ p ∈ rule, |f p.1| ≤ c) → |quadSum rule f| ≤ 2 * c := fun f c hf => by
    rw [_root_.abs_le]
    constructor
    · have := Gauss.quadSum_mono (rule := rule) (f := fun _ => -c) (g := f) fun p hp => ⟨hw p hp, (_root_.abs_le.1 (hf p hp)).1⟩
      rw [hconst] at this
      linarith
    · have := Gauss.quadSum_mono (rule := rule) (g := fun _ => c) (f := f) fun p hp => ⟨hw p hp, (_root_.abs_le.1 (hf p hp)).2⟩
      rw [hconst] at this
      linarith
  have hz : quadSum rule (fun x => bump η b r (κ / 2 * (x + 1))) = 0 := by
    simp only [hbz]
    rw [hconst, mul_zero]
  rw [hz, mul_zero, zero_add] at s1
  have hπ := pi_lt_d2
  have hκ2 : κ ≤ 3.15 := hκ.trans hπ.le
  have hrng : |N.rng - κ / 2| ≤ 3.2 * u := by
    have h1 := near_zero (M := 3.15) hu0 hu6 hk (by rw [abs_of_nonneg hκ0]; exact hκ2)
    have h2 := near_rnd (X := κ / 2) (e := 0.5 * (u * 3.15)) (M := 1.6) hu0 hu6 N.hrng (by
      rw [show 0.5 * kappa - κ / 2 = 0.5 * (kappa - κ) by ring, abs_mul, abs_of_nonneg (by norm_num : (0 : ℝ) ≤ 0.5)]
      exact mul_le_mul_of_nonneg_left h1 (by norm_num)) (by rw [abs_of_nonneg (by linarith)]; norm_num at hκ2 ⊢; linarith)
    norm_num at h2 ⊢
    linarith
  set Q := quadSum rule (fun x => arcIntegrand b r 1 (κ / 2 * (x + 1))) with hQ
  set Q0 := quadSum rule (fun x => arcIntegrand b r 1 (angle0 b r / 2 * (x + 1))) with hQ0
  have c1 := combine_P (qb := 0) (Bp := 0) (A := κ / 2 * Q) (LA := 0) (LB := 0) (E1 := 90 * τ + 12 * ((order + 1) * u))
    (E2 := 1.6 * (90 * τ + 12 * ((order + 1) * u)) + 55 * u) hu0 hu6 hκ0 hκ2 hrng (by rw [zero_add]; exact s1) (by positivity)
    (by norm_num at hτ1 hou ⊢; linarith) (by norm_num) s2 N.hP (by simp) (by simp) rfl
  obtain ⟨k0, kπ⟩ := angle0_range (b := b) (r := r)
  have hL : 2 * (b * r) + 4 * (1 : ℕ) * (b * r) * (r * (b + r)) ≤ 4 * r := by
    have h1 : b * r ≤ 1 * r := mul_le_mul_of_nonneg_right (by linarith) hr
    have h2 : r * (b + r) ≤ 1 / 2 * 1 := mul_le_mul hr1 hbr1 (by positivity) (by norm_num)
    have h3 : b * r * (r * (b + r)) ≤ 1 * r * (1 / 2 * 1) := mul_le_mul h1 h2 (by positivity) (by positivity)
    push_cast
    linarith
  have c2 : |Q - Q0| ≤ 2 * (4 * r * |κ - angle0 b r|) := by
    rw [hQ, hQ0, ← Gauss.quadSum_sub]
    refine habs _ _ fun p hp => ?_
    obtain ⟨-, x0, x1⟩ := Gauss.node_facts hq hp
    refine (arcIntegrand_lip hb hr (Or.inl rfl) _ _).trans ?_
    rw [show κ / 2 * (p.1 + 1) - angle0 b r / 2 * (p.1 + 1) = (κ - angle0 b r) * ((p.1 + 1) / 2) by ring, abs_mul,
      abs_of_nonneg (show 0 ≤ (p.1 + 1) / 2 by linarith)]
    have h1 : |κ - angle0 b r| * ((p.1 + 1) / 2) ≤ |κ - angle0 b r| * 1 := mul_le_mul_of_nonneg_left (by linarith) (abs_nonneg _)
    exact mul_le_mul hL (by linarith) (mul_nonneg (abs_nonneg _) (by linarith)) (by positivity)
  have c3 : |Q0| ≤ 2 * (2.01 * r) := habs _ _ fun p _ => arc_abs_le hb hb1 hr hr1
  have hp : pIntegral eps rule b r (b ^ 2) (r ^ 2) (angle0 b r) 1 = angle0 b r / 2 * quadSum rule (pIntegrand eps b r (b ^ 2) (r ^ 2) (angle0 b r) 1) := by
    unfold pIntegral quadSum
    rw [show 0.5 * angle0 b r = angle0 b r / 2 by ring]
    congr 2
    exact List.map_congr_left fun xw _ => mul_comm _ _
  have c4 : |quadSum rule (pIntegrand eps b r (b ^ 2) (r ^ 2) (angle0 b r) 1) - Q0| ≤ 2 * (1.6 * τ) := by
    rw [hQ0, ← Gauss.quadSum_sub]
    refine habs _ _ fun p _ => ?_
    have h1 := hwb (angle0 b r / 2 * (p.1 + 1))
    refine (integrand_one_error heps hb hr (angle0 b r) p.1 (by linarith)).trans ?_
    rw [if_neg (by linarith), add_zero]
    have h2 : √(10 * eps) ≤ 3.2 * τ := by
      rw [sqrt_le_left (by positivity), mul_pow, hτ]
      norm_num
      linarith
    have h3 := mul_le_mul hr1 h2 (sqrt_nonneg _) (by norm_num)
    norm_num at h3 ⊢
    linarith
  have c5 : |κ / 2 * Q - angle0 b r / 2 * Q0| ≤ 3310 * τ := by
    rw [show κ / 2 * Q - angle0 b r / 2 * Q0 = κ / 2 * (Q - Q0) + (κ - angle0 b r) / 2 * Q0 by ring]
    refine (abs_add_le _ _).trans ?_
    rw [abs_mul, abs_mul, abs_of_nonneg (show 0 ≤ κ / 2 by linarith), abs_div, abs_two]
    have d1 := mul_le_mul (show κ / 2 ≤ 1.575 by norm_num at hκ2 ⊢; linarith) c2 (abs_nonneg _) (by norm_num)
    have d2 := mul_le_mul_of_nonneg_left c3 (show 0 ≤ |κ - angle0 b r| / 2 by positivity)
    norm_num at d1 d2 ⊢
    linarith
  have c6 : |angle0 b r / 2 * Q0 - pIntegral eps rule b r (b ^ 2) (r ^ 2) (angle0 b r) 1| ≤ 6 * τ := by
    rw [hp, ← mul_sub, abs_mul, abs_sub_comm, abs_of_nonneg (show 0 ≤ angle0 b r / 2 by linarith)]
    have d1 := mul_le_mul (show angle0 b r / 2 ≤ 1.575 by norm_num at hπ ⊢; linarith) c4 (abs_nonneg _) (by norm_num)
    norm_num at d1 ⊢
    linarith
  have ho1 : (1 : ℝ) ≤ order := by exact_mod_cast ho
  have h7 : 2 * u ≤ (order + 1) * u := mul_le_mul_of_nonneg_right (by linarith) hu0
  constructor
  · have d1 := abs_sub_le N.P (κ / 2 * Q) (pIntegral eps rule b r (b ^ 2) (r ^ 2) (angle0 b r) 1)
    have d2 := abs_sub_le (κ / 2 * Q) (angle0 b r / 2 * Q0) (pIntegral eps rule b r (b ^ 2) (r ^ 2) (angle0 b r) 1)
    norm_num at c1
    linarith
  · have d1 := abs_sub_abs_le_abs_sub (pIntegral eps rule b r (b ^ 2) (r ^ 2) (angle0 b r) 1) (angle0 b r / 2 * Q0)
    rw [abs_sub_comm] at c6
    have d2 : |angle0 b r / 2 * Q0| ≤ 317 / 100 := by
      rw [abs_mul, abs_of_nonneg (show 0 ≤ angle0 b r / 2 by linarith)]
      refine (mul_le_mul (c := |Q0|) (d := 2 * (2.01 * (1 / 2))) (show angle0 b r / 2 ≤ 1.575 by norm_num at hπ ⊢; linarith) (c3.trans (by linarith)) (abs_nonneg _) (by norm_num)).trans ?_
      norm_num
    norm_num at hτ1 ⊢
    linarith

/-- **C116**: while the occultor is inside the disc of the star, every floating-point run is within `17700 √eps + 160 (order + 1) u`
of the program in exact arithmetic, with the same rule: the order of the rule does not matter. -/
theorem quadratic_rounding_inside {u eps u1 u2 b r : ℝ} {order : ℕ} {rule table : List (ℝ × ℝ)} (hu0 : 0 ≤ u) (hue : u ≤ eps) (heps : 0 < eps)
    (heps1 : eps ≤ 1e-6) (hr : |r| ≤ 1 / 2) (hin : 120 * eps ≤ 1 - (|b| + |r|) ^ 2) (h1 : |u1| ≤ 2) (h2 : |u2| ≤ 1) (hq : 1 / 2 ≤ 1 - u1 / 3 - u2 / 6)
    (hrule : IsGaussLegendre order rule) (ho : 0 < order) (ht : List.Forall₂ (fun p q => Rnd u p.1 q.1 ∧ Rnd u p.2 q.2) rule table)
    (hou : (order + 1) * u ≤ 1 / 2) (Q : QuadraticRun u eps u1 u2 b r table) :
    |Q.out - lightCurve eps rule [u1, u2] b r| ≤ 17700 * √eps + 160 * ((order + 1) * u) := by
  have hτ : √eps ^ 2 = eps := sq_sqrt heps.le
  have hτ0 := sqrt_nonneg eps
  have hτ1 : √eps ≤ 1e-3 := by
    rw [sqrt_le_left (by norm_num)]
    exact heps1.trans (by norm_num)
  have hu : u ≤ 1e-6 := hue.trans heps1
  have hτ' : u ≤ √eps ^ 2 := by rw [hτ]; exact hue
  have hut : u ≤ 1 / 1000 * √eps := by
    have := mul_le_mul_of_nonneg_right hτ1 hτ0
    norm_num at this ⊢
    rw [sq] at hτ'
    linarith
  have s0 := s0_near hu0 hu hτ0 hτ1 hτ' hr Q
  have s2 := s2_near hu0 hu hτ0 hτ1 hτ' hr Q
  obtain ⟨n0, n1, n2⟩ := greens_near hu0 hu Q.hpi h1 h2 hq Q.greens
  have hb := abs_nonneg b
  have hr0 := abs_nonneg r
  have hbr1 : |b| + |r| ≤ 1 - 60 * eps := by
    have h3 : (|b| + |r|) ^ 2 ≤ (1 - 60 * eps) ^ 2 := by linarith [sq_nonneg (60 * eps)]
    norm_num at heps1
    exact le_of_sq_le_sq h3 (by linarith)
  have hop := Q.hop.ge (show 0 ≤ 1 + |r| by linarith)
  have hbop : |b| < Q.op := by
    have := mul_le_mul_of_nonneg_left (show 1 + |r| ≤ 2 by linarith) hu0
    linarith
  have hnf := not_covered hu hb hr Q.hopb
  -- the second entry
  obtain ⟨p1, hp1, hpa⟩ : ∃ p1, p1 = pIntegral eps rule |b| |r| (|b| ^ 2) (|r| ^ 2) (angle0 |b| |r|) 1 ∧
      |Q.s1 - (-p1 - 2 * (angle1 |b| |r| - π) / 3)| ≤ 3640 * √eps + 48 * ((order + 1) * u) ∧ |p1| ≤ 3.2 := by
    refine ⟨_, rfl, ?_⟩
    clear s0 s2 n0 n1 n2 hop
    obtain ⟨pi, hpi, greens, op, hop, k, opb, hopb, b_, hb_, b2, hb2, r2, hr2, S, T, s0, hs0e, s2, hs2, prun, P, hP, k1, hk1, k2, hk2, k3, hk3, s1, hs1, dot, hdot, out, hout⟩ := Q
    change |s1 - _| ≤ _ ∧ _
    change |b| < op at hbop
    change ¬ opb ≤ |r| at hnf
    simp only [hnf, or_false, if_neg (not_le.2 hbop)] at hb_ hP
    subst P
    subst b_
    have hb1 : |b| ≤ 1.51 := by norm_num; linarith
    obtain ⟨ka, kb, kc⟩ := kappas_near hu0 hu hτ0 hτ1 hτ' hb hr0 hr hop k hbop
    obtain ⟨ar0, -⟩ := area_near hu0 hu hτ0 hτ' hb hr0 hr hop k hbop
    obtain ⟨an0, -⟩ := angles_near hu0 hu hτ0 hτ1 hτ' hb hr0 hr hop k hbop
    have he := eta_near hu0 hu hb hb1 hr0 hr hb2 hr2 T.hh1 T.hh2 T.hh3 T.heta2
    obtain ⟨hPt, hPb⟩ := P_inside hu0 heps heps1 hτ0 hτ1 hτ hue hb hr0 hr hin he.1 he.2.1 (Complex.arg_nonneg_iff.2 ar0) (Complex.arg_le_pi _) k.hkappa0 an0
      hrule ho ht hou prun
    refine ⟨?_, hPb⟩
    have hc := combine_s1 hu0 hu hut hpi kc angle1_range.1 angle1_range.2 hk1 hk2 hk3 hs1 hPt hPb
    refine hc.trans ?_
    have hou0 : 0 ≤ ((order : ℝ) + 1) * u := by positivity
    norm_num
    linarith
  obtain ⟨hs1, hpb⟩ := hpa
  -- the program in exact arithmetic
  have hlc : lightCurve eps rule [u1, u2] b r =
      (π - overlap |b| |r|) * ((1 - u1 - 1.5 * u2) / (π * (1 - u1 / 3 - u2 / 6))) +
        (-p1 - 2 * (angle1 |b| |r| - π) / 3) * ((u1 + 2 * u2) / (π * (1 - u1 / 3 - u2 / 6))) +
        exact2 |b| |r| * (-u2 / 4 / (π * (1 - u1 / 3 - u2 / 6))) - 1 := by
    have htot : totalFlux [u1, u2] ≠ 0 := by
      rw [total_two]
      exact mul_ne_zero pi_ne_zero (by linarith)
    obtain ⟨g0, g1, g2⟩ := greens_two u1 u2
    have hex := exact_flux (u1 := u1) (u2 := u2) hb hr0 hr (by linarith)
    rw [occultor_abs b r [u1, u2]] at hex
    have hr' : |r| ≠ 1 := by linarith
    rw [light_curve_flux_all_regimes (by simp) htot b r (fun h => hr' h.2), hex]
    simp only [List.length_cons, List.length_nil, Finset.sum_range_succ, Finset.sum_range_zero, quadError, kappas_closed hb hr0 hr, ← hp1]
    rw [if_neg (show ¬ (1 = 0 ∨ 1 = 2 ∨ 1 + |r| ≤ |b| ∨ 1 + |b| ≤ |r|) by
      rintro (h | h | h | h)
      · omega
      · omega
      · linarith
      · linarith), g1, total_two]
    unfold exact1
    norm_num
    ring
  obtain ⟨u1a, u1b⟩ := _root_.abs_le.1 h1
  obtain ⟨u2a, u2b⟩ := _root_.abs_le.1 h2
  have ha1 := angle1_range (b := |b|) (r := |r|)
  have hπ := pi_lt_d2
  have hc := combine_dot hu0 hu s0 hs1 s2 n0 n1 n2 (visible_range |b| |r|).2 (by
      have := _root_.abs_le.1 hpb
      norm_num at this hπ
      rw [_root_.abs_le]
      constructor <;> norm_num <;> linarith [this.1, this.2, ha1.1, ha1.2]) (exact2_le hb hr0 hr)
    (coefficient_le (M := 9 / 2) hq (by rw [_root_.abs_le]; constructor <;> norm_num <;> linarith) le_rfl)
    (coefficient_le (M := 4) hq (by rw [_root_.abs_le]; constructor <;> linarith) (by norm_num))
    (coefficient_le (M := 1 / 4) hq (by rw [_root_.abs_le]; constructor <;> linarith) (by norm_num)) Q.hdot Q.hout
  rw [hlc]
  refine hc.trans ?_
  have hou0 : 0 ≤ ((order : ℝ) + 1) * u := by positivity
  norm_num
  linarith

/-- non-vacuity: in double precision, with the default order, a planet of a tenth of the radius of the star in front of it -/
example (fl : ℝ → ℝ) (h : ∀ x, Rnd (2 ^ (-53 : ℤ)) x (fl x)) (rule : List (ℝ × ℝ)) (hq : IsGaussLegendre 10 rule) :
    ∃ _Q : QuadraticRun (2 ^ (-53 : ℤ)) (2 ^ (-52 : ℤ)) 0.4 0.2 0.8 0.1 (rule.map fun p => ((fl p.1 : ℝ), (fl p.2 : ℝ))),
      |_Q.out - lightCurve (2 ^ (-52 : ℤ)) rule [0.4, 0.2] 0.8 0.1| ≤ 3e-4 := by
  have ht : List.Forall₂ (fun p q => Rnd (2 ^ (-53 : ℤ)) p.1 q.1 ∧ Rnd (2 ^ (-53 : ℤ)) p.2 q.2) rule (rule.map fun p => ((fl p.1 : ℝ), (fl p.2 : ℝ))) := by
    rw [List.forall₂_map_right_iff]
    exact List.forall₂_same.2 fun p _ => ⟨h _, h _⟩
  obtain ⟨Q⟩ := quadraticRun_exists (eps := 2 ^ (-52 : ℤ)) (u1 := 0.4) (u2 := 0.2) (b := 0.8) (r := 0.1)
    (table := rule.map fun p => ((fl p.1 : ℝ), (fl p.2 : ℝ))) fl h (by
      intro h0
      have := congrArg List.length h0
      rw [List.length_map, hq.length] at this
      simp at this)
  refine ⟨Q, ?_⟩
  have hb : |(0.8 : ℝ)| = 0.8 := abs_of_pos (by norm_num)
  have hr : |(0.1 : ℝ)| = 0.1 := abs_of_pos (by norm_num)
  refine (quadratic_rounding_inside (by norm_num) (by norm_num) (by norm_num) (by norm_num) (by rw [hr]; norm_num) (by rw [hb, hr]; norm_num)
    (by rw [abs_of_pos] <;> norm_num) (by rw [abs_of_pos] <;> norm_num) (by norm_num) hq (by norm_num) ht (by norm_num) Q).trans ?_
  have a1 : √(2 ^ (-52 : ℤ) : ℝ) ≤ 1.5e-8 := by rw [sqrt_le_left] <;> norm_num
  norm_num at a1 ⊢

end Jaxoplanet.LimbDarkFloat
