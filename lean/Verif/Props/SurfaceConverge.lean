import Verif.Proofs.EdgeGuard
import Verif.Proofs.ChebyInterp

/-!
# C85: the light curve of a surface converges with the order of the Gauss-Legendre quadrature

`quad order` is any family of rules with the documented property of `scipy.special.roots_legendre(order)`
(`IsGaussLegendre`), see C84.
-/

namespace Jaxoplanet.Starry
open _root_.Jaxoplanet.Starry.Spec _root_.Jaxoplanet.Spec _root_.Jaxoplanet.Green _root_.Jaxoplanet.LimbDark _root_.Jaxoplanet.Gauss
open Real MeasureTheory

/-- the bound on the error of `n` Gauss-Legendre nodes on the line integral of a polynomial term of degree `l` -/
noncomputable def lowLoss (n : ℕ) (b r κ : ℝ) (l q : ℕ) : ℝ :=
  if (2 * l - q) % 4 = 0 then
    8 * κ * (r ^ (l + 2 - q / 2) * (b + r) ^ (q / 2)) * ((l + 2) * κ / 4) ^ (2 * n) / (2 * n).factorial
  else 0

theorem edgePair_low (b r φ : ℝ) (l q : ℕ) (hq : q ≤ 2 * l) (h : (2 * l - q) % 4 = 0) :
    edgePair (greenField (2 * l - q) q) b r φ = 2 * ((r * sin φ) ^ (l + 2 - q / 2) * (b - r * cos φ) ^ (q / 2)) := by
  rw [greenField_even _ _ (by omega)]
  obtain ⟨a, ha⟩ : ∃ a, (2 * l - q + 2) / 2 = 2 * a + 1 := ⟨(2 * l - q) / 4, by omega⟩
  have hb : l + 2 - q / 2 = 2 * a + 1 + 1 := by omega
  simp only [edgePair, ha, hb, sin_neg, cos_neg]
  rw [show r * -sin φ = -(r * sin φ) by ring, Odd.neg_pow ⟨a, rfl⟩, pow_succ (r * sin φ) (2 * a + 1)]
  ring

/-- C85: the polynomial terms, which the code integrates with at most 20 nodes whatever the order -/
theorem edgeError_low {n : ℕ} (hn : 0 < n) {rule : List (ℝ × ℝ)} (h : IsGaussLegendre n rule) {b r κ : ℝ} (hb : 0 ≤ b) (hr : 0 ≤ r)
    (hκ : 0 ≤ κ) (l q : ℕ) (hq : q ≤ 2 * l) (hlow : (2 * l - q) % 4 = 0) : |edgeError rule b r κ l q| ≤ lowLoss n b r κ l q := by
  have hs : DerivBound (fun x => r * sin (κ / 2 * x + κ / 2)) r (κ / 2) := by
    have := (DerivBound.sin (κ / 2) (κ / 2)).affine (abs_nonneg _) r 0
    simpa [abs_of_nonneg hr, abs_of_nonneg (by linarith : 0 ≤ κ / 2)] using this
  have hc : DerivBound (fun x => b - r * cos (κ / 2 * x + κ / 2)) (b + r) (κ / 2) := by
    have := (DerivBound.cos (κ / 2) (κ / 2)).affine (abs_nonneg _) (-r) b
    simpa [abs_of_nonneg hr, abs_of_nonneg hb, abs_of_nonneg (by linarith : 0 ≤ κ / 2), sub_eq_add_neg] using this
  have h2 := (DerivBound.const 2).mul le_rfl ((hs.pow (by linarith) (l + 2 - q / 2)).mul (by positivity) (hc.pow (by linarith) (q / 2)))
  have hg : (fun x => edgePair (greenField (2 * l - q) q) b r (κ / 2 * (x + 1))) =
      fun x => 2 * ((r * sin (κ / 2 * x + κ / 2)) ^ (l + 2 - q / 2) * (b - r * cos (κ / 2 * x + κ / 2)) ^ (q / 2)) := by
    funext x
    rw [edgePair_low b r _ l q hq hlow, show κ / 2 * (x + 1) = κ / 2 * x + κ / 2 by ring]
  have h3 := gauss_error h hn h2
  unfold edgeError lowLoss
  simp only
  rw [hg, abs_mul, abs_of_nonneg (by linarith : 0 ≤ κ / 2), if_pos hlow]
  refine (mul_le_mul_of_nonneg_left h3 (by linarith)).trans (le_of_eq ?_)
  have e : (0 + (((l + 2 - q / 2 : ℕ) : ℝ) * (κ / 2) + ((q / 2 : ℕ) : ℝ) * (κ / 2))) / 2 = (l + 2) * κ / 4 := by
    have : ((l + 2 - q / 2 : ℕ) : ℝ) + ((q / 2 : ℕ) : ℝ) = l + 2 := by
      rw [← Nat.cast_add, Nat.sub_add_cancel (by omega)]; push_cast; ring
    rw [zero_add, ← add_mul, this]; ring
  rw [e, abs_two]
  ring

theorem continuous_edge (b r κ : ℝ) (l q : ℕ) : Continuous fun x => edgePair (greenField (2 * l - q) q) b r (κ / 2 * (x + 1)) := by
  have h := continuous_occLine (2 * l - q) q b r
  have h2 : (fun x => edgePair (greenField (2 * l - q) q) b r (κ / 2 * (x + 1))) =
      fun x => occLine (greenField (2 * l - q) q) b r (κ / 2 * (x + 1)) +
        occLine (greenField (2 * l - q) q) b r (-(κ / 2 * (x + 1))) := by
    funext x; simp only [occLine, edgePair]
  rw [h2]
  exact (h.comp (by fun_prop)).add (h.comp (by fun_prop))

open Filter in
theorem edgeError_tendsto {quad : ℕ → List (ℝ × ℝ)} (hq : ∀ n, IsGaussLegendre n (quad n)) (b r κ : ℝ) (l q : ℕ) :
    Tendsto (fun n => edgeError (quad n) b r κ l q) atTop (nhds 0) := by
  have h := tendsto_quadSum hq (continuous_edge b r κ l q).continuousOn
  have := (h.sub_const (∫ x in (-1 : ℝ)..1, edgePair (greenField (2 * l - q) q) b r (κ / 2 * (x + 1)))).const_mul (κ / 2)
  rw [sub_self, mul_zero] at this
  exact this

theorem kappa_bounds {b r : ℝ} (hb : 0 ≤ b) (hr : 0 ≤ r) : 0 ≤ (kappas b r).1 ∧ (kappas b r).1 ≤ π := by
  rcases kappa_zero_or hb hr with h | ⟨h1, h2⟩
  · rw [h]; exact ⟨le_rfl, pi_pos.le⟩
  · obtain ⟨k0, kπ, -, -⟩ := w_sign hb hr h1 h2
    rw [← kappas_eq] at k0 kπ
    exact ⟨k0, kπ⟩

theorem lowLoss_nonneg (n : ℕ) {b r κ : ℝ} (hb : 0 ≤ b) (hr : 0 ≤ r) (hκ : 0 ≤ κ) (l q : ℕ) : 0 ≤ lowLoss n b r κ l q := by
  unfold lowLoss
  split_ifs <;> positivity

open Filter in
theorem edgeError_eventually {quad : ℕ → List (ℝ × ℝ)} (hq : ∀ n, IsGaussLegendre n (quad n)) {b r κ : ℝ} (hb : 0 ≤ b) (hr : 0 ≤ r)
    (hκ : 0 ≤ κ) (l q : ℕ) (hql : q ≤ 2 * l) {δ : ℝ} (hδ : 0 < δ) :
    ∀ᶠ order in atTop, |edgeError (quad (pOrder order l q)) b r κ l q| ≤ lowLoss 20 b r κ l q + δ := by
  by_cases hlow : (2 * l - q) % 4 = 0
  · filter_upwards [eventually_ge_atTop 20] with order ho
    have e : pOrder order l q = 20 := by unfold pOrder; rw [if_pos hlow]; omega
    rw [e]
    exact (edgeError_low (by norm_num) (hq 20) hb hr hκ l q hql hlow).trans (by linarith)
  · have := Metric.tendsto_nhds.1 (edgeError_tendsto hq b r κ l q) δ hδ
    filter_upwards [this] with order h
    rw [Real.dist_eq, sub_zero] at h
    have e : pOrder order l q = order := by unfold pOrder; rw [if_neg hlow]
    rw [e]
    have := lowLoss_nonneg 20 hb hr hκ l q
    linarith

/-- what remains of the error in an entry of the solution vector, at large orders: the polynomial terms are integrated with 20
nodes, and some terms are replaced by constants where they would be singular -/
noncomputable def edgeLoss (eps b r : ℝ) (l q : ℕ) : ℝ :=
  lowLoss 20 b r (kappas b r).1 l q + (kappas b r).1 / 2 * guardSize eps b r l q

open Filter in
/-- C85: every entry of the solution vector converges to the integral over the visible part of the star, up to the error of
the 20 nodes to which the polynomial terms are capped and the guards -/
theorem solutionVector_eventually {quad : ℕ → List (ℝ × ℝ)} (hq : ∀ n, IsGaussLegendre n (quad n)) {eps : ℝ} (he : 0 < eps) (l_max : ℕ)
    (hl : 1 ≤ l_max) {b r : ℝ} (hb : 0 ≤ b) (hr : 0 ≤ r) (hne : ¬ (b = 0 ∧ r = 1)) {δ : ℝ} (hδ : 0 < δ) :
    ∀ᶠ order in atTop, ∃ S, solutionVector eps quad l_max order b r = .ok S ∧ S.length = (l_max + 1) ^ 2 ∧
      ∀ l ≤ l_max, ∀ q ≤ 2 * l,
        |(∫ p in stellarDisc \ occultorY b r, polyVal (gtilde (l ^ 2 + q)) p.1 p.2 (mu p)) - S.getD (l ^ 2 + q) 0| ≤
          edgeLoss eps b r l q + δ := by
  have hev : ∀ᶠ order in atTop, ∀ l ∈ Finset.range (l_max + 1), ∀ q ∈ Finset.range (2 * l + 1),
      |edgeError (quad (pOrder order l q)) b r (kappas b r).1 l q| ≤ lowLoss 20 b r (kappas b r).1 l q + δ := by
    refine (Finset.eventually_all _).2 fun l _ => (Finset.eventually_all _).2 fun q hql => ?_
    exact edgeError_eventually hq hb hr (kappa_bounds hb hr).1 l q (by rw [Finset.mem_range] at hql; omega) hδ
  filter_upwards [hev] with order hN
  obtain ⟨S, e1, e2, e3⟩ := solutionVector_close hq he l_max hl hb hr hne order
  refine ⟨S, e1, e2, fun l hlm q hql => ?_⟩
  have h1 := e3 l hlm q hql
  have h2 := hN l (by rw [Finset.mem_range]; omega) q (by rw [Finset.mem_range]; omega)
  unfold edgeLoss
  rw [abs_le] at *
  constructor <;> linarith

/-- C85: every entry of the solution vector converges to the integral over the visible part of the star, up to the error of
the 20 nodes to which the polynomial terms are capped and the guards -/
theorem solutionVector_converges {quad : ℕ → List (ℝ × ℝ)} (hq : ∀ n, IsGaussLegendre n (quad n)) {eps : ℝ} (he : 0 < eps) (l_max : ℕ)
    (hl : 1 ≤ l_max) {b r : ℝ} (hb : 0 ≤ b) (hr : 0 ≤ r) (hne : ¬ (b = 0 ∧ r = 1)) {δ : ℝ} (hδ : 0 < δ) :
    ∃ N, ∀ order ≥ N, ∃ S, solutionVector eps quad l_max order b r = .ok S ∧ S.length = (l_max + 1) ^ 2 ∧
      ∀ l ≤ l_max, ∀ q ≤ 2 * l,
        |S.getD (l ^ 2 + q) 0 - ∫ p in stellarDisc \ occultorY b r, polyVal (gtilde (l ^ 2 + q)) p.1 p.2 (mu p)| ≤
          edgeLoss eps b r l q + δ := by
  obtain ⟨N, hN⟩ := Filter.eventually_atTop.1 (solutionVector_eventually hq he l_max hl hb hr hne hδ)
  refine ⟨N, fun order ho => ?_⟩
  obtain ⟨S, e1, e2, e3⟩ := hN order ho
  exact ⟨S, e1, e2, fun l hlm q hql => by rw [abs_sub_comm]; exact e3 l hlm q hql⟩

/-- the sums over the entries of a solution vector whose entries have errors at most `E + δ` -/
theorem entries_sum {D : ℕ} (g : List ℝ) {I S : ℕ → ℕ → ℝ} {E : ℕ → ℕ → ℝ} {δ : ℝ}
    (h : ∀ l ≤ D, ∀ q ≤ 2 * l, |I l q - S l q| ≤ E l q + δ) :
    |∑ l ∈ Finset.range (D + 1), ∑ q ∈ Finset.range (2 * l + 1), g.getD (l ^ 2 + q) 0 * (I l q - S l q)| ≤
      (∑ l ∈ Finset.range (D + 1), ∑ q ∈ Finset.range (2 * l + 1), |g.getD (l ^ 2 + q) 0| * E l q) +
        (∑ l ∈ Finset.range (D + 1), ∑ q ∈ Finset.range (2 * l + 1), |g.getD (l ^ 2 + q) 0|) * δ := by
  refine (Finset.abs_sum_le_sum_abs _ _).trans ?_
  rw [Finset.sum_mul, ← Finset.sum_add_distrib]
  refine Finset.sum_le_sum fun l hl => ?_
  refine (Finset.abs_sum_le_sum_abs _ _).trans ?_
  rw [Finset.sum_mul, ← Finset.sum_add_distrib]
  refine Finset.sum_le_sum fun q hql => ?_
  rw [Finset.mem_range] at hl hql
  rw [abs_mul, ← mul_add]
  exact mul_le_mul_of_nonneg_left (h l (by omega) q (by omega)) (abs_nonneg _)

open Filter in
/-- C85: the light curve of a surface during an occultation converges to the flux of the visible part of the disc, up to the
error of the polynomial terms and of the guards. `g` are the coefficients, in the Green basis, of the brightness of the star
in the frame where the occultor is on the `y` axis. -/
theorem surface_light_curve_converges {quad : ℕ → List (ℝ × ℝ)} (hq : ∀ n, IsGaussLegendre n (quad n)) {eps : ℝ} (he : 0 < eps)
    {asEuler : V3 → V3} (hE : IsEulerZYZ asEuler) (s : Surface) (hy : ValidMap s.y) (hdeg : s.ydeg ≠ 0)
    {r x y z : ℝ} (theta : Option ℝ) (hr : 0 ≤ r) (hb : √(x ^ 2 + y ^ 2) < 1 + r) (hz : 0 < z) (hne : ¬ (x = 0 ∧ y = 0 ∧ r = 1)) :
    ∃ g : List ℝ, g.length = (s.deg + 1) ^ 2 ∧
      (∀ p ∈ stellarDisc, s.sky theta (rot2 (-(arctan2 x y)) p) =
        π * ∑ n ∈ Finset.range ((s.deg + 1) ^ 2), g.getD n 0 * polyVal (gtilde n) p.1 p.2 (mu p)) ∧
      ∀ δ > 0, ∃ N, ∀ order ≥ N, ∃ f, surfaceLightCurve eps quad asEuler order s (some r) (some x) (some y) (some z) theta = .ok f ∧
        |f - s.amplitude * fluxOf s theta (stellarDisc \ occultorAt x y r)| ≤
          |s.amplitude * (π / totalFlux s.u)| * ∑ l ∈ Finset.range (s.deg + 1), ∑ q ∈ Finset.range (2 * l + 1),
            |g.getD (l ^ 2 + q) 0| * edgeLoss eps √(x ^ 2 + y ^ 2) r l q + δ := by
  obtain ⟨g, hg, hgv, hall⟩ := surface_light_curve_vector eps quad hE s hy hdeg theta hb hz
  set b := √(x ^ 2 + y ^ 2) with hbd
  have hb0 : 0 ≤ b := sqrt_nonneg _
  have hd1 : 1 ≤ s.deg := by unfold Surface.deg; omega
  have hne' : ¬ (b = 0 ∧ r = 1) := by
    rintro ⟨h1, h2⟩
    have h3 : x ^ 2 + y ^ 2 ≤ 0 := Real.sqrt_eq_zero'.1 h1
    have hx : x = 0 := by nlinarith [sq_nonneg x, sq_nonneg y]
    have hy : y = 0 := by nlinarith [sq_nonneg x, sq_nonneg y]
    exact hne ⟨hx, hy, h2⟩
  refine ⟨g, hg, hgv, fun δ hδ => ?_⟩
  set c := |s.amplitude * (π / totalFlux s.u)| with hc
  set A := ∑ l ∈ Finset.range (s.deg + 1), ∑ q ∈ Finset.range (2 * l + 1), |g.getD (l ^ 2 + q) 0| with hA
  have hA0 : 0 ≤ A := Finset.sum_nonneg fun l _ => Finset.sum_nonneg fun q _ => abs_nonneg _
  have hc0 : 0 ≤ c := abs_nonneg _
  have hd : 0 < δ / (c * A + 1) := by positivity
  obtain ⟨N, hN⟩ := eventually_atTop.1 (solutionVector_eventually hq he s.deg hd1 hb0 hr hne' hd)
  refine ⟨N, fun order ho => ?_⟩
  obtain ⟨S, e1, e2, e3⟩ := hN order ho
  refine ⟨_, hall order S e1, ?_⟩
  rw [mul_sub, sub_sub_cancel_left, abs_neg, ← mul_assoc, abs_mul, ← hc]
  refine (mul_le_mul_of_nonneg_left (entries_sum g e3) hc0).trans ?_
  rw [mul_add]
  have : c * (A * (δ / (c * A + 1))) ≤ δ := by
    rw [← mul_assoc, ← mul_div_assoc, div_le_iff₀ (by positivity)]
    nlinarith [mul_nonneg hc0 hA0]
  linarith

/-- the error of the capped terms is below `10⁻⁷` for all maps (with their limb darkening) of degree at most 10 and all
occultors within the disc of the star -/
theorem lowLoss_small {b r : ℝ} (hb : 0 ≤ b) (hr : 0 ≤ r) (h : b + r ≤ 1) {κ : ℝ} (h0 : 0 ≤ κ) (hκ : κ ≤ π) {l : ℕ} (hl : l ≤ 10) (q : ℕ) :
    lowLoss 20 b r κ l q ≤ 1e-7 := by
  unfold lowLoss
  split_ifs
  swap
  · norm_num
  have hp := pi_lt_d2
  have hA : r ^ (l + 2 - q / 2) * (b + r) ^ (q / 2) ≤ 1 := mul_le_one₀ (pow_le_one₀ hr (by linarith)) (by positivity) (pow_le_one₀ (by positivity) h)
  have hA0 : 0 ≤ r ^ (l + 2 - q / 2) * (b + r) ^ (q / 2) := by positivity
  have hl' : (l : ℝ) ≤ 10 := by exact_mod_cast hl
  have hW : ((l : ℝ) + 2) * κ / 4 ≤ 12 * 3.15 / 4 := by
    have : ((l : ℝ) + 2) * κ ≤ 12 * 3.15 := mul_le_mul (by linarith) (by linarith) h0 (by norm_num)
    linarith
  have hW' : (((l : ℝ) + 2) * κ / 4) ^ (2 * 20) ≤ (12 * 3.15 / 4) ^ (2 * 20) := pow_le_pow_left₀ (by positivity) hW _
  have h8 : 8 * κ * (r ^ (l + 2 - q / 2) * (b + r) ^ (q / 2)) ≤ 8 * 3.15 * 1 := mul_le_mul (by linarith) hA hA0 (by norm_num)
  have hN := mul_le_mul h8 hW' (by positivity) (by norm_num)
  rw [div_le_iff₀ (by positivity)]
  refine hN.trans ?_
  norm_num [Nat.factorial]

/-- in double precision what remains of the error is below `3 10⁻⁷`, for all maps (with their limb darkening) of degree at most
10 and all occultors within the disc of the star -/
theorem edgeLoss_small {eps b r : ℝ} (he : 0 < eps) (he' : eps ≤ 2.3e-16) (hb : 0 ≤ b) (hr : 0 ≤ r) (h : b + r ≤ 1) {l : ℕ} (hl : l ≤ 10) (q : ℕ) :
    edgeLoss eps b r l q ≤ 3e-7 := by
  obtain ⟨h0, hκ⟩ := kappa_bounds hb hr
  have h1 := lowLoss_small hb hr h h0 hκ hl q
  have hp := pi_lt_d2
  have hg : guardSize eps b r l q ≤ 1e-7 := by
    unfold guardSize
    split_ifs
    · have h3 : √(10 * eps) ≤ 4.9e-8 := by
        rw [show (4.9e-8 : ℝ) = √((4.9e-8) ^ 2) by rw [sqrt_sq (by norm_num)]]
        exact sqrt_le_sqrt (by norm_num; linarith)
      have h4 := mul_le_mul (by linarith : 2 * r ≤ 2) h3 (sqrt_nonneg _) (by norm_num)
      linarith
    · norm_num
    · have h3 : (1 + b + 2 * r) ^ (l + 2) ≤ 3 ^ 12 := by
        calc _ ≤ (3 : ℝ) ^ (l + 2) := pow_le_pow_left₀ (by positivity) (by linarith) _
          _ ≤ 3 ^ 12 := pow_le_pow_right₀ (by norm_num) (by omega)
      have h4 := mul_le_mul (by linarith : 80 * eps ≤ 80 * 2.3e-16) h3 (by positivity) (by norm_num)
      norm_num at h4 ⊢
      linarith
    · norm_num
  have hg0 := guardSize_nonneg he hb hr l q
  have h5 := mul_le_mul (by linarith : (kappas b r).1 / 2 ≤ 1.6) hg hg0 (by norm_num)
  unfold edgeLoss
  linarith

/-- an occultor of radius 0.5 at `(0.3, 0.4)`, whose edge passes through the centre of the dipole map, meets the hypotheses -/
example {asEuler : V3 → V3} (hE : IsEulerZYZ asEuler) : ∃ quad : ℕ → List (ℝ × ℝ), ∃ N, ∀ order ≥ N, ∃ f,
    surfaceLightCurve 1e-16 quad asEuler order dipole (some 0.5) (some 0.3) (some 0.4) (some 1) none = .ok f := by
  obtain ⟨h1, h2, -⟩ := dipole_ok
  have hb : √((0.3 : ℝ) ^ 2 + 0.4 ^ 2) = 0.5 := by
    rw [show (0.3 : ℝ) ^ 2 + 0.4 ^ 2 = 0.5 ^ 2 by norm_num, Real.sqrt_sq (by norm_num)]
  obtain ⟨g, -, -, h⟩ := surface_light_curve_converges (fun n => (exists_gauss n).choose_spec) (eps := 1e-16) (by norm_num) hE dipole h1 h2
    (r := 0.5) (x := 0.3) (y := 0.4) (z := 1) none (by norm_num) (by rw [hb]; norm_num) (by norm_num) (by norm_num)
  obtain ⟨N, hN⟩ := h 1 one_pos
  exact ⟨_, N, fun order ho => ⟨_, (hN order ho).choose_spec.1⟩⟩

end Jaxoplanet.Starry
