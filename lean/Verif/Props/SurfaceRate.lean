import Verif.Proofs.SurfaceBounded
import Verif.Props.SystemConverge

/-!
# C112: one quadrature order is good for all occultations of a surface
-/

namespace Jaxoplanet.Starry
open _root_.Jaxoplanet.Starry.Spec _root_.Jaxoplanet.Spec _root_.Jaxoplanet.Green _root_.Jaxoplanet.LimbDark _root_.Jaxoplanet.Gauss
open Real MeasureTheory

/-- C112 (a): the error of an entry of the solution vector at any order. The terms with `(2l - q) % 4 = 0` have at most 20 nodes. -/
theorem solutionVector_rate {quad : ℕ → List (ℝ × ℝ)} (hq : ∀ n, IsGaussLegendre n (quad n)) {eps : ℝ} (he : 0 < eps) (l_max : ℕ)
    (hl : 1 ≤ l_max) {b r : ℝ} (hb : 0 ≤ b) (hr : 0 ≤ r) (hne : ¬ (b = 0 ∧ r = 1)) {order : ℕ} (ho : 0 < order) :
    ∃ S, solutionVector eps quad l_max order b r = .ok S ∧ S.length = (l_max + 1) ^ 2 ∧
      ∀ l ≤ l_max, ∀ q ≤ 2 * l,
        |(∫ p in stellarDisc \ occultorY b r, polyVal (gtilde (l ^ 2 + q)) p.1 p.2 (mu p)) - S.getD (l ^ 2 + q) 0| ≤
          (if (2 * l - q) % 4 = 0 then lowLoss (min order 20) b r (kappas b r).1 l q
            else π ^ 2 * (4 * (l + 5) * (1 + b + r) ^ (l + 5)) / √((2 * order - 1 : ℕ) : ℝ)) + (kappas b r).1 / 2 * guardSize eps b r l q := by
  obtain ⟨S, e1, e2, e3⟩ := solutionVector_close hq he l_max hl hb hr hne order
  refine ⟨S, e1, e2, fun l hlm q hql => ?_⟩
  have h1 := e3 l hlm q hql
  obtain ⟨k0, kπ⟩ := kappa_bounds hb hr
  have h2 : |edgeError (quad (pOrder order l q)) b r (kappas b r).1 l q| ≤ if (2 * l - q) % 4 = 0 then lowLoss (min order 20) b r (kappas b r).1 l q
            else π ^ 2 * (4 * (l + 5) * (1 + b + r) ^ (l + 5)) / √((2 * order - 1 : ℕ) : ℝ) := by
    by_cases hlow : (2 * l - q) % 4 = 0
    · have e : pOrder order l q = min order 20 := by unfold pOrder; rw [if_pos hlow]
      rw [e, if_pos hlow]
      exact edgeError_low (by omega) (hq _) hb hr k0 l q hql hlow
    · have e : pOrder order l q = order := by unfold pOrder; rw [if_neg hlow]
      rw [e, if_neg hlow]
      exact edgeError_rate (by linarith) hb hr (by linarith) ho (hq order) k0 kπ l q hql
  rw [abs_le] at *
  constructor <;> linarith

/-- the guards at all positions at which the discs overlap -/
theorem guardSize_uniform {eps b r ρ : ℝ} (he : 0 < eps) (he1 : eps ≤ 1) (hb : 0 ≤ b) (hr : 0 ≤ r) (hrρ : r ≤ ρ) (hbr : b < 1 + r) {l L : ℕ} (hl : l ≤ L) (q : ℕ) :
    guardSize eps b r l q ≤ 80 * (2 + 3 * ρ) ^ (L + 2) * √eps := by
  have hs : eps ≤ √eps := by
    rw [Real.le_sqrt he.le he.le, sq]
    nlinarith
  have hs0 := sqrt_nonneg eps
  have hD : 1 ≤ 2 + 3 * ρ := by linarith
  have hp1 : 2 + 3 * ρ ≤ (2 + 3 * ρ) ^ (L + 2) := le_self_pow₀ hD (by omega)
  unfold guardSize
  split_ifs
  · rw [sqrt_mul (by norm_num)]
    have h10 : √10 ≤ 4 := by rw [Real.sqrt_le_left (by norm_num)]; norm_num
    calc 2 * r * (√10 * √eps) = 2 * r * √10 * √eps := by ring
      _ ≤ 80 * (2 + 3 * ρ) ^ (L + 2) * √eps := by
        refine mul_le_mul_of_nonneg_right ?_ hs0
        have : 2 * r * √10 ≤ 2 * r * 4 := mul_le_mul_of_nonneg_left h10 (by linarith)
        linarith
  · positivity
  · have h1 : (1 + b + 2 * r) ^ (l + 2) ≤ (2 + 3 * ρ) ^ (L + 2) :=
      (pow_le_pow_left₀ (by positivity) (by linarith) _).trans (pow_le_pow_right₀ hD (by omega))
    calc 80 * eps * (1 + b + 2 * r) ^ (l + 2) ≤ 80 * √eps * (2 + 3 * ρ) ^ (L + 2) :=
          mul_le_mul (by linarith) h1 (by positivity) (by positivity)
      _ = _ := by ring
  · positivity

/-- C112 (b): for each surface and each largest radius there is one constant such that, for all rotation angles, all positions and radii of the
occultor, all orders of the quadrature and all machine epsilons, the light curve is the flux of the visible part of the disc up to
`C / √order + C √eps`, and up to the error of the polynomial terms, for which the code uses at most 20 nodes. -/
theorem surface_light_curve_rate {asEuler : V3 → V3} (hE : IsEulerZYZ asEuler) (s : Surface) (hy : ValidMap s.y) (hdeg : s.ydeg ≠ 0)
    {ρ : ℝ} (hρ : 0 ≤ ρ) : ∃ C : ℝ, 0 ≤ C ∧ ∀ (r x y z : ℝ) (theta : Option ℝ), 0 ≤ r → r ≤ ρ → √(x ^ 2 + y ^ 2) < 1 + r → 0 < z →
      ¬ (x = 0 ∧ y = 0 ∧ r = 1) → ∃ g : List ℝ, g.length = (s.deg + 1) ^ 2 ∧
      (∀ p ∈ stellarDisc, s.sky theta (rot2 (-(arctan2 x y)) p) =
        π * ∑ n ∈ Finset.range ((s.deg + 1) ^ 2), g.getD n 0 * polyVal (gtilde n) p.1 p.2 (mu p)) ∧
      ∀ (quad : ℕ → List (ℝ × ℝ)), (∀ n, IsGaussLegendre n (quad n)) → ∀ eps, 0 < eps → eps ≤ 1 → ∀ order, 0 < order →
        ∃ f, surfaceLightCurve eps quad asEuler order s (some r) (some x) (some y) (some z) theta = .ok f ∧
          |f - s.amplitude * fluxOf s theta (stellarDisc \ occultorAt x y r)| ≤ C / √order + C * √eps +
            |s.amplitude * (π / totalFlux s.u)| * ∑ l ∈ Finset.range (s.deg + 1), ∑ q ∈ Finset.range (2 * l + 1),
              |g.getD (l ^ 2 + q) 0| * lowLoss (min order 20) √(x ^ 2 + y ^ 2) r (kappas √(x ^ 2 + y ^ 2) r).1 l q := by
  obtain ⟨B, hB0, hB⟩ := surface_light_curve_bounded hE s hy hdeg
  set L := s.deg with hL
  set c := |s.amplitude * (π / totalFlux s.u)| with hc
  set N : ℝ := ((L + 1 : ℕ) : ℝ) ^ 2 with hN
  set P : ℝ := (2 + 3 * ρ) ^ (L + 5) with hP
  have hc0 : 0 ≤ c := abs_nonneg _
  have hP1 : 1 ≤ P := one_le_pow₀ (by linarith)
  refine ⟨c * (N * (B * (π ^ 2 * (4 * (L + 5) * P)))) + c * (N * (B * (π / 2 * (80 * P)))), by positivity, fun r x y z theta hr hrρ hb hz hne => ?_⟩
  obtain ⟨g, hg, hgB, hgv, hall⟩ := hB r x y z theta hb hz
  refine ⟨g, hg, hgv, fun quad hq eps he he1 order ho => ?_⟩
  set b := √(x ^ 2 + y ^ 2) with hbd
  have hb0 : 0 ≤ b := sqrt_nonneg _
  have hd1 : 1 ≤ L := by rw [hL]; unfold Surface.deg; omega
  have hne' : ¬ (b = 0 ∧ r = 1) := by
    rintro ⟨h1, h2⟩
    have h3 : x ^ 2 + y ^ 2 ≤ 0 := Real.sqrt_eq_zero'.1 h1
    have hx : x = 0 := by nlinarith [sq_nonneg x, sq_nonneg y]
    have hy : y = 0 := by nlinarith [sq_nonneg x, sq_nonneg y]
    exact hne ⟨hx, hy, h2⟩
  obtain ⟨S, e1, e2, e3⟩ := solutionVector_rate hq he L hd1 hb0 hr hne' ho
  refine ⟨_, hall eps quad order S e1, ?_⟩
  obtain ⟨k0, kπ⟩ := kappa_bounds hb0 hr
  have hM : √(order : ℝ) ≤ √((2 * order - 1 : ℕ) : ℝ) := sqrt_le_sqrt (by exact_mod_cast (by omega : order ≤ 2 * order - 1))
  have hso : 0 < √(order : ℝ) := sqrt_pos.2 (by exact_mod_cast ho)
  set T : ℝ := π ^ 2 * (4 * (L + 5) * P) / √order + π / 2 * (80 * P) * √eps with hT
  have hT0 : 0 ≤ T := by positivity
  have hent : ∀ l ≤ L, ∀ q ≤ 2 * l, |(∫ p in stellarDisc \ occultorY b r, polyVal (gtilde (l ^ 2 + q)) p.1 p.2 (mu p)) - S.getD (l ^ 2 + q) 0| ≤
      lowLoss (min order 20) b r (kappas b r).1 l q + T := by
    intro l hlm q hql
    refine (e3 l hlm q hql).trans ?_
    have h1 : (kappas b r).1 / 2 * guardSize eps b r l q ≤ π / 2 * (80 * P) * √eps := by
      have h2 := guardSize_uniform he he1 hb0 hr hrρ hb hlm q
      have h3 : (2 + 3 * ρ) ^ (L + 2) ≤ P := pow_le_pow_right₀ (by linarith) (by omega)
      rw [mul_assoc]
      refine mul_le_mul (by linarith) (h2.trans ?_) (guardSize_nonneg he hb0 hr l q) (by positivity)
      exact mul_le_mul_of_nonneg_right (by linarith) (sqrt_nonneg _)
    have hlow0 := lowLoss_nonneg (min order 20) hb0 hr k0 l q
    have h4 : π ^ 2 * (4 * (l + 5) * (1 + b + r) ^ (l + 5)) / √((2 * order - 1 : ℕ) : ℝ) ≤ π ^ 2 * (4 * (L + 5) * P) / √order := by
      have hlL : (l : ℝ) ≤ L := by exact_mod_cast hlm
      have h5 : (1 + b + r) ^ (l + 5) ≤ P :=
        (pow_le_pow_left₀ (by positivity) (by linarith) _).trans (pow_le_pow_right₀ (by linarith) (by omega))
      have h6 : 4 * ((l : ℝ) + 5) * (1 + b + r) ^ (l + 5) ≤ 4 * (L + 5) * P := mul_le_mul (by linarith) h5 (by positivity) (by positivity)
      exact div_le_div₀ (by positivity) (mul_le_mul_of_nonneg_left h6 (by positivity)) hso hM
    have h7 : 0 ≤ π ^ 2 * (4 * (L + 5) * P) / √order := by positivity
    split_ifs <;> linarith
  rw [mul_sub, sub_sub_cancel_left, abs_neg, ← mul_assoc, abs_mul, ← hc]
  refine (mul_le_mul_of_nonneg_left (entries_sum g hent) hc0).trans ?_
  have hA : ∑ l ∈ Finset.range (L + 1), ∑ q ∈ Finset.range (2 * l + 1), |g.getD (l ^ 2 + q) 0| ≤ N * B := by
    rw [← sum_blocks (L + 1) fun n => |g.getD n 0|]
    refine (Finset.sum_le_card_nsmul _ _ B fun n hn => hgB n (Finset.mem_range.1 hn)).trans (le_of_eq ?_)
    rw [Finset.card_range, nsmul_eq_mul, hN]
    push_cast
    ring
  have hAT := mul_le_mul_of_nonneg_left (mul_le_mul_of_nonneg_right hA hT0) hc0
  have hexp : c * (N * B * T) = c * (N * (B * (π ^ 2 * (4 * (L + 5) * P)))) / √order + c * (N * (B * (π / 2 * (80 * P)))) * √eps := by
    rw [hT]; ring
  have hx : c * (N * (B * (π / 2 * (80 * P)))) / √order ≥ 0 := by positivity
  have hy' : c * (N * (B * (π ^ 2 * (4 * (L + 5) * P)))) * √eps ≥ 0 := by positivity
  rw [mul_add, add_div, add_mul]
  linarith

open Classical in
/-- the error of the polynomial terms of the integral along the edge of the occultor, for which the code uses at most 20 nodes. `g` are the coefficients
of the surface in the Green basis. -/
noncomputable def cappedLoss (order : ℕ) (s : Surface) (r x y z : ℝ) (g : List ℝ) : ℝ :=
  if 1 + r ≤ √(x ^ 2 + y ^ 2) ∨ z ≤ 0 then 0
  else |s.amplitude * (π / totalFlux s.u)| * ∑ l ∈ Finset.range (s.deg + 1), ∑ q ∈ Finset.range (2 * l + 1),
    |g.getD (l ^ 2 + q) 0| * lowLoss (min order 20) √(x ^ 2 + y ^ 2) r (kappas √(x ^ 2 + y ^ 2) r).1 l q

/-- C112 (c): the same with and without an occultation -/
theorem occultation_rate {asEuler : V3 → V3} (hE : IsEulerZYZ asEuler) (s : Surface) (hy : ValidMap s.y) (hdeg : s.ydeg ≠ 0)
    (htot : totalFlux s.u ≠ 0) {ρ : ℝ} (hρ : 0 ≤ ρ) : ∃ C : ℝ, 0 ≤ C ∧ ∀ (r x y z : ℝ) (theta : Option ℝ), 0 ≤ r → r ≤ ρ →
      ¬ (x = 0 ∧ y = 0 ∧ r = 1) → ∃ g, IsGreenOf s theta x y g ∧
      ∀ (quad : ℕ → List (ℝ × ℝ)), (∀ n, IsGaussLegendre n (quad n)) → ∀ eps, 0 < eps → eps ≤ 1 → ∀ order, 0 < order →
        ∃ f, surfaceLightCurve eps quad asEuler order s (some r) (some x) (some y) (some z) theta = .ok f ∧
          |f - s.amplitude * fluxOf s theta (visibleBehind r x y z)| ≤ C / √order + C * √eps + cappedLoss order s r x y z g := by
  obtain ⟨C, hC, h⟩ := surface_light_curve_rate hE s hy hdeg hρ
  refine ⟨C, hC, fun r x y z theta hr hrρ hne => ?_⟩
  by_cases hout : 1 + r ≤ √(x ^ 2 + y ^ 2) ∨ z ≤ 0
  · obtain ⟨g, hg⟩ := exists_green hE s hy theta x y
    refine ⟨g, hg, fun quad hq eps he he1 order ho => ⟨_, surface_light_curve_unocculted eps quad hE order s hy hdeg htot r x y z theta hout, ?_⟩⟩
    unfold cappedLoss
    rw [flux_beside s theta hr hout, sub_self, abs_zero, if_pos hout]
    positivity
  · have hz : 0 < z := by
      by_contra h
      exact hout (Or.inr (not_lt.1 h))
    have hb : √(x ^ 2 + y ^ 2) < 1 + r := by
      by_contra h
      exact hout (Or.inl (not_lt.1 h))
    obtain ⟨g, hg, hgv, hall⟩ := h r x y z theta hr hrρ hb hz hne
    refine ⟨g, ⟨hg, hgv⟩, fun quad hq eps he he1 order ho => ?_⟩
    unfold cappedLoss
    rw [visibleBehind_front hz, if_neg hout]
    exact hall quad hq eps he he1 order ho

/-- C112 (d): **one order for all times.** For a system whose surfaces are not uniform there is one constant such that, at all times at which no
two bodies in front of the star overlap, at all orders and machine epsilons, every row of the light curve is the amplitude of the surface times the
flux of the visible part of its disc, up to `C / √order + C √eps` and the capped terms. -/
theorem system_light_curve_rate {asEuler : V3 → V3} (hE : IsEulerZYZ asEuler) (kep : ℝ → ℝ → ℝ × ℝ) (au : ℝ) (sys : SurfaceSystem)
    (hp : sys.bodies.length = sys.body_surfaces.length) {cs : Surface} (hcs : sys.central_surface = some cs)
    (hy : ValidMap cs.y) (htot : totalFlux cs.u ≠ 0) (hdeg : cs.ydeg ≠ 0)
    (hys : ∀ s, some s ∈ sys.body_surfaces → ValidMap s.y ∧ totalFlux s.u ≠ 0 ∧ s.ydeg ≠ 0)
    {r : ℕ → ℝ} (hr : ∀ i (h : i < sys.bodies.length), sys.bodies[i].radius = some (r i * sys.central.radius)) (hr0 : ∀ i, 0 < r i)
    (hR : 0 < sys.central.radius) {x y z : ℝ → ℕ → ℝ}
    (hpos : ∀ t i (h : i < sys.bodies.length), sys.bodies[i].relative_position kep au t =
      ⟨x t i * sys.central.radius, y t i * sys.central.radius, z t i * sys.central.radius⟩) :
    ∃ C : ℝ, 0 ≤ C ∧ ∀ t, NoMutualOverlap sys.bodies.length r (x t) (y t) (z t) →
      (∀ i < sys.bodies.length, ¬ (x t i = 0 ∧ y t i = 0 ∧ r i = 1)) →
      ∃ gc gb : ℕ → List ℝ, (∀ i < sys.bodies.length, IsGreenOf cs (cs.rotationalPhase t) (x t i) (y t i) (gc i)) ∧
      (∀ i (h : i < sys.body_surfaces.length) s, sys.body_surfaces[i] = some s →
        IsGreenOf s (s.rotationalPhase t) (-x t i / r i) (-y t i / r i) (gb i)) ∧
      ∀ (quad : ℕ → List (ℝ × ℝ)), (∀ n, IsGaussLegendre n (quad n)) → ∀ eps, 0 < eps → eps ≤ 1 → ∀ order, 0 < order →
        ∃ (row : ℝ) (rows : List ℝ), systemLightCurve eps quad asEuler order kep au sys t = .ok (some (row :: rows)) ∧ rows.length = sys.bodies.length ∧
        |row - cs.amplitude * fluxOf cs (cs.rotationalPhase t) (visiblePart sys.bodies.length r (x t) (y t) (z t))| ≤
          C / √order + C * √eps + ∑ i ∈ Finset.range sys.bodies.length, cappedLoss order cs (r i) (x t i) (y t i) (z t i) (gc i) ∧
        ∀ i (h : i < sys.body_surfaces.length), (sys.body_surfaces[i] = none → rows[i]? = some 0) ∧
          ∀ s, sys.body_surfaces[i] = some s → ∃ v, rows[i]? = some v ∧
            |v - s.amplitude * fluxOf s (s.rotationalPhase t) (visibleBehind (1 / r i) (-x t i / r i) (-y t i / r i) (-z t i / r i))| ≤
              C / √order + C * √eps + cappedLoss order s (1 / r i) (-x t i / r i) (-y t i / r i) (-z t i / r i) (gb i) := by
  classical
  set n := sys.bodies.length with hn
  -- a constant for the central
  obtain ⟨C0, hC0, h0⟩ := occultation_rate hE cs hy hdeg htot (ρ := ∑ i ∈ Finset.range n, r i) (Finset.sum_nonneg fun i _ => (hr0 i).le)
  have hrρ : ∀ i < n, r i ≤ ∑ i ∈ Finset.range n, r i := fun i hi =>
    Finset.single_le_sum (f := r) (fun i _ => (hr0 i).le) (Finset.mem_range.2 hi)
  -- constants for the bodies
  have hbody : ∀ i, ∃ C : ℝ, 0 ≤ C ∧ ∀ (h : i < sys.body_surfaces.length) s, sys.body_surfaces[i] = some s →
      ∀ (r' x y z : ℝ) (theta : Option ℝ), 0 ≤ r' → r' ≤ 1 / r i → ¬ (x = 0 ∧ y = 0 ∧ r' = 1) → ∃ g, IsGreenOf s theta x y g ∧
      ∀ (quad : ℕ → List (ℝ × ℝ)), (∀ n, IsGaussLegendre n (quad n)) → ∀ eps, 0 < eps → eps ≤ 1 → ∀ order, 0 < order →
        ∃ f, surfaceLightCurve eps quad asEuler order s (some r') (some x) (some y) (some z) theta = .ok f ∧
          |f - s.amplitude * fluxOf s theta (visibleBehind r' x y z)| ≤ C / √order + C * √eps + cappedLoss order s r' x y z g := by
    intro i
    by_cases hi : i < sys.body_surfaces.length
    · cases hs : sys.body_surfaces[i] with
      | none => exact ⟨0, le_rfl, fun _ s h => by rw [hs] at h; simp at h⟩
      | some s =>
        have hv := hys s (hs ▸ List.getElem_mem hi)
        obtain ⟨C, hC, h⟩ := occultation_rate hE s hv.1 hv.2.2 hv.2.1 (ρ := 1 / r i) (one_div_pos.2 (hr0 i)).le
        refine ⟨C, hC, fun _ s' h' => ?_⟩
        obtain rfl := Option.some.inj (hs.symm.trans h')
        exact h
    · exact ⟨0, le_rfl, fun h => absurd h hi⟩
  choose Cb hCb hb using hbody
  have hCs : 0 ≤ ∑ i ∈ Finset.range n, Cb i := Finset.sum_nonneg fun i _ => hCb i
  refine ⟨n * C0 + ∑ i ∈ Finset.range n, Cb i, by positivity, fun t hno hne => ?_⟩
  have hc : ∀ i, ∃ g, i < n → IsGreenOf cs (cs.rotationalPhase t) (x t i) (y t i) g ∧
      ∀ (quad : ℕ → List (ℝ × ℝ)), (∀ n, IsGaussLegendre n (quad n)) → ∀ eps, 0 < eps → eps ≤ 1 → ∀ order, 0 < order →
        ∃ f, surfaceLightCurve eps quad asEuler order cs (some (r i)) (some (x t i)) (some (y t i)) (some (z t i)) (cs.rotationalPhase t) = .ok f ∧
          |f - cs.amplitude * fluxOf cs (cs.rotationalPhase t) (visibleBehind (r i) (x t i) (y t i) (z t i))| ≤
            C0 / √order + C0 * √eps + cappedLoss order cs (r i) (x t i) (y t i) (z t i) g := by
    intro i
    by_cases hi : i < n
    · obtain ⟨g, h1, h2⟩ := h0 (r i) (x t i) (y t i) (z t i) (cs.rotationalPhase t) (hr0 i).le (hrρ i hi) (hne i hi)
      exact ⟨g, fun _ => ⟨h1, h2⟩⟩
    · exact ⟨[], fun h => absurd h hi⟩
  choose gc hgc using hc
  have hb' : ∀ i, ∃ g, ∀ (h : i < sys.body_surfaces.length) s, sys.body_surfaces[i] = some s →
      IsGreenOf s (s.rotationalPhase t) (-x t i / r i) (-y t i / r i) g ∧
      ∀ (quad : ℕ → List (ℝ × ℝ)), (∀ n, IsGaussLegendre n (quad n)) → ∀ eps, 0 < eps → eps ≤ 1 → ∀ order, 0 < order →
        ∃ f, surfaceLightCurve eps quad asEuler order s (some (1 / r i)) (some (-x t i / r i)) (some (-y t i / r i)) (some (-z t i / r i))
          (s.rotationalPhase t) = .ok f ∧
          |f - s.amplitude * fluxOf s (s.rotationalPhase t) (visibleBehind (1 / r i) (-x t i / r i) (-y t i / r i) (-z t i / r i))| ≤
            Cb i / √order + Cb i * √eps + cappedLoss order s (1 / r i) (-x t i / r i) (-y t i / r i) (-z t i / r i) g := by
    intro i
    by_cases hi : i < sys.body_surfaces.length
    · cases hs : sys.body_surfaces[i] with
      | none => exact ⟨[], fun _ s h => by rw [hs] at h; simp at h⟩
      | some s =>
        obtain ⟨g, h1, h2⟩ := hb i hi s hs (1 / r i) (-x t i / r i) (-y t i / r i) (-z t i / r i) (s.rotationalPhase t) (one_div_pos.2 (hr0 i)).le
          le_rfl (by
            rintro ⟨a, b, c⟩
            have hri := (hr0 i).ne'
            have h1 : r i = 1 := by field_simp at c; exact c.symm
            refine hne i (by omega) ⟨?_, ?_, h1⟩
            · rw [h1] at a; simpa using a
            · rw [h1] at b; simpa using b)
        refine ⟨g, fun _ s' h => ?_⟩
        obtain rfl := Option.some.inj (hs.symm.trans h)
        exact ⟨h1, h2⟩
    · exact ⟨[], fun h => absurd h hi⟩
  choose gb hgb using hb'
  refine ⟨gc, gb, fun i hi => (hgc i hi).1, fun i hi s hs => (hgb i hi s hs).1, fun quad hq eps he he1 order ho => ?_⟩
  obtain ⟨f, row, rows, e1, e2, e3⟩ := system_light_curve_central eps quad hE order kep au sys t hp hcs hy (fun s hs => (hys s hs).1) htot
    hr (hpos t) hR.ne' hno
  obtain ⟨row', rows', e1', e2', e3'⟩ := system_light_curve_bodies eps he quad hE order kep au sys t hp hcs hy (fun s hs => (hys s hs).1)
    (rad := fun i => r i * sys.central.radius) hr (fun i => mul_pos (hr0 i) hR)
    (pos := fun i => ⟨x t i * sys.central.radius, y t i * sys.central.radius, z t i * sys.central.radius⟩) (hpos t)
  have hrr : row' :: rows' = row :: rows := by
    rw [e1] at e1'
    exact (Option.some.inj (Except.ok.inj e1')).symm
  obtain ⟨rfl, rfl⟩ := List.cons.inj hrr
  have hse : 0 ≤ √eps := sqrt_nonneg _
  have hso : 0 ≤ √(order : ℝ) := sqrt_nonneg _
  refine ⟨row', rows', e1, e2', ?_, fun i hi => ⟨(e3' i hi).1, fun s hs => ?_⟩⟩
  · rw [e3]
    refine (Finset.abs_sum_le_sum_abs _ _).trans ?_
    have : ∀ i ∈ Finset.range n,
        |f i - cs.amplitude * fluxOf cs (cs.rotationalPhase t) (visibleBehind (r i) (x t i) (y t i) (z t i))| ≤
        (C0 / √order + C0 * √eps) + cappedLoss order cs (r i) (x t i) (y t i) (z t i) (gc i) := by
      intro i hi
      obtain ⟨f', a1, a2⟩ := (hgc i (Finset.mem_range.1 hi)).2 quad hq eps he he1 order ho
      rw [e2 i (Finset.mem_range.1 hi)] at a1
      rwa [Except.ok.inj a1]
    refine (Finset.sum_le_sum this).trans ?_
    rw [Finset.sum_add_distrib, Finset.sum_const, Finset.card_range, nsmul_eq_mul]
    have h1 : 0 ≤ (∑ i ∈ Finset.range n, Cb i) / √order := div_nonneg hCs hso
    have h2 := mul_nonneg hCs hse
    rw [add_div, add_mul, mul_add, mul_div_assoc, ← mul_assoc]
    linarith
  · obtain ⟨v, a1, a2, -, -⟩ := (e3' i hi).2 s hs
    obtain ⟨f', b1, b2⟩ := (hgb i hi s hs).2 quad hq eps he he1 order ho
    have hR' := hR.ne'
    have hri := (hr0 i).ne'
    have c1 : sys.central.radius / (r i * sys.central.radius) = 1 / r i := by field_simp
    have c2 : ∀ w : ℝ, -(w * sys.central.radius) / (r i * sys.central.radius) = -w / r i := fun w => by field_simp
    simp only [c1, c2] at a2
    rw [a2] at b1
    refine ⟨v, a1, ?_⟩
    rw [Except.ok.inj b1]
    refine b2.trans ?_
    have hle : Cb i ≤ n * C0 + ∑ i ∈ Finset.range n, Cb i := by
      have := Finset.single_le_sum (f := Cb) (fun i _ => hCb i) (Finset.mem_range.2 (by omega : i < n))
      have : 0 ≤ n * C0 := by positivity
      linarith
    have h1 := div_le_div_of_nonneg_right hle hso
    have h2 := mul_le_mul_of_nonneg_right hle hse
    linarith

/-- the hypotheses of (d) are met by a star with a dipole map and a planet that has a dipole map too -/
example {asEuler : V3 → V3} (hE : IsEulerZYZ asEuler) (kep : ℝ → ℝ → ℝ × ℝ) : ∃ C : ℝ, ∀ (t : ℝ) (quad : ℕ → List (ℝ × ℝ)),
    (∀ n, IsGaussLegendre n (quad n)) → ∀ order, 0 < order → ∃ (F B row : ℝ) (rows : List ℝ),
    systemLightCurve 1e-16 quad asEuler order kep 1 ⟨⟨1, 1, 1⟩, some dipole, [exampleBody], [some dipole]⟩ t = .ok (some (row :: rows)) ∧
    |row - F| ≤ C / √order + C * √1e-16 + B := by
  have hd : dipole.ydeg ≠ 0 := dipole_ok.2.1
  obtain ⟨C, hC, h⟩ := system_light_curve_rate hE kep 1 ⟨⟨1, 1, 1⟩, some dipole, [exampleBody], [some dipole]⟩ rfl rfl dipole_ok.1 dipole_ok.2.2 hd
    (by simp only [List.mem_singleton, Option.some.injEq, forall_eq]; exact ⟨dipole_ok.1, dipole_ok.2.2, hd⟩)
    (r := fun _ => 0.1) (by simp [exampleBody]) (by norm_num) (by simp) (x := fun t _ => (exampleBody.relative_position kep 1 t).x)
    (y := fun t _ => (exampleBody.relative_position kep 1 t).y) (z := fun t _ => (exampleBody.relative_position kep 1 t).z) (by simp)
  refine ⟨C, fun t quad hq order ho => ?_⟩
  obtain ⟨gc, gb, -, -, h⟩ := h t (by intro i hi j hj hij; simp at hi hj; omega) (fun i _ => by norm_num)
  obtain ⟨row, rows, h1, -, h2, -⟩ := h quad hq 1e-16 (by norm_num) (by norm_num) order ho
  exact ⟨_, _, row, rows, h1, h2⟩

end Jaxoplanet.Starry
