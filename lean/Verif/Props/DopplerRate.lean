import Verif.Proofs.DopplerBounded
import Verif.Props.SystemVelocity

/-!
# C113: one quadrature order is good for all radial velocities of an occulted surface
-/

namespace Jaxoplanet.Starry
open _root_.Jaxoplanet.Starry.Spec _root_.Jaxoplanet.Spec _root_.Jaxoplanet.Green _root_.Jaxoplanet.LimbDark _root_.Jaxoplanet.Gauss
open Real MeasureTheory

/-- the error of the polynomial terms of the line integral, for which the code uses at most 20 nodes, weighted with the coefficients `g` -/
noncomputable def lowSum (order : ℕ) (b r : ℝ) (L : ℕ) (g : List ℝ) : ℝ :=
  ∑ l ∈ Finset.range (L + 1), ∑ q ∈ Finset.range (2 * l + 1), |g.getD (l ^ 2 + q) 0| * lowLoss (min order 20) b r (kappas b r).1 l q

/-- the errors of all entries of the solution vector, weighted with bounded coefficients -/
theorem green_sum_rate {quad : ℕ → List (ℝ × ℝ)} (hq : ∀ n, IsGaussLegendre n (quad n)) {eps : ℝ} (he : 0 < eps) (he1 : eps ≤ 1) {L : ℕ}
    (hL : 1 ≤ L) {B ρ b r : ℝ} (hb : 0 ≤ b) (hr : 0 ≤ r) (hrρ : r ≤ ρ) (hbr : b < 1 + r)
    (hne : ¬ (b = 0 ∧ r = 1)) {order : ℕ} (ho : 0 < order) :
    ∃ S, solutionVector eps quad L order b r = .ok S ∧ ∀ k : List ℝ, (∀ n < (L + 1) ^ 2, |k.getD n 0| ≤ B) →
      |∑ l ∈ Finset.range (L + 1), ∑ q ∈ Finset.range (2 * l + 1), k.getD (l ^ 2 + q) 0 *
        ((∫ p in stellarDisc \ occultorY b r, polyVal (gtilde (l ^ 2 + q)) p.1 p.2 (mu p)) - S.getD (l ^ 2 + q) 0)| ≤
      lowSum order b r L k + ((L + 1 : ℕ) : ℝ) ^ 2 * B *
        (π ^ 2 * (4 * (L + 5) * (2 + 3 * ρ) ^ (L + 5)) / √order + π / 2 * (80 * (2 + 3 * ρ) ^ (L + 5)) * √eps) := by
  set P : ℝ := (2 + 3 * ρ) ^ (L + 5) with hP
  have hP1 : 1 ≤ P := one_le_pow₀ (by linarith)
  obtain ⟨S, e1, e2, e3⟩ := solutionVector_rate hq he L hL hb hr hne ho
  refine ⟨S, e1, fun k hk => ?_⟩
  obtain ⟨k0, kπ⟩ := kappa_bounds hb hr
  have hM : √(order : ℝ) ≤ √((2 * order - 1 : ℕ) : ℝ) := sqrt_le_sqrt (by exact_mod_cast (by omega : order ≤ 2 * order - 1))
  have hso : 0 < √(order : ℝ) := sqrt_pos.2 (by exact_mod_cast ho)
  set T : ℝ := π ^ 2 * (4 * (L + 5) * P) / √order + π / 2 * (80 * P) * √eps with hT
  have hT0 : 0 ≤ T := by positivity
  have hent : ∀ l ≤ L, ∀ q ≤ 2 * l, |(∫ p in stellarDisc \ occultorY b r, polyVal (gtilde (l ^ 2 + q)) p.1 p.2 (mu p)) - S.getD (l ^ 2 + q) 0| ≤
      lowLoss (min order 20) b r (kappas b r).1 l q + T := by
    intro l hlm q hql
    refine (e3 l hlm q hql).trans ?_
    have h1 : (kappas b r).1 / 2 * guardSize eps b r l q ≤ π / 2 * (80 * P) * √eps := by
      have h2 := guardSize_uniform he he1 hb hr hrρ hbr hlm q
      have h3 : (2 + 3 * ρ) ^ (L + 2) ≤ P := pow_le_pow_right₀ (by linarith) (by omega)
      rw [mul_assoc]
      refine mul_le_mul (by linarith) (h2.trans ?_) (guardSize_nonneg he hb hr l q) (by positivity)
      exact mul_le_mul_of_nonneg_right (by linarith) (sqrt_nonneg _)
    have hlow0 := lowLoss_nonneg (min order 20) hb hr k0 l q
    have h4 : π ^ 2 * (4 * (l + 5) * (1 + b + r) ^ (l + 5)) / √((2 * order - 1 : ℕ) : ℝ) ≤ π ^ 2 * (4 * (L + 5) * P) / √order := by
      have hlL : (l : ℝ) ≤ L := by exact_mod_cast hlm
      have h5 : (1 + b + r) ^ (l + 5) ≤ P :=
        (pow_le_pow_left₀ (by positivity) (by linarith) _).trans (pow_le_pow_right₀ (by linarith) (by omega))
      have h6 : 4 * ((l : ℝ) + 5) * (1 + b + r) ^ (l + 5) ≤ 4 * (L + 5) * P := mul_le_mul (by linarith) h5 (by positivity) (by positivity)
      exact div_le_div₀ (by positivity) (mul_le_mul_of_nonneg_left h6 (by positivity)) hso hM
    have h7 : 0 ≤ π ^ 2 * (4 * (L + 5) * P) / √order := by positivity
    split_ifs <;> linarith
  refine (entries_sum k hent).trans (add_le_add le_rfl (mul_le_mul_of_nonneg_right ?_ hT0))
  rw [← sum_blocks (L + 1) fun n => |k.getD n 0|]
  refine (Finset.sum_le_card_nsmul _ _ B fun n hn => hk n (Finset.mem_range.1 hn)).trans (le_of_eq ?_)
  rw [Finset.card_range, nsmul_eq_mul]
  push_cast
  ring

/-- C113 (a): **one order for all positions.** For each surface and each largest radius there is one constant `C` such that, for all rotation angles, all
positions and radii of the occultor, all orders of the quadrature and all machine epsilons, the flux is found up to
`E = C / √order + C √eps` and the polynomial terms, and the radial velocity is the mean velocity of the visible part of the disc, weighted with
its brightness, up to the corresponding error of a quotient. -/
theorem surface_rv_rate {asEuler : Spec.V3 → Spec.V3} (hE : IsEulerZYZ asEuler) (s : Surface) (hy : ValidMap s.y) {P : ℝ} (hP : s.period = some P)
    (htot : totalFlux s.u ≠ 0) {ρ : ℝ} (hρ : 0 ≤ ρ) : ∃ C : ℝ, 0 ≤ C ∧ ∀ (r x y z : ℝ) (theta : Option ℝ), 0 ≤ r → r ≤ ρ → √(x ^ 2 + y ^ 2) < 1 + r →
      0 < z → ¬ (x = 0 ∧ y = 0 ∧ r = 1) → ∃ g h : List ℝ,
      (∀ p ∈ stellarDisc, skyOf s theta (rot2 (-(arctan2 x y)) p) =
        π * ∑ n ∈ Finset.range ((s.deg + 1 + 1) ^ 2), g.getD n 0 * polyVal (gtilde n) p.1 p.2 (mu p)) ∧
      (∀ p ∈ stellarDisc, velocityOf s P (rot2 (-(arctan2 x y)) p) * skyOf s theta (rot2 (-(arctan2 x y)) p) =
        π * ∑ n ∈ Finset.range ((s.deg + 1 + 1) ^ 2), h.getD n 0 * polyVal (gtilde n) p.1 p.2 (mu p)) ∧
      ∀ (quad : ℕ → List (ℝ × ℝ)), (∀ n, IsGaussLegendre n (quad n)) → ∀ eps, 0 < eps → eps ≤ 1 → ∀ order : ℕ, 0 < order →
        let V := stellarDisc \ occultorAt x y r
        let flux := ∫ p in V, skyOf s theta p
        let mean := meanVelocity (skyOf s theta) (velocityOf s P) V
        let E := C / √order + C * √eps + π * lowSum order √(x ^ 2 + y ^ 2) r (s.deg + 1) g
        let A := C / √order + C * √eps + π * lowSum order √(x ^ 2 + y ^ 2) r (s.deg + 1) h
        E < |flux| →
        ∃ f, surfaceRadialVelocity eps quad asEuler order s (some r) (some x) (some y) (some z) theta = .ok f ∧
          |f - s.amplitude * mean| ≤ |s.amplitude| * ((A + |mean| * E) / (|flux| - E)) := by
  obtain ⟨B, hB0, hB⟩ := surface_rv_bounded hE s hy hP htot
  set L := s.deg + 1 with hL
  set Q : ℝ := (2 + 3 * ρ) ^ (L + 5) with hQ
  have hQ1 : 1 ≤ Q := one_le_pow₀ (by linarith)
  set N : ℝ := ((L + 1 : ℕ) : ℝ) ^ 2 * B with hN
  have hN0 : 0 ≤ N := by positivity
  set C1 := π * (N * (π ^ 2 * (4 * (L + 5) * Q))) with hC1
  set C2 := π * (N * (π / 2 * (80 * Q))) with hC2
  have h10 : 0 ≤ C1 := by positivity
  have h20 : 0 ≤ C2 := by positivity
  refine ⟨C1 + C2, by positivity, fun r x y z theta hr hrρ hb hz hne => ?_⟩
  obtain ⟨g, h, hgB, hhB, hgv, hhv, hall⟩ := hB r x y z theta hb hz
  refine ⟨g, h, hgv, hhv, fun quad hq eps he he1 order ho => ?_⟩
  intro V flux mean E A hflux
  have hb0 : 0 ≤ √(x ^ 2 + y ^ 2) := sqrt_nonneg _
  have hne' : ¬ (√(x ^ 2 + y ^ 2) = 0 ∧ r = 1) := by
    rintro ⟨h1, h2⟩
    have h3 : x ^ 2 + y ^ 2 ≤ 0 := Real.sqrt_eq_zero'.1 h1
    have hx : x = 0 := by nlinarith [sq_nonneg x, sq_nonneg y]
    have hy : y = 0 := by nlinarith [sq_nonneg x, sq_nonneg y]
    exact hne ⟨hx, hy, h2⟩
  obtain ⟨S, e1, e2⟩ := green_sum_rate hq he he1 (L := L) (by omega) (B := B) hb0 hr hrρ hb hne' ho
  refine ⟨_, hall eps quad order S e1, ?_⟩
  have hso : 0 < √(order : ℝ) := sqrt_pos.2 (by exact_mod_cast ho)
  have hs : ∀ k : List ℝ, (∀ n < (L + 1) ^ 2, |k.getD n 0| ≤ B) →
      |π * ∑ l ∈ Finset.range (L + 1), ∑ q ∈ Finset.range (2 * l + 1), k.getD (l ^ 2 + q) 0 *
      ((∫ p in stellarDisc \ occultorY √(x ^ 2 + y ^ 2) r, polyVal (gtilde (l ^ 2 + q)) p.1 p.2 (mu p)) - S.getD (l ^ 2 + q) 0)| ≤
      (C1 + C2) / √order + (C1 + C2) * √eps + π * lowSum order √(x ^ 2 + y ^ 2) r L k := by
    intro k hk
    rw [abs_mul, abs_of_pos pi_pos]
    refine (mul_le_mul_of_nonneg_left (e2 k hk) pi_pos.le).trans ?_
    have h1 : π * (lowSum order √(x ^ 2 + y ^ 2) r L k + N * (π ^ 2 * (4 * (L + 5) * Q) / √order + π / 2 * (80 * Q) * √eps)) =
        C1 / √order + C2 * √eps + π * lowSum order √(x ^ 2 + y ^ 2) r L k := by
      rw [hC1, hC2]; ring
    rw [h1, add_div, add_mul]
    have h2 : 0 ≤ C2 / √order := by positivity
    have h3 : 0 ≤ C1 * √eps := by positivity
    linarith
  have hquot := quotient_error (N := ∫ p in V, velocityOf s P p * skyOf s theta p) (D := flux) (hs h hhB) (hs g hgB) hflux
  rw [← mul_sub, abs_mul]
  exact mul_le_mul_of_nonneg_left hquot (abs_nonneg _)

/-- the bound on the error of the flux and of the flux times the velocity: `C / √order + C √eps` and the polynomial terms -/
noncomputable def rvError (C eps : ℝ) (order : ℕ) (s : Surface) (r x y : ℝ) (g : List ℝ) : ℝ :=
  C / √order + C * √eps + π * lowSum order √(x ^ 2 + y ^ 2) r (s.deg + 1) g

/-- the visible flux exceeds the bound on its error, if anything is hidden -/
def SeenAt (C eps : ℝ) (order : ℕ) (s : Surface) (theta : Option ℝ) (r x y z : ℝ) (g : List ℝ) : Prop :=
  Hides r x y z → rvError C eps order s r x y g < |∫ p in visibleBehind r x y z, skyOf s theta p|

open Classical in
/-- the bound on the error of the radial velocity: nothing without an occultation, the error of the quotient otherwise -/
noncomputable def rvBound (C eps : ℝ) (order : ℕ) (s : Surface) (P : ℝ) (theta : Option ℝ) (r x y z : ℝ) (g h : List ℝ) : ℝ :=
  if Hides r x y z then
    |s.amplitude| * ((rvError C eps order s r x y h +
      |meanVelocity (skyOf s theta) (velocityOf s P) (visibleBehind r x y z)| * rvError C eps order s r x y g) /
        (|∫ p in visibleBehind r x y z, skyOf s theta p| - rvError C eps order s r x y g))
  else 0

/-- C113 (b): the same at every position, with and without an occultation -/
theorem rv_rate {asEuler : Spec.V3 → Spec.V3} (hE : IsEulerZYZ asEuler) (s : Surface) (hy : ValidMap s.y) {P : ℝ} (hP : s.period = some P)
    (htot : totalFlux s.u ≠ 0) {ρ : ℝ} (hρ : 0 ≤ ρ) : ∃ C : ℝ, 0 ≤ C ∧ ∀ (r x y z : ℝ) (theta : Option ℝ), 0 ≤ r → r ≤ ρ →
      ¬ (x = 0 ∧ y = 0 ∧ r = 1) → ∃ g h : List ℝ, IsVelGreenOf s P theta x y g h ∧
      ∀ (quad : ℕ → List (ℝ × ℝ)), (∀ n, IsGaussLegendre n (quad n)) → ∀ eps, 0 < eps → eps ≤ 1 → ∀ order : ℕ, 0 < order →
        SeenAt C eps order s theta r x y z g →
        ∃ f, surfaceRadialVelocity eps quad asEuler order s (some r) (some x) (some y) (some z) theta = .ok f ∧
          |f - s.amplitude * meanVelocity (skyOf s theta) (velocityOf s P) (visibleBehind r x y z)| ≤
            rvBound C eps order s P theta r x y z g h := by
  obtain ⟨C, hC, hall⟩ := surface_rv_rate hE s hy hP htot hρ
  refine ⟨C, hC, fun r x y z theta hr hrρ hne => ?_⟩
  by_cases hh : Hides r x y z
  · obtain ⟨g, h, h1, h2, h3⟩ := hall r x y z theta hr hrρ hh.1 hh.2 hne
    refine ⟨g, h, ⟨h1, h2⟩, fun quad hq eps he he1 order ho hs => ?_⟩
    have hs := hs hh
    unfold rvBound
    rw [if_pos hh]
    rw [visibleBehind_front hh.2] at hs ⊢
    exact h3 quad hq eps he he1 order ho hs
  · obtain ⟨g, h, hg⟩ := exists_velGreen hE s hy hP htot theta x y
    refine ⟨g, h, hg, fun quad hq eps he he1 order ho _ => ⟨_, surface_rv_unocculted eps quad hE order s hy hP htot r x y z theta ?_, ?_⟩⟩
    · by_contra hc
      rw [not_or] at hc
      exact hh ⟨not_le.1 hc.1, not_le.1 hc.2⟩
    · rw [mean_beside _ _ hr hh, sub_self, abs_zero]
      unfold rvBound
      rw [if_neg hh]

theorem rvError_mono {C C' eps : ℝ} (h : C ≤ C') (order : ℕ) (s : Surface) (r x y : ℝ) (g : List ℝ) :
    rvError C eps order s r x y g ≤ rvError C' eps order s r x y g := by
  have h1 := mul_le_mul_of_nonneg_right h (sqrt_nonneg eps)
  have h2 : C / √(order : ℝ) ≤ C' / √order := div_le_div_of_nonneg_right h (sqrt_nonneg _)
  unfold rvError
  linarith

theorem SeenAt.mono {C C' eps : ℝ} (h : C ≤ C') {order : ℕ} {s : Surface} {theta : Option ℝ} {r x y z : ℝ} {g : List ℝ}
    (hs : SeenAt C' eps order s theta r x y z g) : SeenAt C eps order s theta r x y z g :=
  fun hh => (rvError_mono h order s r x y g).trans_lt (hs hh)

theorem lowSum_nonneg {order : ℕ} {b r : ℝ} (hb : 0 ≤ b) (hr : 0 ≤ r) (L : ℕ) (g : List ℝ) : 0 ≤ lowSum order b r L g :=
  Finset.sum_nonneg fun _ _ => Finset.sum_nonneg fun _ _ => mul_nonneg (abs_nonneg _) (lowLoss_nonneg _ hb hr (kappa_bounds hb hr).1 _ _)

theorem rvError_nonneg {C eps : ℝ} (hC : 0 ≤ C) (order : ℕ) (s : Surface) {r : ℝ} (hr : 0 ≤ r) (x y : ℝ) (g : List ℝ) :
    0 ≤ rvError C eps order s r x y g := by
  have := lowSum_nonneg (order := order) (sqrt_nonneg (x ^ 2 + y ^ 2)) hr (s.deg + 1) g
  unfold rvError
  positivity

theorem rvBound_nonneg {C eps : ℝ} (hC : 0 ≤ C) (order : ℕ) (s : Surface) (P : ℝ) (theta : Option ℝ) {r : ℝ} (hr : 0 ≤ r) (x y z : ℝ)
    (g h : List ℝ) (hs : SeenAt C eps order s theta r x y z g) : 0 ≤ rvBound C eps order s P theta r x y z g h := by
  unfold rvBound
  split_ifs with hh
  · have h1 := rvError_nonneg (eps := eps) hC order s hr x y g
    have h2 := rvError_nonneg (eps := eps) hC order s hr x y h
    have h3 := hs hh
    refine mul_nonneg (abs_nonneg _) (div_nonneg ?_ (by linarith))
    positivity
  · exact le_rfl

theorem rvBound_mono {C C' eps : ℝ} (hC : 0 ≤ C) (hCC : C ≤ C') (order : ℕ) (s : Surface) (P : ℝ) (theta : Option ℝ) {r : ℝ} (hr : 0 ≤ r)
    (x y z : ℝ) (g h : List ℝ) (hs : SeenAt C' eps order s theta r x y z g) :
    rvBound C eps order s P theta r x y z g h ≤ rvBound C' eps order s P theta r x y z g h := by
  unfold rvBound
  split_ifs with hh
  · have h1 := rvError_nonneg (eps := eps) hC order s hr x y g
    have h2 := rvError_nonneg (eps := eps) hC order s hr x y h
    have h3 := hs hh
    have m1 := rvError_mono (eps := eps) hCC order s r x y g
    have m2 := rvError_mono (eps := eps) hCC order s r x y h
    refine mul_le_mul_of_nonneg_left (div_le_div₀ ?_ ?_ (by linarith) (by linarith)) (abs_nonneg _)
    · have : 0 ≤ rvError C' eps order s r x y g := h1.trans m1
      have : 0 ≤ rvError C' eps order s r x y h := h2.trans m2
      positivity
    · exact add_le_add m2 (mul_le_mul_of_nonneg_left m1 (abs_nonneg _))
  · exact le_rfl

/-- C113 (c): **one order for all times.** For a system with surfaces there is one constant such that at all times, at all orders and machine epsilons
at which the visible fluxes exceed the bounds on their errors, every row of the radial velocities is found up to these bounds: the central's row is its
amplitude times the mean velocity of its disc plus the anomalies of all bodies in front of it, plus the radial velocity of the first body's orbit. -/
theorem system_rv_rate {asEuler : Spec.V3 → Spec.V3} (hE : IsEulerZYZ asEuler) (kep : ℝ → ℝ → ℝ × ℝ) (au : ℝ) (sys : SurfaceSystem)
    (hp : sys.bodies.length = sys.body_surfaces.length) {cs : Surface} (hcs : sys.central_surface = some cs)
    (hy : ValidMap cs.y) (htot : totalFlux cs.u ≠ 0) {P : ℝ} (hP : cs.period = some P)
    {Pb : ℕ → ℝ} (hys : ∀ i (h : i < sys.body_surfaces.length) s, sys.body_surfaces[i] = some s →
      ValidMap s.y ∧ totalFlux s.u ≠ 0 ∧ s.period = some (Pb i))
    {b : Keplerian.OrbitalBody} {rest : List Keplerian.OrbitalBody} (hb : sys.bodies = b :: rest)
    {r : ℕ → ℝ} (hr : ∀ i (h : i < sys.bodies.length), sys.bodies[i].radius = some (r i * sys.central.radius)) (hr0 : ∀ i, 0 < r i)
    (hR : 0 < sys.central.radius) {x y z : ℝ → ℕ → ℝ}
    (hpos : ∀ t i (h : i < sys.bodies.length), sys.bodies[i].relative_position kep au t =
      ⟨x t i * sys.central.radius, y t i * sys.central.radius, z t i * sys.central.radius⟩) :
    ∃ C : ℝ, 0 ≤ C ∧ ∀ t, (∀ i < sys.bodies.length, ¬ (x t i = 0 ∧ y t i = 0 ∧ r i = 1)) →
    let mean := meanVelocity (skyOf cs (cs.rotationalPhase t)) (velocityOf cs P)
    ∃ gc hc gb hb : ℕ → List ℝ,
      (∀ i < sys.bodies.length, IsVelGreenOf cs P (cs.rotationalPhase t) (x t i) (y t i) (gc i) (hc i)) ∧
      (∀ i (h : i < sys.body_surfaces.length) s, sys.body_surfaces[i] = some s →
        IsVelGreenOf s (Pb i) (s.rotationalPhase t) (-x t i / r i) (-y t i / r i) (gb i) (hb i)) ∧
      ∀ (quad : ℕ → List (ℝ × ℝ)), (∀ n, IsGaussLegendre n (quad n)) → ∀ eps, 0 < eps → eps ≤ 1 → ∀ order : ℕ, 0 < order →
      (∀ i < sys.bodies.length, SeenAt C eps order cs (cs.rotationalPhase t) (r i) (x t i) (y t i) (z t i) (gc i)) →
      (∀ i (h : i < sys.body_surfaces.length) s, sys.body_surfaces[i] = some s →
         SeenAt C eps order s (s.rotationalPhase t) (1 / r i) (-x t i / r i) (-y t i / r i) (-z t i / r i) (gb i)) →
      ∃ (row : ℝ) (rows : List ℝ),
        radialVelocity eps quad asEuler order kep au sys t = .ok (row :: rows) ∧ rows.length = sys.bodies.length ∧
        |row - (cs.amplitude * (mean stellarDisc +
            ∑ i ∈ Finset.range sys.bodies.length, (mean (visibleBehind (r i) (x t i) (y t i) (z t i)) - mean stellarDisc)) +
            b.radial_velocity kep au t)| ≤
          ∑ i ∈ Finset.range sys.bodies.length, rvBound C eps order cs P (cs.rotationalPhase t) (r i) (x t i) (y t i) (z t i) (gc i) (hc i) ∧
        ∀ i (h : i < sys.body_surfaces.length), (sys.body_surfaces[i] = none → rows[i]? = some 0) ∧
          ∀ s, sys.body_surfaces[i] = some s → ∃ v, rows[i]? = some v ∧
            |v - s.amplitude * meanVelocity (skyOf s (s.rotationalPhase t)) (velocityOf s (Pb i))
                (visibleBehind (1 / r i) (-x t i / r i) (-y t i / r i) (-z t i / r i))| ≤
              rvBound C eps order s (Pb i) (s.rotationalPhase t) (1 / r i) (-x t i / r i) (-y t i / r i) (-z t i / r i) (gb i) (hb i) := by
  classical
  set n := sys.bodies.length with hn
  obtain ⟨C0, hC0, h0⟩ := rv_rate hE cs hy hP htot (ρ := ∑ i ∈ Finset.range n, r i) (Finset.sum_nonneg fun i _ => (hr0 i).le)
  have hrρ : ∀ i < n, r i ≤ ∑ i ∈ Finset.range n, r i := fun i hi =>
    Finset.single_le_sum (f := r) (fun i _ => (hr0 i).le) (Finset.mem_range.2 hi)
  have hbody : ∀ i, ∃ C : ℝ, 0 ≤ C ∧ ∀ (h : i < sys.body_surfaces.length) s, sys.body_surfaces[i] = some s →
      ∀ (r' x y z : ℝ) (theta : Option ℝ), 0 ≤ r' → r' ≤ 1 / r i → ¬ (x = 0 ∧ y = 0 ∧ r' = 1) → ∃ g h : List ℝ, IsVelGreenOf s (Pb i) theta x y g h ∧
      ∀ (quad : ℕ → List (ℝ × ℝ)), (∀ n, IsGaussLegendre n (quad n)) → ∀ eps, 0 < eps → eps ≤ 1 → ∀ order : ℕ, 0 < order →
        SeenAt C eps order s theta r' x y z g →
        ∃ f, surfaceRadialVelocity eps quad asEuler order s (some r') (some x) (some y) (some z) theta = .ok f ∧
          |f - s.amplitude * meanVelocity (skyOf s theta) (velocityOf s (Pb i)) (visibleBehind r' x y z)| ≤
            rvBound C eps order s (Pb i) theta r' x y z g h := by
    intro i
    by_cases hi : i < sys.body_surfaces.length
    · cases hs : sys.body_surfaces[i] with
      | none => exact ⟨0, le_rfl, fun _ s h => by rw [hs] at h; simp at h⟩
      | some s =>
        obtain ⟨v1, v2, v3⟩ := hys i hi s hs
        obtain ⟨C, hC, h⟩ := rv_rate hE s v1 v3 v2 (ρ := 1 / r i) (one_div_pos.2 (hr0 i)).le
        refine ⟨C, hC, fun _ s' h' => ?_⟩
        obtain rfl := Option.some.inj (hs.symm.trans h')
        exact h
    · exact ⟨0, le_rfl, fun h => absurd h hi⟩
  choose Cb hCb hbd using hbody
  have hCs : 0 ≤ ∑ i ∈ Finset.range n, Cb i := Finset.sum_nonneg fun i _ => hCb i
  set C := C0 + ∑ i ∈ Finset.range n, Cb i with hCdef
  have hC : 0 ≤ C := by positivity
  have hC0C : C0 ≤ C := by linarith
  have hCbC : ∀ i < n, Cb i ≤ C := fun i hi => by
    have := Finset.single_le_sum (f := Cb) (fun i _ => hCb i) (Finset.mem_range.2 hi)
    linarith
  refine ⟨C, hC, fun t hne => ?_⟩
  intro mean
  have hcc : ∀ i, ∃ g h, i < n → IsVelGreenOf cs P (cs.rotationalPhase t) (x t i) (y t i) g h ∧
      ∀ (quad : ℕ → List (ℝ × ℝ)), (∀ n, IsGaussLegendre n (quad n)) → ∀ eps, 0 < eps → eps ≤ 1 → ∀ order : ℕ, 0 < order →
        SeenAt C eps order cs (cs.rotationalPhase t) (r i) (x t i) (y t i) (z t i) g →
        ∃ f, surfaceRadialVelocity eps quad asEuler order cs (some (r i)) (some (x t i)) (some (y t i)) (some (z t i)) (cs.rotationalPhase t) = .ok f ∧
          |f - cs.amplitude * mean (visibleBehind (r i) (x t i) (y t i) (z t i))| ≤
            rvBound C eps order cs P (cs.rotationalPhase t) (r i) (x t i) (y t i) (z t i) g h := by
    intro i
    by_cases hi : i < n
    · obtain ⟨g, h, h1, h2⟩ := h0 (r i) (x t i) (y t i) (z t i) (cs.rotationalPhase t) (hr0 i).le (hrρ i hi) (hne i hi)
      refine ⟨g, h, fun _ => ⟨h1, fun quad hq eps he he1 order ho hs => ?_⟩⟩
      obtain ⟨f, hf, hf'⟩ := h2 quad hq eps he he1 order ho (hs.mono hC0C)
      exact ⟨f, hf, hf'.trans (rvBound_mono hC0 hC0C order cs P _ (hr0 i).le _ _ _ _ _ hs)⟩
    · exact ⟨[], [], fun h => absurd h hi⟩
  choose gc hc hgc using hcc
  have hbb : ∀ i, ∃ g h', ∀ (h : i < sys.body_surfaces.length) s, sys.body_surfaces[i] = some s →
      IsVelGreenOf s (Pb i) (s.rotationalPhase t) (-x t i / r i) (-y t i / r i) g h' ∧
      ∀ (quad : ℕ → List (ℝ × ℝ)), (∀ n, IsGaussLegendre n (quad n)) → ∀ eps, 0 < eps → eps ≤ 1 → ∀ order : ℕ, 0 < order →
      SeenAt C eps order s (s.rotationalPhase t) (1 / r i) (-x t i / r i) (-y t i / r i) (-z t i / r i) g → ∃ f,
      surfaceRadialVelocity eps quad asEuler order s (some (1 / r i)) (some (-x t i / r i)) (some (-y t i / r i)) (some (-z t i / r i))
        (s.rotationalPhase t) = .ok f ∧
      |f - s.amplitude * meanVelocity (skyOf s (s.rotationalPhase t)) (velocityOf s (Pb i))
          (visibleBehind (1 / r i) (-x t i / r i) (-y t i / r i) (-z t i / r i))| ≤
        rvBound C eps order s (Pb i) (s.rotationalPhase t) (1 / r i) (-x t i / r i) (-y t i / r i) (-z t i / r i) g h' := by
    intro i
    by_cases hi : i < sys.body_surfaces.length
    · cases hs : sys.body_surfaces[i] with
      | none => exact ⟨[], [], fun _ s h => by rw [hs] at h; simp at h⟩
      | some s =>
        have hne' : ¬ (-x t i / r i = 0 ∧ -y t i / r i = 0 ∧ 1 / r i = 1) := by
          rintro ⟨a1, a2, a3⟩
          have hri := (hr0 i).ne'
          refine hne i (by omega) ⟨?_, ?_, ?_⟩
          · simpa [hri] using a1
          · simpa [hri] using a2
          · field_simp at a3; exact a3.symm
        obtain ⟨g, h, h1, h2⟩ := hbd i hi s hs (1 / r i) (-x t i / r i) (-y t i / r i) (-z t i / r i) (s.rotationalPhase t)
          (one_div_pos.2 (hr0 i)).le le_rfl hne'
        refine ⟨g, h, fun _ s' h' => ?_⟩
        obtain rfl := Option.some.inj (hs.symm.trans h')
        refine ⟨h1, fun quad hq eps he he1 order ho hs => ?_⟩
        obtain ⟨f, hf, hf'⟩ := h2 quad hq eps he he1 order ho (hs.mono (hCbC i (by omega)))
        exact ⟨f, hf, hf'.trans (rvBound_mono (hCb i) (hCbC i (by omega)) order s _ _ (one_div_pos.2 (hr0 i)).le _ _ _ _ _ hs)⟩
    · exact ⟨[], [], fun h => absurd h hi⟩
  choose gb hb' hgb using hbb
  refine ⟨gc, hc, gb, hb', fun i hi => (hgc i hi).1, fun i hi s hs => (hgb i hi s hs).1,
    fun quad hq eps he he1 order ho hseen hseen' => ?_⟩
  have h1 : ∀ i < n, ∃ f, surfaceRadialVelocity eps quad asEuler order cs (some (r i)) (some (x t i)) (some (y t i)) (some (z t i))
      (cs.rotationalPhase t) = .ok f ∧ |f - cs.amplitude * mean (visibleBehind (r i) (x t i) (y t i) (z t i))| ≤
        rvBound C eps order cs P (cs.rotationalPhase t) (r i) (x t i) (y t i) (z t i) (gc i) (hc i) :=
    fun i hi => (hgc i hi).2 quad hq eps he he1 order ho (hseen i hi)
  have h2 : ∀ i < n, ∃ f, ∀ (h : i < sys.body_surfaces.length),
      (sys.body_surfaces[i] = none → f = 0) ∧ ∀ s, sys.body_surfaces[i] = some s →
      surfaceRadialVelocity eps quad asEuler order s (some (1 / r i)) (some (-x t i / r i)) (some (-y t i / r i)) (some (-z t i / r i))
        (s.rotationalPhase t) = .ok f ∧
      |f - s.amplitude * meanVelocity (skyOf s (s.rotationalPhase t)) (velocityOf s (Pb i))
          (visibleBehind (1 / r i) (-x t i / r i) (-y t i / r i) (-z t i / r i))| ≤
        rvBound C eps order s (Pb i) (s.rotationalPhase t) (1 / r i) (-x t i / r i) (-y t i / r i) (-z t i / r i) (gb i) (hb' i) := by
    intro i hi
    have hi' : i < sys.body_surfaces.length := by omega
    cases hs : sys.body_surfaces[i] with
    | none => exact ⟨0, fun h => ⟨fun _ => rfl, fun s h' => by rw [hs] at h'; simp at h'⟩⟩
    | some s =>
      obtain ⟨f, hf⟩ := (hgb i hi' s hs).2 quad hq eps he he1 order ho (hseen' i hi' s hs)
      refine ⟨f, fun h => ⟨fun h' => by rw [hs] at h'; simp at h', fun s' h' => ?_⟩⟩
      obtain rfl := Option.some.inj (hs.symm.trans h')
      exact hf
  choose! f hf using h1
  choose! w hw using h2
  have hR' := hR.ne'
  have c0 : ∀ v : ℝ, v * sys.central.radius / sys.central.radius = v := fun v => by field_simp
  have c1 : ∀ i, sys.central.radius / (r i * sys.central.radius) = 1 / r i := fun i => by
    have := (hr0 i).ne'
    field_simp
  have c2 : ∀ i (v : ℝ), -(v * sys.central.radius) / (r i * sys.central.radius) = -v / r i := fun i v => by
    have := (hr0 i).ne'
    field_simp
  have hrows := system_observable_rows (surfaceRadialVelocity eps quad asEuler 20) (surfaceRadialVelocity eps quad asEuler order) kep au sys t
    hp hcs (rad := fun i => r i * sys.central.radius) hr
    (pos := fun i => ⟨x t i * sys.central.radius, y t i * sys.central.radius, z t i * sys.central.radius⟩) (hpos t) rfl
    (surface_rv_rotation eps quad hE 20 cs hy hP htot none none none (cs.rotationalPhase t))
    (f := f) (fun i hi => by simp only [c0]; exact (hf i (by omega)).1)
    (g := w) (fun i hi h => ((hw i (by omega) hi).1 h))
    (fun i hi s hs => by simp only [c1, c2]; exact ((hw i (by omega) hi).2 s hs).1)
  refine ⟨_, _, radial_velocity_rows eps quad asEuler order kep au sys t hb hrows, by simp [hn], ?_, fun i hi => ⟨fun h => ?_, fun s hs => ?_⟩⟩
  · have e : ∀ A B : ℝ, A + (∑ i ∈ Finset.range n, (f i - A)) + b.radial_velocity kep au t - (B + b.radial_velocity kep au t) =
        A + (∑ i ∈ Finset.range n, (f i - A)) - B := fun A B => by ring
    rw [← hn, e]
    have e2 : cs.amplitude * mean stellarDisc + (∑ i ∈ Finset.range n, (f i - cs.amplitude * mean stellarDisc)) -
        cs.amplitude * (mean stellarDisc + ∑ i ∈ Finset.range n, (mean (visibleBehind (r i) (x t i) (y t i) (z t i)) - mean stellarDisc)) =
        ∑ i ∈ Finset.range n, (f i - cs.amplitude * mean (visibleBehind (r i) (x t i) (y t i) (z t i))) := by
      rw [mul_add, Finset.mul_sum, add_sub_add_left_eq_sub, ← Finset.sum_sub_distrib]
      exact Finset.sum_congr rfl fun i _ => by ring
    rw [e2]
    exact (Finset.abs_sum_le_sum_abs _ _).trans (Finset.sum_le_sum fun i hi => (hf i (Finset.mem_range.1 hi)).2)
  · have hi' : i < sys.bodies.length := by omega
    simp [hi', (hw i (by omega) hi).1 h]
  · have hi' : i < sys.bodies.length := by omega
    exact ⟨w i, by simp [hi'], ((hw i (by omega) hi).2 s hs).2⟩

/-- the condition of C89 implies the condition of C113 at large orders and small machine epsilons -/
theorem seenAt_eventually {C : ℝ} (hC : 0 ≤ C) {eps₀ : ℝ} (he0 : 0 < eps₀) {s : Surface} {theta : Option ℝ} {r x y z : ℝ} (hr : 0 ≤ r) {g : List ℝ}
    (h : Seen eps₀ s theta r x y z g) : ∃ δ > 0, ∀ (eps : ℝ) (order : ℕ), 20 ≤ order → 1 / √order ≤ δ → √eps ≤ δ → SeenAt C eps order s theta r x y z g := by
  by_cases hh : Hides r x y z
  · set G := |∫ p in visibleBehind r x y z, skyOf s theta p| - π * edgeSum eps₀ √(x ^ 2 + y ^ 2) r (s.deg + 1) g with hG
    have hG0 : 0 < G := sub_pos.2 (h hh)
    refine ⟨G / (4 * (C + 1)), by positivity, fun eps order h20 h1 h2 _ => ?_⟩
    have hlow : lowSum order √(x ^ 2 + y ^ 2) r (s.deg + 1) g ≤ edgeSum eps₀ √(x ^ 2 + y ^ 2) r (s.deg + 1) g := by
      unfold lowSum edgeSum
      refine Finset.sum_le_sum fun l _ => Finset.sum_le_sum fun q _ => mul_le_mul_of_nonneg_left ?_ (abs_nonneg _)
      have hk := (kappa_bounds (sqrt_nonneg (x ^ 2 + y ^ 2)) hr).1
      have hg := mul_nonneg (div_nonneg hk zero_le_two) (guardSize_nonneg he0 (sqrt_nonneg (x ^ 2 + y ^ 2)) hr l q)
      rw [min_eq_right h20]
      unfold edgeLoss
      linarith
    have h3 := mul_le_mul_of_nonneg_left hlow pi_pos.le
    have h4 : C * (1 / √(order : ℝ)) ≤ G / 4 := by
      refine (mul_le_mul_of_nonneg_left h1 hC).trans ?_
      rw [mul_div_assoc', div_le_div_iff₀ (by positivity) (by norm_num)]
      nlinarith
    have h5 : C * √eps ≤ G / 4 := by
      refine (mul_le_mul_of_nonneg_left h2 hC).trans ?_
      rw [mul_div_assoc', div_le_div_iff₀ (by positivity) (by norm_num)]
      nlinarith
    unfold rvError
    rw [div_eq_mul_one_div C]
    linarith
  · exact ⟨1, one_pos, fun _ _ _ _ _ h' => absurd h' hh⟩

/-- the hypotheses of `system_rv_rate` are met: a planet of a tenth of the radius of a uniform star, in the middle of the transit -/
example {quad : ℕ → List (ℝ × ℝ)} (hq : ∀ n, IsGaussLegendre n (quad n)) {asEuler : Spec.V3 → Spec.V3} (hE : IsEulerZYZ asEuler)
    (kep : ℝ → ℝ → ℝ × ℝ) : ∃ (order : ℕ) (eps : ℝ) (row : ℝ) (rows : List ℝ), 0 < order ∧ 0 < eps ∧ eps ≤ 1 ∧
    radialVelocity eps quad asEuler order kep 1 ⟨⟨1, 1, 1⟩, some sunlike, [exampleBody], [none]⟩ 0.25 = .ok (row :: rows) ∧ rows.length = 1 := by
  obtain ⟨h1, h2, h3⟩ := sunlike_ok
  have hnone : ∀ i (h : i < ([none] : List (Option Surface)).length) s, ([none] : List (Option Surface))[i] = some s → False := by
    intro i hi s hs
    have : i = 0 := by simpa using hi
    subst this
    simp at hs
  obtain ⟨C, hC, h⟩ := system_rv_rate hE kep 1 ⟨⟨1, 1, 1⟩, some sunlike, [exampleBody], [none]⟩ rfl rfl h1 h2 (P := 27) rfl (Pb := fun _ => 1)
    (fun i hi s hs => (hnone i hi s hs).elim) (b := exampleBody) rfl
    (r := fun _ => 0.1) (by simp [exampleBody]) (by norm_num) (by simp) (x := fun t _ => (exampleBody.relative_position kep 1 t).x)
    (y := fun t _ => (exampleBody.relative_position kep 1 t).y) (z := fun t _ => (exampleBody.relative_position kep 1 t).z) (by simp)
  obtain ⟨gc, hc, gb, hb, hg, -, h⟩ := h 0.25 (fun i _ => by norm_num)
  have hseen : Seen 1e-16 sunlike (sunlike.rotationalPhase 0.25) 0.1 (exampleBody.relative_position kep 1 0.25).x
      (exampleBody.relative_position kep 1 0.25).y (exampleBody.relative_position kep 1 0.25).z (gc 0) :=
    sunlike_seen (by simp [exampleBody_transit]; norm_num) _ _ (hg 0 (by simp))
  obtain ⟨δ, hδ, hs⟩ := seenAt_eventually hC (by norm_num) (by norm_num) hseen
  obtain ⟨N, hN⟩ := exists_nat_gt ((1 / δ) ^ 2)
  set order := max N 20 with ho
  have hoN : (N : ℝ) ≤ order := by exact_mod_cast le_max_left N 20
  have ho20 : 20 ≤ order := le_max_right N 20
  have hso : 1 / δ ≤ √(order : ℝ) := Real.le_sqrt_of_sq_le (hN.le.trans hoN)
  have h1o : 1 / √(order : ℝ) ≤ δ := by
    have hs0 : 0 < √(order : ℝ) := lt_of_lt_of_le (by positivity) hso
    rw [div_le_iff₀ hs0]
    rw [div_le_iff₀ hδ] at hso
    linarith
  have hse : √((min δ 1) ^ 2) ≤ δ := by
    rw [Real.sqrt_sq (le_min hδ.le zero_le_one)]
    exact min_le_left _ _
  have hm : 0 < min δ 1 := lt_min hδ one_pos
  obtain ⟨row, rows, a1, a2, -⟩ := h quad hq ((min δ 1) ^ 2) (by positivity) (pow_le_one₀ hm.le (min_le_right _ _)) order (by omega)
    (fun i hi => by
      have : i = 0 := by simpa using hi
      subst this
      exact hs _ _ ho20 h1o hse)
    (fun i hi s hs => (hnone i hi s hs).elim)
  exact ⟨order, (min δ 1) ^ 2, row, rows, by omega, by positivity, pow_le_one₀ hm.le (min_le_right _ _), a1, a2⟩

end Jaxoplanet.Starry
