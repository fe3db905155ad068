import Verif.Props.SurfaceSystem
import Verif.Props.SurfaceConverge
import Verif.Props.TransitAccuracy

/-!
# C88: the light curve of a system of stars and planets with surfaces converges with the order of the quadrature

`quad order` is any family of rules with the documented property of `scipy.special.roots_legendre(order)`
(`IsGaussLegendre`), see C84.
-/

namespace Jaxoplanet.Starry
open _root_.Jaxoplanet.Starry.Spec _root_.Jaxoplanet.Spec _root_.Jaxoplanet.Green _root_.Jaxoplanet.LimbDark _root_.Jaxoplanet.Gauss
open Real MeasureTheory Keplerian

/-- `g` are the coefficients, in the Green basis, of the brightness of the surface in the frame where an occultor at `(x, y)` is on
the `y` axis -/
def IsGreenOf (s : Surface) (theta : Option ℝ) (x y : ℝ) (g : List ℝ) : Prop :=
  g.length = (s.deg + 1) ^ 2 ∧ ∀ p ∈ stellarDisc, s.sky theta (rot2 (-(arctan2 x y)) p) =
    π * ∑ n ∈ Finset.range ((s.deg + 1) ^ 2), g.getD n 0 * polyVal (gtilde n) p.1 p.2 (mu p)

theorem exists_green {asEuler : Spec.V3 → Spec.V3} (hE : IsEulerZYZ asEuler) (s : Surface) (hy : ValidMap s.y) (theta : Option ℝ) (x y : ℝ) :
    ∃ g, IsGreenOf s theta x y g := by
  obtain ⟨c, hc, hv, -⟩ := projectFlux_spec hE s hy theta (arctan2 x y)
  obtain ⟨A2, -, hA2⟩ := A2_spec s.deg
  obtain ⟨g, hg, hgv, -⟩ := hA2 c hc
  exact ⟨g, hg, fun p hp => by rw [← hv p hp, hgv]⟩

/-- a surface and an occultor for which the code computes an occultation: the occultor is not concentric with exactly the radius of
the star, and a uniform surface has unit brightness and the occultor is not (nearly) its size while concentric -/
def Ordinary (eps : ℝ) (s : Surface) (r x y : ℝ) : Prop :=
  ¬ (x = 0 ∧ y = 0 ∧ r = 1) ∧
    (s.ydeg = 0 → s.amplitude * coef s.y 0 0 = 1 ∧ (¬ (x = 0 ∧ y = 0) ∨ r = 0 ∨ 1 ≤ r ∨ 20 * eps ≤ 1 - r ^ 2))

open Classical in
/-- what remains of the error at large orders: nothing without an occultation, the guards of the limb-darkened light curve (C84)
for a uniform surface, and the capped terms and guards (C85) otherwise -/
noncomputable def occultLoss (eps : ℝ) (s : Surface) (r x y z : ℝ) (g : List ℝ) : ℝ :=
  if 1 + r ≤ √(x ^ 2 + y ^ 2) ∨ z ≤ 0 then 0
  else if s.ydeg = 0 then LightCurve.guardTerm eps s.u √(x ^ 2 + y ^ 2) r
  else |s.amplitude * (π / totalFlux s.u)| * ∑ l ∈ Finset.range (s.deg + 1), ∑ q ∈ Finset.range (2 * l + 1),
    |g.getD (l ^ 2 + q) 0| * edgeLoss eps √(x ^ 2 + y ^ 2) r l q

/-- an occultor beside the star hides at most one point -/
theorem beside_null {r x y : ℝ} (hr : 0 ≤ r) (h : 1 + r ≤ √(x ^ 2 + y ^ 2)) : volume (stellarDisc ∩ occultorAt x y r) = 0 := by
  have hb1 : 1 ≤ √(x ^ 2 + y ^ 2) := by linarith
  have hb2 := sq_sqrt (show 0 ≤ x ^ 2 + y ^ 2 by positivity)
  set b := √(x ^ 2 + y ^ 2)
  have key : stellarDisc ∩ occultorAt x y r ⊆ {(x / b, y / b)} := by
    rintro ⟨u, v⟩ ⟨h1, h2⟩
    change u ^ 2 + v ^ 2 ≤ 1 at h1
    change (u - x) ^ 2 + (v - y) ^ 2 ≤ r ^ 2 at h2
    have hrb : r ^ 2 ≤ (b - 1) ^ 2 := by nlinarith
    have h3 : u ^ 2 + v ^ 2 + 2 * b - 1 ≤ 2 * (u * x + v * y) := by nlinarith
    have h4 : b * ((u - x / b) ^ 2 + (v - y / b) ^ 2) = b * (u ^ 2 + v ^ 2) - 2 * (u * x + v * y) + b := by
      have : b ≠ 0 := by linarith
      field_simp
      linear_combination -hb2
    have h5 : b * ((u - x / b) ^ 2 + (v - y / b) ^ 2) ≤ 0 := by
      rw [h4]; nlinarith
    have h6 : (u - x / b) ^ 2 + (v - y / b) ^ 2 ≤ 0 := by
      by_contra hc
      rw [not_le] at hc
      have := mul_pos (show 0 < b by linarith) hc
      linarith
    have e1 : u = x / b := by nlinarith [sq_nonneg (u - x / b), sq_nonneg (v - y / b)]
    have e2 : v = y / b := by nlinarith [sq_nonneg (u - x / b), sq_nonneg (v - y / b)]
    simp [e1, e2]
  exact measure_mono_null key (measure_singleton _)

theorem flux_beside (s : Surface) (theta : Option ℝ) {r x y z : ℝ} (hr : 0 ≤ r) (h : 1 + r ≤ √(x ^ 2 + y ^ 2) ∨ z ≤ 0) :
    fluxOf s theta (visibleBehind r x y z) = fluxOf s theta stellarDisc := by
  by_cases hz : z ≤ 0
  · rw [visibleBehind_back hz]
  · rw [visibleBehind_front (not_le.1 hz)]
    have h0 := beside_null hr (h.resolve_right hz)
    unfold fluxOf relativeFlux
    congr 1
    refine setIntegral_congr_set ?_
    rw [← Set.sdiff_self_inter]
    exact sdiff_null_ae_eq_self h0

theorem uniform_flux (s : Surface) (hdeg : s.ydeg = 0) (hA : s.amplitude * coef s.y 0 0 = 1) (htot : totalFlux s.u ≠ 0) (theta : Option ℝ)
    (x y r : ℝ) : s.amplitude * fluxOf s theta (stellarDisc \ occultorAt x y r) = 1 - blockedFlux s.u √(x ^ 2 + y ^ 2) r / totalFlux s.u := by
  have hmu := continuous_mu
  have hcont : Continuous fun p => profile s.u (mu p) := by unfold profile; fun_prop
  have hvis : ∫ p in stellarDisc \ occultorAt x y r, profile s.u (mu p) = totalFlux s.u - blockedFlux s.u √(x ^ 2 + y ^ 2) r := by
    have := integral_inter_add_sdiff (measurableSet_occultorAt x y r) (integrableOn_disc_cont hcont)
    rw [blockedFlux_at] at this
    unfold totalFlux
    linarith
  unfold fluxOf relativeFlux
  simp only [skyIntensity_uniform s.y hdeg]
  rw [MeasureTheory.integral_const_mul, hvis]
  field_simp
  linear_combination (totalFlux s.u - blockedFlux s.u √(x ^ 2 + y ^ 2) r) * hA

/-- C88: the light curve of one surface, whatever its map, with an occultor of any size at any position -/
theorem occultation_converges {quad : ℕ → List (ℝ × ℝ)} (hq : ∀ n, IsGaussLegendre n (quad n)) {eps : ℝ} (he : 0 < eps)
    {asEuler : Spec.V3 → Spec.V3} (hE : IsEulerZYZ asEuler) (s : Surface) (hy : ValidMap s.y) (htot : totalFlux s.u ≠ 0)
    {r x y : ℝ} (z : ℝ) (theta : Option ℝ) (hr : 0 ≤ r) (hord : Ordinary eps s r x y) :
    ∃ g, IsGreenOf s theta x y g ∧ ∀ δ > 0, ∃ N, ∀ order ≥ N, ∃ f,
      surfaceLightCurve eps quad asEuler order s (some r) (some x) (some y) (some z) theta = .ok f ∧
      |f - s.amplitude * fluxOf s theta (visibleBehind r x y z)| ≤ occultLoss eps s r x y z g + δ := by
  obtain ⟨hne, huni⟩ := hord
  by_cases hout : 1 + r ≤ √(x ^ 2 + y ^ 2) ∨ z ≤ 0
  · obtain ⟨g, hg⟩ := exists_green hE s hy theta x y
    refine ⟨g, hg, fun δ hδ => ⟨0, fun order _ => ?_⟩⟩
    unfold occultLoss
    rw [if_pos hout, flux_beside s theta hr hout]
    by_cases hd : s.ydeg = 0
    · refine ⟨_, surface_light_curve_uniform eps quad asEuler order s hd r x y z theta, ?_⟩
      rw [if_pos hout]
      have h1 : s.amplitude * fluxOf s theta stellarDisc = 1 := by
        have h2 := uniform_flux s hd (huni hd).1 htot theta 2 0 0
        have h3 := flux_beside s theta (r := 0) (x := 2) (y := 0) (z := 1) le_rfl (Or.inl (by norm_num))
        rw [visibleBehind_front one_pos] at h3
        rw [h3, LightCurve.blockedFlux_outside s.u le_rfl (by norm_num)] at h2
        simpa using h2
      rw [h1, sub_self, abs_zero]
      linarith
    · refine ⟨_, surface_light_curve_unocculted eps quad hE order s hy hd htot r x y z theta hout, ?_⟩
      rw [sub_self, abs_zero]
      linarith
  · have hz : 0 < z := by
      by_contra h
      exact hout (Or.inr (not_lt.1 h))
    have hb : √(x ^ 2 + y ^ 2) < 1 + r := by
      by_contra h
      exact hout (Or.inl (not_lt.1 h))
    rw [visibleBehind_front hz]
    by_cases hd : s.ydeg = 0
    · obtain ⟨hA, hsz⟩ := huni hd
      obtain ⟨g, hg⟩ := exists_green hE s hy theta x y
      refine ⟨g, hg, fun δ hδ => ?_⟩
      have hb0 : 0 ≤ √(x ^ 2 + y ^ 2) := sqrt_nonneg _
      have hbz : √(x ^ 2 + y ^ 2) = 0 → x = 0 ∧ y = 0 := by
        intro h1
        have h3 : x ^ 2 + y ^ 2 ≤ 0 := Real.sqrt_eq_zero'.1 h1
        exact ⟨by nlinarith [sq_nonneg x, sq_nonneg y], by nlinarith [sq_nonneg x, sq_nonneg y]⟩
      have key : ∃ N, ∀ order ≥ N, |LimbDark.lightCurve eps (quad order) s.u √(x ^ 2 + y ^ 2) r -
          -blockedFlux s.u √(x ^ 2 + y ^ 2) r / totalFlux s.u| ≤ LightCurve.guardTerm eps s.u √(x ^ 2 + y ^ 2) r + δ := by
        by_cases hu : s.u = []
        · refine ⟨0, fun order _ => ?_⟩
          rw [hu]
          have h1 : totalFlux [] = π := by
            have := whole_star 0
            simpa [totalFlux, profile, gtil] using this
          rw [uniform_light_curve, h1]
          have h2 : blockedFlux [] √(x ^ 2 + y ^ 2) r = (volume (stellarDisc ∩ occultor √(x ^ 2 + y ^ 2) r)).toReal := by
            simp [blockedFlux, profile, Measure.real]
          rw [h2, sub_self, abs_zero]
          have := LightCurve.guardTerm_nonneg he.le [] hb0 hr
          linarith
        · have := light_curve_converges hq hu htot √(x ^ 2 + y ^ 2) r (eps := eps) (by
            rw [abs_of_nonneg hb0, abs_of_nonneg hr]
            rintro ⟨h1, h2⟩
            obtain ⟨h3, h4⟩ := hbz h1
            exact hne ⟨h3, h4, h2⟩) he (by
            rw [abs_of_nonneg hr]
            rcases hsz with h | h
            · exact Or.inl fun h1 => h (hbz h1)
            · exact Or.inr h) hδ
          rwa [abs_of_nonneg hb0, abs_of_nonneg hr] at this
      obtain ⟨N, hN⟩ := key
      refine ⟨N, fun order ho => ⟨_, surface_light_curve_uniform eps quad asEuler order s hd r x y z theta, ?_⟩⟩
      have hN := hN order ho
      unfold occultLoss
      rw [if_neg hout, if_neg hout, if_pos hd, uniform_flux s hd hA htot]
      rw [neg_div] at hN
      rw [show ∀ a c : ℝ, 1 + a - (1 - c) = a - -c by intros; ring]
      exact hN
    · obtain ⟨g, hg, hgv, hN⟩ := surface_light_curve_converges hq he hE s hy hd theta hr hb hz hne
      refine ⟨g, ⟨hg, hgv⟩, ?_⟩
      unfold occultLoss
      rw [if_neg hout, if_neg hd]
      exact hN

open Filter in
/-- C88: **the light curve of a system.** At all orders from some order on, the central's row is its amplitude times the flux of the
part of its disc that the bodies in front of it leave visible, and the row of every body is its amplitude times the flux of the part of
its disc that the central leaves visible, up to the remaining errors of the single occultations. The positions
`(x i, y i, z i)` of the bodies and their radii `r i` are in units of the radius of the central. -/
theorem system_light_curve_converges {quad : ℕ → List (ℝ × ℝ)} (hq : ∀ n, IsGaussLegendre n (quad n)) {eps : ℝ} (he : 0 < eps)
    {asEuler : Spec.V3 → Spec.V3} (hE : IsEulerZYZ asEuler) (kep : ℝ → ℝ → ℝ × ℝ) (au : ℝ) (sys : SurfaceSystem) (t : ℝ)
    (hp : sys.bodies.length = sys.body_surfaces.length) {cs : Surface} (hcs : sys.central_surface = some cs)
    (hy : ValidMap cs.y) (htot : totalFlux cs.u ≠ 0)
    (hys : ∀ s, some s ∈ sys.body_surfaces → ValidMap s.y ∧ totalFlux s.u ≠ 0)
    {r x y z : ℕ → ℝ} (hr : ∀ i (h : i < sys.bodies.length), sys.bodies[i].radius = some (r i * sys.central.radius)) (hr0 : ∀ i, 0 < r i)
    (hpos : ∀ i (h : i < sys.bodies.length), sys.bodies[i].relative_position kep au t =
      ⟨x i * sys.central.radius, y i * sys.central.radius, z i * sys.central.radius⟩) (hR : 0 < sys.central.radius)
    (hno : NoMutualOverlap sys.bodies.length r x y z)
    (hord : ∀ i < sys.bodies.length, Ordinary eps cs (r i) (x i) (y i))
    (hord' : ∀ i (h : i < sys.body_surfaces.length) s, sys.body_surfaces[i] = some s →
      Ordinary eps s (1 / r i) (-x i / r i) (-y i / r i)) :
    ∃ gc gb : ℕ → List ℝ, (∀ i < sys.bodies.length, IsGreenOf cs (cs.rotationalPhase t) (x i) (y i) (gc i)) ∧
      (∀ i (h : i < sys.body_surfaces.length) s, sys.body_surfaces[i] = some s →
        IsGreenOf s (s.rotationalPhase t) (-x i / r i) (-y i / r i) (gb i)) ∧
      ∀ δ > 0, ∃ N, ∀ order ≥ N, ∃ (row : ℝ) (rows : List ℝ),
        systemLightCurve eps quad asEuler order kep au sys t = .ok (some (row :: rows)) ∧ rows.length = sys.bodies.length ∧
        |row - cs.amplitude * fluxOf cs (cs.rotationalPhase t) (visiblePart sys.bodies.length r x y z)| ≤
          ∑ i ∈ Finset.range sys.bodies.length, occultLoss eps cs (r i) (x i) (y i) (z i) (gc i) + δ ∧
        ∀ i (h : i < sys.body_surfaces.length), (sys.body_surfaces[i] = none → rows[i]? = some 0) ∧
          ∀ s, sys.body_surfaces[i] = some s → ∃ v, rows[i]? = some v ∧
            |v - s.amplitude * fluxOf s (s.rotationalPhase t) (visibleBehind (1 / r i) (-x i / r i) (-y i / r i) (-z i / r i))| ≤
              occultLoss eps s (1 / r i) (-x i / r i) (-y i / r i) (-z i / r i) (gb i) + δ := by
  classical
  have hc : ∀ i, ∃ g, i < sys.bodies.length → IsGreenOf cs (cs.rotationalPhase t) (x i) (y i) g ∧ ∀ δ > 0, ∀ᶠ order in atTop, ∃ f,
      surfaceLightCurve eps quad asEuler order cs (some (r i)) (some (x i)) (some (y i)) (some (z i)) (cs.rotationalPhase t) = .ok f ∧
      |f - cs.amplitude * fluxOf cs (cs.rotationalPhase t) (visibleBehind (r i) (x i) (y i) (z i))| ≤
        occultLoss eps cs (r i) (x i) (y i) (z i) g + δ := by
    intro i
    by_cases hi : i < sys.bodies.length
    · obtain ⟨g, h1, h2⟩ := occultation_converges hq he hE cs hy htot (z i) (cs.rotationalPhase t) (hr0 i).le (hord i hi)
      exact ⟨g, fun _ => ⟨h1, fun δ hδ => eventually_atTop.2 (h2 δ hδ)⟩⟩
    · exact ⟨[], fun h => absurd h hi⟩
  choose gc hgc using hc
  have hb : ∀ i, ∃ g, ∀ (h : i < sys.body_surfaces.length) s, sys.body_surfaces[i] = some s →
      IsGreenOf s (s.rotationalPhase t) (-x i / r i) (-y i / r i) g ∧ ∀ δ > 0, ∀ᶠ order in atTop, ∃ f,
      surfaceLightCurve eps quad asEuler order s (some (1 / r i)) (some (-x i / r i)) (some (-y i / r i)) (some (-z i / r i))
        (s.rotationalPhase t) = .ok f ∧
      |f - s.amplitude * fluxOf s (s.rotationalPhase t) (visibleBehind (1 / r i) (-x i / r i) (-y i / r i) (-z i / r i))| ≤
        occultLoss eps s (1 / r i) (-x i / r i) (-y i / r i) (-z i / r i) g + δ := by
    intro i
    by_cases hi : i < sys.body_surfaces.length
    · cases hs : sys.body_surfaces[i] with
      | none => exact ⟨[], fun _ s h => by rw [hs] at h; simp at h⟩
      | some s =>
        have hv := hys s (hs ▸ List.getElem_mem hi)
        obtain ⟨g, h1, h2⟩ := occultation_converges hq he hE s hv.1 hv.2 (-z i / r i) (s.rotationalPhase t)
          (one_div_pos.2 (hr0 i)).le (hord' i hi s hs)
        refine ⟨g, fun _ s' h => ?_⟩
        obtain rfl := Option.some.inj (hs.symm.trans h)
        exact ⟨h1, fun δ hδ => eventually_atTop.2 (h2 δ hδ)⟩
    · exact ⟨[], fun h => absurd h hi⟩
  choose gb hgb using hb
  refine ⟨gc, gb, fun i hi => (hgc i hi).1, fun i hi s hs => (hgb i hi s hs).1, fun δ hδ => ?_⟩
  have hd : 0 < δ / (sys.bodies.length + 1) := by positivity
  have hev1 : ∀ᶠ order in atTop, ∀ i ∈ Finset.range sys.bodies.length, ∃ f,
      surfaceLightCurve eps quad asEuler order cs (some (r i)) (some (x i)) (some (y i)) (some (z i)) (cs.rotationalPhase t) = .ok f ∧
      |f - cs.amplitude * fluxOf cs (cs.rotationalPhase t) (visibleBehind (r i) (x i) (y i) (z i))| ≤
        occultLoss eps cs (r i) (x i) (y i) (z i) (gc i) + δ / (sys.bodies.length + 1) :=
    (Finset.eventually_all _).2 fun i hi => (hgc i (Finset.mem_range.1 hi)).2 _ hd
  have hev2 : ∀ᶠ order in atTop, ∀ i ∈ Finset.range sys.body_surfaces.length, ∀ (h : i < sys.body_surfaces.length) s,
      sys.body_surfaces[i] = some s → ∃ f,
      surfaceLightCurve eps quad asEuler order s (some (1 / r i)) (some (-x i / r i)) (some (-y i / r i)) (some (-z i / r i))
        (s.rotationalPhase t) = .ok f ∧
      |f - s.amplitude * fluxOf s (s.rotationalPhase t) (visibleBehind (1 / r i) (-x i / r i) (-y i / r i) (-z i / r i))| ≤
        occultLoss eps s (1 / r i) (-x i / r i) (-y i / r i) (-z i / r i) (gb i) + δ := by
    refine (Finset.eventually_all _).2 fun i hi => ?_
    have hi' := Finset.mem_range.1 hi
    cases hs : sys.body_surfaces[i] with
    | none => exact Eventually.of_forall fun order h s h' => by rw [hs] at h'; simp at h'
    | some s =>
      filter_upwards [(hgb i hi' s hs).2 δ hδ] with order ho h s' h'
      obtain rfl := Option.some.inj (hs.symm.trans h')
      exact ho
  obtain ⟨N, hN⟩ := eventually_atTop.1 (hev1.and hev2)
  refine ⟨N, fun order ho => ?_⟩
  obtain ⟨h1, h2⟩ := hN order ho
  obtain ⟨f, row, rows, e1, e2, e3⟩ := system_light_curve_central eps quad hE order kep au sys t hp hcs hy (fun s hs => (hys s hs).1) htot
    hr hpos hR.ne' hno
  obtain ⟨row', rows', e1', e2', e3'⟩ := system_light_curve_bodies eps he quad hE order kep au sys t hp hcs hy (fun s hs => (hys s hs).1)
    (rad := fun i => r i * sys.central.radius) hr (fun i => mul_pos (hr0 i) hR)
    (pos := fun i => ⟨x i * sys.central.radius, y i * sys.central.radius, z i * sys.central.radius⟩) hpos
  have hrr : row' :: rows' = row :: rows := by
    rw [e1] at e1'
    exact (Option.some.inj (Except.ok.inj e1')).symm
  obtain ⟨rfl, rfl⟩ := List.cons.inj hrr
  refine ⟨row', rows', e1, e2', ?_, fun i hi => ⟨(e3' i hi).1, fun s hs => ?_⟩⟩
  · rw [e3]
    refine (Finset.abs_sum_le_sum_abs _ _).trans ?_
    have : ∀ i ∈ Finset.range sys.bodies.length,
        |f i - cs.amplitude * fluxOf cs (cs.rotationalPhase t) (visibleBehind (r i) (x i) (y i) (z i))| ≤
        occultLoss eps cs (r i) (x i) (y i) (z i) (gc i) + δ / (sys.bodies.length + 1) := by
      intro i hi
      obtain ⟨f', a1, a2⟩ := h1 i hi
      rw [e2 i (Finset.mem_range.1 hi)] at a1
      rwa [Except.ok.inj a1]
    refine (Finset.sum_le_sum this).trans ?_
    rw [Finset.sum_add_distrib, Finset.sum_const, Finset.card_range, nsmul_eq_mul]
    have : (sys.bodies.length : ℝ) * (δ / (sys.bodies.length + 1)) ≤ δ := by
      rw [mul_div_assoc', div_le_iff₀ (by positivity)]
      nlinarith [hδ.le]
    linarith
  · obtain ⟨v, a1, a2, -, -⟩ := (e3' i hi).2 s hs
    obtain ⟨f', b1, b2⟩ := h2 i (Finset.mem_range.2 hi) hi s hs
    have hR' := hR.ne'
    have hri := (hr0 i).ne'
    have c1 : sys.central.radius / (r i * sys.central.radius) = 1 / r i := by field_simp
    have c2 : ∀ w : ℝ, -(w * sys.central.radius) / (r i * sys.central.radius) = -w / r i := fun w => by field_simp
    simp only [c1, c2] at a2
    rw [a2] at b1
    refine ⟨v, a1, ?_⟩
    rw [Except.ok.inj b1]
    exact b2

/-- the hypotheses are met by a star with a dipole map and a planet that has a dipole map too, whatever the Kepler solver returns -/
example {quad : ℕ → List (ℝ × ℝ)} (hq : ∀ n, IsGaussLegendre n (quad n)) {asEuler : Spec.V3 → Spec.V3} (hE : IsEulerZYZ asEuler)
    (kep : ℝ → ℝ → ℝ × ℝ) (t : ℝ) : ∃ N, ∀ order ≥ N, ∃ row rows,
    systemLightCurve 1e-16 quad asEuler order kep 1 ⟨⟨1, 1, 1⟩, some dipole, [exampleBody], [some dipole]⟩ t =
      .ok (some (row :: rows)) ∧ rows.length = 1 := by
  have hd : dipole.ydeg ≠ 0 := dipole_ok.2.1
  obtain ⟨gc, gb, -, -, h⟩ := system_light_curve_converges hq (eps := 1e-16) (by norm_num) hE kep 1
    ⟨⟨1, 1, 1⟩, some dipole, [exampleBody], [some dipole]⟩ t rfl rfl dipole_ok.1 dipole_ok.2.2
    (by simp only [List.mem_singleton, Option.some.injEq, forall_eq]; exact ⟨dipole_ok.1, dipole_ok.2.2⟩)
    (r := fun _ => 0.1) (x := fun _ => (exampleBody.relative_position kep 1 t).x) (y := fun _ => (exampleBody.relative_position kep 1 t).y)
    (z := fun _ => (exampleBody.relative_position kep 1 t).z) (by simp [exampleBody]) (by norm_num) (by simp) (by simp)
    (by intro i hi j hj hij; simp at hi hj; omega)
    (fun i _ => ⟨by norm_num, fun h => absurd h hd⟩)
    (fun i hi s hs => by
      have : i = 0 := by simpa using hi
      subst this
      obtain rfl := Option.some.inj hs
      exact ⟨by norm_num, fun h => absurd h hd⟩)
  obtain ⟨N, hN⟩ := h 1 one_pos
  refine ⟨N, fun order ho => ?_⟩
  obtain ⟨row, rows, h1, h2, -⟩ := hN order ho
  exact ⟨row, rows, h1, h2⟩

end Jaxoplanet.Starry
