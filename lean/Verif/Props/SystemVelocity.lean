import Verif.Props.SystemConverge
import Verif.Props.DopplerConverge

/-!
# C89: the radial velocities of a system of stars and planets with surfaces converge with the order of the quadrature

`quad order` is any family of rules with the documented property of `scipy.special.roots_legendre(order)`
(`IsGaussLegendre`), see C84.
-/

namespace Jaxoplanet.Starry
open _root_.Jaxoplanet.Starry.Spec _root_.Jaxoplanet.Spec _root_.Jaxoplanet.Green _root_.Jaxoplanet.LimbDark _root_.Jaxoplanet.Gauss
open Real MeasureTheory Keplerian

/-- an occultor of radius `r` at `(x, y, z)` is in front of the disc and its edge is inside the disc -/
def Hides (r x y z : ℝ) : Prop := √(x ^ 2 + y ^ 2) < 1 + r ∧ 0 < z

/-- `g` and `h` are the coefficients, in the Green basis, of the brightness of the surface and of the velocity times the brightness,
in the frame where an occultor at `(x, y)` is on the `y` axis -/
def IsVelGreenOf (s : Surface) (P : ℝ) (theta : Option ℝ) (x y : ℝ) (g h : List ℝ) : Prop :=
  (∀ p ∈ stellarDisc, skyOf s theta (rot2 (-(arctan2 x y)) p) =
    π * ∑ n ∈ Finset.range ((s.deg + 1 + 1) ^ 2), g.getD n 0 * polyVal (gtilde n) p.1 p.2 (mu p)) ∧
  (∀ p ∈ stellarDisc, velocityOf s P (rot2 (-(arctan2 x y)) p) * skyOf s theta (rot2 (-(arctan2 x y)) p) =
    π * ∑ n ∈ Finset.range ((s.deg + 1 + 1) ^ 2), h.getD n 0 * polyVal (gtilde n) p.1 p.2 (mu p))

/-- the visible flux exceeds the remaining error of the flux, if anything is hidden -/
def Seen (eps : ℝ) (s : Surface) (theta : Option ℝ) (r x y z : ℝ) (g : List ℝ) : Prop :=
  Hides r x y z → π * edgeSum eps √(x ^ 2 + y ^ 2) r (s.deg + 1) g < |∫ p in visibleBehind r x y z, skyOf s theta p|

open Classical in
/-- what remains of the error of the radial velocity at large orders: nothing without an occultation, the bound of C87 otherwise -/
noncomputable def rvLoss (eps : ℝ) (s : Surface) (P : ℝ) (theta : Option ℝ) (r x y z : ℝ) (g h : List ℝ) : ℝ :=
  if Hides r x y z then
    |s.amplitude| * ((π * edgeSum eps √(x ^ 2 + y ^ 2) r (s.deg + 1) h +
      |meanVelocity (skyOf s theta) (velocityOf s P) (visibleBehind r x y z)| * (π * edgeSum eps √(x ^ 2 + y ^ 2) r (s.deg + 1) g)) /
        (|∫ p in visibleBehind r x y z, skyOf s theta p| - π * edgeSum eps √(x ^ 2 + y ^ 2) r (s.deg + 1) g))
  else 0

theorem exists_velGreen {asEuler : Spec.V3 → Spec.V3} (hE : IsEulerZYZ asEuler) (s : Surface) (hy : ValidMap s.y) {P : ℝ}
    (hP : s.period = some P) (htot : totalFlux s.u ≠ 0) (theta : Option ℝ) (x y : ℝ) : ∃ g h, IsVelGreenOf s P theta x y g h := by
  obtain ⟨c, cv, hc, hcv, hv, hvv, -⟩ := projectVelocity_spec hE s hy hP htot theta (arctan2 x y)
  obtain ⟨A2, -, hA2⟩ := A2_spec (s.deg + 1)
  obtain ⟨g, -, hgv, -⟩ := hA2 c hc
  obtain ⟨h, -, hhv, -⟩ := hA2 cv hcv
  exact ⟨g, h, fun p hp => by rw [← hv p hp, hgv], fun p hp => by rw [← hvv p hp, hhv]⟩

/-- the mean velocity is that of the whole disc if the occultor hides nothing -/
theorem mean_beside (I v : ℝ × ℝ → ℝ) {r x y z : ℝ} (hr : 0 ≤ r) (h : ¬ Hides r x y z) :
    meanVelocity I v (visibleBehind r x y z) = meanVelocity I v stellarDisc := by
  by_cases hz : z ≤ 0
  · rw [visibleBehind_back hz]
  · rw [visibleBehind_front (not_le.1 hz)]
    have h0 := beside_null hr (not_lt.1 fun h' => h ⟨h', not_le.1 hz⟩)
    have : (stellarDisc \ occultorAt x y r : Set (ℝ × ℝ)) =ᵐ[volume] stellarDisc := by
      rw [← Set.sdiff_self_inter]
      exact sdiff_null_ae_eq_self h0
    unfold meanVelocity
    rw [setIntegral_congr_set this, setIntegral_congr_set this]

/-- C87 at every position: the radial velocity of a surface with an occultor that may or may not hide a part of it -/
theorem rv_converges {quad : ℕ → List (ℝ × ℝ)} (hq : ∀ n, IsGaussLegendre n (quad n)) {eps : ℝ} (he : 0 < eps)
    {asEuler : Spec.V3 → Spec.V3} (hE : IsEulerZYZ asEuler) (s : Surface) (hy : ValidMap s.y) {P : ℝ} (hP : s.period = some P)
    (htot : totalFlux s.u ≠ 0) {r x y : ℝ} (z : ℝ) (theta : Option ℝ) (hr : 0 ≤ r) (hne : ¬ (x = 0 ∧ y = 0 ∧ r = 1)) :
    ∃ g h, IsVelGreenOf s P theta x y g h ∧ (Seen eps s theta r x y z g → ∀ δ > 0, ∃ N, ∀ order ≥ N, ∃ f,
      surfaceRadialVelocity eps quad asEuler order s (some r) (some x) (some y) (some z) theta = .ok f ∧
      |f - s.amplitude * meanVelocity (skyOf s theta) (velocityOf s P) (visibleBehind r x y z)| ≤
        rvLoss eps s P theta r x y z g h + δ) := by
  by_cases hh : Hides r x y z
  · obtain ⟨g, h, h1, h2, h3⟩ := surface_rv_converges hq he hE s hy hP htot theta hr hh.1 hh.2 hne
    refine ⟨g, h, ⟨h1, h2⟩, fun hs => ?_⟩
    have hs := hs hh
    unfold rvLoss
    rw [if_pos hh]
    rw [visibleBehind_front hh.2] at hs ⊢
    exact h3 hs
  · obtain ⟨g, h, hg⟩ := exists_velGreen hE s hy hP htot theta x y
    refine ⟨g, h, hg, fun _ δ hδ => ⟨0, fun order _ => ⟨_, surface_rv_unocculted eps quad hE order s hy hP htot r x y z theta ?_, ?_⟩⟩⟩
    · by_contra hc
      rw [not_or] at hc
      exact hh ⟨not_le.1 hc.1, not_le.1 hc.2⟩
    · rw [mean_beside _ _ hr hh, sub_self, abs_zero]
      unfold rvLoss
      rw [if_neg hh, zero_add]
      exact hδ.le

open Filter in
/-- C89: **the radial velocities of a system.** At all orders from some order on, the central's row is its amplitude times the mean
velocity of its whole disc, plus the sum over the bodies of what each occultation alone changes, plus the reflex velocity due to the first
body; the row of every body is its amplitude times the mean velocity of the part of its disc that the central leaves visible; all
up to the remaining errors of the single occultations. The positions `(x i, y i, z i)` of the bodies and their radii `r i` are in units of
the radius of the central. -/
theorem system_rv_converges {quad : ℕ → List (ℝ × ℝ)} (hq : ∀ n, IsGaussLegendre n (quad n)) {eps : ℝ} (he : 0 < eps)
    {asEuler : Spec.V3 → Spec.V3} (hE : IsEulerZYZ asEuler) (kep : ℝ → ℝ → ℝ × ℝ) (au : ℝ) (sys : SurfaceSystem) (t : ℝ)
    (hp : sys.bodies.length = sys.body_surfaces.length) {cs : Surface} (hcs : sys.central_surface = some cs)
    (hy : ValidMap cs.y) (htot : totalFlux cs.u ≠ 0) {P : ℝ} (hP : cs.period = some P)
    {Pb : ℕ → ℝ} (hys : ∀ i (h : i < sys.body_surfaces.length) s, sys.body_surfaces[i] = some s →
      ValidMap s.y ∧ totalFlux s.u ≠ 0 ∧ s.period = some (Pb i))
    {b : OrbitalBody} {rest : List OrbitalBody} (hb : sys.bodies = b :: rest)
    {r x y z : ℕ → ℝ} (hr : ∀ i (h : i < sys.bodies.length), sys.bodies[i].radius = some (r i * sys.central.radius)) (hr0 : ∀ i, 0 < r i)
    (hpos : ∀ i (h : i < sys.bodies.length), sys.bodies[i].relative_position kep au t =
      ⟨x i * sys.central.radius, y i * sys.central.radius, z i * sys.central.radius⟩) (hR : 0 < sys.central.radius)
    (hne : ∀ i < sys.bodies.length, ¬ (x i = 0 ∧ y i = 0 ∧ r i = 1)) :
    let mean := meanVelocity (skyOf cs (cs.rotationalPhase t)) (velocityOf cs P)
    ∃ gc hc gb hb : ℕ → List ℝ,
      (∀ i < sys.bodies.length, IsVelGreenOf cs P (cs.rotationalPhase t) (x i) (y i) (gc i) (hc i)) ∧
      (∀ i (h : i < sys.body_surfaces.length) s, sys.body_surfaces[i] = some s →
        IsVelGreenOf s (Pb i) (s.rotationalPhase t) (-x i / r i) (-y i / r i) (gb i) (hb i)) ∧
      ((∀ i < sys.bodies.length, Seen eps cs (cs.rotationalPhase t) (r i) (x i) (y i) (z i) (gc i)) →
       (∀ i (h : i < sys.body_surfaces.length) s, sys.body_surfaces[i] = some s →
         Seen eps s (s.rotationalPhase t) (1 / r i) (-x i / r i) (-y i / r i) (-z i / r i) (gb i)) →
      ∀ δ > 0, ∃ N, ∀ order ≥ N, ∃ (row : ℝ) (rows : List ℝ),
        radialVelocity eps quad asEuler order kep au sys t = .ok (row :: rows) ∧ rows.length = sys.bodies.length ∧
        |row - (cs.amplitude * (mean stellarDisc +
            ∑ i ∈ Finset.range sys.bodies.length, (mean (visibleBehind (r i) (x i) (y i) (z i)) - mean stellarDisc)) +
            b.radial_velocity kep au t)| ≤
          ∑ i ∈ Finset.range sys.bodies.length, rvLoss eps cs P (cs.rotationalPhase t) (r i) (x i) (y i) (z i) (gc i) (hc i) + δ ∧
        ∀ i (h : i < sys.body_surfaces.length), (sys.body_surfaces[i] = none → rows[i]? = some 0) ∧
          ∀ s, sys.body_surfaces[i] = some s → ∃ v, rows[i]? = some v ∧
            |v - s.amplitude * meanVelocity (skyOf s (s.rotationalPhase t)) (velocityOf s (Pb i))
                (visibleBehind (1 / r i) (-x i / r i) (-y i / r i) (-z i / r i))| ≤
              rvLoss eps s (Pb i) (s.rotationalPhase t) (1 / r i) (-x i / r i) (-y i / r i) (-z i / r i) (gb i) (hb i) + δ) := by
  classical
  intro mean
  have hc : ∀ i, ∃ g h, i < sys.bodies.length → IsVelGreenOf cs P (cs.rotationalPhase t) (x i) (y i) g h ∧
      (Seen eps cs (cs.rotationalPhase t) (r i) (x i) (y i) (z i) g → ∀ δ > 0, ∀ᶠ order in atTop, ∃ f,
      surfaceRadialVelocity eps quad asEuler order cs (some (r i)) (some (x i)) (some (y i)) (some (z i)) (cs.rotationalPhase t) = .ok f ∧
      |f - cs.amplitude * mean (visibleBehind (r i) (x i) (y i) (z i))| ≤
        rvLoss eps cs P (cs.rotationalPhase t) (r i) (x i) (y i) (z i) g h + δ) := by
    intro i
    by_cases hi : i < sys.bodies.length
    · obtain ⟨g, h, h1, h2⟩ := rv_converges hq he hE cs hy hP htot (z i) (cs.rotationalPhase t) (hr0 i).le (hne i hi)
      exact ⟨g, h, fun _ => ⟨h1, fun hs δ hδ => eventually_atTop.2 (h2 hs δ hδ)⟩⟩
    · exact ⟨[], [], fun h => absurd h hi⟩
  choose gc hc hgc using hc
  have hbb : ∀ i, ∃ g h', ∀ (h : i < sys.body_surfaces.length) s, sys.body_surfaces[i] = some s →
      IsVelGreenOf s (Pb i) (s.rotationalPhase t) (-x i / r i) (-y i / r i) g h' ∧
      (Seen eps s (s.rotationalPhase t) (1 / r i) (-x i / r i) (-y i / r i) (-z i / r i) g → ∀ δ > 0, ∀ᶠ order in atTop, ∃ f,
      surfaceRadialVelocity eps quad asEuler order s (some (1 / r i)) (some (-x i / r i)) (some (-y i / r i)) (some (-z i / r i))
        (s.rotationalPhase t) = .ok f ∧
      |f - s.amplitude * meanVelocity (skyOf s (s.rotationalPhase t)) (velocityOf s (Pb i))
          (visibleBehind (1 / r i) (-x i / r i) (-y i / r i) (-z i / r i))| ≤
        rvLoss eps s (Pb i) (s.rotationalPhase t) (1 / r i) (-x i / r i) (-y i / r i) (-z i / r i) g h' + δ) := by
    intro i
    by_cases hi : i < sys.body_surfaces.length
    · cases hs : sys.body_surfaces[i] with
      | none => exact ⟨[], [], fun _ s h => by rw [hs] at h; simp at h⟩
      | some s =>
        obtain ⟨v1, v2, v3⟩ := hys i hi s hs
        have hne' : ¬ (-x i / r i = 0 ∧ -y i / r i = 0 ∧ 1 / r i = 1) := by
          rintro ⟨a1, a2, a3⟩
          have hri := (hr0 i).ne'
          refine hne i (by omega) ⟨?_, ?_, ?_⟩
          · simpa [hri] using a1
          · simpa [hri] using a2
          · field_simp at a3; exact a3.symm
        obtain ⟨g, h, h1, h2⟩ := rv_converges hq he hE s v1 v3 v2 (-z i / r i) (s.rotationalPhase t)
          (one_div_pos.2 (hr0 i)).le hne'
        refine ⟨g, h, fun _ s' h' => ?_⟩
        obtain rfl := Option.some.inj (hs.symm.trans h')
        exact ⟨h1, fun hs δ hδ => eventually_atTop.2 (h2 hs δ hδ)⟩
    · exact ⟨[], [], fun h => absurd h hi⟩
  choose gb hb' hgb using hbb
  refine ⟨gc, hc, gb, hb', fun i hi => (hgc i hi).1, fun i hi s hs => (hgb i hi s hs).1, fun hseen hseen' δ hδ => ?_⟩
  have hd : 0 < δ / (sys.bodies.length + 1) := by positivity
  have hev1 : ∀ᶠ order in atTop, ∀ i ∈ Finset.range sys.bodies.length, ∃ f,
      surfaceRadialVelocity eps quad asEuler order cs (some (r i)) (some (x i)) (some (y i)) (some (z i)) (cs.rotationalPhase t) = .ok f ∧
      |f - cs.amplitude * mean (visibleBehind (r i) (x i) (y i) (z i))| ≤
        rvLoss eps cs P (cs.rotationalPhase t) (r i) (x i) (y i) (z i) (gc i) (hc i) + δ / (sys.bodies.length + 1) :=
    (Finset.eventually_all _).2 fun i hi => (hgc i (Finset.mem_range.1 hi)).2 (hseen i (Finset.mem_range.1 hi)) _ hd
  have hev2 : ∀ᶠ order in atTop, ∀ i ∈ Finset.range sys.body_surfaces.length, ∃ f, ∀ (h : i < sys.body_surfaces.length),
      (sys.body_surfaces[i] = none → f = 0) ∧ ∀ s, sys.body_surfaces[i] = some s →
      surfaceRadialVelocity eps quad asEuler order s (some (1 / r i)) (some (-x i / r i)) (some (-y i / r i)) (some (-z i / r i))
        (s.rotationalPhase t) = .ok f ∧
      |f - s.amplitude * meanVelocity (skyOf s (s.rotationalPhase t)) (velocityOf s (Pb i))
          (visibleBehind (1 / r i) (-x i / r i) (-y i / r i) (-z i / r i))| ≤
        rvLoss eps s (Pb i) (s.rotationalPhase t) (1 / r i) (-x i / r i) (-y i / r i) (-z i / r i) (gb i) (hb' i) + δ := by
    refine (Finset.eventually_all _).2 fun i hi => ?_
    have hi' := Finset.mem_range.1 hi
    cases hs : sys.body_surfaces[i] with
    | none => exact Eventually.of_forall fun order => ⟨0, fun h => ⟨fun _ => rfl, fun s h' => by rw [hs] at h'; simp at h'⟩⟩
    | some s =>
      filter_upwards [(hgb i hi' s hs).2 (hseen' i hi' s hs) δ hδ] with order ho
      obtain ⟨f, hf⟩ := ho
      refine ⟨f, fun h => ⟨fun h' => by rw [hs] at h'; simp at h', fun s' h' => ?_⟩⟩
      obtain rfl := Option.some.inj (hs.symm.trans h')
      exact hf
  obtain ⟨N, hN⟩ := eventually_atTop.1 (hev1.and hev2)
  refine ⟨N, fun order ho => ?_⟩
  obtain ⟨h1, h2⟩ := hN order ho
  choose! f hf using h1
  choose! w hw using h2
  have hR' := hR.ne'
  have c0 : ∀ v : ℝ, v * sys.central.radius / sys.central.radius = v := fun v => by field_simp
  have c1 : ∀ i, sys.central.radius / (r i * sys.central.radius) = 1 / r i := fun i => by
    have := (hr0 i).ne'
    field_simp
  have c2 : ∀ i (v : ℝ), -(v * sys.central.radius) / (r i * sys.central.radius) = -v / r i := fun i v => by
    have := (hr0 i).ne'
    field_simp
  have hrows := system_observable_rows (surfaceRadialVelocity eps quad asEuler 20) (surfaceRadialVelocity eps quad asEuler order) kep au sys t
    hp hcs (rad := fun i => r i * sys.central.radius) hr
    (pos := fun i => ⟨x i * sys.central.radius, y i * sys.central.radius, z i * sys.central.radius⟩) hpos rfl
    (surface_rv_rotation eps quad hE 20 cs hy hP htot none none none (cs.rotationalPhase t))
    (f := f) (fun i hi => by simp only [c0]; exact (hf i (Finset.mem_range.2 hi)).1)
    (g := w) (fun i hi h => ((hw i (Finset.mem_range.2 hi) hi).1 h))
    (fun i hi s hs => by simp only [c1, c2]; exact ((hw i (Finset.mem_range.2 hi) hi).2 s hs).1)
  refine ⟨_, _, radial_velocity_rows eps quad asEuler order kep au sys t hb hrows, by simp, ?_, fun i hi => ⟨fun h => ?_, fun s hs => ?_⟩⟩
  · have e : ∀ A B : ℝ, A + (∑ i ∈ Finset.range sys.bodies.length, (f i - A)) + b.radial_velocity kep au t - (B + b.radial_velocity kep au t) =
        A + (∑ i ∈ Finset.range sys.bodies.length, (f i - A)) - B := fun A B => by ring
    rw [e]
    have e2 : cs.amplitude * mean stellarDisc + (∑ i ∈ Finset.range sys.bodies.length, (f i - cs.amplitude * mean stellarDisc)) -
        cs.amplitude * (mean stellarDisc + ∑ i ∈ Finset.range sys.bodies.length, (mean (visibleBehind (r i) (x i) (y i) (z i)) - mean stellarDisc)) =
        ∑ i ∈ Finset.range sys.bodies.length, (f i - cs.amplitude * mean (visibleBehind (r i) (x i) (y i) (z i))) := by
      rw [mul_add, Finset.mul_sum, add_sub_add_left_eq_sub, ← Finset.sum_sub_distrib]
      exact Finset.sum_congr rfl fun i _ => by ring
    rw [e2]
    refine (Finset.abs_sum_le_sum_abs _ _).trans ((Finset.sum_le_sum fun i hi => (hf i hi).2).trans ?_)
    rw [Finset.sum_add_distrib, Finset.sum_const, Finset.card_range, nsmul_eq_mul]
    have : (sys.bodies.length : ℝ) * (δ / (sys.bodies.length + 1)) ≤ δ := by
      rw [mul_div_assoc', div_le_iff₀ (by positivity)]
      nlinarith [hδ.le]
    linarith
  · have hi' : i < sys.bodies.length := by omega
    simp [hi', (hw i (Finset.mem_range.2 hi) hi).1 h]
  · have hi' : i < sys.bodies.length := by omega
    exact ⟨w i, by simp [hi'], ((hw i (Finset.mem_range.2 hi) hi).2 s hs).2⟩

/-- if only one body hides a part of the central, the visible part is what that body leaves -/
theorem mean_single (I v : ℝ × ℝ → ℝ) {n : ℕ} {r x y z : ℕ → ℝ} (hr0 : ∀ i, 0 < r i) {k : ℕ} (hk : k < n)
    (h : ∀ i < n, i ≠ k → ¬ Hides (r i) (x i) (y i) (z i)) :
    meanVelocity I v (visiblePart n r x y z) = meanVelocity I v (visibleBehind (r k) (x k) (y k) (z k)) := by
  have key : (visiblePart n r x y z : Set (ℝ × ℝ)) =ᵐ[volume] visibleBehind (r k) (x k) (y k) (z k) := by
    have hnull : volume (⋃ i ∈ {i | i < n ∧ i ≠ k ∧ 0 < z i}, stellarDisc ∩ occultorAt (x i) (y i) (r i)) = 0 := by
      refine (measure_biUnion_null_iff (Set.to_countable _)).2 fun i hi => beside_null (hr0 i).le (not_lt.1 fun h' => ?_)
      exact h i hi.1 hi.2.1 ⟨h', hi.2.2⟩
    have : visiblePart n r x y z = visibleBehind (r k) (x k) (y k) (z k) \
        ⋃ i ∈ {i | i < n ∧ i ≠ k ∧ 0 < z i}, stellarDisc ∩ occultorAt (x i) (y i) (r i) := by
      ext p
      simp only [visiblePart, visibleBehind, Set.mem_ofPred_eq, Set.mem_sdiff, Set.mem_iUnion, Set.mem_inter_iff, not_exists, not_and]
      constructor
      · rintro ⟨h1, h2⟩
        exact ⟨⟨h1, h2 k hk⟩, fun i hi _ => h2 i hi.1 hi.2.2⟩
      · rintro ⟨⟨h1, h2⟩, h3⟩
        refine ⟨h1, fun i hi hz => ?_⟩
        by_cases hik : i = k
        · subst hik; exact h2 hz
        · exact h3 i ⟨hi, hik, hz⟩ h1
    rw [this]
    exact sdiff_null_ae_eq_self hnull
  unfold meanVelocity
  rw [setIntegral_congr_set key, setIntegral_congr_set key]

/-- C89: with one body in front of the central, the limit is the mean velocity of the visible part -/
theorem rv_single (I v : ℝ × ℝ → ℝ) {n : ℕ} {r x y z : ℕ → ℝ} (hr0 : ∀ i, 0 < r i) {k : ℕ} (hk : k < n)
    (h : ∀ i < n, i ≠ k → ¬ Hides (r i) (x i) (y i) (z i)) :
    meanVelocity I v stellarDisc + ∑ i ∈ Finset.range n,
      (meanVelocity I v (visibleBehind (r i) (x i) (y i) (z i)) - meanVelocity I v stellarDisc) =
    meanVelocity I v (visiblePart n r x y z) := by
  rw [Finset.sum_eq_single k, mean_single I v hr0 hk h]
  · ring
  · intro i hi hik
    rw [mean_beside _ _ (hr0 i).le (h i (Finset.mem_range.1 hi) hik), sub_self]
  · intro hc
    exact absurd (Finset.mem_range.2 hk) hc

theorem area_pos {S : Set (ℝ × ℝ)} (hS : S ⊆ stellarDisc) {u v u' v' : ℝ} (hu : u < u') (hv : v < v')
    (hb : Set.Icc u u' ×ˢ Set.Icc v v' ⊆ S) : 0 < ∫ _ in S, (1 : ℝ) := by
  rw [setIntegral_const, smul_eq_mul, mul_one]
  have h1 : volume.real (Set.Icc u u' ×ˢ Set.Icc v v') ≤ volume.real S :=
    measureReal_mono hb ((measure_mono hS).trans_lt star_volume_lt_top).ne
  refine lt_of_lt_of_le ?_ h1
  rw [Measure.volume_eq_prod, measureReal_prod_prod, Real.volume_real_Icc_of_le hu.le, Real.volume_real_Icc_of_le hv.le]
  exact mul_pos (sub_pos.2 hu) (sub_pos.2 hv)

/-- the first moment of a disc is that of its centre -/
theorem occultor_moment (x y r : ℝ) :
    ∫ p in occultorAt x y r, p.1 = x * ∫ _ in occultorAt 0 0 r, (1 : ℝ) ∧ ∫ _ in occultorAt x y r, (1 : ℝ) = ∫ _ in occultorAt 0 0 r, (1 : ℝ) := by
  have hm := measurableSet_occultorAt
  have tr : ∀ f : ℝ × ℝ → ℝ, ∫ p in occultorAt x y r, f p = ∫ p in occultorAt 0 0 r, f (p + (x, y)) := by
    intro f
    rw [← integral_indicator (hm _ _ _), ← integral_indicator (hm _ _ _), ← integral_add_right_eq_self _ ((x, y) : ℝ × ℝ)]
    congr 1
    ext p
    simp [Set.indicator, occultorAt]
  have hcomp : IsCompact (occultorAt 0 0 r) := by
    refine Metric.isCompact_of_isClosed_isBounded ?_ ?_
    · unfold occultorAt
      exact isClosed_le (by fun_prop) (by fun_prop)
    · refine (Metric.isBounded_closedBall (x := (0 : ℝ × ℝ)) (r := |r|)).subset fun p hp => ?_
      have hp : (p.1 - 0) ^ 2 + (p.2 - 0) ^ 2 ≤ r ^ 2 := hp
      rw [mem_closedBall_zero_iff, Prod.norm_def, sup_le_iff, Real.norm_eq_abs, Real.norm_eq_abs]
      constructor <;> apply sq_le_sq.1 <;> nlinarith [sq_nonneg p.1, sq_nonneg p.2]
  have int : ∀ f : ℝ × ℝ → ℝ, Continuous f → IntegrableOn f (occultorAt 0 0 r) := fun f hf => hf.continuousOn.integrableOn_compact hcomp
  refine ⟨?_, tr _⟩
  rw [tr]
  simp only [Prod.fst_add]
  rw [integral_add (int _ (by fun_prop)) (int _ (by fun_prop))]
  have odd : ∫ p in occultorAt 0 0 r, p.1 = 0 := by
    have : ∫ p in occultorAt 0 0 r, p.1 = ∫ p in occultorAt 0 0 r, -p.1 := by
      rw [← integral_indicator (hm _ _ _), ← integral_indicator (hm _ _ _), ← integral_neg_eq_self]
      congr 1
      ext p
      simp [Set.indicator, occultorAt]
    rw [integral_neg] at this
    linarith
  rw [odd, zero_add, ← integral_const_mul]
  simp

/-- Finding F37: **the velocity anomalies of simultaneous transits do not add up**, although `system_observable` adds them: for a uniform
star with two equal planets on the receding half, the sum is not the mean velocity of the visible part. -/
theorem rv_not_additive : ∃ r x y z : ℕ → ℝ, NoMutualOverlap 2 r x y z ∧
    meanVelocity (fun _ => 1) (losSpeed (π / 2) 0) stellarDisc + ∑ i ∈ Finset.range 2,
      (meanVelocity (fun _ => 1) (losSpeed (π / 2) 0) (visibleBehind (r i) (x i) (y i) (z i)) -
        meanVelocity (fun _ => 1) (losSpeed (π / 2) 0) stellarDisc) ≠
    meanVelocity (fun _ => 1) (losSpeed (π / 2) 0) (visiblePart 2 r x y z) := by
  refine ⟨fun _ => 0.1, fun _ => 0.5, fun i => if i = 0 then 0.5 else -0.5, fun _ => 1, ?_, ?_⟩
  · intro i hi j hj hij _ _ p _ h1 h2
    have : (i = 0 ∧ j = 1) ∨ (i = 1 ∧ j = 0) := by omega
    rcases this with ⟨rfl, rfl⟩ | ⟨rfl, rfl⟩ <;> simp only [occultorAt, Set.mem_ofPred_eq] at h1 h2 <;> norm_num at h1 h2 <;>
      nlinarith [sq_nonneg (p.1 - 0.5), sq_nonneg p.2]
  · have hm := measurableSet_occultorAt
    have hv : losSpeed (π / 2) 0 = fun p => p.1 := by
      ext p
      simp [losSpeed]
    have hsub : ∀ y : ℝ, y ^ 2 = 0.25 → occultorAt 0.5 y 0.1 ⊆ stellarDisc := by
      rintro y hy ⟨u, v⟩ h
      change (u - 0.5) ^ 2 + (v - y) ^ 2 ≤ 0.1 ^ 2 at h
      change u ^ 2 + v ^ 2 ≤ 1
      nlinarith [sq_nonneg (u - 0.5 - 0.5 * 0.2), sq_nonneg (v - y - y * 0.2)]
    have hdisj : Disjoint (occultorAt 0.5 0.5 0.1) (occultorAt 0.5 (-0.5) 0.1) := by
      refine Set.disjoint_left.2 fun p h1 h2 => ?_
      simp only [occultorAt, Set.mem_ofPred_eq] at h1 h2
      nlinarith [sq_nonneg (p.1 - 0.5), sq_nonneg p.2]
    have e1 : ∀ y : ℝ, visibleBehind 0.1 0.5 y 1 = stellarDisc \ occultorAt 0.5 y 0.1 := fun y => visibleBehind_front one_pos
    have e2 : visiblePart 2 (fun _ => 0.1) (fun _ => 0.5) (fun i => if i = 0 then 0.5 else -0.5) (fun _ => 1) =
        (stellarDisc \ occultorAt 0.5 0.5 0.1) \ occultorAt 0.5 (-0.5) 0.1 := by
      ext p
      simp only [visiblePart, Set.mem_ofPred_eq, Set.mem_sdiff]
      constructor
      · rintro ⟨h1, h2⟩
        exact ⟨⟨h1, by simpa using h2 0 (by norm_num) one_pos⟩, by simpa using h2 1 (by norm_num) one_pos⟩
      · rintro ⟨⟨h1, h2⟩, h3⟩
        refine ⟨h1, fun i hi _ => ?_⟩
        interval_cases i
        · simpa using h2
        · simpa using h3
    have d1 : ∀ f : ℝ × ℝ → ℝ, Continuous f → ∀ y : ℝ, y ^ 2 = 0.25 →
        ∫ p in stellarDisc \ occultorAt 0.5 y 0.1, f p = (∫ p in stellarDisc, f p) - ∫ p in occultorAt 0.5 y 0.1, f p := fun f hf y hy =>
      setIntegral_sdiff (hm _ _ _) (integrableOn_disc_cont hf) (hsub y hy)
    have d2 : ∀ f : ℝ × ℝ → ℝ, Continuous f → ∫ p in (stellarDisc \ occultorAt 0.5 0.5 0.1) \ occultorAt 0.5 (-0.5) 0.1, f p =
        (∫ p in stellarDisc, f p) - (∫ p in occultorAt 0.5 0.5 0.1, f p) - ∫ p in occultorAt 0.5 (-0.5) 0.1, f p := by
      intro f hf
      rw [setIntegral_sdiff (hm _ _ _) ((integrableOn_disc_cont hf).mono_set Set.sdiff_subset)
        (Set.subset_sdiff.2 ⟨hsub _ (by norm_num), hdisj.symm⟩), d1 f hf _ (by norm_num)]
    have hD : stellarDisc = occultorAt 0 0 1 := by
      ext p
      simp [stellarDisc, occultorAt]
    have hx0 : ∫ p in stellarDisc, p.1 = 0 := by
      rw [hD, (occultor_moment 0 0 1).1, zero_mul]
    set F := ∫ _ in stellarDisc, (1 : ℝ) with hF
    set a := ∫ _ in occultorAt 0 0 0.1, (1 : ℝ) with ha
    have ha0 : 0 < a := by
      refine area_pos (u := 0) (u' := 0.05) (v := 0) (v' := 0.05) ?_ (by norm_num) (by norm_num) ?_
      · rintro ⟨u, v⟩ h
        change (u - 0) ^ 2 + (v - 0) ^ 2 ≤ 0.1 ^ 2 at h
        change u ^ 2 + v ^ 2 ≤ 1
        linarith
      · rintro ⟨u, v⟩ ⟨⟨u1, u2⟩, ⟨v1, v2⟩⟩
        change (u - 0) ^ 2 + (v - 0) ^ 2 ≤ 0.1 ^ 2
        simp only at u1 u2 v1 v2
        nlinarith
    have m1 := occultor_moment 0.5 0.5 0.1
    have m2 := occultor_moment 0.5 (-0.5) 0.1
    rw [← ha] at m1 m2
    have hFa : 0 < F - a - a := by
      have := d2 (fun _ => 1) continuous_const
      rw [m1.2, m2.2] at this
      rw [hF, ← this]
      refine area_pos (u := -0.5) (u' := 0) (v := -0.5) (v' := 0) (Set.sdiff_subset.trans Set.sdiff_subset) (by norm_num) (by norm_num) ?_
      rintro ⟨u, v⟩ ⟨⟨u1, u2⟩, ⟨v1, v2⟩⟩
      simp only at u1 u2 v1 v2
      refine ⟨⟨?_, fun h => ?_⟩, fun h => ?_⟩
      · change u ^ 2 + v ^ 2 ≤ 1
        nlinarith
      · change (u - 0.5) ^ 2 + (v - 0.5) ^ 2 ≤ 0.1 ^ 2 at h
        nlinarith
      · change (u - 0.5) ^ 2 + (v - -0.5) ^ 2 ≤ 0.1 ^ 2 at h
        nlinarith [sq_nonneg (v - -0.5)]
    have q0 : meanVelocity (fun _ => 1) (fun p => p.1) stellarDisc = 0 := by
      simp only [meanVelocity, mul_one, hx0, zero_div]
    have q1 : ∀ y : ℝ, y ^ 2 = 0.25 → ∫ p in occultorAt 0.5 y 0.1, p.1 = 0.5 * a → ∫ _ in occultorAt 0.5 y 0.1, (1 : ℝ) = a →
        meanVelocity (fun _ => 1) (fun p => p.1) (stellarDisc \ occultorAt 0.5 y 0.1) = -(0.5 * a) / (F - a) := by
      intro y hy h1 h2
      simp only [meanVelocity, mul_one]
      rw [d1 _ continuous_fst y hy, d1 _ continuous_const y hy, hx0, h1, h2, zero_sub]
    have q2 : meanVelocity (fun _ => 1) (fun p => p.1) ((stellarDisc \ occultorAt 0.5 0.5 0.1) \ occultorAt 0.5 (-0.5) 0.1) = -a / (F - a - a) := by
      simp only [meanVelocity, mul_one]
      rw [d2 _ continuous_fst, d2 _ continuous_const, hx0, m1.1, m2.1, m1.2, m2.2]
      congr 1
      ring
    rw [hv, e2, q0, q2, Finset.sum_range_succ, Finset.sum_range_succ, Finset.sum_range_zero]
    simp only [if_pos, one_ne_zero, if_false, e1]
    rw [q1 0.5 (by norm_num) m1.1 m1.2, q1 (-0.5) (by norm_num) m2.1 m2.2]
    intro h
    have hFa' : 0 < F - a := by linarith
    rw [show 0 + (0 + (-(0.5 * a) / (F - a) - 0) + (-(0.5 * a) / (F - a) - 0)) = -a / (F - a) by ring, div_eq_div_iff hFa'.ne' hFa.ne'] at h
    have : a * a = 0 := by linarith
    rcases mul_eq_zero.1 this with h | h <;> linarith

/-- the visible flux of a uniform star behind a planet of a tenth of its radius exceeds the remaining error, wherever the planet is
within the disc -/
theorem sunlike_seen {x y : ℝ} (hb : √(x ^ 2 + y ^ 2) ≤ 0.9) (z : ℝ) (theta : Option ℝ) {g h : List ℝ} (hg : IsVelGreenOf sunlike 27 theta x y g h) :
    Seen 1e-16 sunlike theta 0.1 x y z g := by
  intro hh
  rw [visibleBehind_front hh.2]
  obtain ⟨h1, h2, h3⟩ := sunlike_ok
  have hg := hg.1
  simp only [sunlike_sky, h3] at hg
  obtain ⟨g0, g1, g2, g3⟩ := sunlike_green hg
  have hsum : edgeSum 1e-16 √(x ^ 2 + y ^ 2) 0.1 (sunlike.deg + 1) g = |g.getD 0 0| * edgeLoss 1e-16 √(x ^ 2 + y ^ 2) 0.1 0 0 := by
    unfold edgeSum
    rw [h3]
    simp only [Finset.sum_range_succ, Finset.sum_range_zero]
    norm_num
    rw [List.getD_eq_getElem?_getD] at g1 g2 g3
    rw [g1, g2, g3]
    simp
  have hl := edgeLoss_small (eps := 1e-16) (b := √(x ^ 2 + y ^ 2)) (r := 0.1) (by norm_num) (by norm_num) (sqrt_nonneg _) (by norm_num)
    (by linarith) (l := 0) (by norm_num) 0
  have hg0 : 0 < g.getD 0 0 := by
    by_contra hc
    nlinarith [pi_pos]
  rw [hsum, ← mul_assoc, abs_of_pos hg0, g0, one_mul]
  simp only [sunlike_sky]
  have hint : ∀ S ⊆ stellarDisc, IntegrableOn (fun _ : ℝ × ℝ => (1 : ℝ)) S := fun S hS => (integrableOn_disc_cont continuous_const).mono_set hS
  have hbox : ∀ u v c : ℝ, 0 ≤ c → ∫ _ in Set.Icc (u - c) (u + c) ×ˢ Set.Icc (v - c) (v + c), (1 : ℝ) = 4 * c ^ 2 := by
    intro u v c hc
    rw [setIntegral_const, smul_eq_mul, mul_one, Measure.volume_eq_prod, measureReal_prod_prod, Real.volume_real_Icc_of_le (by linarith),
      Real.volume_real_Icc_of_le (by linarith)]
    ring
  have hF : 1 ≤ ∫ _ in stellarDisc, (1 : ℝ) := by
    have hsub : Set.Icc (0 - 0.5 : ℝ) (0 + 0.5) ×ˢ Set.Icc (0 - 0.5 : ℝ) (0 + 0.5) ⊆ stellarDisc := by
      rintro ⟨u, v⟩ ⟨⟨u1, u2⟩, ⟨v1, v2⟩⟩
      change u ^ 2 + v ^ 2 ≤ 1
      simp only at u1 u2 v1 v2
      nlinarith
    have := setIntegral_mono_set (hint _ le_rfl) (ae_of_all _ fun _ => zero_le_one) hsub.eventuallyLE
    rw [hbox _ _ _ (by norm_num)] at this
    linarith
  have ha : ∫ _ in stellarDisc ∩ occultorAt x y 0.1, (1 : ℝ) ≤ 0.04 := by
    have hsub : stellarDisc ∩ occultorAt x y 0.1 ⊆ Set.Icc (x - 0.1 : ℝ) (x + 0.1) ×ˢ Set.Icc (y - 0.1 : ℝ) (y + 0.1) := by
      rintro ⟨u, v⟩ ⟨-, h⟩
      change (u - x) ^ 2 + (v - y) ^ 2 ≤ 0.1 ^ 2 at h
      have a1 : |u - x| ≤ 0.1 := abs_le_of_sq_le_sq (by nlinarith [sq_nonneg (v - y)]) (by norm_num)
      have a2 : |v - y| ≤ 0.1 := abs_le_of_sq_le_sq (by nlinarith [sq_nonneg (u - x)]) (by norm_num)
      rw [abs_le] at a1 a2
      exact ⟨⟨by linarith, by linarith⟩, ⟨by linarith, by linarith⟩⟩
    have := setIntegral_mono_set (f := fun _ : ℝ × ℝ => (1 : ℝ)) (μ := volume)
      (continuousOn_const.integrableOn_compact (isCompact_Icc.prod isCompact_Icc)) (ae_of_all _ fun _ => zero_le_one) hsub.eventuallyLE
    rw [hbox _ _ _ (by norm_num)] at this
    linarith
  have hsplit := integral_inter_add_sdiff (measurableSet_occultorAt x y 0.1) (hint stellarDisc le_rfl)
  refine lt_of_lt_of_le ?_ (le_abs_self _)
  norm_num at hl ha hF hsplit ⊢
  linarith

theorem exampleBody_transit (kep : ℝ → ℝ → ℝ × ℝ) : exampleBody.relative_position kep 1 0.25 = ⟨0, 0, 4⟩ := by
  have hM : exampleBody.meanAnomaly 0.25 = π / 2 := by
    norm_num [exampleBody, OrbitalBody.meanAnomaly, OrbitalBody.warpTimes]
    ring
  unfold OrbitalBody.relative_position OrbitalBody.posVel OrbitalBody.trueAnomaly
  rw [show exampleBody.ecc = none from rfl]
  simp only [hM, sin_pi_div_two, cos_pi_div_two]
  simp [OrbitalBody.rotateVector, exampleBody]

/-- the hypotheses of `system_rv_converges` are met in the middle of the transit of a planet of a tenth of the radius of a uniform star -/
example {quad : ℕ → List (ℝ × ℝ)} (hq : ∀ n, IsGaussLegendre n (quad n)) {asEuler : Spec.V3 → Spec.V3} (hE : IsEulerZYZ asEuler)
    (kep : ℝ → ℝ → ℝ × ℝ) : ∃ N, ∀ order ≥ N, ∃ row rows,
    radialVelocity 1e-16 quad asEuler order kep 1 ⟨⟨1, 1, 1⟩, some sunlike, [exampleBody], [none]⟩ 0.25 = .ok (row :: rows) ∧ rows.length = 1 := by
  obtain ⟨h1, h2, h3⟩ := sunlike_ok
  obtain ⟨gc, hc, gb, hb, hg, -, h⟩ := system_rv_converges hq (eps := 1e-16) (by norm_num) hE kep 1
    ⟨⟨1, 1, 1⟩, some sunlike, [exampleBody], [none]⟩ 0.25 rfl rfl h1 h2 (P := 27) rfl (Pb := fun _ => 1)
    (fun i hi s hs => by
      have : i = 0 := by simpa using hi
      subst this
      simp at hs)
    (b := exampleBody) rfl
    (r := fun _ => 0.1) (x := fun _ => 0) (y := fun _ => 0) (z := fun _ => 4) (by simp [exampleBody]) (by norm_num)
    (by simp [exampleBody_transit]) (by simp) (by norm_num)
  obtain ⟨N, hN⟩ := h (fun i hi => sunlike_seen (by norm_num) _ _ (hg i hi)) (fun i hi s hs => by
      have : i = 0 := by simpa using hi
      subst this
      simp at hs) 1 one_pos
  refine ⟨N, fun order ho => ?_⟩
  obtain ⟨row, rows, a1, a2, -⟩ := hN order ho
  exact ⟨row, rows, a1, a2⟩

end Jaxoplanet.Starry
