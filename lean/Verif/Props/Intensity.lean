import Verif.Model.Doppler
import Verif.Spec.Doppler
import Verif.Props.SurfaceSystem
import Verif.Props.PolyBasis

/-!
# C66, C67: the brightness of the points of a surface (`Surface.render`, `Surface.intensity`)
-/

namespace Jaxoplanet.Starry
open _root_.Jaxoplanet.Starry.Spec _root_.Jaxoplanet.Spec _root_.Jaxoplanet.Green _root_.Jaxoplanet.LimbDark
open Real MeasureTheory

theorem rotZ_rotZ (a b : ℝ) (p : Spec.V3) : rotZ a (rotZ b p) = rotZ (a + b) p := by
  obtain ⟨x, y, z⟩ := p
  simp only [rotZ, cos_add, sin_add]
  refine Prod.ext ?_ (Prod.ext ?_ rfl) <;> simp only <;> ring

theorem rotX_rotX (a b : ℝ) (p : Spec.V3) : rotX a (rotX b p) = rotX (a + b) p := by
  obtain ⟨x, y, z⟩ := p
  simp only [rotX, cos_add, sin_add]
  refine Prod.ext rfl (Prod.ext ?_ ?_) <;> simp only <;> ring

/-- a point of the map is seen where the rotations carry it -/
theorem observerView_toSky (inc obl theta : ℝ) (q : Spec.V3) : observerView inc obl theta (toSky inc obl theta q) = q := by
  unfold observerView toSky
  rw [rotZ_rotZ, neg_add_cancel, rotZ_zero, rotX_rotX, add_neg_cancel, rotX_zero, rotZ_rotZ, neg_add_cancel, rotZ_zero,
    rotX_rotX, neg_add_cancel, rotX_zero]

theorem toSky_observerView (inc obl theta : ℝ) (p : Spec.V3) : toSky inc obl theta (observerView inc obl theta p) = p := by
  unfold observerView toSky
  rw [rotX_rotX, add_neg_cancel, rotX_zero, rotZ_rotZ, add_neg_cancel, rotZ_zero, rotX_rotX, neg_add_cancel, rotX_zero,
    rotZ_rotZ, add_neg_cancel, rotZ_zero]

theorem toSky_sphere (inc obl theta : ℝ) {p : Spec.V3} (hp : OnSphere p) : OnSphere (toSky inc obl theta p) :=
  rotZ_sphere _ (rotX_sphere _ (rotZ_sphere _ (rotX_sphere _ hp)))

theorem polyBasisE_dot (deg : ℕ) (p : Pijk) (hp : p.todense.length = (deg + 1) ^ 2) (x y z : ℝ) :
    ∃ v, polyBasisE deg x y z = .ok v ∧ p.dot v = .ok (denseVal p.todense x y z) := by
  obtain ⟨v, hv, hl, hs⟩ := polyBasis_dot deg p.todense hp x y z
  refine ⟨v, by unfold polyBasisE; rw [hv], ?_⟩
  rw [dot_ok _ _ (by rw [hl, hp]), hs]

/-- the two factors of `_intensity`: the map seen by the observer and the limb darkening -/
theorem intensity_factors {asEuler : Spec.V3 → Spec.V3} (hE : IsEulerZYZ asEuler) (s : Surface) (hy : ValidMap s.y) (theta : Option ℝ) :
    ∃ Ry, leftProject asEuler s.ydeg (some s.incVal) (some s.oblVal) theta (some 0) s.y.todense = .ok Ry ∧
      (matVec ((s.ydeg + 1) ^ 2) (A1 s.ydeg) Ry).length = (s.ydeg + 1) ^ 2 ∧
      (limbDarkPoly s.u).length = (s.udeg + 1) ^ 2 ∧
      ∀ x y z : ℝ, x ^ 2 + y ^ 2 + z ^ 2 = 1 →
        denseVal (matVec ((s.ydeg + 1) ^ 2) (A1 s.ydeg) Ry) x y z * denseVal (limbDarkPoly s.u) x y z =
          brightness s.y s.u s.incVal s.oblVal (theta.getD 0) (x, y, z) := by
  obtain ⟨Ry, h1, h2, h3⟩ := leftProject_view hE s.ydeg (some s.incVal) (some s.oblVal) theta 0 s.y.todense
  refine ⟨Ry, h1, (A1_val s.ydeg Ry h2 0 0 1 (by norm_num)).1, (limbDarkPoly_val s.u 0 0 1 (by norm_num)).1, fun x y z hs => ?_⟩
  have hon : OnSphere (x, y, z) := hs
  rw [(A1_val s.ydeg Ry h2 _ _ _ hs).2, (limbDarkPoly_val s.u _ _ _ hs).2]
  have h4 := h3 _ hon
  rw [neg_zero, rotZ_zero, show s.ydeg = s.y.deg from rfl, mapVal_todense hy] at h4
  unfold mapVal at h4
  simp only at h4
  rw [show s.ydeg = s.y.deg from rfl, h4]
  rfl

/-- C66: the intensity at a point of the sphere (in the frame of the sky, whether on the visible side or not) is the amplitude
times the brightness of the map seen there, limb darkened -/
theorem intensity_xyz {asEuler : Spec.V3 → Spec.V3} (hE : IsEulerZYZ asEuler) (s : Surface) (hy : ValidMap s.y) (theta : Option ℝ)
    {x y z : ℝ} (hs : x ^ 2 + y ^ 2 + z ^ 2 = 1) :
    s.intensityXYZ asEuler x y z theta =
      .ok (brightness s.y s.u s.incVal s.oblVal (theta.getD 0) (x, y, z) * s.amplitude) := by
  obtain ⟨Ry, h1, h2, h3, h4⟩ := intensity_factors hE s hy theta
  obtain ⟨p, q, w, hp, hq, hw, hwl, hwv⟩ := dense_product h2 h3
  obtain ⟨v, hv, hd⟩ := polyBasisE_dot s.deg w hwl x y z
  unfold Surface.intensityXYZ
  simp only [Bool.false_eq_true, if_false, hv, h1, hp, hq, intensityPoly, hw, hd, bind, Except.bind, pure, Except.pure]
  rw [hwv _ _ _ hs, h4 _ _ _ hs]

theorem gridPoint_sphere {res i j : ℕ} {p : Spec.V3} (h : orthoPoint res i j = some p) :
    p = (gridValue res j, gridValue res i, mu (gridValue res j, gridValue res i)) ∧
      (gridValue res j, gridValue res i) ∈ stellarDisc ∧ p.1 ^ 2 + p.2.1 ^ 2 + p.2.2 ^ 2 = 1 := by
  unfold orthoPoint at h
  simp only at h
  split_ifs at h with hc
  have hp := (Option.some.inj h).symm
  have hd : (gridValue res j, gridValue res i) ∈ stellarDisc := by
    show gridValue res j ^ 2 + gridValue res i ^ 2 ≤ 1
    linarith
  refine ⟨hp, hd, ?_⟩
  rw [hp]
  exact disc_sphere hd

/-- C66: the pixels of `render` outside the disc are `nan`, the others show the brightness of the star at their place on the
disc: `1/π` of the intensity that the light curves integrate (for a star with a given inclination), times the amplitude -/
theorem render_pixel {asEuler : Spec.V3 → Spec.V3} (hE : IsEulerZYZ asEuler) (s : Surface) (hy : ValidMap s.y) (theta : Option ℝ) (res i j : ℕ) :
    ((gridValue res j, gridValue res i) ∉ stellarDisc → s.render asEuler theta res false i j = .ok none) ∧
    ((gridValue res j, gridValue res i) ∈ stellarDisc → s.render asEuler theta res false i j =
      .ok (some (s.amplitude * (skyIntensity s.y s.u s.incVal s.oblVal (theta.getD 0) (gridValue res j, gridValue res i) / π)))) := by
  constructor
  · intro h
    have : orthoPoint res i j = none := by
      unfold orthoPoint
      simp only
      rw [if_neg]
      intro hc
      exact h (show gridValue res j ^ 2 + gridValue res i ^ 2 ≤ 1 by linarith)
    unfold Surface.render
    rw [this]
  · intro h
    have h' : gridValue res j ^ 2 + gridValue res i ^ 2 ≤ 1 := h
    have : orthoPoint res i j = some (gridValue res j, gridValue res i, mu (gridValue res j, gridValue res i)) := by
      unfold orthoPoint
      simp only
      rw [if_pos (by linarith)]
      rfl
    unfold Surface.render
    rw [this]
    simp only
    rw [intensity_xyz hE s hy theta (disc_sphere h)]
    simp only [Except.map]
    congr 2
    unfold brightness skyIntensity
    have h3 : 2 / √π = 2 * √π / π := by
      have := mul_self_sqrt pi_pos.le
      have h0 : √π ≠ 0 := (sqrt_pos.2 pi_pos).ne'
      field_simp
      linarith
    rw [h3]
    ring

/-- C66: the columns of the image run from `x = -1` to `x = 1`, the rows from `y = -1` to `y = 1`, in equal steps -/
theorem gridValue_ends (res : ℕ) (h : 2 ≤ res) : gridValue res 0 = -1 ∧ gridValue res (res - 1) = 1 ∧
    ∀ i, gridValue res (i + 1) - gridValue res i = 2 / ((res : ℝ) - 1) := by
  have h1 : ((res : ℝ) - 1) ≠ 0 := by
    have : (2 : ℝ) ≤ res := by exact_mod_cast h
    linarith
  unfold gridValue
  refine ⟨by simp, ?_, fun i => ?_⟩
  · rw [Nat.cast_sub (by omega)]
    push_cast
    field_simp
    ring
  · push_cast
    ring

/-- C66: the latitude and longitude of the grid are those of the point of a map seen from the equator -/
theorem ortho_lat_lon {p : Spec.V3} (hp : OnSphere p) : mapPoint (orthoLatLon p).1 (orthoLatLon p).2 = p := by
  obtain ⟨x, y, z⟩ := p
  have hs : x ^ 2 + y ^ 2 + z ^ 2 = 1 := hp
  unfold mapPoint orthoLatLon arctan2
  simp only
  rw [show 0.5 * π - arccos y = π / 2 - arccos y by ring, cos_pi_div_two_sub, sin_pi_div_two_sub, sin_arccos,
    cos_arccos (by nlinarith [sq_nonneg x, sq_nonneg z]) (by nlinarith [sq_nonneg x, sq_nonneg z])]
  have hn : ‖(⟨z, x⟩ : ℂ)‖ = √(1 - y ^ 2) := by
    rw [Complex.norm_def, Complex.normSq_mk]
    congr 1
    linarith
  refine Prod.ext ?_ (Prod.ext rfl ?_)
  · simp only
    rw [← hn]
    exact Complex.norm_mul_sin_arg _
  · simp only
    rw [← hn]
    exact Complex.norm_mul_cos_arg _

/-- `Rotation.from_rotvec` of the axis and angle of `intensity`, away from the snapping (finding F13): the rotation from the
map to the sky, but with a half turn about the line of sight (finding F25) -/
theorem intensity_rotation (eps : ℝ) {applyRotvec : Spec.V3 → Spec.V3 → Spec.V3} (hR : IsRotvec applyRotvec) (inc obl : ℝ)
    (hsnap : eps + 1e-5 < 1 - sin (inc / 2) * cos (obl / 2)) (p : Spec.V3) :
    (let axis := fullRotation eps (some (inc - π / 2)) (some obl) (some 0) (some 0)
     applyRotvec (axis.1 * axis.2.2.2, axis.2.1 * axis.2.2.2, axis.2.2.1 * axis.2.2.2) p) = rotZ obl (rotX (π - inc) p) := by
  have harg : 0.5 * √2 * (sin ((inc - π / 2) / 2) * cos (0.5 * (obl - 0 + 0)) + cos ((inc - π / 2) / 2) * cos (0.5 * (obl + 0 + 0))) =
      sin (inc / 2) * cos (obl / 2) := by
    rw [show (inc - π / 2) / 2 = inc / 2 - π / 4 by ring, sin_sub, cos_sub, sin_pi_div_four, cos_pi_div_four,
      show 0.5 * (obl - 0 + 0) = obl / 2 by ring, show 0.5 * (obl + 0 + 0) = obl / 2 by ring]
    have : √2 ^ 2 = 2 := sq_sqrt (by norm_num)
    linear_combination (1 / 2 : ℝ) * sin (inc / 2) * cos (obl / 2) * this
  obtain ⟨n, t, h1, h2, h3⟩ := fullRotation_spec_partial eps (inc - π / 2) obl 0 0 (by
    rw [harg, abs_sub_comm]
    have := le_abs_self (1 - sin (inc / 2) * cos (obl / 2))
    rw [abs_one, mul_one]
    linarith)
  simp only [h1]
  rw [hR n t h2, h3, rotZ_zero, rotX_rotX, add_zero]
  congr 2
  ring

/-- C67: what `intensity(lat, lon)` returns: the amplitude times the value of the map at the latitude `-lat` and the longitude
`-lon`, limb darkened at the place of the sky where that point is (finding F25: the sign of both is inverted) -/
theorem intensity_lat_lon_partial (eps : ℝ) {applyRotvec : Spec.V3 → Spec.V3 → Spec.V3} (hR : IsRotvec applyRotvec)
    {asEuler : Spec.V3 → Spec.V3} (hE : IsEulerZYZ asEuler) (s : Surface) (hy : ValidMap s.y)
    (hsnap : eps + 1e-5 < 1 - sin (s.incVal / 2) * cos (s.oblVal / 2)) (lat lon : ℝ) :
    s.intensity eps applyRotvec asEuler lat lon =
      .ok (2 / √π * mapAt s.y (mapPoint (-lat) (-lon)) *
        profile s.u (toSky s.incVal s.oblVal 0 (mapPoint (-lat) (-lon))).2.2 * s.amplitude) := by
  have hrot := intensity_rotation eps hR s.incVal s.oblVal hsnap
    (sin (π / 2 - lat) * cos (lon + π / 2), sin (π / 2 - lat) * sin (lon + π / 2), cos (π / 2 - lat))
  simp only at hrot
  have hpt : rotZ s.oblVal (rotX (π - s.incVal)
      (sin (π / 2 - lat) * cos (lon + π / 2), sin (π / 2 - lat) * sin (lon + π / 2), cos (π / 2 - lat))) =
      toSky s.incVal s.oblVal 0 (mapPoint (-lat) (-lon)) := by
    unfold toSky mapPoint
    rw [rotZ_zero, rotX_rotX, sin_pi_div_two_sub, cos_pi_div_two_sub, cos_add_pi_div_two, sin_add_pi_div_two,
      cos_neg, sin_neg, cos_neg, sin_neg]
    congr 1
    simp only [rotX]
    rw [cos_pi_sub, sin_pi_sub, cos_add_pi_div_two, sin_add_pi_div_two, cos_neg, sin_neg]
    refine Prod.ext ?_ (Prod.ext ?_ ?_) <;> simp only <;> ring
  have hon : OnSphere (mapPoint (-lat) (-lon)) := by
    unfold OnSphere Spec.normSq mapPoint
    simp only
    have e1 := sin_sq_add_cos_sq (-lat)
    have e2 := sin_sq_add_cos_sq (-lon)
    linear_combination cos (-lat) ^ 2 * e2 + e1
  have hsky := toSky_sphere s.incVal s.oblVal 0 hon
  unfold Surface.intensity
  simp only [hrot]
  rw [hpt, intensity_xyz hE s hy none hsky]
  simp only [brightness, Option.getD_none]
  rw [show ((toSky s.incVal s.oblVal 0 (mapPoint (-lat) (-lon))).1, (toSky s.incVal s.oblVal 0 (mapPoint (-lat) (-lon))).2.1,
    (toSky s.incVal s.oblVal 0 (mapPoint (-lat) (-lon))).2.2) = toSky s.incVal s.oblVal 0 (mapPoint (-lat) (-lon)) from rfl,
    observerView_toSky]

theorem harmNorm_eq (l μ : ℕ) (c : ℝ)
    (h : (if μ = 0 then 1 else 2) * (2 * l + 1) / 4 * (((l - μ).factorial : ℝ) / ((l + μ).factorial : ℝ)) = c) :
    harmNorm l μ = √c / √π := by
  unfold harmNorm
  rw [← sqrt_div' _ pi_pos.le, ← h]
  congr 1
  have := pi_pos.ne'
  field_simp

/-- the harmonics of degree one are the coordinates -/
theorem realHarmonic_one (x y z : ℝ) :
    realHarmonic 1 (-1) x y z = √3 / (2 * √π) * y ∧ realHarmonic 1 0 x y z = √3 / (2 * √π) * z ∧
      realHarmonic 1 1 x y z = √3 / (2 * √π) * x := by
  have hc : √(3 / 4) / √π = √3 / (2 * √π) := by
    rw [sqrt_div (by norm_num), show (4 : ℝ) = 2 ^ 2 by norm_num, sqrt_sq (by norm_num), div_div]
  have hn1 : harmNorm 1 1 = √3 / (2 * √π) := by
    rw [← hc]
    exact harmNorm_eq 1 1 _ (by norm_num [Nat.factorial])
  have hn0 : harmNorm 1 0 = √3 / (2 * √π) := by
    rw [← hc]
    exact harmNorm_eq 1 0 _ (by norm_num [Nat.factorial])
  have hr1 : rodrigues 1 1 z = 1 := by
    rw [rodrigues_eq 1 1 le_rfl]
    norm_num [Finset.sum_range_succ, Nat.factorial]
  have hr0 : rodrigues 1 0 z = z := by
    rw [rodrigues_eq 1 0 (by omega)]
    norm_num [Finset.sum_range_succ, Nat.factorial]
  refine ⟨?_, ?_, ?_⟩
  · unfold realHarmonic
    simp [hn1, hr1]
  · unfold realHarmonic
    simp [hn0, hr0]
  · unfold realHarmonic
    simp [hn1, hr1]

theorem realHarmonic_zero (x y z : ℝ) : realHarmonic 0 0 x y z = 1 / (2 * √π) := by
  have hn : harmNorm 0 0 = 1 / (2 * √π) := by
    rw [harmNorm_eq 0 0 (1 / 4) (by norm_num [Nat.factorial]), sqrt_div (by norm_num), show (4 : ℝ) = 2 ^ 2 by norm_num,
      sqrt_sq (by norm_num), sqrt_one, div_div]
  unfold realHarmonic
  have hr : rodrigues 0 0 z = 1 := by
    rw [rodrigues_eq 0 0 le_rfl]
    norm_num
  simp [hr, hn]

/-- a map that is brighter towards its north pole -/
noncomputable def northBright : Surface :=
  { y := ⟨[((0, 0), 1), ((1, -1), 1)]⟩, inc := some (π / 2), obl := none, u := [], period := none, amplitude := 1, phase := 0,
    radius := 1 }

theorem northBright_map (p : Spec.V3) : ValidMap northBright.y ∧
    mapAt northBright.y p = 1 / (2 * √π) + √3 / (2 * √π) * p.2.1 := by
  have hd : northBright.y.deg = 1 := by simp [northBright, Ylm.deg]
  refine ⟨⟨by simp [Dict.WF, northBright], by simp [northBright], by simp [northBright]⟩, ?_⟩
  unfold mapAt
  rw [hd]
  simp only [Finset.sum_range_succ, Finset.sum_range_zero, zero_add, mul_zero, mul_one, Nat.cast_zero, Nat.cast_one, Nat.cast_ofNat]
  norm_num
  rw [realHarmonic_zero, (realHarmonic_one _ _ _).1]
  have c0 : coef northBright.y 0 0 = 1 := rfl
  have c1 : coef northBright.y 1 (-1) = 1 := rfl
  have c2 : coef northBright.y 1 0 = 0 := rfl
  have c3 : coef northBright.y 1 1 = 0 := rfl
  rw [c0, c1, c2, c3]
  ring

/-- finding F25: at the north pole of a map that is brighter there, `intensity(π/2, 0)` returns the brightness of the south pole -/
theorem intensity_mirrored (eps : ℝ) (heps : eps < 0.1) {applyRotvec : Spec.V3 → Spec.V3 → Spec.V3} (hR : IsRotvec applyRotvec)
    {asEuler : Spec.V3 → Spec.V3} (hE : IsEulerZYZ asEuler) :
    northBright.intensity eps applyRotvec asEuler (π / 2) 0 =
      .ok (brightness northBright.y [] (π / 2) 0 0 (toSky (π / 2) 0 0 (mapPoint (-(π / 2)) 0))) ∧
    brightness northBright.y [] (π / 2) 0 0 (toSky (π / 2) 0 0 (mapPoint (-(π / 2)) 0)) <
      brightness northBright.y [] (π / 2) 0 0 (toSky (π / 2) 0 0 (mapPoint (π / 2) 0)) := by
  have hsnap : eps + 1e-5 < 1 - sin (northBright.incVal / 2) * cos (northBright.oblVal / 2) := by
    have h1 : northBright.incVal / 2 = π / 4 := by show π / 2 / 2 = π / 4; ring
    have h2 : northBright.oblVal = 0 := rfl
    rw [h1, h2, sin_pi_div_four, zero_div, cos_zero, mul_one]
    have : √2 < 1.5 := by rw [sqrt_lt' (by norm_num)]; norm_num
    norm_num at heps ⊢
    linarith
  constructor
  · rw [intensity_lat_lon_partial eps hR hE northBright (northBright_map (0, 0, 0)).1 hsnap]
    have h1 : northBright.amplitude = 1 := rfl
    have h2 : northBright.u = [] := rfl
    have h3 : northBright.incVal = π / 2 := rfl
    have h4 : northBright.oblVal = 0 := rfl
    rw [h1, h2, h3, h4, neg_zero, mul_one]
    unfold brightness
    rw [observerView_toSky]
  · unfold brightness
    rw [observerView_toSky, observerView_toSky, (northBright_map _).2, (northBright_map _).2]
    have hp : ∀ z, profile [] z = 1 := fun z => by simp [profile]
    rw [hp, hp, mul_one, mul_one]
    have hpi : 0 < √π := sqrt_pos.2 pi_pos
    have h3 : 0 < √3 := by positivity
    have hlt : -(√3 / (2 * √π)) < √3 / (2 * √π) := by
      have : 0 < √3 / (2 * √π) := by positivity
      linarith
    apply mul_lt_mul_of_pos_left _ (by positivity)
    simp only [mapPoint, sin_neg, sin_pi_div_two]
    linarith

/-- the points where the sign does not matter: on the central point of the map the intensity is right, whatever the map -/
theorem intensity_centre (eps : ℝ) {applyRotvec : Spec.V3 → Spec.V3 → Spec.V3} (hR : IsRotvec applyRotvec)
    {asEuler : Spec.V3 → Spec.V3} (hE : IsEulerZYZ asEuler) (s : Surface) (hy : ValidMap s.y)
    (hsnap : eps + 1e-5 < 1 - sin (s.incVal / 2) * cos (s.oblVal / 2)) :
    s.intensity eps applyRotvec asEuler 0 0 =
      .ok (brightness s.y s.u s.incVal s.oblVal 0 (toSky s.incVal s.oblVal 0 (mapPoint 0 0)) * s.amplitude) := by
  rw [intensity_lat_lon_partial eps hR hE s hy hsnap, neg_zero]
  unfold brightness
  rw [observerView_toSky]

end Jaxoplanet.Starry
