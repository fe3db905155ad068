import Verif.Model.Graticule
import Verif.Props.Intensity

/-!
# C78: the lines of latitude and longitude that `show_surface` draws are those of the map
-/

namespace Jaxoplanet.Starry
open _root_.Jaxoplanet.Starry.Spec _root_.Jaxoplanet.Spec _root_.Jaxoplanet.Green _root_.Jaxoplanet.LimbDark
open Real

/-- `r` times a point -/
def scaleV (r : ℝ) (p : Spec.V3) : Spec.V3 := (r * p.1, r * p.2.1, r * p.2.2)

theorem rotAxis_x' (t : ℝ) (p : Spec.V3) : rotAxis (1, 0, 0) t p = rotX t p := by
  obtain ⟨x, y, z⟩ := p
  simp only [rotAxis, rotX]
  refine Prod.ext ?_ (Prod.ext ?_ ?_) <;> simp only <;> ring

theorem rotAxis_z' (t : ℝ) (p : Spec.V3) : rotAxis (0, 0, 1) t p = rotZ t p := by
  obtain ⟨x, y, z⟩ := p
  simp only [rotAxis, rotZ]
  refine Prod.ext ?_ (Prod.ext ?_ ?_) <;> simp only <;> ring

theorem rotAxis_tilted (a t : ℝ) (p : Spec.V3) : rotAxis (cos a, sin a, 0) t p = rotZ a (rotX t (rotZ (-a) p)) := by
  obtain ⟨x, y, z⟩ := p
  have h := sin_sq_add_cos_sq a
  simp only [rotAxis, rotZ, rotX, cos_neg, sin_neg]
  refine Prod.ext ?_ (Prod.ext ?_ ?_) <;> simp only
  · linear_combination (-(cos t) * x) * h
  · linear_combination (-(cos t) * y) * h
  · ring

/-- the rotation of the lines is the rotation of the map, applied to the lines turned over -/
theorem graticuleRotation_eq {applyRotvec : Spec.V3 → Spec.V3 → Spec.V3} (hR : IsRotvec applyRotvec) (inc obl theta : ℝ) (p : Spec.V3) :
    graticuleRotation applyRotvec inc obl theta p = toSky inc obl theta (rotX (-(π / 2)) (p.1, -p.2.1, -p.2.2)) := by
  have hn : √(cos obl ^ 2 + sin obl ^ 2 + 0 ^ 2) = 1 := by
    rw [cos_sq_add_sin_sq]; norm_num
  have nz : Spec.normSq (0, 0, 1) = 1 := by simp [Spec.normSq]
  have nx : Spec.normSq (1, 0, 0) = 1 := by simp [Spec.normSq]
  have nt : Spec.normSq (cos obl, sin obl, 0) = 1 := by simp [Spec.normSq]
  have hz : ∀ t q, applyRotvec (0, 0, t) q = rotZ t q := by
    intro t q
    have := hR (0, 0, 1) t nz q
    simpa [rotAxis_z'] using this
  have hx : ∀ t q, applyRotvec (t, 0, 0) q = rotX t q := by
    intro t q
    have := hR (1, 0, 0) t nx q
    simpa [rotAxis_x'] using this
  have ht : ∀ t q, applyRotvec (cos obl * t, sin obl * t, 0 * t) q = rotZ obl (rotX t (rotZ (-obl) q)) := by
    intro t q
    have := hR (cos obl, sin obl, 0) t nt q
    rw [rotAxis_tilted] at this
    exact this
  unfold graticuleRotation
  simp only [hn, div_one]
  rw [ht, hz, hx, hz]
  rw [rotZ_rotZ, neg_add_cancel, rotZ_zero, rotX_rotX]
  unfold toSky
  rw [rotX_rotX, add_neg_cancel, rotX_zero]
  congr 1
  rw [show -(inc - π / 2) + π / 2 = π - inc by ring]
  obtain ⟨x, y, z⟩ := p
  simp only [rotX, rotZ, cos_neg, sin_neg, cos_pi_sub, sin_pi_sub]
  refine Prod.ext ?_ (Prod.ext ?_ ?_) <;> simp only <;> ring

theorem toSky_scale (inc obl theta r : ℝ) (p : Spec.V3) : toSky inc obl theta (scaleV r p) = scaleV r (toSky inc obl theta p) := by
  unfold toSky
  simp only [rotX, rotZ, scaleV]
  refine Prod.ext ?_ (Prod.ext ?_ ?_) <;> simp only <;> ring

/-- **C78 (a).** Vertex `j` of the line of latitude `k` is where the point of the map with the latitude `k π / n_lat - π/2` and
the longitude `π/2 - 2π j / (pts - 1)` is seen. -/
theorem lat_vertex {applyRotvec : Spec.V3 → Spec.V3 → Spec.V3} (hR : IsRotvec applyRotvec) (inc obl theta radius : ℝ) (n_lat pts k j : ℕ) :
    graticuleRotation applyRotvec inc obl theta (latLine n_lat pts radius k j) =
      scaleV radius (toSky inc obl theta (mapPoint (k * (π / n_lat) - π / 2) (π / 2 - j * (2 * π / ((pts : ℝ) - 1))))) := by
  rw [graticuleRotation_eq hR, ← toSky_scale]
  congr 1
  unfold latLine linspaceFrom0 mapPoint scaleV rotX
  have : ((n_lat + 1 : ℕ) : ℝ) - 1 = n_lat := by push_cast; ring
  simp only [this, cos_neg, sin_neg, cos_pi_div_two, sin_pi_div_two, sin_pi_div_two_sub, cos_pi_div_two_sub, cos_sub_pi_div_two,
    sin_sub_pi_div_two]
  refine Prod.ext ?_ (Prod.ext ?_ ?_) <;> simp only <;> ring

/-- **C78 (b).** Vertex `j` of the line of longitude `k` is where the point of the map with the longitude `π/2 - 2π k / n_lon` and
the latitude `π j / (pts // 2 - 1) - π/2` is seen. -/
theorem lon_vertex {applyRotvec : Spec.V3 → Spec.V3 → Spec.V3} (hR : IsRotvec applyRotvec) (inc obl theta radius : ℝ) (n_lon pts k j : ℕ) :
    graticuleRotation applyRotvec inc obl theta (lonLine n_lon pts radius k j) =
      scaleV radius (toSky inc obl theta (mapPoint (j * (π / (((pts / 2 : ℕ) : ℝ) - 1)) - π / 2) (π / 2 - k * (2 * π / n_lon)))) := by
  rw [graticuleRotation_eq hR, ← toSky_scale]
  congr 1
  unfold lonLine linspaceFrom0 mapPoint scaleV rotX
  have : ((n_lon + 1 : ℕ) : ℝ) - 1 = n_lon := by push_cast; ring
  simp only [this, cos_neg, sin_neg, cos_pi_div_two, sin_pi_div_two, sin_pi_div_two_sub, cos_pi_div_two_sub, cos_sub_pi_div_two,
    sin_sub_pi_div_two]
  refine Prod.ext ?_ (Prod.ext ?_ ?_) <;> simp only <;> ring

/-- the vertices of the grid: line of latitude (`true`) or longitude, number of the line, number of the vertex; latitude and
longitude on the map -/
noncomputable def vertexLat (n pts : ℕ) (isLat : Bool) (k j : ℕ) : ℝ :=
  if isLat then k * (π / n) - π / 2 else j * (π / (((pts / 2 : ℕ) : ℝ) - 1)) - π / 2

/-- the longitude on the map of a vertex of the grid -/
noncomputable def vertexLon (n pts : ℕ) (isLat : Bool) (k j : ℕ) : ℝ :=
  if isLat then π / 2 - j * (2 * π / ((pts : ℝ) - 1)) else π / 2 - k * (2 * π / (2 * n : ℕ))

/-- a vertex that is drawn -/
def Graticule.vertex (g : Graticule) (isLat : Bool) (k j : ℕ) : Option (ℝ × ℝ) := if isLat then g.lat k j else g.lon k j

theorem graticule_vertex {applyRotvec : Spec.V3 → Spec.V3 → Spec.V3} (hR : IsRotvec applyRotvec) (inc obl theta radius : ℝ) (n pts : ℕ)
    (isLat : Bool) (k j : ℕ) :
    (graticule applyRotvec inc obl theta pts radius (.inl n)).vertex isLat k j =
      plotVertex (scaleV radius (toSky inc obl theta (mapPoint (vertexLat n pts isLat k j) (vertexLon n pts isLat k j)))) := by
  unfold Graticule.vertex graticule vertexLat vertexLon lineCounts
  cases isLat
  · simp only [Bool.false_eq_true, if_false]
    rw [lon_vertex hR]
  · simp only [if_true]
    rw [lat_vertex hR]

theorem mapPoint_sphere (lat lon : ℝ) : OnSphere (mapPoint lat lon) := by
  have h1 := sin_sq_add_cos_sq lat
  have h2 := sin_sq_add_cos_sq lon
  unfold OnSphere Spec.normSq mapPoint
  simp only
  linear_combination h1 + cos lat ^ 2 * h2

/-- **C78 (c).** A vertex is drawn if and only if its point of the map is on the visible side of the star (or on the limb); it is
drawn where this point is seen. -/
theorem vertex_drawn {applyRotvec : Spec.V3 → Spec.V3 → Spec.V3} (hR : IsRotvec applyRotvec) (inc obl theta : ℝ) {radius : ℝ} (hr : 0 < radius)
    (n pts : ℕ) (isLat : Bool) (k j : ℕ) :
    let q := toSky inc obl theta (mapPoint (vertexLat n pts isLat k j) (vertexLon n pts isLat k j))
    let v := (graticule applyRotvec inc obl theta pts radius (.inl n)).vertex isLat k j
    (0 ≤ q.2.2 → v = some (radius * q.1, radius * q.2.1)) ∧ (q.2.2 < 0 → v = none) := by
  intro q v
  have hv : v = plotVertex (scaleV radius q) := graticule_vertex hR inc obl theta radius n pts isLat k j
  rw [hv]
  unfold plotVertex scaleV
  simp only
  constructor
  · intro h
    rw [if_neg (by have : 0 ≤ radius * q.2.2 := by positivity
                   linarith)]
  · intro h
    rw [if_pos (by nlinarith)]

/-- **C78 (d).** `show_surface` of a surface: the lines and the image agree. If a pixel of the image is at a vertex of a line, its
value is the brightness of the map at the latitude and longitude of the vertex, with the limb darkening of that place. -/
theorem show_surface_consistent {asEuler : Spec.V3 → Spec.V3} (hE : IsEulerZYZ asEuler) {applyRotvec : Spec.V3 → Spec.V3 → Spec.V3}
    (hR : IsRotvec applyRotvec) (s : Surface) (hy : ValidMap s.y) (theta : ℝ) (res n : ℕ) (include_phase : Bool)
    (isLat : Bool) (k j : ℕ) (a b : ℕ) :
    let out := showSurface asEuler applyRotvec (.surface s) theta res n none include_phase false
    out.2.vertex isLat k j = some (gridValue res b, gridValue res a) →
      out.1 a b = .ok (some (2 / √π * mapAt s.y (mapPoint (vertexLat n 100 isLat k j) (vertexLon n 100 isLat k j)) *
        profile s.u (mu (gridValue res b, gridValue res a)) * s.amplitude)) := by
  intro out h
  have ho : out.2 = graticule applyRotvec s.incVal s.oblVal (theta + (if include_phase then s.phase else 0)) 100 1 (.inl n) := rfl
  have hi : out.1 a b = s.render asEuler (some (theta + (if include_phase then s.phase else 0))) res false a b := rfl
  rw [hi]
  rw [ho] at h
  generalize theta + (if include_phase then s.phase else 0) = phase at *
  obtain ⟨h1, h2⟩ := vertex_drawn hR s.incVal s.oblVal phase one_pos n 100 isLat k j
  have hon := toSky_sphere s.incVal s.oblVal phase (mapPoint_sphere (vertexLat n 100 isLat k j) (vertexLon n 100 isLat k j))
  have hback := observerView_toSky s.incVal s.oblVal phase (mapPoint (vertexLat n 100 isLat k j) (vertexLon n 100 isLat k j))
  generalize mapPoint (vertexLat n 100 isLat k j) (vertexLon n 100 isLat k j) = m at *
  generalize toSky s.incVal s.oblVal phase m = q at *
  obtain ⟨x, y, z⟩ := q
  rcases lt_or_ge z 0 with hz | hz
  · rw [h2 hz] at h; cases h
  rw [h1 hz] at h
  simp only [one_mul, Option.some.injEq, Prod.mk.injEq] at h
  obtain ⟨hx, hyy⟩ := h
  have hs : x ^ 2 + y ^ 2 + z ^ 2 = 1 := hon
  have hz' : √(1 - x ^ 2 - y ^ 2) = z := by
    rw [show 1 - x ^ 2 - y ^ 2 = z ^ 2 by linarith, sqrt_sq hz]
  have hpt : orthoPoint res a b = some (x, y, z) := by
    unfold orthoPoint
    simp only [← hx, ← hyy]
    rw [if_pos (by nlinarith), hz']
  unfold Surface.render
  rw [hpt]
  simp only
  rw [intensity_xyz hE s hy _ hs]
  simp only [Except.map, brightness, Option.getD_some, hback, ← hx, ← hyy]
  have : mu (x, y) = z := by unfold mu; exact hz'
  rw [this]

/-- **F31 (finding).** A body with a surface: the image fills the square `[-1, 1]²` whatever the radius of the body, but the lines
are drawn on a sphere of the radius of the body (the `radius` argument is ignored): each vertex is at `radius` times the place where its point of the map is seen in
the image. -/
theorem show_body_scaled {applyRotvec : Spec.V3 → Spec.V3 → Spec.V3} (hR : IsRotvec applyRotvec) (asEuler : Spec.V3 → Spec.V3)
    (s : Surface) {r : ℝ} (hr : 0 < r) (theta : ℝ) (res n : ℕ) (radius : Option ℝ) (include_phase rv : Bool) (isLat : Bool)
    (k j : ℕ) :
    let out := showSurface asEuler applyRotvec (.body s (some r)) theta res n radius include_phase rv
    let N := ⌈(n : ℝ) * cbrt r⌉₊
    let q := toSky s.incVal s.oblVal (theta + (if include_phase then s.phase else 0)) (mapPoint (vertexLat N 100 isLat k j) (vertexLon N 100 isLat k j))
    out.1 = s.render asEuler (some (theta + (if include_phase then s.phase else 0))) res rv ∧
    (0 ≤ q.2.2 → out.2.vertex isLat k j = some (r * q.1, r * q.2.1)) ∧
    (out.2.contour 0 = (r, 0)) := by
  intro out N q
  refine ⟨rfl, (vertex_drawn hR s.incVal s.oblVal _ hr N 100 isLat k j).1, ?_⟩
  show (r * cos (linspaceFrom0 (2 * π) (2 * 100) 0), r * sin (linspaceFrom0 (2 * π) (2 * 100) 0)) = _
  simp [linspaceFrom0]

/-- `n` lines of latitude: the poles, and (for an even number) the equator in the middle -/
example (m : ℕ) (hm : m ≠ 0) (pts j : ℕ) : vertexLat (2 * m) pts true 0 j = -(π / 2) ∧ vertexLat (2 * m) pts true m j = 0 ∧
    vertexLat (2 * m) pts true (2 * m) j = π / 2 := by
  have : (m : ℝ) ≠ 0 := by exact_mod_cast hm
  unfold vertexLat
  simp only [if_true]
  push_cast
  refine ⟨by ring, ?_, ?_⟩ <;> field_simp <;> ring

/-- non-vacuity of (d): a star seen from its equator, at the pixel in the middle of the image; the
point of the equator with the longitude 0 is there -/
example {applyRotvec : Spec.V3 → Spec.V3 → Spec.V3} (hR : IsRotvec applyRotvec) : ∃ k j a b,
    (graticule applyRotvec (π / 2) 0 0 5 1 (.inl 2)).vertex true k j = some (gridValue 3 b, gridValue 3 a) := by
  refine ⟨1, 1, 1, 1, ?_⟩
  have h1 : vertexLat 2 5 true 1 1 = 0 := by unfold vertexLat; norm_num
  have h2 : vertexLon 2 5 true 1 1 = 0 := by unfold vertexLon; norm_num; ring
  have := (vertex_drawn hR (π / 2) 0 0 one_pos 2 5 true 1 1).1
  rw [h1, h2] at this
  rw [this (by simp [toSky, mapPoint, rotX, rotZ])]
  simp [toSky, mapPoint, rotX, rotZ, gridValue]
  norm_num

end Jaxoplanet.Starry
