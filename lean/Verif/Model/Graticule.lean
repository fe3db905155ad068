import Verif.Model.Doppler

/-!
# Model of the plotting geometry: `src/jaxoplanet/starry/utils.py` (grid lines) and `src/jaxoplanet/starry/visualization.py`

What is drawn, as numbers: the vertices of the lines (a vertex hidden behind the star is `nan`, here `none`) and the pixels of
the image. Colours, line widths and axes are not modelled. `applyRotvec v p` stands for `Rotation.from_rotvec(v).apply(p)` of
SciPy, and `(R1 * R2).apply(p)` is `R1.apply(R2.apply(p))`.
-/

namespace Jaxoplanet.Starry

open Real

/-- entry `j` of `np.linspace(0, b, n)`, `starry/utils.py:36-37, 47-48` (`n = 1` gives `0`) -/
noncomputable def linspaceFrom0 (b : ℝ) (n j : ℕ) : ℝ := j * (b / ((n : ℝ) - 1))

/-- the numbers of lines, `starry/utils.py:28-32`: `n` is an integer or a pair -/
def lineCounts (n : ℕ ⊕ (ℕ × ℕ)) : ℕ × ℕ :=
  match n with
  | .inl n => (n, 2 * n)
  | .inr p => p

/-- vertex `j` of the line of latitude `k` (of `n_lat + 1`), `starry/utils.py:36-45` -/
noncomputable def latLine (n_lat pts : ℕ) (radius : ℝ) (k j : ℕ) : ℝ × ℝ × ℝ :=
  let theta := linspaceFrom0 (2 * π) pts j
  let phi := linspaceFrom0 π (n_lat + 1) k
  let h := radius * cos phi
  let r := radius * sin phi
  (r * cos theta, r * sin theta, h)

/-- vertex `j` of the line of longitude `k` (of `n_lon`), `starry/utils.py:47-59` -/
noncomputable def lonLine (n_lon pts : ℕ) (radius : ℝ) (k j : ℕ) : ℝ × ℝ × ℝ :=
  let theta := linspaceFrom0 π (pts / 2) j
  let p := linspaceFrom0 (2 * π) (n_lon + 1) k
  let radii := sin theta
  (radius * radii * cos p, radius * radii * sin p, radius * cos theta)

/-- `rotation(inc, obl, theta)` applied to a point, `starry/utils.py:64-74`; used by `rotate_lines`, `starry/utils.py:77-86`,
on every vertex -/
noncomputable def graticuleRotation (applyRotvec : ℝ × ℝ × ℝ → ℝ × ℝ × ℝ → ℝ × ℝ × ℝ) (inc obl theta : ℝ) (p : ℝ × ℝ × ℝ) : ℝ × ℝ × ℝ :=
  let norm := √(cos obl ^ 2 + sin obl ^ 2 + 0 ^ 2)
  let u := (cos obl / norm * -(inc - π / 2), sin obl / norm * -(inc - π / 2), 0 / norm * -(inc - π / 2))
  applyRotvec u (applyRotvec (0, 0, obl) (applyRotvec (π / 2, 0, 0) (applyRotvec (0, 0, -theta) p)))

/-- `plot_lines` with the default `axis=(0, 1)`, `starry/utils.py:89-105`: the vertex in the image; behind the star it is `nan` -/
noncomputable def plotVertex (p : ℝ × ℝ × ℝ) : Option (ℝ × ℝ) := if p.2.2 < 0 then none else some (p.1, p.2.1)

/-- the lines that `graticule(inc, obl, theta, pts, radius, n)` draws, `starry/utils.py:108-136`: the vertices of the lines of
latitude and of the lines of longitude, and of the contour -/
structure Graticule where
  /-- vertex `j < pts` of the line of latitude `k ≤ n_lat` -/
  lat : ℕ → ℕ → Option (ℝ × ℝ)
  /-- vertex `j < pts // 2` of the line of longitude `k < n_lon` -/
  lon : ℕ → ℕ → Option (ℝ × ℝ)
  /-- vertex `j < 2 pts` of the contour -/
  contour : ℕ → ℝ × ℝ

/-- `graticule`, `starry/utils.py:108-136` -/
noncomputable def graticule (applyRotvec : ℝ × ℝ × ℝ → ℝ × ℝ × ℝ → ℝ × ℝ × ℝ) (inc obl theta : ℝ) (pts : ℕ) (radius : ℝ)
    (n : ℕ ⊕ (ℕ × ℕ)) : Graticule where
  lat k j := plotVertex (graticuleRotation applyRotvec inc obl theta (latLine (lineCounts n).1 pts radius k j))
  lon k j := plotVertex (graticuleRotation applyRotvec inc obl theta (lonLine (lineCounts n).2 pts radius k j))
  contour j := (radius * cos (linspaceFrom0 (2 * π) (2 * pts) j), radius * sin (linspaceFrom0 (2 * π) (2 * pts) j))

/-- what `show_surface` is given: a surface, or a body with a surface and (perhaps) a radius -/
inductive ShowInput where
  | surface (s : Surface)
  | body (s : Surface) (radius : Option ℝ)

/-- the surface, the radius and the number of lines, `starry/visualization.py:53-77` (the conversions of arrays, `Ylm` and `Pijk`
to a surface are those of the constructors) -/
noncomputable def showResolve (x : ShowInput) (radius : Option ℝ) (n : ℕ) : Surface × ℝ × ℕ :=
  match x with
  | .surface s => (s, radius.getD 1, n)
  | .body s r =>
    let radius := match r with
      | some r => r
      | none => radius.getD 1
    (s, radius, ⌈(n : ℝ) * cbrt radius⌉₊)

/-- `show_surface(x, theta, res, n, radius, include_phase, rv)`, `starry/visualization.py:79-98`: the image (pixel in row `i`
and column `j`; it fills the square `[-1, 1] × [-1, 1]`) and the lines (`pts = 100`) -/
noncomputable def showSurface (asEuler : ℝ × ℝ × ℝ → ℝ × ℝ × ℝ) (applyRotvec : ℝ × ℝ × ℝ → ℝ × ℝ × ℝ → ℝ × ℝ × ℝ)
    (x : ShowInput) (theta : ℝ) (res n : ℕ) (radius : Option ℝ) (include_phase rv : Bool) :
    (ℕ → ℕ → Except PyErr (Option ℝ)) × Graticule :=
  let (s, radius, n) := showResolve x radius n
  let phase := theta + (if include_phase then s.phase else 0)
  (s.render asEuler (some phase) res rv, graticule applyRotvec s.incVal s.oblVal phase 100 radius (.inl n))

end Jaxoplanet.Starry
