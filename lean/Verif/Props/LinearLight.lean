import Verif.Proofs.LinearLight
import Verif.Props.Intensity

/-!
# C108: light curves and images are linear in the coefficients of the map

For a given orientation, limb darkening, occultor and quadrature order there is one set of numbers `X l m` such that the light
curve of every map is `amplitude * Σ X l m * y_{l m}`, whatever the degree of the map. Linear map inference rests on this.
-/

namespace Jaxoplanet.Starry
open _root_.Jaxoplanet.Starry.Spec _root_.Jaxoplanet.Spec
open Real MeasureTheory
open _root_.Jaxoplanet.Green _root_.Jaxoplanet.LimbDark

/-- `Σ_{l ≤ deg} Σ_{|m| ≤ l} X l m * y_{l m}` -/
noncomputable def mapDot (X : ℕ → ℤ → ℝ) (y : Ylm) : ℝ :=
  ∑ l ∈ Finset.range (y.deg + 1), ∑ q ∈ Finset.range (2 * l + 1), X l ((q : ℤ) - l) * coef y l ((q : ℤ) - l)

/-- the sum over any larger degree is the same -/
theorem mapDot_extend (X : ℕ → ℤ → ℝ) {y : Ylm} (hy : ValidMap y) {L : ℕ} (hL : y.deg ≤ L) :
    mapDot X y = ∑ l ∈ Finset.range (L + 1), ∑ q ∈ Finset.range (2 * l + 1), X l ((q : ℤ) - l) * coef y l ((q : ℤ) - l) := by
  unfold mapDot
  refine Finset.sum_subset (Finset.range_subset_range.2 (by omega)) fun l hl hn => Finset.sum_eq_zero fun q _ => ?_
  rw [coef_zero_of_invalid hy (Or.inr (by simpa using hn)), mul_zero]

/-- **C108** the light curve of a surface is linear in the coefficients of its map: for a given orientation, limb darkening,
occultor, rotation angle and quadrature order there are numbers `X l m` such that the light curve of every map (of every degree;
of degree at least one if there is an occultor, see F11) is `amplitude * Σ X l m * y_{l m}`. This holds at every order, also
where the quadrature is not accurate -/
theorem surface_light_curve_linear (eps : ℝ) (quad : ℕ → List (ℝ × ℝ)) {asEuler : V3 → V3} (hE : IsEulerZYZ asEuler) (order : ℕ)
    (inc obl : Option ℝ) (u : List ℝ) (r x y z theta : Option ℝ) :
    ∃ X : ℕ → ℤ → ℝ, ∀ s : Surface, ValidMap s.y → (r = none ∨ s.ydeg ≠ 0) → s.inc = inc → s.obl = obl → s.u = u →
      surfaceLightCurve eps quad asEuler order s r x y z theta = .ok (s.amplitude * mapDot X s.y) := by
  cases r with
  | none =>
    obtain ⟨X, hX⟩ := flux_linear_core hE inc obl theta 0 u 0 (by omega) rT (fun D _ => (rT_spec D).1) fun D D' _ _ _ v v' hv => by
      have e := fun D (v : ℕ → ℝ) => (zip_dvec (rT_spec D).1 v).symm.trans (rT_dot D _ (dvec_length _ v))
      rw [e, e]
      refine setIntegral_congr_fun measurableSet_stellarDisc fun p hp => ?_
      simp only [denseVal_dvec]
      exact hv _ _ _ (disc_sphere hp)
    exact ⟨X, fun s hy _ h1 h2 h3 => hX s hy (Nat.zero_le _) h3 h1 h2⟩
  | some r =>
    obtain ⟨F, hF1, hF2⟩ := design_stable eps quad order r (x.getD 0) (y.getD 0) (z.getD 0)
    obtain ⟨X, hX⟩ := flux_linear_core hE inc obl theta (arctan2 (x.getD 0) (y.getD 0)) u 1 le_rfl F (fun D hD => (hF1 D (by omega)).2)
      fun D D' h h' => hF2 D D' (by omega) (by omega)
    refine ⟨X, fun s hy hd h1 h2 h3 => ?_⟩
    have hd : s.ydeg ≠ 0 := hd.resolve_left (by simp)
    unfold surfaceLightCurve
    simp only
    rw [if_neg hd, (hF1 s.deg (by unfold Surface.deg; omega)).1]
    exact hX s hy (by omega) h3 h1 h2

theorem valid_of_keys {y y' : Ylm} (h : Dict.keys y'.data = Dict.keys y.data) (hy : ValidMap y) : ValidMap y' := by
  refine ⟨?_, fun h0 => hy.nonempty ?_, fun e he => ?_⟩
  · have := hy.wf
    unfold Dict.WF at this ⊢
    unfold Dict.keys at h
    rwa [h]
  · have : Dict.keys y.data = [] := by rw [← h, h0]; rfl
    exact List.map_eq_nil_iff.1 this
  · have : e.1 ∈ Dict.keys y.data := by rw [← h]; exact List.mem_map_of_mem he
    obtain ⟨e', he', h1⟩ := List.mem_map.1 this
    rw [← h1]
    exact hy.order e' he'

/-- **C108** through the constructor: `Surface(y=y, ...)` divides the map by `y_{00}` and keeps it as amplitude, so the light
curve is linear in the coefficients that the user gave -/
theorem light_curve_of_map_linear (eps : ℝ) (quad : ℕ → List (ℝ × ℝ)) {asEuler : V3 → V3} (hE : IsEulerZYZ asEuler) (order : ℕ)
    (a : SurfaceArgs) (r x y z theta : Option ℝ) :
    ∃ X : ℕ → ℤ → ℝ, ∀ (Y : Ylm) (_ : ValidMap Y) (_ : coef Y 0 0 ≠ 0) (_ : r = none ∨ Y.deg ≠ 0), ∃ s,
      Surface.init { a with y := some Y } = .ok s ∧
      surfaceLightCurve eps quad asEuler order s r x y z theta = .ok (mapDot X Y) := by
  obtain ⟨X, hX⟩ := surface_light_curve_linear eps quad hE order a.inc a.obl a.u r x y z theta
  refine ⟨X, fun Y hY h0 hd => ?_⟩
  obtain ⟨s, h1, h2, -, -, h5, h6, h7, h8, -⟩ := surface_normalized { a with y := some Y } rfl hY h0
  have hv : ValidMap s.y := by
    have hk : (0, 0) ∈ Dict.keys Y.data := by
      by_contra hk
      exact h0 (Dict.getD0_of_notMem hk)
    obtain ⟨y', hy', -, -, hk'⟩ := normalize_spec hk
    have he : s.y = y' := by
      simp only [Surface.init, Option.getD_some, if_true, hy', bind, Except.bind, pure, Except.pure] at h1
      injection h1 with h1
      rw [← h1]
    rw [he]
    exact valid_of_keys hk' hY
  refine ⟨s, h1, ?_⟩
  rw [hX s hv (hd.imp id fun h => by unfold Surface.ydeg; rwa [h5]) h7 h8 h6]
  unfold mapDot
  rw [h5, Finset.mul_sum]
  congr 1
  refine Finset.sum_congr rfl fun l _ => ?_
  rw [Finset.mul_sum]
  refine Finset.sum_congr rfl fun q _ => ?_
  rw [← h2]
  ring

/-- **C108** superposition: where the coefficients of a map are `α` times those of one map plus `β` times those of another (in
units of the amplitudes), so is its light curve; the three maps may have different degrees -/
theorem surface_light_curve_superposition (eps : ℝ) (quad : ℕ → List (ℝ × ℝ)) {asEuler : V3 → V3} (hE : IsEulerZYZ asEuler) (order : ℕ)
    {s s1 s2 : Surface} (hy : ValidMap s.y) (hy1 : ValidMap s1.y) (hy2 : ValidMap s2.y) {r : Option ℝ}
    (hd : r = none ∨ (s.ydeg ≠ 0 ∧ s1.ydeg ≠ 0 ∧ s2.ydeg ≠ 0))
    (h1 : s1.inc = s.inc ∧ s1.obl = s.obl ∧ s1.u = s.u) (h2 : s2.inc = s.inc ∧ s2.obl = s.obl ∧ s2.u = s.u) (α β : ℝ)
    (h : ∀ l m, s.amplitude * coef s.y l m = α * (s1.amplitude * coef s1.y l m) + β * (s2.amplitude * coef s2.y l m))
    (x y z theta : Option ℝ) : ∃ f f1 f2,
      surfaceLightCurve eps quad asEuler order s r x y z theta = .ok f ∧
      surfaceLightCurve eps quad asEuler order s1 r x y z theta = .ok f1 ∧
      surfaceLightCurve eps quad asEuler order s2 r x y z theta = .ok f2 ∧ f = α * f1 + β * f2 := by
  obtain ⟨X, hX⟩ := surface_light_curve_linear eps quad hE order s.inc s.obl s.u r x y z theta
  refine ⟨_, _, _, hX s hy (hd.imp id fun h => h.1) rfl rfl rfl, hX s1 hy1 (hd.imp id fun h => h.2.1) h1.1 h1.2.1 h1.2.2,
    hX s2 hy2 (hd.imp id fun h => h.2.2) h2.1 h2.2.1 h2.2.2, ?_⟩
  set L := max s.y.deg (max s1.y.deg s2.y.deg) with hL
  rw [mapDot_extend X hy (L := L) (by omega), mapDot_extend X hy1 (L := L) (by omega), mapDot_extend X hy2 (L := L) (by omega)]
  simp only [Finset.mul_sum]
  rw [← Finset.sum_add_distrib]
  refine Finset.sum_congr rfl fun l _ => ?_
  rw [← Finset.sum_add_distrib]
  refine Finset.sum_congr rfl fun q _ => ?_
  linear_combination X l ((q : ℤ) - l) * h l ((q : ℤ) - l)

/-- **C108** the light curve depends on the coefficients, not on the degree: coefficients that are given as zero change nothing -/
theorem surface_light_curve_zero_coefficients (eps : ℝ) (quad : ℕ → List (ℝ × ℝ)) {asEuler : V3 → V3} (hE : IsEulerZYZ asEuler) (order : ℕ)
    {s s' : Surface} (hy : ValidMap s.y) (hy' : ValidMap s'.y) {r : Option ℝ} (hd : r = none ∨ (s.ydeg ≠ 0 ∧ s'.ydeg ≠ 0))
    (h1 : s'.inc = s.inc ∧ s'.obl = s.obl ∧ s'.u = s.u ∧ s'.amplitude = s.amplitude) (h : ∀ l m, coef s'.y l m = coef s.y l m)
    (x y z theta : Option ℝ) :
    surfaceLightCurve eps quad asEuler order s' r x y z theta = surfaceLightCurve eps quad asEuler order s r x y z theta := by
  obtain ⟨X, hX⟩ := surface_light_curve_linear eps quad hE order s.inc s.obl s.u r x y z theta
  rw [hX s hy (hd.imp id fun h => h.1) rfl rfl rfl, hX s' hy' (hd.imp id fun h => h.2) h1.1 h1.2.1 h1.2.2.1, h1.2.2.2,
    mapDot_extend X hy (L := max s.y.deg s'.y.deg) (by omega), mapDot_extend X hy' (L := max s.y.deg s'.y.deg) (by omega)]
  simp only [h]

/-- **C108** the pixels of an image are linear in the coefficients of the map: pixel `(i, j)` is `nan` for every map or
`amplitude * Σ X l m * y_{l m}` for every map -/
theorem render_linear {asEuler : V3 → V3} (hE : IsEulerZYZ asEuler) (inc obl : Option ℝ) (u : List ℝ) (theta : Option ℝ) (res i j : ℕ) :
    (∀ s : Surface, ValidMap s.y → s.render asEuler theta res false i j = .ok none) ∨
    ∃ X : ℕ → ℤ → ℝ, ∀ s : Surface, ValidMap s.y → s.inc = inc → s.obl = obl → s.u = u →
      s.render asEuler theta res false i j = .ok (some (s.amplitude * mapDot X s.y)) := by
  by_cases h : (gridValue res j, gridValue res i) ∈ stellarDisc
  · right
    let p := observerView (inc.getD 0) (obl.getD 0) (theta.getD 0) (gridValue res j, gridValue res i, mu (gridValue res j, gridValue res i))
    refine ⟨fun l m => 2 * √π * realHarmonic l m p.1 p.2.1 p.2.2 * profile u (mu (gridValue res j, gridValue res i)) / π,
      fun s hy h1 h2 h3 => ?_⟩
    rw [(render_pixel hE s hy theta res i j).2 h]
    subst h1 h2 h3
    congr 3
    unfold skyIntensity mapAt mapDot
    rw [Finset.mul_sum, Finset.sum_mul, Finset.sum_div]
    refine Finset.sum_congr rfl fun l _ => ?_
    rw [Finset.mul_sum, Finset.sum_mul, Finset.sum_div]
    refine Finset.sum_congr rfl fun q _ => ?_
    show 2 * √π * (_ * realHarmonic l _ p.1 p.2.1 p.2.2) * _ / π = _
    ring
  · left
    exact fun s hy => (render_pixel hE s hy theta res i j).1 h

/-- F11 and C108: with an occultor the numbers `X` cannot also serve uniform maps, whose amplitude is ignored: an occultor far from
the star, two uniform maps of amplitude 1 and 2 -/
theorem uniform_light_curve_not_linear (eps : ℝ) (quad : ℕ → List (ℝ × ℝ)) (asEuler : V3 → V3) (order : ℕ) (inc obl : Option ℝ) (u : List ℝ) :
    ¬ ∃ X : ℕ → ℤ → ℝ, ∀ s : Surface, ValidMap s.y → s.inc = inc → s.obl = obl → s.u = u →
      surfaceLightCurve eps quad asEuler order s (some 0.1) (some 10) (some 0) (some 1) none = .ok (s.amplitude * mapDot X s.y) := by
  rintro ⟨X, hX⟩
  have key : ∀ A : ℝ, A * mapDot X Ylm.default = 1 := fun A => by
    have h := hX ⟨Ylm.default, inc, obl, u, none, A, 0, 1⟩ default_valid rfl rfl rfl
    rw [surface_light_curve_uniform _ _ _ _ _ rfl, if_pos] at h
    · exact (Except.ok.inj h).symm
    · left
      rw [ge_iff_le, Real.le_sqrt (by norm_num) (by norm_num)]
      norm_num
  have h1 := key 1
  have h2 := key 2
  linarith

/-- the dipole map with a coefficient of degree three that is zero -/
noncomputable def paddedDipole : Surface := ⟨⟨[((0, 0), 1), ((1, 0), 0.5), ((3, -2), 0)]⟩, some 1.2, some 0.3, [], none, 2, 0, 1⟩

/-- a planet at `(0.3, 0.4)` gives the same light curve for the dipole map and the padded one -/
example (eps : ℝ) (quad : ℕ → List (ℝ × ℝ)) {asEuler : V3 → V3} (hE : IsEulerZYZ asEuler) (order : ℕ) :
    surfaceLightCurve eps quad asEuler order paddedDipole (some 0.1) (some 0.3) (some 0.4) (some 1) none =
      surfaceLightCurve eps quad asEuler order dipole (some 0.1) (some 0.3) (some 0.4) (some 1) none := by
  have hv : ValidMap paddedDipole.y := ⟨by simp [Dict.WF, paddedDipole], by simp [paddedDipole], by simp [paddedDipole]⟩
  have hd : paddedDipole.ydeg = 3 := by simp [Surface.ydeg, Ylm.deg, paddedDipole]
  refine surface_light_curve_zero_coefficients eps quad hE order dipole_ok.1 hv (Or.inr ⟨dipole_ok.2.1, by omega⟩)
    ⟨rfl, rfl, rfl, rfl⟩ (fun l m => ?_) _ _ _ _
  simp only [coef, Dict.getD0, paddedDipole, dipole]
  by_cases h0 : (l, m) = ((0, 0) : ℕ × ℤ)
  · rw [h0]; rfl
  · by_cases h1 : (l, m) = ((1, 0) : ℕ × ℤ)
    · rw [h1]; rfl
    · by_cases h3 : (l, m) = ((3, -2) : ℕ × ℤ)
      · rw [h3]; rfl
      · have e : ∀ d : Dict (ℕ × ℤ), (l, m) ∉ Dict.keys d → (Dict.get1 d (l, m)).getD 0 = 0 := fun d h => Dict.getD0_of_notMem h
        rw [e _ (by simp only [Dict.keys, List.map, List.mem_cons, List.not_mem_nil]; tauto),
          e _ (by simp only [Dict.keys, List.map, List.mem_cons, List.not_mem_nil]; tauto)]

end Jaxoplanet.Starry
