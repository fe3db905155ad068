import Verif.Proofs.LinearLight
import Verif.Proofs.SurfaceRate
import Verif.Props.SurfaceLight
import Mathlib.Topology.ContinuousMap.Compact
import Mathlib.Analysis.Normed.Module.FiniteDimension

namespace Jaxoplanet.Starry
open _root_.Jaxoplanet.Starry.Spec _root_.Jaxoplanet.Spec _root_.Jaxoplanet.Green
open Real MeasureTheory

/-- the unit sphere -/
def unitSphere : Set (ℝ × ℝ × ℝ) := {p | p.1 ^ 2 + p.2.1 ^ 2 + p.2.2 ^ 2 = 1}

theorem isCompact_unitSphere : IsCompact unitSphere := by
  have hc : IsClosed unitSphere := isClosed_eq (by fun_prop) (by fun_prop)
  refine (isCompact_Icc (a := ((-1 : ℝ), (-1 : ℝ), (-1 : ℝ))) (b := (1, 1, 1))).of_isClosed_subset hc ?_
  rintro ⟨x, y, z⟩ h
  have h : x ^ 2 + y ^ 2 + z ^ 2 = 1 := h
  simp only [Set.mem_Icc, Prod.mk_le_mk]
  refine ⟨⟨?_, ?_, ?_⟩, ?_, ?_, ?_⟩ <;> nlinarith [sq_nonneg x, sq_nonneg y, sq_nonneg z]

theorem continuous_polyVal3 (p : List ((ℕ × ℕ × ℕ) × ℝ)) : Continuous fun q : ℝ × ℝ × ℝ => polyVal p q.1 q.2.1 q.2.2 := by
  unfold polyVal
  induction p with
  | nil => simp only [List.map_nil, List.sum_nil]; exact continuous_const
  | cons a p ih =>
    simp only [List.map_cons, List.sum_cons]
    refine Continuous.add ?_ ih
    fun_prop

theorem continuous_realHarmonic3 (l : ℕ) (m : ℤ) : Continuous fun q : ℝ × ℝ × ℝ => realHarmonic l m q.1 q.2.1 q.2.2 := by
  have h1 : Continuous fun q : ℝ × ℝ × ℝ => rodrigues l m.natAbs q.2.2 := by
    unfold rodrigues
    exact ((Polynomial.continuous _).comp (by fun_prop)).div_const _
  have h2 : Continuous fun q : ℝ × ℝ × ℝ => (((q.1 : ℂ) + q.2.1 * Complex.I) ^ m.natAbs) := by fun_prop
  unfold realHarmonic
  split_ifs
  · exact (continuous_const.mul h1).mul (Complex.continuous_re.comp h2)
  · exact (continuous_const.mul h1).mul (Complex.continuous_im.comp h2)

/-- a map and a limb-darkening profile are bounded on the sphere -/
theorem map_bounded (d : ℕ) (M u : List ℝ) : ∃ B : ℝ, 0 ≤ B ∧ ∀ p q : V3, OnSphere p → OnSphere q → |mapVal d M p * profile u q.2.2| ≤ B := by
  have h1 : Continuous fun p : ℝ × ℝ × ℝ => mapVal d M p := by
    unfold mapVal
    exact continuous_finsetSum _ fun l _ => continuous_finsetSum _ fun q _ => continuous_const.mul (continuous_realHarmonic3 _ _)
  have h2 : Continuous fun p : ℝ × ℝ × ℝ => profile u p.2.2 := by
    unfold profile
    fun_prop
  obtain ⟨B1, hB1⟩ := isCompact_unitSphere.exists_bound_of_continuousOn h1.continuousOn
  obtain ⟨B2, hB2⟩ := isCompact_unitSphere.exists_bound_of_continuousOn h2.continuousOn
  refine ⟨|B1| * |B2|, by positivity, fun p q hp hq => ?_⟩
  rw [abs_mul]
  exact mul_le_mul ((hB1 p hp).trans (le_abs_self _)) ((hB2 q hq).trans (le_abs_self _)) (abs_nonneg _) (abs_nonneg _)

/-- the coefficients in the Green basis are bounded by the values on the sphere -/
theorem gtilde_bound (D : ℕ) : ∃ K : ℝ, 0 ≤ K ∧ ∀ (g : ℕ → ℝ) (M : ℝ), 0 ≤ M → (∀ x y z : ℝ, x ^ 2 + y ^ 2 + z ^ 2 = 1 →
    |∑ n ∈ Finset.range ((D + 1) ^ 2), g n * polyVal (gtilde n) x y z| ≤ M) → ∀ n < (D + 1) ^ 2, |g n| ≤ K * M := by
  set N := (D + 1) ^ 2 with hN
  have : CompactSpace unitSphere := isCompact_iff_compactSpace.1 isCompact_unitSphere
  let e : Fin N → C(unitSphere, ℝ) := fun i => ⟨fun p => polyVal (gtilde i) p.1.1 p.1.2.1 p.1.2.2, by
    have h := continuous_polyVal3 (gtilde i)
    exact h.comp continuous_subtype_val⟩
  let T : (Fin N → ℝ) →ₗ[ℝ] C(unitSphere, ℝ) := Fintype.linearCombination ℝ e
  have hT : ∀ v p, T v p = ∑ n ∈ Finset.range N, (if h : n < N then v ⟨n, h⟩ else 0) * polyVal (gtilde n) p.1.1 p.1.2.1 p.1.2.2 := by
    intro v p
    rw [Finset.sum_range]
    simp [T, e, Fintype.linearCombination_apply]
  have hker : LinearMap.ker T = ⊥ := by
    rw [LinearMap.ker_eq_bot']
    intro v hv
    have := gtilde_indep D (fun n => if h : n < N then v ⟨n, h⟩ else 0) (fun x y z h => by
      have := hT v ⟨(x, y, z), h⟩
      rw [hv] at this
      exact this.symm)
    funext i
    simpa using this i i.2
  obtain ⟨K, -, hK⟩ := LinearMap.exists_antilipschitzWith T hker
  refine ⟨K, K.2, fun g M hM h n hn => ?_⟩
  have h1 := hK.le_mul_norm (f := T) (map_zero T) (fun i : Fin N => g i)
  have h2 : ‖T fun i : Fin N => g i‖ ≤ M := by
    rw [ContinuousMap.norm_le _ hM]
    rintro ⟨⟨x, y, z⟩, hp⟩
    rw [hT, Real.norm_eq_abs]
    refine le_trans (le_of_eq ?_) (h x y z hp)
    congr 1
    exact Finset.sum_congr rfl fun n hn => by rw [dif_pos (Finset.mem_range.1 hn)]
  have h3 := norm_le_pi_norm (fun i : Fin N => g i) ⟨n, hn⟩
  rw [Real.norm_eq_abs] at h3
  exact h3.trans (h1.trans (mul_le_mul_of_nonneg_left h2 K.2))

/-- the light curve during an occultation, with coefficients that are bounded for all rotation angles and all positions of the occultor -/
theorem surface_light_curve_bounded {asEuler : V3 → V3} (hE : IsEulerZYZ asEuler)
    (s : Surface) (hy : ValidMap s.y) (hdeg : s.ydeg ≠ 0) : ∃ B : ℝ, 0 ≤ B ∧ ∀ (r x y z : ℝ) (theta : Option ℝ),
    √(x ^ 2 + y ^ 2) < 1 + r → 0 < z → ∃ g : List ℝ, g.length = (s.deg + 1) ^ 2 ∧ (∀ n < (s.deg + 1) ^ 2, |g.getD n 0| ≤ B) ∧
      (∀ p ∈ stellarDisc, s.sky theta (rot2 (-(arctan2 x y)) p) =
        π * ∑ n ∈ Finset.range ((s.deg + 1) ^ 2), g.getD n 0 * polyVal (gtilde n) p.1 p.2 (mu p)) ∧
      ∀ eps quad order S, solutionVector eps quad s.deg order √(x ^ 2 + y ^ 2) r = .ok S →
      surfaceLightCurve eps quad asEuler order s (some r) (some x) (some y) (some z) theta =
        .ok (s.amplitude * (fluxOf s theta (stellarDisc \ occultorAt x y r) - π / totalFlux s.u *
          ∑ l ∈ Finset.range (s.deg + 1), ∑ q ∈ Finset.range (2 * l + 1), g.getD (l ^ 2 + q) 0 *
            ((∫ p in stellarDisc \ occultorY √(x ^ 2 + y ^ 2) r, polyVal (gtilde (l ^ 2 + q)) p.1 p.2 (mu p)) - S.getD (l ^ 2 + q) 0))) := by
  obtain ⟨K, hK0, hK⟩ := gtilde_bound s.deg
  obtain ⟨B, hB0, hB⟩ := map_bounded s.ydeg s.y.todense s.u
  refine ⟨K * (2 / √π * B), by positivity, fun r x y z theta hb hz => ?_⟩
  set b := √(x ^ 2 + y ^ 2) with hbdef
  obtain ⟨c, hc, hcs, hf⟩ := sky_poly hE s.ydeg s.inc s.obl theta (arctan2 x y) s.u s.y.todense (todense_length _)
  have hf : ∀ design : List ℝ, design.length = (s.deg + 1) ^ 2 → projectFlux asEuler s theta (arctan2 x y) design =
      .ok (s.amplitude * (List.zipWith (· * ·) design c).sum * (π / totalFlux s.u)) := hf s rfl rfl rfl rfl rfl
  have hv : ∀ p ∈ stellarDisc, π * denseVal c p.1 p.2 (mu p) = s.sky theta (rot2 (-(arctan2 x y)) p) := by
    intro pt hpt
    have hs := disc_sphere hpt
    rw [hcs _ _ _ hs]
    rw [show s.ydeg = s.y.deg from rfl, mapVal_todense hy]
    unfold Surface.sky skyIntensity
    rw [mu_rot2]
    have h2 : rotZ (-(arctan2 x y)) (pt.1, pt.2, mu pt) = ((rot2 (-(arctan2 x y)) pt).1, (rot2 (-(arctan2 x y)) pt).2, mu pt) := rfl
    rw [h2]
    have h3 : π * (2 / √π) = 2 * √π := by
      have := mul_self_sqrt pi_pos.le
      have h0 : √π ≠ 0 := (sqrt_pos.2 pi_pos).ne'
      field_simp
      linarith
    rw [← h3]
    ring
  obtain ⟨A2, hA, hA2⟩ := A2_spec s.deg
  obtain ⟨g, hg, hgv, hgs⟩ := hA2 c hc
  have hocc : ¬ (1 + r ≤ √(x ^ 2 + y ^ 2) ∨ z ≤ 0) := by
    rintro (h | h)
    · rw [← hbdef] at h; linarith
    · linarith
  refine ⟨g, hg, hK _ _ (by positivity) fun x' y' z' h => ?_, fun p hp => by rw [← hv p hp, hgv], fun eps quad order S hS => ?_⟩
  · rw [← hgv, hcs _ _ _ h, mul_assoc, abs_mul, abs_of_nonneg (by positivity)]
    refine mul_le_mul_of_nonneg_left ?_ (by positivity)
    refine hB _ (x', y', z') (observerView_sphere _ _ _ (rotZ_sphere _ ?_)) ?_ <;> exact h
  unfold surfaceLightCurve
  simp only [Option.getD_some]
  rw [if_neg hdeg, designVector_occ hocc hS hA]
  simp only [bind, Except.bind]
  rw [hf _ (vecMat_length _ _), hgs]
  have hV : stellarDisc \ occultorY b r ⊆ stellarDisc := Set.sdiff_subset
  have hVm : MeasurableSet (stellarDisc \ occultorY b r) := measurableSet_stellarDisc.diff (measurableSet_occultorY b r)
  have hint : ∫ p in stellarDisc \ occultorY b r, denseVal c p.1 p.2 (mu p) =
      ∑ n ∈ Finset.range ((s.deg + 1) ^ 2), g.getD n 0 * ∫ p in stellarDisc \ occultorY b r, polyVal (gtilde n) p.1 p.2 (mu p) := by
    simp only [hgv]
    rw [integral_finsetSum]
    · exact Finset.sum_congr rfl fun n _ => MeasureTheory.integral_const_mul _ _
    · exact fun n _ => ((integrableOn_disc_cont (continuous_polyVal _)).mono_set hV).const_mul _
  have hsum : ∑ n ∈ Finset.range ((s.deg + 1) ^ 2), S.getD n 0 * g.getD n 0 =
      (∫ p in stellarDisc \ occultorY b r, denseVal c p.1 p.2 (mu p)) -
        ∑ l ∈ Finset.range (s.deg + 1), ∑ q ∈ Finset.range (2 * l + 1), g.getD (l ^ 2 + q) 0 *
            ((∫ p in stellarDisc \ occultorY b r, polyVal (gtilde (l ^ 2 + q)) p.1 p.2 (mu p)) - S.getD (l ^ 2 + q) 0) := by
    rw [hint, sum_blocks, sum_blocks, ← Finset.sum_sub_distrib]
    refine Finset.sum_congr rfl fun l hl => ?_
    rw [← Finset.sum_sub_distrib]
    exact Finset.sum_congr rfl fun q hq => by ring
  have hrot := rotated_integral s theta (arctan2 x y) hv _ hV hVm
  rw [hbdef, rot2_occultor, ← hbdef] at hrot
  rw [hsum, ← hrot]
  congr 1
  ring

end Jaxoplanet.Starry
