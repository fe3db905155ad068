import Verif.Proofs.QuadraticArc
import Verif.Props.LimbDark
import Verif.Proofs.QuadraticS2

/-! The flux of a quadratically limb-darkened star in closed form. -/

namespace Jaxoplanet.LimbDarkFloat

open Real KeplerFloat LimbDark Spec MeasureTheory Green Set
open _root_.Jaxoplanet.Starry.Spec (quadSum IsGaussLegendre)

/-- the exact second entry of the solution vector -/
noncomputable def exact1 (b r : ℝ) : ℝ := -(∫ φ in (0 : ℝ)..(angle0 b r), arcIntegrand b r 1 φ) - 2 * (angle1 b r - π) / 3

theorem hidden_zero (b r : ℝ) : (∫ p in stellarDisc, gtil 0 (mu p)) - (∫ p in stellarDisc ∩ occultor b r, gtil 0 (mu p)) = π - overlap b r := by
  rw [whole_star, overlap_eq]
  rfl

theorem hidden_outside {b r : ℝ} (hr : 0 ≤ r) (h : 1 + r ≤ b) (n : ℕ) : ∫ p in stellarDisc ∩ occultor b r, gtil n (mu p) = 0 :=
  setIntegral_measure_zero _ (touching_null hr h)

theorem hidden_one {b r : ℝ} (hb : 0 ≤ b) (hr : 0 ≤ r) (hr1 : r ≤ 1 / 2) :
    (∫ p in stellarDisc, gtil 1 (mu p)) - (∫ p in stellarDisc ∩ occultor b r, gtil 1 (mu p)) = exact1 b r := by
  rcases le_or_gt (1 + r) b with h | h
  · rw [hidden_outside hr h, whole_star]
    unfold exact1
    rw [(angles_outside hr h).2.1, (angles_outside hr h).2.2]
    simp
    ring
  · have h1 := solution_hidden hb hr h (by linarith) 1 [] 1
    rw [solution_occ hb hr h (by linarith)] at h1
    simp only [quadError, kappas_closed hb hr hr1] at h1
    norm_num at h1
    unfold exact1
    linarith

theorem hidden_two {b r : ℝ} (hb : 0 ≤ b) (hr : 0 ≤ r) (hr1 : r ≤ 1 / 2) :
    (∫ p in stellarDisc, gtil 2 (mu p)) - (∫ p in stellarDisc ∩ occultor b r, gtil 2 (mu p)) = exact2 b r := by
  have hov := overlap_lens hb hr (Or.inr (by linarith : r ≠ 1))
  rcases le_or_gt (1 + r) b with h | h
  · rw [hidden_outside hr h, whole_star]
    have h0 := hidden_outside hr h 0
    have h1 := hidden_zero b r
    rw [h0, whole_star] at h1
    obtain ⟨o1, o2, o3⟩ := angles_outside hr h
    unfold exact2
    rw [o1, o2, o3, ← h1]
    norm_num
  · have h1 := solution_hidden hb hr h (by linarith) 1 [] 2
    rw [solution_occ hb hr h (by linarith)] at h1
    simp only [kappas_closed hb hr hr1] at h1
    norm_num at h1
    rw [← h1]
    have hov' : overlap b r = angle1 b r + r ^ 2 * angle0 b r - area0 b r / 2 := by
      rw [hov]
      rfl
    unfold s0s2 exact2
    dsimp only
    split_ifs with hc
    · have hin : b ≤ 1 - r := by
        simp only [gt_iff_lt, lt_add_iff_pos_left] at hc
        have := (pos_iff_pos_of_mul_pos hc).1 (by linarith)
        linarith
      have a0 := area0_of_nonpos (heron_inside hb hr hin)
      have a1 : angle1 b r = 0 := by
        unfold angle1
        rw [a0]
        exact arctan2_zero_pos (by nlinarith)
      have a2 : angle0 b r = π := by
        unfold angle0
        rw [a0]
        apply arctan2_zero_neg
        nlinarith
      rw [hov', a0, a1, a2]
      ring
    · rw [hov']
      ring

theorem greens_two (u1 u2 : ℝ) : greens [u1, u2] 0 = 1 - u1 - 1.5 * u2 ∧ greens [u1, u2] 1 = u1 + 2 * u2 ∧ greens [u1, u2] 2 = -u2 / 4 := by
  have key : ∀ z : ℝ, greens [u1, u2] 0 + greens [u1, u2] 1 * z + greens [u1, u2] 2 * (4 * z ^ 2 - 2) = profile [u1, u2] z := fun z => by
    have := sum_greens (u := [u1, u2]) (by simp) z
    simp only [List.length_cons, List.length_nil, Finset.sum_range_succ, Finset.sum_range_zero, gtil] at this
    norm_num at this
    linarith
  have hp : ∀ z : ℝ, profile [u1, u2] z = 1 - u1 * (1 - z) - u2 * (1 - z) ^ 2 := fun z => by
    simp [profile]
    ring
  have k0 := key 0
  have k1 := key 1
  have k2 := key 2
  rw [hp] at k0 k1 k2
  norm_num at k0 k1 k2 ⊢
  refine ⟨?_, ?_, ?_⟩ <;> linarith

theorem total_two (u1 u2 : ℝ) : totalFlux [u1, u2] = π * (1 - u1 / 3 - u2 / 6) := by
  obtain ⟨g0, g1, -⟩ := greens_two u1 u2
  rw [totalFlux_eq (by simp), g0, g1]
  ring

/-- the relative flux of a quadratically limb-darkened star in terms of the three exact entries -/
theorem exact_flux {u1 u2 b r : ℝ} (hb : 0 ≤ b) (hr : 0 ≤ r) (hr1 : r ≤ 1 / 2) (hq : 1 - u1 / 3 - u2 / 6 ≠ 0) :
    -blockedFlux [u1, u2] b r / totalFlux [u1, u2] =
      ((π - overlap b r) * (1 - u1 - 1.5 * u2) + exact1 b r * (u1 + 2 * u2) + exact2 b r * (-u2 / 4)) / (π * (1 - u1 / 3 - u2 / 6)) - 1 := by
  obtain ⟨g0, g1, g2⟩ := greens_two u1 u2
  have hbl := blockedFlux_eq (u := [u1, u2]) (by simp) b r
  simp only [List.length_cons, List.length_nil, Finset.sum_range_succ, Finset.sum_range_zero] at hbl
  norm_num at hbl
  have h0 := hidden_zero b r
  have h1 := hidden_one hb hr hr1
  have h2 := hidden_two hb hr hr1
  rw [whole_star] at h0 h1 h2
  change π - _ = _ at h0
  change 2 * π / 3 - _ = _ at h1
  change 0 - _ = _ at h2
  have hN : π * (1 - u1 / 3 - u2 / 6) ≠ 0 := mul_ne_zero pi_ne_zero hq
  rw [total_two, hbl, ← h0, ← h1, ← h2, g0, g1, g2, eq_sub_iff_add_eq, div_add_one hN]
  congr 1
  ring

end Jaxoplanet.LimbDarkFloat
