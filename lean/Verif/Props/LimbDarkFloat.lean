import Verif.Proofs.S0Float
import Verif.Props.KeplerFloat

/-! # The light curve of a uniform star in floating-point arithmetic -/

namespace Jaxoplanet.LimbDarkFloat

open Real MeasureTheory KeplerFloat LimbDark Spec

/-- how badly the geometry amplifies rounding errors: only when the centres nearly coincide and the radii nearly agree -/
noncomputable def amplification (u b r : ℝ) : ℝ := u * (1 + |r|) ^ 3 / max |b| (abs (1 - |r|))

/-- the discs cross, as the program sees it -/
theorem lens_case {u pi b r op r2 : ℝ} (hu0 : 0 ≤ u) (hu : u ≤ 1e-4) (hb : 0 ≤ b) (hr : 0 ≤ r) (hop : Rnd u (1 + r) op)
    (k : KappasRun u b r op) (hpi : Rnd u π pi) (hr2 : Rnd u (r * r) r2) (S : S0Run u pi b r r2 k.area k.kappa0 k.kappa1)
    (hc : b > |k.om| ∧ b < op) :
    |S.s0_sml - (π - overlap b r)| ≤ 4200 * u * (1 + r) ^ 2 + 23000 * (amplification u b r * √(amplification u b r)) := by
  have hπ := pi_pos
  have hπ1 := pi_lt_d2
  have hu' := hu
  norm_num at hu'
  have hb0 : 0 < b := lt_of_le_of_lt (abs_nonneg _) hc.1
  -- the geometry
  have g1 : (1 - u) * |1 - r| ≤ b := by
    have h1 := Rnd.sub_abs k.hom
    have h2 := abs_sub_abs_le_abs_sub (1 - r) k.om
    rw [abs_sub_comm (1 - r) k.om] at h2
    linarith [hc.1]
  have g2 : |1 - r| ≤ b * (1 + 1.001 * u) := by
    have h1 : b ≤ (1 - u) * (b * (1 + 1.001 * u)) := by
      have huu : u * u ≤ 1 / 10000 * u := mul_le_mul_of_nonneg_right hu' hu0
      have : 0 ≤ b * (0.001 * u - 1.001 * (u * u)) := mul_nonneg hb (by norm_num; linarith)
      linarith
    exact le_of_mul_le_mul_left (g1.trans h1) (by linarith)
  have g3 : |1 - r| ≤ 1.001 * b := by
    refine g2.trans ?_
    have : b * u ≤ b * (1 / 10000) := mul_le_mul_of_nonneg_left hu' hb
    norm_num at this ⊢; linarith
  have g4 : b ≤ (1 + u) * (1 + r) := hc.2.le.trans (hop.le (by linarith))
  have uR : u * (1 + r) ≤ 1 / 10000 * (1 + r) := mul_le_mul_of_nonneg_right hu' (by linarith)
  have g5 : b ≤ 1.001 * (1 + r) := by norm_num; linarith
  have g6 : b ≤ 1.01 * (1 + r) := by norm_num at g5 ⊢; linarith
  -- the area
  have hb_ : k.b_ = b := by rw [k.hb_, if_pos hc]
  have hS : Sides b (1 + r) (sort3 r k.b_ 1).1 (sort3 r k.b_ 1).2.1 (sort3 r k.b_ 1).2.2 := by
    rw [hb_]; exact sides_of hr hb g3 g5
  have hP : prod4 (sort3 r k.b_ 1).1 (sort3 r k.b_ 1).2.1 (sort3 r k.b_ 1).2.2 = heron b r := by
    rw [hb_]; exact heron_sort b r prod4 fun _ _ _ => rfl
  have hn := heron_ge hu0 hb hr g2 hu g4
  obtain ⟨a0, a1, a2⟩ := kite_area hu0 hu hS hb g6 (by rw [hP]; exact hn) k.kite
  rw [hP] at a1
  have harea : k.area = k.kite.out := by rw [k.harea, if_pos hc]
  rw [← harea] at a0 a1 a2
  set R := 1 + r with hR
  have hR1 : 1 ≤ R := by rw [hR]; linarith
  have hR0 : 0 < R := by linarith
  set E := 210 * u * R ^ 3 * b with hE
  set A0 := √(max 0 (heron b r)) with hA0
  have s0 : A0 ^ 2 = max 0 (heron b r) := sq_sqrt (le_max_left _ _)
  have s1 : heron b r ≤ A0 ^ 2 := by rw [s0]; exact le_max_right _ _
  have hub : 0 ≤ u * R ^ 3 * b := by positivity
  have s2 : |heron b r - A0 ^ 2| ≤ E := by
    rw [s0, abs_sub_comm]
    rcases le_total 0 (heron b r) with h | h
    · rw [max_eq_right h, sub_self, abs_zero]; rw [hE]; positivity
    · rw [max_eq_left h, zero_sub, abs_neg, abs_of_nonpos h]; linarith
  have s3 : r = 0 → A0 = 0 := by
    intro h
    have h1 := heron_x0 b r
    rw [h] at h1
    have : heron b 0 ≤ 0 := by nlinarith [sq_nonneg (b ^ 2 + 0 ^ 2 - 1)]
    rw [hA0, h, max_eq_left this, sqrt_zero]
  obtain ⟨y1, y0⟩ := cosines hu0 hu hb hr g3 g5 k
  have hX : E = 210 * u * R ^ 3 / b * b ^ 2 := by rw [hE]; field_simp
  have hne : b ≠ 0 ∨ r ≠ 1 := Or.inl hb0.ne'
  have hov := overlap_lens hb hr hne
  rw [← hA0] at hov
  -- rounding of the final formula
  have hAle : k.area ≤ 4.3 * R ^ 2 := by
    have h1 : k.area ^ 2 ≤ (4.3 * R ^ 2) ^ 2 := by
      refine a2.trans ?_
      have : R ^ 3 * b ≤ R ^ 3 * (1.01 * R) := mul_le_mul_of_nonneg_left g6 (by positivity)
      have h4 : 0 ≤ R ^ 4 := by positivity
      rw [show (4.3 * R ^ 2) ^ 2 = 4.3 ^ 2 * R ^ 4 by ring]
      norm_num at this ⊢
      linarith
    exact (le_abs_self k.area).trans (abs_le_of_sq_le_sq h1 (by positivity))
  have fin := s0_sml_rnd hu0 hu hpi hr2 (arctan2_nonneg a0 k.y0) (arctan2_nonneg a0 k.y1) (arctan2_le_pi _ _)
    (arctan2_le_pi _ _) a0 k.hkappa0 k.hkappa1 S
  have fin2 : |S.s0_sml - (π - lens r k.area k.y1 k.y0)| ≤ 36 * (u * R ^ 2) := by
    refine fin.trans ?_
    have h1 : π * (1 + r ^ 2) ≤ 3.15 * R ^ 2 := by
      refine mul_le_mul hπ1.le ?_ (by positivity) (by norm_num)
      rw [hR]; nlinarith
    have h2 := mul_le_mul_of_nonneg_left h1 (by positivity : 0 ≤ 9 * u)
    have h3 := mul_le_mul_of_nonneg_left hAle (by positivity : 0 ≤ 1.6 * u)
    have h4 : 0 ≤ u * R ^ 2 := by positivity
    norm_num at h2 h3 ⊢
    linarith
  have hm : max b |1 - r| ≤ 1.001 * b := max_le (by norm_num; linarith) g3
  have hY : amplification u b r = u * R ^ 3 / max b |1 - r| := by
    unfold amplification
    rw [abs_of_nonneg hb, abs_of_nonneg hr]
  have hmp : 0 < max b |1 - r| := lt_of_lt_of_le hb0 (le_max_left _ _)
  set Y := amplification u b r with hYd
  have hY0 : 0 ≤ Y := by rw [hY]; positivity
  have hYX : 210 * u * R ^ 3 / b ≤ 210.3 * Y := by
    rw [div_le_iff₀ hb0, hY]
    have e1 : u * R ^ 3 / max b |1 - r| * max b |1 - r| = u * R ^ 3 := by field_simp
    have e2 : u * R ^ 3 / max b |1 - r| * max b |1 - r| ≤ u * R ^ 3 / max b |1 - r| * (1.001 * b) :=
      mul_le_mul_of_nonneg_left hm (by positivity)
    rw [e1] at e2
    have e3 : 0 ≤ u * R ^ 3 / max b |1 - r| * b := by positivity
    norm_num at e2 ⊢
    linarith
  have key : |lens r k.area k.y1 k.y0 - overlap b r| ≤ 4160 * (u * R ^ 2) + 23000 * (Y * √Y) := by
    rw [hov]
    rcases le_total (1 / 2) r with hr' | hr'
    · have h1 := lens_pert_large hb0 hr' hX (sqrt_nonneg _) a0 s1 s2 a1 y1 y0
      refine h1.trans ?_
      set X := 210 * u * R ^ 3 / b
      have hX0 : 0 ≤ X := by positivity
      have h2 : √X ≤ 14.51 * √Y := by
        refine sqrt_le_iff.2 ⟨by positivity, ?_⟩
        rw [mul_pow, sq_sqrt hY0]
        norm_num at hYX ⊢; linarith
      have h3 : X * √X ≤ 210.3 * Y * (14.51 * √Y) := mul_le_mul hYX h2 (sqrt_nonneg _) (by positivity)
      have h4 : 0 ≤ Y * √Y := by positivity
      have h5 : 0 ≤ u * R ^ 2 := by positivity
      rw [← hR]
      norm_num at h3 ⊢
      linarith
    · have h1 := lens_pert_small hb0 hr hX (sqrt_nonneg _) a0 s1 s2 a1 y1 y0 s3
      refine h1.trans ?_
      have h2 : 0.499 ≤ b := by
        rw [abs_of_nonneg (by linarith)] at g3
        norm_num at g3 ⊢; linarith
      have h3 : 210 * u * R ^ 3 / b ≤ 632 * (u * R ^ 2) := by
        rw [div_le_iff₀ hb0]
        have h4 : 0 ≤ u * R ^ 2 := by positivity
        have h5 : R ≤ 1.5 := by rw [hR]; norm_num; linarith
        have h6 : u * R ^ 2 * R ≤ u * R ^ 2 * 1.5 := mul_le_mul_of_nonneg_left h5 h4
        have h7 : u * R ^ 2 * 0.499 ≤ u * R ^ 2 * b := mul_le_mul_of_nonneg_left h2 h4
        norm_num at h6 h7
        linarith
      have h4 : 0 ≤ Y * √Y := by positivity
      have h5 : 0 ≤ u * R ^ 2 := by positivity
      rw [← hR]
      norm_num at h3 ⊢
      linarith
  rw [show S.s0_sml - (π - overlap b r) = (S.s0_sml - (π - lens r k.area k.y1 k.y0)) - (lens r k.area k.y1 k.y0 - overlap b r) by ring]
  refine (abs_sub _ _).trans ?_
  have : 0 ≤ u * R ^ 2 := by positivity
  linarith

/-- one disc inside the other, as the program sees it -/
theorem inside_case {u pi b r op r2 : ℝ} (hu0 : 0 ≤ u) (hu : u ≤ 1e-4) (hb : 0 ≤ b) (hr : 0 ≤ r) (hur : u * (1 + r) ≤ 1e-3)
    (k : KappasRun u b r op) (hpi : Rnd u π pi) (hr2 : Rnd u (r * r) r2) (S : S0Run u pi b r r2 k.area k.kappa0 k.kappa1)
    (hin : b ≤ |k.om|) (hne : b ≠ 0 ∨ r ≠ 1) : |S.s0_sml - (π - overlap b r)| ≤ 60 * u * (1 + r) ^ 2 := by
  have hπ := pi_pos
  have hπ1 := pi_lt_d2
  have harea : k.area = 0 := by
    rw [k.harea, if_neg]
    rintro ⟨h, -⟩
    linarith
  have fin := s0_sml_rnd hu0 hu hpi hr2 (arctan2_nonneg (le_of_eq harea.symm) k.y0) (arctan2_nonneg (le_of_eq harea.symm) k.y1)
    (arctan2_le_pi _ _) (arctan2_le_pi _ _) (le_of_eq harea.symm) k.hkappa0 k.hkappa1 S
  generalize S.s0_sml = z at fin ⊢
  rw [harea] at fin
  have hom := k.hom.abs_le
  have hbo : b ≤ (1 + u) * |1 - r| := hin.trans hom
  have hr1 : r ≠ 1 := by
    rintro rfl
    rw [sub_self, abs_zero, mul_zero] at hbo
    rcases hne with h | h
    · exact h (le_antisymm hbo hb)
    · exact h rfl
  obtain ⟨c1, c2⟩ := kappas_inside hu0 hu hb hr hur k hin hr1
  have hu' := hu
  norm_num at hu' hur
  have fin2 : |z - (π - (arctan2 0 k.y1 + r ^ 2 * arctan2 0 k.y0 - 0 / 2))| ≤ 29 * (u * (1 + r) ^ 2) := by
    refine fin.trans ?_
    have h1 : π * (1 + r ^ 2) ≤ 3.15 * (1 + r) ^ 2 := by
      refine mul_le_mul hπ1.le ?_ (by positivity) (by norm_num)
      nlinarith
    have h2 := mul_le_mul_of_nonneg_left h1 (by positivity : 0 ≤ 9 * u)
    have h4 : 0 ≤ u * (1 + r) ^ 2 := by positivity
    norm_num at h2 ⊢
    linarith
  have hq : 0 ≤ u * (1 + r) ^ 2 := by positivity
  have hru : u * r ≤ u * (1 + r) ^ 2 := mul_le_mul_of_nonneg_left (by nlinarith) hu0
  have hur2 : u * (1 + r) ≤ u * (1 + r) ^ 2 := mul_le_mul_of_nonneg_left (by nlinarith) hu0
  have key : |arctan2 0 k.y1 + r ^ 2 * arctan2 0 k.y0 - 0 / 2 - overlap b r| ≤ 31 * (u * (1 + r) ^ 2) := by
    rcases lt_or_gt_of_ne hr1 with h | h
    · obtain ⟨d1, d2⟩ := c1 h
      rw [abs_of_nonneg (by linarith)] at hbo
      have h1 : b + r ≤ 1 + u := by
        have : u * (1 - r) ≤ u * 1 := mul_le_mul_of_nonneg_left (by linarith) hu0
        linarith
      have h2 := overlap_inside hb hr hu0 h1
      have h6 : 2 * π * r * u ≤ 2 * 3.15 * (r * u) := by
        have := mul_le_mul_of_nonneg_right hπ1.le (by positivity : 0 ≤ 2 * (r * u))
        linarith
      rcases le_or_gt r (3.1 * u) with h3 | h3
      · have h4 : r ^ 2 * arctan2 0 k.y0 ≤ 3.1 * u * r * 3.15 := by
          refine mul_le_mul ?_ ((arctan2_le_pi _ _).trans hπ1.le) (arctan2_nonneg le_rfl _) (by positivity)
          rw [sq]
          exact mul_le_mul_of_nonneg_right h3 hr
        have h5 : π * r ^ 2 ≤ 3.15 * (3.1 * u * r) := by
          refine mul_le_mul hπ1.le ?_ (sq_nonneg r) (by norm_num)
          rw [sq]
          exact mul_le_mul_of_nonneg_right h3 hr
        have h7 : 0 ≤ r ^ 2 * arctan2 0 k.y0 := mul_nonneg (sq_nonneg r) (arctan2_nonneg le_rfl _)
        have h8 : 0 ≤ π * r ^ 2 := by positivity
        rw [d1]
        obtain ⟨h2l, h2u⟩ := abs_le.1 h2
        norm_num at h4 h5 h6
        rw [abs_le]
        constructor <;> linarith
      · rw [d1, d2 h3, show 0 + r ^ 2 * π - 0 / 2 - overlap b r = -(overlap b r - π * r ^ 2) by ring, abs_neg]
        refine h2.trans ?_
        norm_num at h6
        linarith
    · obtain ⟨d1, d2⟩ := c2 h
      rw [abs_of_nonpos (by linarith)] at hbo
      have h1 : 1 + b ≤ r + u * (1 + r) := by linarith
      have h2 := overlap_covered hb (by positivity : 0 ≤ u * (1 + r)) (by linarith) h1
      rw [d1, d2, show π + r ^ 2 * 0 - 0 / 2 - overlap b r = -(overlap b r - π) by ring, abs_neg]
      refine h2.trans ?_
      have := mul_le_mul_of_nonneg_right hπ1.le (by positivity : 0 ≤ 2 * (u * (1 + r)))
      norm_num at this
      linarith
  rw [show z - (π - overlap b r) = (z - (π - (arctan2 0 k.y1 + r ^ 2 * arctan2 0 k.y0 - 0 / 2))) -
    (arctan2 0 k.y1 + r ^ 2 * arctan2 0 k.y0 - 0 / 2 - overlap b r) by ring]
  refine (abs_sub _ _).trans ?_
  linarith

/-- the first entry of the solution vector -/
theorem s0_accurate {u b r : ℝ} (hu0 : 0 ≤ u) (hu : u ≤ 1e-4) (hur : u * (1 + |r|) ≤ 1e-3) (hne : |b| ≠ 0 ∨ |r| ≠ 1)
    (T : UniformRun u b r) :
    |T.s0 - (π - overlap |b| |r|)| ≤ 4200 * u * (1 + |r|) ^ 2 + 23000 * (amplification u b r * √(amplification u b r)) := by
  obtain ⟨pi, hpi, g0, hg0, op, hop, k, opb, hopb, b_, hb_, r2, hr2, S, s0, hs0, prod, hprod, out, hout⟩ := T
  show |s0 - (π - overlap |b| |r|)| ≤ _
  have hamp : amplification u b r = amplification u |b| |r| := by simp [amplification]
  rw [hamp]
  have hb := abs_nonneg b
  have hr := abs_nonneg r
  generalize |b| = b at *
  generalize |r| = r at *
  have hπ := pi_pos
  have hπ1 := pi_lt_d2
  have hu' := hu
  norm_num at hu' hur
  have hY : 0 ≤ amplification u b r := by unfold amplification; positivity
  have hYY : 0 ≤ amplification u b r * √(amplification u b r) := by positivity
  have hq : 0 ≤ u * (1 + r) ^ 2 := by positivity
  have hq1 : u ≤ u * (1 + r) ^ 2 := le_mul_of_one_le_right hu0 (by nlinarith)
  have hq2 : u * (1 + r) ≤ u * (1 + r) ^ 2 := mul_le_mul_of_nonneg_left (by nlinarith) hu0
  have small : ∀ x : ℝ, x ≤ 60 * (u * (1 + r) ^ 2) →
      x ≤ 4200 * u * (1 + r) ^ 2 + 23000 * (amplification u b r * √(amplification u b r)) := by
    intro x hx; linarith
  rw [hs0]
  split_ifs with c1 c2
  · -- covered
    refine small _ ?_
    have h1 : (1 - u) * (1 + b) ≤ r := (hopb.ge (by linarith)).trans c1
    have h2 : u * (1 + b) ≤ 1.001 * (u * (1 + r)) := by
      have : 1 + b ≤ 1.001 * (1 + r) := by
        have : u * (1 + b) ≤ 1 / 10000 * (1 + b) := mul_le_mul_of_nonneg_right hu' (by linarith)
        norm_num; linarith
      have := mul_le_mul_of_nonneg_left this hu0
      linarith
    have h3 := overlap_covered hb (by positivity : 0 ≤ u * (1 + b)) (by norm_num at h2; linarith) (by linarith : 1 + b ≤ r + u * (1 + b))
    rw [show 0 - (π - overlap b r) = overlap b r - π by ring]
    refine h3.trans ?_
    have := mul_le_mul_of_nonneg_right hπ1.le (by positivity : 0 ≤ 2 * (u * (1 + b)))
    norm_num at this h2
    linarith
  · refine small _ ?_
    have h1 : (1 - u) * (1 + r) ≤ b := (hop.ge (by linarith)).trans c2
    have h2 := overlap_le_thin (b := b) hr (by positivity : 0 ≤ u * (1 + r)) (by linarith)
    have h3 := overlap_nonneg b r
    have h4 : |pi - π| ≤ u * π := rnd_abs hu0 hpi (by rw [abs_of_pos hπ])
    have h5 : u * π ≤ u * 3.15 := mul_le_mul_of_nonneg_left hπ1.le hu0
    rw [show pi - (π - overlap b r) = (pi - π) + overlap b r by ring]
    refine (abs_add_le _ _).trans ?_
    rw [abs_of_nonneg h3]
    norm_num at h5
    linarith
  · rw [if_neg (by rintro (h | h); exacts [c2 h, c1 h])] at hb_
    have hb_' : b = b_ := hb_.symm
    rw [S.hs0]
    split_ifs with c3
    · refine small _ ?_
      have h1 := lrg_inside hu0 hu (by linarith) hr S c3
      rw [← hb_'] at h1
      have h2 := overlap_inside hb hr (by positivity : 0 ≤ 3 * u) h1
      have h3 := s0_lrg_rnd hu0 hu hpi hr2 S
      rw [show S.s0_lrg - (π - overlap b r) = (S.s0_lrg - π * (1 - r ^ 2)) + (overlap b r - π * r ^ 2) by ring]
      refine (abs_add_le _ _).trans ?_
      have h4 : π * (1 + r ^ 2) ≤ 3.15 * (1 + r) ^ 2 := by
        refine mul_le_mul hπ1.le ?_ (by positivity) (by norm_num)
        nlinarith
      have h5 := mul_le_mul_of_nonneg_left h4 (by positivity : 0 ≤ 5 * u)
      have h6 := mul_le_mul_of_nonneg_right hπ1.le (by positivity : 0 ≤ 6 * (u * r))
      have h7 : u * r ≤ u * (1 + r) ^ 2 := mul_le_mul_of_nonneg_left (by nlinarith) hu0
      norm_num at h5 h6
      linarith
    · subst hb_'
      by_cases hc : b > |k.om| ∧ b < op
      · exact lens_case hu0 hu hb hr hop k hpi hr2 S hc
      · have hin : b ≤ |k.om| := by
          by_contra h
          exact hc ⟨not_le.1 h, not_le.1 c2⟩
        have := inside_case hu0 hu hb hr (by norm_num; linarith) k hpi hr2 S hin hne
        refine small _ ?_
        linarith

theorem overlap_abs (b r : ℝ) : overlap |b| |r| = overlap b r := by
  have habs := occultor_abs b r []
  simp only [blockedFlux, profile, List.length_nil, Finset.univ_eq_empty, Finset.sum_empty, sub_zero,
    setIntegral_const, smul_eq_mul, mul_one, Measure.real] at habs
  exact habs

/-- **C100 (a).** For every separation and every radius ratio `r` up to `1e-3 / u`, except the one configuration where the
discs coincide, and for every floating-point arithmetic with unit roundoff `u ≤ 1e-4`, `light_curve([], b, r)` is minus the
hidden fraction of the stellar disc up to an error of order `u`: across all the branches of the program and at the contacts,
where the kite degenerates, no accuracy is lost.  Only when the discs nearly coincide does the geometry amplify the rounding
errors, and then to the power `3/2`. -/
theorem uniform_light_curve_float {u b r : ℝ} (hu0 : 0 ≤ u) (hu : u ≤ 1e-4) (hur : u * (1 + |r|) ≤ 1e-3)
    (hne : |b| ≠ 0 ∨ |r| ≠ 1) (T : UniformRun u b r) :
    |T.out - -(volume (stellarDisc ∩ occultor b r)).toReal / π| ≤
      1500 * u * (1 + |r|) ^ 2 + 8000 * (amplification u b r * √(amplification u b r)) := by
  have h := s0_accurate hu0 hu hur hne T
  rw [overlap_abs] at h
  have hπ := pi_pos
  have hπ1 := pi_gt_d2
  have hov0 := overlap_nonneg b r
  have hovp := overlap_le_pi b r
  change |T.out - -overlap b r / π| ≤ _
  set V := overlap b r
  have hu' := hu
  norm_num at hu'
  have huu : u * u ≤ 1 / 10000 * u := mul_le_mul_of_nonneg_right hu' hu0
  have hYY : 0 ≤ amplification u b r * √(amplification u b r) := by
    have : 0 ≤ amplification u b r := by unfold amplification; positivity
    positivity
  generalize amplification u b r * √(amplification u b r) = W at *
  have hq1 : u ≤ u * (1 + |r|) ^ 2 := le_mul_of_one_le_right hu0 (by nlinarith [abs_nonneg r])
  generalize hq : u * (1 + |r|) ^ 2 = q at hq1
  rw [show 4200 * u * (1 + |r|) ^ 2 = 4200 * q by rw [← hq]; ring] at h
  rw [show 1500 * u * (1 + |r|) ^ 2 = 1500 * q by rw [← hq]; ring]
  -- the normalisation
  have g1 : Rnd (1.1 * u) (1 / π) (1 / T.pi) := by
    refine ((Rnd.refl le_rfl 1).div0 T.hpi le_rfl hu0 (by linarith)).mono ?_
    rw [zero_add, div_le_iff₀ (by linarith)]
    norm_num
    linarith
  have g2 : Rnd (2.2 * u) (1 / π) T.g0 := (g1.trans T.hg0 (by positivity) hu0).mono (by norm_num; linarith)
  have g3 : Rnd (3.3 * u) (T.s0 * (1 / π)) T.prod :=
    (((Rnd.refl le_rfl T.s0).mul0 g2 le_rfl (by positivity)).trans T.hprod (by positivity) hu0).mono (by norm_num; linarith)
  have p1 : |T.s0 * (1 / π) - (π - V) / π| ≤ 1 / 3 * (4200 * q + 23000 * W) := by
    rw [show T.s0 * (1 / π) - (π - V) / π = (T.s0 - (π - V)) / π by ring, abs_div, abs_of_pos hπ, div_le_iff₀ hπ]
    have : 1 ≤ 1 / 3 * π := by norm_num at hπ1; linarith
    have h0 : 0 ≤ 4200 * q + 23000 * W := (abs_nonneg _).trans h
    calc _ ≤ 4200 * q + 23000 * W := h
      _ ≤ (4200 * q + 23000 * W) * (1 / 3 * π) := le_mul_of_one_le_right h0 this
      _ = _ := by ring
  have p2 : (π - V) / π = 1 - V / π := by field_simp
  have p3 : 0 ≤ V / π := by positivity
  have p4 : V / π ≤ 1 := by rw [div_le_one hπ]; exact hovp
  rw [p2] at p1
  generalize T.s0 * (1 / π) = c at p1 g3
  set Z := 1 / 3 * (4200 * q + 23000 * W) with hZ
  have hZ0 : 0 ≤ Z := (abs_nonneg _).trans p1
  have uZ : u * Z ≤ 1 / 10000 * Z := mul_le_mul_of_nonneg_right hu' hZ0
  have p5 : |c| ≤ 1 + Z := by
    obtain ⟨l1, l2⟩ := abs_le.1 p1
    rw [abs_le]; constructor <;> linarith
  have p6 : |T.prod - c| ≤ 3.3 * u * (1 + Z) := rnd_abs (by positivity) g3 p5
  have p7 : |T.prod - 1| ≤ 2 + 2 * Z := by
    obtain ⟨l1, l2⟩ := abs_le.1 p1
    obtain ⟨l3, l4⟩ := abs_le.1 p6
    norm_num at l3 l4
    rw [abs_le]; constructor <;> linarith
  have p8 : |T.out - (T.prod - 1)| ≤ u * (2 + 2 * Z) := rnd_abs hu0 T.hout p7
  obtain ⟨l1, l2⟩ := abs_le.1 p1
  obtain ⟨l3, l4⟩ := abs_le.1 p6
  obtain ⟨l5, l6⟩ := abs_le.1 p8
  norm_num at l3 l4
  have hfin : 1.001 * Z + 6 * u ≤ 1500 * q + 8000 * W := by
    rw [hZ]; norm_num; linarith
  norm_num at hfin
  rw [neg_div, abs_le]
  constructor <;> linarith

/-- **C100 (b).** An occultor at most half as large as the star, such as a planet: the error is at most `5000 u`, at every
separation. -/
theorem uniform_light_curve_float_planet {u b r : ℝ} (hu0 : 0 ≤ u) (hu : u ≤ 1e-4) (hr : |r| ≤ 1 / 2) (T : UniformRun u b r) :
    |T.out - -(volume (stellarDisc ∩ occultor b r)).toReal / π| ≤ 5000 * u := by
  have hu' := hu
  norm_num at hu'
  have h := uniform_light_curve_float hu0 hu ?_ (Or.inr (by intro h; rw [h] at hr; norm_num at hr)) T
  · refine h.trans ?_
    have hr0 := abs_nonneg r
    have hm : 1 / 2 ≤ max |b| (abs (1 - |r|)) := by
      refine le_trans ?_ (le_max_right _ _)
      refine le_trans ?_ (le_abs_self _)
      linarith
    have hY : amplification u b r ≤ 6.75 * u := by
      unfold amplification
      rw [div_le_iff₀ (by linarith)]
      have h1 : (1 + |r|) ^ 3 ≤ (1.5 : ℝ) ^ 3 := pow_le_pow_left₀ (by linarith) (by norm_num; linarith) 3
      have h2 := mul_le_mul_of_nonneg_left h1 hu0
      have h3 := mul_le_mul_of_nonneg_left hm (by positivity : 0 ≤ 6.75 * u)
      norm_num at h2 h3 ⊢
      linarith
    have hY0 : 0 ≤ amplification u b r := by unfold amplification; positivity
    have hs : √(amplification u b r) ≤ 0.03 := by
      refine sqrt_le_iff.2 ⟨by norm_num, hY.trans ?_⟩
      norm_num; linarith
    have h1 : amplification u b r * √(amplification u b r) ≤ 6.75 * u * 0.03 := mul_le_mul hY hs (sqrt_nonneg _) (by positivity)
    have h2 : (1 + |r|) ^ 2 ≤ (1.5 : ℝ) ^ 2 := pow_le_pow_left₀ (by linarith) (by norm_num; linarith) 2
    have h3 := mul_le_mul_of_nonneg_left h2 hu0
    norm_num at h1 h3
    linarith
  · have : u * (1 + |r|) ≤ 1 / 10000 * 1.5 := mul_le_mul hu' (by norm_num; linarith) (by positivity) (by norm_num)
    norm_num at this ⊢
    linarith

/-- **C100 (c).** The excluded configuration, coinciding discs: in an arithmetic where `1 + 0` is `1` the star is reported as
covered, up to one rounding. -/
theorem uniform_light_curve_float_coincide {u b r : ℝ} (hb : |b| = 0) (hr : |r| = 1) (T : UniformRun u b r)
    (h1 : T.opb = 1 + |b|) :
    |T.out - -1| ≤ u ∧ (volume (stellarDisc ∩ occultor b r)).toReal = π := by
  constructor
  · have e0 : T.s0 = 0 := by rw [T.hs0, if_pos (by rw [h1, hb, hr]; norm_num)]
    have e1 : T.prod = 0 := by
      have := Rnd.sub_abs T.hprod
      rw [e0, zero_mul, abs_zero, mul_zero, sub_zero] at this
      exact abs_eq_zero.1 (le_antisymm this (abs_nonneg _))
    have := Rnd.sub_abs T.hout
    rw [e1] at this
    simpa using this
  · have h2 := overlap_abs b r
    rw [hb, hr] at h2
    change overlap b r = π
    rw [← h2]
    have := overlap_covered (b := 0) (r := 1) (δ := 0) le_rfl le_rfl zero_le_one (by norm_num)
    rw [mul_zero] at this
    have := abs_eq_zero.1 (le_antisymm this (abs_nonneg _))
    linarith

/-- the run with a rounding function -/
noncomputable def KiteRun.ofRounding {u : ℝ} (fl : ℝ → ℝ) (h : ∀ x, Rnd u x (fl x)) (p q s : ℝ) : KiteRun u p q s :=
  ⟨_, h _, _, h _, _, h _, _, h _, _, h _, _, h _, _, h _, _, h _, _, h _, _, h _, _, h _⟩

/-- the run with a rounding function -/
noncomputable def KappasRun.ofRounding {u : ℝ} (fl : ℝ → ℝ) (h : ∀ x, Rnd u x (fl x)) (b r op : ℝ) : KappasRun u b r op :=
  ⟨_, h _, _, h _, _, h _, _, h _, _, h _, _, rfl, KiteRun.ofRounding fl h _ _ _, _, rfl, _, h _, _, h _, _, h _, _, h _⟩

/-- the run with a rounding function -/
noncomputable def S0Run.ofRounding {u : ℝ} (fl : ℝ → ℝ) (h : ∀ x, Rnd u x (fl x)) (pi b r r2 area k0 k1 : ℝ) :
    S0Run u pi b r r2 area k0 k1 :=
  ⟨_, h _, _, h _, _, h _, _, h _, _, h _, _, h _, _, h _, _, h _, _, h _, _, h _, _, h _, _, h _, _, h _, _, h _, _, rfl⟩

/-- `light_curve([], b, r)` with every operation rounded by `fl`, such as the rounding of a floating-point format -/
noncomputable def UniformRun.ofRounding {u : ℝ} (fl : ℝ → ℝ) (h : ∀ x, Rnd u x (fl x)) (b r : ℝ) : UniformRun u b r :=
  ⟨_, h _, _, h _, _, h _, KappasRun.ofRounding fl h _ _ _, _, h _, _, rfl, _, h _, S0Run.ofRounding fl h _ _ _ _ _ _ _, _, rfl,
    _, h _, _, h _⟩

theorem KiteRun.exact {a b c : ℝ} (k : KiteRun 0 (sort3 a b c).1 (sort3 a b c).2.1 (sort3 a b c).2.2) : k.out = kiteArea a b c := by
  rw [rnd_zero.1 k.hout, rnd_zero.1 k.hsq, rnd_zero.1 k.hg2, rnd_zero.1 k.hg1, rnd_zero.1 k.hf1, rnd_zero.1 k.hf2,
    rnd_zero.1 k.hf3, rnd_zero.1 k.hf4, rnd_zero.1 k.hd, rnd_zero.1 k.hd4, rnd_zero.1 k.hqs]
  rfl

theorem KappasRun.exact {b r : ℝ} (k : KappasRun 0 b r (1 + r)) : (k.area, k.kappa0, k.kappa1) = kappas b r := by
  have h1 : k.area = (kappas b r).1 := by
    rw [k.harea, k.kite.exact, k.hb_, rnd_zero.1 k.hom]
    rfl
  have e0 : k.kappa0 = (kappas b r).2.1 := by
    rw [rnd_zero.1 k.hkappa0, h1, rnd_zero.1 k.hy0, rnd_zero.1 k.hb2, rnd_zero.1 k.hfactor, rnd_zero.1 k.hrm, rnd_zero.1 k.hrp, ← sq]
    rfl
  have e1 : k.kappa1 = (kappas b r).2.2 := by
    rw [rnd_zero.1 k.hkappa1, h1, rnd_zero.1 k.hy1, rnd_zero.1 k.hb2, rnd_zero.1 k.hfactor, rnd_zero.1 k.hrm, rnd_zero.1 k.hrp, ← sq]
    rfl
  rw [h1, e0, e1]

theorem S0Run.exact {b r area k0 k1 : ℝ} (S : S0Run 0 π b r (r ^ 2) area k0 k1) :
    S.s0 = (s0s2 b r (b ^ 2) (r ^ 2) area k0 k1).1 := by
  rw [S.hs0, rnd_zero.1 S.hsum, rnd_zero.1 S.hdelta, rnd_zero.1 S.hdelta1, rnd_zero.1 S.honembpr2, rnd_zero.1 S.he1,
    rnd_zero.1 S.he2, rnd_zero.1 S.hbpr, rnd_zero.1 S.hs0_lrg, rnd_zero.1 S.ht1, rnd_zero.1 S.hs0_sml, rnd_zero.1 S.hAlens,
    rnd_zero.1 S.ha2, rnd_zero.1 S.ha1, rnd_zero.1 S.ha3]
  simp only [s0s2]
  split_ifs <;> rfl

/-- with exact arithmetic the run is the program of `Model/LimbDark.lean` -/
theorem uniform_run_exact (eps : ℝ) (quad : List (ℝ × ℝ)) (b r : ℝ) (T : UniformRun 0 b r) :
    T.out = lightCurve eps quad [] b r := by
  obtain ⟨pi, hpi, g0, hg0, op, hop, k, opb, hopb, b_, hb_, r2, hr2, S, s0, hs0, prod, hprod, out, hout⟩ := T
  show out = _
  have hpi := rnd_zero.1 hpi
  have hop := rnd_zero.1 hop
  have hr2 := rnd_zero.1 hr2
  have hopb := rnd_zero.1 hopb
  rw [← sq] at hr2
  subst hpi hop hr2 hopb
  have hk := k.exact
  have hS := S.exact
  rw [rnd_zero.1 hout, rnd_zero.1 hprod, rnd_zero.1 hg0, hs0, hS]
  simp only [lightCurve, solution, ← hk, ← hb_]

/-- double precision, a planet with a tenth of the star's radius, at any separation -/
example (fl : ℝ → ℝ) (h : ∀ x, Rnd (2 ^ (-52 : ℤ)) x (fl x)) (b : ℝ) :
    |(UniformRun.ofRounding fl h b 0.1).out - -(volume (stellarDisc ∩ occultor b 0.1)).toReal / π| ≤ 2e-12 := by
  refine (uniform_light_curve_float_planet (u := 2 ^ (-52 : ℤ)) (by positivity) (by norm_num) ?_ _).trans (by norm_num)
  rw [abs_of_pos] <;> norm_num

/-- such roundings exist -/
example : ∃ fl : ℝ → ℝ, ∀ x, Rnd (2 ^ (-52 : ℤ)) x (fl x) := by
  obtain ⟨fl, h⟩ := exists_rounding (u := 2 ^ (-52 : ℤ)) (by positivity)
  exact ⟨fun x => fl x, h⟩

end Jaxoplanet.LimbDarkFloat
