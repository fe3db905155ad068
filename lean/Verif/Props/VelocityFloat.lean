import Verif.Model.VelocityFloat
import Verif.Props.OrbitFloat

/-!
# C117: radial velocities in floating-point arithmetic
-/

namespace Jaxoplanet.VelocityFloat

open Real Spec KeplerFloat Keplerian OrbitFloat
open _root_.Jaxoplanet.LightCurve (trueAnomaly_unique)

/-- the sine and the cosine of the true anomaly of an eccentric orbit -/
theorem anomaly_eccentric {u : ℝ} (hu0 : 0 ≤ u) (hu : u ≤ 1e-10) {o : OrbitalBody} {k : Ecc} {e : ℝ}
    (hec : o.ecc = some k) (hke : k.e = e) (he0 : 0 ≤ e) (he1 : e < 1) (heu : 400 * u ≤ 1 - e) (hP : 0 < o.period)
    {t : ℝ} (A : AnomalyRun u o t) :
    ∃ t', |t' - t| ≤ 11 * u * (|t - o.time_transit| + |o.time_ref|) + 10 * u * o.period ∧
      ∀ f, TrueAnomalyAt (2 * π * (t' - o.time_peri) / o.period) e f →
        |A.sinf - sin f| ≤ anomalyError u e ∧ |A.cosf - cos f| ≤ anomalyError u e := by
  have hu4 : u ≤ 1e-4 := hu.trans (by norm_num)
  have hM := mean_near hu0 hu4 hP A
  have hπ := pi_pos
  have hpp : 0 < 2 * π / o.period := by positivity
  set S := |t - o.time_transit| + |o.time_ref| with hS
  have hS0 : 0 ≤ S := by positivity
  have hf := A.hf
  rw [hec] at hf
  simp only at hf
  obtain ⟨K, hK⟩ := hf
  obtain ⟨M', f, h1, h2, h3⟩ := float_accurate hu0 hu (by rw [hke]; exact he0) (by rw [hke]; exact heu) (by rw [hke]; exact he1) K
  rw [hK] at h3
  rw [hke] at h2 h3
  have hg := abs_le_gap (A.sinf, A.cosf) (sin f, cos f)
  refine ⟨o.time_peri + (M' + K.n * (2 * π)) / (2 * π / o.period), ?_, ?_⟩
  · set M0 := 2 * π * (t - (o.time_transit + o.time_ref)) / o.period with hM0
    have e1 : M' + K.n * (2 * π) - M0 = 2 * π / o.period * (o.time_peri + (M' + K.n * (2 * π)) / (2 * π / o.period) - t) := by
      have : o.time_peri = o.time_transit + o.time_ref := rfl
      rw [this, hM0]
      field_simp
      ring
    have hMM : |M0| ≤ 2 * π / o.period * S := by
      have : M0 = 2 * π / o.period * (t - o.time_transit - o.time_ref) := by rw [hM0]; field_simp; ring
      rw [this, abs_mul, abs_of_pos hpp]
      exact mul_le_mul_of_nonneg_left (abs_sub _ _) hpp.le
    have hMa : |A.M| ≤ 2 * π / o.period * (1.1 * S) := by
      have a1 := abs_sub_abs_le_abs_sub A.M M0
      have a2 : 2 * π / o.period * (7 * u * S) ≤ 2 * π / o.period * (0.1 * S) := by
        refine mul_le_mul_of_nonneg_left (mul_le_mul_of_nonneg_right ?_ hS0) hpp.le
        norm_num at hu ⊢
        linarith
      have : 2 * π / o.period * (1.1 * S) = 2 * π / o.period * S + 2 * π / o.period * (0.1 * S) := by ring
      linarith
    have h4 : |M' + K.n * (2 * π) - M0| ≤ 2 * π / o.period * (11 * u * S + 10 * u * o.period) := by
      have b1 : M' + K.n * (2 * π) - M0 = (M' - (A.M - K.n * (2 * π))) + (A.M - M0) := by ring
      rw [b1]
      refine (abs_add_le _ _).trans ?_
      have b2 : u * (3 * |A.M| + 60) ≤ 2 * π / o.period * (3.3 * u * S) + 60 * u := by
        have := mul_le_mul_of_nonneg_left hMa hu0
        have e : 2 * π / o.period * (3.3 * u * S) = 3 * (u * (2 * π / o.period * (1.1 * S))) := by ring
        rw [e]
        linarith
      have b3 : 60 * u ≤ 2 * π / o.period * (10 * u * o.period) := by
        have : 2 * π / o.period * (10 * u * o.period) = 20 * π * u := by field_simp; ring
        rw [this]
        have := pi_gt_d2
        norm_num at this
        nlinarith
      have b4 : 2 * π / o.period * (11 * u * S + 10 * u * o.period) = 2 * π / o.period * (7 * u * S) + 2 * π / o.period * (3.3 * u * S) +
          2 * π / o.period * (10 * u * o.period) + 0.7 * (2 * π / o.period * (u * S)) := by ring
      have b5 : 0 ≤ 2 * π / o.period * (u * S) := by positivity
      linarith
    rw [e1, abs_mul, abs_of_pos hpp] at h4
    exact le_of_mul_le_mul_left h4 hpp
  · intro f' hf'
    have e2 : 2 * π * (o.time_peri + (M' + K.n * (2 * π)) / (2 * π / o.period) - o.time_peri) / o.period = M' + K.n * (2 * π) := by
      field_simp
      ring
    rw [e2] at hf'
    have hsc : sin f' = sin f ∧ cos f' = cos f := by
      obtain ⟨E', hE', hfE'⟩ := hf'
      obtain ⟨E, hE, hfE⟩ := h2
      have hEE := Kepler.keplerEq_unique he0 he1 hE' (Kepler.keplerEq_add_two_pi K.n hE)
      have a1 := Kepler.toTrueAnomaly_of_isTrueAnomaly he0 he1 hfE'
      have a2 := Kepler.toTrueAnomaly_of_isTrueAnomaly he0 he1 hfE
      rw [hEE, Kepler.toTrueAnomaly_add_two_pi he0 he1, a2] at a1
      exact ⟨(Prod.ext_iff.1 a1).1.symm, (Prod.ext_iff.1 a1).2.symm⟩
    rw [hsc.1, hsc.2]
    exact ⟨hg.1.trans h3, hg.2.trans h3⟩

/-- the sine and the cosine of the anomaly of a circular orbit -/
theorem anomaly_circular {u : ℝ} (hu0 : 0 ≤ u) (hu : u ≤ 1e-4) {o : OrbitalBody} (hec : o.ecc = none) (hP : 0 < o.period)
    {t : ℝ} (A : AnomalyRun u o t) :
    ∃ t', |t' - t| ≤ 7 * u * (|t - o.time_transit| + |o.time_ref|) ∧
      ∀ f, TrueAnomalyAt (2 * π * (t' - o.time_peri) / o.period) 0 f → |A.sinf - sin f| ≤ u ∧ |A.cosf - cos f| ≤ u := by
  have hM := mean_near hu0 hu hP A
  have hpp : 0 < 2 * π / o.period := by have := pi_pos; positivity
  refine ⟨o.time_peri + A.M / (2 * π / o.period), ?_, ?_⟩
  · have e1 : A.M - 2 * π * (t - (o.time_transit + o.time_ref)) / o.period =
        2 * π / o.period * (o.time_peri + A.M / (2 * π / o.period) - t) := by
      have : o.time_peri = o.time_transit + o.time_ref := rfl
      rw [this]
      have := pi_pos
      field_simp
      ring
    rw [e1, abs_mul, abs_of_pos hpp] at hM
    exact le_of_mul_le_mul_left hM hpp
  · intro f hf
    have e2 : 2 * π * (o.time_peri + A.M / (2 * π / o.period) - o.time_peri) / o.period = A.M := by
      have := pi_pos
      field_simp
      ring
    rw [e2] at hf
    have hM0 : TrueAnomalyAt A.M 0 A.M := by
      refine ⟨A.M, by unfold KeplerEq; ring, ?_⟩
      unfold IsTrueAnomaly
      simp
    obtain ⟨hs, hc⟩ := trueAnomaly_unique le_rfl one_pos hf hM0
    have h := A.hf
    rw [hec] at h
    rw [hs, hc]
    exact ⟨(LimbDarkFloat.rnd_abs hu0 h.1 (abs_sin_le_one _)).trans (by linarith), (LimbDarkFloat.rnd_abs hu0 h.2 (abs_cos_le_one _)).trans (by linarith)⟩

theorem abs_le_add {a b d : ℝ} (h : |a - b| ≤ d) : |a| ≤ |b| + d := by
  have := abs_sub_abs_le_abs_sub a b
  linarith

/-- a rounded product of two inexact numbers -/
theorem mul_near {u a A b B z da db M N : ℝ} (hu0 : 0 ≤ u) (ha : |a - A| ≤ da) (hb : |b - B| ≤ db) (hA : |A| ≤ M) (hB : |B| ≤ N)
    (hz : Rnd u (a * b) z) : |z - A * B| ≤ M * db + da * (N + db) + u * ((M + da) * (N + db)) := by
  have a0 := (abs_nonneg _).trans ha
  have b0 := (abs_nonneg _).trans hb
  have m0 := (abs_nonneg _).trans hA
  have n0 := (abs_nonneg _).trans hB
  have h1 : |a| ≤ M + da := (abs_le_add ha).trans (by linarith)
  have h2 : |b| ≤ N + db := (abs_le_add hb).trans (by linarith)
  have h3 : |a * b - A * B| ≤ M * db + da * (N + db) := by
    rw [show a * b - A * B = A * (b - B) + (a - A) * b by ring]
    refine (abs_add_le _ _).trans ?_
    rw [abs_mul, abs_mul]
    exact add_le_add (mul_le_mul hA hb (abs_nonneg _) m0) (mul_le_mul ha h2 (abs_nonneg _) a0)
  have h4 : |z - a * b| ≤ u * ((M + da) * (N + db)) := by
    refine le_trans hz (mul_le_mul_of_nonneg_left ?_ hu0)
    rw [abs_mul]
    exact mul_le_mul h1 h2 (abs_nonneg _) (by linarith)
  have := abs_sub_le z (a * b) (A * B)
  linarith

/-- the velocity towards the observer of an eccentric orbit, before the inclination -/
theorem y1_eccentric {u g e w f V : ℝ} {o : OrbitalBody} {k : Ecc} {t : ℝ} {arg : Option ℝ} (hu0 : 0 ≤ u) (hu : u ≤ 1e-10)
    (hec : o.ecc = some k) (hke : k.e = e) (hs : Rnd u (sin w) k.sinw) (hc : Rnd u (cos w) k.cosw) (he0 : 0 ≤ e) (he1 : e < 1)
    (hg : 108 * u ≤ g) (hg1 : 16 * g ≤ 1) (R : VelocityRun u o t arg) (hsf : |R.anom.sinf - sin f| ≤ g) (hcf : |R.anom.cosf - cos f| ≤ g)
    (hk : |R.k0 - V| ≤ 17 / 108 * g * |V|) : |R.y1 - V * (cos (w + f) + e * cos w)| ≤ 3.2 * g * |V| := by
  have hu4 : u ≤ 1e-4 := hu.trans (by norm_num)
  have h2 := R.hv2
  have h3 := R.hy1
  rw [hec] at h2 h3
  obtain ⟨c, c1, c2⟩ := h2
  obtain ⟨Q, q⟩ := h3
  rw [hke] at c1
  have hV := abs_nonneg V
  have hg0 : 0 ≤ g := by linarith
  have hgV : 0 ≤ g * |V| := by positivity
  have huV : u * |V| ≤ g * |V| / 108 := by nlinarith
  have hug : u * g ≤ g / 108 / 16 := by nlinarith
  have hggV : g * (g * |V|) ≤ g * |V| / 16 := by nlinarith
  have b1 : |-R.k0 - -V| ≤ 17 / 108 * g * |V| := by rw [show -R.k0 - -V = -(R.k0 - V) by ring, abs_neg]; exact hk
  have e1 : |R.v1 - -V * sin f| ≤ 1.4 * g * |V| := by
    have := mul_near hu0 b1 hsf (by rw [abs_neg]) (abs_sin_le_one f) R.hv1
    refine this.trans ?_
    have a1 : |V| * g + 17 / 108 * g * |V| * (1 + g) = g * |V| + 17 / 108 * (g * |V|) + 17 / 108 * (g * (g * |V|)) := by ring
    have a2 : u * ((|V| + 17 / 108 * g * |V|) * (1 + g)) ≤ u * ((|V| + 17 / 108 * (1 / 16) * |V|) * (1 + 1 / 16)) := by
      have : 16 * g ≤ 1 := hg1
      gcongr <;> linarith
    have a3 : u * ((|V| + 17 / 108 * (1 / 16) * |V|) * (1 + 1 / 16)) ≤ 1.1 * (u * |V|) := by
      have : 0 ≤ u * |V| := by positivity
      norm_num
      linarith
    rw [a1]
    norm_num at a3 ⊢
    linarith
  have hce : |cos f + e| ≤ 2 := (abs_add_le _ _).trans (by rw [abs_of_nonneg he0]; linarith [abs_cos_le_one f])
  have f1 : |c - (cos f + e)| ≤ 1.02 * g := by
    have r1 : |R.anom.cosf + e - (cos f + e)| ≤ g := by rwa [add_sub_add_right_eq_sub]
    have r2 : |R.anom.cosf + e| ≤ 2 + 1 / 16 := (abs_le_add r1).trans (by linarith)
    have r3 := LimbDarkFloat.rnd_abs hu0 c1 r2
    have := abs_sub_le c (R.anom.cosf + e) (cos f + e)
    norm_num at r3 ⊢
    linarith
  have e2 : |R.v2 - V * (cos f + e)| ≤ 1.4 * g * |V| := by
    have := mul_near hu0 hk f1 le_rfl hce c2
    refine this.trans ?_
    have a1 : |V| * (1.02 * g) + 17 / 108 * g * |V| * (2 + 1.02 * g) =
        1.02 * (g * |V|) + 34 / 108 * (g * |V|) + 17 / 108 * 1.02 * (g * (g * |V|)) := by ring
    have a2 : u * ((|V| + 17 / 108 * g * |V|) * (2 + 1.02 * g)) ≤ u * ((|V| + 17 / 108 * (1 / 16) * |V|) * (2 + 1.02 * (1 / 16))) := by
      have : 16 * g ≤ 1 := hg1
      gcongr <;> linarith
    have a3 : u * ((|V| + 17 / 108 * (1 / 16) * |V|) * (2 + 1.02 * (1 / 16))) ≤ 2.2 * (u * |V|) := by
      have : 0 ≤ u * |V| := by positivity
      norm_num
      linarith
    rw [a1]
    norm_num at a2 a3 ⊢
    linarith
  have hA : (-V * sin f) ^ 2 + (V * (cos f + e)) ^ 2 ≤ (2 * |V|) ^ 2 := by
    have : (-V * sin f) ^ 2 + (V * (cos f + e)) ^ 2 = V ^ 2 * (1 + 2 * e * cos f + e ^ 2) := by
      linear_combination V ^ 2 * sin_sq_add_cos_sq f
    rw [this, mul_pow, sq_abs]
    have : 1 + 2 * e * cos f + e ^ 2 ≤ 4 := by
      have := mul_le_mul_of_nonneg_left (cos_le_one f) he0
      nlinarith
    nlinarith [sq_nonneg V]
  have hd : 1.4 * g * |V| ≤ 2 * |V| := by
    norm_num
    nlinarith
  have hr := (rot_near hu0 hu4 (cos_sq_add_sin_sq w) hc hs e1 e2 hA hd Q).2
  rw [q]
  have e3 : V * (cos (w + f) + e * cos w) = sin w * (-V * sin f) + cos w * (V * (cos f + e)) := by
    rw [cos_add]
    ring
  rw [e3]
  refine hr.trans ?_
  norm_num
  linarith

/-- the amplitude without semi-amplitude, eccentric orbit -/
theorem amplitude_eccentric {u pi e m : ℝ} {o : OrbitalBody} {k : Ecc} (hu0 : 0 ≤ u) (hu : u ≤ 1e-10) (hpi : Rnd u π pi)
    (hec : o.ecc = some k) (hke : k.e = e) (he0 : 0 ≤ e) (he1 : e < 1) (heu : 400 * u ≤ 1 - e) (hm : o.mass = some m)
    (A : AmplitudeRun u pi o) :
    Rnd (17 * (u / (1 - e))) (2 * π * o.semimajor * m / ((m + o.central.mass) * o.period * √(1 - e ^ 2))) A.k0 := by
  have z : ∀ x : ℝ, Rnd (0 * u) x x := fun x => Rnd.refl (by simp) x
  have hpi' : Rnd (1 * u) π pi := by rwa [one_mul]
  have h1 : Rnd (3 * u) (2 * π) A.two_pi := rnd_mul hu0 hu (z _) hpi' A.htwo_pi le_rfl (by norm_num) (by norm_num) (by norm_num) (by norm_num)
  have h2 : Rnd (5 * u) (2 * π * o.semimajor) A.a1 := rnd_mul hu0 hu h1 (z _) A.ha1 (by norm_num) (by norm_num) (by norm_num) (by norm_num) (by norm_num)
  have h3 : Rnd (7 * u) (2 * π * o.semimajor * m) A.a2 := by
    have := A.ha2
    rw [hm] at this
    exact rnd_mul hu0 hu h2 (z _) this (by norm_num) (by norm_num) (by norm_num) (by norm_num) (by norm_num)
  have h4 : Rnd (1 * u) (m + o.central.mass) A.total := by
    have := A.htotal
    rw [hm] at this
    rwa [one_mul]
  have h5 : Rnd (3 * u) ((m + o.central.mass) * o.period) A.den := rnd_mul hu0 hu h4 (z _) A.hden (by norm_num) (by norm_num) (by norm_num) (by norm_num) (by norm_num)
  have h6 : Rnd (13 * u) (2 * π * o.semimajor * m / ((m + o.central.mass) * o.period)) A.q :=
    rnd_div hu0 hu h3 h5 A.hq (by norm_num) (by norm_num) (by norm_num) (by norm_num) (by norm_num)
  have hk := A.hk0
  rw [hec] at hk
  obtain ⟨e2, d, s, k1, k2, k3, k4⟩ := hk
  rw [hke] at k1
  have hε : 0 < 1 - e := by linarith
  set η := u / (1 - e) with hη
  have hη0 : 0 ≤ η := by positivity
  have hη1 : η ≤ 1 / 400 := by rw [hη, div_le_iff₀ hε]; linarith
  have huη : u ≤ η := by rw [hη, le_div_iff₀ hε]; nlinarith
  have hw : 1 - e ≤ 1 - e ^ 2 := by nlinarith
  have r1 : Rnd η (1 - e ^ 2) (1 - e2) := by
    have : |e2 - e * e| ≤ u * 1 := LimbDarkFloat.rnd_abs hu0 k1 (by rw [abs_of_nonneg (by positivity)]; nlinarith)
    unfold Rnd
    rw [abs_of_pos (lt_of_lt_of_le hε hw), show 1 - e2 - (1 - e ^ 2) = -(e2 - e * e) by ring, abs_neg]
    refine this.trans ?_
    rw [mul_one, hη, div_mul_eq_mul_div, le_div_iff₀ hε]
    exact mul_le_mul_of_nonneg_left hw hu0
  have r2 : Rnd (2.1 * η) (1 - e ^ 2) d := by
    refine (r1.trans k2 hη0 hu0).mono ?_
    have : η * u ≤ 0.1 * η := by nlinarith
    norm_num at this ⊢
    linarith
  have r3 : Rnd (1.1 * η) √(1 - e ^ 2) √d := by
    refine (rnd_sqrt1 r2 (by positivity) (by norm_num; linarith) (hε.le.trans hw)).mono ?_
    norm_num
    linarith
  have r4 : Rnd (2.2 * η) √(1 - e ^ 2) s := by
    refine (r3.trans k3 (by positivity) hu0).mono ?_
    have : 1.1 * η * u ≤ 0.1 * η := by nlinarith
    norm_num at this ⊢
    linarith
  have h6' : Rnd (13 * η) (2 * π * o.semimajor * m / ((m + o.central.mass) * o.period)) A.q := h6.mono (by linarith)
  have r5 : Rnd (15.5 * η) (2 * π * o.semimajor * m / ((m + o.central.mass) * o.period) / √(1 - e ^ 2)) (A.q / s) := by
    refine (h6'.div0 r4 (by positivity) (by positivity) (by norm_num; linarith)).mono ?_
    rw [div_le_iff₀ (by norm_num; linarith)]
    norm_num
    nlinarith
  rw [div_div] at r5
  refine (r5.trans k4 (by positivity) hu0).mono ?_
  have : 15.5 * η * u ≤ 0.1 * η := by
    norm_num
    nlinarith
  norm_num at this ⊢
  linarith

/-- the amplitude without semi-amplitude, circular orbit -/
theorem amplitude_circular {u pi m : ℝ} {o : OrbitalBody} (hu0 : 0 ≤ u) (hu : u ≤ 1e-10) (hpi : Rnd u π pi)
    (hec : o.ecc = none) (hm : o.mass = some m) (A : AmplitudeRun u pi o) :
    Rnd (13 * u) (2 * π * o.semimajor * m / ((m + o.central.mass) * o.period)) A.k0 := by
  have z : ∀ x : ℝ, Rnd (0 * u) x x := fun x => Rnd.refl (by simp) x
  have hpi' : Rnd (1 * u) π pi := by rwa [one_mul]
  have h1 : Rnd (3 * u) (2 * π) A.two_pi := rnd_mul hu0 hu (z _) hpi' A.htwo_pi le_rfl (by norm_num) (by norm_num) (by norm_num) (by norm_num)
  have h2 : Rnd (5 * u) (2 * π * o.semimajor) A.a1 := rnd_mul hu0 hu h1 (z _) A.ha1 (by norm_num) (by norm_num) (by norm_num) (by norm_num) (by norm_num)
  have h3 : Rnd (7 * u) (2 * π * o.semimajor * m) A.a2 := by
    have := A.ha2
    rw [hm] at this
    exact rnd_mul hu0 hu h2 (z _) this (by norm_num) (by norm_num) (by norm_num) (by norm_num) (by norm_num)
  have h4 : Rnd (1 * u) (m + o.central.mass) A.total := by
    have := A.htotal
    rw [hm] at this
    rwa [one_mul]
  have h5 : Rnd (3 * u) ((m + o.central.mass) * o.period) A.den := rnd_mul hu0 hu h4 (z _) A.hden (by norm_num) (by norm_num) (by norm_num) (by norm_num) (by norm_num)
  have hk := A.hk0
  rw [hec] at hk
  rw [hk]
  exact rnd_div hu0 hu h3 h5 A.hq (by norm_num) (by norm_num) (by norm_num) (by norm_num) (by norm_num)

/-- the velocity towards the observer of a circular orbit, before the inclination -/
theorem y1_circular {u f V : ℝ} {o : OrbitalBody} {t : ℝ} {arg : Option ℝ} (hu0 : 0 ≤ u) (hu : u ≤ 1e-10)
    (hec : o.ecc = none) (R : VelocityRun u o t arg) (hcf : |R.anom.cosf - cos f| ≤ u)
    (hk : |R.k0 - V| ≤ 13 * u * |V|) : |R.y1 - V * cos f| ≤ 16 * u * |V| := by
  have h2 := R.hv2
  have h3 := R.hy1
  rw [hec] at h2 h3
  simp only at h2 h3
  rw [h3]
  have hV := abs_nonneg V
  have huV : 0 ≤ u * |V| := by positivity
  have huu : u * (u * |V|) ≤ 0.001 * (u * |V|) := mul_le_mul_of_nonneg_right (hu.trans (by norm_num)) huV
  have huuu : u * (u * (u * |V|)) ≤ 0.001 * (u * |V|) := by
    have h := mul_le_mul_of_nonneg_left huu hu0
    have e : u * (0.001 * (u * |V|)) = 0.001 * (u * (u * |V|)) := by ring
    rw [e] at h
    norm_num at h huu ⊢
    linarith
  refine (mul_near hu0 hk hcf le_rfl (abs_cos_le_one f) h2).trans ?_
  have e : |V| * u + 13 * u * |V| * (1 + u) + u * ((|V| + 13 * u * |V|) * (1 + u)) =
      15 * (u * |V|) + 27 * (u * (u * |V|)) + 13 * (u * (u * (u * |V|))) := by ring
  rw [e]
  norm_num at huu huuu ⊢
  linarith

theorem exists_trueAnomaly {e : ℝ} (he0 : 0 ≤ e) (he1 : e < 1) (M : ℝ) : ∃ f, TrueAnomalyAt M e f := by
  obtain ⟨E, hE⟩ := Kepler.keplerEq_exists he0 he1 M
  obtain ⟨f, hf⟩ := Kepler.exists_isTrueAnomaly he0 he1 E
  exact ⟨f, E, hE, hf⟩

/-- the last step: the inclination, unless a semi-amplitude is used -/
theorem out_physical {u i y d A : ℝ} {o : OrbitalBody} {t : ℝ} {arg : Option ℝ} (hu0 : 0 ≤ u) (hu : u ≤ 1e-10)
    (hi : Rnd u (sin i) o.sin_inclination) (ha : amplitude o arg = none) (R : VelocityRun u o t arg) (hy : |R.y1 - y| ≤ d)
    (hyA : |y| ≤ A) (hdA : d ≤ A) : |R.out - sin i * y| ≤ d + 6 * u * A := by
  have hZ := R.hZ
  rw [ha] at hZ
  have := prod_near hu0 (hu.trans (by norm_num)) hi.neg (by rw [abs_neg]; exact abs_sin_le_one i) hy hyA hdA hZ
  rw [R.hout, show -R.Z - sin i * y = -(R.Z - -sin i * y) by ring, abs_neg]
  exact this

theorem out_prescribed {u K : ℝ} {o : OrbitalBody} {t : ℝ} {arg : Option ℝ} (ha : amplitude o arg = some K) (R : VelocityRun u o t arg) :
    R.k0 = K ∧ R.out = R.y1 := by
  have hZ := R.hZ
  have hk := R.hk0
  rw [ha] at hZ hk
  exact ⟨hk, by rw [R.hout, hZ, neg_neg]⟩

/-- **C117 (a).** Circular orbits with a semi-amplitude `K`, given to the method or carried by the body: in floating-point arithmetic
`radial_velocity(t)` is within `16 u |K|` of `K cos f`, `f` the anomaly at a time that differs from `t` only by the rounding of the times. -/
theorem radial_velocity_float_circular {u : ℝ} (hu0 : 0 ≤ u) (hu : u ≤ 1e-10) {o : OrbitalBody} (hec : o.ecc = none) (hP : 0 < o.period)
    {t K : ℝ} {arg : Option ℝ} (ha : arg = some K ∨ arg = none ∧ o.radial_velocity_semiamplitude = some K) (R : VelocityRun u o t arg) :
    ∃ t' f, |t' - t| ≤ 7 * u * (|t - o.time_transit| + |o.time_ref|) ∧ TrueAnomalyAt (2 * π * (t' - o.time_peri) / o.period) 0 f ∧
      |R.out - K * cos f| ≤ 16 * u * |K| := by
  have ha' : amplitude o arg = some K := by
    unfold amplitude
    rcases ha with rfl | ⟨rfl, h⟩
    · rfl
    · simpa using h
  obtain ⟨t', h1, h2⟩ := anomaly_circular hu0 (hu.trans (by norm_num)) hec hP R.anom
  obtain ⟨f, hf⟩ := exists_trueAnomaly (le_refl (0 : ℝ)) one_pos (2 * π * (t' - o.time_peri) / o.period)
  obtain ⟨hk, ho⟩ := out_prescribed ha' R
  refine ⟨t', f, h1, hf, ?_⟩
  rw [ho]
  exact y1_circular hu0 hu hec R (h2 f hf).2 (by rw [hk, sub_self, abs_zero]; positivity)

/-- **C117 (b).** Eccentric orbits with a semi-amplitude `K`: in floating-point arithmetic `radial_velocity(t)` is within
`3.2 (1.5e-13 + 108 u / (1 - e)) |K|` of the textbook curve `K (cos(w + f) + e cos w)`, `f` the true anomaly at a time that differs from
`t` only by the rounding of the times. -/
theorem radial_velocity_float_eccentric {u : ℝ} (hu0 : 0 ≤ u) (hu : u ≤ 1e-10) {o : OrbitalBody} {k : Ecc} {e w i Ω : ℝ}
    (ho : RoundedElements u o e w i Ω) (hec : o.ecc = some k) (he0 : 0 ≤ e) (he1 : e < 1) (heu : 400 * u ≤ 1 - e)
    (heg : 16 * anomalyError u e ≤ 1 - e) (hP : 0 < o.period)
    {t K : ℝ} {arg : Option ℝ} (ha : arg = some K ∨ arg = none ∧ o.radial_velocity_semiamplitude = some K) (R : VelocityRun u o t arg) :
    ∃ t' f, |t' - t| ≤ 11 * u * (|t - o.time_transit| + |o.time_ref|) + 10 * u * o.period ∧
      TrueAnomalyAt (2 * π * (t' - o.time_peri) / o.period) e f ∧
      |R.out - K * (cos (w + f) + e * cos w)| ≤ 3.2 * anomalyError u e * |K| := by
  have ha' : amplitude o arg = some K := by
    unfold amplitude
    rcases ha with rfl | ⟨rfl, h⟩
    · rfl
    · simpa using h
  obtain ⟨k', hk', hke, hs, hc⟩ := ho.ecc.resolve_left (by rw [hec]; simp)
  obtain rfl : k = k' := Option.some.inj (hec.symm.trans hk')
  obtain ⟨t', h1, h2⟩ := anomaly_eccentric hu0 hu hec hke he0 he1 heu hP R.anom
  obtain ⟨f, hf⟩ := exists_trueAnomaly he0 he1 (2 * π * (t' - o.time_peri) / o.period)
  obtain ⟨hk, hout⟩ := out_prescribed ha' R
  have hg := anomalyError_ge hu0 he0 he1
  refine ⟨t', f, h1, hf, ?_⟩
  rw [hout]
  exact y1_eccentric hu0 hu hec hke hs hc he0 he1 hg (by linarith) R (h2 f hf).1 (h2 f hf).2
    (by rw [hk, sub_self, abs_zero]; have : 0 ≤ anomalyError u e := by linarith
        positivity)

/-- **C117 (c).** Circular orbits of a body with a mass and without semi-amplitude: in floating-point arithmetic `radial_velocity(t)` is
within `22 u |V|` of `V sin i cos f` with the physical amplitude `V = 2 π a m / ((m + M) P)`. -/
theorem radial_velocity_float_physical_circular {u : ℝ} (hu0 : 0 ≤ u) (hu : u ≤ 1e-10) {o : OrbitalBody} {i Ω : ℝ}
    (ho : RoundedElements u o 0 0 i Ω) (hec : o.ecc = none) (hP : 0 < o.period) {t m : ℝ} (hm : o.mass = some m)
    (hK : o.radial_velocity_semiamplitude = none) (R : VelocityRun u o t none) :
    ∃ t' f, |t' - t| ≤ 7 * u * (|t - o.time_transit| + |o.time_ref|) ∧ TrueAnomalyAt (2 * π * (t' - o.time_peri) / o.period) 0 f ∧
      |R.out - 2 * π * o.semimajor * m / ((m + o.central.mass) * o.period) * sin i * cos f| ≤
        22 * u * |2 * π * o.semimajor * m / ((m + o.central.mass) * o.period)| := by
  have ha' : amplitude o none = none := by simpa [amplitude] using hK
  obtain ⟨t', h1, h2⟩ := anomaly_circular hu0 (hu.trans (by norm_num)) hec hP R.anom
  obtain ⟨f, hf⟩ := exists_trueAnomaly (le_refl (0 : ℝ)) one_pos (2 * π * (t' - o.time_peri) / o.period)
  have hk := R.hk0
  rw [ha'] at hk
  obtain ⟨A, hA⟩ := hk
  have hV := amplitude_circular hu0 hu R.anom.hpi hec hm A
  rw [← hA] at hV
  generalize 2 * π * o.semimajor * m / ((m + o.central.mass) * o.period) = V at *
  refine ⟨t', f, h1, hf, ?_⟩
  have hy := y1_circular (V := V) hu0 hu hec R (h2 f hf).2 hV
  have hv := abs_nonneg V
  have := out_physical hu0 hu ho.sin_incl ha' R hy (A := |V|)
    (by rw [abs_mul]; exact mul_le_of_le_one_right hv (abs_cos_le_one f)) (by norm_num at hu; nlinarith)
  rw [show V * sin i * cos f = sin i * (V * cos f) by ring]
  linarith

/-- **C117 (d).** Eccentric orbits of a body with a mass and without semi-amplitude: the same with the amplitude
`V = 2 π a m / ((m + M) P √(1 - e²))` and the textbook curve `V sin i (cos(w + f) + e cos w)`. -/
theorem radial_velocity_float_physical_eccentric {u : ℝ} (hu0 : 0 ≤ u) (hu : u ≤ 1e-10) {o : OrbitalBody} {k : Ecc} {e w i Ω : ℝ}
    (ho : RoundedElements u o e w i Ω) (hec : o.ecc = some k) (he0 : 0 ≤ e) (he1 : e < 1) (heu : 400 * u ≤ 1 - e)
    (heg : 16 * anomalyError u e ≤ 1 - e) (hP : 0 < o.period) {t m : ℝ} (hm : o.mass = some m)
    (hK : o.radial_velocity_semiamplitude = none) (R : VelocityRun u o t none) :
    ∃ t' f, |t' - t| ≤ 11 * u * (|t - o.time_transit| + |o.time_ref|) + 10 * u * o.period ∧
      TrueAnomalyAt (2 * π * (t' - o.time_peri) / o.period) e f ∧
      |R.out - 2 * π * o.semimajor * m / ((m + o.central.mass) * o.period * √(1 - e ^ 2)) * sin i * (cos (w + f) + e * cos w)| ≤
        3.4 * anomalyError u e * |2 * π * o.semimajor * m / ((m + o.central.mass) * o.period * √(1 - e ^ 2))| := by
  have ha' : amplitude o none = none := by simpa [amplitude] using hK
  obtain ⟨k', hk', hke, hs, hc⟩ := ho.ecc.resolve_left (by rw [hec]; simp)
  obtain rfl : k = k' := Option.some.inj (hec.symm.trans hk')
  obtain ⟨t', h1, h2⟩ := anomaly_eccentric hu0 hu hec hke he0 he1 heu hP R.anom
  obtain ⟨f, hf⟩ := exists_trueAnomaly he0 he1 (2 * π * (t' - o.time_peri) / o.period)
  have hk := R.hk0
  rw [ha'] at hk
  obtain ⟨A, hA⟩ := hk
  have hV := amplitude_eccentric hu0 hu R.anom.hpi hec hke he0 he1 heu hm A
  rw [← hA] at hV
  have hg := anomalyError_ge hu0 he0 he1
  have hη : 17 * (u / (1 - e)) ≤ 17 / 108 * anomalyError u e := by
    unfold anomalyError
    have : 17 / 108 * (1.5e-13 + 108 * u / (1 - e)) = 17 / 108 * 1.5e-13 + 17 * (u / (1 - e)) := by ring
    rw [this]
    norm_num
  have h3 := h2 f hf
  have hg1 : 16 * anomalyError u e ≤ 1 := by linarith
  clear h2
  generalize anomalyError u e = g at *
  generalize 2 * π * o.semimajor * m / ((m + o.central.mass) * o.period * √(1 - e ^ 2)) = V at *
  refine ⟨t', f, h1, hf, ?_⟩
  have hv := abs_nonneg V
  have hgv : 0 ≤ g * |V| := mul_nonneg (by linarith) hv
  have hy := y1_eccentric (V := V) hu0 hu hec hke hs hc he0 he1 hg hg1 R h3.1 h3.2 (hV.mono hη)
  have hc2 : |cos (w + f) + e * cos w| ≤ 2 := by
    refine (abs_add_le _ _).trans ?_
    rw [abs_mul, abs_of_nonneg he0]
    have := mul_le_mul he1.le (abs_cos_le_one w) (abs_nonneg _) zero_le_one
    linarith [abs_cos_le_one (w + f)]
  have := out_physical hu0 hu ho.sin_incl ha' R hy (A := 2 * |V|)
    (by rw [abs_mul, mul_comm]; exact mul_le_mul_of_nonneg_right hc2 hv) (by norm_num; nlinarith)
  rw [show V * sin i * (cos (w + f) + e * cos w) = sin i * (V * (cos (w + f) + e * cos w)) by ring]
  refine this.trans ?_
  have huV : u * |V| ≤ g * |V| / 108 := by nlinarith
  norm_num
  linarith

/-- exact arithmetic: the anomaly -/
theorem anomaly_run_exact {o : OrbitalBody} {t : ℝ} (hM : o.ecc = none ∨ fmod (o.meanAnomaly t) (2 * π) ≠ 0) (A : AnomalyRun 0 o t) :
    o.trueAnomaly Kepler.kepler t = (A.sinf, A.cosf) := by
  have hMe : A.M = o.meanAnomaly t := by
    rw [rnd_zero.1 A.hM, rnd_zero.1 A.hprod, rnd_zero.1 A.hdt, rnd_zero.1 A.hwarp, rnd_zero.1 A.htwo_pi,
      rnd_zero.1 A.hpi]
    rfl
  have hsc : o.trueAnomaly Kepler.kepler t = (A.sinf, A.cosf) := by
    have hf := A.hf
    unfold OrbitalBody.trueAnomaly
    rcases hec : o.ecc with _ | k
    · rw [hec] at hf
      simp only [rnd_zero] at hf
      rw [hf.1, hf.2, hMe]
    · rw [hec] at hf
      obtain ⟨K, hK⟩ := hf
      have hne := hM.resolve_left (by rw [hec]; simp)
      have htp : K.two_pi = 2 * π := by rw [rnd_zero.1 K.htwo_pi, rnd_zero.1 K.hpi]
      have hlt : K.Mr < K.two_pi := by
        refine lt_of_le_of_ne K.hMr1 fun h => hne ?_
        have a := rnd_zero.1 K.hMr
        rw [h, htp] at a
        have : A.M = (K.n + 1 : ℤ) * (2 * π) := by push_cast; linarith
        rw [← hMe]
        exact fmod_unique two_pi_pos (K.n + 1) (sub_eq_zero.2 this).symm le_rfl two_pi_pos
      simp only
      rw [← hMe, ← float_exact K hlt, hK]
  exact hsc

theorem central_velocity_prescribed (kep : ℝ → ℝ → ℝ × ℝ) (au : ℝ) (o : OrbitalBody) (t : ℝ) {arg : Option ℝ} {K : ℝ}
    (ha : amplitude o arg = some K) : o.central_velocity kep au t arg =
      o.rotateVector (-K * (o.trueAnomaly kep t).1) (K * ((o.trueAnomaly kep t).2 + o.eVal)) false := by
  unfold amplitude at ha
  rcases arg with _ | a
  · have ha : o.radial_velocity_semiamplitude = some K := by simpa using ha
    unfold OrbitalBody.central_velocity OrbitalBody.posVel OrbitalBody.eVal
    rw [ha]
    cases o.ecc <;> simp
  · obtain rfl : a = K := by simpa using ha
    unfold OrbitalBody.central_velocity OrbitalBody.posVel OrbitalBody.eVal
    cases o.ecc <;> simp

/-- **C117 (e).** Without rounding the run is the program of C17–C19. -/
theorem velocity_run_exact (au : ℝ) {o : OrbitalBody} {t : ℝ} {arg : Option ℝ} (hpar : o.parallax = none)
    (hM : o.ecc = none ∨ fmod (o.meanAnomaly t) (2 * π) ≠ 0) (R : VelocityRun 0 o t arg) :
    R.out = o.radial_velocity Kepler.kepler au t arg := by
  have hsc := anomaly_run_exact hM R.anom
  have hk := R.hk0
  have h1 := R.hv1
  have h2 := R.hv2
  have h3 := R.hy1
  have h4 := R.hZ
  rw [R.hout]
  unfold OrbitalBody.radial_velocity
  rw [rnd_zero] at h1
  have key : ∀ K, (K = R.k0) → ∀ inc, -R.Z = -(o.rotateVector (-K * R.anom.sinf) (K * (R.anom.cosf + o.eVal)) inc).z ↔
      R.Z = (if inc then -o.sin_inclination else -1) * R.y1 := by
    intro K hK inc
    rw [neg_inj, hK]
    have : (o.rotateVector (-R.k0 * R.anom.sinf) (R.k0 * (R.anom.cosf + o.eVal)) inc).z = (if inc then -o.sin_inclination else -1) * R.y1 := by
      have e : (o.rotateVector (-R.k0 * R.anom.sinf) (R.k0 * (R.anom.cosf + o.eVal)) inc).z =
        (if inc then -o.sin_inclination else -1) * (match o.ecc with
          | none => R.k0 * (R.anom.cosf + o.eVal)
          | some k => k.sinw * (-R.k0 * R.anom.sinf) + k.cosw * (R.k0 * (R.anom.cosf + o.eVal))) := by
        unfold OrbitalBody.rotateVector
        cases o.ecc <;> cases inc <;> rcases o.node with _ | ⟨_, _⟩ <;> simp
      rw [e]
      congr 1
      rcases hec : o.ecc with _ | k
      · rw [hec] at h2 h3
        simp only [rnd_zero] at h2 h3
        simp only [OrbitalBody.eVal, hec, add_zero]
        rw [h3, h2]
      · rw [hec] at h2 h3
        obtain ⟨c, c1, c2⟩ := h2
        obtain ⟨Q, q⟩ := h3
        simp only [OrbitalBody.eVal, hec]
        rw [q, rnd_zero.1 Q.hY, rnd_zero.1 Q.hsx, rnd_zero.1 Q.hcy, h1, rnd_zero.1 c2, rnd_zero.1 c1]
    rw [this]
  rcases ha : amplitude o arg with _ | K
  · rw [ha] at hk h4
    obtain ⟨A, hA⟩ := hk
    have harg : arg = none ∧ o.radial_velocity_semiamplitude = none := by
      unfold amplitude at ha
      rcases arg with _ | a
      · exact ⟨rfl, by simpa using ha⟩
      · simp at ha
    obtain ⟨rfl, hK⟩ := harg
    have e1 : (o.posVel Kepler.kepler au t none o.mass none none).2 = (o.posVel Kepler.kepler au t none (some (o.mass.getD 1)) none none).2 := by
      rcases o.mass with _ | m
      · simp only [OrbitalBody.posVel, hK, Option.getD_none]
      · rfl
    unfold OrbitalBody.central_velocity
    simp only [e1]
    rw [velocity_amplitude o _ au Kepler.kepler t hK]
    simp only [hpar, hsc]
    refine (key _ ?_ true).2 ?_
    · rw [hA]
      have htot : A.total = o.total_mass := by
        have := A.htotal
        unfold OrbitalBody.total_mass totalMass
        rcases hm : o.mass with _ | m
        · rw [hm] at this; exact this
        · rw [hm] at this; exact rnd_zero.1 this
      have hq : A.q = 2 * π * o.semimajor * o.mass.getD 1 / (o.total_mass * o.period) := by
        rw [rnd_zero.1 A.hq, rnd_zero.1 A.ha2, rnd_zero.1 A.ha1, rnd_zero.1 A.htwo_pi, rnd_zero.1 A.hden, htot, rnd_zero.1 R.anom.hpi]
      have hk0 := A.hk0
      rcases hec : o.ecc with _ | k
      · rw [hec] at hk0
        simp only at hk0
        rw [hk0, hq]
        simp only [OrbitalBody.eVal, hec]
        norm_num
        ring
      · rw [hec] at hk0
        obtain ⟨e2, d, s, k1, k2, k3, k4⟩ := hk0
        rw [rnd_zero.1 k4, rnd_zero.1 k3, rnd_zero.1 k2, rnd_zero.1 k1, hq]
        simp only [OrbitalBody.eVal, hec, sq]
        ring
    · rw [rnd_zero.1 h4]
      simp
  · rw [ha] at hk h4
    rw [central_velocity_prescribed _ au o t ha, hsc]
    refine (key K hk.symm false).2 ?_
    rw [h4]
    simp

/-- every rounding function gives a run -/
theorem exists_velocityRun {u : ℝ} (hu0 : 0 ≤ u) (hu1 : u < 1) (fl : ℝ → ℚ) (h : ∀ x, Rnd u x (fl x)) (o : OrbitalBody) (t : ℝ)
    (arg : Option ℝ) : Nonempty (VelocityRun u o t arg) := by
  obtain ⟨T⟩ := exists_transitRun hu0 hu1 fl h o 0 t
  have A := T.pos.anom
  have hk : ∃ k0, match amplitude o arg with
      | some K => k0 = K
      | none => ∃ R : AmplitudeRun u A.pi o, k0 = R.k0 := by
    rcases amplitude o arg with _ | K
    · have ht : ∃ total, match o.mass with
          | none => total = o.central.mass
          | some m => Rnd u (m + o.central.mass) total := by
        rcases o.mass with _ | m
        · exact ⟨_, rfl⟩
        · exact ⟨_, h _⟩
      obtain ⟨total, ht⟩ := ht
      have hq : ∀ q : ℝ, ∃ k0 : ℝ, match o.ecc with
          | none => k0 = q
          | some k => ∃ e2 d s, Rnd u (k.e * k.e) e2 ∧ Rnd u (1 - e2) d ∧ Rnd u (√d) s ∧ Rnd u (q / s) k0 := by
        intro q
        rcases o.ecc with _ | k
        · exact ⟨_, rfl⟩
        · exact ⟨_, _, _, _, h _, h _, h _, h _⟩
      obtain ⟨k0, hk0⟩ := hq (fl ((fl ((fl ((fl (2 * A.pi) : ℝ) * o.semimajor) : ℝ) * o.mass.getD 1) : ℝ) / (fl (total * o.period) : ℝ)))
      exact ⟨k0, ⟨_, h _, _, h _, _, h _, total, ht, _, h _, _, h _, k0, hk0⟩, rfl⟩
    · exact ⟨_, rfl⟩
  obtain ⟨k0, hk⟩ := hk
  have h2 : ∃ v2 : ℝ, match o.ecc with
      | none => Rnd u (k0 * A.cosf) v2
      | some k => ∃ c, Rnd u (A.cosf + k.e) c ∧ Rnd u (k0 * c) v2 := by
    rcases o.ecc with _ | k
    · exact ⟨_, h _⟩
    · exact ⟨_, _, h _, h _⟩
  obtain ⟨v2, h2⟩ := h2
  have h3 : ∃ y1 : ℝ, match o.ecc with
      | none => y1 = v2
      | some k => ∃ R : RotRun u k.cosw k.sinw (fl (-k0 * A.sinf)) v2, y1 = R.Y := by
    rcases o.ecc with _ | k
    · exact ⟨_, rfl⟩
    · exact ⟨_, RotRun.ofRounding fl h _ _ _ _, rfl⟩
  obtain ⟨y1, h3⟩ := h3
  have h4 : ∃ Z : ℝ, match amplitude o arg with
      | some _ => Z = -y1
      | none => Rnd u (-o.sin_inclination * y1) Z := by
    rcases amplitude o arg with _ | K
    · exact ⟨_, h _⟩
    · exact ⟨_, rfl⟩
  obtain ⟨Z, h4⟩ := h4
  exact ⟨⟨A, k0, hk, _, h _, v2, h2, y1, h3, Z, h4, _, rfl⟩⟩

/-- **C117 (f).** Double precision, a body that the code builds from a semimajor axis, an eccentricity of 0.3 and a semi-amplitude of 50: every
rounding function with unit roundoff `2⁻⁵²` gives a run, and every run is within `1e-10` of the textbook curve. -/
example : ∃ (o : OrbitalBody) (fl : ℝ → ℚ), (∀ x, Rnd (2 ^ (-52 : ℤ)) x (fl x)) ∧ mkOrbitalBody 1 ⟨1, 1, 1⟩
    { semimajor := some 20, eccentricity := some 0.3, omega_peri := some 1, asc_node := some 2, inclination := some 1.5,
      time_transit := some 5, radial_velocity_semiamplitude := some 50 } = .ok o ∧ ∀ t,
    Nonempty (VelocityRun (2 ^ (-52 : ℤ)) o t none) ∧ ∀ R : VelocityRun (2 ^ (-52 : ℤ)) o t none,
      ∃ t' f, |t' - t| ≤ 1e-14 * (|t - o.time_transit| + |o.time_ref| + o.period) ∧
        TrueAnomalyAt (2 * π * (t' - o.time_peri) / o.period) 0.3 f ∧ |R.out - 50 * (cos (1 + f) + 0.3 * cos 1)| ≤ 1e-10 := by
  obtain ⟨o, ho⟩ := mkOrbitalBody_of_accepted 1 ⟨1, 1, 1⟩
    (b := { semimajor := some 20, eccentricity := some 0.3, omega_peri := some 1, asc_node := some 2, inclination := some 1.5,
            time_transit := some 5, radial_velocity_semiamplitude := some 50 })
    (by constructor <;> simp [Given, ScalarIfGiven])
  obtain ⟨fl, hfl⟩ := exists_rounding (u := 2 ^ (-52 : ℤ)) (by positivity)
  have h3 := kepler_third_law (by norm_num) (by simp) (by simp) ho
  have u0 : (0 : ℝ) ≤ 2 ^ (-52 : ℤ) := by positivity
  have u1 : (2 : ℝ) ^ (-52 : ℤ) ≤ 2.3e-16 := by norm_num
  refine ⟨o, fl, hfl, ho, fun t => ⟨exists_velocityRun u0 (by norm_num) fl hfl o t none, fun R => ?_⟩⟩
  have hK : o.radial_velocity_semiamplitude = some 50 := by
    obtain ⟨_, P, a, ecc, _, _, rfl⟩ := mkOrbitalBody_ok ho
    rfl
  have hre := roundedElements_of_body u0 ho (e := 0.3) (w := 1) (i := 1.5) (Ω := 2) (Or.inl rfl) (Or.inl rfl) (Or.inl ⟨rfl, rfl⟩) (Or.inl rfl)
  obtain ⟨k, hec⟩ : ∃ k, o.ecc = some k := by
    rcases ecc_resolved ho (e := 0.3) (w := 1) (Or.inl rfl) (Or.inl rfl) with ⟨-, h, -⟩ | h
    · norm_num at h
    · exact ⟨_, h⟩
  have hg : anomalyError (2 ^ (-52 : ℤ)) 0.3 ≤ 2e-13 := by
    unfold anomalyError
    have : 108 * (2 : ℝ) ^ (-52 : ℤ) / (1 - 0.3) ≤ 108 * 2.3e-16 / (1 - 0.3) := by gcongr
    norm_num at this ⊢
  obtain ⟨t', f, h1, h2, h4⟩ := radial_velocity_float_eccentric u0 (u1.trans (by norm_num)) hre hec (by norm_num) (by norm_num)
    (by norm_num) (by norm_num at hg ⊢; linarith) h3.2.1 (Or.inr ⟨rfl, hK⟩) R
  refine ⟨t', f, h1.trans ?_, h2, h4.trans ?_⟩
  · have hS : 0 ≤ |t - o.time_transit| + |o.time_ref| := by positivity
    have hP := h3.2.1
    generalize |t - o.time_transit| + |o.time_ref| = S at *
    have a1 := mul_le_mul_of_nonneg_right u1 hS
    have a2 := mul_le_mul_of_nonneg_right u1 hP.le
    norm_num at a1 a2 ⊢
    linarith
  · rw [abs_of_pos (by norm_num : (0 : ℝ) < 50)]
    norm_num at hg ⊢
    linarith

/-- non-vacuity of (c) and (d): the code builds such bodies with a mass, of a circular and of an eccentric orbit, and runs exist -/
example : ∃ o o' : OrbitalBody, ∃ k m, o.ecc = none ∧ o'.ecc = some k ∧ k.e = 0.3 ∧ o.mass = some m ∧ o'.mass = some m ∧ m ≠ 0 ∧
    RoundedElements (2 ^ (-52 : ℤ)) o 0 0 1.5 2 ∧ RoundedElements (2 ^ (-52 : ℤ)) o' 0.3 1 1.5 2 ∧ 0 < o.period ∧ 0 < o'.period ∧
    o.radial_velocity_semiamplitude = none ∧ o'.radial_velocity_semiamplitude = none ∧
    Nonempty (VelocityRun (2 ^ (-52 : ℤ)) o 3 none) ∧ Nonempty (VelocityRun (2 ^ (-52 : ℤ)) o' 3 none) := by
  have u0 : (0 : ℝ) ≤ 2 ^ (-52 : ℤ) := by positivity
  obtain ⟨fl, hfl⟩ := exists_rounding (u := 2 ^ (-52 : ℤ)) (by positivity)
  obtain ⟨o, ho⟩ := mkOrbitalBody_of_accepted 1 ⟨1, 1, 1⟩
    (b := { semimajor := some 20, asc_node := some 2, inclination := some 1.5, time_transit := some 5, mass := some 0.001 })
    (by constructor <;> simp [Given, ScalarIfGiven])
  obtain ⟨o', ho'⟩ := mkOrbitalBody_of_accepted 1 ⟨1, 1, 1⟩
    (b := { semimajor := some 20, eccentricity := some 0.3, omega_peri := some 1, asc_node := some 2, inclination := some 1.5,
            time_transit := some 5, mass := some 0.001 })
    (by constructor <;> simp [Given, ScalarIfGiven])
  have h3 := kepler_third_law (by norm_num) (by simp) (by simp) ho
  have h3' := kepler_third_law (by norm_num) (by simp) (by simp) ho'
  have hre := roundedElements_of_body u0 ho (e := 0) (w := 0) (i := 1.5) (Ω := 2) (Or.inr ⟨rfl, rfl⟩) (Or.inr (Or.inr ⟨rfl, rfl, rfl, rfl⟩))
    (Or.inl ⟨rfl, rfl⟩) (Or.inl rfl)
  have hre' := roundedElements_of_body u0 ho' (e := 0.3) (w := 1) (i := 1.5) (Ω := 2) (Or.inl rfl) (Or.inl rfl) (Or.inl ⟨rfl, rfl⟩) (Or.inl rfl)
  obtain ⟨k, hec, hke⟩ : ∃ k, o'.ecc = some k ∧ k.e = 0.3 := by
    rcases ecc_resolved ho' (e := 0.3) (w := 1) (Or.inl rfl) (Or.inl rfl) with ⟨-, h, -⟩ | h
    · norm_num at h
    · exact ⟨_, h, rfl⟩
  have f1 : o.mass = some 0.001 ∧ o.radial_velocity_semiamplitude = none := by
    obtain ⟨_, P, a, ecc, _, _, rfl⟩ := mkOrbitalBody_ok ho
    exact ⟨rfl, rfl⟩
  have f2 : o'.mass = some 0.001 ∧ o'.radial_velocity_semiamplitude = none := by
    obtain ⟨_, P, a, ecc, _, _, rfl⟩ := mkOrbitalBody_ok ho'
    exact ⟨rfl, rfl⟩
  have hec0 : o.ecc = none := by
    obtain ⟨_, P, a, ecc, _, h, rfl⟩ := mkOrbitalBody_ok ho
    cases h
    rfl
  exact ⟨o, o', k, 0.001, hec0, hec, hke, f1.1, f2.1, by norm_num, hre, hre', h3.2.1, h3'.2.1, f1.2, f2.2,
    exists_velocityRun u0 (by norm_num) fl hfl o 3 none, exists_velocityRun u0 (by norm_num) fl hfl o' 3 none⟩

end Jaxoplanet.VelocityFloat
