import Verif.Model.OrbitFloat
import Verif.Proofs.Rounding
import Verif.Props.KeplerFloat
import Verif.Props.OrbitAccuracy

/-!
# Error propagation through `relative_position` (helpers for C109)
-/

namespace Jaxoplanet.OrbitFloat

open Real KeplerFloat Keplerian

/-- a rounded product of a rounded coefficient of at most one and an inexact coordinate -/
theorem prod_near {u c c' x x' p d A : ℝ} (hu0 : 0 ≤ u) (hu : u ≤ 1e-4) (hc : Rnd u c c') (hc1 : |c| ≤ 1) (hx : |x' - x| ≤ d) (hA : |x| ≤ A)
    (hdA : d ≤ A) (hp : Rnd u (c' * x') p) : |p - c * x| ≤ d + 6 * u * A := by
  norm_num at hu
  have hd : 0 ≤ d := (abs_nonneg _).trans hx
  have hA0 : 0 ≤ A := hd.trans hdA
  have h1 : |c' - c| ≤ u := le_trans hc (by nlinarith)
  have h2 : |c'| ≤ 1 + u := by
    have := abs_sub_abs_le_abs_sub c' c
    linarith
  have h3 : |x'| ≤ A + d := by
    have := abs_sub_abs_le_abs_sub x' x
    linarith
  have h4 : |c' * x' - c * x| ≤ d + u * (2 * A) := by
    rw [show c' * x' - c * x = c * (x' - x) + (c' - c) * x' by ring]
    refine (abs_add_le _ _).trans ?_
    rw [abs_mul, abs_mul]
    have a1 : |c| * |x' - x| ≤ 1 * d := mul_le_mul hc1 hx (abs_nonneg _) zero_le_one
    have a2 : |c' - c| * |x'| ≤ u * (2 * A) := mul_le_mul h1 (by linarith) (abs_nonneg _) hu0
    linarith
  have h5 : |p - c' * x'| ≤ u * ((1 + u) * (2 * A)) := by
    refine le_trans hp (mul_le_mul_of_nonneg_left ?_ hu0)
    rw [abs_mul]
    exact mul_le_mul h2 (by linarith) (abs_nonneg _) (by linarith)
  have h6 := abs_sub_le p (c' * x') (c * x)
  have h7 : u * ((1 + u) * (2 * A)) ≤ u * (4 * A) := mul_le_mul_of_nonneg_left (by nlinarith) hu0
  linarith

/-- a rotated point of a disc stays in the disc -/
theorem rot_abs_le {c s x y A : ℝ} (hcs : c ^ 2 + s ^ 2 = 1) (hA : 0 ≤ A) (h : x ^ 2 + y ^ 2 ≤ A ^ 2) :
    |c * x - s * y| ≤ A ∧ |s * x + c * y| ≤ A := by
  have e : (c * x - s * y) ^ 2 + (s * x + c * y) ^ 2 = x ^ 2 + y ^ 2 := by
    linear_combination (x ^ 2 + y ^ 2) * hcs
  constructor <;> refine abs_le_of_sq_le_sq (by nlinarith [sq_nonneg (c * x - s * y), sq_nonneg (s * x + c * y)]) hA

theorem rot_near {u c c' s s' x x' y y' d A : ℝ} (hu0 : 0 ≤ u) (hu : u ≤ 1e-4) (hcs : c ^ 2 + s ^ 2 = 1) (hc : Rnd u c c') (hs : Rnd u s s')
    (hx : |x' - x| ≤ d) (hy : |y' - y| ≤ d) (hxy : x ^ 2 + y ^ 2 ≤ A ^ 2) (hdA : d ≤ A) (R : RotRun u c' s' x' y') :
    |R.X - (c * x - s * y)| ≤ 2 * d + 17 * u * A ∧ |R.Y - (s * x + c * y)| ≤ 2 * d + 17 * u * A := by
  have hd : 0 ≤ d := (abs_nonneg _).trans hx
  have hA0 : 0 ≤ A := hd.trans hdA
  have hc1 : |c| ≤ 1 := abs_le_of_sq_le_sq (by nlinarith [sq_nonneg s]) zero_le_one
  have hs1 : |s| ≤ 1 := abs_le_of_sq_le_sq (by nlinarith [sq_nonneg c]) zero_le_one
  have hxA : |x| ≤ A := abs_le_of_sq_le_sq (by nlinarith [sq_nonneg y]) hA0
  have hyA : |y| ≤ A := abs_le_of_sq_le_sq (by nlinarith [sq_nonneg x]) hA0
  have p1 := prod_near hu0 hu hc hc1 hx hxA hdA R.hcx
  have p2 := prod_near hu0 hu hs hs1 hy hyA hdA R.hsy
  have p3 := prod_near hu0 hu hs hs1 hx hxA hdA R.hsx
  have p4 := prod_near hu0 hu hc hc1 hy hyA hdA R.hcy
  obtain ⟨b1, b2⟩ := rot_abs_le hcs hA0 hxy
  norm_num at hu
  have huA : u * A ≤ A / 10000 := by nlinarith
  have key : ∀ v v' V : ℝ, |v' - v| ≤ 2 * d + 12 * u * A → |v| ≤ A → Rnd u v' V → |V - v| ≤ 2 * d + 17 * u * A := by
    intro v v' V h1 h2 h3
    have h4 : |v'| ≤ 4 * A := by
      have := abs_sub_abs_le_abs_sub v' v
      nlinarith
    have h5 : |V - v'| ≤ u * (4 * A) := le_trans h3 (mul_le_mul_of_nonneg_left h4 hu0)
    have h6 := abs_sub_le V v' v
    nlinarith [mul_nonneg hu0 hA0]
  constructor
  · refine key _ _ _ ?_ b1 R.hX
    rw [show R.cx - R.sy - (c * x - s * y) = (R.cx - c * x) - (R.sy - s * y) by ring]
    have := abs_sub (R.cx - c * x) (R.sy - s * y)
    linarith
  · refine key _ _ _ ?_ b2 R.hY
    rw [show R.sx + R.cy - (s * x + c * y) = (R.sx - s * x) + (R.cy - c * y) by ring]
    have := abs_add_le (R.sx - s * x) (R.cy - c * y)
    linarith

/-- the stored numbers of the body are the elements `e, w, i, Ω`, each sine and cosine rounded once -/
structure RoundedElements (u : ℝ) (o : OrbitalBody) (e w i Ω : ℝ) : Prop where
  ecc : (o.ecc = none ∧ e = 0 ∧ w = 0) ∨ ∃ k, o.ecc = some k ∧ k.e = e ∧ Rnd u (sin w) k.sinw ∧ Rnd u (cos w) k.cosw
  sin_incl : Rnd u (sin i) o.sin_inclination
  cos_incl : Rnd u (cos i) o.cos_inclination
  node : (o.node = none ∧ Ω = 0) ∨ ∃ s c, o.node = some (s, c) ∧ Rnd u (sin Ω) s ∧ Rnd u (cos Ω) c

/-- inclination and node -/
theorem tail_near {u : ℝ} {o : OrbitalBody} {t e w i Ω x y d A : ℝ} (hu0 : 0 ≤ u) (hu : u ≤ 1e-4) (ho : RoundedElements u o e w i Ω)
    (R : PositionRun u o t) (hx : |R.x1 - x| ≤ d) (hy : |R.y1 - y| ≤ d) (hxy : x ^ 2 + y ^ 2 ≤ A ^ 2) (hdA : d + 6 * u * A ≤ A) :
    Within (3 * d + 44 * u * A) R.result
      ⟨cos Ω * x - sin Ω * (cos i * y), sin Ω * x + cos Ω * (cos i * y), -sin i * y⟩ := by
  have hd : 0 ≤ d := (abs_nonneg _).trans hx
  have hA0 : 0 ≤ A := by
    by_contra h
    norm_num at hu
    nlinarith
  have huA : 0 ≤ u * A := mul_nonneg hu0 hA0
  have hyA : |y| ≤ A := abs_le_of_sq_le_sq (by nlinarith [sq_nonneg x]) hA0
  have h2 := prod_near hu0 hu ho.cos_incl (abs_cos_le_one i) hy hyA (by linarith) R.hy2
  have h3 := prod_near hu0 hu ho.sin_incl.neg (by rw [abs_neg]; exact abs_sin_le_one i) hy hyA (by linarith) R.hZ
  have hc2 : cos i ^ 2 ≤ 1 := by nlinarith [sin_sq_add_cos_sq i, sq_nonneg (sin i)]
  have hxy2 : x ^ 2 + (cos i * y) ^ 2 ≤ A ^ 2 := by
    have : (cos i * y) ^ 2 ≤ y ^ 2 := by rw [mul_pow]; nlinarith [sq_nonneg y]
    linarith
  have hXY : |R.X - (cos Ω * x - sin Ω * (cos i * y))| ≤ 2 * d + 29 * u * A ∧
      |R.Y - (sin Ω * x + cos Ω * (cos i * y))| ≤ 2 * d + 29 * u * A := by
    have hn := R.hXY
    rcases ho.node with ⟨h0, rfl⟩ | ⟨s, c, h0, hs, hc⟩
    · rw [h0] at hn
      simp only at hn
      rw [hn.1, hn.2, cos_zero, sin_zero]
      simp only [one_mul, zero_mul, sub_zero, zero_add]
      constructor <;> linarith
    · rw [h0] at hn
      obtain ⟨Q, q1, q2⟩ := hn
      rw [q1, q2]
      have := rot_near hu0 hu (cos_sq_add_sin_sq Ω) hc hs (hx.trans (show d ≤ d + 6 * u * A by linarith)) h2 hxy2 hdA Q
      constructor
      · refine this.1.trans ?_; linarith
      · refine this.2.trans ?_; linarith
  unfold Within Spec.normSq PositionRun.result
  simp only
  have q1 := sq_le_sq' (by linarith [(abs_le.1 hXY.1).1]) (abs_le.1 hXY.1).2
  have q2 := sq_le_sq' (by linarith [(abs_le.1 hXY.2).1]) (abs_le.1 hXY.2).2
  have q3 := sq_le_sq' (by linarith [(abs_le.1 h3).1]) (abs_le.1 h3).2
  have hD : 0 ≤ u * A := huA
  nlinarith [mul_nonneg hd huA]

theorem elementPosition_eq (r f w i Ω : ℝ) : Spec.elementPosition r f w i Ω =
    ⟨cos Ω * (cos w * (-r * cos f) - sin w * (-r * sin f)) - sin Ω * (cos i * (sin w * (-r * cos f) + cos w * (-r * sin f))),
     sin Ω * (cos w * (-r * cos f) - sin w * (-r * sin f)) + cos Ω * (cos i * (sin w * (-r * cos f) + cos w * (-r * sin f))),
     -sin i * (sin w * (-r * cos f) + cos w * (-r * sin f))⟩ := by
  unfold Spec.elementPosition Spec.rotZ Spec.rotX
  ext <;> simp <;> ring

/-- circular orbits: the only errors are those of a few products -/
theorem circular_near {u : ℝ} {o : OrbitalBody} {t i Ω : ℝ} (hu0 : 0 ≤ u) (hu : u ≤ 1e-4) (ho : RoundedElements u o 0 0 i Ω)
    (hec : o.ecc = none) (ha : 0 ≤ o.semimajor) (R : PositionRun u o t) :
    Within (51 * u * o.semimajor) R.result (Spec.elementPosition o.semimajor R.anom.M 0 i Ω) := by
  have hr := R.hr0
  have hf := R.anom.hf
  have h1 := R.h1
  rw [hec] at hr hf h1
  simp only at hr hf h1
  have hu' := hu
  norm_num at hu'
  set a := o.semimajor with had
  have hua : 0 ≤ u * a := mul_nonneg hu0 ha
  have key : ∀ c c' x : ℝ, |c| ≤ 1 → Rnd u c c' → Rnd u (R.r0 * c') x → |x - -a * c| ≤ 2.1 * u * a := by
    intro c c' x hc hcc hx
    rw [hr] at hx
    have b1 : |c' - c| ≤ u := le_trans hcc (by nlinarith)
    have b2 : |c'| ≤ 1 + u := by
      have := abs_sub_abs_le_abs_sub c' c
      linarith
    have b3 : |x - -a * c'| ≤ u * (a * (1 + u)) := by
      refine le_trans hx (mul_le_mul_of_nonneg_left ?_ hu0)
      rw [abs_mul, abs_neg, abs_of_nonneg ha]
      exact mul_le_mul_of_nonneg_left b2 ha
    have b4 : |-a * c' - -a * c| ≤ a * u := by
      rw [show -a * c' - -a * c = -(a * (c' - c)) by ring, abs_neg, abs_mul, abs_of_nonneg ha]
      exact mul_le_mul_of_nonneg_left b1 ha
    have b5 := abs_sub_le x (-a * c') (-a * c)
    nlinarith
  have hx := key _ _ _ (abs_cos_le_one R.anom.M) hf.2 R.hx
  have hy := key _ _ _ (abs_sin_le_one R.anom.M) hf.1 R.hy
  rw [← h1.1] at hx
  rw [← h1.2] at hy
  have := tail_near hu0 hu ho R hx hy (A := a) (le_of_eq (by linear_combination a ^ 2 * sin_sq_add_cos_sq R.anom.M)) (by nlinarith)
  rw [elementPosition_eq, cos_zero, sin_zero]
  simp only [one_mul, zero_mul, sub_zero, zero_add]
  refine le_trans this ?_
  have e1 : 3 * (2.1 * u * a) + 44 * u * a ≤ 51 * u * a := by nlinarith
  exact pow_le_pow_left₀ (by nlinarith) e1 2

/-- the accuracy of the sine and cosine of the true anomaly, from C97 -/
noncomputable def anomalyError (u e : ℝ) : ℝ := 1.5e-13 + 108 * u / (1 - e)

theorem anomalyError_ge {u e : ℝ} (hu0 : 0 ≤ u) (he0 : 0 ≤ e) (he1 : e < 1) : 108 * u ≤ anomalyError u e := by
  unfold anomalyError
  have : 108 * u ≤ 108 * u / (1 - e) := by
    rw [le_div_iff₀ (by linarith)]
    nlinarith
  norm_num
  linarith

/-- the factor of the radius of an eccentric orbit -/
theorem radius_near {u e c c' g : ℝ} (hu0 : 0 ≤ u) (he0 : 0 ≤ e) (he1 : e < 1) (hc1 : |c| ≤ 1) (hc : |c' - c| ≤ g)
    (hg : 16 * g ≤ 1 - e) (heu : 400 * u ≤ 1 - e) (R : RadiusRun u e c') :
    |R.q - (1 - e ^ 2) / (1 + e * c)| ≤ (4 * g + 21 * u) / (1 - e) ∧ 0 ≤ (1 - e ^ 2) / (1 + e * c) ∧ (1 - e ^ 2) / (1 + e * c) ≤ 1 + e := by
  have hg0 : 0 ≤ g := (abs_nonneg _).trans hc
  have hε : 0 < 1 - e := by linarith
  obtain ⟨c1, c2⟩ := abs_le.1 hc1
  set d := 1 + e * c with hd
  set n := 1 - e ^ 2 with hn
  have hdlo : 1 - e ≤ d := by rw [hd]; nlinarith
  have hdhi : d ≤ 2 := by rw [hd]; nlinarith
  have hd0 : 0 < d := by linarith
  have hn0 : 0 ≤ n := by rw [hn]; nlinarith
  have hne : n = (1 - e) * (1 + e) := by rw [hn]; ring
  have hn2 : n ≤ (1 + e) * d := by rw [hne, mul_comm]; exact mul_le_mul_of_nonneg_left hdlo (by linarith)
  have hnum : |R.num - n| ≤ 2.1 * u := by
    have a1 : |R.e2 - e ^ 2| ≤ u := by
      have := R.he2
      unfold Rnd at this
      rw [← sq, abs_of_nonneg (sq_nonneg e)] at this
      nlinarith [sq_nonneg e]
    have a2 : |1 - R.e2| ≤ 1 + u := by
      have := abs_le.1 a1
      rw [abs_le]
      constructor <;> nlinarith [sq_nonneg e]
    have a3 : |R.num - (1 - R.e2)| ≤ u * (1 + u) := le_trans R.hnum (mul_le_mul_of_nonneg_left a2 hu0)
    have a4 : |1 - R.e2 - n| ≤ u := by
      rw [hn, show 1 - R.e2 - (1 - e ^ 2) = -(R.e2 - e ^ 2) by ring, abs_neg]
      exact a1
    have := abs_sub_le R.num (1 - R.e2) n
    nlinarith
  have hc'1 : |c'| ≤ 1.1 := by
    have := abs_sub_abs_le_abs_sub c' c
    norm_num
    linarith
  have hden : |R.den - d| ≤ g + 4 * u := by
    have a1 : |R.ec - e * c'| ≤ u * 1.1 := by
      refine le_trans R.hec (mul_le_mul_of_nonneg_left ?_ hu0)
      rw [abs_mul, abs_of_nonneg he0]
      nlinarith [abs_nonneg c']
    have a2 : |e * c' - e * c| ≤ g := by
      rw [← mul_sub, abs_mul, abs_of_nonneg he0]
      nlinarith [abs_nonneg (c' - c)]
    have a3 := abs_sub_le R.ec (e * c') (e * c)
    have a4 : |1 + R.ec| ≤ 2.2 := by
      have e1 : |e * c'| ≤ 1.1 := by
        rw [abs_mul, abs_of_nonneg he0]
        nlinarith [abs_nonneg c']
      have e2 := abs_sub_abs_le_abs_sub R.ec (e * c')
      have e3 := abs_add_le 1 R.ec
      rw [abs_one] at e3
      norm_num at *
      linarith
    have a5 : |R.den - (1 + R.ec)| ≤ u * 2.2 := le_trans R.hden (mul_le_mul_of_nonneg_left a4 hu0)
    have a6 := abs_sub_le R.den (1 + R.ec) d
    have a7 : 1 + R.ec - d = R.ec - e * c := by rw [hd]; ring
    rw [a7] at a6
    norm_num at *
    linarith
  have hdl : 0.9 * d ≤ R.den := by
    have := (abs_le.1 hden).1
    norm_num
    nlinarith
  have hden0 : 0 < R.den := by
    norm_num at hdl
    nlinarith
  have hqe : n / d ≤ 1 + e := (div_le_iff₀ hd0).2 hn2
  have hq0 : 0 ≤ n / d := div_nonneg hn0 hd0.le
  have hdiv : |R.num / R.den - n / d| ≤ (2.4 * u + 2.3 * (g + 4 * u)) / (1 - e) := by
    have e1 : R.num / R.den - n / d = ((R.num - n) - (n / d) * (R.den - d)) / R.den := by
      field_simp
      ring
    rw [e1, abs_div, abs_of_pos hden0, div_le_div_iff₀ hden0 hε]
    have e2 : |(R.num - n) - (n / d) * (R.den - d)| ≤ 2.1 * u + 2 * (g + 4 * u) := by
      refine (abs_sub _ _).trans ?_
      rw [abs_mul, abs_of_nonneg hq0]
      have : n / d * |R.den - d| ≤ 2 * (g + 4 * u) := mul_le_mul (by linarith) hden (abs_nonneg _) (by norm_num)
      linarith
    have e3 : 0.9 * (1 - e) ≤ R.den := by
      norm_num at hdl ⊢
      linarith
    calc _ ≤ (2.1 * u + 2 * (g + 4 * u)) * (1 - e) := mul_le_mul_of_nonneg_right e2 hε.le
      _ ≤ (2.4 * u + 2.3 * (g + 4 * u)) * (0.9 * (1 - e)) := by
        have : 0 ≤ (1 - e) * u := by positivity
        have : 0 ≤ (1 - e) * g := by positivity
        norm_num
        nlinarith
      _ ≤ _ := mul_le_mul_of_nonneg_left e3 (by positivity)
  refine ⟨?_, hq0, hqe⟩
  have f1 : |R.num / R.den| ≤ 3 := by
    have := abs_sub_abs_le_abs_sub (R.num / R.den) (n / d)
    rw [abs_of_nonneg hq0] at this
    have h3 : (2.4 * u + 2.3 * (g + 4 * u)) / (1 - e) ≤ 1 := by
      rw [div_le_one hε]
      norm_num
      linarith
    linarith
  have f2 : |R.q - R.num / R.den| ≤ u * 3 := le_trans R.hq (mul_le_mul_of_nonneg_left f1 hu0)
  have f3 := abs_sub_le R.q (R.num / R.den) (n / d)
  have f4 : (2.4 * u + 2.3 * (g + 4 * u)) / (1 - e) + u * 3 ≤ (4 * g + 21 * u) / (1 - e) := by
    rw [div_add' _ _ _ hε.ne']
    refine div_le_div_of_nonneg_right ?_ hε.le
    norm_num
    nlinarith [mul_nonneg hu0 he0]
  linarith

/-- eccentric orbits: from the error `g` of the sine and cosine of the true anomaly to the error of the position -/
theorem eccentric_near {u : ℝ} {o : OrbitalBody} {k : Ecc} {t e w i Ω f g : ℝ} (hu0 : 0 ≤ u) (hu : u ≤ 1e-4) (ho : RoundedElements u o e w i Ω)
    (hec : o.ecc = some k) (ha : 0 ≤ o.semimajor) (he0 : 0 ≤ e) (he1 : e < 1) (R : PositionRun u o t)
    (hs : |R.anom.sinf - sin f| ≤ g) (hc : |R.anom.cosf - cos f| ≤ g) (hgu : 108 * u ≤ g) (hg : 16 * g ≤ 1 - e) (heu : 400 * u ≤ 1 - e) :
    Within (43 * o.semimajor * (g / (1 - e))) R.result (Spec.elementPosition (o.semimajor * ((1 - e ^ 2) / (1 + e * cos f))) f w i Ω) := by
  obtain ⟨k', hk', rfl, hsw, hcw⟩ := ho.ecc.resolve_left (by rw [hec]; simp)
  obtain rfl : k = k' := Option.some.inj (hec.symm.trans hk')
  have hr := R.hr0
  have h1 := R.h1
  rw [hec] at hr h1
  simp only at hr h1
  obtain ⟨Q, hr⟩ := hr
  obtain ⟨T, hT1, hT2⟩ := h1
  obtain ⟨hq, hq0, hq1⟩ := radius_near hu0 he0 he1 (abs_cos_le_one f) hc hg heu Q
  have hu' := hu
  norm_num at hu'
  generalize hae : o.semimajor = a at *
  generalize hqe : (1 - k.e ^ 2) / (1 + k.e * cos f) = q at *
  have hε : 0 < 1 - k.e := by linarith
  have hg0 : 0 ≤ g := by linarith
  set G := g / (1 - k.e) with hG
  have hgG : g ≤ G := by
    rw [hG, le_div_iff₀ hε]
    nlinarith
  have hG1 : 16 * G ≤ 1 := by
    rw [hG, ← mul_div_assoc, div_le_one hε]
    exact hg
  have hq' : |Q.q - q| ≤ 4.2 * G := by
    refine hq.trans ?_
    rw [hG, ← mul_div_assoc]
    refine div_le_div_of_nonneg_right ?_ hε.le
    norm_num
    linarith
  have hq2 : q ≤ 2 := by linarith
  have hua : 0 ≤ u * a := mul_nonneg hu0 ha
  have huG : u ≤ G / 108 := by linarith
  have haG : 0 ≤ a * G := mul_nonneg ha (by linarith)
  have huaG : u * a ≤ a * G / 108 := by nlinarith
  have hQ3 : |Q.q| ≤ 2.4 := by
    have := abs_sub_abs_le_abs_sub Q.q q
    rw [abs_of_nonneg hq0] at this
    norm_num at *
    linarith
  have r1 : |R.r0 - -a * q| ≤ a * (4.25 * G) := by
    have a1 : |R.r0 - -a * Q.q| ≤ u * (a * 2.4) := by
      refine le_trans hr (mul_le_mul_of_nonneg_left ?_ hu0)
      rw [abs_mul, abs_neg, abs_of_nonneg ha]
      exact mul_le_mul_of_nonneg_left hQ3 ha
    have a2 : |-a * Q.q - -a * q| ≤ a * (4.2 * G) := by
      rw [show -a * Q.q - -a * q = -(a * (Q.q - q)) by ring, abs_neg, abs_mul, abs_of_nonneg ha]
      exact mul_le_mul_of_nonneg_left hq' ha
    have a3 := abs_sub_le R.r0 (-a * Q.q) (-a * q)
    norm_num at *
    linarith
  have r2 : |R.r0| ≤ 2.4 * a := by
    have := abs_sub_abs_le_abs_sub R.r0 (-a * q)
    rw [abs_mul, abs_neg, abs_of_nonneg ha, abs_of_nonneg hq0] at this
    have h3 : a * q ≤ a * 2 := mul_le_mul_of_nonneg_left hq2 ha
    have h4 : a * (16 * G) ≤ a * 1 := mul_le_mul_of_nonneg_left hG1 ha
    norm_num at *
    linarith
  have key : ∀ c c' x : ℝ, |c| ≤ 1 → |c' - c| ≤ g → Rnd u (R.r0 * c') x → |x - -(a * q) * c| ≤ a * (6.8 * G) := by
    intro c c' x hc hcc hx
    have b2 : |c'| ≤ 1.1 := by
      have := abs_sub_abs_le_abs_sub c' c
      norm_num
      linarith
    have b3 : |x - R.r0 * c'| ≤ u * (2.4 * a * 1.1) := by
      refine le_trans hx (mul_le_mul_of_nonneg_left ?_ hu0)
      rw [abs_mul]
      exact mul_le_mul r2 b2 (abs_nonneg _) (by positivity)
    have b4 : |R.r0 * c' - -(a * q) * c| ≤ a * (4.25 * G) * 1.1 + a * 2 * g := by
      rw [show R.r0 * c' - -(a * q) * c = (R.r0 - -a * q) * c' + -(a * q * (c' - c)) by ring]
      refine (abs_add_le _ _).trans ?_
      rw [abs_neg, abs_mul, abs_mul, abs_mul, abs_of_nonneg ha, abs_of_nonneg hq0]
      exact add_le_add (mul_le_mul r1 b2 (abs_nonneg _) (by positivity))
        (mul_le_mul (mul_le_mul_of_nonneg_left hq2 ha) hcc (abs_nonneg _) (by positivity))
    have b5 := abs_sub_le x (R.r0 * c') (-(a * q) * c)
    have b6 : a * g ≤ a * G := mul_le_mul_of_nonneg_left hgG ha
    norm_num at *
    linarith
  have hx := key _ _ _ (abs_cos_le_one f) hc R.hx
  have hy := key _ _ _ (abs_sin_le_one f) hs R.hy
  have hA : (-(a * q) * cos f) ^ 2 + (-(a * q) * sin f) ^ 2 ≤ (2 * a) ^ 2 := by
    have e1 : (-(a * q) * cos f) ^ 2 + (-(a * q) * sin f) ^ 2 = (a * q) ^ 2 := by linear_combination (a * q) ^ 2 * sin_sq_add_cos_sq f
    rw [e1]
    exact pow_le_pow_left₀ (by positivity) (by nlinarith) 2
  have hG2 : a * (16 * G) ≤ a * 1 := mul_le_mul_of_nonneg_left hG1 ha
  have hrot := rot_near hu0 hu (cos_sq_add_sin_sq w) hcw hsw hx hy hA (by norm_num; linarith) T
  rw [← hT1, ← hT2] at hrot
  have hA2 : (cos w * (-(a * q) * cos f) - sin w * (-(a * q) * sin f)) ^ 2 + (sin w * (-(a * q) * cos f) + cos w * (-(a * q) * sin f)) ^ 2 ≤
      (2 * a) ^ 2 := by
    refine le_trans (le_of_eq ?_) hA
    linear_combination ((-(a * q) * cos f) ^ 2 + (-(a * q) * sin f) ^ 2) * sin_sq_add_cos_sq w
  have := tail_near hu0 hu ho R hrot.1 hrot.2 hA2 (by norm_num; linarith)
  rw [elementPosition_eq]
  refine le_trans this ?_
  refine pow_le_pow_left₀ (by positivity) ?_ 2
  norm_num
  linarith

/-- the rounded mean anomaly -/
theorem mean_near {u : ℝ} {o : OrbitalBody} {t : ℝ} (hu0 : 0 ≤ u) (hu : u ≤ 1e-4) (hP : 0 < o.period) (R : AnomalyRun u o t) :
    |R.M - 2 * π * (t - (o.time_transit + o.time_ref)) / o.period| ≤ 2 * π / o.period * (7 * u * (|t - o.time_transit| + |o.time_ref|)) := by
  norm_num at hu
  obtain ⟨d1, k1, e1⟩ := R.hpi.factor hu0
  obtain ⟨d2, k2, e2⟩ := R.htwo_pi.factor hu0
  obtain ⟨d3, k3, e3⟩ := R.hwarp.factor hu0
  obtain ⟨d4, k4, e4⟩ := R.hdt.factor hu0
  obtain ⟨d5, k5, e5⟩ := R.hprod.factor hu0
  obtain ⟨d6, k6, e6⟩ := R.hM.factor hu0
  set A := t - o.time_transit with hA
  set B := o.time_ref with hB
  have hk : ∃ D, |D| ≤ 5.1 * u ∧ (1 + d1) * (1 + d2) * (1 + d4) * (1 + d5) * (1 + d6) = 1 + D := by
    have step : ∀ (D d K : ℝ), 0 ≤ K → K ≤ 6 → |D| ≤ K * u → |d| ≤ u → |(1 + D) * (1 + d) - 1| ≤ (K + 1.001) * u := by
      intro D d K hK0 hK hD hd
      rw [show (1 + D) * (1 + d) - 1 = D + d + D * d by ring]
      have a1 := abs_add_three D d (D * d)
      rw [abs_mul] at a1
      have a2 : |D| * |d| ≤ K * u * u := mul_le_mul hD hd (abs_nonneg _) (by positivity)
      have a3 : K * u * u ≤ 0.001 * u := by
        norm_num
        nlinarith [mul_nonneg hK0 hu0]
      linarith
    have s1 := step d1 d2 1 (by norm_num) (by norm_num) (by linarith) k2
    have s2 := step ((1 + d1) * (1 + d2) - 1) d4 2.001 (by norm_num) (by norm_num) (by norm_num at *; linarith) k4
    rw [add_sub_cancel] at s2
    have s3 := step ((1 + d1) * (1 + d2) * (1 + d4) - 1) d5 3.002 (by norm_num) (by norm_num) (by norm_num at *; linarith) k5
    rw [add_sub_cancel] at s3
    have s4 := step ((1 + d1) * (1 + d2) * (1 + d4) * (1 + d5) - 1) d6 4.003 (by norm_num) (by norm_num) (by norm_num at *; linarith) k6
    rw [add_sub_cancel] at s4
    refine ⟨_, ?_, (add_sub_cancel _ _).symm⟩
    norm_num at *
    linarith
  obtain ⟨D, hD, hDe⟩ := hk
  have hM : R.M = 2 * π / o.period * ((A * (1 + d3) - B) * (1 + D)) := by
    rw [← hDe, e6, e5, e4, e3, e2, e1]
    field_simp
  have hM0 : 2 * π * (t - (o.time_transit + B)) / o.period = 2 * π / o.period * (A - B) := by
    rw [hA]
    field_simp
    ring
  have hp : 0 < 2 * π / o.period := by have := pi_pos; positivity
  rw [hM, hM0, ← mul_sub, abs_mul, abs_of_pos hp]
  refine mul_le_mul_of_nonneg_left ?_ hp.le
  rw [show (A * (1 + d3) - B) * (1 + D) - (A - B) = A * d3 * (1 + D) + (A - B) * D by ring]
  refine (abs_add_le _ _).trans ?_
  rw [abs_mul, abs_mul, abs_mul]
  have b1 : |1 + D| ≤ 1.01 := by
    have := abs_add_le 1 D
    rw [abs_one] at this
    norm_num at *
    linarith
  have b2 := abs_sub A B
  have hA0 := abs_nonneg A
  have hB0 := abs_nonneg B
  have c1 : |A| * |d3| * |1 + D| ≤ |A| * u * 1.01 := mul_le_mul (mul_le_mul_of_nonneg_left k3 hA0) b1 (abs_nonneg _) (by positivity)
  have c2 : |A - B| * |D| ≤ (|A| + |B|) * (5.1 * u) := mul_le_mul b2 hD (abs_nonneg _) (by positivity)
  have c3 := mul_nonneg hA0 hu0
  have c4 := mul_nonneg hB0 hu0
  norm_num at *
  nlinarith

end Jaxoplanet.OrbitFloat
