import Verif.Model.Transit
import Verif.Proofs.Basic
import Verif.Spec.Orbit
import Mathlib.Tactic

/-!
# C22, C23 — `TransitOrbit`
-/

namespace Jaxoplanet.Transit

open Real Keplerian Spec

/-- **C22 (a).** The constructor fails exactly when neither a duration nor a speed is given; the
given one is kept (the duration wins when both are given) and the other one satisfies
`speed * duration = 2 √((1+k)² - b²)`; all defaults are zero. -/
theorem transit_init (P : ℝ) (dur spd tt b k : Option ℝ) :
    (¬ Given dur ∧ ¬ Given spd ↔
      ∃ msg, TransitOrbit.init P dur spd tt b k = .error (.valueError msg)) ∧
    (∀ o, TransitOrbit.init P dur spd tt b k = .ok o →
      o.period = P ∧ o.time_transit = tt.getD 0 ∧ o.impact_param = b.getD 0 ∧
      o.radius_ratio = k.getD 0 ∧ (∀ d, dur = some d → o.duration = d) ∧
      (∀ v, dur = none → spd = some v → o.speed = v) ∧
      ((∀ d, dur = some d → d ≠ 0) → (∀ v, dur = none → spd = some v → v ≠ 0) →
        |o.impact_param| ≤ 1 + o.radius_ratio →
        o.speed * o.duration = 2 * √((1 + o.radius_ratio) ^ 2 - o.impact_param ^ 2))) := by
  unfold TransitOrbit.init
  constructor
  · cases dur <;> cases spd <;> simp [Given]
  · intro o ho
    have hx : |b.getD 0| ≤ 1 + k.getD 0 → 0 ≤ (1 + k.getD 0) ^ 2 - (b.getD 0) ^ 2 := fun h => by
      nlinarith [abs_nonneg (b.getD 0), sq_abs (b.getD 0)]
    cases dur with
    | none =>
      cases spd with
      | none => simp at ho
      | some v =>
        simp only [Except.ok.injEq] at ho
        subst ho
        refine ⟨rfl, rfl, rfl, rfl, by simp, by simp, ?_⟩
        intro _ hv hb
        have := hv v rfl rfl
        simp only
        rw [max_eq_right (hx hb)]
        field_simp
    | some d =>
      simp only [Except.ok.injEq] at ho
      subst ho
      refine ⟨rfl, rfl, rfl, rfl, by simp, by simp, ?_⟩
      intro hd _ hb
      have := hd d rfl
      simp only
      rw [max_eq_right (hx hb)]
      field_simp

/-- **C23 (a).** The folded time is the representative of `t - time_transit` modulo the period in
`[-P/2, P/2)`. -/
theorem fold_spec (o : TransitOrbit) (hP : 0 < o.period) (t : ℝ) :
    -(o.period / 2) ≤ o.fold t ∧ o.fold t < o.period / 2 ∧
    ∃ n : ℤ, o.fold t = t - o.time_transit - n * o.period := by
  unfold TransitOrbit.fold
  have h0 := fmod_nonneg (t - (o.time_transit - 0.5 * o.period)) hP
  have h1 := fmod_lt (t - (o.time_transit - 0.5 * o.period)) hP
  obtain ⟨n, hn⟩ := fmod_eq_sub (t - (o.time_transit - 0.5 * o.period)) o.period
  refine ⟨by linarith, by linarith, n, ?_⟩
  simp only
  rw [hn]
  ring

/-- folding is determined by congruence and range -/
theorem fold_unique (o : TransitOrbit) (hP : 0 < o.period) {t dt : ℝ} (n : ℤ)
    (h : dt = t - o.time_transit - n * o.period) (h0 : -(o.period / 2) ≤ dt)
    (h1 : dt < o.period / 2) : o.fold t = dt := by
  unfold TransitOrbit.fold
  simp only
  rw [fmod_unique hP (x := dt + 0.5 * o.period) n (by rw [h]; ring) (by linarith) (by linarith)]
  ring

/-- **C22 (b).** First and last contact: half a duration before and after every transit, the
projected separation is exactly the sum of the radii, `1 + k`. -/
theorem transit_contacts {P : ℝ} {dur spd tt b k : Option ℝ} {o : TransitOrbit}
    (h : TransitOrbit.init P dur spd tt b k = .ok o)
    (hb : |o.impact_param| ≤ 1 + o.radius_ratio) (hd0 : 0 < o.duration) (hdP : o.duration < P)
    (n : ℤ) (sgn : ℝ) (hs : sgn = 1 ∨ sgn = -1) :
    let r := o.relative_position (o.time_transit + n * P + sgn * (o.duration / 2))
    r.x ^ 2 + r.y ^ 2 = (1 + o.radius_ratio) ^ 2 := by
  have hi := (transit_init P dur spd tt b k).2 o h
  obtain ⟨hPo, -, -, -, hdur, hspd, hprod⟩ := hi
  have hprod' : o.speed * o.duration = 2 * √((1 + o.radius_ratio) ^ 2 - o.impact_param ^ 2) := by
    apply hprod _ _ hb
    · intro d hd; rw [← hdur d hd]; exact hd0.ne'
    · rintro v hdn hv rfl
      have hv' := hspd 0 hdn hv
      unfold TransitOrbit.init at h
      rw [hdn, hv] at h
      simp only [div_zero, Except.ok.injEq] at h
      rw [← h] at hd0
      simp at hd0
  have hP : 0 < o.period := by rw [hPo]; linarith
  have hfold : o.fold (o.time_transit + n * P + sgn * (o.duration / 2)) = sgn * (o.duration / 2) := by
    apply fold_unique o hP n
    · rw [hPo]; ring
    · rw [hPo]; rcases hs with rfl | rfl <;> linarith
    · rw [hPo]; rcases hs with rfl | rfl <;> linarith
  intro r
  have hx : r.x = sgn * (o.speed * o.duration / 2) := by
    simp only [r, TransitOrbit.relative_position, hfold]; ring
  have hy : r.y = o.impact_param := rfl
  have h0 : 0 ≤ (1 + o.radius_ratio) ^ 2 - o.impact_param ^ 2 := by
    nlinarith [abs_nonneg o.impact_param, sq_abs o.impact_param]
  have hsq := sq_sqrt h0
  rw [hx, hy, hprod']
  rcases hs with rfl | rfl <;> linarith

/-- **C22 (c).** At the middle of every transit the separation is the impact parameter. -/
theorem transit_centre (o : TransitOrbit) (hP : 0 < o.period) (n : ℤ) :
    let r := o.relative_position (o.time_transit + n * o.period)
    r.x = 0 ∧ r.y = o.impact_param := by
  have hfold : o.fold (o.time_transit + n * o.period) = 0 :=
    fold_unique o hP n (by ring) (by linarith) (by linarith)
  simp [TransitOrbit.relative_position, hfold]

/-- **C22 (d).** For a transiting planet that moves forward, "in front of the star" (`z > 0`) is the
same as "the discs overlap": `x² + y² < (1+k)²`. -/
theorem transit_visible_iff {P : ℝ} {dur spd tt b k : Option ℝ} {o : TransitOrbit}
    (h : TransitOrbit.init P dur spd tt b k = .ok o)
    (hb : |o.impact_param| < 1 + o.radius_ratio) (hd0 : 0 < o.duration) (t : ℝ) :
    let r := o.relative_position t
    0 < r.z ↔ r.x ^ 2 + r.y ^ 2 < (1 + o.radius_ratio) ^ 2 := by
  have hi := (transit_init P dur spd tt b k).2 o h
  obtain ⟨hPo, -, -, -, hdur, hspd, hprod⟩ := hi
  have hprod' : o.speed * o.duration = 2 * √((1 + o.radius_ratio) ^ 2 - o.impact_param ^ 2) := by
    apply hprod _ _ hb.le
    · intro d hd; rw [← hdur d hd]; exact hd0.ne'
    · rintro v hdn hv rfl
      unfold TransitOrbit.init at h
      rw [hdn, hv] at h
      simp only [div_zero, Except.ok.injEq] at h
      rw [← h] at hd0
      simp at hd0
  have h0 : 0 < (1 + o.radius_ratio) ^ 2 - o.impact_param ^ 2 := by
    nlinarith [abs_nonneg o.impact_param, sq_abs o.impact_param]
  set w := √((1 + o.radius_ratio) ^ 2 - o.impact_param ^ 2) with hw
  have hwpos : 0 < w := sqrt_pos.2 h0
  have hw2 : w ^ 2 = (1 + o.radius_ratio) ^ 2 - o.impact_param ^ 2 := sq_sqrt h0.le
  have hv : 0 < o.speed := by
    by_contra hneg
    push Not at hneg
    nlinarith [mul_nonneg_of_nonpos_of_nonpos hneg (neg_nonpos.2 hd0.le)]
  intro r
  have hz : 0 < r.z ↔ |o.fold t| < 0.5 * o.duration := by
    simp only [r, TransitOrbit.relative_position]
    split_ifs with hm
    · simp [hm]
    · simp only [hm, iff_false]; norm_num
  have hx : r.x = o.speed * o.fold t := rfl
  have hy : r.y = o.impact_param := rfl
  have heq : r.x ^ 2 + r.y ^ 2 < (1 + o.radius_ratio) ^ 2 ↔ |o.speed * o.fold t| < w := by
    rw [hx, hy, ← abs_of_pos hwpos, ← sq_lt_sq, hw2]
    constructor <;> intro <;> linarith
  rw [hz, heq, abs_mul, abs_of_pos hv]
  have hw' : w = o.speed * (0.5 * o.duration) := by linarith
  rw [hw']
  exact (mul_lt_mul_iff_right₀ hv).symm

/-- **C23 (b).** The position repeats after any whole number of periods. -/
theorem transit_periodic (o : TransitOrbit) (hP : 0 < o.period) (t : ℝ) (n : ℤ) :
    o.relative_position (t + n * o.period) = o.relative_position t := by
  have : o.fold (t + n * o.period) = o.fold t := by
    unfold TransitOrbit.fold
    simp only
    rw [show t + n * o.period - (o.time_transit - 0.5 * o.period)
      = (t - (o.time_transit - 0.5 * o.period)) + n * o.period by ring, fmod_add_int _ hP]
  unfold TransitOrbit.relative_position
  rw [this]

/-- **C23 (c).** The planet is in front of the star exactly at the times within half a duration of
some transit `time_transit + n * period` (for a duration not longer than the period), and on the far
side (`z = -1`) otherwise. -/
theorem transit_in_front_iff (o : TransitOrbit) (hP : 0 < o.period) (hd : o.duration ≤ o.period)
    (t : ℝ) :
    ((o.relative_position t).z = 1 ∨ (o.relative_position t).z = -1) ∧
    ((o.relative_position t).z = 1 ↔
      ∃ n : ℤ, |t - (o.time_transit + n * o.period)| < o.duration / 2) := by
  obtain ⟨h0, h1, n, hn⟩ := fold_spec o hP t
  have hz : (o.relative_position t).z = if |o.fold t| < 0.5 * o.duration then 1 else -1 := by
    unfold TransitOrbit.relative_position
    congr
  constructor
  · rw [hz]; split_ifs <;> simp
  rw [hz]
  constructor
  · split_ifs with h
    · intro _
      refine ⟨n, ?_⟩
      rw [show t - (o.time_transit + n * o.period) = o.fold t by rw [hn]; ring]
      linarith
    · norm_num
  · rintro ⟨m, hm⟩
    have hab := abs_lt.1 hm
    have : o.fold t = t - (o.time_transit + m * o.period) := by
      apply fold_unique o hP m
      · ring
      · linarith [hab.1]
      · linarith [hab.2]
    rw [if_pos]
    rw [this]
    linarith

/-- A non-transiting planet (`|b| ≥ 1 + k`) given by its speed gets zero duration, hence is never in
front of the star. -/
theorem nontransiting_never_in_front {P : ℝ} {v : ℝ} {tt b k : Option ℝ} {o : TransitOrbit}
    (h : TransitOrbit.init P none (some v) tt b k = .ok o) (hk : 0 ≤ 1 + o.radius_ratio)
    (hb : 1 + o.radius_ratio ≤ |o.impact_param|) (t : ℝ) : (o.relative_position t).z = -1 := by
  unfold TransitOrbit.init at h
  simp only [Except.ok.injEq] at h
  subst h
  simp only at hb hk
  have : (1 + k.getD 0) ^ 2 - (b.getD 0) ^ 2 ≤ 0 := by
    rw [← sq_abs (b.getD 0)]
    nlinarith
  simp only [TransitOrbit.relative_position, max_eq_left this]
  rw [if_neg]
  simp

/-- non-vacuity of C22, C23 -/
example : ∃ o, TransitOrbit.init 10 (some 0.2) none (some 1) (some 0.3) (some 0.1) = .ok o ∧
    |o.impact_param| < 1 + o.radius_ratio ∧ 0 < o.duration ∧ o.duration < 10 ∧ 0 < o.period := by
  refine ⟨_, rfl, ?_, ?_, ?_, ?_⟩ <;> norm_num [abs_lt]

end Jaxoplanet.Transit
