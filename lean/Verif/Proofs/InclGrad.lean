import Verif.Model.InclGrad
import Verif.Spec.EulerGrad
import Verif.Props.SurfaceGrad

/-!
# Auxiliary lemmas for C101: derivatives with respect to the inclination and the obliquity
-/

namespace Jaxoplanet.Starry
open _root_.Jaxoplanet.Starry.Spec _root_.Jaxoplanet.Spec
open Real AD AD.Dual Filter Topology

set_option linter.unusedSectionVars false

/-- the relation is also preserved by squares -/
class ClosedSq (R : (ℝ → ℝ) → Dual → Prop) : Prop extends Closed R where
  square : ∀ {f a}, R f a → R (fun s => f s ^ 2) a.square

instance (t : ℝ) : ClosedSq (Tk t) where
  square := track_square

instance (t : ℝ) : ClosedSq (Val t) where
  square := fun h => by simp only [Val] at *; simp [h]

variable {t : ℝ} {R : (ℝ → ℝ) → Dual → Prop} [hR : ClosedSq R]

/-- a matrix with its derivatives -/
def TrM (R : (ℝ → ℝ) → Dual → Prop) (F : ℝ → ℕ → ℕ → ℝ) (A : ℕ → ℕ → Dual) : Prop := ∀ r c, R (fun s => F s r c) (A r c)

/-! ## Wigner matrices -/

theorem TrM.addBlock {F V : ℝ → ℕ → ℕ → ℝ} {A W : ℕ → ℕ → Dual} (h : TrM R F A) (hv : TrM R V W) (r0 c0 n : ℕ) :
    TrM R (fun s => Starry.addBlock (F s) r0 c0 n (V s)) (addBlockD A r0 c0 n W) := by
  intro r c
  unfold Starry.addBlock addBlockD
  by_cases hc : (r0 ≤ r ∧ r < r0 + n) ∧ (c0 ≤ c ∧ c < c0 + n)
  · simp only [if_pos hc]
    exact hR.add (h r c) (hv _ _)
  · simp only [if_neg hc]
    exact h r c

theorem TrM.setAt {F : ℝ → ℕ → ℕ → ℝ} {A : ℕ → ℕ → Dual} (h : TrM R F A) (r0 c0 : ℕ) {f : ℝ → ℝ} {a : Dual} (hv : R f a) :
    TrM R (fun s => Starry.setAt (F s) r0 c0 (f s)) (setAtD A r0 c0 a) := by
  intro r c
  unfold Starry.setAt setAtD
  by_cases hc : r = r0 ∧ c = c0
  · simp only [if_pos hc]
    exact hv
  · simp only [if_neg hc]
    exact h r c

theorem TrM.risboPass {F D : ℝ → ℕ → ℕ → ℝ} {A E : ℕ → ℕ → Dual} (h : TrM R F A) (s j : ℕ) (hd : TrM R D E) {fc fs : ℝ → ℝ} {c d : Dual} (hc : R fc c) (hs : R fs d) :
    TrM R (fun p => Starry.risboPass (F p) s j (D p) (fc p) (fs p)) (risboPassD A s j E c d) := by
  unfold Starry.risboPass risboPassD
  refine TrM.addBlock (TrM.addBlock (TrM.addBlock (TrM.addBlock h ?_ s s j) ?_ _ _ j) ?_ _ _ j) ?_ _ _ j
  all_goals intro k i
  · exact hR.mul (hR.mul (hR.const _) (hd k i)) hc
  · exact hR.mul (hR.mul (hR.const _) (hd k i)) hs
  · exact hR.mul (hR.mul (hR.const _) (hd k i)) hs
  · exact hR.mul (hR.mul (hR.const _) (hd k i)) hc

theorem TrM.computeFull {F : ℝ → ℕ → ℕ → ℝ} {A : ℕ → ℕ → Dual} (h : TrM R F A) {f : ℝ → ℝ} {beta : Dual} (hb : R f beta) (L el : ℕ) :
    TrM R (fun s => Starry.computeFull (F s) (f s) L el) (computeFullD A beta L el) := by
  have h2 : R (fun s => f s / 2) (beta / const 2) := hR.div hb (hR.const 2) (by simp)
  have hch := hR.cos h2
  have hsh := hR.sin h2
  have hq : R (fun s => Real.sin (f s) / √2) (beta.sin / const √2) := hR.div (hR.sin hb) (hR.const _) (by simp)
  have hqn : R (fun s => -Real.sin (f s) / √2) (-beta.sin / const √2) := hR.div (hR.neg (hR.sin hb)) (hR.const _) (by simp)
  unfold Starry.computeFull computeFullD
  by_cases h0 : el = 0
  · simp only [h0, if_true]
    exact h.setAt _ _ (hR.const 1)
  by_cases h1 : el = 1
  · subst h1
    simp only [one_ne_zero, if_false, if_true]
    exact ((((((((h.setAt _ _ (hR.square hch)).setAt _ _ hq).setAt _ _ (hR.square hsh)).setAt _ _ hqn).setAt _ _ (hR.cos hb)).setAt _ _ hq).setAt _ _
      (hR.square hsh)).setAt _ _ hqn).setAt _ _ (hR.square hch)
  · simp only [h0, h1, if_false]
    have hz : TrM R (fun _ _ _ => 0) (fun _ _ => const 0) := fun _ _ => hR.const 0
    have hdd := TrM.risboPass hz 0 (2 * el - 1) (D := fun s k i => F s (k + (L - 1) - (el - 1)) (i + (L - 1) - (el - 1)))
      (E := fun k i => A (k + (L - 1) - (el - 1)) (i + (L - 1) - (el - 1))) (fun k i => h _ _) (hR.neg hch) hsh
    have hm : TrM R (fun s r c => if (L - 1 - el ≤ r ∧ r < el + L) ∧ (L - 1 - el ≤ c ∧ c < el + L) then F s r c * 0 else F s r c)
        (fun r c => if (L - 1 - el ≤ r ∧ r < el + L) ∧ (L - 1 - el ≤ c ∧ c < el + L) then A r c * const 0 else A r c) := by
      intro r c
      by_cases hc : (L - 1 - el ≤ r ∧ r < el + L) ∧ (L - 1 - el ≤ c ∧ c < el + L)
      · simp only [if_pos hc]
        exact hR.mul (h r c) (hR.const 0)
      · simp only [if_neg hc]
        exact h r c
    have hp := TrM.risboPass hm (L - 1 - el) (2 * el) hdd (hR.neg hch) hsh
    intro r c
    refine hR.div (hp r c) (hR.const _) ?_
    have : (2 : ℝ) ≤ el := by exact_mod_cast (by omega : 2 ≤ el)
    simp only [const_v]
    have h3 : (0 : ℝ) < 2 * el - 1 := by linarith
    positivity

theorem trM_rotateDls (L : ℕ) {f : ℝ → ℝ} {beta : Dual} (hb : R f beta) (el : ℕ) :
    TrM R (fun s => rotateDls L (f s) el) (rotateDlsD L beta el) := by
  induction el with
  | zero => exact TrM.computeFull (fun _ _ => hR.const 0) hb L 0
  | succ el ih => exact ih.computeFull hb L (el + 1)

/-- a complex number with its derivatives -/
def TrC (R : (ℝ → ℝ) → Dual → Prop) (F : ℝ → ℂ) (A : CDual) : Prop := R (fun s => (F s).re) A.re ∧ R (fun s => (F s).im) A.im

theorem trC_ofComplex (c : ℂ) : TrC R (fun _ => c) (.ofComplex c) := ⟨hR.const _, hR.const _⟩

theorem TrC.mul {F G : ℝ → ℂ} {A B : CDual} (h : TrC R F A) (h' : TrC R G B) : TrC R (fun s => F s * G s) (A.mul B) :=
  ⟨by simpa only [Complex.mul_re, CDual.mul] using hR.sub (hR.mul h.1 h'.1) (hR.mul h.2 h'.2),
    by simpa only [Complex.mul_im, CDual.mul] using hR.add (hR.mul h.1 h'.2) (hR.mul h.2 h'.1)⟩

theorem trC_expNegI {f : ℝ → ℝ} {phi : Dual} (h : R f phi) : TrC R (fun s => Complex.exp (-1 * Complex.I * (f s : ℂ))) (.expNegI phi) := by
  have hre : ∀ x : ℝ, (Complex.exp (-1 * Complex.I * (x : ℂ))).re = Real.cos x := by
    intro x
    rw [show -1 * Complex.I * (x : ℂ) = ((-x : ℝ) : ℂ) * Complex.I by push_cast; ring, Complex.exp_ofReal_mul_I_re, Real.cos_neg]
  have him : ∀ x : ℝ, (Complex.exp (-1 * Complex.I * (x : ℂ))).im = -Real.sin x := by
    intro x
    rw [show -1 * Complex.I * (x : ℂ) = ((-x : ℝ) : ℂ) * Complex.I by push_cast; ring, Complex.exp_ofReal_mul_I_im, Real.sin_neg]
  exact ⟨by simpa only [hre, CDual.expNegI] using hR.cos h, by simpa only [him, CDual.expNegI] using hR.neg (hR.sin h)⟩

theorem trC_sum (n : ℕ) {F : ℕ → ℝ → ℂ} {A : ℕ → CDual} (h : ∀ i, TrC R (F i) (A i)) :
    TrC R (fun s => ∑ i ∈ Finset.range n, F i s) (.sum n A) := by
  constructor
  · simp only [Complex.re_sum, ← LimbDark.range_sum]
    exact (trL_map _ fun i _ => (h i).1).sum
  · simp only [Complex.im_sum, ← LimbDark.range_sum]
    exact (trL_map _ fun i _ => (h i).2).sum

theorem trM_rotMatrices (deg : ℕ) {fa fb fc : ℝ → ℝ} {alpha beta gamma : Dual} (ha : R fa alpha) (hb : R fb beta) (hc : R fc gamma) (i : ℕ) :
    TrM R (fun s => rotMatrices deg (fa s) (fb s) (fc s) i) (rotMatricesD deg alpha beta gamma i) := by
  intro r c
  unfold rotMatrices rotMatricesD
  have hD : ∀ a b : ℕ, TrC R (fun s => Complex.exp (-1 * Complex.I * ((((b : ℝ) - deg) * fa s + ((a : ℝ) - deg) * fc s : ℝ) : ℂ)) * (rotateDls (deg + 1) (fb s) i a b : ℂ))
      (CDual.mul (CDual.expNegI (const ((b : ℝ) - deg) * alpha + const ((a : ℝ) - deg) * gamma)) ⟨rotateDlsD (deg + 1) beta i a b, const 0⟩) := fun a b =>
    TrC.mul (trC_expNegI (hR.add (hR.mul (hR.const _) ha) (hR.mul (hR.const _) hc))) ⟨by simpa using trM_rotateDls (deg + 1) hb i a b, by simpa using hR.const 0⟩
  simp only
  exact (trC_sum (2 * deg + 1) fun b => TrC.mul (trC_sum (2 * deg + 1) fun a => TrC.mul (trC_ofComplex ((starRingEnd ℂ) (Uc deg a (r + (deg - i))))) (hD a b))
    (trC_ofComplex (Uc deg b (c + (deg - i))))).1

theorem rotMatrices_periodic (deg : ℕ) (alpha beta gamma : ℝ) (k l : ℤ) (i r c : ℕ) :
    rotMatrices deg (alpha + k * (2 * π)) beta (gamma + l * (2 * π)) i r c = rotMatrices deg alpha beta gamma i r c := by
  unfold rotMatrices
  have : ∀ a b : ℕ, Complex.exp (-1 * Complex.I * ((((b : ℝ) - deg) * (alpha + k * (2 * π)) + ((a : ℝ) - deg) * (gamma + l * (2 * π)) : ℝ) : ℂ)) =
      Complex.exp (-1 * Complex.I * ((((b : ℝ) - deg) * alpha + ((a : ℝ) - deg) * gamma : ℝ) : ℂ)) := by
    intro a b
    rw [Complex.exp_eq_exp_iff_exists_int]
    refine ⟨-(((b : ℤ) - deg) * k + ((a : ℤ) - deg) * l), ?_⟩
    push_cast
    ring
  simp only [this]

/-! ## Euler angles -/

theorem trL_blocksI (ydeg : ℕ) {B : ℝ → ℕ → ℕ → ℕ → ℝ} {BD : ℕ → ℕ → ℕ → Dual} (hB : ∀ i, TrM R (fun s => B s i) (BD i)) {F : ℝ → List ℝ} {L : List Dual} (h : TrL R F L) :
    TrL R (fun s => applyBlocks ydeg (B s) (F s)) (applyBlocksI ydeg BD L) := by
  unfold applyBlocks applyBlocksI
  refine trL_flatMap _ fun ell _ => trL_map _ fun c _ => ?_
  simp only [← LimbDark.range_sum]
  exact (trL_map _ fun r _ => hR.mul (h.getD _) (hB ell r c)).sum

theorem track_arccos {f : ℝ → ℝ} {a : Dual} (h : Tracks f t a) (h1 : -1 < a.v) (h2 : a.v < 1) : Tracks (fun s => arccos (f s)) t (arccosD a) := by
  obtain ⟨hv, d, hd, hf⟩ := h
  refine ⟨by simp only [hv]; rfl, -(1 / √(1 - a.v ^ 2)) * d, ?_, ?_⟩
  · unfold arccosD
    simp only
    rw [if_neg (by push Not; exact ⟨h1, h2⟩), hd]
    rfl
  · rw [← hv] at h1 h2 ⊢
    exact (Real.hasDerivAt_arccos h1.ne' h2.ne).comp t hf

/-- the Euler angles of a rotation about a unit axis -/
theorem track_euler {asEuler : V3 → V3} {asEulerD : Dual × Dual × Dual → Dual × Dual × Dual} (hD : DifferentiatesEuler asEuler asEulerD) (strict : Bool)
    {fx fy fz fth : ℝ → ℝ} {x y z theta : Dual} (hx : Tracks fx t x) (hy : Tracks fy t y) (hz : Tracks fz t z) (hth : Tracks fth t theta)
    (hn : normSq (fx t, fy t, fz t) = 1) (h0 : fth t ≠ 0) (hg : (rotAxis (fx t, fy t, fz t) (fth t) zAxis).2.2 ^ 2 ≠ 1) (deg i : ℕ) :
    TrM (Tk t) (fun s => rotMatrices deg (euler asEuler (fx s) (fy s) (fz s) (fth s)).1 (euler asEuler (fx s) (fy s) (fz s) (fth s)).2.1
        (euler asEuler (fx s) (fy s) (fz s) (fth s)).2.2 i)
      (rotMatricesD deg (eulerD strict asEulerD x y z theta).1 (eulerD strict asEulerD x y z theta).2.1 (eulerD strict asEulerD x y z theta).2.2 i) := by
  have hne : ∀ᶠ s in 𝓝 t, ¬ fth s = 0 := hth.cont.eventually_ne h0
  have hc : ¬ theta.v = 0 := by rw [← hth.1]; exact h0
  have ax : Tracks fx t (Dual.where strict (theta.v = 0) (const 1) x) := by
    have := track_where_neg (st := strict) (c := theta.v = 0) (p := fun _ => False) (f := fun _ => 1) (fin_const 1) hx hc (Eventually.of_forall fun _ h => h)
    simpa using this
  have th : Tracks fth t (Dual.where strict (theta.v = 0) (const 1) theta) := by
    have := track_where_neg (st := strict) (c := theta.v = 0) (p := fun _ => False) (f := fun _ => 1) (fin_const 1) hth hc (Eventually.of_forall fun _ h => h)
    simpa using this
  unfold normSq at hn
  simp only at hn
  have hn' := hn
  rw [ax.1, hy.1, hz.1] at hn'
  have n := track_sqrt (track_add (track_add (track_square ax) (track_square hy)) (track_square hz)) (by
    simp only [add_v, square_v]
    rw [hn']
    exact one_pos)
  have hnv : (((Dual.where strict (theta.v = 0) (const 1) x).square + y.square + z.square).sqrt).v = 1 := by
    simp only [sqrt_v, add_v, square_v]
    rw [hn', Real.sqrt_one]
  have e1 := track_mul (track_div ax n (by rw [hnv]; exact one_ne_zero)) th
  have e2 := track_mul (track_div hy n (by rw [hnv]; exact one_ne_zero)) th
  have e3 := track_mul (track_div hz n (by rw [hnv]; exact one_ne_zero)) th
  obtain ⟨v1, d1, q1, g1⟩ := e1
  obtain ⟨v2, d2, q2, g2⟩ := e2
  obtain ⟨v3, d3, q3, g3⟩ := e3
  obtain ⟨α, β, γ, a, b, c, hα, hβ, hγ, hval, hev⟩ := hD.deriv _ _ _ t d1 d2 d3 g1 g2 g3 (fx t, fy t, fz t) (fth t) (by unfold normSq; exact hn) (by
    simp only [hn, Real.sqrt_one, div_one]) hg
  simp only [v1, v2, v3] at hval
  rw [← q1, ← q2, ← q3] at hval
  have tα : Tracks α t ⟨α t, some a⟩ := ⟨rfl, a, rfl, hα⟩
  have tβ : Tracks β t ⟨β t, some b⟩ := ⟨rfl, b, rfl, hβ⟩
  have tγ : Tracks γ t ⟨γ t, some c⟩ := ⟨rfl, c, rfl, hγ⟩
  have key : eulerD strict asEulerD x y z theta = (Dual.where strict (theta.v = 0) (const 0) ⟨α t, some a⟩, Dual.where strict (theta.v = 0) (const 0) ⟨β t, some b⟩,
      Dual.where strict (theta.v = 0) (const 0) ⟨γ t, some c⟩) := by
    unfold eulerD
    simp only
    rw [hval]
  have skip : ∀ {f : ℝ → ℝ} {a : Dual}, Tracks f t a → Tracks f t (Dual.where strict (theta.v = 0) (const 0) a) := by
    intro f a hf
    have := track_where_neg (st := strict) (c := theta.v = 0) (p := fun _ => False) (f := fun _ => 1) (fin_const 0) hf hc (Eventually.of_forall fun _ h => h)
    simpa using this
  intro r c
  have h := trM_rotMatrices (R := Tk t) deg (skip tα) (skip tβ) (skip tγ) i r c
  rw [key]
  refine Tracks.congr h ?_
  filter_upwards [hev, hne] with s hs hs0
  obtain ⟨k, l, hs⟩ := hs
  have : euler asEuler (fx s) (fy s) (fz s) (fth s) = (α s + k * (2 * π), β s, γ s + l * (2 * π)) := by
    rw [← hs]
    unfold euler
    simp only [if_neg hs0]
  rw [this]
  exact rotMatrices_periodic _ _ _ _ _ _ _ _ _

/-! ## The projection onto the sky -/

/-- the axis and the angle of the projection of a surface whose rotation axis does not point along the line of sight -/
theorem track_sky (strict : Bool) {fi fo : ℝ → ℝ} {inc obl : Dual} (hi : Tracks fi t inc) (ho : Tracks fo t obl) (hs : Real.sin (fi t) ≠ 0) :
    ∃ (fx fy fz fth : ℝ → ℝ) (x y z theta : Dual), skyProjectionD strict (some inc) (some obl) = (some x, some y, some z, some theta) ∧
      (∀ s, skyProjection (some (fi s)) (some (fo s)) = (some (fx s), some (fy s), some (fz s), some (fth s))) ∧
      Tracks fx t x ∧ Tracks fy t y ∧ Tracks fz t z ∧ Tracks fth t theta ∧ normSq (fx t, fy t, fz t) = 1 ∧ fth t ≠ 0 ∧
      (rotAxis (fx t, fy t, fz t) (fth t) zAxis).2.2 ^ 2 ≠ 1 := by
  have hi2 : Tracks (fun s => fi s / 2) t (inc / const 2) := track_div hi (track_const 2 t) (by simp)
  have ho2 : Tracks (fun s => fo s / 2) t (obl / const 2) := track_div ho (track_const 2 t) (by simp)
  have co := track_cos ho2
  have so := track_sin ho2
  have ci := track_cos hi2
  have si := track_sin hi2
  have hprod : Real.sin (fi t / 2) * Real.cos (fi t / 2) ≠ 0 := by
    intro h
    apply hs
    rw [show fi t = 2 * (fi t / 2) by ring, Real.sin_two_mul, mul_assoc, h, mul_zero]
  have hsi : Real.sin (fi t / 2) ≠ 0 := left_ne_zero_of_mul hprod
  have p1 := Real.sin_sq_add_cos_sq (fi t / 2)
  have p2 := Real.sin_sq_add_cos_sq (fo t / 2)
  have hpos : 0 < 1 - Real.cos (fi t / 2) ^ 2 * Real.cos (fo t / 2) ^ 2 := by
    have h1 : 0 < Real.sin (fi t / 2) ^ 2 := by positivity
    have h2 : Real.cos (fo t / 2) ^ 2 ≤ 1 := by nlinarith [sq_nonneg (Real.sin (fo t / 2))]
    nlinarith [sq_nonneg (Real.cos (fi t / 2)), mul_le_mul_of_nonneg_left h2 (sq_nonneg (Real.cos (fi t / 2)))]
  have vco := co.1
  have vso := so.1
  have vci := ci.1
  have vsi := si.1
  generalize hCO : (obl / const 2).cos = CO at co vco
  generalize hSO : (obl / const 2).sin = SO at so vso
  generalize hCI : (inc / const 2).cos = CI at ci vci
  generalize hSI : (inc / const 2).sin = SI at si vsi
  have den := track_sqrt (track_sub (track_const 1 t) (track_mul (track_square ci) (track_square co))) (by
    simp only [sub_v, const_v, mul_v, square_v]
    rw [← vci, ← vco]
    exact hpos)
  have hden : 0 < (const 1 - CI.square * CO.square).sqrt.v := by
    simp only [sqrt_v, sub_v, const_v, mul_v, square_v]
    rw [← vci, ← vco]
    exact Real.sqrt_pos.2 hpos
  have den' := track_where_neg (st := strict) (c := (const 1 - CI.square * CO.square).sqrt.v = 0) (f := fun _ => 1)
    (p := fun s => √(1 - Real.cos (fi s / 2) ^ 2 * Real.cos (fo s / 2) ^ 2) = 0) (fin_const 1) den hden.ne' (by
      exact den.cont.eventually_ne (Real.sqrt_pos.2 hpos).ne')
  have hden' : 0 < (Dual.where strict ((const 1 - CI.square * CO.square).sqrt.v = 0) (const 1) (const 1 - CI.square * CO.square).sqrt).v := by
    rw [where_v, if_neg hden.ne']
    exact hden
  have ax := track_mul si co
  have ay := track_mul si so
  have az := track_mul (track_neg so) ci
  have harg : 0 < (Real.sin (fi t / 2) * Real.cos (fo t / 2)) ^ 2 + (Real.sin (fi t / 2) * Real.sin (fo t / 2)) ^ 2 + (-Real.sin (fo t / 2) * Real.cos (fi t / 2)) ^ 2 := by
    have : 0 < Real.sin (fi t / 2) ^ 2 := by positivity
    nlinarith [sq_nonneg (-Real.sin (fo t / 2) * Real.cos (fi t / 2))]
  have hargev : ∀ᶠ s in 𝓝 t, √((Real.sin (fi s / 2) * Real.cos (fo s / 2)) ^ 2 + (Real.sin (fi s / 2) * Real.sin (fo s / 2)) ^ 2 +
      (-Real.sin (fo s / 2) * Real.cos (fi s / 2)) ^ 2) > 0 := by
    have hc := (track_add (track_add (track_square ax) (track_square ay)) (track_square az)).cont
    exact (hc.eventually (lt_mem_nhds harg)).mono fun s hs => Real.sqrt_pos.2 hs
  have hargv : √((SI * CO).v ^ 2 + (SI * SO).v ^ 2 + (-SO * CI).v ^ 2) > 0 := by
    simp only [mul_v, neg_v]
    rw [← vsi, ← vco, ← vso, ← vci]
    exact Real.sqrt_pos.2 harg
  have w : ∀ {f : ℝ → ℝ} {a : Dual} (c : ℝ), Tracks f t a → Tracks (fun s => if √((Real.sin (fi s / 2) * Real.cos (fo s / 2)) ^ 2 + (Real.sin (fi s / 2) * Real.sin (fo s / 2)) ^ 2 +
      (-Real.sin (fo s / 2) * Real.cos (fi s / 2)) ^ 2) > 0 then f s else c) t
      (Dual.where strict (√((SI * CO).v ^ 2 + (SI * SO).v ^ 2 + (-SO * CI).v ^ 2) > 0) a (const c)) := fun c h =>
    track_where_pos h (fin_const c) hargv hargev
  have hcc : Real.cos (fi t / 2) ^ 2 * Real.cos (fo t / 2) ^ 2 = (Real.cos (fi t / 2) * Real.cos (fo t / 2)) ^ 2 := by ring
  have hlt : (Real.cos (fi t / 2) * Real.cos (fo t / 2)) ^ 2 < 1 := by rw [← hcc]; linarith
  have hlt' : |Real.cos (fi t / 2) * Real.cos (fo t / 2)| < 1 := by
    rwa [sq_lt_one_iff_abs_lt_one] at hlt
  obtain ⟨hl1, hl2⟩ := abs_lt.1 hlt'
  have hm := track_mul ci co
  have ang := track_mul (track_const 2 t) (track_arccos hm (by rw [← hm.1]; exact hl1) (by rw [← hm.1]; exact hl2))
  refine ⟨_, _, _, _, _, _, _, _, ?_, fun s => ?_, w 1 (track_div ax den' hden'.ne'), w 0 (track_div ay den' hden'.ne'), w 0 (track_div az den' hden'.ne'), ang, ?_, ?_, ?_⟩
  · unfold skyProjectionD
    simp only [hCO, hSO, hCI, hSI]
  · rfl
  · simp only [normSq]
    rw [if_pos hargev.self_of_nhds, if_pos hargev.self_of_nhds, if_pos hargev.self_of_nhds, if_neg (Real.sqrt_pos.2 hpos).ne', div_pow, div_pow, div_pow, Real.sq_sqrt hpos.le]
    rw [← add_div, ← add_div, div_eq_one_iff_eq hpos.ne']
    linear_combination (Real.sin (fi t / 2) ^ 2 + Real.cos (fi t / 2) ^ 2) * p2 + p1
  · have := Real.arccos_pos.2 hl2
    positivity
  · simp only [rotAxis, zAxis]
    rw [if_pos hargev.self_of_nhds, if_pos hargev.self_of_nhds, if_pos hargev.self_of_nhds, if_neg (Real.sqrt_pos.2 hpos).ne']
    have hcos : Real.cos (2 * arccos (Real.cos (fi t / 2) * Real.cos (fo t / 2))) = 2 * (Real.cos (fi t / 2) * Real.cos (fo t / 2)) ^ 2 - 1 := by
      rw [Real.cos_two_mul, Real.cos_arccos hl1.le hl2.le]
    have hsq := Real.sq_sqrt hpos.le
    have hne := (Real.sqrt_pos.2 hpos).ne'
    rw [hcos]
    have hz : (1 : ℝ) * (2 * (Real.cos (fi t / 2) * Real.cos (fo t / 2)) ^ 2 - 1) +
        (Real.sin (fi t / 2) * Real.cos (fo t / 2) / √(1 - Real.cos (fi t / 2) ^ 2 * Real.cos (fo t / 2) ^ 2) * 0 -
          Real.sin (fi t / 2) * Real.sin (fo t / 2) / √(1 - Real.cos (fi t / 2) ^ 2 * Real.cos (fo t / 2) ^ 2) * 0) *
        Real.sin (2 * arccos (Real.cos (fi t / 2) * Real.cos (fo t / 2))) +
        -Real.sin (fo t / 2) * Real.cos (fi t / 2) / √(1 - Real.cos (fi t / 2) ^ 2 * Real.cos (fo t / 2) ^ 2) *
          (Real.sin (fi t / 2) * Real.cos (fo t / 2) / √(1 - Real.cos (fi t / 2) ^ 2 * Real.cos (fo t / 2) ^ 2) * 0 +
            Real.sin (fi t / 2) * Real.sin (fo t / 2) / √(1 - Real.cos (fi t / 2) ^ 2 * Real.cos (fo t / 2) ^ 2) * 0 +
            -Real.sin (fo t / 2) * Real.cos (fi t / 2) / √(1 - Real.cos (fi t / 2) ^ 2 * Real.cos (fo t / 2) ^ 2) * 1) *
          (1 - (2 * (Real.cos (fi t / 2) * Real.cos (fo t / 2)) ^ 2 - 1)) = Real.cos (fi t) := by
      rw [show Real.cos (fi t) = 2 * Real.cos (fi t / 2) ^ 2 - 1 by rw [← Real.cos_two_mul]; congr 1; ring]
      generalize √(1 - Real.cos (fi t / 2) ^ 2 * Real.cos (fo t / 2) ^ 2) = q at hsq hne
      field_simp
      linear_combination 2 * Real.cos (fi t / 2) ^ 2 * q ^ 2 * p2 - 2 * Real.sin (fo t / 2) ^ 2 * Real.cos (fi t / 2) ^ 2 * hsq
    rw [hz]
    intro h
    have := Real.sin_sq_add_cos_sq (fi t)
    rw [h] at this
    exact hs (by nlinarith)

/-- the rotation onto the sky -/
theorem trE_sky {asEuler : V3 → V3} {asEulerD : Dual × Dual × Dual → Dual × Dual × Dual} (hD : DifferentiatesEuler asEuler asEulerD) (strict : Bool) (ydeg : ℕ)
    {fi fo : Option (ℝ → ℝ)} {inc obl : Option Dual} (hi : TrO (Tk t) fi inc) (ho : TrO (Tk t) fo obl) (hs : ∀ f ∈ fi, Real.sin (f t) ≠ 0)
    {F : ℝ → List ℝ} {L : List Dual} (h : TrL (Tk t) F L) :
    TrE (TrL (Tk t)) (fun s => dotRotationMatrix asEuler ydeg (skyProjection (fi.map (· s)) (fo.map (· s))).1 (skyProjection (fi.map (· s)) (fo.map (· s))).2.1
        (skyProjection (fi.map (· s)) (fo.map (· s))).2.2.1 (skyProjection (fi.map (· s)) (fo.map (· s))).2.2.2 (F s))
      (dotRotationMatrixI strict asEulerD ydeg (skyProjectionD strict inc obl).1 (skyProjectionD strict inc obl).2.1 (skyProjectionD strict inc obl).2.2.1
        (skyProjectionD strict inc obl).2.2.2 L) := by
  cases hi with
  | none =>
    cases ho with
    | none => exact TrE.pure h
    | some ho => exact TrE.pure (trL_dotRz ydeg (track_cos ho) (track_sin ho) h)
  | @some fi inc hi =>
    have hs := hs fi rfl
    cases ho with
    | none =>
      refine TrE.pure (trL_blocksI ydeg (fun i => ?_) h)
      refine track_euler hD strict (track_const 1 t) (track_const 0 t) (track_const 0 t) hi (by simp [normSq]) ?_ ?_ ydeg i
      · intro h0
        rw [h0, Real.sin_zero] at hs
        exact hs rfl
      · simp only [rotAxis, zAxis]
        intro h1
        have := Real.sin_sq_add_cos_sq (fi t)
        refine hs ?_
        have h1 : Real.cos (fi t) ^ 2 = 1 := by rw [← h1]; ring
        nlinarith
    | @some fo obl ho =>
      obtain ⟨fx, fy, fz, fth, x, y, z, theta, e1, e2, tx, ty, tz, tth, hn, h0, hg⟩ := track_sky strict hi ho hs
      simp only [Option.map_some, e2, e1]
      exact TrE.pure (trL_blocksI ydeg (fun i => track_euler hD strict tx ty tz tth hn h0 hg ydeg i) h)

theorem trE_leftProject_of {asEuler : V3 → V3} {asEulerD : Dual × Dual × Dual → Dual × Dual × Dual} (strict : Bool) (ydeg : ℕ)
    {fi fo : ℝ → Option ℝ} {inc obl : Option Dual} (hsky : ∀ {F : ℝ → List ℝ} {L : List Dual}, TrL (Tk t) F L →
      TrE (TrL (Tk t)) (fun s => dotRotationMatrix asEuler ydeg (skyProjection (fi s) (fo s)).1 (skyProjection (fi s) (fo s)).2.1
        (skyProjection (fi s) (fo s)).2.2.1 (skyProjection (fi s) (fo s)).2.2.2 (F s))
      (dotRotationMatrixI strict asEulerD ydeg (skyProjectionD strict inc obl).1 (skyProjectionD strict inc obl).2.1 (skyProjectionD strict inc obl).2.2.1
        (skyProjectionD strict inc obl).2.2.2 L))
    {theta : Option (ℝ → ℝ)} {thetaD : Option Dual} (hth : TrO (Tk t) theta thetaD)
    {f : ℝ → ℝ} {a : Dual} (hc : Tracks (fun s => Real.cos (-f s)) t (-a).cos) (hs : Tracks (fun s => Real.sin (-f s)) t (-a).sin)
    {F : ℝ → List ℝ} {L : List Dual} (h : TrL (Tk t) F L) :
    TrE (TrL (Tk t)) (fun s => leftProject asEuler ydeg (fi s) (fo s) (theta.map (· s)) (some (f s)) (F s))
      (leftProjectI strict asEuler asEulerD ydeg inc obl thetaD a L) := by
  unfold leftProject leftProjectI
  refine TrE.bind (trE_dotRotation asEuler ydeg (some 1) none none (some (-0.5 * π)) h) fun F1 L1 h1 => ?_
  have tail : ∀ {G : ℝ → List ℝ} {M : List Dual}, TrL (Tk t) G M → TrE (TrL (Tk t))
      (fun s => (dotRotationMatrix asEuler ydeg (skyProjection (fi s) (fo s)).1 (skyProjection (fi s) (fo s)).2.1
        (skyProjection (fi s) (fo s)).2.2.1 (skyProjection (fi s) (fo s)).2.2.2 (G s)) >>= fun y =>
        dotRotationMatrix asEuler ydeg none none (some 1) (Option.map (- ·) (some (f s))) y)
      ((dotRotationMatrixI strict asEulerD ydeg (skyProjectionD strict inc obl).1 (skyProjectionD strict inc obl).2.1 (skyProjectionD strict inc obl).2.2.1
        (skyProjectionD strict inc obl).2.2.2 M) >>= fun y => .ok (dotRzD ydeg (-a) y)) := by
    intro G M hG
    exact TrE.bind (hsky hG) fun F2 L2 h2 => TrE.pure (trL_dotRz ydeg hc hs h2)
  cases hth with
  | none => exact tail h1
  | some ht =>
    have htn := track_neg ht
    exact tail (trL_dotRz ydeg (track_cos htn) (track_sin htn) h1)

theorem trE_rotatedY_of {asEuler : V3 → V3} {asEulerD : Dual × Dual × Dual → Dual × Dual × Dual} (strict : Bool)
    {S : ℝ → Surface} {yD : DictD (ℕ × ℤ)} {uD : List Dual} {aD : Dual} (hS : TrSurf0 (Tk t) S yD uD aD) {inc obl : Option Dual}
    (hsky : (S t).ydeg ≠ 0 → ∀ {F : ℝ → List ℝ} {L : List Dual}, TrL (Tk t) F L →
      TrE (TrL (Tk t)) (fun s => dotRotationMatrix asEuler (ylmDeg yD) (skyProjection (S s).inc (S s).obl).1 (skyProjection (S s).inc (S s).obl).2.1
        (skyProjection (S s).inc (S s).obl).2.2.1 (skyProjection (S s).inc (S s).obl).2.2.2 (F s))
      (dotRotationMatrixI strict asEulerD (ylmDeg yD) (skyProjectionD strict inc obl).1 (skyProjectionD strict inc obl).2.1 (skyProjectionD strict inc obl).2.2.1
        (skyProjectionD strict inc obl).2.2.2 L))
    {theta : Option (ℝ → ℝ)} {thetaD : Option Dual} (hth : TrO (Tk t) theta thetaD)
    {f : ℝ → ℝ} {a : Dual} (hc : Tracks (fun s => Real.cos (-f s)) t (-a).cos) (hs : Tracks (fun s => Real.sin (-f s)) t (-a).sin) :
    TrE (TrL (Tk t)) (fun s => rotatedY asEuler (S s) (theta.map (· s)) (f s)) (rotatedYI strict asEuler asEulerD yD inc obl thetaD a) := by
  unfold rotatedY rotatedYI
  by_cases h0 : ylmDeg yD = 0
  · simp only [hS.ydeg, h0, if_true]
    exact TrE.pure hS.todense
  · simp only [hS.ydeg, h0, if_false]
    exact trE_leftProject_of strict _ (hsky (by rw [hS.ydeg]; exact h0)) hth hc hs hS.todense

/-- the rotated coefficients of the map -/
theorem trE_rotatedYI {asEuler : V3 → V3} {asEulerD : Dual × Dual × Dual → Dual × Dual × Dual} (hD : DifferentiatesEuler asEuler asEulerD) (strict : Bool)
    {S : ℝ → Surface} {yD : DictD (ℕ × ℤ)} {uD : List Dual} {aD : Dual} (hS : TrSurf0 (Tk t) S yD uD aD)
    {fi fo : Option (ℝ → ℝ)} {inc obl : Option Dual} (hi : TrO (Tk t) fi inc) (ho : TrO (Tk t) fo obl) (hSi : ∀ s, (S s).inc = fi.map (· s)) (hSo : ∀ s, (S s).obl = fo.map (· s))
    (hsin : (S t).ydeg ≠ 0 → ∀ f ∈ fi, Real.sin (f t) ≠ 0) {theta : Option (ℝ → ℝ)} {thetaD : Option Dual} (hth : TrO (Tk t) theta thetaD)
    {f : ℝ → ℝ} {a : Dual} (hc : Tracks (fun s => Real.cos (-f s)) t (-a).cos) (hs : Tracks (fun s => Real.sin (-f s)) t (-a).sin) :
    TrE (TrL (Tk t)) (fun s => rotatedY asEuler (S s) (theta.map (· s)) (f s)) (rotatedYI strict asEuler asEulerD yD inc obl thetaD a) := by
  refine trE_rotatedY_of strict hS (fun h0 F L h => ?_) hth hc hs
  simp only [hSi, hSo]
  exact trE_sky hD strict (ylmDeg yD) hi ho (hsin h0) h

/-- a star that is seen along its rotation axis, without obliquity: automatic differentiation treats the inclination as a constant -/
theorem trE_rotatedY_pole {asEuler : V3 → V3} {asEulerD : Dual × Dual × Dual → Dual × Dual × Dual} (hD : DifferentiatesEuler asEuler asEulerD) (strict : Bool)
    {S : ℝ → Surface} {yD : DictD (ℕ × ℤ)} {uD : List Dual} {aD : Dual} (hS : TrSurf0 (Tk t) S yD uD aD)
    {inc : Dual} (hi : Dual.Fin inc) (h0 : inc.v = 0) (hSi : ∀ s, (S s).inc = some 0) (hSo : ∀ s, (S s).obl = none)
    {theta : Option (ℝ → ℝ)} {thetaD : Option Dual} (hth : TrO (Tk t) theta thetaD)
    {f : ℝ → ℝ} {a : Dual} (hc : Tracks (fun s => Real.cos (-f s)) t (-a).cos) (hs : Tracks (fun s => Real.sin (-f s)) t (-a).sin) :
    TrE (TrL (Tk t)) (fun s => rotatedY asEuler (S s) (theta.map (· s)) (f s)) (rotatedYI strict asEuler asEulerD yD (some inc) none thetaD a) := by
  refine trE_rotatedY_of strict hS (fun _ F L h => ?_) hth hc hs
  simp only [hSi, hSo]
  have hfin : ∀ {b : Dual}, Dual.Fin b → Dual.where strict (inc.v = 0) (const 1) b = const 1 := by
    rintro b ⟨d, hd⟩
    have h1 : (const 1).d = some 0 := rfl
    cases strict <;> simp [Dual.where, h0, hd, const]
  have hfin0 : ∀ {b : Dual}, Dual.Fin b → Dual.where strict (inc.v = 0) (const 0) b = const 0 := by
    rintro b ⟨d, hd⟩
    cases strict <;> simp [Dual.where, h0, hd, const]
  obtain ⟨α, β, γ, da, db, dc, -, -, -, hval, -⟩ := hD.deriv (fun _ => 1) (fun _ => 0) (fun _ => 0) 0 0 0 0 (hasDerivAt_const _ _) (hasDerivAt_const _ _) (hasDerivAt_const _ _)
    (1, 0, 0) 1 (by simp [normSq]) (by simp) (by
      simp only [rotAxis, zAxis]
      intro h
      have h : Real.cos 1 ^ 2 = 1 := by
        refine Eq.trans ?_ h
        ring
      have h2 := Real.sin_sq_add_cos_sq 1
      have h3 : 0 < Real.sin 1 := Real.sin_pos_of_pos_of_lt_pi one_pos (by linarith [Real.pi_gt_three])
      nlinarith)
  have e1 : (const 1 / ((const 1).square + (const 0).square + (const 0).square).sqrt * const 1 : Dual) = ⟨1, some 0⟩ := by
    have h3 := track_mul (track_div (track_const 1 0) (track_sqrt (track_add (track_add (track_square (track_const 1 0)) (track_square (track_const 0 0))) (track_square (track_const 0 0)))
      (by simp)) (by simp)) (track_const 1 0)
    obtain ⟨v, d, e, g⟩ := h3
    refine Dual.ext ?_ ?_
    · rw [← v]; simp
    · rw [e, (hasDerivAt_const (0 : ℝ) _).unique g]
  have e2 : (const 0 / ((const 1).square + (const 0).square + (const 0).square).sqrt * const 1 : Dual) = ⟨0, some 0⟩ := by
    have h3 := track_mul (track_div (track_const 0 0) (track_sqrt (track_add (track_add (track_square (track_const 1 0)) (track_square (track_const 0 0))) (track_square (track_const 0 0)))
      (by simp)) (by simp)) (track_const 1 0)
    obtain ⟨v, d, e, g⟩ := h3
    refine Dual.ext ?_ ?_
    · rw [← v]; simp
    · rw [e, (hasDerivAt_const (0 : ℝ) _).unique g]
  have key : eulerD strict asEulerD (const 1) (const 0) (const 0) inc = (const 0, const 0, const 0) := by
    unfold eulerD
    simp only
    rw [hfin (fin_const 1), hfin hi, e1, e2, hval]
    simp only
    rw [hfin0 ⟨_, rfl⟩, hfin0 ⟨_, rfl⟩, hfin0 ⟨_, rfl⟩]
  have keyv : euler asEuler 1 0 0 0 = (0, 0, 0) := by
    unfold euler
    simp
  have hb : TrL (Tk t) (fun s => applyBlocks (ylmDeg yD) (rotMatrices (ylmDeg yD) 0 0 0) (F s)) (applyBlocksI (ylmDeg yD) (rotMatricesD (ylmDeg yD) (const 0) (const 0) (const 0)) L) :=
    trL_blocksI _ (fun i => trM_rotMatrices (R := Tk t) _ (track_const 0 t) (track_const 0 t) (track_const 0 t) i) h
  unfold dotRotationMatrix dotRotationMatrixI skyProjection skyProjectionD
  simp only [Option.isNone_some, Option.getD_some, Option.getD_none, Bool.false_eq_true, false_and, if_false, reduceCtorEq, key, keyv]
  exact TrE.pure hb

end Jaxoplanet.Starry
