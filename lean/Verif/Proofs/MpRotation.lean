import Verif.Model.MpRotation
import Verif.Props.FastProject
import Verif.Props.MpFlux

/-!
# Lemmas for C80: Wigner's sum, the change of basis and the Euler angles of the multi-precision rotation matrices
-/

namespace Jaxoplanet.Starry.Mp
open Jaxoplanet.Starry.Spec Real

/-- the coefficient of `u^(j-r) v^r` in `(c u - s v)^(j-i) (s u + c v)^i`, divided by `i! (j-i)!` -/
noncomputable def wsum (j : ℕ) (c s : ℝ) (r i : ℕ) : ℝ :=
  ∑ k ∈ Finset.range (i + 1), if i ≤ r + k ∧ r + k ≤ j then
    (-1) ^ (r + k - i) * c ^ ((i - k) + (j - r - k)) * s ^ (k + (r + k - i)) /
      ((k.factorial : ℝ) * ((i - k).factorial : ℝ) * ((j - r - k).factorial : ℝ) * ((r + k - i).factorial : ℝ)) else 0

theorem choose_cast {n k : ℕ} (h : k ≤ n) : (n.choose k : ℂ) = (n.factorial : ℂ) / ((k.factorial : ℂ) * ((n - k).factorial : ℂ)) := by
  rw [eq_div_iff (by simp [Nat.factorial_ne_zero]), ← Nat.choose_mul_factorial_mul_factorial h]
  push_cast
  ring

theorem wsum_expand (j i : ℕ) (hi : i ≤ j) (c s : ℝ) (u v : ℂ) :
    (c * u - s * v) ^ (j - i) * (s * u + c * v) ^ i =
      ∑ r ∈ Finset.range (j + 1), ((i.factorial : ℝ) * ((j - i).factorial : ℝ) * wsum j c s r i : ℝ) * (u ^ (j - r) * v ^ r) := by
  have h1 : (s * u + c * v) ^ i = ∑ k ∈ Finset.range (i + 1), (s * u) ^ k * (c * v) ^ (i - k) * (i.choose k : ℂ) := add_pow _ _ _
  have h2 : (c * u - s * v) ^ (j - i) = ∑ p ∈ Finset.range (j - i + 1), (-(s * v)) ^ p * (c * u) ^ (j - i - p) * ((j - i).choose p : ℂ) := by
    rw [show (c * u - s * v : ℂ) = -(s * v) + c * u by ring]; exact add_pow _ _ _
  have h3 : ∀ r, (((i.factorial : ℝ) * ((j - i).factorial : ℝ) * wsum j c s r i : ℝ) : ℂ) * (u ^ (j - r) * v ^ r) =
      ∑ k ∈ Finset.range (i + 1), if i ≤ r + k ∧ r + k ≤ j then (i.factorial : ℂ) * ((j - i).factorial : ℂ) *
    ((-1) ^ (r + k - i) * (c : ℂ) ^ ((i - k) + (j - r - k)) * (s : ℂ) ^ (k + (r + k - i)) /
      ((k.factorial : ℂ) * ((i - k).factorial : ℂ) * ((j - r - k).factorial : ℂ) * ((r + k - i).factorial : ℂ))) * (u ^ (j - r) * v ^ r) else 0 := by
    intro r
    unfold wsum
    push_cast
    rw [Finset.mul_sum, Finset.sum_mul]
    refine Finset.sum_congr rfl fun k _ => ?_
    split_ifs
    · push_cast; ring
    · simp
  rw [Finset.sum_congr rfl fun r _ => h3 r, Finset.sum_comm, h1, h2, Finset.mul_sum]
  refine Finset.sum_congr rfl fun k hk => ?_
  have hk' : k ≤ i := by have := Finset.mem_range.1 hk; omega
  rw [← Finset.sum_filter, Finset.sum_mul]
  refine Finset.sum_bij (fun p _ => p + i - k) ?_ ?_ ?_ ?_
  · intro p hp
    have := Finset.mem_range.1 hp
    simp only [Finset.mem_filter, Finset.mem_range]
    omega
  · intro p _ q _ h
    omega
  · intro r hr
    simp only [Finset.mem_filter, Finset.mem_range] at hr
    exact ⟨r + k - i, Finset.mem_range.2 (by omega), by omega⟩
  · intro p hp
    have hp' : p ≤ j - i := by have := Finset.mem_range.1 hp; omega
    rw [show p + i - k + k - i = p by omega, show j - (p + i - k) - k = j - i - p by omega,
      show j - (p + i - k) = (j - i - p) + k by omega, show p + i - k = p + (i - k) by omega, choose_cast hk', choose_cast hp']
    have := Nat.factorial_ne_zero
    have f1 : (k.factorial : ℂ) ≠ 0 := by exact_mod_cast this k
    have f2 : ((i - k).factorial : ℂ) ≠ 0 := by exact_mod_cast this _
    have f3 : (p.factorial : ℂ) ≠ 0 := by exact_mod_cast this p
    have f4 : ((j - i - p).factorial : ℂ) ≠ 0 := by exact_mod_cast this _
    rw [show (-((s : ℂ) * v)) ^ p = (-1) ^ p * (s * v) ^ p by rw [← mul_pow]; congr 1; ring]
    field_simp
    ring

/-- the Wigner matrix: Wigner's sum times the root of the factorials is the matrix of the substitution -/
theorem symPow_wsum (j : ℕ) (c s : ℝ) : SymPow j c s fun r i =>
    √((i.factorial : ℝ) * ((j - i).factorial : ℝ) * ((r.factorial : ℝ) * ((j - r).factorial : ℝ))) * wsum j c s r i := by
  intro i hi u v
  unfold em
  rw [wsum_expand j i hi, Finset.sum_div]
  refine Finset.sum_congr rfl fun r _ => ?_
  have hx : (0 : ℝ) < (i.factorial : ℝ) * ((j - i).factorial : ℝ) := by positivity
  have hy : (0 : ℝ) < (r.factorial : ℝ) * ((j - r).factorial : ℝ) := by positivity
  simp only
  rw [sqrt_mul hx.le]
  generalize hX : (i.factorial : ℝ) * ((j - i).factorial : ℝ) = X at *
  generalize hY : (r.factorial : ℝ) * ((j - r).factorial : ℝ) = Y at *
  have a1 : ((√X : ℝ) : ℂ) ≠ 0 := by exact_mod_cast (sqrt_pos.2 hx).ne'
  have a2 : ((√Y : ℝ) : ℂ) ≠ 0 := by exact_mod_cast (sqrt_pos.2 hy).ne'
  have e : (X : ℂ) = ((√X : ℝ) : ℂ) * ((√X : ℝ) : ℂ) := by rw [← Complex.ofReal_mul, mul_self_sqrt hx.le]
  rw [Complex.ofReal_mul, e]
  push_cast
  field_simp

theorem foldl_add_sum (n : ℕ) (f : ℕ → ℝ) : (List.range n).foldl (fun s k => s + f k) 0 = ∑ k ∈ Finset.range n, f k := by
  induction n with
  | zero => rfl
  | succ n ih => rw [List.range_succ, List.foldl_append, ih, Finset.sum_range_succ]; rfl

theorem facZ_cast (n : ℕ) : facZ (n : ℤ) = some (n.factorial : ℝ) := by simp [facZ]

theorem facZ_neg {n : ℤ} (h : n < 0) : facZ n = none := by simp [facZ, h]

theorem dmnSum_wsum (l : ℕ) (β : ℝ) (r i : ℕ) :
    (-1) ^ (((r : ℤ) - l) + ((i : ℤ) - l)) * dmnSum l ((i : ℤ) - l) ((r : ℤ) - l) β = wsum (2 * l) (cos (β / 2)) (sin (β / 2)) r i := by
  unfold dmnSum wsum
  rw [foldl_add_sum, Finset.mul_sum, show ((l : ℤ) + ((i : ℤ) - l) + 1).toNat = i + 1 by omega]
  refine Finset.sum_congr rfl fun k hk => ?_
  have hk' : k ≤ i := by have := Finset.mem_range.1 hk; omega
  split_ifs with h
  · rw [facZ_cast, show (l : ℤ) + ((i : ℤ) - l) - k = ((i - k : ℕ) : ℤ) by omega, facZ_cast,
      show (l : ℤ) - ((r : ℤ) - l) - k = ((2 * l - r - k : ℕ) : ℤ) by omega, facZ_cast,
      show (r : ℤ) - l - ((i : ℤ) - l) + k = ((r + k - i : ℕ) : ℤ) by omega, facZ_cast]
    simp only [mulInf, divInf]
    rw [show 2 * (l : ℤ) + ((i : ℤ) - l) - (r - l) - 2 * k = (((i - k) + (2 * l - r - k) : ℕ) : ℤ) by omega, zpow_natCast,
      show -((i : ℤ) - l) + (r - l) + 2 * (k : ℤ) = ((k + (r + k - i) : ℕ) : ℤ) by omega, zpow_natCast]
    have e : (-1 : ℝ) ^ (((r : ℤ) - l) + ((i : ℤ) - l)) * (-1) ^ k = (-1) ^ (r + k - i) := by
      have hne : (-1 : ℝ) ≠ 0 := by norm_num
      rw [← zpow_natCast, ← zpow_natCast, ← zpow_add₀ hne,
        show (r : ℤ) - l + ((i : ℤ) - l) + k = ((r + k - i : ℕ) : ℤ) + 2 * (i - l) by omega, zpow_add₀ hne, zpow_mul]
      norm_num
    rw [← e]
    ring
  · rw [mul_eq_zero]
    right
    have : facZ ((l : ℤ) - (r - l) - k) = none ∨ facZ ((r : ℤ) - l - ((i : ℤ) - l) + k) = none := by
      by_cases h1 : i ≤ r + k
      · left; exact facZ_neg (by omega)
      · right; exact facZ_neg (by omega)
    rcases this with h | h <;> rw [h]
    · simp [mulInf, divInf]
    · simp [mulInf, divInf]

/-- the entries of the matrix `D` -/
theorem D_entry (dps l : ℕ) (α β γ : ℝ) (r c : Fin (2 * l + 1)) :
    D dps l α β γ r c = Complex.exp (-1 * Complex.I * (((((r : ℕ) : ℤ) - l : ℤ) * α : ℝ) : ℂ)) *
      (((√(((c : ℕ).factorial : ℝ) * ((2 * l - c).factorial : ℝ) * (((r : ℕ).factorial : ℝ) * ((2 * l - r).factorial : ℝ))) *
        wsum (2 * l) (cos (dmnBeta dps β / 2)) (sin (dmnBeta dps β / 2)) r c : ℝ)) : ℂ) *
      Complex.exp (-1 * Complex.I * (((((c : ℕ) : ℤ) - l : ℤ) * γ : ℝ) : ℂ)) := by
  have hr := r.2
  have hc := c.2
  unfold D Dmn
  rw [Matrix.of_apply, ← dmnSum_wsum]
  rw [show (l : ℤ) - (((c : ℕ) : ℤ) - l) = ((2 * l - c : ℕ) : ℤ) by omega, facZ_cast,
    show (l : ℤ) + (((c : ℕ) : ℤ) - l) = ((c : ℕ) : ℤ) by omega, facZ_cast,
    show (l : ℤ) - (((r : ℕ) : ℤ) - l) = ((2 * l - r : ℕ) : ℤ) by omega, facZ_cast,
    show (l : ℤ) + (((r : ℕ) : ℤ) - l) = ((r : ℕ) : ℤ) by omega, facZ_cast]
  simp only [Option.getD_some]
  rw [show ((2 * l - (c : ℕ)).factorial : ℝ) * ((c : ℕ).factorial : ℝ) * ((2 * l - (r : ℕ)).factorial : ℝ) * ((r : ℕ).factorial : ℝ) =
    ((c : ℕ).factorial : ℝ) * ((2 * l - c).factorial : ℝ) * (((r : ℕ).factorial : ℝ) * ((2 * l - r).factorial : ℝ)) by ring]
  rw [show Complex.exp (-Complex.I * ((α * ((((r : ℕ) : ℤ) - l : ℤ) : ℝ) + γ * ((((c : ℕ) : ℤ) - l : ℤ) : ℝ) : ℝ) : ℂ)) =
    Complex.exp (-1 * Complex.I * (((((r : ℕ) : ℤ) - l : ℤ) * α : ℝ) : ℂ)) *
      Complex.exp (-1 * Complex.I * (((((c : ℕ) : ℤ) - l : ℤ) * γ : ℝ) : ℂ)) by
    rw [← Complex.exp_add]; congr 1; push_cast; ring]
  push_cast
  ring

theorem U_inv (l : ℕ) : (U l)⁻¹ = (U l).conjTranspose := by
  refine Matrix.inv_eq_left_inv ?_
  ext s r
  rw [Matrix.mul_apply, Matrix.one_apply]
  have hr := r.2
  have hs := s.2
  have := Cmat_unitary l r s (by omega) (by omega)
  rw [← Fin.sum_univ_eq_sum_range (fun c => ((Cmat l).getD r []).getD c 0 * (starRingEnd ℂ) (((Cmat l).getD s []).getD c 0))] at this
  calc _ = ∑ c : Fin (2 * l + 1), ((Cmat l).getD r []).getD c 0 * (starRingEnd ℂ) (((Cmat l).getD s []).getD c 0) := by
        refine Finset.sum_congr rfl fun c _ => ?_
        have hc := c.2
        rw [Cmat_Umn l r c (by omega) (by omega), Cmat_Umn l s c (by omega) (by omega), Matrix.conjTranspose_apply, mul_comm]
        rfl
    _ = _ := by
        rw [this]
        simp only [Fin.ext_iff, eq_comm]

/-- the matrix `D` for a given angle `β` -/
noncomputable def Dw (l : ℕ) (α β γ : ℝ) : Matrix (Fin (2 * l + 1)) (Fin (2 * l + 1)) ℂ :=
  Matrix.of fun r c => Complex.exp (-1 * Complex.I * (((((r : ℕ) : ℤ) - l : ℤ) * α : ℝ) : ℂ)) *
      (((√(((c : ℕ).factorial : ℝ) * ((2 * l - c).factorial : ℝ) * (((r : ℕ).factorial : ℝ) * ((2 * l - r).factorial : ℝ))) *
        wsum (2 * l) (cos (β / 2)) (sin (β / 2)) r c : ℝ)) : ℂ) *
      Complex.exp (-1 * Complex.I * (((((c : ℕ) : ℤ) - l : ℤ) * γ : ℝ) : ℂ))

theorem D_eq (dps l : ℕ) (α β γ : ℝ) : D dps l α β γ = Dw l α (dmnBeta dps β) γ := by
  ext r c
  rw [D_entry]
  rfl

/-- the matrix before small entries are removed -/
noncomputable def fooMat (l : ℕ) (α β γ : ℝ) (m n : ℕ) : ℝ :=
  if h : m < 2 * l + 1 ∧ n < 2 * l + 1 then (((U l)⁻¹ * Dw l α β γ * U l) ⟨m, h.1⟩ ⟨n, h.2⟩).re else 0

theorem fooMat_harmonic (l : ℕ) (α β γ : ℝ) (r : ℕ) (hr : r ≤ 2 * l) (p : V3) (hp : OnSphere p) :
    (fun q : V3 => realHarmonic l ((r : ℤ) - l) q.1 q.2.1 q.2.2) (rotZ α (rotY β (rotZ γ p))) =
      ∑ c ∈ Finset.range (2 * l + 1), fooMat l α β γ r c * realHarmonic l ((c : ℤ) - l) p.1 p.2.1 p.2.2 := by
  have hz := rotZ_sphere γ hp
  have hd := symPow_wsum (2 * l) (cos (β / 2)) (sin (β / 2))
  have hT : ∀ a : Fin (2 * l + 1), (kap l : ℂ) * hC l (((a : ℕ) : ℤ) - l) (rotZ α (rotY β (rotZ γ p))) =
      ∑ b : Fin (2 * l + 1), Dw l α β γ a b * ((kap l : ℂ) * hC l (((b : ℕ) : ℤ) - l) p) := by
    intro a
    have ha := a.2
    rw [hC_rotZ, hC_rotY l _ _ hd _ hz a (by omega), Finset.mul_sum, Finset.mul_sum,
      ← Fin.sum_univ_eq_sum_range (fun b => (kap l : ℂ) * _)]
    refine Finset.sum_congr rfl fun b _ => ?_
    rw [hC_rotZ, Dw, Matrix.of_apply]
    ring
  have key : (((fun q : V3 => realHarmonic l ((r : ℤ) - l) q.1 q.2.1 q.2.2) (rotZ α (rotY β (rotZ γ p))) : ℝ) : ℂ) =
      ∑ c : Fin (2 * l + 1), ((U l).conjTranspose * Dw l α β γ * U l) ⟨r, by omega⟩ c *
        (realHarmonic l (((c : ℕ) : ℤ) - l) p.1 p.2.1 p.2.2 : ℂ) := by
    have h1 : ∀ b : Fin (2 * l + 1), ∑ c : Fin (2 * l + 1), U l b c * (realHarmonic l (((c : ℕ) : ℤ) - l) p.1 p.2.1 p.2.2 : ℂ) =
        (kap l : ℂ) * hC l (((b : ℕ) : ℤ) - l) p := by
      intro b
      have hb := b.2
      rw [← U_forward l (((b : ℕ) : ℤ) - l) (by omega), ← Fin.sum_univ_eq_sum_range (fun c => Umn (((b : ℕ) : ℤ) - l) ((c : ℤ) - l) * _)]
      rfl
    have h2 : (((fun q : V3 => realHarmonic l ((r : ℤ) - l) q.1 q.2.1 q.2.2) (rotZ α (rotY β (rotZ γ p))) : ℝ) : ℂ) =
        ∑ a : Fin (2 * l + 1), (U l).conjTranspose ⟨r, by omega⟩ a * ((kap l : ℂ) * hC l (((a : ℕ) : ℤ) - l) (rotZ α (rotY β (rotZ γ p)))) := by
      rw [show ((fun q : V3 => realHarmonic l ((r : ℤ) - l) q.1 q.2.1 q.2.2) (rotZ α (rotY β (rotZ γ p)))) =
        realHarmonic l ((r : ℤ) - l) (rotZ α (rotY β (rotZ γ p))).1 (rotZ α (rotY β (rotZ γ p))).2.1
          (rotZ α (rotY β (rotZ γ p))).2.2 from rfl, ← U_adjoint l ((r : ℤ) - l) (by omega),
        ← Fin.sum_univ_eq_sum_range (fun a => (starRingEnd ℂ) (Umn ((a : ℤ) - l) ((r : ℤ) - l)) * _)]
      rfl
    have h3 : (fun a : Fin (2 * l + 1) => (kap l : ℂ) * hC l (((a : ℕ) : ℤ) - l) (rotZ α (rotY β (rotZ γ p)))) =
        (Dw l α β γ).mulVec ((U l).mulVec fun c => (realHarmonic l (((c : ℕ) : ℤ) - l) p.1 p.2.1 p.2.2 : ℂ)) := by
      funext a
      rw [hT a]
      refine Finset.sum_congr rfl fun b _ => ?_
      rw [← h1 b]
      rfl
    rw [h2]
    change (U l).conjTranspose.mulVec (fun a : Fin (2 * l + 1) => (kap l : ℂ) * hC l (((a : ℕ) : ℤ) - l) (rotZ α (rotY β (rotZ γ p)))) ⟨r, by omega⟩ =
      ((U l).conjTranspose * Dw l α β γ * U l).mulVec (fun c => (realHarmonic l (((c : ℕ) : ℤ) - l) p.1 p.2.1 p.2.2 : ℂ)) ⟨r, by omega⟩
    rw [h3, Matrix.mulVec_mulVec, Matrix.mulVec_mulVec, Matrix.mul_assoc]
  have := congrArg Complex.re key
  rw [Complex.ofReal_re] at this
  rw [this, Complex.re_sum, ← Fin.sum_univ_eq_sum_range (fun c => fooMat l α β γ r c * realHarmonic l ((c : ℤ) - l) p.1 p.2.1 p.2.2)]
  refine Finset.sum_congr rfl fun c _ => ?_
  rw [Complex.re_mul_ofReal, fooMat, dif_pos ⟨by omega, c.2⟩, U_inv]

theorem wsum_continuous (j r i : ℕ) : Continuous fun β : ℝ => wsum j (cos (β / 2)) (sin (β / 2)) r i := by
  unfold wsum
  refine continuous_finsetSum _ fun k _ => ?_
  split_ifs
  · fun_prop
  · exact continuous_const

theorem fooMat_continuous (l : ℕ) (α γ : ℝ) (m n : ℕ) : Continuous fun β => fooMat l α β γ m n := by
  unfold fooMat
  split_ifs with h
  · refine Complex.continuous_re.comp ?_
    have hD : Continuous fun β => Dw l α β γ := by
      refine continuous_matrix fun r c => ?_
      unfold Dw
      simp only [Matrix.of_apply]
      have := wsum_continuous (2 * l) r c
      fun_prop
    exact ((continuous_const.matrix_mul hD).matrix_mul continuous_const).matrix_elem _ _
  · exact continuous_const

/-! ### Euler angles -/

theorem arctan2_unit {x y : ℝ} (h : x ^ 2 + y ^ 2 = 1) : cos (arctan2 y x) = x ∧ sin (arctan2 y x) = y := by
  unfold arctan2
  have hn : ‖(⟨x, y⟩ : ℂ)‖ = 1 := by
    rw [Complex.norm_eq_sqrt_sq_add_sq, h, sqrt_one]
  have hne : (⟨x, y⟩ : ℂ) ≠ 0 := by intro h0; rw [h0] at hn; simp at hn
  constructor
  · rw [Complex.cos_arg hne, hn, div_one]
  · rw [Complex.sin_arg, hn, div_one]

/-- entries of the rotation matrix, as named in the code -/
theorem axis_matrix (u1 u2 u3 t : ℝ) (p : V3) : rotAxis (u1, u2, u3) t p =
    ((cos t + u1 * u1 * (1 - cos t)) * p.1 + (u1 * u2 * (1 - cos t) - u3 * sin t) * p.2.1 + (u1 * u3 * (1 - cos t) + u2 * sin t) * p.2.2,
     (u2 * u1 * (1 - cos t) + u3 * sin t) * p.1 + (cos t + u2 * u2 * (1 - cos t)) * p.2.1 + (u2 * u3 * (1 - cos t) - u1 * sin t) * p.2.2,
     (u3 * u1 * (1 - cos t) - u2 * sin t) * p.1 + (u3 * u2 * (1 - cos t) + u1 * sin t) * p.2.1 + (cos t + u3 * u3 * (1 - cos t)) * p.2.2) := by
  unfold rotAxis
  simp only [Prod.mk.injEq]
  refine ⟨by ring, by ring, by ring⟩

/-- an orthogonal matrix with determinant one and the angles read from it -/
theorem zyz_matrix {a00 a01 a02 a10 a11 a12 a20 a21 a22 S α β γ : ℝ} (hS : S ≠ 0)
    (c00 : a11 * a22 - a12 * a21 = a00) (c11 : a00 * a22 - a02 * a20 = a11) (c01 : a12 * a20 - a10 * a22 = a01)
    (c10 : a02 * a21 - a01 * a22 = a10) (hS2 : S ^ 2 = 1 - a22 ^ 2)
    (hca : cos α = a02 / S) (hsa : sin α = a12 / S) (hcb : cos β = a22) (hsb : sin β = S)
    (hcg : cos γ = -a20 / S) (hsg : sin γ = a21 / S) (p : V3) :
    rotZ α (rotY β (rotZ γ p)) = (a00 * p.1 + a01 * p.2.1 + a02 * p.2.2, a10 * p.1 + a11 * p.2.1 + a12 * p.2.2,
      a20 * p.1 + a21 * p.2.1 + a22 * p.2.2) := by
  have e00 : a02 / S * (a22 * (-a20 / S)) - a12 / S * (a21 / S) = a00 := by
    field_simp; rw [hS2]; linear_combination c00 + a22 * c11
  have e01 : -(a02 / S * (a22 * (a21 / S))) - a12 / S * (-a20 / S) = a01 := by
    field_simp; rw [hS2]; linear_combination c01 - a22 * c10
  have e10 : a12 / S * (a22 * (-a20 / S)) + a02 / S * (a21 / S) = a10 := by
    field_simp; rw [hS2]; linear_combination c10 - a22 * c01
  have e11 : -(a12 / S * (a22 * (a21 / S))) + a02 / S * (-a20 / S) = a11 := by
    field_simp; rw [hS2]; linear_combination c11 + a22 * c00
  unfold rotZ rotY
  simp only [hca, hsa, hcb, hsb, hcg, hsg, Prod.mk.injEq]
  have s1 : a02 / S * S = a02 := by field_simp
  have s2 : a12 / S * S = a12 := by field_simp
  have s3 : S * (-a20 / S) = -a20 := by field_simp
  have s4 : S * (a21 / S) = a21 := by field_simp
  refine ⟨?_, ?_, ?_⟩
  · linear_combination p.1 * e00 + p.2.1 * e01 + p.2.2 * s1
  · linear_combination p.1 * e10 + p.2.1 * e11 + p.2.2 * s2
  · linear_combination -p.1 * s3 + p.2.1 * s4

/-- the angle used: `theta`, or `1e-20` if it is zero -/
noncomputable def mpTheta (theta : ℝ) : ℝ := if theta = 0 then 1e-20 else theta

theorem mpTheta_cos (theta : ℝ) : cos (mpTheta theta) = 1 ↔ theta ≠ 0 ∧ cos theta = 1 := by
  unfold mpTheta
  split_ifs with h
  · simp only [h, ne_eq, not_true_eq_false, false_and, iff_false]
    have : cos (1e-20 : ℝ) < cos 0 := cos_lt_cos_of_nonneg_of_le_pi le_rfl (by linarith [pi_gt_three]) (by norm_num)
    rw [cos_zero] at this
    exact this.ne
  · simp [h]

theorem mpTheta_cos_neg (theta : ℝ) : cos (mpTheta theta) = -1 ↔ cos theta = -1 := by
  unfold mpTheta
  split_ifs with h
  · have h1 : 0 < cos (1e-20 : ℝ) := cos_pos_of_mem_Ioo ⟨by linarith [pi_gt_three], by linarith [pi_gt_three]⟩
    rw [h, cos_zero]
    constructor <;> intro h <;> linarith
  · rfl

/-- the two guarded branches are never taken -/
theorem axisAngle_unfold (u1 u2 u3 theta : ℝ) (v1 v2 : ℝ) (h1 : v1 = if u1 = 0 ∧ u2 = 0 then 1e-20 else u1)
    (h2 : v2 = if u1 = 0 ∧ u2 = 0 then 1e-20 else u2) :
    let c := cos (mpTheta theta)
    let s := sin (mpTheta theta)
    let RA02 := v1 * u3 * (1 - c) + v2 * s
    let RA12 := v2 * u3 * (1 - c) - v1 * s
    let RA20 := u3 * v1 * (1 - c) - v2 * s
    let RA21 := u3 * v2 * (1 - c) + v1 * s
    let RA22 := c + u3 * u3 * (1 - c)
    let n1 := √(RA20 * RA20 + RA21 * RA21)
    let n2 := √(RA02 * RA02 + RA12 * RA12)
    axisAngleToEuler u1 u2 u3 theta =
      if n1 = 0 ∨ n2 = 0 then .error (.valueError "ZeroDivisionError") else
        .ok (arctan2 (RA12 / n2) (RA02 / n2), arctan2 √(1 - RA22 ^ 2) RA22, arctan2 (RA21 / n1) (-RA20 / n1)) := by
  intro c s RA02 RA12 RA20 RA21 RA22 n1 n2
  unfold axisAngleToEuler
  simp only [← h1, ← h2]
  rw [if_neg (by intro h; linarith [h.1, h.2]), if_neg (by intro h; linarith [h.1, h.2])]
  change (do
    let cosgamma ← divZ (-RA20) n1
    let singamma ← divZ RA21 n1
    let cosalpha ← divZ RA02 n2
    let sinalpha ← divZ RA12 n2
    return (arctan2 sinalpha cosalpha, arctan2 √(1 - RA22 ^ 2) RA22, arctan2 singamma cosgamma) : Except PyErr (ℝ × ℝ × ℝ)) = _
  unfold divZ
  by_cases h3 : n1 = 0
  · rw [if_pos h3, if_pos (Or.inl h3)]; rfl
  · by_cases h4 : n2 = 0
    · rw [if_neg h3, if_neg h3, if_pos h4, if_pos (Or.inr h4)]; rfl
    · rw [if_neg h3, if_neg h3, if_neg h4, if_neg h4, if_neg (by tauto)]; rfl

/-- the norms for a unit axis -/
theorem axis_norms {u1 u2 u3 c s : ℝ} (hn : u1 ^ 2 + u2 ^ 2 + u3 ^ 2 = 1) (hcs : c ^ 2 + s ^ 2 = 1) :
    (u3 * u1 * (1 - c) - u2 * s) * (u3 * u1 * (1 - c) - u2 * s) + (u3 * u2 * (1 - c) + u1 * s) * (u3 * u2 * (1 - c) + u1 * s) =
      1 - (c + u3 * u3 * (1 - c)) ^ 2 ∧
    (u1 * u3 * (1 - c) + u2 * s) * (u1 * u3 * (1 - c) + u2 * s) + (u2 * u3 * (1 - c) - u1 * s) * (u2 * u3 * (1 - c) - u1 * s) =
      1 - (c + u3 * u3 * (1 - c)) ^ 2 ∧
    1 - (c + u3 * u3 * (1 - c)) ^ 2 = (1 - c) * (u1 ^ 2 + u2 ^ 2) * (1 + c + u3 ^ 2 * (1 - c)) := by
  have hs : s ^ 2 = 1 - c ^ 2 := by linarith
  have hu : u1 ^ 2 + u2 ^ 2 = 1 - u3 ^ 2 := by linarith
  have e1 : (u3 * u1 * (1 - c) - u2 * s) * (u3 * u1 * (1 - c) - u2 * s) + (u3 * u2 * (1 - c) + u1 * s) * (u3 * u2 * (1 - c) + u1 * s) =
    (u1 ^ 2 + u2 ^ 2) * (u3 ^ 2 * (1 - c) ^ 2 + s ^ 2) := by ring
  have e2 : (u1 * u3 * (1 - c) + u2 * s) * (u1 * u3 * (1 - c) + u2 * s) + (u2 * u3 * (1 - c) - u1 * s) * (u2 * u3 * (1 - c) - u1 * s) =
    (u1 ^ 2 + u2 ^ 2) * (u3 ^ 2 * (1 - c) ^ 2 + s ^ 2) := by ring
  rw [e1, e2, hs, hu]
  refine ⟨by ring, by ring, by ring⟩

/-- an axis other than the z axis -/
theorem axisAngle_generic {u1 u2 u3 theta : ℝ} (hn : u1 ^ 2 + u2 ^ 2 + u3 ^ 2 = 1) (hz : ¬ (u1 = 0 ∧ u2 = 0))
    (h1 : cos (mpTheta theta) ≠ 1) (h2 : ¬ (u3 = 0 ∧ cos (mpTheta theta) = -1)) :
    ∃ α β γ, axisAngleToEuler u1 u2 u3 theta = .ok (α, β, γ) ∧ 0 < β ∧ β < π ∧
      ∀ p, rotZ α (rotY β (rotZ γ p)) = rotAxis (u1, u2, u3) (mpTheta theta) p := by
  have hcs : cos (mpTheta theta) ^ 2 + sin (mpTheta theta) ^ 2 = 1 := cos_sq_add_sin_sq _
  obtain ⟨n1, n2, n3⟩ := axis_norms hn hcs
  have hc1 := cos_le_one (mpTheta theta)
  have hc2 := neg_one_le_cos (mpTheta theta)
  have hpos : 0 < 1 - (cos (mpTheta theta) + u3 * u3 * (1 - cos (mpTheta theta))) ^ 2 := by
    rw [n3]
    have a1 : 0 < 1 - cos (mpTheta theta) := by rcases hc1.lt_or_eq with h | h; linarith; exact absurd h h1
    have a2 : 0 < u1 ^ 2 + u2 ^ 2 := by
      by_contra h
      have h3 : u1 ^ 2 = 0 := by nlinarith [sq_nonneg u1, sq_nonneg u2]
      have h4 : u2 ^ 2 = 0 := by nlinarith [sq_nonneg u1, sq_nonneg u2]
      exact hz ⟨by simpa using h3, by simpa using h4⟩
    have a3 : 0 < 1 + cos (mpTheta theta) + u3 ^ 2 * (1 - cos (mpTheta theta)) := by
      rcases hc2.lt_or_eq with h | h
      · have := mul_nonneg (sq_nonneg u3) a1.le; linarith
      · have : u3 ≠ 0 := fun h3 => h2 ⟨h3, h.symm⟩
        have := mul_pos (pow_pos (abs_pos.2 this) 2) a1
        rw [sq_abs] at this
        linarith
    positivity
  have hS : √(1 - (cos (mpTheta theta) + u3 * u3 * (1 - cos (mpTheta theta))) ^ 2) ≠ 0 := (sqrt_pos.2 hpos).ne'
  have hS2 : √(1 - (cos (mpTheta theta) + u3 * u3 * (1 - cos (mpTheta theta))) ^ 2) ^ 2 =
    1 - (cos (mpTheta theta) + u3 * u3 * (1 - cos (mpTheta theta))) ^ 2 := sq_sqrt hpos.le
  have hunf := axisAngle_unfold u1 u2 u3 theta u1 u2 (by rw [if_neg hz]) (by rw [if_neg hz])
  simp only at hunf
  rw [n1, n2, if_neg (by tauto)] at hunf
  refine ⟨_, _, _, hunf, ?_, ?_, ?_⟩
  all_goals
    have hSp := sqrt_pos.2 hpos
    generalize √(1 - (cos (mpTheta theta) + u3 * u3 * (1 - cos (mpTheta theta))) ^ 2) = S at *
    have hb := arctan2_unit (x := cos (mpTheta theta) + u3 * u3 * (1 - cos (mpTheta theta))) (y := S) (by linarith)
  · unfold arctan2
    refine lt_of_le_of_ne (Complex.arg_nonneg_iff.2 hSp.le) fun h => ?_
    have := Complex.arg_eq_zero_iff.1 h.symm
    exact hS this.2
  · unfold arctan2
    refine lt_of_le_of_ne (Complex.arg_le_pi _) fun h => ?_
    have := Complex.arg_eq_pi_iff.1 h
    exact hS this.2
  · intro p
    have hg := arctan2_unit (x := -(u3 * u1 * (1 - cos (mpTheta theta)) - u2 * sin (mpTheta theta)) / S)
      (y := (u3 * u2 * (1 - cos (mpTheta theta)) + u1 * sin (mpTheta theta)) / S) (by field_simp; rw [hS2]; linarith)
    have ha := arctan2_unit (x := (u1 * u3 * (1 - cos (mpTheta theta)) + u2 * sin (mpTheta theta)) / S)
      (y := (u2 * u3 * (1 - cos (mpTheta theta)) - u1 * sin (mpTheta theta)) / S) (by field_simp; rw [hS2]; linarith)
    rw [axis_matrix]
    refine zyz_matrix hS ?_ ?_ ?_ ?_ hS2 ha.1 ha.2 hb.1 hb.2 hg.1 hg.2 p
    all_goals
      generalize cos (mpTheta theta) = c at *
      generalize sin (mpTheta theta) = s at *
    · linear_combination c * (1 - c) * hn + u1 ^ 2 * hcs
    · linear_combination c * (1 - c) * hn + u2 ^ 2 * hcs
    · linear_combination (-s * u3 * (1 - c)) * hn + u1 * u2 * hcs
    · linear_combination (s * u3 * (1 - c)) * hn + u1 * u2 * hcs

/-- the z axis -/
theorem axisAngle_z {u3 theta : ℝ} (hn : u3 ^ 2 = 1) (h1 : cos (mpTheta theta) ≠ 1) :
    ∃ α γ, axisAngleToEuler 0 0 u3 theta = .ok (α, 0, γ) ∧ ∀ p, rotZ α (rotZ γ p) = rotAxis (0, 0, u3) (mpTheta theta) p := by
  have hcs : cos (mpTheta theta) ^ 2 + sin (mpTheta theta) ^ 2 = 1 := cos_sq_add_sin_sq _
  have hc1 := cos_le_one (mpTheta theta)
  have hunf := axisAngle_unfold 0 0 u3 theta 1e-20 1e-20 (by simp) (by simp)
  simp only at hunf
  generalize hc : cos (mpTheta theta) = c at *
  generalize hs : sin (mpTheta theta) = s at *
  have hk : 0 < 1 - c := by rcases hc1.lt_or_eq with h | h; linarith; exact absurd h h1
  have ht : (1e-20 : ℝ) ≠ 0 := by norm_num
  generalize (1e-20 : ℝ) = t at *
  have n1 : (u3 * t * (1 - c) - t * s) * (u3 * t * (1 - c) - t * s) + (u3 * t * (1 - c) + t * s) * (u3 * t * (1 - c) + t * s) = 4 * t ^ 2 * (1 - c) := by
    linear_combination 2 * t ^ 2 * (1 - c) ^ 2 * hn + 2 * t ^ 2 * hcs
  have n2 : (t * u3 * (1 - c) + t * s) * (t * u3 * (1 - c) + t * s) + (t * u3 * (1 - c) - t * s) * (t * u3 * (1 - c) - t * s) = 4 * t ^ 2 * (1 - c) := by
    linear_combination 2 * t ^ 2 * (1 - c) ^ 2 * hn + 2 * t ^ 2 * hcs
  have n3 : c + u3 * u3 * (1 - c) = 1 := by linear_combination (1 - c) * hn
  have hpos : 0 < 4 * t ^ 2 * (1 - c) := by positivity
  have hS : √(4 * t ^ 2 * (1 - c)) ≠ 0 := (sqrt_pos.2 hpos).ne'
  have hS2 : √(4 * t ^ 2 * (1 - c)) ^ 2 = 4 * t ^ 2 * (1 - c) := sq_sqrt hpos.le
  rw [n1, n2, n3, if_neg (by tauto)] at hunf
  generalize √(4 * t ^ 2 * (1 - c)) = S at *
  have hb : arctan2 √(1 - 1 ^ 2) 1 = 0 := by
    unfold arctan2
    rw [Complex.arg_eq_zero_iff]
    simp
  rw [hb] at hunf
  refine ⟨_, _, hunf, fun p => ?_⟩
  have hg := arctan2_unit (x := -(u3 * t * (1 - c) - t * s) / S) (y := (u3 * t * (1 - c) + t * s) / S) (by field_simp; rw [hS2]; linarith)
  have ha := arctan2_unit (x := (t * u3 * (1 - c) + t * s) / S) (y := (t * u3 * (1 - c) - t * s) / S) (by field_simp; rw [hS2]; linarith)
  have e1 : (t * u3 * (1 - c) + t * s) / S * (-(u3 * t * (1 - c) - t * s) / S) - (t * u3 * (1 - c) - t * s) / S * ((u3 * t * (1 - c) + t * s) / S) = c := by
    field_simp; rw [hS2]; field_simp; linear_combination -2 * (1 - c) ^ 2 * hn + 2 * hcs
  have e2 : (t * u3 * (1 - c) - t * s) / S * (-(u3 * t * (1 - c) - t * s) / S) + (t * u3 * (1 - c) + t * s) / S * ((u3 * t * (1 - c) + t * s) / S) = u3 * s := by
    field_simp; rw [hS2]; field_simp; ring
  rw [axis_matrix, hc, hs]
  unfold rotZ
  simp only [ha.1, ha.2, hg.1, hg.2, Prod.mk.injEq]
  refine ⟨?_, ?_, ?_⟩
  · linear_combination p.1 * e1 - p.2.1 * e2
  · linear_combination p.1 * e2 + p.2.1 * e1
  · linear_combination -(1 - c) * p.2.2 * hn

/-- no angles are found, `ZeroDivisionError` -/
theorem axisAngle_error {u1 u2 u3 theta : ℝ}
    (h : cos (mpTheta theta) = 1 ∨ (u3 = 0 ∧ cos (mpTheta theta) = -1)) :
    axisAngleToEuler u1 u2 u3 theta = .error (.valueError "ZeroDivisionError") := by
  have hcs : cos (mpTheta theta) ^ 2 + sin (mpTheta theta) ^ 2 = 1 := cos_sq_add_sin_sq _
  have hunf := axisAngle_unfold u1 u2 u3 theta _ _ rfl rfl
  simp only at hunf
  rw [hunf, if_pos]
  left
  have hs : sin (mpTheta theta) = 0 := by
    rcases h with h | h
    · rw [h] at hcs; simpa using hcs
    · rw [h.2] at hcs; simpa using hcs
  rw [hs]
  rcases h with h | h
  · rw [h]; simp
  · rw [h.1]; simp

end Jaxoplanet.Starry.Mp
