import Verif.Proofs.QuadraticNode

/-! Sums in floating-point arithmetic, and the computed line integral. -/

namespace Jaxoplanet.LimbDarkFloat

open Real KeplerFloat LimbDark Spec MeasureTheory
open _root_.Jaxoplanet.Starry.Spec (quadSum IsGaussLegendre)
open Gauss

theorem FloatSum.length_pos {u : ℝ} {l : List ℝ} {x : ℝ} (h : FloatSum u l x) : 0 < l.length := by
  induction h with
  | single => simp
  | add _ _ _ h1 _ => rw [List.length_append]; omega
  | perm _ hp ih => rw [← hp.length_eq]; exact ih

theorem FloatSum.error {u : ℝ} (hu0 : 0 ≤ u) {l : List ℝ} {x : ℝ} (h : FloatSum u l x) :
    |x - l.sum| ≤ ((1 + u) ^ l.length - 1) * (l.map abs).sum := by
  induction h with
  | single x => simp; positivity
  | @add l m x y z hl hm hz h1 h2 =>
    rw [List.sum_append, List.map_append, List.sum_append, List.length_append, pow_add]
    have p1 : 1 + u ≤ (1 + u) ^ l.length := le_self_pow₀ (by linarith) hl.length_pos.ne'
    have p2 : 1 + u ≤ (1 + u) ^ m.length := le_self_pow₀ (by linarith) hm.length_pos.ne'
    have s1 : |l.sum| ≤ (l.map abs).sum := List.le_sum_of_subadditive _ (le_of_eq abs_zero) (fun a b => abs_add_le a b) l
    have s2 : |m.sum| ≤ (m.map abs).sum := List.le_sum_of_subadditive _ (le_of_eq abs_zero) (fun a b => abs_add_le a b) m
    have a1 := (abs_nonneg _).trans s1
    have a2 := (abs_nonneg _).trans s2
    generalize (1 + u) ^ l.length = ρ at *
    generalize (1 + u) ^ m.length = σ at *
    generalize (l.map abs).sum = A at *
    generalize (m.map abs).sum = B at *
    have hz' : |z - (x + y)| ≤ u * |x + y| := hz
    have h3 : |x + y - (l.sum + m.sum)| ≤ (ρ - 1) * A + (σ - 1) * B := near_add h1 h2
    have h4 : |x + y| ≤ ρ * A + σ * B := by
      have := abs_sub_abs_le_abs_sub (x + y) (l.sum + m.sum)
      have := abs_add_le l.sum m.sum
      linarith
    have h5 := mul_le_mul_of_nonneg_left h4 hu0
    have h6 := abs_sub_le z (x + y) (l.sum + m.sum)
    have h7 : (1 + u) * (ρ * A) ≤ ρ * σ * A := by
      have := mul_le_mul_of_nonneg_right p2 (mul_nonneg (by linarith : 0 ≤ ρ) a1)
      linarith
    have h8 : (1 + u) * (σ * B) ≤ ρ * σ * B := by
      have := mul_le_mul_of_nonneg_right p1 (mul_nonneg (by linarith : 0 ≤ σ) a2)
      linarith
    linarith
  | perm _ hp ih => rwa [← hp.length_eq, ← hp.sum_eq, ← (hp.map abs).sum_eq]

theorem prods_error {u : ℝ} {l : List (ℝ × ℝ)} {ps : List ℝ} (h : List.Forall₂ (fun p q => Rnd u (p.1 * p.2) q) l ps) :
    ps.length = l.length ∧ |ps.sum - (l.map fun p => p.1 * p.2).sum| ≤ u * (l.map fun p => |p.1 * p.2|).sum ∧
      (ps.map abs).sum ≤ (1 + u) * (l.map fun p => |p.1 * p.2|).sum := by
  induction h with
  | nil => simp
  | @cons p q l ps h1 _ ih =>
    obtain ⟨i1, i2, i3⟩ := ih
    have h2 : |q - p.1 * p.2| ≤ u * |p.1 * p.2| := h1
    have h3 := h1.abs_le
    simp only [List.length_cons, List.map_cons, List.sum_cons, i1, true_and]
    constructor
    · have := near_add h2 i2
      linarith
    · linarith

theorem pow_le {u : ℝ} (hu0 : 0 ≤ u) {n : ℕ} (hn : n * u ≤ 1 / 2) : (1 + u) ^ n - 1 ≤ 2 * n * u := by
  rcases Nat.eq_zero_or_pos n with rfl | hpos
  · simp
  have hu1 : u ≤ 1 / 2 := by
    have : (1 : ℝ) ≤ n := by exact_mod_cast hpos
    nlinarith
  have h1 : 1 + n * (-u) ≤ (1 + -u) ^ n := one_add_mul_le_pow (by linarith) n
  have h2 : (1 + u) ^ n * (1 + -u) ^ n ≤ 1 := by
    rw [← mul_pow]
    exact pow_le_one₀ (by nlinarith) (by nlinarith)
  have h3 : 1 ≤ (1 + u) ^ n := one_le_pow₀ (by linarith)
  have h4 : (1 + u) ^ n * (1 - n * u) ≤ 1 := by
    have := mul_le_mul_of_nonneg_left h1 (by linarith : 0 ≤ (1 + u) ^ n)
    linarith
  have hnu : 0 ≤ n * u := by positivity
  have h5 : (1 - n * u) * (1 + 2 * (n * u)) ≥ 1 := by nlinarith
  have h6 : (1 + u) ^ n * (1 - n * u) ≤ (1 + 2 * (n * u)) * (1 - n * u) := by linarith
  have := le_of_mul_le_mul_right h6 (by linarith)
  linarith

/-- the error of a floating-point dot product -/
theorem FloatDot.error {u : ℝ} (hu0 : 0 ≤ u) {l : List (ℝ × ℝ)} {x : ℝ} (h : FloatDot u l x) (hn : (l.length + 1 : ℕ) * u ≤ 1 / 2) :
    |x - (l.map fun p => p.1 * p.2).sum| ≤ 2 * (l.length + 1 : ℕ) * u * (l.map fun p => |p.1 * p.2|).sum := by
  obtain ⟨ps, h1, h2⟩ := h
  obtain ⟨i1, i2, i3⟩ := prods_error h1
  have h3 := h2.error hu0
  rw [i1] at h3
  have h4 := pow_le hu0 hn
  rw [pow_succ] at h4
  have p1 : 1 ≤ (1 + u) ^ l.length := one_le_pow₀ (by linarith)
  have h5 := abs_sub_le x ps.sum (l.map fun p => p.1 * p.2).sum
  have hA : 0 ≤ (l.map fun p => |p.1 * p.2|).sum := List.sum_nonneg fun a ha => by
    obtain ⟨p, -, rfl⟩ := List.mem_map.1 ha; exact abs_nonneg _
  generalize (l.map fun p => |p.1 * p.2|).sum = A at *
  have h6 := mul_le_mul_of_nonneg_left i3 (by linarith : 0 ≤ (1 + u) ^ l.length - 1)
  have h7 := mul_le_mul_of_nonneg_right h4 hA
  linarith

/-- comparison of a computed table with the exact rule -/
theorem table_near {u : ℝ} {rule table : List (ℝ × ℝ)} {f B : ℝ → ℝ} {out : ℝ × ℝ → ℝ} (hu0 : 0 ≤ u) (hu : u ≤ 1e-6)
    (ht : List.Forall₂ (fun p q => Rnd u p.1 q.1 ∧ Rnd u p.2 q.2) rule table)
    (hw : ∀ p ∈ rule, 0 ≤ p.2) (hout : ∀ p ∈ rule, ∀ q, Rnd u p.1 q.1 → |out q - f p.1| ≤ B p.1 ∧ |out q| ≤ 2.1) :
    |((table.map fun q => (out q, q.2)).map fun p => p.1 * p.2).sum - quadSum rule f| ≤ quadSum rule (fun x => B x + 2.1 * u) ∧
      ((table.map fun q => (out q, q.2)).map fun p => |p.1 * p.2|).sum ≤ quadSum rule (fun _ => 2.2) := by
  induction ht with
  | nil => simp [quadSum]
  | @cons p q rule table h1 _ ih =>
    obtain ⟨i1, i2⟩ := ih (fun p hp => hw p (List.mem_cons_of_mem _ hp)) (fun p hp => hout p (List.mem_cons_of_mem _ hp))
    obtain ⟨o1, o2⟩ := hout p List.mem_cons_self q h1.1
    have w0 := hw p List.mem_cons_self
    have hq : |q.2 - p.2| ≤ u * p.2 := by
      have := Rnd.sub_abs h1.2
      rwa [abs_of_nonneg w0] at this
    have hq2 : |q.2| ≤ (1 + u) * p.2 := by
      have := h1.2.abs_le
      rwa [abs_of_nonneg w0] at this
    unfold quadSum at i1 i2 ⊢
    simp only [List.map_cons, List.sum_cons]
    have a1 : |out q * q.2 - p.2 * f p.1| ≤ p.2 * (B p.1 + 2.1 * u) := by
      rw [show out q * q.2 - p.2 * f p.1 = p.2 * (out q - f p.1) + out q * (q.2 - p.2) by ring]
      refine (abs_add_le _ _).trans ?_
      rw [abs_mul, abs_mul, abs_of_nonneg w0]
      have b1 := mul_le_mul_of_nonneg_left o1 w0
      have b2 := mul_le_mul o2 hq (abs_nonneg _) (by norm_num)
      linarith
    constructor
    · have := near_add a1 i1
      exact this
    · refine add_le_add ?_ i2
      rw [abs_mul]
      have b2 := mul_le_mul o2 hq2 (abs_nonneg _) (by norm_num)
      have b3 : u * p.2 ≤ 1e-6 * p.2 := mul_le_mul_of_nonneg_right hu w0
      norm_num at b2 b3 ⊢
      linarith

end Jaxoplanet.LimbDarkFloat
