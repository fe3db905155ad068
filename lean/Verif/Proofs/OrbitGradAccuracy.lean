import Verif.Props.OrbitGrad
import Verif.Props.KeplerJvp

/-!
# Derivatives of Keplerian orbits with the program's own solver: propagation of the error of the solver
-/

namespace Jaxoplanet.Keplerian
open Real AD AD.Dual

theorem mul_near {f g f' g' F G L K : ℝ} (hf : |f| ≤ F) (hg : |g'| ≤ G) (h1 : |f - f'| ≤ L) (h2 : |g - g'| ≤ K) :
    |f * g - f' * g'| ≤ F * K + L * G := by
  rw [show f * g - f' * g' = f * (g - g') + (f - f') * g' by ring]
  refine (abs_add_le _ _).trans ?_
  rw [abs_mul, abs_mul]
  exact add_le_add (mul_le_mul hf h2 (abs_nonneg _) ((abs_nonneg _).trans hf)) (mul_le_mul h1 hg (abs_nonneg _) ((abs_nonneg _).trans h1))

theorem abs_mul_le' {f g F G : ℝ} (hf : |f| ≤ F) (hg : |g| ≤ G) : |f * g| ≤ F * G := by
  rw [abs_mul]
  exact mul_le_mul hf hg (abs_nonneg _) ((abs_nonneg _).trans hf)

/-- two numbers with derivatives whose values differ by at most `V` and whose derivatives differ by at most `U` -/
def NearD (V U : ℝ) (a b : Dual) : Prop := |a.v - b.v| ≤ V ∧ ∃ x y, a.d = some x ∧ b.d = some y ∧ |x - y| ≤ U

theorem nearD_scale {V U A B κ : ℝ} {k a b : Dual} (hk : k.d = some κ) (hA : |k.v| ≤ A) (hB : |κ| ≤ B) (h : NearD V U a b) :
    NearD (A * V) (A * U + B * V) (k * a) (k * b) := by
  obtain ⟨h1, x, y, hx, hy, h2⟩ := h
  refine ⟨?_, a.v * κ + k.v * x, b.v * κ + k.v * y, ?_, ?_, ?_⟩
  · rw [mul_v, mul_v, ← mul_sub]
    exact abs_mul_le' hA h1
  · change plus (lin (some a.v) k.d) (lin (some k.v) a.d) = _
    rw [hk, hx]; rfl
  · change plus (lin (some b.v) k.d) (lin (some k.v) b.d) = _
    rw [hk, hy]; rfl
  · rw [show a.v * κ + k.v * x - (b.v * κ + k.v * y) = k.v * (x - y) + κ * (a.v - b.v) by ring]
    exact (abs_add_le _ _).trans (add_le_add (abs_mul_le' hA h2) (abs_mul_le' hB h1))

theorem nearD_add {V U V' U' : ℝ} {a b a' b' : Dual} (h : NearD V U a b) (h' : NearD V' U' a' b') : NearD (V + V') (U + U') (a + a') (b + b') := by
  obtain ⟨h1, x, y, hx, hy, h2⟩ := h
  obtain ⟨h1', x', y', hx', hy', h2'⟩ := h'
  refine ⟨?_, x + x', y + y', ?_, ?_, ?_⟩
  · rw [add_v, add_v, add_sub_add_comm]
    exact (abs_add_le _ _).trans (add_le_add h1 h1')
  · change plus a.d a'.d = _
    rw [hx, hx']; rfl
  · change plus b.d b'.d = _
    rw [hy, hy']; rfl
  · rw [add_sub_add_comm]
    exact (abs_add_le _ _).trans (add_le_add h2 h2')

theorem nearD_sub {V U V' U' : ℝ} {a b a' b' : Dual} (h : NearD V U a b) (h' : NearD V' U' a' b') : NearD (V + V') (U + U') (a - a') (b - b') := by
  obtain ⟨h1, x, y, hx, hy, h2⟩ := h
  obtain ⟨h1', x', y', hx', hy', h2'⟩ := h'
  refine ⟨?_, x + -1 * x', y + -1 * y', ?_, ?_, ?_⟩
  · rw [sub_v, sub_v, sub_sub_sub_comm]
    exact (abs_sub _ _).trans (add_le_add h1 h1')
  · change plus a.d (lin (some (-1)) a'.d) = _
    rw [hx, hx']; rfl
  · change plus b.d (lin (some (-1)) b'.d) = _
    rw [hy, hy']; rfl
  · rw [show x + -1 * x' - (y + -1 * y') = (x - y) - (x' - y') by ring]
    exact (abs_sub _ _).trans (add_le_add h2 h2')

theorem nearD_neg {V U : ℝ} {a b : Dual} (h : NearD V U a b) : NearD V U (-a) (-b) := by
  obtain ⟨h1, x, y, hx, hy, h2⟩ := h
  refine ⟨?_, -1 * x, -1 * y, ?_, ?_, ?_⟩
  · rw [neg_v, neg_v, neg_sub_neg, abs_sub_comm]
    exact h1
  · change lin (some (-1)) a.d = _
    rw [hx]; rfl
  · change lin (some (-1)) b.d = _
    rw [hy]; rfl
  · rw [show -1 * x - -1 * y = y - x by ring, abs_sub_comm]
    exact h2

theorem nearD_mono {V U V' U' : ℝ} {a b : Dual} (h : NearD V U a b) (hV : V ≤ V') (hU : U ≤ U') : NearD V' U' a b := by
  obtain ⟨h1, x, y, hx, hy, h2⟩ := h
  exact ⟨h1.trans hV, x, y, hx, hy, h2.trans hU⟩

/-- a factor of the rotations: at most one, with a derivative of at most `τ` -/
def Turn (τ : ℝ) (k : Dual) : Prop := |k.v| ≤ 1 ∧ ∃ κ, k.d = some κ ∧ |κ| ≤ τ

theorem Turn.neg {τ : ℝ} {k : Dual} (h : Turn τ k) : Turn τ (-k) := by
  obtain ⟨h1, κ, h2, h3⟩ := h
  refine ⟨by rwa [neg_v, abs_neg], -1 * κ, ?_, by rwa [neg_one_mul, abs_neg]⟩
  change lin (some (-1)) k.d = _
  rw [h2]; rfl

theorem nearD_turn {V U τ : ℝ} {k a b : Dual} (hk : Turn τ k) (h : NearD V U a b) : NearD V (U + τ * V) (k * a) (k * b) := by
  obtain ⟨h1, κ, h2, h3⟩ := hk
  have := nearD_scale h2 h1 h3 h
  rwa [one_mul, one_mul] at this

/-- a vector with derivatives -/
structure NearV (V U : ℝ) (a b : V3D) : Prop where
  x : NearD V U a.x b.x
  y : NearD V U a.y b.y
  z : NearD V U a.z b.z

/-- the three rotations of an orbit -/
structure Turns (τ : ℝ) (o : OrbitalBodyD) : Prop where
  cosi : Turn τ o.cos_inclination
  sini : Turn τ o.sin_inclination
  peri : ∀ k, o.ecc = some k → Turn τ k.sinw ∧ Turn τ k.cosw
  node : ∀ n, o.node = some n → Turn τ n.1 ∧ Turn τ n.2

theorem rotate_near {V U τ : ℝ} (hV : 0 ≤ V) (hU : 0 ≤ U) (hτ : 0 ≤ τ) {o : OrbitalBodyD} (h : Turns τ o) {x y x' y' : Dual} (hx : NearD V U x x')
    (hy : NearD V U y y') (i : Bool) : NearV (4 * V) (4 * U + 12 * τ * V) (o.rotateVector x y i) (o.rotateVector x' y' i) := by
  have hτV : 0 ≤ τ * V := by positivity
  have hp : NearD (2 * V) (2 * U + 2 * (τ * V)) (rotateOmegaD o.ecc x y).1 (rotateOmegaD o.ecc x' y').1 ∧
      NearD (2 * V) (2 * U + 2 * (τ * V)) (rotateOmegaD o.ecc x y).2 (rotateOmegaD o.ecc x' y').2 := by
    unfold rotateOmegaD
    cases hk : o.ecc with
    | none => exact ⟨nearD_mono hx (by linarith) (by linarith), nearD_mono hy (by linarith) (by linarith)⟩
    | some k =>
      obtain ⟨ks, kc⟩ := h.peri k hk
      exact ⟨nearD_mono (nearD_sub (nearD_turn kc hx) (nearD_turn ks hy)) (by linarith) (by linarith),
        nearD_mono (nearD_add (nearD_turn ks hx) (nearD_turn kc hy)) (by linarith) (by linarith)⟩
  obtain ⟨h1, h2⟩ := hp
  set p := rotateOmegaD o.ecc x y
  set p' := rotateOmegaD o.ecc x' y'
  have key : ∀ {a b c a' b' c' : Dual}, NearD (2 * V) (2 * U + 4 * (τ * V)) a a' → NearD (2 * V) (2 * U + 4 * (τ * V)) b b' →
      NearD (2 * V) (2 * U + 4 * (τ * V)) c c' → NearV (4 * V) (4 * U + 12 * τ * V) (rotateNodeD o.node a b c) (rotateNodeD o.node a' b' c') := by
    intro a b c a' b' c' ha hb hc
    unfold rotateNodeD
    cases hn : o.node with
    | none => exact ⟨nearD_mono ha (by linarith) (by linarith), nearD_mono hb (by linarith) (by linarith), nearD_mono hc (by linarith) (by linarith)⟩
    | some n =>
      obtain ⟨n1, n2⟩ := h.node n hn
      exact ⟨nearD_mono (nearD_sub (nearD_turn n2 ha) (nearD_turn n1 hb)) (by linarith) (by linarith),
        nearD_mono (nearD_add (nearD_turn n1 ha) (nearD_turn n2 hb)) (by linarith) (by linarith), nearD_mono hc (by linarith) (by linarith)⟩
  unfold OrbitalBodyD.rotateVector
  split_ifs
  · exact key (nearD_mono h1 le_rfl (by linarith)) (nearD_mono (nearD_turn h.cosi h2) le_rfl (by linarith))
      (nearD_mono (nearD_turn h.sini.neg h2) le_rfl (by linarith))
  · exact key (nearD_mono h1 le_rfl (by linarith)) (nearD_mono h2 le_rfl (by linarith)) (nearD_mono (nearD_neg h2) le_rfl (by linarith))

/-! ## The position in the plane of the orbit -/

theorem ecc_slope {e c : ℝ} (he0 : 0 ≤ e) (he : e < 1) (bc : |c| ≤ 1) : |2 * e + c + e ^ 2 * c| ≤ 4 := by
  have h1 : e ^ 2 ≤ 1 := by nlinarith
  have h2 : |e ^ 2 * c| ≤ 1 * 1 := abs_mul_le' (by rwa [abs_of_nonneg (sq_nonneg e)]) bc
  have h3 := abs_add_le (2 * e + c) (e ^ 2 * c)
  have h4 := abs_add_le (2 * e) c
  rw [abs_of_nonneg (by linarith : 0 ≤ 2 * e)] at h4
  linarith

section plane
variable {e s c s' c' ε ds dc ds' dc' δ H T i i' K u : ℝ}

theorem plane_q (hu : 0 ≤ u) (i0 : 0 < i) (i0' : 0 < i') (iK : i ≤ K) (iK' : i' ≤ K) (di : |i - i'| ≤ K ^ 2 * δ) (hK : 0 < K) (hδ : 0 ≤ δ) (hu2 : u * K ≤ 2) :
    |u * i| ≤ 2 ∧ |u * i'| ≤ 2 ∧ |u * i - u * i'| ≤ 2 * (K * δ) ∧ |u * i * i| ≤ 2 * K ∧ |u * i' * i'| ≤ 2 * K ∧
      |u * i * i - u * i' * i'| ≤ 4 * K ^ 2 * δ := by
  have ai : |i| ≤ K := by rwa [abs_of_pos i0]
  have ai' : |i'| ≤ K := by rwa [abs_of_pos i0']
  have q2 : |u * i| ≤ 2 := by
    rw [abs_of_nonneg (mul_nonneg hu i0.le)]
    exact (mul_le_mul_of_nonneg_left iK hu).trans hu2
  have q2' : |u * i'| ≤ 2 := by
    rw [abs_of_nonneg (mul_nonneg hu i0'.le)]
    exact (mul_le_mul_of_nonneg_left iK' hu).trans hu2
  have dq : |u * i - u * i'| ≤ 2 * (K * δ) := by
    rw [← mul_sub, abs_mul, abs_of_nonneg hu]
    refine (mul_le_mul_of_nonneg_left di hu).trans ?_
    rw [show u * (K ^ 2 * δ) = u * K * (K * δ) by ring]
    exact mul_le_mul_of_nonneg_right hu2 (by positivity)
  exact ⟨q2, q2', dq, abs_mul_le' q2 ai, abs_mul_le' q2' ai', (mul_near q2 ai' dq di).trans (le_of_eq (by ring))⟩

theorem plane_value (q2 : |u * i| ≤ 2) (dq : |u * i - u * i'| ≤ 2 * (K * δ)) (hK1 : 1 ≤ K) (hδ : 0 ≤ δ) {x x' : ℝ} (hx' : |x'| ≤ 1) (hd : |x - x'| ≤ δ) :
    |u * i * x - u * i' * x'| ≤ 4 * (K * δ) := by
  refine (mul_near q2 hx' dq hd).trans ?_
  have : 1 * δ ≤ K * δ := mul_le_mul_of_nonneg_right hK1 hδ
  linarith

theorem plane_ecc (he0 : 0 ≤ e) (he : e < 1) (bc : |c| ≤ 1) (bc' : |c'| ≤ 1) (hc : |c - c'| ≤ δ) (ai : |i| ≤ K) (ai' : |i'| ≤ K)
    (di : |i - i'| ≤ K ^ 2 * δ) (hK1 : 1 ≤ K) (hδ : 0 ≤ δ) {x x' : ℝ} (hx : |x| ≤ 1) (hd : |x - x'| ≤ δ) :
    |-(x * (2 * e + c + e ^ 2 * c)) * (i * i) - -(x' * (2 * e + c' + e ^ 2 * c')) * (i' * i')| ≤ 14 * (K ^ 3 * δ) := by
  have j2' : |i' * i'| ≤ K * K := abs_mul_le' ai' ai'
  have dj : |i * i - i' * i'| ≤ K * (K ^ 2 * δ) + K ^ 2 * δ * K := mul_near ai ai' di di
  have dm : |(2 * e + c + e ^ 2 * c) - (2 * e + c' + e ^ 2 * c')| ≤ 2 * δ := by
    rw [show (2 * e + c + e ^ 2 * c) - (2 * e + c' + e ^ 2 * c') = (1 + e ^ 2) * (c - c') by ring]
    refine abs_mul_le' ?_ hc
    rw [abs_of_nonneg (by positivity)]
    nlinarith
  have n1 := mul_near hx (ecc_slope he0 he bc') hd dm
  have n2 : |x * (2 * e + c + e ^ 2 * c)| ≤ 1 * 4 := abs_mul_le' hx (ecc_slope he0 he bc)
  have n3 := mul_near n2 j2' n1 dj
  rw [neg_mul, neg_mul, neg_sub_neg, abs_sub_comm]
  refine n3.trans ?_
  have h1 : K ^ 2 ≤ K ^ 3 := pow_le_pow_right₀ hK1 (by norm_num)
  have h2 := mul_le_mul_of_nonneg_right h1 hδ
  have h3 : 1 * 4 * (K * (K ^ 2 * δ) + K ^ 2 * δ * K) + (1 * (2 * δ) + δ * 4) * (K * K) = 8 * (K ^ 3 * δ) + 6 * (K ^ 2 * δ) := by ring
  rw [h3]
  linarith

theorem plane_dx (h1 : |-(c * (2 * e + c + e ^ 2 * c)) * (i * i) - -(c' * (2 * e + c' + e ^ 2 * c')) * (i' * i')| ≤ 14 * (K ^ 3 * δ))
    (r2 : |u * i * i| ≤ 2 * K) (dr : |u * i * i - u * i' * i'| ≤ 4 * K ^ 2 * δ) (Hc : |dc'| ≤ H) (Tc : |dc - dc'| ≤ T) (hK : 0 < K) (hδ : 0 ≤ δ) :
    |ε * (-(c * (2 * e + c + e ^ 2 * c)) * (i * i)) + u * (i * i) * dc - (ε * (-(c' * (2 * e + c' + e ^ 2 * c')) * (i' * i')) + u * (i' * i') * dc')| ≤
      14 * δ * |ε| * K ^ 3 + 4 * T * K + 8 * δ * H * K ^ 2 := by
  have hH : 0 ≤ H := (abs_nonneg _).trans Hc
  have hT : 0 ≤ T := (abs_nonneg _).trans Tc
  have h2 := mul_near r2 Hc dr Tc
  have h3 : |ε * (-(c * (2 * e + c + e ^ 2 * c)) * (i * i) - -(c' * (2 * e + c' + e ^ 2 * c')) * (i' * i'))| ≤ |ε| * (14 * (K ^ 3 * δ)) := abs_mul_le' le_rfl h1
  have h4 := (abs_add_le _ _).trans (add_le_add h3 h2)
  rw [show ε * (-(c * (2 * e + c + e ^ 2 * c)) * (i * i)) + u * (i * i) * dc - (ε * (-(c' * (2 * e + c' + e ^ 2 * c')) * (i' * i')) + u * (i' * i') * dc') =
    ε * (-(c * (2 * e + c + e ^ 2 * c)) * (i * i) - -(c' * (2 * e + c' + e ^ 2 * c')) * (i' * i')) + (u * i * i * dc - u * i' * i' * dc') by ring]
  refine h4.trans ?_
  have p1 : 0 ≤ K * T := by positivity
  have p2 : 0 ≤ K ^ 2 * (H * δ) := by positivity
  have p3 : |ε| * (14 * (K ^ 3 * δ)) + (2 * K * T + 4 * K ^ 2 * δ * H) + 2 * (K * T) + 4 * (K ^ 2 * (H * δ)) =
    14 * δ * |ε| * K ^ 3 + 4 * T * K + 8 * δ * H * K ^ 2 := by ring
  linarith

theorem plane_dy (he0 : 0 ≤ e) (he : e < 1) (bs : |s| ≤ 1) (hs : |s - s'| ≤ δ)
    (h1 : |-(s * (2 * e + c + e ^ 2 * c)) * (i * i) - -(s' * (2 * e + c' + e ^ 2 * c')) * (i' * i')| ≤ 14 * (K ^ 3 * δ))
    (q2 : |u * i| ≤ 2) (dq : |u * i - u * i'| ≤ 2 * (K * δ))
    (r2 : |u * i * i| ≤ 2 * K) (r2' : |u * i' * i'| ≤ 2 * K) (dr : |u * i * i - u * i' * i'| ≤ 4 * K ^ 2 * δ) (Hc : |dc'| ≤ H) (Tc : |dc - dc'| ≤ T)
    (Hs : |ds'| ≤ H) (Ts : |ds - ds'| ≤ T) (hK1 : 1 ≤ K) (hδ : 0 ≤ δ) :
    |ε * (-(s * (2 * e + c + e ^ 2 * c)) * (i * i)) + (-(s * e * u) * (i * i) * dc + u * i * ds) -
        (ε * (-(s' * (2 * e + c' + e ^ 2 * c')) * (i' * i')) + (-(s' * e * u) * (i' * i') * dc' + u * i' * ds'))| ≤
      14 * δ * |ε| * K ^ 3 + 4 * T * K + 8 * δ * H * K ^ 2 := by
  have hH : 0 ≤ H := (abs_nonneg _).trans Hc
  have hT : 0 ≤ T := (abs_nonneg _).trans Tc
  have hse : |s * e| ≤ 1 := by
    have := abs_mul_le' bs (show |e| ≤ 1 by rw [abs_of_nonneg he0]; exact he.le)
    rwa [one_mul] at this
  have hse' : |s * e - s' * e| ≤ δ := by
    rw [← sub_mul, abs_mul, abs_of_nonneg he0]
    exact (mul_le_of_le_one_right (abs_nonneg _) he.le).trans hs
  have h2a := mul_near hse r2' hse' dr
  have h2b : |s * e * (u * i * i)| ≤ 1 * (2 * K) := abs_mul_le' hse r2
  have h2 := mul_near h2b Hc h2a Tc
  have h5 := mul_near q2 Hs dq Ts
  have h3 : |ε * (-(s * (2 * e + c + e ^ 2 * c)) * (i * i) - -(s' * (2 * e + c' + e ^ 2 * c')) * (i' * i'))| ≤ |ε| * (14 * (K ^ 3 * δ)) := abs_mul_le' le_rfl h1
  have h4 := (abs_add_le _ _).trans (add_le_add h3 ((abs_sub _ _).trans (add_le_add h5 h2)))
  rw [show ε * (-(s * (2 * e + c + e ^ 2 * c)) * (i * i)) + (-(s * e * u) * (i * i) * dc + u * i * ds) -
        (ε * (-(s' * (2 * e + c' + e ^ 2 * c')) * (i' * i')) + (-(s' * e * u) * (i' * i') * dc' + u * i' * ds')) =
      ε * (-(s * (2 * e + c + e ^ 2 * c)) * (i * i) - -(s' * (2 * e + c' + e ^ 2 * c')) * (i' * i')) +
        ((u * i * ds - u * i' * ds') - (s * e * (u * i * i) * dc - s' * e * (u * i' * i') * dc')) by ring]
  refine h4.trans ?_
  have hKK : K ^ 1 ≤ K ^ 2 := pow_le_pow_right₀ hK1 (by norm_num)
  rw [pow_one] at hKK
  have p1 : 1 * T ≤ K * T := mul_le_mul_of_nonneg_right hK1 hT
  have p2 : K * (H * δ) ≤ K ^ 2 * (H * δ) := mul_le_mul_of_nonneg_right hKK (by positivity)
  have p3 : |ε| * (14 * (K ^ 3 * δ)) + (2 * T + 2 * (K * δ) * H + (1 * (2 * K) * T + (1 * (4 * K ^ 2 * δ) + δ * (2 * K)) * H)) =
    14 * δ * |ε| * K ^ 3 + 2 * (K * T) + 2 * T + 4 * (K * (H * δ)) + 4 * (K ^ 2 * (H * δ)) := by ring
  rw [p3]
  have p4 : 14 * δ * |ε| * K ^ 3 + 4 * T * K + 8 * δ * H * K ^ 2 = 14 * δ * |ε| * K ^ 3 + 4 * (K * T) + 8 * (K ^ 2 * (H * δ)) := by ring
  rw [p4]
  linarith

end plane

/-- Position in the plane of the orbit, in units of the semimajor axis, and its derivative: how they depend on the true anomaly -/
theorem plane_stable {e s c s' c' ε ds dc ds' dc' δ H T : ℝ} (he0 : 0 ≤ e) (he : e < 1) (bs : |s| ≤ 1) (bc : |c| ≤ 1) (bs' : |s'| ≤ 1) (bc' : |c'| ≤ 1)
    (hs : |s - s'| ≤ δ) (hc : |c - c'| ≤ δ) (Hs : |ds'| ≤ H) (Hc : |dc'| ≤ H) (Ts : |ds - ds'| ≤ T) (Tc : |dc - dc'| ≤ T) :
    (|(1 - e ^ 2) / (1 + e * c) * c - (1 - e ^ 2) / (1 + e * c') * c'| ≤ 4 * δ / (1 - e) ∧
      |(1 - e ^ 2) / (1 + e * c) * s - (1 - e ^ 2) / (1 + e * c') * s'| ≤ 4 * δ / (1 - e)) ∧
    |ε * (-(c * (2 * e + c + e ^ 2 * c)) / (1 + e * c) ^ 2) + (1 - e ^ 2) / (1 + e * c) ^ 2 * dc -
        (ε * (-(c' * (2 * e + c' + e ^ 2 * c')) / (1 + e * c') ^ 2) + (1 - e ^ 2) / (1 + e * c') ^ 2 * dc')| ≤
      14 * δ * |ε| / (1 - e) ^ 3 + 4 * T / (1 - e) + 8 * δ * H / (1 - e) ^ 2 ∧
    |ε * (-(s * (2 * e + c + e ^ 2 * c)) / (1 + e * c) ^ 2) + (-(s * e * (1 - e ^ 2)) / (1 + e * c) ^ 2 * dc + (1 - e ^ 2) / (1 + e * c) * ds) -
        (ε * (-(s' * (2 * e + c' + e ^ 2 * c')) / (1 + e * c') ^ 2) + (-(s' * e * (1 - e ^ 2)) / (1 + e * c') ^ 2 * dc' + (1 - e ^ 2) / (1 + e * c') * ds'))| ≤
      14 * δ * |ε| / (1 - e) ^ 3 + 4 * T / (1 - e) + 8 * δ * H / (1 - e) ^ 2 := by
  have hg : 0 < 1 - e := by linarith
  have hDg : 1 - e ≤ 1 + e * c := by nlinarith [abs_le.1 bc]
  have hDg' : 1 - e ≤ 1 + e * c' := by nlinarith [abs_le.1 bc']
  have hD : 0 < 1 + e * c := by linarith
  have hD' : 0 < 1 + e * c' := by linarith
  have hδ : 0 ≤ δ := (abs_nonneg _).trans hs
  have hK0 : 0 < (1 - e)⁻¹ := inv_pos.2 hg
  have hK1 : 1 ≤ (1 - e)⁻¹ := (one_le_inv₀ hg).2 (by linarith)
  have hgK : (1 - e) * (1 - e)⁻¹ = 1 := mul_inv_cancel₀ hg.ne'
  have i0 : 0 < (1 + e * c)⁻¹ := inv_pos.2 hD
  have i0' : 0 < (1 + e * c')⁻¹ := inv_pos.2 hD'
  have iK : (1 + e * c)⁻¹ ≤ (1 - e)⁻¹ := inv_anti₀ hg hDg
  have iK' : (1 + e * c')⁻¹ ≤ (1 - e)⁻¹ := inv_anti₀ hg hDg'
  have e1 : (1 + e * c)⁻¹ - (1 + e * c')⁻¹ = (1 + e * c)⁻¹ * (1 + e * c')⁻¹ * (e * (c' - c)) := by field_simp; ring
  have hu : 0 ≤ 1 - e ^ 2 := by nlinarith
  have hu2 : (1 - e ^ 2) * (1 - e)⁻¹ ≤ 2 := by
    rw [show (1 - e ^ 2) * (1 - e)⁻¹ = (1 + e) * ((1 - e) * (1 - e)⁻¹) by ring, hgK]; linarith
  have eK1 : ∀ x, x / (1 - e) = x * (1 - e)⁻¹ := fun x => div_eq_mul_inv _ _
  have eK : ∀ x n, x / (1 - e) ^ n = x * (1 - e)⁻¹ ^ n := fun x n => by rw [inv_pow, div_eq_mul_inv]
  have eD : ∀ x, x / (1 + e * c) = x * (1 + e * c)⁻¹ := fun x => div_eq_mul_inv _ _
  have eD' : ∀ x, x / (1 + e * c') = x * (1 + e * c')⁻¹ := fun x => div_eq_mul_inv _ _
  have eDs : ∀ x, x / (1 + e * c) ^ 2 = x * ((1 + e * c)⁻¹ * (1 + e * c)⁻¹) := fun x => by rw [div_eq_mul_inv, sq, mul_inv]
  have eDs' : ∀ x, x / (1 + e * c') ^ 2 = x * ((1 + e * c')⁻¹ * (1 + e * c')⁻¹) := fun x => by rw [div_eq_mul_inv, sq, mul_inv]
  simp only [eK, eK1, eD, eD', eDs, eDs']
  clear eK eK1 eD eD' eDs eDs'
  generalize (1 - e)⁻¹ = K at *
  generalize (1 + e * c)⁻¹ = i at *
  generalize (1 + e * c')⁻¹ = i' at *
  have ai : |i| ≤ K := by rwa [abs_of_pos i0]
  have ai' : |i'| ≤ K := by rwa [abs_of_pos i0']
  have di : |i - i'| ≤ K ^ 2 * δ := by
    rw [e1, sq]
    refine abs_mul_le' (abs_mul_le' ai ai') ?_
    rw [abs_mul, abs_of_nonneg he0, abs_sub_comm]
    exact (mul_le_of_le_one_left (abs_nonneg _) he.le).trans hc
  obtain ⟨q2, q2', dq, r2, r2', dr⟩ := plane_q hu i0 i0' iK iK' di hK0 hδ hu2
  have h1 := plane_ecc he0 he bc bc' hc ai ai' di hK1 hδ bc hc
  have h2 := plane_ecc he0 he bc bc' hc ai ai' di hK1 hδ bs hs
  refine ⟨⟨?_, ?_⟩, plane_dx h1 r2 dr Hc Tc hK0 hδ, plane_dy he0 he bs hs h2 q2 dq r2 r2' dr Hc Tc Hs Ts hK1 hδ⟩
  · exact (plane_value q2 dq hK1 hδ bc' hc).trans (le_of_eq (by ring))
  · exact (plane_value q2 dq hK1 hδ bs' hs).trans (le_of_eq (by ring))

end Jaxoplanet.Keplerian

namespace Jaxoplanet.Keplerian
open Real AD AD.Dual Kepler

/-- the bound for the derivative of the position in the plane of the orbit, in units of the semimajor axis, for the derivatives `μ` of the mean
anomaly and `ε` of the eccentricity -/
noncomputable def planeRate (e μ ε : ℝ) : ℝ := 64 * (|μ| / (1 - e ^ 2) ^ (1.5 : ℝ)) / (1 - e) ^ 2 + 66 * |ε| / (1 - e) ^ 3

theorem planeRate_nonneg {e : ℝ} (he0 : 0 ≤ e) (he : e < 1) (μ ε : ℝ) : 0 ≤ planeRate e μ ε := by
  have h1 : 0 < 1 - e := by linarith
  have h2 : 0 ≤ (1 - e ^ 2) ^ (1.5 : ℝ) := Real.rpow_nonneg (by nlinarith) _
  unfold planeRate
  positivity

theorem jvpTangent_bound {e s c μ ε : ℝ} (he0 : 0 ≤ e) (he : e < 1) (bs : |s| ≤ 1) (bc : |c| ≤ 1) :
    |(jvpTangent s c e μ ε).1| ≤ 4 * (|μ| / (1 - e ^ 2) ^ (1.5 : ℝ)) + 3 * (|ε| / (1 - e ^ 2)) ∧
    |(jvpTangent s c e μ ε).2| ≤ 4 * (|μ| / (1 - e ^ 2) ^ (1.5 : ℝ)) + 3 * (|ε| / (1 - e ^ 2)) := by
  have hee : 0 < 1 - e ^ 2 := by nlinarith
  have hpw : 0 < (1 - e ^ 2) ^ (1.5 : ℝ) := Real.rpow_pos_of_pos hee _
  have hec : |e * c| ≤ 1 * 1 := abs_mul_le' (by rw [abs_of_nonneg he0]; exact he.le) bc
  obtain ⟨h1, h2⟩ := abs_le.1 hec
  have hF : |μ * (1 + e * c) ^ 2 / (1 - e ^ 2) ^ (1.5 : ℝ) + ε * (2 + e * c) * s / (1 - e ^ 2)| ≤
      4 * (|μ| / (1 - e ^ 2) ^ (1.5 : ℝ)) + 3 * (|ε| / (1 - e ^ 2)) := by
    refine (abs_add_le _ _).trans (add_le_add ?_ ?_)
    · rw [abs_div, abs_mul, abs_of_pos hpw, ← mul_div_assoc, mul_comm]
      refine div_le_div_of_nonneg_right (mul_le_mul_of_nonneg_right ?_ (abs_nonneg _)) hpw.le
      rw [abs_of_nonneg (sq_nonneg _)]
      nlinarith
    · rw [abs_div, abs_of_pos hee, ← mul_div_assoc, mul_assoc, mul_comm ε, abs_mul]
      refine div_le_div_of_nonneg_right (mul_le_mul_of_nonneg_right ?_ (abs_nonneg _)) hee.le
      have : |(2 + e * c) * s| ≤ 3 * 1 := abs_mul_le' (by rw [abs_le]; constructor <;> linarith) bs
      linarith
  constructor
  · simp only [jvpTangent]
    exact (abs_mul_le' bc hF).trans_eq (one_mul _)
  · simp only [jvpTangent]
    exact (abs_mul_le' (show |-s| ≤ 1 by rwa [abs_neg]) hF).trans_eq (one_mul _)

/-- the position in the plane with its derivative -/
theorem plane_dual {k : EccD} {ε : ℝ} (hk : k.e.d = some ε) {r c f : Dual} {ρ dc df : ℝ} (hr : r.d = some ρ) (hc : c.d = some dc) (hf : f.d = some df)
    (hD : 1 + k.e.v * c.v ≠ 0) :
    distanceD (some k) r c * f = r * ⟨(1 - k.e.v ^ 2) / (1 + k.e.v * c.v) * f.v,
      some (ε * (-(f.v * (2 * k.e.v + c.v + k.e.v ^ 2 * c.v)) / (1 + k.e.v * c.v) ^ 2) +
        (-(f.v * k.e.v * (1 - k.e.v ^ 2)) / (1 + k.e.v * c.v) ^ 2 * dc + (1 - k.e.v ^ 2) / (1 + k.e.v * c.v) * df))⟩ := by
  obtain ⟨e, sw, cw⟩ := k
  obtain ⟨e, ed⟩ := e
  obtain ⟨c, cd⟩ := c
  obtain ⟨r, rd⟩ := r
  obtain ⟨f, fd⟩ := f
  simp only at hk hr hc hf hD
  subst hk hr hc hf
  ext1
  · simp only [distanceD, mul_v, div_v, sub_v, square_v, const_v, add_v]
    ring
  · simp only [distanceD]
    change plus (lin (some f) (plus (lin (some ((1 - e ^ 2) / (1 + e * c))) (some ρ)) (lin (some r)
      (if 1 + e * c = 0 then none else plus (lin (some (1 / (1 + e * c))) (plus (some 0) (lin (some (-1)) (lin (some (2 * e)) (some ε)))))
        (lin (some (-(1 - e ^ 2) / (1 + e * c) ^ 2)) (plus (some 0) (plus (lin (some c) (some ε)) (lin (some e) (some dc))))))))) (lin (some (r * ((1 - e ^ 2) / (1 + e * c)))) (some df)) =
      plus (lin (some ((1 - e ^ 2) / (1 + e * c) * f)) (some ρ)) (lin (some r) (some _))
    rw [if_neg hD]
    simp only [lin, plus, Option.map₂_some_some, Option.some.injEq]
    field_simp
    ring

variable {kep : ℝ → ℝ → ℝ × ℝ}

/-- sine and cosine of the true anomaly of the program and their exact values, with derivatives -/
theorem anomaly_near (hkep : ExactNear kep) {M e : Dual} {μ ε : ℝ} (hM : M.d = some μ) (he : e.d = some ε) (he0 : 0 ≤ e.v) (he1 : e.v < 1) :
    ∃ s c ds dc s' c' ds' dc', keplerD kepler M e = (⟨s, some ds⟩, ⟨c, some dc⟩) ∧ keplerD kep M e = (⟨s', some ds'⟩, ⟨c', some dc'⟩) ∧
      |s| ≤ 1 ∧ |c| ≤ 1 ∧ |s'| ≤ 1 ∧ |c'| ≤ 1 ∧ |s - s'| ≤ 1.3e-13 ∧ |c - c'| ≤ 1.3e-13 ∧
      |ds'| ≤ 4 * (|μ| / (1 - e.v ^ 2) ^ (1.5 : ℝ)) + 3 * (|ε| / (1 - e.v ^ 2)) ∧ |dc'| ≤ 4 * (|μ| / (1 - e.v ^ 2) ^ (1.5 : ℝ)) + 3 * (|ε| / (1 - e.v ^ 2)) ∧
      |ds - ds'| ≤ 1.3e-13 * (8 * (|μ| / (1 - e.v ^ 2) ^ (1.5 : ℝ)) + 7 * (|ε| / (1 - e.v ^ 2))) ∧
      |dc - dc'| ≤ 1.3e-13 * (8 * (|μ| / (1 - e.v ^ 2) ^ (1.5 : ℝ)) + 7 * (|ε| / (1 - e.v ^ 2))) := by
  have hee : ¬ 1 - e.v ^ 2 ≤ 0 := by nlinarith
  obtain ⟨f, hf, hkf⟩ := hkep M.v e.v (abs_lt.2 ⟨by linarith, he1⟩)
  obtain ⟨a1, a2⟩ := kepler_accurate_each he0 he1 M.v f hf
  have hu : (kepler M.v e.v).1 ^ 2 + (kepler M.v e.v).2 ^ 2 = 1 := (kepler_on_unit_circle M.v e.v).1
  have b1 : |(kepler M.v e.v).1| ≤ 1 := abs_le_of_sq_le_sq (by nlinarith [sq_nonneg (kepler M.v e.v).2]) zero_le_one
  have b2 : |(kepler M.v e.v).2| ≤ 1 := abs_le_of_sq_le_sq (by nlinarith [sq_nonneg (kepler M.v e.v).1]) zero_le_one
  have hst := jvpTangent_stable (M_dot := μ) (e_dot := ε) he0 he1 hu (sin_sq_add_cos_sq f) a1 a2
  have hbd := jvpTangent_bound (μ := μ) (ε := ε) he0 he1 (abs_sin_le_one f) (abs_cos_le_one f)
  have hD : ∀ q : ℝ → ℝ → ℝ × ℝ, keplerD q M e = (⟨(q M.v e.v).1, some (jvpTangent (q M.v e.v).1 (q M.v e.v).2 e.v μ ε).1⟩,
      ⟨(q M.v e.v).2, some (jvpTangent (q M.v e.v).1 (q M.v e.v).2 e.v μ ε).2⟩) := by
    intro q
    simp only [keplerD, if_neg hee, hM, he, Option.map₂_some_some, Option.map_some]
  refine ⟨_, _, _, _, _, _, _, _, hD _, by rw [hD, hkf], b1, b2, abs_sin_le_one f, abs_cos_le_one f, a1, a2, hbd.1, hbd.2, hst.1, hst.2⟩

/-- the position in the plane of the orbit -/
theorem plane_near (hkep : ExactNear kep) {M : Dual} {k : EccD} {μ ε : ℝ} (hM : M.d = some μ) (he : k.e.d = some ε) (he0 : 0 ≤ k.e.v) (he1 : k.e.v < 1)
    {r : Dual} {A B ρ : ℝ} (hr : r.d = some ρ) (hA : |r.v| ≤ A) (hB : |ρ| ≤ B) :
    NearD (A * (4 * 1.3e-13 / (1 - k.e.v))) (A * (1.3e-13 * planeRate k.e.v μ ε) + B * (4 * 1.3e-13 / (1 - k.e.v)))
      (distanceD (some k) r (keplerD kepler M k.e).2 * (keplerD kepler M k.e).2) (distanceD (some k) r (keplerD kep M k.e).2 * (keplerD kep M k.e).2) ∧
    NearD (A * (4 * 1.3e-13 / (1 - k.e.v))) (A * (1.3e-13 * planeRate k.e.v μ ε) + B * (4 * 1.3e-13 / (1 - k.e.v)))
      (distanceD (some k) r (keplerD kepler M k.e).2 * (keplerD kepler M k.e).1) (distanceD (some k) r (keplerD kep M k.e).2 * (keplerD kep M k.e).1) := by
  obtain ⟨s, c, ds, dc, s', c', ds', dc', e1, e2, bs, bc, bs', bc', hs, hc, Hs, Hc, Ts, Tc⟩ := anomaly_near hkep hM he he0 he1
  rw [e1, e2]
  have hD : 1 + k.e.v * c ≠ 0 := by nlinarith [abs_le.1 bc]
  have hD' : 1 + k.e.v * c' ≠ 0 := by nlinarith [abs_le.1 bc']
  obtain ⟨⟨v1, v2⟩, d1, d2⟩ := plane_stable (ε := ε) he0 he1 bs bc bs' bc' hs hc Hs Hc Ts Tc
  have hm : 0 ≤ |μ| / (1 - k.e.v ^ 2) ^ (1.5 : ℝ) := div_nonneg (abs_nonneg _) (Real.rpow_nonneg (by nlinarith) _)
  have hbound : 14 * 1.3e-13 * |ε| / (1 - k.e.v) ^ 3 +
      4 * (1.3e-13 * (8 * (|μ| / (1 - k.e.v ^ 2) ^ (1.5 : ℝ)) + 7 * (|ε| / (1 - k.e.v ^ 2)))) / (1 - k.e.v) +
      8 * 1.3e-13 * (4 * (|μ| / (1 - k.e.v ^ 2) ^ (1.5 : ℝ)) + 3 * (|ε| / (1 - k.e.v ^ 2))) / (1 - k.e.v) ^ 2 ≤ 1.3e-13 * planeRate k.e.v μ ε := by
    unfold planeRate
    generalize |μ| / (1 - k.e.v ^ 2) ^ (1.5 : ℝ) = m at hm
    have hg : 0 < 1 - k.e.v := by linarith
    have hK1 : 1 ≤ (1 - k.e.v)⁻¹ := (one_le_inv₀ hg).2 (by linarith)
    have hE : |ε| / (1 - k.e.v ^ 2) ≤ |ε| * (1 - k.e.v)⁻¹ := by
      rw [div_eq_mul_inv]
      exact mul_le_mul_of_nonneg_left (inv_anti₀ hg (by nlinarith)) (abs_nonneg _)
    have hE0 : 0 ≤ |ε| := abs_nonneg ε
    simp only [div_eq_mul_inv, ← inv_pow] at hE ⊢
    generalize (1 - k.e.v)⁻¹ = K at *
    generalize |ε| * (1 - k.e.v ^ 2)⁻¹ = q at *
    generalize |ε| = E at *
    have hK0 : 0 ≤ K := by linarith
    have k1 : K ^ 1 ≤ K ^ 2 := pow_le_pow_right₀ hK1 (by norm_num)
    have k2 : K ^ 2 ≤ K ^ 3 := pow_le_pow_right₀ hK1 (by norm_num)
    rw [pow_one] at k1
    have q1 : q * K ≤ E * K * K := mul_le_mul_of_nonneg_right hE hK0
    have q2 : q * K ^ 2 ≤ E * K * K ^ 2 := mul_le_mul_of_nonneg_right hE (by positivity)
    have q3 : E * K ^ 2 ≤ E * K ^ 3 := mul_le_mul_of_nonneg_left k2 hE0
    have q4 : m * K ≤ m * K ^ 2 := mul_le_mul_of_nonneg_left k1 hm
    nlinarith
  have key : ∀ (f f' df df' : ℝ), |(1 - k.e.v ^ 2) / (1 + k.e.v * c) * f - (1 - k.e.v ^ 2) / (1 + k.e.v * c') * f'| ≤ 4 * 1.3e-13 / (1 - k.e.v) →
      |ε * (-(f * (2 * k.e.v + c + k.e.v ^ 2 * c)) / (1 + k.e.v * c) ^ 2) + (-(f * k.e.v * (1 - k.e.v ^ 2)) / (1 + k.e.v * c) ^ 2 * dc + (1 - k.e.v ^ 2) / (1 + k.e.v * c) * df) -
        (ε * (-(f' * (2 * k.e.v + c' + k.e.v ^ 2 * c')) / (1 + k.e.v * c') ^ 2) + (-(f' * k.e.v * (1 - k.e.v ^ 2)) / (1 + k.e.v * c') ^ 2 * dc' + (1 - k.e.v ^ 2) / (1 + k.e.v * c') * df'))| ≤
        1.3e-13 * planeRate k.e.v μ ε →
      NearD (A * (4 * 1.3e-13 / (1 - k.e.v))) (A * (1.3e-13 * planeRate k.e.v μ ε) + B * (4 * 1.3e-13 / (1 - k.e.v)))
        (distanceD (some k) r ⟨c, some dc⟩ * ⟨f, some df⟩) (distanceD (some k) r ⟨c', some dc'⟩ * ⟨f', some df'⟩) := by
    intro f f' df df' hv hd
    rw [plane_dual he hr rfl rfl hD, plane_dual he hr rfl rfl hD']
    exact nearD_scale hr hA hB ⟨hv, _, _, rfl, rfl, hd⟩
  refine ⟨key c c' dc dc' v1 ?_, key s s' ds ds' v2 (d2.trans hbound)⟩
  have hx : ∀ x dx : ℝ, 1 + k.e.v * x ≠ 0 → -(x * k.e.v * (1 - k.e.v ^ 2)) / (1 + k.e.v * x) ^ 2 * dx + (1 - k.e.v ^ 2) / (1 + k.e.v * x) * dx =
      (1 - k.e.v ^ 2) / (1 + k.e.v * x) ^ 2 * dx := by
    intro x dx h
    field_simp
    ring
  rw [hx c dc hD, hx c' dc' hD']
  exact d1.trans hbound

end Jaxoplanet.Keplerian
