import Verif.Model.LimbDarkFloat

/-!
# The light curve of a quadratically limb-darkened star, `src/jaxoplanet/core/limb_dark.py`, in floating-point arithmetic

The program of `Model/LimbDark.lean` for `u = [u1, u2]` (`l_max = 2`), with a rounding error of relative size at most `u` in
every operation, as in `Model/LimbDarkFloat.lean`.  Sums and dot products are taken in any order and with any grouping
(`FloatSum`), since `jnp.sum` and `@` do not specify it.  `eps` is `jnp.finfo(dtype).eps`.

Simplifications: as in `Model/LimbDarkFloat.lean`; additions of the exact zeros of the list `g` and multiplications by
the zero binomial coefficients are not recorded; `k2`, which is not used for `l_max = 2`, is not recorded.
-/

namespace Jaxoplanet.LimbDarkFloat

open Real KeplerFloat

/-- `x` is a floating-point sum of the terms of the list, added in some order with some grouping -/
inductive FloatSum (u : ℝ) : List ℝ → ℝ → Prop
  | single (x : ℝ) : FloatSum u [x] x
  | add {l m : List ℝ} {x y z : ℝ} : FloatSum u l x → FloatSum u m y → Rnd u (x + y) z → FloatSum u (l ++ m) z
  | perm {l l' : List ℝ} {x : ℝ} : FloatSum u l x → l.Perm l' → FloatSum u l' x

/-- `x` is a floating-point dot product of the pairs of the list -/
def FloatDot (u : ℝ) (l : List (ℝ × ℝ)) (x : ℝ) : Prop :=
  ∃ ps : List ℝ, List.Forall₂ (fun p q => Rnd u (p.1 * p.2) q) l ps ∧ FloatSum u ps x

/-- A floating-point run of `greens_basis_transform([u1, u2])`, `core/limb_dark.py:87-99`, and of the normalisation of
`light_curve`, lines 44-46. -/
structure GreensRun (u pi u1 u2 : ℝ) where
  a0 : ℝ
  ha0 : FloatDot u [(1, -1), (1, u1), (1, u2)] a0
  a1 : ℝ
  ha1 : FloatDot u [(1, u1), (2, u2)] a1
  a2 : ℝ
  ha2 : FloatDot u [(1, u2)] a2
  p0 : ℝ
  hp0 : p0 = -a0
  p1 : ℝ
  hp1 : p1 = a1
  p2 : ℝ
  hp2 : p2 = -a2
  g2 : ℝ
  hg2 : Rnd u (p2 / 4) g2
  tg : ℝ
  htg : Rnd u (2 * g2) tg
  g0 : ℝ
  hg0 : Rnd u (p0 + tg) g0
  q1 : ℝ
  hq1 : Rnd u (p1 / 1.5) q1
  q2 : ℝ
  hq2 : Rnd u (g0 + q1) q2
  norm : ℝ
  hnorm : Rnd u (pi * q2) norm
  n0 : ℝ
  hn0 : Rnd u (g0 / norm) n0
  n1 : ℝ
  hn1 : Rnd u (p1 / norm) n1
  n2 : ℝ
  hn2 : Rnd u (g2 / norm) n2

open Classical in
/-- A floating-point run of the second component of `s0s2`, `core/limb_dark.py:120-137`, next to the run `S` of the first. -/
structure S2Run {u pi b r r2 area kappa0 kappa1 : ℝ} (b2 : ℝ) (S : S0Run u pi b r r2 area kappa0 kappa1) where
  h1 : ℝ
  hh1 : Rnd u (0.5 * r2) h1
  h2 : ℝ
  hh2 : Rnd u (2 * b2) h2
  h3 : ℝ
  hh3 : Rnd u (r2 + h2) h3
  eta2 : ℝ
  heta2 : Rnd u (h1 * h3) eta2
  l1 : ℝ
  hl1 : Rnd u (2 * S.s0_lrg) l1
  l2 : ℝ
  hl2 : Rnd u (4 * pi) l2
  l3 : ℝ
  hl3 : Rnd u (eta2 - 0.5) l3
  l4 : ℝ
  hl4 : Rnd u (l2 * l3) l4
  lrg : ℝ
  hlrg : Rnd u (l1 + l4) lrg
  m1 : ℝ
  hm1 : Rnd u (2 * S.s0_sml) m1
  m2 : ℝ
  hm2 : Rnd u (pi - kappa1) m2
  m3 : ℝ
  hm3 : Rnd u (2 * eta2) m3
  m4 : ℝ
  hm4 : Rnd u (m3 * kappa0) m4
  m5 : ℝ
  hm5 : Rnd u (-m2 + m4) m5
  m6 : ℝ
  hm6 : Rnd u (0.25 * area) m6
  m7 : ℝ
  hm7 : Rnd u (5 * r2) m7
  m8 : ℝ
  hm8 : Rnd u (1 + m7) m8
  m9 : ℝ
  hm9 : Rnd u (m8 + b2) m9
  m10 : ℝ
  hm10 : Rnd u (m6 * m9) m10
  m11 : ℝ
  hm11 : Rnd u (m5 - m10) m11
  m12 : ℝ
  hm12 : Rnd u (2 * m11) m12
  sml : ℝ
  hsml : Rnd u (m1 + m12) sml
  s2 : ℝ
  hs2 : s2 = if S.sum > S.delta then lrg else sml

open Classical in
/-- A floating-point run of the entry of the row `l = 1` of `p_integral` at one quadrature root, `core/limb_dark.py:156-173`;
`root` is the entry of the table of roots, `rng` the value of `0.5 * kappa0`. -/
structure NodeRun (u eps b r b2 r2 rng root : ℝ) where
  phi : ℝ
  hphi : Rnd u (rng * root) phi
  arg : ℝ
  harg : Rnd u (phi + rng) arg
  c : ℝ
  hc : Rnd u (cos arg) c
  t1 : ℝ
  ht1 : Rnd u (r2 + b2) t1
  t2 : ℝ
  ht2 : Rnd u (2 * b) t2
  t3 : ℝ
  ht3 : Rnd u (t2 * r) t3
  t4 : ℝ
  ht4 : Rnd u (t3 * c) t4
  t5 : ℝ
  ht5 : Rnd u (t1 - t4) t5
  omz2 : ℝ
  homz2 : omz2 = max 0 t5
  z2 : ℝ
  hz2 : Rnd u (1 - omz2) z2
  z2' : ℝ
  hz2' : z2' = if z2 < 10 * eps then 1 else z2
  sq : ℝ
  hsq : Rnd u (√z2') sq
  z3 : ℝ
  hz3 : Rnd u (z2' * sq) z3
  omz2' : ℝ
  homz2' : omz2' = if omz2 < 10 * eps then 1 else omz2
  n1 : ℝ
  hn1 : Rnd u (2 * r) n1
  n2 : ℝ
  hn2 : Rnd u (b * c) n2
  n3 : ℝ
  hn3 : Rnd u (r - n2) n3
  n4 : ℝ
  hn4 : Rnd u (n1 * n3) n4
  n5 : ℝ
  hn5 : Rnd u (1 - z3) n5
  n6 : ℝ
  hn6 : Rnd u (n4 * n5) n6
  n7 : ℝ
  hn7 : Rnd u (3 * omz2') n7
  res : ℝ
  hres : Rnd u (n6 / n7) res
  out : ℝ
  hout : out = if omz2 < 10 * eps then 0 else res

/-- A floating-point run of `p_integral(order, 2, b, r, b2, r2, kappa0)`, `core/limb_dark.py:154-184`: `table` is the table of
roots and weights that `scipy.special.roots_legendre` returns in the working precision. -/
structure PRun (u eps b r b2 r2 kappa0 : ℝ) (table : List (ℝ × ℝ)) where
  rng : ℝ
  hrng : Rnd u (0.5 * kappa0) rng
  node : ∀ xw : ℝ × ℝ, NodeRun u eps b r b2 r2 rng xw.1
  sum : ℝ
  hsum : FloatDot u (table.map fun xw => ((node xw).out, xw.2)) sum
  P : ℝ
  hP : Rnd u (rng * sum) P

open Classical in
/-- A floating-point run of `light_curve([u1, u2], b, r)`, `core/limb_dark.py:39-47`, through `solution_vector(2)(b, r)`,
lines 55-82. -/
structure QuadraticRun (u eps u1 u2 b r : ℝ) (table : List (ℝ × ℝ)) where
  pi : ℝ
  hpi : Rnd u π pi
  greens : GreensRun u pi u1 u2
  op : ℝ
  hop : Rnd u (1 + |r|) op
  kappas : KappasRun u |b| |r| op
  opb : ℝ
  hopb : Rnd u (1 + |b|) opb
  b_ : ℝ
  hb_ : b_ = if |b| ≥ op ∨ opb ≤ |r| then 1 else |b|
  b2 : ℝ
  hb2 : Rnd u (b_ * b_) b2
  r2 : ℝ
  hr2 : Rnd u (|r| * |r|) r2
  s0run : S0Run u pi b_ |r| r2 kappas.area kappas.kappa0 kappas.kappa1
  s2run : S2Run b2 s0run
  s0 : ℝ
  hs0 : s0 = if opb ≤ |r| then 0 else if |b| ≥ op then pi else s0run.s0
  s2 : ℝ
  hs2 : s2 = if |b| ≥ op ∨ opb ≤ |r| then 0 else s2run.s2
  prun : PRun u eps b_ |r| b2 r2 kappas.kappa0 table
  P : ℝ
  hP : P = if |b| ≥ op ∨ opb ≤ |r| then 0 else prun.P
  k1 : ℝ
  hk1 : Rnd u (kappas.kappa1 - pi) k1
  k2 : ℝ
  hk2 : Rnd u (2 * k1) k2
  k3 : ℝ
  hk3 : Rnd u (k2 / 3) k3
  s1 : ℝ
  hs1 : Rnd u (-P - k3) s1
  dot : ℝ
  hdot : FloatDot u [(s0, greens.n0), (s1, greens.n1), (s2, greens.n2)] dot
  out : ℝ
  hout : Rnd u (dot - 1) out

end Jaxoplanet.LimbDarkFloat
