import Verif.Model.LimbDark
import Verif.Model.KeplerFloat

/-!
# The light curve of a uniform star, `src/jaxoplanet/core/limb_dark.py`, in floating-point arithmetic

The program of `Model/LimbDark.lean` for `u = []`, with a rounding error of relative size at most `u` in every operation
(`Jaxoplanet.KeplerFloat.Rnd`, see `Model/KeplerFloat.lean`).  A run records the value of every intermediate result.

Simplifications: underflow and overflow are not represented; the second entry `s2` of `s0s2`, which is dropped when
`l_max = 0`, is not recorded; the expression `1 + r`, which is evaluated twice on the same operands (lines 105 and 61), is
recorded once; comparisons, `abs`, `minimum`, `maximum` and `where` are exact, as they are in floating point.
-/

namespace Jaxoplanet.LimbDarkFloat

open Real KeplerFloat

/-- the three sides after the three `sort2` steps of `kite_area`, `core/limb_dark.py:188-193` -/
noncomputable def sort3 (a b c : ℝ) : ℝ × ℝ × ℝ :=
  let (a, b) := LimbDark.sort2 a b
  let (b, c) := LimbDark.sort2 b c
  let (a, b) := LimbDark.sort2 a b
  (a, b, c)

/-- A floating-point run of the last two lines of `kite_area`, `core/limb_dark.py:195-196`, on the sorted sides
`p ≤ q ≤ s` (called `a, b, c` there); `zero_safe_sqrt` of a non-negative number is its square root. -/
structure KiteRun (u p q s : ℝ) where
  qs : ℝ
  hqs : Rnd u (q + s) qs
  f1 : ℝ
  hf1 : Rnd u (p + qs) f1
  d : ℝ
  hd : Rnd u (p - q) d
  f2 : ℝ
  hf2 : Rnd u (s - d) f2
  f3 : ℝ
  hf3 : Rnd u (s + d) f3
  d4 : ℝ
  hd4 : Rnd u (q - s) d4
  f4 : ℝ
  hf4 : Rnd u (p + d4) f4
  g1 : ℝ
  hg1 : Rnd u (f1 * f2) g1
  g2 : ℝ
  hg2 : Rnd u (g1 * f3) g2
  sq : ℝ
  hsq : Rnd u (g2 * f4) sq
  out : ℝ
  hout : Rnd u (√(max 0 sq)) out

open Classical in
/-- A floating-point run of `kappas(b, r)`, `core/limb_dark.py:102-108`; `op` is the value of `1 + r`. -/
structure KappasRun (u b r op : ℝ) where
  b2 : ℝ
  hb2 : Rnd u (b * b) b2
  rm : ℝ
  hrm : Rnd u (r - 1) rm
  rp : ℝ
  hrp : Rnd u (r + 1) rp
  factor : ℝ
  hfactor : Rnd u (rm * rp) factor
  om : ℝ
  hom : Rnd u (1 - r) om
  b_ : ℝ
  hb_ : b_ = if b > |om| ∧ b < op then b else 1
  kite : KiteRun u (sort3 r b_ 1).1 (sort3 r b_ 1).2.1 (sort3 r b_ 1).2.2
  area : ℝ
  harea : area = if b > |om| ∧ b < op then kite.out else 0
  y0 : ℝ
  hy0 : Rnd u (b2 + factor) y0
  kappa0 : ℝ
  hkappa0 : Rnd u (arctan2 area y0) kappa0
  y1 : ℝ
  hy1 : Rnd u (b2 - factor) y1
  kappa1 : ℝ
  hkappa1 : Rnd u (arctan2 area y1) kappa1

open Classical in
/-- A floating-point run of the first component of `s0s2(b, r, b2, r2, area, kappa0, kappa1)`,
`core/limb_dark.py:120-137`; `pi` is the constant `jnp.pi`. -/
structure S0Run (u pi b r r2 area kappa0 kappa1 : ℝ) where
  bpr : ℝ
  hbpr : Rnd u (b + r) bpr
  e1 : ℝ
  he1 : Rnd u (1 + bpr) e1
  e2 : ℝ
  he2 : Rnd u (1 - bpr) e2
  onembpr2 : ℝ
  honembpr2 : Rnd u (e1 * e2) onembpr2
  t1 : ℝ
  ht1 : Rnd u (1 - r2) t1
  s0_lrg : ℝ
  hs0_lrg : Rnd u (pi * t1) s0_lrg
  a1 : ℝ
  ha1 : Rnd u (r2 * kappa0) a1
  a2 : ℝ
  ha2 : Rnd u (kappa1 + a1) a2
  a3 : ℝ
  ha3 : Rnd u (area * 0.5) a3
  Alens : ℝ
  hAlens : Rnd u (a2 - a3) Alens
  s0_sml : ℝ
  hs0_sml : Rnd u (pi - Alens) s0_sml
  delta1 : ℝ
  hdelta1 : Rnd u (4 * b) delta1
  delta : ℝ
  hdelta : Rnd u (delta1 * r) delta
  sum : ℝ
  hsum : Rnd u (onembpr2 + delta) sum
  s0 : ℝ
  hs0 : s0 = if sum > delta then s0_lrg else s0_sml

open Classical in
/-- A floating-point run of `light_curve([], b, r)`, `core/limb_dark.py:39-47`, through `solution_vector(0)(b, r)`,
lines 55-72. -/
structure UniformRun (u b r : ℝ) where
  pi : ℝ
  hpi : Rnd u π pi
  g0 : ℝ
  hg0 : Rnd u (1 / pi) g0
  op : ℝ
  hop : Rnd u (1 + |r|) op
  kappas : KappasRun u |b| |r| op
  opb : ℝ
  hopb : Rnd u (1 + |b|) opb
  b_ : ℝ
  hb_ : b_ = if |b| ≥ op ∨ opb ≤ |r| then 1 else |b|
  r2 : ℝ
  hr2 : Rnd u (|r| * |r|) r2
  s0run : S0Run u pi b_ |r| r2 kappas.area kappas.kappa0 kappas.kappa1
  s0 : ℝ
  hs0 : s0 = if opb ≤ |r| then 0 else if |b| ≥ op then pi else s0run.s0
  prod : ℝ
  hprod : Rnd u (s0 * g0) prod
  out : ℝ
  hout : Rnd u (prod - 1) out

end Jaxoplanet.LimbDarkFloat
