import Verif.Model.Kepler

/-!
# `src/jaxoplanet/core/kepler.py` in floating-point arithmetic

The same program as `Model/Kepler.lean`, with a rounding error in every operation.  A *run* of a function records the
values of all its intermediate results; each is the exact result of one operation on the recorded operands up to a
relative error of at most `u` (the standard model of floating-point arithmetic).  A run is non-deterministic: every
operation may make any error within the bound, so the runs contain IEEE round-to-nearest and directed rounding, fused
multiply-adds (no error in the product), and any library `sin`, `cos`, `tan`, `cbrt` that is accurate to `u`.

Simplifications: underflow and overflow are not represented; multiplication by `2` and `0.5`, which is exact, is allowed to
round; comparisons, negation and `abs` are exact, as they are in floating point.
-/

namespace Jaxoplanet.KeplerFloat

open Real

/-- `y` is `x` up to a relative error of `u`: what one floating-point operation of `core/kepler.py:27-108` returns when
its exact result is `x` -/
def Rnd (u x y : ℝ) : Prop := |y - x| ≤ u * |x|

/-- A floating-point run of `starter(M, ecc, ome)`, `core/kepler.py:82-92`.  `pi` is the constant `jnp.pi`. -/
structure StarterRun (u pi M ecc ome : ℝ) where
  M2 : ℝ
  hM2 : Rnd u (M * M) M2
  c1 : ℝ
  hc1 : Rnd u (3 * pi) c1
  c2 : ℝ
  hc2 : Rnd u (6 / pi) c2
  c3 : ℝ
  hc3 : Rnd u (pi - c2) c3
  c4 : ℝ
  hc4 : Rnd u (c1 / c3) c4
  c5 : ℝ
  hc5 : Rnd u 1.6 c5
  c6 : ℝ
  hc6 : Rnd u (c5 / c3) c6
  m1 : ℝ
  hm1 : Rnd u (pi - M) m1
  m2 : ℝ
  hm2 : Rnd u (c6 * m1) m2
  m3 : ℝ
  hm3 : Rnd u (1 + ecc) m3
  m4 : ℝ
  hm4 : Rnd u (m2 / m3) m4
  alpha : ℝ
  halpha : Rnd u (c4 + m4) alpha
  d1 : ℝ
  hd1 : Rnd u (3 * ome) d1
  d2 : ℝ
  hd2 : Rnd u (alpha * ecc) d2
  d : ℝ
  hd : Rnd u (d1 + d2) d
  alphad : ℝ
  halphad : Rnd u (alpha * d) alphad
  r1 : ℝ
  hr1 : Rnd u (3 * alphad) r1
  r2 : ℝ
  hr2 : Rnd u (d - ome) r2
  r3 : ℝ
  hr3 : Rnd u (r1 * r2) r3
  r4 : ℝ
  hr4 : Rnd u (r3 + M2) r4
  r : ℝ
  hr : Rnd u (r4 * M) r
  q0 : ℝ
  hq0 : Rnd u (2 * alphad) q0
  q1 : ℝ
  hq1 : Rnd u (q0 * ome) q1
  q : ℝ
  hq : Rnd u (q1 - M2) q
  q2 : ℝ
  hq2 : Rnd u (q * q) q2
  s1 : ℝ
  hs1 : Rnd u (q2 * q) s1
  s2 : ℝ
  hs2 : Rnd u (r * r) s2
  s3 : ℝ
  hs3 : Rnd u (s1 + s2) s3
  s4 : ℝ
  hs4 : Rnd u (√s3) s4
  s5 : ℝ
  hs5 : Rnd u (|r| + s4) s5
  s6 : ℝ
  hs6 : Rnd u (cbrt s5) s6
  w : ℝ
  hw : Rnd u (s6 * s6) w
  n1 : ℝ
  hn1 : Rnd u (2 * r) n1
  n2 : ℝ
  hn2 : Rnd u (n1 * w) n2
  p1 : ℝ
  hp1 : Rnd u (w * w) p1
  p2 : ℝ
  hp2 : Rnd u (w * q) p2
  p3 : ℝ
  hp3 : Rnd u (p1 + p2) p3
  p4 : ℝ
  hp4 : Rnd u (p3 + q2) p4
  n3 : ℝ
  hn3 : Rnd u (n2 / p4) n3
  n4 : ℝ
  hn4 : Rnd u (n3 + M) n4
  out : ℝ
  hout : Rnd u (n4 / d) out

/-- A floating-point run of `refine(M, ecc, ome, E)`, `core/kepler.py:95-108`. -/
structure RefineRun (u M ecc ome E : ℝ) where
  sn : ℝ
  hsn : Rnd u (sin E) sn
  sE : ℝ
  hsE : Rnd u (E - sn) sE
  cs : ℝ
  hcs : Rnd u (cos E) cs
  cE : ℝ
  hcE : Rnd u (1 - cs) cE
  a1 : ℝ
  ha1 : Rnd u (ecc * sE) a1
  a2 : ℝ
  ha2 : Rnd u (E * ome) a2
  a3 : ℝ
  ha3 : Rnd u (a1 + a2) a3
  f_0 : ℝ
  hf_0 : Rnd u (a3 - M) f_0
  b1 : ℝ
  hb1 : Rnd u (ecc * cE) b1
  f_1 : ℝ
  hf_1 : Rnd u (b1 + ome) f_1
  e1 : ℝ
  he1 : Rnd u (E - sE) e1
  f_2 : ℝ
  hf_2 : Rnd u (ecc * e1) f_2
  f_3 : ℝ
  hf_3 : Rnd u (1 - f_1) f_3
  g1 : ℝ
  hg1 : Rnd u (0.5 * f_0) g1
  g2 : ℝ
  hg2 : Rnd u (g1 * f_2) g2
  g3 : ℝ
  hg3 : Rnd u (g2 / f_1) g3
  g4 : ℝ
  hg4 : Rnd u (f_1 - g3) g4
  d_3 : ℝ
  hd_3 : Rnd u (-f_0 / g4) d_3
  h1 : ℝ
  hh1 : Rnd u (0.5 * d_3) h1
  h2 : ℝ
  hh2 : Rnd u (h1 * f_2) h2
  h3 : ℝ
  hh3 : Rnd u (f_1 + h2) h3
  h4 : ℝ
  hh4 : Rnd u (d_3 * d_3) h4
  h5 : ℝ
  hh5 : Rnd u (h4 * f_3) h5
  h6 : ℝ
  hh6 : Rnd u (h5 / 6) h6
  h7 : ℝ
  hh7 : Rnd u (h3 + h6) h7
  d_4 : ℝ
  hd_4 : Rnd u (-f_0 / h7) d_4
  d_42 : ℝ
  hd_42 : Rnd u (d_4 * d_4) d_42
  i1 : ℝ
  hi1 : Rnd u (0.5 * d_4) i1
  i2 : ℝ
  hi2 : Rnd u (i1 * f_2) i2
  i3 : ℝ
  hi3 : Rnd u (f_1 + i2) i3
  i4 : ℝ
  hi4 : Rnd u (d_4 * d_4) i4
  i5 : ℝ
  hi5 : Rnd u (i4 * f_3) i5
  i6 : ℝ
  hi6 : Rnd u (i5 / 6) i6
  i7 : ℝ
  hi7 : Rnd u (i3 + i6) i7
  i8 : ℝ
  hi8 : Rnd u (d_42 * d_4) i8
  i9 : ℝ
  hi9 : Rnd u (i8 * f_2) i9
  i10 : ℝ
  hi10 : Rnd u (i9 / 24) i10
  i11 : ℝ
  hi11 : Rnd u (i7 - i10) i11
  dE : ℝ
  hdE : Rnd u (-f_0 / i11) dE
  out : ℝ
  hout : Rnd u (E + dE) out

/-- A floating-point run of the conversion to the true anomaly, `core/kepler.py:45-56`.  `hk5'`: the argument of `tan` is a
floating-point number, and no floating-point number is a pole of the tangent (they are irrational). -/
structure ConvRun (u ecc E : ℝ) where
  k1 : ℝ
  hk1 : Rnd u (1 + ecc) k1
  k2 : ℝ
  hk2 : Rnd u (1 - ecc) k2
  k3 : ℝ
  hk3 : Rnd u (k1 / k2) k3
  k4 : ℝ
  hk4 : Rnd u (√k3) k4
  k5 : ℝ
  hk5 : Rnd u (0.5 * E) k5
  hk5' : cos k5 ≠ 0
  k6 : ℝ
  hk6 : Rnd u (tan k5) k6
  t : ℝ
  ht : Rnd u (k4 * k6) t
  t2 : ℝ
  ht2 : Rnd u (t * t) t2
  k7 : ℝ
  hk7 : Rnd u (1 + t2) k7
  denom : ℝ
  hdenom : Rnd u (1 / k7) denom
  k8 : ℝ
  hk8 : Rnd u (2 * t) k8
  sinf : ℝ
  hsinf : Rnd u (k8 * denom) sinf
  k9 : ℝ
  hk9 : Rnd u (1 - t2) k9
  cosf : ℝ
  hcosf : Rnd u (k9 * denom) cosf

open Classical in
/-- A floating-point run of `kepler(M, ecc)`, `core/kepler.py:14-56`.  `M % (2 * jnp.pi)` is exact up to one rounding
(C's `fmod` is exact; a negative remainder gets the divisor added), so it is a value of `[0, two_pi]` within the relative
error `u` of `M - n * two_pi` for an integer `n`. -/
structure KeplerRun (u M ecc : ℝ) where
  pi : ℝ
  hpi : Rnd u π pi
  two_pi : ℝ
  htwo_pi : Rnd u (2 * pi) two_pi
  n : ℤ
  Mr : ℝ
  hMr : Rnd u (M - n * two_pi) Mr
  hMr0 : 0 ≤ Mr
  hMr1 : Mr ≤ two_pi
  /-- `2 * jnp.pi - M` -/
  Mh : ℝ
  hMh : Rnd u (two_pi - Mr) Mh
  ome : ℝ
  home : Rnd u (1 - ecc) ome
  start : StarterRun u pi (if pi < Mr then Mh else Mr) ecc ome
  ref : RefineRun u (if pi < Mr then Mh else Mr) ecc ome start.out
  /-- `2 * jnp.pi - E` -/
  Eh : ℝ
  hEh : Rnd u (two_pi - ref.out) Eh
  conv : ConvRun u ecc (if pi < Mr then Eh else ref.out)

/-- what the run returns, `core/kepler.py:56` -/
def KeplerRun.result {u M ecc : ℝ} (R : KeplerRun u M ecc) : ℝ × ℝ := (R.conv.sinf, R.conv.cosf)

end Jaxoplanet.KeplerFloat
