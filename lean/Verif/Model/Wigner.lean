import Mathlib.Analysis.SpecialFunctions.Sqrt

/-!
# Model of `src/jaxoplanet/starry/core/wigner3j.py`

Arithmetic is that of `ℝ`.  An array (a slice of the workspace) is a function of its index, zero where nothing was
written; all loops read and write indices in `[0, j2 + j3]` (so Python's negative indices play no role), and the
workspace is taken to be large enough (`j2 + j3 ≤ j2_max + j3_max`, as documented).  Divisions and square roots are
checked: a vanishing denominator or a negative radicand is an error of the model.
-/

namespace Jaxoplanet.Starry.Wig

/-- what can go wrong -/
inductive WErr where
  /-- `ZeroDivisionError`, or `inf`/`nan` from `numpy` -/
  | zeroDivision
  /-- `math.sqrt` of a negative number -/
  | domain
  /-- the `ValueError` of `wigner3j.py:266-268` -/
  | cannotInitialize
  deriving DecidableEq, Repr

/-- an array -/
abbrev Arr := ℤ → ℝ

open Classical in
/-- `x / y` -/
noncomputable def div (x y : ℝ) : Except WErr ℝ := if y = 0 then .error .zeroDivision else .ok (x / y)

open Classical in
/-- `math.sqrt(x)` -/
noncomputable def sqrt (x : ℝ) : Except WErr ℝ := if x < 0 then .error .domain else .ok (√x)

/-- `range(a, b)` -/
def rangeUp (a b : ℤ) : List ℤ := (List.range (b - a).toNat).map fun i : ℕ => a + (i : ℤ)

/-- `range(a, b, -1)` -/
def rangeDown (a b : ℤ) : List ℤ := (List.range (a - b).toNat).map fun i : ℕ => a - (i : ℤ)

/-- a `for` loop over a range; the flag that the body returns is `break` -/
def forLoop {σ : Type} (body : ℤ → σ → Except WErr (Bool × σ)) : List ℤ → σ → Except WErr σ
  | [], s => .ok s
  | j :: js, s => do
    let (brk, s') ← body j s
    if brk then .ok s' else forLoop body js s'

/-- `a[i] = v` -/
def set (F : Arr) (i : ℤ) (v : ℝ) : Arr := fun k => if k = i then v else F k

/-- `f[lo : hi + 1] = G[lo : hi + 1]` -/
def setRange (f : Arr) (lo hi : ℤ) (G : Arr) : Arr := fun k => if lo ≤ k ∧ k ≤ hi then G k else f k

/-- `f[lo : hi + 1] /= s`, with `s = scale_factor = 1000` -/
noncomputable def rescale (F : Arr) (lo hi : ℤ) : Arr := fun k => if lo ≤ k ∧ k ≤ hi then F k / 1000 else F k

/-- `A`, `wigner3j.py:29-32` -/
noncomputable def A (j j2 j3 m1 : ℤ) : Except WErr ℝ :=
  sqrt (((j ^ 2 - (j2 - j3) ^ 2) * ((j2 + j3 + 1) ^ 2 - j ^ 2) * (j ^ 2 - m1 ^ 2) : ℤ) : ℝ)

/-- `B` and `Yf`, `wigner3j.py:35-45` -/
def Yf (j j2 j3 m2 m3 : ℤ) : ℝ :=
  (((2 * j + 1) * ((m2 + m3) * (j2 * (j2 + 1) - j3 * (j3 + 1)) - (m2 - m3) * j * (j + 1)) : ℤ) : ℝ)

/-- `Xf`, `wigner3j.py:41-42` -/
noncomputable def Xf (j j2 j3 m1 : ℤ) : Except WErr ℝ := do
  let a ← A (j + 1) j2 j3 m1
  .ok (j * a)

/-- `Zf`, `wigner3j.py:48-49` -/
noncomputable def Zf (j j2 j3 m1 : ℤ) : Except WErr ℝ := do
  let a ← A j j2 j3 m1
  .ok ((j + 1) * a)

/-- `normalize`, `wigner3j.py:52-56` -/
noncomputable def normalize (f : Arr) (j_min j_max : ℤ) : Except WErr Arr := do
  let norm := (rangeUp j_min (j_max + 1)).foldl (fun norm j => norm + (2 * j + 1) * f j ^ 2) 0
  let r ← sqrt norm
  let _ ← div 1 r
  .ok (setRange f j_min j_max fun k => f k / r)

/-- `(-1) ** (j2 - j3 + m2 + m3)` -/
noncomputable def phase (j2 j3 m2 m3 : ℤ) : ℝ := (-1) ^ (j2 - j3 + m2 + m3)

open Classical in
/-- `determine_signs`, `wigner3j.py:59-63` -/
noncomputable def determineSigns (f : Arr) (j_min j_max j2 j3 m2 m3 : ℤ) : Arr :=
  if (f j_max < 0 ∧ phase j2 j3 m2 m3 > 0) ∨ (f j_max > 0 ∧ phase j2 j3 m2 m3 < 0) then
    setRange f j_min j_max fun k => f k * -1
  else f

/-- the state after the forward iteration -/
structure Fwd where
  undefined_min : Bool
  j_minus : ℤ
  F_minus : Arr
  sf : Arr

open Classical in
/-- the body of the forward scan, `wigner3j.py:183-194`; the state is (`sf`, `j_minus`) -/
noncomputable def fwdScanBody (j2 j3 m2 m3 m1 j : ℤ) (s : Arr × ℤ) : Except WErr (Bool × Arr × ℤ) := do
  let z ← Zf j j2 j3 m1
  let denominator := Yf j j2 j3 m2 m3 + z * s.1 (j - 1)
  let x ← Xf j j2 j3 m1
  if |x| > |denominator| ∨ x * denominator ≥ 0 ∨ denominator = 0 then
    .ok (true, s.1, j - 1)
  else
    let q ← div (-x) denominator
    .ok (false, set s.1 j q, s.2)

/-- the body of `wigner3j.py:196-197` -/
def fwdFillBody (j_minus : ℤ) (sf : Arr) (k : ℤ) (F : Arr) : Except WErr (Bool × Arr) :=
  .ok (false, set F (j_minus - k) (F (j_minus - k + 1) * sf (j_minus - k)))

open Classical in
/-- the forward iteration, `wigner3j.py:151-202` -/
noncomputable def forward (j2 j3 m2 m3 m1 j_min j_max : ℤ) : Except WErr Fwd := do
  let Xm ← Xf j_min j2 j3 m1
  let Ym := Yf j_min j2 j3 m2 m3
  let zero : Arr := fun _ => 0
  if m1 = 0 ∧ m2 = 0 ∧ m3 = 0 then
    .ok ⟨false, j_min + 1, set (set zero j_min 1) (j_min + 1) 0, zero⟩
  else if Ym = 0 then
    if Xm = 0 then
      .ok ⟨true, j_min, zero, zero⟩
    else
      .ok ⟨false, j_min + 1, set (set zero j_min 1) (j_min + 1) 0, zero⟩
  else if Xm * Ym ≥ 0 then
    let q ← div (-Ym) Xm
    .ok ⟨false, j_min + 1, set (set zero j_min 1) (j_min + 1) q, zero⟩
  else
    let q ← div (-Xm) Ym
    let (sf, j_minus) ← forLoop (fwdScanBody j2 j3 m2 m3 m1) (rangeUp (j_min + 1) j_max) (set zero j_min q, j_max)
    let F ← forLoop (fwdFillBody j_minus sf) (rangeUp 1 (j_minus - j_min + 1)) (set zero j_minus 1)
    if j_minus = j_min then
      let q ← div (-Ym) Xm
      .ok ⟨false, j_min + 1, set F (j_min + 1) q, sf⟩
    else
      .ok ⟨false, j_minus, F, sf⟩

/-- the state after the reverse iteration -/
structure Rev where
  undefined_max : Bool
  j_plus : ℤ
  F_plus : Arr

open Classical in
/-- the body of the reverse scan, `wigner3j.py:242-253`; the state is (`rf`, `j_plus`) -/
noncomputable def revScanBody (j2 j3 m2 m3 m1 j : ℤ) (s : Arr × ℤ) : Except WErr (Bool × Arr × ℤ) := do
  let x ← Xf j j2 j3 m1
  let denominator := Yf j j2 j3 m2 m3 + x * s.1 (j + 1)
  let z ← Zf j j2 j3 m1
  if denominator = 0 ∨ |z| > |denominator| ∨ z * denominator ≥ 0 then
    .ok (true, s.1, j + 1)
  else
    let q ← div (-z) denominator
    .ok (false, set s.1 j q, s.2)

/-- the body of `wigner3j.py:255-256` -/
def revFillBody (j_plus : ℤ) (rf : Arr) (k : ℤ) (F : Arr) : Except WErr (Bool × Arr) :=
  .ok (false, set F (j_plus + k) (F (j_plus + k - 1) * rf (j_plus + k)))

open Classical in
/-- the reverse iteration, `wigner3j.py:211-259`; `rf` is an alias of `sf`, so it starts with what the forward
iteration left in `sf` -/
noncomputable def reverse (j2 j3 m2 m3 m1 j_min j_max j_minus : ℤ) (sf : Arr) : Except WErr Rev := do
  let Ym := Yf j_max j2 j3 m2 m3
  let Zm ← Zf j_max j2 j3 m1
  let zero : Arr := fun _ => 0
  if m1 = 0 ∧ m2 = 0 ∧ m3 = 0 then
    .ok ⟨false, j_max - 1, set (set zero j_max 1) (j_max - 1) 0⟩
  else if Ym = 0 then
    if Zm = 0 then
      .ok ⟨true, j_max, zero⟩
    else
      let q ← div (-Ym) Zm
      .ok ⟨false, j_max - 1, set (set zero j_max 1) (j_max - 1) q⟩
  else if Ym * Zm ≥ 0 then
    let q ← div (-Ym) Zm
    .ok ⟨false, j_max - 1, set (set zero j_max 1) (j_max - 1) q⟩
  else
    let q ← div (-Zm) Ym
    let (rf, j_plus) ← forLoop (revScanBody j2 j3 m2 m3 m1) (rangeDown (j_max - 1) (j_minus - 1)) (set sf j_max q, j_min)
    let F ← forLoop (revFillBody j_plus rf) (rangeUp 1 (j_max - j_plus + 1)) (set zero j_plus 1)
    if j_plus = j_max then
      let q ← div (-Ym) Zm
      .ok ⟨false, j_max - 1, set F (j_max - 1) q⟩
    else
      .ok ⟨false, j_plus, F⟩

open Classical in
/-- the body of the upward recurrence, `wigner3j.py:273-282`; the state is (`F_minus`, `j_mid`).  `numpy` compares
`x / 0` (`inf` or `nan`) with `1.0` as false -/
noncomputable def upBody (j2 j3 m2 m3 m1 j_min j : ℤ) (s : Arr × ℤ) : Except WErr (Bool × Arr × ℤ) := do
  let z ← Zf j j2 j3 m1
  let x ← Xf j j2 j3 m1
  let v ← div (-(Yf j j2 j3 m2 m3 * s.1 j + z * s.1 (j - 1))) x
  let F := set s.1 (j + 1) v
  let F := if |F (j + 1)| > 1 then rescale F j_min (j + 1) else F
  if (F (j - 1) ≠ 0 ∧ |F (j + 1) / F (j - 1)| < 1) ∧ F (j + 1) ≠ 0 then
    .ok (true, F, j + 1)
  else
    .ok (false, F, s.2)

open Classical in
/-- the body of the downward recurrence, `wigner3j.py:291-297` and `:322-328` -/
noncomputable def downBody (j2 j3 m2 m3 m1 j_max j : ℤ) (F : Arr) : Except WErr (Bool × Arr) := do
  let x ← Xf j j2 j3 m1
  let z ← Zf j j2 j3 m1
  let v ← div (-(x * F (j + 1) + Yf j j2 j3 m2 m3 * F j)) z
  let F := set F (j - 1) v
  .ok (false, if |F (j - 1)| > 1 then rescale F (j - 1) j_max else F)

open Classical in
/-- the body of `wigner3j.py:310-316` -/
noncomputable def upOnlyBody (j2 j3 m2 m3 m1 j_min j : ℤ) (F : Arr) : Except WErr (Bool × Arr) := do
  let z ← Zf j j2 j3 m1
  let x ← Xf j j2 j3 m1
  let v ← div (-(z * F (j - 1) + Yf j j2 j3 m2 m3 * F j)) x
  let F := set F (j + 1) v
  .ok (false, if |F (j + 1)| > 1 then rescale F j_min (j + 1) else F)

open Classical in
/-- the three-term recurrence over the classical region, `wigner3j.py:262-329` -/
noncomputable def middle (j2 j3 m2 m3 m1 j_min j_max : ℤ) (fw : Fwd) (rv : Rev) : Except WErr Arr := do
  let zero : Arr := fun _ => 0
  if fw.undefined_min ∧ rv.undefined_max then
    .error .cannotInitialize
  else if ¬ fw.undefined_min ∧ ¬ rv.undefined_max then
    let j_mid := (fw.j_minus + rv.j_plus) / 2
    let (F_minus, j_mid) ← forLoop (upBody j2 j3 m2 m3 m1 j_min) (rangeUp fw.j_minus j_mid) (fw.F_minus, j_mid)
    let j_mid := if F_minus (j_mid - 1) ≠ 0 ∧ |F_minus j_mid / F_minus (j_mid - 1)| < 1.0e-6 then j_mid - 1 else j_mid
    let F_plus ← forLoop (downBody j2 j3 m2 m3 m1 j_max) (rangeDown rv.j_plus j_mid) rv.F_plus
    if j_mid = j_max then
      .ok (setRange zero j_min j_max F_minus)
    else if j_mid = j_min then
      .ok (setRange zero j_min j_max F_plus)
    else
      let _ ← div 1 (F_minus j_mid)
      .ok (setRange (setRange zero j_min j_mid fun k => F_minus k * F_plus j_mid / F_minus j_mid) (j_mid + 1) j_max F_plus)
  else if ¬ fw.undefined_min ∧ rv.undefined_max then
    let F ← forLoop (upOnlyBody j2 j3 m2 m3 m1 j_min) (rangeUp fw.j_minus rv.j_plus) fw.F_minus
    .ok (setRange zero j_min j_max F)
  else
    let F ← forLoop (downBody j2 j3 m2 m3 m1 j_max) (rangeDown rv.j_plus j_min) rv.F_plus
    .ok (setRange zero j_min j_max F)

open Classical in
/-- `Wigner3jCalculator(j2_max, j3_max).calculate(j2, j3, m2, m3)`, `wigner3j.py:75-335`; the result is indexed by `j1`.
The workspace is zeroed at the start, so the calls of one calculator are independent -/
noncomputable def calculate (j2 j3 m2 m3 : ℤ) : Except WErr Arr := do
  let m1 := -(m2 + m3)
  let zero : Arr := fun _ => 0
  let j_min := max |j2 - j3| |m2 + m3|
  let j_max := j2 + j3
  if |m2| > j2 ∨ |m3| > j3 then
    .ok zero
  else if j_max < j_min then
    .ok zero
  else if j_max = j_min then
    let r ← sqrt (2 * j_min + 1)
    let v ← div 1 r
    let f := set zero j_min v
    if (f j_min < 0 ∧ phase j2 j3 m2 m3 > 0) ∨ (f j_min > 0 ∧ phase j2 j3 m2 m3 < 0) then
      .ok (set f j_min (f j_min * -1))
    else
      .ok f
  else
    let fw ← forward j2 j3 m2 m3 m1 j_min j_max
    if fw.j_minus = j_max then
      let f ← normalize (setRange zero j_min j_max fw.F_minus) j_min j_max
      .ok (determineSigns f j_min j_max j2 j3 m2 m3)
    else
      let rv ← reverse j2 j3 m2 m3 m1 j_min j_max fw.j_minus fw.sf
      let f ← middle j2 j3 m2 m3 m1 j_min j_max fw rv
      let f ← normalize f j_min j_max
      .ok (determineSigns f j_min j_max j2 j3 m2 m3)

/-- `Wigner3j`, `wigner3j.py:338-356` -/
noncomputable def wigner3jCall (j_1 j_2 j_3 m_1 m_2 m_3 : ℤ) : Except WErr ℝ :=
  if m_1 + m_2 + m_3 ≠ 0 then
    .ok 0
  else if |m_1| > j_1 ∨ |m_2| > j_2 ∨ |m_3| > j_3 then
    .ok 0
  else
    let (j_1, j_2, j_3, m_2, m_3) :=
      if j_1 = max j_1 (max j_2 j_3) then (j_1, j_2, j_3, m_2, m_3)
      else if j_2 = max j_1 (max j_2 j_3) then (j_2, j_3, j_1, m_3, m_1)
      else (j_3, j_1, j_2, m_1, m_2)
    if j_1 > j_2 + j_3 then
      .ok 0
    else do
      let w3j ← calculate j_2 j_3 m_2 m_3
      .ok (w3j j_1)

/-- `clebsch_gordan`, `wigner3j.py:359-364` -/
noncomputable def clebschGordan (j_1 m_1 j_2 m_2 j_3 m_3 : ℤ) : Except WErr ℝ := do
  let r ← sqrt (2 * j_3 + 1)
  let w ← wigner3jCall j_1 j_2 j_3 m_1 m_2 (-m_3)
  .ok ((-1) ^ (j_1 - j_2 + m_3) * r * w)

end Jaxoplanet.Starry.Wig
