# DESIGN — a Lean 4 model of jaxoplanet

## 1. What is modelled, and over what numbers

The code under study is `/repo/src/jaxoplanet` (read as text; never run here).
The model is in `lean/Verif/Model/*.lean`; each definition cites the file and
lines it transcribes.  `lean/Verif/Spec/*.lean` holds the small, independent
specifications (Kepler's equation, the exact orbit, the lens area, least squares,
…), `lean/Verif/Proofs/*.lean` the helper lemmas and `lean/Verif/Props/*.lean` the
property theorems, each next to a non‑vacuity example.

* **Numerics** (`kepler`, orbits, limb darkening, starry) are modelled over exact
  real numbers `ℝ` (and `kepler`, positions and uniform-star light curves also in floating-point arithmetic: C97, C100, C109).  IEEE‑754 rounding elsewhere, NaN/inf propagation, JAX tracing/jit/vmap
  lowering, dtype promotion are *not* modelled.  `jnp.where` is `if … then … else`.
  `arctan2` is `Complex.arg` (principal value, `arctan2(0,0)=0`, as in NumPy), `%` is the floored
  remainder (as `jnp.mod`).
* Lean's operations are total (`x/0 = 0`, `√(negative) = 0`, `tan (π/2) = 0`).  Theorems
  that pass near such a point carry the guard as an explicit hypothesis, or treat the point
  separately; the model uses explicit `Except` values where the Python raises.
* **Structural code** (Body checks, System histories, ObjectStack.vmap,
  unit decorator, Ylm/Pijk dictionaries, index maps) is modelled with `List`, `Option`,
  `Except`, finitely supported maps, so that the theorems are about all shapes and histories.

## 2. Trusted base

* Lean 4.33.0's kernel, with the axioms `propext`, `Classical.choice`, `Quot.sound`
  (the only ones any theorem depends on; no axioms are added, no compiled-code oracle is used).
* Mathlib's definitions of `Real.sin`, `Real.cos`, `Real.sqrt`, `Complex.arg`, `deriv`/`fderiv`,
  `∫`, `MeasureTheory.volume`, `Matrix.det`/`⁻¹` as the meaning of the specifications.
* My reading of the Python: there is no mechanical extraction. Every definition of the model cites
  the lines it transcribes.
* External libraries, represented by their documented behaviour (every such definition says so):
  * NumPy/JAX: elementwise arithmetic, `where`, `arctan2`, `mod`, `cbrt`, `linspace`, `stack`, `dot`;
    `searchsorted` on a sorted array is the number of smaller (or not larger) entries; `jnp.interp` with a
    period is the documented algorithm (wrap, sort, pad, cell lookup, linear formula); a static out-of-range
    index is clamped; `.at[...].set/.add`; `BCOO(...).todense()` adds up duplicates and drops indices
    outside the shape; arrays are nested lists;
  * `jax.vmap` maps the function over the slices and stacks the results, all mapped sizes must agree;
    `tree_flatten`/`tree_map` on dataclass-like modules; `jax.jit` and `custom_jvp` dispatch
    are not modelled (the *rule* given to `custom_jvp` is); automatic differentiation is modelled where C90 and later say so, as evaluation on
    numbers with derivatives, with the derivative rules of the primitives of `jax/_src/lax/lax.py` (`Model/Autodiff.lean`);
  * SciPy: `roots_legendre` is **universally quantified** (the theorems say for which rules they hold:
    e.g. exact on polynomials up to the degree, or an abstract quadrature operator), `csc_array` is a dense
    matrix, `scipy.sparse.linalg.inv` is the matrix inverse and raises on a singular matrix,
    `Rotation.as_euler` returns some Euler angles of the given rotation (universally quantified);
  * `pint`/`jpu` quantities are (magnitude, unit = size × dimension) and `.to` rescales or raises;
    `inspect.Signature.bind`; `equinox.Module` is an immutable record whose uninitialised field is an error;
  * Python: dictionaries are association lists with distinct keys in insertion order,
    `int(np.floor(np.sqrt(n)))` is the exact integer square root, `defaultdict`.
* Machine epsilons of the guards (`10 * finfo.eps`, `tiny`) are a *parameter* of the model; theorems either hold for
  every value of it or carry the hypothesis that the configuration is outside the guard band.

### Modelled / not modelled

| file | modelled | not modelled |
|---|---|---|
| `core/kepler.py`, `utils.py` | all (value and JVP rule); both also in floating-point arithmetic (standard model, C97, C115) | underflow and overflow, `jit` |
| `core/limb_dark.py` | all, and its automatic differentiation in both modes | float rounding, except for uniform and quadratically limb-darkened stars (C100, C109, C116, C118, C119) |
| `orbits/keplerian.py` | `Central`, `Body`, `OrbitalBody`, `System`, and the automatic differentiation of `OrbitalBody` (C94) | `__repr__`, array-valued (batched) bodies inside `vmap` other than through `ObjectStack`; float rounding, except for `relative_position` and `radial_velocity` (C109, C117) |
| `orbits/transit.py`, `orbits/ttv.py` | all, and the automatic differentiation of both (`ttv.py`: one planet) | NaN results of a singular fit (modelled as an error value) |
| `object_stack.py` | all, negative and prefix-tree `in_axes` and `out_axes` included (C99, C114) | what `jax.vmap` does with an `out_axes` out of range |
| `light_curves/*.py` | `integrate`, `interpolate`, `vectorize`, `limb_dark.light_curve`, `emission.light_curve` | the automatic differentiation of all of them is modelled as well; shape assertions on time are not |
| `units/*.py` | `quantity_input`, `field`, registry constants | pint internals |
| `starry/ylm.py`, `core/polynomials.py`, `core/basis.py`, `core/rotation.py`, `core/s2fft_rotation.py`, `core/solution.py` | all used by the public API; see C38–C49, C62–C65; `compute_rotation_matrices`, `rotar`, `dlmn` (C82); automatic differentiation of `solution.py` (C92) | float rounding |
| `starry/core/wigner3j.py` | all (C56) | float rounding; the workspace is fresh zeros (as after `workspace[:] = 0`), a Python negative index never occurs |
| `starry/surface.py`, `starry/light_curves.py`, `starry/doppler.py`, `starry/orbit.py`, `starry/system_observable.py` | yes, and the automatic differentiation of `surface_light_curve` (C93, with the orientation C101), of `light_curve` of a system (C102) and of `surface_radial_velocity` and `radial_velocity` (C103), of `render` and `intensity` (C107) | — |
| `starry/utils.py`, `starry/visualization.py` | `ortho_grid` (C66), lines, rotation, visibility and image of `show_surface` (C78) | matplotlib calls, colours |
| `starry/multiprecision/*` | caches (C55), `basis.py` (C71), `solution.py`, `flux.py`, `dot_rotation_matrix`, `dot_rz` (C72), `R`, `left_project` (C80) | working precision (numbers are exact, `mp.quad` is the integral, the LU solves of `A2` and the inverse of `U` are exact); in C72 the matrices `R` are a parameter assumed exact (C80 says how far they are, C81 removes the assumption in the limit) |

## 3. Findings about the code (all proved unless said otherwise)

* **F1** `light_curve(u, b=0, r=1)` with limb darkening does not return −1: the linear term of the solution vector keeps its unocculted value at this single point of total occultation (C28).
* **F2** `OrbitalBody` with `sin_omega_peri = -1` given as sin/cos: at `time_transit` the body is *behind* the star (C12).
* **F3** a body with `radial_velocity_semiamplitude` has `velocity() == central_velocity() == relative_velocity()` (C18, C61).
* **F4** `central_velocity` of a body without mass and semi-amplitude uses a mass of 1 M_sun.
* **F5** `ObjectStack` loop path does not check axis sizes, `jax.vmap` does.
* **F6** `integrate` with `num_samples` 0/1 and order 1/2 evaluates only the *start* of the exposure.
* **F7** `TTVOrbit`: bins use the fitted period, the base orbit the given one; with several planets and a scalar `time_transit` the constructor raises.
* **F8** `Ylm.__getitem__` outside the stored range returns another coefficient (index clamping / negative wrap).
* **F9** `polynomial_product_matrix` takes the degree of `p` to be one too large (`int(sqrt(len(p)))`); JAX clamps the index, so the result is the product with `p` plus its last coefficient times all monomials of the next degree (C83 `polynomialProductMatrix_value`, `polynomialProductMatrix_wrong`).
* **F10** the product of two maps (`Ylm.__mul__`) uses only one of the two 3j symbols of the product formula (the symbol with the zero orders is missing, with it the formula would be the one for *complex* harmonics): multiplication with a constant map multiplies the coefficients of degree l by a number proportional to (−1)^l √(2l+1), so it is not a scaling (`ylm_mul_constant`, `ylm_mul_not_scaling`, C75).
* **F11** `surface_light_curve` of a uniform map with an occultor ignores `amplitude` (row of the system = A + n(1−A)).
* **F12** `surface_radial_velocity` is proportional to `amplitude` (which should cancel); `radial_velocity` adds the reflex motion due to the first body only (C69, C70).
* **F13** `full_rotation_axis_angle` snaps rotations within `allclose` of the identity to exactly zero (C46); so `fast_direct_left_project` differs from `left_project` there (C79, `fastLeftProject_differs`).
* **F14** `system_observable` returns `None` for a system without a central surface (unreachable through the constructor, proved).
* **F15** `Central(mass, radius, density)` with all three leaves the fields uninitialised.
* **F16** `integrate` of a multi-body light curve relies on `jnp.dot` contracting the time axis (C104, see F47).
* **F17** `Surface(amplitude=A)` with `normalize=True` overwrites A by the (0,0) coefficient.
* **F18** `Pijk + scalar` shifts every stored coefficient, not the constant term.
* **F19** `sky_projection_axis_angle(None, obl)` rotates by +obl but `(0, obl)` by −obl.
* **F20** `right_project` with `inc=None` does not undo the obliquity of `left_project`.
* **F21** `solution_vector(0)` raises.
* **F22** `p_integral` caps the order of the polynomial terms at 20; at b=0, r=1 `solution_vector` returns the full flux.
* **F23** `system_observable` subtracts mutually overlapping occultations twice, so the flux of the star can become negative.
* **F24** `Ylm.normalize` raises `KeyError`, not the documented `ValueError`, when (0,0) is missing.
* **F25** `Surface.intensity(lat, lon)` evaluates the map at latitude −lat and longitude −lon (C67; the repository's test uses a map for which both agree).
* **F26** a surface without inclination: the brightness is that of a star seen from its pole (inclination 0), the velocity map that of a star seen from its equator (C68).
* **F27** a `Surface` without period has no `veq` (`TypeError`), so `surface_radial_velocity` raises for it (C69).
* **F28** the caches of `starry/multiprecision` do not contain the working precision: after a change of `mp.dps` the
  matrices of the old precision come back (`stale_after_precision_change`, C55). `get_R("R_obl", …)` without both
  angles gives back the inner dictionary of the cache (`getR_leaks_dict`).
* **F29** the reference `flux` raises for `b = 0` with `r ≤ 1` (division by zero), for a constant map or any limb darkening
  without occultation, and for `rotate=False` with a map (`flux_centred`, `flux_errors`, `flux_no_rotate`, C72).
* **F30** the reference `dot_rotation_matrix` replaces the coefficient of degree zero by 1: the reference flux does not
  depend on `y[0]` (`flux_ignores_mean`, C72).
* **F31** `show_surface` of a body with a radius: the image fills [-1, 1]² but the lines of latitude and longitude and the contour are
  drawn on a sphere of the radius of the body (`show_body_scaled`, C78).
* **F32** the reference `R`: the guards of the two special cases (`RA22 < -1 and RA22 > -1`, `RA22 < 1 and RA22 > 1`) are never true, so
  in exact arithmetic full turns, and half turns about an axis in the plane of the sky, divide by zero; only rounding errors of the
  arithmetic save them (`R_error_iff`, C80).
* **F33** the reference `left_project` raises for every nonzero `theta_z`: it passes five positional arguments to
  `dot_rotation_matrix(ydeg, u, theta, rotation_matrices)` (`leftProjectMp_theta_z`, C80).
* **F34** `core/rotation.py` `compute_rotation_matrices` with the axis `(0, 0, 0)`, which a comment says is handled, returns NaN matrices
  unless `cos theta` is within `10 eps` of 1 or -1 (C82 `computeRotationMatrices_zero_axis`).
* **F35** the same function drops the tilt of a rotation that moves the pole by a small angle (up to about `sqrt(20 eps)`: 5 arc minutes in
  float32): for the y axis it moves the pole by `(1 - cos theta) cos theta` instead of `sin theta` (C82 `computeRotationMatrices_band`).
* **F36** `core/limb_dark.py:168-169` sets `z2 = 1` where `z2 < 10 eps`, which makes the integrand of order 1 zero next to the limb instead of
  its limit. A concentric occultor with `0 < 1 - r² < 10 eps` therefore leaves the linear limb-darkening term as if there were no occultor
  (C84 `solution_one_annulus`); F1 is the end point of this band. Negligible in practice (`r` within 1e-15 of 1).
* **F37** `radial_velocity(system)` adds the velocity anomalies of simultaneous transits of the central, but the mean velocity is a quotient of integrals: with two planets in front of the star the sum is not the mean velocity of the visible part (`rv_not_additive`).
* **F38** The gradient of `core.limb_dark.light_curve` is `nan` exactly at `b = 0`, `|r| = 1` (in forward mode with limb darkening, in reverse mode always) and, in reverse mode, at `|b| = 1`, `r = 0`: `arctan2(0, 0)` in `kappas` (`gradient_not_finite`).
* **F39** `light_curves/limb_dark.py:56` computes `b = sqrt(x² + y²)` with the plain square root: the gradient of the light curve of an orbit is `nan` at every time at which `x = y = 0`, for example in mid-transit with a zero impact parameter; in reverse mode also in mid-eclipse, where the flux does not depend on the body (`orbit_gradient_not_finite`).
* **F40** `TransitOrbit(duration=...)` computes `speed = 2 sqrt(max(0, (1 + r)² − b²)) / duration` with the plain square root: for `|impact_param| ≥ 1 + radius_ratio` (no transit) the light curve is 0 whatever the parameters, but its gradient is `nan`, in reverse mode at every time (`no_transit_gradient`, `no_transit_flux`).
* **F41** `solution_vector(l_max, order)(b, r)` has `nan` derivatives where the occultor exactly covers the star (`b = 0`, `|r| = 1`) and for a point on the limb (`|b| = 1`, `r = 0`), in both modes (`solution_gradient_not_finite`): `jnp.arctan2(0, 0)` in `kappas`, as in F38 but without a `jnp.where` behind it.
* **F42** `surface_light_curve` of a map with an occultor exactly at the centre (`x = y = 0`) has a `nan` derivative in both modes, whatever the radius, and also when the occultor is behind the star (`surface_gradient_not_finite`): `jnp.sqrt(x**2 + y**2)` and `jnp.arctan2(x, y)` at zero are not guarded. A central transit of a circular orbit with impact parameter zero meets this at mid-transit and at mid-eclipse.
* **F43** an orbit with `sin_omega_peri = -1`, `cos_omega_peri = 0` (a valid argument of periastron, -pi/2) has `nan` derivatives of every position and velocity with respect to all parameters of the orbit (`orbit_derivatives_lost`): the time of transit is found with `arctan2(0, 0)`, also if the time of periastron is given and the result cancels. (This is the argument of periastron at which the value itself is wrong, F2.) The separation and position angle (`relative_angles`) have `nan` derivatives at zero separation.
* **F44** `index_helper` builds the index as `(slice(None),) * axis + (n,)`; a negative axis gives the empty tuple, so for bodies of different pytree structure `in_axes=-1` maps the *first* axis, for bodies of equal structure the last one (C99 `negative_axis_is_first`, `negative_axis_depends_on_structure`).
* **F45** `euler` replaces the angles by the constant 0 where `theta == 0.0`: at inclination exactly 0 (pole-on, without obliquity) the derivative of the light curve with respect to the inclination is silently 0 (C101 `orientation_gradient_wrong_at_pole`: the true derivative is 2√3/3 for a tilted equatorial dipole).
* **F46** an integrated light curve cannot be called with scalar keyword arguments: `jax.vmap` maps keyword arguments along their first axis, so it raises, or, if the axis has one entry per sample, evaluates each sample of the exposure with another entry (C104).
* **F47** `integrate` of a light curve with a matrix of values per time raises or, if the number of rows is the number of samples, averages over the rows instead of over the exposure (`jnp.dot` contracts the second to last axis) (C104).
* **F48** `interpolate` of the light curve of a `System` (one value per body, even for one body) succeeds, and every call of the result raises `ValueError` (C104).
* **F49** `TTVOrbit(ttvs=...)` for one planet turns `period` and `time_transit` into Python numbers (`.item()`): under `jax.jit` this raises, and without it the gradient of the light curve silently misses their effect on the transit times: with respect to `time_transit` it is 0 during a transit although the light curve shifts (C105).

## 4. Per-property plan

* **C01** kepler() returns a point of the unit circle — `kepler` over ℝ branch by branch; algebra on `1/(1+t²)`.
* **C02** kepler() is 2*pi periodic in the mean anomaly — periodicity of the floored remainder.
* **C03** kepler() is time-reversal symmetric — the `M>π` reflection branch; the point M≡π (mod 2π) (pole of tan) is treated separately.
* **C04** kepler() converts the eccentric to the true anomaly correctly — Kepler function strictly increasing & surjective (IVT); half‑angle identities; pole E=π as limit case.
* **C05** The Kepler starter and refinement divide by nothing that vanishes, and stop exactly at Kepler's equation — the starter's cubic (Cardano discriminant ≥ 0), the residual bound of C76 gives positivity of every stage's divisor.
* **C06** Circular limit of kepler() — starter at e=0 has f0 = E−M and the refinement is the exact Newton step.
* **C07** The custom derivative rule of kepler() is the true derivative — `HasDerivAt` of the exact solution through the implicit function / inverse function theorem.
* **C08** Central: density, mass and radius are consistent — `Except`-valued constructor, case analysis on presence; `rpow (1/3)`.
* **C09** Central.from_orbital_properties reproduces the period and semimajor axis — composition of the two constructor models.
* **C10** Body accepts exactly the documented parameter combinations — `Except`-valued check mirrored line by line; iff with an independently written predicate; any number of errors.
* **C11** Kepler's third law — both branches, real cube root algebra.
* **C12** Time of transit is a transit — M0/E0 construction → f = π/2 − ω; finding F2 (ω=−π/2 given as sin/cos) proved as a counterexample.
* **C13** Impact parameter and inclination determine each other — algebra.
* **C14** time_peri and time_transit are mutually consistent — algebra + kepler at M=0.
* **C15** Orbits are periodic — C02 lifted.
* **C16** Orbit geometry: distance law — rotations preserve the norm.
* **C17** Barycentre and relative frames agree — linearity of the rotation; M_tot = M_c+m.
* **C18** Velocity is the time derivative of position — chain rule on the exact orbit (C07). F3/F4: with semiamplitude or without mass it fails; proved as counterexamples.
* **C19** Radial velocity has the textbook form — algebra.
* **C20** System is an append-only list of bodies — List refinement over a history of add_body; body_vmap via C21.
* **C21** ObjectStack.vmap does not depend on whether objects stack — batched tensors as (shape, function); two paths; F5 counterexamples (size mismatch, unmapped output).
* **C22** TransitOrbit: duration and speed determine each other — algebra with max(0,·).
* **C23** TransitOrbit is periodic with transits at time_transit + n*period — floored remainder lemmas.
* **C24** TTV linear ephemeris is the least-squares fit — normal equations ⇒ minimiser.
* **C25** TTV time warping puts every observed transit at mid-transit — searchsorted as count of smaller edges; monotone edges.
* **C26** compute_expected_transit_times returns exactly the transits in the window — ceil/floor/arange/filter as lists.
* **C27** No occultation, no flux loss — solution vector = (π, 2π/3, 0, …).
* **C28** Total occultation removes all the flux — solution vector = 0; F1 (b=0,r=1) counterexample.
* **C29** Limb darkening basis transform is exact — binomial transform + backward recursion; induction over the order.
* **C30** Uniform star: the light curve is minus the geometric overlap fraction — measure of the intersection of two discs by Fubini + FTC; all regimes.
* **C31** kite_area is Heron's formula in any argument order — sort of three numbers; Heron.
* **C32** light_curve only depends on |b| and |r| — abs.
* **C33** Exposure-time integration is a weighted mean inside the exposure — stencil lists; sums over linspace; F6 counterexample.
* **C34** vectorize is elementwise over the time array — nested vmap over shape by induction.
* **C35** Interpolated light curve is periodic and exact at grid nodes — floored remainder, search in a sorted grid.
* **C36** limb_dark_light_curve vanishes unless a body is in front — C27 lifted.
* **C37** quantity_input converts or rejects, never changes the physical value — interpretation of decorator with quantities as value×factor×dimension.
* **C38** Ylm index is a bijection and dense conversion round-trips — Nat.sqrt arithmetic; F8 counterexample.
* **C39** Ylm normalisation — finite maps.
* **C40** Surface normalisation preserves the physical map — finite maps.
* **C41** Pijk arithmetic is polynomial arithmetic on the sphere — finite maps evaluated on the sphere; F9 counterexample.
* **C42** poly_basis evaluates the polynomial basis — loop invariant for the index fill.
* **C43** Green's basis is the curl basis — partial derivatives of z=√(1−x²−y²) fields.
* **C44** Limb-darkening basis change U — same machinery as C29 on the sphere.
* **C45** Rotation about the polar axis is a group action — Chebyshev recursion = cos/sin(mθ).
* **C46** Sky projection axis-angle is the composed rotation — quaternion product; F13 counterexample.
* **C47** Complex/real harmonic conversion is invertible — matrices over ℂ.
* **C48** The Q integral recursion computes the arc integrals — integration by parts reduction formulas.
* **C49** rT is the disc integral of the polynomial basis — Beta/Gamma function recursion.
* **C50** SurfaceSystem keeps bodies and surfaces paired — List refinement.
* **C51** system_observable combines central and body contributions by visibility — list fold model; F11/F14.
* **C52** surface_light_curve is the flux of the visible part of the mapped, limb-darkened disc — C42, C44, C49, C62–C65 composed; the quadrature rule enters as an operator.
* **C53** Unit system used for the orbit is consistent — registry constants; groupoid of factors.
* **C54** zero_safe_sqrt has the right value and a finite gradient — derivative.
* **C55** Memoised multiprecision tables are transparent — state machine (`Model/MpCache.lean`) with the nested
  dictionaries as association lists and the cached functions as parameters; invariant "every stored entry is the value
  of its function", induction over the history.
* **C56** The Wigner 3j and Clebsch-Gordan values are exact — Racah's formula as specification; its three-term recursion by telescoping (Zeilberger certificate), normalisation by orthogonality and Vandermonde's identity; then invariants of the forward, backward and middle loops (the values are a non-zero multiple of the symbols, no divisor vanishes), and the final normalisation with the sign of the top symbol.
* **C57** The limb-darkened light curve is the hidden fraction of the stellar flux — Green's theorem on the visible part of the disc; C29, C30.
* **C58** Orbits do not depend on the unit system — scaling of all lengths/masses/times by positive factors.
* **C59** Relative position is the textbook position of the given orbital elements — exact Keplerian orbit, rotation matrices.
* **C60** Equivalent forms of the same body argument give the same orbit — case analysis of the constructors.
* **C61** Velocities for a given semi-amplitude balance momentum — algebra; F3.
* **C62** A spherical harmonic map evaluates to the sum of real spherical harmonics — associated Legendre functions from Mathlib's polynomial derivative (Rodrigues), matched with the code's A/B/C factorial sums.
* **C63** Rotating map coefficients rotates the map — Wigner d recursion (`_compute_full`), harmonic homogeneous polynomials, Euler angles.
* **C64** The solution vector integrates the Green basis over the visible part of the star — Green's theorem in polar/arc form; P along the occultor, Q along the limb.
* **C65** The Green basis is a basis — linear independence by parity and degree, so `A2_inv` is invertible.
* **C66** Rendered intensity is the brightness of the mapped, limb-darkened, inclined sphere — C62, C63, C41, C42 composed at a point of the sphere.
* **C67** intensity(lat, lon) is the brightness of the map at that latitude and longitude — false as it stands (F25): proved for the mirrored point, with a counterexample.
* **C68** The velocity map is the line-of-sight velocity of the rotating star — explicit harmonics of degree 1 and 3 from C62; derivative of the rotated point.
* **C69** surface_radial_velocity is the brightness-weighted mean velocity of the visible part — as C52 with one more factor (products of three polynomials).
* **C70** radial_velocity of a system adds the reflex motion to the surface velocities — C51 and C20 composed.
* **C71** The multi-precision bases are the core bases, after any history — invariant of the memo table (`FacOk`) carried
  through a state monad; `Γ` of half-integers for the factorials.
* **C72** The multi-precision reference flux is the flux of the visible part of the disc — the integrands of `P` folded to
  those of the boundary integral of C64, then the composition of C52 with exact quadrature.
* **C73** ylm_spot puts a round spot where it is asked for — normal equations of the ridge fit (strictly convex cost), zonal
  harmonics are Legendre polynomials (C62), rotations of maps (C63).
* **C74** Limb darkening as a map — linear independence of the real harmonics on the sphere (Fourier coefficients in the
  longitude, degrees of the Rodrigues polynomials) gives det A1 ≠ 0.
* **C75** The product of two maps is the map of the product — false (F10): the exact coefficients for all maps, and the refutation by a constant factor.
* **C76** kepler() is accurate to 1.3e-13 — the residual of the starter is bounded by e·0.007·sin³(E/2): alternating Taylor bounds for sin and cos on half angles turn the claim into polynomial inequalities in (e, E, π) on a box, certified by Bernstein coefficients (`Proofs/KeplerBern.lean`, ordinary kernel-checked `norm_num`/`linarith` proofs); then a Taylor expansion with explicit remainder through the three refinement stages, and monotonicity of E − e sin E.
* **C77** Positions, velocities and transits with the code's own solver — C76 through the conversion formulas: in the orbital plane the error is that of the eccentric anomaly (x = a(cos E − e), y = a√(1−e²) sin E), and the orientation is an isometry; then C12, C18, C59 for an exact comparator.
* **C78** The grid lines of show_surface — conjugation of Rodrigues rotations: the lines' rotation is the map's rotation after turning the grid over (a half turn about x, which permutes the grid); then C66.
* **C79** fast_direct_left_project is left_project — the loop of rotate_flms in closed form; the transposed Wigner matrix is that of the inverse rotation (reproducing kernel of the forms); `C(l)` is the transpose of the unitary of `compute_rotation_matrices`; the sign changes of the axis turn rotY(−β) into rotY(β); linear independence of the harmonics gives equal coefficients. F13 stays: `_partial`, with a bound of the displacement for all inputs.
* **C80** The reference rotation matrices — Wigner's sum is the coefficient of the binomial expansion of `(c u − s v)^(2l−i) (s u + c v)^i`, i.e. the matrix of the substitution on forms (C47's `SymPow`); `U⁻¹ = U†`; the Euler angles read from the axis-angle matrix (cofactors); the guards of `beta = 0`, `theta = 0` and of the z axis are backward errors bounded by quaternion displacement; removed small entries give a forward error of the map.
* **C81** Reference flux with its own matrices — the matrices of `R` converge entrywise to exact rotation matrices as `dps` grows (C80); the rotated coefficients are finite sums of products, hence converge; the flux is linear in the rotated coefficients (the integral of each harmonic over the visible part), so it converges to the integral for the limit map; change of variables turns the occultor back.
* **C82** Recursive rotation matrices — the loops of `dlmn` are folds over ranges of integers; invariants say which region of the block already agrees with the Wigner matrix, written as the finite sum of products of powers of the half-angle cosine and sine. The recursion in the degree is the three-term recursion of Jacobi polynomials, proved from the coefficients; reflection and inversion are symmetries of the sum. The real form is the matrix of C80, whose harmonic property is proved there; the Euler angles give the rotation about the axis (C80).
* **C83** Product matrix — the nested loops are folds; the invariant says that the columns filled so far are the products of the polynomial with the basis elements (`z² = 1 - x² - y²` for two odd elements). The loop over `p` runs one degree too far, so the exact value has an additional term, which vanishes only if the last coefficient of `p` does (F9).
* **C84** Convergence of the light curve — a Gauss-Legendre rule is specified by its documented property (`Spec/Quadrature`): exact for polynomials of degree `< 2n`. Testing it with squares of node polynomials gives distinct nodes, positive weights, nodes inside; Weierstrass gives convergence for continuous integrands; existence from Rodrigues' formula (repeated integration by parts, Rolle), uniqueness from orthogonality. The code's integrand differs from the exact one only where a guard fires: bounded by a continuous bump supported next to the limb, whose integral is at most `π sqrt(5 eps / (b r))` (Jordan's inequality).
* **C85** Convergence of the light curve of a surface — C52 gives the error as a sum of quadrature errors of line integrals; those that are not polynomial converge by C84's theorem; the polynomial ones (capped at 20 nodes, F22) are trigonometric polynomials, whose derivatives are bounded by Leibniz' rule, and the error of Gauss-Legendre is bounded by interpolation at the Chebyshev nodes (repeated Rolle). The terms that the code replaces by constants (tiny occultors, occultors almost at the centre, nodes almost at the centre) are bounded pointwise (`pVal_close`).
* **C86** Spec `Spec/Transit` (star and body as spheres in space, `hiddenFraction`, `IsKeplerOrbit`). The hidden flux is invariant under rotations of the sky and scales with the radius; it is Lipschitz in the separation (the area between two shifted discs, by Fubini); C84 gives the convergence in the order, C77 the positions, so the errors add up (`transit_light_curve_accurate`). The hidden fraction is Lipschitz in time (velocity bound; intermediate value theorem where `z` changes sign), so C33 gives the exposure mean (`exposure_light_curve_accurate`).
* **C87** The radial velocity is a quotient of two contractions of the same design vector; C85 bounds the errors of both (`solutionVector_eventually`), and `quotient_error` the error of the quotient.
* **C88** The rows of the observable of a system (C51) are single occultations; each converges by C85 (spherical-harmonic surfaces) or C84 (uniform limb-darkened surfaces, the other branch of the code), or is exact when nothing is hidden (`beside_null`, `flux_beside`).
* **C89** The rows of the observable of a system (C51, C70) are single radial velocities; each converges by C87 or is exact when nothing is hidden (`mean_beside`); `rv_single` identifies the sum with the mean velocity of the visible part if one body transits.
* **C90** `core/limb_dark.py` again, on numbers with derivatives (`Model/LimbDarkGrad.lean`; the derivative is `none` if it is not finite; `jnp.where` in both modes). The values are those of the real model (`lightCurveD_v`); finiteness and agreement with `HasDerivAt` by one lemma per primitive.
* **C91** `TransitOrbit` on numbers with derivatives (`Model/TransitGrad.lean`), composed with C90; `jnp.mod` has the local derivatives 1 and −⌊x/y⌋ and is locally affine away from the jumps.
* **C92** `starry/core/solution.py` on numbers with derivatives (`Model/SolutionGrad.lean`), including the memo dictionary of `q_integral`; the entries of Q are tracked as limb integrals, those of P term by term (powers with exponents 0 or at least 1, the positive part to the power 3/2 is differentiable at zero).
* **C93** `surface_light_curve` on numbers with derivatives (`Model/SurfaceGrad.lean`): the maps between coefficients are the same programs on pairs, the rotations about the z axis are differentiated in the angle, the Wigner rotation by inclination and obliquity is constant. One relation, closed under the arithmetic (`Closed`), is carried through the whole program and instantiated with `has this value' and `has this derivative'.
* **C94** `OrbitalBody` and its methods on numbers with derivatives (`Model/OrbitGrad.lean`), `kepler` with its custom derivative rule. One relation between a function of a parameter and a number with derivative, closed under the operations of the program (`OrbitRel`), is carried through the constructor and all methods and instantiated with `has this value and a finite derivative' (any solver on the unit circle, in particular the program's) and `has this derivative' (an exact solver).
* **C95** composition of C94 and C90 (`Model/KeplerGrad.lean`): the position that C94 tracks is the input of the flux of C90; emission is the transit of the star in front of the body, seen from the other side.
* **C96** the derivative rule is Lipschitz on the unit circle with an explicit constant (`jvpTangent_stable`); with the accuracy of the solution (C76) and the correctness of the rule at the exact solution (C07).
* **C97** `Model/KeplerFloat.lean`: a run of the program records every intermediate value, each within the relative error `u` of the exact operation on the recorded operands, so a statement about every run is a statement about every combination of rounding errors.  The starter is relatively accurate to `23300 u` (`start_accurate`), the three stages of the refinement to a few tens of `u` (`refine_rounding`), the conversion moves the eccentric anomaly by `u` and the result by `32 u` (`conv_accurate`); combined with the exact accuracy of the refinement.  `float_exact`: the runs with `u = 0` are the exact model; `KeplerRun.ofRounding`: every rounding function into the rationals gives a run.
* **C98** `Proofs/CellRules.lean`: on a symmetric cell `[c - T, c + T]` the error of the midpoint, trapezoid and Simpson rule as a function of `T` has a derivative bounded by a power of `T` (so the constants are the classical ones); `Props/LightCurveAccuracy.lean`: the stencil of `integrate` is the composite rule (`integrate_composite`), the errors add.  Interpolation: `f + K x^2 / 2` and `-f + K x^2 / 2` are convex.  The end-to-end forms are in `Props/TransitAccuracy.lean`.
* **C99** `Model/StackAxes.lean`: `in_axes` as the caller writes it (integer, `None`, prefix trees), reduced to C21 by `flatten_axes`; `(slice(None),) * axis` with a negative axis is the empty tuple, so the loop path indexes axis 0: counterexample, and the statement for all calls that do not stack.
* **C100** `Model/LimbDarkFloat.lean`: runs of `light_curve([], b, r)` with a rounding error in every operation. Proof: the lens area as a function of kite area and cosines is stationary in the kite area (`arctan2_lin`), so the error of the area enters to the power 3/2; the cosines through `arctan2_sub_x`; misjudged contacts by inclusion of discs (`Proofs/DiscOverlap.lean`).
* **C101** `Model/InclGrad.lean`: `sky_projection_axis_angle`, `euler`, the Wigner recursion and `left_project` on dual numbers. Proof: every operation tracks the value and the derivative (`trE`), the cases of `C93` are reused through the `surface_*_core` theorems; at inclination zero the branch `theta == 0` is a constant.
* **C102** `Model/SystemGrad.lean`: `system_observable` and `rotational_phase` on dual numbers. Proof: one relation between functions and dual numbers (`Tracks`, or value and finiteness) is carried through the rows (`system_rows_core`), from C94 (positions), C101 (one surface) and C51 (the rows of the system).
* **C103** `Model/DopplerGrad.lean`: `surface_radial_velocity` and `radial_velocity` of a system on dual numbers. Proof: the relation of C102 is carried through the polynomial products and the quotient (`trE_projectVelocity`); the denominator is identified with the flux of the visible part (`visibleWeight_occulted`); the system from the generic `system_gradient_core` of C102.
* **C104** `Model/Transforms.lean`: the transforms on nested arrays, with `jax.vmap` (keyword arguments mapped along the first axis), `jnp.dot` (second to last axis) and `jnp.interp` (one-dimensional). Proof: each entry of the product is the scalar integral of C33; F46–F48 by evaluation for all functions and arguments.
* **C105** `Model/TTVGrad.lean`: `TTVOrbit` on numbers with derivatives, one planet: linear fit, `exp`/`log` of the period offset, bins (integers from `searchsorted`), `.item()`. Proof: the bin of a time is locally constant away from the edges, so the warped time is tracked and C91 applies; F49 by the derivative of an explicit transit.
* **C106** `Model/TransformGrad.lean`: `integrate`, `interpolate` and `jnp.interp(period=)` on numbers with derivatives, for a differentiated light curve given as a function. Proof: integration is a constant linear combination; for the interpolation, the cell of a time that is not a node is locally constant, every entry of the wrapped and padded table is a node plus an integer number of periods, and the result is the line through two such entries also where wrapping a node jumps.
* **C107** `Model/RenderGrad.lean`: `poly_basis`, `_intensity`, `render`, `full_rotation_axis_angle` (as called) and `intensity` on numbers with derivatives. Proof: the loops of `poly_basis` fill both programs alike (relational induction), the rest is the rotation of C101 and products of polynomials; `full_rotation_axis_angle` stays off its guards near a surface that is not seen pole-on. `Rotation.from_rotvec(v).apply` with derivatives is a parameter, specified in `Spec/RotvecGrad.lean` (witness: Rodrigues' formula).
* **C108** On the model of C52 (`Model/SurfaceLight.lean`). Proof: the polynomial of map times limb darkening is determined by its values on the whole sphere (monomials and Green basis are independent there, from the independence of the harmonics and the invertibility of `A1`, `A2_inv`), the entries of the solution vector do not depend on the degree, so the contraction with the design vector is a functional of the function alone.
* **C109** `Model/OrbitFloat.lean`: runs of `relative_position` and of the transit light curve that record every intermediate value (as C97 and C100, whose runs they contain). The rounding of the times and of the reduction of the mean anomaly is moved into the time (backward error), the rest is propagated forward through radius, rotations and separation; the covered area is Lipschitz in separation and radius. `position_run_exact`, `transit_run_exact`: with `u = 0` the runs are the exact model.
* **C110** `Props/LimbRate.lean`: the Gauss-Legendre rule of order `n` is exact for the Bernstein polynomial of degree `2n-1` of the integrand, which is within `L/√(2n-1)` of an integrand with Lipschitz constant `L`; the line integrands of limb darkening are Lipschitz in the angle with a constant that does not blow up at the limb, and what the guards change is dominated by a Lipschitz bump of any width `η ≥ eps`. All constants are explicit and uniform in the geometry.
* **C111** `Props/OrbitGradAccuracy.lean`: both runs of the differentiated model, with `kepler` and with an exact solver, are followed side by side: the error of the tangent of `kepler` (C96) enters the plane of the orbit through quotients with denominators `1 + e cos f ≥ 1 - e`, and the rotations are contractions whose rates of change multiply the error of the value.
* **C112** `Props/SurfaceRate.lean`: the integrand along the edge is Hölder of exponent 1/2 with explicit constants (a small class of bounded Hölder functions is closed under sums and products), which gives the rate of Gauss-Legendre quadrature uniformly; the coefficients of the map in the Green basis are bounded at all rotation angles, because the surface brightness on the unit sphere is.
* **C113** `Props/DopplerRate.lean`: the polynomials of the brightness and of velocity times brightness are followed on the whole sphere, where they are bounded at all phases, so that their coefficients in the Green basis are; with the rate of C112 the numerator and the flux are found uniformly, and the quotient follows as in C87.
* **C114** `Model/StackAxes.lean` (`vmapCallOut`), `Props/StackOutAxes.lean`: the structure of a result is a tree, `out_axes` is flattened against it, and a negative axis is resolved against the axes of the result; the calls of the two paths agree as in C21.
* **C115** `Model/KeplerJvpFloat.lean`, `Props/KeplerJvpFloat.lean`: runs of the derivative rule on the outputs of a run of `kepler` (C97); the two quotients are followed by relative errors, the sums by absolute ones; the exact rule is the derivative by C07.
* **C116** `Model/QuadraticFloat.lean`, `Props/QuadraticFloat.lean`: runs of `light_curve([u1, u2])` over the runs of C100; the entries of the solution vector are compared with closed forms that have no branches (`Proofs/QuadraticGeom`, `QuadraticS2`), the line integral node by node with its guards (`QuadraticNode`), and the rest is the rate of the rule and the normalised coefficients (`QuadraticP`, `QuadraticGreens`); the exact value is the flux by C57. Inside the disc the nodes are compared one by one with the exact program, so the error of the rule drops out.
* **C117** `Model/VelocityFloat.lean`, `Props/VelocityFloat.lean`: runs of `radial_velocity` over the runs of the anomaly of C109 (Kepler solver: C97); the amplitude by relative errors, the velocity components and the rotation by absolute errors; without rounding a run is the program of C17–C19.
* **C118** `Model/QuadraticTransitFloat.lean`, `Props/QuadraticTransitFloat.lean`: a run of the position (C109) followed by a run of the light curve (C116); rounding the separation and the radius ratio changes the hidden flux by the profile times an area (`flux_near`), the position by the stability of the hidden fraction.
* **C119** `Model/ExposureFloat.lean`, `Props/ExposureFloat.lean`: rounded sample times, a rounded sum of the stencil, rounded weights and a dot product in any order; `FloatSum.error` and `FloatDot.error` of C116 and the convergence of C33.
