{"id": "C01", "title": "kepler() returns a point of the unit circle", "statement": "For every mean anomaly M and every eccentricity 0<=e<1, the pair (sin f, cos f) returned by kepler(M, e) satisfies sin^2+cos^2=1, so it is the sine and cosine of an actual angle.", "quantifier": "every real M, every e in [0,1)", "why_tests_cant": "Two-dimensional continuum of inputs; includes the branch cut at pi and the tan pole.", "anchors": ["src/jaxoplanet/core/kepler.py::_kepler"]}
{"id": "C02", "title": "kepler() is 2*pi periodic in the mean anomaly", "statement": "kepler(M + 2*pi*n, e) == kepler(M, e) for every integer number of orbits n.", "quantifier": "every M, every e, every integer n (positive and negative)", "why_tests_cant": "Unbounded number of orbits.", "anchors": ["src/jaxoplanet/core/kepler.py::_kepler"]}
{"id": "C03", "title": "kepler() is time-reversal symmetric", "statement": "kepler(-M, e) == (-sin f, cos f) where (sin f, cos f) = kepler(M, e): motion before and after periastron mirror each other.", "quantifier": "every M that is not a multiple of pi apart from the branch point, every e", "why_tests_cant": "The reflection branch is exercised on a continuum.", "anchors": ["src/jaxoplanet/core/kepler.py::_kepler"]}
{"id": "C04", "title": "kepler() converts the eccentric to the true anomaly correctly", "statement": "Whenever the internal starter+refinement lands on the solution E of Kepler's equation E - e sin E = M (mod 2*pi), the returned pair is exactly ((sqrt(1-e^2) sin E)/(1-e cos E), (cos E - e)/(1-e cos E)); the solution E exists and is unique for every M and 0<=e<1.", "quantifier": "every M, every e in [0,1)", "why_tests_cant": "Universally quantified real analysis: existence, uniqueness and an exact trigonometric identity with a pole.", "anchors": ["src/jaxoplanet/core/kepler.py::_kepler"]}
{"id": "C05", "title": "The Kepler refinement step stops exactly at Kepler's equation", "statement": "For 0<=e<1 and a mean anomaly folded into [0,pi], no quantity that the starter or any of the three refinement stages divides by is zero (nor is a square root taken of a negative number), and the refinement leaves the starter's eccentric anomaly unchanged if and only if it solves Kepler's equation. Wherever it is applied, the refinement leaves an exact solution unchanged.", "quantifier": "every M in [0,pi], every e in [0,1); for the last sentence every M, e and E", "why_tests_cant": "Division by zero at a single point of a continuum is not found by sampling.", "anchors": ["src/jaxoplanet/core/kepler.py::refine", "src/jaxoplanet/core/kepler.py::starter"]}
{"id": "C06", "title": "Circular limit of kepler()", "statement": "kepler(M, 0) == (sin M, cos M) for every M, so an explicitly zero eccentricity agrees with omitting the eccentricity.", "quantifier": "every real M", "why_tests_cant": "Continuum of M; needs the starter and refinement to be exact at e=0.", "anchors": ["src/jaxoplanet/core/kepler.py::_kepler", "src/jaxoplanet/core/kepler.py::starter", "src/jaxoplanet/core/kepler.py::refine", "src/jaxoplanet/orbits/keplerian.py::_get_true_anomaly"]}
{"id": "C07", "title": "The custom derivative rule of kepler() is the true derivative", "statement": "The JVP returned by kepler's custom rule equals the derivative of (sin f, cos f) of the exact Keplerian true anomaly along any smooth path of (M, e).", "quantifier": "every M, e in [0,1), every tangent (M_dot, e_dot)", "why_tests_cant": "A gradient test compares against finite differences at sample points only.", "anchors": ["src/jaxoplanet/core/kepler.py::_kepler_jvp"]}
{"id": "C08", "title": "Central: density, mass and radius are consistent", "statement": "Whichever of mass, radius and density are given to Central (none, one or two of them), construction either fails with the documented error or yields mass, radius, density with density*(4/3)*pi*radius^3 == mass and the given values unchanged.", "quantifier": "every combination of given and omitted arguments, every positive value", "why_tests_cant": "All argument-presence combinations times a continuum of values.", "anchors": ["src/jaxoplanet/orbits/keplerian.py::Central.__init__"]}
{"id": "C09", "title": "Central.from_orbital_properties reproduces the period and semimajor axis", "statement": "A Central built from (period, semimajor, radius, body_mass) has the mass such that an OrbitalBody with that body mass and either the period or the semimajor axis recovers the other one exactly.", "quantifier": "every positive period, semimajor, radius; every optional body mass", "why_tests_cant": "Continuum; round trip of two constructors.", "anchors": ["src/jaxoplanet/orbits/keplerian.py::Central.from_orbital_properties", "src/jaxoplanet/orbits/keplerian.py::OrbitalBody.__init__"]}
{"id": "C10", "title": "Body accepts exactly the documented parameter combinations", "statement": "Body(...) is accepted if and only if: exactly one of period/semimajor; every argument scalar; omega_peri not with sin/cos of it and these two only together; likewise asc_node; eccentricity iff some omega_peri form; at most one of impact_param/inclination; at most one of time_transit/time_peri. Otherwise a ValueError.", "quantifier": "all 2^n presence patterns and shapes of the arguments", "why_tests_cant": "Exponentially many presence patterns.", "anchors": ["src/jaxoplanet/orbits/keplerian.py::Body.__check_init__"]}
{"id": "C11", "title": "Kepler's third law", "statement": "For every OrbitalBody, 4 pi^2 a^3 == G (M_central + m) P^2, whether period or semimajor was supplied, and the supplied one is kept.", "quantifier": "every positive mass, period or semimajor axis", "why_tests_cant": "Continuum; two code paths.", "anchors": ["src/jaxoplanet/orbits/keplerian.py::OrbitalBody.__init__"]}
{"id": "C12", "title": "Time of transit is a transit", "statement": "At t = time_transit (+ any number of periods) the body is at conjunction: in the relative position x (before the asc_node rotation) is 0, the sky-projected separation equals |impact_param|*R_star and the body is in front (z > 0).", "quantifier": "every eccentricity in [0,1), omega, impact parameter/inclination, period, integer number of periods", "why_tests_cant": "Continuum of orbits; a degenerate omega exists where it fails.", "anchors": ["src/jaxoplanet/orbits/keplerian.py::OrbitalBody.__init__", "src/jaxoplanet/orbits/keplerian.py::OrbitalBody.relative_position"]}
{"id": "C13", "title": "Impact parameter and inclination determine each other", "statement": "If impact_param is given, the derived inclination reproduces it: cos(inclination)*a/R_star*(1-e^2)/(1+e sin omega) == impact_param, and giving that inclination instead yields the same impact_param; sin^2+cos^2=1.", "quantifier": "every e, omega, b with b < a/R_star*...", "why_tests_cant": "Continuum; partial function outside the physical range.", "anchors": ["src/jaxoplanet/orbits/keplerian.py::OrbitalBody.__init__", "src/jaxoplanet/orbits/keplerian.py::OrbitalBody.inclination"]}
{"id": "C14", "title": "time_peri and time_transit are mutually consistent", "statement": "A body built from time_peri reports exactly that time_peri, and a body rebuilt from the time_transit of another one has the same time_peri; periastron passage really happens at time_peri (distance a(1-e)).", "quantifier": "every orbit", "why_tests_cant": "Continuum; round trip.", "anchors": ["src/jaxoplanet/orbits/keplerian.py::OrbitalBody.__init__", "src/jaxoplanet/orbits/keplerian.py::OrbitalBody.time_peri"]}
{"id": "C15", "title": "Orbits are periodic", "statement": "position, central_position, relative_position, velocity and radial_velocity at t + n*period equal those at t.", "quantifier": "every t, every integer n, every orbit", "why_tests_cant": "Unbounded n.", "anchors": ["src/jaxoplanet/orbits/keplerian.py::OrbitalBody._get_true_anomaly", "src/jaxoplanet/orbits/keplerian.py::OrbitalBody._get_position_and_velocity"]}
{"id": "C16", "title": "Orbit geometry: distance law", "statement": "At every time, |relative position| == a(1-e^2)/(1+e cos f), lies within [a(1-e), a(1+e)], independent of inclination, omega and asc_node rotations.", "quantifier": "every t, every orbit", "why_tests_cant": "Continuum; composition of three rotations.", "anchors": ["src/jaxoplanet/orbits/keplerian.py::OrbitalBody._rotate_vector", "src/jaxoplanet/orbits/keplerian.py::OrbitalBody._get_position_and_velocity"]}
{"id": "C17", "title": "Barycentre and relative frames agree", "statement": "relative_position == position - central_position and M_central*central_position + m*position == 0 at every time.", "quantifier": "every t, every orbit, every masses (including mass omitted)", "why_tests_cant": "Continuum.", "anchors": ["src/jaxoplanet/orbits/keplerian.py::OrbitalBody.position", "src/jaxoplanet/orbits/keplerian.py::OrbitalBody.central_position", "src/jaxoplanet/orbits/keplerian.py::OrbitalBody.relative_position"]}
{"id": "C18", "title": "Velocity is the time derivative of position", "statement": "When no radial velocity semiamplitude is given, velocity(t), central_velocity(t) and relative_velocity(t) are d/dt of the respective positions for a body of given mass on the exact Kepler orbit.", "quantifier": "every t, every orbit", "why_tests_cant": "Continuum; needs differentiation of the implicit Kepler solution.", "anchors": ["src/jaxoplanet/orbits/keplerian.py::OrbitalBody.velocity", "src/jaxoplanet/orbits/keplerian.py::OrbitalBody.central_velocity", "src/jaxoplanet/orbits/keplerian.py::OrbitalBody.relative_velocity"]}
{"id": "C19", "title": "Radial velocity has the textbook form", "statement": "With semiamplitude K given, radial_velocity(t) == K (cos(omega+f) + e cos omega) irrespective of inclination; for a circular orbit K cos f; with a mass instead, the amplitude is K = 2 pi a sin i m /(P M_tot sqrt(1-e^2)).", "quantifier": "every t, orbit, K", "why_tests_cant": "Continuum; sign conventions.", "anchors": ["src/jaxoplanet/orbits/keplerian.py::OrbitalBody.radial_velocity"]}
{"id": "C20", "title": "System is an append-only list of bodies", "statement": "After any sequence of add_body calls, System.bodies is the original list followed by the added bodies in order, each bound to its own central if given and otherwise to the system's central, and every system-level quantity's k-th row is the k-th body's own result.", "quantifier": "every history of add_body calls, any number of bodies, homogeneous or heterogeneous", "why_tests_cant": "Unbounded histories.", "anchors": ["src/jaxoplanet/orbits/keplerian.py::System.__init__", "src/jaxoplanet/orbits/keplerian.py::System.add_body", "src/jaxoplanet/orbits/keplerian.py::System.body_vmap"]}
{"id": "C21", "title": "ObjectStack.vmap does not depend on whether objects stack", "statement": "For any list of objects and any function, the batched path (identical tree structures) and the per-object loop path return the same values, i.e. the result is the stack of func(obj_n, args sliced at n) along out_axes.", "quantifier": "every list length, every function, every non-negative in_axes, argument shape and out_axes", "why_tests_cant": "Unbounded sizes and arbitrary functions.", "anchors": ["src/jaxoplanet/object_stack.py::ObjectStack.vmap"]}
{"id": "C22", "title": "TransitOrbit: duration and speed determine each other", "statement": "TransitOrbit built from duration has the speed such that the projected separation is exactly R_star+R_p at mid-transit +- duration/2, and conversely; giving neither is an error.", "quantifier": "every positive duration/speed, impact parameter, radius ratio", "why_tests_cant": "Continuum; grazing and non-transiting boundary.", "anchors": ["src/jaxoplanet/orbits/transit.py::TransitOrbit.__init__"]}
{"id": "C23", "title": "TransitOrbit is periodic with transits at time_transit + n*period", "statement": "relative_position at t + n*period equals that at t; the folded time lies in [-P/2, P/2) and is congruent to t - time_transit mod P; z>0 exactly within duration/2 of a transit.", "quantifier": "every t, every integer n, every orbit", "why_tests_cant": "Unbounded n.", "anchors": ["src/jaxoplanet/orbits/transit.py::TransitOrbit.relative_position"]}
{"id": "C24", "title": "TTV linear ephemeris is the least-squares fit", "statement": "The (t0, period) fitted to transit times minimise the sum of squared residuals over all lines, residuals sum to zero and are orthogonal to the index; exactly linear times give zero ttvs.", "quantifier": "every list of at least 2 transit times with distinct indices", "why_tests_cant": "All data sets.", "anchors": ["src/jaxoplanet/orbits/ttv.py::_compute_linear_ephemeris_single"]}
{"id": "C25", "title": "TTV time warping puts every observed transit at mid-transit", "statement": "For a TTVOrbit built from increasing transit_times (and no explicit time_transit), every time is assigned to a nearest observed transit (also before the first and after the last one), the warped time is t minus that transit plus the fitted t0, and hence relative_position at every observed transit time is exactly mid-transit (x=0, in front); near a transit s the planet moves as speed*(t-s).", "quantifier": "every strictly increasing list of transit times, every t", "why_tests_cant": "Unbounded lists, every real t, bin boundaries.", "anchors": ["src/jaxoplanet/orbits/ttv.py::_compute_bin_edges_values_single", "src/jaxoplanet/orbits/ttv.py::_process_planet_dt_single", "src/jaxoplanet/orbits/ttv.py::TTVOrbit._warp_times"]}
{"id": "C26", "title": "compute_expected_transit_times returns exactly the transits in the window", "statement": "The returned times are, in increasing order and without repetition, exactly the t0 + n*P (n integer) with start <= time <= end.", "quantifier": "every window, every period>0, every t0", "why_tests_cant": "All windows and boundary coincidences.", "anchors": ["src/jaxoplanet/orbits/ttv.py::compute_expected_transit_times"]}
{"id": "C27", "title": "No occultation, no flux loss", "statement": "light_curve(u, b, r) == 0 exactly whenever |b| >= 1 + |r|, for any limb-darkening coefficients with non-zero total disc flux and any quadrature order.", "quantifier": "every u of every length, every (b,r) with b>=1+r", "why_tests_cant": "Unbounded length of u, continuum.", "anchors": ["src/jaxoplanet/core/limb_dark.py::light_curve", "src/jaxoplanet/core/limb_dark.py::solution_vector"]}
{"id": "C28", "title": "Total occultation removes all the flux", "statement": "light_curve(u, b, r) == -1 whenever the occultor covers the star (1+|b| <= |r|).", "quantifier": "every u, every (b,r) with 1+b<=r", "why_tests_cant": "The failing case is the single point b=0, r=1.", "anchors": ["src/jaxoplanet/core/limb_dark.py::solution_vector"]}
{"id": "C29", "title": "Limb darkening basis transform is exact", "statement": "The Green's basis coefficients returned for u reproduce the limb-darkened intensity profile 1 - sum u_i (1-mu)^i for every mu, and the normalisation constant equals the disc integral of this profile.", "quantifier": "every u of every length, every mu", "why_tests_cant": "Unbounded polynomial order.", "anchors": ["src/jaxoplanet/core/limb_dark.py::greens_basis_transform"]}
{"id": "C30", "title": "Uniform star: the light curve is minus the geometric overlap fraction", "statement": "For u=() and all b,r >= 0, light_curve == -(area of the intersection of the unit disc and the disc of radius r at distance b)/pi; hence between -1 and 0.", "quantifier": "every b, r", "why_tests_cant": "Continuum with four geometric regimes and their boundaries.", "anchors": ["src/jaxoplanet/core/limb_dark.py::s0s2", "src/jaxoplanet/core/limb_dark.py::kappas", "src/jaxoplanet/core/limb_dark.py::kite_area"]}
{"id": "C31", "title": "kite_area is Heron's formula in any argument order", "statement": "kite_area(a,b,c) is symmetric in its arguments and equals 4x the area of the triangle whenever a triangle exists, and never takes the square root of a negative number.", "quantifier": "every a,b,c", "why_tests_cant": "All permutations of a continuum.", "anchors": ["src/jaxoplanet/core/limb_dark.py::kite_area"]}
{"id": "C32", "title": "light_curve only depends on |b| and |r|", "statement": "light_curve(u, -b, r) == light_curve(u, b, -r) == light_curve(u, b, r).", "quantifier": "every u, b, r", "why_tests_cant": "Continuum.", "anchors": ["src/jaxoplanet/core/limb_dark.py::solution_vector"]}
{"id": "C33", "title": "Exposure-time integration is a weighted mean inside the exposure", "statement": "For order 0, 1, 2 and any num_samples (made odd), integrate(f) evaluates f at sample times within [t - exposure/2, t + exposure/2], symmetric about t, with non-negative symmetric weights summing to one: constants are preserved, order 0/1 integrate affine f exactly, order 2 cubic f exactly.", "quantifier": "every order, num_samples, exposure time, function, time", "why_tests_cant": "Unbounded num_samples and arbitrary functions.", "anchors": ["src/jaxoplanet/light_curves/transforms.py::integrate"]}
{"id": "C34", "title": "vectorize is elementwise over the time array", "statement": "A vectorised light curve applied to an array of times of any shape returns, at each index, the scalar light curve at that time, with time axes leading.", "quantifier": "every shape, every function", "why_tests_cant": "Unbounded shapes.", "anchors": ["src/jaxoplanet/light_curves/utils.py::vectorize"]}
{"id": "C35", "title": "Interpolated light curve is periodic and exact at grid nodes", "statement": "interpolate(f) at t equals f at grid nodes, is periodic in t with the given period, and within a grid cell is the linear interpolant between the neighbouring nodes.", "quantifier": "every t, period, duration, number of samples", "why_tests_cant": "Continuum and unbounded number of orbits.", "anchors": ["src/jaxoplanet/light_curves/transforms.py::interpolate"]}
{"id": "C36", "title": "limb_dark_light_curve vanishes unless a body is in front", "statement": "Each body's flux term is 0 whenever it is behind the star or its projected separation is at least R_star+R_body.", "quantifier": "every orbit, every time, every body", "why_tests_cant": "Continuum.", "anchors": ["src/jaxoplanet/light_curves/limb_dark.py::light_curve"]}
{"id": "C37", "title": "quantity_input converts or rejects, never changes the physical value", "statement": "A decorated function receives each annotated argument expressed in the declared unit and physically equal to the caller's value; bare values are tagged with the unit (strict: rejected), None defaults pass through, incompatible dimensions raise, unknown names, *args and **kwargs raise at decoration time.", "quantifier": "every signature, every unit specification, every call", "why_tests_cant": "All signatures and pytrees of arguments.", "anchors": ["src/jaxoplanet/units/decorator.py::QuantityInput", "src/jaxoplanet/units/decorator.py::_apply_units", "src/jaxoplanet/units/field.py::field"]}
{"id": "C38", "title": "Ylm index is a bijection and dense conversion round-trips", "statement": "(l,m) -> l(l+1)+m is a bijection from {|m|<=l} to the naturals with the inverse used in from_dense; todense followed by from_dense(normalize=False) gives back every coefficient; the dense vector has length (deg+1)^2.", "quantifier": "every degree, every coefficient dictionary", "why_tests_cant": "Unbounded degree.", "anchors": ["src/jaxoplanet/starry/ylm.py::Ylm.index", "src/jaxoplanet/starry/ylm.py::Ylm.todense", "src/jaxoplanet/starry/ylm.py::Ylm.from_dense"]}
{"id": "C39", "title": "Ylm normalisation", "statement": "Ylm.normalize divides every coefficient by the (0,0) coefficient, is idempotent, and fails when there is none.", "quantifier": "every coefficient dictionary", "why_tests_cant": "Unbounded maps.", "anchors": ["src/jaxoplanet/starry/ylm.py::Ylm.normalize"]}
{"id": "C40", "title": "Surface normalisation preserves the physical map", "statement": "A Surface built with normalize=True has amplitude*y equal to the input map, y[(0,0)]=1; without it the amplitude and map are kept.", "quantifier": "every map, amplitude", "why_tests_cant": "All maps.", "anchors": ["src/jaxoplanet/starry/surface.py::Surface.__init__"]}
{"id": "C41", "title": "Pijk arithmetic is polynomial arithmetic on the sphere", "statement": "For Pijk polynomials p,q, (p+q) and (p*q) evaluate at every point with x^2+y^2+z^2=1 to p+q and p*q, keep k<=1, and the index maps between (i,j,k), (l,m) and n are mutually inverse.", "quantifier": "every pair of polynomials, every point of the sphere, every degree", "why_tests_cant": "Unbounded degree.", "anchors": ["src/jaxoplanet/starry/core/polynomials.py::Pijk._mul", "src/jaxoplanet/starry/core/polynomials.py::Pijk._add", "src/jaxoplanet/starry/core/polynomials.py::Pijk.n2ijk"]}
{"id": "C42", "title": "poly_basis evaluates the polynomial basis", "statement": "poly_basis(deg)(x,y,z) has (deg+1)^2 entries, n-th entry x^i y^j z^k with (i,j,k) = the n-th basis exponent.", "quantifier": "every degree, every (x,y,z)", "why_tests_cant": "Unbounded degree, in-place loop fill.", "anchors": ["src/jaxoplanet/starry/core/basis.py::poly_basis", "src/jaxoplanet/starry/core/basis.py::ptilde"]}
{"id": "C43", "title": "Green's basis is the curl basis", "statement": "gtilde(n) evaluates at every point of the sphere with z>0 to (D ^ G_n), the exterior derivative of the Green's vector field G_n that the solution integrals use.", "quantifier": "every n, every (x,y) in the open disc", "why_tests_cant": "Unbounded n, differential identity.", "anchors": ["src/jaxoplanet/starry/core/basis.py::gtilde"]}
{"id": "C44", "title": "Limb-darkening basis change U", "statement": "The limb darkening transform applied to u evaluates to the profile 1 - sum u_k (1-z)^k (up to the documented sign convention) for all degrees.", "quantifier": "every u of every length", "why_tests_cant": "Unbounded degree.", "anchors": ["src/jaxoplanet/starry/core/basis.py::utilde", "src/jaxoplanet/starry/core/basis.py::U"]}
{"id": "C45", "title": "Rotation about the polar axis is a group action", "statement": "dot_rz(lmax, theta) mixes (l,m) and (l,-m) by the angle m*theta; theta=0 is the identity, composition adds angles, the norm of every degree block is preserved and m=0 is fixed.", "quantifier": "every lmax, every theta, every coefficient vector", "why_tests_cant": "Unbounded degree; Chebyshev recursion.", "anchors": ["src/jaxoplanet/starry/core/rotation.py::dot_rz"]}
{"id": "C46", "title": "Sky projection axis-angle is the composed rotation", "statement": "The axis returned by the sky projection has unit norm and the rotation it encodes equals the composition of the obliquity and inclination rotations, for all inclination/obliquity, including the degenerate ones.", "quantifier": "every inclination and obliquity", "why_tests_cant": "Continuum with removable singularities.", "anchors": ["src/jaxoplanet/starry/core/rotation.py::sky_projection_axis_angle", "src/jaxoplanet/starry/core/rotation.py::full_rotation_axis_angle"]}
{"id": "C47", "title": "Complex/real harmonic conversion is invertible", "statement": "y1d_to_2d and y2d_to_1d are mutually inverse and the real/complex change-of-basis matrices are unitary for every degree.", "quantifier": "every degree, every coefficient vector", "why_tests_cant": "Unbounded degree.", "anchors": ["src/jaxoplanet/starry/utils.py::y1d_to_2d", "src/jaxoplanet/starry/utils.py::y2d_to_1d", "src/jaxoplanet/starry/utils.py::C"]}
{"id": "C48", "title": "The Q integral recursion computes the arc integrals", "statement": "The recursive evaluation of the q integrals equals the definite integral of cos^(u) sin^(v) over the visible arc for every index.", "quantifier": "every degree, every angle lambda", "why_tests_cant": "Unbounded degree.", "anchors": ["src/jaxoplanet/starry/core/solution.py::q_integral"]}
{"id": "C49", "title": "rT is the disc integral of the polynomial basis", "statement": "rT(l) entries equal the integrals over the unit disc of x^i y^j z^k for every index.", "quantifier": "every degree", "why_tests_cant": "Unbounded degree; multi-dimensional integrals.", "anchors": ["src/jaxoplanet/starry/core/solution.py::rT"]}
{"id": "C50", "title": "SurfaceSystem keeps bodies and surfaces paired", "statement": "After any history of add_body calls, the k-th surface (or its absence) belongs to the k-th body, and a missing central surface is replaced by the default unit surface.", "quantifier": "every history of add_body calls", "why_tests_cant": "Unbounded histories.", "anchors": ["src/jaxoplanet/starry/orbit.py::SurfaceSystem"]}
{"id": "C51", "title": "system_observable combines central and body contributions by visibility", "statement": "The system light curve's first row is the central's flux summed over the bodies in front minus the overcounting, each body's row the body's flux, unoccluded rows equal the rotational light curve, and the number of rows is number of bodies + 1 irrespective of configuration.", "quantifier": "every system, every time", "why_tests_cant": "All configurations.", "anchors": ["src/jaxoplanet/starry/system_observable.py::system_observable"]}
{"id": "C52", "title": "surface_light_curve is the flux of the visible part of the mapped, limb-darkened disc", "statement": "For a surface with any valid map, limb darkening, inclination, obliquity, rotation angle and amplitude, surface_light_curve returns amplitude times the integral, over the stellar disc outside the occultor's disc at (x, y) with radius r, of the map seen by the observer times the limb-darkening profile, divided by the flux of the limb-darkened disc: exactly without occultor, with an occultor behind (z <= 0) or off the disc (b >= 1 + r), zero for total occultation, and up to the quadrature error along the occultor's edge otherwise. It scales with the amplitude, except (finding) that a uniform map with an occultor ignores the amplitude; coordinates that are None are 0; no input with a valid map raises.", "quantifier": "every map of every degree, u, inc, obl, theta, amplitude, occultor position and radius, quadrature rule and order", "why_tests_cant": "Continuum of geometries, unbounded degrees, three code paths; tests compare a few low degree maps with a reference numerically.", "anchors": ["src/jaxoplanet/starry/light_curves.py::surface_light_curve"]}
{"id": "C53", "title": "Unit system used for the orbit is consistent", "statement": "G*M_sun equals GM_sun in the registry, unit conversion round-trips and composes.", "quantifier": "every quantity and every pair of compatible units", "why_tests_cant": "All unit pairs.", "anchors": ["src/jaxoplanet/units/registry.py"]}
{"id": "C54", "title": "zero_safe_sqrt has the right value and a finite gradient", "statement": "zero_safe_sqrt(x) equals sqrt(x) for every x>=0, its custom tangent equals the derivative for x above the threshold and is finite (0) at 0.", "quantifier": "every x", "why_tests_cant": "Threshold boundary of a continuum.", "anchors": ["src/jaxoplanet/utils.py::zero_safe_sqrt"]}
{"id": "C55", "title": "Memoised multiprecision tables are transparent", "statement": "In any sequence of calls that share a cache object (flux.CACHED_MATRICES, or the caches of basis, rotation or solution), at one working precision, every call of A1, A2, get_R (with the angles the matrix needs) and get_sT returns what an uncached computation for these arguments would, whatever was requested before; the reference light curves built by flux() therefore do not influence each other. A request for a matrix that a cache object has no table for is a KeyError every time. (The working precision mp.dps is not part of the keys: F28.)", "quantifier": "every finite history of calls with every degree, angle and geometry; every cached function", "why_tests_cant": "The histories are unbounded; a test fixes one order of calls on a fresh process.", "anchors": ["src/jaxoplanet/starry/multiprecision/basis.py::get_A", "src/jaxoplanet/starry/multiprecision/rotation.py::get_R", "src/jaxoplanet/starry/multiprecision/solution.py::get_sT", "src/jaxoplanet/starry/multiprecision/flux.py::flux"]}
{"id": "C56", "title": "The Wigner 3j and Clebsch-Gordan values are exact", "statement": "For all integers, Wigner3jCalculator(j2, j3).calculate(j2, j3, m2, m3) neither divides by zero nor raises, and the entry j1 of its result is the 3j symbol given by Racah's formula, zero outside the selection rules; so is Wigner3j(j1, j2, j3, m1, m2, m3). clebsch_gordan gives, for fixed j1, j2, M, an orthonormal change of basis between the products |j1 m1>|j2 m2> and the coupled states |J M>, with the Condon-Shortley sign <j1 j1 j2 J-j1 | J J> > 0.", "quantifier": "all integers j1, j2, j3, m1, m2, m3 (also invalid ones)", "why_tests_cant": "The recursions, the choice of the meeting point, the rescalings and the special cases must work for unbounded quantum numbers; every one of the branches depends on the signs of the values computed so far.", "anchors": ["src/jaxoplanet/starry/core/wigner3j.py: Wigner3jCalculator, Wigner3j, clebsch_gordan"]}
{"id": "C57", "title": "The limb-darkened light curve is the hidden fraction of the stellar flux", "statement": "For every u with non-zero total flux and every b, r, light_curve(u, b, r) equals minus the Lebesgue integral of the limb-darkening profile over the part of the unit disc covered by the occultor, divided by its integral over the whole disc, up to the error of the quadrature rule on the line integrals of order 1 and >= 3 (orders 0 and 2 are exact).", "quantifier": "every u of every length, every b, r, every quadrature rule", "why_tests_cant": "Continuum of geometries, unbounded polynomial order, all quadrature rules.", "anchors": ["src/jaxoplanet/core/limb_dark.py::light_curve", "src/jaxoplanet/core/limb_dark.py::solution_vector", "src/jaxoplanet/core/limb_dark.py::p_integral", "src/jaxoplanet/core/limb_dark.py::s0s2"]}
{"id": "C58", "title": "Orbits do not depend on the unit system", "statement": "Describing the same star and body in other units of length, mass and time (all inputs multiplied by the factor of their dimension, Newton's constant accordingly) gives the same orbit: construction succeeds or fails alike and every position, velocity and radial velocity at the corresponding time is multiplied by the factor of its dimension.", "quantifier": "all stars, bodies, times, and all positive length, mass and time factors", "why_tests_cant": "a test fixes one set of units and a few bodies; a wrong power of a length or time in one branch only shows for particular option combinations", "anchors": ["src/jaxoplanet/orbits/keplerian.py:Central", "src/jaxoplanet/orbits/keplerian.py:OrbitalBody", "src/jaxoplanet/units"]}
{"id": "C59", "title": "Relative position is the textbook position of the given orbital elements", "statement": "For a body given by eccentricity, argument of periastron, inclination, node (each in any accepted form, or omitted) and an exact Kepler solver, relative_position(t) is the point (r cos f, r sin f, 0) turned by the argument of periastron about z, the inclination about x and the node about z (with the documented orientation of the sky axes), r = a(1-e^2)/(1+e cos f) and f the true anomaly at mean anomaly 2 pi (t - time_peri)/period.", "quantifier": "every accepted body, every time", "why_tests_cant": "Continuum of elements; sign and order of three rotations; several input forms", "anchors": ["src/jaxoplanet/orbits/keplerian.py::OrbitalBody.relative_position", "src/jaxoplanet/orbits/keplerian.py::OrbitalBody._rotate_vector"]}
{"id": "C60", "title": "Equivalent forms of the same body argument give the same orbit", "statement": "Angles may be given directly or as sine and cosine with identical results; the inclination and omega_peri properties return the given angle; a body's parallax is the default of the parallax argument and an explicit argument overrides it; relative_angles are polar coordinates of relative_position.", "quantifier": "every accepted body, every time and parallax", "why_tests_cant": "All combinations of options", "anchors": ["src/jaxoplanet/orbits/keplerian.py::OrbitalBody.__init__", "src/jaxoplanet/orbits/keplerian.py::OrbitalBody.relative_angles"]}
{"id": "C61", "title": "Velocities for a given semi-amplitude balance momentum", "statement": "With a semi-amplitude passed to velocity, central_velocity and relative_velocity, m v + M V = 0 and relative = v - V in every component; without a mass the body's methods fail.", "quantifier": "every orbit, semi-amplitude, time and solver", "why_tests_cant": "Continuum", "anchors": ["src/jaxoplanet/orbits/keplerian.py::OrbitalBody.velocity", "src/jaxoplanet/orbits/keplerian.py::OrbitalBody.relative_velocity"]}
{"id": "C62", "title": "A spherical harmonic map evaluates to the sum of real spherical harmonics", "statement": "For every degree and order the polynomial that represents Y_lm takes, at every point of the unit sphere, the value of the textbook real spherical harmonic (Rodrigues' formula, orthonormal normalisation), and the change of basis A1 applied to a coefficient vector evaluates to 2/sqrt(pi) times the sum of coefficient times harmonic.", "quantifier": "every degree lmax, every (l, m), every coefficient vector, every point of the sphere", "why_tests_cant": "Unbounded degree and a continuum of points; the coefficients come from Gamma-function ratios and nested sums.", "anchors": ["src/jaxoplanet/starry/core/basis.py::A1", "src/jaxoplanet/starry/core/basis.py::Ylm", "src/jaxoplanet/starry/core/basis.py::Blmjk", "src/jaxoplanet/starry/core/basis.py::Cpqk"]}
{"id": "C63", "title": "Rotating map coefficients rotates the map", "statement": "For every degree, axis, angle and coefficient vector, the coefficient vector returned by dot_rotation_matrix describes the map whose value at every point p of the unit sphere equals the value of the original map at p rotated by the angle about the axis; left_project composes the map with rot_x(-pi/2) rot_z(-theta) rot_x(inc) rot_z(-obl) rot_z(-theta_z) and right_project with the inverse; a None angle leaves the vector unchanged and a missing axis raises ValueError.", "quantifier": "all degrees, all axes, all angles, all coefficient vectors, all points of the sphere", "why_tests_cant": "The Wigner matrices come from a recursion over the degree; tests compare a few degrees and angles numerically with another implementation.", "anchors": ["src/jaxoplanet/starry/core/rotation.py:dot_rotation_matrix", "src/jaxoplanet/starry/core/rotation.py:left_project", "src/jaxoplanet/starry/core/rotation.py:right_project", "src/jaxoplanet/starry/core/s2fft_rotation.py:compute_rotation_matrices"]}
{"id": "C64", "title": "The solution vector integrates the Green basis over the visible part of the star", "statement": "For every degree l_max >= 1, quadrature order, impact parameter b and radius r of the occultor (other than b = 0, r = 1), the entry of solution_vector(l_max, order)(b, r) for the index (l, m) is the Lebesgue integral of the corresponding Green basis polynomial over the stellar disc minus the occultor's disc (centred at (0, |b|), radius |r|), minus the error which the Gauss-Legendre rule commits on the line integral along the occultor's edge, whenever no numerical guard fires. It is exact without occultation and zero for total occultation, and the non-polynomial entries converge to the exact integrals for every convergent family of rules.", "quantifier": "all degrees, indices, orders, quadrature rules, impact parameters and radii", "why_tests_cant": "Tests compare a few (b, r) pairs and low degrees with a reference implementation; the claim is about every geometry (separate, partial, inside, total) and every degree.", "anchors": ["src/jaxoplanet/starry/core/solution.py:solution_vector", "src/jaxoplanet/starry/core/solution.py:p_integral", "src/jaxoplanet/starry/core/solution.py:q_integral", "src/jaxoplanet/starry/core/solution.py:kappas", "src/jaxoplanet/starry/core/basis.py:gtilde"]}
{"id": "C65", "title": "The Green basis is a basis: the light curve's change of basis never fails", "statement": "For every degree lmax the matrix A2_inv(lmax) is invertible, so the inverse computed in the light curve exists, and contracting a vector with that inverse and with polynomial coefficients equals contracting it with the coefficients of the same polynomial in the Green basis.", "quantifier": "every degree, every polynomial, every vector", "why_tests_cant": "Unbounded degree: tests invert the matrix for a few degrees only.", "anchors": ["src/jaxoplanet/starry/core/basis.py:A2_inv", "src/jaxoplanet/starry/core/basis.py:gtilde", "src/jaxoplanet/starry/light_curves.py:surface_light_curve"]}
{"id": "C66", "title": "Rendered intensity is the brightness of the mapped, limb-darkened, inclined sphere", "statement": "For every surface (map, limb darkening, inclination, obliquity, amplitude), rotation angle and resolution, the pixel of render(theta, res) is NaN exactly outside the stellar disc and inside it is amplitude times the projected specific intensity at that point of the sky: the map evaluated at the point of the sphere that the observer sees there, times the limb-darkening profile, normalised so that the uniform map has flux 1. The pixels are equidistant from -1 to 1, and the latitudes and longitudes of the grid are those of its points.", "quantifier": "all surfaces, angles, points of the sphere and resolutions", "why_tests_cant": "Tests compare a few rendered images with starry; the claim is for every map degree, orientation and pixel.", "anchors": ["src/jaxoplanet/starry/surface.py:Surface._intensity", "src/jaxoplanet/starry/surface.py:Surface.render", "src/jaxoplanet/starry/utils.py:ortho_grid"]}
{"id": "C67", "title": "intensity(lat, lon) is the brightness of the map at that latitude and longitude", "statement": "For every surface, Surface.intensity(lat, lon) is the limb-darkened brightness of the point of the map at latitude lat and longitude lon.", "quantifier": "all surfaces, latitudes and longitudes", "why_tests_cant": "The existing test only uses one map that is symmetric about the tested point; the claim concerns all maps and points (and is false in general: the code evaluates the map at the opposite latitude and longitude).", "anchors": ["src/jaxoplanet/starry/surface.py:Surface.intensity", "src/jaxoplanet/starry/core/rotation.py:full_rotation_axis_angle"]}
{"id": "C68", "title": "The velocity map is the line-of-sight velocity of the rotating star", "statement": "For every equatorial velocity, inclination, obliquity and differential-rotation parameter alpha, the spherical-harmonic expansion rv_map_expansion, evaluated at any point of the visible hemisphere, is the rate at which that point of the rotating star recedes from the observer: veq times the rigid-rotation speed, times 1 - alpha sin(latitude)^2 when alpha is given; it vanishes without equatorial velocity. render(rv=True) shows brightness times this velocity.", "quantifier": "all velocities, inclinations, obliquities, alpha, points of the sphere, surfaces", "why_tests_cant": "Tests compare a few images with starry; the expansion coefficients are hand-written closed forms whose correctness concerns every angle and point.", "anchors": ["src/jaxoplanet/starry/doppler.py:rv_map_expansion", "src/jaxoplanet/starry/surface.py:Surface.veq", "src/jaxoplanet/starry/surface.py:Surface._intensity"]}
{"id": "C69", "title": "surface_radial_velocity is the brightness-weighted mean velocity of the visible part", "statement": "For every surface with a rotation period and every occultor, surface_radial_velocity is the mean of the line-of-sight velocity over the visible part of the disc, weighted with the mapped, limb-darkened brightness, times the amplitude: without occultor and for one that is behind or beside the star over the whole disc; during an occultation over the disc minus the occultor, up to the quadrature errors of the line integrals along its edge in numerator and denominator. A uniform unocculted star has zero velocity, and a star that is nowhere dark at most the projected equatorial velocity. A surface without period raises.", "quantifier": "all surfaces, angles, occultor positions and radii, quadrature rules and orders", "why_tests_cant": "Tests compare a handful of configurations with starry at finite precision; the claim is for every map degree and geometry.", "anchors": ["src/jaxoplanet/starry/doppler.py:surface_radial_velocity", "src/jaxoplanet/starry/surface.py:Surface.veq"]}
{"id": "C70", "title": "radial_velocity of a system adds the reflex motion to the surface velocities", "statement": "For every system, radial_velocity(system)(time) has the rows of the system observable of surface_radial_velocity, with the reflex velocity of the central caused by the first body added to the row of the central only; out of transit the row of the central is its disc-averaged velocity plus that reflex velocity. A system without bodies raises.", "quantifier": "all systems, times, surfaces", "why_tests_cant": "Histories of bodies of any length and any geometry; tests use one system.", "anchors": ["src/jaxoplanet/starry/doppler.py:radial_velocity", "src/jaxoplanet/starry/system_observable.py:system_observable", "src/jaxoplanet/orbits/keplerian.py:System.radial_velocity"]}
{"id": "C71", "title": "The multi-precision bases are the core bases, after any history", "statement": "For every degree and every sequence of earlier requests (the memoised factorials and coefficients), A1, A2_inv and A2 of starry.multiprecision.basis are the matrices of the core package: their own factorials of half-integers, with infinities at the poles, their own loops and dictionaries give the same numbers.", "quantifier": "all degrees, all histories of requests", "why_tests_cant": "Tests compare a few degrees at finite precision with one history of the caches.", "anchors": ["src/jaxoplanet/starry/multiprecision/basis.py:A1", "src/jaxoplanet/starry/multiprecision/basis.py:A2", "src/jaxoplanet/starry/multiprecision/basis.py:Y", "src/jaxoplanet/starry/multiprecision/basis.py:fac", "src/jaxoplanet/starry/core/basis.py:A1"]}
{"id": "C72", "title": "The multi-precision reference flux is the flux of the visible part of the disc", "statement": "With exact quadrature and exact rotation matrices, flux(ydeg, udeg, inc, obl)(b, r, y, phi, u) of starry.multiprecision.flux is the integral of the mapped, limb-darkened brightness over the disc minus an occultor of radius r centred at (0, b), relative to the limb-darkened flux of the constant map, for every map with y00 = 1; sT has the integrals of the Green polynomials over the visible part as entries; without occultation (and limb darkening) it is the flux of the disc, and 0 when the star is hidden. The coefficient y00 has no influence, and b = 0, a constant map without occultation, limb darkening without occultation and rotate=False raise.", "quantifier": "all maps, degrees, limb-darkening coefficients, orientations, radii and impact parameters", "why_tests_cant": "The reference values of the test suite are produced by this code; the claim is for every degree and geometry.", "anchors": ["src/jaxoplanet/starry/multiprecision/flux.py:flux", "src/jaxoplanet/starry/multiprecision/solution.py:sT", "src/jaxoplanet/starry/multiprecision/solution.py:P", "src/jaxoplanet/starry/multiprecision/rotation.py:dot_rotation_matrix", "src/jaxoplanet/starry/multiprecision/rotation.py:dot_rz"]}
{"id": "C73", "title": "ylm_spot puts a round spot where it is asked for", "statement": "For every ydeg, npts, spot_fac, contrast, radius, latitude and longitude, ylm_spot(ydeg, npts, spot_fac)(contrast, r, lat, lon) returns a map of degree ydeg whose intensity at a point of the sphere is 1 plus the contrast times a function of the angle between the point and the centre (cos lat sin lon, sin lat, cos lat cos lon) only; the function does not depend on the position and is the smoothed, ridge-regularised least-squares Legendre fit (the unique minimiser) of a logistic dip of angular radius r. Without contrast the map is uniform. A star seen equator-on and turned by theta shows the spot at latitude lat and longitude lon + theta.", "quantifier": "all degrees, numbers of grid points, sharpness, contrasts, radii, positions and points of the sphere", "why_tests_cant": "Tests look at a few maps at a few pixels; roundness and the position independence are statements about every point and every position.", "anchors": ["src/jaxoplanet/starry/ylm.py:ylm_spot", "src/jaxoplanet/starry/ylm.py:Bp", "src/jaxoplanet/starry/ylm.py:spot_profile", "src/jaxoplanet/starry/core/rotation.py:dot_rotation_matrix"]}
{"id": "C74", "title": "Limb darkening as a map: from_limb_darkening, and maps are determined by their values", "statement": "For every list u of limb-darkening coefficients whose profile has a non-zero flux, Ylm.from_limb_darkening(u) succeeds and is a map of degree len(u) whose intensity at a point of the sphere is the limb-darkening profile of its z coordinate scaled to total flux 1; seen along its axis it gives the same flux from every part of the disc as the limb-darkened constant map. The change of basis A1 it inverts is invertible for every degree: every polynomial on the sphere is exactly one map, and maps with the same intensities have the same coefficients.", "quantifier": "all coefficient lists, all degrees, all points of the sphere, all parts of the disc", "why_tests_cant": "Invertibility for every degree and uniqueness cannot be tested.", "anchors": ["src/jaxoplanet/starry/ylm.py:Ylm.from_limb_darkening", "src/jaxoplanet/starry/core/basis.py:A1", "src/jaxoplanet/starry/core/basis.py:U"]}
{"id": "C75", "title": "The product of two maps is the map of the product", "statement": "For Ylm f, g, the map of f * g is (up to the normalisation of the basis) the product of the maps of f and g; in particular multiplication with a constant map scales every coefficient by the same number.", "quantifier": "all maps f and g of any degree with any set of stored coefficients", "why_tests_cant": "The coefficients of the product are sums over all pairs of coefficients with a 3j symbol of unbounded quantum numbers.", "anchors": ["src/jaxoplanet/starry/ylm.py: Ylm.__mul__, _mul"]}
{"id": "C76", "title": "kepler() is accurate to 1.3e-13 for every mean anomaly and every eccentricity", "statement": "In exact arithmetic the single, iteration-free evaluation of kepler(M, e) is accurate: the eccentric anomaly it computes differs from the solution of Kepler's equation (in the same revolution) by at most 6.3e-14, and the point (sin f, cos f) it returns is within 1.3e-13 of the exact true anomaly, uniformly up to e -> 1.", "quantifier": "every real mean anomaly M (any revolution, any sign) and every eccentricity e in [0,1)", "why_tests_cant": "The method has no convergence loop, so its accuracy is a uniform bound over a two-dimensional continuum, whose worst points lie near the corner M -> 0, e -> 1; a grid of tests samples finitely many points.", "anchors": ["src/jaxoplanet/core/kepler.py::kepler", "src/jaxoplanet/core/kepler.py::starter", "src/jaxoplanet/core/kepler.py::refine"]}
{"id": "C77", "title": "Positions, velocities and transits with the code's own Kepler solver", "statement": "With the code's own (approximate) Kepler solver, relative_position, position and central_position are within 6.3e-14 times the size of the respective orbit of the exact (textbook) positions; velocities are within 1.3e-13 times the velocity scale 2 pi a/(P sqrt(1-e^2)), radial velocities within 1.3e-13 K of K(cos(omega+f)+e cos omega); at time_transit + n*period the sky-projected separation is |impact_param|*R_star up to 6.3e-14 a (argument of periastron other than -pi/2, see C12). All bounds are uniform in the eccentricity.", "quantifier": "every accepted body with 0<=e<1, every orientation, time, epoch and parallax", "why_tests_cant": "A uniform error bound over all orbits and all times; the worst case is at e -> 1 near periastron.", "anchors": ["src/jaxoplanet/orbits/keplerian.py:OrbitalBody.relative_position", "src/jaxoplanet/orbits/keplerian.py:OrbitalBody.velocity", "src/jaxoplanet/orbits/keplerian.py:OrbitalBody.radial_velocity", "src/jaxoplanet/core/kepler.py::kepler"]}
{"id": "C78", "title": "The grid lines of show_surface are the latitudes and longitudes of the rendered map", "statement": "For a surface shown with show_surface(surface, theta), every vertex of the drawn lines of latitude and longitude is at the place where the image shows the point of the map with that latitude (k pi/n - pi/2) and longitude (pi/2 - 2 pi k/n_lon): a pixel at a drawn vertex has the brightness of the map at that latitude and longitude, and a vertex is drawn exactly if its point is on the visible side. (For a body with a radius other than 1 the lines are scaled by the radius and the image is not: F31.)", "quantifier": "all maps, inclinations, obliquities, phases, numbers of lines and vertices, resolutions", "why_tests_cant": "Two independent chains of rotations (SciPy rotations of points, rotation of harmonic coefficients) must agree for every orientation; plots are not tested at all.", "anchors": ["src/jaxoplanet/starry/utils.py:lon_lat_lines", "src/jaxoplanet/starry/utils.py:rotation", "src/jaxoplanet/starry/utils.py:plot_lines", "src/jaxoplanet/starry/utils.py:graticule", "src/jaxoplanet/starry/visualization.py:show_surface"]}
{"id": "C79", "title": "fast_direct_left_project returns the coefficients of left_project", "statement": "For every map, inclination, obliquity and angles, fast_direct_left_project(ydeg, inc, obl, theta, theta_z, y) returns the same coefficients as left_project with the same arguments: the rotated map has at each point of the sky frame the value of the original map at the point obtained by undoing the tilts and the rotation. (F13: rotations within about 0.009 rad of the identity are snapped to the identity; then the value is that of a point at most 0.01 away.) rotate_flms computes sum_n exp(-i m alpha) d^l_mn(beta) exp(-i n gamma) f_ln for every degree and gives the same result with precomputed Wigner arrays.", "quantifier": "all degrees, coefficient vectors, inclinations, obliquities, angles (given or None), points of the sphere", "why_tests_cant": "Two different algorithms (four real rotations in sequence; one rotation of complex coefficients with Euler angles of another axis) must agree for every degree and orientation; tests compare a few angles with a tolerance.", "anchors": ["src/jaxoplanet/starry/core/rotation.py:fast_direct_left_project", "src/jaxoplanet/starry/core/s2fft_rotation.py:rotate_flms", "src/jaxoplanet/starry/core/rotation.py:full_rotation_axis_angle"]}
{"id": "C80", "title": "The reference rotation matrices rotate maps", "statement": "For every degree, axis and angle, multiprecision R(lmax, u, theta) returns one matrix for each degree l <= lmax which, apart from entries smaller than 10**(-mp.dps) that are set to zero, is the matrix of a rotation g: Y_i(g p) = sum_j R_ij Y_j(p) for all points p of the sphere. g is the rotation by theta about u if u is not the z axis and theta is not 0; otherwise it moves no point further than 10**(-mp.dps) (z axis) plus 1e-20 (theta = 0) from its image under that rotation. R raises only for u = 0, full turns and half turns about an axis with u_z = 0 (F32). dot_rotation_matrix(ydeg, u, theta)(M) returns M for theta = 0 and otherwise the coefficients of the rotated map with mean 1, within 10**(-mp.dps) times the sizes of coefficients and harmonics. left_project raises for nonzero theta_z (F33).", "quantifier": "all degrees, axes (also not normalised), angles, working precisions, coefficient vectors, points of the sphere", "why_tests_cant": "The tests compare with the core package for a few axes and angles; the Wigner sum, the change of basis and the special cases (z axis, zero angle) must be right for every degree and every axis, and the package is itself the reference of the accuracy tests.", "anchors": ["src/jaxoplanet/starry/multiprecision/rotation.py:R", "src/jaxoplanet/starry/multiprecision/rotation.py:dot_rotation_matrix", "src/jaxoplanet/starry/multiprecision/rotation.py:left_project", "src/jaxoplanet/starry/multiprecision/utils.py:fac"]}
{"id": "C81", "title": "The reference flux with its own rotation matrices converges to the true flux", "statement": "multiprecision flux(ydeg, udeg, inc, obl)(b, r, y, phi, u) with the rotation matrices of the package itself (C80, no assumption on them): for every map, limb darkening and partial occultation the values computed at growing working precision converge to the flux of the part of the disc that is not hidden, of the map seen under the angles that R uses; these are the requested ones, so the limit is the true flux of the surface, unless obl = 0 or inc = pi/2, where R replaces the angle 0 by 1e-20 and no point of the sky is displaced by more than 2e-20. The same for the whole disc without limb darkening, and for the coefficients of left_project.", "quantifier": "all degrees >= 1, coefficient vectors, limb-darkening vectors, phases, inclinations and obliquities where R does not raise (F32), impact parameters of either sign and radii of partial occultations", "why_tests_cant": "The package is the reference of the accuracy tests; its own accuracy in mp.dps, including the removal of small matrix entries, is a limit statement over all precisions and all maps.", "anchors": ["src/jaxoplanet/starry/multiprecision/flux.py:flux", "src/jaxoplanet/starry/multiprecision/rotation.py:R", "src/jaxoplanet/starry/multiprecision/rotation.py:left_project"]}
{"id": "C82", "title": "The recursive rotation matrices rotate maps", "statement": "For every degree, nonzero axis (of any length) and angle, compute_rotation_matrices(ydeg, x, y, z, theta) of starry.core.rotation returns ydeg + 1 matrices, and the matrix of degree l satisfies Y_i(g p) = sum_j R_ij Y_j(p) for all points p of the sphere, where g is the rotation by theta about the normalised axis, if g leaves the pole where it is, moves it to the opposite pole, or the cosine of the angle it moves it by is at least 10 eps away from 1 and -1. For the zero axis the matrices are NaN unless cos(theta) is near 1 or -1 (F34); for rotations inside the tolerance the tilt is lost (F35).", "quantifier": "all degrees, axes, angles, machine epsilons, points of the sphere", "why_tests_cant": "The test compares with symbolic matrices at lmax = 4 and a few axes; the recursion in the degree, its symmetries and the real form must be right for all degrees and orders, and the special cases are thin bands of inputs.", "anchors": ["src/jaxoplanet/starry/core/rotation.py:compute_rotation_matrices", "src/jaxoplanet/starry/core/rotation.py:rotar", "src/jaxoplanet/starry/core/rotation.py:dlmn"]}
{"id": "C83", "title": "polynomial_product_matrix multiplies polynomials", "statement": "For every dense polynomial p of degree d and every degree: M = polynomial_product_matrix(p, degree) applied to any dense vector p2 of that degree is the dense vector of the product of the two polynomials on the sphere.", "quantifier": "all polynomials, degrees and points of the sphere", "why_tests_cant": "There is no test; the index arithmetic of the rows must be right for every pair of basis elements, and the range of the loop over p for every length.", "anchors": ["src/jaxoplanet/starry/core/polynomials.py:polynomial_product_matrix"]}
{"id": "C84", "title": "The limb-darkened light curve converges to the exact hidden fraction as the quadrature order grows", "statement": "With the Gauss-Legendre rules that roots_legendre documents (n nodes, exact for all polynomials of degree < 2n), for every limb-darkening law of non-zero flux and every b, r (except b = 0, |r| = 1), light_curve(u, b, r, order) comes arbitrarily close to minus the hidden fraction of the flux for every order from some order on, up to an explicit bound on what the 10*eps guards of the code change, which vanishes with eps (below 1e-7 for a typical transit in double precision). The Gauss-Legendre rule exists for every order, is unique, its nodes are distinct and inside (-1, 1), its weights positive.", "quantifier": "every u of every length, every b, r, every eps > 0, every family of Gauss-Legendre rules, every accuracy", "why_tests_cant": "A limit over all orders at a continuum of geometries and laws.", "anchors": ["src/jaxoplanet/core/limb_dark.py::light_curve", "src/jaxoplanet/core/limb_dark.py::p_integral"]}
{"id": "C85", "title": "The light curve of a stellar surface converges as the quadrature order grows, up to an explicit error of the capped terms", "statement": "With Gauss-Legendre rules, for every map, limb darkening, orientation and occultor (other than a concentric occultor of exactly the radius of the star), surface_light_curve(..., order) comes arbitrarily close to the flux of the visible part of the disc for every order from some order on, up to an explicit bound on the error of the polynomial terms, which the code integrates with at most 20 nodes whatever the order, and of the terms that the code replaces by constants near singular geometries; in double precision that bound is below 3e-7 per unit coefficient for degrees up to 10 and an occultor inside the disc. The same holds for every entry of the solution vector.", "quantifier": "every map and limb-darkening law of every degree, every orientation and phase, every occultor position and radius, every accuracy", "why_tests_cant": "A limit over all orders at a continuum of maps and geometries; an error bound over a continuum.", "anchors": ["src/jaxoplanet/starry/core/solution.py::solution_vector", "src/jaxoplanet/starry/core/solution.py::p_integral", "src/jaxoplanet/starry/light_curves.py::surface_light_curve"]}
{"id": "C86", "title": "Transit light curves are accurate end to end", "statement": "The entry of light_curve(system, *u)(time) for a body converges, as the quadrature order grows, to minus the fraction of the light of the spherical limb-darkened star that is hidden by a sphere of the given radius on the Kepler orbit with the given elements (nothing while the body is behind the star), up to an explicit error: the guards of the code, and the accuracy 6.3e-14 a of the Kepler solver times the slope of the hidden fraction. With integrate() the result is the mean over the exposure, up to an error inversely proportional to the number of samples. The emission light curve shows the amplitude of each body times the fraction of its light that the star does not hide.", "quantifier": "all limb-darkening laws with nonzero flux, all orbital elements (eccentricity below 1, pericentre distance above the sum of the radii), all radii other than that of the star, all times, all exposure times and numbers of samples, all orders from some order on", "why_tests_cant": "the statement is about all times, all orbital elements and the limit of high order; it needs the composition of error bounds of four components (solver, orbit, quadrature, stencil)", "anchors": ["src/jaxoplanet/light_curves/limb_dark.py: light_curve", "src/jaxoplanet/light_curves/transforms.py: integrate", "src/jaxoplanet/light_curves/emission.py: light_curve", "src/jaxoplanet/orbits/keplerian.py: OrbitalBody.relative_position", "src/jaxoplanet/core/kepler.py: kepler", "src/jaxoplanet/core/limb_dark.py: light_curve"]}
{"id": "C87", "title": "The radial velocity of a surface during an occultation (Rossiter-McLaughlin) converges as the quadrature order grows", "statement": "With Gauss-Legendre rules, for every map, limb darkening, orientation, rotation period and occultor, the value of surface_radial_velocity(..., order) comes arbitrarily close to the amplitude times the brightness-weighted mean line-of-sight velocity of the visible part of the disc for every order from some order on, up to an explicit bound (the polynomial terms are capped at 20 nodes, and some terms are replaced by constants near singular geometries), provided that the visible flux exceeds the error of the flux.", "quantifier": "every map and limb-darkening law of every degree, every orientation, phase and rotation period, every occultor position and radius, every accuracy", "why_tests_cant": "A limit over all orders at a continuum of maps and geometries.", "anchors": ["src/jaxoplanet/starry/doppler.py: surface_radial_velocity", "src/jaxoplanet/starry/core/solution.py: solution_vector"]}
{"id": "C88", "title": "The light curve of a system of surfaces converges to the fluxes of the visible parts as the quadrature order grows", "statement": "With Gauss-Legendre rules, for every system of a central with a surface and orbiting bodies with or without surfaces, whatever the Kepler solver returns, and at every time at which no two bodies in front of the central overlap on its disc, light_curve(system, order)(time) returns one value per object; for every order from some order on the central's value is within any given accuracy of its amplitude times the flux of the part of its disc that no body hides, and the value of every body that has a surface is within that accuracy of its amplitude times the flux of the part that the central does not hide, up to explicit bounds per occultation (C84, C85); a body without surface contributes 0.", "quantifier": "every system with any number of bodies, every map and limb-darkening law (uniform surfaces included), every orbit, radius, time, and accuracy", "why_tests_cant": "A limit over all orders at a continuum of systems and times.", "anchors": ["src/jaxoplanet/starry/light_curves.py: light_curve", "src/jaxoplanet/starry/system_observable.py: system_observable", "src/jaxoplanet/starry/orbit.py: SurfaceSystem"]}
{"id": "C89", "title": "The radial velocities of a system of surfaces converge, and with one transit at a time to the mean velocity of the visible part", "statement": "With Gauss-Legendre rules, for every system of a central with a rotating surface and orbiting bodies with or without rotating surfaces, whatever the Kepler solver returns, radial_velocity(system, order)(time) returns one value per object. For every order from some order on, the central's value is within any given accuracy of the reflex velocity due to the first body plus its amplitude times (the mean velocity of its disc plus, for every body, the change of the mean velocity that this body alone makes by hiding a part); when at most one body is in front of the disc this is the brightness-weighted mean line-of-sight velocity of the visible part. The value of every body that has a surface is within that accuracy of its amplitude times the mean velocity of the part of its disc that the central does not hide, and 0 without surface; all up to the explicit bounds of C87 per occultation and provided that the visible fluxes exceed the errors of the fluxes.", "quantifier": "every system with any number of bodies, every map and limb-darkening law, rotation period, orbit, radius, time, and accuracy", "why_tests_cant": "A limit over all orders at a continuum of systems and times.", "anchors": ["src/jaxoplanet/starry/doppler.py: radial_velocity", "src/jaxoplanet/starry/system_observable.py: system_observable", "src/jaxoplanet/starry/orbit.py: SurfaceSystem"]}
{"id": "C90", "title": "Gradients of limb-darkened light curves are finite and are the derivatives", "statement": "jax.grad (reverse mode) and jax.jvp (forward mode) of light_curve(u, b, r) with respect to any combination of limb-darkening coefficients, separation and radius return finite numbers for every input with a nonzero total flux (also at the contact points, at b = 0, at r = 0, for a fully hidden star and without occultation), except exactly at b = 0, |r| = 1 and at |b| = 1, r = 0. At every point that is not exactly at a contact, at b = 0 or r = 0, or within the band of one of the 10 eps guards, they are the derivative of the light curve that is returned; for a uniform star this is the derivative of the hidden fraction of the disc. The light curve of an orbit has a finite gradient, equal to the derivative of the flux (0 behind the star), whenever the centre of the body is not exactly on the line of sight to the centre of the star.", "quantifier": "every list of limb-darkening coefficients of any length, position, radius, direction of differentiation, quadrature rule, and both modes", "why_tests_cant": "A statement about every point of a continuum and every direction, with exceptional sets of measure zero that samples do not hit.", "anchors": ["src/jaxoplanet/core/limb_dark.py: light_curve, solution_vector, kappas, kite_area, s0s2, p_integral", "src/jaxoplanet/utils.py: zero_safe_sqrt", "src/jaxoplanet/light_curves/limb_dark.py: light_curve"]}
{"id": "C91", "title": "Gradients of transit light curves with respect to the transit parameters are finite and are the derivatives", "statement": "For a TransitOrbit given by its duration or by its speed, the gradient (in both modes) of light_curve(orbit, *u)(time) with respect to any combination of period, duration or speed, epoch, impact parameter, radius ratio, limb-darkening coefficients and time is finite whenever the body has a radius, its centre is not exactly in front of the centre of the star and, if the duration is given, |impact_param| < 1 + radius_ratio. If moreover the time is not exactly half a period from mid-transit or at the start or the end of the transit, and the separation is not exceptional (C90), the gradient is the derivative of the light curve, through all the dependences (the speed depends on the duration, the impact parameter and the radius; the folded time on the period and the epoch).", "quantifier": "every parameter value, time, limb-darkening law, direction of differentiation and quadrature rule, and both modes", "why_tests_cant": "A statement about every point of a continuum and every direction.", "anchors": ["src/jaxoplanet/orbits/transit.py: TransitOrbit.__init__, TransitOrbit.relative_position", "src/jaxoplanet/light_curves/limb_dark.py: light_curve", "src/jaxoplanet/core/limb_dark.py: light_curve"]}
{"id": "C92", "title": "Derivatives of the occultation solution vector are finite and are the derivatives", "statement": "solution_vector(l_max, order)(b, r), from which the light curve of an occulted map is computed, has finite derivatives of all its (l_max+1)^2 entries with respect to b and r, in forward and in reverse mode, at every (b, r) except b = 0, |r| = 1 (the occultor exactly covers the star) and |b| = 1, r = 0 (a point on the limb). If moreover b and r are not zero, the occultor is not in exact contact with the limb, and no quantity is at the threshold of a guard of the program, every derivative is the derivative of the entry that is computed.", "quantifier": "every degree, order, quadrature rule, impact parameter, radius, direction of differentiation, and both modes", "why_tests_cant": "A statement about every point of a plane with several singular sets (guards, square roots at zero, powers of zero) and every degree.", "anchors": ["src/jaxoplanet/starry/core/solution.py: solution_vector, kappas, q_integral, p_integral", "src/jaxoplanet/utils.py: zero_safe_sqrt"]}
{"id": "C93", "title": "Derivatives of the light curve of a surface are finite and are the derivatives", "statement": "surface_light_curve(surface, r, x, y, z, theta, order) has a finite derivative, in forward and in reverse mode, along every direction in the position and radius of the occultor, the rotation angle, the coefficients of the map, the limb-darkening coefficients and the amplitude, whenever the occultor is not exactly centred (x = y = 0); its value is the one computed without differentiation. If the occultor is not in exact contact with the limb, not in the plane z = 0, and no quantity is at the threshold of a guard, the derivative is the derivative of the light curve that is computed. Without an occultor it always is.", "quantifier": "every valid map of any degree, inclination, obliquity, limb-darkening coefficients with non-zero total flux, position, radius, angle, order, quadrature rule, direction of differentiation, and both modes", "why_tests_cant": "A statement about every point of a many-dimensional domain with several singular sets, every degree of the map and every direction of differentiation.", "anchors": ["src/jaxoplanet/starry/light_curves.py: surface_light_curve", "src/jaxoplanet/starry/core/rotation.py: left_project", "src/jaxoplanet/starry/core/solution.py: solution_vector", "src/jaxoplanet/starry/core/polynomials.py: Pijk.from_dense, todense"]}
{"id": "C94", "title": "Derivatives of Keplerian orbits are finite and are the derivatives", "statement": "The positions, velocities, radial velocity, and separation and position angle of an orbiting body (relative_position, position, central_position, velocity, central_velocity, relative_velocity, radial_velocity, relative_angles) have finite derivatives along every direction in the parameters of the star and of the body and in time, for whichever of the alternative parameters are given and also at zero eccentricity, and the values are those computed without differentiation; with an exact solution of Kepler's equation these derivatives are the derivatives of the functions, and the derivative of relative_position (position) with respect to time is relative_velocity (velocity). The conditions are: positive period, semimajor axis and stellar radius, 0 <= e < 1, |cos i| < 1 if the impact parameter is given, an argument of periastron other than -pi/2, for the separation and position angle a non-zero separation, and for a velocity from a prescribed semiamplitude a non-zero mass.", "quantifier": "every accepted set of arguments of Body, all values of them and of the star's parameters in the stated domain, every time, direction of differentiation and optional argument, and both modes", "why_tests_cant": "A statement about every point of a many-dimensional domain with several singular sets, for each of the many admissible combinations of arguments, and every direction of differentiation.", "anchors": ["src/jaxoplanet/orbits/keplerian.py: OrbitalBody.__init__, relative_position, position, central_position, relative_angles, velocity, central_velocity, relative_velocity, radial_velocity", "src/jaxoplanet/core/kepler.py: kepler, kepler_jvp"]}
{"id": "C95", "title": "Derivatives of transit and emission light curves of Keplerian orbits", "statement": "The transit light curve and the emission (secondary eclipse) light curve of a body on a Keplerian orbit have finite derivatives, in forward and reverse mode, along every direction in the parameters of the star, of the orbit, the radius of the body, the limb-darkening coefficients, the amplitude and time, whenever the orbit meets the conditions of C94 and the body is not exactly on the line of sight to the centre of the star; the values are those computed without differentiation. With an exact solution of Kepler's equation, and if the body is not in exact contact with the limb and no quantity is at the threshold of a guard, they are the derivatives of the light curves that are computed; behind the star the derivative of the transit light curve is zero, and for a uniform star it is the exact derivative of the fraction of the disc that is covered.", "quantifier": "every accepted set of arguments of Body and all their values in the stated domain, every limb-darkening law, radius, time, order, quadrature rule, direction of differentiation, and both modes", "why_tests_cant": "A statement about every point of a many-dimensional domain with several singular sets, and every direction of differentiation.", "anchors": ["src/jaxoplanet/light_curves/limb_dark.py: light_curve", "src/jaxoplanet/light_curves/emission.py: light_curve", "src/jaxoplanet/orbits/keplerian.py: OrbitalBody", "src/jaxoplanet/core/limb_dark.py: light_curve", "src/jaxoplanet/core/kepler.py: kepler"]}
{"id": "C96", "title": "Accuracy of the derivatives of kepler()", "statement": "The derivatives of the sine and cosine of the true anomaly that kepler(M, e) reports along any direction (dM, de) - its derivative rule evaluated at its own numerical solution - differ from the derivatives of the exact solution of Kepler's equation by at most 1.3e-13 (8 |dM| / (1 - e^2)^(3/2) + 7 |de| / (1 - e^2)).", "quantifier": "every mean anomaly, every eccentricity 0 <= e < 1, every direction of differentiation", "why_tests_cant": "A bound for every point of a two-dimensional unbounded domain, including eccentricities arbitrarily close to one where the derivatives are arbitrarily large.", "anchors": ["src/jaxoplanet/core/kepler.py: kepler, kepler_jvp"]}
{"id": "C97", "title": "kepler() in floating-point arithmetic", "statement": "Evaluated in floating-point arithmetic, with an arbitrary relative error of at most u in every single operation and elementary function, kepler(M, e) never divides by zero or takes the root of a negative number, returns a pair within 17 u of the unit circle, and its result is within 1.5e-13 + 108 u / (1 - e) of the sine and cosine of the exact true anomaly at a mean anomaly that differs from M, reduced to one revolution, by at most u (3 |M| + 60); for M in [0, pi] it is at M itself. In double precision this is at most 4e-13 for e <= 0.9. With u = 0 this is the exact-arithmetic program.", "quantifier": "every mean anomaly, every eccentricity with 1 - e >= 400 u, every unit roundoff u <= 1e-10, every combination of rounding errors within the bound", "why_tests_cant": "The rounding errors of about a hundred operations are unknown, depend on the platform, the compiler's fusing of operations and the mathematical library, and a test only sees one combination of them at finitely many points.", "anchors": ["src/jaxoplanet/core/kepler.py: kepler, starter, refine"]}
{"id": "C98", "title": "Accuracy of exposure-time integration and of interpolation", "statement": "integrate(f, exposure_time=e, order, num_samples) differs from the mean of f over [t - e/2, t + e/2] by at most L e / (2 C) if f changes by at most L per unit time during the exposure (corners allowed; every order), by at most K e^2 / (24 C^2) (order 0) or K e^2 / (12 C^2) (order 1) if f' changes by at most K per unit time, and by at most K e^4 / (180 (n - 1)^4) (order 2) if f''' changes by at most K per unit time, where n is num_samples made odd and C the number of cells. interpolate(f) differs from f by at most K h^2 / 8 at every time of the window, and at the same time any number of periods away, with h the spacing of the grid. With f the limb-darkened light curve of a Keplerian body computed by the program, both are the exact light curve up to these errors and the accuracy of the solver.", "quantifier": "every light curve f, time, exposure length, order, number of samples, period, window, number of periods", "why_tests_cant": "The bounds hold for all functions of a class and all parameters; a test sees one function at finitely many times and cannot tell a wrong weight of order 1/n from discretisation error.", "anchors": ["src/jaxoplanet/light_curves/transforms.py: integrate, interpolate"]}
{"id": "C99", "title": "in_axes of ObjectStack.vmap and System.body_vmap means what it means for jax.vmap", "statement": "For an in_axes that is an integer, None, or a sequence of prefixes of the arguments, System.body_vmap(f, in_axes)(*args) calls f for body n with every array of the arguments indexed at n along the axis given for it, a negative axis being counted from the end as in jax.vmap; an in_axes that does not fit the arguments is rejected; the result does not depend on whether the bodies have the same pytree structure.", "quantifier": "every list of bodies, every function, every tree of array arguments, every in_axes", "why_tests_cant": "The two code paths agree for the axes used in tests; the claim is about all axes, all nestings of arguments and all mixtures of bodies.", "anchors": ["src/jaxoplanet/object_stack.py: ObjectStack.vmap, index_helper, flatten_func_for_object_vmap", "src/jaxoplanet/orbits/keplerian.py: System.body_vmap"]}
{"id": "C100", "title": "the light curve of a uniform star is accurate in floating-point arithmetic", "statement": "In any floating-point arithmetic with relative error u <= 1e-4 per operation, light_curve([], b, r) is minus the fraction of the stellar disc hidden by the occultor up to 1500 u (1+r)^2 + 8000 Y sqrt(Y), Y = u (1+r)^3 / max(b, |1-r|): across every branch of the program and at the four contacts. For an occultor at most half as large as the star the error is at most 5000 u at every separation.", "quantifier": "every separation and radius ratio (r <= 1e-3/u, discs not coinciding), every rounding of every operation", "why_tests_cant": "Rounding may flip each comparison near a contact, where the kite area has an infinite derivative; sampling cannot exclude a configuration and a rounding that loses half of the digits.", "anchors": ["src/jaxoplanet/core/limb_dark.py: light_curve, solution_vector, kappas, s0s2, kite_area"]}
{"id": "C101", "title": "Derivatives of the light curve of a surface with respect to the orientation of the star", "statement": "surface_light_curve has a finite derivative, in forward and reverse mode, with respect to the inclination and the obliquity of the star too (together with all the parameters of C93), and it is the derivative of the computed light curve, whenever the star is not seen exactly along its rotation axis (sin inc = 0) and the conditions of C93 hold. The value is the one computed without differentiation for every orientation. At inc = 0 without obliquity the derivative is finite but is that of the light curve with the inclination held fixed, which is wrong in general.", "quantifier": "every valid map of any degree, orientation, limb darkening with non-zero total flux, position, radius, angle, order, quadrature rule, direction of differentiation, and both modes", "why_tests_cant": "A statement about every point of a many-dimensional domain, with singular sets in the axis-angle and Euler-angle parametrisations that cancel only in the composed rotation, for every degree of the map.", "anchors": ["src/jaxoplanet/starry/light_curves.py: surface_light_curve", "src/jaxoplanet/starry/core/rotation.py: left_project, sky_projection_axis_angle", "src/jaxoplanet/starry/core/s2fft_rotation.py: euler, compute_rotation_matrices"]}
{"id": "C102", "title": "Derivatives of the light curve of a system of surfaces", "statement": "starry's light_curve(system, order)(time), with one row for the star (occulted by all bodies) and one for each body (occulted by the star), has finite derivatives, in forward and reverse mode, with respect to every parameter of the star, of the bodies and their orbits, of all the surfaces (map, inclination, obliquity, limb darkening, rotation period, phase, amplitude) and time, whenever no body is exactly aligned with the centre of the star, no surface is seen along its rotation axis and the orbits meet the conditions of C94; the values are those computed without differentiation. Where moreover each occultation is at a regular point (no exact contact), each row's derivative is the derivative of that row.", "quantifier": "every system (any number of bodies, with or without surfaces, any valid maps), every set of orbital parameters, time, direction of differentiation, order and quadrature rule, and both modes", "why_tests_cant": "The derivative passes through the orbit solver, the rotations, the occultation integrals and the sum over bodies; finite differences at sample points cannot establish it for every system and every parameter.", "anchors": ["src/jaxoplanet/starry/light_curves.py: light_curve", "src/jaxoplanet/starry/system_observable.py: system_observable", "src/jaxoplanet/starry/surface.py: rotational_phase", "src/jaxoplanet/orbits/keplerian.py: System.relative_position"]}
{"id": "C103", "title": "Derivatives of radial velocities of surfaces and systems", "statement": "starry's surface_radial_velocity(surface, r, x, y, z, theta, order) and radial_velocity(system)(time) - the Rossiter-McLaughlin signal of a rotating surface, one row for the star (occulted by all bodies, with the reflex motion due to the first one) and one for each body - have finite derivatives, in forward and reverse mode, with respect to the map, orientation, limb darkening, rotation period, phase, amplitude and radius of every surface, the position and size of the occultor, all orbital parameters and time, whenever no occultor is exactly centred, no surface is seen along its axis and the flux computed for the visible part is not zero; automatic differentiation does not change the value; and away from contacts and from the thresholds of the guards the derivatives are the derivatives of the radial velocity. The flux that the program divides by is that of the visible part of the surface, up to the errors of the quadrature.", "quantifier": "every surface (any valid map and limb darkening), occultor, phase, system (any number of bodies, with or without surfaces), set of orbital parameters, time, direction of differentiation, order and quadrature rule, and both modes", "why_tests_cant": "The derivative of the quotient passes through the orbit solver, the rotations, two occultation integrals and the sum over bodies; finite differences at sample points cannot establish it for every system and every parameter.", "anchors": ["src/jaxoplanet/starry/doppler.py: surface_radial_velocity, radial_velocity, rv_map_expansion", "src/jaxoplanet/starry/system_observable.py: system_observable", "src/jaxoplanet/starry/surface.py: rotational_phase, veq", "src/jaxoplanet/orbits/keplerian.py: System.radial_velocity"]}
{"id": "C104", "title": "integrate and interpolate keep the values and the arguments of the light curve", "statement": "integrate(func) and interpolate(func) return a light curve with the same signature as func: the integrated light curve called with any positional and keyword arguments returns an array of the same shape as func, each entry of which is the exposure mean (C33) of that entry of func with those arguments; the interpolated light curve interpolates each entry (C35) of func with the arguments given to the transform and ignores those of the call.", "quantifier": "every light curve function (any number of bodies, any output shape), every list of positional and keyword arguments, every order, number of samples, exposure time and time, every period and window", "why_tests_cant": "The tests use one- and two-valued light curves without arguments; whether each entry is averaged over the exposure depends on the output shape and on how arguments reach jax.vmap.", "anchors": ["src/jaxoplanet/light_curves/transforms.py: integrate, apply_exposure_time_integration, interpolate", "src/jaxoplanet/light_curves/limb_dark.py: light_curve"]}
{"id": "C105", "title": "Derivatives of light curves with transit timing variations", "statement": "The gradient of a limb-darkened light curve of a TTVOrbit (one planet) is the derivative of that light curve with respect to the transit times or their offsets, the period, the reference time, the duration or speed, impact parameter, radius ratio, limb darkening and time. While the nearest observed transit is less than half a period away, only its own time matters, not the other transits or the fitted period. The gradient is finite also on the edges between transits, half a period from a transit and at the contacts.", "quantifier": "every number of transits and every transit times, offsets and indices, every period, reference time, period offset, shape parameters and limb darkening, every time and direction of differentiation, forward and reverse mode; the derivative claim outside the contacts, the edges of the bins and the points half a period from a transit", "why_tests_cant": "The time is assigned to a transit by searching bin edges that themselves depend on a least-squares fit of the differentiated transit times; the tests do not differentiate through a TTVOrbit, and finite differences at a few points miss the edges.", "anchors": ["src/jaxoplanet/orbits/ttv.py: TTVOrbit.__init__, _warp_times, _compute_linear_ephemeris_single, _compute_bin_edges_values_single", "src/jaxoplanet/orbits/transit.py: TransitOrbit.relative_position", "src/jaxoplanet/light_curves/limb_dark.py: light_curve"]}
{"id": "C106", "title": "Derivatives of exposure-integrated and interpolated light curves", "statement": "Differentiating light_curves.transforms.integrate(func) or interpolate(func) gives the derivative of the integrated or interpolated light curve with respect to the time, the exposure time, the period, the time of transit, the window duration and whatever func depends on, provided the gradient of func is its derivative at the times at which it is evaluated; in particular for transit light curves. The gradient is finite at every time, including the nodes of the interpolation, if func's gradient is finite where func is evaluated.", "quantifier": "every light curve, order 0, 1, 2, number of samples, exposure time, period, time of transit, window (shorter than the period, or a light curve with equal values at both ends of a full period), time and direction of differentiation, forward and reverse mode; the derivative of an interpolated light curve at times that are not nodes", "why_tests_cant": "The interpolation reduces nodes and time modulo the period, sorts and searches them: each has points where the branch changes, and which cell is used depends on all parameters; tests compare values only, and finite differences sample a few times.", "anchors": ["src/jaxoplanet/light_curves/transforms.py: integrate, interpolate", "src/jaxoplanet/orbits/transit.py: TransitOrbit.relative_position", "src/jaxoplanet/light_curves/limb_dark.py: light_curve"]}
{"id": "C107", "title": "Derivatives of images and intensities of a surface", "statement": "Differentiating Surface.render(theta, res, rv) gives, for every pixel of the disc, the derivative of that pixel with respect to the map coefficients, inclination, obliquity, limb darkening, amplitude, rotation period, radius and rotational phase, if the surface is not seen exactly along its rotation axis; if the orientation is not differentiated, for every orientation. Differentiating Surface.intensity(lat, lon) gives its derivative with respect to latitude, longitude and the same parameters of the surface. Pixels outside the disc stay nan.", "quantifier": "every map degree and coefficients, orientation with sin(inc) != 0 (any orientation if it is held fixed), limb darkening law of any degree, amplitude, period, phase, resolution, pixel, latitude and longitude, direction of differentiation, forward and reverse mode", "why_tests_cant": "The polynomial basis is filled by a loop whose index pattern depends on the degree, and the orientation enters through arccos, where and Euler angles, each with points where the derivative is lost; finite differences on some maps, pixels and angles do not cover degrees and orientations.", "anchors": ["src/jaxoplanet/starry/surface.py: Surface._intensity, Surface.render, Surface.intensity", "src/jaxoplanet/starry/core/basis.py: poly_basis", "src/jaxoplanet/starry/core/rotation.py: left_project, full_rotation_axis_angle"]}
{"id": "C108", "title": "Light curves and images are linear in the map coefficients", "statement": "For a given orientation, limb darkening, occultor (or none), rotation angle and quadrature order there is one set of numbers X(l, m), independent of the map and its degree, such that surface_light_curve of every surface is amplitude * sum of X(l, m) * y(l, m) (with an occultor: for maps of degree at least one), exactly and at every quadrature order; for Surface(y=...) with the default normalisation it is the sum of X(l, m) times the coefficients the user gave. So light curves superpose, explicit zero coefficients of higher degree change nothing, and every pixel of render is linear in the same way.", "quantifier": "every degree of the map and all its coefficients, limb-darkening law of any degree, inclination and obliquity given or not, occultor radius and position, rotation angle, quadrature rule and order, resolution and pixel", "why_tests_cant": "The degree of the map changes the size of every matrix, the Wigner blocks, the polynomial product, the inverse change of basis and the solution vector; that one set of numbers serves all degrees and coefficients cannot be seen from finitely many maps.", "anchors": ["src/jaxoplanet/starry/light_curves.py: surface_light_curve", "src/jaxoplanet/starry/surface.py: Surface.__init__, Surface.render", "src/jaxoplanet/starry/core/rotation.py: left_project", "src/jaxoplanet/starry/core/basis.py: A1, A2_inv", "src/jaxoplanet/starry/core/polynomials.py: Pijk", "src/jaxoplanet/starry/core/solution.py: solution_vector, rT"]}
{"id": "C109", "title": "Positions and transit light curves in floating-point arithmetic, end to end", "statement": "When every operation of relative_position and of light_curve(orbit) (without limb darkening) is carried out with a relative rounding error of at most u, the computed position at time t is within 51 u a (circular orbits) or 43 a (1.5e-13 + 108 u/(1-e))/(1-e) (eccentric orbits) of the place of the body on the Kepler orbit of the given elements at a time that differs from t by the rounding of the times only (7 u (|t - time_transit| + |time_ref|); 11 u (...) + 10 u period); and the computed light curve is minus the fraction of the light of a uniform star that is hidden by a body on that orbit at that time, up to 5040 u and the light that such a displacement can make a difference of. Without rounding the runs are the exact programs.", "quantifier": "every combination of rounding errors of all operations (every run), every orbit (elements, semimajor axis, period, reference times) with 16 (1.5e-13 + 108 u/(1-e)) <= 1 - e, every time, every body up to 0.49 stellar radii that never touches the star; u up to 1e-10", "why_tests_cant": "The rounding errors of some hundred operations combine in ways that depend on the input, and errors are amplified where quantities cancel (near periastron, near the contacts of the discs, far from the reference time); only a bound over all error combinations and all inputs excludes an inaccurate corner.", "anchors": ["src/jaxoplanet/orbits/keplerian.py: OrbitalBody.relative_position, _get_true_anomaly, _rotate_vector, _get_position_and_velocity", "src/jaxoplanet/light_curves/limb_dark.py: light_curve", "src/jaxoplanet/core/kepler.py: kepler", "src/jaxoplanet/core/limb_dark.py: light_curve"]}
{"id": "C110", "title": "One quadrature order is accurate at all positions, radii, times and orbits", "statement": "The error of light_curve (limb_dark) computed with Gauss-Legendre quadrature of order n is bounded by an explicit expression that decreases like a power of n, and not only for each position from some position-dependent order on: for each limb-darkening law and each accuracy there are one order and one machine epsilon such that at all higher orders the light curve (also with the Kepler solver and the orbit of the code, integrated over an exposure with any stencil, and for the secondary eclipses of emission light curves) is accurate at all times, on all orbits, for all stars and bodies with radius ratios in a bounded range that excludes a neighbourhood of 1.", "quantifier": "all limb-darkening laws with non-zero flux, all orders, all separations, all radii up to any bound and not within any sigma > 0 of the radius of the star, all orbits, all times, all exposure times, stencil orders and numbers of samples", "why_tests_cant": "The integrand has a square-root singularity whose distance from the path of integration depends on the geometry; that no geometry needs an arbitrarily high order is a statement about a continuum of positions and radii.", "anchors": ["src/jaxoplanet/core/limb_dark.py: light_curve, solution_vector, p_integral", "src/jaxoplanet/light_curves/limb_dark.py: light_curve", "src/jaxoplanet/light_curves/emission.py: light_curve", "src/jaxoplanet/light_curves/transforms.py: integrate"]}
{"id": "C111", "title": "Derivatives of Keplerian orbits through the program's own Kepler solver are accurate", "statement": "The derivatives (forward mode) of relative_position and of radial_velocity of a body on an eccentric orbit, along any differentiable curve of its parameters and of the time, computed with the program's own solution of Kepler's equation (whose derivative rule is evaluated at the numerical solution, and whose value is not exact), differ from the derivatives of the exact functions by at most 1.3e-13 times an explicit factor, a polynomial in 1/(1-e) and linear in the rates of change of mean anomaly, eccentricity, semimajor axis (semi-amplitude) and orientation. In particular the derivative of relative_position with respect to time is within 3.4e-11 a n/((1-e^2)^1.5 (1-e)^2) of the exact relative velocity in each coordinate.", "quantifier": "all bodies and central objects that the constructors accept with a regular eccentric orbit, all differentiable curves of parameters and times, all mean anomalies and eccentricities in [0,1)", "why_tests_cant": "Errors of values and of derivative rules enter every coordinate through quotients that become singular for e close to 1; a bound for all eccentricities, times and directions is a statement about a continuum.", "anchors": ["src/jaxoplanet/orbits/keplerian.py: _get_position_and_velocity, relative_position, radial_velocity", "src/jaxoplanet/core/kepler.py: kepler, kepler_jvp"]}
{"id": "C112", "title": "One quadrature order is good for all occultations of a surface, at all positions, radii, phases and times", "statement": "For a surface (spherical-harmonic map with limb darkening) and a largest radius there is one constant C such that, for every occultor up to that radius, every position, every rotation angle, every order of the quadrature and every machine epsilon up to 1, surface_light_curve differs from the amplitude times the flux of the visible part of the disc by at most C/sqrt(order) + C sqrt(eps), plus an explicit bound for the error of the polynomial terms of the line integral, for which the code uses at most 20 nodes. The same holds with one constant for all times for every row (star and bodies) of light_curve of a system, at the times at which no two bodies in front of the star overlap.", "quantifier": "all valid maps and limb-darkening coefficients, all radii up to a bound, all positions (except an occultor with exactly the disc of the star), all phases and times, all orders, all machine epsilons in (0,1]", "why_tests_cant": "The integrand along the edge of the occultor has square-root singularities whose place depends on the position; that one order is enough for a whole light curve is a uniform statement about a continuum of positions, phases and times.", "anchors": ["src/jaxoplanet/starry/core/solution.py: solution_vector, p_integral, kappas", "src/jaxoplanet/starry/light_curves.py: surface_light_curve, light_curve"]}
{"id": "C113", "title": "One quadrature order is good for all radial velocities of an occulted surface (Rossiter-McLaughlin), at all positions, phases and times", "statement": "For a rotating surface and a largest radius there is one constant C such that, for every occultor up to that radius, every position and phase, every order of the quadrature and machine epsilon, surface_radial_velocity is the amplitude times the brightness-weighted mean velocity of the visible part of the disc up to the error of a quotient whose numerator and denominator (the visible flux) are found up to E = C/sqrt(order) + C sqrt(eps) plus an explicit bound for the polynomial terms (at most 20 nodes), whenever the visible flux exceeds E; without an occultation it is exact. One constant serves all times and all rows of radial_velocity of a system.", "quantifier": "all valid maps, limb darkening, periods, radii up to a bound, positions (except an occultor with exactly the disc of the star), phases, times, orders, machine epsilons in (0,1]", "why_tests_cant": "The velocity is a quotient of two integrals whose integrands along the edge have square-root singularities that move with the position; that one order suffices for a whole time series is uniform over a continuum.", "anchors": ["src/jaxoplanet/starry/doppler.py: surface_radial_velocity, radial_velocity, rv_map_expansion", "src/jaxoplanet/starry/core/solution.py: solution_vector"]}
{"id": "C114", "title": "ObjectStack.vmap: output axes as the caller writes them", "statement": "For every list of objects, stackable or not, and every out_axes (a tree of integers, negative ones included, that is a prefix of the structure of the results), the result is that of the plain loop: its structure is that of the function's results, and indexing a leaf at n along the axis out_axes gives it, counted from the end of the result if it is negative, gives the n-th object's own leaf. An out_axes that is not a prefix is rejected.", "quantifier": "every list of objects, function, argument tree, prefix tree of in_axes (as in C99) and of out_axes without None", "why_tests_cant": "Arbitrary functions, structures and sizes.", "anchors": ["src/jaxoplanet/object_stack.py: ObjectStack.vmap"]}
{"id": "C115", "title": "The derivatives of kepler() in floating-point arithmetic", "statement": "Evaluated in floating-point arithmetic, with an arbitrary relative error of at most u in every operation and elementary function of kepler and of its derivative rule, the tangents of kepler(M, e) are the derivatives of the sine and cosine of the exact true anomaly, at a mean anomaly that differs from M, reduced to one revolution, by at most u (3 |M| + 60) (for M in [0, pi]: at M itself), up to (1.4e-12 + 1050 u / (1 - e)) (|M'| / (1 - e^2)^1.5 + |e'| / (1 - e^2)). In double precision the factor is at most 4e-12 for e <= 0.9. The rule never divides by zero or takes a power of a negative number. With u = 0 this is the exact-arithmetic rule.", "quantifier": "every mean anomaly, every eccentricity with 1 - e >= 400 u, all tangents, every unit roundoff u <= 1e-10, every combination of rounding errors", "why_tests_cant": "The rounding errors of the solver are amplified by the rule, by powers of 1/(1 - e); no test covers all inputs and all combinations of errors.", "anchors": ["src/jaxoplanet/core/kepler.py: kepler and its defjvp"]}
{"id": "C116", "title": "The light curve of a quadratically limb-darkened star in floating-point arithmetic", "statement": "Evaluated in floating-point arithmetic, with an arbitrary relative error of at most u in every operation and elementary function, sums and dot products added in any order, and a table of nodes and weights rounded to working precision, light_curve([u1, u2], b, r, order) for |r| <= 1/2 is minus the fraction of the star's light that the occultor hides, up to 9710 sqrt(eps) + 75 sqrt(eta) + 160 (order + 1) u + 165 / (eta sqrt(2 order - 1)) for every eta between 6 eps and 0.02. So for every accuracy there are a precision and an order from which on every run is that accurate, uniformly in the position of the occultor, its radius and the limb darkening, also where the limbs touch. While the occultor is inside the disc of the star, every run is within 17700 sqrt(eps) + 160 (order + 1) u of the value in exact arithmetic with the same rule, at any order (3e-4 in double precision at the default order). With u = 0 this is the exact-arithmetic program.", "quantifier": "every position b, every radius ratio |r| <= 1/2, every limb darkening with |u1| <= 2, |u2| <= 1 and 1 - u1/3 - u2/6 >= 1/2 (all that are positive and decreasing towards the limb), every order, every u <= eps <= 1e-6, every combination of rounding errors and summation orders", "why_tests_cant": "Near the contacts the kite area and the angles lose half of the digits and guards jump; no test covers all geometries and combinations of rounding errors.", "anchors": ["src/jaxoplanet/core/limb_dark.py: light_curve, solution_vector, greens_basis_transform, kappas, s0s2, p_integral, kite_area"]}
{"id": "C117", "title": "Radial velocities in floating-point arithmetic", "statement": "Evaluated in floating-point arithmetic with an arbitrary relative error of at most u <= 1e-10 in every operation and elementary function, radial_velocity(t) of a body with a semi-amplitude K (given to the method or carried by the body) is within 16 u |K| of K cos f for a circular orbit and within 3.2 (1.5e-13 + 108 u/(1-e)) |K| of the textbook curve K (cos(w + f) + e cos w) for an eccentric one, where f is the true anomaly at a time that differs from t only by the rounding of the times, at most 11 u (|t - time_transit| + |time_ref|) + 10 u period. Without semi-amplitude, for a body with a mass m, the same holds up to 22 u |V| and 3.4 (1.5e-13 + 108 u/(1-e)) |V| for the curve with the physical amplitude V sin i, V = 2 pi a m / ((m + M) P sqrt(1 - e^2)).", "quantifier": "every orbit with orbital elements rounded to working precision (e >= 0 and 16 (1.5e-13 + 108 u/(1-e)) <= 1 - e, that is 1 - e above about 42 sqrt(u)), every time, every semi-amplitude or mass, every u <= 1e-10, every combination of rounding errors", "why_tests_cant": "The amplitude, the anomaly and two rotations round separately; tests compare a few orbits in one precision with a tolerance.", "anchors": ["src/jaxoplanet/orbits/keplerian.py: OrbitalBody.radial_velocity, central_velocity, _get_position_and_velocity, _rotate_vector, total_mass"]}
{"id": "C118", "title": "Transit light curves of quadratically limb-darkened stars in floating-point arithmetic, from the orbital elements", "statement": "Evaluated in floating-point arithmetic, with an arbitrary relative error of at most u in every operation and elementary function, light_curve(orbit, u1, u2, order=order)(t) of one body is minus the fraction of the star's light that a body on the Kepler orbit with the given elements hides, at a time that differs from t only by the rounding of the times, up to the bound of C116 plus 300 u plus the slope of the light curve times the error of the position of C109 (51 u a for circular and 43 a (1.5e-13 + 108 u/(1-e))/(1-e) for eccentric orbits).", "quantifier": "every circular and eccentric orbit (16 (1.5e-13 + 108 u/(1-e)) <= 1 - e) whose body never touches the star, every radius up to 0.49 stellar radii, every limb darkening with |u1| <= 2, |u2| <= 1 and 1 - u1/3 - u2/6 >= 1/2, every time, every order, every u <= 1e-10, u <= eps <= 1e-6, every combination of rounding errors and summation orders", "why_tests_cant": "The errors of the solver, the rotations, the geometry of the contacts and the quadrature accumulate; tests look at single curves.", "anchors": ["src/jaxoplanet/light_curves/limb_dark.py: light_curve", "src/jaxoplanet/core/limb_dark.py: light_curve", "src/jaxoplanet/orbits/keplerian.py: OrbitalBody.relative_position"]}
{"id": "C119", "title": "Exposure time integration in floating-point arithmetic", "statement": "Evaluated in floating-point arithmetic, with an arbitrary relative error of at most u in every operation, integrate(func, exposure_time, order, num_samples)(t) differs from the exact weighted average of the light curve by at most the error eta of func at times within u (|t| + 4 |exposure_time|) of the samples plus 6 (n + 1) u (B + eta), where n is the odd number of samples and B bounds the light curve during the exposure. With the default scheme and a light curve of slope at most K computed to within eps, this is the average over the exposure up to K exposure_time / (2 n) + eps + K u (|t| + 4 exposure_time) + 6 (n + 1) u (B + eta). A constant light curve keeps its value up to 6 (n + 1) u.", "quantifier": "every light curve function and every error it makes, every order 0, 1, 2, every number of samples n with (n + 1) u <= 1/8 (at least two for the orders 1 and 2), every scalar exposure time and time, every combination of rounding errors and summation orders", "why_tests_cant": "The weights are rounded quotients whose sum is only nearly one and the sample times lose accuracy at large times; tests compare a few samples with loose tolerances.", "anchors": ["src/jaxoplanet/light_curves/transforms.py: integrate, apply_exposure_time_integration"]}
