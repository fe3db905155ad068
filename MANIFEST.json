{
 "claims": [
  {
   "property": "C01",
   "status": "proved",
   "theorems": [
    "Jaxoplanet.Kepler.kepler_on_unit_circle"
   ],
   "note": ""
  },
  {
   "property": "C02",
   "status": "proved",
   "theorems": [
    "Jaxoplanet.Kepler.kepler_periodic"
   ],
   "note": ""
  },
  {
   "property": "C03",
   "status": "proved",
   "theorems": [
    "Jaxoplanet.Kepler.kepler_time_reversal"
   ],
   "note": ""
  },
  {
   "property": "C04",
   "status": "proved",
   "theorems": [
    "Jaxoplanet.Kepler.kepler_equation_exists_unique",
    "Jaxoplanet.Kepler.conversion_exact",
    "Jaxoplanet.Kepler.toTrueAnomaly_continuous",
    "Jaxoplanet.Kepler.kepler_exact_of_solved",
    "Jaxoplanet.Kepler.kepler_error_le",
    "Jaxoplanet.Kepler.kepler_apastron",
    "Jaxoplanet.Kepler.kepler_periastron"
   ],
   "note": ""
  },
  {
   "property": "C05",
   "status": "proved",
   "theorems": [
    "Jaxoplanet.Kepler.starter_spec",
    "Jaxoplanet.Kepler.starter_divisors",
    "Jaxoplanet.Kepler.refine_divisors",
    "Jaxoplanet.Kepler.refine_fixed_iff",
    "Jaxoplanet.Kepler.refine_fixed_of_solution"
   ],
   "note": ""
  },
  {
   "property": "C06",
   "status": "proved",
   "theorems": [
    "Jaxoplanet.Kepler.kepler_circular"
   ],
   "note": ""
  },
  {
   "property": "C07",
   "status": "proved",
   "theorems": [
    "Jaxoplanet.Kepler.jvp_correct",
    "Jaxoplanet.Kepler.jvp_primal"
   ],
   "note": ""
  },
  {
   "property": "C08",
   "status": "proved",
   "theorems": [
    "Jaxoplanet.Keplerian.central_accepted_iff",
    "Jaxoplanet.Keplerian.central_consistent",
    "Jaxoplanet.Keplerian.central_errors",
    "Jaxoplanet.Keplerian.central_nonscalar"
   ],
   "note": "all three given: uninitialised-field error instead of the documented ValueError (finding F15)"
  },
  {
   "property": "C09",
   "status": "proved",
   "theorems": [
    "Jaxoplanet.Keplerian.from_orbital_properties_roundtrip"
   ],
   "note": ""
  },
  {
   "property": "C10",
   "status": "proved",
   "theorems": [
    "Jaxoplanet.Keplerian.body_accepted_iff"
   ],
   "note": ""
  },
  {
   "property": "C100",
   "status": "proved",
   "theorems": [
    "Jaxoplanet.LimbDarkFloat.uniform_light_curve_float",
    "Jaxoplanet.LimbDarkFloat.uniform_light_curve_float_planet",
    "Jaxoplanet.LimbDarkFloat.uniform_light_curve_float_coincide",
    "Jaxoplanet.LimbDarkFloat.uniform_run_exact"
   ],
   "note": "rounding errors of every operation, arbitrary comparisons near the contacts; underflow and overflow are not modelled"
  },
  {
   "property": "C101",
   "status": "proved",
   "theorems": [
    "Jaxoplanet.Starry.orientation_gradient_is_derivative",
    "Jaxoplanet.Starry.orientation_gradient_rotation",
    "Jaxoplanet.Starry.orientation_gradient_finite",
    "Jaxoplanet.Starry.orientation_gradient_value",
    "Jaxoplanet.Starry.orientation_gradient_pole",
    "Jaxoplanet.Starry.orientation_gradient_wrong_at_pole"
   ],
   "note": "the Euler angles of jax.scipy and their derivatives are assumed correct away from the poles (DifferentiatesEuler, with a witness); finding F45 at inclination zero"
  },
  {
   "property": "C102",
   "status": "proved",
   "theorems": [
    "Jaxoplanet.Starry.system_gradient_is_derivative",
    "Jaxoplanet.Starry.system_gradient_finite"
   ],
   "note": "exact solver of Kepler's equation for the correctness (as in C94), the solver of the program for the finiteness; Euler angles as in C101"
  },
  {
   "property": "C103",
   "status": "proved",
   "theorems": [
    "Jaxoplanet.Starry.rv_gradient_is_derivative",
    "Jaxoplanet.Starry.rv_gradient_rotation",
    "Jaxoplanet.Starry.rv_gradient_finite",
    "Jaxoplanet.Starry.system_rv_gradient_is_derivative",
    "Jaxoplanet.Starry.system_rv_gradient_finite",
    "Jaxoplanet.Starry.visibleWeight_rotation",
    "Jaxoplanet.Starry.visibleWeight_unocculted",
    "Jaxoplanet.Starry.visibleWeight_occulted"
   ],
   "note": "exact solver of Kepler's equation for the correctness (as in C94), the solver of the program for the finiteness; Euler angles as in C101"
  },
  {
   "property": "C104",
   "status": "partial",
   "theorems": [
    "Jaxoplanet.LightCurve.integrate_without_exposure",
    "Jaxoplanet.LightCurve.integrate_raises_iff",
    "Jaxoplanet.LightCurve.integrate_one_value_partial",
    "Jaxoplanet.LightCurve.integrate_bodies_partial",
    "Jaxoplanet.LightCurve.integrate_orbit",
    "Jaxoplanet.LightCurve.integrate_matrix_raises",
    "Jaxoplanet.LightCurve.integrate_matrix_wrong",
    "Jaxoplanet.LightCurve.integrate_matrix_not_mean",
    "Jaxoplanet.LightCurve.integrate_keyword_raises",
    "Jaxoplanet.LightCurve.integrate_keyword_mapped",
    "Jaxoplanet.LightCurve.interpolate_one_value_partial",
    "Jaxoplanet.LightCurve.interpolate_bodies_raises",
    "Jaxoplanet.LightCurve.interpolate_orbit_raises"
   ],
   "note": "the code deviates: keyword arguments are mapped over the samples (F46), a matrix of values is averaged over the wrong axis or raises (F47), and light curves with one value per body cannot be interpolated (F48); the theorems say exactly what happens in these cases. Proved for one value and for one value per body, with any positional arguments"
  },
  {
   "property": "C105",
   "status": "partial",
   "theorems": [
    "Jaxoplanet.Transit.times_gradient_is_derivative",
    "Jaxoplanet.Transit.times_gradient_nearest",
    "Jaxoplanet.Transit.times_gradient_finite",
    "Jaxoplanet.Transit.ttvs_gradient_is_derivative_partial",
    "Jaxoplanet.Transit.ttvs_gradient_drops_ephemeris",
    "Jaxoplanet.Transit.ttvs_gradient_time_transit_wrong",
    "Jaxoplanet.Transit.ttvs_gradient_jit_raises"
   ],
   "note": "the code deviates (F49): with ttvs, the gradient with respect to period and time_transit is wrong and constructing the orbit under jit raises; for observed transit times, and for ttvs with period and time_transit not differentiated, the property is proved in full"
  },
  {
   "property": "C106",
   "status": "proved",
   "theorems": [
    "Jaxoplanet.LightCurve.integrate_gradient_is_derivative",
    "Jaxoplanet.LightCurve.integrate_gradient_finite",
    "Jaxoplanet.LightCurve.interpolate_gradient_is_derivative",
    "Jaxoplanet.LightCurve.interpolate_gradient_finite",
    "Jaxoplanet.LightCurve.integrated_transit_gradient_is_derivative",
    "Jaxoplanet.LightCurve.interpolated_transit_gradient_is_derivative"
   ],
   "note": "scalar-valued light curves; the wrapping, the sorting and the searching of the nodes are locally constant away from the nodes, across the wrapping of nodes and time"
  },
  {
   "property": "C107",
   "status": "proved",
   "theorems": [
    "Jaxoplanet.Starry.render_gradient_is_derivative",
    "Jaxoplanet.Starry.render_gradient_fixed",
    "Jaxoplanet.Starry.render_gradient_outside",
    "Jaxoplanet.Starry.intensity_gradient_fixed",
    "Jaxoplanet.Starry.intensity_gradient_is_derivative"
   ],
   "note": "as_euler and from_rotvec of jax.scipy are functions with documented meaning and derivatives (Spec/EulerGrad, Spec/RotvecGrad), with witnesses; intensity with differentiated orientation away from the snapping of F13"
  },
  {
   "property": "C108",
   "status": "proved",
   "theorems": [
    "Jaxoplanet.Starry.surface_light_curve_linear",
    "Jaxoplanet.Starry.light_curve_of_map_linear",
    "Jaxoplanet.Starry.surface_light_curve_superposition",
    "Jaxoplanet.Starry.surface_light_curve_zero_coefficients",
    "Jaxoplanet.Starry.render_linear",
    "Jaxoplanet.Starry.uniform_light_curve_not_linear"
   ],
   "note": "uniform maps with an occultor are excluded (F11; uniform_light_curve_not_linear shows they must be)"
  },
  {
   "property": "C109",
   "status": "proved",
   "theorems": [
    "Jaxoplanet.OrbitFloat.position_float_circular",
    "Jaxoplanet.OrbitFloat.position_float_eccentric",
    "Jaxoplanet.OrbitFloat.light_near",
    "Jaxoplanet.OrbitFloat.transit_float_circular",
    "Jaxoplanet.OrbitFloat.transit_float_eccentric",
    "Jaxoplanet.OrbitFloat.position_run_exact",
    "Jaxoplanet.OrbitFloat.transit_run_exact",
    "Jaxoplanet.OrbitFloat.exists_transitRun",
    "Jaxoplanet.OrbitFloat.transit_float_double"
   ],
   "note": ""
  },
  {
   "property": "C11",
   "status": "proved",
   "theorems": [
    "Jaxoplanet.Keplerian.kepler_third_law"
   ],
   "note": ""
  },
  {
   "property": "C110",
   "status": "proved",
   "theorems": [
    "Jaxoplanet.Gauss.lipschitz_rate",
    "Jaxoplanet.LimbDark.light_curve_rate",
    "Jaxoplanet.LimbDark.light_curve_rate_uniform",
    "Jaxoplanet.LimbDark.light_curve_uniform",
    "Jaxoplanet.LightCurve.limb_dark_term_uniform",
    "Jaxoplanet.LightCurve.transit_light_curve_uniform",
    "Jaxoplanet.LightCurve.exposure_light_curve_uniform",
    "Jaxoplanet.LightCurve.emission_uniform"
   ],
   "note": ""
  },
  {
   "property": "C111",
   "status": "proved",
   "theorems": [
    "Jaxoplanet.Keplerian.position_gradient_accurate",
    "Jaxoplanet.Keplerian.time_derivative_accurate",
    "Jaxoplanet.Keplerian.radial_velocity_gradient_accurate"
   ],
   "note": ""
  },
  {
   "property": "C112",
   "status": "proved",
   "theorems": [
    "Jaxoplanet.Starry.solutionVector_rate",
    "Jaxoplanet.Starry.surface_light_curve_rate",
    "Jaxoplanet.Starry.occultation_rate",
    "Jaxoplanet.Starry.system_light_curve_rate"
   ],
   "note": ""
  },
  {
   "property": "C113",
   "status": "proved",
   "theorems": [
    "Jaxoplanet.Starry.surface_rv_rate",
    "Jaxoplanet.Starry.rv_rate",
    "Jaxoplanet.Starry.system_rv_rate"
   ],
   "note": ""
  },
  {
   "property": "C114",
   "status": "proved",
   "theorems": [
    "Jaxoplanet.Stack.out_axes_path",
    "Jaxoplanet.Stack.out_axes_result",
    "Jaxoplanet.Stack.out_axes_not_prefix"
   ],
   "note": "in_axes as in C99: not negative on the loop path (F44); out_axes=None is F5; what jax.vmap does with an output axis out of range is not documented and modelled as an error"
  },
  {
   "property": "C115",
   "status": "proved",
   "theorems": [
    "Jaxoplanet.KeplerFloat.tangent_float",
    "Jaxoplanet.KeplerFloat.jvp_float",
    "Jaxoplanet.KeplerFloat.jvp_float_half",
    "Jaxoplanet.KeplerFloat.jvp_float_no_failure",
    "Jaxoplanet.KeplerFloat.jvp_float_exact",
    "Jaxoplanet.KeplerFloat.jvp_float_double",
    "Jaxoplanet.KeplerFloat.anomalyDerivative_unique"
   ],
   "note": "underflow and overflow are not represented"
  },
  {
   "property": "C116",
   "status": "proved",
   "theorems": [
    "Jaxoplanet.LimbDarkFloat.quadratic_flux_accurate",
    "Jaxoplanet.LimbDarkFloat.quadratic_flux_converges",
    "Jaxoplanet.LimbDarkFloat.quadratic_rounding_inside",
    "Jaxoplanet.LimbDarkFloat.quadratic_run_exact",
    "Jaxoplanet.LimbDarkFloat.quadraticRun_exists",
    "Jaxoplanet.LimbDarkFloat.exact_flux"
   ],
   "note": "the explicit bound is coarse: the rule is bounded as for a Lipschitz integrand; underflow and overflow are not represented"
  },
  {
   "property": "C117",
   "status": "proved",
   "theorems": [
    "Jaxoplanet.VelocityFloat.radial_velocity_float_circular",
    "Jaxoplanet.VelocityFloat.radial_velocity_float_eccentric",
    "Jaxoplanet.VelocityFloat.radial_velocity_float_physical_circular",
    "Jaxoplanet.VelocityFloat.radial_velocity_float_physical_eccentric",
    "Jaxoplanet.VelocityFloat.velocity_run_exact",
    "Jaxoplanet.VelocityFloat.exists_velocityRun"
   ],
   "note": "without parallax; the amplitude of a body without mass (one solar mass, F4) is modelled but has no accuracy theorem; underflow and overflow are not represented"
  },
  {
   "property": "C118",
   "status": "proved",
   "theorems": [
    "Jaxoplanet.OrbitFloat.quadratic_light_near",
    "Jaxoplanet.OrbitFloat.quadratic_transit_circular",
    "Jaxoplanet.OrbitFloat.quadratic_transit_eccentric",
    "Jaxoplanet.OrbitFloat.quadratic_transit_exact",
    "Jaxoplanet.OrbitFloat.exists_quadraticTransitRun"
   ],
   "note": "the bound of C116 is coarse; one body; without parallax; underflow and overflow are not represented"
  },
  {
   "property": "C119",
   "status": "proved",
   "theorems": [
    "Jaxoplanet.ExposureFloat.integrate_rounding",
    "Jaxoplanet.ExposureFloat.integrate_average",
    "Jaxoplanet.ExposureFloat.integrate_constant",
    "Jaxoplanet.ExposureFloat.integrate_run_exact",
    "Jaxoplanet.ExposureFloat.exists_exposureRun"
   ],
   "note": "the nodes of jnp.linspace are taken to be within 2u of their values; underflow and overflow are not represented"
  },
  {
   "property": "C12",
   "status": "partial",
   "theorems": [
    "Jaxoplanet.Keplerian.transit_is_transit_partial",
    "Jaxoplanet.Keplerian.transit_is_transit_circular",
    "Jaxoplanet.Keplerian.transit_behind_star_at_omega_minus_half_pi"
   ],
   "note": "exact solver; sin(omega) != -1 is needed: the claim is false at omega=-pi/2 given as sin/cos (finding F2, proved)"
  },
  {
   "property": "C13",
   "status": "proved",
   "theorems": [
    "Jaxoplanet.Keplerian.impact_param_kept",
    "Jaxoplanet.Keplerian.inclination_roundtrip"
   ],
   "note": ""
  },
  {
   "property": "C14",
   "status": "proved",
   "theorems": [
    "Jaxoplanet.Keplerian.time_peri_roundtrip",
    "Jaxoplanet.Keplerian.time_transit_kept",
    "Jaxoplanet.Keplerian.periastron_at_time_peri"
   ],
   "note": ""
  },
  {
   "property": "C15",
   "status": "proved",
   "theorems": [
    "Jaxoplanet.Keplerian.orbit_periodic"
   ],
   "note": ""
  },
  {
   "property": "C16",
   "status": "proved",
   "theorems": [
    "Jaxoplanet.Keplerian.distance_law"
   ],
   "note": ""
  },
  {
   "property": "C17",
   "status": "proved",
   "theorems": [
    "Jaxoplanet.Keplerian.barycentre",
    "Jaxoplanet.Keplerian.barycentre_massless",
    "Jaxoplanet.Keplerian.parallax_scaling"
   ],
   "note": ""
  },
  {
   "property": "C18",
   "status": "proved",
   "theorems": [
    "Jaxoplanet.Keplerian.velocity_is_derivative",
    "Jaxoplanet.Keplerian.velocity_is_autodiff_derivative",
    "Jaxoplanet.Keplerian.momentum_balance",
    "Jaxoplanet.Keplerian.prescribed_amplitude_breaks_velocity"
   ],
   "note": "body without prescribed RV semi-amplitude; with one the claim is false (finding F3, proved)"
  },
  {
   "property": "C19",
   "status": "proved",
   "theorems": [
    "Jaxoplanet.Keplerian.radial_velocity_prescribed",
    "Jaxoplanet.Keplerian.radial_velocity_physical",
    "Jaxoplanet.Keplerian.radial_velocity_angle_form",
    "Jaxoplanet.Keplerian.massless_radial_velocity_uses_one_solar_mass"
   ],
   "note": ""
  },
  {
   "property": "C20",
   "status": "proved",
   "theorems": [
    "Jaxoplanet.Keplerian.system_history",
    "Jaxoplanet.Keplerian.system_init",
    "Jaxoplanet.Keplerian.bodyVmap_rows",
    "Jaxoplanet.Keplerian.system_quantities",
    "Jaxoplanet.Keplerian.system_quantities'",
    "Jaxoplanet.Keplerian.empty_system_errors"
   ],
   "note": ""
  },
  {
   "property": "C21",
   "status": "proved",
   "theorems": [
    "Jaxoplanet.Stack.vmap_eq_loop",
    "Jaxoplanet.Stack.vmap_result",
    "Jaxoplanet.Stack.size_mismatch_depends_on_structure",
    "Jaxoplanet.Stack.unmapped_output_differs"
   ],
   "note": "mapped axes must match the number of objects and out_axes must not be None: otherwise false (finding F5, proved)"
  },
  {
   "property": "C22",
   "status": "proved",
   "theorems": [
    "Jaxoplanet.Transit.transit_init",
    "Jaxoplanet.Transit.transit_contacts",
    "Jaxoplanet.Transit.transit_centre",
    "Jaxoplanet.Transit.transit_visible_iff",
    "Jaxoplanet.Transit.nontransiting_never_in_front"
   ],
   "note": ""
  },
  {
   "property": "C23",
   "status": "proved",
   "theorems": [
    "Jaxoplanet.Transit.fold_spec",
    "Jaxoplanet.Transit.transit_periodic",
    "Jaxoplanet.Transit.transit_in_front_iff"
   ],
   "note": ""
  },
  {
   "property": "C24",
   "status": "proved",
   "theorems": [
    "Jaxoplanet.Transit.ephemeris_defined_iff",
    "Jaxoplanet.Transit.ephemeris_least_squares",
    "Jaxoplanet.Transit.ephemeris_exact"
   ],
   "note": ""
  },
  {
   "property": "C25",
   "status": "proved",
   "theorems": [
    "Jaxoplanet.Transit.nearest_transit",
    "Jaxoplanet.Transit.warp_observed",
    "Jaxoplanet.Transit.observed_transits_are_transits",
    "Jaxoplanet.Transit.motion_near_transit",
    "Jaxoplanet.Transit.ttvs_mode_times",
    "Jaxoplanet.Transit.ttvs_mode_mean_zero",
    "Jaxoplanet.Transit.explicit_time_transit_shifts_transits",
    "Jaxoplanet.Transit.multi_planet_ttvs_need_time_transit",
    "Jaxoplanet.Transit.shared_period_drops_planet",
    "Jaxoplanet.Transit.ttvs_mode_planet",
    "Jaxoplanet.Transit.ttvs_mode_transits",
    "Jaxoplanet.Transit.ttvs_mode_accepted",
    "Jaxoplanet.Transit.ttvs_mode_default_t0",
    "Jaxoplanet.Transit.shape_period"
   ],
   "note": "with an explicit time_transit, non-zero-mean ttvs or a shared period the claim is false (finding F7, proved)"
  },
  {
   "property": "C26",
   "status": "proved",
   "theorems": [
    "Jaxoplanet.Transit.expected_transit_times"
   ],
   "note": ""
  },
  {
   "property": "C27",
   "status": "proved",
   "theorems": [
    "Jaxoplanet.LimbDark.light_curve_no_occultation"
   ],
   "note": ""
  },
  {
   "property": "C28",
   "status": "partial",
   "theorems": [
    "Jaxoplanet.LimbDark.light_curve_total_occultation_partial",
    "Jaxoplanet.LimbDark.light_curve_exact_cover",
    "Jaxoplanet.LimbDark.total_occultation_counterexample"
   ],
   "note": "true except at the single point |b|=0, |r|=1, where the claim is false (finding F1, proved): a linear law returns -3/5"
  },
  {
   "property": "C29",
   "status": "proved",
   "theorems": [
    "Jaxoplanet.LimbDark.greens_reproduces_profile",
    "Jaxoplanet.LimbDark.greens_normalisation"
   ],
   "note": ""
  },
  {
   "property": "C30",
   "status": "proved",
   "theorems": [
    "Jaxoplanet.LimbDark.uniform_light_curve",
    "Jaxoplanet.LimbDark.uniform_light_curve_range"
   ],
   "note": "Lebesgue measure of the intersection, all regimes"
  },
  {
   "property": "C31",
   "status": "proved",
   "theorems": [
    "Jaxoplanet.LimbDark.kite_area_is_triangle",
    "Jaxoplanet.LimbDark.kite_area_symmetric",
    "Jaxoplanet.LimbDark.kite_area_heron"
   ],
   "note": ""
  },
  {
   "property": "C32",
   "status": "proved",
   "theorems": [
    "Jaxoplanet.LimbDark.light_curve_abs"
   ],
   "note": ""
  },
  {
   "property": "C33",
   "status": "proved",
   "theorems": [
    "Jaxoplanet.LightCurve.integrate_none_and_errors",
    "Jaxoplanet.LightCurve.integrate_is_mean",
    "Jaxoplanet.LightCurve.integrate_const",
    "Jaxoplanet.LightCurve.integrate_linear",
    "Jaxoplanet.LightCurve.integrate_linear_exact",
    "Jaxoplanet.LightCurve.integrate_cubic_exact",
    "Jaxoplanet.LightCurve.integrate_converges",
    "Jaxoplanet.LightCurve.integrate_single_sample"
   ],
   "note": "num_samples <= 1 with order 1, 2 samples the exposure start only (finding F6, proved)."
  },
  {
   "property": "C34",
   "status": "proved",
   "theorems": [
    "Jaxoplanet.LightCurve.vectorize_elementwise"
   ],
   "note": "Nested-list arrays of any shape."
  },
  {
   "property": "C35",
   "status": "proved",
   "theorems": [
    "Jaxoplanet.LightCurve.interpolate_periodic",
    "Jaxoplanet.LightCurve.interpolate_exact_at_nodes",
    "Jaxoplanet.LightCurve.interpolate_linear_in_cell",
    "Jaxoplanet.LightCurve.interpolate_outside_window",
    "Jaxoplanet.LightCurve.interpolate_error"
   ],
   "note": "jnp.interp modelled from its algorithm (wrap, sort, pad, search, interpolate). The default full-period window needs the function to agree at both ends."
  },
  {
   "property": "C36",
   "status": "proved",
   "theorems": [
    "Jaxoplanet.LightCurve.limb_dark_behind",
    "Jaxoplanet.LightCurve.limb_dark_separated",
    "Jaxoplanet.LightCurve.limb_dark_entries",
    "Jaxoplanet.LightCurve.limb_dark_uniform"
   ],
   "note": ""
  },
  {
   "property": "C37",
   "status": "proved",
   "theorems": [
    "Jaxoplanet.Units.decoration",
    "Jaxoplanet.Units.call",
    "Jaxoplanet.Units.treeMap_leaves",
    "Jaxoplanet.Units.scalar_refused",
    "Jaxoplanet.Units.none_argument",
    "Jaxoplanet.Units.field_converter"
   ],
   "note": "inspect.Signature.bind, jax tree_map and pint's Quantity.to are modelled by their documented behaviour; offset units are not modelled."
  },
  {
   "property": "C38",
   "status": "proved",
   "theorems": [
    "Jaxoplanet.Starry.ylm_index_bijective",
    "Jaxoplanet.Starry.todense_length",
    "Jaxoplanet.Starry.todense_entry",
    "Jaxoplanet.Starry.getitem_in_range",
    "Jaxoplanet.Starry.todense_fromDense",
    "Jaxoplanet.Starry.fromDense_todense"
   ],
   "note": "F8: subscripting outside the degree returns the last coefficient (getitem_out_of_range)"
  },
  {
   "property": "C39",
   "status": "proved",
   "theorems": [
    "Jaxoplanet.Starry.normalize_spec",
    "Jaxoplanet.Starry.normalize_unit",
    "Jaxoplanet.Starry.normalize_idempotent",
    "Jaxoplanet.Starry.normalize_error_iff",
    "Jaxoplanet.Starry.fromDense_normalized"
   ],
   "note": ""
  },
  {
   "property": "C40",
   "status": "proved",
   "theorems": [
    "Jaxoplanet.Starry.surface_normalized",
    "Jaxoplanet.Starry.surface_unnormalized",
    "Jaxoplanet.Starry.surface_default",
    "Jaxoplanet.Starry.surface_error",
    "Jaxoplanet.Starry.surface_amplitude_overwritten"
   ],
   "note": "F17: explicit amplitude ignored with normalize=True"
  },
  {
   "property": "C41",
   "status": "proved",
   "theorems": [
    "Jaxoplanet.Starry.pijk_add",
    "Jaxoplanet.Starry.pijk_mul",
    "Jaxoplanet.Starry.pijk_mulScalar",
    "Jaxoplanet.Starry.pIndex_n2ijk",
    "Jaxoplanet.Starry.ijk2lm_lm2ijk",
    "Jaxoplanet.Starry.n2lm_lm2n",
    "Jaxoplanet.Starry.pijk_denseVal",
    "Jaxoplanet.Starry.pijk_fromDense",
    "Jaxoplanet.Starry.pijk_todense_fromDense",
    "Jaxoplanet.Starry.dense_product"
   ],
   "note": "F18: adding a scalar is not adding a constant (pijk_addScalar_not_constant)"
  },
  {
   "property": "C42",
   "status": "proved",
   "theorems": [
    "Jaxoplanet.Starry.polyBasis_spec",
    "Jaxoplanet.Starry.polyBasis_dot"
   ],
   "note": ""
  },
  {
   "property": "C43",
   "status": "proved",
   "theorems": [
    "Jaxoplanet.Starry.gtilde_is_curl",
    "Jaxoplanet.Starry.A2inv_val"
   ],
   "note": ""
  },
  {
   "property": "C44",
   "status": "proved",
   "theorems": [
    "Jaxoplanet.Starry.utilde_val",
    "Jaxoplanet.Starry.limbDarkPoly_val"
   ],
   "note": ""
  },
  {
   "property": "C45",
   "status": "proved",
   "theorems": [
    "Jaxoplanet.Starry.dotRz_mixes",
    "Jaxoplanet.Starry.dotRz_zero",
    "Jaxoplanet.Starry.dotRz_comp",
    "Jaxoplanet.Starry.dotRz_polar",
    "Jaxoplanet.Starry.dotRz_norm",
    "Jaxoplanet.Starry.dotRz_mapVal"
   ],
   "note": ""
  },
  {
   "property": "C46",
   "status": "partial",
   "theorems": [
    "Jaxoplanet.Starry.skyProjection_spec",
    "Jaxoplanet.Starry.skyProjection_single",
    "Jaxoplanet.Starry.skyProjection_none_inc",
    "Jaxoplanet.Starry.fullRotation_spec_partial",
    "Jaxoplanet.Starry.fullRotation_snaps"
   ],
   "note": "sky_projection_axis_angle is proved in full; full_rotation_axis_angle replaces rotations by less than about 0.009 rad by the identity (F13, proved), so the full statement holds only outside that range."
  },
  {
   "property": "C47",
   "status": "proved",
   "theorems": [
    "Jaxoplanet.Starry.y2d_y1d",
    "Jaxoplanet.Starry.y1d_y2d",
    "Jaxoplanet.Starry.Cmat_unitary",
    "Jaxoplanet.Starry.Cmat_entry"
   ],
   "note": ""
  },
  {
   "property": "C48",
   "status": "proved",
   "theorems": [
    "Jaxoplanet.Starry.qIntegral_spec"
   ],
   "note": ""
  },
  {
   "property": "C49",
   "status": "proved",
   "theorems": [
    "Jaxoplanet.Starry.rT_spec",
    "Jaxoplanet.Starry.rT_dot"
   ],
   "note": ""
  },
  {
   "property": "C50",
   "status": "proved",
   "theorems": [
    "Jaxoplanet.Starry.surface_system_init",
    "Jaxoplanet.Starry.surface_system_history",
    "Jaxoplanet.Starry.surface_system_paired",
    "Jaxoplanet.Starry.default_surface"
   ],
   "note": "Constructor and any history of add_body: bodies and surfaces stay paired, central surface never missing."
  },
  {
   "property": "C51",
   "status": "proved",
   "theorems": [
    "Jaxoplanet.Starry.system_observable_rows",
    "Jaxoplanet.Starry.system_light_curve_total",
    "Jaxoplanet.Starry.system_light_curve_central",
    "Jaxoplanet.Starry.system_light_curve_bodies",
    "Jaxoplanet.Starry.system_overlap_negative",
    "Jaxoplanet.Starry.system_uniform_amplitude",
    "Jaxoplanet.Starry.rotational_phase",
    "Jaxoplanet.Starry.rotational_phase_none",
    "Jaxoplanet.Starry.rotation_periodic"
   ],
   "note": "Rows for any observable; for light curves the central row is the flux of the visible part when bodies do not overlap mutually; findings: overlapping bodies are subtracted twice, uniform central with amplitude != 1."
  },
  {
   "property": "C52",
   "status": "proved",
   "theorems": [
    "Jaxoplanet.Starry.surface_light_curve_rotation",
    "Jaxoplanet.Starry.surface_light_curve_unocculted",
    "Jaxoplanet.Starry.surface_light_curve_occulted",
    "Jaxoplanet.Starry.surface_light_curve_exact",
    "Jaxoplanet.Starry.surface_light_curve_hidden",
    "Jaxoplanet.Starry.surface_light_curve_equal",
    "Jaxoplanet.Starry.surface_light_curve_uniform",
    "Jaxoplanet.Starry.surface_light_curve_constant",
    "Jaxoplanet.Starry.surface_light_curve_uniform_exact",
    "Jaxoplanet.Starry.surface_light_curve_amplitude",
    "Jaxoplanet.Starry.surface_light_curve_defaults",
    "Jaxoplanet.Starry.surface_light_curve_ignores_amplitude"
   ],
   "note": "The Euler angles of jax.scipy Rotation and scipy's matrix inverse enter by their documented meaning; the quadrature rule is a parameter, with explicit error term. Findings F11 (amplitude ignored for a uniform map with an occultor), F19, F22."
  },
  {
   "property": "C53",
   "status": "proved",
   "theorems": [
    "Jaxoplanet.Units.to_spec",
    "Jaxoplanet.Units.to_comp",
    "Jaxoplanet.Units.to_roundtrip",
    "Jaxoplanet.Units.mass_parameters",
    "Jaxoplanet.Units.codeG_eq",
    "Jaxoplanet.Units.year_in_code_units",
    "Jaxoplanet.Units.planet_ratios"
   ],
   "note": ""
  },
  {
   "property": "C54",
   "status": "proved",
   "theorems": [
    "Jaxoplanet.Kepler.zeroSafeSqrt_correct",
    "Jaxoplanet.Kepler.zeroSafeSqrt_damped"
   ],
   "note": ""
  },
  {
   "property": "C55",
   "status": "proved",
   "theorems": [
    "Jaxoplanet.Starry.Mp.cache_transparent",
    "Jaxoplanet.Starry.Mp.flux_cache_transparent",
    "Jaxoplanet.Starry.Mp.foreign_cache_keyError",
    "Jaxoplanet.Starry.Mp.stale_after_precision_change",
    "Jaxoplanet.Starry.Mp.getR_leaks_dict"
   ],
   "note": "one working precision; finding F28"
  },
  {
   "property": "C56",
   "status": "proved",
   "theorems": [
    "Jaxoplanet.Starry.Wig.calculate_eq",
    "Jaxoplanet.Starry.Wig.wigner3j_eq",
    "Jaxoplanet.Starry.Wig.wigner3j_cyclic",
    "Jaxoplanet.Starry.Wig.clebsch_value",
    "Jaxoplanet.Starry.Wig.clebsch_gordan_orthonormal",
    "Jaxoplanet.Starry.Wig.clebsch_gordan_sign"
   ],
   "note": "all integers; real arithmetic"
  },
  {
   "property": "C57",
   "status": "proved",
   "theorems": [
    "Jaxoplanet.LimbDark.light_curve_is_blocked_fraction",
    "Jaxoplanet.LimbDark.light_curve_flux_all_regimes",
    "Jaxoplanet.LimbDark.light_curve_exact_quadrature",
    "Jaxoplanet.LimbDark.integrand_exact",
    "Jaxoplanet.LimbDark.quadError_eq"
   ],
   "note": "exact up to the quadrature error of the orders 1 and >=3, which is expressed exactly; |b|=0,|r|=1 excluded (F1)"
  },
  {
   "property": "C58",
   "status": "proved",
   "theorems": [
    "Jaxoplanet.Keplerian.Scale.mkOrbitalBody_scale",
    "Jaxoplanet.Keplerian.Scale.position_scale",
    "Jaxoplanet.Keplerian.Scale.velocity_scale"
   ],
   "note": "central_velocity of a body without mass excluded (F4)"
  },
  {
   "property": "C59",
   "status": "proved",
   "theorems": [
    "Jaxoplanet.relative_position_from_elements"
   ],
   "note": ""
  },
  {
   "property": "C60",
   "status": "proved",
   "theorems": [
    "Jaxoplanet.angles_kept",
    "Jaxoplanet.angle_or_sine_cosine",
    "Jaxoplanet.parallax_default",
    "Jaxoplanet.relative_angles_polar"
   ],
   "note": ""
  },
  {
   "property": "C61",
   "status": "proved",
   "theorems": [
    "Jaxoplanet.momentum_balance_semiamplitude",
    "Jaxoplanet.velocity_semiamplitude_massless"
   ],
   "note": ""
  },
  {
   "property": "C62",
   "status": "proved",
   "theorems": [
    "Jaxoplanet.Starry.ylmDict_val",
    "Jaxoplanet.Starry.A1_val",
    "Jaxoplanet.Starry.realHarmonic_polar"
   ],
   "note": ""
  },
  {
   "property": "C63",
   "status": "proved",
   "theorems": [
    "Jaxoplanet.Starry.dotRotationMatrix_rotates",
    "Jaxoplanet.Starry.dotRotationMatrix_z",
    "Jaxoplanet.Starry.dotRotationMatrix_none",
    "Jaxoplanet.Starry.leftProject_spec",
    "Jaxoplanet.Starry.leftProject_no_obl",
    "Jaxoplanet.Starry.leftProject_none",
    "Jaxoplanet.Starry.leftProject_no_inc",
    "Jaxoplanet.Starry.rightProject_spec",
    "Jaxoplanet.Starry.rightProject_no_inc"
   ],
   "note": "Rotation.as_euler('zyz') of jax.scipy enters by its documented meaning (hypothesis IsEulerZYZ, shown satisfiable). F19/F20: with inc None the obliquity acts with the opposite sign and right_project does not invert it."
  },
  {
   "property": "C64",
   "status": "proved",
   "theorems": [
    "Jaxoplanet.Starry.visible_green",
    "Jaxoplanet.Starry.solutionVector_spec",
    "Jaxoplanet.Starry.solutionVector_tendsto",
    "Jaxoplanet.Starry.solutionVector_none",
    "Jaxoplanet.Starry.solutionVector_total",
    "Jaxoplanet.Starry.solutionVector_equal",
    "Jaxoplanet.Starry.solutionVector_zero"
   ],
   "note": "Findings: solution_vector(0) raises ValueError; b=0, r=1 gives the whole flux; the polynomial terms use at most 20 nodes whatever the order."
  },
  {
   "property": "C65",
   "status": "proved",
   "theorems": [
    "Jaxoplanet.Starry.A2inv_det",
    "Jaxoplanet.Starry.A2_spec",
    "Jaxoplanet.Starry.gtilde_independent"
   ],
   "note": ""
  },
  {
   "property": "C66",
   "status": "proved",
   "theorems": [
    "Jaxoplanet.Starry.intensity_xyz",
    "Jaxoplanet.Starry.render_pixel",
    "Jaxoplanet.Starry.gridValue_ends",
    "Jaxoplanet.Starry.ortho_lat_lon"
   ],
   "note": "every pixel of render is the projected intensity; NaN exactly outside the disc"
  },
  {
   "property": "C67",
   "status": "partial",
   "theorems": [
    "Jaxoplanet.Starry.intensity_rotation",
    "Jaxoplanet.Starry.intensity_lat_lon_partial",
    "Jaxoplanet.Starry.intensity_mirrored",
    "Jaxoplanet.Starry.intensity_centre"
   ],
   "note": "the code evaluates the map at (-lat, -lon) (F25): exact value proved, counterexample to the documented claim, and the claim itself at lat = lon = 0; outside the axis-angle snap band"
  },
  {
   "property": "C68",
   "status": "proved",
   "theorems": [
    "Jaxoplanet.Starry.losSpeed_is_derivative",
    "Jaxoplanet.Starry.velocity_is_derivative",
    "Jaxoplanet.Starry.rv_map_rigid",
    "Jaxoplanet.Starry.rv_map_differential",
    "Jaxoplanet.Starry.rv_map_none",
    "Jaxoplanet.Starry.intensity_xyz_rv",
    "Jaxoplanet.Starry.velocity_without_inclination"
   ],
   "note": "both branches of rv_map_expansion (with and without alpha) as functions on the sphere; finding F26 for inc=None"
  },
  {
   "property": "C69",
   "status": "proved",
   "theorems": [
    "Jaxoplanet.Starry.surface_rv_rotation",
    "Jaxoplanet.Starry.surface_rv_unocculted",
    "Jaxoplanet.Starry.surface_rv_occulted",
    "Jaxoplanet.Starry.surface_rv_exact",
    "Jaxoplanet.Starry.surface_rv_uniform",
    "Jaxoplanet.Starry.surface_rv_bound",
    "Jaxoplanet.Starry.surface_rv_amplitude",
    "Jaxoplanet.Starry.surface_rv_no_period"
   ],
   "note": "vdeg = 1 (no shear); quadrature errors explicit; findings F12, F27"
  },
  {
   "property": "C70",
   "status": "proved",
   "theorems": [
    "Jaxoplanet.Starry.radial_velocity_rows",
    "Jaxoplanet.Starry.radial_velocity_out_of_transit",
    "Jaxoplanet.Starry.radial_velocity_no_bodies"
   ],
   "note": "first body only (F12)"
  },
  {
   "property": "C71",
   "status": "proved",
   "theorems": [
    "Jaxoplanet.Starry.Mp.A1mp_history",
    "Jaxoplanet.Starry.Mp.A1mp_gives",
    "Jaxoplanet.Starry.Mp.A2invMp_eq",
    "Jaxoplanet.Starry.Mp.A2mp_core"
   ],
   "note": "exact arithmetic; the LU solves of A2 are the matrix inverse"
  },
  {
   "property": "C72",
   "status": "proved",
   "theorems": [
    "Jaxoplanet.Starry.Mp.sT_visible",
    "Jaxoplanet.Starry.Mp.flux_occulted",
    "Jaxoplanet.Starry.Mp.flux_unocculted",
    "Jaxoplanet.Starry.Mp.flux_hidden",
    "Jaxoplanet.Starry.Mp.flux_centred",
    "Jaxoplanet.Starry.Mp.flux_errors",
    "Jaxoplanet.Starry.Mp.flux_no_rotate",
    "Jaxoplanet.Starry.Mp.flux_ignores_mean",
    "Jaxoplanet.Starry.Mp.exists_exactRot"
   ],
   "note": "exact quadrature; the rotation matrices R are a parameter that is exact (satisfiable); findings F29, F30"
  },
  {
   "property": "C73",
   "status": "proved",
   "theorems": [
    "Jaxoplanet.Starry.Bp_spec",
    "Jaxoplanet.Starry.ylm_spot_map",
    "Jaxoplanet.Starry.ylm_spot_round",
    "Jaxoplanet.Starry.ylm_spot_moved",
    "Jaxoplanet.Starry.ylm_spot_no_contrast",
    "Jaxoplanet.Starry.spot_seen",
    "Jaxoplanet.Starry.spot_profile_shape"
   ],
   "note": "all inputs"
  },
  {
   "property": "C74",
   "status": "proved",
   "theorems": [
    "Jaxoplanet.Starry.map_determines_coef",
    "Jaxoplanet.Starry.A1_det",
    "Jaxoplanet.Starry.A1_inverse",
    "Jaxoplanet.Starry.from_limb_darkening_map",
    "Jaxoplanet.Starry.from_limb_darkening_flux",
    "Jaxoplanet.Starry.from_limb_darkening_total"
   ],
   "note": "total flux non-zero"
  },
  {
   "property": "C75",
   "status": "partial",
   "theorems": [
    "Jaxoplanet.Starry.ylm_mul_coefficients",
    "Jaxoplanet.Starry.ylm_mul_constant",
    "Jaxoplanet.Starry.ylm_mul_not_scaling",
    "Jaxoplanet.Starry.ylm_mul_wrong"
   ],
   "note": "the property is false of the code (finding F10); proved: the exact coefficients the code computes, and the refutation"
  },
  {
   "property": "C76",
   "status": "proved",
   "theorems": [
    "Jaxoplanet.Kepler.solveE_accurate",
    "Jaxoplanet.Kepler.kepler_accurate",
    "Jaxoplanet.Kepler.kepler_accurate_each"
   ],
   "note": "exact real arithmetic; rounding errors are not modelled"
  },
  {
   "property": "C77",
   "status": "proved",
   "theorems": [
    "Jaxoplanet.Keplerian.positions_accurate",
    "Jaxoplanet.Keplerian.velocities_accurate",
    "Jaxoplanet.Keplerian.radial_velocity_accurate",
    "Jaxoplanet.Keplerian.relative_position_from_elements_accurate",
    "Jaxoplanet.Keplerian.transit_is_transit_accurate",
    "Jaxoplanet.Keplerian.transit_separation_accurate"
   ],
   "note": "exact real arithmetic; the excluded argument of periastron -pi/2 is F2 (C12)"
  },
  {
   "property": "C78",
   "status": "proved",
   "theorems": [
    "Jaxoplanet.Starry.lat_vertex",
    "Jaxoplanet.Starry.lon_vertex",
    "Jaxoplanet.Starry.vertex_drawn",
    "Jaxoplanet.Starry.show_surface_consistent",
    "Jaxoplanet.Starry.show_body_scaled"
   ],
   "note": "for surfaces (radius 1); bodies with another radius: F31, show_body_scaled"
  },
  {
   "property": "C79",
   "status": "partial",
   "theorems": [
    "Jaxoplanet.Starry.fastLeftProject_eq_partial",
    "Jaxoplanet.Starry.fastLeftProject_mapVal_partial",
    "Jaxoplanet.Starry.fastLeftProject_near",
    "Jaxoplanet.Starry.fastLeftProject_snapped",
    "Jaxoplanet.Starry.fastLeftProject_differs",
    "Jaxoplanet.Starry.rotateFlms_entry",
    "Jaxoplanet.Starry.rotateFlms_precomputed"
   ],
   "note": "equality with left_project is proved for every rotation that full_rotation_axis_angle does not snap to the identity; for snapped ones (F13) it is false (fastLeftProject_differs), and for all inputs the sampled point is within 0.01 (fastLeftProject_near)"
  },
  {
   "property": "C80",
   "status": "proved",
   "theorems": [
    "Jaxoplanet.Starry.Mp.R_rotates",
    "Jaxoplanet.Starry.Mp.R_exact",
    "Jaxoplanet.Starry.Mp.R_error_iff",
    "Jaxoplanet.Starry.Mp.dotRotationMatrixMp_rotates",
    "Jaxoplanet.Starry.Mp.dotRotationMatrixMp_error_iff",
    "Jaxoplanet.Starry.Mp.leftProjectMp_theta_z",
    "Jaxoplanet.Starry.Mp.leftProjectMp_identity",
    "Jaxoplanet.Starry.Mp.leftProjectMp_converges"
   ],
   "note": "exact arithmetic; mp.dps is a parameter"
  },
  {
   "property": "C81",
   "status": "proved",
   "theorems": [
    "Jaxoplanet.Starry.Mp.flux_converges",
    "Jaxoplanet.Starry.Mp.flux_converges_surface",
    "Jaxoplanet.Starry.Mp.flux_unocculted_converges",
    "Jaxoplanet.Starry.Mp.rotateY_converges",
    "Jaxoplanet.Starry.Mp.usedView_near",
    "Jaxoplanet.Starry.Mp.leftProjectMp_converges"
   ],
   "note": "limit in the working precision; exact quadrature; exact arithmetic except the removal of entries below 10**(-dps)"
  },
  {
   "property": "C82",
   "status": "proved",
   "theorems": [
    "Jaxoplanet.Starry.Legacy.computeRotationMatrices_rotates",
    "Jaxoplanet.Starry.Legacy.computeRotationMatrices_zero_axis",
    "Jaxoplanet.Starry.Legacy.computeRotationMatrices_band"
   ],
   "note": "exact arithmetic; eps is a parameter; refutations for the zero axis (F34) and inside the tolerance band (F35)"
  },
  {
   "property": "C83",
   "status": "partial",
   "theorems": [
    "Jaxoplanet.Starry.polynomialProductMatrix_product_partial",
    "Jaxoplanet.Starry.polynomialProductMatrix_value",
    "Jaxoplanet.Starry.polynomialProductMatrix_wrong"
   ],
   "note": "proved when the last coefficient of p is zero; otherwise the claim is false (F9): the exact value is polynomialProductMatrix_value and polynomialProductMatrix_wrong refutes the claim for all such p"
  },
  {
   "property": "C84",
   "status": "proved",
   "theorems": [
    "Jaxoplanet.LimbDark.light_curve_converges",
    "Jaxoplanet.LimbDark.light_curve_limit",
    "Jaxoplanet.LimbDark.guardLoss_tendsto",
    "Jaxoplanet.LimbDark.solution_one_annulus",
    "Jaxoplanet.Gauss.exists_gauss",
    "Jaxoplanet.Gauss.gauss_unique",
    "Jaxoplanet.Gauss.nodes_nodup",
    "Jaxoplanet.Gauss.node_facts",
    "Jaxoplanet.Gauss.weights_sum",
    "Jaxoplanet.Gauss.tendsto_quadSum"
   ],
   "note": "the rule is any list with the documented property of roots_legendre; the nodes SciPy actually returns (rounded) are not modelled"
  },
  {
   "property": "C85",
   "status": "proved",
   "theorems": [
    "Jaxoplanet.Starry.surface_light_curve_converges",
    "Jaxoplanet.Starry.solutionVector_converges",
    "Jaxoplanet.Starry.solutionVector_close",
    "Jaxoplanet.Starry.edgeError_low",
    "Jaxoplanet.Starry.lowLoss_small",
    "Jaxoplanet.Starry.edgeLoss_small",
    "Jaxoplanet.Gauss.gauss_error"
   ],
   "note": "for all positions and radii except the concentric occultor of radius exactly 1 (finding, C52)"
  },
  {
   "property": "C86",
   "status": "proved",
   "theorems": [
    "Jaxoplanet.LightCurve.limb_dark_converges",
    "Jaxoplanet.LightCurve.limb_dark_limit",
    "Jaxoplanet.LightCurve.hiddenFraction_stable",
    "Jaxoplanet.LightCurve.transit_light_curve_accurate",
    "Jaxoplanet.LightCurve.hiddenFraction_time_lipschitz",
    "Jaxoplanet.LightCurve.exposure_light_curve_accurate",
    "Jaxoplanet.LightCurve.emission_converges",
    "Jaxoplanet.LightCurve.emission_star_converges"
   ],
   "note": "end to end: solver, orbit, quadrature, stencil; the exposure theorem is for the default midpoint stencil (order 0) and in the limit of a small machine epsilon"
  },
  {
   "property": "C87",
   "status": "proved",
   "theorems": [
    "Jaxoplanet.Starry.surface_rv_converges",
    "Jaxoplanet.Starry.surface_rv_vector",
    "Jaxoplanet.Starry.quotient_error",
    "Jaxoplanet.Starry.sunlike_rv"
   ],
   "note": "sunlike_rv: the hypothesis on the flux holds for a planet in front of a uniform star"
  },
  {
   "property": "C88",
   "status": "proved",
   "theorems": [
    "Jaxoplanet.Starry.system_light_curve_converges",
    "Jaxoplanet.Starry.occultation_converges",
    "Jaxoplanet.Starry.flux_beside",
    "Jaxoplanet.Starry.uniform_flux"
   ],
   "note": "the time must not have mutual occultations in front of the central (finding F23: the code sums the losses)"
  },
  {
   "property": "C89",
   "status": "proved",
   "theorems": [
    "Jaxoplanet.Starry.system_rv_converges",
    "Jaxoplanet.Starry.rv_converges",
    "Jaxoplanet.Starry.rv_single",
    "Jaxoplanet.Starry.mean_single",
    "Jaxoplanet.Starry.mean_beside",
    "Jaxoplanet.Starry.rv_not_additive",
    "Jaxoplanet.Starry.sunlike_seen"
   ],
   "note": "only the reflex velocity of the first body (F12); simultaneous transits are added, which is not the mean velocity of the visible part (F37, rv_not_additive)"
  },
  {
   "property": "C90",
   "status": "proved",
   "theorems": [
    "Jaxoplanet.LimbDark.gradient_finite",
    "Jaxoplanet.LimbDark.gradient_is_derivative",
    "Jaxoplanet.LimbDark.uniform_gradient",
    "Jaxoplanet.LimbDark.orbit_gradient_finite",
    "Jaxoplanet.LimbDark.orbit_gradient_is_derivative",
    "Jaxoplanet.LimbDark.gradient_not_finite",
    "Jaxoplanet.LimbDark.orbit_gradient_not_finite",
    "Jaxoplanet.LimbDark.lightCurveD_v",
    "Jaxoplanet.LimbDark.regular_inside",
    "Jaxoplanet.LimbDark.regular_limb"
   ],
   "note": "derivative rules of the JAX primitives are modelled (Model/Autodiff.lean); exceptional points: F38, F39 (the gradient is nan there, proved)"
  },
  {
   "property": "C91",
   "status": "proved",
   "theorems": [
    "Jaxoplanet.Transit.transit_gradient_finite",
    "Jaxoplanet.Transit.transit_gradient_finite_speed",
    "Jaxoplanet.Transit.transit_gradient_is_derivative",
    "Jaxoplanet.Transit.transit_gradient_is_derivative_speed",
    "Jaxoplanet.Transit.no_transit_gradient",
    "Jaxoplanet.Transit.no_transit_flux"
   ],
   "note": "with a duration and |impact_param| >= 1 + radius_ratio the gradient is nan although the light curve is constant (F40, no_transit_gradient)"
  },
  {
   "property": "C92",
   "status": "proved",
   "theorems": [
    "Jaxoplanet.Starry.solutionVectorD_v",
    "Jaxoplanet.Starry.solution_gradient_finite",
    "Jaxoplanet.Starry.solution_gradient_is_derivative",
    "Jaxoplanet.Starry.solution_gradient_not_finite"
   ],
   "note": "at the two exceptional points the derivatives are not finite (F41, solution_gradient_not_finite)"
  },
  {
   "property": "C93",
   "status": "proved",
   "theorems": [
    "Jaxoplanet.Starry.surface_gradient_value",
    "Jaxoplanet.Starry.surface_gradient_finite",
    "Jaxoplanet.Starry.surface_gradient_is_derivative",
    "Jaxoplanet.Starry.surface_gradient_rotation",
    "Jaxoplanet.Starry.surface_gradient_not_finite"
   ],
   "note": "directions in the inclination and the obliquity are not modelled; for an exactly centred occultor the derivative is not finite (F42, surface_gradient_not_finite)"
  },
  {
   "property": "C94",
   "status": "proved",
   "theorems": [
    "Jaxoplanet.Keplerian.orbit_derivatives_finite",
    "Jaxoplanet.Keplerian.orbit_derivatives_correct",
    "Jaxoplanet.Keplerian.orbit_time_derivative",
    "Jaxoplanet.Keplerian.orbit_derivatives_lost"
   ],
   "note": "with sin_omega_peri = -1 and cos_omega_peri = 0 no derivative is finite (F43, orbit_derivatives_lost)"
  },
  {
   "property": "C95",
   "status": "proved",
   "theorems": [
    "Jaxoplanet.LightCurve.kepler_gradient_finite",
    "Jaxoplanet.LightCurve.kepler_gradient_correct",
    "Jaxoplanet.LightCurve.kepler_gradient_uniform"
   ],
   "note": ""
  },
  {
   "property": "C96",
   "status": "proved",
   "theorems": [
    "Jaxoplanet.kepler_derivative_accurate",
    "Jaxoplanet.jvpTangent_stable"
   ],
   "note": "exact arithmetic: rounding is not modelled"
  },
  {
   "property": "C97",
   "status": "proved",
   "theorems": [
    "Jaxoplanet.KeplerFloat.float_accurate",
    "Jaxoplanet.KeplerFloat.float_accurate_half",
    "Jaxoplanet.KeplerFloat.float_no_failure",
    "Jaxoplanet.KeplerFloat.float_on_unit_circle",
    "Jaxoplanet.KeplerFloat.float_exact",
    "Jaxoplanet.KeplerFloat.float_double"
   ],
   "note": "standard model of floating-point arithmetic: relative error at most u per operation, no underflow or overflow; library sin, cos, tan, cbrt, sqrt assumed accurate to u; the remainder is in [0, 2 pi]"
  },
  {
   "property": "C98",
   "status": "proved",
   "theorems": [
    "Jaxoplanet.LightCurve.integrate_accurate_lipschitz",
    "Jaxoplanet.LightCurve.integrate_accurate_smooth",
    "Jaxoplanet.LightCurve.integrate_accurate_simpson",
    "Jaxoplanet.LightCurve.interpolate_accurate_smooth",
    "Jaxoplanet.LightCurve.interpolate_accurate_periodic",
    "Jaxoplanet.LightCurve.exposure_light_curve_accurate",
    "Jaxoplanet.LightCurve.interpolated_light_curve_accurate"
   ],
   "note": "exact arithmetic; the trapezoid constant is 1/12 per unit of the Lipschitz constant of the derivative, the midpoint one 1/24"
  },
  {
   "property": "C99",
   "status": "partial",
   "theorems": [
    "Jaxoplanet.Stack.vmap_axes_partial",
    "Jaxoplanet.Stack.vmap_axes_stacked",
    "Jaxoplanet.Stack.vmap_axes_not_prefix",
    "Jaxoplanet.Stack.negative_axis_is_first",
    "Jaxoplanet.Stack.negative_axis_depends_on_structure"
   ],
   "note": "false as it stands (F44): when the bodies do not stack, a negative axis is silently the first axis; proved for axes that are not negative (or are minus the number of axes), and for all axes when the bodies stack"
  }
 ]
}