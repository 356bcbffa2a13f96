{"id": "C01", "title": "Cleaning keeps exactly the macroparticles at or above the cleaning threshold", "statement": "After MP_system.clean_small_MPs() the live macroparticles are exactly the previously live ones whose size is at least nel_mp_cl_th, in their original order and with every coordinate, velocity, size and last-impact time unchanged; every dead slot has size zero; the reference size changes only if no macroparticle is left, in which case it becomes nel_mp_ref_0.", "quantifier": "every macroparticle system (any capacity, any number of live particles, any sizes, any stale content in dead slots) and every threshold", "why_tests_cant": "eight parallel arrays are compacted by the same mask; a mistake shows only for particular keep patterns or stale tails, and the patterns are unbounded", "anchors": ["MP_system.py: MP_system.clean_small_MPs, set_nel_mp_ref"]}
{"id": "C02", "title": "Soft regeneration conserves the total charge", "statement": "perform_soft_regeneration(target) leaves the total charge of the cloud unchanged, whatever subset of macroparticles survives.", "quantifier": "every cloud, every target and every outcome of the random draws", "why_tests_cant": "the surviving subset is random; a test sees a handful of outcomes and never the empty one", "anchors": ["MP_system.py: MP_system.perform_soft_regeneration"]}
{"id": "C03", "title": "Soft regeneration only thins the cloud", "statement": "After perform_soft_regeneration the live macroparticles are a sub-sequence of the previous ones with position, velocity and last-impact time untouched and all sizes multiplied by one common factor; the count never grows and nothing at all happens unless N_mp exceeds the target.", "quantifier": "every cloud, target and random outcome", "why_tests_cant": "needs all masks over unboundedly many particles", "anchors": ["MP_system.py: MP_system.perform_soft_regeneration, check_for_soft_regeneration"]}
{"id": "C04", "title": "Size thresholds stay locked to the reference size, which never drops below its initial value", "statement": "In every state reached by any sequence of public operations (adding, cleaning, soft/async/full regeneration, re-initialisation) nel_mp_split = fact_split*nel_mp_ref, nel_mp_cl_th = fact_clean*nel_mp_ref and nel_mp_ref >= nel_mp_ref_0.", "quantifier": "all finite histories of operations with arbitrary arguments and random draws", "why_tests_cant": "an invariant over unbounded histories", "anchors": ["MP_system.py: set_nel_mp_ref, clean_small_MPs, perform_soft_regeneration, check_for_async_regeneration, check_for_regeneration"]}
{"id": "C05", "title": "Adding macroparticles appends exactly those macroparticles", "statement": "add_new_MPs(n, ...) with arrays of length n (scalars are repeated) appends exactly those n macroparticles after the existing ones, leaves the existing ones unchanged, and raises instead of dropping particles when they do not fit in the allocated arrays.", "quantifier": "all clouds, all n, all particle data, all capacities", "why_tests_cant": "the failing corner (full array and exactly one new particle) is one point in an unbounded space and silent", "anchors": ["MP_system.py: MP_system.add_new_MPs", "impact_management_class.py: backtrack_and_second_emiss (add_new_MPs call)"]}
{"id": "C06", "title": "The live count never exceeds the allocated number of macroparticles", "statement": "In every state reached by any sequence of operations that did not raise, N_mp <= N_mp_max and all per-particle arrays keep length N_mp_max.", "quantifier": "all finite histories of operations", "why_tests_cant": "an invariant over unbounded histories; the violation needs an exactly full array", "anchors": ["MP_system.py: add_new_MPs, add_uniform_MP_distrib, add_uniform_ele_density, add_from_file, check_for_regeneration"]}
{"id": "C07", "title": "Uniform initial population lies inside the chamber with the reference size", "statement": "add_uniform_MP_distrib(DNel, ...) appends N macroparticles with N in {floor(DNel/ref), floor(DNel/ref)+1}, each of size nel_mp_ref, each inside the chamber and inside the requested rectangle with z = 0, so that the added charge differs from DNel by less than one reference size.", "quantifier": "all DNel, all rectangles, all chambers and all random draws for which the rejection loop ends", "why_tests_cant": "rejection sampling with unbounded retries; the retry pattern is random", "anchors": ["MP_system.py: add_uniform_MP_distrib"]}
{"id": "C08", "title": "Newly created macroparticles carry no impact history", "statement": "When lifetime histograms are enabled, every macroparticle created by a primary source (initial distribution, uniform density, file, gas ionisation, photoemission, cross ionisation, regeneration) starts with last-impact time -1, so it cannot contribute a lifetime before its first impact.", "quantifier": "all sources, all prior contents of the arrays, all histories", "why_tests_cant": "wrong values appear only when array slots are reused after an earlier particle died", "anchors": ["MP_system.py: add_uniform_MP_distrib (lines 483-486), add_uniform_ele_density, add_from_file, check_for_regeneration", "gas_ionization_class.py: generate"]}
{"id": "C09", "title": "extract_dict / init_from_dict restore the cloud", "statement": "init_from_dict(extract_dict()) applied at any later moment restores exactly the macroparticles present when the dictionary was extracted.", "quantifier": "all clouds, all operations performed between extraction and restoration", "why_tests_cant": "depends on arbitrary intermediate histories and stale array content", "anchors": ["MP_system.py: extract_dict, init_from_dict, add_from_file", "PyEC4PyHT.py: Ecloud._reinitialize"]}
{"id": "C10", "title": "Dead slots never contribute charge to a regeneration", "statement": "Whenever the simulation loop performs a soft, asynchronous or full regeneration, the total charge it works with is the charge of the live macroparticles.", "quantifier": "every history of simulation steps (motion, impacts, generation, cleaning, regeneration, re-initialisation)", "why_tests_cant": "requires an invariant on the dead part of the arrays over unbounded histories", "anchors": ["MP_system.py: perform_soft_regeneration line 171, check_for_regeneration line 233, init_from_dict", "buildup_simulation.py: _MP_cleaning_and_regenerations"]}
{"id": "C11", "title": "Full regeneration yields equal-size macroparticles inside the chamber", "statement": "After a triggered check_for_regeneration every live macroparticle has size exactly nel_mp_ref, lies inside the chamber, has z = 0, and N_mp is the sum of the integer counts drawn for the occupied phase-space cells.", "quantifier": "all clouds, grids, chambers and random draws for which the rejection loop ends", "why_tests_cant": "round-robin generation with random retries over an unbounded number of cells", "anchors": ["MP_system.py: check_for_regeneration lines 375-430"]}
{"id": "C12", "title": "Full regeneration preserves the charge up to one reference size per occupied cell", "statement": "The charge after a full regeneration differs from the charge retained by the x cut by less than nel_mp_ref times the number of occupied cells.", "quantifier": "all clouds, grids and random draws", "why_tests_cant": "random rounding in unboundedly many cells", "anchors": ["MP_system.py: check_for_regeneration lines 327-391"]}
{"id": "C13", "title": "Phase-space binning puts every macroparticle back into its own cell", "statement": "In a full regeneration every macroparticle is assigned to the cell whose centre is nearest in x, y, vx, vy and vz, and the cell index is decoded to the same five coordinates, so that distinct cells are never merged.", "quantifier": "all positions and velocities within the ranges and all grid sizes Nx, Ny, Nvx, Nvy, Nvz >= 2", "why_tests_cant": "mixed-radix index arithmetic with rounding half to even: failures happen only for special grid sizes at extreme coordinates", "anchors": ["MP_system.py: check_for_regeneration lines 286-370"]}
{"id": "C14", "title": "The x cut of the full regeneration terminates and removes less than the allowed fraction", "statement": "The loop that looks for the horizontal cut ends after at most as many iterations as histogram bins, and the charge of the macroparticles dropped by the cut is less than regen_hist_cut times the total (or nothing is dropped).", "quantifier": "all clouds inside the histogram range with non-negative sizes, all 0 <= regen_hist_cut <= 2", "why_tests_cant": "termination and an inequality over all weight distributions", "anchors": ["MP_system.py: check_for_regeneration lines 243-271", "compute_hist.f"]}
{"id": "C15", "title": "Regenerations happen exactly when requested", "statement": "check_for_regeneration changes anything only if N_mp > N_mp_regen, or N_mp < N_mp_regen_low while nel_mp_ref > nel_mp_ref_0; check_for_soft_regeneration only if enabled and N_mp > N_mp_soft_regen; check_for_async_regeneration only if enabled and N_mp > N_mp_async_regen, and the latter thins the cloud only if it is still above the threshold after cleaning.", "quantifier": "all states and all threshold settings", "why_tests_cant": "decision logic over all states", "anchors": ["MP_system.py: check_for_regeneration line 232, check_for_soft_regeneration, check_for_async_regeneration"]}
{"id": "C16", "title": "Macroparticles that do not hit the wall are left alone by the impact step", "statement": "backtrack_and_second_emiss leaves position, velocity, size and last-impact time of every live macroparticle that is inside the chamber unchanged, and does nothing to the cloud if none is outside.", "quantifier": "all clouds, chambers, emission models and random draws", "why_tests_cant": "masked gather/scatter over arbitrary impact patterns", "anchors": ["impact_management_class.py: backtrack_and_second_emiss"]}
{"id": "C17", "title": "After the impact step every macroparticle is inside the chamber", "statement": "If the chamber's impact point routine returns points inside the chamber (see the geometry properties), then after backtrack_and_second_emiss every live macroparticle, including the newly emitted ones, is inside the chamber.", "quantifier": "all clouds, all trajectories, all emission outcomes", "why_tests_cant": "unbounded number of particles and emission patterns", "anchors": ["impact_management_class.py: backtrack_and_second_emiss", "sec_emission_model_ECLOUD.py: impacts_on_surface"]}
{"id": "C18", "title": "Charge balance of the impact step", "statement": "The total charge after backtrack_and_second_emiss equals the charge before, minus the reported impacting charge (Nel_impact_last_step), plus the reported emitted charge (Nel_emit_last_step).", "quantifier": "all clouds, all impact patterns, all yields and random draws, for the ECLOUD-type emission models", "why_tests_cant": "bookkeeping identity over unboundedly many particles and random splits", "anchors": ["impact_management_class.py: backtrack_and_second_emiss", "sec_emission_model_ECLOUD.py: SEY_process, impacts_on_surface", "pyecloud_saver.py: Nel_imp_time, Nel_emit_time"]}
{"id": "C19", "title": "Impact histograms account for every impacting electron exactly once", "statement": "In each impact step the total content added to the x-impact histogram, to the energy spectrum and (when every impact has a segment) to the per-segment histogram equals the impacting charge; the scrubbing histogram receives exactly the impacts above scrub_en_th and never exceeds the total histogram in any bin.", "quantifier": "all impact patterns, energies, positions within the histogram range and chambers", "why_tests_cant": "sums over arbitrary sets of impacts, including range overflow bins", "anchors": ["impact_management_class.py: backtrack_and_second_emiss", "compute_hist.f", "update_seg_impact.f"]}
{"id": "C20", "title": "Histogram deposition conserves weight and stays within the bins", "statement": "compute_hist adds exactly the sum of the weights to the histogram for all samples at or above the lower edge, writes only existing bins, sends everything beyond the last edge into the last bin, and preserves the first moment for samples inside the grid.", "quantifier": "all sample lists, weights and grids", "why_tests_cant": "floating/integer index arithmetic over all positions", "anchors": ["compute_hist.f: compute_hist"]}
{"id": "C21", "title": "Charge deposition on the grid conserves charge and dipole moment", "statement": "compute_rho deposits exactly the total charge of the particles inside the grid, leaves the grid untouched for particles outside, and the deposited first moments equal those of the particles.", "quantifier": "all particle lists and all grids", "why_tests_cant": "index arithmetic over all positions", "anchors": ["compute_rho.f: compute_sc_rho"]}
{"id": "C22", "title": "Field interpolation is a convex combination, exact for linear fields, and adjoint to deposition", "statement": "int_field returns for every particle inside the grid a convex combination of the four surrounding nodal values (hence within their range), reproduces any field bilinear in x and y exactly, returns zero outside the grid, and for any nodal field the sum over particles of weight times interpolated field equals the sum over nodes of deposited weight times nodal field.", "quantifier": "all particle lists, grids and nodal fields", "why_tests_cant": "algebraic identities over all inputs", "anchors": ["interp_field_for.f: int_field", "compute_rho.f: compute_sc_rho"]}
{"id": "C23", "title": "The ECLOUD yield is non-negative with reflected fraction between 0 and 1 and peaks at the set maximum", "statement": "For SEY_model_ECLOUD the total yield is non-negative, the reflected fraction lies in [0,1], the true-secondary yield at normal incidence never exceeds del_max and equals del_max at energy Emax.", "quantifier": "all impact energies >= 0, all impact angles, all parameters with s > 1, 0 <= R0, 0 < E0, 0 < Emax, 0 < del_max", "why_tests_cant": "inequality over a continuum with real exponents", "anchors": ["sec_emission_model_ECLOUD.py: yield_fun2"]}
{"id": "C24", "title": "Splitting true secondaries conserves charge and respects the size limit", "statement": "For every true secondary event the size of the replaced macroparticle plus the sizes of the added ones equals the emitted charge, all pieces have equal size, no piece exceeds nel_mp_th, and no piece is split further than necessary.", "quantifier": "all emitted charges and thresholds > 0, all numbers of impacts", "why_tests_cant": "ceil-based splitting over a continuum", "anchors": ["sec_emission_model_ECLOUD.py: impacts_on_surface lines 160-205"]}
{"id": "C25", "title": "Each impact is either elastic or true secondary and gets the matching treatment", "statement": "Every impacting macroparticle is classified as exactly one of elastic or true secondary; the elastic ones are specularly reflected at unchanged speed and never split, the true secondaries get a drawn energy and are emitted from the same impact point with the same surface normal as their parent.", "quantifier": "all impact patterns and random draws", "why_tests_cant": "masked updates over arbitrary patterns, np.repeat alignment of parents and children", "anchors": ["sec_emission_model_ECLOUD.py: SEY_process, impacts_on_surface"]}
{"id": "C26", "title": "Flat low-energy model reflects low-energy electrons", "statement": "For SEY_model_flat_le the reflected fraction is (total yield - true secondary yield)/total yield, in particular positive below the low-energy threshold where the total yield is R0.", "quantifier": "all energies, angles and parameters", "why_tests_cant": "aliasing of numpy arrays makes the reflected part vanish for every input, which statistical tests on totals do not show", "anchors": ["sec_emission_model_flat_low_ener.py: yield_fun2"]}
{"id": "C27", "title": "Charging surfaces: the accumulated charge is an exact balance and the effective yield is clamped", "statement": "For the charging model the charge per area of every segment changes in each step by the net charge of the impacts on that segment (then decays with the configured time constant), segments without charging are never affected, and the charge used in the yield is clamped between zero and the maximum.", "quantifier": "all impact patterns, segments, histories of steps", "why_tests_cant": "history-dependent state over unbounded sequences", "anchors": ["sec_emission_model_ECLOUD_nunif.py: SEY_model_ECLOUD_non_unif_charging"]}
{"id": "C28", "title": "Non-uniform emission uses the parameters of the segment that was hit", "statement": "For SEY_model_ECLOUD_non_unif the yield of each impact depends only on the parameters stored for the segment reported as hit, and is the ordinary ECLOUD yield with those parameters.", "quantifier": "all chambers, segments, energies, angles", "why_tests_cant": "indexing over arbitrary impact patterns", "anchors": ["sec_emission_model_ECLOUD_nunif.py: SEY_process"]}
{"id": "C29", "title": "Tabulated yields are interpolated linearly and exactly at the nodes", "statement": "SEY_model_from_file interpolates linearly between the two neighbouring table entries for every energy in the table range, reproduces the table at its nodes, stays between the neighbouring entries, and extrapolates with the configured constant or line beyond the table.", "quantifier": "all equally spaced tables, all energies", "why_tests_cant": "index arithmetic with truncation over a continuum", "anchors": ["sec_emission_model_from_file.py: interp, SEY_process"]}
{"id": "C30", "title": "A perfect absorber removes everything that hits it and emits nothing", "statement": "With SEY_model_perfect_absorber every impacting macroparticle ends with size zero and no macroparticle is created, so the cloud charge decreases by exactly the impacting charge and the next cleaning removes those macroparticles.", "quantifier": "all clouds and impact patterns, any positive cleaning threshold", "why_tests_cant": "composition of impact step and cleaning over arbitrary patterns", "anchors": ["sec_emission_model_perfect_absorber.py", "impact_management_class.py: backtrack_and_second_emiss"]}
{"id": "C31", "title": "Furman-Pivi event selection is a partition and emission counts are bounded", "statement": "Each Furman-Pivi impact is exactly one of elastic, rediffused, true secondary or absorbed; elastic and rediffused emit exactly one macroparticle, absorbed none, true secondaries between one and M_cut, and the emitted charge is the number of emitted macroparticles times the impacting size.", "quantifier": "all impacts, probabilities and random draws", "why_tests_cant": "random draws with unbounded resampling", "anchors": ["sec_emission_model_furman_pivi.py: SEY_process, impacts_on_surface"]}
{"id": "C32", "title": "Furman-Pivi true secondaries leave the wall with a newly drawn velocity", "statement": "After SEY_model_furman_pivi.impacts_on_surface no true-secondary macroparticle keeps its impact velocity: it leaves with the drawn emission energy, directed into the chamber.", "quantifier": "all batches of impacts", "why_tests_cant": "fails only for batches in which no event emits more than one macroparticle", "anchors": ["sec_emission_model_furman_pivi.py: impacts_on_surface lines 470-543"]}
{"id": "C33", "title": "Specular reflection preserves speed and reverses the normal velocity", "statement": "specular_velocity returns a velocity of the same magnitude, with the component along the (unit) wall normal reversed and the tangential and longitudinal components unchanged; applying it twice is the identity.", "quantifier": "all velocities and all unit normals", "why_tests_cant": "identity over a continuum", "anchors": ["electron_emission.py: specular_velocity"]}
{"id": "C34", "title": "Emitted electrons leave with the drawn energy into the chamber", "statement": "velocities_angle_cosine_3D / 2D return velocities whose kinetic energy equals the drawn energy and whose component along the inward unit normal is non-negative; normal emission is exactly along the normal.", "quantifier": "all energies >= 0, unit normals and random draws in [0,1)", "why_tests_cant": "identity over a continuum with trigonometric draws", "anchors": ["electron_emission.py: _velocities_angle, velocities_angle_cosine_3D, velocities_angle_cosine_2D"]}
{"id": "C35", "title": "Secondary energies respect the configured caps", "statement": "sec_energy_hilleret_model2 never returns an energy above E_th in mode 0, and never above min(E_th, impact energy) in mode 2 for impacts above the low-energy threshold, nor above the impact energy below it; mode 1 is rejected with an error.", "quantifier": "all numbers of draws, impact energies and random draws for which the resampling ends", "why_tests_cant": "resampling with unbounded retries", "anchors": ["electron_emission.py: sec_energy_hilleret_model2"]}
{"id": "C36", "title": "The Boris pusher conserves speed in a pure magnetic field", "statement": "With zero electric field any number of Boris sub-steps leaves the speed of every macroparticle unchanged, for any position-dependent magnetic field and any time step.", "quantifier": "all magnetic fields, velocities, time steps, numbers of sub-steps and particles", "why_tests_cant": "identity over a continuum and unbounded iteration", "anchors": ["boris_c_function.c: b_step", "boris_step.f", "dynamics_Boris_f2py.py", "dynamics_Boris_multipole.py"]}
{"id": "C37", "title": "Boris pusher in a pure electric field is exact in velocity and independent of sub-stepping", "statement": "Without magnetic field, n sub-steps of length Dt/n change the velocity by exactly q/m*E*Dt whatever n, and the position by v*Dt + q/m*E*Dt^2*(n+1)/(2n).", "quantifier": "all fields, initial conditions and n >= 1", "why_tests_cant": "induction over the number of sub-steps", "anchors": ["boris_c_function.c: b_step", "boris_step.f", "dynamics_Boris_multipole.py: stepcustomDt"]}
{"id": "C38", "title": "Multipole fields are the real and imaginary parts of the complex multipole expansion", "statement": "The magnetic field used by the multipole pusher satisfies By + i*Bx = sum_n (B_n + i*S_n)/n! (x+iy)^n for any number of normal and skew coefficients, so an on-axis coefficient reproduces dipole and quadrupole exactly, and every such field is divergence- and curl-free term by term.", "quantifier": "all coefficient lists of any length and all positions", "why_tests_cant": "recursion of unbounded length", "anchors": ["boris_c_function.c: b_step lines 50-70", "dynamics_Boris_multipole.py: __init__"]}
{"id": "C39", "title": "The strong dipole tracker is the exact solution of motion in constant fields", "statement": "pusher_dipole_magnet.step conserves the speed when the electric field is zero, and stepping by Dt1 and then Dt2 in constant fields equals one step of Dt1+Dt2.", "quantifier": "all fields, initial conditions and time steps (away from the small-argument branch of the sinc functions)", "why_tests_cant": "functional identities over a continuum", "anchors": ["dynamics_dipole.py", "sincc_cosincc_cubsincc.py"]}
{"id": "C40", "title": "The main loop performs exactly Nt-1 steps without running off the time grid", "statement": "Starting from initialisation, run() performs exactly len(t)-1 time steps, each one reading only existing entries of the time and beam-profile arrays, with current time strictly increasing by the reported Dt_curr, so the sum of all Dt_curr equals the elapsed time.", "quantifier": "all strictly increasing time grids of any length >= 2", "why_tests_cant": "loop termination and array bounds for every grid length", "anchors": ["beam_and_timing.py: next_time_step, end_simulation", "buildup_simulation.py: run"]}
{"id": "C41", "title": "New-bunch-passage flags mark each passage exactly once", "statement": "The passage number never decreases, flag_new_bunch_pass is raised at a step exactly when the passage number is non-negative and larger than at every previous step, so over a run starting at a non-negative time it is raised exactly once for every passage number entered and never twice for the same passage.", "quantifier": "all increasing time grids and bunch spacings > 0 (starting at a non-negative time for the exactly-once part)", "why_tests_cant": "depends on the relation between unbounded time grids and the bunch spacing", "anchors": ["beam_and_timing.py: next_time_step"]}
{"id": "C42", "title": "Space charge is recomputed often enough and not more often than requested", "statement": "After t_sc_ON the field is recomputed at the first opportunity and then only once at least Dt_sc (up to the tolerance in the code) has elapsed since the previous recomputation, and always when forced; before t_sc_ON never unless forced.", "quantifier": "all time grids and all sequences of requests", "why_tests_cant": "scheduling over unbounded histories", "anchors": ["space_charge_class.py: check_for_recomputation", "buildup_simulation.py: sim_time_step"]}
{"id": "C43", "title": "Every cloud's charge density is its own deposition and the field sees the sum", "statement": "With several clouds, after a recomputation the density stored for each cloud is the deposition of that cloud alone, the densities of all clouds add up to the density the field solver uses, and the solver runs once, after all clouds were deposited.", "quantifier": "any number of clouds with any content", "why_tests_cant": "unbounded number of clouds; a telescoping bookkeeping", "anchors": ["buildup_simulation.py: _recompute_cloud_spacecharge", "space_charge_class.py: recompute_spchg_efield"]}
{"id": "C44", "title": "Sub-stepping advances the cloud by exactly the requested time", "statement": "In every sub-stepping mode (custom, non-uniform grid, default, with or without field re-interpolation) the internal steps of one cloud motion add up to Dt_curr, and an unsupported combination raises instead of silently tracking for a different time.", "quantifier": "all time steps, reference steps and sub-step counts", "why_tests_cant": "decision logic with rounding over a continuum; the failing corner is a time step much shorter than the sub-step", "anchors": ["buildup_simulation.py: _cloud_motion", "dynamics_Boris_multipole.py: stepcustomDt", "dynamics_Boris_f2py.py: stepcustomDt"]}
{"id": "C45", "title": "Primary sources create the requested charge inside the chamber", "statement": "Gas ionisation and photoemission append floor or floor+1 macroparticles of the requested number, each of size nel_mp_ref and inside the chamber, with t_last_impact = -1, and leave the existing ones unchanged; the added charge is within one reference size of the physical request.", "quantifier": "all beam intensities, chambers and random draws for which the rejection loop ends", "why_tests_cant": "random draws with unbounded retries", "anchors": ["gas_ionization_class.py: residual_gas_ionization.generate", "gen_photoemission_class.py: get_number_new_mps, gen_energy_and_set_MPs"]}
{"id": "C46", "title": "Cross ionisation removes from the target what it creates and never goes below an empty target", "statement": "In each step the target population decreases by the number of ionisations, the target density never becomes negative, products created with generate_equally have identical counts and positions for all products, and every product macroparticle sits at the position of a projectile.", "quantifier": "all projectile populations, cross sections, steps and histories", "why_tests_cant": "history-dependent depletion; the failing corner needs a step that ionises more than what is left", "anchors": ["cross_ionization.py: Ionization_Process.generate, Cross_Ionization.generate"]}
{"id": "C47", "title": "The chamber test of convex polygons is exact", "statement": "For a convex chamber, is_outside returns false exactly for the points strictly left of every edge (taken in counter-clockwise order) or in the fast-accept ellipse; when that ellipse lies inside the polygon the answer is exactly the interior of the polygon; for the rectangular chamber it is exactly |x| < x_aper and |y| < y_aper.", "quantifier": "all convex polygons with any number of edges and all points", "why_tests_cant": "geometric predicate over a continuum and all polygons", "anchors": ["geom_impact_poly_cython.pyx: is_outside_convex", "geom_impact_rect_fast_impact.py"]}
{"id": "C48", "title": "Impact points on polygonal chambers lie on the trajectory, inside the chamber, or an error is raised", "statement": "impact_point_and_normal of a polygonal chamber returns points on the segment between the old and new position, not past the first wall crossing, and in robust mode either every returned point is inside the chamber or an exception is raised; the returned normal is the inward unit normal of the edge that was hit.", "quantifier": "all polygons, all trajectories starting inside", "why_tests_cant": "geometric search over all edges", "anchors": ["geom_impact_poly_cython.pyx: impact_point_and_normal", "geom_impact_poly_fast_impact.py: impact_point_and_normal"]}
{"id": "C49", "title": "Impact points on elliptical chambers are inside and the normal points inward", "statement": "ellip_cham_geom_object.impact_point_and_normal returns only points inside the ellipse or raises; the returned normal has unit length and points towards the inside.", "quantifier": "all ellipses and trajectories", "why_tests_cant": "quadratic root selection with special cases over a continuum", "anchors": ["geom_impact_ellip.py: impact_point_and_normal"]}
{"id": "C50", "title": "Decimated step-by-step output counts every electron exactly once", "statement": "Whatever the decimation factor and the time grid, the sum of the saved impact/emission/energy series plus the still-open group equals the sum of the per-step quantities since the start of the simulation; each saved record covers exactly the steps since the previous record.", "quantifier": "all sequences of steps, all decimation factors, all time grids", "why_tests_cant": "unbounded accumulate-and-flush history", "anchors": ["pyecloud_saver.py: _stepbystep_data_save"]}
{"id": "C51", "title": "All saved time series have the same length", "statement": "Every step-by-step series written to the output file has as many samples as the saved time array.", "quantifier": "all configurations and histories", "why_tests_cant": "an invariant over histories that holds for most but not all series", "anchors": ["pyecloud_saver.py: _stepbystep_get_dict"]}
{"id": "C52", "title": "Growing the output buffers loses no record", "statement": "Automatic resizing of the step-by-step buffers keeps all previously saved records and always leaves room for the next record, so no sequence of saves can run out of bounds or overwrite data.", "quantifier": "all initial sizes and unbounded sequences of saves", "why_tests_cant": "needs unboundedly many saves", "anchors": ["pyecloud_saver.py: _stepbystep_check_for_data_resize"]}
{"id": "C53", "title": "Per-passage histograms partition the impacts of the run", "statement": "The impact histograms written at each bunch passage contain exactly the impacts since the previous passage: summed over passages plus the open one they equal all impacts, and nothing is counted twice.", "quantifier": "all histories of steps and passages", "why_tests_cant": "unbounded accumulate/reset history", "anchors": ["pyecloud_saver.py: _pass_by_pass_data_save", "impact_management_class.py: reset_impact_hist_tot, reset_impact_hist_scrub, reset_En_hist_line"]}
{"id": "C54", "title": "Detailed position histograms reflect the current cloud", "statement": "The detailed histogram line written at each passage is the deposition of the current cloud, in particular zero when the cloud is empty.", "quantifier": "all histories", "why_tests_cant": "fails only when the cloud dies out between passages", "anchors": ["pyecloud_saver.py: _pass_by_pass_data_save (nel_hist_det)"]}
{"id": "C55", "title": "A checkpoint survives every crash", "statement": "Once the first checkpoint has been written, at every later crash point the checkpoint folder contains at least one complete checkpoint, and restarting finds exactly one and loads it.", "quantifier": "all numbers of checkpoints and all crash points between file operations", "why_tests_cant": "crash points between write and delete are not reachable in a unit test", "anchors": ["pyecloud_saver.py: _checkpoint_save", "buildup_simulation.py: __init__ (checkpoint loading), load_checkpoint"]}
{"id": "C56", "title": "Restarting from a checkpoint continues the saved output without gaps or repetitions", "statement": "After a restart the output restored from file consists of exactly the samples up to and including the checkpoint, for every saved series, so that the continued output equals that of an uninterrupted run.", "quantifier": "all histories and all checkpoint times", "why_tests_cant": "off-by-one and omitted series show only in restarts at particular times", "anchors": ["pyecloud_saver.py: load_from_output"]}
{"id": "C57", "title": "Input validation accepts exactly the documented parameters", "statement": "An input module is accepted if and only if it provides every mandatory parameter and nothing outside mandatory, optional and the allowed extra names; each configuration value is then the input value if given, else the fallback object's value if available, else the documented default; a parameter specified in two input files is rejected.", "quantifier": "all sets of parameters and input files", "why_tests_cant": "decision logic over all subsets of parameters", "anchors": ["input_parameters_format_specification.py: assert_module_has_parameters, update_module, update_config_dict, copy_to_config_dict"]}
{"id": "C58", "title": "Slices longer than the build-up time step are cut into steps that add up", "statement": "In PyEC4PyHT a slice is advanced by cloud steps of at most the build-up Dt that add up to the slice duration, each divided in at least one sub-step with matching sub-step length; slices that interact with the cloud and exceed Dt are rejected; the steps of all slices follow each other in time without gaps; slice by slice, a new passage is flagged exactly on the first cloud step of the first slice of each bunch of each turn, and for whole bunches on the slice tracked last.", "quantifier": "all slice lengths, time steps and sequences of slices", "why_tests_cant": "ceil/round arithmetic over a continuum and slice histories", "anchors": ["PyEC4PyHT.py: Ecloud._track_single_slice, Ecloud.track, Ecloud._track_in_single_slice_mode"]}
{"id": "C59", "title": "The accurate low-energy model emits on average exactly the measured yield", "statement": "With the accurate low-energy yield model the reflection probability used for the random choice and the two effective yields combine so that the charge emitted by a macroparticle, averaged over the random choice, is its charge times the total yield, and the average reflected charge is its charge times the reflected yield.", "quantifier": "all charges, impact energies, angles and yield parameters", "why_tests_cant": "an identity between probabilities over a continuum of parameters", "anchors": ["sec_emission_model_accurate_low_ene.py: SEY_process", "sec_emission_model_ECLOUD.py: yield_fun2"]}
{"id": "C60", "title": "The generalised strong-field tracker is the exact solution for the field at the particle", "statement": "One step of pusher_strong_B_generalized puts every macroparticle exactly where the equation of motion of an electron in the uniform electric and transverse magnetic field evaluated at its position takes it, both above the zero-field threshold and in the field-free branch when the field vanishes.", "quantifier": "all fields, initial conditions and time steps", "why_tests_cant": "a functional identity over a continuum of fields and time steps", "anchors": ["dynamics_strong_B_generalized.py: pusher_strong_B_generalized.step"]}
{"id": "C61", "title": "The two Boris implementations agree", "statement": "For a combined dipole and quadrupole field the Fortran/numpy Boris tracker and the C multipole Boris tracker move every macroparticle to the same place with the same velocity, for any number of sub-steps.", "quantifier": "all gradients, dipole components, electric fields, time steps, numbers of sub-steps and particles", "why_tests_cant": "equality of two implementations over unbounded iteration", "anchors": ["dynamics_Boris_f2py.py: pusher_Boris.step, B_quad", "dynamics_Boris_multipole.py: stepcustomDt", "boris_c_function.c"]}
{"id": "C62", "title": "The tracker of a cloud matches its species and settings", "statement": "A cloud is given the tracker named in the configuration; the strong-field trackers, which use the electron charge and mass, are refused for other species; electromagnetic tracking is refused with any tracker that ignores the magnetic self-field; and the number of sub-steps of a cloud is the one specified for that cloud.", "quantifier": "all configurations, species and cloud settings", "why_tests_cant": "decision logic over combinations of settings, the failing one needing several clouds", "anchors": ["init.py: read_input_files_and_init_components (tracker selection)", "dynamics_dipole.py", "dynamics_strong_B_generalized.py"]}
{"id": "C63", "title": "A run can be stopped at a time and resumed without changing the result", "statement": "run(t_end_sim) stops after the first time step whose time has reached t_end_sim, and a following run() gives exactly the beam state and simulation state that one uninterrupted run() gives, whatever the simulation does in a step.", "quantifier": "all increasing time grids, all stopping times, all step functions on all states", "why_tests_cant": "an off-by-one at the stop point depends on where t_end_sim falls in the grid", "anchors": ["buildup_simulation.py: BuildupSimulation.run", "beam_and_timing.py: beam_and_timing.next_time_step, end_simulation"]}
{"id": "C64", "title": "The time axis of a bunched beam covers all slots and all passages", "statement": "For a bunched beam the time axis starts at zero, has a constant step Dt, its last simulated step is not before N_bunches*b_spac + t_end, and every passage number seen in the run is non-negative and smaller than the number of passages the outputs are sized for.", "quantifier": "all positive steps and spacings, all bunch numbers and non-negative extra times", "why_tests_cant": "the rounding of the number of points depends on the ratio of step and spacing", "anchors": ["beam_and_timing.py: beam_and_timing.__init__"]}
{"id": "C65", "title": "The line density of a bunch train is a sum of truncated Gaussians", "statement": "The beam line density at a time is fact_beam times the sum over filled slots i of a Gaussian of that slot's intensity centred at t_offs + i*b_spac and cut at ten bunch lengths, plus the coasting density; it is never below the coasting density and equals it far from every slot.", "quantifier": "all filling patterns with non-negative intensities, all times, spacings, offsets and bunch lengths", "why_tests_cant": "all filling patterns and times", "anchors": ["beam_and_timing.py: bunch_train4, beam_and_timing.__init__"]}
{"id": "C66", "title": "Kick mode transfers the same momentum as continuous tracking", "statement": "Without magnetic field and cloud field, tracking with the beam field applied as one kick changes every particle's velocity exactly as applying the field during all the sub-steps does, namely by q/m * E * n*dt.", "quantifier": "all clouds, all fields, all numbers and lengths of sub-steps", "why_tests_cant": "equality over all sub-step counts and particles", "anchors": ["buildup_simulation.py: BuildupSimulation._cloud_motion, kick"]}
{"id": "C67", "title": "Stochastic rounding creates the requested charge on average", "statement": "Averaged over the uniform random number of the call, the number of macroparticles created by the uniform distributions, gas ionisation, photoemission and cross ionisation is exactly the requested (fractional) number.", "quantifier": "all real requests", "why_tests_cant": "an expectation over a continuum of random numbers", "anchors": ["MP_system.py: add_uniform_MP_distrib", "gas_ionization_class.py: residual_gas_ionization.generate", "gen_photoemission_class.py: get_number_new_mps"]}
{"id": "C68", "title": "Cross sections are interpolated from the table, and zero outside it", "statement": "A cross-section table uniform in the energy or in its logarithm (with a step of at most eight decimals) is accepted, any other one refused; the cross section used for a projectile is the linear interpolation between the two neighbouring entries in that scale, the entry itself at a node, zero below the first and above the last energy, and never negative for non-negative entries.", "quantifier": "all uniform tables of any length and all energies", "why_tests_cant": "index arithmetic at the ends of the table over a continuum of energies", "anchors": ["cross_ionization.py: Ionization_Process.__init__, get_sigma, _interp"]}
{"id": "C69", "title": "Uniform initial density fills exactly the part of the rectangle inside the chamber", "statement": "add_uniform_ele_density(n, ...) draws n*area/nel_mp_ref points (stochastically rounded) uniformly in the given rectangle, a missing limit being the chamber aperture on that side, and adds one macroparticle of size nel_mp_ref at exactly those points that are inside the chamber, with z = 0 and no impact history, leaving the existing ones unchanged.", "quantifier": "all densities, rectangles, chambers and random draws", "why_tests_cant": "random draws and all chambers", "anchors": ["MP_system.py: add_uniform_ele_density"]}
{"id": "C70", "title": "Chamber polygons are validated for orientation, edge length and convexity", "statement": "A polygonal chamber is accepted exactly when its signed area is not negative (vertices listed counter-clockwise), consecutive listed vertices are at least 1e-9 apart and, when convexity is assumed, the boundary does not turn both left and right; a chamber listed clockwise is refused, and an accepted convex chamber is convex.", "quantifier": "all vertex lists of any length", "why_tests_cant": "all polygons of any number of vertices", "anchors": ["geom_impact_poly_fast_impact.py: polyg_cham_geom_object.__init__, is_convex"]}
{"id": "C71", "title": "Chamber nesting queries are exact", "statement": "vertex_is_on_edge says whether a vertex lies on the segment between consecutive vertices, and vertexes_are_subset whether every vertex of one chamber is a vertex of or lies on an edge of the other; every chamber is a subset of itself.", "quantifier": "all chambers and vertices", "why_tests_cant": "all polygons", "anchors": ["geom_impact_poly_fast_impact.py: vertex_is_on_edge, vertexes_are_subset"]}
{"id": "C72", "title": "The general polygon test counts boundary crossings", "statement": "Without the convexity assumption a point outside the fast-accept ellipse is inside exactly when a horizontal ray from it crosses an odd number of edges; points beyond the bounding box are outside, and for strictly convex chambers the answer agrees with the convex test away from the boundary.", "quantifier": "all polygons of any length and all points", "why_tests_cant": "a parity over all edges of arbitrary polygons", "anchors": ["geom_impact_poly_cython.pyx: is_outside_nonconvex", "geom_impact_poly_fast_impact.py: polyg_cham_geom_object.is_outside"]}
{"id": "C73", "title": "Saved totals and densities count exactly the live macroparticles", "statement": "Every recorded sample of the electron number, kinetic energy, central density and probe densities is computed from the live macroparticles only, never from stale slots of the arrays, and is zero for an empty cloud.", "quantifier": "all clouds of any size, any stale content and any probe positions", "why_tests_cant": "stale slots are only filled after particular histories", "anchors": ["pyecloud_saver.py: _stepbystep_data_save"]}
{"id": "C74", "title": "Energy, angle and lifetime histograms partition the impacts in time", "statement": "Each record of the energy, angle and lifetime histograms contains exactly the impacts since the previous record of that histogram, a record being made at the first step that is at least the configured interval after the previous one; nothing is lost or counted twice.", "quantifier": "all histories of steps, all intervals", "why_tests_cant": "unbounded accumulate/reset history with independent timers", "anchors": ["pyecloud_saver.py: _energy_cos_and_lifetime_angle_hist_save"]}
{"id": "C75", "title": "Checkpoints are taken at the configured interval and numbered consecutively", "statement": "A checkpoint is written at the first bunch passage at least checkpoint_DT after the previous one (after time zero for the first) and at no other passage, and the numbers of the checkpoints are consecutive, also across restarts.", "quantifier": "all sequences of passages and all intervals", "why_tests_cant": "unbounded history with a moving reference time", "anchors": ["pyecloud_saver.py: _checkpoint_save", "buildup_simulation.py: load_checkpoint"]}
{"id": "C76", "title": "A restarted run continues exactly like the run that was interrupted", "statement": "The simulation state loaded from a checkpoint is the state from which the interrupted run went on, so that the same steps lead to the same clouds.", "quantifier": "all states, all checkpoint times and all later steps", "why_tests_cant": "the difference shows only when cleaning or regeneration act at the checkpoint's passage", "anchors": ["buildup_simulation.py: sim_time_step, _save_output_data, _MP_cleaning_and_regenerations, load_checkpoint", "pyecloud_saver.py: _checkpoint_save"]}
{"id": "C77", "title": "Requested snapshots are taken once each, in order, at the first possible step", "statement": "Macroparticle snapshot number k is written exactly once, at the first step after the previous snapshot at which its requested time is reached and the cloud is not empty, and contains exactly the live macroparticles; simulation states likewise, also with an empty cloud.", "quantifier": "all lists of requested times and all histories of steps", "why_tests_cant": "needs all interleavings of requests and steps", "anchors": ["pyecloud_saver.py: _MP_state_save, _sim_state_save"]}
{"id": "C78", "title": "Movies contain every recomputed field once, in order", "statement": "The charge density and field movies contain, over their files and the part not yet written, the frame and time of every step at which the space charge was recomputed, in order and without repetition; one file is written at each passage, named after the passage just completed.", "quantifier": "all histories of steps, recomputations and passages", "why_tests_cant": "unbounded accumulate/flush history", "anchors": ["pyecloud_saver.py: _rho_video_save, _sc_video_save"]}
{"id": "C79", "title": "Additional clouds take their parameters from their file, else from the main input", "statement": "Every parameter of an additional cloud has the value given in the cloud's file, or else the value of the main input (never the placeholder default); the default cloud takes all its parameters from the main input; clouds from different files write to different output files, none of which is the main output.", "quantifier": "all cloud files, main inputs and file names", "why_tests_cant": "decision logic over all parameter sets and names", "anchors": ["parse_cloud_file.py: cloud_descr_from_file", "input_parameters_format_specification.py: update_config_dict, copy_to_config_dict", "default_input_parameters.py: parameters_dict"]}
{"id": "C80", "title": "A recorded field map reproduces the kicks it was recorded with", "statement": "A bunch tracked through a cloud and then through the field map recorded on that occasion gets in every slice exactly the same kicks both times.", "quantifier": "all bunches, slicings, clouds and beam parameters", "why_tests_cant": "slice indexing from the end, over arbitrary numbers of slices, must match between two classes", "anchors": ["PyEC4PyHT.py: Ecloud.track, Ecloud.replace_with_recorded_field_map", "Transverse_Efield_map_for_frozen_cloud.py: Transverse_Efield_map.track"]}
{"id": "C81", "title": "Every bunch meets the initial cloud", "statement": "In the whole-bunch mode the cloud is restored before every bunch, so that what a bunch gets from the cloud does not depend on the bunches tracked before.", "quantifier": "all histories of bunches and all cloud simulations", "why_tests_cant": "independence of unbounded histories", "anchors": ["PyEC4PyHT.py: Ecloud.track, Ecloud._reinitialize", "buildup_simulation.py: BuildupSimulation.sim_time_step"]}
{"id": "C82", "title": "Cleanings and regenerations can be suspended", "statement": "A simulation step called with cleaning and regeneration suspended (as for slices that interact with the cloud) leaves the macroparticles as they are at its end.", "quantifier": "all clouds, passages and regeneration settings", "why_tests_cant": "decision logic over all states", "anchors": ["buildup_simulation.py: BuildupSimulation._MP_cleaning_and_regenerations", "PyEC4PyHT.py: Ecloud._track_single_slice"]}
{"id": "C83", "title": "The complex error function routine is defined and symmetric for every argument", "statement": "For every complex argument the compiled error function routine returns a value without leaving or reading uninitialised parts of its work arrays, satisfies w(-conj z) = conj w(z) and w(-z) = 2 exp(-z^2) - w(z), and has real part exp(-x^2) on the real axis.", "quantifier": "all complex arguments", "why_tests_cant": "the argument selects different branches and loop lengths; an uninitialised read only shows for some of them", "anchors": ["errfff.f: errf", "BassErsk.py"]}
{"id": "C84", "title": "The analytic field of a Gaussian beam has the symmetries of the beam and points outward", "statement": "The closed-form beam field is mirror symmetric in both planes, exchanges its components when the planes are exchanged, scales inversely with the size of the picture, and is defined everywhere and points away from the beam for every pair of beam sizes.", "quantifier": "all positions and all beam sizes, round beams included", "why_tests_cant": "continuous domain with a removable singularity at round beams", "anchors": ["BassErsk.py: BassErsk"]}
{"id": "C85", "title": "Fields of all beams add up at every macroparticle", "statement": "The field used to move a macroparticle is the cloud field at its position plus, for each beam, the recorded beam map at that position times the present line charge of this beam; the order of the secondary beams is irrelevant and a beam with zero charge contributes nothing.", "quantifier": "all numbers of beams and macroparticles, all maps and line densities", "why_tests_cant": "any number of beams; scalar zero and array fields are mixed by broadcasting", "anchors": ["beam_and_timing.py: beam_and_timing.get_beam_eletric_field", "buildup_simulation.py: BuildupSimulation._cloud_motion"]}
{"id": "C86", "title": "Secondary beams run in step with the primary beam and use their own profile", "statement": "When construction accepted the secondary beams, after any number of steps every beam stands at the same time as the primary and none of them runs past its time axis before the primary does; and a secondary beam read from a profile file uses the file it names.", "quantifier": "all sets of beams, all numbers of steps, all file systems", "why_tests_cant": "history property; file lookup depends on the file system", "anchors": ["buildup_simulation.py: BuildupSimulation.sim_time_step", "init.py: read_input_files_and_init_components"]}
{"id": "C87", "title": "Electromagnetic space charge: potentials of all clouds and their time derivative", "statement": "With electromagnetic tracking, after any number of steps and for any number of clouds, the fields are those of the scalar and vector potentials of the charges and currents of all clouds at the last recomputation, with the time derivative of the vector potential taken over the time since the recomputation before it and zero at the first one; a restart does not change them.", "quantifier": "all numbers of clouds, all step sequences, all solvers", "why_tests_cant": "history property over recomputations and clouds", "anchors": ["space_charge_class_electromagnetic.py: space_charge_electromagnetic.recompute_spchg_emfield", "space_charge_class_electromagnetic.py: space_charge_electromagnetic.get_sc_em_field", "buildup_simulation.py: BuildupSimulation.load_state"]}
{"id": "C88", "title": "Beam sizes follow from emittance and optics", "statement": "A transverse beam size given in the input is used; otherwise it is sqrt(beta epsilon_n / (beta_rel gamma_rel) + (D delta)^2), with optics of the beam file taking precedence over those of the machine file, and the input is refused exactly when one of the needed values is missing in both.", "quantifier": "all energies, emittances and optics", "why_tests_cant": "real-valued formula and decision logic over all inputs", "anchors": ["parse_beam_file.py: parse_beam_file", "init.py: read_input_files_and_init_components"]}
{"id": "C89", "title": "A simulation keeps every cloud in good order", "statement": "Whatever beam, fields and random numbers are supplied, between any two operations of any time step (motion with impacts, gas ionisation, photoemission, cross ionisation, cleaning, full, soft and asynchronous regeneration) every live macroparticle of every cloud is inside the chamber and has a non-negative size, the live macroparticles fit in the arrays, the splitting and cleaning thresholds are locked to the reference size, which is positive and never below its initial value, and no cloud is added, dropped, renamed or resized.", "quantifier": "all lists of time steps, all prefixes of the operations they execute, all motions and emission models, all clouds", "why_tests_cant": "an invariant over unbounded histories of interleaved operations on several clouds", "anchors": ["buildup_simulation.py: sim_time_step, _primary_generation, _MP_cleaning_and_regenerations"]}
{"id": "C90", "title": "Charge balance of a whole simulation", "statement": "As long as no regeneration is due, the charge of each cloud at the end of a simulation equals its initial charge plus emitted minus impacting charge, plus the rounded primaries, plus the charge reported by cross ionisation, minus what cleaning removed; and with regenerations the impact histograms and the energy spectrum still accumulate exactly the reported impacting charge, the deposited energy histogram the impacting minus emitted energy.", "quantifier": "all lists of time steps, all clouds", "why_tests_cant": "conservation law over unbounded histories", "anchors": ["buildup_simulation.py: sim_time_step", "impact_management_class.py: backtrack_and_second_emiss", "MP_system.py"]}
{"id": "C91", "title": "Furman-Pivi yields have the limits, peaks and angular dependence of the paper", "statement": "For every impact energy and angle the elastic yield lies between its high-energy limit and its peak, which it takes at the peak energy; the rediffused yield is 0 at energy 0, grows with energy and stays below its limit; the true secondary yield takes its maximum at the peak energy for that angle; all of them grow from normal to grazing incidence as the input asks, and the clipping keeps them in the allowed range.", "quantifier": "all energies, angles and valid parameter sets", "why_tests_cant": "real-valued inequalities over all energies and angles", "anchors": ["sec_emission_model_furman_pivi.py: SEY_model_furman_pivi._delta_e, _delta_r, _delta_ts, _yield_fun_furman_pivi"]}
{"id": "C92", "title": "Furman-Pivi: the mean number of emitted electrons is the total yield", "statement": "Averaged over the emission events drawn, an impacting electron emits as many electrons as the sum of the elastic, rediffused and true secondary yields.", "quantifier": "all energies, angles and yields", "why_tests_cant": "an expectation over an infinite distribution", "anchors": ["sec_emission_model_furman_pivi.py: SEY_model_furman_pivi.impacts_on_surface"]}
{"id": "C93", "title": "Furman-Pivi emission energies follow the laws of the paper and stay below the impact energy", "statement": "The energies of backscattered, rediffused and true secondary electrons, computed from uniform numbers, lie between 0 and the impact energy, and an energy not larger than E comes out exactly when the uniform number is not larger than the distribution function of the paper at E.", "quantifier": "all impact energies, all uniform draws, all parameter sets", "why_tests_cant": "a statement about a distribution for all draws", "anchors": ["sec_emission_model_furman_pivi.py: get_energy_backscattered, get_energy_rediffused, get_energy_true_sec"]}
{"id": "C94", "title": "Furman-Pivi energy conservation", "statement": "With energy conservation switched on, the electrons emitted in one true secondary event never carry more energy together than the impacting electron had.", "quantifier": "all events, all multiplicities, all rounds of redraws", "why_tests_cant": "depends on the redraws in all rounds and on the multiplicity", "anchors": ["sec_emission_model_furman_pivi.py: SEY_model_furman_pivi.impacts_on_surface"]}
{"id": "C95", "title": "A frozen field map tracked slice by slice repeats the recorded kicks turn after turn", "statement": "In the slice-by-slice mode, a beam tracked once with the cloud and then any number of turns with the recorded field map gets on every turn, slice by slice, the kicks of the recording; parts of the beam that are not sliced, or do not interact with the cloud, are left alone; asking for more slices than were recorded raises an error.", "quantifier": "all beams, all numbers of slices and turns, all clouds", "why_tests_cant": "history property over calls on a stateful object", "anchors": ["Transverse_Efield_map_for_frozen_cloud.py: Transverse_Efield_map._track_in_single_slice_mode, _finalize_and_reinitialize", "PyEC4PyHT.py: Ecloud.track_once_and_replace_with_recorded_field_map"]}
{"id": "C96", "title": "The main output file is complete at the end of the run", "statement": "A run with an accepted value of save_mat_every ends with a main output file that holds the data of all simulated time steps. In general the file holds the data up to the last start of a passage whose number plus one is a multiple of save_mat_every. Values that do not divide the number of passages are refused.", "quantifier": "all filling patterns, bunch spacings, time steps, extra times and values of save_mat_every", "why_tests_cant": "depends on the rounding of the time axis, of the number of passages and of the passage of every step", "anchors": ["pyecloud_saver.py: pyecloud_saver.witness", "init.py: read_input_files_and_init_components", "beam_and_timing.py: beam_and_timing"]}
{"id": "C97", "title": "Stopping a run by the stop file keeps the output of the steps made", "statement": "A run goes on until the stop file is present at the start of a passage, and then ends in that step; the output of every cloud then covers all steps made, this one included, and if files are written at every passage they are complete.", "quantifier": "all runs, all numbers of clouds, all times at which the stop file appears", "why_tests_cant": "the file may appear at any time, and with several clouds between two of them", "anchors": ["pyecloud_saver.py: pyecloud_saver.witness, _logfile_progressfile_stofile", "buildup_simulation.py: BuildupSimulation._save_output_data"]}
{"id": "C98", "title": "The extracted yield curves and energy spectra are those of the surface model", "statement": "With extract_sey, the saved yield curves at every test energy and angle have elastic and true secondary parts that are not negative and add up to the yield of the surface at this energy and angle, and the elastic part is the fraction of random numbers below the elastic fraction times the yield. The test impacts have the stated kinetic energy and angle. The saved energy distributions count every emitted macroparticle exactly once, at its kinetic energy, under its event type. For chambers with a yield per segment the curves are those of the second segment.", "quantifier": "all surface parameters, test energies and angles, numbers of repetitions, and random numbers", "why_tests_cant": "the saved curves are random; their relation to the yield must hold for every draw and grid", "anchors": ["impact_management_class.py: impact_management.extract_sey_curves, extract_energy_distributions", "sec_emission_model_ECLOUD.py: SEY_model_ECLOUD.impacts_on_surface", "pyecloud_saver.py: pyecloud_saver.start_observing"]}
{"id": "C99", "title": "Extracting the yield curves does not change the simulation", "statement": "Extracting the yield curves and energy distributions at start-up leaves the surface of the chamber as it was, so that the simulation has the same yields with and without extraction.", "quantifier": "all chambers, charging parameters, test energies and angles, repetitions and random numbers", "why_tests_cant": "the state of the surface depends on all test impacts and on the segment they hit", "anchors": ["impact_management_class.py: impact_management.extract_sey_curves", "sec_emission_model_ECLOUD_nunif_charging.py: SEY_model_ECLOUD_non_unif_charging.SEY_process", "pyecloud_saver.py: pyecloud_saver.start_observing"]}
{"id": "C100", "title": "Photoelectrons are emitted where the photon distribution says", "statement": "With photoemission per segment, the number of photoelectrons of every segment is the number of random numbers between its two entries of phem_cdf, so that its share is the difference of the entries; every photoelectron starts on its segment, moved inwards by 1e-14, with its velocity drawn around the inward normal. With photon trajectories in a convex chamber, every photoelectron is on the straight line of its photon at the fraction resc_fac of the way to the first point of the wall: the direct ones around the x axis, the reflected ones uniformly or at the angle of the inverse distribution seen from x0_refl. The generation succeeds as long as there is room. An accepted distribution can always be used.", "quantifier": "all chambers, distributions, tables, radii, random numbers and macroparticle states", "why_tests_cant": "the positions are random; the relation to the distribution must hold for every draw and chamber", "anchors": ["geom_impact_poly_fast_impact.py: polyg_cham_photoemission", "gen_photoemission_class.py: photoemission.generate, photoemission_from_file.generate, photoemission_per_segment.generate"]}
{"id": "C101", "title": "The surface follows the secondary emission settings", "statement": "switch_model selects the surface of the table in the manual (0 or 'ECLOUD', 1 or 'ACC_LOW', 'perfect_absorber', 'ECLOUD_nunif' and 'ECLOUD_nunif_charging' for polygonal chambers, 'cos_low_ene', 'flat_low_ene', 'from_file', 'furman_pivi'); E0 and s_param replace the defaults 150 eV (30 eV for cos_low_ene) and 1.35 where the surface has them; anything else is refused with a message. If flag_costheta_delta_scale and flag_costheta_Emax_shift are off, the yield does not depend on the angle.", "quantifier": "all settings and chambers, all energies and angles", "why_tests_cant": "the table has all combinations of names, optional parameters and flags", "anchors": ["init.py: read_input_files_and_init_components", "sec_emission_model_ECLOUD.py: SEY_model_ECLOUD.__init__", "sec_emission_model_accurate_low_ene.py: SEY_model_acc_low_ene.__init__", "sec_emission_model_cos_low_ener.py", "sec_emission_model_flat_low_ener.py", "sec_emission_model_from_file.py"]}
{"id": "C102", "title": "Source flags and lifetime settings are obeyed or refused", "statement": "gas_ion_flag=1 calls the gas ionisation in every time step before t_ion; photoem_flag 1, 2 or 'from_file', 3 or 'per_segment' calls that generation in every step; other values are refused at start-up. flag_lifetime_hist with its settings in the file of a cloud switches the lifetime histogram of that cloud.", "quantifier": "all flag values, times and settings of the main files and of the files of additional clouds", "why_tests_cant": "the flags are read in several places, at start-up and in every step", "anchors": ["init.py: read_input_files_and_init_components", "buildup_simulation.py: BuildupSimulation.sim_time_step", "impact_management_class.py: impact_management.__init__, backtrack_and_second_emiss", "pyecloud_saver.py: _lifetime_hist_save"]}
{"id": "C103", "title": "The initial population of a cloud is what the settings ask for", "statement": "After the construction a cloud holds the requested uniform electrons (the number up to one macroparticle), then the electrons of the density that fall into the chamber, then the macroparticles of the file with their positions, velocities and sizes, and nothing else; all are inside the chamber.", "quantifier": "all settings, chambers, files and random numbers, as long as the arrays are not full", "why_tests_cant": "three sources write one after the other into the same arrays", "anchors": ["init.py: read_input_files_and_init_components", "MP_system.py: add_uniform_MP_distrib, add_uniform_ele_density, add_from_file"]}
{"id": "C104", "title": "Initial electrons have the given initial energy", "statement": "The parameters E_init (uniform distribution, density, gas ionisation) are the initial energy in eV of the generated electrons.", "quantifier": "all energies, charges, masses and random numbers", "why_tests_cant": "the velocities are random; the claim is about every draw or the average over draws", "anchors": ["MP_system.py: add_uniform_MP_distrib, add_uniform_ele_density", "gas_ionization_class.py: residual_gas_ionization.generate", "init.py: read_input_files_and_init_components"]}
{"id": "C105", "title": "The Bassetti-Erskine map makes the wall of the elliptical chamber an equipotential", "statement": "With beam_field_file='computeBE' the image terms are, at every node of the map, the field of a potential without charges inside the chamber, and together with the potential of the beam charge on the axis it is constant on the wall of the elliptical chamber, up to an error that decreases geometrically with nimag; the image field has the mirror symmetries of the chamber. This holds for every accepted elliptical chamber and every node.", "quantifier": "all half axes, positions, numbers of image terms and branches of the complex acosh", "why_tests_cant": "a statement about a harmonic function on a curve and about a limit", "anchors": ["BassErsk.py: ImageTerms", "beam_and_timing.py: beam_and_timing.__init__ (computeBE)"]}
{"id": "C106", "title": "The charge density of the beam has the charge of the beam", "statement": "For the finite difference and multigrid maps, the charge given to the solver at a node is the charge of the two-dimensional Gaussian of the beam within the cell around the node; it is positive, and the sum over any rectangular grid is the charge within the cells of the grid and at most that of the beam.", "quantifier": "all beam sizes and positions, cell sizes and grids", "why_tests_cant": "an integral identity for all parameters", "anchors": ["beam_and_timing.py: beam_and_timing.__init__ (computeFD, compute_FDSW_multigrid)"]}
{"id": "C107", "title": "The beam field map that is used is the one asked for, saved and loaded", "statement": "A beam field is built exactly if the beam is inside the chamber and the settings of the chosen method are complete; the map written with save_beam_field_file_as is the map that is used, and a run that loads it uses the same one. At a node of a map the beam field is the value in the map.", "quantifier": "all settings, chambers, files and nodes", "why_tests_cant": "all combinations of optional settings; all maps and nodes", "anchors": ["beam_and_timing.py: beam_and_timing.__init__, get_beam_eletric_field"]}
{"id": "C108", "title": "The recorded electrostatic energy is that of the space charge field", "statement": "With Dh_electric_energy the electric energy is the sum of the energy density over cells that cover the rectangle of the apertures: not negative, quadratic in the field and exact for a constant field up to the area of the grid. The record U_sc_eV of the main output has the electrostatic energy at every field solution.", "quantifier": "all fields, apertures, spacings and histories of field solutions", "why_tests_cant": "quantifies over all fields and histories", "anchors": ["space_charge_class.py: get_potential_electric_energy, __init__", "pyecloud_saver.py: witness"]}
{"id": "C109", "title": "Each time step applies every process to every cloud exactly once and in order", "statement": "sim_time_step moves each cloud and treats its impacts once, then creates its gas ionisation electrons (once per beam, only while ionisation is on and t_ion not reached) and its photoelectrons (once, for the line density of all beams together); cross ionisation is called once after all clouds have been moved; then each cloud is cleaned and regenerated once. Nothing else happens to a cloud.", "quantifier": "all numbers of clouds and beams, all settings of the sources, all inputs of the step", "why_tests_cant": "a statement about the whole schedule for any number of clouds and beams", "anchors": ["buildup_simulation.py: sim_time_step", "buildup_simulation.py: BuildupSimulation"]}
{"id": "C110", "title": "Photoelectron energies follow the configured distribution and are never negative", "statement": "The energy of each photoelectron is a sample of the configured distribution: Gaussian energies are mean + sigma*g for a standard normal draw g and never negative, rectangular ones lie within sigma/2 of the mean and are symmetric about it, monoenergetic ones equal the mean, lognormal ones are exponentials of normal numbers, Lorentz ones follow the Lorentz distribution restricted to energies that are not negative; one energy per electron, never negative; other names are refused.", "quantifier": "all parameters, numbers of electrons and random draws", "why_tests_cant": "rejection loop over random draws", "anchors": ["electron_emission.py: _lognormal, _gaussian, _rect, _mono, _lorentz, get_energy_distribution_func"]}
{"id": "C111", "title": "A parallel build-up neither hangs nor depends on the order in which the processes run", "statement": "With space_charge.comm set, each process runs its own build-up and the processes exchange densities when the field is recomputed. If their settings ask for recomputation at the same steps, then for every interleaving all processes complete all time steps in a bounded number of events, and the state of each is the one obtained when all processes do every step together; with one process it is the state of the run without communicator.", "quantifier": "all numbers of processes, grids, numbers of steps, settings, cloud contents and all interleavings of the processes", "why_tests_cant": "deadlock freedom and schedule independence range over all interleavings", "anchors": ["space_charge_class.py: recompute_spchg_efield", "space_charge_class.py: check_for_recomputation", "buildup_simulation.py: _recompute_cloud_spacecharge", "testing/parallel_buildup/simulation_check.py"]}
{"id": "C112", "title": "In a parallel build-up all processes feel the field of the mean density", "statement": "At every recomputation the density used by every process is, node by node, the mean over the processes of the total density of their clouds, and all processes have the same field at all times if they start with the same one; for a linear solver it is the mean of the fields of the processes.", "quantifier": "all numbers of processes, clouds, grids, densities and steps", "why_tests_cant": "statement about all processes and steps", "anchors": ["space_charge_class.py: recompute_spchg_efield", "space_charge_class_electromagnetic.py: recompute_spchg_emfield"]}
{"id": "C113", "title": "In a parallel build-up the density stored for a cloud is that of its own particles", "statement": "After a recomputation cloud.rho of every cloud of a process is the density of its macroparticles and the stored densities add up to the density of the solver.", "quantifier": "all numbers of clouds, densities and averages returned by the collective calls", "why_tests_cant": "statement for every number of clouds and every contribution of the other processes", "anchors": ["buildup_simulation.py: _recompute_cloud_spacecharge", "space_charge_class.py: recompute_spchg_efield"]}
{"id": "C114", "title": "The settings of a cloud file take effect for that cloud", "statement": "Every setting allowed in an additional cloud file (or, if not given there, the main setting) is what the components built for that cloud receive in the parameter it governs.", "quantifier": "all values of the main and cloud settings, all components of a cloud", "why_tests_cant": "data flow over about 180 arguments for all values", "anchors": ["init.py: read_input_files_and_init_components", "default_input_parameters.py: additional_cloud_parameters", "parse_cloud_file.py: cloud_descr_from_file"]}
{"id": "C115", "title": "Beams and space charge are built from their own settings", "statement": "The main beam is built from the main beam file and each secondary beam from its own, parameter by parameter, with common time step, end time and threshold; electrostatic and electromagnetic space charge are built from the same space-charge settings.", "quantifier": "all values of the settings", "why_tests_cant": "data flow over all arguments for all values", "anchors": ["init.py: read_input_files_and_init_components", "beam_and_timing.py: beam_and_timing.__init__", "space_charge_class.py: space_charge.__init__", "space_charge_class_electromagnetic.py: space_charge_electromagnetic.__init__"]}
{"id": "C116", "title": "A cross ionisation that can be constructed refers only to existing clouds and starts with the full target", "statement": "Constructing the cross ionisation from its description either fails or yields: every projectile and every product is the name of a cloud, so that no later generation step fails to find one; every process has its target number equal to target density times chamber area, its products and its initial energy as described, generate_equally off unless asked for; all counters are zero; one file of extracted cross sections is saved for every process whose extraction is not switched off, and the extraction has used up no target. A projectile or product that is not a cloud is refused.", "quantifier": "all descriptions, cloud sets, areas, test energies and random draws", "why_tests_cant": "all descriptions and all random draws of the extraction that is run during construction", "anchors": ["cross_ionization.py: Cross_Ionization.__init__", "cross_ionization.py: Ionization_Process.__init__", "cross_ionization.py: Cross_Ionization._extract_sigma"]}
{"id": "C117", "title": "The extracted cross section agrees with the tabulated one up to one macroparticle", "statement": "For every test energy the saved sigma_cm2_interp is the cross section of the process at that energy in cm2, and the saved sigma_cm2_sampled of every product (without generate_equally) differs from it by at most the cross section for which one projectile macroparticle would produce exactly one macroparticle of the product in a time step. The process is unchanged by the extraction.", "quantifier": "all processes, energies, cloud reference sizes, numbers of repetitions and random draws", "why_tests_cant": "an accuracy bound for every energy, every macroparticle size and every random draw", "anchors": ["cross_ionization.py: Cross_Ionization._extract_sigma", "cross_ionization.py: Ionization_Process.generate", "cross_ionization.py: Ionization_Process.get_sigma"]}
{"id": "C118", "title": "Output files of different interactions, checkpoints and restarts are kept apart and found again", "statement": "Different interactions of an e-cloud in PyHEADTAIL write to different files, named after the configured output; the number read from a checkpoint file name is the number it was saved with; a resumed run reads the very file the saver writes to; a restarted run writes to the output name extended as asked; the extraction of a cross section never overwrites the cross-section file.", "quantifier": "all file names and all numbers", "why_tests_cant": "file names are arbitrary strings: folders and stems may contain the separators the code splits at", "anchors": ["PyEC4PyHT.py: Ecloud._reinitialize", "buildup_simulation.py: load_state, load_checkpoint", "pyecloud_saver.py: start_observing, _checkpoint_save, load_from_output", "cross_ionization.py: Ionization_Process.__init__"]}
{"id": "C119", "title": "Movie files are put into the output folder and do not stop the simulation", "statement": "With movies switched on, at every time step the directory of the movie is found or made without an error, it lies in the output folder, and the files of every passage are put into it.", "quantifier": "all output folders, cloud names, numbers of time steps and initial directories", "why_tests_cant": "all folder names and any number of time steps", "anchors": ["pyecloud_saver.py: _rho_video_save, _sc_video_save"]}
{"id": "C120", "title": "The saver keeps its settings when an e-cloud is re-initialised", "statement": "After the re-initialisation at the start of an interaction in PyHEADTAIL the saver observes with the settings it was constructed with.", "quantifier": "all settings of the main input and of the cloud", "why_tests_cant": "all settings; two argument lists of forty entries have to agree", "anchors": ["PyEC4PyHT.py: Ecloud._reinitialize", "pyecloud_saver.py: start_observing", "init.py: read_input_files_and_init_components"]}
{"id": "C121", "title": "E-clouds that share the space charge do not influence one another", "statement": "A twin e-cloud with shared space charge is constructed with the arguments of the original, and bunches receive from it the kicks they would receive from an e-cloud of its own space charge, whatever the other e-clouds have tracked before.", "quantifier": "all sequences of interactions of bunches with any number of e-clouds sharing one space charge", "why_tests_cant": "all interleavings of the interactions of several objects with shared state", "anchors": ["PyEC4PyHT.py: generate_twin_ecloud_with_shared_space_charge", "PyEC4PyHT.py: Ecloud.track, _track_single_slice"]}
{"id": "C122", "title": "The main output file shows every recorded quantity under its name", "statement": "Every quantity recorded by the saver is found in the main output file under its own name with the recorded value, every observable defined by the user under the name the user gave it, and nothing else is in the file; no user-defined observable replaces a recorded quantity.", "quantifier": "all recorded values, all combinations of the optional recordings, all surface event types and all sets of user-defined observables", "why_tests_cant": "the names come from the user and from the surface model; tests look at a few names for a few settings", "anchors": ["pyecloud_saver.py: build_outp_dict, _stepbystep_get_dict"]}
{"id": "C123", "title": "save_only keeps exactly the requested quantities", "statement": "With save_only the main output file contains exactly the requested names, each with the value it has in the unrestricted file; a name that is not in the unrestricted file makes the saving fail with a KeyError.", "quantifier": "all lists of requested names (with repetitions, in any order) and all contents of the file", "why_tests_cant": "requested names are arbitrary and depend on which optional quantities are recorded", "anchors": ["pyecloud_saver.py: build_outp_dict"]}
{"id": "C124", "title": "Data files are looked for in the input folder, there with .mat, and as given", "statement": "Chamber, surface, photoemission, cross section and beam profile files are taken from the input folder if they are there under the given name, else from there with .mat appended, else as given; a surface file may also be in the package's folder of surface files.", "quantifier": "all folders, all file names and all sets of existing files", "why_tests_cant": "which files exist is up to the user; tests run in one prepared folder", "anchors": ["init.py: read_input_files_and_init_components", "sec_emission_model_from_file.py: SEY_model_from_file.__init__", "cross_ionization.py: Ionization_Process.__init__"]}
{"id": "C125", "title": "Parameter files named by keyword argument are the ones that are read", "statement": "A setting given by keyword argument is in effect; if it names a parameter file, that file is read.", "quantifier": "all input files, all keyword arguments and all contents of the named files", "why_tests_cant": "the order of reading files and applying keyword arguments matters only for combinations that tests do not contain", "anchors": ["init.py: read_parameter_files, read_input_files_and_init_components"]}
{"id": "C126", "title": "The chamber provides what the surface models need, or the simulation is refused", "statement": "A simulation can be set up exactly when its chamber type is known, a polygonal chamber file describes a polygon, and, if the surface of any cloud has settings per segment, the chamber is a polygon from a file with these settings (including the charging settings if needed); a surface with settings per segment never falls back to uniform settings.", "quantifier": "all chamber types, all contents of the chamber file, all lists of surface models of the clouds", "why_tests_cant": "combinations of chamber, file contents and surfaces of several clouds are too many to test", "anchors": ["init.py: read_input_files_and_init_components", "geom_impact_poly_fast_impact.py: polyg_cham_geom_object.__init__", "geom_impact_rect_fast_impact.py: rect_cham_geom_object", "sec_emission_model_ECLOUD_nunif.py: __init__"]}
{"id": "C127", "title": "The space charge object is the one the settings ask for, or the simulation is refused", "statement": "The field solver, grid step, sparse solver, decimation step and energy grid are those of the settings; a solver that does not fit the chamber, an unknown solver, and electromagnetic space charge without beam or with a tracker that ignores magnetic fields are refused; an accepted electromagnetic space charge can be used.", "quantifier": "all settings, chamber types and trackers", "why_tests_cant": "combinations of settings", "anchors": ["space_charge_class.py: space_charge.__init__, get_potential_electric_energy", "space_charge_class_electromagnetic.py: __init__, get_sc_em_field", "init.py: read_input_files_and_init_components"]}
{"id": "C128", "title": "Recordings of an interaction hold one value per cloud step, in the order of the slices, and are passive", "statement": "After a bunch has been tracked, every quantity whose recording is switched on holds the values at the cloud steps of that bunch, one per step (one per slice where the slices interact), in the order of the slices in the bunch, whatever was recorded before; quantities that are not recorded are left alone; recording changes neither the kicks nor the cloud and never makes a tracking fail.", "quantifier": "all flags, all earlier states and records, all bunches and slicings, all cloud simulations", "why_tests_cant": "combinations of flags, histories and slicings", "anchors": ["PyEC4PyHT.py: track, _track_single_slice, _reinitialize, _finalize"]}
{"id": "C129", "title": "The recorded beam quantities belong to the slice they are filed under", "statement": "The recorded charge distribution, potential and field of the beam are, entry by entry, those of the particles of the slice in the frame of the cloud.", "quantifier": "all bunches, slicings and flags", "why_tests_cant": "empty slices occur only for particular bunches", "anchors": ["PyEC4PyHT.py: _track_single_slice"]}
{"id": "C130", "title": "Recordings in the slice-by-slice mode", "statement": "In the slice-by-slice mode, once the e-cloud has been re-initialised with the recordings switched on, recording changes nothing of the tracking, and the records of a train can be read when it is finished; recordings requested at construction work.", "quantifier": "all sequences of slices and flags", "why_tests_cant": "sequences of calls", "anchors": ["PyEC4PyHT.py: _track_in_single_slice_mode, _finalize_and_reinitialize, _reinitialize, _finalize, __init__"]}
{"id": "C131", "title": "track_once_and_replace_with_recorded_field_map freezes the field of the given bunch", "statement": "The call tracks the given bunch and replaces the e-cloud by a map of the field it had in the slices of that bunch.", "quantifier": "all e-cloud states and bunches", "why_tests_cant": "the outcome depends on the history of the object", "anchors": ["PyEC4PyHT.py: track_once_and_replace_with_recorded_field_map, track, replace_with_recorded_field_map"]}
{"id": "C132", "title": "E-clouds for PyHEADTAIL are constructed with the settings given, or refused", "statement": "An e-cloud is constructed exactly for the trackers Boris and BorisMultipole, a single cloud, and no slicer in the slice-by-slice mode; it has the offsets, kick switches and probes given, zero offsets and both kicks by default, and records only the field at given probes.", "quantifier": "all settings", "why_tests_cant": "combinations of settings", "anchors": ["PyEC4PyHT.py: Ecloud.__init__"]}
{"id": "C133", "title": "The cloud sees the particles of the slice: line density, position, ionisation", "statement": "The line density handed to the cloud simulation integrates to the number of particles of the slice, its position is their centre in the frame of the cloud; slices that are empty or do not interact have no density and no field; the electrons produced on the residual gas by a slice are those its particles produce per unit length.", "quantifier": "all slices, offsets, gas parameters and beam velocities", "why_tests_cant": "the error shows only for beams slower than light", "anchors": ["PyEC4PyHT.py: _track_single_slice, DummyBeamTim", "gas_ionization_class.py: generate"]}
{"id": "C134", "title": "The bunches of the beam are those of the filling pattern, however it is given", "statement": "For a filling pattern given as a list of intensities or in a .mat file, the line density is that of Gaussian bunches in the slots, each with its intensity and with the configured bunch length or that of its slot in the file; patterns that cannot be used are refused.", "quantifier": "all filling patterns, contents of files, bunch lengths and times", "why_tests_cant": "all patterns and storage types; the outcome depends on how the numbers were stored", "anchors": ["beam_and_timing.py: beam_and_timing.__init__, bunch_train4"]}
{"id": "C135", "title": "The magnetic field is that of the map, scaled, plus the uniform field", "statement": "With a field map from file, the field at a node is the value in the map times the given factor plus the uniform field, with the longitudinal component of the map if it has one; outside the map only the uniform field is left.", "quantifier": "all maps, factors, uniform fields and positions", "why_tests_cant": "all maps and positions", "anchors": ["dynamics_Boris_f2py.py: B_file.__init__, B_file.get_B"]}
{"id": "C136", "title": "The densities and distributions offered by the Furman-Pivi model are those it draws from", "statement": "For backscattered, rediffused and true secondary electrons, the density offered for checking integrates to the distribution function, and this is the probability with which the model draws at most the given energy; the probability returned for a number of electrons is that of the chosen law, cut at M_cut; the average spectrum of true secondaries is the mean of the densities of events of 1 to M_cut electrons, weighted with the probability and the number of electrons of the event, and has area 1 on the grid it is asked for.", "quantifier": "all energies, widths, exponents, yields and numbers of electrons", "why_tests_cant": "equality of functions and probabilities for all real parameters", "anchors": ["sec_emission_model_furman_pivi.py: backscattered_energy_PDF, backscattered_energy_CDF, rediffused_energy_PDF, rediffused_energy_CDF, _true_sec_energy_CDF, true_sec_energy_PDF, average_true_sec_energy_PDF"]}
{"id": "C137", "title": "The polygonal chamber without compiled code behaves like the compiled one", "statement": "For every convex polygon given counter-clockwise, the two classes classify every point alike, and for every trajectory from strictly inside to outside they return the same impact point, segment and normal. The class without compiled code finds the first exit of every such trajectory.", "quantifier": "all convex polygons, arrays of points, starts strictly inside, ends not strictly inside, rescaling factors in [0, 1) and both modes", "why_tests_cant": "two search algorithms with different acceptance tests have to agree on all trajectories, including those through corners and those that end on a wall", "anchors": ["geom_impact_poly.py: polyg_cham_geom_object.is_outside, impact_point_and_normal", "geom_impact_poly_fast_impact.py: polyg_cham_geom_object", "geom_impact_poly_cython.pyx: impact_point_and_normal"]}
{"id": "C138", "title": "Reading series of files and the files written by the code gives back the data", "statement": "Reading a list of monitor files gives, for every data set of the first file, the records of all files one after the other in the order of the list (along the last axis for transposed data); with permissive=True files that cannot be opened are skipped, otherwise the call raises. A dictionary written to an h5 file, and arrays written to a .mat file, are read back unchanged.", "quantifier": "all lists of files and contents, all arrays of all shapes, both settings of the flags", "why_tests_cant": "ranges over all contents, shapes and patterns of missing files", "anchors": ["myfilemanager.py: monitorh5_to_dict, monitorh5list_to_dict, dict_to_h5, dict_of_arrays_and_scalar_from_h5, myloadmat"]}
{"id": "C139", "title": "Bunches are kicked by the field of the cloud in the enabled planes, once per interacting slice", "statement": "Tracking a bunch through an e-cloud returns the same slices with the same particle positions; the slopes of the particles of an interacting slice change by q E L / (m gamma (beta c)^2) in each enabled plane, with E the field of the cloud at the particle in the frame of the cloud after the step of that slice, and not at all in a disabled plane; slices that do not interact are left alone; a single-kick e-cloud leaves every bunch after the first alone.", "quantifier": "all bunches, slices, particle positions, beams, offsets and cloud models", "why_tests_cant": "ranges over all bunches and all histories of the cloud", "anchors": ["PyEC4PyHT.py: Ecloud.track, _track_single_slice, _track_in_single_slice_mode"]}
{"id": "C140", "title": "Recording output does not influence the simulation", "statement": "A simulation with histogram savers that runs to the end moves, absorbs, emits, ionises, cleans and regenerates exactly as the simulation without them: same clouds, same targets, same counters. This holds whatever is recorded and how often, also when optional histograms are switched off. Conversely the savers never stop a run whose histogram axes cover the chamber; all invariants of the clouds carry over.", "quantifier": "all numbers of time steps and clouds, all inputs of the steps, saver settings, saving intervals and histogram axes", "why_tests_cant": "a test compares one observed with one unobserved run; the savers zero the histograms that the impact code writes to, at times which depend on the run", "anchors": ["buildup_simulation.py: BuildupSimulation.sim_time_step", "pyecloud_saver.py: pyecloud_saver.witness, _energy_and_cos_angle_hist_save, _lifetime_hist_save, _hist_save (and the impact data reset)", "impact_management_class.py: reset_impact_hist_tot and the other resets"]}
{"id": "C141", "title": "The histograms saved over a run hold every impact exactly once", "statement": "For each impact histogram and each bin, the rows saved during a run plus what is still waiting in the histogram are what the histogram would hold had nothing been saved and nothing been zeroed: nothing is lost or counted twice whatever the saving times. The charge and energy over all rows are what hit the wall during the run.", "quantifier": "all runs, clouds, histograms, bins and saving times", "why_tests_cant": "ranges over all interleavings of impacts and saving times of a whole run", "anchors": ["pyecloud_saver.py: _energy_and_cos_angle_hist_save, _lifetime_hist_save, _hist_save", "impact_management_class.py: backtrack_and_second_emiss and the resets"]}
{"id": "C142", "title": "The recorded time series are samples of the simulation without savers, add up to it and agree with the histograms", "statement": "A simulation with all its savers also runs without them, with the same clouds and impacts. The series of each cloud are what a fresh saver records of the unobserved simulation, sampled in every step after motion, impacts and sources and before cleaning; the recorded impacting and emitted electrons and energies, with what is still being accumulated, are those of the whole run, and equal what the saved histogram rows of the passages and the energy spectra hold. The cross ionisation counters, which the saver empties when it records, lose nothing: recorded totals and rest are what the unobserved simulation counts.", "quantifier": "all numbers of time steps and clouds, all inputs of the steps, saver settings and saving intervals, clouds with and without saver", "why_tests_cant": "ranges over all interleavings of impacts, ionisations and saving times of a whole run", "anchors": ["buildup_simulation.py: BuildupSimulation.sim_time_step, _save_output_data", "pyecloud_saver.py: pyecloud_saver.witness, _stepbystep_data_save", "cross_ionization.py: Cross_Ionization.save_cross_ion_data"]}
{"id": "C143", "title": "The charge balance of a simulation can be read from its output", "statement": "Over a run without regenerations the charge of each cloud at the end is the charge at the beginning plus recorded emitted minus recorded impacting electrons, plus the rounded primaries, minus what cleaning removed, plus the recorded charge of the cross ionisation, each with what the savers and counters still hold.", "quantifier": "all numbers of time steps and clouds, all inputs of the steps in which no regeneration is due, saver settings and saving intervals", "why_tests_cant": "ranges over whole runs and all saving times", "anchors": ["buildup_simulation.py: BuildupSimulation.sim_time_step, _save_output_data", "pyecloud_saver.py: pyecloud_saver.witness, _stepbystep_data_save", "MP_system.py: MP_system.clean_small_MPs", "cross_ionization.py: Cross_Ionization.generate"]}
{"id": "C144", "title": "Clouds influence one another only through the fields and the cross ionisation", "statement": "In a simulation of several clouds without cross ionisation, each cloud, its impact histogram and its impact counters evolve as in the simulation of that cloud alone with the same fields, motion, emission and random numbers: the other clouds, and the place of the cloud in the list, do not matter. The joint simulation reaches its end exactly if each of the single ones does.", "quantifier": "all numbers of clouds and time steps, all settings and inputs of the steps, all initial states without cross ionisation", "why_tests_cant": "ranges over all histories of all other clouds", "anchors": ["buildup_simulation.py: BuildupSimulation.sim_time_step", "impact_management_class.py: impact_management.backtrack_and_second_emiss", "MP_system.py: MP_system.perform_regeneration, clean_small_MPs"]}
{"id": "C145", "title": "A time step moves the clouds in the field of all of them and recomputes that field from all of them", "statement": "In each time step every cloud moves in the field of the last solution plus that of the beams, hits walls and emits on the way and receives its primaries; then, if a recomputation is due or forced, the field is solved for the sum of the densities of all clouds as they are then (before cleaning), every cloud gets its own density, and the total of the density on the grid is the charge of all macroparticles inside the grid; otherwise field and densities stay. Whatever fields, solver and trackers do, the clouds evolve as in a run of the time steps for some motion, so that everything proved for arbitrary motion holds.", "quantifier": "all numbers of clouds and time steps, all solvers, beams, trackers, sub-stepping options, inputs and initial states", "why_tests_cant": "ranges over whole histories of interacting clouds and all solvers", "anchors": ["buildup_simulation.py: BuildupSimulation.sim_time_step, _cloud_motion, _recompute_cloud_spacecharge, _get_field_from_clouds_at_particles", "space_charge_class.py: space_charge.recompute_spchg_efield, get_sc_eletric_field, check_for_recomputation"]}
{"id": "C146", "title": "The order of the clouds does not matter", "statement": "Rearranging the clouds of a simulation without cross ionisation (with their settings and random numbers) rearranges the result: the simulation still runs to its end, every cloud ends as before with its histogram and counters, and density and field of the clouds are the same.", "quantifier": "all permutations of all numbers of clouds, all numbers of time steps, solvers, settings, inputs and initial states", "why_tests_cant": "ranges over all permutations and histories", "anchors": ["buildup_simulation.py: BuildupSimulation.sim_time_step, _recompute_cloud_spacecharge", "space_charge_class.py: space_charge.recompute_spchg_efield"]}
{"id": "C147", "title": "Accepted photoemission settings send every photon to the wall", "statement": "Photoemission settings are accepted only if reflected photons start on the axis inside the chamber and the checked points of the circles on which photon trajectories end are outside; with accepted settings every photon trajectory, whatever its angle, starts inside and ends outside the chamber, so that it crosses the wall.", "quantifier": "all chambers, radii, reflection points, angles and kinds of photons", "why_tests_cant": "the constructor itself checks 10000 angles; the claim is about all of them", "anchors": ["gen_photoemission_class.py: photoemission.__init__, photoemission_from_file.__init__, gen_photoelectrons"]}
{"id": "C148", "title": "Segments without own surface parameters use those of each cloud", "statement": "With a non-uniform surface, a negative value of the maximum yield, reflectivity or energy of maximum yield of a segment in the chamber file stands for the global parameter of the cloud: every cloud uses the values of the file where they are not negative and its own global parameters elsewhere, whatever the other clouds of the simulation use.", "quantifier": "all chamber files, numbers and orders of clouds, surface models and global parameters", "why_tests_cant": "single cloud simulations, and clouds with equal parameters, behave as meant", "anchors": ["sec_emission_model_ECLOUD_nunif.py: SEY_model_ECLOUD_non_unif.__init__", "init.py: read_input_files_and_init_components (loop over clouds)", "geom_impact_poly_fast_impact.py: polyg_cham_geom_object.__init__"]}
{"id": "C149", "title": "Copies of the output are recent", "statement": "With copies of the main output requested every copy_main_outp_DT, at every moment between passages the copy is the main output file as it was at some passage, and no passage since then came copy_main_outp_DT or more after that one; without copies at checkpoints, copies are made at the first passage at least that long after the previous copy and at no other.", "quantifier": "all configurations of checkpoints, copies and save_mat_every, states of the disk at the beginning, and sequences of passages", "why_tests_cant": "depends on the times of all passages and on the interplay with the copies made at checkpoints", "anchors": ["pyecloud_saver.py: pyecloud_saver._copy_main_outp_save", "pyecloud_saver.py: pyecloud_saver._checkpoint_save", "pyecloud_saver.py: pyecloud_saver.witness"]}
{"id": "C150", "title": "A cloud moves in the sum of all fields over a time step", "statement": "Over one time step every macroparticle moves in the sum of the electric fields of the clouds and of the beams at its position and of all magnetic fields given: the two Boris trackers give the same motion in the same total field for every kind of time step and sub-steps, and the strong-field trackers put every macroparticle where any solution of its equation of motion is after the step.", "quantifier": "all clouds, fields of clouds and beams, magnetic fields, time steps, sub-step settings and modes", "why_tests_cant": "an equality of motions for all fields and an exact solution of a differential equation", "anchors": ["buildup_simulation.py: BuildupSimulation._cloud_motion", "dynamics_Boris_multipole.py: pusher_Boris_multipole", "dynamics_Boris_f2py.py: pusher_Boris", "dynamics_dipole.py: pusher_dipole_magnet.step", "dynamics_strong_B_generalized.py: pusher_strong_B_generalized.step"]}
{"id": "C151", "title": "The saved number of impacts is that of the cloud", "statement": "The number of impacts saved with a cloud at each passage tells how many of the macroparticles of that cloud have hit the wall.", "quantifier": "all numbers of clouds, sources of electrons, and sequences of time steps and passages", "why_tests_cant": "depends on all earlier impacts of all clouds", "anchors": ["pyecloud_saver.py: pyecloud_saver._pass_by_pass_data_save", "impact_management_class.py: impact_management.backtrack_and_second_emiss", "geom_impact_poly_fast_impact.py: polyg_cham_geom_object.impact_point_and_normal", "gen_photoemission_class.py: photoemission_base"]}
{"id": "C152", "title": "Charges scale", "statement": "With the motion given, without cross ionisation and with yields that do not depend on the sizes of the macroparticles, multiplying the initial sizes, the reference sizes and the rates of the sources by a factor multiplies all charges, deposited energies and histograms of the run by that factor and changes nothing else: the macroparticles are the same in number, position and velocity after any number of steps, cleanings and regenerations.", "quantifier": "all factors, settings, clouds, motions, random numbers, emission models of the given kind, and sequences of time steps", "why_tests_cant": "a relation between two whole runs for every factor", "anchors": ["buildup_simulation.py: BuildupSimulation.sim_time_step", "MP_system.py: MP_system", "impact_management_class.py: impact_management.backtrack_and_second_emiss", "sec_emission_model_ECLOUD.py: SEY_model_ECLOUD.impacts_on_surface", "sec_emission_model_furman_pivi.py: SEY_model_furman_pivi.impacts_on_surface"]}
{"id": "C153", "title": "A saved simulation state continues like the simulation that saved it", "statement": "Saving the simulation state does not disturb the simulation, and a new simulation that loads the state and goes on gives the same result as the one that saved it and went on.", "quantifier": "all settings, numbers of clouds, motions, emission models, random numbers, steps before and after the saving", "why_tests_cant": "a relation between two whole runs for every place of the saving", "anchors": ["pyecloud_saver.py: pyecloud_saver._sim_state_single_save", "buildup_simulation.py: BuildupSimulation.load_state", "buildup_simulation.py: BuildupSimulation.sim_time_step", "cross_ionization.py: Ionization_Process.generate"]}
{"id": "C154", "title": "Recording schedules go on after a restart", "statement": "After a restart from a checkpoint, histograms, samples, state files and checkpoints are recorded at the times, and under the numbers, of the run that was not interrupted.", "quantifier": "all settings, intervals, requested times, sequences of steps before and after the restart", "why_tests_cant": "a relation between two whole runs for every place of the restart", "anchors": ["buildup_simulation.py: BuildupSimulation.load_checkpoint", "pyecloud_saver.py: pyecloud_saver.witness", "pyecloud_saver.py: pyecloud_saver._MP_state_save", "pyecloud_saver.py: pyecloud_saver._energy_cos_and_lifetime_angle_hist_save", "pyecloud_saver.py: pyecloud_saver._stepbystep_data_save"]}
{"id": "C155", "title": "Requests for state files, checkpoints and copies are honoured however they are given", "statement": "The times at which states are saved are those of the list, or of the file, that was given; None and -1 switch the saving off; an interval for checkpoints or copies is used as given and refused without a folder.", "quantifier": "all lists and files of times, all integers and floats", "why_tests_cant": "must hold for every form and every number of times", "anchors": ["pyecloud_saver.py: pyecloud_saver._MP_state_init", "pyecloud_saver.py: pyecloud_saver._sim_state_init", "pyecloud_saver.py: pyecloud_saver._checkpoint_init", "pyecloud_saver.py: pyecloud_saver._copy_main_outp_init"]}
{"id": "C156", "title": "A simulation has the mirror symmetries of its set-up", "statement": "If the chamber, the beams, the fields and the initial clouds of one simulation are the mirror image (left-right, up-down, along the beam or any combination) of those of another, and the random numbers are mirrored too, then at every later time the clouds are the mirror image of each other, macroparticle by macroparticle, with the same sizes and the same numbers and energies of impacts; the same holds for the densities and fields of the clouds. Elliptical chambers, quadrupoles, field-free regions and (with the right signs) dipoles are symmetric themselves.", "quantifier": "all mirrors, configurations, runs of any length, random draws, chambers, fields, solvers", "why_tests_cant": "must hold for every configuration and any number of steps; a swapped sign in one component shows only in asymmetric situations", "anchors": ["buildup_simulation.py: BuildupSimulation.sim_time_step", "dynamics_Boris_f2py.py: pusher_Boris.step", "dynamics_dipole.py: pusher_dipole_magnet.step", "dynamics_strong_B_generalized.py: pusher_strong_B_generalized.step", "geom_impact_ellip.py: ellip_cham_geom_object.impact_point_and_normal", "electron_emission.py: _velocities_angle", "compute_rho.f", "interp_field_for.f"]}
{"id": "C157", "title": "What the emission model decides is what the cloud contains", "statement": "In an impact step the emission model is called once with the impacts of exactly the macroparticles outside the chamber, in order, each with its size, velocity and the point, normal and segment of its hit; afterwards the k-th macroparticle outside is replaced in its place by the k-th replacement with the given position, velocity and size and the present time as last impact, the additional ones follow at the end, and the macroparticles inside are untouched.", "quantifier": "all clouds, chambers, emission models, old positions, histograms and times for which the step completes", "why_tests_cant": "must hold for every mix of macroparticles inside and outside; a swapped component or a shifted mask shows only in some", "anchors": ["impact_management_class.py: impact_management.backtrack_and_second_emiss", "MP_system.py: MP_system.add_new_MPs"]}
{"id": "C158", "title": "Only the distribution of the charge matters", "statement": "Two simulations whose clouds represent the same distribution of charge over positions and velocities, but with the charge divided differently among macroparticles or with the macroparticles in another order, have after any number of time steps the same distribution of charge, the same impact histograms and counters, the same charge density and the same field. Every macroparticle moves by the same map of position and velocity whatever the others do, and the threshold for splitting emitted macroparticles has no influence on the distribution.", "quantifier": "all clouds, all ways to divide and order their charge, all settings and numbers of steps, trackers that act on each macroparticle, emission proportional to the impacting charge", "why_tests_cant": "a dependence on the order or the size of macroparticles can hide in any of the vectorised operations and shows only for particular arrangements", "anchors": ["buildup_simulation.py: BuildupSimulation.sim_time_step", "impact_management_class.py: impact_management.backtrack_and_second_emiss", "sec_emission_model_ECLOUD.py: SEY_model_ECLOUD.impacts_on_surface", "space_charge_class.py: space_charge.recompute_spchg_efield", "dynamics_Boris_f2py.py: pusher_Boris.step"]}
{"id": "C159", "title": "Input files can be read by many processes at the same time", "statement": "Several simulations that start on one machine read their input files through temporary copies. Whatever the order in which the operations of the calls interleave and whatever earlier runs left in the temporary folder, each call gives the module of its own input file (with pi defined), the exception raised by that file, or that there is no such file; it returns after a fixed number of operations; it leaves no temporary directory or file behind and does not touch those of other processes.", "quantifier": "all input files, all numbers of processes and calls, all interleavings of their operations, all leftovers in the temporary folder", "why_tests_cant": "the interleavings of file operations of parallel jobs cannot be enumerated and failures are not reproducible", "anchors": ["input_parameters_format_specification.py: import_module_from_file"]}
{"id": "C160", "title": "Emitted electrons follow the angular distribution chosen", "statement": "With secondary_angle_distribution (or photoelectron_angle_distribution) cosine_3D the probability that an electron leaves within an angle alpha of the normal and with an azimuth in a sector of width beta is sin(alpha)^2 beta/(2 pi), the cosine law of Lambert, at every point of the wall and every energy; the mean velocity is two thirds of the speed along the normal. With cosine_2D the probability is sin(alpha) beta/(2 pi), and with normal_emission all electrons leave along the normal.", "quantifier": "all normals, energies, opening angles and azimuths; probability over uniform random numbers", "why_tests_cant": "a wrong power or a missing Jacobian (as in the earlier versions of the code) gives plausible velocities; only the distribution over all draws shows it", "anchors": ["electron_emission.py: velocities_angle_cosine_3D", "electron_emission.py: velocities_angle_cosine_2D", "electron_emission.py: velocities_angle_normal_emission", "electron_emission.py: _velocities_angle"]}
{"id": "C161", "title": "Tracking neither compresses nor stretches the phase space", "statement": "When the electric field is taken at the electron in every sub-step (one sub-step, or fields interpolated again at the sub-steps), the motion of a cloud in a time step with the Boris or the multipole tracker, the kick of the beam included, moves all electrons by one map of phase space that keeps the volume of every set of electrons and never brings two electrons to the same state, for any fields, magnetic maps, charges and time steps; a step back in time restores the velocities. The trackers for strong magnetic fields do the same in uniform fields.", "quantifier": "all measurable fields, all magnetic field maps, multipole coefficients, time steps and numbers of sub-steps, all measurable sets of electrons", "why_tests_cant": "a wrong sign or a missing term in the rotation, or a field taken at the wrong position, gives plausible orbits; only the Jacobian over the whole phase space shows a spurious heating or cooling of the cloud", "anchors": ["dynamics_Boris_f2py.py: pusher_Boris.step", "dynamics_Boris_f2py.py: pusher_Boris.stepcustomDt", "dynamics_Boris_multipole.py: pusher_Boris_multipole.stepcustomDt", "dynamics_dipole.py: pusher_dipole_magnet.step", "dynamics_strong_B_generalized.py: pusher_strong_B_generalized.step", "buildup_simulation.py: BuildupSimulation._cloud_motion"]}
{"id": "C162", "title": "Energies and positions that are redrawn follow the truncated distribution, and the loops end", "statement": "Where a quantity is drawn again until it is acceptable, the values returned are independent and each follows the drawn distribution conditioned on being acceptable: energies of secondaries the lognormal distribution below the threshold (or below the impact energy), Gaussian photoelectron energies the normal distribution above zero, initial macroparticles the uniform distribution on the part of the rectangle inside the chamber, ionised gas the uniform or the beam distribution inside the chamber. The loops end with probability one whenever the acceptable set has positive probability, and the probability of ending within k repetitions is the product of the geometric laws.", "quantifier": "all parameters, numbers of macroparticles, chambers (measurable; all elliptical and polygonal ones are), measurable sets of outcomes and numbers of repetitions", "why_tests_cant": "a loop that redraws the wrong entries, or redraws all of them, gives values in the right range with a biased distribution; the law is a statement about all outcomes of an unbounded loop", "anchors": ["electron_emission.py: sec_energy_hilleret_model2", "electron_emission.py: _gaussian.__call__", "MP_system.py: MP_system.add_uniform_MP_distrib", "gas_ionization_class.py: residual_gas_ionization.generate"]}
{"id": "C163", "title": "With a shorter time step the Boris trackers approach the true motion", "statement": "Take an electron moving under the electric field of clouds and beams and a static magnetic field, all of them bounded and changing at a bounded rate around its orbit. There are a constant C and a largest step h, which do not depend on the number of steps or sub-steps, such that for every time step Dt up to h and every number of sub-steps, with the electric field kept during the step or interpolated again at each sub-step, each particle of the cloud that starts with the electron is after every step at most C Dt away from it in every coordinate and velocity component. The magnetic fields of the trackers (none, quadrupole, map, multipoles of any order) and fields interpolated on a grid satisfy the condition on any bounded region inside the map. The first order cannot be improved: in a uniform field the position is off by exactly acceleration times T times half a sub-step.", "quantifier": "all fields, orbits and durations as described, all charge-to-mass ratios, all numbers of time steps and sub-steps, all clouds and all their particles", "why_tests_cant": "convergence is a statement about all step sizes and all fields; a wrong sign or factor in the rotation still gives plausible orbits for the tested step", "anchors": ["dynamics_Boris_f2py.py: pusher_Boris.stepcustomDt", "dynamics_Boris_multipole.py: pusher_Boris_multipole.stepcustomDt", "boris_step.f: boris_step", "boris_c_function.c: boris_c", "buildup_simulation.py: BuildupSimulation._cloud_motion"]}
{"id": "C164", "title": "The strong-field trackers approach the true motion", "statement": "Take an electron moving under a transverse electric field of clouds and beams and a static transverse magnetic field, bounded and changing at a bounded rate around its orbit. With the strong dipole tracker (uniform vertical magnetic field) there are C and h such that for every time step Dt up to h each particle of the cloud that starts with the electron is after every step at most C Dt away from it in every coordinate and velocity component. With the generalised strong-field tracker (map, quadrupole or uniform field) the distance is at most C (Dt + thr), where thr is the magnetic field below which the tracker ignores the magnetic force. The term with thr cannot be dropped: in a uniform field below the threshold the tracked electron goes straight for every time step, where the true motion is a circle.", "quantifier": "all fields, orbits and durations as described, all charge-to-mass ratios other than zero, all numbers of time steps, all thresholds, all clouds and all their particles", "why_tests_cant": "convergence is a statement about all step sizes and all fields; the trackers contain divisions by the magnetic field and replacements of small arguments whose effect on the order of the method a run at one step size does not show", "anchors": ["dynamics_dipole.py: pusher_dipole_magnet.step", "dynamics_strong_B_generalized.py: pusher_strong_B_generalized.step", "sincc_cosincc_cubsincc.py: sincc", "buildup_simulation.py: BuildupSimulation._cloud_motion"]}
{"id": "C165", "title": "Log, progress and stop files tell the passages of the run", "statement": "After the set-up the log file of every cloud holds the lines about the program, its start and the end of the initialisation. During a run every log file gets exactly one line for every passage of every cloud that uses it, in the order of the passages and clouds, with the electrons and macroparticles the cloud has at that moment; the progress file shows the fraction of passages before the current one, at least 0 and below 1 and never decreasing. A line that cannot be written is left out and neither stops the run nor changes the other lines. The run is stopped at the first passage at which the stop file is present, after the log and progress files of that passage are written.", "quantifier": "all numbers of clouds, all choices of log and progress files (own or shared), all runs, all patterns of failing file operations, all moments at which the stop file appears", "why_tests_cant": "depends on which files clouds share, on when writing fails and when the stop file appears; the loss of lines shows only with several clouds", "anchors": ["pyecloud_saver.py: pyecloud_saver.__init__", "pyecloud_saver.py: pyecloud_saver.start_observing", "pyecloud_saver.py: pyecloud_saver._logfile_progressfile_stofile", "init.py: read_input_files_and_init_components"]}
{"id": "C166", "title": "A cloud grows at most by the largest yield of the surface and by its sources", "statement": "If the surface emits at most M electrons per impacting electron, M at least 1, then after n time steps a cloud holds at most M^n times the electrons it started with plus those the sources (gas ionisation, photoemission, cross ionisation) brought in. If the surface never emits more electrons than hit it and no source is active, the number of electrons never increases between any two moments of the run. The ECLOUD and cosine models emit at most delta_max e^(1/2) + R0 electrons per electron, the flat model the larger of the two terms, the accurate low energy model the larger of 1 and delta_max e^(1/2)/(1-R0), the Furman-Pivi model at most M_cut, the absorber none; so there is no multipacting for delta_max e^(1/2) + R0 <= 1.", "quantifier": "all chambers, motions, fields, random numbers, beams, initial clouds and numbers of time steps and clouds; soft and asynchronous regenerations included, full ones not due", "why_tests_cant": "a bound over runs of any length, with all random choices; one run shows one growth rate", "anchors": ["buildup_simulation.py: BuildupSimulation.sim_time_step", "impact_management_class.py: impact_management.backtrack_and_second_emiss", "sec_emission_model_ECLOUD.py: yield_fun2", "MP_system.py: MP_system.perform_soft_regeneration"]}
{"id": "C167", "title": "Tracking neither heats nor cools the electrons", "statement": "Over any number of time steps the kinetic energy of an electron tracked with a Boris tracker changes exactly by the work of the electric fields along its path, in any magnetic field. In a uniform magnetic field its canonical momentum is kept exactly; in crossed uniform fields it drifts with exactly E x B / B^2 and stays within the gyration diameter of the drifting position for ever; bound by a linear force it oscillates within fixed bounds if the time step is below 2 over the angular frequency.", "quantifier": "all charge-to-mass ratios, time steps, numbers of sub-steps and steps, magnetic fields and field maps, initial clouds and macroparticles", "why_tests_cant": "long-term behaviour over any number of steps; a test run shows a bounded time with one field", "anchors": ["boris_step.f: boris_step", "boris_c_function.c: boris_c", "dynamics_Boris_f2py.py: pusher_Boris.step, pusher_Boris.stepcustomDt", "dynamics_Boris_multipole.py: pusher_Boris_multipole.step", "buildup_simulation.py: BuildupSimulation._cloud_motion"]}
{"id": "C168", "title": "Regenerations do not bias the cloud", "statement": "A full regeneration is unbiased in every cell of its phase-space grid: averaged over the random numbers, the charge made in a cell is the charge the kept macroparticles had in it, and the total charge made is the total charge kept. Averaged over its random numbers, a soft regeneration keeps the charge in every region of phase space, up to the probability that nobody survives.", "quantifier": "all clouds, grids, distributions of sizes and random numbers", "why_tests_cant": "an average over all random numbers; a test sees single outcomes", "anchors": ["MP_system.py: MP_system.check_for_regeneration, MP_system.perform_soft_regeneration"]}
{"id": "C169", "title": "A full regeneration goes through when there is room", "statement": "If the arrays have room for the configured number of macroparticles after a regeneration plus one per occupied cell of phase space, and the random positions eventually fall inside the chamber, a full regeneration succeeds whatever the random numbers, and leaves fewer macroparticles than that sum.", "quantifier": "all clouds, grids, array sizes and random numbers", "why_tests_cant": "the number of macroparticles made depends on all the random numbers and on the whole cloud", "anchors": ["MP_system.py: MP_system.check_for_regeneration"]}
{"id": "C170", "title": "Regenerations bring the number of macroparticles to the target", "statement": "A soft regeneration leaves on average exactly the target number of macroparticles, with a mean square deviation of target*(N-target)/N. A full regeneration makes on average the kept charge divided by the new reference size, which is at most the number asked for, and at least the fraction that is not cut away of it if the reference size is above the initial one; the mean square deviation is at most a quarter of the number of occupied cells. The probability of a deviation by k falls with the square of k.", "quantifier": "all clouds, targets, grids and thresholds; averages over the random numbers of the call", "why_tests_cant": "it is a statement about all outcomes of the random numbers together", "anchors": ["MP_system.py: perform_soft_regeneration, check_for_regeneration, check_for_soft_regeneration, check_for_async_regeneration"]}
{"id": "C171", "title": "Recordings keep the values of the moment at which they were made", "statement": "Whatever is done later to the arrays of a simulation - in place, as when histograms are filled and reset, macroparticles moved, replaced and added, or by making new arrays - every recorded histogram, every recording of an interaction, the positions kept for the detection of impacts, the copies of the macroparticles taken with extract_dict and the density movies of single clouds show the values that the arrays had when they were recorded. The movies of the total density and of the field do so if the field solver puts each new density and field into a new array; with a solver that overwrites its array every frame would show the last density.", "quantifier": "every sequence of in-place writes, new arrays and recordings, every contents of the arrays, any number of clouds and segments", "why_tests_cant": "A missing copy is seen only when the array is changed after the recording, which depends on the history that follows; no test goes through all histories for all recorders.", "anchors": ["MP_system.py: MP_positions, extract_dict, get_positions", "pyecloud_saver.py: _pass_by_pass_data_save, _energy_cos_and_lifetime_angle_hist_save, _rho_video_save, _sc_video_save", "PyEC4PyHT.py: _track_single_slice", "impact_management_class.py: reset_impact_hist_tot", "buildup_simulation.py: sim_time_step"]}
{"id": "C172", "title": "Far from the origin the complex error function routine is accurate", "statement": "For every complex argument z with |Re z| >= 5.33 or |Im z| >= 4.29 - on and off the axes, in all four quadrants - the compiled complex error function routine returns a value that differs from w(z) = exp(-z^2) erfc(-iz) by at most 5e-10 (in exact arithmetic).", "quantifier": "every complex number outside the rectangle |Re z| < 5.33, |Im z| < 4.29", "why_tests_cant": "The error depends on the argument in a continuum and in all directions; comparing at sampled points says nothing about the arguments in between or far away.", "anchors": ["errfff.f: ERRF", "BassErsk.py: wfun"]}
{"id": "C173", "title": "The field of a beam that is almost round, and of any beam from far away, is the one of Gauss's law", "statement": "For every Gaussian beam with two different sizes, the field computed for the beam tends to the field of a line charge: at all points farther than some distance, in every direction, both components agree with it within 1e-14 of its strength. At every point except the centre, when the two sizes are different but close enough to a common value, both components agree within 2e-14 of that strength with the field of a round Gaussian beam of this size by Gauss's law.", "quantifier": "every permittivity, all pairs of different sizes, all points in all quadrants and on the axes (far away; and for the second part all points but the centre and all sizes in a neighbourhood)", "why_tests_cant": "Both parts are about limits: no finite set of distances or sizes can show them, and the two sizes enter through a difference that cancels.", "anchors": ["BassErsk.py: BassErsk, wfun", "errfff.f: ERRF", "beam_and_timing.py: beam_and_timing.__init__"]}
{"id": "C174", "title": "Outside its core, the field computed for a beam is the field of a Gaussian charge by Maxwell's equations", "statement": "For every pair of different sizes there is exactly one field in the plane whose divergence is the Gaussian charge density of the beam over the permittivity, which has no curl and vanishes at infinity. At every point outside the core of the beam, in every quadrant, the field that the code computes exists and both its components differ from that field by at most 1e-9 / (2 eps0 sqrt(pi) sqrt(2 |sigmax^2 - sigmay^2|)).", "quantifier": "every permittivity, all pairs of different sizes, and all points where the argument of the complex error function is outside the rectangle 5.33 x 4.29 of the routine", "why_tests_cant": "The reference field is defined by differential equations on the whole plane; tests can only compare with another implementation of the same closed formula.", "anchors": ["BassErsk.py: BassErsk, wfun", "errfff.f: ERRF", "beam_and_timing.py: beam_and_timing.__init__"]}
{"id": "C175", "title": "Yield tables prepared from measurements reproduce the measurements", "statement": "From measured yields (true and elastic) in the order of their energies, resample_sey_data makes a table that the surface model from file accepts, starting at the first measured energy and ending within half a step of the last one. For every energy in the table both yields of the surface differ from the measured curve (samples joined by straight lines) by at most half a step times the steepest slope of the curve; they are exact at whole steps, and exact everywhere if all measured energies are whole steps. Above the table they follow the line with the least squared distance from the part of the table in the given range, which continues the measurements when these are on a line. A range that does not exceed the step is refused.", "quantifier": "all measured tables in increasing order of energy, all steps that are whole multiples of 0.001 eV, all ranges of the fit larger than the step, all energies from the first measured one on", "why_tests_cant": "The statement is about a continuum of energies and about all tables; the errors depend on where samples and steps fall.", "anchors": ["other/sey_files/resample_sey.py: resample_sey_data, get_linear_extrapolation_parameters", "sec_emission_model_from_file.py: SEY_model_from_file.__init__, interp, SEY_values"]}
{"id": "C176", "title": "Photons follow the measured distribution of angles", "statement": "From a measured density of photon angles the preparation script makes the table that photoemission from file reads. The angle the simulation reads from it for a uniform random number follows the measured distribution: for every angle of the resampled density the probability of an angle up to it differs from the fraction of the area below the density by at most one step of the table. The script succeeds for every density that is not negative and not zero everywhere, also where the density vanishes on intervals.", "quantifier": "all measured densities at increasing angles, all intervals of angles, all numbers of samples of density and table (10000 in the script), all random numbers", "why_tests_cant": "The statement is about the distribution over all random numbers and about all densities, including those with gaps where the cumulative distribution is flat.", "anchors": ["other/photoemission_angular_distribution/000_generate_pyecloud_photoem_input.py", "gen_photoemission_class.py: photoemission_from_file.generate"]}
{"id": "C177", "title": "The beam that passes has the intensity asked for", "statement": "When a run goes over the time steps of a bunched beam, line density times c times time step adds up to fact_beam times the sum of the intensities of the filling pattern plus the coasting beam. The relative error is at most 2q/(1-q) + exp(-50) (c Dt/sigmaz + 1/10) with q = exp(-2 pi^2 (sigmaz/(c Dt))^2), which is below 1e-20 with two or more steps per bunch length. Every filled bunch has to lie, with ten bunch lengths on both sides, within the simulated time. The electrons that the residual gas ionisation asks for over the run are therefore intensity times gas density times cross section per metre with the same relative error. The mean number of photoelectrons over the run is k_pe_st times the intensity with the same relative error, for any sizes of the macroparticles; with continuous emission it is smaller by one part in the number of times.", "quantifier": "all filling patterns, bunch lengths, bucket spacings, offsets and time steps, all positions of the bunches relative to the time steps", "why_tests_cant": "The statement is about sums over all grids and all positions of the bunches between the grid points; the bound comes from Poisson summation.", "anchors": ["beam_and_timing.py: bunch_train4, beam_and_timing.__init__, next_time_step, end_simulation", "buildup_simulation.py: BuildupSimulation.run", "gas_ionization_class.py: residual_gas_ionization.__init__, generate", "gen_photoemission_class.py: photoemission_base.get_number_new_mps"]}
{"id": "C178", "title": "Maps and tables are accurate to second order between their nodes", "statement": "If the values at the nodes of a map are those of a quantity f, the value PyECLOUD uses at any point inside the map differs from f at that point by at most (Mx dx^2 + My dy^2)/8, where Mx, My bound the second derivatives of f along the axes and dx, dy are the steps. This holds for the fields of the beam, of the electrons, for frozen clouds and for magnetic field maps (times the factor of the map). A yield table differs from its curve by at most M dE^2/8 and a cross section table with constant step likewise, in square metres. The bound is reached by quadratic fields.", "quantifier": "all quantities with bounded second derivatives, all grids of constant step, all points inside them", "why_tests_cant": "Tests compare a few points of a few maps; the claim is about every smooth field and every point, and about how the error shrinks with the step.", "anchors": ["interp_field_for.f: int_field", "beam_and_timing.py: get_beam_eletric_field", "dynamics_Boris_f2py.py: B_file.get_B", "sec_emission_model_from_file.py: SEY_model_from_file.SEY_values", "cross_ionization.py: Ionization_Process.get_sigma"]}
{"id": "C179", "title": "Actions and reactions", "statement": "With a solver for which charges at nodes push one another with equal and opposite forces (as in free space), two sets of charges on the grid exert equal and opposite forces on one another wherever they are between the nodes, a cloud exerts no net force on itself, and a single macroparticle does not feel its own field. The transverse momentum that a slice of the beam gains from the cloud is opposite to the impulse of the field of the slice, during its passage, on the cloud over its length, the cloud being taken where it is when the beam is kicked.", "quantifier": "all sets of macroparticles with any charges and positions, all grids, all slices, all solvers with equal and opposite forces between nodes", "why_tests_cant": "Holds only if deposition and interpolation use the same weights for every position and if densities, kick factor and times fit together; a test sees a few positions.", "anchors": ["compute_rho.f: compute_sc_rho", "interp_field_for.f: int_field", "PyEC4PyHT.py: Ecloud._track_single_slice", "space_charge_class.py: get_sc_eletric_field, recompute_spchg_efield"]}
{"id": "C180", "title": "Beam profiles with refined time steps", "statement": "The tool that prepares profiles with refined time steps keeps all times of the uniform axis and adds, in every slot, those that divide the steps starting in the given window into equal parts; the times increase. The line density at the times of the uniform axis is the one of the bunch train and lies on the straight line between them elsewhere. If the bunches lie in the window, the refined profile carries the same charge as the uniform one, and a simulation over it sees the intensity asked for with the same accuracy, whatever the number of parts.", "quantifier": "all filling patterns, bunch lengths, time steps, windows and numbers of parts; bunch spacings of a whole number of time steps where increasing times are claimed", "why_tests_cant": "Sorting, repetition per slot and interpolation must fit together for all windows and numbers of parts; a test sees one train, and an overlap of two windows is easily missed.", "anchors": ["other/prepare_non_unif_tstep_profile/000_prepare_non_unif_tstep.py: t_fine_add_single, t_nunif, val_nunif", "beam_and_timing.py: beam_and_timing.next_time_step"]}
{"id": "C181", "title": "Linear and nonlinear parts of recorded field maps", "statement": "The tool that splits a recorded field map into parts saves, for every slice, a linear part proportional to the coordinate at every node, with the slope of the line that fits the field best on the nodes of the row closest to the axis and within the given number of beam sizes; for a field that is linear there the slope is its gradient. Linear and nonlinear part add up to the map; the averaged linear part and the rest of the linear part add up to the linear part; the two averaged parts add up to the average of the map over the slices; the rest of the linear part vanishes on average.", "quantifier": "all maps with any number of slices and nodes, all grids, beam sizes and numbers of beam sizes for which the fit has two different nodes", "why_tests_cant": "Rows and columns of three-dimensional arrays are filled in overlapping loops; a test sees one map, in which a wrong row or column may not show.", "anchors": ["other/linear_characterization/000_map_unperturbed_pinch/001_isolate_linear_part.py: Ex_lin, Ey_lin, Ex_lin_ave, Ex_nonlin, Ex_nonlin_ave, k_x_list, k_y_list"]}
{"id": "C182", "title": "Analytic surface and its table are the same surface", "statement": "A surface given by a table of the true and elastic yields of the analytic model at normal incidence, read with the same settings for the angle, emits the same true and elastic yields as the analytic model for every energy in the table and every angle. They differ by at most the error of the table entries plus what the curves can change over one step: del_max s/((s-1) Emax) per eV for the true yield (times the factor for the angle) and 4 R0 sqrt(dE/E0) for the elastic yield, and 1e-10. For every tolerance there is a step below which all tables are good enough.", "quantifier": "all parameters of the analytic model with s between 1 and 3, all uniform tables from zero energy with a step that is a multiple of 0.001 eV, all energies up to the last of the table, all angles, both settings for the angle", "why_tests_cant": "Two implementations of the dependence on the angle, one on the parameters and one on the energy, must agree at every energy and angle; a comparison on a grid of energies at normal incidence, as in the repository, does not see the angle.", "anchors": ["sec_emission_model_from_file.py: SEY_model_from_file.SEY_values, SEY_model_from_file.interp", "sec_emission_model_ECLOUD.py: yield_fun2", "other/sey_files/001_generate_sey_mat_from_ECLOUD_model.py: delta_true, delta_elast"]}
{"id": "C183", "title": "Yield curves and energy distributions of the Furman-Pivi surface at start-up", "statement": "The curves saved at the start of a simulation with a Furman-Pivi surface have one point for every test angle and energy. At each of them the elastic and the rediffused entry are the shares of the test impacts whose draw is below the elastic yield, or between it and the sum of both yields; the entry of the true secondaries is the charge emitted by the others per test impact; the entry of the absorbed is zero. The entries add up to the charge of the macroparticles emitted per test impact. In the energy distributions saved with them every emitted macroparticle is counted once: the one that replaces the impact under its kind of event, added ones under the true secondaries, absorbed ones at energy zero.", "quantifier": "all yields, all draws and Poisson numbers, all generators of energies and angles, all numbers of repetitions, all lists of angles and energies, with and without rediffused electrons", "why_tests_cant": "The event types are made by adding flags, after the numbers of secondaries have been overwritten for elastic and rediffused events; whether every event is in exactly one curve depends on all combinations of flags and numbers.", "anchors": ["impact_management_class.py: impact_management.extract_sey_curves, impact_management.extract_energy_distributions", "sec_emission_model_furman_pivi.py: SEY_model_furman_pivi.impacts_on_surface, SEY_model_furman_pivi.SEY_process, event_types"]}
{"id": "C184", "title": "Position of gas electrons around a coupled bunch slice", "statement": "In a coupled simulation, the candidate positions of electrons made on the residual gas by a slice with particles are Gaussian in each plane, independently, around the mean position of the particles of that slice (plus the beam offset) and with the variance of their positions. The size used vanishes in a plane exactly if all particles of the slice share that coordinate; moving or stretching the slice moves or stretches the candidates. A slice without particles, or marked as not interacting, makes no electrons.", "quantifier": "all slices, numbers and positions of particles, offsets of the beam and draws", "why_tests_cant": "The sizes are computed anew for every slice of every bunch; a test samples a few slices, and a histogram of positions cannot tell the law for every slice.", "anchors": ["PyEC4PyHT.py: Ecloud._track_single_slice, DummyBeamTim", "gas_ionization_class.py: residual_gas_ionization.generate", "buildup_simulation.py: BuildupSimulation._primary_generation"]}
{"id": "C185", "title": "Surfaces reflect and emit their yields on average", "statement": "For all impacts of one call of the ECLOUD, cosine, accurate low energy or table surface, with independent uniform random numbers: the mean charge sent back elastically is the sum of the impacting charges times their elastic yields, the mean charge of true secondaries the sum of the charges times their true secondary yields. The elastic charge is further than a given distance from its mean with a probability bounded by the sum of the squared charges over four times the squared distance. An elastic yield curve saved at start-up approaches the elastic yield as the number of test impacts grows.", "quantifier": "all lists of impacts, charges, energies, angles of incidence, surface parameters, tables and distances; averages over all random numbers", "why_tests_cant": "The event type is drawn per impact from the share of the elastic yield in the total, and in the accurate model the emitted charge depends on the outcome; that the averages come out right is a statement about an integral over all draws.", "anchors": ["sec_emission_model_ECLOUD.py: SEY_model_ECLOUD.SEY_process, yield_fun2", "sec_emission_model_accurate_low_ene.py: SEY_model_acc_low_ene.SEY_process", "sec_emission_model_cos_low_ener.py: SEY_model_cos_le.SEY_process", "sec_emission_model_from_file.py: SEY_model_from_file.SEY_process, SEY_values", "impact_management_class.py: impact_management.extract_sey_curves"]}
{"id": "C186", "title": "Accepted input files never lack a parameter the set-up reads", "statement": "Once the main input files, keyword arguments, cloud files and beam files have been accepted, setting up the simulation finds every parameter it reads, in the main input, for each cloud with or without a file of its own, and for each beam: no missing attribute stops the set-up after the files were checked.", "quantifier": "all contents of the simulation, machine, secondary emission, cloud and beam files and all keyword arguments", "why_tests_cant": "Which names are defined depends on every combination of given, missing and overridden parameters in several files; tests try a few complete sets of input files.", "anchors": ["init.py: read_parameter_files, read_input_files_and_init_components", "parse_cloud_file.py: cloud_descr_from_file", "parse_beam_file.py: beam_descr_from_fil", "default_input_parameters.py: parameters_dict", "input_parameters_format_specification.py: assert_module_has_parameters, update_config_dict, copy_to_config_dict"]}
{"id": "C187", "title": "Every accepted parameter is taken into account", "statement": "Two accepted cloud or beam files which give different values to a parameter lead to different values seen by the set-up: no accepted parameter is silently ignored.", "quantifier": "all pairs of accepted cloud files and beam files, all main inputs, all parameters and values", "why_tests_cant": "A parameter that is accepted but never read raises no error and changes no result, so a test has nothing to observe.", "anchors": ["init.py: read_input_files_and_init_components", "parse_cloud_file.py: cloud_descr_from_file", "parse_beam_file.py: beam_descr_from_fil", "default_input_parameters.py: parameters_dict"]}
{"id": "C188", "title": "Over many time steps the sources bring in the electrons asked for", "statement": "Over any sequence of calls of gas ionisation and photoemission, while the arrays do not fill up, the charge added to the cloud is on average exactly the sum of rate times line density times time step over the calls. A deviation larger than a given number of electrons has at most the probability number of calls times squared reference size over four times the squared deviation, so that the relative deviation vanishes in the long run, however few macroparticles a single call creates.", "quantifier": "all sequences of calls, line densities, time steps, rates, chambers, positions and velocities drawn, reference sizes and deviations; averages over all rounding numbers", "why_tests_cant": "Each call creates a whole number of macroparticles, often none; that the physical rate comes out over a run is a statement about the average over all random numbers and about sequences of any length.", "anchors": ["gas_ionization_class.py: residual_gas_ionization.generate", "gen_photoemission_class.py: photoemission_base.get_number_new_mps, photoemission.generate, photoemission_from_file.generate, photoemission_per_segment.generate", "MP_system.py: MP_system.add_new_MPs"]}
{"id": "C189", "title": "On average the products of the cross ionisation appear where and as often as projectiles ionise", "statement": "In one call of an ionisation process, the charge of the new macroparticles of each product is on average, in every region of the chamber and for every weighting of the place, that of the ionisations: cross section at the projectile's energy times target density times path times number of projectile particles, at the place of each projectile. A deviation larger than a given charge has at most the probability given by Chebyshev's inequality with half a reference size per projectile. With equal generation the same holds with the mean of the reference sizes of the products.", "quantifier": "all processes, tables, projectile clouds, velocities, time steps, product clouds, weightings of the place and deviations; averages over all rounding numbers of a product, for all other random numbers", "why_tests_cant": "A call creates a whole number of macroparticles per projectile, mostly none; that the products appear at the physical rate and place is a statement about the average over all random numbers.", "anchors": ["cross_ionization.py: Ionization_Process.generate, Ionization_Process.get_sigma"]}
{"id": "C190", "title": "Ionisation products come only from projectiles that can ionise", "statement": "Every new macroparticle of a cross ionisation product is at the place of a projectile that moves, has a positive size and whose cross section at its energy is positive, while there are targets left. Without targets, or when all projectiles have energies without cross section, no macroparticle is created and no ionisation is counted.", "quantifier": "all processes with non-negative tables and densities, projectile clouds, velocities, time steps, product clouds, numbers of products, both ways of generation and all random numbers that are not negative", "why_tests_cant": "The numbers are drawn at random for every projectile, and new macroparticles are put together with masks and repetitions; that none ever comes from a projectile that cannot ionise concerns all clouds and all random numbers.", "anchors": ["cross_ionization.py: Ionization_Process.generate, Ionization_Process.get_sigma"]}
