# Formal model of PyECLOUD in Lean 4

Layout (all under `lean/Verif/`):

* `Model/*.lean`  - executable-style model of the code, one file per source file (or group), every definition cites the lines it models.
* `Spec/*.lean`   - small specification vocabulary used by the property statements.
* `Lemmas/*.lean` - helper lemmas.
* `Props/*.lean`  - the property theorems `C01_...`, each followed by `example`s showing that its hypotheses are met by concrete data.

## Trusted base

* The Lean 4.33.0 kernel, and Mathlib as installed. Every theorem depends on at most the three standard axioms `propext`, `Classical.choice`
  and `Quot.sound` (checked with `#print axioms`; the gate lists them per theorem). No own axioms, no `sorry`, `native_decide`, `bv_decide`, `implemented_by` or `unsafe`.
  `decide +kernel` is used only in `example`s and in counterexample witnesses (a finite computation over the rationals that the kernel itself evaluates).
* The reading of the Python/Fortran/C/Cython source as the definitions in `Model/`. Nothing is executed. Each definition cites the lines it was read from.
* Numbers are elements of an arbitrary ordered field (`K`, so in particular the rationals, which contain all finite IEEE doubles, and the reals)
  or, where square roots / trigonometric functions / real powers occur, real numbers. Floating point rounding, overflow, NaN and infinities are NOT modelled
  (where the code relies on NaN handling, e.g. `geom_impact_ellip.py`, the model says so explicitly). Division by zero has the Lean value 0; theorems
  either exclude it by a hypothesis or the model raises where Python does.
* Random numbers are explicit arguments (functions or lists of draws); theorems hold for all draws, so for every seed. Statements about averages
  (C59, C67) are integrals or finite sums over a uniformly distributed draw; nothing else is claimed about distributions.
* Rejection loops (`while Nout > 0`) are modelled with an explicit list of rounds of draws; when the list runs out, the loop has not ended yet and the
  theorem says nothing about it (almost sure termination is not claimed).
* numpy slice assignment is modelled with its clipping and broadcasting rules, negative indices wrap, exceptions are values (`Except`).
* Crash points (C55) are prefixes of the list of file-system operations a call performs; a rename/copy/remove/save is one operation each, except that a
  save also has a "file present but incomplete" intermediate state. Reordering of operations by the operating system is not modelled.
* Not modelled: PyPIC (an abstract function from the charge density to the field), PyHEADTAIL's slicers (a list of slices), the formats of .mat, pickle and h5
  files (a file is the value stored in it), printing, plotting. Of MPI only the use made of it by the space charge is modelled (ordered, lossless messages; Parallel).

## What of the code is modelled

| source file | modelled | in | not modelled |
|---|---|---|---|
| MP_system.py | all methods: cleaning, soft / async / full regeneration, thresholds, sources, `get_positions`-type accessors, dictionaries | Model/MPSystem, Regen, MPHistory | `add_from_file` reading of the .mat container (its dictionary is the input) |
| impact_management_class.py | `backtrack_and_second_emiss`, reset of histograms, `extract_sey_curves`, `extract_energy_distributions` (event types of the ECLOUD and Furman-Pivi models) | Impact, Hist, SaverHist, Extract, FPExtract |  |
| sec_emission_model_*.py (ECLOUD, nunif, charging, accurate low energy, cos low energy, flat low energy, from file, perfect absorber) | yields, event selection, emission | Sey, Yield | loading of the table file |
| sec_emission_model_furman_pivi.py | yields, event selection, Poisson / binomial counts, emission, energy sampling, resampling loops | FurmanPivi, FPYield, FPMean, FPEnergy, FPHelpers | text printed to the terminal |
| electron_emission.py | all | Emission |
| compute_hist.f, compute_rho.f, interp_field_for.f, update_seg_impact.f, vectsum.f | all | Hist, Grid |
| boris_c_function.c, boris_step.f, dynamics_Boris_f2py.py, dynamics_Boris_multipole.py, dynamics_dipole.py, dynamics_strong_B_generalized.py, sincc_cosincc_cubsincc.py | all steps, loading of the B map | Dynamics, Profile | reading of the .mat container |
| beam_and_timing.py | time axis, filling patterns, profiles, loop, construction of the beam map | Timing, Profile, BeamField, BeamMap | progress files |
| space_charge_class.py | choice of the solver and its settings, scheduling, accumulation of densities, averaging over processes, field gathering, electric energy | Setup, Timing, Parallel, Grid, BeamMap | the solvers (PyPIC); nested PIC |
| buildup_simulation.py | `run`, `sim_time_step` and its parts, checkpoint start-up, `load_state` | Timing, Checkpoint, Restore, PyHT, SimStep, Observed, FullRun, Coupled | SimStep leaves out the field solution and the savers, which do not touch macroparticles; Observed adds the histogram savers, FullRun the step-by-step savers |
| gas_ionization_class.py, gen_photoemission_class.py, cross_ionization.py | generation, photon directions, checks of `phem_cdf`, interpolation, targets, construction of the processes, extraction of the cross sections | Sources, Photo, CrossIon, CrossSetup | reading and writing of the files |
| geom_impact_rect_fast_impact.py, geom_impact_poly_fast_impact.py, geom_impact_poly_cython.pyx, geom_impact_ellip.py | all tests, impact points, normals, validation, nesting | Geometry, Ellipse |
| pyecloud_saver.py | step, passage, histogram, snapshot, movie, checkpoint savers, restart from output, output dictionary, `save_only`, log and progress files | SaverSteps, SaverHist, Snapshots, Checkpoint, Restore, MainOut, OutDict, LogFile | text printed to the terminal |
| input_parameters_format_specification.py, default_input_parameters.py, parse_cloud_file.py, part of init.py | validation, joining, cloud files, file lookup, chamber, tracker, surface and source selection, lifetime settings, initial population | Config, ParamTables, Setup, Dynamics, Components |
| PyEC4PyHT.py, Transverse_Efield_map_for_frozen_cloud.py | construction, slice / bunch tracking, recordings, recorded maps, re-initialisation, twin e-clouds, re-initialisation of the saver, output names, line density, position and sizes of the beam | PyHT, FrozenSlices, Twin, Files, EcRecord, SliceSize | the beam monitor |
| BassErsk.py, errfff.f | Bassetti-Erskine field, image terms, error function | ErrF, BeamMap |
| space_charge_class_electromagnetic.py | construction, recomputation over several clouds, fields, `load_state` | Setup, BeamField | the solvers (PyPIC) |
| parse_beam_file.py | beam sizes, profile file lookup | BeamField | remaining attribute copies |
| init.py: construction of the components | arguments of the constructor calls and their binding | InitCalls |
| geom_impact_poly.py | all | PolyNp |
| myfilemanager.py | readers of monitor files, h5 and mat round trips | FileMan | `obj_to_dict` |
| cloud_manager.py (a record of the components of a cloud, no behaviour), plotting | | | not modelled |

## Plan per property

| id | what is modelled | how it is proved |
|----|------------------|------------------|
| C01 | `MP_system` as parallel arrays + live count, `clean_small_MPs` | refinement to a list of particles, `filter` |
| C02 | `perform_soft_regeneration` with the mask of draws | algebra over sums; negation for the no-survivor outcome, `_partial` for the rest |
| C03 | same | refinement: sub-list + common factor |
| C04 | all operations as a step relation | induction over histories |
| C05 | `add_new_MPs` on arrays with numpy slice semantics | refinement; negation for "full array, one new particle"; `_partial` |
| C06 | same, histories | induction; negation witness; `_partial` |
| C07 | `add_uniform_MP_distrib` | stochastic rounding + rejection loop induction |
| C08 | all sources with flag_lifetime_hist | per source; negation for `add_uniform_MP_distrib`; `_partial` |
| C09 | `extract_dict`, `init_from_dict` | refinement; negation for last-impact times; `_partial` |
| C10 | `_MP_cleaning_and_regenerations` order, dead tail | invariant; also the negation for direct API use after `init_from_dict` |
| C11-C14 | `check_for_regeneration` split in its stages | loop invariants; mixed radix arithmetic; negation of C13 for grid sizes divisible by 4 |
| C15 | trigger logic | decision logic |
| C16-C19 | `backtrack_and_second_emiss` parametrised by chamber and emission model | masked gather/scatter lemmas, sums |
| C20-C22 | `compute_hist`, `compute_sc_rho`, `int_field` | induction over particles, algebra |
| C23 | `yield_fun2` over the reals | Bernoulli / weighted AM-GM |
| C24, C25 | `impacts_on_surface` | algebra with ceil; list lemmas |
| C26 | `yield_fun2` of flat model with explicit aliasing | negation + what holds |
| C27, C28 | non-uniform and charging models | invariants over steps |
| C29 | table interpolation | algebra; negation far below the table |
| C30 | absorber composed with cleaning | corollary of C16/C18/C01 |
| C31, C32 | Furman-Pivi `SEY_process`, `impacts_on_surface` | case analysis; negation of C32 |
| C33-C35 | `electron_emission.py` | real algebra, resampling induction |
| C36-C39 | pushers | real algebra, induction over sub-steps, trigonometric identities |
| C40, C41 | `beam_and_timing` loop | induction over steps |
| C42, C43 | space charge scheduling and bookkeeping | invariants |
| C44 | `_cloud_motion` | case analysis; negation for zero sub-steps |
| C45, C46 | gas ionisation, photoemission, cross ionisation | as C07; negation of non-negativity |
| C47-C49 | chambers | real algebra, induction over edges |
| C50-C56 | saver | invariants over histories; crash-point enumeration by prefix of a file-operation log; negations for C51, C54, C55, C56 |
| C57 | configuration handling | decision logic on finite maps |
| C58 | `_track_single_slice` timing | algebra with ceil/round |
| C59 | accurate low-energy model | integral over the uniform draw |
| C60 | generalised strong-field step | derivatives of the closed form, Newton's equation, initial conditions |
| C61 | C and Fortran Boris steps | equality of the two step functions, induction over sub-steps |
| C62 | tracker selection of init.py | decision logic; negation for the sub-steps |
| C63 | `run` with stop time | induction over the loop, composition of two runs |
| C64, C65 | time axis and line density | algebra with rounding; sums over slots |
| C66 | kick mode of `_cloud_motion` | algebra |
| C67 | stochastic rounding | integral / expectation over one draw |
| C68 | cross-section interpolation | table lemmas |
| C69 | `add_uniform_ele_density` | refinement to filtered list |
| C70-C72 | polygon validation, nesting, crossing number | induction over edges; negation of C70 |
| C73, C74 | step totals, time-resolved histograms | invariants over histories |
| C75, C76 | checkpoint schedule; restart equals continuation | induction over histories; negation of C76 |
| C77, C78 | snapshots and movies | induction over the step sequence |
| C79 | cloud files and output names | finite maps; negation for equal base names |
| C80-C82 | PyHEADTAIL interface | equality of the kicks, non-interference, negations |
| C83, C84 | errfff.f, BassErsk.py | loop invariants on the work arrays, algebra over ℂ and ℝ; negation for round beams |
| C85, C86 | several beams | sums over beams with broadcasting; induction over steps; negation of the lookup |
| C87 | electromagnetic space charge | invariant relating solver states to the log of recomputations; negations |
| C88 | beam sizes | real algebra, decision logic |
| C89 | whole time steps as lists of operations on all clouds | invariant by induction over the operations, from the per-operation theorems |
| C90 | same | sum of gains by induction over the operations |
| C91 | yield formulas | real analysis (monotonicity, weighted AM-GM) |
| C92 | event choice and truncated Poisson numbers | average over the event draw and 13 independent Poisson numbers, moments of the Poisson law; negation |
| C93 | energy sampling | inverse transform sampling against the distribution functions |
| C94 | energy-conserving redraws | induction over the rounds; negation for three electrons |
| C95 | frozen map, slice by slice | induction over pieces and turns; negations |
| C96 | `saveMain` in the loop of `run` | induction over the steps, floor / ceiling arithmetic; negation |
| C97 | `outClouds`, `outSteps` | induction over clouds and steps; negation |
| C98 | `extractSey`, `extractEne` on top of the surface models | induction over the points; counting; refinement of the histogram to `binned` |
| C99 | the charge of the segments threaded through `extractSey` | induction with the charge balance of C27; negation |
| C100 | `loadPhem`, `npHistogram`, `npInterp`, `photoSegGenerate`, `photoEnds` | counting lemma for the histogram; measure of the intervals; composition with the first exit of C48 |
| C101 | selection of the emission model with its parameters in `init.py` | `surfaceOf = ok f` iff `Chosen` (decision table as an inductive relation); the yields of C29 for the angle |
| C102 | flags and calls of the primary sources; the three parts of a cloud that know the lifetime settings | decision logic for every flag value |
| C103 | the three initial sources applied to the empty arrays | composition of C07, C69 and the refinement of add_from_file to lists |
| C104 | initial speed and velocity components | energy identity over any field with the root; Lebesgue integral over the three draws |
| C105 | `ImageTerms` as a complex function, the map over `linspace` axes | Chebyshev polynomials: the terms are `sinh(nq)/sinh(q)` = `U_(n-1)(z/g)`, potential = real part of an entire function; on the wall the Taylor series of the complex logarithm |
| C106 | `rho` at a node with the error function | substitution in the defining integral, telescoping sums, Gaussian integral |
| C107 | choice of the map with its checks, saving, origin and steps for `int_field` | decision logic for all settings; interpolation at nodes |
| C108 | `get_potential_electric_energy` with its grid; the record `U_sc_eV` | sums over the grid; induction over the history of field solutions |
| C109 | list of operations of a step | filter of the list to one cloud equals the duties; stages |
| C110 | rejection loop on draws | provenance of every entry; bounds |
| C111 | interleaving semantics of the processes | invariant relating every reachable state to the lockstep run, progress, decreasing measure |
| C112 | gathered buffer, reshape and mean; lockstep run | index computation of the flattened buffer, induction over the steps |
| C113 | loop over the clouds with the averaged density | closed form of the loop |
| C114 | calls of init.py, signatures, argument binding | evaluation of the binding, for all values of the settings |
| C115 | calls of init.py, signatures, argument binding | evaluation of the binding |
| C116 | construction as a function of descriptions and clouds, the extraction run included | induction over projectiles, processes and energies; lookup lemma |
| C117 | the extraction as written on top of generate and get_sigma | the per-projectile ionisation count and the macroparticle rounding bound of C46 |
| C118 | Python's str.split on character lists | lemmas on first and last occurrence of a separator |
| C119 | directories as a set of normalised paths | induction over time steps; splitting of paths into components |
| C120 | both calls with Python's argument binding | evaluation of the bindings for symbolic settings |
| C121 | sequence of interactions on shared solver state | induction over the sequence with C81 |
| C122 | output dictionary as association list with opaque values | lookup of successive updates, distinctness of the built-in names by kernel evaluation, prefixes for the names built from event types |
| C123 | save_only loop over the association list | induction over the list of names |
| C124 | file existence as a predicate on paths | case analysis on the existing files, counterexample file systems for every pair of names |
| C125 | reading of the three files followed by the keyword override (Model/Config) | composition of C57_kwargs and C57_read_files |
| C126 | chamber dictionary as list of keys, surfaces as requirements | equivalence proved by case analysis and induction over the clouds |
| C127 | constructor decisions | case analysis on the settings |
| C128 | the tracking of Model/PyHT with a recorder | induction over steps and slices, against the relation BunchRec; equality with the tracking without recorder |
| C129 | as C128, with the state of the solver for the beam | induction over the slices |
| C130 | as C128 for sequences of slices | induction over the slices |
| C131 | as C128 | composition of C128_recorded and C128_passive; direct for the violation |
| C132 | constructor decisions | case analysis |
| C133 | mean and sums over the particles of a slice | algebra |
| C134 | decision on the pattern, arrays with or without axis and of integer or float type, bunch train of Model/Timing | case analysis, then C65 |
| C135 | loading and scaling of the map | C107_nodes_partial for the scaled map, C22_zero_outside |
| C136 | the functions over the reals, with erf and the incomplete gamma function as integrals; the Simpson rule of scipy as any rule with weights given by the grid | derivative and fundamental theorem, C93; linearity of the rule; comparison of two derivatives for the violation |
| C137 | the masks of numpy on lists, the search as a loop over the edges with its three variables per trajectory | loop specification by induction, the walk along the boundary of C48 |
| C138 | files as values, arrays as shape and entries, errors as values | induction over the list of files and over the keys; entrywise comparison of transposes |
| C139 | cloud simulation as arbitrary functions, field interpolation as an arbitrary function | unfolding one slice, induction over the slices |
| C140 | Model/Observed: time steps with the histogram savers between cross ionisation and cleaning; two runs related step by step (same clouds, histograms of the same shape) by induction over operations and steps |
| C141 | histograms are additive in what they start from; measure = total or one bin; induction over operations and steps |
| C142 | Model/FullRun: Observed with the step-by-step savers; the simulation is additive in the counters of the cross ionisation, so that a run with emptied counters is related to the unobserved one by an offset, which the recorded series hold; samples related by induction over the steps |
| C143 | C90 with the gains split by origin, C142 for the recorded parts |
| C144 | Spec/Solo: settings, steps and states of one cloud alone; an operation on another cloud leaves the single state unchanged, one on the cloud acts on both alike and fails alike; induction over the operations and the steps, both ways |
| C145 | Model/Coupled: SimStep with cloudMotion of Timing, rhoRound and the schedule; the moved macroparticles equal a push of the old ones for trackers that write positions and velocities, and the run is a SimStep run |
| C146 | C144 per cloud for a given field, both ways; the sum of the densities is invariant under permutations; induction over the steps |
| C147 | Model/PhotoSetup: source, refusals and sampled circles; circle of radius 2R about a point within R contains the circle of radius R; counterexample a slim turned rectangle between two samples |
| C148 | Model/SegShare: columns of the chamber as shared or own arrays, the clouds one after the other; exact condition, values used instead, one cloud |
| C149 | Model/Checkpoint: file operations of the passages applied to the disk; induction over the passages |
| C150 | Model/Timing: cloudMotion with the tracker objects; equality by induction over the external sub-steps, exact solutions from C39 and C60 |
| C151 | Model/ImpCounter: counter of searches carried along the operations of the time steps; induction over operations and steps |
| C152 | Spec/Scale: scaled states and settings; every operation of the time step commutes with the scaling, induction over operations and steps |
| C153 | Model/Reload: contents of the file, load_state, the temporarily removed parts; the step is split at the savers, maintenance is shown to be the identity under stated conditions |
| C154 | Model/Clocks: all clocks of a saver, one call of witness, load_checkpoint; frame lemmas for each clock, induction over the steps |
| C155 | Model/SaveReq: the four init functions on values of the types that can be given, np.squeeze included; case analysis, with Model/Clocks for negative intervals |
| C156 | Spec/Mirror, Spec/MirrorFields: mirror image of states, settings and inputs; simulation relation through Model/SimStep and Model/Coupled by induction on steps; ring identities for the trackers; hat functions for the grid |
| C157 | Props/Emitted on Model/Impact: entry-wise description of the cloud after the step, from the masked assignment lemmas |
| C158 | Spec/Distribution (charge-weighted sums over the macroparticles), Lemmas/Distribution and DistributionRun: the motion is one map, an impact step is characterised by charge-weighted sums, sources append the same macroparticles, densities are such sums; induction over clouds and steps |
| C159 | Model/LoadMod: the file operations of a call as steps, a schedule names the call that makes the next one; invariant by induction over the schedule, decreasing number of operations; Spec/LoadMod: outcome wanted, no overlap |
| C160 | Model/Emission (velAngle and the three laws); Spec/AngleLaw: cone about the normal with a sector of azimuths; the set of draws is a rectangle up to null sets; integrals for the means |
| C161 | Spec/Liouville: volume of a set of electrons as six-dimensional Lebesgue measure; each sub-step is a measure-preserving shear followed by a drift, its velocity part a linear map of determinant one; composition over the sub-steps of the loop |
| C162 | Spec/Rejection: product measure of the draws, the conditional law and the ending of a loop; Lemmas/Rejection: a loop over a list acts on each entry alone, the first acceptable draw of an independent sequence has the conditional law (induction over the repetitions); Props/Rejection: the loops of the code |
| C163 | Spec/Converge: equation of motion, bounded rate of change, distance of two states; Lemmas/Converge: one Boris sub-step agrees with the equation of motion up to the square of its length, velocities stay bounded, errors add up (discrete Gronwall inequality); Lemmas/ConvergeRun: a motion of a cloud is a chain of sub-steps; Lemmas/ConvergeField: the fields of the code; Props/Converge |
| C164 | Lemmas/ConvergeStep: convergence of any one-step tracker that agrees with the equation of motion up to second order and a relative error of the force; Lemmas/ConvergeStrong: the dipole and the generalised tracker agree to second order, uniformly in the field down to the threshold; a motion of a cloud is one step; Props/ConvergeStrong |
| C165 | Model/LogFile: files by path, failing operations as input; Spec/LogFile: the passages up to the stop, and the lines they leave; induction over steps and clouds; the passages of a run from C41; Props/LogFile |
| C166 | Spec/Growth: yield bound of an emission model, charge brought by the sources; per operation bound from C18, C46, C90 and the regenerations (Lemmas/Growth), induction over the run; yields from C23, C31; Props/Growth |
| C167 | Spec/Balance: scalar and vector product, position half a sub-step before; Lemmas/Balance: law of one sub-step with the mean velocity, induction over sub-steps and steps; Props/Balance |
| C168 | Spec/Unbiased: cell of a point, charge in a cell, product of uniform measures; Lemmas/Unbiased, Lemmas/UniformDraws: counts per cell, exchangeability; Props/Unbiased |
| C169 | Spec/RegenOk: the random positions of a pass settle; Lemmas/RegenOk: termination of the rejection loops and of the passes; Props/RegenOk |
| C170 | softRegen and checkRegen over the reals, random numbers as a product of uniform measures | count as a sum of indicators or stochastic roundings; variance of a sum of independent terms, Popoviciu and Chebyshev inequalities of Mathlib |
| C171 | `ArrMem` (Model/Refs): arrays as objects, names, in-place writes, new arrays, recorders with and without copy | refinement to a diary of values (Spec/Refs) by induction over the history; frames of an overwriting solver |
| C172 | `errf` (Model/ErrF) against the integral `faddeeva` (Spec/Faddeeva), which is shown to have w(0) = 1 and w(z) + w(-z) = 2 exp(-z^2) | integration by parts gives the recurrence of the moments, induction over loop 30, contour turned by 45 degrees |
| C173 | `bassErsk` (Model/ErrF) against `lineField`, `roundField` (Spec/LineField) | loop 30 ends with 1/(2(s + rho)), rho = O(1/s); closed form 1/zeta - g/eta with explicit bound of the rest; limits |
| C174 | `bassErsk` (Model/ErrF) against `IsBeamField` (Spec/GaussBeam) | the exact formula solves the equations (derivative of the Faddeeva function), its values as integrals give the sign and the decay; uniqueness by Liouville's theorem; error of the routine from C172 |
| C175 | `resampleSey`, `extrapPars`, `polyfit1` (Model/Resample) with `seyTableOf`, `tabValue` (Model/Yield) against `OnCurve`, `SlopeAtMost`, `misfit` (Spec/Resample) | induction on the samples for np.interp and its slope; cells of the grid; residuals orthogonal to lines |
| C176 | `angleTable`, `cumtrapz`, `npLinspace` (Model/AngleTool) with `npInterp` (Model/Photo) against `areaTo` (Spec/AngleTool) and Lebesgue measure | induction on the nodes for interpolation of a table that does not fall; the set of random numbers lies between two intervals |
| C177 | `lineDensity`, `timeGrid`, `runLoop` (Model/Timing), `gasIonRate` (Model/Sources) against `chargeErr` (Spec/BeamCharge) | Poisson summation of a shifted Gaussian (theta function transformation of Mathlib), geometric bounds for the tails beyond ten lengths, C40 and C64 for the steps of the run |
| C178 | `intField` (Model/Grid), `AxMap.grid`, `bmapLoad`, `BSrc.getB`, `tabValue`, `XTable.getSigma` against `CurvedBy`, `FieldCurvedBy` (Spec/Accuracy) | f plus or minus M x^2/2 is convex, so the chord is within M h^2/8 of f; rows and columns of a cell in turn |
| C179 | `computeRho`, `intField` (Model/Grid), `trackSlice`, `ecKick` (Model/PyHT) against `EqualOpposite`, `forceOn` (Spec/Reaction) | C22_adjoint turns forces on particles into double sums over nodes, exchanged term by term; the factors of the kick cancel against line density and duration of the slice |
| C180 | `finePoints`, `fineSingle`, `refinedAxis`, `refinedProfile`, `toolProfile` (Model/RefineTool), `npInterp`, `runLoop` against `profileCharge` (Spec/RefineTool), `chargeErr` | sorted axis is the concatenation over the steps; sum over the parts of a step is a trapezoid correction, which telescopes; accuracy from C177 |
| C181 | `axisSlopes`, `linMapX`, `linMapY`, `splitMaps`, `isolateLinear` (Model/LinearPart), `polyfit1`, `argminAbs` against `mapAt`, `nearAxis` (Spec/LinearPart), `misfit` | invariants of the loops that fill columns and rows; splitting of the misfit; sums over slices |
| C182 | `yieldECLOUD`, `seyTableOf`, `tabValue`, `seyValues` (Model/Yield) against `Tabulates` (Spec/YieldTable) | derivative bound of the yield curve and mean value inequality; subadditivity of the square root; the angle as a factor and a change of energy |
| C183 | `typeCurve`, `extractTypes`, `fpTypes`, `extractEneType` (Model/FPExtract), `seyFPModel` against `IsElastic`, `IsRediffused`, `IsTrueEvent` (Spec/FPExtract) | induction over the points; every event code belongs to one kind of event; sums over events by kind |
| C184 | `npStd`, `dummySize`, `sliceGasPos`, `sliceGas` (Model/SliceSize) against `meanOf`, `varOf` (Spec/SliceSize) | image of the product of two standard normal laws under an affine map; sum of squares vanishes iff every term does |
| C185 | `uniformProc`, `seyProcess`, `accProcess`, `seyValues`, `extractSey` against `flaggedCharge`, `uniformDraws` (Spec/EmitMean, Spec/Unbiased) | integral of an indicator of the draw, linearity over the product of the laws, variance of independent sums and Chebyshev's inequality |
| C186 | `mainReads`, `cloudReads`, `beamReads`, `viewOf` (Model/ReadNames), `readParams`, `overrideKw`, `cloudConfig`, `updateConfig` with the tables in use | what C57 and C79 say about accepted files, and inclusion of the transcribed lists of names in the tables |
| C187 | `cloudReads`, `beamReads`, `viewOf` against `ignoredInCloud`, `AgreeBut` (Spec/ReadNames) | equality of the views where the files agree on all names read, inequality at a name that is read |
| C188 | `gasGenerate`, `photoGenerate`, `photoSegGenerate` in sequences (`PrimCall`, `primRun`, Spec/PrimaryMean) | charge of a call as reference size times rounded number, induction over the calls, linearity of the integral and Chebyshev's inequality (C185) |
| C189 | `Proc.generate`, `xCounts`, `xNew` (`placedCharge`, Spec/CrossMean) | the new charge as a sum of rounded numbers over the projectiles, linearity of the integral, mean of the stochastic rounding and Chebyshev's inequality (C185) |
| C190 | `Proc.generate` | each new macroparticle traced to a positive rounded number of ionisations (C46_products), which needs a positive number of ionisations |

## Where the code does not satisfy the property

In these cases the negation is proved about the faithful model (theorem names ending in `violated`), together with the part that does hold (`_partial`).

* C02 a soft regeneration in which no macroparticle survives loses the whole charge.
* C05, C06 one new macroparticle added to completely filled arrays is broadcast into an empty slice: nothing is stored, no error, and the live count exceeds the capacity.
* C08 `add_uniform_MP_distrib` does not reset the last-impact time of the slots it fills.
* C09 `init_from_dict` resets the last-impact times it is given.
* C10 a soft regeneration called directly after `init_from_dict` counts the charge of dead slots; the simulation loop cleans first.
* C13 for axis sizes that are multiples of 4 a coordinate exactly at the negative end is put into another cell.
* C26 the flat low-energy model returns the reflected yield as an alias of the total yield.
* C29 energies below the first table entry wrap to the last one; the step of the table is rounded to three decimals.
* C32 Furman-Pivi true secondaries that come as a single emission keep the impact velocity if the batch has no added macroparticle; absorbed macroparticles are parked at the origin with size 0 until the next cleaning.
* C38 a `B_skew` of another length than `B_multip` is broadcast or raises.
* C42 the first recomputation after the space charge is switched on can come one period late.
* C44 a step shorter than half a sub-step gives no sub-step at all; with an arbitrary profile from file the configured step, not the spacing of the file, is used.
* C46 the density of an ionisation target can become negative.
* C48 the correction for impacts that the edge loop does not find never runs, because its guard compares with a mask that is always false; the z coordinate is then 0.
* C51 the probe densities are one sample shorter than the time axis.
* C54 with an empty cloud the detailed histogram of the previous passage is saved again.
* C55 five crash windows around the replacement of the checkpoint files leave no usable checkpoint.
* C56 step series, hit-time series, energy histograms and the space-charge energy are not restored.
* C62 the multipole tracker of an additional cloud takes the number of sub-steps of the main input.
* C70 star polygons and polygons with repeated vertices are accepted.
* C76 the checkpoint is written before cleaning and regeneration, which the restarted run therefore skips.
* C79 cloud files of the same base name in different folders write into the same output file.
* C80 the frozen field map ignores `enable_kick_x`, `enable_kick_y`.
* C81 the first motion of each bunch uses the field left in the solver by the previous bunch.
* C82 asynchronous regeneration is not suspended by the skip flags.
* C84 round beams divide by zero (nan).
* C86 the profile of a secondary beam is looked up under the name of the primary's file; without a progress path the construction raises.
* C87 the time derivative divides by the configured `Dt_sc`, not by the time between recomputations; at the first recomputation it is taken against the empty solver; `load_state` overwrites the vector potentials by the scalar one.
* C92 the truncation of the Poisson numbers at `M_cut` makes the mean number of emitted electrons smaller than the yield; the deficit is bounded by the Poisson tail.
* C94 with energy conservation the total is compared with the impact energy only for the first electron and one other at a time.
* C95 in the slice-by-slice mode the frozen map also kicks slices marked as not interacting, and is not restarted by the first slice of the first bunch, as the cloud is.
* C96 with `t_end` > 0 the steps after the start of the last saved passage are not in the main output file, and since `N_pass_tot` can count a passage that is never simulated, an accepted `save_mat_every` can leave the run without any output file.
* C97 with several clouds the stop file ends the run from inside the first cloud's saver: the other clouds have not recorded the step nor written their file for that passage, so the outputs end at different times.
* C98 the extraction tests only the segment with index 1 of a chamber with a yield per segment, and fails for a chamber of one segment.
* C99 with `extract_sey` and a charging chamber the test impacts charge the segment with index 1, so the simulation starts from a charged surface.
* C100 `phem_cdf` with a negative first entry or of a wrong length is accepted at start-up; the generation then fails or ignores segments.
* C101 the angular flags of the manual (`flag_costheta_delta_scale`, `flag_costheta_Emax_shift`) are passed to some emission models only; ACC_LOW and cos_low_ene ignore them silently; `E0` is passed as a keyword that three models do not have.
* C102 an unknown `photoem_flag` is found in the first time step only; `gas_ion_flag` other than 1 and the default `t_ion=-1` silently mean no ionisation; the impact management of an additional cloud gets `flag_lifetime_hist`, `Nbin_lifetime_hist` and `lifetime_hist_max` of the main files, so that a cloud with a flag of its own stops with an AttributeError.
* C103 macroparticles of `filename_init_MP_state` outside the chamber are accepted.
* C104 `E_init` is not the energy of the initial electrons: their kinetic energy is at most `E_init/4`, on average `E_init/12`; all electrons of one call share one velocity.
* C105 an elliptical chamber higher than wide is accepted with `computeBE`, and every entry of the beam field map is `nan`; so is a node on a focus of the ellipse.
* C107 the axes of a beam field file are not checked: with unequal or decreasing steps the field is interpolated at wrong places.
* C108 `U_sc_eV` in the main output is 0 at every field solution; nothing computes it.
* C110 a rectangular photoelectron energy distribution wider than twice its mean gives negative energies, whose velocity is nan; nothing checks it
* C111 Nothing checks that the processes of a parallel run have the same space-charge settings; with different Dt_sc a process waits for ever in Gather (C111_unequal_settings_violated).
* C112 space_charge_electromagnetic.recompute_spchg_emfield ignores the communicator: in electromagnetic mode every process keeps the field of its own clouds (C112_electromagnetic_violated).
* C113 With a communicator cloud.rho of the last cloud (also with a single cloud) is the averaged density minus the densities of the other clouds of the process, not the density of the cloud (C113_last_cloud_violated).
* C114 Nbin_En_hist, En_hist_max, Nbin_lifetime_hist, lifetime_hist_max, flag_lifetime_hist and cos_angle_width of a cloud file are ignored by the impact management (the saver uses the cos_angle_width of the cloud), N_sub_steps of a cloud file is ignored by the BorisMultipole tracker, flag_cos_angle_hist never reaches the impact management, and the mandatory t_ON_regen_low is not used anywhere (C114_ignored_violated, C114_t_ON_regen_low_violated).
* C118 The output name is cut at the first `.mat` or `__iter` wherever it stands; a restart name without `Pyecltest` is appended to the old output name.
* C119 With several clouds, movies and an output folder the directory looked for and the one made differ by a slash: the second time step fails.
* C120 Thirteen settings of the saver fall back to their defaults at the first interaction in PyHEADTAIL.
* C121 The first motion of the electrons in an interaction takes place in the field left in the shared solver by another e-cloud; twins overwrite each other's output.
* C122 User-defined observables override recorded quantities of the same name without a message; `sey_test_E_impact_eV` is saved as a tuple of length one (trailing comma).
* C124 Profile files of secondary beams: the `.mat` variant is looked for under the primary beam's name. Surface files in the package folder `sey_files` are found but the bare name is loaded.
* C125 `machine_param_file` and `secondary_emission_parameters_file` given by keyword are accepted without effect.
* C127 Electromagnetic space charge with Dt_sc = None is accepted and fails with a TypeError at the first field evaluation after a recomputation.
* C129 The beam quantities recorded for an empty or non-interacting slice are those of the slice tracked before it.
* C130 `finalize_and_reinitialize` orders the records and empties them at once; `probes_position` in the slice-by-slice mode makes the first slice fail.
* C131 `track_once_and_replace_with_recorded_field_map` on an e-cloud that has tracked before skips the bunch and freezes an older record, or raises.
* C133 For beams with beta < 1 the residual-gas ionisation by a slice is too large by 1/beta: the duration of the slice uses beta, the rate does not.
* C134 A filling pattern file with integer intensities and a configured bunch length below one metre gives a beam without bunches, silently; a file with a single bunch is refused with a TypeError.
* C135 The axes of a magnetic field map are not checked: with varying steps the field at its nodes is another one.
* C136 `true_sec_energy_PDF` with the binomial choice uses the binomial coefficient of the number asked for in all terms, where it cancels; `backscattered_energy_CDF` and `rediffused_energy_CDF` have fixed default parameters (2 eV, 0.5) instead of those of the model.
* C137 For a trajectory that ends exactly on a wall geom_impact_poly.py finds the wall and the compiled class does not; for an exit through a corner the first takes the last wall and the second the first wall; geom_impact_poly.py does not check the orientation of the polygon, and takes the inside for outside if it is clockwise.
* C138 `permissive=True` does not cover the first file, nor files that open but lack the group or a data set; `myloadmat` turns arrays of one element into scalars (which breaks, for example, filling patterns with one bunch, C134).
* C147 is violated: the circles are tested at 10000 angles only, and a slim convex chamber between two of them is accepted (gen_photoemission_class.py:150-164); `photoemission_from_file` does not check its radius at all (213-240).
* C148 is violated: `np.float64(chamb.del_max_segments)` is the chamber's own array, and the assignment to its negative values (sec_emission_model_ECLOUD_nunif.py:102-108) is seen by all clouds built later, which therefore use the parameters of the first.
* C151 C151: the chamber has one counter for all clouds, increased also by the search that places photoelectrons; the same accumulated number is saved with every cloud (the plotting example labels it as the number of impacts of a passage).
* C153 load_state restores the clouds, beams and space charge but not the cross ionisation: target densities used up before the restart are full again and the ionisation rate is too large (cross_ionization.py:162-166, buildup_simulation.py:487-494)
* C154 load_checkpoint restores t_last_En_hist (that of the last cloud, for all clouds) and the checkpoint clock but not t_last_lifetime_hist (though it is in the file), t_last_save, i_obs, i_obs_sim: histograms and samples come at other times, and MP_state_0 and simulation_state_0 are overwritten with the state just after the restart (buildup_simulation.py:542-547)
* C155 a file with a single time is squeezed to a number: len raises TypeError, which _MP_state_init takes to mean that nothing was asked (pyecloud_saver.py:911-918) and _sim_state_init does not catch (948); -1. is not recognised as -1 (514, 557)
* C156 the normal at the centre of an elliptical chamber is (-1, 0) whatever the trajectory (geom_impact_ellip.py:177-193, arctan2(0, 0) = 0); grid nodes on the lower edge take particles, those on the upper edge do not (compute_rho.f guard)
* C158 cleaning at the beginning of a passage removes small macroparticles one by one, so that the result depends on how the charge is divided (C158_cleaning_violated); intended
* C159 the temporary directory is named by the process number only and removed as a whole at the end of each call (input_parameters_format_specification.py:125-128, 154): overlapping calls of one process get the wrong file or fail (C159_wrong_file_violated, C159_nested_violated)
* C161 with N_sub_steps > 1 and flag_reinterp_fields_at_substeps off (the default) the electric field of the position at the start of the step is kept for all sub-steps, and the motion does not preserve phase-space volumes in a non-uniform field (`C161_frozen_violated`, `C161_frozen_cloud_violated`); the same holds for one step of the strong-field trackers (`C161_dipole_violated`)
* C165 the saver of each additional cloud truncates the log file it is given; clouds that do not set their own log file inherit that of the main input, so that the lines of the clouds before are lost.
* C167 With the default flag_reinterp_fields_at_substeps = False the electric field is kept during the sub-steps of a time step. An electron bound by a linear force, as in the field of a beam, then gains energy in every time step, whatever its length: the area of an orbit in phase space grows by the factor 1 + (omega dt)^2 (n-1)/(2n) per step with n sub-steps (C167_heating_violated).
* C168 A soft regeneration selects the survivors irrespective of their sizes and rescales all of them with one common factor. With unequal sizes this favours the electrons of small macroparticles: with sizes 1 and 3 thinned to a target of one, the mean charge of the first grows from 1 to 5/4 (C168_soft_violated).
* C175 the example scripts 000_example_generate_mat.py and 001_generate_sey_mat_from_ECLOUD_model.py in other/sey_files call SEY_model_from_file with flag_factor_costheta, which its constructor no longer takes, and without the two flags it requires; they stop with a TypeError after the table has been saved. C175 is about the table.
* C180 the tool that refines profiles repeats times, i.e. gives time steps of zero length, when the refined window reaches into the next slot (`t_end_refine >= b_spac`); `C180_overlap_violated`.
* C187 cloud files may set `Nbin_En_hist`, `En_hist_max`, `Nbin_lifetime_hist`, `lifetime_hist_max`, `flag_verbose_file` and `flag_verbose_stdout`, but `init.py` takes these from the main input for every cloud; `t_ON_regen_low` must be given in the simulation file and is read nowhere.
* Also seen, without a claim of its own: the strong-field tracker divides by zero when the field and the threshold are both 0; in whole-bunch mode the new passage is flagged on the slice tracked last.
