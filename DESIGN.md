# Formal model of cosmonaut-ok/PicoPIC in Lean 4 — design

## 1. What is modelled and how

PicoPIC is a C++ particle-in-cell code.  The Lean project `/verif/lean` contains

* **model modules** (`Verif/Model/*.lean`): the functions of `/repo`, one Lean definition per C++ function or loop body;
  each definition cites the file and the lines it models and says where it simplifies;
* **helper lemmas** (`Verif/Lemmas/*.lean`);
* **specifications** (`Verif/Spec/*.lean`): small definitions that state what a property means without using the model's
  helpers;
* **property theorems** (`Verif/Props/*.lean`): the theorems `Cnn_…` of `properties.jsonl` / `MANIFEST.json`, with
  non-vacuity examples beside them.

Conventions used everywhere:

* **Numbers.** `double` is modelled by an exact ordered field `K` (theorems hold for every such field, in particular ℚ,
  where the model is executable) or by ℝ where `sqrt`/`log` are needed.  Floating point rounding, overflow, NaN and
  `-ffast-math` are *not* modelled except where a definition says so (`C42_rounding_fails` computes with IEEE doubles,
  `C36_*` with the rounding of a quotient to `float`); this is the main gap between a theorem and the running program.
  A division by zero or a value that would be NaN is the outcome `ub` of the model, never a number.
* **Integers.** `size_t`/`int` are `Nat`/`Int` except where the width matters; there the conversion is written out
  (`toU32`, `% 2^16`, ...).
* **Outcomes.** `Pico.Res` is `ok value`, `fatal` (`LOG_S(FATAL)`, which aborts the process) or `ub` (undefined
  behaviour: access outside an array, null or uninitialised pointer, uninitialised value that decides something).
  Uninitialised memory is an arbitrary parameter of the theorem.
* **Loops** are folds (`Pico.loop`) over index lists in the order of the code; `while` loops are inductive relations
  (`While`), so that termination is a statement and not built in.
* **Random numbers** are arbitrary functions or arguments; theorems hold for all of them.
* **Names.** `Cnn_x` states property `Cnn`; `Cnn_x_partial` states it under extra hypotheses; `Cnn_x_fails` (also
  `…_ub`, `…_race`, `…_deadlock`, `…_mutates`, ...) proves that the code as modelled violates it.


## 2. Plan and result per property

`proved`: the statement of `properties.jsonl` holds of the model as stated.  `partial`: it holds only under the
hypotheses of the `_partial` theorems; the theorems named `…_fails` (or otherwise listed in the last column) prove that
the model — that is, the code as written — violates it in the remaining cases.

| id | title | model and proof | result |
|----|-------|-----------------|--------|
| C01 | Grid element operations: read-after-write and frame | `Grid` = real sizes + cell function, accessors are UB outside; case analysis on the index | **proved** for all grids, element types, indices; 32 bit wrap of negative indices included |
| C02 | Clearing a grid | loops of `operator=(T)`, `overlay_set` as folds; fold-over-disjoint-cells lemma | **proved** for all sizes, contents and scalars |
| C03 | Overlay exchange between two neighbouring domains | `overlay_x`, `overlay_y` loops with their assignments in order; closed form: sum on the shared band | **proved** for all grids and contents; the two grids are assumed to be different objects |
| C04 | Diagonal overlay exchange | `overlay_xy` with the indices as written; closed form on squares, UB otherwise | **partial** false for non-square grids (C04_nonsquare_*: undefined behaviour or wrong values); proved for square grids |
| C05 | Stitching a chain of domains | colour sweeps over a chain of grids; induction over the interfaces | **proved** for every number of domains, every size (width at least 2*o_s, which C05_narrow shows to be needed) and content |
| C06 | Stitching at a corner where four domains meet | any number of equal domains; contents of every cell after the pass as a sum over the copies | **partial** C06_cells_partial: for every arrangement of equal domains, every cell holds after the pass the sum of all copies except those of the two antidiagonal neighbours; false of the code: C06_lost (general), C06_corner_incomplete (one copy misses a contribution), C06_nonsquare_ub |
| C07 | Domains tile the simulation area | `bot = n*i/d` tiling; arithmetic of `Nat` division | **proved** for every number of domains and cells |
| C08 | Slab split among processes | process slabs; theorem for divisible, counterexamples otherwise | **partial** proved when the number of processes divides the number of cells; C08_uneven shows the general statement is false of the code |
| C09 | Particle hand-over conserves particles | collector as a function on a matrix of particle lists; invariants per sweep | **partial** proved when the domains divide the area evenly; false otherwise: C09_uneven_wrong_domain, C09_uneven_ub, C09_empty_domain_ub, C09_same_id_duplicates |
| C10 | Species identity used by the hand-over | 16 bit hash on bit level; collision witness | **partial** C10_collision: two different names get the same id; proved: names that differ only in the last character get different ids |
| C11 | Concurrent hand-over of particles never touches the same domain | footprints of the visits of one colour; arithmetic, commutation; race for the hand-over | **partial** false: C11_handover_race (two concurrent visits access the same domain); the overlay sweeps are C67; C11_race_fails shows the race for every division into three or more rows, C11_rows_partial that there is none when no domain gets particles from both sides, C11_two_rows that one or two rows are always safe |
| C12 | MPI neighbour exchange makes progress and is symmetric | transition system of n ranks with bounded buffers; measure and deadlock invariant | **partial** termination, delivery and equal sums proved for every number of processes and schedule when the library buffers one round of items; C12_deadlock: otherwise no schedule finishes |
| C13 | Density weighting conserves the macroparticle weight | `weight_cylindrical` over an ordered field; field arithmetic | **partial** exact shares and totals for the denominators the code uses; C13_true_volume_fails: the denominator of the outer ring is not the volume of that cell because the CELL_VOLUME macro argument is unparenthesised, so charge density times true cell volume does not sum to the particle charge |
| C14 | Density weighting is local, non-negative and inside the map | `weight_cylindrical` over an ordered field; field arithmetic | **proved**  |
| C15 | Magnetic field stays divergence free | Yee update loops as folds; closed form of the loops, then algebra and induction over runs | **proved** per domain, for every history of electric and magnetic steps, deposited currents and overlay contents |
| C16 | Gauss law increment of the electric field update | Yee update loops as folds; closed form of the loops, then algebra and induction over runs | **partial** proved at every node off the axis and on the axis; C16_corner_fails: false at the node next to the corner of axis and z=0 wall, because E_z(0,0) is never updated |
| C17 | Charge continuity of the current deposition | `simple_current_distribution` and the path splitting over ℝ with `Real.log`; telescoping over the pieces | **proved** for every move inside a cell along one axis or along both, with components either 0 or at least MNZL; the purely axial branch writes the radial current over (C19_axial_erases), so its total is stated for a grid without radial current |
| C18 | Charge continuity for moves across cell borders | `simple_current_distribution` and the path splitting over ℝ with `Real.log`; telescoping over the pieces | **partial** proved for every path between neighbouring cells in general position (starts off the borders, no crossing at a cell corner, pieces of at least MNZL) and for sets of such particles; false otherwise: C18_corner_fails, C18_border_start_fails, C18_jump_dropped, C18_radial_fails |
| C19 | Current deposition accumulates | order of deposits; commutation lemma and witnesses | **partial** accumulation and order independence proved for particles that do not move along the axis only and away from the last row/column; false otherwise: C19_axial_erases, C19_overlay_lost, C19_order_matters |
| C20 | ZigZag deposition totals | ZigZag deposits; algebra | **partial** radial and axial totals exact and relay points proved for every move, the call as a whole is the sum of the deposits in any order (C20_call_partial, C20_order_partial); the azimuthal total carries the factor 1+(1-Wr2)(Wz1-Wz2) (C20_phi_fails) |
| C21 | Conducting walls | Yee update loops as folds; closed form of the loops, then algebra and induction over runs | **proved**  |
| C22 | Absorbing layers only damp | Yee update loops as folds; closed form of the loops, then algebra and induction over runs | **proved**  C22_start, C22_start_free: at the start of a run (C110) the conductivity of every cell of every domain is that of the configured left, outer and right layers at the place of the cell in the chamber, whatever the division; zero away from the layers. |
| C23 | Field interpolation to particles | four point gather; linear combination with explicit weights | **partial** exact weighted sums, non-negative local weights; false: a uniform field is always seen weaker (C23_uniform_fails), part of E_phi goes into E_z (C23_components_mix), division by zero within half a cell of the axis (C23_axis_division) |
| C24 | Configured external field is applied | profile selection on strings; case analysis | **partial** proved: magnetic const_z applied exactly, none, unknown magnetic names rejected; false: electric fields are never applied nor checked (C24_electric_fails), other magnetic profiles are accepted and ignored (C24_magnetic_ignored_fails), missing parameter is undefined behaviour |
| C25 | Magnetic field does no work on particles | pushers over ℝ; vector algebra, induction over histories of fields | **partial** Vay: only with c = 1, false in SI units (C25_vay_fails); Higuera-Cary: only without field or H_phi = H_z = +-H_r, false otherwise (C25_hc_fails) |
| C26 | Default push keeps particles below the speed of light | pushers over ℝ; vector algebra, induction over histories of fields | **partial** false: C26_adaptive_fails (a strong electric field pushes a slow particle beyond c, the next push aborts); the relativistic pushers are C72; C26_history_partial: with kicks smaller than the room between the switch and the speed of light the default pusher keeps every particle below it for ever; C26_classic_partial: one push with the classic pusher |
| C27 | Push is a function of state and fields | pushers over ℝ; vector algebra, induction over histories of fields | **partial** proved above the switch; below it the default pusher depends on an uninitialised variable (C27_indeterminate) For whole runs: every run of the relativistic build is a possible run of the default build (C27_possible); the two builds have the same runs as long as all particles are faster than the switch (C27_fast_run_partial); as long as none is faster the runs of the classical build are possible as well (C27_slow_possible); and the default build can always go on (C27_goes_on). |
| C28 | Kinetic energy of a particle | relativistic functions over ℝ; square root inequalities | **partial** non-negative, monotone, agreement above the switch proved; false: energies differ between the two switches (C28_energy_gap), mass 0 is accepted (C28_massless_energy) |
| C29 | Wall reflection | reflection loop as a `While` relation; invariant and measure | **partial** termination, unique result between the walls, successive mirror images proved for every particle whose local coordinates are not exactly zero and domains of more than one cell between opposite walls; false otherwise: C29_zero_fails, C29_one_cell_diverges |
| C30 | Return from Cartesian move to the r-z plane | per particle functions; algebra, floors | **partial** radius, z and length of the velocity proved; the straight line motion is false: the velocity is rotated in the wrong direction (C30_straight_line_fails), and behind or on the axis C30_behind_axis_fails, C30_axis_division |
| C31 | Macroparticle weights represent the density | weights and placement loops; sums over lists | **partial** proved for domains off the outer and right wall, for every list of particles, and summed over the domains of one process; false at the outer/right wall (C31_wall_fails) and for several processes (C31_processes_fails) For whole starts (every placement, every division of the chamber), C31_profile and C31_start_partial compare the weights of each species in each domain with the configured density profile. |
| C32 | Initial placement inside the domain | weights and placement loops; sums over lists | **partial** proved: modes flat/random place exactly the configured number within the shifted area and follow the profile, centered cells, rounding up to a multiple, regular loop; false: C32_flat_outside_fails (positions outside the domain), C32_centered_count_fails, C32_regular_count_fails (fewer particles than configured) |
| C33 | Low-discrepancy generator range | digit loop; strong induction | **proved** exact value (digits mirrored behind the point), range, injectivity, termination; base one does not terminate (C33_base_one) |
| C34 | Beam injection windows | beam state machine; invariant over steps | **partial** safety in every history, counter bound, completeness for the corner domain with a gap of more than one step proved; false: outer domains only get the first bunch (C34_outer_domain_fails), bunches without distance lose steps (C34_gap_fails), positions beyond the radius by half a cell (C34_radius_fails) |
| C35 | Cell binding | per particle functions; algebra, floors | **partial** proved for positions that are not negative; C35_negative_fails: the cell number wraps around for negative ones; C35_beam_fails: injected beam particles get a wrong z cell |
| C36 | Pairing of unlike particles covers every particle | pairing loops on index lists; counting | **partial** proved for exact quotients; with the rounding to float one particle is missed (C36_rounding_fails, C36_cell_fails) |
| C37 | Every occupied cell collides | pairing loops on index lists; counting | **partial** exact characterisation C37_partial: cell and all cells before it in the row; C37_fails: an empty cell hides the rest of the row |
| C38 | Binary collision conserves momentum and energy | binary collision formulas over ℝ; algebra of the centre-of-momentum frame, sums over lists | **partial** SK98 and P12 conserve relativistic momentum and energy exactly whenever their result is defined and not one-sidedly rejected (C38_SK98_partial, C38_P12_partial); false: TA77S never conserves momentum (C38_TA77S_fails) nor energy (C38_TA77S_energy_fails); opposite momenta and axial velocities give NaN; the rejection of P12 stops a particle; small random numbers give NaN in P12 |
| C39 | Post-collision correction restores the cell totals | binary collision formulas over ℝ; algebra of the centre-of-momentum frame, sums over lists | **partial** proved when the species had and has two different velocities in the cell; C39_cold_fails: nothing is restored for a species with a common velocity (a single particle), C39_pair_fails end to end |
| C40 | Like particles collide | binary collision formulas over ℝ; algebra of the centre-of-momentum frame, sums over lists | **partial** false: particles of equal mass never collide in SK98 and P12 (C40_like_fails), nor if the heavier one has the smaller weight (C40_heavy_fails); C40_SK98_partial: otherwise both are deflected |
| C41 | Sorting particles to collision cells | pairing loops on index lists; counting | **partial** proved for particles bound to cells of the domain, kinds by the two ion names; C41_kind_fails: ions with other names count as electrons; C41_outside_fails: wrong cell numbers are written outside of the array |
| C42 | Output frames are consecutive | main loop, writer and dataset as a state machine; induction over steps | **partial** proved for exact time, schedules 1..65535 and up to 2^31 steps; false: schedule 0, schedules from 65536 (unsigned short in the writer), any late clock, and in IEEE doubles with step 0.1 (C42_rounding_fails: frame 3 never, frame 4 twice) |
| C43 | Number of simulated steps | main loop, writer and dataset as a state machine; induction over steps | **proved** for exact time; the run starts at 0 whatever start is configured (C75) |
| C44 | Rectangular probe output is assembled exactly | probe rectangles against the tiling; string functions of paths | **partial** proved when no radial edge of the rectangle lies on an inner domain boundary and the area is below 32768 cells; C44_edge_fails, C44_short_fails otherwise |
| C45 | Pause and resume do not affect output | signal handler and main loop as a transition system; induction over signal histories | **partial** histories without a pause request proved; waiting and resuming proved; false: pause inside a step, every output after a resume, exit signals when paused or after the end |
| C46 | Probe configuration | probe rectangles against the tiling; string functions of paths | **partial** rectangles, and the reader for rectangles and dots proved; false: column, row and dot probes are undefined behaviour, empty rectangles, the reader always opens row/column 0, two probes in one group abort, unknown components |
| C47 | Division of the macroparticles over the domains | configuration arithmetic; sums over lists, decision logic | **partial** C47_domains_partial: never more than the amount, and less than one per domain is lost; C47_domains_fails: the remainder of the division over the domains is lost |
| C48 | Configuration limits are enforced | configuration arithmetic; sums over lists, decision logic | **partial** domain counts and densities proved; false: time steps are never rejected, zero domains pass, only the last electron-like species counts, ions are found by name, the Debye length uses exchanged temperatures. C48_messages_partial and C48_configured_partial: exact conditions of all messages, from the configuration; C48_particles_fails: the square of the number of rows is taken for the number of cells. |
| C49 | Map smoothing and interpolation | averaging loops; order | **partial** bounds and constants proved for all cells but the first; false: cell (0,0) is never set, bicubic does not interpolate at all and is undefined without overlay |
| C50 | String and command line helpers | string functions; list induction | **partial** splitting proved for strings without empty parts and without a delimiter in front; C50_split_fails, C50_config_fails, C50_multiple_fails |
| C51 | Run duration report | string functions; list induction | **partial** false: the text is printed into a buffer of one byte for every elapsed time (C51_fails); with a large enough buffer C51_partial C51_text_partial: the text character by character. |
| C52 | Vector functions leave their operands alone | vector class with the values and the side effects; algebra against `Fin 3 → K` | **partial** false: cross, abs and pow overwrite their operand (C52_*_mutates), compound assignment with a component of the vector itself (C52_alias_fails) |
| C53 | Each domain uses the global cell size | `bot = n*i/d` tiling; arithmetic of `Nat` division | **partial** proved when the domains divide the cells; C53_cell_size_uneven: false in every other case |
| C54 | Gauss's law is kept by a whole time step | `simple_current_distribution` and the path splitting over ℝ with `Real.log`; telescoping over the pieces | **partial** proved for sets of particles on paths in general position (see C18) at inner nodes of one domain; on other paths the code does not conserve charge (C18_*_fails) |
| C55 | Push follows the Lorentz force | pushers over ℝ; vector algebra, induction over histories of fields | **partial** Vay with c = 1; false for Vay in other units and for Higuera-Cary (see C25_vay_fails, C25_hc_fails) |
| C56 | Electric field updates obey Ampère's law | Yee update loops as folds; closed form of the loops, then algebra and induction over runs | **partial** proved for all cells but the corner on the axis, where C56_corner_fails |
| C57 | Azimuthal current of a particle | azimuthal deposit; sums of shares | **partial** shares and total proved with the volumes the code uses, for particles that stay in a cell (total: any move); false: the inner node has a wrong volume (C57_volume_fails), wrong sign when the particle crosses a row (C57_crossing_fails) |
| C58 | Creation of the output directory | file system as a finite map with interleaved other processes | **partial** success and failure reports proved without a trailing slash and without other processes; C58_slash_fails, C58_race_fails |
| C59 | Momentum map of a species | maps as folds over particles; sums | **partial** mean of the relativistic momenta proved for particles below REL_LIMIT within a domain; C59_fast_fails: no relativistic factor from REL_LIMIT on; C59_border_fails: particles of the neighbour domain are left out |
| C60 | Energy map of a species | maps as folds over particles; sums | **partial** proved for particles of one common speed below REL_LIMIT; C60_mean_fails: different speeds give less than the mean energy; C60_fast_fails: no relativistic factor from REL_LIMIT on |
| C61 | Temperature map of a species | maps as folds over particles; sums | **partial** non-negative and zero for cold beams when the energy map was computed just before; C61_negative_fails: otherwise it uses absolute momenta of an earlier call |
| C62 | The division into domains does not change the fields | fields of all domains + overlay passes; windows of the undivided area as an invariant over steps | **proved** all equal divisions (chain or squares) with at least two cells per domain, any number of steps; the exact exchange order of the code; uneven divisions change the cell size (C53), other 2-D layouts are undefined (C06) |
| C63 | The division into domains does not change the fields seen by particles | four point gather on windows; witness run | **partial** holds for chains and everywhere off the cells where four domains meet; there it is false: the high-low and low-high overlay corners are never exchanged (C63_corner_fails, C63_run_fails) |
| C64 | Magnetic field updates obey Faraday's law | Yee update loops as folds; closed form of the loops, then algebra and induction over runs | **proved** all cells, all contents |
| C65 | Macroparticle budget | configuration arithmetic; sums over lists, decision logic | **proved** for budgets below 2^32 and sizes that are not negative |
| C66 | Vector algebra | vector class with the values and the side effects; algebra against `Fin 3 → K` | **proved** against the vector space K^3 of Mathlib, any field |
| C67 | Concurrent overlay exchange never touches the same domain | footprints of the visits of one colour; arithmetic, commutation; race for the hand-over | **proved** every layout; exact footprints, disjointness, commutation of concurrent visits |
| C68 | Velocity and momentum are converted without loss | relativistic functions over ℝ; square root inequalities | **proved** over the reals |
| C69 | Pairing of like particles covers every particle | pairing loops on index lists; counting | **proved**  |
| C70 | Command line options | string functions; list induction | **proved**  |
| C71 | Boris push: Lorentz force without work of the magnetic field | pushers over ℝ; vector algebra, induction over histories of fields | **proved** over the reals; adaptive Boris included for the work of the magnetic field, with any value of its uninitialised flag |
| C72 | Relativistic pushes keep particles below the speed of light | pushers over ℝ; vector algebra, induction over histories of fields | **proved** over the reals, every history of fields |
| C73 | Dataset paths identify probes | probe rectangles against the tiling; string functions of paths | **proved** for the component names the program knows |
| C74 | Reflection keeps the kinetic energy | reflection loop as a `While` relation; invariant and measure | **proved** whenever the reflection ends (C29 says when) |
| C75 | Configured start time and step are respected | main loop, writer and dataset as a state machine; induction over steps | **partial** false: C75_start_fails (the start has no effect), C75_step_fails (steps that are not positive are accepted and the run never ends); C75_zero_partial: positive steps and intervals that start at zero are run through exactly |
| C76 | Energy balance of the fields in a closed chamber | one step as a linear map in the walls; discrete Poynting theorem by telescoping the energy flow; sum over steps by induction | **proved** exact arithmetic; single domain with walls on all sides and the axis (C62 carries it over to divided areas) |
| C77 | Stability of the field solver | energy as positive form minus the square of the curl; the curl is bounded by the electric field (shifted sums) | **proved** exact arithmetic; the electric field pointwise, the magnetic field in the energy norm |
| C78 | Particles start below the speed of light | velocity distributions over the reals with NaN as a value; algebra of the two formulas, induction over the particles | **partial** false for hot species: C78_rectangular_fails, C78_eigen_fails, C78_thermal_fails (the three components are bounded, not the velocity), C78_start_fails (velocity not a number), C78_too_few_energies_fails; proved below the stated temperatures |
| C79 | The initial velocities have the configured temperature | velocity distributions over the reals with NaN as a value; algebra of the two formulas, induction over the particles | **partial** false: C79_rectangular_fails (two thirds of the temperature), C79_eigen_fails (twice, and all velocities equal), C79_hotter_fails (jump where the formula changes); the zero temperature is proved for all three |
| C80 | Thermal energies are sampled for every particle | sampling loop with the two tables of the source entered in full; the tables are checked entry by entry to be monotone, then the broken line through them is monotone for all arguments; induction over particles and rejected turns | **partial** false: C80_table_end_fails (read past the table), C80_zero_draw_fails, C80_small_draw_fails (hot species: energy -1 or not a number); proved for random numbers within the tables. That the sampling ends is not claimed (it depends on the random numbers); the distribution of the energies is not modelled |
| C81 | Larger random numbers give larger energies | sampling loop with the two tables of the source entered in full; the tables are checked entry by entry to be monotone, then the broken line through them is monotone for all arguments; induction over particles and rejected turns | **partial** false in both tails: C81_low_tail_fails (constant 4/3 for 3/4), C81_high_tail_fails; proved within the tables |
| C82 | Currents of the ZigZag method and the charge they move | bilinear shares as hat functions; divergence of the deposits of the two halves of a move, cell by cell; sums over calls | **partial** proved for cells of unit size (C82_continuity_partial); false otherwise: the currents miss the cell sizes (C82_cell_size_fails) |
| C83 | Density seen by the collisions | sums over the particles of a cell; the rates of the three algorithms as functions over the reals, compared with one formula of the theory | **partial** proved for domains at the axis; false in all others: C83_shift_fails (unparenthesised macro) |
| C84 | Temperature seen by the collisions | sums over the particles of a cell; the rates of the three algorithms as functions over the reals, compared with one formula of the theory | **partial** false: C84_fails, C84_drift_fails (mean motion counted, 3/2 T instead of T); C84_temperature_partial says by how much |
| C85 | Debye length of a cell | sums over the particles of a cell; the rates of the three algorithms as functions over the reals, compared with one formula of the theory | **proved** positive weights and masses, exact arithmetic |
| C86 | Strength of the collisions | sums over the particles of a cell; the rates of the three algorithms as functions over the reals, compared with one formula of the theory | **partial** proved for TA77S and charged particles (order only for unequal weights); C86_log_value pins the Coulomb logarithm, C86_P12_fast_partial the parameter of P12 for fast particles; false: C86_neutral_fails, C86_P12_density_fails, C86_P12_rest_fails, C86_SK98_fails |
| C87 | Particles crossing between processes | local classification by induction over the sweep with exact queue contents; the exchange simulates the one of C12 with the number of receives filled in; insertion; the three parts composed for all processes | **partial** proved for even divisions and particles that move at most one slab and do not leave diagonally, for every schedule and buffering with which the exchange ends; false: C87_escape_fails (diagonal or far moves are undefined behaviour), C87_deadlock and C87_rendezvous_fails (all processes send first) |
| C88 | What a density probe shows | maps of all domains as memory; shape invariants; the exchange pass by the induction of C63 over any order of domains; support of the shares; induction over the list of probes | **partial** preparing never fails; right everywhere but at inner corner cells if the last probe preparing the species is a density probe; right always without a division; false: C88_corner_fails (share of the diagonal domain is missing), C88_order_fails (a later temperature, energy or momentum probe of the species removes the shares of the neighbours) |
| C89 | Configured species parameters are used | configuration lists as folds with the rejecting cases as outcome; lookup by induction over the list | **partial** proved for whole charges and masses; false: C89_mass_fails, C89_charge_fails (fractions cut off), C89_negative_fails (negative mass wraps around) |
| C90 | Names identify species and beams | configuration lists as folds with the rejecting cases as outcome; lookup by induction over the list | **partial** rejection proved exactly within species and within beams (C90_unique); a probe finds its species unless a beam has that name with the prefix (C90_clash_fails) |
| C91 | Configured geometry is used | conversions with their undefined cases; floor arithmetic | **partial** proved for whole positive numbers of cells and fractions between 0 and 1; false: C91_layers_fails (too wide or overlapping layers accepted), C91_negative_fails (undefined behaviour), C91_fraction_fails, C91_domains_fails |
| C92 | Fields of several processes | the exchange of columns as closed form for every schedule (by C12); a process is a window of the cut area (C62 applied twice); domain of dependence by induction over the steps | **partial** proved for even divisions: the processes compute exactly the fields of an area cut at their borders (C92_cut_partial), so the first step is right everywhere and after n steps all cells n columns away from the borders (C92_far_partial), for every schedule; false next to the borders from the second step on (C92_border_fails, C92_ex_fails): the magnetic field of the solver is not exchanged between processes |
| C93 | Rectangular probes written by several processes | a process as an area of its own with the probe dimensions of the whole; every cell written by exactly one writer; induction over the writers in any order | **partial** proved if the number of processes divides the number of columns and no border between domains along the radius coincides with an edge of the rectangle; false otherwise: C93_uneven_fails (the last column is never written) |
| C94 | Density shown by several processes | a process as a world of its own columns of domains; C88 applied to it; support of the shares | **partial** right everywhere but in the first column of a process and at inner corner cells (C94_inside_partial); C94_border gives exactly what is missing; false: C94_border_fails |
| C95 | What energy, momentum and temperature probes show in a divided volume | invariant that the overlays of calculated maps are empty, so that every exchange adds zero; frame conditions for the other probes; induction over the list of probes; support of the shares | **partial** every domain shows the value of its own particles (C95_own), which is the value of all particles at every cell not in the first row or column of an inner domain (C95_inside_partial); false there: C95_row_fails, C95_column_fails (the exchanges add only zeros) |
| C96 | Currents of a divided volume | deposition in a domain is the shifted deposition of the whole area; the overlay pass sums the copies (C06); what lies around a path decides which copies matter | **partial** exact contents for every division and all particles, both schemes (C96_zigzag_exact_partial, C96_vb_exact_partial); equal to the undivided volume when no path cuts the corner of a domain (C96_zigzag_partial for all three components, C96_vb_partial for the radial and axial ones); false otherwise: C96_corner_fails, C96_azimuthal_fails (the azimuthal current of the second scheme is always lost at borders of domains) |
| C97 | Whole runs | the main loop as a relation between states with a heap of particles; invariant by induction over the steps, from the theorems about pushers, moves, hand-over, deposition and fields | **partial** both deposition schemes; proved without reservation for an undivided chamber when light travels at most half a cell per step (C97_single); for any division and the Courant limit as long as no particle arrives exactly at the lower or left border of its domain (C97_step_partial, C97_run_partial); false otherwise: C97_border_fails (such a particle is not held by the walls and the next step is undefined). Without collisions, beams and external fields C97_classical_partial: the same for the build with the classical pusher as long as the electric force does not bring a particle to the speed of light. C97_neutral: for uncharged species every pusher, the default one too, has exactly one run. |
| C98 | Runs do not depend on the division | simulation relation between the divided and the undivided run, kept by every step: C62 for the fields, C63 for the push, one closed form of the move for all domains, C09 for the lists, C96 for the currents; induction over the steps | **partial** proved for any number of steps as long as no particle arrives exactly at a border of its domain, is in a cell where four domains meet diagonally, or cuts the corner of a domain (C98_run_partial); for domains in a row only exact borders are excepted (C98_chain_partial); false otherwise: C98_corner_fails (with a concrete step). ZigZag deposition, without collisions, beams and external fields |
| C99 | Currents of several processes | the current step of each process, then the exchange of C92 between neighbours; sum over the domains of all processes as in C96 | **partial** exact contents for every number of processes and division and all particles, both schemes (C99_zigzag_exact_partial, C99_vb_exact_partial); equal to the undivided volume when no path cuts a corner (C99_zigzag_partial, C99_vb_partial); false otherwise: C99_corner_fails (at borders between processes also those corners are lost that one process takes into account). The exchange ends whenever the buffers hold one message per domain row |
| C100 | Laws of the fields in whole runs | the runs of C97; the defect of Gauss law after the next electric step is an invariant: C16 for the field step, C18 and C96 for the currents; C15 and C21 for the magnetic field and the walls | **partial** proved without reservation: no magnetic sources and conducting walls in every run from zero fields, any particles, both schemes, any admissible division (C100_magnetic, C100_walls); Gauss law with the Villasenor-Buneman scheme at all inner nodes and on the axis (but for its first two columns) as long as the paths of all particles are in general position with respect to cells and domain corners and no particle arrives exactly at a border of its domain (C100_gauss_partial, C100_gauss_axis_partial); false otherwise, see C18_corner_fails, C19_axial_erases, C96_corner_fails. Insulating media without conductivity |
| C101 | Whole runs of several processes | the main loop of all processes together; each process is an area of its own (C92, C99), the hand-over that of C87; invariant by induction over the steps; two runs related by the renaming of the schedule | **partial** both deposition schemes, every number of processes, equal slabs: proved for any number of steps as long as no particle arrives exactly at the lower or left border of its domain (C101_step_partial, C101_run_partial) and the buffers have room for one message per domain row and one per particle; the result is the same for every schedule and amount of buffering (C101_schedule_partial); false otherwise: C101_buffer_fails (with smaller buffers no step ever ends), C97_border_fails. Without collisions, beams and external fields |
| C102 | Collision steps | whole collision step on a heap of particles with lists of addresses; invariants of the loops over cells and pairs; induction over steps | **partial** TA77S: proved to complete for all random numbers and shufflings (C102_TA77S, positive masses and weights, fewer than 2^24 particles in a domain); all methods: only velocities change (C102_only), untouched cells stay (C102_idle). SK98 and P12 may be undefined for axial velocities (C38_axial_fails). C102_names_fails: species with other names than electrons and ions leave the members of the collisions uninitialised C102_names: the masses and charges the collisions use are those of the last species called electrons and of the last called ions. |
| C103 | Collision steps conserve momentum and energy | whole collision step on a heap of particles with lists of addresses; invariants of the loops over cells and pairs; induction over steps | **partial** proved for TA77S per cell and kind if the velocities of the kind differ before and after the step; C103_fails: one electron and one ion in a cell, every deflection changes the total momentum |
| C104 | Collisions let electrons and ions relax | whole collision step on a heap of particles with lists of addresses; invariants of the loops over cells and pairs; induction over steps | **partial** refuted for TA77S: C104_fails, over any number of steps each kind keeps its own momentum and energy (as long as its velocities differ), so there is no friction and no exchange of heat |
| C105 | Collisions keep particles slower than light | whole collision step on a heap of particles with lists of addresses; invariants of the loops over cells and pairs; induction over steps | **partial** proved for SK98 and P12 (C105_relativistic); C105_fails: with TA77S an electron that meets an ion head on at half the velocity of light or more is faster than light after every sufficiently large deflection |
| C106 | Whole runs with external fields and collisions | one relation for a whole step with external fields and collisions (any random numbers), runs as an inductive relation; invariant of sane states by induction; refutation by a pair that scatters above the velocity of light | **partial** proved: the velocities of every step are defined for all external fields and TA77S (C106_speeds); with SK98, P12 or no collisions every state reached in an undivided chamber is sane and has all particles (C106_single), and without collisions the run goes on for ever (C106_external); with several domains under the two conditions SlowNext and ClearNext on the states reached (C106_run_partial). C106_TA77S_fails: an electron and an ion that meet fast enough, random numbers exist for which the run ends in the next step, because a particle faster than light ends the run (C106_light_fails) C106_force, C106_felt: with external fields the particles are pushed as in the cell by cell sum of the computed and the external fields. |
| C107 | Superposition of fields | induction over the steps of the field solver on the closed form of one step: it is linear, and every cell uses only neighbours; the divided volume by refinement (C62) | **proved** undivided volume and any division into domains, any weights, any number of steps; zero sources and fields stay zero |
| C108 | Fields spread at most one cell per step | induction over the steps of the field solver on the closed form of one step: it is linear, and every cell uses only neighbours; the divided volume by refinement (C62) | **proved** undivided volume and any division. One cell per step is faster than light if c dt is smaller than a cell; the bound is attained (ex_moves) |
| C109 | Whole runs with particle beams | the main loop with injection as a relation (PicBeam); injection by the specification of C34, flight by cases plasma / beam with the lemmas of C97 and C09, induction over the steps; refutations for the axis, the outer wall and Gauss's law | **partial** C109_single is complete for an undivided chamber and time steps in which light travels at most half a cell (all beams, all random numbers, any number of steps); in divided chambers without particles that arrive exactly at a border or on the axis. Refuted in full: C109_axis_fails (beam particle exactly on the axis: undefined), C109_radius_fails (beams as wide as the chamber lose particles in the step of their injection), C109_gauss_fails (the injected charge appears without its field) |
| C110 | From the configuration to an endless run | the constructors and distribute as a relation between a configuration with its random numbers and a first state (PicStart); positions by C32, cell numbers by C35, speeds by C78 and C80; the first step with particles up to half a cell outside their domains by the lemmas of C97, then C97 and C109; existence with addresses coded by pairs of numbers; two refutations | **partial** C110_single and C110_beams are complete for an undivided chamber, cold species and time steps in which light travels at most half a cell: every state in which the loop can begin (and C110_exists: there is one) leads to runs of any length; C110_run_partial for divided chambers as long as no particle arrives exactly at a border. Refuted in full: C110_outside_fails (the default placement puts particles outside their domains; after the first step they are where they belong), C110_hot_fails (hot species with the eigen distribution end the run in the first step) |
| C111 | A run and its output file | the output of a pass (preparation of maps, writers, datasets that grow) as a function of the state the pass has reached, attached to any sequence of states; induction over the passes with C42, C44, C88 and C95 for one output; C97 and C98 for the runs, C43 for the number of passes | **partial** any history of states with the particles in their domains (C111_fields_partial, C111_maps_partial, C111_kept), complete runs of the main loop in an undivided chamber (C111_single, no cells excepted), divided against undivided runs under the hypotheses of C98 (C111_division_partial). The step number is exact (no rounding of the clock). Not covered because false of the code: probes whose radial edges are on a border between domains (C44), first rows and columns of inner domains for maps (C88, C95), temperature without an energy probe before it (C89, C95), schedules 0 and from 65536 on (C42). Frame f shows the state after f*schedule+1 steps: the state before the first step is never in the file |
| C112 | External fields do not depend on the division of the volume | closed form of the external fields per domain (C24) against that of the area, then the four nodes a particle reads (C23): a node beside the domain has a weight exactly at a border | **partial** equal in all cells of the domains (C112_cells_partial) and for all particles that are not at a border of their domain (C112_seen_partial, at least half a cell from the axis). Refuted in full: C112_border_fails, away from the walls a particle sees a homogeneous field weaker exactly if it is within half a cell of an inner radial border or in the last column before an axial one, since nobody fills the overlays of the external fields |
| C113 | The default placement fills the volume evenly | digits behind the point as residues modulo a power of the base, bijectively; the two bases are coprime, so a box is one residue class of the particle number (Chinese remainder theorem), and residue classes are counted | **proved** C113_even counts the particles of the model's placement; C113_sequence is the statement about the generator. The boxes must be coarser than MNZL = 1e-15, by which zeros are replaced. Exact arithmetic: the digits are not rounded |
| C114 | A neutral plasma starts without charges and keeps Gauss's law | places and weights are functions of number and densities alone; charges are grouped by them and cancel; then C100 from the initial state of C110 | **partial** C114_total (every placement) and C114_start (all placements but the random one) are full; C114_random_fails: with the random placement the charges at the nodes are not zero while the fields are, so the fields never belong to the charges; Gauss's law needs paths in general position (C18, C96, C100), no absorbing layers, and that particles begin in their domains (C110; automatic in an undivided chamber, C114_gauss_single_partial) |
| C115 | The configuration file is read as it is written, nothing else in it matters, and it is recorded with the results so that reading the record gives the same configuration | Model/Config: JSON values, each init function of cfg.cpp as a reader with fatal for a missing or mistyped value (uncaught exception) and ub for a conversion that does not fit, the JSON value kept by the program, write_metadata. Spec/Config: what a file says, every value by its path. Proof: one equivalence per section of the file, put together. | **partial** C115_read: reading gives c exactly if the file says c (Spec/Config, by paths). C115_unused: other keys do not matter. C115_again: the stored configuration is read alike. C115_start: attributes of the output file for a complete build. Refuted parts: C115_comment_fails, C115_probes_fails, C115_ratio_fails, C115_builds_fails, C115_fields_fails. Text of the file, parser and serializer (picojson, not in the repository) are not modelled. |
| C116 | The analysis library opens the results of every run and shows the run that was made | Model/MetaReader: the reader as partial function of the stored JSON value, none for a raised exception. Spec/MetaReader: which entries it needs and what showing a configuration means. Proof: C115 gives the stored value and what it says; the reader's accesses are paths in it. | **partial** C116_shows_partial: opened and shown as used, if the entries the reader wants are there. C116_places_partial: rows and columns, for whole numbers of cells. C116_frames: frames and times. Refuted parts: C116_open_fails (exactly the other files), C116_plot_fails, C116_layers_fails, C116_amount_fails, C116_names_fails, C116_places_fails. Python floats are exact numbers here. |
| C117 | An accepted configuration file leads to a complete run: nothing undefined happens, no particle is lost, and the results of every probe in the file are there at the end | Model/PicConf: Conf (C115) to Setup (C110), BEnv (C109), OEnv (C111) with numeric constants. Spec/PicConf: usable files. Proof: the hypotheses of C97, C109, C110, C111 follow from what the file says (C115) and the checks (Limits). | **partial** Model/PicConf gives the constructors with the constants of the program. C117_sane: an accepted usable file without message about the time step makes a sane simulation (C110). C117_cold: temperatures. C117_run_partial: from the file to the complete output, undivided chamber, no beams. C117_beams_partial: with beams. C117_divided_partial: divided, as long as no particle arrives exactly at a border. Refuted: C117_schedule_fails. `Usable` lists what the program does not check. |
| C118 | Energy in whole runs: the fields lose what they do as work on the currents, the particles gain the work of the electric field | Spec/PicEnergy: energies and works. Fields: the glued fields of a run are a wholeRun (C62), then C76. Particles: the push changes gamma by the work (C71), moving and reflecting keep the speed. Induction over steps. | **partial** C118_fields: field energy of whole runs (C76 lifted to divided chambers with particles). C118_kinetic_partial: work-energy theorem for every particle over any number of steps, relativistic Boris pusher. C118_neutral: uncharged particles, all pushers. C118_run_partial: both for the unique run from a sane state without fields. Missing: kinetic energy with the other pushers (C25 refutes it for Vay and Higuera-Cary); the two works are not compared with each other, the code does not conserve the total exactly. The total of fields and particles, which users take for conserved, is not: C118_total_fails shows that in every run from a chamber without fields it grows in the second step as soon as the moving particles have changed the charge at an inner node. |
| C119 | The analysis library returns what the run recorded | Model: the file as h5py shows it (datasets of the probes, groups), indexing with negative numbers, numpy assignment with stretching, every reading function of h5_reader.py and reader.py with exceptions as none. Proof: one lemma from the dataset found at the path of the writer (C46) to all answers; datasets from C111 and C117; paths by C73; the failing functions by computation for all arguments. | **partial** C119_fields_partial: after any run C111 covers, all questions about recorded fields and currents are answered with the values at the steps of the frames (frames, from the end, beyond the end, columns, rows, points, ranges of frames and points). C119_conf_partial: from the configuration file through the run and the metadata to fields, currents and maps of species (one domain, what C117 needs). C119_unrecorded: nothing else is found. C119_columns_partial, C119_rows_partial: ranges of columns (rows) of rectangles over all rows (columns). Refuted: C119_direct_fails (col, row, dot and their ranges never find anything; col_range returns zeros or fails), C119_open_end_fails (no range without an end), C119_columns_fails (other rectangles fail, those of one row are stretched over the chamber), C119_place_fails (rows and columns of the chamber, which the scripts in tools/ pass, are counted from the corner of the rectangle). Missing: temperature maps and maps in divided chambers at the seams (C111), the cache, other spellings of paths. |
| C120 | Collision partners are drawn at random, independently in every cell | Model std::random_shuffle of the GNU library as the fold of swaps with the draws reduced modulo the position, and random_sort as the loop over the cells with a stream of draws for each. Prove preservation by permutations, existence and uniqueness of the draws for each order by induction on the last element, and the dependence on the seed by naturality of the shuffle in the elements. | **partial** C120_sort: the sorting never fails and keeps the particles of every cell, whatever the random numbers (this is the relation the collision steps of C41, C102 to C106 use). C120_fair: every order of a list arises, from exactly one sequence of draws in which draw k is one of k + 2 numbers; so fair draws give a fair order. C120_every: with free random numbers every combination of orders of all cells is possible. Missing, since it is false: independence. random_sort seeds the generator with the clock, in seconds, before every cell, C120_second_fails: within one second the order depends on the numbers of electrons and ions alone, so that all cells with the same numbers, in all domains and time steps of the second, are arranged alike. The numbers of rand() themselves are not modelled (any sequence per seed); rand() % n is not exactly fair when n does not divide RAND_MAX + 1. |
| C121 | The results do not depend on the number of threads nor on their schedule | Model each parallel loop as: every visit is cut in any way into atomic actions that access the memory of the visit, executed in any interleaving. Prove that actions with disjoint memory commute, hence that a loop over visits with pairwise disjoint memory ends as the sequential loop does, and that the visits of one colour are disjoint; compose the loops to steps and runs. | **partial** C121_fields and C121_currents hold without conditions: all interleavings of a field step or of the currents, with the exchanges of overlays, end as the sequential program does. C121_handover_partial: likewise the hand-over of particles, as long as no domain gets particles from the row of domains below and from the one above in the same pass. C121_step_partial and C121_run_partial: whole steps and runs under this condition (and that of C97, no particle exactly on the border of its domain). C121_two_rows: with one or two rows of domains the condition always holds. C121_single: undivided chambers, without conditions on the run. Missing, since it is false: three or more rows, C121_rows_fails: two threads append to the list of the same domain, and its order depends on the schedule even if appending were atomic (it is not: a data race, C11). Not included: collisions (all threads share the generators of random numbers), beams, output, and the counters of messages, which all threads increment. |
| C122 | Strong P12 collisions only lead to a message | Model the sums s_mean, L_mean, ncol beside the collisions (CollideReport.lean), with the read of an uninitialised local as ub; shadowing argument: the sums do not influence the collisions; then the mean of numbers at most 1.2 is at most 1.2. | **partial** C122_quiet_partial: with no collision stronger than 1.2 the whole step equals the collisions alone. Refuted in general: C122_strong_fails (whenever at least one collision is counted and all are stronger than 1.2, the program adds to local doubles that were never initialised). ex_collides shows that a counted collision takes place for every strength. Missing: steps whose strengths lie on both sides of the limit. C122_exact: whether a report is made, for all strengths, mixed ones too; C122_still: pairs without relative speed do not count. |
| C123 | What happens far away along the axis does not matter before it can arrive | One field step reads the neighbouring columns (cause_fields), the interpolation reads three columns (seen_near), a particle moves by less than a column (landed_range), a deposition touches the columns around its path (zz_support). Together: agreement on [lo, hi] gives agreement on [lo + 4, hi - 4] after a step (step_alike); induction over the steps. Model: Pic.Step; Spec/PicCause defines the agreement. | **partial** C123_run_partial: two runs of undivided closed chambers (lengths n and n'), ZigZag currents, relativistic pusher, that are alike in the columns lo … hi are alike in the columns lo + 4 k … hi - 4 k after k steps; both runs exist and are unique. C123_left_partial: up to the left wall nothing is lost at the low end. Missing: divided chambers (the seams of C98 break the agreement with the undivided chamber) and the Villasenor-Buneman scheme, whose result depends on the order of the particles (C19). |
| C124 | Charges, masses and weights matter only in fixed combinations | Two computations side by side: every stage of the step (field update, exchanges, interpolation, pushers, motion, hand-over, deposition) maps scaled inputs to scaled outputs (relation between results including errors); the converse by scaling back. | **proved** C124_step and C124_run: for any environment, state and factors a, b that are not zero the next states (states after n passes) of the changed simulation are exactly those of the original one with the same change (Env.rescaled, State.rescaled: paths, cells and domains unchanged, weights times b, fields and currents times a b, permittivity and conductivity unchanged). Both schemes, all five pushers, any division; undefined behaviour, fatal errors and endless reflection happen in both or in neither. C124_conjugate: a = -1, b = 1. C124_similar: b = 1/a, fields unchanged. Exact arithmetic. Collisions, beams and external fields are not part of this step (a collision frequency does not scale this way). |
| C125 | How charges are packed into macroparticles does not matter | Everything a step does to a macroparticle depends on its point of phase space only and the ZigZag deposition is linear in the weight; sums over macroparticles become sums over points of phase space. Induction on the steps. | **partial** C125_run_partial: undivided closed chamber, ZigZag deposition, relativistic pusher, light at most half a cell per step, sane states (Alive), possibly different lists of species; SameCloud (same fields and currents in the chamber, same sums of weights at every point of phase space for all charged species and any others one asks for, same state of macroparticles that both have) holds after every number of steps, and both runs exist and are unique. C125_split_partial: the special case that every macroparticle is replaced by parts whose weights add up. C125_tracers_partial: additional macroparticles without weight or of species without charge; all other macroparticles stay identical. C125_vb_fails: with the other scheme (the default) the claim is false: a macroparticle without charge that moves along the axis wipes out the radial current of the others in its cell. Divided chambers follow through C98 where C98 applies. Exact arithmetic. |
| C126 | A plasma at rest stays at rest | A standing particle deposits nothing in either scheme (ranges of cells included), all pushers map zero velocity and zero fields to zero velocity, the field update is linear; induction on the steps. | **proved** C126_step, C126_run: every chamber, every division into domains, all five pushers including the adaptive one, both schemes: the next state is unique and nothing of it differs (Unchanged: same macroparticles in the lists of each species, same places, velocities and weights, same media; AtRest: all components of the fields and currents zero). C126_cold: from the configuration on (Sane, all temperatures zero, any placement, velocity distribution, density profile, charges and layers, undivided chamber). The charges do not matter: the program never solves the electrostatic problem, so even a cloud of one sign at rest has no field (compare C114, which says how far the initial state is from Gauss's law). Exact arithmetic, main loop without collisions, external fields and beams. |
| C127 | A simulation can be repeated | The lists of particles are related position by position through a renaming of addresses; every stage of a step (fields, pushes, hand-over, deposition, output) preserves the relation; the initial placement and velocities are functions of configuration and random numbers. | **proved** C127_addresses: for every chamber, division, pusher, scheme and state (sane or not) each run from one of two states that differ in the addresses only (Readdressed) has its counterpart from the other; the states stay so. C127_start: same configuration and random numbers begin Readdressed. C127_quiet, C127_certain: placement flat, centered or regular and velocities eigen: whatever the random numbers are. C127_results: undivided chamber, relativistic pusher, light at most half a cell per step: from the configuration to all datasets (record, C111), for all lists of probes. C127_divided_partial: divided chambers as long as no particle lands exactly on a border. C127_random_fails: with the random placement, two executions that draw different numbers are different from the beginning. The default pusher reads an uninitialised flag (C27), so that nothing can be said about its runs here. Main loop without collisions, external fields and beams; exact arithmetic; threads: C121. |
| C128 | The table of progress lists the frames that are recorded | The table as a list of lines with the counter of the header; induction over the turns and the probes against a list of due frames; membership of lines and of entries of the file's log is compared turn by turn for an arbitrary rounding function; lengths of padded texts. | **partial** C128_rows: the whole table with exact arithmetic of the clock, less than 2^31 turns and 2^32 lines. C128_file_partial: its lines are the frames in the file of C42. C128_agree_partial: for every rounding of the clock, as long as neither the table nor the output fails; so the lines follow the file even where rounding skips a frame (example with doubles). C128_columns, C128_whole: the text of the lines. Missing for the full claim: schedules from 65536 on, with which the table announces frames the writers do not write (C42_short_fails). How a stream shows the time and the text of the duration (C51) are parameters. Only the first process prints the table; the frames shown hold the state one step after the model time (C111). C128_lines: a header of three lines before every thirty rows; C128_short_fails: the schedules for which table and file differ. |
| C129 | The same simulation in other units | A structure of factors from which the factors of all derived quantities follow; every model function is shown to commute with the conversion (relation between results including failures), up to the whole step; the converse by converting back. | **partial** C129_fields: one update of the fields with all overlays, no conditions. C129_step_partial, C129_run_partial, C129_all_partial: whole steps (fields, push, motion, reflection, hand-over, currents) with a pusher of Boris and the default deposition, when no particle has moved purely radially from one cell into another (Straight). Missing for the full claim, because the code does not do it: C129_radial_fails (purely radial paths of the default deposition), C129_zigzag_fails (zigzag deposition), C129_vay_fails and C129_hc_fails (pushers of Vay and of Higuera and Cary): for every change of the unit of length, or of velocity, there are inputs whose results are not the converted ones. |
| C130 | Whole runs with beams, external fields and collisions together | The step is composed from injection, fields, external fields, push, collisions, motion, hand-over and currents of the existing models; sanity is an invariant; the cell numbers of injected particles are followed into the lists of the collisions. | **partial** C130_without_beams, C130_plain, C130_plain_back: the step with a feature switched off is that of C106 or C109. C130_step_partial, C130_next_partial: one step, with collisions of a relativistic method or none, when the collisions can sort the beams (C130_sortable_partial: narrow beams) and no particle arrives exactly at a border. C130_single: all states of all runs in an undivided chamber; C130_external: without collisions the run goes on for ever. Missing for the full claim, because the code does not do it: C130_collisions_fails, C130_rows_fails (all random numbers), C130_numbers_fails: wide beams in a build with collisions make the first step of a bunch undefined behaviour; C130_cell_fails: injected particles collide in cells in which they are not. That the number of particles stays below 2^24 is a hypothesis. |
| C131 | What configure was asked for is what is built and recorded | The script as a function from optional texts to a build or an error; tables of the documented names as specification; the record through C115_start. | **partial** C131_built: exactly which arguments are accepted and which program results, for every text; C131_ends: otherwise an error; C131_defaults: defaults as documented. C131_recorded: the attributes name the pusher, distributions, deposition, debug and IEEE modes asked for. C131_same_partial: equal records mean equal choices of these and of one or several threads. C131_rounding: what the IEEE and single thread options mean for the compiler. Missing for the full claim, because the code does not do it: C131_hidden_fails (collisions, their scheme and layers are not recorded; for several processes and external fields see C115), C131_help_fails (the default pusher is not the documented one), C131_word_fails (any word but yes switches an option off silently), C131_scheme_fails (an unknown scheme is accepted while collisions are off). Searches for compilers and libraries are not modelled. |
| C132 | The cache of the analysis library returns what was stored | Directories, files and shared arrays as a small world; the cache as functions on it; refinement of histories to a map by induction with an invariant. | **partial** C132_kept_partial: for every history of any number of caches in different directories, with plain names as keys and lists of numbers, with restarts and crashes anywhere: all answers are the expected ones, and only a crash leaves a part of what was being stored. C132_memory: within one process for all keys and shapes. C132_import: what importing the library does. Missing for the full claim, because the code does not do it: C132_shape_fails (shapes are lost with the process), C132_directory_fails (keys with a directory), C132_clash_fails (two keys, one file), C132_absolute_fails (keys that begin like the paths of datasets are shared by all caches), C132_stale_fails (two users of a directory), C132_changed_fails (no copy is kept), C132_crash_fails (storing is not atomic). File system without links, permissions and limits. C132_found: which keys a newly made cache finds. Refuted also for keys with `..`, which leave the directory (C132_parent_fails). |
| C133 | What the summary of recorded results foretells is what the run does | Model `phys_info` as a function of what the reader shows (Model/PhysInfo.lean) and compare it with the beam of C34, the loop of C43 and the checks of C48; the mean number per macroparticle is an integral over the random number. | **partial** C133_shown gives the printed numbers in terms of the beam the program injects; C133_window, C133_bunches_partial and C133_passage compare the times, C133_steps_partial the number of steps (one too few at most, if the run starts at zero), C133_number_partial the number of particles (macroparticles that divide evenly, radii of the right mean). Refuted: later starts (C133_start_fails), fewer macroparticles than bunches (C133_few_fails), the mean number per macroparticle (C133_mean_fails), Debye length of the program (C133_debye_fails), files without species called electrons or without beams (C133_electrons_fails, C133_beams_fails), further beams (C133_first_fails). |
| C134 | Figures show the data where they are | Model the numbers that go to the drawing library (Model/Figure.lean), including the decimal rounding of labels; compare ticks with the linear scale between the end points. | **partial** C134_ticks (labels within three significant digits of the coordinate, whatever the request), C134_number (longest axis between the guessed number and twice as many intervals, all axes the same length of interval), C134_image, C134_colorbar, C134_asked_partial (requests other than zero are honoured). Refuted: an axis from zero in a figure that begins elsewhere (C134_zero_fails), reversed figures (C134_backwards_fails), numbers of ticks of figures without sizes (C134_ignored_fails), labels of short third axes (C134_third_fails), subplots with a size of their own (C134_width_fails). |
| C135 | Time steps the program accepts keep the fields bounded | Connect the model of the check (Model/Limits.lean) with the field solver. Bounded part: the Courant number of C77. Growth: fields with alternating signs obey, row by row, a recursion with non-negative coefficients whose diagonal is at least 4, so their increments never shrink (Props/TimeStep.lean). | **partial** C135_half_partial: if even twice the time step would be accepted, the electric fields of every closed chamber stay bounded for all histories of currents and all media. Refuted beyond that: for square cells every step from nine tenths of the largest accepted one up to it lets the fields grow beyond all bounds after a single pulse (C135_fails; the general limit and the rate are in C135_grows). Not decided: steps between half and nine tenths of the largest accepted one; absorbing layers and particles. Sharper and for every division of the chamber: bounded if seven quarters of the step are accepted (C135_sharper_partial, C135_divided_partial), unbounded growth from five sixths of a cell on in chambers of at least 3 x 8 square cells (C135_sharper_fails, C135_divided_fails). |
| C136 | The functional test accepts results exactly when they agree with the stored ones | Model the statistics over the values that are numbers, the comparison with its forgotten assignment, the tries and the exit status (Model/TestRun.lean); compare with variance as mean square minus squared mean. | **partial** C136_smoke_partial, C136_ext_partial: exact conditions of success (deviation and variance; up to four runs, of which one has to agree and the earlier ones have to be complete); C136_accepts: full agreement is never rejected; C136_rejects; C136_collected, C136_same: collected values are those of a single run, which passes against them. Refuted: the means are not compared, so that results with any offset, sign, order of cells or cells without numbers pass alike (C136_fails, C136_smoke_fails, C136_offset_fails). |
| C137 | The performance test reports slowdowns | Model the average and the verdict (Model/Perf.lean) and compare with the mean of the earlier commits. | **partial** C137_failed: exact limit, 11 n / (10 n - 1) times the mean of the n earlier commits; C137_sound: failures are slowdowns of at least a tenth, commits that are not slower pass. Refuted: slowdowns between a tenth and that limit pass (C137_diluted_fails), a single commit always passes (C137_alone_fails), runs that crash pass (C137_crash_fails). |
| C138 | The metadata tool shows the part it is asked for | Model the replacement of brackets, the reading of the resulting chain and the look-up (Model/Subtree.lean) and compare with the value at the path. | **partial** C138_shown, C138_sound: paths of plain keys show exactly what the record has there; C138_refused: exactly when a message is given; C138_bo, C138_comment, C138_whole: the other options. Refuted: everything inside lists (species, beams, probes) ends with a trace of the interpreter (C138_lists_fails), and texts that are no paths are run as programs (C138_program_fails). |
| C139 | Notebooks run with the values that are asked for | Model the stored form of a line and the stream editor's leftmost longest match (Model/Nbrun.lean); compare the stored result with the stored form of the wanted line. | **partial** C139_set_partial, C139_run_partial: lines with an end of line are set, the last value counts; C139_kept: lines that assign to none of the variables and have no text in double quotes that begins like such an assignment are kept. Refuted: the last line of a cell is never set (C139_last_fails), texts in quotes are cut off (C139_quoted_fails), values with an equals sign are cut off (C139_value_fails). |
| C140 | A simulation without rotation stays without rotation | Specification in Spec/PicPlane.lean (particles, fields and currents of rotation are zero). Show for each function of the step (solver, interpolation, pushers, advance, currents, overlay, injection, external profiles) that its result has no rotation if its input has none, whatever the outcome of its bounds checks; then induction over the steps (Props/PicPlane.lean). | **proved** C140_step, C140_run: plasma alone, any division of the chamber; C140_beam_step, C140_beams: with beams; C140_cold: from the configuration; C140_all_step, C140_all: with beams and external fields in the plane; C140_external: every combination of configured profiles but the axial magnetic one keeps them in the plane. |
| C141 | The mirror image of a simulation is a simulation | Specification in Spec/PicMirror.lean (sign of each component, mirrored particle and state). Each function of the step commutes with the mirror, including its failures; the interpolation only without azimuthal electric field, the pushers of Boris and of Vay always; counterexamples for all parameters for the rest (Props/PicMirror.lean). | **partial** Holds without condition for the field solver (C141_fields), for the pushers of Boris and of Vay in given fields (C141_push_partial), for every step in which particles feel no azimuthal electric field (C141_step_partial, C141_run_partial), and so for the first step from every configuration (C141_start_partial). Missing: everything else, and it is false there. C141_mixed_fails: the interpolation adds a part of the azimuthal electric field to the axial one, so a particle at rest in an azimuthal field is driven along the axis, and the other way in the mirror. C141_hc_fails: the Higuera-Cary pusher uses a wrong component of the magnetic field; mirror images move outwards and inwards. |

No property is considered inexpressible.

## 3. Which code is modelled

| source (in `/repo`) | model | not modelled |
|---|---|---|
| `include/algo/grid.hpp`, `grid3d.hpp` | `Grid` | copy construction, allocation failure |
| `include/geometry.hpp` | `Geometry`, `SMB`, `Yee` | the constructor without absorbing layers (same formulas) |
| `include/algo/weighter.hpp` | `Weighter` | — |
| `include/algo/common.hpp`, `src/algo/common.cpp` | `Helpers`, `Placement` (nearest multiple), `Collector` (hash) | `sq_rt` is the exact root; the AVX variant; colours and time stamps of messages |
| `include/math/vector3d.hpp` | `Vec3` | stream output |
| `src/math/rand.cpp` | `Rand` | the generators of the standard library (arbitrary numbers) |
| `src/math/maxwellJuettner.cpp` | `Velocity`, `JuettnerTable` | the generator behind `uniform` |
| `src/phys/rel.cpp`, `src/phys/plasma.cpp`, `include/constant.hpp` | `Rel`, `Limits`, `Collide`, `Scatter`, `PicConf` (the values of the constants) | — |
| `src/maxwellSolver/maxwellSolverYee.cpp`, `include/maxwellSolver.hpp` | `Yee`, `Interp` | — |
| `src/maxwellSolver/externalFields.cpp` | `External` | values of the profiles that are never used by a particle |
| `src/current/currentVB.cpp`, `currentZigZag.cpp` | `CurrentVB`, `CurrentZigZag` | — |
| `src/pusher/*.cpp` | `Pusher` | — |
| `src/specieP.cpp` | `Particle`, `Placement`, `Maps`, `Weighter`, `Velocity` | `eigen_directed_velocity_distribution` (unused) |
| `src/beamP.cpp` | `Beam`, `Particle`, `PicBeam` | — |
| `src/collisions.cpp`, `src/collisions/*.cpp` | `Pairing`, `Shuffle`, `Collide`, `Scatter`, `CollidePass`, `CollideReport` | the generators of the standard library (arbitrary numbers) |
| `src/SMB.cpp`, `src/domain.cpp` | `SMB`, `PicStart`, `PicConf` (constructors from the configuration), `Collector`, `FieldStep`, `CurrentStep`, `FieldMpi`, `CurrentMpi`, `Mpi`, `HandMpi`, `External`, `Beam`, `Threads` (the parallel loops) | weak memory: atomic actions are executed one after another |
| `configure.ac` | `Configure` (which program is built for which arguments) | search for compilers and libraries, documentation, `Makefile` variables |
| `src/cfg.cpp` | `Limits`, `Probe`, `Output`, `Beam`, `Species`, `GeoCfg`, `Config` (reading the values of the file, the stored configuration) | the JSON library: text, parser, serializer |
| `src/outController.cpp`, `src/outWriter.cpp`, `src/outEngine/outEngineHDF5.cpp` | `Output`, `Probe`, `ProbeMpi`, `Signal`, `Dump`, `DumpRead`, `DumpMpi`, `PicOut` (output of whole runs) | the HDF5 library (datasets are finite maps; group creation fails if the group exists) |
| `src/PiCoPiC.cpp` | `Output`, `Signal`, `SMB` (slabs), `Helpers`, `Pic` (the main loop), `PicMpi` (the main loop of several processes), `PicFull` (the main loop with external fields and collisions), `PicBeam` (the main loop with beams), `PicAll` (the main loop with all of them), `PicStart` (from the configuration to the main loop) | command line text output, OpenMP runtime |
| `src/msg.cpp`, `include/msg.hpp` | the table of progress (`Model/Progress.lean`); `LOG_S(FATAL)` as an outcome | text of other messages; how a stream shows a `double` |
| `lib/python/picopic/tinycache.py` | `Cache` | links, permissions, limits of the file system |
| `lib/python/picopic/plot_builder.py` | `Figure` (numbers at ticks, accepted arrays, colour bars) | the drawing library, fonts, colours, `latex_float` |
| `test/functional/test.py` | `TestRun` (comparison with stored values, tries, collected values) | building and running the program, figures of the regression test |
| `test/performance/test.py` | `Perf` (average and verdict) | checking out, building and running |
| `tools/parse_metadata.py` | `PhysInfo` (`--phys-info`), `Subtree` (`--subtree`, `--bo`, `-c`) | colours; how values are laid out in print; paths that are run as programs |
| `tools/nbrun.sh` | `Nbrun` (substitution of values) | the shell, conversion and execution of the script |
| `lib/python/picopic/reader.py`, `h5_reader.py`, `meta_reader.py` | `Probe` (dataset paths), `MetaReader` (opening a file, what it shows, rows, columns, frames), `DataReader` (rectangles, columns, rows, points and their ranges) | plotting and everything else in Python |

## 4. Where the code does not do what the property says

Each of these is a theorem about the model (the name is in the table of section 2); most hold for all inputs of a class,
not for one example.  The ones a user is most likely to meet:

* fields: a uniform field is seen weaker by a particle, part of `E_phi` is added to `E_z`, and particles within half a
  cell of the axis divide by zero (C23); `E_z` in the corner of axis and wall is never updated (C16, C56); the overlay
  corners towards the two other diagonals are never exchanged, so a particle where four domains meet sees a wrong
  magnetic field (C63, C06); between processes the magnetic field of the solver is not exchanged, so the electric field at
  their borders is wrong from the second step on (C92);
* currents: a purely axial move overwrites the radial current, so the result depends on the order of the particles (C19);
  moves through a cell corner or from a border lose charge (C18); azimuthal current next to the axis uses the wrong
  volume (C57); the ZigZag currents keep Gauss's law only if cells have unit size (C82); charge of the density map uses an unparenthesised macro (C13);
  the current of a path that cuts the corner of a domain is lost in the domain behind the corner, and the azimuthal current of
  the Villasenor–Buneman scheme is lost at all borders of domains (C96), so that a run depends on the division (C98);
  between processes the currents of paths that cut any corner are lost (C99);
* particles: the velocity is rotated in the wrong direction when a particle returns to the r-z plane (C30); a particle
  with a local coordinate of exactly zero is never reflected (C29), which ends a run with undefined behaviour (C97); negative positions wrap around (C35);
* initial velocities: hot species start faster than light (C78) or with velocities that are not numbers (C80); the mean energy
  is not that of the temperature and jumps where the formula changes (C79); the sampler's tails are wrong (C81).  The sampler
  expects the temperature in units of the rest energy and gets electronvolts, so every species above 0.1 eV uses the
  relativistic branch for particles of a rest energy of 1 eV; this explains the unexplained factor `1/sqrt 2` in the code
  (mean energy 3 T instead of 3/2 T) and is not stated as a theorem, because it speaks about distributions;
* pushers: the default pusher reads an uninitialised flag (C27) and exceeds the speed of light (C26); Vay is only right for
  `c = 1`, Higuera-Cary does work in a magnetic field (C25, C55);
* beams in whole runs (C109): a beam particle that arrives exactly on the axis makes the step undefined, beams as wide as the chamber lose particles in the step in which they are injected, the injected charge appears without its field;
* beginnings of runs (C110): in divided chambers the default placement puts particles outside the domains that list them; hot species with the distribution `eigen` end the run in the first step;
* domains: divisions that leave a remainder give domains with different cell sizes (C53) and particles in wrong domains
  (C09); non-square grids make the diagonal exchange undefined (C04); the hand-over has a data race (C11); blocking sends
  can deadlock (C12);
* whole collision steps of TA77S: electrons and ions never exchange momentum or energy (C104), a pair alone in a cell changes its total momentum (C103), electrons can become faster than light (C105), which ends the run in the next step (C106), species with other names leave members uninitialised (C102);
* collisions: an empty cell hides the rest of its row (C37); like particles never collide in two of the algorithms (C40);
  TA77S never conserves momentum (C38); densities away from the axis and all temperatures are too large (C83, C84);
  the three algorithms have different strengths (C86); a particle that leaves a process diagonally or by more than one
  slab makes the hand-over undefined, and with unbuffered sends the hand-over never ends (C87); rounding to `float` loses a particle (C36);
* output and configuration: fractions of masses and charges are cut off, negative masses become huge (C89), a species
  called `beam_x` hides behind a beam `x` (C90), absorbing layers wider than the volume are accepted (C91); a density probe loses the shares of neighbouring domains if a temperature, energy or momentum
  probe of the same species follows it, and always misses one at inner corners (C88) and at the borders between processes (C94); energy, momentum and temperature
  probes ignore the particles of the neighbouring domains altogether (C95); with a number of processes that does not divide the columns the last ones are never written (C93); column, row and dot probes are undefined behaviour (C46); a schedule from 65536 on is cut
  (C42); start time ignored (C75); the run time is printed into a buffer of one byte (C51); electric external fields are
  ignored (C24); too large time steps are never rejected (C48).
* C112: the overlays of the external fields stay zero, so particles in the last column of a domain or within half a cell of a radial border between domains see a homogeneous external field too weak (`C112_border_fails`).
* C114: the random placement draws different random numbers for every species, so a neutral plasma starts with charges for which there are no fields (`C114_random_fails`).
* C115: a configuration without a `comment` passes all checks and ends the program after the output file has been made (`C115_comment_fails`); no probes: undefined (`C115_probes_fails`); a ratio below one empties the beams (`C115_ratio_fails`); the record does not tell builds with collisions, external fields, layers or several processes apart (`C115_builds_fails`, `C115_fields_fails`).
* C116: results of runs whose configuration has no `plot` or `pml` section, which the program accepts, cannot be opened (`C116_open_fails`, `C116_plot_fails`, `C116_layers_fails`); macroparticle numbers and beam names are not those of the run (`C116_amount_fails`, `C116_names_fails`); numbers of cells with fraction move the rows (`C116_places_fails`).
* C117: a file with a probe of schedule zero is accepted, its output is undefined in the first step (`C117_schedule_fails`).
* C119: `col`, `row`, `dot` and their ranges never find anything in the file of a run, `col_range` allocates a negative number of rows; ranges without an end fail (`keys()` of a dataset, undefined name `shape`); ranges of columns and rows work only for rectangles that reach over the whole chamber and stretch a single row; the scripts in `tools/` pass rows and columns of the chamber where those of the rectangle are needed (`C119_*_fails`).
* C120: `random_sort` calls `srand(time(0))` before every cell: within a second of the clock all cells with the same numbers of particles get the same order, in every domain and time step (`C120_second_fails`).
* C121: with three or more rows of domains the order of the particles in a domain depends on the schedule of the threads, `C121_rows_fails`; see also C11.
* C122: when the mean strength of the P12 collisions of a step exceeds 1.2, `collide` adds to the local variables `d_el`, `d_ion`, `t_el`, `t_ion`, `g_counter`, which are never initialised (`collisionsP12.cpp:540-552`): undefined behaviour (`C122_strong_fails`).
* C125 (packing into macroparticles): the Villasenor–Buneman deposition sets radial currents to zero when a macroparticle moves exactly along the axis (currentVB.cpp, strict motion), so even a macroparticle without charge changes the currents (C125_vb_fails).
* C126 (plasma at rest): charges of one sign at rest do not repel each other, because the run starts from zero fields whatever the charges are (no solution of Poisson's equation).
* C127 (repeatability): `rand.cpp` seeds its generator from `std::random_device` and offers no way to set the seed, so simulations with random placement or thermal velocities cannot be repeated (C127_random_fails).
* C129: the results of the zigzag deposition depend on the unit of length: it takes lengths for fractions of a cell (`/repo/src/current/currentZigZag.cpp`). So do purely radial paths of the default deposition, where a factor `dr` stands in the wrong place (`r0 * r0 / n * dr`, `/repo/src/current/currentVB.cpp:672-675,713-716`). The pushers of Vay and of Higuera and Cary add 1 to the square of a velocity without dividing it by the square of the speed of light.
* C130: beams and collisions cannot be used together in general: injected particles get their axial cell number from their radial position (`/repo/src/beamP.cpp:136-137`), and the collisions of the same step use it as an index (`/repo/src/collisions.cpp:87-108`): particles injected farther from the axis than the domain is long are written outside the lists (`C130_rows_fails`), others collide in cells far from them (`C130_cell_fails`).
* C131: `./configure --help` names `boris` as the default pusher, but `boris-adaptive` is built (`/repo/configure.ac:96-98`, `C131_help_fails`); output files do not tell whether collisions, layers, external fields or several processes were built in (`C131_hidden_fails`); `--enable-pml=on` switches the layers off (`C131_word_fails`).
* C132: the cache of the analysis library (`/repo/lib/python/picopic/tinycache.py`) writes only the elements of an array, in place, into a file named by the key, and keeps the caller's array in memory: shapes, keys with `/`, concurrent users, later changes by the caller and crashes all break it (`C132_shape_fails` and others); importing it writes into `/tmp/tinycache`.
* C133: the summary of results (tools/parse_metadata.py) foretells fewer steps than the run makes (the clock starts at zero whatever `start` is), a number of beam particles that is exceeded on the average by the ratio of a cell to the beam's radius and not reached at all with fewer macroparticles than bunches, and it raises an exception for runs without beams or with electrons called `electron`; the Debye length of the program has the two temperatures exchanged.
* C134: in figures (`/repo/lib/python/picopic/plot_builder.py`) an explicit zero counts as no request (`or`), so that subplots of figures that do not begin at zero cannot begin at zero; arrays are compared with the size of the figure, not of the subplot; labels of the third axis have five decimals, so that they are all zero for axes of a few micrometres; figures without sizes ignore the numbers of ticks; `latex_float` uses an undefined name.
* C135: the check of the time step (`/repo/src/cfg.cpp:636-650`) allows `c dt` up to the smaller side of a cell, that is 1.41 times the stability limit of the solver for square cells; such runs blow up without a message.
* C136: the functional test (`/repo/test/functional/test.py:181-186`) overwrites the verdict about the mean with that about the deviation; true data are averaged over 100000 readings of one and the same run (lines 284-312); the regression test always ends with an exception (`self` outside of a class).
* C137: the performance test (`/repo/test/performance/test.py`) includes the newest run in the average it is compared with, and counts runs that report no time as zero seconds.
* C138: the metadata tool (`/repo/tools/parse_metadata.py`) passes the asked path to `eval`: places in lists become texts and raise an error that is not caught, and other texts run as programs.
* C139: the script that runs notebooks (`/repo/tools/nbrun.sh`) never sets a variable in the last line of a cell, cuts values at a second equals sign and cuts lines at texts in double quotes that begin like an assignment.
* C141: mirror images behave differently because the interpolation adds a part of the azimuthal electric field to the axial one (`/repo/include/maxwellSolver.hpp:313`) and the Higuera–Cary pusher uses a wrong component of the magnetic field (`/repo/src/pusher/pusherHC.cpp:87-101`).

## 5. Trusted base

* Lean 4.33.0's kernel and Mathlib's definitions.  Every theorem in `MANIFEST.json` depends on at most the axioms
  `propext`, `Classical.choice` and `Quot.sound` (checked with `#print axioms` for each of them before every commit); no
  axiom is added, there is no `sorry`/`admit`, no `native_decide`, no `bv_decide`.  Concrete instances use `decide +kernel`
  or `norm_num`, both checked by the kernel.
* The faithfulness of the model modules to `/repo`, definition by definition as cited.  It has been checked by reading only:
  the code is not built or run.
* Exact arithmetic instead of IEEE doubles, see section 1.


## 6. Wrong programs

`seeded/LOG.jsonl` has 532 entries: a definition of the model was edited the way a realistic bug would change the
program, in a copy outside `/verif`, and everything was rebuilt.  Each entry names the theorems that no longer prove and
the theorems that were added or tightened because of it.
