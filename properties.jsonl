{"id": "C01", "title": "Grid element operations: read-after-write and frame", "statement": "On a Grid, set/inc/dec/m_a/d_a at logical index (x,y) changes the value later read at (x,y) to exactly v, old+v, old-v, old*v, old/v, and changes no other cell (logical or overlay) of the grid; an access is well defined exactly when the shifted index lies inside the allocated real size (logical -o_s .. size+o_s-1), everything else is undefined behaviour.", "quantifier": "every element type, grid size, overlay width, initial contents and index (including the overlay cells reached by wrapped negative indices)", "why_tests_cant": "a unit test only reads back the few cells it wrote; the frame condition ranges over every other cell and every size", "anchors": ["include/algo/grid.hpp: Grid::Grid, set, inc, dec, m_a, d_a, operator()"]}
{"id": "C02", "title": "Clearing a grid", "statement": "Assigning a scalar writes exactly the logical cells, overlay_set writes exactly the overlay frame; performing both leaves every allocated cell equal to the value whatever garbage the allocation contained. The scalar +=, -=, *=, /= act on every logical cell once and on no overlay cell.", "quantifier": "every grid size, overlay width, scalar and (uninitialised) prior content", "why_tests_cant": "depends on the content of uninitialised memory and on every size/overlay combination", "anchors": ["include/algo/grid.hpp: overlay_set, operator=(T), operator+=, operator-=, operator*=, operator/=", "src/domain.cpp: Domain::reset_current", "src/specieP.cpp: SpecieP::calc_density"]}
{"id": "C03", "title": "Overlay exchange between two neighbouring domains", "statement": "After lhs.overlay_x(rhs) (resp. overlay_y) on grids of matching transverse real size, every physical node stored by both grids (the 2*o_s wide shared band, all non-overlay transverse positions) holds in both grids exactly the sum of the two previous copies, and every other cell of both grids is unchanged; on mismatched sizes the program aborts and no cell is changed.", "quantifier": "every pair of grids (any sizes with any overlay width) and all contents", "why_tests_cant": "the unit test uses one 10x10 size with overlay 2; the sum/frame statement must hold for each size and content", "anchors": ["include/algo/grid.hpp: overlay_x, overlay_y", "src/SMB.cpp: SMB::current_overlay"]}
{"id": "C04", "title": "Diagonal overlay exchange", "statement": "After lhs.overlay_xy(rhs) on equally sized grids, the two diagonal corner blocks shared by the grids hold the sum of both copies in both grids, nothing else changes and no cell outside the allocated arrays is touched.", "quantifier": "every pair of equally sized grids, including non-square ones, and all contents", "why_tests_cant": "the unit test only uses square grids, where the row/column mix-up in the index expressions is invisible", "anchors": ["include/algo/grid.hpp: overlay_xy", "test/unit/gridTest.cpp"]}
{"id": "C05", "title": "Stitching a chain of domains", "statement": "For a simulation split into n domains along one axis, after the overlay pass every node that two neighbouring domains share holds in both of them the sum of the two domains' own contributions, whatever number of domains and whatever per-domain contents, provided each domain is at least 2*o_s cells wide.", "quantifier": "every number of domains, domain sizes, overlay widths and contents", "why_tests_cant": "number of domains is unbounded and the four colour sweeps visit interfaces in an order that must not matter", "anchors": ["src/SMB.cpp: SMB::current_overlay, field_h_overlay, field_e_overlay", "include/algo/grid.hpp: overlay_x, overlay_y"]}
{"id": "C06", "title": "Stitching at a corner where four domains meet", "statement": "After the overlay pass every physical node near a corner shared by four domains holds, in each domain that stores it, the sum of the contributions of all domains.", "quantifier": "every 2x2 block of domains, all contents", "why_tests_cant": "only particular deposits next to a corner exhibit the difference", "anchors": ["src/SMB.cpp: SMB::current_overlay", "include/algo/grid.hpp: overlay_x, overlay_y, overlay_xy"]}
{"id": "C07", "title": "Domains tile the simulation area", "statement": "The per-domain cell ranges computed at start-up partition the global cell ranges: every global cell belongs to exactly one domain, no domain reaches outside, and a domain gets a wall (and an absorbing layer) on a side exactly when that side is a side of the global area that has one.", "quantifier": "every global cell count, every domain count (dividing it or not), every wall setting", "why_tests_cant": "integer division rounding depends on all size/count pairs", "anchors": ["src/SMB.cpp: SMB::SMB"]}
{"id": "C08", "title": "Slab split among processes", "statement": "Splitting the simulation along z among MPI processes gives consecutive slabs whose cells together are exactly the configured cells, with outer z walls only on the first and the last slab.", "quantifier": "every number of processes, cells and domains", "why_tests_cant": "range over process counts; truncating divisions only bite for some of them", "anchors": ["src/PiCoPiC.cpp: main (ENABLE_MPI block)", "src/cfg.cpp: method_limitations_check"]}
{"id": "C09", "title": "Particle hand-over conserves particles", "statement": "When particles are handed over between domains after a push, every particle whose cell lies inside the simulation area is afterwards stored exactly once, in the species it belonged to and in the domain that owns its cell; exactly the particles whose cell lies outside the area are removed; none is duplicated or lost.", "quantifier": "every number of domains, every distribution of particles and positions, every cell count", "why_tests_cant": "quantifies over all particle configurations and all domain layouts", "anchors": ["src/SMB.cpp: SMB::particles_runaway_collector"]}
{"id": "C10", "title": "Species identity used by the hand-over", "statement": "Two species with different names get different identifiers, so that a particle handed over between domains ends in the species it came from and only there.", "quantifier": "every pair of species names accepted by the configuration reader", "why_tests_cant": "a 16 bit hash has collisions that no example-based test finds", "anchors": ["src/algo/common.cpp: hash_from_string", "src/cfg.cpp: init_particles", "src/SMB.cpp: particles_runaway_collector"]}
{"id": "C11", "title": "Concurrent hand-over of particles never touches the same domain", "statement": "In each of the four parallel colour sweeps used for the particle hand-over, two domains processed concurrently never access the same domain's data.", "quantifier": "every pair of concurrently processed domains and every schedule", "why_tests_cant": "data races depend on the schedule; a test run may never show them", "anchors": ["src/SMB.cpp: particles_runaway_collector"]}
{"id": "C12", "title": "MPI neighbour exchange makes progress and is symmetric", "statement": "The neighbour exchange of overlay columns among any number of processes terminates, and afterwards both sides of each process interface hold the same sum.", "quantifier": "every number of processes and every message schedule, for every amount of MPI buffering", "why_tests_cant": "depends on message schedules and on the MPI library's buffering", "anchors": ["src/SMB.cpp: current_overlay (ENABLE_MPI)", "include/SMB.hpp: MPICommOverlay"]}
{"id": "C13", "title": "Density weighting conserves the macroparticle weight", "statement": "Weighting one macroparticle onto the density map distributes exactly its weight: the sum over the written cells of deposit times the volume the deposit was normalised with equals the particle's weight; and when normalised by the true ring volumes of the cells the total is the particle's weight as well.", "quantifier": "every particle position with r > 0, every cell size", "why_tests_cant": "real-valued position domain with three branches and their boundaries", "anchors": ["include/algo/weighter.hpp: weight_cylindrical", "include/geometry.hpp: CELL_VOLUME, CYL_RNG_VOL, CYL_VOL"]}
{"id": "C14", "title": "Density weighting is local, non-negative and inside the map", "statement": "A particle inside a domain only changes the four map cells around it, all of which are allocated cells of that domain's map, and every change is non-negative.", "quantifier": "every particle position inside a domain, every domain size", "why_tests_cant": "boundary positions in a continuous domain", "anchors": ["include/algo/weighter.hpp: weight_cylindrical"]}
{"id": "C15", "title": "Magnetic field stays divergence free", "statement": "One magnetic field update leaves the discrete cylindrical divergence of H unchanged at every node, hence a run started with divergence-free H keeps it divergence free after any number of steps and whatever the electric field did in between.", "quantifier": "every grid size, field content, number of steps, cell sizes, wall setting", "why_tests_cant": "a property of every history of electric fields over unbounded steps", "anchors": ["src/maxwellSolver/maxwellSolverYee.cpp: calc_field_h"]}
{"id": "C16", "title": "Gauss law increment of the electric field update", "statement": "Outside absorbing layers one electric field update changes the discrete divergence of epsilon*E at every node by exactly minus dt times the discrete divergence of the deposited current (axis nodes included).", "quantifier": "every grid content, current, cell size, time step", "why_tests_cant": "algebraic identity over all field contents", "anchors": ["src/maxwellSolver/maxwellSolverYee.cpp: calc_field_e"]}
{"id": "C17", "title": "Charge continuity of the current deposition", "statement": "For a particle that moves inside one cell, the change of charge at every grid node (area weighting of the particle before and after the move) equals minus dt times the net outflow of the deposited currents at this node; the total deposited axial current equals charge times axial velocity.", "quantifier": "every start and end position inside one cell, all cell sizes, charges, time steps, including the cells at the axis", "why_tests_cant": "identity with logarithms over a continuous domain", "anchors": ["src/current/currentVB.cpp: simple_current_distribution", "include/algo/weighter.hpp: weight_cylindrical"]}
{"id": "C18", "title": "Charge continuity for moves across cell borders", "statement": "A particle that moves by less than one cell per direction deposits, over all the pieces its path is split into, currents satisfying the same continuity equation; no admissible move is silently dropped.", "quantifier": "every pair of start and end positions at most one cell apart in each direction", "why_tests_cant": "the split has eleven geometric cases with equality boundaries", "anchors": ["src/current/currentVB.cpp: rz_current_distribution"]}
{"id": "C19", "title": "Current deposition accumulates", "statement": "Depositing the current of one particle never destroys what other particles deposited before: the final current is the same for every order in which the particles are processed.", "quantifier": "every set and every order of particles, including particles moving exactly along an axis", "why_tests_cant": "quantifies over orders of processing", "anchors": ["src/current/currentVB.cpp: strict_motion_distribution, rz_current_distribution, azimuthal_current_distribution, current_distribution"]}
{"id": "C20", "title": "ZigZag deposition totals", "statement": "With the ZigZag scheme the deposits of one particle sum up, per component, to charge times displacement per time step over the cell volume; relay points lie between the start and the end position and on the border when the cell changes.", "quantifier": "every pair of positions, every cell size", "why_tests_cant": "continuous domain", "anchors": ["src/current/currentZigZag.cpp: current_distribution", "include/current/currentZigZag.hpp: RELAY_POINT"]}
{"id": "C21", "title": "Conducting walls", "statement": "The electric field components that a step never updates at a conducting wall (tangential E at the z walls, all E at the outer row, E_phi on the axis) keep their initial value 0 during the whole run, whatever currents are deposited.", "quantifier": "every number of steps, current history, grid size", "why_tests_cant": "unbounded history", "anchors": ["src/maxwellSolver/maxwellSolverYee.cpp: ctor, calc_field_e"]}
{"id": "C22", "title": "Absorbing layers only damp", "statement": "The conductivity profile is non-negative, zero outside the configured layers and only grows towards the boundary; the factor that an electric field update applies to the old field lies in [-1, 1] for every such conductivity and equals 1 outside layers.", "quantifier": "every layer thickness, conductivity pair and time step", "why_tests_cant": "continuous parameter domain", "anchors": ["src/maxwellSolver/maxwellSolverYee.cpp: set_pml, calc_field_e", "include/geometry.hpp: dist_x_to_end, dist_y_to_end"]}
{"id": "C23", "title": "Field interpolation to particles", "statement": "The field a particle sees is a linear function of the grid fields with non-negative weights, each field component only depends on the same component of the grid, at the four nodes around the particle, and a uniform field is seen unchanged.", "quantifier": "every position and field content", "why_tests_cant": "continuous domain", "anchors": ["include/maxwellSolver.hpp: get_field_e, get_field_h"]}
{"id": "C24", "title": "Configured external field is applied", "statement": "The external electric/magnetic field named in the configuration is the one that is applied; 'none' applies nothing and unknown names are rejected.", "quantifier": "every profile name and amplitude", "why_tests_cant": "all strings", "anchors": ["src/maxwellSolver/externalFields.cpp: ExternalFields::ExternalFields, operator()"]}
{"id": "C25", "title": "Magnetic field does no work on particles", "statement": "With zero electric field a push with the Vay or the Higuera-Cary pusher leaves a particle's speed unchanged, and with zero fields its velocity unchanged.", "quantifier": "every velocity, magnetic field, charge, mass, time step", "why_tests_cant": "continuous domain, exact invariance", "anchors": ["src/pusher/pusherVay.cpp", "src/pusher/pusherHC.cpp"]}
{"id": "C26", "title": "Default push keeps particles below the speed of light", "statement": "After a push with the default (adaptive) or the classic Boris pusher the particle's speed is strictly below c for all fields, so that the Lorentz factor of the next push is defined.", "quantifier": "every field strength, velocity below c, time step", "why_tests_cant": "unbounded field strengths", "anchors": ["src/pusher/pusherBoris.cpp", "src/phys/rel.cpp: lorenz_factor, lorenz_factor_inv"]}
{"id": "C27", "title": "Push is a function of state and fields", "statement": "The result of a push is determined by the particle's velocity and the fields: no indeterminate value influences it.", "quantifier": "every velocity in both the slow and the fast regime", "why_tests_cant": "reading an uninitialised variable passes most test runs by luck", "anchors": ["src/pusher/pusherBoris.cpp"]}
{"id": "C28", "title": "Kinetic energy of a particle", "statement": "The kinetic energy is non-negative, zero only at rest and increases with speed; it is the same whether it is computed from velocity or from momentum, and masses of zero are rejected.", "quantifier": "every speed below c and every mass", "why_tests_cant": "continuous domain including the limit", "anchors": ["src/phys/rel.cpp"]}
{"id": "C29", "title": "Wall reflection", "statement": "Reflecting particles at the walls terminates and leaves every particle between the walls (with the half cell margins), at the successive mirror images of its position, and does not touch particles inside.", "quantifier": "every particle position and velocity, every wall setting and domain size", "why_tests_cant": "unbounded iteration count and continuous domain", "anchors": ["src/specieP.cpp: SpecieP::reflect", "src/beamP.cpp: BeamP::reflect"]}
{"id": "C30", "title": "Return from Cartesian move to the r-z plane", "statement": "After a push moved a particle off the r-z plane, the correction sets r to the distance from the axis, keeps z, and rotates the velocity in the r-phi plane without changing its length, so that the motion is the straight line motion seen in cylindrical coordinates.", "quantifier": "every position off the axis, every velocity", "why_tests_cant": "continuous domain including the axis", "anchors": ["src/specieP.cpp: mover_cylindrical, back_position_to_rz, back_velocity_to_rz"]}
{"id": "C31", "title": "Macroparticle weights represent the density", "statement": "The weights given to the particles of a species in a domain sum up to the number of physical particles that its density profile puts in the domain's volume.", "quantifier": "every number of particles, density slope, domain", "why_tests_cant": "sum over unbounded particle lists", "anchors": ["src/specieP.cpp: SpecieP::set_weight, fullyfill_spatial_distribution"]}
{"id": "C32", "title": "Initial placement inside the domain", "statement": "Each initial position produced by the placement modes lies within the domain it was produced for, including its overlay margin rules, and exactly the configured number of particles is placed.", "quantifier": "every domain, amount, random number in [0,1)", "why_tests_cant": "all random sequences", "anchors": ["src/specieP.cpp: rectangular_random_placement, rectangular_regular_placement, rectangular_centered_placement", "src/math/rand.cpp"]}
{"id": "C33", "title": "Low-discrepancy generator range", "statement": "random_reverse returns a number in [0, 1) for every sequence number and every base of at least two, different sequence numbers give different values and it terminates.", "quantifier": "every sequence number and base", "why_tests_cant": "unbounded integers", "anchors": ["src/math/rand.cpp: math::random::random_reverse"]}
{"id": "C34", "title": "Beam injection windows", "statement": "A beam injects macroparticles exactly during its bunches: only for times in [start, finish) of a bunch, only in the domains at the z=0 edge inside its radius, the same number per step, each inside the beam's radius; the bunch counter never exceeds the number of bunches.", "quantifier": "every bunch count, lengths, times", "why_tests_cant": "unbounded sequences of time steps", "anchors": ["src/beamP.cpp: BeamP::BeamP, BeamP::inject", "src/domain.cpp: manage_beam"]}
{"id": "C35", "title": "Cell binding", "statement": "After binding, a particle's stored cell contains its position: cell*size <= position < (cell+1)*size in both directions, for negative positions too.", "quantifier": "every position", "why_tests_cant": "continuous domain, rounding direction for negatives", "anchors": ["src/specieP.cpp: bind_cell_numbers", "include/geometry.hpp: CELL_NUMBER", "src/beamP.cpp: inject"]}
{"id": "C36", "title": "Pairing of unlike particles covers every particle", "statement": "Within a cell, in the collisions of two species with different numbers of particles, each particle of the larger population takes part exactly once while all indices stay in range.", "quantifier": "every population size", "why_tests_cant": "unbounded population sizes with integer/float division", "anchors": ["src/collisions/collisionsTA77S.cpp: collide"]}
{"id": "C37", "title": "Every occupied cell collides", "statement": "A cell whose temperatures and densities are normal numbers takes part in the collision step regardless of the content of other cells.", "quantifier": "every distribution of particles over the cells of a domain", "why_tests_cant": "needs particular empty-cell patterns", "anchors": ["src/collisions/collisionsTA77S.cpp: collide"]}
{"id": "C38", "title": "Binary collision conserves momentum and energy", "statement": "A binary collision of two equally weighted particles conserves their total momentum and total kinetic energy.", "quantifier": "every pair of velocities and masses, every random deflection angle", "why_tests_cant": "continuous domain and random angles", "anchors": ["src/collisions/collisionsTA77S.cpp: collide_single", "src/collisions/collisionsSK98.cpp: collide_single", "src/collisions/collisionsP12.cpp: collide_single"]}
{"id": "C39", "title": "Post-collision correction restores the cell totals", "statement": "After the velocity correction each species in a cell has again exactly the momentum and energy it had before the collisions.", "quantifier": "every population, weights and velocities", "why_tests_cant": "sums over unbounded lists", "anchors": ["src/collisions/collisionsTA77S.cpp: correct_velocities"]}
{"id": "C40", "title": "Like particles collide", "statement": "Two particles of the same species with different velocities are deflected by the relativistic collision models.", "quantifier": "every pair of velocities", "why_tests_cant": "always-false guard looks like a rare no-op in tests", "anchors": ["src/collisions/collisionsSK98.cpp: collide_single", "src/collisions/collisionsP12.cpp: collide_single"]}
{"id": "C41", "title": "Sorting particles to collision cells", "statement": "The collision step sees every particle of a domain exactly once: the per-cell ion and electron lists together are a partition of the domain's particles by cell and kind, independent of what the previous step left there.", "quantifier": "every population, every previous content", "why_tests_cant": "all histories", "anchors": ["src/collisions.cpp: clear, sort_to_cells"]}
{"id": "C42", "title": "Output frames are consecutive", "statement": "A probe with schedule s writes frame n exactly at time step n*s: each frame number up to the last is written exactly once per domain and in order, and the dataset always has room for the frame written.", "quantifier": "every schedule, number of steps", "why_tests_cant": "unbounded run lengths; integer width of the schedule", "anchors": ["src/outWriter.cpp: OutWriter::operator()", "src/outController.cpp: init_datasets", "src/outEngine/outEngineHDF5.cpp: extend_dataset", "src/PiCoPiC.cpp: main"]}
{"id": "C43", "title": "Number of simulated steps", "statement": "A run from 0 to end with step dt > 0 executes exactly floor(end/dt)+1 steps and stops.", "quantifier": "every end and step", "why_tests_cant": "unbounded loops", "anchors": ["src/PiCoPiC.cpp: main", "include/timeSim.hpp"]}
{"id": "C44", "title": "Rectangular probe output is assembled exactly", "statement": "For a rectangular probe each cell of the probe is written by exactly one domain, at its offset in the dataset, with the value of that cell of the global map; nothing outside of the dataset is addressed.", "quantifier": "every probe rectangle inside the area and every domain layout", "why_tests_cant": "alignment of rectangles with domain borders", "anchors": ["src/outController.cpp: OutController::OutController", "src/outWriter.cpp", "src/outEngine/outEngineHDF5.cpp: write_rec"]}
{"id": "C45", "title": "Pause and resume do not affect output", "statement": "A pause signal may arrive at any point of a run; after the resume signal the run continues and all later frames are written to an open file, and terminating signals close the file exactly once.", "quantifier": "every arrival point and sequence of signals", "why_tests_cant": "asynchronous signal timing", "anchors": ["src/PiCoPiC.cpp: signal_handler, main"]}
{"id": "C46", "title": "Probe configuration", "statement": "Every accepted probe lies within the simulation area and ordered; probes outside are rejected with a fatal error; several probes can be used together, and the Python reader finds the datasets of all of them.", "quantifier": "every probe description", "why_tests_cant": "all combinations of shapes and coordinates", "anchors": ["src/cfg.cpp: init_probes", "lib/python/picopic/reader.py", "lib/python/picopic/h5_reader.py"]}
{"id": "C47", "title": "Division of the macroparticles over the domains", "statement": "The domains together place as many macroparticles of a species as the species has been given, so that the configured budget is used up but for less than the number of species and bunches.", "quantifier": "every list of species and beams, every budget, every number of domains", "why_tests_cant": "unbounded lists; the remainder is only visible for budgets that the number of domains does not divide", "anchors": ["src/cfg.cpp: weight_macro_amount", "src/specieP.cpp: SpecieP::SpecieP"]}
{"id": "C48", "title": "Configuration limits are enforced", "statement": "A configuration with a number of domains that is neither one nor even, or with a zero electron density is rejected before the simulation starts; a too large time step is rejected.", "quantifier": "every configuration", "why_tests_cant": "all parameter combinations", "anchors": ["src/cfg.cpp: method_limitations_check"]}
{"id": "C49", "title": "Map smoothing and interpolation", "statement": "Bilinear interpolation gives averages of neighbouring cells: results lie between the minimum and maximum of the inputs, a constant map stays constant, and every cell of the result is set.", "quantifier": "every grid size and content", "why_tests_cant": "all contents and borders", "anchors": ["include/algo/common.hpp: bilinear_interpolation, bicubic_interpolation"]}
{"id": "C50", "title": "String and command line helpers", "statement": "Splitting a string at a delimiter and joining the parts gives the string back; the configuration file is the one named on the command line; the nearest-multiple helper returns the smallest multiple of a given number that is not below its argument.", "quantifier": "every string, argument list and number", "why_tests_cant": "unbounded strings", "anchors": ["src/algo/common.cpp: splitstr, nearest_divide", "src/PiCoPiC.cpp: main"]}
{"id": "C51", "title": "Run duration report", "statement": "The printed run duration denotes the elapsed time for every elapsed time.", "quantifier": "every elapsed time", "why_tests_cant": "unit boundaries", "anchors": ["src/algo/common.cpp: get_simulation_duration"]}
{"id": "C52", "title": "Vector functions leave their operands alone", "statement": "Functions of the 3-vector class that return a value do not modify the vectors they are given, and compound assignment with a number gives the same result wherever the number is stored.", "quantifier": "every vector and number", "why_tests_cant": "a test that uses the result and not the operand afterwards does not see it", "anchors": ["include/math/vector3d.hpp"]}
{"id": "C53", "title": "Each domain uses the global cell size", "statement": "The cell size every domain computes for itself equals the cell size of the whole area: size divided by number of cells, in both directions.", "quantifier": "every area size, cell amount and number of domains", "why_tests_cant": "all combinations of cell amounts and domain numbers, including those that do not divide", "anchors": ["src/SMB.cpp: SMB constructor", "include/geometry.hpp: Geometry constructor"]}
{"id": "C54", "title": "Gauss's law is kept by a whole time step", "statement": "When the particles have moved, their currents have been deposited and the electric field has been advanced, the defect of Gauss's law (divergence of the displacement field minus charge density of the particles) at every inner node is what it was before the step; so a simulation that starts with Gauss's law satisfied keeps it without a Poisson solver.", "quantifier": "every set of particles, their moves, field, cell size and time step", "why_tests_cant": "all particle moves over all cells and all field contents; errors would grow over millions of steps", "anchors": ["src/current/currentVB.cpp: current_distribution", "src/maxwellSolver/maxwellSolverYee.cpp: calc_field_e", "src/SMB.cpp: solve_maxvell, solve_current"]}
{"id": "C55", "title": "Push follows the Lorentz force", "statement": "One push changes the particle's momentum per mass by charge over mass times the time step times the Lorentz force E + v x B of the fields at the particle, with v the mean velocity of the step, for the Vay and the Higuera-Cary pusher.", "quantifier": "every velocity below c, electric and magnetic field, charge, mass and time step", "why_tests_cant": "Tests compare trajectories in a few fields with tolerances; the scheme's equation has to hold for all fields and velocities.", "anchors": ["src/pusher/pusherVay.cpp", "src/pusher/pusherHC.cpp"]}
{"id": "C56", "title": "Electric field updates obey Ampère's law", "statement": "In one electric step the electric flux through every face changes by the time step times the circulation of the magnetic field minus the current through the face.", "quantifier": "every field and current content, cell size, time step and cell of the grid", "why_tests_cant": "Tests compare a few field patterns; a wrong coefficient in one component shows only for fields the test does not use.", "anchors": ["src/maxwellSolver/maxwellSolverYee.cpp: calc_field_e"]}
{"id": "C57", "title": "Azimuthal current of a particle", "statement": "The azimuthal current deposited at the nodes, times the volumes of the nodes, adds up to charge times azimuthal velocity of the particle, and every node gets the share of the particle's ring that lies in its cell.", "quantifier": "every particle position, move and velocity in every domain", "why_tests_cant": "All positions relative to the nodes, including moves that cross cell borders.", "anchors": ["src/current/currentVB.cpp: azimuthal_current_distribution", "include/geometry.hpp: CELL_VOLUME"]}
{"id": "C58", "title": "Creation of the output directory", "statement": "After creation of a directory path reports success, the directory exists and is a directory; failure is reported exactly when the directory does not exist; nothing else in the file system is removed or replaced, for every state of the file system and concurrent processes.", "quantifier": "every path, file system state and interleaving with other processes", "why_tests_cant": "All states of the file system and interleavings with other processes that create the same directory.", "anchors": ["src/algo/common.cpp: make_directory, directory_exists", "src/PiCoPiC.cpp: main"]}
{"id": "C59", "title": "Momentum map of a species", "statement": "The momentum map of a species holds in every cell the mean relativistic momentum of the species' particles there, weighted with their shares of the particle density, and zero where there are no particles; the division into domains and earlier contents of the maps have no influence.", "quantifier": "every set of particles with their positions, weights and velocities, every earlier content of the maps", "why_tests_cant": "All particle positions and speeds, including those above the relativistic limit and at domain borders.", "anchors": ["src/specieP.cpp: calc_momentum, calc_momentum_w", "src/outController.cpp: init_datasets"]}
{"id": "C60", "title": "Energy map of a species", "statement": "The energy map of a species holds in every cell the mean kinetic energy of the species' particles there, in electronvolts, and zero where there are no particles.", "quantifier": "every set of particles with their positions, weights and velocities, every earlier content of the maps", "why_tests_cant": "All speeds and mixtures of speeds in a cell.", "anchors": ["src/specieP.cpp: calc_energy, calc_momentum_abs", "src/phys/rel.cpp: energy_m"]}
{"id": "C61", "title": "Temperature map of a species", "statement": "The temperature map of a species depends on the present particles only, is never negative, and is zero where all particles move with one common velocity.", "quantifier": "every set of particles, every history of map computations", "why_tests_cant": "Histories of earlier map computations; all velocity distributions.", "anchors": ["src/specieP.cpp: calc_temperature", "src/domain.cpp: weight_temperature"]}
{"id": "C62", "title": "The division into domains does not change the fields", "statement": "A run of the field solver over an area divided into domains gives in every cell of every domain the same electric and magnetic fields as the run over the undivided area, for every number of steps and all currents, when the area is divided into equal domains of at least two cells which form a chain or are square.", "quantifier": "every area, every admissible division, every number of steps, every initial field and every history of currents", "why_tests_cant": "All divisions, sizes and run lengths; an error in one overlay row appears only after several steps near a domain border.", "anchors": ["src/SMB.cpp: solve_maxvell, field_h_overlay, field_e_overlay, SMB", "src/maxwellSolver/maxwellSolverYee.cpp: calc_field_h, calc_field_e", "include/algo/grid.hpp: overlay_x, overlay_y, overlay_xy"]}
{"id": "C63", "title": "The division into domains does not change the fields seen by particles", "statement": "The electric and magnetic fields that act on a particle at some position are the same whether the area is divided into domains or not.", "quantifier": "every position, every admissible division, every number of steps and every history of currents", "why_tests_cant": "All positions relative to domain borders and corners, after any number of steps.", "anchors": ["include/maxwellSolver.hpp: get_field_e, get_field_h", "src/SMB.cpp: field_h_overlay, field_e_overlay"]}
{"id": "C64", "title": "Magnetic field updates obey Faraday's law", "statement": "In one magnetic step the flux through every face of a cell changes by minus the time step times the circulation of the electric field around that face.", "quantifier": "every field content, cell size, time step and cell of the grid", "why_tests_cant": "Tests compare a few field patterns; a wrong coefficient in one component shows only for fields the test does not use.", "anchors": ["src/maxwellSolver/maxwellSolverYee.cpp: calc_field_h"]}
{"id": "C65", "title": "Macroparticle budget", "statement": "Automatic distribution of a total macroparticle budget over species and beams never exceeds the budget and stays below it by less than the number of species and bunches.", "quantifier": "every list of species and beams, every budget", "why_tests_cant": "unbounded lists", "anchors": ["src/cfg.cpp: weight_macro_amount"]}
{"id": "C66", "title": "Vector algebra", "statement": "The values computed by the 3-vector class obey the vector space laws and the identities of the scalar and the cross product (orthogonality, anti-symmetry, Lagrange identity, Euclidean length) that the pushers rely on.", "quantifier": "every vector and number", "why_tests_cant": "algebraic laws for all values", "anchors": ["include/math/vector3d.hpp"]}
{"id": "C67", "title": "Concurrent overlay exchange never touches the same domain", "statement": "In each of the four parallel colour sweeps of an overlay exchange, two domains processed concurrently never access the same domain's data, and the result does not depend on the order in which they are processed.", "quantifier": "every layout of domains, every pair of concurrently processed domains and every schedule", "why_tests_cant": "data races depend on the schedule; a test run may never show them", "anchors": ["src/SMB.cpp: current_overlay, field_h_overlay, field_e_overlay"]}
{"id": "C68", "title": "Velocity and momentum are converted without loss", "statement": "Below the speed of light, velocity to momentum and back is the identity, every momentum belongs to a speed below that of light, and the Lorentz factor is that of special relativity; speeds above c and, for momenta, masses of zero are rejected.", "quantifier": "every velocity, momentum and mass", "why_tests_cant": "continuous domain including the limit", "anchors": ["src/phys/rel.cpp: lorenz_factor, lorenz_factor_inv, momentum, momentum_0"]}
{"id": "C69", "title": "Pairing of like particles covers every particle", "statement": "Within a cell each particle of a species takes part in a like-particle collision (exactly one, except the first three of an odd population which form a triangle), never with itself; for two species with equally many particles each particle collides exactly once.", "quantifier": "every population size", "why_tests_cant": "unbounded population sizes", "anchors": ["src/collisions/collisionsTA77S.cpp: collide"]}
{"id": "C70", "title": "Command line options", "statement": "An option's value is the argument that follows it and is absent exactly when the option is absent or last; an option is found exactly when it is among the arguments.", "quantifier": "every argument list and option", "why_tests_cant": "unbounded argument lists", "anchors": ["src/algo/common.cpp: get_cmd_option, cmd_option_exists"]}
{"id": "C71", "title": "Boris push: Lorentz force without work of the magnetic field", "statement": "With the Boris pushers, a push without electric field leaves a particle's speed unchanged and without any field its velocity; the push changes the momentum per mass by charge over mass times time step times the Lorentz force E + v x B with v the mean velocity of the step.", "quantifier": "every velocity below c, field, charge, mass and time step", "why_tests_cant": "continuous domain, exact invariance", "anchors": ["src/pusher/pusherBoris.cpp"]}
{"id": "C72", "title": "Relativistic pushes keep particles below the speed of light", "statement": "After any number of pushes with the relativistic Boris, the Vay or the Higuera-Cary pusher, in any fields, a particle's speed is strictly below c, so that the next push is defined.", "quantifier": "every history of fields, every velocity below c, charge, mass and time step", "why_tests_cant": "unbounded field strengths and histories", "anchors": ["src/pusher/pusherBoris.cpp", "src/pusher/pusherVay.cpp", "src/pusher/pusherHC.cpp", "src/phys/rel.cpp: lorenz_factor, lorenz_factor_inv"]}
{"id": "C73", "title": "Dataset paths identify probes", "statement": "Two probes that differ in component, shape, coordinates or (for maps of a species) species are written to different dataset paths, and different components take their values from different sources.", "quantifier": "every pair of probe descriptions", "why_tests_cant": "all combinations of shapes, names and coordinates", "anchors": ["src/outController.cpp: init_datasets"]}
{"id": "C74", "title": "Reflection keeps the kinetic energy", "statement": "Reflection at the walls changes velocity components by sign only, hence keeps the kinetic energy of the particle; a beam particle is mirrored at the axis margin once or left alone.", "quantifier": "every particle position and velocity, every wall setting and domain size", "why_tests_cant": "unbounded iteration count and continuous domain", "anchors": ["src/specieP.cpp: SpecieP::reflect", "src/beamP.cpp: BeamP::reflect"]}
{"id": "C75", "title": "Configured start time and step are respected", "statement": "A run covers the configured interval from start to end, and configurations with which it would never end are rejected.", "quantifier": "every start, end and step", "why_tests_cant": "unbounded loops", "anchors": ["src/PiCoPiC.cpp: main", "src/cfg.cpp: init_time"]}
{"id": "C76", "title": "Energy balance of the fields in a closed chamber", "statement": "In a closed chamber that starts without fields, the energy of the electromagnetic field after any number of steps equals minus the work done on the currents and lost in conducting media since the start, exactly; once no currents flow and nothing conducts, it never changes.", "quantifier": "every size of the chamber, every history of currents and conductivities, every number of steps", "why_tests_cant": "an exact invariant over unbounded histories", "anchors": ["src/maxwellSolver/maxwellSolverYee.cpp: calc_field_e, calc_field_h", "src/domain.cpp"]}
{"id": "C77", "title": "Stability of the field solver", "statement": "With a time step below the Courant limit, dt^2 (2/dr^2 + 1/dz^2) < eps mu, the fields in a closed chamber stay bounded for ever once no currents flow.", "quantifier": "every size, every medium with eps bounded from below and conductivity not negative, every history before, every later step", "why_tests_cant": "for ever: no finite run shows it", "anchors": ["src/maxwellSolver/maxwellSolverYee.cpp: calc_field_e, calc_field_h"]}
{"id": "C78", "title": "Particles start below the speed of light", "statement": "Every particle of a species gets a velocity, its size is below the speed of light, and the Lorentz factor of the particle is defined, for each of the three velocity distributions.", "quantifier": "every temperature, mass, number of particles and all random numbers", "why_tests_cant": "all temperatures and all random numbers", "anchors": ["src/specieP.cpp: velocity_distribution, thermal_velocity_distribution, rectangular_velocity_distribution, eigen_velocity_distribution", "src/phys/rel.cpp: lorenz_factor"]}
{"id": "C79", "title": "The initial velocities have the configured temperature", "statement": "A species of temperature zero starts at rest; the mean kinetic energy of the particles is that of a gas of the configured temperature; a hotter species is not slower.", "quantifier": "every temperature, mass, number of particles and all random numbers", "why_tests_cant": "continuous domain; the failure sits at one threshold", "anchors": ["src/specieP.cpp: thermal_velocity_distribution, rectangular_velocity_distribution, eigen_velocity_distribution"]}
{"id": "C80", "title": "Thermal energies are sampled for every particle", "statement": "The sampling of thermal energies returns one energy for every particle; it is a number and not negative, and comes from random numbers that the rejection rule accepts.", "quantifier": "every temperature, number of particles and all random numbers", "why_tests_cant": "the failures need random numbers of probability below 1e-11", "anchors": ["src/math/maxwellJuettner.cpp: maxwellJuettner"]}
{"id": "C81", "title": "Larger random numbers give larger energies", "statement": "The sampling of thermal energies inverts a distribution function: of two random numbers the larger gives at least as large an energy.", "quantifier": "every temperature and all pairs of random numbers", "why_tests_cant": "pairs of real numbers, tables of a thousand entries", "anchors": ["src/math/maxwellJuettner.cpp: maxwellJuettner", "include/constant.hpp: THREE_OVER_4"]}
{"id": "C82", "title": "Currents of the ZigZag method and the charge they move", "statement": "In every time step the change of the charge a macroparticle gives to the grid nodes (bilinear shares in radius and height) is the negative divergence of the currents it deposits, so Gauss's law is kept.", "quantifier": "every particle, every move of at most one cell, every cell", "why_tests_cant": "continuous positions, every combination of cells crossed", "anchors": ["src/current/currentZigZag.cpp: currentDistribution"]}
{"id": "C83", "title": "Density seen by the collisions", "statement": "The density of a cell used for the collisions is the number of real particles of its macroparticles per volume of the cell.", "quantifier": "every cell of every domain and every set of macroparticles", "why_tests_cant": "the formula is right in the domains at the axis and wrong in all others", "anchors": ["src/collisions.cpp: get_el_density, get_ion_density", "include/geometry.hpp: CELL_VOLUME"]}
{"id": "C84", "title": "Temperature seen by the collisions", "statement": "The temperature of a cell used for the collisions is two thirds of the mean energy relative to the mean motion; cold particles drifting together have temperature zero.", "quantifier": "every set of macroparticles", "why_tests_cant": "all weights and velocities", "anchors": ["src/collisions.cpp: get_el_temperature, get_ion_temperature"]}
{"id": "C85", "title": "Debye length of a cell", "statement": "The Debye length of a cell is a positive number, shorter than that of either kind of particles alone, and the collision step never stops the program because of a cell's contents; it skips the cell only if all of its particles of one kind rest.", "quantifier": "every cell and every set of macroparticles", "why_tests_cant": "all contents of a cell, including empty and resting ones", "anchors": ["src/phys/plasma.cpp: debye_length", "src/collisions.cpp: collide_single"]}
{"id": "C86", "title": "Strength of the collisions", "statement": "A pair scatters with the strength of the theory: mean square of the tangent of half the angle (qa qb)^2 n L dt / (8 pi eps^2 m^2 u^3), with the lower density n, the reduced mass m, the relative speed u and a Coulomb logarithm L of at least 2; all algorithms agree for slow particles, and naming the pair in the other order makes no difference.", "quantifier": "every pair, every density, charge, mass and time step", "why_tests_cant": "the result depends on random numbers; only the formula can be compared, for all arguments", "anchors": ["src/collisions/collisionsTA77S.cpp: collide_single", "src/collisions/collisionsP12.cpp: collide_single", "src/collisions/collisionsSK98.cpp: collide_single", "src/phys/plasma.cpp: coulomb_logarithm, collision_freqency"]}
{"id": "C87", "title": "Particles crossing between processes", "statement": "When a run is divided among several processes, after every hand-over each domain of each process holds exactly the macroparticles whose cell is in it: those that moved into the part of a neighbouring process arrive there once, with their species, and are removed at the old place; the exchange always ends.", "quantifier": "every number of processes, every division, every set of particles, every schedule of the processes and every amount of message buffering", "why_tests_cant": "needs several processes; depends on schedule and buffering", "anchors": ["src/SMB.cpp: particles_runaway_collector", "src/PiCoPiC.cpp: particles_runaway_collector, main", "include/specieP.hpp: specie_id"]}
{"id": "C88", "title": "What a density probe shows", "statement": "A density probe shows at every cell the density of all macroparticles of the species, whatever the division of the volume into domains and whatever other probes are configured before or after it.", "quantifier": "every division, every list of probes, every set of particles", "why_tests_cant": "all orders of probes and all positions of particles relative to domain borders", "anchors": ["src/outController.cpp: init_datasets, operator()", "src/specieP.cpp: calc_density, calc_temperature, calc_energy, calc_momentum", "include/algo/grid.hpp: overlay_x, overlay_y"]}
{"id": "C89", "title": "Configured species parameters are used", "statement": "Every domain holds each configured species with the configured charge and mass (in elementary charges and electron masses), temperature, number of macroparticles, and the configured density profile at the domain's place.", "quantifier": "every list of configured species, every division", "why_tests_cant": "all values in the configuration, including fractional and negative ones", "anchors": ["src/cfg.cpp: init_particles", "src/SMB.cpp: SMB", "src/specieP.cpp: SpecieP"]}
{"id": "C90", "title": "Names identify species and beams", "statement": "A configuration is rejected if and only if two species or two beams have the same name, and a probe of a named species or beam finds it.", "quantifier": "every list of species, beams and probes", "why_tests_cant": "all combinations of names", "anchors": ["src/cfg.cpp: init_particles, init_beam", "src/outController.cpp: init_datasets", "include/specieP.hpp: id"]}
{"id": "C91", "title": "Configured geometry is used", "statement": "The volume has the configured size and number of cells, the cells have the corresponding size, each absorbing layer has the whole number of cells of its configured fraction and fits into the volume; values that make no sense are rejected.", "quantifier": "every geometry configuration", "why_tests_cant": "all values in the configuration, including negative, fractional and too large ones", "anchors": ["src/cfg.cpp: init_geometry", "include/geometry.hpp: Geometry"]}
{"id": "C92", "title": "Fields of several processes", "statement": "Dividing the volume between several processes does not change the electromagnetic fields: after any number of steps every cell of every process has the fields of the undivided run with the same currents.", "quantifier": "every number of processes, every division, every currents and media, every number of steps, every schedule of the processes and every amount of message buffering", "why_tests_cant": "needs several processes; depends on schedule and buffering; all fields near the borders between processes", "anchors": ["src/SMB.cpp: field_h_overlay, field_e_overlay, solve_maxvell", "include/SMB.hpp: MPICommOverlay", "src/PiCoPiC.cpp: main"]}
{"id": "C93", "title": "Rectangular probes written by several processes", "statement": "With several processes writing one after the other into the same file, a frame of a rectangular probe holds exactly the values of the probed cells, each once and at its place, whichever process and domain owns the cell and whatever the order of the writers.", "quantifier": "every rectangle, every division, every number of processes, every order of the writers", "why_tests_cant": "needs several processes; all positions of rectangles relative to the borders", "anchors": ["src/outWriter.cpp: OutWriter", "src/outController.cpp: OutController", "src/PiCoPiC.cpp: main", "src/cfg.cpp: init_probes"]}
{"id": "C94", "title": "Density shown by several processes", "statement": "With several processes a density probe shows at every cell the density of all macroparticles of the species in the whole volume.", "quantifier": "every number of processes, every division, every list of probes, every set of particles", "why_tests_cant": "needs several processes; all positions of particles relative to the borders between them", "anchors": ["src/outController.cpp: init_datasets", "src/specieP.cpp: calc_density", "src/SMB.cpp: SMB"]}
{"id": "C95", "title": "What energy, momentum and temperature probes show in a divided volume", "statement": "Energy, momentum and temperature probes show at every cell the value of all macroparticles of the species, whatever the division of the volume into domains and whatever other probes are configured.", "quantifier": "every division, every list of probes, every set of particles", "why_tests_cant": "all orders of probes and all positions of particles relative to domain borders", "anchors": ["src/outController.cpp: init_datasets, operator()", "src/specieP.cpp: calc_temperature, calc_energy, calc_momentum", "include/algo/grid.hpp: overlay_x, overlay_y"]}
{"id": "C96", "title": "Currents of a divided volume", "statement": "Dividing the volume into domains does not change the currents: after the current step every cell of every domain has the radial, azimuthal and axial current that all particles of the volume leave there in an undivided volume, whichever domains the particles are in.", "quantifier": "every volume, every admissible division, every set of particles, both deposition schemes, all previous contents of the grids", "why_tests_cant": "all positions and paths of particles relative to the borders and corners of domains", "anchors": ["src/SMB.cpp: solve_current, current_overlay", "src/domain.cpp: weight_current, reset_current", "src/current/currentZigZag.cpp: current_distribution", "src/current/currentVB.cpp: current_distribution", "include/algo/grid.hpp: overlay_x, overlay_y, overlay_xy"]}
{"id": "C97", "title": "Whole runs", "statement": "A simulation of particles in a closed chamber goes on for as many steps as wanted, in exactly one way: no step fails or is undefined, no particle is lost, doubled or changes its species, all particles stay between the walls and slower than light, and every particle is listed in the domain it is in.", "quantifier": "every chamber, every admissible division, every starting state with particles in their places, all fields, any number of steps", "why_tests_cant": "all histories of fields and particles of any length; a failure can need one exact position after any number of steps", "anchors": ["src/PiCoPiC.cpp: main loop", "src/SMB.cpp: solve_maxwell, advance_particles, particles_runaway_collector, solve_current", "src/specieP.cpp: mover_cylindrical, reflect, back_position_to_rz", "src/pusher/pusherBoris.cpp, pusherVay.cpp, pusherHC.cpp"]}
{"id": "C98", "title": "Runs do not depend on the division", "statement": "How the volume is divided into domains changes nothing that a run shows: after any number of steps the fields and currents in all cells, the particles with their positions and velocities, and which particles every species has are those of the run without division.", "quantifier": "every chamber, every admissible division, every starting state, any number of steps", "why_tests_cant": "all histories; the differences come from particles at borders and corners of domains at any time", "anchors": ["src/PiCoPiC.cpp: main loop", "src/SMB.cpp: solve_maxwell, advance_particles, solve_current, field_h_overlay, field_e_overlay, current_overlay, particles_runaway_collector"]}
{"id": "C99", "title": "Currents of several processes", "statement": "Dividing the volume between several processes does not change the currents: after the current step every cell of every process has the radial, azimuthal and axial current that the particles of all processes leave there in an undivided volume.", "quantifier": "every volume, every number of processes and admissible division, every set of particles, both deposition schemes, every amount of message buffering, all previous contents of the grids", "why_tests_cant": "needs several processes; depends on buffering; all positions and paths of particles relative to the borders and corners of domains and processes", "anchors": ["src/SMB.cpp: solve_current, current_overlay", "include/SMB.hpp: MPICommOverlay", "src/PiCoPiC.cpp: main", "src/current/currentZigZag.cpp: current_distribution", "src/current/currentVB.cpp: current_distribution"]}
{"id": "C100", "title": "Laws of the fields in whole runs", "statement": "In a simulation of particles in a closed chamber the laws of the fields hold after any number of steps: the magnetic field has no sources, the walls are perfect conductors, and the divergence of the electric displacement differs from the charge density of the particles by what it differed at the start, so fields that belong to their charges stay so.", "quantifier": "every chamber, every admissible division, every starting state, any number of steps, every node of the grid", "why_tests_cant": "all histories of fields and particles of any length and all paths of particles across cells and domains", "anchors": ["src/PiCoPiC.cpp: main loop", "src/SMB.cpp: solve_maxwell, advance_particles, solve_current", "src/maxwellSolver/maxwellSolverYee.cpp: calc_field_e, calc_field_h", "src/current/currentVB.cpp: current_distribution", "src/specieP.cpp: dump_position_to_old"]}
{"id": "C101", "title": "Whole runs of several processes", "statement": "A simulation of particles in a closed chamber that is shared by several processes goes on for as many steps as wanted: no step fails, hangs or is undefined, no particle is lost or doubled, by whichever process it is kept, and what the run shows does not depend on the order in which the processes happen to run or how messages are buffered.", "quantifier": "every chamber, every number of processes and admissible division, every starting state with particles in their places, every schedule of the processes and every amount of message buffering, any number of steps", "why_tests_cant": "needs several processes; all interleavings and all histories of any length", "anchors": ["src/PiCoPiC.cpp: main loop", "src/SMB.cpp: solve_maxwell, advance_particles, particles_runaway_collector, solve_current", "include/SMB.hpp: MPICommOverlay"]}
{"id": "C102", "title": "Collision steps", "statement": "A step of Coulomb collisions always completes, whatever the shuffling of the particles and the random numbers, and it changes nothing but velocities: no particle of the domain is lost, moved, reweighted or sorted into another cell, particles of other domains are untouched, and in cells where nothing collides velocities stay as they are.", "quantifier": "every domain, every set of particles in it, every shuffling, all random numbers, all three methods", "why_tests_cant": "all shufflings and random numbers; division by zero and range errors need special populations and velocities", "anchors": ["src/collisions.cpp: Collisions, clear, sort_to_cells, random_sort, collect_weighted_params_tot_grid", "src/collisions/collisionsTA77S.cpp: operator(), collide, collide_single, correct_velocities", "src/collisions/collisionsSK98.cpp", "src/collisions/collisionsP12.cpp"]}
{"id": "C103", "title": "Collision steps conserve momentum and energy", "statement": "A whole step of Coulomb collisions conserves the total momentum and kinetic energy of the particles of every cell.", "quantifier": "every domain and cell, every set of particles, every shuffling, all random numbers", "why_tests_cant": "all sets of particles and random numbers; a test sees one of them up to rounding", "anchors": ["src/collisions/collisionsTA77S.cpp: operator(), collide, collide_single, correct_velocities"]}
{"id": "C104", "title": "Collisions let electrons and ions relax", "statement": "Collisions exchange momentum and energy between electrons and ions: a drift of one kind through the other is slowed down and different temperatures approach each other.", "quantifier": "every set of particles, any number of steps, all random numbers", "why_tests_cant": "needs arbitrarily many steps; that it can never happen for any random numbers cannot be seen in a sample", "anchors": ["src/collisions/collisionsTA77S.cpp: operator(), collide, correct_velocities", "src/collisions.cpp: collect_weighted_params_tot_grid"]}
{"id": "C105", "title": "Collisions keep particles slower than light", "statement": "If all particles are slower than light before a step of Coulomb collisions they are after it.", "quantifier": "every domain, every set of particles slower than light, every shuffling, all random numbers, all three methods", "why_tests_cant": "needs fast particles and large deflections, all random numbers", "anchors": ["src/collisions/collisionsTA77S.cpp: collide_single", "src/collisions/collisionsSK98.cpp: collide_single", "src/collisions/collisionsP12.cpp: collide_single"]}
{"id": "C106", "title": "Whole runs with external fields and collisions", "statement": "A simulation of particles in a closed chamber with external fields and Coulomb collisions built in goes on for as many steps as wanted, whatever the random numbers are: no step fails or is undefined, no particle is lost or doubled, and all particles stay slower than light.", "quantifier": "every chamber and division into domains, every starting state with particles in their places, every external field that can be configured, each collision method, every shuffling and all random numbers of all steps, any number of steps", "why_tests_cant": "all histories of any length and all random numbers of all steps; the failing ones need fast particles that meet", "anchors": ["src/PiCoPiC.cpp: main loop", "src/SMB.cpp: solve_maxwell, advance_particles, solve_current", "src/domain.cpp: push_particles, collide, apply_external_fields", "src/maxwellSolver/externalFields.cpp", "src/collisions/collisionsTA77S.cpp", "src/pusher/pusherBoris.cpp"]}
{"id": "C107", "title": "Superposition of fields", "statement": "Currents that are given as a weighted sum of two histories of currents produce, after any number of steps, the same weighted sum of the fields each of them produces alone; without currents and initial fields there are never any fields.", "quantifier": "every volume, medium and absorbing layer, every division into domains, all histories of currents of any length, all initial fields, all weights", "why_tests_cant": "all pairs of histories and all weights; a test sees a few of them up to rounding", "anchors": ["src/maxwellSolver/maxwellSolverYee.cpp: calc_field_e, calc_field_h", "src/SMB.cpp: solve_maxwell"]}
{"id": "C108", "title": "Fields spread at most one cell per step", "statement": "What happens at one place cannot be noticed n+1 cells away within n steps: the fields in a cell after n steps depend only on the initial fields within n cells and on the currents of step t within n-t cells of it.", "quantifier": "every volume, medium and absorbing layer, every division into domains, all histories of currents and initial fields, any number of steps and any cell", "why_tests_cant": "needs a comparison of all pairs of histories that differ anywhere far away", "anchors": ["src/maxwellSolver/maxwellSolverYee.cpp: calc_field_e, calc_field_h", "src/SMB.cpp: solve_maxwell"]}
{"id": "C109", "title": "Whole runs with particle beams", "statement": "A simulation with beams that are injected into a closed chamber goes on for as many steps as wanted, whatever the random numbers are: no step fails or is undefined, the plasma keeps all its particles, and a beam has in every step exactly the particles it had and those it has injected, without those that have arrived outside the chamber.", "quantifier": "every chamber and division into domains, every set of beams slower than light, every starting state with particles in their places, all random numbers of all steps, any number of steps", "why_tests_cant": "all histories of any length and all random numbers; the failing cases are single positions and random numbers", "anchors": ["src/PiCoPiC.cpp: main loop", "src/SMB.cpp: inject_beam, advance_particles, runaway_collector, solve_current", "src/beamP.cpp: inject, reflect", "src/domain.cpp: manage_beam"]}
{"id": "C110", "title": "From the configuration to an endless run", "statement": "A sane configuration (a chamber, species with densities and moderate temperatures, beams, absorbing layers) leads to a state from which the main loop can run for as many steps as wanted: when the loop begins every particle is listed once, inside the chamber, in the domain that lists it, slower than light, with the cell numbers of its position, there are no fields, and no later step fails, loses or doubles a particle of the plasma.", "quantifier": "every chamber and division, every list of species and beams, every placement mode and velocity distribution, all random numbers, any number of steps", "why_tests_cant": "all configurations, all random numbers and runs of any length; particles outside their domains appear only in divided chambers with enough particles", "anchors": ["src/SMB.cpp: SMB, distribute", "src/domain.cpp: distribute", "src/specieP.cpp: fullyfill_spatial_distribution, velocity_distribution", "include/maxwellSolver.hpp", "src/PiCoPiC.cpp: main loop"]}
{"id": "C111", "title": "A run and its output file", "statement": "Whatever a run does, the output that goes with it never fails, and the output file shows it: every probe has one frame for every multiple of its schedule that is below the number of steps done, each frame shows exactly the fields, currents or particle maps of the whole chamber after the step it belongs to on exactly the cells of the probe, frames once written never change, and the division into domains does not show.", "quantifier": "every run (any sequence of states with the particles in their domains), any number of steps, every list of rectangular probes with their schedules and order, every division into domains", "why_tests_cant": "all histories of any length, all lists of probes and divisions; an interrupted run can stop after any step", "anchors": ["src/PiCoPiC.cpp: main loop", "src/outController.cpp: operator(), init_datasets", "src/outWriter.cpp: operator()", "src/outEngine/outEngineHDF5.cpp: create_dataset, extend_dataset, write_rec"]}
{"id": "C112", "title": "External fields do not depend on the division of the volume", "statement": "In a simulation with external fields, what a particle meets of them does not depend on how the volume is divided into domains: at every point it sees the same external electric and magnetic field as in the undivided volume.", "quantifier": "every configuration of external fields, every volume and division into domains, every number of steps, every position of a particle", "why_tests_cant": "the external fields are set up per domain and read with neighbouring cells; only positions near the borders between domains differ, by an amount that depends on the position", "anchors": ["src/maxwellSolver/externalFields.cpp: ExternalFields, operator(), set_magn_field_homogenous_z", "include/maxwellSolver.hpp: get_field_e, get_field_h", "src/SMB.cpp: apply_external_fields"]}
{"id": "C113", "title": "The default placement fills the volume evenly", "statement": "With the default (flat) initial placement the macroparticles of a species are spread evenly over a domain: if the place for particles is divided into 13^a slices of equal radial size and 11^b axial slices of equal content of the configured density, the numbers of macroparticles in any two boxes differ by at most one. Of b^a consecutive numbers of the underlying sequence exactly one falls into each of b^a equal parts of the unit interval.", "quantifier": "every domain with any walls, every linear density profile, every number of macroparticles below 2^31, all exponents a and b, every box", "why_tests_cant": "all numbers of particles and all subdivisions; a histogram of one run cannot bound the deviation", "anchors": ["src/math/rand.cpp: random_reverse", "src/specieP.cpp: rectangular_random_placement"]}
{"id": "C114", "title": "A neutral plasma starts without charges and keeps Gauss's law", "statement": "If the species of a configuration that have the same number of macroparticles and the same densities have charges that sum up to zero, the run starts with no charge in any domain and, with the default placement, with no charge at any node of the grid. As the fields start at zero, the divergence of the electric displacement at every inner node is then the charge density in every step of the run.", "quantifier": "every configuration with any species, numbers of macroparticles, linear density profiles, placement modes, velocity distributions and random numbers, every division into domains, every number of steps, every node", "why_tests_cant": "all configurations and all later states of a run; a unit test checks one configuration for a few steps", "anchors": ["src/specieP.cpp: fullyfill_spatial_distribution", "src/specieP.cpp: set_weight", "src/SMB.cpp: SMB, distribute", "src/PiCoPiC.cpp: main loop", "src/current/currentVillasenorBuneman.cpp", "src/maxwellSolver/maxwellSolverYee.cpp"]}
{"id": "C115", "title": "The configuration file is read as it is written, nothing else in it matters, and it is recorded with the results so that reading the record gives the same configuration", "statement": "A run works with exactly the values its configuration file has at their places: reading succeeds exactly if every needed value is there, has the right type and fits, names are unique and probes are rectangles inside of the volume; entries under other keys do not matter; the configuration stored with the results is read, by the same or another build, as the original file is; the attributes of the output file tell version, flags, algorithms and comment. Not true of the code in general: a file without comment is accepted but ends the program after the output file has been made, a file without probes leads to undefined behaviour, a beam to plasma macroparticle ratio below one is taken as zero, and the attributes do not tell whether collisions, external fields, absorbing layers or several processes were used.", "quantifier": "every JSON value as configuration file, every build (all combinations of configure options), every configuration read", "why_tests_cant": "Tests read a few files; that every missing, mistyped, misplaced or additional entry is treated as said, and that the record of every accepted file gives the same configuration again, ranges over all JSON values and builds.", "anchors": ["src/cfg.cpp:Cfg::Cfg", "src/cfg.cpp:init_geometry", "src/cfg.cpp:init_particles", "src/cfg.cpp:init_beam", "src/cfg.cpp:init_probes", "src/cfg.cpp:init_external_fields", "src/cfg.cpp:cfg2value", "src/outEngine/outEngineHDF5.cpp:write_metadata", "src/outController.cpp:OutController::OutController"]}
{"id": "C116", "title": "The analysis library opens the results of every run and shows the run that was made", "statement": "The Python library opens the output file of every run, and the sizes, times, species, beams and probes it shows are those the program worked with; the place it gives for a row or column is the place of that row or column in the run, and the row it gives for a place is the nearest one; the time it gives for a frame is the time at which the program wrote the frame. Not true of the code in general: files whose configuration lacks the plotting section, the absorbing-layer section or the division (none of which every program build needs) cannot be opened, the macroparticle numbers shown are always a million, beams are shown under other names than the program uses, and for a number of cells with fraction every row but the first is shown at a wrong place.", "quantifier": "every configuration accepted by the program, every build with its algorithms chosen, every row, column, place, frame and schedule", "why_tests_cant": "Tests open a few files; that no accepted configuration makes the reader fail or show other values ranges over all JSON values, and the round trips over all numbers.", "anchors": ["lib/python/picopic/meta_reader.py:MetaReader", "lib/python/picopic/h5_reader.py:H5Reader.__init__", "lib/python/picopic/reader.py", "src/cfg.cpp:cfg2value", "src/outEngine/outEngineHDF5.cpp:write_metadata"]}
{"id": "C117", "title": "An accepted configuration file leads to a complete run: nothing undefined happens, no particle is lost, and the results of every probe in the file are there at the end", "statement": "If the program accepts a configuration file without complaint, the run it describes is determined by the file and the random numbers, goes on in a defined way until the end time, loses no particle, keeps all particles inside the chamber and slower than light, and leaves for every probe of the file exactly the frames its schedule asks for, each with the values of the run. Not true of the code in general: the checks accept, for instance, a probe with schedule zero, whose output is undefined in the first step.", "quantifier": "every JSON file with real numbers that the program accepts and that is usable, every build of one process without external fields and collisions with a relativistic pusher, all random numbers", "why_tests_cant": "A test runs a few files for a few steps; that every accepted file leads to a defined, complete run with all its results ranges over all files, builds, random numbers and numbers of steps.", "anchors": ["src/PiCoPiC.cpp:main", "src/cfg.cpp:Cfg::Cfg", "src/cfg.cpp:method_limitations_check", "src/SMB.cpp:SMB::SMB", "src/SMB.cpp:distribute", "src/specieP.cpp:SpecieP::SpecieP", "src/outController.cpp", "include/constant.hpp"]}
{"id": "C118", "title": "Energy in whole runs: the fields lose what they do as work on the currents, the particles gain the work of the electric field", "statement": "In a closed chamber, at every time of every run: the energy of the fields is what they have received from the currents of the particles minus the heat in conducting media, exactly, whatever the division into domains, the pusher and the deposition; the kinetic energy of every particle is its initial energy plus the work of the electric field it has seen, so that magnetic field, walls and domain borders change no energy; uncharged particles keep their energy for ever. The last but one claim is proved for the relativistic Boris pusher; with the Vay and Higuera-Cary pushers magnetic fields do work (C25).", "quantifier": "all chambers, divisions, particles, deposition schemes, numbers of steps; pusher as stated", "why_tests_cant": "Energy errors are bounded in tests with tolerances for a few steps; that nothing but the electric field changes the energy of particles and that no energy of the fields disappears at domain borders ranges over all states, divisions and run lengths.", "anchors": ["src/SMB.cpp:SMB::solve_maxvell", "src/SMB.cpp:SMB::advance_particles", "src/maxwellSolver/maxwellSolverYee.cpp", "src/pusher/pusherBoris.cpp", "src/PiCoPiC.cpp:main"]}
{"id": "C119", "title": "The analysis library returns what the run recorded", "statement": "After a run, asking the Python library for a component, rectangle and frame that a probe recorded returns the array of the values the simulation had in those cells at the step of that frame; columns, rows and points of it are those asked for; a range of frames is the sequence of the frames; frames that were not recorded, and rectangles no probe recorded, are not found. From the configuration file on: every probe the library lists can be read that way.", "quantifier": "all runs, numbers of steps, configurations, probes, components, species, rectangles, frames and ranges of frames", "why_tests_cant": "The writer (C++, chunked HDF5 datasets grown during the run, pieces from each domain) and the reader (Python, paths put together from numbers, numpy broadcasting) agree only by convention; a test of one file says nothing about other rectangles, schedules and ranges, and some functions of the reader never work.", "anchors": ["lib/python/picopic/h5_reader.py:H5Reader.rec", "lib/python/picopic/h5_reader.py:H5Reader.rec_range", "lib/python/picopic/h5_reader.py:H5Reader.col_rec", "lib/python/picopic/reader.py:Reader.col_range", "lib/python/picopic/reader.py:Reader.col_rec_range", "lib/python/picopic/reader.py:Reader.dot_rec_range", "src/outController.cpp:OutController::init_datasets", "src/outEngine/outEngineHDF5.cpp:OutEngineHDF5::create_dataset"]}
{"id": "C120", "title": "Collision partners are drawn at random, independently in every cell", "statement": "Before the pairs are formed, the electrons and the ions of every cell are brought into random order: nothing is lost or added, every order is possible, fair draws make every order equally likely, and the orders of different cells, domains and time steps do not depend on each other.", "quantifier": "all cells, numbers of particles, sequences of random numbers, clocks and time steps", "why_tests_cant": "The number of orders grows as the factorial of the number of particles; whether each arises from exactly one sequence of draws is a counting argument over all of them, and a test that passes in one second of the clock sees one seed.", "anchors": ["src/collisions.cpp:Collisions::random_sort"]}
{"id": "C121", "title": "The results do not depend on the number of threads nor on their schedule", "statement": "With OpenMP, every run ends in the state in which the sequential program ends: fields, currents, positions, velocities and the lists of particles of every domain are the same for every number of threads and every order in which their instructions are executed.", "quantifier": "all chambers and divisions, starting states, numbers of steps, numbers of threads, ways to cut the visits into atomic actions, and interleavings", "why_tests_cant": "A race shows only in particular interleavings; their number grows exponentially with the steps, and tests see those that one machine happens to produce.", "anchors": ["src/SMB.cpp:SMB::particles_runaway_collector,field_e_overlay,field_h_overlay,current_overlay,solve_maxvell,solve_current,advance_particles", "src/PiCoPiC.cpp:main"]}
{"id": "C122", "title": "Strong P12 collisions only lead to a message", "statement": "A step of the P12 collision model ends with the velocities that the single collisions give, however strong the collisions of the step were on average; a mean strength above the limit of the model only leads to a warning in the log.", "quantifier": "all states of the particles of a domain, all kinds of species, all sequences of random numbers and collision strengths", "why_tests_cant": "The extra statistics run only when the mean strength of all collisions of a step exceeds 1.2; what then happens to uninitialised variables differs from build to build and a run can look right.", "anchors": ["src/collisions/collisionsP12.cpp: CollisionsP12::collide", "src/collisions/collisionsP12.cpp: CollisionsP12::collide_single", "src/collisions/collisionsP12.cpp: CollisionsP12::operator()"]}
{"id": "C123", "title": "What happens far away along the axis does not matter before it can arrive", "statement": "Take two simulations, in chambers of the same or of different length, that agree in a range of columns along the axis: the same fields, currents, media and particles there. After k passes of the main loop they still agree in that range without 4 k columns at either end; if the range begins at the left wall, only the far end is lost. So the results near one end of the chamber do not depend on what is farther than 4 k columns away, and lengthening the chamber does not change them until the end of the shorter chamber can make itself felt.", "quantifier": "all cell numbers and sizes, time steps within half a cell of light travel, media, fields, species, particles in their places, chamber lengths, ranges of columns and numbers of steps", "why_tests_cant": "the claim compares every pair of runs that differ in any way outside the range, for any number of steps; a test compares two runs", "anchors": ["src/PiCoPiC.cpp: main", "src/maxwellSolver/maxwellSolverYee.cpp: calc_field_e, calc_field_h", "src/maxwellSolver/maxwellSolver.cpp: get_field_e, get_field_h", "src/current/currentZigZag.cpp: current_distribution", "src/domain.cpp: push_particles, update_particles_coords"]}
{"id": "C124", "title": "Charges, masses and weights matter only in fixed combinations", "statement": "Multiply the charge of every species by a, the weight of every macroparticle by b and the mass of every species by a*a*b, and start with fields and currents a*b times as large. Then every pass of the main loop does the same: the particles take exactly the same paths through the same domains, the fields and currents stay a*b times as large, and one simulation stops with an error exactly when the other one does. In particular, with all charges reversed the paths are the same and all fields are reversed; and a species of a-fold charge and a-fold mass with the a-th part of the weights behaves exactly like the original one.", "quantifier": "all chambers, divisions, media, pushers and both current deposition schemes, all factors other than zero, all states (sane or not) and all numbers of steps", "why_tests_cant": "the claim relates all runs of infinitely many pairs of configurations; a test compares two runs up to rounding", "anchors": ["src/PiCoPiC.cpp: main", "src/SMB.cpp: solve_maxvell, advance_particles, solve_current", "src/maxwellSolver/maxwellSolverYee.cpp: calc_field_e, calc_field_h", "src/current/currentZigZag.cpp: current_distribution", "src/current/currentVB.cpp: current_distribution", "src/domain.cpp: push_particles"]}
{"id": "C125", "title": "How charges are packed into macroparticles does not matter", "statement": "Two simulations that start with the same fields and with the same number of real particles of every charged species at every point of phase space (position and velocity) have the same fields, the same currents and the same numbers at every point of phase space after any number of steps, no matter how the particles are packed into macroparticles. So splitting a macroparticle into several at the same place, joining such macroparticles, reordering the lists, adding tracers without weight and adding species without charge change nothing for the rest.", "quantifier": "all chambers, media, fields, species, macroparticles (numbers, weights, order) and numbers of steps", "why_tests_cant": "the claim compares all pairs of runs that differ only in the packing; a test compares a few of them", "anchors": ["src/PiCoPiC.cpp: main", "src/current/currentZigZag.cpp: current_distribution", "src/current/currentVB.cpp: rz_current_distribution, strict_motion_distribution", "src/domain.cpp: push_particles, weight_current", "src/specieP.cpp: mover_cylindrical, reflect"]}
{"id": "C126", "title": "A plasma at rest stays at rest", "statement": "A simulation without fields and currents in which all macroparticles stand still (none of them exactly on a border between two domains) goes on for ever without anything happening: there are never fields or currents, and all macroparticles keep their places, velocities and weights. In particular an undivided simulation whose species all have temperature zero shows nothing at all before the first bunch of a beam is injected. No spurious heating, drift or field comes from the pushers, the deposition, the boundaries or the hand-over between domains.", "quantifier": "all chambers and divisions into domains, media and absorbing layers, pushers, both deposition schemes, species, charges, numbers and places of macroparticles, numbers of steps", "why_tests_cant": "the claim is about every plasma and every number of steps; a test shows the quiet of one plasma for a while", "anchors": ["src/PiCoPiC.cpp: main", "src/domain.cpp: push_particles, weight_current, collide", "src/pusher/pusherBoris.cpp: operator()", "src/current/currentZigZag.cpp: current_distribution", "src/current/currentVB.cpp: current_distribution, strict_motion_distribution", "src/maxwellSolver/maxwellSolverYee.cpp: calc_field_e, calc_field_h", "src/specieP.cpp: mover_cylindrical, thermal_velocity_distribution", "src/SMB.cpp: particles_runaway_collector, solve_maxvell, solve_current"]}
{"id": "C127", "title": "A simulation can be repeated", "statement": "Two executions of the program with the same configuration, the same build and the same random numbers show the same fields, currents and particles after every step and write the same results, no matter at which addresses the particles are. With the default or a regular placement and velocities along the axes no random numbers are used at all, so every execution gives the same results. With the random placement (or thermal velocities) executions differ, because the generator is seeded from the random device of the system.", "quantifier": "all configurations, addresses of particles, sets of probes, numbers of steps and (where no random numbers are used) random numbers", "why_tests_cant": "a test repeats one simulation a few times on one machine; the claim is about all configurations and all addresses the allocator may choose", "anchors": ["src/PiCoPiC.cpp: main", "src/SMB.cpp: distribute, particles_runaway_collector, solve_maxvell, solve_current", "src/specieP.cpp: fullyfill_spatial_distribution, velocity_distribution", "src/math/rand.cpp: uniform, random_reverse, gen", "src/outController.cpp: operator()"]}
{"id": "C128", "title": "The table of progress lists the frames that are recorded", "statement": "While it runs, the program prints a table: for every turn of the main loop, in the order of the probes, one line for each probe whose schedule is due, with the number of the step, the number of the frame, path and shape of the probe and the model time; the header comes first and after every thirty lines. A line for a frame is in the table if and only if the frame is written to the file, however the clock is rounded. As long as the contents fit their columns, the bars are below each other; longer contents are never cut.", "quantifier": "all lists of probes, schedules, time steps, numbers of steps, roundings of the clock and texts", "why_tests_cant": "a test looks at the table of one run; the claim is about all schedules and numbers of steps, and about runs in which rounding makes the clock skip or repeat a step", "anchors": ["src/msg.cpp: print_header, print_values", "src/outController.cpp: init_datasets", "src/outWriter.cpp: operator()", "include/timeSim.hpp: print_header_counter"]}
{"id": "C129", "title": "The same simulation in other units", "statement": "Results do not depend on the units: if all input numbers (sizes, time step, constants of nature, charges, masses, weights, fields, positions, velocities) are converted to other units of length, time, electric field, permittivity and charge, every step of the run gives the converted results, and nothing else can happen.", "quantifier": "all factors of units, all states, all numbers of steps, all divisions into domains; the fields without conditions; whole steps with the pushers of Boris and the default deposition", "why_tests_cant": "a test converts one run with a few factors; a missing factor of a cell size or of the speed of light stays invisible whenever the factor happens to be one", "anchors": ["src/maxwellSolver/maxwellSolverYee.cpp: calc_field_e, calc_field_h", "src/current/currentVB.cpp: current_distribution", "src/current/currentZigZag.cpp", "src/pusher/pusherVay.cpp", "src/pusher/pusherHC.cpp", "src/pusher/pusherBoris.cpp"]}
{"id": "C130", "title": "Whole runs with beams, external fields and collisions together", "statement": "In a run with particle beams, external fields and collisions all switched on, every step can be made and leaves a sane simulation: plasma particles stay between the walls, beam particles are in the chamber until they leave it, all are slower than light, each is in exactly one domain and in its own cell, and collides with particles of its own cell; no particle of the plasma is lost or doubled. With a feature switched off the run is the one without it.", "quantifier": "all states, all random numbers of injection and collisions, all fields, all beams and all numbers of steps", "why_tests_cant": "features are tested one at a time; whether they disturb each other depends on where particles are injected and in which order a step treats them", "anchors": ["src/PiCoPiC.cpp: main loop (299-349)", "src/SMB.cpp: inject_beam, advance_particles (1231-1330)", "src/beamP.cpp: inject (130-140)", "src/collisions.cpp: sort_to_cells (87-108)"]}
{"id": "C131", "title": "What configure was asked for is what is built and recorded", "statement": "The configuration script accepts exactly the documented names of pushers, distributions, current solvers and collision schemes, refuses unfinished features that were not unlocked, and the program it builds has exactly the features asked for, with the documented defaults for the others. Every output file of the program tells which features it was built with, so that two files which tell the same were made by programs with the same features.", "quantifier": "all arguments of configure (any text for any option), all configuration files the program starts with", "why_tests_cant": "the combinations of options are too many to build; whether the record distinguishes all programs is a statement about all pairs of builds", "anchors": ["configure.ac (46-300)", "src/cfg.cpp: build options (60-121)", "src/writerHDF5.cpp: write_metadata"]}
{"id": "C132", "title": "The cache of the analysis library returns what was stored", "statement": "An array stored in the cache of the analysis library under a key is returned for this key, unchanged in shape and values, until another one is stored under it: in the same program, in programs started later, whatever is stored under other keys or in caches of other directories, and if a program ends while storing, then either the old or the new array is returned.", "quantifier": "all histories of storing, reading, restarts and crashes, all keys, all arrays, any number of caches, all points of a crash", "why_tests_cant": "the property ranges over histories, restarts, crash points and all texts used as keys; a test stores one array and reads it back in the same process", "anchors": ["lib/python/picopic/tinycache.py: TinyCache (24-67), module statements (70-85)", "lib/python/picopic/reader.py: __init__ (40-49)"]}
{"id": "C133", "title": "What the summary of recorded results foretells is what the run does", "statement": "`parse_metadata.py --phys-info` of a file of results prints the number of steps the run makes, the times during which its beam enters the chamber, the number of particles that enter, when the beam has passed, and the plasma frequency and Debye length the program works with.", "quantifier": "every recorded configuration with electrons, ions and a moving beam, every step of the run and every choice of random numbers", "why_tests_cant": "Times of bunches, numbers of steps and sums of weights have to agree for every configuration and every step; a test compares one run, and the weights depend on random numbers.", "anchors": ["tools/parse_metadata.py: langmur_freq, debye_length, wake_length, phys_info", "src/beamP.cpp: BeamP::BeamP, BeamP::inject", "src/phys/plasma.cpp: debye_length, plasma_frequency", "src/cfg.cpp: Cfg::method_limitations_check", "lib/python/picopic/meta_reader.py: MetaReader"]}
{"id": "C134", "title": "Figures show the data where they are", "statement": "In figures made with the analysis library the number at every tick is the real coordinate of the place of the tick, axes run from the asked first to the asked last coordinate, the number of ticks is as asked or close to the guessed one, an array is drawn if and only if it has the size of the subplot, and at every tick of a colour bar stands its value.", "quantifier": "all sizes, coordinates, numbers of ticks and arrays", "why_tests_cant": "The number of ticks follows from the leading digit of the longest axis, and labels from two independent lists of equally spaced numbers; whether they agree and stay bounded has to be seen for all sizes and coordinates, not on a few figures that are compared by eye.", "anchors": ["lib/python/picopic/plot_builder.py: PlotBuilder.__init__, __guess_tick_size__, __add_subplot_common__, add_image, add_colorbar"]}
{"id": "C135", "title": "Time steps the program accepts keep the fields bounded", "statement": "If the program accepts the time step of a configuration without a message about it, the fields of a chamber stay bounded once no currents flow, whatever flowed before.", "quantifier": "all sizes of cells and chambers, time steps, media, histories of currents and numbers of steps", "why_tests_cant": "An instability of the field solver shows only after enough steps and for the fastest changing fields; runs of a given length with smooth fields pass, and boundedness speaks about all histories and all later steps.", "anchors": ["src/cfg.cpp: Cfg::method_limitations_check (636-650)", "src/maxwellSolver/maxwellSolverYee.cpp: calc_field_h, calc_field_e", "include/constant.hpp: LIGHT_VEL, EPSILON0, MAGN_CONST"]}
{"id": "C136", "title": "The functional test accepts results exactly when they agree with the stored ones", "statement": "The functional test of the project ends with success if and only if the fields of a run agree, within the tolerance, with the stored values: mean, deviation and variance of every field component. Values collected for later comparison are those of the runs they come from.", "quantifier": "all output files, stored values, tolerances and sequences of runs", "why_tests_cant": "A test of the test on some good and some bad results cannot tell which wrong results it lets pass; that is a statement about all pairs of results.", "anchors": ["test/functional/test.py: picopicTest.compare, fetch_test_data, test_example, collect_true_data, main part"]}
{"id": "C137", "title": "The performance test reports slowdowns", "statement": "The performance test reports the newest commit as failed if and only if its run takes at least a tenth longer than those of the earlier commits do on average.", "quantifier": "all numbers of commits and all times", "why_tests_cant": "Which slowdowns pass depends on the number of commits and on all their times; a few measured histories cannot tell the limit.", "anchors": ["test/performance/test.py: SingleTest.test_run, avg, main part"]}
{"id": "C138", "title": "The metadata tool shows the part it is asked for", "statement": "Asked for a path of keys, the metadata tool prints exactly the part of the recorded configuration at that path if there is one, and otherwise ends with a message; the short options for the comment and the build options do the same as the paths they stand for.", "quantifier": "all recorded configurations, all paths of keys and all combinations of the options", "why_tests_cant": "Records nest to any depth and keys are arbitrary texts; examples exercise a few paths only.", "anchors": ["tools/parse_metadata.py: main"]}
{"id": "C139", "title": "Notebooks run with the values that are asked for", "statement": "When a notebook is run by the script with arguments of the form variable=value, every line of it that assigns to one of these variables assigns the given value instead (the last one if several are given), and all other lines are as in the notebook.", "quantifier": "all notebooks (lines of code), all lists of arguments with names of variables and plain values", "why_tests_cant": "Lines and arguments are arbitrary texts and the replacement works on the stored form of the notebook; examples do not show which lines are missed or damaged.", "anchors": ["tools/nbrun.sh: loop over the arguments"]}
{"id": "C140", "title": "A simulation without rotation stays without rotation", "statement": "If at the start no particle moves around the axis and there is no azimuthal electric field, no radial or axial magnetic field and no azimuthal current, then none of them ever appears: after every number of steps all particles still have zero azimuthal angle and velocity, and these fields and currents are still zero. This holds also while beams are injected and while external fields act, as long as they have no such component themselves (every configured profile but the homogeneous axial magnetic field); in particular it holds for every run that starts from a configuration whose plasma has temperature zero. Collisions are left out: they turn the particles' velocities.", "quantifier": "all sizes and divisions of the chamber, all pushers, both ways of distributing currents, all species and beams, all particles and random numbers, all numbers of steps", "why_tests_cant": "A cylindrical geometry turns velocities at every step, and one wrong component in the pusher, in the interpolation or in the field solver would start a rotation that grows; whether it never happens concerns all states and numbers of steps.", "anchors": ["src/domain.cpp: push_particles, update_particles_coords, particles_back_position_to_rz, weight_current", "src/pusher/pusherBoris.cpp, pusherVay.cpp, pusherHC.cpp", "src/maxwellSolver/maxwellSolverYee.cpp: calc_field_e, calc_field_h", "src/current/currentZigZag.cpp, currentVB.cpp: current_distribution", "src/maxwellSolver/externalFields.cpp"]}
{"id": "C141", "title": "The mirror image of a simulation is a simulation", "statement": "Looked at in a mirror that contains the axis, a run is again a run: if all azimuthal velocities, azimuthal electric fields and currents and all radial and axial magnetic fields are reversed at the start, then after every step the results are the same but for the same reversal. A user relies on it when only one sense of rotation is simulated and the other one is concluded from it.", "quantifier": "all sizes and divisions of the chamber, all pushers, both ways of distributing currents, all states, all numbers of steps", "why_tests_cant": "It relates two runs from every state; each term of the solver, of the interpolation and of the pushers must have the right sign and component, and no single run shows a difference.", "anchors": ["include/maxwellSolver.hpp: get_field_e, get_field_h", "src/pusher/pusherHC.cpp, pusherBoris.cpp, pusherVay.cpp: operator()", "src/maxwellSolver/maxwellSolverYee.cpp: calc_field_e, calc_field_h", "src/domain.cpp: push_particles, update_particles_coords, weight_current", "src/current/currentZigZag.cpp, currentVB.cpp: current_distribution"]}
