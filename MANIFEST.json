{
 "claims": [
  {
   "property": "C01",
   "status": "proved",
   "theorems": [
    "Pico.Grid.C01_access_defined",
    "Pico.Grid.C01_set",
    "Pico.Grid.C01_update",
    "Pico.Grid.C01_update_outside",
    "Pico.Grid.C01_component"
   ],
   "note": "for all grids, element types, indices; 32 bit wrap of negative indices included"
  },
  {
   "property": "C02",
   "status": "proved",
   "theorems": [
    "Pico.Grid.C02_assign",
    "Pico.Grid.C02_scalar_ops",
    "Pico.Grid.C02_overlay_set",
    "Pico.Grid.C02_clear"
   ],
   "note": "for all sizes, contents and scalars"
  },
  {
   "property": "C03",
   "status": "proved",
   "theorems": [
    "Pico.Grid.C03_overlay_x",
    "Pico.Grid.C03_overlay_y",
    "Pico.Grid.C03_mismatch"
   ],
   "note": "for all grids and contents; the two grids are assumed to be different objects"
  },
  {
   "property": "C04",
   "status": "partial",
   "theorems": [
    "Pico.Grid.C04_overlay_xy_partial",
    "Pico.Grid.C04_nonsquare_ub",
    "Pico.Grid.C04_nonsquare_ub'",
    "Pico.Grid.C04_nonsquare_wrong"
   ],
   "note": "false for non-square grids (C04_nonsquare_*: undefined behaviour or wrong values); proved for square grids"
  },
  {
   "property": "C05",
   "status": "proved",
   "theorems": [
    "Pico.SMB.C05_chain_r",
    "Pico.SMB.C05_chain_z",
    "Pico.SMB.C05_edges",
    "Pico.SMB.C05_narrow"
   ],
   "note": "for every number of domains, every size (width at least 2*o_s, which C05_narrow shows to be needed) and content"
  },
  {
   "property": "C06",
   "status": "partial",
   "theorems": [
    "Pico.SMB.C06_cells_partial",
    "Pico.SMB.C06_lost",
    "Pico.SMB.C06_corner_partial",
    "Pico.SMB.C06_corner_incomplete",
    "Pico.SMB.C06_nonsquare_ub"
   ],
   "note": "C06_cells_partial: for every arrangement of equal domains, every cell holds after the pass the sum of all copies except those of the two antidiagonal neighbours; false of the code: C06_lost (general), C06_corner_incomplete (one copy misses a contribution), C06_nonsquare_ub"
  },
  {
   "property": "C07",
   "status": "proved",
   "theorems": [
    "Pico.SMB.C07_partition",
    "Pico.SMB.C07_walls",
    "Pico.SMB.C07_layers"
   ],
   "note": "for every number of domains and cells"
  },
  {
   "property": "C08",
   "status": "partial",
   "theorems": [
    "Pico.SMB.C08_slabs_partial",
    "Pico.SMB.C08_uneven"
   ],
   "note": "proved when the number of processes divides the number of cells; C08_uneven shows the general statement is false of the code"
  },
  {
   "property": "C09",
   "status": "partial",
   "theorems": [
    "Pico.SMB.C09_handover_partial",
    "Pico.SMB.C09_uneven_wrong_domain",
    "Pico.SMB.C09_uneven_ub",
    "Pico.SMB.C09_empty_domain_ub",
    "Pico.SMB.C09_same_id_duplicates"
   ],
   "note": "proved when the domains divide the area evenly; false otherwise: C09_uneven_wrong_domain, C09_uneven_ub, C09_empty_domain_ub, C09_same_id_duplicates"
  },
  {
   "property": "C10",
   "status": "partial",
   "theorems": [
    "Pico.SMB.C10_collision",
    "Pico.SMB.C10_last_char_partial"
   ],
   "note": "C10_collision: two different names get the same id; proved: names that differ only in the last character get different ids"
  },
  {
   "property": "C11",
   "status": "partial",
   "theorems": [
    "Pico.Threads.C11_rows_partial",
    "Pico.Threads.C11_two_rows",
    "Pico.Threads.C11_race_fails",
    "Pico.SMB.C11_handover_race"
   ],
   "note": "false: C11_handover_race (two concurrent visits access the same domain); the overlay sweeps are C67; C11_race_fails shows the race for every division into three or more rows, C11_rows_partial that there is none when no domain gets particles from both sides, C11_two_rows that one or two rows are always safe"
  },
  {
   "property": "C12",
   "status": "partial",
   "theorems": [
    "Pico.Mpi.C12_progress_partial",
    "Pico.Mpi.C12_terminates",
    "Pico.Mpi.C12_delivery",
    "Pico.Mpi.C12_deadlock",
    "Pico.Mpi.C12_columns",
    "Pico.Mpi.C12_width_one"
   ],
   "note": "termination, delivery and equal sums proved for every number of processes and schedule when the library buffers one round of items; C12_deadlock: otherwise no schedule finishes"
  },
  {
   "property": "C13",
   "status": "partial",
   "theorems": [
    "Pico.C13_conserves_partial",
    "Pico.C13_shares_partial",
    "Pico.C13_true_volume_fails",
    "Pico.C13_density_map"
   ],
   "note": "exact shares and totals for the denominators the code uses; C13_true_volume_fails: the denominator of the outer ring is not the volume of that cell because the CELL_VOLUME macro argument is unparenthesised, so charge density times true cell volume does not sum to the particle charge"
  },
  {
   "property": "C14",
   "status": "proved",
   "theorems": [
    "Pico.C14_local"
   ],
   "note": ""
  },
  {
   "property": "C15",
   "status": "proved",
   "theorems": [
    "Pico.Yee.C15_step",
    "Pico.Yee.C15_divergence_free"
   ],
   "note": "per domain, for every history of electric and magnetic steps, deposited currents and overlay contents"
  },
  {
   "property": "C16",
   "status": "partial",
   "theorems": [
    "Pico.Yee.C16_gauss",
    "Pico.Yee.C16_gauss_axis_partial",
    "Pico.Yee.C16_corner_fails"
   ],
   "note": "proved at every node off the axis and on the axis; C16_corner_fails: false at the node next to the corner of axis and z=0 wall, because E_z(0,0) is never updated"
  },
  {
   "property": "C17",
   "status": "proved",
   "theorems": [
    "Pico.VB.C17_continuity"
   ],
   "note": "for every move inside a cell along one axis or along both, with components either 0 or at least MNZL; the purely axial branch writes the radial current over (C19_axial_erases), so its total is stated for a grid without radial current"
  },
  {
   "property": "C18",
   "status": "partial",
   "theorems": [
    "Pico.VB.C18_continuity_partial",
    "Pico.VB.C18_axial_partial",
    "Pico.VB.C18_run_partial",
    "Pico.VB.C18_corner_fails",
    "Pico.VB.C18_border_start_fails",
    "Pico.VB.C18_jump_dropped",
    "Pico.VB.C18_radial_fails"
   ],
   "note": "proved for every path between neighbouring cells in general position (starts off the borders, no crossing at a cell corner, pieces of at least MNZL) and for sets of such particles; false otherwise: C18_corner_fails, C18_border_start_fails, C18_jump_dropped, C18_radial_fails"
  },
  {
   "property": "C19",
   "status": "partial",
   "theorems": [
    "Pico.VB.C19_adds_partial",
    "Pico.VB.C19_order_partial",
    "Pico.VB.C19_axial_erases",
    "Pico.VB.C19_overlay_lost",
    "Pico.VB.C19_order_matters"
   ],
   "note": "accumulation and order independence proved for particles that do not move along the axis only and away from the last row/column; false otherwise: C19_axial_erases, C19_overlay_lost, C19_order_matters"
  },
  {
   "property": "C20",
   "status": "partial",
   "theorems": [
    "Pico.ZigZag.C20_totals_partial",
    "Pico.ZigZag.C20_phi_fails",
    "Pico.ZigZag.C20_relay",
    "Pico.ZigZag.C20_call_partial",
    "Pico.ZigZag.C20_order_partial"
   ],
   "note": "radial and axial totals exact and relay points proved for every move, the call as a whole is the sum of the deposits in any order (C20_call_partial, C20_order_partial); the azimuthal total carries the factor 1+(1-Wr2)(Wz1-Wz2) (C20_phi_fails)"
  },
  {
   "property": "C21",
   "status": "proved",
   "theorems": [
    "Pico.Yee.C21_event",
    "Pico.Yee.C21_conducting"
   ],
   "note": ""
  },
  {
   "property": "C22",
   "status": "proved",
   "theorems": [
    "Pico.Yee.C22_factor",
    "Pico.Yee.C22_profile",
    "Pico.Yee.C22_damps",
    "Pico.Pic.C22_start",
    "Pico.Pic.C22_start_free"
   ],
   "note": " C22_start, C22_start_free: at the start of a run (C110) the conductivity of every cell of every domain is that of the configured left, outer and right layers at the place of the cell in the chamber, whatever the division; zero away from the layers."
  },
  {
   "property": "C23",
   "status": "partial",
   "theorems": [
    "Pico.Interp.C23_magnetic",
    "Pico.Interp.C23_electric_partial",
    "Pico.Interp.C23_weights",
    "Pico.Interp.C23_uniform_fails",
    "Pico.Interp.C23_components_mix",
    "Pico.Interp.C23_axis_division"
   ],
   "note": "exact weighted sums, non-negative local weights; false: a uniform field is always seen weaker (C23_uniform_fails), part of E_phi goes into E_z (C23_components_mix), division by zero within half a cell of the axis (C23_axis_division)"
  },
  {
   "property": "C24",
   "status": "partial",
   "theorems": [
    "Pico.Ext.C24_magnetic_const_z_partial",
    "Pico.Ext.C24_none",
    "Pico.Ext.C24_magnetic_unknown_rejected",
    "Pico.Ext.C24_electric_fails",
    "Pico.Ext.C24_magnetic_ignored_fails",
    "Pico.Ext.C24_missing_parameter"
   ],
   "note": "proved: magnetic const_z applied exactly, none, unknown magnetic names rejected; false: electric fields are never applied nor checked (C24_electric_fails), other magnetic profiles are accepted and ignored (C24_magnetic_ignored_fails), missing parameter is undefined behaviour"
  },
  {
   "property": "C25",
   "status": "partial",
   "theorems": [
    "Pico.Pusher.C25_vay_partial",
    "Pico.Pusher.C25_vay_fails",
    "Pico.Pusher.C25_hc_partial",
    "Pico.Pusher.C25_hc_fails"
   ],
   "note": "Vay: only with c = 1, false in SI units (C25_vay_fails); Higuera-Cary: only without field or H_phi = H_z = +-H_r, false otherwise (C25_hc_fails)"
  },
  {
   "property": "C26",
   "status": "partial",
   "theorems": [
    "Pico.Pusher.C26_adaptive_fails",
    "Pico.Pusher.C26_classic_partial",
    "Pico.Pusher.C26_history_partial"
   ],
   "note": "false: C26_adaptive_fails (a strong electric field pushes a slow particle beyond c, the next push aborts); the relativistic pushers are C72; C26_history_partial: with kicks smaller than the room between the switch and the speed of light the default pusher keeps every particle below it for ever; C26_classic_partial: one push with the classic pusher"
  },
  {
   "property": "C27",
   "status": "partial",
   "theorems": [
    "Pico.Pic.C27_possible",
    "Pico.Pic.C27_fast_run_partial",
    "Pico.Pic.C27_slow_possible",
    "Pico.Pic.C27_goes_on",
    "Pico.Pusher.C27_fast_partial",
    "Pico.Pusher.C27_indeterminate"
   ],
   "note": "proved above the switch; below it the default pusher depends on an uninitialised variable (C27_indeterminate) For whole runs: every run of the relativistic build is a possible run of the default build (C27_possible); the two builds have the same runs as long as all particles are faster than the switch (C27_fast_run_partial); as long as none is faster the runs of the classical build are possible as well (C27_slow_possible); and the default build can always go on (C27_goes_on)."
  },
  {
   "property": "C28",
   "status": "partial",
   "theorems": [
    "Pico.Rel.C28_energy",
    "Pico.Rel.C28_energy_from_momentum",
    "Pico.Rel.C28_energy_gap",
    "Pico.Rel.C28_massless_energy"
   ],
   "note": "non-negative, monotone, agreement above the switch proved; false: energies differ between the two switches (C28_energy_gap), mass 0 is accepted (C28_massless_energy)"
  },
  {
   "property": "C29",
   "status": "partial",
   "theorems": [
    "Pico.Part.C29_reflect_partial",
    "Pico.Part.C29_zero_fails",
    "Pico.Part.C29_one_cell_diverges",
    "Pico.Part.C29_advance_partial",
    "Pico.Part.C29_chamber_partial"
   ],
   "note": "termination, unique result between the walls, successive mirror images proved for every particle whose local coordinates are not exactly zero and domains of more than one cell between opposite walls; false otherwise: C29_zero_fails, C29_one_cell_diverges"
  },
  {
   "property": "C30",
   "status": "partial",
   "theorems": [
    "Pico.Part.C30_position_partial",
    "Pico.Part.C30_move_partial",
    "Pico.Part.C30_straight_line_fails",
    "Pico.Part.C30_axis_division",
    "Pico.Part.C30_behind_axis_fails"
   ],
   "note": "radius, z and length of the velocity proved; the straight line motion is false: the velocity is rotated in the wrong direction (C30_straight_line_fails), and behind or on the axis C30_behind_axis_fails, C30_axis_division"
  },
  {
   "property": "C31",
   "status": "partial",
   "theorems": [
    "Pico.Pic.C31_profile",
    "Pico.Pic.C31_start_partial",
    "Pico.Place.C31_weights_partial",
    "Pico.Place.C31_shares",
    "Pico.Place.C31_wall_fails",
    "Pico.Place.C31_domains",
    "Pico.Place.C31_processes_fails",
    "Pico.Place.C31_fill_partial"
   ],
   "note": "proved for domains off the outer and right wall, for every list of particles, and summed over the domains of one process; false at the outer/right wall (C31_wall_fails) and for several processes (C31_processes_fails) For whole starts (every placement, every division of the chamber), C31_profile and C31_start_partial compare the weights of each species in each domain with the configured density profile."
  },
  {
   "property": "C32",
   "status": "partial",
   "theorems": [
    "Pico.Place.C32_centered_partial",
    "Pico.Place.C32_centered_count_fails",
    "Pico.Place.C32_nearest",
    "Pico.Place.C32_random_partial",
    "Pico.Place.C32_profile",
    "Pico.Place.C32_flat",
    "Pico.Place.C32_flat_outside_fails",
    "Pico.Place.C32_regular_partial",
    "Pico.Place.C32_regular_count_fails"
   ],
   "note": "proved: modes flat/random place exactly the configured number within the shifted area and follow the profile, centered cells, rounding up to a multiple, regular loop; false: C32_flat_outside_fails (positions outside the domain), C32_centered_count_fails, C32_regular_count_fails (fewer particles than configured)"
  },
  {
   "property": "C33",
   "status": "proved",
   "theorems": [
    "Pico.Rand.C33_value",
    "Pico.Rand.C33_distinct",
    "Pico.Rand.C33_base_one",
    "Pico.Rand.C33_floor"
   ],
   "note": "exact value (digits mirrored behind the point), range, injectivity, termination; base one does not terminate (C33_base_one)"
  },
  {
   "property": "C34",
   "status": "partial",
   "theorems": [
    "Pico.Beam.C34_counter",
    "Pico.Beam.C34_window_partial",
    "Pico.Beam.C34_complete_partial",
    "Pico.Beam.C34_outer_domain_fails",
    "Pico.Beam.C34_gap_fails",
    "Pico.Beam.C34_radius_fails"
   ],
   "note": "safety in every history, counter bound, completeness for the corner domain with a gap of more than one step proved; false: outer domains only get the first bunch (C34_outer_domain_fails), bunches without distance lose steps (C34_gap_fails), positions beyond the radius by half a cell (C34_radius_fails)"
  },
  {
   "property": "C35",
   "status": "partial",
   "theorems": [
    "Pico.Beam.C35_beam_fails",
    "Pico.Part.C35_bind_partial",
    "Pico.Part.C35_negative_fails"
   ],
   "note": "proved for positions that are not negative; C35_negative_fails: the cell number wraps around for negative ones; C35_beam_fails: injected beam particles get a wrong z cell"
  },
  {
   "property": "C36",
   "status": "partial",
   "theorems": [
    "Pico.Coll.C36_unlike_partial",
    "Pico.Coll.C36_rounding_fails",
    "Pico.Coll.C36_cell_fails"
   ],
   "note": "proved for exact quotients; with the rounding to float one particle is missed (C36_rounding_fails, C36_cell_fails)"
  },
  {
   "property": "C37",
   "status": "partial",
   "theorems": [
    "Pico.Coll.C37_partial",
    "Pico.Coll.C37_moving_partial",
    "Pico.Coll.C37_fails"
   ],
   "note": "exact characterisation C37_partial: cell and all cells before it in the row; C37_fails: an empty cell hides the rest of the row"
  },
  {
   "property": "C38",
   "status": "partial",
   "theorems": [
    "Pico.Coll.C38_SK98_partial",
    "Pico.Coll.C38_P12_partial",
    "Pico.Coll.C38_head_on_fails",
    "Pico.Coll.C38_axial_fails",
    "Pico.Coll.C38_P12_angle",
    "Pico.Coll.C38_P12_angle_fails",
    "Pico.Coll.C38_P12_rejection_fails",
    "Pico.Coll.C38_TA77S_change",
    "Pico.Coll.C38_TA77S_fails",
    "Pico.Coll.C38_TA77S_energy_fails",
    "Pico.Coll.C38_TA77S_length_fails"
   ],
   "note": "SK98 and P12 conserve relativistic momentum and energy exactly whenever their result is defined and not one-sidedly rejected (C38_SK98_partial, C38_P12_partial); false: TA77S never conserves momentum (C38_TA77S_fails) nor energy (C38_TA77S_energy_fails); opposite momenta and axial velocities give NaN; the rejection of P12 stops a particle; small random numbers give NaN in P12"
  },
  {
   "property": "C39",
   "status": "partial",
   "theorems": [
    "Pico.Coll.C39_partial",
    "Pico.Coll.C39_cold_fails",
    "Pico.Coll.C39_pair_fails"
   ],
   "note": "proved when the species had and has two different velocities in the cell; C39_cold_fails: nothing is restored for a species with a common velocity (a single particle), C39_pair_fails end to end"
  },
  {
   "property": "C40",
   "status": "partial",
   "theorems": [
    "Pico.Coll.C40_like_fails",
    "Pico.Coll.C40_heavy_fails",
    "Pico.Coll.C40_SK98_partial"
   ],
   "note": "false: particles of equal mass never collide in SK98 and P12 (C40_like_fails), nor if the heavier one has the smaller weight (C40_heavy_fails); C40_SK98_partial: otherwise both are deflected"
  },
  {
   "property": "C41",
   "status": "partial",
   "theorems": [
    "Pico.Coll.C41_partial",
    "Pico.Coll.C41_partition",
    "Pico.Coll.C41_kind_fails",
    "Pico.Coll.C41_outside_fails"
   ],
   "note": "proved for particles bound to cells of the domain, kinds by the two ion names; C41_kind_fails: ions with other names count as electrons; C41_outside_fails: wrong cell numbers are written outside of the array"
  },
  {
   "property": "C42",
   "status": "partial",
   "theorems": [
    "Pico.Out.C42_partial",
    "Pico.Out.C42_frames_partial",
    "Pico.Out.C42_zero_fails",
    "Pico.Out.C42_short_zero_fails",
    "Pico.Out.C42_short_fails",
    "Pico.Out.C42_late_clock_fails",
    "Pico.Out.C42_rounding_fails"
   ],
   "note": "proved for exact time, schedules 1..65535 and up to 2^31 steps; false: schedule 0, schedules from 65536 (unsigned short in the writer), any late clock, and in IEEE doubles with step 0.1 (C42_rounding_fails: frame 3 never, frame 4 twice)"
  },
  {
   "property": "C43",
   "status": "proved",
   "theorems": [
    "Pico.Out.C43_steps"
   ],
   "note": "for exact time; the run starts at 0 whatever start is configured (C75)"
  },
  {
   "property": "C44",
   "status": "partial",
   "theorems": [
    "Pico.Probe.C44_partial",
    "Pico.Probe.C44_edge_fails",
    "Pico.Probe.C44_short_fails"
   ],
   "note": "proved when no radial edge of the rectangle lies on an inner domain boundary and the area is below 32768 cells; C44_edge_fails, C44_short_fails otherwise"
  },
  {
   "property": "C45",
   "status": "partial",
   "theorems": [
    "Pico.Sig.C45_close_partial",
    "Pico.Sig.C45_waits",
    "Pico.Sig.C45_resume_partial",
    "Pico.Sig.C45_pause_in_step_fails",
    "Pico.Sig.C45_output_after_resume_fails",
    "Pico.Sig.C45_quit_paused_fails",
    "Pico.Sig.C45_quit_finished_fails"
   ],
   "note": "histories without a pause request proved; waiting and resuming proved; false: pause inside a step, every output after a resume, exit signals when paused or after the end"
  },
  {
   "property": "C46",
   "status": "partial",
   "theorems": [
    "Pico.Probe.C46_rect_partial",
    "Pico.Probe.C46_shapes_fails",
    "Pico.Probe.C46_empty_fails",
    "Pico.Probe.C46_reader_partial",
    "Pico.Probe.C46_reader_fails",
    "Pico.Probe.C46_same_group_fails",
    "Pico.Probe.C46_create_partial",
    "Pico.Probe.C46_component_fails"
   ],
   "note": "rectangles, and the reader for rectangles and dots proved; false: column, row and dot probes are undefined behaviour, empty rectangles, the reader always opens row/column 0, two probes in one group abort, unknown components"
  },
  {
   "property": "C47",
   "status": "partial",
   "theorems": [
    "Pico.Limits.C47_domains_partial",
    "Pico.Limits.C47_domains_fails"
   ],
   "note": "C47_domains_partial: never more than the amount, and less than one per domain is lost; C47_domains_fails: the remainder of the division over the domains is lost"
  },
  {
   "property": "C48",
   "status": "partial",
   "theorems": [
    "Pico.Limits.C48_partial",
    "Pico.Limits.C48_step_partial",
    "Pico.Limits.C48_step_fails",
    "Pico.Limits.C48_zero_domains_fails",
    "Pico.Limits.C48_last_match_fails",
    "Pico.Limits.C48_ion_name_fails",
    "Pico.Limits.C48_debye_fails",
    "Pico.Limits.C48_messages_partial",
    "Pico.Limits.C48_particles_fails",
    "Pico.Limits.C48_configured_partial"
   ],
   "note": "domain counts and densities proved; false: time steps are never rejected, zero domains pass, only the last electron-like species counts, ions are found by name, the Debye length uses exchanged temperatures. C48_messages_partial and C48_configured_partial: exact conditions of all messages, from the configuration; C48_particles_fails: the square of the number of rows is taken for the number of cells."
  },
  {
   "property": "C49",
   "status": "partial",
   "theorems": [
    "Pico.Help.C49_partial",
    "Pico.Help.C49_corner_fails",
    "Pico.Help.C49_bicubic_fails",
    "Pico.Help.C49_bicubic_overlay_fails"
   ],
   "note": "bounds and constants proved for all cells but the first; false: cell (0,0) is never set, bicubic does not interpolate at all and is undefined without overlay"
  },
  {
   "property": "C50",
   "status": "partial",
   "theorems": [
    "Pico.Help.C50_split_partial",
    "Pico.Help.C50_split_join",
    "Pico.Help.C50_split_fails",
    "Pico.Help.C50_config_partial",
    "Pico.Help.C50_config_fails",
    "Pico.Help.C50_multiple_partial",
    "Pico.Help.C50_multiple_fails"
   ],
   "note": "splitting proved for strings without empty parts and without a delimiter in front; C50_split_fails, C50_config_fails, C50_multiple_fails"
  },
  {
   "property": "C51",
   "status": "partial",
   "theorems": [
    "Pico.Help.C51_partial",
    "Pico.Help.C51_text_partial",
    "Pico.Help.C51_fails"
   ],
   "note": "false: the text is printed into a buffer of one byte for every elapsed time (C51_fails); with a large enough buffer C51_partial C51_text_partial: the text character by character."
  },
  {
   "property": "C52",
   "status": "partial",
   "theorems": [
    "Pico.Vec3.C52_alias_fails",
    "Pico.Vec3.C52_cross_mutates",
    "Pico.Vec3.C52_abs_mutates",
    "Pico.Vec3.C52_pow_mutates"
   ],
   "note": "false: cross, abs and pow overwrite their operand (C52_*_mutates), compound assignment with a component of the vector itself (C52_alias_fails)"
  },
  {
   "property": "C53",
   "status": "partial",
   "theorems": [
    "Pico.SMB.C53_cell_size_partial",
    "Pico.SMB.C53_cell_size_uneven"
   ],
   "note": "proved when the domains divide the cells; C53_cell_size_uneven: false in every other case"
  },
  {
   "property": "C54",
   "status": "partial",
   "theorems": [
    "Pico.VB.C54_gauss_kept_partial"
   ],
   "note": "proved for sets of particles on paths in general position (see C18) at inner nodes of one domain; on other paths the code does not conserve charge (C18_*_fails)"
  },
  {
   "property": "C55",
   "status": "partial",
   "theorems": [
    "Pico.Pusher.C55_vay_partial"
   ],
   "note": "Vay with c = 1; false for Vay in other units and for Higuera-Cary (see C25_vay_fails, C25_hc_fails)"
  },
  {
   "property": "C56",
   "status": "partial",
   "theorems": [
    "Pico.Yee.C56_ampere_partial",
    "Pico.Yee.C56_corner_fails"
   ],
   "note": "proved for all cells but the corner on the axis, where C56_corner_fails"
  },
  {
   "property": "C57",
   "status": "partial",
   "theorems": [
    "Pico.VB.C57_partial",
    "Pico.VB.C57_total_partial",
    "Pico.VB.C57_volume_fails",
    "Pico.VB.C57_crossing_fails"
   ],
   "note": "shares and total proved with the volumes the code uses, for particles that stay in a cell (total: any move); false: the inner node has a wrong volume (C57_volume_fails), wrong sign when the particle crosses a row (C57_crossing_fails)"
  },
  {
   "property": "C58",
   "status": "partial",
   "theorems": [
    "Pico.Help.C58_partial",
    "Pico.Help.C58_slash_fails",
    "Pico.Help.C58_race_fails"
   ],
   "note": "success and failure reports proved without a trailing slash and without other processes; C58_slash_fails, C58_race_fails"
  },
  {
   "property": "C59",
   "status": "partial",
   "theorems": [
    "Pico.Maps.C59_partial",
    "Pico.Maps.C59_fast_fails",
    "Pico.Maps.C59_border_fails"
   ],
   "note": "mean of the relativistic momenta proved for particles below REL_LIMIT within a domain; C59_fast_fails: no relativistic factor from REL_LIMIT on; C59_border_fails: particles of the neighbour domain are left out"
  },
  {
   "property": "C60",
   "status": "partial",
   "theorems": [
    "Pico.Maps.C60_partial",
    "Pico.Maps.C60_relativistic_partial",
    "Pico.Maps.C60_fast_fails",
    "Pico.Maps.C60_mean_fails"
   ],
   "note": "proved for particles of one common speed below REL_LIMIT; C60_mean_fails: different speeds give less than the mean energy; C60_fast_fails: no relativistic factor from REL_LIMIT on"
  },
  {
   "property": "C61",
   "status": "partial",
   "theorems": [
    "Pico.Maps.C61_partial",
    "Pico.Maps.C61_negative_fails"
   ],
   "note": "non-negative and zero for cold beams when the energy map was computed just before; C61_negative_fails: otherwise it uses absolute momenta of an earlier call"
  },
  {
   "property": "C62",
   "status": "proved",
   "theorems": [
    "Pico.Yee.C62_step",
    "Pico.Yee.C62_run",
    "Pico.Yee.C62_cells"
   ],
   "note": "all equal divisions (chain or squares) with at least two cells per domain, any number of steps; the exact exchange order of the code; uneven divisions change the cell size (C53), other 2-D layouts are undefined (C06)"
  },
  {
   "property": "C63",
   "status": "partial",
   "theorems": [
    "Pico.Interp.C63_partial",
    "Pico.Interp.C63_chain_partial",
    "Pico.Interp.C63_corner_fails",
    "Pico.Interp.C63_run_fails"
   ],
   "note": "holds for chains and everywhere off the cells where four domains meet; there it is false: the high-low and low-high overlay corners are never exchanged (C63_corner_fails, C63_run_fails)"
  },
  {
   "property": "C64",
   "status": "proved",
   "theorems": [
    "Pico.Yee.C64_faraday"
   ],
   "note": "all cells, all contents"
  },
  {
   "property": "C65",
   "status": "proved",
   "theorems": [
    "Pico.Limits.C65_budget",
    "Pico.Limits.C65_shares"
   ],
   "note": "for budgets below 2^32 and sizes that are not negative"
  },
  {
   "property": "C66",
   "status": "proved",
   "theorems": [
    "Pico.Vec3.C66_refines",
    "Pico.Vec3.C66_space",
    "Pico.Vec3.C66_cross",
    "Pico.Vec3.C66_eq",
    "Pico.Vec3.C66_assign",
    "Pico.Vec3.C66_index",
    "Pico.Vec3.C66_length"
   ],
   "note": "against the vector space K^3 of Mathlib, any field"
  },
  {
   "property": "C67",
   "status": "proved",
   "theorems": [
    "Pico.SMB.C67_footprint",
    "Pico.SMB.C67_disjoint",
    "Pico.SMB.C67_order_irrelevant"
   ],
   "note": "every layout; exact footprints, disjointness, commutation of concurrent visits"
  },
  {
   "property": "C68",
   "status": "proved",
   "theorems": [
    "Pico.Rel.C68_velocity_round_trip",
    "Pico.Rel.C68_momentum_round_trip",
    "Pico.Rel.C68_value",
    "Pico.Rel.C68_too_fast",
    "Pico.Rel.C68_massless_rejected",
    "Pico.Rel.C68_four_momentum"
   ],
   "note": "over the reals"
  },
  {
   "property": "C69",
   "status": "proved",
   "theorems": [
    "Pico.Coll.C69_like",
    "Pico.Coll.C69_unlike_equal"
   ],
   "note": ""
  },
  {
   "property": "C70",
   "status": "proved",
   "theorems": [
    "Pico.Help.C70_option"
   ],
   "note": ""
  },
  {
   "property": "C71",
   "status": "proved",
   "theorems": [
    "Pico.Pusher.C71_boris",
    "Pico.Pusher.C71_boris_domain",
    "Pico.Pusher.C71_lorentz_classic",
    "Pico.Pusher.C71_lorentz_relativistic"
   ],
   "note": "over the reals; adaptive Boris included for the work of the magnetic field, with any value of its uninitialised flag"
  },
  {
   "property": "C72",
   "status": "proved",
   "theorems": [
    "Pico.Pusher.C72_step",
    "Pico.Pusher.C72_history"
   ],
   "note": "over the reals, every history of fields"
  },
  {
   "property": "C73",
   "status": "proved",
   "theorems": [
    "Pico.Probe.C73_paths_distinct",
    "Pico.Probe.C73_source_distinct"
   ],
   "note": "for the component names the program knows"
  },
  {
   "property": "C74",
   "status": "proved",
   "theorems": [
    "Pico.Part.C74_energy",
    "Pico.Part.C74_beam"
   ],
   "note": "whenever the reflection ends (C29 says when)"
  },
  {
   "property": "C75",
   "status": "partial",
   "theorems": [
    "Pico.Out.C75_step_fails",
    "Pico.Out.C75_start_fails",
    "Pico.Out.C75_zero_partial"
   ],
   "note": "false: C75_start_fails (the start has no effect), C75_step_fails (steps that are not positive are accepted and the run never ends); C75_zero_partial: positive steps and intervals that start at zero are run through exactly"
  },
  {
   "property": "C76",
   "status": "proved",
   "theorems": [
    "Pico.Yee.C76_balance",
    "Pico.Yee.C76_conserved"
   ],
   "note": "exact arithmetic; single domain with walls on all sides and the axis (C62 carries it over to divided areas)"
  },
  {
   "property": "C77",
   "status": "proved",
   "theorems": [
    "Pico.Yee.C77_bounded",
    "Pico.Yee.C77_components"
   ],
   "note": "exact arithmetic; the electric field pointwise, the magnetic field in the energy norm"
  },
  {
   "property": "C78",
   "status": "partial",
   "theorems": [
    "Pico.Vel.C78_start_partial",
    "Pico.Vel.C78_start_fails",
    "Pico.Vel.C78_rectangular_partial",
    "Pico.Vel.C78_rectangular_fails",
    "Pico.Vel.C78_eigen_partial",
    "Pico.Vel.C78_eigen_fails",
    "Pico.Vel.C78_thermal_partial",
    "Pico.Vel.C78_thermal_fails",
    "Pico.Vel.C78_too_few_energies_fails",
    "Pico.Vel.C78_negative_energy_fails"
   ],
   "note": "false for hot species: C78_rectangular_fails, C78_eigen_fails, C78_thermal_fails (the three components are bounded, not the velocity), C78_start_fails (velocity not a number), C78_too_few_energies_fails; proved below the stated temperatures"
  },
  {
   "property": "C79",
   "status": "partial",
   "theorems": [
    "Pico.Vel.C79_cold",
    "Pico.Vel.C79_rectangular_partial",
    "Pico.Vel.C79_rectangular_fails",
    "Pico.Vel.C79_eigen_fails",
    "Pico.Vel.C79_hotter_partial",
    "Pico.Vel.C79_hotter_fails"
   ],
   "note": "false: C79_rectangular_fails (two thirds of the temperature), C79_eigen_fails (twice, and all velocities equal), C79_hotter_fails (jump where the formula changes); the zero temperature is proved for all three"
  },
  {
   "property": "C80",
   "status": "partial",
   "theorems": [
    "Pico.Vel.C80_classical_partial",
    "Pico.Vel.C80_table_end_fails",
    "Pico.Vel.C80_relativistic_partial",
    "Pico.Vel.C80_nonneg_partial",
    "Pico.Vel.C80_zero_draw_fails",
    "Pico.Vel.C80_small_draw_fails"
   ],
   "note": "false: C80_table_end_fails (read past the table), C80_zero_draw_fails, C80_small_draw_fails (hot species: energy -1 or not a number); proved for random numbers within the tables. That the sampling ends is not claimed (it depends on the random numbers); the distribution of the energies is not modelled"
  },
  {
   "property": "C81",
   "status": "partial",
   "theorems": [
    "Pico.Vel.C81_classical_partial",
    "Pico.Vel.C81_low_tail_fails",
    "Pico.Vel.C81_high_tail_fails",
    "Pico.Vel.C81_relativistic_partial"
   ],
   "note": "false in both tails: C81_low_tail_fails (constant 4/3 for 3/4), C81_high_tail_fails; proved within the tables"
  },
  {
   "property": "C82",
   "status": "partial",
   "theorems": [
    "Pico.ZigZag.C82_continuity_partial",
    "Pico.ZigZag.C82_cell_size_fails"
   ],
   "note": "proved for cells of unit size (C82_continuity_partial); false otherwise: the currents miss the cell sizes (C82_cell_size_fails)"
  },
  {
   "property": "C83",
   "status": "partial",
   "theorems": [
    "Pico.Coll.C83_axis_partial",
    "Pico.Coll.C83_shift_fails"
   ],
   "note": "proved for domains at the axis; false in all others: C83_shift_fails (unparenthesised macro)"
  },
  {
   "property": "C84",
   "status": "partial",
   "theorems": [
    "Pico.Coll.C84_temperature_partial",
    "Pico.Coll.C84_fails",
    "Pico.Coll.C84_drift_fails"
   ],
   "note": "false: C84_fails, C84_drift_fails (mean motion counted, 3/2 T instead of T); C84_temperature_partial says by how much"
  },
  {
   "property": "C85",
   "status": "proved",
   "theorems": [
    "Pico.Coll.C85_debye"
   ],
   "note": "positive weights and masses, exact arithmetic"
  },
  {
   "property": "C86",
   "status": "partial",
   "theorems": [
    "Pico.Coll.C86_log",
    "Pico.Coll.C86_log_value",
    "Pico.Coll.C86_TA77S_partial",
    "Pico.Coll.C86_neutral_fails",
    "Pico.Coll.C86_order_partial",
    "Pico.Coll.C86_P12_partial",
    "Pico.Coll.C86_P12_density_fails",
    "Pico.Coll.C86_SK98_fails",
    "Pico.Coll.C86_P12_fast_partial",
    "Pico.Coll.C86_P12_rest_fails"
   ],
   "note": "proved for TA77S and charged particles (order only for unequal weights); C86_log_value pins the Coulomb logarithm, C86_P12_fast_partial the parameter of P12 for fast particles; false: C86_neutral_fails, C86_P12_density_fails, C86_P12_rest_fails, C86_SK98_fails"
  },
  {
   "property": "C87",
   "status": "partial",
   "theorems": [
    "Pico.Mpi.C87_delivery",
    "Pico.Mpi.C87_terminates",
    "Pico.Mpi.C87_progress_partial",
    "Pico.Mpi.C87_finishes_partial",
    "Pico.Mpi.C87_deadlock",
    "Pico.SMB.C87_handover_partial",
    "Pico.SMB.C87_takes_place_partial",
    "Pico.SMB.C87_escape_fails",
    "Pico.SMB.C87_rendezvous_fails"
   ],
   "note": "proved for even divisions and particles that move at most one slab and do not leave diagonally, for every schedule and buffering with which the exchange ends; false: C87_escape_fails (diagonal or far moves are undefined behaviour), C87_deadlock and C87_rendezvous_fails (all processes send first)"
  },
  {
   "property": "C88",
   "status": "partial",
   "theorems": [
    "Pico.Dump.C88_prepares",
    "Pico.Dump.C88_density_partial",
    "Pico.Dump.C88_corner",
    "Pico.Dump.C88_order",
    "Pico.Dump.C88_undivided",
    "Pico.Dump.C88_corner_fails",
    "Pico.Dump.C88_order_fails"
   ],
   "note": "preparing never fails; right everywhere but at inner corner cells if the last probe preparing the species is a density probe; right always without a division; false: C88_corner_fails (share of the diagonal domain is missing), C88_order_fails (a later temperature, energy or momentum probe of the species removes the shares of the neighbours)"
  },
  {
   "property": "C89",
   "status": "partial",
   "theorems": [
    "Pico.Species.C89_partial",
    "Pico.Species.C89_density",
    "Pico.Species.C89_mass_fails",
    "Pico.Species.C89_charge_fails",
    "Pico.Species.C89_negative_fails"
   ],
   "note": "proved for whole charges and masses; false: C89_mass_fails, C89_charge_fails (fractions cut off), C89_negative_fails (negative mass wraps around)"
  },
  {
   "property": "C90",
   "status": "partial",
   "theorems": [
    "Pico.Species.C90_unique",
    "Pico.Species.C90_lookup_partial",
    "Pico.Species.C90_clash_fails"
   ],
   "note": "rejection proved exactly within species and within beams (C90_unique); a probe finds its species unless a beam has that name with the prefix (C90_clash_fails)"
  },
  {
   "property": "C91",
   "status": "partial",
   "theorems": [
    "Pico.GeoCfg.C91_partial",
    "Pico.GeoCfg.C91_layers_fails",
    "Pico.GeoCfg.C91_negative_fails",
    "Pico.GeoCfg.C91_fraction_fails",
    "Pico.GeoCfg.C91_domains_fails"
   ],
   "note": "proved for whole positive numbers of cells and fractions between 0 and 1; false: C91_layers_fails (too wide or overlapping layers accepted), C91_negative_fails (undefined behaviour), C91_fraction_fails, C91_domains_fails"
  },
  {
   "property": "C92",
   "status": "partial",
   "theorems": [
    "Pico.Yee.C92_cut_partial",
    "Pico.Yee.C92_exists",
    "Pico.Yee.C92_far_partial",
    "Pico.Yee.C92_first_partial",
    "Pico.Yee.C92_border_fails",
    "Pico.Yee.C92_ex_fails"
   ],
   "note": "proved for even divisions: the processes compute exactly the fields of an area cut at their borders (C92_cut_partial), so the first step is right everywhere and after n steps all cells n columns away from the borders (C92_far_partial), for every schedule; false next to the borders from the second step on (C92_border_fails, C92_ex_fails): the magnetic field of the solver is not exchanged between processes"
  },
  {
   "property": "C93",
   "status": "partial",
   "theorems": [
    "Pico.Probe.C93_partial",
    "Pico.Probe.C93_uneven_fails"
   ],
   "note": "proved if the number of processes divides the number of columns and no border between domains along the radius coincides with an edge of the rectangle; false otherwise: C93_uneven_fails (the last column is never written)"
  },
  {
   "property": "C94",
   "status": "partial",
   "theorems": [
    "Pico.Dump.C94_inside_partial",
    "Pico.Dump.C94_border",
    "Pico.Dump.C94_border_fails"
   ],
   "note": "right everywhere but in the first column of a process and at inner corner cells (C94_inside_partial); C94_border gives exactly what is missing; false: C94_border_fails"
  },
  {
   "property": "C95",
   "status": "partial",
   "theorems": [
    "Pico.Dump.C95_own",
    "Pico.Dump.C95_inside_partial",
    "Pico.Dump.C95_row_fails",
    "Pico.Dump.C95_column_fails"
   ],
   "note": "every domain shows the value of its own particles (C95_own), which is the value of all particles at every cell not in the first row or column of an inner domain (C95_inside_partial); false there: C95_row_fails, C95_column_fails (the exchanges add only zeros)"
  },
  {
   "property": "C96",
   "status": "partial",
   "theorems": [
    "Pico.Yee.C96_zigzag_exact_partial",
    "Pico.Yee.C96_zigzag_partial",
    "Pico.Yee.C96_vb_exact_partial",
    "Pico.Yee.C96_vb_partial",
    "Pico.Yee.C96_corner_fails",
    "Pico.Yee.C96_azimuthal_fails"
   ],
   "note": "exact contents for every division and all particles, both schemes (C96_zigzag_exact_partial, C96_vb_exact_partial); equal to the undivided volume when no path cuts the corner of a domain (C96_zigzag_partial for all three components, C96_vb_partial for the radial and axial ones); false otherwise: C96_corner_fails, C96_azimuthal_fails (the azimuthal current of the second scheme is always lost at borders of domains)"
  },
  {
   "property": "C97",
   "status": "partial",
   "theorems": [
    "Pico.Pic.C97_step_partial",
    "Pico.Pic.C97_run_partial",
    "Pico.Pic.C97_single",
    "Pico.Pic.C97_border_fails",
    "Pico.Pic.C97_classical_partial",
    "Pico.Pic.C97_neutral"
   ],
   "note": "both deposition schemes; proved without reservation for an undivided chamber when light travels at most half a cell per step (C97_single); for any division and the Courant limit as long as no particle arrives exactly at the lower or left border of its domain (C97_step_partial, C97_run_partial); false otherwise: C97_border_fails (such a particle is not held by the walls and the next step is undefined). Without collisions, beams and external fields C97_classical_partial: the same for the build with the classical pusher as long as the electric force does not bring a particle to the speed of light. C97_neutral: for uncharged species every pusher, the default one too, has exactly one run."
  },
  {
   "property": "C98",
   "status": "partial",
   "theorems": [
    "Pico.Pic.C98_step_partial",
    "Pico.Pic.C98_run_partial",
    "Pico.Pic.C98_chain_partial",
    "Pico.Pic.C98_corner_fails"
   ],
   "note": "proved for any number of steps as long as no particle arrives exactly at a border of its domain, is in a cell where four domains meet diagonally, or cuts the corner of a domain (C98_run_partial); for domains in a row only exact borders are excepted (C98_chain_partial); false otherwise: C98_corner_fails (with a concrete step). ZigZag deposition, without collisions, beams and external fields"
  },
  {
   "property": "C99",
   "status": "partial",
   "theorems": [
    "Pico.Yee.C99_zigzag_exact_partial",
    "Pico.Yee.C99_zigzag_partial",
    "Pico.Yee.C99_vb_exact_partial",
    "Pico.Yee.C99_vb_partial",
    "Pico.Yee.C99_corner_fails"
   ],
   "note": "exact contents for every number of processes and division and all particles, both schemes (C99_zigzag_exact_partial, C99_vb_exact_partial); equal to the undivided volume when no path cuts a corner (C99_zigzag_partial, C99_vb_partial); false otherwise: C99_corner_fails (at borders between processes also those corners are lost that one process takes into account). The exchange ends whenever the buffers hold one message per domain row"
  },
  {
   "property": "C100",
   "status": "partial",
   "theorems": [
    "Pico.Pic.C100_gauss_partial",
    "Pico.Pic.C100_gauss_axis_partial",
    "Pico.Pic.C100_magnetic",
    "Pico.Pic.C100_walls"
   ],
   "note": "proved without reservation: no magnetic sources and conducting walls in every run from zero fields, any particles, both schemes, any admissible division (C100_magnetic, C100_walls); Gauss law with the Villasenor-Buneman scheme at all inner nodes and on the axis (but for its first two columns) as long as the paths of all particles are in general position with respect to cells and domain corners and no particle arrives exactly at a border of its domain (C100_gauss_partial, C100_gauss_axis_partial); false otherwise, see C18_corner_fails, C19_axial_erases, C96_corner_fails. Insulating media without conductivity"
  },
  {
   "property": "C101",
   "status": "partial",
   "theorems": [
    "Pico.Pic.C101_step_partial",
    "Pico.Pic.C101_run_partial",
    "Pico.Pic.C101_schedule_partial",
    "Pico.Pic.C101_buffer_fails"
   ],
   "note": "both deposition schemes, every number of processes, equal slabs: proved for any number of steps as long as no particle arrives exactly at the lower or left border of its domain (C101_step_partial, C101_run_partial) and the buffers have room for one message per domain row and one per particle; the result is the same for every schedule and amount of buffering (C101_schedule_partial); false otherwise: C101_buffer_fails (with smaller buffers no step ever ends), C97_border_fails. Without collisions, beams and external fields"
  },
  {
   "property": "C102",
   "status": "partial",
   "theorems": [
    "Pico.Coll.C102_names",
    "Pico.Coll.C102_TA77S",
    "Pico.Coll.C102_only",
    "Pico.Coll.C102_idle",
    "Pico.Coll.C102_names_fails"
   ],
   "note": "TA77S: proved to complete for all random numbers and shufflings (C102_TA77S, positive masses and weights, fewer than 2^24 particles in a domain); all methods: only velocities change (C102_only), untouched cells stay (C102_idle). SK98 and P12 may be undefined for axial velocities (C38_axial_fails). C102_names_fails: species with other names than electrons and ions leave the members of the collisions uninitialised C102_names: the masses and charges the collisions use are those of the last species called electrons and of the last called ions."
  },
  {
   "property": "C103",
   "status": "partial",
   "theorems": [
    "Pico.Coll.C103_partial",
    "Pico.Coll.C103_uncorrected",
    "Pico.Coll.C103_fails"
   ],
   "note": "proved for TA77S per cell and kind if the velocities of the kind differ before and after the step; C103_fails: one electron and one ion in a cell, every deflection changes the total momentum"
  },
  {
   "property": "C104",
   "status": "partial",
   "theorems": [
    "Pico.Coll.C104_fails"
   ],
   "note": "refuted for TA77S: C104_fails, over any number of steps each kind keeps its own momentum and energy (as long as its velocities differ), so there is no friction and no exchange of heat"
  },
  {
   "property": "C105",
   "status": "partial",
   "theorems": [
    "Pico.Coll.C105_relativistic",
    "Pico.Coll.C105_fails"
   ],
   "note": "proved for SK98 and P12 (C105_relativistic); C105_fails: with TA77S an electron that meets an ion head on at half the velocity of light or more is faster than light after every sufficiently large deflection"
  },
  {
   "property": "C106",
   "status": "partial",
   "theorems": [
    "Pico.Pic.C106_force",
    "Pico.Pic.C106_felt",
    "Pico.Pic.C106_speeds",
    "Pico.Pic.C106_slow",
    "Pico.Pic.C106_step_partial",
    "Pico.Pic.C106_next_partial",
    "Pico.Pic.C106_run_partial",
    "Pico.Pic.C106_single",
    "Pico.Pic.C106_external",
    "Pico.Pic.C106_light_fails",
    "Pico.Pic.C106_TA77S_fails"
   ],
   "note": "proved: the velocities of every step are defined for all external fields and TA77S (C106_speeds); with SK98, P12 or no collisions every state reached in an undivided chamber is sane and has all particles (C106_single), and without collisions the run goes on for ever (C106_external); with several domains under the two conditions SlowNext and ClearNext on the states reached (C106_run_partial). C106_TA77S_fails: an electron and an ion that meet fast enough, random numbers exist for which the run ends in the next step, because a particle faster than light ends the run (C106_light_fails) C106_force, C106_felt: with external fields the particles are pushed as in the cell by cell sum of the computed and the external fields."
  },
  {
   "property": "C107",
   "status": "proved",
   "theorems": [
    "Pico.Yee.C107_whole",
    "Pico.Yee.C107_vacuum",
    "Pico.Yee.C107_divided"
   ],
   "note": "undivided volume and any division into domains, any weights, any number of steps; zero sources and fields stay zero"
  },
  {
   "property": "C108",
   "status": "proved",
   "theorems": [
    "Pico.Yee.C108_whole",
    "Pico.Yee.C108_divided"
   ],
   "note": "undivided volume and any division. One cell per step is faster than light if c dt is smaller than a cell; the bound is attained (ex_moves)"
  },
  {
   "property": "C109",
   "status": "partial",
   "theorems": [
    "Pico.Pic.C109_inject",
    "Pico.Pic.C109_step_partial",
    "Pico.Pic.C109_next_partial",
    "Pico.Pic.C109_run_partial",
    "Pico.Pic.C109_single",
    "Pico.Pic.C109_radius_fails",
    "Pico.Pic.C109_axis_fails",
    "Pico.Pic.C109_gauss_fails"
   ],
   "note": "C109_single is complete for an undivided chamber and time steps in which light travels at most half a cell (all beams, all random numbers, any number of steps); in divided chambers without particles that arrive exactly at a border or on the axis. Refuted in full: C109_axis_fails (beam particle exactly on the axis: undefined), C109_radius_fails (beams as wide as the chamber lose particles in the step of their injection), C109_gauss_fails (the injected charge appears without its field)"
  },
  {
   "property": "C110",
   "status": "partial",
   "theorems": [
    "Pico.Pic.C110_start_partial",
    "Pico.Pic.C110_first_partial",
    "Pico.Pic.C110_run_partial",
    "Pico.Pic.C110_single",
    "Pico.Pic.C110_beams",
    "Pico.Pic.C110_hot_fails",
    "Pico.Pic.C110_outside_fails",
    "Pico.Pic.C110_exists"
   ],
   "note": "C110_single and C110_beams are complete for an undivided chamber, cold species and time steps in which light travels at most half a cell: every state in which the loop can begin (and C110_exists: there is one) leads to runs of any length; C110_run_partial for divided chambers as long as no particle arrives exactly at a border. Refuted in full: C110_outside_fails (the default placement puts particles outside their domains; after the first step they are where they belong), C110_hot_fails (hot species with the eigen distribution end the run in the first step)"
  },
  {
   "property": "C111",
   "status": "partial",
   "theorems": [
    "Pico.Pic.C111_fields_partial",
    "Pico.Pic.C111_maps_partial",
    "Pico.Pic.C111_kept",
    "Pico.Pic.C111_single",
    "Pico.Pic.C111_division_partial"
   ],
   "note": "any history of states with the particles in their domains (C111_fields_partial, C111_maps_partial, C111_kept), complete runs of the main loop in an undivided chamber (C111_single, no cells excepted), divided against undivided runs under the hypotheses of C98 (C111_division_partial). The step number is exact (no rounding of the clock). Not covered because false of the code: probes whose radial edges are on a border between domains (C44), first rows and columns of inner domains for maps (C88, C95), temperature without an energy probe before it (C89, C95), schedules 0 and from 65536 on (C42). Frame f shows the state after f*schedule+1 steps: the state before the first step is never in the file"
  },
  {
   "property": "C112",
   "status": "partial",
   "theorems": [
    "Pico.Ext.C112_cells_partial",
    "Pico.Ext.C112_seen_partial",
    "Pico.Ext.C112_border_fails"
   ],
   "note": "equal in all cells of the domains (C112_cells_partial) and for all particles that are not at a border of their domain (C112_seen_partial, at least half a cell from the axis). Refuted in full: C112_border_fails, away from the walls a particle sees a homogeneous field weaker exactly if it is within half a cell of an inner radial border or in the last column before an axial one, since nobody fills the overlays of the external fields"
  },
  {
   "property": "C113",
   "status": "proved",
   "theorems": [
    "Pico.Rand.C113_sequence",
    "Pico.Place.C113_even"
   ],
   "note": "C113_even counts the particles of the model's placement; C113_sequence is the statement about the generator. The boxes must be coarser than MNZL = 1e-15, by which zeros are replaced. Exact arithmetic: the digits are not rounded"
  },
  {
   "property": "C114",
   "status": "partial",
   "theorems": [
    "Pico.Pic.C114_total",
    "Pico.Pic.C114_start",
    "Pico.Pic.C114_gauss_partial",
    "Pico.Pic.C114_gauss_axis_partial",
    "Pico.Pic.C114_gauss_single_partial",
    "Pico.Pic.C114_random_fails"
   ],
   "note": "C114_total (every placement) and C114_start (all placements but the random one) are full; C114_random_fails: with the random placement the charges at the nodes are not zero while the fields are, so the fields never belong to the charges; Gauss's law needs paths in general position (C18, C96, C100), no absorbing layers, and that particles begin in their domains (C110; automatic in an undivided chamber, C114_gauss_single_partial)"
  },
  {
   "property": "C115",
   "status": "partial",
   "theorems": [
    "Pico.Config.C115_read",
    "Pico.Config.C115_unused",
    "Pico.Config.C115_again",
    "Pico.Config.C115_start",
    "Pico.Config.C115_comment_fails",
    "Pico.Config.C115_probes_fails",
    "Pico.Config.C115_builds_fails",
    "Pico.Config.C115_fields_fails",
    "Pico.Config.C115_ratio_fails"
   ],
   "note": "C115_read: reading gives c exactly if the file says c (Spec/Config, by paths). C115_unused: other keys do not matter. C115_again: the stored configuration is read alike. C115_start: attributes of the output file for a complete build. Refuted parts: C115_comment_fails, C115_probes_fails, C115_ratio_fails, C115_builds_fails, C115_fields_fails. Text of the file, parser and serializer (picojson, not in the repository) are not modelled."
  },
  {
   "property": "C116",
   "status": "partial",
   "theorems": [
    "Pico.MetaReader.C116_shows_partial",
    "Pico.MetaReader.C116_open_fails",
    "Pico.MetaReader.C116_plot_fails",
    "Pico.MetaReader.C116_layers_fails",
    "Pico.MetaReader.C116_amount_fails",
    "Pico.MetaReader.C116_names_fails",
    "Pico.MetaReader.C116_places_partial",
    "Pico.MetaReader.C116_places_fails",
    "Pico.MetaReader.C116_frames"
   ],
   "note": "C116_shows_partial: opened and shown as used, if the entries the reader wants are there. C116_places_partial: rows and columns, for whole numbers of cells. C116_frames: frames and times. Refuted parts: C116_open_fails (exactly the other files), C116_plot_fails, C116_layers_fails, C116_amount_fails, C116_names_fails, C116_places_fails. Python floats are exact numbers here."
  },
  {
   "property": "C117",
   "status": "partial",
   "theorems": [
    "Pico.PicConf.C117_sane",
    "Pico.PicConf.C117_cold",
    "Pico.PicConf.C117_run_partial",
    "Pico.PicConf.C117_beams_partial",
    "Pico.PicConf.C117_divided_partial",
    "Pico.PicConf.C117_schedule_fails"
   ],
   "note": "Model/PicConf gives the constructors with the constants of the program. C117_sane: an accepted usable file without message about the time step makes a sane simulation (C110). C117_cold: temperatures. C117_run_partial: from the file to the complete output, undivided chamber, no beams. C117_beams_partial: with beams. C117_divided_partial: divided, as long as no particle arrives exactly at a border. Refuted: C117_schedule_fails. `Usable` lists what the program does not check."
  },
  {
   "property": "C118",
   "status": "partial",
   "theorems": [
    "Pico.Pic.C118_fields",
    "Pico.Pic.C118_kinetic_partial",
    "Pico.Pic.C118_neutral",
    "Pico.Pic.C118_run_partial",
    "Pico.Pic.C118_total_fails"
   ],
   "note": "C118_fields: field energy of whole runs (C76 lifted to divided chambers with particles). C118_kinetic_partial: work-energy theorem for every particle over any number of steps, relativistic Boris pusher. C118_neutral: uncharged particles, all pushers. C118_run_partial: both for the unique run from a sane state without fields. Missing: kinetic energy with the other pushers (C25 refutes it for Vay and Higuera-Cary); the two works are not compared with each other, the code does not conserve the total exactly. The total of fields and particles, which users take for conserved, is not: C118_total_fails shows that in every run from a chamber without fields it grows in the second step as soon as the moving particles have changed the charge at an inner node."
  },
  {
   "property": "C119",
   "status": "partial",
   "theorems": [
    "Pico.DataReader.C119_fields_partial",
    "Pico.DataReader.C119_conf_partial",
    "Pico.DataReader.C119_unrecorded",
    "Pico.DataReader.C119_direct_fails",
    "Pico.DataReader.C119_open_end_fails",
    "Pico.DataReader.C119_columns_partial",
    "Pico.DataReader.C119_rows_partial",
    "Pico.DataReader.C119_columns_fails",
    "Pico.DataReader.C119_place_fails"
   ],
   "note": "C119_fields_partial: after any run C111 covers, all questions about recorded fields and currents are answered with the values at the steps of the frames (frames, from the end, beyond the end, columns, rows, points, ranges of frames and points). C119_conf_partial: from the configuration file through the run and the metadata to fields, currents and maps of species (one domain, what C117 needs). C119_unrecorded: nothing else is found. C119_columns_partial, C119_rows_partial: ranges of columns (rows) of rectangles over all rows (columns). Refuted: C119_direct_fails (col, row, dot and their ranges never find anything; col_range returns zeros or fails), C119_open_end_fails (no range without an end), C119_columns_fails (other rectangles fail, those of one row are stretched over the chamber), C119_place_fails (rows and columns of the chamber, which the scripts in tools/ pass, are counted from the corner of the rectangle). Missing: temperature maps and maps in divided chambers at the seams (C111), the cache, other spellings of paths."
  },
  {
   "property": "C120",
   "status": "partial",
   "theorems": [
    "Pico.Coll.C120_fair",
    "Pico.Coll.C120_sort",
    "Pico.Coll.C120_every",
    "Pico.Coll.C120_second_fails"
   ],
   "note": "C120_sort: the sorting never fails and keeps the particles of every cell, whatever the random numbers (this is the relation the collision steps of C41, C102 to C106 use). C120_fair: every order of a list arises, from exactly one sequence of draws in which draw k is one of k + 2 numbers; so fair draws give a fair order. C120_every: with free random numbers every combination of orders of all cells is possible. Missing, since it is false: independence. random_sort seeds the generator with the clock, in seconds, before every cell, C120_second_fails: within one second the order depends on the numbers of electrons and ions alone, so that all cells with the same numbers, in all domains and time steps of the second, are arranged alike. The numbers of rand() themselves are not modelled (any sequence per seed); rand() % n is not exactly fair when n does not divide RAND_MAX + 1."
  },
  {
   "property": "C121",
   "status": "partial",
   "theorems": [
    "Pico.Threads.C121_fields",
    "Pico.Threads.C121_currents",
    "Pico.Threads.C121_handover_partial",
    "Pico.Threads.C121_step_partial",
    "Pico.Threads.C121_run_partial",
    "Pico.Threads.C121_two_rows",
    "Pico.Threads.C121_single",
    "Pico.Threads.C121_rows_fails"
   ],
   "note": "C121_fields and C121_currents hold without conditions: all interleavings of a field step or of the currents, with the exchanges of overlays, end as the sequential program does. C121_handover_partial: likewise the hand-over of particles, as long as no domain gets particles from the row of domains below and from the one above in the same pass. C121_step_partial and C121_run_partial: whole steps and runs under this condition (and that of C97, no particle exactly on the border of its domain). C121_two_rows: with one or two rows of domains the condition always holds. C121_single: undivided chambers, without conditions on the run. Missing, since it is false: three or more rows, C121_rows_fails: two threads append to the list of the same domain, and its order depends on the schedule even if appending were atomic (it is not: a data race, C11). Not included: collisions (all threads share the generators of random numbers), beams, output, and the counters of messages, which all threads increment."
  },
  {
   "property": "C122",
   "status": "partial",
   "theorems": [
    "Pico.Coll.C122_quiet_partial",
    "Pico.Coll.C122_exact",
    "Pico.Coll.C122_still",
    "Pico.Coll.C122_strong_fails"
   ],
   "note": "C122_quiet_partial: with no collision stronger than 1.2 the whole step equals the collisions alone. Refuted in general: C122_strong_fails (whenever at least one collision is counted and all are stronger than 1.2, the program adds to local doubles that were never initialised). ex_collides shows that a counted collision takes place for every strength. Missing: steps whose strengths lie on both sides of the limit. C122_exact: whether a report is made, for all strengths, mixed ones too; C122_still: pairs without relative speed do not count."
  },
  {
   "property": "C123",
   "status": "partial",
   "theorems": [
    "Pico.Pic.C123_run_partial",
    "Pico.Pic.C123_left_partial"
   ],
   "note": "C123_run_partial: two runs of undivided closed chambers (lengths n and n'), ZigZag currents, relativistic pusher, that are alike in the columns lo \u2026 hi are alike in the columns lo + 4 k \u2026 hi - 4 k after k steps; both runs exist and are unique. C123_left_partial: up to the left wall nothing is lost at the low end. Missing: divided chambers (the seams of C98 break the agreement with the undivided chamber) and the Villasenor-Buneman scheme, whose result depends on the order of the particles (C19)."
  },
  {
   "property": "C124",
   "status": "proved",
   "theorems": [
    "Pico.Pic.C124_step",
    "Pico.Pic.C124_run",
    "Pico.Pic.C124_conjugate",
    "Pico.Pic.C124_similar"
   ],
   "note": "C124_step and C124_run: for any environment, state and factors a, b that are not zero the next states (states after n passes) of the changed simulation are exactly those of the original one with the same change (Env.rescaled, State.rescaled: paths, cells and domains unchanged, weights times b, fields and currents times a b, permittivity and conductivity unchanged). Both schemes, all five pushers, any division; undefined behaviour, fatal errors and endless reflection happen in both or in neither. C124_conjugate: a = -1, b = 1. C124_similar: b = 1/a, fields unchanged. Exact arithmetic. Collisions, beams and external fields are not part of this step (a collision frequency does not scale this way)."
  },
  {
   "property": "C125",
   "status": "partial",
   "theorems": [
    "Pico.Pic.C125_run_partial",
    "Pico.Pic.C125_split_partial",
    "Pico.Pic.C125_tracers_partial",
    "Pico.Pic.C125_vb_fails"
   ],
   "note": "C125_run_partial: undivided closed chamber, ZigZag deposition, relativistic pusher, light at most half a cell per step, sane states (Alive), possibly different lists of species; SameCloud (same fields and currents in the chamber, same sums of weights at every point of phase space for all charged species and any others one asks for, same state of macroparticles that both have) holds after every number of steps, and both runs exist and are unique. C125_split_partial: the special case that every macroparticle is replaced by parts whose weights add up. C125_tracers_partial: additional macroparticles without weight or of species without charge; all other macroparticles stay identical. C125_vb_fails: with the other scheme (the default) the claim is false: a macroparticle without charge that moves along the axis wipes out the radial current of the others in its cell. Divided chambers follow through C98 where C98 applies. Exact arithmetic."
  },
  {
   "property": "C126",
   "status": "proved",
   "theorems": [
    "Pico.Pic.C126_step",
    "Pico.Pic.C126_run",
    "Pico.Pic.C126_cold"
   ],
   "note": "C126_step, C126_run: every chamber, every division into domains, all five pushers including the adaptive one, both schemes: the next state is unique and nothing of it differs (Unchanged: same macroparticles in the lists of each species, same places, velocities and weights, same media; AtRest: all components of the fields and currents zero). C126_cold: from the configuration on (Sane, all temperatures zero, any placement, velocity distribution, density profile, charges and layers, undivided chamber). The charges do not matter: the program never solves the electrostatic problem, so even a cloud of one sign at rest has no field (compare C114, which says how far the initial state is from Gauss's law). Exact arithmetic, main loop without collisions, external fields and beams."
  },
  {
   "property": "C127",
   "status": "proved",
   "theorems": [
    "Pico.Pic.C127_addresses",
    "Pico.Pic.C127_start",
    "Pico.Pic.C127_quiet",
    "Pico.Pic.C127_results",
    "Pico.Pic.C127_divided_partial",
    "Pico.Pic.C127_certain",
    "Pico.Pic.C127_random_fails"
   ],
   "note": "C127_addresses: for every chamber, division, pusher, scheme and state (sane or not) each run from one of two states that differ in the addresses only (Readdressed) has its counterpart from the other; the states stay so. C127_start: same configuration and random numbers begin Readdressed. C127_quiet, C127_certain: placement flat, centered or regular and velocities eigen: whatever the random numbers are. C127_results: undivided chamber, relativistic pusher, light at most half a cell per step: from the configuration to all datasets (record, C111), for all lists of probes. C127_divided_partial: divided chambers as long as no particle lands exactly on a border. C127_random_fails: with the random placement, two executions that draw different numbers are different from the beginning. The default pusher reads an uninitialised flag (C27), so that nothing can be said about its runs here. Main loop without collisions, external fields and beams; exact arithmetic; threads: C121."
  },
  {
   "property": "C128",
   "status": "partial",
   "theorems": [
    "Pico.Out.C128_rows",
    "Pico.Out.C128_lines",
    "Pico.Out.C128_file_partial",
    "Pico.Out.C128_agree_partial",
    "Pico.Out.C128_short_fails",
    "Pico.Out.C128_columns",
    "Pico.Out.C128_whole"
   ],
   "note": "C128_rows: the whole table with exact arithmetic of the clock, less than 2^31 turns and 2^32 lines. C128_file_partial: its lines are the frames in the file of C42. C128_agree_partial: for every rounding of the clock, as long as neither the table nor the output fails; so the lines follow the file even where rounding skips a frame (example with doubles). C128_columns, C128_whole: the text of the lines. Missing for the full claim: schedules from 65536 on, with which the table announces frames the writers do not write (C42_short_fails). How a stream shows the time and the text of the duration (C51) are parameters. Only the first process prints the table; the frames shown hold the state one step after the model time (C111). C128_lines: a header of three lines before every thirty rows; C128_short_fails: the schedules for which table and file differ."
  },
  {
   "property": "C129",
   "status": "partial",
   "theorems": [
    "Pico.Pic.C129_fields",
    "Pico.Pic.C129_step_partial",
    "Pico.Pic.C129_run_partial",
    "Pico.Pic.C129_all_partial",
    "Pico.Pic.C129_radial_fails",
    "Pico.Pic.C129_zigzag_fails",
    "Pico.Pic.C129_vay_fails",
    "Pico.Pic.C129_hc_fails"
   ],
   "note": "C129_fields: one update of the fields with all overlays, no conditions. C129_step_partial, C129_run_partial, C129_all_partial: whole steps (fields, push, motion, reflection, hand-over, currents) with a pusher of Boris and the default deposition, when no particle has moved purely radially from one cell into another (Straight). Missing for the full claim, because the code does not do it: C129_radial_fails (purely radial paths of the default deposition), C129_zigzag_fails (zigzag deposition), C129_vay_fails and C129_hc_fails (pushers of Vay and of Higuera and Cary): for every change of the unit of length, or of velocity, there are inputs whose results are not the converted ones."
  },
  {
   "property": "C130",
   "status": "partial",
   "theorems": [
    "Pico.Pic.C130_without_beams",
    "Pico.Pic.C130_plain",
    "Pico.Pic.C130_plain_back",
    "Pico.Pic.C130_sortable_partial",
    "Pico.Pic.C130_step_partial",
    "Pico.Pic.C130_next_partial",
    "Pico.Pic.C130_speeds",
    "Pico.Pic.C130_single",
    "Pico.Pic.C130_external",
    "Pico.Pic.C130_collisions_fails",
    "Pico.Pic.C130_rows_fails",
    "Pico.Pic.C130_numbers_fails",
    "Pico.Pic.C130_cell_fails"
   ],
   "note": "C130_without_beams, C130_plain, C130_plain_back: the step with a feature switched off is that of C106 or C109. C130_step_partial, C130_next_partial: one step, with collisions of a relativistic method or none, when the collisions can sort the beams (C130_sortable_partial: narrow beams) and no particle arrives exactly at a border. C130_single: all states of all runs in an undivided chamber; C130_external: without collisions the run goes on for ever. Missing for the full claim, because the code does not do it: C130_collisions_fails, C130_rows_fails (all random numbers), C130_numbers_fails: wide beams in a build with collisions make the first step of a bunch undefined behaviour; C130_cell_fails: injected particles collide in cells in which they are not. That the number of particles stays below 2^24 is a hypothesis."
  },
  {
   "property": "C131",
   "status": "partial",
   "theorems": [
    "Pico.Config.C131_built",
    "Pico.Config.C131_ends",
    "Pico.Config.C131_recorded",
    "Pico.Config.C131_same_partial",
    "Pico.Config.C131_hidden_fails",
    "Pico.Config.C131_help_fails",
    "Pico.Config.C131_defaults",
    "Pico.Config.C131_word_fails",
    "Pico.Config.C131_scheme_fails",
    "Pico.Config.C131_rounding"
   ],
   "note": "C131_built: exactly which arguments are accepted and which program results, for every text; C131_ends: otherwise an error; C131_defaults: defaults as documented. C131_recorded: the attributes name the pusher, distributions, deposition, debug and IEEE modes asked for. C131_same_partial: equal records mean equal choices of these and of one or several threads. C131_rounding: what the IEEE and single thread options mean for the compiler. Missing for the full claim, because the code does not do it: C131_hidden_fails (collisions, their scheme and layers are not recorded; for several processes and external fields see C115), C131_help_fails (the default pusher is not the documented one), C131_word_fails (any word but yes switches an option off silently), C131_scheme_fails (an unknown scheme is accepted while collisions are off). Searches for compilers and libraries are not modelled."
  },
  {
   "property": "C132",
   "status": "partial",
   "theorems": [
    "Pico.Cache.C132_kept_partial",
    "Pico.Cache.C132_memory",
    "Pico.Cache.C132_found",
    "Pico.Cache.C132_parent_fails",
    "Pico.Cache.C132_shape_fails",
    "Pico.Cache.C132_directory_fails",
    "Pico.Cache.C132_clash_fails",
    "Pico.Cache.C132_absolute_fails",
    "Pico.Cache.C132_stale_fails",
    "Pico.Cache.C132_changed_fails",
    "Pico.Cache.C132_crash_fails",
    "Pico.Cache.C132_import"
   ],
   "note": "C132_kept_partial: for every history of any number of caches in different directories, with plain names as keys and lists of numbers, with restarts and crashes anywhere: all answers are the expected ones, and only a crash leaves a part of what was being stored. C132_memory: within one process for all keys and shapes. C132_import: what importing the library does. Missing for the full claim, because the code does not do it: C132_shape_fails (shapes are lost with the process), C132_directory_fails (keys with a directory), C132_clash_fails (two keys, one file), C132_absolute_fails (keys that begin like the paths of datasets are shared by all caches), C132_stale_fails (two users of a directory), C132_changed_fails (no copy is kept), C132_crash_fails (storing is not atomic). File system without links, permissions and limits. C132_found: which keys a newly made cache finds. Refuted also for keys with `..`, which leave the directory (C132_parent_fails)."
  },
  {
   "property": "C133",
   "status": "partial",
   "theorems": [
    "Pico.PhysInfo.C133_shown",
    "Pico.PhysInfo.C133_steps_partial",
    "Pico.PhysInfo.C133_start_fails",
    "Pico.PhysInfo.C133_window",
    "Pico.PhysInfo.C133_bunches_partial",
    "Pico.PhysInfo.C133_passage",
    "Pico.PhysInfo.C133_number_partial",
    "Pico.PhysInfo.C133_few_fails",
    "Pico.PhysInfo.C133_electrons_fails",
    "Pico.PhysInfo.C133_beams_fails",
    "Pico.PhysInfo.C133_first_fails",
    "Pico.PhysInfo.C133_mean_fails",
    "Pico.PhysInfo.C133_frequency",
    "Pico.PhysInfo.C133_debye_partial",
    "Pico.PhysInfo.C133_debye_fails"
   ],
   "note": "C133_shown gives the printed numbers in terms of the beam the program injects; C133_window, C133_bunches_partial and C133_passage compare the times, C133_steps_partial the number of steps (one too few at most, if the run starts at zero), C133_number_partial the number of particles (macroparticles that divide evenly, radii of the right mean). Refuted: later starts (C133_start_fails), fewer macroparticles than bunches (C133_few_fails), the mean number per macroparticle (C133_mean_fails), Debye length of the program (C133_debye_fails), files without species called electrons or without beams (C133_electrons_fails, C133_beams_fails), further beams (C133_first_fails)."
  },
  {
   "property": "C134",
   "status": "partial",
   "theorems": [
    "Pico.Figure.C134_ticks",
    "Pico.Figure.C134_asked_partial",
    "Pico.Figure.C134_zero_fails",
    "Pico.Figure.C134_number",
    "Pico.Figure.C134_backwards_fails",
    "Pico.Figure.C134_ignored_fails",
    "Pico.Figure.C134_third_fails",
    "Pico.Figure.C134_image",
    "Pico.Figure.C134_width_fails",
    "Pico.Figure.C134_colorbar"
   ],
   "note": "C134_ticks (labels within three significant digits of the coordinate, whatever the request), C134_number (longest axis between the guessed number and twice as many intervals, all axes the same length of interval), C134_image, C134_colorbar, C134_asked_partial (requests other than zero are honoured). Refuted: an axis from zero in a figure that begins elsewhere (C134_zero_fails), reversed figures (C134_backwards_fails), numbers of ticks of figures without sizes (C134_ignored_fails), labels of short third axes (C134_third_fails), subplots with a size of their own (C134_width_fails)."
  },
  {
   "property": "C135",
   "status": "partial",
   "theorems": [
    "Pico.Yee.C135_grows",
    "Pico.Yee.C135_half_partial",
    "Pico.Yee.C135_fails",
    "Pico.Yee.C135_sharper_partial",
    "Pico.Yee.C135_sharper_fails",
    "Pico.Yee.C135_divided_partial",
    "Pico.Yee.C135_divided_fails"
   ],
   "note": "C135_half_partial: if even twice the time step would be accepted, the electric fields of every closed chamber stay bounded for all histories of currents and all media. Refuted beyond that: for square cells every step from nine tenths of the largest accepted one up to it lets the fields grow beyond all bounds after a single pulse (C135_fails; the general limit and the rate are in C135_grows). Not decided: steps between half and nine tenths of the largest accepted one; absorbing layers and particles. Sharper and for every division of the chamber: bounded if seven quarters of the step are accepted (C135_sharper_partial, C135_divided_partial), unbounded growth from five sixths of a cell on in chambers of at least 3 x 8 square cells (C135_sharper_fails, C135_divided_fails)."
  },
  {
   "property": "C136",
   "status": "partial",
   "theorems": [
    "Pico.TestRun.C136_smoke_partial",
    "Pico.TestRun.C136_ext_partial",
    "Pico.TestRun.C136_accepts",
    "Pico.TestRun.C136_rejects",
    "Pico.TestRun.C136_collected",
    "Pico.TestRun.C136_same",
    "Pico.TestRun.C136_fails",
    "Pico.TestRun.C136_smoke_fails",
    "Pico.TestRun.C136_offset_fails"
   ],
   "note": "C136_smoke_partial, C136_ext_partial: exact conditions of success (deviation and variance; up to four runs, of which one has to agree and the earlier ones have to be complete); C136_accepts: full agreement is never rejected; C136_rejects; C136_collected, C136_same: collected values are those of a single run, which passes against them. Refuted: the means are not compared, so that results with any offset, sign, order of cells or cells without numbers pass alike (C136_fails, C136_smoke_fails, C136_offset_fails)."
  },
  {
   "property": "C137",
   "status": "partial",
   "theorems": [
    "Pico.Perf.C137_failed",
    "Pico.Perf.C137_sound",
    "Pico.Perf.C137_alone_fails",
    "Pico.Perf.C137_diluted_fails",
    "Pico.Perf.C137_crash_fails"
   ],
   "note": "C137_failed: exact limit, 11 n / (10 n - 1) times the mean of the n earlier commits; C137_sound: failures are slowdowns of at least a tenth, commits that are not slower pass. Refuted: slowdowns between a tenth and that limit pass (C137_diluted_fails), a single commit always passes (C137_alone_fails), runs that crash pass (C137_crash_fails)."
  },
  {
   "property": "C138",
   "status": "partial",
   "theorems": [
    "Pico.Subtree.C138_shown",
    "Pico.Subtree.C138_refused",
    "Pico.Subtree.C138_sound",
    "Pico.Subtree.C138_lists_fails",
    "Pico.Subtree.C138_bo",
    "Pico.Subtree.C138_comment",
    "Pico.Subtree.C138_whole",
    "Pico.Subtree.C138_program_fails"
   ],
   "note": "C138_shown, C138_sound: paths of plain keys show exactly what the record has there; C138_refused: exactly when a message is given; C138_bo, C138_comment, C138_whole: the other options. Refuted: everything inside lists (species, beams, probes) ends with a trace of the interpreter (C138_lists_fails), and texts that are no paths are run as programs (C138_program_fails)."
  },
  {
   "property": "C139",
   "status": "partial",
   "theorems": [
    "Pico.Nbrun.C139_set_partial",
    "Pico.Nbrun.C139_kept",
    "Pico.Nbrun.C139_run_partial",
    "Pico.Nbrun.C139_last_fails",
    "Pico.Nbrun.C139_quoted_fails",
    "Pico.Nbrun.C139_value_fails"
   ],
   "note": "C139_set_partial, C139_run_partial: lines with an end of line are set, the last value counts; C139_kept: lines that assign to none of the variables and have no text in double quotes that begins like such an assignment are kept. Refuted: the last line of a cell is never set (C139_last_fails), texts in quotes are cut off (C139_quoted_fails), values with an equals sign are cut off (C139_value_fails)."
  },
  {
   "property": "C140",
   "status": "proved",
   "theorems": [
    "Pico.Pic.C140_step",
    "Pico.Pic.C140_run",
    "Pico.Pic.C140_beam_step",
    "Pico.Pic.C140_beams",
    "Pico.Pic.C140_cold",
    "Pico.Pic.C140_all_step",
    "Pico.Pic.C140_all",
    "Pico.Pic.C140_external"
   ],
   "note": "C140_step, C140_run: plasma alone, any division of the chamber; C140_beam_step, C140_beams: with beams; C140_cold: from the configuration; C140_all_step, C140_all: with beams and external fields in the plane; C140_external: every combination of configured profiles but the axial magnetic one keeps them in the plane."
  },
  {
   "property": "C141",
   "status": "partial",
   "theorems": [
    "Pico.Pic.C141_fields",
    "Pico.Pic.C141_push_partial",
    "Pico.Pic.C141_step_partial",
    "Pico.Pic.C141_run_partial",
    "Pico.Pic.C141_start_partial",
    "Pico.Pic.C141_mixed_fails",
    "Pico.Pic.C141_hc_fails"
   ],
   "note": "Holds without condition for the field solver (C141_fields), for the pushers of Boris and of Vay in given fields (C141_push_partial), for every step in which particles feel no azimuthal electric field (C141_step_partial, C141_run_partial), and so for the first step from every configuration (C141_start_partial). Missing: everything else, and it is false there. C141_mixed_fails: the interpolation adds a part of the azimuthal electric field to the axial one, so a particle at rest in an azimuthal field is driven along the axis, and the other way in the mirror. C141_hc_fails: the Higuera-Cary pusher uses a wrong component of the magnetic field; mirror images move outwards and inwards."
  }
 ]
}