{"id": "C01", "title": "Total particle number is conserved on a periodic domain", "statement": "On a doubly periodic domain with the source term off, the sum over all position cells of the distribution function of each species at each momentum is unchanged by any number of finite-volume time steps (fields off); with fields on and momentum advected by finite volumes, the sum over all positions and momenta of each species is unchanged.", "quantifier": "all grid sizes, all periodic advection velocities, all initial distributions, all sequences of time-step sizes, every available reconstruction and Riemann option", "why_tests_cant": "Conservation is an exact telescoping identity over every initial state and every number of steps; a test checks one state to a tolerance.", "anchors": ["bolt/lib/nonlinear/finite_volume/df_dt_fvm.py:df_dt_fvm", "bolt/lib/nonlinear/finite_volume/fvm_operator.py:timestep_fvm", "bolt/lib/nonlinear/finite_volume/riemann.py:riemann_solver"]}
{"id": "C02", "title": "Momentum-space advection never changes the density", "statement": "The part of the finite-volume update that advects in momentum space leaves the zeroth momentum moment (density) of every species at every position unchanged.", "quantifier": "all fields, all distributions, all momentum grids, all reconstructions", "why_tests_cant": "Holds for every field configuration; tests only try special fields.", "anchors": ["bolt/lib/nonlinear/finite_volume/df_dt_fvm.py:df_dt_fvm"]}
{"id": "C03", "title": "Uniform states stay uniform", "statement": "A distribution that does not vary in position, advected with velocities that do not vary in position, is left exactly unchanged by the q-space finite-volume step.", "quantifier": "all grids, momenta, velocities, dt, reconstructions, number of steps", "why_tests_cant": "Free-stream preservation quantifies over every constant state and every step count.", "anchors": ["bolt/lib/nonlinear/finite_volume/df_dt_fvm.py:df_dt_fvm", "bolt/lib/nonlinear/finite_volume/reconstruct.py:reconstruct"]}
{"id": "C04", "title": "Fluxes are upwinded", "statement": "The distribution carried through a cell interface is the value reconstructed on the side the flow comes from: the left value where the interface velocity is positive, otherwise the right value; with first-order reconstruction this is the value of the upwind cell.", "quantifier": "all interface velocities (including zero) and states, both q directions and the three p directions", "why_tests_cant": "Sign and boundary cases of a case split over all reals.", "anchors": ["bolt/lib/nonlinear/finite_volume/riemann.py:riemann_solver", "bolt/lib/nonlinear/finite_volume/df_dt_fvm.py:df_dt_fvm"]}
{"id": "C05", "title": "Minmod reconstruction creates no new extrema", "statement": "Both face values produced by the minmod reconstruction in a cell lie between the smallest and largest value among that cell and its two neighbours, each face value lies between the cell's value and the neighbour's value on that side, and at a local extremum both face values equal the cell value.", "quantifier": "all arrays, all cells", "why_tests_cant": "A universally quantified inequality over all triples of reals.", "anchors": ["bolt/lib/nonlinear/finite_volume/reconstruction/minmod.py:minmod,slope_minmod,reconstruct_minmod"]}
{"id": "C06", "title": "Minmod reconstruction is exact on linear data", "statement": "Where the data are linear across a cell and its neighbours, the minmod face values are the exact linear values at the faces.", "quantifier": "all slopes and offsets", "why_tests_cant": "Quantifies over all linear data.", "anchors": ["bolt/lib/nonlinear/finite_volume/reconstruction/minmod.py:slope_minmod,reconstruct_minmod"]}
{"id": "C07", "title": "PPM reconstruction is monotone", "statement": "Each PPM face value lies between the cell's own value and the value of the neighbour on that side; if the cell is a local extremum both face values equal the cell value; the parabola defined by the two face values and the cell average is monotone in the cell.", "quantifier": "all arrays, all cells", "why_tests_cant": "Universally quantified inequality over 5-point stencils with many branches.", "anchors": ["bolt/lib/nonlinear/finite_volume/reconstruction/ppm.py:reconstruct_ppm"]}
{"id": "C08", "title": "Reconstructions commute with reflection, shifts and scaling of the data", "statement": "Reversing the array swaps left and right face values; adding a constant to the data adds it to the face values; multiplying by a constant multiplies the face values (minmod and PPM); a spatial shift of the data shifts the face values. WENO5 is not reflection symmetric because its smoothness indicators are mistyped (negative part).", "quantifier": "all arrays and constants (also negative ones)", "why_tests_cant": "Algebraic laws over all inputs.", "anchors": ["bolt/lib/nonlinear/finite_volume/reconstruction/minmod.py", "bolt/lib/nonlinear/finite_volume/reconstruction/ppm.py", "bolt/lib/nonlinear/finite_volume/reconstruction/weno5.py"]}
{"id": "C09", "title": "Unavailable numerical options are refused", "statement": "Requesting a reconstruction method that is not implemented raises an error and never silently falls back to another method; the implemented names select the corresponding method. The Riemann-solver option, however, is read but ignored: every name gives the upwind flux (negative part).", "quantifier": "all option strings", "why_tests_cant": "Quantifies over all strings.", "anchors": ["bolt/lib/nonlinear/finite_volume/reconstruct.py:reconstruct", "bolt/lib/nonlinear/finite_volume/riemann.py:riemann_solver"]}
{"id": "C10", "title": "First-order scheme is positivity preserving and satisfies a maximum principle under the CFL condition", "statement": "With piecewise-constant reconstruction, time-independent divergence-free interface velocities and (|C_q1|/dq1 + |C_q2|/dq2) dt at most 1 in the outflow sense, a nonnegative distribution stays nonnegative after any number of finite-volume steps in q-space, and stays within the initial bounds when the discrete velocity field is divergence-free.", "quantifier": "all nonnegative states, all grids, all step counts", "why_tests_cant": "An inductive invariant over unboundedly many steps.", "anchors": ["bolt/lib/nonlinear/finite_volume/fvm_operator.py:timestep_fvm", "bolt/lib/nonlinear/finite_volume/df_dt_fvm.py:df_dt_fvm"]}
{"id": "C11", "title": "Results do not depend on the domain decomposition", "statement": "On a periodic domain, the interior values computed on every process after a finite-volume update equal those of a single-process run, for any partition of the grid into rectangles, provided the ghost width covers the stencil of the reconstruction.", "quantifier": "all grids, all rectangular partitions, all states, all ghost widths at least the stencil radius, all step counts", "why_tests_cant": "Partition independence quantifies over all process layouts; tests run on one layout.", "anchors": ["bolt/lib/nonlinear/communicate.py:communicate_f", "bolt/lib/nonlinear/finite_volume/df_dt_fvm.py:df_dt_fvm", "bolt/lib/nonlinear/nonlinear_solver.py:nonlinear_solver.__init__"]}
{"id": "C12", "title": "Ghost width smaller than the stencil silently corrupts results", "statement": "The ghost width is not checked against the reconstruction: with fewer ghost cells than the stencil radius the interior update can differ from the single-process result (negative property).", "quantifier": "exists a state; contrast with C11 for all states", "why_tests_cant": "It is the sharpness half of a quantified statement.", "anchors": ["bolt/lib/nonlinear/nonlinear_solver.py", "bolt/lib/nonlinear/finite_volume/df_dt_fvm.py"]}
{"id": "C13", "title": "Discrete divergence of B is preserved for ever by the FDTD solver", "statement": "The discrete divergence of the Yee-grid magnetic field is unchanged by every FDTD step, whatever the currents; in particular it stays zero if it was zero.", "quantifier": "all fields, all currents, all dt, any number of steps", "why_tests_cant": "Invariant over unbounded histories with arbitrary currents.", "anchors": ["bolt/lib/nonlinear/fields/electrodynamic/fdtd_explicit.py:fdtd,fdtd_evolve_B", "bolt/lib/nonlinear/fields/fields.py:fields_solver.compute_divB"]}
{"id": "C14", "title": "Gauss's law is preserved by the coupled FVM-FDTD step", "statement": "In electrodynamic runs where momentum currents are taken from the upwinded face values used for the fluxes, div E - rho/eps is unchanged by a full finite-volume step (charge-conserving deposition).", "quantifier": "all states, all periodic grids, all dt, any number of steps", "why_tests_cant": "Exact invariant of the coupled system over all histories.", "anchors": ["bolt/lib/nonlinear/finite_volume/df_dt_fvm.py:df_dt_fvm", "bolt/lib/nonlinear/fields/electrodynamic/fdtd_explicit.py:fdtd_evolve_E", "bolt/lib/nonlinear/fields/fields.py:fields_solver.compute_divE,check_maxwells_contraint_equations"]}
{"id": "C15", "title": "Charge continuity of the FDTD update", "statement": "After an FDTD step div E has changed by exactly -dt/eps div J; in vacuum div E is constant.", "quantifier": "all fields, currents, dt, step counts", "why_tests_cant": "Algebraic identity over all fields.", "anchors": ["bolt/lib/nonlinear/fields/electrodynamic/fdtd_explicit.py:fdtd_evolve_E"]}
{"id": "C16", "title": "Vacuum FDTD conserves the staggered energy exactly", "statement": "With no currents on a periodic grid, the sum of eps |E|^2 + B(n-1/2).B(n+1/2)/mu over the grid is the same at every step.", "quantifier": "all fields, grids, dt, step counts", "why_tests_cant": "Exact invariant; floating tests only see approximate energy.", "anchors": ["bolt/lib/nonlinear/fields/electrodynamic/fdtd_explicit.py:fdtd"]}
{"id": "C17", "title": "FDTD is time reversible", "statement": "Stepping the vacuum fields and then applying the E- and B-updates with -dt in reverse order restores the initial fields exactly; the update is a bijection for any current.", "quantifier": "all fields, currents and dt", "why_tests_cant": "Round trip over all inputs.", "anchors": ["bolt/lib/nonlinear/fields/electrodynamic/fdtd_explicit.py:fdtd_evolve_E,fdtd_evolve_B"]}
{"id": "C18", "title": "Yee/cell-centre interpolation is consistent", "statement": "Converting fields between Yee positions and cell centres averages exactly the neighbouring values that surround the target point, reproduces constant fields exactly, preserves the sum of each component over a periodic grid and touches only the requested group of components.", "quantifier": "all fields, both directions, all selections", "why_tests_cant": "Algebraic laws over all fields.", "anchors": ["bolt/lib/nonlinear/fields/fields.py:fields_solver.cell_centered_grid_to_yee_grid,yee_grid_to_cell_centered_grid"]}
{"id": "C19", "title": "Fields are handed out at alternating time levels in a fixed pattern", "statement": "With FDTD and finite-volume momentum advection, the flag which selects the time level of the fields is back at 'time n' at every step boundary, and the field evolution is performed exactly once per full step, in the second stage.", "quantifier": "all step counts, all configurations with fields on", "why_tests_cant": "Parity invariant over unbounded histories of calls.", "anchors": ["bolt/lib/nonlinear/fields/fields.py:fields_solver.get_fields", "bolt/lib/nonlinear/finite_volume/df_dt_fvm.py:df_dt_fvm", "bolt/lib/nonlinear/finite_volume/fvm_operator.py:timestep_fvm"]}
{"id": "C20", "title": "The fields used by the momentum fluxes belong to the documented time levels", "statement": "get_fields is documented to return fields at n in the first stage and at n+1/2 in the second. As coded, the three momentum fluxes of one slope evaluation use alternating levels, and after initialisation the arrays for n, n+1/2 and the evolving cell-centred fields are the same object, so the levels collapse (negative property).", "quantifier": "all runs", "why_tests_cant": "Depends on aliasing and call histories.", "anchors": ["bolt/lib/nonlinear/fields/fields.py:fields_solver._initialize,get_fields,evolve_electrodynamic_fields", "bolt/lib/nonlinear/finite_volume/df_dt_fvm.py"]}
{"id": "C21", "title": "Spectral Poisson solver satisfies Gauss's law", "statement": "The electrostatic field returned for a charge density has, in every Fourier mode resolved by the grid other than the mean, divergence equal to rho/eps minus its mean; it is curl-free and has zero mean; the mean of the charge density does not matter.", "quantifier": "all grid sizes and charge densities", "why_tests_cant": "Quantifies over all densities and resolutions.", "anchors": ["bolt/lib/nonlinear/fields/electrostatic/fft.py:fft_poisson"]}
{"id": "C22", "title": "FFT helper round trip", "statement": "Forward and inverse 2-D transforms used by the solvers are mutually inverse, and the normalisation 2/(N1 N2) then 0.5 N1 N2 used by the linear solver restores the distribution function.", "quantifier": "all grid sizes and arrays", "why_tests_cant": "Round-trip law over all arrays.", "anchors": ["bolt/lib/utils/fft_funcs.py:fft2,ifft2", "bolt/lib/linear/linear_solver.py:linear_solver._initialize,get_dist_func"]}
{"id": "C23", "title": "Initial magnetic field from a vector potential is divergence-free", "statement": "A magnetic field initialised from (A3, B3) with B3 given has zero discrete divergence on a periodic grid. The full-vector-potential option uses differences of the wrong direction, so it need not (negative part).", "quantifier": "all vector potentials", "why_tests_cant": "Algebraic identity over all potentials.", "anchors": ["bolt/lib/nonlinear/fields/fields.py:fields_solver.initialize_magnetic_fields,compute_divB"]}
{"id": "C24", "title": "Ghost exchange and boundary conditions never alter interior cells", "statement": "Communicating ghost zones and applying any boundary condition to the distribution function or to the fields changes values only in ghost cells.", "quantifier": "all boundary types, ghost widths, arrays, positions of the local zone", "why_tests_cant": "Frame property over all arrays and configurations.", "anchors": ["bolt/lib/nonlinear/communicate.py", "bolt/lib/nonlinear/boundaries.py", "bolt/lib/nonlinear/fields/boundaries.py"]}
{"id": "C25", "title": "Periodic ghost exchange yields periodic images", "statement": "After communicating on a periodic domain every ghost cell holds the value of the interior cell it is the periodic image of, on whichever process that cell lives; communicating twice equals communicating once.", "quantifier": "all decompositions, ghost widths and arrays", "why_tests_cant": "Quantifies over decompositions.", "anchors": ["bolt/lib/nonlinear/communicate.py:communicate_f,communicate_fields"]}
{"id": "C26", "title": "Mirror boundary reflects position and reverses normal momentum", "statement": "With the mirror condition the ghost cell at distance d outside a wall holds the value at distance d inside with the momentum component normal to the wall reversed, at all four walls.", "quantifier": "all arrays, ghost widths, momentum grids", "why_tests_cant": "Index arithmetic over all sizes.", "anchors": ["bolt/lib/nonlinear/boundaries.py:apply_mirror_bcs_f_cartesian"]}
{"id": "C27", "title": "Mirror walls are impermeable", "statement": "With mirror walls, a momentum grid symmetric about zero and velocity that is reversed with the momentum, the net flux of particles summed over momentum through the wall vanishes, for every reconstruction whose stencil fits into the ghost zone.", "quantifier": "all distributions and symmetric momentum grids", "why_tests_cant": "Sum identity over all distributions.", "anchors": ["bolt/lib/nonlinear/boundaries.py:apply_mirror_bcs_f_cartesian", "bolt/lib/nonlinear/finite_volume/riemann.py"]}
{"id": "C28", "title": "Dirichlet boundary only prescribes inflow", "statement": "With the dirichlet condition, a ghost value at a wall is overwritten with the user's function exactly when the velocity points into the domain, and kept otherwise.", "quantifier": "all arrays, velocities, walls", "why_tests_cant": "Sign case split over all velocities and walls.", "anchors": ["bolt/lib/nonlinear/boundaries.py:apply_dirichlet_bcs_f"]}
{"id": "C29", "title": "Shearing-box shift wraps correctly", "statement": "The sheared coordinate used for interpolation is the given coordinate moved by the shear displacement, wrapped by whole periods into the domain.", "quantifier": "all displacements and times", "why_tests_cant": "Loop termination and congruence for all reals.", "anchors": ["bolt/lib/nonlinear/boundaries.py:apply_shearing_box_bcs_f", "bolt/lib/nonlinear/fields/boundaries.py:apply_shearing_box_bcs_fields"]}
{"id": "C30", "title": "Boundary dispatch", "statement": "Each wall's condition is applied only by processes owning cells at that wall, in the order left, right, bottom, top; periodic and none do nothing; mirror+dirichlet applies mirror then dirichlet; any other name raises.", "quantifier": "all condition names and process positions", "why_tests_cant": "Quantifies over all strings and layouts.", "anchors": ["bolt/lib/nonlinear/boundaries.py:apply_bcs_f", "bolt/lib/nonlinear/fields/boundaries.py:apply_bcs_fields"]}
{"id": "C31", "title": "Boundary-condition configuration is validated", "statement": "Constructing the solver fails exactly when a direction's left (bottom) condition is periodic, shearing-box or none and its right (top) condition differs; otherwise the ghost width is N_ghost, or zero along a direction without conditions. Negative part: a periodic right wall behind another kind of left wall, and unknown names, are accepted by the constructor.", "quantifier": "all pairs of condition strings", "why_tests_cant": "Quantifies over all strings.", "anchors": ["bolt/lib/nonlinear/nonlinear_solver.py:nonlinear_solver.__init__"]}
{"id": "C32", "title": "Runge-Kutta steps have the advertised order", "statement": "RK2, RK4 and RK5 have orders 2, 4 and 5: for every smooth right-hand side and every solution through the current state, one step of size dt misses the solution by O(dt^(p+1)). On linear autonomous problems the amplification is the Taylor polynomial of the exponential (exactly for RK2 and RK4, through order five for RK5); constant slopes are integrated exactly and linear invariants of the slope are kept.", "quantifier": "all right-hand sides, states and dt", "why_tests_cant": "Order is a statement about all right-hand sides.", "anchors": ["bolt/lib/nonlinear/temporal_evolution/integrators.py:RK2,RK4,RK5", "bolt/lib/linear/integrators.py"]}
{"id": "C33", "title": "Operator splitting composes the operators in the advertised order and is exact for commuting flows", "statement": "Lie, Strang, SWSS and Jia steps compose the two operators as advertised; if both are exact flows that commute, any sequence of steps of any scheme returns the exact combined flow. With fields enabled Jia's scheme raises AttributeError (negative part).", "quantifier": "all operators, states and dt", "why_tests_cant": "Quantifies over all operators.", "anchors": ["bolt/lib/nonlinear/temporal_evolution/operator_splitting_methods.py:strang,lie,swss,jia"]}
{"id": "C34", "title": "Operator splitting order of accuracy", "statement": "When the two operators are the exact exponentials of bounded linear generators A and B, one step of size dt differs from exp(dt (A+B)) by O(dt^2) (Lie), O(dt^3) (Strang, SWSS) and O(dt^4) (Jia).", "quantifier": "all pairs of non-commuting linear operators", "why_tests_cant": "Order is a statement about all operators.", "anchors": ["bolt/lib/nonlinear/temporal_evolution/operator_splitting_methods.py"]}
{"id": "C35", "title": "Time bookkeeping", "statement": "After any sequence of successful steps the elapsed time equals the sum of the step sizes; a step in which the solution diverges raises and does not advance the time.", "quantifier": "all sequences of steps of all schemes", "why_tests_cant": "History property over unbounded sequences.", "anchors": ["bolt/lib/nonlinear/timestep.py:strang_step,lie_step,swss_step,jia_step,check_divergence"]}
{"id": "C36", "title": "Step dispatch", "statement": "With finite volumes in q and p all four time-stepping methods perform the same single finite-volume update per time step; with semi-Lagrangian q advection the operators are composed by the chosen splitting; an unknown method performs no update but still advances the time (negative part).", "quantifier": "all configurations and states", "why_tests_cant": "Quantifies over configurations.", "anchors": ["bolt/lib/nonlinear/timestep.py", "bolt/lib/nonlinear/finite_volume/fvm_operator.py:op_fvm"]}
{"id": "C37", "title": "Memory layouts p-expanded and q-expanded are mutually inverse and index as documented", "statement": "Conversion between the two layouts of the distribution function is a bijection; element (p1+N_p1 p2+N_p1 N_p2 p3, s, q1, q2) of one is element (p1, p2, p3, s + N_s (q1 + ...)) of the other.", "quantifier": "all sizes and arrays", "why_tests_cant": "Index arithmetic over all sizes.", "anchors": ["bolt/lib/nonlinear/nonlinear_solver.py:nonlinear_solver._convert_to_q_expanded,_convert_to_p_expanded"]}
{"id": "C38", "title": "Dump then load restores the state", "statement": "Loading a distribution-function dump into a solver of the same configuration restores every interior value exactly; the same for electromagnetic fields (cell-centred).", "quantifier": "all states, sizes, ghost widths", "why_tests_cant": "Round trip over all states and sizes.", "anchors": ["bolt/lib/nonlinear/file_io/dump.py:dump_distribution_function,dump_EM_fields", "bolt/lib/nonlinear/file_io/load.py:load_distribution_function,load_EM_fields"]}
{"id": "C39", "title": "Moments dump layout", "statement": "In a moments dump the columns are the moments in alphabetical order, each moment's species adjacent.", "quantifier": "all moment sets, species counts, grids", "why_tests_cant": "Index arithmetic over all sizes.", "anchors": ["bolt/lib/nonlinear/file_io/dump.py:dump_moments"]}
{"id": "C40", "title": "Grid coordinates", "statement": "Position coordinates handed to user functions are cell centres (or faces as documented) of the uniform grid, on every process and in ghost zones; momentum coordinates likewise, in the documented order; neighbouring centres differ by dq and the faces are half a cell away. The left-center pair carries the wrong q2 coordinate (negative part).", "quantifier": "all grids, decompositions, ghost widths", "why_tests_cant": "Index arithmetic over all sizes.", "anchors": ["bolt/lib/utils/calculate_q.py:calculate_q", "bolt/lib/utils/calculate_p.py:calculate_p_center,calculate_p_corner"]}
{"id": "C41", "title": "Magnetic forces do no work; the Lorentz force is divergence-free in momentum", "statement": "The force returned by the nonrelativistic advection terms satisfies F.v = (e/m) E.v, and component i does not depend on p_i, so a momentum-uniform distribution is left unchanged by momentum advection.", "quantifier": "all fields and momenta", "why_tests_cant": "Algebraic identity over all fields.", "anchors": ["bolt/src/nonrelativistic_boltzmann/advection_terms.py:A_p,C_p"]}
{"id": "C42", "title": "Moments are linear, positive and consistent", "statement": "Moments are linear in the distribution; density and energy are nonnegative for nonnegative distributions and the squared bulk momentum is at most twice density times energy; the energy is the sum of its directional parts.", "quantifier": "all distributions and momentum grids", "why_tests_cant": "Inequalities over all distributions.", "anchors": ["bolt/src/nonrelativistic_boltzmann/moments.py", "bolt/src/utils/integral_over_v.py", "bolt/lib/nonlinear/compute_moments.py"]}
{"id": "C43", "title": "BGK collision operator fixed points", "statement": "The BGK source vanishes exactly where the distribution equals the local Maxwellian it is built from; with the flag set it returns that Maxwellian; for infinite relaxation time there are no collisions; relaxation moves f towards f0.", "quantifier": "all distributions and moments", "why_tests_cant": "Quantifies over all distributions.", "anchors": ["bolt/src/nonrelativistic_boltzmann/collision_operator.py:f0,BGK"]}
{"id": "C44", "title": "Electronic Boltzmann matrix inverses are correct", "statement": "The explicit 4x4 and 3x3 inverses satisfy A A^-1 = 1 whenever the determinant is nonzero.", "quantifier": "all matrices", "why_tests_cant": "Polynomial identity over all matrices.", "anchors": ["bolt/src/electronic_boltzmann/matrix_inverse.py:inverse_4x4,inverse_3x3"]}
{"id": "C45", "title": "Electronic Boltzmann equilibrium solver", "statement": "The Newton updates used to match particle number, energy and momentum solve the linearised conservation equations exactly and are well defined on non-degenerate momentum grids (negative part: the drifting update at constant temperature is singular when one momentum component is constant on the grid); the equilibrium is a Fermi-Dirac distribution between 0 and 1, monotone in chemical potential; the relaxation-time operator vanishes in a Fermi-Dirac equilibrium at rest and otherwise exactly where f is the weighted mean of its two equilibria, and conserves particles once converged.", "quantifier": "all states and parameters", "why_tests_cant": "Identity and inequality over all reals.", "anchors": ["bolt/src/electronic_boltzmann/collision_operator.py"]}
{"id": "C46", "title": "Linear solver evolves modes consistently", "statement": "Right after construction get_dist_func returns the initial distribution. Without source and fields every Fourier mode evolves independently, the mean mode is constant, the amplitude is multiplied in each step by the Runge-Kutta polynomial of the advection frequency, and as the number of steps grows get_dist_func converges to the initial distribution transported along characteristics, at the advertised order. With any fields the number of particles per species is constant. The elapsed time increases by dt per step. Runs do not raise (negative part: with fields and several species they do).", "quantifier": "all modes, states, dt, step counts", "why_tests_cant": "Quantifies over all modes and steps.", "anchors": ["bolt/lib/linear/df_hat_dt.py", "bolt/lib/linear/timestep.py", "bolt/lib/linear/integrators.py"]}
{"id": "C47", "title": "Linear solver keeps the magnetic field solenoidal", "statement": "In the linear electrodynamic solver k.B of every mode is unchanged by every run, a vector potential gives k.B = 0, the residual of Gauss's law of every mode is unchanged by every run and is zero after a run started from the electrostatic solve; the electrostatic solve satisfies Gauss's law and is curl free. Negative parts: the distribution function sees the fields frozen at the start of each step; the hybrid model's Hall term never acts and its pressure term gives no electric field in space.", "quantifier": "all modes, fields, currents, dt", "why_tests_cant": "Invariant over all histories.", "anchors": ["bolt/lib/linear/fields/dfields_hat_dt.py", "bolt/lib/linear/integrators.py"]}
{"id": "C48", "title": "Background momentum derivative", "statement": "The background-derivative stencil is exact on polynomials of degree at most four in the interior of the momentum grid and sums to zero over the (cyclic) grid.", "quantifier": "all polynomials of degree <= 4, all grids", "why_tests_cant": "Quantifies over all data.", "anchors": ["bolt/lib/linear/calculate_dfdp_background.py:calculate_dfdp_background"]}
{"id": "C49", "title": "Physical-system validation", "statement": "Constructing a physical system succeeds exactly when: attributes of the input modules have permitted types; charge and mass lists and all six momentum limits (given as lists) have one entry per species; a hybrid run has one species; resolutions are positive (momentum resolutions may be zero only without species), the ghost width is not negative; position starts do not exceed ends; at the first species whose momentum limits differ the start is before the end; and an electrodynamic (electrostatic) run names an electrodynamic (electrostatic) solver in any case. The spacings then tile the domain for every species. Negative parts: later species may have reversed limits and negative spacings; a zero resolution dies of a division by zero instead of a message; misspelt field types are accepted.", "quantifier": "all parameter sets", "why_tests_cant": "Quantifies over all inputs.", "anchors": ["bolt/lib/physical_system.py:physical_system.__init__"]}
{"id": "C50", "title": "Parallel reductions", "statement": "However MPI combines the contributions: the global minimum is attained on some process and bounds all elements of all processes; the global mean is unique, lies between minimum and maximum, and is the mean of all elements for all data exactly when all processes hold equally many elements. Negative parts: a process without elements makes the minimum raise ValueError; global_max always raises.", "quantifier": "all distributions of data over processes", "why_tests_cant": "Quantifies over decompositions.", "anchors": ["bolt/lib/utils/parallel_reduction_ops.py"]}
{"id": "C51", "title": "Semi-Lagrangian advection consistency", "statement": "Semi-Lagrangian position advection on a periodic domain gives every cell, for every decomposition, the value at the foot of its characteristic of the Catmull-Rom interpolant of the periodic data, provided displacements stay within the ghost width less one cell; so runs do not depend on the decomposition, whole-cell displacements are exact (within the ghost width), zero time changes nothing, uniform states are kept, local quadratics are transported exactly and uniform velocities conserve the total. Momentum advection does the same for one species (C122 for more) along the second and third momentum axes with zero outside the grid. Negative parts: feet outside the local array give zero; the interpolant overshoots below zero; the force along the first momentum axis is ignored.", "quantifier": "all states, velocities, step lengths, decompositions, ghost widths, numbers of steps", "why_tests_cant": "Quantifies over all states.", "anchors": ["bolt/lib/nonlinear/semi_lagrangian/asl_operators.py:op_advect_q", "bolt/lib/nonlinear/semi_lagrangian/interpolation_routines.py:f_interp_2d,f_interp_p_3d"]}
{"id": "C52", "title": "Source term solve", "statement": "The semi-Lagrangian source step sets f to the callback's equilibrium with instantaneous collisions, otherwise does one midpoint step of df/dt = source if enabled and nothing if not; it keeps every linear moment the source keeps, keeps equilibria, and multiplies the distance to a fixed equilibrium by 1 - z + z^2/2.", "quantifier": "all sources, states, step lengths and flags", "why_tests_cant": "Quantifies over all sources.", "anchors": ["bolt/lib/nonlinear/semi_lagrangian/asl_operators.py:op_solve_src"]}
{"id": "C53", "title": "Utility laws", "statement": "indent puts four spaces per stop before every line (for every kind of line break), keeps the number of lines, leaves only newline characters and drops a final one, and indenting twice adds up; the plasma scales satisfy their defining relations (Debye length x plasma frequency = thermal speed, skin depth x plasma frequency = c, gyroradius x cyclotron frequency = v, speed x crossing time = length). Negative part: the sound speed leaves the mass out.", "quantifier": "all strings; all positive parameters", "why_tests_cant": "Quantifies over all inputs.", "anchors": ["bolt/lib/utils/print_with_indent.py:indent", "bolt/src/nonrelativistic_boltzmann/units"]}
{"id": "C54", "title": "Vacuum FDTD is stable under the Courant condition", "statement": "Without currents, when dt^2 (1/dq1^2 + 1/dq2^2) < eps mu, the electric and magnetic field energies stay below one fixed bound that depends only on the initial fields, for every number of steps.", "quantifier": "all grids, fields, step sizes below the Courant limit, step counts", "why_tests_cant": "Boundedness for an unbounded number of steps from every initial field.", "anchors": ["bolt/lib/nonlinear/fields/electrodynamic/fdtd_explicit.py:fdtd"]}
{"id": "C55", "title": "Particles are conserved in a box with mirror walls", "statement": "In a box whose directions are periodic or end at two mirror walls, the number of particles of each species, summed over all momenta and all cells of all processes, is unchanged by any number of finite-volume steps.", "quantifier": "all grids, decompositions into rectangles, ghost widths covering the stencil, reconstructions, step sizes, velocities reversed with momentum, forces, particle-conserving sources, initial data and numbers of steps", "why_tests_cant": "tests compare a few runs with finite tolerance; exact conservation for all decompositions, data and step counts is an algebraic identity over infinitely many inputs", "anchors": ["bolt/lib/nonlinear/boundaries.py:apply_bcs_f", "bolt/lib/nonlinear/boundaries.py:apply_mirror_bcs_f_cartesian", "bolt/lib/nonlinear/boundaries.py:apply_mirror_bcs_f_polar2D", "bolt/lib/nonlinear/finite_volume/fvm_operator.py:timestep_fvm", "bolt/lib/nonlinear/communicate.py:communicate_f"]}
{"id": "C56", "title": "Runs with mirror walls do not depend on the domain decomposition", "statement": "In a box whose directions are periodic, mirrored, or one cell wide without ghost zones, the values a multi-process run computes are those of the undecomposed problem continued by mirror and periodic images, for every decomposition.", "quantifier": "all grids, decompositions in which every process holds at least as many cells as ghost cells, reconstructions covered by the ghost width, data, callbacks and numbers of steps", "why_tests_cant": "there are unboundedly many decompositions and run lengths; corner ghost cells and walls interact only for particular layouts that a test suite will not enumerate", "anchors": ["bolt/lib/nonlinear/boundaries.py:apply_bcs_f", "bolt/lib/nonlinear/communicate.py:communicate_f", "bolt/lib/nonlinear/nonlinear_solver.py:nonlinear_solver.__init__", "bolt/lib/nonlinear/finite_volume/fvm_operator.py:timestep_fvm"]}
{"id": "C57", "title": "Auxiliary array dumps", "statement": "dump_aux_arrays writes number k of each cell from the bulk of the k-th array passed, for every decomposition; negative parts: the number of arrays is fixed by the first call (a later call with another number raises), and on a grid with an axis without ghost cells every call raises.", "quantifier": "all decompositions, ghost widths, array lists and call histories (first or later call)", "why_tests_cant": "Index arithmetic and call-order dependence over all sizes.", "anchors": ["bolt/lib/nonlinear/file_io/dump.py:dump_aux_arrays"]}
{"id": "C58", "title": "Polar-coordinate transport is free motion", "statement": "In the polar coordinate system the momentum advection terms are those of free straight-line motion (angular momentum and kinetic energy are conserved along characteristics, the Cartesian acceleration is zero), and the source term exactly turns the conservative equation the solver integrates into advection along these characteristics.", "quantifier": "all positions, velocities and differentiable distributions", "why_tests_cant": "Identity over all real arguments and all distributions.", "anchors": ["bolt/src/coordinate_transformation/advection_terms.py", "bolt/src/coordinate_transformation/source_term.py"]}
{"id": "C59", "title": "Growth of modes in the linear solver", "statement": "A freely streaming mode with phase (k.a)dt per step does not grow under RK4_step exactly when the phase squared is at most 8 and stays bounded for any number of such steps; under RK5_step it does not grow for phase squared at most 7/10 and grows from 3/4; under RK2_step every moving mode grows without bound however small the step (negative part).", "quantifier": "all modes, velocities, step sizes and numbers of steps", "why_tests_cant": "Growth or boundedness for all step counts and all modes cannot be settled by finite runs.", "anchors": ["bolt/lib/linear/integrators.py:RK2,RK4,RK5", "bolt/lib/linear/timestep.py", "bolt/lib/linear/df_hat_dt.py"]}
{"id": "C60", "title": "Semi-Lagrangian field step", "statement": "For accepted electrostatic systems the semi-Lagrangian field step never recomputes the fields (negative); for accepted electrodynamic systems it advances the fields only for hybrid runs with the solver spelt 'fdtd', raises NameError for other runs spelt so, and leaves the fields alone otherwise (negative).", "quantifier": "all accepted physical systems and states", "why_tests_cant": "Combines validation with the field step for every accepted option set.", "anchors": ["bolt/lib/nonlinear/semi_lagrangian/asl_operators.py:op_fields", "bolt/lib/physical_system.py:physical_system.__init__"]}
{"id": "C61", "title": "Files of the linear solver", "statement": "dump_distribution_function of the linear solver writes the real-space distribution with p1 running fastest, then p2, p3, the species, q1 and q2: the same file the nonlinear solver writes, on any number of processes, for the same distribution. load_distribution_function reads entries in row-major order instead, so loading one's own dump restores every distribution exactly when at most one of the four extents (momentum cells, species, N_q1, N_q2) exceeds one; otherwise it silently permutes the data (negative part). dump_moments writes per cell the public moments in alphabetical order.", "quantifier": "all grids, states, distributions, process counts of the nonlinear run, and files", "why_tests_cant": "The order of entries is a statement about every index of every grid shape.", "anchors": ["bolt/lib/linear/file_io/dump.py:dump_distribution_function,dump_moments", "bolt/lib/linear/file_io/load.py:load_distribution_function", "bolt/lib/nonlinear/file_io/dump.py:dump_distribution_function"]}
{"id": "C62", "title": "Sources in the linear solver", "statement": "Switching the source on adds to the rate of change of the real-space distribution exactly what the user's source function returns for it, with or without fields; a homogeneous run advances df/dt = source(f) cell by cell by the selected Runge-Kutta method; instantaneous collisions replace the distribution by what the source function returns.", "quantifier": "all source functions, grids, states, schemes and steps", "why_tests_cant": "The source is an arbitrary user function and the claim is about its composition with the transforms on every grid.", "anchors": ["bolt/lib/linear/df_hat_dt.py:df_hat_dt", "bolt/lib/linear/timestep.py", "bolt/lib/linear/integrators.py"]}
{"id": "C63", "title": "Linearised Vlasov equation", "statement": "With the nonrelativistic equations and one species the rate of change of every mode is that of the linearised Vlasov equation: streaming, the mode's own electric and magnetic force on the background, and the mean magnetic force on the mode; the fields are the stored ones (electrodynamic), those of the differentiated amplitudes (electrostatic) or the initial ones (none). In the mean mode the mean magnetic force is counted twice (negative part).", "quantifier": "all modes, grids, backgrounds, states and physical constants", "why_tests_cant": "An identity between the program's slope and a differential equation for every state.", "anchors": ["bolt/lib/linear/df_hat_dt.py:df_hat_dt", "bolt/src/nonrelativistic_boltzmann/advection_terms.py:A_p"]}
{"id": "C64", "title": "Maxwell's equations in the linear solver", "statement": "Outside the hybrid model the amplitudes of the fields change according to Maxwell's equations with the plasma's current; the electromagnetic energy of every mode decreases at the rate of the work done on the current; for an uncharged plasma a transverse light wave is multiplied every step by the method's stability polynomial at the light frequency.", "quantifier": "all modes, grids, states, schemes, steps and physical constants", "why_tests_cant": "Exact identities for every mode and state.", "anchors": ["bolt/lib/linear/fields/dfields_hat_dt.py:dfields_hat_dt", "bolt/lib/linear/integrators.py", "bolt/lib/linear/compute_moments.py"]}
{"id": "C65", "title": "Integrators of the linear solver", "statement": "Each integrator, single or coupled, is the textbook method of its tableau for every slope, which may read the clock; the methods have order two, four and five for every smooth autonomous or time-dependent system; steps of the electrodynamic and electrostatic solver are steps of the method on the linearised equations (for the electrodynamic solver with the plasma's force frozen at the start of the step).", "quantifier": "all slope functions on all normed spaces, initial values, schemes, states", "why_tests_cant": "Order of accuracy is an asymptotic statement over every smooth system.", "anchors": ["bolt/lib/linear/integrators.py:RK2,RK4,RK5", "bolt/lib/linear/timestep.py:RK2_step,RK4_step,RK5_step"]}
{"id": "C66", "title": "Moments and checks of the linear solver", "statement": "compute_moments without arrays gives the moment of the current real-space distribution, for every moment that is a weighted sum over momenta (all bundled ones are); with one array it applies the definition to it; with two it raises. The constructor refuses boundary conditions exactly when none of the four walls is periodic, so a box with mirrors on one axis is accepted and solved as periodic (negative part).", "quantifier": "all moment definitions of weighted-sum form, states, arrays and boundary names", "why_tests_cant": "Commutation of arbitrary moments with the transforms on every grid.", "anchors": ["bolt/lib/linear/compute_moments.py:compute_moments", "bolt/lib/linear/linear_solver.py:linear_solver.__init__"]}
{"id": "C67", "title": "Coupled runs do not depend on the decomposition", "statement": "A run with self-consistent electromagnetic fields (kinetic electrons or the hybrid model, periodic domain) on any number of processes and any block decomposition gives, in every bulk cell after every number of steps, the distribution and the staggered and cell-centred fields of the same run on one undivided periodic grid; so any two decompositions agree. Both runs exist (nothing raises) for implemented options, and fields initialised from the same user functions agree provided a vector potential has two ghost cells to take differences in.", "quantifier": "all decompositions, grids, ghost widths covering the stencil, numbers of steps, step sizes, initial data, callbacks that depend on a cell's position and fields only", "why_tests_cant": "Every number of processes, shape of decomposition and number of steps.", "anchors": ["bolt/lib/nonlinear/finite_volume/fvm_operator.py:timestep_fvm,op_fvm", "bolt/lib/nonlinear/finite_volume/df_dt_fvm.py:df_dt_fvm", "bolt/lib/nonlinear/fields/fields.py:evolve_electrodynamic_fields", "bolt/lib/nonlinear/fields/electrodynamic/fdtd_explicit.py:fdtd", "bolt/lib/nonlinear/communicate.py:communicate_f,communicate_fields"]}
{"id": "C68", "title": "Walls of the electromagnetic fields", "statement": "A Dirichlet wall gives the fields' ghost cells the user's values, a mirror the values of the mirrored cells (tangential electric field on the staggered grid, all components on the cell-centred grid), cells outside the ghost zones of a wall are never changed, and two mirrors meeting in a corner give the doubly mirrored cell. On a mirror the in-plane tangential magnetic field does not change during a step or a whole run on any decomposition, whereas B3 changes with the variation of the normal electric field along the wall (contrary to the comment in the code). Between two opposite mirrors the components that are not reflected are taken from the opposite end of the domain. Runs between such walls do not raise.", "quantifier": "all field values, ghost widths, array shapes, walls and wall combinations, decompositions, runs", "why_tests_cant": "Every field, wall combination, decomposition and number of steps.", "anchors": ["bolt/lib/nonlinear/fields/boundaries.py:apply_dirichlet_bcs_fields,apply_mirror_bcs_fields,apply_bcs_fields", "bolt/lib/nonlinear/fields/electrodynamic/fdtd_explicit.py:fdtd_evolve_B", "bolt/lib/nonlinear/fields/fields.py:fields_solver.__init__"]}
{"id": "C69", "title": "Coupled runs do not depend on origin, number of periods or invariant directions", "statement": "On a periodic grid, displacing initial data and callbacks by whole cells displaces the result of a coupled run; a box that consists of several copies of a smaller periodic box (or has several cells along a direction the smaller one does not resolve) gives the copies of the smaller run; data that do not vary along a direction never vary along it. Hence B1 never changes in problems that do not vary along q2, B2 in those that do not vary along q1, and B does not change in uniform ones. The bundled nonrelativistic callbacks qualify, and the FFT Poisson solver commutes with displacements, so electrostatic runs do too.", "quantifier": "all periodic grids and maps of grids that take neighbours to neighbours, options (kinetic or hybrid, every reconstruction), step counts and sizes, initial data, callbacks compatible with the map", "why_tests_cant": "Every displacement, number of copies, initial state and number of steps.", "anchors": ["bolt/lib/nonlinear/finite_volume/fvm_operator.py:timestep_fvm,op_fvm", "bolt/lib/nonlinear/finite_volume/df_dt_fvm.py:df_dt_fvm", "bolt/lib/nonlinear/fields/fields.py:evolve_electrodynamic_fields,compute_electrostatic_fields", "bolt/lib/nonlinear/fields/electrostatic/fft.py:fft_poisson"]}
{"id": "C70", "title": "Generalised Ohm's law of the hybrid model", "statement": "After every step of a hybrid run the electric field satisfies E = -u x B + (J x B)/(e n) - Te grad n/(e n) with J = curl B/mu, each quantity linearly interpolated to the location of the component on the staggered grid and the ions taken half a step later, and B has changed by minus the step size times curl E. For uniform ions and B it is exactly -u x B. The electron pressure exerts no net force on the periodic domain. The pressure term on a face is divided by the density of the cell centre, which agrees with the face density only where the gradient vanishes or both densities coincide (negative part).", "quantifier": "all distributions, magnetic fields, grids, reconstructions, steps", "why_tests_cant": "An identity for every distribution and magnetic field.", "anchors": ["bolt/lib/nonlinear/finite_volume/df_dt_fvm.py:df_dt_fvm", "bolt/lib/nonlinear/fields/electrodynamic/fdtd_explicit.py:fdtd"]}
{"id": "C71", "title": "Maxwell's equations in runs with self-consistent fields", "statement": "Each step of a run of kinetic species changes the staggered electric field by the step size times (curl B / mu - J)/eps, with B before the step and J the charge-weighted velocity moment of all species half a step later (upwind states on the faces where J1, J2 live), and then the magnetic field by minus the step size times the curl of the new E. Hence the domain mean of E changes by minus dt/eps times the total current, the domain mean of B never changes (kinetic or hybrid), and a uniform plasma in uniform fields gives E the same change everywhere, with no effect of reconstruction.", "quantifier": "all configurations with electrodynamic fields and finite-volume transport, states, callbacks, step sizes, numbers of species and of steps", "why_tests_cant": "An identity for every distribution, field and step.", "anchors": ["bolt/lib/nonlinear/finite_volume/df_dt_fvm.py:df_dt_fvm", "bolt/lib/nonlinear/fields/electrodynamic/fdtd_explicit.py:fdtd", "bolt/lib/nonlinear/finite_volume/fvm_operator.py:timestep_fvm,op_fvm"]}
{"id": "C72", "title": "Convergence of the first-order finite-volume scheme to free streaming", "statement": "On a periodic grid with constant velocities, piecewise-constant reconstruction and steps within the CFL limit, the evolved distribution differs from the initial profile carried along by free streaming by at most elapsed time x C x (cell sizes + largest step), with an explicit C given by the Lipschitz constant of the gradient and the velocities; so refining grid and step converges to the exact solution at every cell and time, on one process or many.", "quantifier": "all smooth periodic profiles, velocities, grids, step sequences within the CFL limit, partitions into processes", "why_tests_cant": "A convergence statement quantifies over all sufficiently fine grids; a test measures the error on a few.", "anchors": ["bolt/lib/nonlinear/finite_volume/df_dt_fvm.py: df_dt_fvm", "bolt/lib/nonlinear/finite_volume/riemann.py: riemann_solver", "bolt/lib/nonlinear/finite_volume/fvm_operator.py: timestep_fvm", "bolt/lib/nonlinear/finite_volume/reconstruct.py: reconstruct"]}
{"id": "C73", "title": "Order of accuracy of the reconstructions", "statement": "Where the derivative of the sampled function does not vanish (for piecewise-constant: everywhere), the spatial slope computed with piecewise-constant, minmod and PPM reconstruction approximates -(v1 df/dq1 + v2 df/dq2) to first, second and fourth order in the cell sizes; on a fine enough grid the limiters do not act there and the slope is that of the unlimited linear (minmod) or parabolic (PPM) interpolant.", "quantifier": "all functions with enough derivatives, points, velocities of either sign, grid spacings below a threshold", "why_tests_cant": "An asymptotic statement for every smooth function.", "anchors": ["bolt/lib/nonlinear/finite_volume/reconstruct.py: reconstruct", "bolt/lib/nonlinear/finite_volume/reconstruction/minmod.py: reconstruct_minmod", "bolt/lib/nonlinear/finite_volume/reconstruction/ppm.py: reconstruct_ppm", "bolt/lib/nonlinear/finite_volume/df_dt_fvm.py: df_dt_fvm"]}
{"id": "C74", "title": "Diagnostic terms of the slope", "statement": "Asked for one of the three momentum-space terms, the slope function returns the flux divergence along that momentum axis, which is the part of the slope that the acceleration along that axis is responsible for; with every other name it returns the whole slope. The three terms add up to what the fields contribute to the slope and each conserves particles at every position; asking for one while momentum-space advection is off is an error. But a call is not a pure query: in an electrodynamic run any two successive calls advance the electromagnetic fields by a whole step, and if no step size has been set one of the two fails.", "quantifier": "all configurations, distributions, field states, callbacks and term names", "why_tests_cant": "Additivity and side effects for every state and every name.", "anchors": ["bolt/lib/nonlinear/finite_volume/df_dt_fvm.py: df_dt_fvm (term_to_return)"]}
{"id": "C75", "title": "Balance of momentum and energy under the Lorentz force", "statement": "With first-order momentum advection and the bundled nonrelativistic force, as long as no particles sit at the ends of the momentum axes, the fields change the rate of the momentum density of each species in each cell by exactly (e/m)(n E + P x B), and over a periodic domain in uniform fields one step takes the total momentum through one step of the explicit midpoint rule. The energy density changes by the work (e/m) E.P plus a numerical heating of half the sum of f (|a1| dp1 + |a2| dp2 + |a3| dp3); so a magnetic field, which should do no work, always heats a plasma it accelerates.", "quantifier": "all grids, species, nonuniform fields, distributions clear of the ends of the momentum grid, step sizes", "why_tests_cant": "Exact discrete balance laws for every distribution and every field.", "anchors": ["bolt/lib/nonlinear/finite_volume/df_dt_fvm.py: df_dt_fvm", "bolt/lib/nonlinear/finite_volume/riemann.py: riemann_solver", "bolt/src/nonrelativistic_boltzmann/advection_terms.py: C_p", "bolt/src/nonrelativistic_boltzmann/moments.py", "bolt/lib/nonlinear/finite_volume/fvm_operator.py: timestep_fvm"]}
{"id": "C76", "title": "The file a script writes does not depend on how it was run", "statement": "A user script that constructs the solver from initial conditions, velocities, forces and sources given as functions of position and momentum, evolves it through a list of time steps and dumps the distribution function, writes a file whose entry for every cell, species and momentum is the value the finite-volume scheme computes on the whole undivided grid from the initial conditions sampled at the cell centres. So the file is the same for every number of processes, every partition and every admissible ghost width.", "quantifier": "all partitions, ghost widths that cover the stencil, initial conditions, velocities periodic over the domain, forces, sources, lists of steps", "why_tests_cant": "End-to-end claim over every partition, every problem and every number of steps.", "anchors": ["bolt/lib/nonlinear/nonlinear_solver.py: nonlinear_solver.__init__, _initialize", "bolt/lib/nonlinear/timestep.py: strang_step", "bolt/lib/nonlinear/timestep.py: check_divergence", "bolt/lib/nonlinear/communicate.py: communicate_f", "bolt/lib/nonlinear/file_io/dump.py: dump_distribution_function"]}
{"id": "C77", "title": "Resuming a run from a file", "statement": "A script that loads a dumped distribution function, possibly on another number of processes with another ghost width, sets the clock to the time reached and continues, writes the same file as a single uninterrupted run. The clock is not stored in the file: a script that does not restore it still continues correctly if velocities, forces and sources do not depend on time, and continues a different problem otherwise.", "quantifier": "all partitions before and after the restart, ghost widths, problems, lists of steps before and after the restart", "why_tests_cant": "Quantifies over every point of interruption and every pair of partitions.", "anchors": ["bolt/lib/nonlinear/file_io/load.py: load_distribution_function", "bolt/lib/nonlinear/file_io/dump.py: dump_distribution_function", "bolt/lib/nonlinear/nonlinear_solver.py: nonlinear_solver.__init__ (time_elapsed)", "bolt/lib/nonlinear/timestep.py"]}
{"id": "C78", "title": "Resuming a run with evolving fields", "statement": "Loading the dumped distribution and the dumped electromagnetic fields into a new solver restores the staggered fields, the time level of the magnetic field and the magnetic field handed to the forces exactly, whatever the number of processes before and after. It does not restore the electric field handed to the forces in a fully electrodynamic run: that is an average over the past steps which is not written; the first step after a restart uses the dumped field instead, so the restart is exact only if the two coincide. A run whose fields come from the FFT Poisson solver is resumed exactly from the distribution alone.", "quantifier": "all configurations, initial fields, distributions, lists of steps before and after the restart, partitions and ghost widths", "why_tests_cant": "Quantifies over every interruption point of every run and every pair of partitions; a restart test on one problem sees agreement to within the step error.", "anchors": ["bolt/lib/nonlinear/file_io/load.py: load_EM_fields", "bolt/lib/nonlinear/file_io/dump.py: dump_EM_fields", "bolt/lib/nonlinear/fields/fields.py: fields_solver.get_fields, evolve_electrodynamic_fields", "bolt/lib/nonlinear/timestep.py"]}
{"id": "C79", "title": "Which electric field the forces see", "statement": "In a run with fully electrodynamic fields the electric field handed to the forces after n steps is not the field of the grid but a weighted sum of the grid's fields after all previous steps, with weights 1/2, 1/4, 1/8, ... into the past. It never leaves the range of the grid's field, and it lags: a field growing steadily is seen as it was almost one step earlier.", "quantifier": "all electrodynamic finite-volume runs, all step sizes, callbacks, initial fields and numbers of steps", "why_tests_cant": "The weights depend on the whole history of the run; a test sees agreement up to the step size.", "anchors": ["bolt/lib/nonlinear/fields/fields.py: fields_solver.evolve_electrodynamic_fields, get_fields, _initialize", "bolt/lib/nonlinear/timestep.py"]}
{"id": "C80", "title": "Initial fields computed from the charge density", "statement": "With fields_initialize = 'fft' the forces initially see the electric field of the spectral Poisson solver and no magnetic field; with 'fft + user-defined magnetic fields' they see that electric field and the user's magnetic field. Other settings than these two and 'user-defined' are refused. The electric field put on the staggered grid satisfies Gauss's law only if the charge density is uniform: in every Fourier mode its divergence is the charge density times a factor less than one. An electrodynamic run started from it violates Gauss's law at all later times by the same amount.", "quantifier": "all grids, charge densities, magnetic fields, runs", "why_tests_cant": "The violation has to be shown for every non-uniform density and to persist for every history.", "anchors": ["bolt/lib/nonlinear/fields/fields.py: fields_solver._initialize, cell_centered_grid_to_yee_grid", "bolt/lib/nonlinear/fields/electrostatic/fft.py: fft_poisson", "bolt/lib/nonlinear/nonlinear_solver.py: rho_initial"]}
{"id": "C81", "title": "Light waves in the field solver", "statement": "In vacuum, a plane wave sampled on the staggered grid (electric field at whole steps, magnetic field at half steps) is reproduced exactly by the field solver for any number of steps if and only if it satisfies the discrete dispersion relation sin^2(w dt/2) = (c dt)^2 (sin^2(k1 dq1/2)/dq1^2 + sin^2(k2 dq2/2)/dq2^2) with c^2 = 1/(eps mu). Within the Courant condition every wave that fits on the grid has a real frequency, none is faster than light, and its frequency is right to second order in the cell sizes.", "quantifier": "all grids, cell sizes, eps, mu, step sizes, wave numbers, polarisations, phases and numbers of steps", "why_tests_cant": "A test runs one wave for some steps with a tolerance; the claim is exact, for every wave and every number of steps, with an error constant independent of the resolution.", "anchors": ["bolt/lib/nonlinear/fields/electrodynamic/fdtd_explicit.py: fdtd, fdtd_evolve_E, fdtd_evolve_B"]}
{"id": "C82", "title": "Momentum in electrostatic runs", "statement": "In an electrostatic run with the spectral Poisson solver the forces of every slope evaluation see the field of the charge density of the distribution the slope is evaluated at, which satisfies Gauss's law in every resolved mode. That field exerts no net force on the particles: without collisions, with the first-order scheme in momentum space and whatever scheme in position space, the momentum of all particles changes only by the fields imposed from outside, and without such fields it is conserved exactly over any number of steps, as long as no particle can have reached the ends of the momentum grid.", "quantifier": "all numbers of species, masses, charges, grids, distributions, step sizes and numbers of steps", "why_tests_cant": "Exact conservation over every run cannot be separated from small drift by a test with a tolerance, and the property fails for other Poisson solvers only slightly.", "anchors": ["bolt/lib/nonlinear/fields/electrostatic/fft.py: fft_poisson", "bolt/lib/nonlinear/fields/fields.py: compute_electrostatic_fields, get_fields", "bolt/lib/nonlinear/finite_volume/df_dt_fvm.py", "bolt/src/nonrelativistic_boltzmann/advection_terms.py: C_q, C_p"]}
{"id": "C83", "title": "Maxwell constraints printed at the start of a run", "statement": "When a fields solver is constructed, the number printed as MAX(|divB|) is the largest absolute discrete divergence of the magnetic field on the whole periodic grid, for every partition into processes, provided the ghost zones hold the periodic images; with initialize_A3_B3 it is zero for every potential, even one that is not periodic and whose field is not divergence-free across the seam. The number printed as MAX(|divE-rho|) is a signed maximum without the permittivity, with a background charge averaged over each process's array including its ghost zones: it vanishes exactly when Gauss's law holds only if those averages agree with the average over the grid and the permittivity is one; otherwise it depends on the number of processes, can be negative, can be nonzero for exact fields and zero for wrong ones.", "quantifier": "all grids, partitions, ghost widths, fields and charge densities", "why_tests_cant": "A test sees one partition and one field; whether the printed number is trustworthy depends on every partition and every field.", "anchors": ["bolt/lib/nonlinear/fields/fields.py: check_maxwells_contraint_equations, compute_divB, compute_divE"]}
{"id": "C84", "title": "Electron transport with a band velocity and the reported currents", "statement": "With the electronic_boltzmann advection terms and the FVM method, the electrons in a cell change in one step only by the flux of electrons carried by the band velocity through its faces (upwind reconstructed states), whatever the electric and magnetic fields. The moments j_x, j_y are not that flux: on a Cartesian momentum grid j_x is a fixed multiple of the band-velocity current for every distribution exactly if the momentum coordinate is that multiple of the band velocity in every cell; on a polar grid j_x weights by the magnitude of the momentum and j_y by its angle, so j_x is never negative, vanishes only without electrons, and reports a current for distributions that carry none.", "quantifier": "all grids, distributions, band velocities, fields, reconstructions and time steps", "why_tests_cant": "A test compares one device geometry; the identification of the reported moment with the transported current is a statement about every distribution.", "anchors": ["bolt/src/electronic_boltzmann/advection_terms.py: A_q, C_q, A_p, C_p", "bolt/src/electronic_boltzmann/moment_defs.py: density, j_x, j_y", "bolt/lib/nonlinear/compute_moments.py: compute_moments"]}
{"id": "C85", "title": "Negative values with the high-order reconstructions", "statement": "Transport along a single axis with a constant velocity creates neither negative values nor values above the maximum of the data with any reconstruction, provided the distribution moves at most 1 (piecewise-constant), 1/2 (minmod) or 1/3 (ppm) of a cell per step. In two or more phase-space dimensions ppm keeps a nonnegative distribution nonnegative for ever when at most 2/57 of each cell leaves it per step and the velocities are the same in both stages, whereas with minmod no time step is small enough: for every positive Courant number up to one there is a nonnegative distribution that is negative somewhere after one step. Whatever the reconstruction and the velocities, if at most a third of each cell leaves it per step, negative values after one step are bounded by 9/2 times the product of the outgoing and incoming Courant numbers times the maximum of the data.", "quantifier": "all grids, distributions, velocities, spacings, time steps and numbers of steps", "why_tests_cant": "Tests use smooth data for which undershoots do not show; positivity is a statement about every distribution and every step.", "anchors": ["bolt/lib/nonlinear/finite_volume/reconstruction/minmod.py: slope_minmod, reconstruct_minmod", "bolt/lib/nonlinear/finite_volume/reconstruction/ppm.py: reconstruct_ppm", "bolt/lib/nonlinear/finite_volume/df_dt_fvm.py: df_dt_fvm", "bolt/lib/nonlinear/finite_volume/fvm_operator.py: timestep_fvm"]}
{"id": "C86", "title": "The first-order scheme never amplifies differences", "statement": "With the piecewise-constant reconstruction, no source and the CFL condition, two runs with the same velocities and time steps never move apart: the sum over phase space of the absolute difference of the distributions does not grow, so an error in the initial data is never amplified. If in addition the discrete velocity field is divergence-free, the sum over phase space of every convex function of the distribution does not grow: in particular the sum of squares does not grow and the discrete entropy of a nonnegative distribution does not fall.", "quantifier": "all grids, pairs of initial distributions, velocities, spacings, convex functions, time steps within the CFL condition and numbers of steps", "why_tests_cant": "A test compares a few pairs of runs; non-expansiveness is about every pair of distributions, every convex functional and every number of steps.", "anchors": ["bolt/lib/nonlinear/finite_volume/df_dt_fvm.py: df_dt_fvm", "bolt/lib/nonlinear/finite_volume/fvm_operator.py: timestep_fvm", "bolt/lib/nonlinear/finite_volume/riemann.py: riemann_solver"]}
{"id": "C87", "title": "How the species of a run affect each other", "statement": "Without fields, species and momenta never see each other: a run with any selection of species and momentum cells, in any order, with repetitions and any weights, returns the selected and weighted part of the full run. With electrodynamic or electrostatic fields (finite volumes, with or without sources), species interact only through the charge they carry: reordering the species reorders the result, leaving out uncharged species changes nothing else, and replacing a species by several copies whose weights add up to one leaves the fields and the weighted distributions unchanged, for every number of steps.", "quantifier": "all lists of species, selections, weights, distributions, field states, callbacks, time steps and numbers of steps", "why_tests_cant": "The number of species, the weights and the histories are unbounded; a test compares a few runs.", "anchors": ["bolt/lib/nonlinear/finite_volume/df_dt_fvm.py: df_dt_fvm", "bolt/lib/nonlinear/fields/fields.py: evolve_electrodynamic_fields, compute_electrostatic_fields", "bolt/lib/nonlinear/compute_moments.py: compute_moments", "bolt/src/nonrelativistic_boltzmann/advection_terms.py: C_q, C_p"]}
{"id": "C88", "title": "How far a run looks: the domain of dependence", "statement": "After n time steps, the distribution function in a cell depends only on the initial data, velocities, forces and sources at most 2*r*n cells away along each axis, where r is the reach of the chosen reconstruction (1 for piecewise constant, 2 for minmod, 3 for PPM). With self-consistent electrodynamic fields the distance is (2*r+1)*n cells, for the distributions and for the fields of all time levels (r at least 3 for the hybrid model). Neither the rest of the grid nor the size of the domain matters: runs on two different grids whose data agree nearby give the same values. For the first-order scheme the distance is attained for every n.", "quantifier": "all grids (also two different ones), distributions, field states, reconstructions, callbacks acting within a cell, time steps and numbers of steps", "why_tests_cant": "It compares all pairs of states that agree near a cell, on grids of every size and after any number of steps; a test only sees a few pairs.", "anchors": ["bolt/lib/nonlinear/finite_volume/df_dt_fvm.py: df_dt_fvm", "bolt/lib/nonlinear/finite_volume/fvm_operator.py: timestep_fvm, op_fvm", "bolt/lib/nonlinear/finite_volume/reconstruct.py: reconstruct", "bolt/lib/nonlinear/fields/electrodynamic/fdtd_explicit.py: fdtd_evolve_E, fdtd_evolve_B", "bolt/lib/nonlinear/fields/fields.py: evolve_electrodynamic_fields, get_fields"]}
{"id": "C89", "title": "Neither axis is preferred: exchanging q1 and q2", "statement": "If the two position axes are exchanged together with the first two momentum axes (numbers of cells, spacings, coordinates, callbacks, initial distribution functions and fields, with the sign of the magnetic field reversed), a run gives the same distribution functions and fields with the axes exchanged, after any number of steps and with every reconstruction, without fields, with given fields, with electrodynamic fields (also in the hybrid model) and, with more than one cell along each axis, with the electrostatic solver; an error is raised in the same cases. On a grid with equal axes a state that is its own image remains so.", "quantifier": "all grids, distributions, fields, configurations, callbacks, time steps and numbers of steps", "why_tests_cant": "Equality of two runs for every grid, every initial state and every number of steps; a mix-up of the two axes in a branch that a test does not reach, or that vanishes for its data, remains unseen.", "anchors": ["bolt/lib/nonlinear/finite_volume/df_dt_fvm.py: df_dt_fvm", "bolt/lib/nonlinear/fields/electrodynamic/fdtd_explicit.py: fdtd_evolve_E, fdtd_evolve_B", "bolt/lib/nonlinear/fields/fields.py: evolve_electrodynamic_fields, get_fields", "bolt/lib/nonlinear/fields/electrostatic/fft.py: fft_poisson", "bolt/src/nonrelativistic_boltzmann/advection_terms.py: C_q, C_p"]}
{"id": "C90", "title": "Neither direction is preferred: reversing the first axis", "statement": "If the first position axis and the first momentum axis are reversed (coordinates, callbacks, initial distribution functions and fields are replaced by their mirror images; the component of E along the axis and the components of B across it change sign; what is kept on left faces is taken to left faces), a run gives the mirror image of the result, after any number of steps and with every reconstruction, without fields, with given fields, with electrodynamic fields and with the electrostatic solver; an error is raised in the same cases. With a momentum grid symmetric about zero a state that is its own mirror image remains so. The hybrid model is an exception: the field of the mirror image of a plasma at rest is not the mirror image of its field.", "quantifier": "all grids, distributions, fields, configurations, callbacks, time steps and numbers of steps", "why_tests_cant": "Equality of two runs for every grid, every initial state and every number of steps; a one-sided stencil or an off-by-one face is invisible in the data of most tests.", "anchors": ["bolt/lib/nonlinear/finite_volume/df_dt_fvm.py: df_dt_fvm", "bolt/lib/nonlinear/finite_volume/reconstruct.py: reconstruct", "bolt/lib/nonlinear/finite_volume/riemann.py: riemann_solver", "bolt/lib/nonlinear/fields/electrodynamic/fdtd_explicit.py: fdtd_evolve_E, fdtd_evolve_B", "bolt/lib/nonlinear/fields/electrostatic/fft.py: fft_poisson"]}
{"id": "C91", "title": "The results do not depend on the units", "statement": "If the grid spacings, time steps, momentum coordinates, charges, constants, initial distribution functions and fields of a problem are multiplied by factors that respect the dimensions of Maxwell's equations (of Poisson's equation for the electrostatic solver, and also of Ohm's law for the hybrid model), every distribution function and every field computed is multiplied by the factor of its own dimension, after any number of steps and with every reconstruction; an error is raised in the same cases. The bundled nonrelativistic velocities and forces satisfy the conditions. The bundled collision operator is an exception: since densities and temperatures are compared with the absolute number 1e-30, multiplying a distribution at rest by any factor but 1 changes the shape of the distribution it relaxes to.", "quantifier": "all grids, distributions, fields, configurations, callbacks, factors, time steps and numbers of steps", "why_tests_cant": "Equality of two runs for every system of units, every initial state and every number of steps; a term with the wrong power of a grid spacing, or a hidden absolute threshold, is invisible as long as the tests use one system of units.", "anchors": ["bolt/lib/nonlinear/finite_volume/df_dt_fvm.py: df_dt_fvm", "bolt/lib/nonlinear/fields/fields.py: fields_solver", "bolt/lib/nonlinear/fields/electrodynamic/fdtd_explicit.py: fdtd_evolve_E, fdtd_evolve_B", "bolt/lib/nonlinear/fields/electrostatic/fft.py: fft_poisson", "bolt/src/nonrelativistic_boltzmann/advection_terms.py: A_q, A_p, C_q, C_p", "bolt/src/nonrelativistic_boltzmann/collision_operator.py: BGK"]}
{"id": "C92", "title": "Semi-Lagrangian advection never amplifies and converges", "statement": "With velocities that do not depend on the position, position-space advection by the semi-Lagrangian method never increases the sum of the squares of the distribution function over the grid, at any momentum and for steps of any size; the sum is kept exactly if, along each axis, the particles move by a whole number of cells or the data do not vary. Two runs with the same velocities never come further apart than they began. Started from the values of a periodic profile with bounded third derivatives, a run on any decomposition stays, in root mean square, within half the elapsed time times M1 |v1| h1^2 + M2 |v2| h2^2 of free streaming, whatever the number and the sizes of the steps the ghost cells cover; in particular it converges to free streaming when the grid is refined.", "quantifier": "all grids, decompositions, ghost widths, distributions, constant velocities, smooth periodic profiles, step sizes and numbers of steps", "why_tests_cant": "Absence of growth for every initial state and an error bound uniform in the number and sizes of the steps; a convergence test on a few resolutions and one step size sees neither an instability of rare modes nor a dependence on the number of steps.", "anchors": ["bolt/lib/nonlinear/semi_lagrangian/interpolation_routines.py: f_interp_2d", "bolt/lib/nonlinear/semi_lagrangian/asl_operators.py: op_advect_q"]}
{"id": "C93", "title": "Hybrid runs with semi-Lagrangian momentum advection", "statement": "In a hybrid run that is semi-Lagrangian in momentum space, with each of the splitting methods lie, strang and swss and either method in position space, no step raises where the operators on the distribution do not; after each step the staggered electric field is that of the generalised Ohm's law for the ions averaged to the faces (with swss the mean of those of its two passes), the magnetic field obeys the induction law with that electric field, and its divergence never changes. The clock of the fields advances by the step size with lie and strang and by twice the step size with swss. The force of a lie step is computed from the new magnetic field and the mean of the new electric field and the one used in the step before. The two passes of a swss step do not start from the same fields: the cell-centred fields the second pass starts from are those the first left.", "quantifier": "all grids, distributions, staggered fields, momentum pushes, position operators, splitting methods, step sizes and numbers of steps", "why_tests_cant": "Concerns every state of a run and the identity of array objects across the passes of a splitting method; a test on smooth data cannot tell a second pass that starts from changed fields from an error of the scheme.", "anchors": ["bolt/lib/nonlinear/semi_lagrangian/asl_operators.py: op_fields", "bolt/lib/nonlinear/temporal_evolution/operator_splitting_methods.py: lie, strang, swss", "bolt/lib/nonlinear/timestep.py: lie_step, strang_step, swss_step", "bolt/lib/nonlinear/fields/fields.py: evolve_electrodynamic_fields, get_fields"]}
{"id": "C94", "title": "The field solver converges to Maxwell's equations", "statement": "Given any periodic solution of Maxwell's equations with bounded third derivatives and the currents of that solution half-way through each step, a run of the finite-difference time-domain solver with a Courant number below one ends, in the root mean square of the energy density, within a constant times the distance it started at plus the elapsed time times a constant times dt^2 + dq1^2 + dq2^2 of the solution, the electric field being compared at the time reached and the magnetic field half a step later, each component at its place on the staggered grid. So as the cells shrink at a fixed Courant number the runs converge to the solution over any fixed time. Initialising both fields at the same time, as the code does, only adds a term proportional to the time step, so such runs converge as well.", "quantifier": "all solutions of Maxwell's equations, currents, grids on the rectangle, permittivities and permeabilities, step sizes with a Courant number below one, numbers of steps, starting times and initial fields", "why_tests_cant": "An order-of-convergence test runs one solution on a few grids; the bound has to hold for every solution, every grid and every number of steps.", "anchors": ["bolt/lib/nonlinear/fields/electrodynamic/fdtd_explicit.py: fdtd, fdtd_evolve_E, fdtd_evolve_B", "bolt/lib/nonlinear/fields/fields.py: evolve_electrodynamic_fields, _initialize"]}
{"id": "C95", "title": "Boxes with open walls", "statement": "In a box each direction of which is periodic, one cell without ghost zones, or ends at two walls each of which is 'dirichlet', 'mirror' or 'mirror+dirichlet', a first-order finite-volume run computes the same distribution on any decomposition and whatever the ghost zones held before: through a wall comes in the user's value, the mirrored value, or what the user's function makes of the mirrored value, and nothing outside the box influences what leaves. Each step changes the number of particles by exactly the inflow through the ends of the box at the half step (plus the source). Under the CFL condition a nonnegative distribution stays nonnegative when the inflow is nonnegative, values stay within the bounds of the initial data and the inflow when the velocities are divergence-free, and where no wall returns more than leaves through it the number of particles never grows.", "quantifier": "all grids, decompositions, contents of the ghost zones, wall conditions, inflow functions, velocities and forces, step sizes, initial data, numbers of steps", "why_tests_cant": "A test runs one box on one decomposition with one inflow; stale ghost cells, wrong-sided inflow or corner cases show up only for particular velocities, data and process layouts.", "anchors": ["bolt/lib/nonlinear/boundaries.py: apply_dirichlet_bcs_f, apply_mirror_bcs_f_cartesian, apply_mirror_bcs_f_polar2D, apply_bcs_f", "bolt/lib/nonlinear/communicate.py: communicate_f", "bolt/lib/nonlinear/finite_volume/df_dt_fvm.py: df_dt_fvm", "bolt/lib/nonlinear/finite_volume/riemann.py: riemann_solver"]}
{"id": "C96", "title": "The schedule of the processes does not matter", "statement": "Processes run at their own pace and wait only for the messages of the exchange they are in. At every moment of every schedule a process that has completed k exchanges holds exactly the data it would hold if all processes moved together; in particular, when all have got through the time loop their arrays are those of the synchronous run, and with periodic or mirror walls those of a run on one process. No schedule goes on for ever, and unless a process raises none ends with a process waiting. If a process leaves the loop with an exception in exchange k, the data of the others stay right, but a process that depends on it through d messages never completes more than k + d exchanges: the check that is meant to terminate the program when values become infinite terminates one process and leaves the others waiting.", "quantifier": "all schedules of processes and messages, numbers of processes, decompositions, wall conditions, callbacks, initial data, step sizes, numbers of steps, points at which a process stops", "why_tests_cant": "A test sees one interleaving on one machine; races, lost ordering and hangs after a failure depend on timing and on which process fails when.", "anchors": ["bolt/lib/nonlinear/communicate.py: communicate_f", "bolt/lib/nonlinear/finite_volume/fvm_operator.py: timestep_fvm, op_fvm", "bolt/lib/nonlinear/timestep.py: check_divergence, lie_step"]}
{"id": "C97", "title": "Convergence to the Vlasov equation", "statement": "With velocities and forces that depend on time and on every phase-space coordinate, the first-order finite-volume scheme in position and momentum space converges to the solution of the collisionless kinetic (Vlasov) equation: started from a smooth solution's values at the cell centres, under the CFL condition, a run ends with an average error of at most the elapsed time times a constant times the sum of the cell sizes and the largest time step. If no velocity depends on its own coordinate, as for a velocity given by momentum and a Lorentz force, the bound holds in every cell, on any number of processes.", "quantifier": "all smooth solutions, velocities, forces, grids in position and momentum, time steps that meet the CFL condition, numbers of steps, decompositions", "why_tests_cant": "A convergence test measures an observed order for one problem on a few grids; it cannot show that the limit is the Vlasov equation for every force and velocity field.", "anchors": ["bolt/lib/nonlinear/finite_volume/df_dt_fvm.py: df_dt_fvm", "bolt/lib/nonlinear/finite_volume/fvm_operator.py: timestep_fvm, op_fvm", "bolt/lib/nonlinear/finite_volume/riemann.py: riemann_solver"]}
{"id": "C98", "title": "The WENO5 routine", "statement": "The face values that reconstruct_weno5 returns are averages of the values at the faces of the parabolas through the left, middle and right three of the five neighbouring cell values, with weights (1, 10, 5)/16 to the right and (5, 10, 1)/16 to the left divided by the square of a roughness measure, which is the one of Jiang and Shu for the left triple only. Hence they lie between the three values, they are exact (as point values) where the data lie on a parabola, and on quartics where the three triples are equally rough.", "quantifier": "all arrays, axes and cells", "why_tests_cant": "The weights depend on the data; a test sees a few profiles, exactness and bounds hold for all.", "anchors": ["bolt/lib/nonlinear/finite_volume/reconstruction/weno5.py: reconstruct_weno5"]}
{"id": "C99", "title": "Output times, file names and restarts of the example scripts", "statement": "The time loop of the example scripts ends, at most two steps after the final time; no step is longer than the chosen one; the time in the name of each file is the simulated time; moments and fields are written at exactly the multiples of their interval (if it is not a whole number of steps), the distribution at exactly the multiples of its own (if that is a multiple of the first). After a crash anywhere, a restart from any distribution file ends with the same state and the same files as a run that was never stopped. As the code is: if the interval is a whole number of steps no moments and fields are ever written and no restart works; files of intervals below half a thousandth overwrite each other; the scripts that wait for the clock to come close to the final time can run for ever. The scripts with a fixed list of times write the state after i steps under number i.", "quantifier": "all step sizes, intervals, final times, crash points, solvers and starting states", "why_tests_cant": "A test runs one set of intervals and cannot crash at every action; the dependence on whether the interval is a whole number of steps only shows for special values.", "anchors": ["example_problems/nonrelativistic_boltzmann/shock_tests/brio_wu_test/main.py", "example_problems/nonrelativistic_boltzmann/instabilities/collisionless_shock/2D/main.py", "example_problems/nonrelativistic_boltzmann/linear_modes/linear_modes_fluid/linear_modes_euler/2D/sound_mode/main.py", "example_problems/nonrelativistic_boltzmann/instabilities/bump_on_tail/tau_100/main.py"]}
{"id": "C100", "title": "The step size chosen by the example scripts", "statement": "With the recipe dt = N_cfl min(dq1, dq2)/max(p_end) and N_cfl at most 1/2 (at most 1 for problems that vary along q1 only), and a momentum range symmetric about 0, a first-order script without forces keeps the distribution within its initial bounds whatever the output times; the condition behind it is sharp, and on square cells a larger N_cfl makes a nonnegative distribution negative in one step. With dt_fdtd = N_cfl min(dq1, dq2)/c and N_cfl squared below 1/2 the vacuum fields stay bounded; beyond the Courant condition a checkerboard field grows without bound.", "quantifier": "all grids, momentum grids, N_cfl, output intervals, initial distributions and fields", "why_tests_cant": "Stability is a statement about every initial state and number of steps; a violation may only show for data that no test uses.", "anchors": ["example_problems/nonrelativistic_boltzmann/shock_tests/brio_wu_test/main.py: dt", "example_problems/nonrelativistic_boltzmann/waves_in_plasma/evaluate_omega/whistler/main.py: dt_fvm, dt_fdtd", "bolt/lib/nonlinear/finite_volume/df_dt_fvm.py: df_dt_fvm", "bolt/lib/nonlinear/fields/electrodynamic/fdtd_explicit.py: fdtd"]}
{"id": "C101", "title": "The polar-coordinate and beam-optics packages", "statement": "With the advection terms and the source of the polar-coordinate package the equation that is integrated is the one free particles obey: the distribution of freely moving particles, in polar coordinates, satisfies it at every point off the origin, and on the grid a uniform gas has zero slope in every momentum cell except the last row in thetadot. Without the source this is false wherever there are particles with a radial velocity. The package's density and energy are not the density and kinetic energy of the particles. With the beam-optics package no physical system can be constructed.", "quantifier": "all differentiable initial distributions, points, times, grids, spacings, reconstructions, momentum ranges and distributions", "why_tests_cant": "That an equation holds is a statement about every distribution at every point; the convergence test compares one Gaussian at one time, with a reference that does not satisfy the equation it solves.", "anchors": ["bolt/src/coordinate_transformation/advection_terms.py: C_q, C_p", "bolt/src/coordinate_transformation/source_term.py: source_term", "bolt/src/coordinate_transformation/moments.py: density, energy", "bolt/src/beam_optics/advection_terms.py: n, A_q", "bolt/src/beam_optics/moment_defs.py", "bolt/lib/physical_system.py: physical_system.__init__", "example_problems/coordinate_transformation/convergence_test/convergence_check.py"]}
{"id": "C102", "title": "The graphene device", "statement": "A run of the graphene device ends after the least number of steps that reaches the final time; numbered files hold the moments and Lagrange multipliers of the states they are labelled with, the list of times is theirs, and no value is ever below the floor. The ghost cells behind a contact hold the Fermi-Dirac occupation of the drifting contact for electrons that enter and mirror images otherwise; occupations stay between 0 and 1. The band velocity is along the momentum, the gradient of the band energy and never faster than the Fermi velocity. A restarted run begins again at time zero and file number zero.", "quantifier": "all time steps, final times, file intervals, solvers, initial states, restart files, contact parameters, grids and momenta", "why_tests_cant": "The labels and the floor have to be right for every step of every run, the occupations for every momentum and time.", "anchors": ["example_problems/electronic_boltzmann/graphene/L_5.0_10.0_tau_ee_0.2_tau_eph_1.0/main.py", "example_problems/electronic_boltzmann/graphene/L_5.0_10.0_tau_ee_0.2_tau_eph_1.0/boundary_conditions.py: f_left, f_right", "example_problems/electronic_boltzmann/graphene/L_5.0_10.0_tau_ee_0.2_tau_eph_1.0/params.py: band_energy, band_velocity", "bolt/src/electronic_boltzmann/advection_terms.py: A_q, C_q", "bolt/lib/nonlinear/boundaries.py: apply_mirror_bcs_f_polar2D, apply_dirichlet_bcs_f"]}
{"id": "C103", "title": "Coupled runs do not depend on the pace of the processes", "statement": "In a run with self-consistent fields on several processes, each process posts its messages and waits only for the neighbours it needs, in exchanges of the distribution and of the fields that can have different boundary types. Whatever the order in which messages are posted and received: what a process holds after a number of its own exchanges is always the same, all schedules end, they end with all processes at the end of the time loop if nothing raises, and on a periodic grid the distribution and fields are then those of a run on one process. If one process raises, those that wait for it never get further than their distance from it allows.", "quantifier": "all schedules, decompositions, numbers of steps, initial states, callbacks, time steps, reconstructions and solvers, kinetic or hybrid electrons", "why_tests_cant": "The number of interleavings grows exponentially with processes and exchanges; a test sees the few the machine happens to produce.", "anchors": ["bolt/lib/nonlinear/communicate.py: communicate_f, communicate_fields", "bolt/lib/nonlinear/finite_volume/df_dt_fvm.py: df_dt_fvm", "bolt/lib/nonlinear/finite_volume/fvm_operator.py:timestep_fvm,op_fvm", "bolt/lib/nonlinear/fields/fields.py: evolve_electrodynamic_fields", "bolt/lib/nonlinear/fields/electrodynamic/fdtd_explicit.py: fdtd", "bolt/lib/nonlinear/timestep.py: check_divergence"]}
{"id": "C104", "title": "Collisions and conservation on the momentum grid", "statement": "Collisions conserve particles, momentum and energy up to what the momentum grid misses of a Maxwellian with the computed bulk velocity and temperature: an explicit error that is of second order in the cell width compared with the thermal velocity, plus the particles beyond the ends of the grid; it vanishes under refinement. This holds for the rate of the collision operator, for its equilibrium and for a step of the source. Conservation is not exact: on a coarse grid instantaneous collisions lose a fixed fraction of the particles in every step.", "quantifier": "all nonnegative distributions, momentum grids that contain zero in one, two and three dimensions, masses, collision times and step sizes up to twice the collision time", "why_tests_cant": "A test sees the drift of one distribution on one grid; the bound is for all of them.", "anchors": ["bolt/src/nonrelativistic_boltzmann/collision_operator.py: f0, BGK", "bolt/src/nonrelativistic_boltzmann/moments.py", "bolt/lib/nonlinear/compute_moments.py: compute_moments", "bolt/lib/utils/calculate_p.py: calculate_p_center"]}
{"id": "C105", "title": "Semi-Lagrangian runs on many processes", "statement": "A run with semi-Lagrangian position advection and no fields, made of any sequence of lie, strang, swss and jia steps with any step sizes, ends without an exception at the sum of the steps, and every process then holds its part of what the textbook splitting formulas give on the whole grid; so two such runs on different process grids hold the same distribution. Moments that the source keeps at each position are kept in total when the velocities do not depend on position, and without a source the sum of squares never grows, in spite of the negative weight in jia.", "quantifier": "all decompositions, ghost widths, stale ghost cells, lists of steps with displacements up to the ghost width less one cell, velocity fields that depend on time, and sources that read the distribution at their own position", "why_tests_cant": "The result must be the same for every process count and every sequence of steps; a test compares a few.", "anchors": ["bolt/lib/nonlinear/timestep.py: lie_step, strang_step, swss_step, jia_step", "bolt/lib/nonlinear/temporal_evolution/operator_splitting_methods.py", "bolt/lib/nonlinear/semi_lagrangian/asl_operators.py: op_advect_q, op_solve_src", "bolt/lib/nonlinear/communicate.py: communicate_f"]}
{"id": "C106", "title": "The shearing box is the sheared continuation of itself", "statement": "In a box with shearing-box walls at both ends of one axis and periodic ends on the other, after communication and boundary conditions every process that spans the box along the walls sees the box continued by copies of itself that have slid along the walls by shear rate times box width times time, read off by cubic interpolation: exact copies when the slide is a whole number of cells, the plain periodic box at time zero, and within a quarter of the third derivative times the cell size cubed of a smooth profile at every time. Each ghost column shows as many particles as the column it images. A run of any number of finite-volume steps on any number of processes across the walls computes the undivided run in that continuation, where both stages of a step use the slide at its beginning. It keeps the number of particles exactly with piecewise-constant reconstruction, or with any reconstruction when every slide is a whole number of cells; with minmod between whole cells the number can change. If the walls themselves are shared by several processes the ghost values are right only when the image lies in the process's own rows or ghost rows, and zero otherwise.", "quantifier": "all box sizes, decompositions, ghost widths that cover the stencil (at least two), shear rates of either sign, times, step sizes, numbers of steps, distributions, velocity fields and forces; conservation for velocities that do not vary along the walls and particle-conserving sources", "why_tests_cant": "The displacement takes every real value during a run and wraps round the box any number of times; the shipped test checks one time and one profile on one process.", "anchors": ["bolt/lib/nonlinear/boundaries.py: apply_shearing_box_bcs_f", "bolt/lib/nonlinear/communicate.py: communicate_f", "bolt/lib/nonlinear/timestep.py: strang_step", "bolt/lib/nonlinear/finite_volume/df_dt_fvm.py"]}
{"id": "C107", "title": "What survives machine arithmetic", "statement": "Whatever the floating-point arithmetic does (any operations at all, in particular with infinities and NaNs), a periodic finite-volume run divided among processes computes in every cell exactly the bits of the undivided run, and of the run on any other division; and damage in a cell reaches, in n steps, no cell further away than 2n times the stencil radius. With correctly rounded arithmetic a uniform state of representable numbers in a uniform flow is kept bit for bit with every reconstruction, and the number of particles changes in a step only by the roundings of the last operations, however wrong the computed fluxes are; for the first-order scheme at Courant number at most one that is at most 80 units of roundoff of the total per step, so 80 n units in n steps. Double precision meets the hypotheses with unit 2^-53. Exact conservation does not hold in double precision.", "quantifier": "all arithmetics, process grids, ghost widths that cover the stencil, reconstructions, distributions, velocity fields, forces, sources acting cell by cell, step sizes and numbers of steps; for the conservation bounds all rounding functions of relative accuracy u < 1 (u <= 1/1000 for the explicit constant), without overflow and underflow", "why_tests_cant": "A test compares one run on one machine to a tolerance; bit equality for every arithmetic and a bound that grows only linearly in the number of steps are statements about all inputs.", "anchors": ["bolt/lib/nonlinear/finite_volume/fvm_operator.py: timestep_fvm, op_fvm", "bolt/lib/nonlinear/finite_volume/df_dt_fvm.py: df_dt_fvm", "bolt/lib/nonlinear/finite_volume/reconstruct.py", "bolt/lib/nonlinear/finite_volume/reconstruction/minmod.py", "bolt/lib/nonlinear/finite_volume/reconstruction/ppm.py", "bolt/lib/nonlinear/finite_volume/riemann.py", "bolt/lib/nonlinear/communicate.py: communicate_f"]}
{"id": "C108", "title": "The edge of the momentum grid", "statement": "The momentum grid is cyclic: particles pushed beyond the largest momentum come back at the smallest. As long as the distribution vanishes in the (2n+1)r outermost layers of momentum cells, r being the reach of the momentum reconstruction, a collisionless finite-volume run of n steps does not feel this: it has in every cell the values of the run on an unlimited momentum grid, so two runs with different momentum ranges agree in the cells they have in common. With the first-order scheme within the CFL condition the sum of the absolute differences to the unlimited run is at most the amount of the distribution in those layers. Without the empty margin it fails: an accelerated beam in the last momentum cell reappears in the first one.", "quantifier": "all momentum grids in one, two or three dimensions and their position in the unlimited grid, distributions, velocity fields and forces (also time-dependent and momentum-dependent), reconstructions, step sizes, numbers of steps; first order and CFL for the bound on the tails", "why_tests_cant": "A test sees one momentum range and one distribution whose tails are small but not zero; that the range does not matter is a statement about all ranges and all runs.", "anchors": ["bolt/lib/nonlinear/finite_volume/df_dt_fvm.py: df_dt_fvm (momentum fluxes, af.shift along the momentum axes)", "bolt/lib/nonlinear/finite_volume/fvm_operator.py: timestep_fvm", "bolt/lib/nonlinear/finite_volume/reconstruct.py"]}
{"id": "C109", "title": "Energy exchanged between particles and fields", "statement": "In an electrodynamic finite-volume run with first-order reconstruction in momentum space, whose particles stay clear of the ends of the momentum grid, every step raises the kinetic energy by the step size times the power that the handed-out electric field delivers to the current at the middle of the step, plus a numerical heating: half the sum of m |a_k| dp_k f over the resolved momentum axes. The energy of the staggered fields falls by the work of the mean electric field on the staggered current, exactly, at a fixed step size; in vacuum it is conserved. The two works differ, so the total energy is not conserved: in a uniform plasma it changes by the numerical heating and by half the power of the difference of the handed-out field and the field of the grid, and in the first step it never falls, and rises whenever a populated momentum cell is accelerated along a resolved axis.", "quantifier": "all position and momentum grids, periodic runs of any length, distributions, fields, charges, masses, reconstructions in position space, step sizes (also changing from step to step)", "why_tests_cant": "A test monitors the energy of a few runs up to a tolerance and cannot tell a scheme that conserves energy from one that heats slowly; the exact balance and its defect are statements about all runs.", "anchors": ["bolt/lib/nonlinear/timestep.py: strang_step", "bolt/lib/nonlinear/finite_volume/fvm_operator.py: timestep_fvm", "bolt/lib/nonlinear/finite_volume/df_dt_fvm.py: df_dt_fvm", "bolt/lib/nonlinear/fields/electrodynamic/fdtd_explicit.py: fdtd", "bolt/lib/nonlinear/fields/fields.py: evolve_electrodynamic_fields, get_fields"]}
{"id": "C110", "title": "Oscillations of a uniform plasma", "statement": "In a uniform plasma without magnetic field, an electrodynamic finite-volume run changes the electric field and the current by a linear recurrence in which the particles enter by the plasma frequency alone. The exact oscillation conserves its amplitude; the run does not: for every fixed step size up to the stability limit of the leapfrog scheme (plasma frequency times step size at most 2) the electric field grows geometrically, in the mean square by a factor of at least 1 + (plasma frequency times step size)^2 / 20 in each step, from any initial field or current, for as long as the particles keep clear of the ends of the momentum grid. No step size makes the oscillation stable.", "quantifier": "all uniform initial states with no magnetic field, numbers of species, charges, masses, momentum and position grids, position reconstructions, all step sizes with plasma frequency times step size in (0, 2], all numbers of steps", "why_tests_cant": "Growth at a small step size is slow and shows only in long runs; that no step size avoids it is a statement about all step sizes and all numbers of steps.", "anchors": ["bolt/lib/nonlinear/timestep.py: strang_step", "bolt/lib/nonlinear/fields/fields.py: evolve_electrodynamic_fields, get_fields", "bolt/lib/nonlinear/fields/electrodynamic/fdtd_explicit.py: fdtd", "bolt/lib/nonlinear/finite_volume/fvm_operator.py: timestep_fvm"]}
{"id": "C111", "title": "The field solver in the arithmetic of the machine", "statement": "Whatever the arithmetic of the machine does (rounding, overflow, not-a-number), an electromagnetic run of the explicit field solver on any number of processes computes, in every cell and after any number of steps, the very number the run on one process computes, and two different process grids agree bit for bit; a wrong number spreads by at most one cell per step along each axis. With rounding, uniform fields without currents are kept to the last bit. The divergence of the magnetic field, which the exact scheme keeps, changes by rounding errors only: at most 10 u (n MB (1/dq1 + 1/dq2) + 4 T ME/(dq1 dq2)) in n steps over the time T, where u is the unit roundoff and MB, ME bound the fields; the divergence of the electric field follows the charge carried by the currents up to a similar bound. It is not kept exactly in double precision.", "quantifier": "all machine operations (for the first part), all rounding functions of relative accuracy u <= 1/8 (for the second), all periodic grids, process grids, ghost widths of at least one cell, ghost contents, fields, currents, step sizes and numbers of steps", "why_tests_cant": "A comparison of two runs fixes the process grid, the fields and the machine; error bounds that hold for all runs cannot be seen in samples.", "anchors": ["bolt/lib/nonlinear/fields/electrodynamic/fdtd_explicit.py: fdtd_evolve_E, fdtd_evolve_B, fdtd", "bolt/lib/nonlinear/communicate.py: communicate_fields", "bolt/lib/nonlinear/fields/fields.py: compute_divB, evolve_electrodynamic_fields"]}
{"id": "C112", "title": "Particles and fields together in the arithmetic of the machine", "statement": "Whatever the arithmetic of the machine does (rounding, overflow, not-a-number), a run that evolves the distribution and the electromagnetic fields together computes on any number of processes, in every cell and after any number of steps, the very numbers of the run on one process: the distribution, the staggered fields and the cell-centred fields handed to the forces; two different process grids and ghost widths agree bit for bit. If forces and sources are cell by cell, a wrong number spreads per step by at most 2 r + 1 cells along each axis, where r is the reach of the reconstruction in position (1, 2 or 3 cells).", "quantifier": "all machine operations, all ways the machine may sum over momenta and over species, all periodic grids, process grids, ghost widths that cover the stencil, ghost contents, distributions, fields, velocities, forces, sources, step sizes and numbers of steps", "why_tests_cant": "Comparing two runs fixes process grid, data and machine; with rounding even a change in the order of operations shows only for some data, and after some number of steps.", "anchors": ["bolt/lib/nonlinear/timestep.py: fvm_timestep_RK2", "bolt/lib/nonlinear/finite_volume/df_dt_fvm.py: df_dt_fvm", "bolt/lib/nonlinear/fields/fields.py: evolve_electrodynamic_fields, get_fields", "bolt/lib/nonlinear/fields/electrodynamic/fdtd_explicit.py: fdtd", "bolt/lib/nonlinear/communicate.py: communicate_f, communicate_fields", "bolt/src/utils/integral_over_v.py: integral_over_v"]}
{"id": "C113", "title": "The array programs compute the formulas of the single cells, and a whole run does from memory block to file", "statement": "The right-hand side is computed with whole arrays: cyclic shifts along array axes, re-shaping between the layout for position space and the layout for momentum space, tiling, and batched products of arrays of different shapes. For every grid, number of species and input arrays the result has the shape of the distribution, and its element for a species, a momentum cell and a position cell is what the formulas of the scheme give for that cell: no species, momentum component or axis is mixed up and no exception is raised beyond those of the formulas. The same holds for moments, currents and the Lorentz force. Consequently a run of any number of steps on any number of processes, from memory blocks through ghost exchanges to the written file, yields, bit for bit, the file that lists the numbers of the run of the cell formulas on the whole grid. An advection velocity in momentum that is given on the momentum cells only makes the evaluation raise as soon as there is more than one position cell.", "quantifier": "all numbers of momentum cells, species and position cells, ghost widths, process grids, input arrays of the shapes the solver uses, reconstruction methods, step sizes and numbers of steps; all arithmetics with 1 * x = x, double precision among them", "why_tests_cant": "A wrong axis, a wrong tile count or two exchanged dimensions give the right numbers whenever the dimensions involved are equal, are 1, or the data do not vary along them; tests fix the dimensions and the data.", "anchors": ["bolt/lib/nonlinear/finite_volume/df_dt_fvm.py: df_dt_fvm", "bolt/lib/nonlinear/finite_volume/riemann.py: riemann_solver", "bolt/lib/nonlinear/finite_volume/reconstruct.py: reconstruct", "bolt/lib/nonlinear/finite_volume/fvm_operator.py: op_fvm", "bolt/lib/nonlinear/finite_volume/reconstruction/ppm.py: reconstruct_ppm", "bolt/lib/nonlinear/finite_volume/reconstruction/minmod.py: reconstruct_minmod", "bolt/lib/utils/broadcasted_primitive_operations.py: multiply, add", "bolt/lib/nonlinear/compute_moments.py: compute_moments", "bolt/src/utils/integral_over_v.py: integral_over_v", "bolt/src/nonrelativistic_boltzmann/advection_terms.py: C_p", "bolt/lib/nonlinear/nonlinear_solver.py: _convert_to_q_expanded, _convert_to_p_expanded"]}
{"id": "C114", "title": "Arrays of different shapes combine axis by axis, and every species keeps its own mass, charge and momentum spacing", "statement": "Products and sums of arrays of different shapes raise exactly when two of the arrays have different lengths, neither 1, along some axis; otherwise the result has the largest length along every axis and each element combines the elements at that place in the order of the arguments, with axes of length 1 repeated; in exact arithmetic the order does not matter. Masses and charges given as lists of the same positive length can be used to build any sequence of systems, linear and nonlinear solvers from one params module; all report the same number of species, and after the first solver the module holds one-row arrays with each species' value in its own column. Momentum spacings of an accepted system end up as such rows too. If only the masses are a list and the charges already an array, the first solver raises and leaves all charges zero in the user's module, and a second attempt succeeds with these zeros. In the linear solver's momentum derivative the row of spacings is matched with the second momentum axis, so it is right for one species, indexed by momentum cell instead of species when the number of species equals the number of cells along p2, and raises otherwise.", "quantifier": "all numbers, shapes and contents of the arrays; all numbers of species, all lists of masses and charges, all sequences of constructions; all grids and perturbations", "why_tests_cant": "Tests use one or two species with a handful of shapes and build one solver per process; whether shapes combine correctly, and what a module that several solvers modify contains, depends on all sizes and on the history of constructions.", "anchors": ["bolt/lib/utils/broadcasted_primitive_operations.py: multiply, add", "bolt/lib/nonlinear/nonlinear_solver.py: nonlinear_solver.__init__", "bolt/lib/linear/linear_solver.py: linear_solver.__init__", "bolt/lib/physical_system.py: physical_system.__init__", "bolt/lib/linear/df_hat_dt.py: df_hat_dt"]}
{"id": "C115", "title": "The array program of the coupled kinetic-field run computes the formulas of the single cells, from memory blocks to both dump files", "statement": "The field solver keeps the six field components as rows of one array and updates them with row slices, cyclic shifts and row assignments, copies rows between three arrays that hold the time levels, and hands six row arrays to the user's force function. In any arithmetic (no rounding rule is assumed except that 1 times x is x) these array programs raise nothing, keep the shapes and leave in row i and cell q what the cell formulas for component i prescribe; currents that still carry one entry per species are rejected. On any number of processes, a coupled step on the memory blocks (copies into PETSc vectors, ghost exchange, current reduction over momentum and species, two field half-updates, time-level bookkeeping, forces, two slope evaluations) is a step of the cell model, and after any number of steps the dump file of the distribution and the dump file of the fields hold, bit for bit, what the run of the cell formulas on the whole grid computes. The Lorentz force arrays computed from charges, masses, velocities and the six field arrays have the full shape and hold e/m (E + v x B). Such steps always complete when the processes agree on the time-level flag.", "quantifier": "all grid sizes, decompositions and ghost widths the solver accepts, all numbers of species and momentum cells, all contents of the arrays, all machine arithmetics and orders of summation, all step sizes and numbers of steps, all force and source callbacks", "why_tests_cant": "A test run fixes one grid, one number of processes and one set of arrays. A wrong row index, a swapped shift or an array overwritten while another attribute still refers to it changes values only for particular fields, and equality of two dumps bit for bit must hold for all initial data.", "anchors": ["bolt/lib/nonlinear/fields/electrodynamic/fdtd_explicit.py: fdtd_evolve_E, fdtd_evolve_B, fdtd", "bolt/lib/nonlinear/fields/fields.py: fields_solver.evolve_electrodynamic_fields, fields_solver.get_fields, fields_solver.yee_grid_to_cell_centered_grid", "bolt/lib/nonlinear/finite_volume/df_dt_fvm.py: df_dt_fvm", "bolt/lib/nonlinear/finite_volume/fvm_operator.py: timestep_fvm", "bolt/lib/nonlinear/communicate.py: communicate_fields", "bolt/lib/nonlinear/file_io/dump.py: dump_EM_fields", "bolt/src/nonrelativistic_boltzmann/advection_terms.py: C_p"]}
{"id": "C116", "title": "The collision operator on arrays is the cell formula, acts within one species and one position cell, and keeps runs of the bundled system independent of the number of processes bit for bit", "statement": "In any arithmetic and with any exponential, square root and powers, the bundled collision operator applied to arrays of the documented shapes returns an array of the shape of the distribution holding -(f - f_MB)/tau in each cell, f_MB being the Maxwellian with the floored density, bulk velocity and temperature of that species in that position cell; for instantaneous collisions it returns f_MB whatever tau is. The relaxation time may be a number; an array is accepted exactly when it has the shape of the distribution, every other array raises; the product c * p1**0 * q1**0 of the examples has that shape inside af.broadcast and raises without it. With no momentum dimension the operator raises ZeroDivisionError. The term of a species in a position cell depends on that species in that cell only. With exact reals it is the operator of the other claims on collisions. A run with collisions, Lorentz force and electrodynamic fields on any number of processes therefore leaves in both dump files exactly the numbers that the cell formulas give on the whole grid, with no assumption on the callbacks except which numbers the parameter arrays hold.", "quantifier": "all numbers of species, momentum and position cells, all distributions, masses, velocities, relaxation times and momentum dimensions, all machine arithmetics, elementary functions and orders of summation, all decompositions, step sizes and numbers of steps", "why_tests_cant": "Batched operations repeat an axis of length one silently or raise, depending on the shapes, so a run with one species or one cell hides a wrong shape. Locality and bitwise independence of the number of processes quantify over all distributions and all decompositions.", "anchors": ["bolt/src/nonrelativistic_boltzmann/collision_operator.py: f0, BGK", "bolt/src/nonrelativistic_boltzmann/moments.py: density, mom_v1_bulk, energy", "bolt/lib/nonlinear/compute_moments.py: compute_moments", "bolt/lib/nonlinear/finite_volume/df_dt_fvm.py: df_dt_fvm", "bolt/lib/utils/broadcasted_primitive_operations.py: multiply", "example_problems/nonrelativistic_boltzmann/collision_operator_test/params.py: tau"]}
{"id": "C117", "title": "The boundary routines of the distribution function, run as slices, flips, reshapes, tilings and selections of arrays, do what the boundary conditions say in every cell, on any number of processes", "statement": "For every combination of dirichlet, mirror, mirror+dirichlet, periodic, none and shearing-box conditions at the four walls, on cartesian and polar momentum grids, the boundary routine applied to an array of the shape of the distribution either raises exactly when the cell-by-cell description of the conditions does, with the same exception, or returns an array of that shape holding exactly the described values, bit for bit, in any arithmetic with exact comparisons. An odd number of polar angles raises at the left and right mirrors. Velocities may be given on the momentum cells only, except on a line of cells (one position cell along the second axis): there an inflow wall raises IndexError. Inflow values must be a number or an array of the full shape; any other array raises. Whole time steps and runs with communication and walls on any number of processes are steps and runs of the cell-by-cell description, and never raise where it does not; in exact arithmetic these are the runs of the conservation and decomposition claims with walls.", "quantifier": "all array contents and sizes, all ghost widths and conditions at the four walls, all velocities and inflow values, all decompositions, all machine arithmetics with exact comparisons, all step sizes and numbers of steps", "why_tests_cant": "A slice that is off by one, a flip of the wrong axis or a tiling of the wrong shape gives plausible numbers for symmetric data and for the few sizes a test uses; agreement with the description must hold for all contents, sizes and decompositions.", "anchors": ["bolt/lib/nonlinear/boundaries.py: apply_dirichlet_bcs_f, apply_mirror_bcs_f_cartesian, apply_mirror_bcs_f_polar2D, apply_bcs_f", "bolt/lib/nonlinear/finite_volume/fvm_operator.py: timestep_fvm", "bolt/lib/nonlinear/communicate.py: communicate_f", "bolt/lib/nonlinear/nonlinear_solver.py: _convert_to_p_expanded, _convert_to_q_expanded"]}
{"id": "C118", "title": "A run with walls writes the same file on any number of processes, bit for bit", "statement": "In a box whose directions are periodic, end at two mirrors, or are one cell wide without ghost zones, the dump file of the distribution function after any number of finite-volume steps, computed in floating-point arithmetic by the array programs on any number of processes, holds exactly the numbers the undivided box computes by the method of images with the same operations in the same order; so two runs with different decompositions write the same file, bit for bit. The same holds for first-order runs with inflow walls, mirrors and mirrors with inflow, whatever the ghost zones held before.", "quantifier": "all machine arithmetics with exact comparisons and exact products by one (and, for open walls, by zero), all grids and decompositions with at least as many cells per process as ghost cells (not needed for open walls), ghost widths covering the stencil, conditions at the four walls, velocities, forces, sources and inflow values given as functions of the position, species and momentum, initial data, step sizes and numbers of steps", "why_tests_cant": "Bitwise agreement has to hold for every decomposition, every datum and every number of steps; a dependence on the decomposition shows only when rounding, stale ghost cells or corners happen to differ.", "anchors": ["bolt/lib/nonlinear/boundaries.py: apply_bcs_f, apply_mirror_bcs_f_cartesian, apply_mirror_bcs_f_polar2D, apply_dirichlet_bcs_f", "bolt/lib/nonlinear/communicate.py: communicate_f", "bolt/lib/nonlinear/finite_volume/fvm_operator.py: timestep_fvm", "bolt/lib/nonlinear/file_io/dump.py: dump_distribution_function"]}
{"id": "C119", "title": "The boundary routines of the fields on arrays do what the boundary conditions say", "statement": "On arrays of electromagnetic fields with their memory layout, the boundary routine of the fields raises exactly when the cell-by-cell description of the conditions raises, with the same exception, and otherwise returns an array that holds the described fields, on the staggered and on the cell-centred grid. A finite-difference step with walls on any number of processes — ghost exchange, boundary routine, row operations — is a step of the cell model, in any arithmetic; it goes through whenever the conditions do not raise; in exact arithmetic it is the step of the claims about fields with walls. A boundary function of the fields that returns a number raises TypeError, although one of the distribution function may return a number.", "quantifier": "all grids, decompositions, ghost widths, combinations of conditions at the four walls, boundary functions (which may change from step to step), fields, currents, materials, step sizes and numbers of steps, all machine arithmetics", "why_tests_cant": "The routine consists of slices, flips, joins and slice assignments whose indices depend on the wall, the grid and the ghost width; a wrong index shows only for some combination of wall, component and grid.", "anchors": ["bolt/lib/nonlinear/fields/boundaries.py: apply_bcs_fields, apply_dirichlet_bcs_fields, apply_mirror_bcs_fields", "bolt/lib/nonlinear/fields/electrodynamic/fdtd_explicit.py: fdtd, fdtd_evolve_E, fdtd_evolve_B", "bolt/lib/nonlinear/communicate.py: communicate_fields"]}
{"id": "C120", "title": "A coupled run with walls on blocks of memory is a run of the cell model", "statement": "Take a run of the finite-volume solver with electrodynamic fields or without fields, with any combination of boundary conditions at the four walls, on any number of processes. If the arrays returned by the user's functions hold the values of their cell-by-cell descriptions, then every step of the array program (ghost exchange, boundary routines, current, field update, interpolation, fluxes, midpoint update) is a step of the cell model, in any arithmetic. A step goes through whenever no boundary condition raises. In exact arithmetic the runs of the cell model are the runs of the claims about coupled systems with walls.", "quantifier": "all grids, decompositions, ghost widths, combinations of boundary conditions, callbacks and boundary functions (which may change from evaluation to evaluation), distributions, fields, step sizes and numbers of steps, all machine arithmetics", "why_tests_cant": "A step consists of hundreds of slices, shifts, flips, tilings and assignments whose shapes depend on the grid, the decomposition and the walls; no finite set of configurations shows that every element ends where the scheme says.", "anchors": ["bolt/lib/nonlinear/finite_volume/fvm_operator.py: timestep_fvm", "bolt/lib/nonlinear/finite_volume/df_dt_fvm.py: df_dt_fvm", "bolt/lib/nonlinear/boundaries.py: apply_bcs_f", "bolt/lib/nonlinear/fields/boundaries.py: apply_bcs_fields", "bolt/lib/nonlinear/fields/electrodynamic/fdtd_explicit.py: fdtd"]}
{"id": "C121", "title": "The shearing-box routine on blocks of memory slides the neighbouring boxes by q omega L t", "statement": "With at least two ghost cells and a domain of positive extent along the wall, the shearing-box routine returns for every distribution: it wraps the sheared coordinates into the domain, interpolates the ghost slab there for all species and momenta at once and writes nothing but the ghost cells of the wall. After the exchange and the boundary routines, every process that owns the whole extent along the walls holds the box continued by copies of itself that have slid along the walls by q omega L t. A run of the array program, divided along the other axis among any number of processes, is the undivided run in this sheared continuation. With one ghost cell the routine does not return.", "quantifier": "all grids, numbers of ghost cells, species and momentum cells, shear rates, times, distributions, decompositions along the axis across the walls, callbacks, step sizes and numbers of steps; exact arithmetic; walls at the ends of either axis", "why_tests_cant": "The slab is sliced, reordered, interpolated at positions wrapped by two loops, reordered back and assigned; which elements are read depends on the time, the grid and the decomposition, so a run on a few grids and times shows nothing about the rest.", "anchors": ["bolt/lib/nonlinear/boundaries.py: apply_shearing_box_bcs_f, apply_bcs_f", "bolt/lib/nonlinear/communicate.py: communicate_f", "bolt/lib/nonlinear/timestep.py: strang_step"]}
{"id": "C122", "title": "The semi-Lagrangian routines on blocks of memory, with one and with several species", "statement": "Semi-Lagrangian advection of positions, as a program on arrays, returns whenever the arrays have at least two cells along both axes (ghost cells included), for any number of species, and gives every species and momentum the library's interpolation at the feet of its characteristics; on all processes of a periodic run this is the interpolant of the periodic data. With a single cell along an axis it raises. Advection of momenta does the same for one species. With several species it raises unless there are as many cells along the second momentum axis as species; in that case it returns, but reads the lower ends and cell sizes of the momentum grid of the species whose number is the index of the cell, so the result is right if all species have the same momentum grid, and otherwise distributions change although no force acts.", "quantifier": "all grids, numbers of species and momentum cells, velocities, accelerations, step sizes and distributions; any arithmetic with 0 + x = x and 1 * x = x and any interpolation kernel that reads the array only (exact arithmetic and the cubic kernel for the feet of the characteristics); all decompositions of a periodic domain", "why_tests_cant": "The routines are chains of broadcasts, reorderings and reshapes whose outcome depends on the sizes of all axes; tests with one species on a few grids never meet the sizes for which they raise or silently mix the species.", "anchors": ["bolt/lib/nonlinear/semi_lagrangian/interpolation_routines.py: f_interp_2d, f_interp_p_3d", "bolt/lib/nonlinear/semi_lagrangian/asl_operators.py: op_advect_q", "bolt/lib/nonlinear/nonlinear_solver.py: __init__, _convert_to_p_expanded, _convert_to_q_expanded"]}
{"id": "C123", "title": "Semi-Lagrangian runs on blocks of memory", "statement": "A periodic semi-Lagrangian run without fields, as a program on the arrays of all processes, returns, and the owned cells of whatever it returns are the process's part of the run of the whole grid: each step applies the chosen splitting formula to the interpolant at the feet of the characteristics and to the source step (instantaneous replacement, second-order Runge-Kutta, or nothing). The four splitting methods can be mixed, with any step sizes for which no particle moves further than the ghost width less one cell. So two runs on different process grids and ghost widths give the same global distribution. With the bundled advection and collision functions the source step is relaxation to the local Maxwellian in each position cell.", "quantifier": "all grids, decompositions, ghost widths, numbers of species and momentum cells, initial distributions, velocities that may depend on time, species, momentum and position, source functions that read the distribution at its own position, sequences of splitting schemes and step sizes within the bound; exact arithmetic", "why_tests_cant": "A run chains exchanges, reorderings, interpolations and array sums over all processes; tests fix a few decompositions and step sequences and compare with tolerances.", "anchors": ["bolt/lib/nonlinear/semi_lagrangian/asl_operators.py: op_advect_q, op_solve_src", "bolt/lib/nonlinear/temporal_evolution/operator_splitting_methods.py: lie, strang, swss, jia", "bolt/lib/nonlinear/timestep.py: strang_step, lie_step, swss_step, jia_step", "bolt/lib/nonlinear/semi_lagrangian/interpolation_routines.py: f_interp_2d", "bolt/src/nonrelativistic_boltzmann/collision_operator.py: BGK"]}
{"id": "C124", "title": "Convergence of the linear solver with self-consistent fields", "statement": "Repeating steps of size T/n of the linear solver with self-consistent fields (one species, nonrelativistic, no source) converges to the solution of the linearised kinetic equations. With electrostatic fields the error is at most a constant over n to the advertised order of the scheme (2, 4, 5), with the constant given by any bound on the rate of change. With electrodynamic fields it is at most a constant over n, whichever scheme is chosen, and no better: the docstrings' orders fail because the force is that of the start of the step. A uniform plasma oscillation shows it: the exact equations keep its energy, every scheme multiplies it by 1 + (w h)^2/2 per step (up to a fixed factor), so that after time T the relative energy error is at least (w T)^2/(8 n).", "quantifier": "all mode amplitudes, grids, wave numbers, backgrounds, charges and masses, uniform magnetic fields, final times, numbers of steps and the three schemes; every solution of the differential equations", "why_tests_cant": "A convergence test measures a few resolutions of one initial condition and cannot tell an order for all of them; the bundled tests of the integrators use a scalar equation without fields, so the loss of order in the coupled solver is invisible to them.", "anchors": ["bolt/lib/linear/timestep.py: RK2_step, RK4_step, RK5_step", "bolt/lib/linear/integrators.py: RK2, RK4, RK5, RK2_coupled, RK4_coupled, RK5_coupled", "bolt/lib/linear/df_hat_dt.py: df_hat_dt", "bolt/lib/linear/fields/dfields_hat_dt.py: dfields_hat_dt", "bolt/lib/linear/fields/electrostatic_solver.py: compute_electrostatic_fields"]}
