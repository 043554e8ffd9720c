# Formal model of QuazarTech/Bolt in Lean 4 — design

The repository under study is `/repo` (Python, `bolt/`).  The Lean project is `/verif/lean`.
Layout:

* `Verif/Spec/*`   small independent specifications (what "face value", "periodic image", "tableau", ... mean)
* `Verif/Model/*`  the model of the code, function by function, each definition citing file and lines
* `Verif/Proofs/*` helper lemmas
* `Verif/Props/*`  the property theorems, with `example`s exhibiting non-trivial instances of the hypotheses

## Modelling decisions

1. **Numbers.** Array entries live in an arbitrary linearly ordered field `K` (examples over `ℚ`); `ℝ`/`ℂ` only where
   `exp`, `sqrt`, trigonometry or the Fourier transform occur.  Floating-point rounding is modelled for the finite-volume step and the explicit field solver only (C107: `Model/MachineArith.lean`, C111: `Model/MachineFields.lean`; any arithmetic for bit equality, correctly rounded arithmetic without overflow and underflow for the bounds); elsewhere rounding, `NaN` and overflow are not modelled.
2. **Arrays.** An ArrayFire array is a function on an index set (C25, C37, C38, C113, C115, C116, C117, C119, C120, C121, C122, C123: dimensions and a column-major buffer; C113, C115, C116, C117, C119, C120, C121, C122 and C123 prove that the programs on such arrays compute the functions on index sets for the finite-volume slope, moments, currents and forces, for the field solver and the coupled step, for the collision operator, and for the boundary routines of the distribution function and of the fields; an operation is batched when its source is executed under `af.broadcast`, which the modelled call sites never nest).  `af.shift` is *cyclic*; it is modelled by
   `shift e x i = x (i - e)` on an additive commutative group of indices.  The code is defined for every such group and
   instantiated with (a) `ZMod n₁ × ZMod n₂` for a whole periodic grid, (b) `ZMod (n₁+2g) × ZMod (n₂+2g)` for the local
   array *with ghost zones* of one process (cyclic shifts then wrap around the ghosted array, exactly as in the code),
   (c) `ℤ × ℤ` for the unbounded grid.
3. **Column-major memory.** `af.moddims`, `af.flat`, `to_ndarray` are modelled as re-indexings through the column-major
   linear index; the layout theorem (C37) is what licenses the direct `(p1,p2,p3,s,q1,q2)` indexing used elsewhere.
4. **Exceptions** are values (`Except`), Python attribute/name errors included where they decide the outcome.
5. **Python aliasing** is modelled with an explicit heap where it matters (field arrays, C20).
6. **PETSc** `globalToLocal` is modelled as: interior := own part of the global vector; ghost := periodic image (periodic DMDA)
   or neighbour's value/unchanged (ghosted DMDA outside the domain).  `MPI` reductions are modelled as folds over ranks.
7. **User callbacks** (`C_q`, `C_p`, source, boundary functions, initial data) are universally quantified parameters.

## Trusted base

* Lean 4.33.0 kernel; axioms used by the theorems: at most `propext`, `Classical.choice`, `Quot.sound` (checked with `#print axioms`).
* The correspondence between the Python text and the definitions in `Verif/Model` (by reading; each definition cites its lines).
* The semantics assumed for ArrayFire / PETSc / numpy primitives listed above.
* Not modelled: rounding outside C107–C113 and C115–C120, performance timers, printing, `bandwidth_test`, backend selection, HDF5/PETSc file formats
  beyond "what is written is what is read back", example problems other than those in the table below, documentation and tests.

## Per-property plan

| id | property | model and proof |
|---|---|---|
| C01 | Total particle number is conserved on a periodic domain | Model df_dt_fvm q/p parts on a finite cyclic grid; prove sum of the slope is 0 (telescoping by reindexing a sum over a finite group), then induction over the list of steps. |
| C02 | Momentum-space advection never changes the density | Sum over p of the p-flux divergence is 0 by the same telescoping lemma, per species and position. |
| C03 | Uniform states stay uniform | Each reconstruction returns the constant on constant data; the flux difference is then 0; induction on steps. |
| C04 | Fluxes are upwinded | State the interface value by a three-line spec (upwind side) and prove the model's riemann_solver/df_dt_fvm meets it. |
| C05 | Minmod reconstruction creates no new extrema | Case analysis on signs and absolute values of the model of minmod; inequalities over an ordered field. |
| C06 | Minmod reconstruction is exact on linear data | Direct computation on the linear stencil. |
| C07 | PPM reconstruction is monotone | Case analysis over the PPM branches; nonlinear arithmetic for the parabola monotonicity. |
| C08 | Reconstructions commute with reflection, shifts and scaling of the data | Reflection/shift/scale equivariance lemmas for minmod, PPM, WENO5 models. |
| C09 | Unavailable numerical options are refused | Model the string dispatch with Except; theorem for all strings. |
| C10 | First-order scheme is positivity preserving and satisfies a maximum principle under the CFL condition | Convex-combination form of one Euler stage, RK2 = average of identity and two Euler stages for frozen velocities; induction over steps. |
| C11 | Results do not depend on the domain decomposition | Locality (radius) lemma for the update + ghost exchange spec; refinement of each rank's interior to the global periodic update, induction over steps. |
| C12 | Ghost width smaller than the stencil silently corrupts results | Concrete witness on a small grid (negation of C11 without the width hypothesis). |
| C13 | Discrete divergence of B is preserved for ever by the FDTD solver | div curl = 0 for backward differences by shift commutation; induction over steps with arbitrary currents. |
| C14 | Gauss's law is preserved by the coupled FVM-FDTD step | Combine the q-flux form of df_dt with J built from the same face values; induction over coupled steps. |
| C15 | Charge continuity of the FDTD update | div of the forward curl vanishes; linear algebra over shifts. |
| C16 | Vacuum FDTD conserves the staggered energy exactly | Summation by parts on a finite group: curl^T adjointness; induction. |
| C17 | FDTD is time reversible | Each half update is an explicit shear; give the inverse and prove both compositions are the identity. |
| C18 | Yee/cell-centre interpolation is consistent | Model both conversion functions; averages, constants, sums by reindexing. |
| C19 | Fields are handed out at alternating time levels in a fixed pattern | State machine of the flag and the evolve counter; invariant by induction over steps. |
| C20 | The fields used by the momentum fluxes belong to the documented time levels | Heap model; negation theorems with concrete witness; positive statement about what is actually returned. |
| C21 | Spectral Poisson solver satisfies Gauss's law | DFT on ZMod n1 x ZMod n2 over C; modewise algebra; inverse DFT. |
| C22 | FFT helper round trip | DFT inversion (character orthogonality). |
| C23 | Initial magnetic field from a vector potential is divergence-free | A3_B3: mixed differences commute. A: concrete witness of nonzero divergence. |
| C24 | Ghost exchange and boundary conditions never alter interior cells | Model each boundary routine as a function on ghosted arrays; prove it is the identity on interior indices. |
| C25 | Periodic ghost exchange yields periodic images | Model of globalToLocal on an arbitrary rectangular partition. |
| C26 | Mirror boundary reflects position and reverses normal momentum | Model flip/slice assignment, prove index formula. |
| C27 | Mirror walls are impermeable | Reindex the momentum sum by the reversal; uses C26. |
| C28 | Dirichlet boundary only prescribes inflow | select with the sign of the velocity; theorem per wall. |
| C29 | Shearing-box shift wraps correctly | Model of the while loops as well-founded/fuelled recursion, proved to terminate for positive period; congruence and range. |
| C30 | Boundary dispatch | String dispatch and process position; order of effects as a trace. |
| C31 | Boundary-condition configuration is validated | Decision logic for all strings. |
| C32 | Runge-Kutta steps have the advertised order | Local error O(dt^(p+1)) for every C^5 vector field on every normed space: Taylor expansion with curried symmetric derivatives, truncated B-series of stages and of the exact solution (`Proofs/Jet`, `Taylor`, `BSeries`), coefficients compared exactly; stability polynomial on linear problems over any field of characteristic 0. |
| C33 | Operator splitting composes the operators in the advertised order and is exact for commuting flows | Composition traces; group action of commuting flows. |
| C34 | Operator splitting order of accuracy | Expansion of products of exponentials in the Banach algebra of bounded operators, coefficients through the order compared. |
| C35 | Time bookkeeping | Induction over step sequences of a transition system with failure. |
| C36 | Step dispatch | Model the dispatch of timestep.py; theorem by cases. |
| C37 | Memory layouts p-expanded and q-expanded are mutually inverse and index as documented | Column-major index arithmetic, mixed radix bijection. |
| C38 | Dump then load restores the state | Model dump as flattening of interior slice into the global vector, load as inverse; round trip. |
| C39 | Moments dump layout | Index arithmetic of join along axis 1 and flattening. |
| C40 | Grid coordinates | Closed forms for coordinates; partition consistency; negation for left_center. |
| C41 | Magnetic forces do no work; the Lorentz force is divergence-free in momentum | Ring identities. |
| C42 | Moments are linear, positive and consistent | Finite-sum algebra, Cauchy-Schwarz on finite sums. |
| C43 | BGK collision operator fixed points | Model BGK over R with the coded formula; fixed point iff. |
| C44 | Electronic Boltzmann matrix inverses are correct | Polynomial identities by field_simp/ring, entrywise. |
| C45 | Electronic Boltzmann equilibrium solver | 2x2 Cramer identity; exp monotonicity. |
| C46 | Linear solver evolves modes consistently | Model over C per mode; induction on steps. |
| C47 | Linear solver keeps the magnetic field solenoidal | Linear functional of the slope vanishes, hence of every RK combination. |
| C48 | Background momentum derivative | Ring identity for degree <= 4; telescoping sum. |
| C49 | Physical-system validation | Decision logic for all inputs; witnesses for negations. |
| C50 | Parallel reductions | Folds over lists of ranks. |
| C51 | Semi-Lagrangian advection consistency | `Model/ASL` writes out the cubic interpolation of `af.approx2` cell by cell (positions: any number of species; momenta: one species, see C122 for more); the interpolant at a foot is computed from the stencil, and the exchange supplies the stencil on every process. |
| C52 | Source term solve | RK2 as in C32. |
| C53 | Utility laws | List induction; field identities. |
| C54 | Vacuum FDTD stability | Conserved staggered energy (C16) dominates the field norms under the Courant condition; discrete Young inequality. |
| C55 | Particles conserved in a mirror box | Method of images: each process’ ghosted array is the restriction of the image extension; flux through a mirror face is odd under momentum reversal, so its momentum sum vanishes; telescoping sum; induction over steps. |
| C56 | Mirror walls and decomposition independence | Communication followed by boundary conditions equals the image extension on every process; stencil congruence; induction over steps. |
| C57 | Auxiliary array dumps | As C39: join of arrays, column-major layout, ownership of file entries; call history through the persistent `dof`. |
| C58 | Polar-coordinate transport | Derivative of the product `C f` (HasDerivAt), field identities. |
| C59 | Growth of modes in the linear solver | Squared modulus of the Runge-Kutta polynomial on the imaginary axis as a polynomial in the phase; product over the steps. |
| C60 | Semi-Lagrangian field step | Control flow of `op_fields` on an abstract state, combined with the acceptance conditions of C49. |
| C61 | Files of the linear solver | Mixed-radix position of an entry in column-major and row-major order; comparison with the nonlinear file through C39's layout; witnesses for the permutation. |
| C62 | Sources in the linear solver | Transform and inverse transform cancel (C22); RK step commutes with the linear map to real space. |
| C63 | Linearised Vlasov equation | Evaluation of the slope with the nonrelativistic callbacks, compared with the equation written out in `Spec`/`Props`. |
| C64 | Maxwell's equations in the linear solver | Evaluation of the slope; bilinear identity for the energy; eigenvector of the linear Maxwell system under the tableau. |
| C65 | Integrators of the linear solver | Stage-by-stage comparison with tableaux (`Spec/RungeKutta`); order through C32's B-series; time dependence by the autonomous extension. |
| C66 | Moments and checks of the linear solver | Linearity of the inverse transform; case analysis of the argument checks. |
| C67 | Coupled runs do not depend on the decomposition | Relational model of the coupled step on all processes (`Model/CoupledDecomp`); each phase (communication, FDTD, fluxes in q and p, Ohm's law) preserves "every process holds its part of the global state"; induction over steps. |
| C68 | Walls of the electromagnetic fields | Closed form of each slab write; frame lemma for the other walls; the curl on the wall from the mirror symmetry; induction over the coupled run. |
| C69 | Coupled runs do not depend on origin, number of periods or invariant directions | One theorem for every map of grids that takes neighbours to neighbours (`Spec/Cover`): each function of the step commutes with copying data along the map; induction over steps; translations, projections and symmetries are instances. |
| C70 | Generalised Ohm's law of the hybrid model | Specification by locations on the staggered grid and linear interpolation (`Spec/Hybrid`); the coded stencils are shown to be it; reading off the step; telescoping sums. |
| C71 | Maxwell's equations in runs with self-consistent fields | Reading off the one field update of a step (C19); the currents of the code shown to be the charge-weighted velocity sums of `Spec/Maxwell`; telescoping sums over the periodic domain; uniform states by C69. |
| C72 | Convergence of the first-order scheme | Consistency (Taylor remainder from a Lipschitz gradient, `Proofs/Convergence`) and stability (the two-stage step is a convex combination under the CFL condition), error accumulated by induction over the steps; many processes through C11. |
| C73 | Order of accuracy of the reconstructions | Taylor expansion with remainder at the stencil points; with a nonzero derivative all differences have one sign and comparable size for small spacing, so every limiter reduces to its unlimited value; then cancellation of the lower orders. |
| C74 | Diagnostic terms of the slope | `df_dt_fvm` modelled with its `term_to_return` argument and its effect on the fields (`Model/Diagnostics`); case analysis on the name, telescoping sums, and two successive calls followed through the field update. |
| C75 | Balance of momentum and energy | Summation by parts over the cyclic momentum axes with weights `p` and `p²/2`, exact because the terms at the seam vanish; one slope spreads by one cell, so two clear layers suffice for a two-stage step. |
| C76 | The file a script writes | Whole script as a relation (`Decomp.Script`): coordinates and initial values per process, callbacks evaluated at local coordinates, steps, dump; the pieces C11, C37, C38 composed, after showing that local coordinates are the global ones up to a period. |
| C77 | Resuming a run | `Decomp.ResumeScript` = load, steps, dump; the whole-grid run of a concatenated step list splits at the restart; a clock-driven source shows what is lost when the clock is not restored. |
| C78 | Resuming a run with evolving fields | `FieldState.load` = `load_EM_fields`; invariant of the electrodynamic run relating cell-centred and staggered fields at step boundaries; equality of the handed-out electric field characterises exact restarts; an FFT-electrostatic step overwrites every field it reads; files across partitions from C38 and C67. |
| C79 | Which electric field the forces see | Recurrence of the handed-out field at step boundaries (from the invariant of C78), solved as an explicit sum; lag from the sum of a linear sequence; a run of any length with steadily growing field. |
| C80 | Initial fields computed from the charge density | `initializeFields` for each value of `fields_initialize`; discrete Fourier coefficients of a central difference; `x sin x < x^2`; persistence from C14. |
| C81 | Light waves in the field solver | Plane waves as independent specification (`Spec/Waves`); exact solution iff six amplitude equations; dispersion relation by eliminating amplitudes; sub-luminality by the concavity of sin²√u and Jensen; error bound from x²−x⁴/3 ≤ sin²x ≤ x². |
| C82 | Momentum in electrostatic runs | Parseval pairing of the charge with its spectral field (purely imaginary term by term); force density summed over positions and species (C75 machinery); induction over steps with the layers of empty momentum cells shrinking by two per step. |
| C83 | Maxwell constraints printed at the start of a run | Maximum over the assembled bulks; ghost images correspond to global neighbours (C67 machinery); telescoping sum of the divergence; concrete fields on one and two processes for the negative parts. |
| C84 | Electron transport and reported currents | Flux form of the FVM slope summed over momentum (momentum fluxes telescope), midpoint step; the moment identity is settled by point distributions; sign argument on the polar grid. |
| C85 | Negative values with the high-order reconstructions | Bounds of face values by multiples of the cell value (0..2 for minmod, 1/6..3 for ppm) and of their jumps by the jumps of the data; two-stage estimate; affine equivariance for the maximum principle; explicit 2x4 data for minmod with symbolic Courant numbers. |
| C86 | The first-order scheme never amplifies differences | One Euler stage is a positive linear map on functions over phase space that keeps sums, and keeps constants when the velocity is divergence-free; the two-stage step is the mean of the identity and the stage applied twice; Jensen's inequality; induction on steps. |
| C87 | How the species of a run affect each other | A general theorem on maps of states that commute with every part of the coupled step (StepMap), used with the map that selects and weights species; homogeneity of all reconstructions; totals over fibres of the selection. |
| C88 | How far a run looks: the domain of dependence | Runs on two grids compared on boxes around a cell of each (Around); each part of a slope needs a box of known size, the fields are advanced in exactly one of the two slopes of a step; induction on the steps. That the distance is attained: the right end of a profile moves two cells per step with a nonzero value. |
| C89 | Neither axis is preferred: exchanging q1 and q2 | Every part of the coupled step commutes with renaming the axes (StepMap, FieldMap); the momenta and cells are then enumerated in the order of the exchanged grid (momentaMap, C69). Needs that the three references of the fields solver denote one object (C20), since the callbacks for the two momentum axes read different references. |
| C90 | Neither direction is preferred: reversing the first axis | Each reconstruction, the upwinding, the fluxes and the curls are shown to commute with reversing the axis (`reconFaces_neg`, `leftState_neg`, `fluxDiv_neg`; StepMap, FieldMap); the cells and momenta are then enumerated backwards (momentaMap). For the electrostatic solver the Fourier coefficients of the two fields are compared. For the hybrid model a counterexample. |
| C91 | The results do not depend on the units | Upwinding, slope limiters, fluxes, moments, curls and Ohm's law are shown to be homogeneous of the right degree in each factor (`leftState_scale`, `fluxDiv_scale`, `units_*`), which makes the change of units a StepMap. For the electrostatic solver the Fourier coefficients of the two fields are compared. For the collision operator the two Gaussians it relaxes to are shown to have different temperatures. |
| C92 | Semi-Lagrangian advection never amplifies and converges | The sum of squares after an interpolation at a fraction t of a cell is the sum before less 3/4 u^2 times the squared second differences less u^3/4 times the squared third differences, u = t(1-t) (`sum_sq_cubicSpline`, by autocorrelations). Interpolation errors come from Taylor's theorem at the nearer node, which makes them proportional to the distance moved, so that they add up to a multiple of the elapsed time; the triangle inequality of the root mean square and the absence of amplification carry them through the run. |
| C93 | Hybrid runs with semi-Lagrangian momentum advection | `Model/AslCoupled` has the hybrid branch of `op_fields` and the splitting methods on a heap of array objects, with references restored as the code does. The field operator is total and explicit in a hybrid run (`opFieldsAsl_eq`); operators on the distribution leave the fields alone (`Inert`), also when nested; Ohm's law is compared with `Spec/Hybrid` as in C70. The fields of the force are computed for the two aliasings a run meets: one object (after initialisation), two objects (after a step of swss). |
| C94 | Convergence to Maxwell's equations | `Spec/MaxwellConverge` defines solutions of Maxwell's equations, the staggered places and the distance. The defect of the exact solution in one step is bounded with Taylor's theorem (`central_diff`, `defect_le`). The leapfrog step keeps a quadratic form (`keptEnergy_vac`) which below Courant number one lies between (1 - θ) and (1 + θ) times the energy (`keptEnergy_bounds`), so its root is a norm in which errors add up (`keptEnergy_triangle`); induction on the number of steps. |
| C95 | Boxes with open walls | `Spec/OpenBox` continues a distribution beyond the walls by what comes in through them and defines the undecomposed run, the inflow through the ends and walls that return at most what leaves. On a process the ghost cell next to a wall equals this continuation wherever the face velocity points inwards (`sync_left` … `sync_top`), and the first-order flux reads no other ghost cell (`fluxDiv_pc_congr`); induction on the steps. Bounds from writing a step as the average of the identity and two Euler stages, totals by telescoping. Only first-order reconstruction: with higher orders outflow ghost cells, which no condition sets, are read. |
| C96 | The schedule of the processes does not matter | `Model/Schedule` gives an interleaving semantics: each process executes its script alone, messages between two processes are FIFO queues, an event is the hand-over of one message or the completion of one exchange. Invariant: queue lengths are differences of the exchange counters, queued messages and states are those of the lock-step run (`Spec/Schedule`). A decreasing measure bounds schedules; the process furthest behind can always move. `fvmProtocol` is the finite-volume time loop; its lock-step run is the relational `BcRun` of the other files, so C56 applies. The hang is proved for a concrete run on two processes. Dumps, field exchanges and reductions are not part of the script. |
| C97 | Convergence to the Vlasov equation | `Spec/Vlasov` states the equation for velocities and forces on five-dimensional phase space and what the cells of the grid see of them. The difference of upwind fluxes is the derivative of the flux up to `4 M² h` per axis (mean value theorem); the two-stage step is the average of the identity and two forward-Euler stages, each of which does not increase the sum of absolute values (C86) nor, for divergence-free velocities, the largest one. The forces are given functions: coupling to the field solver is not part of this property. Momentum axes are cyclic as in the code, so the solution is taken periodic in momentum too. |
| C98 | The WENO5 routine | `Spec/Weno` defines parabolas through three values, the roughness measure and weighted averages; the routine is shown to be such an average by algebra, the rest follows from positivity of the weights. The routine cannot be selected through `reconstruct` (C09). |
| C99 | Output times, file names and restarts of the example scripts | `Model/Driver` gives the list of actions (steps, writes, reads) of a script by a big-step relation for the `while` loop and performs such lists on a state and a set of files. Invariant: the next multiple of the interval is at least one step away at the start of every pass. The crash theorem splits the list at the write of the distribution: what follows is what a loop started there does, and writes after it are repeated with the same contents. |
| C100 | The step size chosen by the example scripts | The recipe is modelled in `Model/Driver`; the bounds follow from the maximum principle C10 for the list of steps that C99 describes, the sharpness by computing one step from a single filled cell, the instability from the recurrence of the checkerboard mode. |
| C101 | The polar-coordinate and beam-optics packages | The package's callbacks are modelled on the grid in `Model/Polar`; the partial derivatives of a freely streaming distribution follow from the chain rule for an arbitrary differentiable initial state; the uniform gas by computing the fluxes; the density by the change of variables formula for Lebesgue measure; the refusal of the beam-optics package from C49. |
| C102 | The graphene device | The script is a loop on its variables and files (`Model/Device`) around an arbitrary solver; the state and files after `n` steps are given in closed form and the loop body is shown to lead from `n` to `n + 1`. The contact functions are composed with the boundary conditions of C28; the band by calculus. |
| C103 | Coupled runs do not depend on the pace of the processes | The code of one process is a script (`Model/Coroutine`: a free monad that stops at every exchange); processes with channels interleave. An invariant ties every reachable state to `Together`, the state a process has after as many exchanges as it has done when all keep in step; scripts that follow the same list of exchanges cannot deadlock; a measure bounds schedules. The script of the coupled step is shown to follow a list that depends only on the options and the flag of the first half step, and running in step to be `RunCoupled` of C67. |
| C104 | Collisions and conservation on the momentum grid | Midpoint rule with an explicit error from an integral of a bound of the second derivative (`midpoint_sum`), telescoping along the grid; for a Gaussian times 1, y, y^2 the bounds are integrated in closed form; tails by comparison of g(L + x) with g(x). Sums over the momentum grid factor along the axes. The two-cell grid by x exp(-x) <= exp(-1). |
| C105 | Semi-Lagrangian runs on many processes | The interior of the local arrays stands for the global distribution; that relation is linear, advection keeps it by C51, the source because it is pointwise in position, so each splitting method computes its formula on the global distribution (`split_simulates`); induction over the steps. Totals: every operator keeps the linear functional and the weights of every scheme add up to one. |
| C106 | The shearing box is the sheared continuation of itself | `approx2` of the ghost slab at the wrapped coordinates (C29) is the Catmull-Rom interpolant of the periodic column, because the exchange fills the rows beyond both ends of the slab; the step theorem for boxes then holds with this continuation, and induction over the steps carries the clock. Conservation: the wall fluxes of the first-order scheme are column sums, and Catmull-Rom weights sum to one; at whole-cell slides the two walls match row by row. Accuracy: Taylor remainder of the interpolant (as C52). |
| C107 | What survives machine arithmetic | The finite-volume step is written a second time over an arbitrary structure of operations without any laws, in the order the Python expressions are evaluated; over exact arithmetic it is the model used everywhere else (`C107_same_program`). Bit equality and locality are congruence: the same inputs in the same order give the same outputs. For rounded arithmetic an error calculus (`App u n`: n roundings relative to a magnitude) bounds the last operations, and the exact sum of the differences of the computed fluxes telescopes to zero. The bound `2^-53` of double precision is proved for rounding to 53 binary digits. |
| C108 | The edge of the momentum grid | `Continues` relates a cyclic momentum grid to an unlimited one (cell by cell, with the distance of a cell from the edge). One slope keeps agreement at the cost of `r` layers of the empty margin, hence a step costs `2 r`; induction over the steps. The tails follow from the contraction C86. The one-, two- and three-dimensional grids are instances. The wrap-around is computed explicitly for every number of cells from three on. |
| C109 | Energy exchanged between particles and fields | Energies, power and heating are separate definitions (`Spec/Energy`) on `VlasovMaxwellRun`, a run of the coupled step of C71. Kinetic energy: summation by parts over the momentum axes (C104's margin conditions) turns the flux differences into force times velocity plus the upwind dissipation. Fields: a discrete Poynting identity for the staggered curls. Uniform states remain uniform (C77), where the interpolations are the identity. |
| C110 | Oscillations of a uniform plasma | The recurrence follows from the first moments of the slope and C109's uniform step. Its characteristic polynomial is the cubic λ³-(5/2-3w/4)λ²+(2-w/4)λ-1/2; the intermediate value theorem gives a real root below 1/2, so the product of the other two exceeds one, and a quadratic form in the remaining two-dimensional recurrence grows geometrically. The initial field (handed-out field equal to that of the grid) is shown not to lie on the decaying root. |
| C111 | The field solver in the arithmetic of the machine | `Model/MachineFields` repeats the field solver with uninterpreted machine operations in the order of the Python text; `C111_same_program` shows that exact arithmetic gives back the model of the other theorems. Decomposition: ghost cells hold copies (C67's lemmas), and the updates are functions of the same numbers. Rounding: the interval calculus of C107 (`App`) bounds each update by (1+u)^n - 1 times the sum of the sizes of its terms; the exact parts cancel in the divergences. |
| C112 | Particles and fields together in the arithmetic of the machine | `Model/MachineCoupled` repeats the coupled step (currents from the left-biased fluxes, field update once per step, staggering, the two slopes) with uninterpreted machine operations and uninterpreted sums; `C112_same_program` shows that exact arithmetic gives back the model of C67. The processes' relation and the invariant (`Holds`, `FieldsHold`) are those of C67; the induction is over the steps. The speed of damage follows from the stencils: reconstruction r cells per slope, one cell more in the slope that updates the fields, and the flag makes that one slope per step. |
| C113 | The array programs compute the cell formulas | `Model/ArrayProgram` interprets the Python expressions over `af.Array` values with their shapes (`AfArray`: dimensions and a column-major buffer): elementwise operators that raise unless the shapes are equal, batched ones inside `af.broadcast`, `af.shift` along array axes, `af.tile`, `af.sum`, `moddims`. `Spec/ArrayProgram` says what it means that an array of one of the five shapes holds a function of (species, momentum cell, position cell). Each operator preserves that relation; the slope, moments, currents and forces follow by composition; steps and runs by C25 (blocks refine the exchange), C107 (bitwise independence of the process grid) and C38 (file contents). |
| C114 | Shapes combine axis by axis; per-species values | `Model/SpeciesParams` adds to the array programs of C113 the conversion of the lists in the shared `params` module, with the state an exception leaves behind, and the linear solver's momentum derivative. `multiply`/`add` are folds of a batched operator: induction over the list of arguments with the invariant that lengths are running maxima and elements running products. The sequence of constructions: induction over the list with the two possible states (lists, arrays). The linear derivative is computed by the layout relation of C113 in the two succeeding cases and shown to raise in the others, which derives the spacing rule assumed by the model of the linear solver (C28). |
| C115 | The field solver's array program | `Model/FieldArrays` adds to the array programs of C113 row slices `a[i]`, row assignments `a[i] = …`, the field solver object with its three possibly shared arrays, the current reduction and the coupled slope and step on all processes. A layout relation for blocks of rows carries each assignment to the component it replaces and leaves the others alone; each program is then read off as the cell program of C111/C112. The exchange is that of C25, the end result follows from C112 and the file layout from C38. Example: double precision, two species of opposite charge, two processes, any initial fields. |
| C116 | The collision operator's array program | `Model/CollisionArrays` models `f0` and `BGK` twice: cell by cell with the operations of a `Machine` and with the library functions as parameters, and as operations on arrays, batched or not as in the source. A layout for arrays with one entry per species and position cell, seen from all cells, carries each batched operation to the cells. Locality is by inspection of the moments used; together with `C115_dumped_coupled_run` it gives the run theorem, in which every callback is the bundled one. `C116_exact` identifies the formula in exact reals with that of C43. Example: double precision, two species, two processes, any relaxation times. |
| C117 | The boundary routines' array program | `Model/BoundaryArrays` models slices, flips, joins and slice assignments of arrays and the routines of `boundaries.py` as they are written. Each routine is shown to hold the cell-by-cell result of `Model/Boundaries`; `SameOutcome` states agreement including exceptions. With the block communication of C25 for every boundary type and the slope of C113 this gives steps and runs. `C117_exact` identifies them in exact arithmetic with the runs of C55, C56 and C95. Example: double precision, two processes, a mirror and a mirror with inflow. |
| C118 | Files of runs with walls, bit for bit | The undivided box is `Mach.extStep` on the plane, with the continuation by images (`boxExt`) or by inflow (`openExt`) of C56 and C95. The cell runs of C117 in machine arithmetic are shown to hold it in the bulk; with the dump layout of C38 this gives the file. Nothing about rounding is assumed except exact comparisons, `1 · u = u` and, for open walls, `0 · u = 0`: there a stale ghost value is multiplied by zero. Example: double precision, two processes against one, mirrors and inflow. |
| C119 | The field boundary routines' array program | `Model/FieldBoundaryArrays` models the routines of `fields/boundaries.py` as slices, flips, joins and slice assignments of arrays of shape `(6, 1, M1, M2)`. Each is shown to hold the cell-by-cell result of `Model/Boundaries`; `SameFields` states agreement including exceptions. With the block communication of C25 and the row operations of C115 this gives the step on all processes. Example: double precision, two processes, a mirror on the left, prescribed fields on the right. |
| C120 | Coupled runs with walls as array programs | `Model/CoupledWallArrays` puts the array programs of C113, C115, C117 and C119 together into the step of `timestep_fvm`. The step is shown to be a step of `Mach.StepWalls`, the cell model with any arithmetic; progress follows from the block communication of C25 and from the boundary routines not raising; with exact operations `Mach.RunWalls` is the relation `RunCoupled` of C67. Example: double precision, two species, two processes, Lorentz force, minmod, a mirror on the left, inflow and prescribed fields on the right. |
| C121 | The shearing-box routine's array program | `Model/ShearArrays` models `apply_shearing_box_bcs_f` on arrays: the slices of the cell centres, the two loops that wrap the sheared coordinate, `af.approx2` with the positions scaled by the first two cell centres, the reorderings and the assignment of the slab. Each is shown to hold the cell-by-cell result of `Model/ShearBox`; with the array program of C117 and the theorems of C106 this gives the ghost cells and the runs. Example: two processes, two species, six momentum cells, any step sizes and initial values; a run exists. |
| C122 | The array program of the semi-Lagrangian routines | `Model/AslArrays` models `f_interp_2d` and `f_interp_p_3d` as broadcasts, `af.reorder`, `af.approx2` (kernel a parameter) and reshapes. Each step is shown to hold a function of the cell; in momentum space the starts and cell sizes have shape `(1, N_species)` and meet p-expanded arrays, whose axis 1 is the second momentum coordinate: for one species they broadcast, otherwise the shapes decide (error, or the species taken from the index). Example: one and two species, two processes, a witness where a force-free step changes the distribution. |
| C123 | The array program of a semi-Lagrangian run | `Model/AslRunArrays` writes `op_solve_src`, the four splitting methods and a run of them on the arrays of all processes; the advection is that of C122, the source function a parameter, given as an array program. A simulation relation (arrays of the solver's shape whose owned cells are parts of a whole-grid distribution) is preserved by each operator and by the array sums of the splitting methods; induction over the steps gives the whole-grid run of C105. Example: two processes, two species, collisions, two schemes. |
| C124 | The linear solver's runs converge: order of the scheme (electrostatic), first order only (electrodynamic) | `Spec/LinConverge` states the Vlasov–Poisson and Vlasov–Maxwell initial-value problems mode by mode. By C65 a step is the scheme's Butcher tableau on these equations, with the force frozen in the electrodynamic case. A step is a polynomial in a bounded operator; it is compared with the operator exponential (tail of the series), and the local errors are added up by telescoping. The electrostatic field is the only one that satisfies Gauss's law without curl and mean. The lower bound follows from a quadratic form in current and field of the mean mode that every step multiplies exactly by `1 + (w h)²/2`. Example: five momentum cells with plasma frequency one. |

## What is modelled and what is not, file by file

| file in `/repo/bolt` | model | not modelled |
|---|---|---|
| `lib/nonlinear/finite_volume/reconstruction/*`, `reconstruct.py`, `riemann.py` | `Model/Recon`, `Model/FVM` (whole files) | `weno5` is modelled but cannot be selected |
| `lib/nonlinear/finite_volume/df_dt_fvm.py`, `fvm_operator.py` | `Model/FVM`, `Model/Coupled`, `Model/Diagnostics` | timers |
| `lib/nonlinear/fields/fields.py`, `fdtd_explicit.py` | `Model/Fields`, with machine arithmetic `Model/MachineFields` and (coupled) `Model/MachineCoupled`, initial fields from the charge density in `Model/FieldInit`, on many processes `Model/CoupledDecomp`, the printed constraint check in `Model/Report` | object plumbing |
| `lib/nonlinear/fields/electrostatic/fft.py` | `Model/FFT`, in coupled runs `Model/Electrostatic` | the choice of backend |
| `lib/nonlinear/boundaries.py`, `fields/boundaries.py` | `Model/Boundaries`, `Model/Shear` | `Model/ShearBox` adds the bicubic interpolation inside the shearing-box condition; properties that do not concern it hold for an arbitrary function in its place |
| `lib/nonlinear/communicate.py`, `utils/af_petsc_conversion.py` | `Model/Decomp`, `Model/Layout`, `Model/Schedule` | PETSc itself |
| `lib/nonlinear/compute_moments.py` | `Model/Moments` | |
| `lib/nonlinear/nonlinear_solver.py` | constructor checks and sizes in `Model/Boundaries`, `Model/Layout`; layouts in `Model/Layout`; initial values and the run of a whole script in `Model/Pipeline`; the resumed script with fields in `Model/Resume` | device selection, printing |
| `lib/nonlinear/file_io/*` | `Model/Layout` | PETSc's binary format beyond the order of entries |
| `lib/nonlinear/semi_lagrangian/*` | `Model/ASL`, hybrid branch of `op_fields` in `Model/AslCoupled` | |
| `lib/nonlinear/temporal_evolution/*`, `timestep.py` | `Model/Temporal`; the splitting methods on array objects in `Model/AslCoupled` | timers |
| `lib/linear/*` | `Model/Linear`, `Model/LinearIO` | PETSc's binary format beyond the order of entries |
| `lib/physical_system.py` | `Model/System` | printing |
| `lib/utils/calculate_{k,p,q}.py`, `fft_funcs.py` | `Model/FFT`, `Model/Layout` | |
| `lib/utils/parallel_reduction_ops.py` | `Model/Reduce` | |
| `lib/utils/print_with_indent.py` | `Model/Utils` | |
| `lib/utils/bandwidth_test.py`, `performance_timings.py` | | whole files (measurements and printing) |
| `src/nonrelativistic_boltzmann/*`, `src/utils` | `Model/Nonrel`, `Model/Moments`, `Model/Utils` | |
| `src/electronic_boltzmann/*` | `Model/Electronic` | printed residuals |
| `src/beam_optics/*`, `src/coordinate_transformation/*` | force, advection and source terms in `Model/Nonrel`, on the grid in `Model/Polar` | legacy collision operator |
| `example_problems` | time loops of the scripts in `Model/Driver`, the graphene device in `Model/Device` | initial data and parameters of the other examples, plotting |

## Disagreements between the code and its documentation or evident intention

Each was found by reading the code while modelling it.  Where a theorem is named, it proves the stated behaviour of the model; nothing
in `/repo` was changed.

1. `calculate_q.py:37` returns the bottom-face `q2` with the left-face centres (`C40_left_face_wrong`).
2. `global_max` always raises; `global_mean` is the mean of local means (`C50_max_raises`, `C50_mean_iff`).
3. `jia_step` with fields enabled reads an attribute the solver does not have (`Model/Temporal`, `splitJia`).
4. `physical_system` compares momentum limits as lists, so a wrong second species passes; a resolution of zero raises `ZeroDivisionError`; a misspelt `fields_type` is accepted (`C49_second_species_unchecked`, `C49_zero_resolution`, `C49_fields`).
5. With the boundary condition `none` the bulk slice is `0:1`, so communication works only for one cell (`C25_none_needs_one_cell`).
6. `dump_aux_arrays` fixes the number of entries per cell at the first call and needs ghost cells (`C57_aux_count_fixed`, `C57_aux_needs_ghosts`).
7. `op_fields` compares `fields_solver` with `'electrostatic'`, so the Poisson solver is never called; the electrodynamic branch reads an undefined `f` (`C60_*`).
8. The linear solver imports `calculate_q_center`, which no longer exists; the model is of the code with the import repaired.
9. `fields_solver` is validated case-insensitively but compared in lower case elsewhere.
10. An unknown `solver_method_in_q` leaves the state unchanged while the clock advances (`C36_unknown_method`).
11. `_initialize` binds both time levels of the cell-centred fields to one object, so the levels coincide for ever (`C20_init_aliases`, `C20_time_levels_coincide`, `C20_documented_level_false`).
12. `get_fields` toggles its flag three times per slope (`C20_fluxes_use_alternating_levels`).
13. `initialize_A` uses forward differences, so `compute_divB` is not zero (`C23_vector_potential_not_divergence_free`).
14. The ghost width is never compared with the stencil (`C12_insufficient_ghosts_change_result`).
15. The Riemann-solver option is read and ignored (`C09_riemann_option_ignored`).
16. WENO5 uses one smoothness formula for all three stencils and is not symmetric (`C08_weno5_not_symmetric`).
17. The BGK temperature lacks the factor `1/k` (`C43_wrong_equilibrium_unless_k_is_one`).
18. `C_q` is evaluated at the old time in the second stage of the finite-volume step.
19. The hybrid Ohm's law divides the pressure term by cell-centred densities at faces (`C70_density_of_the_pressure_term`).
20. `mirror` is a ghosted axis for the distribution and a periodic axis for the fields (`petscAxis`, `petscAxisFields`).
21. The consistency check of boundary conditions looks only one way (`C31_accepts_mismatch`).
22. The polar mirror condition fails for an odd number of angles.
23. The shearing-box wrap does not end for an empty extent (`C29_hangs_without_extent`); the field version reads missing attributes (`C30_fields`).
24. The spectral Poisson solver loses the Nyquist component on even grids and raises for one cell in `q2` (`C21_nyquist_component_dropped`, `C21_when_it_runs`).
25. `f_interp_p_3d` never advects along the first momentum axis (`C51_first_momentum_axis_never_advected`).
26. A semi-Lagrangian foot outside the local array gives zero (`C51_foot_outside_gives_zero`); the spline overshoots (`C51_overshoots`).
27. `electronic_boltzmann/collision_operator.py` lines 648 and 654 lack colons; the model is of the file with them.
28. The drifting equilibrium is singular when all transverse momenta coincide (`C45_singular_when_one_dimensional`); zero Newton iterations raise.
29. The linear coupled step evaluates the slope of `f` with the fields of the beginning of the step (`C47_fields_frozen_during_step`).
30. The linear hybrid model has no Hall term and its pressure term lacks the factor `i` (`C47_hybrid_has_no_hall_term`, `C47_hybrid_pressure_lost`).
31. A linear multi-species run with fields raises unless the number of species happens to equal `N_p2` (`C46_multispecies_fields_raise`).
32. Linear RK2 amplifies every moving mode (`C59_rk2_always_grows`).
33. `sound_speed` and `sound_crossing_time` take no mass (`C53_sound_speed_ignores_mass`).
34. `dump`/`load` document `.h5` but write `.bin`; `load_EM_fields` documents cell-centred fields but loads the staggered ones (`C38_cell_centred_fields`).
35. `check_maxwells_contraint_equations` prints a signed maximum under the label `MAX(|divE-rho|)`, leaves out the permittivity, and takes the background charge from each process's array with its ghost zones (`C83_depends_on_processes`, `C83_misses_violation`, `C83_permittivity_ignored`).
36. The linear solver's dump and load form a round trip only if at most one extent exceeds one (`C61_round_trip_iff`, `C61_load_transposes`).
37. `electronic_boltzmann` and `beam_optics` callbacks take other arguments than the solvers pass; beam-optics collisions divide by a zero density.
38. In the linear solver the mean magnetic force is counted twice in the mean mode (`C63_mean_magnetic_force_counted_twice`).
39. The linear solver's test for periodic walls joins its four conditions with `and`, so one periodic wall is enough (`C66_refuses_iff`, `C66_accepts_mirrors`).
40. The comments of `apply_mirror_bcs_fields` say that `B3` does not change on a mirror; it changes wherever the normal electric field varies along the wall (`C68_documented_B3_false`, `C68_mirror_wall_B`).
41. Because the fields treat a mirror axis as periodic, the components a mirror does not reflect come from the opposite mirror (`C68_walls_identified`).
42. Fields initialised from a vector potential on several processes agree with the undivided grid only with two ghost cells in each differenced direction (`C67_initial_fields_agree`).
43. Asking `df_dt_fvm` for a single momentum term looks like a query, but in an electrodynamic run every second call advances the fields by a whole step, so two calls in a row (as in the example script `determine_required_velocity_space_resolution.py`) move the fields without a time step having been taken (`C74_two_calls_advance_the_fields`); before the first step one of them fails (`C74_needs_a_step_size`).
44. A magnetic field does work in the first-order scheme: it heats every plasma it accelerates (`C75_magnetic_heating`).
45. The dump does not contain `time_elapsed`, and a new solver starts at 0; a resumed run with time-dependent velocities, forces or sources solves a different problem unless the script sets the clock (`C77_clock_not_saved`).
46. `dump_EM_fields` writes only the staggered fields. In an electrodynamic run the electric field handed to the forces is the average of the previous handed-out field and the new centred field; after `load_EM_fields` it is the dumped field itself, so a restarted run is in general not the uninterrupted one (`C78_exact_iff`, `C78_restart_changes_the_run`: a spatially uniform plasma, distribution value 33/64 against 36/64 after two steps). The fields' clock also starts again at 0.
47. Because the time levels share one array, the electric field handed to the forces is an exponentially weighted average over all past steps and lags the grid by one step (`C79_electric_history`, `C79_lag`).
48. Initialisation with `'fft'` interpolates the spectral field to the staggered grid, where it violates the discrete Gauss's law unless the charge is uniform; the violation is then conserved for ever (`C80_gauss_iff_uniform`, `C80_gauss_violated_for_ever`).
49. `electronic_boltzmann` `j_x` and `j_y` weight with the momentum coordinates `p1`, `p2`, not with the band velocity that transports the electrons; on a polar grid `p1` is the magnitude of the momentum, so an isotropic distribution has a nonzero `j_x` (`C84_current_iff`, `C84_polar_reports_current`).
50. With the default `minmod` the unsplit two-stage step does not keep the distribution nonnegative in two or more phase-space dimensions, however small the time step (`C85_minmod_negative`); with `ppm` it does for small steps (`C85_ppm_positive`).
51. In the hybrid model the result depends on the direction in which the axis is counted: the electron pressure gradient at a left face is divided by the density of the cell to its right, so the field of the mirror image is not the mirror image of the field (`C90_hybrid_not_symmetric`; a consequence of 19).
52. The floor `eps = 1e-30` of the BGK operator is an absolute number compared with densities and temperatures, so the collision term is not independent of the units: multiplying a distribution at rest by a factor other than 1 changes the temperature of the Maxwellian it relaxes to (`C91_collisions_not_scale_free`).
53. `swss` restores the cell-centred fields by reference after the first pass, but the fields solver has changed that array in place: the second pass starts from the fields of the first (C93_force_swss_first, C93_force_swss_later, C93_swss_not_restored), and the mean taken at the end is, for the cell-centred fields, the mean of one array with itself.
54. With `swss` the field operator runs twice per step and each run advances the clock of the fields solver, which is not restored: boundary conditions of the fields see twice the elapsed time (C93_field_clock).
55. `check_divergence` is said to terminate the program if a blow-up occurs in any segment of the solver. It looks at the arrays of its own process only and raises `SystemExit` there; the other processes go on to the next exchange and wait for ever (`C96_divergence_stops_only_one_process`; an MPI launcher may or may not kill them).
56. The scripts write moments and fields only after a shortened step. In exact arithmetic, with an interval that is a whole number of time steps, the clock reaches every multiple by a full step and nothing is ever written, while the distribution is; a restart then fails because the file with the fields is missing (`C99_no_interval`, `C99_no_restart`). In floating point the outcome depends on rounding.
57. The scripts that loop `while(abs(time_elapsed - t_final) > 1e-12)` run for ever if the final time is neither a multiple of the interval nor a multiple plus a whole number of steps (`C99_near_loop_runs_on`).
58. File names keep three decimals of the time: with intervals below 0.0005 the outputs overwrite the initial one (`C99_file_names_collide`). If the interval for the distribution is not a multiple of that for moments, its multiples can be passed without a write (`C99_distribution_missed`). `dt_dump_fields` is checked but never used: fields are written with the moments.
59. Examples use `N_cfl` up to 0.95 (0.64, 0.8, 0.9, 0.95 occur) with the recipe of C100. For problems that vary in both directions anything above `1/2` times the ratio of the largest momentum to the largest cell centre breaks positivity (`C100_recipe_too_large`). The recipe reads `p_end` only, so a range that extends further below 0 is not covered, and it ignores the forces, whose advection in momentum space has its own limit.
60. `coordinate_transformation/convergence_test` runs with `source_enabled = False` and compares with freely moving particles. Without the source that reference is not a solution (`C101_source_needed`); the solution without the source is `(r/r₀)²` times it (`C101_without_source`), so the error does not tend to 0 under refinement. `coordinate_transformation/test` enables the source.
61. `density` and `energy` of the polar package lack the Jacobian `r` and the factor `r²` of the angular part (`C101_density_moment`, `C101_energy_moment`).
62. The beam-optics package cannot be used: `moment_defs` holds dictionaries, `C_q` and `C_p` are missing, both are refused by `physical_system` (`C101_beam_rejected`); its `A_q` divides by the refractive index, which is 0 everywhere (`C101_beam_index`); and its example imports `nonlinear_solver` from a module that does not exist.
63. The graphene script sets the clock and the file number to zero whether or not it loads a restart file, so that a restarted run overwrites the numbered files of the first and drives its contacts from phase zero (`C102_restart_forgets_time`).
64. The contact functions overwrite the time they are given by `params.current_time`, which the script sets between steps, so both stages of a step use the drive of its beginning (`C102_drive_frozen`).
65. The Maxwellian of the collision operator has the moments of the gas as a function on momentum space, not on the momentum grid; on a grid of two cells instantaneous collisions lose more than two percent of the particles per step (`C104_not_exact`).
66. The shearing box is not decomposition independent along the walls. `apply_shearing_box_bcs_f` wraps the sheared coordinates into the whole domain but interpolates in the process's own slab (`boundaries.py:43-51`), and `af.approx2` yields zero outside it: once the slide carries an image out of the rows of a process and their ghost rows, its ghost cells are zero (`C106_divided_walls`, `C106_divided_walls_lose`). Only process grids that do not divide the walls give the sheared box. Also, both Runge-Kutta stages use the slide of the beginning of the step, since `time_elapsed` is advanced after the operators (`timestep.py:92,153,214`), and with a limiter the number of particles is not kept at fractional slides (`C106_limited_not_conserved`).
67. **Momentum space is cyclic.** The momentum fluxes are formed with `af.shift` on arrays without ghost zones in momentum (`df_dt_fvm.py:269-321`), so what is accelerated beyond the last momentum cell enters the first one: `C108_wraps_around`. A run whose distribution reaches the edge conserves the number of particles but reverses their momentum. C108 gives the margin that rules this out.
68. **Particles and fields do not exchange the same energy.** The force uses the electric field handed out by `get_fields`, averaged over two calls (see 47 and C79) and to the cell centres, whereas the field solver loses energy to the staggered current at the staggered fields (`fields.py`, `fdtd_explicit.py:8-130`). Together with the numerical heating of the first-order momentum scheme the total energy drifts: `C109_balance`, `C109_uniform`, `C109_first_step`; the example of C110 rises from 1 to 47/32 in one step.
69. **Plasma oscillations are unstable at every step size.** Because the handed-out electric field lags behind the field of the grid (each call averages with the previous, already averaged values: C79), the oscillation of a uniform plasma grows geometrically however small the step: `C110_growth`, `C110_growth_from_start`. The equations solved conserve the amplitude (`C110_exact_oscillation`).
70. **Momentum velocities must have the full shape.** Velocities in position may be given on the momentum cells alone (`riemann.py` tiles them), velocities in momentum may not: re-shaping them for momentum space raises as soon as a process holds more than one cell, so a constant or purely momentum-dependent force written as a formula of `p1` fails (as `0.*p1` in the electronic package would): `C113_momentum_velocity_needs_full_shape`.
71. **Masses in a list, charges in an array.** The physical system accepts the mixture. With more than one species the first solver then raises in its conversion loop, after it has replaced both entries of the user's `params` module by arrays of zeros (and the first mass); building the solver again succeeds and uses zero charges: `C114_mixed_input_destroyed`. Charges in a list with masses in an array are never converted: `C114_charge_list_kept`.
72. A relaxation time that does not depend on all coordinates must still be an array of the full shape or a number: outside `af.broadcast` the division in `BGK` does not repeat axes (`C116_tau_shapes`). `example_problems/nonrelativistic_boltzmann/dispersion_relations/params.py` builds its array for an older layout and is rejected.
73. On a line of cells (`N_q2 = 1`, condition `none`) a Dirichlet wall raises `IndexError`: `apply_dirichlet_bcs_f` reads `self.f.shape[3]`, which does not exist when the last axis has length one, whenever a velocity is given on the momentum cells only, as all bundled advection terms do (`C117_line_of_cells`). Inflow values that depend on the momenta only are rejected too, on any grid (`C117_wall_values_need_full_shape`).
74. A boundary function of the fields that returns a number (`def E1_left(E1, t, q1, q2, params): return 0`) raises `TypeError`, because its result is sliced; boundary functions of the distribution function may return numbers (`C119_numbers_rejected`, `C117_boundaries`).
75. A shearing box with a single ghost cell raises: `af.approx2` scales the positions by the distance of the first two cell centres of the slab along each axis, and the slab has one cell across the wall (`C121_one_ghost_cell`). No other boundary condition needs two ghost cells, and nothing checks the number when the solver is built.
76. `f_interp_p_3d` works for one species only. `self.p2_start`, `self.p3_start`, `self.dp2` and `self.dp3` have shape `(1, N_species)` and are combined with p-expanded arrays, whose axis 1 is the second momentum coordinate. With several species it raises (`C122_interp_p_raises`) unless `N_p2 = N_species`; then it takes the lower end and the cell size of the species whose number is the index along `p2` (`C122_interp_p_mixed`), and a step without force changes the distribution when the cell sizes differ (`C122_mixed_moves_without_force`).
77. `f_interp_2d` raises when an axis of the local array has a single cell (`C122_interp_q_one_cell`): `af.approx2` needs the distance of two cell centres. A one-dimensional run therefore needs ghost cells along the other axis: with boundary condition `none` there are none.
78. `bolt/lib/linear/timestep.py` and `integrators.py` say that `RK2_step`, `RK4_step` and `RK5_step` are of order 2, 4 and 5. With electrodynamic fields every one of them is of first order (`C124_electrodynamic_first_order`, `C124_electrodynamic_not_second_order`), because `df_hat_dt` does not read the field amplitudes of the stage (disagreement 29): a uniform plasma oscillation gains energy by the factor `1 + (w dt)²/2` per step, whatever the scheme (`C124_oscillation_grows`).
