{
 "C78": {
  "note": "The English claim is what the code does; exact restart of an electrodynamic run is refuted by C78_restart_changes_the_run and characterised by C78_exact_iff."
 },
 "C107": {
  "note": "Machine operations are an arbitrary structure for bit equality and locality; velocities, forces and sources are given as the same machine numbers on every process. The order of operations follows the Python source; ArrayFire's just-in-time compiler is assumed not to contract or reorder them. Reductions over processes are not part of the step."
 },
 "C108": {
  "note": "Collisionless runs (sources off); velocities and forces are given functions of the cell, the same on both grids. The unlimited grid is not a grid of the program but the reference the property compares with."
 },
 "C109": {
  "note": "The bundled nonrelativistic physics, whose momentum variable is the velocity; periodic boundaries, sources off, first order in momentum space. The field energy is the one the leapfrog scheme conserves, with the product of the magnetic fields before and after; for a uniform state it is the usual one."
 },
 "C110": {
  "note": "Same runs as C109, uniform in space, initial magnetic field zero, fixed step size. The constant in front of the growth depends on the step size alone."
 },
 "C111": {
  "note": "Modelled with uninterpreted machine operations; kinetic electrons (not the hybrid model). The rounding theorems assume a relative error bound for every operation: overflow and underflow are covered by the first part only. u <= 1/8 serves to simplify (1+u)^5-1 to 7u."
 },
 "C112": {
  "note": "Kinetic electrons with the explicit field solver; the electrostatic FFT branch and the hybrid model are not in the machine-arithmetic model. af.sum is any function of the column it is given: that its result does not depend on the place of the column in the array is an assumption."
 },
 "C113": {
  "note": "Reconstructions modelled on arrays: piecewise-constant, minmod, PPM; the sum `af.sum` is any function of the column. The code refuses WENO5 (SystemExit), and so does the model. The semantics of ArrayFire used: an operator on two arrays raises unless the shapes agree or, inside af.broadcast, each dimension agrees or is 1. The field solver's array program is C115."
 },
 "C114": {
  "note": "ArrayFire semantics assumed: assigning a row of more than one element to one element raises; len of an array is its number of elements; indexing a (1, n) array with one index gives a row."
 },
 "C115": {
  "note": "Periodic axes (or one cell without ghost zones); the hybrid branch and the electrostatic solver are not part of the array program; ArrayFire's order of summation is a parameter."
 },
 "C116": {
  "note": "Cartesian momentum grid; elementary functions and order of summation are parameters; periodic axes (or one cell without ghost zones) in the run theorem."
 },
 "C117": {
  "note": "The interpolation of the shearing box is any function here (its own model is in ShearBox). Comparisons must be exact, as those of floating-point numbers are."
 },
 "C118": {
  "note": "Multiplying a stale ghost value by zero gives zero only for finite values: infinities and not-a-number values are outside the arithmetic considered."
 },
 "C119": {
  "note": "Slices with a negative bound are modelled for a positive number of ghost cells; the shearing box of the fields raises, as in Model/Boundaries."
 },
 "C120": {
  "note": "Kinetic electrons only: the hybrid branch is not part of the array program."
 },
 "C121": {
  "note": "Exact arithmetic: the cubic interpolation is not modelled with rounding."
 },
 "C122": {
  "note": "Positive parts in any arithmetic and with any kernel that reads the array only; feet of characteristics in exact arithmetic with the cubic kernel. For several species the momentum routine is proved to raise or to mix the species."
 },
 "C123": {
  "note": "Exact arithmetic and the cubic kernel; periodic domain, no fields. The source function is a parameter; `C123_bgk_run` takes the bundled collision operator."
 },
 "C124": {
  "note": "Nonrelativistic equations, one species, no source and no instantaneous collisions; the hybrid model is left out. The mean magnetic field acts on the mean mode as the code has it (C63)."
 }
}