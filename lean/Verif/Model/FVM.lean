import Verif.Model.Recon

/-!
# Finite-volume slope and step (`bolt/lib/nonlinear/finite_volume/*.py`)

The distribution function is `f s p q`: species `s`, momentum cell `p`, position cell `q`
(the two memory layouts of the code are related to this indexing in `Verif/Model/Layout.lean`).
-/

namespace Bolt

/-- `riemann_solver(self, left_state, right_state, velocity)` — `riemann.py:8-58`
(tiling of the velocity to the array shape and timers omitted). -/
def riemann {I K : Type} [Zero K] [LinearOrder K] (left right velocity : I → K) : I → K :=
  fun i => afSelect (velocity i > 0) (left i) (right i)

variable {I K : Type} [AddCommGroup I] [Field K] [LinearOrder K]

/-- The upwinded state at the left interface of each cell along one axis — `df_dt_fvm.py:58-64,79-80`
(q axes) and `275-286,298-300` (p axes): the state just left of the interface of cell `i` is the right face
value of cell `i-1`. -/
def leftState (m : Recon) (e : I) (C x : I → K) : I → K :=
  let leftPlus := (reconFaces m e x).1
  let rightMinus := (reconFaces m e x).2
  let leftMinus := afShift e 1 rightMinus
  riemann leftMinus leftPlus C

/-- Flux through the left interface — `df_dt_fvm.py:82-83,302-304`. -/
def leftFlux (m : Recon) (e : I) (C x : I → K) : I → K :=
  fun i => C i * leftState m e C x i

/-- `(right_flux - left_flux) / d` — `df_dt_fvm.py:85-89` and `306-321`. -/
def fluxDiv (m : Recon) (e : I) (d : K) (C x : I → K) : I → K :=
  let left := leftFlux m e C x
  let right := afShift e (-1) left
  fun i => (right i - left i) / d

/-- The distribution function / any array over species, momentum and position. -/
abbrev Dist (S P Q K : Type) := S → P → Q → K

variable {S P Q : Type} [AddCommGroup P] [AddCommGroup Q]

/-- Unit steps along the three momentum axes and the two position axes. -/
structure Axes (P Q : Type) where
  (p1 p2 p3 : P)
  (q1 q2 : Q)

/-- The solver attributes read by `df_dt_fvm`. -/
structure FVMConfig (S K : Type) where
  solverMethodInQ : String
  solverMethodInP : String
  reconstructionInQ : String
  reconstructionInP : String
  /-- read at `df_dt_fvm.py:50-51` and never used -/
  riemannInQ : String
  /-- read at `df_dt_fvm.py:50-51` and never used -/
  riemannInP : String
  sourceEnabled : Bool
  fieldsEnabled : Bool
  dq1 : K
  dq2 : K
  dp1 : S → K
  dp2 : S → K
  dp3 : S → K

/-- q-space part of the slope — `df_dt_fvm.py:58-89`. -/
def dfdtQ (ax : Axes P Q) (m : Recon) (dq1 dq2 : K) (C1 C2 f : Dist S P Q K) : Dist S P Q K :=
  fun s p q => - fluxDiv m ax.q1 dq1 (C1 s p) (f s p) q - fluxDiv m ax.q2 dq2 (C2 s p) (f s p) q

/-- `d_flux_p1_dp1` etc. — `df_dt_fvm.py:269-321`: the flux divergence along the momentum axis `e`
(cyclic, there are no ghost zones in momentum space).  The Python multiplies by `1 / dp`. -/
def dFluxP (m : Recon) (e : P) (dp : S → K) (C f : Dist S P Q K) : Dist S P Q K :=
  fun s p q =>
    let left := leftFlux m e (fun p => C s p q) (fun p => f s p q)
    let right := afShift e (-1) left
    (right p - left p) * (1 / dp s)

/-- p-space part of the slope — `df_dt_fvm.py:319-323`. -/
def dfdtP (ax : Axes P Q) (m : Recon) (dp1 dp2 dp3 : S → K) (C1 C2 C3 f : Dist S P Q K) : Dist S P Q K :=
  fun s p q => -(dFluxP m ax.p1 dp1 C1 f s p q + dFluxP m ax.p2 dp2 C2 f s p q + dFluxP m ax.p3 dp3 C3 f s p q)

/-- Everything `df_dt_fvm` obtains from callbacks: interface velocities in q (evaluated at `left_center`,
`center_bot`), in p (at the momentum faces), and the source term. -/
structure Callbacks (S P Q K : Type) where
  (Cq1 Cq2 : Dist S P Q K)
  (Cp1 Cp2 Cp3 : Dist S P Q K)
  source : Dist S P Q K → Dist S P Q K

/-- `df_dt_fvm(f, self)` with `term_to_return = 'all'` — `df_dt_fvm.py:33-339`, with the values returned by the
callbacks (for `C_p`: with the fields they read) passed in `cb`.  The field updates of lines 102-242 do not touch `f`;
they are modelled in `Verif/Model/Coupled.lean`. -/
def dfdtFVM (ax : Axes P Q) (cfg : FVMConfig S K) (cb : Callbacks S P Q K) (f : Dist S P Q K) :
    Except PyErr (Dist S P Q K) := do
  -- df_dt = 0; df_dt += ... (lines 54-97)
  let dfq : Dist S P Q K ←
    if cfg.solverMethodInQ = "FVM" then do
      let m ← reconMethod cfg.reconstructionInQ
      let dq := dfdtQ ax m cfg.dq1 cfg.dq2 cb.Cq1 cb.Cq2 f
      if cfg.sourceEnabled = true then
        pure fun s p q => dq s p q + cb.source f s p q
      else pure dq
    else pure fun _ _ _ => 0
  -- lines 99-323
  if cfg.solverMethodInP = "FVM" ∧ cfg.fieldsEnabled = true then do
    let m ← reconMethod cfg.reconstructionInP
    let dp := dfdtP ax m cfg.dp1 cfg.dp2 cfg.dp3 cb.Cp1 cb.Cp2 cb.Cp3 f
    return fun s p q => dfq s p q + dp s p q
  else return dfq

/-- `timestep_fvm(self, dt)` — `fvm_operator.py:6-35`.  `sync` is `_communicate_f(); _apply_bcs_f()`;
`slope k` is `df_dt_fvm` in stage `k` (the callbacks may return different values in the two stages, e.g. because the
fields have changed). -/
def timestepFVM (sync : Dist S P Q K → Except PyErr (Dist S P Q K))
    (slope : Fin 2 → Dist S P Q K → Except PyErr (Dist S P Q K)) (dt : K) (f : Dist S P Q K) :
    Except PyErr (Dist S P Q K) := do
  let f0 ← sync f
  let k0 ← slope 0 f0
  let fh ← sync (fun s p q => f0 s p q + k0 s p q * (dt / 2))
  let k1 ← slope 1 fh
  return fun s p q => f0 s p q + k1 s p q * dt

/-- Successive finite-volume steps on the whole periodic grid held as one array without ghost zones
(`op_fvm`, `fvm_operator.py:37-50`, called once per time step at `timestep.py:64,125,186,250`).  On such an array ghost exchange
and boundary conditions have nothing to do; the decomposed, ghosted program is related to this one in
`Verif/Props/Decomp.lean`.  Each step has its own size and its own callback values for the two stages, so
time-dependent velocities, fields and sources are covered. -/
def runFVM (ax : Axes P Q) (cfg : FVMConfig S K) :
    List (K × (Fin 2 → Callbacks S P Q K)) → Dist S P Q K → Except PyErr (Dist S P Q K)
  | [], f => .ok f
  | (dt, cb) :: rest, f => do
    let f' ← timestepFVM (fun f => .ok f) (fun k => dfdtFVM ax cfg (cb k)) dt f
    runFVM ax cfg rest f'

end Bolt
