import Verif.Model.Coupled
import Verif.Model.Temporal
import Verif.Model.ASL

/-!
# The semi-Lagrangian field step of the hybrid model and the splitting methods on references
(`asl_operators.py:85-240`, `operator_splitting_methods.py:10-134`, `timestep.py:40-210`)
-/

namespace Bolt

variable {S P Q K : Type} [AddCommGroup Q] [Field K] [LinearOrder K] [Fintype S] [Fintype P] [Fintype Q]

/-- `0.5 * (self.f + af.shift(self.f, 0, 0, 1))` and `0.5 * (self.f + af.shift(self.f, 0, 0, 0, 1))` — `asl_operators.py:139-152, 190, 197`. -/
def aslLeft (ax : Axes P Q) (f : Dist S P Q K) : Dist S P Q K := fun s p q => 1 / 2 * (f s p q + afShift ax.q1 1 (f s p) q)
@[inherit_doc aslLeft]
def aslBot (ax : Axes P Q) (f : Dist S P Q K) : Dist S P Q K := fun s p q => 1 / 2 * (f s p q + afShift ax.q2 1 (f s p) q)

/-- The hybrid branch — `asl_operators.py:109-211`: currents `curl B / mu` and the electric field of the generalised Ohm's law from the
staggered fields `Y` (after communication).  The text of lines 111-211 is that of `df_dt_fvm.py:106-210` with `fl`, `fb` in place of `f_left`,
`f_bot`.  For one species (`s`), as there. -/
def aslHybrid (c : CoupledConfig S P Q K) (s : S) (f : Dist S P Q K) (Y : EM Q K) : Currents Q K × ((Q → K) × (Q → K) × (Q → K)) :=
  let pr := c.fieldParams
  let q1 := c.ax.q1
  let q2 := c.ax.q2
  let J1 : Q → K := fun i => curlB1 pr Y i / c.mu                                              -- 121-133
  let J2 : Q → K := fun i => curlB2 pr Y i / c.mu
  let J3 : Q → K := fun i => curlB3 pr Y i / c.mu
  let fl := aslLeft c.ax f
  let fb := aslBot c.ax f
  let n := fun x => density c.coords c.measure x s
  let v1 := fun x (q : Q) => momV1 c.coords c.measure x s q / n x q
  let v2 := fun x (q : Q) => momV2 c.coords c.measure x s q / n x q
  let v3 := fun x (q : Q) => momV3 c.coords c.measure x s q / n x q
  let B3q2 := afShift q2 (-1) Y.B3
  let B3q1 := afShift q1 (-1) Y.B3
  let B2q1 := afShift q1 (-1) Y.B2
  let B1q2 := afShift q2 (-1) Y.B1
  let vxB1 : Q → K := fun i => 1 / 2 * (B3q2 i + Y.B3 i) * v2 fl i - Y.B2 i * v3 fl i         -- 139-142
  let vxB2 : Q → K := fun i => Y.B1 i * v3 fb i - 1 / 2 * (B3q1 i + Y.B3 i) * v1 fb i         -- 146-149
  let vxB3 : Q → K := fun i => 1 / 2 * (B2q1 i + Y.B2 i) * v1 f i - 1 / 2 * (B1q2 i + Y.B1 i) * v2 f i   -- 152-155
  let JxB1 : Q → K := fun i => 1 / 2 * (B3q2 i + Y.B3 i) *
      (J2 i + afShift q2 (-1) J2 i + afShift q1 1 J2 i + afShift q1 1 (afShift q2 (-1) J2) i) * (1 / 4)
      - Y.B2 i * (afShift q1 1 J3 i + J3 i) * (1 / 2)                                          -- 159-162
  let JxB2 : Q → K := fun i => Y.B1 i * (afShift q2 1 J3 i + J3 i) * (1 / 2)
      - 1 / 2 * (B3q1 i + Y.B3 i) * (J1 i + afShift q2 1 J1 i + afShift q1 (-1) J1 i + afShift q1 (-1) (afShift q2 1 J1) i) * (1 / 4)
  let JxB3 : Q → K := fun i => 1 / 2 * (B2q1 i + Y.B2 i) * (afShift q1 (-1) J1 i + J1 i) * (1 / 2)
      - 1 / 2 * (B1q2 i + Y.B1 i) * (afShift q2 (-1) J2 i + J2 i) * (1 / 2)
  let ni := n f                                                                                 -- 176
  let dn1 : Q → K := fun i => (-afShift q1 (-2) ni i + 8 * afShift q1 (-1) ni i - 8 * afShift q1 1 ni i + afShift q1 2 ni i) / (12 * c.dq1)
  let dn2 : Q → K := fun i => (-afShift q2 (-2) ni i + 8 * afShift q2 (-1) ni i - 8 * afShift q2 1 ni i + afShift q2 2 ni i) / (12 * c.dq2)
  (⟨J1, J2, J3⟩,
   (fun i => -vxB1 i + JxB1 i / (n fl i * c.charge s) - 1 / 2 * c.Te * (dn1 i + afShift q1 1 dn1 i) / (c.charge s * ni i)),
   (fun i => -vxB2 i + JxB2 i / (n fb i * c.charge s) - 1 / 2 * c.Te * (dn2 i + afShift q2 1 dn2 i) / (c.charge s * ni i)),
   (fun i => -vxB3 i + JxB3 i / (n f i * c.charge s)))

/-- The solver object of a run with fields: the distribution, the fields solver with its array objects (named by numbers), and the number of
the next object to be made. -/
structure AslState (S P Q K : Type) where
  f : Dist S P Q K
  flds : FieldState Q K ℕ
  next : ℕ

/-- The solver object at the start of a run, from the fields solver `_initialize` leaves (`initFields`): its three objects keep their names. -/
def AslState.start (f : Dist S P Q K) (σ : FieldState Q K) : AslState S P Q K where
  f := f
  flds := { heap := fun k => if h : k < 3 then σ.heap ⟨k, h⟩ else σ.heap 0, cc := σ.cc, atN := σ.atN, atHalf := σ.atHalf, yee := σ.yee
            flag := σ.flag, timeElapsed := σ.timeElapsed }
  next := 3

/-- An operator `op(self, dt)`. -/
abbrev AslOp (S P Q K : Type) := K → AslState S P Q K → Except PyErr (AslState S P Q K)

/-- An operator that touches `self.f` only: `op_advect_q` (`asl_operators.py:20-37`), `op_solve_src` (40-83), and `op_fvm` when the momentum
advection is semi-Lagrangian (`fvm_operator.py:6-50`, `df_dt_fvm.py:98`). -/
def onF (g : K → Dist S P Q K → Except PyErr (Dist S P Q K)) : AslOp S P Q K := fun dt st => do
  let f ← g dt st.f
  return { st with f := f }

/-- `op_fields(self, dt)` of an accepted system on the whole periodic grid — `asl_operators.py:85-240`.  `selfdt` is `self.dt`, the step size
of the whole time step, which line 229 passes on instead of `dt`.  The comparison of line 104 with `'electrostatic'` never holds for an
accepted system (`C60_electrostatic_fields_never_updated`) and is left out; line 227 reads the undefined name `f`.  `push F1 F2 F3 dt f` is
`f_interp_p_3d` (`interpolation_routines.py:61-196`, see `aslPush`) for the fields `F1`, `F2`, `F3` its three calls of
`get_fields` return. -/
noncomputable def opFieldsAsl (c : CoupledConfig S P Q K) (push : EM Q K → EM Q K → EM Q K → K → Dist S P Q K → Dist S P Q K) (hyb : S) (selfdt : K) :
    AslOp S P Q K := fun dt st => do
  let σ ← (if c.fieldsSolver = "fdtd" then
      if c.hybrid = true then
        let h := aslHybrid c hyb st.f st.flds.yee
        evolveElectrodynamic c.fieldParams id h.1 selfdt { st.flds with yee := st.flds.yee.setE (some h.2) }   -- 209-211, 229
      else .error .nameError
    else pure st.flds)
  let g1 := getFields c.fieldsSolver c.solverMethodInP σ
  let g2 := getFields c.fieldsSolver c.solverMethodInP g1.2
  let g3 := getFields c.fieldsSolver c.solverMethodInP g2.2
  return { st with f := push g1.1 g2.1 g3.1 dt st.f, flds := g3.2 }

/-- `f_interp_p_3d(self, dt)` with its three evaluations of `A_p` (`A1`, `A2`, `A3`: the component used of each, as a function of the fields its
call of `get_fields` returned) — `interpolation_routines.py:84-100`, then `fInterpP3d` (right for one species; see C122). -/
def aslPush [FloorRing K] {Np1 Np2 Np3 : ℕ} (p2Start p3Start dp2 dp3 : S → K) (A1 A2 A3 : EM Q K → Dist S (AslPIdx Np1 Np2 Np3) Q K) (F1 F2 F3 : EM Q K) (dt : K)
    (f : Dist S (AslPIdx Np1 Np2 Np3) Q K) : Dist S (AslPIdx Np1 Np2 Np3) Q K :=
  fInterpP3d p2Start p3Start dp2 dp3 (A1 F1) (A2 F2) (A3 F3) dt f

/-- `split.lie` — `operator_splitting_methods.py:40-67`. -/
def lieRef (op1 op2 : AslOp S P Q K) : AslOp S P Q K := fun dt st => do
  let st ← op1 dt st
  op2 dt st

/-- `split.strang` — `operator_splitting_methods.py:10-38`. -/
def strangRef (op1 op2 : AslOp S P Q K) : AslOp S P Q K := fun dt st => do
  let st ← op1 (dt / 2) st
  let st ← op2 dt st
  op1 (dt / 2) st

/-- `self.f = f_start` and the restoration of the field arrays — `operator_splitting_methods.py:113-117`.  The operators rebind `self.f` and the
staggered array before changing anything, so the saved references still hold the values of the start; the cell-centred array is restored as
a *reference* `cc`, whose object may have been changed in place. -/
def restoreRef (start i : AslState S P Q K) : AslState S P Q K :=
  { i with f := start.f, flds := { i.flds with cc := start.flds.cc, yee := start.flds.yee } }

/-- `split.swss` with fields enabled — `operator_splitting_methods.py:69-134`.  The averages are new objects; the saved references are read when
the average is taken. -/
def swssRef (op1 op2 : AslOp S P Q K) : AslOp S P Q K := fun dt st => do
  let i ← op1 dt st                                              -- 102
  let i ← op2 dt i                                               -- 103
  let r ← op2 dt (restoreRef st i)                               -- 113-120
  let r ← op1 dt r                                               -- 121
  return { f := fun s p q => 1 / 2 * (r.f s p q + i.f s p q)     -- 124
           flds := { r.flds with
             heap := fun k => if k = r.next then EM.avg (r.flds.heap r.flds.cc) (r.flds.heap i.flds.cc) else r.flds.heap k
             cc := r.next                                        -- 127-129
             yee := EM.avg r.flds.yee i.flds.yee }               -- 130-132
           next := r.next + 1 }

/-- The splitting methods that do not raise when fields are enabled (`split.jia` does, see `splitJia`). -/
inductive RefScheme
  | lie | strang | swss
  deriving DecidableEq

/-- The splitting method of a scheme. -/
def RefScheme.split : RefScheme → AslOp S P Q K → AslOp S P Q K → AslOp S P Q K
  | .lie => lieRef | .strang => strangRef | .swss => swssRef

/-- The operator in position space: finite volumes (`fvm`), or semi-Lagrangian advection `advq` split from the sources `src` by the same
method — `timestep.py:60-75` (`lie_step`), 122-137 (`strang_step`), 183-198 (`swss_step`). -/
def positionOp (m : RefScheme) (c : CoupledConfig S P Q K) (fvm advq src : K → Dist S P Q K → Except PyErr (Dist S P Q K)) : AslOp S P Q K :=
  if c.solverMethodInQ = "FVM" then onF fvm else m.split (onF advq) (onF src)

/-- One time step with fields enabled and semi-Lagrangian advection in momentum space — `timestep.py:51-82` (`lie_step`), 112-143
(`strang_step`), 173-204 (`swss_step`).  `self.dt` is set to the step size.  `check_divergence` and the clock of the nonlinear solver are in
`timeStep`. -/
noncomputable def aslStep (m : RefScheme) (c : CoupledConfig S P Q K) (push : EM Q K → EM Q K → EM Q K → K → Dist S P Q K → Dist S P Q K) (hyb : S)
    (fvm advq src : K → Dist S P Q K → Except PyErr (Dist S P Q K)) : AslOp S P Q K := fun dt st =>
  if c.solverMethodInQ = "FVM" ∨ c.solverMethodInQ = "ASL" then m.split (positionOp m c fvm advq src) (opFieldsAsl c push hyb dt) dt st
  else .ok st

/-- Successive steps. -/
noncomputable def runAsl (m : RefScheme) (c : CoupledConfig S P Q K) (push : EM Q K → EM Q K → EM Q K → K → Dist S P Q K → Dist S P Q K) (hyb : S)
    (fvm advq src : K → Dist S P Q K → Except PyErr (Dist S P Q K)) : List K → AslState S P Q K → Except PyErr (AslState S P Q K)
  | [], st => .ok st
  | dt :: rest, st => do
    let st' ← aslStep m c push hyb fvm advq src dt st
    runAsl m c push hyb fvm advq src rest st'

end Bolt
