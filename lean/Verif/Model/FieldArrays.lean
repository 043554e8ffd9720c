import Verif.Model.ArrayProgram
import Verif.Model.CoupledDecomp

/-!
# The field solver and the coupled step on blocks of memory

`Model/ArrayProgram` has the finite-volume slope as a program on `af.Array`s.  Here follow the statements of `fdtd_explicit.py`, of the time-level bookkeeping in
`fields.py` and the coupled step: arrays of shape `(6, 1, M1, M2)` whose rows 0 to 5 are `E1 E2 E3 B1 B2 B3`, row slices and row assignments.  Kinetic electrons
(`hybrid_model_enabled = False`); no electrostatic solver, as in `Model/MachineCoupled`.
-/

namespace Bolt

open Machine

namespace AfArray
variable {K : Type}

/-- `a[lo:lo + n]` (`a[lo]` for `n = 1`): a copy of `n` rows. -/
def rows (a : AfArray K) (lo n : ℕ) : Except PyErr (AfArray K) :=
  if lo + n ≤ a.d0 then .ok (ofFn n a.d1 a.d2 a.d3 fun i j k l => a.get (lo + i) j k l) else .error .exception

/-- `a[lo:lo + n] = b`: ArrayFire rejects a right-hand side of another shape. -/
def setRows (a : AfArray K) (lo n : ℕ) (b : AfArray K) : Except PyErr (AfArray K) :=
  if lo + n ≤ a.d0 ∧ b.d0 = n ∧ b.d1 = a.d1 ∧ b.d2 = a.d2 ∧ b.d3 = a.d3 then
    .ok (ofFn a.d0 a.d1 a.d2 a.d3 fun i j k l => if lo ≤ i ∧ i < lo + n then b.get (i - lo) j k l else a.get i j k l)
  else .error .exception

/-- `a[lo:lo + n]` as a value. -/
def rowsOf (a : AfArray K) (lo n : ℕ) : PyExpr K := Except.map PyVal.arr (a.rows lo n)

/-- `a[lo:lo + n] = x`; a number would fill the rows. -/
def assign (a : AfArray K) (lo n : ℕ) (x : PyExpr K) : Except PyErr (AfArray K) :=
  Except.bind x fun
    | .num v => a.setRows lo n (ofFn n a.d1 a.d2 a.d3 fun _ _ _ _ => v)
    | .arr b => a.setRows lo n b

end AfArray

section fdtd
open PyExpr
variable {K : Type} [Machine K]

/-- `fdtd_evolve_E(self, dt)` with `hybrid_model_enabled = False`, on the array `self.yee_grid_EM_fields` — `fdtd_explicit.py:9-82`. -/
def arrEvolveE (eps mu dq1 dq2 dt : K) (J1 J2 J3 : PyExpr K) (Y : AfArray K) : Except PyErr (AfArray K) :=
  let B1 := Y.rowsOf 3 1
  let B2 := Y.rowsOf 4 1
  let B3 := Y.rowsOf 5 1
  let B1_plus_q2 := B1.shift 0 0 0 (-1)
  let B2_plus_q1 := B2.shift 0 0 (-1) 0
  let B3_plus_q1 := B3.shift 0 0 (-1) 0
  let B3_plus_q2 := B3.shift 0 0 0 (-1)
  let curlB_1 := (B3_plus_q2 - B3) / num dq2
  let curlB_2 := -(B3_plus_q1 - B3) / num dq1
  let curlB_3 := (B2_plus_q1 - B2) / num dq1 - (B1_plus_q2 - B1) / num dq2
  Except.bind (Y.assign 0 1 (Y.rowsOf 0 1 + (num dt / (num mu * num eps) * curlB_1 - J1 * num dt / num eps))) fun Y =>
  Except.bind (Y.assign 1 1 (Y.rowsOf 1 1 + (num dt / (num mu * num eps) * curlB_2 - J2 * num dt / num eps))) fun Y =>
  Y.assign 2 1 (Y.rowsOf 2 1 + (num dt / (num mu * num eps) * curlB_3 - J3 * num dt / num eps))

/-- `fdtd_evolve_B(self, dt)` — `fdtd_explicit.py:84-138`. -/
def arrEvolveB (dq1 dq2 dt : K) (Y : AfArray K) : Except PyErr (AfArray K) :=
  let E1 := Y.rowsOf 0 1
  let E2 := Y.rowsOf 1 1
  let E3 := Y.rowsOf 2 1
  let E1_minus_q2 := E1.shift 0 0 0 1
  let E2_minus_q1 := E2.shift 0 0 1 0
  let E3_minus_q1 := E3.shift 0 0 1 0
  let E3_minus_q2 := E3.shift 0 0 0 1
  let curlE_1 := (E3 - E3_minus_q2) / num dq2
  let curlE_2 := -(E3 - E3_minus_q1) / num dq1
  let curlE_3 := (E2 - E2_minus_q1) / num dq1 - (E1 - E1_minus_q2) / num dq2
  Except.bind (Y.assign 3 1 (Y.rowsOf 3 1 + -num dt * curlE_1)) fun Y =>
  Except.bind (Y.assign 4 1 (Y.rowsOf 4 1 + -num dt * curlE_2)) fun Y =>
  Y.assign 5 1 (Y.rowsOf 5 1 + -num dt * curlE_3)

/-- `yee_grid_to_cell_centered_grid(None)`: the array `C = self.cell_centered_EM_fields` is overwritten from `Y = self.yee_grid_EM_fields` — `fields.py:527-557`. -/
def arrToCentre (Y C : AfArray K) : Except PyErr (AfArray K) :=
  let E1_yee := Y.rowsOf 0 1
  let E2_yee := Y.rowsOf 1 1
  let E3_yee := Y.rowsOf 2 1
  let B1_yee := Y.rowsOf 3 1
  let B2_yee := Y.rowsOf 4 1
  let B3_yee := Y.rowsOf 5 1
  Except.bind (C.assign 0 1 (const (1 / 2) * (E1_yee + E1_yee.shift 0 0 (-1) 0))) fun C =>
  Except.bind (C.assign 1 1 (const (1 / 2) * (E2_yee + E2_yee.shift 0 0 0 (-1)))) fun C =>
  Except.bind (C.assign 2 1 E3_yee) fun C =>
  Except.bind (C.assign 3 1 (const (1 / 2) * (B1_yee + B1_yee.shift 0 0 0 (-1)))) fun C =>
  Except.bind (C.assign 4 1 (const (1 / 2) * (B2_yee + B2_yee.shift 0 0 (-1) 0))) fun C =>
  C.assign 5 1 (const (1 / 4) * (B3_yee + B3_yee.shift 0 0 0 (-1) + B3_yee.shift 0 0 (-1) 0 + B3_yee.shift 0 0 (-1) (-1)))

end fdtd

/-- `C_p` of the nonrelativistic system with the six arrays `get_fields` returns — `nonrelativistic_boltzmann/advection_terms.py:179-188`, called inside `af.broadcast`
in `df_dt_fvm.py:251-267`. -/
def arrLorentz {K : Type} [Machine K] (e m v1 v2 v3 : PyExpr K) (E : Fin 6 → PyExpr K) : PyExpr K × PyExpr K × PyExpr K :=
  (arrForce e m (E 0) v2 (E 5) v3 (E 4), arrForce e m (E 1) v3 (E 3) v1 (E 5), arrForce e m (E 2) v1 (E 4) v2 (E 3))

/-- The fields solver object with its arrays; see `FieldState` for the attributes that refer to shared objects. -/
structure ArrFieldState (K : Type) where
  /-- the array objects -/
  heap : Fin 3 → AfArray K
  /-- object of `cell_centered_EM_fields` -/
  cc : Fin 3
  /-- object of `cell_centered_EM_fields_at_n` -/
  atN : Fin 3
  /-- object of `cell_centered_EM_fields_at_n_plus_half` -/
  atHalf : Fin 3
  /-- `yee_grid_EM_fields` -/
  yee : AfArray K
  /-- the flag `self.at_n` -/
  flag : Bool
  timeElapsed : K

namespace ArrFieldState
open PyExpr
variable {K : Type}

/-- `obj[lo:lo + n] = x` for the object `o`. -/
def assign (σ : ArrFieldState K) (o : Fin 3) (lo n : ℕ) (x : PyExpr K) : Except PyErr (ArrFieldState K) :=
  Except.map (fun a => { σ with heap := fun k => if k = o then a else σ.heap k }) ((σ.heap o).assign lo n x)

variable [Machine K]

/-- `evolve_electrodynamic_fields` after the sums over species and around its call of `fdtd`, which leaves the staggered fields `Y` — `fields.py:608-647`. -/
def store (dt : K) (Y : AfArray K) (σ : ArrFieldState K) : Except PyErr (ArrFieldState K) :=
  let E_at_n := (σ.heap σ.cc).rowsOf 0 3                                                       -- 610
  Except.bind (σ.assign σ.atN 0 3 E_at_n) fun σ =>                                              -- 611
  let B_at_n_minus_half := (σ.heap σ.atHalf).rowsOf 3 3                                          -- 617
  let B_at_n_plus_half := (σ.heap σ.cc).rowsOf 3 3                                               -- 620
  let B_at_n := const (1 / 2) * (B_at_n_minus_half + B_at_n_plus_half)                          -- 623
  Except.bind (σ.assign σ.atN 3 3 B_at_n) fun σ =>                                              -- 624
  Except.bind (σ.assign σ.atHalf 3 3 B_at_n_plus_half) fun σ =>                                 -- 628
  Except.bind (arrToCentre Y (σ.heap σ.cc)) fun C =>                                            -- 635-636
  let σ : ArrFieldState K := { σ with yee := Y, heap := fun k => if k = σ.cc then C else σ.heap k }
  let E_at_n_plus_one := (σ.heap σ.cc).rowsOf 0 3                                                -- 639
  let E_at_n_plus_half := const (1 / 2) * (E_at_n + E_at_n_plus_one)                            -- 642
  Except.bind (σ.assign σ.atHalf 0 3 E_at_n_plus_half) fun σ =>                                 -- 643
  .ok { σ with timeElapsed := σ.timeElapsed ⊞ dt }                                              -- 646

/-- `get_fields(self)` — `fields.py:649-690`: the six rows it returns, and the new value of the flag. -/
def getFields (fieldsSolver solverMethodInP : String) (σ : ArrFieldState K) : (Fin 6 → PyExpr K) × ArrFieldState K :=
  let a := if fieldsSolver ≠ "fdtd" then σ.heap σ.cc else if σ.flag = true then σ.heap σ.atN else σ.heap σ.atHalf
  (fun i => a.rowsOf i 1, if solverMethodInP = "FVM" then { σ with flag := !σ.flag } else σ)

end ArrFieldState

/-- The arrays and callbacks read in one slope evaluation of a coupled run — `df_dt_fvm.py:66-77, 91-97, 214-224, 251-267`: `Cp1 fields` is component 0 of `C_p` when its
call of `get_fields` returned the six arrays `fields`; `v1`, `v2`, `v3` are the coordinate arrays the moments multiply with (`moments.py:9-16`). -/
structure ArrCallbacks (K : Type) where
  (Cq1 Cq2 : PyExpr K)
  (Cp1 Cp2 Cp3 : (Fin 6 → PyExpr K) → PyExpr K)
  source : AfArray K → PyExpr K
  (dp1 dp2 dp3 charge v1 v2 v3 : PyExpr K)

section coupled
open PyExpr
variable {K : Type} [Machine K] (red : List K → K) {N1 N2 : ℕ} {R : Type} (D : Decomp N1 N2 R) (g1 g2 Np1 Np2 Np3 Ns : ℕ) (o : BCOptions)

/-- `fdtd(self, dt)` on the arrays of all processes — `fdtd_explicit.py:141-177`, `communicate.py:40-77`. Boundary conditions `periodic` or `none`, for which
`apply_bcs_fields` does nothing. -/
def ArrFdtdStep (eps mu dq1 dq2 dt : K) (J1 J2 J3 : R → PyExpr K) (Y Y' : R → AfArray K) : Prop :=
  ∃ (bc1 bc2 : Decomp.PetscBC) (st0 st1 : R → Vec K) (Y0 H Y2 : R → AfArray K),
    let z := D.sizes Np1 Np2 Np3 Ns g1 g2
    Decomp.FieldTypes g1 g2 o bc1 bc2 ∧
    D.Communicates z g1 g2 bc1 bc2 6 1 st0 Y Y0 ∧
    (∀ r, arrEvolveE eps mu dq1 dq2 dt (J1 r) (J2 r) (J3 r) (Y0 r) = .ok (H r)) ∧
    D.Communicates z g1 g2 bc1 bc2 6 1 st1 H Y2 ∧
    ∀ r, arrEvolveB dq1 dq2 dt (Y2 r) = .ok (Y' r)

/-- Successive calls of `fdtd`, each with its step size and currents. -/
def ArrFdtdRun (eps mu dq1 dq2 : K) : List (K × (R → PyExpr K) × (R → PyExpr K) × (R → PyExpr K)) → (R → AfArray K) → (R → AfArray K) → Prop
  | [], Y, Y' => Y' = Y
  | (dt, J1, J2, J3) :: rest, Y, Y' =>
    ∃ Z, ArrFdtdStep D g1 g2 Np1 Np2 Np3 Ns o eps mu dq1 dq2 dt J1 J2 J3 Y Z ∧ ArrFdtdRun eps mu dq1 dq2 rest Z Y'

/-- The currents handed to `evolve_electrodynamic_fields`, summed over species there — `df_dt_fvm.py:214-224`, `fields.py:604-606`. -/
def arrCurrents (method : String) (x : ArrCallbacks K) (f : PyExpr K) : PyExpr K × PyExpr K × PyExpr K :=
  (arrOfSpecies red x.charge (arrMomV red x.dp1 x.dp2 x.dp3 x.v1 (arrLeftState method 2 x.Cq1 f)),
   arrOfSpecies red x.charge (arrMomV red x.dp1 x.dp2 x.dp3 x.v2 (arrLeftState method 3 x.Cq2 f)),
   arrOfSpecies red x.charge (arrMomV red x.dp1 x.dp2 x.dp3 x.v3 f))

variable {S P Q : Type} (c : CoupledConfig S P Q K)

/-- The field update inside a slope evaluation — `df_dt_fvm.py:102-233`, `fields.py:568-647`, as `Mach.FieldPhase`. -/
def ArrFieldPhase (x : R → ArrCallbacks K) (dt : K) (F : R → AfArray K) (σ σ' : R → ArrFieldState K) : Prop :=
  (c.fieldsType = "electrodynamic" ∧ (∀ r, (σ r).flag = false) ∧ c.solverMethodInQ = "FVM" ∧
    ∃ Y', ArrFdtdStep D g1 g2 Np1 Np2 Np3 Ns o c.eps c.mu c.dq1 c.dq2 dt
        (fun r => (arrCurrents red c.reconstructionInQ (x r) (.ok (.arr (F r)))).1)
        (fun r => (arrCurrents red c.reconstructionInQ (x r) (.ok (.arr (F r)))).2.1)
        (fun r => (arrCurrents red c.reconstructionInQ (x r) (.ok (.arr (F r)))).2.2) (fun r => (σ r).yee) Y' ∧
      ∀ r, (σ r).store dt (Y' r) = .ok (σ' r)) ∨
  (c.fieldsType ≠ "electrodynamic" ∨ ∀ r, (σ r).flag = true) ∧ σ' = σ

/-- What `df_dt_fvm` hands on to the fluxes: the momentum velocities are evaluated with the fields of three successive calls of `get_fields` — `df_dt_fvm.py:251-267`. -/
def arrInputs (x : ArrCallbacks K) (h1 h2 h3 : Fin 6 → PyExpr K) (f : AfArray K) : ArrIn K :=
  ⟨x.Cq1, x.Cq2, x.Cp1 h1, x.Cp2 h2, x.Cp3 h3, x.source f, x.dp1, x.dp2, x.dp3⟩

/-- `df_dt_fvm(self.f, self)` on the arrays of all processes — `df_dt_fvm.py:33-339`; without fields the momentum velocities are not read. -/
def ArrSlopeCoupled (x : R → ArrCallbacks K) (dt : K) (F : R → AfArray K) (σ : R → ArrFieldState K) (k : R → PyExpr K) (σ' : R → ArrFieldState K) : Prop :=
  if c.solverMethodInP = "FVM" ∧ c.fieldsEnabled = true then
    ∃ σ1, ArrFieldPhase red D g1 g2 Np1 Np2 Np3 Ns o c x dt F σ σ1 ∧ ∀ r,
      let h1 := (σ1 r).getFields c.fieldsSolver c.solverMethodInP
      let h2 := h1.2.getFields c.fieldsSolver c.solverMethodInP
      let h3 := h2.2.getFields c.fieldsSolver c.solverMethodInP
      k r = arrDfdt (D.sizes Np1 Np2 Np3 Ns g1 g2 r) c.toFVMConfig (arrInputs (x r) h1.1 h2.1 h3.1 (F r)) (.ok (.arr (F r))) ∧
      σ' r = h3.2
  else
    (∀ r, k r = arrDfdt (D.sizes Np1 Np2 Np3 Ns g1 g2 r) c.toFVMConfig
      (arrInputs (x r) (fun _ => const 0) (fun _ => const 0) (fun _ => const 0) (F r)) (.ok (.arr (F r)))) ∧ σ' = σ

/-- One `timestep_fvm` of a coupled run on the arrays of all processes — `fvm_operator.py:6-35`; periodic boundary conditions, for which `_apply_bcs_f` does nothing. -/
def ArrStepCoupled (dt : K) (x : Fin 2 → R → ArrCallbacks K) (F : R → AfArray K) (σ : R → ArrFieldState K) (F' : R → AfArray K) (σ' : R → ArrFieldState K) : Prop :=
  ∃ (st0 st1 : R → Vec K) (F0 H Fh : R → AfArray K) (k0 k1 : R → PyExpr K) (σh : R → ArrFieldState K),
    let z := D.sizes Np1 Np2 Np3 Ns g1 g2
    D.Communicates z g1 g2 .periodic .periodic (Np1 * Np2 * Np3) Ns st0 F F0 ∧
    ArrSlopeCoupled red D g1 g2 Np1 Np2 Np3 Ns o c (x 0) dt F0 σ k0 σh ∧
    (∀ r, arrAdvance (.ok (.arr (F0 r))) (k0 r) (dt ⊘ lit 2) = .ok (.arr (H r))) ∧
    D.Communicates z g1 g2 .periodic .periodic (Np1 * Np2 * Np3) Ns st1 H Fh ∧
    ArrSlopeCoupled red D g1 g2 Np1 Np2 Np3 Ns o c (x 1) dt Fh σh k1 σ' ∧
    ∀ r, arrAdvance (.ok (.arr (F0 r))) (k1 r) dt = .ok (.arr (F' r))

/-- Successive steps. -/
def ArrRunCoupled : List (K × (Fin 2 → R → ArrCallbacks K)) → (R → AfArray K) → (R → ArrFieldState K) → (R → AfArray K) → (R → ArrFieldState K) → Prop
  | [], F, σ, F', σ' => F' = F ∧ σ' = σ
  | (dt, x) :: rest, F, σ, F', σ' =>
    ∃ G τ, ArrStepCoupled red D g1 g2 Np1 Np2 Np3 Ns o c dt x F σ G τ ∧ ArrRunCoupled rest G τ F' σ'

end coupled

end Bolt
