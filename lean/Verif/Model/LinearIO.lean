import Verif.Model.Linear
import Verif.Model.Layout

/-!
# Files written and read by the linear solver; checks of its constructor

`linear/file_io/dump.py`, `linear/file_io/load.py`, `linear/linear_solver.py:105-155`, `linear/compute_moments.py`.

The linear solver runs on one process: the PETSc vector is one block, and the file lists it in order.  `dump_EM_fields` and `load_EM_fields` of these
modules are not methods of the solver (`linear_solver.py:281-286` binds the other three) and are not modelled.
-/

namespace Bolt

variable {M1 M2 M3 ns N1 N2 : ℕ} [NeZero M1] [NeZero M2] [NeZero M3] [NeZero ns] [NeZero N1] [NeZero N2]

/-- The momentum cell of position `n` along axis 0: `p1` runs fastest (`calculate_p.py:33-57`, see C40). -/
def momCell (M1 M2 M3 : ℕ) (n : ℕ) : MomIx M1 M2 M3 := ((n : ℕ), (n / M1 : ℕ), (n / M1 / M2 : ℕ))

/-- The distribution as the `af.Array` of shape `(N_p1 N_p2 N_p3, N_species, N_q1, N_q2)` it is in memory. -/
def linArray (f : LinF M1 M2 M3 ns N1 N2 ℝ) : AfArray ℝ :=
  AfArray.ofFn (M1 * M2 * M3) ns N1 N2 fun i j k l => f (momCell M1 M2 M3 i) (Fin.ofNat ns j) ((k : ℕ), (l : ℕ))

/-- `array.to_ndarray(out)` for a one-dimensional `out` of length `len`: the block is copied; raises if the sizes differ. -/
def toNdarray (a : AfArray ℝ) (len : ℕ) : Except PyErr (Vec ℝ) := if a.size = len then .ok ⟨len, a.data⟩ else .error .exception

/-- `dump_distribution_function` — `linear/file_io/dump.py:121-125`; the vector has `N_species N_p1 N_p2 N_p3` entries per cell
(`linear_solver.py:118-124`). -/
noncomputable def linDumpF (st : LinState M1 M2 M3 ns N1 N2) : Except PyErr (Vec ℝ) := do
  let f ← getDistFunc st
  toNdarray (linArray f) (ns * M1 * M2 * M3 * (N1 * N2))

/-- `load_distribution_function` — `linear/file_io/load.py:28-36`: PETSc refuses a file of another length; `reshape` is numpy's, in row-major
order; `af.to_array` keeps the indices of the numpy array. -/
noncomputable def linLoadF (file : Vec ℝ) (st : LinState M1 M2 M3 ns N1 N2) : Except PyErr (LinState M1 M2 M3 ns N1 N2) :=
  if file.len = ns * M1 * M2 * M3 * (N1 * N2) then
    let f : LinF M1 M2 M3 ns N1 N2 ℝ := fun p s q =>
      file.data ((((p.1.val + M1 * (p.2.1.val + M2 * p.2.2.val)) * ns + s.val) * N1 + q.1.val) * N2 + q.2.val)
    .ok { st with fHat := linInitF f }
  else .error .exception

/-- `dump_moments` — `linear/file_io/dump.py:60-77`; `moment name` is `compute_moments(name)`.  The vector has `N_species len(attributes)` entries
per cell (`linear_solver.py:133-135`). -/
def linDumpMoments (names : List String) (moment : String → Except PyErr (Fin ns → ZMod N1 × ZMod N2 → ℝ)) : Except PyErr (Vec ℝ) := do
  let a ← joinMoments (fun name => do
    let m ← moment name
    pure (AfArray.ofFn 1 ns N1 N2 fun _ j k l => m (Fin.ofNat ns j) ((k : ℕ), (l : ℕ)))) (momentAttributes names)
  toNdarray a (ns * (momentAttributes names).length * (N1 * N2))

/-- The check of the boundary conditions in the constructor — `linear_solver.py:105-113`: the four tests are joined by `and`. -/
def linCheckPeriodic (left right bottom top : String) : Except PyErr Unit :=
  if left ≠ "periodic" ∧ right ≠ "periodic" ∧ bottom ≠ "periodic" ∧ top ≠ "periodic" then .error .exception else .ok ()

/-- What `compute_moments(name, f, f_hat)` returns: values in real space or amplitudes. -/
inductive MomentValue (ns N1 N2 : ℕ)
  | real (m : Fin ns → ZMod N1 × ZMod N2 → ℝ)
  | hat (m : Fin ns → ZMod N1 × ZMod N2 → ℂ)

/-- `compute_moments(name, f, f_hat)` — `compute_moments.py:36-77`.  `mom` is the moment's definition, which the code applies to either kind of
array (`momR` and `momC` are the same function on real and on complex arrays). -/
noncomputable def linComputeMomentsArgs (cfg : LinCfg M1 M2 M3 ns N1 N2) (momR : MomentFn (Fin ns) (MomIx M1 M2 M3) (ZMod N1 × ZMod N2) ℝ)
    (momC : MomentFn (Fin ns) (MomIx M1 M2 M3) (ZMod N1 × ZMod N2) ℂ) (f : Option (LinF M1 M2 M3 ns N1 N2 ℝ))
    (fHat : Option (LinF M1 M2 M3 ns N1 N2 ℂ)) (st : LinState M1 M2 M3 ns N1 N2) : Except PyErr (MomentValue ns N1 N2) :=
  match fHat, f with
  | none, none => do return .real (← linComputeMoments cfg momC st)
  | some h, none => .ok (.hat (linMoment cfg momC h))
  | none, some f => .ok (.real fun s q => momR cfg.coords (fun s => cfg.dp3 s * cfg.dp2 s * cfg.dp1 s) (fun s p q => f p s q) s q)
  | some _, some _ => .error .exception

end Bolt
