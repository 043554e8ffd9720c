import Verif.Model.FFT
import Verif.Model.Coupled

/-! # Initial fields of a solver, for every value of `params.fields_initialize` -/

namespace Bolt

variable {S : Type} [Fintype S] {N1 N2 : ℕ} [NeZero N1] [NeZero N2]

/-- `rho_initial` — `nonlinear_solver.py:494-496`: charge times density, per species. -/
def rhoInitial {P Q K : Type} [AddCommGroup P] [AddCommGroup Q] [Field K] [Fintype P] (c : CoupledConfig S P Q K) (f : Dist S P Q K) : S → Q → K :=
  fun s q => c.charge s * density c.coords c.measure f s q

/-- `_initialize(rho_initial)` on the whole periodic grid — `fields.py:273-276,421-495`.  `rho` is still split into species (summed at line 276).
The ghost exchange and the boundary conditions after `fft_poisson` (lines 466-467, 479-480) fill ghost cells only. -/
noncomputable def initializeFields (commSize : ℕ) (mode : String) (pr : FieldParams (ZMod N1 × ZMod N2) ℝ)
    (ini : InitFns (ZMod N1 × ZMod N2) ℝ) (rho : S → ZMod N1 × ZMod N2 → ℝ) : Except PyErr (FieldState (ZMod N1 × ZMod N2) ℝ) := do
  let zero : EM (ZMod N1 × ZMod N2) ℝ := ⟨fun _ => 0, fun _ => 0, fun _ => 0, fun _ => 0, fun _ => 0, fun _ => 0⟩
  if mode = "fft" then
    let E ← fftPoisson commSize pr.dq1 pr.dq2 pr.eps (fun j => ∑ s, rho s j)                -- 465
    let C := { zero with E1 := E.1, E2 := E.2 }
    let Y := toYee pr.q1 pr.q2 .E C zero                                                    -- 470
    return { heap := fun k => if k = 0 then C else zero, cc := 0, atN := 0, atHalf := 0, yee := Y, flag := true, timeElapsed := 0 }
  else if mode = "user-defined" then
    initFields pr ini                                                                       -- 472-475
  else if mode = "fft + user-defined magnetic fields" then
    let E ← fftPoisson commSize pr.dq1 pr.dq2 pr.eps (fun j => ∑ s, rho s j)                -- 478
    let C := { zero with E1 := E.1, E2 := E.2 }
    let Y1 := toYee pr.q1 pr.q2 .E C zero                                                   -- 483
    let Y2 ← initMagnetic pr ini Y1                                                         -- 485
    return { heap := fun k => if k = 0 then toCentre pr.q1 pr.q2 .B Y2 C else zero          -- 487
             cc := 0, atN := 0, atHalf := 0, yee := Y2, flag := true, timeElapsed := 0 }
  else .error .notImplemented                                                               -- 489-490

end Bolt
