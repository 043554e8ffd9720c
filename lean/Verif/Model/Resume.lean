import Verif.Model.CoupledDecomp
import Verif.Model.Pipeline
import Verif.Spec.Layout

/-!
# Resuming a run with fields (`load.py:45-78`, `dump.py:170-231`)
-/

namespace Bolt

variable {Q K : Type} [AddCommGroup Q] [Field K]

/-- `load_EM_fields` on the fields solver `σ`, when the file holds the staggered fields `Y` — `load.py:69-78`: the staggered fields are replaced, and
`yee_grid_to_cell_centered_grid()` (`fields.py:527-557`) assigns into the array object of `cell_centered_EM_fields`.  Flag, clock and references are those of `σ`. -/
def FieldState.load (pr : FieldParams Q K) (Y : EM Q K) (σ : FieldState Q K) : FieldState Q K :=
  { σ with
    yee := Y
    heap := fun k => if k = σ.cc then toCentre pr.q1 pr.q2 .both Y (σ.heap σ.cc) else σ.heap k }

/-- The `(6, 1, M1, M2)` array of the six components — `fields.py:437-462`. -/
def EM.toAf {M1 M2 : ℕ} (F : EM (ZMod M1 × ZMod M2) K) : AfArray K :=
  AfArray.ofFn 6 1 M1 M2 fun i _ k l => F.column i ((k : ZMod M1), (l : ZMod M2))

namespace Decomp

variable {N1 N2 : ℕ} {R : Type} (D : Decomp N1 N2 R) (g1 g2 : ℕ) [LinearOrder K]
  {Ns Np1 Np2 Np3 : ℕ} [Fintype (PIdx Np1 Np2 Np3)]

/-- A script: fields solvers `σ`, distribution `F`; take the steps; `dump_distribution_function`, `dump_EM_fields` (which writes
`yee_grid_EM_fields`, `dump.py:222-228`). -/
def RunAndDump {Q : Type} [∀ r, Fintype (D.Loc g1 g2 r)] (o : BCOptions) (c : CoupledConfig (Fin Ns) (PIdx Np1 Np2 Np3) Q K) (hyb : Fin Ns)
    (steps : List (K × D.CoupledInput g1 g2 (Fin Ns) Np1 Np2 Np3 K))
    (F : ∀ r, Dist (Fin Ns) (PIdx Np1 Np2 Np3) (D.Loc g1 g2 r) K) (σ : ∀ r, FieldState (D.Loc g1 g2 r) K) (fileF fileEM : Vec K) : Prop :=
  ∃ F' σ', D.RunCoupled g1 g2 o c hyb steps F σ F' σ' ∧
    D.DumpsTo (fun r => D.sizes Np1 Np2 Np3 Ns g1 g2 r) (Np1 * Np2 * Np3) Ns (fun r => AfArray.ofDist _ _ (F' r)) fileF ∧
    D.DumpsTo (fun r => D.sizes Np1 Np2 Np3 Ns g1 g2 r) 6 1 (fun r => (σ' r).yee.toAf) fileEM

/-- A script that resumes: freshly constructed fields solvers `σ`; `load_distribution_function`, `load_EM_fields`; then as `RunAndDump`. -/
def ResumeAndDump {Q : Type} [∀ r, Fintype (D.Loc g1 g2 r)] (o : BCOptions) (c : CoupledConfig (Fin Ns) (PIdx Np1 Np2 Np3) Q K) (hyb : Fin Ns)
    (steps : List (K × D.CoupledInput g1 g2 (Fin Ns) Np1 Np2 Np3 K)) (σ : ∀ r, FieldState (D.Loc g1 g2 r) K)
    (stale stale' : R → Vec K) (fileF fileEM fileF' fileEM' : Vec K) : Prop :=
  ∃ A Y : R → AfArray K,
    D.LoadsTo (fun r => D.sizes Np1 Np2 Np3 Ns g1 g2 r) g1 g2 .periodic .periodic (Np1 * Np2 * Np3) Ns stale fileF A ∧
    D.LoadsTo (fun r => D.sizes Np1 Np2 Np3 Ns g1 g2 r) g1 g2 .periodic .periodic 6 1 stale' fileEM Y ∧
    D.RunAndDump g1 g2 o c hyb steps (fun r => (A r).toDist _ _)
      (fun r => (σ r).load (D.locCfg g1 g2 c r).fieldParams (Y r).toEM) fileF' fileEM'

end Decomp
end Bolt
