import Verif.Model.Nonrel
import Verif.Model.Coupled

/-! # The bundled nonrelativistic physics as callbacks of the coupled finite-volume solver -/

namespace Bolt

variable {S P Q K : Type} [Field K]

/-- The nonrelativistic callbacks as given to the solver — `nonrelativistic_boltzmann/advection_terms.py:94-97,179-188` called
by `df_dt_fvm.py:67-77,251-267`; the coordinates of the momentum faces as in `nonrelCallbacksP`: velocities in position space,
the Lorentz force of the fields of the cell in momentum space, and a source computed from the distribution of the cell. -/
def nonrelCallbacks (e m : S → K) (ctr cor : PCoords S P K) (src : (S → P → K) → S → P → K) : CoupledCallbacks S P Q K where
  Cq1 := fun s p _ => (nonrelCq (ctr.p1 s p) (ctr.p2 s p) (ctr.p3 s p)).1
  Cq2 := fun s p _ => (nonrelCq (ctr.p1 s p) (ctr.p2 s p) (ctr.p3 s p)).2
  Cp1 := fun F s p q => (nonrelCp (e s) (m s) (F.E1 q) (F.E2 q) (F.E3 q) (F.B1 q) (F.B2 q) (F.B3 q) (cor.p1 s p) (ctr.p2 s p) (ctr.p3 s p)).1
  Cp2 := fun F s p q => (nonrelCp (e s) (m s) (F.E1 q) (F.E2 q) (F.E3 q) (F.B1 q) (F.B2 q) (F.B3 q) (ctr.p1 s p) (cor.p2 s p) (ctr.p3 s p)).2.1
  Cp3 := fun F s p q => (nonrelCp (e s) (m s) (F.E1 q) (F.E2 q) (F.E3 q) (F.B1 q) (F.B2 q) (F.B3 q) (ctr.p1 s p) (ctr.p2 s p) (cor.p3 s p)).2.2
  source := fun f s p q => src (fun s p => f s p q) s p

end Bolt
