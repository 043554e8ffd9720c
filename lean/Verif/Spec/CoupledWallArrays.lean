import Verif.Model.CoupledWallArrays
import Verif.Spec.FieldBoundaryArrays
import Verif.Props.FieldArrays

/-! Vocabulary for coupled runs with walls on arrays. -/

namespace Bolt

variable {K : Type} [Machine K] [Zero K] [LinearOrder K] {N1 N2 : ℕ} [NeZero N1] [NeZero N2] {R : Type} (D : Decomp N1 N2 R) (g1 g2 Np1 Np2 Np3 Ns : ℕ)
  [NeZero Np1] [NeZero Np2] [NeZero Np3] [NeZero Ns]

/-- In both slope evaluations of a step, on every process, what the user's functions return holds what the cell model prescribes, and the walls are usable: a process at a wall
with a condition has a ghost zone there, and velocities have the full shape where the code needs it. -/
structure Decomp.WallInputsHold (o : BCOptions) (c : CoupledConfig (Fin Ns) (AslPIdx Np1 Np2 Np3) (ZMod N1 × ZMod N2) K) (w : Fin 2 → ArrWallInput R K)
    (inp : D.CoupledInput g1 g2 (Fin Ns) Np1 Np2 Np3 K) : Prop where
  slopes : D.CoupledInputsHold g1 g2 Np1 Np2 Np3 Ns c (fun k => (w k).x) inp.cb
  walls : ∀ k r, (D.arrEnv g1 g2 Np1 Np2 Np3 Ns o r ((w k).b r)).Hold (D.bcEnv g1 g2 o r (inp.dat k r))
  room : ∀ k r, (D.arrEnv g1 g2 Np1 Np2 Np3 Ns o r ((w k).b r)).WallsFit
  velocities : ∀ k r, (D.arrEnv g1 g2 Np1 Np2 Np3 Ns o r ((w k).b r)).VelocitiesFit
  fields : ∀ k r, (D.arrFieldEnv o r ((w k).user r)).Hold (D.sizes Np1 Np2 Np3 Ns g1 g2 r) (D.fieldEnv g1 g2 o r (inp.user k r))
  fieldRoom : ∀ k r, (D.arrFieldEnv o r ((w k).user r)).WallsFit (D.sizes Np1 Np2 Np3 Ns g1 g2 r)

end Bolt
