import Verif.Model.ASL
import Verif.Model.Temporal
import Mathlib.Algebra.Module.Pi

/-!
# The operators of a semi-Lagrangian run on many processes
-/

namespace Bolt

section
variable {K : Type} [Field K] [LinearOrder K] [FloorRing K] {S P : Type} {N1 N2 : ℕ} {R : Type}

/-- The operators the step functions hand to the splitting methods (`bolt/lib/nonlinear/timestep.py:25-26, 66-88`), on all processes of a
periodic run with `solver_method_in_q = 'ASL'` and no fields: `op_advect_q` (`asl_operators.py:20-37`) and `op_solve_src`
(`asl_operators.py:40-83`).  `f` is the array `self.f` of every process, `rest` the content of the local vectors `_local_f`
(`communicate.py:8-38`), which the splitting methods neither save nor restore.  `t` is `time_elapsed`, which stays the same during a step.
`A1`, `A2` are `A_q` evaluated by every process on its own cells, `src` its call of the source function.  The two operators that are
not used without fields are parameters. -/
def Decomp.aslOps (D : Decomp N1 N2 R) (g1 g2 : ℕ) (q1Start q2Start dq1 dq2 : K) (A1 A2 : K → ∀ r, S → P → D.Loc g1 g2 r → K)
    (instantaneous sourceEnabled : Bool) (src : K → ∀ r, Dist S P (D.Loc g1 g2 r) K → Bool → Dist S P (D.Loc g1 g2 r) K)
    (opFvm opFields : SplitOp K (∀ r, Dist S P (D.Loc g1 g2 r) K) Unit (∀ r, Dist S P (D.Loc g1 g2 r) K)) (t : K) :
    StepOps K (∀ r, Dist S P (D.Loc g1 g2 r) K) Unit (∀ r, Dist S P (D.Loc g1 g2 r) K) where
  opFvm := opFvm
  opAdvectQ dt s := .ok { f := D.opAdvectQ g1 g2 q1Start q2Start dq1 dq2 (A1 t) (A2 t) dt s.rest s.f
                          em := s.em
                          rest := D.exchange g1 g2 .periodic .periodic s.rest s.f }
  opSolveSrc dt s := .ok { s with f := fun r => Bolt.opSolveSrc instantaneous sourceEnabled (fun t' => src t' r) t dt (s.f r) }
  opFields := opFields

end
end Bolt
