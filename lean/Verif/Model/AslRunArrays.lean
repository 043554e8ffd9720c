import Verif.Model.AslArrays
import Verif.Model.Temporal

/-!
# Semi-Lagrangian runs on blocks of memory

`op_solve_src`, the four splitting methods and a run of them, on the arrays of all processes (`bolt/lib/nonlinear/semi_lagrangian/asl_operators.py`,
`bolt/lib/nonlinear/temporal_evolution/operator_splitting_methods.py`), in any arithmetic.  No fields, periodic domain.
-/

namespace Bolt

open Machine PyExpr

/-- An operator on the arrays `self.f` of all processes; relational, as processes may raise. -/
abbrev ArrOp (R K : Type) : Type := (R → AfArray K) → (R → AfArray K) → Prop

/-- An array as an expression. -/
def PyExpr.ofArr {K : Type} (a : AfArray K) : PyExpr K := .ok (.arr a)

section
variable {K : Type} [Machine K] {R : Type}

/-- `op_solve_src(self, dt)` on one process — `asl_operators.py:40-83`, with `integrators.RK2` (`integrators.py:6-13`) written out.  `src flag f` is the call of the source
function; without its last argument the flag is `False`. -/
def arrSolveSrc (instantaneous sourceEnabled : Bool) (src : Bool → AfArray K → PyExpr K) (dt : K) (f : AfArray K) : Except PyErr (AfArray K) := do
  let f ← (if instantaneous then (src true f).array else .ok f)
  if sourceEnabled && !instantaneous then
    let x ← (ofArr f + src false f * num (dt ⊘ lit 2)).array
    (ofArr f + src false x * num dt).array
  else .ok f

/-- `0.5 * (self.f + f_intermediate)` — `operator_splitting_methods.py:124`. -/
def arrMean (f f' : AfArray K) : PyExpr K := const (1 / 2) * (ofArr f + ofArr f')

/-- `(2 / 3)*(f_intermediate1 + f_intermediate2)- (1 / 3) * self.f` — `operator_splitting_methods.py:206`. -/
def arrJiaMix (f1 f2 f : AfArray K) : PyExpr K := const (2 / 3) * (ofArr f1 + ofArr f2) - const (1 / 3) * ofArr f

/-- `split.strang(self, op1, op2, dt)` — `operator_splitting_methods.py:10-38`. -/
def arrStrang (op1 op2 : K → ArrOp R K) (dt : K) : ArrOp R K := fun F F' =>
  ∃ G H, op1 (lit (1 / 2) ⊠ dt) F G ∧ op2 dt G H ∧ op1 (lit (1 / 2) ⊠ dt) H F'

/-- `split.lie(self, op1, op2, dt)` — `operator_splitting_methods.py:40-67`. -/
def arrLie (op1 op2 : K → ArrOp R K) (dt : K) : ArrOp R K := fun F F' => ∃ G, op1 dt F G ∧ op2 dt G F'

/-- `split.swss(self, op1, op2, dt)` without fields — `operator_splitting_methods.py:69-134`.  The array saved as `f_start` is not changed by the operators, which assign new
arrays to `self.f` (the exchange of ghost cells builds a new one before boundary conditions write to it). -/
def arrSwss (op1 op2 : K → ArrOp R K) (dt : K) : ArrOp R K := fun F F' =>
  ∃ G H, arrLie op1 op2 dt F G ∧ arrLie op2 op1 dt F H ∧ ∀ r, arrMean (H r) (G r) = .ok (.arr (F' r))

/-- `split.jia(self, op1, op2, dt)` without fields — `operator_splitting_methods.py:136-216`. -/
def arrJia (op1 op2 : K → ArrOp R K) (dt : K) : ArrOp R K := fun F F' =>
  ∃ X Y Z, arrStrang op1 op2 dt F X ∧ arrStrang op2 op1 dt F Y ∧ arrSwss op1 op2 dt F Z ∧
    ∀ r, arrJiaMix (X r) (Y r) (Z r) = .ok (.arr (F' r))

/-- The splitting method of a step function — `timestep.py:40-285`. -/
def Scheme.arrSplit : Scheme → (op1 op2 : K → ArrOp R K) → K → ArrOp R K
  | .lie => arrLie
  | .strang => arrStrang
  | .swss => arrSwss
  | .jia => arrJia

/-- The inputs of a semi-Lagrangian run on every process: `self.q1_center`, `self.q2_center`, the values of `_A_q` and the source function at a time. -/
structure AslRunIn (R K : Type) where
  q1 : R → AfArray K
  q2 : R → AfArray K
  A1 : K → R → PyExpr K
  A2 : K → R → PyExpr K
  instantaneous : Bool
  sourceEnabled : Bool
  src : K → R → Bool → AfArray K → PyExpr K

/-- A user's loop of step calls with `solver_method_in_q = 'ASL'`, no fields — `timestep.py:25-26, 66-99`: every step splits `op_advect_q` and `op_solve_src`, with
`time_elapsed` that of its beginning. -/
def Decomp.ArrAslRun {N1 N2 : ℕ} (D : Decomp N1 N2 R) (g1 g2 Np1 Np2 Np3 Ns : ℕ) (kern : Kernel K) (x : AslRunIn R K) : List (Scheme × K) → K → ArrOp R K
  | [], _ => fun F F' => F' = F
  | (m, dt) :: l, t => fun F F' => ∃ G,
      m.arrSplit (fun dt' => D.ArrAdvectQ g1 g2 Np1 Np2 Np3 Ns kern x.q1 x.q2 (x.A1 t) (x.A2 t) dt')
        (fun dt' F G => ∀ r, arrSolveSrc x.instantaneous x.sourceEnabled (x.src t r) dt' (F r) = .ok (G r)) dt F G ∧
      D.ArrAslRun g1 g2 Np1 Np2 Np3 Ns kern x l (t ⊞ dt) G F'

end

end Bolt
