import Verif.Model.ArrayProgram
import Verif.Model.Linear

/-!
# Masses, charges and momentum spacings: one number per species

`params.mass` and `params.charge` are given as lists; the first solver that is built replaces them, in the user's `params` module, by `(1, N_s)` arrays.  Momentum
spacings are lists in the physical system and `(1, N_s)` arrays in the solvers.
-/

namespace Bolt

/-- What `params.mass` or `params.charge` may be. -/
inductive SpeciesVal (K : Type)
  | num (x : K)
  | list (l : List K)
  | arr (a : AfArray K)

/-- The two entries of the user's `params` module; solvers replace them. -/
structure SpeciesParams (K : Type) where
  (mass charge : SpeciesVal K)

section
variable {K : Type}

/-- `len(x)`; for an `af.Array` the number of elements. -/
def SpeciesVal.len : SpeciesVal K → Except PyErr ℕ
  | .num _ => .error .typeError
  | .list l => .ok l.length
  | .arr a => .ok a.size

/-- `x[i]` as the right-hand side of an assignment to one element; a row of an array with more than one element does not fit. -/
def SpeciesVal.entry : SpeciesVal K → ℕ → Except PyErr K
  | .num _, _ => .error .typeError
  | .list l, i => match l[i]? with
    | some x => .ok x
    | none => .error .indexError
  | .arr a, i => if i < a.d0 ∧ a.d1 * a.d2 * a.d3 = 1 then .ok (a.get i 0 0 0) else .error .exception

/-- `a[0, i] = x`. -/
def AfArray.setEntry (a : AfArray K) (i : ℕ) (x : K) : AfArray K :=
  AfArray.ofFn a.d0 a.d1 a.d2 a.d3 fun r j k l => if r = 0 ∧ j = i ∧ k = 0 ∧ l = 0 then x else a.get r j k l

/-- Number of species, and the check — `physical_system.py:112-121`. -/
def systemSpecies (p : SpeciesParams K) : Except PyErr ℕ := do
  let n ← p.charge.len
  match p.mass.len with
  | .ok m => if m = n then .ok n else .error .exception
  | .error _ => .error .exception

/-- One pass of the loop `for i in range(N_s)` — `nonlinear_solver.py:143-145`, `linear_solver.py:98-100`.  The state is what the two arrays contain; an
exception leaves the arrays as they are at that moment. -/
def fillStep (mass : List K) (charge : SpeciesVal K) (st : (AfArray K × AfArray K) × Except PyErr Unit) (i : ℕ) :
    (AfArray K × AfArray K) × Except PyErr Unit :=
  match st.2 with
  | .error _ => st
  | .ok _ => match (SpeciesVal.list mass).entry i with
    | .error e => (st.1, .error e)
    | .ok x => match charge.entry i with
      | .error e => ((st.1.1.setEntry i x, st.1.2), .error e)
      | .ok y => ((st.1.1.setEntry i x, st.1.2.setEntry i y), .ok ())

/-- The conversion — `nonlinear_solver.py:132-145`, `linear_solver.py:88-100`: the new `params` and the outcome. -/
def convertSpecies [Zero K] (n : ℕ) (p : SpeciesParams K) : SpeciesParams K × Except PyErr Unit :=
  match p.mass with
  | .list mass =>
    match p.charge with
    | .num _ => (p, .error .attributeError)                     -- a number has no method copy
    | charge =>
      let z : AfArray K := AfArray.ofFn 1 n 1 1 fun _ _ _ _ => 0
      let r := (List.range n).foldl (fillStep mass charge) ((z, z), .ok ())
      (⟨.arr r.1.1, .arr r.1.2⟩, r.2)
  | _ => (p, .ok ())

/-- What a user builds from one `params` module: physical systems and solvers. -/
inductive Build
  | system
  | nonlinear
  | linear
deriving DecidableEq

/-- The `params` module and the number of species stored in the latest physical system. -/
structure Session (K : Type) where
  params : SpeciesParams K
  system : Option ℕ

/-- Building one object, as far as masses and charges are concerned: the attribute `N_species` of the new object, and the session after it.  The nonlinear solver
takes `N_species` from the physical system (`nonlinear_solver.py:130`), the linear solver counts masses (`linear_solver.py:86`). -/
def build [Zero K] (s : Session K) : Build → Except PyErr (ℕ × Session K)
  | .system => do
    let n ← systemSpecies s.params
    .ok (n, { s with system := some n })
  | .nonlinear => match s.system with
    | none => .error .nameError
    | some n => match convertSpecies n s.params with
      | (_, .error e) => .error e
      | (p, .ok _) => .ok (n, { s with params := p })
  | .linear => match s.system with
    | none => .error .nameError
    | some _ => do
      let n ← s.params.mass.len
      match convertSpecies n s.params with
      | (_, .error e) => .error e
      | (p, .ok _) => .ok (n, { s with params := p })

/-- Building several objects, one after the other. -/
def buildAll [Zero K] (s : Session K) : List Build → Except PyErr (List ℕ × Session K)
  | [] => .ok ([], s)
  | b :: rest => do
    let r ← build s b
    let q ← buildAll r.2 rest
    .ok (r.1 :: q.1, q.2)

/-- `af.moddims(af.to_array(x), 1, self.N_species)` for a list `x` — `nonlinear_solver.py:378-389`, `linear_solver.py:171-173`. -/
def speciesArray [Zero K] (l : List K) (n : ℕ) : PyExpr K :=
  Except.map PyVal.arr ((⟨l.length, 1, 1, 1, fun i => l.getD i 0⟩ : AfArray K).moddims 1 n 1 1)

end

section
open PyExpr
variable {K : Type} [Machine K]

/-- `ddelta_f_dp1` (`axis = 0`), `ddelta_f_dp2`, `ddelta_f_dp3` on arrays — `df_hat_dt.py:99-135`. -/
def arrDdp (z : GridSizes) (axis : Fin 4) (dp f : PyExpr K) : PyExpr K :=
  let f_hat_p_expanded := toP z f
  toQ z (multiply [-f_hat_p_expanded.shiftAlong axis (-2) + const 8 * f_hat_p_expanded.shiftAlong axis (-1) + f_hat_p_expanded.shiftAlong axis 2
    - const 8 * f_hat_p_expanded.shiftAlong axis 1, const 1 / (const 12 * dp)])

/-- Complex arithmetic (exact), for the linear solver's arrays; the comparisons are not used there. -/
@[reducible] noncomputable def complexMachine : Machine ℂ where
  add := (· + ·)
  sub := (· - ·)
  mul := (· * ·)
  div := (· / ·)
  neg := (- ·)
  abs x := x
  minof x _ := x
  sign x := x
  lt _ _ := false
  le _ _ := false
  lit q := q

end
end Bolt
