import Verif.Model.Array
import Mathlib.Algebra.Field.Defs
import Mathlib.Order.Defs.LinearOrder
import Mathlib.Data.Int.Cast.Defs

/-!
# The physical system (`bolt/lib/physical_system.py`)
-/

namespace Bolt

/-- The kinds of attribute values told apart by the `isinstance` checks. -/
inductive AttrKind
  | str | function | module | float | other
  deriving DecidableEq, Repr

/-- A value the user gives for a momentum limit: a list (one entry per species) or anything else. -/
inductive PLimit (K : Type)
  | list (l : List K)
  | other

/-- `len(x)` of a momentum limit already known to be a list. -/
def PLimit.len {K : Type} : PLimit K → ℕ
  | .list l => l.length
  | .other => 0

/-- The entries of a momentum limit. -/
def PLimit.entries {K : Type} : PLimit K → List K
  | .list l => l
  | .other => []

/-- `type(x) == list` -/
def PLimit.isList {K : Type} : PLimit K → Bool
  | .list _ => true
  | .other => false

/-- The attributes of the user's `domain` module. -/
structure DomainIn (K : Type) where
  (Nq1 Nq2 Np1 Np2 Np3 Nghost : ℤ)
  (q1Start q1End q2Start q2End : K)
  (p1Start p1End p2Start p2End p3Start p3End : PLimit K)

/-- What the constructor is given.  `bcAttrs` etc. are `dir(module)` with the kinds of the values; `hybrid` is `none` when `params` has no
attribute `hybrid_model_enabled`; `params.charge` and `params.mass` are lists, of which only the lengths matter here. -/
structure SystemIn (K : Type) where
  (bcAttrs advAttrs momentAttrs : List (String × AttrKind))
  (initialConditionsIsModule sourceIsFunction : Bool)
  domain : DomainIn K
  (nCharge nMass : ℕ)
  hybrid : Option Bool
  (fieldsType fieldsSolver : String)

/-- What the solvers read from the object: number of species and grid spacings. -/
structure PhysSys (K : Type) where
  nSpecies : ℕ
  (dq1 dq2 : K)
  (dp1 dp2 dp3 : List K)

/-- Python's `a > b` on lists: decided at the first position where they differ, otherwise by length. -/
def pyListGt {K : Type} [LinearOrder K] : List K → List K → Bool
  | [], _ => false
  | _ :: _, [] => true
  | a :: as, b :: bs => if a = b then pyListGt as bs else decide (b < a)

/-- `str.upper()`, on ASCII letters. -/
def pyUpper (s : String) : List Char := s.toList.map Char.toUpper

/-- The type checks — `physical_system.py:69-110`. -/
def checkTypes {K : Type} (x : SystemIn K) : Except PyErr Unit :=
  if x.bcAttrs.any (fun a => !a.1.startsWith "__" && !decide (a.2 ∈ [AttrKind.str, .function, .module, .float])) then .error .typeError
  else if x.initialConditionsIsModule = false then .error .typeError
  else if x.sourceIsFunction = false then .error .typeError
  else if x.advAttrs.any (fun a => !a.1.startsWith "_" && !decide (a.2 ∈ [AttrKind.function, .module])) then .error .typeError
  else if x.momentAttrs.any (fun a => !a.1.startsWith "_" && !decide (a.2 ∈ [AttrKind.function, .module])) then .error .typeError
  else .ok ()

/-- The species checks — `physical_system.py:112-144`. -/
def checkSpecies {K : Type} (x : SystemIn K) : Except PyErr Unit :=
  let d := x.domain
  if x.nMass ≠ x.nCharge then .error .exception                                            -- 116-121
  else if x.hybrid = none ∨ (x.hybrid = some true ∧ x.nCharge ≠ 1) then .error .exception  -- 123-127
  else if !(d.p1Start.isList && d.p2Start.isList && d.p3Start.isList && d.p1End.isList && d.p2End.isList && d.p3End.isList) then
    .error .exception                                                                      -- 129-137
  else if ¬ (d.p1Start.len = d.p2Start.len ∧ d.p2Start.len = d.p3Start.len ∧ d.p3Start.len = d.p1End.len ∧ d.p1End.len = d.p2End.len
      ∧ d.p2End.len = d.p3End.len ∧ d.p3End.len = x.nCharge) then .error .exception        -- 139-144
  else .ok ()

/-- The checks of the domain — `physical_system.py:159-173`. -/
def checkDomain {K : Type} [LinearOrder K] (d : DomainIn K) : Except PyErr Unit :=
  if d.Nq1 < 0 ∨ d.Nq2 < 0 ∨ d.Np1 < 0 ∨ d.Np2 < 0 ∨ d.Np3 < 0 ∨ d.Nghost < 0 then .error .exception
  else if d.q1End < d.q1Start ∨ d.q2End < d.q2Start ∨ pyListGt d.p1Start.entries d.p1End.entries = true
      ∨ pyListGt d.p2Start.entries d.p2End.entries = true ∨ pyListGt d.p3Start.entries d.p3End.entries = true then .error .exception
  else .ok ()

/-- Python division of a float by an integer. -/
def pyDiv {K : Type} [Field K] (x : K) (n : ℤ) : Except PyErr K := if n = 0 then .error .zeroDivision else .ok (x / n)

/-- The loop over species computing momentum spacings — `physical_system.py:180-187`. -/
def dpLoop {K : Type} [Field K] (n : ℤ) (starts ends : List K) : Except PyErr (List K) :=
  (List.zip starts ends).mapM fun se => pyDiv (se.2 - se.1) n

/-- The field checks — `physical_system.py:218-230`. -/
def checkFields {K : Type} (x : SystemIn K) : Except PyErr Unit :=
  if x.fieldsType = "electrodynamic" ∧ pyUpper x.fieldsSolver ≠ ['F', 'D', 'T', 'D'] then .error .exception
  else if x.fieldsType = "electrostatic" ∧ ¬ (pyUpper x.fieldsSolver = ['S', 'N', 'E', 'S'] ∨ pyUpper x.fieldsSolver = ['F', 'F', 'T']) then
    .error .exception
  else .ok ()

/-- `advection_term.A_q` etc. — `physical_system.py:202-206`: reading an attribute the module does not have raises. -/
def checkAdvection {K : Type} (x : SystemIn K) : Except PyErr Unit :=
  if ["A_q", "C_q", "A_p", "C_p"].all fun n => x.advAttrs.any fun a => a.1 == n then .ok () else .error .attributeError

/-- `physical_system.__init__` — `physical_system.py:19-230` (the rest prints).  Simplification: resolutions are integers. -/
def physicalSystem {K : Type} [Field K] [LinearOrder K] (x : SystemIn K) : Except PyErr (PhysSys K) := do
  checkTypes x
  checkSpecies x
  checkDomain x.domain
  let d := x.domain
  let dq1 ← pyDiv (d.q1End - d.q1Start) d.Nq1                                              -- 176-177
  let dq2 ← pyDiv (d.q2End - d.q2Start) d.Nq2
  let dp1 ← dpLoop d.Np1 d.p1Start.entries d.p1End.entries
  let dp2 ← dpLoop d.Np2 d.p2Start.entries d.p2End.entries
  let dp3 ← dpLoop d.Np3 d.p3Start.entries d.p3End.entries
  checkAdvection x
  checkFields x
  pure ⟨x.nCharge, dq1, dq2, dp1, dp2, dp3⟩

end Bolt
