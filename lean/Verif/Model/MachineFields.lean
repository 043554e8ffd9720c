import Verif.Model.MachineArith
import Verif.Model.CoupledDecomp

/-!
# The field solver with the arithmetic of the machine

`fields/electrodynamic/fdtd_explicit.py` (kinetic electrons) with uninterpreted element operations, as in `Model/MachineArith`: every Python
operator is one machine operation, in the order in which the Python text applies them.  The scalars `dt`, `eps`, `mu`, `dq1`, `dq2` are Python
floats and obey the same arithmetic.
-/

namespace Bolt
namespace Mach

open Machine

variable {Q K : Type} [AddCommGroup Q] [Machine K]

/-- `curlB_1` — `fdtd_explicit.py:47` -/
def curlB1 (pr : FieldParams Q K) (F : EM Q K) : Q → K := fun i => (afShift pr.q2 (-1) F.B3 i ⊟ F.B3 i) ⊘ pr.dq2

/-- `curlB_2` — `fdtd_explicit.py:49` (the unary minus is applied before the division). -/
def curlB2 (pr : FieldParams Q K) (F : EM Q K) : Q → K := fun i => neg (afShift pr.q1 (-1) F.B3 i ⊟ F.B3 i) ⊘ pr.dq1

/-- `curlB_3` — `fdtd_explicit.py:51` -/
def curlB3 (pr : FieldParams Q K) (F : EM Q K) : Q → K :=
  fun i => (afShift pr.q1 (-1) F.B2 i ⊟ F.B2 i) ⊘ pr.dq1 ⊟ (afShift pr.q2 (-1) F.B1 i ⊟ F.B1 i) ⊘ pr.dq2

/-- `curlE_1` — `fdtd_explicit.py:118` -/
def curlE1 (pr : FieldParams Q K) (F : EM Q K) : Q → K := fun i => (F.E3 i ⊟ afShift pr.q2 1 F.E3 i) ⊘ pr.dq2

/-- `curlE_2` — `fdtd_explicit.py:120` -/
def curlE2 (pr : FieldParams Q K) (F : EM Q K) : Q → K := fun i => neg (F.E3 i ⊟ afShift pr.q1 1 F.E3 i) ⊘ pr.dq1

/-- `curlE_3` — `fdtd_explicit.py:122` -/
def curlE3 (pr : FieldParams Q K) (F : EM Q K) : Q → K :=
  fun i => (F.E2 i ⊟ afShift pr.q1 1 F.E2 i) ⊘ pr.dq1 ⊟ (F.E1 i ⊟ afShift pr.q2 1 F.E1 i) ⊘ pr.dq2

/-- `x += (dt / (mu * eps)) * curlB - J * dt / eps` — `fdtd_explicit.py:62-66`. -/
def pushE (pr : FieldParams Q K) (dt x curl J : K) : K := x ⊞ (dt ⊘ (pr.mu ⊠ pr.eps) ⊠ curl ⊟ J ⊠ dt ⊘ pr.eps)

/-- `fdtd_evolve_E(self, dt)` with `hybrid_model_enabled = False` — `fdtd_explicit.py:9-82`. -/
def evolveE (pr : FieldParams Q K) (J : Currents Q K) (dt : K) (F : EM Q K) : EM Q K :=
  { F with
    E1 := fun i => pushE pr dt (F.E1 i) (curlB1 pr F i) (J.J1 i)
    E2 := fun i => pushE pr dt (F.E2 i) (curlB2 pr F i) (J.J2 i)
    E3 := fun i => pushE pr dt (F.E3 i) (curlB3 pr F i) (J.J3 i) }

/-- `fdtd_evolve_B(self, dt)` — `fdtd_explicit.py:84-138`: `x += -dt * curlE`. -/
def evolveB (pr : FieldParams Q K) (dt : K) (F : EM Q K) : EM Q K :=
  { F with
    B1 := fun i => F.B1 i ⊞ neg dt ⊠ curlE1 pr F i
    B2 := fun i => F.B2 i ⊞ neg dt ⊠ curlE2 pr F i
    B3 := fun i => F.B3 i ⊞ neg dt ⊠ curlE3 pr F i }

/-- `fdtd(self, dt)` on the whole periodic grid — `fdtd_explicit.py:141-177` (no ghost zones, so that the exchanges have nothing to do). -/
def fdtd (pr : FieldParams Q K) (J : Currents Q K) (dt : K) (F : EM Q K) : EM Q K := evolveB pr dt (evolveE pr J dt F)

/-- Successive calls of `fdtd`, each with its step size and currents. -/
def runFDTD (pr : FieldParams Q K) : List (K × Currents Q K) → EM Q K → EM Q K
  | [], F => F
  | (dt, J) :: rest, F => runFDTD pr rest (fdtd pr J dt F)

section processes
variable {N1 N2 : ℕ} {R : Type} (D : Decomp N1 N2 R) (g1 g2 : ℕ)

/-- `fdtd(self, dt)` on every process, as `Decomp.FdtdStep` — `fdtd_explicit.py:141-177`, `communicate.py:40-77`. -/
def FdtdStep (o : BCOptions) (user : ∀ r, D.LocFieldBCs g1 g2 r K) (pr : ∀ r, FieldParams (D.Loc g1 g2 r) K)
    (J : ∀ r, Currents (D.Loc g1 g2 r) K) (dt : K) (Y Y' : ∀ r, EM (D.Loc g1 g2 r) K) : Prop :=
  ∃ Y0 Y2 : ∀ r, EM (D.Loc g1 g2 r) K,
    D.SyncedFields g1 g2 o user Y Y0 ∧
    D.SyncedFields g1 g2 o user (fun r => evolveE (pr r) (J r) dt (Y0 r)) Y2 ∧
    ∀ r, Y' r = evolveB (pr r) dt (Y2 r)

/-- Successive calls of `fdtd` on every process. -/
def FdtdRun (o : BCOptions) (user : ∀ r, D.LocFieldBCs g1 g2 r K) (pr : ∀ r, FieldParams (D.Loc g1 g2 r) K) :
    List (K × ∀ r, Currents (D.Loc g1 g2 r) K) → (∀ r, EM (D.Loc g1 g2 r) K) → (∀ r, EM (D.Loc g1 g2 r) K) → Prop
  | [], Y, Y' => Y' = Y
  | (dt, J) :: rest, Y, Y' => ∃ Z, FdtdStep D g1 g2 o user pr J dt Y Z ∧ FdtdRun o user pr rest Z Y'

end processes

end Mach
end Bolt
