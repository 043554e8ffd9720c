import Verif.Spec.ASL
import Verif.Model.ASL
import Verif.Model.Temporal
import Mathlib.Algebra.Module.Pi

/-!
# Specification for C105: the run the whole grid would do
-/

namespace Bolt

variable {K : Type} [Field K] [LinearOrder K] [FloorRing K] {S P : Type} {N1 N2 : ℕ}

/-- The source function reads the distribution only at the position it is evaluated at (through moments, for instance), and every process
evaluates the same function of position, distribution over species and momenta, and flag. -/
def Decomp.SourceAgrees {R : Type} (D : Decomp N1 N2 R) (g1 g2 : ℕ)
    (src : K → ∀ r, Dist S P (D.Loc g1 g2 r) K → Bool → Dist S P (D.Loc g1 g2 r) K)
    (c : K → ZMod N1 × ZMod N2 → (S → P → K) → Bool → S → P → K) : Prop :=
  ∀ t r F b s p l, D.Interior g1 g2 r l → src t r F b s p l = c t (D.toGlob g1 g2 r l) (fun s p => F s p l) b s p

/-- One splitting step, seen from one position-independent recipe: `A dt'` advects for a time `dt'`, `C dt'` solves the source term for a
time `dt'`.  This is the textbook definition of the four schemes. -/
def splitFormula {V : Type} [AddCommGroup V] [Module K V] (A C : K → V → V) : Scheme → K → V → V
  | .lie, dt, f => C dt (A dt f)
  | .strang, dt, f => A (dt / 2) (C dt (A (dt / 2) f))
  | .swss, dt, f => (1 / 2 : K) • (C dt (A dt f) + A dt (C dt f))
  | .jia, dt, f => (2 / 3 : K) • (A (dt / 2) (C dt (A (dt / 2) f)) + C (dt / 2) (A dt (C (dt / 2) f)))
      - (1 / 3 : K) • ((1 / 2 : K) • (C dt (A dt f) + A dt (C dt f)))

/-- The source step at one position: replace by the equilibrium, or one step of the second-order Runge-Kutta method, or nothing. -/
def sourceFormula (instantaneous sourceEnabled : Bool) (c : K → ZMod N1 × ZMod N2 → (S → P → K) → Bool → S → P → K) (t dt : K)
    (f : Dist S P (ZMod N1 × ZMod N2) K) : Dist S P (ZMod N1 × ZMod N2) K := fun s p i =>
  let x : S → P → K := fun s p => f s p i
  if instantaneous = true then c t i x true s p
  else if sourceEnabled = true then x s p + dt * c t i (fun s p => x s p + dt / 2 * c t i x false s p) false s p
  else x s p

/-- The whole run on the whole grid. -/
def wholeAslRun (a1 a2 : K → S → P → ZMod N1 × ZMod N2 → K) (dq1 dq2 : K) (instantaneous sourceEnabled : Bool)
    (c : K → ZMod N1 × ZMod N2 → (S → P → K) → Bool → S → P → K) :
    List (Scheme × K) → K → Dist S P (ZMod N1 × ZMod N2) K → Dist S P (ZMod N1 × ZMod N2) K
  | [], _, f => f
  | (m, dt) :: l, t, f =>
      wholeAslRun a1 a2 dq1 dq2 instantaneous sourceEnabled c l (t + dt)
        (splitFormula (fun dt' => advected (fun s p i => a1 t s p i * dt' / dq1) (fun s p i => a2 t s p i * dt' / dq2))
          (sourceFormula instantaneous sourceEnabled c t) m dt f)

end Bolt
