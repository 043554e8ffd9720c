import Verif.Model.Layout
import Verif.Model.Decomp
import Verif.Model.Temporal
import Mathlib.Algebra.Order.Floor.Defs
import Mathlib.Algebra.Order.Ring.Defs

/-!
# Advective semi-Lagrangian method (`bolt/lib/nonlinear/semi_lagrangian/`)

`af.approx2` is modelled from ArrayFire's documented kernel: positions are in units of cells of the array, a position outside the array
gives `off_grid = 0`, and `BICUBIC_SPLINE` is cubic (Catmull-Rom) along axis 0 then along axis 1, with neighbours beyond the array
replaced by the nearest element inside it.
-/

namespace Bolt

section
variable {K : Type} [Field K] [LinearOrder K] [IsStrictOrderedRing K] [FloorRing K]

/-- ArrayFire's `cubicInterpFunc` with `spline = true`. -/
def cubicSpline (v0 v1 v2 v3 t : K) : K :=
  let a0 := -(1 / 2) * v0 + 3 / 2 * v1 - 3 / 2 * v2 + 1 / 2 * v3
  let a1 := v0 - 5 / 2 * v1 + 2 * v2 - 1 / 2 * v3
  let a2 := -(1 / 2) * v0 + 1 / 2 * v2
  let a3 := v1
  a0 * (t * t * t) + a1 * (t * t) + a2 * t + a3

/-- Interpolation along an axis of length `M`, with ArrayFire's treatment of neighbours beyond the ends. -/
def cubicAxis (M : ℕ) (w : ℤ → K) (u : K) : K :=
  let m := ⌊u⌋
  let i0 := if 0 ≤ m - 1 then m - 1 else m
  let i2 := if m + 1 < M then m + 1 else m
  let i3 := if m + 2 < M then m + 2 else i2
  cubicSpline (w i0) (w m) (w i2) (w i3) (u - m)

/-- `af.approx2(signal, x, y, af.INTERP.BICUBIC_SPLINE)` at one output point. -/
def approx2 (M1 M2 : ℕ) (v : ℤ → ℤ → K) (x y : K) : K :=
  if x < 0 ∨ y < 0 ∨ (M1 : K) < x + 1 ∨ (M2 : K) < y + 1 then 0
  else cubicAxis M2 (fun b => cubicAxis M1 (fun a => v a b) x) y

/-- The position scaling of `approx2` with `xp`: `(x - xp[0]) / (xp[1] - xp[0])`. -/
def scalePos (x xp0 xp1 : K) : K := (x - xp0) / (xp1 - xp0)

variable {S P : Type}

/-- `f_interp_2d` on one process — `interpolation_routines.py:9-58`.  `q` are the arrays `q1_center`, `q2_center`; `A1`, `A2` the values of
the callback `A_q` on the local arrays.  Simplification: both axes of the local array have at least two cells (the scaling reads the second
element of the coordinate arrays). -/
def fInterp2d {M1 M2 : ℕ} (q : Coords K) (A1 A2 : S → P → ZMod M1 × ZMod M2 → K) (dt : K) (f : Dist S P (ZMod M1 × ZMod M2) K) :
    Dist S P (ZMod M1 × ZMod M2) K := fun s p l =>
  let q1New := q.1 l.1.val l.2.val + -A1 s p l * dt
  let q2New := q.2 l.1.val l.2.val + -A2 s p l * dt
  approx2 M1 M2 (fun a b => f s p ((a : ZMod M1), (b : ZMod M2))) (scalePos q1New (q.1 0 0) (q.1 1 0)) (scalePos q2New (q.2 0 0) (q.2 0 1))

/-- `op_advect_q` on all processes of a periodic run — `asl_operators.py:20-37`: communicate (the boundary conditions do nothing more on a
periodic domain), interpolate.  `st` is the previous content of the local vectors. -/
def Decomp.opAdvectQ {N1 N2 : ℕ} {R : Type} (D : Decomp N1 N2 R) (g1 g2 : ℕ) (q1Start q2Start dq1 dq2 : K)
    (A1 A2 : ∀ r, S → P → D.Loc g1 g2 r → K) (dt : K) (st F : ∀ r, Dist S P (D.Loc g1 g2 r) K) : ∀ r, Dist S P (D.Loc g1 g2 r) K :=
  fun r => fInterp2d (D.coords g1 g2 q1Start q2Start dq1 dq2 r).2.2.2 (A1 r) (A2 r) dt (D.exchange g1 g2 .periodic .periodic st F r)

/-- Momentum indices. -/
abbrev AslPIdx (Np1 Np2 Np3 : ℕ) : Type := ZMod Np1 × ZMod Np2 × ZMod Np3

/-- `f_interp_p_3d` — `interpolation_routines.py:60-195`.  `A1` (evaluated at line 84) is not used; `A2`, `A3` are the second component of
`A_p` on the bottom faces and the third on the back faces.  The reorderings and expansions are identities on index functions (C37).
Simplification: starts and cell sizes are read per species.  The source's broadcasts do so for one species only; `Model/AslArrays` has the array program and C122 what
happens with more. -/
def fInterpP3d {Q : Type} {Np1 Np2 Np3 : ℕ} (p2Start p3Start dp2 dp3 : S → K) (_A1 A2 A3 : Dist S (AslPIdx Np1 Np2 Np3) Q K) (dt : K)
    (f : Dist S (AslPIdx Np1 Np2 Np3) Q K) : Dist S (AslPIdx Np1 Np2 Np3) Q K := fun s p q =>
  let p2Center := p2Start s + (1 / 2 + (p.2.1.val : K)) * dp2 s
  let p3Center := p3Start s + (1 / 2 + (p.2.2.val : K)) * dp3 s
  let p2New := p2Center + -dt * A2 s p q
  let p3New := p3Center + -dt * A3 s p q
  let p2Interp := (p2New + -(p2Start s + 1 / 2 * dp2 s)) * (1 / dp2 s)
  let p3Interp := (p3New + -(p3Start s + 1 / 2 * dp3 s)) * (1 / dp3 s)
  approx2 Np2 Np3 (fun a b => f s (p.1, (a : ZMod Np2), (b : ZMod Np3)) q) p2Interp p3Interp

end

section
variable {K V : Type} [Field K] [AddCommGroup V] [Module K V]

/-- `op_solve_src` — `asl_operators.py:40-83`.  `source t f flag` is the callback; without the last argument its flag is `False`. -/
def opSolveSrc (instantaneous sourceEnabled : Bool) (source : K → V → Bool → V) (t dt : K) (f : V) : V :=
  let f := if instantaneous = true then source t f true else f
  if sourceEnabled = true ∧ instantaneous ≠ true then integratorRK2 (fun g => source t g false) f dt else f

end

/-- The control flow of `op_fields` — `asl_operators.py:85-239` — on an abstract solver state.  In the branch without the hybrid model, line
227 reads the undefined name `f`. -/
def aslOpFields {σ : Type} (fieldsSolver : String) (hybrid : Bool) (poisson hybridFdtd interpP : σ → Except PyErr σ) (s : σ) : Except PyErr σ := do
  let s ← (if fieldsSolver = "electrostatic" then poisson s else pure s)
  let s ← (if fieldsSolver = "fdtd" then (if hybrid = true then hybridFdtd s else .error .nameError) else pure s)
  interpP s

end Bolt
