import Verif.Model.Decomp
import Mathlib.Data.Rat.Cast.Defs
import Mathlib.Data.Int.Log
import Mathlib.Algebra.Order.Round
import Mathlib.Data.Rat.Floor

/-!
# The finite-volume program with the arithmetic of the machine

The other modules compute with exact numbers.  Here the same Python statements are modelled with *uninterpreted* element
operations: `Machine K` is a set of machine numbers with the operations ArrayFire applies to array elements, about which nothing at
all is assumed (they may round, overflow, be non-associative, produce NaNs).  Every Python operator is one machine operation, in the
order in which the Python text applies them.  `exactMachine` interprets the operations by exact ones;
`C107_same_program` shows that this gives back the exact model.
-/

namespace Bolt

/-- The operations on array elements used by the finite-volume code (ArrayFire primitives; the same elementwise function for all
elements, on all processes). -/
class Machine (K : Type) where
  /-- `a + b` -/
  add : K → K → K
  /-- `a - b` -/
  sub : K → K → K
  /-- `a * b` -/
  mul : K → K → K
  /-- `a / b` -/
  div : K → K → K
  /-- `-a` -/
  neg : K → K
  /-- `af.abs` -/
  abs : K → K
  /-- `af.minof` -/
  minof : K → K → K
  /-- `af.sign` -/
  sign : K → K
  /-- `a < b` -/
  lt : K → K → Bool
  /-- `a <= b` -/
  le : K → K → Bool
  /-- the machine number a literal of the source stands for -/
  lit : ℚ → K

@[inherit_doc] scoped infixl:65 " ⊞ " => Machine.add
@[inherit_doc] scoped infixl:65 " ⊟ " => Machine.sub
@[inherit_doc] scoped infixl:70 " ⊠ " => Machine.mul
@[inherit_doc] scoped infixl:70 " ⊘ " => Machine.div

/-- A boolean array used as a number, as in `reconstruction/ppm.py:67-98`. -/
def Machine.ofBool {K : Type} [Machine K] (b : Bool) : K := if b then Machine.lit 1 else Machine.lit 0

namespace Mach

open Machine

variable {I K : Type} [AddCommGroup I] [Machine K]

/-- `minmod(x, y, z)` — `reconstruction/minmod.py:4-16`. -/
def minmod (x y z : K) : K :=
  let minOfAll := minof (minof (abs x) (abs y)) (abs z)
  let signx := lit 1 ⊟ lit 2 ⊠ sign x
  let signy := lit 1 ⊟ lit 2 ⊠ sign y
  let signz := lit 1 ⊟ lit 2 ⊠ sign z
  lit (1 / 4) ⊠ abs (signx ⊞ signy) ⊠ (signx ⊞ signz) ⊠ minOfAll

/-- `slope_minmod(input_array, axis)` — `reconstruction/minmod.py:18-62`. -/
def slopeMinmod (e : I) (x : I → K) : I → K := fun i =>
  let fPlus := afShift e (-1) x i
  let fMinus := afShift e 1 x i
  let forward := fPlus ⊟ x i
  let backward := x i ⊟ fMinus
  let central := backward ⊞ forward
  let left := lit 2 ⊠ backward
  let center := lit (1 / 2) ⊠ central
  let right := lit 2 ⊠ forward
  minmod left center right

/-- `reconstruct_minmod` — `reconstruction/minmod.py:64-71`. -/
def reconstructMinmod (e : I) (x : I → K) : (I → K) × (I → K) :=
  (fun i => x i ⊟ lit (1 / 2) ⊠ slopeMinmod e x i, fun i => x i ⊞ lit (1 / 2) ⊠ slopeMinmod e x i)

/-- The limited slopes `DQ1, DQ2, DQ3` — `reconstruction/ppm.py:67-80`. -/
def ppmDQ (D d d' : K) : K :=
  let condZeroSlope := ofBool (le (d' ⊠ d) (lit 0))
  let sign := ofBool (lt (lit 0) D) ⊠ lit 2 ⊟ lit 1
  (lit 1 ⊟ condZeroSlope) ⊠ sign ⊠ minof (abs D) (minof (abs d) (abs d'))

/-- `reconstruct_ppm` on the five stencil values — `reconstruction/ppm.py:57-100`. -/
def ppmCell (y0 y1 y2 y3 y4 : K) : K × K :=
  let d0 := lit 2 ⊠ (y1 ⊟ y0)
  let d1 := lit 2 ⊠ (y2 ⊟ y1)
  let d2 := lit 2 ⊠ (y3 ⊟ y2)
  let d3 := lit 2 ⊠ (y4 ⊟ y3)
  let D1 := lit (1 / 2) ⊠ (y2 ⊟ y0)
  let D2 := lit (1 / 2) ⊠ (y3 ⊟ y1)
  let D3 := lit (1 / 2) ⊠ (y4 ⊟ y2)
  let DQ1 := ppmDQ D1 d0 d1
  let DQ2 := ppmDQ D2 d1 d2
  let DQ3 := ppmDQ D3 d2 d3
  let L := lit (1 / 2) ⊠ (y2 ⊞ y1) ⊟ (DQ2 ⊟ DQ1) ⊘ lit 6
  let R := lit (1 / 2) ⊠ (y3 ⊞ y2) ⊟ (DQ3 ⊟ DQ2) ⊘ lit 6
  let corr1 := ofBool (le ((R ⊟ y2) ⊠ (y2 ⊟ L)) (lit 0))
  let qd := R ⊟ L
  let qe := lit 6 ⊠ (y2 ⊟ lit (1 / 2) ⊠ (R ⊞ L))
  let corr2 := ofBool (lt (qd ⊠ (qd ⊟ qe)) (lit 0))
  let corr3 := ofBool (lt (qd ⊠ (qd ⊞ qe)) (lit 0))
  let L := L ⊠ (lit 1 ⊟ corr1) ⊞ corr1 ⊠ y2
  let R := R ⊠ (lit 1 ⊟ corr1) ⊞ corr1 ⊠ y2
  let L := L ⊠ (lit 1 ⊟ corr2) ⊞ corr2 ⊠ (lit 3 ⊠ y2 ⊟ lit 2 ⊠ R)
  let R := R ⊠ corr2 ⊞ (lit 1 ⊟ corr2) ⊠ R ⊠ (lit 1 ⊟ corr3) ⊞ (lit 1 ⊟ corr2) ⊠ corr3 ⊠ (lit 3 ⊠ y2 ⊟ lit 2 ⊠ L)
  (L, R)

/-- `reconstruct_ppm(input_array, axis)` — `reconstruction/ppm.py:4-100`. -/
def reconstructPPM (e : I) (x : I → K) : (I → K) × (I → K) :=
  (fun i => (ppmCell (afShift e 2 x i) (afShift e 1 x i) (x i) (afShift e (-1) x i) (afShift e (-2) x i)).1,
   fun i => (ppmCell (afShift e 2 x i) (afShift e 1 x i) (x i) (afShift e (-1) x i) (afShift e (-2) x i)).2)

/-- Face values for a resolved method — `reconstruct.py:29-37`. -/
def reconFaces (m : Recon) (e : I) (x : I → K) : (I → K) × (I → K) :=
  match m with
  | .piecewiseConstant => (x, x)
  | .minmod => reconstructMinmod e x
  | .ppm => reconstructPPM e x

/-- The upwinded state at the left interface — `df_dt_fvm.py:58-64,79-80` and `275-286,298-300`, `riemann.py:8-58`. -/
def leftState (m : Recon) (e : I) (C x : I → K) : I → K :=
  let leftPlus := (reconFaces m e x).1
  let rightMinus := (reconFaces m e x).2
  let leftMinus := afShift e 1 rightMinus
  fun i => if lt (lit 0) (C i) then leftMinus i else leftPlus i

/-- Flux through the left interface — `df_dt_fvm.py:82-83,302-304`. -/
def leftFlux (m : Recon) (e : I) (C x : I → K) : I → K := fun i => C i ⊠ leftState m e C x i

/-- `right_flux - left_flux` — `df_dt_fvm.py:85-89` and `306-321`. -/
def fluxJump (m : Recon) (e : I) (C x : I → K) : I → K :=
  let left := leftFlux m e C x
  let right := afShift e (-1) left
  fun i => right i ⊟ left i

variable {S P Q : Type} [AddCommGroup P] [AddCommGroup Q]

/-- q-space part of the slope — `df_dt_fvm.py:88-89`: `- (right_flux - left_flux) / dq1 - (top_flux - bot_flux) / dq2` (the unary
minus is applied first). -/
def dfdtQ (ax : Axes P Q) (m : Recon) (dq1 dq2 : K) (C1 C2 f : Dist S P Q K) : Dist S P Q K :=
  fun s p q => neg (fluxJump m ax.q1 (C1 s p) (f s p) q) ⊘ dq1 ⊟ fluxJump m ax.q2 (C2 s p) (f s p) q ⊘ dq2

/-- `d_flux_p1_dp1` etc. — `df_dt_fvm.py:269-321`. -/
def dFluxP (m : Recon) (e : P) (dp : S → K) (C f : Dist S P Q K) : Dist S P Q K :=
  fun s p q => fluxJump m e (fun p => C s p q) (fun p => f s p q) p ⊠ (lit 1 ⊘ dp s)

/-- p-space part of the slope — `df_dt_fvm.py:323`. -/
def dfdtP (ax : Axes P Q) (m : Recon) (dp1 dp2 dp3 : S → K) (C1 C2 C3 f : Dist S P Q K) : Dist S P Q K :=
  fun s p q => neg (dFluxP m ax.p1 dp1 C1 f s p q ⊞ dFluxP m ax.p2 dp2 C2 f s p q ⊞ dFluxP m ax.p3 dp3 C3 f s p q)

/-- `df_dt_fvm(f, self)` — `df_dt_fvm.py:33-339` with the callback values in `cb`, as in `Bolt.dfdtFVM`. -/
def dfdtFVM (ax : Axes P Q) (cfg : FVMConfig S K) (cb : Callbacks S P Q K) (f : Dist S P Q K) :
    Except PyErr (Dist S P Q K) := do
  -- df_dt = 0; df_dt += ... (lines 54-97)
  let dfq : Dist S P Q K ←
    if cfg.solverMethodInQ = "FVM" then do
      let m ← reconMethod cfg.reconstructionInQ
      let dq : Dist S P Q K := fun s p q => lit 0 ⊞ dfdtQ ax m cfg.dq1 cfg.dq2 cb.Cq1 cb.Cq2 f s p q
      if cfg.sourceEnabled = true then
        pure fun s p q => dq s p q ⊞ cb.source f s p q
      else pure dq
    else pure fun _ _ _ => lit 0
  -- lines 99-323
  if cfg.solverMethodInP = "FVM" ∧ cfg.fieldsEnabled = true then do
    let m ← reconMethod cfg.reconstructionInP
    return fun s p q => dfq s p q ⊞ dfdtP ax m cfg.dp1 cfg.dp2 cfg.dp3 cb.Cp1 cb.Cp2 cb.Cp3 f s p q
  else return dfq

/-- `timestep_fvm(self, dt)` — `fvm_operator.py:6-35`, on the whole periodic grid (no ghost cells). -/
def timestepFVM (slope : Fin 2 → Dist S P Q K → Except PyErr (Dist S P Q K)) (dt : K) (f : Dist S P Q K) :
    Except PyErr (Dist S P Q K) := do
  let k0 ← slope 0 f
  let k1 ← slope 1 (fun s p q => f s p q ⊞ k0 s p q ⊠ (dt ⊘ lit 2))
  return fun s p q => f s p q ⊞ k1 s p q ⊠ dt

/-- Successive steps, as `Bolt.runFVM` (`op_fvm`, `fvm_operator.py:37-50`). -/
def runFVM (ax : Axes P Q) (cfg : FVMConfig S K) :
    List (K × (Fin 2 → Callbacks S P Q K)) → Dist S P Q K → Except PyErr (Dist S P Q K)
  | [], f => .ok f
  | (dt, cb) :: rest, f => do
    let f' ← timestepFVM (fun k => dfdtFVM ax cfg (cb k)) dt f
    runFVM ax cfg rest f'

variable {N1 N2 : ℕ} {R : Type} (D : Decomp N1 N2 R) (g1 g2 : ℕ)

/-- One `timestep_fvm` on all processes, as `Decomp.PeriodicStep` (`fvm_operator.py:6-35`, `communicate.py:8-38`). -/
def PeriodicStep (ax : P × P × P) (cfg : FVMConfig S K) (dt : K)
    (cb : Fin 2 → ∀ r, Callbacks S P (D.Loc g1 g2 r) K) (F F' : ∀ r, Dist S P (D.Loc g1 g2 r) K) : Prop :=
  ∃ (st0 st1 : ∀ r, Dist S P (D.Loc g1 g2 r) K) (k0 k1 : ∀ r, Dist S P (D.Loc g1 g2 r) K),
    let F0 := D.exchange g1 g2 .periodic .periodic st0 F
    (∀ r, dfdtFVM (D.locAxes g1 g2 r ax.1 ax.2.1 ax.2.2) cfg (cb 0 r) (F0 r) = .ok (k0 r)) ∧
    let Fh := D.exchange g1 g2 .periodic .periodic st1 (fun r s p l => F0 r s p l ⊞ k0 r s p l ⊠ (dt ⊘ lit 2))
    (∀ r, dfdtFVM (D.locAxes g1 g2 r ax.1 ax.2.1 ax.2.2) cfg (cb 1 r) (Fh r) = .ok (k1 r)) ∧
    F' = fun r s p l => F0 r s p l ⊞ k1 r s p l ⊠ dt

/-- Successive steps on all processes. -/
def PeriodicRun (ax : P × P × P) (cfg : FVMConfig S K) :
    List (K × (Fin 2 → ∀ r, Callbacks S P (D.Loc g1 g2 r) K)) →
    (∀ r, Dist S P (D.Loc g1 g2 r) K) → (∀ r, Dist S P (D.Loc g1 g2 r) K) → Prop
  | [], F, F' => F' = F
  | (dt, cb) :: rest, F, F' => ∃ G, PeriodicStep D g1 g2 ax cfg dt cb F G ∧ PeriodicRun ax cfg rest G F'

end Mach

/-- Exact arithmetic. -/
def exactMachine (K : Type) [Field K] [LinearOrder K] : Machine K where
  add a b := a + b
  sub a b := a - b
  mul a b := a * b
  div a b := a / b
  neg a := -a
  abs a := |a|
  minof a b := min a b
  sign a := afSign a
  lt a b := decide (a < b)
  le a b := decide (a ≤ b)
  lit q := (q : K)

/-- Correctly rounded arithmetic (as IEEE 754 prescribes): each operation returns the exact result rounded by `rnd`; comparisons, signs,
absolute values and minima are exact. -/
def roundedMachine {K : Type} [Field K] [LinearOrder K] (rnd : K → K) : Machine K where
  add a b := rnd (a + b)
  sub a b := rnd (a - b)
  mul a b := rnd (a * b)
  div a b := rnd (a / b)
  neg a := -a
  abs a := |a|
  minof a b := min a b
  sign a := afSign a
  lt a b := decide (a < b)
  le a b := decide (a ≤ b)
  lit q := rnd (q : K)

/-- Rounding to the nearest number with 53 significant binary digits: double precision (`af.Dtype.f64`, e.g.
`nonlinear_solver.py:140-141`) without overflow and underflow. Ties go up, not to even. -/
def rndDouble (x : ℚ) : ℚ :=
  round (x / 2 ^ (Int.log 2 |x| - 52)) * 2 ^ (Int.log 2 |x| - 52)

end Bolt
