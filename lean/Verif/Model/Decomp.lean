import Verif.Model.FVM
import Mathlib.Data.ZMod.Basic

/-!
# Domain decomposition, ghost zones and communication
(`bolt/lib/nonlinear/nonlinear_solver.py`, `communicate.py`, `utils/af_petsc_conversion.py`)

The position grid has `N1 × N2` cells.  Each process holds a rectangle of cells surrounded by `g1` (`g2`) ghost cells on
every side in an array of shape `(n1 + 2 g1) × (n2 + 2 g2)`.  `af.shift` wraps around in this *local* array, so a local
position index is an element of `ZMod (n1 + 2 g1) × ZMod (n2 + 2 g2)`.
-/

namespace Bolt

/-- A partition of the `N1 × N2` grid into rectangles, one per process, as produced by `PETSc.DMDA`
(`nonlinear_solver.py:265-280`; `getCorners` at line 331 returns `start` and `n`). Which partition PETSc chooses is not
modelled: the theorems hold for all of them. -/
structure Decomp (N1 N2 : ℕ) (R : Type) where
  start1 : R → ℕ
  start2 : R → ℕ
  n1 : R → ℕ
  n2 : R → ℕ
  owner : ZMod N1 × ZMod N2 → R
  pos1 : ∀ r, 0 < n1 r
  pos2 : ∀ r, 0 < n2 r
  fits1 : ∀ r, start1 r + n1 r ≤ N1
  fits2 : ∀ r, start2 r + n2 r ≤ N2
  owner_iff : ∀ i r, owner i = r ↔
    (start1 r ≤ i.1.val ∧ i.1.val < start1 r + n1 r) ∧ (start2 r ≤ i.2.val ∧ i.2.val < start2 r + n2 r)

/-- Signed grid coordinate of the local index `a` along one axis: `start + a - g` (negative, or `≥ N`, in ghost zones
outside the domain). -/
def globCoord (start g : ℕ) {M : ℕ} (a : ZMod M) : ℤ := (start : ℤ) + a.val - g

/-- Local index of the owned cell with global index `i`: the bulk starts at `i_q1_start = N_g`
(`nonlinear_solver.py:321-328`, `af_petsc_conversion.py:6-18`). -/
def toLoc1 (M start g : ℕ) {N : ℕ} (i : ZMod N) : ZMod M := ((i.val : ℤ) - start + g : ℤ)

namespace Decomp

variable {N1 N2 : ℕ} {R : Type} (D : Decomp N1 N2 R) (g1 g2 : ℕ)

/-- Local index set of process `r`: `N_q1_local_with_Ng × N_q2_local_with_Ng` (`nonlinear_solver.py:340-341`). -/
abbrev Loc (r : R) : Type := ZMod (D.n1 r + 2 * g1) × ZMod (D.n2 r + 2 * g2)

/-- Global index (modulo the periods) of a local index. -/
def toGlob (r : R) (l : D.Loc g1 g2 r) : ZMod N1 × ZMod N2 :=
  ((globCoord (D.start1 r) g1 l.1 : ℤ), (globCoord (D.start2 r) g2 l.2 : ℤ))

/-- Local index of a global cell on process `r`. -/
def toLoc (r : R) (i : ZMod N1 × ZMod N2) : D.Loc g1 g2 r :=
  (toLoc1 _ (D.start1 r) g1 i.1, toLoc1 _ (D.start2 r) g2 i.2)

/-- The bulk slice `[N_g : -N_g]` of the local array (`af_petsc_conversion.py:12-16`). -/
def Interior (r : R) (l : D.Loc g1 g2 r) : Prop :=
  (g1 ≤ l.1.val ∧ l.1.val < g1 + D.n1 r) ∧ (g2 ≤ l.2.val ∧ l.2.val < g2 + D.n2 r)

instance (r : R) (l : D.Loc g1 g2 r) : Decidable (D.Interior g1 g2 r l) := by
  unfold Interior; infer_instance

/-- Unit steps in the local array. -/
def locAxes {P : Type} (r : R) (p1 p2 p3 : P) : Axes P (D.Loc g1 g2 r) := ⟨p1, p2, p3, (1, 0), (0, 1)⟩

variable {S P K : Type}

/-- `af_to_petsc_glob_array` on every process — `af_petsc_conversion.py:3-20`, `communicate.py:20`: the global vector
holds the bulk of every local array. -/
def assemble (F : ∀ r, Dist S P (D.Loc g1 g2 r) K) : Dist S P (ZMod N1 × ZMod N2) K :=
  fun s p i => F (D.owner i) s p (D.toLoc g1 g2 (D.owner i) i)

/-- `boundary_type` of the DMDA along an axis — `nonlinear_solver.py:177-201`. -/
inductive PetscBC
  | none | ghosted | periodic
  deriving DecidableEq

/-- Does `globalToLocal` fill a cell with this signed coordinate along an axis of `N` cells? -/
def fills (bc : PetscBC) (N : ℕ) (c : ℤ) : Prop := bc = .periodic ∨ (0 ≤ c ∧ c < N)

instance (bc : PetscBC) (N : ℕ) (c : ℤ) : Decidable (fills bc N c) := by unfold fills; infer_instance

/-- `communicate_f` — `communicate.py:8-38`: assemble, `globalToLocal` (box stencil: corners included), read back.
Ghost cells outside a non-periodic domain are not written by `globalToLocal`; they hold what the local vector
held before (`stale`). `globalToLocal` itself is PETSc's and is modelled by its documented effect. -/
def exchange (bc1 bc2 : PetscBC) (stale F : ∀ r, Dist S P (D.Loc g1 g2 r) K) : ∀ r, Dist S P (D.Loc g1 g2 r) K :=
  fun r s p l =>
    if fills bc1 N1 (globCoord (D.start1 r) g1 l.1) ∧ fills bc2 N2 (globCoord (D.start2 r) g2 l.2) then
      D.assemble g1 g2 F s p (D.toGlob g1 g2 r l)
    else stale r s p l

variable [Field K] [LinearOrder K] [AddCommGroup P]

/-- One `timestep_fvm` on all processes — `fvm_operator.py:6-35`: communicate (and boundary conditions: on a periodic domain
these do nothing more, `boundaries.py:454-457` etc.), slope, half step, communicate, slope, full step.  `cb k r` are the
callback values of process `r` in stage `k`, evaluated on its local coordinate arrays.  Relational: the step happens if
every process computes its slopes without raising. -/
def PeriodicStep (ax : P × P × P) (cfg : FVMConfig S K) (dt : K)
    (cb : Fin 2 → ∀ r, Callbacks S P (D.Loc g1 g2 r) K) (F F' : ∀ r, Dist S P (D.Loc g1 g2 r) K) : Prop :=
  ∃ (st0 st1 : ∀ r, Dist S P (D.Loc g1 g2 r) K) (k0 k1 : ∀ r, Dist S P (D.Loc g1 g2 r) K),
    let F0 := D.exchange g1 g2 .periodic .periodic st0 F
    (∀ r, dfdtFVM (D.locAxes g1 g2 r ax.1 ax.2.1 ax.2.2) cfg (cb 0 r) (F0 r) = .ok (k0 r)) ∧
    let Fh := D.exchange g1 g2 .periodic .periodic st1 (fun r s p l => F0 r s p l + k0 r s p l * (dt / 2))
    (∀ r, dfdtFVM (D.locAxes g1 g2 r ax.1 ax.2.1 ax.2.2) cfg (cb 1 r) (Fh r) = .ok (k1 r)) ∧
    F' = fun r s p l => F0 r s p l + k1 r s p l * dt

/-- Successive steps on all processes. -/
def PeriodicRun (ax : P × P × P) (cfg : FVMConfig S K) :
    List (K × (Fin 2 → ∀ r, Callbacks S P (D.Loc g1 g2 r) K)) →
    (∀ r, Dist S P (D.Loc g1 g2 r) K) → (∀ r, Dist S P (D.Loc g1 g2 r) K) → Prop
  | [], F, F' => F' = F
  | (dt, cb) :: rest, F, F' => ∃ G, D.PeriodicStep g1 g2 ax cfg dt cb F G ∧ PeriodicRun ax cfg rest G F'

end Decomp

end Bolt
