import Verif.Model.ArrayProgram
import Verif.Model.Boundaries

/-!
# The boundary routines of the distribution function on blocks of memory

`bolt/lib/nonlinear/boundaries.py` once more (`Model/Boundaries` states its effect cell by cell), now as the slices, assignments, flips, reshapes, joins, selections
and tilings of `af.Array`s the source consists of.  Slices with a negative bound `-N_g` are modelled for `N_g > 0`.
-/

namespace Bolt

open Machine

namespace AfArray
variable {K : Type}

/-- Length of an axis. -/
def dim (a : AfArray K) (axis : Fin 4) : ℕ := if axis = 0 then a.d0 else if axis = 1 then a.d1 else if axis = 2 then a.d2 else a.d3

/-- `a[lo : lo + n]` along `axis`; ArrayFire rejects a range that leaves the array. -/
def cut (a : AfArray K) (axis : Fin 4) (lo n : ℕ) : Except PyErr (AfArray K) :=
  if lo + n ≤ a.dim axis then
    .ok (ofFn (if axis = 0 then n else a.d0) (if axis = 1 then n else a.d1) (if axis = 2 then n else a.d2) (if axis = 3 then n else a.d3) fun i j k l =>
      a.get (if axis = 0 then lo + i else i) (if axis = 1 then lo + j else j) (if axis = 2 then lo + k else k) (if axis = 3 then lo + l else l))
  else .error .exception

/-- `af.flip(a, axis)`. -/
def flip (a : AfArray K) (axis : Fin 4) : AfArray K :=
  ofFn a.d0 a.d1 a.d2 a.d3 fun i j k l =>
    a.get (if axis = 0 then a.d0 - 1 - i else i) (if axis = 1 then a.d1 - 1 - j else j) (if axis = 2 then a.d2 - 1 - k else k)
      (if axis = 3 then a.d3 - 1 - l else l)

/-- `a[lo : lo + n] = b` along `axis`: the array afterwards; ArrayFire rejects a range that leaves the array and a right-hand side of another shape. -/
def put (a : AfArray K) (axis : Fin 4) (lo n : ℕ) (b : AfArray K) : Except PyErr (AfArray K) :=
  if lo + n ≤ a.dim axis ∧ b.d0 = (if axis = 0 then n else a.d0) ∧ b.d1 = (if axis = 1 then n else a.d1) ∧ b.d2 = (if axis = 2 then n else a.d2) ∧
      b.d3 = (if axis = 3 then n else a.d3) then
    .ok (ofFn a.d0 a.d1 a.d2 a.d3 fun i j k l =>
      let x := if axis = 0 then i else if axis = 1 then j else if axis = 2 then k else l
      if lo ≤ x ∧ x < lo + n then
        b.get (if axis = 0 then i - lo else i) (if axis = 1 then j - lo else j) (if axis = 2 then k - lo else k) (if axis = 3 then l - lo else l)
      else a.get i j k l)
  else .error .exception

end AfArray

/-- The axis of `self.f` normal to a wall. -/
def Wall.axis : Wall → Fin 4
  | .left => 2
  | .right => 2
  | .bottom => 3
  | .top => 3

/-- First index of the slice `:N_g` (left, bottom) or `-N_g:` (right, top) of an axis of length `M`. -/
def Wall.slabLo (w : Wall) (M g : ℕ) : ℕ :=
  match w with
  | .left => 0
  | .right => M - g
  | .bottom => 0
  | .top => M - g

/-- First index of the slice `N_g:2*N_g` (left, bottom) or `-2*N_g:-N_g` (right, top). -/
def Wall.sourceLo (w : Wall) (M g : ℕ) : ℕ :=
  match w with
  | .left => g
  | .right => M - 2 * g
  | .bottom => g
  | .top => M - 2 * g

section
variable {K : Type}

/-- `self.f[slab] = b[slab]` for an array `b` — the assignments of `boundaries.py:200-220, 251-255` etc. -/
def arrSetSlab (g : ℕ) (w : Wall) (f b : AfArray K) : Except PyErr (AfArray K) := do
  let y ← b.cut w.axis (w.slabLo (b.dim w.axis) g) g
  f.put w.axis (w.slabLo (f.dim w.axis) g) g y

/-- `self.f[:, :, :N_g] = af.flip(self.f[:, :, N_g:2 * N_g], 2)` and its counterparts — `boundaries.py:245, 262, 279, 296` and `331, 356, 381, 398`. -/
def arrMirrorSpace (g : ℕ) (w : Wall) (f : AfArray K) : Except PyErr (AfArray K) := do
  let y ← f.cut w.axis (w.sourceLo (f.dim w.axis) g) g
  f.put w.axis (w.slabLo (f.dim w.axis) g) g (y.flip w.axis)

/-- `self._convert_to_q_expanded(af.flip(self._convert_to_p_expanded(self.f), axis))`. -/
def arrFlipP (z : GridSizes) (axis : Fin 4) (f : AfArray K) : Except PyErr (AfArray K) := do
  let p ← convertToPExpanded z f
  convertToQExpanded z (p.flip axis)

/-- `apply_mirror_bcs_f_cartesian(self, boundary)` — `boundaries.py:227-311`. -/
def arrMirrorCartesian (z : GridSizes) (g : ℕ) (w : Wall) (f : AfArray K) : Except PyErr (AfArray K) := do
  let f ← arrMirrorSpace g w f
  let flipped ← match w with
    | .left => arrFlipP z 0 f
    | .right => arrFlipP z 0 f
    | .bottom => arrFlipP z 1 f
    | .top => arrFlipP z 1 f
  arrSetSlab g w f flipped

/-- The two halves of the angle axis flipped and joined — `boundaries.py:340-349, 365-374`.  ArrayFire turns the float bound `N_theta/2` of the slices into sequences of
`⌊N_theta/2⌋` indices. -/
def arrFlipHalves (z : GridSizes) (f : AfArray K) : Except PyErr (AfArray K) := do
  let N_theta := z.Np2
  let p ← convertToPExpanded z f
  let tmp1 ← p.cut 1 0 (N_theta / 2)
  let tmp1 := tmp1.flip 1
  let tmp2 ← p.cut 1 (N_theta / 2) (N_theta / 2)
  let tmp2 := tmp2.flip 1
  let tmp ← tmp1.join1 tmp2
  convertToQExpanded z tmp

/-- `apply_mirror_bcs_f_polar2D(self, boundary)` — `boundaries.py:313-413`. -/
def arrMirrorPolar (z : GridSizes) (g : ℕ) (w : Wall) (f : AfArray K) : Except PyErr (AfArray K) := do
  let f ← arrMirrorSpace g w f
  let flipped ← match w with
    | .left => arrFlipHalves z f
    | .right => arrFlipHalves z f
    | .bottom => arrFlipP z 1 f
    | .top => arrFlipP z 1 f
  arrSetSlab g w f flipped

/-- What the boundary routines read from the solver of one process: `boundaries.py:16-24, 157-196, 425-428`. -/
structure ArrBCEnv (K : Type) where
  z : GridSizes
  /-- `self.N_ghost` -/
  g : ℕ
  name : Wall → String
  /-- `params.p_space_grid` -/
  pGrid : String
  solverMethodInQ : String
  (start1 start2 nLocal1 nLocal2 N1 N2 : ℕ)
  /-- what `_C_q` and `_A_q` return at the cell centres -/
  (Cq1 Cq2 Aq1 Aq2 : PyExpr K)
  /-- the user's `f_left`, `f_right`, `f_bottom`, `f_top`, which are handed `self.f`; they return an array or a number -/
  user : Wall → AfArray K → PyExpr K
  /-- `self.f` interpolated at the sheared coordinates, of which the slab is used; any function here; the code's own (which interpolates the slab only) is `ArrShearingF` of `Model/ShearArrays` -/
  sheared : Wall → AfArray K → Except PyErr (AfArray K)

variable [Machine K]

/-- `if(velocity.elements() == self.N_species * self.N_p1 * self.N_p2 * self.N_p3): velocity = af.tile(velocity, 1, 1, self.f.shape[2], self.f.shape[3])` —
`boundaries.py:176-190`; `self.f.shape` has `numdims()` entries. -/
def arrTileVelocity (z : GridSizes) (f : AfArray K) (velocity : PyExpr K) : Except PyErr (AfArray K) := do
  match ← velocity with
  | .num _ => .error .attributeError
  | .arr v =>
    if v.size = z.Ns * z.Np1 * z.Np2 * z.Np3 then
      match f.shape2, f.shape3 with
      | some m, some n => .ok (v.tile 1 1 m n)
      | _, _ => .error .indexError
    else .ok v

/-- `af.select(cond, x, self.f)` where `x` is an array or a number. -/
def arrSelect (c : AfArray Bool) (x : PyVal K) (f : AfArray K) : Except PyErr (AfArray K) :=
  match x with
  | .arr a => AfArray.select c a f
  | .num v => AfArray.select c (f.map fun _ => v) f

/-- `apply_dirichlet_bcs_f(self, boundary)` — `boundaries.py:147-225`. -/
def arrDirichlet (env : ArrBCEnv K) (w : Wall) (f : AfArray K) : Except PyErr (AfArray K) := do
  let velocity_q1 ← arrTileVelocity env.z f (if env.solverMethodInQ = "FVM" then env.Cq1 else env.Aq1)
  let velocity_q2 ← arrTileVelocity env.z f (if env.solverMethodInQ = "FVM" then env.Cq2 else env.Aq2)
  let x ← env.user w f
  let f_wall ← match w with
    | .left => arrSelect (velocity_q1.map fun v => lt (lit 0) v) x f
    | .right => arrSelect (velocity_q1.map fun v => lt v (lit 0)) x f
    | .bottom => arrSelect (velocity_q2.map fun v => lt (lit 0) v) x f
    | .top => arrSelect (velocity_q2.map fun v => lt v (lit 0)) x f
  arrSetSlab env.g w f f_wall

/-- The mirror condition by momentum grid — `boundaries.py:437-442` etc. -/
def arrMirror (env : ArrBCEnv K) (w : Wall) (f : AfArray K) : Except PyErr (AfArray K) :=
  if env.pGrid = "cartesian" then arrMirrorCartesian env.z env.g w f
  else if env.pGrid = "polar2D" then arrMirrorPolar env.z env.g w f
  else .error .notImplemented

/-- One wall — `boundaries.py:433-463` etc. -/
def arrApplyWall (env : ArrBCEnv K) (w : Wall) (f : AfArray K) : Except PyErr (AfArray K) :=
  if env.name w = "dirichlet" then arrDirichlet env w f
  else if env.name w = "mirror" then arrMirror env w f
  else if env.name w = "mirror+dirichlet" then do
    let f ← arrMirror env w f
    arrDirichlet env w f
  else if env.name w = "periodic" ∨ env.name w = "none" then .ok f
  else if env.name w = "shearing-box" then do
    let b ← env.sheared w f
    arrSetSlab env.g w f b
  else .error .notImplemented

/-- Does the local zone include the wall? — `boundaries.py:431, 466, 501, 536`. -/
def ArrBCEnv.touches (env : ArrBCEnv K) : Wall → Bool
  | .left => env.start1 == 0
  | .right => env.start1 + env.nLocal1 - 1 == env.N1 - 1
  | .bottom => env.start2 == 0
  | .top => env.start2 + env.nLocal2 - 1 == env.N2 - 1

/-- A wall's block in `apply_bcs_f`. -/
def arrAtWall (env : ArrBCEnv K) (w : Wall) (f : AfArray K) : Except PyErr (AfArray K) :=
  if env.touches w = true then arrApplyWall env w f else .ok f

/-- `apply_bcs_f(self)` — `boundaries.py:415-577`. -/
def arrApplyBcs (env : ArrBCEnv K) (f : AfArray K) : Except PyErr (AfArray K) := do
  let f ← arrAtWall env .left f       -- 431-463
  let f ← arrAtWall env .right f      -- 466-498
  let f ← arrAtWall env .bottom f     -- 501-533
  arrAtWall env .top f                -- 536-568

end

/-! ## Time stepping with boundary conditions on all processes -/

/-- What the callbacks of a process return to the boundary routines. -/
structure ArrBCData (K : Type) where
  (Cq1 Cq2 Aq1 Aq2 : PyExpr K)
  user : Wall → AfArray K → PyExpr K
  sheared : Wall → AfArray K → Except PyErr (AfArray K)

namespace Decomp
open PyExpr
variable {S K : Type} [Machine K] {N1 N2 : ℕ} {R : Type} (D : Decomp N1 N2 R) (g1 g2 Np1 Np2 Np3 Ns : ℕ)

/-- What `apply_bcs_f` reads on process `r`. -/
def arrEnv (o : BCOptions) (r : R) (x : ArrBCData K) : ArrBCEnv K where
  z := D.sizes Np1 Np2 Np3 Ns g1 g2 r
  g := o.nGhost
  name := o.name
  pGrid := o.pGrid
  solverMethodInQ := o.solverMethodInQ
  start1 := D.start1 r
  start2 := D.start2 r
  nLocal1 := D.n1 r
  nLocal2 := D.n2 r
  N1 := N1
  N2 := N2
  Cq1 := x.Cq1
  Cq2 := x.Cq2
  Aq1 := x.Aq1
  Aq2 := x.Aq2
  user := x.user
  sheared := x.sheared

/-- `self._communicate_f(); self._apply_bcs_f()` on every process — `fvm_operator.py:22-23, 28-29` — for the boundary types and ghost widths chosen by the
constructor. -/
def ArrSynced (o : BCOptions) (x : R → ArrBCData K) (F F0 : R → AfArray K) : Prop :=
  ∃ (bc1 bc2 : PetscBC) (stale : R → Vec K) (G : R → AfArray K),
    setupBCs o.nGhost o.name = .ok ((bc1, g1), (bc2, g2)) ∧
    D.Communicates (D.sizes Np1 Np2 Np3 Ns g1 g2) g1 g2 bc1 bc2 (Np1 * Np2 * Np3) Ns stale F G ∧
    ∀ r, arrApplyBcs (D.arrEnv g1 g2 Np1 Np2 Np3 Ns o r (x r)) (G r) = .ok (F0 r)

/-- One `timestep_fvm(self, dt)` on all processes — `fvm_operator.py:6-35`; `b k r` and `x k r` are what the callbacks return to the boundary routines and to the
`k`-th slope evaluation of process `r`. -/
def ArrBcStep (o : BCOptions) (cfg : FVMConfig S K) (dt : K) (b : Fin 2 → R → ArrBCData K) (x : Fin 2 → R → AfArray K → ArrIn K) (F F' : R → AfArray K) : Prop :=
  ∃ F0 H Fh : R → AfArray K,
    D.ArrSynced g1 g2 Np1 Np2 Np3 Ns o (b 0) F F0 ∧
    (∀ r, arrAdvance (.ok (.arr (F0 r))) (arrDfdt (D.sizes Np1 Np2 Np3 Ns g1 g2 r) cfg (x 0 r (F0 r)) (.ok (.arr (F0 r)))) (dt ⊘ lit 2) = .ok (.arr (H r))) ∧
    D.ArrSynced g1 g2 Np1 Np2 Np3 Ns o (b 1) H Fh ∧
    ∀ r, arrAdvance (.ok (.arr (F0 r))) (arrDfdt (D.sizes Np1 Np2 Np3 Ns g1 g2 r) cfg (x 1 r (Fh r)) (.ok (.arr (Fh r)))) dt = .ok (.arr (F' r))

/-- Successive steps. -/
def ArrBcRun (o : BCOptions) (cfg : FVMConfig S K) :
    List (K × (Fin 2 → R → ArrBCData K) × (Fin 2 → R → AfArray K → ArrIn K)) → (R → AfArray K) → (R → AfArray K) → Prop
  | [], F, F' => F' = F
  | (dt, b, x) :: rest, F, F' => ∃ G, D.ArrBcStep g1 g2 Np1 Np2 Np3 Ns o cfg dt b x F G ∧ ArrBcRun o cfg rest G F'

end Decomp

namespace Mach
variable {S K : Type} [Machine K] [Zero K] [LinearOrder K] {N1 N2 : ℕ} {R : Type} (D : Decomp N1 N2 R) (g1 g2 : ℕ) {Np1 Np2 Np3 : ℕ}

/-- One `timestep_fvm` on all processes with boundary conditions, cell by cell, in machine arithmetic: as `Decomp.BcStep` (`fvm_operator.py:6-35`). -/
def BcStep (o : BCOptions) (ax : PIdx Np1 Np2 Np3 × PIdx Np1 Np2 Np3 × PIdx Np1 Np2 Np3) (cfg : FVMConfig S K) (dt : K)
    (dat : Fin 2 → ∀ r, D.LocBCData g1 g2 r S Np1 Np2 Np3 K) (cb : Fin 2 → ∀ r, Callbacks S (PIdx Np1 Np2 Np3) (D.Loc g1 g2 r) K)
    (F F' : ∀ r, Dist S (PIdx Np1 Np2 Np3) (D.Loc g1 g2 r) K) : Prop :=
  ∃ F0 k0 Fh k1 : ∀ r, Dist S (PIdx Np1 Np2 Np3) (D.Loc g1 g2 r) K,
    D.Synced g1 g2 o (dat 0) F F0 ∧
    (∀ r, Mach.dfdtFVM (D.locAxes g1 g2 r ax.1 ax.2.1 ax.2.2) cfg (cb 0 r) (F0 r) = .ok (k0 r)) ∧
    D.Synced g1 g2 o (dat 1) (fun r s p l => F0 r s p l ⊞ k0 r s p l ⊠ (dt ⊘ lit 2)) Fh ∧
    (∀ r, Mach.dfdtFVM (D.locAxes g1 g2 r ax.1 ax.2.1 ax.2.2) cfg (cb 1 r) (Fh r) = .ok (k1 r)) ∧
    F' = fun r s p l => F0 r s p l ⊞ k1 r s p l ⊠ dt

/-- Successive steps on all processes. -/
def BcRun (o : BCOptions) (ax : PIdx Np1 Np2 Np3 × PIdx Np1 Np2 Np3 × PIdx Np1 Np2 Np3) (cfg : FVMConfig S K) :
    List (K × (Fin 2 → ∀ r, D.LocBCData g1 g2 r S Np1 Np2 Np3 K) × (Fin 2 → ∀ r, Callbacks S (PIdx Np1 Np2 Np3) (D.Loc g1 g2 r) K)) →
    (∀ r, Dist S (PIdx Np1 Np2 Np3) (D.Loc g1 g2 r) K) → (∀ r, Dist S (PIdx Np1 Np2 Np3) (D.Loc g1 g2 r) K) → Prop
  | [], F, F' => F' = F
  | (dt, dat, cb) :: rest, F, F' => ∃ G, BcStep D g1 g2 o ax cfg dt dat cb F G ∧ BcRun o ax cfg rest G F'

end Mach

end Bolt
