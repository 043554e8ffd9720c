import Verif.Model.Decomp
import Verif.Model.Fields

/-!
# Boundary conditions for the distribution function (`bolt/lib/nonlinear/boundaries.py`)

A local array has `M1 × M2` position cells, ghost zones included.  Momentum cells are `(p1, p2, p3)`; the conversions between the
memory layouts (`_convert_to_p_expanded`, `_convert_to_q_expanded`) only re-index and are modelled in `Verif/Model/Layout.lean`.
Python slices with a negative bound `-N_g` are modelled for `N_g > 0` (for `N_g = 0`, `-0:` is the whole axis).
-/

namespace Bolt

/-- Momentum cells. -/
abbrev PIdx (Np1 Np2 Np3 : ℕ) : Type := ZMod Np1 × ZMod Np2 × ZMod Np3

/-- Wall names passed by `apply_bcs_f` (`'left'`, `'right'`, `'bottom'`, `'top'`; the `else: raise Exception` branches for other names are
not reachable from it). -/
inductive Wall
  | left | right | bottom | top
  deriving DecidableEq

/-! ## slices along one axis -/

section slices
variable {M : ℕ} {α : Type}

/-- `x[start : start + len]`, re-indexed from 0. -/
def sliceGet (x : ZMod M → α) (start : ℕ) : ℕ → α := fun a => x ((start + a : ℕ) : ZMod M)

/-- `af.flip` of a slice of length `len`. -/
def sliceFlip (len : ℕ) (y : ℕ → α) : ℕ → α := fun a => y (len - 1 - a)

/-- `x[start : start + len] = y`. -/
def sliceSet (x : ZMod M → α) (start len : ℕ) (y : ℕ → α) : ZMod M → α :=
  fun i => if start ≤ i.val ∧ i.val < start + len then y (i.val - start) else x i

end slices

section arrays
variable {M1 M2 : ℕ} {α : Type}

/-- Does the slab `[:N_g]` / `[-N_g:]` along the wall's axis contain the cell? -/
def inSlab (g : ℕ) : Wall → ZMod M1 × ZMod M2 → Prop
  | .left, i => i.1.val < g
  | .right, i => M1 - g ≤ i.1.val
  | .bottom, i => i.2.val < g
  | .top, i => M2 - g ≤ i.2.val

instance (g : ℕ) (w : Wall) (i : ZMod M1 × ZMod M2) : Decidable (inSlab g w i) := by cases w <;> unfold inSlab <;> infer_instance

/-- `x[slab] = y[slab]` for arrays of the same shape. -/
def setSlab (g : ℕ) (w : Wall) (x y : ZMod M1 × ZMod M2 → α) : ZMod M1 × ZMod M2 → α :=
  fun i => if inSlab g w i then y i else x i

/-- `x[:, :, :N_g] = af.flip(x[:, :, N_g:2*N_g], 2)` and its counterparts at the other walls — `boundaries.py:245,262,279,296`
(cartesian) and `331,356,381,398` (polar), `fields/boundaries.py:446-563`. -/
def mirrorSpace (g : ℕ) : Wall → (ZMod M1 × ZMod M2 → α) → ZMod M1 × ZMod M2 → α
  | .left, x => fun i => sliceSet (fun a => x (a, i.2)) 0 g (sliceFlip g (sliceGet (fun a => x (a, i.2)) g)) i.1
  | .right, x => fun i => sliceSet (fun a => x (a, i.2)) (M1 - g) g (sliceFlip g (sliceGet (fun a => x (a, i.2)) (M1 - 2 * g))) i.1
  | .bottom, x => fun i => sliceSet (fun b => x (i.1, b)) 0 g (sliceFlip g (sliceGet (fun b => x (i.1, b)) g)) i.2
  | .top, x => fun i => sliceSet (fun b => x (i.1, b)) (M2 - g) g (sliceFlip g (sliceGet (fun b => x (i.1, b)) (M2 - 2 * g))) i.2

end arrays

/-- `af.flip` along an axis of length `N`: index `i` reads index `N - 1 - i` (`-1 - i` cyclically). -/
def flipIdx {N : ℕ} (i : ZMod N) : ZMod N := -1 - i

/-- Flip of each half of an axis of even length — `boundaries.py:342-346`: index `i` of the first half reads `N/2 - 1 - i`, of the
second half `N + N/2 - 1 - i`. -/
def flipHalves {N : ℕ} (i : ZMod N) : ZMod N :=
  if i.val < N / 2 then ((N / 2 - 1 - i.val : ℕ) : ZMod N) else ((N / 2 + (N - N / 2 - 1 - (i.val - N / 2)) : ℕ) : ZMod N)

section
variable {S K : Type} {Np1 Np2 Np3 M1 M2 : ℕ}

/-- Arrays of one process. -/
abbrev LDist (S : Type) (Np1 Np2 Np3 M1 M2 : ℕ) (K : Type) : Type := Dist S (PIdx Np1 Np2 Np3) (ZMod M1 × ZMod M2) K

/-- The momentum cell read by the flip of axis 0 of the p-expanded array at the left/right walls, of axis 1 at the bottom/top walls —
`boundaries.py:251-255,268-272,285-289,302-306`. -/
def flipCartesian : Wall → PIdx Np1 Np2 Np3 → PIdx Np1 Np2 Np3
  | .left, p => (flipIdx p.1, p.2)
  | .right, p => (flipIdx p.1, p.2)
  | .bottom, p => (p.1, flipIdx p.2.1, p.2.2)
  | .top, p => (p.1, flipIdx p.2.1, p.2.2)

/-- The same for a polar momentum grid (axis 1 is the angle) — `boundaries.py:340-349,365-374,387-391,404-408`. -/
def flipPolar : Wall → PIdx Np1 Np2 Np3 → PIdx Np1 Np2 Np3
  | .left, p => (p.1, flipHalves p.2.1, p.2.2)
  | .right, p => (p.1, flipHalves p.2.1, p.2.2)
  | .bottom, p => (p.1, flipIdx p.2.1, p.2.2)
  | .top, p => (p.1, flipIdx p.2.1, p.2.2)

/-- `apply_mirror_bcs_f_cartesian(self, boundary)` — `boundaries.py:227-311`. -/
def mirrorCartesian (g : ℕ) (w : Wall) (f : LDist S Np1 Np2 Np3 M1 M2 K) : LDist S Np1 Np2 Np3 M1 M2 K :=
  let f1 : LDist S Np1 Np2 Np3 M1 M2 K := fun s p => mirrorSpace g w (f s p)
  fun s p => setSlab g w (f1 s p) (f1 s (flipCartesian w p))

/-- `apply_mirror_bcs_f_polar2D(self, boundary)` — `boundaries.py:313-413`.  ArrayFire accepts the float slice bound `N_theta/2`; with an
odd number of angles the two halves do not add up to the axis and the reshape raises. -/
def mirrorPolar (g : ℕ) (w : Wall) (f : LDist S Np1 Np2 Np3 M1 M2 K) : Except PyErr (LDist S Np1 Np2 Np3 M1 M2 K) :=
  let f1 : LDist S Np1 Np2 Np3 M1 M2 K := fun s p => mirrorSpace g w (f s p)
  if (w = .left ∨ w = .right) ∧ Np2 % 2 = 1 then .error .exception
  else .ok fun s p => setSlab g w (f1 s p) (f1 s (flipPolar w p))

/-- Values the boundary routines obtain from callbacks. -/
structure BCData (S : Type) (Np1 Np2 Np3 M1 M2 : ℕ) (K : Type) where
  /-- `C_q` and `A_q` at the cell centres -/
  Cq1 : LDist S Np1 Np2 Np3 M1 M2 K
  Cq2 : LDist S Np1 Np2 Np3 M1 M2 K
  Aq1 : LDist S Np1 Np2 Np3 M1 M2 K
  Aq2 : LDist S Np1 Np2 Np3 M1 M2 K
  /-- the user's `f_left`, `f_right`, `f_bottom`, `f_top`, which are handed `self.f` -/
  user : Wall → LDist S Np1 Np2 Np3 M1 M2 K → LDist S Np1 Np2 Np3 M1 M2 K
  /-- the interpolation of `self.f` at the sheared coordinates (`af.approx2`, bicubic: any function here, the code's own in `Model/ShearBox.lean`) -/
  sheared : Wall → LDist S Np1 Np2 Np3 M1 M2 K → LDist S Np1 Np2 Np3 M1 M2 K

/-- What the boundary routines read from the solver. -/
structure BCEnv (S : Type) (Np1 Np2 Np3 M1 M2 : ℕ) (K : Type) extends BCData S Np1 Np2 Np3 M1 M2 K where
  /-- `self.N_ghost` -/
  g : ℕ
  /-- `boundary_conditions.in_q1_left`, `.in_q1_right`, `.in_q2_bottom`, `.in_q2_top` -/
  name : Wall → String
  /-- `params.p_space_grid` -/
  pGrid : String
  solverMethodInQ : String
  /-- `getCorners()`: first owned index and number of owned cells along each axis, and the grid size — `boundaries.py:426-428` -/
  start1 : ℕ
  start2 : ℕ
  nLocal1 : ℕ
  nLocal2 : ℕ
  N1 : ℕ
  N2 : ℕ

variable [Zero K] [LinearOrder K]

/-- `velocity_q1`, `velocity_q2` — `boundaries.py:160-190` (the tiling of momentum-only arrays is in `Model/BoundaryArrays`). -/
def BCEnv.velocity (env : BCEnv S Np1 Np2 Np3 M1 M2 K) : LDist S Np1 Np2 Np3 M1 M2 K × LDist S Np1 Np2 Np3 M1 M2 K :=
  if env.solverMethodInQ = "FVM" then (env.Cq1, env.Cq2) else (env.Aq1, env.Aq2)

/-- `apply_dirichlet_bcs_f(self, boundary)` — `boundaries.py:147-225`. -/
def dirichletF (env : BCEnv S Np1 Np2 Np3 M1 M2 K) (w : Wall) (f : LDist S Np1 Np2 Np3 M1 M2 K) : LDist S Np1 Np2 Np3 M1 M2 K :=
  let v := env.velocity
  let sel : LDist S Np1 Np2 Np3 M1 M2 K := match w with
    | .left => fun s p i => afSelect (v.1 s p i > 0) (env.user .left f s p i) (f s p i)
    | .right => fun s p i => afSelect (v.1 s p i < 0) (env.user .right f s p i) (f s p i)
    | .bottom => fun s p i => afSelect (v.2 s p i > 0) (env.user .bottom f s p i) (f s p i)
    | .top => fun s p i => afSelect (v.2 s p i < 0) (env.user .top f s p i) (f s p i)
  fun s p => setSlab env.g w (f s p) (sel s p)

/-- `apply_shearing_box_bcs_f(self, boundary)` — `boundaries.py:6-145`: the slab is replaced by an interpolation of the slab (the sheared
coordinates are modelled in `Verif/Model/Shear.lean`). -/
def shearingF (env : BCEnv S Np1 Np2 Np3 M1 M2 K) (w : Wall) (f : LDist S Np1 Np2 Np3 M1 M2 K) : LDist S Np1 Np2 Np3 M1 M2 K :=
  fun s p => setSlab env.g w (f s p) (env.sheared w f s p)

/-- The mirror condition by momentum grid — `boundaries.py:437-442` etc. -/
def mirrorF (env : BCEnv S Np1 Np2 Np3 M1 M2 K) (w : Wall) (f : LDist S Np1 Np2 Np3 M1 M2 K) :
    Except PyErr (LDist S Np1 Np2 Np3 M1 M2 K) :=
  if env.pGrid = "cartesian" then .ok (mirrorCartesian env.g w f)
  else if env.pGrid = "polar2D" then mirrorPolar env.g w f
  else .error .notImplemented

/-- One wall — `boundaries.py:433-463` (left), `468-498` (right), `503-533` (bottom), `538-568` (top). -/
def applyWall (env : BCEnv S Np1 Np2 Np3 M1 M2 K) (w : Wall) (f : LDist S Np1 Np2 Np3 M1 M2 K) :
    Except PyErr (LDist S Np1 Np2 Np3 M1 M2 K) :=
  if env.name w = "dirichlet" then .ok (dirichletF env w f)
  else if env.name w = "mirror" then mirrorF env w f
  else if env.name w = "mirror+dirichlet" then do
    let f1 ← mirrorF env w f
    return dirichletF env w f1
  else if env.name w = "periodic" ∨ env.name w = "none" then .ok f
  else if env.name w = "shearing-box" then .ok (shearingF env w f)
  else .error .notImplemented

/-- Does the local zone include the wall? — `boundaries.py:431,466,501,536`. -/
def BCEnv.touches (env : BCEnv S Np1 Np2 Np3 M1 M2 K) : Wall → Bool
  | .left => env.start1 == 0
  | .right => env.start1 + env.nLocal1 - 1 == env.N1 - 1
  | .bottom => env.start2 == 0
  | .top => env.start2 + env.nLocal2 - 1 == env.N2 - 1

/-- A wall's block in `apply_bcs_f` — `boundaries.py:431-463` etc. -/
def atWall (env : BCEnv S Np1 Np2 Np3 M1 M2 K) (w : Wall) (f : LDist S Np1 Np2 Np3 M1 M2 K) : Except PyErr (LDist S Np1 Np2 Np3 M1 M2 K) :=
  if env.touches w = true then applyWall env w f else .ok f

/-- `apply_bcs_f(self)` — `boundaries.py:415-577`. -/
def applyBcsF (env : BCEnv S Np1 Np2 Np3 M1 M2 K) (f : LDist S Np1 Np2 Np3 M1 M2 K) : Except PyErr (LDist S Np1 Np2 Np3 M1 M2 K) := do
  let f1 ← atWall env .left f       -- 431-463
  let f2 ← atWall env .right f1     -- 466-498
  let f3 ← atWall env .bottom f2    -- 501-533
  atWall env .top f3                -- 536-568

end

/-! ## Boundary conditions for the fields (`bolt/lib/nonlinear/fields/boundaries.py`) -/

section fields
variable {M1 M2 : ℕ} {K : Type}

/-- What the field boundary routines read from the fields solver. -/
structure FieldBCEnv (M1 M2 : ℕ) (K : Type) where
  /-- `self.N_g` -/
  g : ℕ
  name : Wall → String
  /-- the user's `E1_left`, …, `B3_top` (component 0–5), which are handed the component -/
  user : Wall → Fin 6 → (ZMod M1 × ZMod M2 → K) → ZMod M1 × ZMod M2 → K
  start1 : ℕ
  start2 : ℕ
  nLocal1 : ℕ
  nLocal2 : ℕ
  N1 : ℕ
  N2 : ℕ

/-- `apply_dirichlet_bcs_fields` — `fields/boundaries.py:212-417`: all six components of the slab. -/
def dirichletFields (env : FieldBCEnv M1 M2 K) (w : Wall) (F : EM (ZMod M1 × ZMod M2) K) : EM (ZMod M1 × ZMod M2) K where
  E1 := setSlab env.g w F.E1 (env.user w 0 F.E1)
  E2 := setSlab env.g w F.E2 (env.user w 1 F.E2)
  E3 := setSlab env.g w F.E3 (env.user w 2 F.E3)
  B1 := setSlab env.g w F.B1 (env.user w 3 F.B1)
  B2 := setSlab env.g w F.B2 (env.user w 4 F.B2)
  B3 := setSlab env.g w F.B3 (env.user w 5 F.B3)

/-- `apply_mirror_bcs_fields` — `fields/boundaries.py:419-567`. -/
def mirrorFields (g : ℕ) (w : Wall) (onFdtdGrid : Bool) (F : EM (ZMod M1 × ZMod M2) K) : EM (ZMod M1 × ZMod M2) K :=
  if onFdtdGrid = true then
    match w with
    | .left => { F with E2 := mirrorSpace g .left F.E2, E3 := mirrorSpace g .left F.E3 }          -- 446-447
    | .right => { F with E2 := mirrorSpace g .right F.E2, E3 := mirrorSpace g .right F.E3 }       -- 477-478
    | .bottom => { F with E1 := mirrorSpace g .bottom F.E1, E3 := mirrorSpace g .bottom F.E3 }    -- 508-511
    | .top => { F with E1 := mirrorSpace g .top F.E1, E3 := mirrorSpace g .top F.E3 }             -- 542-546
  else ⟨mirrorSpace g w F.E1, mirrorSpace g w F.E2, mirrorSpace g w F.E3,
        mirrorSpace g w F.B1, mirrorSpace g w F.B2, mirrorSpace g w F.B3⟩

/-- One wall — `fields/boundaries.py:587-607` (left), `612-632`, `637-657`, `662-682`.  The shearing-box routine reads
`self.q1_end` (line 25), an attribute the fields solver never sets. -/
def applyWallFields (env : FieldBCEnv M1 M2 K) (onFdtdGrid : Bool) (w : Wall) (F : EM (ZMod M1 × ZMod M2) K) :
    Except PyErr (EM (ZMod M1 × ZMod M2) K) :=
  if env.name w = "dirichlet" then .ok (dirichletFields env w F)
  else if env.name w = "mirror" then .ok (mirrorFields env.g w onFdtdGrid F)
  else if env.name w = "mirror+dirichlet" then .ok (dirichletFields env w (mirrorFields env.g w onFdtdGrid F))
  else if env.name w = "periodic" ∨ env.name w = "none" then .ok F
  else if env.name w = "shearing-box" then .error .attributeError
  else .error .notImplemented

/-- Does the local zone include the wall? — `fields/boundaries.py:585,610,635,660`. -/
def FieldBCEnv.touches (env : FieldBCEnv M1 M2 K) : Wall → Bool
  | .left => env.start1 == 0
  | .right => env.start1 + env.nLocal1 - 1 == env.N1 - 1
  | .bottom => env.start2 == 0
  | .top => env.start2 + env.nLocal2 - 1 == env.N2 - 1

/-- A wall's block in `apply_bcs_fields` — `fields/boundaries.py:585-607` etc. -/
def atWallFields (env : FieldBCEnv M1 M2 K) (onFdtdGrid : Bool) (w : Wall) (F : EM (ZMod M1 × ZMod M2) K) :
    Except PyErr (EM (ZMod M1 × ZMod M2) K) :=
  if env.touches w = true then applyWallFields env onFdtdGrid w F else .ok F

/-- `apply_bcs_fields(self, on_fdtd_grid)` — `fields/boundaries.py:569-691`. -/
def applyBcsFields (env : FieldBCEnv M1 M2 K) (onFdtdGrid : Bool) (F : EM (ZMod M1 × ZMod M2) K) :
    Except PyErr (EM (ZMod M1 × ZMod M2) K) := do
  let F1 ← atWallFields env onFdtdGrid .left F
  let F2 ← atWallFields env onFdtdGrid .right F1
  let F3 ← atWallFields env onFdtdGrid .bottom F2
  atWallFields env onFdtdGrid .top F3

end fields

/-! ## Validation of the boundary conditions by the constructor -/

/-- `petsc_bc_in_q1`, `self.N_g1` (resp. `q2`) — `nonlinear_solver.py:177-201`: only the left (bottom) name matters. -/
def petscAxis (nGhost : ℕ) (first : String) : Decomp.PetscBC × ℕ :=
  let a : Decomp.PetscBC × ℕ := (.ghosted, nGhost)
  let b := if first = "periodic" ∨ first = "shearing-box" then (.periodic, a.2) else a
  if first = "none" then (.none, 0) else b

/-- The constructor's boundary-condition checks — `nonlinear_solver.py:203-249` — followed by its result for the two axes. -/
def setupBCs (nGhost : ℕ) (name : Wall → String) : Except PyErr ((Decomp.PetscBC × ℕ) × (Decomp.PetscBC × ℕ)) :=
  if name .left = "periodic" ∧ name .right ≠ "periodic" then .error .exception               -- 203-209
  else if name .left = "shearing-box" ∧ name .right ≠ "shearing-box" then .error .exception  -- 211-217
  else if name .bottom = "periodic" ∧ name .top ≠ "periodic" then .error .exception          -- 219-225
  else if name .bottom = "shearing-box" ∧ name .top ≠ "shearing-box" then .error .exception  -- 227-233
  else if name .left = "none" ∧ name .right ≠ "none" then .error .exception                  -- 235-241
  else if name .bottom = "none" ∧ name .top ≠ "none" then .error .exception                  -- 243-249
  else .ok (petscAxis nGhost (name .left), petscAxis nGhost (name .bottom))

/-- The fields solver's own choice — `fields.py:127-153`: `mirror` is treated as periodic. -/
def petscAxisFields (nGhost : ℕ) (first : String) : Decomp.PetscBC × ℕ :=
  let a : Decomp.PetscBC × ℕ := (.ghosted, nGhost)
  let b := if first = "periodic" ∨ first = "shearing-box" ∨ first = "mirror" then (.periodic, a.2) else a
  if first = "none" then (.none, 0) else b

/-! ## Time stepping with boundary conditions on all processes -/

/-- Boundary options that are the same on every process. -/
structure BCOptions where
  nGhost : ℕ
  name : Wall → String
  pGrid : String
  solverMethodInQ : String

namespace Decomp

variable {N1 N2 : ℕ} {R : Type} (D : Decomp N1 N2 R) (g1 g2 : ℕ) {S K : Type} {Np1 Np2 Np3 : ℕ}

/-- Callback values of process `r` for the boundary routines. -/
abbrev LocBCData (r : R) (S : Type) (Np1 Np2 Np3 : ℕ) (K : Type) : Type :=
  BCData S Np1 Np2 Np3 (D.n1 r + 2 * g1) (D.n2 r + 2 * g2) K

/-- What `apply_bcs_f` reads on process `r`. -/
def bcEnv (o : BCOptions) (r : R) (dat : D.LocBCData g1 g2 r S Np1 Np2 Np3 K) :
    BCEnv S Np1 Np2 Np3 (D.n1 r + 2 * g1) (D.n2 r + 2 * g2) K :=
  { dat with
    g := o.nGhost, name := o.name, pGrid := o.pGrid, solverMethodInQ := o.solverMethodInQ
    start1 := D.start1 r, start2 := D.start2 r, nLocal1 := D.n1 r, nLocal2 := D.n2 r, N1 := N1, N2 := N2 }

variable [Zero K] [LinearOrder K]

/-- `self._communicate_f(); self._apply_bcs_f()` on every process — `fvm_operator.py:22-23,28-29` — for the boundary types and ghost
widths chosen by the constructor. -/
def Synced (o : BCOptions) (dat : ∀ r, D.LocBCData g1 g2 r S Np1 Np2 Np3 K)
    (F F0 : ∀ r, Dist S (PIdx Np1 Np2 Np3) (D.Loc g1 g2 r) K) : Prop :=
  ∃ (bc1 bc2 : PetscBC) (stale : ∀ r, Dist S (PIdx Np1 Np2 Np3) (D.Loc g1 g2 r) K),
    setupBCs o.nGhost o.name = .ok ((bc1, g1), (bc2, g2)) ∧
    ∀ r, applyBcsF (D.bcEnv g1 g2 o r (dat r)) (D.exchange g1 g2 bc1 bc2 stale F r) = .ok (F0 r)

end Decomp

namespace Decomp

variable {N1 N2 : ℕ} {R : Type} (D : Decomp N1 N2 R) (g1 g2 : ℕ) {S K : Type} {Np1 Np2 Np3 : ℕ} [Field K] [LinearOrder K]

/-- One `timestep_fvm` on all processes — `fvm_operator.py:6-35`. -/
def BcStep (o : BCOptions) (ax : PIdx Np1 Np2 Np3 × PIdx Np1 Np2 Np3 × PIdx Np1 Np2 Np3) (cfg : FVMConfig S K) (dt : K)
    (dat : Fin 2 → ∀ r, D.LocBCData g1 g2 r S Np1 Np2 Np3 K) (cb : Fin 2 → ∀ r, Callbacks S (PIdx Np1 Np2 Np3) (D.Loc g1 g2 r) K)
    (F F' : ∀ r, Dist S (PIdx Np1 Np2 Np3) (D.Loc g1 g2 r) K) : Prop :=
  ∃ F0 k0 Fh k1 : ∀ r, Dist S (PIdx Np1 Np2 Np3) (D.Loc g1 g2 r) K,
    D.Synced g1 g2 o (dat 0) F F0 ∧
    (∀ r, dfdtFVM (D.locAxes g1 g2 r ax.1 ax.2.1 ax.2.2) cfg (cb 0 r) (F0 r) = .ok (k0 r)) ∧
    D.Synced g1 g2 o (dat 1) (fun r s p l => F0 r s p l + k0 r s p l * (dt / 2)) Fh ∧
    (∀ r, dfdtFVM (D.locAxes g1 g2 r ax.1 ax.2.1 ax.2.2) cfg (cb 1 r) (Fh r) = .ok (k1 r)) ∧
    F' = fun r s p l => F0 r s p l + k1 r s p l * dt

/-- Successive steps on all processes. -/
def BcRun (o : BCOptions) (ax : PIdx Np1 Np2 Np3 × PIdx Np1 Np2 Np3 × PIdx Np1 Np2 Np3) (cfg : FVMConfig S K) :
    List (K × (Fin 2 → ∀ r, D.LocBCData g1 g2 r S Np1 Np2 Np3 K) × (Fin 2 → ∀ r, Callbacks S (PIdx Np1 Np2 Np3) (D.Loc g1 g2 r) K)) →
    (∀ r, Dist S (PIdx Np1 Np2 Np3) (D.Loc g1 g2 r) K) → (∀ r, Dist S (PIdx Np1 Np2 Np3) (D.Loc g1 g2 r) K) → Prop
  | [], F, F' => F' = F
  | (dt, dat, cb) :: rest, F, F' => ∃ G, D.BcStep g1 g2 o ax cfg dt dat cb F G ∧ BcRun o ax cfg rest G F'

end Decomp

end Bolt
