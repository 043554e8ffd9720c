import Verif.Model.Boundaries
import Verif.Spec.Decomp

/-! Specification vocabulary for bounded domains: method of images. -/

namespace Bolt

/-- How a direction of the box ends: periodically, or at two mirrors. -/
inductive AxisEnd
  | wrap | mirror
  deriving DecidableEq

/-- Signed cell coordinate `c` seen in two facing mirrors at the ends of `0, …, N - 1`: images repeat with period `2 N`, every second one
is reversed. -/
def imageIdx (N : ℕ) (c : ℤ) : ℤ := if c % (2 * N) < N then c % (2 * N) else 2 * N - 1 - c % (2 * N)

/-- Is the image at coordinate `c` a reversed one? -/
def reversedImage (N : ℕ) (c : ℤ) : Prop := (N : ℤ) ≤ c % (2 * N)

instance (N : ℕ) (c : ℤ) : Decidable (reversedImage N c) := by unfold reversedImage; infer_instance

/-- The cell of the box that signed coordinate `c` shows. -/
def AxisEnd.cell (k : AxisEnd) (N : ℕ) (c : ℤ) : ZMod N :=
  match k with
  | .wrap => (c : ZMod N)
  | .mirror => (imageIdx N c : ZMod N)

/-- The momentum that signed coordinate `c` shows: reversed (by `fl`) in reversed images. -/
def AxisEnd.momentum {P : Type} (k : AxisEnd) (N : ℕ) (c : ℤ) (fl : P → P) (p : P) : P :=
  match k with
  | .wrap => p
  | .mirror => if reversedImage N c then fl p else p

variable {S P K : Type} {N1 N2 : ℕ}

/-- The distribution in the box continued to the whole plane by periodic images and mirror images. -/
def boxExt (k1 k2 : AxisEnd) (fl1 fl2 : P → P) (f : Dist S P (ZMod N1 × ZMod N2) K) : Dist S P (ℤ × ℤ) K :=
  fun s p c => f s (k1.momentum N1 c.1 fl1 (k2.momentum N2 c.2 fl2 p)) (k1.cell N1 c.1, k2.cell N2 c.2)

/-- Signed coordinates of a cell of the box. -/
def boxCell (i : ZMod N1 × ZMod N2) : ℤ × ℤ := (i.1.val, i.2.val)

variable [Field K] [LinearOrder K] [AddCommGroup P]

/-- One midpoint step of the box without any decomposition or ghost zones: the slope is that of the continued distribution. -/
def boxStep (ext : Dist S P (ZMod N1 × ZMod N2) K → Dist S P (ℤ × ℤ) K) (ax : P × P × P) (cfg : FVMConfig S K) (dt : K)
    (cb : Fin 2 → Callbacks S P (ℤ × ℤ) K) (f : Dist S P (ZMod N1 × ZMod N2) K) :
    Except PyErr (Dist S P (ZMod N1 × ZMod N2) K) := do
  let k0 ← dfdtFVM ⟨ax.1, ax.2.1, ax.2.2, (1, 0), (0, 1)⟩ cfg (cb 0) (ext f)
  let fh : Dist S P (ZMod N1 × ZMod N2) K := fun s p i => f s p i + k0 s p (boxCell i) * (dt / 2)
  let k1 ← dfdtFVM ⟨ax.1, ax.2.1, ax.2.2, (1, 0), (0, 1)⟩ cfg (cb 1) (ext fh)
  return fun s p i => f s p i + k1 s p (boxCell i) * dt

/-- Successive steps. -/
def boxRun (ext : Dist S P (ZMod N1 × ZMod N2) K → Dist S P (ℤ × ℤ) K) (ax : P × P × P) (cfg : FVMConfig S K) :
    List (K × (Fin 2 → Callbacks S P (ℤ × ℤ) K)) → Dist S P (ZMod N1 × ZMod N2) K → Except PyErr (Dist S P (ZMod N1 × ZMod N2) K)
  | [], f => .ok f
  | (dt, cb) :: rest, f => do
    let f' ← boxStep ext ax cfg dt cb f
    boxRun ext ax cfg rest f'

namespace Decomp

variable {R : Type} (D : Decomp N1 N2 R) (g1 g2 : ℕ)

/-- Signed coordinates of a local cell. -/
def signed (r : R) (l : D.Loc g1 g2 r) : ℤ × ℤ := (globCoord (D.start1 r) g1 l.1, globCoord (D.start2 r) g2 l.2)

omit [Field K] [LinearOrder K] [AddCommGroup P] in
/-- The callback values of a process are those of functions on the plane, for the cells it owns and their right/top faces. -/
structure CallbacksAgreeBox (r : R) (loc : Callbacks S P (D.Loc g1 g2 r) K) (glob : Callbacks S P (ℤ × ℤ) K) : Prop where
  q1 : ∀ s p l, D.Interior g1 g2 r l → loc.Cq1 s p l = glob.Cq1 s p (D.signed g1 g2 r l) ∧
    loc.Cq1 s p (l + (1, 0)) = glob.Cq1 s p (D.signed g1 g2 r l + (1, 0))
  q2 : ∀ s p l, D.Interior g1 g2 r l → loc.Cq2 s p l = glob.Cq2 s p (D.signed g1 g2 r l) ∧
    loc.Cq2 s p (l + (0, 1)) = glob.Cq2 s p (D.signed g1 g2 r l + (0, 1))
  p1 : ∀ s p l, D.Interior g1 g2 r l → loc.Cp1 s p l = glob.Cp1 s p (D.signed g1 g2 r l)
  p2 : ∀ s p l, D.Interior g1 g2 r l → loc.Cp2 s p l = glob.Cp2 s p (D.signed g1 g2 r l)
  p3 : ∀ s p l, D.Interior g1 g2 r l → loc.Cp3 s p l = glob.Cp3 s p (D.signed g1 g2 r l)
  src : ∀ f g l, D.Interior g1 g2 r l → (∀ s p, f s p l = g s p (D.signed g1 g2 r l)) →
    ∀ s p, loc.source f s p l = glob.source g s p (D.signed g1 g2 r l)

end Decomp

/-- The condition names of the two ends of a direction with `N` cells make it periodic, mirrored, or (one cell) without ghost zones. -/
def AxisSetup (k : AxisEnd) (lo hi : String) (N : ℕ) : Prop :=
  (k = .wrap ∧ lo = "periodic" ∧ hi = "periodic") ∨ (k = .wrap ∧ lo = "none" ∧ hi = "none" ∧ N = 1) ∨
    (k = .mirror ∧ lo = "mirror" ∧ hi = "mirror")

/-- The ghost width covers the stencil along an axis. -/
def BoxGhosts (m : Recon) (k : AxisEnd) (g N : ℕ) : Prop := m.radius ≤ g ∨ (k = .wrap ∧ g = 0 ∧ N = 1)

/-- The momentum reversals at the walls (left/right and bottom/top) and the momentum grids they belong to; `C26_reverses_momentum` and
`C26_polar_reflects_angle` say what they do to the momentum. -/
def MomentumMirror {Np1 Np2 Np3 : ℕ} (pGrid : String) (fl : Wall → PIdx Np1 Np2 Np3 → PIdx Np1 Np2 Np3) : Prop :=
  (pGrid = "cartesian" ∧ fl = flipCartesian) ∨ (pGrid = "polar2D" ∧ Np2 % 2 = 0 ∧ fl = flipPolar)

/-- The face velocities at the two ends of a box direction: equal when periodic, reversed together with the momentum at mirrors. -/
def WallVelocity {P K : Type} [Neg K] (k : AxisEnd) (fl : P → P) (v0 vN : P → K) : Prop :=
  match k with
  | .wrap => ∀ p, vN p = v0 p
  | .mirror => ∀ p, v0 (fl p) = - v0 p ∧ vN (fl p) = - vN p

/-- The six components as a family. -/
def EM.comp {Q K : Type} (F : EM Q K) : Fin 6 → Q → K
  | 0 => F.E1 | 1 => F.E2 | 2 => F.E3 | 3 => F.B1 | 4 => F.B2 | 5 => F.B3

/-- The effect of one wall on the local array, by the position of the process and the condition's name. -/
inductive WallEffect {S K : Type} {Np1 Np2 Np3 M1 M2 : ℕ} [Zero K] [LinearOrder K] (env : BCEnv S Np1 Np2 Np3 M1 M2 K) (w : Wall)
    (f : LDist S Np1 Np2 Np3 M1 M2 K) : LDist S Np1 Np2 Np3 M1 M2 K → Prop
  | elsewhere : env.touches w = false → WallEffect env w f f
  | nothing : env.touches w = true → env.name w ∈ ["periodic", "none"] → WallEffect env w f f
  | dirichlet : env.touches w = true → env.name w = "dirichlet" → WallEffect env w f (dirichletF env w f)
  | mirror {f1} : env.touches w = true → env.name w = "mirror" → mirrorF env w f = .ok f1 → WallEffect env w f f1
  | mirrorDirichlet {f1} : env.touches w = true → env.name w = "mirror+dirichlet" → mirrorF env w f = .ok f1 →
      WallEffect env w f (dirichletF env w f1)
  | shearing : env.touches w = true → env.name w = "shearing-box" → WallEffect env w f (shearingF env w f)

/-- The condition names the program knows. -/
def knownBCs : List String := ["dirichlet", "mirror", "mirror+dirichlet", "periodic", "none", "shearing-box"]

end Bolt
