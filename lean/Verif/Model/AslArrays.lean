import Verif.Model.BoundaryArrays
import Verif.Model.ASL

/-!
# The semi-Lagrangian routines on blocks of memory

`f_interp_2d` and `f_interp_p_3d` (`bolt/lib/nonlinear/semi_lagrangian/interpolation_routines.py`) as the broadcasts, reorderings and interpolations of `af.Array`s the source
consists of, in any arithmetic.  `Model/ASL` states their effect cell by cell.  What the library computes for one output point of `af.approx2` is a parameter, the `Kernel`.
-/

namespace Bolt

open Machine PyExpr

/-- What `af.approx2` computes for one output point: lengths of the two axes, elements by position, the two coordinates of the point. -/
abbrev Kernel (K : Type) : Type := ℕ → ℕ → (ℤ → ℤ → K) → K → K → K

namespace AfArray
variable {K : Type}

/-- `af.reorder(a, x, y, z, w)`: axis 0 of the result is axis `x` of `a`, and so on — `interpolation_routines.py:42-52, 176-183`. -/
def reorder (a : AfArray K) (x y z w : Fin 4) : AfArray K :=
  ofFn (a.dim x) (a.dim y) (a.dim z) (a.dim w) fun i j k l =>
    let at' := fun c : Fin 4 => if x = c then i else if y = c then j else if z = c then k else l
    a.get (at' 0) (at' 1) (at' 2) (at' 3)

/-- `af.approx2(a, x, y, af.INTERP.BICUBIC_SPLINE)` — `interpolation_routines.py:42-48, 176-180`.  The position arrays have the same shape; beyond the first two axes it is that
of the data, or `(1, 1)` for the same positions everywhere. -/
def approx2At (kern : Kernel K) (a x y : AfArray K) : Except PyErr (AfArray K) :=
  if (x.d0 = y.d0 ∧ x.d1 = y.d1 ∧ x.d2 = y.d2 ∧ x.d3 = y.d3) ∧ (x.d2 = a.d2 ∧ x.d3 = a.d3 ∨ x.d2 = 1 ∧ x.d3 = 1) then
    .ok (ofFn x.d0 x.d1 a.d2 a.d3 fun i j k l =>
      kern a.d0 a.d1 (fun m n => a.get m.toNat n.toNat k l) (x.get i j (along x.d2 k) (along x.d3 l)) (y.get i j (along y.d2 k) (along y.d3 l)))
  else .error .exception

variable [Machine K]

/-- Scaling of the positions in `af.approx2(…, xp = xp)`: `(x - xp[0]) / (xp[1] - xp[0])`, which reads the second element of `xp` along axis 0 — arguments `xp`, `yp` of
`interpolation_routines.py:47-48`. -/
def scale0 (x xp : AfArray K) : Except PyErr (AfArray K) :=
  if 2 ≤ xp.d0 then .ok (x.map fun v => (v ⊟ xp.get 0 0 0 0) ⊘ (xp.get 1 0 0 0 ⊟ xp.get 0 0 0 0)) else .error .exception

/-- The same for `yp`, along axis 1. -/
def scale1 (y yp : AfArray K) : Except PyErr (AfArray K) :=
  if 2 ≤ yp.d1 then .ok (y.map fun v => (v ⊟ yp.get 0 0 0 0) ⊘ (yp.get 0 1 0 0 ⊟ yp.get 0 0 0 0)) else .error .exception

end AfArray

/-- An argument that must be an array. -/
def PyExpr.array {K : Type} (x : PyExpr K) : Except PyErr (AfArray K) :=
  Except.bind x fun | .num _ => .error .typeError | .arr a => .ok a

section
variable {K : Type} [Machine K]

/-- `f_interp_2d(self, dt)` — `interpolation_routines.py:9-58`: `q1`, `q2` are `self.q1_center`, `self.q2_center`; `A1`, `A2` what `_A_q` returns; the result is the new `self.f`. -/
def arrInterp2d (kern : Kernel K) (q1 q2 : AfArray K) (A1 A2 : PyExpr K) (dt : K) (f : AfArray K) : Except PyErr (AfArray K) := do
  let x ← (addAll [.ok (.arr q1), -A1 * num dt]).array
  let y ← (addAll [.ok (.arr q2), -A2 * num dt]).array
  let xs ← (x.reorder 2 3 1 0).scale0 (q1.reorder 2 3 1 0)
  let ys ← (y.reorder 2 3 1 0).scale1 (q2.reorder 2 3 1 0)
  let v ← AfArray.approx2At kern (f.reorder 2 3 1 0) xs ys
  return v.reorder 3 2 0 1

/-- What `f_interp_p_3d` reads: `_A_p` (its three components, evaluated at the faces), `self.p2_center`, `self.p3_center`, `self.p2_start`, `self.p3_start`, `self.dp2`,
`self.dp3` — `interpolation_routines.py:84-100, 157-175`. -/
structure AslPIn (K : Type) where
  (A1 A2 A3 p2c p3c p2s p3s dp2 dp3 : PyExpr K)

/-- The positions along one momentum axis: `multiply(add(p_new, -add(p_start, 0.5 * dp)), 1 / dp)` with `p_new = _convert_to_p_expanded(add(p_center, - dt * A_p))` —
`interpolation_routines.py:157-172`. -/
def arrInterpolant (z : GridSizes) (dt : K) (pc A ps dp : PyExpr K) : PyExpr K :=
  multiply [addAll [(addAll [pc, num (neg dt) * A]).toP z, -addAll [ps, const (1 / 2) * dp]], const 1 / dp]

/-- `f_interp_p_3d(self, dt)` — `interpolation_routines.py:60-195`.  `A_p1` is evaluated and not used. -/
def arrInterpP3d (kern : Kernel K) (z : GridSizes) (x : AslPIn K) (dt : K) (f : AfArray K) : Except PyErr (AfArray K) := do
  let _ ← x.A1.array
  let x2 ← (arrInterpolant z dt x.p2c x.A2 x.p2s x.dp2).array
  let x3 ← (arrInterpolant z dt x.p3c x.A3 x.p3s x.dp3).array
  let fp ← convertToPExpanded z f
  let v ← AfArray.approx2At kern (fp.reorder 1 2 0 3) (x2.reorder 1 2 0 3) (x3.reorder 1 2 0 3)
  convertToQExpanded z (v.reorder 2 0 1 3)

/-- `op_advect_q` on all processes of a periodic run — `asl_operators.py:20-37`: communicate (the boundary conditions do nothing more on a periodic domain), interpolate. -/
def Decomp.ArrAdvectQ {N1 N2 : ℕ} {R : Type} (D : Decomp N1 N2 R) (g1 g2 Np1 Np2 Np3 Ns : ℕ) (kern : Kernel K) (q1 q2 : R → AfArray K) (A1 A2 : R → PyExpr K) (dt : K)
    (F F' : R → AfArray K) : Prop :=
  ∃ st G, D.Communicates (D.sizes Np1 Np2 Np3 Ns g1 g2) g1 g2 .periodic .periodic (Np1 * Np2 * Np3) Ns st F G ∧
    ∀ r, arrInterp2d kern (q1 r) (q2 r) (A1 r) (A2 r) dt (G r) = .ok (F' r)

end

namespace Mach
variable {K : Type} [Machine K] {S P : Type}

/-- `fInterp2d` of `Model/ASL` in any arithmetic and with any kernel — `interpolation_routines.py:9-58`. -/
def fInterp2d (kern : Kernel K) {M1 M2 : ℕ} (q : Coords K) (A1 A2 : S → P → ZMod M1 × ZMod M2 → K) (dt : K) (f : Dist S P (ZMod M1 × ZMod M2) K) :
    Dist S P (ZMod M1 × ZMod M2) K := fun s p l =>
  kern M1 M2 (fun a b => f s p ((a : ZMod M1), (b : ZMod M2)))
    (((q.1 l.1.val l.2.val ⊞ neg (A1 s p l) ⊠ dt) ⊟ q.1 0 0) ⊘ (q.1 1 0 ⊟ q.1 0 0))
    (((q.2 l.1.val l.2.val ⊞ neg (A2 s p l) ⊠ dt) ⊟ q.2 0 0) ⊘ (q.2 0 1 ⊟ q.2 0 0))

/-- `fInterpP3d` of `Model/ASL` in any arithmetic and with any kernel — `interpolation_routines.py:60-195`.  `pc2`, `pc3` are the cell centres; `p2s`, `p3s`, `dp2`, `dp3` the
elements of `self.p2_start` etc. the broadcasts combine with the cell. -/
def fInterpP3d (kern : Kernel K) {Q : Type} {Np1 Np2 Np3 : ℕ} (pc2 pc3 p2s p3s dp2 dp3 : S → AslPIdx Np1 Np2 Np3 → K) (A2 A3 : Dist S (AslPIdx Np1 Np2 Np3) Q K) (dt : K)
    (f : Dist S (AslPIdx Np1 Np2 Np3) Q K) : Dist S (AslPIdx Np1 Np2 Np3) Q K := fun s p q =>
  kern Np2 Np3 (fun a b => f s (p.1, (a : ZMod Np2), (b : ZMod Np3)) q)
    (((pc2 s p ⊞ neg dt ⊠ A2 s p q) ⊞ neg (p2s s p ⊞ lit (1 / 2) ⊠ dp2 s p)) ⊠ (lit 1 ⊘ dp2 s p))
    (((pc3 s p ⊞ neg dt ⊠ A3 s p q) ⊞ neg (p3s s p ⊞ lit (1 / 2) ⊠ dp3 s p)) ⊠ (lit 1 ⊘ dp3 s p))

end Mach

end Bolt
