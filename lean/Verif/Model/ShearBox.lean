import Verif.Model.Shear
import Verif.Model.ASL

/-!
# The values in the ghost cells of a shearing box (`bolt/lib/nonlinear/boundaries.py:6-145`)

`Verif/Model/Shear.lean` models the sheared coordinates.  This file adds the bicubic interpolation of the ghost slab at those coordinates.
Simplification: the slab has at least two cells along both axes (the position scaling of `af.approx2` reads the second element of `xp`, `yp`).
-/

namespace Bolt

variable {S K : Type} {Np1 Np2 Np3 M1 M2 : ℕ} [Field K] [LinearOrder K] [IsStrictOrderedRing K] [FloorRing K]

/-- `af.approx2` of a ghost slab with `xp`, `yp` the coordinate arrays of the slab, at one cell `l` of the slab whose sheared coordinate is
`x` — `boundaries.py:43-51` (left), `72-80` (right), `102-110` (bottom), `132-140` (top).  `q` are `q1_center`, `q2_center`. -/
def shearedSlab (g : ℕ) (w : Wall) (q : Coords K) (x : K) (f : LDist S Np1 Np2 Np3 M1 M2 K) (s : S) (p : PIdx Np1 Np2 Np3)
    (l : ZMod M1 × ZMod M2) : K :=
  let y1 := q.1 l.1.val l.2.val
  let y2 := q.2 l.1.val l.2.val
  let a0 := M1 - g   -- first row of `-N_g:`
  let b0 := M2 - g
  match w with
  | .left => approx2 g M2 (fun a b => f s p ((a : ZMod M1), (b : ZMod M2)))
      (scalePos y1 (q.1 0 0) (q.1 1 0)) (scalePos x (q.2 0 0) (q.2 0 1))
  | .right => approx2 g M2 (fun a b => f s p (((a0 + a : ℤ) : ZMod M1), (b : ZMod M2)))
      (scalePos y1 (q.1 a0 0) (q.1 (a0 + 1) 0)) (scalePos x (q.2 a0 0) (q.2 a0 1))
  | .bottom => approx2 M1 g (fun a b => f s p ((a : ZMod M1), (b : ZMod M2)))
      (scalePos x (q.1 0 0) (q.1 1 0)) (scalePos y2 (q.2 0 0) (q.2 0 1))
  | .top => approx2 M1 g (fun a b => f s p ((a : ZMod M1), ((b0 + b : ℤ) : ZMod M2)))
      (scalePos x (q.1 0 b0) (q.1 1 b0)) (scalePos y2 (q.2 0 b0) (q.2 0 (b0 + 1)))

/-- The interpolation used by the boundary routine is that of the code, with the sheared coordinates of `boundaries.py:24-38` etc. -/
def ShearsLike (sp : ShearParams K) (g : ℕ) (name : Wall → String) (q : Coords K) (dat : BCData S Np1 Np2 Np3 M1 M2 K) : Prop :=
  ∀ w, name w = "shearing-box" → ∃ x : {l : ZMod M1 × ZMod M2 // inSlab g w l} → K,
    ShearedCoords sp w (fun l => q.1 l.1.1.val l.1.2.val) (fun l => q.2 l.1.1.val l.1.2.val) x ∧
    ∀ f s p l, dat.sheared w f s p l.1 = shearedSlab g w q (x l) f s p l.1

namespace Decomp

variable {N1 N2 : ℕ} {R : Type} (D : Decomp N1 N2 R) (g1 g2 : ℕ)

/-- The boundary data of all steps of a run: both stages of a step see the clock of its beginning (`timestep.py:92,153,214` advance
`time_elapsed` after the operators). -/
def ClockedShear (sp : ShearParams K) (o : BCOptions) (dq1 dq2 : K) : K →
    List (K × (Fin 2 → ∀ r, D.LocBCData g1 g2 r S Np1 Np2 Np3 K) × (Fin 2 → ∀ r, Callbacks S (PIdx Np1 Np2 Np3) (D.Loc g1 g2 r) K)) → Prop
  | _, [] => True
  | t, (dt, dat, _) :: rest =>
    (∀ j r, ShearsLike { sp with time := t } o.nGhost o.name (D.coords g1 g2 sp.q1Start sp.q2Start dq1 dq2 r).2.2.2 (dat j r)) ∧
    ClockedShear sp o dq1 dq2 (t + dt) rest

end Decomp

end Bolt
