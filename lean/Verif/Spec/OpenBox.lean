import Verif.Spec.Boundaries

/-! Specification vocabulary for boxes with open walls: what comes in through a wall. -/

namespace Bolt

variable {S P K : Type} {N1 N2 : ℕ}

/-- What comes in through a wall: with `dirichlet` the user's value, with `mirror` the mirrored value `m`, with `mirror+dirichlet` the value the
user's function `u` makes of the mirrored value. -/
def comesIn [Zero K] (name : String) (u : K → K) (m : K) : K :=
  if name = "dirichlet" then u 0 else if name = "mirror" then m else u m

/-- The direction closes on itself (or is one cell without ghost zones). -/
def closes (first : String) : Prop := first = "periodic" ∨ first = "none"

instance (first : String) : Decidable (closes first) := by unfold closes; infer_instance

/-- The distribution in the box, continued beyond each open wall by what comes in through it; `fl` reverses the momentum at a wall and
`inc w s p c` is the user's function for wall `w` in cell `c`. -/
def openExt [Zero K] (name : Wall → String) (fl : Wall → P → P) (inc : Wall → S → P → ℤ × ℤ → K → K) (f : Dist S P (ZMod N1 × ZMod N2) K) :
    Dist S P (ℤ × ℤ) K := fun s p c =>
  if ¬ closes (name .left) ∧ c.1 < 0 then comesIn (name .left) (inc .left s p c) (f s (fl .left p) ((-1 - c.1 : ℤ), (c.2 : ℤ)))
  else if ¬ closes (name .left) ∧ N1 ≤ c.1 then
    comesIn (name .right) (inc .right s p c) (f s (fl .right p) ((2 * N1 - 1 - c.1 : ℤ), (c.2 : ℤ)))
  else if ¬ closes (name .bottom) ∧ c.2 < 0 then comesIn (name .bottom) (inc .bottom s p c) (f s (fl .bottom p) ((c.1 : ℤ), (-1 - c.2 : ℤ)))
  else if ¬ closes (name .bottom) ∧ N2 ≤ c.2 then
    comesIn (name .top) (inc .top s p c) (f s (fl .top p) ((c.1 : ℤ), (2 * N2 - 1 - c.2 : ℤ)))
  else f s p ((c.1 : ℤ), (c.2 : ℤ))

/-- The condition names of the two ends of a direction with `N` cells: periodic, one cell without ghost zones, or two walls each of which is
`dirichlet`, `mirror` or `mirror+dirichlet`. -/
def OpenSetup (lo hi : String) (N : ℕ) : Prop :=
  (lo = "periodic" ∧ hi = "periodic") ∨ (lo = "none" ∧ hi = "none" ∧ N = 1) ∨
    (lo ∈ ["dirichlet", "mirror", "mirror+dirichlet"] ∧ hi ∈ ["dirichlet", "mirror", "mirror+dirichlet"])

variable [Field K] [LinearOrder K] [AddCommGroup P]

/-- The distribution `f` advanced by `dt` with the rate of change the distribution `y` has in the box, without any decomposition or ghost
zones. -/
def openEuler (name : Wall → String) (fl : Wall → P → P) (ax : P × P × P) (cfg : FVMConfig S K) (dt : K)
    (inc : Wall → S → P → ℤ × ℤ → K → K) (cb : Callbacks S P (ℤ × ℤ) K) (y f : Dist S P (ZMod N1 × ZMod N2) K) :
    Except PyErr (Dist S P (ZMod N1 × ZMod N2) K) := do
  let k ← dfdtFVM ⟨ax.1, ax.2.1, ax.2.2, (1, 0), (0, 1)⟩ cfg cb (openExt name fl inc y)
  return fun s p i => f s p i + k s p (boxCell i) * dt

/-- One midpoint step of the box. -/
def openStep (name : Wall → String) (fl : Wall → P → P) (ax : P × P × P) (cfg : FVMConfig S K) (dt : K)
    (inc : Fin 2 → Wall → S → P → ℤ × ℤ → K → K) (cb : Fin 2 → Callbacks S P (ℤ × ℤ) K) (f : Dist S P (ZMod N1 × ZMod N2) K) :
    Except PyErr (Dist S P (ZMod N1 × ZMod N2) K) := do
  let fh ← openEuler name fl ax cfg (dt / 2) (inc 0) (cb 0) f f
  openEuler name fl ax cfg dt (inc 1) (cb 1) fh f

/-- Successive steps. -/
def openRun (name : Wall → String) (fl : Wall → P → P) (ax : P × P × P) (cfg : FVMConfig S K) :
    List (K × (Fin 2 → Wall → S → P → ℤ × ℤ → K → K) × (Fin 2 → Callbacks S P (ℤ × ℤ) K)) → Dist S P (ZMod N1 × ZMod N2) K →
      Except PyErr (Dist S P (ZMod N1 × ZMod N2) K)
  | [], f => .ok f
  | (dt, inc, cb) :: rest, f => do
    let f' ← openStep name fl ax cfg dt inc cb f
    openRun name fl ax cfg rest f'

/-- The ghost zones of a direction reach the neighbouring cells. -/
def OpenGhosts (first : String) (g N : ℕ) : Prop := 1 ≤ g ∨ (closes first ∧ g = 0 ∧ N = 1)

/-- Upwind flux through a face with velocity `v` between the values `a` (before) and `b` (behind). -/
def upwindFace (v a b : K) : K := v * if 0 < v then a else b

/-- What flows into the box through the faces at its ends, per unit time, over all momenta: `y` is the distribution in the box and beyond
its ends. -/
def netInflow [Fintype P] (N1 N2 : ℕ) [NeZero N1] [NeZero N2] (cfg : FVMConfig S K) (cb : Callbacks S P (ℤ × ℤ) K) (y : Dist S P (ℤ × ℤ) K)
    (s : S) : K :=
  (∑ p, ∑ j : ZMod N2, (upwindFace (cb.Cq1 s p (0, (j.val : ℤ))) (y s p (-1, (j.val : ℤ))) (y s p (0, (j.val : ℤ)))
    - upwindFace (cb.Cq1 s p ((N1 : ℤ), (j.val : ℤ))) (y s p ((N1 : ℤ) - 1, (j.val : ℤ))) (y s p ((N1 : ℤ), (j.val : ℤ))))) / cfg.dq1
  + (∑ p, ∑ i : ZMod N1, (upwindFace (cb.Cq2 s p ((i.val : ℤ), 0)) (y s p ((i.val : ℤ), -1)) (y s p ((i.val : ℤ), 0))
    - upwindFace (cb.Cq2 s p ((i.val : ℤ), (N2 : ℤ))) (y s p ((i.val : ℤ), (N2 : ℤ) - 1)) (y s p ((i.val : ℤ), (N2 : ℤ))))) / cfg.dq2

/-- A wall through which at most as much comes back as leaves, `v p` being the velocity at it: nothing comes in (`dirichlet` with value 0), a
mirror (velocities reversed together with the momentum), or a wall returning at most the mirrored value. -/
def LossyWall (name : String) (flip : P → P) (u : P → K → K) (v : P → K) : Prop :=
  (name = "dirichlet" ∧ ∀ p x, u p x = 0) ∨ (name = "mirror" ∧ ∀ p, v (flip p) = - v p) ∨
    (name = "mirror+dirichlet" ∧ (∀ p x, 0 ≤ x → u p x ≤ x) ∧ ∀ p, v (flip p) = - v p)

/-- Each direction closes on itself with the same velocity on both sides, or ends at two walls of this kind. -/
def Lossy (N1 N2 : ℕ) [NeZero N1] [NeZero N2] (name : Wall → String) (fl : Wall → P → P) (s : S) (inc : Wall → S → P → ℤ × ℤ → K → K)
    (cb : Callbacks S P (ℤ × ℤ) K) : Prop :=
  (∀ j : ZMod N2, (closes (name .left) ∧ ∀ p, cb.Cq1 s p (0, (j.val : ℤ)) = cb.Cq1 s p ((N1 : ℤ), (j.val : ℤ))) ∨
    (¬ closes (name .left) ∧
      LossyWall (name .left) (fl .left) (fun p => inc .left s p (-1, (j.val : ℤ))) (fun p => cb.Cq1 s p (0, (j.val : ℤ))) ∧
      LossyWall (name .right) (fl .right) (fun p => inc .right s p ((N1 : ℤ), (j.val : ℤ))) (fun p => cb.Cq1 s p ((N1 : ℤ), (j.val : ℤ))))) ∧
  (∀ i : ZMod N1, (closes (name .bottom) ∧ ∀ p, cb.Cq2 s p ((i.val : ℤ), 0) = cb.Cq2 s p ((i.val : ℤ), (N2 : ℤ))) ∨
    (¬ closes (name .bottom) ∧
      LossyWall (name .bottom) (fl .bottom) (fun p => inc .bottom s p ((i.val : ℤ), -1)) (fun p => cb.Cq2 s p ((i.val : ℤ), 0)) ∧
      LossyWall (name .top) (fl .top) (fun p => inc .top s p ((i.val : ℤ), (N2 : ℤ))) (fun p => cb.Cq2 s p ((i.val : ℤ), (N2 : ℤ)))))

namespace Decomp

variable {R : Type} (D : Decomp N1 N2 R) (g1 g2 : ℕ) {Np1 Np2 Np3 : ℕ}

omit [Field K] in
/-- The boundary callbacks of a process are those of functions on the plane: the user's functions act on each value by itself (and ignore it
at a `dirichlet` wall), and where the velocity on a face of the box points inwards, so does the velocity in the ghost cell behind the face. -/
structure WallsAgree [Zero K] (o : BCOptions) (r : R) (dat : D.LocBCData g1 g2 r S Np1 Np2 Np3 K) (loc : Callbacks S (PIdx Np1 Np2 Np3) (D.Loc g1 g2 r) K)
    (inc : Wall → S → PIdx Np1 Np2 Np3 → ℤ × ℤ → K → K) : Prop where
  user : ∀ w x s p l, dat.user w x s p l = inc w s p (D.signed g1 g2 r l) (x s p l)
  ignores : ∀ w, o.name w = "dirichlet" → ∀ s p c x y, inc w s p c x = inc w s p c y
  left : ∀ s p l, D.Interior g1 g2 r l → (D.signed g1 g2 r l).1 = 0 → 0 < loc.Cq1 s p l → 0 < dat.Cq1 s p (l - (1, 0))
  right : ∀ s p l, D.Interior g1 g2 r l → (D.signed g1 g2 r l).1 = N1 - 1 → loc.Cq1 s p (l + (1, 0)) < 0 → dat.Cq1 s p (l + (1, 0)) < 0
  bottom : ∀ s p l, D.Interior g1 g2 r l → (D.signed g1 g2 r l).2 = 0 → 0 < loc.Cq2 s p l → 0 < dat.Cq2 s p (l - (0, 1))
  top : ∀ s p l, D.Interior g1 g2 r l → (D.signed g1 g2 r l).2 = N2 - 1 → loc.Cq2 s p (l + (0, 1)) < 0 → dat.Cq2 s p (l + (0, 1)) < 0

end Decomp

end Bolt
