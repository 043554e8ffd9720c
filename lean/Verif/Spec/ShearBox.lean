import Verif.Spec.Boundaries
import Verif.Spec.ASL

/-! Specification vocabulary for the shearing box. -/

namespace Bolt

variable {S P K : Type} {N1 N2 : ℕ} [Field K] [LinearOrder K] [FloorRing K]

/-- A box, periodic along the second axis, continued beyond its left and right ends by copies of itself that have slid along the second
axis by `δ` cells (upwards on the left, downwards on the right), read off by Catmull-Rom interpolation. -/
def shearExt1 (δ : K) (f : Dist S P (ZMod N1 × ZMod N2) K) : Dist S P (ℤ × ℤ) K := fun s p c =>
  if c.1 < 0 then catmullRom (fun b => f s p ((c.1 : ZMod N1), (b : ZMod N2))) (c.2 - δ)
  else if (N1 : ℤ) ≤ c.1 then catmullRom (fun b => f s p ((c.1 : ZMod N1), (b : ZMod N2))) (c.2 + δ)
  else f s p ((c.1 : ZMod N1), (c.2 : ZMod N2))

/-- The same with the axes exchanged. -/
def shearExt2 (δ : K) (f : Dist S P (ZMod N1 × ZMod N2) K) : Dist S P (ℤ × ℤ) K := fun s p c =>
  if c.2 < 0 then catmullRom (fun a => f s p ((a : ZMod N1), (c.2 : ZMod N2))) (c.1 - δ)
  else if (N2 : ℤ) ≤ c.2 then catmullRom (fun a => f s p ((a : ZMod N1), (c.2 : ZMod N2))) (c.1 + δ)
  else f s p ((c.1 : ZMod N1), (c.2 : ZMod N2))

/-- A box that is periodic along both axes. -/
def periodicExt (f : Dist S P (ZMod N1 × ZMod N2) K) : Dist S P (ℤ × ℤ) K := fun s p c => f s p ((c.1 : ZMod N1), (c.2 : ZMod N2))

/-- A run in a box whose continuation depends on the clock: both stages of a step use the continuation of its beginning. -/
def clockedRun [AddCommGroup P] (ext : K → Dist S P (ZMod N1 × ZMod N2) K → Dist S P (ℤ × ℤ) K) (ax : P × P × P) (cfg : FVMConfig S K) :
    K → List (K × (Fin 2 → Callbacks S P (ℤ × ℤ) K)) → Dist S P (ZMod N1 × ZMod N2) K → Except PyErr (Dist S P (ZMod N1 × ZMod N2) K)
  | _, [], f => .ok f
  | t, (dt, cb) :: rest, f => do
    let f' ← boxStep (ext t) ax cfg dt cb f
    clockedRun ext ax cfg (t + dt) rest f'

/-- Condition names of a box that shears along the second axis (resp. the first). -/
structure ShearsAlong2 (name : Wall → String) : Prop where
  left : name .left = "shearing-box"
  right : name .right = "shearing-box"
  bottom : name .bottom = "periodic"
  top : name .top = "periodic"
@[inherit_doc ShearsAlong2] structure ShearsAlong1 (name : Wall → String) : Prop where
  left : name .left = "periodic"
  right : name .right = "periodic"
  bottom : name .bottom = "shearing-box"
  top : name .top = "shearing-box"

/-- Callback values of a closed shearing box with walls at the ends of the first axis: through both walls every momentum flows at one velocity,
the velocities at the two ends of the second axis agree, and the source, if enabled, conserves the number of particles. -/
def ShearClosed1 [Fintype P] (cfg : FVMConfig S K) (s : S) (N1 N2 : ℕ) [NeZero N1] [NeZero N2] (cb : Callbacks S P (ℤ × ℤ) K) : Prop :=
  (∃ v : P → K, ∀ p (j : ZMod N2), cb.Cq1 s p (0, (j.val : ℤ)) = v p ∧ cb.Cq1 s p ((N1 : ℤ), (j.val : ℤ)) = v p) ∧
  (∀ p (i : ZMod N1), cb.Cq2 s p ((i.val : ℤ), (N2 : ℤ)) = cb.Cq2 s p ((i.val : ℤ), 0)) ∧
  (cfg.sourceEnabled = true → ∀ f, ∑ p, ∑ i : ZMod N1 × ZMod N2, cb.source f s p (boxCell i) = 0)

/-- The same with the axes exchanged. -/
def ShearClosed2 [Fintype P] (cfg : FVMConfig S K) (s : S) (N1 N2 : ℕ) [NeZero N1] [NeZero N2] (cb : Callbacks S P (ℤ × ℤ) K) : Prop :=
  (∀ p (j : ZMod N2), cb.Cq1 s p ((N1 : ℤ), (j.val : ℤ)) = cb.Cq1 s p (0, (j.val : ℤ))) ∧
  (∃ v : P → K, ∀ p (i : ZMod N1), cb.Cq2 s p ((i.val : ℤ), 0) = v p ∧ cb.Cq2 s p ((i.val : ℤ), (N2 : ℤ)) = v p) ∧
  (cfg.sourceEnabled = true → ∀ f, ∑ p, ∑ i : ZMod N1 × ZMod N2, cb.source f s p (boxCell i) = 0)

end Bolt
