import Verif.Model.Coupled
import Verif.Spec.Boundaries

/-! Specification vocabulary for comparing runs on two periodic grids. -/

namespace Bolt

variable {Q Q' S P K : Type}

/-- A map of the cells of one periodic grid to the cells of another that takes neighbours along each axis to neighbours along that axis:
a translation, the projection of a larger domain that consists of several copies of a smaller one, or of a two-dimensional domain onto
a one-dimensional one. -/
structure Covers [Add Q] [Add Q'] (φ : Q' → Q) (q1' q2' : Q') (q1 q2 : Q) : Prop where
  step1 : ∀ i, φ (i + q1') = φ i + q1
  step2 : ∀ i, φ (i + q2') = φ i + q2

/-- Fields copied from the second grid to the first. -/
def EM.pull (φ : Q' → Q) (F : EM Q K) : EM Q' K :=
  ⟨fun i => F.E1 (φ i), fun i => F.E2 (φ i), fun i => F.E3 (φ i), fun i => F.B1 (φ i), fun i => F.B2 (φ i), fun i => F.B3 (φ i)⟩

/-- The state of the fields solver copied. -/
def FieldState.pull (φ : Q' → Q) (σ : FieldState Q K) : FieldState Q' K :=
  ⟨fun k => (σ.heap k).pull φ, σ.cc, σ.atN, σ.atHalf, σ.yee.pull φ, σ.flag, σ.timeElapsed⟩

/-- A distribution function copied. -/
def Dist.pull (φ : Q' → Q) (f : Dist S P Q K) : Dist S P Q' K := fun s p i => f s p (φ i)

/-- The callbacks on the first grid return, on copied data, copies of what those on the second return. -/
structure CallbacksCover (φ : Q' → Q) (cb' : CoupledCallbacks S P Q' K) (cb : CoupledCallbacks S P Q K) : Prop where
  q1 : cb'.Cq1 = Dist.pull φ cb.Cq1
  q2 : cb'.Cq2 = Dist.pull φ cb.Cq2
  p1 : ∀ F, cb'.Cp1 (F.pull φ) = Dist.pull φ (cb.Cp1 F)
  p2 : ∀ F, cb'.Cp2 (F.pull φ) = Dist.pull φ (cb.Cp2 F)
  p3 : ∀ F, cb'.Cp3 (F.pull φ) = Dist.pull φ (cb.Cp3 F)
  src : ∀ f, cb'.source (Dist.pull φ f) = Dist.pull φ (cb.source f)

/-- The same options on another grid. -/
def CoupledConfig.onGrid (c : CoupledConfig S P Q K) (q1' q2' : Q') : CoupledConfig S P Q' K :=
  { c with ax := ⟨c.ax.p1, c.ax.p2, c.ax.p3, q1', q2'⟩ }

/-- A distribution function and fields that do not vary along a direction. -/
def InvariantAlong [Add Q] (t : Q) (f : Dist S P Q K) (σ : FieldState Q K) : Prop :=
  (∀ s p i, f s p (i + t) = f s p i) ∧ (∀ k i, σ.yee.comp k (i + t) = σ.yee.comp k i) ∧
    ∀ o k i, (σ.heap o).comp k (i + t) = (σ.heap o).comp k i

end Bolt
