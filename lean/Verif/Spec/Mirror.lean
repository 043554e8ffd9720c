import Verif.Spec.Symmetry

/-! Specification vocabulary for a reversed first axis. -/

namespace Bolt

variable {Q S P K : Type}

/-! ### the same cells, with the first axis pointing the other way -/

/-- Cell-centred fields seen when the first axis points the other way: the component of `E` along it changes sign, and so do
the components of `B` across it. -/
def EM.mirror [Neg K] (F : EM Q K) : EM Q K := ⟨fun i => -F.E1 i, F.E2, F.E3, F.B1, fun i => -F.B2 i, fun i => -F.B3 i⟩

/-- The same for staggered fields: `E1`, `B2` and `B3` are kept on the faces across the first axis, and the right face of a cell becomes its left
face. -/
def EM.mirrorYee [Neg K] [Add Q] (q1 : Q) (F : EM Q K) : EM Q K :=
  ⟨fun i => -F.E1 (i + q1), F.E2, F.E3, F.B1, fun i => -F.B2 (i + q1), fun i => -F.B3 (i + q1)⟩

/-- The axes, with the first ones reversed in position and momentum. -/
def Axes.mirror [Neg P] [Neg Q] (ax : Axes P Q) : Axes P Q := ⟨-ax.p1, ax.p2, ax.p3, -ax.q1, ax.q2⟩

/-- The options, with the first axes reversed in position and momentum. -/
def CoupledConfig.mirror [Neg P] [Neg Q] [Neg K] (c : CoupledConfig S P Q K) : CoupledConfig S P Q K :=
  { toFVMConfig := c.toFVMConfig, ax := c.ax.mirror, fieldsType := c.fieldsType, fieldsSolver := c.fieldsSolver,
    charge := c.charge, coords := ⟨fun s p => -c.coords.p1 s p, c.coords.p2, c.coords.p3⟩, eps := c.eps, mu := c.mu, hybrid := c.hybrid, Te := c.Te }

/-- The state of the fields solver with the first axis reversed. -/
def FieldState.mirror [Neg K] [Add Q] (q1 : Q) (σ : FieldState Q K) : FieldState Q K := σ.mapEM EM.mirror (EM.mirrorYee q1) id

/-- The callbacks return the same with the first axes reversed. -/
structure CallbacksMirror [Neg K] [Add P] [Add Q] (ax : Axes P Q) (cb' cb : CoupledCallbacks S P Q K) : Prop where
  q1 : ∀ s p i, cb'.Cq1 s p i = -cb.Cq1 s p (i + ax.q1)
  q2 : cb'.Cq2 = cb.Cq2
  p1 : ∀ (F : EM Q K) s p i, cb'.Cp1 F.mirror s p i = -cb.Cp1 F s (p + ax.p1) i
  p2 : ∀ F : EM Q K, cb'.Cp2 F.mirror = cb.Cp2 F
  p3 : ∀ F : EM Q K, cb'.Cp3 F.mirror = cb.Cp3 F
  src : cb'.source = cb.source

/-! ### the mirror image on a grid -/

section
variable {N1 N2 M1 : ℕ} {P' : Type}

/-- The cell in the mirror: the first becomes the last. -/
def mirrorCell (i : ZMod N1 × ZMod N2) : ZMod N1 × ZMod N2 := (-1 - i.1, i.2)

/-- The left face in the mirror: the face on the left of the first cell becomes the one on the right of the last, which is the same one. -/
def mirrorFace (i : ZMod N1 × ZMod N2) : ZMod N1 × ZMod N2 := (-i.1, i.2)

/-- The momentum in the mirror. -/
def mirrorP (p : ZMod M1 × P') : ZMod M1 × P' := (-1 - p.1, p.2)

/-- The left momentum face in the mirror. -/
def mirrorPFace (p : ZMod M1 × P') : ZMod M1 × P' := (-p.1, p.2)

/-- The distribution function in the mirror. -/
def Dist.mirrored (f : Dist S (ZMod M1 × P') (ZMod N1 × ZMod N2) K) : Dist S (ZMod M1 × P') (ZMod N1 × ZMod N2) K :=
  fun s p i => f s (mirrorP p) (mirrorCell i)

/-- Cell-centred fields in the mirror. -/
def EM.mirrored [Neg K] (F : EM (ZMod N1 × ZMod N2) K) : EM (ZMod N1 × ZMod N2) K :=
  ⟨fun i => -F.E1 (mirrorCell i), fun i => F.E2 (mirrorCell i), fun i => F.E3 (mirrorCell i),
   fun i => F.B1 (mirrorCell i), fun i => -F.B2 (mirrorCell i), fun i => -F.B3 (mirrorCell i)⟩

/-- Staggered fields in the mirror: `E1`, `B2` and `B3` are on the left faces. -/
def EM.mirroredYee [Neg K] (F : EM (ZMod N1 × ZMod N2) K) : EM (ZMod N1 × ZMod N2) K :=
  ⟨fun i => -F.E1 (mirrorFace i), fun i => F.E2 (mirrorCell i), fun i => F.E3 (mirrorCell i),
   fun i => F.B1 (mirrorCell i), fun i => -F.B2 (mirrorFace i), fun i => -F.B3 (mirrorFace i)⟩

/-- The state of the fields solver in the mirror. -/
def FieldState.mirrored [Neg K] (σ : FieldState (ZMod N1 × ZMod N2) K) : FieldState (ZMod N1 × ZMod N2) K :=
  σ.mapEM EM.mirrored EM.mirroredYee id

/-- The options in the mirror: only the coordinates of the momentum grid change. -/
def CoupledConfig.mirrored [Neg K] (c : CoupledConfig S (ZMod M1 × P') (ZMod N1 × ZMod N2) K) : CoupledConfig S (ZMod M1 × P') (ZMod N1 × ZMod N2) K :=
  { c with coords := ⟨fun s p => -c.coords.p1 s (mirrorP p), fun s p => c.coords.p2 s (mirrorP p), fun s p => c.coords.p3 s (mirrorP p)⟩ }

/-- The callbacks in the mirror: components along the first axis change sign and live on the left faces. -/
structure CallbacksMirrored [Neg K] (cb' cb : CoupledCallbacks S (ZMod M1 × P') (ZMod N1 × ZMod N2) K) : Prop where
  q1 : ∀ s p i, cb'.Cq1 s p i = -cb.Cq1 s (mirrorP p) (mirrorFace i)
  q2 : ∀ s p i, cb'.Cq2 s p i = cb.Cq2 s (mirrorP p) (mirrorCell i)
  p1 : ∀ F s p i, cb'.Cp1 F.mirrored s p i = -cb.Cp1 F s (mirrorPFace p) (mirrorCell i)
  p2 : ∀ F s p i, cb'.Cp2 F.mirrored s p i = cb.Cp2 F s (mirrorP p) (mirrorCell i)
  p3 : ∀ F s p i, cb'.Cp3 F.mirrored s p i = cb.Cp3 F s (mirrorP p) (mirrorCell i)
  src : ∀ f, cb'.source f.mirrored = (cb.source f).mirrored

end

end Bolt
