import Verif.Spec.Boundaries
import Verif.Spec.Cover
import Mathlib.Data.ZMod.Basic
import Verif.Model.NonrelCoupled
import Verif.Model.Coupled

/-! Specification vocabulary for symmetries of the equations: exchanging the two axes, reversing an axis, changing units. -/

namespace Bolt

variable {Q Q' S P K : Type}

/-- A fields solver whose cell-centred arrays are replaced by `G` of them, its staggered array by `H` of it, and its clock by `tm` of it. -/
def FieldState.mapEM (G H : EM Q K → EM Q' K) (tm : K → K) (σ : FieldState Q K) : FieldState Q' K :=
  ⟨fun k => G (σ.heap k), σ.cc, σ.atN, σ.atHalf, H σ.yee, σ.flag, tm σ.timeElapsed⟩

/-! ### names of the momentum indices -/

/-- The same options when the momenta are enumerated in another way, by `π`. -/
def CoupledConfig.onMomenta {P' : Type} (c : CoupledConfig S P Q K) (π : P' → P) (p1 p2 p3 : P') : CoupledConfig S P' Q K :=
  { toFVMConfig := c.toFVMConfig, ax := ⟨p1, p2, p3, c.ax.q1, c.ax.q2⟩, fieldsType := c.fieldsType, fieldsSolver := c.fieldsSolver,
    charge := c.charge, coords := ⟨fun s p => c.coords.p1 s (π p), fun s p => c.coords.p2 s (π p), fun s p => c.coords.p3 s (π p)⟩,
    eps := c.eps, mu := c.mu, hybrid := c.hybrid, Te := c.Te }

/-- A distribution function in the other enumeration. -/
def Dist.onMomenta {P' : Type} (π : P' → P) (f : Dist S P Q K) : Dist S P' Q K := fun s p q => f s (π p) q

/-- The callbacks return the same in both enumerations. -/
structure CallbacksMomenta {P' : Type} (π : P' → P) (cb' : CoupledCallbacks S P' Q K) (cb : CoupledCallbacks S P Q K) : Prop where
  q1 : cb'.Cq1 = cb.Cq1.onMomenta π
  q2 : cb'.Cq2 = cb.Cq2.onMomenta π
  p1 : ∀ F, cb'.Cp1 F = (cb.Cp1 F).onMomenta π
  p2 : ∀ F, cb'.Cp2 F = (cb.Cp2 F).onMomenta π
  p3 : ∀ F, cb'.Cp3 F = (cb.Cp3 F).onMomenta π
  src : ∀ f : Dist S P Q K, cb'.source (f.onMomenta π) = (cb.source f).onMomenta π

/-- A distribution function with both momenta and positions enumerated in another way. -/
def Dist.renamed {P' : Type} (π : P' → P) (φ : Q' → Q) (f : Dist S P Q K) : Dist S P' Q' K := fun s p i => f s (π p) (φ i)

/-- The callbacks return the same in both enumerations. -/
structure CallbacksRenamed {P' : Type} (π : P' → P) (φ : Q' → Q) (cb' : CoupledCallbacks S P' Q' K) (cb : CoupledCallbacks S P Q K) : Prop where
  q1 : cb'.Cq1 = cb.Cq1.renamed π φ
  q2 : cb'.Cq2 = cb.Cq2.renamed π φ
  p1 : ∀ F : EM Q K, cb'.Cp1 (F.pull φ) = (cb.Cp1 F).renamed π φ
  p2 : ∀ F : EM Q K, cb'.Cp2 (F.pull φ) = (cb.Cp2 F).renamed π φ
  p3 : ∀ F : EM Q K, cb'.Cp3 (F.pull φ) = (cb.Cp3 F).renamed π φ
  src : ∀ f : Dist S P Q K, cb'.source (f.renamed π φ) = (cb.source f).renamed π φ

/-! ### exchange of the axes -/

/-- The fields seen when the first axis is called the second and conversely: components of `E` are exchanged; the reflection this
amounts to reverses `B` as well. -/
def EM.exchange [Neg K] (F : EM Q K) : EM Q K :=
  ⟨F.E2, F.E1, F.E3, fun i => -F.B2 i, fun i => -F.B1 i, fun i => -F.B3 i⟩

@[inherit_doc EM.exchange]
def PCoords.exchange (c : PCoords S P K) : PCoords S P K := ⟨c.p2, c.p1, c.p3⟩

/-- The configuration with the roles of the axes exchanged, in position and in momentum. -/
def FVMConfig.exchange (c : FVMConfig S K) : FVMConfig S K :=
  { c with dq1 := c.dq2, dq2 := c.dq1, dp1 := c.dp2, dp2 := c.dp1 }

@[inherit_doc FVMConfig.exchange]
def Axes.exchange (ax : Axes P Q) : Axes P Q := ⟨ax.p2, ax.p1, ax.p3, ax.q2, ax.q1⟩

@[inherit_doc FVMConfig.exchange]
def CoupledConfig.exchange (c : CoupledConfig S P Q K) : CoupledConfig S P Q K :=
  { toFVMConfig := c.toFVMConfig.exchange, ax := c.ax.exchange, fieldsType := c.fieldsType, fieldsSolver := c.fieldsSolver,
    charge := c.charge, coords := c.coords.exchange, eps := c.eps, mu := c.mu, hybrid := c.hybrid, Te := c.Te }

/-- The callbacks return the same under the new names of the axes. -/
structure CallbacksExchange [Neg K] (cb' cb : CoupledCallbacks S P Q K) : Prop where
  q1 : cb'.Cq1 = cb.Cq2
  q2 : cb'.Cq2 = cb.Cq1
  p1 : ∀ F : EM Q K, cb'.Cp1 F.exchange = cb.Cp2 F
  p2 : ∀ F : EM Q K, cb'.Cp2 F.exchange = cb.Cp1 F
  p3 : ∀ F : EM Q K, cb'.Cp3 F.exchange = cb.Cp3 F
  src : cb'.source = cb.source

/-- The state under the new names of the axes. -/
def FieldState.exchange [Neg K] (σ : FieldState Q K) : FieldState Q K := σ.mapEM EM.exchange EM.exchange id

/-- A position of the exchanged grid in the original one. -/
def swapQ {N1 N2 : ℕ} (i : ZMod N2 × ZMod N1) : ZMod N1 × ZMod N2 := (i.2, i.1)

/-- A momentum of the exchanged grid in the original one. -/
def swapP {M1 M2 M3 : ℕ} (p : ZMod M2 × ZMod M1 × ZMod M3) : ZMod M1 × ZMod M2 × ZMod M3 := (p.2.1, p.1, p.2.2)

/-- The options for the exchanged grid: `N1` and `N2`, the spacings and the coordinates change places. -/
def CoupledConfig.exchanged {N1 N2 M1 M2 M3 : ℕ} (c : CoupledConfig S (ZMod M1 × ZMod M2 × ZMod M3) (ZMod N1 × ZMod N2) K) :
    CoupledConfig S (ZMod M2 × ZMod M1 × ZMod M3) (ZMod N2 × ZMod N1) K where
  solverMethodInQ := c.solverMethodInQ
  solverMethodInP := c.solverMethodInP
  reconstructionInQ := c.reconstructionInQ
  reconstructionInP := c.reconstructionInP
  riemannInQ := c.riemannInQ
  riemannInP := c.riemannInP
  sourceEnabled := c.sourceEnabled
  fieldsEnabled := c.fieldsEnabled
  dq1 := c.dq2
  dq2 := c.dq1
  dp1 := c.dp2
  dp2 := c.dp1
  dp3 := c.dp3
  ax := ⟨(1, 0, 0), (0, 1, 0), (0, 0, 1), (1, 0), (0, 1)⟩
  fieldsType := c.fieldsType
  fieldsSolver := c.fieldsSolver
  charge := c.charge
  coords := ⟨fun s p => c.coords.p2 s (swapP p), fun s p => c.coords.p1 s (swapP p), fun s p => c.coords.p3 s (swapP p)⟩
  eps := c.eps
  mu := c.mu
  hybrid := c.hybrid
  Te := c.Te

/-- A distribution function on the exchanged grid. -/
def Dist.exchanged {N1 N2 M1 M2 M3 : ℕ} (f : Dist S (ZMod M1 × ZMod M2 × ZMod M3) (ZMod N1 × ZMod N2) K) :
    Dist S (ZMod M2 × ZMod M1 × ZMod M3) (ZMod N2 × ZMod N1) K := fun s p i => f s (swapP p) (swapQ i)

/-- Fields on the exchanged grid. -/
def EM.exchanged [Neg K] {N1 N2 : ℕ} (F : EM (ZMod N1 × ZMod N2) K) : EM (ZMod N2 × ZMod N1) K :=
  ⟨fun i => F.E2 (swapQ i), fun i => F.E1 (swapQ i), fun i => F.E3 (swapQ i), fun i => -F.B2 (swapQ i), fun i => -F.B1 (swapQ i), fun i => -F.B3 (swapQ i)⟩

/-- The state of the fields solver on the exchanged grid. -/
def FieldState.exchanged [Neg K] {N1 N2 : ℕ} (σ : FieldState (ZMod N1 × ZMod N2) K) : FieldState (ZMod N2 × ZMod N1) K :=
  σ.mapEM EM.exchanged EM.exchanged id

/-- The callbacks on the exchanged grid return, for exchanged data, what those on the original grid return, with the axes exchanged. -/
structure CallbacksExchanged [Neg K] {N1 N2 M1 M2 M3 : ℕ} (cb' : CoupledCallbacks S (ZMod M2 × ZMod M1 × ZMod M3) (ZMod N2 × ZMod N1) K)
    (cb : CoupledCallbacks S (ZMod M1 × ZMod M2 × ZMod M3) (ZMod N1 × ZMod N2) K) : Prop where
  q1 : cb'.Cq1 = cb.Cq2.exchanged
  q2 : cb'.Cq2 = cb.Cq1.exchanged
  p1 : ∀ F, cb'.Cp1 F.exchanged = (cb.Cp2 F).exchanged
  p2 : ∀ F, cb'.Cp2 F.exchanged = (cb.Cp1 F).exchanged
  p3 : ∀ F, cb'.Cp3 F.exchanged = (cb.Cp3 F).exchanged
  src : ∀ f, cb'.source f.exchanged = (cb.source f).exchanged

end Bolt
