import Verif.Model.Coupled

/-! Specification vocabulary for comparing runs with different lists of species. -/

namespace Bolt

variable {S S' P P' Q K : Type}

/-- The distribution function of a second list of species: entry `s` is the weight `w s` times entry `τ s` of the first list, on the momenta
`π p`. -/
def Dist.split [Mul K] (τ : S' → S) (π : P' → P) (w : S' → K) (f : Dist S P Q K) : Dist S' P' Q K := fun s p q => w s * f (τ s) (π p) q

/-- Velocities (not weighted) of the second list. -/
def Dist.take (τ : S' → S) (π : P' → P) (C : Dist S P Q K) : Dist S' P' Q K := fun s p q => C (τ s) (π p) q

/-- Options of the second list: spacings of the momentum grid. -/
def FVMConfig.take (τ : S' → S) (c : FVMConfig S K) : FVMConfig S' K :=
  { c with dp1 := fun s => c.dp1 (τ s), dp2 := fun s => c.dp2 (τ s), dp3 := fun s => c.dp3 (τ s) }

/-- Options of the second list: spacings and coordinates of the momentum grid, and charges. -/
def CoupledConfig.take (τ : S' → S) (c : CoupledConfig S P Q K) : CoupledConfig S' P Q K where
  toFVMConfig := c.toFVMConfig.take τ
  ax := c.ax
  fieldsType := c.fieldsType
  fieldsSolver := c.fieldsSolver
  charge := fun s => c.charge (τ s)
  coords := ⟨fun s p => c.coords.p1 (τ s) p, fun s p => c.coords.p2 (τ s) p, fun s p => c.coords.p3 (τ s) p⟩
  eps := c.eps
  mu := c.mu
  hybrid := c.hybrid
  Te := c.Te

/-- The callbacks of the second list return the velocities and forces of the first and respect the weights in the source. -/
structure CallbacksSplit [Mul K] (τ : S' → S) (w : S' → K) (cb' : CoupledCallbacks S' P Q K) (cb : CoupledCallbacks S P Q K) : Prop where
  q1 : cb'.Cq1 = Dist.take τ id cb.Cq1
  q2 : cb'.Cq2 = Dist.take τ id cb.Cq2
  p1 : ∀ F, cb'.Cp1 F = Dist.take τ id (cb.Cp1 F)
  p2 : ∀ F, cb'.Cp2 F = Dist.take τ id (cb.Cp2 F)
  p3 : ∀ F, cb'.Cp3 F = Dist.take τ id (cb.Cp3 F)
  src : ∀ f, cb'.source (Dist.split τ id w f) = Dist.split τ id w (cb.source f)

/-- The weights of the copies of every charged species add up to one; uncharged species may be left out or repeated. -/
def SplitsCharge [Fintype S'] [DecidableEq S] [Field K] (τ : S' → S) (w : S' → K) (charge : S → K) : Prop :=
  ∀ s, charge s ≠ 0 → ∑ s', (if τ s' = s then w s' else 0) = 1

/-- A Poisson solver that sees only the total charge density. -/
def SeesTotalCharge [Fintype S] [Fintype S'] [AddCommMonoid K] (poisson : (S → Q → K) → FieldState Q K → FieldState Q K)
    (poisson' : (S' → Q → K) → FieldState Q K → FieldState Q K) : Prop :=
  ∀ ρ ρ' σ, (∀ q, ∑ s, ρ' s q = ∑ s, ρ s q) → poisson' ρ' σ = poisson ρ σ

end Bolt
