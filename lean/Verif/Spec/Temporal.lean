import Mathlib.Analysis.Calculus.ContDiff.Basic
import Mathlib.Analysis.Calculus.Deriv.Basic

/-!
# Specification vocabulary for time integration
-/

namespace Bolt

open Asymptotics Topology

/-- A one-step method has order `p`: for every normed space, every smooth right-hand side `F` and every
solution `y` of `y' = F y`, one step of size `h` started on the solution misses the solution by
`O(h^(p+1))`. -/
def HasOrder (p : ℕ)
    (step : ∀ {E : Type} [NormedAddCommGroup E] [NormedSpace ℝ E], (E → E) → E → ℝ → E) : Prop :=
  ∀ (E : Type) [NormedAddCommGroup E] [NormedSpace ℝ E] (F : E → E) (y : ℝ → E),
    ContDiffAt ℝ 5 F (y 0) → (∀ᶠ t in 𝓝 (0 : ℝ), HasDerivAt y (F (y t)) t) →
    (fun h => step F (y 0) h - y h) =O[𝓝 0] fun h : ℝ => h ^ (p + 1)

/-- A flow: running for `s + t` is running for `t` and then for `s`. -/
structure IsFlow {K V : Type} [AddCommMonoid K] (φ : K → V → V) : Prop where
  zero : ∀ x, φ 0 x = x
  add : ∀ s t x, φ (s + t) x = φ s (φ t x)

/-- Two flows commute. -/
def FlowsCommute {K V : Type} (φ ψ : K → V → V) : Prop := ∀ s t x, φ s (ψ t x) = ψ t (φ s x)

section Advertised

variable {K V : Type} [Field K] [AddCommGroup V] [Module K V]

/-- Lie splitting: first operator for `dt`, then the second for `dt`. -/
def lieAdvertised (φ ψ : K → V → V) (dt : K) (x : V) : V := ψ dt (φ dt x)

/-- Strang splitting: half a step of the first, a step of the second, half a step of the first. -/
def strangAdvertised (φ ψ : K → V → V) (dt : K) (x : V) : V := φ (dt / 2) (ψ dt (φ (dt / 2) x))

/-- Symmetrically weighted sequential splitting: the mean of the two Lie orders. -/
def swssAdvertised (φ ψ : K → V → V) (dt : K) (x : V) : V :=
  (1 / 2 : K) • (lieAdvertised φ ψ dt x + lieAdvertised ψ φ dt x)

/-- Jia's scheme: `2/3` of the sum of the two Strang orders minus `1/3` of the symmetrically weighted
step. -/
def jiaAdvertised (φ ψ : K → V → V) (dt : K) (x : V) : V :=
  (2 / 3 : K) • (strangAdvertised φ ψ dt x + strangAdvertised ψ φ dt x)
    - (1 / 3 : K) • swssAdvertised φ ψ dt x

end Advertised

end Bolt
