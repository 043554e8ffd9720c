import Verif.Model.System

/-! Specification of a valid physical system. -/

namespace Bolt

variable {K : Type} [LinearOrder K]

/-- The limits along one momentum axis are lists with one entry per species. -/
def PerSpecies (n : ℕ) (a : PLimit K) : Prop := ∃ l : List K, a = .list l ∧ l.length = n

/-- At the first species at which start and end differ, the start is before the end. -/
def FirstDifferenceOrdered (s e : List K) : Prop :=
  ∀ k (hs : k < s.length) (he : k < e.length), (∀ j (h1 : j < s.length) (h2 : j < e.length), j < k → s[j] = e[j]) → s[k] ≤ e[k]

/-- What a physical system must satisfy to be accepted. -/
structure Acceptable (x : SystemIn K) : Prop where
  bcTypes : ∀ a ∈ x.bcAttrs, a.1.startsWith "__" = true ∨ a.2 ≠ .other
  advTypes : ∀ a ∈ x.advAttrs, a.1.startsWith "_" = true ∨ a.2 = .function ∨ a.2 = .module
  advTerms : ∀ n ∈ ["A_q", "C_q", "A_p", "C_p"], ∃ k, (n, k) ∈ x.advAttrs
  momentTypes : ∀ a ∈ x.momentAttrs, a.1.startsWith "_" = true ∨ a.2 = .function ∨ a.2 = .module
  initial : x.initialConditionsIsModule = true
  source : x.sourceIsFunction = true
  species : x.nMass = x.nCharge
  hybrid : x.hybrid = some false ∨ (x.hybrid = some true ∧ x.nCharge = 1)
  limits : PerSpecies x.nCharge x.domain.p1Start ∧ PerSpecies x.nCharge x.domain.p1End ∧ PerSpecies x.nCharge x.domain.p2Start ∧
    PerSpecies x.nCharge x.domain.p2End ∧ PerSpecies x.nCharge x.domain.p3Start ∧ PerSpecies x.nCharge x.domain.p3End
  ghosts : 0 ≤ x.domain.Nghost
  resolutionQ : 0 < x.domain.Nq1 ∧ 0 < x.domain.Nq2
  resolutionP : (0 ≤ x.domain.Np1 ∧ 0 ≤ x.domain.Np2 ∧ 0 ≤ x.domain.Np3) ∧
    (x.nCharge ≠ 0 → x.domain.Np1 ≠ 0 ∧ x.domain.Np2 ≠ 0 ∧ x.domain.Np3 ≠ 0)
  orderedQ : x.domain.q1Start ≤ x.domain.q1End ∧ x.domain.q2Start ≤ x.domain.q2End
  orderedP : FirstDifferenceOrdered x.domain.p1Start.entries x.domain.p1End.entries ∧
    FirstDifferenceOrdered x.domain.p2Start.entries x.domain.p2End.entries ∧
    FirstDifferenceOrdered x.domain.p3Start.entries x.domain.p3End.entries
  electrodynamic : x.fieldsType = "electrodynamic" → pyUpper x.fieldsSolver = "FDTD".toList
  electrostatic : x.fieldsType = "electrostatic" → pyUpper x.fieldsSolver = "SNES".toList ∨ pyUpper x.fieldsSolver = "FFT".toList

end Bolt
