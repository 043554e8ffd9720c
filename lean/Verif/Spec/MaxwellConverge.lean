import Verif.Spec.AslError
import Verif.Model.Fields

/-! Specification vocabulary for the accuracy of the field solver: Maxwell's equations and their solutions on the staggered grid. -/

namespace Bolt

/-- A quantity that depends on time and on the position in the plane: periodic in space, three times continuously differentiable in time and
along each axis, with third derivatives bounded by `M`. -/
structure SmoothInTime (L1 L2 M : ℝ) (u : ℝ → ℝ × ℝ → ℝ) : Prop where
  space : ∀ t, ThriceSmooth L1 L2 M M (u t)
  smooth : ∀ p, ContDiff ℝ 3 fun t => u t p
  bound : ∀ t p, |iteratedDeriv 3 (fun t => u t p) t| ≤ M

/-- A periodic solution of Maxwell's equations `eps dE/dt = curl B / mu - J`, `dB/dt = - curl E` for fields that do not depend on q3, with
bounded third derivatives. -/
structure MaxwellSolution (L1 L2 eps mu M : ℝ) (E B J : Fin 3 → ℝ → ℝ × ℝ → ℝ) : Prop where
  smoothE : ∀ k, SmoothInTime L1 L2 M (E k)
  smoothB : ∀ k, SmoothInTime L1 L2 M (B k)
  ampere1 : ∀ t x y, eps * deriv (fun t => E 0 t (x, y)) t = deriv (fun y => B 2 t (x, y)) y / mu - J 0 t (x, y)
  ampere2 : ∀ t x y, eps * deriv (fun t => E 1 t (x, y)) t = -deriv (fun x => B 2 t (x, y)) x / mu - J 1 t (x, y)
  ampere3 : ∀ t x y, eps * deriv (fun t => E 2 t (x, y)) t =
    (deriv (fun x => B 1 t (x, y)) x - deriv (fun y => B 0 t (x, y)) y) / mu - J 2 t (x, y)
  faraday1 : ∀ t x y, deriv (fun t => B 0 t (x, y)) t = -deriv (fun y => E 2 t (x, y)) y
  faraday2 : ∀ t x y, deriv (fun t => B 1 t (x, y)) t = deriv (fun x => E 2 t (x, y)) x
  faraday3 : ∀ t x y, deriv (fun t => B 2 t (x, y)) t = -(deriv (fun x => E 1 t (x, y)) x - deriv (fun y => E 0 t (x, y)) y)

/-- Lower face of cell `i` of a periodic axis of length `L` that begins at `start` and is divided into `N` cells. -/
noncomputable def cellFace (start L : ℝ) (N : ℕ) (i : ZMod N) : ℝ := start + i.val * (L / N)

/-- A rectangle divided into `N1 × N2` cells. -/
structure Rect where
  (s1 s2 L1 L2 : ℝ)
  (N1 N2 : ℕ)

/-- Sizes of the cells. -/
noncomputable def Rect.h1 (G : Rect) : ℝ := G.L1 / G.N1
@[inherit_doc Rect.h1]
noncomputable def Rect.h2 (G : Rect) : ℝ := G.L2 / G.N2

/-- The cells. -/
abbrev Rect.Cell (G : Rect) : Type := ZMod G.N1 × ZMod G.N2

/-- The places of the components in cell `i`: on the left face half-way up, on the bottom face half-way along, in the centre, on the left
bottom corner. -/
noncomputable def Rect.left (G : Rect) (i : G.Cell) : ℝ × ℝ := (cellFace G.s1 G.L1 G.N1 i.1, cellCentre G.s2 G.L2 G.N2 i.2)
@[inherit_doc Rect.left]
noncomputable def Rect.bottom (G : Rect) (i : G.Cell) : ℝ × ℝ := (cellCentre G.s1 G.L1 G.N1 i.1, cellFace G.s2 G.L2 G.N2 i.2)
@[inherit_doc Rect.left]
noncomputable def Rect.centre (G : Rect) (i : G.Cell) : ℝ × ℝ := (cellCentre G.s1 G.L1 G.N1 i.1, cellCentre G.s2 G.L2 G.N2 i.2)
@[inherit_doc Rect.left]
noncomputable def Rect.corner (G : Rect) (i : G.Cell) : ℝ × ℝ := (cellFace G.s1 G.L1 G.N1 i.1, cellFace G.s2 G.L2 G.N2 i.2)

/-- The staggered fields of a solution: electric field at time `t`, magnetic field at time `t'`. -/
noncomputable def Rect.fields (G : Rect) (E B : Fin 3 → ℝ → ℝ × ℝ → ℝ) (t t' : ℝ) : EM G.Cell ℝ where
  E1 := fun i => E 0 t (G.left i)
  E2 := fun i => E 1 t (G.bottom i)
  E3 := fun i => E 2 t (G.centre i)
  B1 := fun i => B 0 t' (G.bottom i)
  B2 := fun i => B 1 t' (G.left i)
  B3 := fun i => B 2 t' (G.corner i)

/-- The currents at time `t`, at the places of the electric field. -/
noncomputable def Rect.currents (G : Rect) (J : Fin 3 → ℝ → ℝ × ℝ → ℝ) (t : ℝ) : Currents G.Cell ℝ where
  J1 := fun i => J 0 t (G.left i)
  J2 := fun i => J 1 t (G.bottom i)
  J3 := fun i => J 2 t (G.centre i)

/-- `n` field steps of size `dt` from time `t`, with the currents half-way through each step. -/
noncomputable def Rect.steps (G : Rect) (J : Fin 3 → ℝ → ℝ × ℝ → ℝ) (dt : ℝ) : ℕ → ℝ → List (FDTDStep G.Cell ℝ)
  | 0, _ => []
  | n + 1, t => { dt := dt, J := G.currents J (t + dt / 2) } :: G.steps J dt n (t + dt)

/-- The fields solver on such a grid. -/
noncomputable def Rect.params (G : Rect) (eps mu : ℝ) : FieldParams G.Cell ℝ := ⟨(1, 0), (0, 1), G.h1, G.h2, eps, mu, false⟩

/-- The distance of two states of the fields: root of the mean over the cells of `eps |E - E'|^2 + |B - B'|^2 / mu`. -/
noncomputable def energyDistance {Q : Type} [Fintype Q] (eps mu : ℝ) (F F' : EM Q ℝ) : ℝ :=
  √((∑ i, (eps * ((F.E1 i - F'.E1 i) ^ 2 + (F.E2 i - F'.E2 i) ^ 2 + (F.E3 i - F'.E3 i) ^ 2)
    + ((F.B1 i - F'.B1 i) ^ 2 + (F.B2 i - F'.B2 i) ^ 2 + (F.B3 i - F'.B3 i) ^ 2) / mu)) / Fintype.card Q)

end Bolt
