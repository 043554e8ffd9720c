import Verif.Model.Nonrel
import Verif.Model.Boundaries

/-!
# Gases on a momentum grid (specification for C104)
-/

namespace Bolt

/-- What a row of cells misses of a normal distribution of variance `v`: `d` is the cell width, `L` and `L'` the distances of the mean from the
two ends of the row. -/
noncomputable def gridDefect (v d L L' : ℝ) : ℝ :=
  5 / 4 * (d ^ 2 / v) + ((1 + L / Real.sqrt v) * Real.exp (-L ^ 2 / (2 * v)) + (1 + L' / Real.sqrt v) * Real.exp (-L' ^ 2 / (2 * v))) / 2

/-- The same for a gas of `pdim` dimensions with bulk velocity `u`, on a grid of `N i` cells of width `d i` from `start i` on along axis `i`. -/
noncomputable def gasDefect (pdim : ℕ) (v : ℝ) (u start d : Fin 3 → ℝ) (N : Fin 3 → ℕ) : ℝ :=
  (∏ i : Fin 3, (1 + if i.val < pdim then gridDefect v (d i) (u i - start i) (start i + N i * d i - u i) else 0)) - 1

variable {S Q : Type}

/-- Components of the momentum of the gas. -/
noncomputable def momV {P : Type} [Fintype P] (c : PCoords S P ℝ) (w : S → ℝ) (f : Dist S P Q ℝ) (s : S) (q : Q) : Fin 3 → ℝ :=
  ![momV1 c w f s q, momV2 c w f s q, momV3 c w f s q]

/-- Bulk velocity used by the operator. -/
noncomputable def gasBulk {P : Type} [Fintype P] (c : PCoords S P ℝ) (w : S → ℝ) (f : Dist S P Q ℝ) (s : S) (q : Q) : Fin 3 → ℝ :=
  fun i => bgkBulk (density c w f s q) (momV c w f s q i)

/-- Temperature used by the operator. -/
noncomputable def gasTemp {P : Type} [Fintype P] (pdim : ℕ) (m : ℝ) (c : PCoords S P ℝ) (w : S → ℝ) (f : Dist S P Q ℝ) (s : S) (q : Q) : ℝ :=
  bgkTemperature pdim m (density c w f s q) (momV1 c w f s q) (momV2 c w f s q) (momV3 c w f s q) (energy c w f s q)

variable {Np1 Np2 Np3 : ℕ}

/-- The momenta of species `s` are the centres of cells of width `d` from `start` on. -/
structure MomentumGrid (c : PCoords S (PIdx Np1 Np2 Np3) ℝ) (s : S) (start d : Fin 3 → ℝ) : Prop where
  p1 : ∀ p, c.p1 s p = start 0 + (1 / 2 + (p.1.val : ℝ)) * d 0
  p2 : ∀ p, c.p2 s p = start 1 + (1 / 2 + (p.2.1.val : ℝ)) * d 1
  p3 : ∀ p, c.p3 s p = start 2 + (1 / 2 + (p.2.2.val : ℝ)) * d 2

/-- The grid contains zero; an axis that is not used has one cell, from -1/2 to 1/2. -/
structure GasGrid (pdim : ℕ) (N : Fin 3 → ℕ) (start d : Fin 3 → ℝ) : Prop where
  dims : pdim = 1 ∨ pdim = 2 ∨ pdim = 3
  width : ∀ i, 0 < d i
  low : ∀ i, start i ≤ 0
  high : ∀ i, 0 ≤ start i + N i * d i
  rest : ∀ i : Fin 3, ¬ i.val < pdim → N i = 1 ∧ start i = -1 / 2 ∧ d i = 1

end Bolt
