import Verif.Model.Fields
import Mathlib.Analysis.SpecialFunctions.Trigonometric.Basic

/-!
# Specification of C81: plane waves on the staggered grid

Independent of the solver.  Lengths are counted in cells and times in steps.  On the staggered grid the components of a cell are
samples at different points: `E1 (i, j+1/2)`, `E2 (i+1/2, j)`, `E3 (i+1/2, j+1/2)`, `B1 (i+1/2, j)`, `B2 (i, j+1/2)`, `B3 (i, j)`;
`E` is a sample at step `n` and `B` half a step later.
-/

namespace Bolt

/-- The six amplitudes of a plane wave. -/
@[ext] structure WaveAmp where
  (a1 a2 a3 b1 b2 b3 : ℝ)

/-- A plane wave: `th1`, `th2` are the phase advances per cell in q1 and q2, `om` the phase advance per step, `dl` the phase at the
origin. -/
structure Wave where
  amp : WaveAmp
  (th1 th2 om : ℝ)

/-- The phase at position `(x, y)` (in cells) and time `t` (in steps). -/
noncomputable def Wave.phase (w : Wave) (dl x y t : ℝ) : ℝ := w.th1 * x + w.th2 * y - w.om * t + dl

/-- The samples of the plane wave on the staggered grid at step `n`. -/
noncomputable def Wave.sample (w : Wave) (dl : ℝ) {N1 N2 : ℕ} (n : ℕ) : EM (ZMod N1 × ZMod N2) ℝ where
  E1 := fun i => w.amp.a1 * Real.cos (w.phase dl i.1.val (i.2.val + 1 / 2) n)
  E2 := fun i => w.amp.a2 * Real.cos (w.phase dl (i.1.val + 1 / 2) i.2.val n)
  E3 := fun i => w.amp.a3 * Real.cos (w.phase dl (i.1.val + 1 / 2) (i.2.val + 1 / 2) n)
  B1 := fun i => w.amp.b1 * Real.cos (w.phase dl (i.1.val + 1 / 2) i.2.val (n + 1 / 2))
  B2 := fun i => w.amp.b2 * Real.cos (w.phase dl i.1.val (i.2.val + 1 / 2) (n + 1 / 2))
  B3 := fun i => w.amp.b3 * Real.cos (w.phase dl i.1.val i.2.val (n + 1 / 2))

/-- The wave closes on itself around the periodic grid: `m1` and `m2` wavelengths fit. -/
def Wave.Fits (w : Wave) (N1 N2 : ℕ) (m1 m2 : ℤ) : Prop :=
  w.th1 = 2 * Real.pi * m1 / N1 ∧ w.th2 = 2 * Real.pi * m2 / N2

end Bolt
