import Verif.Model.Moments
import Mathlib.Analysis.SpecialFunctions.Exp
import Mathlib.Analysis.SpecialFunctions.Trigonometric.Basic

/-!
# The electronic Boltzmann system

Models `/repo/bolt/src/electronic_boltzmann/{matrix_inverse,collision_operator,advection_terms}.py`.
-/

namespace Bolt

section matrices
variable {K : Type} [Field K]

/-- The determinant expression of `inverse_4x4_matrix` — `matrix_inverse.py:20-44`. -/
def det4 (A : Fin 4 → Fin 4 → K) : K :=
  A 0 0 * A 1 1 * A 2 2 * A 3 3 + A 0 0 * A 1 2 * A 2 3 * A 3 1 + A 0 0 * A 1 3 * A 2 1 * A 3 2 + A 0 1 * A 1 0 * A 2 3 * A 3 2
    + A 0 1 * A 1 2 * A 2 0 * A 3 3 + A 0 1 * A 1 3 * A 2 2 * A 3 0 + A 0 2 * A 1 0 * A 2 1 * A 3 3 + A 0 2 * A 1 1 * A 2 3 * A 3 0
    + A 0 2 * A 1 3 * A 2 0 * A 3 1 + A 0 3 * A 1 0 * A 2 2 * A 3 1 + A 0 3 * A 1 1 * A 2 0 * A 3 2 + A 0 3 * A 1 2 * A 2 1 * A 3 0
    - A 0 0 * A 1 1 * A 2 3 * A 3 2 - A 0 0 * A 1 2 * A 2 1 * A 3 3 - A 0 0 * A 1 3 * A 2 2 * A 3 1 - A 0 1 * A 1 0 * A 2 2 * A 3 3
    - A 0 1 * A 1 2 * A 2 3 * A 3 0 - A 0 1 * A 1 3 * A 2 0 * A 3 2 - A 0 2 * A 1 0 * A 2 3 * A 3 1 - A 0 2 * A 1 1 * A 2 0 * A 3 3
    - A 0 2 * A 1 3 * A 2 1 * A 3 0 - A 0 3 * A 1 0 * A 2 1 * A 3 2 - A 0 3 * A 1 1 * A 2 2 * A 3 0 - A 0 3 * A 1 2 * A 2 0 * A 3 1

/-- `inverse_4x4_matrix(A)`, entry by entry — `matrix_inverse.py:4-199`. Division by a zero determinant gives inf/nan in the code and 0 here; the theorems assume a
nonzero determinant. Array entries (one matrix per cell) are modelled one cell at a time. -/
def inverse4x4 (A : Fin 4 → Fin 4 → K) : Fin 4 → Fin 4 → K
  | 0, 0 => (A 1 1 * A 2 2 * A 3 3 + A 1 2 * A 2 3 * A 3 1 + A 1 3 * A 2 1 * A 3 2 - A 1 1 * A 2 3 * A 3 2 - A 1 2 * A 2 1 * A 3 3
      - A 1 3 * A 2 2 * A 3 1) / det4 A
  | 0, 1 => (A 0 1 * A 2 3 * A 3 2 + A 0 2 * A 2 1 * A 3 3 + A 0 3 * A 2 2 * A 3 1 - A 0 1 * A 2 2 * A 3 3 - A 0 2 * A 2 3 * A 3 1
      - A 0 3 * A 2 1 * A 3 2) / det4 A
  | 0, 2 => (A 0 1 * A 1 2 * A 3 3 + A 0 2 * A 1 3 * A 3 1 + A 0 3 * A 1 1 * A 3 2 - A 0 1 * A 1 3 * A 3 2 - A 0 2 * A 1 1 * A 3 3
      - A 0 3 * A 1 2 * A 3 1) / det4 A
  | 0, 3 => (A 0 1 * A 1 3 * A 2 2 + A 0 2 * A 1 1 * A 2 3 + A 0 3 * A 1 2 * A 2 1 - A 0 1 * A 1 2 * A 2 3 - A 0 2 * A 1 3 * A 2 1
      - A 0 3 * A 1 1 * A 2 2) / det4 A
  | 1, 0 => (A 1 0 * A 2 3 * A 3 2 + A 1 2 * A 2 0 * A 3 3 + A 1 3 * A 2 2 * A 3 0 - A 1 0 * A 2 2 * A 3 3 - A 1 2 * A 2 3 * A 3 0
      - A 1 3 * A 2 0 * A 3 2) / det4 A
  | 1, 1 => (A 0 0 * A 2 2 * A 3 3 + A 0 2 * A 2 3 * A 3 0 + A 0 3 * A 2 0 * A 3 2 - A 0 0 * A 2 3 * A 3 2 - A 0 2 * A 2 0 * A 3 3
      - A 0 3 * A 2 2 * A 3 0) / det4 A
  | 1, 2 => (A 0 0 * A 1 3 * A 3 2 + A 0 2 * A 1 0 * A 3 3 + A 0 3 * A 1 2 * A 3 0 - A 0 0 * A 1 2 * A 3 3 - A 0 2 * A 1 3 * A 3 0
      - A 0 3 * A 1 0 * A 3 2) / det4 A
  | 1, 3 => (A 0 0 * A 1 2 * A 2 3 + A 0 2 * A 1 3 * A 2 0 + A 0 3 * A 1 0 * A 2 2 - A 0 0 * A 1 3 * A 2 2 - A 0 2 * A 1 0 * A 2 3
      - A 0 3 * A 1 2 * A 2 0) / det4 A
  | 2, 0 => (A 1 0 * A 2 1 * A 3 3 + A 1 1 * A 2 3 * A 3 0 + A 1 3 * A 2 0 * A 3 1 - A 1 0 * A 2 3 * A 3 1 - A 1 1 * A 2 0 * A 3 3
      - A 1 3 * A 2 1 * A 3 0) / det4 A
  | 2, 1 => (A 0 0 * A 2 3 * A 3 1 + A 0 1 * A 2 0 * A 3 3 + A 0 3 * A 2 1 * A 3 0 - A 0 0 * A 2 1 * A 3 3 - A 0 1 * A 2 3 * A 3 0
      - A 0 3 * A 2 0 * A 3 1) / det4 A
  | 2, 2 => (A 0 0 * A 1 1 * A 3 3 + A 0 1 * A 1 3 * A 3 0 + A 0 3 * A 1 0 * A 3 1 - A 0 0 * A 1 3 * A 3 1 - A 0 1 * A 1 0 * A 3 3
      - A 0 3 * A 1 1 * A 3 0) / det4 A
  | 2, 3 => (A 0 0 * A 1 3 * A 2 1 + A 0 1 * A 1 0 * A 2 3 + A 0 3 * A 1 1 * A 2 0 - A 0 0 * A 1 1 * A 2 3 - A 0 1 * A 1 3 * A 2 0
      - A 0 3 * A 1 0 * A 2 1) / det4 A
  | 3, 0 => (A 1 0 * A 2 2 * A 3 1 + A 1 1 * A 2 0 * A 3 2 + A 1 2 * A 2 1 * A 3 0 - A 1 0 * A 2 1 * A 3 2 - A 1 1 * A 2 2 * A 3 0
      - A 1 2 * A 2 0 * A 3 1) / det4 A
  | 3, 1 => (A 0 0 * A 2 1 * A 3 2 + A 0 1 * A 2 2 * A 3 0 + A 0 2 * A 2 0 * A 3 1 - A 0 0 * A 2 2 * A 3 1 - A 0 1 * A 2 0 * A 3 2
      - A 0 2 * A 2 1 * A 3 0) / det4 A
  | 3, 2 => (A 0 0 * A 1 2 * A 3 1 + A 0 1 * A 1 0 * A 3 2 + A 0 2 * A 1 1 * A 3 0 - A 0 0 * A 1 1 * A 3 2 - A 0 1 * A 1 2 * A 3 0
      - A 0 2 * A 1 0 * A 3 1) / det4 A
  | 3, 3 => (A 0 0 * A 1 1 * A 2 2 + A 0 1 * A 1 2 * A 2 0 + A 0 2 * A 1 0 * A 2 1 - A 0 0 * A 1 2 * A 2 1 - A 0 1 * A 1 0 * A 2 2
      - A 0 2 * A 1 1 * A 2 0) / det4 A

/-- The determinant expression of `inverse_3x3_matrix` — `matrix_inverse.py:218-224`. -/
def det3 (A : Fin 3 → Fin 3 → K) : K :=
  A 0 0 * A 1 1 * A 2 2 - A 0 0 * A 1 2 * A 2 1 - A 0 1 * A 1 0 * A 2 2 + A 0 1 * A 1 2 * A 2 0 + A 0 2 * A 1 0 * A 2 1 - A 0 2 * A 1 1 * A 2 0

/-- The table `cofactors` — `matrix_inverse.py:245-253`. -/
def cofactors3 (A : Fin 3 → Fin 3 → K) : Fin 3 → Fin 3 → K
  | 0, 0 => (A 1 1 * A 2 2 - A 1 2 * A 2 1)
  | 0, 1 => -(A 1 0 * A 2 2 - A 1 2 * A 2 0)
  | 0, 2 => (A 1 0 * A 2 1 - A 1 1 * A 2 0)
  | 1, 0 => -(A 0 1 * A 2 2 - A 0 2 * A 2 1)
  | 1, 1 => (A 0 0 * A 2 2 - A 0 2 * A 2 0)
  | 1, 2 => -(A 0 0 * A 2 1 - A 0 1 * A 2 0)
  | 2, 0 => (A 0 1 * A 1 2 - A 0 2 * A 1 1)
  | 2, 1 => -(A 0 0 * A 1 2 - A 0 2 * A 1 0)
  | 2, 2 => (A 0 0 * A 1 1 - A 0 1 * A 1 0)

/-- `inverse_3x3_matrix(A)`: the transposed cofactors over the determinant — `matrix_inverse.py:255-285`. -/
def inverse3x3 (A : Fin 3 → Fin 3 → K) : Fin 3 → Fin 3 → K := fun i j => cofactors3 A j i / det3 A

/-- `A_p` (and the identical `C_p`) with band velocity `(v1, v2)` — `advection_terms.py:122-132` and `166-176`. `dp3_dt = 0.*p1`. -/
def electronicAp (e c B3 E1 E2 v1 v2 p1 : K) : K × K × K := (e * (E1 + v2 * B3 / c), e * (E2 - v1 * B3 / c), 0 * p1)

/-- What the finite-volume solver obtains from `C_q` and `C_p` — `advection_terms.py:56-85,134-176`: the interface velocities in position
space are the band velocity `params.vel_band`, the same at every position; `A_q` (lines 25-54) returns the same.  The array `vel_band` is
computed once from the cell centres, so the momentum-face velocities are those of the cell centre too. -/
def electronicCallbacks {S P Q : Type} (e c B3 : K) (vel1 vel2 p1 : S → P → K) (E1 E2 : Q → K) (source : Dist S P Q K → Dist S P Q K) :
    Callbacks S P Q K where
  Cq1 := fun s p _ => vel1 s p
  Cq2 := fun s p _ => vel2 s p
  Cp1 := fun s p q => (electronicAp e c B3 (E1 q) (E2 q) (vel1 s p) (vel2 s p) (p1 s p)).1
  Cp2 := fun s p q => (electronicAp e c B3 (E1 q) (E2 q) (vel1 s p) (vel2 s p) (p1 s p)).2.1
  Cp3 := fun s p q => (electronicAp e c B3 (E1 q) (E2 q) (vel1 s p) (vel2 s p) (p1 s p)).2.2
  source := source

/-- `4./(2.*3.1415926535*1.0545718e-4)**2` — `moment_defs.py:14,17`. -/
def jPrefactor : K := 4 / (2 * (31415926535 / 10 ^ 10) * (10545718 / 10 ^ 11)) ^ 2

variable {S P Q : Type} [Fintype P]

/-- `density` — `moment_defs.py:10-11`. -/
def elecDensity : MomentFn S P Q K := fun _ measure f => integralOverV f measure

/-- `j_x` — `moment_defs.py:13-14`; its argument `v1` is what `compute_moments` passes there, the array `p1_center`. -/
def jX : MomentFn S P Q K := fun c measure f => integralOverV (fun s p q => f s p q * jPrefactor * c.p1 s p) measure

/-- `j_y` — `moment_defs.py:16-17`. -/
def jY : MomentFn S P Q K := fun c measure f => integralOverV (fun s p q => f s p q * jPrefactor * c.p2 s p) measure

end matrices

section newton
variable {P : Type} [Fintype P]

/-- `1./(af.exp((E_upper - mu)/(k*T)) + 1.)` — `collision_operator.py:48, 75, 148, 189`. -/
noncomputable def fermiDirac (k mu T E : ℝ) : ℝ := 1 / (Real.exp ((E - mu) / (k * T)) + 1)

/-- The drifting distribution `1./(af.exp((E_upper - mu_ee - vel_drift_x*p_x - vel_drift_y*p_y)/(k*T_ee)) + 1.)` —
`collision_operator.py:283-287, 358-362, 475-479, 548-552`. -/
noncomputable def fermiDirac2 (k mu T vx vy E px py : ℝ) : ℝ := 1 / (Real.exp ((E - mu - vx * px - vy * py) / (k * T)) + 1)

/-- `denominator = (k*T**2.*(af.exp(tmp) + 2. + af.exp(-tmp)))` — `collision_operator.py:43, 135, 247, 438`. -/
noncomputable def fdDenominator (k T tmp : ℝ) : ℝ := k * T ^ 2 * (Real.exp tmp + 2 + Real.exp (-tmp))

/-- One pass of the loop of `f0_defect_constant_T` in one cell — `collision_operator.py:37-69`. `E` and `f` are the band energies and the distribution over the
momentum cells; sums are over axis 0 without an integration measure, as in the code. -/
noncomputable def newtonMu (k : ℝ) (E f : P → ℝ) (T mu : ℝ) : ℝ :=
  let a00 := ∑ p, T / fdDenominator k T ((E p - mu) / (k * T))
  let res := ∑ p, (f p - fermiDirac k mu T (E p))
  let dres := -a00
  mu + -res / dres

/-- One pass of the loop of `f0_defect` in one cell, on `(mu, T)` — `collision_operator.py:129-182`. -/
noncomputable def newtonMuT (k : ℝ) (E f : P → ℝ) (x : ℝ × ℝ) : ℝ × ℝ :=
  let mu := x.1
  let T := x.2
  let den := fun p => fdDenominator k T ((E p - mu) / (k * T))
  let a00 := ∑ p, T / den p
  let a01 := ∑ p, (E p - mu) / den p
  let a10 := ∑ p, E p * T / den p
  let a11 := ∑ p, E p * (E p - mu) / den p
  let b0 := ∑ p, (f p - fermiDirac k mu T (E p))
  let b1 := ∑ p, E p * (f p - fermiDirac k mu T (E p))
  let det := a01 * a10 - a00 * a11
  (mu + -(a11 * b0 - a01 * b1) / det, T + (a10 * b0 - a00 * b1) / det)

/-- The state of the drifting equilibrium in one cell: `mu_ee, T_ee, vel_drift_x, vel_drift_y`. -/
structure EEState where
  mu : ℝ
  T : ℝ
  vx : ℝ
  vy : ℝ

/-- The columns `a_0 .. a_3` — `collision_operator.py:245-252` and `436-443`. -/
noncomputable def eeColumn (k : ℝ) (E px py : P → ℝ) (x : EEState) (p : P) : Fin 4 → ℝ :=
  let tmp1 := E p - x.mu - px p * x.vx - py p * x.vy
  let den := fdDenominator k x.T (tmp1 / (k * x.T))
  fun j => match j with
  | 0 => x.T / den
  | 1 => tmp1 / den
  | 2 => x.T * px p / den
  | 3 => x.T * py p / den

/-- The weights of the conserved quantities: mass, energy, momentum — `collision_operator.py:257-275, 290-298`. -/
def eeWeight (E px py : P → ℝ) (p : P) : Fin 4 → ℝ := fun i => match i with
  | 0 => 1
  | 1 => E p
  | 2 => px p
  | 3 => py p

/-- The Jacobian `A` — `collision_operator.py:257-281`. -/
noncomputable def eeJacobian (k : ℝ) (E px py : P → ℝ) (x : EEState) : Fin 4 → Fin 4 → ℝ :=
  fun i j => ∑ p, eeWeight E px py p i * eeColumn k E px py x p j

/-- The residual `b` — `collision_operator.py:283-303, 322-326`. -/
noncomputable def eeResidual (k : ℝ) (E px py f : P → ℝ) (x : EEState) : Fin 4 → ℝ :=
  fun i => ∑ p, eeWeight E px py p i * (f p - fermiDirac2 k x.mu x.T x.vx x.vy (E p) (px p) (py p))

/-- One pass of the loop of `f0_ee` in one cell — `collision_operator.py:240-350`. -/
noncomputable def newtonEE (k : ℝ) (E px py f : P → ℝ) (x : EEState) : EEState :=
  let Ainv := inverse4x4 (eeJacobian k E px py x)
  let b := eeResidual k E px py f x
  let d := fun i => Ainv i 0 * b 0 + Ainv i 1 * b 1 + Ainv i 2 * b 2 + Ainv i 3 * b 3
  ⟨x.mu + d 0, x.T + d 1, x.vx + d 2, x.vy + d 3⟩

/-- The index of the three quantities kept at constant temperature: mass and momenta (rows and columns 0, 2, 3) — `collision_operator.py:469-472, 516`. -/
def keep3 : Fin 3 → Fin 4
  | 0 => 0
  | 1 => 2
  | 2 => 3

/-- One pass of the loop of `f0_ee_constant_T` in one cell — `collision_operator.py:431-540`. -/
noncomputable def newtonEEConstT (k : ℝ) (E px py f : P → ℝ) (x : EEState) : EEState :=
  let Ainv := inverse3x3 fun i j => eeJacobian k E px py x (keep3 i) (keep3 j)
  let b := fun i => eeResidual k E px py f x (keep3 i)
  let d := fun i => Ainv i 0 * b 0 + Ainv i 1 * b 1 + Ainv i 2 * b 2
  ⟨x.mu + d 0, x.T, x.vx + d 1, x.vy + d 2⟩

end newton

section rta
variable {S P Q : Type} [Fintype P]

/-- The parameters the collision operator reads: `p_space_grid`, `p_dim`, `boltzmann_constant`, `collision_nonlinear_iters`, `disable_collision_op`, `E_band`
and the values of `tau_defect`, `tau_ee` on the grid. -/
structure ElecParams (S P Q : Type) where
  grid : String
  pdim : ℕ
  k : ℝ
  iters : ℕ
  disabled : Bool
  E : S → P → ℝ
  tauDefect : S → P → Q → ℝ
  tauEE : S → P → Q → ℝ

/-- The arrays the collision operator keeps in `params` between calls: `mu, T`, the drifting state, and the currents `j_x, j_y`. -/
structure ElecState (S Q : Type) where
  mu : S → Q → ℝ
  T : S → Q → ℝ
  ee : S → Q → EEState
  jx : S → Q → ℝ
  jy : S → Q → ℝ

/-- `f0_defect_constant_T` — `collision_operator.py:11-94`. With no iterations `E_upper` and `k` are unbound at line 75 (`UnboundLocalError`, a `NameError`).
The residuals that are only printed are not modelled. -/
noncomputable def f0DefectConstT (pr : ElecParams S P Q) (f : Dist S P Q ℝ) (st : ElecState S Q) : Except PyErr (ElecState S Q × Dist S P Q ℝ) :=
  if pr.iters = 0 then .error .nameError else
  let mu := fun s q => (newtonMu pr.k (pr.E s) (fun p => f s p q) (st.T s q))^[pr.iters] (st.mu s q)
  .ok ({ st with mu := mu }, fun s p q => fermiDirac pr.k (mu s q) (st.T s q) (pr.E s p))

/-- `f0_defect` — `collision_operator.py:102-208`. -/
noncomputable def f0Defect (pr : ElecParams S P Q) (f : Dist S P Q ℝ) (st : ElecState S Q) : Except PyErr (ElecState S Q × Dist S P Q ℝ) :=
  if pr.iters = 0 then .error .nameError else
  let x := fun s q => (newtonMuT pr.k (pr.E s) (fun p => f s p q))^[pr.iters] (st.mu s q, st.T s q)
  .ok ({ st with mu := fun s q => (x s q).1, T := fun s q => (x s q).2 }, fun s p q => fermiDirac pr.k (x s q).1 (x s q).2 (pr.E s p))

/-- `f0_ee` — `collision_operator.py:211-399`. -/
noncomputable def f0EE (pr : ElecParams S P Q) (px py : S → P → ℝ) (f : Dist S P Q ℝ) (st : ElecState S Q) :
    Except PyErr (ElecState S Q × Dist S P Q ℝ) :=
  if pr.iters = 0 then .error .nameError else
  let x := fun s q => (newtonEE pr.k (pr.E s) (px s) (py s) (fun p => f s p q))^[pr.iters] (st.ee s q)
  .ok ({ st with ee := x }, fun s p q => fermiDirac2 pr.k (x s q).mu (x s q).T (x s q).vx (x s q).vy (pr.E s p) (px s p) (py s p))

/-- `f0_ee_constant_T` — `collision_operator.py:402-587`. -/
noncomputable def f0EEConstT (pr : ElecParams S P Q) (px py : S → P → ℝ) (f : Dist S P Q ℝ) (st : ElecState S Q) :
    Except PyErr (ElecState S Q × Dist S P Q ℝ) :=
  if pr.iters = 0 then .error .nameError else
  let x := fun s q => (newtonEEConstT pr.k (pr.E s) (px s) (py s) (fun p => f s p q))^[pr.iters] (st.ee s q)
  .ok ({ st with ee := x }, fun s p q => fermiDirac2 pr.k (x s q).mu (x s q).T (x s q).vx (x s q).vy (pr.E s p) (px s p) (py s p))

/-- The Cartesian momenta `(p_x, p_y)` by grid type — `collision_operator.py:623-632`. -/
noncomputable def cartesianMomenta (grid : String) (c : PCoords S P ℝ) : Except PyErr ((S → P → ℝ) × (S → P → ℝ)) :=
  if grid = "cartesian" then .ok (c.p1, c.p2)
  else if grid = "polar2D" then .ok (fun s p => c.p1 s p * Real.cos (c.p2 s p), fun s p => c.p1 s p * Real.sin (c.p2 s p))
  else .error .notImplemented

/-- The relaxation terms for a given pair of equilibria — `collision_operator.py:649-652, 655-658`. -/
noncomputable def relax (pr : ElecParams S P Q) (f f0D f0ee : Dist S P Q ℝ) : Dist S P Q ℝ :=
  fun s p q => -(f s p q - f0D s p q) / pr.tauDefect s p q - (f s p q - f0ee s p q) / pr.tauEE s p q

open Classical in
/-- `RTA(f, ..., flag)` — `collision_operator.py:589-679`. The file as committed does not parse: the colons after `if (params.p_dim==1)` and
`elif (params.p_dim==2)` (lines 648, 654) are missing; the model is of the file with them. With another `p_dim` the name `C_f` is unbound at line 678. -/
noncomputable def rta (pr : ElecParams S P Q) (c : PCoords S P ℝ) (flag : Bool) (f : Dist S P Q ℝ) (st : ElecState S Q) :
    Except PyErr (ElecState S Q × Dist S P Q ℝ) :=
  (cartesianMomenta pr.grid c).bind fun pxy =>
  if ∃ s p q, pr.tauDefect s p q = 0 then
    if flag = false then .ok (st, fun s p q => 0 * f s p q) else f0DefectConstT pr f st
  else
    let finish := fun (r : ElecState S Q × Dist S P Q ℝ) =>
      Except.ok ({ r.1 with jx := fun s q => ∑ p, f s p q * pxy.1 s p, jy := fun s q => ∑ p, f s p q * pxy.2 s p }, r.2)
    if pr.disabled = true then finish (st, fun s p q => 0 * f s p q)
    else if pr.pdim = 1 then
      (f0DefectConstT pr f st).bind fun d => (f0EEConstT pr pxy.1 pxy.2 f d.1).bind fun e => finish (e.1, relax pr f d.2 e.2)
    else if pr.pdim = 2 then
      (f0Defect pr f st).bind fun d => (f0EEConstT pr pxy.1 pxy.2 f d.1).bind fun e => finish (e.1, relax pr f d.2 e.2)
    else .error .nameError

end rta

end Bolt
