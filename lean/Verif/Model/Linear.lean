import Verif.Model.FFT
import Verif.Model.Moments
import Verif.Model.Nonrel
import Verif.Model.Temporal

/-!
# The linear solver (`bolt/lib/linear`)

The solver keeps one Fourier amplitude per momentum cell, species and wave number.  Functions that change the solver object are
written in the state-and-exception monad `LinM`.  `linear_solver.py:34` and `fields/fields.py:9` import `calculate_q_center`,
which `bolt/lib/utils/calculate_q.py` no longer defines; the model is of the code with that import repaired (the cell-centre
coordinates are only handed to the user's callbacks).
-/

namespace Bolt

open Complex Finset

/-- Statements that read and update an object of type `σ` and may raise. -/
abbrev LinM (σ : Type) := StateT σ (Except PyErr)

section integrators

variable {σ V W : Type} [AddCommGroup V] [Module ℝ V] [AddCommGroup W] [Module ℝ W]

/-- `RK2(dx_dt, x_initial, dt, *args)` — `integrators.py:6-32`; `tick c` is `args[1].time_elapsed += c`. -/
noncomputable def linRK2 (tick : ℝ → LinM σ Unit) (F : V → LinM σ V) (x0 : V) (dt : ℝ) : LinM σ V := do
  let k1 ← F x0
  let x := x0 + (dt / 2) • k1
  tick (0.5 * dt)
  let k2 ← F x
  let x := x0 + dt • k2
  tick (0.5 * dt)
  pure x

/-- `RK4(dx_dt, x_initial, dt, *args)` — `integrators.py:34-71`. -/
noncomputable def linRK4 (tick : ℝ → LinM σ Unit) (F : V → LinM σ V) (x0 : V) (dt : ℝ) : LinM σ V := do
  let k1 ← F x0
  let x := x0 + dt • ((0.5 : ℝ) • k1)
  tick (0.5 * dt)
  let k2 ← F x
  let x := x0 + dt • ((0.5 : ℝ) • k2)
  let k3 ← F x
  let x := x0 + dt • k3
  tick (0.5 * dt)
  let k4 ← F x
  pure (x0 + dt • ((1 / 6 : ℝ) • (k1 + (2 : ℝ) • k2 + (2 : ℝ) • k3 + k4)))

/-- `RK5(dx_dt, x_initial, dt, *args)` — `integrators.py:73-121`. -/
noncomputable def linRK5 (tick : ℝ → LinM σ Unit) (F : V → LinM σ V) (x0 : V) (dt : ℝ) : LinM σ V := do
  let k1 ← F x0
  let x := x0 + dt • ((0.25 : ℝ) • k1)
  tick (0.25 * dt)
  let k2 ← F x
  let x := x0 + dt • ((1 / 8 : ℝ) • (k1 + k2))
  let k3 ← F x
  let x := x0 - dt • ((0.5 : ℝ) • k2 - k3)
  tick (0.25 * dt)
  let k4 ← F x
  let x := x0 + (dt / 16) • ((3 : ℝ) • k1 + (9 : ℝ) • k4)
  tick (0.25 * dt)
  let k5 ← F x
  let x := x0 - (dt / 7) • ((3 : ℝ) • k1 - (2 : ℝ) • k2 - (12 : ℝ) • k3 + (12 : ℝ) • k4 - (8 : ℝ) • k5)
  tick (0.25 * dt)
  let k6 ← F x
  pure (x0 + (dt / 90) • ((7 : ℝ) • k1 + (32 : ℝ) • k3 + (12 : ℝ) • k4 + (32 : ℝ) • k5 + (7 : ℝ) • k6))

/-- `RK2_coupled(dx_dt, x_initial, dy_dt, y_initial, dt, *args)` — `integrators.py:126-179`.  `y_initial` is the very array
`self.fields_solver.fields_hat`, which `dy_dt` may write into, so every use of it is a read (`y0`) of the solver object. -/
noncomputable def linRK2Coupled (tick : ℝ → LinM σ Unit) (F : V → W → LinM σ V) (x0 : V) (G : V → W → LinM σ W) (y0 : LinM σ W)
    (dt : ℝ) : LinM σ (V × W) := do
  let k1x ← F x0 (← y0)
  let k1y ← G x0 (← y0)
  let x := x0 + (dt / 2) • k1x
  let y := (← y0) + (dt / 2) • k1y
  tick (0.5 * dt)
  let k2x ← F x y
  let k2y ← G x y
  let x := x0 + dt • k2x
  let y := (← y0) + dt • k2y
  tick (0.5 * dt)
  pure (x, y)

/-- `RK4_coupled` — `integrators.py:181-246`. -/
noncomputable def linRK4Coupled (tick : ℝ → LinM σ Unit) (F : V → W → LinM σ V) (x0 : V) (G : V → W → LinM σ W) (y0 : LinM σ W)
    (dt : ℝ) : LinM σ (V × W) := do
  let k1x ← F x0 (← y0)
  let k1y ← G x0 (← y0)
  tick (0.5 * dt)
  let x := x0 + dt • ((0.5 : ℝ) • k1x)
  let y := (← y0) + dt • ((0.5 : ℝ) • k1y)
  let k2x ← F x y
  let k2y ← G x y
  let x := x0 + dt • ((0.5 : ℝ) • k2x)
  let y := (← y0) + dt • ((0.5 : ℝ) • k2y)
  let k3x ← F x y
  let k3y ← G x y
  let x := x0 + dt • k3x
  let y := (← y0) + dt • k3y
  tick (0.5 * dt)
  let k4x ← F x y
  let k4y ← G x y
  let x := x0 + dt • ((1 / 6 : ℝ) • (k1x + (2 : ℝ) • k2x + (2 : ℝ) • k3x + k4x))
  let y := (← y0) + dt • ((1 / 6 : ℝ) • (k1y + (2 : ℝ) • k2y + (2 : ℝ) • k3y + k4y))
  pure (x, y)

/-- `RK5_coupled` — `integrators.py:248-330`. -/
noncomputable def linRK5Coupled (tick : ℝ → LinM σ Unit) (F : V → W → LinM σ V) (x0 : V) (G : V → W → LinM σ W) (y0 : LinM σ W)
    (dt : ℝ) : LinM σ (V × W) := do
  let k1x ← F x0 (← y0)
  let k1y ← G x0 (← y0)
  let x := x0 + dt • ((0.25 : ℝ) • k1x)
  let y := (← y0) + dt • ((0.25 : ℝ) • k1y)
  tick (0.25 * dt)
  let k2x ← F x y
  let k2y ← G x y
  let x := x0 + dt • ((1 / 8 : ℝ) • (k1x + k2x))
  let y := (← y0) + dt • ((1 / 8 : ℝ) • (k1y + k2y))
  let k3x ← F x y
  let k3y ← G x y
  let x := x0 - dt • ((0.5 : ℝ) • k2x - k3x)
  let y := (← y0) - dt • ((0.5 : ℝ) • k2y - k3y)
  tick (0.25 * dt)
  let k4x ← F x y
  let k4y ← G x y
  let x := x0 + (dt / 16) • ((3 : ℝ) • k1x + (9 : ℝ) • k4x)
  let y := (← y0) + (dt / 16) • ((3 : ℝ) • k1y + (9 : ℝ) • k4y)
  tick (0.25 * dt)
  let k5x ← F x y
  let k5y ← G x y
  let x := x0 - (dt / 7) • ((3 : ℝ) • k1x - (2 : ℝ) • k2x - (12 : ℝ) • k3x + (12 : ℝ) • k4x - (8 : ℝ) • k5x)
  let y := (← y0) - (dt / 7) • ((3 : ℝ) • k1y - (2 : ℝ) • k2y - (12 : ℝ) • k3y + (12 : ℝ) • k4y - (8 : ℝ) • k5y)
  tick (0.25 * dt)
  let k6x ← F x y
  let k6y ← G x y
  let x := x0 + (dt / 90) • ((7 : ℝ) • k1x + (32 : ℝ) • k3x + (12 : ℝ) • k4x + (32 : ℝ) • k5x + (7 : ℝ) • k6x)
  let y := (← y0) + (dt / 90) • ((7 : ℝ) • k1y + (32 : ℝ) • k3y + (12 : ℝ) • k4y + (32 : ℝ) • k5y + (7 : ℝ) • k6y)
  pure (x, y)

end integrators

/-- Index of a momentum cell; the momentum axes are cyclic for `af.shift`. -/
abbrev MomIx (M1 M2 M3 : ℕ) := ZMod M1 × ZMod M2 × ZMod M3

section stencil

variable {K : Type} [Field K] {M1 M2 M3 : ℕ}

/-- `(-shift(x, -2) + 8 shift(x, -1) + shift(x, 2) - 8 shift(x, 1)) / (12 dp)` along the axis with unit index `e`:
`calculate_dfdp_background.py:29-42` and `df_hat_dt.py:105-119`. -/
def centralDiff4 {A : Type} [AddCommGroup A] (e : A) (dp : K) (x : A → K) : A → K := fun p =>
  (-afShift e (-2) x p + 8 * afShift e (-1) x p + afShift e 2 x p - 8 * afShift e 1 x p) * (1 / (12 * dp))

/-- Unit index along the `p1` axis of the momentum-expanded array. -/
def axP1 : MomIx M1 M2 M3 := (1, 0, 0)
/-- Unit index along the `p2` axis. -/
def axP2 : MomIx M1 M2 M3 := (0, 1, 0)
/-- Unit index along the `p3` axis. -/
def axP3 : MomIx M1 M2 M3 := (0, 0, 1)

/-- `calculate_dfdp_background(self)` — `calculate_dfdp_background.py:7-63`.  The reshapes between `(N_p, N_s)` and
`(N_p1, N_p2, N_p3, N_s)` keep the column-major order and are the identity on `MomIx`. -/
def dfdpBackground {S : Type} (dp1 dp2 dp3 : S → K) (fb : MomIx M1 M2 M3 → S → K) :
    (MomIx M1 M2 M3 → S → K) × (MomIx M1 M2 M3 → S → K) × (MomIx M1 M2 M3 → S → K) :=
  (fun p s => centralDiff4 axP1 (dp1 s) (fun p => fb p s) p,
   fun p s => centralDiff4 axP2 (dp2 s) (fun p => fb p s) p,
   fun p s => centralDiff4 axP3 (dp3 s) (fun p => fb p s) p)

/-- The factor `1 / (12 * self.dp)` broadcast against the momentum-expanded array in `df_hat_dt.py:105-119`: `dp` has shape
`(1, N_s)`, the array `(N_p1, N_p2, N_p3, N_s N_q1 N_q2)`, so the species axis of `dp` meets the `p2` axis of the array.  With one
species this is harmless; with `N_s = N_p2` species the spacing is looked up by momentum index; otherwise the broadcast (or, when
`N_p2 = 1`, the later `moddims`) raises. -/
def dpBroadcast {ns : ℕ} [NeZero M2] (dp : Fin ns → K) : Except PyErr (MomIx M1 M2 M3 → Fin ns → K) :=
  if ns = 1 then .ok fun _ s => dp s
  else if h : ns = M2 then .ok fun p _ => dp ⟨p.2.1.val, by rw [h]; exact ZMod.val_lt _⟩
  else .error .exception

end stencil

variable (M1 M2 M3 ns N1 N2 : ℕ)

/-- An array of shape `(N_p, N_s, N_q1, N_q2)`. -/
abbrev LinF (K : Type) := MomIx M1 M2 M3 → Fin ns → ZMod N1 × ZMod N2 → K

/-- The six field components, each of shape `(1, 1, N_q1, N_q2)`. -/
abbrev LinEM := Fin 6 → ZMod N1 × ZMod N2 → ℂ

/-- What the linear solver reads of its physical system. -/
structure LinCfg where
  (dq1 dq2 : ℝ)
  (dp1 dp2 dp3 : Fin ns → ℝ)
  /-- `p1_center`, `p2_center`, `p3_center` -/
  coords : PCoords (Fin ns) (MomIx M1 M2 M3) ℝ
  (charge mass : Fin ns → ℝ)
  (eps mu Te : ℝ)
  (fieldsEnabled sourceEnabled instantaneous hybrid : Bool)
  fieldsType : String
  /-- `A_q(t, q1, q2, p1, p2, p3, params)` -/
  Aq : ℝ → LinF M1 M2 M3 ns N1 N2 ℝ × LinF M1 M2 M3 ns N1 N2 ℝ
  /-- `A_p(t, q1, q2, p1, p2, p3, fields_solver, params)` as a function of what `fields_solver.get_fields()` returns -/
  Ap : ℝ → LinEM N1 N2 → LinF M1 M2 M3 ns N1 N2 ℂ × LinF M1 M2 M3 ns N1 N2 ℂ × LinF M1 M2 M3 ns N1 N2 ℂ
  /-- `source(f, t, q1, q2, p1, p2, p3, moments, params, flag)` -/
  source : Bool → ℝ → LinF M1 M2 M3 ns N1 N2 ℝ → LinF M1 M2 M3 ns N1 N2 ℝ
  /-- `dfdp1_background` etc. -/
  (dfdp1 dfdp2 dfdp3 : MomIx M1 M2 M3 → Fin ns → ℝ)

/-- The mutable part of the linear solver object and its fields solver. -/
structure LinState where
  /-- `self.f_hat` -/
  fHat : LinF M1 M2 M3 ns N1 N2 ℂ
  /-- `self.time_elapsed` -/
  time : ℝ
  /-- `fields_solver.E1_hat, ..., B3_hat` -/
  attrs : LinEM N1 N2
  /-- `fields_solver.fields_hat` -/
  fieldsHat : LinEM N1 N2

variable {M1 M2 M3 ns N1 N2} [NeZero M1] [NeZero M2] [NeZero M3] [NeZero N1] [NeZero N2]

/-- Statements of the linear solver. -/
abbrev LinSM (M1 M2 M3 ns N1 N2 : ℕ) := LinM (LinState M1 M2 M3 ns N1 N2)

/-- `fields_solver.get_fields()` — `fields/fields.py:134-149`. -/
def linGetFields (fieldsType : String) : LinSM M1 M2 M3 ns N1 N2 (LinEM N1 N2) := do
  modify fun s => if fieldsType = "electrodynamic" then { s with attrs := s.fieldsHat } else s
  return (← get).attrs

/-- A moment of mode amplitudes, `compute_moments(name, f_hat = ...)` — `compute_moments.py:53-62`; the momentum coordinates and the
measure are real. -/
noncomputable def linMoment (cfg : LinCfg M1 M2 M3 ns N1 N2) (m : MomentFn (Fin ns) (MomIx M1 M2 M3) (ZMod N1 × ZMod N2) ℂ)
    (fHat : LinF M1 M2 M3 ns N1 N2 ℂ) : Fin ns → ZMod N1 × ZMod N2 → ℂ :=
  m ⟨fun s p => (cfg.coords.p1 s p : ℂ), fun s p => (cfg.coords.p2 s p : ℂ), fun s p => (cfg.coords.p3 s p : ℂ)⟩
    (fun s => ((cfg.dp3 s * cfg.dp2 s * cfg.dp1 s : ℝ) : ℂ)) (fun s p q => fHat p s q)

/-- `multiply(charge, compute_moments('density', f_hat))` — `df_hat_dt.py:60-62`, `linear_solver.py:257-259`. -/
noncomputable def linRho (cfg : LinCfg M1 M2 M3 ns N1 N2) (fHat : LinF M1 M2 M3 ns N1 N2 ℂ) : Fin ns → ZMod N1 × ZMod N2 → ℂ :=
  fun s q => (cfg.charge s : ℂ) * linMoment cfg density fHat s q

/-- `compute_electrostatic_fields(self, rho_hat)` — `fields/electrostatic_solver.py:9-41`: the values assigned to
`E1_hat, ..., B3_hat`.  (The division by zero in the mean mode is overwritten by line 27.) -/
noncomputable def linElectrostatic (dq1 dq2 eps : ℝ) (rhoHat : Fin ns → ZMod N1 × ZMod N2 → ℂ) : LinEM N1 N2 :=
  let k1 := fun q : ZMod N1 × ZMod N2 => (calculateK dq1 dq2 q).1
  let k2 := fun q : ZMod N1 × ZMod N2 => (calculateK dq1 dq2 q).2
  let phi : ZMod N1 × ZMod N2 → ℂ := fun q =>
    if q = 0 then 0 else (∑ s, rhoHat s q) * ((1 / (k1 q ^ 2 + k2 q ^ 2) : ℝ) : ℂ)
  ![fun q => -phi q * I * k1 q / eps, fun q => -phi q * I * k2 q / eps, fun _ => 0, fun _ => 0, fun _ => 0, fun _ => 0]

/-- The source contribution to the slope — `df_hat_dt.py:38-54`. -/
noncomputable def linSourceTerm (cfg : LinCfg M1 M2 M3 ns N1 N2) (t : ℝ) (fHat : LinF M1 M2 M3 ns N1 N2 ℂ) :
    Except PyErr (LinF M1 M2 M3 ns N1 N2 ℂ) := do
  let f ← ifft2 (M1 * M2 * M3) ns fun p s q => 0.5 * N2 * N1 * fHat p s q
  let c := fft2 fun p s q => ((cfg.source false t (fun p s q => (f p s q).re) p s q : ℝ) : ℂ)
  pure fun p s q => 2 * c p s q / (N2 * N1)

/-- Updating the fields inside `df_hat_dt` — `df_hat_dt.py:58-74`. -/
noncomputable def linUpdateFields (cfg : LinCfg M1 M2 M3 ns N1 N2) (fHat : LinF M1 M2 M3 ns N1 N2 ℂ) : LinSM M1 M2 M3 ns N1 N2 Unit :=
  if cfg.fieldsType = "electrostatic" then
    modify fun st => { st with attrs := linElectrostatic cfg.dq1 cfg.dq2 cfg.eps (linRho cfg fHat) }
  else if cfg.fieldsType = "electrodynamic" then pure ()
  else if cfg.fieldsType = "None" then pure ()
  else throw .notImplemented

/-- The force terms, given the fields: `fields_term + fields_term_mean_magnetic_fields` — `df_hat_dt.py:78-144`; `d1, d2, d3` are the
broadcast momentum spacings and `B` the mean magnetic field. -/
noncomputable def linForce (cfg : LinCfg M1 M2 M3 ns N1 N2) (t : ℝ) (em : LinEM N1 N2) (B : Fin 3 → ℂ)
    (d1 d2 d3 : MomIx M1 M2 M3 → Fin ns → ℝ) (fHat : LinF M1 M2 M3 ns N1 N2 ℂ) : LinF M1 M2 M3 ns N1 N2 ℂ := fun p s q =>
  let A := cfg.Ap t em                                                                     -- 78-82
  let fieldsTerm := A.1 p s q * cfg.dfdp1 p s + A.2.1 p s q * cfg.dfdp2 p s + A.2.2 p s q * cfg.dfdp3 p s   -- 84-86
  let g1 := centralDiff4 axP1 (d1 p s : ℂ) (fun p => fHat p s q) p                         -- 106-109, 122-125
  let g2 := centralDiff4 axP2 (d2 p s : ℂ) (fun p => fHat p s q) p
  let g3 := centralDiff4 axP3 (d3 p s : ℂ) (fun p => fHat p s q) p
  let meanTerm := ((cfg.charge s / cfg.mass s : ℝ) : ℂ) *                                  -- 137-142
    ((cfg.coords.p2 s p * B 2 - cfg.coords.p3 s p * B 1) * g1
      + (cfg.coords.p3 s p * B 0 - cfg.coords.p1 s p * B 2) * g2
      + (cfg.coords.p1 s p * B 1 - cfg.coords.p2 s p * B 0) * g3)
  fieldsTerm + meanTerm

/-- The field contribution to the slope — `df_hat_dt.py:56-144`. -/
noncomputable def linForceTerm (cfg : LinCfg M1 M2 M3 ns N1 N2) (t : ℝ) (fHat : LinF M1 M2 M3 ns N1 N2 ℂ) :
    LinSM M1 M2 M3 ns N1 N2 (LinF M1 M2 M3 ns N1 N2 ℂ) := do
  linUpdateFields cfg fHat
  let em ← linGetFields cfg.fieldsType
  let fh := (← get).fieldsHat
  let d1 ← liftM (dpBroadcast (M1 := M1) (M2 := M2) (M3 := M3) cfg.dp1)
  let d2 ← liftM (dpBroadcast (M1 := M1) (M2 := M2) (M3 := M3) cfg.dp2)
  let d3 ← liftM (dpBroadcast (M1 := M1) (M2 := M2) (M3 := M3) cfg.dp3)
  pure (linForce cfg t em ![fh 3 0 / 2, fh 4 0 / 2, fh 5 0 / 2] d1 d2 d3 fHat)             -- 92-94

/-- The streaming part of the slope — `df_hat_dt.py:28-36`. -/
noncomputable def linStreaming (cfg : LinCfg M1 M2 M3 ns N1 N2) (t : ℝ) (x : LinF M1 M2 M3 ns N1 N2 ℂ) : LinF M1 M2 M3 ns N1 N2 ℂ :=
  fun p s q => -I * (((calculateK cfg.dq1 cfg.dq2 q).1 * (cfg.Aq t).1 p s q + (calculateK cfg.dq1 cfg.dq2 q).2 * (cfg.Aq t).2 p s q : ℝ) : ℂ)
    * x p s q

/-- `df_hat_dt(f_hat, fields_hat, self)` — `df_hat_dt.py:10-147`.  The argument `fields_hat` is not read by the code.  (A disabled
contribution is zero instead of not being added.) -/
noncomputable def dfHatDt (cfg : LinCfg M1 M2 M3 ns N1 N2) (fHat : LinF M1 M2 M3 ns N1 N2 ℂ) (_fieldsHat : LinEM N1 N2) :
    LinSM M1 M2 M3 ns N1 N2 (LinF M1 M2 M3 ns N1 N2 ℂ) := do
  let t := (← get).time
  let src ← (if cfg.sourceEnabled then liftM (linSourceTerm cfg t fHat) else pure 0)
  let frc ← (if cfg.fieldsEnabled then linForceTerm cfg t fHat else pure 0)
  pure (linStreaming cfg t fHat + src - frc)

/-- `af.mean(af.real(ifft2(0.5 N x)))` for an array with one momentum cell and one species — `dfields_hat_dt.py:93-104, 146-165`. -/
noncomputable def realOfModes (x : ZMod N1 × ZMod N2 → ℂ) : Except PyErr (ZMod N1 × ZMod N2 → ℝ) := do
  let y ← ifft2 (P := Unit) (S := Unit) 1 1 fun _ _ q => 0.5 * N2 * N1 * x q
  pure fun q => (y () () q).re

/-- `af.mean` over the grid. -/
noncomputable def gridMean (x : ZMod N1 × ZMod N2 → ℝ) : ℝ := (∑ q, x q) / ((N1 : ℝ) * N2)

/-- Ohm's law of the hybrid model, the amplitudes `E1_hat, E2_hat, E3_hat` — `dfields_hat_dt.py:90-165`.  `n_i_hat * k_q1` is not
broadcast, so more than one species raises; with one species the sum over `s` below is that species. -/
noncomputable def linOhm (cfg : LinCfg M1 M2 M3 ns N1 N2) (fHat : LinF M1 M2 M3 ns N1 N2 ℂ) (B : Fin 3 → ZMod N1 × ZMod N2 → ℂ)
    (J : Fin 3 → ZMod N1 × ZMod N2 → ℂ) : Except PyErr (Fin 3 → ZMod N1 × ZMod N2 → ℂ) :=
  if ns ≠ 1 then .error .exception else do
  let e : ℝ := ∑ s, cfg.charge s
  let nHat : ZMod N1 × ZMod N2 → ℂ := fun q => ∑ s, linMoment cfg density fHat s q
  let n ← realOfModes nHat
  let m1 ← realOfModes fun q => ∑ s, linMoment cfg momV1 fHat s q
  let m2 ← realOfModes fun q => ∑ s, linMoment cfg momV2 fHat s q
  let m3 ← realOfModes fun q => ∑ s, linMoment cfg momV3 fHat s q
  let j1 ← realOfModes (J 0)
  let j2 ← realOfModes (J 1)
  let j3 ← realOfModes (J 2)
  let v1 := gridMean fun q => m1 q / n q
  let v2 := gridMean fun q => m2 q / n q
  let v3 := gridMean fun q => m3 q / n q
  let n0 := gridMean n
  let k1 := fun q : ZMod N1 × ZMod N2 => (calculateK cfg.dq1 cfg.dq2 q).1
  let k2 := fun q : ZMod N1 × ZMod N2 => (calculateK cfg.dq1 cfg.dq2 q).2
  let vB1 := fun q => B 2 q * v2 - B 1 q * v3                                              -- 145-150
  let vB2 := fun q => B 0 q * v3 - B 2 q * v1
  let vB3 := fun q => B 1 q * v1 - B 0 q * v2
  let jB1 := fun q => B 2 q * gridMean j2 - B 1 q * gridMean j3                            -- 152-157
  let jB2 := fun q => B 0 q * gridMean j3 - B 2 q * gridMean j1
  let jB3 := fun q => B 1 q * gridMean j1 - B 0 q * gridMean j2
  pure ![fun q => -vB1 q + jB1 q * (1 / e) / n0 - cfg.Te * nHat q * k1 q / n0,             -- 159-165
         fun q => -vB2 q + jB2 q * (1 / e) / n0 - cfg.Te * nHat q * k2 q / n0,
         fun q => -vB3 q + jB3 q * (1 / e) / n0]

/-- Ohm's law and the write of the electric field into the solver's own array — `dfields_hat_dt.py:88-169`. -/
noncomputable def linOhmWrite (cfg : LinCfg M1 M2 M3 ns N1 N2) (fHat : LinF M1 M2 M3 ns N1 N2 ℂ) (B J : Fin 3 → ZMod N1 × ZMod N2 → ℂ) :
    LinSM M1 M2 M3 ns N1 N2 (Fin 3 → ZMod N1 × ZMod N2 → ℂ) := do
  let E ← liftM (linOhm cfg fHat B J)
  modify fun st => { st with fieldsHat := ![E 0, E 1, E 2, st.fieldsHat 3, st.fieldsHat 4, st.fieldsHat 5] }
  pure E

/-- `dfields_hat_dt(f_hat, fields_hat, self)` — `fields/dfields_hat_dt.py:9-196`.  In the hybrid model the electric field is also
written into the solver's own array (167-169). -/
noncomputable def dfieldsHatDt (cfg : LinCfg M1 M2 M3 ns N1 N2) (fHat : LinF M1 M2 M3 ns N1 N2 ℂ) (y : LinEM N1 N2) :
    LinSM M1 M2 M3 ns N1 N2 (LinEM N1 N2) := do
  let k1 := fun q : ZMod N1 × ZMod N2 => ((calculateK cfg.dq1 cfg.dq2 q).1 : ℂ)
  let k2 := fun q : ZMod N1 × ZMod N2 => ((calculateK cfg.dq1 cfg.dq2 q).2 : ℂ)
  let B1 := y 3
  let B2 := y 4
  let B3 := y 5
  let J : Fin 3 → ZMod N1 × ZMod N2 → ℂ :=                                                 -- 44-75
    if cfg.hybrid then
      ![fun q => B3 q * I * k2 q / cfg.mu, fun q => -B3 q * I * k1 q / cfg.mu,
        fun q => (B2 q * I * k1 q - B1 q * I * k2 q) / cfg.mu]
    else
      ![fun q => ∑ s, (cfg.charge s : ℂ) * linMoment cfg momV1 fHat s q,
        fun q => ∑ s, (cfg.charge s : ℂ) * linMoment cfg momV2 fHat s q,
        fun q => ∑ s, (cfg.charge s : ℂ) * linMoment cfg momV3 fHat s q]
  let E ← (if cfg.hybrid then linOhmWrite cfg fHat ![B1, B2, B3] J else pure ![y 0, y 1, y 2])   -- 88-175
  pure ![fun q => B3 q * I * k2 q / (cfg.mu * cfg.eps) - J 0 q / cfg.eps,                  -- 177-180
         fun q => -B3 q * I * k1 q / (cfg.mu * cfg.eps) - J 1 q / cfg.eps,
         fun q => (B2 q * I * k1 q - B1 q * I * k2 q) / (cfg.mu * cfg.eps) - J 2 q / cfg.eps,
         fun q => -E 2 q * I * k2 q,                                                       -- 186-188
         fun q => E 2 q * I * k1 q,
         fun q => E 0 q * I * k2 q - E 1 q * I * k1 q]

/-- `self.time_elapsed += c`. -/
def linTick (c : ℝ) : LinSM M1 M2 M3 ns N1 N2 Unit := modify fun s => { s with time := s.time + c }

/-- Reading `self.fields_solver.fields_hat`. -/
def linFieldsRef : LinSM M1 M2 M3 ns N1 N2 (LinEM N1 N2) := do return (← get).fieldsHat

/-- The three stepping methods of the linear solver. -/
inductive LinScheme
  | rk2 | rk4 | rk5
  deriving DecidableEq, Repr

/-- `integrators.RK2`, `RK4`, `RK5`. -/
noncomputable def LinScheme.single {σ V : Type} [AddCommGroup V] [Module ℝ V] :
    LinScheme → (ℝ → LinM σ Unit) → (V → LinM σ V) → V → ℝ → LinM σ V
  | .rk2 => linRK2
  | .rk4 => linRK4
  | .rk5 => linRK5

/-- `integrators.RK2_coupled`, `RK4_coupled`, `RK5_coupled`. -/
noncomputable def LinScheme.coupled {σ V W : Type} [AddCommGroup V] [Module ℝ V] [AddCommGroup W] [Module ℝ W] :
    LinScheme → (ℝ → LinM σ Unit) → (V → W → LinM σ V) → V → (V → W → LinM σ W) → LinM σ W → ℝ → LinM σ (V × W)
  | .rk2 => linRK2Coupled
  | .rk4 => linRK4Coupled
  | .rk5 => linRK5Coupled

/-- The block for instantaneous collisions — `timestep.py:24-34, 70-80, 116-126`. -/
noncomputable def linCollide (cfg : LinCfg M1 M2 M3 ns N1 N2) : LinSM M1 M2 M3 ns N1 N2 Unit := do
  let st ← get
  let y ← liftM (ifft2 (M1 * M2 * M3) ns st.fHat)
  let f0 := cfg.source true st.time fun p s q => 0.5 * N1 * N2 * (y p s q).re
  let h := fft2 fun p s q => ((f0 p s q : ℝ) : ℂ)
  set { st with fHat := fun p s q => 2 * h p s q / (N1 * N2) }

/-- `RK5_step` (`timestep.py:11-57`), `RK4_step` (59-103), `RK2_step` (105-149): they differ in the integrator called. -/
noncomputable def linStep (m : LinScheme) (cfg : LinCfg M1 M2 M3 ns N1 N2) (dt : ℝ) : LinSM M1 M2 M3 ns N1 N2 Unit := do
  (if cfg.instantaneous then linCollide cfg else pure ())
  let f0 := (← get).fHat
  if cfg.fieldsEnabled = true ∧ cfg.fieldsType = "electrodynamic" then do
    let r ← m.coupled linTick (dfHatDt cfg) f0 (dfieldsHatDt cfg) linFieldsRef dt
    modify fun s => { s with fHat := r.1, fieldsHat := r.2 }
  else do
    let em ← linFieldsRef
    let f ← m.single linTick (fun x => dfHatDt cfg x em) f0 dt
    modify fun s => { s with fHat := f }

/-- A time loop: calls of step methods with step sizes, left at the first exception. -/
noncomputable def linRun (cfg : LinCfg M1 M2 M3 ns N1 N2) : List (LinScheme × ℝ) → LinSM M1 M2 M3 ns N1 N2 Unit
  | [] => pure ()
  | (m, dt) :: l => do
      linStep m cfg dt
      linRun cfg l

/-- `get_dist_func(self)` — `linear_solver.py:188-198`. -/
noncomputable def getDistFunc (st : LinState M1 M2 M3 ns N1 N2) : Except PyErr (LinF M1 M2 M3 ns N1 N2 ℝ) := do
  let y ← ifft2 (M1 * M2 * M3) ns st.fHat
  pure fun p s q => 0.5 * N2 * N1 * (y p s q).re

/-- `compute_moments(name)` with no array — `compute_moments.py:36-51`: the moment of the mode amplitudes, transformed to real space.
(The moment has one momentum cell.) -/
noncomputable def linComputeMoments (cfg : LinCfg M1 M2 M3 ns N1 N2) (m : MomentFn (Fin ns) (MomIx M1 M2 M3) (ZMod N1 × ZMod N2) ℂ)
    (st : LinState M1 M2 M3 ns N1 N2) : Except PyErr (Fin ns → ZMod N1 × ZMod N2 → ℝ) := do
  let y ← ifft2 (P := Unit) 1 ns fun _ s q => 0.5 * N2 * N1 * linMoment cfg m st.fHat s q
  pure fun s q => (y () s q).re

/-- Initial amplitudes — `linear_solver.py:242, 255`: `f_hat = 2 fft2(f) / (N1 N2)`. -/
noncomputable def linInitF (f : LinF M1 M2 M3 ns N1 N2 ℝ) : LinF M1 M2 M3 ns N1 N2 ℂ := fun p s q =>
  2 * fft2 (fun p s q => (f p s q : ℂ)) p s q / (N1 * N2)

/-- The background distribution — `linear_solver.py:242-247`: `|fft2(f)[0, 0]| / (N1 N2)`. -/
noncomputable def linBackground (f : LinF M1 M2 M3 ns N1 N2 ℝ) : MomIx M1 M2 M3 → Fin ns → ℝ := fun p s =>
  ‖fft2 (fun p s q => (f p s q : ℂ)) p s 0‖ / (N1 * N2)

/-- What the user's `initial_conditions` module defines for the magnetic field — `fields/fields.py:51-97`. -/
inductive BInit (N1 N2 : ℕ)
  | initB (B : Fin 3 → ZMod N1 × ZMod N2 → ℝ)
  | initA3B3 (A3 B3 : ZMod N1 × ZMod N2 → ℝ)
  | missing

/-- `initialize_magnetic_fields` — `fields/fields.py:51-97`. -/
noncomputable def linInitB (dq1 dq2 : ℝ) : BInit N1 N2 → Except PyErr (Fin 3 → ZMod N1 × ZMod N2 → ℂ)
  | .initB B => .ok fun i q => B i q
  | .initA3B3 A3 B3 => do
      let h := fft2 (P := Unit) (S := Unit) fun _ _ q => (A3 q : ℂ)
      let B1 ← ifft2 1 1 fun p s q => h p s q * I * (calculateK dq1 dq2 q).2
      let B2 ← ifft2 1 1 fun p s q => h p s q * I * (calculateK dq1 dq2 q).1
      pure ![B1 () (), fun q => -B2 () () q, fun q => (B3 q : ℂ)]
  | .missing => .error .notImplemented

/-- `fields_solver._initialize` — `fields/fields.py:99-132`. -/
noncomputable def linInitFields (cfg : LinCfg M1 M2 M3 ns N1 N2) (option : String) (E : Fin 3 → ZMod N1 × ZMod N2 → ℝ)
    (b : BInit N1 N2) (fHat : LinF M1 M2 M3 ns N1 N2 ℂ) : Except PyErr (LinEM N1 N2) :=
  let tr := fun x : ZMod N1 × ZMod N2 → ℂ => fun q => 2 * afFft2 x q / ((N1 : ℂ) * N2)
  let es := linElectrostatic cfg.dq1 cfg.dq2 cfg.eps (linRho cfg fHat)
  if option = "user-defined" then do
    let B ← linInitB cfg.dq1 cfg.dq2 b
    pure ![tr fun q => E 0 q, tr fun q => E 1 q, tr fun q => E 2 q, tr (B 0), tr (B 1), tr (B 2)]
  else if option = "fft + user-defined magnetic fields" then do
    let B ← linInitB cfg.dq1 cfg.dq2 b
    pure ![es 0, es 1, es 2, tr (B 0), tr (B 1), tr (B 2)]
  else .ok es

/-- The state built by the constructor — `linear_solver.py:219-266`. -/
noncomputable def linInit (cfg : LinCfg M1 M2 M3 ns N1 N2) (option : String) (E : Fin 3 → ZMod N1 × ZMod N2 → ℝ) (b : BInit N1 N2)
    (f : LinF M1 M2 M3 ns N1 N2 ℝ) : Except PyErr (LinState M1 M2 M3 ns N1 N2) := do
  let em ← linInitFields cfg option E b (linInitF f)
  pure ⟨linInitF f, 0, em, em⟩

/-- The physics of `bolt/src/nonrelativistic_boltzmann/advection_terms.py` (`A_q` 57-60, `A_p` 131-143) as callbacks of the linear
solver. -/
noncomputable def LinCfg.nonrel (cfg : LinCfg M1 M2 M3 ns N1 N2) : LinCfg M1 M2 M3 ns N1 N2 :=
  { cfg with
    Aq := fun _ => (fun p s _ => (nonrelCq (cfg.coords.p1 s p) (cfg.coords.p2 s p) (cfg.coords.p3 s p)).1,
                    fun p s _ => (nonrelCq (cfg.coords.p1 s p) (cfg.coords.p2 s p) (cfg.coords.p3 s p)).2)
    Ap := fun _ em =>
      let a := fun p s q => nonrelAp (cfg.charge s : ℂ) (cfg.mass s) (em 0 q) (em 1 q) (em 2 q) (em 3 q) (em 4 q) (em 5 q)
        (cfg.coords.p1 s p) (cfg.coords.p2 s p) (cfg.coords.p3 s p)
      (fun p s q => (a p s q).1, fun p s q => (a p s q).2.1, fun p s q => (a p s q).2.2) }

end Bolt
