import Verif.Model.Layout
import Verif.Model.Boundaries

/-!
# From the user's functions to the dumped file

`nonlinear_solver.py:464-500` (`_initialize`), `df_dt_fvm.py:66-97, 250-267` (where the callbacks are evaluated), `timestep.py:92`
(`time_elapsed`), `dump.py:121-168`, `load.py:10-43`: the construction of a solver, a run and a dump (or a load, a run and a dump), on every process.
-/

namespace Bolt

variable {K : Type}

/-- The functions the user's problem module provides.  They act elementwise on the coordinate arrays (`af.broadcast` lets arrays of shape
`(N_p, N_s, 1, 1)` and `(1, 1, M1, M2)` be combined), so each is a function of the coordinates of one point; `s` is the species, on which
parameters such as mass and charge depend. A source may read the whole momentum distribution at its position (moments). `Cp` is given as a function of
time and position (prescribed fields). -/
structure UserFns (Ns Np1 Np2 Np3 : ℕ) (K : Type) where
  /-- `initialize_f(q1, q2, p1, p2, p3, params)` -/
  init : Fin Ns → (q1 q2 p1 p2 p3 : K) → K
  /-- `C_q(t, q1, q2, p1, p2, p3, params)[0]` and `[1]` -/
  Cq : Fin Ns → (t q1 q2 p1 p2 p3 : K) → K × K
  /-- `C_p(t, q1, q2, p1, p2, p3, fields_solver, params)[0]`, `[1]`, `[2]` -/
  Cp : Fin Ns → (t q1 q2 p1 p2 p3 : K) → K × K × K
  /-- `source(f, t, q1, q2, p1, p2, p3, moments, params, False)` -/
  source : (t q1 q2 : K) → (Fin Ns → PIdx Np1 Np2 Np3 → K) → Fin Ns → PIdx Np1 Np2 Np3 → K

/-- The numbers in the user's domain module and the options — `physical_system.py`; grid spacings and options are in `cfg`. -/
structure Setup (Ns : ℕ) (K : Type) where
  (q1s q2s : K)
  (p1s p2s p3s : Fin Ns → K)
  cfg : FVMConfig (Fin Ns) K

/-- A per-species list indexed by a natural number. -/
def perSpecies [Zero K] {Ns : ℕ} (v : Fin Ns → K) (i : ℕ) : K := if h : i < Ns then v ⟨i, h⟩ else 0

section
variable {Ns Np1 Np2 Np3 : ℕ}

/-- Position of a momentum cell along axis 0 of the q-expanded form — `nonlinear_solver.py:430-437`. -/
def momIndex (p : PIdx Np1 Np2 Np3) : ℕ := p.1.val + Np1 * (p.2.1.val + Np2 * p.2.2.val)

/-- The cell-indexed view of a q-expanded array. -/
def AfArray.toDist (M1 M2 : ℕ) (a : AfArray K) : Dist (Fin Ns) (PIdx Np1 Np2 Np3) (ZMod M1 × ZMod M2) K :=
  fun s p l => a.get (momIndex p) s.val l.1.val l.2.val

/-- The q-expanded array with given elements. -/
def AfArray.ofDist [Zero K] (M1 M2 : ℕ) (f : Dist (Fin Ns) (PIdx Np1 Np2 Np3) (ZMod M1 × ZMod M2) K) : AfArray K :=
  AfArray.ofFn (Np1 * Np2 * Np3) Ns M1 M2 fun i j k l =>
    if h : j < Ns then f ⟨j, h⟩ ((i : ℕ), (i / Np1 : ℕ), (i / Np1 / Np2 : ℕ)) ((k : ZMod M1), (l : ZMod M2)) else 0

variable [Field K]

/-- `p1_center, p2_center, p3_center` — `nonlinear_solver.py:364-368`. -/
def Setup.pCenter (u : Setup Ns K) (Np1 Np2 Np3 : ℕ) : AfArray K × AfArray K × AfArray K :=
  calculateP (1 / 2) (perSpecies u.p1s) (perSpecies u.p2s) (perSpecies u.p3s) Ns Np1 Np2 Np3 (perSpecies u.cfg.dp1) (perSpecies u.cfg.dp2)
    (perSpecies u.cfg.dp3)

/-- `p1_left, p2_bottom, p3_back` — `nonlinear_solver.py:370-374`. -/
def Setup.pCorner (u : Setup Ns K) (Np1 Np2 Np3 : ℕ) : AfArray K × AfArray K × AfArray K :=
  calculateP 0 (perSpecies u.p1s) (perSpecies u.p2s) (perSpecies u.p3s) Ns Np1 Np2 Np3 (perSpecies u.cfg.dp1) (perSpecies u.cfg.dp2)
    (perSpecies u.cfg.dp3)

namespace Decomp
variable {N1 N2 : ℕ} {R : Type} (D : Decomp N1 N2 R) (g1 g2 : ℕ)

/-- `self.f` after construction on process `r` — `nonlinear_solver.py:485-488`: `initialize_f` on the cell centres, ghost cells included. -/
def initialF (u : Setup Ns K) (fn : UserFns Ns Np1 Np2 Np3 K) (r : R) : AfArray K :=
  let q := (D.coords g1 g2 u.q1s u.q2s u.cfg.dq1 u.cfg.dq2 r).2.2.2
  let p := u.pCenter Np1 Np2 Np3
  AfArray.ofFn (Np1 * Np2 * Np3) Ns (D.n1 r + 2 * g1) (D.n2 r + 2 * g2) fun i j k l =>
    if h : j < Ns then fn.init ⟨j, h⟩ (q.1 k l) (q.2 k l) (p.1.get i j 0 0) (p.2.1.get i j 0 0) (p.2.2.get i j 0 0) else 0

/-- The callback values process `r` computes in a slope at time `t` — `df_dt_fvm.py:67-77` (`C_q1` on `q_left_center`, `C_q2` on `q_center_bot`, momentum
centres), `df_dt_fvm.py:92-97` (source on the centres), `df_dt_fvm.py:251-267` (`C_p1` on `(p1_left, p2_center, p3_center)`, `C_p2` on
`(p1_center, p2_bottom, p3_center)`, `C_p3` on `(p1_center, p2_center, p3_back)`, the assignments `p2_left = p2_center` etc. being
`nonlinear_solver.py:391-398`). -/
def callbacksAt (u : Setup Ns K) (fn : UserFns Ns Np1 Np2 Np3 K) (t : K) (r : R) :
    Callbacks (Fin Ns) (PIdx Np1 Np2 Np3) (D.Loc g1 g2 r) K :=
  let q := D.coords g1 g2 u.q1s u.q2s u.cfg.dq1 u.cfg.dq2 r
  let at' (c : Coords K) (l : D.Loc g1 g2 r) : K × K := (c.1 l.1.val l.2.val, c.2 l.1.val l.2.val)
  let bot := q.2.1
  let left := q.2.2.1
  let ctr := q.2.2.2
  let pc := u.pCenter Np1 Np2 Np3
  let pf := u.pCorner Np1 Np2 Np3
  let get (a : AfArray K) (s : Fin Ns) (p : PIdx Np1 Np2 Np3) : K := a.get (momIndex p) s.val 0 0
  { Cq1 := fun s p l => (fn.Cq s t (at' left l).1 (at' left l).2 (get pc.1 s p) (get pc.2.1 s p) (get pc.2.2 s p)).1
    Cq2 := fun s p l => (fn.Cq s t (at' bot l).1 (at' bot l).2 (get pc.1 s p) (get pc.2.1 s p) (get pc.2.2 s p)).2
    Cp1 := fun s p l => (fn.Cp s t (at' ctr l).1 (at' ctr l).2 (get pf.1 s p) (get pc.2.1 s p) (get pc.2.2 s p)).1
    Cp2 := fun s p l => (fn.Cp s t (at' ctr l).1 (at' ctr l).2 (get pc.1 s p) (get pf.2.1 s p) (get pc.2.2 s p)).2.1
    Cp3 := fun s p l => (fn.Cp s t (at' ctr l).1 (at' ctr l).2 (get pc.1 s p) (get pc.2.1 s p) (get pf.2.2 s p)).2.2
    source := fun f s p l => fn.source t (at' ctr l).1 (at' ctr l).2 (fun s p => f s p l) s p }

end Decomp

/-- The steps of a run: both stages of a step see the clock at its start, which advances by `dt` afterwards — `timestep.py:92, 153, 214, 278`. -/
def clockedSteps {A : Type} (cb : K → A) (t : K) : List K → List (K × (Fin 2 → A))
  | [] => []
  | dt :: rest => (dt, fun _ => cb t) :: clockedSteps cb (t + dt) rest

namespace Decomp
variable {N1 N2 : ℕ} {R : Type} (D : Decomp N1 N2 R) (g1 g2 : ℕ) [LinearOrder K]

/-- `solver.strang_timestep(dt)` for every `dt` of the list, on all processes, with `time_elapsed = t` at the start (periodic domain, finite-volume
method in `q` and `p`: one `timestep_fvm` per call — `timestep.py:40-60`). -/
def Evolves (u : Setup Ns K) (fn : UserFns Ns Np1 Np2 Np3 K) (t : K) (dts : List K) (A A' : R → AfArray K) : Prop :=
  ∃ F' : ∀ r, Dist (Fin Ns) (PIdx Np1 Np2 Np3) (D.Loc g1 g2 r) K,
    D.PeriodicRun g1 g2 ((1, 0, 0), (0, 1, 0), (0, 0, 1)) u.cfg (clockedSteps (fun t r => D.callbacksAt g1 g2 u fn t r) t dts)
      (fun r => (A r).toDist _ _) F' ∧ A' = fun r => AfArray.ofDist _ _ (F' r)

/-- A script: construct the solver (`time_elapsed = 0`, `nonlinear_solver.py:404`), take the steps, dump the distribution function. -/
def Script (u : Setup Ns K) (fn : UserFns Ns Np1 Np2 Np3 K) (dts : List K) (file : Vec K) : Prop :=
  ∃ A : R → AfArray K, D.Evolves g1 g2 u fn 0 dts (fun r => D.initialF g1 g2 u fn r) A ∧
    D.DumpsTo (fun r => D.sizes Np1 Np2 Np3 Ns g1 g2 r) (Np1 * Np2 * Np3) Ns A file

/-- A script that resumes from a file: construct, `load_distribution_function`, set the clock to `t` (`t = 0` if the script does not set it:
`load.py:10-43` does not), take the steps, dump. -/
def ResumeScript (u : Setup Ns K) (fn : UserFns Ns Np1 Np2 Np3 K) (t : K) (stale : R → Vec K) (dts : List K) (file file' : Vec K) : Prop :=
  ∃ A A' : R → AfArray K, D.LoadsTo (fun r => D.sizes Np1 Np2 Np3 Ns g1 g2 r) g1 g2 .periodic .periodic (Np1 * Np2 * Np3) Ns stale file A ∧
    D.Evolves g1 g2 u fn t dts A A' ∧
    D.DumpsTo (fun r => D.sizes Np1 Np2 Np3 Ns g1 g2 r) (Np1 * Np2 * Np3) Ns A' file'

end Decomp
end

end Bolt
