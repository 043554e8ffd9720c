import Verif.Model.Pipeline
import Verif.Spec.Decomp

/-! Specification vocabulary for whole scripts: the problem on the whole grid, with no processes, ghost cells or memory layouts. -/

namespace Bolt

variable {K : Type} [Field K] {Ns Np1 Np2 Np3 N1 N2 : ℕ}

/-- The point `q_start + (x + off) dq` of cell number `x`: `off = 1/2` is the centre of the cell, `off = 0` its left (bottom) end. -/
def gridPoint (start d off : K) {N : ℕ} (x : ZMod N) : K := start + ((x.val : K) + off) * d

/-- Initial distribution: `initialize_f` at the cell centres. -/
def wholeInit (u : Setup Ns K) (fn : UserFns Ns Np1 Np2 Np3 K) : Dist (Fin Ns) (PIdx Np1 Np2 Np3) (ZMod N1 × ZMod N2) K :=
  fun s p i => fn.init s (gridPoint u.q1s u.cfg.dq1 (1 / 2) i.1) (gridPoint u.q2s u.cfg.dq2 (1 / 2) i.2)
    (gridPoint (u.p1s s) (u.cfg.dp1 s) (1 / 2) p.1) (gridPoint (u.p2s s) (u.cfg.dp2 s) (1 / 2) p.2.1)
    (gridPoint (u.p3s s) (u.cfg.dp3 s) (1 / 2) p.2.2)

/-- Velocities, forces and sources at time `t`: the velocity along `q2` on the centre of the bottom face, the forces on the faces of the momentum cells, the source on
the centres, and the velocity along `q1` on the left-bottom corner (where the code evaluates it: disagreement of C40). -/
def wholeCallbacks (u : Setup Ns K) (fn : UserFns Ns Np1 Np2 Np3 K) (t : K) :
    Callbacks (Fin Ns) (PIdx Np1 Np2 Np3) (ZMod N1 × ZMod N2) K :=
  let x (off : K) (i : ZMod N1 × ZMod N2) := gridPoint u.q1s u.cfg.dq1 off i.1
  let y (off : K) (i : ZMod N1 × ZMod N2) := gridPoint u.q2s u.cfg.dq2 off i.2
  let p1 (off : K) (s : Fin Ns) (p : PIdx Np1 Np2 Np3) := gridPoint (u.p1s s) (u.cfg.dp1 s) off p.1
  let p2 (off : K) (s : Fin Ns) (p : PIdx Np1 Np2 Np3) := gridPoint (u.p2s s) (u.cfg.dp2 s) off p.2.1
  let p3 (off : K) (s : Fin Ns) (p : PIdx Np1 Np2 Np3) := gridPoint (u.p3s s) (u.cfg.dp3 s) off p.2.2
  { Cq1 := fun s p i => (fn.Cq s t (x 0 i) (y 0 i) (p1 (1 / 2) s p) (p2 (1 / 2) s p) (p3 (1 / 2) s p)).1
    Cq2 := fun s p i => (fn.Cq s t (x (1 / 2) i) (y 0 i) (p1 (1 / 2) s p) (p2 (1 / 2) s p) (p3 (1 / 2) s p)).2
    Cp1 := fun s p i => (fn.Cp s t (x (1 / 2) i) (y (1 / 2) i) (p1 0 s p) (p2 (1 / 2) s p) (p3 (1 / 2) s p)).1
    Cp2 := fun s p i => (fn.Cp s t (x (1 / 2) i) (y (1 / 2) i) (p1 (1 / 2) s p) (p2 0 s p) (p3 (1 / 2) s p)).2.1
    Cp3 := fun s p i => (fn.Cp s t (x (1 / 2) i) (y (1 / 2) i) (p1 (1 / 2) s p) (p2 (1 / 2) s p) (p3 0 s p)).2.2
    source := fun f s p i => fn.source t (x (1 / 2) i) (y (1 / 2) i) (fun s p => f s p i) s p }

/-- The finite-volume run on the whole grid, the clock being `t` at the start. -/
def wholeRun [LinearOrder K] (u : Setup Ns K) (fn : UserFns Ns Np1 Np2 Np3 K) (t : K) (dts : List K)
    (f : Dist (Fin Ns) (PIdx Np1 Np2 Np3) (ZMod N1 × ZMod N2) K) :
    Except PyErr (Dist (Fin Ns) (PIdx Np1 Np2 Np3) (ZMod N1 × ZMod N2) K) :=
  runFVM ⟨(1, 0, 0), (0, 1, 0), (0, 0, 1), (1, 0), (0, 1)⟩ u.cfg (clockedSteps (wholeCallbacks u fn) t dts) f

/-- The velocities are periodic functions of position, with the lengths of the domain as periods. Nothing is asked of the other functions. -/
def PeriodicVelocities (N1 N2 : ℕ) (u : Setup Ns K) (fn : UserFns Ns Np1 Np2 Np3 K) : Prop :=
  (∀ s t x y p1 p2 p3, fn.Cq s t (x + N1 * u.cfg.dq1) y p1 p2 p3 = fn.Cq s t x y p1 p2 p3) ∧
  (∀ s t x y p1 p2 p3, fn.Cq s t x (y + N2 * u.cfg.dq2) p1 p2 p3 = fn.Cq s t x y p1 p2 p3)

/-- The ghost widths serve: they cover the stencil of the reconstruction in `q` (or the axis is one cell long and has no ghost cells). -/
def GhostsOk (N1 N2 g1 g2 : ℕ) (cfg : FVMConfig (Fin Ns) K) : Prop :=
  (1 ≤ g1 ∨ g1 = 0 ∧ N1 = 1) ∧ (1 ≤ g2 ∨ g2 = 0 ∧ N2 = 1) ∧
  ∀ m, reconMethod cfg.reconstructionInQ = .ok m → (m.radius ≤ g1 ∨ g1 = 0 ∧ N1 = 1) ∧ (m.radius ≤ g2 ∨ g2 = 0 ∧ N2 = 1)

/-- The options name implemented reconstructions. -/
def OptionsOk (cfg : FVMConfig (Fin Ns) K) : Prop :=
  (cfg.reconstructionInQ = "piecewise-constant" ∨ cfg.reconstructionInQ = "minmod" ∨ cfg.reconstructionInQ = "ppm") ∧
  (cfg.reconstructionInP = "piecewise-constant" ∨ cfg.reconstructionInP = "minmod" ∨ cfg.reconstructionInP = "ppm")

/-- Two files with the same contents. -/
def Vec.Same {K : Type} (a b : Vec K) : Prop := a.len = b.len ∧ ∀ n, n < a.len → a.data n = b.data n

end Bolt
