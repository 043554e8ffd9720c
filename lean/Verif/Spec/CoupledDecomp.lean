import Verif.Model.CoupledDecomp
import Verif.Spec.Boundaries

/-! Specification vocabulary for coupled runs on several processes. -/

namespace Bolt

/-- The condition names at the two ends of a direction make it periodic, or leave it out (one cell, no ghost zones). -/
def PeriodicEnds (lo hi : String) (N : ℕ) : Prop :=
  (lo = "periodic" ∧ hi = "periodic") ∨ (lo = "none" ∧ hi = "none" ∧ N = 1)

namespace Decomp

variable {N1 N2 : ℕ} {R : Type} (D : Decomp N1 N2 R) (g1 g2 : ℕ) {S P K : Type}

/-- The bulk of process `r` holds the corresponding part of the fields on the whole grid. -/
def EMHolds (r : R) (F : EM (D.Loc g1 g2 r) K) (G : EM (ZMod N1 × ZMod N2) K) : Prop :=
  ∀ c l, D.Interior g1 g2 r l → F.comp c l = G.comp c (D.toGlob g1 g2 r l)

/-- The fields solvers of all processes together hold the state of the fields solver of the whole-grid run: staggered fields, cell-centred
arrays, which attribute refers to which array, flag and clock. -/
structure FieldsHold (σ : ∀ r, FieldState (D.Loc g1 g2 r) K) (τ : FieldState (ZMod N1 × ZMod N2) K) : Prop where
  yee : ∀ r, D.EMHolds g1 g2 r (σ r).yee τ.yee
  heap : ∀ r k, D.EMHolds g1 g2 r ((σ r).heap k) (τ.heap k)
  cc : ∀ r, (σ r).cc = τ.cc
  atN : ∀ r, (σ r).atN = τ.atN
  atHalf : ∀ r, (σ r).atHalf = τ.atHalf
  flag : ∀ r, (σ r).flag = τ.flag
  time : ∀ r, (σ r).timeElapsed = τ.timeElapsed

/-- The callback values a process obtains are those of the whole-grid run: velocities on the cells it owns and their right/top faces,
forces in a cell whenever the fields handed to `C_p` agree in that cell, sources as in `CallbacksAgree`. -/
structure CoupledAgree (r : R) (loc : CoupledCallbacks S P (D.Loc g1 g2 r) K) (glob : CoupledCallbacks S P (ZMod N1 × ZMod N2) K) :
    Prop where
  q1 : ∀ s p l, D.Interior g1 g2 r l → loc.Cq1 s p l = glob.Cq1 s p (D.toGlob g1 g2 r l) ∧
    loc.Cq1 s p (l + (1, 0)) = glob.Cq1 s p (D.toGlob g1 g2 r l + (1, 0))
  q2 : ∀ s p l, D.Interior g1 g2 r l → loc.Cq2 s p l = glob.Cq2 s p (D.toGlob g1 g2 r l) ∧
    loc.Cq2 s p (l + (0, 1)) = glob.Cq2 s p (D.toGlob g1 g2 r l + (0, 1))
  p1 : ∀ F G s p l, D.Interior g1 g2 r l → (∀ c, F.comp c l = G.comp c (D.toGlob g1 g2 r l)) →
    loc.Cp1 F s p l = glob.Cp1 G s p (D.toGlob g1 g2 r l)
  p2 : ∀ F G s p l, D.Interior g1 g2 r l → (∀ c, F.comp c l = G.comp c (D.toGlob g1 g2 r l)) →
    loc.Cp2 F s p l = glob.Cp2 G s p (D.toGlob g1 g2 r l)
  p3 : ∀ F G s p l, D.Interior g1 g2 r l → (∀ c, F.comp c l = G.comp c (D.toGlob g1 g2 r l)) →
    loc.Cp3 F s p l = glob.Cp3 G s p (D.toGlob g1 g2 r l)
  src : ∀ f g l, D.Interior g1 g2 r l → (∀ s p, f s p l = g s p (D.toGlob g1 g2 r l)) →
    ∀ s p, loc.source f s p l = glob.source g s p (D.toGlob g1 g2 r l)

end Decomp

/-- The ghost width covers every stencil of the coupled step along an axis: the reconstruction, the staggered fields (one cell) and, in
the hybrid model, the density gradient (three cells). -/
def CoupledGhosts (m : Recon) (hybrid : Bool) (g N : ℕ) : Prop :=
  (m.radius ≤ g ∧ 1 ≤ g ∧ (hybrid = true → 3 ≤ g)) ∨ (g = 0 ∧ N = 1)

/-- What the theorems ask of a coupled run on the whole grid: array axes in the usual order, each direction periodic (or one cell wide and
without ghost zones), ghost widths that cover the stencils, and not the FFT solver (which refuses to run on several processes). -/
structure GridConfig {N1 N2 : ℕ} {S P K : Type} (g1 g2 : ℕ) (o : BCOptions) (c : CoupledConfig S P (ZMod N1 × ZMod N2) K) : Prop where
  q1 : c.ax.q1 = (1, 0)
  q2 : c.ax.q2 = (0, 1)
  ends1 : PeriodicEnds (o.name .left) (o.name .right) N1
  ends2 : PeriodicEnds (o.name .bottom) (o.name .top) N2
  ghosts : ∀ m, reconMethod c.reconstructionInQ = .ok m → CoupledGhosts m c.hybrid g1 N1 ∧ CoupledGhosts m c.hybrid g2 N2
  noFFT : ¬ (c.fieldsType = "electrostatic" ∧ c.fieldsSolver = "fft")

/-- The option names are implemented ones, and electrodynamic fields come with finite volumes in position. -/
structure Implemented {S P Q K : Type} (c : CoupledConfig S P Q K) : Prop where
  recQ : ∃ m, reconMethod c.reconstructionInQ = .ok m
  recP : ∃ m, reconMethod c.reconstructionInP = .ok m
  fvm : c.fieldsType = "electrodynamic" → c.solverMethodInQ = "FVM"

/-- The ghost widths `g1`, `g2` are the ones the constructor chooses for the options. -/
def WidthsMatch (g1 g2 : ℕ) (o : BCOptions) : Prop :=
  (petscAxis o.nGhost (o.name .left)).2 = g1 ∧ (petscAxis o.nGhost (o.name .bottom)).2 = g2

/-- The user's initial functions evaluated at the positions `t` — for a process, the periodic position of each of its local cells, ghost
zones included. -/
def InitFns.at {Q Q' K : Type} (ini : InitFns Q K) (t : Q' → Q) : InitFns Q' K :=
  { E := ini.E.map fun x => (x.1 ∘ t, x.2.1 ∘ t, x.2.2 ∘ t)
    A_phi := ini.A_phi.map fun x => (x.1 ∘ t, x.2.1 ∘ t, x.2.2.1 ∘ t, x.2.2.2 ∘ t)
    B := ini.B.map fun x => (x.1 ∘ t, x.2.1 ∘ t, x.2.2 ∘ t)
    A := ini.A.map fun x => (x.1 ∘ t, x.2.1 ∘ t, x.2.2 ∘ t)
    A3_B3 := ini.A3_B3.map fun x => (x.1 ∘ t, x.2 ∘ t) }

/-- Initial fields are interpolated to the centres without communication: this needs one ghost cell, and one more when a potential has to
be differenced first. -/
def InitGhosts {Q K : Type} (ini : InitFns Q K) (g N : ℕ) : Prop :=
  2 ≤ g ∨ (ini.E.isSome = true ∧ ini.B.isSome = true ∧ 1 ≤ g) ∨ (g = 0 ∧ N = 1)

end Bolt
