import Verif.Model.Decomp

/-! Specification vocabulary for domain decomposition. -/

namespace Bolt

/-- Stencil radius of a slope evaluation, in cells, for each reconstruction. -/
def Recon.radius : Recon → ℕ
  | .piecewiseConstant => 1
  | .minmod => 2
  | .ppm => 3

/-- The ghost width covers the stencil along an axis with `N` cells (a one-cell axis without ghost cells, boundary type
`none`, is also fine). -/
def GhostsSuffice (m : Recon) (g N : ℕ) : Prop := m.radius ≤ g ∨ (g = 0 ∧ N = 1)

namespace Decomp

variable {N1 N2 : ℕ} {R : Type} (D : Decomp N1 N2 R) (g1 g2 : ℕ) {S P K : Type}

/-- The callback values a process obtains on its local coordinates are those of the same periodic velocity, force and source
functions on the whole grid, for the cells it owns and their right/top faces.  A source may depend on the distribution
at the same position only (as collision operators do). -/
structure CallbacksAgree (r : R) (loc : Callbacks S P (D.Loc g1 g2 r) K) (glob : Callbacks S P (ZMod N1 × ZMod N2) K) : Prop where
  q1 : ∀ s p l, D.Interior g1 g2 r l → loc.Cq1 s p l = glob.Cq1 s p (D.toGlob g1 g2 r l) ∧
    loc.Cq1 s p (l + (1, 0)) = glob.Cq1 s p (D.toGlob g1 g2 r l + (1, 0))
  q2 : ∀ s p l, D.Interior g1 g2 r l → loc.Cq2 s p l = glob.Cq2 s p (D.toGlob g1 g2 r l) ∧
    loc.Cq2 s p (l + (0, 1)) = glob.Cq2 s p (D.toGlob g1 g2 r l + (0, 1))
  p1 : ∀ s p l, D.Interior g1 g2 r l → loc.Cp1 s p l = glob.Cp1 s p (D.toGlob g1 g2 r l)
  p2 : ∀ s p l, D.Interior g1 g2 r l → loc.Cp2 s p l = glob.Cp2 s p (D.toGlob g1 g2 r l)
  p3 : ∀ s p l, D.Interior g1 g2 r l → loc.Cp3 s p l = glob.Cp3 s p (D.toGlob g1 g2 r l)
  src : ∀ f g l, D.Interior g1 g2 r l → (∀ s p, f s p l = g s p (D.toGlob g1 g2 r l)) →
    ∀ s p, loc.source f s p l = glob.source g s p (D.toGlob g1 g2 r l)

/-- The bulk of every process holds the corresponding part of the global array. -/
def Holds (F : ∀ r, Dist S P (D.Loc g1 g2 r) K) (f : Dist S P (ZMod N1 × ZMod N2) K) : Prop :=
  ∀ r s p l, D.Interior g1 g2 r l → F r s p l = f s p (D.toGlob g1 g2 r l)

end Decomp
end Bolt
