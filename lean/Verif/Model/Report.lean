import Verif.Model.CoupledDecomp
import Mathlib.Data.Finset.Lattice.Fold

/-!
# The check of Maxwell's constraints printed when a fields solver is constructed (`fields.py:48-62`, called at line 278)
-/

namespace Bolt
namespace Decomp

variable {N1 N2 : ℕ} {R : Type} (D : Decomp N1 N2 R) (g1 g2 : ℕ) {K : Type} [Field K] [LinearOrder K]

/-- `af_to_petsc_glob_array(self, x, glob)` followed by `glob.max()` — `fields.py:52-54,61-62`: the largest entry of the vector that holds
the bulks of all processes.  `Vec.max()` also returns the position of the largest entry, which is not modelled. -/
def vecMax [NeZero N1] [NeZero N2] (x : ∀ r, D.Loc g1 g2 r → K) : K :=
  Finset.univ.sup' ⟨((0, 0) : ZMod N1 × ZMod N2), Finset.mem_univ _⟩ fun i => x (D.owner i) (D.toLoc g1 g2 (D.owner i) i)

/-- `af.mean(rho_by_eps)` on process `r` — `fields.py:58`: the mean over its own array, ghost zones included. -/
def arrayMean (r : R) [Fintype (D.Loc g1 g2 r)] (rho : D.Loc g1 g2 r → K) : K :=
  (∑ l, rho l) / ((Fintype.card (D.Loc g1 g2 r) : ℕ) : K)

/-- The number printed as `MAX(|divB|)` — `fields.py:51-54`.  `compute_divB` does not communicate. -/
def reportDivB [NeZero N1] [NeZero N2] (pr : ∀ r, FieldParams (D.Loc g1 g2 r) K) (Y : ∀ r, EM (D.Loc g1 g2 r) K) : K :=
  D.vecMax g1 g2 fun r l => |divB (pr r) (Y r) l|

/-- `v` is the number printed as `MAX(|divE-rho|)` — `fields.py:57-62`.  `compute_divE` communicates first (line 37); there is no `abs` and
no division by the permittivity (commented out at line 57).  `rho` is summed over the species (line 276). -/
def ReportDivE [NeZero N1] [NeZero N2] [∀ r, Fintype (D.Loc g1 g2 r)] (o : BCOptions) (pr : ∀ r, FieldParams (D.Loc g1 g2 r) K)
    (Y : ∀ r, EM (D.Loc g1 g2 r) K) (rho : ∀ r, D.Loc g1 g2 r → K) (v : K) : Prop :=
  ∃ Y0, D.SentFields g1 g2 o Y Y0 ∧
    v = D.vecMax g1 g2 fun r l => divE (pr r) (Y0 r) l - rho r l + D.arrayMean g1 g2 r (rho r)

end Decomp
end Bolt
