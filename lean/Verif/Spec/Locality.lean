import Verif.Model.Coupled
import Verif.Spec.Boundaries
import Verif.Spec.Decomp

/-! Specification vocabulary for comparing runs near a cell. -/

namespace Bolt

variable {Q Q' S P K : Type}

/-- `X` holds for all pairs of corresponding cells at most `n` cells away, along each axis, from cell `i` of one grid and cell `i'` of
another (or the same) grid. -/
def Around [AddCommGroup Q] [AddCommGroup Q'] (q1 q2 : Q) (q1' q2' : Q') (n : ℕ) (i : Q) (i' : Q') (X : Q → Q' → Prop) : Prop :=
  ∀ a b : ℤ, |a| ≤ n → |b| ≤ n → X (i + a • q1 + b • q2) (i' + a • q1' + b • q2')

/-- Two sets of callbacks return the same at cell `j` and cell `j'`, forces when the fields there are the same, and sources when the
distributions there are the same. -/
structure CallbacksAt (cb : CoupledCallbacks S P Q K) (cb' : CoupledCallbacks S P Q' K) (j : Q) (j' : Q') : Prop where
  q1 : ∀ s p, cb.Cq1 s p j = cb'.Cq1 s p j'
  q2 : ∀ s p, cb.Cq2 s p j = cb'.Cq2 s p j'
  p1 : ∀ F F', (∀ k, F.comp k j = F'.comp k j') → ∀ s p, cb.Cp1 F s p j = cb'.Cp1 F' s p j'
  p2 : ∀ F F', (∀ k, F.comp k j = F'.comp k j') → ∀ s p, cb.Cp2 F s p j = cb'.Cp2 F' s p j'
  p3 : ∀ F F', (∀ k, F.comp k j = F'.comp k j') → ∀ s p, cb.Cp3 F s p j = cb'.Cp3 F' s p j'
  src : ∀ f f', (∀ s p, f s p j = f' s p j') → ∀ s p, cb.source f s p j = cb'.source f' s p j'

/-- The same for given forces. -/
structure GivenCallbacksAt (cb : Callbacks S P Q K) (cb' : Callbacks S P Q' K) (j : Q) (j' : Q') : Prop where
  q1 : ∀ s p, cb.Cq1 s p j = cb'.Cq1 s p j'
  q2 : ∀ s p, cb.Cq2 s p j = cb'.Cq2 s p j'
  p1 : ∀ s p, cb.Cp1 s p j = cb'.Cp1 s p j'
  p2 : ∀ s p, cb.Cp2 s p j = cb'.Cp2 s p j'
  p3 : ∀ s p, cb.Cp3 s p j = cb'.Cp3 s p j'
  src : ∀ f f', (∀ s p, f s p j = f' s p j') → ∀ s p, cb.source f s p j = cb'.source f' s p j'

/-- Two states have the same distribution functions and the same fields, of all time levels, at cell `j` and cell `j'`. -/
structure SameStateAt (st : Dist S P Q K × FieldState Q K) (st' : Dist S P Q' K × FieldState Q' K) (j : Q) (j' : Q') : Prop where
  f : ∀ s p, st.1 s p j = st'.1 s p j'
  yee : ∀ k, st.2.yee.comp k j = st'.2.yee.comp k j'
  heap : ∀ o k, (st.2.heap o).comp k j = (st'.2.heap o).comp k j'

/-- The references and the flag, which are not attached to cells, are the same. -/
def SameRefs (σ : FieldState Q K) (σ' : FieldState Q' K) : Prop := σ.cc = σ'.cc ∧ σ.atN = σ'.atN ∧ σ.atHalf = σ'.atHalf ∧ σ.flag = σ'.flag

end Bolt
