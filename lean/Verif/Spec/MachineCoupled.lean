import Verif.Spec.MachineFields

/-! Specification vocabulary for coupled runs in machine arithmetic. -/

namespace Bolt

/-- Two states of a coupled run agree in all cells at most `n` cells away from `i` along each axis: distribution, staggered fields,
cell-centred fields; and their attributes refer to the same arrays. -/
structure CoupledAgreeNear {S P Q K : Type} [AddCommGroup Q] (q1 q2 : Q) (n : ℕ) (x y : Dist S P Q K × FieldState Q K) (i : Q) : Prop where
  dist : ∀ a b : ℤ, |a| ≤ n → |b| ≤ n → ∀ s p, x.1 s p (i + a • q1 + b • q2) = y.1 s p (i + a • q1 + b • q2)
  yee : EMAgreeNear q1 q2 n x.2.yee y.2.yee i
  heap : ∀ k, EMAgreeNear q1 q2 n (x.2.heap k) (y.2.heap k) i
  cc : x.2.cc = y.2.cc
  atN : x.2.atN = y.2.atN
  atHalf : x.2.atHalf = y.2.atHalf
  flag : x.2.flag = y.2.flag

/-- The force in a cell depends on the fields in that cell only, and the source on the distribution in that cell only. -/
structure CellLocal {S P Q K : Type} (cb : CoupledCallbacks S P Q K) : Prop where
  p1 : ∀ F G i, (∀ c, F.comp c i = G.comp c i) → ∀ s p, cb.Cp1 F s p i = cb.Cp1 G s p i
  p2 : ∀ F G i, (∀ c, F.comp c i = G.comp c i) → ∀ s p, cb.Cp2 F s p i = cb.Cp2 G s p i
  p3 : ∀ F G i, (∀ c, F.comp c i = G.comp c i) → ∀ s p, cb.Cp3 F s p i = cb.Cp3 G s p i
  src : ∀ f g i, (∀ s p, f s p i = g s p i) → ∀ s p, cb.source f s p i = cb.source g s p i

end Bolt
