import Verif.Spec.CollisionArrays
import Verif.Proofs.ArrayProgram

/-! Helper lemmas for C116. -/

set_option linter.unusedSectionVars false

namespace Bolt

open Machine PyExpr

section
variable {K : Type} [Machine K] {z : GridSizes} [NeZero z.Np1] [NeZero z.Np2] [NeZero z.Np3] [NeZero z.M1] [NeZero z.M2] [NeZero z.Ns]

theorem momentCells_ok : (momentCells z).Ok := ⟨fun _ => Nat.one_pos, fun x => x.1.2, fun _ => ZMod.val_lt _, fun _ => ZMod.val_lt _⟩

theorem momentCells_sub : (momentCells z).Sub (qExpanded z) := ⟨.inr rfl, .inl ⟨rfl, rfl⟩, .inl ⟨rfl, rfl⟩, .inl ⟨rfl, rfl⟩⟩

theorem speciesOnly_sub_moment : (speciesOnly z).Sub (momentCells z) := ⟨.inl ⟨rfl, rfl⟩, .inl ⟨rfl, rfl⟩, .inr rfl, .inr rfl⟩

theorem momentCells_of {x : PyExpr K} {G : Fin z.Ns → z.Q → K} (h : (momentLay z).Holds x fun y => G y.1 y.2) :
    (momentCells z).Holds x fun y => G y.1 y.2.2 := by
  obtain ⟨a, rfl, h0, h1, h2, h3, hg⟩ := h
  exact ⟨a, rfl, h0, h1, h2, h3, fun y => hg (y.1, y.2.2)⟩

theorem arrEnergy_holds (red : List K → K) (fn : ElemFns K) {x d1 d2 d3 v1 v2 v3 : PyExpr K} {cfg : FVMConfig (Fin z.Ns) K} {F : Dist (Fin z.Ns) z.P z.Q K}
    {co : PCoords (Fin z.Ns) z.P K} (h : HoldsDist x F) (w1 : (momentumOnly z).Holds v1 fun y => co.p1 y.1 y.2.1)
    (w2 : (momentumOnly z).Holds v2 fun y => co.p2 y.1 y.2.1) (w3 : (momentumOnly z).Holds v3 fun y => co.p3 y.1 y.2.1)
    (h1 : (speciesOnly z).Holds d1 fun y => cfg.dp1 y.1) (h2 : (speciesOnly z).Holds d2 fun y => cfg.dp2 y.1)
    (h3 : (speciesOnly z).Holds d3 fun y => cfg.dp3 y.1) :
    (momentLay z).Holds (arrEnergy red fn d1 d2 d3 v1 v2 v3 x) fun y => Mach.energy fn (z.sums red) co (Mach.measure cfg) F y.1 y.2 := by
  have half := h.numL true mul (lit (1 / 2))
  have s := ((w1.un fn.sq).batchR (momentumOnly_ok z) (momentumOnly_ok z) (.refl _) add (w2.un fn.sq)).batchR (momentumOnly_ok z) (momentumOnly_ok z) (.refl _)
    add (w3.un fn.sq)
  have fv : HoldsDist (bin true mul (bin true mul (const (1 / 2)) x) (bin true add (bin true add (un fn.sq v1) (un fn.sq v2)) (un fn.sq v3)))
      fun s p q => lit (1 / 2) ⊠ F s p q ⊠ (fn.sq (co.p1 s p) ⊞ fn.sq (co.p2 s p) ⊞ fn.sq (co.p3 s p)) :=
    half.batchR (qExpanded_ok z) (momentumOnly_ok z) momentumOnly_sub mul s
  exact arrIntegral_holds red fv (measure_holds h1 h2 h3)

variable (fn : ElemFns K) (pr : CollisionNumbers K)

theorem arrGaussian_holds {xm xv xu xT : PyExpr K} {m : Fin z.Ns → K} {v : Fin z.Ns → z.P → K} {u T : Fin z.Ns → z.Q → K}
    (hm : (speciesOnly z).Holds xm fun y => m y.1) (hv : (momentumOnly z).Holds xv fun y => v y.1 y.2.1)
    (hu : (momentCells z).Holds xu fun y => u y.1 y.2.2) (hT : (momentCells z).Holds xT fun y => T y.1 y.2.2) :
    HoldsDist (arrGaussian fn pr xm xv xu xT) fun s p q => Mach.gaussian fn pr (m s) (v s p) (u s q) (T s q) := by
  have d := hv.batch2 (qExpanded_ok z) (momentumOnly_ok z) momentCells_ok momentumOnly_sub momentCells_sub (.inl rfl) (.inl rfl) (.inr rfl) (.inr rfl)
    Machine.sub hu
  have a := (hm.un neg).batchL (qExpanded_ok z) (speciesOnly_ok z) (speciesOnly_sub z) mul (d.un fn.sq)
  have b := hT.numL true mul (lit 2 ⊠ pr.k)
  exact (a.batchR (qExpanded_ok z) momentCells_ok momentCells_sub div b).un fn.exp

theorem arrMaxwellian_holds {xm x1 x2 x3 xn xT y1 y2 y3 : PyExpr K} {m : Fin z.Ns → K} {co : PCoords (Fin z.Ns) z.P K} {n T u1 u2 u3 : Fin z.Ns → z.Q → K}
    (hm : (speciesOnly z).Holds xm fun y => m y.1) (h1 : (momentumOnly z).Holds x1 fun y => co.p1 y.1 y.2.1)
    (h2 : (momentumOnly z).Holds x2 fun y => co.p2 y.1 y.2.1) (h3 : (momentumOnly z).Holds x3 fun y => co.p3 y.1 y.2.1)
    (hn : (momentLay z).Holds xn fun y => n y.1 y.2) (hT : (momentLay z).Holds xT fun y => T y.1 y.2)
    (k1 : (momentLay z).Holds y1 fun y => u1 y.1 y.2) (k2 : (momentLay z).Holds y2 fun y => u2 y.1 y.2) (k3 : (momentLay z).Holds y3 fun y => u3 y.1 y.2) :
    HoldsDist (arrMaxwellian fn pr xm x1 x2 x3 xn xT y1 y2 y3) fun s p q =>
      Mach.maxwellian fn pr (m s) (co.p1 s p) (co.p2 s p) (co.p3 s p) (n s q) (T s q) (u1 s q) (u2 s q) (u3 s q) := by
  have T' := momentCells_of hT
  have n' := momentCells_of hn
  have e1 := arrGaussian_holds fn pr hm h1 (momentCells_of k1) T'
  have e2 := arrGaussian_holds fn pr hm h2 (momentCells_of k2) T'
  have e3 := arrGaussian_holds fn pr hm h3 (momentCells_of k3) T'
  have a := hm.batchL momentCells_ok (speciesOnly_ok z) speciesOnly_sub_moment div (T'.numL true mul (lit 2 ⊠ fn.pi ⊠ pr.k))
  have pre : ∀ {y : PyExpr K} {G : z.Cell → K}, (momentCells z).Holds y G → (momentCells z).Holds (bin true mul xn y) fun i => n i.1 i.2.2 ⊠ G i :=
    fun h => n'.batchR momentCells_ok momentCells_ok (.refl _) mul h
  have first : ∀ {y : PyExpr K} {G : z.Cell → K} {y' : PyExpr K} {G' : z.Cell → K}, (momentCells z).Holds y G → (qExpanded z).Holds y' G' →
      (qExpanded z).Holds (bin true mul y y') fun i => G i ⊠ G' i := fun h h' => h.batchL (qExpanded_ok z) momentCells_ok momentCells_sub mul h'
  have next : ∀ {y : PyExpr K} {G : z.Cell → K} {y' : PyExpr K} {G' : z.Cell → K}, (qExpanded z).Holds y G → (qExpanded z).Holds y' G' →
      (qExpanded z).Holds (bin true mul y y') fun i => G i ⊠ G' i := fun h h' => h.batchR (qExpanded_ok z) (qExpanded_ok z) (.refl _) mul h'
  unfold arrMaxwellian Mach.maxwellian
  dsimp only
  by_cases p3 : pr.pdim = 3
  · simp only [if_pos p3]
    exact next (next (first (pre (a.un fn.pow32)) e1) e2) e3
  · simp only [if_neg p3]
    by_cases p2 : pr.pdim = 2
    · simp only [if_pos p2]
      exact next (first (pre a) e1) e2
    · simp only [if_neg p2]
      exact first (pre (a.un fn.sqrt)) e1

theorem bulk_holds {xn xj : PyExpr K} {n j : Fin z.Ns → z.Q → K} (hn : (momentLay z).Holds xn fun y => n y.1 y.2)
    (hj : (momentLay z).Holds xj fun y => j y.1 y.2) :
    (momentLay z).Holds (xj / (xn + const collisionFloor)) fun y => Mach.bulk (n y.1 y.2) (j y.1 y.2) :=
  hj.bin div (hn.numR false add (lit collisionFloor))

theorem arrTemperature_holds (hone : ∀ u : K, lit 1 ⊠ u = u) (hp : pr.pdim ≠ 0) {xm xn y1 y2 y3 xE : PyExpr K} {m : Fin z.Ns → K}
    {n u1 u2 u3 E : Fin z.Ns → z.Q → K} (hm : (speciesOnly z).Holds xm fun y => m y.1)
    (hn : (momentLay z).Holds xn fun y => n y.1 y.2) (k1 : (momentLay z).Holds y1 fun y => u1 y.1 y.2) (k2 : (momentLay z).Holds y2 fun y => u2 y.1 y.2)
    (k3 : (momentLay z).Holds y3 fun y => u3 y.1 y.2) (hE : (momentLay z).Holds xE fun y => E y.1 y.2) :
    (momentLay z).Holds (arrTemperature fn pr xm xn y1 y2 y3 xE) fun y =>
      Mach.temperature fn pr (m y.1) (n y.1 y.2) (u1 y.1 y.2) (u2 y.1 y.2) (u3 y.1 y.2) (E y.1 y.2) := by
  have mm : ∀ {x : PyExpr K} {G : Fin z.Ns × z.Q → K}, (momentLay z).Holds x G → (momentLay z).Holds (multiply [x, xm]) fun y => G y ⊠ m y.1 := fun h =>
    multiply2_holds hone momentLay_ok momentLay_ok speciesOnly'_ok (.inl ⟨rfl, speciesOnly'_sub⟩) h (speciesOnly_of hm)
  have t := ((((mm hE).numL false mul (lit 2)).bin Machine.sub ((mm hn).bin mul (k1.un fn.sq))).bin Machine.sub ((mm hn).bin mul (k2.un fn.sq))).bin Machine.sub
    ((mm hn).bin mul (k3.un fn.sq))
  have o : oneOverPDim pr = (.ok (.num (lit 1 ⊘ lit pr.pdim)) : PyExpr K) := if_neg hp
  unfold arrTemperature
  rw [o]
  exact ((t.numL false mul (lit 1 ⊘ lit pr.pdim)).bin div (hn.numR false add (lit collisionFloor))).numR false add (lit collisionFloor)

end

end Bolt
