import Verif.Spec.Symmetry
import Verif.Proofs.StepMap
import Verif.Proofs.Species

/-! Maps of the field arrays that commute with the update of the fields. -/

set_option linter.unusedSectionVars false

namespace Bolt

variable {Q Q' S P K : Type} [AddCommGroup Q] [AddCommGroup Q'] [Field K] [LinearOrder K] [IsStrictOrderedRing K]

/-- `G` acts on cell-centred arrays, `H` on staggered ones, `tt` on time steps, `tm` on the clock. -/
structure FieldMap (pr : FieldParams Q K) (pr' : FieldParams Q' K) (G H : EM Q K → EM Q' K) (tt tm : K → K) : Prop where
  avg : ∀ x y, G (EM.avg x y) = EM.avg (G x) (G y)
  mixE : ∀ x y : EM Q K, G { x with E1 := y.E1, E2 := y.E2, E3 := y.E3 } = { G x with E1 := (G y).E1, E2 := (G y).E2, E3 := (G y).E3 }
  mixB : ∀ x y : EM Q K, G { x with B1 := y.B1, B2 := y.B2, B3 := y.B3 } = { G x with B1 := (G y).B1, B2 := (G y).B2, B3 := (G y).B3 }
  centre : ∀ Y C, toCentre pr'.q1 pr'.q2 .both (H Y) (G C) = G (toCentre pr.q1 pr.q2 .both Y C)
  evolveB : ∀ dt F, evolveB pr' (tt dt) (H F) = H (evolveB pr dt F)
  time : ∀ t dt, tm (t + dt) = tm t + tt dt

section
variable {G H : EM Q K → EM Q' K} {tt tm : K → K} {pr : FieldParams Q K} {pr' : FieldParams Q' K}

theorem mapEM_get (a b : String) (σ : FieldState Q K) :
    getFields a b (σ.mapEM G H tm) = (G (getFields a b σ).1, (getFields a b σ).2.mapEM G H tm) := by
  obtain ⟨heap, cc, atN, atHalf, yee, flag, t⟩ := σ
  by_cases ha : a = "fdtd" <;> by_cases hb : b = "FVM" <;> cases flag <;> simp [getFields, FieldState.mapEM, ha, hb]

namespace FieldMap
variable (h : FieldMap pr pr' G H tt tm)
include h

theorem writeE (o : Fin 3) (F : EM Q K) (σ : FieldState Q K) : (σ.mapEM G H tm).writeE o (G F) = (σ.writeE o F).mapEM G H tm := by
  simp only [FieldState.writeE, FieldState.mapEM, FieldState.mk.injEq, and_self, and_true]
  funext k
  split_ifs
  · exact (h.mixE _ _).symm
  · rfl

theorem writeB (o : Fin 3) (F : EM Q K) (σ : FieldState Q K) : (σ.mapEM G H tm).writeB o (G F) = (σ.writeB o F).mapEM G H tm := by
  simp only [FieldState.writeB, FieldState.mapEM, FieldState.mk.injEq, and_self, and_true]
  funext k
  split_ifs
  · exact (h.mixB _ _).symm
  · rfl

theorem place (Y : EM Q K) (σ : FieldState Q K) : placeYee pr'.q1 pr'.q2 (H Y) (σ.mapEM G H tm) = (placeYee pr.q1 pr.q2 Y σ).mapEM G H tm := by
  simp only [placeYee, FieldState.mapEM, FieldState.mk.injEq, and_self, and_true]
  funext k
  by_cases hk : k = σ.cc
  · simp only [if_pos hk]
    refine Eq.trans (if_pos hk) (h.centre _ _)
  · simp only [if_neg hk]
    exact if_neg hk

omit h in
theorem store_eq (pr : FieldParams Q K) (dt : K) (Y : EM Q K) (σ : FieldState Q K) : storeFields pr dt Y σ =
    (let σ1 := σ.writeE σ.atN (σ.heap σ.cc)
     let σ2 := σ1.writeB σ1.atN (EM.avg (σ1.heap σ1.atHalf) (σ1.heap σ1.cc))
     let σ3 := σ2.writeB σ2.atHalf (σ1.heap σ1.cc)
     let σ4 := placeYee pr.q1 pr.q2 Y σ3
     addTime dt (σ4.writeE σ4.atHalf (EM.avg (σ.heap σ.cc) (σ4.heap σ4.cc)))) := rfl

theorem store (dt : K) (Y : EM Q K) (σ : FieldState Q K) :
    storeFields pr' (tt dt) (H Y) (σ.mapEM G H tm) = (storeFields pr dt Y σ).mapEM G H tm := by
  have e1 : ∀ σ : FieldState Q K, (σ.mapEM G H tm).cc = σ.cc := fun _ => rfl
  have e2 : ∀ σ : FieldState Q K, (σ.mapEM G H tm).atN = σ.atN := fun _ => rfl
  have e3 : ∀ σ : FieldState Q K, (σ.mapEM G H tm).atHalf = σ.atHalf := fun _ => rfl
  have e4 : ∀ (σ : FieldState Q K) k, (σ.mapEM G H tm).heap k = G (σ.heap k) := fun _ _ => rfl
  have e5 : ∀ (σ : FieldState Q K), addTime (tt dt) (σ.mapEM G H tm) = (addTime dt σ).mapEM G H tm := fun σ => by
    simp only [addTime, FieldState.mapEM, h.time]
  simp only [store_eq, e1, e2, e3, e4, h.writeE, h.writeB, ← h.avg, h.place, e5]

variable [Fintype Q] [Fintype Q']

theorem evolve {J : Currents Q K} {J' : Currents Q' K} {dt : K} {σ : FieldState Q K}
    (hE : evolveE pr' J' (tt dt) (H σ.yee) = (evolveE pr J dt σ.yee).map H) :
    evolveElectrodynamic pr' id J' (tt dt) (σ.mapEM G H tm) = (evolveElectrodynamic pr id J dt σ).map (FieldState.mapEM G H tm) := by
  have e : (σ.mapEM G H tm).yee = H σ.yee := rfl
  simp only [evolveElectrodynamic, fdtd, id, e, hE]
  cases evolveE pr J dt σ.yee with
  | error x => rfl
  | ok F => simp only [Except.map, bind, Except.bind, pure, Except.pure, h.evolveB, h.store]

end FieldMap
end

/-! ### the references are kept -/

variable [AddCommGroup P] [Fintype S] [Fintype P] [Fintype Q]

theorem evolveBranch_refs {c : CoupledConfig S P Q K} {hyb : S} {m : Recon} {cb : CoupledCallbacks S P Q K} {dt : K} {selff f : Dist S P Q K}
    {σ σ' : FieldState Q K} (h : evolveBranch c hyb m cb dt selff f σ = .ok σ') : σ'.cc = σ.cc ∧ σ'.atN = σ.atN ∧ σ'.atHalf = σ.atHalf := by
  have key : ∀ J (τ : FieldState Q K), evolveElectrodynamic c.fieldParams id J dt τ = .ok σ' → σ'.cc = τ.cc ∧ σ'.atN = τ.atN ∧ σ'.atHalf = τ.atHalf := by
    intro J τ h
    simp only [evolveElectrodynamic, bind, Except.bind, pure, Except.pure] at h
    cases hf : fdtd c.fieldParams id J dt τ.yee with
    | error e => simp [hf] at h
    | ok Y =>
      simp only [hf, Except.ok.injEq] at h
      subst h
      exact ⟨rfl, rfl, rfl⟩
  unfold evolveBranch at h
  split_ifs at h
  · obtain ⟨a, b, d⟩ := key _ _ h
    exact ⟨a, b, d⟩
  · exact key _ _ h

end Bolt
