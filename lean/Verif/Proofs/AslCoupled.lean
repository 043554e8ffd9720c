import Verif.Model.AslCoupled
import Verif.Props.Hybrid

/-!
Lemmas for C93.
-/

set_option linter.unusedSectionVars false

namespace Bolt

variable {S P Q K : Type} [AddCommGroup P] [AddCommGroup Q] [Field K] [LinearOrder K] [IsStrictOrderedRing K] [Fintype S] [Fintype P]
  [Fintype Q]

theorem EM.avg_self (x : EM Q K) : EM.avg x x = x := by
  have h : ∀ a : K, 1 / 2 * (a + a) = a := fun a => by ring
  simp only [EM.avg, h]

/-- An operator that leaves the staggered fields, the flag and the clock of the fields alone. -/
def Inert (op : AslOp S P Q K) : Prop := ∀ dt st st', op dt st = .ok st' →
  st'.flds.yee = st.flds.yee ∧ st'.flds.flag = st.flds.flag ∧ st'.flds.timeElapsed = st.flds.timeElapsed

theorem inert_onF (g : K → Dist S P Q K → Except PyErr (Dist S P Q K)) : Inert (onF g : AslOp S P Q K) := by
  intro dt st st' h
  simp only [onF, bind, Except.bind, pure, Except.pure] at h
  split at h
  · cases h
  · cases h; exact ⟨rfl, rfl, rfl⟩

theorem lieRef_ok {op1 op2 : AslOp S P Q K} {dt : K} {st st' : AslState S P Q K} (h : lieRef op1 op2 dt st = .ok st') :
    ∃ a, op1 dt st = .ok a ∧ op2 dt a = .ok st' := by
  simp only [lieRef, bind, Except.bind] at h
  split at h
  · cases h
  · rename_i a ha; exact ⟨a, ha, h⟩

theorem strangRef_ok {op1 op2 : AslOp S P Q K} {dt : K} {st st' : AslState S P Q K} (h : strangRef op1 op2 dt st = .ok st') :
    ∃ a b, op1 (dt / 2) st = .ok a ∧ op2 dt a = .ok b ∧ op1 (dt / 2) b = .ok st' := by
  simp only [strangRef, bind, Except.bind] at h
  split at h
  · cases h
  · rename_i a ha
    split at h
    · cases h
    · rename_i b hb; exact ⟨a, b, ha, hb, h⟩

/-- The average taken at the end of `swss`. -/
def swssEnd (r i : AslState S P Q K) : AslState S P Q K :=
  { f := fun s p q => 1 / 2 * (r.f s p q + i.f s p q)
    flds := { r.flds with
      heap := fun k => if k = r.next then EM.avg (r.flds.heap r.flds.cc) (r.flds.heap i.flds.cc) else r.flds.heap k
      cc := r.next
      yee := EM.avg r.flds.yee i.flds.yee }
    next := r.next + 1 }

theorem swssRef_ok {op1 op2 : AslOp S P Q K} {dt : K} {st st' : AslState S P Q K} (h : swssRef op1 op2 dt st = .ok st') :
    ∃ a i b r, op1 dt st = .ok a ∧ op2 dt a = .ok i ∧ op2 dt (restoreRef st i) = .ok b ∧ op1 dt b = .ok r ∧ st' = swssEnd r i := by
  simp only [swssRef, bind, Except.bind, pure, Except.pure] at h
  split at h
  · cases h
  rename_i a ha
  split at h
  · cases h
  rename_i i hi
  split at h
  · cases h
  rename_i b hb
  split at h
  · cases h
  rename_i r hr
  cases h
  exact ⟨a, i, b, r, ha, hi, hb, hr, rfl⟩

theorem swssRef_eq {op1 op2 : AslOp S P Q K} {dt : K} {st a i b r : AslState S P Q K} (h1 : op1 dt st = .ok a) (h2 : op2 dt a = .ok i)
    (h3 : op2 dt (restoreRef st i) = .ok b) (h4 : op1 dt b = .ok r) : swssRef op1 op2 dt st = .ok (swssEnd r i) := by
  simp only [swssRef, h1, h2, h3, h4, bind, Except.bind, pure, Except.pure]
  rfl

theorem inert_split (m : RefScheme) {op1 op2 : AslOp S P Q K} (h1 : Inert op1) (h2 : Inert op2) : Inert (m.split op1 op2) := by
  intro dt st st' h
  cases m
  · obtain ⟨a, ha, hb⟩ := lieRef_ok h
    obtain ⟨x1, x2, x3⟩ := h1 _ _ _ ha
    obtain ⟨y1, y2, y3⟩ := h2 _ _ _ hb
    exact ⟨y1.trans x1, y2.trans x2, y3.trans x3⟩
  · obtain ⟨a, b, ha, hb, hc⟩ := strangRef_ok h
    obtain ⟨x1, x2, x3⟩ := h1 _ _ _ ha
    obtain ⟨y1, y2, y3⟩ := h2 _ _ _ hb
    obtain ⟨z1, z2, z3⟩ := h1 _ _ _ hc
    exact ⟨z1.trans (y1.trans x1), z2.trans (y2.trans x2), z3.trans (y3.trans x3)⟩
  · obtain ⟨a, i, b, r, ha, hi, hb, hr, rfl⟩ := swssRef_ok h
    obtain ⟨x1, x2, x3⟩ := h1 _ _ _ ha
    obtain ⟨y1, y2, y3⟩ := h2 _ _ _ hi
    obtain ⟨z1, z2, z3⟩ := h2 _ _ _ hb
    obtain ⟨w1, w2, w3⟩ := h1 _ _ _ hr
    refine ⟨?_, ?_, ?_⟩
    · change EM.avg r.flds.yee i.flds.yee = _
      rw [w1, z1, y1, x1]
      exact EM.avg_self _
    · change r.flds.flag = _
      rw [w2, z2]
      exact y2.trans x2
    · change r.flds.timeElapsed = _
      rw [w3, z3]
      exact y3.trans x3

theorem inert_positionOp (m : RefScheme) (c : CoupledConfig S P Q K) (fvm advq src : K → Dist S P Q K → Except PyErr (Dist S P Q K)) :
    Inert (positionOp m c fvm advq src : AslOp S P Q K) := by
  unfold positionOp
  split
  · exact inert_onF _
  · exact inert_split m (inert_onF _) (inert_onF _)

/-- The staggered fields after the hybrid field step. -/
noncomputable def advanceYee (c : CoupledConfig S P Q K) (s : S) (T : K) (f : Dist S P Q K) (Y : EM Q K) : EM Q K :=
  evolveB c.fieldParams T (Y.setE (some (aslHybrid c s f Y).2))

theorem fdtd_hybrid {c : CoupledConfig S P Q K} (hh : c.hybrid = true) (s : S) (T : K) (f : Dist S P Q K) (Y : EM Q K) :
    fdtd c.fieldParams id (aslHybrid c s f Y).1 T (Y.setE (some (aslHybrid c s f Y).2)) = .ok (advanceYee c s T f Y) := by
  have hz : meanAbsSmall (fun _ : Q => (0 : K)) := by
    simp [meanAbsSmall]
  have hp : c.fieldParams.hybrid = true := hh
  have e : evolveE c.fieldParams (aslHybrid c s f Y).1 T (Y.setE (some (aslHybrid c s f Y).2))
      = .ok (Y.setE (some (aslHybrid c s f Y).2)) := by
    unfold evolveE
    rw [if_pos hp, if_pos]
    refine ⟨?_, ?_, ?_⟩
    · have : (fun i => (aslHybrid c s f Y).1.J1 i - curlB1 c.fieldParams (Y.setE (some (aslHybrid c s f Y).2)) i / c.fieldParams.mu)
          = fun _ => (0 : K) := funext fun i => sub_self _
      rw [this]; exact hz
    · have : (fun i => (aslHybrid c s f Y).1.J2 i - curlB2 c.fieldParams (Y.setE (some (aslHybrid c s f Y).2)) i / c.fieldParams.mu)
          = fun _ => (0 : K) := funext fun i => sub_self _
      rw [this]; exact hz
    · have : (fun i => (aslHybrid c s f Y).1.J3 i - curlB3 c.fieldParams (Y.setE (some (aslHybrid c s f Y).2)) i / c.fieldParams.mu)
          = fun _ => (0 : K) := funext fun i => sub_self _
      rw [this]; exact hz
  simp only [fdtd, id, e, bind, Except.bind, pure, Except.pure]
  rfl

/-- The fields solver after the hybrid field step. -/
noncomputable def advanceFields (c : CoupledConfig S P Q K) (s : S) (T : K) (f : Dist S P Q K) (σ : FieldState Q K ℕ) : FieldState Q K ℕ :=
  storeFields c.fieldParams T (advanceYee c s T f σ.yee) { σ with yee := σ.yee.setE (some (aslHybrid c s f σ.yee).2) }

theorem advanceFields_attrs (c : CoupledConfig S P Q K) (s : S) (T : K) (f : Dist S P Q K) (σ : FieldState Q K ℕ) :
    (advanceFields c s T f σ).yee = advanceYee c s T f σ.yee ∧ (advanceFields c s T f σ).flag = σ.flag ∧
    (advanceFields c s T f σ).timeElapsed = σ.timeElapsed + T ∧ (advanceFields c s T f σ).cc = σ.cc ∧
    (advanceFields c s T f σ).atN = σ.atN ∧ (advanceFields c s T f σ).atHalf = σ.atHalf :=
  ⟨rfl, rfl, rfl, rfl, rfl, rfl⟩

/-- What `get_fields` returns in a semi-Lagrangian run. -/
def seen (σ : FieldState Q K ℕ) : EM Q K := if σ.flag = true then σ.heap σ.atN else σ.heap σ.atHalf

/-- A hybrid run that is semi-Lagrangian in momentum space. -/
def HybridASL (c : CoupledConfig S P Q K) : Prop := c.solverMethodInP = "ASL" ∧ c.fieldsSolver = "fdtd" ∧ c.hybrid = true

theorem opFieldsAsl_eq {c : CoupledConfig S P Q K} (hc : HybridASL c) (push) (s : S) (T dt : K) (st : AslState S P Q K) :
    opFieldsAsl c push s T dt st = .ok { st with
      f := push (seen (advanceFields c s T st.f st.flds)) (seen (advanceFields c s T st.f st.flds)) (seen (advanceFields c s T st.f st.flds)) dt st.f
      flds := advanceFields c s T st.f st.flds } := by
  obtain ⟨hp, hs, hh⟩ := hc
  have e : evolveElectrodynamic c.fieldParams id (aslHybrid c s st.f st.flds.yee).1 T
      { st.flds with yee := st.flds.yee.setE (some (aslHybrid c s st.f st.flds.yee).2) } = .ok (advanceFields c s T st.f st.flds) := by
    simp only [evolveElectrodynamic, fdtd_hybrid hh, bind, Except.bind, pure, Except.pure]
    rfl
  have hne : ¬ ("ASL" = "FVM") := by decide
  simp only [opFieldsAsl, hs, hh, e, bind, Except.bind, pure, Except.pure, getFields, hp, ne_eq, not_true_eq_false, if_false, reduceIte,
    if_neg hne, seen]

/-- The ions at the location of each component of the electric field: the mean of the two cells that meet at the face, and the cell. -/
def aslIons (c : CoupledConfig S P Q K) (f : Dist S P Q K) : Fin 3 → Dist S P Q K
  | 0 => fun s p q => (f s p (q - c.ax.q1) + f s p q) / 2
  | 1 => fun s p q => (f s p (q - c.ax.q2) + f s p q) / 2
  | 2 => f

theorem aslIons_eq (c : CoupledConfig S P Q K) (f : Dist S P Q K) : aslLeft c.ax f = aslIons c f 0 ∧ aslBot c.ax f = aslIons c f 1 := by
  constructor
  · funext s p q
    simp only [aslLeft, aslIons, afShift_one]
    ring
  · funext s p q
    simp only [aslBot, aslIons, afShift_one]
    ring

theorem aslHybrid_spec (c : CoupledConfig S P Q K) (s : S) (f : Dist S P Q K) (Y : EM Q K) :
    let h := aslHybrid c s f Y
    h.1.J1 = ampere c.ax.q1 c.ax.q2 c.dq1 c.dq2 c.mu Y.magnetic 0 ∧ h.1.J2 = ampere c.ax.q1 c.ax.q2 c.dq1 c.dq2 c.mu Y.magnetic 1 ∧
    h.1.J3 = ampere c.ax.q1 c.ax.q2 c.dq1 c.dq2 c.mu Y.magnetic 2 ∧
    h.2.1 = ohm c s (aslIons c f) f Y.magnetic 0 ∧ h.2.2.1 = ohm c s (aslIons c f) f Y.magnetic 1 ∧
    h.2.2.2 = ohm c s (aslIons c f) f Y.magnetic 2 := by
  intro h
  obtain ⟨a1, a2, a3⟩ := ampere_spec c Y
  have b1 : ∀ i, curlB1 c.fieldParams Y i / c.mu = ampere c.ax.q1 c.ax.q2 c.dq1 c.dq2 c.mu Y.magnetic 0 i := congrFun a1
  have b2 : ∀ i, curlB2 c.fieldParams Y i / c.mu = ampere c.ax.q1 c.ax.q2 c.dq1 c.dq2 c.mu Y.magnetic 1 i := congrFun a2
  have b3 : ∀ i, curlB3 c.fieldParams Y i / c.mu = ampere c.ax.q1 c.ax.q2 c.dq1 c.dq2 c.mu Y.magnetic 2 i := congrFun a3
  refine ⟨a1, a2, a3, funext fun i => ?_, funext fun i => ?_, funext fun i => ?_⟩
  all_goals
    simp only [h, aslHybrid, (aslIons_eq c f).1, (aslIons_eq c f).2, b1, b2, b3, density_spec, (velocity_spec c _ s _).1,
      (velocity_spec c _ s _).2.1, (velocity_spec c _ s _).2.2]
    simp only [ohm, interp, interpAxis, siteE, siteB, cross_zero, cross_one, cross_two, densityGradient, centralDiff, EM.magnetic,
      afShift_one, afShift_neg_one, shift_minus_two, shift_plus_two, density_spec]
  · ring
  · ring
  · rw [show aslIons c f 2 = f from rfl]; ring

theorem advanceYee_spec (c : CoupledConfig S P Q K) (s : S) (T : K) (f : Dist S P Q K) (Y : EM Q K) :
    (∀ k i, (advanceYee c s T f Y).electric k i = ohm c s (aslIons c f) f Y.magnetic k i) ∧
    ∀ i, (advanceYee c s T f Y).B1 i = Y.B1 i + -T * curlE1 c.fieldParams (advanceYee c s T f Y) i ∧
      (advanceYee c s T f Y).B2 i = Y.B2 i + -T * curlE2 c.fieldParams (advanceYee c s T f Y) i ∧
      (advanceYee c s T f Y).B3 i = Y.B3 i + -T * curlE3 c.fieldParams (advanceYee c s T f Y) i := by
  obtain ⟨-, -, -, e1, e2, e3⟩ := aslHybrid_spec c s f Y
  refine ⟨fun k i => ?_, fun i => ⟨rfl, rfl, rfl⟩⟩
  fin_cases k
  · exact congrFun e1 i
  · exact congrFun e2 i
  · exact congrFun e3 i

end Bolt
