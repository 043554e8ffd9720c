import Verif.Proofs.AslCoupled

/-!
# C93: hybrid runs with semi-Lagrangian advection in momentum space
-/

set_option linter.unusedSectionVars false

namespace Bolt

variable {S P Q K : Type} [AddCommGroup P] [AddCommGroup Q] [Field K] [LinearOrder K] [IsStrictOrderedRing K] [Fintype S] [Fintype P]
  [Fintype Q]

/-- The magnetic field obeys the induction law over a step of size `dt`: its change is minus `dt` times the curl of the electric field at the
end of the step (differences between the two values on either side). -/
def Induction (c : CoupledConfig S P Q K) (dt : K) (Y Y' : EM Q K) : Prop := ∀ i,
  Y'.B1 i = Y.B1 i - dt * ((Y'.E3 i - Y'.E3 (i - c.ax.q2)) / c.dq2) ∧
  Y'.B2 i = Y.B2 i + dt * ((Y'.E3 i - Y'.E3 (i - c.ax.q1)) / c.dq1) ∧
  Y'.B3 i = Y.B3 i - dt * ((Y'.E2 i - Y'.E2 (i - c.ax.q1)) / c.dq1 - (Y'.E1 i - Y'.E1 (i - c.ax.q2)) / c.dq2)

theorem induction_advance (c : CoupledConfig S P Q K) (s : S) (T : K) (f : Dist S P Q K) (Y : EM Q K) :
    Induction c T Y (advanceYee c s T f Y) := by
  intro i
  obtain ⟨e1, e2, e3⟩ := (advanceYee_spec c s T f Y).2 i
  refine ⟨e1.trans ?_, e2.trans ?_, e3.trans ?_⟩ <;>
    simp only [curlE1, curlE2, curlE3, CoupledConfig.fieldParams, afShift_one] <;> ring

theorem induction_avg {c : CoupledConfig S P Q K} {T : K} {Y A B : EM Q K} (hA : Induction c T Y A) (hB : Induction c T Y B) :
    Induction c T Y (EM.avg A B) := by
  intro i
  obtain ⟨a1, a2, a3⟩ := hA i
  obtain ⟨b1, b2, b3⟩ := hB i
  refine ⟨?_, ?_, ?_⟩ <;> simp only [EM.avg, a1, a2, a3, b1, b2, b3] <;> ring

/-- How often a scheme runs the field operator in a step. -/
def RefScheme.passes : RefScheme → ℕ
  | .lie => 1 | .strang => 1 | .swss => 2

/-- **C93 (one step).** One step of size `dt` of a hybrid run, with each of the three splitting methods and either method in position space:
the step that precedes the field operator turns `st.f` into some `g`; the staggered electric field then satisfies the generalised Ohm's law
of `Spec/Hybrid` with the magnetic field at the start and the ions `g`, averaged to the faces (for `swss`: it is the mean of those for `g`
and for `st.f`); and the magnetic field obeys the induction law with that electric field. -/
theorem C93_step {c : CoupledConfig S P Q K} (hc : HybridASL c) (hq : c.solverMethodInQ = "FVM" ∨ c.solverMethodInQ = "ASL") (m : RefScheme)
    {push} {s : S} {fvm advq src : K → Dist S P Q K → Except PyErr (Dist S P Q K)} {dt : K} {st st' : AslState S P Q K}
    (h : aslStep m c push s fvm advq src dt st = .ok st') :
    (∃ a, positionOp m c fvm advq src (if m = .strang then dt / 2 else dt) st = .ok a ∧
      ∀ k i, st'.flds.yee.electric k i = if m = .swss then
          1 / 2 * (ohm c s (aslIons c st.f) st.f st.flds.yee.magnetic k i + ohm c s (aslIons c a.f) a.f st.flds.yee.magnetic k i)
        else ohm c s (aslIons c a.f) a.f st.flds.yee.magnetic k i) ∧
    Induction c dt st.flds.yee st'.flds.yee ∧
    st'.flds.timeElapsed = st.flds.timeElapsed + m.passes * dt := by
  have hi := inert_positionOp m c fvm advq src
  rw [aslStep, if_pos hq] at h
  cases m
  · obtain ⟨a, ha, hb⟩ := lieRef_ok h
    obtain ⟨y, fl, te⟩ := hi _ _ _ ha
    rw [opFieldsAsl_eq hc] at hb
    cases hb
    refine ⟨⟨a, ha, fun k i => ?_⟩, ?_, ?_⟩
    · change (advanceYee c s dt a.f a.flds.yee).electric k i = _
      rw [(advanceYee_spec c s dt a.f a.flds.yee).1, y]
      rfl
    · rw [← y]; exact induction_advance c s dt a.f a.flds.yee
    · change a.flds.timeElapsed + dt = _
      rw [te]; simp [RefScheme.passes]
  · obtain ⟨a, b, ha, hb, hr⟩ := strangRef_ok h
    obtain ⟨y, fl, te⟩ := hi _ _ _ ha
    obtain ⟨y', fl', te'⟩ := hi _ _ _ hr
    rw [opFieldsAsl_eq hc] at hb
    cases hb
    refine ⟨⟨a, ha, fun k i => ?_⟩, ?_, ?_⟩
    · rw [y']
      change (advanceYee c s dt a.f a.flds.yee).electric k i = _
      rw [(advanceYee_spec c s dt a.f a.flds.yee).1, y]
      rfl
    · rw [y', ← y]; exact induction_advance c s dt a.f a.flds.yee
    · rw [te']
      change a.flds.timeElapsed + dt = _
      rw [te]; simp [RefScheme.passes]
  · obtain ⟨a, i, b, r, ha, hi', hb, hr, rfl⟩ := swssRef_ok h
    obtain ⟨y, fl, te⟩ := hi _ _ _ ha
    obtain ⟨y', fl', te'⟩ := hi _ _ _ hr
    rw [opFieldsAsl_eq hc] at hi' hb
    cases hi'
    cases hb
    have e1 : (advanceFields c s dt a.f a.flds).yee = advanceYee c s dt a.f st.flds.yee := by rw [← y]; rfl
    have e2 : r.flds.yee = advanceYee c s dt st.f st.flds.yee := by rw [y']; rfl
    refine ⟨⟨a, ha, fun k j => ?_⟩, ?_, ?_⟩
    · change (EM.avg r.flds.yee (advanceFields c s dt a.f a.flds).yee).electric k j = _
      rw [e1, e2, if_pos rfl, ← (advanceYee_spec c s dt st.f st.flds.yee).1, ← (advanceYee_spec c s dt a.f st.flds.yee).1]
      fin_cases k <;> rfl
    · change Induction c dt st.flds.yee (EM.avg r.flds.yee (advanceFields c s dt a.f a.flds).yee)
      rw [e1, e2]
      exact induction_avg (induction_advance _ _ _ _ _) (induction_advance _ _ _ _ _)
    · change r.flds.timeElapsed = _
      rw [te']
      change a.flds.timeElapsed + dt + dt = _
      rw [te]; simp only [RefScheme.passes]; push_cast; ring

theorem induction_divB {c : CoupledConfig S P Q K} {T : K} {Y Y' : EM Q K} (h : Induction c T Y Y') :
    divB c.fieldParams Y' = divB c.fieldParams Y := by
  funext i
  simp only [divB, CoupledConfig.fieldParams, afShift_one]
  obtain ⟨a1, a2, -⟩ := h i
  obtain ⟨b1, -, -⟩ := h (i - c.ax.q1)
  obtain ⟨-, b2, -⟩ := h (i - c.ax.q2)
  rw [a1, a2, b1, b2, sub_right_comm i c.ax.q1 c.ax.q2]
  ring

/-- **C93 (runs).** After any number of steps with any of the three splitting methods, the divergence of the magnetic field is what it was at
the start. -/
theorem C93_divB_kept {c : CoupledConfig S P Q K} (hc : HybridASL c) (hq : c.solverMethodInQ = "FVM" ∨ c.solverMethodInQ = "ASL")
    (m : RefScheme) {push} {s : S} {fvm advq src : K → Dist S P Q K → Except PyErr (Dist S P Q K)} {dts : List K}
    {st st' : AslState S P Q K} (h : runAsl m c push s fvm advq src dts st = .ok st') (i : Q) :
    (st'.flds.yee.B1 i - st'.flds.yee.B1 (i - c.ax.q1)) / c.dq1 + (st'.flds.yee.B2 i - st'.flds.yee.B2 (i - c.ax.q2)) / c.dq2
      = (st.flds.yee.B1 i - st.flds.yee.B1 (i - c.ax.q1)) / c.dq1 + (st.flds.yee.B2 i - st.flds.yee.B2 (i - c.ax.q2)) / c.dq2 := by
  induction dts generalizing st with
  | nil => simp only [runAsl, Except.ok.injEq] at h; subst h; rfl
  | cons dt rest ih =>
    simp only [runAsl, bind, Except.bind] at h
    split at h
    · cases h
    · rename_i u hu
      rw [ih h]
      have := congrFun (induction_divB (C93_step hc hq m hu).2.1) i
      simpa only [divB, CoupledConfig.fieldParams, afShift_one] using this

/-- **C93 (the clock of the fields).** The clock of the fields solver, which the boundary conditions of the fields are evaluated at, advances by
the sizes of the steps with `lie` and `strang`, but by twice as much with `swss`. -/
theorem C93_field_clock {c : CoupledConfig S P Q K} (hc : HybridASL c) (hq : c.solverMethodInQ = "FVM" ∨ c.solverMethodInQ = "ASL")
    (m : RefScheme) {push} {s : S} {fvm advq src : K → Dist S P Q K → Except PyErr (Dist S P Q K)} {dts : List K}
    {st st' : AslState S P Q K} (h : runAsl m c push s fvm advq src dts st = .ok st') :
    st'.flds.timeElapsed = st.flds.timeElapsed + (if m = .swss then 2 else 1) * dts.sum := by
  induction dts generalizing st with
  | nil => simp only [runAsl, Except.ok.injEq] at h; subst h; simp
  | cons dt rest ih =>
    simp only [runAsl, bind, Except.bind] at h
    split at h
    · cases h
    · rename_i u hu
      rw [ih h, (C93_step hc hq m hu).2.2]
      cases m <;> simp [RefScheme.passes] <;> ring

/-- **C93 (no exception).** Where the operators on the distribution do not raise, no step of a hybrid run does: the check of the current
against Ampère's law always succeeds. -/
theorem C93_runs {c : CoupledConfig S P Q K} (hc : HybridASL c) (m : RefScheme) (push) (s : S)
    {fvm advq src : K → Dist S P Q K → Except PyErr (Dist S P Q K)} (h1 : ∀ dt f, ∃ g, fvm dt f = .ok g) (h2 : ∀ dt f, ∃ g, advq dt f = .ok g)
    (h3 : ∀ dt f, ∃ g, src dt f = .ok g) (dts : List K) (st : AslState S P Q K) :
    ∃ st', runAsl m c push s fvm advq src dts st = .ok st' := by
  have onf : ∀ {g : K → Dist S P Q K → Except PyErr (Dist S P Q K)}, (∀ dt f, ∃ x, g dt f = .ok x) → ∀ dt (st : AslState S P Q K),
      ∃ st', onF g dt st = .ok st' := by
    intro g hg dt st
    obtain ⟨x, hx⟩ := hg dt st.f
    exact ⟨{ st with f := x }, by simp only [onF, hx, bind, Except.bind, pure, Except.pure]⟩
  have spl : ∀ {o1 o2 : AslOp S P Q K}, (∀ dt st, ∃ st', o1 dt st = .ok st') → (∀ dt st, ∃ st', o2 dt st = .ok st') → ∀ dt st,
      ∃ st', m.split o1 o2 dt st = .ok st' := by
    intro o1 o2 e1 e2 dt st
    cases m
    · obtain ⟨a, ha⟩ := e1 dt st
      obtain ⟨b, hb⟩ := e2 dt a
      exact ⟨b, by simp only [RefScheme.split, lieRef, ha, hb, bind, Except.bind]⟩
    · obtain ⟨a, ha⟩ := e1 (dt / 2) st
      obtain ⟨b, hb⟩ := e2 dt a
      obtain ⟨d, hd⟩ := e1 (dt / 2) b
      exact ⟨d, by simp only [RefScheme.split, strangRef, ha, hb, hd, bind, Except.bind]⟩
    · obtain ⟨a, ha⟩ := e1 dt st
      obtain ⟨i, hi⟩ := e2 dt a
      obtain ⟨b, hb⟩ := e2 dt (restoreRef st i)
      obtain ⟨r, hr⟩ := e1 dt b
      exact ⟨_, swssRef_eq ha hi hb hr⟩
  have pos : ∀ dt st, ∃ st', positionOp m c fvm advq src dt st = .ok st' := by
    intro dt st
    unfold positionOp
    split
    · exact onf h1 dt st
    · exact spl (onf h2) (onf h3) dt st
  induction dts generalizing st with
  | nil => exact ⟨st, rfl⟩
  | cons dt rest ih =>
    have : ∃ u, aslStep m c push s fvm advq src dt st = .ok u := by
      unfold aslStep
      split
      · exact spl pos (fun dt' st => ⟨_, opFieldsAsl_eq hc push s dt dt' st⟩) dt st
      · exact ⟨st, rfl⟩
    obtain ⟨u, hu⟩ := this
    obtain ⟨v, hv⟩ := ih u
    exact ⟨v, by simp only [runAsl, hu, bind, Except.bind]; exact hv⟩

/-! ## The fields the force is computed from -/

/-- Electric field of one array, magnetic field of another. -/
def EM.mix (e b : EM Q K) : EM Q K := ⟨e.E1, e.E2, e.E3, b.B1, b.B2, b.B3⟩

/-- Staggered fields interpolated to the cell centres. -/
def centred (c : CoupledConfig S P Q K) (Y : EM Q K) : EM Q K :=
  ⟨fun i => 1 / 2 * (Y.E1 i + Y.E1 (i + c.ax.q1)), fun i => 1 / 2 * (Y.E2 i + Y.E2 (i + c.ax.q2)), Y.E3,
   fun i => 1 / 2 * (Y.B1 i + Y.B1 (i + c.ax.q2)), fun i => 1 / 2 * (Y.B2 i + Y.B2 (i + c.ax.q1)),
   fun i => 1 / 4 * (Y.B3 i + Y.B3 (i + c.ax.q2) + Y.B3 (i + c.ax.q1) + Y.B3 (i + c.ax.q1 + c.ax.q2))⟩

theorem toCentre_centred (c : CoupledConfig S P Q K) (Y C : EM Q K) : toCentre c.ax.q1 c.ax.q2 .both Y C = centred c Y := by
  simp only [toCentre, centred, afShift_neg_one]
  simp

/-- The cell-centred fields and both time levels are one array object, as after initialisation. -/
def OneObject (σ : FieldState Q K ℕ) : Prop := σ.cc = σ.atN ∧ σ.cc = σ.atHalf

/-- Both time levels are one array object, the cell-centred fields another, as after a step of `swss`. -/
def TwoObjects (σ : FieldState Q K ℕ) : Prop := σ.cc ≠ σ.atN ∧ σ.atN = σ.atHalf

theorem advance_one {c : CoupledConfig S P Q K} {s : S} {T : K} {f : Dist S P Q K} {σ : FieldState Q K ℕ} (h : OneObject σ) :
    (advanceFields c s T f σ).heap σ.cc
      = EM.mix (EM.avg (σ.heap σ.cc) (centred c (advanceYee c s T f σ.yee))) (centred c (advanceYee c s T f σ.yee)) := by
  obtain ⟨heap, cc, atN, atHalf, yee, flag, te⟩ := σ
  obtain ⟨h1, h2⟩ := h
  simp only at h1 h2
  subst h1 h2
  simp [advanceFields, storeFields, FieldState.writeE, FieldState.writeB, CoupledConfig.fieldParams, toCentre_centred, EM.mix, EM.avg]

theorem advance_two {c : CoupledConfig S P Q K} {s : S} {T : K} {f : Dist S P Q K} {σ : FieldState Q K ℕ} (h : TwoObjects σ) :
    (advanceFields c s T f σ).heap σ.cc = centred c (advanceYee c s T f σ.yee) ∧
    (advanceFields c s T f σ).heap σ.atN = EM.mix (EM.avg (σ.heap σ.cc) (centred c (advanceYee c s T f σ.yee))) (σ.heap σ.cc) := by
  obtain ⟨heap, cc, atN, atHalf, yee, flag, te⟩ := σ
  obtain ⟨h1, h2⟩ := h
  simp only at h1 h2
  subst h2
  have h1' := Ne.symm h1
  simp [advanceFields, storeFields, FieldState.writeE, FieldState.writeB, CoupledConfig.fieldParams, toCentre_centred, EM.mix, EM.avg, h1, h1']

/-- **C93 (kinetic electrons).** Without the hybrid model, a run whose fields evolve by `fdtd` and whose momentum advection is semi-Lagrangian
never completes a step: where the position operator does not raise first, the step raises `NameError`. -/
theorem C93_kinetic_electrons_raise {c : CoupledConfig S P Q K} (hf : c.fieldsSolver = "fdtd") (hh : c.hybrid = false)
    (hq : c.solverMethodInQ = "FVM" ∨ c.solverMethodInQ = "ASL") (m : RefScheme) {push} {s : S}
    {fvm advq src : K → Dist S P Q K → Except PyErr (Dist S P Q K)} (dt : K) (rest : List K) (st : AslState S P Q K) :
    (∀ st', runAsl m c push s fvm advq src (dt :: rest) st ≠ .ok st') ∧
    ((∃ a, positionOp m c fvm advq src (if m = .strang then dt / 2 else dt) st = .ok a) →
      runAsl m c push s fvm advq src (dt :: rest) st = .error .nameError) := by
  have op : ∀ d u, opFieldsAsl c push s dt d u = .error .nameError := fun d u => by
    simp only [opFieldsAsl, hf, hh, if_true, Bool.false_eq_true, if_false]; rfl
  refine ⟨fun st' h => ?_, ?_⟩
  · simp only [runAsl, bind, Except.bind] at h
    split at h
    · cases h
    · rename_i u hu
      rw [aslStep, if_pos hq] at hu
      cases m
      · obtain ⟨a, -, hb⟩ := lieRef_ok hu; rw [op] at hb; cases hb
      · obtain ⟨a, b, -, hb, -⟩ := strangRef_ok hu; rw [op] at hb; cases hb
      · obtain ⟨a, i, b, r, -, hb, -⟩ := swssRef_ok hu; rw [op] at hb; cases hb
  · rintro ⟨a, ha⟩
    cases m <;> simp only [reduceCtorEq, if_true, if_false] at ha <;>
      simp only [runAsl, aslStep, if_pos hq, RefScheme.split, lieRef, strangRef, swssRef, ha, op, bind, Except.bind]

/-- **C93 (start).** A run starts from one array object for the three attributes. -/
theorem C93_start (pr : FieldParams Q K) (ini : InitFns Q K) (τ : FieldState Q K) (h : initFields pr ini = .ok τ) (f : Dist S P Q K) :
    OneObject (AslState.start f τ).flds ∧ (AslState.start f τ).flds.flag = true ∧ (AslState.start f τ).flds.cc < (AslState.start f τ).next := by
  obtain ⟨⟨h1, h2⟩, h3, -⟩ := C20_init_aliases pr ini τ h
  exact ⟨⟨congrArg Fin.val h1, congrArg Fin.val h2⟩, h3, τ.cc.isLt⟩

/-- **C93 (force, `lie`).** With `lie` and finite volumes in position space the momentum advection uses the new magnetic field, and the mean of
the new electric field and the one *used in the step before*; these are also the cell-centred fields after the step. -/
theorem C93_force_lie {c : CoupledConfig S P Q K} (hc : HybridASL c) (hq : c.solverMethodInQ = "FVM") {push} {s : S}
    {fvm advq src : K → Dist S P Q K → Except PyErr (Dist S P Q K)} {dt : K} {st st' : AslState S P Q K} (h1 : OneObject st.flds)
    (hf : st.flds.flag = true) (h : aslStep .lie c push s fvm advq src dt st = .ok st') :
    ∃ g, fvm dt st.f = .ok g ∧
      (let new := centred c st'.flds.yee
       let F := EM.mix (EM.avg (st.flds.heap st.flds.cc) new) new
       st'.f = push F F F dt g ∧ st'.flds.heap st'.flds.cc = F) ∧ OneObject st'.flds ∧ st'.flds.flag = true := by
  rw [aslStep, if_pos (Or.inl hq)] at h
  obtain ⟨a, ha, hb⟩ := lieRef_ok h
  rw [positionOp, if_pos hq] at ha
  simp only [onF, bind, Except.bind, pure, Except.pure] at ha
  split at ha
  · cases ha
  rename_i g hg
  cases ha
  rw [opFieldsAsl_eq hc] at hb
  cases hb
  have e := advance_one (c := c) (s := s) (T := dt) (f := g) h1
  refine ⟨g, hg, ⟨?_, e⟩, h1, hf⟩
  have : seen (advanceFields c s dt g st.flds) = (advanceFields c s dt g st.flds).heap st.flds.cc := by
    unfold seen
    rw [if_pos (show (advanceFields c s dt g st.flds).flag = true from hf), h1.1]
    rfl
  simp only [this, e]
  rfl

/-- **C93 (force, first step of `swss`).** From one array object, `F1` are the fields of the force in the first pass and `F2` those in the
second.  The second pass starts from the cell-centred fields the first pass left, so that `F2` contains `F1`, although the code
assigns the starting values back. -/
theorem C93_force_swss_first {c : CoupledConfig S P Q K} (hc : HybridASL c) (hq : c.solverMethodInQ = "FVM") {push} {s : S}
    {fvm advq src : K → Dist S P Q K → Except PyErr (Dist S P Q K)} {dt : K} {st st' : AslState S P Q K} (h1 : OneObject st.flds)
    (hf : st.flds.flag = true) (hn : st.flds.cc < st.next) (h : aslStep .swss c push s fvm advq src dt st = .ok st') :
    ∃ g Y1 Y2 g', fvm dt st.f = .ok g ∧ st'.flds.yee = EM.avg Y2 Y1 ∧
      (∀ k i, Y1.electric k i = ohm c s (aslIons c g) g st.flds.yee.magnetic k i) ∧
      (∀ k i, Y2.electric k i = ohm c s (aslIons c st.f) st.f st.flds.yee.magnetic k i) ∧
      (let F1 := EM.mix (EM.avg (st.flds.heap st.flds.cc) (centred c Y1)) (centred c Y1)
       let F2 := EM.mix (EM.avg F1 (centred c Y2)) (centred c Y2)
       fvm dt (push F2 F2 F2 dt st.f) = .ok g' ∧ (st'.f = fun s p q => 1 / 2 * (g' s p q + push F1 F1 F1 dt g s p q)) ∧
       st'.flds.heap st'.flds.cc = F2) ∧
      TwoObjects st'.flds ∧ st'.flds.flag = true ∧ st'.flds.cc < st'.next ∧ st'.flds.atN < st'.next := by
  rw [aslStep, if_pos (Or.inl hq)] at h
  obtain ⟨a, i, b, r, ha, hi, hb, hr, rfl⟩ := swssRef_ok h
  rw [positionOp, if_pos hq] at ha hr
  simp only [onF, bind, Except.bind, pure, Except.pure] at ha hr
  split at ha
  · cases ha
  rename_i g hg
  cases ha
  split at hr
  · cases hr
  rename_i g' hg'
  cases hr
  rw [opFieldsAsl_eq hc] at hi hb
  cases hi
  cases hb
  have e1 := advance_one (c := c) (s := s) (T := dt) (f := g) h1
  generalize hσ : restoreRef st ⟨push (seen (advanceFields c s dt g st.flds)) (seen (advanceFields c s dt g st.flds))
      (seen (advanceFields c s dt g st.flds)) dt g, advanceFields c s dt g st.flds, st.next⟩ = τ at *
  have t1 : τ.flds.heap = (advanceFields c s dt g st.flds).heap := by rw [← hσ]; rfl
  have t2 : τ.flds.cc = st.flds.cc := by rw [← hσ]; rfl
  have t3 : τ.flds.yee = st.flds.yee := by rw [← hσ]; rfl
  have t4 : τ.f = st.f := by rw [← hσ]; rfl
  have t5 : OneObject τ.flds := by rw [← hσ]; exact h1
  have t6 : τ.flds.flag = true := by rw [← hσ]; exact hf
  have t7 : τ.next = st.next := by rw [← hσ]; rfl
  have e2 := advance_one (c := c) (s := s) (T := dt) (f := τ.f) t5
  have s1 : seen (advanceFields c s dt g st.flds) = (advanceFields c s dt g st.flds).heap st.flds.cc := by
    unfold seen
    rw [if_pos (show (advanceFields c s dt g st.flds).flag = true from hf), h1.1]
    rfl
  have s2 : seen (advanceFields c s dt τ.f τ.flds) = (advanceFields c s dt τ.f τ.flds).heap τ.flds.cc := by
    unfold seen
    rw [if_pos (show (advanceFields c s dt τ.f τ.flds).flag = true from t6), t5.1]
    rfl
  refine ⟨g, advanceYee c s dt g st.flds.yee, advanceYee c s dt st.f st.flds.yee, g', hg, ?_, (advanceYee_spec _ _ _ _ _).1,
    (advanceYee_spec _ _ _ _ _).1, ⟨?_, ?_, ?_⟩, ?_, ?_, ?_, ?_⟩
  · change EM.avg (advanceYee c s dt τ.f τ.flds.yee) (advanceYee c s dt g st.flds.yee) = _
    rw [t3, t4]
  · rw [← hg', s2, e2, t1, t2, e1, t3, t4]
  · change (fun s' p q => 1 / 2 * (g' s' p q + push (seen (advanceFields c s dt g st.flds)) (seen (advanceFields c s dt g st.flds))
      (seen (advanceFields c s dt g st.flds)) dt g s' p q)) = _
    rw [s1, e1]
  · change (if τ.next = τ.next then EM.avg ((advanceFields c s dt τ.f τ.flds).heap τ.flds.cc)
      ((advanceFields c s dt τ.f τ.flds).heap st.flds.cc) else _) = _
    rw [if_pos rfl, ← t2, EM.avg_self, e2, t1, t2, e1, t3, t4]
  · refine ⟨?_, ?_⟩
    · change τ.next ≠ τ.flds.atN
      rw [← t5.1, t2, t7]
      exact Nat.ne_of_gt hn
    · exact t5.1.symm.trans t5.2
  · exact t6
  · exact Nat.lt_succ_self _
  · change τ.flds.atN < τ.next + 1
    rw [← t5.1, t2, t7]
    exact Nat.lt_succ_of_lt hn

/-- **C93 (force, further steps of `swss`).** From the second step on, the force of the first pass uses the magnetic field *before* the step; the
second pass starts from the fields at the end of the first one, and uses its magnetic field; and the cell-centred fields after the
step are those of the second pass alone, not the mean of the two passes. -/
theorem C93_force_swss_later {c : CoupledConfig S P Q K} (hc : HybridASL c) (hq : c.solverMethodInQ = "FVM") {push} {s : S}
    {fvm advq src : K → Dist S P Q K → Except PyErr (Dist S P Q K)} {dt : K} {st st' : AslState S P Q K} (h1 : TwoObjects st.flds)
    (hf : st.flds.flag = true) (hn : st.flds.atN < st.next) (h : aslStep .swss c push s fvm advq src dt st = .ok st') :
    ∃ g Y1 Y2 g', fvm dt st.f = .ok g ∧ st'.flds.yee = EM.avg Y2 Y1 ∧
      (∀ k i, Y1.electric k i = ohm c s (aslIons c g) g st.flds.yee.magnetic k i) ∧
      (∀ k i, Y2.electric k i = ohm c s (aslIons c st.f) st.f st.flds.yee.magnetic k i) ∧
      (let old := st.flds.heap st.flds.cc
       let F1 := EM.mix (EM.avg old (centred c Y1)) old
       let F2 := EM.mix (EM.avg (centred c Y1) (centred c Y2)) (centred c Y1)
       fvm dt (push F2 F2 F2 dt st.f) = .ok g' ∧ (st'.f = fun s p q => 1 / 2 * (g' s p q + push F1 F1 F1 dt g s p q)) ∧
       st'.flds.heap st'.flds.cc = centred c Y2) ∧
      TwoObjects st'.flds ∧ st'.flds.flag = true ∧ st'.flds.atN < st'.next := by
  rw [aslStep, if_pos (Or.inl hq)] at h
  obtain ⟨a, i, b, r, ha, hi, hb, hr, rfl⟩ := swssRef_ok h
  rw [positionOp, if_pos hq] at ha hr
  simp only [onF, bind, Except.bind, pure, Except.pure] at ha hr
  split at ha
  · cases ha
  rename_i g hg
  cases ha
  split at hr
  · cases hr
  rename_i g' hg'
  cases hr
  rw [opFieldsAsl_eq hc] at hi hb
  cases hi
  cases hb
  obtain ⟨e1, d1⟩ := advance_two (c := c) (s := s) (T := dt) (f := g) h1
  generalize hσ : restoreRef st ⟨push (seen (advanceFields c s dt g st.flds)) (seen (advanceFields c s dt g st.flds))
      (seen (advanceFields c s dt g st.flds)) dt g, advanceFields c s dt g st.flds, st.next⟩ = τ at *
  have t1 : τ.flds.heap = (advanceFields c s dt g st.flds).heap := by rw [← hσ]; rfl
  have t2 : τ.flds.cc = st.flds.cc := by rw [← hσ]; rfl
  have t3 : τ.flds.yee = st.flds.yee := by rw [← hσ]; rfl
  have t4 : τ.f = st.f := by rw [← hσ]; rfl
  have t5 : TwoObjects τ.flds := by rw [← hσ]; exact h1
  have t6 : τ.flds.flag = true := by rw [← hσ]; exact hf
  have t7 : τ.next = st.next := by rw [← hσ]; rfl
  have t8 : τ.flds.atN = st.flds.atN := by rw [← hσ]; rfl
  obtain ⟨e2, d2⟩ := advance_two (c := c) (s := s) (T := dt) (f := τ.f) t5
  have s1 : seen (advanceFields c s dt g st.flds) = (advanceFields c s dt g st.flds).heap st.flds.atN := by
    unfold seen
    rw [if_pos (show (advanceFields c s dt g st.flds).flag = true from hf)]
    rfl
  have s2 : seen (advanceFields c s dt τ.f τ.flds) = (advanceFields c s dt τ.f τ.flds).heap τ.flds.atN := by
    unfold seen
    rw [if_pos (show (advanceFields c s dt τ.f τ.flds).flag = true from t6)]
    rfl
  refine ⟨g, advanceYee c s dt g st.flds.yee, advanceYee c s dt st.f st.flds.yee, g', hg, ?_, (advanceYee_spec _ _ _ _ _).1,
    (advanceYee_spec _ _ _ _ _).1, ⟨?_, ?_, ?_⟩, ?_, ?_, ?_⟩
  · change EM.avg (advanceYee c s dt τ.f τ.flds.yee) (advanceYee c s dt g st.flds.yee) = _
    rw [t3, t4]
  · rw [← hg', s2, d2, t1, t2, e1, t3, t4]
  · change (fun s' p q => 1 / 2 * (g' s' p q + push (seen (advanceFields c s dt g st.flds)) (seen (advanceFields c s dt g st.flds))
      (seen (advanceFields c s dt g st.flds)) dt g s' p q)) = _
    rw [s1, d1]
  · change (if τ.next = τ.next then EM.avg ((advanceFields c s dt τ.f τ.flds).heap τ.flds.cc)
      ((advanceFields c s dt τ.f τ.flds).heap st.flds.cc) else _) = _
    rw [if_pos rfl, ← t2, EM.avg_self, e2, t3, t4]
  · refine ⟨?_, ?_⟩
    · change τ.next ≠ τ.flds.atN
      rw [t8, t7]
      exact Nat.ne_of_gt hn
    · exact t5.2
  · exact t6
  · change τ.flds.atN < τ.next + 1
    rw [t8, t7]
    exact Nat.lt_succ_of_lt hn

/-- **C93 (uniform plasma).** For uniform ions in a uniform magnetic field the electric field is exactly `-u × B`. -/
theorem C93_uniform (c : CoupledConfig S P Q K) (s : S) (f0 : S → P → K) (b : Fin 3 → K) (k : Fin 3) (i : Q) :
    ohm c s (aslIons c (fun s p _ => f0 s p)) (fun s p _ => f0 s p) (fun k _ => b k) k i
      = -cross (meanVelocity c (fun s p (_ : Q) => f0 s p) s i) b k := by
  have e : aslIons c (fun s p (_ : Q) => f0 s p) = ionsAt c .minmod (fun _ _ _ => 0) (fun _ _ _ => 0) (fun s p (_ : Q) => f0 s p) := by
    funext k
    rw [ionsAt_const]
    fin_cases k
    · funext s p q; simp [aslIons]
    · funext s p q; simp [aslIons]
    · rfl
  rw [e]
  exact C70_uniform c s .minmod _ _ f0 b k i

/-! ## Concrete cases -/

/-- A hybrid run on a 6 × 1 grid, semi-Lagrangian in momentum space. -/
def c93Cfg : CoupledConfig Unit (PIdx 2 1 1) (ZMod 6 × ZMod 1) ℚ := { c67Cfg true with solverMethodInP := "ASL" }

/-- No electric field, a uniform magnetic field along q2; ions of density one with velocity (1, 1, 0). -/
def c93Ini : InitFns (ZMod 6 × ZMod 1) ℚ := ⟨some (fun _ => 0, fun _ => 0, fun _ => 0), none, some (fun _ => 0, fun _ => 1, fun _ => 0), none, none⟩
@[inherit_doc c93Ini]
def c93F : Dist Unit (PIdx 2 1 1) (ZMod 6 × ZMod 1) ℚ := fun _ p _ => if p.1 = 0 then 0 else 1
/-- The staggered fields. -/
def c93Yee : EM (ZMod 6 × ZMod 1) ℚ := ⟨fun _ => 0, fun _ => 0, fun _ => 0, fun _ => 0, fun _ => 1, fun _ => 0⟩

theorem c93_ohm (Y : EM (ZMod 6 × ZMod 1) ℚ) (hY : Y.magnetic = fun k _ => if k = 1 then 1 else 0) (i : ZMod 6 × ZMod 1) :
    ohm c93Cfg () (aslIons c93Cfg c93F) c93F Y.magnetic 2 i = -1 := by
  rw [hY]
  have := C93_uniform c93Cfg () (fun _ (p : PIdx 2 1 1) => if p.1 = 0 then (0 : ℚ) else 1) (fun k => if k = 1 then 1 else 0) 2 i
  refine this.trans ?_
  rw [cross_two]
  have two : ∀ g : ZMod 2 → ℚ, ∑ x, g x = g 0 + g 1 := fun g => Fin.sum_univ_two g
  have h1 : (1 : ZMod 2) ≠ 0 := by decide
  simp [meanVelocity, numberDensity, c93Cfg, c67Cfg, PIdx, Fintype.sum_prod_type, two, h1]

theorem c93_hybrid : HybridASL c93Cfg := ⟨rfl, rfl, rfl⟩

theorem c93_init : ∃ τ, initFields c93Cfg.fieldParams c93Ini = .ok τ ∧ τ.yee = c93Yee ∧ ∀ i, (τ.heap τ.cc).E3 i = 0 :=
  ⟨_, rfl, rfl, fun _ => rfl⟩

theorem c93_magnetic : c93Yee.magnetic = fun k _ => if k = 1 then 1 else 0 := by
  funext k i
  fin_cases k <;> simp [EM.magnetic, c93Yee]

/-- **C93 (not restored).** The run starts without electric field in its cell-centred fields, and the electric field of both passes of the first
`swss` step is -1 along q3.  From restored starting values either pass would use and leave the mean -1/2 of old and new field, as `lie`
does; but the field the second pass uses and leaves is -3/4. -/
theorem C93_swss_not_restored (push : EM (ZMod 6 × ZMod 1) ℚ → EM (ZMod 6 × ZMod 1) ℚ → EM (ZMod 6 × ZMod 1) ℚ → ℚ →
      Dist Unit (PIdx 2 1 1) (ZMod 6 × ZMod 1) ℚ → Dist Unit (PIdx 2 1 1) (ZMod 6 × ZMod 1) ℚ) (dt : ℚ) :
    ∃ τ, initFields c93Cfg.fieldParams c93Ini = .ok τ ∧ (∀ i, (τ.heap τ.cc).E3 i = 0) ∧
      ∃ l w, aslStep .lie c93Cfg push () (fun _ f => .ok f) (fun _ f => .ok f) (fun _ f => .ok f) dt (AslState.start c93F τ) = .ok l ∧
        aslStep .swss c93Cfg push () (fun _ f => .ok f) (fun _ f => .ok f) (fun _ f => .ok f) dt (AslState.start c93F τ) = .ok w ∧
        ∀ i, l.flds.yee.E3 i = -1 ∧ (l.flds.heap l.flds.cc).E3 i = -1 / 2 ∧ w.flds.yee.E3 i = -1 ∧ (w.flds.heap w.flds.cc).E3 i = -3 / 4 := by
  obtain ⟨τ, hτ, hy, h0⟩ := c93_init
  obtain ⟨o1, o2, o3⟩ := C93_start _ _ τ hτ c93F
  have run : ∀ m, ∃ u, aslStep m c93Cfg push () (fun _ f => .ok f) (fun _ f => .ok f) (fun _ f => .ok f) dt (AslState.start c93F τ) = .ok u := by
    intro m
    obtain ⟨u, hu⟩ := C93_runs c93_hybrid m push () (fvm := fun _ f => .ok f) (advq := fun _ f => .ok f) (src := fun _ f => .ok f)
      (fun _ f => ⟨f, rfl⟩) (fun _ f => ⟨f, rfl⟩) (fun _ f => ⟨f, rfl⟩) [dt] (AslState.start c93F τ)
    simp only [runAsl, bind, Except.bind] at hu
    split at hu
    · cases hu
    · rename_i v hv; exact ⟨v, hv⟩
  obtain ⟨l, hl⟩ := run .lie
  obtain ⟨w, hw⟩ := run .swss
  have hc : ∀ i, ((AslState.start c93F τ).flds.heap (AslState.start c93F τ).flds.cc).E3 i = 0 := by
    intro i
    have : (AslState.start c93F τ).flds.heap (AslState.start c93F τ).flds.cc = τ.heap τ.cc := by
      simp [AslState.start]
    rw [this, h0]
  have hyee : (AslState.start c93F τ).flds.yee = c93Yee := hy
  refine ⟨τ, hτ, h0, l, w, hl, hw, fun i => ?_⟩
  have E : ∀ Y : EM (ZMod 6 × ZMod 1) ℚ, (∀ k i, Y.electric k i = ohm c93Cfg () (aslIons c93Cfg c93F) c93F
      (AslState.start c93F τ).flds.yee.magnetic k i) → Y.E3 i = -1 := by
    intro Y h
    have := h 2 i
    rw [hyee, c93_ohm _ c93_magnetic] at this
    exact this
  obtain ⟨g, hg, ⟨-, l2⟩, -, -⟩ := C93_force_lie c93_hybrid rfl o1 o2 hl
  obtain ⟨⟨a, ha, hE⟩, -, -⟩ := C93_step c93_hybrid (Or.inl rfl) .lie hl
  have ha' : a.f = c93F := by
    change Except.ok _ = Except.ok _ at ha
    cases ha
    rfl
  have el : l.flds.yee.E3 i = -1 := by
    refine E _ fun k j => ?_
    rw [hE k j, ha']
    rfl
  obtain ⟨g, Y1, Y2, g', hg, hY, k1, k2, ⟨-, -, w2⟩, -⟩ := C93_force_swss_first c93_hybrid rfl o1 o2 o3 hw
  cases hg
  have e1 := E Y1 k1
  have e2 := E Y2 k2
  refine ⟨el, ?_, ?_, ?_⟩
  · rw [l2]
    simp only [EM.mix, EM.avg, centred, hc, el]
    norm_num
  · rw [hY]
    simp only [EM.avg, e1, e2]
    norm_num
  · rw [w2]
    simp only [EM.mix, EM.avg, centred, hc, e1, e2]
    norm_num

/-- The hypotheses of the theorems above are met by a run from initialised fields, with each scheme; after the first `swss` step those of
`C93_force_swss_later` are. -/
example (m : RefScheme) : ∃ τ st', initFields c93Cfg.fieldParams c93Ini = .ok τ ∧ HybridASL c93Cfg ∧ c93Cfg.solverMethodInQ = "FVM" ∧
    OneObject (AslState.start c93F τ).flds ∧ (AslState.start c93F τ).flds.flag = true ∧
    runAsl m c93Cfg (fun _ _ _ _ f => f) () (fun _ f => .ok f) (fun _ f => .ok f) (fun _ f => .ok f) [1 / 10, 1 / 5] (AslState.start c93F τ)
      = .ok st' := by
  obtain ⟨τ, hτ, -⟩ := c93_init
  obtain ⟨o1, o2, -⟩ := C93_start _ _ τ hτ c93F
  obtain ⟨u, hu⟩ := C93_runs c93_hybrid m (fun _ _ _ _ f => f) () (fvm := fun _ f => .ok f) (advq := fun _ f => .ok f) (src := fun _ f => .ok f)
    (fun _ f => ⟨f, rfl⟩) (fun _ f => ⟨f, rfl⟩) (fun _ f => ⟨f, rfl⟩) [1 / 10, 1 / 5] (AslState.start c93F τ)
  exact ⟨τ, u, hτ, c93_hybrid, rfl, o1, o2, hu⟩

end Bolt
