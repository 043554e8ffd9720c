import Verif.Proofs.Coupled
import Verif.Spec.Coupled
import Verif.Props.FVM
import Verif.Props.FDTD
import Verif.Props.Fields

/-!
# C14, C19, C20: the kinetic-field coupling
-/

set_option linter.unusedSectionVars false

namespace Bolt

open Finset

variable {S P Q K : Type} [AddCommGroup P] [AddCommGroup Q] [Field K] [LinearOrder K] [IsStrictOrderedRing K]
  [Fintype S] [Fintype P] [Fintype Q]

/-! ## C19: the time-level flag and the number of field updates -/

/-- C19: an electrodynamic step that starts with the flag at `n` performs exactly one field update, in the second stage, with the
full step size and the electric field and currents `J` of that stage, and ends with the flag at `n`. -/
theorem C19_one_update_per_step (c : CoupledConfig S P Q K) (hc : ElectrodynamicFVM c) (poisson) (cb : Fin 2 → CoupledCallbacks S P Q K)
    (hyb : S) (dt : K) (st st' : Dist S P Q K × FieldState Q K) (hflag : st.2.flag = true)
    (h : stepCoupled c poisson cb hyb dt st = .ok st') :
    st'.2.flag = true ∧ st'.2.timeElapsed = st.2.timeElapsed + dt ∧
      ∃ J E, fdtd c.fieldParams id J dt (st.2.yee.setE E) = .ok st'.2.yee := by
  obtain ⟨hq, hp1, hp2, ht⟩ := hc
  obtain ⟨r0, r1, h0, h1, rfl⟩ := stepCoupled_ok h
  obtain ⟨σ1, σ2, u, a, b, d⟩ := dfdtCoupled_ok ⟨hp1, hp2⟩ h0
  obtain ⟨τ1, τ2, u', a', b', d'⟩ := dfdtCoupled_ok ⟨hp1, hp2⟩ h1
  have hne : ¬ (c.fieldsType = "electrostatic" ∧ c.fieldsSolver = "fft") := by rw [ht]; simp
  rw [if_neg hne] at a a'
  subst a a'
  have hs : σ2 = st.2 := by
    rcases u with ⟨_, hf, _⟩ | ⟨_, e⟩
    · rw [hflag] at hf; cases hf
    · exact e
  subst hs
  have key : ∀ σ : FieldState Q K, σ.flag = false → σ.yee = st.2.yee → σ.timeElapsed = st.2.timeElapsed → ∀ J E, evolveElectrodynamic c.fieldParams id J dt
      { σ with yee := σ.yee.setE E } = .ok τ2 →
      r1.2.flag = true ∧ r1.2.timeElapsed = st.2.timeElapsed + dt ∧
      ∃ J E, fdtd c.fieldParams id J dt (st.2.yee.setE E) = .ok r1.2.yee := by
    intro σ hf hy hte J E he
    obtain ⟨e1, e2, e3, -⟩ := evolveElectrodynamic_ok he
    rw [b']
    refine ⟨by simp [e2, hf], by simp [e3, hte], J, E, ?_⟩
    simpa [hy] using e1
  rcases u' with ⟨_, hf, _, m, hm, ⟨hh, hy, rfl, he⟩ | ⟨hh, he⟩⟩ | ⟨hn, e⟩
  · exact key r0.2 (by rw [b]; simp [hflag]) (by rw [b]) (by rw [b]) _ _ he
  · exact key r0.2 (by rw [b]; simp [hflag]) (by rw [b]) (by rw [b]) _ none he
  · exact absurd ⟨ht, by rw [b]; simp [hflag]⟩ hn

/-- C19: over any number of steps the flag is at `n` at every step boundary and the fields have been advanced by the sum of the
step sizes. -/
theorem C19_flag_and_time (c : CoupledConfig S P Q K) (hc : ElectrodynamicFVM c) (poisson) (hyb : S)
    (steps : List (K × (Fin 2 → CoupledCallbacks S P Q K))) (st st' : Dist S P Q K × FieldState Q K) (hflag : st.2.flag = true)
    (h : runCoupled c poisson hyb steps st = .ok st') :
    st'.2.flag = true ∧ st'.2.timeElapsed = st.2.timeElapsed + (steps.map Prod.fst).sum := by
  induction steps generalizing st with
  | nil => simp only [runCoupled, Except.ok.injEq] at h; subst h; exact ⟨hflag, by simp⟩
  | cons stp rest ih =>
    obtain ⟨dt, cb⟩ := stp
    simp only [runCoupled, bind, Except.bind] at h
    cases h1 : stepCoupled c poisson cb hyb dt st with
    | error e => simp [h1] at h
    | ok G =>
      simp only [h1] at h
      obtain ⟨a, b, -⟩ := C19_one_update_per_step c hc poisson cb hyb dt st G hflag h1
      obtain ⟨a', b'⟩ := ih G a h
      exact ⟨a', by rw [b', b]; simp [add_assoc]⟩

/-- C19, electrostatic runs: the flag is also back at `n` after every step (it is toggled six times). -/
theorem C19_electrostatic_flag (c : CoupledConfig S P Q K) (hp : c.solverMethodInP = "FVM" ∧ c.fieldsEnabled = true)
    (ht : c.fieldsType ≠ "electrodynamic") (poisson : (S → Q → K) → FieldState Q K → FieldState Q K)
    (hpo : ∀ rho σ, (poisson rho σ).flag = σ.flag) (hyb : S)
    (steps : List (K × (Fin 2 → CoupledCallbacks S P Q K))) (st st' : Dist S P Q K × FieldState Q K)
    (h : runCoupled c poisson hyb steps st = .ok st') : st'.2.flag = st.2.flag := by
  refine runCoupled_invariant (fun x => x.2.flag = st.2.flag) steps ?_ st st' rfl h
  intro stp _ s s' hs hstep
  obtain ⟨r0, r1, h0, h1, rfl⟩ := stepCoupled_ok hstep
  obtain ⟨σ1, σ2, u, a, b, d⟩ := dfdtCoupled_ok hp h0
  obtain ⟨τ1, τ2, u', a', b', d'⟩ := dfdtCoupled_ok hp h1
  have e1 : σ1 = s.2 := by
    rcases u with ⟨hf, _⟩ | ⟨_, e⟩
    · exact absurd hf ht
    · exact e
  have e2 : τ1 = r0.2 := by
    rcases u' with ⟨hf, _⟩ | ⟨_, e⟩
    · exact absurd hf ht
    · exact e
  have f1 : σ2.flag = σ1.flag := by rw [a]; split_ifs <;> simp [hpo]
  have f2 : τ2.flag = τ1.flag := by rw [a']; split_ifs <;> simp [hpo]
  simp [b', f2, e2, b, f1, e1, hs]

/-! ## C14: Gauss's law -/

theorem chargeDensity_eq (c : CoupledConfig S P Q K) (f : Dist S P Q K) (q : Q) :
    chargeDensity c f q = ∑ s, c.charge s * ((∑ p, f s p q) * c.measure s) := by
  simp only [chargeDensity, FVMConfig.measure]
  refine sum_congr rfl fun s _ => ?_
  rw [← sum_mul, ← mul_sum]; ring

/-- The continuity equation satisfied by one slope evaluation and the currents computed in it. -/
theorem continuity (c : CoupledConfig S P Q K) (hq : c.solverMethodInQ = "FVM") (hsrc : c.sourceEnabled = false) (m : Recon)
    (hm : reconMethod c.reconstructionInQ = .ok m) (cb : CoupledCallbacks S P Q K) (hb : Ballistic c cb) (A1 A2 A3 : Dist S P Q K)
    (f k : Dist S P Q K) (h : dfdtFVM c.ax c.toFVMConfig ⟨cb.Cq1, cb.Cq2, A1, A2, A3, cb.source⟩ f = .ok k) (q : Q) :
    chargeDensity c k q = - divJ c.fieldParams (kineticCurrents c m cb.Cq1 cb.Cq2 f) q := by
  obtain ⟨a, b, hk, ha, hb'⟩ := dfdtFVM_ok h
  have hb0 : ∀ s, ∑ p, b s p q = 0 := by
    intro s
    rcases hb' with ⟨_, m', _, e⟩ | ⟨_, e⟩
    · rw [sum_congr rfl fun p _ => e s p q]; exact sum_dfdtP _ _ _ _ _ _ _ _ _ _ _
    · simp [e]
  have ha0 : ∀ s p, a s p q = dfdtQ c.ax m c.dq1 c.dq2 cb.Cq1 cb.Cq2 f s p q := by
    intro s p
    rcases ha with ⟨_, m', hm', e⟩ | ⟨hne, _⟩
    · rw [hm, Except.ok.injEq] at hm'
      subst hm'
      rw [e]; simp [hsrc]
    · exact absurd hq hne
  have hsum : ∀ s, ∑ p, k s p q = -((∑ p, faceLeft c.ax m cb.Cq1 f s p (q + c.ax.q1) * c.coords.p1 s p
        - ∑ p, faceLeft c.ax m cb.Cq1 f s p q * c.coords.p1 s p) / c.dq1
      + (∑ p, faceBot c.ax m cb.Cq2 f s p (q + c.ax.q2) * c.coords.p2 s p
        - ∑ p, faceBot c.ax m cb.Cq2 f s p q * c.coords.p2 s p) / c.dq2) := by
    intro s
    rw [sum_congr rfl fun p _ => hk s p q, sum_add_distrib, hb0, add_zero, ← sum_sub_distrib, ← sum_sub_distrib, sum_div, sum_div,
      ← sum_add_distrib, ← sum_neg_distrib]
    refine sum_congr rfl fun p _ => ?_
    rw [ha0, dfdtQ, fluxDiv_eq, fluxDiv_eq, hb.1, hb.1, hb.2, hb.2]
    simp only [faceLeft, faceBot]
    ring
  rw [chargeDensity_eq]
  simp only [hsum, divJ, kineticCurrents, momV1, momV2, integralOverV, CoupledConfig.fieldParams]
  rw [← sum_sub_distrib, ← sum_sub_distrib, sum_div, sum_div, ← sum_add_distrib, ← sum_neg_distrib]
  refine sum_congr rfl fun s _ => ?_
  ring

theorem chargeDensity_add (c : CoupledConfig S P Q K) (f k : Dist S P Q K) (a : K) (q : Q) :
    chargeDensity c (fun s p q => f s p q + k s p q * a) q = chargeDensity c f q + a * chargeDensity c k q := by
  simp only [chargeDensity, mul_sum, ← sum_add_distrib]
  refine sum_congr rfl fun s _ => sum_congr rfl fun p _ => ?_
  ring

theorem gaussDefect_eq (c : CoupledConfig S P Q K) (f : Dist S P Q K) (F : EM Q K) (q : Q) :
    gaussDefect c f F q = divE c.fieldParams F q - chargeDensity c f q / c.eps := by
  simp [gaussDefect, divE, CoupledConfig.fieldParams]

theorem gauss_step (c : CoupledConfig S P Q K) (hc : ElectrodynamicFVM c) (hh : c.hybrid = false) (hsrc : c.sourceEnabled = false)
    (poisson) (cb : Fin 2 → CoupledCallbacks S P Q K) (hb : Ballistic c (cb 1)) (hyb : S) (dt : K)
    (st st' : Dist S P Q K × FieldState Q K) (hflag : st.2.flag = true) (h : stepCoupled c poisson cb hyb dt st = .ok st') (q : Q) :
    gaussDefect c st'.1 st'.2.yee q = gaussDefect c st.1 st.2.yee q := by
  obtain ⟨hq, hp1, hp2, ht⟩ := hc
  obtain ⟨r0, r1, h0, h1, rfl⟩ := stepCoupled_ok h
  obtain ⟨σ1, σ2, u, a, b, d⟩ := dfdtCoupled_ok ⟨hp1, hp2⟩ h0
  obtain ⟨τ1, τ2, u', a', b', d'⟩ := dfdtCoupled_ok ⟨hp1, hp2⟩ h1
  have hne : ¬ (c.fieldsType = "electrostatic" ∧ c.fieldsSolver = "fft") := by rw [ht]; simp
  rw [if_neg hne] at a a'
  subst a a'
  have hs : σ2 = st.2 := by
    rcases u with ⟨_, hf, _⟩ | ⟨_, e⟩
    · rw [hflag] at hf; cases hf
    · exact e
  subst hs
  rcases u' with ⟨_, hf, _, m, hm, ⟨hh', _⟩ | ⟨_, he⟩⟩ | ⟨hn, e⟩
  · rw [hh] at hh'; cases hh'
  · obtain ⟨e1, -⟩ := evolveElectrodynamic_ok he
    have hd := C15_divE_step c.fieldParams hh _ dt _ _ e1 q
    have hcont := continuity c hq hsrc m hm (cb 1) hb _ _ _ _ _ d' q
    have hy : r0.2.yee = st.2.yee := by rw [b]
    rw [gaussDefect_eq, gaussDefect_eq, chargeDensity_add, hcont]
    rw [b']
    simp only
    rw [hd, hy]
    have : c.fieldParams.eps = c.eps := rfl
    rw [this]
    ring
  · exact absurd ⟨ht, by rw [b]; simp [hflag]⟩ hn

/-- C14: in an electrodynamic run (finite volumes in position and momentum, no source term, currents from the kinetic species) the
defect `div E - rho / eps` of Gauss's law in every cell is the same after any number of coupled steps. -/
theorem C14_gauss_law_preserved (c : CoupledConfig S P Q K) (hc : ElectrodynamicFVM c) (hh : c.hybrid = false)
    (hsrc : c.sourceEnabled = false) (poisson) (hyb : S) (steps : List (K × (Fin 2 → CoupledCallbacks S P Q K)))
    (hb : ∀ stp ∈ steps, ∀ k, Ballistic c (stp.2 k)) (st st' : Dist S P Q K × FieldState Q K) (hflag : st.2.flag = true)
    (h : runCoupled c poisson hyb steps st = .ok st') (q : Q) :
    gaussDefect c st'.1 st'.2.yee q = gaussDefect c st.1 st.2.yee q := by
  refine (runCoupled_invariant (fun x => x.2.flag = true ∧ gaussDefect c x.1 x.2.yee q = gaussDefect c st.1 st.2.yee q) steps ?_
    st st' ⟨hflag, rfl⟩ h).2
  rintro stp hstp s s' ⟨hf, hg⟩ hstep
  exact ⟨(C19_one_update_per_step c hc poisson stp.2 hyb stp.1 s s' hf hstep).1,
    (gauss_step c hc hh hsrc poisson stp.2 (hb stp hstp 1) hyb stp.1 s s' hf hstep q).trans hg⟩

/-- C14: in particular, if Gauss's law holds initially it holds for ever. -/
theorem C14_gauss_law_for_ever (c : CoupledConfig S P Q K) (hc : ElectrodynamicFVM c) (hh : c.hybrid = false)
    (hsrc : c.sourceEnabled = false) (poisson) (hyb : S) (steps : List (K × (Fin 2 → CoupledCallbacks S P Q K)))
    (hb : ∀ stp ∈ steps, ∀ k, Ballistic c (stp.2 k)) (st st' : Dist S P Q K × FieldState Q K) (hflag : st.2.flag = true)
    (h : runCoupled c poisson hyb steps st = .ok st') (h0 : ∀ q, gaussDefect c st.1 st.2.yee q = 0) :
    ∀ q, gaussDefect c st'.1 st'.2.yee q = 0 := fun q => by
  rw [C14_gauss_law_preserved c hc hh hsrc poisson hyb steps hb st st' hflag h, h0]

theorem dfdtCoupled_exists (c : CoupledConfig S P Q K) (hc : ElectrodynamicFVM c) (hh : c.hybrid = false)
    (hq : ∃ m, reconMethod c.reconstructionInQ = .ok m) (hp : ∃ m, reconMethod c.reconstructionInP = .ok m) (poisson)
    (cb : CoupledCallbacks S P Q K) (hyb : S) (dt : K) (g f : Dist S P Q K) (σ : FieldState Q K) :
    ∃ r, dfdtCoupled c poisson cb hyb dt g f σ = .ok r := by
  obtain ⟨hq1, hp1, hp2, ht⟩ := hc
  obtain ⟨m, hm⟩ := hq
  obtain ⟨m', hm'⟩ := hp
  have hk : ∀ cb' : Callbacks S P Q K, ∃ k, dfdtFVM c.ax c.toFVMConfig cb' f = .ok k := by
    intro cb'
    simp [dfdtFVM, hq1, hp1, hp2, hm, hm', bind, Except.bind, pure, Except.pure]
    by_cases hs : c.sourceEnabled = true <;> simp [hs]
  rw [dfdtCoupled, if_pos ⟨hp1, hp2⟩]
  by_cases he : c.fieldsType = "electrodynamic" ∧ σ.flag = false
  · obtain ⟨σ1, hσ1⟩ := evolveElectrodynamic_exists c.fieldParams hh (kineticCurrents c m cb.Cq1 cb.Cq2 f) dt σ
    simp only [if_pos he, if_pos hq1, hm, hh, Bool.false_eq_true, if_false, bind, Except.bind, hσ1]
    split
    · rename_i e he; obtain ⟨k, hk'⟩ := hk ⟨cb.Cq1, cb.Cq2, _, _, _, cb.source⟩; rw [hk'] at he; cases he
    · exact ⟨_, rfl⟩
  · simp only [if_neg he, bind, Except.bind, pure, Except.pure]
    split
    · rename_i e he; obtain ⟨k, hk'⟩ := hk ⟨cb.Cq1, cb.Cq2, _, _, _, cb.source⟩; rw [hk'] at he; cases he
    · exact ⟨_, rfl⟩

/-- C14: such runs always exist (nothing raises), so the theorems above are about all of them. -/
theorem C14_run_exists (c : CoupledConfig S P Q K) (hc : ElectrodynamicFVM c) (hh : c.hybrid = false)
    (hq : ∃ m, reconMethod c.reconstructionInQ = .ok m) (hp : ∃ m, reconMethod c.reconstructionInP = .ok m) (poisson) (hyb : S)
    (steps : List (K × (Fin 2 → CoupledCallbacks S P Q K))) (st : Dist S P Q K × FieldState Q K) :
    ∃ st', runCoupled c poisson hyb steps st = .ok st' := by
  induction steps generalizing st with
  | nil => exact ⟨st, rfl⟩
  | cons stp rest ih =>
    obtain ⟨dt, cb⟩ := stp
    obtain ⟨r0, h0⟩ := dfdtCoupled_exists c hc hh hq hp poisson (cb 0) hyb dt st.1 st.1 st.2
    obtain ⟨r1, h1⟩ := dfdtCoupled_exists c hc hh hq hp poisson (cb 1) hyb dt (fun s p q => st.1 s p q + r0.1 s p q * (dt / 2))
      (fun s p q => st.1 s p q + r0.1 s p q * (dt / 2)) r0.2
    simp only [runCoupled, stepCoupled, bind, Except.bind, pure, Except.pure, h0, h1]
    exact ih _

/-! ## C20: time levels of the fields seen by the momentum fluxes -/

/-- C20 (as coded): in one slope evaluation the first and third momentum flux use one time level and the second uses the other.
`lvl b` is the array handed out when the flag is `b`. -/
theorem C20_fluxes_use_alternating_levels (c : CoupledConfig S P Q K) (hc : ElectrodynamicFVM c) (hfs : c.fieldsSolver = "fdtd")
    (poisson) (cb : CoupledCallbacks S P Q K) (hyb : S) (dt : K) (f : Dist S P Q K) (σ : FieldState Q K)
    (r : Dist S P Q K × FieldState Q K) (h : dfdtCoupled c poisson cb hyb dt f f σ = .ok r) :
    let lvl : Bool → EM Q K := fun b => if b = true then r.2.heap r.2.atN else r.2.heap r.2.atHalf
    dfdtFVM c.ax c.toFVMConfig ⟨cb.Cq1, cb.Cq2, cb.Cp1 (lvl σ.flag), cb.Cp2 (lvl (!σ.flag)), cb.Cp3 (lvl σ.flag), cb.source⟩ f
      = .ok r.1 := by
  obtain ⟨hq, hp1, hp2, ht⟩ := hc
  obtain ⟨σ1, σ2, u, a, b, d⟩ := dfdtCoupled_ok ⟨hp1, hp2⟩ h
  have hne : ¬ (c.fieldsType = "electrostatic" ∧ c.fieldsSolver = "fft") := by rw [ht]; simp
  rw [if_neg hne] at a
  subst a
  have hf : σ2.flag = σ.flag := by
    rcases u with ⟨_, hf, _, m, hm, ⟨hh', _, rfl, he⟩ | ⟨_, he⟩⟩ | ⟨hn, e⟩
    · exact (evolveElectrodynamic_ok he).2.1
    · exact (evolveElectrodynamic_ok he).2.1
    · rw [e]
  intro lvl
  rw [← d]
  simp only [lvl, b, getFields, hfs, ne_eq, not_true_eq_false, if_false, hf]

/-- The three attributes refer to one object. -/
def Aliased (σ : FieldState Q K) : Prop := σ.cc = σ.atN ∧ σ.cc = σ.atHalf

/-- C20: initialisation binds the three attributes to one object. -/
theorem C20_init_aliases (pr : FieldParams Q K) (ini : InitFns Q K) (σ : FieldState Q K) (h : initFields pr ini = .ok σ) :
    Aliased σ ∧ σ.flag = true ∧ σ.timeElapsed = 0 := by
  simp only [initFields, bind, Except.bind, pure, Except.pure] at h
  split at h
  · cases h
  · split at h
    · cases h
    · simp only [Except.ok.injEq] at h; subst h; exact ⟨⟨rfl, rfl⟩, rfl, rfl⟩

theorem aliased_step (c : CoupledConfig S P Q K) (hc : ElectrodynamicFVM c) (poisson) (cb : CoupledCallbacks S P Q K) (hyb : S) (dt : K)
    (g f : Dist S P Q K) (σ : FieldState Q K) (r : Dist S P Q K × FieldState Q K) (h : dfdtCoupled c poisson cb hyb dt g f σ = .ok r)
    (ha : Aliased σ) : Aliased r.2 := by
  obtain ⟨hq, hp1, hp2, ht⟩ := hc
  obtain ⟨σ1, σ2, u, a, b, d⟩ := dfdtCoupled_ok ⟨hp1, hp2⟩ h
  have hne : ¬ (c.fieldsType = "electrostatic" ∧ c.fieldsSolver = "fft") := by rw [ht]; simp
  rw [if_neg hne] at a
  subst a
  have : Aliased σ2 := by
    rcases u with ⟨_, hf, _, m, hm, ⟨hh', _, rfl, he⟩ | ⟨_, he⟩⟩ | ⟨hn, e⟩
    · obtain ⟨_, _, _, e1, e2, e3⟩ := evolveElectrodynamic_ok he
      exact ⟨by rw [e1, e2]; exact ha.1, by rw [e1, e3]; exact ha.2⟩
    · obtain ⟨_, _, _, e1, e2, e3⟩ := evolveElectrodynamic_ok he
      exact ⟨by rw [e1, e2]; exact ha.1, by rw [e1, e3]; exact ha.2⟩
    · rw [e]; exact ha
  rw [b]; exact this

/-- C20 (negative): from initialisation on, after any number of coupled steps, `get_fields` returns the same fields whichever time
level is asked for: the two documented time levels do not exist as separate data. -/
theorem C20_time_levels_coincide (c : CoupledConfig S P Q K) (hc : ElectrodynamicFVM c) (poisson) (hyb : S) (ini : InitFns Q K)
    (σ0 : FieldState Q K) (h0 : initFields c.fieldParams ini = .ok σ0) (f0 : Dist S P Q K)
    (steps : List (K × (Fin 2 → CoupledCallbacks S P Q K))) (st' : Dist S P Q K × FieldState Q K)
    (h : runCoupled c poisson hyb steps (f0, σ0) = .ok st') :
    (getFields "fdtd" "FVM" { st'.2 with flag := true }).1 = (getFields "fdtd" "FVM" { st'.2 with flag := false }).1 := by
  have : Aliased st'.2 := by
    refine runCoupled_invariant (fun x => Aliased x.2) steps ?_ (f0, σ0) st' (C20_init_aliases _ _ _ h0).1 h
    intro stp _ s s' hs hstep
    obtain ⟨r0, r1, h0, h1, rfl⟩ := stepCoupled_ok hstep
    have e1 := aliased_step c hc poisson _ hyb _ _ _ _ _ h0 hs
    have e2 := aliased_step c hc poisson _ hyb _ _ _ _ r1 h1 e1
    exact e2
  simp only [getFields]
  simp [← this.1, ← this.2]

/-- C20 (as coded): while aliased, a field update leaves, at both levels, the *average* of the previously stored electric field and the new
centred one, and the magnetic field of the *new* half level. -/
theorem C20_aliased_update (pr : FieldParams Q K) (J : Currents Q K) (dt : K) (σ σ' : FieldState Q K) (ha : Aliased σ)
    (h : evolveElectrodynamic pr id J dt σ = .ok σ') :
    let new := toCentre pr.q1 pr.q2 .both σ'.yee (σ.heap σ.cc)
    σ'.heap σ'.cc = { EM.avg (σ.heap σ.cc) new with B1 := new.B1, B2 := new.B2, B3 := new.B3 } := by
  obtain ⟨heap, cc, atN, atHalf, yee, flag, te⟩ := σ
  obtain ⟨h1, h2⟩ := ha
  simp only at h1 h2
  subst h1 h2
  simp only [evolveElectrodynamic, storeFields, bind, Except.bind, pure, Except.pure, FieldState.writeE, FieldState.writeB] at h
  split at h
  · cases h
  · simp only [Except.ok.injEq] at h
    subst h
    simp [toCentre, EM.avg]

/-- Counterfactual, not part of the claim C20 (the three attributes are one object in every reachable state): if they were three objects holding what the documentation says — the evolving fields `(E n, B n+1/2)`, and
`B n-1/2` in the half-level array — then one update would leave exactly the documented values at every level. -/
theorem documented_if_not_aliased (pr : FieldParams Q K) (J : Currents Q K) (dt : K) (σ σ' : FieldState Q K)
    (h1 : σ.cc ≠ σ.atN) (h2 : σ.cc ≠ σ.atHalf) (h3 : σ.atN ≠ σ.atHalf) (h : evolveElectrodynamic pr id J dt σ = .ok σ') :
    let old := σ.heap σ.cc
    let new := toCentre pr.q1 pr.q2 .both σ'.yee old
    σ'.heap σ'.cc = new ∧
    σ'.heap σ'.atN = { EM.avg (σ.heap σ.atHalf) old with E1 := old.E1, E2 := old.E2, E3 := old.E3 } ∧
    σ'.heap σ'.atHalf = { EM.avg old new with B1 := old.B1, B2 := old.B2, B3 := old.B3 } := by
  obtain ⟨heap, cc, atN, atHalf, yee, flag, te⟩ := σ
  simp only at h1 h2 h3
  simp only [evolveElectrodynamic, storeFields, bind, Except.bind, pure, Except.pure, FieldState.writeE, FieldState.writeB] at h
  split at h
  · cases h
  · simp only [Except.ok.injEq] at h
    subst h
    simp [toCentre, EM.avg, h1, h2, h3, Ne.symm h1, Ne.symm h2, Ne.symm h3]

/-- C20 (negative), concretely: a uniform current on a uniform field; after one update the electric field handed out for the next
step is not the electric field on the grid. -/
theorem C20_documented_level_false : ∃ (pr : FieldParams (ZMod 3 × ZMod 2) ℚ) (ini : InitFns (ZMod 3 × ZMod 2) ℚ)
    (σ σ' : FieldState (ZMod 3 × ZMod 2) ℚ) (J : Currents (ZMod 3 × ZMod 2) ℚ),
    initFields pr ini = .ok σ ∧ evolveElectrodynamic pr id J 1 σ = .ok σ' ∧
    (getFields "fdtd" "FVM" { σ' with flag := true }).1.E3 (0, 0) ≠ σ'.yee.E3 (0, 0) := by
  obtain ⟨σ', h⟩ := evolveElectrodynamic_exists exPr rfl ⟨fun _ => 0, fun _ => 0, fun _ => 3⟩ 1
    ⟨fun k => if k = 0 then toCentre exPr.q1 exPr.q2 .both (EM.const 0 0 0 0 0 0) (EM.const 0 0 0 0 0 0) else EM.const 0 0 0 0 0 0,
      0, 0, 0, EM.const 0 0 0 0 0 0, true, 0⟩
  refine ⟨exPr, ⟨some (fun _ => 0, fun _ => 0, fun _ => 0), none, some (fun _ => 0, fun _ => 0, fun _ => 0), none, none⟩, _, σ', _,
    rfl, h, ?_⟩
  have hu := C20_aliased_update _ _ _ _ _ ⟨rfl, rfl⟩ h
  obtain ⟨hy, _, _, hcc, hN, hH⟩ := evolveElectrodynamic_ok h
  rw [fdtd_eq exPr rfl, Except.ok.injEq] at hy
  have e3 : σ'.yee.E3 (0, 0) = -1 := by
    rw [← hy]
    simp only [evolveB, addCurlB, curlB3, exPr, EM.const, afShift]
    norm_num
  simp only [getFields, ne_eq, not_true_eq_false, if_false, if_true]
  simp only at hcc hN hH
  rw [hN, ← hcc, hu]
  simp only [toCentre, EM.avg, EM.const]
  simp [e3]

/-! ## A concrete case -/

/-- Two species of opposite charge on a 3 × 2 grid with two momenta. -/
def exCoupled : CoupledConfig (Fin 2) (ZMod 2 × ZMod 1 × ZMod 1) (ZMod 3 × ZMod 2) ℚ where
  solverMethodInQ := "FVM"
  solverMethodInP := "FVM"
  reconstructionInQ := "ppm"
  reconstructionInP := "minmod"
  riemannInQ := "upwind-flux"
  riemannInP := "upwind-flux"
  sourceEnabled := false
  fieldsEnabled := true
  dq1 := 1
  dq2 := 2
  dp1 := fun _ => 1
  dp2 := fun _ => 1
  dp3 := fun _ => 1
  ax := exAxes
  fieldsType := "electrodynamic"
  fieldsSolver := "fdtd"
  charge := fun s => if s = 0 then 1 else -1
  coords := ⟨fun _ p => if p.1 = 0 then -1 else 1, fun _ _ => 1, fun _ _ => 0⟩
  eps := 3
  mu := 5
  hybrid := false
  Te := 0

/-- The nonrelativistic velocities, with a Lorentz-type force that depends on the fields handed out. -/
def exCoupledCb : CoupledCallbacks (Fin 2) (ZMod 2 × ZMod 1 × ZMod 1) (ZMod 3 × ZMod 2) ℚ where
  Cq1 := fun s p _ => exCoupled.coords.p1 s p
  Cq2 := fun s p _ => exCoupled.coords.p2 s p
  Cp1 := fun F s _ q => exCoupled.charge s * F.E1 q
  Cp2 := fun _ _ _ _ => 0
  Cp3 := fun _ _ _ _ => 0
  source := id

/-- The hypotheses of C14 and C19 are met by a two-step run that starts from the initialised fields. -/
example : ∃ σ0 st', initFields exCoupled.fieldParams ⟨some (exEM.E1, exEM.E2, exEM.E3), none, some (exEM.B1, exEM.B2, exEM.B3), none, none⟩
      = .ok σ0 ∧ σ0.flag = true ∧ ElectrodynamicFVM exCoupled ∧ Ballistic exCoupled exCoupledCb ∧
    runCoupled exCoupled (fun _ σ => σ) 0 [(1 / 10, fun _ => exCoupledCb), (1 / 5, fun _ => exCoupledCb)] (fun s p q => exF () p q + s.val, σ0)
      = .ok st' ∧
    ∀ q, gaussDefect exCoupled st'.1 st'.2.yee q = gaussDefect exCoupled (fun s p q => exF () p q + s.val) σ0.yee q := by
  have hc : ElectrodynamicFVM exCoupled := ⟨rfl, rfl, rfl, rfl⟩
  have hb : Ballistic exCoupled exCoupledCb := ⟨fun _ _ _ => rfl, fun _ _ _ => rfl⟩
  obtain ⟨st', h⟩ := C14_run_exists exCoupled hc rfl ⟨.ppm, rfl⟩ ⟨.minmod, rfl⟩ (fun _ σ => σ) 0
    [(1 / 10, fun _ => exCoupledCb), (1 / 5, fun _ => exCoupledCb)]
    (fun s p q => exF () p q + s.val, ⟨fun k => if k = 0 then toCentre exCoupled.fieldParams.q1 exCoupled.fieldParams.q2 .both exEM
      (EM.const 0 0 0 0 0 0) else EM.const 0 0 0 0 0 0, 0, 0, 0, exEM, true, 0⟩)
  refine ⟨_, st', rfl, rfl, hc, hb, h, fun q => ?_⟩
  refine C14_gauss_law_preserved exCoupled hc rfl rfl _ 0 _ ?_ _ st' rfl h q
  intro stp hstp k
  simp only [List.mem_cons, List.not_mem_nil, or_false] at hstp
  rcases hstp with rfl | rfl <;> exact hb

end Bolt
