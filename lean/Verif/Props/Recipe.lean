import Verif.Props.Driver
import Verif.Props.Positivity
import Verif.Props.FDTD
import Verif.Model.Nonrel
import Mathlib.Tactic.Positivity

/-!
# C100: the step size chosen by the example scripts
-/

set_option linter.unusedSectionVars false

namespace Bolt

open Finset

section transport

variable {K S P Q : Type} [Field K] [LinearOrder K] [FloorRing K] [IsStrictOrderedRing K] [AddCommGroup P] [AddCommGroup Q]

/-- What the solver obtains from `C_q` of the nonrelativistic module (the forces are off). -/
def velocityCallbacks (c : PCoords S P K) : Callbacks S P Q K :=
  { Cq1 := fun s p _ => (nonrelCq (c.p1 s p) (c.p2 s p) (c.p3 s p)).1, Cq2 := fun s p _ => (nonrelCq (c.p1 s p) (c.p2 s p) (c.p3 s p)).2,
    Cp1 := fun _ _ _ => 0, Cp2 := fun _ _ _ => 0, Cp3 := fun _ _ _ => 0, source := fun f => f }

/-- First-order transport in position space only. -/
structure FreeTransport (cfg : FVMConfig S K) : Prop where
  methodQ : cfg.solverMethodInQ = "FVM"
  reconQ : cfg.reconstructionInQ = "piecewise-constant"
  reconP : cfg.reconstructionInP = "piecewise-constant"
  noSource : cfg.sourceEnabled = false
  noFields : cfg.fieldsEnabled = false
  spacing : cfg.PositiveSpacing

theorem faceOutflow_const (v d : K) (hd : 0 < d) : faceOutflow v v d = |v| / d := by
  unfold faceOutflow
  congr 1
  rcases le_total 0 v with h | h
  · rw [max_eq_left h, max_eq_right (by linarith), abs_of_nonneg h, add_zero]
  · rw [max_eq_right h, max_eq_left (by linarith), abs_of_nonpos h, zero_add]

theorem recipe_cfl {cfl dq1 dq2 e1 e2 e3 v1 v2 h : K} (h1 : 0 < dq1) (h2 : 0 < dq2) (hc : 0 ≤ cfl) (hc' : cfl ≤ 1 / 2)
    (hp : 0 < max (max e1 e2) e3) (hv1 : |v1| ≤ e1) (hv2 : |v2| ≤ e2) (hh : 0 ≤ h) (hh' : h ≤ recipeDt cfl dq1 dq2 e1 e2 e3) :
    h * (|v1| / dq1 + |v2| / dq2) ≤ 1 := by
  set m := max (max e1 e2) e3 with hm
  have hm0 : 0 < min dq1 dq2 := lt_min h1 h2
  have b1 : |v1| ≤ m := hv1.trans ((le_max_left _ _).trans (le_max_left _ _))
  have b2 : |v2| ≤ m := hv2.trans ((le_max_right _ _).trans (le_max_left _ _))
  have c1 : |v1| / dq1 ≤ m / min dq1 dq2 := div_le_div₀ hp.le b1 hm0 (min_le_left _ _)
  have c2 : |v2| / dq2 ≤ m / min dq1 dq2 := div_le_div₀ hp.le b2 hm0 (min_le_right _ _)
  have hmm : 0 ≤ m / min dq1 dq2 := (div_pos hp hm0).le
  calc h * (|v1| / dq1 + |v2| / dq2) ≤ h * (2 * (m / min dq1 dq2)) := mul_le_mul_of_nonneg_left (by linarith) hh
    _ ≤ recipeDt cfl dq1 dq2 e1 e2 e3 * (2 * (m / min dq1 dq2)) := mul_le_mul_of_nonneg_right hh' (by linarith)
    _ = 2 * cfl := by
      unfold recipeDt
      rw [← hm]
      field_simp
    _ ≤ 1 := by linarith

/-- **C100.** A script of `C99` that chooses its step by the recipe with `N_cfl ≤ 1/2`, transports by the first-order scheme without forces and
collisions, and has a momentum range symmetric about 0: the distribution stays within the bounds of the initial one (so it stays nonnegative), whatever
the output times. -/
theorem C100_script_bounds (ax : Axes P Q) (cfg : FVMConfig S K) (hcfg : FreeTransport cfg) (c : PCoords S P K) (cfl e1 e2 e3 : K) (hc : 0 < cfl)
    (hc' : cfl ≤ 1 / 2) (he : 0 < max (max e1 e2) e3) (h1 : ∀ s p, -e1 ≤ c.p1 s p ∧ c.p1 s p ≤ e1) (h2 : ∀ s p, -e2 ≤ c.p2 s p ∧ c.p2 s p ≤ e2)
    (D : DriverParams K) (hdt : D.dt = recipeDt cfl cfg.dq1 cfg.dq2 e1 e2 e3) (hstart : D.tRestart = 0) (acts : List (Act K)) (t' : K)
    (hrun : DriverScript D (.ok (acts, t'))) (lo hi : K) (f f' : Dist S P Q K) (hf : ∀ s p q, lo ≤ f s p q ∧ f s p q ≤ hi)
    (h : runFVM ax cfg ((stepsOf acts).map fun x => (x, fun _ => velocityCallbacks c)) f = .ok f') : ∀ s p q, lo ≤ f' s p q ∧ f' s p q ≤ hi := by
  have hm0 : 0 < min cfg.dq1 cfg.dq2 := lt_min hcfg.spacing.1 hcfg.spacing.2.1
  have h0 : 0 < D.dt := by
    rw [hdt]
    exact div_pos (mul_pos hc hm0) he
  have hsteps : ∀ x ∈ stepsOf acts, 0 < x ∧ x ≤ D.dt := by
    rcases hrun with ⟨_, e⟩ | ⟨hi, lacts, t'', w, e⟩
    · cases e
    · simp only [Except.ok.injEq, Prod.mk.injEq] at e
      intro x hx
      have hz : D.tRestart = ((0 : ℤ) : K) * D.dtDumpMoments := by rw [hstart]; simp
      rw [hz] at w
      refine (C99_steps_and_labels D _ h0 hi.2.1 0 lacts t'' w).2.1 x ?_
      rw [e.1, stepsOf_append] at hx
      simpa [startActs, hstart, stepsOf] using hx
  have hnp : ¬cfg.advectsP := fun q => by
    have := q.2
    rw [hcfg.noFields] at this
    cases this
  refine C10_maximum_principle ax cfg hcfg.noSource hcfg.reconQ hcfg.reconP hcfg.spacing _ ?_ ?_ lo hi f f' hf h
  · intro st hst
    obtain ⟨x, hx, rfl⟩ := List.mem_map.mp hst
    refine ⟨(hsteps x hx).1.le, ⟨rfl, rfl, rfl, rfl, rfl⟩, fun s p q => ?_⟩
    simp only [outflowRate, hcfg.methodQ, if_true, if_neg hnp, velocityCallbacks, nonrelCq, add_zero]
    rw [faceOutflow_const _ _ hcfg.spacing.1, faceOutflow_const _ _ hcfg.spacing.2.1]
    exact recipe_cfl hcfg.spacing.1 hcfg.spacing.2.1 hc.le hc' he (abs_le.mpr (h1 s p)) (abs_le.mpr (h2 s p)) (hsteps x hx).1.le
      (by rw [← hdt]; exact (hsteps x hx).2)
  · intro st hst s p q
    obtain ⟨x, hx, rfl⟩ := List.mem_map.mp hst
    simp [velocityDivergence, velocityCallbacks, if_neg hnp]

theorem runFVM_single (ax : Axes P Q) (cfg : FVMConfig S K) (hcfg : FreeTransport cfg) (cb : Callbacks S P Q K) (dt : K) (f f' : Dist S P Q K)
    (h : runFVM ax cfg [(dt, fun _ => cb)] f = .ok f') (s : S) (p : P) (q : Q) :
    f' s p q = f s p q + pcSlope ax cfg cb (fun s p q => f s p q + pcSlope ax cfg cb f s p q * (dt / 2)) s p q * dt := by
  obtain ⟨g, k0, k1, a, b, e, d⟩ := runFVM_cons h
  simp only [runFVM, Except.ok.injEq] at d
  subst d
  rw [e, dfdtFVM_pc hcfg.noSource hcfg.reconQ hcfg.reconP b, dfdtFVM_pc hcfg.noSource hcfg.reconQ hcfg.reconP a]

theorem pcSlope_upwind (ax : Axes P Q) (cfg : FVMConfig S K) (hcfg : FreeTransport cfg) (c : PCoords S P K) (f : Dist S P Q K) (s : S) (p : P) (q : Q)
    (h1 : 0 ≤ c.p1 s p) (h2 : 0 ≤ c.p2 s p) :
    pcSlope ax cfg (velocityCallbacks c) f s p q =
      -(c.p1 s p / cfg.dq1 * (f s p q - f s p (q - ax.q1)) + c.p2 s p / cfg.dq2 * (f s p q - f s p (q - ax.q2))) := by
  have hnp : ¬cfg.advectsP := fun q => by
    have := q.2
    rw [hcfg.noFields] at this
    cases this
  simp only [pcSlope, hcfg.methodQ, if_true, if_neg hnp, velocityCallbacks, nonrelCq, pcDiv_eq, max_eq_left h1, max_eq_left h2, min_eq_right h1,
    min_eq_right h2]
  ring

/-- **C100.** The condition is sharp.  If for some velocity with nonnegative components `dt (v1/dq1 + v2/dq2)` exceeds 1, one step turns the
distribution that is 1 in a single position cell and 0 elsewhere negative in the next cell. -/
theorem C100_sharp (ax : Axes P Q) (cfg : FVMConfig S K) (hcfg : FreeTransport cfg) (hq1 : ax.q1 ≠ 0) (hq2 : ax.q2 ≠ 0) (hq12 : ax.q1 ≠ ax.q2)
    (hq122 : ax.q1 ≠ ax.q2 + ax.q2) [DecidableEq Q] (c : PCoords S P K) (s : S) (p : P) (h1 : 0 < c.p1 s p) (h2 : 0 ≤ c.p2 s p) (dt : K)
    (hdt : 0 < dt) (hbig : 1 < dt * (c.p1 s p / cfg.dq1 + c.p2 s p / cfg.dq2)) (q0 : Q) (f' : Dist S P Q K)
    (h : runFVM ax cfg [(dt, fun _ => velocityCallbacks c)] (fun _ _ q => if q = q0 then 1 else 0) = .ok f') : f' s p (q0 + ax.q1) < 0 := by
  have n1 : q0 + ax.q1 ≠ q0 := fun e => hq1 (by simpa using e)
  have n2 : q0 - ax.q1 ≠ q0 := fun e => hq1 (by simpa using e)
  have n3 : q0 - ax.q2 ≠ q0 := fun e => hq2 (by simpa using e)
  have n4 : q0 + ax.q1 - ax.q2 ≠ q0 := fun e => hq12 (by
    have : ax.q1 - ax.q2 = 0 := by
      have := congrArg (fun z => z - q0) e
      simpa [add_sub_assoc] using this
    exact sub_eq_zero.mp this)
  have n5 : q0 + ax.q1 - ax.q2 - ax.q2 ≠ q0 := fun e => hq122 (by
    have e2 : q0 + ax.q1 - ax.q2 - ax.q2 - q0 = 0 := by rw [e, sub_self]
    have e3 : q0 + ax.q1 - ax.q2 - ax.q2 - q0 = ax.q1 - (ax.q2 + ax.q2) := by abel
    rw [e3] at e2
    exact sub_eq_zero.mp e2)
  have n6 : q0 + ax.q1 - ax.q2 - ax.q1 ≠ q0 := fun e => hq2 (by
    have e2 : q0 + ax.q1 - ax.q2 - ax.q1 - q0 = 0 := by rw [e, sub_self]
    have e3 : q0 + ax.q1 - ax.q2 - ax.q1 - q0 = -ax.q2 := by abel
    rw [e3] at e2
    exact neg_eq_zero.mp e2)
  rw [runFVM_single ax cfg hcfg _ dt _ _ h, pcSlope_upwind ax cfg hcfg c _ s p _ h1.le h2]
  simp only [pcSlope_upwind ax cfg hcfg c _ s p _ h1.le h2, add_sub_cancel_right, if_neg n1, if_neg n2, if_neg n3, if_neg n4, if_neg n5, if_neg n6,
    if_true]
  set r1 := c.p1 s p / cfg.dq1 with hr1
  set r2 := c.p2 s p / cfg.dq2 with hr2
  have hr10 : 0 < r1 := div_pos h1 hcfg.spacing.1
  have e : (0 : K) + -(r1 * (0 + -(r1 * (0 - 1) + r2 * (0 - 0)) * (dt / 2) - (1 + -(r1 * (1 - 0) + r2 * (1 - 0)) * (dt / 2))) +
      r2 * (0 + -(r1 * (0 - 1) + r2 * (0 - 0)) * (dt / 2) - (0 + -(r1 * (0 - 0) + r2 * (0 - 0)) * (dt / 2)))) * dt
      = dt * r1 * (1 - dt * (r1 + r2)) := by ring
  rw [e]
  exact mul_neg_of_pos_of_neg (mul_pos hdt hr10) (by linarith)

/-- **C100, as the code is.** On square cells, with momentum cells whose centre has both components `w`, the recipe breaks the condition as soon as
`2 N_cfl w` exceeds the largest momentum: then a nonnegative distribution becomes negative in one step. -/
theorem C100_recipe_too_large (ax : Axes P Q) (cfg : FVMConfig S K) (hcfg : FreeTransport cfg) (hsq : cfg.dq1 = cfg.dq2) (hq1 : ax.q1 ≠ 0)
    (hq2 : ax.q2 ≠ 0) (hq12 : ax.q1 ≠ ax.q2) (hq122 : ax.q1 ≠ ax.q2 + ax.q2) [DecidableEq Q] (c : PCoords S P K) (s : S) (p : P) (w : K) (hw : 0 < w)
    (h1 : c.p1 s p = w) (h2 : c.p2 s p = w) (cfl e1 e2 e3 : K) (he : 0 < max (max e1 e2) e3) (hbig : max (max e1 e2) e3 < 2 * cfl * w) (q0 : Q)
    (f' : Dist S P Q K)
    (h : runFVM ax cfg [(recipeDt cfl cfg.dq1 cfg.dq2 e1 e2 e3, fun _ => velocityCallbacks c)] (fun _ _ q => if q = q0 then 1 else 0) = .ok f') :
    f' s p (q0 + ax.q1) < 0 := by
  have hd := hcfg.spacing.1
  have hcfl : 0 < cfl := by
    by_contra q
    have : 2 * cfl * w ≤ 0 := mul_nonpos_of_nonpos_of_nonneg (by linarith [not_lt.mp q]) hw.le
    linarith
  have hval : recipeDt cfl cfg.dq1 cfg.dq2 e1 e2 e3 * (c.p1 s p / cfg.dq1 + c.p2 s p / cfg.dq2) = 2 * cfl * w / max (max e1 e2) e3 := by
    unfold recipeDt
    rw [h1, h2, ← hsq, min_self]
    field_simp
    ring
  refine C100_sharp ax cfg hcfg hq1 hq2 hq12 hq122 c s p (by rw [h1]; exact hw) (by rw [h2]; exact hw.le) _ ?_ ?_ q0 f' h
  · unfold recipeDt
    exact div_pos (mul_pos hcfl (lt_min hcfg.spacing.1 hcfg.spacing.2.1)) he
  · rw [hval, lt_div_iff₀ he, one_mul]
    exact hbig

/-! ### Data that vary along one direction -/

theorem dfdtFVM_free (ax : Axes P Q) (cfg : FVMConfig S K) (hcfg : FreeTransport cfg) (cb : Callbacks S P Q K) (f : Dist S P Q K) :
    dfdtFVM ax cfg cb f = .ok (pcSlope ax cfg cb f) := by
  have : ∃ k, dfdtFVM ax cfg cb f = .ok k := by
    unfold dfdtFVM
    simp only [hcfg.methodQ, hcfg.reconQ, hcfg.noSource, hcfg.noFields, reconMethod, if_true, Bool.false_eq_true, if_false, and_false, bind, Except.bind,
      pure, Except.pure]
    exact ⟨_, rfl⟩
  obtain ⟨k, hk⟩ := this
  rw [hk, dfdtFVM_pc hcfg.noSource hcfg.reconQ hcfg.reconP hk]

theorem runFVM_free_cons (ax : Axes P Q) (cfg : FVMConfig S K) (hcfg : FreeTransport cfg) (cb : Callbacks S P Q K) (dt : K)
    (rest : List (K × (Fin 2 → Callbacks S P Q K))) (f : Dist S P Q K) :
    runFVM ax cfg ((dt, fun _ => cb) :: rest) f = runFVM ax cfg rest
      (fun s p q => f s p q + pcSlope ax cfg cb (fun s p q => f s p q + pcSlope ax cfg cb f s p q * (dt / 2)) s p q * dt) := by
  simp only [runFVM, timestepFVM, dfdtFVM_free ax cfg hcfg, bind, Except.bind, pure, Except.pure]

/-- **C100.** Problems that vary along `q1` only may use `N_cfl` up to 1: the second velocity does not matter for them. -/
theorem C100_one_dimensional (ax : Axes P Q) (cfg : FVMConfig S K) (hcfg : FreeTransport cfg) (c : PCoords S P K) (cfl e1 e2 e3 : K) (hc : 0 < cfl)
    (hc' : cfl ≤ 1) (he : 0 < max (max e1 e2) e3) (h1 : ∀ s p, -e1 ≤ c.p1 s p ∧ c.p1 s p ≤ e1) (hs : List K)
    (hhs : ∀ x ∈ hs, 0 ≤ x ∧ x ≤ recipeDt cfl cfg.dq1 cfg.dq2 e1 e2 e3) (lo hi : K) (f f' : Dist S P Q K)
    (hf : ∀ s p q, lo ≤ f s p q ∧ f s p q ≤ hi) (hinv : ∀ s p q, f s p (q + ax.q2) = f s p q)
    (h : runFVM ax cfg (hs.map fun x => (x, fun _ => velocityCallbacks c)) f = .ok f') : ∀ s p q, lo ≤ f' s p q ∧ f' s p q ≤ hi := by
  have hnp : ¬cfg.advectsP := fun q => by
    have := q.2
    rw [hcfg.noFields] at this
    cases this
  set c0 : PCoords S P K := { c with p2 := fun _ _ => 0 } with hc0
  -- on such data the slope is that of the run without the second velocity
  have slope : ∀ g : Dist S P Q K, (∀ s p q, g s p (q + ax.q2) = g s p q) →
      pcSlope ax cfg (velocityCallbacks c) g = pcSlope ax cfg (velocityCallbacks c0) g := by
    intro g hg
    have hg' : ∀ s p q, g s p (q - ax.q2) = g s p q := fun s p q => by rw [← hg s p (q - ax.q2), sub_add_cancel]
    funext s p q
    simp only [pcSlope, hcfg.methodQ, if_true, if_neg hnp, velocityCallbacks, nonrelCq, pcDiv_eq, hg, hg', hc0]
    simp
  have slopeInv : ∀ g : Dist S P Q K, (∀ s p q, g s p (q + ax.q2) = g s p q) → ∀ s p q,
      pcSlope ax cfg (velocityCallbacks c) g s p (q + ax.q2) = pcSlope ax cfg (velocityCallbacks c) g s p q := by
    intro g hg s p q
    have a1 : q + ax.q2 + ax.q1 = q + ax.q1 + ax.q2 := by abel
    have a2 : q + ax.q2 - ax.q1 = q - ax.q1 + ax.q2 := by abel
    have a3 : q + ax.q2 - ax.q2 = q - ax.q2 + ax.q2 := by abel
    simp only [pcSlope, hcfg.methodQ, if_true, if_neg hnp, velocityCallbacks, nonrelCq, pcDiv_eq, a1, a2, a3, hg]
  have same : ∀ (l : List K) (g : Dist S P Q K), (∀ s p q, g s p (q + ax.q2) = g s p q) →
      runFVM ax cfg (l.map fun x => (x, fun _ => velocityCallbacks c)) g = runFVM ax cfg (l.map fun x => (x, fun _ => velocityCallbacks c0)) g := by
    intro l
    induction l with
    | nil => exact fun g _ => rfl
    | cons x r ih =>
      intro g hg
      have hg1 : ∀ s p q, (fun s p q => g s p q + pcSlope ax cfg (velocityCallbacks c) g s p q * (x / 2)) s p (q + ax.q2) =
          (fun s p q => g s p q + pcSlope ax cfg (velocityCallbacks c) g s p q * (x / 2)) s p q := fun s p q => by
        simp only [hg, slopeInv g hg]
      simp only [List.map_cons, runFVM_free_cons ax cfg hcfg]
      rw [← slope g hg, ← slope _ hg1]
      refine ih _ fun s p q => ?_
      have e2 := slopeInv (fun s p q => g s p q + pcSlope ax cfg (velocityCallbacks c) g s p q * (x / 2)) hg1 s p q
      simp only [hg, e2]
  rw [same hs f hinv] at h
  refine C10_maximum_principle ax cfg hcfg.noSource hcfg.reconQ hcfg.reconP hcfg.spacing _ ?_ ?_ lo hi f f' hf h
  · intro st hst
    obtain ⟨x, hx, rfl⟩ := List.mem_map.mp hst
    refine ⟨(hhs x hx).1, ⟨rfl, rfl, rfl, rfl, rfl⟩, fun s p q => ?_⟩
    simp only [outflowRate, hcfg.methodQ, if_true, if_neg hnp, velocityCallbacks, nonrelCq, add_zero, hc0]
    rw [faceOutflow_const _ _ hcfg.spacing.1, faceOutflow_const _ _ hcfg.spacing.2.1, abs_zero, zero_div, add_zero]
    have hm0 : 0 < min cfg.dq1 cfg.dq2 := lt_min hcfg.spacing.1 hcfg.spacing.2.1
    have b1 : |c.p1 s p| ≤ max (max e1 e2) e3 := (abs_le.mpr (h1 s p)).trans ((le_max_left _ _).trans (le_max_left _ _))
    have c1 : |c.p1 s p| / cfg.dq1 ≤ max (max e1 e2) e3 / min cfg.dq1 cfg.dq2 := div_le_div₀ he.le b1 hm0 (min_le_left _ _)
    calc x * (|c.p1 s p| / cfg.dq1) ≤ x * (max (max e1 e2) e3 / min cfg.dq1 cfg.dq2) := mul_le_mul_of_nonneg_left c1 (hhs x hx).1
      _ ≤ recipeDt cfl cfg.dq1 cfg.dq2 e1 e2 e3 * (max (max e1 e2) e3 / min cfg.dq1 cfg.dq2) :=
        mul_le_mul_of_nonneg_right (hhs x hx).2 (div_pos he hm0).le
      _ = cfl := by
        unfold recipeDt
        field_simp
      _ ≤ 1 := hc'
  · intro st hst s p q
    obtain ⟨x, hx, rfl⟩ := List.mem_map.mp hst
    simp [velocityDivergence, velocityCallbacks, if_neg hnp]

end transport

/-! ### Fields -/

section fields

variable {K Q : Type} [Field K] [LinearOrder K] [IsStrictOrderedRing K] [AddCommGroup Q] [Fintype Q]

/-- **C100.** The recipe for the fields with `N_cfl² < 1/2` meets the Courant condition: the vacuum fields stay bounded for ever. -/
theorem C100_fields_stable (pr : FieldParams Q K) (hh : pr.hybrid = false) (he : 0 < pr.eps) (hm : 0 < pr.mu) (h1 : 0 < pr.dq1) (h2 : 0 < pr.dq2)
    (c : K) (hc : 0 < c) (hlight : c ^ 2 * (pr.eps * pr.mu) = 1) (cfl : K) (hcfl : 2 * cfl ^ 2 < 1) (F : EM Q K) :
    ∃ M : K, ∀ n F', runFDTD pr (vacuumSteps n (recipeDtFields cfl pr.dq1 pr.dq2 c)) F = .ok F' → normE2 F' + normB2 F' ≤ M := by
  refine C54_fdtd_stable pr hh he hm _ ?_ F
  have hm0 : 0 < min pr.dq1 pr.dq2 := lt_min h1 h2
  have hem : pr.eps * pr.mu = 1 / c ^ 2 := by
    field_simp
    linarith
  have b1 : (min pr.dq1 pr.dq2) ^ 2 * (1 / pr.dq1 ^ 2) ≤ 1 := by
    rw [mul_one_div, div_le_one (by positivity)]
    exact pow_le_pow_left₀ hm0.le (min_le_left _ _) 2
  have b2 : (min pr.dq1 pr.dq2) ^ 2 * (1 / pr.dq2 ^ 2) ≤ 1 := by
    rw [mul_one_div, div_le_one (by positivity)]
    exact pow_le_pow_left₀ hm0.le (min_le_right _ _) 2
  unfold recipeDtFields
  rw [hem]
  have e : (cfl * min pr.dq1 pr.dq2 / c) ^ 2 * (1 / pr.dq1 ^ 2 + 1 / pr.dq2 ^ 2) =
      cfl ^ 2 / c ^ 2 * ((min pr.dq1 pr.dq2) ^ 2 * (1 / pr.dq1 ^ 2) + (min pr.dq1 pr.dq2) ^ 2 * (1 / pr.dq2 ^ 2)) := by
    field_simp
  rw [e]
  calc cfl ^ 2 / c ^ 2 * ((min pr.dq1 pr.dq2) ^ 2 * (1 / pr.dq1 ^ 2) + (min pr.dq1 pr.dq2) ^ 2 * (1 / pr.dq2 ^ 2))
      ≤ cfl ^ 2 / c ^ 2 * 2 := mul_le_mul_of_nonneg_left (by linarith) (by positivity)
    _ = (2 * cfl ^ 2) / c ^ 2 := by ring
    _ < 1 / c ^ 2 := by
      apply div_lt_div_of_pos_right hcfl
      positivity

/-- A field that changes sign from each cell to the next (it exists on grids with even numbers of cells). -/
def Checkerboard (pr : FieldParams Q K) (χ : Q → K) : Prop := (∀ i, χ (i + pr.q1) = -χ i) ∧ (∀ i, χ (i + pr.q2) = -χ i) ∧ ∃ i, χ i ≠ 0

/-- The fields of the checkerboard mode. -/
def checkerFields (χ : Q → K) (a b1 b2 : K) : EM Q K :=
  ⟨fun _ => 0, fun _ => 0, fun i => a * χ i, fun i => b1 * χ i, fun i => b2 * χ i, fun _ => 0⟩

theorem vac_checker (pr : FieldParams Q K) {χ : Q → K} (hχ : Checkerboard pr χ) (dt a b1 b2 : K) :
    vac pr dt (checkerFields χ a b1 b2) =
      checkerFields χ (a + dt / (pr.mu * pr.eps) * (2 * b1 / pr.dq2 - 2 * b2 / pr.dq1))
        (b1 - dt * (2 * (a + dt / (pr.mu * pr.eps) * (2 * b1 / pr.dq2 - 2 * b2 / pr.dq1)) / pr.dq2))
        (b2 + dt * (2 * (a + dt / (pr.mu * pr.eps) * (2 * b1 / pr.dq2 - 2 * b2 / pr.dq1)) / pr.dq1)) := by
  obtain ⟨x1, x2, _⟩ := hχ
  have y1 : ∀ i, χ (i - pr.q1) = -χ i := fun i => by rw [← neg_neg (χ (i - pr.q1)), ← x1, sub_add_cancel]
  have y2 : ∀ i, χ (i - pr.q2) = -χ i := fun i => by rw [← neg_neg (χ (i - pr.q2)), ← x2, sub_add_cancel]
  ext i <;> simp [vac, evolveB, addCurlB, curlB1, curlB2, curlB3, curlE1, curlE2, curlE3, checkerFields, afShift, x1, x2, y1, y2, Currents.zero] <;> ring

/-- **C100.** The Courant condition of C54 is sharp: beyond it the vacuum fields grow without bound from the checkerboard field. -/
theorem C100_fields_unstable [Archimedean K] (pr : FieldParams Q K) (hh : pr.hybrid = false) (he : 0 < pr.eps) (hm : 0 < pr.mu) (χ : Q → K)
    (hχ : Checkerboard pr χ) (dt : K) (hbig : pr.eps * pr.mu < dt ^ 2 * (1 / pr.dq1 ^ 2 + 1 / pr.dq2 ^ 2)) (M : K) :
    ∃ n F', runFDTD pr (vacuumSteps n dt) (checkerFields χ 1 0 0) = .ok F' ∧ M < normE2 F' := by
  have hem : 0 < pr.mu * pr.eps := mul_pos hm he
  set σ := dt ^ 2 * (1 / pr.dq1 ^ 2 + 1 / pr.dq2 ^ 2) / (pr.mu * pr.eps) with hσ
  have hσ1 : 1 < σ := by
    rw [hσ, lt_div_iff₀ hem]
    linarith
  set W : K → K → K := fun b1 b2 => dt / (pr.mu * pr.eps) * (2 * b1 / pr.dq2 - 2 * b2 / pr.dq1) with hW
  -- the recurrence
  have grow : ∀ n, ∃ a b1 b2 x y τ : K, (vac pr dt)^[n + 1] (checkerFields χ 1 0 0) = checkerFields χ a b1 b2 ∧ (τ = 1 ∨ τ = -1) ∧ a = τ * x ∧
      W b1 b2 = -τ * y ∧ (4 * σ - 3) ^ n ≤ x ∧ (4 * σ - 2) * x ≤ y := by
    have step : ∀ a b1 b2 : K, ∃ b1' b2', vac pr dt (checkerFields χ a b1 b2) = checkerFields χ (a + W b1 b2) b1' b2' ∧
        W b1' b2' = W b1 b2 - 4 * σ * (a + W b1 b2) := by
      intro a b1 b2
      refine ⟨_, _, vac_checker pr hχ dt a b1 b2, ?_⟩
      simp only [hW, hσ]
      ring
    intro n
    induction n with
    | zero =>
      obtain ⟨b1, b2, e, w⟩ := step 1 0 0
      have w0 : W 0 0 = 0 := by simp [hW]
      rw [w0, add_zero] at e w
      refine ⟨1, b1, b2, 1, 4 * σ, 1, by simpa using e, Or.inl rfl, by ring, by rw [w]; ring, by simp, by linarith⟩
    | succ n ih =>
      obtain ⟨a, b1, b2, x, y, τ, e, hτ, ha, hw, hx, hy⟩ := ih
      obtain ⟨b1', b2', e', w'⟩ := step a b1 b2
      have hx0 : 0 < x := lt_of_lt_of_le (pow_pos (by linarith) n) hx
      have hx' : (4 * σ - 3) * x ≤ y - x := by linarith
      refine ⟨a + W b1 b2, b1', b2', y - x, 4 * σ * (y - x) - y, -τ, ?_, ?_, ?_, ?_, ?_, ?_⟩
      · rw [Function.iterate_succ_apply', e, e']
      · rcases hτ with h | h <;> rw [h] <;> simp
      · rw [ha, hw]; ring
      · rw [w', ha, hw]; ring
      · rw [pow_succ]
        calc (4 * σ - 3) ^ n * (4 * σ - 3) ≤ x * (4 * σ - 3) := mul_le_mul_of_nonneg_right hx (by linarith)
          _ ≤ y - x := by linarith
      · have : x ≤ (4 * σ - 3) * x := le_mul_of_one_le_left hx0.le (by linarith)
        linarith
  obtain ⟨i0, hi0⟩ := hχ.2.2
  obtain ⟨n, hn⟩ := pow_unbounded_of_one_lt (max (M / χ i0 ^ 2) 1) (show 1 < 4 * σ - 3 by linarith)
  obtain ⟨a, b1, b2, x, y, τ, e, hτ, ha, _, hx, _⟩ := grow n
  refine ⟨n + 1, _, run_vacuum pr hh (n + 1) dt _, ?_⟩
  rw [e]
  have hxx : max (M / χ i0 ^ 2) 1 < x := hn.trans_le hx
  have hx1 : 1 < x := lt_of_le_of_lt (le_max_right _ _) hxx
  have hsq : 0 < χ i0 ^ 2 := by positivity
  have hM : M < x * χ i0 ^ 2 := by
    have := lt_of_le_of_lt (le_max_left _ _) hxx
    rwa [div_lt_iff₀ hsq] at this
  have ha2 : a ^ 2 = x ^ 2 := by
    rcases hτ with h | h <;> rw [ha, h] <;> ring
  have hle : x * χ i0 ^ 2 ≤ (a * χ i0) ^ 2 := by
    rw [mul_pow, ha2]
    refine mul_le_mul_of_nonneg_right ?_ hsq.le
    nlinarith
  have hsum : (a * χ i0) ^ 2 ≤ normE2 (checkerFields χ a b1 b2) := by
    unfold normE2
    have : (a * χ i0) ^ 2 = (checkerFields χ a b1 b2).E1 i0 ^ 2 + (checkerFields χ a b1 b2).E2 i0 ^ 2 + (checkerFields χ a b1 b2).E3 i0 ^ 2 := by
      simp [checkerFields]
    rw [this]
    exact single_le_sum (f := fun i => (checkerFields χ a b1 b2).E1 i ^ 2 + (checkerFields χ a b1 b2).E2 i ^ 2 + (checkerFields χ a b1 b2).E3 i ^ 2)
      (fun i _ => by positivity) (mem_univ i0)
  linarith

end fields

/-! ### Concrete cases -/

/-- A 4 × 4 periodic grid with unit cells, one momentum cell with velocity (19/20, 19/20). -/
def recipeAxes : Axes (ZMod 1) (ZMod 4 × ZMod 4) := { p1 := 0, p2 := 0, p3 := 0, q1 := (1, 0), q2 := (0, 1) }

def recipeCfg : FVMConfig (Fin 1) ℚ :=
  ⟨"FVM", "FVM", "piecewise-constant", "piecewise-constant", "upwind-flux", "upwind-flux", false, false, 1, 1, fun _ => 1, fun _ => 1, fun _ => 1⟩

def recipeCoords : PCoords (Fin 1) (ZMod 1) ℚ := ⟨fun _ _ => 19 / 20, fun _ _ => 19 / 20, fun _ _ => 0⟩

theorem recipeCfg_free : FreeTransport recipeCfg :=
  ⟨rfl, rfl, rfl, rfl, rfl, by norm_num [FVMConfig.PositiveSpacing, recipeCfg]⟩

/-- With `N_cfl = 9/10` a nonnegative distribution becomes negative in one step; with 3/10 the script of `C99` keeps it between 0 and 1. -/
example : (∃ f', runFVM recipeAxes recipeCfg [(recipeDt (9 / 10) 1 1 1 1 1, fun _ => velocityCallbacks recipeCoords)]
      (fun _ _ q => if q = (0, 0) then 1 else 0) = .ok f' ∧ f' 0 0 (1, 0) < 0) ∧
    ∀ acts t', DriverScript driverSample (.ok (acts, t')) → ∃ f',
      runFVM recipeAxes recipeCfg ((stepsOf acts).map fun x => (x, fun _ => velocityCallbacks recipeCoords))
        (fun _ _ q => if q = (0, 0) then 1 else 0) = .ok f' ∧ ∀ s p q, 0 ≤ f' s p q ∧ f' s p q ≤ 1 := by
  constructor
  · refine ⟨_, runFVM_free_cons recipeAxes recipeCfg recipeCfg_free _ _ _ _, ?_⟩
    have := C100_recipe_too_large recipeAxes recipeCfg recipeCfg_free rfl (by decide) (by decide) (by decide) (by decide) recipeCoords 0 0 (19 / 20)
      (by norm_num) rfl rfl (9 / 10) 1 1 1 (by norm_num) (by norm_num) (0, 0) _ (runFVM_free_cons recipeAxes recipeCfg recipeCfg_free _ _ _ _)
    have e : ((0, 0) : ZMod 4 × ZMod 4) + recipeAxes.q1 = (1, 0) := by decide
    rw [e] at this
    exact this
  · intro acts t' h
    have total : ∀ (l : List ℚ) (g : Dist (Fin 1) (ZMod 1) (ZMod 4 × ZMod 4) ℚ),
        ∃ f', runFVM recipeAxes recipeCfg (l.map fun x => (x, fun _ => velocityCallbacks recipeCoords)) g = .ok f' := by
      intro l
      induction l with
      | nil => exact fun g => ⟨g, rfl⟩
      | cons x r ih =>
        intro g
        rw [List.map_cons, runFVM_free_cons recipeAxes recipeCfg recipeCfg_free]
        exact ih _
    obtain ⟨f', hf'⟩ := total (stepsOf acts) (fun _ _ q => if q = (0, 0) then 1 else 0)
    refine ⟨f', hf', ?_⟩
    refine C100_script_bounds recipeAxes recipeCfg recipeCfg_free recipeCoords (3 / 10) 1 1 1 (by norm_num) (by norm_num) (by norm_num)
      (fun _ _ => by norm_num [recipeCoords]) (fun _ _ => by norm_num [recipeCoords]) driverSample
      (by norm_num [driverSample, recipeDt, recipeCfg]) rfl acts t' h 0 1 _ f' ?_ hf'
    intro s p q
    split_ifs <;> norm_num

/-- The same step does no harm to data that vary along `q1` only. -/
example (f' : Dist (Fin 1) (ZMod 1) (ZMod 4 × ZMod 4) ℚ)
    (h : runFVM recipeAxes recipeCfg ([recipeDt (9 / 10) 1 1 1 1 1].map fun x => (x, fun _ => velocityCallbacks recipeCoords))
      (fun _ _ q => if q.1 = 0 then 1 else 0) = .ok f') : ∀ s p q, 0 ≤ f' s p q ∧ f' s p q ≤ 1 := by
  refine C100_one_dimensional recipeAxes recipeCfg recipeCfg_free recipeCoords (9 / 10) 1 1 1 (by norm_num) (by norm_num) (by norm_num)
    (fun _ _ => by norm_num [recipeCoords]) _ (fun x hx => ?_) 0 1 _ f' (fun s p q => by split_ifs <;> norm_num) (fun s p q => by simp [recipeAxes]) h
  rw [List.mem_singleton.mp hx]
  norm_num [recipeDt, recipeCfg]

/-- The fields recipe with `N_cfl = 7/10` on unit cells. -/
example (F : EM (ZMod 2 × ZMod 2) ℚ) : ∃ M : ℚ, ∀ n F',
    runFDTD (⟨((1, 0) : ZMod 2 × ZMod 2), (0, 1), 1, 1, 1, 1, false⟩ : FieldParams (ZMod 2 × ZMod 2) ℚ)
      (vacuumSteps n (recipeDtFields (7 / 10) 1 1 1)) F = .ok F' → normE2 F' + normB2 F' ≤ M :=
  C100_fields_stable (⟨((1, 0) : ZMod 2 × ZMod 2), (0, 1), 1, 1, 1, 1, false⟩ : FieldParams (ZMod 2 × ZMod 2) ℚ) rfl (by norm_num) (by norm_num)
    (by norm_num) (by norm_num) 1 (by norm_num) (by norm_num) (7 / 10) (by norm_num) F

/-- A checkerboard on a 2 × 2 grid, and a step beyond the Courant limit. -/
example (M : ℚ) : ∃ n F', runFDTD (⟨((1, 0) : ZMod 2 × ZMod 2), (0, 1), 1, 1, 1, 1, false⟩ : FieldParams (ZMod 2 × ZMod 2) ℚ)
    (vacuumSteps n (95 / 100)) (checkerFields (fun i => if i.1 = i.2 then 1 else -1) 1 0 0) = .ok F' ∧ M < normE2 F' := by
  refine C100_fields_unstable _ rfl (by norm_num) (by norm_num) _ ⟨?_, ?_, (0, 0), by norm_num⟩ _ (by norm_num) M
  · intro i
    have : ∀ a b : ZMod 2, a + 1 = b ↔ ¬a = b := by decide
    simp only [Prod.fst_add, Prod.snd_add, add_zero, this]
    split_ifs <;> simp
  · intro i
    have : ∀ a b : ZMod 2, a = b + 1 ↔ ¬a = b := by decide
    simp only [Prod.fst_add, Prod.snd_add, add_zero, this]
    split_ifs <;> simp

end Bolt
