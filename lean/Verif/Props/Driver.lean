import Verif.Proofs.Driver
import Mathlib.Tactic.NormNum
import Mathlib.Algebra.Order.Round

/-!
# C99: output times, file names and restarts of the example scripts
-/

set_option linter.unusedSectionVars false

namespace Bolt

variable {K : Type} [Field K] [LinearOrder K] [FloorRing K] [IsStrictOrderedRing K]

/-- The parameters of the examples below: steps of 0.3, moments every 1, distribution every 2, until 4. -/
def driverSample : DriverParams ℚ :=
  { dt := 3 / 10, dtDumpF := 2, dtDumpMoments := 1, dtDumpFields := 1, tFinal := 4, tRestart := 0, tol := 1 / 10 ^ 12 }

/-- **C99.** If an interval is too short the script stops with an assertion.  Otherwise, started at 0 or at a multiple of the interval for moments, it
ends, in one way only, and the clock then shows the final time or less than two steps more. -/
theorem C99_script_ends (P : DriverParams K) (h0 : 0 < P.dt) (k : ℤ) (hk : P.tRestart = k * P.dtDumpMoments) (hT : P.tRestart ≤ P.tFinal) :
    ∃ out, DriverScript P out ∧ (∀ out', DriverScript P out' → out' = out) ∧
      ((∃ acts t', out = .ok (acts, t') ∧ P.tFinal ≤ t' ∧ t' < P.tFinal + 2 * P.dt) ↔
        P.dt < P.dtDumpF ∧ P.dt < P.dtDumpMoments ∧ P.dt < P.dtDumpFields) := by
  by_cases hi : intervalsOk P
  · have hD := hi.2.1
    have hr : DriverReady P P.tRestart := by rw [hk]; exact ready_mul h0 hD k
    obtain ⟨acts, t', w⟩ := while_terminates (cond := fun t => t < P.tFinal) (body := loopBody P) h0 (fun t => P.tFinal - t) (DriverReady P)
      (fun t _ hc => by linarith) (fun t hg hc => ⟨(passFacts h0 hD hg).ready, by linarith [(passFacts h0 hD hg).ge]⟩) P.tRestart hr
    refine ⟨_, Or.inr ⟨hi, acts, t', w, rfl⟩, ?_, ?_⟩
    · rintro out' (⟨q, _⟩ | ⟨_, acts', t'', w', e⟩)
      · exact absurd hi q
      · obtain ⟨e1, e2⟩ := while_unique w' w
        rw [e, e1, e2]
    · refine ⟨fun _ => hi, fun _ => ⟨_, _, rfl, while_end_lt w, ?_⟩⟩
      clear hk
      generalize P.tRestart = t0 at w hr hT
      induction w with
      | done _ => linarith
      | iter hc hrest ih =>
        rename_i s acts' s'
        have pf := passFacts h0 hD hr
        by_cases hh : (loopBody P s).2 ≤ P.tFinal
        · exact ih pf.ready hh
        · cases hrest with
          | done _ => linarith [pf.lt]
          | iter hc' _ => exact absurd hc'.le hh
  · refine ⟨_, Or.inl ⟨hi, rfl⟩, ?_, ?_⟩
    · rintro out' (⟨_, e⟩ | ⟨q, _⟩)
      · exact e
      · exact absurd q hi
    · refine ⟨?_, fun q => absurd q hi⟩
      rintro ⟨acts, t', e, _⟩
      cases e

example : ∃ out, DriverScript driverSample out ∧ ∃ acts t', out = .ok (acts, t') ∧ 4 ≤ t' ∧ t' < 4 + 2 * (3 / 10) := by
  obtain ⟨out, a, _, b⟩ := C99_script_ends driverSample (by norm_num [driverSample]) 0 (by norm_num [driverSample]) (by norm_num [driverSample])
  exact ⟨out, a, b.mpr (by norm_num [driverSample])⟩

/-- **C99.** No step is longer than the chosen one, the steps add up to the time simulated, and the time in the name of every file is the
simulated time at which it is written. -/
theorem C99_steps_and_labels (P : DriverParams K) (cond : K → Prop) (h0 : 0 < P.dt) (hD : P.dt < P.dtDumpMoments) (k : ℤ) (acts : List (Act K))
    (t' : K) (h : ScriptLoop cond (loopBody P) (k * P.dtDumpMoments) acts t') :
    t' = clockAfter (k * P.dtDumpMoments) acts ∧ (∀ x ∈ stepsOf acts, 0 < x ∧ x ≤ P.dt) ∧
      ∀ a x b u, acts = a ++ x :: b → x.label = some u → u = clockAfter (k * P.dtDumpMoments) a := by
  have hr : DriverReady P (k * P.dtDumpMoments) := ready_mul h0 hD k
  obtain ⟨a, b, _⟩ := loop_facts h0 hD hr h
  refine ⟨a, b, ?_⟩
  intro a x b u e hx
  have := loop_labelled h0 hD hr h
  rw [e] at this
  exact labelled_split this hx

/-- **C99.** Moments and fields are written together, only at multiples of the interval, and the clock shows every multiple it passes. -/
theorem C99_multiples (P : DriverParams K) (cond : K → Prop) (h0 : 0 < P.dt) (hD : P.dt < P.dtDumpMoments) (k : ℤ) (acts : List (Act K))
    (t' : K) (h : ScriptLoop cond (loopBody P) (k * P.dtDumpMoments) acts t') :
    (∀ u, .dumpMoments u ∈ acts → ∃ m : ℤ, u = m * P.dtDumpMoments ∧ k < m ∧ u ≤ t') ∧
      (∀ u, .dumpFields u ∈ acts ↔ .dumpMoments u ∈ acts) ∧
      ∀ m : ℤ, k < m → m * P.dtDumpMoments ≤ t' → ∃ a b, acts = a ++ b ∧ clockAfter (k * P.dtDumpMoments) a = m * P.dtDumpMoments := by
  have hDp : 0 < P.dtDumpMoments := h0.trans hD
  have hr : DriverReady P (k * P.dtDumpMoments) := ready_mul h0 hD k
  refine ⟨fun u hu => ?_, fun u => (loop_dump_times h0 hD hr h u).2.1, fun m hm hm' => ?_⟩
  · obtain ⟨m, e⟩ := (loop_dump_times h0 hD hr h u).1 hu
    obtain ⟨a, b⟩ := loop_labels_after h0 hD hr h (Or.inr (Or.inr hu))
    rw [e] at a
    exact ⟨m, e, by exact_mod_cast lt_of_mul_lt_mul_right a hDp.le, b⟩
  · obtain ⟨⟨a, b, e, c⟩, _⟩ := loop_visits h0 hD hr h (k := m)
      (mul_lt_mul_of_pos_right (by exact_mod_cast hm) hDp) hm'
    exact ⟨a, b, e, c.symm⟩

/-- **C99.** If the interval is not a whole number of steps, moments and fields are written at every multiple passed, and only there. -/
theorem C99_every_interval (P : DriverParams K) (cond : K → Prop) (h0 : 0 < P.dt) (hD : P.dt < P.dtDumpMoments)
    (hn : ∀ n : ℤ, P.dtDumpMoments ≠ n * P.dt) (k : ℤ) (acts : List (Act K)) (t' : K)
    (h : ScriptLoop cond (loopBody P) (k * P.dtDumpMoments) acts t') (u : K) :
    (.dumpMoments u ∈ acts ↔ ∃ m : ℤ, u = m * P.dtDumpMoments ∧ k < m ∧ u ≤ t') ∧
      (.dumpFields u ∈ acts ↔ ∃ m : ℤ, u = m * P.dtDumpMoments ∧ k < m ∧ u ≤ t') := by
  have hDp : 0 < P.dtDumpMoments := h0.trans hD
  have hr : DriverReady P (k * P.dtDumpMoments) := ready_mul h0 hD k
  obtain ⟨a, b, _⟩ := C99_multiples P cond h0 hD k acts t' h
  rw [b, and_self]
  refine ⟨a u, ?_⟩
  rintro ⟨m, rfl, hm, hm'⟩
  refine loop_all h0 hD hn hr ⟨0, ?_⟩ h (mul_lt_mul_of_pos_right (by exact_mod_cast hm) hDp) hm'
  rw [floor_mul_div hDp]
  simp

/-- **C99, as the code is.** If the interval is a whole number of steps, nothing but the distribution is ever written and no step is shortened: the
script only writes moments and fields after a shortened step. -/
theorem C99_no_interval (P : DriverParams K) (cond : K → Prop) (h0 : 0 < P.dt) (hD : P.dt < P.dtDumpMoments) (n : ℤ)
    (hn : P.dtDumpMoments = n * P.dt) (k : ℤ) (acts : List (Act K)) (t' : K) (h : ScriptLoop cond (loopBody P) (k * P.dtDumpMoments) acts t') :
    (∀ u, .dumpMoments u ∉ acts ∧ .dumpFields u ∉ acts) ∧ ∀ x ∈ stepsOf acts, x = P.dt :=
  loop_none h0 hD hn (ready_mul h0 hD k) ⟨k * n, by rw [hn]; push_cast; ring⟩ h

/-- **C99.** If the interval for the distribution is a multiple of that for moments, the distribution is written at every multiple passed and only
there (the tolerance being less than a step). -/
theorem C99_distribution_files (P : DriverParams K) (cond : K → Prop) (h0 : 0 < P.dt) (hD : P.dt < P.dtDumpMoments) (m : ℤ) (hm : 0 < m)
    (hF : P.dtDumpF = m * P.dtDumpMoments) (ht0 : 0 < P.tol) (htol : P.tol * P.dtDumpF ≤ P.dt) (k : ℤ) (acts : List (Act K)) (t' : K)
    (h : ScriptLoop cond (loopBody P) (k * P.dtDumpMoments) acts t') (u : K) :
    .dumpF u ∈ acts ↔ ∃ j : ℤ, u = j * P.dtDumpF ∧ k * P.dtDumpMoments < u ∧ u ≤ t' := by
  have hDp : 0 < P.dtDumpMoments := h0.trans hD
  have hmK : (0 : K) < m := by exact_mod_cast hm
  have hFp : 0 < P.dtDumpF := by rw [hF]; exact mul_pos hmK hDp
  have hr : DriverReady P (k * P.dtDumpMoments) := ready_mul h0 hD k
  constructor
  · intro hu
    obtain ⟨j, e⟩ := loop_f_times h0 hD hm hF htol hr h hu
    exact ⟨j, e, loop_labels_after h0 hD hr h (Or.inl hu)⟩
  · rintro ⟨j, rfl, a, b⟩
    have e : (j : K) * P.dtDumpF = ((j * m : ℤ) : K) * P.dtDumpMoments := by rw [hF]; push_cast; ring
    rw [e] at a b ⊢
    refine (loop_visits h0 hD hr h a b).2 ?_
    rw [← e, mul_div_cancel_right₀ _ hFp.ne', Int.fract_intCast]
    exact ht0

theorem not_int_mul_sample (n : ℤ) : (driverSample.dtDumpMoments : ℚ) ≠ n * driverSample.dt := by
  intro e
  simp only [driverSample] at e
  have : (10 : ℚ) = ((3 * n : ℤ) : ℚ) := by push_cast; linarith
  have h2 : (10 : ℤ) = 3 * n := by exact_mod_cast this
  omega

/-- The sample run: four moment files and two distribution files after the start. -/
example (acts : List (Act ℚ)) (t' : ℚ) (h : DriverScript driverSample (.ok (acts, t'))) :
    .dumpMoments 3 ∈ acts ∧ .dumpFields 3 ∈ acts ∧ .dumpF 2 ∈ acts ∧ .dumpF 3 ∉ acts ∧ .dumpMoments (5 / 2) ∉ acts := by
  rcases h with ⟨_, e⟩ | ⟨hi, acts', t'', w, e⟩
  · cases e
  · simp only [Except.ok.injEq, Prod.mk.injEq] at e
    obtain ⟨rfl, rfl⟩ := e
    have h0 : 0 < driverSample.dt := by norm_num [driverSample]
    have hD : driverSample.dt < driverSample.dtDumpMoments := by norm_num [driverSample]
    have hend : (4 : ℚ) ≤ t' := while_end_lt w
    have hz : driverSample.tRestart = ((0 : ℤ) : ℚ) * driverSample.dtDumpMoments := by norm_num [driverSample]
    have hz' : ((0 : ℤ) : ℚ) * driverSample.dtDumpMoments = 0 := by simp
    rw [hz] at w
    have A := fun u => C99_every_interval driverSample _ h0 hD not_int_mul_sample 0 _ t' w u
    have B := fun u => C99_distribution_files driverSample _ h0 hD 2 (by norm_num) (by norm_num [driverSample]) (by norm_num [driverSample])
      (by norm_num [driverSample]) 0 _ t' w u
    rw [hz'] at B
    have S : startActs driverSample = [.dumpF 0, .dumpMoments 0, .dumpFields 0] := by
      simp [startActs, driverSample]
    rw [S]
    refine ⟨?_, ?_, ?_, ?_, ?_⟩
    · exact List.mem_append_right _ ((A 3).1.mpr ⟨3, by norm_num [driverSample], by norm_num, by linarith⟩)
    · exact List.mem_append_right _ ((A 3).2.mpr ⟨3, by norm_num [driverSample], by norm_num, by linarith⟩)
    · exact List.mem_append_right _ ((B 2).mpr ⟨1, by norm_num [driverSample], by norm_num, by linarith⟩)
    · intro q
      rcases List.mem_append.mp q with q | q
      · simp at q
      · obtain ⟨j, e, _⟩ := (B 3).mp q
        have : ((3 : ℤ) : ℚ) = ((j * 2 : ℤ) : ℚ) := by push_cast; rw [e]; simp [driverSample]
        have h2 : (3 : ℤ) = j * 2 := by exact_mod_cast this
        omega
    · intro q
      rcases List.mem_append.mp q with q | q
      · simp at q
      · obtain ⟨j, e, _⟩ := (A (5 / 2)).1.mp q
        have : ((5 : ℤ) : ℚ) = ((j * 2 : ℤ) : ℚ) := by push_cast; simp [driverSample] at e; linarith
        have h2 : (5 : ℤ) = j * 2 := by exact_mod_cast this
        omega

/-- **C99, as the code is.** If the interval for the distribution is no multiple of that for moments, its multiples can be missed: with steps of 0.3,
moments every 1 and the distribution every 1.5, the clock runs over 1.5 and nothing is written there. -/
theorem C99_distribution_missed (acts : List (Act ℚ)) (t' : ℚ)
    (h : DriverScript { driverSample with dtDumpF := 3 / 2 } (.ok (acts, t'))) : .dumpF (3 / 2) ∉ acts ∧ 3 / 2 < t' := by
  rcases h with ⟨_, e⟩ | ⟨hi, acts', t'', w, e⟩
  · cases e
  · simp only [Except.ok.injEq, Prod.mk.injEq] at e
    obtain ⟨rfl, rfl⟩ := e
    have hend : (4 : ℚ) ≤ t' := while_end_lt w
    refine ⟨?_, by linarith⟩
    intro q
    rcases List.mem_append.mp q with q | q
    · simp [startActs, driverSample] at q
    · have h0 : 0 < { driverSample with dtDumpF := 3 / 2 : DriverParams ℚ }.dt := by norm_num [driverSample]
      have hD : { driverSample with dtDumpF := 3 / 2 : DriverParams ℚ }.dt < { driverSample with dtDumpF := 3 / 2 : DriverParams ℚ }.dtDumpMoments := by
        norm_num [driverSample]
      have hz : { driverSample with dtDumpF := 3 / 2 : DriverParams ℚ }.tRestart =
          ((0 : ℤ) : ℚ) * { driverSample with dtDumpF := 3 / 2 : DriverParams ℚ }.dtDumpMoments := by norm_num [driverSample]
      rw [hz] at w
      obtain ⟨k, j, e, l⟩ := clockForm_expand h0 hD ((loop_form h0 hD (ready_mul h0 hD 0) (clockForm_mul h0 hD 0) w).2 _ q)
      simp only [driverSample] at e l
      have e' : (15 : ℚ) = ((10 * k + 3 * j : ℤ) : ℚ) := by push_cast; linarith
      have l' : ((3 * j : ℤ) : ℚ) < ((10 : ℤ) : ℚ) := by push_cast; linarith
      have e2 : (15 : ℤ) = 10 * k + 3 * j := by exact_mod_cast e'
      have l2 : 3 * (j : ℤ) < 10 := by exact_mod_cast l'
      omega

/-! ### Restarts -/

section restart

variable {F M E : Type} (solve : K → F × E → F × E) (mom : F → M) (stamp : K → ℤ)

/-- Two multiples of an interval longer than a thousandth have different names. -/
theorem stamp_multiples {stamp : K → ℤ} (hst : RoundsToThousandths stamp) {D : K} (hD : 1 / 1000 < D) {a b : ℤ} (h : stamp (a * D) = stamp (b * D)) :
    a = b := by
  by_contra hab
  have h1 := abs_le.mp (hst (a * D))
  have h2 := abs_le.mp (hst (b * D))
  rw [h] at h1
  rcases lt_or_gt_of_ne hab with q | q
  · have : (a : K) + 1 ≤ b := by exact_mod_cast q
    nlinarith
  · have : (b : K) + 1 ≤ a := by exact_mod_cast q
    nlinarith

/-- **C99.** Restarting after a crash.  The script runs from the start and is stopped anywhere after it has written the distribution for time `τ`.
Started again with `t_restart = τ`, in whatever state the new solver is, it ends with the same clock, the same state and the same files as if it had
never been stopped.  (The interval for moments is not a whole number of steps, that for the distribution is a multiple of it, files have different
names, and the two files hold the whole state.) -/
theorem C99_restart_after_crash (P : DriverParams K) (h0 : 0 < P.dt) (hD : P.dt < P.dtDumpMoments) (hn : ∀ n : ℤ, P.dtDumpMoments ≠ n * P.dt)
    (m : ℤ) (hm : 0 < m) (hF : P.dtDumpF = m * P.dtDumpMoments) (htol : P.tol * P.dtDumpF ≤ P.dt)
    (hname : 1 / 1000 < P.dtDumpMoments) (hst : RoundsToThousandths stamp) (hstart : P.tRestart = 0) (acts : List (Act K)) (t' : K)
    (hrun : DriverScript P (.ok (acts, t'))) (done todo : List (Act K)) (hcrash : acts = done ++ todo) (τ : K) (hτ : 0 < τ) (hmem : .dumpF τ ∈ done)
    (s : F × E) (d : DiskFiles F M E) :
    ∃ s1 d1, perform solve mom stamp done (s, d) = .ok (s1, d1) ∧
      ∃ acts2, DriverScript { P with tRestart := τ } (.ok (acts2, t')) ∧
        ∀ fresh : F × E, perform solve mom stamp acts2 (fresh, d1) = perform solve mom stamp acts (s, d) := by
  have hDp : 0 < P.dtDumpMoments := h0.trans hD
  rcases hrun with ⟨_, e⟩ | ⟨hi, lacts, t'', w, e⟩
  · cases e
  simp only [Except.ok.injEq, Prod.mk.injEq] at e
  obtain ⟨e1, e2⟩ := e
  subst e2
  have hz : P.tRestart = ((0 : ℤ) : K) * P.dtDumpMoments := by rw [hstart]; simp
  have hz' : ((0 : ℤ) : K) * P.dtDumpMoments = 0 := by simp
  rw [hz] at w
  have hr0 : DriverReady P (((0 : ℤ) : K) * P.dtDumpMoments) := ready_mul h0 hD 0
  have hS : startActs P = [.dumpF 0, .dumpMoments 0, .dumpFields 0] := by simp [startActs, hstart]
  rw [hS] at e1
  -- facts about the whole list
  have hlab : Labelled 0 acts := by
    rw [e1, labelled_append]
    refine ⟨by simp [Labelled, Act.label], ?_⟩
    have := loop_labelled h0 hD hr0 w
    rw [hz'] at this
    simpa [stepsOf] using this
  have hpos : ∀ x ∈ stepsOf acts, 0 < x := by
    intro x hx
    rw [e1, stepsOf_append] at hx
    exact ((loop_facts h0 hD hr0 w).2.1 x (by simpa [stepsOf] using hx)).1
  have hload : ∀ u, .loadF u ∉ acts ∧ .loadFields u ∉ acts := by
    intro u
    have := loop_no_loads h0 hD hr0 w u
    rw [e1]
    simp [this]
  have hmulF : ∀ u, .dumpF u ∈ acts → ∃ k : ℤ, u = k * P.dtDumpMoments := by
    intro u hu
    rw [e1] at hu
    rcases List.mem_append.mp hu with q | q
    · refine ⟨0, ?_⟩
      simpa using q
    · obtain ⟨j, e⟩ := loop_f_times h0 hD hm hF htol hr0 w q
      exact ⟨j * m, by rw [e, hF]; push_cast; ring⟩
  have hmulE : ∀ u, .dumpFields u ∈ acts → ∃ k : ℤ, u = k * P.dtDumpMoments := by
    intro u hu
    rw [e1] at hu
    rcases List.mem_append.mp hu with q | q
    · refine ⟨0, ?_⟩
      simpa using q
    · have := loop_dump_times h0 hD hr0 w u
      exact this.1 (this.2.1.mp q)
  -- the place where the distribution was written
  obtain ⟨A0, B1, hA⟩ := List.append_of_mem hmem
  have hall : acts = (A0 ++ [.dumpF τ]) ++ (B1 ++ todo) := by rw [hcrash, hA]; simp
  have hsuf : ScriptLoop (fun t => t < P.tFinal) (loopBody P) τ (B1 ++ todo) t' := by
    have e3 : [.dumpF 0, .dumpMoments 0, .dumpFields 0] ++ lacts = A0 ++ .dumpF τ :: (B1 ++ todo) := by
      rw [← e1, hall]; simp
    rcases List.append_eq_append_iff.mp e3 with ⟨c, f1, f2⟩ | ⟨c, f1, f2⟩
    · exact loop_suffix w f2
    · cases c with
      | nil => exact loop_suffix w (a := []) (by simpa using f2.symm)
      | cons x c' =>
        exfalso
        simp only [List.cons_append, List.cons.injEq] at f2
        have : Act.dumpF τ ∈ ([.dumpF 0, .dumpMoments 0, .dumpFields 0] : List (Act K)) := by
          rw [f1, ← f2.1]
          simp
        simp at this
        exact hτ.ne' this
  have hτmem : .dumpF τ ∈ acts := by rw [hcrash]; exact List.mem_append_left _ hmem
  obtain ⟨kτ, hkτ⟩ := hmulF τ hτmem
  have hrτ : DriverReady P τ := by rw [hkτ]; exact ready_mul h0 hD kτ
  have hafter := fun u hu => (loop_labels_after h0 hD hrτ hsuf (u := u) hu).1
  -- the clock at that place
  have hclock : τ = clockAfter 0 (A0 ++ [.dumpF τ]) := by
    have := labelled_split (t := 0) (a := A0) (b := B1 ++ todo) (x := .dumpF τ) (u := τ) (by rw [hall] at hlab; simpa using hlab) rfl
    rw [this]
    simp [clockAfter, stepsOf_append, stepsOf]
  -- the fields were written before
  have hfields : .dumpFields τ ∈ A0 ++ [.dumpF τ] := by
    have : .dumpFields τ ∈ acts := by
      rw [e1]
      refine List.mem_append_right _ ?_
      refine ((C99_every_interval P _ h0 hD hn 0 lacts t' w τ).2).mpr ⟨kτ, hkτ, ?_, ?_⟩
      · have : 0 < (kτ : K) * P.dtDumpMoments := by rw [← hkτ]; exact hτ
        have := pos_of_mul_pos_left this hDp.le
        exact_mod_cast this
      · exact (loop_facts h0 hD hrτ hsuf).2.2
    rw [hall] at this
    rcases List.mem_append.mp this with q | q
    · exact q
    · exact absurd (hafter τ (Or.inr (Or.inl q))) (lt_irrefl _)
  -- performing the parts
  have sub : ∀ L : List (Act K), (∀ x ∈ L, x ∈ acts) → ∀ u, .loadF u ∉ L ∧ .loadFields u ∉ L := fun L hL u =>
    ⟨fun q => (hload u).1 (hL _ q), fun q => (hload u).2 (hL _ q)⟩
  have mA : ∀ x ∈ A0 ++ [.dumpF τ], x ∈ acts := fun x hx => by rw [hall]; exact List.mem_append_left _ hx
  have mB1 : ∀ x ∈ B1, x ∈ acts := fun x hx => by rw [hall]; exact List.mem_append_right _ (List.mem_append_left _ hx)
  obtain ⟨aF, aM, aE, pA, iF, iE, vA⟩ := perform_overlay solve mom stamp (A0 ++ [.dumpF τ]) (sub _ mA) s
  obtain ⟨bF, bM, bE, pB, jF, jE, _⟩ := perform_overlay solve mom stamp B1 (sub _ mB1) (stepsFold solve (A0 ++ [.dumpF τ]) s)
  have hlA : Labelled 0 (A0 ++ [.dumpF τ]) := by
    rw [hall, labelled_append] at hlab
    exact hlab.1
  have hpA : ∀ x ∈ stepsOf (A0 ++ [.dumpF τ]), 0 < x := by
    intro x hx
    refine hpos x ?_
    rw [hall, stepsOf_append]
    exact List.mem_append_left _ hx
  have uniq : ∀ u, (∃ k : ℤ, u = k * P.dtDumpMoments) → stamp u = stamp τ → u = τ := by
    rintro u ⟨k, rfl⟩ hu
    rw [hkτ] at hu ⊢
    rw [stamp_multiples hst hname hu]
  have vA' := vA 0 hlA hpA (stamp τ)
  rw [← hclock] at vA'
  have hvF : aF (stamp τ) = some (stepsFold solve (A0 ++ [.dumpF τ]) s).1 := by
    have := (iF (stamp τ)).mpr ⟨τ, by simp, rfl⟩
    obtain ⟨f, hf⟩ := Option.ne_none_iff_exists'.mp this
    rw [hf, vA'.1 (fun u hu hs => uniq u (hmulF u (mA _ hu)) hs) f hf]
  have hvE : aE (stamp τ) = some (stepsFold solve (A0 ++ [.dumpF τ]) s).2 := by
    have := (iE (stamp τ)).mpr ⟨τ, hfields, rfl⟩
    obtain ⟨f, hf⟩ := Option.ne_none_iff_exists'.mp this
    rw [hf, vA'.2 (fun u hu hs => uniq u (hmulE u (mA _ hu)) hs) f hf]
  have hbF : bF (stamp τ) = none := by
    by_contra q
    obtain ⟨u, hu, hs⟩ := (jF _).mp q
    have := uniq u (hmulF u (mB1 _ hu)) hs
    rw [this] at hu
    exact lt_irrefl _ (hafter τ (Or.inl (List.mem_append_left _ hu)))
  have hbE : bE (stamp τ) = none := by
    by_contra q
    obtain ⟨u, hu, hs⟩ := (jE _).mp q
    have := uniq u (hmulE u (mB1 _ hu)) hs
    rw [this] at hu
    exact lt_irrefl _ (hafter τ (Or.inr (Or.inl (List.mem_append_left _ hu))))
  have hdone : perform solve mom stamp done (s, d) = .ok (stepsFold solve B1 (stepsFold solve (A0 ++ [.dumpF τ]) s),
      overlay bF (overlay aF d.1), overlay bM (overlay aM d.2.1), overlay bE (overlay aE d.2.2)) := by
    rw [show done = (A0 ++ [.dumpF τ]) ++ B1 by rw [hA]; simp, perform_append, pA]
    exact pB _
  refine ⟨_, _, hdone, _, Or.inr ⟨hi, B1 ++ todo, t', hsuf, rfl⟩, fun fresh => ?_⟩
  have hS2 : startActs { P with tRestart := τ } = [.loadF τ, .loadFields τ] := by
    simp [startActs, hτ.ne']
  have hfull : perform solve mom stamp acts (s, d) = perform solve mom stamp todo (stepsFold solve B1 (stepsFold solve (A0 ++ [.dumpF τ]) s),
      overlay bF (overlay aF d.1), overlay bM (overlay aM d.2.1), overlay bE (overlay aE d.2.2)) := by
    rw [hcrash, perform_append, hdone]
    rfl
  rw [hS2, hfull]
  have lF : overlay bF (overlay aF d.1) (stamp τ) = some (stepsFold solve (A0 ++ [.dumpF τ]) s).1 := by
    simp [overlay, hbF, hvF]
  have lE : overlay bE (overlay aE d.2.2) (stamp τ) = some (stepsFold solve (A0 ++ [.dumpF τ]) s).2 := by
    simp [overlay, hbE, hvE]
  simp only [List.cons_append, List.nil_append, perform, lF, lE]
  rw [perform_append, pB]
  simp only [overlay_idem]
  rfl

/-- **C99, as the code is.** If the interval for moments is a whole number of steps, the files with the distribution are written but those with the
fields are not, and no restart is possible after time 0: reading the fields raises. -/
theorem C99_no_restart (P : DriverParams K) (h0 : 0 < P.dt) (hD : P.dt < P.dtDumpMoments) (n : ℤ) (hn : P.dtDumpMoments = n * P.dt)
    (hstart : P.tRestart = 0) (acts : List (Act K)) (t' : K) (hrun : DriverScript P (.ok (acts, t'))) (τ : K) (hτ : τ ≠ 0)
    (hname : stamp τ ≠ stamp 0) (s : F × E) (s1 : F × E) (d1 : DiskFiles F M E)
    (hp : perform solve mom stamp acts (s, (fun _ => none), (fun _ => none), fun _ => none) = .ok (s1, d1)) (acts2 : List (Act K)) (t2 : K)
    (hagain : DriverScript { P with tRestart := τ } (.ok (acts2, t2))) (fresh : F × E) :
    perform solve mom stamp acts2 (fresh, d1) = .error .exception := by
  rcases hrun with ⟨_, e⟩ | ⟨hi, lacts, t'', w, e⟩
  · cases e
  simp only [Except.ok.injEq, Prod.mk.injEq] at e
  obtain ⟨e1, e2⟩ := e
  have hz : P.tRestart = ((0 : ℤ) : K) * P.dtDumpMoments := by rw [hstart]; simp
  rw [hz] at w
  have hr0 : DriverReady P (((0 : ℤ) : K) * P.dtDumpMoments) := ready_mul h0 hD 0
  have hS : startActs P = [.dumpF 0, .dumpMoments 0, .dumpFields 0] := by simp [startActs, hstart]
  rw [hS] at e1
  have hno := (C99_no_interval P _ h0 hD n hn 0 lacts t'' w).1
  have hload : ∀ u, .loadF u ∉ acts ∧ .loadFields u ∉ acts := by
    intro u
    have := loop_no_loads h0 hD hr0 w u
    rw [e1]
    simp [this]
  obtain ⟨oF, oM, oE, p, _, iE, _⟩ := perform_overlay solve mom stamp acts hload s
  rw [p] at hp
  simp only [Except.ok.injEq, Prod.mk.injEq] at hp
  have hnone : d1.2.2 (stamp τ) = none := by
    rw [← hp.2]
    show overlay oE (fun _ => none) (stamp τ) = none
    unfold overlay
    have : oE (stamp τ) = none := by
      by_contra q
      obtain ⟨u, hu, hs⟩ := (iE _).mp q
      rw [e1] at hu
      rcases List.mem_append.mp hu with r | r
      · have : u = 0 := by simpa using r
        rw [this] at hs
        exact hname hs.symm
      · exact (hno u).2 r
    rw [this]
    rfl
  rcases hagain with ⟨_, e⟩ | ⟨_, lacts2, t3, w2, e⟩
  · cases e
  simp only [Except.ok.injEq, Prod.mk.injEq] at e
  have hS2 : startActs { P with tRestart := τ } = [.loadF τ, .loadFields τ] := by simp [startActs, hτ]
  rw [e.1, hS2]
  simp only [List.cons_append, List.nil_append, perform]
  split
  · simp only [hnone]
  · rfl

end restart

/-- **C99.** The names of files, `'%.3f'` of the time, differ for different multiples of an interval longer than a thousandth. -/
theorem C99_file_names (stamp : K → ℤ) (hst : RoundsToThousandths stamp) (D : K) (hD : 1 / 1000 < D) (a b : ℤ) :
    stamp (a * D) = stamp (b * D) ↔ a = b :=
  ⟨stamp_multiples hst hD, fun h => by rw [h]⟩

/-- **C99, as the code is.** With a shorter interval files overwrite each other: below half a thousandth the first output has the name of the initial
one. -/
theorem C99_file_names_collide (stamp : K → ℤ) (hst : RoundsToThousandths stamp) (D : K) (h0 : 0 < D) (hD : D < 1 / 2000) : stamp D = stamp 0 := by
  have z : ∀ t : K, 0 ≤ t → t < 1 / 2000 → stamp t = 0 := by
    intro t h1 h2
    have := abs_le.mp (hst t)
    have a : ((stamp t : ℤ) : K) < ((1 : ℤ) : K) := by push_cast; linarith
    have b : ((-1 : ℤ) : K) < ((stamp t : ℤ) : K) := by push_cast; linarith
    have a' : stamp t < 1 := by exact_mod_cast a
    have b' : -1 < stamp t := by exact_mod_cast b
    omega
  rw [z D h0.le hD, z 0 le_rfl (h0.trans hD)]

/-- There is such a rounding. -/
theorem round_thousandths : RoundsToThousandths (fun t : ℚ => round (1000 * t)) := fun t => by
  have := abs_sub_round (1000 * t)
  rw [abs_sub_comm]
  exact this

/-- A crash of the sample run right after the distribution for time 2 is written; the solver adds step sizes. -/
example (acts : List (Act ℚ)) (t' : ℚ) (hrun : DriverScript driverSample (.ok (acts, t'))) :
    ∃ done todo, acts = done ++ todo ∧ .dumpF 2 ∈ done ∧ ∃ s1 d1,
      perform (fun h (x : ℚ × ℚ) => (x.1 + h, x.2 - h)) (fun f => 2 * f) (fun t => round (1000 * t)) done ((0, 0), (fun _ => none), (fun _ => none), fun _ => none)
        = .ok (s1, d1) ∧
      ∃ acts2, DriverScript { driverSample with tRestart := 2 } (.ok (acts2, t')) ∧ ∀ fresh,
        perform (fun h (x : ℚ × ℚ) => (x.1 + h, x.2 - h)) (fun f => 2 * f) (fun t => round (1000 * t)) acts2 (fresh, d1) =
        perform (fun h (x : ℚ × ℚ) => (x.1 + h, x.2 - h)) (fun f => 2 * f) (fun t => round (1000 * t)) acts
          ((0, 0), (fun _ => none), (fun _ => none), fun _ => none) := by
  have h2 : .dumpF 2 ∈ acts := by
    rcases hrun with ⟨_, e⟩ | ⟨hi, lacts, t'', w, e⟩
    · cases e
    · simp only [Except.ok.injEq, Prod.mk.injEq] at e
      obtain ⟨rfl, rfl⟩ := e
      have hend : (4 : ℚ) ≤ t' := while_end_lt w
      have hz : driverSample.tRestart = ((0 : ℤ) : ℚ) * driverSample.dtDumpMoments := by norm_num [driverSample]
      rw [hz] at w
      exact List.mem_append_right _ ((C99_distribution_files driverSample _ (by norm_num [driverSample]) (by norm_num [driverSample]) 2 (by norm_num)
        (by norm_num [driverSample]) (by norm_num [driverSample]) (by norm_num [driverSample]) 0 _ t' w 2).mpr
          ⟨1, by norm_num [driverSample], by norm_num [driverSample], by linarith⟩)
  obtain ⟨a, b, e⟩ := List.append_of_mem h2
  refine ⟨a ++ [.dumpF 2], b, by rw [e]; simp, by simp, ?_⟩
  exact C99_restart_after_crash _ _ _ driverSample (by norm_num [driverSample]) (by norm_num [driverSample]) not_int_mul_sample 2 (by norm_num)
    (by norm_num [driverSample]) (by norm_num [driverSample]) (by norm_num [driverSample]) round_thousandths rfl acts t' hrun _ b
    (by rw [e]; simp) 2 (by norm_num) (by simp) _ _

/-- With steps of a quarter nothing but distributions is written. -/
example (acts : List (Act ℚ)) (t' : ℚ) (h : ScriptLoop (fun t => t < (4 : ℚ)) (loopBody { driverSample with dt := 1 / 4 }) 0 acts t') :
    (∀ u, .dumpMoments u ∉ acts) ∧ .dumpF 2 ∈ acts := by
  have hend : (4 : ℚ) ≤ t' := while_end_lt h
  have h' : ScriptLoop (fun t => t < (4 : ℚ)) (loopBody { driverSample with dt := 1 / 4 })
      (((0 : ℤ) : ℚ) * { driverSample with dt := 1 / 4 : DriverParams ℚ }.dtDumpMoments) acts t' := by simpa using h
  refine ⟨fun u => ((C99_no_interval _ _ (by norm_num [driverSample]) (by norm_num [driverSample]) 4 (by norm_num [driverSample]) 0 acts t' h').1 u).1, ?_⟩
  exact ((C99_distribution_files _ _ (by norm_num [driverSample]) (by norm_num [driverSample]) 2 (by norm_num)
    (by norm_num [driverSample]) (by norm_num [driverSample]) (by norm_num [driverSample]) 0 _ t' h' 2).mpr
      ⟨1, by norm_num [driverSample], by norm_num [driverSample], by linarith⟩)

/-! ### The other loops -/

/-- **C99.** The loop that waits until the clock is close to the final time ends there, not later, if the final time is a multiple of the interval. -/
theorem C99_near_loop (P : DriverParams K) (h0 : 0 < P.dt) (hD : P.dt < P.dtDumpMoments) (htol : 0 ≤ P.tol) (k n : ℤ) (hkn : k ≤ n)
    (hT : P.tFinal = n * P.dtDumpMoments) :
    ∃ acts t', NearLoop P (k * P.dtDumpMoments) acts t' ∧ P.tFinal - P.tol ≤ t' ∧ t' ≤ P.tFinal := by
  have hDp : 0 < P.dtDumpMoments := h0.trans hD
  have hb : ∀ t, (DriverReady P t ∧ t ≤ P.tFinal) → P.tol < |t - P.tFinal| →
      (DriverReady P (loopBody P t).2 ∧ (loopBody P t).2 ≤ P.tFinal) ∧ P.tFinal - (loopBody P t).2 ≤ P.tFinal - t - P.dt := by
    rintro t ⟨hr, hle⟩ hc
    have pf := passFacts h0 hD hr
    have hlt : t < P.tFinal := by
      rcases hle.lt_or_eq with q | q
      · exact q
      · rw [q, sub_self, abs_zero] at hc
        exact absurd hc (not_lt.mpr htol)
    refine ⟨⟨pf.ready, pf.le.trans ?_⟩, by linarith [pf.ge]⟩
    rw [hT] at hlt ⊢
    unfold nextMul
    refine mul_le_mul_of_nonneg_right ?_ hDp.le
    have : ⌊t / P.dtDumpMoments⌋ < n := by
      rw [Int.floor_lt, div_lt_iff₀ hDp]
      exact hlt
    exact_mod_cast this
  have hg : DriverReady P (k * P.dtDumpMoments) ∧ k * P.dtDumpMoments ≤ P.tFinal := by
    refine ⟨ready_mul h0 hD k, ?_⟩
    rw [hT]
    exact mul_le_mul_of_nonneg_right (by exact_mod_cast hkn) hDp.le
  obtain ⟨acts, t', w⟩ := while_terminates (cond := fun t => P.tol < |t - P.tFinal|) (body := loopBody P) h0 (fun t => P.tFinal - t)
    (fun t => DriverReady P t ∧ t ≤ P.tFinal)
    (fun t hg hc => by
      rcases hg.2.lt_or_eq with q | q
      · linarith
      · rw [q, sub_self, abs_zero] at hc
        exact absurd hc (not_lt.mpr htol)) hb _ hg
  have hend : |t' - P.tFinal| ≤ P.tol := not_lt.mp (while_end (cond := fun t => P.tol < |t - P.tFinal|) w)
  have hle : t' ≤ P.tFinal := by
    clear hend
    generalize (k : K) * P.dtDumpMoments = t0 at w hg
    induction w with
    | done _ => exact hg.2
    | iter hc _ ih => exact ih (hb _ hg hc).1
  refine ⟨acts, t', w, ?_, hle⟩
  have := (abs_le.mp hend).1
  linarith

/-- **C99, as the code is.** It never ends if the clock does not come close to the final time: the clock only shows multiples of the interval plus
whole numbers of steps. -/
theorem C99_near_loop_runs_on (P : DriverParams K) (h0 : 0 < P.dt) (hD : P.dt < P.dtDumpMoments) (k : ℤ)
    (hT : ∀ (i : ℤ) (j : ℕ), j * P.dt < P.dtDumpMoments → P.tol < |i * P.dtDumpMoments + j * P.dt - P.tFinal|) :
    ¬∃ acts t', NearLoop P (k * P.dtDumpMoments) acts t' := by
  rintro ⟨acts, t', w⟩
  obtain ⟨i, j, e, l⟩ := clockForm_expand h0 hD (loop_form h0 hD (ready_mul h0 hD k) (clockForm_mul h0 hD k) w).1
  have := while_end w
  rw [e] at this
  exact this (hT i j l)

/-- Until 4 the sample ends; until 1/2 it runs for ever. -/
example : (∃ acts t', NearLoop driverSample 0 acts t' ∧ t' ≤ 4) ∧ ¬∃ acts t', NearLoop { driverSample with tFinal := 1 / 2 } 0 acts t' := by
  constructor
  · obtain ⟨acts, t', w, _, b⟩ := C99_near_loop driverSample (by norm_num [driverSample]) (by norm_num [driverSample]) (by norm_num [driverSample]) 0 4
      (by norm_num) (by norm_num [driverSample])
    refine ⟨acts, t', by simpa using w, b⟩
  · have := C99_near_loop_runs_on { driverSample with tFinal := 1 / 2 } (by norm_num [driverSample]) (by norm_num [driverSample]) 0 (by
      intro i j l
      simp only [driverSample] at l ⊢
      have l' : ((3 * j : ℤ) : ℚ) < ((10 : ℤ) : ℚ) := by push_cast; linarith
      have l2 : 3 * (j : ℤ) < 10 := by exact_mod_cast l'
      have hne : 1 ≤ |10 * i + 3 * (j : ℤ) - 5| := by
        refine Int.one_le_abs ?_
        omega
      have e : (i : ℚ) * 1 + j * (3 / 10) - 1 / 2 = ((10 * i + 3 * (j : ℤ) - 5 : ℤ) : ℚ) / 10 := by push_cast; ring
      rw [e, abs_div, ← Int.cast_abs]
      have : (1 : ℚ) ≤ ((|10 * i + 3 * (j : ℤ) - 5| : ℤ) : ℚ) := by exact_mod_cast hne
      rw [lt_div_iff₀ (by norm_num)]
      norm_num at this ⊢
      linarith)
    simpa using this

theorem arange_length (T dt : K) (h0 : 0 < dt) (hT : 0 ≤ T) : (arange 0 (T + dt) dt).length = ⌈T / dt⌉.toNat + 1 := by
  unfold arange
  rw [List.length_map, List.length_range, sub_zero, add_div, div_self h0.ne', Int.ceil_add_one]
  have : 0 ≤ ⌈T / dt⌉ := Int.ceil_nonneg (div_nonneg hT h0.le)
  omega

/-- **C99.** The script with numbered files makes as many full steps as fit into the final time, and file `i` holds the state after `i` steps. -/
theorem C99_numbered_files {σ : Type} (solve : K → σ → σ) (T dt : K) (h0 : 0 < dt) (hT : 0 ≤ T) (s : σ) :
    soundLoop solve T dt s = ((solve dt)^[⌊T / dt⌋.toNat] s, (List.range (⌊T / dt⌋.toNat + 1)).map fun i => (i, (solve dt)^[i] s)) := by
  have hfl : 0 ≤ ⌊T / dt⌋ := Int.floor_nonneg.mpr (div_nonneg hT h0.le)
  have hlen : (soundTimes T dt).length = ⌊T / dt⌋.toNat + 1 := by
    have hl := arange_length T dt h0 hT
    have hc : 0 ≤ ⌈T / dt⌉ := Int.ceil_nonneg (div_nonneg hT h0.le)
    have hlast : (arange 0 (T + dt) dt).getLastD 0 = ⌈T / dt⌉ * dt := by
      have e : arange 0 (T + dt) dt = (List.range (⌈T / dt⌉.toNat + 1)).map fun i : ℕ => (0 : K) + i * dt := by
        unfold arange
        rw [sub_zero, add_div, div_self h0.ne', Int.ceil_add_one]
        congr 2
        omega
      rw [e, List.range_succ, List.map_append, List.map_singleton]
      rw [List.getLastD_eq_getLast?, List.getLast?_append]
      have : ((⌈T / dt⌉.toNat : ℕ) : K) = ((⌈T / dt⌉ : ℤ) : K) := by
        have := Int.toNat_of_nonneg hc
        exact_mod_cast congrArg (fun z : ℤ => (z : K)) this
      simp [this]
    unfold soundTimes
    simp only [hlast]
    have h1 := Int.floor_le (T / dt)
    have h2 := Int.lt_floor_add_one (T / dt)
    have h3 := Int.ceil_lt_add_one (T / dt)
    have h4 := Int.le_ceil (T / dt)
    split_ifs with q
    · rw [List.length_dropLast, hl]
      have : T / dt < ⌈T / dt⌉ := by rwa [div_lt_iff₀ h0]
      have a : ⌊T / dt⌋ < ⌈T / dt⌉ := by
        have : ((⌊T / dt⌋ : ℤ) : K) < ((⌈T / dt⌉ : ℤ) : K) := by linarith
        exact_mod_cast this
      have b : ⌈T / dt⌉ < ⌊T / dt⌋ + 2 := by
        have : ((⌈T / dt⌉ : ℤ) : K) < ((⌊T / dt⌋ + 2 : ℤ) : K) := by push_cast; linarith
        exact_mod_cast this
      omega
    · rw [hl]
      have : (⌈T / dt⌉ : K) ≤ T / dt := by
        rw [le_div_iff₀ h0]
        exact not_lt.mp q
      have a : ⌈T / dt⌉ ≤ ⌊T / dt⌋ := Int.le_floor.mpr this
      have b : ⌊T / dt⌋ ≤ ⌈T / dt⌉ := Int.floor_le_ceil _
      omega
  have fold : ∀ (l : List K) (k : ℕ) (s : σ) (acc : List (ℕ × σ)),
      (l.zipIdx k).foldl (fun x ti => (solve dt x.1, x.2 ++ [(ti.2 + 1, solve dt x.1)])) (s, acc) =
        ((solve dt)^[l.length] s, acc ++ (List.range l.length).map fun i => (k + i + 1, (solve dt)^[i + 1] s)) := by
    intro l
    induction l with
    | nil => simp
    | cons y r ih =>
      intro k s acc
      rw [List.zipIdx_cons, List.foldl_cons, ih]
      refine Prod.ext ?_ ?_
      · simp
      · simp only [List.length_cons, List.range_succ_eq_map, List.map_cons, List.map_map, List.append_assoc, List.singleton_append]
        congr 2
        refine List.map_congr_left fun i _ => ?_
        simp only [Function.comp_apply, Function.iterate_succ_apply, Nat.succ_eq_add_one]
        congr 1
        omega
  unfold soundLoop
  rw [fold, List.length_drop, hlen, Nat.add_sub_cancel]
  refine Prod.ext rfl ?_
  simp only [List.range_succ_eq_map, List.map_cons, List.map_map]
  simp only [List.singleton_append, Function.iterate_zero, id_eq]
  congr 1
  refine List.map_congr_left fun i _ => ?_
  simp

/-- **C99.** The script that records before it steps writes, for time `i · dt`, the state after `i` steps, up to the first time that is not before the
final time, and then makes one more step that it does not record. -/
theorem C99_recorded {σ : Type} (solve : K → σ → σ) (T dt : K) (h0 : 0 < dt) (hT : 0 ≤ T) (s : σ) :
    recordLoop solve T dt s =
      ((solve dt)^[⌈T / dt⌉.toNat + 1] s, (List.range (⌈T / dt⌉.toNat + 1)).map fun i : ℕ => ((i : K) * dt, (solve dt)^[i] s)) := by
  have fold : ∀ (l : List K) (s : σ) (acc : List (K × σ)),
      l.foldl (fun x t => (solve dt x.1, x.2 ++ [(t, x.1)])) (s, acc) =
        ((solve dt)^[l.length] s, acc ++ (List.range l.length).map fun i => (l.getD i 0, (solve dt)^[i] s)) := by
    intro l
    induction l with
    | nil => simp
    | cons y r ih =>
      intro s acc
      rw [List.foldl_cons, ih]
      refine Prod.ext ?_ ?_
      · simp
      · simp only [List.length_cons, List.range_succ_eq_map, List.map_cons, List.map_map, List.append_assoc, List.singleton_append]
        congr 2
  unfold recordLoop
  rw [fold, arange_length T dt h0 hT]
  refine Prod.ext rfl ?_
  simp only [List.nil_append]
  refine List.map_congr_left fun i hi => ?_
  rw [List.mem_range] at hi
  refine Prod.ext ?_ rfl
  have hl := arange_length T dt h0 hT
  have hlt : i < (arange 0 (T + dt) dt).length := by omega
  show ((arange 0 (T + dt) dt)[i]?).getD 0 = _
  rw [List.getElem?_eq_getElem hlt]
  simp [arange]

example : soundLoop (fun h (x : ℚ) => x + h) 1 (3 / 10) 0 = (9 / 10, [(0, 0), (1, 3 / 10), (2, 6 / 10), (3, 9 / 10)]) := by
  rw [C99_numbered_files _ _ _ (by norm_num) (by norm_num)]
  have : ⌊(1 : ℚ) / (3 / 10)⌋.toNat = 3 := by
    have : ⌊(1 : ℚ) / (3 / 10)⌋ = 3 := by rw [Int.floor_eq_iff]; norm_num
    rw [this]; rfl
  rw [this]
  norm_num [List.range_succ]

end Bolt
