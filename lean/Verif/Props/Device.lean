import Verif.Model.Device
import Verif.Spec.Device
import Verif.Props.Walls
import Verif.Props.Boundaries
import Mathlib.Analysis.SpecialFunctions.Sqrt
import Mathlib.Analysis.Calculus.Deriv.Pow
import Mathlib.Analysis.Calculus.Deriv.Mul
import Mathlib.Algebra.Order.Floor.Semiring
import Mathlib.Tactic.FieldSimp
import Mathlib.Tactic.Linarith

/-!
# C102: the graphene device
-/

set_option linter.unusedSectionVars false

namespace Bolt

section loop

variable {C R K M A : Type} [Field K] [LinearOrder K] [IsStrictOrderedRing K] [FloorSemiring K]

theorem deviceFloor_eq (a : K) (f : C → K) : deviceFloor a f = raisedTo a f := by
  funext i
  simp only [deviceFloor, raisedTo]
  split_ifs with h
  · exact (max_eq_right h.le).symm
  · exact (max_eq_left (not_lt.mp h)).symm

/-- The files after the steps `0`, …, `n - 1`. -/
def filesAfter (mom : (C → K) → M) (aux : R → A) (d : ℕ) (dt : K) (hist : ℕ → (C → K) × R) (disk : DeviceDisk (C → K) M A K) (n : ℕ) :
    DeviceDisk (C → K) M A K where
  moments k := if k * d < n then some (mom (hist (k * d)).1) else disk.moments k
  dist k := if k = 0 ∧ 0 < n then some (hist 0).1 else disk.dist k
  aux k := if k * d < n then some (aux (hist (k * d)).2) else disk.aux k
  times := if 0 < n then some ((List.range ((n + d - 1) / d)).map fun k : ℕ => (k * d : ℕ) * dt) else disk.times
  last := disk.last

/-- The variables after `n` steps. -/
def stateAfter (P : DeviceParams K) (mom : (C → K) → M) (aux : R → A) (hist : ℕ → (C → K) × R) (disk : DeviceDisk (C → K) M A K) (n : ℕ) :
    DeviceState C R K M A where
  nls := hist n
  t := n * P.dt
  timeStep := n
  dumpCounter := (n + P.dumpSteps - 1) / P.dumpSteps
  dumpTimes := (List.range ((n + P.dumpSteps - 1) / P.dumpSteps)).map fun k : ℕ => (k * P.dumpSteps : ℕ) * P.dt
  disk := filesAfter mom aux P.dumpSteps P.dt hist disk n

theorem ceilDiv_succ {n d : ℕ} (hd : 0 < d) (h : n % d = 0) : (n + d - 1) / d = n / d ∧ (n + 1 + d - 1) / d = n / d + 1 := by
  obtain ⟨m, rfl⟩ := Nat.dvd_of_mod_eq_zero h
  rw [Nat.mul_div_cancel_left m hd]
  constructor
  · rw [Nat.add_sub_assoc hd, Nat.mul_add_div hd, Nat.div_eq_of_lt (by omega), add_zero]
  · rw [show d * m + 1 + d - 1 = d * m + d by omega, ← Nat.mul_succ, Nat.mul_div_cancel_left _ hd]

theorem ceilDiv_same {n d : ℕ} (hd : 0 < d) (h : n % d ≠ 0) : (n + 1 + d - 1) / d = (n + d - 1) / d := by
  have e := Nat.div_add_mod n d
  have l := Nat.mod_lt n hd
  generalize n / d = m at *
  generalize n % d = r at *
  subst e
  rw [show d * m + r + 1 + d - 1 = d * m + (d + r) by omega, Nat.mul_add_div hd, Nat.add_div_left _ hd, Nat.div_eq_of_lt l,
    show d * m + r + d - 1 = d * m + (d + (r - 1)) by omega, Nat.mul_add_div hd, Nat.add_div_left _ hd, Nat.div_eq_of_lt (by omega)]

theorem body_step (P : DeviceParams K) (hd : 0 < P.dumpSteps) (solve : ℕ → K → K → (C → K) × R → (C → K) × R) (mom : (C → K) → M) (aux : R → A)
    (start : (C → K) × R) (disk : DeviceDisk (C → K) M A K) (n : ℕ) :
    deviceBody P solve mom aux (stateAfter P mom aux (deviceHistory solve P.floor P.dt P.iters start) disk n) =
      .ok (stateAfter P mom aux (deviceHistory solve P.floor P.dt P.iters start) disk (n + 1)) := by
  have hd0 : P.dumpSteps ≠ 0 := by omega
  simp only [deviceBody, if_neg hd0]
  generalize hh : deviceHistory solve P.floor P.dt P.iters start = hist
  have hs : hist (n + 1) = (raisedTo P.floor (solve (if n = 0 then 10 else P.iters) (n * P.dt) P.dt (hist n)).1,
      (solve (if n = 0 then 10 else P.iters) (n * P.dt) P.dt (hist n)).2) := by subst hh; rfl
  by_cases h : n % P.dumpSteps = 0
  · obtain ⟨e1, e2⟩ := ceilDiv_succ hd h
    have en : n / P.dumpSteps * P.dumpSteps = n := Nat.div_mul_cancel (Nat.dvd_of_mod_eq_zero h)
    have hmul : ∀ k, k * P.dumpSteps < n + 1 ↔ k = n / P.dumpSteps ∨ k * P.dumpSteps < n := fun k => by
      constructor
      · intro hk
        rcases Nat.lt_succ_iff_lt_or_eq.mp hk with h1 | h1
        · exact Or.inr h1
        · exact Or.inl (by rw [← h1, Nat.mul_div_cancel _ hd])
      · rintro (rfl | h1)
        · rw [en]; omega
        · omega
    simp only [stateAfter, if_pos h, deviceDump, deviceFloor_eq, e1, e2, hs]
    congr 2
    · push_cast; ring
    · rw [List.range_succ, List.map_append, List.map_singleton, en]
    · simp only [filesAfter, e1, e2, DeviceDisk.mk.injEq]
      refine ⟨?_, ?_, ?_, ?_, trivial⟩
      · funext k
        by_cases hk : k = n / P.dumpSteps
        · subst hk; rw [Function.update_self, if_pos ((hmul _).mpr (Or.inl rfl)), en]
        · rw [Function.update_of_ne hk]
          by_cases h2 : k * P.dumpSteps < n
          · rw [if_pos h2, if_pos ((hmul k).mpr (Or.inr h2))]
          · rw [if_neg h2, if_neg (fun h3 => ((hmul k).mp h3).elim hk h2)]
      · funext k
        by_cases h0 : n = 0
        · subst h0
          simp only [Nat.zero_div, if_true]
          by_cases hk : k = 0
          · subst hk; simp
          · rw [Function.update_of_ne hk]; simp [hk]
        · have : 0 < n := by omega
          simp [h0, this]
      · funext k
        by_cases hk : k = n / P.dumpSteps
        · subst hk; rw [Function.update_self, if_pos ((hmul _).mpr (Or.inl rfl)), en]
        · rw [Function.update_of_ne hk]
          by_cases h2 : k * P.dumpSteps < n
          · rw [if_pos h2, if_pos ((hmul k).mpr (Or.inr h2))]
          · rw [if_neg h2, if_neg (fun h3 => ((hmul k).mp h3).elim hk h2)]
      · rw [if_pos (Nat.succ_pos n), List.range_succ, List.map_append, List.map_singleton, en]
  · have n0 : 0 < n := Nat.pos_of_ne_zero fun h0 => h (by rw [h0, Nat.zero_mod])
    have e := ceilDiv_same hd h
    have hmul : ∀ k, k * P.dumpSteps < n + 1 ↔ k * P.dumpSteps < n := fun k => by
      constructor
      · intro hk
        rcases Nat.lt_succ_iff_lt_or_eq.mp hk with h1 | h1
        · exact h1
        · exact absurd (by rw [← h1, Nat.mul_mod_left]) h
      · intro; omega
    simp only [stateAfter, h, if_false, deviceFloor_eq, e, hs]
    congr 2
    · push_cast; ring
    · simp only [filesAfter, e, hmul, Nat.succ_pos, n0, and_true, if_true]

theorem loop_functional {P : DeviceParams K} {solve : ℕ → K → K → (C → K) × R → (C → K) × R} {mom : (C → K) → M} {aux : R → A}
    {st : DeviceState C R K M A} {o o' : Except PyErr (DeviceState C R K M A)} (h : DeviceLoop P solve mom aux st o)
    (h' : DeviceLoop P solve mom aux st o') : o' = o := by
  induction h with
  | done hc =>
    cases h' with
    | done _ => rfl
    | fail hc' _ => exact absurd hc' hc
    | iter hc' _ _ => exact absurd hc' hc
  | fail hc hb =>
    cases h' with
    | done hc' => exact absurd hc hc'
    | fail _ hb' => rw [hb] at hb'; cases hb'; rfl
    | iter _ hb' _ => rw [hb] at hb'; cases hb'
  | iter hc hb _ ih =>
    cases h' with
    | done hc' => exact absurd hc hc'
    | fail _ hb' => rw [hb] at hb'; cases hb'
    | iter _ hb' hl => rw [hb] at hb'; cases hb'; exact ih hl

theorem loop_runs (P : DeviceParams K) (hdt : 0 < P.dt) (hd : 0 < P.dumpSteps) (solve : ℕ → K → K → (C → K) × R → (C → K) × R)
    (mom : (C → K) → M) (aux : R → A) (start : (C → K) × R) (disk : DeviceDisk (C → K) M A K) (k n : ℕ) (hn : n + k = ⌈P.tFinal / P.dt⌉₊) :
    DeviceLoop P solve mom aux (stateAfter P mom aux (deviceHistory solve P.floor P.dt P.iters start) disk n)
      (.ok (stateAfter P mom aux (deviceHistory solve P.floor P.dt P.iters start) disk ⌈P.tFinal / P.dt⌉₊)) := by
  induction k generalizing n with
  | zero =>
    rw [← hn, add_zero]
    refine .done ?_
    rw [add_zero] at hn
    simp only [stateAfter, not_lt]
    have := Nat.le_ceil (P.tFinal / P.dt)
    rw [← hn, div_le_iff₀ hdt] at this
    exact this
  | succ k ih =>
    refine .iter ?_ (body_step P hd solve mom aux start disk n) (ih (n + 1) (by omega))
    simp only [stateAfter]
    have : n < ⌈P.tFinal / P.dt⌉₊ := by omega
    rw [Nat.lt_ceil, lt_div_iff₀ hdt] at this
    exact this

/-- C102: the run of the device.  With a positive time step and number of steps between files, the script ends, after the least number `n` of steps that
reaches the final time (the clock overshoots it by less than a step).  Moments and Lagrange multipliers of the state after `k dump_steps` steps are in
files number `k`, for every `k` with `k dump_steps < n`; `dump_time_array.txt` lists their times; the initial distribution is in file 0 and the final one
in `f_laststep`.  All other files keep what an earlier run left in them. -/
theorem C102_device_run (P : DeviceParams K) (hdt : 0 < P.dt) (hT : 0 < P.tFinal) (hd : 0 < P.dumpSteps)
    (solve : ℕ → K → K → (C → K) × R → (C → K) × R) (mom : (C → K) → M) (aux : R → A) (file : Option (C → K)) (x0 : (C → K) × R)
    (disk : DeviceDisk (C → K) M A K) (f0 : C → K) (hf : if P.restart = true then file = some f0 else f0 = x0.1) :
    ∃ st, (∀ out, DeviceScript P solve mom aux file x0 disk out ↔ out = .ok st) ∧
      ∃ n : ℕ, 0 < n ∧ (((n : K) - 1) * P.dt < P.tFinal ∧ P.tFinal ≤ n * P.dt) ∧ st.t = n * P.dt ∧ st.timeStep = n ∧
        let hist := deviceHistory solve P.floor P.dt P.iters (f0, x0.2)
        st.nls = hist n ∧ st.disk.last = some (hist n).1 ∧
        (∀ k, st.disk.moments k = if k * P.dumpSteps < n then some (mom (hist (k * P.dumpSteps)).1) else disk.moments k) ∧
        (∀ k, st.disk.aux k = if k * P.dumpSteps < n then some (aux (hist (k * P.dumpSteps)).2) else disk.aux k) ∧
        (∀ k, st.disk.dist k = if k = 0 then some (hist 0).1 else disk.dist k) ∧
        ∃ m : ℕ, (∀ k : ℕ, k < m ↔ k * P.dumpSteps < n) ∧ st.disk.times = some ((List.range m).map fun k : ℕ => (k * P.dumpSteps : ℕ) * P.dt) := by
  let n := ⌈P.tFinal / P.dt⌉₊
  let hist := deviceHistory solve P.floor P.dt P.iters (f0, x0.2)
  have hn : 0 < n := Nat.ceil_pos.mpr (div_pos hT hdt)
  have h0 : stateAfter P mom aux hist disk 0 = ⟨(deviceFloor P.floor f0, x0.2), 0, 0, 0, [], disk⟩ := by
    have hc : (0 + P.dumpSteps - 1) / P.dumpSteps = 0 := Nat.div_eq_of_lt (by omega)
    have hh : hist 0 = (deviceFloor P.floor f0, x0.2) := by simp only [hist, deviceHistory, deviceFloor_eq]
    simp only [stateAfter, hc, hh, Nat.cast_zero, zero_mul, filesAfter, Nat.not_lt_zero, and_false, if_false, lt_self_iff_false]
    rfl
  have hrun := loop_runs P hdt hd solve mom aux (f0, x0.2) disk n 0 (by simp [n])
  rw [show stateAfter P mom aux (deviceHistory solve P.floor P.dt P.iters (f0, x0.2)) disk 0 = _ from h0] at hrun
  refine ⟨{ stateAfter P mom aux hist disk n with disk := { filesAfter mom aux P.dumpSteps P.dt hist disk n with last := some (hist n).1 } },
    fun out => ⟨?_, ?_⟩, n, hn, ⟨?_, ?_⟩, rfl, rfl, rfl, rfl, fun k => rfl, fun k => rfl, fun k => ?_, (n + P.dumpSteps - 1) / P.dumpSteps, fun k => ?_, ?_⟩
  · rintro (⟨hr, hno, -⟩ | ⟨f0', hf', r, hl, rfl⟩)
    · rw [if_pos hr, hno] at hf; cases hf
    · have : f0' = f0 := by
        split_ifs at hf hf'
        · rw [hf] at hf'; cases hf'; rfl
        · rw [hf, hf']
      subst this
      rw [loop_functional hrun hl]; rfl
  · rintro rfl
    exact Or.inr ⟨f0, hf, _, hrun, rfl⟩
  · have : n - 1 < ⌈P.tFinal / P.dt⌉₊ := by show n - 1 < n; omega
    rw [Nat.lt_ceil, lt_div_iff₀ hdt, Nat.cast_sub hn, Nat.cast_one] at this
    exact this
  · have := Nat.le_ceil (P.tFinal / P.dt)
    rwa [div_le_iff₀ hdt] at this
  · simp only [filesAfter, hn, and_true]; rfl
  · rw [Nat.lt_div_iff_mul_lt hd, show n + P.dumpSteps - 1 - (P.dumpSteps - 1) = n by omega]
  · simp only [filesAfter, if_pos hn]

/-- C102: with no steps between files the script raises `ZeroDivisionError` before the first step; a missing restart file also raises. -/
theorem C102_refuses (P : DeviceParams K) (solve : ℕ → K → K → (C → K) × R → (C → K) × R) (mom : (C → K) → M) (aux : R → A) (file : Option (C → K))
    (x0 : (C → K) × R) (disk : DeviceDisk (C → K) M A K) (out : Except PyErr (DeviceState C R K M A)) :
    (P.restart = true ∧ file = none → (DeviceScript P solve mom aux file x0 disk out ↔ out = .error .exception)) ∧
    (¬(P.restart = true ∧ file = none) → P.dumpSteps = 0 → 0 < P.tFinal →
      (DeviceScript P solve mom aux file x0 disk out ↔ out = .error .zeroDivision)) := by
  refine ⟨fun ⟨hr, hn⟩ => ⟨?_, fun h => Or.inl ⟨hr, hn, h⟩⟩, fun hno hd hT => ⟨?_, ?_⟩⟩
  · rintro (⟨-, -, h⟩ | ⟨f0, hf, -⟩)
    · exact h
    · rw [if_pos hr, hn] at hf; cases hf
  · rintro (⟨hr, hn, -⟩ | ⟨f0, hf, r, hl, rfl⟩)
    · exact absurd ⟨hr, hn⟩ hno
    · have := loop_functional (.fail (e := .zeroDivision) (by exact hT) (by simp [deviceBody, hd])) hl
      rw [this]; rfl
  · rintro rfl
    have : ∃ f0, if P.restart = true then file = some f0 else f0 = x0.1 := by
      split_ifs with hr
      · exact Option.ne_none_iff_exists'.mp fun h => hno ⟨hr, h⟩
      · exact ⟨_, rfl⟩
    obtain ⟨f0, hf⟩ := this
    exact Or.inr ⟨f0, hf, _, .fail (e := .zeroDivision) (by exact hT) (by simp [deviceBody, hd]), rfl⟩

/-- C102: the distribution is at least the floor in every cell before every step and in every file; raising it never takes electrons away, and a
distribution that is nowhere below the floor is left as it is. -/
theorem C102_floor (solve : ℕ → K → K → (C → K) × R → (C → K) × R) (a dt : K) (iters : ℕ) (start : (C → K) × R) :
    (∀ n i, a ≤ (deviceHistory solve a dt iters start n).1 i) ∧
    (∀ (f : C → K) i, f i ≤ deviceFloor a f i ∧ deviceFloor a f i ≤ max (f i) a) ∧
    ∀ f : C → K, deviceFloor a f = f ↔ ∀ i, a ≤ f i := by
  refine ⟨fun n i => ?_, fun f i => ?_, fun f => ⟨fun h i => ?_, fun h => ?_⟩⟩
  · cases n <;> exact le_max_right _ _
  · rw [deviceFloor_eq]; exact ⟨le_max_left _ _, le_rfl⟩
  · rw [← h, deviceFloor_eq]; exact le_max_right _ _
  · rw [deviceFloor_eq]; funext i; exact max_eq_left (h i)

/-- C102: a restart continues the run if the solver's step does not depend on the time, the number of iterations, or anything but the distribution:
`n` steps from the distribution after `m` steps give the distribution after `m + n` steps. -/
theorem C102_restart_continues (step : K → (C → K) → C → K) (solve : ℕ → K → K → (C → K) × R → (C → K) × R)
    (hs : ∀ j t h x, (solve j t h x).1 = step h x.1) (a dt : K) (iters : ℕ) (start : (C → K) × R) (r0 : R) (m n : ℕ) :
    (deviceHistory solve a dt iters ((deviceHistory solve a dt iters start m).1, r0) n).1 = (deviceHistory solve a dt iters start (m + n)).1 := by
  induction n with
  | zero =>
    funext i
    have := (C102_floor solve a dt iters start).1 m i
    simp only [deviceHistory, raisedTo, add_zero]
    exact max_eq_left this
  | succ n ih =>
    rw [← add_assoc]
    simp only [deviceHistory, hs, ih]

end loop

section restart

/-- A solver whose boundary drives the gas with the time the script reports: it adds `t` to every cell. -/
def driven : ℕ → ℚ → ℚ → (Unit → ℚ) × Unit → (Unit → ℚ) × Unit := fun _ t dt x => (fun i => x.1 i + dt * t, x.2)

/-- C102 (negative): the restarted script sets the clock and the file numbers to zero: a driven device does not continue where it stopped. -/
theorem C102_restart_forgets_time :
    (deviceHistory driven 0 1 2 ((deviceHistory driven 0 1 2 (fun _ => 0, ()) 2).1, ()) 2).1 () ≠ (deviceHistory driven 0 1 2 (fun _ => 0, ()) (2 + 2)).1 () := by
  simp [deviceHistory, driven, raisedTo]
  norm_num

/-- A run of 3 steps with a file every second step: files 0 and 1. -/
example : ∃ st, (∀ out, DeviceScript (C := Unit) (R := Unit) (M := ℚ) (A := Unit) ⟨1, 5 / 2, 2, 2, false, 0⟩ driven (fun f => f ()) id none (fun _ => 5, ())
      ⟨fun _ => none, fun _ => none, fun _ => none, none, none⟩ out ↔ out = .ok st) ∧
    st.timeStep = 3 ∧ st.disk.moments 0 = some 5 ∧ st.disk.moments 1 = some 6 ∧ st.disk.moments 2 = none := by
  obtain ⟨st, h1, n, hn, ⟨b1, b2⟩, -, hs, -, -, hm, -⟩ := C102_device_run (C := Unit) (R := Unit) (M := ℚ) (A := Unit) ⟨1, 5 / 2, 2, 2, false, 0⟩
    (by norm_num) (by norm_num) (by norm_num) driven (fun f => f ()) id none (fun _ => 5, ())
      ⟨fun _ => none, fun _ => none, fun _ => none, none, none⟩ (fun _ => 5) (by simp)
  have hn3 : n = 3 := by
    have l1 : ((n : ℕ) : ℚ) < 4 := by linarith
    have l2 : (2 : ℚ) < n := by linarith
    have l1' : n < 4 := by exact_mod_cast l1
    have l2' : 2 < n := by exact_mod_cast l2
    omega
  subst hn3
  refine ⟨st, h1, hs, ?_, ?_, ?_⟩
  · rw [hm]; norm_num [deviceHistory, raisedTo]
  · rw [hm]; norm_num [deviceHistory, raisedTo, driven]
  · rw [hm]; norm_num

end restart

section contact

theorem contactPx_ok {g : String} (hg : g = "cartesian" ∨ g = "polar2D") (p1 p2 : ℝ) :
    contactPx g p1 p2 = .ok (if g = "cartesian" then p1 else p1 * Real.cos p2) := by
  rcases hg with rfl | rfl
  · rfl
  · rw [contactPx, if_neg (by decide), if_pos rfl, if_neg (by decide)]

theorem occupation_bounds (kT mu v E px : ℝ) : 0 < occupation kT mu v E px ∧ occupation kT mu v E px < 1 := by
  have := Real.exp_pos ((E - v * px - mu) / kT)
  constructor
  · unfold occupation; positivity
  · rw [occupation, div_lt_one (by positivity)]; linarith

/-- C102: the values at the contacts.  `px` is the momentum across the device and the drift velocity oscillates with the time the script reports.  Where
there is a contact the function returns the Fermi-Dirac occupation of a drifting gas, elsewhere the value it was given (the mirror image).  With
straight contacts there is one on each side; with `turn_around` there are two on the left, with opposite drifts, and none on the right. -/
theorem C102_contacts (cp : ContactParams) (now t f q2 p1 p2 E : ℝ) (hg : cp.pGrid = "cartesian" ∨ cp.pGrid = "polar2D") :
    let px := if cp.pGrid = "cartesian" then p1 else p1 * Real.cos p2
    let drift := Real.sin (2 * Real.pi * cp.freq * now)
    (cp.geometry = "straight" →
      contactLeft cp now t f q2 p1 p2 E =
        .ok (if cp.contactStart ≤ q2 ∧ q2 ≤ cp.contactEnd then occupation (cp.k * cp.T) cp.mu (cp.velIn * drift) E px else f) ∧
      contactRight cp now t f q2 p1 p2 E =
        .ok (if cp.contactStart ≤ q2 ∧ q2 ≤ cp.contactEnd then occupation (cp.k * cp.T) cp.mu (cp.velOut * drift) E px else f)) ∧
    (cp.geometry = "turn_around" →
      contactLeft cp now t f q2 p1 p2 E =
        .ok (if 7 / 2 ≤ q2 ∧ q2 ≤ 9 / 2 then occupation (cp.k * cp.T) cp.mu (cp.velIn * drift) E px
          else if 11 / 2 ≤ q2 ∧ q2 ≤ 13 / 2 then occupation (cp.k * cp.T) cp.mu (-(cp.velIn * drift)) E px else f) ∧
      contactRight cp now t f q2 p1 p2 E = .ok f) := by
  intro px drift
  have hpx : contactPx cp.pGrid p1 p2 = .ok px := contactPx_ok hg p1 p2
  refine ⟨fun h => ?_, fun h => ?_⟩
  · constructor
    · simp only [contactLeft, hpx, h, if_true, bind, Except.bind, pure, Except.pure, condNum, ge_iff_le]
      congr 1
      split_ifs <;> simp [contactFD, occupation, drift]
    · simp only [contactRight, hpx, h, if_true, bind, Except.bind, pure, Except.pure, condNum, ge_iff_le]
      congr 1
      split_ifs <;> simp [contactFD, occupation, drift]
  · have h1 : cp.geometry ≠ "straight" := by rw [h]; decide
    constructor
    · simp only [contactLeft, hpx, if_neg h1, if_pos h, bind, Except.bind, pure, Except.pure, condNum, ge_iff_le]
      have e1 : ((3.5 : ℝ) ≤ q2 ∧ q2 ≤ 4.5) ↔ (7 / 2 ≤ q2 ∧ q2 ≤ 9 / 2) := by norm_num
      have e2 : ((5.5 : ℝ) ≤ q2 ∧ q2 ≤ 6.5) ↔ (11 / 2 ≤ q2 ∧ q2 ≤ 13 / 2) := by norm_num
      simp only [e1, e2]
      by_cases c1 : 7 / 2 ≤ q2 ∧ q2 ≤ 9 / 2
      · have c2 : ¬(11 / 2 ≤ q2 ∧ q2 ≤ 13 / 2) := fun h => by linarith [c1.2, h.1]
        simp [c1, c2, contactFD, occupation, drift]
      · by_cases c2 : 11 / 2 ≤ q2 ∧ q2 ≤ 13 / 2
        · simp [c1, c2, contactFD, occupation, drift]
        · simp [c1, c2]
    · simp only [contactRight, hpx, if_neg h1, if_pos h, bind, Except.bind, pure, Except.pure]

/-- C102: other names raise: a momentum grid that is neither cartesian nor polar `NotImplementedError`, a contact geometry that is neither of the two a
`NameError`. -/
theorem C102_contact_names (cp : ContactParams) (now t f q2 p1 p2 E : ℝ) :
    (¬(cp.pGrid = "cartesian" ∨ cp.pGrid = "polar2D") →
      contactLeft cp now t f q2 p1 p2 E = .error .notImplemented ∧ contactRight cp now t f q2 p1 p2 E = .error .notImplemented) ∧
    (cp.pGrid = "cartesian" ∨ cp.pGrid = "polar2D" → ¬(cp.geometry = "straight" ∨ cp.geometry = "turn_around") →
      contactLeft cp now t f q2 p1 p2 E = .error .nameError ∧ contactRight cp now t f q2 p1 p2 E = .error .nameError) := by
  refine ⟨fun h => ?_, fun hg h => ?_⟩
  · push Not at h
    have : contactPx cp.pGrid p1 p2 = .error .notImplemented := by rw [contactPx, if_neg h.1, if_neg h.2]
    simp only [contactLeft, contactRight, this]
    exact ⟨rfl, rfl⟩
  · push Not at h
    simp only [contactLeft, contactRight, contactPx_ok hg, if_neg h.1, if_neg h.2]
    exact ⟨rfl, rfl⟩

/-- C102: occupations stay between 0 and 1 at the contacts. -/
theorem C102_exclusion (cp : ContactParams) (now t f q2 p1 p2 E g : ℝ) (hf : 0 ≤ f ∧ f ≤ 1)
    (h : contactLeft cp now t f q2 p1 p2 E = .ok g ∨ contactRight cp now t f q2 p1 p2 E = .ok g) : 0 ≤ g ∧ g ≤ 1 := by
  by_cases hg : cp.pGrid = "cartesian" ∨ cp.pGrid = "polar2D"
  · have key : ∀ a b c d e, 0 ≤ occupation a b c d e ∧ occupation a b c d e ≤ 1 := fun a b c d e =>
      ⟨(occupation_bounds a b c d e).1.le, (occupation_bounds a b c d e).2.le⟩
    by_cases hs : cp.geometry = "straight" ∨ cp.geometry = "turn_around"
    · rcases hs with hs | hs
      · obtain ⟨e1, e2⟩ := (C102_contacts cp now t f q2 p1 p2 E hg).1 hs
        rw [e1, e2] at h
        rcases h with h | h <;> cases h <;> split_ifs <;> first | exact key _ _ _ _ _ | exact hf
      · obtain ⟨e1, e2⟩ := (C102_contacts cp now t f q2 p1 p2 E hg).2 hs
        rw [e1, e2] at h
        rcases h with h | h <;> cases h
        · split_ifs <;> first | exact key _ _ _ _ _ | exact hf
        · exact hf
    · obtain ⟨e1, e2⟩ := (C102_contact_names cp now t f q2 p1 p2 E).2 hg hs
      rw [e1, e2] at h
      rcases h with h | h <;> cases h
  · obtain ⟨e1, e2⟩ := (C102_contact_names cp now t f q2 p1 p2 E).1 hg
    rw [e1, e2] at h
    rcases h with h | h <;> cases h

/-- C102 (negative): the time handed to the boundary function has no effect: both stages of a time step use the drive of the time at which the script
last set `params.current_time`, the beginning of the step. -/
theorem C102_drive_frozen (cp : ContactParams) (now t t' f q2 p1 p2 E : ℝ) :
    contactLeft cp now t f q2 p1 p2 E = contactLeft cp now t' f q2 p1 p2 E ∧ contactRight cp now t f q2 p1 p2 E = contactRight cp now t' f q2 p1 p2 E :=
  ⟨rfl, rfl⟩

variable {S : Type} {Np1 Np2 Np3 : ℕ}

/-- C102: the ghost cells at the left wall of the device.  Electrons that enter come out of the contact (with the occupation of the contact) where there is
one, and are mirror images elsewhere; what a ghost cell holds for electrons that leave is always a mirror image. -/
theorem C102_left_ghosts {n1 n2 g : ℕ} (env : BCEnv S Np1 Np2 Np3 (n1 + 2 * g) (n2 + 2 * g) ℝ) (hg : env.g = g) (hp : env.pGrid = "polar2D")
    (hn1 : 0 < n1) (hname : env.name .left = "mirror+dirichlet") (hw : env.touches .left = true) (hq : env.solverMethodInQ = "FVM")
    (cp : ContactParams) (hcp : cp.pGrid = "polar2D" ∧ cp.geometry = "straight") (now t : ℝ) (q2 : ZMod (n2 + 2 * g) → ℝ)
    (p1 p2 E : S → PIdx Np1 Np2 Np3 → ℝ)
    (huser : ∀ f s p i, contactLeft cp now t (f s p i) (q2 i.2) (p1 s p) (p2 s p) (E s p) = .ok (env.user .left f s p i))
    (f f' : LDist S Np1 Np2 Np3 (n1 + 2 * g) (n2 + 2 * g) ℝ) (h : atWall env .left f = .ok f') (s : S) (p : PIdx Np1 Np2 Np3) (d : ℕ) (hd : d < g)
    (b : ZMod (n2 + 2 * g)) :
    f' s p ((g - 1 - d : ℕ), b) =
      if 0 < env.Cq1 s p ((g - 1 - d : ℕ), b) ∧ cp.contactStart ≤ q2 b ∧ q2 b ≤ cp.contactEnd then
        occupation (cp.k * cp.T) cp.mu (cp.velIn * Real.sin (2 * Real.pi * cp.freq * now)) (E s p) (p1 s p * Real.cos (p2 s p))
      else f s (p.1, flipHalves p.2.1, p.2.2) ((g + d : ℕ), b) := by
  have z1 : NeZero (n1 + 2 * g) := ⟨by omega⟩
  obtain ⟨f1, hf1, hval⟩ := C28_mirror_dirichlet env .left hw hname f f' h
  have v : ((g - 1 - d : ℕ) : ZMod (n1 + 2 * g)).val = g - 1 - d := val_natCast_lt (by omega)
  have hin : inSlab env.g .left (((g - 1 - d : ℕ) : ZMod (n1 + 2 * g)), b) := by simp only [inSlab, v, hg]; omega
  have hm : f1 s p ((g - 1 - d : ℕ), b) = f s (p.1, flipHalves p.2.1, p.2.2) ((g + d : ℕ), b) := by
    rw [mirrorF, if_neg (by rw [hp]; decide), if_pos hp, mirrorPolar] at hf1
    by_cases hpar : (Wall.left = .left ∨ Wall.left = .right) ∧ Np2 % 2 = 1
    · rw [if_pos hpar] at hf1; cases hf1
    rw [if_neg hpar] at hf1
    cases hf1
    have hin' := hin
    rw [hg] at hin'
    simp only [setSlab, flipPolar, hg]
    rw [if_pos hin', mirrorSpace_left, if_pos (by rw [v]; omega), v]
    have : 2 * g - 1 - (g - 1 - d) = g + d := by omega
    rw [this]
  have hinw : Inward .left (normalVelocity env .left s p ((g - 1 - d : ℕ), b)) ↔ 0 < env.Cq1 s p ((g - 1 - d : ℕ), b) := by
    simp only [Inward, normalVelocity, BCEnv.velocity, if_pos hq]
  by_cases hv : 0 < env.Cq1 s p ((g - 1 - d : ℕ), b)
  · rw [(hval s p _).1 ⟨hin, hinw.mpr hv⟩]
    have hu := huser f1 s p (((g - 1 - d : ℕ) : ZMod (n1 + 2 * g)), b)
    rw [((C102_contacts cp now t _ _ _ _ _ (Or.inr hcp.1)).1 hcp.2).1] at hu
    have hu := (Except.ok.inj hu).symm
    rw [hu, if_neg (show ¬cp.pGrid = "cartesian" by rw [hcp.1]; decide), hm]
    by_cases hc : cp.contactStart ≤ q2 b ∧ q2 b ≤ cp.contactEnd
    · rw [if_pos hc, if_pos ⟨hv, hc⟩]
    · rw [if_neg hc, if_neg fun h => hc h.2]
  · rw [(hval s p _).2 fun h => hv (hinw.mp h.2), hm, if_neg fun h => hv h.1]

/-- C102: the ghost cells at the right wall of the device.  Here electrons enter when they move to the left. -/
theorem C102_right_ghosts {n1 n2 g : ℕ} (env : BCEnv S Np1 Np2 Np3 (n1 + 2 * g) (n2 + 2 * g) ℝ) (hg : env.g = g) (hp : env.pGrid = "polar2D")
    (hn1 : 0 < n1) (hname : env.name .right = "mirror+dirichlet") (hw : env.touches .right = true) (hq : env.solverMethodInQ = "FVM")
    (cp : ContactParams) (hcp : cp.pGrid = "polar2D" ∧ cp.geometry = "straight") (now t : ℝ) (q2 : ZMod (n2 + 2 * g) → ℝ)
    (p1 p2 E : S → PIdx Np1 Np2 Np3 → ℝ)
    (huser : ∀ f s p i, contactRight cp now t (f s p i) (q2 i.2) (p1 s p) (p2 s p) (E s p) = .ok (env.user .right f s p i))
    (f f' : LDist S Np1 Np2 Np3 (n1 + 2 * g) (n2 + 2 * g) ℝ) (h : atWall env .right f = .ok f') (s : S) (p : PIdx Np1 Np2 Np3) (d : ℕ) (hd : d < g)
    (b : ZMod (n2 + 2 * g)) :
    f' s p ((n1 + g + d : ℕ), b) =
      if env.Cq1 s p ((n1 + g + d : ℕ), b) < 0 ∧ cp.contactStart ≤ q2 b ∧ q2 b ≤ cp.contactEnd then
        occupation (cp.k * cp.T) cp.mu (cp.velOut * Real.sin (2 * Real.pi * cp.freq * now)) (E s p) (p1 s p * Real.cos (p2 s p))
      else f s (p.1, flipHalves p.2.1, p.2.2) ((n1 + g - 1 - d : ℕ), b) := by
  have z1 : NeZero (n1 + 2 * g) := ⟨by omega⟩
  obtain ⟨f1, hf1, hval⟩ := C28_mirror_dirichlet env .right hw hname f f' h
  have v : ((n1 + g + d : ℕ) : ZMod (n1 + 2 * g)).val = n1 + g + d := val_natCast_lt (by omega)
  have hin : inSlab env.g .right (((n1 + g + d : ℕ) : ZMod (n1 + 2 * g)), b) := by simp only [inSlab, v, hg]; omega
  have hm : f1 s p ((n1 + g + d : ℕ), b) = f s (p.1, flipHalves p.2.1, p.2.2) ((n1 + g - 1 - d : ℕ), b) := by
    rw [mirrorF, if_neg (by rw [hp]; decide), if_pos hp, mirrorPolar] at hf1
    by_cases hpar : (Wall.right = .left ∨ Wall.right = .right) ∧ Np2 % 2 = 1
    · rw [if_pos hpar] at hf1; cases hf1
    rw [if_neg hpar] at hf1
    cases hf1
    have hin' := hin
    rw [hg] at hin'
    simp only [setSlab, flipPolar, hg]
    rw [if_pos hin', mirrorSpace_right _ (by omega), if_pos (by rw [v]; omega), v]
    have : 2 * (n1 + 2 * g - g) - 1 - (n1 + g + d) = n1 + g - 1 - d := by omega
    rw [this]
  have hinw : Inward .right (normalVelocity env .right s p ((n1 + g + d : ℕ), b)) ↔ env.Cq1 s p ((n1 + g + d : ℕ), b) < 0 := by
    simp only [Inward, normalVelocity, BCEnv.velocity, if_pos hq]
  by_cases hv : env.Cq1 s p ((n1 + g + d : ℕ), b) < 0
  · rw [(hval s p _).1 ⟨hin, hinw.mpr hv⟩]
    have hu := huser f1 s p (((n1 + g + d : ℕ) : ZMod (n1 + 2 * g)), b)
    rw [((C102_contacts cp now t _ _ _ _ _ (Or.inr hcp.1)).1 hcp.2).2] at hu
    have hu := (Except.ok.inj hu).symm
    rw [hu, if_neg (show ¬cp.pGrid = "cartesian" by rw [hcp.1]; decide), hm]
    by_cases hc : cp.contactStart ≤ q2 b ∧ q2 b ≤ cp.contactEnd
    · rw [if_pos hc, if_pos ⟨hv, hc⟩]
    · rw [if_neg hc, if_neg fun h => hc h.2]
  · rw [(hval s p _).2 fun h => hv (hinw.mp h.2), hm, if_neg fun h => hv h.1]

/-- A device with a contact from 1 to 2 on the left. -/
noncomputable def exContact : ContactParams := ⟨1, 1, 0, 1, 1, 1, 1, 2, "straight", "polar2D"⟩

/-- Three by three cells, two ghost cells, four directions, of which the second and third point to the right. -/
noncomputable def exDevice : BCEnv Unit 1 4 1 (3 + 2 * 2) (3 + 2 * 2) ℝ where
  Cq1 := fun _ p _ => if p.2.1 = 1 ∨ p.2.1 = 2 then 1 else -1
  Cq2 := fun _ _ _ => 0
  Aq1 := fun _ _ _ => 0
  Aq2 := fun _ _ _ => 0
  user := fun _ f s p i => if 1 ≤ (i.2.val : ℝ) ∧ (i.2.val : ℝ) ≤ 2 then occupation (1 * 1) 0 (1 * Real.sin (2 * Real.pi * 1 * (1 / 4))) 1 (1 * Real.cos 0) else f s p i
  sheared := fun _ f => f
  g := 2
  name := fun _ => "mirror+dirichlet"
  pGrid := "polar2D"
  solverMethodInQ := "FVM"
  start1 := 0
  start2 := 0
  nLocal1 := 3
  nLocal2 := 3
  N1 := 3
  N2 := 3

/-- The wall exists and the theorem tells the ghost cells apart: next to the contact, entering and leaving electrons; away from it. -/
example (f : LDist Unit 1 4 1 (3 + 2 * 2) (3 + 2 * 2) ℝ) : ∃ f', atWall exDevice .left f = .ok f' ∧
    f' () (0, 1, 0) ((2 - 1 - 0 : ℕ), 2) = occupation (1 * 1) 0 (1 * Real.sin (2 * Real.pi * 1 * (1 / 4))) 1 (1 * Real.cos 0) ∧
    f' () (0, 0, 0) ((2 - 1 - 0 : ℕ), 2) = f () (0, flipHalves 0, 0) ((2 + 0 : ℕ), 2) ∧
    f' () (0, 1, 0) ((2 - 1 - 0 : ℕ), 3) = f () (0, flipHalves 1, 0) ((2 + 0 : ℕ), 3) := by
  have hu : ∀ f s p (i : ZMod (3 + 2 * 2) × ZMod (3 + 2 * 2)),
      contactLeft exContact (1 / 4) 7 (f s p i) (i.2.val : ℝ) 1 0 1 = .ok (exDevice.user .left f s p i) := fun f s p i =>
    ((C102_contacts exContact (1 / 4) 7 (f s p i) (i.2.val : ℝ) 1 0 1 (Or.inr rfl)).1 rfl).1
  refine ⟨_, rfl, ?_, ?_, ?_⟩
  · rw [C102_left_ghosts (n1 := 3) (n2 := 3) (g := 2) exDevice rfl rfl (by norm_num) rfl rfl rfl exContact ⟨rfl, rfl⟩ (1 / 4) 7 (fun b => (b.val : ℝ))
      (fun _ _ => 1) (fun _ _ => 0) (fun _ _ => 1) hu f _ rfl () (0, 1, 0) 0 (by norm_num) 2, if_pos]
    · rfl
    · have : ((2 : ZMod (3 + 2 * 2)).val : ℝ) = 2 := by norm_cast
      simp only [this, exContact, exDevice]
      norm_num
  · rw [C102_left_ghosts (n1 := 3) (n2 := 3) (g := 2) exDevice rfl rfl (by norm_num) rfl rfl rfl exContact ⟨rfl, rfl⟩ (1 / 4) 7 (fun b => (b.val : ℝ))
      (fun _ _ => 1) (fun _ _ => 0) (fun _ _ => 1) hu f _ rfl () (0, 0, 0) 0 (by norm_num) 2, if_neg]
    rintro ⟨h, -⟩
    have : ¬((0 : ZMod 4) = 1 ∨ (0 : ZMod 4) = 2) := by decide
    simp only [exDevice, if_neg this] at h
    norm_num at h
  · rw [C102_left_ghosts (n1 := 3) (n2 := 3) (g := 2) exDevice rfl rfl (by norm_num) rfl rfl rfl exContact ⟨rfl, rfl⟩ (1 / 4) 7 (fun b => (b.val : ℝ))
      (fun _ _ => 1) (fun _ _ => 0) (fun _ _ => 1) hu f _ rfl () (0, 1, 0) 0 (by norm_num) 3, if_neg]
    rintro ⟨-, -, h⟩
    have : ((3 : ZMod (3 + 2 * 2)).val : ℝ) = 3 := by norm_cast
    simp only [this, exContact] at h
    norm_num at h

/-- The same at the right wall: the first and fourth directions enter there. -/
example (f : LDist Unit 1 4 1 (3 + 2 * 2) (3 + 2 * 2) ℝ) : ∃ f', atWall exDevice .right f = .ok f' ∧
    f' () (0, 0, 0) ((3 + 2 + 1 : ℕ), 2) = occupation (1 * 1) 0 (1 * Real.sin (2 * Real.pi * 1 * (1 / 4))) 1 (1 * Real.cos 0) ∧
    f' () (0, 1, 0) ((3 + 2 + 1 : ℕ), 2) = f () (0, flipHalves 1, 0) ((3 + 2 - 1 - 1 : ℕ), 2) := by
  have hu : ∀ f s p (i : ZMod (3 + 2 * 2) × ZMod (3 + 2 * 2)),
      contactRight exContact (1 / 4) 7 (f s p i) (i.2.val : ℝ) 1 0 1 = .ok (exDevice.user .right f s p i) := fun f s p i =>
    ((C102_contacts exContact (1 / 4) 7 (f s p i) (i.2.val : ℝ) 1 0 1 (Or.inr rfl)).1 rfl).2
  refine ⟨_, rfl, ?_, ?_⟩
  · rw [C102_right_ghosts (n1 := 3) (n2 := 3) (g := 2) exDevice rfl rfl (by norm_num) rfl rfl rfl exContact ⟨rfl, rfl⟩ (1 / 4) 7 (fun b => (b.val : ℝ))
      (fun _ _ => 1) (fun _ _ => 0) (fun _ _ => 1) hu f _ rfl () (0, 0, 0) 1 (by norm_num) 2, if_pos]
    · rfl
    · have : ((2 : ZMod (3 + 2 * 2)).val : ℝ) = 2 := by norm_cast
      have h2 : ¬((0 : ZMod 4) = 1 ∨ (0 : ZMod 4) = 2) := by decide
      simp only [this, exContact, exDevice, if_neg h2]
      norm_num
  · rw [C102_right_ghosts (n1 := 3) (n2 := 3) (g := 2) exDevice rfl rfl (by norm_num) rfl rfl rfl exContact ⟨rfl, rfl⟩ (1 / 4) 7 (fun b => (b.val : ℝ))
      (fun _ _ => 1) (fun _ _ => 0) (fun _ _ => 1) hu f _ rfl () (0, 1, 0) 1 (by norm_num) 2, if_neg]
    rintro ⟨h, -⟩
    simp only [exDevice, true_or, if_true] at h
    norm_num at h

end contact

section band

/-- C102: the band.  On either grid, away from zero momentum, the energy is the Fermi velocity times the magnitude of the momentum; the velocity is along
the momentum and slower than the Fermi velocity, by the factor `p / (p + tiny)`. -/
theorem C102_band (vF tiny : ℝ) (hv : 0 < vF) (ht : 0 < tiny) (g : String) (p1 p2 x y : ℝ) (hg : bandP g p1 p2 = .ok (x, y))
    (hp : x ^ 2 + y ^ 2 ≠ 0) :
    ∃ E vx vy, bandEnergy vF g p1 p2 = .ok E ∧ bandVelocity vF tiny g p1 p2 = .ok (vx, vy) ∧ 0 < E ∧ E ^ 2 = vF ^ 2 * (x ^ 2 + y ^ 2) ∧
      (∃ c > 0, vx = c * x ∧ vy = c * y) ∧ vx ^ 2 + vy ^ 2 < vF ^ 2 ∧
      (vx ^ 2 + vy ^ 2) * (E + vF * tiny) ^ 2 = vF ^ 2 * E ^ 2 := by
  have h0 : 0 < x ^ 2 + y ^ 2 := lt_of_le_of_ne (by positivity) (Ne.symm hp)
  have hs := Real.sq_sqrt h0.le
  have hs0 := Real.sqrt_pos.mpr h0
  have e1 : bandEnergy vF g p1 p2 = .ok (Real.sqrt (x ^ 2 + y ^ 2) * vF) := by rw [bandEnergy, hg]; rfl
  have e2 : bandVelocity vF tiny g p1 p2 =
      .ok (vF * (x / (Real.sqrt (x ^ 2 + y ^ 2) + tiny)), vF * (y / (Real.sqrt (x ^ 2 + y ^ 2) + tiny))) := by rw [bandVelocity, hg]; rfl
  generalize Real.sqrt (x ^ 2 + y ^ 2) = p at *
  have hpt : 0 < p + tiny := by positivity
  have hsum : (vF * (x / (p + tiny))) ^ 2 + (vF * (y / (p + tiny))) ^ 2 = vF ^ 2 * (p / (p + tiny)) ^ 2 := by
    rw [mul_pow, mul_pow, div_pow, div_pow, div_pow, ← mul_add, ← add_div, ← hs]
  refine ⟨_, _, _, e1, e2, by positivity, by rw [mul_pow, hs]; ring, ⟨vF / (p + tiny), by positivity, by ring, by ring⟩, ?_, ?_⟩
  · rw [hsum]
    have l : (p / (p + tiny)) ^ 2 < 1 := by
      rw [div_pow, div_lt_one (by positivity)]
      exact pow_lt_pow_left₀ (by linarith) hs0.le two_ne_zero
    have : 0 < vF ^ 2 := by positivity
    calc vF ^ 2 * (p / (p + tiny)) ^ 2 < vF ^ 2 * 1 := by exact mul_lt_mul_of_pos_left l this
      _ = vF ^ 2 := mul_one _
  · rw [hsum]; field_simp

/-- C102: the velocity without the regularisation is the gradient of the energy with respect to the momentum. -/
theorem C102_velocity_is_gradient (vF x y : ℝ) (hp : x ^ 2 + y ^ 2 ≠ 0) :
    ∃ E : ℝ → ℝ → ℝ, (∀ x y, bandEnergy vF "cartesian" x y = .ok (E x y)) ∧
      ∃ vx vy, bandVelocity vF 0 "cartesian" x y = .ok (vx, vy) ∧ HasDerivAt (fun x => E x y) vx x ∧ HasDerivAt (fun y => E x y) vy y := by
  have h0 : 0 < x ^ 2 + y ^ 2 := lt_of_le_of_ne (by positivity) (Ne.symm hp)
  have hs0 := (Real.sqrt_pos.mpr h0).ne'
  refine ⟨fun x y => Real.sqrt (x ^ 2 + y ^ 2) * vF, fun _ _ => rfl, _, _, rfl, ?_, ?_⟩
  · refine (HasDerivAt.mul_const (HasDerivAt.sqrt ((hasDerivAt_pow 2 x).add_const (y ^ 2)) hp) vF).congr_deriv ?_
    simp only [add_zero]
    field_simp
    push_cast; ring
  · refine (HasDerivAt.mul_const (HasDerivAt.sqrt ((hasDerivAt_pow 2 y).const_add (x ^ 2)) hp) vF).congr_deriv ?_
    simp only [add_zero]
    field_simp
    push_cast; ring

example : ∃ x y : ℝ, bandP "polar2D" 2 0 = .ok (x, y) ∧ x ^ 2 + y ^ 2 ≠ 0 :=
  ⟨2 * Real.cos 0, 2 * Real.sin 0, by rw [bandP, if_neg (by decide), if_pos rfl], by simp⟩

end band

end Bolt
