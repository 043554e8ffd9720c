import Verif.Props.MachineFields

/-!
# C111: what rounding does to the laws of the field solver
-/

set_option linter.unusedSectionVars false

namespace Bolt

open Machine

section rounded
variable {Q K : Type} [AddCommGroup Q] [Field K] [LinearOrder K] [IsStrictOrderedRing K] {rnd : K → K} [M : Machine K]
  (hM : M = roundedMachine rnd) {u : K} (hr : AccurateTo u rnd)
include hM hr

/-- **C111 (uniform fields).** With rounding, uniform fields without currents are still kept to the last bit by any number of steps of any size. -/
theorem C111_uniform_fields_kept (pr : FieldParams Q K) (dts : List K) (e1 e2 e3 b1 b2 b3 : K)
    (h1 : Representable rnd e1) (h2 : Representable rnd e2) (h3 : Representable rnd e3)
    (k1 : Representable rnd b1) (k2 : Representable rnd b2) (k3 : Representable rnd b3) :
    Mach.runFDTD pr (dts.map fun dt => (dt, Currents.zero)) (EM.const e1 e2 e3 b1 b2 b3 : EM Q K) = EM.const e1 e2 e3 b1 b2 b3 := by
  have z : rnd 0 = 0 := Mach.rnd_zero hr.2
  unfold Representable at *
  induction dts with
  | nil => rfl
  | cons dt rest ih =>
    rw [List.map_cons, Mach.runFDTD]
    convert ih using 2
    simp [Mach.fdtd, Mach.evolveB, Mach.evolveE, Mach.pushE, Mach.curlB1, Mach.curlB2, Mach.curlB3, Mach.curlE1, Mach.curlE2, Mach.curlE3,
      EM.const, Currents.zero, afShift, Mach.r_add hM, Mach.r_sub hM, Mach.r_mul hM, Mach.r_div hM, Mach.r_neg hM, z, *]

theorem mach_divB_step (hu : u ≤ 1 / 8) (pr : FieldParams Q K) (h1 : 0 < pr.dq1) (h2 : 0 < pr.dq2) (dt MB ME : K) (F : EM Q K)
    (hF : MagneticBounded MB ME F) (i : Q) :
    |divB pr (Mach.evolveB pr dt F) i - divB pr F i| ≤
      10 * u * (MB * (1 / pr.dq1 + 1 / pr.dq2) + 4 * |dt| * ME / (pr.dq1 * pr.dq2)) := by
  have hu0 := hr.1
  have B1 : ∀ j, |(Mach.evolveB pr dt F).B1 j - (evolveB pr dt F).B1 j| ≤ 5 * u * (MB + 2 * ME / pr.dq2 * |dt|) := by
    intro j
    have h := (Mach.pushB_app hM hr (F.B1 j) dt (F.E3 j) (afShift pr.q2 1 F.E3 j) pr.dq2).2
    refine h.trans (mul_le_mul (Mach.pow4_le hu0 hu) ?_ (by positivity) (by linarith))
    rw [abs_of_pos h2]
    have := (abs_sub (F.E3 j) (afShift pr.q2 1 F.E3 j)).trans (add_le_add (hF j).2.2 (hF _).2.2)
    have d : |F.E3 j - afShift pr.q2 1 F.E3 j| / pr.dq2 ≤ 2 * ME / pr.dq2 := by gcongr; linarith
    exact add_le_add (hF j).1 (mul_le_mul_of_nonneg_right d (abs_nonneg dt))
  have B2 : ∀ j, |(Mach.evolveB pr dt F).B2 j - (evolveB pr dt F).B2 j| ≤ 5 * u * (MB + 2 * ME / pr.dq1 * |dt|) := by
    intro j
    have h := (Mach.pushB_app' hM hr (F.B2 j) dt (F.E3 j) (afShift pr.q1 1 F.E3 j) pr.dq1).2
    refine h.trans (mul_le_mul (Mach.pow4_le hu0 hu) ?_ (by positivity) (by linarith))
    rw [abs_of_pos h1]
    have := (abs_sub (F.E3 j) (afShift pr.q1 1 F.E3 j)).trans (add_le_add (hF j).2.2 (hF _).2.2)
    have d : |F.E3 j - afShift pr.q1 1 F.E3 j| / pr.dq1 ≤ 2 * ME / pr.dq1 := by gcongr; linarith
    exact add_le_add (hF j).2.1 (mul_le_mul_of_nonneg_right d (abs_nonneg dt))
  have e := congrFun (divB_evolveB pr dt F) i
  rw [← e]
  simp only [divB, afShift, one_smul]
  have a1 := B1 i; have a2 := B1 (i - pr.q1); have a3 := B2 i; have a4 := B2 (i - pr.q2)
  generalize (Mach.evolveB pr dt F).B1 i = x1, (Mach.evolveB pr dt F).B1 (i - pr.q1) = x2, (Mach.evolveB pr dt F).B2 i = x3,
    (Mach.evolveB pr dt F).B2 (i - pr.q2) = x4, (evolveB pr dt F).B1 i = y1, (evolveB pr dt F).B1 (i - pr.q1) = y2,
    (evolveB pr dt F).B2 i = y3, (evolveB pr dt F).B2 (i - pr.q2) = y4 at *
  have s : (x1 - x2) / pr.dq1 + (x3 - x4) / pr.dq2 - ((y1 - y2) / pr.dq1 + (y3 - y4) / pr.dq2)
      = ((x1 - y1) - (x2 - y2)) / pr.dq1 + ((x3 - y3) - (x4 - y4)) / pr.dq2 := by field_simp; ring
  rw [s]
  refine (abs_add_le _ _).trans ?_
  rw [abs_div, abs_div, abs_of_pos h1, abs_of_pos h2]
  have t1 : |(x1 - y1) - (x2 - y2)| ≤ 10 * u * (MB + 2 * ME / pr.dq2 * |dt|) := (abs_sub _ _).trans (by linarith)
  have t2 : |(x3 - y3) - (x4 - y4)| ≤ 10 * u * (MB + 2 * ME / pr.dq1 * |dt|) := (abs_sub _ _).trans (by linarith)
  refine (add_le_add (div_le_div_of_nonneg_right t1 h1.le) (div_le_div_of_nonneg_right t2 h2.le)).trans_eq ?_
  field_simp; ring

/-- **C111 (magnetic charge grows by rounding errors only).** The exact scheme keeps `div B`.  With rounding it changes in a run of `n` steps by at
most `10 u (n MB (1/dq1 + 1/dq2) + 4 T ME / (dq1 dq2))`, where `MB` and `ME` bound the fields during the run and `T` is the sum of the step sizes:
linear in the number of steps and in the unit roundoff, whatever the currents are. -/
theorem C111_divB_drift (hu : u ≤ 1 / 8) (pr : FieldParams Q K) (h1 : 0 < pr.dq1) (h2 : 0 < pr.dq2) (MB ME : K)
    (steps : List (K × Currents Q K)) (F : EM Q K)
    (hF : ∀ k < steps.length, ∀ i, |(Mach.runFDTD pr (steps.take k) F).B1 i| ≤ MB ∧ |(Mach.runFDTD pr (steps.take k) F).B2 i| ≤ MB)
    (hE : ∀ k < steps.length, ∀ i, |(Mach.runFDTD pr (steps.take (k + 1)) F).E3 i| ≤ ME) (i : Q) :
    |divB pr (Mach.runFDTD pr steps F) i - divB pr F i| ≤
      10 * u * (steps.length * MB * (1 / pr.dq1 + 1 / pr.dq2) + 4 * (steps.map fun st => |st.1|).sum * ME / (pr.dq1 * pr.dq2)) := by
  induction steps generalizing F with
  | nil => simp [Mach.runFDTD]
  | cons st rest ih =>
    obtain ⟨dt, J⟩ := st
    have step := mach_divB_step hM hr hu pr h1 h2 dt MB ME (Mach.evolveE pr J dt F) (fun j =>
      ⟨(hF 0 (by simp) j).1, (hF 0 (by simp) j).2, by simpa [Mach.runFDTD, Mach.fdtd, Mach.evolveB] using hE 0 (by simp) j⟩) i
    have e : divB pr (Mach.evolveE pr J dt F) = divB pr F := rfl
    rw [e] at step
    have rest' := ih (Mach.fdtd pr J dt F) (fun k hk j => hF (k + 1) (by simpa using hk) j) (fun k hk j => hE (k + 1) (by simpa using hk) j)
    rw [Mach.runFDTD]
    refine (abs_sub_le _ (divB pr (Mach.fdtd pr J dt F) i) _).trans ((add_le_add rest' step).trans_eq ?_)
    simp only [List.map_cons, List.sum_cons, List.length_cons]
    push_cast
    field_simp; ring

theorem mach_divE_step (hu : u ≤ 1 / 8) (pr : FieldParams Q K) (h1 : 0 < pr.dq1) (h2 : 0 < pr.dq2) (he : 0 < pr.eps) (J : Currents Q K)
    (dt ME MB MJ : K) (F : EM Q K) (hF : GaussBounded ME MB F) (hJ : ∀ i, |J.J1 i| ≤ MJ ∧ |J.J2 i| ≤ MJ) (i : Q) :
    |divE pr (Mach.evolveE pr J dt F) i - (divE pr F i - dt / pr.eps * divJ pr J i)| ≤
      14 * u * ((ME + MJ * |dt| / pr.eps) * (1 / pr.dq1 + 1 / pr.dq2) + 4 * |dt ⊘ (pr.mu ⊠ pr.eps)| * MB / (pr.dq1 * pr.dq2)) := by
  have hu0 := hr.1
  set a : K := dt ⊘ (pr.mu ⊠ pr.eps) with ha
  have E1 : ∀ j, |(Mach.evolveE pr J dt F).E1 j - (F.E1 j + (a * ((F.B3 (j + pr.q2) - F.B3 j) / pr.dq2) - J.J1 j * dt / pr.eps))| ≤
      7 * u * (ME + (2 * MB / pr.dq2 * |a| + MJ * |dt| / pr.eps)) := by
    intro j
    have h := (Mach.pushE_app hM hr (F.E1 j) a dt (F.B3 (j + pr.q2)) (F.B3 j) pr.dq2 (J.J1 j) pr.eps).2
    have e : (Mach.evolveE pr J dt F).E1 j = F.E1 j ⊞ (a ⊠ ((F.B3 (j + pr.q2) ⊟ F.B3 j) ⊘ pr.dq2) ⊟ J.J1 j ⊠ dt ⊘ pr.eps) := by
      simp [Mach.evolveE, Mach.pushE, Mach.curlB1, afShift, ha]
    rw [e]
    refine h.trans (mul_le_mul (Mach.pow5_le hu0 hu) ?_ (by positivity) (by linarith))
    rw [abs_of_pos h2, abs_of_pos he, abs_mul]
    have := (abs_sub (F.B3 (j + pr.q2)) (F.B3 j)).trans (add_le_add (hF _).2.2 (hF _).2.2)
    have d : |F.B3 (j + pr.q2) - F.B3 j| / pr.dq2 ≤ 2 * MB / pr.dq2 := by gcongr; linarith
    have d2 : |J.J1 j| * |dt| / pr.eps ≤ MJ * |dt| / pr.eps := by gcongr; exact (hJ j).1
    exact add_le_add (hF j).1 (add_le_add (mul_le_mul_of_nonneg_right d (abs_nonneg a)) d2)
  have E2 : ∀ j, |(Mach.evolveE pr J dt F).E2 j - (F.E2 j + (a * (-(F.B3 (j + pr.q1) - F.B3 j) / pr.dq1) - J.J2 j * dt / pr.eps))| ≤
      7 * u * (ME + (2 * MB / pr.dq1 * |a| + MJ * |dt| / pr.eps)) := by
    intro j
    have h := (Mach.pushE_app' hM hr (F.E2 j) a dt (F.B3 (j + pr.q1)) (F.B3 j) pr.dq1 (J.J2 j) pr.eps).2
    have e : (Mach.evolveE pr J dt F).E2 j = F.E2 j ⊞ (a ⊠ (neg (F.B3 (j + pr.q1) ⊟ F.B3 j) ⊘ pr.dq1) ⊟ J.J2 j ⊠ dt ⊘ pr.eps) := by
      simp [Mach.evolveE, Mach.pushE, Mach.curlB2, afShift, ha]
    rw [e]
    refine h.trans (mul_le_mul (Mach.pow5_le hu0 hu) ?_ (by positivity) (by linarith))
    rw [abs_of_pos h1, abs_of_pos he, abs_mul]
    have := (abs_sub (F.B3 (j + pr.q1)) (F.B3 j)).trans (add_le_add (hF _).2.2 (hF _).2.2)
    have d : |F.B3 (j + pr.q1) - F.B3 j| / pr.dq1 ≤ 2 * MB / pr.dq1 := by gcongr; linarith
    have d2 : |J.J2 j| * |dt| / pr.eps ≤ MJ * |dt| / pr.eps := by gcongr; exact (hJ j).2
    exact add_le_add (hF j).2.1 (add_le_add (mul_le_mul_of_nonneg_right d (abs_nonneg a)) d2)
  have a1 := E1 i; have a2 := E1 (i + pr.q1); have a3 := E2 i; have a4 := E2 (i + pr.q2)
  have y : i + pr.q2 + pr.q1 = i + pr.q1 + pr.q2 := by abel
  rw [y] at a4
  simp only [divE, divJ, afShift, neg_smul, one_smul, sub_neg_eq_add]
  generalize (Mach.evolveE pr J dt F).E1 i = x1, (Mach.evolveE pr J dt F).E1 (i + pr.q1) = x2, (Mach.evolveE pr J dt F).E2 i = x3,
    (Mach.evolveE pr J dt F).E2 (i + pr.q2) = x4 at *
  set y1 := F.E1 i + (a * ((F.B3 (i + pr.q2) - F.B3 i) / pr.dq2) - J.J1 i * dt / pr.eps) with hy1
  set y2 := F.E1 (i + pr.q1) + (a * ((F.B3 (i + pr.q1 + pr.q2) - F.B3 (i + pr.q1)) / pr.dq2) - J.J1 (i + pr.q1) * dt / pr.eps) with hy2
  set y3 := F.E2 i + (a * (-(F.B3 (i + pr.q1) - F.B3 i) / pr.dq1) - J.J2 i * dt / pr.eps) with hy3
  set y4 := F.E2 (i + pr.q2) + (a * (-(F.B3 (i + pr.q1 + pr.q2) - F.B3 (i + pr.q2)) / pr.dq1) - J.J2 (i + pr.q2) * dt / pr.eps) with hy4
  have s : (x2 - x1) / pr.dq1 + (x4 - x3) / pr.dq2 - ((F.E1 (i + pr.q1) - F.E1 i) / pr.dq1 + (F.E2 (i + pr.q2) - F.E2 i) / pr.dq2 -
      dt / pr.eps * ((J.J1 (i + pr.q1) - J.J1 i) / pr.dq1 + (J.J2 (i + pr.q2) - J.J2 i) / pr.dq2))
      = ((x2 - y2) - (x1 - y1)) / pr.dq1 + ((x4 - y4) - (x3 - y3)) / pr.dq2 := by
    rw [hy1, hy2, hy3, hy4]; field_simp; ring
  rw [s]
  refine (abs_add_le _ _).trans ?_
  rw [abs_div, abs_div, abs_of_pos h1, abs_of_pos h2]
  have t1 : |(x2 - y2) - (x1 - y1)| ≤ 14 * u * (ME + (2 * MB / pr.dq2 * |a| + MJ * |dt| / pr.eps)) := (abs_sub _ _).trans (by linarith)
  have t2 : |(x4 - y4) - (x3 - y3)| ≤ 14 * u * (ME + (2 * MB / pr.dq1 * |a| + MJ * |dt| / pr.eps)) := (abs_sub _ _).trans (by linarith)
  refine (add_le_add (div_le_div_of_nonneg_right t1 h1.le) (div_le_div_of_nonneg_right t2 h2.le)).trans_eq ?_
  field_simp; ring

/-- **C111 (Gauss's law up to rounding errors).** In a run with rounding, `div E` follows the charge that the currents carry up to the rounding errors:
it differs from `div E(0) - sum dt/eps div J` by at most `14 u` times the sum over the steps of `(ME + MJ dt/eps)(1/dq1 + 1/dq2) + 4 a MB/(dq1 dq2)`,
where `a` is the coefficient `dt/(mu eps)` as the machine computes it. -/
theorem C111_gauss_drift (hu : u ≤ 1 / 8) (pr : FieldParams Q K) (h1 : 0 < pr.dq1) (h2 : 0 < pr.dq2) (he : 0 < pr.eps) (ME MB MJ : K)
    (steps : List (K × Currents Q K)) (F : EM Q K)
    (hF : ∀ k < steps.length, ∀ i, |(Mach.runFDTD pr (steps.take k) F).E1 i| ≤ ME ∧ |(Mach.runFDTD pr (steps.take k) F).E2 i| ≤ ME ∧
      |(Mach.runFDTD pr (steps.take k) F).B3 i| ≤ MB)
    (hJ : ∀ st ∈ steps, ∀ i, |st.2.J1 i| ≤ MJ ∧ |st.2.J2 i| ≤ MJ) (i : Q) :
    |divE pr (Mach.runFDTD pr steps F) i - (divE pr F i - (steps.map fun st => st.1 / pr.eps * divJ pr st.2 i).sum)| ≤
      14 * u * (steps.map fun st => (ME + MJ * |st.1| / pr.eps) * (1 / pr.dq1 + 1 / pr.dq2) +
        4 * |st.1 ⊘ (pr.mu ⊠ pr.eps)| * MB / (pr.dq1 * pr.dq2)).sum := by
  induction steps generalizing F with
  | nil => simp [Mach.runFDTD]
  | cons st rest ih =>
    obtain ⟨dt, J⟩ := st
    have step := mach_divE_step hM hr hu pr h1 h2 he J dt ME MB MJ F (fun j => hF 0 (by simp) j) (hJ _ List.mem_cons_self) i
    have e : divE pr (Mach.fdtd pr J dt F) = divE pr (Mach.evolveE pr J dt F) := rfl
    rw [← e] at step
    have rest' := ih (Mach.fdtd pr J dt F) (fun k hk j => hF (k + 1) (by simpa using hk) j) (fun st hst => hJ st (List.mem_cons_of_mem _ hst))
    rw [Mach.runFDTD]
    simp only [List.map_cons, List.sum_cons]
    generalize (rest.map fun st => st.1 / pr.eps * divJ pr st.2 i).sum = c at *
    rw [mul_add]
    refine le_trans (le_of_eq_of_le ?_ (abs_add_le _ _)) (add_le_add step rest')
    congr 1; ring

end rounded

end Bolt
