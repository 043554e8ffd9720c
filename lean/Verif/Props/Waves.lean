import Verif.Proofs.Waves
import Verif.Props.FDTD

/-!
# C81: plane waves in the FDTD solver
-/

set_option linter.unusedSectionVars false

namespace Bolt

open Real

variable {N1 N2 : ℕ} [NeZero N1] [NeZero N2]

/-- The solver on the periodic grid of `N1 × N2` cells (q1 and q2 are the unit steps of the index). -/
def OnGrid (pr : FieldParams (ZMod N1 × ZMod N2) ℝ) : Prop :=
  pr.q1 = (1, 0) ∧ pr.q2 = (0, 1) ∧ pr.hybrid = false ∧ pr.dq1 ≠ 0 ∧ pr.dq2 ≠ 0 ∧ 0 < pr.eps ∧ 0 < pr.mu

/-- The wave `w`, whatever its phase at the origin, is reproduced by the solver for ever: started on the samples at step 0, after any
number `n` of vacuum steps the solver holds the samples at step `n`. -/
def Propagates (pr : FieldParams (ZMod N1 × ZMod N2) ℝ) (dt : ℝ) (w : Wave) : Prop :=
  ∀ (dl : ℝ) (n : ℕ), runFDTD pr (vacuumSteps n dt) (w.sample dl 0) = .ok (w.sample dl n)

theorem propagates_iff_step (pr : FieldParams (ZMod N1 × ZMod N2) ℝ) (hh : pr.hybrid = false) (dt : ℝ) (w : Wave) :
    Propagates pr dt w ↔ ∀ (dl : ℝ) (n : ℕ), vac pr dt (w.sample dl n) = w.sample dl (n + 1) := by
  constructor
  · intro h dl n
    have h1 := h dl (n + 1)
    have h0 := h dl n
    rw [run_vacuum pr hh, Except.ok.injEq] at h0 h1
    rw [Function.iterate_succ_apply', h0] at h1
    exact h1
  · intro h dl n
    rw [run_vacuum pr hh, Except.ok.injEq]
    induction n with
    | zero => rfl
    | succ n ih => rw [Function.iterate_succ_apply', ih, h]

/-- The algebraic equations of the amplitudes. -/
structure WaveEqs (pr : FieldParams (ZMod N1 × ZMod N2) ℝ) (dt : ℝ) (w : Wave) : Prop where
  e1 : w.amp.a1 * sin (w.om / 2) = -(dt / (pr.mu * pr.eps)) * (sin (w.th2 / 2) / pr.dq2 * w.amp.b3)
  e2 : w.amp.a2 * sin (w.om / 2) = dt / (pr.mu * pr.eps) * (sin (w.th1 / 2) / pr.dq1 * w.amp.b3)
  e3 : w.amp.a3 * sin (w.om / 2) =
    dt / (pr.mu * pr.eps) * (sin (w.th2 / 2) / pr.dq2 * w.amp.b1 - sin (w.th1 / 2) / pr.dq1 * w.amp.b2)
  f1 : w.amp.b1 * sin (w.om / 2) = dt * (sin (w.th2 / 2) / pr.dq2 * w.amp.a3)
  f2 : w.amp.b2 * sin (w.om / 2) = -dt * (sin (w.th1 / 2) / pr.dq1 * w.amp.a3)
  f3 : w.amp.b3 * sin (w.om / 2) = dt * (sin (w.th1 / 2) / pr.dq1 * w.amp.a2 - sin (w.th2 / 2) / pr.dq2 * w.amp.a1)

theorem phase_x (w : Wave) (dl x y t : ℝ) :
    cos (w.phase dl (x + 1 / 2) y t) - cos (w.phase dl (x - 1 / 2) y t) = -(2 * sin (w.th1 / 2) * sin (w.phase dl x y t)) := by
  rw [← cos_diff]; congr 2 <;> (simp only [Wave.phase]; ring)

theorem phase_y (w : Wave) (dl x y t : ℝ) :
    cos (w.phase dl x (y + 1 / 2) t) - cos (w.phase dl x (y - 1 / 2) t) = -(2 * sin (w.th2 / 2) * sin (w.phase dl x y t)) := by
  rw [← cos_diff]; congr 2 <;> (simp only [Wave.phase]; ring)

theorem phase_t (w : Wave) (dl x y t : ℝ) :
    cos (w.phase dl x y (t + 1 / 2)) - cos (w.phase dl x y (t - 1 / 2)) = 2 * sin (w.om / 2) * sin (w.phase dl x y t) := by
  have := cos_diff (w.phase dl x y t) (w.om / 2)
  rw [show w.phase dl x y t + w.om / 2 = w.phase dl x y (t - 1 / 2) by simp only [Wave.phase]; ring,
    show w.phase dl x y t - w.om / 2 = w.phase dl x y (t + 1 / 2) by simp only [Wave.phase]; ring] at this
  linarith

theorem phase_wrap_x {m1 m2 : ℤ} {w : Wave} (hw : w.Fits N1 N2 m1 m2) (dl : ℝ) (a b : ZMod N1) (k : ℤ) (h : b = a + k) (s y t : ℝ) :
    cos (w.phase dl (b.val + s) y t) = cos (w.phase dl (a.val + k + s) y t) := by
  have := cos_wrap m1 w.th1 hw.1 a b k h s (w.th2 * y - w.om * t + dl)
  simp only [Wave.phase]
  rw [show w.th1 * (b.val + s) + w.th2 * y - w.om * t + dl = w.th1 * (b.val + s) + (w.th2 * y - w.om * t + dl) by ring, this]
  congr 1; ring

theorem phase_wrap_y {m1 m2 : ℤ} {w : Wave} (hw : w.Fits N1 N2 m1 m2) (dl : ℝ) (a b : ZMod N2) (k : ℤ) (h : b = a + k) (s x t : ℝ) :
    cos (w.phase dl x (b.val + s) t) = cos (w.phase dl x (a.val + k + s) t) := by
  have := cos_wrap m2 w.th2 hw.2 a b k h s (w.th1 * x - w.om * t + dl)
  simp only [Wave.phase]
  rw [show w.th1 * x + w.th2 * (b.val + s) - w.om * t + dl = w.th2 * (b.val + s) + (w.th1 * x - w.om * t + dl) by ring, this]
  congr 1; ring

section differences
variable {m1 m2 : ℤ} {w : Wave} (hw : w.Fits N1 N2 m1 m2) (dl t : ℝ)
include hw

theorem wave_fwd_x (i : ZMod N1 × ZMod N2) (y : ℝ) :
    cos (w.phase dl (i.1 + 1).val y t) - cos (w.phase dl i.1.val y t) =
      -(2 * sin (w.th1 / 2) * sin (w.phase dl (i.1.val + 1 / 2) y t)) := by
  rw [← phase_x]
  have := phase_wrap_x hw dl i.1 (i.1 + 1) 1 (by simp) 0 y t
  rw [add_zero] at this
  rw [this]
  congr 3 <;> (push_cast; ring)

theorem wave_fwd_y (i : ZMod N1 × ZMod N2) (x : ℝ) :
    cos (w.phase dl x (i.2 + 1).val t) - cos (w.phase dl x i.2.val t) =
      -(2 * sin (w.th2 / 2) * sin (w.phase dl x (i.2.val + 1 / 2) t)) := by
  rw [← phase_y]
  have := phase_wrap_y hw dl i.2 (i.2 + 1) 1 (by simp) 0 x t
  rw [add_zero] at this
  rw [this]
  congr 3 <;> (push_cast; ring)

theorem wave_bwd_x (i : ZMod N1 × ZMod N2) (y : ℝ) :
    cos (w.phase dl (i.1.val + 1 / 2) y t) - cos (w.phase dl ((i.1 - 1).val + 1 / 2) y t) =
      -(2 * sin (w.th1 / 2) * sin (w.phase dl i.1.val y t)) := by
  rw [← phase_x, phase_wrap_x hw dl i.1 (i.1 - 1) (-1) (by simp [sub_eq_add_neg]) (1 / 2) y t]
  congr 3; push_cast; ring

theorem wave_bwd_y (i : ZMod N1 × ZMod N2) (x : ℝ) :
    cos (w.phase dl x (i.2.val + 1 / 2) t) - cos (w.phase dl x ((i.2 - 1).val + 1 / 2) t) =
      -(2 * sin (w.th2 / 2) * sin (w.phase dl x i.2.val t)) := by
  rw [← phase_y, phase_wrap_y hw dl i.2 (i.2 - 1) (-1) (by simp [sub_eq_add_neg]) (1 / 2) x t]
  congr 3; push_cast; ring

end differences

theorem wave_step_E (w : Wave) (dl x y : ℝ) (n : ℕ) :
    cos (w.phase dl x y ((n + 1 : ℕ) : ℝ)) = cos (w.phase dl x y n) + 2 * sin (w.om / 2) * sin (w.phase dl x y (n + 1 / 2)) := by
  have := phase_t w dl x y (n + 1 / 2)
  rw [show (n : ℝ) + 1 / 2 + 1 / 2 = ((n + 1 : ℕ) : ℝ) by push_cast; ring, show (n : ℝ) + 1 / 2 - 1 / 2 = n by ring] at this
  linarith

theorem wave_step_B (w : Wave) (dl x y : ℝ) (n : ℕ) :
    cos (w.phase dl x y (((n + 1 : ℕ) : ℝ) + 1 / 2)) =
      cos (w.phase dl x y (n + 1 / 2)) + 2 * sin (w.om / 2) * sin (w.phase dl x y ((n + 1 : ℕ) : ℝ)) := by
  have := phase_t w dl x y ((n + 1 : ℕ) : ℝ)
  rw [show (((n + 1 : ℕ) : ℝ)) - 1 / 2 = n + 1 / 2 by push_cast; ring] at this
  linarith

section vac
variable (pr : FieldParams (ZMod N1 × ZMod N2) ℝ) (dt : ℝ) (F : EM (ZMod N1 × ZMod N2) ℝ) (i : ZMod N1 × ZMod N2)

theorem vac_B1 : (vac pr dt F).B1 i = F.B1 i - dt * (((vac pr dt F).E3 i - (vac pr dt F).E3 (i - pr.q2)) / pr.dq2) := by
  simp only [vac, evolveB, curlE1, afShift_fwd, addCurlB]; ring
theorem vac_B2 : (vac pr dt F).B2 i = F.B2 i + dt * (((vac pr dt F).E3 i - (vac pr dt F).E3 (i - pr.q1)) / pr.dq1) := by
  simp only [vac, evolveB, curlE2, afShift_fwd, addCurlB]; ring
theorem vac_B3 : (vac pr dt F).B3 i = F.B3 i - dt * (((vac pr dt F).E2 i - (vac pr dt F).E2 (i - pr.q1)) / pr.dq1 -
    ((vac pr dt F).E1 i - (vac pr dt F).E1 (i - pr.q2)) / pr.dq2) := by
  simp only [vac, evolveB, curlE3, afShift_fwd, addCurlB]; ring

end vac

/-- C81: a staggered plane wave that fits on the periodic grid is reproduced exactly by the solver, for ever and whatever its phase,
if and only if its amplitudes satisfy the six algebraic equations obtained from Maxwell's equations by replacing the frequency
and the two wave numbers by `2 sin(om/2)`, `2 sin(th1/2)/dq1`, `2 sin(th2/2)/dq2`. -/
theorem C81_plane_wave_iff (pr : FieldParams (ZMod N1 × ZMod N2) ℝ) (hg : OnGrid pr) (dt : ℝ) (w : Wave) (m1 m2 : ℤ)
    (hw : w.Fits N1 N2 m1 m2) : Propagates pr dt w ↔ WaveEqs pr dt w := by
  obtain ⟨hq1, hq2, hh, hd1, hd2, he, hm⟩ := hg
  rw [propagates_iff_step pr hh]
  have hk : ∀ x : ℝ, (0 : ℝ) * dt / pr.eps = 0 := fun _ => by simp
  constructor
  · intro h
    have hs : ∀ x y t : ℝ, ∃ dl, sin (w.phase dl x y t) = 1 := fun x y t =>
      ⟨π / 2 - (w.th1 * x + w.th2 * y - w.om * t), by
        rw [show w.phase (π / 2 - (w.th1 * x + w.th2 * y - w.om * t)) x y t = π / 2 by simp only [Wave.phase]; ring,
          sin_pi_div_two]⟩
    have i0 : ZMod N1 × ZMod N2 := 0
    constructor
    · obtain ⟨dl, hd⟩ := hs i0.1.val (i0.2.val + 1 / 2) ((0 : ℕ) + 1 / 2)
      have := congrFun (congrArg EM.E1 (h dl 0)) i0
      have d := wave_fwd_y hw dl ((0 : ℕ) + 1 / 2) i0 (i0.1.val)
      simp only [vac, evolveB, addCurlB, curlB1, Currents.zero, afShift_back, hq2, Wave.sample, Prod.fst_add, Prod.snd_add,
        add_zero, wave_step_E, hd] at this
      rw [hd] at d
      rw [← mul_sub, d] at this
      field_simp at this ⊢
      linarith
    · obtain ⟨dl, hd⟩ := hs (i0.1.val + 1 / 2) i0.2.val ((0 : ℕ) + 1 / 2)
      have := congrFun (congrArg EM.E2 (h dl 0)) i0
      have d := wave_fwd_x hw dl ((0 : ℕ) + 1 / 2) i0 (i0.2.val)
      simp only [vac, evolveB, addCurlB, curlB2, Currents.zero, afShift_back, hq1, Wave.sample, Prod.fst_add, Prod.snd_add,
        add_zero, wave_step_E, hd] at this
      rw [hd] at d
      rw [← mul_sub, d] at this
      field_simp at this ⊢
      linarith
    · obtain ⟨dl, hd⟩ := hs (i0.1.val + 1 / 2) (i0.2.val + 1 / 2) ((0 : ℕ) + 1 / 2)
      have := congrFun (congrArg EM.E3 (h dl 0)) i0
      have d := wave_fwd_x hw dl ((0 : ℕ) + 1 / 2) i0 (i0.2.val + 1 / 2)
      have d' := wave_fwd_y hw dl ((0 : ℕ) + 1 / 2) i0 (i0.1.val + 1 / 2)
      simp only [vac, evolveB, addCurlB, curlB3, Currents.zero, afShift_back, hq1, hq2, Wave.sample, Prod.fst_add, Prod.snd_add,
        add_zero, wave_step_E, hd] at this
      rw [hd] at d d'
      rw [← mul_sub, ← mul_sub, d, d'] at this
      field_simp at this ⊢
      linarith
    · obtain ⟨dl, hd⟩ := hs (i0.1.val + 1 / 2) i0.2.val ((0 + 1 : ℕ))
      have h2 := h dl 0
      have := vac_B1 pr dt (w.sample dl 0) i0
      rw [h2] at this
      have d := wave_bwd_y hw dl ((0 + 1 : ℕ)) i0 (i0.1.val + 1 / 2)
      simp only [hq2, Wave.sample, Prod.fst_sub, Prod.snd_sub, sub_zero, wave_step_B, hd] at this
      rw [hd] at d
      rw [← mul_sub, d] at this
      field_simp at this ⊢
      linarith
    · obtain ⟨dl, hd⟩ := hs i0.1.val (i0.2.val + 1 / 2) ((0 + 1 : ℕ))
      have h2 := h dl 0
      have := vac_B2 pr dt (w.sample dl 0) i0
      rw [h2] at this
      have d := wave_bwd_x hw dl ((0 + 1 : ℕ)) i0 (i0.2.val + 1 / 2)
      simp only [hq1, Wave.sample, Prod.fst_sub, Prod.snd_sub, sub_zero, wave_step_B, hd] at this
      rw [hd] at d
      rw [← mul_sub, d] at this
      field_simp at this ⊢
      linarith
    · obtain ⟨dl, hd⟩ := hs i0.1.val i0.2.val ((0 + 1 : ℕ))
      have h2 := h dl 0
      have := vac_B3 pr dt (w.sample dl 0) i0
      rw [h2] at this
      have d := wave_bwd_x hw dl ((0 + 1 : ℕ)) i0 i0.2.val
      have d' := wave_bwd_y hw dl ((0 + 1 : ℕ)) i0 i0.1.val
      simp only [hq1, hq2, Wave.sample, Prod.fst_sub, Prod.snd_sub, sub_zero, wave_step_B, hd] at this
      rw [hd] at d d'
      rw [← mul_sub, ← mul_sub, d, d'] at this
      field_simp at this ⊢
      linarith
  · intro h dl n
    have k1 : (addCurlB pr Currents.zero dt (w.sample dl n)).E1 = (w.sample dl (n + 1)).E1 := by
      funext i
      have d := wave_fwd_y hw dl (n + 1 / 2) i i.1.val
      simp only [addCurlB, curlB1, Currents.zero, afShift_back, hq2, Wave.sample, Prod.fst_add, Prod.snd_add, add_zero, wave_step_E]
      rw [← mul_sub, d]
      linear_combination (-2 * sin (w.phase dl i.1.val (i.2.val + 1 / 2) (n + 1 / 2))) * h.e1
    have k2 : (addCurlB pr Currents.zero dt (w.sample dl n)).E2 = (w.sample dl (n + 1)).E2 := by
      funext i
      have d := wave_fwd_x hw dl (n + 1 / 2) i i.2.val
      simp only [addCurlB, curlB2, Currents.zero, afShift_back, hq1, Wave.sample, Prod.fst_add, Prod.snd_add, add_zero, wave_step_E]
      rw [← mul_sub, d]
      linear_combination (-2 * sin (w.phase dl (i.1.val + 1 / 2) i.2.val (n + 1 / 2))) * h.e2
    have k3 : (addCurlB pr Currents.zero dt (w.sample dl n)).E3 = (w.sample dl (n + 1)).E3 := by
      funext i
      have d := wave_fwd_x hw dl (n + 1 / 2) i (i.2.val + 1 / 2)
      have d' := wave_fwd_y hw dl (n + 1 / 2) i (i.1.val + 1 / 2)
      simp only [addCurlB, curlB3, Currents.zero, afShift_back, hq1, hq2, Wave.sample, Prod.fst_add, Prod.snd_add, add_zero, wave_step_E]
      rw [← mul_sub, ← mul_sub, d, d']
      linear_combination (-2 * sin (w.phase dl (i.1.val + 1 / 2) (i.2.val + 1 / 2) (n + 1 / 2))) * h.e3
    have j1 : (vac pr dt (w.sample dl n)).E1 = (w.sample dl (n + 1)).E1 := k1
    have j2 : (vac pr dt (w.sample dl n)).E2 = (w.sample dl (n + 1)).E2 := k2
    have j3 : (vac pr dt (w.sample dl n)).E3 = (w.sample dl (n + 1)).E3 := k3
    ext i
    · rw [j1]
    · rw [j2]
    · rw [j3]
    · have d := wave_bwd_y hw dl ((n + 1 : ℕ)) i (i.1.val + 1 / 2)
      rw [vac_B1, j3]
      simp only [hq2, Wave.sample, Prod.fst_sub, Prod.snd_sub, sub_zero, wave_step_B]
      rw [← mul_sub, d]
      linear_combination (-2 * sin (w.phase dl (i.1.val + 1 / 2) i.2.val ((n + 1 : ℕ)))) * h.f1
    · have d := wave_bwd_x hw dl ((n + 1 : ℕ)) i (i.2.val + 1 / 2)
      rw [vac_B2, j3]
      simp only [hq1, Wave.sample, Prod.fst_sub, Prod.snd_sub, sub_zero, wave_step_B]
      rw [← mul_sub, d]
      linear_combination (-2 * sin (w.phase dl i.1.val (i.2.val + 1 / 2) ((n + 1 : ℕ)))) * h.f2
    · have d := wave_bwd_x hw dl ((n + 1 : ℕ)) i i.2.val
      have d' := wave_bwd_y hw dl ((n + 1 : ℕ)) i i.1.val
      rw [vac_B3, j1, j2]
      simp only [hq1, hq2, Wave.sample, Prod.fst_sub, Prod.snd_sub, sub_zero, wave_step_B]
      rw [← mul_sub, ← mul_sub, d, d']
      linear_combination (-2 * sin (w.phase dl i.1.val i.2.val ((n + 1 : ℕ)))) * h.f3

/-- The dispersion relation of the scheme. -/
def Dispersion (pr : FieldParams (ZMod N1 × ZMod N2) ℝ) (dt th1 th2 om : ℝ) : Prop :=
  pr.eps * pr.mu * sin (om / 2) ^ 2 = dt ^ 2 * (sin (th1 / 2) ^ 2 / pr.dq1 ^ 2 + sin (th2 / 2) ^ 2 / pr.dq2 ^ 2)

/-- C81: waves that oscillate exist with exactly the frequencies of the dispersion relation
`sin²(om/2) = (c dt)² (sin²(th1/2)/dq1² + sin²(th2/2)/dq2²)`, `c² = 1/(eps mu)`. -/
theorem C81_dispersion (pr : FieldParams (ZMod N1 × ZMod N2) ℝ) (hg : OnGrid pr) (dt th1 th2 om : ℝ) (m1 m2 : ℤ)
    (h1 : th1 = 2 * π * m1 / N1) (h2 : th2 = 2 * π * m2 / N2) (ho : sin (om / 2) ≠ 0) :
    (∃ amp : WaveAmp, amp ≠ ⟨0, 0, 0, 0, 0, 0⟩ ∧ Propagates pr dt ⟨amp, th1, th2, om⟩) ↔ Dispersion pr dt th1 th2 om := by
  obtain ⟨hq1, hq2, hh, hd1, hd2, he, hm⟩ := id hg
  have hem : pr.mu * pr.eps ≠ 0 := (mul_pos hm he).ne'
  constructor
  · rintro ⟨amp, hne, hp⟩
    obtain ⟨e1, e2, e3, f1, f2, f3⟩ := (C81_plane_wave_iff pr hg dt ⟨amp, th1, th2, om⟩ m1 m2 ⟨h1, h2⟩).1 hp
    simp only at e1 e2 e3 f1 f2 f3
    unfold Dispersion
    set s := sin (om / 2) with hs
    set p := sin (th1 / 2) / pr.dq1 with hpp
    set r := sin (th2 / 2) / pr.dq2 with hr
    have hD : sin (th1 / 2) ^ 2 / pr.dq1 ^ 2 + sin (th2 / 2) ^ 2 / pr.dq2 ^ 2 = p ^ 2 + r ^ 2 := by
      rw [hpp, hr, div_pow, div_pow]
    rw [hD]
    have e1' : pr.mu * pr.eps * (amp.a1 * s) = -dt * (r * amp.b3) := by rw [e1]; field_simp
    have e2' : pr.mu * pr.eps * (amp.a2 * s) = dt * (p * amp.b3) := by rw [e2]; field_simp
    have e3' : pr.mu * pr.eps * (amp.a3 * s) = dt * (r * amp.b1 - p * amp.b2) := by rw [e3]; field_simp
    have key : ∀ x : ℝ, (pr.eps * pr.mu * s ^ 2) * x = (dt ^ 2 * (p ^ 2 + r ^ 2)) * x → x ≠ 0 →
        pr.eps * pr.mu * s ^ 2 = dt ^ 2 * (p ^ 2 + r ^ 2) := fun x h hx => mul_right_cancel₀ hx h
    by_cases ha3 : amp.a3 = 0
    · by_cases hb3 : amp.b3 = 0
      · exfalso
        apply hne
        have z : ∀ x : ℝ, x * s = 0 → x = 0 := fun x hx => (mul_eq_zero.1 hx).resolve_right ho
        ext
        · exact z _ (by rw [e1, hb3]; simp)
        · exact z _ (by rw [e2, hb3]; simp)
        · exact ha3
        · exact z _ (by rw [f1, ha3]; simp)
        · exact z _ (by rw [f2, ha3]; simp)
        · exact hb3
      · refine key amp.b3 ?_ hb3
        linear_combination (pr.eps * pr.mu * s) * f3 + dt * p * e2' - dt * r * e1'
    · refine key amp.a3 ?_ ha3
      linear_combination s * e3' + dt * r * f1 - dt * p * f2
  · intro hD
    refine ⟨⟨0, 0, sin (om / 2), dt * (sin (th2 / 2) / pr.dq2), -dt * (sin (th1 / 2) / pr.dq1), 0⟩, ?_, ?_⟩
    · intro h
      exact ho (congrArg WaveAmp.a3 h)
    · rw [C81_plane_wave_iff pr hg dt _ m1 m2 ⟨h1, h2⟩]
      constructor <;> simp only <;> try ring
      unfold Dispersion at hD
      field_simp
      field_simp at hD
      linear_combination hD

/-- C81: under the Courant condition every wave that fits on the grid has a real frequency: none of them grows. -/
theorem C81_every_wave_oscillates (pr : FieldParams (ZMod N1 × ZMod N2) ℝ) (hg : OnGrid pr) (dt th1 th2 : ℝ)
    (hc : dt ^ 2 * (1 / pr.dq1 ^ 2 + 1 / pr.dq2 ^ 2) ≤ pr.eps * pr.mu) :
    ∃ om, 0 ≤ om ∧ om ≤ π ∧ Dispersion pr dt th1 th2 om := by
  obtain ⟨hq1, hq2, hh, hd1, hd2, he, hm⟩ := id hg
  have hem : 0 < pr.eps * pr.mu := mul_pos he hm
  set R := dt ^ 2 * (sin (th1 / 2) ^ 2 / pr.dq1 ^ 2 + sin (th2 / 2) ^ 2 / pr.dq2 ^ 2) with hR
  have hR0 : 0 ≤ R := by positivity
  have hR1 : R ≤ pr.eps * pr.mu := by
    refine le_trans ?_ hc
    have b1 : sin (th1 / 2) ^ 2 / pr.dq1 ^ 2 ≤ 1 / pr.dq1 ^ 2 := div_le_div_of_nonneg_right (sin_sq_le_one _) (sq_nonneg _)
    have b2 : sin (th2 / 2) ^ 2 / pr.dq2 ^ 2 ≤ 1 / pr.dq2 ^ 2 := div_le_div_of_nonneg_right (sin_sq_le_one _) (sq_nonneg _)
    exact mul_le_mul_of_nonneg_left (add_le_add b1 b2) (sq_nonneg _)
  set z := sqrt (R / (pr.eps * pr.mu)) with hz
  have hz0 : 0 ≤ z := sqrt_nonneg _
  have hz1 : z ≤ 1 := by
    rw [hz, sqrt_le_one]; exact (div_le_one hem).2 hR1
  refine ⟨2 * arcsin z, by linarith [arcsin_nonneg.2 hz0], by linarith [arcsin_le_pi_div_two z], ?_⟩
  unfold Dispersion
  rw [mul_div_cancel_left₀ _ (two_ne_zero), sin_arcsin (by linarith) hz1, hz, sq_sqrt (by positivity), mul_div_cancel₀ _ hem.ne']

/-- C81: no wave is faster than light: with `k_i = th_i / dq_i` the angular frequency `om / dt` satisfies `(om/dt)² ≤ c² |k|²`. -/
theorem C81_not_faster_than_light (pr : FieldParams (ZMod N1 × ZMod N2) ℝ) (hg : OnGrid pr) (dt th1 th2 om : ℝ)
    (hc : dt ^ 2 * (1 / pr.dq1 ^ 2 + 1 / pr.dq2 ^ 2) ≤ pr.eps * pr.mu) (ht1 : |th1| ≤ π) (ht2 : |th2| ≤ π)
    (h0 : 0 ≤ om) (hpi : om ≤ π) (hD : Dispersion pr dt th1 th2 om) :
    pr.eps * pr.mu * om ^ 2 ≤ dt ^ 2 * (th1 ^ 2 / pr.dq1 ^ 2 + th2 ^ 2 / pr.dq2 ^ 2) := by
  obtain ⟨hq1, hq2, hh, hd1, hd2, he, hm⟩ := id hg
  have hem : 0 < pr.eps * pr.mu := mul_pos he hm
  set a := dt ^ 2 / (pr.eps * pr.mu * pr.dq1 ^ 2) with ha
  set b := dt ^ 2 / (pr.eps * pr.mu * pr.dq2 ^ 2) with hb
  have ha0 : 0 ≤ a := by positivity
  have hb0 : 0 ≤ b := by positivity
  have hab : a + b ≤ 1 := by
    have : a + b = dt ^ 2 * (1 / pr.dq1 ^ 2 + 1 / pr.dq2 ^ 2) / (pr.eps * pr.mu) := by rw [ha, hb]; field_simp
    rw [this, div_le_one hem]; exact hc
  set x := |th1| / 2 with hx
  set y := |th2| / 2 with hy
  have hx0 : 0 ≤ x := by positivity
  have hy0 : 0 ≤ y := by positivity
  have hx1 : x ≤ π / 2 := by linarith
  have hy1 : y ≤ π / 2 := by linarith
  set X := sqrt (a * x ^ 2 + b * y ^ 2) with hX
  have hXX : X ^ 2 = a * x ^ 2 + b * y ^ 2 := sq_sqrt (by positivity)
  have hX0 : 0 ≤ X := sqrt_nonneg _
  have hX1 : X ≤ π / 2 := by
    apply abs_le_of_sq_le_sq' _ (by positivity) |>.2
    rw [hXX]
    have q1 : x ^ 2 ≤ (π / 2) ^ 2 := pow_le_pow_left₀ hx0 hx1 2
    have q2 : y ^ 2 ≤ (π / 2) ^ 2 := pow_le_pow_left₀ hy0 hy1 2
    nlinarith [mul_le_mul_of_nonneg_left q1 ha0, mul_le_mul_of_nonneg_left q2 hb0, sq_nonneg (π / 2)]
  have hJ := sin_sq_jensen ha0 hb0 hab hx0 hx1 hy0 hy1 hX0 hX1 hXX
  have hsx : sin x ^ 2 = sin (th1 / 2) ^ 2 := by
    rcases abs_cases th1 with ⟨h, _⟩ | ⟨h, _⟩
    · rw [hx, h]
    · rw [hx, h, neg_div, sin_neg, neg_sq]
  have hsy : sin y ^ 2 = sin (th2 / 2) ^ 2 := by
    rcases abs_cases th2 with ⟨h, _⟩ | ⟨h, _⟩
    · rw [hy, h]
    · rw [hy, h, neg_div, sin_neg, neg_sq]
  have hS : sin (om / 2) ^ 2 = a * sin x ^ 2 + b * sin y ^ 2 := by
    unfold Dispersion at hD
    rw [hsx, hsy, ha, hb]
    field_simp
    field_simp at hD
    linear_combination hD
  have hle : sin (om / 2) ≤ sin X := by
    rw [← hS] at hJ
    exact (abs_le_of_sq_le_sq' hJ (sin_nonneg_of_nonneg_of_le_pi hX0 (by linarith [pi_pos]))).2
  have hoX : om / 2 ≤ X := by
    by_contra hlt
    have := strictMonoOn_sin (a := X) (b := om / 2) ⟨by linarith [pi_pos], hX1⟩ ⟨by linarith [pi_pos], by linarith⟩ (not_le.1 hlt)
    linarith
  have hsq : (om / 2) ^ 2 ≤ X ^ 2 := pow_le_pow_left₀ (by linarith) hoX 2
  rw [hXX, hx, hy, div_pow |th1|, div_pow |th2|, sq_abs, sq_abs, ha, hb] at hsq
  have h4 := mul_le_mul_of_nonneg_left hsq (by positivity : 0 ≤ 4 * (pr.eps * pr.mu))
  have l : 4 * (pr.eps * pr.mu) * (om / 2) ^ 2 = pr.eps * pr.mu * om ^ 2 := by ring
  have r : 4 * (pr.eps * pr.mu) * (dt ^ 2 / (pr.eps * pr.mu * pr.dq1 ^ 2) * (th1 ^ 2 / 2 ^ 2) +
      dt ^ 2 / (pr.eps * pr.mu * pr.dq2 ^ 2) * (th2 ^ 2 / 2 ^ 2)) = dt ^ 2 * (th1 ^ 2 / pr.dq1 ^ 2 + th2 ^ 2 / pr.dq2 ^ 2) := by
    field_simp; ring
  rw [l, r] at h4
  exact h4

/-- C81: the frequency of a wave is right to second order in the cell sizes, whatever the time step within the Courant condition:
with `k_i = th_i / dq_i` and `c² = 1 / (eps mu)`, `0 ≤ c²|k|² - (om/dt)² ≤ (c²/12) (k1⁴ dq1² + k2⁴ dq2²)`. -/
theorem C81_second_order (pr : FieldParams (ZMod N1 × ZMod N2) ℝ) (hg : OnGrid pr) (dt k1 k2 om : ℝ) (hdt : 0 < dt)
    (hc : dt ^ 2 * (1 / pr.dq1 ^ 2 + 1 / pr.dq2 ^ 2) ≤ pr.eps * pr.mu) (ht1 : |k1 * pr.dq1| ≤ π) (ht2 : |k2 * pr.dq2| ≤ π)
    (h0 : 0 ≤ om) (hpi : om ≤ π) (hD : Dispersion pr dt (k1 * pr.dq1) (k2 * pr.dq2) om) :
    0 ≤ (k1 ^ 2 + k2 ^ 2) / (pr.eps * pr.mu) - (om / dt) ^ 2 ∧
    (k1 ^ 2 + k2 ^ 2) / (pr.eps * pr.mu) - (om / dt) ^ 2 ≤ (k1 ^ 4 * pr.dq1 ^ 2 + k2 ^ 4 * pr.dq2 ^ 2) / (12 * (pr.eps * pr.mu)) := by
  obtain ⟨hq1, hq2, hh, hd1, hd2, he, hm⟩ := id hg
  have hem : 0 < pr.eps * pr.mu := mul_pos he hm
  constructor
  · have := C81_not_faster_than_light pr hg dt _ _ om hc ht1 ht2 h0 hpi hD
    rw [mul_pow, mul_pow, mul_div_assoc, mul_div_assoc, div_self (pow_ne_zero 2 hd1), div_self (pow_ne_zero 2 hd2), mul_one, mul_one] at this
    rw [sub_nonneg, div_pow, div_le_div_iff₀ (by positivity) hem]
    linarith
  · have u := sin_sq_le_sq (om / 2)
    have l1 := sin_sq_ge (k1 * pr.dq1 / 2)
    have l2 := sin_sq_ge (k2 * pr.dq2 / 2)
    unfold Dispersion at hD
    have l1' : k1 ^ 2 / 4 - k1 ^ 4 * pr.dq1 ^ 2 / 48 ≤ sin (k1 * pr.dq1 / 2) ^ 2 / pr.dq1 ^ 2 := by
      rw [le_div_iff₀ (by positivity)]
      refine le_trans (le_of_eq ?_) l1
      ring
    have l2' : k2 ^ 2 / 4 - k2 ^ 4 * pr.dq2 ^ 2 / 48 ≤ sin (k2 * pr.dq2 / 2) ^ 2 / pr.dq2 ^ 2 := by
      rw [le_div_iff₀ (by positivity)]
      refine le_trans (le_of_eq ?_) l2
      ring
    have h5 : dt ^ 2 * ((k1 ^ 2 / 4 - k1 ^ 4 * pr.dq1 ^ 2 / 48) + (k2 ^ 2 / 4 - k2 ^ 4 * pr.dq2 ^ 2 / 48)) ≤
        pr.eps * pr.mu * (om / 2) ^ 2 := by
      refine le_trans (mul_le_mul_of_nonneg_left (add_le_add l1' l2') (sq_nonneg _)) ?_
      rw [← hD]
      exact mul_le_mul_of_nonneg_left u hem.le
    have h6 : (k1 ^ 2 + k2 ^ 2) / (pr.eps * pr.mu) - (k1 ^ 4 * pr.dq1 ^ 2 + k2 ^ 4 * pr.dq2 ^ 2) / (12 * (pr.eps * pr.mu)) =
        4 * (dt ^ 2 * ((k1 ^ 2 / 4 - k1 ^ 4 * pr.dq1 ^ 2 / 48) + (k2 ^ 2 / 4 - k2 ^ 4 * pr.dq2 ^ 2 / 48))) /
          (pr.eps * pr.mu * dt ^ 2) := by
      field_simp; ring
    have h7 : 4 * (dt ^ 2 * ((k1 ^ 2 / 4 - k1 ^ 4 * pr.dq1 ^ 2 / 48) + (k2 ^ 2 / 4 - k2 ^ 4 * pr.dq2 ^ 2 / 48))) /
          (pr.eps * pr.mu * dt ^ 2) ≤ (om / dt) ^ 2 := by
      rw [div_le_iff₀ (by positivity)]
      have : (om / dt) ^ 2 * (pr.eps * pr.mu * dt ^ 2) = 4 * (pr.eps * pr.mu * (om / 2) ^ 2) := by field_simp; ring
      rw [this]
      linarith
    linarith

/-! ## A case meeting the hypotheses -/

/-- A grid of 4 × 3 cells of size 1 × 2. -/
noncomputable def c81Pr : FieldParams (ZMod 4 × ZMod 3) ℝ := ⟨(1, 0), (0, 1), 1, 2, 1, 1, false⟩

/-- One wavelength along q1, none along q2, step 1/2: the Courant condition holds, and a wave oscillates. -/
example : OnGrid c81Pr ∧ (1 / 2 : ℝ) ^ 2 * (1 / c81Pr.dq1 ^ 2 + 1 / c81Pr.dq2 ^ 2) ≤ c81Pr.eps * c81Pr.mu ∧
    ∃ (amp : WaveAmp) (om : ℝ), amp ≠ ⟨0, 0, 0, 0, 0, 0⟩ ∧ sin (om / 2) ≠ 0 ∧ Propagates c81Pr (1 / 2) ⟨amp, π / 2, 0, om⟩ ∧
      Dispersion c81Pr (1 / 2) (π / 2) 0 om := by
  have hg : OnGrid c81Pr := ⟨rfl, rfl, rfl, by norm_num [c81Pr], by norm_num [c81Pr], by norm_num [c81Pr], by norm_num [c81Pr]⟩
  have hc : (1 / 2 : ℝ) ^ 2 * (1 / c81Pr.dq1 ^ 2 + 1 / c81Pr.dq2 ^ 2) ≤ c81Pr.eps * c81Pr.mu := by norm_num [c81Pr]
  obtain ⟨om, h0, hpi, hD⟩ := C81_every_wave_oscillates c81Pr hg (1 / 2) (π / 2) 0 hc
  have hs : sin (om / 2) ≠ 0 := by
    intro h
    unfold Dispersion at hD
    rw [h] at hD
    simp only [c81Pr, zero_div, sin_zero] at hD
    have : 0 < sin (π / 2 / 2) := sin_pos_of_pos_of_lt_pi (by positivity) (by linarith [pi_pos])
    nlinarith
  obtain ⟨amp, ha, hp⟩ := (C81_dispersion c81Pr hg (1 / 2) (π / 2) 0 om 1 0 (by push_cast; ring) (by simp) hs).2 hD
  exact ⟨hg, hc, amp, om, ha, hs, hp, hD⟩

end Bolt
