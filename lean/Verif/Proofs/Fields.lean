import Verif.Model.Fields
import Verif.Proofs.FVM
import Mathlib.Tactic.FieldSimp
import Mathlib.Tactic.Linarith
import Mathlib.Tactic.LinearCombination

/-! Helper lemmas about the FDTD model. -/

set_option linter.unusedSectionVars false

namespace Bolt

open Finset

variable {Q K : Type} [AddCommGroup Q] [Field K]

theorem afShift_fwd (e : Q) (x : Q → K) (i : Q) : afShift e 1 x i = x (i - e) := by simp [afShift]
theorem afShift_back (e : Q) (x : Q → K) (i : Q) : afShift e (-1) x i = x (i + e) := by simp [afShift]

theorem divB_evolveB (pr : FieldParams Q K) (dt : K) (F : EM Q K) : divB pr (evolveB pr dt F) = divB pr F := by
  funext i
  simp only [divB, evolveB, curlE1, curlE2, afShift_fwd]
  rw [show i - pr.q1 - pr.q2 = i - pr.q2 - pr.q1 by abel]
  ring

theorem divE_evolveB (pr : FieldParams Q K) (dt : K) (F : EM Q K) : divE pr (evolveB pr dt F) = divE pr F := rfl
theorem divB_addCurlB (pr : FieldParams Q K) (J : Currents Q K) (dt : K) (F : EM Q K) :
    divB pr (addCurlB pr J dt F) = divB pr F := rfl
theorem divB_setE (pr : FieldParams Q K) (F : EM Q K) (E) : divB pr (F.setE E) = divB pr F := by cases E <;> rfl

theorem divE_addCurlB (pr : FieldParams Q K) (J : Currents Q K) (dt : K) (F : EM Q K) (i : Q) :
    divE pr (addCurlB pr J dt F) i = divE pr F i
      - dt / pr.eps * ((J.J1 (i + pr.q1) - J.J1 i) / pr.dq1 + (J.J2 (i + pr.q2) - J.J2 i) / pr.dq2) := by
  simp only [divE, addCurlB, curlB1, curlB2, afShift_back]
  rw [show i + pr.q1 + pr.q2 = i + pr.q2 + pr.q1 by abel]
  ring

variable [LinearOrder K] [Fintype Q]

theorem evolveE_ok {pr : FieldParams Q K} {J : Currents Q K} {dt : K} {F F' : EM Q K} (h : evolveE pr J dt F = .ok F') :
    (pr.hybrid = true ∧ F' = F) ∨ (pr.hybrid = false ∧ F' = addCurlB pr J dt F) := by
  unfold evolveE at h
  split_ifs at h with h1 h2
  · left; exact ⟨h1, by simpa using h.symm⟩
  · right; exact ⟨by simpa using h1, by simpa using h.symm⟩

theorem fdtd_ok {pr : FieldParams Q K} {sync : EM Q K → EM Q K} {J : Currents Q K} {dt : K} {F F' : EM Q K}
    (h : fdtd pr sync J dt F = .ok F') :
    ∃ F1, evolveE pr J dt (sync F) = .ok F1 ∧ F' = evolveB pr dt (sync F1) := by
  simp only [fdtd, bind, Except.bind, pure, Except.pure] at h
  cases h0 : evolveE pr J dt (sync F) with
  | error e => simp [h0] at h
  | ok F1 => exact ⟨F1, rfl, by simpa [h0] using h.symm⟩

theorem fdtd_eq (pr : FieldParams Q K) (hh : pr.hybrid = false) (J : Currents Q K) (dt : K) (F : EM Q K) :
    fdtd pr id J dt F = .ok (evolveB pr dt (addCurlB pr J dt F)) := by
  simp [fdtd, evolveE, hh, bind, Except.bind, pure, Except.pure]

theorem runFDTD_invariant (pr : FieldParams Q K) (I : EM Q K → Prop)
    (hstep : ∀ (st : FDTDStep Q K) F F', I F → fdtd pr id st.J st.dt (F.setE st.newE) = .ok F' → I F')
    (steps : List (FDTDStep Q K)) (F F' : EM Q K) (h0 : I F) (h : runFDTD pr steps F = .ok F') : I F' := by
  induction steps generalizing F with
  | nil => simp only [runFDTD, Except.ok.injEq] at h; exact h ▸ h0
  | cons st rest ih =>
    simp only [runFDTD, bind, Except.bind] at h
    cases h1 : fdtd pr id st.J st.dt (F.setE st.newE) with
    | error e => simp [h1] at h
    | ok G => simp only [h1] at h; exact ih G (hstep st F G h0 h1) h

/-- Summation by parts: the two discrete curls are adjoint. -/
theorem sum_curl (pr : FieldParams Q K) (F G : EM Q K) :
    ∑ i, (curlB1 pr F i * G.E1 i + curlB2 pr F i * G.E2 i + curlB3 pr F i * G.E3 i) =
      ∑ i, (F.B1 i * curlE1 pr G i + F.B2 i * curlE2 pr G i + F.B3 i * curlE3 pr G i) := by
  have key : ∀ (e : Q) (x y : Q → K), ∑ i, x (i + e) * y i = ∑ i, x i * y (i - e) := fun e x y => by
    rw [← Equiv.sum_comp (Equiv.addRight e) (fun i => x i * y (i - e))]
    simp
  have k1 := key pr.q2 F.B3 G.E1
  have k2 := key pr.q1 F.B3 G.E2
  have k3 := key pr.q1 F.B2 G.E3
  have k4 := key pr.q2 F.B1 G.E3
  have l : ∑ i, (curlB1 pr F i * G.E1 i + curlB2 pr F i * G.E2 i + curlB3 pr F i * G.E3 i) =
      (∑ i, F.B3 (i + pr.q2) * G.E1 i - ∑ i, F.B3 i * G.E1 i) / pr.dq2
      - (∑ i, F.B3 (i + pr.q1) * G.E2 i - ∑ i, F.B3 i * G.E2 i) / pr.dq1
      + (∑ i, F.B2 (i + pr.q1) * G.E3 i - ∑ i, F.B2 i * G.E3 i) / pr.dq1
      - (∑ i, F.B1 (i + pr.q2) * G.E3 i - ∑ i, F.B1 i * G.E3 i) / pr.dq2 := by
    simp only [← sum_sub_distrib, ← sum_add_distrib, sum_div]
    refine sum_congr rfl fun i _ => ?_
    simp only [curlB1, curlB2, curlB3, afShift_back]
    ring
  have r : ∑ i, (F.B1 i * curlE1 pr G i + F.B2 i * curlE2 pr G i + F.B3 i * curlE3 pr G i) =
      (∑ i, F.B3 i * G.E1 (i - pr.q2) - ∑ i, F.B3 i * G.E1 i) / pr.dq2
      - (∑ i, F.B3 i * G.E2 (i - pr.q1) - ∑ i, F.B3 i * G.E2 i) / pr.dq1
      + (∑ i, F.B2 i * G.E3 (i - pr.q1) - ∑ i, F.B2 i * G.E3 i) / pr.dq1
      - (∑ i, F.B1 i * G.E3 (i - pr.q2) - ∑ i, F.B1 i * G.E3 i) / pr.dq2 := by
    simp only [← sum_sub_distrib, ← sum_add_distrib, sum_div]
    refine sum_congr rfl fun i _ => ?_
    simp only [curlE1, curlE2, curlE3, afShift_fwd]
    ring
  rw [l, r, k1, k2, k3, k4]

end Bolt
