import Verif.Props.Resume

/-!
# C79: which electric field the forces see
-/

set_option linter.unusedSectionVars false

namespace Bolt

variable {S P Q K : Type} [AddCommGroup P] [AddCommGroup Q] [Field K] [LinearOrder K] [IsStrictOrderedRing K]
  [Fintype S] [Fintype P] [Fintype Q]

/-- Specification: the sum `x 0 / 2^n + x 1 / 2^n + x 2 / 2^(n-1) + … + x n / 2`. -/
def fadingAverage (x : ℕ → K) (n : ℕ) : K := x 0 / 2 ^ n + ∑ k ∈ Finset.range n, x (k + 1) / 2 ^ (n - k)

theorem fadingAverage_succ (x : ℕ → K) (n : ℕ) : fadingAverage x (n + 1) = (fadingAverage x n + x (n + 1)) / 2 := by
  simp only [fadingAverage]
  rw [Finset.sum_range_succ, show n + 1 - n = 1 by omega]
  have : ∀ k ∈ Finset.range n, x (k + 1) / 2 ^ (n + 1 - k) = x (k + 1) / 2 ^ (n - k) / 2 := by
    intro k hk
    have : n + 1 - k = (n - k) + 1 := by have := Finset.mem_range.mp hk; omega
    rw [this, pow_succ, div_div]
  rw [Finset.sum_congr rfl this, ← Finset.sum_div, pow_succ, ← div_div]
  ring

/-- The electric field the forces of step `n` see, given the staggered electric field of all steps so far. -/
theorem handed_out_step (c : CoupledConfig S P Q K) (hc : ElectrodynamicFVM c) (poisson) (hyb : S) (cb : Fin 2 → CoupledCallbacks S P Q K) (dt : K)
    (st st' : Dist S P Q K × FieldState Q K) (hb : Boundary c st.2) (h : stepCoupled c poisson cb hyb dt st = .ok st') (i : Q) :
    (st'.2.heap st'.2.cc).E1 i = ((st.2.heap st.2.cc).E1 i + (st'.2.yee.E1 i + st'.2.yee.E1 (i + c.ax.q1)) / 2) / 2 ∧
    (st'.2.heap st'.2.cc).E2 i = ((st.2.heap st.2.cc).E2 i + (st'.2.yee.E2 i + st'.2.yee.E2 (i + c.ax.q2)) / 2) / 2 ∧
    (st'.2.heap st'.2.cc).E3 i = ((st.2.heap st.2.cc).E3 i + st'.2.yee.E3 i) / 2 := by
  obtain ⟨e, -, -⟩ := stored_after_step c hc poisson cb hyb dt st st' hb.flag hb.aliased h
  rw [e]
  refine ⟨?_, ?_, ?_⟩ <;> simp [EM.avg, toCentre] <;> ring

/-- C79: in a run with evolving fields, the electric field handed to the forces after `n` steps, at either time level asked for, is the sum of the
staggered fields of all previous steps, interpolated to the centres, with weights 1/2, 1/4, 1/8, … into the past. -/
theorem C79_electric_history (c : CoupledConfig S P Q K) (hc : ElectrodynamicFVM c) (poisson) (hyb : S) (ini : InitFns Q K)
    (st : ℕ → Dist S P Q K × FieldState Q K) (h0 : initFields c.fieldParams ini = .ok (st 0).2)
    (dt : ℕ → K) (cb : ℕ → Fin 2 → CoupledCallbacks S P Q K) (h : ∀ n, stepCoupled c poisson (cb n) hyb (dt n) (st n) = .ok (st (n + 1)))
    (n : ℕ) (b : Bool) (i : Q) :
    let out := (getFields "fdtd" "FVM" { (st n).2 with flag := b }).1
    out.E1 i = fadingAverage (fun k => ((st k).2.yee.E1 i + (st k).2.yee.E1 (i + c.ax.q1)) / 2) n ∧
    out.E2 i = fadingAverage (fun k => ((st k).2.yee.E2 i + (st k).2.yee.E2 (i + c.ax.q2)) / 2) n ∧
    out.E3 i = fadingAverage (fun k => (st k).2.yee.E3 i) n := by
  obtain ⟨b0, -, e0⟩ := boundary_init c ini _ h0
  have hb : ∀ n, Boundary c (st n).2 := by
    intro n
    induction n with
    | zero => exact b0
    | succ n ih => exact boundary_step c hc poisson _ hyb _ _ _ ih (h n)
  have o : (getFields "fdtd" "FVM" { (st n).2 with flag := b }).1 = (st n).2.heap (st n).2.cc := by
    cases b <;> simp only [getFields, ne_eq, not_true_eq_false, if_false, if_true, Bool.false_eq_true]
    · rw [(hb n).aliased.2]
    · rw [(hb n).aliased.1]
  intro out
  simp only [out, o]
  clear out o
  induction n with
  | zero =>
    rw [e0]
    refine ⟨?_, ?_, ?_⟩ <;> simp [fadingAverage, toCentre]
    · ring
    · ring
  | succ n ih =>
    obtain ⟨i1, i2, i3⟩ := ih
    obtain ⟨a1, a2, a3⟩ := handed_out_step c hc poisson hyb _ _ _ _ (hb n) (h n) i
    rw [a1, a2, a3, i1, i2, i3, fadingAverage_succ, fadingAverage_succ, fadingAverage_succ]
    exact ⟨rfl, rfl, rfl⟩

/-- The mean age of the weights of `fadingAverage` is `1 - 2^{-n}` steps. -/
theorem fadingAverage_linear (a b : K) (n : ℕ) : fadingAverage (fun k => a + k * b) n = a + (n - (1 - 1 / 2 ^ n)) * b := by
  induction n with
  | zero => simp [fadingAverage]
  | succ n ih =>
    rw [fadingAverage_succ, ih]
    have : (2 : K) ^ n ≠ 0 := pow_ne_zero _ two_ne_zero
    push_cast
    rw [pow_succ]
    field_simp
    ring

/-- C79: the electric field seen by the forces lags behind the grid.  If a component of the staggered electric field grows by the same amount in every step
(as under a steady uniform current) then what the forces see after `n` steps is its value `1 - 2^{-n}` steps ago. -/
theorem C79_lag (c : CoupledConfig S P Q K) (hc : ElectrodynamicFVM c) (poisson) (hyb : S) (ini : InitFns Q K)
    (st : ℕ → Dist S P Q K × FieldState Q K) (h0 : initFields c.fieldParams ini = .ok (st 0).2)
    (dt : ℕ → K) (cb : ℕ → Fin 2 → CoupledCallbacks S P Q K) (h : ∀ n, stepCoupled c poisson (cb n) hyb (dt n) (st n) = .ok (st (n + 1)))
    (a g : K) (i : Q) (hl : ∀ k, (st k).2.yee.E3 i = a + k * g) (n : ℕ) (b : Bool) :
    (getFields "fdtd" "FVM" { (st n).2 with flag := b }).1.E3 i = a + (n - (1 - 1 / 2 ^ n)) * g := by
  rw [(C79_electric_history c hc poisson hyb ini st h0 dt cb h n b i).2.2]
  simp only [hl, fadingAverage_linear]

theorem fadingAverage_bounded (x : ℕ → K) (m M : K) (n : ℕ) (h : ∀ k ≤ n, m ≤ x k ∧ x k ≤ M) : m ≤ fadingAverage x n ∧ fadingAverage x n ≤ M := by
  induction n with
  | zero => simpa [fadingAverage] using h 0 le_rfl
  | succ n ih =>
    obtain ⟨l, u⟩ := ih fun k hk => h k (by omega)
    obtain ⟨l', u'⟩ := h (n + 1) le_rfl
    rw [fadingAverage_succ]
    constructor <;> linarith

/-- C79: what the forces see never leaves the range the grid's field has had so far. -/
theorem C79_bounded (c : CoupledConfig S P Q K) (hc : ElectrodynamicFVM c) (poisson) (hyb : S) (ini : InitFns Q K)
    (st : ℕ → Dist S P Q K × FieldState Q K) (h0 : initFields c.fieldParams ini = .ok (st 0).2)
    (dt : ℕ → K) (cb : ℕ → Fin 2 → CoupledCallbacks S P Q K) (h : ∀ n, stepCoupled c poisson (cb n) hyb (dt n) (st n) = .ok (st (n + 1)))
    (n : ℕ) (b : Bool) (m M : K) :
    let out := (getFields "fdtd" "FVM" { (st n).2 with flag := b }).1
    ((∀ k ≤ n, ∀ i, m ≤ (st k).2.yee.E1 i ∧ (st k).2.yee.E1 i ≤ M) → ∀ i, m ≤ out.E1 i ∧ out.E1 i ≤ M) ∧
    ((∀ k ≤ n, ∀ i, m ≤ (st k).2.yee.E2 i ∧ (st k).2.yee.E2 i ≤ M) → ∀ i, m ≤ out.E2 i ∧ out.E2 i ≤ M) ∧
    ((∀ k ≤ n, ∀ i, m ≤ (st k).2.yee.E3 i ∧ (st k).2.yee.E3 i ≤ M) → ∀ i, m ≤ out.E3 i ∧ out.E3 i ≤ M) := by
  have key := fun i => C79_electric_history c hc poisson hyb ini st h0 dt cb h n b i
  intro out
  refine ⟨fun hb i => ?_, fun hb i => ?_, fun hb i => ?_⟩
  · rw [(key i).1]
    refine fadingAverage_bounded _ m M n fun k hk => ?_
    have a := hb k hk i
    have a' := hb k hk (i + c.ax.q1)
    constructor <;> linarith [a.1, a.2, a'.1, a'.2]
  · rw [(key i).2.1]
    refine fadingAverage_bounded _ m M n fun k hk => ?_
    have a := hb k hk i
    have a' := hb k hk (i + c.ax.q2)
    constructor <;> linarith [a.1, a.2, a'.1, a'.2]
  · rw [(key i).2.2]
    exact fadingAverage_bounded _ m M n fun k hk => hb k hk i

/-- The states of the uniform plasma of C78: a total density of one drives the field by `-1/2` in every step. -/
def c79St : ℕ → ℚ × ℚ × ℚ
  | 0 => (1, 0, 0)
  | n + 1 =>
    let s := c79St n
    let e' := (s.2.2 + -((n : ℚ) + 1) / 2) / 2
    let d := (s.1 - s.2.1) * (1 - |s.2.2|)
    (s.1 - |e'| * d, s.2.1 + |e'| * d, e')

theorem c79_total (n : ℕ) : (c79St n).1 + (c79St n).2.1 = 1 := by
  induction n with
  | zero => norm_num [c79St]
  | succ n ih => simp only [c79St]; linear_combination ih

/-- A run of arbitrary length meeting the hypotheses of `C79_lag` with a growing field: `E3` on the grid after `n` steps is `-n/2`, and the forces see
`-(n - 1 + 2^{-n})/2`. -/
example : ∃ st : ℕ → Dist Unit (PIdx 2 1 1) (ZMod 1 × ZMod 1) ℚ × FieldState (ZMod 1 × ZMod 1) ℚ,
    initFields c78Cfg.fieldParams c78Ini = .ok (st 0).2 ∧ (∀ n, stepCoupled c78Cfg (fun _ σ => σ) (fun _ => c78Cb) () 1 (st n) = .ok (st (n + 1))) ∧
    (∀ k, (st k).2.yee.E3 (0, 0) = 0 + k * (-(1 / 2))) ∧
    ∀ n b, (getFields "fdtd" "FVM" { (st n).2 with flag := b }).1.E3 (0, 0) = -(n - (1 - 1 / 2 ^ n)) / 2 := by
  let st : ℕ → Dist Unit (PIdx 2 1 1) (ZMod 1 × ZMod 1) ℚ × FieldState (ZMod 1 × ZMod 1) ℚ :=
    fun n => (c78F (c79St n).1 (c79St n).2.1, c78St (c79St n).2.2 (-(n : ℚ) / 2) n)
  have h0 : initFields c78Cfg.fieldParams c78Ini = .ok (st 0).2 := by
    obtain ⟨σ0, -, -, -, h, -⟩ := C78_restart_changes_the_run
    have : (st 0).2 = c78St 0 0 0 := by simp [st, c79St]
    rw [this]
    simp only [initFields, initElectric, initMagnetic, c78Ini, bind, Except.bind, pure, Except.pure, c78St, Except.ok.injEq,
      FieldState.mk.injEq, and_true, true_and]
    refine ⟨?_, rfl⟩
    funext k
    split_ifs
    · refine EM.ext ?_ ?_ ?_ ?_ ?_ ?_ <;> funext i <;> simp [toCentre, EM.const]
    · rfl
  have hs : ∀ n, stepCoupled c78Cfg (fun _ σ => σ) (fun _ => c78Cb) () 1 (st n) = .ok (st (n + 1)) := by
    intro n
    simp only [st]
    rw [c78_step, c79_total]
    have e1 : (-(n : ℚ) / 2 - 1 / 2) = -((n : ℚ) + 1) / 2 := by ring
    simp only [e1, c79St, Nat.cast_add, Nat.cast_one]
  have hl : ∀ k, (st k).2.yee.E3 (0, 0) = 0 + (k : ℚ) * (-(1 / 2)) := by
    intro k; simp only [st, c78St, EM.const]; ring
  refine ⟨st, h0, hs, hl, fun n b => ?_⟩
  rw [C79_lag c78Cfg c78_dynamic _ () c78Ini st h0 _ (fun _ _ => c78Cb) hs 0 _ (0, 0) hl n b]
  ring

end Bolt
