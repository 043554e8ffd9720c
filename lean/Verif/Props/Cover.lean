import Verif.Proofs.Cover
import Verif.Props.CoupledDecomp
import Verif.Model.NonrelCoupled
import Verif.Model.Electrostatic
import Verif.Props.FFT
import Mathlib.Data.ZMod.Basic

/-!
# C69: coupled runs on periodic grids do not depend on the origin, on the number of copies of the period, or on invariant directions
-/

set_option linter.unusedSectionVars false

namespace Bolt

section
variable {Q Q' S P K : Type} [AddCommGroup P] [AddCommGroup Q] [AddCommGroup Q'] [Field K] [LinearOrder K] [IsStrictOrderedRing K]
  [Fintype S] [Fintype P] [Fintype Q] [Fintype Q'] {q1' q2' : Q'}

/-- **C69 (general form).** Whenever one periodic grid covers another and the callbacks agree along the covering, the coupled run on the
first from copied initial data is the copy of the run on the second, after every number of steps; the same error is raised otherwise. -/
theorem C69_run_on_covering_grid {φ : Q' → Q} {c : CoupledConfig S P Q K} (hφ : Covers φ q1' q2' c.ax.q1 c.ax.q2)
    {poisson : (S → Q → K) → FieldState Q K → FieldState Q K} {poisson' : (S → Q' → K) → FieldState Q' K → FieldState Q' K}
    (hp : ∀ ρ σ, poisson' (fun s i => ρ s (φ i)) (σ.pull φ) = (poisson ρ σ).pull φ) (hyb : S)
    (steps : List (K × (Fin 2 → CoupledCallbacks S P Q K))) (steps' : List (K × (Fin 2 → CoupledCallbacks S P Q' K)))
    (hs : List.Forall₂ (fun x' x => x'.1 = x.1 ∧ ∀ k, CallbacksCover φ (x'.2 k) (x.2 k)) steps' steps)
    (f : Dist S P Q K) (σ : FieldState Q K) :
    runCoupled (c.onGrid q1' q2') poisson' hyb steps' (f.pull φ, σ.pull φ)
      = (runCoupled c poisson hyb steps (f, σ)).map fun r => (r.1.pull φ, r.2.pull φ) := by
  induction hs generalizing f σ with
  | nil => rfl
  | @cons x' x rest' rest hx _ ih =>
    obtain ⟨dt', cb'⟩ := x'
    obtain ⟨dt, cb⟩ := x
    obtain ⟨h1, h2⟩ := hx
    simp only at h1 h2
    subst h1
    simp only [runCoupled, hφ.stepCoupled hp h2 hyb dt' (f, σ)]
    cases stepCoupled c poisson cb hyb dt' (f, σ) with
    | error e => rfl
    | ok r => exact ih r.1 r.2

/-- **C69 (the hypothesis on callbacks holds for the bundled physics).** The nonrelativistic callbacks agree along every map of grids. -/
theorem C69_nonrelativistic_callbacks (φ : Q' → Q) (e m : S → K) (ctr cor : PCoords S P K) (src : (S → P → K) → S → P → K) :
    CallbacksCover φ (nonrelCallbacks e m ctr cor src) (nonrelCallbacks e m ctr cor src) :=
  ⟨rfl, rfl, fun _ => rfl, fun _ => rfl, fun _ => rfl, fun _ => rfl⟩

/-- **C69 (choice of the origin).** Displacing initial data and callbacks by any vector of cells displaces the result by it. -/
theorem C69_translation {c : CoupledConfig S P Q K} (t : Q) {poisson : (S → Q → K) → FieldState Q K → FieldState Q K}
    (hp : ∀ ρ σ, poisson (fun s i => ρ s (i - t)) (σ.pull (· - t)) = (poisson ρ σ).pull (· - t)) (hyb : S)
    (steps steps' : List (K × (Fin 2 → CoupledCallbacks S P Q K)))
    (hs : List.Forall₂ (fun x' x => x'.1 = x.1 ∧ ∀ k, CallbacksCover (· - t) (x'.2 k) (x.2 k)) steps' steps)
    {f f' : Dist S P Q K} {σ σ' : FieldState Q K} (h : runCoupled c poisson hyb steps (f, σ) = .ok (f', σ')) :
    runCoupled c poisson hyb steps' (fun s p i => f s p (i - t), σ.pull (· - t)) = .ok (fun s p i => f' s p (i - t), σ'.pull (· - t)) := by
  have := C69_run_on_covering_grid (φ := (· - t)) (c := c) (q1' := c.ax.q1) (q2' := c.ax.q2)
    ⟨fun i => by abel, fun i => by abel⟩ hp hyb steps steps' hs f σ
  rw [h] at this
  exact this

/-- **C69 (symmetric states stay symmetric).** A state that is its own copy under a map of the grid to itself remains so. -/
theorem C69_symmetry_kept {c : CoupledConfig S P Q K} {φ : Q → Q} (hφ : Covers φ c.ax.q1 c.ax.q2 c.ax.q1 c.ax.q2)
    {poisson : (S → Q → K) → FieldState Q K → FieldState Q K}
    (hp : ∀ ρ σ, poisson (fun s i => ρ s (φ i)) (σ.pull φ) = (poisson ρ σ).pull φ) (hyb : S)
    (steps : List (K × (Fin 2 → CoupledCallbacks S P Q K))) (hs : ∀ x ∈ steps, ∀ k, CallbacksCover φ (x.2 k) (x.2 k))
    {f f' : Dist S P Q K} {σ σ' : FieldState Q K} (hf : f.pull φ = f) (hσ : σ.pull φ = σ)
    (h : runCoupled c poisson hyb steps (f, σ) = .ok (f', σ')) : f'.pull φ = f' ∧ σ'.pull φ = σ' := by
  have hs' : List.Forall₂ (fun x' x : K × (Fin 2 → CoupledCallbacks S P Q K) => x'.1 = x.1 ∧ ∀ k, CallbacksCover φ (x'.2 k) (x.2 k)) steps steps := by
    rw [List.forall₂_same]
    exact fun x hx => ⟨rfl, hs x hx⟩
  have := C69_run_on_covering_grid (c := c) hφ hp hyb steps steps hs' f σ
  rw [hf, hσ] at this
  have e : c.onGrid c.ax.q1 c.ax.q2 = c := rfl
  rw [e, h] at this
  simp only [Except.map, Except.ok.injEq, Prod.mk.injEq] at this
  exact ⟨this.1.symm, this.2.symm⟩

theorem EM.pull_eq_iff {φ : Q → Q} {F : EM Q K} : F.pull φ = F ↔ ∀ k i, F.comp k (φ i) = F.comp k i := by
  constructor
  · intro h k i
    conv_rhs => rw [← h]
    fin_cases k <;> rfl
  · intro h
    obtain ⟨E1, E2, E3, B1, B2, B3⟩ := F
    simp only [EM.pull, EM.mk.injEq]
    exact ⟨funext (h 0), funext (h 1), funext (h 2), funext (h 3), funext (h 4), funext (h 5)⟩

theorem invariantAlong_iff {t : Q} {f : Dist S P Q K} {σ : FieldState Q K} :
    InvariantAlong t f σ ↔ f.pull (· + t) = f ∧ σ.pull (· + t) = σ := by
  constructor
  · rintro ⟨a, b, d⟩
    refine ⟨funext fun s => funext fun p => funext fun i => a s p i, ?_⟩
    have e1 := EM.pull_eq_iff.mpr b
    have e2 : (fun k => (σ.heap k).pull (· + t)) = σ.heap := funext fun k => EM.pull_eq_iff.mpr (d k)
    simp only [FieldState.pull, e1, e2]
  · rintro ⟨a, b⟩
    refine ⟨fun s p i => congrFun (congrFun (congrFun a s) p) i, ?_, fun o => ?_⟩
    · exact EM.pull_eq_iff.mp (congrArg FieldState.yee b)
    · exact EM.pull_eq_iff.mp (congrFun (congrArg FieldState.heap b) o)

/-- **C69 (invariant directions).** What does not vary along a direction initially never varies along it. -/
theorem C69_invariance_kept {c : CoupledConfig S P Q K} (t : Q) {poisson : (S → Q → K) → FieldState Q K → FieldState Q K}
    (hp : ∀ ρ σ, poisson (fun s i => ρ s (i + t)) (σ.pull (· + t)) = (poisson ρ σ).pull (· + t)) (hyb : S)
    (steps : List (K × (Fin 2 → CoupledCallbacks S P Q K))) (hs : ∀ x ∈ steps, ∀ k, CallbacksCover (· + t) (x.2 k) (x.2 k))
    {f f' : Dist S P Q K} {σ σ' : FieldState Q K} (h0 : InvariantAlong t f σ)
    (h : runCoupled c poisson hyb steps (f, σ) = .ok (f', σ')) : InvariantAlong t f' σ' := by
  rw [invariantAlong_iff] at h0 ⊢
  exact C69_symmetry_kept ⟨fun i => add_right_comm _ _ _, fun i => add_right_comm _ _ _⟩ hp hyb steps hs h0.1 h0.2 h

/-- One step: the magnetic field changes by the curl of the electric field that the step leaves behind. -/
theorem step_B {c : CoupledConfig S P Q K} (hc : ElectrodynamicFVM c) {poisson} {cb : Fin 2 → CoupledCallbacks S P Q K}
    {hyb : S} {dt : K} {st st' : Dist S P Q K × FieldState Q K} (hflag : st.2.flag = true)
    (h : stepCoupled c poisson cb hyb dt st = .ok st') (i : Q) :
    st'.2.yee.B1 i = st.2.yee.B1 i + -dt * curlE1 c.fieldParams st'.2.yee i ∧
    st'.2.yee.B2 i = st.2.yee.B2 i + -dt * curlE2 c.fieldParams st'.2.yee i ∧
    st'.2.yee.B3 i = st.2.yee.B3 i + -dt * curlE3 c.fieldParams st'.2.yee i := by
  obtain ⟨-, -, J, E, hF⟩ := C19_one_update_per_step c hc poisson cb hyb dt st st' hflag h
  have hB : ∀ x y, evolveE c.fieldParams J dt x = .ok y → y.B1 = x.B1 ∧ y.B2 = x.B2 ∧ y.B3 = x.B3 := by
    intro x y hxy
    unfold evolveE at hxy
    split_ifs at hxy <;> cases hxy <;> exact ⟨rfl, rfl, rfl⟩
  have hS : ∀ F : EM Q K, (F.setE E).B1 = F.B1 ∧ (F.setE E).B2 = F.B2 ∧ (F.setE E).B3 = F.B3 := by
    intro F; cases E <;> exact ⟨rfl, rfl, rfl⟩
  simp only [fdtd, id, bind, Except.bind, pure, Except.pure] at hF
  split at hF
  · cases hF
  · rename_i y hy
    obtain ⟨a, b, d⟩ := hB _ _ hy
    obtain ⟨a', b', d'⟩ := hS st.2.yee
    simp only [Except.ok.injEq] at hF
    rw [← hF, ← a', ← b', ← d', ← a, ← b, ← d]
    exact ⟨rfl, rfl, rfl⟩

theorem dfdtCoupled_poisson {c : CoupledConfig S P Q K} (hc : ElectrodynamicFVM c) (poisson) (cb : CoupledCallbacks S P Q K) (hyb : S) (dt : K)
    (g f : Dist S P Q K) (σ : FieldState Q K) : dfdtCoupled c poisson cb hyb dt g f σ = dfdtCoupled c (fun _ τ => τ) cb hyb dt g f σ := by
  have hne : ¬(c.fieldsType = "electrostatic" ∧ c.fieldsSolver = "fft") := by rw [hc.2.2.2]; simp
  unfold dfdtCoupled
  simp only [if_neg hne]

theorem runCoupled_poisson {c : CoupledConfig S P Q K} (hc : ElectrodynamicFVM c) (poisson) (hyb : S)
    (steps : List (K × (Fin 2 → CoupledCallbacks S P Q K))) (st : Dist S P Q K × FieldState Q K) :
    runCoupled c poisson hyb steps st = runCoupled c (fun _ τ => τ) hyb steps st := by
  induction steps generalizing st with
  | nil => rfl
  | cons x rest ih =>
    obtain ⟨dt, cb⟩ := x
    have e : stepCoupled c poisson cb hyb dt st = stepCoupled c (fun _ τ => τ) cb hyb dt st := by
      unfold stepCoupled
      simp only [dfdtCoupled_poisson hc poisson]
    simp only [runCoupled, e, ih]

/-- The steps of a run from invariant data, with what each leaves invariant. -/
theorem run_B {c : CoupledConfig S P Q K} (hc : ElectrodynamicFVM c) {poisson} (hyb : S)
    (ts : List Q) (B : EM Q K → Q → K)
    (hB : ∀ dt (F F' : EM Q K), (∀ i, F'.B1 i = F.B1 i + -dt * curlE1 c.fieldParams F' i) →
      (∀ i, F'.B2 i = F.B2 i + -dt * curlE2 c.fieldParams F' i) → (∀ i, F'.B3 i = F.B3 i + -dt * curlE3 c.fieldParams F' i) →
      (∀ t ∈ ts, ∀ k i, F'.comp k (i + t) = F'.comp k i) → B F' = B F)
    (steps : List (K × (Fin 2 → CoupledCallbacks S P Q K))) {f f' : Dist S P Q K} {σ σ' : FieldState Q K} (hflag : σ.flag = true)
    (h : runCoupled c poisson hyb steps (f, σ) = .ok (f', σ')) (h0 : ∀ t ∈ ts, InvariantAlong t f σ)
    (hcb : ∀ t ∈ ts, ∀ x ∈ steps, ∀ k, CallbacksCover (· + t) (x.2 k) (x.2 k)) : B σ'.yee = B σ.yee := by
  have := runCoupled_invariant (c := c) (poisson := poisson) (hyb := hyb)
    (fun st => st.2.flag = true ∧ (∀ t ∈ ts, InvariantAlong t st.1 st.2) ∧ B st.2.yee = B σ.yee) steps ?_ (f, σ) (f', σ') ⟨hflag, h0, rfl⟩ h
  · exact this.2.2
  intro x hx st st' ⟨h1, h2, h3⟩ hs
  have inv : ∀ t ∈ ts, InvariantAlong t st'.1 st'.2 := by
    intro t ht
    refine C69_invariance_kept (c := c) (poisson := fun _ τ => τ) t (fun _ _ => rfl) hyb [x] (fun y hy => ?_) (h2 t ht) ?_
    · rw [List.mem_singleton] at hy
      exact hy ▸ hcb t ht x hx
    · rw [← runCoupled_poisson hc poisson]
      have e : stepCoupled c poisson x.2 hyb x.1 (st.1, st.2) = .ok (st'.1, st'.2) := hs
      simp only [runCoupled, e, bind, Except.bind]
  refine ⟨(C19_one_update_per_step c hc poisson x.2 hyb x.1 st st' h1 hs).1, inv, ?_⟩
  have hb := step_B hc h1 hs
  rw [← h3]
  exact hB x.1 _ _ (fun i => (hb i).1) (fun i => (hb i).2.1) (fun i => (hb i).2.2) (fun t ht => (inv t ht).2.1)

/-- **C69 (magnetic field of one-dimensional and uniform problems).** If nothing varies along q2 the staggered B1 never changes; if
nothing varies along q1 B2 never does; if nothing varies at all, no component of the magnetic field does. -/
theorem C69_magnetic_field {c : CoupledConfig S P Q K} (hc : ElectrodynamicFVM c) {poisson} (hyb : S)
    (steps : List (K × (Fin 2 → CoupledCallbacks S P Q K))) {f f' : Dist S P Q K} {σ σ' : FieldState Q K} (hflag : σ.flag = true)
    (h : runCoupled c poisson hyb steps (f, σ) = .ok (f', σ')) :
    (InvariantAlong c.ax.q2 f σ → (∀ x ∈ steps, ∀ k, CallbacksCover (· + c.ax.q2) (x.2 k) (x.2 k)) → σ'.yee.B1 = σ.yee.B1) ∧
    (InvariantAlong c.ax.q1 f σ → (∀ x ∈ steps, ∀ k, CallbacksCover (· + c.ax.q1) (x.2 k) (x.2 k)) → σ'.yee.B2 = σ.yee.B2) ∧
    (InvariantAlong c.ax.q1 f σ → InvariantAlong c.ax.q2 f σ → (∀ x ∈ steps, ∀ k, CallbacksCover (· + c.ax.q1) (x.2 k) (x.2 k)) →
      (∀ x ∈ steps, ∀ k, CallbacksCover (· + c.ax.q2) (x.2 k) (x.2 k)) → σ'.yee.B3 = σ.yee.B3) := by
  have sub : ∀ {x : Q → K} {t : Q}, (∀ i, x (i + t) = x i) → ∀ i, x (i - t) = x i := by
    intro x t hx i
    rw [← hx (i - t), sub_add_cancel]
  refine ⟨fun h0 hcb => ?_, fun h0 hcb => ?_, fun h0 h0' hcb hcb' => ?_⟩
  · refine run_B hc hyb [c.ax.q2] EM.B1 (fun dt F F' e1 _ _ inv => ?_) steps hflag h (by simpa using h0) (by simpa using hcb)
    funext i
    have z : F'.E3 (i - c.ax.q2) = F'.E3 i := sub (fun i => inv _ (by simp) 2 i) i
    rw [e1 i]
    simp [curlE1, CoupledConfig.fieldParams, z]
  · refine run_B hc hyb [c.ax.q1] EM.B2 (fun dt F F' _ e2 _ inv => ?_) steps hflag h (by simpa using h0) (by simpa using hcb)
    funext i
    have z : F'.E3 (i - c.ax.q1) = F'.E3 i := sub (fun i => inv _ (by simp) 2 i) i
    rw [e2 i]
    simp [curlE2, CoupledConfig.fieldParams, z]
  · refine run_B hc hyb [c.ax.q1, c.ax.q2] EM.B3 (fun dt F F' _ _ e3 inv => ?_) steps hflag h ?_ ?_
    · funext i
      have z1 : F'.E2 (i - c.ax.q1) = F'.E2 i := sub (fun i => inv _ (by simp) 1 i) i
      have z2 : F'.E1 (i - c.ax.q2) = F'.E1 i := sub (fun i => inv _ (by simp) 0 i) i
      rw [e3 i]
      simp [curlE3, CoupledConfig.fieldParams, z1, z2]
    · intro t ht
      simp only [List.mem_cons, List.not_mem_nil, or_false] at ht
      rcases ht with rfl | rfl
      exacts [h0, h0']
    · intro t ht
      simp only [List.mem_cons, List.not_mem_nil, or_false] at ht
      rcases ht with rfl | rfl
      exacts [hcb, hcb']

end

/-- The projection of a periodic grid onto one with fewer cells per period. -/
def copies {N M : ℕ} (h : M ∣ N) {N' M' : ℕ} (h' : M' ∣ N') : ZMod N × ZMod N' → ZMod M × ZMod M' :=
  fun i => (ZMod.castHom h (ZMod M) i.1, ZMod.castHom h' (ZMod M') i.2)

theorem copies_covers {N M : ℕ} (h : M ∣ N) {N' M' : ℕ} (h' : M' ∣ N') :
    Covers (copies h h') (1, 0) (0, 1) (1, 0) (0, 1) := by
  constructor <;> intro i <;> simp only [copies, Prod.fst_add, Prod.snd_add, map_add, map_one, map_zero, Prod.mk_add_mk, add_zero]

/-- **C69 (several periods).** The electrodynamic run on a domain that consists of copies of a smaller periodic domain, also with more
than one cell along a direction that the smaller domain does not resolve, is the copy of the run on the smaller domain: the number of
periods in the box is immaterial, and so is the number of cells along an ignored direction. -/
theorem C69_copies_of_the_period {S P K : Type} [AddCommGroup P] [Field K] [LinearOrder K] [IsStrictOrderedRing K] [Fintype S] [Fintype P]
    {N M N' M' : ℕ} [NeZero N] [NeZero M] [NeZero N'] [NeZero M'] (hM : M ∣ N) (hM' : M' ∣ N')
    {c : CoupledConfig S P (ZMod M × ZMod M') K} (hc : ElectrodynamicFVM c) (h1 : c.ax.q1 = (1, 0)) (h2 : c.ax.q2 = (0, 1)) (hyb : S)
    {poisson poisson'} (steps : List (K × (Fin 2 → CoupledCallbacks S P (ZMod M × ZMod M') K)))
    (steps' : List (K × (Fin 2 → CoupledCallbacks S P (ZMod N × ZMod N') K)))
    (hs : List.Forall₂ (fun x' x => x'.1 = x.1 ∧ ∀ k, CallbacksCover (copies hM hM') (x'.2 k) (x.2 k)) steps' steps)
    (f : Dist S P (ZMod M × ZMod M') K) (σ : FieldState (ZMod M × ZMod M') K) :
    runCoupled (c.onGrid (1, 0) (0, 1)) poisson' hyb steps' (f.pull (copies hM hM'), σ.pull (copies hM hM'))
      = (runCoupled c poisson hyb steps (f, σ)).map fun r => (r.1.pull (copies hM hM'), r.2.pull (copies hM hM')) := by
  have hc' : ElectrodynamicFVM (c.onGrid ((1, 0) : ZMod N × ZMod N') (0, 1)) := hc
  rw [runCoupled_poisson hc poisson, runCoupled_poisson hc' poisson']
  exact C69_run_on_covering_grid (by rw [h1, h2]; exact copies_covers hM hM') (fun _ _ => rfl) hyb steps steps' hs f σ

/-! ## Electrostatic runs -/

section electrostatic
open Complex
variable {S P : Type} [AddCommGroup P] [Fintype S] [Fintype P] {N1 N2 : ℕ} [NeZero N1] [NeZero N2]

theorem afFft2_translate (x : ZMod N1 × ZMod N2 → ℂ) (t k : ZMod N1 × ZMod N2) : afFft2 (fun j => x (j - t)) k = chi t (-k) * afFft2 x k := by
  rw [afFft2_eq, afFft2_eq, Finset.mul_sum]
  refine Fintype.sum_equiv (Equiv.subRight t) _ _ fun j => ?_
  have : chi j (-k) = chi t (-k) * chi (j - t) (-k) := by rw [← chi_add_left, add_sub_cancel]
  simp only [Equiv.subRight_apply, this]
  ring

theorem afIfft2_translate (x : ZMod N1 × ZMod N2 → ℂ) (t j : ZMod N1 × ZMod N2) :
    afIfft2 (fun k => chi t (-k) * x k) j = afIfft2 x (j - t) := by
  rw [afIfft2_eq, afIfft2_eq]
  refine Finset.sum_congr rfl fun k _ => ?_
  rw [sub_eq_add_neg, chi_add_left, chi_neg_comm]
  ring

theorem fftPoisson_translate (dq1 dq2 eps : ℝ) (rho : ZMod N1 × ZMod N2 → ℝ) (t : ZMod N1 × ZMod N2) :
    fftPoisson 1 dq1 dq2 eps (fun j => rho (j - t)) =
      (fftPoisson 1 dq1 dq2 eps rho).map fun E => (fun j => E.1 (j - t), fun j => E.2 (j - t)) := by
  have hm : ∑ j, rho (j - t) = ∑ j, rho j := Fintype.sum_equiv (Equiv.subRight t) _ _ fun j => rfl
  by_cases h : N2 = 1
  · simp only [fftPoisson, if_pos h]
    rfl
  have key : ∀ (g : ZMod N1 × ZMod N2 → ℂ) (mean : ℝ) (d : ZMod N1 × ZMod N2 → ℂ) (j : ZMod N1 × ZMod N2),
      afIfft2 (fun k => g k * (if k = 0 then 0 else afFft2 (fun j => ((rho (j - t) - mean : ℝ) : ℂ)) k / d k)) j
      = afIfft2 (fun k => g k * (if k = 0 then 0 else afFft2 (fun j => ((rho j - mean : ℝ) : ℂ)) k / d k)) (j - t) := by
    intro g mean d j
    rw [← afIfft2_translate]
    congr 1
    funext k
    rw [afFft2_translate (fun j => ((rho j - mean : ℝ) : ℂ))]
    split_ifs <;> ring
  simp only [fftPoisson, if_neg h, hm, ne_eq, not_true_eq_false, if_false, Except.map, Except.ok.injEq, Prod.mk.injEq]
  exact ⟨funext fun j => by rw [key], funext fun j => by rw [key]⟩

/-- **C69 (the electrostatic field).** Poisson's equation as solved by the code commutes with displacements. -/
theorem C69_electrostatic_field_translates (dq1 dq2 eps : ℝ) (t : ZMod N1 × ZMod N2) (rho : S → ZMod N1 × ZMod N2 → ℝ)
    (σ : FieldState (ZMod N1 × ZMod N2) ℝ) :
    electrostaticFFT dq1 dq2 eps (fun s i => rho s (i - t)) (σ.pull (· - t)) = (electrostaticFFT dq1 dq2 eps rho σ).pull (· - t) := by
  unfold electrostaticFFT
  rw [fftPoisson_translate dq1 dq2 eps (fun j => ∑ s, rho s j) t]
  cases fftPoisson 1 dq1 dq2 eps (fun j => ∑ s, rho s j) with
  | error e => rfl
  | ok E =>
    simp only [Except.map, FieldState.pull, FieldState.mk.injEq, and_true]
    funext k
    by_cases hk : k = σ.cc
    · simp only [hk, if_true]
      rfl
    · simp only [hk, if_false]

/-- **C69 (electrostatic runs).** The whole electrostatic run commutes with displacements, and directions along which nothing varies stay so. -/
theorem C69_electrostatic_run {c : CoupledConfig S P (ZMod N1 × ZMod N2) ℝ} (t : ZMod N1 × ZMod N2) (hyb : S)
    (steps : List (ℝ × (Fin 2 → CoupledCallbacks S P (ZMod N1 × ZMod N2) ℝ)))
    (hs : ∀ x ∈ steps, ∀ k, CallbacksCover (· - t) (x.2 k) (x.2 k)) {f f' : Dist S P (ZMod N1 × ZMod N2) ℝ}
    {σ σ' : FieldState (ZMod N1 × ZMod N2) ℝ}
    (h : runCoupled c (electrostaticFFT c.dq1 c.dq2 c.eps) hyb steps (f, σ) = .ok (f', σ')) :
    runCoupled c (electrostaticFFT c.dq1 c.dq2 c.eps) hyb steps (fun s p i => f s p (i - t), σ.pull (· - t))
        = .ok (fun s p i => f' s p (i - t), σ'.pull (· - t)) ∧
      (InvariantAlong (-t) f σ → InvariantAlong (-t) f' σ') := by
  constructor
  · refine C69_translation t (C69_electrostatic_field_translates _ _ _ t) hyb steps steps ?_ h
    rw [List.forall₂_same]
    exact fun x hx => ⟨rfl, hs x hx⟩
  · intro h0
    have e : (fun i : ZMod N1 × ZMod N2 => i + -t) = fun i => i - t := funext fun i => (sub_eq_add_neg i t).symm
    refine C69_invariance_kept (-t) (fun ρ σ => ?_) hyb steps (by rw [e]; exact hs) h0 h
    rw [e]
    simp only [← sub_eq_add_neg]
    exact C69_electrostatic_field_translates _ _ _ t ρ σ

end electrostatic

/-! ## A concrete case: two species on a 3 × 1 grid, and two copies of it in a 6 × 2 box -/

def c69Cfg : CoupledConfig (Fin 2) (ZMod 2 × ZMod 1 × ZMod 1) (ZMod 3 × ZMod 1) ℚ :=
  { exCoupled with ax := ⟨exCoupled.ax.p1, exCoupled.ax.p2, exCoupled.ax.p3, (1, 0), (0, 1)⟩ }

def c69Cb {Q : Type} : CoupledCallbacks (Fin 2) (ZMod 2 × ZMod 1 × ZMod 1) Q ℚ :=
  nonrelCallbacks (fun s => if s = 0 then 1 else -1) (fun _ => 2) exCoupled.coords exCoupled.coords (fun f => f)

theorem c69Cb_covers {Q Q' : Type} [AddCommGroup Q] [AddCommGroup Q'] [Fintype Q] [Fintype Q'] (φ : Q' → Q) : CallbacksCover φ c69Cb c69Cb :=
  C69_nonrelativistic_callbacks _ _ _ _ _ _

def c69F : Dist (Fin 2) (ZMod 2 × ZMod 1 × ZMod 1) (ZMod 3 × ZMod 1) ℚ := fun s p i => 1 + s.val + p.1.val * i.1.val ^ 2

def c69State : FieldState (ZMod 3 × ZMod 1) ℚ :=
  ⟨fun _ => EM.const 0 0 0 0 0 0, 0, 0, 0, ⟨fun i => i.1.val, fun _ => 1, fun i => 2 * i.1.val, fun _ => 3, fun i => i.1.val, fun _ => 0⟩, true, 0⟩

/-- The run exists, does not vary along q2 in the large box, is six-periodic there, and its staggered B1 stays 3. -/
example : ∃ r, runCoupled c69Cfg (fun _ σ => σ) 0 [(1 / 10, fun _ => c69Cb), (1 / 5, fun _ => c69Cb)] (c69F, c69State) = .ok r ∧
    runCoupled (c69Cfg.onGrid ((1, 0) : ZMod 6 × ZMod 2) (0, 1)) (fun _ σ => σ) 0 [(1 / 10, fun _ => c69Cb), (1 / 5, fun _ => c69Cb)]
      (c69F.pull (copies (by decide : 3 ∣ 6) (by decide : 1 ∣ 2)), c69State.pull (copies (by decide : 3 ∣ 6) (by decide : 1 ∣ 2)))
        = .ok (r.1.pull (copies (by decide) (by decide)), r.2.pull (copies (by decide) (by decide))) ∧
    InvariantAlong ((3, 1) : ZMod 6 × ZMod 2) (r.1.pull (copies (by decide : 3 ∣ 6) (by decide : 1 ∣ 2)))
      (r.2.pull (copies (by decide : 3 ∣ 6) (by decide : 1 ∣ 2))) ∧ ∀ i, r.2.yee.B1 i = 3 := by
  have hc : ElectrodynamicFVM c69Cfg := ⟨rfl, rfl, rfl, rfl⟩
  obtain ⟨r, h⟩ := C14_run_exists c69Cfg hc rfl ⟨.ppm, rfl⟩ ⟨.minmod, rfl⟩ (fun _ σ => σ) 0
    [(1 / 10, fun _ => c69Cb), (1 / 5, fun _ => c69Cb)] (c69F, c69State)
  have hs : ∀ (φ : ZMod 6 × ZMod 2 → ZMod 3 × ZMod 1), List.Forall₂ (fun (x' : ℚ × (Fin 2 → CoupledCallbacks (Fin 2) (ZMod 2 × ZMod 1 × ZMod 1) (ZMod 6 × ZMod 2) ℚ))
      (x : ℚ × (Fin 2 → CoupledCallbacks (Fin 2) (ZMod 2 × ZMod 1 × ZMod 1) (ZMod 3 × ZMod 1) ℚ)) => x'.1 = x.1 ∧ ∀ k, CallbacksCover φ (x'.2 k) (x.2 k))
      [(1 / 10, fun _ => c69Cb), (1 / 5, fun _ => c69Cb)] [(1 / 10, fun _ => c69Cb), (1 / 5, fun _ => c69Cb)] := fun φ =>
    .cons ⟨rfl, fun _ => c69Cb_covers _⟩ (.cons ⟨rfl, fun _ => c69Cb_covers _⟩ .nil)
  refine ⟨r, h, ?_, ?_, ?_⟩
  · rw [C69_copies_of_the_period (by decide) (by decide) hc rfl rfl 0 (poisson := fun _ σ => σ) _ _ (hs _), h]
    rfl
  · have e : ∀ i : ZMod 6 × ZMod 2, copies (by decide : 3 ∣ 6) (by decide : 1 ∣ 2) (i + (3, 1)) = copies (by decide : 3 ∣ 6) (by decide : 1 ∣ 2) i := by
      intro i
      simp only [copies, Prod.fst_add, Prod.snd_add, map_add, map_one]
      refine Prod.ext ?_ (Subsingleton.elim _ _)
      have : (ZMod.castHom (by decide : 3 ∣ 6) (ZMod 3)) (3 : ZMod 6) = 0 := by decide
      simp only [this, add_zero]
    rw [invariantAlong_iff]
    constructor
    · funext s p i
      show r.1 s p _ = r.1 s p _
      rw [e]
    · simp only [FieldState.pull, EM.pull, e]
  · intro i
    rw [(C69_magnetic_field hc 0 _ rfl h).1 ?_ ?_]
    · rfl
    · have e : ∀ i : ZMod 3 × ZMod 1, i + c69Cfg.ax.q2 = i := by decide
      refine ⟨fun s p i => ?_, fun k i => ?_, fun o k i => ?_⟩ <;> simp only [e]
    · intro x hx k
      simp only [List.mem_cons, List.not_mem_nil, or_false] at hx
      rcases hx with rfl | rfl <;> exact c69Cb_covers _

/-- A displacement and an invariant direction in a concrete case: the data of the larger box, moved by two cells. -/
example (steps : List (ℚ × (Fin 2 → CoupledCallbacks (Fin 2) (ZMod 2 × ZMod 1 × ZMod 1) (ZMod 3 × ZMod 1) ℚ)))
    (hs : ∀ x ∈ steps, x.2 = fun _ => c69Cb) : ∃ f' σ', runCoupled c69Cfg (fun _ σ => σ) 0 steps (c69F, c69State) = .ok (f', σ') ∧
      runCoupled c69Cfg (fun _ σ => σ) 0 steps (fun s p i => c69F s p (i - (2, 0)), c69State.pull (· - (2, 0)))
        = .ok (fun s p i => f' s p (i - (2, 0)), σ'.pull (· - (2, 0))) := by
  have hc : ElectrodynamicFVM c69Cfg := ⟨rfl, rfl, rfl, rfl⟩
  obtain ⟨⟨f', σ'⟩, h⟩ := C14_run_exists c69Cfg hc rfl ⟨.ppm, rfl⟩ ⟨.minmod, rfl⟩ (fun _ σ => σ) 0 steps (c69F, c69State)
  refine ⟨f', σ', h, C69_translation (c := c69Cfg) (poisson := fun _ σ => σ) (2, 0) (fun _ _ => rfl) 0 steps steps ?_ h⟩
  rw [List.forall₂_same]
  intro x hx
  refine ⟨rfl, fun k => ?_⟩
  rw [hs x hx]
  exact c69Cb_covers _

/-- An electrostatic run on a 3 × 2 grid, displaced by one cell along each axis. -/
noncomputable def c69Es : CoupledConfig Unit (ZMod 2 × ZMod 1 × ZMod 1) (ZMod 3 × ZMod 2) ℝ where
  solverMethodInQ := "FVM"
  solverMethodInP := "FVM"
  reconstructionInQ := "ppm"
  reconstructionInP := "minmod"
  riemannInQ := "upwind-flux"
  riemannInP := "upwind-flux"
  sourceEnabled := false
  fieldsEnabled := true
  dq1 := 1
  dq2 := 2
  dp1 := fun _ => 1
  dp2 := fun _ => 1
  dp3 := fun _ => 1
  ax := exAxes
  fieldsType := "electrostatic"
  fieldsSolver := "fft"
  charge := fun _ => -1
  coords := ⟨fun _ p => if p.1 = 0 then -1 else 1, fun _ _ => 1, fun _ _ => 0⟩
  eps := 3
  mu := 5
  hybrid := false
  Te := 0

example : ∃ f' σ', (runCoupled c69Es (electrostaticFFT c69Es.dq1 c69Es.dq2 c69Es.eps) () [(1 / 10, fun _ => nonrelCallbacks (fun _ => -1)
      (fun _ => 1) c69Es.coords c69Es.coords id)] (fun _ p i => p.1.val + i.1.val ^ 2,
        ⟨fun _ => EM.const 0 0 0 0 0 0, 0, 0, 0, EM.const 0 0 0 0 0 0, true, 0⟩) = .ok (f', σ')) ∧
    (∀ s p i, f' s p (i + (0, 1)) = f' s p i) := by
  obtain ⟨⟨f', σ'⟩, h⟩ := C67_whole_grid_run_exists (c := c69Es) ⟨⟨.ppm, rfl⟩, ⟨.minmod, rfl⟩, fun _ => rfl⟩ (electrostaticFFT c69Es.dq1 c69Es.dq2 c69Es.eps) ()
    [(1 / 10, fun _ => nonrelCallbacks (fun _ => -1) (fun _ => 1) c69Es.coords c69Es.coords id)] (fun _ p i => p.1.val + i.1.val ^ 2,
        ⟨fun _ => EM.const 0 0 0 0 0 0, 0, 0, 0, EM.const 0 0 0 0 0 0, true, 0⟩)
  refine ⟨f', σ', h, ?_⟩
  have := (C69_electrostatic_run (c := c69Es) (0, -1) () _ (fun x hx k => ?_) h).2 ⟨fun s p i => ?_, fun k i => ?_, fun o k i => ?_⟩
  · have e : -((0, -1) : ZMod 3 × ZMod 2) = (0, 1) := by decide
    rw [e] at this
    exact this.1
  · rw [List.mem_singleton] at hx
    subst hx
    exact C69_nonrelativistic_callbacks _ _ _ _ _ _
  · simp
  · fin_cases k <;> rfl
  · fin_cases k <;> rfl

end Bolt
