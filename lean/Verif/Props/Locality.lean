import Verif.Proofs.Locality
import Verif.Props.Cover

/-!
# C88: how far a run looks
-/

set_option linter.unusedSectionVars false

namespace Bolt

section given
variable {Q Q' S P K : Type} [AddCommGroup P] [AddCommGroup Q] [AddCommGroup Q'] [Field K] [LinearOrder K] [IsStrictOrderedRing K]

/-- **C88 (given velocities and forces).** The values in a cell after `n` steps are determined by the initial values, velocities, forces
and sources at most `2 r n` cells away along each axis, `r` being the reach of the reconstruction (1, 2 or 3 cells); not by the rest of the
grid, and not even by its size: the second run may be on another grid. -/
theorem C88_given_forces {ax : Axes P Q} {ax' : Axes P Q'} (hp : ax'.p1 = ax.p1 ∧ ax'.p2 = ax.p2 ∧ ax'.p3 = ax.p3) (cfg : FVMConfig S K) {r : ℕ}
    (h1r : 1 ≤ r) (hm : ∀ m, reconMethod cfg.reconstructionInQ = .ok m → m.radius ≤ r)
    (steps : List (K × (Fin 2 → Callbacks S P Q K))) (steps' : List (K × (Fin 2 → Callbacks S P Q' K))) (n : ℕ) (i : Q) (i' : Q')
    (hs : List.Forall₂ (fun x x' => x.1 = x'.1 ∧ ∀ k, Around ax.q1 ax.q2 ax'.q1 ax'.q2 (n + 2 * r * steps.length) i i'
      (GivenCallbacksAt (x.2 k) (x'.2 k))) steps steps')
    {f g : Dist S P Q K} {f' g' : Dist S P Q' K}
    (hf : Around ax.q1 ax.q2 ax'.q1 ax'.q2 (n + 2 * r * steps.length) i i' (fun j j' => ∀ s p, f s p j = f' s p j'))
    (h : runFVM ax cfg steps f = .ok g) (h' : runFVM ax' cfg steps' f' = .ok g') :
    Around ax.q1 ax.q2 ax'.q1 ax'.q2 n i i' (fun j j' => ∀ s p, g s p j = g' s p j') := by
  obtain ⟨N, hN⟩ : ∃ N, N = n + 2 * r * steps.length := ⟨_, rfl⟩
  rw [← hN] at hs hf
  obtain ⟨M, hM⟩ : ∃ M, M = n + 2 * r * steps.length := ⟨_, rfl⟩
  have hle : M ≤ N := by omega
  replace hf := hf.mono hle
  rw [hM] at hf hle
  clear hM hN M
  induction hs generalizing f f' with
  | nil =>
    simp only [runFVM, Except.ok.injEq] at h h'
    subst h h'
    simpa using hf
  | @cons x x' rest rest' hx _ ih =>
    obtain ⟨dt, cb⟩ := x
    obtain ⟨dt', cb'⟩ := x'
    obtain ⟨e1, e2⟩ := hx
    simp only at e1 e2
    subst e1
    obtain ⟨y, k0, k1, a0, a1, ay, hrest⟩ := runFVM_cons h
    obtain ⟨y', k0', k1', a0', a1', ay', hrest'⟩ := runFVM_cons h'
    have el : n + 2 * r * ((dt, cb) :: rest).length = n + 2 * r * rest.length + r + r := by simp only [List.length_cons]; ring
    rw [el] at hle hf
    have both := hf.and (((e2 0).mono hle).and ((e2 1).mono hle))
    have mid := both.step (Y := fun j j' => (∀ s p, f s p j + k0 s p j * (dt / 2) = f' s p j' + k0' s p j' * (dt / 2)) ∧
        (∀ s p, f s p j = f' s p j') ∧ GivenCallbacksAt (cb 1) (cb' 1) j j') (fun j j' hj => by
      have z := hj.at0
      refine ⟨fun s p => ?_, z.1, z.2.2⟩
      rw [z.1, slope_local hp h1r hm a0 a0' (hj.imp fun _ _ x => x.1) (hj.imp fun _ _ x => ⟨x.2.1.q1, x.2.1.q2⟩) z.2.1.p1 z.2.1.p2 z.2.1.p3
        (z.2.1.src _ _ z.1) s p])
    refine ih hrest hrest' (by omega) (mid.step (fun j j' hj s p => ?_))
    have z := hj.at0
    rw [ay, ay', z.2.1, slope_local hp h1r hm a1 a1' (hj.imp fun _ _ x => x.1) (hj.imp fun _ _ x => ⟨x.2.2.q1, x.2.2.q2⟩) z.2.2.p1 z.2.2.p2 z.2.2.p3
      (z.2.2.src _ _ z.1) s p]

end given

section coupled
variable {Q Q' S P K : Type} [AddCommGroup P] [AddCommGroup Q] [AddCommGroup Q'] [Field K] [LinearOrder K] [IsStrictOrderedRing K]
  [Fintype S] [Fintype P] [Fintype Q] [Fintype Q']

/-- **C88 (self-consistent fields).** With electrodynamic fields the distance is `(2 r + 1) n`, for the distributions and for the fields of
all time levels; for the hybrid model `r` must be at least 3.  The only configuration excluded is the electrostatic field from the
Fourier transform, which depends on the charge everywhere. -/
theorem C88_coupled (c : CoupledConfig S P Q K) (hes : ¬ (c.fieldsType = "electrostatic" ∧ c.fieldsSolver = "fft")) {r : ℕ} (h1 : 1 ≤ r)
    (h3 : c.hybrid = true → 3 ≤ r) (hm : ∀ m, reconMethod c.reconstructionInQ = .ok m → m.radius ≤ r) {q1' q2' : Q'} {poisson poisson'} (hyb : S)
    (steps : List (K × (Fin 2 → CoupledCallbacks S P Q K))) (steps' : List (K × (Fin 2 → CoupledCallbacks S P Q' K))) (n : ℕ) (i : Q) (i' : Q')
    (hs : List.Forall₂ (fun x x' => x.1 = x'.1 ∧ ∀ k, Around c.ax.q1 c.ax.q2 q1' q2' (n + (2 * r + 1) * steps.length) i i'
      (CallbacksAt (x.2 k) (x'.2 k))) steps steps')
    {st g : Dist S P Q K × FieldState Q K} {st' g' : Dist S P Q' K × FieldState Q' K} (href : SameRefs st.2 st'.2)
    (hst : Around c.ax.q1 c.ax.q2 q1' q2' (n + (2 * r + 1) * steps.length) i i' (SameStateAt st st'))
    (h : runCoupled c poisson hyb steps st = .ok g) (h' : runCoupled (c.onGrid q1' q2') poisson' hyb steps' st' = .ok g') :
    Around c.ax.q1 c.ax.q2 q1' q2' n i i' (SameStateAt g g') := by
  obtain ⟨N, hN⟩ : ∃ N, N = n + (2 * r + 1) * steps.length := ⟨_, rfl⟩
  rw [← hN] at hs hst
  obtain ⟨M, hM⟩ : ∃ M, M = n + (2 * r + 1) * steps.length := ⟨_, rfl⟩
  have hle : M ≤ N := by omega
  replace hst := hst.mono hle
  rw [hM] at hst hle
  clear hM hN M
  induction hs generalizing st st' with
  | nil =>
    simp only [runCoupled, Except.ok.injEq] at h h'
    subst h h'
    simpa using hst
  | @cons x x' rest rest' hx _ ih =>
    obtain ⟨dt, cb⟩ := x
    obtain ⟨dt', cb'⟩ := x'
    obtain ⟨e1, e2⟩ := hx
    simp only at e1 e2
    subst e1
    simp only [runCoupled, bind, Except.bind] at h h'
    cases s0 : stepCoupled c poisson cb hyb dt st with
    | error e => simp [s0] at h
    | ok y =>
    cases s0' : stepCoupled (c.onGrid q1' q2') poisson' cb' hyb dt st' with
    | error e => simp [s0'] at h'
    | ok y' =>
    simp only [s0] at h
    simp only [s0'] at h'
    have el : n + (2 * r + 1) * ((dt, cb) :: rest).length = n + (2 * r + 1) * rest.length + (2 * r + 1) := by
      simp only [List.length_cons]; ring
    rw [el] at hle hst
    obtain ⟨hr, hy⟩ := step_local hes h1 h3 hm href s0 s0' hst (fun k => (e2 k).mono hle)
    exact ih hr h h' (by omega) hy

/-- The callbacks of the nonrelativistic model, with any source acting within a cell, are the same at all cells. -/
theorem C88_nonrelativistic_callbacks (e m : S → K) (ctr cor : PCoords S P K) (src : (S → P → K) → S → P → K) (j : Q) (j' : Q') :
    CallbacksAt (nonrelCallbacks e m ctr cor src) (nonrelCallbacks e m ctr cor src) j j' where
  q1 := fun _ _ => rfl
  q2 := fun _ _ => rfl
  p1 := fun F F' h s p => by
    have a := h 0; have b := h 1; have d := h 2; have a' := h 3; have b' := h 4; have d' := h 5
    simp only [EM.comp] at a b d a' b' d'
    simp only [nonrelCallbacks, a, b, d, a', b', d']
  p2 := fun F F' h s p => by
    have a := h 0; have b := h 1; have d := h 2; have a' := h 3; have b' := h 4; have d' := h 5
    simp only [EM.comp] at a b d a' b' d'
    simp only [nonrelCallbacks, a, b, d, a', b', d']
  p3 := fun F F' h s p => by
    have a := h 0; have b := h 1; have d := h 2; have a' := h 3; have b' := h 4; have d' := h 5
    simp only [EM.comp] at a b d a' b' d'
    simp only [nonrelCallbacks, a, b, d, a', b', d']
  src := fun f f' h s p => by
    have : (fun s p => f s p j) = fun s p => f' s p j' := funext fun s => funext fun p => h s p
    simp only [nonrelCallbacks, this]

end coupled

section domain
variable {S P K : Type} [AddCommGroup P] [Field K] [LinearOrder K] [IsStrictOrderedRing K] [Fintype S] [Fintype P]

/-- **C88 (size of the domain).** Initial data that agree near the origin on an `N × M` grid and on an `N' × M'` grid give, with the
nonrelativistic model, the same values at the origin for as long as nothing from outside can have arrived. -/
theorem C88_size_of_domain {N M N' M' : ℕ} [NeZero N] [NeZero M] [NeZero N'] [NeZero M'] (c : CoupledConfig S P (ZMod N × ZMod M) K)
    (hc : ElectrodynamicFVM c) (h1 : c.ax.q1 = (1, 0)) (h2 : c.ax.q2 = (0, 1)) (hh : c.hybrid = false) {m : Recon}
    (hm : reconMethod c.reconstructionInQ = .ok m) {poisson poisson'} (hyb : S) (dts : List K) (e μ : S → K) (ctr cor : PCoords S P K)
    (src : (S → P → K) → S → P → K) {st g : Dist S P (ZMod N × ZMod M) K × FieldState (ZMod N × ZMod M) K}
    {st' g' : Dist S P (ZMod N' × ZMod M') K × FieldState (ZMod N' × ZMod M') K} (href : SameRefs st.2 st'.2)
    (hst : ∀ a b : ℤ, |a| ≤ ((2 * m.radius + 1) * dts.length : ℕ) → |b| ≤ ((2 * m.radius + 1) * dts.length : ℕ) →
      SameStateAt st st' ((a : ZMod N), (b : ZMod M)) ((a : ZMod N'), (b : ZMod M')))
    (h : runCoupled c poisson hyb (dts.map fun dt => (dt, fun _ => nonrelCallbacks e μ ctr cor src)) st = .ok g)
    (h' : runCoupled (c.onGrid (1, 0) (0, 1)) poisson' hyb (dts.map fun dt => (dt, fun _ => nonrelCallbacks e μ ctr cor src)) st' = .ok g') :
    SameStateAt g g' (0, 0) (0, 0) := by
  refine (C88_coupled c (fun x => by rw [hc.2.2.2] at x; exact absurd x.1 (by decide)) (r := m.radius) (by cases m <;> decide)
    (fun x => by rw [hh] at x; exact absurd x (by decide)) (fun m' hm' => by rw [hm] at hm'; cases hm'; rfl) hyb _ _ 0 (0, 0) (0, 0) ?_ href ?_ h h').at0
  · rw [List.forall₂_map_left_iff, List.forall₂_map_right_iff, List.forall₂_same]
    exact fun dt _ => ⟨rfl, fun k a b _ _ => C88_nonrelativistic_callbacks _ _ _ _ _ _ _⟩
  · intro a b ha hb
    have := hst a b (by simpa using ha) (by simpa using hb)
    rw [h1, h2]
    simpa using this

end domain

/-! ## The distance cannot be reduced -/

section sharp
variable {K : Type} [Field K] [LinearOrder K] [IsStrictOrderedRing K]

/-- Free streaming to the right on an infinite line, first-order reconstruction. -/
def c88Ax : Axes Unit ℤ := ⟨0, 0, 0, 1, 0⟩
@[inherit_doc c88Ax]
def c88Cfg : FVMConfig Unit K :=
  ⟨"FVM", "FVM", "piecewise-constant", "piecewise-constant", "upwind-flux", "upwind-flux", false, false, 1, 1, fun _ => 1, fun _ => 1, fun _ => 1⟩
@[inherit_doc c88Ax]
def c88Cb : Callbacks Unit Unit ℤ K := ⟨fun _ _ _ => 1, fun _ _ _ => 0, fun _ _ _ => 0, fun _ _ _ => 0, fun _ _ _ => 0, fun _ _ _ _ => 0⟩

theorem c88_slope (f : Dist Unit Unit ℤ K) : dfdtFVM c88Ax c88Cfg c88Cb f = .ok fun s p i => -(f s p i - f s p (i - 1)) := by
  simp only [dfdtFVM, c88Cfg, if_true, reconMethod, bind, Except.bind, pure, Except.pure]
  norm_num
  funext s p i
  simp [dfdtQ, fluxDiv_eq, leftState_eq, reconFaces, c88Ax, c88Cb]

/-- The right end of a profile moves two cells to the right in a step. -/
theorem c88_edge (dt : K) (n : ℕ) : ∀ (f : Dist Unit Unit ℤ K) (m : ℤ), (∀ i, m < i → f () () i = 0) →
    ∃ g, runFVM c88Ax c88Cfg (List.replicate n (dt, fun _ => c88Cb)) f = .ok g ∧ g () () (m + 2 * n) = f () () m * (dt ^ 2 / 2) ^ n := by
  induction n with
  | zero => exact fun f m _ => ⟨f, rfl, by simp⟩
  | succ n ih =>
    intro f m hf
    set y : Dist Unit Unit ℤ K := fun s p i => f s p i +
      -((f s p i + -(f s p i - f s p (i - 1)) * (dt / 2)) - (f s p (i - 1) + -(f s p (i - 1) - f s p (i - 1 - 1)) * (dt / 2))) * dt with hy
    have z : ∀ i, m + 2 < i → y () () i = 0 := fun i hi => by
      simp only [hy, hf i (by omega), hf (i - 1) (by omega), hf (i - 1 - 1) (by omega)]
      ring
    have v : y () () (m + 2) = f () () m * (dt ^ 2 / 2) := by
      have e : m + 2 - 1 - 1 = m := by ring
      simp only [hy, hf (m + 2) (by omega), hf (m + 2 - 1) (by omega), e]
      ring
    obtain ⟨g, hg, hv⟩ := ih y (m + 2) z
    refine ⟨g, ?_, ?_⟩
    · rw [List.replicate_succ]
      simp only [runFVM, timestepFVM, bind, Except.bind, pure, Except.pure, c88_slope]
      exact hg
    · have e : m + 2 * ((n + 1 : ℕ) : ℤ) = m + 2 + 2 * n := by push_cast; ring
      rw [e, hv, v]
      ring

/-- **C88 (the distance cannot be reduced).** With the first-order reconstruction (`r = 1`), for every number `n` of steps and every step
size there are initial data that differ in a single cell, exactly `2 r n` cells away from a cell where the results differ. -/
theorem C88_attained (dt : K) (hdt : dt ≠ 0) (n : ℕ) : ∃ f f' g g' : Dist Unit Unit ℤ K, (∀ s p i, i ≠ 0 → f s p i = f' s p i) ∧
    runFVM c88Ax c88Cfg (List.replicate n (dt, fun _ => c88Cb)) f = .ok g ∧
    runFVM c88Ax c88Cfg (List.replicate n (dt, fun _ => c88Cb)) f' = .ok g' ∧ g () () (2 * 1 * n) ≠ g' () () (2 * 1 * n) := by
  obtain ⟨g, hg, v⟩ := c88_edge dt n (fun _ _ i => if i = 0 then 1 else 0) 0 (fun i hi => if_neg (by omega))
  obtain ⟨g', hg', v'⟩ := c88_edge dt n (fun _ _ _ => 0) 0 (fun _ _ => rfl)
  refine ⟨_, _, g, g', fun s p i hi => by simp [hi], hg, hg', ?_⟩
  simp only [zero_add, if_true, one_mul, zero_mul] at v v'
  rw [mul_one, v, v']
  exact pow_ne_zero _ (div_ne_zero (pow_ne_zero _ hdt) two_ne_zero)

end sharp

/-! ## Concrete cases -/

/-- Two steps of the first-order scheme on the line: the value at cell 7 does not depend on that at cell 2, five cells away. -/
example (f f' : Dist Unit Unit ℤ ℚ) (hf : ∀ i, i ≠ 2 → f () () i = f' () () i) : ∃ g g',
    runFVM c88Ax c88Cfg [(1 / 2, fun _ => c88Cb), (1 / 3, fun _ => c88Cb)] f = .ok g ∧
    runFVM c88Ax c88Cfg [(1 / 2, fun _ => c88Cb), (1 / 3, fun _ => c88Cb)] f' = .ok g' ∧ g () () 7 = g' () () 7 := by
  obtain ⟨g, h⟩ := C09_run_succeeds c88Ax (c88Cfg (K := ℚ)) (Or.inl rfl) (Or.inl rfl) [(1 / 2, fun _ => c88Cb), (1 / 3, fun _ => c88Cb)] f
  obtain ⟨g', h'⟩ := C09_run_succeeds c88Ax (c88Cfg (K := ℚ)) (Or.inl rfl) (Or.inl rfl) [(1 / 2, fun _ => c88Cb), (1 / 3, fun _ => c88Cb)] f'
  have cb0 : ∀ j j' : ℤ, GivenCallbacksAt (c88Cb (K := ℚ)) c88Cb j j' := fun j j' =>
    ⟨fun _ _ => rfl, fun _ _ => rfl, fun _ _ => rfl, fun _ _ => rfl, fun _ _ => rfl, fun _ _ _ _ _ => rfl⟩
  refine ⟨g, g', h, h', (C88_given_forces (ax := c88Ax) (ax' := c88Ax) ⟨rfl, rfl, rfl⟩ c88Cfg (r := 1) le_rfl ?_ _ _ 0 7 7 ?_ ?_ h h').at0 () ()⟩
  · intro m hm
    simp [c88Cfg, reconMethod] at hm
    subst hm
    decide
  · exact .cons ⟨rfl, fun _ _ _ _ _ => cb0 _ _⟩ (.cons ⟨rfl, fun _ _ _ _ _ => cb0 _ _⟩ .nil)
  · intro a b ha hb s p
    refine hf _ ?_
    simp only [c88Ax, smul_eq_mul, mul_one, mul_zero, add_zero]
    simp only [List.length_cons, List.length_nil] at ha
    rw [abs_le] at ha
    omega

def c88St (N : ℕ) [NeZero N] : Dist (Fin 2) (ZMod 2 × ZMod 1 × ZMod 1) (ZMod N × ZMod 1) ℚ × FieldState (ZMod N × ZMod 1) ℚ :=
  (fun s p i => if i.1 = 20 then 5 else 1 + s.val + p.1.val,
    ⟨fun _ => EM.const 0 0 0 0 0 0, 0, 0, 0, ⟨fun i => if i.1 = 20 then 7 else 1, fun _ => 1, fun _ => 2, fun _ => 3, fun _ => 4, fun _ => 0⟩, true, 0⟩)

def c88Big : CoupledConfig (Fin 2) (ZMod 2 × ZMod 1 × ZMod 1) (ZMod 40 × ZMod 1) ℚ := c69Cfg.onGrid (1, 0) (0, 1)

/-- A pulse at cell 20 of a line of 40 cells and of a line of 64 cells: at cell 0 two coupled steps give the same. -/
example : ∃ g g', runCoupled c88Big (fun _ σ => σ) 0 ([1 / 10, 1 / 5].map fun dt => (dt, fun _ => c69Cb)) (c88St 40) = .ok g ∧
    runCoupled (c88Big.onGrid ((1, 0) : ZMod 64 × ZMod 1) (0, 1)) (fun _ σ => σ) 0 ([1 / 10, 1 / 5].map fun dt => (dt, fun _ => c69Cb)) (c88St 64) = .ok g' ∧
    SameStateAt g g' (0, 0) (0, 0) := by
  have hc : ElectrodynamicFVM c88Big := ⟨rfl, rfl, rfl, rfl⟩
  have hc' : ElectrodynamicFVM (c88Big.onGrid ((1, 0) : ZMod 64 × ZMod 1) (0, 1)) := ⟨rfl, rfl, rfl, rfl⟩
  obtain ⟨g, h⟩ := C14_run_exists c88Big hc rfl ⟨.ppm, rfl⟩ ⟨.minmod, rfl⟩ (fun _ σ => σ) 0
    ([1 / 10, 1 / 5].map fun dt => (dt, fun _ => c69Cb)) (c88St 40)
  obtain ⟨g', h'⟩ := C14_run_exists (c88Big.onGrid ((1, 0) : ZMod 64 × ZMod 1) (0, 1)) hc' rfl ⟨.ppm, rfl⟩ ⟨.minmod, rfl⟩ (fun _ σ => σ) 0
    ([1 / 10, 1 / 5].map fun dt => (dt, fun _ => c69Cb)) (c88St 64)
  refine ⟨g, g', h, h', C88_size_of_domain c88Big hc rfl rfl rfl (m := .ppm) rfl 0 [1 / 10, 1 / 5] _ _ _ _ _ ⟨rfl, rfl, rfl, rfl⟩ ?_ h h'⟩
  intro a b ha _
  have ha' : |a| ≤ 14 := ha
  rw [abs_le] at ha'
  have e1 : ((a : ZMod 40) = 20) = False := by
    simp only [eq_iff_iff, iff_false]
    intro x
    have : ((a - 20 : ℤ) : ZMod 40) = 0 := by push_cast; rw [x]; decide
    rw [ZMod.intCast_zmod_eq_zero_iff_dvd] at this
    omega
  have e2 : ((a : ZMod 64) = 20) = False := by
    simp only [eq_iff_iff, iff_false]
    intro x
    have : ((a - 20 : ℤ) : ZMod 64) = 0 := by push_cast; rw [x]; decide
    rw [ZMod.intCast_zmod_eq_zero_iff_dvd] at this
    omega
  refine ⟨fun s p => ?_, fun k => ?_, fun o k => ?_⟩
  · simp only [c88St, e1, e2]
  · fin_cases k <;> simp [c88St, EM.comp, e1, e2]
  · fin_cases k <;> rfl

end Bolt
