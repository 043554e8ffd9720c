import Verif.Proofs.HighOrder

/-!
# C85: negative values with the second-order and third-order reconstructions

C10 shows that the first-order scheme keeps the distribution nonnegative.  Here the same question is settled for the two
reconstructions a user normally selects.
-/

set_option linter.unusedSectionVars false

namespace Bolt

variable {K : Type} [Field K] [LinearOrder K] [IsStrictOrderedRing K]

/-! ### transport along one axis -/

section oneAxis
variable {I : Type} [AddCommGroup I]

/-- The midpoint step for a flux `G` carried along `e`, whose jumps are limited by those of the data. -/
theorem donor_step (G : (I → K) → I → K) (e : I) (kappa : K)
    (hG : ∀ x : I → K, (∀ i, 0 ≤ x i) → ∀ i, 0 ≤ G x i ∧ G x i ≤ kappa * x i)
    (hJ : ∀ (x : I → K) i, Between 0 (G x i - G x (i - e)) (kappa * (x i - x (i - e))))
    (lam : K) (h0 : 0 ≤ lam) (h1 : kappa * lam ≤ 1) (hk : 0 ≤ kappa) (x : I → K) (hx : ∀ i, 0 ≤ x i) (i : I) :
    0 ≤ x i - lam * (G (fun j => x j - lam / 2 * (G x j - G x (j - e))) i - G (fun j => x j - lam / 2 * (G x j - G x (j - e))) (i - e)) := by
  set x1 : I → K := fun j => x j - lam / 2 * (G x j - G x (j - e)) with hx1
  have b := between_nonneg (hJ x1 i)
  rcases le_total (x1 i) (x1 (i - e)) with h | h
  · have := (b.2 (by nlinarith)).2
    nlinarith [hx i]
  · have c := (b.1 (mul_nonneg hk (by linarith))).2
    have d : x1 i - x1 (i - e) ≤ x i := by
      simp only [hx1]
      have g0 := hG x hx i
      have g1 := hG x hx (i - e)
      have g2 := hG x hx (i - e - e)
      have n0 := mul_nonneg h0 g0.1
      have n2 := mul_nonneg h0 g2.1
      have n1 := mul_le_mul_of_nonneg_left g1.2 h0
      have n3 := mul_le_mul_of_nonneg_right h1 (hx (i - e))
      nlinarith
    have e1 := mul_le_mul_of_nonneg_left d hk
    have e2 := mul_le_mul_of_nonneg_left (c.trans e1) h0
    have e3 := mul_le_mul_of_nonneg_right h1 (hx i)
    nlinarith

theorem right_jump (m : Recon) (e : I) (x : I → K) (i : I) :
    Between 0 ((reconFaces m e x).2 i - (reconFaces m e x).2 (i - e)) (upperFactor m * (x i - x (i - e))) := by
  have hk := upperFactor_one_le (K := K) m
  have s := between_nonneg (faces_steep m e x i).1
  have t := between_nonneg (faces_between m e x (i - e)).2
  rw [sub_add_cancel] at t
  rcases le_total (x (i - e)) (x i) with h | h
  · have s1 := s.1 (mul_nonneg (by linarith) (by linarith))
    have t1 := t.2 h
    exact Between.of_le (by linarith) (by linarith)
  · have s1 := s.2 (mul_nonpos_of_nonneg_of_nonpos (by linarith) (by linarith))
    have t1 := t.1 h
    exact Between.of_ge (by linarith) (by linarith)

theorem left_jump (m : Recon) (e : I) (x : I → K) (i : I) :
    Between 0 ((reconFaces m e x).1 i - (reconFaces m e x).1 (i + e)) (upperFactor m * (x i - x (i + e))) := by
  have hk := upperFactor_one_le (K := K) m
  have s := between_nonneg (faces_steep m e x i).2
  have t := between_nonneg (faces_between m e x (i + e)).1
  rw [add_sub_cancel_right] at t
  rcases le_total (x i) (x (i + e)) with h | h
  · have s1 := s.1 (mul_nonneg (by linarith) (by linarith))
    have t1 := t.1 h
    exact Between.of_ge (by linarith) (by linarith)
  · have s1 := s.2 (mul_nonpos_of_nonneg_of_nonpos (by linarith) (by linarith))
    have t1 := t.2 h
    exact Between.of_le (by linarith) (by linarith)

/-- Two stages along one axis with constant velocity `v`. -/
def axisStep (m : Recon) (e : I) (d v dt : K) (x : I → K) : I → K := fun i =>
  x i + -fluxDiv m e d (fun _ => v) (fun j => x j + -fluxDiv m e d (fun _ => v) x j * (dt / 2)) i * dt

theorem axisStep_nonneg (m : Recon) (e : I) (d v dt : K) (hd : 0 < d) (hdt : 0 ≤ dt) (hc : upperFactor m * (|v| * dt / d) ≤ 1)
    (x : I → K) (hx : ∀ i, 0 ≤ x i) (i : I) : 0 ≤ axisStep m e d v dt x i := by
  have hk := upperFactor_one_le (K := K) m
  have hl : 0 ≤ |v| * dt / d := div_nonneg (mul_nonneg (abs_nonneg _) hdt) hd.le
  rcases le_or_gt v 0 with hv | hv
  · have key := donor_step (fun x => (reconFaces m e x).1) (-e) (upperFactor m)
      (fun x hx i => ⟨(faces_nonneg m e x hx i).1, (faces_upper m e x hx i).1⟩)
      (fun x i => by rw [sub_neg_eq_add]; exact left_jump m e x i) _ hl hc (by linarith) x hx i
    simp only [sub_neg_eq_add] at key
    have f1 : ∀ (y : I → K) j, fluxDiv m e d (fun _ => v) y j = v / d * ((reconFaces m e y).1 (j + e) - (reconFaces m e y).1 j) := by
      intro y j
      rw [fluxDiv_eq, leftState_eq, leftState_eq, if_neg (not_lt.mpr hv), if_neg (not_lt.mpr hv)]; ring
    rw [abs_of_nonpos hv] at key
    simp only [axisStep, f1]
    have e1 : (fun j => x j + -(v / d * ((reconFaces m e x).1 (j + e) - (reconFaces m e x).1 j)) * (dt / 2)) =
        fun j => x j - -v * dt / d / 2 * ((reconFaces m e x).1 j - (reconFaces m e x).1 (j + e)) := by
      funext j; ring
    rw [e1]
    calc (0 : K) ≤ _ := key
      _ = _ := by ring
  · have key := donor_step (fun x => (reconFaces m e x).2) e (upperFactor m)
      (fun x hx i => ⟨(faces_nonneg m e x hx i).2, (faces_upper m e x hx i).2⟩) (right_jump m e) _ hl hc (by linarith) x hx i
    have f1 : ∀ (y : I → K) j, fluxDiv m e d (fun _ => v) y j = v / d * ((reconFaces m e y).2 j - (reconFaces m e y).2 (j - e)) := by
      intro y j
      rw [fluxDiv_eq, leftState_eq, leftState_eq, if_pos hv, if_pos hv, add_sub_cancel_right]; ring
    rw [abs_of_pos hv] at key
    simp only [axisStep, f1]
    have e1 : (fun j => x j + -(v / d * ((reconFaces m e x).2 j - (reconFaces m e x).2 (j - e))) * (dt / 2)) =
        fun j => x j - v * dt / d / 2 * ((reconFaces m e x).2 j - (reconFaces m e x).2 (j - e)) := by
      funext j; ring
    rw [e1]
    calc (0 : K) ≤ _ := key
      _ = _ := by ring

theorem fluxDiv_affine (m : Recon) (e : I) (d v : K) (x : I → K) (a b : K) (i : I) :
    fluxDiv m e d (fun _ => v) (fun j => a * x j + b) i = a * fluxDiv m e d (fun _ => v) x i := by
  simp only [fluxDiv_eq, leftState_eq, (C08_affine m e x a b _).1, (C08_affine m e x a b _).2]
  split_ifs <;> ring

theorem axisStep_affine (m : Recon) (e : I) (d v dt : K) (x : I → K) (a b : K) (i : I) :
    axisStep m e d v dt (fun j => a * x j + b) i = a * axisStep m e d v dt x i + b := by
  simp only [axisStep, fluxDiv_affine]
  have : (fun j => a * x j + b + -(a * fluxDiv m e d (fun _ => v) x j) * (dt / 2)) =
      fun j => a * (x j + -fluxDiv m e d (fun _ => v) x j * (dt / 2)) + b := by funext j; ring
  rw [this, fluxDiv_affine]; ring

theorem axisStep_range (m : Recon) (e : I) (d v dt : K) (hd : 0 < d) (hdt : 0 ≤ dt) (hc : upperFactor m * (|v| * dt / d) ≤ 1)
    (lo hi : K) (x : I → K) (hx : ∀ i, lo ≤ x i ∧ x i ≤ hi) (i : I) :
    lo ≤ axisStep m e d v dt x i ∧ axisStep m e d v dt x i ≤ hi := by
  have h1 := axisStep_nonneg m e d v dt hd hdt hc (fun j => 1 * x j + -lo) (fun j => by linarith [(hx j).1]) i
  have h2 := axisStep_nonneg m e d v dt hd hdt hc (fun j => -1 * x j + hi) (fun j => by linarith [(hx j).2]) i
  rw [axisStep_affine] at h1 h2
  constructor <;> linarith

theorem fluxDiv_zero_velocity (m : Recon) (e : I) (d : K) (x : I → K) (i : I) : fluxDiv m e d (fun _ => 0) x i = 0 := by
  simp [fluxDiv_eq]
end oneAxis

variable {S P Q : Type} [AddCommGroup P] [AddCommGroup Q]

/-- Number of cells the distribution may move per step, for each reconstruction, so that no new extrema appear. -/
def courantLimit (name : String) : K :=
  if name = "minmod" then 1 / 2 else if name = "ppm" then 1 / 3 else 1

/-- In each step the distribution moves along one axis only, with a velocity `v s p` that depends on neither position nor stage, by at most
the Courant limit. -/
def OneAxisSteps (cfg : FVMConfig S K) (steps : List (K × (Fin 2 → Callbacks S P Q K))) : Prop :=
  ∀ st ∈ steps, 0 ≤ st.1 ∧ ∃ v : S → P → K,
    ((∀ k s p q, (st.2 k).Cq1 s p q = v s p ∧ (st.2 k).Cq2 s p q = 0) ∧ ∀ s p, |v s p| * st.1 / cfg.dq1 ≤ courantLimit cfg.reconstructionInQ) ∨
    ((∀ k s p q, (st.2 k).Cq1 s p q = 0 ∧ (st.2 k).Cq2 s p q = v s p) ∧ ∀ s p, |v s p| * st.1 / cfg.dq2 ≤ courantLimit cfg.reconstructionInQ)

theorem courant_factor {name : String} {m : Recon} (h : reconMethod name = .ok m) {c : K} (hc : c ≤ courantLimit name) :
    upperFactor m * c ≤ 1 := by
  unfold reconMethod at h
  split_ifs at h with h1 h2 h3 <;> simp only [Except.ok.injEq, reduceCtorEq] at h <;> subst h
  · simp only [h1, courantLimit, String.reduceEq, if_false] at hc
    simpa [upperFactor] using hc
  · simp only [h2, courantLimit, if_true] at hc
    simp only [upperFactor]; linarith
  · simp only [h3, courantLimit, String.reduceEq, if_false, if_true] at hc
    simp only [upperFactor]; linarith

/-- C85: transport along one axis creates neither negative values nor values above the maximum: with any reconstruction that can be selected
every value stays within the bounds of the initial data, provided the distribution moves at most 1, 1/2 or 1/3 of a cell per step for
piecewise-constant, minmod and ppm. -/
theorem C85_one_axis (ax : Axes P Q) (cfg : FVMConfig S K) (hsrc : cfg.sourceEnabled = false) (hf : cfg.fieldsEnabled = false)
    (hpos : cfg.PositiveSpacing) (steps : List (K × (Fin 2 → Callbacks S P Q K))) (hst : OneAxisSteps cfg steps)
    (lo hi : K) (s : S) (p : P) (f f' : Dist S P Q K) (hb : ∀ q, lo ≤ f s p q ∧ f s p q ≤ hi)
    (h : runFVM ax cfg steps f = .ok f') : ∀ q, lo ≤ f' s p q ∧ f' s p q ≤ hi := by
  induction steps generalizing f with
  | nil => simp only [runFVM, Except.ok.injEq] at h; subst h; exact hb
  | cons st rest ih =>
    obtain ⟨dt, cb⟩ := st
    obtain ⟨g, k0, k1, a, b, c, d⟩ := runFVM_cons h
    obtain ⟨hdt, v, hv⟩ := hst (dt, cb) (by simp)
    refine ih (fun st hs => hst st (by simp [hs])) g ?_ d
    have slope : ∀ (k : Fin 2) (u w : Dist S P Q K), dfdtFVM ax cfg (cb k) u = .ok w →
        (cfg.solverMethodInQ = "FVM" ∧ ∃ m, reconMethod cfg.reconstructionInQ = .ok m ∧
          ∀ q, w s p q = dfdtQ ax m cfg.dq1 cfg.dq2 (cb k).Cq1 (cb k).Cq2 u s p q) ∨
        (cfg.solverMethodInQ ≠ "FVM" ∧ ∀ q, w s p q = 0) := by
      intro k u w hw
      obtain ⟨a, b, h1, h2, h3⟩ := dfdtFVM_ok hw
      have hb0 : ∀ q, b s p q = 0 := by
        rcases h3 with ⟨⟨_, h4⟩, _⟩ | ⟨_, h4⟩
        · simp [hf] at h4
        · exact h4 s p
      rcases h2 with ⟨g1, m, g2, g3⟩ | ⟨g1, g3⟩
      · exact Or.inl ⟨g1, m, g2, fun q => by rw [h1, g3, hb0]; simp [hsrc]⟩
      · exact Or.inr ⟨g1, fun q => by rw [h1, g3, hb0, add_zero]⟩
    rcases slope 0 f k0 a with ⟨g1, m, g2, g3⟩ | ⟨g1, g3⟩ <;> rcases slope 1 _ k1 b with ⟨j1, m', j2, j3⟩ | ⟨j1, j3⟩
    · rw [g2, Except.ok.injEq] at j2
      subst j2
      obtain ⟨e1, e2, -⟩ := hpos
      rcases hv with ⟨hv, hc⟩ | ⟨hv, hc⟩
      · have c1 : ∀ k, (cb k).Cq1 s p = fun _ => v s p := fun k => funext fun q => (hv k s p q).1
        have c2 : ∀ k, (cb k).Cq2 s p = fun _ => 0 := fun k => funext fun q => (hv k s p q).2
        have hg : g s p = axisStep m ax.q1 cfg.dq1 (v s p) dt (f s p) := by
          funext q
          simp only [c, j3, g3, dfdtQ, c1, c2, fluxDiv_zero_velocity, sub_zero, axisStep]
        rw [hg]
        exact axisStep_range m ax.q1 cfg.dq1 (v s p) dt e1 hdt (courant_factor g2 (hc s p)) lo hi _ hb
      · have c1 : ∀ k, (cb k).Cq2 s p = fun _ => v s p := fun k => funext fun q => (hv k s p q).2
        have c2 : ∀ k, (cb k).Cq1 s p = fun _ => 0 := fun k => funext fun q => (hv k s p q).1
        have hg : g s p = axisStep m ax.q2 cfg.dq2 (v s p) dt (f s p) := by
          funext q
          simp only [c, j3, g3, dfdtQ, c1, c2, fluxDiv_zero_velocity, neg_zero, zero_sub, axisStep]
        rw [hg]
        exact axisStep_range m ax.q2 cfg.dq2 (v s p) dt e2 hdt (courant_factor g2 (hc s p)) lo hi _ hb
    · exact absurd g1 j1
    · exact absurd j1 g1
    · intro q; rw [c, j3]; simpa using hb q

/-! ### any number of axes -/

/-- The constants bound the face values of the reconstructions named in the configuration. -/
def FactorBounds (cfg : FVMConfig S K) (mu kappa : K) : Prop :=
  ∀ m, reconMethod cfg.reconstructionInQ = .ok m ∨ reconMethod cfg.reconstructionInP = .ok m → mu ≤ lowerFactor m ∧ upperFactor m ≤ kappa

theorem slope_bounds {ax : Axes P Q} {cfg : FVMConfig S K} {cb : Callbacks S P Q K} {f k : Dist S P Q K} (hsrc : cfg.sourceEnabled = false)
    (hpos : cfg.PositiveSpacing) {mu kappa : K} (hk : FactorBounds cfg mu kappa)
    (hf : ∀ s p q, 0 ≤ f s p q) (h : dfdtFVM ax cfg cb f = .ok k) (s : S) (p : P) (q : Q) :
    mu * inflow ax cfg cb f s p q - kappa * (outflowRate ax cfg cb s p q * f s p q) ≤ k s p q ∧
    k s p q ≤ kappa * inflow ax cfg cb f s p q := by
  obtain ⟨a, b, h1, h2, h3⟩ := dfdtFVM_ok h
  obtain ⟨d1, d2, d3, d4, d5⟩ := hpos
  have hP : ∀ (m : Recon) (e : P) (dp : S → K) (C : Dist S P Q K),
      dFluxP m e dp C f s p q = fluxDiv m e (dp s) (fun p => C s p q) (fun p => f s p q) p := by
    intro m e dp C; simp [dFluxP, fluxDiv, div_eq_mul_inv]
  rw [h1]
  have A : mu * (if cfg.solverMethodInQ = "FVM" then
        faceInflow ax.q1 (cb.Cq1 s p) (f s p) cfg.dq1 q + faceInflow ax.q2 (cb.Cq2 s p) (f s p) cfg.dq2 q else 0) -
      kappa * ((if cfg.solverMethodInQ = "FVM" then faceOutflow (cb.Cq1 s p q) (cb.Cq1 s p (q + ax.q1)) cfg.dq1
        + faceOutflow (cb.Cq2 s p q) (cb.Cq2 s p (q + ax.q2)) cfg.dq2 else 0) * f s p q) ≤ a s p q ∧
      a s p q ≤ kappa * (if cfg.solverMethodInQ = "FVM" then
        faceInflow ax.q1 (cb.Cq1 s p) (f s p) cfg.dq1 q + faceInflow ax.q2 (cb.Cq2 s p) (f s p) cfg.dq2 q else 0) := by
    rcases h2 with ⟨g1, m, g2, g3⟩ | ⟨g1, g3⟩
    · obtain ⟨k1, k2⟩ := hk m (Or.inl g2)
      have b1 := fluxDiv_bounds m ax.q1 cfg.dq1 d1 (cb.Cq1 s p) (f s p) (hf s p) mu kappa k1 k2 q
      have b2 := fluxDiv_bounds m ax.q2 cfg.dq2 d2 (cb.Cq2 s p) (f s p) (hf s p) mu kappa k1 k2 q
      rw [g3]
      simp only [g1, if_true, hsrc, Bool.false_eq_true, if_false, add_zero, dfdtQ]
      constructor <;> linarith [b1.1, b1.2, b2.1, b2.2]
    · simp [g1, g3]
  have B : mu * (if cfg.advectsP then
        faceInflow ax.p1 (fun p => cb.Cp1 s p q) (fun p => f s p q) (cfg.dp1 s) p
        + faceInflow ax.p2 (fun p => cb.Cp2 s p q) (fun p => f s p q) (cfg.dp2 s) p
        + faceInflow ax.p3 (fun p => cb.Cp3 s p q) (fun p => f s p q) (cfg.dp3 s) p else 0) -
      kappa * ((if cfg.advectsP then faceOutflow (cb.Cp1 s p q) (cb.Cp1 s (p + ax.p1) q) (cfg.dp1 s)
        + faceOutflow (cb.Cp2 s p q) (cb.Cp2 s (p + ax.p2) q) (cfg.dp2 s)
        + faceOutflow (cb.Cp3 s p q) (cb.Cp3 s (p + ax.p3) q) (cfg.dp3 s) else 0) * f s p q) ≤ b s p q ∧
      b s p q ≤ kappa * (if cfg.advectsP then
        faceInflow ax.p1 (fun p => cb.Cp1 s p q) (fun p => f s p q) (cfg.dp1 s) p
        + faceInflow ax.p2 (fun p => cb.Cp2 s p q) (fun p => f s p q) (cfg.dp2 s) p
        + faceInflow ax.p3 (fun p => cb.Cp3 s p q) (fun p => f s p q) (cfg.dp3 s) p else 0) := by
    rcases h3 with ⟨g1, m, g2, g3⟩ | ⟨g1, g3⟩
    · obtain ⟨k1, k2⟩ := hk m (Or.inr g2)
      have b1 := fluxDiv_bounds m ax.p1 (cfg.dp1 s) (d3 s) (fun p => cb.Cp1 s p q) (fun p => f s p q) (fun p => hf s p q) mu kappa k1 k2 p
      have b2 := fluxDiv_bounds m ax.p2 (cfg.dp2 s) (d4 s) (fun p => cb.Cp2 s p q) (fun p => f s p q) (fun p => hf s p q) mu kappa k1 k2 p
      have b3 := fluxDiv_bounds m ax.p3 (cfg.dp3 s) (d5 s) (fun p => cb.Cp3 s p q) (fun p => f s p q) (fun p => hf s p q) mu kappa k1 k2 p
      have hg : cfg.advectsP := g1
      rw [g3]
      simp only [hg, if_true, dfdtP, hP]
      constructor <;> linarith [b1.1, b1.2, b2.1, b2.2, b3.1, b3.2]
    · have hg : ¬ cfg.advectsP := g1
      simp [hg, g3]
  simp only [inflow, outflowRate]
  constructor <;> linarith [A.1, A.2, B.1, B.2]

theorem inflow_mono (ax : Axes P Q) (cfg : FVMConfig S K) (hpos : cfg.PositiveSpacing) (cb : Callbacks S P Q K) (f g : Dist S P Q K)
    (h : ∀ s p q, f s p q ≤ g s p q) (s : S) (p : P) (q : Q) : inflow ax cfg cb f s p q ≤ inflow ax cfg cb g s p q := by
  obtain ⟨d1, d2, d3, d4, d5⟩ := hpos
  have a1 := faceInflow_mono ax.q1 (cb.Cq1 s p) (f s p) (g s p) cfg.dq1 d1 (h s p) q
  have a2 := faceInflow_mono ax.q2 (cb.Cq2 s p) (f s p) (g s p) cfg.dq2 d2 (h s p) q
  have a3 := faceInflow_mono ax.p1 (fun p => cb.Cp1 s p q) (fun p => f s p q) (fun p => g s p q) (cfg.dp1 s) (d3 s) (fun p => h s p q) p
  have a4 := faceInflow_mono ax.p2 (fun p => cb.Cp2 s p q) (fun p => f s p q) (fun p => g s p q) (cfg.dp2 s) (d4 s) (fun p => h s p q) p
  have a5 := faceInflow_mono ax.p3 (fun p => cb.Cp3 s p q) (fun p => f s p q) (fun p => g s p q) (cfg.dp3 s) (d5 s) (fun p => h s p q) p
  simp only [inflow]
  split_ifs <;> linarith

theorem inflow_smul (ax : Axes P Q) (cfg : FVMConfig S K) (cb : Callbacks S P Q K) (c : K) (f : Dist S P Q K)
    (s : S) (p : P) (q : Q) : inflow ax cfg cb (fun s p q => c * f s p q) s p q = c * inflow ax cfg cb f s p q := by
  simp only [inflow, faceInflow]
  split_ifs <;> ring

theorem inflow_nonneg (ax : Axes P Q) (cfg : FVMConfig S K) (hpos : cfg.PositiveSpacing) (cb : Callbacks S P Q K) (f : Dist S P Q K)
    (h : ∀ s p q, 0 ≤ f s p q) (s : S) (p : P) (q : Q) : 0 ≤ inflow ax cfg cb f s p q := by
  have a := inflow_mono ax cfg hpos cb (fun s p q => 0 * f s p q) f (fun s p q => by simpa using h s p q) s p q
  rw [inflow_smul] at a
  simpa using a

theorem outflowRate_nonneg (ax : Axes P Q) (cfg : FVMConfig S K) (hpos : cfg.PositiveSpacing) (cb : Callbacks S P Q K)
    (s : S) (p : P) (q : Q) : 0 ≤ outflowRate ax cfg cb s p q := by
  obtain ⟨d1, d2, d3, d4, d5⟩ := hpos
  have a : ∀ l r d : K, 0 < d → 0 ≤ faceOutflow l r d := fun l r d hd =>
    div_nonneg (add_nonneg (le_max_right _ _) (le_max_right _ _)) hd.le
  have a1 := a (cb.Cq1 s p q) (cb.Cq1 s p (q + ax.q1)) _ d1
  have a2 := a (cb.Cq2 s p q) (cb.Cq2 s p (q + ax.q2)) _ d2
  have a3 := a (cb.Cp1 s p q) (cb.Cp1 s (p + ax.p1) q) _ (d3 s)
  have a4 := a (cb.Cp2 s p q) (cb.Cp2 s (p + ax.p2) q) _ (d4 s)
  have a5 := a (cb.Cp3 s p q) (cb.Cp3 s (p + ax.p3) q) _ (d5 s)
  simp only [outflowRate]
  split_ifs <;> linarith

/-- The two stages of one step: the state at half time is nonnegative and bounded by the inflow. -/
theorem half_step_bounds {ax : Axes P Q} {cfg : FVMConfig S K} {cb : Callbacks S P Q K} {f k : Dist S P Q K} (hsrc : cfg.sourceEnabled = false)
    (hpos : cfg.PositiveSpacing) {mu kappa : K} (hmu : 0 ≤ mu) (hka : 0 ≤ kappa) (hk : FactorBounds cfg mu kappa)
    {dt L : K} (hdt : 0 ≤ dt) (hcfl : ∀ s p q, dt * outflowRate ax cfg cb s p q ≤ L)
    (hf : ∀ s p q, 0 ≤ f s p q) (h : dfdtFVM ax cfg cb f = .ok k) (s : S) (p : P) (q : Q) :
    (1 - kappa * L / 2) * f s p q ≤ f s p q + k s p q * (dt / 2) ∧
    f s p q + k s p q * (dt / 2) ≤ f s p q + kappa * (dt / 2 * inflow ax cfg cb f s p q) := by
  obtain ⟨b1, b2⟩ := slope_bounds hsrc hpos hk hf h s p q
  have i0 := mul_nonneg hmu (inflow_nonneg ax cfg hpos cb f hf s p q)
  have c1 := mul_le_mul_of_nonneg_left b1 hdt
  have c2 := mul_le_mul_of_nonneg_left b2 hdt
  have c3 := mul_le_mul_of_nonneg_right (hcfl s p q) (hf s p q)
  have c4 := mul_le_mul_of_nonneg_left c3 hka
  have c5 := mul_nonneg hdt i0
  constructor <;> nlinarith

/-- C85: with ppm (or piecewise-constant) reconstruction, in position and momentum space together, a nonnegative distribution stays
nonnegative for ever if the velocities do not change between the two stages of a step and at most 2/57 of each cell leaves it per step. -/
theorem C85_ppm_positive (ax : Axes P Q) (cfg : FVMConfig S K) (hsrc : cfg.sourceEnabled = false)
    (hq : cfg.reconstructionInQ = "ppm" ∨ cfg.reconstructionInQ = "piecewise-constant")
    (hp : cfg.reconstructionInP = "ppm" ∨ cfg.reconstructionInP = "piecewise-constant")
    (hpos : cfg.PositiveSpacing) (steps : List (K × (Fin 2 → Callbacks S P Q K)))
    (hst : ∀ st ∈ steps, 0 ≤ st.1 ∧ SameVelocities (st.2 0) (st.2 1) ∧ ∀ s p q, st.1 * outflowRate ax cfg (st.2 0) s p q ≤ 2 / 57)
    (f f' : Dist S P Q K) (hf : ∀ s p q, 0 ≤ f s p q) (h : runFVM ax cfg steps f = .ok f') :
    ∀ s p q, 0 ≤ f' s p q := by
  have hk : FactorBounds cfg (1 / 6) 3 := by
    intro m hm
    have : m = .ppm ∨ m = .piecewiseConstant := by
      rcases hm with hm | hm
      · rcases hq with hq | hq <;> simp [reconMethod, hq] at hm <;> simp [← hm]
      · rcases hp with hp | hp <;> simp [reconMethod, hp] at hm <;> simp [← hm]
    rcases this with h | h <;> subst h <;> norm_num [lowerFactor, upperFactor]
  induction steps generalizing f with
  | nil => simp only [runFVM, Except.ok.injEq] at h; subst h; exact hf
  | cons st rest ih =>
    obtain ⟨dt, cb⟩ := st
    obtain ⟨g, k0, k1, a, b, c, d⟩ := runFVM_cons h
    obtain ⟨hdt, ⟨v1, v2, v3, v4, v5⟩, hcfl⟩ := hst (dt, cb) (by simp)
    simp only at hdt v1 v2 v3 v4 v5 hcfl
    refine ih (fun st hs => hst st (by simp [hs])) g ?_ d
    have H := fun s p q => half_step_bounds hsrc hpos (by norm_num) (by norm_num) hk hdt hcfl hf a s p q
    have hout : ∀ s p q, outflowRate ax cfg (cb 1) s p q = outflowRate ax cfg (cb 0) s p q := by
      intro s p q; simp only [outflowRate, v1, v2, v3, v4, v5]
    have hin : ∀ u s p q, inflow ax cfg (cb 1) u s p q = inflow ax cfg (cb 0) u s p q := by
      intro u s p q; simp only [inflow, v1, v2, v3, v4, v5]
    set fh : Dist S P Q K := fun s p q => f s p q + k0 s p q * (dt / 2) with hfh
    have fh0 : ∀ s p q, 0 ≤ fh s p q := fun s p q => le_trans (mul_nonneg (by norm_num) (hf s p q)) (H s p q).1
    intro s p q
    obtain ⟨b1, -⟩ := slope_bounds hsrc hpos hk fh0 b s p q
    rw [hout, hin] at b1
    have i1 : (1 - 3 * (2 / 57) / 2) * inflow ax cfg (cb 0) f s p q ≤ inflow ax cfg (cb 0) fh s p q := by
      rw [← inflow_smul]
      exact inflow_mono ax cfg hpos (cb 0) _ _ (fun s p q => (H s p q).1) s p q
    have c1 := mul_le_mul_of_nonneg_left b1 hdt
    have c2 := mul_le_mul_of_nonneg_right (hcfl s p q) (fh0 s p q)
    have c3 := mul_le_mul_of_nonneg_left i1 hdt
    have c4 := (H s p q).2
    have c5 := hf s p q
    rw [c]
    change _ ≤ f s p q + k1 s p q * dt
    have c6 : fh s p q ≤ f s p q + 3 * (dt / 2 * inflow ax cfg (cb 0) f s p q) := c4
    nlinarith

/-- C85: with any reconstruction and any velocities, one step from a distribution with values in `[0, M]` ends above `-(9/2) L L' M`, where
`L` bounds the fraction of a cell that leaves it during the step and `L'` the inflow into a cell from neighbours of value one:
negative values are of second order in the time step. -/
theorem C85_undershoot (ax : Axes P Q) (cfg : FVMConfig S K) (hsrc : cfg.sourceEnabled = false) (hpos : cfg.PositiveSpacing)
    (dt : K) (hdt : 0 ≤ dt) (cb : Fin 2 → Callbacks S P Q K) (L L' M : K)
    (hout : ∀ k s p q, dt * outflowRate ax cfg (cb k) s p q ≤ L) (hL : L ≤ 1 / 3)
    (hin : ∀ s p q, dt * inflow ax cfg (cb 0) (fun _ _ _ => 1) s p q ≤ L')
    (f f' : Dist S P Q K) (hf : ∀ s p q, 0 ≤ f s p q ∧ f s p q ≤ M) (h : runFVM ax cfg [(dt, cb)] f = .ok f') :
    ∀ s p q, -(9 / 2 * L * L' * M) ≤ f' s p q := by
  have hk : FactorBounds cfg (0 : K) 3 := by
    intro m _; cases m <;> norm_num [lowerFactor, upperFactor]
  obtain ⟨g, k0, k1, a, b, c, d⟩ := runFVM_cons h
  simp only [runFVM, Except.ok.injEq] at d
  subst d
  intro s p q
  have hL0 : 0 ≤ L := le_trans (mul_nonneg hdt (outflowRate_nonneg ax cfg hpos (cb 0) s p q)) (hout 0 s p q)
  have hM0 : 0 ≤ M := (hf s p q).1.trans (hf s p q).2
  have H := fun s p q => half_step_bounds hsrc hpos le_rfl (by norm_num) hk hdt (hout 0) (fun s p q => (hf s p q).1) a s p q
  set fh : Dist S P Q K := fun s p q => f s p q + k0 s p q * (dt / 2) with hfh
  have fh0 : ∀ s p q, 0 ≤ fh s p q := fun s p q => le_trans (mul_nonneg (by linarith) (hf s p q).1) (H s p q).1
  obtain ⟨b1, -⟩ := slope_bounds hsrc hpos hk fh0 b s p q
  have c1 := mul_le_mul_of_nonneg_left b1 hdt
  have c2 := mul_le_mul_of_nonneg_right (hout 1 s p q) (fh0 s p q)
  have i1 : inflow ax cfg (cb 0) f s p q ≤ M * inflow ax cfg (cb 0) (fun _ _ _ => 1) s p q := by
    rw [← inflow_smul]
    exact inflow_mono ax cfg hpos (cb 0) _ _ (fun s p q => by simpa using (hf s p q).2) s p q
  have i2 : dt * inflow ax cfg (cb 0) f s p q ≤ L' * M := by
    have := mul_le_mul_of_nonneg_left i1 hdt
    have := mul_le_mul_of_nonneg_right (hin s p q) hM0
    linarith
  have c6 : fh s p q ≤ f s p q + 3 * (dt / 2 * inflow ax cfg (cb 0) f s p q) := (H s p q).2
  have c7 : L * fh s p q ≤ L * f s p q + 3 / 2 * (L * (L' * M)) := by
    have := mul_le_mul_of_nonneg_left (c6.trans (show _ ≤ f s p q + 3 / 2 * (L' * M) by linarith)) hL0
    linarith
  have c8 := mul_le_mul_of_nonneg_right hL (hf s p q).1
  rw [c]
  have := (hf s p q).1
  linarith

/-! ### minmod in two dimensions -/

/-- Two columns of four cells; only the first column is occupied, by the values `C, 2, 1, 0`. -/
def c85Data (C : K) : ZMod 2 × ZMod 4 → K := fun q =>
  if q.1 = 0 then (if q.2 = 0 then C else if q.2 = 1 then 2 else if q.2 = 2 then 1 else 0) else 0

theorem minmod_right (e : ZMod 2 × ZMod 4) (x : ZMod 2 × ZMod 4 → K) (i : ZMod 2 × ZMod 4) :
    (reconFaces .minmod e x).2 i = x i + 1 / 2 * minmod (2 * (x i - x (i - e))) (1 / 2 * ((x i - x (i - e)) + (x (i + e) - x i)))
      (2 * (x (i + e) - x i)) := by
  simp only [reconFaces, reconstructMinmod, slopeMinmod_eq]
  congr 3; ring

/-- The slope vanishes at an extremum. -/
theorem minmod_flat {b f : K} (h : b * f ≤ 0) : minmod (2 * b) (1 / 2 * (b + f)) (2 * f) = 0 := by
  rcases slope_cases b f with ⟨h1, h2, h3⟩ | ⟨h1, h2, h3⟩ | ⟨h1, h3⟩
  · nlinarith
  · nlinarith
  · exact h3

theorem minmod_down {b f : K} (hb : b < 0) (hf : f < 0) :
    minmod (2 * b) (1 / 2 * (b + f)) (2 * f) = max (max (2 * b) (1 / 2 * (b + f))) (2 * f) :=
  minmod_neg (by linarith) (by linarith) (by linarith)

/-- Configuration with minmod and cells of size `dq1` by `dq2`. -/
def c85Cfg (dq1 dq2 : K) : FVMConfig Unit K :=
  ⟨"FVM", "FVM", "minmod", "minmod", "upwind-flux", "upwind-flux", false, false, dq1, dq2, fun _ => 1, fun _ => 1, fun _ => 1⟩

/-- Constant velocity `(v1, v2)` in position space. -/
def c85Cb (v1 v2 : K) : Callbacks Unit (ZMod 1) (ZMod 2 × ZMod 4) K :=
  ⟨fun _ _ _ => v1, fun _ _ _ => v2, fun _ _ _ => 0, fun _ _ _ => 0, fun _ _ _ => 0, id⟩

/-- One stage on two columns of four cells, with Courant numbers `a`, `b`. -/
def c85Stage (a b : K) (x y : ZMod 2 × ZMod 4 → K) : ZMod 2 × ZMod 4 → K := fun q =>
  x q - a * (y q - y (q - (1, 0))) - b * ((reconFaces .minmod (0, 1) y).2 q - (reconFaces .minmod (0, 1) y).2 (q - (0, 1)))

theorem c85_flat (y : ZMod 2 × ZMod 4 → K) (q : ZMod 2 × ZMod 4) : (reconFaces .minmod (1, 0) y).2 q = y q := by
  have h : ∀ q : ZMod 2 × ZMod 4, q + (1, 0) = q - (1, 0) := by decide
  rw [minmod_right, h, minmod_flat]
  · ring
  · nlinarith [sq_nonneg (y q - y (q - (1, 0)))]

theorem c85_run (dq1 dq2 v1 v2 dt : K) (h3 : 0 < v1) (h4 : 0 < v2) (x : ZMod 2 × ZMod 4 → K) :
    runFVM ⟨0, 0, 0, (1, 0), (0, 1)⟩ (c85Cfg dq1 dq2) [(dt, fun _ => c85Cb v1 v2)] (fun _ _ => x) =
      .ok (fun _ _ => c85Stage (v1 * dt / dq1) (v2 * dt / dq2) x (c85Stage (v1 * dt / dq1 / 2) (v2 * dt / dq2 / 2) x x)) := by
  have hd : ∀ y : ZMod 2 × ZMod 4 → K, dfdtFVM ⟨0, 0, 0, (1, 0), (0, 1)⟩ (c85Cfg dq1 dq2) (c85Cb v1 v2) (fun _ _ => y) =
      .ok (fun _ (_ : ZMod 1) q => -(v1 * (y q - y (q - (1, 0))) / dq1) -
        v2 * ((reconFaces .minmod (0, 1) y).2 q - (reconFaces .minmod (0, 1) y).2 (q - (0, 1))) / dq2) := by
    intro y
    have : dfdtFVM ⟨0, 0, 0, (1, 0), (0, 1)⟩ (c85Cfg dq1 dq2) (c85Cb v1 v2) (fun _ (_ : ZMod 1) => y) =
        .ok (dfdtQ ⟨0, 0, 0, (1, 0), (0, 1)⟩ .minmod dq1 dq2 (c85Cb v1 v2).Cq1 (c85Cb v1 v2).Cq2 (fun _ _ => y)) := rfl
    rw [this, Except.ok.injEq]
    funext s p q
    simp only [dfdtQ, c85Cb, fluxDiv_eq, leftState_eq, if_pos h3, if_pos h4, add_sub_cancel_right, c85_flat]
    ring
  simp only [runFVM, timestepFVM, bind, Except.bind, pure, Except.pure, hd]
  have e : ∀ q, x q + (-(v1 * (x q - x (q - (1, 0))) / dq1) -
        v2 * ((reconFaces .minmod (0, 1) x).2 q - (reconFaces .minmod (0, 1) x).2 (q - (0, 1))) / dq2) * (dt / 2) =
      c85Stage (v1 * dt / dq1 / 2) (v2 * dt / dq2 / 2) x x q := by
    intro q; simp only [c85Stage]; ring
  simp only [e, Except.ok.injEq]
  funext s p q
  generalize c85Stage (v1 * dt / dq1 / 2) (v2 * dt / dq2 / 2) x x = y
  simp only [c85Stage]; ring

/-- C85: with minmod in two dimensions no time step is small enough: for any positive velocities, spacings and time step with total Courant
number at most one there is a nonnegative distribution that is negative in some cell after a single step. -/
theorem C85_minmod_negative (dq1 dq2 v1 v2 dt : K) (h1 : 0 < dq1) (h2 : 0 < dq2) (h3 : 0 < v1) (h4 : 0 < v2) (h5 : 0 < dt)
    (hc : v1 * dt / dq1 + v2 * dt / dq2 ≤ 1) :
    ∃ f f' : Dist Unit (ZMod 1) (ZMod 2 × ZMod 4) K, (∀ s p q, 0 ≤ f s p q) ∧
      runFVM ⟨0, 0, 0, (1, 0), (0, 1)⟩ (c85Cfg dq1 dq2) [(dt, fun _ => c85Cb v1 v2)] f = .ok f' ∧ ∃ s p q, f' s p q < 0 := by
  obtain ⟨l1, hl1⟩ : ∃ l, l = v1 * dt / dq1 := ⟨_, rfl⟩
  obtain ⟨l2, hl2⟩ : ∃ l, l = v2 * dt / dq2 := ⟨_, rfl⟩
  have p1 : 0 < l1 := by rw [hl1]; positivity
  have p2 : 0 < l2 := by rw [hl2]; positivity
  have hl : l1 + l2 ≤ 1 := by rw [hl1, hl2]; exact hc
  obtain ⟨C, hC⟩ : ∃ C, l2 * C = l2 + 10 := ⟨(l2 + 10) / l2, by field_simp⟩
  have hC11 : 11 ≤ C := by nlinarith
  refine ⟨fun _ _ => c85Data C, _, ?_, c85_run dq1 dq2 v1 v2 dt h3 h4 _, (), 0, (0, 3), ?_⟩
  · intro s p q
    simp only [c85Data]
    split_ifs <;> first | linarith | norm_num
  -- values and faces of the data
  have x0 : c85Data C (0, 0) = C := rfl
  have x1 : c85Data C (0, 1) = 2 := rfl
  have x2 : c85Data C (0, 2) = 1 := rfl
  have x3 : c85Data C (0, 3) = 0 := rfl
  have xo : ∀ j, c85Data C (1, j) = 0 := fun j => rfl
  have r0 : (reconFaces .minmod (0, 1) (c85Data C)).2 (0, 0) = C := by
    rw [minmod_right, minmod_flat, x0]
    · ring
    · rw [x0, show ((0, 0) : ZMod 2 × ZMod 4) - (0, 1) = (0, 3) by decide, show ((0, 0) : ZMod 2 × ZMod 4) + (0, 1) = (0, 1) by decide, x3, x1]
      nlinarith
  have r3 : (reconFaces .minmod (0, 1) (c85Data C)).2 (0, 3) = 0 := by
    rw [minmod_right, minmod_flat, x3]
    · ring
    · rw [x3, show ((0, 3) : ZMod 2 × ZMod 4) - (0, 1) = (0, 2) by decide, show ((0, 3) : ZMod 2 × ZMod 4) + (0, 1) = (0, 0) by decide, x2, x0]
      linarith
  have r1 : (reconFaces .minmod (0, 1) (c85Data C)).2 (0, 1) = 1 := by
    rw [minmod_right, x1, show ((0, 1) : ZMod 2 × ZMod 4) - (0, 1) = (0, 0) by decide,
      show ((0, 1) : ZMod 2 × ZMod 4) + (0, 1) = (0, 2) by decide, x0, x2, minmod_down (by linarith) (by norm_num),
      max_eq_right (max_le (by linarith) (by linarith))]
    norm_num
  have r2 : (reconFaces .minmod (0, 1) (c85Data C)).2 (0, 2) = 1 / 2 := by
    rw [minmod_right, x2, show ((0, 2) : ZMod 2 × ZMod 4) - (0, 1) = (0, 1) by decide,
      show ((0, 2) : ZMod 2 × ZMod 4) + (0, 1) = (0, 3) by decide, x1, x3, minmod_down (by norm_num) (by norm_num),
      max_eq_left (le_max_of_le_right (by norm_num)), max_eq_right (by norm_num)]
    norm_num
  have ro : ∀ j, (reconFaces .minmod (0, 1) (c85Data C)).2 (1, j) = 0 := by
    intro j
    rw [minmod_right, minmod_flat, xo]
    · ring
    · have a : ((1, j) : ZMod 2 × ZMod 4) - (0, 1) = (1, j - 1) := by simp
      have b : ((1, j) : ZMod 2 × ZMod 4) + (0, 1) = (1, j + 1) := by simp
      rw [a, b, xo, xo, xo]; simp
  -- the state at half time
  rw [← hl1, ← hl2]
  have y0 : c85Stage (l1 / 2) (l2 / 2) (c85Data C) (c85Data C) (0, 0) = C - l1 / 2 * C - l2 / 2 * C := by
    simp only [c85Stage, show ((0, 0) : ZMod 2 × ZMod 4) - (1, 0) = (1, 0) by decide, show ((0, 0) : ZMod 2 × ZMod 4) - (0, 1) = (0, 3) by decide,
      x0, xo, r0, r3, sub_zero]
  have y1 : c85Stage (l1 / 2) (l2 / 2) (c85Data C) (c85Data C) (0, 1) = 2 - l1 - l2 / 2 * (1 - C) := by
    simp only [c85Stage, show ((0, 1) : ZMod 2 × ZMod 4) - (1, 0) = (1, 1) by decide, show ((0, 1) : ZMod 2 × ZMod 4) - (0, 1) = (0, 0) by decide,
      x1, xo, r0, r1]
    ring
  have y2 : c85Stage (l1 / 2) (l2 / 2) (c85Data C) (c85Data C) (0, 2) = 1 - l1 / 2 + l2 / 4 := by
    simp only [c85Stage, show ((0, 2) : ZMod 2 × ZMod 4) - (1, 0) = (1, 2) by decide, show ((0, 2) : ZMod 2 × ZMod 4) - (0, 1) = (0, 1) by decide,
      x2, xo, r1, r2]
    ring
  have y3 : c85Stage (l1 / 2) (l2 / 2) (c85Data C) (c85Data C) (0, 3) = l2 / 4 := by
    simp only [c85Stage, show ((0, 3) : ZMod 2 × ZMod 4) - (1, 0) = (1, 3) by decide, show ((0, 3) : ZMod 2 × ZMod 4) - (0, 1) = (0, 2) by decide,
      x3, xo, r2, r3]
    ring
  have yo : c85Stage (l1 / 2) (l2 / 2) (c85Data C) (c85Data C) (1, 3) = 0 := by
    simp only [c85Stage, show ((1, 3) : ZMod 2 × ZMod 4) - (1, 0) = (0, 3) by decide, show ((1, 3) : ZMod 2 × ZMod 4) - (0, 1) = (1, 2) by decide,
      x3, xo, ro]
    ring
  generalize c85Stage (l1 / 2) (l2 / 2) (c85Data C) (c85Data C) = y at *
  have t3 : (reconFaces .minmod (0, 1) y).2 (0, 3) = l2 / 4 := by
    rw [minmod_right, minmod_flat, y3]
    · ring
    · rw [y3, show ((0, 3) : ZMod 2 × ZMod 4) - (0, 1) = (0, 2) by decide, show ((0, 3) : ZMod 2 × ZMod 4) + (0, 1) = (0, 0) by decide, y2, y0]
      have a : l2 / 4 - (1 - l1 / 2 + l2 / 4) ≤ 0 := by linarith
      have b : 0 ≤ C - l1 / 2 * C - l2 / 2 * C - l2 / 4 := by nlinarith
      exact mul_nonpos_of_nonpos_of_nonneg a b
  have t2 : (reconFaces .minmod (0, 1) y).2 (0, 2) = l2 / 4 := by
    rw [minmod_right, y2, show ((0, 2) : ZMod 2 × ZMod 4) - (0, 1) = (0, 1) by decide,
      show ((0, 2) : ZMod 2 × ZMod 4) + (0, 1) = (0, 3) by decide, y1, y3,
      minmod_down (by linarith) (by linarith), max_eq_right (max_le (by linarith) (by linarith))]
    ring
  simp only [c85Stage, show ((0, 3) : ZMod 2 × ZMod 4) - (1, 0) = (1, 3) by decide, show ((0, 3) : ZMod 2 × ZMod 4) - (0, 1) = (0, 2) by decide,
    x3, y3, yo, t2, t3]
  have := mul_pos p1 p2
  linarith

/-! ### the hypotheses are met -/

/-- One-axis motion with both signs of the velocity and ppm. -/
example : OneAxisSteps (P := ZMod 2) (Q := ZMod 5 × ZMod 4) { c85Cfg (1 : ℚ) 1 with reconstructionInQ := "ppm" }
    [(1 / 3, fun _ => ⟨fun _ p _ => if p = 0 then 1 else -1, fun _ _ _ => 0, fun _ _ _ => 0, fun _ _ _ => 0, fun _ _ _ => 0, id⟩),
     (1 / 6, fun _ => ⟨fun _ _ _ => 0, fun _ p _ => if p = 0 then -2 else 1, fun _ _ _ => 0, fun _ _ _ => 0, fun _ _ _ => 0, id⟩)] := by
  intro st hst
  simp only [List.mem_cons, List.not_mem_nil, or_false] at hst
  rcases hst with h | h <;> subst h
  · refine ⟨by norm_num, fun _ p => if p = 0 then 1 else -1, Or.inl ⟨fun _ _ _ _ => ⟨rfl, rfl⟩, fun s p => ?_⟩⟩
    simp only [courantLimit, c85Cfg]
    split_ifs <;> norm_num at *
  · refine ⟨by norm_num, fun _ p => if p = 0 then -2 else 1, Or.inr ⟨fun _ _ _ _ => ⟨rfl, rfl⟩, fun s p => ?_⟩⟩
    simp only [courantLimit, c85Cfg]
    split_ifs <;> norm_num at *

/-- ppm in position and momentum space. -/
def c85PpmCfg : FVMConfig Unit ℚ :=
  ⟨"FVM", "FVM", "ppm", "ppm", "upwind-flux", "upwind-flux", false, true, 1, 1, fun _ => 1, fun _ => 1, fun _ => 1⟩

/-- Rotating flow in a phase plane, `dx/dt = p`, `dp/dt = -x`. -/
def c85Rotation : Callbacks Unit (ZMod 3) (ZMod 3 × ZMod 1) ℚ :=
  ⟨fun _ p _ => (p.val : ℚ) - 1, fun _ _ _ => 0, fun _ _ q => 1 - (q.1.val : ℚ), fun _ _ _ => 0, fun _ _ _ => 0, id⟩

/-- The rotation with a time step small enough for `C85_ppm_positive`. -/
example (f : Dist Unit (ZMod 3) (ZMod 3 × ZMod 1) ℚ) (hf : ∀ s p q, 0 ≤ f s p q) :
    ∃ f', runFVM ⟨1, 0, 0, (1, 0), (0, 1)⟩ c85PpmCfg [(1 / 100, fun _ => c85Rotation)] f = .ok f' ∧ ∀ s p q, 0 ≤ f' s p q := by
  obtain ⟨f', h'⟩ : ∃ f', runFVM ⟨1, 0, 0, (1, 0), (0, 1)⟩ c85PpmCfg [(1 / 100, fun _ => c85Rotation)] f = .ok f' := ⟨_, rfl⟩
  refine ⟨f', h', C85_ppm_positive _ c85PpmCfg rfl (Or.inl rfl) (Or.inl rfl) ⟨?_, ?_, ?_, ?_, ?_⟩ _ ?_ f f' hf h'⟩
  iterate 2 norm_num [c85PpmCfg]
  iterate 3 exact fun _ => by norm_num [c85PpmCfg]
  intro st hst
  simp only [List.mem_singleton] at hst
  subst hst
  refine ⟨by norm_num, ⟨rfl, rfl, rfl, rfl, rfl⟩, fun s p q => ?_⟩
  have hp : (p.val : ℚ) ≤ 2 := by exact_mod_cast Nat.lt_succ_iff.mp p.val_lt
  have hq : (q.1.val : ℚ) ≤ 2 := by exact_mod_cast Nat.lt_succ_iff.mp q.1.val_lt
  have hp0 : (0 : ℚ) ≤ p.val := Nat.cast_nonneg _
  have hq0 : (0 : ℚ) ≤ q.1.val := Nat.cast_nonneg _
  have key : ∀ v : ℚ, -1 ≤ v → v ≤ 1 → max v 0 + max (-v) 0 ≤ 1 := by
    intro v h1 h2
    rcases le_total v 0 with h | h
    · rw [max_eq_right h, max_eq_left (by linarith)]; linarith
    · rw [max_eq_left h, max_eq_right (by linarith)]; linarith
  have k1 := key ((p.val : ℚ) - 1) (by linarith) (by linarith)
  have k2 := key (1 - (q.1.val : ℚ)) (by linarith) (by linarith)
  simp only [outflowRate, faceOutflow, c85PpmCfg, c85Rotation, FVMConfig.advectsP, and_self, if_true, max_self, neg_zero, add_zero, zero_div, div_one]
  linarith

/-- The same flow meets the hypotheses of `C85_undershoot`, with any upper bound `M` of the data. -/
example (f f' : Dist Unit (ZMod 3) (ZMod 3 × ZMod 1) ℚ) (M : ℚ) (hf : ∀ s p q, 0 ≤ f s p q ∧ f s p q ≤ M)
    (h : runFVM ⟨1, 0, 0, (1, 0), (0, 1)⟩ c85PpmCfg [(1 / 100, fun _ => c85Rotation)] f = .ok f') :
    ∀ s p q, -(9 / 2 * (1 / 50) * (1 / 50) * M) ≤ f' s p q := by
  have key : ∀ v : ℚ, -1 ≤ v → v ≤ 1 → max v 0 + max (-v) 0 ≤ 1 := by
    intro v h1 h2
    rcases le_total v 0 with h | h
    · rw [max_eq_right h, max_eq_left (by linarith)]; linarith
    · rw [max_eq_left h, max_eq_right (by linarith)]; linarith
  have k1 : ∀ p : ZMod 3, max ((p.val : ℚ) - 1) 0 + max (-((p.val : ℚ) - 1)) 0 ≤ 1 := fun p => by
    have hp : (p.val : ℚ) ≤ 2 := by exact_mod_cast Nat.lt_succ_iff.mp p.val_lt
    have hp0 : (0 : ℚ) ≤ p.val := Nat.cast_nonneg _
    exact key _ (by linarith) (by linarith)
  have k2 : ∀ q : ZMod 3, max (1 - (q.val : ℚ)) 0 + max (-(1 - (q.val : ℚ))) 0 ≤ 1 := fun q => by
    have hp : (q.val : ℚ) ≤ 2 := by exact_mod_cast Nat.lt_succ_iff.mp q.val_lt
    have hp0 : (0 : ℚ) ≤ q.val := Nat.cast_nonneg _
    exact key _ (by linarith) (by linarith)
  refine C85_undershoot _ c85PpmCfg rfl ⟨by norm_num [c85PpmCfg], by norm_num [c85PpmCfg], fun _ => by norm_num [c85PpmCfg],
    fun _ => by norm_num [c85PpmCfg], fun _ => by norm_num [c85PpmCfg]⟩ (1 / 100) (by norm_num) (fun _ => c85Rotation) _ _ M
    (fun k s p q => ?_) (by norm_num) (fun s p q => ?_) f f' hf h
  · have a := k1 p
    have b := k2 q.1
    simp only [outflowRate, faceOutflow, c85PpmCfg, c85Rotation, FVMConfig.advectsP, and_self, if_true, max_self, neg_zero, add_zero,
      zero_div, div_one]
    linarith
  · have a := k1 p
    have b := k2 q.1
    simp only [inflow, faceInflow, c85PpmCfg, c85Rotation, FVMConfig.advectsP, and_self, if_true, max_self, neg_zero, add_zero,
      zero_div, div_one, mul_one]
    linarith

end Bolt
