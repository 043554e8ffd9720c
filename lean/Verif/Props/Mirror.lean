import Verif.Proofs.Mirror
import Verif.Props.Symmetry
import Verif.Props.Hybrid

/-!
# C90: reversing an axis
-/

set_option linter.unusedSectionVars false

namespace Bolt

section
variable {S K P' : Type} [AddCommGroup P'] [Fintype P'] [Field K] [LinearOrder K] [IsStrictOrderedRing K] [Fintype S] {N1 N2 M1 : ℕ}

theorem mirrorCell_face (i : ZMod N1 × ZMod N2) : mirrorCell i + (1, 0) = mirrorFace i := by
  simp only [mirrorCell, mirrorFace, Prod.mk_add_mk, add_zero, Prod.mk.injEq, and_true]; ring

theorem mirrorP_face (p : ZMod M1 × P') : mirrorP p + (1, 0) = mirrorPFace p := by
  simp only [mirrorP, mirrorPFace, Prod.mk_add_mk, add_zero, Prod.mk.injEq, and_true]; ring

theorem EM.mirror_mirror {Q : Type} (F : EM Q K) : F.mirror.mirror = F := by
  simp only [EM.mirror, neg_neg]

theorem EM.mirrorYee_neg {Q : Type} [AddCommGroup Q] (q1 : Q) (F : EM Q K) : (F.mirrorYee q1).mirrorYee (-q1) = F := by
  simp only [EM.mirrorYee, neg_neg, neg_add_cancel_right]

theorem FieldState.mirror_neg {Q : Type} [AddCommGroup Q] (q1 : Q) (σ : FieldState Q K) : (σ.mirror q1).mirror (-q1) = σ := by
  simp only [FieldState.mirror, FieldState.mapEM, EM.mirror_mirror, EM.mirrorYee_neg, id]

theorem FieldState.mirror_pull (σ : FieldState (ZMod N1 × ZMod N2) K) : (σ.mirror (1, 0)).pull mirrorCell = σ.mirrored := by
  simp only [FieldState.mirror, FieldState.mirrored, FieldState.mapEM, FieldState.pull, EM.pull, EM.mirrorYee, EM.mirror, EM.mirroredYee, EM.mirrored,
    mirrorCell_face]

/-- The momenta in the mirror. -/
def mirrorEquiv : ZMod M1 × P' ≃ ZMod M1 × P' :=
  ⟨mirrorP, mirrorP, fun p => by simp [mirrorP], fun p => by simp [mirrorP]⟩

variable [NeZero N1] [NeZero N2] [NeZero M1]

/-- **C90.** Let the first axis be reversed, in position and in momentum space: callbacks, coordinates and initial data are replaced by their mirror
images (`E1`, `B2` and `B3` change sign; what lives on left faces is taken to left faces).  The run then gives the mirror image of the
result, for every reconstruction and any number of steps, without fields, with given fields and with electrodynamic fields of the
full (not the hybrid) model; an error is raised in the same cases.  For electrodynamic fields a vanishing first velocity must
mean a vanishing first momentum (as for the bundled physics), since the upwinded state is not symmetric where the velocity vanishes. -/
theorem C90_mirrored_run {c : CoupledConfig S (ZMod M1 × P') (ZMod N1 × ZMod N2) K} {e2 e3 : P'} (hax : c.ax = ⟨(1, 0), (0, e2), (0, e3), (1, 0), (0, 1)⟩)
    (hh : c.fieldsType = "electrodynamic" → c.hybrid = false) (hyb : S)
    {poisson poisson' : (S → ZMod N1 × ZMod N2 → K) → FieldState (ZMod N1 × ZMod N2) K → FieldState (ZMod N1 × ZMod N2) K}
    (hp : ∀ ρ σ, poisson' (fun s i => ρ s (mirrorCell i)) σ.mirrored = (poisson ρ σ).mirrored)
    (steps steps' : List (K × (Fin 2 → CoupledCallbacks S (ZMod M1 × P') (ZMod N1 × ZMod N2) K)))
    (hs : List.Forall₂ (fun x' x => x'.1 = x.1 ∧ ∀ k, CallbacksMirrored (x'.2 k) (x.2 k)) steps' steps)
    (ht : c.fieldsType = "electrodynamic" → ∀ x ∈ steps, ∀ k s p i, (x.2 k).Cq1 s p i = 0 → c.coords.p1 s p = 0)
    (f : Dist S (ZMod M1 × P') (ZMod N1 × ZMod N2) K) (σ : FieldState (ZMod N1 × ZMod N2) K) :
    runCoupled c.mirrored poisson' hyb steps' (f.mirrored, σ.mirrored)
      = (runCoupled c poisson hyb steps (f, σ)).map fun r => (r.1.mirrored, r.2.mirrored) := by
  have h1 : c.ax.p1 = (1, 0) := by rw [hax]
  have h2 : c.ax.p2 = (0, e2) := by rw [hax]
  have h3 : c.ax.p3 = (0, e3) := by rw [hax]
  have h4 : c.ax.q1 = (1, 0) := by rw [hax]
  have h5 : c.ax.q2 = (0, 1) := by rw [hax]
  have a := (mirrorMap (c := c) hyb hh (poisson := poisson) (poisson' := fun ρ σ => (poisson ρ (σ.mirror (-c.ax.q1))).mirror c.ax.q1)
    (fun _ ρ σ => by simp only [FieldState.mirror_neg])).run steps
    (steps.map fun x => (x.1, fun k => ⟨fun s p i => -(x.2 k).Cq1 s p (i + c.ax.q1), (x.2 k).Cq2, fun F s p i => -(x.2 k).Cp1 F.mirror s (p + c.ax.p1) i,
      fun F => (x.2 k).Cp2 F.mirror, fun F => (x.2 k).Cp3 F.mirror, (x.2 k).source⟩)) (by
    rw [List.forall₂_map_left_iff, List.forall₂_same]
    refine fun x hx => ⟨rfl, fun k => ⟨⟨fun _ _ _ => rfl, rfl, fun _ _ _ _ => ?_, fun _ => ?_, fun _ => ?_, rfl⟩, fun he s p i h => ht he x hx k s p i h⟩⟩ <;>
      simp only [EM.mirror_mirror]) f σ trivial
  have b := renamed_run (c := c.mirror) hyb (poisson := fun ρ σ => (poisson ρ (σ.mirror (-c.ax.q1))).mirror c.ax.q1) (poisson' := poisson') mirrorEquiv
    (e1 := c.ax.p1) (e2 := c.ax.p2) (e3 := c.ax.p3) (φ := mirrorCell) (q1' := c.ax.q1) (q2' := c.ax.q2)
    (fun p => by
      simp only [CoupledConfig.mirror, Axes.mirror, h1, mirrorEquiv, Equiv.coe_fn_mk, mirrorP]
      refine Prod.ext ?_ ?_
      · show -1 - (p.1 + 1) = -1 - p.1 + -1
        ring
      · simp)
    (fun p => by
      simp only [CoupledConfig.mirror, Axes.mirror, h2, mirrorEquiv, Equiv.coe_fn_mk, mirrorP]
      refine Prod.ext ?_ ?_ <;> simp)
    (fun p => by
      simp only [CoupledConfig.mirror, Axes.mirror, h3, mirrorEquiv, Equiv.coe_fn_mk, mirrorP]
      refine Prod.ext ?_ ?_ <;> simp)
    ⟨fun p => by
      simp only [CoupledConfig.mirror, Axes.mirror, h4, mirrorCell]
      refine Prod.ext ?_ ?_
      · show -1 - (p.1 + 1) = -1 - p.1 + -1
        ring
      · simp, fun p => by
      simp only [CoupledConfig.mirror, Axes.mirror, h5, mirrorCell]
      refine Prod.ext ?_ ?_ <;> simp⟩
    (fun ρ σ => by
      have := hp ρ (σ.mirror (-c.ax.q1))
      rw [← FieldState.mirror_pull, ← FieldState.mirror_pull, ← h4] at this
      have e := FieldState.mirror_neg (-c.ax.q1) σ
      rw [neg_neg] at e
      rw [e] at this
      exact this)
    (steps.map fun x => (x.1, fun k => ⟨fun s p i => -(x.2 k).Cq1 s p (i + c.ax.q1), (x.2 k).Cq2, fun F s p i => -(x.2 k).Cp1 F.mirror s (p + c.ax.p1) i,
      fun F => (x.2 k).Cp2 F.mirror, fun F => (x.2 k).Cp3 F.mirror, (x.2 k).source⟩)) steps' (by
    rw [List.forall₂_map_right_iff]
    have em : ∀ F : EM (ZMod N1 × ZMod N2) K, F.mirror.mirrored = F.pull mirrorCell := fun F => by
      simp only [EM.mirrored, EM.mirror, EM.pull, neg_neg]
    refine hs.imp fun x' x h => ⟨h.1, fun k => ⟨?_, ?_, fun F => ?_, fun F => ?_, fun F => ?_, (h.2 k).src⟩⟩
    · funext s p i
      rw [(h.2 k).q1]
      simp only [Dist.renamed, h4, mirrorCell_face]
      rfl
    · funext s p i
      exact (h.2 k).q2 s p i
    · funext s p i
      rw [← em, (h.2 k).p1]
      simp only [Dist.renamed, h1, mirrorEquiv, Equiv.coe_fn_mk, mirrorP_face]
    · funext s p i
      rw [← em, (h.2 k).p2]
      rfl
    · funext s p i
      rw [← em, (h.2 k).p3]
      rfl) f (σ.mirror c.ax.q1)
  have es : (σ.mirror c.ax.q1).pull mirrorCell = σ.mirrored := by rw [h4]; exact FieldState.mirror_pull σ
  rw [es] at b
  refine Eq.trans b ?_
  rw [show (f, σ.mirror c.ax.q1) = (id f, σ.mirror c.ax.q1) from rfl, a]
  cases runCoupled c poisson hyb steps (f, σ) with
  | error e => rfl
  | ok r =>
    simp only [Except.map, id, Except.ok.injEq, Prod.mk.injEq]
    exact ⟨rfl, by rw [h4]; exact FieldState.mirror_pull r.2⟩

/-- **C90 (electrodynamic runs).** -/
theorem C90_electrodynamic_run {c : CoupledConfig S (ZMod M1 × P') (ZMod N1 × ZMod N2) K} {e2 e3 : P'} (hax : c.ax = ⟨(1, 0), (0, e2), (0, e3), (1, 0), (0, 1)⟩)
    (hc : ElectrodynamicFVM c) (hh : c.hybrid = false) (hyb : S) (poisson poisson')
    (steps steps' : List (K × (Fin 2 → CoupledCallbacks S (ZMod M1 × P') (ZMod N1 × ZMod N2) K)))
    (hs : List.Forall₂ (fun x' x => x'.1 = x.1 ∧ ∀ k, CallbacksMirrored (x'.2 k) (x.2 k)) steps' steps)
    (ht : ∀ x ∈ steps, ∀ k s p i, (x.2 k).Cq1 s p i = 0 → c.coords.p1 s p = 0)
    (f : Dist S (ZMod M1 × P') (ZMod N1 × ZMod N2) K) (σ : FieldState (ZMod N1 × ZMod N2) K) :
    runCoupled c.mirrored poisson' hyb steps' (f.mirrored, σ.mirrored)
      = (runCoupled c poisson hyb steps (f, σ)).map fun r => (r.1.mirrored, r.2.mirrored) := by
  have hc' : ElectrodynamicFVM c.mirrored := hc
  rw [runCoupled_poisson hc poisson, runCoupled_poisson hc' poisson']
  exact C90_mirrored_run hax (fun _ => hh) hyb (fun _ _ => rfl) steps steps' hs (fun _ => ht) f σ

/-- **C90 (symmetric states stay symmetric).** If the momentum grid is symmetric about zero along the first axis, a state and callbacks that are their
own mirror images remain so. -/
theorem C90_symmetry_kept {c : CoupledConfig S (ZMod M1 × P') (ZMod N1 × ZMod N2) K} {e2 e3 : P'} (hax : c.ax = ⟨(1, 0), (0, e2), (0, e3), (1, 0), (0, 1)⟩)
    (hh : c.fieldsType = "electrodynamic" → c.hybrid = false) (hsym : c.mirrored = c) (hyb : S)
    {poisson : (S → ZMod N1 × ZMod N2 → K) → FieldState (ZMod N1 × ZMod N2) K → FieldState (ZMod N1 × ZMod N2) K}
    (hp : ∀ ρ σ, poisson (fun s i => ρ s (mirrorCell i)) σ.mirrored = (poisson ρ σ).mirrored)
    (steps : List (K × (Fin 2 → CoupledCallbacks S (ZMod M1 × P') (ZMod N1 × ZMod N2) K)))
    (hs : ∀ x ∈ steps, ∀ k, CallbacksMirrored (x.2 k) (x.2 k))
    (ht : c.fieldsType = "electrodynamic" → ∀ x ∈ steps, ∀ k s p i, (x.2 k).Cq1 s p i = 0 → c.coords.p1 s p = 0)
    {f f' : Dist S (ZMod M1 × P') (ZMod N1 × ZMod N2) K} {σ σ' : FieldState (ZMod N1 × ZMod N2) K}
    (hf : f.mirrored = f) (hF : σ.mirrored = σ) (h : runCoupled c poisson hyb steps (f, σ) = .ok (f', σ')) :
    f'.mirrored = f' ∧ σ'.mirrored = σ' := by
  have a := C90_mirrored_run hax hh hyb hp steps steps (by rw [List.forall₂_same]; exact fun x hx => ⟨rfl, hs x hx⟩) ht f σ
  rw [hsym, hf, hF, h] at a
  simp only [Except.map, Except.ok.injEq, Prod.mk.injEq] at a
  exact ⟨a.1.symm, a.2.symm⟩

/-- **C90 (the bundled physics).** The nonrelativistic callbacks with mirrored coordinates return what is required, if the second and third
coordinates of the momentum grid do not vary along the first axis. -/
theorem C90_nonrelativistic_callbacks (e m : S → K) (ctr cor : PCoords S (ZMod M1 × P') K) (h2 : ∀ s p, ctr.p2 s (p + (1, 0)) = ctr.p2 s p)
    (h3 : ∀ s p, ctr.p3 s (p + (1, 0)) = ctr.p3 s p) (src : (S → ZMod M1 × P' → K) → S → ZMod M1 × P' → K) :
    CallbacksMirrored (N1 := N1) (N2 := N2)
      (nonrelCallbacks e m ⟨fun s p => -ctr.p1 s (mirrorP p), fun s p => ctr.p2 s (mirrorP p), fun s p => ctr.p3 s (mirrorP p)⟩
        ⟨fun s p => -cor.p1 s (mirrorPFace p), fun s p => cor.p2 s (mirrorP p), fun s p => cor.p3 s (mirrorP p)⟩
        (fun g s p => src (fun s p => g s (mirrorP p)) s (mirrorP p)))
      (nonrelCallbacks e m ctr cor src) where
  q1 := fun _ _ _ => rfl
  q2 := fun _ _ _ => rfl
  p1 := fun F s p i => by
    have a := h2 s (mirrorP p)
    have b := h3 s (mirrorP p)
    rw [mirrorP_face] at a b
    simp only [nonrelCallbacks, nonrelCp, EM.mirrored, a, b]
    ring
  p2 := fun F s p i => by
    simp only [nonrelCallbacks, nonrelCp, EM.mirrored]
    ring
  p3 := fun F s p i => by
    simp only [nonrelCallbacks, nonrelCp, EM.mirrored]
    ring
  src := fun f => by
    funext s p i
    simp only [nonrelCallbacks, Dist.mirrored]
    have e : ∀ p : ZMod M1 × P', mirrorP (mirrorP p) = p := mirrorEquiv.left_inv
    simp only [e]

end

/-! ### the electrostatic field -/

section
variable {S P' : Type} [AddCommGroup P'] [Fintype P'] [Fintype S] {N1 N2 M1 : ℕ} [NeZero N1] [NeZero N2] [NeZero M1]

/-- The left faces in the mirror. -/
def mirrorFaceEquiv : ZMod N1 × ZMod N2 ≃ ZMod N1 × ZMod N2 :=
  ⟨mirrorFace, mirrorFace, fun p => by simp [mirrorFace], fun p => by simp [mirrorFace]⟩

theorem chi_mirror (j k : ZMod N1 × ZMod N2) : chi (mirrorFace j) k = chi j (mirrorFace k) := by
  simp [chi, mirrorFace]

theorem afFft2_mirror (x : ZMod N1 × ZMod N2 → ℂ) (k : ZMod N1 × ZMod N2) : afFft2 (fun j => x (mirrorFace j)) k = afFft2 x (mirrorFace k) := by
  rw [afFft2_eq, afFft2_eq, ← Equiv.sum_comp mirrorFaceEquiv]
  refine Finset.sum_congr rfl fun j _ => ?_
  have h : mirrorFace (mirrorFace j) = j := mirrorFaceEquiv.left_inv j
  have h' : mirrorFace (-k) = -mirrorFace k := by simp [mirrorFace]
  simp only [mirrorFaceEquiv, Equiv.coe_fn_mk, h, chi_mirror, h']

theorem coeff_mirror (x : ZMod N1 × ZMod N2 → ℂ) (k : ZMod N1 × ZMod N2) : coeff (fun j => x (mirrorFace j)) k = coeff x (mirrorFace k) := by
  rw [coeff_eq, coeff_eq, afFft2_mirror]

theorem eq_of_coeff {x y : ZMod N1 × ZMod N2 → ℝ} (h : ∀ k, coeff (fun j => (x j : ℂ)) k = coeff (fun j => (y j : ℂ)) k) : x = y := by
  have e : afFft2 (fun j => (x j : ℂ)) = afFft2 (fun j => (y j : ℂ)) := by
    funext k
    have := h k
    rwa [coeff_eq, coeff_eq, div_left_inj' cardN] at this
  funext j
  have a := afIfft2_afFft2 (fun j => (x j : ℂ)) j
  rw [e, afIfft2_afFft2] at a
  exact_mod_cast (mul_left_cancel₀ cardN a).symm

theorem fftfreq_sq_neg {N : ℕ} [NeZero N] (d : ℝ) (k : ZMod N) : fftfreq N d (-k) ^ 2 = fftfreq N d k ^ 2 := by
  by_cases hn : Nyquist k
  · rw [fftfreq_neg_nyquist _ _ hn]
  · rw [fftfreq_neg _ _ hn]; ring

theorem coeff_neg (x : ZMod N1 × ZMod N2 → ℝ) (k : ZMod N1 × ZMod N2) :
    coeff (fun j => ((-x j : ℝ) : ℂ)) k = -coeff (fun j => (x j : ℂ)) k := by
  simp only [coeff_eq, afFft2_eq, Complex.ofReal_neg, neg_mul, Finset.sum_neg_distrib, neg_div]

theorem fftPoisson_mirror (dq1 dq2 eps : ℝ) (rho : ZMod N1 × ZMod N2 → ℝ) :
    fftPoisson 1 dq1 dq2 eps (fun j => rho (mirrorFace j)) =
      (fftPoisson 1 dq1 dq2 eps rho).map fun E => (fun j => -E.1 (mirrorFace j), fun j => E.2 (mirrorFace j)) := by
  by_cases h : N2 = 1
  · simp only [fftPoisson, if_pos h]
    rfl
  obtain ⟨E, hE⟩ : ∃ E, fftPoisson 1 dq1 dq2 eps rho = .ok E := by
    simp only [fftPoisson, if_neg h, ne_eq, not_true_eq_false, if_false]
    exact ⟨_, rfl⟩
  obtain ⟨E', hE'⟩ : ∃ E, fftPoisson 1 dq1 dq2 eps (fun j => rho (mirrorFace j)) = .ok E := by
    simp only [fftPoisson, if_neg h, ne_eq, not_true_eq_false, if_false]
    exact ⟨_, rfl⟩
  rw [hE, hE']
  simp only [Except.map, Except.ok.injEq]
  have z : (mirrorFace (0 : ZMod N1 × ZMod N2)) = 0 := by simp [mirrorFace]
  have nz : ∀ k : ZMod N1 × ZMod N2, k ≠ 0 → mirrorFace k ≠ 0 := fun k hk hc => hk (by
    have := congrArg mirrorFace hc
    rw [z] at this
    rw [← mirrorFaceEquiv.left_inv k]
    exact this)
  have sumr : ∀ x : ZMod N1 × ZMod N2 → ℝ, ∑ j, x (mirrorFace j) = ∑ j, x j := fun x => Equiv.sum_comp mirrorFaceEquiv x
  refine Prod.ext (eq_of_coeff fun k => ?_) (eq_of_coeff fun k => ?_)
  · by_cases hk : k = 0
    · subst hk
      rw [coeff_zero, coeff_zero, (C21_mean_zero hE').1]
      simp only [Finset.sum_neg_distrib, sumr, (C21_mean_zero hE).1, neg_zero]
    · rw [(fftPoisson_coeff hE' k hk).1, coeff_neg, coeff_mirror (fun j => (E.1 j : ℂ)), (fftPoisson_coeff hE _ (nz k hk)).1,
        coeff_mirror (fun j => (rho j : ℂ))]
      simp only [mirrorFace, fftfreq_sq_neg, nyquist_neg]
      split_ifs with hn
      · ring
      · rw [fftfreq_neg _ _ hn]
        push_cast
        ring
  · by_cases hk : k = 0
    · subst hk
      rw [coeff_zero, coeff_zero, (C21_mean_zero hE').2]
      simp only [sumr, (C21_mean_zero hE).2]
    · rw [(fftPoisson_coeff hE' k hk).2, coeff_mirror (fun j => (E.2 j : ℂ)), (fftPoisson_coeff hE _ (nz k hk)).2,
        coeff_mirror (fun j => (rho j : ℂ))]
      simp only [mirrorFace, fftfreq_sq_neg]
      congr!

/-- **C90 (the electrostatic field).** The electrostatic field of the mirror image is the mirror image of the field. -/
theorem C90_electrostatic_field (dq1 dq2 eps : ℝ) (rho : S → ZMod N1 × ZMod N2 → ℝ) (σ : FieldState (ZMod N1 × ZMod N2) ℝ) :
    electrostaticFFT dq1 dq2 eps (fun s i => rho s (mirrorCell i)) σ.mirrored = (electrostaticFFT dq1 dq2 eps rho σ).mirrored := by
  have e : ∀ i : ZMod N1 × ZMod N2, mirrorFace i - (1, 0) = mirrorCell i := fun i => by rw [← mirrorCell_face, add_sub_cancel_right]
  have key : fftPoisson 1 dq1 dq2 eps (fun j => ∑ s, rho s (mirrorCell j))
      = (fftPoisson 1 dq1 dq2 eps (fun j => ∑ s, rho s j)).map fun E => (fun i => -E.1 (mirrorCell i), fun i => E.2 (mirrorCell i)) := by
    have a := fftPoisson_mirror dq1 dq2 eps (fun j => ∑ s, rho s (j - (1, 0)))
    simp only [e] at a
    rw [a, fftPoisson_translate dq1 dq2 eps (fun j => ∑ s, rho s j)]
    cases fftPoisson 1 dq1 dq2 eps (fun j => ∑ s, rho s j) with
    | error _ => rfl
    | ok E => simp only [Except.map, e]
  unfold electrostaticFFT
  rw [key]
  cases fftPoisson 1 dq1 dq2 eps (fun j => ∑ s, rho s j) with
  | error e => rfl
  | ok E =>
    simp only [Except.map, FieldState.mirrored, FieldState.mapEM, FieldState.mk.injEq, and_true]
    funext k
    by_cases hk : k = σ.cc
    · simp only [hk, if_true]
      simp [EM.mirrored]
    · simp only [hk, if_false]

/-- **C90 (electrostatic runs).** -/
theorem C90_electrostatic_run {c : CoupledConfig S (ZMod M1 × P') (ZMod N1 × ZMod N2) ℝ} {e2 e3 : P'} (hax : c.ax = ⟨(1, 0), (0, e2), (0, e3), (1, 0), (0, 1)⟩)
    (hc : c.fieldsType = "electrostatic") (hyb : S)
    (steps steps' : List (ℝ × (Fin 2 → CoupledCallbacks S (ZMod M1 × P') (ZMod N1 × ZMod N2) ℝ)))
    (hs : List.Forall₂ (fun x' x => x'.1 = x.1 ∧ ∀ k, CallbacksMirrored (x'.2 k) (x.2 k)) steps' steps)
    (f : Dist S (ZMod M1 × P') (ZMod N1 × ZMod N2) ℝ) (σ : FieldState (ZMod N1 × ZMod N2) ℝ) :
    runCoupled c.mirrored (electrostaticFFT c.dq1 c.dq2 c.eps) hyb steps' (f.mirrored, σ.mirrored)
      = (runCoupled c (electrostaticFFT c.dq1 c.dq2 c.eps) hyb steps (f, σ)).map fun r => (r.1.mirrored, r.2.mirrored) :=
  C90_mirrored_run hax (fun he => absurd (hc.symm.trans he) (by decide)) hyb (C90_electrostatic_field c.dq1 c.dq2 c.eps) steps steps' hs
    (fun he => absurd (hc.symm.trans he) (by decide)) f σ

end

/-! ### the hybrid model is not symmetric -/

/-- A plasma at rest on a 5 × 1 grid, in the hybrid model. -/
def c90Hyb : CoupledConfig Unit (ZMod 1 × ZMod 1 × ZMod 1) (ZMod 5 × ZMod 1) ℚ where
  solverMethodInQ := "FVM"
  solverMethodInP := "FVM"
  reconstructionInQ := "minmod"
  reconstructionInP := "minmod"
  riemannInQ := "upwind-flux"
  riemannInP := "upwind-flux"
  sourceEnabled := false
  fieldsEnabled := true
  dq1 := 1
  dq2 := 1
  dp1 := fun _ => 1
  dp2 := fun _ => 1
  dp3 := fun _ => 1
  ax := ⟨(1, 0, 0), (0, 1, 0), (0, 0, 1), (1, 0), (0, 1)⟩
  fieldsType := "electrodynamic"
  fieldsSolver := "fdtd"
  charge := fun _ => 1
  coords := ⟨fun _ _ => 0, fun _ _ => 0, fun _ _ => 0⟩
  eps := 1
  mu := 1
  hybrid := true
  Te := 1

def c90HybCb : CoupledCallbacks Unit (ZMod 1 × ZMod 1 × ZMod 1) (ZMod 5 × ZMod 1) ℚ :=
  nonrelCallbacks (fun _ => 1) (fun _ => 1) c90Hyb.coords c90Hyb.coords (fun g => g)

def c90HybF : Dist Unit (ZMod 1 × ZMod 1 × ZMod 1) (ZMod 5 × ZMod 1) ℚ :=
  fun _ _ i => if i = (0, 0) then 1 else if i = (1, 0) then 2 else if i = (2, 0) then 3 else if i = (3, 0) then 4 else 5

def c90HybState : FieldState (ZMod 5 × ZMod 1) ℚ := ⟨fun _ => EM.const 0 0 0 0 0 0, 0, 0, 0, EM.const 0 0 0 0 0 0, true, 0⟩

theorem c90HybState_mirrored : c90HybState.mirrored = c90HybState := by
  simp [c90HybState, FieldState.mirrored, FieldState.mapEM, EM.mirrored, EM.mirroredYee, EM.const]

/-- The field after a step: the pressure gradient at the face over the density of the cell. -/
theorem c90Hyb_field (dt : ℚ) (f : Dist Unit (ZMod 1 × ZMod 1 × ZMod 1) (ZMod 5 × ZMod 1) ℚ) {r}
    (h : stepCoupled c90Hyb (fun _ σ => σ) (fun _ => c90HybCb) () dt (f, c90HybState) = .ok r) (i : ZMod 5 × ZMod 1) :
    r.2.yee.E1 i = -(interp (1, 0) (0, 1) (false, false) (true, false) (centralDiff (1, 0) 1 (f () 0)) i / f () 0 i) := by
  have hc : HybridFVM c90Hyb := ⟨⟨rfl, rfl, rfl, rfl⟩, rfl⟩
  obtain ⟨r0, h0, e, -⟩ := C70_step hc (m := .minmod) rfl rfl h
  have hz : ∀ s p q, r0.1 s p q = 0 := by
    obtain ⟨σ1, σ2, -, -, -, hd⟩ := dfdtCoupled_ok ⟨rfl, rfl⟩ h0
    obtain ⟨a, b, hk, ha, hb⟩ := dfdtFVM_ok hd
    intro s p q
    have a0 : a s p q = 0 := by
      rcases ha with ⟨_, m, _, ha⟩ | ⟨hn, _⟩
      · rw [ha]
        have z1 : c90HybCb.Cq1 s p = fun _ => 0 := rfl
        have z2 : c90HybCb.Cq2 s p = fun _ => 0 := rfl
        have z3 : c90Hyb.sourceEnabled = false := rfl
        simp [dfdtQ, fluxDiv_eq, z1, z2, z3]
      · exact absurd rfl hn
    have b0 : b s p q = 0 := by
      rcases hb with ⟨_, m, _, hb⟩ | ⟨hn, _⟩
      · rw [hb]
        have hp : ∀ p' : ZMod 1 × ZMod 1 × ZMod 1, p' = p := fun p' => Subsingleton.elim _ _
        have hp' : ∀ e, p + e = p := fun e => hp _
        simp [dfdtP, dFluxP_eq, fluxDiv_eq, hp']
      · exact absurd ⟨rfl, rfl⟩ hn
    rw [hk, a0, b0, add_zero]
  have hf : (fun s p q => f s p q + r0.1 s p q * (dt / 2)) = f := by
    funext s p q
    rw [hz, zero_mul, add_zero]
  have e0 := e 0 i
  simp only [hf] at e0
  refine Eq.trans e0 ?_
  have hn : numberDensity c90Hyb f () = f () 0 := by
    funext q
    simp only [numberDensity, c90Hyb, mul_one]
    rw [Fintype.sum_subsingleton _ 0]
  simp only [ohm, hn]
  simp [cross, meanVelocity, c90HybState, EM.const, EM.magnetic, interp, interpAxis, siteE, siteB, densityGradient, c90Hyb, ampere]

/-- **C90 (the hybrid model is not symmetric).** One step, of any length, of a plasma at rest without magnetic field: the field of the mirror
image is not the mirror image of the field, since the electron pressure gradient at a face is divided by the density of the cell on the right. -/
theorem C90_hybrid_not_symmetric (dt : ℚ) : ∃ r r',
    stepCoupled c90Hyb (fun _ σ => σ) (fun _ => c90HybCb) () dt (c90HybF, c90HybState) = .ok r ∧
    stepCoupled c90Hyb.mirrored (fun _ σ => σ) (fun _ => c90HybCb) () dt (c90HybF.mirrored, c90HybState.mirrored) = .ok r' ∧
    CallbacksMirrored c90HybCb c90HybCb ∧ r'.2 ≠ r.2.mirrored := by
  have hm : c90Hyb.mirrored = c90Hyb := by
    simp [CoupledConfig.mirrored, c90Hyb]
  have run : ∀ f, ∃ r, stepCoupled c90Hyb (fun _ σ => σ) (fun _ => c90HybCb) () dt (f, c90HybState) = .ok r := by
    intro f
    have hi : Implemented c90Hyb := ⟨⟨.minmod, rfl⟩, ⟨.minmod, rfl⟩, fun _ => rfl⟩
    obtain ⟨st', hs⟩ := C67_whole_grid_run_exists hi (fun _ σ => σ) () [(dt, fun _ => c90HybCb)] (f, c90HybState)
    simp only [runCoupled, bind, Except.bind] at hs
    split at hs
    · cases hs
    · rename_i r hr
      exact ⟨r, hr⟩
  rw [hm, c90HybState_mirrored]
  obtain ⟨r, h⟩ := run c90HybF
  obtain ⟨r', h'⟩ := run c90HybF.mirrored
  refine ⟨r, r', h, h', ?_, fun he => ?_⟩
  · have := C90_nonrelativistic_callbacks (N1 := 5) (N2 := 1) (fun _ : Unit => (1 : ℚ)) (fun _ => 1) c90Hyb.coords c90Hyb.coords (fun _ _ => rfl) (fun _ _ => rfl)
      (fun g => g)
    have hp : ∀ p : ZMod 1 × ZMod 1 × ZMod 1, mirrorP (mirrorP p) = p := mirrorEquiv.left_inv
    simpa [c90HybCb, c90Hyb, hp] using this
  · have a : r'.2.yee.E1 (1, 0) = -r.2.yee.E1 (mirrorFace (1, 0)) := by rw [he]; rfl
    rw [c90Hyb_field dt _ h, c90Hyb_field dt _ h'] at a
    simp +decide only [interp, interpAxis, centralDiff, c90HybF, Dist.mirrored, mirrorCell, mirrorFace, if_true, if_false] at a
    norm_num at a

/-! ### concrete cases -/

def c90Cb : CoupledCallbacks (Fin 2) (ZMod 2 × ZMod 1 × ZMod 1) (ZMod 3 × ZMod 1) ℚ :=
  nonrelCallbacks (fun s => if s = 0 then 1 else -1) (fun _ => 2)
    ⟨fun s p => -exCoupled.coords.p1 s (mirrorP p), fun s p => exCoupled.coords.p2 s (mirrorP p), fun s p => exCoupled.coords.p3 s (mirrorP p)⟩
    ⟨fun s p => -exCoupled.coords.p1 s (mirrorPFace p), fun s p => exCoupled.coords.p2 s (mirrorP p), fun s p => exCoupled.coords.p3 s (mirrorP p)⟩
    (fun g s p => g s (mirrorP (mirrorP p)))

theorem c90Cb_mirrored : CallbacksMirrored c90Cb c69Cb :=
  C90_nonrelativistic_callbacks (fun s => if s = 0 then 1 else -1) (fun _ => 2) exCoupled.coords exCoupled.coords (fun _ _ => rfl) (fun _ _ => rfl) (fun f => f)

/-- Two steps of an electrodynamic run of two species on a 3 × 1 grid, and in the mirror. -/
example : ∃ r, runCoupled c89Cfg (fun _ σ => σ) 0 [(1 / 10, fun _ => c69Cb), (1 / 5, fun _ => c69Cb)] (c69F, c69State) = .ok r ∧
    runCoupled c89Cfg.mirrored (fun _ σ => σ) 0 [(1 / 10, fun _ => c90Cb), (1 / 5, fun _ => c90Cb)] (c69F.mirrored, c69State.mirrored)
      = .ok (r.1.mirrored, r.2.mirrored) := by
  have hc : ElectrodynamicFVM c89Cfg := ⟨rfl, rfl, rfl, rfl⟩
  obtain ⟨r, h⟩ := C14_run_exists c89Cfg hc rfl ⟨.ppm, rfl⟩ ⟨.minmod, rfl⟩ (fun _ σ => σ) 0
    [(1 / 10, fun _ => c69Cb), (1 / 5, fun _ => c69Cb)] (c69F, c69State)
  refine ⟨r, h, ?_⟩
  rw [C90_electrodynamic_run (e2 := (1, 0)) (e3 := (0, 1)) rfl hc rfl 0 (fun _ σ => σ) (fun _ σ => σ) [(1 / 10, fun _ => c69Cb), (1 / 5, fun _ => c69Cb)]
    [(1 / 10, fun _ => c90Cb), (1 / 5, fun _ => c90Cb)]
    (.cons ⟨rfl, fun _ => c90Cb_mirrored⟩ (.cons ⟨rfl, fun _ => c90Cb_mirrored⟩ .nil)) (fun x hx k s p i h0 => by
      simp only [List.mem_cons, List.not_mem_nil, or_false] at hx
      rcases hx with rfl | rfl <;> exact h0) c69F c69State, h]
  rfl

/-- A state on a 3 × 3 grid that is its own mirror image. -/
def c90F : Dist Unit (ZMod 2 × ZMod 2 × ZMod 1) (ZMod 3 × ZMod 3) ℚ := fun _ p i =>
  1 + p.2.1.val * i.2.val + (if (p.1 = 0 ∧ i.1 = 0) ∨ (p.1 = 1 ∧ i.1 = 2) then 1 else 0)

def c90State : FieldState (ZMod 3 × ZMod 3) ℚ :=
  ⟨fun _ => EM.const 0 2 3 4 0 0, 0, 0, 0,
   ⟨fun i => if i.1 = 1 then 1 else if i.1 = 2 then -1 else 0, fun i => if i.1 = 1 then i.2.val else 2, fun i => i.2.val, fun i => i.2.val,
    fun i => if i.1 = 1 then i.2.val else if i.1 = 2 then -i.2.val else 0, fun i => if i.1 = 1 then 1 else if i.1 = 2 then -1 else 0⟩, true, 0⟩

theorem c90State_mirrored : c90State.mirrored = c90State := by
  have z : ∀ a : ZMod 3, -1 - a = 1 ↔ a = 1 := by decide
  have z1 : ∀ a : ZMod 3, -a = 1 ↔ a = 2 := by decide
  have z2 : ∀ a : ZMod 3, -a = 2 ↔ a = 1 := by decide
  have z3 : ¬ (2 : ZMod 3) = 1 := by decide
  simp only [c90State, FieldState.mirrored, FieldState.mapEM, EM.mirrored, EM.mirroredYee, EM.const, mirrorCell, mirrorFace, z, z1, z2, neg_zero,
    FieldState.mk.injEq, EM.mk.injEq, true_and, and_true, id]
  refine ⟨funext fun i => ?_, funext fun i => ?_, funext fun i => ?_⟩ <;> split_ifs with a b <;> simp_all

theorem c90F_mirrored : c90F.mirrored = c90F := by
  have z : ∀ (a : ZMod 2) (b : ZMod 3), (-1 - a = 0 ∧ -1 - b = 0) ∨ (-1 - a = 1 ∧ -1 - b = 2) ↔ (a = 0 ∧ b = 0) ∨ (a = 1 ∧ b = 2) := by decide
  funext s p i
  simp only [Dist.mirrored, c90F, mirrorP, mirrorCell, z]

example (n : ℕ) : ∃ r, runCoupled c89Sq (fun _ σ => σ) () (List.replicate n (1 / 10, fun _ => c89SqCb)) (c90F, c90State) = .ok r ∧
    r.1.mirrored = r.1 ∧ r.2.mirrored = r.2 := by
  have hc : ElectrodynamicFVM c89Sq := ⟨rfl, rfl, rfl, rfl⟩
  obtain ⟨r, h⟩ := C14_run_exists c89Sq hc rfl ⟨.ppm, rfl⟩ ⟨.minmod, rfl⟩ (fun _ σ => σ) () (List.replicate n (1 / 10, fun _ => c89SqCb)) (c90F, c90State)
  refine ⟨r, h, ?_⟩
  have z : ∀ a : ZMod 2, -1 - a = 0 ↔ ¬ a = 0 := by decide
  have hm : (fun (s : Unit) p => -c89Sq.coords.p1 s (mirrorP p)) = c89Sq.coords.p1 := by
    funext s p
    simp only [c89Sq, mirrorP, z]
    split_ifs <;> simp_all
  refine C90_symmetry_kept (c := c89Sq) (e2 := (1, 0)) (e3 := (0, 1)) rfl (fun _ => rfl) ?_ () (poisson := fun _ σ => σ) (fun _ _ => rfl) _ ?_ ?_
    c90F_mirrored c90State_mirrored h
  · simp only [CoupledConfig.mirrored, hm]
    rfl
  · intro x hx k
    rw [List.eq_of_mem_replicate hx]
    have a := C90_nonrelativistic_callbacks (N1 := 3) (N2 := 3) (fun _ => -1) (fun _ => 1) c89Sq.coords c89Sq.coords
      (fun _ _ => by simp [c89Sq]) (fun _ _ => rfl) (fun g => g)
    rw [hm] at a
    have hp : ∀ p : ZMod 2 × ZMod 2 × ZMod 1, mirrorP (mirrorP p) = p := mirrorEquiv.left_inv
    simp only [hp] at a
    exact a
  · intro _ x hx k s p i h0
    rw [List.eq_of_mem_replicate hx] at h0
    exact h0

end Bolt
