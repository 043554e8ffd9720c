import Verif.Proofs.Exchange
import Verif.Proofs.Relabel

/-!
# C89: exchanging the roles of the two axes
-/

set_option linter.unusedSectionVars false

namespace Bolt

section
variable {S K : Type} [Field K] [LinearOrder K] [IsStrictOrderedRing K] [Fintype S] {N1 N2 M1 M2 M3 : ℕ}

theorem EM.exchange_exchange {Q : Type} (F : EM Q K) : F.exchange.exchange = F := by
  simp only [EM.exchange, neg_neg]

theorem FieldState.exchange_exchange {Q : Type} (σ : FieldState Q K) : σ.exchange.exchange = σ := by
  simp only [FieldState.exchange, FieldState.mapEM, EM.exchange_exchange, id]

/-- The momenta of the exchanged grid. -/
def swapEquiv : ZMod M2 × ZMod M1 × ZMod M3 ≃ ZMod M1 × ZMod M2 × ZMod M3 := ⟨swapP, swapP, fun _ => rfl, fun _ => rfl⟩

variable [NeZero N1] [NeZero N2] [NeZero M1] [NeZero M2] [NeZero M3]

/-- **C89.** Let the axes of the grid be exchanged, in position and in momentum space: numbers of cells, spacings, coordinates, callbacks and initial data.
The run then gives the same result with the axes exchanged, for every scheme, with and without fields, after any number of steps; an
error is raised in the same cases.  (The magnetic field, a pseudovector, also changes its sign.) -/
theorem C89_exchanged_run {c : CoupledConfig S (ZMod M1 × ZMod M2 × ZMod M3) (ZMod N1 × ZMod N2) K}
    (hax : c.ax = ⟨(1, 0, 0), (0, 1, 0), (0, 0, 1), (1, 0), (0, 1)⟩) (hyb : S)
    {poisson : (S → ZMod N1 × ZMod N2 → K) → FieldState (ZMod N1 × ZMod N2) K → FieldState (ZMod N1 × ZMod N2) K}
    {poisson' : (S → ZMod N2 × ZMod N1 → K) → FieldState (ZMod N2 × ZMod N1) K → FieldState (ZMod N2 × ZMod N1) K}
    (hp : ∀ ρ σ, poisson' (fun s i => ρ s (swapQ i)) σ.exchanged = (poisson ρ σ).exchanged)
    (hal : ∀ ρ σ, Aliased σ → Aliased (poisson ρ σ))
    (steps : List (K × (Fin 2 → CoupledCallbacks S (ZMod M1 × ZMod M2 × ZMod M3) (ZMod N1 × ZMod N2) K)))
    (steps' : List (K × (Fin 2 → CoupledCallbacks S (ZMod M2 × ZMod M1 × ZMod M3) (ZMod N2 × ZMod N1) K)))
    (hs : List.Forall₂ (fun x' x => x'.1 = x.1 ∧ ∀ k, CallbacksExchanged (x'.2 k) (x.2 k)) steps' steps)
    (f : Dist S (ZMod M1 × ZMod M2 × ZMod M3) (ZMod N1 × ZMod N2) K) (σ : FieldState (ZMod N1 × ZMod N2) K) (hσ : Aliased σ) :
    runCoupled c.exchanged poisson' hyb steps' (f.exchanged, σ.exchanged)
      = (runCoupled c poisson hyb steps (f, σ)).map fun r => (r.1.exchanged, r.2.exchanged) := by
  have a := (exchangeMap (c := c) hyb (poisson := poisson) (poisson' := fun ρ σ => (poisson ρ σ.exchange).exchange)
    (fun _ ρ σ => by simp only [FieldState.exchange_exchange]) hal).run steps
    (steps.map fun x => (x.1, fun k => ⟨(x.2 k).Cq2, (x.2 k).Cq1, fun F => (x.2 k).Cp2 F.exchange, fun F => (x.2 k).Cp1 F.exchange,
      fun F => (x.2 k).Cp3 F.exchange, (x.2 k).source⟩)) (by
    rw [List.forall₂_map_left_iff, List.forall₂_same]
    refine fun x _ => ⟨rfl, fun k => ⟨rfl, rfl, fun _ => ?_, fun _ => ?_, fun _ => ?_, rfl⟩⟩ <;> simp only [EM.exchange_exchange]) f σ hσ
  have b := renamed_run (c := c.exchange) hyb (poisson := fun ρ σ => (poisson ρ σ.exchange).exchange) (poisson' := poisson') swapEquiv
    (e1 := (1, 0, 0)) (e2 := (0, 1, 0)) (e3 := (0, 0, 1)) (φ := swapQ) (q1' := (1, 0)) (q2' := (0, 1))
    (fun p => by simp only [CoupledConfig.exchange, Axes.exchange, hax]; rfl)
    (fun p => by simp only [CoupledConfig.exchange, Axes.exchange, hax]; rfl)
    (fun p => by simp only [CoupledConfig.exchange, Axes.exchange, hax]; rfl)
    ⟨fun p => by simp only [CoupledConfig.exchange, Axes.exchange, hax]; rfl, fun p => by simp only [CoupledConfig.exchange, Axes.exchange, hax]; rfl⟩
    (fun ρ σ => by
      have := hp ρ σ.exchange
      refine Eq.trans ?_ this
      congr 1
      conv_lhs => rw [← FieldState.exchange_exchange σ]
      rfl)
    (steps.map fun x => (x.1, fun k => ⟨(x.2 k).Cq2, (x.2 k).Cq1, fun F => (x.2 k).Cp2 F.exchange, fun F => (x.2 k).Cp1 F.exchange,
      fun F => (x.2 k).Cp3 F.exchange, (x.2 k).source⟩)) steps' (by
    rw [List.forall₂_map_right_iff]
    refine hs.imp fun x' x h => ⟨h.1, fun k => ⟨(h.2 k).q1, (h.2 k).q2, fun F => ?_, fun F => ?_, fun F => ?_, (h.2 k).src⟩⟩
    · refine Eq.trans ?_ ((h.2 k).p1 F.exchange)
      conv_lhs => rw [← EM.exchange_exchange F]
      rfl
    · refine Eq.trans ?_ ((h.2 k).p2 F.exchange)
      conv_lhs => rw [← EM.exchange_exchange F]
      rfl
    · refine Eq.trans ?_ ((h.2 k).p3 F.exchange)
      conv_lhs => rw [← EM.exchange_exchange F]
      rfl) f σ.exchange
  refine Eq.trans b ?_
  rw [show (f, σ.exchange) = (id f, σ.exchange) from rfl, a]
  cases runCoupled c poisson hyb steps (f, σ) <;> rfl

/-- **C89 (electrodynamic runs).** From the state left by the initialisation, or by any earlier run from it, the electrodynamic run commutes with the
exchange. -/
theorem C89_electrodynamic_run {c : CoupledConfig S (ZMod M1 × ZMod M2 × ZMod M3) (ZMod N1 × ZMod N2) K} (hc : ElectrodynamicFVM c)
    (hax : c.ax = ⟨(1, 0, 0), (0, 1, 0), (0, 0, 1), (1, 0), (0, 1)⟩) (hyb : S) (poisson) (poisson')
    (steps : List (K × (Fin 2 → CoupledCallbacks S (ZMod M1 × ZMod M2 × ZMod M3) (ZMod N1 × ZMod N2) K)))
    (steps' : List (K × (Fin 2 → CoupledCallbacks S (ZMod M2 × ZMod M1 × ZMod M3) (ZMod N2 × ZMod N1) K)))
    (hs : List.Forall₂ (fun x' x => x'.1 = x.1 ∧ ∀ k, CallbacksExchanged (x'.2 k) (x.2 k)) steps' steps)
    (f : Dist S (ZMod M1 × ZMod M2 × ZMod M3) (ZMod N1 × ZMod N2) K) (σ : FieldState (ZMod N1 × ZMod N2) K) (hσ : Aliased σ) :
    runCoupled c.exchanged poisson' hyb steps' (f.exchanged, σ.exchanged)
      = (runCoupled c poisson hyb steps (f, σ)).map fun r => (r.1.exchanged, r.2.exchanged) := by
  have hc' : ElectrodynamicFVM c.exchanged := hc
  rw [runCoupled_poisson hc poisson, runCoupled_poisson hc' poisson']
  exact C89_exchanged_run hax hyb (fun _ _ => rfl) (fun _ _ h => h) steps steps' hs f σ hσ

/-- **C89 (symmetric states stay symmetric).** On a grid with equal axes, a state and callbacks that are their own images remain so. -/
theorem C89_symmetry_kept {c : CoupledConfig S (ZMod M1 × ZMod M1 × ZMod M3) (ZMod N1 × ZMod N1) K}
    (hax : c.ax = ⟨(1, 0, 0), (0, 1, 0), (0, 0, 1), (1, 0), (0, 1)⟩) (hsym : c.exchanged = c) (hyb : S)
    {poisson : (S → ZMod N1 × ZMod N1 → K) → FieldState (ZMod N1 × ZMod N1) K → FieldState (ZMod N1 × ZMod N1) K}
    (hp : ∀ ρ σ, poisson (fun s i => ρ s (swapQ i)) σ.exchanged = (poisson ρ σ).exchanged)
    (hal : ∀ ρ σ, Aliased σ → Aliased (poisson ρ σ))
    (steps : List (K × (Fin 2 → CoupledCallbacks S (ZMod M1 × ZMod M1 × ZMod M3) (ZMod N1 × ZMod N1) K)))
    (hs : ∀ x ∈ steps, ∀ k, CallbacksExchanged (x.2 k) (x.2 k))
    {f f' : Dist S (ZMod M1 × ZMod M1 × ZMod M3) (ZMod N1 × ZMod N1) K} {σ σ' : FieldState (ZMod N1 × ZMod N1) K} (hσ : Aliased σ)
    (hf : f.exchanged = f) (hF : σ.exchanged = σ) (h : runCoupled c poisson hyb steps (f, σ) = .ok (f', σ')) :
    f'.exchanged = f' ∧ σ'.exchanged = σ' := by
  have a := C89_exchanged_run hax hyb hp hal steps steps (by rw [List.forall₂_same]; exact fun x hx => ⟨rfl, hs x hx⟩) f σ hσ
  rw [hsym, hf, hF, h] at a
  simp only [Except.map, Except.ok.injEq, Prod.mk.injEq] at a
  exact ⟨a.1.symm, a.2.symm⟩

/-- **C89 (the bundled physics).** The nonrelativistic callbacks with exchanged coordinates return what is required. -/
theorem C89_nonrelativistic_callbacks (e m : S → K) (ctr cor : PCoords S (ZMod M1 × ZMod M2 × ZMod M3) K)
    (src : (S → ZMod M1 × ZMod M2 × ZMod M3 → K) → S → ZMod M1 × ZMod M2 × ZMod M3 → K) :
    CallbacksExchanged (N1 := N1) (N2 := N2)
      (nonrelCallbacks e m ⟨fun s p => ctr.p2 s (swapP p), fun s p => ctr.p1 s (swapP p), fun s p => ctr.p3 s (swapP p)⟩
        ⟨fun s p => cor.p2 s (swapP p), fun s p => cor.p1 s (swapP p), fun s p => cor.p3 s (swapP p)⟩
        (fun g s p => src (fun s p => g s (swapP p)) s (swapP p)))
      (nonrelCallbacks e m ctr cor src) where
  q1 := rfl
  q2 := rfl
  p1 := fun F => by
    funext s p i
    simp only [nonrelCallbacks, nonrelCp, EM.exchanged, Dist.exchanged]
    ring
  p2 := fun F => by
    funext s p i
    simp only [nonrelCallbacks, nonrelCp, EM.exchanged, Dist.exchanged]
    ring
  p3 := fun F => by
    funext s p i
    simp only [nonrelCallbacks, nonrelCp, EM.exchanged, Dist.exchanged]
    ring
  src := fun _ => rfl

end

/-! ### the electrostatic field -/

section
variable {S : Type} [Fintype S] {N1 N2 M1 M2 M3 : ℕ} [NeZero N1] [NeZero N2] [NeZero M1] [NeZero M2] [NeZero M3]

theorem afFft2_swap (x : ZMod N1 × ZMod N2 → ℂ) (k : ZMod N2 × ZMod N1) : afFft2 (fun j => x (swapQ j)) k = afFft2 x (swapQ k) := by
  unfold afFft2
  rw [← Equiv.sum_comp (Equiv.prodComm (ZMod N2) (ZMod N1))]
  refine Finset.sum_congr rfl fun j _ => ?_
  simp only [swapQ, Equiv.prodComm_apply, Prod.fst_swap, Prod.snd_swap]
  rw [add_comm (((j.1.val * k.1.val : ℕ) : ℂ) / N2)]
  rfl

theorem afIfft2_swap (x : ZMod N1 × ZMod N2 → ℂ) (k : ZMod N2 × ZMod N1) : afIfft2 (fun j => x (swapQ j)) k = afIfft2 x (swapQ k) := by
  unfold afIfft2
  rw [← Equiv.sum_comp (Equiv.prodComm (ZMod N2) (ZMod N1))]
  refine Finset.sum_congr rfl fun j _ => ?_
  simp only [swapQ, Equiv.prodComm_apply, Prod.fst_swap, Prod.snd_swap]
  rw [add_comm (((k.1.val * j.1.val : ℕ) : ℂ) / N2)]
  rfl

/-- **C89 (the electrostatic field).** With more than one cell along each axis, the electrostatic field commutes with the exchange. -/
theorem C89_electrostatic_field (h1 : N1 ≠ 1) (h2 : N2 ≠ 1) (dq1 dq2 eps : ℝ) (rho : S → ZMod N1 × ZMod N2 → ℝ) (σ : FieldState (ZMod N1 × ZMod N2) ℝ) :
    electrostaticFFT dq2 dq1 eps (fun s i => rho s (swapQ i)) σ.exchanged = (electrostaticFFT dq1 dq2 eps rho σ).exchanged := by
  have key : fftPoisson (N1 := N2) (N2 := N1) 1 dq2 dq1 eps (fun j => ∑ s, rho s (swapQ j))
      = (fftPoisson 1 dq1 dq2 eps (fun j => ∑ s, rho s j)).map fun E => (fun i => E.2 (swapQ i), fun i => E.1 (swapQ i)) := by
    have hm : (∑ j : ZMod N2 × ZMod N1, ∑ s, rho s (swapQ j)) / ((N2 : ℝ) * N1) = (∑ j, ∑ s, rho s j) / ((N1 : ℝ) * N2) := by
      rw [mul_comm (N2 : ℝ)]
      congr 1
      exact Equiv.sum_comp (Equiv.prodComm (ZMod N2) (ZMod N1)) (fun j => ∑ s, rho s j)
    have hz : ∀ k : ZMod N2 × ZMod N1, swapQ k = 0 ↔ k = 0 := fun k => by
      simp only [swapQ, Prod.ext_iff, Prod.fst_zero, Prod.snd_zero]
      exact And.comm
    simp only [fftPoisson, if_neg h1, if_neg h2, ne_eq, not_true_eq_false, if_false, Except.map, hm]
    congr 2
    · funext i
      rw [← afIfft2_swap]
      rw [mul_comm (N2 : ℂ)]
      congr 5
      funext k
      have := afFft2_swap (fun j => (((∑ s, rho s j) - (∑ j, ∑ s, rho s j) / ((N1 : ℝ) * N2) : ℝ) : ℂ)) k
      rw [this]
      simp only [hz]
      rw [add_comm (fftfreq N1 dq1 (swapQ k).1 ^ 2)]
      rfl
    · funext i
      rw [← afIfft2_swap]
      rw [mul_comm (N2 : ℂ)]
      congr 5
      funext k
      have := afFft2_swap (fun j => (((∑ s, rho s j) - (∑ j, ∑ s, rho s j) / ((N1 : ℝ) * N2) : ℝ) : ℂ)) k
      rw [this]
      simp only [hz]
      rw [add_comm (fftfreq N1 dq1 (swapQ k).1 ^ 2)]
      rfl
  unfold electrostaticFFT
  rw [key]
  cases fftPoisson 1 dq1 dq2 eps (fun j => ∑ s, rho s j) with
  | error e => rfl
  | ok E =>
    simp only [Except.map, FieldState.exchanged, FieldState.mapEM, FieldState.mk.injEq, and_true]
    funext k
    by_cases hk : k = σ.cc
    · simp only [hk, if_true]
      rfl
    · simp only [hk, if_false]

theorem electrostaticFFT_aliased (dq1 dq2 eps : ℝ) (rho : S → ZMod N1 × ZMod N2 → ℝ) (σ : FieldState (ZMod N1 × ZMod N2) ℝ) (h : Aliased σ) :
    Aliased (electrostaticFFT dq1 dq2 eps rho σ) := by
  unfold electrostaticFFT
  cases fftPoisson 1 dq1 dq2 eps (fun j => ∑ s, rho s j) <;> exact h

/-- **C89 (electrostatic runs).** Runs with the electrostatic solver commute with the exchange. -/
theorem C89_electrostatic_run {c : CoupledConfig S (ZMod M1 × ZMod M2 × ZMod M3) (ZMod N1 × ZMod N2) ℝ} (h1 : N1 ≠ 1) (h2 : N2 ≠ 1)
    (hax : c.ax = ⟨(1, 0, 0), (0, 1, 0), (0, 0, 1), (1, 0), (0, 1)⟩) (hyb : S)
    (steps : List (ℝ × (Fin 2 → CoupledCallbacks S (ZMod M1 × ZMod M2 × ZMod M3) (ZMod N1 × ZMod N2) ℝ)))
    (steps' : List (ℝ × (Fin 2 → CoupledCallbacks S (ZMod M2 × ZMod M1 × ZMod M3) (ZMod N2 × ZMod N1) ℝ)))
    (hs : List.Forall₂ (fun x' x => x'.1 = x.1 ∧ ∀ k, CallbacksExchanged (x'.2 k) (x.2 k)) steps' steps)
    (f : Dist S (ZMod M1 × ZMod M2 × ZMod M3) (ZMod N1 × ZMod N2) ℝ) (σ : FieldState (ZMod N1 × ZMod N2) ℝ) (hσ : Aliased σ) :
    runCoupled c.exchanged (electrostaticFFT c.exchanged.dq1 c.exchanged.dq2 c.exchanged.eps) hyb steps' (f.exchanged, σ.exchanged)
      = (runCoupled c (electrostaticFFT c.dq1 c.dq2 c.eps) hyb steps (f, σ)).map fun r => (r.1.exchanged, r.2.exchanged) :=
  C89_exchanged_run hax hyb (fun ρ σ => C89_electrostatic_field h1 h2 c.dq1 c.dq2 c.eps ρ σ) (electrostaticFFT_aliased _ _ _) steps steps' hs f σ hσ

end

/-! ### concrete cases -/

/-- The configuration of two species on a 3 × 1 grid. -/
def c89Cfg : CoupledConfig (Fin 2) (ZMod 2 × ZMod 1 × ZMod 1) (ZMod 3 × ZMod 1) ℚ :=
  { c69Cfg with ax := ⟨(1, 0, 0), (0, 1, 0), (0, 0, 1), (1, 0), (0, 1)⟩ }

def c89Cb : CoupledCallbacks (Fin 2) (ZMod 1 × ZMod 2 × ZMod 1) (ZMod 1 × ZMod 3) ℚ :=
  nonrelCallbacks (fun s => if s = 0 then 1 else -1) (fun _ => 2)
    ⟨fun s p => exCoupled.coords.p2 s (swapP p), fun s p => exCoupled.coords.p1 s (swapP p), fun s p => exCoupled.coords.p3 s (swapP p)⟩
    ⟨fun s p => exCoupled.coords.p2 s (swapP p), fun s p => exCoupled.coords.p1 s (swapP p), fun s p => exCoupled.coords.p3 s (swapP p)⟩
    (fun g s p => g s (swapP (swapP p)))

theorem c89Cb_exchanged : CallbacksExchanged c89Cb c69Cb :=
  C89_nonrelativistic_callbacks (fun s => if s = 0 then 1 else -1) (fun _ => 2) exCoupled.coords exCoupled.coords (fun f => f)

/-- Two steps of an electrodynamic run of two species on a 3 × 1 grid and on the 1 × 3 grid. -/
example : ∃ r, runCoupled c89Cfg (fun _ σ => σ) 0 [(1 / 10, fun _ => c69Cb), (1 / 5, fun _ => c69Cb)] (c69F, c69State) = .ok r ∧
    runCoupled c89Cfg.exchanged (fun _ σ => σ) 0 [(1 / 10, fun _ => c89Cb), (1 / 5, fun _ => c89Cb)] (c69F.exchanged, c69State.exchanged)
      = .ok (r.1.exchanged, r.2.exchanged) := by
  have hc : ElectrodynamicFVM c89Cfg := ⟨rfl, rfl, rfl, rfl⟩
  obtain ⟨r, h⟩ := C14_run_exists c89Cfg hc rfl ⟨.ppm, rfl⟩ ⟨.minmod, rfl⟩ (fun _ σ => σ) 0
    [(1 / 10, fun _ => c69Cb), (1 / 5, fun _ => c69Cb)] (c69F, c69State)
  refine ⟨r, h, ?_⟩
  rw [C89_electrodynamic_run hc rfl 0 (fun _ σ => σ) (fun _ σ => σ) [(1 / 10, fun _ => c69Cb), (1 / 5, fun _ => c69Cb)]
    [(1 / 10, fun _ => c89Cb), (1 / 5, fun _ => c89Cb)]
    (.cons ⟨rfl, fun _ => c89Cb_exchanged⟩ (.cons ⟨rfl, fun _ => c89Cb_exchanged⟩ .nil)) c69F c69State ⟨rfl, rfl⟩, h]
  rfl

/-- A symmetric configuration and a symmetric state on a 3 × 3 grid. -/
def c89Sq : CoupledConfig Unit (ZMod 2 × ZMod 2 × ZMod 1) (ZMod 3 × ZMod 3) ℚ where
  solverMethodInQ := "FVM"
  solverMethodInP := "FVM"
  reconstructionInQ := "ppm"
  reconstructionInP := "minmod"
  riemannInQ := "upwind-flux"
  riemannInP := "upwind-flux"
  sourceEnabled := false
  fieldsEnabled := true
  dq1 := 1 / 2
  dq2 := 1 / 2
  dp1 := fun _ => 3
  dp2 := fun _ => 3
  dp3 := fun _ => 1
  ax := ⟨(1, 0, 0), (0, 1, 0), (0, 0, 1), (1, 0), (0, 1)⟩
  fieldsType := "electrodynamic"
  fieldsSolver := "fdtd"
  charge := fun _ => -1
  coords := ⟨fun _ p => if p.1 = 0 then -1 else 1, fun _ p => if p.2.1 = 0 then -1 else 1, fun _ _ => 0⟩
  eps := 3
  mu := 5
  hybrid := false
  Te := 0

def c89SqCb : CoupledCallbacks Unit (ZMod 2 × ZMod 2 × ZMod 1) (ZMod 3 × ZMod 3) ℚ :=
  nonrelCallbacks (fun _ => -1) (fun _ => 1) c89Sq.coords c89Sq.coords (fun g => g)

example (n : ℕ) : ∃ r, runCoupled c89Sq (fun _ σ => σ) () (List.replicate n (1 / 10, fun _ => c89SqCb))
      (fun _ p i => 1 + p.1.val * p.2.1.val * i.1.val * i.2.val, ⟨fun _ => EM.const 1 1 2 3 (-3) 0, 0, 0, 0,
        ⟨fun i => i.1.val, fun i => i.2.val, fun _ => 1, fun i => i.2.val, fun i => -i.1.val, fun i => i.1.val - i.2.val⟩, true, 0⟩) = .ok r ∧
    r.1.exchanged = r.1 ∧ r.2.exchanged = r.2 := by
  have hc : ElectrodynamicFVM c89Sq := ⟨rfl, rfl, rfl, rfl⟩
  obtain ⟨r, h⟩ := C14_run_exists c89Sq hc rfl ⟨.ppm, rfl⟩ ⟨.minmod, rfl⟩ (fun _ σ => σ) () (List.replicate n (1 / 10, fun _ => c89SqCb))
    (fun _ p i => 1 + p.1.val * p.2.1.val * i.1.val * i.2.val, ⟨fun _ => EM.const 1 1 2 3 (-3) 0, 0, 0, 0,
        ⟨fun i => i.1.val, fun i => i.2.val, fun _ => 1, fun i => i.2.val, fun i => -i.1.val, fun i => i.1.val - i.2.val⟩, true, 0⟩)
  refine ⟨r, h, ?_⟩
  refine C89_symmetry_kept (c := c89Sq) rfl rfl () (poisson := fun _ σ => σ) (fun _ _ => rfl) (fun _ _ h => h) _ ?_ ⟨rfl, rfl⟩ ?_ ?_ h
  · intro x hx k
    rw [List.eq_of_mem_replicate hx]
    exact C89_nonrelativistic_callbacks (fun _ => -1) (fun _ => 1) c89Sq.coords c89Sq.coords (fun g => g)
  · funext s p i
    simp only [Dist.exchanged, swapP, swapQ]
    ring
  · simp only [FieldState.exchanged, FieldState.mapEM, EM.exchanged, EM.const, swapQ, neg_neg, neg_zero, neg_sub, id]

end Bolt
