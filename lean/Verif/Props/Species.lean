import Verif.Proofs.Species
import Verif.Props.Cover

/-!
# C87: how the species of a run affect each other
-/

set_option linter.unusedSectionVars false

namespace Bolt

section
variable {S S' P P' Q K : Type} [AddCommGroup P] [AddCommGroup P'] [AddCommGroup Q] [Field K] [LinearOrder K] [IsStrictOrderedRing K]

/-- **C87 (no fields: species and momenta do not see each other).** Without transport in momentum space, the run for any selection of
species and momenta, in any order, with repetitions and with any weights, gives the selected and weighted part of the result for all of
them; the same error is raised otherwise. -/
theorem C87_without_fields (ax : Axes P Q) (ax' : Axes P' Q) (hq1 : ax'.q1 = ax.q1) (hq2 : ax'.q2 = ax.q2) (cfg : FVMConfig S K)
    (hp : ¬(cfg.solverMethodInP = "FVM" ∧ cfg.fieldsEnabled = true)) (τ : S' → S) (π : P' → P) (w : S' → K)
    (steps : List (K × (Fin 2 → Callbacks S P Q K))) (steps' : List (K × (Fin 2 → Callbacks S' P' Q K)))
    (hs : List.Forall₂ (fun x' x => x'.1 = x.1 ∧ ∀ k, (∀ s p q, (x'.2 k).Cq1 s p q = (x.2 k).Cq1 (τ s) (π p) q) ∧
      (∀ s p q, (x'.2 k).Cq2 s p q = (x.2 k).Cq2 (τ s) (π p) q) ∧
      ∀ f : Dist S P Q K, (x'.2 k).source (f.split τ π w) = ((x.2 k).source f).split τ π w) steps' steps) (f : Dist S P Q K) :
    runFVM ax' (cfg.take τ) steps' (fun s p q => w s * f (τ s) (π p) q)
      = (runFVM ax cfg steps f).map fun g s p q => w s * g (τ s) (π p) q := by
  show runFVM ax' (cfg.take τ) steps' (f.split τ π w) = (runFVM ax cfg steps f).map (Dist.split τ π w)
  induction hs generalizing f with
  | nil => rfl
  | @cons x' x rest' rest hx _ ih =>
    obtain ⟨dt', cb'⟩ := x'
    obtain ⟨dt, cb⟩ := x
    obtain ⟨h1, h2⟩ := hx
    simp only at h1 h2
    subst h1
    have key : ∀ k (g : Dist S P Q K), dfdtFVM ax' (cfg.take τ) (cb' k) (g.split τ π w) = (dfdtFVM ax cfg (cb k) g).map (Dist.split τ π w) := by
      intro k g
      have a := dfdtFVM_split ax ax' cfg τ π w hq1 hq2 (Or.inl hp) (cb k) (cb' k).source g ((h2 k).2.2 g)
      rw [← a]
      have e1 : (cb' k).Cq1 = (cb k).Cq1.take τ π := by funext s p q; exact (h2 k).1 s p q
      have e2 : (cb' k).Cq2 = (cb k).Cq2.take τ π := by funext s p q; exact (h2 k).2.1 s p q
      have hp' : ¬((cfg.take τ).solverMethodInP = "FVM" ∧ (cfg.take τ).fieldsEnabled = true) := hp
      unfold dfdtFVM
      simp only [if_neg hp', e1, e2]
    have up : ∀ (g k : Dist S P Q K) (dt : K), (fun s p q => Dist.split τ π w g s p q + Dist.split τ π w k s p q * dt)
        = Dist.split τ π w (fun s p q => g s p q + k s p q * dt) := by
      intro g k dt; funext s p q; simp only [Dist.split]; ring
    simp only [runFVM, timestepFVM, bind, Except.bind, key 0]
    cases dfdtFVM ax cfg (cb 0) f with
    | error e => rfl
    | ok k0 =>
      simp only [Except.map, up, key 1]
      cases dfdtFVM ax cfg (cb 1) (fun s p q => f s p q + k0 s p q * (dt' / 2)) with
      | error e => rfl
      | ok k1 =>
        simp only [Except.map, pure, Except.pure, up]
        exact ih _

variable [Fintype S] [Fintype S'] [Fintype P] [Fintype Q]

/-- **C87 (general form).** A second list of species made of weighted copies of the first, such that the weights of the copies of every
charged species add up to one, has the same fields at all times and the correspondingly weighted distribution functions. -/
theorem C87_species [DecidableEq S] {τ : S' → S} {w : S' → K} {c : CoupledConfig S P Q K} {hyb : S} {hyb' : S'}
    (h : SplitsCharge τ w c.charge) (hh : c.hybrid = true → τ hyb' = hyb ∧ w hyb' = 1)
    {poisson : (S → Q → K) → FieldState Q K → FieldState Q K} {poisson' : (S' → Q → K) → FieldState Q K → FieldState Q K}
    (hp : c.fieldsType = "electrostatic" → SeesTotalCharge poisson poisson')
    (steps : List (K × (Fin 2 → CoupledCallbacks S P Q K))) (steps' : List (K × (Fin 2 → CoupledCallbacks S' P Q K)))
    (hs : List.Forall₂ (fun x' x => x'.1 = x.1 ∧ ∀ k, CallbacksSplit τ w (x'.2 k) (x.2 k)) steps' steps)
    (f : Dist S P Q K) (σ : FieldState Q K) :
    runCoupled (c.take τ) poisson' hyb' steps' (fun s p q => w s * f (τ s) p q, σ)
      = (runCoupled c poisson hyb steps (f, σ)).map fun r => (fun s p q => w s * r.1 (τ s) p q, r.2) :=
  (splitMap h hh hp).run steps steps' hs f σ trivial

/-- **C87 (order of the species).** Reordering or renaming the species reorders the result and does not change the fields. -/
theorem C87_order (e : S' ≃ S) {c : CoupledConfig S P Q K} {hyb : S'}
    {poisson : (S → Q → K) → FieldState Q K → FieldState Q K} {poisson' : (S' → Q → K) → FieldState Q K → FieldState Q K}
    (hp : c.fieldsType = "electrostatic" → SeesTotalCharge poisson poisson')
    (steps : List (K × (Fin 2 → CoupledCallbacks S P Q K))) (steps' : List (K × (Fin 2 → CoupledCallbacks S' P Q K)))
    (hs : List.Forall₂ (fun x' x => x'.1 = x.1 ∧ ∀ k, CallbacksSplit e (fun _ => 1) (x'.2 k) (x.2 k)) steps' steps)
    (f : Dist S P Q K) (σ : FieldState Q K) :
    runCoupled (c.take e) poisson' hyb steps' (fun s => f (e s), σ)
      = (runCoupled c poisson (e hyb) steps (f, σ)).map fun r => (fun s => r.1 (e s), r.2) := by
  classical
  have h : SplitsCharge (K := K) e (fun _ => 1) c.charge := by
    intro s _
    rw [Finset.sum_eq_single (e.symm s)]
    · simp
    · intro b _ hb
      rw [if_neg]
      intro he; exact hb (by rw [← he, e.symm_apply_apply])
    · simp
  have := C87_species (hyb := e hyb) (hyb' := hyb) h (fun _ => ⟨rfl, rfl⟩) hp steps steps' hs f σ
  simpa only [one_mul] using this

/-- **C87 (neutral species are passive).** Leaving out uncharged species changes neither the fields nor the other species. -/
theorem C87_neutral {T : Type} [Fintype T] {c : CoupledConfig (S ⊕ T) P Q K} (hT : ∀ t, c.charge (Sum.inr t) = 0) {hyb : S}
    {poisson : (S ⊕ T → Q → K) → FieldState Q K → FieldState Q K} {poisson' : (S → Q → K) → FieldState Q K → FieldState Q K}
    (hp : c.fieldsType = "electrostatic" → SeesTotalCharge poisson poisson')
    (steps : List (K × (Fin 2 → CoupledCallbacks (S ⊕ T) P Q K))) (steps' : List (K × (Fin 2 → CoupledCallbacks S P Q K)))
    (hs : List.Forall₂ (fun x' x => x'.1 = x.1 ∧ ∀ k, CallbacksSplit Sum.inl (fun _ => 1) (x'.2 k) (x.2 k)) steps' steps)
    (f : Dist (S ⊕ T) P Q K) (σ : FieldState Q K) :
    runCoupled (c.take Sum.inl) poisson' hyb steps' (fun s => f (Sum.inl s), σ)
      = (runCoupled c poisson (Sum.inl hyb) steps (f, σ)).map fun r => (fun s => r.1 (Sum.inl s), r.2) := by
  classical
  have h : SplitsCharge (K := K) (S := S ⊕ T) Sum.inl (fun _ : S => 1) c.charge := by
    rintro (s | t) hs
    · rw [Finset.sum_eq_single s]
      · simp
      · intro b _ hb
        simp [hb]
      · simp
    · exact absurd (hT t) hs
  have := C87_species (hyb := Sum.inl hyb) (hyb' := hyb) h (fun _ => ⟨rfl, rfl⟩) hp steps steps' hs f σ
  simpa only [one_mul] using this

/-- **C87 (the bundled physics).** The nonrelativistic callbacks of the second list, with the charges and masses of the first, are related
as required whenever the source is. -/
theorem C87_nonrelativistic_callbacks (τ : S' → S) (w : S' → K) (e m : S → K) (ctr cor : PCoords S P K)
    (src : (S → P → K) → S → P → K) (src' : (S' → P → K) → S' → P → K)
    (hs : ∀ g : S → P → K, src' (fun s p => w s * g (τ s) p) = fun s p => w s * src g (τ s) p) :
    CallbacksSplit τ w
      (nonrelCallbacks (Q := Q) (fun s => e (τ s)) (fun s => m (τ s))
        ⟨fun s p => ctr.p1 (τ s) p, fun s p => ctr.p2 (τ s) p, fun s p => ctr.p3 (τ s) p⟩
        ⟨fun s p => cor.p1 (τ s) p, fun s p => cor.p2 (τ s) p, fun s p => cor.p3 (τ s) p⟩ src')
      (nonrelCallbacks e m ctr cor src) where
  q1 := rfl
  q2 := rfl
  p1 := fun _ => rfl
  p2 := fun _ => rfl
  p3 := fun _ => rfl
  src := by
    intro f
    funext s p q
    exact congrFun (congrFun (hs fun s p => f s p q) s) p

end

/-- **C87 (collisions).** The BGK operator of a selection of the species is the selection of the BGK operator: species relax separately. -/
theorem C87_bgk {S S' P Q : Type} [Fintype P] (τ : S' → S) (pr : BGKParams S P Q) (c : PCoords S P ℝ) (w : S → ℝ) (flag : Bool)
    (f : Dist S P Q ℝ) (s : S') (p : P) (q : Q) :
    bgk ⟨pr.pdim, fun s => pr.mass (τ s), pr.k, fun s => pr.tau (τ s)⟩
      ⟨fun s p => c.p1 (τ s) p, fun s p => c.p2 (τ s) p, fun s p => c.p3 (τ s) p⟩ (fun s => w (τ s)) flag (fun s => f (τ s)) s p q
      = bgk pr c w flag f (τ s) p q := by
  cases flag <;> rfl

/-- **C87 (Poisson solver).** The spectral Poisson solver sees only the total charge density. -/
theorem C87_poisson {S S' : Type} [Fintype S] [Fintype S'] {N1 N2 : ℕ} [NeZero N1] [NeZero N2] (dq1 dq2 eps : ℝ) :
    SeesTotalCharge (electrostaticFFT (S := S) (N1 := N1) (N2 := N2) dq1 dq2 eps) (electrostaticFFT (S := S') dq1 dq2 eps) := by
  intro ρ ρ' σ h
  have : (fun j => ∑ s, ρ' s j) = fun j => ∑ s, ρ s j := funext h
  simp only [electrostaticFFT, this]

/-! ## A concrete case: the second of two charged species split into a third and two thirds, and the order reversed -/

def c87Of : Fin 3 → Fin 2 := ![1, 0, 1]
def c87W : Fin 3 → ℚ := ![1 / 3, 1, 2 / 3]

/-- Callbacks of the three species. -/
def c87Cb : CoupledCallbacks (Fin 3) (ZMod 2 × ZMod 1 × ZMod 1) (ZMod 3 × ZMod 1) ℚ :=
  nonrelCallbacks (fun s => if c87Of s = 0 then 1 else -1) (fun _ => 2)
    ⟨fun s p => exCoupled.coords.p1 (c87Of s) p, fun s p => exCoupled.coords.p2 (c87Of s) p, fun s p => exCoupled.coords.p3 (c87Of s) p⟩
    ⟨fun s p => exCoupled.coords.p1 (c87Of s) p, fun s p => exCoupled.coords.p2 (c87Of s) p, fun s p => exCoupled.coords.p3 (c87Of s) p⟩ (fun f => f)

theorem c87_splits : SplitsCharge c87Of c87W c69Cfg.charge := by
  intro s _
  fin_cases s <;> simp [Fin.sum_univ_three, c87Of, c87W]
  norm_num

example : ∃ r, runCoupled c69Cfg (fun _ σ => σ) 0 [(1 / 10, fun _ => c69Cb), (1 / 5, fun _ => c69Cb)] (c69F, c69State) = .ok r ∧
    runCoupled (c69Cfg.take c87Of) (fun _ σ => σ) 0 [(1 / 10, fun _ => c87Cb), (1 / 5, fun _ => c87Cb)]
      (fun s p q => c87W s * c69F (c87Of s) p q, c69State) = .ok (fun s p q => c87W s * r.1 (c87Of s) p q, r.2) := by
  have hc : ElectrodynamicFVM c69Cfg := ⟨rfl, rfl, rfl, rfl⟩
  obtain ⟨r, h⟩ := C14_run_exists c69Cfg hc rfl ⟨.ppm, rfl⟩ ⟨.minmod, rfl⟩ (fun _ σ => σ) 0
    [(1 / 10, fun _ => c69Cb), (1 / 5, fun _ => c69Cb)] (c69F, c69State)
  have hcb : CallbacksSplit c87Of c87W c87Cb (c69Cb (Q := ZMod 3 × ZMod 1)) :=
    C87_nonrelativistic_callbacks c87Of c87W (fun s => if s = 0 then 1 else -1) (fun _ => 2) exCoupled.coords exCoupled.coords
      (fun f => f) (fun f => f) (fun g => rfl)
  have hh : c69Cfg.hybrid = true → c87Of 0 = 0 ∧ c87W 0 = 1 := fun h => absurd h (by decide)
  have he : c69Cfg.fieldsType ≠ "electrostatic" := by decide
  have := C87_species (τ := c87Of) (w := c87W) (c := c69Cfg) (hyb := 0) (hyb' := 0) (poisson := fun _ σ => σ) (poisson' := fun _ σ => σ)
    c87_splits hh (fun h => absurd h he) [(1 / 10, fun _ => c69Cb), (1 / 5, fun _ => c69Cb)] [(1 / 10, fun _ => c87Cb), (1 / 5, fun _ => c87Cb)]
    (.cons ⟨rfl, fun _ => hcb⟩ (.cons ⟨rfl, fun _ => hcb⟩ .nil)) c69F c69State
  rw [h] at this
  exact ⟨r, h, this⟩

end Bolt
