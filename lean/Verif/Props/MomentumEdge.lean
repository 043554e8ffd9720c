import Verif.Proofs.MomentumEdge
import Verif.Props.Contraction
import Mathlib.Data.ZMod.Basic

/-!
# C108: the edge of the momentum grid
-/

set_option linter.unusedSectionVars false

namespace Bolt

open Finset

variable {S P P' P'' Q K : Type} [AddCommGroup P] [AddCommGroup P'] [AddCommGroup P''] [AddCommGroup Q] [Field K] [LinearOrder K]
  [IsStrictOrderedRing K]

/-- C108: a run does not feel the edge of the momentum grid as long as nothing can have reached it: if the distribution vanishes in the
`(2 n + 1) r` outermost layers of cells, `r` being the reach of the reconstruction in momentum space, then after `n` steps the run on the
grid has in every cell the value of the run on the continued grid, where there is nothing outside. -/
theorem C108_edge_not_felt {ax : Axes P Q} {ax' : Axes P' Q} {φ : P' → P} {depth : P' → ℤ} (hU : Continues ax ax' φ depth)
    (cfg : FVMConfig S K) (hsrc : cfg.sourceEnabled = false) {r : ℕ} (hr : 1 ≤ r)
    (hm : ∀ m, reconMethod cfg.reconstructionInP = .ok m → m.radius ≤ r)
    (steps : List (K × (Fin 2 → Callbacks S P Q K))) (steps' : List (K × (Fin 2 → Callbacks S P' Q K)))
    (hs : List.Forall₂ (fun x x' => x.1 = x'.1 ∧ ∀ k, ContinuedCallbacks φ depth (x.2 k) (x'.2 k)) steps steps')
    (f g : Dist S P Q K) (f' : Dist S P' Q K) (hf : ContinuedState φ depth ((2 * steps.length + 1) * r) f f')
    (h : runFVM ax cfg steps f = .ok g) :
    ∃ g', runFVM ax' cfg steps' f' = .ok g' ∧ ContinuedState φ depth r g g' := by
  induction hs generalizing f f' with
  | nil =>
    simp only [runFVM, Except.ok.injEq] at h
    subst h
    exact ⟨f', rfl, by simpa using hf⟩
  | @cons x x' l l' hx hl ih =>
    obtain ⟨dt, cb⟩ := x
    obtain ⟨dt', cb'⟩ := x'
    obtain ⟨hdt, hcb⟩ := hx
    simp only at hdt hcb
    subst hdt
    cases h1 : timestepFVM (fun f => .ok f) (fun k => dfdtFVM ax cfg (cb k)) dt f with
    | error e => simp [runFVM, h1, bind, Except.bind] at h
    | ok u =>
      simp only [runFVM, h1, bind, Except.bind] at h
      obtain ⟨u', a, b⟩ := step_continues (n := 2 * l.length * r) hU hsrc hr hm hcb dt
        (by rw [show 2 * l.length * r + 3 * r = (2 * (l.length + 1) + 1) * r by ring]; exact hf) h1
      obtain ⟨g', c, d⟩ := ih u u' (by rw [add_mul, one_mul]; exact b) h
      exact ⟨g', by simp only [runFVM, a, bind, Except.bind]; exact c, d⟩

/-- C108 (a larger range of momenta): two runs on momentum grids of different extent, both continued by the same unlimited grid, agree in
all cells they have in common, under the same condition. -/
theorem C108_wider_grid {ax : Axes P Q} {ax2 : Axes P'' Q} {ax' : Axes P' Q} {φ : P' → P} {φ2 : P' → P''} {depth depth2 : P' → ℤ}
    (hU : Continues ax ax' φ depth) (hU2 : Continues ax2 ax' φ2 depth2) (cfg : FVMConfig S K) (hsrc : cfg.sourceEnabled = false) {r : ℕ}
    (hr : 1 ≤ r) (hm : ∀ m, reconMethod cfg.reconstructionInP = .ok m → m.radius ≤ r)
    (steps : List (K × (Fin 2 → Callbacks S P Q K) × (Fin 2 → Callbacks S P'' Q K) × (Fin 2 → Callbacks S P' Q K)))
    (hs : ∀ st ∈ steps, ∀ k, ContinuedCallbacks φ depth (st.2.1 k) (st.2.2.2 k))
    (hs2 : ∀ st ∈ steps, ∀ k, ContinuedCallbacks φ2 depth2 (st.2.2.1 k) (st.2.2.2 k))
    (f g : Dist S P Q K) (f2 g2 : Dist S P'' Q K) (f' : Dist S P' Q K)
    (hf : ContinuedState φ depth ((2 * steps.length + 1) * r) f f') (hf2 : ContinuedState φ2 depth2 ((2 * steps.length + 1) * r) f2 f')
    (h : runFVM ax cfg (steps.map fun st => (st.1, st.2.1)) f = .ok g)
    (h2 : runFVM ax2 cfg (steps.map fun st => (st.1, st.2.2.1)) f2 = .ok g2) :
    ∀ s p q, 0 ≤ depth p → 0 ≤ depth2 p → g s (φ p) q = g2 s (φ2 p) q := by
  obtain ⟨g', a, b⟩ := C108_edge_not_felt hU cfg hsrc hr hm (steps.map fun st => (st.1, st.2.1)) (steps.map fun st => (st.1, st.2.2.2))
    (by
      rw [List.forall₂_map_left_iff, List.forall₂_map_right_iff, List.forall₂_same]
      exact fun st hst => ⟨rfl, hs st hst⟩) f g f' (by simpa using hf) h
  obtain ⟨g'', a2, b2⟩ := C108_edge_not_felt hU2 cfg hsrc hr hm (steps.map fun st => (st.1, st.2.2.1)) (steps.map fun st => (st.1, st.2.2.2))
    (by
      rw [List.forall₂_map_left_iff, List.forall₂_map_right_iff, List.forall₂_same]
      exact fun st hst => ⟨rfl, hs2 st hst⟩) f2 g2 f' (by simpa using hf2) h2
  rw [a, Except.ok.injEq] at a2
  subst a2
  intro s p q h0 h02
  rw [← b.1 s p q h0, ← b2.1 s p q h02]

/-- C108 (tails): what is in the outermost layers does matter, but with the first-order scheme no more than its amount.  Cut off the
distribution `f` in the `2 n + 1` outermost layers to get `fc`, continued by `fc'`: after `n` steps within the CFL condition the sum over
the grid of the absolute difference between the run from `f` and the unlimited run from `fc'` is at most what was cut off. -/
theorem C108_tails [Fintype P] [Fintype Q] {ax : Axes P Q} {ax' : Axes P' Q} {φ : P' → P} {depth : P' → ℤ} (hU : Continues ax ax' φ depth)
    (cfg : FVMConfig S K) (hsrc : cfg.sourceEnabled = false)
    (hq : cfg.reconstructionInQ = "piecewise-constant") (hp : cfg.reconstructionInP = "piecewise-constant") (hpos : cfg.PositiveSpacing)
    (steps : List (K × (Fin 2 → Callbacks S P Q K))) (steps' : List (K × (Fin 2 → Callbacks S P' Q K)))
    (hs : List.Forall₂ (fun x x' => x.1 = x'.1 ∧ ∀ k, ContinuedCallbacks φ depth (x.2 k) (x'.2 k)) steps steps')
    (hst : StableSteps ax cfg steps) (f fc g : Dist S P Q K) (fc' : Dist S P' Q K)
    (hf : ContinuedState φ depth (2 * steps.length + 1) fc fc') (h : runFVM ax cfg steps f = .ok g) :
    ∃ g', runFVM ax' cfg steps' fc' = .ok g' ∧ ∀ (ψ : P → P'), (∀ p, φ (ψ p) = p ∧ 0 ≤ depth (ψ p)) → ∀ s,
      ∑ p, ∑ q, |g s p q - g' s (ψ p) q| ≤ ∑ p, ∑ q, |f s p q - fc s p q| := by
  obtain ⟨gc, hgc⟩ := C09_run_succeeds ax cfg (Or.inl hq) (Or.inl hp) steps fc
  obtain ⟨g', a, b⟩ := C108_edge_not_felt hU cfg hsrc (r := 1) le_rfl (fun m hm => by
    rw [hp] at hm
    have : m = .piecewiseConstant := by simpa [reconMethod] using hm.symm
    subst this; exact le_rfl) steps steps' hs fc gc fc' (by simpa using hf) hgc
  refine ⟨g', a, fun ψ hψ s => ?_⟩
  have e : ∀ p q, g' s (ψ p) q = gc s p q := fun p q => by rw [b.1 s (ψ p) q (hψ p).2, (hψ p).1]
  simp only [e]
  exact C86_contraction ax cfg hsrc hq hp hpos steps hst f fc g gc h hgc s

end Bolt
