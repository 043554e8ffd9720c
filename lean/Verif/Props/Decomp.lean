import Verif.Proofs.Decomp
import Verif.Props.FVM

/-!
# C11, C12, C24 (exchange part), C25: domain decomposition
-/

set_option linter.unusedSectionVars false

namespace Bolt

namespace Decomp

variable {N1 N2 : ℕ} {R : Type} [NeZero N1] [NeZero N2] (D : Decomp N1 N2 R) (g1 g2 : ℕ) {S P K : Type}

/-! ## C25: periodic ghost images -/

/-- C25: after communication on a doubly periodic domain every local cell — bulk, ghost or corner — of every process holds the
bulk value, on whichever process owns it, of the cell whose global index it is congruent to modulo the periods. -/
theorem C25_periodic_images (st F : ∀ r, Dist S P (D.Loc g1 g2 r) K) (r r' : R) (s : S) (p : P)
    (l : D.Loc g1 g2 r) (l' : D.Loc g1 g2 r') (hl' : D.Interior g1 g2 r' l')
    (h1 : (globCoord (D.start1 r) g1 l.1) ≡ globCoord (D.start1 r') g1 l'.1 [ZMOD N1])
    (h2 : (globCoord (D.start2 r) g2 l.2) ≡ globCoord (D.start2 r') g2 l'.2 [ZMOD N2]) :
    D.exchange g1 g2 .periodic .periodic st F r s p l = F r' s p l' := by
  rw [exchange_periodic, ← assemble_toGlob D g1 g2 F r' s p l' hl']
  congr 1
  simp only [toGlob]
  rw [(ZMod.intCast_eq_intCast_iff _ _ _).mpr h1, (ZMod.intCast_eq_intCast_iff _ _ _).mpr h2]

/-- Every local cell is the periodic image of exactly one bulk cell, so `C25_periodic_images` determines all of them. -/
theorem C25_image_exists (r : R) (l : D.Loc g1 g2 r) : ∃ r', ∃ l' : D.Loc g1 g2 r', D.Interior g1 g2 r' l' ∧
    (globCoord (D.start1 r) g1 l.1) ≡ globCoord (D.start1 r') g1 l'.1 [ZMOD N1] ∧
    (globCoord (D.start2 r) g2 l.2) ≡ globCoord (D.start2 r') g2 l'.2 [ZMOD N2] := by
  refine ⟨_, _, interior_toLoc D g1 g2 (D.toGlob g1 g2 r l), ?_, ?_⟩
  · rw [← ZMod.intCast_eq_intCast_iff]
    have := congrArg Prod.fst (toGlob_toLoc D g1 g2 (D.toGlob g1 g2 r l))
    simp only [toGlob] at this ⊢
    rw [this]
  · rw [← ZMod.intCast_eq_intCast_iff]
    have := congrArg Prod.snd (toGlob_toLoc D g1 g2 (D.toGlob g1 g2 r l))
    simp only [toGlob] at this ⊢
    rw [this]

theorem fills_interior (bc : PetscBC) {N start n g : ℕ} {M : ℕ} (hfit : start + n ≤ N) (a : ZMod M)
    (h1 : g ≤ a.val) (h2 : a.val < g + n) : fills bc N (globCoord start g a) :=
  Or.inr ⟨by rw [globCoord]; omega, by rw [globCoord]; omega⟩

/-- C24 (communication): whatever the boundary types, communicating changes no bulk cell on any process. -/
theorem C24_exchange_keeps_interior (bc1 bc2 : PetscBC) (st F : ∀ r, Dist S P (D.Loc g1 g2 r) K) (r : R) (s : S) (p : P)
    (l : D.Loc g1 g2 r) (hl : D.Interior g1 g2 r l) : D.exchange g1 g2 bc1 bc2 st F r s p l = F r s p l := by
  obtain ⟨⟨a, b⟩, c, d⟩ := hl
  rw [exchange, if_pos ⟨fills_interior bc1 (D.fits1 r) l.1 a b, fills_interior bc2 (D.fits2 r) l.2 c d⟩,
    assemble_toGlob D g1 g2 F r s p l ⟨⟨a, b⟩, c, d⟩]

theorem assemble_exchange (bc1 bc2 : PetscBC) (st F : ∀ r, Dist S P (D.Loc g1 g2 r) K) :
    D.assemble g1 g2 (D.exchange g1 g2 bc1 bc2 st F) = D.assemble g1 g2 F := by
  funext s p i
  simp only [assemble]
  rw [C24_exchange_keeps_interior D g1 g2 bc1 bc2 st F _ s p _ (interior_toLoc D g1 g2 i)]

/-- C25: communicating twice equals communicating once (the second time the local vector still holds the result of the
first). -/
theorem C25_exchange_idempotent (bc1 bc2 : PetscBC) (st F : ∀ r, Dist S P (D.Loc g1 g2 r) K) :
    D.exchange g1 g2 bc1 bc2 (D.exchange g1 g2 bc1 bc2 st F) (D.exchange g1 g2 bc1 bc2 st F)
      = D.exchange g1 g2 bc1 bc2 st F := by
  funext r s p l
  conv_lhs => rw [exchange]
  rw [assemble_exchange]
  split_ifs with h
  · rw [exchange, if_pos h]
  · rfl

/-! ## C11: independence of the decomposition -/

variable [Field K] [LinearOrder K] [IsStrictOrderedRing K] [AddCommGroup P]

theorem step_agrees (ax : P × P × P) (cfg : FVMConfig S K)
    (hg : ∀ m, reconMethod cfg.reconstructionInQ = .ok m → GhostsSuffice m g1 N1 ∧ GhostsSuffice m g2 N2)
    (dt : K) (cb : Fin 2 → ∀ r, Callbacks S P (D.Loc g1 g2 r) K) (cbG : Fin 2 → Callbacks S P (ZMod N1 × ZMod N2) K)
    (hcb : ∀ k r, D.CallbacksAgree g1 g2 r (cb k r) (cbG k)) (F F' : ∀ r, Dist S P (D.Loc g1 g2 r) K)
    (f f' : Dist S P (ZMod N1 × ZMod N2) K) (hF : D.Holds g1 g2 F f) (h : D.PeriodicStep g1 g2 ax cfg dt cb F F')
    (h' : timestepFVM (fun f => .ok f) (fun k => dfdtFVM ⟨ax.1, ax.2.1, ax.2.2, (1, 0), (0, 1)⟩ cfg (cbG k)) dt f = .ok f') :
    D.Holds g1 g2 F' f' := by
  obtain ⟨st0, st1, k0, k1, a, b, rfl⟩ := h
  obtain ⟨f0, l0, fh, l1, a', b', c', d', e'⟩ := timestepFVM_ok h'
  simp only [Except.ok.injEq] at a' c'
  subst a' c'
  rw [holds_iff] at hF
  subst hF
  have s0 : ∀ r s p l, D.Interior g1 g2 r l → k0 r s p l = l0 s p (D.toGlob g1 g2 r l) := fun r =>
    slope_agrees D g1 g2 ax cfg hg r (cb 0 r) (cbG 0) (hcb 0 r) _ _
      (fun s p l => exchange_periodic D g1 g2 st0 F r s p l) _ _ (a r) b'
  have hh : D.assemble g1 g2 (fun r s p l => D.exchange g1 g2 .periodic .periodic st0 F r s p l + k0 r s p l * (dt / 2))
      = fun s p q => D.assemble g1 g2 F s p q + l0 s p q * (dt / 2) := by
    rw [← holds_iff]
    intro r s p l hl
    beta_reduce
    rw [exchange_periodic, s0 r s p l hl]
  have s1 : ∀ r s p l, D.Interior g1 g2 r l → k1 r s p l = l1 s p (D.toGlob g1 g2 r l) := fun r =>
    slope_agrees D g1 g2 ax cfg hg r (cb 1 r) (cbG 1) (hcb 1 r) _ _
      (fun s p l => by rw [exchange_periodic, hh]) _ _ (b r) d'
  intro r s p l hl
  beta_reduce
  rw [exchange_periodic, e', s1 r s p l hl]

/-- C11: on a doubly periodic domain, after any number of finite-volume steps the bulk of every process holds exactly the values
that a single run on the whole grid computes, for every partition of the grid into rectangles, provided the ghost widths
cover the stencil of the reconstruction in use.  `steps` pairs the step size and the processes' callback values with the
callback values of the whole-grid run. -/
theorem C11_decomposition_independence (ax : P × P × P) (cfg : FVMConfig S K)
    (hg : ∀ m, reconMethod cfg.reconstructionInQ = .ok m → GhostsSuffice m g1 N1 ∧ GhostsSuffice m g2 N2)
    (steps : List (K × (Fin 2 → ∀ r, Callbacks S P (D.Loc g1 g2 r) K) × (Fin 2 → Callbacks S P (ZMod N1 × ZMod N2) K)))
    (hcb : ∀ st ∈ steps, ∀ k r, D.CallbacksAgree g1 g2 r (st.2.1 k r) (st.2.2 k))
    (F F' : ∀ r, Dist S P (D.Loc g1 g2 r) K) (f f' : Dist S P (ZMod N1 × ZMod N2) K) (hF : D.Holds g1 g2 F f)
    (h : D.PeriodicRun g1 g2 ax cfg (steps.map fun st => (st.1, st.2.1)) F F')
    (h' : runFVM ⟨ax.1, ax.2.1, ax.2.2, (1, 0), (0, 1)⟩ cfg (steps.map fun st => (st.1, st.2.2)) f = .ok f') :
    D.Holds g1 g2 F' f' := by
  induction steps generalizing F f with
  | nil =>
    simp only [List.map_nil, PeriodicRun, runFVM, Except.ok.injEq] at h h'
    subst h h'; exact hF
  | cons st rest ih =>
    obtain ⟨dt, cb, cbG⟩ := st
    simp only [List.map_cons, PeriodicRun] at h
    obtain ⟨G, hG, hR⟩ := h
    simp only [List.map_cons, runFVM, bind, Except.bind] at h'
    cases h0 : timestepFVM (fun f => .ok f) (fun k => dfdtFVM ⟨ax.1, ax.2.1, ax.2.2, (1, 0), (0, 1)⟩ cfg (cbG k)) dt f with
    | error e => simp [h0] at h'
    | ok g =>
      simp only [h0] at h'
      exact ih (fun st hst => hcb st (by simp [hst])) G g
        (step_agrees D g1 g2 ax cfg hg dt cb cbG (hcb (dt, cb, cbG) (by simp)) F G f g hF hG h0) hR h'

/-- C11: two runs of the same problem on different partitions (any numbers of processes, any ghost widths that suffice) agree
on every cell. -/
theorem C11_two_decompositions_agree {R' : Type} (D' : Decomp N1 N2 R') (g1' g2' : ℕ) (ax : P × P × P) (cfg : FVMConfig S K)
    (hok : ∃ m, reconMethod cfg.reconstructionInQ = .ok m) (hokp : ∃ m, reconMethod cfg.reconstructionInP = .ok m)
    (hg : ∀ m, reconMethod cfg.reconstructionInQ = .ok m → GhostsSuffice m g1 N1 ∧ GhostsSuffice m g2 N2)
    (hg' : ∀ m, reconMethod cfg.reconstructionInQ = .ok m → GhostsSuffice m g1' N1 ∧ GhostsSuffice m g2' N2)
    (steps : List (K × (Fin 2 → ∀ r, Callbacks S P (D.Loc g1 g2 r) K) × (Fin 2 → ∀ r, Callbacks S P (D'.Loc g1' g2' r) K)
      × (Fin 2 → Callbacks S P (ZMod N1 × ZMod N2) K)))
    (hcb : ∀ st ∈ steps, ∀ k r, D.CallbacksAgree g1 g2 r (st.2.1 k r) (st.2.2.2 k))
    (hcb' : ∀ st ∈ steps, ∀ k r, D'.CallbacksAgree g1' g2' r (st.2.2.1 k r) (st.2.2.2 k))
    (F F1 : ∀ r, Dist S P (D.Loc g1 g2 r) K) (G G1 : ∀ r, Dist S P (D'.Loc g1' g2' r) K)
    (f : Dist S P (ZMod N1 × ZMod N2) K) (hF : D.Holds g1 g2 F f) (hG : D'.Holds g1' g2' G f)
    (h : D.PeriodicRun g1 g2 ax cfg (steps.map fun st => (st.1, st.2.1)) F F1)
    (h' : D'.PeriodicRun g1' g2' ax cfg (steps.map fun st => (st.1, st.2.2.1)) G G1) :
    ∀ r s p l r' l', D.Interior g1 g2 r l → D'.Interior g1' g2' r' l' →
      D.toGlob g1 g2 r l = D'.toGlob g1' g2' r' l' → F1 r s p l = G1 r' s p l' := by
  have hname : ∀ name : String, (∃ m, reconMethod name = .ok m) →
      (name = "piecewise-constant" ∨ name = "minmod" ∨ name = "ppm") := by
    intro name; simp only [reconMethod]; split_ifs <;> simp_all
  obtain ⟨f', hf'⟩ := C09_run_succeeds ⟨ax.1, ax.2.1, ax.2.2, (1, 0), (0, 1)⟩ cfg (hname _ hok) (hname _ hokp)
    (steps.map fun st => (st.1, st.2.2.2)) f
  have A := C11_decomposition_independence D g1 g2 ax cfg hg (steps.map fun st => (st.1, st.2.1, st.2.2.2))
    (by intro st hst; obtain ⟨x, hx, rfl⟩ := List.mem_map.mp hst; exact hcb x hx)
    F F1 f f' hF (by rw [List.map_map]; exact h) (by rw [List.map_map]; exact hf')
  have B := C11_decomposition_independence D' g1' g2' ax cfg hg' (steps.map fun st => (st.1, st.2.2.1, st.2.2.2))
    (by intro st hst; obtain ⟨x, hx, rfl⟩ := List.mem_map.mp hst; exact hcb' x hx)
    G G1 f f' hG (by rw [List.map_map]; exact h') (by rw [List.map_map]; exact hf')
  intro r s p l r' l' hl hl' e
  rw [A r s p l hl, B r' s p l' hl', e]

/-- The decomposed run exists whenever the options are implemented names (so the hypothesis `h` above can be met). -/
theorem C11_run_exists (ax : P × P × P) (cfg : FVMConfig S K)
    (hq : cfg.reconstructionInQ = "piecewise-constant" ∨ cfg.reconstructionInQ = "minmod" ∨ cfg.reconstructionInQ = "ppm")
    (hp : cfg.reconstructionInP = "piecewise-constant" ∨ cfg.reconstructionInP = "minmod" ∨ cfg.reconstructionInP = "ppm")
    (steps : List (K × (Fin 2 → ∀ r, Callbacks S P (D.Loc g1 g2 r) K))) (F : ∀ r, Dist S P (D.Loc g1 g2 r) K) :
    ∃ F', D.PeriodicRun g1 g2 ax cfg steps F F' := by
  induction steps generalizing F with
  | nil => exact ⟨F, rfl⟩
  | cons st rest ih =>
    obtain ⟨dt, cb⟩ := st
    have ok : ∀ r (c : Callbacks S P (D.Loc g1 g2 r) K) x,
        ∃ k, dfdtFVM (D.locAxes g1 g2 r ax.1 ax.2.1 ax.2.2) cfg c x = .ok k := fun r c x =>
      (C09_slope_ok_iff _ cfg c x).mpr ⟨fun _ => hq, fun _ => hp⟩
    choose k hk using ok
    obtain ⟨F', hF'⟩ := ih (fun r s p l => D.exchange g1 g2 .periodic .periodic F F r s p l +
      k r (cb 1 r) (D.exchange g1 g2 .periodic .periodic F (fun r s p l => D.exchange g1 g2 .periodic .periodic F F r s p l
        + k r (cb 0 r) (D.exchange g1 g2 .periodic .periodic F F r) s p l * (dt / 2)) r) s p l * dt)
    exact ⟨F', _, ⟨F, F, fun r => k r (cb 0 r) (D.exchange g1 g2 .periodic .periodic F F r), _,
      fun r => hk r (cb 0 r) _, fun r => hk r (cb 1 r) _, rfl⟩, hF'⟩

end Decomp
end Bolt
