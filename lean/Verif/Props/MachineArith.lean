import Verif.Spec.Rounding
import Verif.Proofs.Rounding

/-!
# C107: what survives rounding
-/

set_option linter.unusedSectionVars false

namespace Bolt

open Machine Finset

/-! ## the same program -/

section exact

variable {S P Q K : Type} [AddCommGroup P] [AddCommGroup Q] [Field K] [LinearOrder K] [IsStrictOrderedRing K]

theorem exact_is_rounded : exactMachine K = roundedMachine id := rfl

theorem mach_exact_minmod [M : Machine K] (hM : M = exactMachine K) (x y z : K) : Mach.minmod x y z = minmod x y z := by
  rw [exact_is_rounded] at hM
  simp [Mach.minmod, minmod, Mach.r_add hM, Mach.r_sub hM, Mach.r_mul hM, Mach.r_lit hM, Mach.r_minof hM, Mach.r_abs hM, Mach.r_sign hM]

theorem mach_exact_reconFaces [M : Machine K] (hM : M = exactMachine K) {I : Type} [AddCommGroup I] (m : Recon) (e : I) (x : I → K) :
    Mach.reconFaces m e x = reconFaces m e x := by
  have hm := mach_exact_minmod hM
  rw [exact_is_rounded] at hM
  cases m with
  | piecewiseConstant => rfl
  | minmod =>
    simp only [Mach.reconFaces, reconFaces, Mach.reconstructMinmod, reconstructMinmod, Mach.slopeMinmod, slopeMinmod, hm,
      Mach.r_add hM, Mach.r_sub hM, Mach.r_mul hM, Mach.r_lit hM, id]
    norm_num
  | ppm =>
    simp only [Mach.reconFaces, reconFaces, Mach.reconstructPPM, reconstructPPM, Mach.ppmCell, ppmCell, Mach.ppmDQ, ppmDQ,
      Machine.ofBool, b2k, Mach.r_add hM, Mach.r_sub hM, Mach.r_mul hM, Mach.r_div hM, Mach.r_lit hM, Mach.r_minof hM, Mach.r_abs hM,
      Mach.r_lt hM, Mach.r_le hM, id, decide_eq_true_eq, gt_iff_lt, Rat.cast_zero, Rat.cast_one, Rat.cast_ofNat, Rat.cast_div]

theorem mach_exact_leftFlux [M : Machine K] (hM : M = exactMachine K) {I : Type} [AddCommGroup I] (m : Recon) (e : I) (C x : I → K) :
    Mach.leftFlux m e C x = leftFlux m e C x := by
  have := mach_exact_reconFaces hM m e x
  rw [exact_is_rounded] at hM
  funext i
  simp only [Mach.leftFlux, Mach.leftState, leftFlux, leftState, riemann, afSelect, this, Mach.r_mul hM, Mach.r_lit hM, Mach.r_lt hM,
    id, decide_eq_true_eq, gt_iff_lt, Rat.cast_zero]

theorem mach_exact_dfdtFVM [M : Machine K] (hM : M = exactMachine K) (ax : Axes P Q) (cfg : FVMConfig S K) (cb : Callbacks S P Q K)
    (f : Dist S P Q K) : Mach.dfdtFVM ax cfg cb f = dfdtFVM ax cfg cb f := by
  have hM' := hM
  rw [exact_is_rounded] at hM'
  have hQ : ∀ m, Mach.dfdtQ ax m cfg.dq1 cfg.dq2 cb.Cq1 cb.Cq2 f = dfdtQ ax m cfg.dq1 cfg.dq2 cb.Cq1 cb.Cq2 f := by
    intro m
    funext s p q
    simp only [Mach.dfdtQ, dfdtQ, Mach.fluxJump, fluxDiv, mach_exact_leftFlux hM, Mach.r_sub hM', Mach.r_div hM', Mach.r_neg hM', id,
      neg_div]
  have hP : ∀ m, Mach.dfdtP ax m cfg.dp1 cfg.dp2 cfg.dp3 cb.Cp1 cb.Cp2 cb.Cp3 f = dfdtP ax m cfg.dp1 cfg.dp2 cfg.dp3 cb.Cp1 cb.Cp2 cb.Cp3 f := by
    intro m
    funext s p q
    simp only [Mach.dfdtP, dfdtP, Mach.dFluxP, dFluxP, Mach.fluxJump, mach_exact_leftFlux hM, Mach.r_sub hM', Mach.r_div hM',
      Mach.r_neg hM', Mach.r_add hM', Mach.r_mul hM', Mach.r_lit hM', id, Rat.cast_one]
  simp only [Mach.dfdtFVM, dfdtFVM, hQ, hP, Mach.r_add hM', Mach.r_lit hM', id, Rat.cast_zero, zero_add]

/-- C107 (the same program): with exact operations the machine program is the exact model of the other properties. -/
theorem C107_same_program [M : Machine K] (hM : M = exactMachine K) (ax : Axes P Q) (cfg : FVMConfig S K)
    (steps : List (K × (Fin 2 → Callbacks S P Q K))) (f : Dist S P Q K) : Mach.runFVM ax cfg steps f = runFVM ax cfg steps f := by
  induction steps generalizing f with
  | nil => rfl
  | cons st rest ih =>
    obtain ⟨dt, cb⟩ := st
    have h : Mach.timestepFVM (fun k => Mach.dfdtFVM ax cfg (cb k)) dt f =
        timestepFVM (fun f => .ok f) (fun k => dfdtFVM ax cfg (cb k)) dt f := by
      have hM' := hM
      rw [exact_is_rounded] at hM'
      simp only [Mach.timestepFVM, timestepFVM, mach_exact_dfdtFVM hM, Mach.r_add hM', Mach.r_mul hM', Mach.r_div hM', Mach.r_lit hM',
        id, Rat.cast_ofNat, bind, Except.bind]
    simp only [Mach.runFVM, runFVM, h, ih]

end exact

/-! ## any arithmetic -/

section lawless

variable {S P K : Type} [AddCommGroup P] [Machine K] {N1 N2 : ℕ} {R : Type} [NeZero N1] [NeZero N2] (D : Decomp N1 N2 R) (g1 g2 : ℕ)

/-- C107 (reproducibility): whatever the arithmetic of the machine does — no law is assumed of any operation — after any number of
finite-volume steps on a doubly periodic domain the bulk of every process holds, bit for bit, what a run on the whole grid computes. -/
theorem C107_bitwise_decomposition_independence (ax : P × P × P) (cfg : FVMConfig S K)
    (hg : ∀ m, reconMethod cfg.reconstructionInQ = .ok m → GhostsSuffice m g1 N1 ∧ GhostsSuffice m g2 N2)
    (steps : List (K × (Fin 2 → ∀ r, Callbacks S P (D.Loc g1 g2 r) K) × (Fin 2 → Callbacks S P (ZMod N1 × ZMod N2) K)))
    (hcb : ∀ st ∈ steps, ∀ k r, D.CallbacksAgree g1 g2 r (st.2.1 k r) (st.2.2 k))
    (F F' : ∀ r, Dist S P (D.Loc g1 g2 r) K) (f f' : Dist S P (ZMod N1 × ZMod N2) K) (hF : D.Holds g1 g2 F f)
    (h : Mach.PeriodicRun D g1 g2 ax cfg (steps.map fun st => (st.1, st.2.1)) F F')
    (h' : Mach.runFVM ⟨ax.1, ax.2.1, ax.2.2, (1, 0), (0, 1)⟩ cfg (steps.map fun st => (st.1, st.2.2)) f = .ok f') :
    D.Holds g1 g2 F' f' := by
  induction steps generalizing F f with
  | nil =>
    simp only [List.map_nil, Mach.PeriodicRun, Mach.runFVM, Except.ok.injEq] at h h'
    subst h h'; exact hF
  | cons st rest ih =>
    obtain ⟨mq, mp, hu⟩ := Mach.runFVM_uses h' (by simp)
    obtain ⟨dt, cb, cbG⟩ := st
    simp only [List.map_cons, Mach.PeriodicRun] at h
    obtain ⟨G, hG, hR⟩ := h
    rw [List.map_cons, Mach.runFVM_cons _ cfg hu] at h'
    exact ih (fun st hst => hcb st (by simp [hst])) G _
      (Mach.step_agrees D g1 g2 ax cfg hu (fun hq => hg mq (hu.1 hq)) dt cb cbG (hcb (dt, cb, cbG) (by simp)) F G f hF hG) hR h'

/-- C107 (reproducibility): two runs of the same problem on different partitions agree bit for bit on every cell. -/
theorem C107_bitwise_two_decompositions {R' : Type} (D' : Decomp N1 N2 R') (g1' g2' : ℕ) (ax : P × P × P) (cfg : FVMConfig S K)
    (hok : ∃ m, reconMethod cfg.reconstructionInQ = .ok m) (hokp : ∃ m, reconMethod cfg.reconstructionInP = .ok m)
    (hg : ∀ m, reconMethod cfg.reconstructionInQ = .ok m → GhostsSuffice m g1 N1 ∧ GhostsSuffice m g2 N2)
    (hg' : ∀ m, reconMethod cfg.reconstructionInQ = .ok m → GhostsSuffice m g1' N1 ∧ GhostsSuffice m g2' N2)
    (steps : List (K × (Fin 2 → ∀ r, Callbacks S P (D.Loc g1 g2 r) K) × (Fin 2 → ∀ r, Callbacks S P (D'.Loc g1' g2' r) K)
      × (Fin 2 → Callbacks S P (ZMod N1 × ZMod N2) K)))
    (hcb : ∀ st ∈ steps, ∀ k r, D.CallbacksAgree g1 g2 r (st.2.1 k r) (st.2.2.2 k))
    (hcb' : ∀ st ∈ steps, ∀ k r, D'.CallbacksAgree g1' g2' r (st.2.2.1 k r) (st.2.2.2 k))
    (F F1 : ∀ r, Dist S P (D.Loc g1 g2 r) K) (G G1 : ∀ r, Dist S P (D'.Loc g1' g2' r) K)
    (f : Dist S P (ZMod N1 × ZMod N2) K) (hF : D.Holds g1 g2 F f) (hG : D'.Holds g1' g2' G f)
    (h : Mach.PeriodicRun D g1 g2 ax cfg (steps.map fun st => (st.1, st.2.1)) F F1)
    (h' : Mach.PeriodicRun D' g1' g2' ax cfg (steps.map fun st => (st.1, st.2.2.1)) G G1) :
    ∀ r s p l r' l', D.Interior g1 g2 r l → D'.Interior g1' g2' r' l' →
      D.toGlob g1 g2 r l = D'.toGlob g1' g2' r' l' → F1 r s p l = G1 r' s p l' := by
  obtain ⟨mq, hmq⟩ := hok
  obtain ⟨mp, hmp⟩ := hokp
  have hu : Mach.Uses cfg mq mp := ⟨fun _ => hmq, fun _ => hmp⟩
  have hrun : ∀ (l : List (K × (Fin 2 → Callbacks S P (ZMod N1 × ZMod N2) K))) (f : Dist S P (ZMod N1 × ZMod N2) K),
      ∃ f', Mach.runFVM ⟨ax.1, ax.2.1, ax.2.2, (1, 0), (0, 1)⟩ cfg l f = .ok f' := by
    intro l
    induction l with
    | nil => exact fun f => ⟨f, rfl⟩
    | cons st rest ih => exact fun f => by rw [Mach.runFVM_cons _ cfg hu]; exact ih _
  obtain ⟨f', hf'⟩ := hrun (steps.map fun st => (st.1, st.2.2.2)) f
  have a := C107_bitwise_decomposition_independence D g1 g2 ax cfg hg (steps.map fun st => (st.1, st.2.1, st.2.2.2))
    (by intro st hst; simp only [List.mem_map] at hst; obtain ⟨t, ht, rfl⟩ := hst; exact hcb t ht)
    F F1 f f' hF (by simpa [List.map_map, Function.comp_def] using h) (by simpa [List.map_map, Function.comp_def] using hf')
  have b := C107_bitwise_decomposition_independence D' g1' g2' ax cfg hg' (steps.map fun st => (st.1, st.2.2.1, st.2.2.2))
    (by intro st hst; simp only [List.mem_map] at hst; obtain ⟨t, ht, rfl⟩ := hst; exact hcb' t ht)
    G G1 f f' hG (by simpa [List.map_map, Function.comp_def] using h') (by simpa [List.map_map, Function.comp_def] using hf')
  intro r s p l r' l' hl hl' e
  rw [a r s p l hl, b r' s p l' hl', e]

variable {Q : Type} [AddCommGroup Q]

theorem mach_slopeValue_local (ax : Axes P Q) (cfg : FVMConfig S K) (mq mp : Recon) (cb : Callbacks S P Q K) (hs : LocalSource cb)
    (f g : Dist S P Q K) (q : Q)
    (h : ∀ a b : ℤ, |a| + |b| ≤ mq.radius → ∀ s p, f s p (q + a • ax.q1 + b • ax.q2) = g s p (q + a • ax.q1 + b • ax.q2)) (s : S) (p : P) :
    Mach.slopeValue ax cfg mq mp cb f s p q = Mach.slopeValue ax cfg mq mp cb g s p q := by
  have h0 : ∀ s p, f s p q = g s p q := fun s p => by simpa using h 0 0 (by simp) s p
  have e1 := Mach.fluxJump_congr mq ax.q1 ax.q1 (cb.Cq1 s p) (cb.Cq1 s p) (f s p) (g s p) q q rfl rfl
    (fun k hk => by simpa using h k 0 (by simpa using hk) s p)
  have e2 := Mach.fluxJump_congr mq ax.q2 ax.q2 (cb.Cq2 s p) (cb.Cq2 s p) (f s p) (g s p) q q rfl rfl
    (fun k hk => by simpa using h 0 k (by simpa using hk) s p)
  have e3 : (fun p => f s p q) = fun p => g s p q := by funext p; exact h0 s p
  simp only [Mach.slopeValue, Mach.dfdtQ, Mach.dfdtP, Mach.dFluxP, e1, e2, e3, hs f g q h0 s p]

/-- C107 (damage spreads slowly): whatever the arithmetic does, and whatever garbage (infinities, NaNs) a cell contains, in `n` steps
it reaches no cell further than `2 n` times the stencil radius (1 cell for piecewise-constant, 2 for minmod, 3 for ppm): if two
states agree in all cells that close to `q`, the runs from them agree in `q`, bit for bit. -/
theorem C107_damage_spreads_slowly (ax : Axes P Q) (cfg : FVMConfig S K) (m : Recon) (hm : reconMethod cfg.reconstructionInQ = .ok m)
    (steps : List (K × (Fin 2 → Callbacks S P Q K))) (hs : ∀ st ∈ steps, ∀ k, LocalSource (st.2 k))
    (f g f' g' : Dist S P Q K) (hf : Mach.runFVM ax cfg steps f = .ok f') (hg : Mach.runFVM ax cfg steps g = .ok g') (q : Q)
    (h : ∀ a b : ℤ, |a| + |b| ≤ steps.length * (2 * m.radius) → ∀ s p,
      f s p (q + a • ax.q1 + b • ax.q2) = g s p (q + a • ax.q1 + b • ax.q2)) (s : S) (p : P) :
    f' s p q = g' s p q := by
  suffices H : ∀ (steps : List (K × (Fin 2 → Callbacks S P Q K))), (∀ st ∈ steps, ∀ k, LocalSource (st.2 k)) →
      ∀ (f g f' g' : Dist S P Q K), Mach.runFVM ax cfg steps f = .ok f' → Mach.runFVM ax cfg steps g = .ok g' → ∀ q,
      (∀ a b : ℤ, |a| + |b| ≤ steps.length * (2 * m.radius) → ∀ s p,
        f s p (q + a • ax.q1 + b • ax.q2) = g s p (q + a • ax.q1 + b • ax.q2)) → ∀ s p, f' s p q = g' s p q from
    H steps hs f g f' g' hf hg q h s p
  clear h hf hg hs s p q f g f' g' steps
  intro steps
  induction steps with
  | nil =>
    intro _ f g f' g' hf hg q h s p
    simp only [Mach.runFVM, Except.ok.injEq] at hf hg
    subst hf hg
    simpa using h 0 0 (by simp) s p
  | cons st rest ih =>
    intro hs f g f' g' hf hg q h s p
    obtain ⟨mq, mp, hu⟩ := Mach.runFVM_uses hf (by simp)
    have hmq : cfg.solverMethodInQ = "FVM" → mq = m := fun hq => by
      have := hu.1 hq
      rw [hm, Except.ok.injEq] at this
      exact this.symm
    have hu' : Mach.Uses cfg m mp := ⟨fun hq => by rw [← hmq hq]; exact hu.1 hq, hu.2⟩
    rw [Mach.runFVM_cons ax cfg hu'] at hf hg
    refine ih (fun st hst => hs st (by simp [hst])) _ _ f' g' hf hg q ?_ s p
    intro a b hab s p
    have near : ∀ (x y : Dist S P Q K) (k : Fin 2) (c : Q),
        (∀ a b : ℤ, |a| + |b| ≤ m.radius → ∀ s p, x s p (c + a • ax.q1 + b • ax.q2) = y s p (c + a • ax.q1 + b • ax.q2)) → ∀ s p,
        Mach.slopeValue ax cfg m mp (st.2 k) x s p c = Mach.slopeValue ax cfg m mp (st.2 k) y s p c :=
      fun x y k c hxy s p => mach_slopeValue_local ax cfg m mp (st.2 k) (hs st (by simp) k) x y c hxy s p
    have shift : ∀ a b a' b' : ℤ, q + a • ax.q1 + b • ax.q2 + a' • ax.q1 + b' • ax.q2 = q + (a + a') • ax.q1 + (b + b') • ax.q2 := by
      intro a b a' b'; rw [add_smul, add_smul]; abel
    simp only [List.length_cons, Nat.cast_add, Nat.cast_one] at h
    have tri : ∀ a b a' b' : ℤ, |a + a'| + |b + b'| ≤ (|a| + |b|) + (|a'| + |b'|) := fun a b a' b' => by
      have := abs_add_le a a'; have := abs_add_le b b'; omega
    have hf0 : ∀ a b : ℤ, |a| + |b| ≤ rest.length * (2 * m.radius) + 2 * m.radius → ∀ s p,
        f s p (q + a • ax.q1 + b • ax.q2) = g s p (q + a • ax.q1 + b • ax.q2) := fun a b hab => h a b (by
      have : ((rest.length : ℤ) + 1) * (2 * m.radius) = rest.length * (2 * m.radius) + 2 * m.radius := by ring
      omega)
    simp only [Mach.stepValue]
    rw [hf0 a b (by have : (0 : ℤ) ≤ m.radius := Int.natCast_nonneg _; omega) s p]
    congr 2
    refine near _ _ 1 _ ?_ s p
    intro a' b' hab' s p
    beta_reduce
    rw [shift, hf0 (a + a') (b + b') (by have := tri a b a' b'; have : (0 : ℤ) ≤ m.radius := Int.natCast_nonneg _; omega) s p]
    congr 2
    refine near _ _ 0 _ ?_ s p
    intro a'' b'' hab'' s p
    rw [shift]
    exact hf0 _ _ (by have := tri a b a' b'; have := tri (a + a') (b + b') a'' b''; omega) s p

end lawless

end Bolt
