import Verif.Proofs.MachineBox

/-!
# C118: runs with walls leave the same file on any number of processes, bit for bit
-/

set_option linter.unusedSectionVars false

namespace Bolt

open Machine PyExpr

section cells
variable {S K : Type} [Machine K] [Zero K] [LinearOrder K] {N1 N2 : ℕ} {R : Type} [NeZero N1] [NeZero N2] (D : Decomp N1 N2 R) (g1 g2 : ℕ) {Np1 Np2 Np3 : ℕ}

/-- C118 (closed box, cell by cell): with periodic or mirrored directions (or one cell without ghost zones) the bulk of every process holds after any number of steps, bit for
bit, what the undivided box computes by the method of images with the same operations in the same order. -/
theorem C118_closed_box (o : BCOptions) (k1 k2 : AxisEnd) (h1 : AxisSetup k1 (o.name .left) (o.name .right) N1)
    (h2 : AxisSetup k2 (o.name .bottom) (o.name .top) N2) {fl : Wall → PIdx Np1 Np2 Np3 → PIdx Np1 Np2 Np3} (hfl : MomentumMirror o.pGrid fl)
    (hn : ∀ r, g1 ≤ D.n1 r ∧ g2 ≤ D.n2 r) (ax : PIdx Np1 Np2 Np3 × PIdx Np1 Np2 Np3 × PIdx Np1 Np2 Np3) (cfg : FVMConfig S K)
    (hg : ∀ m, reconMethod cfg.reconstructionInQ = .ok m → BoxGhosts m k1 g1 N1 ∧ BoxGhosts m k2 g2 N2)
    (steps : List (K × (Fin 2 → ∀ r, D.LocBCData g1 g2 r S Np1 Np2 Np3 K) × (Fin 2 → ∀ r, Callbacks S (PIdx Np1 Np2 Np3) (D.Loc g1 g2 r) K) ×
      (Fin 2 → Callbacks S (PIdx Np1 Np2 Np3) (ℤ × ℤ) K)))
    (hcb : ∀ st ∈ steps, ∀ j r, D.CallbacksAgreeBox g1 g2 r (st.2.2.1 j r) (st.2.2.2 j))
    (F F' : ∀ r, Dist S (PIdx Np1 Np2 Np3) (D.Loc g1 g2 r) K) (f f' : Dist S (PIdx Np1 Np2 Np3) (ZMod N1 × ZMod N2) K)
    (hF : D.Holds g1 g2 F f) (h : Mach.BcRun D g1 g2 o ax cfg (steps.map fun st => (st.1, st.2.1, st.2.2.1)) F F')
    (h' : Mach.boxRun k1 k2 fl ax cfg (steps.map fun st => (st.1, st.2.2.2)) f = .ok f') : D.Holds g1 g2 F' f' := by
  induction steps generalizing F f with
  | nil =>
    simp only [List.map_nil, Mach.BcRun, Mach.boxRun, Except.ok.injEq] at h h'
    subst h h'; exact hF
  | cons st rest ih =>
    obtain ⟨dt, dat, cb, cbG⟩ := st
    simp only [List.map_cons, Mach.BcRun] at h
    obtain ⟨G, hG, hR⟩ := h
    simp only [List.map_cons, Mach.boxRun, bind, Except.bind] at h'
    cases h0 : Mach.extStep (fun _ => boxExt k1 k2 (fl .left) (fl .bottom)) ax cfg dt cbG f with
    | error e => simp [h0] at h'
    | ok g =>
      simp only [h0] at h'
      obtain ⟨mq, mp, hu⟩ := Mach.extStep_uses h0
      rw [Mach.extStep_eq _ ax cfg hu, Except.ok.injEq] at h0
      subst h0
      refine ih (fun st hst => hcb st (by simp [hst])) G _ ?_ hR h'
      have hx := fun j (F F0 : ∀ r, Dist S (PIdx Np1 Np2 Np3) (D.Loc g1 g2 r) K) (h : D.Synced g1 g2 o (dat j) F F0) =>
        D.sync_box g1 g2 o k1 k2 h1 h2 hfl hn (dat j) F F0 h
      exact Mach.bcStep_ext D g1 g2 o ax cfg hu dt dat cb cbG _ (fun _ f s p i => Decomp.boxExt_boxCell _ _ _ _ f s p i)
        (fun j F F0 h r s p l _ => hx j F F0 h r s p l)
        (fun j F F0 h r s p l hl => Mach.slope_box D g1 g2 ax cfg mq mp k1 k2 _ _ (fun hq => hg mq (hu.1 hq)) r _ _
          (hcb (dt, dat, cb, cbG) (by simp) j r) _ _ (hx j F F0 h r) s p l hl) F G f hF hG

/-- C118 (open walls, cell by cell): the same for first-order runs with inflow, mirrors and mirrors with inflow at the walls — whatever the ghost zones held before, if the
arithmetic has `0 · u = 0` and compares exactly. -/
theorem C118_open_box (hK : ExactComparisons K) (hzero : ∀ u : K, (0 : K) ⊠ u = 0) (o : BCOptions) (h1 : OpenSetup (o.name .left) (o.name .right) N1)
    (h2 : OpenSetup (o.name .bottom) (o.name .top) N2) {fl : Wall → PIdx Np1 Np2 Np3 → PIdx Np1 Np2 Np3} (hfl : MomentumMirror o.pGrid fl)
    (hq : o.solverMethodInQ = "FVM") (hg1 : OpenGhosts (o.name .left) g1 N1) (hg2 : OpenGhosts (o.name .bottom) g2 N2)
    (ax : PIdx Np1 Np2 Np3 × PIdx Np1 Np2 Np3 × PIdx Np1 Np2 Np3) (cfg : FVMConfig S K) (hpc : cfg.reconstructionInQ = "piecewise-constant")
    (steps : List (K × (Fin 2 → ∀ r, D.LocBCData g1 g2 r S Np1 Np2 Np3 K) × (Fin 2 → ∀ r, Callbacks S (PIdx Np1 Np2 Np3) (D.Loc g1 g2 r) K) ×
      (Fin 2 → Wall → S → PIdx Np1 Np2 Np3 → ℤ × ℤ → K → K) × (Fin 2 → Callbacks S (PIdx Np1 Np2 Np3) (ℤ × ℤ) K)))
    (hcb : ∀ st ∈ steps, ∀ j r, D.CallbacksAgreeBox g1 g2 r (st.2.2.1 j r) (st.2.2.2.2 j))
    (hw : ∀ st ∈ steps, ∀ j r, D.WallsAgree g1 g2 o r (st.2.1 j r) (st.2.2.1 j r) (st.2.2.2.1 j))
    (F F' : ∀ r, Dist S (PIdx Np1 Np2 Np3) (D.Loc g1 g2 r) K) (f f' : Dist S (PIdx Np1 Np2 Np3) (ZMod N1 × ZMod N2) K)
    (hF : D.Holds g1 g2 F f) (h : Mach.BcRun D g1 g2 o ax cfg (steps.map fun st => (st.1, st.2.1, st.2.2.1)) F F')
    (h' : Mach.openRun o.name fl ax cfg (steps.map fun st => (st.1, st.2.2.2.1, st.2.2.2.2)) f = .ok f') : D.Holds g1 g2 F' f' := by
  induction steps generalizing F f with
  | nil =>
    simp only [List.map_nil, Mach.BcRun, Mach.openRun, Except.ok.injEq] at h h'
    subst h h'; exact hF
  | cons st rest ih =>
    obtain ⟨dt, dat, cb, inc, cbG⟩ := st
    simp only [List.map_cons, Mach.BcRun] at h
    obtain ⟨G, hG, hR⟩ := h
    simp only [List.map_cons, Mach.openRun, bind, Except.bind] at h'
    cases h0 : Mach.extStep (fun j => openExt o.name fl (inc j)) ax cfg dt cbG f with
    | error e => simp [h0] at h'
    | ok g =>
      simp only [h0] at h'
      obtain ⟨mq', mp, hu'⟩ := Mach.extStep_uses h0
      have hu : Mach.Uses cfg .piecewiseConstant mp := ⟨fun _ => by rw [hpc]; rfl, hu'.2⟩
      rw [Mach.extStep_eq _ ax cfg hu, Except.ok.injEq] at h0
      subst h0
      refine ih (fun st hst => hcb st (by simp [hst])) (fun st hst => hw st (by simp [hst])) G _ ?_ hR h'
      have hx := fun j (F F0 : ∀ r, Dist S (PIdx Np1 Np2 Np3) (D.Loc g1 g2 r) K) (h : D.Synced g1 g2 o (dat j) F F0) r =>
        D.sync_open g1 g2 o h1 h2 hfl hq hg1 hg2 (dat j) F F0 h (inc j) r (hw (dt, dat, cb, inc, cbG) (by simp) j r)
      exact Mach.bcStep_ext D g1 g2 o ax cfg hu dt dat cb cbG _ (fun _ f s p i => Decomp.openExt_boxCell _ _ _ f s p i)
        (fun j F F0 h r s p l hl => (hx j F F0 h r).inside s p l hl)
        (fun j F F0 h r s p l hl => Mach.slope_open D g1 g2 hK hzero ax cfg mp r _ _ (hcb (dt, dat, cb, inc, cbG) (by simp) j r) _ _ (hx j F F0 h r) s p l hl)
        F G f hF hG

end cells

/-- C118 (exact arithmetic): the runs of the undivided box in machine arithmetic are, in exact arithmetic, those of the claims on conservation and stability with walls. -/
theorem C118_exact {S P K : Type} [Field K] [LinearOrder K] [IsStrictOrderedRing K] [AddCommGroup P] {N1 N2 : ℕ} (k1 k2 : AxisEnd) (name : Wall → String)
    (fl : Wall → P → P) (ax : P × P × P) (cfg : FVMConfig S K) (f : Dist S P (ZMod N1 × ZMod N2) K) :
    (∀ steps, @Mach.boxRun S P K (exactMachine K) _ N1 N2 k1 k2 fl ax cfg steps f = boxRun (boxExt k1 k2 (fl .left) (fl .bottom)) ax cfg steps f) ∧
    ∀ steps, @Mach.openRun S P K (exactMachine K) _ N1 N2 _ name fl ax cfg steps f = openRun name fl ax cfg steps f := by
  let M : Machine K := exactMachine K
  have e2 : ∀ dt : K, dt ⊘ lit 2 = dt / 2 := by
    intro dt
    change dt / ((2 : ℚ) : K) = dt / 2
    norm_num
  constructor
  · intro steps
    induction steps generalizing f with
    | nil => rfl
    | cons st rest ih =>
      obtain ⟨dt, cb⟩ := st
      have : Mach.extStep (fun _ => boxExt k1 k2 (fl .left) (fl .bottom)) ax cfg dt cb f = boxStep (boxExt k1 k2 (fl .left) (fl .bottom)) ax cfg dt cb f := by
        unfold Mach.extStep boxStep
        simp only [mach_exact_dfdtFVM rfl, e2]
        rfl
      simp only [Mach.boxRun, boxRun, this, bind, Except.bind]
      cases boxStep (boxExt k1 k2 (fl .left) (fl .bottom)) ax cfg dt cb f with
      | error e => rfl
      | ok g => exact ih g
  · intro steps
    induction steps generalizing f with
    | nil => rfl
    | cons st rest ih =>
      obtain ⟨dt, inc, cb⟩ := st
      have : Mach.extStep (fun j => openExt name fl (inc j)) ax cfg dt cb f = openStep name fl ax cfg dt inc cb f := by
        unfold Mach.extStep openStep openEuler
        simp only [mach_exact_dfdtFVM rfl, e2, bind, Except.bind, pure, Except.pure]
        cases dfdtFVM ⟨ax.1, ax.2.1, ax.2.2, (1, 0), (0, 1)⟩ cfg (cb 0) (openExt name fl (inc 0) f) with
        | error e => rfl
        | ok k0 => rfl
      simp only [Mach.openRun, openRun, this, bind, Except.bind]
      cases openStep name fl ax cfg dt inc cb f with
      | error e => rfl
      | ok g => exact ih g

section files
variable {K : Type} [Machine K] [Zero K] [LinearOrder K] {N1 N2 : ℕ} [NeZero N1] [NeZero N2] {Np1 Np2 Np3 Ns : ℕ} [NeZero Np1] [NeZero Np2] [NeZero Np3] [NeZero Ns]

/-- C118 (closed box, file): the dump file of a run on any number of processes holds, bit for bit, the numbers the undivided box computes. -/
theorem C118_closed_file {R : Type} (D : Decomp N1 N2 R) (g1 g2 : ℕ) (hK : ExactComparisons K) (hone : ∀ u : K, lit 1 ⊠ u = u)
    (hz : D.SizesOk (D.sizes Np1 Np2 Np3 Ns g1 g2) g1 g2) (o : BCOptions) (cfg : FVMConfig (Fin Ns) K)
    (hon : cfg.solverMethodInQ = "FVM" ∨ (cfg.solverMethodInP = "FVM" ∧ cfg.fieldsEnabled = true))
    (k1 k2 : AxisEnd) (h1 : AxisSetup k1 (o.name .left) (o.name .right) N1) (h2 : AxisSetup k2 (o.name .bottom) (o.name .top) N2)
    {fl : Wall → PIdx Np1 Np2 Np3 → PIdx Np1 Np2 Np3} (hfl : MomentumMirror o.pGrid fl) (hn : ∀ r, g1 ≤ D.n1 r ∧ g2 ≤ D.n2 r)
    (hg : ∀ m, reconMethod cfg.reconstructionInQ = .ok m → BoxGhosts m k1 g1 N1 ∧ BoxGhosts m k2 g2 N2)
    (glob : List (K × (Fin 2 → Callbacks (Fin Ns) (AslPIdx Np1 Np2 Np3) (ℤ × ℤ) K))) (f f' : Dist (Fin Ns) (AslPIdx Np1 Np2 Np3) (ZMod N1 × ZMod N2) K)
    (h' : Mach.boxRun k1 k2 fl ((1, 0, 0), (0, 1, 0), (0, 0, 1)) cfg glob f = .ok f') (file : Vec K)
    (hw : D.Writes g1 g2 Np1 Np2 Np3 Ns o cfg glob f file) : FileHolds file f' := by
  obtain ⟨steps, F, F', rfl, hin, hs, hf, hrun, hd⟩ := hw
  obtain ⟨sF', hR⟩ := C117_run hK hone hz o cfg hon (steps.map fun st => (st.1.1, (st.2.b, st.2.x), st.2.dat, st.2.cb))
    (by intro st hst; simp only [List.mem_map] at hst; obtain ⟨t, ht, rfl⟩ := hst; exact (hin t ht).1) F F' hs (by rw [List.map_map]; exact hrun)
  refine dumped_cells hz sF' ?_ hd
  exact C118_closed_box D g1 g2 o k1 k2 h1 h2 hfl hn _ cfg hg (steps.map fun st => (st.1.1, st.2.dat, st.2.cb, st.1.2))
    (by intro st hst; simp only [List.mem_map] at hst; obtain ⟨t, ht, rfl⟩ := hst; exact (hin t ht).2) _ _ f f' hf
    (by rw [List.map_map] at hR ⊢; exact hR) (by rw [List.map_map]; exact h')

/-- C118 (open walls, file). -/
theorem C118_open_file {R : Type} (D : Decomp N1 N2 R) (g1 g2 : ℕ) (hK : ExactComparisons K) (hone : ∀ u : K, lit 1 ⊠ u = u) (hzero : ∀ u : K, (0 : K) ⊠ u = 0)
    (hz : D.SizesOk (D.sizes Np1 Np2 Np3 Ns g1 g2) g1 g2) (o : BCOptions) (cfg : FVMConfig (Fin Ns) K)
    (hon : cfg.solverMethodInQ = "FVM" ∨ (cfg.solverMethodInP = "FVM" ∧ cfg.fieldsEnabled = true)) (h1 : OpenSetup (o.name .left) (o.name .right) N1)
    (h2 : OpenSetup (o.name .bottom) (o.name .top) N2) {fl : Wall → PIdx Np1 Np2 Np3 → PIdx Np1 Np2 Np3} (hfl : MomentumMirror o.pGrid fl)
    (hq : o.solverMethodInQ = "FVM") (hg1 : OpenGhosts (o.name .left) g1 N1) (hg2 : OpenGhosts (o.name .bottom) g2 N2)
    (hpc : cfg.reconstructionInQ = "piecewise-constant")
    (glob : List (K × (Fin 2 → Wall → Fin Ns → AslPIdx Np1 Np2 Np3 → ℤ × ℤ → K → K) × (Fin 2 → Callbacks (Fin Ns) (AslPIdx Np1 Np2 Np3) (ℤ × ℤ) K)))
    (f f' : Dist (Fin Ns) (AslPIdx Np1 Np2 Np3) (ZMod N1 × ZMod N2) K)
    (h' : Mach.openRun o.name fl ((1, 0, 0), (0, 1, 0), (0, 0, 1)) cfg glob f = .ok f') (file : Vec K)
    (hw : D.OpenWrites g1 g2 Np1 Np2 Np3 Ns o cfg glob f file) : FileHolds file f' := by
  obtain ⟨steps, F, F', rfl, hin, hs, hf, hrun, hd⟩ := hw
  obtain ⟨sF', hR⟩ := C117_run hK hone hz o cfg hon (steps.map fun st => (st.1.1, (st.2.b, st.2.x), st.2.dat, st.2.cb))
    (by intro st hst; simp only [List.mem_map] at hst; obtain ⟨t, ht, rfl⟩ := hst; exact (hin t ht).1) F F' hs (by rw [List.map_map]; exact hrun)
  refine dumped_cells hz sF' ?_ hd
  exact C118_open_box D g1 g2 hK hzero o h1 h2 hfl hq hg1 hg2 _ cfg hpc (steps.map fun st => (st.1.1, st.2.dat, st.2.cb, st.1.2.1, st.1.2.2))
    (by intro st hst; simp only [List.mem_map] at hst; obtain ⟨t, ht, rfl⟩ := hst; exact (hin t ht).2.1)
    (by intro st hst; simp only [List.mem_map] at hst; obtain ⟨t, ht, rfl⟩ := hst; exact (hin t ht).2.2) _ _ f f' hf
    (by rw [List.map_map] at hR ⊢; exact hR) (by rw [List.map_map]; exact h')

theorem fileHolds_unique {f : Dist (Fin Ns) (AslPIdx Np1 Np2 Np3) (ZMod N1 × ZMod N2) K} {file file' : Vec K} (h : FileHolds file f) (h' : FileHolds file' f) :
    file.len = file'.len ∧ ∀ i < file.len, file.data i = file'.data i := by
  refine ⟨h.1.trans h'.1.symm, fun i hi => ?_⟩
  have pos : ∀ (n : ℕ) [NeZero n], 0 < n := fun n _ => Nat.pos_of_ne_zero (NeZero.ne n)
  rw [h.1] at hi
  have hj : i / (Np1 * Np2 * Np3) < Ns * (N1 * N2) := Nat.div_lt_of_lt_mul (by rw [← mul_assoc]; exact hi)
  have hk : i / (Np1 * Np2 * Np3) / Ns < N1 * N2 := Nat.div_lt_of_lt_mul hj
  have hp : 0 < Np1 * Np2 * Np3 := Nat.mul_pos (Nat.mul_pos (pos Np1) (pos Np2)) (pos Np3)
  have hr := Nat.mod_lt i hp
  have hr2 : i % (Np1 * Np2 * Np3) / Np1 < Np2 * Np3 := Nat.div_lt_of_lt_mul (by rw [← mul_assoc]; exact hr)
  have key : i = (i % (Np1 * Np2 * Np3) % Np1 + Np1 * (i % (Np1 * Np2 * Np3) / Np1 % Np2 + Np2 * (i % (Np1 * Np2 * Np3) / Np1 / Np2))) +
      Np1 * Np2 * Np3 * (i / (Np1 * Np2 * Np3) % Ns + Ns * (i / (Np1 * Np2 * Np3) / Ns % N1 + N1 * (i / (Np1 * Np2 * Np3) / Ns / N1))) := by
    rw [Nat.mod_add_div, Nat.mod_add_div, Nat.mod_add_div, Nat.mod_add_div, Nat.mod_add_div]
  have a := h.2 _ _ _ _ _ _ (Nat.mod_lt (i / (Np1 * Np2 * Np3)) (pos Ns)) (Nat.mod_lt (i % (Np1 * Np2 * Np3)) (pos Np1))
    (Nat.mod_lt (i % (Np1 * Np2 * Np3) / Np1) (pos Np2)) (Nat.div_lt_of_lt_mul hr2) (Nat.mod_lt (i / (Np1 * Np2 * Np3) / Ns) (pos N1)) (Nat.div_lt_of_lt_mul hk)
  have a' := h'.2 _ _ _ _ _ _ (Nat.mod_lt (i / (Np1 * Np2 * Np3)) (pos Ns)) (Nat.mod_lt (i % (Np1 * Np2 * Np3)) (pos Np1))
    (Nat.mod_lt (i % (Np1 * Np2 * Np3) / Np1) (pos Np2)) (Nat.div_lt_of_lt_mul hr2) (Nat.mod_lt (i / (Np1 * Np2 * Np3) / Ns) (pos N1)) (Nat.div_lt_of_lt_mul hk)
  rw [← key] at a a'
  exact a.trans a'.symm

/-- The undivided run raises only for reconstruction methods that are not implemented. -/
theorem C118_box_succeeds (k1 k2 : AxisEnd) (name : Wall → String) (fl : Wall → PIdx Np1 Np2 Np3 → PIdx Np1 Np2 Np3)
    (ax : PIdx Np1 Np2 Np3 × PIdx Np1 Np2 Np3 × PIdx Np1 Np2 Np3) (cfg : FVMConfig (Fin Ns) K) (hmq : ∃ m, reconMethod cfg.reconstructionInQ = .ok m)
    (hmp : ∃ m, reconMethod cfg.reconstructionInP = .ok m) (f : Dist (Fin Ns) (PIdx Np1 Np2 Np3) (ZMod N1 × ZMod N2) K) :
    (∀ steps, ∃ f', Mach.boxRun k1 k2 fl ax cfg steps f = .ok f') ∧ ∀ steps, ∃ f', Mach.openRun name fl ax cfg steps f = .ok f' := by
  obtain ⟨mq, hmq⟩ := hmq
  obtain ⟨mp, hmp⟩ := hmp
  have hu : Mach.Uses cfg mq mp := ⟨fun _ => hmq, fun _ => hmp⟩
  constructor
  · intro steps
    induction steps generalizing f with
    | nil => exact ⟨f, rfl⟩
    | cons st rest ih =>
      obtain ⟨dt, cb⟩ := st
      simp only [Mach.boxRun, Mach.extStep_eq _ ax cfg hu, bind, Except.bind]
      exact ih _
  · intro steps
    induction steps generalizing f with
    | nil => exact ⟨f, rfl⟩
    | cons st rest ih =>
      obtain ⟨dt, inc, cb⟩ := st
      simp only [Mach.openRun, Mach.extStep_eq _ ax cfg hu, bind, Except.bind]
      exact ih _

/-- C118 (closed box): two runs from the same data, with the same functions, on two different decompositions write the same file, bit for bit. -/
theorem C118_closed_same_file {R R' : Type} (D : Decomp N1 N2 R) (D' : Decomp N1 N2 R') (g1 g2 : ℕ) (hK : ExactComparisons K) (hone : ∀ u : K, lit 1 ⊠ u = u)
    (hz : D.SizesOk (D.sizes Np1 Np2 Np3 Ns g1 g2) g1 g2) (hz' : D'.SizesOk (D'.sizes Np1 Np2 Np3 Ns g1 g2) g1 g2) (o : BCOptions) (cfg : FVMConfig (Fin Ns) K)
    (hon : cfg.solverMethodInQ = "FVM" ∨ (cfg.solverMethodInP = "FVM" ∧ cfg.fieldsEnabled = true))
    (hmq : ∃ m, reconMethod cfg.reconstructionInQ = .ok m) (hmp : ∃ m, reconMethod cfg.reconstructionInP = .ok m)
    (k1 k2 : AxisEnd) (h1 : AxisSetup k1 (o.name .left) (o.name .right) N1) (h2 : AxisSetup k2 (o.name .bottom) (o.name .top) N2)
    {fl : Wall → PIdx Np1 Np2 Np3 → PIdx Np1 Np2 Np3} (hfl : MomentumMirror o.pGrid fl) (hn : ∀ r, g1 ≤ D.n1 r ∧ g2 ≤ D.n2 r)
    (hn' : ∀ r, g1 ≤ D'.n1 r ∧ g2 ≤ D'.n2 r)
    (hg : ∀ m, reconMethod cfg.reconstructionInQ = .ok m → BoxGhosts m k1 g1 N1 ∧ BoxGhosts m k2 g2 N2)
    (glob : List (K × (Fin 2 → Callbacks (Fin Ns) (AslPIdx Np1 Np2 Np3) (ℤ × ℤ) K))) (f : Dist (Fin Ns) (AslPIdx Np1 Np2 Np3) (ZMod N1 × ZMod N2) K)
    (file file' : Vec K) (hw : D.Writes g1 g2 Np1 Np2 Np3 Ns o cfg glob f file) (hw' : D'.Writes g1 g2 Np1 Np2 Np3 Ns o cfg glob f file') :
    file.len = file'.len ∧ ∀ i < file.len, file.data i = file'.data i := by
  obtain ⟨f', h'⟩ := (C118_box_succeeds k1 k2 o.name fl ((1, 0, 0), (0, 1, 0), (0, 0, 1)) cfg hmq hmp f).1 glob
  exact fileHolds_unique (C118_closed_file D g1 g2 hK hone hz o cfg hon k1 k2 h1 h2 hfl hn hg glob f f' h' file hw)
    (C118_closed_file D' g1 g2 hK hone hz' o cfg hon k1 k2 h1 h2 hfl hn' hg glob f f' h' file' hw')

/-- C118 (open walls): the same for first-order runs with inflow. -/
theorem C118_open_same_file {R R' : Type} (D : Decomp N1 N2 R) (D' : Decomp N1 N2 R') (g1 g2 : ℕ) (hK : ExactComparisons K) (hone : ∀ u : K, lit 1 ⊠ u = u)
    (hzero : ∀ u : K, (0 : K) ⊠ u = 0)
    (hz : D.SizesOk (D.sizes Np1 Np2 Np3 Ns g1 g2) g1 g2) (hz' : D'.SizesOk (D'.sizes Np1 Np2 Np3 Ns g1 g2) g1 g2) (o : BCOptions) (cfg : FVMConfig (Fin Ns) K)
    (hon : cfg.solverMethodInQ = "FVM" ∨ (cfg.solverMethodInP = "FVM" ∧ cfg.fieldsEnabled = true)) (hmp : ∃ m, reconMethod cfg.reconstructionInP = .ok m)
    (h1 : OpenSetup (o.name .left) (o.name .right) N1)
    (h2 : OpenSetup (o.name .bottom) (o.name .top) N2) {fl : Wall → PIdx Np1 Np2 Np3 → PIdx Np1 Np2 Np3} (hfl : MomentumMirror o.pGrid fl)
    (hq : o.solverMethodInQ = "FVM") (hg1 : OpenGhosts (o.name .left) g1 N1) (hg2 : OpenGhosts (o.name .bottom) g2 N2)
    (hpc : cfg.reconstructionInQ = "piecewise-constant")
    (glob : List (K × (Fin 2 → Wall → Fin Ns → AslPIdx Np1 Np2 Np3 → ℤ × ℤ → K → K) × (Fin 2 → Callbacks (Fin Ns) (AslPIdx Np1 Np2 Np3) (ℤ × ℤ) K)))
    (f : Dist (Fin Ns) (AslPIdx Np1 Np2 Np3) (ZMod N1 × ZMod N2) K)
    (file file' : Vec K) (hw : D.OpenWrites g1 g2 Np1 Np2 Np3 Ns o cfg glob f file) (hw' : D'.OpenWrites g1 g2 Np1 Np2 Np3 Ns o cfg glob f file') :
    file.len = file'.len ∧ ∀ i < file.len, file.data i = file'.data i := by
  obtain ⟨f', h'⟩ := (C118_box_succeeds .wrap .wrap o.name fl ((1, 0, 0), (0, 1, 0), (0, 0, 1)) cfg ⟨.piecewiseConstant, by rw [hpc]; rfl⟩ hmp f).2 glob
  exact fileHolds_unique (C118_open_file D g1 g2 hK hone hzero hz o cfg hon h1 h2 hfl hq hg1 hg2 hpc glob f f' h' file hw)
    (C118_open_file D' g1 g2 hK hone hzero hz' o cfg hon h1 h2 hfl hq hg1 hg2 hpc glob f f' h' file' hw')

end files

end Bolt
