import Verif.Proofs.OpenBox
import Verif.Props.Positivity
import Verif.Props.BoxExample

/-!
# C95: boxes with open walls
-/

set_option linter.unusedSectionVars false

namespace Bolt

namespace Decomp

variable {N1 N2 : ℕ} {R : Type} [NeZero N1] [NeZero N2] (D : Decomp N1 N2 R) (g1 g2 : ℕ) {S K : Type} {Np1 Np2 Np3 : ℕ}
  [Field K] [LinearOrder K] [IsStrictOrderedRing K]

theorem openStep_agrees (o : BCOptions) (h1 : OpenSetup (o.name .left) (o.name .right) N1) (h2 : OpenSetup (o.name .bottom) (o.name .top) N2)
    {fl : Wall → PIdx Np1 Np2 Np3 → PIdx Np1 Np2 Np3} (hfl : MomentumMirror o.pGrid fl) (hq : o.solverMethodInQ = "FVM")
    (hg1 : OpenGhosts (o.name .left) g1 N1) (hg2 : OpenGhosts (o.name .bottom) g2 N2)
    (ax : PIdx Np1 Np2 Np3 × PIdx Np1 Np2 Np3 × PIdx Np1 Np2 Np3) (cfg : FVMConfig S K)
    (hpc : cfg.reconstructionInQ = "piecewise-constant") (dt : K)
    (dat : Fin 2 → ∀ r, D.LocBCData g1 g2 r S Np1 Np2 Np3 K) (cb : Fin 2 → ∀ r, Callbacks S (PIdx Np1 Np2 Np3) (D.Loc g1 g2 r) K)
    (inc : Fin 2 → Wall → S → PIdx Np1 Np2 Np3 → ℤ × ℤ → K → K) (cbG : Fin 2 → Callbacks S (PIdx Np1 Np2 Np3) (ℤ × ℤ) K)
    (hcb : ∀ j r, D.CallbacksAgreeBox g1 g2 r (cb j r) (cbG j)) (hw : ∀ j r, D.WallsAgree g1 g2 o r (dat j r) (cb j r) (inc j))
    (F F' : ∀ r, Dist S (PIdx Np1 Np2 Np3) (D.Loc g1 g2 r) K) (f f' : Dist S (PIdx Np1 Np2 Np3) (ZMod N1 × ZMod N2) K)
    (hF : D.Holds g1 g2 F f) (h : D.BcStep g1 g2 o ax cfg dt dat cb F F')
    (h' : openStep o.name fl ax cfg dt inc cbG f = .ok f') : D.Holds g1 g2 F' f' := by
  obtain ⟨F0, s0, Fh, s1, a, b, c, d, rfl⟩ := h
  obtain ⟨fh, a', b'⟩ := openStep_ok h'
  obtain ⟨l0, a'', rfl⟩ := openEuler_ok a'
  obtain ⟨l1, b'', rfl⟩ := openEuler_ok b'
  rw [holds_iff] at hF
  subst hF
  have i0 := fun r => D.sync_open g1 g2 o h1 h2 hfl hq hg1 hg2 _ F F0 a (inc 0) r (hw 0 r)
  have e0 : ∀ r s p l, D.Interior g1 g2 r l → s0 r s p l = l0 s p (D.signed g1 g2 r l) := fun r =>
    slope_open D g1 g2 ax cfg hpc r _ _ (hcb 0 r) _ _ (i0 r) _ _ (b r) a''
  have hh : D.assemble g1 g2 (fun r s p l => F0 r s p l + s0 r s p l * (dt / 2))
      = fun s p i => D.assemble g1 g2 F s p i + l0 s p (boxCell i) * (dt / 2) := by
    rw [← holds_iff]
    intro r s p l hl
    beta_reduce
    rw [(i0 r).inside s p l hl, e0 r s p l hl, signed_interior D g1 g2 r l hl, openExt_boxCell]
  have i1 := fun r => D.sync_open g1 g2 o h1 h2 hfl hq hg1 hg2 _ _ Fh c (inc 1) r (hw 1 r)
  rw [hh] at i1
  have e1 : ∀ r s p l, D.Interior g1 g2 r l → s1 r s p l = l1 s p (D.signed g1 g2 r l) := fun r =>
    slope_open D g1 g2 ax cfg hpc r _ _ (hcb 1 r) _ _ (i1 r) _ _ (d r) b''
  intro r s p l hl
  beta_reduce
  rw [(i0 r).inside s p l hl, e1 r s p l hl, signed_interior D g1 g2 r l hl, openExt_boxCell]

/-- C95: in a box each direction of which is periodic, one cell without ghost zones, or ends at two walls each of which is `dirichlet`, `mirror`
or `mirror+dirichlet`, a first-order run of any number of steps on any decomposition computes in the bulk of every process exactly the run of
the undecomposed box — whatever the ghost zones held before. -/
theorem C95_decomposition_independence (o : BCOptions) (h1 : OpenSetup (o.name .left) (o.name .right) N1)
    (h2 : OpenSetup (o.name .bottom) (o.name .top) N2)
    {fl : Wall → PIdx Np1 Np2 Np3 → PIdx Np1 Np2 Np3} (hfl : MomentumMirror o.pGrid fl) (hq : o.solverMethodInQ = "FVM")
    (hg1 : OpenGhosts (o.name .left) g1 N1) (hg2 : OpenGhosts (o.name .bottom) g2 N2)
    (ax : PIdx Np1 Np2 Np3 × PIdx Np1 Np2 Np3 × PIdx Np1 Np2 Np3) (cfg : FVMConfig S K)
    (hpc : cfg.reconstructionInQ = "piecewise-constant")
    (steps : List (K × (Fin 2 → ∀ r, D.LocBCData g1 g2 r S Np1 Np2 Np3 K) ×
      (Fin 2 → ∀ r, Callbacks S (PIdx Np1 Np2 Np3) (D.Loc g1 g2 r) K) ×
      (Fin 2 → Wall → S → PIdx Np1 Np2 Np3 → ℤ × ℤ → K → K) × (Fin 2 → Callbacks S (PIdx Np1 Np2 Np3) (ℤ × ℤ) K)))
    (hcb : ∀ st ∈ steps, ∀ j r, D.CallbacksAgreeBox g1 g2 r (st.2.2.1 j r) (st.2.2.2.2 j))
    (hw : ∀ st ∈ steps, ∀ j r, D.WallsAgree g1 g2 o r (st.2.1 j r) (st.2.2.1 j r) (st.2.2.2.1 j))
    (F F' : ∀ r, Dist S (PIdx Np1 Np2 Np3) (D.Loc g1 g2 r) K) (f f' : Dist S (PIdx Np1 Np2 Np3) (ZMod N1 × ZMod N2) K)
    (hF : D.Holds g1 g2 F f) (h : D.BcRun g1 g2 o ax cfg (steps.map fun st => (st.1, st.2.1, st.2.2.1)) F F')
    (h' : openRun o.name fl ax cfg (steps.map fun st => (st.1, st.2.2.2.1, st.2.2.2.2)) f = .ok f') :
    D.Holds g1 g2 F' f' := by
  induction steps generalizing F f with
  | nil =>
    simp only [List.map_nil, BcRun, openRun, Except.ok.injEq] at h h'
    subst h h'; exact hF
  | cons st rest ih =>
    obtain ⟨dt, dat, cb, inc, cbG⟩ := st
    simp only [List.map_cons, BcRun] at h
    obtain ⟨G, hG, hR⟩ := h
    simp only [List.map_cons, openRun, bind, Except.bind] at h'
    cases h0 : openStep o.name fl ax cfg dt inc cbG f with
    | error e => simp [h0] at h'
    | ok g =>
      simp only [h0] at h'
      exact ih (fun st hst => hcb st (by simp [hst])) (fun st hst => hw st (by simp [hst])) G g
        (D.openStep_agrees g1 g2 o h1 h2 hfl hq hg1 hg2 ax cfg hpc dt dat cb inc cbG (hcb (dt, dat, cb, inc, cbG) (by simp))
          (hw (dt, dat, cb, inc, cbG) (by simp)) F G f g hF hG h0) hR h'

section
variable {P : Type} [AddCommGroup P]

theorem openEuler_succeeds (name : Wall → String) (fl : Wall → P → P) (ax : P × P × P) (cfg : FVMConfig S K)
    (hq : cfg.reconstructionInQ = "piecewise-constant" ∨ cfg.reconstructionInQ = "minmod" ∨ cfg.reconstructionInQ = "ppm")
    (hp : cfg.reconstructionInP = "piecewise-constant" ∨ cfg.reconstructionInP = "minmod" ∨ cfg.reconstructionInP = "ppm")
    (dt : K) (inc : Wall → S → P → ℤ × ℤ → K → K) (cb : Callbacks S P (ℤ × ℤ) K) (y f : Dist S P (ZMod N1 × ZMod N2) K) :
    ∃ f', openEuler name fl ax cfg dt inc cb y f = .ok f' := by
  obtain ⟨k, hk⟩ := (C09_slope_ok_iff ⟨ax.1, ax.2.1, ax.2.2, (1, 0), (0, 1)⟩ cfg cb (openExt name fl inc y)).mpr ⟨fun _ => hq, fun _ => hp⟩
  exact ⟨fun s p i => f s p i + k s p (boxCell i) * dt, by simp only [openEuler, bind, Except.bind, pure, Except.pure, hk]⟩

theorem openStep_succeeds (name : Wall → String) (fl : Wall → P → P) (ax : P × P × P) (cfg : FVMConfig S K)
    (hq : cfg.reconstructionInQ = "piecewise-constant" ∨ cfg.reconstructionInQ = "minmod" ∨ cfg.reconstructionInQ = "ppm")
    (hp : cfg.reconstructionInP = "piecewise-constant" ∨ cfg.reconstructionInP = "minmod" ∨ cfg.reconstructionInP = "ppm")
    (dt : K) (inc : Fin 2 → Wall → S → P → ℤ × ℤ → K → K) (cb : Fin 2 → Callbacks S P (ℤ × ℤ) K) (f : Dist S P (ZMod N1 × ZMod N2) K) :
    ∃ f', openStep name fl ax cfg dt inc cb f = .ok f' := by
  obtain ⟨fh, hh⟩ := openEuler_succeeds name fl ax cfg hq hp (dt / 2) (inc 0) (cb 0) f f
  obtain ⟨f', h'⟩ := openEuler_succeeds name fl ax cfg hq hp dt (inc 1) (cb 1) fh f
  exact ⟨f', by simp only [openStep, bind, Except.bind, hh, h']⟩

theorem openRun_succeeds (name : Wall → String) (fl : Wall → P → P) (ax : P × P × P) (cfg : FVMConfig S K)
    (hq : cfg.reconstructionInQ = "piecewise-constant" ∨ cfg.reconstructionInQ = "minmod" ∨ cfg.reconstructionInQ = "ppm")
    (hp : cfg.reconstructionInP = "piecewise-constant" ∨ cfg.reconstructionInP = "minmod" ∨ cfg.reconstructionInP = "ppm")
    (steps : List (K × (Fin 2 → Wall → S → P → ℤ × ℤ → K → K) × (Fin 2 → Callbacks S P (ℤ × ℤ) K))) (f : Dist S P (ZMod N1 × ZMod N2) K) :
    ∃ f', openRun name fl ax cfg steps f = .ok f' := by
  induction steps generalizing f with
  | nil => exact ⟨f, rfl⟩
  | cons st rest ih =>
    obtain ⟨dt, inc, cb⟩ := st
    obtain ⟨g, hg⟩ := openStep_succeeds name fl ax cfg hq hp dt inc cb f
    obtain ⟨f', h'⟩ := ih g
    exact ⟨f', by simp only [openRun, bind, Except.bind, hg, h']⟩

/-- Any property that every step of the undecomposed box preserves holds after a run. -/
theorem openRun_preserves (name : Wall → String) (fl : Wall → P → P) (ax : P × P × P) (cfg : FVMConfig S K)
    (steps : List (K × (Fin 2 → Wall → S → P → ℤ × ℤ → K → K) × (Fin 2 → Callbacks S P (ℤ × ℤ) K)))
    (I : Dist S P (ZMod N1 × ZMod N2) K → Prop)
    (hI : ∀ st ∈ steps, ∀ f f', I f → openStep name fl ax cfg st.1 st.2.1 st.2.2 f = .ok f' → I f')
    (f f' : Dist S P (ZMod N1 × ZMod N2) K) (hf : I f) (h : openRun name fl ax cfg steps f = .ok f') : I f' := by
  induction steps generalizing f with
  | nil => simp only [openRun, Except.ok.injEq] at h; subst h; exact hf
  | cons st rest ih =>
    simp only [openRun, bind, Except.bind] at h
    cases h0 : openStep name fl ax cfg st.1 st.2.1 st.2.2 f with
    | error e => simp [h0] at h
    | ok g =>
      simp only [h0] at h
      exact ih (fun st hs => hI st (by simp [hs])) g (hI st (by simp) f g hf h0) h

/-! ## bounds -/

/-- What is assumed of the steps of a run: nonnegative step sizes, velocities and inflow equal in the two stages of each step, inflow functions
that take averages to averages, and the CFL condition `dt · (outflow rate) ≤ 1` in every cell of the box. -/
def StableOpen (N1 N2 : ℕ) [NeZero N1] [NeZero N2] (ax : P × P × P) (cfg : FVMConfig S K)
    (st : K × (Fin 2 → Wall → S → P → ℤ × ℤ → K → K) × (Fin 2 → Callbacks S P (ℤ × ℤ) K)) : Prop :=
  0 ≤ st.1 ∧ SameVelocities (st.2.2 0) (st.2.2 1) ∧ st.2.1 0 = st.2.1 1 ∧
    (∀ w s p c x y, st.2.1 0 w s p c ((x + y) / 2) = (st.2.1 0 w s p c x + st.2.1 0 w s p c y) / 2) ∧
    ∀ s p (i : ZMod N1 × ZMod N2), st.1 * outflowRate ⟨ax.1, ax.2.1, ax.2.2, (1, 0), (0, 1)⟩ cfg (st.2.2 0) s p (boxCell i) ≤ 1

theorem comesIn_mid (name : String) (u : K → K) (hu : ∀ x y, u ((x + y) / 2) = (u x + u y) / 2) (a b : K) :
    comesIn name u ((a + b) / 2) = (comesIn name u a + comesIn name u b) / 2 := by
  unfold comesIn
  split_ifs
  · ring
  · rfl
  · exact hu a b

theorem openExt_mid (name : Wall → String) (fl : Wall → P → P) (inc : Wall → S → P → ℤ × ℤ → K → K)
    (hu : ∀ w s p c x y, inc w s p c ((x + y) / 2) = (inc w s p c x + inc w s p c y) / 2) (f g : Dist S P (ZMod N1 × ZMod N2) K) :
    openExt name fl inc (fun s p i => (f s p i + g s p i) / 2) = fun s p c => (openExt name fl inc f s p c + openExt name fl inc g s p c) / 2 := by
  funext s p c
  simp only [openExt]
  split_ifs <;> first | exact comesIn_mid _ _ (hu _ _ _ _) _ _ | rfl

/-- A bound preserved by Euler stages is preserved by a step. -/
theorem openStep_average (name : Wall → String) (fl : Wall → P → P) (ax : P × P × P) (cfg : FVMConfig S K) (hsrc : cfg.sourceEnabled = false)
    (hq : cfg.reconstructionInQ = "piecewise-constant") (hp : cfg.reconstructionInP = "piecewise-constant")
    (st : K × (Fin 2 → Wall → S → P → ℤ × ℤ → K → K) × (Fin 2 → Callbacks S P (ℤ × ℤ) K)) (hst : StableOpen N1 N2 ax cfg st)
    (f f' : Dist S P (ZMod N1 × ZMod N2) K) (h : openStep name fl ax cfg st.1 st.2.1 st.2.2 f = .ok f') :
    ∃ E : Dist S P (ZMod N1 × ZMod N2) K → Dist S P (ZMod N1 × ZMod N2) K,
      (∀ g s p i, E g s p i = g s p i
        + pcSlope ⟨ax.1, ax.2.1, ax.2.2, (1, 0), (0, 1)⟩ cfg (st.2.2 0) (openExt name fl (st.2.1 0) g) s p (boxCell i) * st.1) ∧
      ∀ s p i, f' s p i = 1 / 2 * f s p i + 1 / 2 * E (E f) s p i := by
  obtain ⟨dt, inc, cb⟩ := st
  obtain ⟨-, hsame, hinc, hmid, -⟩ := hst
  dsimp only at *
  obtain ⟨fh, a, b⟩ := openStep_ok h
  obtain ⟨k0, a', rfl⟩ := openEuler_ok a
  obtain ⟨k1, b', rfl⟩ := openEuler_ok b
  have e0 := dfdtFVM_pc hsrc hq hp a'
  have e1 := dfdtFVM_pc hsrc hq hp b'
  rw [← pcSlope_same _ cfg _ _ hsame, ← hinc, e0] at e1
  set ax' : Axes P (ℤ × ℤ) := ⟨ax.1, ax.2.1, ax.2.2, (1, 0), (0, 1)⟩ with hax
  refine ⟨fun g s p i => g s p i + pcSlope ax' cfg (cb 0) (openExt name fl (inc 0) g) s p (boxCell i) * dt, fun g s p i => rfl, ?_⟩
  intro s p i
  beta_reduce
  have hm : (fun s p (i : ZMod N1 × ZMod N2) => f s p i + pcSlope ax' cfg (cb 0) (openExt name fl (inc 0) f) s p (boxCell i) * (dt / 2))
      = fun s p i => (f s p i + (f s p i + pcSlope ax' cfg (cb 0) (openExt name fl (inc 0) f) s p (boxCell i) * dt)) / 2 := by
    funext s p i; ring
  rw [e1, hm, openExt_mid name fl (inc 0) hmid]
  have hl : ∀ u v : Dist S P (ℤ × ℤ) K, ∀ s p q, pcSlope ax' cfg (cb 0) (fun s p q => (u s p q + v s p q) / 2) s p q
      = (pcSlope ax' cfg (cb 0) u s p q + pcSlope ax' cfg (cb 0) v s p q) / 2 := by
    intro u v s p q
    have h1 := pcSlope_lin ax' cfg (cb 0) (fun _ _ _ => 0) (fun s p q => u s p q + v s p q * 1) (1 / 2) s p q
    have h2 := pcSlope_lin ax' cfg (cb 0) u v 1 s p q
    rw [pcSlope_const, h2] at h1
    have e : (fun s p q => (u s p q + v s p q) / 2) = fun s p q => (0 : K) + (u s p q + v s p q * 1) * (1 / 2) := by
      funext s p q; ring
    rw [e, h1]; ring
  rw [hl]
  ring

theorem openExt_nonneg (name : Wall → String) (fl : Wall → P → P) (inc : Wall → S → P → ℤ × ℤ → K → K)
    (hin : ∀ w s p c x, 0 ≤ x → 0 ≤ inc w s p c x) (f : Dist S P (ZMod N1 × ZMod N2) K) (hf : ∀ s p i, 0 ≤ f s p i) (s : S) (p : P) (c : ℤ × ℤ) :
    0 ≤ openExt name fl inc f s p c := by
  have h : ∀ name (u : K → K) m, (∀ x, 0 ≤ x → 0 ≤ u x) → 0 ≤ m → 0 ≤ comesIn name u m := by
    intro name u m hu hm
    unfold comesIn
    split_ifs
    · exact hu 0 le_rfl
    · exact hm
    · exact hu m hm
  simp only [openExt]
  split_ifs <;> first | exact h _ _ _ (hin _ _ _ _) (hf _ _ _) | exact hf _ _ _

theorem openEuler_nonneg (name : Wall → String) (fl : Wall → P → P) (ax : Axes P (ℤ × ℤ)) (cfg : FVMConfig S K) (hpos : cfg.PositiveSpacing)
    (cb : Callbacks S P (ℤ × ℤ) K) (dt : K) (hdt : 0 ≤ dt) (y : Dist S P (ℤ × ℤ) K) (hy : ∀ s p c, 0 ≤ y s p c) (s : S) (p : P) (c : ℤ × ℤ)
    (hcfl : dt * outflowRate ax cfg cb s p c ≤ 1) : 0 ≤ y s p c + pcSlope ax cfg cb y s p c * dt := by
  have h := mul_le_mul_of_nonneg_right (pcSlope_lower ax cfg cb hpos y hy s p c) hdt
  have h2 := mul_le_mul_of_nonneg_right hcfl (hy s p c)
  nlinarith

theorem openStep_nonneg (name : Wall → String) (fl : Wall → P → P) (ax : P × P × P) (cfg : FVMConfig S K) (hsrc : cfg.sourceEnabled = false)
    (hq : cfg.reconstructionInQ = "piecewise-constant") (hp : cfg.reconstructionInP = "piecewise-constant") (hpos : cfg.PositiveSpacing)
    (st : K × (Fin 2 → Wall → S → P → ℤ × ℤ → K → K) × (Fin 2 → Callbacks S P (ℤ × ℤ) K)) (hst : StableOpen N1 N2 ax cfg st)
    (hin : ∀ w s p c x, 0 ≤ x → 0 ≤ st.2.1 0 w s p c x)
    (f f' : Dist S P (ZMod N1 × ZMod N2) K) (hf : ∀ s p i, 0 ≤ f s p i) (h : openStep name fl ax cfg st.1 st.2.1 st.2.2 f = .ok f') :
    ∀ s p i, 0 ≤ f' s p i := by
  obtain ⟨E, hE, hf'⟩ := openStep_average name fl ax cfg hsrc hq hp st hst f f' h
  have stage : ∀ g : Dist S P (ZMod N1 × ZMod N2) K, (∀ s p i, 0 ≤ g s p i) → ∀ s p i, 0 ≤ E g s p i := by
    intro g hg s p i
    have := openEuler_nonneg name fl ⟨ax.1, ax.2.1, ax.2.2, (1, 0), (0, 1)⟩ cfg hpos (st.2.2 0) st.1 hst.1 (openExt name fl (st.2.1 0) g)
      (openExt_nonneg name fl (st.2.1 0) hin g hg) s p (boxCell i) (hst.2.2.2.2 s p i)
    rw [openExt_boxCell] at this
    rw [hE]; exact this
  intro s p i
  have a := stage _ (stage f hf) s p i
  rw [hf']
  linarith [hf s p i]

theorem openStep_bounds (name : Wall → String) (fl : Wall → P → P) (ax : P × P × P) (cfg : FVMConfig S K) (hsrc : cfg.sourceEnabled = false)
    (hq : cfg.reconstructionInQ = "piecewise-constant") (hp : cfg.reconstructionInP = "piecewise-constant") (hpos : cfg.PositiveSpacing)
    (st : K × (Fin 2 → Wall → S → P → ℤ × ℤ → K → K) × (Fin 2 → Callbacks S P (ℤ × ℤ) K)) (hst : StableOpen N1 N2 ax cfg st) (lo hi : K)
    (hin : ∀ w s p c x, lo ≤ x → x ≤ hi → lo ≤ st.2.1 0 w s p c x ∧ st.2.1 0 w s p c x ≤ hi)
    (hconst : ∀ w, name w = "dirichlet" → ∀ s p c x y, st.2.1 0 w s p c x = st.2.1 0 w s p c y)
    (hdiv : ∀ s p (i : ZMod N1 × ZMod N2), velocityDivergence ⟨ax.1, ax.2.1, ax.2.2, (1, 0), (0, 1)⟩ cfg (st.2.2 0) s p (boxCell i) = 0)
    (f f' : Dist S P (ZMod N1 × ZMod N2) K) (hf : ∀ s p i, lo ≤ f s p i ∧ f s p i ≤ hi)
    (h : openStep name fl ax cfg st.1 st.2.1 st.2.2 f = .ok f') : ∀ s p i, lo ≤ f' s p i ∧ f' s p i ≤ hi := by
  obtain ⟨E, hE, hf'⟩ := openStep_average name fl ax cfg hsrc hq hp st hst f f' h
  set ax' : Axes P (ℤ × ℤ) := ⟨ax.1, ax.2.1, ax.2.2, (1, 0), (0, 1)⟩ with hax
  have ext : ∀ g : Dist S P (ZMod N1 × ZMod N2) K, (∀ s p i, lo ≤ g s p i ∧ g s p i ≤ hi) →
      ∀ s p c, lo ≤ openExt name fl (st.2.1 0) g s p c ∧ openExt name fl (st.2.1 0) g s p c ≤ hi := by
    intro g hg s p c
    have h : ∀ w c (m : K), lo ≤ m ∧ m ≤ hi → lo ≤ comesIn (name w) (st.2.1 0 w s p c) m ∧ comesIn (name w) (st.2.1 0 w s p c) m ≤ hi := by
      intro w c m hm
      unfold comesIn
      split_ifs with hd
      · rw [hconst w hd s p c 0 m]
        exact hin w s p c m hm.1 hm.2
      · exact hm
      · exact hin w s p c m hm.1 hm.2
    simp only [openExt]
    split_ifs <;> first | exact h _ _ _ (hg _ _ _) | exact hg _ _ _
  have stage : ∀ g : Dist S P (ZMod N1 × ZMod N2) K, (∀ s p i, lo ≤ g s p i ∧ g s p i ≤ hi) → ∀ s p i, lo ≤ E g s p i ∧ E g s p i ≤ hi := by
    intro g hg s p i
    have aff : ∀ (u : Dist S P (ℤ × ℤ) K) (x y : K),
        pcSlope ax' cfg (st.2.2 0) (fun s p q => y + u s p q * x) s p (boxCell i) = pcSlope ax' cfg (st.2.2 0) u s p (boxCell i) * x := by
      intro u x y
      rw [pcSlope_lin ax' cfg (st.2.2 0) (fun _ _ _ => y) u x, pcSlope_const, hdiv]; ring
    have n1 := openEuler_nonneg name fl ax' cfg hpos (st.2.2 0) st.1 hst.1 (fun s p q => -lo + openExt name fl (st.2.1 0) g s p q * 1)
      (fun s p q => by linarith [(ext g hg s p q).1]) s p (boxCell i) (hst.2.2.2.2 s p i)
    have n2 := openEuler_nonneg name fl ax' cfg hpos (st.2.2 0) st.1 hst.1 (fun s p q => hi + openExt name fl (st.2.1 0) g s p q * (-1))
      (fun s p q => by linarith [(ext g hg s p q).2]) s p (boxCell i) (hst.2.2.2.2 s p i)
    rw [aff, openExt_boxCell] at n1 n2
    rw [hE]
    constructor <;> linarith
  intro s p i
  have a := stage _ (stage f hf) s p i
  have b := hf s p i
  rw [hf']
  constructor <;> linarith [a.1, a.2, b.1, b.2]

end

section
variable [NeZero Np1] [NeZero Np2] [NeZero Np3] (o : BCOptions) (h1 : OpenSetup (o.name .left) (o.name .right) N1)
    (h2 : OpenSetup (o.name .bottom) (o.name .top) N2)
    {fl : Wall → PIdx Np1 Np2 Np3 → PIdx Np1 Np2 Np3} (hfl : MomentumMirror o.pGrid fl) (hQ : o.solverMethodInQ = "FVM")
    (hg1 : OpenGhosts (o.name .left) g1 N1) (hg2 : OpenGhosts (o.name .bottom) g2 N2)
    (ax : PIdx Np1 Np2 Np3 × PIdx Np1 Np2 Np3 × PIdx Np1 Np2 Np3) (cfg : FVMConfig S K)
    (hq : cfg.reconstructionInQ = "piecewise-constant")
    (steps : List (K × (Fin 2 → ∀ r, D.LocBCData g1 g2 r S Np1 Np2 Np3 K) ×
      (Fin 2 → ∀ r, Callbacks S (PIdx Np1 Np2 Np3) (D.Loc g1 g2 r) K) ×
      (Fin 2 → Wall → S → PIdx Np1 Np2 Np3 → ℤ × ℤ → K → K) × (Fin 2 → Callbacks S (PIdx Np1 Np2 Np3) (ℤ × ℤ) K)))
    (hcb : ∀ st ∈ steps, ∀ j r, D.CallbacksAgreeBox g1 g2 r (st.2.2.1 j r) (st.2.2.2.2 j))
    (hw : ∀ st ∈ steps, ∀ j r, D.WallsAgree g1 g2 o r (st.2.1 j r) (st.2.2.1 j r) (st.2.2.2.1 j))
include h1 h2 hfl hQ hg1 hg2 hq hcb hw

/-- What the steps of the undecomposed box preserve holds of what the processes hold together. -/
theorem bcRun_preserves
    (hp : cfg.reconstructionInP = "piecewise-constant" ∨ cfg.reconstructionInP = "minmod" ∨ cfg.reconstructionInP = "ppm")
    (I : Dist S (PIdx Np1 Np2 Np3) (ZMod N1 × ZMod N2) K → Prop)
    (hI : ∀ st ∈ steps, ∀ f f', I f → openStep o.name fl ax cfg st.1 st.2.2.2.1 st.2.2.2.2 f = .ok f' → I f')
    (F F' : ∀ r, Dist S (PIdx Np1 Np2 Np3) (D.Loc g1 g2 r) K) (hF : I (D.assemble g1 g2 F))
    (h : D.BcRun g1 g2 o ax cfg (steps.map fun st => (st.1, st.2.1, st.2.2.1)) F F') : I (D.assemble g1 g2 F') := by
  obtain ⟨f', hf'⟩ := openRun_succeeds o.name fl ax cfg (Or.inl hq) hp (steps.map fun st => (st.1, st.2.2.2.1, st.2.2.2.2)) (D.assemble g1 g2 F)
  have hH := C95_decomposition_independence D g1 g2 o h1 h2 hfl hQ hg1 hg2 ax cfg hq steps hcb hw F F' _ f'
    ((holds_iff D g1 g2 F _).mpr rfl) h hf'
  rw [holds_iff] at hH
  rw [hH]
  refine openRun_preserves o.name fl ax cfg _ I ?_ _ _ hF hf'
  intro st hst
  obtain ⟨x, hx, rfl⟩ := List.mem_map.mp hst
  exact hI x hx

/-- C95: a nonnegative distribution in a box with open walls stays nonnegative under the CFL condition if what comes in is nonnegative. -/
theorem C95_positivity (hsrc : cfg.sourceEnabled = false) (hp : cfg.reconstructionInP = "piecewise-constant") (hpos : cfg.PositiveSpacing)
    (hst : ∀ st ∈ steps, StableOpen N1 N2 ax cfg (st.1, st.2.2.2.1, st.2.2.2.2))
    (hin : ∀ st ∈ steps, ∀ w s p c x, 0 ≤ x → 0 ≤ st.2.2.2.1 0 w s p c x)
    (F F' : ∀ r, Dist S (PIdx Np1 Np2 Np3) (D.Loc g1 g2 r) K) (hF : ∀ s p i, 0 ≤ D.assemble g1 g2 F s p i)
    (h : D.BcRun g1 g2 o ax cfg (steps.map fun st => (st.1, st.2.1, st.2.2.1)) F F') : ∀ s p i, 0 ≤ D.assemble g1 g2 F' s p i :=
  D.bcRun_preserves g1 g2 o h1 h2 hfl hQ hg1 hg2 ax cfg hq steps hcb hw (Or.inl hp) (fun f => ∀ s p i, 0 ≤ f s p i)
    (fun st hs f f' hf hf' => openStep_nonneg o.name fl ax cfg hsrc hq hp hpos (st.1, st.2.2.2.1, st.2.2.2.2) (hst st hs) (hin st hs) f f' hf hf')
    F F' hF h

/-- C95: if the discrete velocity field is divergence-free and what comes in lies within the bounds of the initial data, all values stay within
these bounds. -/
theorem C95_bounds (hsrc : cfg.sourceEnabled = false) (hp : cfg.reconstructionInP = "piecewise-constant") (hpos : cfg.PositiveSpacing)
    (hst : ∀ st ∈ steps, StableOpen N1 N2 ax cfg (st.1, st.2.2.2.1, st.2.2.2.2)) (lo hi : K) [Nonempty R]
    (hin : ∀ st ∈ steps, ∀ w s p c x, lo ≤ x → x ≤ hi → lo ≤ st.2.2.2.1 0 w s p c x ∧ st.2.2.2.1 0 w s p c x ≤ hi)
    (hdiv : ∀ st ∈ steps, ∀ s p (i : ZMod N1 × ZMod N2),
      velocityDivergence ⟨ax.1, ax.2.1, ax.2.2, (1, 0), (0, 1)⟩ cfg (st.2.2.2.2 0) s p (boxCell i) = 0)
    (F F' : ∀ r, Dist S (PIdx Np1 Np2 Np3) (D.Loc g1 g2 r) K) (hF : ∀ s p i, lo ≤ D.assemble g1 g2 F s p i ∧ D.assemble g1 g2 F s p i ≤ hi)
    (h : D.BcRun g1 g2 o ax cfg (steps.map fun st => (st.1, st.2.1, st.2.2.1)) F F') :
    ∀ s p i, lo ≤ D.assemble g1 g2 F' s p i ∧ D.assemble g1 g2 F' s p i ≤ hi := by
  obtain ⟨r⟩ := ‹Nonempty R›
  exact D.bcRun_preserves g1 g2 o h1 h2 hfl hQ hg1 hg2 ax cfg hq steps hcb hw (Or.inl hp) (fun f => ∀ s p i, lo ≤ f s p i ∧ f s p i ≤ hi)
    (fun st hs f f' hf hf' => openStep_bounds o.name fl ax cfg hsrc hq hp hpos (st.1, st.2.2.2.1, st.2.2.2.2) (hst st hs) lo hi (hin st hs)
      ((hw st hs 0 r).ignores) (hdiv st hs) f f' hf hf') F F' hF h

/-- C95: where no wall returns more than leaves through it, the number of particles never grows. -/
theorem C95_absorbing (hFVM : cfg.solverMethodInQ = "FVM") (hsrc : cfg.sourceEnabled = false) (hp : cfg.reconstructionInP = "piecewise-constant")
    (hpos : cfg.PositiveSpacing) (hst : ∀ st ∈ steps, StableOpen N1 N2 ax cfg (st.1, st.2.2.2.1, st.2.2.2.2))
    (hin : ∀ st ∈ steps, ∀ w s p c x, 0 ≤ x → 0 ≤ st.2.2.2.1 0 w s p c x) (s : S)
    (hl : ∀ st ∈ steps, Lossy N1 N2 o.name fl s (st.2.2.2.1 1) (st.2.2.2.2 1))
    (F F' : ∀ r, Dist S (PIdx Np1 Np2 Np3) (D.Loc g1 g2 r) K) (hF : ∀ s p i, 0 ≤ D.assemble g1 g2 F s p i)
    (h : D.BcRun g1 g2 o ax cfg (steps.map fun st => (st.1, st.2.1, st.2.2.1)) F F') :
    ∑ p, ∑ i, D.assemble g1 g2 F' s p i ≤ ∑ p, ∑ i, D.assemble g1 g2 F s p i := by
  refine (D.bcRun_preserves g1 g2 o h1 h2 hfl hQ hg1 hg2 ax cfg hq steps hcb hw (Or.inl hp)
    (fun f => (∀ s p i, 0 ≤ f s p i) ∧ ∑ p, ∑ i, f s p i ≤ ∑ p, ∑ i, D.assemble g1 g2 F s p i) ?_ F F' ⟨hF, le_refl _⟩ h).2
  rintro st hs f f' ⟨hf, hle⟩ hf'
  refine ⟨openStep_nonneg o.name fl ax cfg hsrc hq hp hpos (st.1, st.2.2.2.1, st.2.2.2.2) (hst st hs) (hin st hs) f f' hf hf', ?_⟩
  obtain ⟨hdt, hsame, hinc, hmid, hcfl⟩ := hst st hs
  dsimp only at hdt hsame hinc hmid hcfl
  obtain ⟨fh, a, b⟩ := openStep_ok hf'
  have hfh : ∀ s p i, 0 ≤ fh s p i := by
    obtain ⟨k, hk, rfl⟩ := openEuler_ok a
    intro s p i
    rw [dfdtFVM_pc hsrc hq hp hk]
    have hc := hcfl s p i
    have hf0 := hf s p i
    have := openEuler_nonneg o.name fl ⟨ax.1, ax.2.1, ax.2.2, (1, 0), (0, 1)⟩ cfg hpos (st.2.2.2.2 0) st.1 hdt (openExt o.name fl (st.2.2.2.1 0) f)
      (openExt_nonneg o.name fl (st.2.2.2.1 0) (hin st hs) f hf) s p (boxCell i) hc
    rw [openExt_boxCell] at this
    linarith
  obtain ⟨k, hk, rfl⟩ := openEuler_ok b
  have ht := openTotal_slope (N1 := N1) (N2 := N2) ax cfg hFVM hq (st.2.2.2.2 1) _ k s hk
  have hn := netInflow_nonpos o.name fl hfl.involutive cfg hpos.1 hpos.2.1 (st.2.2.2.1 1) (st.2.2.2.2 1) s (hl st hs) fh (fun p i => hfh s p i)
  simp only [hsrc, Bool.false_eq_true, if_false, add_zero] at ht
  simp only [Finset.sum_add_distrib, ← Finset.sum_mul, ht]
  nlinarith

end

/-- C95: a step on any decomposition changes the number of particles by exactly what flows in through the ends of the box at the half step, and
the source. -/
theorem C95_balance [NeZero Np1] [NeZero Np2] [NeZero Np3] (o : BCOptions) (h1 : OpenSetup (o.name .left) (o.name .right) N1)
    (h2 : OpenSetup (o.name .bottom) (o.name .top) N2)
    {fl : Wall → PIdx Np1 Np2 Np3 → PIdx Np1 Np2 Np3} (hfl : MomentumMirror o.pGrid fl) (hQ : o.solverMethodInQ = "FVM")
    (hg1 : OpenGhosts (o.name .left) g1 N1) (hg2 : OpenGhosts (o.name .bottom) g2 N2)
    (ax : PIdx Np1 Np2 Np3 × PIdx Np1 Np2 Np3 × PIdx Np1 Np2 Np3) (cfg : FVMConfig S K) (hFVM : cfg.solverMethodInQ = "FVM")
    (hq : cfg.reconstructionInQ = "piecewise-constant") (dt : K)
    (dat : Fin 2 → ∀ r, D.LocBCData g1 g2 r S Np1 Np2 Np3 K) (cb : Fin 2 → ∀ r, Callbacks S (PIdx Np1 Np2 Np3) (D.Loc g1 g2 r) K)
    (inc : Fin 2 → Wall → S → PIdx Np1 Np2 Np3 → ℤ × ℤ → K → K) (cbG : Fin 2 → Callbacks S (PIdx Np1 Np2 Np3) (ℤ × ℤ) K)
    (hcb : ∀ j r, D.CallbacksAgreeBox g1 g2 r (cb j r) (cbG j)) (hw : ∀ j r, D.WallsAgree g1 g2 o r (dat j r) (cb j r) (inc j))
    (F F' : ∀ r, Dist S (PIdx Np1 Np2 Np3) (D.Loc g1 g2 r) K) (h : D.BcStep g1 g2 o ax cfg dt dat cb F F')
    (fh f' : Dist S (PIdx Np1 Np2 Np3) (ZMod N1 × ZMod N2) K)
    (hh : openEuler o.name fl ax cfg (dt / 2) (inc 0) (cbG 0) (D.assemble g1 g2 F) (D.assemble g1 g2 F) = .ok fh)
    (h' : openEuler o.name fl ax cfg dt (inc 1) (cbG 1) fh (D.assemble g1 g2 F) = .ok f') (s : S) :
    ∑ p, ∑ i, D.assemble g1 g2 F' s p i = ∑ p, ∑ i, D.assemble g1 g2 F s p i
      + dt * (netInflow N1 N2 cfg (cbG 1) (openExt o.name fl (inc 1) fh) s
        + if cfg.sourceEnabled then ∑ p, ∑ i : ZMod N1 × ZMod N2, (cbG 1).source (openExt o.name fl (inc 1) fh) s p (boxCell i) else 0) := by
  have hs : openStep o.name fl ax cfg dt inc cbG (D.assemble g1 g2 F) = .ok f' := by
    simp only [openStep, bind, Except.bind, hh, h']
  have hH := D.openStep_agrees g1 g2 o h1 h2 hfl hQ hg1 hg2 ax cfg hq dt dat cb inc cbG hcb hw F F' _ f' ((holds_iff D g1 g2 F _).mpr rfl) h hs
  rw [holds_iff] at hH
  obtain ⟨k, hk, rfl⟩ := openEuler_ok h'
  rw [hH, ← openTotal_slope (N1 := N1) (N2 := N2) ax cfg hFVM hq (cbG 1) _ k s hk]
  simp only [Finset.sum_add_distrib, ← Finset.sum_mul]
  ring

end Decomp

/-! ## witness: six cells shared by two processes, a `dirichlet` wall on the left, a half-reflecting wall on the right, momenta ±1 -/

/-- `dirichlet` on the left, `mirror+dirichlet` on the right, one row of cells. -/
def openOpts : BCOptions := ⟨2, fun w => if w = .left then "dirichlet" else if w = .right then "mirror+dirichlet" else "none", "cartesian", "FVM"⟩

/-- Inflow `a` on the left; on the right half of what arrives returns. -/
def openInc (a : ℚ) : Wall → Unit → PIdx 2 1 1 → ℤ × ℤ → ℚ → ℚ := fun w _ _ _ x => if w = .left then a else x / 2

/-- The callbacks of the processes. -/
def openDat (a : ℚ) (r : Fin 2) : exD.LocBCData 2 0 r Unit 2 1 1 ℚ :=
  { boxDat r with user := fun w f s p l => openInc a w s p (exD.signed 2 0 r l) (f s p l) }

/-- First order, unit spacings. -/
def openCfg : FVMConfig Unit ℚ :=
  ⟨"FVM", "FVM", "piecewise-constant", "piecewise-constant", "upwind-flux", "upwind-flux", false, false, 1, 1, fun _ => 1, fun _ => 1, fun _ => 1⟩

theorem openOpts_setup : setupBCs openOpts.nGhost openOpts.name = .ok ((.ghosted, 2), (.none, 0)) := by rfl

theorem open_walls (a : ℚ) (r : Fin 2) : exD.WallsAgree 2 0 openOpts r (openDat a r) (boxCb _) (openInc a) where
  user := fun _ _ _ _ _ => rfl
  ignores := by
    intro w hw s p c x y
    cases w <;> simp [openOpts, openInc] at hw ⊢
  left := fun _ _ _ _ _ h => h
  right := fun _ _ _ _ _ h => h
  bottom := fun _ _ _ _ _ h => absurd h (lt_irrefl _)
  top := fun _ _ _ _ _ h => absurd h (lt_irrefl _)

theorem open_stable (a : ℚ) : Decomp.StableOpen 6 1 ((1, 0, 0), (0, 1, 0), (0, 0, 1)) openCfg
    ((1 / 2 : ℚ), (fun _ => openInc a), fun _ => boxCb (ℤ × ℤ)) := by
  refine ⟨by norm_num, ⟨rfl, rfl, rfl, rfl, rfl⟩, rfl, ?_, ?_⟩
  · intro w s p c x y
    simp only [openInc]
    split_ifs <;> ring
  · intro s p i
    simp only [outflowRate, openCfg, boxCb, faceOutflow, FVMConfig.advectsP, boxV]
    simp only [Bool.false_eq_true, and_false, if_false, if_true]
    split_ifs <;> norm_num

/-- The hypotheses of all the theorems are met by a run of any number of steps from any data between 0 and 1: with inflow 1 the values stay
between 0 and 1, and with inflow 0 the number of particles does not grow. -/
example (n : ℕ) (a : ℚ) (ha : 0 ≤ a ∧ a ≤ 1) (F : ∀ r, Dist Unit (PIdx 2 1 1) (exD.Loc 2 0 r) ℚ)
    (hF : ∀ s p i, 0 ≤ exD.assemble 2 0 F s p i ∧ exD.assemble 2 0 F s p i ≤ 1) :
    ∃ F', exD.BcRun 2 0 openOpts ((1, 0, 0), (0, 1, 0), (0, 0, 1)) openCfg
        (List.replicate n (1 / 2, fun _ r => openDat a r, fun _ _ => boxCb _)) F F' ∧
      (∀ s p i, 0 ≤ exD.assemble 2 0 F' s p i ∧ exD.assemble 2 0 F' s p i ≤ 1) ∧
      (a = 0 → ∑ p, ∑ i, exD.assemble 2 0 F' () p i ≤ ∑ p, ∑ i, exD.assemble 2 0 F () p i) := by
  obtain ⟨F', hF'⟩ := exD.C56_run_exists 2 0 openOpts .ghosted .none openOpts_setup (fl := flipCartesian) (Or.inl ⟨rfl, rfl⟩)
    (by intro w; cases w <;> decide) ((1, 0, 0), (0, 1, 0), (0, 0, 1)) openCfg (Or.inl rfl) (Or.inl rfl)
    (List.replicate n (1 / 2, fun _ r => openDat a r, fun _ _ => boxCb _)) F
  have h1 : OpenSetup (openOpts.name .left) (openOpts.name .right) 6 := Or.inr (Or.inr ⟨by decide, by decide⟩)
  have h2 : OpenSetup (openOpts.name .bottom) (openOpts.name .top) 1 := Or.inr (Or.inl ⟨rfl, rfl, rfl⟩)
  have hg1 : OpenGhosts (openOpts.name .left) 2 6 := Or.inl (by norm_num)
  have hg2 : OpenGhosts (openOpts.name .bottom) 0 1 := Or.inr ⟨Or.inr rfl, rfl, rfl⟩
  have hpos : openCfg.PositiveSpacing := by refine ⟨?_, ?_, ?_, ?_, ?_⟩ <;> simp [openCfg]
  let steps : List (ℚ × (Fin 2 → ∀ r, exD.LocBCData 2 0 r Unit 2 1 1 ℚ) × (Fin 2 → ∀ r, Callbacks Unit (PIdx 2 1 1) (exD.Loc 2 0 r) ℚ) ×
      (Fin 2 → Wall → Unit → PIdx 2 1 1 → ℤ × ℤ → ℚ → ℚ) × (Fin 2 → Callbacks Unit (PIdx 2 1 1) (ℤ × ℤ) ℚ)) :=
    List.replicate n (1 / 2, fun _ r => openDat a r, fun _ _ => boxCb _, fun _ => openInc a, fun _ => boxCb _)
  have hmap : steps.map (fun st => (st.1, st.2.1, st.2.2.1)) = List.replicate n (1 / 2, fun _ r => openDat a r, fun _ _ => boxCb _) := by
    simp only [steps, List.map_replicate]
  have hmem : ∀ st ∈ steps, st = (1 / 2, fun _ r => openDat a r, fun _ _ => boxCb _, fun _ => openInc a, fun _ => boxCb _) :=
    fun st hst => List.eq_of_mem_replicate hst
  have hcb : ∀ st ∈ steps, ∀ j r, exD.CallbacksAgreeBox 2 0 r (st.2.2.1 j r) (st.2.2.2.2 j) := by
    intro st hst j r
    rw [hmem st hst]
    exact ⟨fun _ _ _ _ => ⟨rfl, rfl⟩, fun _ _ _ _ => ⟨rfl, rfl⟩, fun _ _ _ _ => rfl, fun _ _ _ _ => rfl, fun _ _ _ _ => rfl,
      fun f g l _ h s p => h s p⟩
  have hw : ∀ st ∈ steps, ∀ j r, exD.WallsAgree 2 0 openOpts r (st.2.1 j r) (st.2.2.1 j r) (st.2.2.2.1 j) := by
    intro st hst j r
    rw [hmem st hst]
    exact open_walls a r
  have hstab : ∀ st ∈ steps, Decomp.StableOpen 6 1 ((1, 0, 0), (0, 1, 0), (0, 0, 1)) openCfg (st.1, st.2.2.2.1, st.2.2.2.2) := by
    intro st hst
    rw [hmem st hst]
    exact open_stable a
  rw [← hmap] at hF'
  refine ⟨F', by rw [← hmap]; exact hF', ?_, ?_⟩
  · refine Decomp.C95_bounds exD 2 0 openOpts h1 h2 (fl := flipCartesian) (Or.inl ⟨rfl, rfl⟩) rfl hg1 hg2 _ openCfg rfl steps hcb hw rfl rfl hpos
      hstab 0 1 ?_ ?_ F F' hF hF'
    · intro st hst w s p c x hx hx'
      rw [hmem st hst]
      simp only [openInc]
      split_ifs
      · exact ha
      · constructor <;> linarith
    · intro st hst s p i
      rw [hmem st hst]
      simp [velocityDivergence, openCfg, boxCb, FVMConfig.advectsP]
  · rintro rfl
    refine Decomp.C95_absorbing exD 2 0 openOpts h1 h2 (fl := flipCartesian) (Or.inl ⟨rfl, rfl⟩) rfl hg1 hg2 _ openCfg rfl steps hcb hw rfl rfl rfl
      hpos hstab ?_ () ?_ F F' (fun s p i => (hF s p i).1) hF'
    · intro st hst w s p c x hx
      rw [hmem st hst]
      simp only [openInc]
      split_ifs
      · exact le_rfl
      · linarith
    · intro st hst
      rw [hmem st hst]
      refine ⟨fun j => Or.inr ⟨by decide, Or.inl ⟨rfl, fun p x => rfl⟩, Or.inr (Or.inr ⟨rfl, fun p x hx => ?_, fun p => boxV_flip p⟩)⟩,
        fun i => Or.inl ⟨Or.inr rfl, fun p => rfl⟩⟩
      show x / 2 ≤ x
      linarith

end Bolt
