import Verif.Proofs.Pipeline
import Mathlib.Data.Rat.Floor

/-!
# C76, C77: whole scripts — from the user's functions to the dumped file, and resuming from a file
-/

set_option linter.unusedSectionVars false

namespace Bolt

variable {K : Type} [Field K] [LinearOrder K] [IsStrictOrderedRing K] {Ns Np1 Np2 Np3 N1 N2 : ℕ}
  [NeZero N1] [NeZero N2] [NeZero Np1] [NeZero Np2] [NeZero Np3]

theorem wholeRun_succeeds (u : Setup Ns K) (fn : UserFns Ns Np1 Np2 Np3 K) (ho : OptionsOk u.cfg) (t : K) (dts : List K)
    (f : Dist (Fin Ns) (PIdx Np1 Np2 Np3) (ZMod N1 × ZMod N2) K) : ∃ f', wholeRun u fn t dts f = .ok f' :=
  C09_run_succeeds _ u.cfg ho.1 ho.2 _ f

theorem clockedSteps_append {A : Type} (cb : K → A) (t : K) (l1 l2 : List K) :
    clockedSteps cb t (l1 ++ l2) = clockedSteps cb t l1 ++ clockedSteps cb (t + l1.sum) l2 := by
  induction l1 generalizing t with
  | nil => simp [clockedSteps]
  | cons a l ih => simp [clockedSteps, ih, add_assoc]

theorem runFVM_append {S P Q : Type} [AddCommGroup P] [AddCommGroup Q] (ax : Axes P Q) (cfg : FVMConfig S K)
    (l1 l2 : List (K × (Fin 2 → Callbacks S P Q K))) (f : Dist S P Q K) :
    runFVM ax cfg (l1 ++ l2) f = (runFVM ax cfg l1 f).bind (runFVM ax cfg l2) := by
  induction l1 generalizing f with
  | nil => rfl
  | cons a l ih =>
    obtain ⟨dt, cb⟩ := a
    simp only [List.cons_append, runFVM, bind, Except.bind]
    cases timestepFVM (fun f => .ok f) (fun k => dfdtFVM ax cfg (cb k)) dt f with
    | error e => rfl
    | ok g => exact ih g

/-- The whole-grid run of a concatenation of step lists is the second part, started at the later clock, after the first. -/
theorem wholeRun_append (u : Setup Ns K) (fn : UserFns Ns Np1 Np2 Np3 K) (t : K) (l1 l2 : List K)
    (f : Dist (Fin Ns) (PIdx Np1 Np2 Np3) (ZMod N1 × ZMod N2) K) :
    wholeRun u fn t (l1 ++ l2) f = (wholeRun u fn t l1 f).bind (wholeRun u fn (t + l1.sum) l2) := by
  simp only [wholeRun, clockedSteps_append, runFVM_append]
  rfl

/-! ## C76 -/

namespace Decomp
variable {R : Type} (D : Decomp N1 N2 R) (g1 g2 : ℕ)

/-- C76: the script never raises when the options name implemented methods. -/
theorem C76_script_succeeds (u : Setup Ns K) (fn : UserFns Ns Np1 Np2 Np3 K) (ho : OptionsOk u.cfg)
    (hg : GhostsOk N1 N2 g1 g2 u.cfg) (dts : List K) : ∃ file, D.Script g1 g2 u fn dts file := by
  obtain ⟨F', hF'⟩ := D.C11_run_exists g1 g2 ((1, 0, 0), (0, 1, 0), (0, 0, 1)) u.cfg ho.1 ho.2
    (clockedSteps (fun t r => D.callbacksAt g1 g2 u fn t r) 0 dts) (fun r => (D.initialF g1 g2 u fn r).toDist _ _)
  obtain ⟨file, hf⟩ := D.C38_dump_succeeds (fun r => D.sizes Np1 Np2 Np3 Ns g1 g2 r) g1 g2 _ _ _ (D.sizesOk g1 g2 hg.1 hg.2.1)
    (D.shaped_ofDist g1 g2 F')
  exact ⟨file, _, ⟨F', hF', rfl⟩, hf⟩

/-- C76: what a script writes.  On a periodic domain, for every partition into processes, every ghost width that covers the stencil, every problem with periodic
velocities and every list of steps, the file lists, for each cell (with `q1` running fastest), each species and each momentum, the value that the finite-volume
run on the whole grid computes from `initialize_f` sampled at the cell centres. -/
theorem C76_file_contents (u : Setup Ns K) (fn : UserFns Ns Np1 Np2 Np3 K) (hper : PeriodicVelocities N1 N2 u fn)
    (hg : GhostsOk N1 N2 g1 g2 u.cfg) (dts : List K) (file : Vec K) (h : D.Script g1 g2 u fn dts file)
    (f' : Dist (Fin Ns) (PIdx Np1 Np2 Np3) (ZMod N1 × ZMod N2) K) (hf' : wholeRun u fn 0 dts (wholeInit u fn) = .ok f') :
    file.len = Np1 * Np2 * Np3 * Ns * (N1 * N2) ∧
      ∀ (s : Fin Ns) (p : PIdx Np1 Np2 Np3) (i : ZMod N1 × ZMod N2),
        file.data ((p.1.val + Np1 * (p.2.1.val + Np2 * p.2.2.val)) + Np1 * Np2 * Np3 * (s.val + Ns * (i.1.val + N1 * i.2.val)))
          = f' s p i := by
  obtain ⟨A, hA, hd⟩ := h
  obtain ⟨hh, hs⟩ := D.evolves_holds g1 g2 u fn hper hg 0 dts _ A _ f' (D.initial_holds g1 g2 u fn) hA hf'
  exact D.dump_data g1 g2 A file hg.1 hg.2.1 f' hh hs hd

/-- C76: two runs of the same script on different numbers of processes, partitions and ghost widths write the same file. -/
theorem C76_same_file {R' : Type} (D' : Decomp N1 N2 R') (g1' g2' : ℕ) (u : Setup Ns K) (fn : UserFns Ns Np1 Np2 Np3 K)
    (ho : OptionsOk u.cfg) (hper : PeriodicVelocities N1 N2 u fn) (hg : GhostsOk N1 N2 g1 g2 u.cfg) (hg' : GhostsOk N1 N2 g1' g2' u.cfg)
    (dts : List K) (file file' : Vec K) (h : D.Script g1 g2 u fn dts file) (h' : D'.Script g1' g2' u fn dts file') :
    file.Same file' := by
  obtain ⟨f', hf'⟩ := wholeRun_succeeds (N1 := N1) (N2 := N2) u fn ho 0 dts (wholeInit u fn)
  obtain ⟨a, b⟩ := D.C76_file_contents g1 g2 u fn hper hg dts file h f' hf'
  obtain ⟨a', b'⟩ := D'.C76_file_contents g1' g2' u fn hper hg' dts file' h' f' hf'
  refine ⟨a.trans a'.symm, fun n hn => ?_⟩
  obtain ⟨s, p, i, rfl⟩ := file_index n (a ▸ hn)
  exact (b s p i).trans (b' s p i).symm

/-! ## C77 -/

/-- C77: resuming.  A run of `dts1` on one set of processes is dumped; a script on another set of processes loads the file, sets the clock to the time reached,
and runs `dts2`.  It writes the same file as one uninterrupted run of `dts1 ++ dts2`, on any third set of processes. -/
theorem C77_resume {R' R'' : Type} (D' : Decomp N1 N2 R') (D'' : Decomp N1 N2 R'') (g1' g2' g1'' g2'' : ℕ) (u : Setup Ns K)
    (fn : UserFns Ns Np1 Np2 Np3 K) (ho : OptionsOk u.cfg) (hper : PeriodicVelocities N1 N2 u fn) (hg : GhostsOk N1 N2 g1 g2 u.cfg)
    (hg' : GhostsOk N1 N2 g1' g2' u.cfg) (hg'' : GhostsOk N1 N2 g1'' g2'' u.cfg) (dts1 dts2 : List K) (stale : R' → Vec K)
    (file1 file2 file : Vec K) (h1 : D.Script g1 g2 u fn dts1 file1) (h2 : D'.ResumeScript g1' g2' u fn dts1.sum stale dts2 file1 file2)
    (h : D''.Script g1'' g2'' u fn (dts1 ++ dts2) file) : file2.Same file := by
  obtain ⟨f1, hf1⟩ := wholeRun_succeeds (N1 := N1) (N2 := N2) u fn ho 0 dts1 (wholeInit u fn)
  obtain ⟨f2, hf2⟩ := wholeRun_succeeds u fn ho dts1.sum dts2 f1
  have hf : wholeRun u fn 0 (dts1 ++ dts2) (wholeInit u fn) = .ok f2 := by
    rw [wholeRun_append, hf1, zero_add]; exact hf2
  obtain ⟨-, b1⟩ := D.C76_file_contents g1 g2 u fn hper hg dts1 file1 h1 f1 hf1
  obtain ⟨a, b⟩ := D''.C76_file_contents g1'' g2'' u fn hper hg'' _ file h f2 hf
  obtain ⟨A, A', hl, he, hd⟩ := h2
  obtain ⟨hh, hs⟩ := D'.evolves_holds g1' g2' u fn hper hg' _ dts2 A A' f1 f2
    (D'.load_holds g1' g2' A file1 stale hg'.1 hg'.2.1 f1 b1 hl) he hf2
  obtain ⟨a2, b2⟩ := D'.dump_data g1' g2' A' file2 hg'.1 hg'.2.1 f2 hh hs hd
  refine ⟨a2.trans a.symm, fun n hn => ?_⟩
  obtain ⟨s, p, i, rfl⟩ := file_index n (a2 ▸ hn)
  exact (b2 s p i).trans (b s p i).symm

/-- C77: the resuming script never raises on a file of the right length. -/
theorem C77_resume_succeeds (u : Setup Ns K) (fn : UserFns Ns Np1 Np2 Np3 K) (ho : OptionsOk u.cfg)
    (hg : GhostsOk N1 N2 g1 g2 u.cfg) (t : K) (stale : R → Vec K) (dts : List K) (file : Vec K)
    (hfile : file.len = Np1 * Np2 * Np3 * Ns * (N1 * N2)) : ∃ file', D.ResumeScript g1 g2 u fn t stale dts file file' := by
  obtain ⟨A, hA⟩ := (D.C38_load_succeeds (fun r => D.sizes Np1 Np2 Np3 Ns g1 g2 r) g1 g2 .periodic .periodic _ _ stale file
    (D.sizesOk g1 g2 hg.1 hg.2.1)).mp hfile
  obtain ⟨F', hF'⟩ := D.C11_run_exists g1 g2 ((1, 0, 0), (0, 1, 0), (0, 0, 1)) u.cfg ho.1 ho.2
    (clockedSteps (fun t r => D.callbacksAt g1 g2 u fn t r) t dts) (fun r => (A r).toDist _ _)
  obtain ⟨file', hf⟩ := D.C38_dump_succeeds (fun r => D.sizes Np1 Np2 Np3 Ns g1 g2 r) g1 g2 _ _ _ (D.sizesOk g1 g2 hg.1 hg.2.1)
    (D.shaped_ofDist g1 g2 F')
  exact ⟨file', A, _, hA, ⟨F', hF', rfl⟩, hf⟩

/-- C77: a script that resumes without setting the clock (the file does not hold the time, and a new solver starts at `time_elapsed = 0`) still continues the run
correctly if the velocities, forces and sources do not depend on time. -/
theorem C77_resume_autonomous {R' R'' : Type} (D' : Decomp N1 N2 R') (D'' : Decomp N1 N2 R'') (g1' g2' g1'' g2'' : ℕ) (u : Setup Ns K)
    (fn : UserFns Ns Np1 Np2 Np3 K) (ho : OptionsOk u.cfg) (hper : PeriodicVelocities N1 N2 u fn)
    (hq : ∀ s t t' x y p1 p2 p3, fn.Cq s t x y p1 p2 p3 = fn.Cq s t' x y p1 p2 p3)
    (hp : ∀ s t t' x y p1 p2 p3, fn.Cp s t x y p1 p2 p3 = fn.Cp s t' x y p1 p2 p3)
    (hsrc : ∀ t t' x y, fn.source t x y = fn.source t' x y) (hg : GhostsOk N1 N2 g1 g2 u.cfg)
    (hg' : GhostsOk N1 N2 g1' g2' u.cfg) (hg'' : GhostsOk N1 N2 g1'' g2'' u.cfg) (dts1 dts2 : List K) (stale : R' → Vec K)
    (file1 file2 file : Vec K) (h1 : D.Script g1 g2 u fn dts1 file1) (h2 : D'.ResumeScript g1' g2' u fn 0 stale dts2 file1 file2)
    (h : D''.Script g1'' g2'' u fn (dts1 ++ dts2) file) : file2.Same file := by
  refine D.C77_resume g1 g2 D' D'' g1' g2' g1'' g2'' u fn ho hper hg hg' hg'' dts1 dts2 stale file1 file2 file h1 ?_ h
  obtain ⟨A, A', hl, ⟨F', hF', e⟩, hd⟩ := h2
  refine ⟨A, A', hl, ⟨F', ?_, e⟩, hd⟩
  have hcb : ∀ t t' r, D'.callbacksAt g1' g2' u fn t r = D'.callbacksAt g1' g2' u fn t' r := by
    intro t t' r
    simp only [callbacksAt, hq _ t t', hp _ t t', hsrc t t']
  have hst : ∀ (dts : List K) (t t' : K), clockedSteps (fun t r => D'.callbacksAt g1' g2' u fn t r) t dts
      = clockedSteps (fun t r => D'.callbacksAt g1' g2' u fn t r) t' dts := by
    intro dts
    induction dts with
    | nil => intros; rfl
    | cons dt rest ih =>
      intro t t'
      simp only [clockedSteps]
      rw [ih (t + dt) (t' + dt)]
      congr 2
      funext _ r
      exact hcb t t' r
  rw [hst dts2 dts1.sum 0]
  exact hF'

end Decomp

/-- A problem without advection whose source is the clock, starting from zero: one species, one momentum cell. -/
def c77Fn : UserFns 1 1 1 1 ℚ := ⟨fun _ _ _ _ _ _ => 0, fun _ _ _ _ _ _ _ => (0, 0), fun _ _ _ _ _ _ _ => (0, 0, 0), fun t _ _ _ _ _ => t⟩

def c77Setup : Setup 1 ℚ := ⟨0, 0, fun _ => 0, fun _ => 0, fun _ => 0,
  ⟨"FVM", "FVM", "piecewise-constant", "piecewise-constant", "upwind-flux", "upwind-flux", true, false, 1, 1, fun _ => 1, fun _ => 1, fun _ => 1⟩⟩

theorem c77_step (t dt : ℚ) (rest : List ℚ) (f : Dist (Fin 1) (PIdx 1 1 1) (ZMod N1 × ZMod N2) ℚ) :
    wholeRun c77Setup c77Fn t (dt :: rest) f = wholeRun c77Setup c77Fn (t + dt) rest (fun s p i => f s p i + t * dt) := by
  have hs : ∀ g : Dist (Fin 1) (PIdx 1 1 1) (ZMod N1 × ZMod N2) ℚ,
      dfdtFVM ⟨(1, 0, 0), (0, 1, 0), (0, 0, 1), (1, 0), (0, 1)⟩ c77Setup.cfg (wholeCallbacks c77Setup c77Fn t) g = .ok fun _ _ _ => t := by
    intro g
    simp [dfdtFVM, c77Setup, reconMethod, wholeCallbacks, c77Fn, dfdtQ, bind, Except.bind, pure, Except.pure, fluxDiv_eq]
  conv_lhs => rw [wholeRun, clockedSteps]
  simp only [runFVM, timestepFVM, bind, Except.bind, pure, Except.pure, hs]
  rfl

/-- C77 (negative): the clock is not part of the file.  For a source that depends on time, resuming without setting the clock continues a different problem: for every
partition of every grid the resumed script ends with 0 in every cell, the uninterrupted one with 1. -/
theorem C77_clock_not_saved {R R' R'' : Type} (D : Decomp N1 N2 R) (D' : Decomp N1 N2 R') (D'' : Decomp N1 N2 R'')
    (stale : R' → Vec ℚ) (file1 file2 file : Vec ℚ) (h1 : D.Script 1 1 c77Setup c77Fn [1] file1)
    (h2 : D'.ResumeScript 1 1 c77Setup c77Fn 0 stale [1] file1 file2) (h : D''.Script 1 1 c77Setup c77Fn [1, 1] file) :
    (∀ n, n < N1 * N2 → file2.data n = 0) ∧ (∀ n, n < N1 * N2 → file.data n = 1) ∧ ¬ file2.Same file := by
  have hg : GhostsOk N1 N2 1 1 c77Setup.cfg := ⟨Or.inl le_rfl, Or.inl le_rfl, fun m hm => by
    have : m = .piecewiseConstant := by simpa [c77Setup, reconMethod] using hm.symm
    subst this; exact ⟨Or.inl le_rfl, Or.inl le_rfl⟩⟩
  have hper : PeriodicVelocities N1 N2 c77Setup c77Fn := ⟨fun _ _ _ _ _ _ _ => rfl, fun _ _ _ _ _ _ _ => rfl⟩
  have i0 : (wholeInit c77Setup c77Fn : Dist (Fin 1) (PIdx 1 1 1) (ZMod N1 × ZMod N2) ℚ) = fun _ _ _ => 0 := rfl
  have r1 : wholeRun c77Setup c77Fn 0 [1] (wholeInit c77Setup c77Fn : Dist (Fin 1) (PIdx 1 1 1) (ZMod N1 × ZMod N2) ℚ)
      = .ok fun _ _ _ => 0 := by
    rw [c77_step, i0]; simp [wholeRun, clockedSteps, runFVM]
  have r2 : wholeRun c77Setup c77Fn 0 [1] (fun _ _ _ => 0 : Dist (Fin 1) (PIdx 1 1 1) (ZMod N1 × ZMod N2) ℚ) = .ok fun _ _ _ => 0 := by
    rw [c77_step]; simp [wholeRun, clockedSteps, runFVM]
  have r3 : wholeRun c77Setup c77Fn 0 [1, 1] (wholeInit c77Setup c77Fn : Dist (Fin 1) (PIdx 1 1 1) (ZMod N1 × ZMod N2) ℚ)
      = .ok fun _ _ _ => 1 := by
    rw [c77_step, c77_step, i0]; simp [wholeRun, clockedSteps, runFVM]
  obtain ⟨-, b1⟩ := D.C76_file_contents 1 1 c77Setup c77Fn hper hg [1] file1 h1 _ r1
  obtain ⟨a, b⟩ := D''.C76_file_contents 1 1 c77Setup c77Fn hper hg _ file h _ r3
  obtain ⟨A, A', hl, he, hd⟩ := h2
  obtain ⟨hh, hs⟩ := D'.evolves_holds 1 1 c77Setup c77Fn hper hg _ [1] A A' _ _
    (D'.load_holds 1 1 A file1 stale hg.1 hg.2.1 _ b1 hl) he r2
  obtain ⟨a2, b2⟩ := D'.dump_data 1 1 A' file2 hg.1 hg.2.1 _ hh hs hd
  have c2 : ∀ n, n < N1 * N2 → file2.data n = 0 := by
    intro n hn
    obtain ⟨s, p, i, rfl⟩ := Decomp.file_index (Ns := 1) (Np1 := 1) (Np2 := 1) (Np3 := 1) n (by simpa using hn)
    exact b2 s p i
  have c : ∀ n, n < N1 * N2 → file.data n = 1 := by
    intro n hn
    obtain ⟨s, p, i, rfl⟩ := Decomp.file_index (Ns := 1) (Np1 := 1) (Np2 := 1) (Np3 := 1) n (by simpa using hn)
    exact b s p i
  have hN : 0 < N1 * N2 := Nat.mul_pos (NeZero.pos _) (NeZero.pos _)
  refine ⟨c2, c, fun hsame => ?_⟩
  have := hsame.2 0 (by rw [a2]; simpa using hN)
  rw [c2 0 hN, c 0 hN] at this
  exact zero_ne_one this

/-! ## Examples -/

/-- Two species, two momenta along `p1`, a velocity that depends on species, momentum, time and (periodically) on position, and a force. -/
def c76Fn : UserFns 2 2 1 1 ℚ :=
  ⟨fun s q1 q2 p1 _ _ => q1 + q2 * p1 + s.val, fun s t x _ p1 _ _ => (p1 + t + s.val + (if Int.fract (x / 6) = 0 then 1 else 0), 1),
    fun _ t _ _ _ _ _ => (t, 0, 0), fun _ _ _ f s p => - f s p⟩

def c76Setup : Setup 2 ℚ := ⟨0, 0, fun _ => -1, fun _ => 0, fun _ => 0,
  ⟨"FVM", "FVM", "minmod", "ppm", "upwind-flux", "upwind-flux", true, true, 1, 1, fun _ => 1, fun _ => 1, fun _ => 1⟩⟩

theorem c76_periodic : PeriodicVelocities 6 1 c76Setup c76Fn := by
  constructor
  · intro s t x y p1 p2 p3
    simp only [c76Fn, c76Setup, mul_one]
    have : (x + ((6 : ℕ) : ℚ)) / 6 = x / 6 + 1 := by push_cast; ring
    rw [this, Int.fract_add_one]
  · intros; rfl

theorem c76_ghosts : GhostsOk 6 1 2 0 c76Setup.cfg ∧ GhostsOk 6 1 3 2 c76Setup.cfg := by
  have hm : ∀ m, reconMethod c76Setup.cfg.reconstructionInQ = .ok m → m = .minmod := by
    intro m hm; simpa [c76Setup, reconMethod] using hm.symm
  refine ⟨⟨Or.inl (by norm_num), Or.inr ⟨rfl, rfl⟩, fun m h => ?_⟩, ⟨Or.inl (by norm_num), Or.inl (by norm_num), fun m h => ?_⟩⟩ <;>
    obtain rfl := hm m h <;> simp [Recon.radius]

/-- One process that owns the whole grid. -/
def oneProcess (N1 N2 : ℕ) [NeZero N1] [NeZero N2] : Decomp N1 N2 Unit where
  start1 _ := 0
  start2 _ := 0
  n1 _ := N1
  n2 _ := N2
  owner _ := ()
  pos1 _ := NeZero.pos N1
  pos2 _ := NeZero.pos N2
  fits1 _ := by omega
  fits2 _ := by omega
  owner_iff i r := by simp [ZMod.val_lt]

/-- Two processes with ghost widths 2 and 0, and one process with ghost widths 3 and 2, write the same file; and a run of `a` steps on two processes resumed for
`b` steps on one writes the file of the uninterrupted run. -/
example (a b : List ℚ) : (∃ file file', exD.Script 2 0 c76Setup c76Fn a file ∧ (oneProcess 6 1).Script 3 2 c76Setup c76Fn a file' ∧ file.Same file') ∧
    ∃ file1 file2 file, exD.Script 2 0 c76Setup c76Fn a file1 ∧
      (oneProcess 6 1).ResumeScript 3 2 c76Setup c76Fn a.sum (fun _ => ⟨0, fun _ => 0⟩) b file1 file2 ∧
      exD.Script 2 0 c76Setup c76Fn (a ++ b) file ∧ file2.Same file := by
  have ho : OptionsOk c76Setup.cfg := ⟨Or.inr (Or.inl rfl), Or.inr (Or.inr rfl)⟩
  have hg := c76_ghosts
  obtain ⟨file, h⟩ := exD.C76_script_succeeds 2 0 c76Setup c76Fn ho hg.1 a
  obtain ⟨file', h'⟩ := (oneProcess 6 1).C76_script_succeeds 3 2 c76Setup c76Fn ho hg.2 a
  refine ⟨⟨file, file', h, h', exD.C76_same_file 2 0 _ 3 2 c76Setup c76Fn ho c76_periodic hg.1 hg.2 a file file' h h'⟩, ?_⟩
  obtain ⟨f', hf'⟩ := wholeRun_succeeds (N1 := 6) (N2 := 1) c76Setup c76Fn ho 0 a (wholeInit c76Setup c76Fn)
  obtain ⟨file2, h2⟩ := (oneProcess 6 1).C77_resume_succeeds 3 2 c76Setup c76Fn ho hg.2 a.sum (fun _ => ⟨0, fun _ => 0⟩) b file
    (exD.C76_file_contents 2 0 c76Setup c76Fn c76_periodic hg.1 a file h f' hf').1
  obtain ⟨file3, h3⟩ := exD.C76_script_succeeds 2 0 c76Setup c76Fn ho hg.1 (a ++ b)
  exact ⟨file, file2, file3, h, h2, h3, exD.C77_resume 2 0 _ exD 3 2 2 0 c76Setup c76Fn ho c76_periodic hg.1 hg.2 hg.1 a b _ file file2 file3 h h2 h3⟩

end Bolt
