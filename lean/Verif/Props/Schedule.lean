import Verif.Proofs.Schedule
import Verif.Props.BoxExample

/-!
# C96: the schedule of the processes does not matter; what an exception on one process does to the others
-/

set_option linter.unusedSectionVars false

namespace Bolt

section
variable {R : Type} [DecidableEq R] {A : Protocol R} {init : ∀ r, A.St r}

/-- C96: at every moment of every schedule a process that has completed `k` exchanges has exactly the data it has after `k` exchanges when all
processes move together. -/
theorem C96_every_schedule {n : ℕ} {N : Net A} (h : N.Reach n init) (r : R) (s : A.St r) (hs : N.st r = some s) :
    LockStep A init (N.done r) r s := (Net.inv h).state r s hs

/-- C96: two schedules never lead to different data. -/
theorem C96_two_schedules_agree {n n' : ℕ} {N N' : Net A} (h : N.Reach n init) (h' : N'.Reach n' init) (r : R) (hd : N.done r = N'.done r)
    (s s' : A.St r) (hs : N.st r = some s) (hs' : N'.st r = some s') : s = s' := by
  have a := C96_every_schedule h r s hs
  have b := C96_every_schedule h' r s' hs'
  rw [hd] at a
  exact a.unique b

/-- C96: no schedule goes on for ever. -/
theorem C96_no_infinite_schedule [Fintype R] {n : ℕ} (seq : ℕ → Net A) : ¬ ∀ i, Net.Event n (seq i) (seq (i + 1)) := by
  intro h
  have : ∀ i, (seq i).left n + i ≤ (seq 0).left n := by
    intro i
    induction i with
    | zero => simp
    | succ i ih => have := Net.left_event (h i); omega
  have := this ((seq 0).left n + 1)
  omega

/-- C96: no deadlock.  Where nothing more can happen and no process has left its script with an exception, every process is at its end. -/
theorem C96_no_deadlock {n : ℕ} {N : Net A} (h : N.Reach n init) (hs : N.Stuck n) (hr : ∀ r, N.st r ≠ none) (r : R) : N.done r = n := by
  have I := Net.inv h
  by_contra hne
  have key : ∀ k r, N.done r = k → k < n → False := by
    intro k
    induction k using Nat.strong_induction_on with
    | _ k ih =>
      intro r hk hlt
      obtain ⟨s, hst⟩ := Option.ne_none_iff_exists'.mp (hr r)
      obtain ⟨x, _, hx | hx⟩ := Net.stuck_waits I hs hst (hk ▸ hlt)
      · exact ih _ (hk ▸ hx) x rfl (by omega)
      · exact hr x hx.2
  exact key _ r rfl (lt_of_le_of_ne (I.bound r) hne)

/-- C96: a process that stops stops all the others: if process `x` leaves its script in exchange `k`, a process that depends on it through `d`
messages never completes more than `k + d` exchanges, in any schedule. -/
theorem C96_exception_holds_up_others {n k d : ℕ} {x r : R} (hx : RaisesAt A init k x) (hd : Away A d r x) {N : Net A} (h : N.Reach n init) :
    N.done r ≤ k + d := by
  have I := Net.inv h
  induction hd with
  | refl x =>
    cases hst : N.st x with
    | some s => exact hx.not_later (I.state x s hst)
    | none =>
      obtain ⟨⟨s, _, _, hs, _⟩, _⟩ := I.gone x hst
      exact hx.not_later hs
  | cons d r y x hry hyx ih =>
    have c := I.count y r hry
    have := ih hx
    have b : (N.posted y r).toNat ≤ 1 := Bool.toNat_le _
    omega

end

namespace Decomp

variable {N1 N2 : ℕ} {R : Type} [DecidableEq R] (D : Decomp N1 N2 R) (g1 g2 : ℕ) {S K : Type} {Np1 Np2 Np3 : ℕ} [Field K] [LinearOrder K]

/-- C96: whatever the schedule, when all processes have got through the time loop their arrays are those of the synchronous run. -/
theorem C96_run_result (o : BCOptions) (bc1 bc2 : PetscBC) (hset : setupBCs o.nGhost o.name = .ok ((bc1, g1), (bc2, g2)))
    (ax : PIdx Np1 Np2 Np3 × PIdx Np1 Np2 Np3 × PIdx Np1 Np2 Np3) (cfg : FVMConfig S K)
    (blowup : ∀ r, Dist S (PIdx Np1 Np2 Np3) (D.Loc g1 g2 r) K → Bool)
    (steps : List (K × (Fin 2 → ∀ r, D.LocBCData g1 g2 r S Np1 Np2 Np3 K) ×
      (Fin 2 → ∀ r, Callbacks S (PIdx Np1 Np2 Np3) (D.Loc g1 g2 r) K)))
    (F ini loc : ∀ r, Dist S (PIdx Np1 Np2 Np3) (D.Loc g1 g2 r) K) (N : Net (D.fvmProtocol g1 g2 o bc1 bc2 ax cfg blowup))
    (h : N.Reach (2 * steps.length) (D.procStart g1 g2 steps F ini loc)) (hdone : ∀ r, N.done r = 2 * steps.length)
    (s : ∀ r, D.ProcState g1 g2 r S Np1 Np2 Np3 K) (hs : ∀ r, N.st r = some (s r)) :
    D.BcRun g1 g2 o ax cfg steps F (fun r => (s r).f) := by
  have := D.lockstep_run g1 g2 o bc1 bc2 ax cfg blowup hset steps.length steps F ini loc s le_rfl (fun r => by
    rw [← hdone r]; exact C96_every_schedule h r (s r) (hs r))
  rwa [List.take_length] at this

/-- C96: in a box that is periodic or ends at mirrors, every schedule on every decomposition leads to the distribution one process computes. -/
theorem C96_every_schedule_and_decomposition [IsStrictOrderedRing K] [NeZero N1] [NeZero N2] [NeZero Np1] [NeZero Np2] [NeZero Np3]
    (o : BCOptions) (bc1 bc2 : PetscBC) (hset : setupBCs o.nGhost o.name = .ok ((bc1, g1), (bc2, g2)))
    (k1 k2 : AxisEnd) (h1 : AxisSetup k1 (o.name .left) (o.name .right) N1) (h2 : AxisSetup k2 (o.name .bottom) (o.name .top) N2)
    {fl : Wall → PIdx Np1 Np2 Np3 → PIdx Np1 Np2 Np3} (hfl : MomentumMirror o.pGrid fl) (hn : ∀ r, g1 ≤ D.n1 r ∧ g2 ≤ D.n2 r)
    (ax : PIdx Np1 Np2 Np3 × PIdx Np1 Np2 Np3 × PIdx Np1 Np2 Np3) (cfg : FVMConfig S K)
    (hg : ∀ m, reconMethod cfg.reconstructionInQ = .ok m → BoxGhosts m k1 g1 N1 ∧ BoxGhosts m k2 g2 N2)
    (blowup : ∀ r, Dist S (PIdx Np1 Np2 Np3) (D.Loc g1 g2 r) K → Bool)
    (steps : List (K × (Fin 2 → ∀ r, D.LocBCData g1 g2 r S Np1 Np2 Np3 K) ×
      (Fin 2 → ∀ r, Callbacks S (PIdx Np1 Np2 Np3) (D.Loc g1 g2 r) K) × (Fin 2 → Callbacks S (PIdx Np1 Np2 Np3) (ℤ × ℤ) K)))
    (hcb : ∀ st ∈ steps, ∀ j r, D.CallbacksAgreeBox g1 g2 r (st.2.2.1 j r) (st.2.2.2 j))
    (F ini loc : ∀ r, Dist S (PIdx Np1 Np2 Np3) (D.Loc g1 g2 r) K) (f f' : Dist S (PIdx Np1 Np2 Np3) (ZMod N1 × ZMod N2) K)
    (hF : D.Holds g1 g2 F f)
    (h' : boxRun (boxExt k1 k2 (fl .left) (fl .bottom)) ax cfg (steps.map fun st => (st.1, st.2.2.2)) f = .ok f')
    (N : Net (D.fvmProtocol g1 g2 o bc1 bc2 ax cfg blowup))
    (h : N.Reach (2 * steps.length) (D.procStart g1 g2 (steps.map fun st => (st.1, st.2.1, st.2.2.1)) F ini loc))
    (hdone : ∀ r, N.done r = 2 * steps.length)
    (s : ∀ r, D.ProcState g1 g2 r S Np1 Np2 Np3 K) (hs : ∀ r, N.st r = some (s r)) :
    D.Holds g1 g2 (fun r => (s r).f) f' :=
  D.C56_box_decomposition_independence g1 g2 o k1 k2 h1 h2 hfl hn ax cfg hg steps hcb F _ f f' hF
    (D.C96_run_result g1 g2 o bc1 bc2 hset ax cfg blowup _ F ini loc N (by rwa [List.length_map]) (by rwa [List.length_map]) s hs) h'

/-- C96: if nothing raises — the options are available, the wall conditions known, and no array blows up — every schedule can only come to rest
with all processes at the end of the loop. -/
theorem C96_run_completes [IsStrictOrderedRing K] (o : BCOptions) (bc1 bc2 : PetscBC)
    {fl : Wall → PIdx Np1 Np2 Np3 → PIdx Np1 Np2 Np3} (hfl : MomentumMirror o.pGrid fl) (hknown : ∀ w, o.name w ∈ knownBCs)
    (ax : PIdx Np1 Np2 Np3 × PIdx Np1 Np2 Np3 × PIdx Np1 Np2 Np3) (cfg : FVMConfig S K)
    (hq : cfg.reconstructionInQ = "piecewise-constant" ∨ cfg.reconstructionInQ = "minmod" ∨ cfg.reconstructionInQ = "ppm")
    (hp : cfg.reconstructionInP = "piecewise-constant" ∨ cfg.reconstructionInP = "minmod" ∨ cfg.reconstructionInP = "ppm")
    (steps : List (K × (Fin 2 → ∀ r, D.LocBCData g1 g2 r S Np1 Np2 Np3 K) ×
      (Fin 2 → ∀ r, Callbacks S (PIdx Np1 Np2 Np3) (D.Loc g1 g2 r) K)))
    (F ini loc : ∀ r, Dist S (PIdx Np1 Np2 Np3) (D.Loc g1 g2 r) K)
    (N : Net (D.fvmProtocol g1 g2 o bc1 bc2 ax cfg (fun _ _ => false)))
    (h : N.Reach (2 * steps.length) (D.procStart g1 g2 steps F ini loc)) (hs : N.Stuck (2 * steps.length)) :
    (∀ r, N.st r ≠ none) ∧ ∀ r, N.done r = 2 * steps.length := by
  have hno : ∀ r, N.st r ≠ none := by
    intro r hr
    obtain ⟨⟨st, m, e, _, _, he⟩, _⟩ := (Net.inv h).gone r hr
    revert he
    simp only [fvmProtocol]
    cases st.todo with
    | nil => simp
    | cons a rest =>
      obtain ⟨dt, dat, cb⟩ := a
      simp only
      obtain ⟨F0, hF0⟩ := (C30_unknown_raises (D.bcEnv g1 g2 o r (dat (if st.second then 1 else 0))) (fl := fl) hfl
        (D.received g1 g2 bc1 bc2 r st.localVec m)).2 (by rintro ⟨w, _, h⟩; exact h (hknown w))
      obtain ⟨k, hk⟩ := (C09_slope_ok_iff (D.locAxes g1 g2 r ax.1 ax.2.1 ax.2.2) cfg (cb (if st.second then 1 else 0)) F0).mpr
        ⟨fun _ => hq, fun _ => hp⟩
      rw [hF0]
      simp only [hk]
      cases st.second <;> simp
  exact ⟨hno, C96_no_deadlock h hs hno⟩

end Decomp

/-! ## witnesses: six cells in a ring, shared by two processes; the time loop -/

/-- Periodic in the first direction, one row of cells. -/
def ringOpts : BCOptions := ⟨2, fun w => if w = .left ∨ w = .right then "periodic" else "none", "cartesian", "FVM"⟩

theorem ringOpts_setup : setupBCs ringOpts.nGhost ringOpts.name = .ok ((.periodic, 2), (.none, 0)) := by rfl

/-- A run of any number of minmod steps with moving particles: it comes to rest in every schedule, and only at the end of the loop, with the
arrays of the synchronous run. -/
example (n : ℕ) (dt : ℚ) (F : ∀ r, Dist Unit (PIdx 2 1 1) (exD.Loc 2 0 r) ℚ) :
    ∃ N : Net (exD.fvmProtocol 2 0 boxOpts .ghosted .none ((1, 0, 0), (0, 1, 0), (0, 0, 1)) c12Cfg (fun _ _ => false)),
      N.Reach (2 * n) (exD.procStart 2 0 (List.replicate n (dt, fun _ r => boxDat r, fun _ _ => boxCb _)) F F F) ∧ N.Stuck (2 * n) ∧
      ∃ s : ∀ r, exD.ProcState 2 0 r Unit 2 1 1 ℚ, (∀ r, N.st r = some (s r)) ∧
        exD.BcRun 2 0 boxOpts ((1, 0, 0), (0, 1, 0), (0, 0, 1)) c12Cfg (List.replicate n (dt, fun _ r => boxDat r, fun _ _ => boxCb _)) F
          (fun r => (s r).f) := by
  obtain ⟨N, hN, hs⟩ := Net.reach_stuck (n := 2 * n) (Net.Reach.start (A := exD.fvmProtocol 2 0 boxOpts .ghosted .none
    ((1, 0, 0), (0, 1, 0), (0, 0, 1)) c12Cfg (fun _ _ => false)) (n := 2 * n)
    (init := exD.procStart 2 0 (List.replicate n (dt, fun _ r => boxDat r, fun _ _ => boxCb _)) F F F))
  have hl : (List.replicate n ((dt, fun _ r => boxDat r, fun _ _ => boxCb _) : ℚ × (Fin 2 → ∀ r, exD.LocBCData 2 0 r Unit 2 1 1 ℚ) ×
      (Fin 2 → ∀ r, Callbacks Unit (PIdx 2 1 1) (exD.Loc 2 0 r) ℚ))).length = n := List.length_replicate
  obtain ⟨h1, h2⟩ := exD.C96_run_completes 2 0 boxOpts .ghosted .none (fl := flipCartesian) (Or.inl ⟨rfl, rfl⟩)
    (by intro w; cases w <;> decide) ((1, 0, 0), (0, 1, 0), (0, 0, 1)) c12Cfg (Or.inr (Or.inl rfl)) (Or.inr (Or.inl rfl))
    (List.replicate n (dt, fun _ r => boxDat r, fun _ _ => boxCb _)) F F F N (by rw [hl]; exact hN) (by rw [hl]; exact hs)
  have h3 : ∀ r, ∃ s, N.st r = some s := fun r => Option.ne_none_iff_exists'.mp (h1 r)
  choose s hst using h3
  exact ⟨N, hN, hs, s, hst, exD.C96_run_result 2 0 boxOpts .ghosted .none boxOpts_setup ((1, 0, 0), (0, 1, 0), (0, 0, 1)) c12Cfg
    (fun _ _ => false) _ F F F N (by rw [hl]; exact hN) h2 s hst⟩

/-- First order, source on. -/
def hotCfg : FVMConfig Unit ℚ :=
  ⟨"FVM", "FVM", "piecewise-constant", "piecewise-constant", "upwind-flux", "upwind-flux", true, false, 1, 1, fun _ => 1, fun _ => 1, fun _ => 1⟩

/-- Nothing moves; a source of strength 20 acts at the first cell. -/
def hotCb (r : Fin 2) : Callbacks Unit (PIdx 2 1 1) (exD.Loc 2 0 r) ℚ :=
  ⟨fun _ _ _ => 0, fun _ _ _ => 0, fun _ _ _ => 0, fun _ _ _ => 0, fun _ _ _ => 0, fun _ _ _ l => if globCoord (exD.start1 r) 2 l.1 = 0 then 20 else 0⟩

open Classical in
/-- Numbers above 10 cannot be represented: `check_divergence` finds an infinity. -/
noncomputable def hotBlowup (r : Fin 2) (f : Dist Unit (PIdx 2 1 1) (exD.Loc 2 0 r) ℚ) : Bool := decide (∃ s p l, 10 < f s p l)

/-- The time loop of this run. -/
noncomputable def hotA : Protocol (Fin 2) :=
  exD.fvmProtocol 2 0 ringOpts .periodic .none ((1, 0, 0), (0, 1, 0), (0, 0, 1)) hotCfg hotBlowup

/-- `n` steps of size 1 from an empty distribution. -/
def hotStart (n : ℕ) : ∀ r, exD.ProcState 2 0 r Unit 2 1 1 ℚ :=
  exD.procStart 2 0 (List.replicate n (1, fun _ r => boxDat r, fun _ r => hotCb r)) (fun _ _ _ _ => 0) (fun _ _ _ _ => 0) (fun _ _ _ _ => 0)

theorem ring_bcs (r : Fin 2) (dat : exD.LocBCData 2 0 r Unit 2 1 1 ℚ) (G : Dist Unit (PIdx 2 1 1) (exD.Loc 2 0 r) ℚ) :
    applyBcsF (exD.bcEnv 2 0 ringOpts r dat) G = .ok G := by
  have w : ∀ w, atWall (exD.bcEnv 2 0 ringOpts r dat) w G = .ok G := by
    intro w
    have hn : (exD.bcEnv 2 0 ringOpts r dat).name w = "periodic" ∨ (exD.bcEnv 2 0 ringOpts r dat).name w = "none" := by
      cases w <;> first | exact Or.inl rfl | exact Or.inr rfl
    simp only [atWall, applyWall]
    rcases hn with hn | hn <;> simp [hn]
  simp only [applyBcsF, bind, Except.bind, w]

/-- The source of process `r`. -/
def hotSrc (r : Fin 2) : Dist Unit (PIdx 2 1 1) (exD.Loc 2 0 r) ℚ := fun _ _ l => if globCoord (exD.start1 r) 2 l.1 = 0 then 20 else 0

theorem hot_slope (r : Fin 2) (G : Dist Unit (PIdx 2 1 1) (exD.Loc 2 0 r) ℚ) :
    dfdtFVM (exD.locAxes 2 0 r (1, 0, 0) (0, 1, 0) (0, 0, 1)) hotCfg (hotCb r) G = .ok (hotSrc r) := by
  have e : reconMethod hotCfg.reconstructionInQ = .ok .piecewiseConstant := by rfl
  simp only [dfdtFVM, bind, Except.bind, pure, Except.pure, e]
  simp [hotCfg, hotCb, dfdtQ, fluxDiv, leftFlux, afShift]
  rfl

/-- A process between the two stages of the first step. -/
def hotMid (n : ℕ) (r : Fin 2) : exD.ProcState 2 0 r Unit 2 1 1 ℚ :=
  ⟨fun s p l => 0 + hotSrc r s p l * (1 / 2), fun _ _ _ => 0, fun _ _ _ => 0, true, (hotStart (n + 1) r).todo⟩

/-- A process in the first stage of the first step always gets on. -/
theorem hot_first (n : ℕ) (r : Fin 2) (m : ∀ x, hotA.needs r x → hotA.Msg x) (h : ∀ x h, m x h = fun _ _ _ => 0) :
    hotA.step r (hotStart (n + 1) r) m = .ok (hotMid n r) := by
  have hG : exD.received 2 0 .periodic .none r (fun _ _ _ => (0 : ℚ)) m = fun (_ : Unit) (_ : PIdx 2 1 1) _ => 0 := by
    funext s p l
    simp only [Decomp.received]
    split_ifs with hl
    · exact congrFun (congrFun (congrFun (h _ _) s) p) _
    · rfl
  simp only [hotA, Decomp.fvmProtocol, hotStart, Decomp.procStart, List.replicate_succ, List.map_cons, Bool.false_eq_true, if_false]
  rw [ring_bcs]
  simp only [hot_slope, hG]
  rfl

/-- The second stage. -/
theorem hot_second (r : Fin 2) (st : exD.ProcState 2 0 r Unit 2 1 1 ℚ) (h2 : st.second = true) (hi : st.initial = fun _ _ _ => 0) {n : ℕ}
    (ht : st.todo = (hotStart (n + 1) r).todo) (m : ∀ x, hotA.needs r x → hotA.Msg x) :
    (hotBlowup r (fun s p l => 0 + hotSrc r s p l * 1) = true → hotA.step r st m = .error .systemExit) ∧
    (hotBlowup r (fun s p l => 0 + hotSrc r s p l * 1) = false → ∀ e, hotA.step r st m ≠ .error e) := by
  have e : st.todo = (1, fun _ => boxDat r, fun _ => hotCb r) :: (hotStart n r).todo := by
    rw [ht]
    simp only [hotStart, Decomp.procStart, List.replicate_succ, List.map_cons]
  simp only [hotA, Decomp.fvmProtocol, e, h2, if_true]
  rw [ring_bcs]
  simp only [hot_slope, hi]
  constructor
  · intro h; rw [if_pos h]
  · intro h e
    rw [if_neg (by rw [h]; decide)]
    exact fun h => by cases h

theorem hot_one (n : ℕ) (r : Fin 2) : LockStep hotA (hotStart (n + 1)) 1 r (hotMid n r) :=
  ⟨hotStart (n + 1) r, fun x _ => hotA.send x (hotStart (n + 1) x), rfl, fun x _ => ⟨hotStart (n + 1) x, rfl, rfl⟩, hot_first n r _ (fun _ _ => rfl)⟩

theorem hot_blowup0 : hotBlowup 0 (fun s p l => 0 + hotSrc 0 s p l * 1) = true := by
  classical
  simp only [hotBlowup, decide_eq_true_eq]
  refine ⟨(), 0, ((2 : ZMod 7), (0 : ZMod 1)), ?_⟩
  have h2 : globCoord (exD.start1 0) 2 (2 : ZMod 7) = 0 := by decide
  have e : hotSrc 0 () 0 ((2 : ZMod 7), (0 : ZMod 1)) = 20 := if_pos h2
  rw [e]; norm_num

theorem hot_blowup1 : hotBlowup 1 (fun s p l => 0 + hotSrc 1 s p l * 1) = false := by
  classical
  simp only [hotBlowup, decide_eq_false_iff_not]
  rintro ⟨s, p, l, h⟩
  have h2 : globCoord (exD.start1 1) 2 l.1 ≠ 0 := by
    have : globCoord (exD.start1 1) 2 l.1 = 3 + (l.1.val : ℤ) - 2 := rfl
    omega
  simp only [hotSrc, if_neg h2] at h
  norm_num at h

/-- C96, negative part: `check_divergence` is meant to terminate the program when the values become infinite anywhere.  Here they do so on one of
two processes in the first step.  That process leaves; the other neither ends nor raises: in every schedule it waits for ever in the next step. -/
theorem C96_divergence_stops_only_one_process (n : ℕ) (N : Net hotA) (h : N.Reach (2 * (n + 2)) (hotStart (n + 2)))
    (hs : N.Stuck (2 * (n + 2))) : N.st 0 = none ∧ (∃ s, N.st 1 = some s) ∧ N.done 1 < 2 * (n + 2) := by
  have I := Net.inv h
  have r0 : RaisesAt hotA (hotStart (n + 2)) 1 0 := by
    refine ⟨hotMid (n + 1) 0, fun x _ => hotA.send x (hotMid (n + 1) x), .systemExit, hot_one (n + 1) 0, fun x _ => ⟨_, hot_one (n + 1) x, rfl⟩, ?_⟩
    exact (hot_second 0 (hotMid (n + 1) 0) rfl rfl (n := n + 1) rfl _).1 hot_blowup0
  have needs : hotA.needs 1 0 := ⟨((0 : ZMod 7), (0 : ZMod 1)), ⟨Or.inl rfl, Or.inr (by decide)⟩, by decide⟩
  have d1 : N.done 1 ≤ 2 := C96_exception_holds_up_others r0 (.cons 0 1 0 0 needs (.refl 0)) h
  have d0 : N.done 0 ≤ 1 := C96_exception_holds_up_others r0 (.refl 0) h
  have s1 : N.st 1 ≠ none := by
    intro hn
    obtain ⟨⟨s, m, e, hl, hm, he⟩, _⟩ := I.gone 1 hn
    have hk : N.done 1 = 0 ∨ N.done 1 = 1 ∨ N.done 1 = 2 := by omega
    rcases hk with hk | hk | hk <;> rw [hk] at hl hm
    · obtain rfl : s = hotStart (n + 2) 1 := hl
      have := hot_first (n + 1) 1 m (fun x hx => by
        obtain ⟨t, ht, e⟩ := hm x hx
        rw [e, show t = hotStart (n + 2) x from ht]
        rfl)
      rw [this] at he
      cases he
    · obtain rfl := hl.unique (hot_one (n + 1) 1)
      exact (hot_second 1 (hotMid (n + 1) 1) rfl rfl (n := n + 1) rfl m).2 hot_blowup1 e he
    · obtain ⟨t, ht, _⟩ := hm 0 needs
      exact absurd (r0.not_later ht) (by norm_num)
  obtain ⟨t1, ht1⟩ := Option.ne_none_iff_exists'.mp s1
  refine ⟨?_, ⟨t1, ht1⟩, by omega⟩
  by_contra hn
  obtain ⟨t0, ht0⟩ := Option.ne_none_iff_exists'.mp hn
  have alive : ∀ r, N.st r ≠ none := by
    intro r; fin_cases r
    · exact hn
    · exact s1
  have := C96_no_deadlock h hs alive 0
  omega

/-- Such a schedule exists. -/
example (n : ℕ) : ∃ N : Net hotA, N.Reach (2 * (n + 2)) (hotStart (n + 2)) ∧ N.Stuck (2 * (n + 2)) := Net.reach_stuck Net.Reach.start

end Bolt
