import Verif.Proofs.CoroutineTotal
import Verif.Props.CoupledDecomp

/-!
# C103: coupled runs — the schedule of the processes does not matter, and the two kinds of exchange never get into each other's way
-/

set_option linter.unusedSectionVars false

namespace Bolt

section
variable {R X : Type} [DecidableEq R] [DecidableEq X] {W : Wire R X} {A : R → Type} {init : ∀ r, Proc W r (A r)} {l : List X}

/-- C103: if every process takes part in the same sequence of exchanges, then at every moment of every schedule a process that has completed `j`
exchanges has exactly the data it has after `j` exchanges when all processes move together. -/
theorem C103_every_schedule (hl : ∀ r, Follows (fun _ => True) l (init r).script) {N : Fleet W A} (h : N.Reach init) (r : R) :
    Together init (N.done r) r (N.st r) := (Fleet.inv hl h).state r

/-- C103: two schedules never lead to different data. -/
theorem C103_two_schedules_agree (hl : ∀ r, Follows (fun _ => True) l (init r).script) {N N' : Fleet W A} (h : N.Reach init)
    (h' : N'.Reach init) (r : R) (hd : N.done r = N'.done r) : N.st r = N'.st r := by
  have a := C103_every_schedule hl h r
  rw [hd] at a
  exact a.unique (C103_every_schedule hl h' r)

/-- C103: no schedule goes on for ever. -/
theorem C103_no_infinite_schedule [Fintype R] (hl : ∀ r, Follows (fun _ => True) l (init r).script) (seq : ℕ → Fleet W A)
    (h0 : (seq 0).Reach init) : ¬ ∀ i, Fleet.Event (seq i) (seq (i + 1)) := by
  intro h
  have hr : ∀ i, (seq i).Reach init := by
    intro i
    induction i with
    | zero => exact h0
    | succ i ih => exact .step _ _ ih (h i)
  have : ∀ i, (seq i).left l + i ≤ (seq 0).left l := by
    intro i
    induction i with
    | zero => simp
    | succ i ih => have := Fleet.left_event hl (Fleet.inv hl (hr i)) (h i); omega
  have := this ((seq 0).left l + 1)
  omega

/-- C103: no deadlock.  Where nothing more can happen and no process has left its script with an exception, every process has ended. -/
theorem C103_no_deadlock (hl : ∀ r, Follows (fun _ => True) l (init r).script) {N : Fleet W A} (h : N.Reach init) (hs : N.Stuck)
    (hr : ∀ r e, (N.st r).script ≠ .raise e) (r : R) : (∃ a, (N.st r).script = .ret a) ∧ N.done r = l.length := by
  have I := Fleet.inv hl h
  have key : ∀ j r, N.done r = j → ∀ k v next, (N.st r).script ≠ .xch k v next := by
    intro j
    induction j using Nat.strong_induction_on with
    | _ j ih =>
      intro r hj k v next hx
      have hlt : N.done r < l.length := (List.getElem?_eq_some_iff.mp (Fleet.kind_at hl I hx)).1
      obtain ⟨x, _, hw⟩ := Fleet.stuck_waits hl I hs hx
      have hle : N.done x ≤ N.done r := by rcases hw with h | h <;> omega
      have hend : ∀ k v n, (N.st x).script ≠ .xch k v n := by
        rcases hw with h | h
        · exact ih _ (hj ▸ h) x rfl
        · exact h.2
      have hf := (I.state x).follows hl
      cases hst : (N.st x).script with
      | ret a =>
        rw [hst] at hf
        have := hf.ret_inv.1
        rw [List.drop_eq_nil_iff] at this
        omega
      | raise e => exact hr x e hst
      | xch k v n => exact hend k v n hst
  have hf := (I.state r).follows hl
  cases hst : (N.st r).script with
  | ret a =>
    refine ⟨⟨a, rfl⟩, le_antisymm ((I.state r).bound hl) ?_⟩
    rw [hst] at hf
    have := hf.ret_inv.1
    rwa [List.drop_eq_nil_iff] at this
  | raise e => exact absurd hst (hr r e)
  | xch k v n => exact absurd hst (key _ r rfl k v n)

/-- C103: a process that leaves its script with an exception holds up the others: no process completes an exchange in which it waits for the
one that has left, nor one in which it waits for a process held up before, in any schedule. -/
theorem C103_exception_holds_up_others (hl : ∀ r, Follows (fun _ => True) l (init r).script) {x r : R} {i j : ℕ} (hx : RaisesAfter init i x)
    (hd : HeldUp W l x i r j) {N : Fleet W A} (h : N.Reach init) : N.done r ≤ j := by
  have I := Fleet.inv hl h
  induction hd with
  | self =>
    obtain ⟨p, e, hp, he⟩ := hx
    by_contra hlt
    obtain ⟨k, v, n, hs⟩ := (I.state x).xch_of_lt (j := i) (by omega) hp
    rw [he] at hs
    cases hs
  | direct r j k hij hk hn =>
    obtain ⟨p, e, hp, he⟩ := hx
    by_contra hlt
    have hx : N.done x ≤ i := by
      by_contra hgt
      obtain ⟨k, v, n, hs⟩ := (I.state x).xch_of_lt (j := i) (by omega) hp
      rw [he] at hs
      cases hs
    have hsent : N.sent x r ≤ i := by
      rcases hx.lt_or_eq with h1 | h1
      · have b : (N.posted x r).toNat ≤ 1 := Bool.toNat_le _
        simp only [Fleet.sent]; omega
      · have : N.posted x r = false := by
          by_contra hpp
          obtain ⟨k', v', n', hs', _⟩ := I.posts x r (by simpa using hpp)
          have hT := I.state x
          rw [h1] at hT
          rw [hT.unique hp, he] at hs'
          cases hs'
        simp [Fleet.sent, this, h1]
    exact I.passed x r j (by omega) (by omega) k hk hn
  | wait r y a j k hy haj hk hn ih =>
    by_contra hlt
    have b : (N.posted y r).toNat ≤ 1 := Bool.toNat_le _
    exact I.passed y r j (by simp only [Fleet.sent]; omega) (by omega) k hk hn

/-- C103: in particular a process that would still have to wait for the one that has left never gets to its end, in any schedule. -/
theorem C103_no_end_after_exception (hl : ∀ r, Follows (fun _ => True) l (init r).script) {x r : R} {i j : ℕ} (hx : RaisesAfter init i x)
    (hd : HeldUp W l x i r j) (hj : j < l.length) {N : Fleet W A} (h : N.Reach init) (a : A r) : (N.st r).script ≠ .ret a := by
  intro ha
  have hb := C103_exception_holds_up_others hl hx hd h
  have hf := ((Fleet.inv hl h).state r).follows hl
  rw [ha] at hf
  have := hf.ret_inv.1
  rw [List.drop_eq_nil_iff] at this
  omega

end

/-! ### a small case: three processes in a row, each waiting for its left neighbour; the first fails after one exchange -/

/-- Numbers go to the right. -/
def rowWire : Wire (Fin 3) Unit where
  Arr _ _ := ℕ
  Msg _ _ := ℕ
  needs _ r x := x.val + 1 = r.val
  pack _ _ v := v
  unpack r _ own m := if h : r.val = 0 then own else m ⟨r.val - 1, by omega⟩ (by simp only; omega)

/-- Three exchanges; the first process gives up after the first one. -/
def rowInit : ∀ r, Proc rowWire r ℕ := fun r =>
  ⟨.xch () r.val fun (v : ℕ) => if r = 0 then .raise .systemExit else
    .xch () (v + 1 : ℕ) fun (v : ℕ) => .xch () (v + 1 : ℕ) fun (v : ℕ) => .ret v, fun _ => (0 : ℕ)⟩

theorem rowInit_follows (r : Fin 3) : Follows (fun _ => True) [(), (), ()] (rowInit r).script := by
  unfold rowInit
  refine .xch () _ _ _ fun w => ?_
  by_cases h : r = 0
  · rw [if_pos h]; exact .raise _ _
  · rw [if_neg h]
    exact .xch () _ _ _ fun w => .xch () _ _ _ fun w => .ret w trivial

/-- The second process never completes its second exchange, the last one never its third: none of the three comes to its end. -/
example (N : Fleet rowWire fun _ => ℕ) (h : N.Reach rowInit) : N.done 1 ≤ 1 ∧ N.done 2 ≤ 2 ∧ ∀ r a, (N.st r).script ≠ .ret a := by
  have hx : RaisesAfter rowInit 1 0 := by
    refine ⟨(rowInit 0).resume () (rowWire.unpack 0 () ((rowInit 0).vec ()) fun x _ => x.val) fun v => .raise .systemExit, .systemExit,
      ⟨rowInit 0, (), (0 : ℕ), _, fun x _ => x.val, rfl, rfl, ?_, rfl⟩, rfl⟩
    intro x hx
    exact absurd (show x.val + 1 = 0 from hx) (by omega)
  have h1 : HeldUp rowWire [(), (), ()] 0 1 1 1 := .direct 1 1 () le_rfl rfl rfl
  have h2 : HeldUp rowWire [(), (), ()] 0 1 2 2 := .wait 2 1 1 2 () h1 (by omega) rfl rfl
  refine ⟨C103_exception_holds_up_others rowInit_follows hx h1 h, C103_exception_holds_up_others rowInit_follows hx h2 h, ?_⟩
  intro r
  fin_cases r
  · exact C103_no_end_after_exception rowInit_follows hx .self (by decide) h
  · exact C103_no_end_after_exception rowInit_follows hx h1 (by decide) h
  · exact C103_no_end_after_exception rowInit_follows hx h2 (by decide) h

namespace Decomp

variable {N1 N2 : ℕ} {R : Type} [DecidableEq R] (D : Decomp N1 N2 R) (g1 g2 : ℕ) {S K : Type} [Fintype S] {Np1 Np2 Np3 : ℕ}
  [Fintype (PIdx Np1 Np2 Np3)] [Field K] [LinearOrder K] [∀ r, Fintype (D.Loc g1 g2 r)]

/-- C103: the sequence of exchanges of a coupled run is the same for all processes and does not depend on the data: per step, the distribution
before each of the two slope evaluations, and two (in the hybrid model three) exchanges of the fields in the one that begins with the flag
down. -/
theorem C103_exchanges {Q : Type} (o : BCOptions) (c : CoupledConfig S (PIdx Np1 Np2 Np3) Q K) (hyb : S) (r : R)
    (blowup : Dist S (PIdx Np1 Np2 Np3) (D.Loc g1 g2 r) K → Bool) (steps : List (K × D.CoupledInput g1 g2 S Np1 Np2 Np3 K))
    (F : Dist S (PIdx Np1 Np2 Np3) (D.Loc g1 g2 r) K) (σ : FieldState (D.Loc g1 g2 r) K) :
    Follows (fun _ => True) (runKinds c steps.length σ.flag) (D.runScript g1 g2 o c hyb r blowup steps F σ) :=
  D.follows_run g1 g2 c hyb r blowup steps F σ

/-- C103: whatever the schedule, when all processes have got through the time loop their distributions and fields are those of the synchronous
run. -/
theorem C103_run_result {Q : Type} (o : BCOptions) (bcf bce : PetscBC × PetscBC)
    (hset : setupBCs o.nGhost o.name = .ok ((bcf.1, g1), (bcf.2, g2))) (hty : FieldTypes g1 g2 o bce.1 bce.2)
    (c : CoupledConfig S (PIdx Np1 Np2 Np3) Q K) (hyb : S) (blowup : ∀ r, Dist S (PIdx Np1 Np2 Np3) (D.Loc g1 g2 r) K → Bool)
    (steps : List (K × D.CoupledInput g1 g2 S Np1 Np2 Np3 K)) (F : ∀ r, Dist S (PIdx Np1 Np2 Np3) (D.Loc g1 g2 r) K)
    (σ : ∀ r, FieldState (D.Loc g1 g2 r) K) (b : Bool) (hb : ∀ r, (σ r).flag = b)
    (vec : ∀ r k, KindArr S Np1 Np2 Np3 K (D.Loc g1 g2 r) k)
    (N : Fleet (D.coupledWire g1 g2 S Np1 Np2 Np3 K bcf bce) fun r => Dist S (PIdx Np1 Np2 Np3) (D.Loc g1 g2 r) K × FieldState (D.Loc g1 g2 r) K)
    (h : N.Reach fun r => ⟨D.runScript g1 g2 o c hyb r (blowup r) steps (F r) (σ r), vec r⟩)
    (F' : ∀ r, Dist S (PIdx Np1 Np2 Np3) (D.Loc g1 g2 r) K) (σ' : ∀ r, FieldState (D.Loc g1 g2 r) K)
    (hend : ∀ r, (N.st r).script = .ret (F' r, σ' r)) :
    D.RunCoupled g1 g2 o c hyb steps F σ F' σ' := by
  have hl : ∀ r, Follows (fun _ => True) (runKinds c steps.length b)
      (D.runScript g1 g2 o c hyb r (blowup r) steps (F r) (σ r)) := fun r => by
    rw [← hb r]; exact D.C103_exchanges g1 g2 o c hyb r (blowup r) steps (F r) (σ r)
  refine D.ends_run g1 g2 hset hty steps hb (vec := vec) (blowup := blowup) (a := fun r => (F' r, σ' r))
    ⟨(runKinds c steps.length b).length, fun r => ?_⟩
  have hT := C103_every_schedule hl h r
  have hf := hT.follows hl
  rw [hend r] at hf
  have h1 := hf.ret_inv.1
  rw [List.drop_eq_nil_iff] at h1
  have h2 := hT.bound hl
  rw [le_antisymm h1 h2]
  refine ⟨(N.st r).vec, ?_⟩
  rw [← hend r]
  exact hT

/-- C103: on a periodic grid every schedule on every decomposition leads to the distribution and the fields one process computes. -/
theorem C103_every_schedule_and_decomposition [IsStrictOrderedRing K] [NeZero N1] [NeZero N2] [Fintype (ZMod N1 × ZMod N2)]
    {o : BCOptions} (bcf bce : PetscBC × PetscBC)
    (hset : setupBCs o.nGhost o.name = .ok ((bcf.1, g1), (bcf.2, g2))) (hty : FieldTypes g1 g2 o bce.1 bce.2)
    {c : CoupledConfig S (PIdx Np1 Np2 Np3) (ZMod N1 × ZMod N2) K} (hc : GridConfig g1 g2 o c) (hyb : S) (poisson)
    (blowup : ∀ r, Dist S (PIdx Np1 Np2 Np3) (D.Loc g1 g2 r) K → Bool)
    (steps : List (K × D.CoupledInput g1 g2 S Np1 Np2 Np3 K × (Fin 2 → CoupledCallbacks S (PIdx Np1 Np2 Np3) (ZMod N1 × ZMod N2) K)))
    (hcb : ∀ st ∈ steps, ∀ k r, D.CoupledAgree g1 g2 r (st.2.1.cb k r) (st.2.2 k))
    (F : ∀ r, Dist S (PIdx Np1 Np2 Np3) (D.Loc g1 g2 r) K) (σ : ∀ r, FieldState (D.Loc g1 g2 r) K)
    (vec : ∀ r k, KindArr S Np1 Np2 Np3 K (D.Loc g1 g2 r) k)
    (st st' : Dist S (PIdx Np1 Np2 Np3) (ZMod N1 × ZMod N2) K × FieldState (ZMod N1 × ZMod N2) K)
    (hF : D.Holds g1 g2 F st.1) (hσ : D.FieldsHold g1 g2 σ st.2)
    (N : Fleet (D.coupledWire g1 g2 S Np1 Np2 Np3 K bcf bce) fun r => Dist S (PIdx Np1 Np2 Np3) (D.Loc g1 g2 r) K × FieldState (D.Loc g1 g2 r) K)
    (h : N.Reach fun r => ⟨D.runScript g1 g2 o c hyb r (blowup r) (steps.map fun s => (s.1, s.2.1)) (F r) (σ r), vec r⟩)
    (F' : ∀ r, Dist S (PIdx Np1 Np2 Np3) (D.Loc g1 g2 r) K) (σ' : ∀ r, FieldState (D.Loc g1 g2 r) K)
    (hend : ∀ r, (N.st r).script = .ret (F' r, σ' r))
    (h' : runCoupled c poisson hyb (steps.map fun s => (s.1, s.2.2)) st = .ok st') :
    D.Holds g1 g2 F' st'.1 ∧ D.FieldsHold g1 g2 σ' st'.2 :=
  D.C67_coupled_decomposition_independence g1 g2 hc hyb poisson steps hcb F F' σ σ' st st' hF hσ
    (D.C103_run_result g1 g2 o bcf bce hset hty c hyb blowup _ F σ st.2.flag hσ.flag vec N h F' σ' hend) h'

/-- C103: if the options are implemented ones and no array blows up, every schedule can only come to rest with all processes at the end of the
time loop — with kinetic electrons and in the hybrid model, whose assertion about the current passes on every process. -/
theorem C103_run_completes [IsStrictOrderedRing K] [NeZero N1] [NeZero N2] {o : BCOptions} (bcf bce : PetscBC × PetscBC)
    (hty : FieldTypes g1 g2 o bce.1 bce.2)
    {c : CoupledConfig S (PIdx Np1 Np2 Np3) (ZMod N1 × ZMod N2) K} (hc : GridConfig g1 g2 o c) (hi : Implemented c) (hyb : S)
    (steps : List (K × D.CoupledInput g1 g2 S Np1 Np2 Np3 K))
    (F : ∀ r, Dist S (PIdx Np1 Np2 Np3) (D.Loc g1 g2 r) K) (σ : ∀ r, FieldState (D.Loc g1 g2 r) K) (b : Bool) (hb : ∀ r, (σ r).flag = b)
    (vec : ∀ r k, KindArr S Np1 Np2 Np3 K (D.Loc g1 g2 r) k)
    (N : Fleet (D.coupledWire g1 g2 S Np1 Np2 Np3 K bcf bce) fun r => Dist S (PIdx Np1 Np2 Np3) (D.Loc g1 g2 r) K × FieldState (D.Loc g1 g2 r) K)
    (h : N.Reach fun r => ⟨D.runScript g1 g2 o c hyb r (fun _ => false) steps (F r) (σ r), vec r⟩) (hs : N.Stuck) (r : R) :
    ∃ a, (N.st r).script = .ret a := by
  have hl : ∀ r, Follows (fun _ => True) (runKinds c steps.length b)
      (D.runScript g1 g2 o c hyb r (fun _ => false) steps (F r) (σ r)) := fun r => by
    rw [← hb r]; exact D.C103_exchanges g1 g2 o c hyb r (fun _ => false) steps (F r) (σ r)
  obtain ⟨a, n, hE⟩ := D.completes_run g1 g2 (bcf := bcf) (bce := bce) hty hc hi hyb steps F σ b hb vec
  refine (C103_no_deadlock hl h hs ?_ r).1
  intro r e he
  have hT := C103_every_schedule hl h r
  obtain ⟨vec', hr⟩ := hE r
  rcases lt_trichotomy (N.done r) n with hlt | heq | hgt
  · obtain ⟨k, v, nx, hx⟩ := hr.xch_of_lt hlt hT
    rw [he] at hx; cases hx
  · rw [← heq] at hr
    have := congrArg Proc.script (hr.unique hT)
    rw [he] at this
    cases this
  · obtain ⟨k, v, nx, hx⟩ := hT.xch_of_lt hgt hr
    cases hx

end Decomp

/-! ### a concrete coupled run -/

/-- Six cells on two processes, kinetic electrons or the hybrid model, any number of steps: some schedule comes to rest; every schedule that
comes to rest has all processes at the end, with the distribution and the fields of the whole grid. -/
example (b : Bool) (n : ℕ) (dt : ℚ) (dat : ∀ r, exD.LocBCData 3 0 r Unit 2 1 1 ℚ) (user : ∀ r, exD.LocFieldBCs 3 0 r ℚ)
    [∀ r, Fintype (exD.Loc 3 0 r)] (vec : ∀ r k, Decomp.KindArr Unit 2 1 1 ℚ (exD.Loc 3 0 r) k) :
    ∃ (σ : ∀ r, FieldState (exD.Loc 3 0 r) ℚ) (τ : _) (st' : _), initFields (c67Cfg b).fieldParams c67Ini = .ok τ ∧
      (∀ r, initFields (exD.locCfg 3 0 (c67Cfg b) r).fieldParams (c67Ini.at (exD.toGlob 3 0 r)) = .ok (σ r)) ∧
      runCoupled (c67Cfg b) (fun _ σ => σ) () (List.replicate n (dt, fun _ => c67Cb)) (c67F, τ) = .ok st' ∧
      let start : ∀ r, Proc (exD.coupledWire 3 0 Unit 2 1 1 ℚ (.periodic, .none) (.periodic, .none)) r
          (Dist Unit (PIdx 2 1 1) (exD.Loc 3 0 r) ℚ × FieldState (exD.Loc 3 0 r) ℚ) := fun r =>
        ⟨exD.runScript 3 0 c67Opt (c67Cfg b) () r (fun _ => false)
          (List.replicate n (dt, ⟨fun _ _ => c67Cb, fun _ => dat, fun _ => user⟩)) (fun s p l => c67F s p (exD.toGlob 3 0 r l)) (σ r), vec r⟩
      (∃ N : Fleet _ _, N.Reach start ∧ N.Stuck) ∧ ∀ N : Fleet _ _, N.Reach start → N.Stuck →
        ∃ F' σ', (∀ r, (N.st r).script = .ret (F' r, σ' r)) ∧ exD.Holds 3 0 F' st'.1 ∧ exD.FieldsHold 3 0 σ' st'.2 := by
  have hi : Implemented (c67Cfg b) := ⟨⟨.ppm, rfl⟩, ⟨.minmod, rfl⟩, fun _ => rfl⟩
  have hset : setupBCs c67Opt.nGhost c67Opt.name = .ok ((.periodic, 3), (.none, 0)) := by rfl
  have hty : Decomp.FieldTypes 3 0 c67Opt .periodic .none := ⟨rfl, rfl⟩
  obtain ⟨τ, hτ⟩ : ∃ τ, initFields (c67Cfg b).fieldParams c67Ini = .ok τ := ⟨_, rfl⟩
  obtain ⟨σ, hσ, hh⟩ := (exD.C67_initial_fields_agree 3 0 (c67Cfg b) rfl rfl c67Ini (Or.inl (by omega)) (Or.inr (Or.inr ⟨rfl, rfl⟩))).2 τ hτ
  obtain ⟨st', hs⟩ := C67_whole_grid_run_exists hi (fun _ σ => σ) () (List.replicate n (dt, fun _ => c67Cb)) (c67F, τ)
  refine ⟨σ, τ, st', hτ, hσ, hs, ?_, ?_⟩
  · refine Fleet.reach_stuck (l := runKinds (c67Cfg b) n τ.flag) (Q := fun _ _ => True) (fun r => ?_) .start
    have := exD.C103_exchanges 3 0 c67Opt (c67Cfg b) () r (fun _ => false)
      (List.replicate n (dt, ⟨fun _ _ => c67Cb, fun _ => dat, fun _ => user⟩)) (fun s p l => c67F s p (exD.toGlob 3 0 r l)) (σ r)
    rwa [List.length_replicate, hh.flag r] at this
  · intro N hN hst
    have hend := exD.C103_run_completes 3 0 (.periodic, .none) (.periodic, .none) hty (c67_grid b) hi ()
      (List.replicate n (dt, ⟨fun _ _ => c67Cb, fun _ => dat, fun _ => user⟩)) (fun r s p l => c67F s p (exD.toGlob 3 0 r l)) σ τ.flag hh.flag
      vec N hN hst
    choose a ha using hend
    refine ⟨fun r => (a r).1, fun r => (a r).2, ha, ?_⟩
    refine exD.C103_every_schedule_and_decomposition 3 0 (.periodic, .none) (.periodic, .none) hset hty (c67_grid b) () (fun _ σ => σ)
      (fun _ _ => false) (List.replicate n (dt, ⟨fun _ _ => c67Cb, fun _ => dat, fun _ => user⟩, fun _ => c67Cb)) ?_ _ _ vec (c67F, τ) st'
      (fun r s p l _ => rfl) hh N ?_ _ _ ha ?_
    · intro st hst k r
      rw [List.eq_of_mem_replicate hst]
      exact c67_agree r
    · simpa using hN
    · simpa using hs

end Bolt
