import Verif.Model.Resume
import Verif.Props.Coupled
import Verif.Props.Pipeline
import Verif.Props.CoupledDecomp
import Verif.Props.Layout

/-! Lemmas about resuming a coupled run. -/

set_option linter.unusedSectionVars false

namespace Bolt

variable {S P Q K : Type} [AddCommGroup P] [AddCommGroup Q] [Field K] [LinearOrder K] [IsStrictOrderedRing K]
  [Fintype S] [Fintype P] [Fintype Q]

/-- The state of the fields solver after one electrodynamic step, starting with the three attributes on one object and the flag at `n`. -/
theorem stored_after_step (c : CoupledConfig S P Q K) (hc : ElectrodynamicFVM c) (poisson) (cb : Fin 2 → CoupledCallbacks S P Q K)
    (hyb : S) (dt : K) (st st' : Dist S P Q K × FieldState Q K) (hflag : st.2.flag = true) (ha : Aliased st.2)
    (h : stepCoupled c poisson cb hyb dt st = .ok st') :
    let new := toCentre c.ax.q1 c.ax.q2 .both st'.2.yee (st.2.heap st.2.cc)
    st'.2.heap st'.2.cc = { EM.avg (st.2.heap st.2.cc) new with B1 := new.B1, B2 := new.B2, B3 := new.B3 } ∧ Aliased st'.2 ∧
      st'.2.flag = true := by
  have hc' := hc
  obtain ⟨hq, hp1, hp2, ht⟩ := hc
  have hfl := (C19_one_update_per_step c hc' poisson cb hyb dt st st' hflag h).1
  obtain ⟨r0, r1, h0, h1, rfl⟩ := stepCoupled_ok h
  have al1 := aliased_step c hc' poisson _ hyb _ _ _ _ _ h0 ha
  have al2 := aliased_step c hc' poisson _ hyb _ _ _ _ r1 h1 al1
  obtain ⟨σ1, σ2, u, a, b, d⟩ := dfdtCoupled_ok ⟨hp1, hp2⟩ h0
  obtain ⟨τ1, τ2, u', a', b', d'⟩ := dfdtCoupled_ok ⟨hp1, hp2⟩ h1
  have hne : ¬ (c.fieldsType = "electrostatic" ∧ c.fieldsSolver = "fft") := by rw [ht]; simp
  rw [if_neg hne] at a a'
  subst a a'
  have hs : σ2 = st.2 := by
    rcases u with ⟨_, hf, _⟩ | ⟨_, e⟩
    · rw [hflag] at hf; cases hf
    · exact e
  subst hs
  refine ⟨?_, al2, hfl⟩
  have e0 : r0.2.heap r0.2.cc = st.2.heap st.2.cc := by rw [b]
  rw [b']
  rcases u' with ⟨_, hf, _, m, hm, ⟨hh, hy, rfl, he⟩ | ⟨hh, he⟩⟩ | ⟨hn, e⟩
  · have := C20_aliased_update _ _ _ _ _ (by exact al1) he
    simp only [e0] at this; exact this
  · have := C20_aliased_update _ _ _ _ _ al1 he
    simp only [e0] at this; exact this
  · exact absurd ⟨ht, by rw [b]; simp [hflag]⟩ hn

/-- What holds at every step boundary of an electrodynamic run. -/
structure Boundary (c : CoupledConfig S P Q K) (σ : FieldState Q K) : Prop where
  aliased : Aliased σ
  flag : σ.flag = true
  B1 : (σ.heap σ.cc).B1 = (toCentre c.ax.q1 c.ax.q2 .both σ.yee σ.yee).B1
  B2 : (σ.heap σ.cc).B2 = (toCentre c.ax.q1 c.ax.q2 .both σ.yee σ.yee).B2
  B3 : (σ.heap σ.cc).B3 = (toCentre c.ax.q1 c.ax.q2 .both σ.yee σ.yee).B3

theorem boundary_init (c : CoupledConfig S P Q K) (ini : InitFns Q K) (σ : FieldState Q K) (h : initFields c.fieldParams ini = .ok σ) :
    Boundary c σ ∧ σ.timeElapsed = 0 ∧ σ.heap σ.cc = toCentre c.ax.q1 c.ax.q2 .both σ.yee σ.yee := by
  obtain ⟨a, b, d⟩ := C20_init_aliases _ _ _ h
  have e : σ.heap σ.cc = toCentre c.ax.q1 c.ax.q2 .both σ.yee σ.yee := by
    simp only [initFields, bind, Except.bind, pure, Except.pure] at h
    split at h
    · cases h
    · split at h
      · cases h
      · simp only [Except.ok.injEq] at h; subst h; rfl
  exact ⟨⟨a, b, by rw [e], by rw [e], by rw [e]⟩, d, e⟩

theorem boundary_step (c : CoupledConfig S P Q K) (hc : ElectrodynamicFVM c) (poisson) (cb : Fin 2 → CoupledCallbacks S P Q K)
    (hyb : S) (dt : K) (st st' : Dist S P Q K × FieldState Q K) (hb : Boundary c st.2)
    (h : stepCoupled c poisson cb hyb dt st = .ok st') : Boundary c st'.2 := by
  obtain ⟨e, al, fl⟩ := stored_after_step c hc poisson cb hyb dt st st' hb.flag hb.aliased h
  exact ⟨al, fl, by rw [e]; rfl, by rw [e]; rfl, by rw [e]; rfl⟩

theorem boundary_run (c : CoupledConfig S P Q K) (hc : ElectrodynamicFVM c) (poisson) (hyb : S)
    (steps : List (K × (Fin 2 → CoupledCallbacks S P Q K))) (st st' : Dist S P Q K × FieldState Q K) (hb : Boundary c st.2)
    (h : runCoupled c poisson hyb steps st = .ok st') : Boundary c st'.2 :=
  runCoupled_invariant (fun x => Boundary c x.2) steps (fun stp _ s s' hs hstep => boundary_step c hc poisson stp.2 hyb stp.1 s s' hs hstep)
    st st' hb h

theorem runCoupled_append (c : CoupledConfig S P Q K) (poisson) (hyb : S) (l1 l2 : List (K × (Fin 2 → CoupledCallbacks S P Q K)))
    (st : Dist S P Q K × FieldState Q K) :
    runCoupled c poisson hyb (l1 ++ l2) st = (runCoupled c poisson hyb l1 st).bind (runCoupled c poisson hyb l2) := by
  induction l1 generalizing st with
  | nil => rfl
  | cons a l ih =>
    obtain ⟨dt, cb⟩ := a
    simp only [List.cons_append, runCoupled, bind, Except.bind]
    cases stepCoupled c poisson cb hyb dt st with
    | error e => rfl
    | ok g => exact ih g

/-! ## Files of several processes -/

namespace Decomp

variable {N1 N2 : ℕ} [NeZero N1] [NeZero N2] {R : Type} (D : Decomp N1 N2 R) (g1 g2 : ℕ)

theorem em_bulk (F : ∀ r, EM (D.Loc g1 g2 r) K) (G : EM (ZMod N1 × ZMod N2) K) (h : ∀ r, D.EMHolds g1 g2 r (F r) G) :
    D.Bulk g1 g2 6 1 (fun r => (F r).toAf) fun n _ x y => G.column n ((x : ZMod N1), (y : ZMod N2)) := by
  intro r i j a b hi hj ha hb
  have va : ((a + g1 : ℕ) : ZMod (D.n1 r + 2 * g1)).val = a + g1 := ZMod.val_cast_of_lt (by omega)
  have vb : ((b + g2 : ℕ) : ZMod (D.n2 r + 2 * g2)).val = b + g2 := ZMod.val_cast_of_lt (by omega)
  have hl : D.Interior g1 g2 r (((a + g1 : ℕ) : ZMod (D.n1 r + 2 * g1)), ((b + g2 : ℕ) : ZMod (D.n2 r + 2 * g2))) := by
    refine ⟨⟨?_, ?_⟩, ?_, ?_⟩ <;> dsimp only <;> omega
  have hg : D.toGlob g1 g2 r (((a + g1 : ℕ) : ZMod (D.n1 r + 2 * g1)), ((b + g2 : ℕ) : ZMod (D.n2 r + 2 * g2)))
      = (((D.start1 r + a : ℕ) : ZMod N1), ((D.start2 r + b : ℕ) : ZMod N2)) := by
    simp only [toGlob, globCoord, va, vb]
    refine Prod.ext ?_ ?_ <;> push_cast <;> ring
  simp only [EM.toAf]
  rw [AfArray.get_ofFn _ _ _ _ _ _ _ _ _ hi hj (by omega)]
  have := fun c => h r c _ hl
  rw [hg] at this
  interval_cases i
  · exact this 0
  · exact this 1
  · exact this 2
  · exact this 3
  · exact this 4
  · exact this 5

theorem em_shaped (F : ∀ r, EM (D.Loc g1 g2 r) K) : D.Shaped g1 g2 6 1 (fun r => (F r).toAf) := fun _ => ⟨rfl, rfl, rfl, rfl⟩

/-- A loaded array holds the fields its file lists. -/
theorem em_load_holds {R' : Type} (D' : Decomp N1 N2 R') (z : R → GridSizes) (z' : R' → GridSizes) (g1' g2' : ℕ)
    (stale : R' → Vec K) (F : ∀ r, EM (D.Loc g1 g2 r) K) (Y : R' → AfArray K) (file : Vec K)
    (hz : D.SizesOk z g1 g2) (hz' : D'.SizesOk z' g1' g2') (G : EM (ZMod N1 × ZMod N2) K) (h : ∀ r, D.EMHolds g1 g2 r (F r) G)
    (hd : D.DumpsTo z 6 1 (fun r => (F r).toAf) file) (hl : D'.LoadsTo z' g1' g2' .periodic .periodic 6 1 stale file Y) :
    ∀ r, D'.EMHolds g1' g2' r (Y r).toEM G := by
  obtain ⟨-, hb, -⟩ := D.C38_round_trip D' z z' g1 g2 g1' g2' .periodic .periodic 6 1 stale _ Y file hz hz' (D.em_shaped g1 g2 F) hd hl _
    (D.em_bulk g1 g2 F G h)
  intro r c l hi
  obtain ⟨⟨a1, b1⟩, a2, b2⟩ := hi
  have hg : D'.toGlob g1' g2' r l
      = (((D'.start1 r + (l.1.val - g1') : ℕ) : ZMod N1), ((D'.start2 r + (l.2.val - g2') : ℕ) : ZMod N2)) := by
    simp only [toGlob, globCoord]
    rw [Nat.cast_add, Nat.cast_sub a1, Nat.cast_add, Nat.cast_sub a2]
    refine Prod.ext ?_ ?_ <;> push_cast <;> ring
  rw [hg]
  have key : ∀ i, i < 6 → (Y r).get i 0 l.1.val l.2.val = G.column i (((D'.start1 r + (l.1.val - g1') : ℕ) : ZMod N1), ((D'.start2 r + (l.2.val - g2') : ℕ) : ZMod N2)) := by
    intro i hi
    have := hb r i 0 (l.1.val - g1') (l.2.val - g2') hi (by norm_num) (by omega) (by omega)
    rwa [Nat.sub_add_cancel a1, Nat.sub_add_cancel a2] at this
  fin_cases c
  · exact key 0 (by norm_num)
  · exact key 1 (by norm_num)
  · exact key 2 (by norm_num)
  · exact key 3 (by norm_num)
  · exact key 4 (by norm_num)
  · exact key 5 (by norm_num)

/-- `load_EM_fields` on all processes of a fresh run gives the whole-grid `load_EM_fields`. -/
theorem load_fieldsHold {R' : Type} (D' : Decomp N1 N2 R') (z : R → GridSizes) (z' : R' → GridSizes) (g1' g2' : ℕ)
    (stale : R' → Vec K) (F : ∀ r, EM (D.Loc g1 g2 r) K) (Y : R' → AfArray K) (file : Vec K)
    (hz : D.SizesOk z g1 g2) (hz' : D'.SizesOk z' g1' g2') (G : EM (ZMod N1 × ZMod N2) K) (h : ∀ r, D.EMHolds g1 g2 r (F r) G)
    (hd : D.DumpsTo z 6 1 (fun r => (F r).toAf) file) (hl : D'.LoadsTo z' g1' g2' .periodic .periodic 6 1 stale file Y)
    {S P : Type} [AddCommGroup P] [Fintype S] [Fintype P] (c : CoupledConfig S P (ZMod N1 × ZMod N2) K) (q1 : c.ax.q1 = (1, 0))
    (q2 : c.ax.q2 = (0, 1)) (ρ : ∀ r, FieldState (D'.Loc g1' g2' r) K) (τ : FieldState (ZMod N1 × ZMod N2) K)
    (hρ : D'.FieldsHold g1' g2' ρ τ) :
    D'.FieldsHold g1' g2' (fun r => (ρ r).load (D'.locCfg g1' g2' c r).fieldParams (Y r).toEM) (τ.load c.fieldParams G) where
  yee := D.em_load_holds g1 g2 D' z z' g1' g2' stale F Y file hz hz' G h hd hl
  heap := by
    intro r k
    by_cases hk : k = τ.cc
    · intro i l hi
      obtain ⟨c0, c1, c2, c3, c4, c5⟩ := D.C38_cell_centred_fields D' z z' g1 g2 g1' g2' stale _ Y file hz hz' (D.em_shaped g1 g2 F) hd hl G
        (D.em_bulk g1 g2 F G h) (τ.heap τ.cc) r ((ρ r).heap (ρ r).cc) l hi
      have hk' : k = (ρ r).cc := by rw [hρ.cc]; exact hk
      simp only [FieldState.load, if_pos hk, if_pos hk']
      have e1 : (D'.locCfg g1' g2' c r).fieldParams.q1 = (1, 0) := rfl
      have e2 : (D'.locCfg g1' g2' c r).fieldParams.q2 = (0, 1) := rfl
      have e3 : c.fieldParams.q1 = (1, 0) := q1
      have e4 : c.fieldParams.q2 = (0, 1) := q2
      rw [e1, e2, e3, e4]
      fin_cases i
      · exact c0
      · exact c1
      · exact c2
      · exact c3
      · exact c4
      · exact c5
    · have hk' : k ≠ (ρ r).cc := by rw [hρ.cc]; exact hk
      simp only [FieldState.load, if_neg hk, if_neg hk']
      exact hρ.heap r k
  cc := hρ.cc
  atN := hρ.atN
  atHalf := hρ.atHalf
  flag := hρ.flag
  time := hρ.time

end Decomp

end Bolt
