import Verif.Proofs.ShearBox
import Verif.Props.Box
import Verif.Spec.AslError

/-!
# C106: the shearing box
-/

set_option linter.unusedSectionVars false

namespace Bolt

/-! ## the sheared continuation -/

section ext
variable {S P K : Type} {N1 N2 : ℕ} [NeZero N1] [NeZero N2] [Field K] [LinearOrder K] [IsStrictOrderedRing K] [FloorRing K]

theorem shearExt1_boxCell (δ : K) (f : Dist S P (ZMod N1 × ZMod N2) K) (s : S) (p : P) (i : ZMod N1 × ZMod N2) :
    shearExt1 δ f s p (boxCell i) = f s p i := by
  have v1 := ZMod.val_lt i.1
  rw [boxCell, shearExt1_inside _ _ _ _ (by omega) (by omega), cast_val_int, cast_val_int]

theorem shearExt2_boxCell (δ : K) (f : Dist S P (ZMod N1 × ZMod N2) K) (s : S) (p : P) (i : ZMod N1 × ZMod N2) :
    shearExt2 δ f s p (boxCell i) = f s p i := by
  have v1 := ZMod.val_lt i.2
  rw [boxCell, shearExt2_inside _ _ _ _ (by omega) (by omega), cast_val_int, cast_val_int]

/-- **C106 (whole cells).** When the neighbouring boxes have slid by a whole number of cells, the ghost cells hold exact copies of cells of
the box: shifted down by that number on the left, up on the right. -/
theorem C106_whole_cells (m : ℤ) (f : Dist S P (ZMod N1 × ZMod N2) K) (s : S) (p : P) (c : ℤ × ℤ) :
    shearExt1 (m : K) f s p c = f s p ((c.1 : ZMod N1), ((c.2 - (if c.1 < 0 then m else if (N1 : ℤ) ≤ c.1 then -m else 0) : ℤ) : ZMod N2)) ∧
    shearExt2 (m : K) f s p c = f s p (((c.1 - (if c.2 < 0 then m else if (N2 : ℤ) ≤ c.2 then -m else 0) : ℤ) : ZMod N1), (c.2 : ZMod N2)) := by
  obtain ⟨a, b⟩ := c
  constructor
  · by_cases h : a < 0
    · rw [shearExt1_left _ _ _ _ h]
      simp only [h, if_true]
      rw [show (b : K) - (m : K) = ((b - m : ℤ) : K) by push_cast; ring, catmullRom_int]
    · by_cases h' : (N1 : ℤ) ≤ a
      · rw [shearExt1_right _ _ _ _ h']
        simp only [h, h', if_true, if_false]
        rw [show (b : K) + (m : K) = ((b - -m : ℤ) : K) by push_cast; ring, catmullRom_int]
      · rw [shearExt1_inside _ _ _ _ (by omega) (by omega)]
        simp only [h, h', if_false, sub_zero]
  · by_cases h : b < 0
    · rw [shearExt2_bottom _ _ _ _ h]
      simp only [h, if_true]
      rw [show (a : K) - (m : K) = ((a - m : ℤ) : K) by push_cast; ring, catmullRom_int]
    · by_cases h' : (N2 : ℤ) ≤ b
      · rw [shearExt2_top _ _ _ _ h']
        simp only [h, h', if_true, if_false]
        rw [show (a : K) + (m : K) = ((a - -m : ℤ) : K) by push_cast; ring, catmullRom_int]
      · rw [shearExt2_inside _ _ _ _ (by omega) (by omega)]
        simp only [h, h', if_false, sub_zero]

/-- **C106 (beginning).** At time zero, and whenever the shear vanishes, the box is continued periodically. -/
theorem C106_time_zero (f : Dist S P (ZMod N1 × ZMod N2) K) : shearExt1 (0 : K) f = periodicExt f ∧ shearExt2 (0 : K) f = periodicExt f := by
  constructor <;> funext s p c
  · have := (C106_whole_cells (K := K) 0 f s p c).1
    simpa [periodicExt] using this
  · have := (C106_whole_cells (K := K) 0 f s p c).2
    simpa [periodicExt] using this

/-- **C106 (columns).** A ghost column holds the same number of particles as the column of the box that it shows, at every displacement. -/
theorem C106_column_sums (δ : K) (f : Dist S P (ZMod N1 × ZMod N2) K) (s : S) (p : P) (c : ℤ) :
    ∑ j : ZMod N2, shearExt1 δ f s p (c, (j.val : ℤ)) = ∑ j, f s p ((c : ZMod N1), j) ∧
    ∑ i : ZMod N1, shearExt2 δ f s p ((i.val : ℤ), c) = ∑ i, f s p (i, (c : ZMod N2)) := by
  constructor
  · by_cases h : c < 0
    · simp only [shearExt1_left _ _ _ _ h, Int.cast_natCast]
      exact sum_catmullRom (fun j => f s p ((c : ZMod N1), j)) δ
    · by_cases h' : (N1 : ℤ) ≤ c
      · simp only [shearExt1_right _ _ _ _ h', Int.cast_natCast]
        have := sum_catmullRom (fun j => f s p ((c : ZMod N1), j)) (-δ)
        simpa only [sub_neg_eq_add] using this
      · simp only [shearExt1_inside δ f s p (a := c) (by omega) (by omega), cast_val_int]
  · by_cases h : c < 0
    · simp only [shearExt2_bottom _ _ _ _ h, Int.cast_natCast]
      exact sum_catmullRom (fun j => f s p (j, (c : ZMod N2))) δ
    · by_cases h' : (N2 : ℤ) ≤ c
      · simp only [shearExt2_top _ _ _ _ h', Int.cast_natCast]
        have := sum_catmullRom (fun j => f s p (j, (c : ZMod N2))) (-δ)
        simpa only [sub_neg_eq_add] using this
      · simp only [shearExt2_inside δ f s p (b := c) (by omega) (by omega), cast_val_int]

end ext

/-! ## what the processes hold -/

namespace Decomp

variable {N1 N2 : ℕ} {R : Type} [NeZero N1] [NeZero N2] (D : Decomp N1 N2 R) (g1 g2 : ℕ) {S K : Type} {Np1 Np2 Np3 : ℕ}
  [Field K] [LinearOrder K] [IsStrictOrderedRing K] [FloorRing K]

/-- **C106 (ghost cells).** After communication and boundary conditions, a process that owns the whole extent along the walls sees the box
continued by copies of itself that have slid along the walls by shear rate × width of the box × time: `q omega L t`, in cells.  For walls at the
ends of the first axis (and the second axis periodic). -/
theorem C106_ghost_cells (sp : ShearParams K) (o : BCOptions) (ho : ShearsAlong2 o.name) (hg : 2 ≤ o.nGhost) (dq1 dq2 : K) (hd1 : dq1 ≠ 0)
    (hd2 : 0 < dq2) (hext : sp.q2End = sp.q2Start + N2 * dq2) (hn : ∀ r, g1 ≤ D.n1 r) (r : R) (hr : D.n2 r = N2)
    (dat : ∀ r, D.LocBCData g1 g2 r S Np1 Np2 Np3 K)
    (hdat : ShearsLike sp o.nGhost o.name (D.coords g1 g2 sp.q1Start sp.q2Start dq1 dq2 r).2.2.2 (dat r))
    (F F0 : ∀ r, Dist S (PIdx Np1 Np2 Np3) (D.Loc g1 g2 r) K) (f : Dist S (PIdx Np1 Np2 Np3) (ZMod N1 × ZMod N2) K) (hF : D.Holds g1 g2 F f)
    (h : D.Synced g1 g2 o dat F F0) (s : S) (p : PIdx Np1 Np2 Np3) (l : D.Loc g1 g2 r) :
    F0 r s p l = shearExt1 (sp.q * sp.omega * (sp.q1End - sp.q1Start) * sp.time / dq2) f s p (D.signed g1 g2 r l) := by
  rw [holds_iff] at hF
  subst hF
  exact D.sync_shear2 g1 g2 sp o ho hg dq1 dq2 hd1 hd2 hext hn r hr dat hdat F F0 h s p l

/-- **C106 (ghost cells, other axis).** The same for walls at the ends of the second axis. -/
theorem C106_ghost_cells_q2 (sp : ShearParams K) (o : BCOptions) (ho : ShearsAlong1 o.name) (hg : 2 ≤ o.nGhost) (dq1 dq2 : K) (hd1 : 0 < dq1)
    (hd2 : dq2 ≠ 0) (hext : sp.q1End = sp.q1Start + N1 * dq1) (hn : ∀ r, g2 ≤ D.n2 r) (r : R) (hr : D.n1 r = N1)
    (dat : ∀ r, D.LocBCData g1 g2 r S Np1 Np2 Np3 K)
    (hdat : ShearsLike sp o.nGhost o.name (D.coords g1 g2 sp.q1Start sp.q2Start dq1 dq2 r).2.2.2 (dat r))
    (F F0 : ∀ r, Dist S (PIdx Np1 Np2 Np3) (D.Loc g1 g2 r) K) (f : Dist S (PIdx Np1 Np2 Np3) (ZMod N1 × ZMod N2) K) (hF : D.Holds g1 g2 F f)
    (h : D.Synced g1 g2 o dat F F0) (s : S) (p : PIdx Np1 Np2 Np3) (l : D.Loc g1 g2 r) :
    F0 r s p l = shearExt2 (sp.q * sp.omega * (sp.q2End - sp.q2Start) * sp.time / dq1) f s p (D.signed g1 g2 r l) := by
  rw [holds_iff] at hF
  subst hF
  exact D.sync_shear1 g1 g2 sp o ho hg dq1 dq2 hd1 hd2 hext hn r hr dat hdat F F0 h s p l

/-- A run of steps that each agree with a continuation of the box. -/
theorem run_clocked (o : BCOptions) (ext : K → Dist S (PIdx Np1 Np2 Np3) (ZMod N1 × ZMod N2) K → Dist S (PIdx Np1 Np2 Np3) (ℤ × ℤ) K)
    (hbox : ∀ t f s p i, ext t f s p (boxCell i) = f s p i) (Good : K → (∀ r, D.LocBCData g1 g2 r S Np1 Np2 Np3 K) → Prop)
    (hgood : ∀ t dat, Good t dat → ∀ F F0, D.Synced g1 g2 o dat F F0 → ∀ r s p l, F0 r s p l = ext t (D.assemble g1 g2 F) s p (D.signed g1 g2 r l))
    (Clock : K → List (K × (Fin 2 → ∀ r, D.LocBCData g1 g2 r S Np1 Np2 Np3 K) × (Fin 2 → ∀ r, Callbacks S (PIdx Np1 Np2 Np3) (D.Loc g1 g2 r) K)) → Prop)
    (hclock : ∀ t dt dat cb rest, Clock t ((dt, dat, cb) :: rest) → (∀ j, Good t (dat j)) ∧ Clock (t + dt) rest)
    (ax : PIdx Np1 Np2 Np3 × PIdx Np1 Np2 Np3 × PIdx Np1 Np2 Np3) (cfg : FVMConfig S K)
    (hg : ∀ m, reconMethod cfg.reconstructionInQ = .ok m → m.radius ≤ g1 ∧ m.radius ≤ g2)
    (steps : List (K × (Fin 2 → ∀ r, D.LocBCData g1 g2 r S Np1 Np2 Np3 K) ×
      (Fin 2 → ∀ r, Callbacks S (PIdx Np1 Np2 Np3) (D.Loc g1 g2 r) K) × (Fin 2 → Callbacks S (PIdx Np1 Np2 Np3) (ℤ × ℤ) K)))
    (hcb : ∀ st ∈ steps, ∀ j r, D.CallbacksAgreeBox g1 g2 r (st.2.2.1 j r) (st.2.2.2 j)) (t : K)
    (hdat : Clock t (steps.map fun st => (st.1, st.2.1, st.2.2.1)))
    (F F' : ∀ r, Dist S (PIdx Np1 Np2 Np3) (D.Loc g1 g2 r) K) (f f' : Dist S (PIdx Np1 Np2 Np3) (ZMod N1 × ZMod N2) K)
    (hF : D.Holds g1 g2 F f) (h : D.BcRun g1 g2 o ax cfg (steps.map fun st => (st.1, st.2.1, st.2.2.1)) F F')
    (h' : clockedRun ext ax cfg t (steps.map fun st => (st.1, st.2.2.2)) f = .ok f') : D.Holds g1 g2 F' f' := by
  induction steps generalizing F f t with
  | nil =>
    simp only [List.map_nil, BcRun, clockedRun, Except.ok.injEq] at h h'
    subst h h'; exact hF
  | cons st rest ih =>
    obtain ⟨dt, dat, cb, cbG⟩ := st
    simp only [List.map_cons, BcRun] at h
    obtain ⟨G, hG, hR⟩ := h
    obtain ⟨c1, c2⟩ := hclock t dt dat cb _ hdat
    simp only [List.map_cons, clockedRun, bind, Except.bind] at h'
    cases h0 : boxStep (ext t) ax cfg dt cbG f with
    | error e => simp [h0] at h'
    | ok g =>
      simp only [h0] at h'
      exact ih (fun st hst => hcb st (by simp [hst])) (t + dt) c2 G g
        (D.bcStep_ext g1 g2 o (ext t) (hbox t) ax cfg hg dt dat cb (fun j => hgood t _ (c1 j)) cbG (hcb (dt, dat, cb, cbG) (by simp)) F G f g
          hF hG h0) hR h'

/-- **C106 (runs).** In a box that shears along the second axis, divided among any number of processes along the first axis only (every
process with at least as many cells as ghost cells and ghost zones that cover the stencil), a run of any number of finite-volume steps computes
exactly the undivided run in the sheared continuation of the box.  The continuation of a whole step is the one of its beginning. -/
theorem C106_runs (sp : ShearParams K) (o : BCOptions) (ho : ShearsAlong2 o.name) (hg2 : 2 ≤ o.nGhost) (dq1 dq2 : K) (hd1 : dq1 ≠ 0)
    (hd2 : 0 < dq2) (hext : sp.q2End = sp.q2Start + N2 * dq2) (hn : ∀ r, g1 ≤ D.n1 r) (hr : ∀ r, D.n2 r = N2)
    (ax : PIdx Np1 Np2 Np3 × PIdx Np1 Np2 Np3 × PIdx Np1 Np2 Np3) (cfg : FVMConfig S K)
    (hg : ∀ m, reconMethod cfg.reconstructionInQ = .ok m → m.radius ≤ g1 ∧ m.radius ≤ g2)
    (steps : List (K × (Fin 2 → ∀ r, D.LocBCData g1 g2 r S Np1 Np2 Np3 K) ×
      (Fin 2 → ∀ r, Callbacks S (PIdx Np1 Np2 Np3) (D.Loc g1 g2 r) K) × (Fin 2 → Callbacks S (PIdx Np1 Np2 Np3) (ℤ × ℤ) K)))
    (hcb : ∀ st ∈ steps, ∀ j r, D.CallbacksAgreeBox g1 g2 r (st.2.2.1 j r) (st.2.2.2 j)) (t : K)
    (hdat : D.ClockedShear g1 g2 sp o dq1 dq2 t (steps.map fun st => (st.1, st.2.1, st.2.2.1)))
    (F F' : ∀ r, Dist S (PIdx Np1 Np2 Np3) (D.Loc g1 g2 r) K) (f f' : Dist S (PIdx Np1 Np2 Np3) (ZMod N1 × ZMod N2) K)
    (hF : D.Holds g1 g2 F f) (h : D.BcRun g1 g2 o ax cfg (steps.map fun st => (st.1, st.2.1, st.2.2.1)) F F')
    (h' : clockedRun (fun t => shearExt1 (sp.q * sp.omega * (sp.q1End - sp.q1Start) * t / dq2)) ax cfg t
      (steps.map fun st => (st.1, st.2.2.2)) f = .ok f') : D.Holds g1 g2 F' f' :=
  D.run_clocked g1 g2 o _ (fun _ => shearExt1_boxCell _)
    (fun t dat => ∀ r, ShearsLike { sp with time := t } o.nGhost o.name (D.coords g1 g2 sp.q1Start sp.q2Start dq1 dq2 r).2.2.2 (dat r))
    (fun t dat hd F F0 hs r s p l =>
      D.sync_shear2 g1 g2 { sp with time := t } o ho hg2 dq1 dq2 hd1 hd2 hext hn r (hr r) dat (hd r) F F0 hs s p l)
    (D.ClockedShear g1 g2 sp o dq1 dq2) (fun _ _ _ _ _ hc => hc) ax cfg hg steps hcb t hdat F F' f f' hF h h'

/-- **C106 (runs, other axis).** The same for walls at the ends of the second axis and processes along the second axis only. -/
theorem C106_runs_q2 (sp : ShearParams K) (o : BCOptions) (ho : ShearsAlong1 o.name) (hg2 : 2 ≤ o.nGhost) (dq1 dq2 : K) (hd1 : 0 < dq1)
    (hd2 : dq2 ≠ 0) (hext : sp.q1End = sp.q1Start + N1 * dq1) (hn : ∀ r, g2 ≤ D.n2 r) (hr : ∀ r, D.n1 r = N1)
    (ax : PIdx Np1 Np2 Np3 × PIdx Np1 Np2 Np3 × PIdx Np1 Np2 Np3) (cfg : FVMConfig S K)
    (hg : ∀ m, reconMethod cfg.reconstructionInQ = .ok m → m.radius ≤ g1 ∧ m.radius ≤ g2)
    (steps : List (K × (Fin 2 → ∀ r, D.LocBCData g1 g2 r S Np1 Np2 Np3 K) ×
      (Fin 2 → ∀ r, Callbacks S (PIdx Np1 Np2 Np3) (D.Loc g1 g2 r) K) × (Fin 2 → Callbacks S (PIdx Np1 Np2 Np3) (ℤ × ℤ) K)))
    (hcb : ∀ st ∈ steps, ∀ j r, D.CallbacksAgreeBox g1 g2 r (st.2.2.1 j r) (st.2.2.2 j)) (t : K)
    (hdat : D.ClockedShear g1 g2 sp o dq1 dq2 t (steps.map fun st => (st.1, st.2.1, st.2.2.1)))
    (F F' : ∀ r, Dist S (PIdx Np1 Np2 Np3) (D.Loc g1 g2 r) K) (f f' : Dist S (PIdx Np1 Np2 Np3) (ZMod N1 × ZMod N2) K)
    (hF : D.Holds g1 g2 F f) (h : D.BcRun g1 g2 o ax cfg (steps.map fun st => (st.1, st.2.1, st.2.2.1)) F F')
    (h' : clockedRun (fun t => shearExt2 (sp.q * sp.omega * (sp.q2End - sp.q2Start) * t / dq1)) ax cfg t
      (steps.map fun st => (st.1, st.2.2.2)) f = .ok f') : D.Holds g1 g2 F' f' :=
  D.run_clocked g1 g2 o _ (fun _ => shearExt2_boxCell _)
    (fun t dat => ∀ r, ShearsLike { sp with time := t } o.nGhost o.name (D.coords g1 g2 sp.q1Start sp.q2Start dq1 dq2 r).2.2.2 (dat r))
    (fun t dat hd F F0 hs r s p l =>
      D.sync_shear1 g1 g2 { sp with time := t } o ho hg2 dq1 dq2 hd1 hd2 hext hn r (hr r) dat (hd r) F F0 hs s p l)
    (D.ClockedShear g1 g2 sp o dq1 dq2) (fun _ _ _ _ _ hc => hc) ax cfg hg steps hcb t hdat F F' f f' hF h h'

/-! ## more processes along the walls -/

/-- **C106 (divided walls).** If the walls are shared by several processes and the boxes have slid by a whole number `m` of cells, a ghost cell at
the left wall holds the right value only if the image cell lies in the process's own rows or their ghost rows; otherwise it holds zero. -/
theorem C106_divided_walls (sp : ShearParams K) (o : BCOptions) (ho : ShearsAlong2 o.name) (dq1 dq2 : K) (hd1 : dq1 ≠ 0)
    (hd2 : 0 < dq2) (hext : sp.q2End = sp.q2Start + N2 * dq2) (m : ℤ)
    (hm : sp.q * sp.omega * (sp.q1End - sp.q1Start) * sp.time = m * dq2) (r : R) (hs : D.start1 r = 0)
    (dat : ∀ r, D.LocBCData g1 g2 r S Np1 Np2 Np3 K)
    (hdat : ShearsLike sp o.nGhost o.name (D.coords g1 g2 sp.q1Start sp.q2Start dq1 dq2 r).2.2.2 (dat r))
    (F F0 : ∀ r, Dist S (PIdx Np1 Np2 Np3) (D.Loc g1 g2 r) K) (f : Dist S (PIdx Np1 Np2 Np3) (ZMod N1 × ZMod N2) K) (hF : D.Holds g1 g2 F f)
    (h : D.Synced g1 g2 o dat F F0) (s : S) (p : PIdx Np1 Np2 Np3) (l : D.Loc g1 g2 r) (hl : (D.signed g1 g2 r l).1 < 0) :
    F0 r s p l =
      if (D.start2 r : ℤ) - g2 ≤ ((D.signed g1 g2 r l).2 - m) % N2 ∧ ((D.signed g1 g2 r l).2 - m) % N2 < D.start2 r + D.n2 r + g2
      then f s p (((D.signed g1 g2 r l).1 : ZMod N1), (((D.signed g1 g2 r l).2 - m : ℤ) : ZMod N2)) else 0 := by
  rw [holds_iff] at hF
  subst hF
  obtain ⟨bc1, bc2, st, hset, happ⟩ := h
  have hax : petscAxis o.nGhost (o.name .left) = (bc1, g1) ∧ petscAxis o.nGhost (o.name .bottom) = (bc2, g2) := by
    unfold setupBCs at hset
    split_ifs at hset
    simp only [Except.ok.injEq, Prod.mk.injEq] at hset
    exact ⟨by rw [hset.1], by rw [hset.2]⟩
  rw [ho.left, ho.bottom] at hax
  simp only [petscAxis, Prod.mk.injEq, if_true, or_true, true_or, String.reduceEq, if_false] at hax
  obtain ⟨⟨rfl, e1⟩, rfl, e2⟩ := hax
  obtain ⟨X1, X2, X3, w1, w2, w3, w4⟩ := applyBcsF_ok (happ r)
  have q3 := atWall_skip _ .bottom X2 X3 (Or.inl ho.bottom) w3
  have q4 := atWall_skip _ .top X3 (F0 r) (Or.inl ho.top) w4
  rw [q4, q3]
  have v1 := fun s p i => atWall_shear _ .left _ X1 ho.left w1 s p i
  have v2 := fun s p i => atWall_shear _ .right X1 X2 ho.right w2 s p i
  have hp1 := D.pos1 r
  have hp2 := D.pos2 r
  have hN : (0 : K) < N2 := Nat.cast_pos.2 (NeZero.pos N2)
  have hL : sp.q2Start < sp.q2End := by rw [hext]; have := mul_pos hN hd2; linarith
  have : NeZero (D.n1 r + 2 * g1) := ⟨by omega⟩
  have : NeZero (D.n2 r + 2 * g2) := ⟨by omega⟩
  have t1 : (D.bcEnv g1 g2 o r (dat r)).touches .left = true := by simp [BCEnv.touches, bcEnv, hs]
  have hge : (D.bcEnv g1 g2 o r (dat r)).g = g1 := e1
  have b2 : ∀ i : D.Loc g1 g2 r, inSlab g1 .right i ↔ D.n1 r + g1 ≤ i.1.val := fun i => by
    have : (D.n1 r + 2 * g1 - g1) = D.n1 r + g1 := by omega
    simp only [inSlab, this]
  have c1 : (D.signed g1 g2 r l).1 = (D.start1 r : ℤ) + l.1.val - g1 := rfl
  have c2 : (D.signed g1 g2 r l).2 = (D.start2 r : ℤ) + l.2.val - g2 := rfl
  have hlv : l.1.val < g1 := by omega
  rw [v2, if_neg (by rw [hge, b2]; omega), v1, if_pos ⟨t1, by rw [hge]; exact hlv⟩]
  obtain ⟨y, k, hy, hyk, ylo, yhi⟩ := D.sheared_left g1 g2 sp o hL dq1 dq2 hd1 hd2 hext ho.left r (dat r) hdat
    (D.exchange g1 g2 .periodic .periodic st F r) s p l (by rw [e1]; exact hlv)
  refine Eq.trans hy ?_
  rw [hm, mul_div_cancel_right₀ _ hd2.ne'] at hyk
  set c : ℤ := ((D.signed g1 g2 r l).2 - m) % N2 with hc
  have hyz : y = ((l.2.val - m + k * N2 : ℤ) : K) := by rw [hyk]; push_cast; ring
  have hcy : (l.2.val - m + k * N2 : ℤ) + D.start2 r - g2 = c := by
    have hz : (((l.2.val - m + k * N2 : ℤ) + D.start2 r - g2 : ℤ) : K) = y + D.start2 r - g2 := by rw [hyz]; push_cast; ring
    have l1 : (-1 : ℤ) < (l.2.val - m + k * N2 : ℤ) + D.start2 r - g2 := by
      have : ((-1 : ℤ) : K) < (((l.2.val - m + k * N2 : ℤ) + D.start2 r - g2 : ℤ) : K) := by rw [hz]; push_cast; linarith
      exact_mod_cast this
    have l2 : (l.2.val - m + k * N2 : ℤ) + D.start2 r - g2 < N2 := by
      have : (((l.2.val - m + k * N2 : ℤ) + D.start2 r - g2 : ℤ) : K) < ((N2 : ℤ) : K) := by rw [hz]; push_cast; linarith
      exact_mod_cast this
    rw [hc, c2, show (D.start2 r : ℤ) + l.2.val - g2 - m = ((l.2.val - m + k * N2 : ℤ) + D.start2 r - g2) + N2 * (-k) by ring,
      Int.add_mul_emod_self_left, Int.emod_eq_of_lt (by omega) l2]
  have hyc : y = ((c - D.start2 r + g2 : ℤ) : K) := by rw [hyz, ← hcy]; congr 1; ring
  rw [hyc]
  split_ifs with hin
  · rw [approx2_int _ _ _ _ _ (by omega) (by omega) (by omega) (by push_cast; omega), exchange_periodic, toGlob]
    have d1 : (((((l.1.val : ℤ) : ZMod (D.n1 r + 2 * g1)).val : ℕ)) : ℤ) = l.1.val := by
      have := ZMod.val_lt l.1
      rw [ZMod.val_intCast, Int.emod_eq_of_lt (by omega) (by omega)]
    have d2 : (((((c - D.start2 r + g2 : ℤ) : ZMod (D.n2 r + 2 * g2)).val : ℕ)) : ℤ) = c - D.start2 r + g2 := by
      rw [ZMod.val_intCast, Int.emod_eq_of_lt (by omega) (by push_cast; omega)]
    simp only
    congr 2
    · rw [globCoord, d1, c1]
    · rw [globCoord, d2, show (D.start2 r : ℤ) + (c - D.start2 r + g2) - g2 = c by ring, hc, ZMod.intCast_eq_intCast_iff]
      exact Int.mod_modEq _ _
  · refine approx2_outside _ _ _ _ _ ?_
    by_cases hlow : c - D.start2 r + g2 < 0
    · right; right; left
      exact_mod_cast hlow
    · right; right; right
      have hcl : 0 ≤ c := Int.emod_nonneg _ (by have := NeZero.pos N2; omega)
      have : ((D.n2 r + 2 * g2 : ℕ) : ℤ) - 1 < c - D.start2 r + g2 := by push_cast; omega
      have : ((((D.n2 r + 2 * g2 : ℕ) : ℤ) - 1 : ℤ) : K) < ((c - D.start2 r + g2 : ℤ) : K) := by exact_mod_cast this
      push_cast at this ⊢
      exact this

end Decomp

end Bolt
