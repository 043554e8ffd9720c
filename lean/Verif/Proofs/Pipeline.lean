import Verif.Spec.Pipeline
import Verif.Proofs.Decomp
import Verif.Props.IO
import Verif.Props.Decomp

/-! Lemmas for whole scripts. -/

set_option linter.unusedSectionVars false

namespace Bolt

variable {K : Type} {Ns Np1 Np2 Np3 N1 N2 : ℕ}

/-! ## Momentum indices -/

section mom
variable [NeZero Np1] [NeZero Np2] [NeZero Np3]

theorem momIndex_lt (p : PIdx Np1 Np2 Np3) : momIndex p < Np1 * Np2 * Np3 := by
  have h1 := ZMod.val_lt p.1
  have h2 := ZMod.val_lt p.2.1
  have h3 := ZMod.val_lt p.2.2
  have h : p.2.1.val + Np2 * p.2.2.val < Np2 * Np3 := by nlinarith [Nat.succ_le_of_lt h3]
  rw [momIndex, mul_assoc]
  nlinarith [Nat.succ_le_of_lt h]

theorem momIndex_inv (p : PIdx Np1 Np2 Np3) :
    (((momIndex p : ℕ) : ZMod Np1), ((momIndex p / Np1 : ℕ) : ZMod Np2), ((momIndex p / Np1 / Np2 : ℕ) : ZMod Np3)) = p := by
  have h1 := ZMod.val_lt p.1
  have h2 := ZMod.val_lt p.2.1
  obtain ⟨a, b, c⟩ := p
  simp only [momIndex]
  rw [div_of_lt h1, div_of_lt h2]
  simp

theorem exists_momIndex (i : ℕ) (hi : i < Np1 * Np2 * Np3) : ∃ p : PIdx Np1 Np2 Np3, momIndex p = i := by
  refine ⟨((i : ℕ), (i / Np1 : ℕ), (i / Np1 / Np2 : ℕ)), ?_⟩
  have h3 : i / Np1 / Np2 < Np3 := by
    rw [Nat.div_div_eq_div_mul, Nat.div_lt_iff_lt_mul (Nat.mul_pos (NeZero.pos Np1) (NeZero.pos Np2))]
    linarith [mul_comm Np3 (Np1 * Np2)]
  simp only [momIndex, ZMod.val_natCast]
  rw [Nat.mod_eq_of_lt h3, Nat.mod_add_div, Nat.mod_add_div]

theorem toDist_ofDist [Zero K] (M1 M2 : ℕ) [NeZero M1] [NeZero M2]
    (f : Dist (Fin Ns) (PIdx Np1 Np2 Np3) (ZMod M1 × ZMod M2) K) : (AfArray.ofDist M1 M2 f).toDist M1 M2 = f := by
  funext s p l
  simp only [AfArray.toDist, AfArray.ofDist]
  rw [AfArray.get_ofFn _ _ _ _ _ _ _ _ _ (momIndex_lt p) s.2 (ZMod.val_lt l.1), dif_pos s.2, momIndex_inv]
  simp

end mom

/-! ## Coordinates -/

section coord
variable [Field K]

theorem gridPoint_glob {start n g N M : ℕ} [NeZero N] (q d off : K) (hfit : start + n ≤ N) (a : ZMod M) (h1 : g ≤ a.val)
    (h2 : a.val < g + n) :
    gridPoint q d off ((globCoord start g a : ℤ) : ZMod N) = q + (((globCoord start g a : ℤ) : K) + off) * d := by
  rw [gridPoint, val_cast_globCoord hfit a h1 h2, globCoord, Nat.cast_sub (by omega)]
  push_cast
  ring

theorem gridPoint_glob_succ {start n g N : ℕ} [NeZero N] {X : Type} (q d off : K) (hn : 0 < n) (hfit : start + n ≤ N)
    (hg : 1 ≤ g ∨ g = 0 ∧ N = 1) (a : ZMod (n + 2 * g)) (h1 : g ≤ a.val) (h2 : a.val < g + n) (F : K → X)
    (hF : ∀ x, F (x + N * d) = F x) :
    F (q + (((globCoord start g (a + 1) : ℤ) : K) + off) * d)
      = F (gridPoint q d off (((globCoord start g a : ℤ) : ZMod N) + 1)) := by
  rcases hg with hg | ⟨rfl, rfl⟩
  · have : NeZero (n + 2 * g) := ⟨by omega⟩
    have hv : (a + 1).val = a.val + 1 := by
      have : Fact (1 < n + 2 * g) := ⟨by omega⟩
      rw [ZMod.val_add, ZMod.val_one, Nat.mod_eq_of_lt (by omega)]
    have hc : globCoord start g (a + 1) = globCoord start g a + 1 := by
      rw [globCoord, globCoord, hv]; push_cast; ring
    have hlo : 0 ≤ globCoord start g a := by rw [globCoord]; omega
    have hhi : globCoord start g a + 1 ≤ N := by rw [globCoord]; omega
    have hcast : ((globCoord start g a : ℤ) : ZMod N) + 1 = ((globCoord start g a + 1 : ℤ) : ZMod N) := by push_cast; rfl
    rw [hcast, hc]
    generalize globCoord start g a = c at *
    rcases hhi.lt_or_eq with h | h
    · obtain ⟨k, hk⟩ := Int.eq_ofNat_of_zero_le (show 0 ≤ c + 1 by omega)
      rw [hk, gridPoint]
      congr 4
      have : k < N := by omega
      simp [ZMod.val_natCast, Nat.mod_eq_of_lt this]
    · rw [h, gridPoint]
      have e : q + (((N : ℤ) : K) + off) * d = q + (0 + off) * d + N * d := by push_cast; ring
      rw [e, hF]
      simp
  · obtain rfl : n = 1 := by omega
    have e : a + 1 = a := Subsingleton.elim (α := ZMod 1) _ _
    rw [e, ← gridPoint_glob q d off hfit a h1 h2]
    congr 2
    exact Subsingleton.elim _ _

end coord

/-! ## The parts of a script -/

namespace Decomp
variable {R : Type} (D : Decomp N1 N2 R) (g1 g2 : ℕ) [NeZero N1] [NeZero N2] [NeZero Np1] [NeZero Np2] [NeZero Np3]

section
variable [Field K]

theorem pCoord (u : Setup Ns K) (off : K) (s : Fin Ns) (p : PIdx Np1 Np2 Np3) :
    let P := calculateP off (perSpecies u.p1s) (perSpecies u.p2s) (perSpecies u.p3s) Ns Np1 Np2 Np3 (perSpecies u.cfg.dp1)
      (perSpecies u.cfg.dp2) (perSpecies u.cfg.dp3)
    P.1.get (momIndex p) s.val 0 0 = gridPoint (u.p1s s) (u.cfg.dp1 s) off p.1 ∧
    P.2.1.get (momIndex p) s.val 0 0 = gridPoint (u.p2s s) (u.cfg.dp2 s) off p.2.1 ∧
    P.2.2.get (momIndex p) s.val 0 0 = gridPoint (u.p3s s) (u.cfg.dp3 s) off p.2.2 := by
  have h := (C40_momentum_coordinates off (perSpecies u.p1s) (perSpecies u.p2s) (perSpecies u.p3s) Ns Np1 Np2 Np3
    (perSpecies u.cfg.dp1) (perSpecies u.cfg.dp2) (perSpecies u.cfg.dp3)).2 p.1.val p.2.1.val p.2.2.val s.val (ZMod.val_lt _)
    (ZMod.val_lt _) (ZMod.val_lt _) s.2
  simp only [perSpecies, s.2, dif_pos, Fin.eta] at h
  refine ⟨h.1.trans ?_, h.2.1.trans ?_, h.2.2.trans ?_⟩ <;> rw [gridPoint, add_comm off]

theorem initial_holds (u : Setup Ns K) (fn : UserFns Ns Np1 Np2 Np3 K) :
    D.Holds g1 g2 (fun r => (D.initialF g1 g2 u fn r).toDist _ _) (wholeInit u fn) := by
  intro r s p l hl
  obtain ⟨⟨a, b⟩, c, d⟩ := hl
  obtain ⟨e1, e2, e3⟩ := pCoord u (1 / 2) s p
  simp only [AfArray.toDist, initialF]
  rw [AfArray.get_ofFn _ _ _ _ _ _ _ _ _ (momIndex_lt p) s.2 (ZMod.val_lt l.1), dif_pos s.2]
  obtain ⟨f1, f2⟩ := C40_cell_centres D g1 g2 u.q1s u.q2s u.cfg.dq1 u.cfg.dq2 r l.1.val l.2.val
  simp only [Setup.pCenter, wholeInit, toGlob]
  rw [f1, f2, e1, e2, e3, gridPoint_glob _ _ _ (D.fits1 r) l.1 a b, gridPoint_glob _ _ _ (D.fits2 r) l.2 c d]
  rfl

theorem callbacks_agree (u : Setup Ns K) (fn : UserFns Ns Np1 Np2 Np3 K) (hper : PeriodicVelocities N1 N2 u fn)
    (hg1 : 1 ≤ g1 ∨ g1 = 0 ∧ N1 = 1) (hg2 : 1 ≤ g2 ∨ g2 = 0 ∧ N2 = 1) (t : K) (r : R) :
    D.CallbacksAgree g1 g2 r (D.callbacksAt g1 g2 u fn t r) (wholeCallbacks u fn t) := by
  have hx : ∀ a b : ℕ, (D.coords g1 g2 u.q1s u.q2s u.cfg.dq1 u.cfg.dq2 r).2.2.1.1 a b
      = u.q1s + (((D.start1 r + a - g1 : ℤ) : K) + 0) * u.cfg.dq1 := by
    intro a b; simp only [coords, calculateQ]; push_cast; ring
  have hy : ∀ a b : ℕ, (D.coords g1 g2 u.q1s u.q2s u.cfg.dq1 u.cfg.dq2 r).2.2.1.2 a b
      = u.q2s + (((D.start2 r + b - g2 : ℤ) : K) + 0) * u.cfg.dq2 := by
    intro a b; simp only [coords, calculateQ]; push_cast; ring
  have hx' : ∀ a b : ℕ, (D.coords g1 g2 u.q1s u.q2s u.cfg.dq1 u.cfg.dq2 r).2.1.1 a b
      = u.q1s + (((D.start1 r + a - g1 : ℤ) : K) + 1 / 2) * u.cfg.dq1 := by
    intro a b; simp only [coords, calculateQ]; push_cast; ring
  have hy' : ∀ a b : ℕ, (D.coords g1 g2 u.q1s u.q2s u.cfg.dq1 u.cfg.dq2 r).2.1.2 a b
      = u.q2s + (((D.start2 r + b - g2 : ℤ) : K) + 0) * u.cfg.dq2 := by
    intro a b; simp only [coords, calculateQ]; push_cast; ring
  have hc := fun a b => C40_cell_centres D g1 g2 u.q1s u.q2s u.cfg.dq1 u.cfg.dq2 r a b
  have pc := fun s (p : PIdx Np1 Np2 Np3) => pCoord u (1 / 2) s p
  have pf := fun s (p : PIdx Np1 Np2 Np3) => pCoord u 0 s p
  have G1 : ∀ off (l : D.Loc g1 g2 r), D.Interior g1 g2 r l →
      u.q1s + (((D.start1 r + l.1.val - g1 : ℤ) : K) + off) * u.cfg.dq1 = gridPoint u.q1s u.cfg.dq1 off (D.toGlob g1 g2 r l).1 :=
    fun off l hl => (gridPoint_glob _ _ _ (D.fits1 r) l.1 hl.1.1 hl.1.2).symm
  have G2 : ∀ off (l : D.Loc g1 g2 r), D.Interior g1 g2 r l →
      u.q2s + (((D.start2 r + l.2.val - g2 : ℤ) : K) + off) * u.cfg.dq2 = gridPoint u.q2s u.cfg.dq2 off (D.toGlob g1 g2 r l).2 :=
    fun off l hl => (gridPoint_glob _ _ _ (D.fits2 r) l.2 hl.2.1 hl.2.2).symm
  refine ⟨fun s p l hl => ⟨?_, ?_⟩, fun s p l hl => ⟨?_, ?_⟩, fun s p l hl => ?_, fun s p l hl => ?_, fun s p l hl => ?_,
    fun f g l hl hfg s p => ?_⟩
  · simp only [callbacksAt, wholeCallbacks, Setup.pCenter]
    rw [hx, hy, G1 _ l hl, G2 _ l hl, (pc s p).1, (pc s p).2.1, (pc s p).2.2]
  · simp only [callbacksAt, wholeCallbacks, Setup.pCenter]
    rw [hx, hy, (pc s p).1, (pc s p).2.1, (pc s p).2.2]
    simp only [Prod.fst_add, Prod.snd_add, add_zero]
    have := G2 0 l hl
    simp only [add_zero] at this
    rw [this]
    have key := gridPoint_glob_succ u.q1s u.cfg.dq1 0 (D.pos1 r) (D.fits1 r) hg1 l.1 hl.1.1 hl.1.2
      (fun x => (fn.Cq s t x (gridPoint u.q2s u.cfg.dq2 0 (D.toGlob g1 g2 r l).2) (gridPoint (u.p1s s) (u.cfg.dp1 s) (1 / 2) p.1)
        (gridPoint (u.p2s s) (u.cfg.dp2 s) (1 / 2) p.2.1) (gridPoint (u.p3s s) (u.cfg.dp3 s) (1 / 2) p.2.2)).1)
      (fun x => by rw [hper.1])
    simp only [add_zero] at key
    exact key
  · simp only [callbacksAt, wholeCallbacks, Setup.pCenter]
    rw [hx', hy', G1 _ l hl, G2 _ l hl, (pc s p).1, (pc s p).2.1, (pc s p).2.2]
  · simp only [callbacksAt, wholeCallbacks, Setup.pCenter]
    rw [hx', hy', (pc s p).1, (pc s p).2.1, (pc s p).2.2]
    simp only [Prod.fst_add, Prod.snd_add, add_zero]
    rw [G1 _ l hl]
    have key := gridPoint_glob_succ u.q2s u.cfg.dq2 0 (D.pos2 r) (D.fits2 r) hg2 l.2 hl.2.1 hl.2.2
      (fun y => (fn.Cq s t (gridPoint u.q1s u.cfg.dq1 (1 / 2) (D.toGlob g1 g2 r l).1) y (gridPoint (u.p1s s) (u.cfg.dp1 s) (1 / 2) p.1)
        (gridPoint (u.p2s s) (u.cfg.dp2 s) (1 / 2) p.2.1) (gridPoint (u.p3s s) (u.cfg.dp3 s) (1 / 2) p.2.2)).2)
      (fun x => by rw [hper.2])
    simp only [add_zero] at key
    exact key
  · simp only [callbacksAt, wholeCallbacks, Setup.pCenter, Setup.pCorner]
    rw [(hc _ _).1, (hc _ _).2, G1 _ l hl, G2 _ l hl, (pf s p).1, (pc s p).2.1, (pc s p).2.2]
  · simp only [callbacksAt, wholeCallbacks, Setup.pCenter, Setup.pCorner]
    rw [(hc _ _).1, (hc _ _).2, G1 _ l hl, G2 _ l hl, (pc s p).1, (pf s p).2.1, (pc s p).2.2]
  · simp only [callbacksAt, wholeCallbacks, Setup.pCenter, Setup.pCorner]
    rw [(hc _ _).1, (hc _ _).2, G1 _ l hl, G2 _ l hl, (pc s p).1, (pc s p).2.1, (pf s p).2.2]
  · simp only [callbacksAt, wholeCallbacks]
    rw [(hc _ _).1, (hc _ _).2, G1 _ l hl, G2 _ l hl]
    congr 1
    funext s p
    exact hfg s p

theorem sizesOk (hg1 : 1 ≤ g1 ∨ g1 = 0 ∧ N1 = 1) (hg2 : 1 ≤ g2 ∨ g2 = 0 ∧ N2 = 1) :
    D.SizesOk (fun r => D.sizes Np1 Np2 Np3 Ns g1 g2 r) g1 g2 :=
  ⟨fun _ => rfl, fun _ => rfl, fun _ => rfl, fun _ => rfl, fun h => by omega, fun h => by omega⟩

/-- The number `(i, j)` of cell `(x, y)` in a global distribution. -/
def rowOf (f : Dist (Fin Ns) (PIdx Np1 Np2 Np3) (ZMod N1 × ZMod N2) K) : ℕ → ℕ → ℕ → ℕ → K := fun i j x y =>
  if h : j < Ns then f ⟨j, h⟩ ((i : ℕ), (i / Np1 : ℕ), (i / Np1 / Np2 : ℕ)) ((x : ZMod N1), (y : ZMod N2)) else 0

theorem holds_iff_bulk (A : R → AfArray K) (f : Dist (Fin Ns) (PIdx Np1 Np2 Np3) (ZMod N1 × ZMod N2) K) :
    D.Holds g1 g2 (fun r => (A r).toDist _ _) f ↔ D.Bulk g1 g2 (Np1 * Np2 * Np3) Ns A (rowOf f) := by
  constructor
  · intro h r i j a b hi hj ha hb
    obtain ⟨p, rfl⟩ := exists_momIndex i hi
    have va : ((a + g1 : ℕ) : ZMod (D.n1 r + 2 * g1)).val = a + g1 := ZMod.val_cast_of_lt (by omega)
    have vb : ((b + g2 : ℕ) : ZMod (D.n2 r + 2 * g2)).val = b + g2 := ZMod.val_cast_of_lt (by omega)
    have hl : D.Interior g1 g2 r (((a + g1 : ℕ) : ZMod (D.n1 r + 2 * g1)), ((b + g2 : ℕ) : ZMod (D.n2 r + 2 * g2))) := by
      refine ⟨⟨?_, ?_⟩, ?_, ?_⟩ <;> dsimp only <;> omega
    have := h r ⟨j, hj⟩ p _ hl
    simp only [AfArray.toDist] at this
    rw [va, vb] at this
    rw [this, rowOf, dif_pos hj, momIndex_inv]
    congr 1
    simp only [toGlob, globCoord, va, vb]
    ext <;> push_cast <;> ring
  · intro h r s p l hl
    obtain ⟨⟨a, b⟩, c, d⟩ := hl
    have := h r (momIndex p) s.val (l.1.val - g1) (l.2.val - g2) (momIndex_lt p) s.2 (by omega) (by omega)
    rw [Nat.sub_add_cancel a, Nat.sub_add_cancel c, rowOf, dif_pos s.2, momIndex_inv] at this
    simp only [AfArray.toDist]
    rw [this]
    congr 1
    simp only [toGlob, globCoord]
    rw [Nat.cast_add, Nat.cast_sub a, Nat.cast_add, Nat.cast_sub c]
    ext <;> push_cast <;> ring

theorem shaped_ofDist (F : ∀ r, Dist (Fin Ns) (PIdx Np1 Np2 Np3) (D.Loc g1 g2 r) K) :
    D.Shaped g1 g2 (Np1 * Np2 * Np3) Ns fun r => AfArray.ofDist _ _ (F r) := fun _ => ⟨rfl, rfl, rfl, rfl⟩

theorem shaped_initial (u : Setup Ns K) (fn : UserFns Ns Np1 Np2 Np3 K) :
    D.Shaped g1 g2 (Np1 * Np2 * Np3) Ns fun r => D.initialF g1 g2 u fn r := fun _ => ⟨rfl, rfl, rfl, rfl⟩

end

section
variable [Field K] [LinearOrder K] [IsStrictOrderedRing K]

theorem clockedSteps_map {A B : Type} (cb : K → A) (φ : A → B) (t : K) (dts : List K) :
    (clockedSteps cb t dts).map (fun st => (st.1, fun k => φ (st.2 k))) = clockedSteps (fun t => φ (cb t)) t dts := by
  induction dts generalizing t with
  | nil => rfl
  | cons dt rest ih => simp [clockedSteps, ih]

theorem mem_clockedSteps {A : Type} (cb : K → A) (t : K) (dts : List K) :
    ∀ st ∈ clockedSteps cb t dts, ∃ t', st.2 = fun _ => cb t' := by
  induction dts generalizing t with
  | nil => intro st h; simp [clockedSteps] at h
  | cons dt rest ih =>
    intro st h
    simp only [clockedSteps, List.mem_cons] at h
    rcases h with rfl | h
    · exact ⟨t, rfl⟩
    · exact ih _ st h

/-- A run of the script's steps keeps the processes in agreement with the whole grid. -/
theorem evolves_holds (u : Setup Ns K) (fn : UserFns Ns Np1 Np2 Np3 K) (hper : PeriodicVelocities N1 N2 u fn)
    (hg : GhostsOk N1 N2 g1 g2 u.cfg) (t : K) (dts : List K) (A A' : R → AfArray K)
    (f f' : Dist (Fin Ns) (PIdx Np1 Np2 Np3) (ZMod N1 × ZMod N2) K) (hA : D.Holds g1 g2 (fun r => (A r).toDist _ _) f)
    (h : D.Evolves g1 g2 u fn t dts A A') (h' : wholeRun u fn t dts f = .ok f') :
    D.Holds g1 g2 (fun r => (A' r).toDist _ _) f' ∧ D.Shaped g1 g2 (Np1 * Np2 * Np3) Ns A' := by
  obtain ⟨F', hF', rfl⟩ := h
  refine ⟨?_, D.shaped_ofDist g1 g2 F'⟩
  simp only [toDist_ofDist]
  have e1 : clockedSteps (fun t r => D.callbacksAt g1 g2 u fn t r) t dts
      = (clockedSteps (fun t => ((fun r => D.callbacksAt g1 g2 u fn t r), (wholeCallbacks u fn t : Callbacks (Fin Ns) (PIdx Np1 Np2 Np3) (ZMod N1 × ZMod N2) K)))
          t dts |>.map fun st => (st.1, fun k => (st.2 k).1, fun k => (st.2 k).2)).map fun st => (st.1, st.2.1) := by
    rw [List.map_map]
    exact (clockedSteps_map (fun t => ((fun r => D.callbacksAt g1 g2 u fn t r), (wholeCallbacks u fn t : Callbacks (Fin Ns) (PIdx Np1 Np2 Np3) (ZMod N1 × ZMod N2) K)))
      Prod.fst t dts).symm
  have e2 : clockedSteps (wholeCallbacks u fn : K → Callbacks (Fin Ns) (PIdx Np1 Np2 Np3) (ZMod N1 × ZMod N2) K) t dts
      = (clockedSteps (fun t => ((fun r => D.callbacksAt g1 g2 u fn t r), (wholeCallbacks u fn t : Callbacks (Fin Ns) (PIdx Np1 Np2 Np3) (ZMod N1 × ZMod N2) K)))
          t dts |>.map fun st => (st.1, fun k => (st.2 k).1, fun k => (st.2 k).2)).map fun st => (st.1, st.2.2) := by
    rw [List.map_map]
    exact (clockedSteps_map (fun t => ((fun r => D.callbacksAt g1 g2 u fn t r), (wholeCallbacks u fn t : Callbacks (Fin Ns) (PIdx Np1 Np2 Np3) (ZMod N1 × ZMod N2) K)))
      Prod.snd t dts).symm
  rw [e1] at hF'
  rw [wholeRun, e2] at h'
  refine C11_decomposition_independence D g1 g2 ((1, 0, 0), (0, 1, 0), (0, 0, 1)) u.cfg hg.2.2 _ ?_ _ _ _ _ hA hF' h'
  intro st hst k r
  obtain ⟨st', hst', rfl⟩ := List.mem_map.mp hst
  obtain ⟨t', ht'⟩ := mem_clockedSteps _ _ _ st' hst'
  simp only [ht']
  exact D.callbacks_agree g1 g2 u fn hper hg.1 hg.2.1 t' r

theorem dump_data (A : R → AfArray K) (file : Vec K) (hg1 : 1 ≤ g1 ∨ g1 = 0 ∧ N1 = 1) (hg2 : 1 ≤ g2 ∨ g2 = 0 ∧ N2 = 1)
    (f : Dist (Fin Ns) (PIdx Np1 Np2 Np3) (ZMod N1 × ZMod N2) K) (hA : D.Holds g1 g2 (fun r => (A r).toDist _ _) f)
    (hs : D.Shaped g1 g2 (Np1 * Np2 * Np3) Ns A)
    (h : D.DumpsTo (fun r => D.sizes Np1 Np2 Np3 Ns g1 g2 r) (Np1 * Np2 * Np3) Ns A file) :
    file.len = Np1 * Np2 * Np3 * Ns * (N1 * N2) ∧ ∀ (s : Fin Ns) (p : PIdx Np1 Np2 Np3) (i : ZMod N1 × ZMod N2),
      file.data (momIndex p + Np1 * Np2 * Np3 * (s.val + Ns * (i.1.val + N1 * i.2.val))) = f s p i := by
  obtain ⟨hl, hd⟩ := D.C38_file_contents _ g1 g2 _ _ A file (D.sizesOk g1 g2 hg1 hg2) hs h _ ((D.holds_iff_bulk g1 g2 A f).mp hA)
  refine ⟨hl, fun s p i => ?_⟩
  rw [hd _ _ _ _ (momIndex_lt p) s.2 (ZMod.val_lt _) (ZMod.val_lt _), rowOf, dif_pos s.2, momIndex_inv]
  simp

theorem load_holds (A : R → AfArray K) (file : Vec K) (stale : R → Vec K) (hg1 : 1 ≤ g1 ∨ g1 = 0 ∧ N1 = 1) (hg2 : 1 ≤ g2 ∨ g2 = 0 ∧ N2 = 1)
    (f : Dist (Fin Ns) (PIdx Np1 Np2 Np3) (ZMod N1 × ZMod N2) K)
    (hf : ∀ (s : Fin Ns) (p : PIdx Np1 Np2 Np3) (i : ZMod N1 × ZMod N2),
      file.data (momIndex p + Np1 * Np2 * Np3 * (s.val + Ns * (i.1.val + N1 * i.2.val))) = f s p i)
    (h : D.LoadsTo (fun r => D.sizes Np1 Np2 Np3 Ns g1 g2 r) g1 g2 .periodic .periodic (Np1 * Np2 * Np3) Ns stale file A) :
    D.Holds g1 g2 (fun r => (A r).toDist _ _) f := by
  obtain ⟨-, hd⟩ := D.C38_load_contents _ g1 g2 .periodic .periodic _ _ stale file A (D.sizesOk g1 g2 hg1 hg2) h
  intro r s p l hl
  obtain ⟨⟨a, b⟩, c, d⟩ := hl
  simp only [AfArray.toDist]
  have v1 := val_cast_globCoord (N := N1) (D.fits1 r) l.1 a b
  have v2 := val_cast_globCoord (N := N2) (D.fits2 r) l.2 c d
  rw [← hf s p, hd r (momIndex p) s.val l.1.val l.2.val (D.toGlob g1 g2 r l).1.val (D.toGlob g1 g2 r l).2.val (momIndex_lt p) s.2
    (ZMod.val_lt _) (ZMod.val_lt _) (ZMod.val_lt _)]
  · right; simp only [toGlob]; rw [v1]; omega
  · right; simp only [toGlob]; rw [v2]; omega

/-- A number below the length of the file is an entry of one cell. -/
theorem file_index (n : ℕ) (hn : n < Np1 * Np2 * Np3 * Ns * (N1 * N2)) :
    ∃ (s : Fin Ns) (p : PIdx Np1 Np2 Np3) (i : ZMod N1 × ZMod N2),
      n = momIndex p + Np1 * Np2 * Np3 * (s.val + Ns * (i.1.val + N1 * i.2.val)) := by
  obtain ⟨⟨a, b, c⟩, ⟨⟨ha, hb, hc⟩, h⟩, -⟩ := C37_indices_cover (Np1 * Np2 * Np3) Ns (N1 * N2) n hn
  obtain ⟨p, rfl⟩ := exists_momIndex a ha
  obtain ⟨⟨x, y, z⟩, ⟨⟨hx, hy, hz⟩, h'⟩, -⟩ := C37_indices_cover N1 N2 1 c (by simpa using hc)
  refine ⟨⟨b, hb⟩, p, ((x : ZMod N1), (y : ZMod N2)), ?_⟩
  simp only at h h' hx hy hz ⊢
  rw [ZMod.val_cast_of_lt hx, ZMod.val_cast_of_lt hy, h, h']
  obtain rfl : z = 0 := by omega
  ring

end
end Decomp
end Bolt
