import Verif.Props.ShearTotal

/-!
# C106: a limiter that does not conserve, and examples
-/

set_option linter.unusedSectionVars false

namespace Bolt

/-- One momentum, flow to the right with velocity one everywhere. -/
def shCb (Q : Type) : Callbacks Unit (PIdx 1 1 1) Q ℚ :=
  ⟨fun _ _ _ => 1, fun _ _ _ => 0, fun _ _ _ => 0, fun _ _ _ => 0, fun _ _ _ => 0, fun f => f⟩

theorem shCb_closed (name : String) (N1 N2 : ℕ) [NeZero N1] [NeZero N2] :
    ShearClosed1 { c12Cfg with reconstructionInQ := name } () N1 N2 (shCb (ℤ × ℤ)) :=
  ⟨⟨fun _ => 1, fun _ _ => ⟨rfl, rfl⟩⟩, fun _ _ => rfl, fun h => by simp [c12Cfg] at h⟩

/-- Three columns of four cells: `1 1 1 1`, `0 0 0 0` and `1 0 0 0`. -/
def shF : Dist Unit (PIdx 1 1 1) (ZMod 3 × ZMod 4) ℚ := fun _ _ i => if i.1 = 0 then 1 else if i.1 = 2 ∧ i.2 = 0 then 1 else 0

/-- **C106 (limiters).** Between whole cells a limited reconstruction does not conserve: there is a non-negative state of a closed shearing box, half
a cell displaced, whose number of particles changes at a nonzero rate with the minmod reconstruction. -/
theorem C106_limited_not_conserved : (∀ s p i, 0 ≤ shF s p i) ∧ ShearClosed1 c12Cfg () 3 4 (shCb (ℤ × ℤ)) ∧
    ∃ k, dfdtFVM ⟨(1, 0, 0), (0, 1, 0), (0, 0, 1), (1, 0), (0, 1)⟩ c12Cfg (shCb (ℤ × ℤ)) (shearExt1 (1 / 2 : ℚ) shF) = .ok k ∧
      ∑ p, ∑ i : ZMod 3 × ZMod 4, k () p (boxCell i) ≠ 0 := by
  refine ⟨fun s p i => by simp only [shF]; split_ifs <;> norm_num, shCb_closed "minmod" 3 4, ?_⟩
  obtain ⟨k, hk⟩ := (C09_slope_ok_iff ⟨(1, 0, 0), (0, 1, 0), (0, 0, 1), (1, 0), (0, 1)⟩ c12Cfg (shCb (ℤ × ℤ)) (shearExt1 (1 / 2 : ℚ) shF)).mpr
    ⟨fun _ => Or.inr (Or.inl rfl), fun _ => Or.inr (Or.inl rfl)⟩
  refine ⟨k, hk, ?_⟩
  have : (match dfdtFVM ⟨(1, 0, 0), (0, 1, 0), (0, 0, 1), (1, 0), (0, 1)⟩ c12Cfg (shCb (ℤ × ℤ)) (shearExt1 (1 / 2 : ℚ) shF) with
    | .ok k => decide (∑ p, ∑ i : ZMod 3 × ZMod 4, k () p (boxCell i) = 1 / 2)
    | .error _ => false) = true := by decide +kernel
  rw [hk] at this
  have := of_decide_eq_true this
  rw [this]; norm_num

/-- Four columns of three cells shared by two processes, two columns each. -/
def exS : Decomp 4 3 (Fin 2) where
  start1 := fun r => 2 * r.val
  start2 := fun _ => 0
  n1 := fun _ => 2
  n2 := fun _ => 3
  owner := fun i => if i.1.val < 2 then 0 else 1
  pos1 := by intro r; omega
  pos2 := by intro r; omega
  fits1 := by intro r; omega
  fits2 := by intro r; omega
  owner_iff := by
    intro i r
    have h1 := ZMod.val_lt i.1
    have h2 := ZMod.val_lt i.2
    have hr : r = 0 ∨ r = 1 := by fin_cases r <;> simp
    rcases hr with rfl | rfl <;> split_ifs <;> simp [h2] <;> omega

/-- Walls of a box that shears along the second axis, two ghost cells. -/
def exSOpts : BCOptions := ⟨2, fun w => match w with | .left | .right => "shearing-box" | .bottom | .top => "periodic", "cartesian", "FVM"⟩

theorem exSOpts_shears : ShearsAlong2 exSOpts.name := ⟨rfl, rfl, rfl, rfl⟩

/-- The box `[0, 4] × [0, 3]` with cells of size one and shear rate one. -/
def exSp : ShearParams ℚ := ⟨1, 1, 0, 4, 0, 3, 0⟩

def exSDat0 (r : Fin 2) : exS.LocBCData 2 2 r Unit 1 1 1 ℚ := ⟨0, 0, 0, 0, fun _ f => f, fun _ f => f⟩

theorem exS_dat (t : ℚ) : ∃ dat : ∀ r, exS.LocBCData 2 2 r Unit 1 1 1 ℚ,
    ∀ r, ShearsLike { exSp with time := t } exSOpts.nGhost exSOpts.name (exS.coords 2 2 exSp.q1Start exSp.q2Start 1 1 r).2.2.2 (dat r) := by
  have : ∀ r, ∃ d : exS.LocBCData 2 2 r Unit 1 1 1 ℚ,
      ShearsLike { exSp with time := t } exSOpts.nGhost exSOpts.name (exS.coords 2 2 exSp.q1Start exSp.q2Start 1 1 r).2.2.2 d := fun r => by
    have : NeZero (exS.n1 r + 2 * 2) := ⟨by simp [exS]⟩
    have : NeZero (exS.n2 r + 2 * 2) := ⟨by simp [exS]⟩
    exact Decomp.C106_data_exist _ (by norm_num [exSp]) (by norm_num [exSp]) _ _ _ (exSDat0 r)
  choose d hd using this
  exact ⟨d, hd⟩

/-- Non-vacuity of C106: for any step lengths a run with the displacements of the clock exists on two processes, and it keeps the number of
particles with piecewise-constant reconstruction. -/
example (dts : List ℚ) (t : ℚ) (F : ∀ r, Dist Unit (PIdx 1 1 1) (exS.Loc 2 2 r) ℚ) :
    ∃ steps F', steps.map Prod.fst = dts ∧ exS.ClockedShear 2 2 exSp exSOpts 1 1 t steps ∧
      exS.BcRun 2 2 exSOpts ((1, 0, 0), (0, 1, 0), (0, 0, 1)) { c12Cfg with reconstructionInQ := "piecewise-constant" } steps F F' ∧
      ∑ p, ∑ i, exS.assemble 2 2 F' () p i = ∑ p, ∑ i, exS.assemble 2 2 F () p i := by
  have mk : ∀ (dts : List ℚ) (t : ℚ), ∃ st : List (ℚ × (Fin 2 → ∀ r, exS.LocBCData 2 2 r Unit 1 1 1 ℚ) ×
      (Fin 2 → ∀ r, Callbacks Unit (PIdx 1 1 1) (exS.Loc 2 2 r) ℚ) × (Fin 2 → Callbacks Unit (PIdx 1 1 1) (ℤ × ℤ) ℚ)),
      (st.map fun x => (x.1, x.2.1, x.2.2.1)).map Prod.fst = dts ∧
      exS.ClockedShear 2 2 exSp exSOpts 1 1 t (st.map fun x => (x.1, x.2.1, x.2.2.1)) ∧
      ∀ x ∈ st, x.2.2 = (fun _ _ => shCb _, fun _ => shCb _) := by
    intro dts
    induction dts with
    | nil => exact fun t => ⟨[], rfl, trivial, by simp⟩
    | cons dt rest ih =>
      intro t
      obtain ⟨st, a, b, c⟩ := ih (t + dt)
      obtain ⟨dat, hdat⟩ := exS_dat t
      refine ⟨(dt, fun _ => dat, fun _ _ => shCb _, fun _ => shCb _) :: st, by simpa using a, ⟨fun _ => hdat, b⟩, ?_⟩
      intro x hx
      rcases List.mem_cons.mp hx with rfl | hx
      · rfl
      · exact c x hx
  obtain ⟨st, a, b, c⟩ := mk dts t
  obtain ⟨F', hF'⟩ := exS.C56_run_exists 2 2 exSOpts .periodic .periodic (by rfl) (fl := flipCartesian) (Or.inl ⟨rfl, rfl⟩)
    (by intro w; cases w <;> decide) ((1, 0, 0), (0, 1, 0), (0, 0, 1)) { c12Cfg with reconstructionInQ := "piecewise-constant" } (Or.inl rfl)
    (Or.inr (Or.inl rfl)) (st.map fun x => (x.1, x.2.1, x.2.2.1)) F
  refine ⟨_, F', a, b, hF', ?_⟩
  refine exS.C106_first_order_conserves 2 2 exSp exSOpts exSOpts_shears (le_refl 2) 1 1 one_ne_zero one_pos (by norm_num [exSp])
    (fun r => by simp [exS]) (fun r => by simp [exS]) _ _ rfl (Or.inr (Or.inl rfl)) ⟨by omega, by omega⟩ () st ?_ ?_ t b F F' hF'
  · intro x hx j r
    rw [c x hx]
    exact ⟨fun _ _ _ _ => ⟨rfl, rfl⟩, fun _ _ _ _ => ⟨rfl, rfl⟩, fun _ _ _ _ => rfl, fun _ _ _ _ => rfl, fun _ _ _ _ => rfl,
      fun f g l _ h s p => h s p⟩
  · intro x hx j
    rw [c x hx]
    exact shCb_closed _ 4 3

/-- Non-vacuity of the divided walls: seven rows shared by seven processes, with two ghost rows each. -/
def exV : Decomp 1 7 (Fin 7) where
  start1 := fun _ => 0
  start2 := fun r => r.val
  n1 := fun _ => 1
  n2 := fun _ => 1
  owner := fun i => ⟨i.2.val, ZMod.val_lt i.2⟩
  pos1 := by intro r; omega
  pos2 := by intro r; omega
  fits1 := by intro r; omega
  fits2 := by intro r; omega
  owner_iff := by
    intro i r
    have h1 := ZMod.val_lt i.1
    rw [Fin.ext_iff]
    simp only
    omega

example (r : Fin 7) : exV.start1 r = 0 ∧ exV.n2 r + 2 * 2 < 7 ∧ ∃ l, (exV.signed 2 2 r l).1 < 0 :=
  ⟨rfl, by simp [exV], (0, 0), by show (((0 : ℕ) : ℤ) + (((0 : ZMod 5).val : ℕ) : ℤ) - (2 : ℕ) : ℤ) < 0; rw [ZMod.val_zero]; norm_num⟩

end Bolt
