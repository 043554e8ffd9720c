import Verif.Props.ShearBox

/-! Helper lemmas: number of particles in a shearing box. -/

set_option linter.unusedSectionVars false

namespace Bolt

variable {S P K : Type} {N1 N2 : ℕ} [NeZero N1] [NeZero N2] [Field K] [LinearOrder K] [IsStrictOrderedRing K] [FloorRing K]

/-- Locality of the flux: only the cells within the stencil matter. -/
theorem lineFlux_local (m : Recon) {v w : K} {x y : ℤ → K} {c d : ℤ} (hv : v = w)
    (h : ∀ k : ℤ, -(m.radius : ℤ) ≤ k → k < m.radius → x (c + k) = y (d + k)) :
    lineFlux m v x c = lineFlux m w y d := by
  have a := (reconFaces_congr m (1 : ℤ) (1 : ℤ) x y c d (fun k hk => by
    rw [abs_lt] at hk
    simpa using h k (by omega) (by omega))).1
  have b := (reconFaces_congr m (1 : ℤ) (1 : ℤ) x y (c - 1) (d - 1) (fun k hk => by
    rw [abs_lt] at hk
    have := h (k - 1) (by omega) (by omega)
    have e1 : c - 1 + k • (1 : ℤ) = c + (k - 1) := by simp; ring
    have e2 : d - 1 + k • (1 : ℤ) = d + (k - 1) := by simp; ring
    rw [e1, e2, this])).2
  rw [lineFlux, lineFlux, hv, a, b]

variable [Fintype P]

/-- The total slope of a box is what passes its walls. -/
theorem ext_total [AddCommGroup P] (ax : P × P × P) (cfg : FVMConfig S K) (cb : Callbacks S P (ℤ × ℤ) K) (X : Dist S P (ℤ × ℤ) K)
    (k : Dist S P (ℤ × ℤ) K) (s : S)
    (h1 : ∀ m, reconMethod cfg.reconstructionInQ = .ok m → ∀ p,
      ∑ j : ZMod N2, lineFlux m (cb.Cq1 s p ((N1 : ℤ), (j.val : ℤ))) (fun k => X s p (k, (j.val : ℤ))) N1
        = ∑ j : ZMod N2, lineFlux m (cb.Cq1 s p (0, (j.val : ℤ))) (fun k => X s p (k, (j.val : ℤ))) 0)
    (h2 : ∀ m, reconMethod cfg.reconstructionInQ = .ok m → ∀ p,
      ∑ i : ZMod N1, lineFlux m (cb.Cq2 s p ((i.val : ℤ), (N2 : ℤ))) (fun k => X s p ((i.val : ℤ), k)) N2
        = ∑ i : ZMod N1, lineFlux m (cb.Cq2 s p ((i.val : ℤ), 0)) (fun k => X s p ((i.val : ℤ), k)) 0)
    (hsrc : cfg.sourceEnabled = true → ∑ p, ∑ i : ZMod N1 × ZMod N2, cb.source X s p (boxCell i) = 0)
    (hk : dfdtFVM ⟨ax.1, ax.2.1, ax.2.2, (1, 0), (0, 1)⟩ cfg cb X = .ok k) :
    ∑ p, ∑ i : ZMod N1 × ZMod N2, k s p (boxCell i) = 0 := by
  obtain ⟨a, b, e1, e2, e3⟩ := dfdtFVM_ok hk
  have hb : ∑ p, ∑ i : ZMod N1 × ZMod N2, b s p (boxCell i) = 0 := by
    rcases e3 with ⟨_, m, _, d⟩ | ⟨_, d⟩
    · rw [Finset.sum_comm]
      refine Finset.sum_eq_zero fun i _ => ?_
      simp only [d]
      exact sum_dfdtP _ m _ _ _ _ _ _ _ s _
    · simp [d]
  have ha : ∑ p, ∑ i : ZMod N1 × ZMod N2, a s p (boxCell i) = 0 := by
    rcases e2 with ⟨_, m, hm, d⟩ | ⟨_, d⟩
    · simp only [d, dfdtQ, Finset.sum_add_distrib, Finset.sum_sub_distrib, Finset.sum_neg_distrib]
      have r1 : ∑ p, ∑ i : ZMod N1 × ZMod N2, fluxDiv m ((1, 0) : ℤ × ℤ) cfg.dq1 (cb.Cq1 s p) (X s p) (boxCell i) = 0 := by
        refine Finset.sum_eq_zero fun p _ => ?_
        rw [Fintype.sum_prod_type, Finset.sum_comm]
        simp only [boxCell]
        have hs : ∀ j : ZMod N2, ∑ i : ZMod N1, fluxDiv m ((1, 0) : ℤ × ℤ) cfg.dq1 (cb.Cq1 s p) (X s p) ((i.val : ℤ), (j.val : ℤ))
            = (lineFlux m (cb.Cq1 s p ((N1 : ℤ), (j.val : ℤ))) (fun k => X s p (k, (j.val : ℤ))) N1
              - lineFlux m (cb.Cq1 s p (0, (j.val : ℤ))) (fun k => X s p (k, (j.val : ℤ))) 0) / cfg.dq1 := by
          intro j
          rw [sum_zmod (fun c => fluxDiv m ((1, 0) : ℤ × ℤ) cfg.dq1 (cb.Cq1 s p) (X s p) (c, (j.val : ℤ)))]
          have := sum_fluxDiv_line m ((1, 0) : ℤ × ℤ) cfg.dq1 (cb.Cq1 s p) (X s p) (0, (j.val : ℤ)) N1
          have e0 : ∀ c : ℤ, (0, (j.val : ℤ)) + c • ((1, 0) : ℤ × ℤ) = (c, (j.val : ℤ)) := fun c => by ext <;> simp
          simp only [e0] at this
          exact this
        simp only [hs]
        rw [← Finset.sum_div, Finset.sum_sub_distrib, h1 m hm p]
        simp
      have r2 : ∑ p, ∑ i : ZMod N1 × ZMod N2, fluxDiv m ((0, 1) : ℤ × ℤ) cfg.dq2 (cb.Cq2 s p) (X s p) (boxCell i) = 0 := by
        refine Finset.sum_eq_zero fun p _ => ?_
        rw [Fintype.sum_prod_type]
        simp only [boxCell]
        have hs : ∀ i : ZMod N1, ∑ j : ZMod N2, fluxDiv m ((0, 1) : ℤ × ℤ) cfg.dq2 (cb.Cq2 s p) (X s p) ((i.val : ℤ), (j.val : ℤ))
            = (lineFlux m (cb.Cq2 s p ((i.val : ℤ), (N2 : ℤ))) (fun k => X s p ((i.val : ℤ), k)) N2
              - lineFlux m (cb.Cq2 s p ((i.val : ℤ), 0)) (fun k => X s p ((i.val : ℤ), k)) 0) / cfg.dq2 := by
          intro i
          rw [sum_zmod (fun c => fluxDiv m ((0, 1) : ℤ × ℤ) cfg.dq2 (cb.Cq2 s p) (X s p) ((i.val : ℤ), c))]
          have := sum_fluxDiv_line m ((0, 1) : ℤ × ℤ) cfg.dq2 (cb.Cq2 s p) (X s p) ((i.val : ℤ), 0) N2
          have e0 : ∀ c : ℤ, ((i.val : ℤ), 0) + c • ((0, 1) : ℤ × ℤ) = ((i.val : ℤ), c) := fun c => by ext <;> simp
          simp only [e0] at this
          exact this
        simp only [hs]
        rw [← Finset.sum_div, Finset.sum_sub_distrib, h2 m hm p]
        simp
      rw [r1, r2]
      by_cases hs : cfg.sourceEnabled = true
      · simp only [hs, if_true]; rw [hsrc hs]; simp
      · simp [hs]
    · simp [d]
  simp only [e1, Finset.sum_add_distrib, ha, hb, add_zero]

/-- Periodic lines along the second axis inside the box. -/
theorem shear_lines2 (m : Recon) (δ : K) (f : Dist S P (ZMod N1 × ZMod N2) K) (s : S) (p : P) (i : ZMod N1) {v w : K} (h : v = w) :
    lineFlux m v (fun k => shearExt1 δ f s p ((i.val : ℤ), k)) N2 = lineFlux m w (fun k => shearExt1 δ f s p ((i.val : ℤ), k)) 0 := by
  refine lineFlux_congr m h fun k => ?_
  have := ZMod.val_lt i
  rw [shearExt1_inside _ _ _ _ (by omega) (by omega), shearExt1_inside _ _ _ _ (by omega) (by omega)]
  congr 2; push_cast; simp

theorem shear_lines1 (m : Recon) (δ : K) (f : Dist S P (ZMod N1 × ZMod N2) K) (s : S) (p : P) (j : ZMod N2) {v w : K} (h : v = w) :
    lineFlux m v (fun k => shearExt2 δ f s p (k, (j.val : ℤ))) N1 = lineFlux m w (fun k => shearExt2 δ f s p (k, (j.val : ℤ))) 0 := by
  refine lineFlux_congr m h fun k => ?_
  have := ZMod.val_lt j
  rw [shearExt2_inside _ _ _ _ (by omega) (by omega), shearExt2_inside _ _ _ _ (by omega) (by omega)]
  congr 2; push_cast; simp

/-- First order: what leaves at one wall enters at the other, at every displacement. -/
theorem shear_walls1_first (δ v : K) (f : Dist S P (ZMod N1 × ZMod N2) K) (s : S) (p : P) :
    ∑ j : ZMod N2, lineFlux .piecewiseConstant v (fun k => shearExt1 δ f s p (k, (j.val : ℤ))) N1
      = ∑ j : ZMod N2, lineFlux .piecewiseConstant v (fun k => shearExt1 δ f s p (k, (j.val : ℤ))) 0 := by
  simp only [lineFlux, reconFaces]
  rw [← Finset.mul_sum, ← Finset.mul_sum]
  congr 1
  split_ifs with hv
  · rw [(C106_column_sums δ f s p ((N1 : ℤ) - 1)).1, (C106_column_sums δ f s p (0 - 1)).1]
    push_cast; simp
  · rw [(C106_column_sums δ f s p (N1 : ℤ)).1, (C106_column_sums δ f s p 0).1]
    push_cast; simp

theorem shear_walls2_first (δ v : K) (f : Dist S P (ZMod N1 × ZMod N2) K) (s : S) (p : P) :
    ∑ i : ZMod N1, lineFlux .piecewiseConstant v (fun k => shearExt2 δ f s p ((i.val : ℤ), k)) N2
      = ∑ i : ZMod N1, lineFlux .piecewiseConstant v (fun k => shearExt2 δ f s p ((i.val : ℤ), k)) 0 := by
  simp only [lineFlux, reconFaces]
  rw [← Finset.mul_sum, ← Finset.mul_sum]
  congr 1
  split_ifs with hv
  · rw [(C106_column_sums δ f s p ((N2 : ℤ) - 1)).2, (C106_column_sums δ f s p (0 - 1)).2]
    push_cast; simp
  · rw [(C106_column_sums δ f s p (N2 : ℤ)).2, (C106_column_sums δ f s p 0).2]
    push_cast; simp

theorem sum_shifted {N : ℕ} [NeZero N] (h : ZMod N → K) (m : ℤ) : ∑ j : ZMod N, h (j + m) = ∑ j, h j :=
  Equiv.sum_comp (Equiv.addRight (m : ZMod N)) h

/-- Whole-cell displacement: the two walls match row by row, whatever the reconstruction. -/
theorem shear_walls1_whole (m : Recon) (hm : m.radius ≤ N1) (d : ℤ) (v : K) (f : Dist S P (ZMod N1 × ZMod N2) K) (s : S) (p : P) :
    ∑ j : ZMod N2, lineFlux m v (fun k => shearExt1 (d : K) f s p (k, (j.val : ℤ))) N1
      = ∑ j : ZMod N2, lineFlux m v (fun k => shearExt1 (d : K) f s p (k, (j.val : ℤ))) 0 := by
  rw [← sum_shifted (fun j : ZMod N2 => lineFlux m v (fun k => shearExt1 (d : K) f s p (k, (j.val : ℤ))) 0) d]
  refine Finset.sum_congr rfl fun j _ => lineFlux_local m rfl fun k l1 l2 => ?_
  rw [(C106_whole_cells d f s p _).1, (C106_whole_cells d f s p _).1]
  have hN := NeZero.pos N1
  congr 2
  · push_cast; simp
  · by_cases hk : k < 0
    · simp only [show ¬ ((N1 : ℤ) + k < 0) by omega, show ¬ ((N1 : ℤ) ≤ N1 + k) by omega, show (0 : ℤ) + k < 0 by omega, if_true, if_false]
      push_cast; simp
    · simp only [show ¬ ((N1 : ℤ) + k < 0) by omega, show ((N1 : ℤ) ≤ N1 + k) by omega, show ¬ ((0 : ℤ) + k < 0) by omega,
        show ¬ ((N1 : ℤ) ≤ 0 + k) by omega, if_true, if_false]
      push_cast; simp

theorem shear_walls2_whole (m : Recon) (hm : m.radius ≤ N2) (d : ℤ) (v : K) (f : Dist S P (ZMod N1 × ZMod N2) K) (s : S) (p : P) :
    ∑ i : ZMod N1, lineFlux m v (fun k => shearExt2 (d : K) f s p ((i.val : ℤ), k)) N2
      = ∑ i : ZMod N1, lineFlux m v (fun k => shearExt2 (d : K) f s p ((i.val : ℤ), k)) 0 := by
  rw [← sum_shifted (fun i : ZMod N1 => lineFlux m v (fun k => shearExt2 (d : K) f s p ((i.val : ℤ), k)) 0) d]
  refine Finset.sum_congr rfl fun i _ => lineFlux_local m rfl fun k l1 l2 => ?_
  rw [(C106_whole_cells d f s p _).2, (C106_whole_cells d f s p _).2]
  have hN := NeZero.pos N2
  congr 2
  · by_cases hk : k < 0
    · simp only [show ¬ ((N2 : ℤ) + k < 0) by omega, show ¬ ((N2 : ℤ) ≤ N2 + k) by omega, show (0 : ℤ) + k < 0 by omega, if_true, if_false]
      push_cast; simp
    · simp only [show ¬ ((N2 : ℤ) + k < 0) by omega, show ((N2 : ℤ) ≤ N2 + k) by omega, show ¬ ((0 : ℤ) + k < 0) by omega,
        show ¬ ((N2 : ℤ) ≤ 0 + k) by omega, if_true, if_false]
      push_cast; simp
  · push_cast; simp

/-- A run whose every slope has total zero keeps the number of particles. -/
theorem clockedRun_total [AddCommGroup P] (ext : K → Dist S P (ZMod N1 × ZMod N2) K → Dist S P (ℤ × ℤ) K) (ax : P × P × P)
    (cfg : FVMConfig S K) (s : S) (Q : K → Prop) (steps : List (K × (Fin 2 → Callbacks S P (ℤ × ℤ) K)))
    (hz : ∀ st ∈ steps, ∀ t, Q t → ∀ f k, dfdtFVM ⟨ax.1, ax.2.1, ax.2.2, (1, 0), (0, 1)⟩ cfg (st.2 1) (ext t f) = .ok k →
      ∑ p, ∑ i : ZMod N1 × ZMod N2, k s p (boxCell i) = 0)
    (hQ : ∀ st ∈ steps, ∀ t, Q t → Q (t + st.1)) (t : K) (ht : Q t) (f f' : Dist S P (ZMod N1 × ZMod N2) K)
    (h : clockedRun ext ax cfg t steps f = .ok f') : ∑ p, ∑ i, f' s p i = ∑ p, ∑ i, f s p i := by
  induction steps generalizing f t with
  | nil =>
    simp only [clockedRun, Except.ok.injEq] at h
    subst h; rfl
  | cons st rest ih =>
    obtain ⟨dt, cb⟩ := st
    simp only [clockedRun, bind, Except.bind] at h
    cases h0 : boxStep (ext t) ax cfg dt cb f with
    | error e => simp [h0] at h
    | ok g =>
      simp only [h0] at h
      rw [ih (fun st hst => hz st (by simp [hst])) (fun st hst => hQ st (by simp [hst])) (t + dt) (hQ (dt, cb) (by simp) t ht) g h]
      obtain ⟨l0, l1, a, b, rfl⟩ := Decomp.boxStep_ok h0
      have := hz (dt, cb) (by simp) t ht _ l1 b
      simp only [Finset.sum_add_distrib, ← Finset.sum_mul, this, zero_mul, add_zero]

theorem clockedRun_succeeds [AddCommGroup P] (ext : K → Dist S P (ZMod N1 × ZMod N2) K → Dist S P (ℤ × ℤ) K) (ax : P × P × P)
    (cfg : FVMConfig S K)
    (hq : cfg.reconstructionInQ = "piecewise-constant" ∨ cfg.reconstructionInQ = "minmod" ∨ cfg.reconstructionInQ = "ppm")
    (hp : cfg.reconstructionInP = "piecewise-constant" ∨ cfg.reconstructionInP = "minmod" ∨ cfg.reconstructionInP = "ppm")
    (steps : List (K × (Fin 2 → Callbacks S P (ℤ × ℤ) K))) (t : K) (f : Dist S P (ZMod N1 × ZMod N2) K) :
    ∃ f', clockedRun ext ax cfg t steps f = .ok f' := by
  induction steps generalizing f t with
  | nil => exact ⟨f, rfl⟩
  | cons st rest ih =>
    obtain ⟨dt, cb⟩ := st
    have ok : ∀ (c : Callbacks S P (ℤ × ℤ) K) x, ∃ k, dfdtFVM ⟨ax.1, ax.2.1, ax.2.2, (1, 0), (0, 1)⟩ cfg c x = .ok k := fun c x =>
      (C09_slope_ok_iff _ cfg c x).mpr ⟨fun _ => hq, fun _ => hp⟩
    obtain ⟨k0, h0⟩ := ok (cb 0) (ext t f)
    obtain ⟨k1, h1⟩ := ok (cb 1) (ext t fun s p i => f s p i + k0 s p (boxCell i) * (dt / 2))
    obtain ⟨f', hf'⟩ := ih (t + dt) (fun s p i => f s p i + k1 s p (boxCell i) * dt)
    refine ⟨f', ?_⟩
    simp only [clockedRun, boxStep, bind, Except.bind, pure, Except.pure, h0, h1]
    exact hf'

end Bolt
