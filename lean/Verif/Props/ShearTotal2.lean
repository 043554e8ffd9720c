import Verif.Props.ShearExample

/-!
# C106, continued: walls at the ends of the second axis, and divided walls
-/

set_option linter.unusedSectionVars false

namespace Bolt

namespace Decomp

section conserve
variable {N1 N2 : ℕ} {R : Type} [NeZero N1] [NeZero N2] (D : Decomp N1 N2 R) (g1 g2 : ℕ) {S K : Type} {Np1 Np2 Np3 : ℕ}
  [NeZero Np1] [NeZero Np2] [NeZero Np3] [Field K] [LinearOrder K] [IsStrictOrderedRing K] [FloorRing K]

theorem runs_total_q2 (sp : ShearParams K) (o : BCOptions) (ho : ShearsAlong1 o.name) (hg2 : 2 ≤ o.nGhost) (dq1 dq2 : K) (hd1 : 0 < dq1)
    (hd2 : dq2 ≠ 0) (hext : sp.q1End = sp.q1Start + N1 * dq1) (hn : ∀ r, g2 ≤ D.n2 r) (hr : ∀ r, D.n1 r = N1)
    (ax : PIdx Np1 Np2 Np3 × PIdx Np1 Np2 Np3 × PIdx Np1 Np2 Np3) (cfg : FVMConfig S K)
    (hq : cfg.reconstructionInQ = "piecewise-constant" ∨ cfg.reconstructionInQ = "minmod" ∨ cfg.reconstructionInQ = "ppm")
    (hp : cfg.reconstructionInP = "piecewise-constant" ∨ cfg.reconstructionInP = "minmod" ∨ cfg.reconstructionInP = "ppm")
    (hg : ∀ m, reconMethod cfg.reconstructionInQ = .ok m → m.radius ≤ g1 ∧ m.radius ≤ g2) (s : S) (Q : K → Prop)
    (hbal : ∀ m, reconMethod cfg.reconstructionInQ = .ok m → ∀ t, Q t → ∀ (v : K) (f : Dist S (PIdx Np1 Np2 Np3) (ZMod N1 × ZMod N2) K) p,
      ∑ j : ZMod N1, lineFlux m v
        (fun k => shearExt2 (sp.q * sp.omega * (sp.q2End - sp.q2Start) * t / dq1) f s p ((j.val : ℤ), k)) N2
      = ∑ j : ZMod N1, lineFlux m v
        (fun k => shearExt2 (sp.q * sp.omega * (sp.q2End - sp.q2Start) * t / dq1) f s p ((j.val : ℤ), k)) 0)
    (steps : List (K × (Fin 2 → ∀ r, D.LocBCData g1 g2 r S Np1 Np2 Np3 K) ×
      (Fin 2 → ∀ r, Callbacks S (PIdx Np1 Np2 Np3) (D.Loc g1 g2 r) K) × (Fin 2 → Callbacks S (PIdx Np1 Np2 Np3) (ℤ × ℤ) K)))
    (hcb : ∀ st ∈ steps, ∀ j r, D.CallbacksAgreeBox g1 g2 r (st.2.2.1 j r) (st.2.2.2 j))
    (hcl : ∀ st ∈ steps, ∀ j, ShearClosed2 cfg s N1 N2 (st.2.2.2 j)) (t : K) (ht : Q t) (hQ : ∀ st ∈ steps, ∀ t, Q t → Q (t + st.1))
    (hdat : D.ClockedShear g1 g2 sp o dq1 dq2 t (steps.map fun st => (st.1, st.2.1, st.2.2.1)))
    (F F' : ∀ r, Dist S (PIdx Np1 Np2 Np3) (D.Loc g1 g2 r) K)
    (h : D.BcRun g1 g2 o ax cfg (steps.map fun st => (st.1, st.2.1, st.2.2.1)) F F') :
    ∑ p, ∑ i, D.assemble g1 g2 F' s p i = ∑ p, ∑ i, D.assemble g1 g2 F s p i := by
  obtain ⟨f', hf'⟩ := clockedRun_succeeds (fun t => shearExt2 (sp.q * sp.omega * (sp.q2End - sp.q2Start) * t / dq1)) ax cfg hq hp
    (steps.map fun st => (st.1, st.2.2.2)) t (D.assemble g1 g2 F)
  have hH := D.C106_runs_q2 g1 g2 sp o ho hg2 dq1 dq2 hd1 hd2 hext hn hr ax cfg hg steps hcb t hdat F F' _ f' ((holds_iff D g1 g2 F _).mpr rfl) h hf'
  rw [holds_iff] at hH
  rw [hH]
  refine clockedRun_total _ ax cfg s Q (steps.map fun st => (st.1, st.2.2.2)) ?_ ?_ t ht _ _ hf'
  · intro st hst t ht f k hk
    obtain ⟨x, hx, rfl⟩ := List.mem_map.mp hst
    obtain ⟨c2, ⟨v, hv⟩, c3⟩ := hcl x hx 1
    refine ext_total ax cfg (x.2.2.2 1) _ k s ?_ ?_ (fun hs => c3 hs _) hk
    · intro m hm p
      exact Finset.sum_congr rfl fun i _ => shear_lines1 m _ f s p i (c2 p i)
    · intro m hm p
      simp only [(hv p _).1, (hv p _).2]
      exact hbal m hm t ht (v p) f p
  · intro st hst t ht
    obtain ⟨x, hx, rfl⟩ := List.mem_map.mp hst
    exact hQ x hx t ht

/-- **C106 (particle number, first order).** With piecewise-constant reconstruction, a closed shearing box with walls at the ends of the second axis keeps the number of particles of
every species exactly, over any number of steps of any lengths, at every displacement and for every number of processes along the second axis. -/
theorem C106_first_order_conserves_q2 (sp : ShearParams K) (o : BCOptions) (ho : ShearsAlong1 o.name) (hg2 : 2 ≤ o.nGhost) (dq1 dq2 : K)
    (hd1 : 0 < dq1) (hd2 : dq2 ≠ 0) (hext : sp.q1End = sp.q1Start + N1 * dq1) (hn : ∀ r, g2 ≤ D.n2 r) (hr : ∀ r, D.n1 r = N1)
    (ax : PIdx Np1 Np2 Np3 × PIdx Np1 Np2 Np3 × PIdx Np1 Np2 Np3) (cfg : FVMConfig S K) (hq : cfg.reconstructionInQ = "piecewise-constant")
    (hp : cfg.reconstructionInP = "piecewise-constant" ∨ cfg.reconstructionInP = "minmod" ∨ cfg.reconstructionInP = "ppm")
    (hg : 1 ≤ g1 ∧ 1 ≤ g2) (s : S)
    (steps : List (K × (Fin 2 → ∀ r, D.LocBCData g1 g2 r S Np1 Np2 Np3 K) ×
      (Fin 2 → ∀ r, Callbacks S (PIdx Np1 Np2 Np3) (D.Loc g1 g2 r) K) × (Fin 2 → Callbacks S (PIdx Np1 Np2 Np3) (ℤ × ℤ) K)))
    (hcb : ∀ st ∈ steps, ∀ j r, D.CallbacksAgreeBox g1 g2 r (st.2.2.1 j r) (st.2.2.2 j))
    (hcl : ∀ st ∈ steps, ∀ j, ShearClosed2 cfg s N1 N2 (st.2.2.2 j)) (t : K)
    (hdat : D.ClockedShear g1 g2 sp o dq1 dq2 t (steps.map fun st => (st.1, st.2.1, st.2.2.1)))
    (F F' : ∀ r, Dist S (PIdx Np1 Np2 Np3) (D.Loc g1 g2 r) K)
    (h : D.BcRun g1 g2 o ax cfg (steps.map fun st => (st.1, st.2.1, st.2.2.1)) F F') :
    ∑ p, ∑ i, D.assemble g1 g2 F' s p i = ∑ p, ∑ i, D.assemble g1 g2 F s p i := by
  have hm : ∀ m, reconMethod cfg.reconstructionInQ = .ok m → m = .piecewiseConstant := by
    intro m hm
    rw [hq] at hm
    simpa [reconMethod, eq_comm] using hm
  exact D.runs_total_q2 g1 g2 sp o ho hg2 dq1 dq2 hd1 hd2 hext hn hr ax cfg (Or.inl hq) hp (fun m h => by rw [hm m h]; exact hg) s (fun _ => True)
    (fun m h t _ v f p => by rw [hm m h]; exact shear_walls2_first _ v f s p) steps hcb hcl t trivial (fun _ _ _ _ => trivial) hdat F F' h

/-- **C106 (particle number, whole cells).** If at the beginning of every step the neighbouring boxes have slid by a whole number of cells, the
number of particles is kept, also with walls at the ends of the second axis, with every reconstruction whose stencil fits in the box. -/
theorem C106_whole_cells_conserve_q2 (sp : ShearParams K) (o : BCOptions) (ho : ShearsAlong1 o.name) (hg2 : 2 ≤ o.nGhost) (dq1 dq2 : K)
    (hd1 : 0 < dq1) (hd2 : dq2 ≠ 0) (hext : sp.q1End = sp.q1Start + N1 * dq1) (hn : ∀ r, g2 ≤ D.n2 r) (hr : ∀ r, D.n1 r = N1)
    (ax : PIdx Np1 Np2 Np3 × PIdx Np1 Np2 Np3 × PIdx Np1 Np2 Np3) (cfg : FVMConfig S K)
    (hq : cfg.reconstructionInQ = "piecewise-constant" ∨ cfg.reconstructionInQ = "minmod" ∨ cfg.reconstructionInQ = "ppm")
    (hp : cfg.reconstructionInP = "piecewise-constant" ∨ cfg.reconstructionInP = "minmod" ∨ cfg.reconstructionInP = "ppm")
    (hg : ∀ m, reconMethod cfg.reconstructionInQ = .ok m → m.radius ≤ g1 ∧ m.radius ≤ g2) (s : S)
    (steps : List (K × (Fin 2 → ∀ r, D.LocBCData g1 g2 r S Np1 Np2 Np3 K) ×
      (Fin 2 → ∀ r, Callbacks S (PIdx Np1 Np2 Np3) (D.Loc g1 g2 r) K) × (Fin 2 → Callbacks S (PIdx Np1 Np2 Np3) (ℤ × ℤ) K)))
    (hcb : ∀ st ∈ steps, ∀ j r, D.CallbacksAgreeBox g1 g2 r (st.2.2.1 j r) (st.2.2.2 j))
    (hcl : ∀ st ∈ steps, ∀ j, ShearClosed2 cfg s N1 N2 (st.2.2.2 j)) (t : K)
    (ht : ∃ d : ℤ, sp.q * sp.omega * (sp.q2End - sp.q2Start) * t = d * dq1)
    (hdt : ∀ st ∈ steps, ∃ d : ℤ, sp.q * sp.omega * (sp.q2End - sp.q2Start) * st.1 = d * dq1)
    (hdat : D.ClockedShear g1 g2 sp o dq1 dq2 t (steps.map fun st => (st.1, st.2.1, st.2.2.1)))
    (F F' : ∀ r, Dist S (PIdx Np1 Np2 Np3) (D.Loc g1 g2 r) K)
    (h : D.BcRun g1 g2 o ax cfg (steps.map fun st => (st.1, st.2.1, st.2.2.1)) F F') :
    ∑ p, ∑ i, D.assemble g1 g2 F' s p i = ∑ p, ∑ i, D.assemble g1 g2 F s p i := by
  have hN2 : ∀ m, reconMethod cfg.reconstructionInQ = .ok m → m.radius ≤ N2 := fun m hm => by
    have r := D.owner 0
    have := (hg m hm).2
    have := hn r
    have := D.fits2 r
    omega
  refine D.runs_total_q2 g1 g2 sp o ho hg2 dq1 dq2 hd1 hd2 hext hn hr ax cfg hq hp hg s
    (fun t => ∃ d : ℤ, sp.q * sp.omega * (sp.q2End - sp.q2Start) * t = d * dq1)
    (fun m h t ht v f p => ?_) steps hcb hcl t ht (fun st hst t ht => ?_) hdat F F' h
  · obtain ⟨d, hd⟩ := ht
    rw [hd, mul_div_cancel_right₀ _ hd1.ne']
    exact shear_walls2_whole m (hN2 m h) d v f s p
  · obtain ⟨d, hd⟩ := ht
    obtain ⟨e, he⟩ := hdt st hst
    exact ⟨d + e, by rw [mul_add, hd, he]; push_cast; ring⟩

end conserve

section accuracy
variable {N1 N2 : ℕ} {R : Type} [NeZero N1] [NeZero N2] (D : Decomp N1 N2 R) (g1 g2 : ℕ) {S : Type} {Np1 Np2 Np3 : ℕ}

/-- **C106 (accuracy, other axis).** The same for walls at the ends of the second axis. -/
theorem C106_third_order_q2 (sp : ShearParams ℝ) (o : BCOptions) (ho : ShearsAlong1 o.name) (hg : 2 ≤ o.nGhost) (dq1 dq2 : ℝ) (hd1 : 0 < dq1)
    (hd2 : 0 < dq2) (hext : sp.q1End = sp.q1Start + N1 * dq1) (hn : ∀ r, g2 ≤ D.n2 r) (r : R) (hr : D.n1 r = N1)
    (dat : ∀ r, D.LocBCData g1 g2 r S Np1 Np2 Np3 ℝ)
    (hdat : ShearsLike sp o.nGhost o.name (D.coords g1 g2 sp.q1Start sp.q2Start dq1 dq2 r).2.2.2 (dat r))
    {M1 M2 : ℝ} {u : ℝ × ℝ → ℝ} (hu : ThriceSmooth (N1 * dq1) (N2 * dq2) M1 M2 u)
    (F F0 : ∀ r, Dist S (PIdx Np1 Np2 Np3) (D.Loc g1 g2 r) ℝ)
    (hF : D.Holds g1 g2 F fun _ _ i => u (cellCentre sp.q1Start (N1 * dq1) N1 i.1, cellCentre sp.q2Start (N2 * dq2) N2 i.2))
    (h : D.Synced g1 g2 o dat F F0) (s : S) (p : PIdx Np1 Np2 Np3) (l : D.Loc g1 g2 r) :
    let q := (D.coords g1 g2 sp.q1Start sp.q2Start dq1 dq2 r).2.2.2
    let x := q.1 l.1.val l.2.val
    let y := q.2 l.1.val l.2.val
    let Δ := sp.q * sp.omega * (sp.q2End - sp.q2Start) * sp.time
    ((D.signed g1 g2 r l).2 < 0 → |F0 r s p l - u (x - Δ, y)| ≤ M1 / 4 * dq1 ^ 3) ∧
    ((N2 : ℤ) ≤ (D.signed g1 g2 r l).2 → |F0 r s p l - u (x + Δ, y)| ≤ M1 / 4 * dq1 ^ 3) := by
  intro q x y Δ
  have hN1 : (N1 : ℝ) ≠ 0 := Nat.cast_ne_zero.mpr (NeZero.ne N1)
  have hN2 : (N2 : ℝ) ≠ 0 := Nat.cast_ne_zero.mpr (NeZero.ne N2)
  have key := D.C106_ghost_cells_q2 g1 g2 sp o ho hg dq1 dq2 hd1 hd2.ne' hext hn r hr dat hdat F F0 _ hF h s p l
  have hx : x = sp.q1Start + dq1 / 2 + (D.signed g1 g2 r l).1 * dq1 := by
    simp only [x, q, coords, calculateQ, signed, globCoord]; push_cast; ring
  have hy : y = sp.q2Start + dq2 / 2 + (D.signed g1 g2 r l).2 * dq2 := by
    simp only [y, q, coords, calculateQ, signed, globCoord]; push_cast; ring
  have fold : ∀ (a b : ℤ), u (cellCentre sp.q1Start (N1 * dq1) N1 (a : ZMod N1), cellCentre sp.q2Start (N2 * dq2) N2 (b : ZMod N2))
      = u (sp.q1Start + dq1 / 2 + a * dq1, sp.q2Start + dq2 / 2 + b * dq2) := fun a b => by
    rw [cellCentre_intCast (F := fun x => u (x, cellCentre sp.q2Start (N2 * dq2) N2 (b : ZMod N2))) (fun x => hu.periodic1 x _)]
    rw [cellCentre_intCast (F := fun y => u (_, y)) (fun y => hu.periodic2 _ y)]
    rw [mul_div_cancel_left₀ _ hN1, mul_div_cancel_left₀ _ hN2]
  have err : ∀ (a : ℤ) (z : ℝ), |catmullRom (fun b : ℤ => u (sp.q1Start + dq1 / 2 + b * dq1, sp.q2Start + dq2 / 2 + a * dq2)) z
      - u (sp.q1Start + dq1 / 2 + z * dq1, sp.q2Start + dq2 / 2 + a * dq2)| ≤ M1 / 4 * dq1 ^ 3 := fun a z => by
    have hM0 : 0 ≤ M1 := (abs_nonneg _).trans (hu.bound1 0 0)
    have e := catmullRom_error (F := fun x => u (x, sp.q2Start + dq2 / 2 + a * dq2)) (hu.smooth1 _) (fun y => hu.bound1 y _)
      (sp.q1Start + dq1 / 2) dq1 z (round z)
    refine e.trans ?_
    have hz := abs_sub_round z
    have h3 : 0 ≤ M1 / 2 * dq1 ^ 3 := by positivity
    rw [abs_of_pos hd1]
    calc M1 / 2 * dq1 ^ 3 * |z - (round z : ℤ)| ≤ M1 / 2 * dq1 ^ 3 * (1 / 2) := mul_le_mul_of_nonneg_left hz h3
      _ = M1 / 4 * dq1 ^ 3 := by ring
  refine ⟨fun hl => ?_, fun hl => ?_⟩
  · rw [key, shearExt2_bottom _ _ _ _ hl]
    simp only [fold]
    have := err (D.signed g1 g2 r l).2 ((D.signed g1 g2 r l).1 - Δ / dq1)
    rw [sub_mul, div_mul_cancel₀ _ hd1.ne', ← add_sub_assoc, ← hx, ← hy] at this
    rw [← hy]
    exact this
  · rw [key, shearExt2_top _ _ _ _ hl]
    simp only [fold]
    have := err (D.signed g1 g2 r l).2 ((D.signed g1 g2 r l).1 + Δ / dq1)
    rw [add_mul, div_mul_cancel₀ _ hd1.ne', ← add_assoc, ← hx, ← hy] at this
    rw [← hy]
    exact this

end accuracy

section divided
variable {N1 N2 : ℕ} {R : Type} [NeZero N1] [NeZero N2] (D : Decomp N1 N2 R) (g1 g2 : ℕ) {S K : Type} {Np1 Np2 Np3 : ℕ}
  [Field K] [LinearOrder K] [IsStrictOrderedRing K] [FloorRing K]

/-- **C106 (divided walls, right).** The same at the right wall, where the box beyond has slid the other way. -/
theorem C106_divided_walls_right (sp : ShearParams K) (o : BCOptions) (ho : ShearsAlong2 o.name) (dq1 dq2 : K) (hd1 : dq1 ≠ 0)
    (hd2 : 0 < dq2) (hext : sp.q2End = sp.q2Start + N2 * dq2) (m : ℤ)
    (hm : sp.q * sp.omega * (sp.q1End - sp.q1Start) * sp.time = m * dq2) (r : R) (hs : D.start1 r + D.n1 r = N1)
    (dat : ∀ r, D.LocBCData g1 g2 r S Np1 Np2 Np3 K)
    (hdat : ShearsLike sp o.nGhost o.name (D.coords g1 g2 sp.q1Start sp.q2Start dq1 dq2 r).2.2.2 (dat r))
    (F F0 : ∀ r, Dist S (PIdx Np1 Np2 Np3) (D.Loc g1 g2 r) K) (f : Dist S (PIdx Np1 Np2 Np3) (ZMod N1 × ZMod N2) K) (hF : D.Holds g1 g2 F f)
    (h : D.Synced g1 g2 o dat F F0) (s : S) (p : PIdx Np1 Np2 Np3) (l : D.Loc g1 g2 r) (hl : (N1 : ℤ) ≤ (D.signed g1 g2 r l).1) :
    F0 r s p l =
      if (D.start2 r : ℤ) - g2 ≤ ((D.signed g1 g2 r l).2 + m) % N2 ∧ ((D.signed g1 g2 r l).2 + m) % N2 < D.start2 r + D.n2 r + g2
      then f s p (((D.signed g1 g2 r l).1 : ZMod N1), (((D.signed g1 g2 r l).2 + m : ℤ) : ZMod N2)) else 0 := by
  rw [holds_iff] at hF
  subst hF
  obtain ⟨bc1, bc2, st, hset, happ⟩ := h
  have hax : petscAxis o.nGhost (o.name .left) = (bc1, g1) ∧ petscAxis o.nGhost (o.name .bottom) = (bc2, g2) := by
    unfold setupBCs at hset
    split_ifs at hset
    simp only [Except.ok.injEq, Prod.mk.injEq] at hset
    exact ⟨by rw [hset.1], by rw [hset.2]⟩
  rw [ho.left, ho.bottom] at hax
  simp only [petscAxis, Prod.mk.injEq, if_true, or_true, true_or, String.reduceEq, if_false] at hax
  obtain ⟨⟨rfl, e1⟩, rfl, e2⟩ := hax
  obtain ⟨X1, X2, X3, w1, w2, w3, w4⟩ := applyBcsF_ok (happ r)
  have q3 := atWall_skip _ .bottom X2 X3 (Or.inl ho.bottom) w3
  have q4 := atWall_skip _ .top X3 (F0 r) (Or.inl ho.top) w4
  rw [q4, q3]
  have v1 := fun s p i => atWall_shear _ .left _ X1 ho.left w1 s p i
  have v2 := fun s p i => atWall_shear _ .right X1 X2 ho.right w2 s p i
  have hp1 := D.pos1 r
  have hp2 := D.pos2 r
  have hN : (0 : K) < N2 := Nat.cast_pos.2 (NeZero.pos N2)
  have hL : sp.q2Start < sp.q2End := by rw [hext]; have := mul_pos hN hd2; linarith
  have : NeZero (D.n1 r + 2 * g1) := ⟨by omega⟩
  have : NeZero (D.n2 r + 2 * g2) := ⟨by omega⟩
  have t1 : (D.bcEnv g1 g2 o r (dat r)).touches .right = true := by
    simp only [BCEnv.touches, bcEnv, beq_iff_eq]; omega
  have hge : (D.bcEnv g1 g2 o r (dat r)).g = g1 := e1
  have b2 : ∀ i : D.Loc g1 g2 r, inSlab g1 .right i ↔ D.n1 r + g1 ≤ i.1.val := fun i => by
    have : (D.n1 r + 2 * g1 - g1) = D.n1 r + g1 := by omega
    simp only [inSlab, this]
  have c1 : (D.signed g1 g2 r l).1 = (D.start1 r : ℤ) + l.1.val - g1 := rfl
  have c2 : (D.signed g1 g2 r l).2 = (D.start2 r : ℤ) + l.2.val - g2 := rfl
  have hlv : D.n1 r + g1 ≤ l.1.val := by omega
  rw [v2, if_pos ⟨t1, by rw [hge, b2]; exact hlv⟩]
  obtain ⟨y, k, hy, hyk, ylo, yhi⟩ := D.sheared_right g1 g2 sp o hL dq1 dq2 hd1 hd2 hext ho.right r (dat r) hdat
    X1 s p l (by rw [e1, b2]; exact hlv)
  refine Eq.trans hy ?_
  rw [hm, mul_div_cancel_right₀ _ hd2.ne'] at hyk
  set c : ℤ := ((D.signed g1 g2 r l).2 + m) % N2 with hc
  have hyz : y = ((l.2.val + m + k * N2 : ℤ) : K) := by rw [hyk]; push_cast; ring
  have hcy : (l.2.val + m + k * N2 : ℤ) + D.start2 r - g2 = c := by
    have hz : (((l.2.val + m + k * N2 : ℤ) + D.start2 r - g2 : ℤ) : K) = y + D.start2 r - g2 := by rw [hyz]; push_cast; ring
    have l1 : (-1 : ℤ) < (l.2.val + m + k * N2 : ℤ) + D.start2 r - g2 := by
      have : ((-1 : ℤ) : K) < (((l.2.val + m + k * N2 : ℤ) + D.start2 r - g2 : ℤ) : K) := by rw [hz]; push_cast; linarith
      exact_mod_cast this
    have l2 : (l.2.val + m + k * N2 : ℤ) + D.start2 r - g2 < N2 := by
      have : (((l.2.val + m + k * N2 : ℤ) + D.start2 r - g2 : ℤ) : K) < ((N2 : ℤ) : K) := by rw [hz]; push_cast; linarith
      exact_mod_cast this
    rw [hc, c2, show (D.start2 r : ℤ) + l.2.val - g2 + m = ((l.2.val + m + k * N2 : ℤ) + D.start2 r - g2) + N2 * (-k) by ring,
      Int.add_mul_emod_self_left, Int.emod_eq_of_lt (by omega) l2]
  have hyc : y = ((c - D.start2 r + g2 : ℤ) : K) := by rw [hyz, ← hcy]; congr 1; ring
  rw [hyc]
  split_ifs with hin
  · rw [approx2_int _ _ _ _ _ (by omega) (by have := ZMod.val_lt l.1; omega) (by omega) (by push_cast; omega)]
    have d1 : ((((((D.n1 r + 2 * g1 - o.nGhost : ℕ) + ((l.1.val : ℤ) - (D.n1 r + 2 * g1 - o.nGhost : ℕ)) : ℤ)) : ZMod (D.n1 r + 2 * g1)).val : ℕ) : ℤ)
        = l.1.val := by
      have := ZMod.val_lt l.1
      rw [add_sub_cancel, ZMod.val_intCast, Int.emod_eq_of_lt (by omega) (by omega)]
    rw [v1, if_neg (by rw [hge]; simp only [inSlab]; omega), exchange_periodic, toGlob]
    have d2 : (((((c - D.start2 r + g2 : ℤ) : ZMod (D.n2 r + 2 * g2)).val : ℕ)) : ℤ) = c - D.start2 r + g2 := by
      rw [ZMod.val_intCast, Int.emod_eq_of_lt (by omega) (by push_cast; omega)]
    simp only
    congr 2
    · rw [globCoord, d1, c1]
    · rw [globCoord, d2, show (D.start2 r : ℤ) + (c - D.start2 r + g2) - g2 = c by ring, hc, ZMod.intCast_eq_intCast_iff]
      exact Int.mod_modEq _ _
  · refine approx2_outside _ _ _ _ _ ?_
    by_cases hlow : c - D.start2 r + g2 < 0
    · right; right; left
      exact_mod_cast hlow
    · right; right; right
      have hcl : 0 ≤ c := Int.emod_nonneg _ (by have := NeZero.pos N2; omega)
      have : ((D.n2 r + 2 * g2 : ℕ) : ℤ) - 1 < c - D.start2 r + g2 := by push_cast; omega
      have : ((((D.n2 r + 2 * g2 : ℕ) : ℤ) - 1 : ℤ) : K) < ((c - D.start2 r + g2 : ℤ) : K) := by exact_mod_cast this
      push_cast at this ⊢
      exact this

/-- **C106 (divided walls, bottom).** The same for walls at the ends of the second axis. -/
theorem C106_divided_walls_bottom (sp : ShearParams K) (o : BCOptions) (ho : ShearsAlong1 o.name) (dq1 dq2 : K) (hd1 : 0 < dq1)
    (hd2 : dq2 ≠ 0) (hext : sp.q1End = sp.q1Start + N1 * dq1) (m : ℤ)
    (hm : sp.q * sp.omega * (sp.q2End - sp.q2Start) * sp.time = m * dq1) (r : R) (hs : D.start2 r = 0)
    (dat : ∀ r, D.LocBCData g1 g2 r S Np1 Np2 Np3 K)
    (hdat : ShearsLike sp o.nGhost o.name (D.coords g1 g2 sp.q1Start sp.q2Start dq1 dq2 r).2.2.2 (dat r))
    (F F0 : ∀ r, Dist S (PIdx Np1 Np2 Np3) (D.Loc g1 g2 r) K) (f : Dist S (PIdx Np1 Np2 Np3) (ZMod N1 × ZMod N2) K) (hF : D.Holds g1 g2 F f)
    (h : D.Synced g1 g2 o dat F F0) (s : S) (p : PIdx Np1 Np2 Np3) (l : D.Loc g1 g2 r) (hl : (D.signed g1 g2 r l).2 < 0) :
    F0 r s p l =
      if (D.start1 r : ℤ) - g1 ≤ ((D.signed g1 g2 r l).1 - m) % N1 ∧ ((D.signed g1 g2 r l).1 - m) % N1 < D.start1 r + D.n1 r + g1
      then f s p ((((D.signed g1 g2 r l).1 - m : ℤ) : ZMod N1), ((D.signed g1 g2 r l).2 : ZMod N2)) else 0 := by
  rw [holds_iff] at hF
  subst hF
  obtain ⟨bc1, bc2, st, hset, happ⟩ := h
  have hax : petscAxis o.nGhost (o.name .left) = (bc1, g1) ∧ petscAxis o.nGhost (o.name .bottom) = (bc2, g2) := by
    unfold setupBCs at hset
    split_ifs at hset
    simp only [Except.ok.injEq, Prod.mk.injEq] at hset
    exact ⟨by rw [hset.1], by rw [hset.2]⟩
  rw [ho.left, ho.bottom] at hax
  simp only [petscAxis, Prod.mk.injEq, if_true, or_true, true_or, String.reduceEq, if_false] at hax
  obtain ⟨⟨rfl, e1⟩, rfl, e2⟩ := hax
  obtain ⟨X1, X2, X3, w1, w2, w3, w4⟩ := applyBcsF_ok (happ r)
  have q1 := atWall_skip _ .left _ X1 (Or.inl ho.left) w1
  have q2 := atWall_skip _ .right X1 X2 (Or.inl ho.right) w2
  have v1 := fun s p i => atWall_shear _ .bottom X2 X3 ho.bottom w3 s p i
  have v2 := fun s p i => atWall_shear _ .top X3 (F0 r) ho.top w4 s p i
  rw [q2, q1] at v1
  have hp2 := D.pos2 r
  have hp1 := D.pos1 r
  have hN : (0 : K) < N1 := Nat.cast_pos.2 (NeZero.pos N1)
  have hL : sp.q1Start < sp.q1End := by rw [hext]; have := mul_pos hN hd1; linarith
  have : NeZero (D.n2 r + 2 * g2) := ⟨by omega⟩
  have : NeZero (D.n1 r + 2 * g1) := ⟨by omega⟩
  have t1 : (D.bcEnv g1 g2 o r (dat r)).touches .bottom = true := by simp [BCEnv.touches, bcEnv, hs]
  have hge : (D.bcEnv g1 g2 o r (dat r)).g = g2 := e2
  have b1 : ∀ i : D.Loc g1 g2 r, inSlab g2 .top i ↔ D.n2 r + g2 ≤ i.2.val := fun i => by
    have : (D.n2 r + 2 * g2 - g2) = D.n2 r + g2 := by omega
    simp only [inSlab, this]
  have c2 : (D.signed g1 g2 r l).2 = (D.start2 r : ℤ) + l.2.val - g2 := rfl
  have c1 : (D.signed g1 g2 r l).1 = (D.start1 r : ℤ) + l.1.val - g1 := rfl
  have hlv : l.2.val < g2 := by omega
  rw [v2, if_neg (by rw [hge, b1]; omega), v1, if_pos ⟨t1, by rw [hge]; exact hlv⟩]
  obtain ⟨y, k, hy, hyk, ylo, yhi⟩ := D.sheared_bottom g1 g2 sp o hL dq1 dq2 hd1 hd2 hext ho.bottom r (dat r) hdat
    (D.exchange g1 g2 .periodic .periodic st F r) s p l (by rw [e2]; exact hlv)
  refine Eq.trans hy ?_
  rw [hm, mul_div_cancel_right₀ _ hd1.ne'] at hyk
  set c : ℤ := ((D.signed g1 g2 r l).1 - m) % N1 with hc
  have hyz : y = ((l.1.val - m + k * N1 : ℤ) : K) := by rw [hyk]; push_cast; ring
  have hcy : (l.1.val - m + k * N1 : ℤ) + D.start1 r - g1 = c := by
    have hz : (((l.1.val - m + k * N1 : ℤ) + D.start1 r - g1 : ℤ) : K) = y + D.start1 r - g1 := by rw [hyz]; push_cast; ring
    have l1 : (-1 : ℤ) < (l.1.val - m + k * N1 : ℤ) + D.start1 r - g1 := by
      have : ((-1 : ℤ) : K) < (((l.1.val - m + k * N1 : ℤ) + D.start1 r - g1 : ℤ) : K) := by rw [hz]; push_cast; linarith
      exact_mod_cast this
    have l2 : (l.1.val - m + k * N1 : ℤ) + D.start1 r - g1 < N1 := by
      have : (((l.1.val - m + k * N1 : ℤ) + D.start1 r - g1 : ℤ) : K) < ((N1 : ℤ) : K) := by rw [hz]; push_cast; linarith
      exact_mod_cast this
    rw [hc, c1, show (D.start1 r : ℤ) + l.1.val - g1 - m = ((l.1.val - m + k * N1 : ℤ) + D.start1 r - g1) + N1 * (-k) by ring,
      Int.add_mul_emod_self_left, Int.emod_eq_of_lt (by omega) l2]
  have hyc : y = ((c - D.start1 r + g1 : ℤ) : K) := by rw [hyz, ← hcy]; congr 1; ring
  rw [hyc]
  split_ifs with hin
  · rw [approx2_int _ _ _ _ _ (by omega) (by omega) (by omega) (by push_cast; omega), exchange_periodic, toGlob]
    have d2 : (((((l.2.val : ℤ) : ZMod (D.n2 r + 2 * g2)).val : ℕ)) : ℤ) = l.2.val := by
      have := ZMod.val_lt l.2
      rw [ZMod.val_intCast, Int.emod_eq_of_lt (by omega) (by omega)]
    have d1 : (((((c - D.start1 r + g1 : ℤ) : ZMod (D.n1 r + 2 * g1)).val : ℕ)) : ℤ) = c - D.start1 r + g1 := by
      rw [ZMod.val_intCast, Int.emod_eq_of_lt (by omega) (by push_cast; omega)]
    simp only
    congr 2
    · rw [globCoord, d1, show (D.start1 r : ℤ) + (c - D.start1 r + g1) - g1 = c by ring, hc, ZMod.intCast_eq_intCast_iff]
      exact Int.mod_modEq _ _
    · rw [globCoord, d2, c2]
  · refine approx2_outside _ _ _ _ _ ?_
    by_cases hlow : c - D.start1 r + g1 < 0
    · left
      exact_mod_cast hlow
    · right; left
      have hcl : 0 ≤ c := Int.emod_nonneg _ (by have := NeZero.pos N1; omega)
      have : ((D.n1 r + 2 * g1 : ℕ) : ℤ) - 1 < c - D.start1 r + g1 := by push_cast; omega
      have : ((((D.n1 r + 2 * g1 : ℕ) : ℤ) - 1 : ℤ) : K) < ((c - D.start1 r + g1 : ℤ) : K) := by exact_mod_cast this
      push_cast at this ⊢
      exact this

/-- **C106 (divided walls, top).** -/
theorem C106_divided_walls_top (sp : ShearParams K) (o : BCOptions) (ho : ShearsAlong1 o.name) (dq1 dq2 : K) (hd1 : 0 < dq1)
    (hd2 : dq2 ≠ 0) (hext : sp.q1End = sp.q1Start + N1 * dq1) (m : ℤ)
    (hm : sp.q * sp.omega * (sp.q2End - sp.q2Start) * sp.time = m * dq1) (r : R) (hs : D.start2 r + D.n2 r = N2)
    (dat : ∀ r, D.LocBCData g1 g2 r S Np1 Np2 Np3 K)
    (hdat : ShearsLike sp o.nGhost o.name (D.coords g1 g2 sp.q1Start sp.q2Start dq1 dq2 r).2.2.2 (dat r))
    (F F0 : ∀ r, Dist S (PIdx Np1 Np2 Np3) (D.Loc g1 g2 r) K) (f : Dist S (PIdx Np1 Np2 Np3) (ZMod N1 × ZMod N2) K) (hF : D.Holds g1 g2 F f)
    (h : D.Synced g1 g2 o dat F F0) (s : S) (p : PIdx Np1 Np2 Np3) (l : D.Loc g1 g2 r) (hl : (N2 : ℤ) ≤ (D.signed g1 g2 r l).2) :
    F0 r s p l =
      if (D.start1 r : ℤ) - g1 ≤ ((D.signed g1 g2 r l).1 + m) % N1 ∧ ((D.signed g1 g2 r l).1 + m) % N1 < D.start1 r + D.n1 r + g1
      then f s p ((((D.signed g1 g2 r l).1 + m : ℤ) : ZMod N1), ((D.signed g1 g2 r l).2 : ZMod N2)) else 0 := by
  rw [holds_iff] at hF
  subst hF
  obtain ⟨bc1, bc2, st, hset, happ⟩ := h
  have hax : petscAxis o.nGhost (o.name .left) = (bc1, g1) ∧ petscAxis o.nGhost (o.name .bottom) = (bc2, g2) := by
    unfold setupBCs at hset
    split_ifs at hset
    simp only [Except.ok.injEq, Prod.mk.injEq] at hset
    exact ⟨by rw [hset.1], by rw [hset.2]⟩
  rw [ho.left, ho.bottom] at hax
  simp only [petscAxis, Prod.mk.injEq, if_true, or_true, true_or, String.reduceEq, if_false] at hax
  obtain ⟨⟨rfl, e1⟩, rfl, e2⟩ := hax
  obtain ⟨X1, X2, X3, w1, w2, w3, w4⟩ := applyBcsF_ok (happ r)
  have q1 := atWall_skip _ .left _ X1 (Or.inl ho.left) w1
  have q2 := atWall_skip _ .right X1 X2 (Or.inl ho.right) w2
  have v1 := fun s p i => atWall_shear _ .bottom X2 X3 ho.bottom w3 s p i
  have v2 := fun s p i => atWall_shear _ .top X3 (F0 r) ho.top w4 s p i
  rw [q2, q1] at v1
  have hp2 := D.pos2 r
  have hp1 := D.pos1 r
  have hN : (0 : K) < N1 := Nat.cast_pos.2 (NeZero.pos N1)
  have hL : sp.q1Start < sp.q1End := by rw [hext]; have := mul_pos hN hd1; linarith
  have : NeZero (D.n2 r + 2 * g2) := ⟨by omega⟩
  have : NeZero (D.n1 r + 2 * g1) := ⟨by omega⟩
  have t1 : (D.bcEnv g1 g2 o r (dat r)).touches .top = true := by
    simp only [BCEnv.touches, bcEnv, beq_iff_eq]; omega
  have hge : (D.bcEnv g1 g2 o r (dat r)).g = g2 := e2
  have b1 : ∀ i : D.Loc g1 g2 r, inSlab g2 .top i ↔ D.n2 r + g2 ≤ i.2.val := fun i => by
    have : (D.n2 r + 2 * g2 - g2) = D.n2 r + g2 := by omega
    simp only [inSlab, this]
  have c2 : (D.signed g1 g2 r l).2 = (D.start2 r : ℤ) + l.2.val - g2 := rfl
  have c1 : (D.signed g1 g2 r l).1 = (D.start1 r : ℤ) + l.1.val - g1 := rfl
  have hlv : D.n2 r + g2 ≤ l.2.val := by omega
  rw [v2, if_pos ⟨t1, by rw [hge, b1]; exact hlv⟩]
  obtain ⟨y, k, hy, hyk, ylo, yhi⟩ := D.sheared_top g1 g2 sp o hL dq1 dq2 hd1 hd2 hext ho.top r (dat r) hdat
    X3 s p l (by rw [e2, b1]; exact hlv)
  refine Eq.trans hy ?_
  rw [hm, mul_div_cancel_right₀ _ hd1.ne'] at hyk
  set c : ℤ := ((D.signed g1 g2 r l).1 + m) % N1 with hc
  have hyz : y = ((l.1.val + m + k * N1 : ℤ) : K) := by rw [hyk]; push_cast; ring
  have hcy : (l.1.val + m + k * N1 : ℤ) + D.start1 r - g1 = c := by
    have hz : (((l.1.val + m + k * N1 : ℤ) + D.start1 r - g1 : ℤ) : K) = y + D.start1 r - g1 := by rw [hyz]; push_cast; ring
    have l1 : (-1 : ℤ) < (l.1.val + m + k * N1 : ℤ) + D.start1 r - g1 := by
      have : ((-1 : ℤ) : K) < (((l.1.val + m + k * N1 : ℤ) + D.start1 r - g1 : ℤ) : K) := by rw [hz]; push_cast; linarith
      exact_mod_cast this
    have l2 : (l.1.val + m + k * N1 : ℤ) + D.start1 r - g1 < N1 := by
      have : (((l.1.val + m + k * N1 : ℤ) + D.start1 r - g1 : ℤ) : K) < ((N1 : ℤ) : K) := by rw [hz]; push_cast; linarith
      exact_mod_cast this
    rw [hc, c1, show (D.start1 r : ℤ) + l.1.val - g1 + m = ((l.1.val + m + k * N1 : ℤ) + D.start1 r - g1) + N1 * (-k) by ring,
      Int.add_mul_emod_self_left, Int.emod_eq_of_lt (by omega) l2]
  have hyc : y = ((c - D.start1 r + g1 : ℤ) : K) := by rw [hyz, ← hcy]; congr 1; ring
  rw [hyc]
  split_ifs with hin
  · rw [approx2_int _ _ _ _ _ (by omega) (by push_cast; omega) (by omega) (by have := ZMod.val_lt l.2; omega)]
    have d2 : ((((((D.n2 r + 2 * g2 - o.nGhost : ℕ) + ((l.2.val : ℤ) - (D.n2 r + 2 * g2 - o.nGhost : ℕ)) : ℤ)) : ZMod (D.n2 r + 2 * g2)).val : ℕ) : ℤ)
        = l.2.val := by
      have := ZMod.val_lt l.2
      rw [add_sub_cancel, ZMod.val_intCast, Int.emod_eq_of_lt (by omega) (by omega)]
    rw [v1, if_neg (by rw [hge]; simp only [inSlab]; omega), exchange_periodic, toGlob]
    have d1 : (((((c - D.start1 r + g1 : ℤ) : ZMod (D.n1 r + 2 * g1)).val : ℕ)) : ℤ) = c - D.start1 r + g1 := by
      rw [ZMod.val_intCast, Int.emod_eq_of_lt (by omega) (by push_cast; omega)]
    simp only
    congr 2
    · rw [globCoord, d1, show (D.start1 r : ℤ) + (c - D.start1 r + g1) - g1 = c by ring, hc, ZMod.intCast_eq_intCast_iff]
      exact Int.mod_modEq _ _
    · rw [globCoord, d2, c2]
  · refine approx2_outside _ _ _ _ _ ?_
    by_cases hlow : c - D.start1 r + g1 < 0
    · left
      exact_mod_cast hlow
    · right; left
      have hcl : 0 ≤ c := Int.emod_nonneg _ (by have := NeZero.pos N1; omega)
      have : ((D.n1 r + 2 * g1 : ℕ) : ℤ) - 1 < c - D.start1 r + g1 := by push_cast; omega
      have : ((((D.n1 r + 2 * g1 : ℕ) : ℤ) - 1 : ℤ) : K) < ((c - D.start1 r + g1 : ℤ) : K) := by exact_mod_cast this
      push_cast at this ⊢
      exact this

end divided

end Decomp

/-- One momentum, flow upwards with velocity one everywhere. -/
def shCb2 (Q : Type) : Callbacks Unit (PIdx 1 1 1) Q ℚ :=
  ⟨fun _ _ _ => 0, fun _ _ _ => 1, fun _ _ _ => 0, fun _ _ _ => 0, fun _ _ _ => 0, fun f => f⟩

theorem shCb2_closed (name : String) (N1 N2 : ℕ) [NeZero N1] [NeZero N2] :
    ShearClosed2 { c12Cfg with reconstructionInQ := name } () N1 N2 (shCb2 (ℤ × ℤ)) :=
  ⟨fun _ _ => rfl, ⟨fun _ => 1, fun _ _ => ⟨rfl, rfl⟩⟩, fun h => by simp [c12Cfg] at h⟩

/-- Four rows of three cells shared by two processes, two rows each. -/
def exT : Decomp 3 4 (Fin 2) where
  start1 := fun _ => 0
  start2 := fun r => 2 * r.val
  n1 := fun _ => 3
  n2 := fun _ => 2
  owner := fun i => if i.2.val < 2 then 0 else 1
  pos1 := by intro r; omega
  pos2 := by intro r; omega
  fits1 := by intro r; omega
  fits2 := by intro r; omega
  owner_iff := by
    intro i r
    have h1 := ZMod.val_lt i.1
    have h2 := ZMod.val_lt i.2
    have hr : r = 0 ∨ r = 1 := by fin_cases r <;> simp
    rcases hr with rfl | rfl <;> split_ifs <;> simp [h1] <;> omega

/-- Walls of a box that shears along the first axis, two ghost cells. -/
def exTOpts : BCOptions := ⟨2, fun w => match w with | .bottom | .top => "shearing-box" | .left | .right => "periodic", "cartesian", "FVM"⟩

theorem exTOpts_shears : ShearsAlong1 exTOpts.name := ⟨rfl, rfl, rfl, rfl⟩

/-- The box `[0, 3] × [0, 4]` with cells of size one and shear rate one. -/
def exTp : ShearParams ℚ := ⟨1, 1, 0, 3, 0, 4, 0⟩

def exTDat0 (r : Fin 2) : exT.LocBCData 2 2 r Unit 1 1 1 ℚ := ⟨0, 0, 0, 0, fun _ f => f, fun _ f => f⟩

theorem exT_dat (t : ℚ) : ∃ dat : ∀ r, exT.LocBCData 2 2 r Unit 1 1 1 ℚ,
    ∀ r, ShearsLike { exTp with time := t } exTOpts.nGhost exTOpts.name (exT.coords 2 2 exTp.q1Start exTp.q2Start 1 1 r).2.2.2 (dat r) := by
  have : ∀ r, ∃ d : exT.LocBCData 2 2 r Unit 1 1 1 ℚ,
      ShearsLike { exTp with time := t } exTOpts.nGhost exTOpts.name (exT.coords 2 2 exTp.q1Start exTp.q2Start 1 1 r).2.2.2 d := fun r => by
    have : NeZero (exT.n1 r + 2 * 2) := ⟨by simp [exT]⟩
    have : NeZero (exT.n2 r + 2 * 2) := ⟨by simp [exT]⟩
    exact Decomp.C106_data_exist _ (by norm_num [exTp]) (by norm_num [exTp]) _ _ _ (exTDat0 r)
  choose d hd using this
  exact ⟨d, hd⟩

/-- Non-vacuity, walls at the ends of the second axis: for any step lengths a run with the displacements of the clock exists on two processes, and it keeps the number of
particles with piecewise-constant reconstruction. -/
example (dts : List ℚ) (t : ℚ) (F : ∀ r, Dist Unit (PIdx 1 1 1) (exT.Loc 2 2 r) ℚ) :
    ∃ steps F', steps.map Prod.fst = dts ∧ exT.ClockedShear 2 2 exTp exTOpts 1 1 t steps ∧
      exT.BcRun 2 2 exTOpts ((1, 0, 0), (0, 1, 0), (0, 0, 1)) { c12Cfg with reconstructionInQ := "piecewise-constant" } steps F F' ∧
      ∑ p, ∑ i, exT.assemble 2 2 F' () p i = ∑ p, ∑ i, exT.assemble 2 2 F () p i := by
  have mk : ∀ (dts : List ℚ) (t : ℚ), ∃ st : List (ℚ × (Fin 2 → ∀ r, exT.LocBCData 2 2 r Unit 1 1 1 ℚ) ×
      (Fin 2 → ∀ r, Callbacks Unit (PIdx 1 1 1) (exT.Loc 2 2 r) ℚ) × (Fin 2 → Callbacks Unit (PIdx 1 1 1) (ℤ × ℤ) ℚ)),
      (st.map fun x => (x.1, x.2.1, x.2.2.1)).map Prod.fst = dts ∧
      exT.ClockedShear 2 2 exTp exTOpts 1 1 t (st.map fun x => (x.1, x.2.1, x.2.2.1)) ∧
      ∀ x ∈ st, x.2.2 = (fun _ _ => shCb2 _, fun _ => shCb2 _) := by
    intro dts
    induction dts with
    | nil => exact fun t => ⟨[], rfl, trivial, by simp⟩
    | cons dt rest ih =>
      intro t
      obtain ⟨st, a, b, c⟩ := ih (t + dt)
      obtain ⟨dat, hdat⟩ := exT_dat t
      refine ⟨(dt, fun _ => dat, fun _ _ => shCb2 _, fun _ => shCb2 _) :: st, by simpa using a, ⟨fun _ => hdat, b⟩, ?_⟩
      intro x hx
      rcases List.mem_cons.mp hx with rfl | hx
      · rfl
      · exact c x hx
  obtain ⟨st, a, b, c⟩ := mk dts t
  obtain ⟨F', hF'⟩ := exT.C56_run_exists 2 2 exTOpts .periodic .periodic (by rfl) (fl := flipCartesian) (Or.inl ⟨rfl, rfl⟩)
    (by intro w; cases w <;> decide) ((1, 0, 0), (0, 1, 0), (0, 0, 1)) { c12Cfg with reconstructionInQ := "piecewise-constant" } (Or.inl rfl)
    (Or.inr (Or.inl rfl)) (st.map fun x => (x.1, x.2.1, x.2.2.1)) F
  refine ⟨_, F', a, b, hF', ?_⟩
  refine exT.C106_first_order_conserves_q2 2 2 exTp exTOpts exTOpts_shears (le_refl 2) 1 1 one_pos one_ne_zero (by norm_num [exTp])
    (fun r => by simp [exT]) (fun r => by simp [exT]) _ _ rfl (Or.inr (Or.inl rfl)) ⟨by omega, by omega⟩ () st ?_ ?_ t b F F' hF'
  · intro x hx j r
    rw [c x hx]
    exact ⟨fun _ _ _ _ => ⟨rfl, rfl⟩, fun _ _ _ _ => ⟨rfl, rfl⟩, fun _ _ _ _ => rfl, fun _ _ _ _ => rfl, fun _ _ _ _ => rfl,
      fun f g l _ h s p => h s p⟩
  · intro x hx j
    rw [c x hx]
    exact shCb2_closed _ 3 4

/-- Non-vacuity of the divided walls: a single column is at both walls. -/
example (r : Fin 7) : exV.start1 r = 0 ∧ exV.start1 r + exV.n1 r = 1 ∧ exV.n2 r + 2 * 2 < 7 := ⟨rfl, rfl, by simp [exV]⟩

end Bolt
