import Verif.Proofs.ShearTotal

/-!
# C106, continued: particle number, accuracy and examples
-/

set_option linter.unusedSectionVars false

namespace Bolt

namespace Decomp

section conserve
variable {N1 N2 : ℕ} {R : Type} [NeZero N1] [NeZero N2] (D : Decomp N1 N2 R) (g1 g2 : ℕ) {S K : Type} {Np1 Np2 Np3 : ℕ}
  [NeZero Np1] [NeZero Np2] [NeZero Np3] [Field K] [LinearOrder K] [IsStrictOrderedRing K] [FloorRing K]

theorem runs_total (sp : ShearParams K) (o : BCOptions) (ho : ShearsAlong2 o.name) (hg2 : 2 ≤ o.nGhost) (dq1 dq2 : K) (hd1 : dq1 ≠ 0)
    (hd2 : 0 < dq2) (hext : sp.q2End = sp.q2Start + N2 * dq2) (hn : ∀ r, g1 ≤ D.n1 r) (hr : ∀ r, D.n2 r = N2)
    (ax : PIdx Np1 Np2 Np3 × PIdx Np1 Np2 Np3 × PIdx Np1 Np2 Np3) (cfg : FVMConfig S K)
    (hq : cfg.reconstructionInQ = "piecewise-constant" ∨ cfg.reconstructionInQ = "minmod" ∨ cfg.reconstructionInQ = "ppm")
    (hp : cfg.reconstructionInP = "piecewise-constant" ∨ cfg.reconstructionInP = "minmod" ∨ cfg.reconstructionInP = "ppm")
    (hg : ∀ m, reconMethod cfg.reconstructionInQ = .ok m → m.radius ≤ g1 ∧ m.radius ≤ g2) (s : S) (Q : K → Prop)
    (hbal : ∀ m, reconMethod cfg.reconstructionInQ = .ok m → ∀ t, Q t → ∀ (v : K) (f : Dist S (PIdx Np1 Np2 Np3) (ZMod N1 × ZMod N2) K) p,
      ∑ j : ZMod N2, lineFlux m v
        (fun k => shearExt1 (sp.q * sp.omega * (sp.q1End - sp.q1Start) * t / dq2) f s p (k, (j.val : ℤ))) N1
      = ∑ j : ZMod N2, lineFlux m v
        (fun k => shearExt1 (sp.q * sp.omega * (sp.q1End - sp.q1Start) * t / dq2) f s p (k, (j.val : ℤ))) 0)
    (steps : List (K × (Fin 2 → ∀ r, D.LocBCData g1 g2 r S Np1 Np2 Np3 K) ×
      (Fin 2 → ∀ r, Callbacks S (PIdx Np1 Np2 Np3) (D.Loc g1 g2 r) K) × (Fin 2 → Callbacks S (PIdx Np1 Np2 Np3) (ℤ × ℤ) K)))
    (hcb : ∀ st ∈ steps, ∀ j r, D.CallbacksAgreeBox g1 g2 r (st.2.2.1 j r) (st.2.2.2 j))
    (hcl : ∀ st ∈ steps, ∀ j, ShearClosed1 cfg s N1 N2 (st.2.2.2 j)) (t : K) (ht : Q t) (hQ : ∀ st ∈ steps, ∀ t, Q t → Q (t + st.1))
    (hdat : D.ClockedShear g1 g2 sp o dq1 dq2 t (steps.map fun st => (st.1, st.2.1, st.2.2.1)))
    (F F' : ∀ r, Dist S (PIdx Np1 Np2 Np3) (D.Loc g1 g2 r) K)
    (h : D.BcRun g1 g2 o ax cfg (steps.map fun st => (st.1, st.2.1, st.2.2.1)) F F') :
    ∑ p, ∑ i, D.assemble g1 g2 F' s p i = ∑ p, ∑ i, D.assemble g1 g2 F s p i := by
  obtain ⟨f', hf'⟩ := clockedRun_succeeds (fun t => shearExt1 (sp.q * sp.omega * (sp.q1End - sp.q1Start) * t / dq2)) ax cfg hq hp
    (steps.map fun st => (st.1, st.2.2.2)) t (D.assemble g1 g2 F)
  have hH := D.C106_runs g1 g2 sp o ho hg2 dq1 dq2 hd1 hd2 hext hn hr ax cfg hg steps hcb t hdat F F' _ f' ((holds_iff D g1 g2 F _).mpr rfl) h hf'
  rw [holds_iff] at hH
  rw [hH]
  refine clockedRun_total _ ax cfg s Q (steps.map fun st => (st.1, st.2.2.2)) ?_ ?_ t ht _ _ hf'
  · intro st hst t ht f k hk
    obtain ⟨x, hx, rfl⟩ := List.mem_map.mp hst
    obtain ⟨⟨v, hv⟩, c2, c3⟩ := hcl x hx 1
    refine ext_total ax cfg (x.2.2.2 1) _ k s ?_ ?_ (fun hs => c3 hs _) hk
    · intro m hm p
      simp only [(hv p _).1, (hv p _).2]
      exact hbal m hm t ht (v p) f p
    · intro m hm p
      exact Finset.sum_congr rfl fun i _ => shear_lines2 m _ f s p i (c2 p i)
  · intro st hst t ht
    obtain ⟨x, hx, rfl⟩ := List.mem_map.mp hst
    exact hQ x hx t ht

/-- **C106 (particle number, first order).** With piecewise-constant reconstruction, a closed shearing box keeps the number of particles of
every species exactly, over any number of steps of any lengths, at every displacement and for every number of processes along the first axis. -/
theorem C106_first_order_conserves (sp : ShearParams K) (o : BCOptions) (ho : ShearsAlong2 o.name) (hg2 : 2 ≤ o.nGhost) (dq1 dq2 : K)
    (hd1 : dq1 ≠ 0) (hd2 : 0 < dq2) (hext : sp.q2End = sp.q2Start + N2 * dq2) (hn : ∀ r, g1 ≤ D.n1 r) (hr : ∀ r, D.n2 r = N2)
    (ax : PIdx Np1 Np2 Np3 × PIdx Np1 Np2 Np3 × PIdx Np1 Np2 Np3) (cfg : FVMConfig S K) (hq : cfg.reconstructionInQ = "piecewise-constant")
    (hp : cfg.reconstructionInP = "piecewise-constant" ∨ cfg.reconstructionInP = "minmod" ∨ cfg.reconstructionInP = "ppm")
    (hg : 1 ≤ g1 ∧ 1 ≤ g2) (s : S)
    (steps : List (K × (Fin 2 → ∀ r, D.LocBCData g1 g2 r S Np1 Np2 Np3 K) ×
      (Fin 2 → ∀ r, Callbacks S (PIdx Np1 Np2 Np3) (D.Loc g1 g2 r) K) × (Fin 2 → Callbacks S (PIdx Np1 Np2 Np3) (ℤ × ℤ) K)))
    (hcb : ∀ st ∈ steps, ∀ j r, D.CallbacksAgreeBox g1 g2 r (st.2.2.1 j r) (st.2.2.2 j))
    (hcl : ∀ st ∈ steps, ∀ j, ShearClosed1 cfg s N1 N2 (st.2.2.2 j)) (t : K)
    (hdat : D.ClockedShear g1 g2 sp o dq1 dq2 t (steps.map fun st => (st.1, st.2.1, st.2.2.1)))
    (F F' : ∀ r, Dist S (PIdx Np1 Np2 Np3) (D.Loc g1 g2 r) K)
    (h : D.BcRun g1 g2 o ax cfg (steps.map fun st => (st.1, st.2.1, st.2.2.1)) F F') :
    ∑ p, ∑ i, D.assemble g1 g2 F' s p i = ∑ p, ∑ i, D.assemble g1 g2 F s p i := by
  have hm : ∀ m, reconMethod cfg.reconstructionInQ = .ok m → m = .piecewiseConstant := by
    intro m hm
    rw [hq] at hm
    simpa [reconMethod, eq_comm] using hm
  exact D.runs_total g1 g2 sp o ho hg2 dq1 dq2 hd1 hd2 hext hn hr ax cfg (Or.inl hq) hp (fun m h => by rw [hm m h]; exact hg) s (fun _ => True)
    (fun m h t _ v f p => by rw [hm m h]; exact shear_walls1_first _ v f s p) steps hcb hcl t trivial (fun _ _ _ _ => trivial) hdat F F' h

/-- **C106 (particle number, whole cells).** If at the beginning of every step the neighbouring boxes have slid by a whole number of cells, the
number of particles is kept with every reconstruction whose stencil fits in the box. -/
theorem C106_whole_cells_conserve (sp : ShearParams K) (o : BCOptions) (ho : ShearsAlong2 o.name) (hg2 : 2 ≤ o.nGhost) (dq1 dq2 : K)
    (hd1 : dq1 ≠ 0) (hd2 : 0 < dq2) (hext : sp.q2End = sp.q2Start + N2 * dq2) (hn : ∀ r, g1 ≤ D.n1 r) (hr : ∀ r, D.n2 r = N2)
    (ax : PIdx Np1 Np2 Np3 × PIdx Np1 Np2 Np3 × PIdx Np1 Np2 Np3) (cfg : FVMConfig S K)
    (hq : cfg.reconstructionInQ = "piecewise-constant" ∨ cfg.reconstructionInQ = "minmod" ∨ cfg.reconstructionInQ = "ppm")
    (hp : cfg.reconstructionInP = "piecewise-constant" ∨ cfg.reconstructionInP = "minmod" ∨ cfg.reconstructionInP = "ppm")
    (hg : ∀ m, reconMethod cfg.reconstructionInQ = .ok m → m.radius ≤ g1 ∧ m.radius ≤ g2) (s : S)
    (steps : List (K × (Fin 2 → ∀ r, D.LocBCData g1 g2 r S Np1 Np2 Np3 K) ×
      (Fin 2 → ∀ r, Callbacks S (PIdx Np1 Np2 Np3) (D.Loc g1 g2 r) K) × (Fin 2 → Callbacks S (PIdx Np1 Np2 Np3) (ℤ × ℤ) K)))
    (hcb : ∀ st ∈ steps, ∀ j r, D.CallbacksAgreeBox g1 g2 r (st.2.2.1 j r) (st.2.2.2 j))
    (hcl : ∀ st ∈ steps, ∀ j, ShearClosed1 cfg s N1 N2 (st.2.2.2 j)) (t : K)
    (ht : ∃ d : ℤ, sp.q * sp.omega * (sp.q1End - sp.q1Start) * t = d * dq2)
    (hdt : ∀ st ∈ steps, ∃ d : ℤ, sp.q * sp.omega * (sp.q1End - sp.q1Start) * st.1 = d * dq2)
    (hdat : D.ClockedShear g1 g2 sp o dq1 dq2 t (steps.map fun st => (st.1, st.2.1, st.2.2.1)))
    (F F' : ∀ r, Dist S (PIdx Np1 Np2 Np3) (D.Loc g1 g2 r) K)
    (h : D.BcRun g1 g2 o ax cfg (steps.map fun st => (st.1, st.2.1, st.2.2.1)) F F') :
    ∑ p, ∑ i, D.assemble g1 g2 F' s p i = ∑ p, ∑ i, D.assemble g1 g2 F s p i := by
  have hN1 : ∀ m, reconMethod cfg.reconstructionInQ = .ok m → m.radius ≤ N1 := fun m hm => by
    have r := D.owner 0
    have := (hg m hm).1
    have := hn r
    have := D.fits1 r
    omega
  refine D.runs_total g1 g2 sp o ho hg2 dq1 dq2 hd1 hd2 hext hn hr ax cfg hq hp hg s
    (fun t => ∃ d : ℤ, sp.q * sp.omega * (sp.q1End - sp.q1Start) * t = d * dq2)
    (fun m h t ht v f p => ?_) steps hcb hcl t ht (fun st hst t ht => ?_) hdat F F' h
  · obtain ⟨d, hd⟩ := ht
    rw [hd, mul_div_cancel_right₀ _ hd2.ne']
    exact shear_walls1_whole m (hN1 m h) d v f s p
  · obtain ⟨d, hd⟩ := ht
    obtain ⟨e, he⟩ := hdt st hst
    exact ⟨d + e, by rw [mul_add, hd, he]; push_cast; ring⟩

end conserve

/-! ## accuracy -/

section accuracy
variable {N1 N2 : ℕ} {R : Type} [NeZero N1] [NeZero N2] (D : Decomp N1 N2 R) (g1 g2 : ℕ) {S : Type} {Np1 Np2 Np3 : ℕ}

/-- **C106 (accuracy).** For a smooth profile that is periodic in the box, the ghost cells at the left wall hold the profile displaced by
`+ q omega L t` along the wall, those at the right wall displaced by `- q omega L t`, up to a quarter of the third derivative times the cube of the
cell size — at all times, without growth. -/
theorem C106_third_order (sp : ShearParams ℝ) (o : BCOptions) (ho : ShearsAlong2 o.name) (hg : 2 ≤ o.nGhost) (dq1 dq2 : ℝ) (hd1 : 0 < dq1)
    (hd2 : 0 < dq2) (hext : sp.q2End = sp.q2Start + N2 * dq2) (hn : ∀ r, g1 ≤ D.n1 r) (r : R) (hr : D.n2 r = N2)
    (dat : ∀ r, D.LocBCData g1 g2 r S Np1 Np2 Np3 ℝ)
    (hdat : ShearsLike sp o.nGhost o.name (D.coords g1 g2 sp.q1Start sp.q2Start dq1 dq2 r).2.2.2 (dat r))
    {M1 M2 : ℝ} {u : ℝ × ℝ → ℝ} (hu : ThriceSmooth (N1 * dq1) (N2 * dq2) M1 M2 u)
    (F F0 : ∀ r, Dist S (PIdx Np1 Np2 Np3) (D.Loc g1 g2 r) ℝ)
    (hF : D.Holds g1 g2 F fun _ _ i => u (cellCentre sp.q1Start (N1 * dq1) N1 i.1, cellCentre sp.q2Start (N2 * dq2) N2 i.2))
    (h : D.Synced g1 g2 o dat F F0) (s : S) (p : PIdx Np1 Np2 Np3) (l : D.Loc g1 g2 r) :
    let q := (D.coords g1 g2 sp.q1Start sp.q2Start dq1 dq2 r).2.2.2
    let x := q.1 l.1.val l.2.val
    let y := q.2 l.1.val l.2.val
    let Δ := sp.q * sp.omega * (sp.q1End - sp.q1Start) * sp.time
    ((D.signed g1 g2 r l).1 < 0 → |F0 r s p l - u (x, y - Δ)| ≤ M2 / 4 * dq2 ^ 3) ∧
    ((N1 : ℤ) ≤ (D.signed g1 g2 r l).1 → |F0 r s p l - u (x, y + Δ)| ≤ M2 / 4 * dq2 ^ 3) := by
  intro q x y Δ
  have hN1 : (N1 : ℝ) ≠ 0 := Nat.cast_ne_zero.mpr (NeZero.ne N1)
  have hN2 : (N2 : ℝ) ≠ 0 := Nat.cast_ne_zero.mpr (NeZero.ne N2)
  have key := D.C106_ghost_cells g1 g2 sp o ho hg dq1 dq2 hd1.ne' hd2 hext hn r hr dat hdat F F0 _ hF h s p l
  have hx : x = sp.q1Start + dq1 / 2 + (D.signed g1 g2 r l).1 * dq1 := by
    simp only [x, q, coords, calculateQ, signed, globCoord]; push_cast; ring
  have hy : y = sp.q2Start + dq2 / 2 + (D.signed g1 g2 r l).2 * dq2 := by
    simp only [y, q, coords, calculateQ, signed, globCoord]; push_cast; ring
  have fold : ∀ (a b : ℤ), u (cellCentre sp.q1Start (N1 * dq1) N1 (a : ZMod N1), cellCentre sp.q2Start (N2 * dq2) N2 (b : ZMod N2))
      = u (sp.q1Start + dq1 / 2 + a * dq1, sp.q2Start + dq2 / 2 + b * dq2) := fun a b => by
    rw [cellCentre_intCast (F := fun x => u (x, cellCentre sp.q2Start (N2 * dq2) N2 (b : ZMod N2))) (fun x => hu.periodic1 x _)]
    rw [cellCentre_intCast (F := fun y => u (_, y)) (fun y => hu.periodic2 _ y)]
    rw [mul_div_cancel_left₀ _ hN1, mul_div_cancel_left₀ _ hN2]
  have err : ∀ (a : ℤ) (z : ℝ), |catmullRom (fun b : ℤ => u (sp.q1Start + dq1 / 2 + a * dq1, sp.q2Start + dq2 / 2 + b * dq2)) z
      - u (sp.q1Start + dq1 / 2 + a * dq1, sp.q2Start + dq2 / 2 + z * dq2)| ≤ M2 / 4 * dq2 ^ 3 := fun a z => by
    have hM0 : 0 ≤ M2 := (abs_nonneg _).trans (hu.bound2 0 0)
    have e := catmullRom_error (F := fun y => u (sp.q1Start + dq1 / 2 + a * dq1, y)) (hu.smooth2 _) (fun y => hu.bound2 _ y)
      (sp.q2Start + dq2 / 2) dq2 z (round z)
    refine e.trans ?_
    have hz := abs_sub_round z
    have h3 : 0 ≤ M2 / 2 * dq2 ^ 3 := by positivity
    rw [abs_of_pos hd2]
    calc M2 / 2 * dq2 ^ 3 * |z - (round z : ℤ)| ≤ M2 / 2 * dq2 ^ 3 * (1 / 2) := mul_le_mul_of_nonneg_left hz h3
      _ = M2 / 4 * dq2 ^ 3 := by ring
  refine ⟨fun hl => ?_, fun hl => ?_⟩
  · rw [key, shearExt1_left _ _ _ _ hl]
    simp only [fold]
    have := err (D.signed g1 g2 r l).1 ((D.signed g1 g2 r l).2 - Δ / dq2)
    rw [sub_mul, div_mul_cancel₀ _ hd2.ne', ← add_sub_assoc, ← hx, ← hy] at this
    rw [← hx]
    exact this
  · rw [key, shearExt1_right _ _ _ _ hl]
    simp only [fold]
    have := err (D.signed g1 g2 r l).1 ((D.signed g1 g2 r l).2 + Δ / dq2)
    rw [add_mul, div_mul_cancel₀ _ hd2.ne', ← add_assoc, ← hx, ← hy] at this
    rw [← hx]
    exact this

end accuracy

/-! ## divided walls, and existence -/

section more
variable {N1 N2 : ℕ} {R : Type} [NeZero N1] [NeZero N2] (D : Decomp N1 N2 R) (g1 g2 : ℕ) {S K : Type} {Np1 Np2 Np3 : ℕ}
  [Field K] [LinearOrder K] [IsStrictOrderedRing K] [FloorRing K]

/-- **C106 (divided walls lose values).** As soon as a process at the left wall, with its ghost rows, does not span the box along the wall, every one
of its wall ghost cells is zero at some displacement, whatever the data. -/
theorem C106_divided_walls_lose (o : BCOptions) (ho : ShearsAlong2 o.name) (dq1 dq2 : K) (hd1 : dq1 ≠ 0) (hd2 : 0 < dq2) (r : R)
    (hs : D.start1 r = 0) (hsmall : D.n2 r + 2 * g2 < N2) (l : D.Loc g1 g2 r) (hl : (D.signed g1 g2 r l).1 < 0) :
    ∃ m : ℤ, ∀ (sp : ShearParams K) (_ : sp.q2End = sp.q2Start + N2 * dq2)
      (_ : sp.q * sp.omega * (sp.q1End - sp.q1Start) * sp.time = m * dq2) (dat : ∀ r, D.LocBCData g1 g2 r S Np1 Np2 Np3 K)
      (_ : ShearsLike sp o.nGhost o.name (D.coords g1 g2 sp.q1Start sp.q2Start dq1 dq2 r).2.2.2 (dat r))
      (F F0 : ∀ r, Dist S (PIdx Np1 Np2 Np3) (D.Loc g1 g2 r) K) (_ : D.Synced g1 g2 o dat F F0) (s : S) (p : PIdx Np1 Np2 Np3),
      F0 r s p l = 0 := by
  obtain ⟨c, c0, c1, hc⟩ : ∃ c : ℤ, 0 ≤ c ∧ c < N2 ∧ ¬ ((D.start2 r : ℤ) - g2 ≤ c ∧ c < D.start2 r + D.n2 r + g2) := by
    by_cases h : D.start2 r ≤ g2
    · exact ⟨(N2 : ℤ) - 1, by omega, by omega, by omega⟩
    · exact ⟨0, by omega, by omega, by omega⟩
  refine ⟨(D.signed g1 g2 r l).2 - c, fun sp hext hm dat hdat F F0 h s p => ?_⟩
  rw [D.C106_divided_walls g1 g2 sp o ho dq1 dq2 hd1 hd2 hext _ hm r hs dat hdat F F0 _ ((holds_iff D g1 g2 F _).mpr rfl) h s p l hl]
  rw [if_neg]
  rw [sub_sub_cancel, Int.emod_eq_of_lt c0 c1]
  exact hc

/-- Boundary data with the interpolation of the code exist at every time. -/
theorem C106_data_exist (sp : ShearParams K) (h1 : sp.q1Start < sp.q1End) (h2 : sp.q2Start < sp.q2End) (g : ℕ) (name : Wall → String)
    {M1 M2 : ℕ} [NeZero M1] [NeZero M2] (q : Coords K) (d : BCData S Np1 Np2 Np3 M1 M2 K) :
    ∃ d' : BCData S Np1 Np2 Np3 M1 M2 K, ShearsLike sp g name q d' := by
  classical
  have hL : ∀ w, alongLo sp w < alongHi sp w := fun w => by cases w <;> simpa [alongLo, alongHi]
  have ex := fun w => C29_shear_wraps (ι := {l : ZMod M1 × ZMod M2 // inSlab g w l}) sp w (hL w)
    (fun l => q.1 l.1.1.val l.1.2.val) (fun l => q.2 l.1.1.val l.1.2.val)
  choose x hx using ex
  refine ⟨{ d with sheared := fun w f s p l => if h : inSlab g w l then shearedSlab g w q (x w ⟨l, h⟩) f s p l else 0 }, fun w _ => ⟨x w, (hx w).1, ?_⟩⟩
  intro f s p l
  simp only [l.2, dif_pos]

end more

end Decomp

end Bolt
