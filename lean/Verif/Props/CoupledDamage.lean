import Verif.Props.MachineCoupled

/-!
# C112: how fast damage spreads in a coupled run
-/

set_option linter.unusedSectionVars false

namespace Bolt

open Machine

section near
variable {S P Q K : Type} [AddCommGroup P] [AddCommGroup Q] [Machine K] (Sm : Mach.Sums S P K)

/-- Agreement of two functions of the cell in the box of radius `n`. -/
def NearBy {α : Type} (q1 q2 : Q) (n : ℕ) (x y : Q → α) (i : Q) : Prop :=
  ∀ a b : ℤ, |a| ≤ n → |b| ≤ n → x (i + a • q1 + b • q2) = y (i + a • q1 + b • q2)

theorem NearBy.mono {α : Type} {q1 q2 : Q} {n m : ℕ} {x y : Q → α} {i : Q} (h : NearBy q1 q2 n x y i) (hm : m ≤ n) : NearBy q1 q2 m x y i :=
  fun a b ha hb => h a b (ha.trans (by exact_mod_cast hm)) (hb.trans (by exact_mod_cast hm))

/-- Agreement in a box, seen from one of its cells. -/
theorem NearBy.inner {α : Type} {q1 q2 : Q} {n m : ℕ} {x y : Q → α} {i : Q} (h : NearBy q1 q2 (n + m) x y i) {a b : ℤ} (ha : |a| ≤ n)
    (hb : |b| ≤ n) : NearBy q1 q2 m x y (i + a • q1 + b • q2) := by
  intro a' b' ha' hb'
  have e : i + a • q1 + b • q2 + a' • q1 + b' • q2 = i + (a + a') • q1 + (b + b') • q2 := by rw [add_smul, add_smul]; abel
  rw [e]
  refine h _ _ ((abs_add_le _ _).trans ?_) ((abs_add_le _ _).trans ?_) <;> push_cast <;> omega

theorem emNear_comp {q1 q2 : Q} {F G : EM Q K} {n : ℕ} {i : Q} : EMAgreeNear q1 q2 n F G i ↔ ∀ c, NearBy q1 q2 n (F.comp c) (G.comp c) i :=
  ⟨fun h c a b ha hb => h a b ha hb c, fun h a b ha hb c => h c a b ha hb⟩

theorem EMAgreeNear.mono {q1 q2 : Q} {F G : EM Q K} {n m : ℕ} {i : Q} (h : EMAgreeNear q1 q2 n F G i) (hm : m ≤ n) : EMAgreeNear q1 q2 m F G i :=
  emNear_comp.mpr fun c => (emNear_comp.mp h c).mono hm

theorem EMAgreeNear.inner {q1 q2 : Q} {F G : EM Q K} {n m : ℕ} {i : Q} (h : EMAgreeNear q1 q2 (n + m) F G i) {a b : ℤ} (ha : |a| ≤ n) (hb : |b| ≤ n) :
    EMAgreeNear q1 q2 m F G (i + a • q1 + b • q2) := emNear_comp.mpr fun c => (emNear_comp.mp h c).inner ha hb

/-- Values at the neighbours of a cell. -/
theorem EMAgreeNear.cells {q1 q2 : Q} {F G : EM Q K} {i : Q} (h : EMAgreeNear q1 q2 1 F G i) (x y : ℤ) (hx : |x| ≤ 1) (hy : |y| ≤ 1) :
    F.E1 (i + x • q1 + y • q2) = G.E1 (i + x • q1 + y • q2) ∧ F.E2 (i + x • q1 + y • q2) = G.E2 (i + x • q1 + y • q2) ∧
    F.E3 (i + x • q1 + y • q2) = G.E3 (i + x • q1 + y • q2) ∧ F.B1 (i + x • q1 + y • q2) = G.B1 (i + x • q1 + y • q2) ∧
    F.B2 (i + x • q1 + y • q2) = G.B2 (i + x • q1 + y • q2) ∧ F.B3 (i + x • q1 + y • q2) = G.B3 (i + x • q1 + y • q2) :=
  (emNear_iff q1 q2 F G 1 i).mp h x y (by exact_mod_cast hx) (by exact_mod_cast hy)

theorem mach_evolveE_near (pr : FieldParams Q K) (J J' : Currents Q K) (dt : K) (F G : EM Q K) (j : Q) (h : EMAgreeNear pr.q1 pr.q2 1 F G j)
    (hJ : J.J1 j = J'.J1 j ∧ J.J2 j = J'.J2 j ∧ J.J3 j = J'.J3 j) (c : Fin 6) :
    (Mach.evolveE pr J dt F).comp c j = (Mach.evolveE pr J' dt G).comp c j := by
  have k00 := h.cells 0 0 (by simp) (by simp)
  have k10 := h.cells 1 0 (by simp) (by simp)
  have k01 := h.cells 0 1 (by simp) (by simp)
  simp only [zero_smul, one_smul, add_zero] at k00 k10 k01
  obtain ⟨a1, a2, a3, a4, a5, a6⟩ := k00
  obtain ⟨b1, b2, b3, b4, b5, b6⟩ := k10
  obtain ⟨c1, c2, c3, c4, c5, c6⟩ := k01
  obtain ⟨j1, j2, j3⟩ := hJ
  fin_cases c <;> simp [EM.comp, Mach.evolveE, Mach.pushE, Mach.curlB1, Mach.curlB2, Mach.curlB3, afShift, a1, a2, a3, a4, a5, a6, b5, b6, c4, c6,
    j1, j2, j3]

theorem mach_evolveB_near (pr : FieldParams Q K) (dt : K) (F G : EM Q K) (j : Q) (h : EMAgreeNear pr.q1 pr.q2 1 F G j) (c : Fin 6) :
    (Mach.evolveB pr dt F).comp c j = (Mach.evolveB pr dt G).comp c j ∧
    (Mach.toCentre pr.q1 pr.q2 (Mach.evolveB pr dt F)).comp c j = (Mach.toCentre pr.q1 pr.q2 (Mach.evolveB pr dt G)).comp c j := by
  have k00 := h.cells 0 0 (by simp) (by simp)
  have k10 := h.cells 1 0 (by simp) (by simp)
  have k01 := h.cells 0 1 (by simp) (by simp)
  have m10 := h.cells (-1) 0 (by simp) (by simp)
  have m01 := h.cells 0 (-1) (by simp) (by simp)
  have k11 := h.cells 1 1 (by simp) (by simp)
  have x1 := h.cells (-1) 1 (by simp) (by simp)
  have x2 := h.cells 1 (-1) (by simp) (by simp)
  simp only [zero_smul, one_smul, neg_smul, add_zero, ← sub_eq_add_neg] at k00 k10 k01 m10 m01 k11 x1 x2
  have y1 : j + pr.q2 - pr.q1 = j - pr.q1 + pr.q2 := by abel
  have y2 : j + pr.q2 + pr.q1 = j + pr.q1 + pr.q2 := by abel
  have y3 : j + pr.q1 + pr.q2 - pr.q1 = j + pr.q2 := by abel
  obtain ⟨a1, a2, a3, a4, a5, a6⟩ := k00
  obtain ⟨b1, b2, b3, b4, b5, b6⟩ := k10
  obtain ⟨c1, c2, c3, c4, c5, c6⟩ := k01
  obtain ⟨d1, d2, d3, d4, d5, d6⟩ := m10
  obtain ⟨f1, f2, f3, f4, f5, f6⟩ := m01
  obtain ⟨e1, e2, e3, e4, e5, e6⟩ := k11
  obtain ⟨g1, g2, g3, g4, g5, g6⟩ := x1
  obtain ⟨l1, l2, l3, l4, l5, l6⟩ := x2
  fin_cases c <;> simp [EM.comp, Mach.toCentre, Mach.evolveB, Mach.curlE1, Mach.curlE2, Mach.curlE3, afShift, y1, y2, y3, a1, a2, a3, a4, a5, a6,
    b1, b2, b3, b4, b5, b6, c1, c2, c3, c4, c5, c6, d1, d2, d3, d4, d5, d6, e1, e2, e3, e4, e5, e6, f1, f2, f3, f4, f5, f6, g1, g2, g3, g4, g5, g6,
    l1, l2, l3, l4, l5, l6]

/-- The current in a cell depends on the distribution within the stencil of the reconstruction. -/
theorem mach_currents_near (c : CoupledConfig S P Q K) (m : Recon) (A B f g : Dist S P Q K) (j : Q)
    (h : ∀ s p, NearBy c.ax.q1 c.ax.q2 m.radius (f s p) (g s p) j) :
    (Mach.kineticCurrents Sm c m A B f).J1 j = (Mach.kineticCurrents Sm c m A B g).J1 j ∧
    (Mach.kineticCurrents Sm c m A B f).J2 j = (Mach.kineticCurrents Sm c m A B g).J2 j ∧
    (Mach.kineticCurrents Sm c m A B f).J3 j = (Mach.kineticCurrents Sm c m A B g).J3 j := by
  have h0 : ∀ s p, f s p j = g s p j := fun s p => by simpa using h s p 0 0 (by simp) (by simp)
  have e1 : ∀ s p, Mach.leftState m c.ax.q1 (A s p) (f s p) j = Mach.leftState m c.ax.q1 (A s p) (g s p) j := fun s p =>
    Mach.leftState_congr m _ _ _ _ _ _ _ _ rfl fun k ka kb => by simpa using h s p k 0 (by rw [abs_le]; omega) (by simp)
  have e2 : ∀ s p, Mach.leftState m c.ax.q2 (B s p) (f s p) j = Mach.leftState m c.ax.q2 (B s p) (g s p) j := fun s p =>
    Mach.leftState_congr m _ _ _ _ _ _ _ _ rfl fun k ka kb => by simpa using h s p 0 k (by simp) (by rw [abs_le]; omega)
  simp only [Mach.kineticCurrents, Mach.momV, e1, e2, h0, and_self]

variable {Sm}

theorem CoupledAgreeNear.mono {q1 q2 : Q} {n m : ℕ} {x y : Dist S P Q K × FieldState Q K} {i : Q} (h : CoupledAgreeNear q1 q2 n x y i) (hm : m ≤ n) :
    CoupledAgreeNear q1 q2 m x y i :=
  ⟨fun a b ha hb => h.dist a b (ha.trans (by exact_mod_cast hm)) (hb.trans (by exact_mod_cast hm)), h.yee.mono hm, fun k => (h.heap k).mono hm,
    h.cc, h.atN, h.atHalf, h.flag⟩

/-- The field update brings the fields of one cell further into play, beyond the stencil of the currents. -/
theorem mach_fieldUpdate_near {c : CoupledConfig S P Q K} {m : Recon} (hm : reconMethod c.reconstructionInQ = .ok m) {cb : CoupledCallbacks S P Q K}
    {dt : K} {x y : Dist S P Q K × FieldState Q K} {σ σ' : FieldState Q K} {n d : ℕ} {i : Q}
    (h : CoupledAgreeNear c.ax.q1 c.ax.q2 (n + d) x y i) (hd : x.2.flag = false → m.radius + 1 ≤ d)
    (hx : Mach.fieldUpdate Sm c cb dt x.1 x.2 = .ok σ) (hy : Mach.fieldUpdate Sm c cb dt y.1 y.2 = .ok σ') :
    CoupledAgreeNear c.ax.q1 c.ax.q2 n (x.1, σ) (y.1, σ') i := by
  rcases Mach.fieldUpdate_ok Sm hx with ⟨a1, a2, a3, m1, hm1, rfl⟩ | ⟨a, rfl⟩ <;>
    rcases Mach.fieldUpdate_ok Sm hy with ⟨b1, b2, b3, m2, hm2, rfl⟩ | ⟨b, rfl⟩
  · rw [hm, Except.ok.injEq] at hm1 hm2
    subst hm1 hm2
    have hd := hd a2
    have r1 : 1 ≤ m.radius := by cases m <;> simp [Recon.radius]
    -- the electric field in a cell at most `n + 1` away
    have E : EMAgreeNear c.ax.q1 c.ax.q2 (n + 1)
        (Mach.evolveE c.fieldParams (Mach.kineticCurrents Sm c m cb.Cq1 cb.Cq2 x.1) dt x.2.yee)
        (Mach.evolveE c.fieldParams (Mach.kineticCurrents Sm c m cb.Cq1 cb.Cq2 y.1) dt y.2.yee) i := by
      intro a b ha hb k
      refine mach_evolveE_near c.fieldParams _ _ dt _ _ _ ?_ ?_ k
      · exact (h.yee.mono (show n + 1 + 1 ≤ n + d by omega)).inner ha hb
      · refine mach_currents_near Sm c m _ _ _ _ _ fun s p => ?_
        have hn : NearBy c.ax.q1 c.ax.q2 (n + 1 + m.radius) (x.1 s p) (y.1 s p) i :=
          (show NearBy c.ax.q1 c.ax.q2 (n + d) (x.1 s p) (y.1 s p) i from fun a b ha hb => h.dist a b ha hb s p).mono (by omega)
        exact hn.inner ha hb
    have B : ∀ a b : ℤ, |a| ≤ n → |b| ≤ n → ∀ k, _ := fun a b ha hb k =>
      mach_evolveB_near c.fieldParams dt _ _ (i + a • c.ax.q1 + b • c.ax.q2) (E.inner ha hb) k
    have st : ∀ a b : ℤ, |a| ≤ n → |b| ≤ n → Decomp.StateAt
        (Mach.storeFields c.fieldParams dt (Mach.fdtd c.fieldParams (Mach.kineticCurrents Sm c m cb.Cq1 cb.Cq2 x.1) dt x.2.yee) x.2)
        (i + a • c.ax.q1 + b • c.ax.q2)
        (Mach.storeFields c.fieldParams dt (Mach.fdtd c.fieldParams (Mach.kineticCurrents Sm c m cb.Cq1 cb.Cq2 y.1) dt y.2.yee) y.2)
        (i + a • c.ax.q1 + b • c.ax.q2) := fun a b ha hb =>
      Mach.store_same ⟨h.cc, h.atN, h.atHalf, fun k =>
        (h.mono (Nat.le_add_right n d)).heap k a b ha hb⟩ _ _ dt _ _ (fun k => (B a b ha hb k).2)
    have rx := Mach.store_rest c.fieldParams dt (Mach.fdtd c.fieldParams (Mach.kineticCurrents Sm c m cb.Cq1 cb.Cq2 x.1) dt x.2.yee) x.2
    have ry := Mach.store_rest c.fieldParams dt (Mach.fdtd c.fieldParams (Mach.kineticCurrents Sm c m cb.Cq1 cb.Cq2 y.1) dt y.2.yee) y.2
    refine ⟨(h.mono (Nat.le_add_right n d)).dist, ?_, fun k a b ha hb => (st a b ha hb).heap k, h.cc, h.atN, h.atHalf, h.flag⟩
    intro a b ha hb k
    exact (B a b ha hb k).1
  · exact absurd ⟨a1, by rw [← h.flag]; exact a2⟩ b
  · exact absurd ⟨b1, by rw [h.flag]; exact b2⟩ a
  · exact ⟨(h.mono (Nat.le_add_right n d)).dist, (h.mono (Nat.le_add_right n d)).yee, (h.mono (Nat.le_add_right n d)).heap, h.cc, h.atN, h.atHalf,
      h.flag⟩

/-- A slope evaluation: the stencil of the reconstruction, and one cell more if the fields are updated in it. -/
theorem mach_slope_near {c : CoupledConfig S P Q K} {m : Recon} (hm : reconMethod c.reconstructionInQ = .ok m) {cb : CoupledCallbacks S P Q K}
    (hl : CellLocal cb) {dt : K} {x y : Dist S P Q K × FieldState Q K} {r r' : Dist S P Q K × FieldState Q K} {n d : ℕ} {i : Q}
    (h : CoupledAgreeNear c.ax.q1 c.ax.q2 (n + d) x y i) (hd : m.radius ≤ d)
    (hd' : c.solverMethodInP = "FVM" ∧ c.fieldsEnabled = true → x.2.flag = false → m.radius + 1 ≤ d)
    (hx : Mach.dfdtCoupled Sm c cb dt x.1 x.2 = .ok r) (hy : Mach.dfdtCoupled Sm c cb dt y.1 y.2 = .ok r') :
    CoupledAgreeNear c.ax.q1 c.ax.q2 n r r' i ∧
      (c.solverMethodInP = "FVM" ∧ c.fieldsEnabled = true → r.2.flag = !x.2.flag) := by
  -- the slope of the finite-volume part
  have slope : ∀ (A1 A2 A3 B1 B2 B3 : Dist S P Q K) (k k' : Dist S P Q K),
      (∀ a b : ℤ, |a| ≤ n → |b| ≤ n → ∀ s p, A1 s p (i + a • c.ax.q1 + b • c.ax.q2) = B1 s p (i + a • c.ax.q1 + b • c.ax.q2) ∧
        A2 s p (i + a • c.ax.q1 + b • c.ax.q2) = B2 s p (i + a • c.ax.q1 + b • c.ax.q2) ∧
        A3 s p (i + a • c.ax.q1 + b • c.ax.q2) = B3 s p (i + a • c.ax.q1 + b • c.ax.q2)) →
      Mach.dfdtFVM c.ax c.toFVMConfig ⟨cb.Cq1, cb.Cq2, A1, A2, A3, cb.source⟩ x.1 = .ok k →
      Mach.dfdtFVM c.ax c.toFVMConfig ⟨cb.Cq1, cb.Cq2, B1, B2, B3, cb.source⟩ y.1 = .ok k' →
      ∀ a b : ℤ, |a| ≤ n → |b| ≤ n → ∀ s p, k s p (i + a • c.ax.q1 + b • c.ax.q2) = k' s p (i + a • c.ax.q1 + b • c.ax.q2) := by
    intro A1 A2 A3 B1 B2 B3 k k' hA hk hk' a b ha hb s p
    obtain ⟨mq, mp, hu⟩ := Mach.dfdtFVM_uses hk
    have hu' : Mach.Uses c.toFVMConfig m mp := ⟨fun _ => hm, hu.2⟩
    rw [Mach.dfdtFVM_eq _ _ hu', Except.ok.injEq] at hk hk'
    subst hk hk'
    have hn : ∀ s p, NearBy c.ax.q1 c.ax.q2 m.radius (x.1 s p) (y.1 s p) (i + a • c.ax.q1 + b • c.ax.q2) := fun s p =>
      (show NearBy c.ax.q1 c.ax.q2 (n + d) (x.1 s p) (y.1 s p) i from fun a b ha hb => h.dist a b ha hb s p).mono
        (show n + m.radius ≤ n + d by omega) |>.inner ha hb
    have hA := hA a b ha hb
    generalize i + a • c.ax.q1 + b • c.ax.q2 = j at hn hA ⊢
    have h0 : ∀ s p, x.1 s p j = y.1 s p j := fun s p => by simpa using hn s p 0 0 (by simp) (by simp)
    have e1 := Mach.fluxJump_congr m c.ax.q1 c.ax.q1 (cb.Cq1 s p) (cb.Cq1 s p) (x.1 s p) (y.1 s p) j j rfl rfl
      (fun k hk => by simpa using hn s p k 0 hk (by simp))
    have e2 := Mach.fluxJump_congr m c.ax.q2 c.ax.q2 (cb.Cq2 s p) (cb.Cq2 s p) (x.1 s p) (y.1 s p) j j rfl rfl
      (fun k hk => by simpa using hn s p 0 k (by simp) hk)
    have e3 : (fun p => x.1 s p j) = fun p => y.1 s p j := by funext p; exact h0 s p
    have f1 : (fun p => A1 s p j) = fun p => B1 s p j := by funext p; exact (hA s p).1
    have f2 : (fun p => A2 s p j) = fun p => B2 s p j := by funext p; exact (hA s p).2.1
    have f3 : (fun p => A3 s p j) = fun p => B3 s p j := by funext p; exact (hA s p).2.2
    simp only [Mach.slopeValue, Mach.dfdtQ, Mach.dfdtP, Mach.dFluxP, e1, e2, e3, f1, f2, f3, hl.src x.1 y.1 j h0 s p]
  by_cases hp : c.solverMethodInP = "FVM" ∧ c.fieldsEnabled = true
  · simp only [Mach.dfdtCoupled, if_pos hp, bind, Except.bind, pure, Except.pure] at hx hy
    cases hux : Mach.fieldUpdate Sm c cb dt x.1 x.2 with
    | error e => simp [hux] at hx
    | ok σ =>
      cases huy : Mach.fieldUpdate Sm c cb dt y.1 y.2 with
      | error e => simp [huy] at hy
      | ok τ =>
        have hn := mach_fieldUpdate_near hm h (hd' hp) hux huy
        simp only [hux, huy, Mach.get_flag _ _ hp.1, Bool.not_not] at hx hy
        split at hx
        · cases hx
        rename_i k hk
        split at hy
        · cases hy
        rename_i k' hk'
        simp only [Except.ok.injEq] at hx hy
        subst hx hy
        have get : ∀ b : Bool, ∀ a b' : ℤ, |a| ≤ n → |b'| ≤ n → ∀ q,
            (getFields c.fieldsSolver c.solverMethodInP { σ with flag := b }).1.comp q (i + a • c.ax.q1 + b' • c.ax.q2) =
            (getFields c.fieldsSolver c.solverMethodInP { τ with flag := b }).1.comp q (i + a • c.ax.q1 + b' • c.ax.q2) := by
          intro b a b' ha hb q
          have hcc : σ.cc = τ.cc := hn.cc
          have hN : σ.atN = τ.atN := hn.atN
          have hH : σ.atHalf = τ.atHalf := hn.atHalf
          simp only [getFields, hcc, hN, hH]
          split_ifs <;> exact hn.heap _ a b' ha hb q
        have hfl : σ.flag = τ.flag := hn.flag
        have hfx : σ.flag = x.2.flag := by
          rcases Mach.fieldUpdate_ok Sm hux with ⟨-, -, -, m1, -, rfl⟩ | ⟨-, rfl⟩
          · rfl
          · rfl
        refine ⟨⟨slope _ _ _ _ _ _ k k' ?_ hk hk', hn.yee, hn.heap, hn.cc, hn.atN, hn.atHalf, by simp only [hfl]⟩, fun _ => by simp only [hfx]⟩
        intro a b ha hb s p
        have gt := fun v => get v a b ha hb
        refine ⟨hl.p1 _ _ _ (fun q => ?_) s p, hl.p2 _ _ _ (fun q => ?_) s p, hl.p3 _ _ _ (fun q => ?_) s p⟩
        · have := gt σ.flag q
          rwa [show ({ τ with flag := σ.flag } : FieldState Q K) = τ by rw [hfl]] at this
        · have := gt (!σ.flag) q
          rwa [show ({ τ with flag := !σ.flag } : FieldState Q K) = { τ with flag := !τ.flag } by rw [hfl]] at this
        · have := gt σ.flag q
          rwa [show ({ τ with flag := σ.flag } : FieldState Q K) = τ by rw [hfl]] at this
  · simp only [Mach.dfdtCoupled, if_neg hp, bind, Except.bind, pure, Except.pure] at hx hy
    split at hx
    · cases hx
    rename_i k hk
    split at hy
    · cases hy
    rename_i k' hk'
    simp only [Except.ok.injEq] at hx hy
    subst hx hy
    have h' := h.mono (Nat.le_add_right n d)
    exact ⟨⟨slope _ _ _ _ _ _ k k' (fun _ _ _ _ _ _ => ⟨rfl, rfl, rfl⟩) hk hk', h'.yee, h'.heap, h'.cc, h'.atN, h'.atHalf, h'.flag⟩,
      fun hf => absurd hf hp⟩

theorem mach_stepCoupled_near {c : CoupledConfig S P Q K} {m : Recon} (hm : reconMethod c.reconstructionInQ = .ok m)
    {cb : Fin 2 → CoupledCallbacks S P Q K} (hl : ∀ k, CellLocal (cb k)) {dt : K} {x y x' y' : Dist S P Q K × FieldState Q K} {n : ℕ} {i : Q}
    (h : CoupledAgreeNear c.ax.q1 c.ax.q2 (n + (2 * m.radius + 1)) x y i)
    (hx : Mach.stepCoupled Sm c cb dt x = .ok x') (hy : Mach.stepCoupled Sm c cb dt y = .ok y') : CoupledAgreeNear c.ax.q1 c.ax.q2 n x' y' i := by
  obtain ⟨r0, r1, a0, a1, rfl⟩ := Mach.stepCoupled_ok Sm hx
  obtain ⟨s0, s1, b0, b1, rfl⟩ := Mach.stepCoupled_ok Sm hy
  have fin : ∀ d0 d1 : ℕ, d0 + d1 = 2 * m.radius + 1 → m.radius ≤ d0 → m.radius ≤ d1 →
      (c.solverMethodInP = "FVM" ∧ c.fieldsEnabled = true → x.2.flag = false → m.radius + 1 ≤ d0) →
      (c.solverMethodInP = "FVM" ∧ c.fieldsEnabled = true → x.2.flag = true → m.radius + 1 ≤ d1) →
      CoupledAgreeNear c.ax.q1 c.ax.q2 n (fun s p q => x.1 s p q ⊞ r1.1 s p q ⊠ dt, r1.2) (fun s p q => y.1 s p q ⊞ s1.1 s p q ⊠ dt, s1.2) i := by
    intro d0 d1 hs h0 h1 k0 k1
    have hh : CoupledAgreeNear c.ax.q1 c.ax.q2 (n + d1 + d0) x y i := h.mono (by omega)
    obtain ⟨u, v⟩ := mach_slope_near hm (hl 0) hh h0 k0 a0 b0
    have hd := (hh.mono (show n + d1 ≤ n + d1 + d0 by omega)).dist
    have w : CoupledAgreeNear c.ax.q1 c.ax.q2 (n + d1) (fun s p q => x.1 s p q ⊞ r0.1 s p q ⊠ (dt ⊘ lit 2), r0.2)
        (fun s p q => y.1 s p q ⊞ s0.1 s p q ⊠ (dt ⊘ lit 2), s0.2) i := by
      refine ⟨fun a b ha hb s p => ?_, u.yee, u.heap, u.cc, u.atN, u.atHalf, u.flag⟩
      dsimp only
      rw [hd a b ha hb s p, u.dist a b ha hb s p]
    obtain ⟨z, -⟩ := mach_slope_near hm (hl 1) w h1 (fun hp hf => k1 hp (by
      have := v hp
      rw [show r0.2.flag = false from hf] at this
      cases hxf : x.2.flag
      · rw [hxf] at this; exact absurd this (by decide)
      · rfl)) a1 b1
    have hd' := (hh.mono (show n ≤ n + d1 + d0 by omega)).dist
    refine ⟨fun a b ha hb s p => ?_, z.yee, z.heap, z.cc, z.atN, z.atHalf, z.flag⟩
    dsimp only
    rw [hd' a b ha hb s p, z.dist a b ha hb s p]
  cases hxf : x.2.flag
  · exact fin (m.radius + 1) m.radius (by omega) (by omega) le_rfl (fun _ _ => le_rfl) (fun _ hf => by rw [hxf] at hf; cases hf)
  · exact fin m.radius (m.radius + 1) (by omega) le_rfl (by omega) (fun _ hf => by rw [hxf] at hf; cases hf) (fun _ _ => le_rfl)

/-- **C112 (damage spreads slowly).** Whatever the arithmetic does, in a coupled run with cell-local forces and sources a wrong number, an
infinity or a not-a-number travels per step at most twice the stencil radius of the reconstruction (1 cell for piecewise-constant, 2 for minmod, 3 for
ppm) and one cell more: two runs that start with the same data within `n (2 r + 1)` cells of a cell end `n` steps later with the same distribution and the same
fields in it, bit for bit. -/
theorem C112_damage_spreads_slowly {c : CoupledConfig S P Q K} {m : Recon} (hm : reconMethod c.reconstructionInQ = .ok m)
    (steps : List (K × (Fin 2 → CoupledCallbacks S P Q K))) (hl : ∀ st ∈ steps, ∀ k, CellLocal (st.2 k)) (x y x' y' : Dist S P Q K × FieldState Q K)
    (i : Q) (h : CoupledAgreeNear c.ax.q1 c.ax.q2 (steps.length * (2 * m.radius + 1)) x y i)
    (hx : Mach.runCoupled Sm c steps x = .ok x') (hy : Mach.runCoupled Sm c steps y = .ok y') :
    (∀ s p, x'.1 s p i = y'.1 s p i) ∧ (∀ k, x'.2.yee.comp k i = y'.2.yee.comp k i) ∧
    ∀ k, (getFields c.fieldsSolver c.solverMethodInP x'.2).1.comp k i = (getFields c.fieldsSolver c.solverMethodInP y'.2).1.comp k i := by
  suffices H : CoupledAgreeNear c.ax.q1 c.ax.q2 0 x' y' i by
    refine ⟨fun s p => by simpa using H.dist 0 0 (by simp) (by simp) s p, fun k => by simpa using H.yee 0 0 (by simp) (by simp) k, fun k => ?_⟩
    have hh : ∀ j, (x'.2.heap j).comp k i = (y'.2.heap j).comp k i := fun j => by simpa using H.heap j 0 0 (by simp) (by simp) k
    simp only [getFields, H.cc, H.atN, H.atHalf, H.flag]
    split_ifs <;> exact hh _
  induction steps generalizing x y with
  | nil =>
    simp only [Mach.runCoupled, Except.ok.injEq] at hx hy
    subst hx hy
    simpa using h
  | cons st rest ih =>
    obtain ⟨dt, cb⟩ := st
    simp only [Mach.runCoupled, bind, Except.bind] at hx hy
    cases h0 : Mach.stepCoupled Sm c cb dt x with
    | error e => simp [h0] at hx
    | ok x1 =>
      cases h1 : Mach.stepCoupled Sm c cb dt y with
      | error e => simp [h1] at hy
      | ok y1 =>
        simp only [h0, h1] at hx hy
        refine ih (fun st hst => hl st (by simp [hst])) x1 y1 (mach_stepCoupled_near hm (hl (dt, cb) (by simp)) ?_ h0 h1) hx hy
        have e : (List.length ((dt, cb) :: rest)) * (2 * m.radius + 1) = rest.length * (2 * m.radius + 1) + (2 * m.radius + 1) := by
          rw [List.length_cons]; ring
        rwa [e] at h

end near

end Bolt
