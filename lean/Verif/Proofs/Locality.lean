import Verif.Spec.Locality
import Verif.Proofs.StepMap
import Verif.Proofs.Species

/-! What a step computes in a cell depends on a neighbourhood only. -/

set_option linter.unusedSectionVars false

namespace Bolt

open Decomp (SameAt StateAt)

section
variable {Q Q' : Type} [AddCommGroup Q] [AddCommGroup Q'] {q1 q2 : Q} {q1' q2' : Q'} {i : Q} {i' : Q'} {X Y : Q → Q' → Prop}

theorem Around.sub {n k : ℕ} (h : Around q1 q2 q1' q2' (n + k) i i' X) {a b : ℤ} (ha : |a| ≤ n) (hb : |b| ≤ n) :
    Around q1 q2 q1' q2' k (i + a • q1 + b • q2) (i' + a • q1' + b • q2') X := by
  intro c d hc hd
  have := h (a + c) (b + d) (by push_cast; exact (abs_add_le a c).trans (add_le_add ha hc)) (by push_cast; exact (abs_add_le b d).trans (add_le_add hb hd))
  have e1 : i + (a + c) • q1 + (b + d) • q2 = i + a • q1 + b • q2 + c • q1 + d • q2 := by rw [add_smul, add_smul]; abel
  have e2 : i' + (a + c) • q1' + (b + d) • q2' = i' + a • q1' + b • q2' + c • q1' + d • q2' := by rw [add_smul, add_smul]; abel
  rwa [e1, e2] at this

theorem Around.mono {n k : ℕ} (h : Around q1 q2 q1' q2' n i i' X) (hk : k ≤ n) : Around q1 q2 q1' q2' k i i' X := fun a b ha hb =>
  h a b (ha.trans (by exact_mod_cast hk)) (hb.trans (by exact_mod_cast hk))

theorem Around.imp {n : ℕ} (h : Around q1 q2 q1' q2' n i i' X) (hXY : ∀ j j', X j j' → Y j j') : Around q1 q2 q1' q2' n i i' Y :=
  fun a b ha hb => hXY _ _ (h a b ha hb)

theorem Around.at0 {n : ℕ} (h : Around q1 q2 q1' q2' n i i' X) : X i i' := by
  have := h 0 0 (by simp) (by simp)
  simpa using this

theorem Around.axis1 {n : ℕ} (h : Around q1 q2 q1' q2' n i i' X) {a : ℤ} (ha : |a| ≤ n) : X (i + a • q1) (i' + a • q1') := by
  have := h a 0 ha (by simp)
  simpa using this

theorem Around.axis2 {n : ℕ} (h : Around q1 q2 q1' q2' n i i' X) {a : ℤ} (ha : |a| ≤ n) : X (i + a • q2) (i' + a • q2') := by
  have := h 0 a (by simp) ha
  simpa using this

/-- From every cell of a box to the whole box. -/
theorem Around.step {n k : ℕ} (h : Around q1 q2 q1' q2' (n + k) i i' X) (hXY : ∀ j j', Around q1 q2 q1' q2' k j j' X → Y j j') :
    Around q1 q2 q1' q2' n i i' Y := fun _ _ ha hb => hXY _ _ (h.sub ha hb)

theorem Around.and {n : ℕ} (h : Around q1 q2 q1' q2' n i i' X) (h' : Around q1 q2 q1' q2' n i i' Y) :
    Around q1 q2 q1' q2' n i i' (fun j j' => X j j' ∧ Y j j') := fun a b ha hb => ⟨h a b ha hb, h' a b ha hb⟩

end

variable {Q Q' S P K : Type} [AddCommGroup P] [AddCommGroup Q] [AddCommGroup Q'] [Field K] [LinearOrder K] [IsStrictOrderedRing K]

theorem slope_local {ax : Axes P Q} {ax' : Axes P Q'} (hp : ax'.p1 = ax.p1 ∧ ax'.p2 = ax.p2 ∧ ax'.p3 = ax.p3) {cfg : FVMConfig S K} {r : ℕ}
    (h1r : 1 ≤ r) (hm : ∀ m, reconMethod cfg.reconstructionInQ = .ok m → m.radius ≤ r) {cb : Callbacks S P Q K} {cb' : Callbacks S P Q' K}
    {f k : Dist S P Q K} {f' k' : Dist S P Q' K} (h : dfdtFVM ax cfg cb f = .ok k) (h' : dfdtFVM ax' cfg cb' f' = .ok k') {j : Q} {j' : Q'}
    (hf : Around ax.q1 ax.q2 ax'.q1 ax'.q2 r j j' (fun j j' => ∀ s p, f s p j = f' s p j'))
    (hc : Around ax.q1 ax.q2 ax'.q1 ax'.q2 r j j' (fun j j' => (∀ s p, cb.Cq1 s p j = cb'.Cq1 s p j') ∧ ∀ s p, cb.Cq2 s p j = cb'.Cq2 s p j'))
    (hp1 : ∀ s p, cb.Cp1 s p j = cb'.Cp1 s p j') (hp2 : ∀ s p, cb.Cp2 s p j = cb'.Cp2 s p j') (hp3 : ∀ s p, cb.Cp3 s p j = cb'.Cp3 s p j')
    (hs : ∀ s p, cb.source f s p j = cb'.source f' s p j') (s : S) (p : P) : k s p j = k' s p j' := by
  obtain ⟨a, b, e, ha, hb⟩ := dfdtFVM_ok h
  obtain ⟨a', b', e', ha', hb'⟩ := dfdtFVM_ok h'
  rw [e, e']
  have hf0 := hf.at0
  replace hc := hc.mono h1r
  congr 1
  · rcases ha with ⟨hQ, m, hm1, ha⟩ | ⟨hQ, ha⟩ <;> rcases ha' with ⟨hQ', m2, hm2, ha'⟩ | ⟨hQ', ha'⟩
    · rw [hm1] at hm2
      cases hm2
      replace hf := hf.mono (hm m hm1)
      rw [ha, ha', hs]
      congr 1
      simp only [dfdtQ]
      have c1 := (hc.axis1 (a := 1) (by simp)).1 s p
      have c2 := (hc.axis2 (a := 1) (by simp)).2 s p
      rw [one_smul, one_smul] at c1 c2
      rw [fluxDiv_congr m ax.q1 ax'.q1 cfg.dq1 (cb.Cq1 s p) (cb'.Cq1 s p) (f s p) (f' s p) j j' (hc.at0.1 s p) c1
          (fun k hk => hf.axis1 hk s p),
        fluxDiv_congr m ax.q2 ax'.q2 cfg.dq2 (cb.Cq2 s p) (cb'.Cq2 s p) (f s p) (f' s p) j j' (hc.at0.2 s p) c2
          (fun k hk => hf.axis2 hk s p)]
    · exact absurd hQ hQ'
    · exact absurd hQ' hQ
    · rw [ha, ha']
  · rcases hb with ⟨hA, m1, hm1, hb⟩ | ⟨hA, hb⟩ <;> rcases hb' with ⟨hA', m2, hm2, hb'⟩ | ⟨hA', hb'⟩
    · rw [hm1] at hm2
      cases hm2
      rw [hb, hb']
      simp only [dfdtP, dFluxP, hp1, hp2, hp3, hf0, hp.1, hp.2.1, hp.2.2]
    · exact absurd hA hA'
    · exact absurd hA' hA
    · rw [hb, hb']

/-! ### fields -/

variable {q1 q2 : Q} {q1' q2' : Q'} {i : Q} {i' : Q'}

theorem addCurlB_local {pr : FieldParams Q K} {j : Q} {j' : Q'} {F : EM Q K} {F' : EM Q' K} {J : Currents Q K} {J' : Currents Q' K}
    (h : Around pr.q1 pr.q2 q1' q2' 1 j j' (fun j j' => SameAt F j F' j'))
    (hJ : J.J1 j = J'.J1 j' ∧ J.J2 j = J'.J2 j' ∧ J.J3 j = J'.J3 j') (dt : K) :
    SameAt (addCurlB pr J dt F) j (addCurlB (pr.onGrid q1' q2') J' dt F') j' := by
  intro c
  have h0 := h.at0
  have a := h.axis1 (a := 1) (by simp)
  have b := h.axis2 (a := 1) (by simp)
  simp only [one_smul] at a b
  have e0 := h0 0; have e1 := h0 1; have e2 := h0 2; have e3 := h0 3; have e4 := h0 4; have e5 := h0 5
  have a3 := a 3; have a4 := a 4; have a5 := a 5
  have b3 := b 3; have b4 := b 4; have b5 := b 5
  simp only [EM.comp] at e0 e1 e2 e3 e4 e5 a3 a4 a5 b3 b4 b5
  obtain ⟨j1, j2, j3⟩ := hJ
  fin_cases c <;> simp [addCurlB, EM.comp, curlB1, curlB2, curlB3, FieldParams.onGrid, afShift, e0, e1, e2, e3, e4, e5, j1, j2, j3,
    a3, a4, a5, b3, b4, b5]

theorem evolveB_local {pr : FieldParams Q K} {j : Q} {j' : Q'} {F : EM Q K} {F' : EM Q' K}
    (h : Around pr.q1 pr.q2 q1' q2' 1 j j' (fun j j' => SameAt F j F' j')) (dt : K) :
    SameAt (evolveB pr dt F) j (evolveB (pr.onGrid q1' q2') dt F') j' := by
  intro c
  have h0 := h.at0
  have a := h.axis1 (a := -1) (by simp)
  have b := h.axis2 (a := -1) (by simp)
  simp only [neg_smul, one_smul, ← sub_eq_add_neg] at a b
  have e0 := h0 0; have e1 := h0 1; have e2 := h0 2; have e3 := h0 3; have e4 := h0 4; have e5 := h0 5
  have a0 := a 0; have a1 := a 1; have a2 := a 2
  have b0 := b 0; have b1 := b 1; have b2 := b 2
  simp only [EM.comp] at e0 e1 e2 e3 e4 e5 a0 a1 a2 b0 b1 b2
  fin_cases c <;> simp [evolveB, EM.comp, curlE1, curlE2, curlE3, FieldParams.onGrid, afShift, e0, e1, e2, e3, e4, e5,
    a0, a1, a2, b0, b1, b2]

/-- The fields at the centres after the magnetic update need the fields before it one cell around. -/
theorem toCentre_local {pr : FieldParams Q K} {j : Q} {j' : Q'} {F C : EM Q K} {F' C' : EM Q' K}
    (h : Around pr.q1 pr.q2 q1' q2' 1 j j' (fun j j' => SameAt F j F' j')) (dt : K) :
    SameAt (toCentre pr.q1 pr.q2 .both (evolveB pr dt F) C) j (toCentre q1' q2' .both (evolveB (pr.onGrid q1' q2') dt F') C') j' := by
  intro c
  have key : ∀ (a b : ℤ), |a| ≤ 1 → |b| ≤ 1 → ∀ c, F.comp c (j + a • pr.q1 + b • pr.q2) = F'.comp c (j' + a • q1' + b • q2') :=
    fun a b ha hb => h a b (by exact_mod_cast ha) (by exact_mod_cast hb)
  have k00 := key 0 0 (by simp) (by simp)
  have k10 := key 1 0 (by simp) (by simp)
  have k01 := key 0 1 (by simp) (by simp)
  have k11 := key 1 1 (by simp) (by simp)
  have m10 := key (-1) 0 (by simp) (by simp)
  have m01 := key 0 (-1) (by simp) (by simp)
  have m11 := key (-1) 1 (by simp) (by simp)
  have m12 := key 1 (-1) (by simp) (by simp)
  simp only [zero_smul, one_smul, neg_smul, add_zero, ← sub_eq_add_neg] at k00 k10 k01 k11 m10 m01 m11 m12
  have s1 : ∀ (x : Q), x + pr.q2 - pr.q1 = x - pr.q1 + pr.q2 := fun x => by abel
  have s2 : ∀ (x : Q'), x + q2' - q1' = x - q1' + q2' := fun x => by abel
  have s3 : ∀ (x : Q), x + pr.q2 + pr.q1 = x + pr.q1 + pr.q2 := fun x => by abel
  have s4 : ∀ (x : Q'), x + q2' + q1' = x + q1' + q2' := fun x => by abel
  have t1 : ∀ (x : Q), x + pr.q1 + pr.q2 - pr.q1 = x + pr.q2 := fun x => by abel
  have t2 : ∀ (x : Q'), x + q1' + q2' - q1' = x + q2' := fun x => by abel
  have e0 := k00 0; have e1 := k00 1; have e2 := k00 2; have e3 := k00 3; have e4 := k00 4; have e5 := k00 5
  have a0 := k10 0; have a1 := k10 1; have a2 := k10 2; have a3 := k10 3; have a4 := k10 4; have a5 := k10 5
  have b0 := k01 0; have b1 := k01 1; have b2 := k01 2; have b3 := k01 3; have b4 := k01 4; have b5 := k01 5
  have c0 := k11 0; have c1 := k11 1; have c2 := k11 2; have c5 := k11 5
  have d0 := m10 0; have d1 := m10 1; have d2 := m10 2
  have f0 := m01 0; have f1 := m01 1; have f2 := m01 2
  have g0 := m11 0; have g1 := m11 1; have g2 := m11 2
  have i0 := m12 0; have i1 := m12 1; have i2 := m12 2
  simp only [EM.comp] at e0 e1 e2 e3 e4 e5 a0 a1 a2 a3 a4 a5 b0 b1 b2 b3 b4 b5 c0 c1 c2 c5 d0 d1 d2 f0 f1 f2 g0 g1 g2 i0 i1 i2
  fin_cases c <;> simp [toCentre, evolveB, EM.comp, curlE1, curlE2, curlE3, FieldParams.onGrid, afShift, s1, s2, s3, s4, t1, t2, e0, e1, e2, e3, e4, e5,
    a0, a1, a2, a3, a4, a5, b0, b1, b2, b3, b4, b5, c0, c1, c2, c5, d0, d1, d2, f0, f1, f2, g0, g1, g2, i0, i1, i2]

/-- The cell `a` cells along the first and `b` cells along the second axis from `i`. -/
def cellAt (q1 q2 i : Q) (a b : ℤ) : Q := i + a • q1 + b • q2

theorem cellAt_zero (q1 q2 i : Q) : cellAt q1 q2 i 0 0 = i := by simp [cellAt]

theorem afShift_cellAt1 (q1 q2 i : Q) (x : Q → K) (k a b : ℤ) : afShift q1 k x (cellAt q1 q2 i a b) = x (cellAt q1 q2 i (a - k) b) := by
  simp only [afShift, cellAt, sub_smul]
  congr 1
  abel

theorem afShift_cellAt2 (q1 q2 i : Q) (x : Q → K) (k a b : ℤ) : afShift q2 k x (cellAt q1 q2 i a b) = x (cellAt q1 q2 i a (b - k)) := by
  simp only [afShift, cellAt, sub_smul]
  congr 1
  abel

section coupled
variable [Fintype S] [Fintype P] [Fintype Q] [Fintype Q']

theorem evolve_local {pr : FieldParams Q K} {J : Currents Q K} {J' : Currents Q' K} {dt : K} {σ σ' : FieldState Q K} {τ τ' : FieldState Q' K}
    (h : evolveElectrodynamic pr id J dt σ = .ok σ') (h' : evolveElectrodynamic (pr.onGrid q1' q2') id J' dt τ = .ok τ') {j : Q} {j' : Q'}
    (href : SameRefs σ τ) (hheap : ∀ o, SameAt (σ.heap o) j (τ.heap o) j')
    (hF : ∀ F F', evolveE pr J dt σ.yee = .ok F → evolveE (pr.onGrid q1' q2') J' dt τ.yee = .ok F' →
      Around pr.q1 pr.q2 q1' q2' 1 j j' (fun j j' => SameAt F j F' j')) :
    SameRefs σ' τ' ∧ SameAt σ'.yee j τ'.yee j' ∧ ∀ o, SameAt (σ'.heap o) j (τ'.heap o) j' := by
  simp only [evolveElectrodynamic, bind, Except.bind, pure, Except.pure] at h h'
  cases hf : fdtd pr id J dt σ.yee with
  | error e => simp [hf] at h
  | ok Z =>
    cases hf' : fdtd (pr.onGrid q1' q2') id J' dt τ.yee with
    | error e => simp [hf'] at h'
    | ok Z' =>
      simp only [hf, hf', Except.ok.injEq] at h h'
      subst h h'
      obtain ⟨Z1, z1, rfl⟩ := fdtd_ok hf
      obtain ⟨Z1', z1', rfl⟩ := fdtd_ok hf'
      have b := hF _ _ z1 z1'
      have st : StateAt (storeFields pr dt (evolveB pr dt Z1) σ) j (storeFields (pr.onGrid q1' q2') dt (evolveB (pr.onGrid q1' q2') dt Z1') τ) j' :=
        StateAt.store ⟨href.1, href.2.1, href.2.2.1, hheap⟩ _ _ dt _ _ (fun C C' => toCentre_local b dt)
      exact ⟨⟨st.cc, st.atN, st.atHalf, href.2.2.2⟩, evolveB_local b dt, st.heap⟩

theorem face_local {c : CoupledConfig S P Q K} {m : Recon} {r : ℕ} (hm : m.radius ≤ r) {Cq1 Cq2 f : Dist S P Q K} {Cq1' Cq2' f' : Dist S P Q' K}
    {j : Q} {j' : Q'} (hf : Around c.ax.q1 c.ax.q2 q1' q2' r j j' (fun j j' => ∀ s p, f s p j = f' s p j'))
    (hc1 : ∀ s p, Cq1 s p j = Cq1' s p j') (hc2 : ∀ s p, Cq2 s p j = Cq2' s p j') :
    (∀ s p, faceLeft c.ax m Cq1 f s p j = faceLeft (c.onGrid q1' q2').ax m Cq1' f' s p j') ∧
    ∀ s p, faceBot c.ax m Cq2 f s p j = faceBot (c.onGrid q1' q2').ax m Cq2' f' s p j' := by
  replace hf := hf.mono hm
  constructor <;> intro s p
  · exact leftState_congr m _ _ _ _ _ _ _ _ (hc1 s p) (fun k ka kb => hf.axis1 (by rw [abs_le]; omega) s p)
  · exact leftState_congr m _ _ _ _ _ _ _ _ (hc2 s p) (fun k ka kb => hf.axis2 (by rw [abs_le]; omega) s p)

theorem kinetic_local {c : CoupledConfig S P Q K} {m : Recon} {r : ℕ} (hm : m.radius ≤ r) {Cq1 Cq2 f : Dist S P Q K} {Cq1' Cq2' f' : Dist S P Q' K}
    {j : Q} {j' : Q'} (hf : Around c.ax.q1 c.ax.q2 q1' q2' r j j' (fun j j' => ∀ s p, f s p j = f' s p j'))
    (hc1 : ∀ s p, Cq1 s p j = Cq1' s p j') (hc2 : ∀ s p, Cq2 s p j = Cq2' s p j') :
    (kineticCurrents c m Cq1 Cq2 f).J1 j = (kineticCurrents (c.onGrid q1' q2') m Cq1' Cq2' f').J1 j' ∧
    (kineticCurrents c m Cq1 Cq2 f).J2 j = (kineticCurrents (c.onGrid q1' q2') m Cq1' Cq2' f').J2 j' ∧
    (kineticCurrents c m Cq1 Cq2 f).J3 j = (kineticCurrents (c.onGrid q1' q2') m Cq1' Cq2' f').J3 j' := by
  obtain ⟨fL, fB⟩ := face_local hm hf hc1 hc2
  simp only [kineticCurrents, momV1, momV2, momV3, integralOverV, fL, fB, hf.at0]
  exact ⟨rfl, rfl, rfl⟩

theorem hybrid_local {c : CoupledConfig S P Q K} {m : Recon} {r : ℕ} (hm : m.radius ≤ r) (h3 : 3 ≤ r) {Cq1 Cq2 f : Dist S P Q K}
    {Cq1' Cq2' f' : Dist S P Q' K} {Y : EM Q K} {Y' : EM Q' K} {hyb : S}
    {j : Q} {j' : Q'} (hf : Around c.ax.q1 c.ax.q2 q1' q2' r j j' (fun j j' => ∀ s p, f s p j = f' s p j'))
    (hc1 : ∀ s p, Cq1 s p j = Cq1' s p j') (hc2 : ∀ s p, Cq2 s p j = Cq2' s p j')
    (hY : Around c.ax.q1 c.ax.q2 q1' q2' r j j' (fun j j' => SameAt Y j Y' j')) :
    let E := (hybridFields c hyb m Cq1 Cq2 f f Y).2
    let E' := (hybridFields (c.onGrid q1' q2') hyb m Cq1' Cq2' f' f' Y').2
    E.1 j = E'.1 j' ∧ E.2.1 j = E'.2.1 j' ∧ E.2.2 j = E'.2.2 j' := by
  obtain ⟨fL, fB⟩ := face_local hm hf hc1 hc2
  have f0 := hf.at0
  have hY3 := hY.mono h3
  have hf3 := hf.mono h3
  have y3 : ∀ a b : ℤ, |a| ≤ 3 → |b| ≤ 3 → Y.B1 (cellAt c.ax.q1 c.ax.q2 j a b) = Y'.B1 (cellAt q1' q2' j' a b) :=
    fun a b ha hb => hY3 a b (by exact_mod_cast ha) (by exact_mod_cast hb) 3
  have y4 : ∀ a b : ℤ, |a| ≤ 3 → |b| ≤ 3 → Y.B2 (cellAt c.ax.q1 c.ax.q2 j a b) = Y'.B2 (cellAt q1' q2' j' a b) :=
    fun a b ha hb => hY3 a b (by exact_mod_cast ha) (by exact_mod_cast hb) 4
  have y5 : ∀ a b : ℤ, |a| ≤ 3 → |b| ≤ 3 → Y.B3 (cellAt c.ax.q1 c.ax.q2 j a b) = Y'.B3 (cellAt q1' q2' j' a b) :=
    fun a b ha hb => hY3 a b (by exact_mod_cast ha) (by exact_mod_cast hb) 5
  have dn : ∀ s (a b : ℤ), |a| ≤ 3 → |b| ≤ 3 → density c.coords c.measure f s (cellAt c.ax.q1 c.ax.q2 j a b) =
      density c.coords c.measure f' s (cellAt q1' q2' j' a b) := fun s a b ha hb => by
    have : ∀ s p, f s p (cellAt c.ax.q1 c.ax.q2 j a b) = f' s p (cellAt q1' q2' j' a b) := hf3 a b (by exact_mod_cast ha) (by exact_mod_cast hb)
    simp only [density, integralOverV, this]
  have z := cellAt_zero c.ax.q1 c.ax.q2 j
  have z' := cellAt_zero q1' q2' j'
  rw [← z, ← z'] at fL fB f0
  have dL : ∀ s, density c.coords c.measure (faceLeft c.ax m Cq1 f) s (cellAt c.ax.q1 c.ax.q2 j 0 0) =
      density c.coords c.measure (faceLeft (c.onGrid q1' q2').ax m Cq1' f') s (cellAt q1' q2' j' 0 0) := fun s => by
    simp only [density, integralOverV, fL]
  have dB : ∀ s, density c.coords c.measure (faceBot c.ax m Cq2 f) s (cellAt c.ax.q1 c.ax.q2 j 0 0) =
      density c.coords c.measure (faceBot (c.onGrid q1' q2').ax m Cq2' f') s (cellAt q1' q2' j' 0 0) := fun s => by
    simp only [density, integralOverV, fB]
  have v1B : ∀ s, momV1 c.coords c.measure (faceBot c.ax m Cq2 f) s (cellAt c.ax.q1 c.ax.q2 j 0 0) =
      momV1 c.coords c.measure (faceBot (c.onGrid q1' q2').ax m Cq2' f') s (cellAt q1' q2' j' 0 0) := fun s => by
    simp only [momV1, integralOverV, fB]
  have v3B : ∀ s, momV3 c.coords c.measure (faceBot c.ax m Cq2 f) s (cellAt c.ax.q1 c.ax.q2 j 0 0) =
      momV3 c.coords c.measure (faceBot (c.onGrid q1' q2').ax m Cq2' f') s (cellAt q1' q2' j' 0 0) := fun s => by
    simp only [momV3, integralOverV, fB]
  have v2L : ∀ s, momV2 c.coords c.measure (faceLeft c.ax m Cq1 f) s (cellAt c.ax.q1 c.ax.q2 j 0 0) =
      momV2 c.coords c.measure (faceLeft (c.onGrid q1' q2').ax m Cq1' f') s (cellAt q1' q2' j' 0 0) := fun s => by
    simp only [momV2, integralOverV, fL]
  have v3L : ∀ s, momV3 c.coords c.measure (faceLeft c.ax m Cq1 f) s (cellAt c.ax.q1 c.ax.q2 j 0 0) =
      momV3 c.coords c.measure (faceLeft (c.onGrid q1' q2').ax m Cq1' f') s (cellAt q1' q2' j' 0 0) := fun s => by
    simp only [momV3, integralOverV, fL]
  have v1 : ∀ s, momV1 c.coords c.measure f s (cellAt c.ax.q1 c.ax.q2 j 0 0) = momV1 c.coords c.measure f' s (cellAt q1' q2' j' 0 0) := fun s => by
    simp only [momV1, integralOverV, f0]
  have v2 : ∀ s, momV2 c.coords c.measure f s (cellAt c.ax.q1 c.ax.q2 j 0 0) = momV2 c.coords c.measure f' s (cellAt q1' q2' j' 0 0) := fun s => by
    simp only [momV2, integralOverV, f0]
  intro E E'
  rw [← z, ← z']
  simp only [E, E', hybridFields, curlB1, curlB2, curlB3, CoupledConfig.fieldParams, CoupledConfig.onGrid, afShift_cellAt1, afShift_cellAt2]
  simp only [CoupledConfig.onGrid] at dL dB v1B v3B v2L v3L
  refine ⟨?_, ?_, ?_⟩
  · simp [dL, dB, dn, v2L, v3L, y3, y4, y5]
  · simp [dL, dB, dn, v1B, v3B, y3, y4, y5]
  · simp [dn, v1, v2, y3, y4, y5]

theorem fieldUpdate_local {c : CoupledConfig S P Q K} {r : ℕ} (h1 : 1 ≤ r) (h3 : c.hybrid = true → 3 ≤ r)
    (hm : ∀ m, reconMethod c.reconstructionInQ = .ok m → m.radius ≤ r) {cb : CoupledCallbacks S P Q K} {cb' : CoupledCallbacks S P Q' K}
    {hyb : S} {dt : K} {f : Dist S P Q K} {f' : Dist S P Q' K} {σ σ1 : FieldState Q K} {τ τ1 : FieldState Q' K} (href : SameRefs σ τ)
    (h : FieldUpdate c cb hyb dt f f σ σ1) (h' : FieldUpdate (c.onGrid q1' q2') cb' hyb dt f' f' τ τ1) {e : ℕ} (he : σ.flag = false → 1 ≤ e)
    {j : Q} {j' : Q'} (hst : Around c.ax.q1 c.ax.q2 q1' q2' (e + r) j j' (SameStateAt (f, σ) (f', τ)))
    (hcb : Around c.ax.q1 c.ax.q2 q1' q2' (e + r) j j' (CallbacksAt cb cb')) :
    SameRefs σ1 τ1 ∧ SameAt σ1.yee j τ1.yee j' ∧ ∀ o, SameAt (σ1.heap o) j (τ1.heap o) j' := by
  rcases h with ⟨a1, a2, a3, m, hm1, h⟩ | ⟨a, rfl⟩ <;> rcases h' with ⟨b1, b2, b3, m', hm', h'⟩ | ⟨b, rfl⟩
  · have e1 : (c.onGrid q1' q2').reconstructionInQ = c.reconstructionInQ := rfl
    rw [e1, hm1, Except.ok.injEq] at hm'
    subst hm'
    have hmr := hm m hm1
    have he1 : 1 + r ≤ e + r := Nat.add_le_add_right (he a2) r
    replace hst := hst.mono he1
    replace hcb := hcb.mono he1
    have eh : (c.onGrid q1' q2').hybrid = c.hybrid := rfl
    have ef : (c.onGrid q1' q2').fieldParams = c.fieldParams.onGrid q1' q2' := rfl
    rw [eh, ef] at h'
    rcases h with ⟨hh, x, rfl, h⟩ | ⟨hh, h⟩ <;> rcases h' with ⟨hh', x', rfl, h'⟩ | ⟨hh', h'⟩
    · refine evolve_local h h' href hst.at0.heap ?_
      intro F F' hF hF'
      rcases evolveE_ok hF with ⟨_, rfl⟩ | ⟨d, _⟩
      · rcases evolveE_ok hF' with ⟨_, rfl⟩ | ⟨d, _⟩
        · refine (hst.and hcb).step (fun l l' hl => ?_)
          obtain ⟨E1, E2, E3⟩ := hybrid_local (hyb := hyb) hmr (h3 hh) (hl.imp fun _ _ x => x.1.f) hl.at0.2.q1 hl.at0.2.q2 (hl.imp fun _ _ x => x.1.yee)
          have y := hl.at0.1.yee
          intro k
          have y' := y k
          fin_cases k <;> first | exact E1 | exact E2 | exact E3 | exact y'
        · exact absurd (show c.hybrid = false from d) (by rw [hh]; decide)
      · exact absurd (show c.hybrid = false from d) (by rw [hh]; decide)
    · rw [hh] at hh'; exact absurd hh' (by decide)
    · rw [hh] at hh'; exact absurd hh' (by decide)
    · refine evolve_local h h' href hst.at0.heap ?_
      intro F F' hF hF'
      rcases evolveE_ok hF with ⟨d, _⟩ | ⟨_, rfl⟩
      · exact absurd (show c.hybrid = true from d) (by rw [hh]; decide)
      · rcases evolveE_ok hF' with ⟨d, _⟩ | ⟨_, rfl⟩
        · exact absurd (show c.hybrid = true from d) (by rw [hh]; decide)
        · refine (hst.and hcb).step (fun l l' hl => ?_)
          exact addCurlB_local (pr := c.fieldParams) ((hl.mono h1).imp fun _ _ x => x.1.yee)
            (kinetic_local hmr (hl.imp fun _ _ x => x.1.f) hl.at0.2.q1 hl.at0.2.q2) dt
  · exact absurd ⟨a1, href.2.2.2 ▸ a2⟩ b
  · exact absurd ⟨b1, href.2.2.2.symm ▸ b2⟩ a
  · exact ⟨href, hst.at0.yee, hst.at0.heap⟩

theorem getFields_local {fs sp : String} {σ : FieldState Q K} {τ : FieldState Q' K} (href : SameRefs σ τ) {j : Q} {j' : Q'}
    (h : ∀ o, SameAt (σ.heap o) j (τ.heap o) j') : SameAt (getFields fs sp σ).1 j (getFields fs sp τ).1 j' := by
  obtain ⟨a, b, c, d⟩ := href
  simp only [getFields, a, b, c, d]
  split_ifs <;> exact h _

theorem SameRefs.setFlag {σ : FieldState Q K} {τ : FieldState Q' K} (h : SameRefs σ τ) (b : Bool) (b' : Bool) (hb : b = b') :
    SameRefs { σ with flag := b } { τ with flag := b' } := ⟨h.1, h.2.1, h.2.2.1, hb⟩

theorem fieldUpdate_flag {c : CoupledConfig S P Q K} {cb : CoupledCallbacks S P Q K} {hyb : S} {dt : K} {selff f : Dist S P Q K}
    {σ σ1 : FieldState Q K} (h : FieldUpdate c cb hyb dt selff f σ σ1) : σ1.flag = σ.flag := by
  rcases h with ⟨_, _, _, m, _, ⟨_, x, rfl, h⟩ | ⟨_, h⟩⟩ | ⟨_, rfl⟩
  · exact (evolveElectrodynamic_ok h).2.1
  · exact (evolveElectrodynamic_ok h).2.1
  · rfl

/-- One evaluation of the slope: what it computes in a cell depends on the `r` cells around it, one more if the fields are advanced. -/
theorem slopeCoupled_local {c : CoupledConfig S P Q K} (hes : ¬ (c.fieldsType = "electrostatic" ∧ c.fieldsSolver = "fft")) {r : ℕ} (h1 : 1 ≤ r)
    (h3 : c.hybrid = true → 3 ≤ r) (hm : ∀ m, reconMethod c.reconstructionInQ = .ok m → m.radius ≤ r) {poisson poisson'}
    {cb : CoupledCallbacks S P Q K} {cb' : CoupledCallbacks S P Q' K} {hyb : S} {dt : K} {f : Dist S P Q K} {f' : Dist S P Q' K}
    {σ : FieldState Q K} {τ : FieldState Q' K} (href : SameRefs σ τ) {res : Dist S P Q K × FieldState Q K} {res' : Dist S P Q' K × FieldState Q' K}
    (h : dfdtCoupled c poisson cb hyb dt f f σ = .ok res) (h' : dfdtCoupled (c.onGrid q1' q2') poisson' cb' hyb dt f' f' τ = .ok res')
    {e : ℕ} (he : c.solverMethodInP = "FVM" ∧ c.fieldsEnabled = true → σ.flag = false → 1 ≤ e) {j : Q} {j' : Q'}
    (hst : Around c.ax.q1 c.ax.q2 q1' q2' (e + r) j j' (SameStateAt (f, σ) (f', τ)))
    (hcb : Around c.ax.q1 c.ax.q2 q1' q2' (e + r) j j' (CallbacksAt cb cb')) :
    SameRefs res.2 res'.2 ∧ SameStateAt res res' j j' ∧
      (c.solverMethodInP = "FVM" ∧ c.fieldsEnabled = true → res.2.flag = !σ.flag) := by
  have le : r ≤ e + r := Nat.le_add_left _ _
  by_cases hp : c.solverMethodInP = "FVM" ∧ c.fieldsEnabled = true
  · obtain ⟨σ1, σ2, hup, e2, e3, hk⟩ := dfdtCoupled_ok hp h
    obtain ⟨τ1, τ2, hup', e2', e3', hk'⟩ := dfdtCoupled_ok (c := c.onGrid q1' q2') hp h'
    rw [if_neg hes] at e2
    rw [if_neg (show ¬ ((c.onGrid q1' q2').fieldsType = "electrostatic" ∧ (c.onGrid q1' q2').fieldsSolver = "fft") from hes)] at e2'
    subst e2 e2'
    obtain ⟨hr, hy, hh⟩ := fieldUpdate_local h1 h3 hm href hup hup' (he hp) hst hcb
    have hr' : SameRefs { σ2 with flag := !σ2.flag } { τ2 with flag := !τ2.flag } := hr.setFlag _ _ (by rw [hr.2.2.2])
    have c0 := hcb.at0
    refine ⟨by rw [e3, e3']; exact hr', ⟨?_, by rw [e3, e3']; exact hy, by rw [e3, e3']; exact hh⟩, fun _ => by rw [e3, ← fieldUpdate_flag hup]⟩
    refine slope_local (ax := c.ax) (ax' := (c.onGrid q1' q2').ax) ⟨rfl, rfl, rfl⟩ h1 hm hk hk' ((hst.mono le).imp fun _ _ x => x.f)
      ((hcb.mono le).imp fun _ _ x => ⟨x.q1, x.q2⟩) ?_ ?_ ?_ (c0.src _ _ hst.at0.f)
    · exact c0.p1 _ _ (getFields_local hr hh)
    · exact c0.p2 _ _ (getFields_local hr' hh)
    · exact c0.p3 _ _ (getFields_local hr hh)
  · simp only [dfdtCoupled, if_neg hp, bind, Except.bind, pure, Except.pure] at h
    have hp' : ¬ ((c.onGrid q1' q2').solverMethodInP = "FVM" ∧ (c.onGrid q1' q2').fieldsEnabled = true) := hp
    simp only [dfdtCoupled, if_neg hp', bind, Except.bind, pure, Except.pure] at h'
    split at h
    · cases h
    · rename_i k hk
      split at h'
      · cases h'
      · rename_i k' hk'
        simp only [Except.ok.injEq] at h h'
        subst h h'
        refine ⟨href, ⟨?_, hst.at0.yee, hst.at0.heap⟩, fun x => absurd x hp⟩
        exact slope_local (ax := c.ax) (ax' := (c.onGrid q1' q2').ax) ⟨rfl, rfl, rfl⟩ h1 hm hk hk' ((hst.mono le).imp fun _ _ x => x.f)
          ((hcb.mono le).imp fun _ _ x => ⟨x.q1, x.q2⟩) (fun _ _ => rfl) (fun _ _ => rfl) (fun _ _ => rfl) (hcb.at0.src _ _ hst.at0.f)

/-- One step. -/
theorem step_local {c : CoupledConfig S P Q K} (hes : ¬ (c.fieldsType = "electrostatic" ∧ c.fieldsSolver = "fft")) {r : ℕ} (h1 : 1 ≤ r)
    (h3 : c.hybrid = true → 3 ≤ r) (hm : ∀ m, reconMethod c.reconstructionInQ = .ok m → m.radius ≤ r) {poisson poisson'}
    {cb : Fin 2 → CoupledCallbacks S P Q K} {cb' : Fin 2 → CoupledCallbacks S P Q' K} {hyb : S} {dt : K} {st res : Dist S P Q K × FieldState Q K}
    {st' res' : Dist S P Q' K × FieldState Q' K} (href : SameRefs st.2 st'.2) (h : stepCoupled c poisson cb hyb dt st = .ok res)
    (h' : stepCoupled (c.onGrid q1' q2') poisson' cb' hyb dt st' = .ok res') {n : ℕ} {j : Q} {j' : Q'}
    (hst : Around c.ax.q1 c.ax.q2 q1' q2' (n + (2 * r + 1)) j j' (SameStateAt st st'))
    (hcb : ∀ k, Around c.ax.q1 c.ax.q2 q1' q2' (n + (2 * r + 1)) j j' (CallbacksAt (cb k) (cb' k))) :
    SameRefs res.2 res'.2 ∧ Around c.ax.q1 c.ax.q2 q1' q2' n j j' (SameStateAt res res') := by
  simp only [stepCoupled, bind, Except.bind, pure, Except.pure] at h h'
  cases k0 : dfdtCoupled c poisson (cb 0) hyb dt st.1 st.1 st.2 with
  | error e => simp [k0] at h
  | ok r0 =>
  cases k0' : dfdtCoupled (c.onGrid q1' q2') poisson' (cb' 0) hyb dt st'.1 st'.1 st'.2 with
  | error e => simp [k0'] at h'
  | ok r0' =>
  simp only [k0] at h
  simp only [k0'] at h'
  set fh : Dist S P Q K := fun s p q => st.1 s p q + r0.1 s p q * (dt / 2) with hfh
  set fh' : Dist S P Q' K := fun s p q => st'.1 s p q + r0'.1 s p q * (dt / 2) with hfh'
  cases k1 : dfdtCoupled c poisson (cb 1) hyb dt fh fh r0.2 with
  | error e => simp [k1] at h
  | ok r1 =>
  cases k1' : dfdtCoupled (c.onGrid q1' q2') poisson' (cb' 1) hyb dt fh' fh' r0'.2 with
  | error e => simp [k1'] at h'
  | ok r1' =>
  simp only [k1, Except.ok.injEq] at h
  simp only [k1', Except.ok.injEq] at h'
  subst h h'
  -- the fields are advanced in exactly one of the two slopes
  obtain ⟨e0, e1, hsum, he0, he1⟩ : ∃ e0 e1 : ℕ, e0 + e1 = 1 ∧
      (c.solverMethodInP = "FVM" ∧ c.fieldsEnabled = true → st.2.flag = false → 1 ≤ e0) ∧
      (c.solverMethodInP = "FVM" ∧ c.fieldsEnabled = true → st.2.flag = true → 1 ≤ e1) := by
    cases hfl : st.2.flag
    · exact ⟨1, 0, rfl, fun _ _ => le_rfl, fun _ x => absurd x (by decide)⟩
    · exact ⟨0, 1, rfl, fun _ x => absurd x (by decide), fun _ _ => le_rfl⟩
  have both := (hst.and ((hcb 0).and (hcb 1)))
  have sl0 : ∀ {l : Q} {l' : Q'}, Around c.ax.q1 c.ax.q2 q1' q2' (e0 + r) l l' (fun j j' => SameStateAt st st' j j' ∧
      CallbacksAt (cb 0) (cb' 0) j j' ∧ CallbacksAt (cb 1) (cb' 1) j j') → _ := fun {l l'} hl =>
    slopeCoupled_local hes h1 h3 hm (f := st.1) (f' := st'.1) href k0 k0' he0 (hl.imp fun _ _ x => x.1) (hl.imp fun _ _ x => x.2.1)
  have g0 := sl0 (both.mono (show e0 + r ≤ n + (2 * r + 1) by omega))
  have mid : Around c.ax.q1 c.ax.q2 q1' q2' (n + (e1 + r)) j j' (fun j j' => SameStateAt (fh, r0.2) (fh', r0'.2) j j' ∧
      CallbacksAt (cb 1) (cb' 1) j j' ∧ SameStateAt st st' j j') := by
    have e : n + (2 * r + 1) = n + (e1 + r) + (e0 + r) := by omega
    rw [e] at both
    refine both.step (fun l l' hl => ?_)
    have q := (sl0 hl).2.1
    have s0 := hl.at0.1
    exact ⟨⟨fun s p => by simp only [hfh, hfh', s0.f s p, q.f s p], q.yee, q.heap⟩, hl.at0.2.2, s0⟩
  have he1' : c.solverMethodInP = "FVM" ∧ c.fieldsEnabled = true → r0.2.flag = false → 1 ≤ e1 := fun hp hf => by
    refine he1 hp ?_
    have := g0.2.2 hp
    rw [hf] at this
    simpa using this.symm
  have sl1 : ∀ {l : Q} {l' : Q'}, Around c.ax.q1 c.ax.q2 q1' q2' (e1 + r) l l' (fun j j' => SameStateAt (fh, r0.2) (fh', r0'.2) j j' ∧
      CallbacksAt (cb 1) (cb' 1) j j' ∧ SameStateAt st st' j j') → _ := fun {l l'} hl =>
    slopeCoupled_local hes h1 h3 hm (f := fh) (f' := fh') g0.1 k1 k1' he1' (hl.imp fun _ _ x => x.1) (hl.imp fun _ _ x => x.2.1)
  refine ⟨(sl1 (mid.mono (Nat.le_add_left _ _))).1, mid.step (fun l l' hl => ?_)⟩
  have q := (sl1 hl).2.1
  exact ⟨fun s p => by simp only [hl.at0.2.2.f s p, q.f s p], q.yee, q.heap⟩

end coupled

end Bolt
