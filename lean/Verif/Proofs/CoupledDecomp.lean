import Verif.Spec.CoupledDecomp
import Verif.Proofs.Coupled
import Verif.Props.Boundaries

/-! Helper lemmas for coupled runs on several processes. -/

set_option linter.unusedSectionVars false

namespace Bolt

/-- The offset `(a, b)` in a two-dimensional index group. -/
def off {A B : ℕ} (a b : ℤ) : ZMod A × ZMod B := ((a : ZMod A), (b : ZMod B))

theorem off_add {A B : ℕ} (i : ZMod A × ZMod B) (a b c d : ℤ) : i + off a b + off c d = i + off (a + c) (b + d) := by
  ext <;> simp [off, add_assoc]

theorem add_off_zero {A B : ℕ} (i : ZMod A × ZMod B) : i + off 0 0 = i := by ext <;> simp [off]

theorem afShift_q1 {A B : ℕ} {α : Type} (k : ℤ) (x : ZMod A × ZMod B → α) (i : ZMod A × ZMod B) :
    afShift ((1, 0) : ZMod A × ZMod B) k x i = x (i + off (-k) 0) := by
  rw [afShift]; congr 1; ext <;> simp [off, sub_eq_add_neg]

theorem afShift_q2 {A B : ℕ} {α : Type} (k : ℤ) (x : ZMod A × ZMod B → α) (i : ZMod A × ZMod B) :
    afShift ((0, 1) : ZMod A × ZMod B) k x i = x (i + off 0 (-k)) := by
  rw [afShift]; congr 1; ext <;> simp [off, sub_eq_add_neg]

namespace Decomp

variable {N1 N2 : ℕ} {R : Type} (D : Decomp N1 N2 R) (g1 g2 : ℕ) {S P K : Type} [NeZero N1] [NeZero N2]

/-- Within reach of the ghost zones, local and global neighbours correspond. -/
theorem toGlob_off (n : ℕ) (h1 : n ≤ g1 ∨ (g1 = 0 ∧ N1 = 1)) (h2 : n ≤ g2 ∨ (g2 = 0 ∧ N2 = 1)) (r : R) (l : D.Loc g1 g2 r)
    (h : D.Interior g1 g2 r l) (a b : ℤ) (ha : |a| ≤ n) (hb : |b| ≤ n) :
    D.toGlob g1 g2 r (l + off a b) = D.toGlob g1 g2 r l + off a b := by
  obtain ⟨⟨p, q⟩, u, v⟩ := h
  rw [abs_le] at ha hb
  simp only [toGlob, off, Prod.fst_add, Prod.snd_add, Prod.mk_add_mk, Prod.mk.injEq]
  constructor
  · rcases h1 with h1 | ⟨-, rfl⟩
    · rw [cast_globCoord_add _ a (by omega) (by push_cast; omega)]
    · exact Subsingleton.elim _ _
  · rcases h2 with h2 | ⟨-, rfl⟩
    · rw [cast_globCoord_add _ b (by omega) (by push_cast; omega)]
    · exact Subsingleton.elim _ _

/-! ## communication -/

theorem exchange_wrap (o : BCOptions) (bc1 bc2 : PetscBC) (h1 : PeriodicEnds (o.name .left) (o.name .right) N1)
    (h2 : PeriodicEnds (o.name .bottom) (o.name .top) N2) (b1 : (o.name .left = "periodic" → bc1 = .periodic))
    (b1' : o.name .left = "none" → g1 = 0) (b2 : (o.name .bottom = "periodic" → bc2 = .periodic)) (b2' : o.name .bottom = "none" → g2 = 0)
    (st F : ∀ r, Dist S P (D.Loc g1 g2 r) K) (r : R) (s : S) (p : P) (l : D.Loc g1 g2 r) :
    D.exchange g1 g2 bc1 bc2 st F r s p l = D.assemble g1 g2 F s p (D.toGlob g1 g2 r l) := by
  rw [exchange, if_pos]
  have hl1 := ZMod.val_lt l.1
  have hl2 := ZMod.val_lt l.2
  have hf1 := D.fits1 r
  have hf2 := D.fits2 r
  constructor
  · rcases h1 with ⟨h, -⟩ | ⟨h, -, hN⟩
    · exact Or.inl (b1 h)
    · have := b1' h
      exact Or.inr ⟨by rw [globCoord]; omega, by rw [globCoord]; omega⟩
  · rcases h2 with ⟨h, -⟩ | ⟨h, -, hN⟩
    · exact Or.inl (b2 h)
    · have := b2' h
      exact Or.inr ⟨by rw [globCoord]; omega, by rw [globCoord]; omega⟩

variable {Np1 Np2 Np3 : ℕ}

/-- Synchronising the distribution on a periodic domain. -/
theorem synced_wrap [Zero K] [LinearOrder K] {o : BCOptions} (h1 : PeriodicEnds (o.name .left) (o.name .right) N1)
    (h2 : PeriodicEnds (o.name .bottom) (o.name .top) N2) {dat : ∀ r, D.LocBCData g1 g2 r S Np1 Np2 Np3 K}
    {F F0 : ∀ r, Dist S (PIdx Np1 Np2 Np3) (D.Loc g1 g2 r) K} (h : D.Synced g1 g2 o dat F F0) (r : R) (s : S) (p : PIdx Np1 Np2 Np3)
    (l : D.Loc g1 g2 r) : F0 r s p l = D.assemble g1 g2 F s p (D.toGlob g1 g2 r l) := by
  obtain ⟨bc1, bc2, stale, hs, hb⟩ := h
  obtain ⟨f1, f2, f3, w1, w2, w3, w4⟩ := applyBcsF_ok (hb r)
  have skip : ∀ w f f', (o.name w = "periodic" ∨ o.name w = "none") → atWall (D.bcEnv g1 g2 o r (dat r)) w f = .ok f' → f' = f := by
    intro w f f' hw h
    unfold atWall at h
    split_ifs at h
    · have : (D.bcEnv g1 g2 o r (dat r)).name w = o.name w := rfl
      rcases hw with hw | hw <;> simp [applyWall, this, hw] at h <;> exact h.symm
    · simp only [Except.ok.injEq] at h; exact h.symm
  have n1 : (o.name .left = "periodic" ∨ o.name .left = "none") ∧ (o.name .right = "periodic" ∨ o.name .right = "none") := by
    rcases h1 with ⟨a, b⟩ | ⟨a, b, -⟩ <;> simp [a, b]
  have n2 : (o.name .bottom = "periodic" ∨ o.name .bottom = "none") ∧ (o.name .top = "periodic" ∨ o.name .top = "none") := by
    rcases h2 with ⟨a, b⟩ | ⟨a, b, -⟩ <;> simp [a, b]
  have e1 := skip _ _ _ n1.1 w1
  have e2 := skip _ _ _ n1.2 w2
  have e3 := skip _ _ _ n2.1 w3
  have e4 := skip _ _ _ n2.2 w4
  rw [e4, e3, e2, e1]
  unfold setupBCs at hs
  split_ifs at hs
  simp only [Except.ok.injEq, Prod.mk.injEq, petscAxis] at hs
  obtain ⟨p1, p2⟩ := hs
  refine exchange_wrap D g1 g2 o bc1 bc2 h1 h2 ?_ ?_ ?_ ?_ stale F r s p l
  · intro h; simp [h] at p1; exact p1.1.symm
  · intro h; simp [h] at p1; exact p1.2.symm
  · intro h; simp [h] at p2; exact p2.1.symm
  · intro h; simp [h] at p2; exact p2.2.symm

/-- The fields held by the bulks, on the whole grid. -/
def assembleEM (F : ∀ r, EM (D.Loc g1 g2 r) K) : EM (ZMod N1 × ZMod N2) K :=
  let a := fun x : ∀ r, D.Loc g1 g2 r → K => D.assemble g1 g2 (S := Unit) (P := Unit) (fun r _ _ => x r) () ()
  ⟨a fun r => (F r).E1, a fun r => (F r).E2, a fun r => (F r).E3, a fun r => (F r).B1, a fun r => (F r).B2, a fun r => (F r).B3⟩

theorem assembleEM_comp (F : ∀ r, EM (D.Loc g1 g2 r) K) (c : Fin 6) :
    (D.assembleEM g1 g2 F).comp c = D.assemble g1 g2 (S := Unit) (P := Unit) (fun r _ _ => (F r).comp c) () () := by
  fin_cases c <;> rfl

theorem emHolds_iff (F : ∀ r, EM (D.Loc g1 g2 r) K) (G : EM (ZMod N1 × ZMod N2) K) :
    (∀ r, D.EMHolds g1 g2 r (F r) G) ↔ D.assembleEM g1 g2 F = G := by
  have key : ∀ c, (∀ r l, D.Interior g1 g2 r l → (F r).comp c l = G.comp c (D.toGlob g1 g2 r l)) ↔
      (D.assembleEM g1 g2 F).comp c = G.comp c := by
    intro c
    rw [assembleEM_comp]
    have := D.holds_iff g1 g2 (S := Unit) (P := Unit) (fun r _ _ => (F r).comp c) (fun _ _ => G.comp c)
    constructor
    · intro h; rw [this.mp (fun r _ _ l hl => h r l hl)]
    · intro h r l hl
      exact this.mpr (by funext _ _ i; exact congrFun h i) r () () l hl
  constructor
  · intro h
    have hc : ∀ c, (D.assembleEM g1 g2 F).comp c = G.comp c := fun c => (key c).mp (fun r l hl => h r c l hl)
    exact EM.ext (hc 0) (hc 1) (hc 2) (hc 3) (hc 4) (hc 5)
  · rintro rfl r c l hl
    exact (key c).mpr rfl r l hl

theorem comp_exchangeEM (bc1 bc2 : PetscBC) (st F : ∀ r, EM (D.Loc g1 g2 r) K) (r : R) (c : Fin 6) :
    (D.exchangeEM g1 g2 bc1 bc2 st F r).comp c =
      D.exchange1 g1 g2 bc1 bc2 (fun r => (st r).comp c) (fun r => (F r).comp c) r := by
  fin_cases c <;> rfl

/-- Communicating the fields on a periodic domain. -/
theorem sent_wrap {o : BCOptions} (h1 : PeriodicEnds (o.name .left) (o.name .right) N1)
    (h2 : PeriodicEnds (o.name .bottom) (o.name .top) N2) {F F0 : ∀ r, EM (D.Loc g1 g2 r) K} (h : D.SentFields g1 g2 o F F0) (r : R)
    (c : Fin 6) (l : D.Loc g1 g2 r) : (F0 r).comp c l = (D.assembleEM g1 g2 F).comp c (D.toGlob g1 g2 r l) := by
  obtain ⟨bc1, bc2, stale, ⟨p1, p2⟩, rfl⟩ := h
  rw [comp_exchangeEM, assembleEM_comp, exchange1]
  simp only [petscAxisFields] at p1 p2
  refine exchange_wrap D g1 g2 o bc1 bc2 h1 h2 ?_ ?_ ?_ ?_ _ _ r () () l
  · intro h; simp [h] at p1; exact p1.1.symm
  · intro h; simp [h] at p1; exact p1.2.symm
  · intro h; simp [h] at p2; exact p2.1.symm
  · intro h; simp [h] at p2; exact p2.2.symm

theorem applyBcsFields_wrap {M1 M2 : ℕ} (env : FieldBCEnv M1 M2 K) (b : Bool)
    (h : ∀ w, env.name w = "periodic" ∨ env.name w = "none") (F : EM (ZMod M1 × ZMod M2) K) : applyBcsFields env b F = .ok F := by
  have skip : ∀ w F, atWallFields env b w F = .ok F := by
    intro w F
    unfold atWallFields
    split_ifs
    · rcases h w with hw | hw <;> simp [applyWallFields, hw]
    · rfl
  simp only [applyBcsFields, skip, bind, Except.bind]

theorem names_wrap {o : BCOptions} (h1 : PeriodicEnds (o.name .left) (o.name .right) N1)
    (h2 : PeriodicEnds (o.name .bottom) (o.name .top) N2) (w : Wall) : o.name w = "periodic" ∨ o.name w = "none" := by
  rcases h1 with ⟨a, b⟩ | ⟨a, b, -⟩ <;> rcases h2 with ⟨c, d⟩ | ⟨c, d, -⟩ <;> cases w <;> simp [a, b, c, d]

theorem syncedFields_wrap {o : BCOptions} (h1 : PeriodicEnds (o.name .left) (o.name .right) N1)
    (h2 : PeriodicEnds (o.name .bottom) (o.name .top) N2) {user : ∀ r, D.LocFieldBCs g1 g2 r K} {F F0 : ∀ r, EM (D.Loc g1 g2 r) K}
    (h : D.SyncedFields g1 g2 o user F F0) (r : R) (c : Fin 6) (l : D.Loc g1 g2 r) :
    (F0 r).comp c l = (D.assembleEM g1 g2 F).comp c (D.toGlob g1 g2 r l) := by
  obtain ⟨G, hG, hb⟩ := h
  have := hb r
  rw [applyBcsFields_wrap _ _ (fun w => names_wrap h1 h2 w), Except.ok.injEq] at this
  rw [← this]
  exact sent_wrap D g1 g2 h1 h2 hG r c l

/-! ## the field step -/

/-- Local fields that agree everywhere (after communication) with fields on the whole grid. -/
def EMFull (r : R) (F : EM (D.Loc g1 g2 r) K) (G : EM (ZMod N1 × ZMod N2) K) : Prop :=
  ∀ c l, F.comp c l = G.comp c (D.toGlob g1 g2 r l)

/-- Agreement in the box of radius `n` about a local cell. -/
structure EMBox (n : ℕ) (r : R) (F : EM (D.Loc g1 g2 r) K) (G : EM (ZMod N1 × ZMod N2) K) (l : D.Loc g1 g2 r) : Prop where
  E1 : ∀ a b : ℤ, |a| ≤ n → |b| ≤ n → F.E1 (l + off a b) = G.E1 (D.toGlob g1 g2 r l + off a b)
  E2 : ∀ a b : ℤ, |a| ≤ n → |b| ≤ n → F.E2 (l + off a b) = G.E2 (D.toGlob g1 g2 r l + off a b)
  E3 : ∀ a b : ℤ, |a| ≤ n → |b| ≤ n → F.E3 (l + off a b) = G.E3 (D.toGlob g1 g2 r l + off a b)
  B1 : ∀ a b : ℤ, |a| ≤ n → |b| ≤ n → F.B1 (l + off a b) = G.B1 (D.toGlob g1 g2 r l + off a b)
  B2 : ∀ a b : ℤ, |a| ≤ n → |b| ≤ n → F.B2 (l + off a b) = G.B2 (D.toGlob g1 g2 r l + off a b)
  B3 : ∀ a b : ℤ, |a| ≤ n → |b| ≤ n → F.B3 (l + off a b) = G.B3 (D.toGlob g1 g2 r l + off a b)

theorem EMFull.box {D : Decomp N1 N2 R} {g1 g2 : ℕ} {r : R} {F : EM (D.Loc g1 g2 r) K} {G : EM (ZMod N1 × ZMod N2) K}
    (h : D.EMFull g1 g2 r F G) (n : ℕ) (h1 : n ≤ g1 ∨ (g1 = 0 ∧ N1 = 1)) (h2 : n ≤ g2 ∨ (g2 = 0 ∧ N2 = 1)) (l : D.Loc g1 g2 r)
    (hl : D.Interior g1 g2 r l) : D.EMBox g1 g2 n r F G l := by
  have key : ∀ c (a b : ℤ), |a| ≤ n → |b| ≤ n → F.comp c (l + off a b) = G.comp c (D.toGlob g1 g2 r l + off a b) := by
    intro c a b ha hb
    rw [h, toGlob_off D g1 g2 n h1 h2 r l hl a b ha hb]
  exact ⟨key 0, key 1, key 2, key 3, key 4, key 5⟩

theorem EMBox.at0 {D : Decomp N1 N2 R} {g1 g2 : ℕ} {r : R} {F : EM (D.Loc g1 g2 r) K} {G : EM (ZMod N1 × ZMod N2) K}
    {l : D.Loc g1 g2 r} {n : ℕ} (h : D.EMBox g1 g2 n r F G l) (c : Fin 6) : F.comp c l = G.comp c (D.toGlob g1 g2 r l) := by
  obtain ⟨a, b, c', d, e, f⟩ := h
  have := a 0 0 (by simp) (by simp)
  have := b 0 0 (by simp) (by simp)
  have := c' 0 0 (by simp) (by simp)
  have := d 0 0 (by simp) (by simp)
  have := e 0 0 (by simp) (by simp)
  have := f 0 0 (by simp) (by simp)
  simp only [add_off_zero] at *
  fin_cases c <;> assumption

variable [Field K] [LinearOrder K]

/-- The parameters of the local and of the global field solver correspond. -/
def SameParams (r : R) (pr : FieldParams (D.Loc g1 g2 r) K) (prG : FieldParams (ZMod N1 × ZMod N2) K) : Prop :=
  pr = ⟨(1, 0), (0, 1), prG.dq1, prG.dq2, prG.eps, prG.mu, prG.hybrid⟩ ∧ prG.q1 = (1, 0) ∧ prG.q2 = (0, 1)

theorem addCurlB_box {r : R} {pr : FieldParams (D.Loc g1 g2 r) K} {prG : FieldParams (ZMod N1 × ZMod N2) K}
    (hp : D.SameParams g1 g2 r pr prG) {F : EM (D.Loc g1 g2 r) K} {G : EM (ZMod N1 × ZMod N2) K} {l : D.Loc g1 g2 r}
    (h : D.EMBox g1 g2 1 r F G l) (J : Currents (D.Loc g1 g2 r) K) (JG : Currents (ZMod N1 × ZMod N2) K)
    (hJ : J.J1 l = JG.J1 (D.toGlob g1 g2 r l) ∧ J.J2 l = JG.J2 (D.toGlob g1 g2 r l) ∧ J.J3 l = JG.J3 (D.toGlob g1 g2 r l)) (dt : K)
    (c : Fin 6) : (addCurlB pr J dt F).comp c l = (addCurlB prG JG dt G).comp c (D.toGlob g1 g2 r l) := by
  obtain ⟨rfl, q1, q2⟩ := hp
  have h0 := h.at0
  have e0 := h0 0; have e1 := h0 1; have e2 := h0 2; have e3 := h0 3; have e4 := h0 4; have e5 := h0 5
  simp only [EM.comp] at e0 e1 e2 e3 e4 e5
  obtain ⟨j1, j2, j3⟩ := hJ
  fin_cases c <;> simp [addCurlB, EM.comp, curlB1, curlB2, curlB3, q1, q2, afShift_q1, afShift_q2, e0, e1, e2, e3, e4, e5, j1, j2, j3,
    h.B1, h.B2, h.B3]

theorem evolveB_box {r : R} {pr : FieldParams (D.Loc g1 g2 r) K} {prG : FieldParams (ZMod N1 × ZMod N2) K}
    (hp : D.SameParams g1 g2 r pr prG) {F : EM (D.Loc g1 g2 r) K} {G : EM (ZMod N1 × ZMod N2) K} {l : D.Loc g1 g2 r}
    (h : D.EMBox g1 g2 1 r F G l) (dt : K) (c : Fin 6) :
    (evolveB pr dt F).comp c l = (evolveB prG dt G).comp c (D.toGlob g1 g2 r l) := by
  obtain ⟨rfl, q1, q2⟩ := hp
  have h0 := h.at0
  have e0 := h0 0; have e1 := h0 1; have e2 := h0 2; have e3 := h0 3; have e4 := h0 4; have e5 := h0 5
  simp only [EM.comp] at e0 e1 e2 e3 e4 e5
  fin_cases c <;> simp [evolveB, EM.comp, curlE1, curlE2, curlE3, q1, q2, afShift_q1, afShift_q2, e0, e1, e2, e3, e4, e5,
    h.E1, h.E2, h.E3]

/-- The cell-centred fields computed from the staggered ones after the magnetic update. -/
theorem toCentre_box {r : R} {pr : FieldParams (D.Loc g1 g2 r) K} {prG : FieldParams (ZMod N1 × ZMod N2) K}
    (hp : D.SameParams g1 g2 r pr prG) {F : EM (D.Loc g1 g2 r) K} {G : EM (ZMod N1 × ZMod N2) K} {l : D.Loc g1 g2 r}
    (h : D.EMBox g1 g2 1 r F G l) (dt : K) (C : EM (D.Loc g1 g2 r) K) (CG : EM (ZMod N1 × ZMod N2) K) (c : Fin 6) :
    (toCentre pr.q1 pr.q2 .both (evolveB pr dt F) C).comp c l
      = (toCentre prG.q1 prG.q2 .both (evolveB prG dt G) CG).comp c (D.toGlob g1 g2 r l) := by
  obtain ⟨rfl, q1, q2⟩ := hp
  have h0 := h.at0
  have e0 := h0 0; have e1 := h0 1; have e2 := h0 2; have e3 := h0 3; have e4 := h0 4; have e5 := h0 5
  simp only [EM.comp] at e0 e1 e2 e3 e4 e5
  fin_cases c <;> simp [toCentre, evolveB, EM.comp, curlE1, curlE2, curlE3, q1, q2, afShift_q1, afShift_q2, off_add, add_off_zero,
    e0, e1, e2, e3, e4, e5, h.E1, h.E2, h.E3, h.B1, h.B2, h.B3]

section pointwise
variable {Q Q' : Type} [AddCommGroup Q] [AddCommGroup Q'] {i : Q} {i' : Q'}

/-- Two field arrays have the same values at a cell of each. -/
def SameAt (F : EM Q K) (i : Q) (G : EM Q' K) (i' : Q') : Prop := ∀ c, F.comp c i = G.comp c i'

/-- Two field solvers have the same references and the same cell-centred values at a cell of each. -/
structure StateAt (σ : FieldState Q K) (i : Q) (τ : FieldState Q' K) (i' : Q') : Prop where
  cc : σ.cc = τ.cc
  atN : σ.atN = τ.atN
  atHalf : σ.atHalf = τ.atHalf
  heap : ∀ k, SameAt (σ.heap k) i (τ.heap k) i'

theorem SameAt.avg {F F2 : EM Q K} {G G2 : EM Q' K} (h : SameAt F i G i') (h2 : SameAt F2 i G2 i') :
    SameAt (EM.avg F F2) i (EM.avg G G2) i' := by
  intro c
  have a := h c; have b := h2 c
  fin_cases c <;> simp only [EM.comp, EM.avg] at a b ⊢ <;> simp [a, b]

omit [Field K] [LinearOrder K] in
theorem SameAt.mixE {F F2 : EM Q K} {G G2 : EM Q' K} (h : SameAt F i G i') (h2 : SameAt F2 i G2 i') :
    SameAt { F with E1 := F2.E1, E2 := F2.E2, E3 := F2.E3 } i { G with E1 := G2.E1, E2 := G2.E2, E3 := G2.E3 } i' := by
  intro c
  have a := h c; have b := h2 c
  fin_cases c <;> first | exact a | exact b

omit [Field K] [LinearOrder K] in
theorem SameAt.mixB {F F2 : EM Q K} {G G2 : EM Q' K} (h : SameAt F i G i') (h2 : SameAt F2 i G2 i') :
    SameAt { F with B1 := F2.B1, B2 := F2.B2, B3 := F2.B3 } i { G with B1 := G2.B1, B2 := G2.B2, B3 := G2.B3 } i' := by
  intro c
  have a := h c; have b := h2 c
  fin_cases c <;> first | exact a | exact b

omit [Field K] [LinearOrder K] in
theorem StateAt.writeE {σ : FieldState Q K} {τ : FieldState Q' K} (h : StateAt σ i τ i') {o o' : Fin 3} (ho : o = o') {F : EM Q K}
    {G : EM Q' K} (hF : SameAt F i G i') : StateAt (σ.writeE o F) i (τ.writeE o' G) i' := by
  subst ho
  refine ⟨h.cc, h.atN, h.atHalf, fun k => ?_⟩
  simp only [FieldState.writeE]
  split_ifs
  · exact (h.heap _).mixE hF
  · exact h.heap k

omit [Field K] [LinearOrder K] in
theorem StateAt.writeB {σ : FieldState Q K} {τ : FieldState Q' K} (h : StateAt σ i τ i') {o o' : Fin 3} (ho : o = o') {F : EM Q K}
    {G : EM Q' K} (hF : SameAt F i G i') : StateAt (σ.writeB o F) i (τ.writeB o' G) i' := by
  subst ho
  refine ⟨h.cc, h.atN, h.atHalf, fun k => ?_⟩
  simp only [FieldState.writeB]
  split_ifs
  · exact (h.heap _).mixB hF
  · exact h.heap k

omit [Field K] [LinearOrder K] in
theorem StateAt.ofEq {σ : FieldState Q K} {τ : FieldState Q' K} (h : StateAt σ i τ i') {o o' : Fin 3} (ho : o = o') :
    SameAt (σ.heap o) i (τ.heap o') i' := ho ▸ h.heap o

theorem StateAt.store {σ : FieldState Q K} {τ : FieldState Q' K} (h : StateAt σ i τ i') (pr : FieldParams Q K) (pr' : FieldParams Q' K)
    (dt : K) (Y : EM Q K) (Y' : EM Q' K)
    (hY : ∀ C C', SameAt (toCentre pr.q1 pr.q2 .both Y C) i (toCentre pr'.q1 pr'.q2 .both Y' C') i') :
    StateAt (storeFields pr dt Y σ) i (storeFields pr' dt Y' τ) i' := by
  have h1 := h.writeE h.atN (h.ofEq h.cc)
  have h2 := h1.writeB h1.atN ((h1.ofEq h1.atHalf).avg (h1.ofEq h1.cc))
  have h3 := h2.writeB h2.atHalf (h1.ofEq h1.cc)
  generalize hs : ((σ.writeE σ.atN (σ.heap σ.cc)).writeB (σ.writeE σ.atN (σ.heap σ.cc)).atN
    (EM.avg ((σ.writeE σ.atN (σ.heap σ.cc)).heap (σ.writeE σ.atN (σ.heap σ.cc)).atHalf)
      ((σ.writeE σ.atN (σ.heap σ.cc)).heap (σ.writeE σ.atN (σ.heap σ.cc)).cc))).writeB _ _ = s3 at h3
  generalize ht : ((τ.writeE τ.atN (τ.heap τ.cc)).writeB (τ.writeE τ.atN (τ.heap τ.cc)).atN
    (EM.avg ((τ.writeE τ.atN (τ.heap τ.cc)).heap (τ.writeE τ.atN (τ.heap τ.cc)).atHalf)
      ((τ.writeE τ.atN (τ.heap τ.cc)).heap (τ.writeE τ.atN (τ.heap τ.cc)).cc))).writeB _ _ = t3 at h3
  have h4 : StateAt ({ s3 with
        yee := Y
        heap := fun k => if k = s3.cc then toCentre pr.q1 pr.q2 .both Y (s3.heap s3.cc) else s3.heap k } : FieldState Q K) i
      ({ t3 with
        yee := Y'
        heap := fun k => if k = t3.cc then toCentre pr'.q1 pr'.q2 .both Y' (t3.heap t3.cc) else t3.heap k } : FieldState Q' K) i' := by
    refine ⟨h3.cc, h3.atN, h3.atHalf, fun k => ?_⟩
    simp only [h3.cc]
    split_ifs
    · exact hY _ _
    · exact h3.heap k
  have h5 := h4.writeE h4.atHalf ((h.ofEq h.cc).avg (h4.ofEq h4.cc))
  subst hs ht
  exact ⟨h5.cc, h5.atN, h5.atHalf, h5.heap⟩

theorem storeFields_rest (pr : FieldParams Q K) (dt : K) (Y : EM Q K) (σ : FieldState Q K) :
    (storeFields pr dt Y σ).yee = Y ∧ (storeFields pr dt Y σ).flag = σ.flag ∧
      (storeFields pr dt Y σ).timeElapsed = σ.timeElapsed + dt ∧ (storeFields pr dt Y σ).cc = σ.cc ∧
      (storeFields pr dt Y σ).atN = σ.atN ∧ (storeFields pr dt Y σ).atHalf = σ.atHalf := ⟨rfl, rfl, rfl, rfl, rfl, rfl⟩

end pointwise

/-- One field update on all processes is one field update on the whole grid. -/
theorem evolve_agrees [∀ r, Fintype (D.Loc g1 g2 r)] [Fintype (ZMod N1 × ZMod N2)] {o : BCOptions}
    (h1 : PeriodicEnds (o.name .left) (o.name .right) N1) (h2 : PeriodicEnds (o.name .bottom) (o.name .top) N2)
    (k1 : 1 ≤ g1 ∨ (g1 = 0 ∧ N1 = 1)) (k2 : 1 ≤ g2 ∨ (g2 = 0 ∧ N2 = 1)) {user : ∀ r, D.LocFieldBCs g1 g2 r K}
    {pr : ∀ r, FieldParams (D.Loc g1 g2 r) K} {prG : FieldParams (ZMod N1 × ZMod N2) K} (hp : ∀ r, D.SameParams g1 g2 r (pr r) prG)
    {J : ∀ r, Currents (D.Loc g1 g2 r) K} {JG : Currents (ZMod N1 × ZMod N2) K} {dt : K} {σ σ' : ∀ r, FieldState (D.Loc g1 g2 r) K}
    {τ τ' : FieldState (ZMod N1 × ZMod N2) K} (hJ : prG.hybrid = false → ∀ r l, D.Interior g1 g2 r l →
      (J r).J1 l = JG.J1 (D.toGlob g1 g2 r l) ∧ (J r).J2 l = JG.J2 (D.toGlob g1 g2 r l) ∧ (J r).J3 l = JG.J3 (D.toGlob g1 g2 r l))
    (hσ : D.FieldsHold g1 g2 σ τ) (h : D.EvolveFields g1 g2 o user pr J dt σ σ')
    (h' : evolveElectrodynamic prG id JG dt τ = .ok τ') : D.FieldsHold g1 g2 σ' τ' := by
  obtain ⟨Y', ⟨Y0, Y1, Y2, s0, e1, s2, e2⟩, hs⟩ := h
  simp only [evolveElectrodynamic, bind, Except.bind, pure, Except.pure] at h'
  cases hf : fdtd prG id JG dt τ.yee with
  | error e => simp [hf] at h'
  | ok Z =>
    simp only [hf, Except.ok.injEq] at h'
    subst h'
    obtain ⟨Z1, z1, rfl⟩ := fdtd_ok hf
    simp only [id_eq] at z1 ⊢
    have y0 : ∀ r, D.EMFull g1 g2 r (Y0 r) τ.yee := fun r c l => by
      rw [syncedFields_wrap D g1 g2 h1 h2 s0 r c l, (D.emHolds_iff g1 g2 _ _).mp hσ.yee]
    have y1 : ∀ r, D.EMHolds g1 g2 r (Y1 r) Z1 := by
      intro r c l hl
      have hh : (pr r).hybrid = prG.hybrid := by rw [(hp r).1]
      rcases evolveE_ok (e1 r) with ⟨a, b⟩ | ⟨a, b⟩ <;> rcases evolveE_ok z1 with ⟨a', b'⟩ | ⟨a', b'⟩
      · rw [b, b']; exact y0 r c l
      · rw [hh, a'] at a; exact absurd a (by decide)
      · rw [hh, a'] at a; exact absurd a (by decide)
      · rw [b, b']
        exact addCurlB_box D g1 g2 (hp r) ((y0 r).box 1 k1 k2 l hl) _ _ (hJ a' r l hl) dt c
    have y2 : ∀ r, D.EMFull g1 g2 r (Y2 r) Z1 := fun r c l => by
      rw [syncedFields_wrap D g1 g2 h1 h2 s2 r c l, (D.emHolds_iff g1 g2 _ _).mp y1]
    have st : ∀ r l, D.Interior g1 g2 r l → StateAt (σ' r) l (storeFields prG dt (evolveB prG dt Z1) τ) (D.toGlob g1 g2 r l) := by
      intro r l hl
      rw [hs r, e2 r]
      refine StateAt.store ⟨hσ.cc r, hσ.atN r, hσ.atHalf r, fun k c => hσ.heap r k c l hl⟩ _ _ dt _ _ ?_
      intro C C' c
      exact toCentre_box D g1 g2 (hp r) ((y2 r).box 1 k1 k2 l hl) dt C C' c
    have rest := fun r => storeFields_rest (pr r) dt (Y' r) (σ r)
    have restG := storeFields_rest prG dt (evolveB prG dt Z1) τ
    refine ⟨fun r c l hl => ?_, fun r k c l hl => (st r l hl).heap k c, fun r => ?_, fun r => ?_, fun r => ?_, fun r => ?_, fun r => ?_⟩
    · rw [hs r, (rest r).1, restG.1, e2 r]
      exact evolveB_box D g1 g2 (hp r) ((y2 r).box 1 k1 k2 l hl) dt c
    · rw [hs r, (rest r).2.2.2.1, restG.2.2.2.1]; exact hσ.cc r
    · rw [hs r, (rest r).2.2.2.2.1, restG.2.2.2.2.1]; exact hσ.atN r
    · rw [hs r, (rest r).2.2.2.2.2, restG.2.2.2.2.2]; exact hσ.atHalf r
    · rw [hs r, (rest r).2.1, restG.2.1]; exact hσ.flag r
    · rw [hs r, (rest r).2.2.1, restG.2.2.1, hσ.time r]

/-! ## currents -/

variable [IsStrictOrderedRing K] [AddCommGroup P] [Fintype S] [Fintype P]

section currents
variable {D g1 g2} {c : CoupledConfig S P (ZMod N1 × ZMod N2) K} {r : R} {loc : CoupledCallbacks S P (D.Loc g1 g2 r) K}
  {glob : CoupledCallbacks S P (ZMod N1 × ZMod N2) K} {x : Dist S P (D.Loc g1 g2 r) K} {f : Dist S P (ZMod N1 × ZMod N2) K}
  {l : D.Loc g1 g2 r} {m : Recon}

theorem faceLeft_agrees (q1 : c.ax.q1 = (1, 0)) (h1 : GhostsSuffice m g1 N1) (hcb : D.CoupledAgree g1 g2 r loc glob)
    (hx : ∀ s p l, x s p l = f s p (D.toGlob g1 g2 r l)) (hl : D.Interior g1 g2 r l) (s : S) (p : P) :
    faceLeft (D.locCfg g1 g2 c r).ax m loc.Cq1 x s p l = faceLeft c.ax m glob.Cq1 f s p (D.toGlob g1 g2 r l) := by
  simp only [faceLeft, q1]
  refine leftState_congr m _ _ _ _ _ _ _ _ (hcb.q1 s p l hl).1 (fun k ka kb => ?_)
  rw [hx]
  exact congrArg _ (toGlob_add1 D g1 g2 m h1 r l hl k (by rw [abs_le]; omega))

theorem faceBot_agrees (q2 : c.ax.q2 = (0, 1)) (h2 : GhostsSuffice m g2 N2) (hcb : D.CoupledAgree g1 g2 r loc glob)
    (hx : ∀ s p l, x s p l = f s p (D.toGlob g1 g2 r l)) (hl : D.Interior g1 g2 r l) (s : S) (p : P) :
    faceBot (D.locCfg g1 g2 c r).ax m loc.Cq2 x s p l = faceBot c.ax m glob.Cq2 f s p (D.toGlob g1 g2 r l) := by
  simp only [faceBot, q2]
  refine leftState_congr m _ _ _ _ _ _ _ _ (hcb.q2 s p l hl).1 (fun k ka kb => ?_)
  rw [hx]
  exact congrArg _ (toGlob_add2 D g1 g2 m h2 r l hl k (by rw [abs_le]; omega))

theorem kinetic_agrees (q1 : c.ax.q1 = (1, 0)) (q2 : c.ax.q2 = (0, 1)) (h1 : GhostsSuffice m g1 N1) (h2 : GhostsSuffice m g2 N2)
    (hcb : D.CoupledAgree g1 g2 r loc glob) (hx : ∀ s p l, x s p l = f s p (D.toGlob g1 g2 r l)) (hl : D.Interior g1 g2 r l) :
    let J := kineticCurrents (D.locCfg g1 g2 c r) m loc.Cq1 loc.Cq2 x
    let JG := kineticCurrents c m glob.Cq1 glob.Cq2 f
    J.J1 l = JG.J1 (D.toGlob g1 g2 r l) ∧ J.J2 l = JG.J2 (D.toGlob g1 g2 r l) ∧ J.J3 l = JG.J3 (D.toGlob g1 g2 r l) := by
  simp only [kineticCurrents, momV1, momV2, momV3, integralOverV, faceLeft_agrees q1 h1 hcb hx hl, faceBot_agrees q2 h2 hcb hx hl, hx]
  exact ⟨rfl, rfl, rfl⟩

theorem hybrid_agrees (q1 : c.ax.q1 = (1, 0)) (q2 : c.ax.q2 = (0, 1)) (h1 : GhostsSuffice m g1 N1) (h2 : GhostsSuffice m g2 N2)
    (k1 : 3 ≤ g1 ∨ (g1 = 0 ∧ N1 = 1)) (k2 : 3 ≤ g2 ∨ (g2 = 0 ∧ N2 = 1))
    (hcb : D.CoupledAgree g1 g2 r loc glob) (hx : ∀ s p l, x s p l = f s p (D.toGlob g1 g2 r l)) (hl : D.Interior g1 g2 r l)
    {Y : EM (D.Loc g1 g2 r) K} {YG : EM (ZMod N1 × ZMod N2) K} (hY : D.EMFull g1 g2 r Y YG) (hyb : S) :
    let E := (hybridFields (D.locCfg g1 g2 c r) hyb m loc.Cq1 loc.Cq2 x x Y).2
    let EG := (hybridFields c hyb m glob.Cq1 glob.Cq2 f f YG).2
    E.1 l = EG.1 (D.toGlob g1 g2 r l) ∧ E.2.1 l = EG.2.1 (D.toGlob g1 g2 r l) ∧ E.2.2 l = EG.2.2 (D.toGlob g1 g2 r l) := by
  have hb := hY.box 3 k1 k2 l hl
  have h0 := hb.at0
  have e3 := h0 3; have e4 := h0 4; have e5 := h0 5
  simp only [EM.comp] at e3 e4 e5
  have fL := faceLeft_agrees q1 h1 hcb hx hl
  have fB := faceBot_agrees q2 h2 hcb hx hl
  have dL : ∀ s, density c.coords c.measure (faceLeft (D.locCfg g1 g2 c r).ax m loc.Cq1 x) s l =
      density c.coords c.measure (faceLeft c.ax m glob.Cq1 f) s (D.toGlob g1 g2 r l) := fun s => by
    simp only [density, integralOverV, fL]
  have dB : ∀ s, density c.coords c.measure (faceBot (D.locCfg g1 g2 c r).ax m loc.Cq2 x) s l =
      density c.coords c.measure (faceBot c.ax m glob.Cq2 f) s (D.toGlob g1 g2 r l) := fun s => by
    simp only [density, integralOverV, fB]
  have d0 : ∀ s l, density c.coords c.measure x s l = density c.coords c.measure f s (D.toGlob g1 g2 r l) := fun s l => by
    simp only [density, integralOverV, hx]
  have dn : ∀ s (a b : ℤ), |a| ≤ (3 : ℕ) → |b| ≤ (3 : ℕ) → density c.coords c.measure x s (l + off a b) =
      density c.coords c.measure f s (D.toGlob g1 g2 r l + off a b) := fun s a b ha hb => by
    rw [d0, toGlob_off D g1 g2 3 k1 k2 r l hl a b ha hb]
  have d00 := fun s => d0 s l
  have v1B : ∀ s, momV1 c.coords c.measure (faceBot (D.locCfg g1 g2 c r).ax m loc.Cq2 x) s l =
      momV1 c.coords c.measure (faceBot c.ax m glob.Cq2 f) s (D.toGlob g1 g2 r l) := fun s => by
    simp only [momV1, integralOverV, fB]
  have v3B : ∀ s, momV3 c.coords c.measure (faceBot (D.locCfg g1 g2 c r).ax m loc.Cq2 x) s l =
      momV3 c.coords c.measure (faceBot c.ax m glob.Cq2 f) s (D.toGlob g1 g2 r l) := fun s => by
    simp only [momV3, integralOverV, fB]
  have v2L : ∀ s, momV2 c.coords c.measure (faceLeft (D.locCfg g1 g2 c r).ax m loc.Cq1 x) s l =
      momV2 c.coords c.measure (faceLeft c.ax m glob.Cq1 f) s (D.toGlob g1 g2 r l) := fun s => by
    simp only [momV2, integralOverV, fL]
  have v3L : ∀ s, momV3 c.coords c.measure (faceLeft (D.locCfg g1 g2 c r).ax m loc.Cq1 x) s l =
      momV3 c.coords c.measure (faceLeft c.ax m glob.Cq1 f) s (D.toGlob g1 g2 r l) := fun s => by
    simp only [momV3, integralOverV, fL]
  have v1 : ∀ s l, momV1 c.coords c.measure x s l = momV1 c.coords c.measure f s (D.toGlob g1 g2 r l) := fun s l => by
    simp only [momV1, integralOverV, hx]
  have v2 : ∀ s l, momV2 c.coords c.measure x s l = momV2 c.coords c.measure f s (D.toGlob g1 g2 r l) := fun s l => by
    simp only [momV2, integralOverV, hx]
  have cfg1 : (D.locCfg g1 g2 c r).coords = c.coords := rfl
  have cfg2 : (D.locCfg g1 g2 c r).measure = c.measure := rfl
  have cfg3 : (D.locCfg g1 g2 c r).fieldParams = ⟨(1, 0), (0, 1), c.dq1, c.dq2, c.eps, c.mu, c.hybrid⟩ := rfl
  have cfg4 : c.fieldParams = ⟨(1, 0), (0, 1), c.dq1, c.dq2, c.eps, c.mu, c.hybrid⟩ := by rw [CoupledConfig.fieldParams, q1, q2]
  have cfg5 : (D.locCfg g1 g2 c r).ax.q1 = (1, 0) := rfl
  have cfg6 : (D.locCfg g1 g2 c r).ax.q2 = (0, 1) := rfl
  have cfg7 : (D.locCfg g1 g2 c r).charge = c.charge := rfl
  have cfg8 : (D.locCfg g1 g2 c r).Te = c.Te := rfl
  have cfg9 : (D.locCfg g1 g2 c r).mu = c.mu := rfl
  have cfg10 : (D.locCfg g1 g2 c r).dq1 = c.dq1 := rfl
  have cfg11 : (D.locCfg g1 g2 c r).dq2 = c.dq2 := rfl
  simp only [hybridFields, curlB1, curlB2, curlB3, cfg1, cfg2, cfg3, cfg4, cfg5, cfg6, cfg7, cfg8, cfg9, cfg10, cfg11, q1, q2,
    afShift_q1, afShift_q2, off_add]
  refine ⟨?_, ?_, ?_⟩
  · simp [dL, dB, d00, dn, v2L, v3L, hb.B1, hb.B2, hb.B3, e3, e4, e5, add_off_zero]
  · simp [dL, dB, d00, dn, v1B, v3B, hb.B1, hb.B2, hb.B3, e3, e4, e5, add_off_zero]
  · simp [d0, dn, v1, v2, hb.B1, hb.B2, hb.B3, e3, e4, e5, add_off_zero]

end currents

/-! ## slopes -/

variable {D g1 g2}

omit [IsStrictOrderedRing K] [Field K] [LinearOrder K] [AddCommGroup P] [Fintype S] [Fintype P] in
theorem FieldsHold.setFlag {σ : ∀ r, FieldState (D.Loc g1 g2 r) K} {τ : FieldState (ZMod N1 × ZMod N2) K} (h : D.FieldsHold g1 g2 σ τ) :
    D.FieldsHold g1 g2 (fun r => { σ r with flag := !(σ r).flag }) { τ with flag := !τ.flag } :=
  ⟨h.yee, h.heap, h.cc, h.atN, h.atHalf, fun r => by simp [h.flag r], h.time⟩

omit [IsStrictOrderedRing K] [Field K] [LinearOrder K] [AddCommGroup P] [Fintype S] [Fintype P] in
theorem FieldsHold.get {σ : ∀ r, FieldState (D.Loc g1 g2 r) K} {τ : FieldState (ZMod N1 × ZMod N2) K} (h : D.FieldsHold g1 g2 σ τ)
    (fs sp : String) (r : R) : D.EMHolds g1 g2 r (getFields fs sp (σ r)).1 (getFields fs sp τ).1 := by
  intro c l hl
  simp only [getFields, h.cc r, h.atN r, h.atHalf r, h.flag r]
  split_ifs <;> exact h.heap r _ c l hl

omit [IsStrictOrderedRing K] [Field K] [LinearOrder K] [AddCommGroup P] [Fintype S] [Fintype P] in
theorem CoupledAgree.callbacks {r : R} {loc : CoupledCallbacks S P (D.Loc g1 g2 r) K} {glob : CoupledCallbacks S P (ZMod N1 × ZMod N2) K}
    (h : D.CoupledAgree g1 g2 r loc glob) {A1 A2 A3 : EM (D.Loc g1 g2 r) K} {B1 B2 B3 : EM (ZMod N1 × ZMod N2) K}
    (h1 : D.EMHolds g1 g2 r A1 B1) (h2 : D.EMHolds g1 g2 r A2 B2) (h3 : D.EMHolds g1 g2 r A3 B3) :
    D.CallbacksAgree g1 g2 r ⟨loc.Cq1, loc.Cq2, loc.Cp1 A1, loc.Cp2 A2, loc.Cp3 A3, loc.source⟩
      ⟨glob.Cq1, glob.Cq2, glob.Cp1 B1, glob.Cp2 B2, glob.Cp3 B3, glob.source⟩ :=
  ⟨h.q1, h.q2, fun s p l hl => h.p1 A1 B1 s p l hl (fun c => h1 c l hl), fun s p l hl => h.p2 A2 B2 s p l hl (fun c => h2 c l hl),
    fun s p l hl => h.p3 A3 B3 s p l hl (fun c => h3 c l hl), h.src⟩

theorem _root_.Bolt.CoupledGhosts.recon {m : Recon} {b : Bool} {g N : ℕ} (h : CoupledGhosts m b g N) : GhostsSuffice m g N := by
  rcases h with h | h
  · exact Or.inl h.1
  · exact Or.inr h

theorem _root_.Bolt.CoupledGhosts.one {m : Recon} {b : Bool} {g N : ℕ} (h : CoupledGhosts m b g N) : 1 ≤ g ∨ (g = 0 ∧ N = 1) := by
  rcases h with h | h
  · exact Or.inl h.2.1
  · exact Or.inr h

theorem _root_.Bolt.CoupledGhosts.three {m : Recon} {g N : ℕ} (h : CoupledGhosts m true g N) : 3 ≤ g ∨ (g = 0 ∧ N = 1) := by
  rcases h with h | h
  · exact Or.inl (h.2.2 rfl)
  · exact Or.inr h

omit [IsStrictOrderedRing K] [Field K] [LinearOrder K] [AddCommGroup P] [Fintype S] [Fintype P] in
theorem sameParams (c : CoupledConfig S P (ZMod N1 × ZMod N2) K) (q1 : c.ax.q1 = (1, 0)) (q2 : c.ax.q2 = (0, 1)) (r : R) :
    D.SameParams g1 g2 r (D.locCfg g1 g2 c r).fieldParams c.fieldParams := ⟨rfl, q1, q2⟩

theorem EMHolds.setE {r : R} {F : EM (D.Loc g1 g2 r) K} {G : EM (ZMod N1 × ZMod N2) K} (h : D.EMHolds g1 g2 r F G)
    {E : (D.Loc g1 g2 r → K) × (D.Loc g1 g2 r → K) × (D.Loc g1 g2 r → K)}
    {EG : (ZMod N1 × ZMod N2 → K) × (ZMod N1 × ZMod N2 → K) × (ZMod N1 × ZMod N2 → K)}
    (hE : ∀ l, D.Interior g1 g2 r l → E.1 l = EG.1 (D.toGlob g1 g2 r l) ∧ E.2.1 l = EG.2.1 (D.toGlob g1 g2 r l) ∧
      E.2.2 l = EG.2.2 (D.toGlob g1 g2 r l)) : D.EMHolds g1 g2 r (F.setE (some E)) (G.setE (some EG)) := by
  intro c l hl
  obtain ⟨a, b, d⟩ := hE l hl
  have := h c l hl
  fin_cases c <;> first | exact a | exact b | exact d | exact this

variable [∀ r, Fintype (D.Loc g1 g2 r)] [Fintype (ZMod N1 × ZMod N2)]

theorem fieldPhase_agrees {o : BCOptions} {c : CoupledConfig S P (ZMod N1 × ZMod N2) K} (hc : GridConfig g1 g2 o c)
    {user : ∀ r, D.LocFieldBCs g1 g2 r K} {hyb : S} {cb : ∀ r, CoupledCallbacks S P (D.Loc g1 g2 r) K}
    {cbG : CoupledCallbacks S P (ZMod N1 × ZMod N2) K} (hcb : ∀ r, D.CoupledAgree g1 g2 r (cb r) cbG) {dt : K}
    {F : ∀ r, Dist S P (D.Loc g1 g2 r) K} {f : Dist S P (ZMod N1 × ZMod N2) K} (hF : ∀ r s p l, F r s p l = f s p (D.toGlob g1 g2 r l))
    {σ σ' : ∀ r, FieldState (D.Loc g1 g2 r) K} {τ τ' : FieldState (ZMod N1 × ZMod N2) K} (hσ : D.FieldsHold g1 g2 σ τ)
    (h : D.FieldPhase g1 g2 o user c hyb cb dt F σ σ') (h' : FieldUpdate c cbG hyb dt f f τ τ') : D.FieldsHold g1 g2 σ' τ' := by
  have r0 : R := D.owner 0
  rcases h with ⟨a1, a2, a3, m, hm, h⟩ | ⟨a, rfl⟩ <;> rcases h' with ⟨b1, b2, b3, m', hm', h'⟩ | ⟨b, rfl⟩
  · rw [hm, Except.ok.injEq] at hm'
    subst hm'
    obtain ⟨G1, G2⟩ := hc.ghosts m hm
    rcases h' with ⟨hh, x, rfl, h'⟩ | ⟨hh, h'⟩
    · rw [if_pos hh] at h
      obtain ⟨Y, hY, h⟩ := h
      have full : ∀ r, D.EMFull g1 g2 r (Y r) τ.yee := fun r c l => by
        rw [sent_wrap D g1 g2 hc.ends1 hc.ends2 hY r c l, (D.emHolds_iff g1 g2 _ _).mp hσ.yee]
      rw [hh] at G1 G2
      refine evolve_agrees D g1 g2 hc.ends1 hc.ends2 G1.one G2.one (fun r => sameParams c hc.q1 hc.q2 r)
        (fun hf => absurd (show c.hybrid = false from hf) (by rw [hh]; decide)) ?_ h h'
      refine ⟨fun r => ?_, hσ.heap, hσ.cc, hσ.atN, hσ.atHalf, hσ.flag, hσ.time⟩
      exact EMHolds.setE (fun c l _ => full r c l) (fun l hl =>
        hybrid_agrees hc.q1 hc.q2 G1.recon G2.recon G1.three G2.three (hcb r) (hF r) hl (full r) hyb)
    · rw [if_neg (by rw [hh]; decide)] at h
      exact evolve_agrees D g1 g2 hc.ends1 hc.ends2 G1.one G2.one (fun r => sameParams c hc.q1 hc.q2 r)
        (fun _ r l hl => kinetic_agrees hc.q1 hc.q2 G1.recon G2.recon (hcb r) (hF r) hl) hσ h h'
  · exact absurd ⟨a1, by rw [← hσ.flag r0]; exact a2 r0⟩ b
  · rcases a with a | a
    · exact absurd b1 a
    · have := a r0
      rw [hσ.flag r0, b2] at this
      exact absurd this (by decide)
  · exact hσ

theorem slopeCoupled_agrees {o : BCOptions} {c : CoupledConfig S P (ZMod N1 × ZMod N2) K} (hc : GridConfig g1 g2 o c)
    {user : ∀ r, D.LocFieldBCs g1 g2 r K} {hyb : S} {cb : ∀ r, CoupledCallbacks S P (D.Loc g1 g2 r) K}
    {cbG : CoupledCallbacks S P (ZMod N1 × ZMod N2) K} (hcb : ∀ r, D.CoupledAgree g1 g2 r (cb r) cbG) {dt : K}
    {F k : ∀ r, Dist S P (D.Loc g1 g2 r) K} {f : Dist S P (ZMod N1 × ZMod N2) K} (hF : ∀ r s p l, F r s p l = f s p (D.toGlob g1 g2 r l))
    {σ σ' : ∀ r, FieldState (D.Loc g1 g2 r) K} {τ : FieldState (ZMod N1 × ZMod N2) K} (hσ : D.FieldsHold g1 g2 σ τ)
    (h : D.SlopeCoupled g1 g2 o user c hyb cb dt F σ k σ') {poisson}
    {res : Dist S P (ZMod N1 × ZMod N2) K × FieldState (ZMod N1 × ZMod N2) K}
    (h' : dfdtCoupled c poisson cbG hyb dt f f τ = .ok res) :
    D.Holds g1 g2 k res.1 ∧ D.FieldsHold g1 g2 σ' res.2 := by
  have hg : ∀ m, reconMethod c.toFVMConfig.reconstructionInQ = .ok m → GhostsSuffice m g1 N1 ∧ GhostsSuffice m g2 N2 :=
    fun m hm => ⟨(hc.ghosts m hm).1.recon, (hc.ghosts m hm).2.recon⟩
  have hax : c.ax = ⟨c.ax.p1, c.ax.p2, c.ax.p3, (1, 0), (0, 1)⟩ := by rw [← hc.q1, ← hc.q2]
  by_cases hp : c.solverMethodInP = "FVM" ∧ c.fieldsEnabled = true
  · rw [SlopeCoupled, if_pos hp] at h
    obtain ⟨σ1, hph, h⟩ := h
    obtain ⟨τ1, τ2, hup, e2, e3, hk⟩ := dfdtCoupled_ok hp h'
    rw [if_neg hc.noFFT] at e2
    subst e2
    have hσ1 := fieldPhase_agrees hc hcb hF hσ hph hup
    have hσ' : σ' = fun r => { σ1 r with flag := !(σ1 r).flag } := by
      funext r
      have := (h r).2
      simp only [hp.1, getFields_flag, Bool.not_not] at this
      exact this
    constructor
    · intro r s p l hl
      have hr := (h r).1
      simp only [hp.1, getFields_flag, Bool.not_not] at hr
      rw [hax] at hk
      exact slope_agrees D g1 g2 (c.ax.p1, c.ax.p2, c.ax.p3) c.toFVMConfig hg r _ _
        ((hcb r).callbacks (hσ1.get _ _ r) (hσ1.setFlag.get _ _ r) (hσ1.get _ _ r)) _ _ (hF r) _ _ hr hk s p l hl
    · rw [hσ', e3]
      exact hσ1.setFlag
  · rw [SlopeCoupled, if_neg hp] at h
    obtain ⟨h, rfl⟩ := h
    simp only [dfdtCoupled, if_neg hp, bind, Except.bind, pure, Except.pure] at h'
    split at h'
    · cases h'
    · rename_i k' hk
      simp only [Except.ok.injEq] at h'
      subst h'
      refine ⟨fun r s p l hl => ?_, hσ⟩
      rw [hax] at hk
      exact slope_agrees D g1 g2 (c.ax.p1, c.ax.p2, c.ax.p3) c.toFVMConfig hg r _ _
        ⟨(hcb r).q1, (hcb r).q2, fun _ _ _ _ => rfl, fun _ _ _ _ => rfl, fun _ _ _ _ => rfl, (hcb r).src⟩ _ _ (hF r) _ _ (h r) hk
          s p l hl

end Decomp
end Bolt
