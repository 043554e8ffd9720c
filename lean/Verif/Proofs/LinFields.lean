import Verif.Proofs.Linear

/-! Helper lemmas: the slopes of the linear solver with fields. -/

set_option linter.unusedSectionVars false

namespace Bolt

open Complex Finset

section stencil

variable {K A : Type} [Field K] [AddCommGroup A] [Fintype A]

theorem sum_shift_weight (e : A) (k : ℤ) (c : A → K) (hc : ∀ p, c (p + e) = c p) (x : A → K) :
    ∑ p, c p * afShift e k x p = ∑ p, c p * x p := by
  have hz : ∀ (n : ℤ) p, c (p + n • e) = c p := by
    intro n
    induction n with
    | zero => intro p; simp
    | succ n ih => intro p; rw [add_smul, one_smul, ← add_assoc, hc, ih]
    | pred n ih =>
        intro p
        rw [sub_smul, one_smul, ← ih p, ← hc (p + ((-(n : ℤ)) • e - e))]
        congr 1; abel
  rw [← Equiv.sum_comp (Equiv.addRight (k • e)) fun p => c p * afShift e k x p]
  refine sum_congr rfl fun p _ => ?_
  simp only [Equiv.coe_addRight, afShift, add_sub_cancel_right, hz]

/-- Summation by parts: against a weight that does not vary along the axis the stencil sums to zero. -/
theorem sum_weight_centralDiff4 (e : A) (w d : A → K) (hw : ∀ p, w (p + e) = w p) (hd : ∀ p, d (p + e) = d p) (x : A → K) :
    ∑ p, w p * centralDiff4 e (d p) x p = 0 := by
  have h : ∀ p, w p * centralDiff4 e (d p) x p
      = -(w p * (1 / (12 * d p)) * afShift e (-2) x p) + 8 * (w p * (1 / (12 * d p)) * afShift e (-1) x p)
        + w p * (1 / (12 * d p)) * afShift e 2 x p - 8 * (w p * (1 / (12 * d p)) * afShift e 1 x p) := fun p => by
    simp only [centralDiff4]; ring
  have hc : ∀ p, (fun p => w p * (1 / (12 * d p))) (p + e) = (fun p => w p * (1 / (12 * d p))) p := fun p => by simp only [hw, hd]
  have hh := fun k => sum_shift_weight e k (fun p => w p * (1 / (12 * d p))) hc x
  simp only [h, sum_add_distrib, sum_sub_distrib, sum_neg_distrib, ← mul_sum, hh]
  ring

end stencil

variable {M1 M2 M3 ns N1 N2 : ℕ} [NeZero M1] [NeZero M2] [NeZero M3] [NeZero N1] [NeZero N2]

/-- What `df_hat_dt` leaves unchanged. -/
theorem linForceTerm_frame (cfg : LinCfg M1 M2 M3 ns N1 N2) (t : ℝ) (x : LinF M1 M2 M3 ns N1 N2 ℂ) (s : LinState M1 M2 M3 ns N1 N2) :
    Post (linForceTerm cfg t x) s fun _ s' => s'.time = s.time ∧ s'.fieldsHat = s.fieldsHat ∧ s'.fHat = s.fHat := by
  refine .bind (Post.mono (Q := fun _ s' => s'.time = s.time ∧ s'.fieldsHat = s.fieldsHat ∧ s'.fHat = s.fHat) ?_ fun _ s2 h2 => ?_)
  · rw [linUpdateFields]
    split_ifs
    · exact .modify ⟨rfl, rfl, rfl⟩
    · exact .pure ⟨rfl, rfl, rfl⟩
    · exact .pure ⟨rfl, rfl, rfl⟩
    · exact .throw
  refine .bind (Post.mono (Q := fun _ s' => s'.time = s.time ∧ s'.fieldsHat = s.fieldsHat ∧ s'.fHat = s.fHat) ?_ fun em s3 h3 => ?_)
  · refine .bind (.modify (.bind (.get (.pure ?_))))
    split_ifs <;> exact h2
  refine .bind (.get ?_)
  refine .bind (.lift fun _ _ => ?_)
  refine .bind (.lift fun _ _ => ?_)
  refine .bind (.lift fun _ _ => ?_)
  exact .pure h3

theorem dfHatDt_frame (cfg : LinCfg M1 M2 M3 ns N1 N2) (x : LinF M1 M2 M3 ns N1 N2 ℂ) (y : LinEM N1 N2)
    (s : LinState M1 M2 M3 ns N1 N2) :
    Post (dfHatDt cfg x y) s fun _ s' => s'.time = s.time ∧ s'.fieldsHat = s.fieldsHat ∧ s'.fHat = s.fHat := by
  refine .bind (.get ?_)
  refine .bind (Post.mono (Q := fun _ s' => s' = s) ?_ fun slope s1 h1 => ?_)
  · split_ifs
    · exact .lift fun a _ => rfl
    · exact .pure rfl
  subst h1
  refine .bind (Post.mono (Q := fun _ s' => s'.time = s1.time ∧ s'.fieldsHat = s1.fieldsHat ∧ s'.fHat = s1.fHat) ?_ fun _ s2 h2 => ?_)
  · split_ifs
    · exact linForceTerm_frame _ _ _ _
    · exact .pure ⟨rfl, rfl, rfl⟩
  exact .pure h2

/-- The background derivatives come from a background distribution. -/
def LinCfg.FromBackground (cfg : LinCfg M1 M2 M3 ns N1 N2) : Prop :=
  ∃ fb, (cfg.dfdp1, cfg.dfdp2, cfg.dfdp3) = dfdpBackground cfg.dp1 cfg.dp2 cfg.dp3 fb

theorem dpBroadcast_shift13 (dp : Fin ns → ℝ) (d : MomIx M1 M2 M3 → Fin ns → ℝ) (h : dpBroadcast dp = .ok d) (p : MomIx M1 M2 M3) (i : Fin ns) :
    d (p + axP1) i = d p i ∧ d (p + axP3) i = d p i := by
  rw [dpBroadcast] at h
  split_ifs at h with h1 h2
  · cases h; exact ⟨rfl, rfl⟩
  · cases h
    constructor <;> simp [axP1, axP3]

theorem dpBroadcast_shift2 (dp : Fin ns → ℝ) (hdp : ∀ i j, dp i = dp j) (d : MomIx M1 M2 M3 → Fin ns → ℝ) (h : dpBroadcast dp = .ok d)
    (p : MomIx M1 M2 M3) (i : Fin ns) : d (p + axP2) i = d p i := by
  rw [dpBroadcast] at h
  split_ifs at h with h1 h2
  · cases h; rfl
  · cases h; exact hdp _ _

section sums

variable (cfg : LinCfg M1 M2 M3 ns N1 N2) (hg : LinProductGrid cfg.coords)
include hg

theorem grid_shift (i : Fin ns) (p : MomIx M1 M2 M3) :
    (cfg.coords.p2 i (p + axP1) = cfg.coords.p2 i p ∧ cfg.coords.p3 i (p + axP1) = cfg.coords.p3 i p) ∧
    (cfg.coords.p1 i (p + axP2) = cfg.coords.p1 i p ∧ cfg.coords.p3 i (p + axP2) = cfg.coords.p3 i p) ∧
    (cfg.coords.p1 i (p + axP3) = cfg.coords.p1 i p ∧ cfg.coords.p2 i (p + axP3) = cfg.coords.p2 i p) := by
  obtain ⟨x1, h1⟩ := hg.p1
  obtain ⟨x2, h2⟩ := hg.p2
  obtain ⟨x3, h3⟩ := hg.p3
  simp [h1, h2, h3, axP1, axP2, axP3]

/-- The momentum sums of the force terms vanish. -/
theorem sum_fieldsTerm (hb : cfg.FromBackground) (e m : ℂ) (E B : Fin 3 → ℂ) (i : Fin ns) :
    ∑ p, ((e / m * (E 0 + cfg.coords.p2 i p * B 2 - cfg.coords.p3 i p * B 1)) * (cfg.dfdp1 p i : ℂ)
      + (e / m * (E 1 + cfg.coords.p3 i p * B 0 - cfg.coords.p1 i p * B 2)) * (cfg.dfdp2 p i : ℂ)
      + (e / m * (E 2 + cfg.coords.p1 i p * B 1 - cfg.coords.p2 i p * B 0)) * (cfg.dfdp3 p i : ℂ)) = 0 := by
  obtain ⟨fb, hb⟩ := hb
  simp only [dfdpBackground, Prod.mk.injEq] at hb
  obtain ⟨b1, b2, b3⟩ := hb
  have c : ∀ (ax : MomIx M1 M2 M3) (d : ℝ) p, ((centralDiff4 ax d (fun p => fb p i) p : ℝ) : ℂ)
      = centralDiff4 ax (d : ℂ) (fun p => (fb p i : ℂ)) p := by
    intro ax d p; simp only [centralDiff4, afShift]; push_cast; ring
  have g := grid_shift cfg hg i
  simp only [b1, b2, b3, c, sum_add_distrib]
  rw [sum_weight_centralDiff4 _ _ (fun _ => ((cfg.dp1 i : ℝ) : ℂ)) (fun p => by rw [(g p).1.1, (g p).1.2]) (fun _ => rfl),
    sum_weight_centralDiff4 _ _ (fun _ => ((cfg.dp2 i : ℝ) : ℂ)) (fun p => by rw [(g p).2.1.1, (g p).2.1.2]) (fun _ => rfl),
    sum_weight_centralDiff4 _ _ (fun _ => ((cfg.dp3 i : ℝ) : ℂ)) (fun p => by rw [(g p).2.2.1, (g p).2.2.2]) (fun _ => rfl)]
  simp

theorem sum_meanTerm (hdp : ∀ i j, cfg.dp2 i = cfg.dp2 j) (c : ℂ) (B1 B2 B3 : ℂ) (d1 d2 d3 : MomIx M1 M2 M3 → Fin ns → ℝ)
    (h1 : dpBroadcast cfg.dp1 = .ok d1) (h2 : dpBroadcast cfg.dp2 = .ok d2) (h3 : dpBroadcast cfg.dp3 = .ok d3)
    (x : MomIx M1 M2 M3 → ℂ) (i : Fin ns) :
    ∑ p, c * ((cfg.coords.p2 i p * B3 - cfg.coords.p3 i p * B2) * centralDiff4 axP1 (d1 p i : ℂ) x p
      + (cfg.coords.p3 i p * B1 - cfg.coords.p1 i p * B3) * centralDiff4 axP2 (d2 p i : ℂ) x p
      + (cfg.coords.p1 i p * B2 - cfg.coords.p2 i p * B1) * centralDiff4 axP3 (d3 p i : ℂ) x p) = 0 := by
  have g := grid_shift cfg hg i
  rw [← mul_sum]
  simp only [sum_add_distrib]
  rw [sum_weight_centralDiff4 _ _ (fun p => ((d1 p i : ℝ) : ℂ)) (fun p => by rw [(g p).1.1, (g p).1.2])
      (fun p => by rw [(dpBroadcast_shift13 _ _ h1 p i).1]),
    sum_weight_centralDiff4 _ _ (fun p => ((d2 p i : ℝ) : ℂ)) (fun p => by rw [(g p).2.1.1, (g p).2.1.2])
      (fun p => by rw [dpBroadcast_shift2 _ hdp _ h2 p i]),
    sum_weight_centralDiff4 _ _ (fun p => ((d3 p i : ℝ) : ℂ)) (fun p => by rw [(g p).2.2.1, (g p).2.2.2])
      (fun p => by rw [(dpBroadcast_shift13 _ _ h3 p i).2])]
  simp

/-- Without a source the momentum sum of the slope is that of the streaming term, whatever the fields. -/
theorem dfHatDt_sum (Aq : ℝ → LinF M1 M2 M3 ns N1 N2 ℝ × LinF M1 M2 M3 ns N1 N2 ℝ) (hb : cfg.FromBackground)
    (hdp : ∀ i j, cfg.dp2 i = cfg.dp2 j) (hs : cfg.sourceEnabled = false)
    (x : LinF M1 M2 M3 ns N1 N2 ℂ) (y : LinEM N1 N2) (s : LinState M1 M2 M3 ns N1 N2) :
    Post (dfHatDt { cfg.nonrel with Aq := Aq } x y) s fun k _ => ∀ i q, ∑ p, k p i q
      = ∑ p, linStreaming { cfg.nonrel with Aq := Aq } s.time x p i q := by
  refine .bind (.get ?_)
  refine .bind (Post.mono (Q := fun k s' => s' = s ∧ k = 0) ?_ fun slope s1 h1 => ?_)
  · rw [if_neg (by simp [LinCfg.nonrel, hs])]
    exact .pure ⟨rfl, rfl⟩
  obtain ⟨rfl, rfl⟩ := h1
  refine .bind (Post.mono (Q := fun k _ => ∀ i q, ∑ p, k p i q = 0) ?_ fun frc s2 h2 => ?_)
  · split_ifs with h
    · refine .bind (Post.mono (Q := fun _ _ => True) (fun _ _ _ => trivial) fun _ s2 _ => ?_)
      refine .bind (Post.mono (Q := fun _ _ => True) (fun _ _ _ => trivial) fun em s3 _ => ?_)
      refine .bind (.get ?_)
      refine .bind (.lift fun d1 e1 => ?_)
      refine .bind (.lift fun d2 e2 => ?_)
      refine .bind (.lift fun d3 e3 => ?_)
      refine .pure fun i q => ?_
      have t1 := sum_fieldsTerm cfg hg hb (cfg.charge i : ℂ) (cfg.mass i) ![em 0 q, em 1 q, em 2 q] ![em 3 q, em 4 q, em 5 q] i
      have t2 := sum_meanTerm cfg hg hdp ((cfg.charge i / cfg.mass i : ℝ) : ℂ) (s3.fieldsHat 3 0 / 2) (s3.fieldsHat 4 0 / 2)
        (s3.fieldsHat 5 0 / 2) d1 d2 d3 e1 e2 e3 (fun p => x p i q) i
      have e := congrArg₂ (· + ·) t1 t2
      simp only [add_zero, ← sum_add_distrib] at e
      exact e
    · exact .pure fun _ _ => by simp
  refine .pure fun i q => ?_
  simp only [Pi.sub_apply, sum_sub_distrib, h2, add_zero, sub_zero]

end sums

/-- The magnetic slopes are divergence free and the electric field written in the hybrid model does not touch the magnetic components. -/
theorem dfieldsHatDt_divB (cfg : LinCfg M1 M2 M3 ns N1 N2) (x : LinF M1 M2 M3 ns N1 N2 ℂ) (y : LinEM N1 N2)
    (s : LinState M1 M2 M3 ns N1 N2) (q : ZMod N1 × ZMod N2) :
    Post (dfieldsHatDt cfg x y) s fun k s' => s'.time = s.time ∧ (∀ j : Fin 6, 3 ≤ j → s'.fieldsHat j = s.fieldsHat j) ∧
      divBHat cfg.dq1 cfg.dq2 k q = 0 := by
  refine .bind (Post.mono (Q := fun _ s' => s'.time = s.time ∧ (∀ j : Fin 6, 3 ≤ j → s'.fieldsHat j = s.fieldsHat j)) ?_ fun E s1 h1 => ?_)
  · split_ifs
    · rw [linOhmWrite]
      refine .bind (.lift fun E _ => .bind (.modify (.pure ⟨rfl, fun j hj => ?_⟩)))
      fin_cases j <;> first | rfl | (exact absurd hj (by decide))
    · exact .pure ⟨rfl, fun _ _ => rfl⟩
  refine .pure ⟨h1.1, h1.2, ?_⟩
  simp only [divBHat]
  change I * _ * (-E 2 q * I * _) + I * _ * (E 2 q * I * _) = 0
  ring

/-- Outside the hybrid model `dfields_hat_dt` neither raises nor changes the solver object. -/
theorem dfieldsHatDt_eq (cfg : LinCfg M1 M2 M3 ns N1 N2) (hh : cfg.hybrid = false) (x : LinF M1 M2 M3 ns N1 N2 ℂ) (y : LinEM N1 N2)
    (s : LinState M1 M2 M3 ns N1 N2) :
    dfieldsHatDt cfg x y s = .ok (![
      fun q => y 5 q * I * (calculateK cfg.dq1 cfg.dq2 q).2 / (cfg.mu * cfg.eps)
        - (∑ i, (cfg.charge i : ℂ) * linMoment cfg momV1 x i q) / cfg.eps,
      fun q => -y 5 q * I * (calculateK cfg.dq1 cfg.dq2 q).1 / (cfg.mu * cfg.eps)
        - (∑ i, (cfg.charge i : ℂ) * linMoment cfg momV2 x i q) / cfg.eps,
      fun q => (y 4 q * I * (calculateK cfg.dq1 cfg.dq2 q).1 - y 3 q * I * (calculateK cfg.dq1 cfg.dq2 q).2) / (cfg.mu * cfg.eps)
        - (∑ i, (cfg.charge i : ℂ) * linMoment cfg momV3 x i q) / cfg.eps,
      fun q => -y 2 q * I * (calculateK cfg.dq1 cfg.dq2 q).2,
      fun q => y 2 q * I * (calculateK cfg.dq1 cfg.dq2 q).1,
      fun q => y 0 q * I * (calculateK cfg.dq1 cfg.dq2 q).2 - y 1 q * I * (calculateK cfg.dq1 cfg.dq2 q).1], s) := by
  simp only [dfieldsHatDt, hh]
  rfl

/-- Runs keep what single steps keep. -/
theorem linRun_invariant (cfg : LinCfg M1 M2 M3 ns N1 N2) (Inv : LinState M1 M2 M3 ns N1 N2 → Prop)
    (h : ∀ m dt s, Inv s → Post (linStep m cfg dt) s fun _ s' => Inv s') :
    ∀ (l : List (LinScheme × ℝ)) s, Inv s → Post (linRun cfg l) s fun _ s' => Inv s'
  | [], _, hs => .pure hs
  | (m, dt) :: l, s, hs => .bind ((h m dt s hs).mono fun _ _ h1 => linRun_invariant cfg Inv h l _ h1)

theorem linCollide_frame (cfg : LinCfg M1 M2 M3 ns N1 N2) (s : LinState M1 M2 M3 ns N1 N2) :
    Post (linCollide cfg) s fun _ s' => s'.time = s.time ∧ s'.fieldsHat = s.fieldsHat := by
  refine .bind (.get (.bind (.lift fun _ _ => .set ⟨rfl, rfl⟩)))

/-! ## Exceptions -/

/-- The statement never raises. -/
def Total {σ α : Type} (c : LinM σ α) : Prop := ∀ s, ∃ r, c s = .ok r

theorem Total.bind {σ α β : Type} {c : LinM σ α} {d : α → LinM σ β} (hc : Total c) (hd : ∀ a, Total (d a)) : Total (c >>= d) := by
  intro s
  obtain ⟨r, hr⟩ := hc s
  obtain ⟨r', hr'⟩ := hd r.1 r.2
  exact ⟨r', by change (c s >>= fun x => d x.1 x.2) = _; rw [hr]; exact hr'⟩

theorem Total.pure {σ α : Type} (a : α) : Total (pure a : LinM σ α) := fun s => ⟨(a, s), rfl⟩
theorem Total.get {σ : Type} : Total (MonadState.get : LinM σ σ) := fun s => ⟨(s, s), rfl⟩
theorem Total.set {σ : Type} (t : σ) : Total (set t : LinM σ PUnit) := fun _ => ⟨(⟨⟩, t), rfl⟩
theorem Total.modify {σ : Type} (f : σ → σ) : Total (modify f : LinM σ PUnit) := fun s => ⟨(⟨⟩, f s), rfl⟩
theorem Total.lift {σ α : Type} (e : Except PyErr α) (h : ∃ a, e = .ok a) : Total (liftM e : LinM σ α) := by
  obtain ⟨a, rfl⟩ := h
  exact fun s => ⟨(a, s), rfl⟩

theorem single_total {σ V : Type} [AddCommGroup V] [Module ℝ V] (m : LinScheme) {tick : ℝ → LinM σ Unit} {F : V → LinM σ V}
    (ht : ∀ c, Total (tick c)) (hF : ∀ x, Total (F x)) (x0 : V) (dt : ℝ) : Total (m.single tick F x0 dt) := by
  cases m
  · exact .bind (hF _) fun _ => .bind (ht _) fun _ => .bind (hF _) fun _ => .bind (ht _) fun _ => .pure _
  · exact .bind (hF _) fun _ => .bind (ht _) fun _ => .bind (hF _) fun _ => .bind (hF _) fun _ => .bind (ht _) fun _ =>
      .bind (hF _) fun _ => .pure _
  · exact .bind (hF _) fun _ => .bind (ht _) fun _ => .bind (hF _) fun _ => .bind (hF _) fun _ => .bind (ht _) fun _ =>
      .bind (hF _) fun _ => .bind (ht _) fun _ => .bind (hF _) fun _ => .bind (ht _) fun _ => .bind (hF _) fun _ => .pure _

theorem coupled_total {σ V W : Type} [AddCommGroup V] [Module ℝ V] [AddCommGroup W] [Module ℝ W] (m : LinScheme)
    {tick : ℝ → LinM σ Unit} {F : V → W → LinM σ V} {G : V → W → LinM σ W} {y0 : LinM σ W}
    (ht : ∀ c, Total (tick c)) (hF : ∀ x y, Total (F x y)) (hG : ∀ x y, Total (G x y)) (hy : Total y0) (x0 : V) (dt : ℝ) :
    Total (m.coupled tick F x0 G y0 dt) := by
  cases m
  · exact .bind hy fun _ => .bind (hF _ _) fun _ => .bind hy fun _ => .bind (hG _ _) fun _ => .bind hy fun _ => .bind (ht _) fun _ =>
      .bind (hF _ _) fun _ => .bind (hG _ _) fun _ => .bind hy fun _ => .bind (ht _) fun _ => .pure _
  · exact .bind hy fun _ => .bind (hF _ _) fun _ => .bind hy fun _ => .bind (hG _ _) fun _ => .bind (ht _) fun _ => .bind hy fun _ =>
      .bind (hF _ _) fun _ => .bind (hG _ _) fun _ => .bind hy fun _ => .bind (hF _ _) fun _ => .bind (hG _ _) fun _ => .bind hy fun _ =>
      .bind (ht _) fun _ => .bind (hF _ _) fun _ => .bind (hG _ _) fun _ => .bind hy fun _ => .pure _
  · exact .bind hy fun _ => .bind (hF _ _) fun _ => .bind hy fun _ => .bind (hG _ _) fun _ => .bind hy fun _ => .bind (ht _) fun _ =>
      .bind (hF _ _) fun _ => .bind (hG _ _) fun _ => .bind hy fun _ => .bind (hF _ _) fun _ => .bind (hG _ _) fun _ => .bind hy fun _ =>
      .bind (ht _) fun _ => .bind (hF _ _) fun _ => .bind (hG _ _) fun _ => .bind hy fun _ => .bind (ht _) fun _ =>
      .bind (hF _ _) fun _ => .bind (hG _ _) fun _ => .bind hy fun _ => .bind (ht _) fun _ =>
      .bind (hF _ _) fun _ => .bind (hG _ _) fun _ => .bind hy fun _ => .pure _

theorem ifft2_ok {P S : Type} (np k : ℕ) (h : ¬ (N2 = 1 ∧ np = 1 ∧ k = 1)) (x : P → S → ZMod N1 × ZMod N2 → ℂ) :
    ∃ y, ifft2 np k x = .ok y := by
  rw [ifft2, if_neg h]; exact ⟨_, rfl⟩

theorem dpBroadcast_ok (dp : Fin ns → ℝ) (h : ns = 1 ∨ ns = M2) :
    ∃ d, dpBroadcast (M1 := M1) (M2 := M2) (M3 := M3) dp = .ok d := by
  rw [dpBroadcast]
  split_ifs with h1 h2
  · exact ⟨_, rfl⟩
  · exact ⟨_, rfl⟩
  · rcases h with h | h <;> contradiction

end Bolt
