import Verif.Model.Linear
import Mathlib.Tactic.Module
import Mathlib.Tactic.LinearCombination
import Mathlib.Tactic.NormNum

/-! Reasoning about the statements of the linear solver: what holds of the result and the solver object whenever a statement does not raise. -/

set_option linter.unusedSectionVars false

namespace Bolt

section hoare

variable {σ α β : Type}

/-- Whenever `c`, started in `s`, does not raise, its result and final state satisfy `Q`. -/
def Post (c : LinM σ α) (s : σ) (Q : α → σ → Prop) : Prop := ∀ a s', c s = .ok (a, s') → Q a s'

theorem Post.bind {c : LinM σ α} {d : α → LinM σ β} {s : σ} {Q : β → σ → Prop} (h : Post c s fun a s' => Post (d a) s' Q) :
    Post (c >>= d) s Q := by
  intro b s' hb
  change (c s >>= fun x => d x.1 x.2) = _ at hb
  cases hc : c s with
  | error e => rw [hc] at hb; cases hb
  | ok x => rw [hc] at hb; exact h x.1 x.2 hc b s' hb

theorem Post.pure {a : α} {s : σ} {Q : α → σ → Prop} (h : Q a s) : Post (pure a) s Q := by
  intro b s' hb; cases hb; exact h

theorem Post.mono {c : LinM σ α} {s : σ} {Q R : α → σ → Prop} (h : Post c s Q) (hQ : ∀ a s', Q a s' → R a s') : Post c s R :=
  fun a s' e => hQ a s' (h a s' e)

theorem Post.get {s : σ} {Q : σ → σ → Prop} (h : Q s s) : Post (MonadState.get) s Q := by
  intro b s' hb; cases hb; exact h

theorem Post.modify {f : σ → σ} {s : σ} {Q : PUnit → σ → Prop} (h : Q ⟨⟩ (f s)) : Post (modify f) s Q := by
  intro b s' hb; cases hb; exact h

theorem Post.set {t s : σ} {Q : PUnit → σ → Prop} (h : Q ⟨⟩ t) : Post (set t) s Q := by
  intro b s' hb; cases hb; exact h

theorem Post.lift {e : Except PyErr α} {s : σ} {Q : α → σ → Prop} (h : ∀ a, e = .ok a → Q a s) :
    Post (liftM e : LinM σ α) s Q := by
  intro b s' hb
  cases e with
  | error x => cases hb
  | ok x => cases hb; exact h _ rfl

theorem Post.throw {e : PyErr} {s : σ} {Q : α → σ → Prop} : Post (throw e : LinM σ α) s Q := by
  intro b s' hb; cases hb

end hoare

section rk

variable {σ V W X : Type} [AddCommGroup V] [Module ℝ V] [AddCommGroup W] [Module ℝ W] [AddCommGroup X] [Module ℝ X]
variable {tick : ℝ → LinM σ Unit} {F : V → LinM σ V} {G : V → W → LinM σ W} {F2 : V → W → LinM σ V} {y0 : LinM σ W}

/-- A linear functional that vanishes on every slope keeps its value; an invariant of slope and clock survives. -/
theorem single_invariant (m : LinScheme) (L : V →ₗ[ℝ] X) (Inv : σ → Prop)
    (ht : ∀ c s, Inv s → Post (tick c) s fun _ s' => Inv s')
    (hF : ∀ x s, Inv s → Post (F x) s fun k s' => Inv s' ∧ L k = 0) (x0 : V) (dt : ℝ) (s : σ) (hs : Inv s) :
    Post (m.single tick F x0 dt) s fun x s' => Inv s' ∧ L x = L x0 := by
  cases m with
  | rk2 =>
      refine .bind ((hF _ _ hs).mono fun k1 s1 h1 => ?_)
      refine .bind ((ht _ _ h1.1).mono fun _ s2 h2 => ?_)
      refine .bind ((hF _ _ h2).mono fun k2 s3 h3 => ?_)
      refine .bind ((ht _ _ h3.1).mono fun _ s4 h4 => ?_)
      exact .pure ⟨h4, by simp [h3.2]⟩
  | rk4 =>
      refine .bind ((hF _ _ hs).mono fun k1 s1 h1 => ?_)
      refine .bind ((ht _ _ h1.1).mono fun _ s2 h2 => ?_)
      refine .bind ((hF _ _ h2).mono fun k2 s3 h3 => ?_)
      refine .bind ((hF _ _ h3.1).mono fun k3 s4 h4 => ?_)
      refine .bind ((ht _ _ h4.1).mono fun _ s5 h5 => ?_)
      refine .bind ((hF _ _ h5).mono fun k4 s6 h6 => ?_)
      exact .pure ⟨h6.1, by simp [h1.2, h3.2, h4.2, h6.2]⟩
  | rk5 =>
      refine .bind ((hF _ _ hs).mono fun k1 s1 h1 => ?_)
      refine .bind ((ht _ _ h1.1).mono fun _ s2 h2 => ?_)
      refine .bind ((hF _ _ h2).mono fun k2 s3 h3 => ?_)
      refine .bind ((hF _ _ h3.1).mono fun k3 s4 h4 => ?_)
      refine .bind ((ht _ _ h4.1).mono fun _ s5 h5 => ?_)
      refine .bind ((hF _ _ h5).mono fun k4 s6 h6 => ?_)
      refine .bind ((ht _ _ h6.1).mono fun _ s7 h7 => ?_)
      refine .bind ((hF _ _ h7).mono fun k5 s8 h8 => ?_)
      refine .bind ((ht _ _ h8.1).mono fun _ s9 h9 => ?_)
      refine .bind ((hF _ _ h9).mono fun k6 s10 h10 => ?_)
      exact .pure ⟨h10.1, by simp [h1.2, h4.2, h6.2, h8.2, h10.2]⟩

/-- The coupled integrators: if along every slope the functional of `x` grows at the rate at which the functional of `y` decreases, the
sum of the two keeps its value. -/
theorem coupled_invariant (m : LinScheme) (Lx : V →ₗ[ℝ] X) (Ly : W →ₗ[ℝ] X) (φ : V → X) (c0 : X) (Inv : σ → Prop)
    (ht : ∀ c s, Inv s → Post (tick c) s fun _ s' => Inv s')
    (hF : ∀ x y s, Inv s → Post (F2 x y) s fun k s' => Inv s' ∧ Lx k = φ x)
    (hG : ∀ x y s, Inv s → Post (G x y) s fun k s' => Inv s' ∧ Ly k = -φ x)
    (hy : ∀ s, Inv s → Post y0 s fun y s' => Inv s' ∧ Ly y = c0) (x0 : V) (dt : ℝ) (s : σ) (hs : Inv s) :
    Post (m.coupled tick F2 x0 G y0 dt) s fun r s' => Inv s' ∧ Lx r.1 + Ly r.2 = Lx x0 + c0 := by
  cases m with
  | rk2 =>
      refine .bind ((hy _ hs).mono fun y s1 h1 => ?_)
      refine .bind ((hF _ _ _ h1.1).mono fun k1x s2 h2 => ?_)
      refine .bind ((hy _ h2.1).mono fun y s3 h3 => ?_)
      refine .bind ((hG _ _ _ h3.1).mono fun k1y s4 h4 => ?_)
      refine .bind ((hy _ h4.1).mono fun y s5 h5 => ?_)
      refine .bind ((ht _ _ h5.1).mono fun _ s6 h6 => ?_)
      refine .bind ((hF _ _ _ h6).mono fun k2x s7 h7 => ?_)
      refine .bind ((hG _ _ _ h7.1).mono fun k2y s8 h8 => ?_)
      refine .bind ((hy _ h8.1).mono fun y s9 h9 => ?_)
      refine .bind ((ht _ _ h9.1).mono fun _ s10 h10 => ?_)
      refine .pure ⟨h10, ?_⟩
      simp only [map_add, map_smul, h7.2, h8.2, h9.2]
      module
  | rk4 =>
      refine .bind ((hy _ hs).mono fun y s1 h1 => ?_)
      refine .bind ((hF _ _ _ h1.1).mono fun k1x s2 h2 => ?_)
      refine .bind ((hy _ h2.1).mono fun y s3 h3 => ?_)
      refine .bind ((hG _ _ _ h3.1).mono fun k1y s4 h4 => ?_)
      refine .bind ((ht _ _ h4.1).mono fun _ s5 h5 => ?_)
      refine .bind ((hy _ h5).mono fun y s6 h6 => ?_)
      refine .bind ((hF _ _ _ h6.1).mono fun k2x s7 h7 => ?_)
      refine .bind ((hG _ _ _ h7.1).mono fun k2y s8 h8 => ?_)
      refine .bind ((hy _ h8.1).mono fun y s9 h9 => ?_)
      refine .bind ((hF _ _ _ h9.1).mono fun k3x s10 h10 => ?_)
      refine .bind ((hG _ _ _ h10.1).mono fun k3y s11 h11 => ?_)
      refine .bind ((hy _ h11.1).mono fun y s12 h12 => ?_)
      refine .bind ((ht _ _ h12.1).mono fun _ s13 h13 => ?_)
      refine .bind ((hF _ _ _ h13).mono fun k4x s14 h14 => ?_)
      refine .bind ((hG _ _ _ h14.1).mono fun k4y s15 h15 => ?_)
      refine .bind ((hy _ h15.1).mono fun y s16 h16 => ?_)
      refine .pure ⟨h16.1, ?_⟩
      simp only [map_add, map_smul, h2.2, h4.2, h7.2, h8.2, h10.2, h11.2, h14.2, h15.2, h16.2]
      module
  | rk5 =>
      refine .bind ((hy _ hs).mono fun y s1 h1 => ?_)
      refine .bind ((hF _ _ _ h1.1).mono fun k1x s2 h2 => ?_)
      refine .bind ((hy _ h2.1).mono fun y s3 h3 => ?_)
      refine .bind ((hG _ _ _ h3.1).mono fun k1y s4 h4 => ?_)
      refine .bind ((hy _ h4.1).mono fun y s5 h5 => ?_)
      refine .bind ((ht _ _ h5.1).mono fun _ s6 h6 => ?_)
      refine .bind ((hF _ _ _ h6).mono fun k2x s7 h7 => ?_)
      refine .bind ((hG _ _ _ h7.1).mono fun k2y s8 h8 => ?_)
      refine .bind ((hy _ h8.1).mono fun y s9 h9 => ?_)
      refine .bind ((hF _ _ _ h9.1).mono fun k3x s10 h10 => ?_)
      refine .bind ((hG _ _ _ h10.1).mono fun k3y s11 h11 => ?_)
      refine .bind ((hy _ h11.1).mono fun y s12 h12 => ?_)
      refine .bind ((ht _ _ h12.1).mono fun _ s13 h13 => ?_)
      refine .bind ((hF _ _ _ h13).mono fun k4x s14 h14 => ?_)
      refine .bind ((hG _ _ _ h14.1).mono fun k4y s15 h15 => ?_)
      refine .bind ((hy _ h15.1).mono fun y s16 h16 => ?_)
      refine .bind ((ht _ _ h16.1).mono fun _ s17 h17 => ?_)
      refine .bind ((hF _ _ _ h17).mono fun k5x s18 h18 => ?_)
      refine .bind ((hG _ _ _ h18.1).mono fun k5y s19 h19 => ?_)
      refine .bind ((hy _ h19.1).mono fun y s20 h20 => ?_)
      refine .bind ((ht _ _ h20.1).mono fun _ s21 h21 => ?_)
      refine .bind ((hF _ _ _ h21).mono fun k6x s22 h22 => ?_)
      refine .bind ((hG _ _ _ h22.1).mono fun k6y s23 h23 => ?_)
      refine .bind ((hy _ h23.1).mono fun y s24 h24 => ?_)
      refine .pure ⟨h24.1, ?_⟩
      simp only [map_add, map_smul, h2.2, h4.2, h10.2, h11.2, h14.2, h15.2, h18.2, h19.2, h22.2, h23.2, h24.2]
      module

/-- The clock: slopes leave it alone, so an integrator advances it by `dt`. -/
theorem single_clock (m : LinScheme) (time : σ → ℝ) (ht : ∀ c s, Post (tick c) s fun _ s' => time s' = time s + c)
    (hF : ∀ x s, Post (F x) s fun _ s' => time s' = time s) (x0 : V) (dt : ℝ) (s : σ) :
    Post (m.single tick F x0 dt) s fun _ s' => time s' = time s + dt := by
  cases m with
  | rk2 =>
      refine .bind ((hF _ _).mono fun k1 s1 h1 => ?_)
      refine .bind ((ht _ _).mono fun _ s2 h2 => ?_)
      refine .bind ((hF _ _).mono fun k2 s3 h3 => ?_)
      refine .bind ((ht _ _).mono fun _ s4 h4 => ?_)
      refine .pure ?_
      rw [h4, h3, h2, h1]; ring
  | rk4 =>
      refine .bind ((hF _ _).mono fun k1 s1 h1 => ?_)
      refine .bind ((ht _ _).mono fun _ s2 h2 => ?_)
      refine .bind ((hF _ _).mono fun k2 s3 h3 => ?_)
      refine .bind ((hF _ _).mono fun k3 s4 h4 => ?_)
      refine .bind ((ht _ _).mono fun _ s5 h5 => ?_)
      refine .bind ((hF _ _).mono fun k4 s6 h6 => ?_)
      refine .pure ?_
      rw [h6, h5, h4, h3, h2, h1]; ring
  | rk5 =>
      refine .bind ((hF _ _).mono fun k1 s1 h1 => ?_)
      refine .bind ((ht _ _).mono fun _ s2 h2 => ?_)
      refine .bind ((hF _ _).mono fun k2 s3 h3 => ?_)
      refine .bind ((hF _ _).mono fun k3 s4 h4 => ?_)
      refine .bind ((ht _ _).mono fun _ s5 h5 => ?_)
      refine .bind ((hF _ _).mono fun k4 s6 h6 => ?_)
      refine .bind ((ht _ _).mono fun _ s7 h7 => ?_)
      refine .bind ((hF _ _).mono fun k5 s8 h8 => ?_)
      refine .bind ((ht _ _).mono fun _ s9 h9 => ?_)
      refine .bind ((hF _ _).mono fun k6 s10 h10 => ?_)
      refine .pure ?_
      rw [h10, h9, h8, h7, h6, h5, h4, h3, h2, h1]; ring

theorem coupled_clock (m : LinScheme) (time : σ → ℝ) (ht : ∀ c s, Post (tick c) s fun _ s' => time s' = time s + c)
    (hF : ∀ x y s, Post (F2 x y) s fun _ s' => time s' = time s) (hG : ∀ x y s, Post (G x y) s fun _ s' => time s' = time s)
    (hy : ∀ s, Post y0 s fun _ s' => time s' = time s) (x0 : V) (dt : ℝ) (s : σ) :
    Post (m.coupled tick F2 x0 G y0 dt) s fun _ s' => time s' = time s + dt := by
  cases m with
  | rk2 =>
      refine .bind ((hy _).mono fun y s1 h1 => ?_)
      refine .bind ((hF _ _ _).mono fun k1x s2 h2 => ?_)
      refine .bind ((hy _).mono fun y s3 h3 => ?_)
      refine .bind ((hG _ _ _).mono fun k1y s4 h4 => ?_)
      refine .bind ((hy _).mono fun y s5 h5 => ?_)
      refine .bind ((ht _ _).mono fun _ s6 h6 => ?_)
      refine .bind ((hF _ _ _).mono fun k2x s7 h7 => ?_)
      refine .bind ((hG _ _ _).mono fun k2y s8 h8 => ?_)
      refine .bind ((hy _).mono fun y s9 h9 => ?_)
      refine .bind ((ht _ _).mono fun _ s10 h10 => ?_)
      refine .pure ?_
      rw [h10, h9, h8, h7, h6, h5, h4, h3, h2, h1]; ring
  | rk4 =>
      refine .bind ((hy _).mono fun y s1 h1 => ?_)
      refine .bind ((hF _ _ _).mono fun k1x s2 h2 => ?_)
      refine .bind ((hy _).mono fun y s3 h3 => ?_)
      refine .bind ((hG _ _ _).mono fun k1y s4 h4 => ?_)
      refine .bind ((ht _ _).mono fun _ s5 h5 => ?_)
      refine .bind ((hy _).mono fun y s6 h6 => ?_)
      refine .bind ((hF _ _ _).mono fun k2x s7 h7 => ?_)
      refine .bind ((hG _ _ _).mono fun k2y s8 h8 => ?_)
      refine .bind ((hy _).mono fun y s9 h9 => ?_)
      refine .bind ((hF _ _ _).mono fun k3x s10 h10 => ?_)
      refine .bind ((hG _ _ _).mono fun k3y s11 h11 => ?_)
      refine .bind ((hy _).mono fun y s12 h12 => ?_)
      refine .bind ((ht _ _).mono fun _ s13 h13 => ?_)
      refine .bind ((hF _ _ _).mono fun k4x s14 h14 => ?_)
      refine .bind ((hG _ _ _).mono fun k4y s15 h15 => ?_)
      refine .bind ((hy _).mono fun y s16 h16 => ?_)
      refine .pure ?_
      rw [h16, h15, h14, h13, h12, h11, h10, h9, h8, h7, h6, h5, h4, h3, h2, h1]; ring
  | rk5 =>
      refine .bind ((hy _).mono fun y s1 h1 => ?_)
      refine .bind ((hF _ _ _).mono fun k1x s2 h2 => ?_)
      refine .bind ((hy _).mono fun y s3 h3 => ?_)
      refine .bind ((hG _ _ _).mono fun k1y s4 h4 => ?_)
      refine .bind ((hy _).mono fun y s5 h5 => ?_)
      refine .bind ((ht _ _).mono fun _ s6 h6 => ?_)
      refine .bind ((hF _ _ _).mono fun k2x s7 h7 => ?_)
      refine .bind ((hG _ _ _).mono fun k2y s8 h8 => ?_)
      refine .bind ((hy _).mono fun y s9 h9 => ?_)
      refine .bind ((hF _ _ _).mono fun k3x s10 h10 => ?_)
      refine .bind ((hG _ _ _).mono fun k3y s11 h11 => ?_)
      refine .bind ((hy _).mono fun y s12 h12 => ?_)
      refine .bind ((ht _ _).mono fun _ s13 h13 => ?_)
      refine .bind ((hF _ _ _).mono fun k4x s14 h14 => ?_)
      refine .bind ((hG _ _ _).mono fun k4y s15 h15 => ?_)
      refine .bind ((hy _).mono fun y s16 h16 => ?_)
      refine .bind ((ht _ _).mono fun _ s17 h17 => ?_)
      refine .bind ((hF _ _ _).mono fun k5x s18 h18 => ?_)
      refine .bind ((hG _ _ _).mono fun k5y s19 h19 => ?_)
      refine .bind ((hy _).mono fun y s20 h20 => ?_)
      refine .bind ((ht _ _).mono fun _ s21 h21 => ?_)
      refine .bind ((hF _ _ _).mono fun k6x s22 h22 => ?_)
      refine .bind ((hG _ _ _).mono fun k6y s23 h23 => ?_)
      refine .bind ((hy _).mono fun y s24 h24 => ?_)
      refine .pure ?_
      rw [h24, h23, h22, h21, h20, h19, h18, h17, h16, h15, h14, h13, h12, h11, h10, h9, h8, h7, h6, h5, h4, h3, h2, h1]; ring

end rk

end Bolt
