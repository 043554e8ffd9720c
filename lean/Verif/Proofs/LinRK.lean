import Verif.Proofs.LinFields
import Verif.Proofs.Linear
import Verif.Proofs.BSeries
import Verif.Spec.RungeKutta
import Verif.Spec.Temporal

/-! Helper lemmas: the integrators of the linear solver are the textbook methods. -/

set_option linter.unusedSectionVars false

namespace Bolt

open Complex Finset

section det

variable {σ α β : Type}

/-- `c` started in `s` does not raise, returns `a`, and its final state satisfies `Q`. -/
def Det (c : LinM σ α) (s : σ) (a : α) (Q : σ → Prop) : Prop := ∃ s', c s = .ok (a, s') ∧ Q s'

theorem Det.bind {c : LinM σ α} {d : α → LinM σ β} {s : σ} {a : α} {b : β} {Q : σ → Prop} (h : Det c s a fun s1 => Det (d a) s1 b Q) :
    Det (c >>= d) s b Q := by
  obtain ⟨s1, h1, s2, h2, h3⟩ := h
  refine ⟨s2, ?_, h3⟩
  change (c s >>= fun x => d x.1 x.2) = _
  rw [h1]; exact h2

theorem Det.pure {a : α} {s : σ} {Q : σ → Prop} (h : Q s) : Det (Pure.pure a : LinM σ α) s a Q := ⟨s, rfl, h⟩
theorem Det.get {s : σ} {Q : σ → Prop} (h : Q s) : Det (MonadState.get : LinM σ σ) s s Q := ⟨s, rfl, h⟩
theorem Det.modify {f : σ → σ} {s : σ} {Q : σ → Prop} (h : Q (f s)) : Det (modify f : LinM σ PUnit) s ⟨⟩ Q := ⟨f s, rfl, h⟩
theorem Det.lift {e : Except PyErr α} {s : σ} {a : α} {Q : σ → Prop} (he : e = .ok a) (h : Q s) : Det (liftM e : LinM σ α) s a Q := by
  subst he; exact ⟨s, rfl, h⟩

theorem Det.mono {c : LinM σ α} {s : σ} {a : α} {Q R : σ → Prop} (h : Det c s a Q) (hQ : ∀ s, Q s → R s) : Det c s a R := by
  obtain ⟨s1, h1, h2⟩ := h; exact ⟨s1, h1, hQ _ h2⟩

theorem Det.of_eq {c : LinM σ α} {s : σ} {a b : α} {Q : σ → Prop} (h : Det c s a Q) (e : a = b) : Det c s b Q := e ▸ h

end det

section rk

variable {σ V W : Type} [AddCommGroup V] [Module ℝ V] [AddCommGroup W] [Module ℝ W]
variable {tick : ℝ → LinM σ Unit} {F : V → LinM σ V} {F2 : V → W → LinM σ V} {G : V → W → LinM σ W} {y0 : LinM σ W}

theorem single_det (m : LinScheme) (Inv : σ → Prop) (time : σ → ℝ) (A : ℝ → V → V)
    (ht : ∀ c s, Inv s → Det (tick c) s () fun s' => Inv s' ∧ time s' = time s + c)
    (hF : ∀ x s, Inv s → Det (F x) s (A (time s) x) fun s' => Inv s' ∧ time s' = time s) (x0 : V) (dt : ℝ) (s : σ) (hs : Inv s) :
    Det (m.single tick F x0 dt) s (rkPure m A (time s) x0 dt) Inv := by
  have hF' : ∀ x s t, Inv s ∧ time s = t → Det (F x) s (A t x) fun s' => Inv s' ∧ time s' = t := by
    rintro x s t ⟨h, rfl⟩; exact hF x s h
  have ht' : ∀ c s t, Inv s ∧ time s = t → Det (tick c) s () fun s' => Inv s' ∧ time s' = t + c := by
    rintro c s t ⟨h, rfl⟩; exact ht c s h
  have hs' : Inv s ∧ time s = time s := ⟨hs, rfl⟩
  cases m with
  | rk2 =>
      refine .bind ((hF' _ _ _ hs').mono fun s1 h1 => ?_)
      refine .bind ((ht' _ _ _ h1).mono fun s2 h2 => ?_)
      refine .bind ((hF' _ _ _ h2).mono fun s3 h3 => ?_)
      refine .bind ((ht' _ _ _ h3).mono fun s4 h4 => ?_)
      exact .pure h4.1
  | rk4 =>
      refine .bind ((hF' _ _ _ hs').mono fun s1 h1 => ?_)
      refine .bind ((ht' _ _ _ h1).mono fun s2 h2 => ?_)
      refine .bind ((hF' _ _ _ h2).mono fun s3 h3 => ?_)
      refine .bind ((hF' _ _ _ h3).mono fun s4 h4 => ?_)
      refine .bind ((ht' _ _ _ h4).mono fun s5 h5 => ?_)
      refine .bind ((hF' _ _ _ h5).mono fun s6 h6 => ?_)
      exact .pure h6.1
  | rk5 =>
      refine .bind ((hF' _ _ _ hs').mono fun s1 h1 => ?_)
      refine .bind ((ht' _ _ _ h1).mono fun s2 h2 => ?_)
      refine .bind ((hF' _ _ _ h2).mono fun s3 h3 => ?_)
      refine .bind ((hF' _ _ _ h3).mono fun s4 h4 => ?_)
      refine .bind ((ht' _ _ _ h4).mono fun s5 h5 => ?_)
      refine .bind ((hF' _ _ _ h5).mono fun s6 h6 => ?_)
      refine .bind ((ht' _ _ _ h6).mono fun s7 h7 => ?_)
      refine .bind ((hF' _ _ _ h7).mono fun s8 h8 => ?_)
      refine .bind ((ht' _ _ _ h8).mono fun s9 h9 => ?_)
      refine .bind ((hF' _ _ _ h9).mono fun s10 h10 => ?_)
      exact .pure h10.1

theorem coupled_det (m : LinScheme) (Inv : σ → Prop) (time : σ → ℝ) (A : ℝ → V → W → V) (B : ℝ → V → W → W) (y : W)
    (ht : ∀ c s, Inv s → Det (tick c) s () fun s' => Inv s' ∧ time s' = time s + c)
    (hF : ∀ x y s, Inv s → Det (F2 x y) s (A (time s) x y) fun s' => Inv s' ∧ time s' = time s)
    (hG : ∀ x y s, Inv s → Det (G x y) s (B (time s) x y) fun s' => Inv s' ∧ time s' = time s)
    (hy : ∀ s, Inv s → Det y0 s y fun s' => Inv s' ∧ time s' = time s) (x0 : V) (dt : ℝ) (s : σ) (hs : Inv s) :
    Det (m.coupled tick F2 x0 G y0 dt) s (rkPure m (fun t z => (A t z.1 z.2, B t z.1 z.2)) (time s) (x0, y) dt) Inv := by
  have hF' : ∀ x y s t, Inv s ∧ time s = t → Det (F2 x y) s (A t x y) fun s' => Inv s' ∧ time s' = t := by
    rintro x y s t ⟨h, rfl⟩; exact hF x y s h
  have hG' : ∀ x y s t, Inv s ∧ time s = t → Det (G x y) s (B t x y) fun s' => Inv s' ∧ time s' = t := by
    rintro x y s t ⟨h, rfl⟩; exact hG x y s h
  have hy' : ∀ s t, Inv s ∧ time s = t → Det y0 s y fun s' => Inv s' ∧ time s' = t := by
    rintro s t ⟨h, rfl⟩; exact hy s h
  have ht' : ∀ c s t, Inv s ∧ time s = t → Det (tick c) s () fun s' => Inv s' ∧ time s' = t + c := by
    rintro c s t ⟨h, rfl⟩; exact ht c s h
  have hs' : Inv s ∧ time s = time s := ⟨hs, rfl⟩
  cases m with
  | rk2 =>
      refine .bind ((hy' _ _ hs').mono fun s1 h1 => ?_)
      refine .bind ((hF' _ _ _ _ h1).mono fun s2 h2 => ?_)
      refine .bind ((hy' _ _ h2).mono fun s3 h3 => ?_)
      refine .bind ((hG' _ _ _ _ h3).mono fun s4 h4 => ?_)
      refine .bind ((hy' _ _ h4).mono fun s5 h5 => ?_)
      refine .bind ((ht' _ _ _ h5).mono fun s6 h6 => ?_)
      refine .bind ((hF' _ _ _ _ h6).mono fun s7 h7 => ?_)
      refine .bind ((hG' _ _ _ _ h7).mono fun s8 h8 => ?_)
      refine .bind ((hy' _ _ h8).mono fun s9 h9 => ?_)
      refine .bind ((ht' _ _ _ h9).mono fun s10 h10 => ?_)
      exact .pure h10.1
  | rk4 =>
      refine .bind ((hy' _ _ hs').mono fun s1 h1 => ?_)
      refine .bind ((hF' _ _ _ _ h1).mono fun s2 h2 => ?_)
      refine .bind ((hy' _ _ h2).mono fun s3 h3 => ?_)
      refine .bind ((hG' _ _ _ _ h3).mono fun s4 h4 => ?_)
      refine .bind ((ht' _ _ _ h4).mono fun s5 h5 => ?_)
      refine .bind ((hy' _ _ h5).mono fun s6 h6 => ?_)
      refine .bind ((hF' _ _ _ _ h6).mono fun s7 h7 => ?_)
      refine .bind ((hG' _ _ _ _ h7).mono fun s8 h8 => ?_)
      refine .bind ((hy' _ _ h8).mono fun s9 h9 => ?_)
      refine .bind ((hF' _ _ _ _ h9).mono fun s10 h10 => ?_)
      refine .bind ((hG' _ _ _ _ h10).mono fun s11 h11 => ?_)
      refine .bind ((hy' _ _ h11).mono fun s12 h12 => ?_)
      refine .bind ((ht' _ _ _ h12).mono fun s13 h13 => ?_)
      refine .bind ((hF' _ _ _ _ h13).mono fun s14 h14 => ?_)
      refine .bind ((hG' _ _ _ _ h14).mono fun s15 h15 => ?_)
      refine .bind ((hy' _ _ h15).mono fun s16 h16 => ?_)
      exact .pure h16.1
  | rk5 =>
      refine .bind ((hy' _ _ hs').mono fun s1 h1 => ?_)
      refine .bind ((hF' _ _ _ _ h1).mono fun s2 h2 => ?_)
      refine .bind ((hy' _ _ h2).mono fun s3 h3 => ?_)
      refine .bind ((hG' _ _ _ _ h3).mono fun s4 h4 => ?_)
      refine .bind ((hy' _ _ h4).mono fun s5 h5 => ?_)
      refine .bind ((ht' _ _ _ h5).mono fun s6 h6 => ?_)
      refine .bind ((hF' _ _ _ _ h6).mono fun s7 h7 => ?_)
      refine .bind ((hG' _ _ _ _ h7).mono fun s8 h8 => ?_)
      refine .bind ((hy' _ _ h8).mono fun s9 h9 => ?_)
      refine .bind ((hF' _ _ _ _ h9).mono fun s10 h10 => ?_)
      refine .bind ((hG' _ _ _ _ h10).mono fun s11 h11 => ?_)
      refine .bind ((hy' _ _ h11).mono fun s12 h12 => ?_)
      refine .bind ((ht' _ _ _ h12).mono fun s13 h13 => ?_)
      refine .bind ((hF' _ _ _ _ h13).mono fun s14 h14 => ?_)
      refine .bind ((hG' _ _ _ _ h14).mono fun s15 h15 => ?_)
      refine .bind ((hy' _ _ h15).mono fun s16 h16 => ?_)
      refine .bind ((ht' _ _ _ h16).mono fun s17 h17 => ?_)
      refine .bind ((hF' _ _ _ _ h17).mono fun s18 h18 => ?_)
      refine .bind ((hG' _ _ _ _ h18).mono fun s19 h19 => ?_)
      refine .bind ((hy' _ _ h19).mono fun s20 h20 => ?_)
      refine .bind ((ht' _ _ _ h20).mono fun s21 h21 => ?_)
      refine .bind ((hF' _ _ _ _ h21).mono fun s22 h22 => ?_)
      refine .bind ((hG' _ _ _ _ h22).mono fun s23 h23 => ?_)
      refine .bind ((hy' _ _ h23).mono fun s24 h24 => ?_)
      exact .pure h24.1

/-- The integrators are the methods given by the tableaux. -/
theorem rkPure_eq_tableau (m : LinScheme) (A : ℝ → V → V) (t : ℝ) (x : V) (dt : ℝ) : rkPure m A t x dt = m.tableau.step A t x dt := by
  have hA : ∀ {t t' : ℝ} {x x' : V}, t = t' → x = x' → A t x = A t' x' := by rintro _ _ _ _ rfl rfl; rfl
  cases m with
  | rk2 =>
      simp only [rkPure, LinScheme.tableau, Tableau.step, slopes, combine, List.nil_append, List.cons_append]
      have e1 : A (t + 0 * dt) (x + dt • (0 : V)) = A t x := hA (by ring) (by module)
      rw [e1]
      generalize A t x = k1
      have e2 : A (t + 1 / 2 * dt) (x + dt • ((1 / 2 : ℝ) • k1 + 0)) = A (t + 0.5 * dt) (x + (dt / 2) • k1) := hA (by ring) (by module)
      rw [e2]
      module
  | rk4 =>
      simp only [rkPure, LinScheme.tableau, Tableau.step, slopes, combine, List.nil_append, List.cons_append]
      have e1 : A (t + 0 * dt) (x + dt • (0 : V)) = A t x := hA (by ring) (by module)
      rw [e1]
      generalize A t x = k1
      have e2 : A (t + 1 / 2 * dt) (x + dt • ((1 / 2 : ℝ) • k1 + 0)) = A (t + 0.5 * dt) (x + dt • (0.5 : ℝ) • k1) :=
        hA (by ring) (by rw [add_zero]; norm_num)
      rw [e2]
      generalize A (t + 0.5 * dt) (x + dt • (0.5 : ℝ) • k1) = k2
      have e3 : A (t + 1 / 2 * dt) (x + dt • ((0 : ℝ) • k1 + ((1 / 2 : ℝ) • k2 + 0))) = A (t + 0.5 * dt) (x + dt • (0.5 : ℝ) • k2) :=
        hA (by ring) (by norm_num)
      rw [e3]
      generalize A (t + 0.5 * dt) (x + dt • (0.5 : ℝ) • k2) = k3
      have e4 : A (t + 1 * dt) (x + dt • ((0 : ℝ) • k1 + ((0 : ℝ) • k2 + ((1 : ℝ) • k3 + 0)))) = A (t + 0.5 * dt + 0.5 * dt) (x + dt • k3) :=
        hA (by ring) (by module)
      rw [e4]
      module
  | rk5 =>
      simp only [rkPure, LinScheme.tableau, Tableau.step, slopes, combine, List.nil_append, List.cons_append]
      have e1 : A (t + 0 * dt) (x + dt • (0 : V)) = A t x := hA (by ring) (by module)
      rw [e1]
      generalize A t x = k1
      have e2 : A (t + 1 / 4 * dt) (x + dt • ((1 / 4 : ℝ) • k1 + 0)) = A (t + 0.25 * dt) (x + dt • (0.25 : ℝ) • k1) :=
        hA (by ring) (by rw [add_zero]; norm_num)
      rw [e2]
      generalize A (t + 0.25 * dt) (x + dt • (0.25 : ℝ) • k1) = k2
      have e3 : A (t + 1 / 4 * dt) (x + dt • ((1 / 8 : ℝ) • k1 + ((1 / 8 : ℝ) • k2 + 0))) = A (t + 0.25 * dt) (x + dt • (1 / 8 : ℝ) • (k1 + k2)) :=
        hA (by ring) (by module)
      rw [e3]
      generalize A (t + 0.25 * dt) (x + dt • (1 / 8 : ℝ) • (k1 + k2)) = k3
      have e4 : A (t + 1 / 2 * dt) (x + dt • ((0 : ℝ) • k1 + ((-1 / 2 : ℝ) • k2 + ((1 : ℝ) • k3 + 0))))
          = A (t + 0.25 * dt + 0.25 * dt) (x - dt • ((0.5 : ℝ) • k2 - k3)) :=
        hA (by ring) (by norm_num; module)
      rw [e4]
      generalize A (t + 0.25 * dt + 0.25 * dt) (x - dt • ((0.5 : ℝ) • k2 - k3)) = k4
      have e5 : A (t + 3 / 4 * dt) (x + dt • ((3 / 16 : ℝ) • k1 + ((0 : ℝ) • k2 + ((0 : ℝ) • k3 + ((9 / 16 : ℝ) • k4 + 0)))))
          = A (t + 0.25 * dt + 0.25 * dt + 0.25 * dt) (x + (dt / 16) • ((3 : ℝ) • k1 + (9 : ℝ) • k4)) :=
        hA (by ring) (by module)
      rw [e5]
      generalize A (t + 0.25 * dt + 0.25 * dt + 0.25 * dt) (x + (dt / 16) • ((3 : ℝ) • k1 + (9 : ℝ) • k4)) = k5
      have e6 : A (t + 1 * dt) (x + dt • ((-3 / 7 : ℝ) • k1 + ((2 / 7 : ℝ) • k2 + ((12 / 7 : ℝ) • k3 + ((-12 / 7 : ℝ) • k4 + ((8 / 7 : ℝ) • k5 + 0))))))
          = A (t + 0.25 * dt + 0.25 * dt + 0.25 * dt + 0.25 * dt)
            (x - (dt / 7) • ((3 : ℝ) • k1 - (2 : ℝ) • k2 - (12 : ℝ) • k3 + (12 : ℝ) • k4 - (8 : ℝ) • k5)) :=
        hA (by ring) (by module)
      rw [e6]
      module

end rk

/-- Order of accuracy for every smooth slope. -/
theorem rkPure_order (m : LinScheme) : HasOrder m.order (fun {E} _ _ F x dt => rkPure (V := E) m (fun _ => F) 0 x dt) := by
  intro E _ _ F y hF hy
  obtain ⟨D⟩ := exists_derivs hF
  have k1 : D.IsB (fun _ => F (y 0)) _ := Derivs.IsB.first
  cases m with
  | rk2 =>
      have k2 := (k1.smul (1 / 2)).stage
      have := k2.order hy rfl (p := 2) (by norm_num) (fun k hk => by
        interval_cases k <;> simp only [Derivs.B, Derivs.stageB, Derivs.exactB] ; norm_num)
      refine this.congr_left fun h => ?_
      simp only [rkPure, smul_smul]
      rw [show h * (1 / 2) = h / 2 by ring]
  | rk4 =>
      have k2 := (k1.smul 0.5).stage
      have k3 := (k2.smul 0.5).stage
      have k4 := k3.stage
      have g := (((k1.add (k2.smul 2)).add (k3.smul 2)).add k4).smul (1 / 6)
      have := g.order hy rfl (p := 4) (by norm_num) (fun k hk => by
        interval_cases k <;> simp only [Derivs.B, Derivs.stageB, Derivs.exactB] <;> norm_num)
      exact this
  | rk5 =>
      have k2 := (k1.smul 0.25).stage
      have k3 := ((k1.add k2).smul (1 / 8)).stage
      have k4 := ((((k2.smul 0.5).sub k3)).smul (-1)).stage
      have k5 := (((k1.smul 3).add (k4.smul 9)).smul (1 / 16)).stage
      have k6 := ((((((k1.smul 3).sub (k2.smul 2)).sub (k3.smul 12)).add (k4.smul 12)).sub (k5.smul 8)).smul (-1 / 7)).stage
      have g := (((((k1.smul 7).add (k3.smul 32)).add (k4.smul 12)).add (k5.smul 32)).add (k6.smul 7)).smul (1 / 90)
      have := g.order hy rfl (p := 5) (by norm_num) (fun k hk => by
        interval_cases k <;> simp only [Derivs.B, Derivs.stageB, Derivs.exactB] <;> norm_num)
      refine this.congr_left fun h => ?_
      simp only [rkPure]
      have e4 : ∀ x a b : E, x + h • (-1 : ℝ) • (a - b) = x - h • (a - b) := fun x a b => by module
      have e5 : ∀ x a : E, x + h • (1 / 16 : ℝ) • a = x + (h / 16) • a := fun x a => by module
      have e6 : ∀ x a : E, x + h • (-1 / 7 : ℝ) • a = x - (h / 7) • a := fun x a => by module
      have e7 : ∀ x a : E, x + h • (1 / 90 : ℝ) • a = x + (h / 90) • a := fun x a => by module
      simp only [e4, e5, e6, e7]

end Bolt
