import Verif.Spec.Driver
import Mathlib.Algebra.Order.Archimedean.Basic
import Mathlib.Algebra.Order.Floor.Ring
import Mathlib.Data.Rat.Floor
import Mathlib.Tactic.Linarith
import Mathlib.Tactic.Ring
import Mathlib.Tactic.FieldSimp
import Mathlib.Tactic.Push
import Mathlib.Algebra.Order.BigOperators.Group.List
import Mathlib.Tactic.LinearCombination

set_option linter.unusedSectionVars false

namespace Bolt

variable {K : Type} [Field K] [LinearOrder K] [FloorRing K] [IsStrictOrderedRing K]

theorem deltaDt_eq {D : K} (hD : D ≠ 0) (t : K) : deltaDt D t = (⌊t / D⌋ + 1) * D - t := by
  unfold deltaDt
  rw [show Int.fract (t / D) = t / D - ⌊t / D⌋ from rfl]
  field_simp
  ring

theorem deltaDt_pos {D : K} (hD : 0 < D) (t : K) : 0 < deltaDt D t :=
  mul_pos (by linarith [Int.fract_lt_one (t / D)]) hD

theorem deltaDt_mul {D : K} (hD : 0 < D) (k : ℤ) : deltaDt D (k * D) = D := by
  unfold deltaDt
  rw [mul_div_cancel_right₀ _ hD.ne', Int.fract_intCast]
  ring

theorem floor_mul_div {D : K} (hD : 0 < D) (k : ℤ) : ⌊(k * D) / D⌋ = k := by
  rw [mul_div_cancel_right₀ _ hD.ne', Int.floor_intCast]

theorem floor_mul_le {D : K} (hD : 0 < D) (t : K) : ⌊t / D⌋ * D ≤ t := by
  have := Int.floor_le (t / D)
  rwa [le_div_iff₀ hD] at this

theorem lt_floor_mul {D : K} (hD : 0 < D) (t : K) : t < (⌊t / D⌋ + 1) * D := by
  have := Int.lt_floor_add_one (t / D)
  rwa [div_lt_iff₀ hD] at this

/-- The next multiple is at least one full step away. -/
def DriverReady (P : DriverParams K) (t : K) : Prop := P.dt ≤ deltaDt P.dtDumpMoments t

theorem ready_mul {P : DriverParams K} (h0 : 0 < P.dt) (hD : P.dt < P.dtDumpMoments) (k : ℤ) : DriverReady P (k * P.dtDumpMoments) := by
  unfold DriverReady
  rw [deltaDt_mul (h0.trans hD)]
  exact hD.le

/-- The next multiple of the interval. -/
def nextMul (D t : K) : K := ((⌊t / D⌋ + 1 : ℤ) : K) * D

theorem advance_cases {P : DriverParams K} (h0 : 0 < P.dt) (hD : P.dt < P.dtDumpMoments) {t : K} (hr : DriverReady P t) :
    (t + P.dt < nextMul P.dtDumpMoments t ∧ nextMul P.dtDumpMoments t - (t + P.dt) < P.dt ∧
      advance P t = ([.step P.dt, .step (nextMul P.dtDumpMoments t - (t + P.dt)), .dumpMoments (nextMul P.dtDumpMoments t),
        .dumpFields (nextMul P.dtDumpMoments t)], nextMul P.dtDumpMoments t)) ∨
    (t + P.dt = nextMul P.dtDumpMoments t ∧ advance P t = ([.step P.dt], nextMul P.dtDumpMoments t)) ∨
    (t + P.dt + P.dt ≤ nextMul P.dtDumpMoments t ∧ ⌊(t + P.dt) / P.dtDumpMoments⌋ = ⌊t / P.dtDumpMoments⌋ ∧
      advance P t = ([.step P.dt], t + P.dt)) := by
  have hDp : 0 < P.dtDumpMoments := h0.trans hD
  have hle : t + P.dt ≤ nextMul P.dtDumpMoments t := by
    unfold DriverReady at hr
    rw [deltaDt_eq hDp.ne'] at hr
    unfold nextMul
    push_cast
    linarith
  rcases hle.lt_or_eq with hlt | heq
  · have hfl : ⌊(t + P.dt) / P.dtDumpMoments⌋ = ⌊t / P.dtDumpMoments⌋ := by
      rw [Int.floor_eq_iff, le_div_iff₀ hDp, div_lt_iff₀ hDp]
      refine ⟨by linarith [floor_mul_le hDp t], ?_⟩
      unfold nextMul at hlt
      push_cast at hlt
      exact hlt
    have hdel : deltaDt P.dtDumpMoments (t + P.dt) = nextMul P.dtDumpMoments t - (t + P.dt) := by
      rw [deltaDt_eq hDp.ne', hfl]
      unfold nextMul
      push_cast
      ring
    by_cases hh : nextMul P.dtDumpMoments t - (t + P.dt) < P.dt
    · refine Or.inl ⟨hlt, hh, ?_⟩
      have e : t + P.dt + (nextMul P.dtDumpMoments t - (t + P.dt)) = nextMul P.dtDumpMoments t := by ring
      simp only [advance, hdel, if_pos hDp.ne', if_pos hh, e]
    · refine Or.inr (Or.inr ⟨by linarith [not_lt.mp hh], hfl, ?_⟩)
      simp only [advance, hdel, if_pos hDp.ne', if_neg hh]
  · refine Or.inr (Or.inl ⟨heq, ?_⟩)
    have hdel : deltaDt P.dtDumpMoments (t + P.dt) = P.dtDumpMoments := by
      rw [heq]
      exact deltaDt_mul hDp _
    have hh : ¬P.dtDumpMoments < P.dt := not_lt.mpr hD.le
    simp only [advance, hdel, if_pos hDp.ne', if_neg hh]
    rw [heq]

/-- The write of the distribution at the end of an iteration. -/
def tailF (P : DriverParams K) (t : K) : List (Act K) := if Int.fract (t / P.dtDumpF) < P.tol then [.dumpF t] else []

theorem loopBody_eq (P : DriverParams K) (t : K) :
    loopBody P t = ((advance P t).1 ++ tailF P (advance P t).2, (advance P t).2) := by
  unfold loopBody tailF
  split_ifs <;> simp

theorem stepsOf_append (a b : List (Act K)) : stepsOf (a ++ b) = stepsOf a ++ stepsOf b := by
  induction a with
  | nil => rfl
  | cons x r ih => cases x <;> simp [stepsOf, ih]

theorem stepsOf_tailF (P : DriverParams K) (t : K) : stepsOf (tailF P t) = [] := by
  unfold tailF
  split_ifs <;> rfl

/-- One pass of the loop: the facts used below. -/
structure PassFacts (P : DriverParams K) (t : K) : Prop where
  ready : DriverReady P (loopBody P t).2
  ge : t + P.dt ≤ (loopBody P t).2
  lt : (loopBody P t).2 < t + 2 * P.dt
  le : (loopBody P t).2 ≤ nextMul P.dtDumpMoments t
  sum : (loopBody P t).2 = t + (stepsOf (loopBody P t).1).sum
  steps : ∀ h ∈ stepsOf (loopBody P t).1, 0 < h ∧ h ≤ P.dt

theorem passFacts {P : DriverParams K} (h0 : 0 < P.dt) (hD : P.dt < P.dtDumpMoments) {t : K} (hr : DriverReady P t) : PassFacts P t := by
  have hDp : 0 < P.dtDumpMoments := h0.trans hD
  rcases advance_cases h0 hD hr with ⟨a, b, e⟩ | ⟨a, e⟩ | ⟨a, b, e⟩
  · constructor <;> rw [loopBody_eq] <;> simp only [e]
    · exact ready_mul h0 hD _
    · exact a.le
    · linarith
    · exact le_rfl
    · simp [stepsOf_append, stepsOf_tailF, stepsOf]
      ring
    · simp only [stepsOf_append, stepsOf_tailF, stepsOf, List.append_nil, List.mem_cons, List.not_mem_nil, or_false]
      rintro h (rfl | rfl)
      · exact ⟨h0, le_rfl⟩
      · exact ⟨by linarith, b.le⟩
  · constructor <;> rw [loopBody_eq] <;> simp only [e]
    · exact ready_mul h0 hD _
    · exact a.le
    · linarith
    · exact le_rfl
    · simp [stepsOf_append, stepsOf_tailF, stepsOf, a]
    · simp only [stepsOf_append, stepsOf_tailF, stepsOf, List.append_nil, List.mem_cons, List.not_mem_nil, or_false]
      rintro h rfl
      exact ⟨h0, le_rfl⟩
  · constructor <;> rw [loopBody_eq] <;> simp only [e]
    · unfold DriverReady
      rw [deltaDt_eq hDp.ne', b]
      unfold nextMul at a
      push_cast at a
      linarith
    · exact le_rfl
    · linarith
    · linarith
    · simp [stepsOf_append, stepsOf_tailF, stepsOf]
    · simp only [stepsOf_append, stepsOf_tailF, stepsOf, List.append_nil, List.mem_cons, List.not_mem_nil, or_false]
      rintro h rfl
      exact ⟨h0, le_rfl⟩

theorem while_unique {cond : K → Prop} {body : K → List (Act K) × K} {t : K} {acts acts' : List (Act K)} {t' t'' : K}
    (h : ScriptLoop cond body t acts t') (h' : ScriptLoop cond body t acts' t'') : acts = acts' ∧ t' = t'' := by
  induction h generalizing acts' t'' with
  | done hc =>
    cases h' with
    | done => exact ⟨rfl, rfl⟩
    | iter hc' => exact absurd hc' hc
  | iter hc _ ih =>
    cases h' with
    | done hc' => exact absurd hc hc'
    | iter _ hr =>
      obtain ⟨a, b⟩ := ih hr
      exact ⟨by rw [a], b⟩

theorem while_end {cond : K → Prop} {body : K → List (Act K) × K} {t : K} {acts : List (Act K)} {t' : K}
    (h : ScriptLoop cond body t acts t') : ¬cond t' := by
  induction h with
  | done hc => exact hc
  | iter _ _ ih => exact ih

theorem while_end_lt {T : K} {body : K → List (Act K) × K} {t : K} {acts : List (Act K)} {t' : K}
    (h : ScriptLoop (fun t => t < T) body t acts t') : T ≤ t' :=
  not_lt.mp (while_end (cond := fun t => t < T) h)

/-- A loop terminates when a number that every pass decreases by at least `δ` is positive while it runs. -/
theorem while_terminates {cond : K → Prop} {body : K → List (Act K) × K} {δ : K} (hδ : 0 < δ) (m : K → K) (good : K → Prop)
    (hc : ∀ t, good t → cond t → 0 < m t) (hb : ∀ t, good t → cond t → good (body t).2 ∧ m (body t).2 ≤ m t - δ) (t : K) (hg : good t) :
    ∃ acts t', ScriptLoop cond body t acts t' := by
  obtain ⟨n, hn⟩ := exists_nat_ge (m t / δ)
  rw [div_le_iff₀ hδ] at hn
  induction n generalizing t with
  | zero =>
    refine ⟨[], t, .done fun h => ?_⟩
    have := hc t hg h
    simp at hn
    linarith
  | succ n ih =>
    by_cases h : cond t
    · obtain ⟨g, d⟩ := hb t hg h
      obtain ⟨acts, t', w⟩ := ih _ g (by push_cast at hn; linarith)
      exact ⟨_, _, .iter h w⟩
    · exact ⟨[], t, .done h⟩

section facts

variable {P : DriverParams K} {cond : K → Prop}

theorem loop_facts (h0 : 0 < P.dt) (hD : P.dt < P.dtDumpMoments) {t t' : K} {acts : List (Act K)} (hr : DriverReady P t)
    (h : ScriptLoop cond (loopBody P) t acts t') : t' = t + (stepsOf acts).sum ∧ (∀ x ∈ stepsOf acts, 0 < x ∧ x ≤ P.dt) ∧ t ≤ t' := by
  induction h with
  | done _ => exact ⟨by simp [stepsOf], by simp [stepsOf], le_rfl⟩
  | iter _ _ ih =>
    have pf := passFacts h0 hD hr
    obtain ⟨a, b, c⟩ := ih pf.ready
    refine ⟨?_, ?_, ?_⟩
    · rw [stepsOf_append, List.sum_append, a]
      have := pf.sum
      linarith
    · rw [stepsOf_append]
      intro x hx
      rcases List.mem_append.mp hx with hx | hx
      · exact pf.steps x hx
      · exact b x hx
    · linarith [pf.ge]

/-- Labels agree with the clock. -/
def Labelled (t : K) : List (Act K) → Prop
  | [] => True
  | .step h :: r => Labelled (t + h) r
  | x :: r => (∀ u, x.label = some u → u = t) ∧ Labelled t r

theorem labelled_append (t : K) (a b : List (Act K)) : Labelled t (a ++ b) ↔ Labelled t a ∧ Labelled (t + (stepsOf a).sum) b := by
  induction a generalizing t with
  | nil => simp [Labelled, stepsOf]
  | cons x r ih =>
    cases x <;> simp [Labelled, stepsOf, ih, and_assoc, add_assoc]

theorem labelled_split {t : K} {a b : List (Act K)} {x : Act K} {u : K} (h : Labelled t (a ++ x :: b)) (hx : x.label = some u) :
    u = clockAfter t a := by
  rw [labelled_append] at h
  unfold clockAfter
  cases x <;> simp [Labelled, Act.label] at h hx ⊢ <;> (rw [← hx]; exact h.2.1)

theorem pass_labelled (h0 : 0 < P.dt) (hD : P.dt < P.dtDumpMoments) {t : K} (hr : DriverReady P t) : Labelled t (loopBody P t).1 := by
  have ht : ∀ u, Labelled u (tailF P u) := by
    intro u
    unfold tailF
    split_ifs <;> simp [Labelled, Act.label]
  rcases advance_cases h0 hD hr with ⟨a, b, e⟩ | ⟨a, e⟩ | ⟨a, b, e⟩ <;> rw [loopBody_eq] <;> simp only [e, labelled_append]
  · refine ⟨by simp [Labelled, Act.label], ?_⟩
    have e3 : t + (P.dt + (nextMul P.dtDumpMoments t - (t + P.dt))) = nextMul P.dtDumpMoments t := by ring
    simpa [stepsOf, e3] using ht _
  · refine ⟨by simp [Labelled], ?_⟩
    simpa [stepsOf, a] using ht _
  · refine ⟨by simp [Labelled], ?_⟩
    simpa [stepsOf] using ht _

theorem loop_labelled (h0 : 0 < P.dt) (hD : P.dt < P.dtDumpMoments) {t t' : K} {acts : List (Act K)} (hr : DriverReady P t)
    (h : ScriptLoop cond (loopBody P) t acts t') : Labelled t acts := by
  induction h with
  | done _ => trivial
  | iter _ _ ih =>
    have pf := passFacts h0 hD hr
    rw [labelled_append]
    refine ⟨pass_labelled h0 hD hr, ?_⟩
    rw [← pf.sum]
    exact ih pf.ready

/-- Actions of one pass. -/
theorem pass_mem (h0 : 0 < P.dt) (hD : P.dt < P.dtDumpMoments) {t : K} (hr : DriverReady P t) :
    (∀ u, .dumpMoments u ∈ (loopBody P t).1 ↔ u = nextMul P.dtDumpMoments t ∧ t + P.dt < u ∧ u - (t + P.dt) < P.dt) ∧
    (∀ u, .dumpFields u ∈ (loopBody P t).1 ↔ u = nextMul P.dtDumpMoments t ∧ t + P.dt < u ∧ u - (t + P.dt) < P.dt) ∧
    (∀ u, .dumpF u ∈ (loopBody P t).1 ↔ u = (loopBody P t).2 ∧ Int.fract (u / P.dtDumpF) < P.tol) ∧
    (∀ u, .loadF u ∉ (loopBody P t).1) ∧ (∀ u, .loadFields u ∉ (loopBody P t).1) := by
  have hm : ∀ u v, .dumpMoments u ∉ tailF P v := by
    intro u v
    unfold tailF
    split_ifs <;> simp
  have hf : ∀ u v, .dumpFields u ∉ tailF P v := by
    intro u v
    unfold tailF
    split_ifs <;> simp
  have hl : ∀ u v, .loadF u ∉ tailF P v := by
    intro u v
    unfold tailF
    split_ifs <;> simp
  have hl' : ∀ u v, .loadFields u ∉ tailF P v := by
    intro u v
    unfold tailF
    split_ifs <;> simp
  have hF : ∀ u v, .dumpF u ∈ tailF P v ↔ u = v ∧ Int.fract (u / P.dtDumpF) < P.tol := by
    intro u v
    unfold tailF
    split_ifs with c
    · simp only [List.mem_singleton, Act.dumpF.injEq]
      exact ⟨fun e => ⟨e, by rwa [e]⟩, fun e => e.1⟩
    · simp only [List.not_mem_nil, false_iff, not_and]
      rintro rfl
      exact c
  rw [loopBody_eq]
  rcases advance_cases h0 hD hr with ⟨a, b, e⟩ | ⟨a, e⟩ | ⟨a, b, e⟩
  · simp only [e, List.mem_append, List.mem_cons, hm, hf, hF, hl, hl', reduceCtorEq, Act.dumpMoments.injEq, Act.dumpFields.injEq,
      List.not_mem_nil, or_false, false_or, not_false_eq_true, implies_true, and_true]
    exact ⟨fun u => ⟨fun q => ⟨q, by rw [q]; exact a, by rw [q]; exact b⟩, fun q => q.1⟩,
      fun u => ⟨fun q => ⟨q, by rw [q]; exact a, by rw [q]; exact b⟩, fun q => q.1⟩⟩
  · simp only [e, List.mem_append, List.mem_cons, hm, hf, hF, hl, hl', reduceCtorEq,
      List.not_mem_nil, or_false, false_or, not_false_eq_true, implies_true, and_true, false_iff, not_and]
    exact ⟨fun u q c => by rw [q, a] at c; exact absurd c (lt_irrefl _), fun u q c => by rw [q, a] at c; exact absurd c (lt_irrefl _)⟩
  · simp only [e, List.mem_append, List.mem_cons, hm, hf, hF, hl, hl', reduceCtorEq,
      List.not_mem_nil, or_false, false_or, not_false_eq_true, implies_true, and_true, false_iff, not_and]
    exact ⟨fun u q _ c => by rw [q] at c; linarith, fun u q _ c => by rw [q] at c; linarith⟩

theorem loop_no_loads (h0 : 0 < P.dt) (hD : P.dt < P.dtDumpMoments) {t t' : K} {acts : List (Act K)} (hr : DriverReady P t)
    (h : ScriptLoop cond (loopBody P) t acts t') : ∀ u, .loadF u ∉ acts ∧ .loadFields u ∉ acts := by
  induction h with
  | done _ => simp
  | iter _ _ ih =>
    have pm := pass_mem h0 hD hr
    intro u
    have := ih (passFacts h0 hD hr).ready u
    simp [pm.2.2.2.1, pm.2.2.2.2, this]

/-- Labels written by a loop lie after its start. -/
theorem loop_labels_after (h0 : 0 < P.dt) (hD : P.dt < P.dtDumpMoments) {t t' : K} {acts : List (Act K)} (hr : DriverReady P t)
    (h : ScriptLoop cond (loopBody P) t acts t') {u : K} (hu : .dumpF u ∈ acts ∨ .dumpFields u ∈ acts ∨ .dumpMoments u ∈ acts) :
    t < u ∧ u ≤ t' := by
  induction h with
  | done _ => simp at hu
  | iter hc hrest ih =>
    rename_i s acts' s'
    have pf := passFacts h0 hD hr
    have pm := pass_mem h0 hD hr
    have lf := loop_facts h0 hD pf.ready hrest
    have key : (.dumpF u ∈ (loopBody P s).1 ∨ .dumpFields u ∈ (loopBody P s).1 ∨ .dumpMoments u ∈ (loopBody P s).1) → s < u ∧ u ≤ s' := by
      have hop : u = nextMul P.dtDumpMoments s ∧ s + P.dt < u ∧ u - (s + P.dt) < P.dt → s < u ∧ u ≤ s' := by
        rintro ⟨e, a, b⟩
        refine ⟨by linarith, ?_⟩
        have : u ≤ (loopBody P s).2 := by
          rcases advance_cases h0 hD hr with ⟨_, _, q⟩ | ⟨q, _⟩ | ⟨q, _, _⟩
          · rw [loopBody_eq, q, e]
          · rw [e] at a
            exact absurd a (by rw [q]; exact lt_irrefl _)
          · rw [e] at b
            linarith
        linarith [lf.2.2]
      rintro (q | q | q)
      · rw [pm.2.2.1] at q
        rw [q.1]
        exact ⟨by linarith [pf.ge], lf.2.2⟩
      · exact hop ((pm.2.1 u).mp q)
      · exact hop ((pm.1 u).mp q)
    simp only [List.mem_append] at hu
    by_cases hb : .dumpF u ∈ (loopBody P s).1 ∨ .dumpFields u ∈ (loopBody P s).1 ∨ .dumpMoments u ∈ (loopBody P s).1
    · exact key hb
    · have := ih pf.ready (by tauto)
      exact ⟨by linarith [pf.ge, this.1], this.2⟩

/-- Every multiple of the interval that the clock passes is the clock at the end of a pass. -/
theorem loop_visits (h0 : 0 < P.dt) (hD : P.dt < P.dtDumpMoments) {t t' : K} {acts : List (Act K)} (hr : DriverReady P t)
    (h : ScriptLoop cond (loopBody P) t acts t') {k : ℤ} (hk : t < k * P.dtDumpMoments) (hk' : k * P.dtDumpMoments ≤ t') :
    (∃ a b, acts = a ++ b ∧ k * P.dtDumpMoments = clockAfter t a) ∧
      (Int.fract (k * P.dtDumpMoments / P.dtDumpF) < P.tol → .dumpF (k * P.dtDumpMoments) ∈ acts) := by
  have hDp : 0 < P.dtDumpMoments := h0.trans hD
  induction h with
  | done _ => exact absurd (hk.trans_le hk') (lt_irrefl _)
  | iter hc hrest ih =>
    rename_i s acts' s'
    have pf := passFacts h0 hD hr
    have pm := pass_mem h0 hD hr
    have hM : nextMul P.dtDumpMoments s ≤ k * P.dtDumpMoments := by
      unfold nextMul
      refine mul_le_mul_of_nonneg_right ?_ hDp.le
      have : ⌊s / P.dtDumpMoments⌋ < k := by
        rw [Int.floor_lt, div_lt_iff₀ hDp]
        exact hk
      exact_mod_cast this
    by_cases hle : k * P.dtDumpMoments ≤ (loopBody P s).2
    · have heq : k * P.dtDumpMoments = (loopBody P s).2 := le_antisymm hle (pf.le.trans hM)
      refine ⟨⟨_, _, rfl, ?_⟩, fun hf => ?_⟩
      · rw [heq]
        exact pf.sum
      · exact List.mem_append_left _ ((pm.2.2.1 _).mpr ⟨heq, hf⟩)
    · obtain ⟨⟨a, b, e, c⟩, d⟩ := ih pf.ready (not_le.mp hle) hk'
      refine ⟨⟨(loopBody P s).1 ++ a, b, by rw [e, List.append_assoc], ?_⟩, fun hf => List.mem_append_right _ (d hf)⟩
      rw [c]
      unfold clockAfter
      rw [stepsOf_append, List.sum_append]
      have := pf.sum
      linarith

theorem loop_dump_times (h0 : 0 < P.dt) (hD : P.dt < P.dtDumpMoments) {t t' : K} {acts : List (Act K)} (hr : DriverReady P t)
    (h : ScriptLoop cond (loopBody P) t acts t') (u : K) :
    (.dumpMoments u ∈ acts → ∃ k : ℤ, u = k * P.dtDumpMoments) ∧ (.dumpFields u ∈ acts ↔ .dumpMoments u ∈ acts) ∧
      (.dumpF u ∈ acts → Int.fract (u / P.dtDumpF) < P.tol) := by
  induction h with
  | done _ => simp
  | iter hc hrest ih =>
    have pf := passFacts h0 hD hr
    have pm := pass_mem h0 hD hr
    obtain ⟨a, b, c⟩ := ih pf.ready
    simp only [List.mem_append]
    refine ⟨?_, ?_, ?_⟩
    · rintro (q | q)
      · exact ⟨_, ((pm.1 u).mp q).1⟩
      · exact a q
    · rw [b, pm.1, pm.2.1]
    · rintro (q | q)
      · exact ((pm.2.2.1 u).mp q).2
      · exact c q

/-- The clock never returns exactly to a multiple by full steps: every multiple is dumped. -/
theorem loop_all (h0 : 0 < P.dt) (hD : P.dt < P.dtDumpMoments) (hn : ∀ n : ℤ, P.dtDumpMoments ≠ n * P.dt) {t t' : K} {acts : List (Act K)}
    (hr : DriverReady P t) (hi : ∃ j : ℕ, t = ⌊t / P.dtDumpMoments⌋ * P.dtDumpMoments + j * P.dt)
    (h : ScriptLoop cond (loopBody P) t acts t') {k : ℤ} (hk : t < k * P.dtDumpMoments) (hk' : k * P.dtDumpMoments ≤ t') :
    .dumpMoments (k * P.dtDumpMoments) ∈ acts := by
  have hDp : 0 < P.dtDumpMoments := h0.trans hD
  induction h with
  | done _ => exact absurd (hk.trans_le hk') (lt_irrefl _)
  | iter hc hrest ih =>
    rename_i s acts' s'
    have pf := passFacts h0 hD hr
    have pm := pass_mem h0 hD hr
    have hM : nextMul P.dtDumpMoments s ≤ k * P.dtDumpMoments := by
      unfold nextMul
      refine mul_le_mul_of_nonneg_right ?_ hDp.le
      have : ⌊s / P.dtDumpMoments⌋ < k := by
        rw [Int.floor_lt, div_lt_iff₀ hDp]
        exact hk
      exact_mod_cast this
    obtain ⟨j, hj⟩ := hi
    rcases advance_cases h0 hD hr with ⟨a, b, e⟩ | ⟨a, e⟩ | ⟨a, b, e⟩
    · have e2 : (loopBody P s).2 = nextMul P.dtDumpMoments s := by rw [loopBody_eq, e]
      rcases hM.lt_or_eq with hlt | heq
      · refine List.mem_append_right _ (ih pf.ready ⟨0, ?_⟩ (by rwa [e2]) hk')
        rw [e2]
        unfold nextMul
        rw [floor_mul_div hDp]
        simp
      · rw [← heq]
        exact List.mem_append_left _ ((pm.1 _).mpr ⟨rfl, a, b⟩)
    · exfalso
      refine hn (j + 1) ?_
      unfold nextMul at a
      push_cast at a ⊢
      linarith
    · have e2 : (loopBody P s).2 = s + P.dt := by rw [loopBody_eq, e]
      refine List.mem_append_right _ (ih pf.ready ⟨j + 1, ?_⟩ (by rw [e2]; linarith) hk')
      rw [e2, b]
      push_cast
      linarith

/-- The clock is a multiple of the interval plus a whole number of full steps. -/
def ClockForm (P : DriverParams K) (t : K) : Prop := ∃ j : ℕ, t = ⌊t / P.dtDumpMoments⌋ * P.dtDumpMoments + j * P.dt

theorem clockForm_mul (h0 : 0 < P.dt) (hD : P.dt < P.dtDumpMoments) (k : ℤ) : ClockForm P (k * P.dtDumpMoments) := by
  refine ⟨0, ?_⟩
  rw [floor_mul_div (h0.trans hD)]
  simp

theorem clockForm_pass (h0 : 0 < P.dt) (hD : P.dt < P.dtDumpMoments) {t : K} (hr : DriverReady P t) (hf : ClockForm P t) :
    ClockForm P (loopBody P t).2 := by
  rcases advance_cases h0 hD hr with ⟨_, _, e⟩ | ⟨_, e⟩ | ⟨_, b, e⟩ <;> rw [loopBody_eq, e]
  · exact clockForm_mul h0 hD _
  · exact clockForm_mul h0 hD _
  · obtain ⟨j, hj⟩ := hf
    refine ⟨j + 1, ?_⟩
    dsimp only
    rw [b]
    push_cast
    linarith

theorem clockForm_expand (h0 : 0 < P.dt) (hD : P.dt < P.dtDumpMoments) {t : K} (hf : ClockForm P t) :
    ∃ (k : ℤ) (j : ℕ), t = k * P.dtDumpMoments + j * P.dt ∧ j * P.dt < P.dtDumpMoments := by
  obtain ⟨j, hj⟩ := hf
  exact ⟨_, j, hj, by linarith [lt_floor_mul (h0.trans hD) t]⟩

theorem loop_form (h0 : 0 < P.dt) (hD : P.dt < P.dtDumpMoments) {t t' : K} {acts : List (Act K)} (hr : DriverReady P t)
    (hf : ClockForm P t) (h : ScriptLoop cond (loopBody P) t acts t') : ClockForm P t' ∧ ∀ u, .dumpF u ∈ acts → ClockForm P u := by
  induction h with
  | done _ => exact ⟨hf, by simp⟩
  | iter hc hrest ih =>
    have pf := passFacts h0 hD hr
    have cf := clockForm_pass h0 hD hr hf
    obtain ⟨a, b⟩ := ih pf.ready cf
    refine ⟨a, fun u hu => ?_⟩
    rcases List.mem_append.mp hu with q | q
    · rw [((pass_mem h0 hD hr).2.2.1 u).mp q |>.1]
      exact cf
    · exact b u q

/-- With a whole number of steps to the interval the script never writes moments or fields. -/
theorem loop_none (h0 : 0 < P.dt) (hD : P.dt < P.dtDumpMoments) {n : ℤ} (hn : P.dtDumpMoments = n * P.dt) {t t' : K} {acts : List (Act K)}
    (hr : DriverReady P t) (hi : ∃ j : ℤ, t = j * P.dt) (h : ScriptLoop cond (loopBody P) t acts t') :
    (∀ u, .dumpMoments u ∉ acts ∧ .dumpFields u ∉ acts) ∧ ∀ x ∈ stepsOf acts, x = P.dt := by
  induction h with
  | done _ => simp [stepsOf]
  | iter hc hrest ih =>
    rename_i s acts' s'
    have pf := passFacts h0 hD hr
    have pm := pass_mem h0 hD hr
    obtain ⟨j, hj⟩ := hi
    have nohop : ¬(s + P.dt < nextMul P.dtDumpMoments s ∧ nextMul P.dtDumpMoments s - (s + P.dt) < P.dt) := by
      rintro ⟨a, b⟩
      have e : nextMul P.dtDumpMoments s - (s + P.dt) = (((⌊s / P.dtDumpMoments⌋ + 1) * n - j - 1 : ℤ) : K) * P.dt := by
        unfold nextMul
        push_cast
        linear_combination ((⌊s / P.dtDumpMoments⌋ : K) + 1) * hn - hj
      have a' : 0 < (((⌊s / P.dtDumpMoments⌋ + 1) * n - j - 1 : ℤ) : K) * P.dt := by rw [← e]; linarith
      have b' : (((⌊s / P.dtDumpMoments⌋ + 1) * n - j - 1 : ℤ) : K) * P.dt < 1 * P.dt := by rw [← e]; linarith
      have a2 := pos_of_mul_pos_left a' h0.le
      have b2 := lt_of_mul_lt_mul_right b' h0.le
      have a3 : 0 < (⌊s / P.dtDumpMoments⌋ + 1) * n - j - 1 := by exact_mod_cast a2
      have b3 : (⌊s / P.dtDumpMoments⌋ + 1) * n - j - 1 < 1 := by exact_mod_cast b2
      omega
    have hstep : (loopBody P s).2 = s + P.dt ∧ stepsOf (loopBody P s).1 = [P.dt] := by
      rcases advance_cases h0 hD hr with ⟨a, b, e⟩ | ⟨a, e⟩ | ⟨a, b, e⟩
      · exact absurd ⟨a, b⟩ nohop
      · rw [loopBody_eq, e]
        simp [stepsOf_append, stepsOf_tailF, stepsOf, a]
      · rw [loopBody_eq, e]
        simp [stepsOf_append, stepsOf_tailF, stepsOf]
    obtain ⟨c, d⟩ := ih pf.ready ⟨j + 1, by rw [hstep.1, hj]; push_cast; ring⟩
    refine ⟨fun u => ?_, fun x hx => ?_⟩
    · have hcu := c u
      simp only [List.mem_append, hcu.1, hcu.2, or_false, pm.1, pm.2.1]
      refine ⟨?_, ?_⟩ <;>
      · rintro ⟨e, a, b⟩
        rw [e] at a b
        exact nohop ⟨a, b⟩
    · rw [stepsOf_append, List.mem_append, hstep.2] at hx
      rcases hx with hx | hx
      · simpa using hx
      · exact d x hx

/-- When one interval is a multiple of the other, the distribution is written at multiples only. -/
theorem loop_f_times (h0 : 0 < P.dt) (hD : P.dt < P.dtDumpMoments) {m : ℤ} (hm : 0 < m) (hF : P.dtDumpF = m * P.dtDumpMoments)
    (htol : P.tol * P.dtDumpF ≤ P.dt) {t t' : K} {acts : List (Act K)} (hr : DriverReady P t)
    (h : ScriptLoop cond (loopBody P) t acts t') {u : K} (hu : .dumpF u ∈ acts) : ∃ k : ℤ, u = k * P.dtDumpF := by
  have hDp : 0 < P.dtDumpMoments := h0.trans hD
  have hmK : (0 : K) < m := by exact_mod_cast hm
  have hFp : 0 < P.dtDumpF := by rw [hF]; exact mul_pos hmK hDp
  induction h with
  | done _ => simp at hu
  | iter hc hrest ih =>
    rename_i s acts' s'
    have pf := passFacts h0 hD hr
    have pm := pass_mem h0 hD hr
    rcases List.mem_append.mp hu with q | q
    · rw [pm.2.2.1] at q
      obtain ⟨e, f⟩ := q
      refine ⟨⌊u / P.dtDumpF⌋, ?_⟩
      have hgap : u - ⌊u / P.dtDumpF⌋ * P.dtDumpF < P.dt := by
        rw [show Int.fract (u / P.dtDumpF) = u / P.dtDumpF - ⌊u / P.dtDumpF⌋ from rfl] at f
        have := mul_lt_mul_of_pos_right f hFp
        rw [sub_mul, div_mul_cancel₀ _ hFp.ne'] at this
        linarith
      have hlo := floor_mul_le hFp u
      have hcase : (∃ q : ℤ, u = q * P.dtDumpMoments) ∨ ⌊u / P.dtDumpMoments⌋ * P.dtDumpMoments + P.dt ≤ u := by
        rcases advance_cases h0 hD hr with ⟨a, b, e'⟩ | ⟨a, e'⟩ | ⟨a, b, e'⟩
        · left
          rw [e, loopBody_eq, e']
          exact ⟨_, rfl⟩
        · left
          rw [e, loopBody_eq, e']
          exact ⟨_, rfl⟩
        · right
          rw [e, loopBody_eq, e']
          simp only [b]
          linarith [floor_mul_le hDp s]
      rcases hcase with ⟨q, hq⟩ | hq
      · have e1 : u - ⌊u / P.dtDumpF⌋ * P.dtDumpF = ((q - ⌊u / P.dtDumpF⌋ * m : ℤ) : K) * P.dtDumpMoments := by
          push_cast
          linear_combination hq - (⌊u / P.dtDumpF⌋ : K) * hF
        have hz : q - ⌊u / P.dtDumpF⌋ * m = 0 := by
          have l : (0 : K) ≤ ((q - ⌊u / P.dtDumpF⌋ * m : ℤ) : K) * P.dtDumpMoments := by rw [← e1]; linarith
          have r : ((q - ⌊u / P.dtDumpF⌋ * m : ℤ) : K) * P.dtDumpMoments < 1 * P.dtDumpMoments := by rw [← e1]; linarith
          have l2 : (0 : K) ≤ ((q - ⌊u / P.dtDumpF⌋ * m : ℤ) : K) := nonneg_of_mul_nonneg_left l hDp
          have r2 := lt_of_mul_lt_mul_right r hDp.le
          have l3 : 0 ≤ q - ⌊u / P.dtDumpF⌋ * m := by exact_mod_cast l2
          have r3 : q - ⌊u / P.dtDumpF⌋ * m < 1 := by exact_mod_cast r2
          omega
        rw [hz] at e1
        simp at e1
        linarith
      · exfalso
        have : ⌊u / P.dtDumpF⌋ * m ≤ ⌊u / P.dtDumpMoments⌋ := by
          rw [Int.le_floor, le_div_iff₀ hDp]
          push_cast
          rw [mul_assoc, ← hF]
          exact hlo
        have h2 : ((⌊u / P.dtDumpF⌋ * m : ℤ) : K) ≤ ((⌊u / P.dtDumpMoments⌋ : ℤ) : K) := by exact_mod_cast this
        have h3 := mul_le_mul_of_nonneg_right h2 hDp.le
        push_cast at h3
        rw [mul_assoc, ← hF] at h3
        linarith
    · exact ih pf.ready q

/-- What follows the writing of the distribution is what a loop started at that time does. -/
theorem loop_suffix {t t' : K} {acts : List (Act K)} (h : ScriptLoop cond (loopBody P) t acts t') {a b : List (Act K)} {u : K}
    (e : acts = a ++ .dumpF u :: b) : ScriptLoop cond (loopBody P) u b t' := by
  induction h generalizing a b with
  | done _ => simp at e
  | iter hc hrest ih =>
    rename_i s acts' s'
    rcases List.append_eq_append_iff.mp e with ⟨c, e1, e2⟩ | ⟨c, e1, e2⟩
    · exact ih e2
    · cases c with
      | nil => exact ih (a := []) (by simpa using e2.symm)
      | cons x c' =>
        simp only [List.cons_append, List.cons.injEq] at e2
        obtain ⟨ex, eb⟩ := e2
        subst ex
        have hno : ∀ v, .dumpF v ∉ (advance P s).1 := by
          intro v
          unfold advance
          dsimp only
          split_ifs <;> simp
        rw [loopBody_eq] at e1
        have : c' = [] ∧ u = (advance P s).2 := by
          rcases List.append_eq_append_iff.mp e1 with ⟨c2, f1, f2⟩ | ⟨c2, f1, f2⟩
          · unfold tailF at f2
            split_ifs at f2 with q
            · cases c2 with
              | nil =>
                simp at f2
                exact ⟨f2.2, f2.1.symm⟩
              | cons y c3 => simp at f2
            · simp at f2
          · cases c2 with
            | nil =>
              simp at f2
              unfold tailF at f2
              split_ifs at f2 with q
              · simp at f2
                exact ⟨f2.2, f2.1⟩
            | cons y c3 =>
              simp only [List.cons_append, List.cons.injEq] at f2
              exfalso
              refine hno u ?_
              rw [f1, ← f2.1]
              simp
        obtain ⟨rfl, rfl⟩ := this
        rw [eb]
        rw [loopBody_eq] at hrest
        simpa using hrest

end facts

/-! ### Performing actions -/

section disk

variable {F M E : Type} (solve : K → F × E → F × E) (mom : F → M) (stamp : K → ℤ)

/-- The state after the steps of a list. -/
def stepsFold (L : List (Act K)) (s : F × E) : F × E := (stepsOf L).foldl (fun s h => solve h s) s

theorem perform_append (a b : List (Act K)) (x : (F × E) × DiskFiles F M E) :
    perform solve mom stamp (a ++ b) x = (perform solve mom stamp a x).bind (perform solve mom stamp b) := by
  induction a generalizing x with
  | nil => rfl
  | cons y r ih =>
    obtain ⟨s, d⟩ := x
    cases y <;> simp only [List.cons_append, perform, ih]
    · split <;> rfl
    · split <;> rfl

/-- Writes laid over older files. -/
def overlay {α : Type} (o d : ℤ → Option α) : ℤ → Option α := fun k => (o k).or (d k)

theorem overlay_idem {α : Type} (o d : ℤ → Option α) : overlay o (overlay o d) = overlay o d := by
  funext k
  unfold overlay
  cases o k <;> rfl

theorem overlay_update {α : Type} (o d : ℤ → Option α) (k : ℤ) (v : α) :
    overlay o (Function.update d k (some v)) = overlay (overlay o (Function.update (fun _ => none) k (some v))) d := by
  funext i
  unfold overlay
  by_cases h : i = k
  · subst h
    simp only [Function.update_self]
    cases o i <;> rfl
  · simp only [Function.update_of_ne h]
    cases o i <;> rfl

/-- What a list without loads does: the state, and the files it writes whatever was there before. -/
theorem perform_overlay (L : List (Act K)) (hL : ∀ u, .loadF u ∉ L ∧ .loadFields u ∉ L) (s : F × E) :
    ∃ (oF : ℤ → Option F) (oM : ℤ → Option M) (oE : ℤ → Option E),
      (∀ d : DiskFiles F M E, perform solve mom stamp L (s, d) =
        .ok (stepsFold solve L s, overlay oF d.1, overlay oM d.2.1, overlay oE d.2.2)) ∧
      (∀ k, oF k ≠ none ↔ ∃ u, .dumpF u ∈ L ∧ stamp u = k) ∧ (∀ k, oE k ≠ none ↔ ∃ u, .dumpFields u ∈ L ∧ stamp u = k) ∧
      (∀ t, Labelled t L → (∀ h ∈ stepsOf L, 0 < h) → ∀ k,
        ((∀ u, .dumpF u ∈ L → stamp u = k → u = clockAfter t L) → ∀ f, oF k = some f → f = (stepsFold solve L s).1) ∧
        ((∀ u, .dumpFields u ∈ L → stamp u = k → u = clockAfter t L) → ∀ e, oE k = some e → e = (stepsFold solve L s).2)) := by
  induction L generalizing s with
  | nil =>
    refine ⟨fun _ => none, fun _ => none, fun _ => none, ?_, by simp, by simp, by simp⟩
    rintro ⟨a, b, c⟩
    rfl
  | cons x r ih =>
    have hL' : ∀ u, .loadF u ∉ r ∧ .loadFields u ∉ r := fun u =>
      ⟨fun q => (hL u).1 (List.mem_cons_of_mem _ q), fun q => (hL u).2 (List.mem_cons_of_mem _ q)⟩
    have nosteps : ∀ t, (∀ h ∈ stepsOf r, 0 < h) → t = clockAfter t r → stepsOf r = [] := by
      intro t hp e
      unfold clockAfter at e
      cases hq : stepsOf r with
      | nil => rfl
      | cons y l =>
        exfalso
        rw [hq] at hp e
        have h1 := hp y List.mem_cons_self
        have h2 : 0 ≤ l.sum := List.sum_nonneg fun z hz => (hp z (List.mem_cons_of_mem _ hz)).le
        rw [List.sum_cons] at e
        linarith
    cases x with
    | step h =>
      obtain ⟨oF, oM, oE, a, b, c, d⟩ := ih hL' (solve h s)
      refine ⟨oF, oM, oE, fun D => ?_, fun k => ?_, fun k => ?_, fun t hl hp k => ?_⟩
      · simp only [perform, a]
        rfl
      · rw [b]; simp
      · rw [c]; simp
      · have hp' : ∀ z ∈ stepsOf r, 0 < z := fun z hz => hp z (by simp [stepsOf, hz])
        have q := d (t + h) hl hp' k
        have ec : clockAfter t (.step h :: r) = clockAfter (t + h) r := by simp [clockAfter, stepsOf, add_assoc]
        rw [ec]
        refine ⟨fun hu f hf => ?_, fun hu f hf => ?_⟩
        · exact q.1 (fun u hu' => hu u (List.mem_cons_of_mem _ hu')) f hf
        · exact q.2 (fun u hu' => hu u (List.mem_cons_of_mem _ hu')) f hf
    | dumpF v =>
      obtain ⟨oF, oM, oE, a, b, c, d⟩ := ih hL' s
      refine ⟨overlay oF (Function.update (fun _ => none) (stamp v) (some s.1)), oM, oE, fun D => ?_, fun k => ?_, fun k => ?_,
        fun t hl hp k => ?_⟩
      · simp only [perform, a]
        rw [overlay_update]
        rfl
      · have hb := b k
        unfold overlay
        by_cases hk : k = stamp v
        · subst hk
          rw [Function.update_self]
          refine ⟨fun _ => ⟨v, by simp, rfl⟩, fun _ => ?_⟩
          cases oF (stamp v) <;> simp
        · rw [Function.update_of_ne hk, Option.or_none, hb]
          constructor
          · rintro ⟨u, q, e⟩
            exact ⟨u, List.mem_cons_of_mem _ q, e⟩
          · rintro ⟨u, q, e⟩
            rcases List.mem_cons.mp q with q | q
            · cases q
              exact absurd e.symm hk
            · exact ⟨u, q, e⟩
      · rw [c]; simp
      · have hl' : v = t ∧ Labelled t r := by simpa [Labelled, Act.label] using hl
        have hp' : ∀ z ∈ stepsOf r, 0 < z := fun z hz => hp z (by simpa [stepsOf] using hz)
        have ec : clockAfter t (.dumpF v :: r) = clockAfter t r := rfl
        rw [ec]
        have q := d t hl'.2 hp' k
        refine ⟨fun hu f hf => ?_, fun hu f hf => ?_⟩
        · unfold overlay at hf
          cases ho : oF k with
          | some g =>
            rw [ho] at hf
            simp only [Option.some_or, Option.some.injEq] at hf
            rw [← hf]
            exact q.1 (fun u hu' => hu u (List.mem_cons_of_mem _ hu')) g ho
          | none =>
            rw [ho, Option.none_or] at hf
            by_cases hk : k = stamp v
            · rw [hk, Function.update_self, Option.some.injEq] at hf
              have e := hu v List.mem_cons_self hk.symm
              rw [hl'.1] at e
              have z := nosteps t hp' e
              unfold stepsFold
              simp only [stepsOf, z, List.foldl_nil]
              exact hf.symm
            · rw [Function.update_of_ne hk] at hf
              exact absurd hf (by simp)
        · exact q.2 (fun u hu' => hu u (List.mem_cons_of_mem _ hu')) f hf
    | dumpMoments v =>
      obtain ⟨oF, oM, oE, a, b, c, d⟩ := ih hL' s
      refine ⟨oF, overlay oM (Function.update (fun _ => none) (stamp v) (some (mom s.1))), oE, fun D => ?_, fun k => ?_, fun k => ?_,
        fun t hl hp k => ?_⟩
      · simp only [perform, a]
        rw [overlay_update]
        rfl
      · rw [b]; simp
      · rw [c]; simp
      · have hl' : v = t ∧ Labelled t r := by simpa [Labelled, Act.label] using hl
        have hp' : ∀ z ∈ stepsOf r, 0 < z := fun z hz => hp z (by simpa [stepsOf] using hz)
        have ec : clockAfter t (.dumpMoments v :: r) = clockAfter t r := rfl
        rw [ec]
        have q := d t hl'.2 hp' k
        refine ⟨fun hu f hf => ?_, fun hu f hf => ?_⟩
        · exact q.1 (fun u hu' => hu u (List.mem_cons_of_mem _ hu')) f hf
        · exact q.2 (fun u hu' => hu u (List.mem_cons_of_mem _ hu')) f hf
    | dumpFields v =>
      obtain ⟨oF, oM, oE, a, b, c, d⟩ := ih hL' s
      refine ⟨oF, oM, overlay oE (Function.update (fun _ => none) (stamp v) (some s.2)), fun D => ?_, fun k => ?_, fun k => ?_,
        fun t hl hp k => ?_⟩
      · simp only [perform, a]
        rw [overlay_update]
        rfl
      · rw [b]; simp
      · have hc := c k
        unfold overlay
        by_cases hk : k = stamp v
        · subst hk
          rw [Function.update_self]
          refine ⟨fun _ => ⟨v, by simp, rfl⟩, fun _ => ?_⟩
          cases oE (stamp v) <;> simp
        · rw [Function.update_of_ne hk, Option.or_none, hc]
          constructor
          · rintro ⟨u, q, e⟩
            exact ⟨u, List.mem_cons_of_mem _ q, e⟩
          · rintro ⟨u, q, e⟩
            rcases List.mem_cons.mp q with q | q
            · cases q
              exact absurd e.symm hk
            · exact ⟨u, q, e⟩
      · have hl' : v = t ∧ Labelled t r := by simpa [Labelled, Act.label] using hl
        have hp' : ∀ z ∈ stepsOf r, 0 < z := fun z hz => hp z (by simpa [stepsOf] using hz)
        have ec : clockAfter t (.dumpFields v :: r) = clockAfter t r := rfl
        rw [ec]
        have q := d t hl'.2 hp' k
        refine ⟨fun hu f hf => ?_, fun hu f hf => ?_⟩
        · exact q.1 (fun u hu' => hu u (List.mem_cons_of_mem _ hu')) f hf
        · unfold overlay at hf
          cases ho : oE k with
          | some g =>
            rw [ho] at hf
            simp only [Option.some_or, Option.some.injEq] at hf
            rw [← hf]
            exact q.2 (fun u hu' => hu u (List.mem_cons_of_mem _ hu')) g ho
          | none =>
            rw [ho, Option.none_or] at hf
            by_cases hk : k = stamp v
            · rw [hk, Function.update_self, Option.some.injEq] at hf
              have e := hu v List.mem_cons_self hk.symm
              rw [hl'.1] at e
              have z := nosteps t hp' e
              unfold stepsFold
              simp only [stepsOf, z, List.foldl_nil]
              exact hf.symm
            · rw [Function.update_of_ne hk] at hf
              exact absurd hf (by simp)
    | loadF v => exact absurd List.mem_cons_self (hL v).1
    | loadFields v => exact absurd List.mem_cons_self (hL v).2

end disk

end Bolt
