import Verif.Spec.Schedule
import Mathlib.Algebra.BigOperators.Fin
import Mathlib.Algebra.Order.BigOperators.Group.Finset
import Mathlib.Data.Fintype.BigOperators
import Mathlib.Tactic.Linarith
import Mathlib.Tactic.Ring

/-! Lemmas about schedules. -/

set_option linter.unusedSectionVars false

namespace Bolt

variable {R : Type} {A : Protocol R} {init : ∀ r, A.St r}

theorem LockStep.unique {k : ℕ} : ∀ {r : R} {s t : A.St r}, LockStep A init k r s → LockStep A init k r t → s = t := by
  induction k with
  | zero => intro r s t h h'; exact h.trans h'.symm
  | succ k ih =>
    rintro r s t ⟨a, m, ha, hm, hs⟩ ⟨b, m', hb, hm', ht⟩
    obtain rfl := ih ha hb
    have : m = m' := by
      funext x h
      obtain ⟨u, hu, e⟩ := hm x h
      obtain ⟨v, hv, e'⟩ := hm' x h
      rw [e, e', ih hu hv]
    subst this
    rw [hs] at ht
    exact Except.ok.inj ht

theorem LockStep.pred {k : ℕ} {r : R} {s : A.St r} (h : LockStep A init (k + 1) r s) : ∃ t, LockStep A init k r t := by
  obtain ⟨a, _, ha, _⟩ := h
  exact ⟨a, ha⟩

theorem LockStep.earlier {k j : ℕ} {r : R} {s : A.St r} (h : LockStep A init (k + j) r s) : ∃ t, LockStep A init k r t := by
  induction j generalizing s with
  | zero => exact ⟨s, h⟩
  | succ j ih =>
    obtain ⟨t, ht⟩ := LockStep.pred (k := k + j) h
    exact ih ht

/-- After the first exchange the script goes on as a script started in the new states. -/
theorem LockStep.shift {k : ℕ} {s1 : ∀ r, A.St r} (h1 : ∀ r, LockStep A init 1 r (s1 r)) :
    ∀ {r : R} {s : A.St r}, LockStep A init (k + 1) r s ↔ LockStep A s1 k r s := by
  induction k with
  | zero =>
    intro r s
    constructor
    · intro h; exact h.unique (h1 r)
    · intro h; rw [show s = s1 r from h]; exact h1 r
  | succ k ih =>
    intro r s
    constructor
    · rintro ⟨a, m, ha, hm, hs⟩
      exact ⟨a, m, ih.mp ha, fun x h => (hm x h).imp fun t ht => ⟨ih.mp ht.1, ht.2⟩, hs⟩
    · rintro ⟨a, m, ha, hm, hs⟩
      exact ⟨a, m, ih.mpr ha, fun x h => (hm x h).imp fun t ht => ⟨ih.mpr ht.1, ht.2⟩, hs⟩

theorem RaisesAt.not_later {k : ℕ} {x : R} (h : RaisesAt A init k x) {j : ℕ} {s : A.St x} (hs : LockStep A init j x s) : j ≤ k := by
  by_contra hlt
  obtain ⟨i, rfl⟩ : ∃ i, j = (k + 1) + i := ⟨j - (k + 1), by omega⟩
  obtain ⟨t, a, m, ha, hm, ht⟩ := hs.earlier
  obtain ⟨b, m', e, hb, hm', he⟩ := h
  obtain rfl := ha.unique hb
  have : m = m' := by
    funext y hy
    obtain ⟨u, hu, e1⟩ := hm y hy
    obtain ⟨v, hv, e2⟩ := hm' y hy
    rw [e1, e2, hu.unique hv]
  subst this
  rw [he] at ht
  cases ht

namespace Net

variable [DecidableEq R]

/-- What holds at every moment of every schedule. -/
structure Inv (n : ℕ) (init : ∀ r, A.St r) (N : Net A) : Prop where
  state : ∀ r s, N.st r = some s → LockStep A init (N.done r) r s
  gone : ∀ r, N.st r = none → RaisesAt A init (N.done r) r ∧ N.done r < n
  bound : ∀ r, N.done r ≤ n
  count : ∀ r x, A.needs x r → N.done x + (N.chan r x).length = N.done r + (N.posted r x).toNat
  queue : ∀ r x, A.needs x r → ∀ i m, (N.chan r x)[i]? = some m → ∃ s, LockStep A init (N.done x + i) r s ∧ m = A.send r s

theorem inv_start (n : ℕ) : Inv n init (start init) := by
  refine ⟨?_, ?_, ?_, ?_, ?_⟩
  · intro r s h; simp only [start, Option.some.injEq] at h; exact h.symm
  · intro r h; simp [start] at h
  · intro r; exact Nat.zero_le _
  · intro r x _; simp [start]
  · intro r x _ i m h; simp [start] at h

theorem heads {N : Net A} {n : ℕ} (I : Inv n init N) {r : R} {m : ∀ x, A.needs r x → A.Msg x} {rest : ∀ x, List (A.Msg x)}
    (hm : ∀ x (h : A.needs r x), N.chan x r = m x h :: rest x) :
    ∀ x (h : A.needs r x), ∃ t, LockStep A init (N.done r) x t ∧ m x h = A.send x t := fun x h => by
  obtain ⟨t, ht, e⟩ := I.queue x r h 0 (m x h) (by rw [hm x h]; rfl)
  exact ⟨t, by simpa using ht, e⟩

theorem inv_event {n : ℕ} {N N' : Net A} (I : Inv n init N) (h : Event n N N') : Inv n init N' := by
  cases h with
  | post r x s hs hn hx hp =>
    refine ⟨I.state, I.gone, I.bound, ?_, ?_⟩
    · intro a b hab
      have c := I.count a b hab
      simp only
      by_cases e : a = r ∧ b = x
      · obtain ⟨rfl, rfl⟩ := e
        rw [hp] at c
        simp only [and_self, dif_pos, if_true, List.length_append, List.length_singleton, Bool.toNat_true, Bool.toNat_false] at c ⊢
        omega
      · rw [dif_neg e, if_neg e]; exact c
    · intro a b hab i m hm
      simp only at hm ⊢
      by_cases e : a = r ∧ b = x
      · obtain ⟨rfl, rfl⟩ := e
        simp only [and_self, dif_pos] at hm
        by_cases hi : i < (N.chan a b).length
        · rw [List.getElem?_append_left hi] at hm
          exact I.queue a b hab i m hm
        · rw [List.getElem?_append_right (by omega)] at hm
          have c := I.count a b hab
          rw [hp] at c
          rw [Bool.toNat_false] at c
          have hi0 : i - (N.chan a b).length = 0 := by
            by_contra h0
            rw [List.getElem?_eq_none (by simp; omega)] at hm
            cases hm
          rw [hi0] at hm
          simp only [List.getElem?_cons_zero, Option.some.injEq] at hm
          refine ⟨s, ?_, hm.symm⟩
          have : N.done b + i = N.done a := by omega
          rw [this]
          exact I.state a s hs
      · rw [dif_neg e] at hm
        exact I.queue a b hab i m hm
  | finish r s s' m rest hs hn hp hm h0 ok =>
    have hnew : LockStep A init (N.done r + 1) r s' := ⟨s, m, I.state r s hs, heads I hm, ok⟩
    refine ⟨?_, ?_, ?_, ?_, ?_⟩
    · intro a t h
      simp only at h ⊢
      by_cases e : a = r
      · subst e
        simp only [dif_pos, Option.some.injEq] at h
        subst h
        simpa using hnew
      · rw [dif_neg e] at h
        rw [if_neg e]
        exact I.state a t h
    · intro a h
      simp only at h ⊢
      by_cases e : a = r
      · subst e; simp at h
      · rw [dif_neg e] at h
        rw [if_neg e]
        exact I.gone a h
    · intro a
      have := I.bound a
      simp only
      split_ifs with e
      · subst e; omega
      · exact this
    · intro a b hab
      have c := I.count a b hab
      simp only
      by_cases eb : b = r
      · subst eb
        rw [if_pos rfl, if_pos rfl]
        rw [hm a hab, List.length_cons] at c
        by_cases ea : a = b
        · subst ea
          rw [if_pos rfl, if_pos rfl]
          rw [hp a hab] at c
          rw [Bool.toNat_true] at c; rw [Bool.toNat_false]
          omega
        · rw [if_neg ea, if_neg ea]; omega
      · rw [if_neg eb, if_neg eb]
        by_cases ea : a = r
        · subst ea
          rw [if_pos rfl, if_pos rfl]
          rw [hp b hab] at c
          rw [Bool.toNat_true] at c; rw [Bool.toNat_false]
          omega
        · rw [if_neg ea, if_neg ea]; exact c
    · intro a b hab i u hu
      simp only at hu ⊢
      by_cases eb : b = r
      · subst eb
        rw [if_pos rfl] at hu ⊢
        obtain ⟨t, ht, e⟩ := I.queue a b hab (i + 1) u (by rw [hm a hab]; simpa using hu)
        exact ⟨t, by rw [show N.done b + 1 + i = N.done b + (i + 1) by omega]; exact ht, e⟩
      · rw [if_neg eb] at hu ⊢
        exact I.queue a b hab i u hu
  | raise r s e m rest hs hn hp hm err =>
    refine ⟨?_, ?_, I.bound, I.count, I.queue⟩
    · intro a t h
      simp only at h ⊢
      by_cases ea : a = r
      · subst ea; simp at h
      · rw [if_neg ea] at h
        exact I.state a t h
    · intro a h
      simp only at h ⊢
      by_cases ea : a = r
      · subst ea
        exact ⟨⟨s, m, e, I.state a s hs, heads I hm, err⟩, hn⟩
      · rw [if_neg ea] at h
        exact I.gone a h

theorem inv {n : ℕ} {N : Net A} (h : Reach n init N) : Inv n init N := by
  induction h with
  | start => exact inv_start n
  | step N N' _ he ih => exact inv_event ih he

/-! ### every schedule comes to an end -/

open Classical in
/-- What is left to happen at most. -/
noncomputable def left [Fintype R] (n : ℕ) (N : Net A) : ℕ :=
  ∑ r, ((if N.st r = none then 0 else 1) + ∑ x, (if N.posted r x then 0 else 1) + (n - N.done r) * (Fintype.card R + 1))

theorem left_event [Fintype R] {n : ℕ} {N N' : Net A} (h : Event n N N') : N'.left n < N.left n := by
  classical
  unfold left
  cases h with
  | post r x s hs hn hx hp =>
    apply Finset.sum_lt_sum
    · intro a _
      simp only
      have : ∑ b, (if (if a = r ∧ b = x then true else N.posted a b) = true then 0 else 1) ≤ ∑ b, (if N.posted a b = true then 0 else 1) := by
        apply Finset.sum_le_sum
        intro b _
        by_cases e : a = r ∧ b = x
        · rw [if_pos e]; simp
        · rw [if_neg e]
      omega
    · refine ⟨r, Finset.mem_univ r, ?_⟩
      simp only
      have : ∑ b, (if (if r = r ∧ b = x then true else N.posted r b) = true then 0 else 1) < ∑ b, (if N.posted r b = true then 0 else 1) := by
        apply Finset.sum_lt_sum
        · intro b _
          by_cases e : r = r ∧ b = x
          · rw [if_pos e]; simp
          · rw [if_neg e]
        · exact ⟨x, Finset.mem_univ x, by simp [hp]⟩
      simp only [true_and] at this ⊢
      omega
  | finish r s s' m rest hs hn hp hm h0 ok =>
    have one : ∀ a, a ≠ r → ((if (if h : a = r then some (h ▸ s') else N.st a) = none then 0 else 1)
        + ∑ x, (if (if a = r then false else N.posted a x) = true then 0 else 1)
        + (n - (if a = r then N.done a + 1 else N.done a)) * (Fintype.card R + 1))
        = (if N.st a = none then 0 else 1) + ∑ x, (if N.posted a x = true then 0 else 1) + (n - N.done a) * (Fintype.card R + 1) := by
      intro a ha
      rw [dif_neg ha, if_neg ha]
      simp only [if_neg ha]
    have two : ((if (if h : r = r then some (h ▸ s') else N.st r) = none then 0 else 1)
        + ∑ x, (if (if r = r then false else N.posted r x) = true then 0 else 1)
        + (n - (if r = r then N.done r + 1 else N.done r)) * (Fintype.card R + 1))
        < (if N.st r = none then 0 else 1) + ∑ x, (if N.posted r x = true then 0 else 1) + (n - N.done r) * (Fintype.card R + 1) := by
      simp only [dif_pos, if_true, Bool.false_eq_true, if_false, reduceCtorEq, hs]
      have hc : ∑ _x : R, 1 = Fintype.card R := by simp
      rw [hc]
      have : n - N.done r = (n - (N.done r + 1)) + 1 := by omega
      rw [this, add_mul]
      have h0 : 0 ≤ ∑ x, (if N.posted r x = true then 0 else 1) := Nat.zero_le _
      omega
    apply Finset.sum_lt_sum
    · intro a _
      by_cases e : a = r
      · subst e; exact two.le
      · exact (one a e).le
    · exact ⟨r, Finset.mem_univ r, two⟩
  | raise r s e m rest hs hn hp hm err =>
    apply Finset.sum_lt_sum
    · intro a _
      simp only
      by_cases ea : a = r
      · rw [if_pos (if_pos ea)]; omega
      · simp only [if_neg ea]; exact le_rfl
    · refine ⟨r, Finset.mem_univ r, ?_⟩
      simp only [if_true, hs]
      simp

theorem reach_stuck [Fintype R] {n : ℕ} {N : Net A} (h : Reach n init N) : ∃ N', Reach n init N' ∧ Stuck n N' := by
  induction hk : N.left n using Nat.strong_induction_on generalizing N with
  | _ k ih =>
    by_cases hs : Stuck n N
    · exact ⟨N, h, hs⟩
    · simp only [Stuck, not_forall, not_not] at hs
      obtain ⟨N', hN'⟩ := hs
      exact ih _ (hk ▸ left_event hN') (.step N N' h hN') rfl

/-- Where nothing more can happen, a process that has not left its script either is at the end or waits for one that is further behind or gone. -/
theorem stuck_waits {n : ℕ} {N : Net A} (I : Inv n init N) (hs : Stuck n N) {r : R} {s : A.St r} (hr : N.st r = some s) (hn : N.done r < n) :
    ∃ x, A.needs r x ∧ (N.done x < N.done r ∨ N.done x = N.done r ∧ N.st x = none) := by
  classical
  by_contra hno
  push Not at hno
  have posts : ∀ a t, N.st a = some t → N.done a < n → ∀ x, A.needs x a → N.posted a x = true := by
    intro a t ha hna x hx
    by_contra hp
    exact hs _ (Event.post N a x t ha hna hx (by simpa using hp))
  have hne : ∀ x, A.needs r x → N.chan x r ≠ [] := by
    intro x hx hnil
    have c := I.count x r hx
    rw [hnil, List.length_nil] at c
    obtain ⟨h1, h2⟩ := hno x hx
    rcases h1.lt_or_eq with h | h
    · omega
    · obtain ⟨t, ht⟩ := Option.ne_none_iff_exists'.mp (h2 h.symm)
      rw [posts x t ht (h ▸ hn) r hx] at c
      rw [Bool.toNat_true] at c
      omega
  have hex : ∀ x, ∃ (m : A.needs r x → A.Msg x) (rest : List (A.Msg x)), (∀ h, N.chan x r = m h :: rest) ∧ (¬ A.needs r x → rest = N.chan x r) := by
    intro x
    by_cases hx : A.needs r x
    · obtain ⟨a, l, e⟩ := List.exists_cons_of_ne_nil (hne x hx)
      exact ⟨fun _ => a, l, fun _ => e, fun h => absurd hx h⟩
    · exact ⟨fun h => absurd h hx, N.chan x r, fun h => absurd h hx, fun _ => rfl⟩
  choose m rest h1 h2 using hex
  cases hst : A.step r s m with
  | ok s' => exact hs _ (Event.finish N r s s' m rest hr hn (posts r s hr hn) h1 h2 hst)
  | error e => exact hs _ (Event.raise N r s e m rest hr hn (posts r s hr hn) h1 hst)

end Net
end Bolt

namespace Bolt
namespace Decomp

variable {N1 N2 : ℕ} {R : Type} (D : Decomp N1 N2 R) (g1 g2 : ℕ) {S K : Type} {Np1 Np2 Np3 : ℕ} [Field K] [LinearOrder K]

/-- Messages that carry the bulk of every process make up the exchange. -/
theorem received_eq (bc1 bc2 : PetscBC) (r : R) (F loc : ∀ r, Dist S (PIdx Np1 Np2 Np3) (D.Loc g1 g2 r) K)
    (m : ∀ x, (∃ l, D.Filled g1 g2 bc1 bc2 r l ∧ D.owner (D.toGlob g1 g2 r l) = x) → Dist S (PIdx Np1 Np2 Np3) (ZMod N1 × ZMod N2) K)
    (hm : ∀ x h, m x h = fun s p i => F x s p (D.toLoc g1 g2 x i)) :
    D.received g1 g2 bc1 bc2 r (loc r) m = D.exchange g1 g2 bc1 bc2 loc F r := by
  funext s p l
  simp only [received, exchange]
  by_cases h : D.Filled g1 g2 bc1 bc2 r l
  · rw [dif_pos h, if_pos (by exact h), hm]; rfl
  · rw [dif_neg h, if_neg (by exact h)]

variable (o : BCOptions) (bc1 bc2 : PetscBC) (ax : PIdx Np1 Np2 Np3 × PIdx Np1 Np2 Np3 × PIdx Np1 Np2 Np3) (cfg : FVMConfig S K)
  (blowup : ∀ r, Dist S (PIdx Np1 Np2 Np3) (D.Loc g1 g2 r) K → Bool)

theorem step_first {r : R} {st st' : D.ProcState g1 g2 r S Np1 Np2 Np3 K}
    {m : ∀ x, (∃ l, D.Filled g1 g2 bc1 bc2 r l ∧ D.owner (D.toGlob g1 g2 r l) = x) → Dist S (PIdx Np1 Np2 Np3) (ZMod N1 × ZMod N2) K}
    (h : (D.fvmProtocol g1 g2 o bc1 bc2 ax cfg blowup).step r st m = .ok st') {dt dat cb rest} (ht : st.todo = (dt, dat, cb) :: rest)
    (h2 : st.second = false) :
    ∃ F0 k, applyBcsF (D.bcEnv g1 g2 o r (dat 0)) (D.received g1 g2 bc1 bc2 r st.localVec m) = .ok F0 ∧
      dfdtFVM (D.locAxes g1 g2 r ax.1 ax.2.1 ax.2.2) cfg (cb 0) F0 = .ok k ∧
      st'.f = (fun s p l => F0 s p l + k s p l * (dt / 2)) ∧ st'.initial = F0 ∧ st'.second = true ∧ st'.todo = (dt, dat, cb) :: rest := by
  simp only [fvmProtocol, ht, h2, Bool.false_eq_true, if_false] at h
  cases ha : applyBcsF (D.bcEnv g1 g2 o r (dat 0)) (D.received g1 g2 bc1 bc2 r st.localVec m) with
  | error e => simp [ha] at h
  | ok F0 =>
    simp only [ha] at h
    cases hd : dfdtFVM (D.locAxes g1 g2 r ax.1 ax.2.1 ax.2.2) cfg (cb 0) F0 with
    | error e => simp [hd] at h
    | ok k =>
      simp only [hd, Except.ok.injEq] at h
      subst h
      exact ⟨F0, k, rfl, hd, rfl, rfl, rfl, rfl⟩

theorem step_second {r : R} {st st' : D.ProcState g1 g2 r S Np1 Np2 Np3 K}
    {m : ∀ x, (∃ l, D.Filled g1 g2 bc1 bc2 r l ∧ D.owner (D.toGlob g1 g2 r l) = x) → Dist S (PIdx Np1 Np2 Np3) (ZMod N1 × ZMod N2) K}
    (h : (D.fvmProtocol g1 g2 o bc1 bc2 ax cfg blowup).step r st m = .ok st') {dt dat cb rest} (ht : st.todo = (dt, dat, cb) :: rest)
    (h2 : st.second = true) :
    ∃ Fh k, applyBcsF (D.bcEnv g1 g2 o r (dat 1)) (D.received g1 g2 bc1 bc2 r st.localVec m) = .ok Fh ∧
      dfdtFVM (D.locAxes g1 g2 r ax.1 ax.2.1 ax.2.2) cfg (cb 1) Fh = .ok k ∧
      st'.f = (fun s p l => st.initial s p l + k s p l * dt) ∧ st'.second = false ∧ st'.todo = rest ∧ blowup r st'.f = false := by
  simp only [fvmProtocol, ht, h2, if_true] at h
  cases ha : applyBcsF (D.bcEnv g1 g2 o r (dat 1)) (D.received g1 g2 bc1 bc2 r st.localVec m) with
  | error e => simp [ha] at h
  | ok Fh =>
    simp only [ha] at h
    cases hd : dfdtFVM (D.locAxes g1 g2 r ax.1 ax.2.1 ax.2.2) cfg (cb 1) Fh with
    | error e => simp [hd] at h
    | ok k =>
      simp only [hd] at h
      cases hb : blowup r (fun s p l => st.initial s p l + k s p l * dt) with
      | true => simp [hb] at h
      | false =>
        simp only [hb, Bool.false_eq_true, if_false, Except.ok.injEq] at h
        subst h
        exact ⟨Fh, k, rfl, hd, rfl, rfl, rfl, hb⟩

/-- The processes in lock step carry out the steps of the synchronous model. -/
theorem lockstep_run (hset : setupBCs o.nGhost o.name = .ok ((bc1, g1), (bc2, g2))) (j : ℕ) :
    ∀ (steps : List (K × (Fin 2 → ∀ r, D.LocBCData g1 g2 r S Np1 Np2 Np3 K) ×
      (Fin 2 → ∀ r, Callbacks S (PIdx Np1 Np2 Np3) (D.Loc g1 g2 r) K)))
    (F ini loc : ∀ r, Dist S (PIdx Np1 Np2 Np3) (D.Loc g1 g2 r) K) (s : ∀ r, D.ProcState g1 g2 r S Np1 Np2 Np3 K),
    j ≤ steps.length →
    (∀ r, LockStep (D.fvmProtocol g1 g2 o bc1 bc2 ax cfg blowup) (D.procStart g1 g2 steps F ini loc) (2 * j) r (s r)) →
    D.BcRun g1 g2 o ax cfg (steps.take j) F (fun r => (s r).f) := by
  induction j with
  | zero =>
    intro steps F ini loc s _ h
    simp only [List.take_zero, BcRun]
    funext r
    rw [show s r = D.procStart g1 g2 steps F ini loc r from h r]
    rfl
  | succ j ih =>
    intro steps F ini loc s hj h
    obtain _ | ⟨⟨dt, dat, cb⟩, rest⟩ := steps
    · simp at hj
    have e2 : ∀ r, ∃ t : D.ProcState g1 g2 r S Np1 Np2 Np3 K,
        LockStep (D.fvmProtocol g1 g2 o bc1 bc2 ax cfg blowup) (D.procStart g1 g2 ((dt, dat, cb) :: rest) F ini loc) 2 r t := fun r =>
      LockStep.earlier (k := 2) (j := 2 * j) (by rw [show 2 + 2 * j = 2 * (j + 1) by ring]; exact h r)
    choose s2 h2 using e2
    have e1 : ∀ r, ∃ t : D.ProcState g1 g2 r S Np1 Np2 Np3 K,
        LockStep (D.fvmProtocol g1 g2 o bc1 bc2 ax cfg blowup) (D.procStart g1 g2 ((dt, dat, cb) :: rest) F ini loc) 1 r t := fun r =>
      (h2 r).pred
    choose s1 h1 using e1
    have h2' : ∀ r, LockStep (D.fvmProtocol g1 g2 o bc1 bc2 ax cfg blowup) s1 1 r (s2 r) := fun r => (LockStep.shift h1).mp (h2 r)
    have h' : ∀ r, LockStep (D.fvmProtocol g1 g2 o bc1 bc2 ax cfg blowup) s2 (2 * j) r (s r) := fun r =>
      (LockStep.shift h2').mp ((LockStep.shift h1).mp (h r))
    -- the two stages
    have st1 : ∀ r, ∃ F0 k, applyBcsF (D.bcEnv g1 g2 o r (dat 0 r)) (D.exchange g1 g2 bc1 bc2 loc F r) = .ok F0 ∧
        dfdtFVM (D.locAxes g1 g2 r ax.1 ax.2.1 ax.2.2) cfg (cb 0 r) F0 = .ok k ∧
        (s1 r).f = (fun s p l => F0 s p l + k s p l * (dt / 2)) ∧ (s1 r).initial = F0 ∧ (s1 r).second = true ∧
        (s1 r).todo = (dt, fun j => dat j r, fun j => cb j r) :: rest.map fun st => (st.1, fun j => st.2.1 j r, fun j => st.2.2 j r) := by
      intro r
      obtain ⟨a, m, ha, hm, hs⟩ := h1 r
      obtain rfl : a = D.procStart g1 g2 ((dt, dat, cb) :: rest) F ini loc r := ha
      obtain ⟨F0, k, q1, q2, q3⟩ := D.step_first g1 g2 o bc1 bc2 ax cfg blowup hs rfl rfl
      refine ⟨F0, k, ?_, q2, q3⟩
      rw [← D.received_eq g1 g2 bc1 bc2 r F loc m ?_]
      · exact q1
      · intro x hx
        obtain ⟨t, ht, e⟩ := hm x hx
        rw [e, show t = D.procStart g1 g2 ((dt, dat, cb) :: rest) F ini loc x from ht]
        rfl
    choose F0 k0 p1 p2 p3 p4 p5 p6 using st1
    have st2 : ∀ r, ∃ Fh k, applyBcsF (D.bcEnv g1 g2 o r (dat 1 r))
          (D.exchange g1 g2 bc1 bc2 (fun r => (s1 r).localVec) (fun r s p l => F0 r s p l + k0 r s p l * (dt / 2)) r) = .ok Fh ∧
        dfdtFVM (D.locAxes g1 g2 r ax.1 ax.2.1 ax.2.2) cfg (cb 1 r) Fh = .ok k ∧
        (s2 r).f = (fun s p l => F0 r s p l + k s p l * dt) ∧ (s2 r).second = false ∧
        (s2 r).todo = rest.map fun st => (st.1, fun j => st.2.1 j r, fun j => st.2.2 j r) := by
      intro r
      obtain ⟨a, m, ha, hm, hs⟩ := h2' r
      obtain rfl : a = s1 r := ha
      obtain ⟨Fh, k, q1, q2, q3, q4, q5, _⟩ := D.step_second g1 g2 o bc1 bc2 ax cfg blowup hs (p6 r) (p5 r)
      refine ⟨Fh, k, ?_, q2, by rw [q3, p4], q4, q5⟩
      rw [← D.received_eq g1 g2 bc1 bc2 r (fun r s p l => F0 r s p l + k0 r s p l * (dt / 2)) (fun r => (s1 r).localVec) m ?_]
      · exact q1
      · intro x hx
        obtain ⟨t, ht, e⟩ := hm x hx
        rw [e, show t = s1 x from ht]
        simp only [fvmProtocol, p3]
    choose Fh k1 r1 r2 r3 r4 r5 using st2
    have hs2 : s2 = D.procStart g1 g2 rest (fun r => (s2 r).f) (fun r => (s2 r).initial) (fun r => (s2 r).localVec) := by
      funext r
      simp only [procStart]
      rw [← r5 r, ← r4 r]
    simp only [List.take_succ_cons, BcRun]
    refine ⟨fun r => (s2 r).f, ⟨F0, k0, Fh, k1, ⟨bc1, bc2, loc, hset, p1⟩, p2, ⟨bc1, bc2, _, hset, r1⟩, r2, ?_⟩, ?_⟩
    · funext r; exact r3 r
    · refine ih rest _ (fun r => (s2 r).initial) (fun r => (s2 r).localVec) s (by simpa using hj) ?_
      intro r
      rw [← hs2]
      exact h' r

end Decomp
end Bolt
