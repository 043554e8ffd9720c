import Verif.Spec.Coroutine
import Verif.Proofs.Schedule
import Verif.Proofs.CoupledDecomp
import Mathlib.Algebra.BigOperators.Fin
import Mathlib.Algebra.Order.BigOperators.Group.Finset
import Mathlib.Data.Fintype.BigOperators
import Mathlib.Data.List.Range
import Mathlib.Tactic.Linarith
import Mathlib.Tactic.Ring

/-! Lemmas about schedules of scripts. -/

set_option linter.unusedSectionVars false

namespace Bolt

variable {R X : Type} [DecidableEq X] {W : Wire R X} {A : R → Type} {init : ∀ r, Proc W r (A r)}

theorem Together.unique {j : ℕ} : ∀ {r : R} {p q : Proc W r (A r)}, Together init j r p → Together init j r q → p = q := by
  induction j with
  | zero => intro r p q h h'; exact h.trans h'.symm
  | succ j ih =>
    rintro r p q ⟨a, k, v, next, m, ha, hs, hm, rfl⟩ ⟨b, k', v', next', m', hb, hs', hm', rfl⟩
    obtain rfl := ih ha hb
    rw [hs] at hs'
    obtain ⟨rfl, h1, h2⟩ := Script.xch.inj hs'
    obtain rfl := eq_of_heq h1
    obtain rfl := eq_of_heq h2
    have : m = m' := by
      funext x h
      obtain ⟨u, y, n, hu, e, e2⟩ := hm x h
      obtain ⟨u', y', n', hu', e', e2'⟩ := hm' x h
      obtain rfl := ih hu hu'
      rw [e] at e'
      obtain ⟨_, h1, _⟩ := Script.xch.inj e'
      rw [e2, e2', eq_of_heq h1]
    rw [this]

theorem Together.pred {j : ℕ} {r : R} {p : Proc W r (A r)} (h : Together init (j + 1) r p) :
    ∃ q k v next, Together init j r q ∧ q.script = .xch k v next := by
  obtain ⟨a, k, v, next, _, ha, hs, _⟩ := h
  exact ⟨a, k, v, next, ha, hs⟩

theorem Together.earlier {j i : ℕ} {r : R} {p : Proc W r (A r)} (h : Together init (j + i) r p) : ∃ q, Together init j r q := by
  induction i generalizing p with
  | zero => exact ⟨p, h⟩
  | succ i ih =>
    obtain ⟨t, _, _, _, ht, _⟩ := Together.pred (j := j + i) h
    exact ih ht

theorem Together.xch_of_lt {j i : ℕ} {r : R} {p : Proc W r (A r)} (h : Together init i r p) (hj : j < i) {q : Proc W r (A r)}
    (hq : Together init j r q) : ∃ k v next, q.script = .xch k v next := by
  obtain ⟨t, ht⟩ := Together.earlier (j := j + 1) (i := i - (j + 1)) (by rwa [show j + 1 + (i - (j + 1)) = i by omega])
  obtain ⟨q', k, v, next, h1, h2⟩ := ht.pred
  obtain rfl := hq.unique h1
  exact ⟨k, v, next, h2⟩

/-- After the first exchange the processes go on as processes started in the new states. -/
theorem Together.shift {j : ℕ} {s1 : ∀ r, Proc W r (A r)} (h1 : ∀ r, Together init 1 r (s1 r)) :
    ∀ {r : R} {p : Proc W r (A r)}, Together init (j + 1) r p ↔ Together s1 j r p := by
  induction j with
  | zero =>
    intro r p
    constructor
    · intro h; exact h.unique (h1 r)
    · intro h; rw [show p = s1 r from h]; exact h1 r
  | succ j ih =>
    intro r p
    constructor
    · rintro ⟨a, k, v, next, m, ha, hs, hm, rfl⟩
      exact ⟨a, k, v, next, m, ih.mp ha, hs, fun x h => by
        obtain ⟨q, u, nx, hq, e⟩ := hm x h; exact ⟨q, u, nx, ih.mp hq, e⟩, rfl⟩
    · rintro ⟨a, k, v, next, m, ha, hs, hm, rfl⟩
      exact ⟨a, k, v, next, m, ih.mpr ha, hs, fun x h => by
        obtain ⟨q, u, nx, hq, e⟩ := hm x h; exact ⟨q, u, nx, ih.mpr hq, e⟩, rfl⟩

section follows
variable {l : List X} {Q : ∀ r, A r → Prop}

theorem Follows.xch_inv {V : X → Type} {B : Type} {Q : B → Prop} {l : List X} {k : X} {v : V k} {next : V k → Script V B}
    (h : Follows Q l (.xch k v next)) : ∃ l', l = k :: l' ∧ ∀ w, Follows Q l' (next w) := by
  cases h with
  | xch k l v next h => exact ⟨l, rfl, h⟩

theorem Follows.ret_inv {V : X → Type} {B : Type} {Q : B → Prop} {l : List X} {a : B} (h : Follows (V := V) Q l (.ret a)) : l = [] ∧ Q a := by
  cases h with
  | ret a h => exact ⟨rfl, h⟩

theorem Together.follows (hl : ∀ r, Follows (Q r) l (init r).script) {j : ℕ} :
    ∀ {r : R} {p : Proc W r (A r)}, Together init j r p → Follows (Q r) (l.drop j) p.script := by
  induction j with
  | zero => intro r p h; rw [show p = init r from h]; simpa using hl r
  | succ j ih =>
    rintro r p ⟨a, k, v, next, m, ha, hs, hm, rfl⟩
    have := ih ha
    rw [hs] at this
    obtain ⟨l', e, h⟩ := this.xch_inv
    have e' : l.drop (j + 1) = l' := by
      rw [← List.drop_drop, e]; rfl
    rw [e']
    exact h _

theorem kind_of_follows {V : X → Type} {B : Type} {Q : B → Prop} {j : ℕ} {k : X} {v : V k} {next : V k → Script V B}
    (h : Follows Q (l.drop j) (.xch k v next)) : l[j]? = some k := by
  obtain ⟨l', e, _⟩ := h.xch_inv
  have := congrArg (·[0]?) e
  simpa using this

theorem Together.bound (hl : ∀ r, Follows (Q r) l (init r).script) {j : ℕ} {r : R} {p : Proc W r (A r)} (h : Together init j r p) :
    j ≤ l.length := by
  obtain _ | j := j
  · exact Nat.zero_le _
  · obtain ⟨q, k, v, next, hq, hs⟩ := h.pred
    have := hq.follows hl
    rw [hs] at this
    exact (List.getElem?_eq_some_iff.mp (kind_of_follows this)).1

end follows

namespace Fleet

variable [DecidableEq R] {l : List X} {Q : ∀ r, A r → Prop}

/-- Number of exchanges for which process `r` has handed over its message for `x`, if there is one. -/
def sent (N : Fleet W A) (r x : R) : ℕ := N.done r + (N.posted r x).toNat

/-- The exchanges of kind `k` from number `d` up to number `s`. -/
def pending (l : List X) (k : X) (d s : ℕ) : List ℕ := (List.range' d (s - d)).filter fun j => l[j]? = some k

theorem pending_snoc {k : X} {d s : ℕ} (h : d ≤ s) :
    pending l k d (s + 1) = pending l k d s ++ if l[s]? = some k then [s] else [] := by
  unfold pending
  rw [show s + 1 - d = (s - d) + 1 by omega, List.range'_concat, List.filter_append]
  congr 1
  rw [show d + 1 * (s - d) = s by omega]
  by_cases hk : l[s]? = some k <;> simp [hk]

theorem pending_cons {k : X} {d s : ℕ} (h : d < s) :
    pending l k d s = (if l[d]? = some k then [d] else []) ++ pending l k (d + 1) s := by
  unfold pending
  rw [show s - d = (s - (d + 1)) + 1 by omega, List.range'_succ]
  by_cases hk : l[d]? = some k <;> simp [hk]

theorem pending_nil {k : X} {d s : ℕ} (h : s ≤ d) : pending l k d s = [] := by
  unfold pending
  rw [show s - d = 0 by omega]
  rfl

/-- `m` is the message of kind `k` process `r` hands over in exchange `j`. -/
def IsMsg (init : ∀ r, Proc W r (A r)) (k : X) (r : R) (j : ℕ) (m : W.Msg r k) : Prop :=
  ∃ p v next, Together init j r p ∧ p.script = .xch k v next ∧ m = W.pack r k v

/-- What holds at every moment of every schedule. -/
structure Inv (l : List X) (Q : ∀ r, A r → Prop) (init : ∀ r, Proc W r (A r)) (N : Fleet W A) : Prop where
  state : ∀ r, Together init (N.done r) r (N.st r)
  posts : ∀ r x, N.posted r x = true → ∃ k v next, (N.st r).script = .xch k v next ∧ W.needs k x r
  queue : ∀ k r x, W.needs k x r → List.Forall₂ (IsMsg init k r) (pending l k (N.done x) (N.sent r x)) (N.chan k r x)
  passed : ∀ r x j, N.sent r x ≤ j → j < N.done x → ∀ k, l[j]? = some k → ¬ W.needs k x r

theorem inv_start : Inv l Q init (start init) := by
  refine ⟨fun r => rfl, ?_, ?_, ?_⟩
  · intro r x h; simp [start] at h
  · intro k r x _
    rw [pending_nil (by simp [start, sent])]
    exact List.Forall₂.nil
  · intro r x j _ h; simp [start] at h

theorem kind_at (hl : ∀ r, Follows (Q r) l (init r).script) {N : Fleet W A} (I : Inv l Q init N) {r : R} {k : X} {v : W.Arr r k}
    {next : W.Arr r k → Script (W.Arr r) (A r)} (hs : (N.st r).script = .xch k v next) : l[N.done r]? = some k := by
  have := (I.state r).follows hl
  rw [hs] at this
  exact kind_of_follows this

theorem inv_event (hl : ∀ r, Follows (Q r) l (init r).script) {N N' : Fleet W A} (I : Inv l Q init N) (h : Event N N') :
    Inv l Q init N' := by
  cases h with
  | post r x k v next c hs hx hp hc h0 =>
    have hk := kind_at hl I hs
    have hsent : N.sent r x = N.done r := by simp [sent, hp]
    have hle : N.done x ≤ N.done r := by
      by_contra hlt
      exact I.passed r x (N.done r) hsent.le (by omega) k hk hx
    have hnew : ∀ a b, sent { N with posted := fun a b => if a = r ∧ b = x then true else N.posted a b, chan := c } a b
        = if a = r ∧ b = x then N.done r + 1 else N.sent a b := by
      intro a b
      simp only [sent]
      by_cases e : a = r ∧ b = x
      · simp [e.1, e.2]
      · simp [if_neg e]
    refine ⟨I.state, ?_, ?_, ?_⟩
    · intro a b hab
      simp only at hab ⊢
      by_cases e : a = r ∧ b = x
      · obtain ⟨rfl, rfl⟩ := e
        exact ⟨k, v, next, hs, hx⟩
      · rw [if_neg e] at hab; exact I.posts a b hab
    · intro k' a b hab
      rw [hnew]
      simp only
      by_cases e : a = r ∧ b = x
      · obtain ⟨rfl, rfl⟩ := e
        rw [if_pos ⟨rfl, rfl⟩, pending_snoc hle]
        have q := I.queue k' a b hab
        rw [hsent] at q
        by_cases ek : k' = k
        · subst ek
          rw [if_pos hk, hc]
          exact List.rel_append q (List.Forall₂.cons ⟨N.st a, v, next, I.state a, hs, rfl⟩ List.Forall₂.nil)
        · rw [if_neg (by rw [hk]; exact fun h => ek (Option.some.inj h).symm), List.append_nil, h0 k' a b (fun h => ek h.1)]
          exact q
      · rw [if_neg e, h0 k' a b (fun h => e h.2)]
        exact I.queue k' a b hab
    · intro a b j h1 h2 k' hk'
      rw [hnew] at h1
      simp only at h2
      by_cases e : a = r ∧ b = x
      · rw [if_pos e] at h1
        obtain ⟨rfl, rfl⟩ := e
        exact I.passed a b j (by omega) h2 k' hk'
      · rw [if_neg e] at h1
        exact I.passed a b j h1 h2 k' hk'
  | finish r k v next m rest hs hp hm h0 =>
    have hk := kind_at hl I hs
    -- the messages it waits for have been handed over
    have hgot : ∀ y, W.needs k r y → N.done r < N.sent y r := by
      intro y hy
      by_contra hlt
      have q := I.queue k y r hy
      rw [pending_nil (by omega), hm y hy] at q
      cases q
    have hmsg : ∀ y (hy : W.needs k r y), IsMsg init k y (N.done r) (m y hy) ∧
        List.Forall₂ (IsMsg init k y) (pending l k (N.done r + 1) (N.sent y r)) (rest k y) := by
      intro y hy
      have q := I.queue k y r hy
      rw [pending_cons (hgot y hy), if_pos hk, hm y hy] at q
      cases q with
      | cons h1 h2 => exact ⟨h1, h2⟩
    have hpost : ∀ x, N.posted r x = true → W.needs k x r := by
      intro x hx
      obtain ⟨k', v', n', hs', hn⟩ := I.posts r x hx
      rw [hs] at hs'
      obtain ⟨rfl, _⟩ := Script.xch.inj hs'
      exact hn
    -- the new numbers of messages handed over
    set N' : Fleet W A :=
      { st := Function.update N.st r ((N.st r).resume k (W.unpack r k ((N.st r).vec k) m) next)
        done := fun a => if a = r then N.done a + 1 else N.done a
        posted := fun a b => if a = r then false else N.posted a b
        chan := fun k' a b => if b = r then rest k' a else N.chan k' a b } with hN'
    have hnew : ∀ a b, N'.sent a b = if a = r then N.done r + 1 else N.sent a b := by
      intro a b
      simp only [sent, hN']
      by_cases e : a = r
      · simp [e]
      · simp [if_neg e]
    have hsame : ∀ a b k', W.needs k' b a → ∀ d, pending l k' d (N'.sent a b) = pending l k' d (N.sent a b) := by
      intro a b k' hn d
      rw [hnew]
      by_cases e : a = r
      · subst e
        rw [if_pos rfl]
        by_cases hpp : N.posted a b = true
        · simp [sent, hpp]
        · have hsd : N.sent a b = N.done a := by simp [sent, hpp]
          rw [hsd]
          by_cases hd : d ≤ N.done a
          · rw [pending_snoc hd, if_neg, List.append_nil]
            rw [hk]
            rintro hh
            obtain rfl := Option.some.inj hh
            exact hpp (hp b hn)
          · rw [pending_nil (by omega), pending_nil (by omega)]
      · rw [if_neg e]
    have hmono : ∀ a b, N.sent a b ≤ N'.sent a b := by
      intro a b
      rw [hnew]
      split_ifs with e
      · subst e
        have : (N.posted a b).toNat ≤ 1 := Bool.toNat_le _
        simp only [sent]; omega
      · exact le_rfl
    refine ⟨?_, ?_, ?_, ?_⟩
    · intro a
      by_cases e : a = r
      · subst e
        simp only [hN', Function.update_self, if_true]
        refine ⟨N.st a, k, v, next, m, I.state a, hs, fun x hx => ?_, rfl⟩
        obtain ⟨p, u, nx, h1, h2, h3⟩ := (hmsg x hx).1
        exact ⟨p, u, nx, h1, h2, h3⟩
      · simp only [hN', Function.update_of_ne e, if_neg e]
        exact I.state a
    · intro a b hab
      simp only [hN'] at hab ⊢
      by_cases e : a = r
      · simp [e] at hab
      · rw [if_neg e] at hab
        rw [Function.update_of_ne e]
        exact I.posts a b hab
    · intro k' a b hab
      rw [hsame a b k' hab]
      by_cases e : b = r
      · subst e
        simp only [hN', if_true]
        by_cases hka : k' = k
        · subst hka
          exact (hmsg a hab).2
        · rw [h0 k' a (fun h => hka h.1)]
          have q := I.queue k' a b hab
          by_cases hlt : N.done b < N.sent a b
          · rw [pending_cons hlt, if_neg (by rw [hk]; exact fun h => hka (Option.some.inj h).symm), List.nil_append] at q
            exact q
          · rw [pending_nil (by omega)] at q ⊢
            exact q
      · simp only [hN', if_neg e]
        exact I.queue k' a b hab
    · intro a b j h1 h2 k' hk' hn
      have h1' := (hmono a b).trans h1
      by_cases e : b = r
      · subst e
        simp only [hN', if_true] at h2
        by_cases hj : j = N.done b
        · subst hj
          rw [hk] at hk'
          obtain rfl := Option.some.inj hk'
          have := hgot a hn
          omega
        · exact I.passed a b j h1' (by omega) k' hk' hn
      · simp only [hN', if_neg e] at h2
        exact I.passed a b j h1' h2 k' hk' hn

theorem inv (hl : ∀ r, Follows (Q r) l (init r).script) {N : Fleet W A} (h : Reach init N) : Inv l Q init N := by
  induction h with
  | start => exact inv_start
  | step N N' _ he ih => exact inv_event hl ih he

/-! ### every schedule comes to an end -/

/-- What is left to happen at most. -/
def left [Fintype R] (l : List X) (N : Fleet W A) : ℕ :=
  ∑ r, (∑ x, (if N.posted r x then 0 else 1) + (l.length - N.done r) * (Fintype.card R + 1))

theorem left_event [Fintype R] (hl : ∀ r, Follows (Q r) l (init r).script) {N N' : Fleet W A} (I : Inv l Q init N) (h : Event N N') :
    N'.left l < N.left l := by
  unfold left
  cases h with
  | post r x k v next c hs hx hp hc h0 =>
    apply Finset.sum_lt_sum
    · intro a _
      simp only
      have : ∑ b, (if (if a = r ∧ b = x then true else N.posted a b) = true then 0 else 1) ≤ ∑ b, (if N.posted a b = true then 0 else 1) := by
        apply Finset.sum_le_sum
        intro b _
        by_cases e : a = r ∧ b = x
        · rw [if_pos e]; simp
        · rw [if_neg e]
      omega
    · refine ⟨r, Finset.mem_univ r, ?_⟩
      simp only
      have : ∑ b, (if (if r = r ∧ b = x then true else N.posted r b) = true then 0 else 1) < ∑ b, (if N.posted r b = true then 0 else 1) := by
        apply Finset.sum_lt_sum
        · intro b _
          by_cases e : r = r ∧ b = x
          · rw [if_pos e]; simp
          · rw [if_neg e]
        · exact ⟨x, Finset.mem_univ x, by simp [hp]⟩
      simp only [true_and] at this ⊢
      omega
  | finish r k v next m rest hs hp hm h0 =>
    have hn : N.done r < l.length := by
      have := kind_at hl I hs
      exact (List.getElem?_eq_some_iff.mp this).1
    apply Finset.sum_lt_sum
    · intro a _
      by_cases e : a = r
      · subst e
        simp only [if_true, Bool.false_eq_true, if_false]
        have hc : ∑ _x : R, 1 = Fintype.card R := by simp
        rw [hc, show l.length - N.done a = (l.length - (N.done a + 1)) + 1 by omega, add_mul]
        omega
      · simp only [if_neg e]; exact le_rfl
    · refine ⟨r, Finset.mem_univ r, ?_⟩
      simp only [if_true, Bool.false_eq_true, if_false]
      have hc : ∑ _x : R, 1 = Fintype.card R := by simp
      rw [hc, show l.length - N.done r = (l.length - (N.done r + 1)) + 1 by omega, add_mul]
      omega

theorem reach_stuck [Fintype R] (hl : ∀ r, Follows (Q r) l (init r).script) {N : Fleet W A} (h : Reach init N) :
    ∃ N', Reach init N' ∧ Stuck N' := by
  induction hk : N.left l using Nat.strong_induction_on generalizing N with
  | _ k ih =>
    by_cases hs : Stuck N
    · exact ⟨N, h, hs⟩
    · simp only [Stuck, not_forall, not_not] at hs
      obtain ⟨N', hN'⟩ := hs
      exact ih _ (hk ▸ left_event hl (inv hl h) hN') (.step N N' h hN') rfl

/-- Where nothing more can happen, a process that is in an exchange waits for one that is further behind, or has left. -/
theorem stuck_waits (hl : ∀ r, Follows (Q r) l (init r).script) {N : Fleet W A} (I : Inv l Q init N) (hs : Stuck N) {r : R} {k : X}
    {v : W.Arr r k} {next : W.Arr r k → Script (W.Arr r) (A r)} (hr : (N.st r).script = .xch k v next) :
    ∃ x, W.needs k r x ∧ (N.done x < N.done r ∨ N.done x = N.done r ∧ ∀ k' v' n', (N.st x).script ≠ .xch k' v' n') := by
  classical
  by_contra hno
  push Not at hno
  have hk := kind_at hl I hr
  have posts : ∀ a k' v' n', (N.st a).script = .xch k' v' n' → ∀ x, W.needs k' x a → N.posted a x = true := by
    intro a k' v' n' ha x hx
    by_contra hp
    refine hs _ (Event.post N a x k' v' n' (fun k2 a2 b2 => if h : k2 = k' ∧ a2 = a ∧ b2 = x then
      N.chan k2 a2 b2 ++ [h.1 ▸ h.2.1 ▸ W.pack a k' v'] else N.chan k2 a2 b2) ha hx (by simpa using hp) ?_ ?_)
    · simp
    · intro k2 a2 b2 hne; rw [dif_neg hne]
  have hne : ∀ x, W.needs k r x → N.chan k x r ≠ [] := by
    intro x hx hnil
    have q := I.queue k x r hx
    obtain ⟨h1, h2⟩ := hno x hx
    have hlt : N.done r < N.sent x r := by
      rcases h1.lt_or_eq with h | h
      · simp only [sent]; omega
      · obtain ⟨k', v', n', ht⟩ := h2 h.symm
        have hk' := kind_at hl I ht
        rw [← h, hk] at hk'
        obtain rfl := Option.some.inj hk'
        simp only [sent, posts x k v' n' ht r hx, Bool.toNat_true]
        omega
    rw [hnil, pending_cons hlt, if_pos hk] at q
    cases q
  have hex : ∀ x, ∃ (m : W.needs k r x → W.Msg x k) (rest : List (W.Msg x k)), (∀ h, N.chan k x r = m h :: rest) ∧
      (¬ W.needs k r x → rest = N.chan k x r) := by
    intro x
    by_cases hx : W.needs k r x
    · obtain ⟨a, t, e⟩ := List.exists_cons_of_ne_nil (hne x hx)
      exact ⟨fun _ => a, t, fun _ => e, fun h => absurd hx h⟩
    · exact ⟨fun h => absurd h hx, N.chan k x r, fun h => absurd h hx, fun _ => rfl⟩
  choose m rest h1 h2 using hex
  refine hs _ (Event.finish N r k v next m (fun k' x => if h : k' = k then h ▸ rest x else N.chan k' x r) hr (posts r k v next hr) ?_ ?_)
  · intro x h; simp [h1 x h]
  · intro k' x hh
    by_cases e : k' = k
    · subst e
      simp only [dif_pos]
      exact h2 x (fun h => hh ⟨rfl, h⟩)
    · rw [dif_neg e]

end Fleet

/-! ### scripts that end -/

namespace Script

variable {V : X → Type} {B C E : Type}

theorem bind_assoc (p : Script V B) (q : B → Script V C) (s : C → Script V E) : (p.bind q).bind s = p.bind fun a => (q a).bind s := by
  induction p with
  | ret a => rfl
  | raise e => rfl
  | xch k v next ih => simp only [bind]; congr 1; funext w; exact ih w

theorem ret_bind (a : B) (q : B → Script V C) : (ret a : Script V B).bind q = q a := rfl

theorem bind_def (p : Script V B) (q : B → Script V C) : p >>= q = p.bind q := rfl

theorem pure_def (a : B) : (pure a : Script V B) = ret a := rfl

theorem exchange_bind (k : X) (v : V k) (q : V k → Script V C) : (exchange k v).bind q = xch k v q := rfl

theorem follows_bind {Q : B → Prop} {Q' : C → Prop} {l l' : List X} {p : Script V B} (h : Follows Q l p) {q : B → Script V C}
    (hq : ∀ a, Q a → Follows Q' l' (q a)) : Follows Q' (l ++ l') (p.bind q) := by
  induction h with
  | ret a ha => exact hq a ha
  | raise l e => exact .raise _ e
  | xch k l v next _ ih => exact .xch k _ v _ ih

theorem follows_lift {Q : B → Prop} {e : Except PyErr B} (h : ∀ a, e = .ok a → Q a) : Follows (V := V) Q [] (lift e) := by
  cases e with
  | ok a => exact .ret a (h a rfl)
  | error e => exact .raise _ e

theorem follows_exchange (k : X) (v : V k) : Follows (fun _ => True) [k] (exchange k v) :=
  .xch k [] v _ fun w => .ret w trivial

end Script

/-- The processes, moving together, end with the values `a`. -/
def Ends (scr : ∀ r, Script (W.Arr r) (A r)) (vec : ∀ r k, W.Arr r k) (a : ∀ r, A r) : Prop :=
  ∃ n, ∀ r, ∃ vec', Together (W := W) (fun r => ⟨scr r, vec r⟩) n r ⟨.ret (a r), vec'⟩

theorem ends_ret {b a : ∀ r, A r} {vec : ∀ r k, W.Arr r k} (h : Ends (W := W) (fun r => .ret (b r)) vec a) : a = b := by
  obtain ⟨n, h⟩ := h
  funext r
  obtain ⟨vec', h⟩ := h r
  obtain _ | n := n
  · have := congrArg Proc.script (show (_ : Proc W r (A r)) = _ from h)
    exact Script.ret.inj this
  · obtain ⟨k, v, next, e⟩ := h.xch_of_lt (j := 0) (by omega) rfl
    cases e

theorem ends_not_raise {scr : ∀ r, Script (W.Arr r) (A r)} {vec : ∀ r k, W.Arr r k} {a : ∀ r, A r} (h : Ends scr vec a) (r : R) (e : PyErr) :
    scr r ≠ .raise e := by
  intro he
  obtain ⟨n, h⟩ := h
  obtain ⟨vec', h⟩ := h r
  obtain _ | n := n
  · have := congrArg Proc.script (show (_ : Proc W r (A r)) = _ from h)
    simp only [he] at this
    cases this
  · obtain ⟨k, v, next, e⟩ := h.xch_of_lt (j := 0) (by omega) rfl
    simp only [he] at e
    cases e

theorem ends_lift {B : R → Type} {e : ∀ r, Except PyErr (B r)} {q : ∀ r, B r → Script (W.Arr r) (A r)} {vec : ∀ r k, W.Arr r k} {a : ∀ r, A r}
    (h : Ends (fun r => (Script.lift (e r)).bind (q r)) vec a) : ∃ b : ∀ r, B r, (∀ r, e r = .ok (b r)) ∧ Ends (fun r => q r (b r)) vec a := by
  have : ∀ r, ∃ b, e r = .ok b := by
    intro r
    cases he : e r with
    | ok b => exact ⟨b, rfl⟩
    | error x => exact absurd (by rw [he]; rfl) (ends_not_raise h r x)
  choose b hb using this
  refine ⟨b, hb, ?_⟩
  have e2 : (fun r => (Script.lift (V := W.Arr r) (e r)).bind (q r)) = fun r => q r (b r) := by
    funext r; rw [hb r]; rfl
  rwa [e2] at h

/-- What everybody gets in an exchange of kind `k` in which process `r` has the array `v r` and the local vector `vec r`. -/
def allGet (W : Wire R X) (k : X) (vec v : ∀ r, W.Arr r k) (r : R) : W.Arr r k := W.unpack r k (vec r) fun x _ => W.pack x k (v x)

theorem ends_xch {k : X} {v : ∀ r, W.Arr r k} {next : ∀ r, W.Arr r k → Script (W.Arr r) (A r)} {vec : ∀ r k, W.Arr r k} {a : ∀ r, A r}
    (h : Ends (fun r => .xch k (v r) (next r)) vec a) :
    Ends (fun r => next r (allGet W k (fun r => vec r k) v r))
      (fun r => Function.update (vec r) k (allGet W k (fun r => vec r k) v r)) a := by
  obtain ⟨n, h⟩ := h
  obtain _ | n := n
  · refine ⟨0, fun r => ?_⟩
    obtain ⟨vec', h⟩ := h r
    have := congrArg Proc.script (show (_ : Proc W r (A r)) = _ from h)
    cases this
  · refine ⟨n, fun r => ?_⟩
    obtain ⟨vec', h⟩ := h r
    refine ⟨vec', (Together.shift (fun r => ?_)).mp h⟩
    exact ⟨_, k, v r, next r, fun x _ => W.pack x k (v x), rfl, rfl, fun x _ => ⟨_, v x, next x, rfl, rfl, rfl⟩, rfl⟩

end Bolt

namespace Bolt
namespace Decomp

variable {N1 N2 : ℕ} {R : Type} (D : Decomp N1 N2 R) (g1 g2 : ℕ) {S K : Type} {Np1 Np2 Np3 : ℕ} [Field K] [LinearOrder K]

theorem allGet_f (bcf bce : PetscBC × PetscBC) (vec F : ∀ r, Dist S (PIdx Np1 Np2 Np3) (D.Loc g1 g2 r) K) (r : R) :
    allGet (D.coupledWire g1 g2 S Np1 Np2 Np3 K bcf bce) .f vec F r = D.exchange g1 g2 bcf.1 bcf.2 vec F r :=
  D.received_eq g1 g2 bcf.1 bcf.2 r F vec _ fun _ _ => rfl

theorem pick_eq (bc1 bc2 : PetscBC) (r : R) (vec F : ∀ r, D.Loc g1 g2 r → K) :
    D.pick g1 g2 bc1 bc2 r (vec r) (fun x _ i => F x (D.toLoc g1 g2 x i)) = D.exchange1 g1 g2 bc1 bc2 vec F r := by
  funext l
  simp only [pick, exchange1, exchange]
  by_cases h : D.Filled g1 g2 bc1 bc2 r l
  · rw [dif_pos h, if_pos (by exact h)]; rfl
  · rw [dif_neg h, if_neg (by exact h)]

theorem allGet_em (bcf bce : PetscBC × PetscBC) (vec F : ∀ r, EM (D.Loc g1 g2 r) K) (r : R) :
    allGet (D.coupledWire g1 g2 S Np1 Np2 Np3 K bcf bce) .em vec F r = D.exchangeEM g1 g2 bce.1 bce.2 vec F r := by
  simp only [exchangeEM]
  rw [← D.pick_eq, ← D.pick_eq, ← D.pick_eq, ← D.pick_eq, ← D.pick_eq, ← D.pick_eq]
  rfl

variable {bcf bce : PetscBC × PetscBC} {o : BCOptions} {A : R → Type}

theorem ends_syncF (hset : setupBCs o.nGhost o.name = .ok ((bcf.1, g1), (bcf.2, g2)))
    {dat : ∀ r, D.LocBCData g1 g2 r S Np1 Np2 Np3 K} {F : ∀ r, Dist S (PIdx Np1 Np2 Np3) (D.Loc g1 g2 r) K}
    {q : ∀ r, Dist S (PIdx Np1 Np2 Np3) (D.Loc g1 g2 r) K → D.ProcScript g1 g2 r S Np1 Np2 Np3 K (A r)}
    {vec : ∀ r k, KindArr S Np1 Np2 Np3 K (D.Loc g1 g2 r) k} {a : ∀ r, A r}
    (h : Ends (W := D.coupledWire g1 g2 S Np1 Np2 Np3 K bcf bce) (fun r => (D.syncF g1 g2 o r (dat r) (F r)).bind (q r)) vec a) :
    ∃ F0 vec', D.Synced g1 g2 o dat F F0 ∧ Ends (W := D.coupledWire g1 g2 S Np1 Np2 Np3 K bcf bce) (fun r => q r (F0 r)) vec' a := by
  simp only [syncF, Script.bind_def, Script.bind_assoc, Script.exchange_bind] at h
  have h1 := ends_xch (W := D.coupledWire g1 g2 S Np1 Np2 Np3 K bcf bce) (k := .f) (v := F) h
  obtain ⟨F0, e, h2⟩ := ends_lift h1
  refine ⟨F0, _, ⟨bcf.1, bcf.2, fun r => vec r .f, hset, fun r => ?_⟩, h2⟩
  rw [← D.allGet_f g1 g2 bcf bce]
  exact e r

theorem ends_sent (hty : FieldTypes g1 g2 o bce.1 bce.2) {Y : ∀ r, EM (D.Loc g1 g2 r) K}
    {q : ∀ r, EM (D.Loc g1 g2 r) K → D.ProcScript g1 g2 r S Np1 Np2 Np3 K (A r)}
    {vec : ∀ r k, KindArr S Np1 Np2 Np3 K (D.Loc g1 g2 r) k} {a : ∀ r, A r}
    (h : Ends (W := D.coupledWire g1 g2 S Np1 Np2 Np3 K bcf bce) (fun r => .xch .em (Y r) (q r)) vec a) :
    ∃ Y0 vec', D.SentFields g1 g2 o Y Y0 ∧ Ends (W := D.coupledWire g1 g2 S Np1 Np2 Np3 K bcf bce) (fun r => q r (Y0 r)) vec' a := by
  have h1 := ends_xch (W := D.coupledWire g1 g2 S Np1 Np2 Np3 K bcf bce) (k := .em) (v := Y) h
  refine ⟨_, _, ⟨bce.1, bce.2, fun r => vec r .em, hty, ?_⟩, h1⟩
  funext r
  exact D.allGet_em g1 g2 bcf bce _ _ r

theorem ends_syncEM (hty : FieldTypes g1 g2 o bce.1 bce.2) {user : ∀ r, D.LocFieldBCs g1 g2 r K} {Y : ∀ r, EM (D.Loc g1 g2 r) K}
    {q : ∀ r, EM (D.Loc g1 g2 r) K → D.ProcScript g1 g2 r S Np1 Np2 Np3 K (A r)}
    {vec : ∀ r k, KindArr S Np1 Np2 Np3 K (D.Loc g1 g2 r) k} {a : ∀ r, A r}
    (h : Ends (W := D.coupledWire g1 g2 S Np1 Np2 Np3 K bcf bce)
      (fun r => Script.bind (V := KindArr S Np1 Np2 Np3 K (D.Loc g1 g2 r)) (D.syncEM g1 g2 o r (user r) (Y r)) (q r)) vec a) :
    ∃ Y0 vec', D.SyncedFields g1 g2 o user Y Y0 ∧ Ends (W := D.coupledWire g1 g2 S Np1 Np2 Np3 K bcf bce) (fun r => q r (Y0 r)) vec' a := by
  simp only [syncEM, Script.bind_def, Script.bind_assoc, Script.exchange_bind] at h
  obtain ⟨G, vec', hG, h1⟩ := D.ends_sent g1 g2 hty h
  obtain ⟨Y0, e, h2⟩ := ends_lift h1
  exact ⟨Y0, _, ⟨G, hG, e⟩, h2⟩

theorem ends_evolve [∀ r, Fintype (D.Loc g1 g2 r)] (hty : FieldTypes g1 g2 o bce.1 bce.2) {user : ∀ r, D.LocFieldBCs g1 g2 r K}
    {pr : ∀ r, FieldParams (D.Loc g1 g2 r) K} {J : ∀ r, Currents (D.Loc g1 g2 r) K} {dt : K} {σ : ∀ r, FieldState (D.Loc g1 g2 r) K}
    {q : ∀ r, FieldState (D.Loc g1 g2 r) K → D.ProcScript g1 g2 r S Np1 Np2 Np3 K (A r)}
    {vec : ∀ r k, KindArr S Np1 Np2 Np3 K (D.Loc g1 g2 r) k} {a : ∀ r, A r}
    (h : Ends (W := D.coupledWire g1 g2 S Np1 Np2 Np3 K bcf bce)
      (fun r => Script.bind (V := KindArr S Np1 Np2 Np3 K (D.Loc g1 g2 r)) (D.evolveScript g1 g2 o r (user r) (pr r) (J r) dt (σ r)) (q r)) vec a) :
    ∃ σ' vec', D.EvolveFields g1 g2 o user pr J dt σ σ' ∧
      Ends (W := D.coupledWire g1 g2 S Np1 Np2 Np3 K bcf bce) (fun r => q r (σ' r)) vec' a := by
  simp only [evolveScript, Script.bind_def, Script.bind_assoc] at h
  obtain ⟨Y0, v0, s0, h⟩ := D.ends_syncEM g1 g2 hty h
  obtain ⟨Y1, e1, h⟩ := ends_lift h
  obtain ⟨Y2, v2, s2, h⟩ := D.ends_syncEM g1 g2 hty h
  exact ⟨_, _, ⟨_, ⟨Y0, Y1, Y2, s0, e1, s2, fun _ => rfl⟩, fun _ => rfl⟩, h⟩

variable [Fintype S] [Fintype (PIdx Np1 Np2 Np3)] [∀ r, Fintype (D.Loc g1 g2 r)]

theorem ends_field {QQ : Type} (hty : FieldTypes g1 g2 o bce.1 bce.2) {c : CoupledConfig S (PIdx Np1 Np2 Np3) QQ K} {hyb : S}
    {user : ∀ r, D.LocFieldBCs g1 g2 r K} {cb : ∀ r, CoupledCallbacks S (PIdx Np1 Np2 Np3) (D.Loc g1 g2 r) K} {dt : K}
    {F : ∀ r, Dist S (PIdx Np1 Np2 Np3) (D.Loc g1 g2 r) K} {σ : ∀ r, FieldState (D.Loc g1 g2 r) K} {b : Bool} (hb : ∀ r, (σ r).flag = b)
    {q : ∀ r, FieldState (D.Loc g1 g2 r) K → D.ProcScript g1 g2 r S Np1 Np2 Np3 K (A r)}
    {vec : ∀ r k, KindArr S Np1 Np2 Np3 K (D.Loc g1 g2 r) k} {a : ∀ r, A r}
    (h : Ends (W := D.coupledWire g1 g2 S Np1 Np2 Np3 K bcf bce)
      (fun r => (D.fieldScript g1 g2 o c hyb r (user r) (cb r) dt (F r) (σ r)).bind (q r)) vec a) :
    ∃ σ' vec', D.FieldPhase g1 g2 o user c hyb cb dt F σ σ' ∧ (∀ r, (σ' r).flag = b) ∧
      Ends (W := D.coupledWire g1 g2 S Np1 Np2 Np3 K bcf bce) (fun r => q r (σ' r)) vec' a := by
  rcases isEmpty_or_nonempty R with hR | ⟨⟨r0⟩⟩
  · refine ⟨σ, vec, Or.inr ⟨Or.inr fun r => (IsEmpty.false r).elim, rfl⟩, hb, ?_⟩
    exact ⟨0, fun r => (IsEmpty.false r).elim⟩
  by_cases he : c.fieldsType = "electrodynamic" ∧ b = false
  · have e1 : ∀ r, c.fieldsType = "electrodynamic" ∧ (σ r).flag = false := fun r => ⟨he.1, by rw [hb r, he.2]⟩
    by_cases hq : c.solverMethodInQ = "FVM"
    · simp only [fieldScript, if_pos (e1 _), if_pos hq, Script.bind_def, Script.bind_assoc] at h
      obtain ⟨m, em, h⟩ := ends_lift h
      have hm : ∀ r, m r = m r0 := fun r => Except.ok.inj ((em r).symm.trans (em r0))
      simp only [hm] at h
      by_cases hh : c.hybrid = true
      · simp only [if_pos hh, Script.bind_assoc, Script.exchange_bind] at h
        obtain ⟨Y, v1, hY, h⟩ := D.ends_sent g1 g2 hty h
        obtain ⟨σ', v2, hE, h⟩ := D.ends_evolve g1 g2 hty h
        refine ⟨σ', v2, Or.inl ⟨he.1, fun r => (e1 r).2, hq, m r0, em r0, ?_⟩, fun r => ?_, h⟩
        · rw [if_pos hh]; exact ⟨Y, hY, hE⟩
        · obtain ⟨Y', -, h2⟩ := hE
          rw [h2 r, (storeFields_rest _ _ _ _).2.1]; exact hb r
      · simp only [if_neg hh] at h
        obtain ⟨σ', v2, hE, h⟩ := D.ends_evolve g1 g2 hty h
        refine ⟨σ', v2, Or.inl ⟨he.1, fun r => (e1 r).2, hq, m r0, em r0, ?_⟩, fun r => ?_, h⟩
        · rw [if_neg hh]; exact hE
        · obtain ⟨Y', -, h2⟩ := hE
          rw [h2 r, (storeFields_rest _ _ _ _).2.1]; exact hb r
    · exfalso
      refine ends_not_raise h r0 .nameError ?_
      simp only [fieldScript, if_pos (e1 _), if_neg hq]; rfl
  · have e1 : ∀ r, ¬ (c.fieldsType = "electrodynamic" ∧ (σ r).flag = false) := fun r => by rw [hb r]; exact he
    simp only [fieldScript, if_neg (e1 _), Script.pure_def, Script.ret_bind] at h
    refine ⟨σ, vec, Or.inr ⟨?_, rfl⟩, hb, h⟩
    by_cases ht : c.fieldsType = "electrodynamic"
    · right
      intro r
      rw [hb r]
      cases b
      · exact absurd ⟨ht, rfl⟩ he
      · rfl
    · exact Or.inl ht

theorem ends_slope {QQ : Type} (hty : FieldTypes g1 g2 o bce.1 bce.2) {c : CoupledConfig S (PIdx Np1 Np2 Np3) QQ K} {hyb : S}
    {user : ∀ r, D.LocFieldBCs g1 g2 r K} {cb : ∀ r, CoupledCallbacks S (PIdx Np1 Np2 Np3) (D.Loc g1 g2 r) K} {dt : K}
    {F : ∀ r, Dist S (PIdx Np1 Np2 Np3) (D.Loc g1 g2 r) K} {σ : ∀ r, FieldState (D.Loc g1 g2 r) K} {b : Bool} (hb : ∀ r, (σ r).flag = b)
    {q : ∀ r, Dist S (PIdx Np1 Np2 Np3) (D.Loc g1 g2 r) K × FieldState (D.Loc g1 g2 r) K → D.ProcScript g1 g2 r S Np1 Np2 Np3 K (A r)}
    {vec : ∀ r k, KindArr S Np1 Np2 Np3 K (D.Loc g1 g2 r) k} {a : ∀ r, A r}
    (h : Ends (W := D.coupledWire g1 g2 S Np1 Np2 Np3 K bcf bce)
      (fun r => (D.slopeScript g1 g2 o c hyb r (user r) (cb r) dt (F r) (σ r)).bind (q r)) vec a) :
    ∃ k σ' vec', D.SlopeCoupled g1 g2 o user c hyb cb dt F σ k σ' ∧ (∀ r, (σ' r).flag = slopeFlag c b) ∧
      Ends (W := D.coupledWire g1 g2 S Np1 Np2 Np3 K bcf bce) (fun r => q r (k r, σ' r)) vec' a := by
  by_cases hp : c.solverMethodInP = "FVM" ∧ c.fieldsEnabled = true
  · simp only [slopeScript, if_pos hp, Script.bind_def, Script.bind_assoc, Script.pure_def, Script.ret_bind] at h
    obtain ⟨σ1, v1, hF, hb1, h⟩ := D.ends_field g1 g2 hty hb h
    obtain ⟨k, hk, h⟩ := ends_lift h
    refine ⟨k, _, _, ?_, fun r => ?_, h⟩
    · rw [SlopeCoupled, if_pos hp]
      exact ⟨σ1, hF, fun r => ⟨hk r, rfl⟩⟩
    · simp only [hp.1, getFields_flag, hb1 r, Bool.not_not, slopeFlag]
      simp [hp.2]
  · simp only [slopeScript, if_neg hp, Script.bind_def, Script.bind_assoc, Script.pure_def, Script.ret_bind] at h
    obtain ⟨k, hk, h⟩ := ends_lift h
    refine ⟨k, σ, _, ?_, fun r => ?_, h⟩
    · rw [SlopeCoupled, if_neg hp]
      exact ⟨hk, rfl⟩
    · rw [hb r, slopeFlag, if_neg hp]

theorem ends_step {QQ : Type} (hset : setupBCs o.nGhost o.name = .ok ((bcf.1, g1), (bcf.2, g2))) (hty : FieldTypes g1 g2 o bce.1 bce.2)
    {c : CoupledConfig S (PIdx Np1 Np2 Np3) QQ K} {hyb : S} {blowup : ∀ r, Dist S (PIdx Np1 Np2 Np3) (D.Loc g1 g2 r) K → Bool} {dt : K}
    {inp : D.CoupledInput g1 g2 S Np1 Np2 Np3 K}
    {F : ∀ r, Dist S (PIdx Np1 Np2 Np3) (D.Loc g1 g2 r) K} {σ : ∀ r, FieldState (D.Loc g1 g2 r) K} {b : Bool} (hb : ∀ r, (σ r).flag = b)
    {q : ∀ r, Dist S (PIdx Np1 Np2 Np3) (D.Loc g1 g2 r) K × FieldState (D.Loc g1 g2 r) K → D.ProcScript g1 g2 r S Np1 Np2 Np3 K (A r)}
    {vec : ∀ r k, KindArr S Np1 Np2 Np3 K (D.Loc g1 g2 r) k} {a : ∀ r, A r}
    (h : Ends (W := D.coupledWire g1 g2 S Np1 Np2 Np3 K bcf bce)
      (fun r => (D.stepScript g1 g2 o c hyb r (blowup r) dt inp (F r) (σ r)).bind (q r)) vec a) :
    ∃ F' σ' vec', D.StepCoupled g1 g2 o c hyb dt inp F σ F' σ' ∧ (∀ r, blowup r (F' r) = false) ∧
      (∀ r, (σ' r).flag = slopeFlag c (slopeFlag c b)) ∧
      Ends (W := D.coupledWire g1 g2 S Np1 Np2 Np3 K bcf bce) (fun r => q r (F' r, σ' r)) vec' a := by
  simp only [stepScript, Script.bind_def, Script.bind_assoc] at h
  obtain ⟨F0, v0, s0, h⟩ := D.ends_syncF g1 g2 hset h
  obtain ⟨k0, σh, v1, s1, hb1, h⟩ := D.ends_slope g1 g2 hty hb h
  obtain ⟨Fh, v2, s2, h⟩ := D.ends_syncF g1 g2 hset h
  obtain ⟨k1, σ', v3, s3, hb3, h⟩ := D.ends_slope g1 g2 hty hb1 h
  have hbl : ∀ r, blowup r (fun s p l => F0 r s p l + k1 r s p l * dt) = false := by
    intro r
    by_contra hne
    refine ends_not_raise h r .systemExit ?_
    have : blowup r (fun s p l => F0 r s p l + k1 r s p l * dt) = true := by simpa using hne
    simp only [this, if_true]; rfl
  simp only [hbl, Bool.false_eq_true, if_false, Script.pure_def, Script.ret_bind] at h
  exact ⟨_, σ', v3, ⟨F0, k0, Fh, k1, σh, s0, s1, s2, s3, rfl⟩, hbl, hb3, h⟩

theorem ends_run {QQ : Type} (hset : setupBCs o.nGhost o.name = .ok ((bcf.1, g1), (bcf.2, g2))) (hty : FieldTypes g1 g2 o bce.1 bce.2)
    {c : CoupledConfig S (PIdx Np1 Np2 Np3) QQ K} {hyb : S} {blowup : ∀ r, Dist S (PIdx Np1 Np2 Np3) (D.Loc g1 g2 r) K → Bool}
    (steps : List (K × D.CoupledInput g1 g2 S Np1 Np2 Np3 K))
    {F : ∀ r, Dist S (PIdx Np1 Np2 Np3) (D.Loc g1 g2 r) K} {σ : ∀ r, FieldState (D.Loc g1 g2 r) K} {b : Bool} (hb : ∀ r, (σ r).flag = b)
    {vec : ∀ r k, KindArr S Np1 Np2 Np3 K (D.Loc g1 g2 r) k}
    {a : ∀ r, Dist S (PIdx Np1 Np2 Np3) (D.Loc g1 g2 r) K × FieldState (D.Loc g1 g2 r) K}
    (h : Ends (W := D.coupledWire g1 g2 S Np1 Np2 Np3 K bcf bce)
      (fun r => D.runScript g1 g2 o c hyb r (blowup r) steps (F r) (σ r)) vec a) :
    D.RunCoupled g1 g2 o c hyb steps F σ (fun r => (a r).1) (fun r => (a r).2) := by
  induction steps generalizing F σ b vec with
  | nil =>
    have := ends_ret (W := D.coupledWire g1 g2 S Np1 Np2 Np3 K bcf bce) (b := fun r => (F r, σ r)) h
    subst this
    exact ⟨rfl, rfl⟩
  | cons st rest ih =>
    obtain ⟨dt, inp⟩ := st
    simp only [runScript, Script.bind_def] at h
    obtain ⟨F', σ', v, hs, -, hb', h⟩ := D.ends_step g1 g2 hset hty hb h
    exact ⟨F', σ', hs, ih hb' h⟩

/-! ### the exchanges in which a process takes part -/

theorem follows_syncF (r : R) (dat : D.LocBCData g1 g2 r S Np1 Np2 Np3 K) (F : Dist S (PIdx Np1 Np2 Np3) (D.Loc g1 g2 r) K) :
    Follows (fun _ => True) [XKind.f] (D.syncF g1 g2 o r dat F) := by
  unfold syncF
  exact Script.follows_bind (l := [XKind.f]) (l' := []) (Script.follows_exchange XKind.f _) fun w _ => Script.follows_lift fun _ _ => trivial

theorem follows_syncEM (r : R) (user : D.LocFieldBCs g1 g2 r K) (Y : EM (D.Loc g1 g2 r) K) :
    Follows (fun _ => True) [XKind.em] (D.syncEM g1 g2 (S := S) (Np1 := Np1) (Np2 := Np2) (Np3 := Np3) o r user Y) := by
  unfold syncEM
  exact Script.follows_bind (l := [XKind.em]) (l' := []) (Script.follows_exchange XKind.em _) fun w _ => Script.follows_lift fun _ _ => trivial

theorem follows_evolve (r : R) (user : D.LocFieldBCs g1 g2 r K) (pr : FieldParams (D.Loc g1 g2 r) K) (J : Currents (D.Loc g1 g2 r) K) (dt : K)
    (σ : FieldState (D.Loc g1 g2 r) K) :
    Follows (fun σ' => σ'.flag = σ.flag) [XKind.em, XKind.em]
      (D.evolveScript g1 g2 (S := S) (Np1 := Np1) (Np2 := Np2) (Np3 := Np3) o r user pr J dt σ) := by
  unfold evolveScript
  refine Script.follows_bind (l := [XKind.em]) (l' := [XKind.em]) (D.follows_syncEM g1 g2 r user _) fun Y0 _ => ?_
  refine Script.follows_bind (l := []) (l' := [XKind.em]) (Q := fun _ => True) (Script.follows_lift fun _ _ => trivial) fun Y1 _ => ?_
  refine Script.follows_bind (l := [XKind.em]) (l' := []) (D.follows_syncEM g1 g2 r user _) fun Y2 _ => ?_
  exact .ret _ ((storeFields_rest _ _ _ _).2.1)

theorem follows_field {QQ : Type} (c : CoupledConfig S (PIdx Np1 Np2 Np3) QQ K) (hyb : S) (r : R) (user : D.LocFieldBCs g1 g2 r K)
    (cb : CoupledCallbacks S (PIdx Np1 Np2 Np3) (D.Loc g1 g2 r) K) (dt : K) (F : Dist S (PIdx Np1 Np2 Np3) (D.Loc g1 g2 r) K)
    (σ : FieldState (D.Loc g1 g2 r) K) :
    Follows (fun σ' => σ'.flag = σ.flag)
      (if c.fieldsType = "electrodynamic" ∧ σ.flag = false then if c.hybrid = true then [XKind.em, XKind.em, XKind.em] else [XKind.em, XKind.em]
        else []) (D.fieldScript g1 g2 o c hyb r user cb dt F σ) := by
  unfold fieldScript
  split_ifs with h1 h2 h3
  · refine Script.follows_bind (l := []) (l' := [XKind.em, XKind.em, XKind.em]) (Q := fun _ => True)
      (Script.follows_lift fun _ _ => trivial) fun m _ => ?_
    refine Script.follows_bind (l := [XKind.em]) (l' := [XKind.em, XKind.em]) (Script.follows_exchange XKind.em _) fun Y _ => ?_
    exact D.follows_evolve g1 g2 (S := S) (Np1 := Np1) (Np2 := Np2) (Np3 := Np3) r user _
      (hybridFields (D.locCfg g1 g2 c r) hyb m cb.Cq1 cb.Cq2 F F Y).1 dt
      { σ with yee := EM.setE Y (some (hybridFields (D.locCfg g1 g2 c r) hyb m cb.Cq1 cb.Cq2 F F Y).2) }
  · exact .raise _ _
  · refine Script.follows_bind (l := []) (l' := [XKind.em, XKind.em]) (Q := fun _ => True)
      (Script.follows_lift fun _ _ => trivial) fun m _ => ?_
    exact D.follows_evolve g1 g2 (S := S) (Np1 := Np1) (Np2 := Np2) (Np3 := Np3) r user _ _ dt _
  · exact .raise _ _
  · exact .ret _ rfl

theorem follows_slope {QQ : Type} (c : CoupledConfig S (PIdx Np1 Np2 Np3) QQ K) (hyb : S) (r : R) (user : D.LocFieldBCs g1 g2 r K)
    (cb : CoupledCallbacks S (PIdx Np1 Np2 Np3) (D.Loc g1 g2 r) K) (dt : K) (F : Dist S (PIdx Np1 Np2 Np3) (D.Loc g1 g2 r) K)
    (σ : FieldState (D.Loc g1 g2 r) K) :
    Follows (fun a => a.2.flag = slopeFlag c σ.flag) (slopeKinds c σ.flag) (D.slopeScript g1 g2 o c hyb r user cb dt F σ) := by
  unfold slopeScript
  by_cases hp : c.solverMethodInP = "FVM" ∧ c.fieldsEnabled = true
  · rw [if_pos hp]
    have hl : slopeKinds c σ.flag = (if c.fieldsType = "electrodynamic" ∧ σ.flag = false then
        if c.hybrid = true then [XKind.em, XKind.em, XKind.em] else [XKind.em, XKind.em] else []) ++ ([] ++ []) := by
      simp only [slopeKinds, hp, true_and, List.append_nil, and_self]
    rw [hl]
    refine Script.follows_bind (D.follows_field g1 g2 c hyb r user cb dt F σ) fun σ1 h1 => ?_
    refine Script.follows_bind (Q := fun _ => True) (Script.follows_lift fun _ _ => trivial) fun k _ => ?_
    refine .ret _ ?_
    simp only [hp.1, getFields_flag, h1, Bool.not_not, slopeFlag]
    simp [hp.2]
  · rw [if_neg hp]
    have hl : slopeKinds c σ.flag = [] ++ [] := by
      simp only [slopeKinds, hp, false_and, if_false, List.append_nil]
    rw [hl]
    refine Script.follows_bind (Q := fun _ => True) (Script.follows_lift fun _ _ => trivial) fun k _ => ?_
    refine .ret _ ?_
    rw [slopeFlag, if_neg hp]

theorem follows_run {QQ : Type} (c : CoupledConfig S (PIdx Np1 Np2 Np3) QQ K) (hyb : S) (r : R)
    (blowup : Dist S (PIdx Np1 Np2 Np3) (D.Loc g1 g2 r) K → Bool) (steps : List (K × D.CoupledInput g1 g2 S Np1 Np2 Np3 K))
    (F : Dist S (PIdx Np1 Np2 Np3) (D.Loc g1 g2 r) K) (σ : FieldState (D.Loc g1 g2 r) K) :
    Follows (fun _ => True) (runKinds c steps.length σ.flag) (D.runScript g1 g2 o c hyb r blowup steps F σ) := by
  induction steps generalizing F σ with
  | nil => exact .ret _ trivial
  | cons st rest ih =>
    obtain ⟨dt, inp⟩ := st
    simp only [runScript, Script.bind_def, stepScript, Script.bind_assoc, List.length_cons, runKinds]
    refine Script.follows_bind (l := [XKind.f]) (D.follows_syncF g1 g2 r _ F) fun F0 _ => ?_
    refine Script.follows_bind (D.follows_slope g1 g2 c hyb r _ _ dt F0 σ) fun a ha => ?_
    refine Script.follows_bind (l := [XKind.f]) (D.follows_syncF g1 g2 r _ _) fun Fh _ => ?_
    rw [← ha]
    refine Script.follows_bind (D.follows_slope g1 g2 c hyb r _ _ dt Fh a.2) fun b hb => ?_
    rw [← hb]
    split_ifs
    · exact .raise _ _
    · exact ih _ _

end Decomp
end Bolt
