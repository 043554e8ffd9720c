import Verif.Model.Coroutine

/-! Specification for the schedules of coupled runs: the processes moving together, and the sequence of exchanges. -/

namespace Bolt

variable {R X : Type} [DecidableEq X] {W : Wire R X} {A : R → Type}

/-- `Together init j r p`: when all processes move together from `init`, process `r` is in state `p` after `j` exchanges, each process
receiving in an exchange what the others hand over after the same number of exchanges, in an exchange of the same kind. -/
def Together (init : ∀ r, Proc W r (A r)) : ℕ → ∀ r, Proc W r (A r) → Prop
  | 0, r, p => p = init r
  | j + 1, r, p' => ∃ (p : Proc W r (A r)) (k : X) (v : W.Arr r k) (next : W.Arr r k → Script (W.Arr r) (A r))
      (m : ∀ x, W.needs k r x → W.Msg x k),
      Together init j r p ∧ p.script = .xch k v next ∧
      (∀ x (h : W.needs k r x), ∃ (q : Proc W x (A x)) (u : W.Arr x k) (nx : W.Arr x k → Script (W.Arr x) (A x)),
        Together init j x q ∧ q.script = .xch k u nx ∧ m x h = W.pack x k u) ∧
      p' = p.resume k (W.unpack r k (p.vec k) m) next

omit [DecidableEq X] in
/-- A script that, whatever it receives, raises or takes part in exactly the exchanges of the list and then ends with a value in `Q`. -/
inductive Follows {V : X → Type} {A : Type} (Q : A → Prop) : List X → Script V A → Prop
  | ret (a : A) : Q a → Follows Q [] (.ret a)
  | raise (l : List X) (e : PyErr) : Follows Q l (.raise e)
  | xch (k : X) (l : List X) (v : V k) (next : V k → Script V A) : (∀ w, Follows Q l (next w)) → Follows Q (k :: l) (.xch k v next)

/-- Process `x` leaves its script with an exception after `j` exchanges. -/
def RaisesAfter (init : ∀ r, Proc W r (A r)) (j : ℕ) (x : R) : Prop := ∃ p e, Together init j x p ∧ p.script = .raise e

/-- Process `r` is kept from completing exchange number `j` (counted from 0) by the end of process `x` after `i` exchanges: it waits in that
exchange for `x`, which is no longer there, or for a process that is itself kept from completing an earlier one. -/
inductive HeldUp (W : Wire R X) (l : List X) (x : R) (i : ℕ) : R → ℕ → Prop
  | self : HeldUp W l x i x i
  | direct (r : R) (j : ℕ) (k : X) : i ≤ j → l[j]? = some k → W.needs k r x → HeldUp W l x i r j
  | wait (r y : R) (a j : ℕ) (k : X) : HeldUp W l x i y a → a < j → l[j]? = some k → W.needs k r y → HeldUp W l x i r j

/-! ### the exchanges of a coupled run -/

variable {S P Q K : Type}

/-- The exchanges of one slope evaluation when the flag of the fields is `b`: two for `fdtd`, and one before them in the hybrid model. -/
def slopeKinds (c : CoupledConfig S P Q K) (b : Bool) : List XKind :=
  if (c.solverMethodInP = "FVM" ∧ c.fieldsEnabled = true) ∧ c.fieldsType = "electrodynamic" ∧ b = false then
    if c.hybrid = true then [.em, .em, .em] else [.em, .em]
  else []

/-- The flag after a slope evaluation. -/
def slopeFlag (c : CoupledConfig S P Q K) (b : Bool) : Bool :=
  if c.solverMethodInP = "FVM" ∧ c.fieldsEnabled = true then !b else b

/-- The exchanges of `n` steps: in every step two of the distribution, and those of the two slope evaluations. -/
def runKinds (c : CoupledConfig S P Q K) : ℕ → Bool → List XKind
  | 0, _ => []
  | n + 1, b => .f :: (slopeKinds c b ++ .f :: (slopeKinds c (slopeFlag c b) ++ runKinds c n (slopeFlag c (slopeFlag c b))))

end Bolt
