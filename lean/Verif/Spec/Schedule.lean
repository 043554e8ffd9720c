import Verif.Model.Schedule

/-! Specification for schedules: the processes in lock step. -/

namespace Bolt

variable {R : Type} (A : Protocol R) (init : ∀ r, A.St r)

/-- `LockStep A init k r s`: when all processes move together, process `r` is in state `s` after `k` exchanges, each process receiving in
an exchange what the others have after the same number of exchanges. -/
def LockStep : ℕ → ∀ r, A.St r → Prop
  | 0, r, s => s = init r
  | k + 1, r, s' => ∃ (s : A.St r) (m : ∀ x, A.needs r x → A.Msg x), LockStep k r s ∧
      (∀ x (h : A.needs r x), ∃ t, LockStep k x t ∧ m x h = A.send x t) ∧ A.step r s m = .ok s'

/-- Process `x` leaves the script with an exception in exchange `k` of the lock-step run. -/
def RaisesAt (k : ℕ) (x : R) : Prop :=
  ∃ (s : A.St x) (m : ∀ y, A.needs x y → A.Msg y) (e : PyErr), LockStep A init k x s ∧
    (∀ y (h : A.needs x y), ∃ t, LockStep A init k y t ∧ m y h = A.send y t) ∧ A.step x s m = .error e

/-- `x` is reached from `r` by following `d` times the relation "waits for data of". -/
inductive Away : ℕ → R → R → Prop
  | refl (x : R) : Away 0 x x
  | cons (d : ℕ) (r y x : R) : A.needs r y → Away d y x → Away (d + 1) r x

end Bolt
