import Verif.Model.Boundaries

/-!
# Processes that run at their own pace
(`communicate.py:8-38`, `fvm_operator.py:6-35`, `timestep.py:28-38,40-99`)

In the other files a step happens on all processes at once.  Here every process executes its script by itself: it hands the bulk of its array
to MPI, waits for the messages it needs, computes, and goes on.  Messages between two processes arrive in the order in which they were sent
(MPI's guarantee for one communicator); nothing is assumed about speed, and a message may be handed over at any time after the process has
reached the exchange.
-/

namespace Bolt

/-- A script whose processes exchange data again and again.  `needs r x`: process `r` waits for data of process `x` in every exchange;
`send` is what a process sends; `step` is what it does from the arrival of its messages to the next exchange. -/
structure Protocol (R : Type) where
  St : R → Type
  Msg : R → Type
  needs : R → R → Prop
  send : ∀ r, St r → Msg r
  step : ∀ r, St r → (∀ x, needs r x → Msg x) → Except PyErr (St r)

/-- All processes and the messages under way.  `st r` is `none` after process `r` has left its script with an exception; `done r` counts the
exchanges it has completed; `posted r x`: its message of the present exchange has been handed over for process `x`; `chan r x`: the messages
from `r` that `x` has not yet taken, oldest first. -/
structure Net {R : Type} (A : Protocol R) where
  st : ∀ r, Option (A.St r)
  done : R → ℕ
  posted : R → R → Bool
  chan : ∀ r, R → List (A.Msg r)

namespace Net

variable {R : Type} [DecidableEq R] {A : Protocol R}

/-- The processes at the start of the script. -/
def start (init : ∀ r, A.St r) : Net A := ⟨fun r => some (init r), fun _ => 0, fun _ _ => false, fun _ _ => []⟩

/-- One thing that can happen next in a script of `n` exchanges. -/
inductive Event (n : ℕ) : Net A → Net A → Prop
  /-- The message of process `r` for process `x` is handed over (`VecScatterBegin`). -/
  | post (N : Net A) (r x : R) (s : A.St r) (hs : N.st r = some s) (hn : N.done r < n) (hx : A.needs x r) (hp : N.posted r x = false) :
      Event n N { N with
        posted := fun a b => if a = r ∧ b = x then true else N.posted a b
        chan := fun a b => if h : a = r ∧ b = x then N.chan a b ++ [h.1 ▸ A.send r s] else N.chan a b }
  /-- Process `r` has sent everything, has received everything it waits for (`VecScatterEnd`), and gets to its next exchange, or to the end
  of the script. -/
  | finish (N : Net A) (r : R) (s s' : A.St r) (m : ∀ x, A.needs r x → A.Msg x) (rest : ∀ x, List (A.Msg x)) (hs : N.st r = some s)
      (hn : N.done r < n) (hp : ∀ x, A.needs x r → N.posted r x = true) (hm : ∀ x (h : A.needs r x), N.chan x r = m x h :: rest x)
      (h0 : ∀ x, ¬ A.needs r x → rest x = N.chan x r) (ok : A.step r s m = .ok s') :
      Event n N
        { st := fun a => if h : a = r then some (h ▸ s') else N.st a
          done := fun a => if a = r then N.done a + 1 else N.done a
          posted := fun a b => if a = r then false else N.posted a b
          chan := fun a b => if b = r then rest a else N.chan a b }
  /-- As before, but the computation ends with an exception and the process leaves its script. -/
  | raise (N : Net A) (r : R) (s : A.St r) (e : PyErr) (m : ∀ x, A.needs r x → A.Msg x) (rest : ∀ x, List (A.Msg x)) (hs : N.st r = some s)
      (hn : N.done r < n) (hp : ∀ x, A.needs x r → N.posted r x = true) (hm : ∀ x (h : A.needs r x), N.chan x r = m x h :: rest x)
      (err : A.step r s m = .error e) :
      Event n N { N with st := fun a => if a = r then none else N.st a }

/-- What can happen in any number of events: every schedule of the processes and of their messages. -/
inductive Reach (n : ℕ) (init : ∀ r, A.St r) : Net A → Prop
  | start : Reach n init (start init)
  | step (N N' : Net A) : Reach n init N → Event n N N' → Reach n init N'

/-- Nothing more can happen. -/
def Stuck (n : ℕ) (N : Net A) : Prop := ∀ N', ¬ Event n N N'

end Net

/-! ## the finite-volume time loop as such a script -/

namespace Decomp

variable {N1 N2 : ℕ} {R : Type} (D : Decomp N1 N2 R) (g1 g2 : ℕ) {S K : Type} {Np1 Np2 Np3 : ℕ} [Field K] [LinearOrder K]

/-- The callback values of one step on process `r`. -/
abbrev ProcStep (r : R) (S : Type) (Np1 Np2 Np3 : ℕ) (K : Type) : Type :=
  K × (Fin 2 → D.LocBCData g1 g2 r S Np1 Np2 Np3 K) × (Fin 2 → Callbacks S (PIdx Np1 Np2 Np3) (D.Loc g1 g2 r) K)

/-- The memory of process `r` at an exchange: `self.f`, `f_initial`, the vector `self._local_f`, whether it is in the second stage of the step,
and the steps still to do. -/
structure ProcState (r : R) (S : Type) (Np1 Np2 Np3 : ℕ) (K : Type) where
  f : Dist S (PIdx Np1 Np2 Np3) (D.Loc g1 g2 r) K
  initial : Dist S (PIdx Np1 Np2 Np3) (D.Loc g1 g2 r) K
  localVec : Dist S (PIdx Np1 Np2 Np3) (D.Loc g1 g2 r) K
  second : Bool
  todo : List (D.ProcStep g1 g2 r S Np1 Np2 Np3 K)

/-- Does `globalToLocal` on process `r` fill the local cell `l`? -/
def Filled (bc1 bc2 : PetscBC) (r : R) (l : D.Loc g1 g2 r) : Prop :=
  fills bc1 N1 (globCoord (D.start1 r) g1 l.1) ∧ fills bc2 N2 (globCoord (D.start2 r) g2 l.2)

instance (bc1 bc2 : PetscBC) (r : R) (l : D.Loc g1 g2 r) : Decidable (D.Filled g1 g2 bc1 bc2 r l) := by unfold Filled; infer_instance

/-- The array process `r` reads back after `globalToLocal`: every filled cell from the message of its owner — `communicate.py:20-30`. -/
def received (bc1 bc2 : PetscBC) (r : R) (localVec : Dist S (PIdx Np1 Np2 Np3) (D.Loc g1 g2 r) K)
    (m : ∀ x, (∃ l, D.Filled g1 g2 bc1 bc2 r l ∧ D.owner (D.toGlob g1 g2 r l) = x) → Dist S (PIdx Np1 Np2 Np3) (ZMod N1 × ZMod N2) K) :
    Dist S (PIdx Np1 Np2 Np3) (D.Loc g1 g2 r) K :=
  fun s p l => if h : D.Filled g1 g2 bc1 bc2 r l then m (D.owner (D.toGlob g1 g2 r l)) ⟨l, h, rfl⟩ s p (D.toGlob g1 g2 r l) else localVec s p l

/-- `lie_step` etc. with finite volumes, called again and again, as seen by each process — `timestep.py:40-99`, `fvm_operator.py:6-35`.  Every
step has two exchanges.  After the second stage `check_divergence` (`timestep.py:28-38`) looks at the process's own array: `blowup r` is
`any_true(isinf) or any_true(isnan)` there. -/
def fvmProtocol (o : BCOptions) (bc1 bc2 : PetscBC) (ax : PIdx Np1 Np2 Np3 × PIdx Np1 Np2 Np3 × PIdx Np1 Np2 Np3) (cfg : FVMConfig S K)
    (blowup : ∀ r, Dist S (PIdx Np1 Np2 Np3) (D.Loc g1 g2 r) K → Bool) : Protocol R where
  St r := D.ProcState g1 g2 r S Np1 Np2 Np3 K
  Msg _ := Dist S (PIdx Np1 Np2 Np3) (ZMod N1 × ZMod N2) K
  needs r x := ∃ l, D.Filled g1 g2 bc1 bc2 r l ∧ D.owner (D.toGlob g1 g2 r l) = x
  send r st := fun s p i => st.f s p (D.toLoc g1 g2 r i)
  step r st m :=
    match st.todo with
    | [] => .ok st
    | (dt, dat, cb) :: rest =>
      let j : Fin 2 := if st.second then 1 else 0
      let G := D.received g1 g2 bc1 bc2 r st.localVec m
      match applyBcsF (D.bcEnv g1 g2 o r (dat j)) G with
      | .error e => .error e
      | .ok F0 =>
        match dfdtFVM (D.locAxes g1 g2 r ax.1 ax.2.1 ax.2.2) cfg (cb j) F0 with
        | .error e => .error e
        | .ok k =>
          if st.second then
            let f' : Dist S (PIdx Np1 Np2 Np3) (D.Loc g1 g2 r) K := fun s p l => st.initial s p l + k s p l * dt
            if blowup r f' then .error .systemExit else .ok ⟨f', st.initial, G, false, rest⟩
          else
            .ok ⟨fun s p l => F0 s p l + k s p l * (dt / 2), F0, G, true, st.todo⟩

/-- The processes at the beginning of the loop over `steps`. -/
def procStart (steps : List (K × (Fin 2 → ∀ r, D.LocBCData g1 g2 r S Np1 Np2 Np3 K) ×
      (Fin 2 → ∀ r, Callbacks S (PIdx Np1 Np2 Np3) (D.Loc g1 g2 r) K)))
    (F init loc : ∀ r, Dist S (PIdx Np1 Np2 Np3) (D.Loc g1 g2 r) K) (r : R) : D.ProcState g1 g2 r S Np1 Np2 Np3 K :=
  ⟨F r, init r, loc r, false, steps.map fun st => (st.1, fun j => st.2.1 j r, fun j => st.2.2 j r)⟩

end Decomp

end Bolt
