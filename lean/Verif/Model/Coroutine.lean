import Verif.Model.CoupledDecomp
import Verif.Model.Schedule

/-!
# Coupled runs with processes at their own pace
(`communicate.py:8-77`, `df_dt_fvm.py:33-339`, `fvm_operator.py:6-50`, `timestep.py:28-99`, `fields.py:568-690`, `fdtd_explicit.py:141-177`)

In a coupled run a process takes part in two kinds of exchange: of the distribution (`communicate_f`) and of the fields
(`communicate_fields`).  The two use different PETSc objects, whose boundary types can differ (`nonlinear_solver.py:177-201`, `fields.py:127-153`),
so a process may wait for other processes in one kind than in the other.  Here the Python code of one process is a script that stops at every
exchange, and the scripts of all processes run in any order.
-/

namespace Bolt

/-- The code of one process: it ends with a value, ends with an exception, or hands the array `v` to an exchange of kind `k` and goes on
with the array it gets back. -/
inductive Script {X : Type} (V : X → Type) (A : Type) : Type
  | ret (a : A)
  | raise (e : PyErr)
  | xch (k : X) (v : V k) (next : V k → Script V A)

namespace Script

variable {X : Type} {V : X → Type} {A B : Type}

/-- One statement after the other. -/
def bind : Script V A → (A → Script V B) → Script V B
  | ret a, q => q a
  | raise e, _ => raise e
  | xch k v next, q => xch k v fun w => (next w).bind q

instance : Monad (Script V) where
  pure := ret
  bind := bind

/-- Computation without exchange. -/
def lift : Except PyErr A → Script V A
  | .ok a => ret a
  | .error e => raise e

/-- `globalToLocal` and reading back: exchange the array. -/
def exchange (k : X) (v : V k) : Script V (V k) := xch k v ret

end Script

/-- What an exchange does.  `needs k r x`: in an exchange of kind `k` process `r` waits for process `x`; `pack` is what a process sends;
`unpack` is the array it reads back, from its local vector and the messages. -/
structure Wire (R X : Type) where
  Arr : R → X → Type
  Msg : R → X → Type
  needs : X → R → R → Prop
  pack : ∀ r k, Arr r k → Msg r k
  unpack : ∀ r k, Arr r k → (∀ x, needs k r x → Msg x k) → Arr r k

/-- A process: the rest of its script and its local vectors. -/
structure Proc {R X : Type} (W : Wire R X) (r : R) (A : Type) where
  script : Script (W.Arr r) A
  vec : ∀ k, W.Arr r k

/-- After an exchange of kind `k` that has left `w` in the local vector. -/
def Proc.resume {R X : Type} [DecidableEq X] {W : Wire R X} {r : R} {A : Type} (p : Proc W r A) (k : X) (w : W.Arr r k)
    (next : W.Arr r k → Script (W.Arr r) A) : Proc W r A :=
  ⟨next w, Function.update p.vec k w⟩

/-- All processes and the messages under way.  `done r` counts the exchanges process `r` has completed; `posted r x`: its message of the present
exchange has been handed over for process `x`; `chan k r x`: the messages of kind `k` from `r` that `x` has not yet taken, oldest first (the
two PETSc objects have communicators of their own, so kinds are never mixed up). -/
structure Fleet {R X : Type} (W : Wire R X) (A : R → Type) where
  st : ∀ r, Proc W r (A r)
  done : R → ℕ
  posted : R → R → Bool
  chan : ∀ (k : X) (r : R), R → List (W.Msg r k)

namespace Fleet

variable {R X : Type} [DecidableEq R] [DecidableEq X] {W : Wire R X} {A : R → Type}

/-- The processes at the start. -/
def start (init : ∀ r, Proc W r (A r)) : Fleet W A := ⟨init, fun _ => 0, fun _ _ => false, fun _ _ _ => []⟩

/-- One thing that can happen next. -/
inductive Event : Fleet W A → Fleet W A → Prop
  /-- The message of process `r` for process `x` is handed over (`VecScatterBegin`). -/
  | post (N : Fleet W A) (r x : R) (k : X) (v : W.Arr r k) (next : W.Arr r k → Script (W.Arr r) (A r)) (c : ∀ (k : X) (r : R), R → List (W.Msg r k))
      (hs : (N.st r).script = .xch k v next) (hx : W.needs k x r) (hp : N.posted r x = false)
      (hc : c k r x = N.chan k r x ++ [W.pack r k v]) (h0 : ∀ k' a b, ¬ (k' = k ∧ a = r ∧ b = x) → c k' a b = N.chan k' a b) :
      Event N { N with posted := fun a b => if a = r ∧ b = x then true else N.posted a b, chan := c }
  /-- Process `r` has sent everything, has received everything it waits for (`VecScatterEnd`), and goes on with its script. -/
  | finish (N : Fleet W A) (r : R) (k : X) (v : W.Arr r k) (next : W.Arr r k → Script (W.Arr r) (A r)) (m : ∀ x, W.needs k r x → W.Msg x k)
      (rest : ∀ k' x, List (W.Msg x k')) (hs : (N.st r).script = .xch k v next) (hp : ∀ x, W.needs k x r → N.posted r x = true)
      (hm : ∀ x (h : W.needs k r x), N.chan k x r = m x h :: rest k x)
      (h0 : ∀ k' x, ¬ (k' = k ∧ W.needs k r x) → rest k' x = N.chan k' x r) :
      Event N
        { st := Function.update N.st r ((N.st r).resume k (W.unpack r k ((N.st r).vec k) m) next)
          done := fun a => if a = r then N.done a + 1 else N.done a
          posted := fun a b => if a = r then false else N.posted a b
          chan := fun k' a b => if b = r then rest k' a else N.chan k' a b }

/-- What can happen in any number of events: every schedule of the processes and of their messages. -/
inductive Reach (init : ∀ r, Proc W r (A r)) : Fleet W A → Prop
  | start : Reach init (start init)
  | step (N N' : Fleet W A) : Reach init N → Event N N' → Reach init N'

/-- Nothing more can happen. -/
def Stuck (N : Fleet W A) : Prop := ∀ N', ¬ Event N N'

end Fleet

/-! ## the coupled finite-volume time loop as such scripts -/

/-- The two kinds of exchange. -/
inductive XKind
  | f
  | em
  deriving DecidableEq

namespace Decomp

variable {N1 N2 : ℕ} {R : Type} (D : Decomp N1 N2 R) (g1 g2 : ℕ) {S K : Type} {Np1 Np2 Np3 : ℕ}

/-- The arrays of process `r`: `self.f`, `self.yee_grid_EM_fields`. -/
abbrev KindArr (S : Type) (Np1 Np2 Np3 : ℕ) (K Q : Type) : XKind → Type
  | .f => Dist S (PIdx Np1 Np2 Np3) Q K
  | .em => EM Q K

/-- Every filled cell from the message of its owner, the other cells as they are in the local vector. -/
def pick (bc1 bc2 : PetscBC) (r : R) (vec : D.Loc g1 g2 r → K)
    (m : ∀ x, (∃ l, D.Filled g1 g2 bc1 bc2 r l ∧ D.owner (D.toGlob g1 g2 r l) = x) → ZMod N1 × ZMod N2 → K) : D.Loc g1 g2 r → K :=
  fun l => if h : D.Filled g1 g2 bc1 bc2 r l then m (D.owner (D.toGlob g1 g2 r l)) ⟨l, h, rfl⟩ (D.toGlob g1 g2 r l) else vec l

/-- The two exchanges — `communicate.py:8-77` — for the boundary types `bcf` of the distribution and `bce` of the fields. -/
def coupledWire (S : Type) (Np1 Np2 Np3 : ℕ) (K : Type) (bcf bce : PetscBC × PetscBC) : Wire R XKind where
  Arr r k := KindArr S Np1 Np2 Np3 K (D.Loc g1 g2 r) k
  Msg _ k := KindArr S Np1 Np2 Np3 K (ZMod N1 × ZMod N2) k
  needs k r x := match k with
    | .f => ∃ l, D.Filled g1 g2 bcf.1 bcf.2 r l ∧ D.owner (D.toGlob g1 g2 r l) = x
    | .em => ∃ l, D.Filled g1 g2 bce.1 bce.2 r l ∧ D.owner (D.toGlob g1 g2 r l) = x
  pack r k := match k with
    | .f => fun F s p i => F s p (D.toLoc g1 g2 r i)
    | .em => fun F => ⟨fun i => F.E1 (D.toLoc g1 g2 r i), fun i => F.E2 (D.toLoc g1 g2 r i), fun i => F.E3 (D.toLoc g1 g2 r i),
        fun i => F.B1 (D.toLoc g1 g2 r i), fun i => F.B2 (D.toLoc g1 g2 r i), fun i => F.B3 (D.toLoc g1 g2 r i)⟩
  unpack r k := match k with
    | .f => fun vec m => D.received g1 g2 bcf.1 bcf.2 r vec m
    | .em => fun vec m =>
      ⟨D.pick g1 g2 bce.1 bce.2 r vec.E1 fun x h => (m x h).E1, D.pick g1 g2 bce.1 bce.2 r vec.E2 fun x h => (m x h).E2,
       D.pick g1 g2 bce.1 bce.2 r vec.E3 fun x h => (m x h).E3, D.pick g1 g2 bce.1 bce.2 r vec.B1 fun x h => (m x h).B1,
       D.pick g1 g2 bce.1 bce.2 r vec.B2 fun x h => (m x h).B2, D.pick g1 g2 bce.1 bce.2 r vec.B3 fun x h => (m x h).B3⟩

/-- Scripts of process `r`. -/
abbrev ProcScript (r : R) (S : Type) (Np1 Np2 Np3 : ℕ) (K A : Type) : Type := Script (KindArr S Np1 Np2 Np3 K (D.Loc g1 g2 r)) A

section
variable [Zero K] [LinearOrder K]

/-- `self._communicate_f(); self._apply_bcs_f()` — `fvm_operator.py:22-23,28-29`. -/
def syncF (o : BCOptions) (r : R) (dat : D.LocBCData g1 g2 r S Np1 Np2 Np3 K) (F : Dist S (PIdx Np1 Np2 Np3) (D.Loc g1 g2 r) K) :
    D.ProcScript g1 g2 r S Np1 Np2 Np3 K (Dist S (PIdx Np1 Np2 Np3) (D.Loc g1 g2 r) K) := do
  let G ← Script.exchange (V := KindArr S Np1 Np2 Np3 K (D.Loc g1 g2 r)) .f F
  Script.lift (applyBcsF (D.bcEnv g1 g2 o r dat) G)

end

/-- `communicate_fields(self, True); apply_bcs_fields(self, True)` — `fdtd_explicit.py:169-170,173-174`. -/
def syncEM (o : BCOptions) (r : R) (user : D.LocFieldBCs g1 g2 r K) (Y : EM (D.Loc g1 g2 r) K) :
    D.ProcScript g1 g2 r S Np1 Np2 Np3 K (EM (D.Loc g1 g2 r) K) := do
  let G ← Script.exchange (V := KindArr S Np1 Np2 Np3 K (D.Loc g1 g2 r)) .em Y
  Script.lift (applyBcsFields (D.fieldEnv g1 g2 o r user) true G)

noncomputable section
variable [Field K] [LinearOrder K]

/-- `evolve_electrodynamic_fields(self, J1, J2, J3, dt)` with its call of `fdtd` — `fields.py:568-647`, `fdtd_explicit.py:141-177`. -/
def evolveScript (o : BCOptions) (r : R) [Fintype (D.Loc g1 g2 r)] (user : D.LocFieldBCs g1 g2 r K) (pr : FieldParams (D.Loc g1 g2 r) K)
    (J : Currents (D.Loc g1 g2 r) K) (dt : K) (σ : FieldState (D.Loc g1 g2 r) K) :
    D.ProcScript g1 g2 r S Np1 Np2 Np3 K (FieldState (D.Loc g1 g2 r) K) := do
  let Y0 ← D.syncEM g1 g2 o r user σ.yee
  let Y1 ← Script.lift (evolveE pr J dt Y0)
  let Y2 ← D.syncEM g1 g2 o r user Y1
  return storeFields pr dt (evolveB pr dt Y2) σ

variable [Fintype S] [Fintype (PIdx Np1 Np2 Np3)]

/-- The field update inside a slope evaluation — `df_dt_fvm.py:102-233`; `compute_electrostatic_fields` (lines 235-242) is left out as in
`FieldPhase`. -/
def fieldScript {Q : Type} (o : BCOptions) (c : CoupledConfig S (PIdx Np1 Np2 Np3) Q K) (hyb : S) (r : R) [Fintype (D.Loc g1 g2 r)]
    (user : D.LocFieldBCs g1 g2 r K) (cb : CoupledCallbacks S (PIdx Np1 Np2 Np3) (D.Loc g1 g2 r) K) (dt : K)
    (F : Dist S (PIdx Np1 Np2 Np3) (D.Loc g1 g2 r) K) (σ : FieldState (D.Loc g1 g2 r) K) :
    D.ProcScript g1 g2 r S Np1 Np2 Np3 K (FieldState (D.Loc g1 g2 r) K) :=
  if c.fieldsType = "electrodynamic" ∧ σ.flag = false then
    if c.solverMethodInQ = "FVM" then do
      let m ← Script.lift (reconMethod c.reconstructionInQ)
      if c.hybrid = true then do
        let Y ← Script.exchange (V := KindArr S Np1 Np2 Np3 K (D.Loc g1 g2 r)) .em σ.yee
        let h := hybridFields (D.locCfg g1 g2 c r) hyb m cb.Cq1 cb.Cq2 F F Y
        D.evolveScript g1 g2 o r user (D.locCfg g1 g2 c r).fieldParams h.1 dt { σ with yee := Y.setE (some h.2) }
      else
        D.evolveScript g1 g2 o r user (D.locCfg g1 g2 c r).fieldParams (kineticCurrents (D.locCfg g1 g2 c r) m cb.Cq1 cb.Cq2 F) dt σ
    else Script.raise .nameError
  else return σ

/-- `df_dt_fvm(self.f, self)` — `df_dt_fvm.py:33-339`. -/
def slopeScript {Q : Type} (o : BCOptions) (c : CoupledConfig S (PIdx Np1 Np2 Np3) Q K) (hyb : S) (r : R) [Fintype (D.Loc g1 g2 r)]
    (user : D.LocFieldBCs g1 g2 r K) (cb : CoupledCallbacks S (PIdx Np1 Np2 Np3) (D.Loc g1 g2 r) K) (dt : K)
    (F : Dist S (PIdx Np1 Np2 Np3) (D.Loc g1 g2 r) K) (σ : FieldState (D.Loc g1 g2 r) K) :
    D.ProcScript g1 g2 r S Np1 Np2 Np3 K (Dist S (PIdx Np1 Np2 Np3) (D.Loc g1 g2 r) K × FieldState (D.Loc g1 g2 r) K) :=
  if c.solverMethodInP = "FVM" ∧ c.fieldsEnabled = true then do
    let σ1 ← D.fieldScript g1 g2 o c hyb r user cb dt F σ
    let h1 := getFields c.fieldsSolver c.solverMethodInP σ1
    let h2 := getFields c.fieldsSolver c.solverMethodInP h1.2
    let h3 := getFields c.fieldsSolver c.solverMethodInP h2.2
    let k ← Script.lift (dfdtFVM (D.locCfg g1 g2 c r).ax c.toFVMConfig
      ⟨cb.Cq1, cb.Cq2, cb.Cp1 h1.1, cb.Cp2 h2.1, cb.Cp3 h3.1, cb.source⟩ F)
    return (k, h3.2)
  else do
    let k ← Script.lift (dfdtFVM (D.locCfg g1 g2 c r).ax c.toFVMConfig
      ⟨cb.Cq1, cb.Cq2, fun _ _ _ => 0, fun _ _ _ => 0, fun _ _ _ => 0, cb.source⟩ F)
    return (k, σ)

/-- One step: `timestep_fvm`, then `check_divergence` on the process's own array — `fvm_operator.py:6-35`, `timestep.py:28-38,55-62,84-87`. -/
def stepScript {Q : Type} (o : BCOptions) (c : CoupledConfig S (PIdx Np1 Np2 Np3) Q K) (hyb : S) (r : R) [Fintype (D.Loc g1 g2 r)]
    (blowup : Dist S (PIdx Np1 Np2 Np3) (D.Loc g1 g2 r) K → Bool) (dt : K) (inp : D.CoupledInput g1 g2 S Np1 Np2 Np3 K)
    (F : Dist S (PIdx Np1 Np2 Np3) (D.Loc g1 g2 r) K) (σ : FieldState (D.Loc g1 g2 r) K) :
    D.ProcScript g1 g2 r S Np1 Np2 Np3 K (Dist S (PIdx Np1 Np2 Np3) (D.Loc g1 g2 r) K × FieldState (D.Loc g1 g2 r) K) := do
  let F0 ← D.syncF g1 g2 o r (inp.dat 0 r) F
  let a ← D.slopeScript g1 g2 o c hyb r (inp.user 0 r) (inp.cb 0 r) dt F0 σ
  let Fh ← D.syncF g1 g2 o r (inp.dat 1 r) (fun s p l => F0 s p l + a.1 s p l * (dt / 2))
  let b ← D.slopeScript g1 g2 o c hyb r (inp.user 1 r) (inp.cb 1 r) dt Fh a.2
  let F' : Dist S (PIdx Np1 Np2 Np3) (D.Loc g1 g2 r) K := fun s p l => F0 s p l + b.1 s p l * dt
  if blowup F' = true then Script.raise .systemExit else return (F', b.2)

/-- The user's loop over the steps. -/
def runScript {Q : Type} (o : BCOptions) (c : CoupledConfig S (PIdx Np1 Np2 Np3) Q K) (hyb : S) (r : R) [Fintype (D.Loc g1 g2 r)]
    (blowup : Dist S (PIdx Np1 Np2 Np3) (D.Loc g1 g2 r) K → Bool) :
    List (K × D.CoupledInput g1 g2 S Np1 Np2 Np3 K) → Dist S (PIdx Np1 Np2 Np3) (D.Loc g1 g2 r) K → FieldState (D.Loc g1 g2 r) K →
    D.ProcScript g1 g2 r S Np1 Np2 Np3 K (Dist S (PIdx Np1 Np2 Np3) (D.Loc g1 g2 r) K × FieldState (D.Loc g1 g2 r) K)
  | [], F, σ => return (F, σ)
  | (dt, inp) :: rest, F, σ => do
    let a ← D.stepScript g1 g2 o c hyb r blowup dt inp F σ
    runScript o c hyb r blowup rest a.1 a.2

end

end Decomp
end Bolt
