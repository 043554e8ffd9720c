import Verif.Model.MachineArith
import Verif.Spec.OpenBox
import Verif.Spec.BoundaryArrays
import Verif.Spec.Layout

/-! Vocabulary: runs in a box on the undivided grid, in machine arithmetic. -/

namespace Bolt

namespace Mach
open Machine
variable {S P K : Type} [Machine K] [AddCommGroup P] {N1 N2 : ℕ}

/-- One midpoint step of the box without any decomposition or ghost zones, in machine arithmetic: the rate of change is that of the distribution continued beyond the ends of
the box by `ext 0` and `ext 1`. -/
def extStep (ext : Fin 2 → Dist S P (ZMod N1 × ZMod N2) K → Dist S P (ℤ × ℤ) K) (ax : P × P × P) (cfg : FVMConfig S K) (dt : K)
    (cb : Fin 2 → Callbacks S P (ℤ × ℤ) K) (f : Dist S P (ZMod N1 × ZMod N2) K) : Except PyErr (Dist S P (ZMod N1 × ZMod N2) K) := do
  let k0 ← Mach.dfdtFVM ⟨ax.1, ax.2.1, ax.2.2, (1, 0), (0, 1)⟩ cfg (cb 0) (ext 0 f)
  let fh : Dist S P (ZMod N1 × ZMod N2) K := fun s p i => f s p i ⊞ k0 s p (boxCell i) ⊠ (dt ⊘ lit 2)
  let k1 ← Mach.dfdtFVM ⟨ax.1, ax.2.1, ax.2.2, (1, 0), (0, 1)⟩ cfg (cb 1) (ext 1 fh)
  return fun s p i => f s p i ⊞ k1 s p (boxCell i) ⊠ dt

/-- A run in a box that is periodic or mirrored in each direction: the continuation is by periodic and mirror images. -/
def boxRun (k1 k2 : AxisEnd) (fl : Wall → P → P) (ax : P × P × P) (cfg : FVMConfig S K) :
    List (K × (Fin 2 → Callbacks S P (ℤ × ℤ) K)) → Dist S P (ZMod N1 × ZMod N2) K → Except PyErr (Dist S P (ZMod N1 × ZMod N2) K)
  | [], f => .ok f
  | (dt, cb) :: rest, f => do
    let f' ← extStep (fun _ => boxExt k1 k2 (fl .left) (fl .bottom)) ax cfg dt cb f
    boxRun k1 k2 fl ax cfg rest f'

/-- A run in a box with open walls: the continuation is by what comes in through the walls. -/
def openRun [Zero K] (name : Wall → String) (fl : Wall → P → P) (ax : P × P × P) (cfg : FVMConfig S K) :
    List (K × (Fin 2 → Wall → S → P → ℤ × ℤ → K → K) × (Fin 2 → Callbacks S P (ℤ × ℤ) K)) → Dist S P (ZMod N1 × ZMod N2) K →
      Except PyErr (Dist S P (ZMod N1 × ZMod N2) K)
  | [], f => .ok f
  | (dt, inc, cb) :: rest, f => do
    let f' ← extStep (fun j => openExt name fl (inc j)) ax cfg dt cb f
    openRun name fl ax cfg rest f'

end Mach

namespace Decomp
open Machine
variable {K : Type} [Machine K] [Zero K] [LinearOrder K] {N1 N2 : ℕ} [NeZero N1] [NeZero N2] {R : Type} (D : Decomp N1 N2 R) (g1 g2 Np1 Np2 Np3 Ns : ℕ)
  [NeZero Np1] [NeZero Np2] [NeZero Np3] [NeZero Ns]

/-- Everything the processes are handed in one step: what the callbacks return as arrays, and the cell values these arrays hold. -/
structure StepData where
  b : Fin 2 → R → ArrBCData K
  x : Fin 2 → R → AfArray K → ArrIn K
  dat : Fin 2 → ∀ r, D.LocBCData g1 g2 r (Fin Ns) Np1 Np2 Np3 K
  cb : Fin 2 → ∀ r, Callbacks (Fin Ns) (AslPIdx Np1 Np2 Np3) (D.Loc g1 g2 r) K

/-- Some run of the array programs on the processes of `D` — fed with arrays that hold what the functions `glob` on the plane prescribe, and started from blocks that hold `f` —
leaves `file` in the dump file of the distribution function. -/
def Writes (o : BCOptions) (cfg : FVMConfig (Fin Ns) K) (glob : List (K × (Fin 2 → Callbacks (Fin Ns) (AslPIdx Np1 Np2 Np3) (ℤ × ℤ) K)))
    (f : Dist (Fin Ns) (AslPIdx Np1 Np2 Np3) (ZMod N1 × ZMod N2) K) (file : Vec K) : Prop :=
  ∃ (steps : List ((K × (Fin 2 → Callbacks (Fin Ns) (AslPIdx Np1 Np2 Np3) (ℤ × ℤ) K)) × D.StepData (K := K) g1 g2 Np1 Np2 Np3 Ns)) (F F' : R → AfArray K),
    steps.map (fun st => st.1) = glob ∧
    (∀ st ∈ steps, D.BcInputsHold g1 g2 Np1 Np2 Np3 Ns o cfg st.2.b st.2.x st.2.dat st.2.cb ∧ ∀ k r, D.CallbacksAgreeBox g1 g2 r (st.2.cb k r) (st.1.2 k)) ∧
    D.Shaped g1 g2 (Np1 * Np2 * Np3) Ns F ∧ D.Holds g1 g2 (D.cellsOf g1 g2 Np1 Np2 Np3 Ns F) f ∧
    D.ArrBcRun g1 g2 Np1 Np2 Np3 Ns o cfg (steps.map fun st => (st.1.1, st.2.b, st.2.x)) F F' ∧
    D.DumpsTo (D.sizes Np1 Np2 Np3 Ns g1 g2) (Np1 * Np2 * Np3) Ns F' file

/-- The same with open walls, `inc` being the users' functions for what comes in. -/
def OpenWrites (o : BCOptions) (cfg : FVMConfig (Fin Ns) K)
    (glob : List (K × (Fin 2 → Wall → Fin Ns → AslPIdx Np1 Np2 Np3 → ℤ × ℤ → K → K) × (Fin 2 → Callbacks (Fin Ns) (AslPIdx Np1 Np2 Np3) (ℤ × ℤ) K)))
    (f : Dist (Fin Ns) (AslPIdx Np1 Np2 Np3) (ZMod N1 × ZMod N2) K) (file : Vec K) : Prop :=
  ∃ (steps : List ((K × (Fin 2 → Wall → Fin Ns → AslPIdx Np1 Np2 Np3 → ℤ × ℤ → K → K) × (Fin 2 → Callbacks (Fin Ns) (AslPIdx Np1 Np2 Np3) (ℤ × ℤ) K)) ×
      D.StepData (K := K) g1 g2 Np1 Np2 Np3 Ns)) (F F' : R → AfArray K),
    steps.map (fun st => st.1) = glob ∧
    (∀ st ∈ steps, D.BcInputsHold g1 g2 Np1 Np2 Np3 Ns o cfg st.2.b st.2.x st.2.dat st.2.cb ∧ (∀ k r, D.CallbacksAgreeBox g1 g2 r (st.2.cb k r) (st.1.2.2 k)) ∧
      ∀ k r, D.WallsAgree g1 g2 o r (st.2.dat k r) (st.2.cb k r) (st.1.2.1 k)) ∧
    D.Shaped g1 g2 (Np1 * Np2 * Np3) Ns F ∧ D.Holds g1 g2 (D.cellsOf g1 g2 Np1 Np2 Np3 Ns F) f ∧
    D.ArrBcRun g1 g2 Np1 Np2 Np3 Ns o cfg (steps.map fun st => (st.1.1, st.2.b, st.2.x)) F F' ∧
    D.DumpsTo (D.sizes Np1 Np2 Np3 Ns g1 g2) (Np1 * Np2 * Np3) Ns F' file

end Decomp

/-- The dump file holds the distribution, in the order of the indices. -/
def FileHolds {K : Type} {Np1 Np2 Np3 Ns N1 N2 : ℕ} (file : Vec K) (f : Dist (Fin Ns) (AslPIdx Np1 Np2 Np3) (ZMod N1 × ZMod N2) K) : Prop :=
  file.len = Np1 * Np2 * Np3 * Ns * (N1 * N2) ∧ ∀ (p1 p2 p3 s q1 q2 : ℕ) (hs : s < Ns), p1 < Np1 → p2 < Np2 → p3 < Np3 → q1 < N1 → q2 < N2 →
    file.data ((p1 + Np1 * (p2 + Np2 * p3)) + Np1 * Np2 * Np3 * (s + Ns * (q1 + N1 * q2))) =
      f ⟨s, hs⟩ ((p1 : ZMod Np1), (p2 : ZMod Np2), (p3 : ZMod Np3)) ((q1 : ZMod N1), (q2 : ZMod N2))

end Bolt
