import Verif.Model.Driver

/-!
# Vocabulary for the schedule of a script
-/

namespace Bolt

variable {K : Type} [Field K]

/-- The sizes of the time steps in a list of actions. -/
def stepsOf : List (Act K) → List K
  | [] => []
  | .step h :: r => h :: stepsOf r
  | _ :: r => stepsOf r

/-- The time a script writes into the name of a file. -/
def Act.label : Act K → Option K
  | .dumpF t => some t
  | .dumpMoments t => some t
  | .dumpFields t => some t
  | _ => none

/-- The simulated time after a list of actions that starts at time `t`. -/
def clockAfter (t : K) (acts : List (Act K)) : K := t + (stepsOf acts).sum

/-- `stamp` rounds to the nearest thousandth, in any way for ties. -/
def RoundsToThousandths [LinearOrder K] (stamp : K → ℤ) : Prop := ∀ t : K, |((stamp t : ℤ) : K) - 1000 * t| ≤ 1 / 2

end Bolt
