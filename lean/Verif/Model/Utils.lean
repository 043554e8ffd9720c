import Mathlib.Analysis.SpecialFunctions.Pow.Real
import Mathlib.Data.List.Basic

/-!
# Text indentation and plasma scales (`bolt/lib/utils/print_with_indent.py`, `bolt/src/nonrelativistic_boltzmann/units/`)

Strings are lists of characters.
-/

namespace Bolt

/-- The characters at which `str.splitlines` ends a line. -/
def isLineBreak (c : Char) : Bool :=
  c.toNat ∈ [0x0a, 0x0b, 0x0c, 0x0d, 0x1c, 0x1d, 0x1e, 0x85, 0x2028, 0x2029]

/-- A line feed right after a carriage return belongs to it. -/
def dropLF (l : List Char) : List Char := if l.head? = some '\n' then l.tail else l

theorem dropLF_length (l : List Char) : (dropLF l).length ≤ l.length := by
  rw [dropLF]
  split_ifs
  · simp
  · exact le_rfl

/-- `splitlines` with the characters of the current line, in reverse. -/
def splitLinesAux : List Char → List Char → List (List Char)
  | [], [] => []
  | acc, [] => [acc.reverse]
  | acc, c :: rest =>
      if c = '\r' then acc.reverse :: splitLinesAux [] (dropLF rest)
      else if isLineBreak c then acc.reverse :: splitLinesAux [] rest
      else splitLinesAux (c :: acc) rest
termination_by _ txt => txt.length
decreasing_by
  all_goals simp
  have := dropLF_length rest
  omega

/-- `txt.splitlines()` -/
def splitLines (txt : List Char) : List (List Char) := splitLinesAux [] txt

/-- `'\n'.join(lines)` -/
def joinLines (lines : List (List Char)) : List Char := List.intercalate ['\n'] lines

/-- `indent(txt, stops)` — `print_with_indent.py:2-7`.  A negative count of repetitions gives the empty string. -/
def indent (txt : List Char) (stops : ℤ := 1) : List Char :=
  joinLines ((splitLines txt).map fun line => List.replicate (4 * stops).toNat ' ' ++ line)

/-- `gyroradius` — `units/length_scales.py:6-21` -/
noncomputable def gyroradius (v B e m : ℝ) : ℝ := m * v / (e * B)

/-- `debye_length` — `units/length_scales.py:23-40` -/
noncomputable def debyeLength (n T e k eps : ℝ) : ℝ := √(eps * k * T / (n * e ^ 2))

/-- `skin_depth` — `units/length_scales.py:42-59` -/
noncomputable def skinDepth (n e c m eps : ℝ) : ℝ := c * √(eps * m / (n * e ^ 2))

/-- `plasma_frequency` — `units/time_scales.py:6-21` -/
noncomputable def plasmaFrequency (n e m eps : ℝ) : ℝ := √(n * e ^ 2 / (m * eps))

/-- `cyclotron_frequency` — `units/time_scales.py:23-36` -/
noncomputable def cyclotronFrequency (B e m : ℝ) : ℝ := e * B / m

/-- `alfven_crossing_time` — `units/time_scales.py:38-56` -/
noncomputable def alfvenCrossingTime (l B n m mu : ℝ) : ℝ := l / (B / √(n * m * mu))

/-- `sound_crossing_time` — `units/time_scales.py:58-74` -/
noncomputable def soundCrossingTime (l T k gamma : ℝ) : ℝ := l / √(gamma * k * T)

/-- `thermal_speed` — `units/velocity_scales.py:6-19` -/
noncomputable def thermalSpeed (T m k : ℝ) : ℝ := √(k * T / m)

/-- `sound_speed` — `units/velocity_scales.py:21-34`; it takes no mass. -/
noncomputable def soundSpeed (T k gamma : ℝ) : ℝ := √(gamma * k * T)

/-- `alfven_velocity` — `units/velocity_scales.py:36-51` -/
noncomputable def alfvenVelocity (B n m mu : ℝ) : ℝ := B / √(n * m * mu)

end Bolt
