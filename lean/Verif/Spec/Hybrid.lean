import Verif.Model.Coupled

/-!
Specification of the generalised Ohm's law `E = -u × B + (J × B) / (e n) - Te ∇n / (e n)` on a staggered grid, in terms of where in its
cell each component is located and of linear interpolation between locations.
-/

namespace Bolt

variable {S P Q K : Type} [AddCommGroup Q] [Field K] [Fintype P]

/-- A location in a cell: on the lower face along the axis (`true`) or half-way between the faces (`false`), for q1 and q2. -/
abbrev Site := Bool × Bool

/-- Linear interpolation along one axis: a centre lies half-way between its own lower face and that of the next cell, a lower face half-way
between the previous centre and its own. -/
def interpAxis (e : Q) (src dst : Bool) (x : Q → K) (i : Q) : K :=
  match src, dst with
  | true, false => (x i + x (i + e)) / 2
  | false, true => (x (i - e) + x i) / 2
  | _, _ => x i

/-- Linear interpolation from one location to another. -/
def interp (q1 q2 : Q) (src dst : Site) (x : Q → K) : Q → K :=
  interpAxis q1 src.1 dst.1 (interpAxis q2 src.2 dst.2 x)

/-- Where the components of the electric field and of the current are located. -/
def siteE : Fin 3 → Site
  | 0 => (true, false) | 1 => (false, true) | 2 => (false, false)

/-- Where the components of the magnetic field are located. -/
def siteB : Fin 3 → Site
  | 0 => (false, true) | 1 => (true, false) | 2 => (true, true)

/-- The cross product (indices modulo three). -/
def cross (a b : Fin 3 → K) (k : Fin 3) : K := a (k + 1) * b (k + 2) - a (k + 2) * b (k + 1)

/-- Magnetic and electric components by index. -/
def EM.magnetic (F : EM Q K) : Fin 3 → Q → K
  | 0 => F.B1 | 1 => F.B2 | 2 => F.B3
@[inherit_doc EM.magnetic]
def EM.electric (F : EM Q K) : Fin 3 → Q → K
  | 0 => F.E1 | 1 => F.E2 | 2 => F.E3

/-- Ampère's law without displacement current: `J = curl B / mu` for fields that do not depend on q3; each difference is between the two
neighbouring values on either side of the location of the component of `J`. -/
def ampere (q1 q2 : Q) (dq1 dq2 mu : K) (B : Fin 3 → Q → K) : Fin 3 → Q → K
  | 0 => fun i => (B 2 (i + q2) - B 2 i) / dq2 / mu
  | 1 => fun i => -((B 2 (i + q1) - B 2 i) / dq1) / mu
  | 2 => fun i => ((B 1 (i + q1) - B 1 i) / dq1 - (B 0 (i + q2) - B 0 i) / dq2) / mu

/-- Number density and mean velocity of a species in a cell. -/
def numberDensity (c : CoupledConfig S P Q K) (f : Dist S P Q K) (s : S) (q : Q) : K :=
  ∑ p, f s p q * (c.dp1 s * c.dp2 s * c.dp3 s)
@[inherit_doc numberDensity]
def meanVelocity (c : CoupledConfig S P Q K) (f : Dist S P Q K) (s : S) (q : Q) : Fin 3 → K
  | 0 => (∑ p, f s p q * c.coords.p1 s p * (c.dp1 s * c.dp2 s * c.dp3 s)) / numberDensity c f s q
  | 1 => (∑ p, f s p q * c.coords.p2 s p * (c.dp1 s * c.dp2 s * c.dp3 s)) / numberDensity c f s q
  | 2 => (∑ p, f s p q * c.coords.p3 s p * (c.dp1 s * c.dp2 s * c.dp3 s)) / numberDensity c f s q

/-- The fourth-order central difference at a centre. -/
def centralDiff (e : Q) (d : K) (n : Q → K) (i : Q) : K :=
  (n (i - (2 : ℤ) • e) - 8 * n (i - e) + 8 * n (i + e) - n (i + (2 : ℤ) • e)) / (12 * d)

/-- The gradient of the density: differences along q1 and q2, none along q3. -/
def densityGradient (c : CoupledConfig S P Q K) (n : Q → K) : Fin 3 → Q → K
  | 0 => centralDiff c.ax.q1 c.dq1 n | 1 => centralDiff c.ax.q2 c.dq2 n | 2 => fun _ => 0

/-- The generalised Ohm's law: component `k` of the electric field at its own location.  `g k` is the distribution of the ions at that
location, `f` at the centres; all other quantities are interpolated to the location, except that the pressure gradient is divided by the
density at the centre. -/
def ohm (c : CoupledConfig S P Q K) (s : S) (g : Fin 3 → Dist S P Q K) (f : Dist S P Q K) (B : Fin 3 → Q → K) (k : Fin 3) (i : Q) : K :=
  let here := fun (site : Fin 3 → Site) (x : Fin 3 → Q → K) j => interp c.ax.q1 c.ax.q2 (site j) (siteE k) (x j) i
  let J := ampere c.ax.q1 c.ax.q2 c.dq1 c.dq2 c.mu B;
  -cross (meanVelocity c (g k) s i) (here siteB B) k
    + cross (here siteE J) (here siteB B) k / (numberDensity c (g k) s i * c.charge s)
    - c.Te * interp c.ax.q1 c.ax.q2 (false, false) (siteE k) (densityGradient c (numberDensity c f s) k) i
        / (c.charge s * numberDensity c f s i)

end Bolt
