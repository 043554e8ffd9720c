import Verif.Model.FieldArrays

/-!
# The collision operator as a program on arrays, in any machine arithmetic

`nonrelativistic_boltzmann/collision_operator.py` twice: cell by cell with the operations of a `Machine`, and as the program on `af.Array`s that it is.  The library
functions it calls are parameters: nothing is assumed about them.
-/

namespace Bolt

open Machine

/-- The functions of one number the collision operator takes from its libraries, and `np.pi`. -/
structure ElemFns (K : Type) where
  /-- `af.exp` -/
  exp : K → K
  /-- `af.sqrt` -/
  sqrt : K → K
  /-- `x**2` -/
  sq : K → K
  /-- `x**(3 / 2)` -/
  pow32 : K → K
  /-- `np.pi` -/
  pi : K

/-- The numbers the collision operator reads from `params`: `p_dim` and `boltzmann_constant` — `nonrelativistic_boltzmann/collision_operator.py:49-51, 112`. -/
structure CollisionNumbers (K : Type) where
  pdim : ℕ
  k : K

/-- The floor `eps = 1e-30` — `nonrelativistic_boltzmann/collision_operator.py:106`. -/
def collisionFloor : ℚ := 1 / 10 ^ 30

namespace Mach

section cells
variable {S P Q K : Type} [Machine K] (fn : ElemFns K) (pr : CollisionNumbers K)

/-- `af.exp(-m * (v - v_bulk)**2 / (2 * k * T))` — `nonrelativistic_boltzmann/collision_operator.py:54-56`. -/
def gaussian (m v u T : K) : K := fn.exp (neg m ⊠ fn.sq (v ⊟ u) ⊘ (lit 2 ⊠ pr.k ⊠ T))

/-- `f0` in one cell — `nonrelativistic_boltzmann/collision_operator.py:49-68`. -/
def maxwellian (m v1 v2 v3 n T u1 u2 u3 : K) : K :=
  if pr.pdim = 3 then
    n ⊠ fn.pow32 (m ⊘ (lit 2 ⊠ fn.pi ⊠ pr.k ⊠ T)) ⊠ gaussian fn pr m v1 u1 T ⊠ gaussian fn pr m v2 u2 T ⊠ gaussian fn pr m v3 u3 T
  else if pr.pdim = 2 then n ⊠ (m ⊘ (lit 2 ⊠ fn.pi ⊠ pr.k ⊠ T)) ⊠ gaussian fn pr m v1 u1 T ⊠ gaussian fn pr m v2 u2 T
  else n ⊠ fn.sqrt (m ⊘ (lit 2 ⊠ fn.pi ⊠ pr.k ⊠ T)) ⊠ gaussian fn pr m v1 u1 T

/-- A bulk velocity: `moments('mom_v1_bulk', f) / (n + eps)` — `nonrelativistic_boltzmann/collision_operator.py:108-110`. -/
def bulk (n j : K) : K := j ⊘ (n ⊞ lit collisionFloor)

/-- The temperature — `nonrelativistic_boltzmann/collision_operator.py:112-116`. -/
def temperature (m n u1 u2 u3 E : K) : K :=
  lit 1 ⊘ lit pr.pdim ⊠ (lit 2 ⊠ (E ⊠ m) ⊟ n ⊠ m ⊠ fn.sq u1 ⊟ n ⊠ m ⊠ fn.sq u2 ⊟ n ⊠ m ⊠ fn.sq u3) ⊘ (n ⊞ lit collisionFloor) ⊞ lit collisionFloor

variable (Sm : Sums S P K) (co : PCoords S P K) (w : S → K)

/-- `density` — `moments.py:6-7`. -/
def density (f : Dist S P Q K) (s : S) (q : Q) : K := Sm.overP (fun v => f s v q) ⊠ w s

/-- `energy` — `moments.py:18-22`. -/
def energy (f : Dist S P Q K) (s : S) (q : Q) : K :=
  Sm.overP (fun v => lit (1 / 2) ⊠ f s v q ⊠ (fn.sq (co.p1 s v) ⊞ fn.sq (co.p2 s v) ⊞ fn.sq (co.p3 s v))) ⊠ w s

/-- `f_MB` — `nonrelativistic_boltzmann/collision_operator.py:102-118`: the Maxwellian with the moments of `f`. -/
def localMaxwellian (mass : S → K) (f : Dist S P Q K) : Dist S P Q K := fun s p q =>
  let n := density Sm w f s q
  let u1 := bulk n (momV Sm co.p1 w f s q)
  let u2 := bulk n (momV Sm co.p2 w f s q)
  let u3 := bulk n (momV Sm co.p3 w f s q)
  maxwellian fn pr (mass s) (co.p1 s p) (co.p2 s p) (co.p3 s p) n (temperature fn pr (mass s) n u1 u2 u3 (energy fn Sm co w f s q)) u1 u2 u3

/-- `BGK(f, ..., flag)` — `nonrelativistic_boltzmann/collision_operator.py:70-128`. -/
def bgk (mass : S → K) (tau : Dist S P Q K) (flag : Bool) (f : Dist S P Q K) : Dist S P Q K :=
  if flag = false then fun s p q => neg (f s p q ⊟ localMaxwellian fn pr Sm co w mass f s p q) ⊘ tau s p q
  else localMaxwellian fn pr Sm co w mass f

end cells

end Mach

/-- The arrays the collision operator works with: `params.mass`, the momentum cell sizes and coordinates, and what `params.tau` returns. -/
structure CollisionArrays (K : Type) where
  (mass dp1 dp2 dp3 v1 v2 v3 tau : PyExpr K)

section arrays
open PyExpr
variable {K : Type} [Machine K] (red : List K → K) (fn : ElemFns K) (pr : CollisionNumbers K)

/-- `compute_moments('energy', f)` — `moments.py:18-22`, `compute_moments.py:42-46`; inside `af.broadcast`. -/
def arrEnergy (dp1 dp2 dp3 v1 v2 v3 f : PyExpr K) : PyExpr K :=
  arrIntegral red (bin true mul (bin true mul (const (1 / 2)) f) (bin true add (bin true add (un fn.sq v1) (un fn.sq v2)) (un fn.sq v3))) (dp3 * dp2 * dp1)

/-- `af.exp(-m * (v - v_bulk)**2 / (2 * k * T))` inside `af.broadcast` — `nonrelativistic_boltzmann/collision_operator.py:54-56`. -/
def arrGaussian (m v u T : PyExpr K) : PyExpr K :=
  un fn.exp (bin true div (bin true mul (-m) (un fn.sq (bin true sub v u))) (bin true mul (const 2 * num pr.k) T))

/-- `f0(v1, v2, v3, n, T, v1_bulk, v2_bulk, v3_bulk, params)`, decorated with `af.broadcast` — `nonrelativistic_boltzmann/collision_operator.py:15-68`. -/
def arrMaxwellian (m v1 v2 v3 n T u1 u2 u3 : PyExpr K) : PyExpr K :=
  let a := bin true div m (bin true mul (const 2 * num fn.pi * num pr.k) T)
  if pr.pdim = 3 then
    bin true mul (bin true mul (bin true mul (bin true mul n (un fn.pow32 a)) (arrGaussian fn pr m v1 u1 T)) (arrGaussian fn pr m v2 u2 T)) (arrGaussian fn pr m v3 u3 T)
  else if pr.pdim = 2 then
    bin true mul (bin true mul (bin true mul n a) (arrGaussian fn pr m v1 u1 T)) (arrGaussian fn pr m v2 u2 T)
  else bin true mul (bin true mul n (un fn.sqrt a)) (arrGaussian fn pr m v1 u1 T)

/-- `1 / params.p_dim` — `nonrelativistic_boltzmann/collision_operator.py:112`. -/
def oneOverPDim : PyExpr K := if pr.pdim = 0 then .error .zeroDivision else const 1 / const pr.pdim

/-- `T` — `nonrelativistic_boltzmann/collision_operator.py:112-116`; not inside `af.broadcast` except for `multiply`. -/
def arrTemperature (m n u1 u2 u3 E : PyExpr K) : PyExpr K :=
  oneOverPDim pr * (const 2 * multiply [E, m] - multiply [n, m] * un fn.sq u1 - multiply [n, m] * un fn.sq u2 - multiply [n, m] * un fn.sq u3)
    / (n + const collisionFloor) + const collisionFloor

/-- `BGK(f, t, q1, q2, v1, v2, v3, moments, params, flag)` — `nonrelativistic_boltzmann/collision_operator.py:70-128`; not inside `af.broadcast`, see `df_dt_fvm.py:91-97`, `asl_operators.py:58, 69`. -/
def arrBgk (x : CollisionArrays K) (flag : Bool) (f : PyExpr K) : PyExpr K :=
  let n := arrDensity red x.dp1 x.dp2 x.dp3 f
  let u1 := arrMomV red x.dp1 x.dp2 x.dp3 x.v1 f / (n + const collisionFloor)
  let u2 := arrMomV red x.dp1 x.dp2 x.dp3 x.v2 f / (n + const collisionFloor)
  let u3 := arrMomV red x.dp1 x.dp2 x.dp3 x.v3 f / (n + const collisionFloor)
  let T := arrTemperature fn pr x.mass n u1 u2 u3 (arrEnergy red fn x.dp1 x.dp2 x.dp3 x.v1 x.v2 x.v3 f)
  Except.bind (arrMaxwellian fn pr x.mass x.v1 x.v2 x.v3 n T u1 u2 u3) fun fMB =>
  Except.bind x.tau fun tau =>
  if flag = false then -(f - .ok fMB) / .ok tau else .ok fMB

/-- The relaxation time of the example problems, `return(c * p1**0 * q1**0)`; `batch` tells whether `tau` is decorated with `af.broadcast` —
`collision_operator_test/params.py:36-38` and most of the other examples, with other constants; `pow0` is `x**0`. -/
def arrTau (batch : Bool) (pow0 : K → K) (c : K) (p1 q1 : PyExpr K) : PyExpr K := bin batch mul (bin batch mul (num c) (un pow0 p1)) (un pow0 q1)

/-- The callbacks of the bundled nonrelativistic system on the arrays of a process: `C_q` returns the velocities (`advection_terms.py:64-97`), `C_p` the Lorentz force,
the source is the collision operator; the charges are `charge`. -/
def CollisionArrays.callbacks (x : CollisionArrays K) (charge : PyExpr K) : ArrCallbacks K where
  Cq1 := x.v1
  Cq2 := x.v2
  Cp1 E := (arrLorentz charge x.mass x.v1 x.v2 x.v3 E).1
  Cp2 E := (arrLorentz charge x.mass x.v1 x.v2 x.v3 E).2.1
  Cp3 E := (arrLorentz charge x.mass x.v1 x.v2 x.v3 E).2.2
  source a := arrBgk red fn pr x false (.ok (.arr a))
  dp1 := x.dp1
  dp2 := x.dp2
  dp3 := x.dp3
  charge := charge
  v1 := x.v1
  v2 := x.v2
  v3 := x.v3

end arrays

end Bolt
