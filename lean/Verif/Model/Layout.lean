import Verif.Model.Decomp
import Mathlib.Data.String.Basic

/-!
# Memory layouts, PETSc vectors, file input/output and grid coordinates

`nonlinear_solver.py`, `utils/af_petsc_conversion.py`, `communicate.py`, `file_io/dump.py`, `file_io/load.py`,
`utils/calculate_q.py`, `utils/calculate_p.py`.

Here an `af.Array` is what it is in memory: a shape and a column-major block of numbers.  The other models index arrays by
cells; `AfArray.get` and the theorems of `Verif/Props/Layout.lean` connect the two views.
-/

namespace Bolt

/-- An `af.Array` of four axes. `data n` is the `n`-th number of the block (meaningful for `n < d0*d1*d2*d3`). -/
structure AfArray (K : Type) where
  (d0 d1 d2 d3 : ℕ)
  data : ℕ → K

namespace AfArray
variable {K : Type}

/-- `array.elements()`. -/
def size (a : AfArray K) : ℕ := a.d0 * a.d1 * a.d2 * a.d3

/-- Position in the block of element `[i, j, k, l]`: ArrayFire stores arrays in column-major order. -/
def offset (d0 d1 d2 i j k l : ℕ) : ℕ := i + d0 * (j + d1 * (k + d2 * l))

/-- `array[i, j, k, l]`. -/
def get (a : AfArray K) (i j k l : ℕ) : K := a.data (offset a.d0 a.d1 a.d2 i j k l)

/-- The array of the given shape with these elements. -/
def ofFn (d0 d1 d2 d3 : ℕ) (g : ℕ → ℕ → ℕ → ℕ → K) : AfArray K :=
  ⟨d0, d1, d2, d3, fun n => g (n % d0) (n / d0 % d1) (n / d0 / d1 % d2) (n / d0 / d1 / d2)⟩

/-- `af.moddims(array, e0, e1, e2, e3)`: the same block with another shape; ArrayFire rejects a change of the number of elements. -/
def moddims (a : AfArray K) (e0 e1 e2 e3 : ℕ) : Except PyErr (AfArray K) :=
  if a.size = e0 * e1 * e2 * e3 then .ok ⟨e0, e1, e2, e3, a.data⟩ else .error .exception

/-- Start and length of the Python slice `start:stop` of an axis of length `n`, for `start ≥ 0`; a negative `stop` counts from the end. -/
def sliceLen (start : ℕ) (stop : ℤ) (n : ℕ) : ℕ := ((if stop < 0 then stop + n else stop) - start).toNat

/-- `array[:, :, s1:e1, s2:e2]`. -/
def slice (a : AfArray K) (s1 : ℕ) (e1 : ℤ) (s2 : ℕ) (e2 : ℤ) : AfArray K :=
  ofFn a.d0 a.d1 (sliceLen s1 e1 a.d2) (sliceLen s2 e2 a.d3) fun i j k l => a.get i j (k + s1) (l + s2)

/-- `af.join(1, a, b)`; ArrayFire rejects arrays whose other axes differ. -/
def join1 (a b : AfArray K) : Except PyErr (AfArray K) :=
  if a.d0 = b.d0 ∧ a.d2 = b.d2 ∧ a.d3 = b.d3 then
    .ok (ofFn a.d0 (a.d1 + b.d1) a.d2 a.d3 fun i j k l => if j < a.d1 then a.get i j k l else b.get i (j - a.d1) k l)
  else .error .exception

/-- `af.join(0, a, b)`. -/
def join0 (a b : AfArray K) : Except PyErr (AfArray K) :=
  if a.d1 = b.d1 ∧ a.d2 = b.d2 ∧ a.d3 = b.d3 then
    .ok (ofFn (a.d0 + b.d0) a.d1 a.d2 a.d3 fun i j k l => if i < a.d0 then a.get i j k l else b.get (i - a.d0) j k l)
  else .error .exception

end AfArray

/-- A flat vector (`numpy`/PETSc array) of known length. -/
structure Vec (K : Type) where
  len : ℕ
  data : ℕ → K

/-- Sizes stored by the solver object — `nonlinear_solver.py:112-120, 337-341`. -/
structure GridSizes where
  (Np1 Np2 Np3 Ns : ℕ)
  /-- owned cells along each axis -/
  (n1 n2 : ℕ)
  /-- ghost cells along each axis (`N_g1`, `N_g2`) -/
  (g1 g2 : ℕ)

namespace GridSizes

/-- `N_q1_local_with_Ng` — `nonlinear_solver.py:340`. -/
def M1 (z : GridSizes) : ℕ := z.n1 + 2 * z.g1
/-- `N_q2_local_with_Ng` — `nonlinear_solver.py:341`. -/
def M2 (z : GridSizes) : ℕ := z.n2 + 2 * z.g2
/-- `i_q1_end` — `nonlinear_solver.py:322-325`: `-N_g1`, or `1` when there are no ghost cells. -/
def end1 (z : GridSizes) : ℤ := if z.g1 = 0 then 1 else -(z.g1 : ℤ)
/-- `i_q2_end` — `nonlinear_solver.py:323-328`. -/
def end2 (z : GridSizes) : ℤ := if z.g2 = 0 then 1 else -(z.g2 : ℤ)

end GridSizes

variable {K : Type}

/-- `_convert_to_q_expanded` — `nonlinear_solver.py:416-439`. -/
def convertToQExpanded (z : GridSizes) (a : AfArray K) : Except PyErr (AfArray K) :=
  a.moddims (z.Np1 * z.Np2 * z.Np3) z.Ns z.M1 z.M2

/-- `_convert_to_p_expanded` — `nonlinear_solver.py:441-462`. -/
def convertToPExpanded (z : GridSizes) (a : AfArray K) : Except PyErr (AfArray K) :=
  a.moddims z.Np1 z.Np2 z.Np3 (z.Ns * z.M1 * z.M2)

/-- `af_to_petsc_glob_array` — `af_petsc_conversion.py:3-20`: the bulk slice, flattened, copied over the process' part of the PETSc
vector (`glob_array`, of length `len`); `to_ndarray` raises if the sizes differ. -/
def afToPetscGlobArray (z : GridSizes) (a : AfArray K) (len : ℕ) : Except PyErr (Vec K) :=
  let t := a.slice z.g1 z.end1 z.g2 z.end2
  if t.size = len then .ok ⟨len, t.data⟩ else .error .exception

/-- `petsc_local_array_to_af` — `af_petsc_conversion.py:22-38`. -/
def petscLocalArrayToAf (z : GridSizes) (v0 v1 : ℕ) (v : Vec K) : Except PyErr (AfArray K) :=
  AfArray.moddims ⟨v.len, 1, 1, 1, v.data⟩ v0 v1 z.M1 z.M2

namespace Decomp

variable {N1 N2 : ℕ} {R : Type} (D : Decomp N1 N2 R)

/-- The sizes seen by process `r`. -/
def sizes (Np1 Np2 Np3 Ns g1 g2 : ℕ) (r : R) : GridSizes := ⟨Np1, Np2, Np3, Ns, D.n1 r, D.n2 r, g1, g2⟩

/-- Entry `c` (of `dof` per cell) of global cell `i` in the distributed PETSc vector whose parts are `V`: a process' part lists its
cells with `q1` running fastest, the entries of a cell adjacent (PETSc's documented ordering of a DMDA vector;
`nonlinear_solver.py:265-280, 305-314`). -/
def entry (dof : ℕ) (V : R → Vec K) (i : ZMod N1 × ZMod N2) (c : ℕ) : K :=
  let r := D.owner i
  (V r).data (c + dof * ((i.1.val - D.start1 r) + D.n1 r * (i.2.val - D.start2 r)))

/-- `viewer(vec)` — `dump.py:118-119, 165-166, 230-231`: the file lists the vector in PETSc's natural ordering, which does not
depend on the number of processes. -/
def writeFile (dof : ℕ) (V : R → Vec K) : Vec K :=
  ⟨dof * (N1 * N2), fun n => D.entry dof V ((n / dof : ℕ), (n / dof / N1 : ℕ)) (n % dof)⟩

/-- `vec.load(viewer)` — `load.py:34, 69`: every process receives the entries of the cells it owns; PETSc raises if the length
of the file is not that of the vector. -/
def readFile (dof : ℕ) (file : Vec K) : Except PyErr (R → Vec K) :=
  if file.len = dof * (N1 * N2) then
    .ok fun r => ⟨dof * (D.n1 r * D.n2 r), fun n => file.data
      (n % dof + dof * ((D.start1 r + n / dof % D.n1 r) + N1 * (D.start2 r + n / dof / D.n1 r)))⟩
  else .error .exception

/-- `da.globalToLocal(glob, local)` — `communicate.py:24, 62`, `load.py:35, 71`: ghosted local parts, boxes stored like the
owned parts.  Cells outside a non-periodic domain keep what the local vector held (`stale`). PETSc's documented effect. -/
def globalToLocal (g1 g2 : ℕ) (bc1 bc2 : PetscBC) (dof : ℕ) (V stale : R → Vec K) (r : R) : Vec K :=
  let M1 := D.n1 r + 2 * g1
  ⟨dof * (M1 * (D.n2 r + 2 * g2)), fun n =>
    let c1 : ℤ := D.start1 r + (n / dof % M1 : ℕ) - g1
    let c2 : ℤ := D.start2 r + (n / dof / M1 : ℕ) - g2
    if fills bc1 N1 c1 ∧ fills bc2 N2 c2 then D.entry dof V ((c1 : ZMod N1), (c2 : ZMod N2)) (n % dof)
    else (stale r).data n⟩

/-- `communicate_f`/`communicate_fields` at the level of memory blocks — `communicate.py:8-38, 40-77`: `v0 × v1` numbers per cell
(`N_p1 N_p2 N_p3 × N_species` for `f`, `6 × 1` for the fields). Relational: `F` becomes `F'` if no process raises. -/
def Communicates (z : R → GridSizes) (g1 g2 : ℕ) (bc1 bc2 : PetscBC) (v0 v1 : ℕ) (stale : R → Vec K)
    (F F' : R → AfArray K) : Prop :=
  ∃ V : R → Vec K, (∀ r, afToPetscGlobArray (z r) (F r) (v0 * v1 * (D.n1 r * D.n2 r)) = .ok (V r)) ∧
    ∀ r, petscLocalArrayToAf (z r) v0 v1 (D.globalToLocal g1 g2 bc1 bc2 (v0 * v1) V stale r) = .ok (F' r)

/-- `dump_distribution_function` / `dump_EM_fields` — `dump.py:121-168, 170-233`. -/
def DumpsTo (z : R → GridSizes) (v0 v1 : ℕ) (F : R → AfArray K) (file : Vec K) : Prop :=
  ∃ V : R → Vec K, (∀ r, afToPetscGlobArray (z r) (F r) (v0 * v1 * (D.n1 r * D.n2 r)) = .ok (V r)) ∧
    file = D.writeFile (v0 * v1) V

/-- `load_distribution_function` / the first half of `load_EM_fields` — `load.py:10-43, 45-76`. -/
def LoadsTo (z : R → GridSizes) (g1 g2 : ℕ) (bc1 bc2 : PetscBC) (v0 v1 : ℕ) (stale : R → Vec K) (file : Vec K)
    (F' : R → AfArray K) : Prop :=
  ∃ V : R → Vec K, D.readFile (v0 * v1) file = .ok V ∧
    ∀ r, petscLocalArrayToAf (z r) v0 v1 (D.globalToLocal g1 g2 bc1 bc2 (v0 * v1) V stale r) = .ok (F' r)

end Decomp

/-! ## Moments dump -/

/-- `a.startswith('_')`. -/
def isPrivate (a : String) : Bool := a.toList.head? = some '_'

/-- The list `attributes` — `dump.py:99-103`, `nonlinear_solver.py:284-288`: `dir(moments)` is the sorted list of the names defined in the
module; `names` are these names in the order of definition (no duplicates). -/
def momentAttributes (names : List String) : List String :=
  ((names.mergeSort fun a b => decide (a ≤ b)).filter fun a => !isPrivate a).erase "integral_over_v"

/-- `dump_moments`, lines 102-112 — one process: compute and join along axis 1 (`compute name` is `compute_moments(name)`,
an array of shape `(1, N_species, M1, M2)`; with no attribute `array_to_dump` is undefined). -/
def joinMoments (compute : String → Except PyErr (AfArray K)) : List String → Except PyErr (AfArray K)
  | [] => .error .nameError
  | a :: rest => do
      let first ← compute a
      rest.foldlM (fun acc b => do acc.join1 (← compute b)) first

namespace Decomp
variable {N1 N2 : ℕ} {R : Type} (D : Decomp N1 N2 R)

/-- `dump_moments` — `dump.py:41-119`; the vector has `N_species * len(attributes)` entries per cell
(`nonlinear_solver.py:290-297, 309-314`). -/
def DumpsMoments (z : R → GridSizes) (Ns : ℕ) (names : List String) (compute : R → String → Except PyErr (AfArray K))
    (file : Vec K) : Prop :=
  let dof := Ns * (momentAttributes names).length
  ∃ (A : R → AfArray K) (V : R → Vec K),
    (∀ r, joinMoments (compute r) (momentAttributes names) = .ok (A r)) ∧
    (∀ r, afToPetscGlobArray (z r) (A r) (dof * (D.n1 r * D.n2 r)) = .ok (V r)) ∧
    file = D.writeFile dof V
end Decomp

/-! ## Auxiliary arrays -/

/-- `dump_aux_arrays`, lines 26-36 of `dump.py` — one process: the slice `N_g:-N_g` of every array with `N_g = N_ghost` on both axes
(not the per-axis ghost widths), joined along axis 0. -/
def joinAux (Ng : ℕ) : List (AfArray K) → Except PyErr (AfArray K)
  | [] => .error .nameError
  | a :: rest =>
      rest.foldlM (fun acc b => acc.join0 (b.slice Ng (-(Ng : ℤ)) Ng (-(Ng : ℤ)))) (a.slice Ng (-(Ng : ℤ)) Ng (-(Ng : ℤ)))

/-- `dump_aux_arrays(arrays, name, file_name)` — `dump.py:9-39`. `aux` is the number of entries per cell of the vector created by an earlier call (`none`
on the first call, which creates it with `len(arrays)` entries per cell); it is also the state left behind. -/
def Decomp.DumpsAux {N1 N2 : ℕ} {R : Type} (D : Decomp N1 N2 R) (Ng : ℕ) (aux : Option ℕ) (len : ℕ) (arrays : R → List (AfArray K))
    (file : Vec K) : Prop :=
  let dof := aux.getD len
  ∃ A : R → AfArray K, (∀ r, joinAux Ng (arrays r) = .ok (A r)) ∧ (∀ r, (A r).size = dof * (D.n1 r * D.n2 r)) ∧
    file = D.writeFile dof fun r => ⟨dof * (D.n1 r * D.n2 r), (A r).data⟩

/-! ## Coordinates -/

section coords
variable [Field K]

/-- A pair of coordinate arrays, by local cell index. -/
abbrev Coords (K : Type) := (ℕ → ℕ → K) × (ℕ → ℕ → K)

/-- `calculate_q` — `calculate_q.py:7-41`: left-bottom corners, bottom-face centres, left-face centres, cell centres. `meshgrid`
followed by `reorder` makes `q1` vary along axis 2 and `q2` along axis 3 (lines 19-24). Line 37 returns `q2_center_bot`, not
`q2_left_center`, with the left-face centres. -/
def calculateQ (start1 start2 : K) (g1 g2 : ℕ) (dq1 dq2 : K) : Coords K × Coords K × Coords K × Coords K :=
  let iq1 (a : ℕ) : K := ((-(g1 : ℤ) + a : ℤ) : K)
  let iq2 (b : ℕ) : K := ((-(g2 : ℤ) + b : ℤ) : K)
  let q1LeftBot := fun a (_ : ℕ) => start1 + iq1 a * dq1
  let q2LeftBot := fun (_ : ℕ) b => start2 + iq2 b * dq2
  let q1CenterBot := fun a b => q1LeftBot a b + 1 / 2 * dq1
  let q2CenterBot := q2LeftBot
  let q1LeftCenter := q1LeftBot
  let q1Center := fun a b => q1LeftBot a b + 1 / 2 * dq1
  let q2Center := fun a b => q2LeftBot a b + 1 / 2 * dq2
  ((q1LeftBot, q2LeftBot), (q1CenterBot, q2CenterBot), (q1LeftCenter, q2CenterBot), (q1Center, q2Center))

/-- The coordinate arrays of process `r` — `nonlinear_solver.py:330-350`, `fields.py:198-227`. -/
def Decomp.coords {N1 N2 : ℕ} {R : Type} (D : Decomp N1 N2 R) (g1 g2 : ℕ) (q1Start q2Start dq1 dq2 : K) (r : R) :
    Coords K × Coords K × Coords K × Coords K :=
  calculateQ (q1Start + (D.start1 r : K) * dq1) (q2Start + (D.start2 r : K) * dq2) g1 g2 dq1 dq2

/-- `np.meshgrid(x, y, z)` with the default `'xy'` indexing: shape `(len y, len x, len z)`. -/
def meshgrid (lx ly lz : ℕ) (x y z : ℕ → K) : AfArray K × AfArray K × AfArray K :=
  (AfArray.ofFn ly lx lz 1 fun _ j _ _ => x j, AfArray.ofFn ly lx lz 1 fun i _ _ _ => y i,
    AfArray.ofFn ly lx lz 1 fun _ _ k _ => z k)

/-- `array[:, i] = af.flat(v)` for a two-axis array. -/
def AfArray.setColumn (a : AfArray K) (i : ℕ) (v : AfArray K) : AfArray K :=
  { a with data := fun n => if n / a.d0 = i then v.data (n % a.d0) else a.data n }

/-- The common body of `calculate_p_corner` (`off = 0`, `calculate_p.py:8-31`) and `calculate_p_center` (`off = 1/2`,
`calculate_p.py:33-57`): per species `i`, `start[i] + (off + arange(N)) * dp[i]`. -/
def calculateP (off : K) (p1s p2s p3s : ℕ → K) (ns Np1 Np2 Np3 : ℕ) (dp1 dp2 dp3 : ℕ → K) :
    AfArray K × AfArray K × AfArray K :=
  let zero : AfArray K := ⟨Np1 * Np2 * Np3, ns, 1, 1, fun _ => 0⟩
  (List.range ns).foldl (fun (acc : AfArray K × AfArray K × AfArray K) i =>
    let p1 := fun n : ℕ => p1s i + (off + n) * dp1 i
    let p2 := fun n : ℕ => p2s i + (off + n) * dp2 i
    let p3 := fun n : ℕ => p3s i + (off + n) * dp3 i
    let m := meshgrid Np2 Np1 Np3 p2 p1 p3
    (acc.1.setColumn i m.2.1, acc.2.1.setColumn i m.1, acc.2.2.setColumn i m.2.2)) (zero, zero, zero)

end coords

end Bolt
