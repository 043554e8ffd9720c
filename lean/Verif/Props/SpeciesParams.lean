import Verif.Proofs.SpeciesParams
import Verif.Props.ArrayProgramExample
import Verif.Props.System

/-!
# C114: operations on arrays of different shapes, and one mass, charge and momentum spacing per species
-/

set_option linter.unusedSectionVars false

namespace Bolt

open Machine PyExpr

/-! ## products and sums of arrays of different shapes -/

section batched
variable {K : Type} [Machine K]

theorem fold_first (f : K → K → K) (c : K) (as : List (AfArray K)) (hne : as ≠ []) (hp : ∀ a ∈ as, a.Proper) :
    ((∀ a ∈ as, ∀ b ∈ as, a.Compatible b) → ∃ r : AfArray K, (as.map fun a => (.ok (.arr a) : PyExpr K)).foldl (bin true f) (num c) = .ok (.arr r) ∧
      r.d0 = (as.map AfArray.d0).foldl max 0 ∧ r.d1 = (as.map AfArray.d1).foldl max 0 ∧ r.d2 = (as.map AfArray.d2).foldl max 0 ∧
      r.d3 = (as.map AfArray.d3).foldl max 0 ∧ ∀ i j k l, i < r.d0 → j < r.d1 → k < r.d2 → l < r.d3 →
        r.get i j k l = (as.map fun a => a.repeated i j k l).foldl f c) ∧
    (¬ (∀ a ∈ as, ∀ b ∈ as, a.Compatible b) → (as.map fun a => (.ok (.arr a) : PyExpr K)).foldl (bin true f) (num c) = .error .exception) := by
  obtain ⟨a, rest, rfl⟩ := List.exists_cons_of_ne_nil hne
  have hpw : (∀ x ∈ a :: rest, ∀ y ∈ a :: rest, x.Compatible y) ↔ (a.map (f c) :: rest).Pairwise AfArray.Compatible := by
    have e : (a.map (f c) :: rest).Pairwise AfArray.Compatible ↔ (a :: rest).Pairwise AfArray.Compatible := by
      simp only [List.pairwise_cons]; rfl
    rw [e]
    constructor
    · intro h
      exact List.Pairwise.imp_of_mem (R := fun _ _ => True) (fun hx hy _ => h _ hx _ hy) (List.pairwise_iff_forall_sublist.mpr fun _ => trivial)
    · intro h x hx y hy
      have : Std.Symm (AfArray.Compatible (K := K)) := ⟨fun _ _ h => AfArray.compatible_comm.mp h⟩
      exact h.forall_of_forall (fun x _ => AfArray.compatible_self x) hx hy
  have red : (((a :: rest).map fun a => (.ok (.arr a) : PyExpr K)).foldl (bin true f) (num c) : PyExpr K) =
      (rest.map fun a => (.ok (.arr a) : PyExpr K)).foldl (bin true f) (.ok (.arr (a.map (f c)))) := rfl
  have := fold_batched f rest (a.map (f c)) (by
    intro x hx; rcases List.mem_cons.mp hx with rfl | hx
    · exact hp a (by simp)
    · exact hp x (by simp [hx]))
  rw [red, hpw]
  refine ⟨fun hh => ?_, this.2⟩
  obtain ⟨r, hr, r0, r1, r2, r3, rc, rv⟩ := this.1 hh
  refine ⟨r, hr, ?_, ?_, ?_, ?_, fun i j k l hi hj hk hl => ?_⟩
  · rw [r0]; simp [AfArray.map]
  · rw [r1]; simp [AfArray.map]
  · rw [r2]; simp [AfArray.map]
  · rw [r3]; simp [AfArray.map]
  · have w := rv i j k l ⟨.inr hi, .inr hj, .inr hk, .inr hl⟩
    have s : ∀ {d x : ℕ}, x < d → (if d = 1 then 0 else x) = x := by intro d x h; split_ifs <;> omega
    have e : r.repeated i j k l = r.get i j k l := by
      unfold AfArray.repeated; rw [s hi, s hj, s hk, s hl]
    rw [e] at w
    rw [w]; rfl

/-- C114 (products): `multiply(a, b, ...)` raises exactly when two of the arrays have different lengths, neither of them 1, along some axis. Otherwise the result has
along every axis the largest length, and each element is the product, in the order of the arguments, of the elements at that place, axes of length 1 being repeated. -/
theorem C114_multiply (as : List (AfArray K)) (hne : as ≠ []) (hp : ∀ a ∈ as, a.Proper) :
    ((∀ a ∈ as, ∀ b ∈ as, a.Compatible b) → ∃ r : AfArray K, multiply (as.map fun a => .ok (.arr a)) = .ok (.arr r) ∧
      r.d0 = (as.map AfArray.d0).foldl max 0 ∧ r.d1 = (as.map AfArray.d1).foldl max 0 ∧ r.d2 = (as.map AfArray.d2).foldl max 0 ∧
      r.d3 = (as.map AfArray.d3).foldl max 0 ∧ ∀ i j k l, i < r.d0 → j < r.d1 → k < r.d2 → l < r.d3 →
        r.get i j k l = (as.map fun a => a.repeated i j k l).foldl mul (lit 1)) ∧
    (¬ (∀ a ∈ as, ∀ b ∈ as, a.Compatible b) → multiply (as.map fun a => (.ok (.arr a) : PyExpr K)) = .error .exception) :=
  fold_first mul (lit 1) as hne hp

/-- C114 (sums): the same for `add(a, b, ...)`. -/
theorem C114_add (as : List (AfArray K)) (hne : as ≠ []) (hp : ∀ a ∈ as, a.Proper) :
    ((∀ a ∈ as, ∀ b ∈ as, a.Compatible b) → ∃ r : AfArray K, addAll (as.map fun a => .ok (.arr a)) = .ok (.arr r) ∧
      r.d0 = (as.map AfArray.d0).foldl max 0 ∧ r.d1 = (as.map AfArray.d1).foldl max 0 ∧ r.d2 = (as.map AfArray.d2).foldl max 0 ∧
      r.d3 = (as.map AfArray.d3).foldl max 0 ∧ ∀ i j k l, i < r.d0 → j < r.d1 → k < r.d2 → l < r.d3 →
        r.get i j k l = (as.map fun a => a.repeated i j k l).foldl add (lit 0)) ∧
    (¬ (∀ a ∈ as, ∀ b ∈ as, a.Compatible b) → addAll (as.map fun a => (.ok (.arr a) : PyExpr K)) = .error .exception) :=
  fold_first add (lit 0) as hne hp

end batched

theorem foldl_max_perm {l m : List ℕ} (h : l.Perm m) (c : ℕ) : l.foldl max c = m.foldl max c := by
  have : RightCommutative (max : ℕ → ℕ → ℕ) := ⟨fun a b c => max_right_comm a b c⟩
  exact h.foldl_eq c

/-- C114 (order of the factors): in exact arithmetic the order of the arguments does not matter: both orders raise, or both give the same shape and elements. -/
theorem C114_order {K : Type} [Field K] [LinearOrder K] [IsStrictOrderedRing K] (as bs : List (AfArray K)) (h : as.Perm bs) (hne : as ≠ [])
    (hp : ∀ a ∈ as, a.Proper) :
    let mul' := @multiply K (exactMachine K)
    (mul' (as.map fun a => .ok (.arr a)) = .error .exception ∧ mul' (bs.map fun a => .ok (.arr a)) = .error .exception) ∨
    ∃ r s : AfArray K, mul' (as.map fun a => .ok (.arr a)) = .ok (.arr r) ∧ mul' (bs.map fun a => .ok (.arr a)) = .ok (.arr s) ∧
      r.d0 = s.d0 ∧ r.d1 = s.d1 ∧ r.d2 = s.d2 ∧ r.d3 = s.d3 ∧
      ∀ i j k l, i < r.d0 → j < r.d1 → k < r.d2 → l < r.d3 → r.get i j k l = s.get i j k l := by
  let M : Machine K := exactMachine K
  have hne' : bs ≠ [] := fun e => hne (by subst e; exact h.eq_nil)
  have hp' : ∀ a ∈ bs, a.Proper := fun a ha => hp a (h.mem_iff.mpr ha)
  have A := C114_multiply as hne hp
  have B := C114_multiply bs hne' hp'
  by_cases hc : ∀ a ∈ as, ∀ b ∈ as, a.Compatible b
  · right
    obtain ⟨r, hr, r0, r1, r2, r3, rv⟩ := A.1 hc
    obtain ⟨s, hs, s0, s1, s2, s3, sv⟩ := B.1 fun a ha b hb => hc a (h.mem_iff.mpr ha) b (h.mem_iff.mpr hb)
    have e0 : r.d0 = s.d0 := by rw [r0, s0, foldl_max_perm (h.map _)]
    have e1 : r.d1 = s.d1 := by rw [r1, s1, foldl_max_perm (h.map _)]
    have e2 : r.d2 = s.d2 := by rw [r2, s2, foldl_max_perm (h.map _)]
    have e3 : r.d3 = s.d3 := by rw [r3, s3, foldl_max_perm (h.map _)]
    refine ⟨r, s, hr, hs, e0, e1, e2, e3, fun i j k l hi hj hk hl => ?_⟩
    rw [rv i j k l hi hj hk hl, sv i j k l (e0 ▸ hi) (e1 ▸ hj) (e2 ▸ hk) (e3 ▸ hl)]
    have : RightCommutative (Machine.mul : K → K → K) := ⟨fun a b c => by change a * b * c = a * c * b; ring⟩
    exact (h.map _).foldl_eq _
  · left
    exact ⟨A.2 hc, B.2 fun hh => hc fun a ha b hb => hh a (h.mem_iff.mp ha) b (h.mem_iff.mp hb)⟩

/-- Compatible: a `(1, 3)` array of charges and a `(2, 3, 4, 1)` array; not compatible: `(1, 3)` and `(2, 2)`. -/
example : ((⟨1, 3, 1, 1, fun _ => 0⟩ : AfArray ℚ).Compatible ⟨2, 3, 4, 1, fun _ => 0⟩) ∧
    ¬ (⟨1, 3, 1, 1, fun _ => 0⟩ : AfArray ℚ).Compatible ⟨2, 2, 1, 1, fun _ => 0⟩ ∧ (⟨1, 3, 1, 1, fun _ => 0⟩ : AfArray ℚ).Proper := by
  unfold AfArray.Compatible AfArray.Proper; decide

/-! ## masses and charges -/

section species
variable {K : Type} [Zero K]

/-- C114 (masses and charges): given as lists of the same positive length, any sequence of physical systems and of linear and nonlinear solvers can be built from one
`params` module; all report that number of species; the lists stay until the first solver is built, and from then on `params.mass` and `params.charge` are
`(1, N_s)` arrays with the mass and the charge of species `s` in column `s`. -/
theorem C114_species (mass charge : List K) (h : mass.length = charge.length) (builds : List Build) :
    ∃ ns s', buildAll ⟨⟨.list mass, .list charge⟩, none⟩ (.system :: builds) = .ok (ns, s') ∧ (∀ n ∈ ns, n = charge.length) ∧
      ns.length = builds.length + 1 ∧
      ((.nonlinear ∈ builds ∨ .linear ∈ builds) →
        ∃ a b : AfArray K, s'.params = ⟨.arr a, .arr b⟩ ∧ IsSpeciesRow a mass ∧ IsSpeciesRow b charge) ∧
      ((.nonlinear ∉ builds ∧ .linear ∉ builds) → s'.params = ⟨.list mass, .list charge⟩) := by
  -- after the arrays are made nothing changes
  have arrays : ∀ (bs : List Build) (a b : AfArray K), a.size = charge.length → b.size = charge.length →
      ∃ ns, buildAll ⟨⟨.arr a, .arr b⟩, some charge.length⟩ bs = .ok (ns, ⟨⟨.arr a, .arr b⟩, some charge.length⟩) ∧ (∀ n ∈ ns, n = charge.length) ∧
        ns.length = bs.length := by
    intro bs a b ha hb
    induction bs with
    | nil => exact ⟨[], rfl, by simp, rfl⟩
    | cons x rest ih =>
      obtain ⟨ns, e, hn, hl⟩ := ih
      have one : build ⟨⟨.arr a, .arr b⟩, some charge.length⟩ x = .ok (charge.length, ⟨⟨.arr a, .arr b⟩, some charge.length⟩) := by
        cases x <;> simp [build, systemSpecies, SpeciesVal.len, convertSpecies, ha, hb, bind, Except.bind]
      refine ⟨charge.length :: ns, ?_, by simpa using hn, by simp [hl]⟩
      simp [buildAll, one, e, bind, Except.bind]
  have lists : ∀ bs : List Build, ∃ ns s', buildAll ⟨⟨.list mass, .list charge⟩, some charge.length⟩ bs = .ok (ns, s') ∧ (∀ n ∈ ns, n = charge.length) ∧
      ns.length = bs.length ∧
      ((.nonlinear ∈ bs ∨ .linear ∈ bs) → ∃ a b : AfArray K, s'.params = ⟨.arr a, .arr b⟩ ∧ IsSpeciesRow a mass ∧ IsSpeciesRow b charge) ∧
      ((.nonlinear ∉ bs ∧ .linear ∉ bs) → s'.params = ⟨.list mass, .list charge⟩) := by
    intro bs
    induction bs with
    | nil => exact ⟨[], _, rfl, by simp, rfl, by simp, fun _ => rfl⟩
    | cons x rest ih =>
      obtain ⟨a, b, e, ra, rb⟩ := convertSpecies_lists mass charge h
      obtain ⟨ns, eA, hn, hl⟩ := arrays rest a b (by simp [AfArray.size, ra.1, ra.2.1, ra.2.2.1, ra.2.2.2.1, h])
        (by simp [AfArray.size, rb.1, rb.2.1, rb.2.2.1, rb.2.2.2.1])
      cases x with
      | system =>
        obtain ⟨ns, s', e', hn, hl, i1, i2⟩ := ih
        refine ⟨charge.length :: ns, s', ?_, by simpa using hn, by simp [hl], by simpa using i1, by simpa using i2⟩
        simp [buildAll, build, systemSpecies, SpeciesVal.len, h, e', bind, Except.bind]
      | nonlinear =>
        refine ⟨charge.length :: ns, ⟨⟨.arr a, .arr b⟩, some charge.length⟩, ?_, by simpa using hn, by simp [hl], fun _ => ⟨a, b, rfl, ra, rb⟩, by simp⟩
        simp [buildAll, build, e, eA, bind, Except.bind]
      | linear =>
        refine ⟨charge.length :: ns, ⟨⟨.arr a, .arr b⟩, some charge.length⟩, ?_, by simpa using hn, by simp [hl], fun _ => ⟨a, b, rfl, ra, rb⟩, by simp⟩
        simp [buildAll, build, SpeciesVal.len, h, e, eA, bind, Except.bind]
  obtain ⟨ns, s', e, hn, hl, i1, i2⟩ := lists builds
  refine ⟨charge.length :: ns, s', ?_, by simpa using hn, by simp [hl], i1, i2⟩
  simp [buildAll, build, systemSpecies, SpeciesVal.len, h, e, bind, Except.bind]

/-- C114 (in the array programs): such an array is a per-species array for `C113_currents`, `C113_force` and `C113_moments`. -/
theorem C114_species_row {z : GridSizes} {a : AfArray K} {l : List K} (hl : l.length = z.Ns) (h : IsSpeciesRow a l) :
    (speciesOnly z).Holds (.ok (.arr a)) fun y => l[y.1.val]'(by rw [hl]; exact y.1.2) :=
  ⟨a, rfl, h.1, h.2.1.trans hl, h.2.2.1, h.2.2.2.1, fun y => h.2.2.2.2 y.1 (by rw [hl]; exact y.1.2)⟩

/-- C114 (negative): with the masses in a list and the charges already in a `(1, N_s)` array the physical system is accepted; for more than one species the first
solver then raises, and in the user's module all charges, and all masses but the first, have become zero; building the solver once more succeeds, with these values. -/
theorem C114_mixed_input_destroyed (mass : List K) (b : AfArray K) (n : ℕ) (hn : 2 ≤ n) (hm : mass.length = n) (hb : b.d0 = 1 ∧ b.d1 = n ∧ b.d2 = 1 ∧ b.d3 = 1) :
    systemSpecies ⟨.list mass, .arr b⟩ = .ok n ∧
    ∃ a' b' : AfArray K, convertSpecies n ⟨.list mass, .arr b⟩ = (⟨.arr a', .arr b'⟩, .error .exception) ∧
      (∀ s, s < n → b'.get 0 s 0 0 = 0) ∧ (∀ s, 1 ≤ s → s < n → a'.get 0 s 0 0 = 0) ∧
      build ⟨⟨.arr a', .arr b'⟩, some n⟩ .nonlinear = .ok (n, ⟨⟨.arr a', .arr b'⟩, some n⟩) := by
  obtain ⟨b0, b1, b2, b3⟩ := hb
  obtain ⟨x, rest, rfl⟩ := List.exists_cons_of_ne_nil (l := mass) (by rintro rfl; simp at hm; omega)
  refine ⟨by simp [systemSpecies, SpeciesVal.len, AfArray.size, b0, b1, b2, b3, hm, bind, Except.bind], ?_⟩
  let z : AfArray K := AfArray.ofFn 1 n 1 1 fun _ _ _ _ => 0
  have stay : ∀ (l : List ℕ) (p : AfArray K × AfArray K), l.foldl (fillStep (x :: rest) (.arr b)) (p, .error .exception) = (p, .error .exception) := by
    intro l p; induction l with
    | nil => rfl
    | cons i l ih => exact ih
  have run : (List.range n).foldl (fillStep (x :: rest) (.arr b)) ((z, z), .ok ()) = ((z.setEntry 0 x, z), .error .exception) := by
    obtain ⟨m, rfl⟩ := Nat.exists_eq_succ_of_ne_zero (show n ≠ 0 by omega)
    rw [List.range_succ_eq_map, List.foldl_cons]
    have : fillStep (x :: rest) (.arr b) ((z, z), .ok ()) 0 = ((z.setEntry 0 x, z), .error .exception) := by
      have : ¬ (0 < b.d0 ∧ b.d1 * b.d2 * b.d3 = 1) := by rw [b1, b2, b3]; omega
      simp only [fillStep, SpeciesVal.entry, List.getElem?_cons_zero, if_neg this]
    rw [this, stay]
  refine ⟨z.setEntry 0 x, z, by simp only [convertSpecies]; rw [run], fun s hs => ?_, fun s h1 hs => ?_, rfl⟩
  · exact AfArray.get_ofFn _ _ _ _ _ _ _ _ _ (by omega) hs (by omega)
  · rw [setEntry_get (n := n) rfl rfl rfl _ _ _ hs, if_neg (by omega)]
    exact AfArray.get_ofFn _ _ _ _ _ _ _ _ _ (by omega) hs (by omega)

/-- C114 (negative): charges in a list are not converted when the masses are not in a list. -/
theorem C114_charge_list_kept (n : ℕ) (a : AfArray K) (charge : List K) :
    convertSpecies n ⟨.arr a, .list charge⟩ = (⟨.arr a, .list charge⟩, .ok ()) := rfl

end species

/-- Two species: a system, a nonlinear solver, a linear solver, another system. -/
example : ∃ s', buildAll (⟨⟨.list [1, 1836], .list [-1, (1 : ℚ)]⟩, none⟩ : Session ℚ) [.system, .nonlinear, .linear, .system] = .ok ([2, 2, 2, 2], s') ∧
    ∃ a b : AfArray ℚ, s'.params = ⟨.arr a, .arr b⟩ ∧ a.get 0 1 0 0 = 1836 ∧ b.get 0 0 0 0 = -1 := by
  obtain ⟨ns, s', e, hn, hl, h1, -⟩ := C114_species [1, 1836] [-1, (1 : ℚ)] rfl [.nonlinear, .linear, .system]
  obtain ⟨a, b, hp, ra, rb⟩ := h1 (by simp)
  have : ns = [2, 2, 2, 2] := by
    match ns, hl, hn with
    | [w, x, y, z], _, hn => simpa using hn
  subst this
  exact ⟨s', e, a, b, hp, ra.2.2.2.2 1 (by simp), rb.2.2.2.2 0 (by simp)⟩

/-! ## momentum spacings -/

section spacings

/-- C114 (momentum spacings): the arrays the solvers make of the spacings of an accepted physical system hold, for every species, the length of its momentum
interval over the number of cells. -/
theorem C114_spacings {K : Type} [Field K] [LinearOrder K] [IsStrictOrderedRing K] {z : GridSizes} (starts ends dp : List K) (n : ℤ)
    (hs : starts.length = z.Ns) (he : ends.length = z.Ns) (h : dpLoop n starts ends = .ok dp) :
    (speciesOnly z).Holds (speciesArray dp z.Ns) fun y => (ends.getD y.1 0 - starts.getD y.1 0) / n := by
  have key : ∀ (starts ends dp : List K), starts.length = ends.length → dpLoop n starts ends = .ok dp →
      dp.length = starts.length ∧ ∀ i, i < starts.length → dp.getD i 0 = (ends.getD i 0 - starts.getD i 0) / n := by
    intro starts
    induction starts with
    | nil =>
      intro ends dp hl h
      obtain rfl : ends = [] := List.length_eq_zero_iff.mp hl.symm
      simp [dpLoop, pure, Except.pure] at h
      subst h; exact ⟨rfl, by simp⟩
    | cons a starts ih =>
      intro ends dp hl h
      obtain ⟨b, ends, rfl⟩ := List.exists_cons_of_ne_nil (l := ends) (by rintro rfl; simp at hl)
      unfold dpLoop at h
      rw [List.zip_cons_cons, List.mapM_cons] at h
      by_cases hn : n = 0
      · simp [pyDiv, hn, bind, Except.bind] at h
      · cases hr : dpLoop n starts ends with
        | error er =>
          rw [show List.mapM _ (starts.zip ends) = dpLoop n starts ends from rfl, hr] at h
          simp [pyDiv, hn, bind, Except.bind] at h
        | ok r =>
          rw [show List.mapM _ (starts.zip ends) = dpLoop n starts ends from rfl, hr] at h
          simp [pyDiv, hn, bind, Except.bind, pure, Except.pure] at h
          obtain ⟨e1, e2⟩ := ih ends r (by simpa using hl) hr
          subst h
          refine ⟨by simp [e1], fun i hi => ?_⟩
          cases i with
          | zero => simp
          | succ i => simpa using e2 i (by simpa using hi)
  obtain ⟨e1, e2⟩ := key starts ends dp (by omega) h
  have hm : (⟨dp.length, 1, 1, 1, fun i => dp.getD i 0⟩ : AfArray K).moddims 1 z.Ns 1 1 = .ok ⟨1, z.Ns, 1, 1, fun i => dp.getD i 0⟩ := by
    unfold AfArray.moddims
    rw [if_pos]
    simp [AfArray.size, e1, hs]
  refine ⟨⟨1, z.Ns, 1, 1, fun i => dp.getD i 0⟩, ?_, rfl, rfl, rfl, rfl, fun y => ?_⟩
  · unfold speciesArray; rw [hm]; rfl
  · beta_reduce
    rw [← e2 y.1 (by rw [hs]; exact y.1.2)]
    simp [AfArray.get, AfArray.offset, speciesOnly]

end spacings

/-! ## the spacing in the linear solver's momentum derivative -/

section linear
variable {z : GridSizes} [NeZero z.Np1] [NeZero z.Np2] [NeZero z.Np3] [NeZero z.M1] [NeZero z.M2] [NeZero z.Ns]

/-- C114 (linear solver): the momentum derivative of the perturbation, as the program on arrays computes it, is the fourth-order difference with the spacing the model
of the linear solver (`dpBroadcast`) uses: the array of spacings has the species along the axis that is `p2` in the momentum layout, so with one species it is the
right spacing, with as many species as cells along `p2` it is the spacing of the species whose number is the `p2` index, and in all other cases the program raises. -/
theorem C114_linear_derivative (axis : Fin 3) (dp : Fin z.Ns → ℝ) (f : Dist (Fin z.Ns) z.P z.Q ℂ) (xdp xf : PyExpr ℂ)
    (hdp : (speciesOnly z).Holds xdp fun y => (dp y.1 : ℂ)) (hf : HoldsDist xf f) :
    let e : z.P := if axis = 0 then (1, 0, 0) else if axis = 1 then (0, 1, 0) else (0, 0, 1)
    (∀ d, dpBroadcast (M1 := z.Np1) (M2 := z.Np2) (M3 := z.Np3) dp = .ok d →
      HoldsDist (@arrDdp ℂ complexMachine z axis.castSucc xdp xf) fun s p q => centralDiff4 e (d p s : ℂ) (fun p => f s p q) p) ∧
    (∀ er, dpBroadcast (M1 := z.Np1) (M2 := z.Np2) (M3 := z.Np3) dp = .error er → @arrDdp ℂ complexMachine z axis.castSucc xdp xf = .error er) :=
  arrDdp_holds axis dp f xdp xf hdp hf

/-- The three cases: one species; three species and three cells along `p2` (the spacing is looked up by the wrong index); two species and three cells. -/
example : (∃ d, dpBroadcast (M1 := 2) (M2 := 3) (M3 := 1) (ns := 1) (fun _ => (5 : ℝ)) = .ok d) ∧
    (∃ d, dpBroadcast (M1 := 2) (M2 := 3) (M3 := 1) (ns := 3) (fun s => (s.val : ℝ)) = .ok d ∧ d (0, 2, 0) 0 = 2) ∧
    dpBroadcast (M1 := 2) (M2 := 3) (M3 := 1) (ns := 2) (fun _ => (5 : ℝ)) = .error .exception := by
  refine ⟨⟨_, rfl⟩, ⟨fun p _ => (p.2.1.val : ℝ), by simp [dpBroadcast], ?_⟩, by simp [dpBroadcast]⟩
  change (((2 : ZMod 3).val : ℕ) : ℝ) = 2
  rw [show (2 : ZMod 3).val = 2 from rfl]; norm_num

end linear

end Bolt
