import Verif.Spec.ArrayProgram
import Verif.Proofs.Layout
import Mathlib.Tactic.Ring

/-! Helper lemmas for the array programs: every array operation does on the stored function what it should. -/

set_option linter.unusedSectionVars false

namespace Bolt

open Machine

variable {X K : Type}

/-- All positions lie inside the array. -/
structure Lay.Ok (L : Lay X) : Prop where
  h0 : ∀ x, L.i0 x < L.d0
  h1 : ∀ x, L.i1 x < L.d1
  h2 : ∀ x, L.i2 x < L.d2
  h3 : ∀ x, L.i3 x < L.d3

/-- `L₁` stores less: every axis is that of `L` or has length 1. -/
structure Lay.Sub (L₁ L : Lay X) : Prop where
  a0 : (L₁.d0 = L.d0 ∧ L₁.i0 = L.i0) ∨ L₁.d0 = 1
  a1 : (L₁.d1 = L.d1 ∧ L₁.i1 = L.i1) ∨ L₁.d1 = 1
  a2 : (L₁.d2 = L.d2 ∧ L₁.i2 = L.i2) ∨ L₁.d2 = 1
  a3 : (L₁.d3 = L.d3 ∧ L₁.i3 = L.i3) ∨ L₁.d3 = 1

theorem Lay.Sub.refl (L : Lay X) : L.Sub L := ⟨.inl ⟨rfl, rfl⟩, .inl ⟨rfl, rfl⟩, .inl ⟨rfl, rfl⟩, .inl ⟨rfl, rfl⟩⟩

namespace PyExpr

theorem binVal_ok (b : Bool) (f : K → K → K) {x y : PyExpr K} {v w : PyVal K} (hx : x = .ok v) (hy : y = .ok w) : bin b f x y = binVal b f v w := by
  subst hx hy; rfl

theorem bin_error_left (b : Bool) (f : K → K → K) (e : PyErr) (y : PyExpr K) : bin b f (.error e) y = .error e := rfl

theorem bin_error_right (b : Bool) (f : K → K → K) {x : PyExpr K} {v : PyVal K} (hx : x = .ok v) (e : PyErr) : bin b f x (.error e) = .error e := by
  subst hx; rfl

end PyExpr

namespace Lay.Holds

open PyExpr

variable {L : Lay X} {F G : X → K} {x y : PyExpr K}

theorem congr (h : L.Holds x F) (e : ∀ i, F i = G i) : L.Holds x G := (funext e : F = G) ▸ h

theorem un (f : K → K) (h : L.Holds x F) : L.Holds (PyExpr.un f x) fun i => f (F i) := by
  obtain ⟨a, rfl, h0, h1, h2, h3, hg⟩ := h
  exact ⟨a.map f, rfl, h0, h1, h2, h3, fun i => congrArg f (hg i)⟩

theorem numL (b : Bool) (f : K → K → K) (c : K) (h : L.Holds y G) : L.Holds (bin b f (.ok (.num c)) y) fun i => f c (G i) := by
  obtain ⟨a, rfl, h0, h1, h2, h3, hg⟩ := h
  exact ⟨a.map (f c), rfl, h0, h1, h2, h3, fun i => congrArg (f c) (hg i)⟩

theorem numR (b : Bool) (f : K → K → K) (c : K) (h : L.Holds x F) : L.Holds (bin b f x (.ok (.num c))) fun i => f (F i) c := by
  obtain ⟨a, rfl, h0, h1, h2, h3, hg⟩ := h
  exact ⟨a.map (f · c), rfl, h0, h1, h2, h3, fun i => congrArg (f · c) (hg i)⟩

theorem bin (f : K → K → K) (hx : L.Holds x F) (hy : L.Holds y G) : L.Holds (PyExpr.bin false f x y) fun i => f (F i) (G i) := by
  obtain ⟨a, rfl, h0, h1, h2, h3, hg⟩ := hx
  obtain ⟨b, rfl, k0, k1, k2, k3, kg⟩ := hy
  refine ⟨⟨a.d0, a.d1, a.d2, a.d3, fun n => f (a.data n) (b.data n)⟩, ?_, h0, h1, h2, h3, fun i => ?_⟩
  · have : a.zipWith f b = .ok ⟨a.d0, a.d1, a.d2, a.d3, fun n => f (a.data n) (b.data n)⟩ :=
      if_pos ⟨h0.trans k0.symm, h1.trans k1.symm, h2.trans k2.symm, h3.trans k3.symm⟩
    change Except.map PyVal.arr (a.zipWith f b) = _
    rw [this]; rfl
  · beta_reduce
    rw [← hg i, ← kg i]
    simp only [AfArray.get, h0, h1, h2, k0, k1, k2]

theorem along_of {d e i j : ℕ} (hj : j < d) (h : (d = e ∧ j = i) ∨ d = 1) : AfArray.along d i = j := by
  unfold AfArray.along
  split_ifs with hd
  · omega
  · rcases h with h | h
    · exact h.2.symm
    · exact absurd h hd

theorem fits_of {d e : ℕ} {i j : X → ℕ} (h : (d = e ∧ j = i) ∨ d = 1) : AfArray.Fits d e ∧ AfArray.Fits e d ∧ (e ≠ 0 → max d e = e ∧ max e d = e) := by
  rcases h with ⟨h, _⟩ | h
  · subst h; exact ⟨.inl rfl, .inl rfl, fun _ => ⟨max_self _, max_self _⟩⟩
  · exact ⟨.inr (.inl h), .inr (.inr h), fun he => ⟨by omega, by omega⟩⟩

/-- Batched operation of an array with a smaller one. -/
theorem batchR [Nonempty X] {L₁ : Lay X} (hL : L.Ok) (hL₁ : L₁.Ok) (s : L₁.Sub L) (f : K → K → K) (hx : L.Holds x F) (hy : L₁.Holds y G) :
    L.Holds (PyExpr.bin true f x y) fun i => f (F i) (G i) := by
  obtain ⟨a, rfl, h0, h1, h2, h3, hg⟩ := hx
  obtain ⟨b, rfl, k0, k1, k2, k3, kg⟩ := hy
  obtain ⟨x₀⟩ := ‹Nonempty X›
  have n0 := (fits_of s.a0).2.2 (by have := hL.h0 x₀; omega)
  have n1 := (fits_of s.a1).2.2 (by have := hL.h1 x₀; omega)
  have n2 := (fits_of s.a2).2.2 (by have := hL.h2 x₀; omega)
  have n3 := (fits_of s.a3).2.2 (by have := hL.h3 x₀; omega)
  have e : a.batched f b = .ok (AfArray.ofFn L.d0 L.d1 L.d2 L.d3 fun i j k l =>
      f (a.get (AfArray.along L.d0 i) (AfArray.along L.d1 j) (AfArray.along L.d2 k) (AfArray.along L.d3 l))
        (b.get (AfArray.along L₁.d0 i) (AfArray.along L₁.d1 j) (AfArray.along L₁.d2 k) (AfArray.along L₁.d3 l))) := by
    unfold AfArray.batched
    rw [h0, h1, h2, h3, k0, k1, k2, k3, n0.2, n1.2, n2.2, n3.2]
    exact if_pos ⟨(fits_of s.a0).2.1, (fits_of s.a1).2.1, (fits_of s.a2).2.1, (fits_of s.a3).2.1⟩
  refine ⟨AfArray.ofFn L.d0 L.d1 L.d2 L.d3 fun i j k l =>
      f (a.get (AfArray.along L.d0 i) (AfArray.along L.d1 j) (AfArray.along L.d2 k) (AfArray.along L.d3 l))
        (b.get (AfArray.along L₁.d0 i) (AfArray.along L₁.d1 j) (AfArray.along L₁.d2 k) (AfArray.along L₁.d3 l)), ?_, rfl, rfl, rfl, rfl, fun i => ?_⟩
  · change Except.map PyVal.arr (a.batched f b) = _
    rw [e]; rfl
  · rw [AfArray.get_ofFn _ _ _ _ _ _ _ _ _ (hL.h0 i) (hL.h1 i) (hL.h2 i), along_of (hL.h0 i) (.inl ⟨rfl, rfl⟩), along_of (hL.h1 i) (.inl ⟨rfl, rfl⟩),
      along_of (hL.h2 i) (.inl ⟨rfl, rfl⟩), along_of (hL.h3 i) (.inl ⟨rfl, rfl⟩), hg i,
      along_of (j := L₁.i0 i) (e := L.d0) (hL₁.h0 i) (s.a0.imp (fun h => ⟨h.1, congrFun h.2 i⟩) id),
      along_of (j := L₁.i1 i) (e := L.d1) (hL₁.h1 i) (s.a1.imp (fun h => ⟨h.1, congrFun h.2 i⟩) id),
      along_of (j := L₁.i2 i) (e := L.d2) (hL₁.h2 i) (s.a2.imp (fun h => ⟨h.1, congrFun h.2 i⟩) id),
      along_of (j := L₁.i3 i) (e := L.d3) (hL₁.h3 i) (s.a3.imp (fun h => ⟨h.1, congrFun h.2 i⟩) id), kg i]

/-- Batched operation of two arrays that together cover the axes of `L`. -/
theorem batch2 [Nonempty X] {L₁ L₂ : Lay X} (hL : L.Ok) (hL₁ : L₁.Ok) (hL₂ : L₂.Ok) (s₁ : L₁.Sub L) (s₂ : L₂.Sub L)
    (c0 : L₁.d0 = L.d0 ∨ L₂.d0 = L.d0) (c1 : L₁.d1 = L.d1 ∨ L₂.d1 = L.d1) (c2 : L₁.d2 = L.d2 ∨ L₂.d2 = L.d2)
    (c3 : L₁.d3 = L.d3 ∨ L₂.d3 = L.d3) (f : K → K → K) (hx : L₁.Holds x F) (hy : L₂.Holds y G) :
    L.Holds (PyExpr.bin true f x y) fun i => f (F i) (G i) := by
  obtain ⟨a, rfl, h0, h1, h2, h3, hg⟩ := hx
  obtain ⟨b, rfl, k0, k1, k2, k3, kg⟩ := hy
  obtain ⟨x₀⟩ := ‹Nonempty X›
  have cov : ∀ {d d₁ d₂ : ℕ} {i i₁ i₂ : X → ℕ}, i x₀ < d → ((d₁ = d ∧ i₁ = i) ∨ d₁ = 1) → ((d₂ = d ∧ i₂ = i) ∨ d₂ = 1) → (d₁ = d ∨ d₂ = d) →
      AfArray.Fits d₁ d₂ ∧ max d₁ d₂ = d := by
    intro d d₁ d₂ i i₁ i₂ hi a b c
    unfold AfArray.Fits
    rcases a with ⟨a, -⟩ | a <;> rcases b with ⟨b, -⟩ | b <;> omega
  obtain ⟨f0, n0⟩ := cov (hL.h0 x₀) s₁.a0 s₂.a0 c0
  obtain ⟨f1, n1⟩ := cov (hL.h1 x₀) s₁.a1 s₂.a1 c1
  obtain ⟨f2, n2⟩ := cov (hL.h2 x₀) s₁.a2 s₂.a2 c2
  obtain ⟨f3, n3⟩ := cov (hL.h3 x₀) s₁.a3 s₂.a3 c3
  have e : a.batched f b = .ok (AfArray.ofFn L.d0 L.d1 L.d2 L.d3 fun i j k l =>
      f (a.get (AfArray.along L₁.d0 i) (AfArray.along L₁.d1 j) (AfArray.along L₁.d2 k) (AfArray.along L₁.d3 l))
        (b.get (AfArray.along L₂.d0 i) (AfArray.along L₂.d1 j) (AfArray.along L₂.d2 k) (AfArray.along L₂.d3 l))) := by
    unfold AfArray.batched
    rw [h0, h1, h2, h3, k0, k1, k2, k3, n0, n1, n2, n3]
    exact if_pos ⟨f0, f1, f2, f3⟩
  refine ⟨AfArray.ofFn L.d0 L.d1 L.d2 L.d3 fun i j k l =>
      f (a.get (AfArray.along L₁.d0 i) (AfArray.along L₁.d1 j) (AfArray.along L₁.d2 k) (AfArray.along L₁.d3 l))
        (b.get (AfArray.along L₂.d0 i) (AfArray.along L₂.d1 j) (AfArray.along L₂.d2 k) (AfArray.along L₂.d3 l)), ?_, rfl, rfl, rfl, rfl, fun i => ?_⟩
  · change Except.map PyVal.arr (a.batched f b) = _
    rw [e]; rfl
  · rw [AfArray.get_ofFn _ _ _ _ _ _ _ _ _ (hL.h0 i) (hL.h1 i) (hL.h2 i),
      along_of (j := L₁.i0 i) (e := L.d0) (hL₁.h0 i) (s₁.a0.imp (fun h => ⟨h.1, congrFun h.2 i⟩) id),
      along_of (j := L₁.i1 i) (e := L.d1) (hL₁.h1 i) (s₁.a1.imp (fun h => ⟨h.1, congrFun h.2 i⟩) id),
      along_of (j := L₁.i2 i) (e := L.d2) (hL₁.h2 i) (s₁.a2.imp (fun h => ⟨h.1, congrFun h.2 i⟩) id),
      along_of (j := L₁.i3 i) (e := L.d3) (hL₁.h3 i) (s₁.a3.imp (fun h => ⟨h.1, congrFun h.2 i⟩) id), hg i,
      along_of (j := L₂.i0 i) (e := L.d0) (hL₂.h0 i) (s₂.a0.imp (fun h => ⟨h.1, congrFun h.2 i⟩) id),
      along_of (j := L₂.i1 i) (e := L.d1) (hL₂.h1 i) (s₂.a1.imp (fun h => ⟨h.1, congrFun h.2 i⟩) id),
      along_of (j := L₂.i2 i) (e := L.d2) (hL₂.h2 i) (s₂.a2.imp (fun h => ⟨h.1, congrFun h.2 i⟩) id),
      along_of (j := L₂.i3 i) (e := L.d3) (hL₂.h3 i) (s₂.a3.imp (fun h => ⟨h.1, congrFun h.2 i⟩) id), kg i]

theorem Fits_comm {d e : ℕ} (h : AfArray.Fits d e) : AfArray.Fits e d := by unfold AfArray.Fits at *; omega

theorem batched_flip (f : K → K → K) (a b : AfArray K) : a.batched f b = b.batched (fun u v => f v u) a := by
  unfold AfArray.batched
  rw [max_comm a.d0, max_comm a.d1, max_comm a.d2, max_comm a.d3]
  by_cases h : AfArray.Fits a.d0 b.d0 ∧ AfArray.Fits a.d1 b.d1 ∧ AfArray.Fits a.d2 b.d2 ∧ AfArray.Fits a.d3 b.d3
  · rw [if_pos h, if_pos ⟨Fits_comm h.1, Fits_comm h.2.1, Fits_comm h.2.2.1, Fits_comm h.2.2.2⟩]
  · rw [if_neg h, if_neg fun k => h ⟨Fits_comm k.1, Fits_comm k.2.1, Fits_comm k.2.2.1, Fits_comm k.2.2.2⟩]

/-- Batched operation of a smaller array with a larger one. -/
theorem batchL [Nonempty X] {L₁ : Lay X} (hL : L.Ok) (hL₁ : L₁.Ok) (s : L₁.Sub L) (f : K → K → K) (hx : L₁.Holds x F) (hy : L.Holds y G) :
    L.Holds (PyExpr.bin true f x y) fun i => f (F i) (G i) := by
  have key := batchR hL hL₁ s (fun u v => f v u) hy hx
  obtain ⟨a, rfl, -⟩ := hx
  obtain ⟨b, rfl, -⟩ := hy
  have : PyExpr.bin true f (.ok (.arr a)) (.ok (.arr b)) = PyExpr.bin true (fun u v => f v u) (.ok (.arr b)) (.ok (.arr a)) := by
    change Except.map PyVal.arr (a.batched f b) = Except.map PyVal.arr (b.batched (fun u v => f v u) a)
    rw [batched_flip]
  rw [this]
  exact key

/-- A cyclic shift. -/
theorem shift (hL : L.Ok) (h : L.Holds x F) (s0 s1 s2 s3 : ℤ) (T : X → X)
    (t0 : ∀ i, AfArray.wrap (L.i0 i - s0) L.d0 = L.i0 (T i)) (t1 : ∀ i, AfArray.wrap (L.i1 i - s1) L.d1 = L.i1 (T i))
    (t2 : ∀ i, AfArray.wrap (L.i2 i - s2) L.d2 = L.i2 (T i)) (t3 : ∀ i, AfArray.wrap (L.i3 i - s3) L.d3 = L.i3 (T i)) :
    L.Holds (x.shift s0 s1 s2 s3) fun i => F (T i) := by
  obtain ⟨a, rfl, h0, h1, h2, h3, hg⟩ := h
  refine ⟨a.shift s0 s1 s2 s3, rfl, h0, h1, h2, h3, fun i => ?_⟩
  unfold AfArray.shift
  rw [AfArray.get_ofFn _ _ _ _ _ _ _ _ _ (h0 ▸ hL.h0 i) (h1 ▸ hL.h1 i) (h2 ▸ hL.h2 i), h0, h1, h2, h3, t0, t1, t2, t3, hg]

end Lay.Holds

theorem wrap_zero {d i : ℕ} (h : i < d) : AfArray.wrap ((i : ℤ) - 0) d = i := by
  unfold AfArray.wrap
  rw [sub_zero, Int.emod_eq_of_lt (by omega) (by omega)]; rfl

theorem wrap_zmod {n : ℕ} [NeZero n] (a : ZMod n) (k : ℤ) : AfArray.wrap ((a.val : ℤ) - k) n = (a - (k : ZMod n)).val := by
  unfold AfArray.wrap
  have h : ((a - (k : ZMod n)).val : ℤ) = ((a.val : ℤ) - k) % n := by
    have : (a - (k : ZMod n)) = (((a.val : ℤ) - k : ℤ) : ZMod n) := by push_cast; rw [ZMod.natCast_zmod_val]
    rw [this, ZMod.val_intCast]
  rw [← h]; rfl

/-! ### Programs along one axis -/

/-- Shifts along `axis` of an array stored by `L` move the cells by `T`. -/
structure Moves (L : Lay X) (axis : Fin 4) (T : ℤ → X → X) : Prop where
  ok : L.Ok
  t0 : ∀ k i, AfArray.wrap (L.i0 i - (if axis = 0 then k else 0)) L.d0 = L.i0 (T k i)
  t1 : ∀ k i, AfArray.wrap (L.i1 i - (if axis = 1 then k else 0)) L.d1 = L.i1 (T k i)
  t2 : ∀ k i, AfArray.wrap (L.i2 i - (if axis = 2 then k else 0)) L.d2 = L.i2 (T k i)
  t3 : ∀ k i, AfArray.wrap (L.i3 i - (if axis = 3 then k else 0)) L.d3 = L.i3 (T k i)

section axis
open PyExpr
variable [Machine K] {L : Lay X} {axis : Fin 4} {T : ℤ → X → X} (hT : Moves L axis T) {F C : X → K} {x c : PyExpr K}
include hT

theorem Moves.shiftAlong (h : L.Holds x F) (k : ℤ) : L.Holds (x.shiftAlong axis k) fun i => F (T k i) :=
  h.shift hT.ok _ _ _ _ (T k) (hT.t0 k) (hT.t1 k) (hT.t2 k) (hT.t3 k)

theorem minmod_holds {F G H : X → K} {x y w : PyExpr K} (hx : L.Holds x F) (hy : L.Holds y G) (hw : L.Holds w H) :
    L.Holds (PyExpr.minmod x y w) fun i => Mach.minmod (F i) (G i) (H i) := by
  have sg : ∀ {F : X → K} {x : PyExpr K}, L.Holds x F → L.Holds (const 1 - const 2 * PyExpr.un sign x) fun i => lit 1 ⊟ lit 2 ⊠ sign (F i) :=
    fun h => ((h.un sign).numL false mul (lit 2)).numL false sub (lit 1)
  have ab : ∀ {F : X → K} {x : PyExpr K}, L.Holds x F → L.Holds (PyExpr.un Machine.abs x) fun i => Machine.abs (F i) := fun h => h.un _
  have m := ((ab hx).bin minof (ab hy)).bin minof (ab hw)
  have u := (((sg hx).bin add (sg hy)).un Machine.abs).numL false mul (lit (1 / 4))
  exact (u.bin mul ((sg hx).bin add (sg hw))).bin mul m

theorem slopeMinmod_holds (h : L.Holds x F) : L.Holds (PyExpr.slopeMinmod x axis) fun i =>
    let fPlus := F (T (-1) i)
    let fMinus := F (T 1 i)
    let forward := fPlus ⊟ F i
    let backward := F i ⊟ fMinus
    Mach.minmod (lit 2 ⊠ backward) (lit (1 / 2) ⊠ (backward ⊞ forward)) (lit 2 ⊠ forward) := by
  have hf := (hT.shiftAlong h (-1)).bin sub h
  have hb := h.bin sub (hT.shiftAlong h 1)
  exact minmod_holds hT (hb.numL false mul (lit 2)) ((hb.bin add hf).numL false mul (lit (1 / 2))) (hf.numL false mul (lit 2))

omit hT in
theorem ppmDQ_holds {D d d' : X → K} {xD xd xd' : PyExpr K} (hD : L.Holds xD D) (hd : L.Holds xd d) (hd' : L.Holds xd' d') :
    L.Holds (PyExpr.ppmDQ xD xd xd') fun i => Mach.ppmDQ (D i) (d i) (d' i) := by
  have cz : L.Holds (leq (xd' * xd) (const 0)) fun i => ofBool (le (d' i ⊠ d i) (lit 0)) :=
    (hd'.bin mul hd).numR false (fun a b => ofBool (le a b)) (lit 0)
  have sg : L.Holds (less (const 0) xD * const 2 - const 1) fun i => ofBool (lt (lit 0) (D i)) ⊠ lit 2 ⊟ lit 1 :=
    ((hD.numL false (fun a b => ofBool (lt a b)) (lit 0)).numR false mul (lit 2)).numR false sub (lit 1)
  exact ((cz.numL false sub (lit 1)).bin mul sg).bin mul ((hD.un Machine.abs).bin minof ((hd.un Machine.abs).bin minof (hd'.un Machine.abs)))

theorem reconstructPPM_holds (h : L.Holds x F) :
    L.Holds (PyExpr.reconstructPPM x axis).1 (fun i => (Mach.ppmCell (F (T 2 i)) (F (T 1 i)) (F i) (F (T (-1) i)) (F (T (-2) i))).1) ∧
    L.Holds (PyExpr.reconstructPPM x axis).2 (fun i => (Mach.ppmCell (F (T 2 i)) (F (T 1 i)) (F i) (F (T (-1) i)) (F (T (-2) i))).2) := by
  have y0 := hT.shiftAlong h 2
  have y1 := hT.shiftAlong h 1
  have y3 := hT.shiftAlong h (-1)
  have y4 := hT.shiftAlong h (-2)
  have d0 := (y1.bin sub y0).numL false mul (lit 2)
  have d1 := (h.bin sub y1).numL false mul (lit 2)
  have d2 := (y3.bin sub h).numL false mul (lit 2)
  have d3 := (y4.bin sub y3).numL false mul (lit 2)
  have D1 := (h.bin sub y0).numL false mul (lit (1 / 2))
  have D2 := (y3.bin sub y1).numL false mul (lit (1 / 2))
  have D3 := (y4.bin sub h).numL false mul (lit (1 / 2))
  have DQ1 := ppmDQ_holds D1 d0 d1
  have DQ2 := ppmDQ_holds D2 d1 d2
  have DQ3 := ppmDQ_holds D3 d2 d3
  have Lv := ((h.bin add y1).numL false mul (lit (1 / 2))).bin sub ((DQ2.bin sub DQ1).numR false div (lit 6))
  have Rv := ((y3.bin add h).numL false mul (lit (1 / 2))).bin sub ((DQ3.bin sub DQ2).numR false div (lit 6))
  have corr1 := ((Rv.bin sub h).bin mul (h.bin sub Lv)).numR false (fun a b => ofBool (le a b)) (lit 0)
  have qd := Rv.bin sub Lv
  have qe := (h.bin sub ((Rv.bin add Lv).numL false mul (lit (1 / 2)))).numL false mul (lit 6)
  have corr2 := (qd.bin mul (qd.bin sub qe)).numR false (fun a b => ofBool (lt a b)) (lit 0)
  have corr3 := (qd.bin mul (qd.bin add qe)).numR false (fun a b => ofBool (lt a b)) (lit 0)
  have n1 := corr1.numL false sub (lit 1)
  have n2 := corr2.numL false sub (lit 1)
  have n3 := corr3.numL false sub (lit 1)
  have L1 := (Lv.bin mul n1).bin add (corr1.bin mul h)
  have R1 := (Rv.bin mul n1).bin add (corr1.bin mul h)
  have L2 := (L1.bin mul n2).bin add (corr2.bin mul ((h.numL false mul (lit 3)).bin sub (R1.numL false mul (lit 2))))
  have R2 := ((R1.bin mul corr2).bin add ((n2.bin mul R1).bin mul n3)).bin add
    ((n2.bin mul corr3).bin mul ((h.numL false mul (lit 3)).bin sub (L2.numL false mul (lit 2))))
  exact ⟨L2, R2⟩

end axis

/-! ### Upwinding -/

section riemann
open PyExpr

theorem shape2_getD (a : AfArray K) : a.shape2.getD 1 = a.d2 := by
  unfold AfArray.shape2 AfArray.numdims; split_ifs <;> simp_all

theorem shape3_getD (a : AfArray K) : a.shape3.getD 1 = a.d3 := by
  unfold AfArray.shape3 AfArray.numdims; split_ifs <;> simp_all

theorem shape2_none {a : AfArray K} (h : a.shape2 = none) : a.d2 = 1 ∧ a.d3 = 1 := by
  unfold AfArray.shape2 AfArray.numdims at h; split_ifs at h <;> simp_all

theorem shape2_small {a : AfArray K} (h2 : a.d2 = 1) (h3 : a.d3 = 1) : a.shape2 = none := by
  unfold AfArray.shape2 AfArray.numdims; split_ifs <;> simp_all

theorem tile_holds {L L₁ : Lay X} (hL : L.Ok) (hL₁ : L₁.Ok) (e0 : L₁.d0 = L.d0 ∧ L₁.i0 = L.i0) (e1 : L₁.d1 = L.d1 ∧ L₁.i1 = L.i1)
    (e2 : (L₁.d2 = L.d2 ∧ L₁.i2 = L.i2) ∨ L₁.d2 = 1) (e3 : (L₁.d3 = L.d3 ∧ L₁.i3 = L.i3) ∨ L₁.d3 = 1) {n2 n3 : ℕ}
    (m2 : L₁.d2 * n2 = L.d2) (m3 : L₁.d3 * n3 = L.d3) {a : AfArray K} {C : X → K} (h : L₁.Holds (.ok (.arr a)) C) :
    L.Holds (.ok (.arr (a.tile 1 1 n2 n3))) C := by
  obtain ⟨a', ha, h0, h1, h2, h3, hg⟩ := h
  have : a = a' := by injection ha with ha; injection ha
  subst this
  have key : ∀ {d e i j : ℕ}, j < d → i < e → ((d = e ∧ j = i) ∨ d = 1) → i % d = j := by
    rintro d e i j hj hi (⟨rfl, rfl⟩ | rfl)
    · exact Nat.mod_eq_of_lt hj
    · omega
  refine ⟨a.tile 1 1 n2 n3, rfl, ?_, ?_, ?_, ?_, fun i => ?_⟩
  · change a.d0 * 1 = _; rw [h0, mul_one, e0.1]
  · change a.d1 * 1 = _; rw [h1, mul_one, e1.1]
  · change a.d2 * n2 = _; rw [h2, m2]
  · change a.d3 * n3 = _; rw [h3, m3]
  · unfold AfArray.tile
    rw [h0, h1, h2, h3, m2, m3, mul_one, mul_one, e0.1, e1.1, AfArray.get_ofFn _ _ _ _ _ _ _ _ _ (hL.h0 i) (hL.h1 i) (hL.h2 i), ← hg i,
      key (hL.h0 i) (hL.h0 i) (.inl ⟨rfl, rfl⟩), key (hL.h1 i) (hL.h1 i) (.inl ⟨rfl, rfl⟩),
      key (hL₁.h2 i) (hL.h2 i) (e2.imp (fun h => ⟨h.1, congrFun h.2 i⟩) id), key (hL₁.h3 i) (hL.h3 i) (e3.imp (fun h => ⟨h.1, congrFun h.2 i⟩) id),
      congrFun e0.2 i, congrFun e1.2 i]

/-- How a velocity array may be stored next to an array stored by `L`. -/
structure VelLay (L₁ L : Lay X) : Prop where
  ok : L₁.Ok
  e0 : L₁.d0 = L.d0 ∧ L₁.i0 = L.i0
  e1 : L₁.d1 = L.d1 ∧ L₁.i1 = L.i1
  full : L₁ = L ∨ (L₁.d2 = 1 ∧ L₁.d3 = 1)

theorem VelLay.sub {L₁ L : Lay X} (h : VelLay L₁ L) : L₁.Sub L := by
  rcases h.full with rfl | ⟨h2, h3⟩
  · exact .refl _
  · exact ⟨.inl h.e0, .inl h.e1, .inr h2, .inr h3⟩

variable [Machine K]

theorem riemann_holds {L L₁ : Lay X} (hL : L.Ok) (v : VelLay L₁ L) {x y c : PyExpr K} {F G C : X → K} (hx : L.Holds x F) (hy : L.Holds y G)
    (hc : L₁.Holds c C) : L.Holds (PyExpr.riemann x y c) fun i => if lt (lit 0) (C i) then F i else G i := by
  obtain ⟨a, rfl, h0, h1, h2, h3, hg⟩ := hx
  obtain ⟨b, rfl, k0, k1, k2, k3, kg⟩ := hy
  obtain ⟨w, rfl, w0, w1, w2, w3, wg⟩ := hc
  -- the velocity after tiling
  have key : L.Holds (.ok (.arr (if w.shape2 ≠ none ∧ w.shape2 = a.shape2 then w else w.tile 1 1 (a.shape2.getD 1) (a.shape3.getD 1)))) C := by
    rw [shape2_getD, shape3_getD]
    rcases v.full with rfl | ⟨s2, s3⟩
    · have hs : w.shape2 = a.shape2 := by
        unfold AfArray.shape2 AfArray.numdims; rw [w1, w2, w3, h1, h2, h3]
      by_cases hn : w.shape2 = none
      · obtain ⟨n2, n3⟩ := shape2_none hn
        rw [if_neg fun h => h.1 hn]
        refine tile_holds hL hL ⟨rfl, rfl⟩ ⟨rfl, rfl⟩ (.inl ⟨rfl, rfl⟩) (.inl ⟨rfl, rfl⟩) ?_ ?_ ⟨w, rfl, w0, w1, w2, w3, wg⟩
        · rw [h2, ← w2, n2]
        · rw [h3, ← w3, n3]
      · rw [if_pos ⟨hn, hs⟩]
        exact ⟨w, rfl, w0, w1, w2, w3, wg⟩
    · rw [if_neg fun h => h.1 (shape2_small (w2.trans s2) (w3.trans s3))]
      exact tile_holds hL v.ok v.e0 v.e1 (.inr s2) (.inr s3) (by rw [s2, one_mul, h2]) (by rw [s3, one_mul, h3]) ⟨w, rfl, w0, w1, w2, w3, wg⟩
  change L.Holds (Except.map PyVal.arr (AfArray.select (AfArray.map _
    (if w.shape2 ≠ none ∧ w.shape2 = a.shape2 then w else w.tile 1 1 (a.shape2.getD 1) (a.shape3.getD 1))) a b)) _
  generalize (if w.shape2 ≠ none ∧ w.shape2 = a.shape2 then w else w.tile 1 1 (a.shape2.getD 1) (a.shape3.getD 1)) = u at key
  obtain ⟨u', hu, u0, u1, u2, u3, ug⟩ := key
  have : u = u' := by injection hu with hu; injection hu
  subst this
  refine ⟨⟨a.d0, a.d1, a.d2, a.d3, fun n => if lt (lit 0) (u.data n) then a.data n else b.data n⟩, ?_, h0, h1, h2, h3, fun i => ?_⟩
  · rw [AfArray.select, if_pos]
    · rfl
    · exact ⟨u0.trans h0.symm, u1.trans h1.symm, u2.trans h2.symm, u3.trans h3.symm, h0.trans k0.symm, h1.trans k1.symm, h2.trans k2.symm, h3.trans k3.symm⟩
  · beta_reduce
    rw [← hg i, ← kg i, ← ug i]
    simp only [AfArray.get, h0, h1, h2, k0, k1, k2, u0, u1, u2]

/-- `multiply` of two arrays, where `1 * x` is `x`. -/
theorem multiply2_holds [Nonempty X] (hone : ∀ u : K, lit 1 ⊠ u = u) {L L₁ L₂ : Lay X} (hL : L.Ok) (h1 : L₁.Ok) (h2 : L₂.Ok)
    (s : (L₁ = L ∧ L₂.Sub L) ∨ (L₁.Sub L ∧ L₂ = L)) {x y : PyExpr K} {F G : X → K} (hx : L₁.Holds x F) (hy : L₂.Holds y G) :
    L.Holds (multiply [x, y]) fun i => F i ⊠ G i := by
  have hx' : L₁.Holds (PyExpr.bin true mul (const 1) x) F := (hx.numL true mul (lit 1)).congr fun i => hone _
  rcases s with ⟨rfl, s⟩ | ⟨s, rfl⟩
  · exact hx'.batchR hL h2 s mul hy
  · exact hx'.batchL hL h1 s mul hy

end riemann

/-! ### Fluxes along one axis -/

/-- Shifting along the axis is moving by multiples of `e` in `I`; `fib i` is the function on the line through `i`. -/
structure Line {I : Type} [AddCommGroup I] (T : ℤ → X → X) (e : I) (pos : X → I) : Prop where
  pos_T : ∀ k i, pos (T k i) = pos i - k • e

section flux
open PyExpr
variable [Machine K] {I : Type} [AddCommGroup I] {L L₁ : Lay X} {axis : Fin 4} {T : ℤ → X → X} (hT : Moves L axis T) {e : I} {pos : X → I}
  (hl : Line T e pos) {fib Cfib : X → I → K} (hf : ∀ k i, fib (T k i) = fib i) (hC : ∀ k i, Cfib (T k i) = Cfib i) {x c : PyExpr K}
include hT hl hf

theorem reconstruct_holds {method : String} {m : Recon} (hm : reconMethod method = .ok m) (h : L.Holds x fun i => fib i (pos i)) :
    L.Holds (PyExpr.reconstruct method x axis).1 (fun i => (Mach.reconFaces m e (fib i)).1 (pos i)) ∧
    L.Holds (PyExpr.reconstruct method x axis).2 (fun i => (Mach.reconFaces m e (fib i)).2 (pos i)) := by
  unfold PyExpr.reconstruct
  rw [hm]
  cases m with
  | piecewiseConstant => exact ⟨h, h⟩
  | minmod =>
    have s := slopeMinmod_holds hT h
    simp only [hf, hl.pos_T] at s
    exact ⟨h.bin sub (s.numL false mul (lit (1 / 2))), h.bin add (s.numL false mul (lit (1 / 2)))⟩
  | ppm =>
    have s := reconstructPPM_holds hT h
    simp only [hf, hl.pos_T] at s
    exact s

theorem arrLeftState_holds (v : VelLay L₁ L) {method : String} {m : Recon}
    (hm : reconMethod method = .ok m) (h : L.Holds x fun i => fib i (pos i)) (hc : L₁.Holds c fun i => Cfib i (pos i)) :
    L.Holds (arrLeftState method axis c x) fun i => Mach.leftState m e (Cfib i) (fib i) (pos i) := by
  obtain ⟨r1, r2⟩ := reconstruct_holds hT hl hf hm h
  have r2' := hT.shiftAlong r2 1
  simp only [hf, hl.pos_T] at r2'
  exact riemann_holds hT.ok v r2' r1 hc

include hC in
theorem arrLeftFlux_holds [Nonempty X] (hone : ∀ u : K, lit 1 ⊠ u = u) (v : VelLay L₁ L) {method : String} {m : Recon}
    (hm : reconMethod method = .ok m) (h : L.Holds x fun i => fib i (pos i)) (hc : L₁.Holds c fun i => Cfib i (pos i)) :
    L.Holds (arrLeftFlux method axis c x) fun i => Mach.leftFlux m e (Cfib i) (fib i) (pos i) := by
  have st := arrLeftState_holds hT hl hf v hm h hc
  exact multiply2_holds hone hT.ok v.ok hT.ok (.inr ⟨v.sub, rfl⟩) hc st

end flux

/-! ### The layouts of the program -/

section layouts
variable (z : GridSizes) [NeZero z.Np1] [NeZero z.Np2] [NeZero z.Np3] [NeZero z.M1] [NeZero z.M2]

omit [NeZero z.M1] [NeZero z.M2] in
theorem row_lt (p : z.P) : z.row p < z.Np1 * z.Np2 * z.Np3 := by
  have := AfArray.offset_lt (d3 := 1) (l := 0) (ZMod.val_lt p.1) (ZMod.val_lt p.2.1) (ZMod.val_lt p.2.2) Nat.one_pos
  simpa [AfArray.offset, GridSizes.row] using this

theorem qExpanded_ok : (qExpanded z).Ok := ⟨fun x => row_lt z x.2.1, fun x => x.1.2, fun x => ZMod.val_lt _, fun x => ZMod.val_lt _⟩

theorem pExpanded_ok : (pExpanded z).Ok := by
  refine ⟨fun x => ZMod.val_lt _, fun x => ZMod.val_lt _, fun x => ZMod.val_lt _, fun x => ?_⟩
  have := AfArray.offset_lt (d3 := 1) (l := 0) x.1.2 (ZMod.val_lt x.2.2.1) (ZMod.val_lt x.2.2.2) Nat.one_pos
  simpa [AfArray.offset, pExpanded] using this

theorem momentumOnly_ok : (momentumOnly z).Ok := ⟨fun x => row_lt z x.2.1, fun x => x.1.2, fun _ => Nat.one_pos, fun _ => Nat.one_pos⟩

omit [NeZero z.Np1] [NeZero z.Np2] [NeZero z.Np3] [NeZero z.M1] [NeZero z.M2] in
theorem speciesOnly_ok : (speciesOnly z).Ok := ⟨fun _ => Nat.one_pos, fun x => x.1.2, fun _ => Nat.one_pos, fun _ => Nat.one_pos⟩

theorem momentumOnly_vel : VelLay (momentumOnly z) (qExpanded z) := ⟨momentumOnly_ok z, ⟨rfl, rfl⟩, ⟨rfl, rfl⟩, .inr ⟨rfl, rfl⟩⟩

theorem VelLay.refl {L : Lay X} (h : L.Ok) : VelLay L L := ⟨h, ⟨rfl, rfl⟩, ⟨rfl, rfl⟩, .inl rfl⟩

omit [NeZero z.Np1] [NeZero z.Np2] [NeZero z.Np3] [NeZero z.M1] [NeZero z.M2] in
theorem speciesOnly_sub : (speciesOnly z).Sub (qExpanded z) := ⟨.inr rfl, .inl ⟨rfl, rfl⟩, .inr rfl, .inr rfl⟩

theorem moves_q1 : Moves (qExpanded z) 2 fun k x => (x.1, x.2.1, x.2.2 - k • (1, 0)) := by
  have ok := qExpanded_ok z
  refine ⟨ok, fun k x => ?_, fun k x => ?_, fun k x => ?_, fun k x => ?_⟩
  · rw [if_neg (by decide)]; exact wrap_zero (ok.h0 x)
  · rw [if_neg (by decide)]; exact wrap_zero (ok.h1 x)
  · rw [if_pos rfl]; refine (wrap_zmod _ _).trans ?_; simp [qExpanded]
  · rw [if_neg (by decide)]; refine (wrap_zero (ok.h3 x)).trans ?_; simp [qExpanded]

theorem moves_q2 : Moves (qExpanded z) 3 fun k x => (x.1, x.2.1, x.2.2 - k • (0, 1)) := by
  have ok := qExpanded_ok z
  refine ⟨ok, fun k x => ?_, fun k x => ?_, fun k x => ?_, fun k x => ?_⟩
  · rw [if_neg (by decide)]; exact wrap_zero (ok.h0 x)
  · rw [if_neg (by decide)]; exact wrap_zero (ok.h1 x)
  · rw [if_neg (by decide)]; refine (wrap_zero (ok.h2 x)).trans ?_; simp [qExpanded]
  · rw [if_pos rfl]; refine (wrap_zmod _ _).trans ?_; simp [qExpanded]

theorem moves_p1 : Moves (pExpanded z) 0 fun k x => (x.1, x.2.1 - k • (1, 0, 0), x.2.2) := by
  have ok := pExpanded_ok z
  refine ⟨ok, fun k x => ?_, fun k x => ?_, fun k x => ?_, fun k x => ?_⟩
  · rw [if_pos rfl]; refine (wrap_zmod _ _).trans ?_; simp [pExpanded]
  · rw [if_neg (by decide)]; refine (wrap_zero (ok.h1 x)).trans ?_; simp [pExpanded]
  · rw [if_neg (by decide)]; refine (wrap_zero (ok.h2 x)).trans ?_; simp [pExpanded]
  · rw [if_neg (by decide)]; exact wrap_zero (ok.h3 x)

theorem moves_p2 : Moves (pExpanded z) 1 fun k x => (x.1, x.2.1 - k • (0, 1, 0), x.2.2) := by
  have ok := pExpanded_ok z
  refine ⟨ok, fun k x => ?_, fun k x => ?_, fun k x => ?_, fun k x => ?_⟩
  · rw [if_neg (by decide)]; refine (wrap_zero (ok.h0 x)).trans ?_; simp [pExpanded]
  · rw [if_pos rfl]; refine (wrap_zmod _ _).trans ?_; simp [pExpanded]
  · rw [if_neg (by decide)]; refine (wrap_zero (ok.h2 x)).trans ?_; simp [pExpanded]
  · rw [if_neg (by decide)]; exact wrap_zero (ok.h3 x)

theorem moves_p3 : Moves (pExpanded z) 2 fun k x => (x.1, x.2.1 - k • (0, 0, 1), x.2.2) := by
  have ok := pExpanded_ok z
  refine ⟨ok, fun k x => ?_, fun k x => ?_, fun k x => ?_, fun k x => ?_⟩
  · rw [if_neg (by decide)]; refine (wrap_zero (ok.h0 x)).trans ?_; simp [pExpanded]
  · rw [if_neg (by decide)]; refine (wrap_zero (ok.h1 x)).trans ?_; simp [pExpanded]
  · rw [if_pos rfl]; refine (wrap_zmod _ _).trans ?_; simp [pExpanded]
  · rw [if_neg (by decide)]; exact wrap_zero (ok.h3 x)

variable {z}

theorem toP_holds [Machine K] {x : PyExpr K} {F : z.Cell → K} (h : (qExpanded z).Holds x F) : (pExpanded z).Holds (x.toP z) F := by
  obtain ⟨a, rfl, h0, h1, h2, h3, hg⟩ := h
  have e : convertToPExpanded z a = .ok ⟨z.Np1, z.Np2, z.Np3, z.Ns * z.M1 * z.M2, a.data⟩ := by
    unfold convertToPExpanded AfArray.moddims
    rw [if_pos]
    simp only [AfArray.size, h0, h1, h2, h3, qExpanded]; ring
  refine ⟨⟨z.Np1, z.Np2, z.Np3, z.Ns * z.M1 * z.M2, a.data⟩, ?_, rfl, rfl, rfl, rfl, fun x => ?_⟩
  · change Except.map PyVal.arr (convertToPExpanded z a) = _
    rw [e]; rfl
  · rw [← hg x]
    simp only [AfArray.get, AfArray.offset, h0, h1, h2, qExpanded, pExpanded, GridSizes.row]
    congr 1; ring

theorem toQ_holds [Machine K] {x : PyExpr K} {F : z.Cell → K} (h : (pExpanded z).Holds x F) : (qExpanded z).Holds (x.toQ z) F := by
  obtain ⟨a, rfl, h0, h1, h2, h3, hg⟩ := h
  have e : convertToQExpanded z a = .ok ⟨z.Np1 * z.Np2 * z.Np3, z.Ns, z.M1, z.M2, a.data⟩ := by
    unfold convertToQExpanded AfArray.moddims
    rw [if_pos]
    simp only [AfArray.size, h0, h1, h2, h3, pExpanded]; ring
  refine ⟨⟨z.Np1 * z.Np2 * z.Np3, z.Ns, z.M1, z.M2, a.data⟩, ?_, rfl, rfl, rfl, rfl, fun x => ?_⟩
  · change Except.map PyVal.arr (convertToQExpanded z a) = _
    rw [e]; rfl
  · rw [← hg x]
    simp only [AfArray.get, AfArray.offset, h0, h1, h2, qExpanded, pExpanded, GridSizes.row]
    congr 1; ring

end layouts

/-! ### The slope -/

section slope
open PyExpr
variable {z : GridSizes} [NeZero z.Np1] [NeZero z.Np2] [NeZero z.Np3] [NeZero z.M1] [NeZero z.M2] [NeZero z.Ns] [Machine K]

instance : Nonempty z.Cell := ⟨(0, 0, 0)⟩

theorem arrLeftFlux_error {method : String} {er : PyErr} (hm : reconMethod method = .error er) (axis : Fin 4) {c f : PyExpr K} {w : AfArray K}
    (hc : c = .ok (.arr w)) : arrLeftFlux method axis c f = .error er := by
  subst hc
  unfold arrLeftFlux arrLeftState PyExpr.reconstruct
  rw [hm]; rfl

/-- The q-space part. -/
theorem arrQ_holds (hone : ∀ u : K, lit 1 ⊠ u = u) {method : String} {m : Recon} (hm : reconMethod method = .ok m) (dq1 dq2 : K)
    {c1 c2 x : PyExpr K} {C1 C2 f : Dist (Fin z.Ns) z.P z.Q K}
    (h1 : HoldsDist c1 C1 ∨ (momentumOnly z).Holds c1 fun y => C1 y.1 y.2.1 y.2.2)
    (h2 : HoldsDist c2 C2 ∨ (momentumOnly z).Holds c2 fun y => C2 y.1 y.2.1 y.2.2) (h : HoldsDist x f) :
    (qExpanded z).Holds (-((arrLeftFlux method 2 c1 x).shift 0 0 (-1) 0 - arrLeftFlux method 2 c1 x) / num dq1 -
        ((arrLeftFlux method 3 c2 x).shift 0 0 0 (-1) - arrLeftFlux method 3 c2 x) / num dq2)
      fun y => Mach.dfdtQ z.axes m dq1 dq2 C1 C2 f y.1 y.2.1 y.2.2 := by
  have l1 : (qExpanded z).Holds (arrLeftFlux method 2 c1 x) fun y => Mach.leftFlux m z.axes.q1 (C1 y.1 y.2.1) (f y.1 y.2.1) y.2.2 := by
    rcases h1 with h1 | h1
    · exact arrLeftFlux_holds (moves_q1 z) (e := ((1, 0) : z.Q)) (pos := fun y => y.2.2) ⟨fun _ _ => rfl⟩ (fib := fun y => f y.1 y.2.1)
        (Cfib := fun y => C1 y.1 y.2.1) (fun _ _ => rfl) (fun _ _ => rfl) hone (.refl (qExpanded_ok z)) hm h h1
    · exact arrLeftFlux_holds (moves_q1 z) (e := ((1, 0) : z.Q)) (pos := fun y => y.2.2) ⟨fun _ _ => rfl⟩ (fib := fun y => f y.1 y.2.1)
        (Cfib := fun y => C1 y.1 y.2.1) (fun _ _ => rfl) (fun _ _ => rfl) hone (momentumOnly_vel z) hm h h1
  have l2 : (qExpanded z).Holds (arrLeftFlux method 3 c2 x) fun y => Mach.leftFlux m z.axes.q2 (C2 y.1 y.2.1) (f y.1 y.2.1) y.2.2 := by
    rcases h2 with h2 | h2
    · exact arrLeftFlux_holds (moves_q2 z) (e := ((0, 1) : z.Q)) (pos := fun y => y.2.2) ⟨fun _ _ => rfl⟩ (fib := fun y => f y.1 y.2.1)
        (Cfib := fun y => C2 y.1 y.2.1) (fun _ _ => rfl) (fun _ _ => rfl) hone (.refl (qExpanded_ok z)) hm h h2
    · exact arrLeftFlux_holds (moves_q2 z) (e := ((0, 1) : z.Q)) (pos := fun y => y.2.2) ⟨fun _ _ => rfl⟩ (fib := fun y => f y.1 y.2.1)
        (Cfib := fun y => C2 y.1 y.2.1) (fun _ _ => rfl) (fun _ _ => rfl) hone (momentumOnly_vel z) hm h h2
  have r1 := (moves_q1 z).shiftAlong l1 (-1)
  have r2 := (moves_q2 z).shiftAlong l2 (-1)
  exact ((((r1.bin sub l1).un neg).numR false div dq1).bin sub ((r2.bin sub l2).numR false div dq2))

/-- One of the p-space terms. -/
theorem arrP_holds (hone : ∀ u : K, lit 1 ⊠ u = u) {method : String} {m : Recon} (hm : reconMethod method = .ok m) {axis : Fin 4} {e : z.P}
    (hT : Moves (pExpanded z) axis fun k x => (x.1, x.2.1 - k • e, x.2.2)) {c x d : PyExpr K} {C f : Dist (Fin z.Ns) z.P z.Q K} {dp : Fin z.Ns → K}
    (hc : HoldsDist c C) (h : HoldsDist x f) (hd : (speciesOnly z).Holds d fun y => dp y.1) :
    (qExpanded z).Holds (multiply [toQ z ((arrLeftFlux method axis (toP z c) (toP z x)).shiftAlong axis (-1)) -
        toQ z (arrLeftFlux method axis (toP z c) (toP z x)), const 1 / d]) fun y => Mach.dFluxP m e dp C f y.1 y.2.1 y.2.2 := by
  have l := arrLeftFlux_holds hT (e := e) (pos := fun y => y.2.1) ⟨fun _ _ => rfl⟩ (fib := fun y p => f y.1 p y.2.2)
        (Cfib := fun y p => C y.1 p y.2.2) (fun _ _ => rfl) (fun _ _ => rfl) hone (.refl (pExpanded_ok z)) hm (toP_holds h) (toP_holds hc)
  have r := hT.shiftAlong l (-1)
  exact multiply2_holds hone (qExpanded_ok z) (qExpanded_ok z) (speciesOnly_ok z) (.inl ⟨rfl, speciesOnly_sub z⟩)
    ((toQ_holds r).bin sub (toQ_holds l)) (hd.numL false div (lit 1))

theorem arrDfdt_ok (hone : ∀ u : K, lit 1 ⊠ u = u) (cfg : FVMConfig (Fin z.Ns) K) (x : ArrIn K) (cb : Callbacks (Fin z.Ns) z.P z.Q K)
    (m : PyExpr K) (f k : Dist (Fin z.Ns) z.P z.Q K) (hf : HoldsDist m f) (hin : InputsHold cfg x cb f)
    (hon : cfg.solverMethodInQ = "FVM" ∨ (cfg.solverMethodInP = "FVM" ∧ cfg.fieldsEnabled = true))
    (hk : Mach.dfdtFVM z.axes cfg cb f = .ok k) : HoldsDist (arrDfdt z cfg x m) k := by
  unfold Mach.dfdtFVM at hk
  unfold arrDfdt arrDfdtQ
  dsimp only
  by_cases hq : cfg.solverMethodInQ = "FVM"
  · rw [if_pos hq] at hk ⊢
    obtain ⟨h1, h2, hs⟩ := hin.q hq
    cases hm : reconMethod cfg.reconstructionInQ with
    | error er => rw [hm] at hk; exact absurd hk (by split_ifs <;> exact fun h => by cases h)
    | ok mq =>
      rw [hm] at hk
      have hQ := (arrQ_holds hone hm cfg.dq1 cfg.dq2 h1 h2 hf).numL false add (lit 0)
      have hQ' : ∃ dfq : Dist (Fin z.Ns) z.P z.Q K, (if cfg.sourceEnabled = true then
          (pure fun s p q => lit 0 ⊞ Mach.dfdtQ z.axes mq cfg.dq1 cfg.dq2 cb.Cq1 cb.Cq2 f s p q ⊞ cb.source f s p q : Except PyErr (Dist (Fin z.Ns) z.P z.Q K))
          else pure fun s p q => lit 0 ⊞ Mach.dfdtQ z.axes mq cfg.dq1 cfg.dq2 cb.Cq1 cb.Cq2 f s p q) = .ok dfq ∧
          HoldsDist (if cfg.sourceEnabled = true then const 0 +
            (-((arrLeftFlux cfg.reconstructionInQ 2 x.Cq1 m).shift 0 0 (-1) 0 - arrLeftFlux cfg.reconstructionInQ 2 x.Cq1 m) / num cfg.dq1 -
              ((arrLeftFlux cfg.reconstructionInQ 3 x.Cq2 m).shift 0 0 0 (-1) - arrLeftFlux cfg.reconstructionInQ 3 x.Cq2 m) / num cfg.dq2) + x.source
            else const 0 +
            (-((arrLeftFlux cfg.reconstructionInQ 2 x.Cq1 m).shift 0 0 (-1) 0 - arrLeftFlux cfg.reconstructionInQ 2 x.Cq1 m) / num cfg.dq1 -
              ((arrLeftFlux cfg.reconstructionInQ 3 x.Cq2 m).shift 0 0 0 (-1) - arrLeftFlux cfg.reconstructionInQ 3 x.Cq2 m) / num cfg.dq2)) dfq := by
        by_cases hs' : cfg.sourceEnabled = true
        · rw [if_pos hs', if_pos hs']
          exact ⟨_, rfl, hQ.bin add (hs hs')⟩
        · rw [if_neg hs', if_neg hs']
          exact ⟨_, rfl, hQ⟩
      obtain ⟨dfq, e1, e2⟩ := hQ'
      replace hk : (if cfg.solverMethodInP = "FVM" ∧ cfg.fieldsEnabled = true then
          reconMethod cfg.reconstructionInP >>= fun m => pure fun s p q => dfq s p q ⊞ Mach.dfdtP z.axes m cfg.dp1 cfg.dp2 cfg.dp3 cb.Cp1 cb.Cp2 cb.Cp3 f s p q
          else pure dfq : Except PyErr (Dist (Fin z.Ns) z.P z.Q K)) = .ok k := by
        by_cases hs' : cfg.sourceEnabled = true
        · rw [if_pos hs'] at e1; cases e1
          simp only [if_pos hs'] at hk; exact hk
        · rw [if_neg hs'] at e1; cases e1
          simp only [if_neg hs'] at hk; exact hk
      by_cases hp : cfg.solverMethodInP = "FVM" ∧ cfg.fieldsEnabled = true
      · rw [if_pos hp]
        rw [if_pos hp] at hk
        obtain ⟨c1, c2, c3, d1, d2, d3⟩ := hin.p hp
        cases hmp : reconMethod cfg.reconstructionInP with
        | error er => rw [hmp] at hk; exact absurd hk (fun h => by cases h)
        | ok mp =>
          rw [hmp] at hk
          cases hk
          exact e2.bin add ((((arrP_holds hone hmp (moves_p1 z) c1 hf d1).bin add (arrP_holds hone hmp (moves_p2 z) c2 hf d2)).bin add
            (arrP_holds hone hmp (moves_p3 z) c3 hf d3)).un neg)
      · rw [if_neg hp]
        rw [if_neg hp] at hk
        cases hk
        exact e2
  · rw [if_neg hq] at hk ⊢
    have hp := hon.resolve_left hq
    rw [if_pos hp]
    change (if cfg.solverMethodInP = "FVM" ∧ cfg.fieldsEnabled = true then _ else _ : Except PyErr (Dist (Fin z.Ns) z.P z.Q K)) = _ at hk
    rw [if_pos hp] at hk
    obtain ⟨c1, c2, c3, d1, d2, d3⟩ := hin.p hp
    cases hmp : reconMethod cfg.reconstructionInP with
    | error er => rw [hmp] at hk; exact absurd hk (fun h => by cases h)
    | ok mp =>
      rw [hmp] at hk
      cases hk
      exact ((((arrP_holds hone hmp (moves_p1 z) c1 hf d1).bin add (arrP_holds hone hmp (moves_p2 z) c2 hf d2)).bin add
        (arrP_holds hone hmp (moves_p3 z) c3 hf d3)).un neg).numL false add (lit 0)

theorem arrDfdtQ_isOk (hone : ∀ u : K, lit 1 ⊠ u = u) (cfg : FVMConfig (Fin z.Ns) K) (x : ArrIn K) (cb : Callbacks (Fin z.Ns) z.P z.Q K)
    (m : PyExpr K) (f : Dist (Fin z.Ns) z.P z.Q K) (hf : HoldsDist m f) (hin : InputsHold cfg x cb f)
    (hmq : ∃ mq, reconMethod cfg.reconstructionInQ = .ok mq) : ∃ v, arrDfdtQ cfg x m = .ok v := by
  unfold arrDfdtQ
  dsimp only
  by_cases hq : cfg.solverMethodInQ = "FVM"
  · rw [if_pos hq]
    obtain ⟨h1, h2, hs⟩ := hin.q hq
    obtain ⟨mq, hm⟩ := hmq
    have hQ := (arrQ_holds hone hm cfg.dq1 cfg.dq2 h1 h2 hf).numL false add (lit 0)
    by_cases hs' : cfg.sourceEnabled = true
    · rw [if_pos hs']
      obtain ⟨a, ha, -⟩ := hQ.bin add (hs hs')
      exact ⟨_, ha⟩
    · rw [if_neg hs']
      obtain ⟨a, ha, -⟩ := hQ
      exact ⟨_, ha⟩
  · rw [if_neg hq]; exact ⟨_, rfl⟩

/-- A velocity on the momentum cells only cannot be brought to p-expanded form. -/
theorem toP_small {c : PyExpr K} {C : z.Cell → K} (hc : (momentumOnly z).Holds c C) (hcells : 1 < z.M1 * z.M2) : c.toP z = .error .exception := by
  obtain ⟨a, rfl, h0, h1, h2, h3, -⟩ := hc
  change Except.map PyVal.arr (convertToPExpanded z a) = _
  have : convertToPExpanded z a = .error .exception := by
    unfold convertToPExpanded AfArray.moddims
    refine if_neg fun e => ?_
    simp only [AfArray.size, h0, h1, h2, h3, momentumOnly, mul_one] at e
    have hpos : 0 < z.Np1 * z.Np2 * z.Np3 * z.Ns :=
      Nat.mul_pos (Nat.mul_pos (Nat.mul_pos (NeZero.pos _) (NeZero.pos _)) (NeZero.pos _)) (NeZero.pos _)
    have e' : z.Np1 * z.Np2 * z.Np3 * z.Ns * (z.M1 * z.M2) = z.Np1 * z.Np2 * z.Np3 * z.Ns * 1 := by
      rw [mul_one]; exact Eq.trans (by ring) e.symm
    have := Nat.eq_of_mul_eq_mul_left hpos e'
    omega
  rw [this]; rfl

theorem HoldsDist.isArr {m : PyExpr K} {f : Dist (Fin z.Ns) z.P z.Q K} (h : HoldsDist m f) : ∃ a, m = .ok (.arr a) := by
  obtain ⟨a, ha, -⟩ := h; exact ⟨a, ha⟩

theorem arrDfdt_error (hone : ∀ u : K, lit 1 ⊠ u = u) (cfg : FVMConfig (Fin z.Ns) K) (x : ArrIn K) (cb : Callbacks (Fin z.Ns) z.P z.Q K)
    (m : PyExpr K) (f : Dist (Fin z.Ns) z.P z.Q K) (er : PyErr) (hf : HoldsDist m f) (hin : InputsHold cfg x cb f)
    (hk : Mach.dfdtFVM z.axes cfg cb f = .error er) : arrDfdt z cfg x m = .error er := by
  have velArr : ∀ {c : PyExpr K} {C : Dist (Fin z.Ns) z.P z.Q K}, (HoldsDist c C ∨ (momentumOnly z).Holds c fun y => C y.1 y.2.1 y.2.2) →
      ∃ a, c = .ok (.arr a) := by
    rintro c C (⟨a, h, -⟩ | ⟨a, h, -⟩) <;> exact ⟨a, h⟩
  have pArr : ∀ {c : PyExpr K} {C : Dist (Fin z.Ns) z.P z.Q K}, HoldsDist c C → ∃ a, c.toP z = .ok (.arr a) := by
    intro c C h
    obtain ⟨a, h, -⟩ := toP_holds h
    exact ⟨a, h⟩
  unfold Mach.dfdtFVM at hk
  unfold arrDfdt arrDfdtQ
  dsimp only
  have pErr : ∀ (dfv : PyExpr K) (v : PyVal K), dfv = .ok v → ∀ er', reconMethod cfg.reconstructionInP = .error er' →
      cfg.solverMethodInP = "FVM" ∧ cfg.fieldsEnabled = true →
      dfv + -(multiply [toQ z ((arrLeftFlux cfg.reconstructionInP 0 (toP z x.Cp1) (toP z m)).shift (-1) 0 0 0) -
                toQ z (arrLeftFlux cfg.reconstructionInP 0 (toP z x.Cp1) (toP z m)), const 1 / x.dp1] +
              multiply [toQ z ((arrLeftFlux cfg.reconstructionInP 1 (toP z x.Cp2) (toP z m)).shift 0 (-1) 0 0) -
                toQ z (arrLeftFlux cfg.reconstructionInP 1 (toP z x.Cp2) (toP z m)), const 1 / x.dp2] +
              multiply [toQ z ((arrLeftFlux cfg.reconstructionInP 2 (toP z x.Cp3) (toP z m)).shift 0 0 (-1) 0) -
                toQ z (arrLeftFlux cfg.reconstructionInP 2 (toP z x.Cp3) (toP z m)), const 1 / x.dp3]) = .error er' := by
    intro dfv v hv er' her hp
    obtain ⟨c1, c2, c3, -⟩ := hin.p hp
    obtain ⟨a1, h1⟩ := pArr c1
    rw [arrLeftFlux_error her 0 h1, hv]
    rfl
  by_cases hq : cfg.solverMethodInQ = "FVM"
  · rw [if_pos hq] at hk ⊢
    obtain ⟨h1, h2, hs⟩ := hin.q hq
    obtain ⟨w1, hw1⟩ := velArr h1
    cases hm : reconMethod cfg.reconstructionInQ with
    | error er' =>
      rw [hm] at hk
      cases hk
      rw [arrLeftFlux_error hm 2 hw1]
      split_ifs <;> rfl
    | ok mq =>
      rw [hm] at hk
      have hp : cfg.solverMethodInP = "FVM" ∧ cfg.fieldsEnabled = true := by
        by_contra hp
        by_cases hs' : cfg.sourceEnabled = true
        · simp only [if_pos hs', if_neg hp] at hk; cases hk
        · simp only [if_neg hs', if_neg hp] at hk; cases hk
      rw [if_pos hp]
      have her : reconMethod cfg.reconstructionInP = .error er := by
        cases hmp : reconMethod cfg.reconstructionInP with
        | error e => by_cases hs' : cfg.sourceEnabled = true
                     · simp only [if_pos hs', if_pos hp, hmp] at hk; cases hk; rfl
                     · simp only [if_neg hs', if_pos hp, hmp] at hk; cases hk; rfl
        | ok e => by_cases hs' : cfg.sourceEnabled = true
                  · simp only [if_pos hs', if_pos hp, hmp] at hk; cases hk
                  · simp only [if_neg hs', if_pos hp, hmp] at hk; cases hk
      have hQ := (arrQ_holds hone hm cfg.dq1 cfg.dq2 h1 h2 hf).numL false add (lit 0)
      by_cases hs' : cfg.sourceEnabled = true
      · rw [if_pos hs']
        obtain ⟨a, ha, -⟩ := hQ.bin add (hs hs')
        exact pErr _ _ ha er her hp
      · rw [if_neg hs']
        obtain ⟨a, ha, -⟩ := hQ
        exact pErr _ _ ha er her hp
  · rw [if_neg hq] at hk ⊢
    have hp : cfg.solverMethodInP = "FVM" ∧ cfg.fieldsEnabled = true := by
      by_contra hp
      simp only [if_neg hp] at hk; cases hk
    rw [if_pos hp]
    have her : reconMethod cfg.reconstructionInP = .error er := by
      cases hmp : reconMethod cfg.reconstructionInP with
      | error e => simp only [if_pos hp, hmp] at hk; cases hk; rfl
      | ok e => simp only [if_pos hp, hmp] at hk; cases hk
    exact pErr _ _ rfl er her hp

end slope

/-! ### Forces -/

section force
open PyExpr
variable {z : GridSizes} [NeZero z.Np1] [NeZero z.Np2] [NeZero z.Np3] [NeZero z.M1] [NeZero z.M2] [NeZero z.Ns] [Machine K]

theorem positionOnly_ok : (positionOnly z).Ok := ⟨fun _ => Nat.one_pos, fun _ => Nat.one_pos, fun _ => ZMod.val_lt _, fun _ => ZMod.val_lt _⟩

theorem positionOnly_sub : (positionOnly z).Sub (qExpanded z) := ⟨.inr rfl, .inr rfl, .inl ⟨rfl, rfl⟩, .inl ⟨rfl, rfl⟩⟩

theorem arrForce_holds {xe xm xE xva xBb xvb xBa : PyExpr K} {e m : Fin z.Ns → K} {va vb : Fin z.Ns → z.P → K} {E Bb Ba : z.Q → K}
    (he : (speciesOnly z).Holds xe fun y => e y.1) (hm : (speciesOnly z).Holds xm fun y => m y.1)
    (hE : (positionOnly z).Holds xE fun y => E y.2.2) (hva : (momentumOnly z).Holds xva fun y => va y.1 y.2.1)
    (hBb : (positionOnly z).Holds xBb fun y => Bb y.2.2) (hvb : (momentumOnly z).Holds xvb fun y => vb y.1 y.2.1)
    (hBa : (positionOnly z).Holds xBa fun y => Ba y.2.2) :
    HoldsDist (arrForce xe xm xE xva xBb xvb xBa) fun s p q => e s ⊘ m s ⊠ (E q ⊞ va s p ⊠ Bb q ⊟ vb s p ⊠ Ba q) := by
  have sb : (momentumOnly z).Sub (qExpanded z) := ⟨.inl ⟨rfl, rfl⟩, .inl ⟨rfl, rfl⟩, .inr rfl, .inr rfl⟩
  have prod : ∀ {x y : PyExpr K} {F G : z.Cell → K}, (momentumOnly z).Holds x F → (positionOnly z).Holds y G →
      (qExpanded z).Holds (bin true mul x y) fun i => F i ⊠ G i := fun hx hy =>
    hx.batch2 (qExpanded_ok z) (momentumOnly_ok z) positionOnly_ok sb positionOnly_sub (.inl rfl) (.inl rfl) (.inr rfl) (.inr rfl) mul hy
  have em := he.batchR (speciesOnly_ok z) (speciesOnly_ok z) (.refl _) div hm
  have s1 := hE.batchL (qExpanded_ok z) positionOnly_ok positionOnly_sub add (prod hva hBb)
  have s2 := s1.batchR (qExpanded_ok z) (qExpanded_ok z) (.refl _) Machine.sub (prod hvb hBa)
  exact em.batchL (qExpanded_ok z) (speciesOnly_ok z) (speciesOnly_sub z) mul s2

end force

/-! ### Moments -/

section moments
open PyExpr
variable {z : GridSizes} [NeZero z.Np1] [NeZero z.Np2] [NeZero z.Np3] [NeZero z.M1] [NeZero z.M2] [NeZero z.Ns] [Machine K]

omit [NeZero z.M1] [NeZero z.M2] [NeZero z.Ns] [NeZero z.Np1] [NeZero z.Np2] [NeZero z.Np3] in
theorem row_unrow {i : ℕ} (h : i < z.Np1 * z.Np2 * z.Np3) : z.row (z.unrow i) = i := by
  have h3 : i / z.Np1 / z.Np2 < z.Np3 := by
    rw [Nat.div_div_eq_div_mul]
    exact Nat.div_lt_of_lt_mul h
  simp only [GridSizes.row, GridSizes.unrow, ZMod.val_natCast]
  rw [Nat.mod_eq_of_lt h3, Nat.mod_add_div, Nat.mod_add_div]

omit [NeZero z.M1] [NeZero z.M2] [NeZero z.Ns] in
theorem unrow_row (p : z.P) : z.unrow (z.row p) = p := by
  have h1 := ZMod.val_lt p.1
  have h2 := ZMod.val_lt p.2.1
  simp only [GridSizes.row, GridSizes.unrow]
  rw [div_of_lt h1, div_of_lt h2]
  ext <;> simp

/-- `speciesOnly` for functions that do not depend on the momentum. -/
def speciesOnly' (z : GridSizes) : Lay (Fin z.Ns × z.Q) where
  d0 := 1
  d1 := z.Ns
  d2 := 1
  d3 := 1
  i0 _ := 0
  i1 x := x.1
  i2 _ := 0
  i3 _ := 0

theorem momentLay_ok : (momentLay z).Ok := ⟨fun _ => Nat.one_pos, fun x => x.1.2, fun _ => ZMod.val_lt _, fun _ => ZMod.val_lt _⟩

theorem speciesOnly'_ok : (speciesOnly' z).Ok := ⟨fun _ => Nat.one_pos, fun x => x.1.2, fun _ => Nat.one_pos, fun _ => Nat.one_pos⟩

theorem speciesOnly'_sub : (speciesOnly' z).Sub (momentLay z) := ⟨.inl ⟨rfl, rfl⟩, .inl ⟨rfl, rfl⟩, .inr rfl, .inr rfl⟩

theorem momentumOnly_sub : (momentumOnly z).Sub (qExpanded z) := ⟨.inl ⟨rfl, rfl⟩, .inl ⟨rfl, rfl⟩, .inr rfl, .inr rfl⟩

theorem speciesOnly_of {x : PyExpr K} {w : Fin z.Ns → K} (h : (speciesOnly z).Holds x fun y => w y.1) : (speciesOnly' z).Holds x fun y => w y.1 := by
  obtain ⟨a, rfl, h0, h1, h2, h3, hg⟩ := h
  exact ⟨a, rfl, h0, h1, h2, h3, fun y => hg (y.1, 0, y.2)⟩

instance : Nonempty (Fin z.Ns × z.Q) := ⟨(0, 0)⟩

theorem sum0_holds (red : List K → K) {x : PyExpr K} {F : Dist (Fin z.Ns) z.P z.Q K} (h : HoldsDist x F) :
    (momentLay z).Holds (x.onArr fun a => .ok (.arr (a.sum0 red))) fun y => (z.sums red).overP fun p => F y.1 p y.2 := by
  obtain ⟨a, rfl, h0, h1, h2, h3, hg⟩ := h
  refine ⟨a.sum0 red, rfl, rfl, h1, h2, h3, fun y => ?_⟩
  unfold AfArray.sum0
  rw [h0, h1, h2, h3, AfArray.get_ofFn _ _ _ _ _ _ _ _ _ (by exact Nat.one_pos) (by exact y.1.2) (by exact ZMod.val_lt y.2.1)]
  change red ((List.range (z.Np1 * z.Np2 * z.Np3)).map _) = red _
  congr 1
  refine List.map_congr_left fun i hi => ?_
  have := hg (y.1, z.unrow i, y.2)
  rw [← this]
  simp only [qExpanded, momentLay, row_unrow (List.mem_range.mp hi)]

theorem sum1_holds (red : List K → K) {x : PyExpr K} {G : Fin z.Ns × z.Q → K} (h : (momentLay z).Holds x G) :
    (fieldLay z).Holds (x.onArr fun a => .ok (.arr (a.sum1 red))) fun q => (z.sums red).overS fun s => G (s, q) := by
  obtain ⟨a, rfl, h0, h1, h2, h3, hg⟩ := h
  refine ⟨a.sum1 red, rfl, h0, rfl, h2, h3, fun q => ?_⟩
  unfold AfArray.sum1
  rw [h0, h1, h2, h3, AfArray.get_ofFn _ _ _ _ _ _ _ _ _ (by exact Nat.one_pos) (by exact Nat.one_pos) (by exact ZMod.val_lt q.1)]
  change red ((List.range z.Ns).map _) = red (List.ofFn _)
  congr 1
  refine List.ext_getElem (by simp) fun i hi hi' => ?_
  simp only [List.getElem_map, List.getElem_range, List.getElem_ofFn]
  exact hg (⟨i, by simpa using hi⟩, q)

theorem measure_holds {d1 d2 d3 : PyExpr K} {cfg : FVMConfig (Fin z.Ns) K} (h1 : (speciesOnly z).Holds d1 fun y => cfg.dp1 y.1)
    (h2 : (speciesOnly z).Holds d2 fun y => cfg.dp2 y.1) (h3 : (speciesOnly z).Holds d3 fun y => cfg.dp3 y.1) :
    (speciesOnly z).Holds (d3 * d2 * d1) fun y => Mach.measure cfg y.1 := (h3.bin mul h2).bin mul h1

theorem arrIntegral_holds (red : List K → K) {x w : PyExpr K} {F : Dist (Fin z.Ns) z.P z.Q K} {W : Fin z.Ns → K} (h : HoldsDist x F)
    (hw : (speciesOnly z).Holds w fun y => W y.1) :
    (momentLay z).Holds (arrIntegral red x w) fun y => (z.sums red).overP (fun p => F y.1 p y.2) ⊠ W y.1 :=
  (sum0_holds red h).batchR momentLay_ok speciesOnly'_ok speciesOnly'_sub mul (speciesOnly_of hw)

theorem arrMomV_holds (red : List K → K) {x v d1 d2 d3 : PyExpr K} {cfg : FVMConfig (Fin z.Ns) K} {F : Dist (Fin z.Ns) z.P z.Q K}
    {p : Fin z.Ns → z.P → K} (h : HoldsDist x F) (hv : (momentumOnly z).Holds v fun y => p y.1 y.2.1)
    (h1 : (speciesOnly z).Holds d1 fun y => cfg.dp1 y.1) (h2 : (speciesOnly z).Holds d2 fun y => cfg.dp2 y.1)
    (h3 : (speciesOnly z).Holds d3 fun y => cfg.dp3 y.1) :
    (momentLay z).Holds (arrMomV red d1 d2 d3 v x) fun y => Mach.momV (z.sums red) p (Mach.measure cfg) F y.1 y.2 := by
  have fv : HoldsDist (bin true mul x v) fun s p' q => F s p' q ⊠ p s p' := h.batchR (qExpanded_ok z) (momentumOnly_ok z) momentumOnly_sub mul hv
  exact arrIntegral_holds red fv (measure_holds h1 h2 h3)

theorem arrOfSpecies_holds (hone : ∀ u : K, lit 1 ⊠ u = u) (red : List K → K) {c x : PyExpr K} {G : Fin z.Ns → z.Q → K} {ch : Fin z.Ns → K}
    (hc : (speciesOnly z).Holds c fun y => ch y.1) (h : (momentLay z).Holds x fun y => G y.1 y.2) :
    (fieldLay z).Holds (arrOfSpecies red c x) fun q => (z.sums red).overS fun s => ch s ⊠ G s q :=
  sum1_holds red (multiply2_holds hone momentLay_ok speciesOnly'_ok momentLay_ok (.inr ⟨speciesOnly'_sub, rfl⟩) (speciesOnly_of hc) h)

end moments

end Bolt
