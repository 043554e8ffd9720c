import Verif.Proofs.FieldWalls
import Verif.Props.CoupledDecomp
import Verif.Props.Walls

/-!
# C68: walls of the electromagnetic fields
-/

set_option linter.unusedSectionVars false

namespace Bolt

section local_array
variable {M1 M2 : ℕ} [NeZero M1] [NeZero M2] {K : Type}

/-- C68: what the boundary condition of one wall writes.  Cells outside the ghost zones of that wall are never touched.  In the ghost
zones a Dirichlet wall puts the user's values for all six components; a mirror puts the value of the mirrored cell (without change of
sign) for the tangential electric field on the staggered grid, for every component on the cell-centred grid, and leaves the other
components alone; mirror+dirichlet applies the mirror first and then the user's values. -/
theorem C68_one_wall (env : FieldBCEnv M1 M2 K) (b : Bool) (w : Wall) (hw : fitsAcross M1 M2 env.g w) (F F' : EM (ZMod M1 × ZMod M2) K)
    (h : applyWallFields env b w F = .ok F') (c : Fin 6) (i : ZMod M1 × ZMod M2) :
    (¬ inSlab env.g w i → F'.comp c i = F.comp c i) ∧
    (inSlab env.g w i →
      (env.name w = "dirichlet" → F'.comp c i = env.user w c (F.comp c) i) ∧
      (env.name w = "mirror" → F'.comp c i = if reflected b w c = true then F.comp c (reflectCell env.g w i) else F.comp c i) ∧
      (env.name w = "mirror+dirichlet" → F'.comp c i = env.user w c
        (fun j => if inSlab env.g w j ∧ reflected b w c = true then F.comp c (reflectCell env.g w j) else F.comp c j) i) ∧
      (env.name w = "periodic" ∨ env.name w = "none" → F'.comp c i = F.comp c i)) := by
  unfold applyWallFields at h
  by_cases n1 : env.name w = "dirichlet"
  · simp only [n1, if_true, Except.ok.injEq] at h
    subst h
    refine ⟨fun hi => by rw [dirichletFields_comp, if_neg hi], fun hi => ⟨fun _ => by rw [dirichletFields_comp, if_pos hi], ?_, ?_, ?_⟩⟩ <;>
      simp [n1]
  by_cases n2 : env.name w = "mirror"
  · simp only [n2, reduceCtorEq, if_true, Except.ok.injEq] at h
    rw [if_neg (by decide), Except.ok.injEq] at h
    subst h
    refine ⟨fun hi => by rw [mirrorFields_comp _ _ hw]; simp [hi], fun hi => ⟨?_, fun _ => by rw [mirrorFields_comp _ _ hw]; simp [hi], ?_, ?_⟩⟩ <;>
      simp [n2]
  by_cases n3 : env.name w = "mirror+dirichlet"
  · rw [if_neg n1, if_neg n2, if_pos n3, Except.ok.injEq] at h
    subst h
    refine ⟨fun hi => by rw [dirichletFields_comp, if_neg hi, mirrorFields_comp _ _ hw]; simp [hi], fun hi => ⟨?_, ?_, fun _ => ?_, ?_⟩⟩
    · simp [n3]
    · simp [n3]
    · rw [dirichletFields_comp, if_pos hi]
      congr 1
      funext j
      rw [mirrorFields_comp _ _ hw]
    · simp [n3]
  by_cases n4 : env.name w = "periodic" ∨ env.name w = "none"
  · rw [if_neg n1, if_neg n2, if_neg n3, if_pos n4, Except.ok.injEq] at h
    subst h
    exact ⟨fun _ => rfl, fun _ => ⟨fun h => absurd h n1, fun h => absurd h n2, fun h => absurd h n3, fun _ => rfl⟩⟩
  · rw [if_neg n1, if_neg n2, if_neg n3, if_neg n4] at h
    split_ifs at h

/-- C68: the ghost cells behind exactly one wall of the domain, after `apply_bcs_fields` has dealt with all four walls.  (Cells that
belong, themselves or by their mirror image, to the ghost zones of a second active wall are corners.) -/
theorem C68_ghost_values (env : FieldBCEnv M1 M2 K) (b : Bool) (w : Wall) (hw : fitsAcross M1 M2 env.g w)
    (ht : env.touches w = true) (F F' : EM (ZMod M1 × ZMod M2) K) (h : applyBcsFields env b F = .ok F') (c : Fin 6)
    (i : ZMod M1 × ZMod M2) (hi : inSlab env.g w i)
    (ho : ∀ w', w' ≠ w → idleWall env w' ∨ (¬ inSlab env.g w' i ∧ ¬ inSlab env.g w' (reflectCell env.g w i))) :
    (env.name w = "mirror" → F'.comp c i = if reflected b w c = true then F.comp c (reflectCell env.g w i) else F.comp c i) ∧
    (env.name w = "dirichlet" → (∀ x y, env.user w c x = env.user w c y) → F'.comp c i = env.user w c (F.comp c) i) ∧
    (env.name w = "mirror+dirichlet" → (∀ x y, env.user w c x = env.user w c y) → F'.comp c i = env.user w c (F.comp c) i) := by
  obtain ⟨F1, F2, F3, w1, w2, w3, w4⟩ := applyBcsFields_ok h
  have at_w : ∀ G G', atWallFields env b w G = .ok G' → (G.comp c i = F.comp c i ∧
      G.comp c (reflectCell env.g w i) = F.comp c (reflectCell env.g w i)) →
      (env.name w = "mirror" → G'.comp c i = if reflected b w c = true then F.comp c (reflectCell env.g w i) else F.comp c i) ∧
      (env.name w = "dirichlet" → (∀ x y, env.user w c x = env.user w c y) → G'.comp c i = env.user w c (F.comp c) i) ∧
      (env.name w = "mirror+dirichlet" → (∀ x y, env.user w c x = env.user w c y) → G'.comp c i = env.user w c (F.comp c) i) := by
    intro G G' hG hs
    rw [atWallFields, if_pos ht] at hG
    obtain ⟨-, k⟩ := C68_one_wall env b w hw G G' hG c i
    obtain ⟨k1, k2, k3, -⟩ := k hi
    refine ⟨fun n => by rw [k2 n, hs.1, hs.2], fun n u => by rw [k1 n, u _ (F.comp c)], fun n u => by rw [k3 n]; rw [u _ (F.comp c)]⟩
  have keep : ∀ v, v ≠ w → ∀ G G', atWallFields env b v G = .ok G' → G'.comp c i = G.comp c i ∧
      G'.comp c (reflectCell env.g w i) = G.comp c (reflectCell env.g w i) := by
    intro v hv G G' hG
    rcases ho v hv with hid | ⟨a, d⟩
    · rw [idle_wall env b v hid, Except.ok.injEq] at hG
      subst hG
      exact ⟨rfl, rfl⟩
    · exact ⟨atWallFields_frame env b v G G' hG c i (fun h => a h.2), atWallFields_frame env b v G G' hG c _ (fun h => d h.2)⟩
  cases w
  · have r := at_w _ _ w1 ⟨rfl, rfl⟩
    rw [(keep .top (by decide) _ _ w4).1, (keep .bottom (by decide) _ _ w3).1, (keep .right (by decide) _ _ w2).1]
    exact r
  · have s1 := keep .left (by decide) _ _ w1
    have r := at_w _ _ w2 s1
    rw [(keep .top (by decide) _ _ w4).1, (keep .bottom (by decide) _ _ w3).1]
    exact r
  · have s1 := keep .left (by decide) _ _ w1
    have s2 := keep .right (by decide) _ _ w2
    have r := at_w _ _ w3 ⟨s2.1.trans s1.1, s2.2.trans s1.2⟩
    rw [(keep .top (by decide) _ _ w4).1]
    exact r
  · have s1 := keep .left (by decide) _ _ w1
    have s2 := keep .right (by decide) _ _ w2
    have s3 := keep .bottom (by decide) _ _ w3
    exact at_w _ _ w4 ⟨s3.1.trans (s2.1.trans s1.1), s3.2.trans (s2.2.trans s1.2)⟩

/-- C68: after the boundary conditions the reflected components are symmetric about a mirror. -/
theorem C68_mirror_symmetric (env : FieldBCEnv M1 M2 K) (b : Bool) (w : Wall) (hw : fitsAcross M1 M2 env.g w)
    (ht : env.touches w = true) (hn : env.name w = "mirror") (F F' : EM (ZMod M1 × ZMod M2) K) (h : applyBcsFields env b F = .ok F')
    (c : Fin 6) (hc : reflected b w c = true) (i : ZMod M1 × ZMod M2) (hi : inSlab env.g w i)
    (ho : ∀ w', w' ≠ w → idleWall env w' ∨ (¬ inSlab env.g w' i ∧ ¬ inSlab env.g w' (reflectCell env.g w i))) :
    F'.comp c i = F'.comp c (reflectCell env.g w i) := by
  rw [(C68_ghost_values env b w hw ht F F' h c i hi ho).1 hn, if_pos hc]
  refine (applyBcsFields_frame env b F F' h c _ fun v => ?_).symm
  by_cases hv : v = w
  · subst hv; exact Or.inr (reflect_not_inSlab _ _ hw i hi)
  · exact (ho v hv).imp id (fun h => h.2)

/-- C68: behind two mirrors that meet in a corner, the ghost cells show the doubly mirrored cell.  (The walls on the left and right are
dealt with before those at the bottom and top.) -/
theorem C68_corner (env : FieldBCEnv M1 M2 K) (b : Bool) (w v : Wall) (hw : w = .left ∨ w = .right) (hv : v = .bottom ∨ v = .top)
    (hM1 : 3 * env.g ≤ M1) (hM2 : 3 * env.g ≤ M2) (tw : env.touches w = true) (tv : env.touches v = true)
    (nw : env.name w = "mirror") (nv : env.name v = "mirror") (F F' : EM (ZMod M1 × ZMod M2) K) (h : applyBcsFields env b F = .ok F')
    (c : Fin 6) (i : ZMod M1 × ZMod M2) (iw : inSlab env.g w i) (iv : inSlab env.g v i) :
    F'.comp c i = F.comp c ((if reflected b w c = true then reflectCell env.g w else id)
      ((if reflected b v c = true then reflectCell env.g v else id) i)) := by
  obtain ⟨F1, F2, F3, w1, w2, w3, w4⟩ := applyBcsFields_ok h
  have e1 := ZMod.val_lt i.1
  have e2 := ZMod.val_lt i.2
  have fit : ∀ u, fitsAcross M1 M2 env.g u := by intro u; cases u <;> simp only [fitsAcross] <;> omega
  have act : ∀ u, env.touches u = true → env.name u = "mirror" → ∀ G G', atWallFields env b u G = .ok G' → ∀ j, inSlab env.g u j →
      G'.comp c j = G.comp c ((if reflected b u c = true then reflectCell env.g u else id) j) := by
    intro u tu nu G G' hG j hj
    rw [atWallFields, if_pos tu] at hG
    rw [((C68_one_wall env b u (fit u) G G' hG c j).2 hj).2.1 nu]
    split_ifs <;> rfl
  have keep : ∀ u G G', atWallFields env b u G = .ok G' → ∀ j, ¬ inSlab env.g u j → G'.comp c j = G.comp c j :=
    fun u G G' hG j hj => atWallFields_frame env b u G G' hG c j (fun h => hj h.2)
  generalize hj : (if reflected b v c = true then reflectCell env.g v else id) i = j
  have j1 : j.1 = i.1 := by rw [← hj]; rcases hv with rfl | rfl <;> split_ifs <;> rfl
  have step2 : F'.comp c i = F2.comp c j := by
    rcases hv with rfl | rfl
    · have nt : ¬ inSlab env.g .top i := by simp only [inSlab] at iv ⊢; omega
      rw [keep .top _ _ w4 i nt, act .bottom tv nv _ _ w3 i iv, hj]
    · rw [act .top tv nv _ _ w4 i iv, hj]
      refine keep .bottom _ _ w3 j ?_
      rw [← hj]
      simp only [inSlab] at iv
      split_ifs
      · simp only [inSlab, reflectCell]; rw [ZMod.val_cast_of_lt (by omega)]; omega
      · simp only [inSlab, id]; omega
  rw [step2]
  have jw : inSlab env.g w j := by rcases hw with rfl | rfl <;> simp only [inSlab, j1] at iw ⊢ <;> exact iw
  rcases hw with rfl | rfl
  · have nr : ¬ inSlab env.g .right j := by simp only [inSlab] at jw ⊢; omega
    rw [keep .right _ _ w2 j nr, act .left tw nw _ _ w1 j jw]
  · rw [act .right tw nw _ _ w2 j jw]
    refine keep .left _ _ w1 _ ?_
    simp only [inSlab] at jw
    have := ZMod.val_lt j.1
    split_ifs
    · simp only [inSlab, reflectCell]; rw [ZMod.val_cast_of_lt (by omega)]; omega
    · simp only [inSlab, id]; omega

/-- C68: at a mirror on the left or right, the magnetic update leaves `B2` on the wall unchanged, and changes `B3` there by the
difference of the normal electric field along the wall. -/
theorem C68_mirror_wall_B (env : FieldBCEnv M1 M2 K) [Field K] (w : Wall) (hw : w = .left ∨ w = .right) (hg : 1 ≤ env.g)
    (hM : 2 * env.g < M1) (ht : env.touches w = true) (hn : env.name w = "mirror") (F F' : EM (ZMod M1 × ZMod M2) K)
    (h : applyBcsFields env true F = .ok F') (pr : FieldParams (ZMod M1 × ZMod M2) K) (q1 : pr.q1 = (1, 0)) (q2 : pr.q2 = (0, 1))
    (dt : K) (i : ZMod M1 × ZMod M2) (hi : onWall env.g w i)
    (ho : ∀ w', w' ≠ w → idleWall env w' ∨ (¬ inSlab env.g w' i ∧ ¬ inSlab env.g w' (i - (1, 0)))) :
    (evolveB pr dt F').B2 i = F'.B2 i ∧
    (evolveB pr dt F').B3 i = F'.B3 i + dt * ((F'.E1 i - F'.E1 (i - (0, 1))) / pr.dq2) := by
  have e1 := ZMod.val_lt i.1
  have pred : (i.1 - 1).val = i.1.val - 1 := by
    have : i.1 - 1 = ((i.1.val - 1 : ℕ) : ZMod M1) := by
      rw [Nat.cast_sub (by rcases hw with rfl | rfl <;> simp only [onWall] at hi <;> omega)]; simp
    rw [this, ZMod.val_cast_of_lt (by omega)]
  have sym : ∀ c : Fin 6, tangentialE w c = true → F'.comp c i = F'.comp c (i - (1, 0)) := by
    intro c hc
    have fit : fitsAcross M1 M2 env.g w := by rcases hw with rfl | rfl <;> simp only [fitsAcross] <;> omega
    have hr : reflected true w c = true := by simp [reflected, hc]
    rcases hw with rfl | rfl
    · have ri : reflectCell env.g .left (i - (1, 0)) = i := by
        simp only [onWall] at hi
        refine Prod.ext ?_ (by simp [reflectCell])
        simp only [reflectCell, Prod.fst_sub, pred]
        have : 2 * env.g - 1 - (i.1.val - 1) = i.1.val := by omega
        rw [this]; simp
      have := C68_mirror_symmetric env true .left fit ht hn F F' h c hr (i - (1, 0))
        (by simp only [onWall] at hi; simp only [inSlab, Prod.fst_sub, pred]; omega)
        (fun w' hw' => by rw [ri]; exact (ho w' hw').imp id And.symm)
      rw [this, ri]
    · have ri : reflectCell env.g .right i = i - (1, 0) := by
        simp only [onWall] at hi
        refine Prod.ext ?_ (by simp [reflectCell])
        simp only [reflectCell, Prod.fst_sub]
        have : 2 * (M1 - env.g) - 1 - i.1.val = i.1.val - 1 := by omega
        rw [this, ← pred]; simp
      have := C68_mirror_symmetric env true .right fit ht hn F F' h c hr i
        (by simp only [onWall] at hi; simp only [inSlab]; omega) (fun w' hw' => by rw [ri]; exact ho w' hw')
      rw [this, ri]
  have t1 : tangentialE w 1 = true := by rcases hw with rfl | rfl <;> rfl
  have t2 : tangentialE w 2 = true := by rcases hw with rfl | rfl <;> rfl
  have E2 := sym 1 t1
  have E3 := sym 2 t2
  simp only [EM.comp] at E2 E3
  simp only [evolveB, curlE2, curlE3, q1, q2, afShift, one_smul, E2, E3]
  constructor <;> ring

/-- C68: the same at the bottom and top with `B1`, and the normal electric field `E2`. -/
theorem C68_mirror_floor_B (env : FieldBCEnv M1 M2 K) [Field K] (w : Wall) (hw : w = .bottom ∨ w = .top) (hg : 1 ≤ env.g)
    (hM : 2 * env.g < M2) (ht : env.touches w = true) (hn : env.name w = "mirror") (F F' : EM (ZMod M1 × ZMod M2) K)
    (h : applyBcsFields env true F = .ok F') (pr : FieldParams (ZMod M1 × ZMod M2) K) (q1 : pr.q1 = (1, 0)) (q2 : pr.q2 = (0, 1))
    (dt : K) (i : ZMod M1 × ZMod M2) (hi : onWall env.g w i)
    (ho : ∀ w', w' ≠ w → idleWall env w' ∨ (¬ inSlab env.g w' i ∧ ¬ inSlab env.g w' (i - (0, 1)))) :
    (evolveB pr dt F').B1 i = F'.B1 i ∧
    (evolveB pr dt F').B3 i = F'.B3 i - dt * ((F'.E2 i - F'.E2 (i - (1, 0))) / pr.dq1) := by
  have e1 := ZMod.val_lt i.2
  have pred : (i.2 - 1).val = i.2.val - 1 := by
    have : i.2 - 1 = ((i.2.val - 1 : ℕ) : ZMod M2) := by
      rw [Nat.cast_sub (by rcases hw with rfl | rfl <;> simp only [onWall] at hi <;> omega)]; simp
    rw [this, ZMod.val_cast_of_lt (by omega)]
  have sym : ∀ c : Fin 6, tangentialE w c = true → F'.comp c i = F'.comp c (i - (0, 1)) := by
    intro c hc
    have fit : fitsAcross M1 M2 env.g w := by rcases hw with rfl | rfl <;> simp only [fitsAcross] <;> omega
    have hr : reflected true w c = true := by simp [reflected, hc]
    rcases hw with rfl | rfl
    · have ri : reflectCell env.g .bottom (i - (0, 1)) = i := by
        simp only [onWall] at hi
        refine Prod.ext (by simp [reflectCell]) ?_
        simp only [reflectCell, Prod.snd_sub, pred]
        have : 2 * env.g - 1 - (i.2.val - 1) = i.2.val := by omega
        rw [this]; simp
      have := C68_mirror_symmetric env true .bottom fit ht hn F F' h c hr (i - (0, 1))
        (by simp only [onWall] at hi; simp only [inSlab, Prod.snd_sub, pred]; omega)
        (fun w' hw' => by rw [ri]; exact (ho w' hw').imp id And.symm)
      rw [this, ri]
    · have ri : reflectCell env.g .top i = i - (0, 1) := by
        simp only [onWall] at hi
        refine Prod.ext (by simp [reflectCell]) ?_
        simp only [reflectCell, Prod.snd_sub]
        have : 2 * (M2 - env.g) - 1 - i.2.val = i.2.val - 1 := by omega
        rw [this, ← pred]; simp
      have := C68_mirror_symmetric env true .top fit ht hn F F' h c hr i
        (by simp only [onWall] at hi; simp only [inSlab]; omega) (fun w' hw' => by rw [ri]; exact ho w' hw')
      rw [this, ri]
  have t1 : tangentialE w 0 = true := by rcases hw with rfl | rfl <;> rfl
  have t2 : tangentialE w 2 = true := by rcases hw with rfl | rfl <;> rfl
  have E1 := sym 0 t1
  have E3 := sym 2 t2
  simp only [EM.comp] at E1 E3
  simp only [evolveB, curlE1, curlE3, q1, q2, afShift, one_smul, E1, E3]
  constructor <;> ring

end local_array

/-! ### on all processes, through a whole run -/

namespace Decomp

variable {N1 N2 : ℕ} {R : Type} (D : Decomp N1 N2 R) (g1 g2 : ℕ) [NeZero N1] [NeZero N2] {S K : Type} [Fintype S] [Field K] [LinearOrder K]
  [IsStrictOrderedRing K] {Np1 Np2 Np3 : ℕ} [Fintype (PIdx Np1 Np2 Np3)] [∀ r, Fintype (D.Loc g1 g2 r)]

/-- The interior rows of a process are not in the ghost zones of an active wall. -/
theorem wall_or_interior {o : BCOptions} {bc1 bc2 : PetscBC} (hs : ∃ x, setupBCs o.nGhost o.name = .ok x)
    (ht : FieldTypes g1 g2 o bc1 bc2) (r : R) (user : D.LocFieldBCs g1 g2 r K) (w : Wall) :
    idleWall (D.fieldEnv g1 g2 o r user) w ∨ ((w = .left ∨ w = .right) ∧ o.nGhost = g1 ∨ (w = .bottom ∨ w = .top) ∧ o.nGhost = g2) := by
  obtain ⟨x, hx⟩ := hs
  obtain ⟨t1, t2⟩ := ht
  unfold setupBCs at hx
  split_ifs at hx with a1 a2 a3 a4 a5 a6
  have n1 : o.name .left = "none" → o.name .right = "none" := fun h => by_contra fun h' => a5 ⟨h, h'⟩
  have n2 : o.name .bottom = "none" → o.name .top = "none" := fun h => by_contra fun h' => a6 ⟨h, h'⟩
  have name : ∀ w, (D.fieldEnv g1 g2 o r user).name w = o.name w := fun _ => rfl
  simp only [petscAxisFields] at t1 t2
  cases w
  · by_cases h : o.name .left = "none"
    · exact Or.inl (Or.inr (Or.inr h))
    · right; left; refine ⟨Or.inl rfl, ?_⟩
      rw [if_neg h] at t1; split_ifs at t1 <;> exact (Prod.ext_iff.mp t1).2
  · by_cases h : o.name .left = "none"
    · exact Or.inl (Or.inr (Or.inr (n1 h)))
    · right; left; refine ⟨Or.inr rfl, ?_⟩
      rw [if_neg h] at t1; split_ifs at t1 <;> exact (Prod.ext_iff.mp t1).2
  · by_cases h : o.name .bottom = "none"
    · exact Or.inl (Or.inr (Or.inr h))
    · right; right; refine ⟨Or.inl rfl, ?_⟩
      rw [if_neg h] at t2; split_ifs at t2 <;> exact (Prod.ext_iff.mp t2).2
  · by_cases h : o.name .bottom = "none"
    · exact Or.inl (Or.inr (Or.inr (n2 h)))
    · right; right; refine ⟨Or.inr rfl, ?_⟩
      rw [if_neg h] at t2; split_ifs at t2 <;> exact (Prod.ext_iff.mp t2).2

/-- C68: the processes that apply a wall's condition are exactly those that own its cells. -/
theorem C68_touches_iff_owns (o : BCOptions) (r : R) (user : D.LocFieldBCs g1 g2 r K) (w : Wall) :
    (D.fieldEnv g1 g2 o r user).touches w = true ↔ ownsWall D r w := by
  have h1 := D.pos1 r
  have h2 := D.pos2 r
  have h3 := D.fits1 r
  have h4 := D.fits2 r
  cases w <;> simp only [FieldBCEnv.touches, Decomp.fieldEnv, ownsWall, beq_iff_eq] <;> omega

/-- C68: on every process at a wall, once the fields have been communicated and the boundary conditions applied, the ghost cells behind
the owned cells along the wall hold the user's values (Dirichlet), or the tangential electric field mirrored (mirror), whatever the
conditions on the other walls. -/
theorem C68_on_every_process {o : BCOptions} (hs : ∃ x, setupBCs o.nGhost o.name = .ok x) {user : ∀ r, D.LocFieldBCs g1 g2 r K}
    {F F0 : ∀ r, EM (D.Loc g1 g2 r) K} (h : D.SyncedFields g1 g2 o user F F0) (r : R) (w : Wall) (hw : ownsWall D r w)
    (hn : o.nGhost ≤ acrossWall D r w) (t : ℕ) (ht : alongWall D g1 g2 r w t) (l : D.Loc g1 g2 r) (hi : inSlab o.nGhost w l)
    (hl : (match w with | .left | .right => l.2.val | .bottom | .top => l.1.val) = t) (c : Fin 6) :
    (o.name w = "mirror" → tangentialE w c = true → (F0 r).comp c l = (F0 r).comp c (reflectCell o.nGhost w l)) ∧
    (∀ v : D.Loc g1 g2 r → K, o.name w = "dirichlet" ∨ o.name w = "mirror+dirichlet" → (∀ x, user r w c x = v) → (F0 r).comp c l = v l) := by
  obtain ⟨G, ⟨bc1, bc2, stale, hT, -⟩, hb⟩ := h
  have p1 := D.pos1 r
  have p2 := D.pos2 r
  haveI : NeZero (D.n1 r + 2 * g1) := ⟨by omega⟩
  haveI : NeZero (D.n2 r + 2 * g2) := ⟨by omega⟩
  have touch := (D.C68_touches_iff_owns g1 g2 o r (user r) w).mpr hw
  have e1 := ZMod.val_lt l.1
  have e2 := ZMod.val_lt l.2
  have wid := fun w' => D.wall_or_interior g1 g2 hs hT r (user r) w'
  have main : o.name w ≠ "periodic" → o.name w ≠ "none" → fitsAcross (D.n1 r + 2 * g1) (D.n2 r + 2 * g2) o.nGhost w ∧
      ∀ w', w' ≠ w → idleWall (D.fieldEnv g1 g2 o r (user r)) w' ∨ (¬ inSlab o.nGhost w' l ∧ ¬ inSlab o.nGhost w' (reflectCell o.nGhost w l)) := by
    intro np nn
    have own : (w = .left ∨ w = .right) ∧ o.nGhost = g1 ∨ (w = .bottom ∨ w = .top) ∧ o.nGhost = g2 := by
      refine (wid w).resolve_left ?_
      rintro (a | a | a)
      · rw [touch] at a; cases a
      · exact np a
      · exact nn a
    constructor
    · cases w <;> simp only [fitsAcross] <;> simp at own <;> omega
    · intro w' hne
      refine (wid w').imp id fun ww => ?_
      cases w <;> simp at own <;> simp only [alongWall, acrossWall, inSlab] at ht hn hi hl <;> cases w' <;> simp at hne ww <;>
        simp only [inSlab, reflectCell] <;>
        first
        | exact ⟨by omega, by omega⟩
        | exact ⟨by omega, by rw [ZMod.val_cast_of_lt (by omega)]; omega⟩
  constructor
  · intro hm hc
    obtain ⟨fit, ho⟩ := main (by rw [hm]; decide) (by rw [hm]; decide)
    exact C68_mirror_symmetric (D.fieldEnv g1 g2 o r (user r)) true w fit touch hm (G r) (F0 r) (hb r) c (by simp [reflected, hc]) l hi ho
  · intro v hm hv
    obtain ⟨fit, ho⟩ := main (by rcases hm with hm | hm <;> rw [hm] <;> decide) (by rcases hm with hm | hm <;> rw [hm] <;> decide)
    obtain ⟨-, b1, b2⟩ := C68_ghost_values (D.fieldEnv g1 g2 o r (user r)) true w fit touch (G r) (F0 r) (hb r) c l hi ho
    have hu : ∀ x y, (D.fieldEnv g1 g2 o r (user r)).user w c x = (D.fieldEnv g1 g2 o r (user r)).user w c y := fun x y => (hv x).trans (hv y).symm
    rcases hm with hm | hm
    · exact (b1 hm hu).trans (congrFun (hv _) l)
    · exact (b2 hm hu).trans (congrFun (hv _) l)

theorem sent_interior {o : BCOptions} {F F0 : ∀ r, EM (D.Loc g1 g2 r) K} (h : D.SentFields g1 g2 o F F0) (r : R) (c : Fin 6)
    (l : D.Loc g1 g2 r) (hl : D.Interior g1 g2 r l) : (F0 r).comp c l = (F r).comp c l := by
  obtain ⟨bc1, bc2, stale, -, rfl⟩ := h
  rw [comp_exchangeEM, exchange1]
  exact D.C24_exchange_keeps_interior g1 g2 bc1 bc2 _ _ r () () l hl

theorem syncedFields_interior {o : BCOptions} (hs : ∃ x, setupBCs o.nGhost o.name = .ok x) {user : ∀ r, D.LocFieldBCs g1 g2 r K}
    {F F0 : ∀ r, EM (D.Loc g1 g2 r) K} (h : D.SyncedFields g1 g2 o user F F0) (r : R) (c : Fin 6) (l : D.Loc g1 g2 r)
    (hl : D.Interior g1 g2 r l) : (F0 r).comp c l = (F r).comp c l := by
  obtain ⟨G, hG, hb⟩ := h
  rw [← sent_interior D g1 g2 hG r c l hl]
  obtain ⟨bc1, bc2, stale, ht, -⟩ := hG
  have := D.pos1 r
  have := D.pos2 r
  haveI : NeZero (D.n1 r + 2 * g1) := ⟨by omega⟩
  haveI : NeZero (D.n2 r + 2 * g2) := ⟨by omega⟩
  refine applyBcsFields_frame _ true _ _ (hb r) c l fun w => ?_
  have gg : (D.fieldEnv g1 g2 o r (user r)).g = o.nGhost := rfl
  obtain ⟨⟨a, b⟩, d, e⟩ := hl
  refine (wall_or_interior D g1 g2 hs ht r (user r) w).imp id fun hw => ?_
  rcases hw with ⟨rfl | rfl, hg⟩ | ⟨rfl | rfl, hg⟩ <;> simp only [inSlab, gg, hg] <;> omega

/-- The first interior column at a left mirror. -/
theorem left_column {o : BCOptions} (hs : ∃ x, setupBCs o.nGhost o.name = .ok x) (hm : o.name .left = "mirror") (hg : 1 ≤ g1)
    {user : ∀ r, D.LocFieldBCs g1 g2 r K} {F F0 : ∀ r, EM (D.Loc g1 g2 r) K} (h : D.SyncedFields g1 g2 o user F F0) (r : R)
    (h0 : D.start1 r = 0) (pr : FieldParams (D.Loc g1 g2 r) K) (q1 : pr.q1 = (1, 0)) (q2 : pr.q2 = (0, 1)) (dt : K) (l : D.Loc g1 g2 r)
    (hl : D.Interior g1 g2 r l) (hw : l.1.val = g1) : (evolveB pr dt (F0 r)).B2 l = (F0 r).B2 l := by
  obtain ⟨G, ⟨bc1, bc2, stale, ht, -⟩, hb⟩ := h
  have p1 := D.pos1 r
  have p2 := D.pos2 r
  haveI : NeZero (D.n1 r + 2 * g1) := ⟨by omega⟩
  haveI : NeZero (D.n2 r + 2 * g2) := ⟨by omega⟩
  have gg : (D.fieldEnv g1 g2 o r (user r)).g = o.nGhost := rfl
  have hgg : o.nGhost = g1 := by
    have := ht.1; simp only [petscAxisFields, hm] at this; simpa using (Prod.ext_iff.mp this).2
  obtain ⟨⟨a, b⟩, d, e⟩ := hl
  refine (C68_mirror_wall_B (D.fieldEnv g1 g2 o r (user r)) .left (Or.inl rfl) (by rw [gg]; omega) (by rw [gg]; omega)
    (by simp [FieldBCEnv.touches, fieldEnv, h0]) hm _ _ (hb r) pr q1 q2 dt l (by simp only [onWall, gg]; omega) fun w hww => ?_).1
  have pred : (l.1 - 1).val = l.1.val - 1 := by
    have : l.1 - 1 = ((l.1.val - 1 : ℕ) : ZMod (D.n1 r + 2 * g1)) := by rw [Nat.cast_sub (by omega)]; simp
    rw [this, ZMod.val_cast_of_lt (by omega)]
  refine (wall_or_interior D g1 g2 hs ht r (user r) w).imp id fun hw' => ?_
  rcases hw' with ⟨rfl | rfl, hg'⟩ | ⟨rfl | rfl, hg'⟩
  · exact absurd rfl hww
  · simp only [inSlab, gg, Prod.fst_sub, pred]; omega
  · simp only [inSlab, gg, Prod.snd_sub, sub_zero]; omega
  · simp only [inSlab, gg, Prod.snd_sub, sub_zero]; omega

theorem bottom_row {o : BCOptions} (hs : ∃ x, setupBCs o.nGhost o.name = .ok x) (hm : o.name .bottom = "mirror") (hg : 1 ≤ g2)
    {user : ∀ r, D.LocFieldBCs g1 g2 r K} {F F0 : ∀ r, EM (D.Loc g1 g2 r) K} (h : D.SyncedFields g1 g2 o user F F0) (r : R)
    (h0 : D.start2 r = 0) (pr : FieldParams (D.Loc g1 g2 r) K) (q1 : pr.q1 = (1, 0)) (q2 : pr.q2 = (0, 1)) (dt : K) (l : D.Loc g1 g2 r)
    (hl : D.Interior g1 g2 r l) (hw : l.2.val = g2) : (evolveB pr dt (F0 r)).B1 l = (F0 r).B1 l := by
  obtain ⟨G, ⟨bc1, bc2, stale, ht, -⟩, hb⟩ := h
  have p1 := D.pos1 r
  have p2 := D.pos2 r
  haveI : NeZero (D.n1 r + 2 * g1) := ⟨by omega⟩
  haveI : NeZero (D.n2 r + 2 * g2) := ⟨by omega⟩
  have gg : (D.fieldEnv g1 g2 o r (user r)).g = o.nGhost := rfl
  have hgg : o.nGhost = g2 := by
    have := ht.2; simp only [petscAxisFields, hm] at this; simpa using (Prod.ext_iff.mp this).2
  obtain ⟨⟨a, b⟩, d, e⟩ := hl
  refine (C68_mirror_floor_B (D.fieldEnv g1 g2 o r (user r)) .bottom (Or.inl rfl) (by rw [gg]; omega) (by rw [gg]; omega)
    (by simp [FieldBCEnv.touches, fieldEnv, h0]) hm _ _ (hb r) pr q1 q2 dt l (by simp only [onWall, gg]; omega) fun w hww => ?_).1
  have pred : (l.2 - 1).val = l.2.val - 1 := by
    have : l.2 - 1 = ((l.2.val - 1 : ℕ) : ZMod (D.n2 r + 2 * g2)) := by rw [Nat.cast_sub (by omega)]; simp
    rw [this, ZMod.val_cast_of_lt (by omega)]
  refine (wall_or_interior D g1 g2 hs ht r (user r) w).imp id fun hw' => ?_
  rcases hw' with ⟨rfl | rfl, hg'⟩ | ⟨rfl | rfl, hg'⟩
  · simp only [inSlab, gg, Prod.fst_sub, sub_zero]; omega
  · simp only [inSlab, gg, Prod.fst_sub, sub_zero]; omega
  · exact absurd rfl hww
  · simp only [inSlab, gg, Prod.snd_sub, pred]; omega

/-- A quantity of the staggered fields that the magnetic update leaves alone survives the field phase. -/
theorem slope_keeps_B {o : BCOptions} (hs : ∃ x, setupBCs o.nGhost o.name = .ok x) {c : CoupledConfig S (PIdx Np1 Np2 Np3) (ZMod N1 × ZMod N2) K}
    {hyb : S} {user : ∀ r, D.LocFieldBCs g1 g2 r K} {cb : ∀ r, CoupledCallbacks S (PIdx Np1 Np2 Np3) (D.Loc g1 g2 r) K} {dt : K}
    {F k : ∀ r, Dist S (PIdx Np1 Np2 Np3) (D.Loc g1 g2 r) K} {σ σ' : ∀ r, FieldState (D.Loc g1 g2 r) K} (comp : Fin 6) (hc : 3 ≤ comp)
    (r : R) (l : D.Loc g1 g2 r) (hl : D.Interior g1 g2 r l)
    (hB : ∀ Y Y2, D.SyncedFields g1 g2 o user Y Y2 →
      (evolveB (D.locCfg g1 g2 c r).fieldParams dt (Y2 r)).comp comp l = (Y2 r).comp comp l)
    (h : D.SlopeCoupled g1 g2 o user c hyb cb dt F σ k σ') : (σ' r).yee.comp comp l = (σ r).yee.comp comp l := by
  have ev : ∀ {J : ∀ r, Currents (D.Loc g1 g2 r) K} {ρ ρ' : ∀ r, FieldState (D.Loc g1 g2 r) K},
      D.EvolveFields g1 g2 o user (fun r => (D.locCfg g1 g2 c r).fieldParams) J dt ρ ρ' →
      (ρ' r).yee.comp comp l = (ρ r).yee.comp comp l := by
    rintro J ρ ρ' ⟨Y', ⟨Y0, Y1, Y2, s0, e1, s2, e2⟩, e3⟩
    rw [e3 r, (storeFields_rest _ _ _ _).1, e2 r, hB Y1 Y2 s2, syncedFields_interior D g1 g2 hs s2 r comp l hl,
      ← syncedFields_interior D g1 g2 hs s0 r comp l hl]
    have := e1 r
    unfold evolveE at this
    split_ifs at this
    · rw [Except.ok.injEq] at this; rw [this]
    · rw [Except.ok.injEq] at this; rw [← this]
      fin_cases comp <;> first | rfl | exact absurd hc (by decide)
  have getYee : ∀ ρ : FieldState (D.Loc g1 g2 r) K, (getFields c.fieldsSolver c.solverMethodInP ρ).2.yee = ρ.yee := by
    intro ρ; simp only [getFields]; split_ifs <;> rfl
  unfold SlopeCoupled at h
  split_ifs at h
  · obtain ⟨σ1, hph, hk⟩ := h
    rw [(hk r).2, getYee, getYee, getYee]
    rcases hph with ⟨-, -, -, m, -, hh⟩ | ⟨-, rfl⟩
    · split_ifs at hh
      · obtain ⟨Y, hY, he⟩ := hh
        rw [ev he, ← sent_interior D g1 g2 hY r comp l hl]
        fin_cases comp <;> first | rfl | exact absurd hc (by decide)
      · exact ev hh
    · rfl
  · rw [h.2]

theorem run_keeps_B {o : BCOptions} {c : CoupledConfig S (PIdx Np1 Np2 Np3) (ZMod N1 × ZMod N2) K} {hyb : S} (comp : Fin 6) (hc : 3 ≤ comp)
    (r : R) (l : D.Loc g1 g2 r) (hl : D.Interior g1 g2 r l)
    (hB : (∃ x, setupBCs o.nGhost o.name = .ok x) → ∀ (user : ∀ r, D.LocFieldBCs g1 g2 r K) dt Y Y2, D.SyncedFields g1 g2 o user Y Y2 →
      (evolveB (D.locCfg g1 g2 c r).fieldParams dt (Y2 r)).comp comp l = (Y2 r).comp comp l)
    (steps : List (K × D.CoupledInput g1 g2 S Np1 Np2 Np3 K)) (F F' : ∀ r, Dist S (PIdx Np1 Np2 Np3) (D.Loc g1 g2 r) K)
    (σ σ' : ∀ r, FieldState (D.Loc g1 g2 r) K) (h : D.RunCoupled g1 g2 o c hyb steps F σ F' σ') :
    (σ' r).yee.comp comp l = (σ r).yee.comp comp l := by
  induction steps generalizing F σ with
  | nil => rw [h.2]
  | cons st rest ih =>
    obtain ⟨dt, inp⟩ := st
    obtain ⟨G, τ, ⟨F0, k0, Fh, k1, σh, s0, a0, s1, a1, rfl⟩, hr⟩ := h
    have hs : ∃ x, setupBCs o.nGhost o.name = .ok x := by obtain ⟨_, _, _, hx, -⟩ := s0; exact ⟨_, hx⟩
    rw [ih _ _ hr, slope_keeps_B D g1 g2 hs comp hc r l hl (hB hs (inp.user 1) dt) a1,
      slope_keeps_B D g1 g2 hs comp hc r l hl (hB hs (inp.user 0) dt) a0]

/-- C68: through a whole coupled run, on any number of processes, `B2` on a mirror at the left keeps its initial value, and so does `B1`
on a mirror at the bottom: the magnetic field component that points along the wall within the plane is frozen there, whatever the
currents, the other walls, and the electron model. -/
theorem C68_wall_B_frozen {o : BCOptions} {c : CoupledConfig S (PIdx Np1 Np2 Np3) (ZMod N1 × ZMod N2) K} {hyb : S}
    (steps : List (K × D.CoupledInput g1 g2 S Np1 Np2 Np3 K)) (F F' : ∀ r, Dist S (PIdx Np1 Np2 Np3) (D.Loc g1 g2 r) K)
    (σ σ' : ∀ r, FieldState (D.Loc g1 g2 r) K) (h : D.RunCoupled g1 g2 o c hyb steps F σ F' σ') (r : R) (l : D.Loc g1 g2 r)
    (hl : D.Interior g1 g2 r l) :
    (o.name .left = "mirror" → 1 ≤ g1 → (D.toGlob g1 g2 r l).1 = 0 → (σ' r).yee.B2 l = (σ r).yee.B2 l) ∧
    (o.name .bottom = "mirror" → 1 ≤ g2 → (D.toGlob g1 g2 r l).2 = 0 → (σ' r).yee.B1 l = (σ r).yee.B1 l) := by
  obtain ⟨⟨a, b⟩, d, e⟩ := hl
  have f1 := D.fits1 r
  have f2 := D.fits2 r
  constructor
  · intro hm hg h0
    have e0 : D.start1 r + l.1.val - g1 = 0 := by
      have : ((D.start1 r + l.1.val - g1 : ℕ) : ZMod N1) = 0 := by
        rw [← h0]; simp only [toGlob, globCoord]; rw [Nat.cast_sub (by omega)]; push_cast; ring
      have h2 := (ZMod.natCast_eq_zero_iff _ _).mp this
      exact Nat.eq_zero_of_dvd_of_lt h2 (by omega)
    exact run_keeps_B D g1 g2 4 (by decide) r l ⟨⟨a, b⟩, d, e⟩
      (fun hs user dt Y Y2 hY => left_column D g1 g2 hs hm hg hY r (by omega) _ rfl rfl dt l ⟨⟨a, b⟩, d, e⟩ (by omega))
      steps F F' σ σ' h
  · intro hm hg h0
    have e0 : D.start2 r + l.2.val - g2 = 0 := by
      have : ((D.start2 r + l.2.val - g2 : ℕ) : ZMod N2) = 0 := by
        rw [← h0]; simp only [toGlob, globCoord]; rw [Nat.cast_sub (by omega)]; push_cast; ring
      have h2 := (ZMod.natCast_eq_zero_iff _ _).mp this
      exact Nat.eq_zero_of_dvd_of_lt h2 (by omega)
    exact run_keeps_B D g1 g2 3 (by decide) r l ⟨⟨a, b⟩, d, e⟩
      (fun hs user dt Y Y2 hY => bottom_row D g1 g2 hs hm hg hY r (by omega) _ rfl rfl dt l ⟨⟨a, b⟩, d, e⟩ (by omega))
      steps F F' σ σ' h

/-- C68 (as coded): the fields are communicated periodically across two mirrors, so everything that the mirrors do not reflect — the
normal electric field and the magnetic field — is, behind the right wall, what the processes on the left wall hold: the two walls are
identified.  In particular the normal electric field *on* the right wall is the one on the left wall. -/
theorem C68_walls_identified {o : BCOptions} (hl : o.name .left = "mirror")
    (hr : o.name .right = "mirror") (hp : PeriodicEnds (o.name .bottom) (o.name .top) N2) {user : ∀ r, D.LocFieldBCs g1 g2 r K}
    {F F0 : ∀ r, EM (D.Loc g1 g2 r) K} (h : D.SyncedFields g1 g2 o user F F0) (r : R) (l : D.Loc g1 g2 r)
    (c : Fin 6) (hc : tangentialE .right c = false) (r' : R) (l' : D.Loc g1 g2 r')
    (hl' : D.Interior g1 g2 r' l') (he : D.toGlob g1 g2 r l = D.toGlob g1 g2 r' l') : (F0 r).comp c l = (F r').comp c l' := by
  obtain ⟨G, hG, hb⟩ := h
  have p1 := D.pos1 r
  have p2 := D.pos2 r
  haveI : NeZero (D.n1 r + 2 * g1) := ⟨by omega⟩
  haveI : NeZero (D.n2 r + 2 * g2) := ⟨by omega⟩
  obtain ⟨bc1, bc2, stale, ht, rfl⟩ := hG
  have b1 : bc1 = .periodic := by have := ht.1; simp only [petscAxisFields, hl] at this; simpa using (Prod.ext_iff.mp this).1.symm
  have sent : ∀ l, (D.exchangeEM g1 g2 bc1 bc2 stale F r).comp c l = (D.assembleEM g1 g2 F).comp c (D.toGlob g1 g2 r l) := by
    intro l
    rw [comp_exchangeEM, assembleEM_comp, exchange1]
    let o' : BCOptions := { o with name := fun w => match w with | .left | .right => "periodic" | w => o.name w }
    have p2 := ht.2
    simp only [petscAxisFields] at p2
    refine exchange_wrap D g1 g2 o' bc1 bc2 (Or.inl ⟨rfl, rfl⟩) hp (fun _ => b1) (fun h => absurd h (by simp [o'])) ?_ ?_ _ _ r () () l
    · intro h; simp only [o'] at h; simp [h] at p2; exact p2.1.symm
    · intro h; simp only [o'] at h; simp [h] at p2; exact p2.2.symm
  have gg : (D.fieldEnv g1 g2 o r (user r)).g = o.nGhost := rfl
  have hgg : o.nGhost = g1 := by
    have := ht.1; simp only [petscAxisFields, hl] at this; simpa using (Prod.ext_iff.mp this).2
  have same : ∀ w X X', atWallFields (D.fieldEnv g1 g2 o r (user r)) true w X = .ok X' → X'.comp c l = X.comp c l := by
    intro w X X' hX
    have wall : ∀ w, o.name w = "mirror" → fitsAcross (D.n1 r + 2 * g1) (D.n2 r + 2 * g2) o.nGhost w → reflected true w c = false →
        atWallFields (D.fieldEnv g1 g2 o r (user r)) true w X = .ok X' → X'.comp c l = X.comp c l := by
      intro w nw fw rw' hX
      unfold atWallFields at hX
      split_ifs at hX
      · obtain ⟨k1, k2⟩ := C68_one_wall _ true w (by rw [gg]; exact fw) X X' hX c l
        by_cases hi : inSlab (D.fieldEnv g1 g2 o r (user r)).g w l
        · rw [(k2 hi).2.1 nw, if_neg (by rw [rw']; simp)]
        · exact k1 hi
      · rw [Except.ok.injEq] at hX; rw [hX]
    have idle : ∀ w, o.name w = "periodic" ∨ o.name w = "none" →
        atWallFields (D.fieldEnv g1 g2 o r (user r)) true w X = .ok X' → X'.comp c l = X.comp c l := by
      intro w nw hX
      rw [idle_wall _ true w (Or.inr nw), Except.ok.injEq] at hX
      rw [hX]
    cases w
    · exact wall _ hl (by simp only [fitsAcross]; omega) (by simpa [reflected, tangentialE] using hc) hX
    · exact wall _ hr (by simp only [fitsAcross]; omega) (by simpa [reflected, tangentialE] using hc) hX
    · exact idle _ (by rcases hp with h | h <;> simp [h.1]) hX
    · exact idle _ (by rcases hp with h | h <;> simp [h.2]) hX
  obtain ⟨F1, F2, F3, w1, w2, w3, w4⟩ := applyBcsFields_ok (hb r)
  rw [same _ _ _ w4, same _ _ _ w3, same _ _ _ w2, same _ _ _ w1, sent, he, assembleEM_comp]
  exact assemble_toGlob D g1 g2 (S := Unit) (P := Unit) (fun r _ _ => (F r).comp c) r' () () l' hl'

/-- The names under which neither the distribution function nor the fields raise. -/
def fieldBCs : List String := ["dirichlet", "mirror", "mirror+dirichlet", "periodic", "none"]

theorem syncedFields_named {o : BCOptions} (hn : ∀ w, o.name w ∈ fieldBCs) (hw : WidthsMatch g1 g2 o) (user : ∀ r, D.LocFieldBCs g1 g2 r K)
    (F : ∀ r, EM (D.Loc g1 g2 r) K) : ∃ F0, D.SyncedFields g1 g2 o user F F0 := by
  have ok : ∀ r w X, ∃ X', atWallFields (D.fieldEnv g1 g2 o r (user r)) true w X = .ok X' := by
    intro r w X
    by_cases ht : (D.fieldEnv g1 g2 o r (user r)).touches w = true
    · obtain ⟨-, -, c, d, e, f⟩ := C30_fields _ true w ht X
      have hm : (D.fieldEnv g1 g2 o r (user r)).name w ∈ fieldBCs := hn w
      simp only [fieldBCs, List.mem_cons, List.not_mem_nil, or_false] at hm
      rcases hm with h | h | h | h | h
      exacts [⟨_, e h⟩, ⟨_, d h⟩, ⟨_, f h⟩, ⟨_, c (by simp [h])⟩, ⟨_, c (by simp [h])⟩]
    · exact ⟨X, by rw [atWallFields, if_neg ht]⟩
  have all : ∀ r X, ∃ X', applyBcsFields (D.fieldEnv g1 g2 o r (user r)) true X = .ok X' := by
    intro r X
    obtain ⟨X1, h1⟩ := ok r .left X
    obtain ⟨X2, h2⟩ := ok r .right X1
    obtain ⟨X3, h3⟩ := ok r .bottom X2
    obtain ⟨X4, h4⟩ := ok r .top X3
    exact ⟨X4, by simp only [applyBcsFields, h1, h2, h3, h4, bind, Except.bind]⟩
  choose F0 h0 using fun r => all r (D.exchangeEM g1 g2 (petscAxisFields o.nGhost (o.name .left)).1
    (petscAxisFields o.nGhost (o.name .bottom)).1 F F r)
  exact ⟨F0, _, ⟨_, _, F, widths_fields g1 g2 hw, rfl⟩, h0⟩

theorem synced_named {o : BCOptions} (hn : ∀ w, o.name w ∈ fieldBCs) (hc : o.pGrid = "cartesian")
    (hs : ∃ x, setupBCs o.nGhost o.name = .ok x) (hw : WidthsMatch g1 g2 o) (dat : ∀ r, D.LocBCData g1 g2 r S Np1 Np2 Np3 K)
    (F : ∀ r, Dist S (PIdx Np1 Np2 Np3) (D.Loc g1 g2 r) K) : ∃ F0, D.Synced g1 g2 o dat F F0 := by
  have hset : setupBCs o.nGhost o.name = .ok (petscAxis o.nGhost (o.name .left), petscAxis o.nGhost (o.name .bottom)) := by
    obtain ⟨x, hx⟩ := hs
    unfold setupBCs at hx ⊢
    split_ifs at hx ⊢
    rfl
  have all : ∀ r X, ∃ X', applyBcsF (D.bcEnv g1 g2 o r (dat r)) X = .ok X' := by
    intro r X
    refine (C30_unknown_raises (D.bcEnv g1 g2 o r (dat r)) (fl := flipCartesian) (Or.inl ⟨hc, rfl⟩) X).2 ?_
    rintro ⟨w, -, hk⟩
    refine hk ?_
    have := hn w
    have e : (D.bcEnv g1 g2 o r (dat r)).name w = o.name w := rfl
    rw [e]
    simp only [fieldBCs, knownBCs, List.mem_cons, List.not_mem_nil, or_false] at this ⊢
    tauto
  choose F0 h0 using fun r => all r (D.exchange g1 g2 (petscAxis o.nGhost (o.name .left)).1 (petscAxis o.nGhost (o.name .bottom)).1 F F r)
  refine ⟨F0, (petscAxis o.nGhost (o.name .left)).1, (petscAxis o.nGhost (o.name .bottom)).1, F, ?_, h0⟩
  rw [hset, ← hw.1, ← hw.2]

/-- C68: coupled runs between walls exist: with kinetic electrons, cartesian momenta and any admissible combination of mirror, Dirichlet,
periodic or absent walls, no process raises. -/
theorem C68_run_exists {o : BCOptions} {c : CoupledConfig S (PIdx Np1 Np2 Np3) (ZMod N1 × ZMod N2) K} (hh : c.hybrid = false)
    (hi : Implemented c) (hn : ∀ w, o.name w ∈ fieldBCs) (hc : o.pGrid = "cartesian") (hs : ∃ x, setupBCs o.nGhost o.name = .ok x)
    (hw : WidthsMatch g1 g2 o) (hyb : S) (steps : List (K × D.CoupledInput g1 g2 S Np1 Np2 Np3 K))
    (F : ∀ r, Dist S (PIdx Np1 Np2 Np3) (D.Loc g1 g2 r) K) (σ : ∀ r, FieldState (D.Loc g1 g2 r) K) (b : Bool)
    (hb : ∀ r, (σ r).flag = b) : ∃ F' σ', D.RunCoupled g1 g2 o c hyb steps F σ F' σ' :=
  coupledRun_exists D g1 g2 (fun h => absurd h (by simp [hh])) hi hw hyb (synced_named D g1 g2 hn hc hs hw)
    (syncedFields_named D g1 g2 hn hw) steps F σ b hb

end Decomp

/-! ### Examples -/

/-- One process of four cells by four (one ghost cell), mirrors left and right, periodic bottom and top. -/
def c68Env : FieldBCEnv 4 4 ℚ :=
  ⟨1, fun w => match w with | .left | .right => "mirror" | .bottom | .top => "periodic", fun _ _ x => x, 0, 0, 2, 2, 2, 2⟩

def c68F : EM (ZMod 4 × ZMod 4) ℚ :=
  ⟨fun i => i.2.val, fun i => i.1.val ^ 2, fun i => i.1.val + i.2.val, fun _ => 1, fun _ => 2, fun _ => 3⟩

theorem c68_ok (b : Bool) : applyBcsFields c68Env b c68F = .ok (mirrorFields 1 .right b (mirrorFields 1 .left b c68F)) := by
  simp [applyBcsFields, atWallFields, applyWallFields, c68Env, FieldBCEnv.touches, bind, Except.bind]

theorem c68_other (i : ZMod 4 × ZMod 4) (w : Wall) (hw : w = .left ∨ w = .right)
    (hi : ∀ w', w' = .left ∨ w' = .right → w' ≠ w → ¬ inSlab c68Env.g w' i ∧ ¬ inSlab c68Env.g w' (reflectCell c68Env.g w i)) :
    ∀ w', w' ≠ w → idleWall c68Env w' ∨ (¬ inSlab c68Env.g w' i ∧ ¬ inSlab c68Env.g w' (reflectCell c68Env.g w i)) := by
  intro w' h
  cases w'
  · exact Or.inr (hi _ (Or.inl rfl) h)
  · exact Or.inr (hi _ (Or.inr rfl) h)
  · exact Or.inl (Or.inr (Or.inl rfl))
  · exact Or.inl (Or.inr (Or.inl rfl))

theorem c68_cast : (ZMod.cast (1 : ZMod 4) : ℚ) = 1 ∧ (ZMod.cast (2 : ZMod 4) : ℚ) = 2 := by
  constructor <;> rw [← ZMod.natCast_val]
  · norm_num [show ((1 : ZMod 4).val) = 1 by decide]
  · norm_num [show ((2 : ZMod 4).val) = 2 by decide]

/-- The ghost cell (0, 2) behind the left mirror shows the tangential `E2` of cell (1, 2), while its normal `E1` is left alone. -/
example : ∃ F', applyBcsFields c68Env true c68F = .ok F' ∧ F'.E2 (0, 2) = 1 ∧ F'.E1 (0, 2) = 2 ∧ F'.E2 (0, 2) = F'.E2 (1, 2) := by
  have ho := c68_other (0, 2) .left (Or.inl rfl) (by rintro w' (rfl | rfl) h <;> simp_all [inSlab, c68Env, reflectCell] <;> decide)
  have hi : inSlab c68Env.g .left ((0, 2) : ZMod 4 × ZMod 4) := by simp [inSlab, c68Env]
  have hr : reflectCell c68Env.g .left ((0, 2) : ZMod 4 × ZMod 4) = (1, 2) := by simp [reflectCell, c68Env]
  have v := c68_cast.1
  have v2 := c68_cast.2
  refine ⟨_, c68_ok true, ?_, ?_, ?_⟩
  · have := (C68_ghost_values c68Env true .left (by simp [fitsAcross, c68Env]) rfl _ _ (c68_ok true) 1 (0, 2) hi ho).1 rfl
    rw [hr] at this
    simpa [reflected, tangentialE, EM.comp, c68F, v] using this
  · have := (C68_ghost_values c68Env true .left (by simp [fitsAcross, c68Env]) rfl _ _ (c68_ok true) 0 (0, 2) hi ho).1 rfl
    simpa [reflected, tangentialE, EM.comp, c68F, v2] using this
  · have := C68_mirror_symmetric c68Env true .left (by simp [fitsAcross, c68Env]) rfl rfl _ _ (c68_ok true) 1 (by simp [reflected, tangentialE])
      (0, 2) hi ho
    rwa [hr] at this

/-- C68: what the comments in the code say of a mirror — that `B3` does not change there either — is false: it changes when the normal
electric field varies along the wall. -/
theorem C68_documented_B3_false : ¬ ∀ (env : FieldBCEnv 4 4 ℚ) (F F' : EM (ZMod 4 × ZMod 4) ℚ) (pr : FieldParams (ZMod 4 × ZMod 4) ℚ) (dt : ℚ)
    (i : ZMod 4 × ZMod 4), env.g = 1 → env.touches .left = true → env.name .left = "mirror" → applyBcsFields env true F = .ok F' →
    pr.q1 = (1, 0) → pr.q2 = (0, 1) → onWall env.g .left i → (evolveB pr dt F').B3 i = F'.B3 i := by
  intro h
  have h1 := h c68Env c68F _ ⟨(1, 0), (0, 1), 1, 1, 1, 1, false⟩ 1 (1, 2) rfl rfl rfl (c68_ok true) rfl rfl (by simp [onWall, c68Env]; decide)
  have h2 := (C68_mirror_wall_B c68Env .left (Or.inl rfl) (by simp [c68Env]) (by simp [c68Env]) rfl rfl _ _ (c68_ok true)
    ⟨(1, 0), (0, 1), 1, 1, 1, 1, false⟩ rfl rfl 1 (1, 2) (by simp [onWall, c68Env]; decide) (by
      intro w' hw'
      cases w'
      · exact absurd rfl hw'
      · exact Or.inr (by simp [inSlab, c68Env]; decide)
      · exact Or.inl (Or.inr (Or.inl rfl))
      · exact Or.inl (Or.inr (Or.inl rfl)))).2
  rw [h1] at h2
  have v := c68_cast.1
  have v2 := c68_cast.2
  have e : (2 - 1 : ZMod 4) = 1 := by decide
  have E1 : (mirrorFields 1 .right true (mirrorFields 1 .left true c68F)).E1 = c68F.E1 := rfl
  rw [E1] at h2
  simp [c68F, e, v, v2] at h2
  norm_num at h2

/-- Mirrors left and right of the six cells on two processes. -/
def c68Opt : BCOptions :=
  ⟨3, fun w => match w with | .left | .right => "mirror" | .bottom | .top => "none", "cartesian", "FVM"⟩

/-- A run between mirrors, of any number of steps on two processes: `B2` on the left mirror keeps its value, although the fields there
are advanced in every step. -/
example (n : ℕ) (dt : ℚ) (dat : ∀ r, exD.LocBCData 3 0 r Unit 2 1 1 ℚ) (user : ∀ r, exD.LocFieldBCs 3 0 r ℚ)
    [∀ r, Fintype (exD.Loc 3 0 r)] (σ : ∀ r, FieldState (exD.Loc 3 0 r) ℚ) (hb : ∀ r, (σ r).flag = true) :
    ∃ F' σ', exD.RunCoupled 3 0 c68Opt (c67Cfg false) () (List.replicate n (dt, ⟨fun _ _ => c67Cb, fun _ => dat, fun _ => user⟩))
        (fun r s p l => c67F s p (exD.toGlob 3 0 r l)) σ F' σ' ∧
      ∀ r l, exD.Interior 3 0 r l → (exD.toGlob 3 0 r l).1 = 0 → (σ' r).yee.B2 l = (σ r).yee.B2 l := by
  obtain ⟨F', σ', h⟩ := exD.C68_run_exists 3 0 (o := c68Opt) (c := c67Cfg false) rfl ⟨⟨.ppm, rfl⟩, ⟨.minmod, rfl⟩, fun _ => rfl⟩
    (by intro w; cases w <;> simp [c68Opt, Decomp.fieldBCs]) rfl ⟨_, rfl⟩ ⟨rfl, rfl⟩ ()
    (List.replicate n (dt, ⟨fun _ _ => c67Cb, fun _ => dat, fun _ => user⟩)) (fun r s p l => c67F s p (exD.toGlob 3 0 r l)) σ true hb
  exact ⟨F', σ', h, fun r l hl h0 => (exD.C68_wall_B_frozen 3 0 _ _ _ _ _ h r l hl).1 rfl (by omega) h0⟩

/-- Between these mirrors `E1` in the first ghost cell on the right (local cell 6 of the second process) is that of the first cell of the
first process, at the other end of the domain. -/
example (user : ∀ r, exD.LocFieldBCs 3 0 r ℚ) (F : ∀ r, EM (exD.Loc 3 0 r) ℚ) :
    ∃ F0, exD.SyncedFields 3 0 c68Opt user F F0 ∧ ∀ (l : exD.Loc 3 0 1) (l' : exD.Loc 3 0 0), l.1.val = 3 + exD.n1 1 → l'.1.val = 3 →
      (F0 1).E1 l = (F 0).E1 l' := by
  obtain ⟨F0, h⟩ := exD.syncedFields_named 3 0 (o := c68Opt) (by intro w; cases w <;> simp [c68Opt, Decomp.fieldBCs]) ⟨rfl, rfl⟩ user F
  refine ⟨F0, h, fun l l' e e' => exD.C68_walls_identified 3 0 rfl rfl (Or.inr ⟨rfl, rfl, rfl⟩) h 1 l 0 rfl 0 l' ?_ ?_⟩
  · have := ZMod.val_lt l'.2
    have p1 := exD.pos1 0
    exact ⟨⟨by omega, by omega⟩, by omega, by omega⟩
  · have f : exD.start1 1 + exD.n1 1 = 6 := rfl
    have f0 : exD.start1 0 = 0 := rfl
    refine Prod.ext ?_ (Subsingleton.elim _ _)
    simp only [Decomp.toGlob, globCoord, e, e', f0]
    push_cast
    have : ((exD.start1 1 + exD.n1 1 : ℕ) : ZMod 6) = 0 := by rw [f]; rfl
    push_cast at this
    linear_combination this

def c68Box : FieldBCEnv 4 4 ℚ := { c68Env with name := fun _ => "mirror" }

/-- The corner of two mirrors: the ghost cell (0, 0) shows `E3` of the cell (1, 1). -/
example : ∃ F', applyBcsFields c68Box true c68F = .ok F' ∧ F'.E3 (0, 0) = c68F.E3 (1, 1) ∧
    F'.E2 (0, 0) = c68F.E2 (1, 0) ∧ F'.B1 (0, 0) = c68F.B1 (0, 0) := by
  obtain ⟨F', hF⟩ : ∃ F', applyBcsFields c68Box true c68F = .ok F' :=
    ⟨_, by simp [applyBcsFields, atWallFields, applyWallFields, c68Box, c68Env, FieldBCEnv.touches, bind, Except.bind]; rfl⟩
  have h := fun c => C68_corner c68Box true .left .bottom (Or.inl rfl) (Or.inl rfl) (by simp [c68Box, c68Env]) (by simp [c68Box, c68Env])
    rfl rfl rfl rfl c68F F' hF c (0, 0) (by simp [inSlab, c68Box, c68Env]) (by simp [inSlab, c68Box, c68Env])
  refine ⟨F', hF, (h 2).trans ?_, (h 1).trans ?_, (h 3).trans ?_⟩ <;> simp [reflected, tangentialE, reflectCell, c68Box, c68Env, EM.comp]

end Bolt
