import Verif.Model.FVM

/-! Specification vocabulary for transport: outflow rate and discrete divergence of the interface velocities.
Only the interface velocities, the grid spacings and the switches of the configuration enter. -/

namespace Bolt

variable {K S P Q : Type} [Field K] [LinearOrder K] [AddCommGroup P] [AddCommGroup Q]

/-- Rate at which material leaves a cell through the two faces along one axis: `left`/`right` are the interface velocities
at the cell's left and right face, `d` the cell size. -/
def faceOutflow (left right d : K) : K := (max right 0 + max (-left) 0) / d

/-- Is momentum space advected by finite volumes? -/
def FVMConfig.advectsP (cfg : FVMConfig S K) : Prop := cfg.solverMethodInP = "FVM" ∧ cfg.fieldsEnabled = true

instance (cfg : FVMConfig S K) : Decidable cfg.advectsP := inferInstanceAs (Decidable (_ ∧ _))

/-- Total outflow rate of the phase-space cell `(s, p, q)` through all faces that are advected by finite volumes. -/
def outflowRate (ax : Axes P Q) (cfg : FVMConfig S K) (cb : Callbacks S P Q K) (s : S) (p : P) (q : Q) : K :=
  (if cfg.solverMethodInQ = "FVM" then
    faceOutflow (cb.Cq1 s p q) (cb.Cq1 s p (q + ax.q1)) cfg.dq1 + faceOutflow (cb.Cq2 s p q) (cb.Cq2 s p (q + ax.q2)) cfg.dq2
   else 0) +
  (if cfg.advectsP then
    faceOutflow (cb.Cp1 s p q) (cb.Cp1 s (p + ax.p1) q) (cfg.dp1 s) + faceOutflow (cb.Cp2 s p q) (cb.Cp2 s (p + ax.p2) q) (cfg.dp2 s)
      + faceOutflow (cb.Cp3 s p q) (cb.Cp3 s (p + ax.p3) q) (cfg.dp3 s)
   else 0)

/-- Discrete phase-space divergence of the interface velocities in the cell `(s, p, q)`. -/
def velocityDivergence (ax : Axes P Q) (cfg : FVMConfig S K) (cb : Callbacks S P Q K) (s : S) (p : P) (q : Q) : K :=
  (if cfg.solverMethodInQ = "FVM" then
    (cb.Cq1 s p (q + ax.q1) - cb.Cq1 s p q) / cfg.dq1 + (cb.Cq2 s p (q + ax.q2) - cb.Cq2 s p q) / cfg.dq2
   else 0) +
  (if cfg.advectsP then
    (cb.Cp1 s (p + ax.p1) q - cb.Cp1 s p q) / cfg.dp1 s + (cb.Cp2 s (p + ax.p2) q - cb.Cp2 s p q) / cfg.dp2 s
      + (cb.Cp3 s (p + ax.p3) q - cb.Cp3 s p q) / cfg.dp3 s
   else 0)

/-- Two callback records carry the same interface velocities. -/
def SameVelocities (a b : Callbacks S P Q K) : Prop :=
  a.Cq1 = b.Cq1 ∧ a.Cq2 = b.Cq2 ∧ a.Cp1 = b.Cp1 ∧ a.Cp2 = b.Cp2 ∧ a.Cp3 = b.Cp3

/-- Rate at which material enters a cell through its two faces along one axis when each neighbour's value is carried in. -/
def faceInflow {I : Type} [AddCommGroup I] (e : I) (C x : I → K) (d : K) (i : I) : K := (max (C i) 0 * x (i - e) + max (-(C (i + e))) 0 * x (i + e)) / d

/-- Rate at which material enters the phase-space cell `(s, p, q)` when each neighbour carries in its own value. -/
def inflow (ax : Axes P Q) (cfg : FVMConfig S K) (cb : Callbacks S P Q K) (f : Dist S P Q K) (s : S) (p : P) (q : Q) : K :=
  (if cfg.solverMethodInQ = "FVM" then
    faceInflow ax.q1 (cb.Cq1 s p) (f s p) cfg.dq1 q + faceInflow ax.q2 (cb.Cq2 s p) (f s p) cfg.dq2 q else 0) +
  (if cfg.advectsP then
    faceInflow ax.p1 (fun p => cb.Cp1 s p q) (fun p => f s p q) (cfg.dp1 s) p
    + faceInflow ax.p2 (fun p => cb.Cp2 s p q) (fun p => f s p q) (cfg.dp2 s) p
    + faceInflow ax.p3 (fun p => cb.Cp3 s p q) (fun p => f s p q) (cfg.dp3 s) p else 0)

end Bolt
