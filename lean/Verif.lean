import Verif.Props.Recon
import Verif.Props.FVM
import Verif.Props.Positivity
import Verif.Props.Decomp
import Verif.Props.DecompExample
import Verif.Props.FDTD
import Verif.Props.Fields
import Verif.Props.Coupled
import Verif.Props.FFT
import Verif.Props.Boundaries
import Verif.Props.Walls
import Verif.Props.Shear
import Verif.Props.Box
import Verif.Props.BoxExample
import Verif.Props.Temporal
import Verif.Props.Layout
import Verif.Props.IO
import Verif.Props.Nonrel
import Verif.Props.Electronic
import Verif.Props.Linear
import Verif.Props.LinearFields
import Verif.Props.System
import Verif.Props.Reduce
import Verif.Props.Utils
import Verif.Props.ASL
import Verif.Props.LinearPhysics
import Verif.Props.LinearIO
import Verif.Props.CoupledDecomp
import Verif.Props.FieldWalls
import Verif.Props.Cover
import Verif.Props.Hybrid
import Verif.Props.Maxwell
import Verif.Props.LinearHybrid
import Verif.Spec.Convergence
import Verif.Spec.Accuracy
import Verif.Proofs.Convergence
import Verif.Props.Convergence
import Verif.Props.Accuracy
import Verif.Model.Diagnostics
import Verif.Spec.Force
import Verif.Proofs.Force
import Verif.Props.Diagnostics
import Verif.Props.Force
import Verif.Model.Pipeline
import Verif.Spec.Pipeline
import Verif.Proofs.Pipeline
import Verif.Props.Pipeline
import Verif.Model.Resume
import Verif.Proofs.Resume
import Verif.Props.Resume
import Verif.Props.TimeLevels
import Verif.Model.FieldInit
import Verif.Proofs.FieldInit
import Verif.Props.FieldInit
import Verif.Spec.Waves
import Verif.Proofs.Waves
import Verif.Props.Waves
import Verif.Proofs.Electrostatic
import Verif.Props.Electrostatic
import Verif.Model.Report
import Verif.Props.Report
import Verif.Props.ElectronicCurrents
import Verif.Proofs.HighOrder
import Verif.Props.HighOrder
import Verif.Proofs.Contraction
import Verif.Props.Contraction
import Verif.Proofs.StepMap
import Verif.Spec.Species
import Verif.Proofs.Species
import Verif.Props.Species
import Verif.Spec.Locality
import Verif.Proofs.Locality
import Verif.Props.Locality
import Verif.Spec.Symmetry
import Verif.Proofs.FieldMap
import Verif.Proofs.Exchange
import Verif.Proofs.Relabel
import Verif.Props.Symmetry
import Verif.Spec.Mirror
import Verif.Proofs.Mirror
import Verif.Props.Mirror
import Verif.Spec.UnitChange
import Verif.Proofs.UnitChange
import Verif.Props.UnitChange
import Verif.Spec.AslError
import Verif.Proofs.AslError
import Verif.Proofs.AslConverge
import Verif.Props.AslError
import Verif.Model.AslCoupled
import Verif.Proofs.AslCoupled
import Verif.Props.AslCoupled
import Verif.Spec.MaxwellConverge
import Verif.Proofs.FDTDNorm
import Verif.Proofs.MaxwellConverge
import Verif.Props.MaxwellConverge
import Verif.Spec.OpenBox
import Verif.Proofs.OpenBox
import Verif.Props.OpenBox
import Verif.Model.Schedule
import Verif.Spec.Schedule
import Verif.Proofs.Schedule
import Verif.Props.Schedule
import Verif.Spec.Vlasov
import Verif.Proofs.Vlasov
import Verif.Props.Vlasov
import Verif.Spec.Weno
import Verif.Props.Weno
import Verif.Model.Driver
import Verif.Spec.Driver
import Verif.Proofs.Driver
import Verif.Props.Driver
import Verif.Props.Recipe
import Verif.Props.Polar
import Verif.Props.Device
import Verif.Model.Coroutine
import Verif.Spec.Coroutine
import Verif.Proofs.Coroutine
import Verif.Proofs.CoroutineTotal
import Verif.Props.Coroutine
import Verif.Spec.Collisions
import Verif.Proofs.Quadrature
import Verif.Proofs.Collisions
import Verif.Props.Collisions
import Verif.Model.AslDecomp
import Verif.Spec.AslDecomp
import Verif.Props.AslDecomp
import Verif.Model.ShearBox
import Verif.Spec.ShearBox
import Verif.Proofs.ShearBox
import Verif.Props.ShearBox
import Verif.Proofs.ShearTotal
import Verif.Props.ShearTotal
import Verif.Props.ShearExample
import Verif.Props.ShearTotal2
import Verif.Model.MachineArith
import Verif.Spec.Rounding
import Verif.Proofs.MachineArith
import Verif.Proofs.Rounding
import Verif.Props.MachineArith
import Verif.Props.Rounding
import Verif.Props.RoundingDrift
import Verif.Props.RoundingExample
import Verif.Spec.MomentumEdge
import Verif.Proofs.MomentumEdge
import Verif.Props.MomentumEdge
import Verif.Props.MomentumEdgeExample
import Verif.Spec.Energy
import Verif.Proofs.Energy
import Verif.Props.Energy
import Verif.Spec.Oscillation
import Verif.Proofs.Oscillation
import Verif.Props.Oscillation
import Verif.Props.OscillationExample
import Verif.Model.MachineFields
import Verif.Spec.MachineFields
import Verif.Proofs.MachineFields
import Verif.Props.MachineFields
import Verif.Props.FieldDrift
import Verif.Props.FieldDriftExample
import Verif.Model.MachineCoupled
import Verif.Spec.MachineCoupled
import Verif.Proofs.MachineCoupled
import Verif.Props.MachineCoupled
import Verif.Props.CoupledDamage
import Verif.Props.MachineCoupledExample
import Verif.Model.ArrayProgram
import Verif.Spec.ArrayProgram
import Verif.Proofs.ArrayProgram
import Verif.Props.ArrayProgram
import Verif.Props.ArrayProgramExample
import Verif.Model.SpeciesParams
import Verif.Proofs.SpeciesParams
import Verif.Props.SpeciesParams
import Verif.Model.FieldArrays
import Verif.Spec.FieldArrays
import Verif.Proofs.FieldArrays
import Verif.Props.FieldArrays
import Verif.Props.FieldArraysExample
import Verif.Model.CollisionArrays
import Verif.Spec.CollisionArrays
import Verif.Proofs.CollisionArrays
import Verif.Props.CollisionArrays
import Verif.Props.CollisionArraysExample
import Verif.Model.BoundaryArrays
import Verif.Spec.BoundaryArrays
import Verif.Proofs.BoundaryArrays
import Verif.Props.BoundaryArrays
import Verif.Props.BoundaryArraysExample
import Verif.Spec.MachineBox
import Verif.Proofs.MachineBox
import Verif.Props.MachineBox
import Verif.Props.MachineBoxExample
import Verif.Model.FieldBoundaryArrays
import Verif.Spec.FieldBoundaryArrays
import Verif.Proofs.FieldBoundaryArrays
import Verif.Props.FieldBoundaryArrays
import Verif.Props.FieldBoundaryArraysExample
import Verif.Model.CoupledWallArrays
import Verif.Spec.CoupledWallArrays
import Verif.Props.CoupledWallArrays
import Verif.Props.CoupledWallArraysExample
import Verif.Model.ShearArrays
import Verif.Spec.ShearArrays
import Verif.Proofs.ShearArrays
import Verif.Props.ShearArrays
import Verif.Props.ShearArraysExample
import Verif.Model.AslArrays
import Verif.Spec.AslArrays
import Verif.Proofs.AslArrays
import Verif.Props.AslArrays
import Verif.Props.AslArraysExample
import Verif.Model.AslRunArrays
import Verif.Props.AslRunArrays
import Verif.Props.AslRunArraysExample
import Verif.Spec.LinConverge
import Verif.Proofs.LinConverge
import Verif.Props.LinConverge
