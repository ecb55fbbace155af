import Verif.Num
import Verif.Vec
import Verif.Represent
import Verif.Spec
import Verif.RealLemmas
import Verif.Forms
import Verif.ConvLemmas
import Verif.ConvLemmas2
import Verif.ConvTotal
import Verif.CrossDim
import Verif.Props.Convert
import Verif.Props.Dimension
import Verif.Props.Raising
import Verif.Arith
import Verif.ArithLemmas
import Verif.Props.Arith
import Verif.ConvIff
import Verif.Props.Exact
import Verif.Props.DimExact
import Verif.Props.EqExact
import Verif.Vel
import Verif.SpecVel
import Verif.VelLemmas
import Verif.DualConv
import Verif.DualConv2
import Verif.DualProlate
import Verif.DualTotal
import Verif.VelMain
import Verif.VelTotal
import Verif.VelLinear
import Verif.KindLemmas
import Verif.VelKind
import Verif.Props.Velocity
import Verif.Acc
import Verif.AccLemmas
import Verif.Props.Acceleration
import Verif.Props.AccExact
import Verif.Distance
import Verif.Props.Distance
import Verif.Four
import Verif.Op
import Verif.SpecOp
import Verif.OpLemmas
import Verif.Props.Operators
import Verif.Props.OpExact
import Verif.Props.FourVector
import Verif.Props.Simplify
import Verif.Props.SimplifyExact
import Verif.Props.PhaseExact
import Verif.Props.ShapeExact
import Verif.Props.OpVelocity
import Verif.Frame
import Verif.Props.Frames
import Verif.Units
import Verif.Props.Units
import Verif.Shape
import Verif.Props.Shape
import Verif.Props.ShapeND
import Verif.QBridge
import Verif.Props.QBridge
import Verif.Space
import Verif.Props.Space
import Verif.Props.Poincare
import Verif.Astropy
import Verif.Props.Astropy
import Verif.Batch
import Verif.BatchLemmas
import Verif.BatchSim
import Verif.BatchRules
import Verif.BatchFrom
import Verif.BatchMain
import Verif.BatchRep
import Verif.Props.Batch
import Verif.Construct
import Verif.Props.Construct
import Verif.CartArith
import Verif.Props.CartArith
import Verif.OpQty
import Verif.Props.OpQty
import Verif.BatchVel
import Verif.BatchShape
import Verif.BatchVelLemmas
import Verif.BatchVelMain
import Verif.BatchVelTotal
import Verif.Props.BatchVel
import Verif.BatchArith
import Verif.BatchArithLemmas
import Verif.BatchArithMore
import Verif.Props.BatchArith
import Verif.AngDist
import Verif.Props.AngDist
import Verif.BatchOp
import Verif.BatchOpLemmas
import Verif.BatchOpTotal
import Verif.BatchFour
import Verif.Props.BatchOp
import Verif.Props.BatchExact
import Verif.Props.BatchOpExact
import Verif.Props.BatchPair
import Verif.Props.BatchFour
import Verif.Prims
import Verif.Props.Prims
import Verif.Props.BatchCtor
import Verif.SpaceArr
import Verif.Props.SpaceArr
import Verif.UnitRep
import Verif.UnitLemmas
import Verif.UnitSim
import Verif.UnitRules
import Verif.UnitSelf
import Verif.UnitHom
import Verif.UnitVel
import Verif.UnitVelSim
import Verif.UnitVelMain
import Verif.Props.UnitRep
import Verif.UnitArith
import Verif.UnitArithSim
import Verif.UnitArithUnits
import Verif.Props.UnitArith
import Verif.UnitOp
import Verif.UnitOpSim
import Verif.Props.UnitOp
import Verif.UnitSimplify
import Verif.Props.UnitSimplify
import Verif.UnitFrame
import Verif.Props.UnitFrame
import Verif.SimplifyTol
import Verif.Props.SimplifyTol
import Verif.UnitSpace
import Verif.Props.UnitSpace
import Verif.BatchSpace
import Verif.Props.BatchSpace
import Verif.Flt
import Verif.Props.Flt
import Verif.Props.FltArith
import Verif.Dispatch
import Verif.DispatchLemmas
import Verif.Props.Dispatch
import Verif.Props.DispatchRep
import Verif.Props.Instances
import Verif.Props.DispatchOp
import Verif.FromDispatch
import Verif.Props.DispatchFrom
import Verif.Attribute
import Verif.Props.Attribute
import Verif.ClassGraph
import Verif.Props.ClassGraph
import Verif.OpFrom
import Verif.Props.OpFrom
import Verif.Props.Instances2
import Verif.SimplifyDispatch
import Verif.Props.SimplifyDispatch
import Verif.Props.Instances3
import Verif.FourAttr
import Verif.Props.FourAttr
import Verif.Display
import Verif.Props.Display
import Verif.Unchecked
import Verif.Props.Unchecked
import Verif.Checks
import Verif.Props.Checks
import Verif.Normalize
import Verif.Props.Normalize
import Verif.Props.Inertial
import Verif.Euler
import Verif.Props.Euler
