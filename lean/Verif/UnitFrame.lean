import Verif.Frame
import Verif.UnitSimplify

/-!
# Reference frames whose parameters, and arguments, carry units

The rules of `Verif/Frame.lean` (`_coordinax_space_frames`) once more, with a unit for every parameter of the frame and every
argument.
-/

namespace Verif

open Num

noncomputable section

/-- a Quantity of shape `(3,)` -/
@[ext] structure Q3 where
  values : Fin 3 → ℝ
  unit : RUnit

/-- `Galactocentric` (`_coordinax_space_frames/galactocentric.py` 25-79) -/
@[ext] structure GalactocentricU where
  /-- `galcen.lon` -/
  lon : UQ ℝ
  /-- `galcen.lat` -/
  lat : UQ ℝ
  /-- `galcen.distance` -/
  distance : Dist (UQ ℝ)
  /-- `roll` -/
  roll : UQ ℝ
  /-- `z_sun` -/
  zSun : UQ ℝ
  /-- `galcen_v_sun.x` -/
  vx : UQ ℝ
  /-- `galcen_v_sun.y` -/
  vy : UQ ℝ
  /-- `galcen_v_sun.z` -/
  vz : UQ ℝ

/-- `Galactocentric.roll0` (`galactocentric.py` 79) -/
def roll0U : UQ ℝ := ⟨58.5986320306, .deg⟩

/-- Frames, see `Frame` -/
inductive FrameU where
  | noFrame
  | icrs
  | gcf (g : GalactocentricU)

/-- `u.ustrip("deg", angles)`, then `Rotation.from_euler(..., degrees=True)` (`operators/galilean/rotation.py` 162): the angle that
the rotation matrix is made of -/
def eulerAngle (a : UQ ℝ) : Res ℝ := do return (← a.strip .deg) * (Real.pi / 180)

/-- a QRow of three values -/
def QRow.three (w : QRow) : Res Q3 :=
  match w.values with
  | [x, y, z] => .ok ⟨![x, y, z], w.unit⟩
  | _ => .error .noDispatch

/-- `q.uconvert(unit).value` for all components -/
def Q3.strip (w : Q3) (un : RUnit) : Res (Fin 3 → ℝ) := do
  let x ← (⟨w.values 0, w.unit⟩ : UQ ℝ).strip un
  let y ← (⟨w.values 1, w.unit⟩ : UQ ℝ).strip un
  let z ← (⟨w.values 2, w.unit⟩ : UQ ℝ).strip un
  return ![x, y, z]

/-- rotation, offset and velocity offset of a frame transform -/
structure FramePartsU where
  A : Mat3
  offset : Q3
  offsetV : Q3

/-- `_icrs_cartesian_to_gcf_cartesian_matrix_vectors` (`frame_transforms.py` 84-108). `ustrip("", z_sun / galcen.distance)` raises
for a `Parallax` or `DistanceModulus`. -/
def icrsToGcfPartsU (g : GalactocentricU) : Res FramePartsU := do
  let mat1 := eulerY (← eulerAngle g.lat)
  let mat2 := eulerZ (← eulerAngle g.lon.neg)
  let mat0 := eulerX (← eulerAngle (← g.roll.sub roll0U))
  let R := mat0 * mat1 * mat2
  let d ← g.distance.asLength
  let zd ← (← g.zSun.div d).strip .one
  let H := eulerY (← eulerAngle ⟨← asinR zd, .rad⟩)
  let v ← (← velToQuantityU (.cart3 g.vx g.vy g.vz)).three
  return ⟨H * R, ⟨(-H).mulVec (fun i => d.value * ![1, 0, 0] i), d.unit⟩, v⟩

/-- `_gcf_cartesian_to_icrs_cartesian_matrix_vectors` (`frame_transforms.py` 322-334) -/
def gcfToIcrsPartsU (g : GalactocentricU) : Res FramePartsU := do
  let P ← icrsToGcfPartsU g
  let A := P.A.transpose
  return ⟨A, ⟨A.mulVec (fun i => -P.offset.values i), P.offset.unit⟩, ⟨A.mulVec (fun i => -P.offsetV.values i), P.offsetV.unit⟩⟩

/-- the offset in the unit of the argument, with the rotation -/
def FramePartsU.at (P : FramePartsU) (un : RUnit) : Res FrameParts := do return ⟨P.A, ← P.offset.strip un, 0⟩

/-- `offset(A(q))` (`_call_q`, `frame_transforms.py` 204-207, 435-438): the rotation works in the unit of `q`, and the sum of
positions converts to the unit of its first operand -/
def callQU (P : FramePartsU) (q : Q3) : Res Q3 := do return ⟨callQ id (← P.at q.unit) q.values, q.unit⟩

/-- `jac @ p + offset_v` (`frame_transforms.py` 255-256, 487-488); the Jacobian has the unit of the result over that of `q` -/
def callPU (P : FramePartsU) (q p : Q3) : Res Q3 := do
  let P' ← P.at q.unit
  let un := (q.unit.div q.unit).mul p.unit
  let o ← P.offsetV.strip un
  return ⟨fun i => jacQ P' q.values i 0 * p.values 0 + jacQ P' q.values i 1 * p.values 1 + jacQ P' q.values i 2 * p.values 2 + o i, un⟩

/-- Argument tuples of a frame operator, see `FArg` -/
inductive FArgU where
  | qty (q : Q3)
  | qtys (q p : Q3)
  | pos (q : Pos (UQ ℝ))
  | vecs (q : Pos (UQ ℝ)) (p : Vel (UQ ℝ))

/-- `CartesianPos3D.from_(quantity)` -/
def posOfU (q : Q3) : Pos (UQ ℝ) := .cart3 ⟨q.values 0, q.unit⟩ ⟨q.values 1, q.unit⟩ ⟨q.values 2, q.unit⟩

/-- `CartesianVel3D.from_(quantity)` -/
def velOfU (q : Q3) : Vel (UQ ℝ) := .cart3 ⟨q.values 0, q.unit⟩ ⟨q.values 1, q.unit⟩ ⟨q.values 2, q.unit⟩

/-- `_ICRS2GCFOperator.__call__`, `_GCF2ICRSOperator.__call__` (`frame_transforms.py` 209-290, 440-523). The two operators convert
position and velocity in different orders (284-286, 516-517), which cannot be told apart here. -/
def callPartsU (P : FramePartsU) : FArgU → Res FArgU
  | .qty q => do return .qty (← callQU P q)
  | .qtys q p => do return .qtys (← callQU P q) (← callPU P q p)
  | .vecs qv pv =>
    if qv.kind.dim ≠ 3 then .error .noDispatch
    else do
      let p ← (← velToQuantityU (← representVelU {} pv .cart3 qv)).three
      let q ← (← toQuantityU qv).three
      return .vecs (posOfU (← callQU P q)) (velOfU (← callPU P q p))
  | .pos _ => .error .noDispatch

/-- Operators returned by `frame_transform_op`. -/
inductive FOpU where
  | identity
  | icrs2gcf (g : GalactocentricU)
  | gcf2icrs (g : GalactocentricU)
  | pipe (ops : List FOpU)

mutual
/-- `op(*args)`, see `FOp.call` (`operators/compat.py` 122-152 for Pipes on Quantities) -/
def FOpU.call : FOpU → FArgU → Res FArgU
  | .identity, a => .ok a
  | .icrs2gcf g, a => do callPartsU (← icrsToGcfPartsU g) a
  | .gcf2icrs g, a => do callPartsU (← gcfToIcrsPartsU g) a
  | .pipe ops, .qty q => do
    match ← fcallAllU ops (.pos (posOfU q)) with
    | .pos r => return .qty (← (← toQuantityU (← representAsU {} r .cart3)).three)
    | _ => .error .noDispatch
  | .pipe ops, a => fcallAllU ops a
/-- the loop of `Pipe.__call__` (`operators/pipe.py` 107-109, 131-133) -/
def fcallAllU : List FOpU → FArgU → Res FArgU
  | [], a => .ok a
  | o :: os, a => do fcallAllU os (← o.call a)
end

open Classical in
/-- `frame_transform_op` (`_src/frames/xfm.py`, `frame_transforms.py` 35-78, 293-316, 526-549). `from_frame == to_frame` compares
classes, units and stored numbers. -/
def frameTransformOpU : FrameU → FrameU → Res FOpU
  | .noFrame, _ => .error .frame
  | _, .noFrame => .error .frame
  | .icrs, .icrs => .ok .identity
  | .icrs, .gcf g => .ok (.icrs2gcf g)
  | .gcf g, .icrs => .ok (.gcf2icrs g)
  | .gcf g, .gcf h =>
    if g = h then .ok (.pipe [.identity]) else .ok (.pipe [.gcf2icrs g, .icrs2gcf h])

end

end Verif
