import Verif.OpQty
import Verif.Units

/-!
# Making a `GalileanRotation` from Euler angles and from arrays

`_src/operators/galilean/rotation.py` 33-41 (`converter`), 121 (the field), 142-164 (`from_euler`). `from_euler` is `Rotation.from_euler(seq, angles in
degrees, degrees=True).as_matrix()` of `jax.scipy.spatial.transform`; that library is modelled after its source: the sequence of letters is checked, each
angle makes a unit quaternion, the quaternions are multiplied in an order given by the case of the letters, and the product is turned into a matrix.
`OpQty.fromEuler` takes the product of matrices as given; here it is derived (`C87_refines`).
There is one angle for each letter in the model (one angle of any batch shape is not modelled: the field holds one 3 × 3 matrix).
-/

namespace Verif

/-- a quaternion `(x, y, z, w)`, scalar part last as in `jax.scipy` -/
@[ext] structure Quat where
  x : ℝ
  y : ℝ
  z : ℝ
  w : ℝ

/-- `_make_elementary_quat(axis, angle)`: rotation about one axis by `angle` radians -/
noncomputable def elemQuat : Axis → ℝ → Quat
  | .x, a => ⟨Real.sin (a / 2), 0, 0, Real.cos (a / 2)⟩
  | .y, a => ⟨0, Real.sin (a / 2), 0, Real.cos (a / 2)⟩
  | .z, a => ⟨0, 0, Real.sin (a / 2), Real.cos (a / 2)⟩

/-- `_compose_quat(p, q)` -/
def composeQuat (p q : Quat) : Quat :=
  ⟨p.w * q.x + q.w * p.x + (p.y * q.z - p.z * q.y),
   p.w * q.y + q.w * p.y + (p.z * q.x - p.x * q.z),
   p.w * q.z + q.w * p.z + (p.x * q.y - p.y * q.x),
   p.w * q.w - p.x * q.x - p.y * q.y - p.z * q.z⟩

/-- `_as_matrix(quat)` -/
def quatMatrix (q : Quat) : Mat3 :=
  !![q.x * q.x - q.y * q.y - q.z * q.z + q.w * q.w, 2 * (q.x * q.y - q.z * q.w), 2 * (q.x * q.z + q.y * q.w);
     2 * (q.x * q.y + q.z * q.w), -(q.x * q.x) + q.y * q.y - q.z * q.z + q.w * q.w, 2 * (q.y * q.z - q.x * q.w);
     2 * (q.x * q.z - q.y * q.w), 2 * (q.y * q.z + q.x * q.w), -(q.x * q.x) - q.y * q.y + q.z * q.z + q.w * q.w]

/-- the loop of `_elementary_quat_compose` over the remaining axes -/
noncomputable def composeRest (intrinsic : Bool) : Quat → List (Axis × ℝ) → Quat
  | r, [] => r
  | r, (k, a) :: l =>
    composeRest intrinsic (if intrinsic then composeQuat r (elemQuat k a) else composeQuat (elemQuat k a) r) l

/-- a letter of `seq`, and whether it is a capital -/
def letterOf : Char → Option (Axis × Bool)
  | 'X' => some (.x, true)
  | 'Y' => some (.y, true)
  | 'Z' => some (.z, true)
  | 'x' => some (.x, false)
  | 'y' => some (.y, false)
  | 'z' => some (.z, false)
  | _ => none

/-- two equal letters beside each other -/
def hasRepeat : List Axis → Bool
  | a :: b :: l => decide (a = b) || hasRepeat (b :: l)
  | _ => false

/-- the checks of `Rotation.from_euler`: one to three letters, all of them `XYZ` or all of them `xyz`, no equal neighbours; else a `ValueError` -/
def parseSeq (seq : List Char) : Option (Bool × List Axis) :=
  match seq.mapM letterOf with
  | none => none
  | some ls =>
    if ls.length < 1 ∨ 3 < ls.length then none
    else if hasRepeat (ls.map Prod.fst) then none
    else if ls.all Prod.snd then some (true, ls.map Prod.fst)
    else if ls.all (fun l => !l.2) then some (false, ls.map Prod.fst)
    else none

/-- A Quantity: value, physical type, factor of the unit (radians for angles, 1 for `""`) -/
structure NumQty where
  val : ℝ
  dim : Dim
  factor : ℝ

/-- the radians that `from_euler` works with: `u.ustrip("deg", angle)` (`rotation.py` 162), then `deg2rad` -/
noncomputable def eulerRadians (a : NumQty) : Res ℝ :=
  if a.dim = Dim.ang then .ok (a.val * a.factor / (Real.pi / 180) * (Real.pi / 180)) else .error .units

/-- `GalileanRotation.from_euler(seq, angles)` (`rotation.py` 142-164). With a number of angles other than the number of letters the model gives an error;
what the program does then is not claimed. -/
noncomputable def fromEulerCall (seq : List Char) (angles : List NumQty) : Res Op := do
  let rad ← angles.mapM eulerRadians
  match parseSeq seq with
  | none => .error .value
  | some (intrinsic, axes) =>
    if axes.length = rad.length then
      match axes.zip rad with
      | [] => .error .value
      | (k, a) :: l => .ok (.rotation (quatMatrix (composeRest intrinsic (elemQuat k a) l)))
    else .error .value

/-- What the constructor may be given -/
inductive RotArg where
  /-- another `GalileanRotation` -/
  | op (R : Mat3)
  /-- a Quantity of shape (3, 3): values, physical type, factor of the unit -/
  | qty (R : Mat3) (dim : Dim) (factor : ℝ)
  /-- an array -/
  | arr (R : Mat3)

/-- `GalileanRotation(x)`: `converter` (`rotation.py` 33-41) -/
noncomputable def mkRotation : RotArg → Res Op
  | .op R => .ok (.rotation R)
  | .qty R d f => if d = {} then .ok (.rotation fun i j => R i j * f) else .error .units
  | .arr R => .ok (.rotation R)

end Verif
