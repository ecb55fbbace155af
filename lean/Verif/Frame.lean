import Verif.Op

/-!
# Reference frames (`_src/frames`, `/repo/src/coordinax/_coordinax_space_frames`)

Angles in radians, lengths in AU, velocities in AU/s. Quantities of shape `(3,)` are functions
`Fin 3 → ℝ`.
-/

namespace Verif

/-- `Galactocentric` (`_coordinax_space_frames/galactocentric.py` 25-79): `galcen` is a
`LonLatSphericalPos` (its three fields here), `galcen_v_sun` a `CartesianVel3D`. -/
structure Galactocentric where
  /-- `galcen.lon` -/
  lon : ℝ
  /-- `galcen.lat` -/
  lat : ℝ
  /-- `galcen.distance` -/
  distance : Dist ℝ
  /-- `roll` -/
  roll : ℝ
  /-- `z_sun` -/
  zSun : ℝ
  /-- `galcen_v_sun` -/
  vSun : Fin 3 → ℝ

/-- `Galactocentric.roll0`, 58.5986320306 deg (`galactocentric.py` 79) -/
noncomputable def roll0 : ℝ := 58.5986320306 * (Real.pi / 180)

/-- Frames: `NoFrame` (`_src/frames/null.py`), `ICRS` (`icrs.py`), `Galactocentric`. -/
inductive Frame where
  | noFrame
  | icrs
  | gcf (g : Galactocentric)

/-- `GalileanRotation.from_euler("x", angle)` (`operators/galilean/rotation.py` 141-164;
`jax.scipy.spatial.transform.Rotation.from_euler` is trusted to give the rotation about the axis) -/
noncomputable def eulerX (a : ℝ) : Mat3 :=
  !![1, 0, 0; 0, Real.cos a, -Real.sin a; 0, Real.sin a, Real.cos a]

/-- `GalileanRotation.from_euler("y", angle)` -/
noncomputable def eulerY (a : ℝ) : Mat3 :=
  !![Real.cos a, 0, Real.sin a; 0, 1, 0; -Real.sin a, 0, Real.cos a]

/-- `GalileanRotation.from_euler("z", angle)` -/
noncomputable def eulerZ (a : ℝ) : Mat3 :=
  !![Real.cos a, -Real.sin a, 0; Real.sin a, Real.cos a, 0; 0, 0, 1]

/-- `xp.asin` -/
noncomputable def asinR (x : ℝ) : Res ℝ :=
  if x < -1 ∨ 1 < x then .error .nonFinite else .ok (Real.arcsin x)

/-- rotation, offset and velocity offset of a frame transform -/
structure FrameParts where
  A : Mat3
  offset : Fin 3 → ℝ
  offsetV : Fin 3 → ℝ

/-- `_icrs_cartesian_to_gcf_cartesian_matrix_vectors` (`frame_transforms.py` 84-108). The ratio
`z_sun / galcen.distance` must be a pure number: a `Parallax` or `DistanceModulus` raises. -/
noncomputable def icrsToGcfParts (g : Galactocentric) : Res FrameParts := do
  let mat1 := eulerY g.lat
  let mat2 := eulerZ (-g.lon)
  let mat0 := eulerX (g.roll - roll0)
  let R := mat0 * mat1 * mat2
  let d ← g.distance.asLength
  let zd ← Num.div g.zSun d
  let H := eulerY (← asinR zd)
  return ⟨H * R, (-H).mulVec (fun i => d * ![1, 0, 0] i), g.vSun⟩

/-- `_gcf_cartesian_to_icrs_cartesian_matrix_vectors` (`frame_transforms.py` 322-334) -/
noncomputable def gcfToIcrsParts (g : Galactocentric) : Res FrameParts := do
  let P ← icrsToGcfParts g
  let A := P.A.transpose
  return ⟨A, A.mulVec (fun i => -P.offset i), A.mulVec (fun i => -P.offsetV i)⟩

/-- `offset(A(q))` (`_call_q`, `frame_transforms.py` 204-207, 435-438), for values and for dual
numbers; `c` embeds constants. -/
def callQ {α : Type} [Num α] (c : ℝ → α) (P : FrameParts) (q : Fin 3 → α) (i : Fin 3) : α :=
  c (P.A i 0) * q 0 + c (P.A i 1) * q 1 + c (P.A i 2) * q 2 + c (P.offset i)

/-- `jacfwd(self._call_q)(q)` (`frame_transforms.py` 255, 487), entry `i, j` -/
noncomputable def jacQ (P : FrameParts) (q : Fin 3 → ℝ) (i j : Fin 3) : ℝ :=
  (callQ Dual.const P (fun k => (⟨q k, if k = j then 1 else 0⟩ : Dual)) i).du

/-- new velocity: `jac @ p + offset_v` (`frame_transforms.py` 256, 488) -/
noncomputable def callP (P : FrameParts) (q p : Fin 3 → ℝ) (i : Fin 3) : ℝ :=
  jacQ P q i 0 * p 0 + jacQ P q i 1 * p 1 + jacQ P q i 2 * p 2 + P.offsetV i

/-- Argument tuples of a frame operator: a length Quantity, a length and a speed Quantity (shape
`(3,)`), a position vector, a position and a velocity vector. -/
inductive FArg where
  | qty (q : Fin 3 → ℝ)
  | qtys (q p : Fin 3 → ℝ)
  | pos (q : Pos ℝ)
  | vecs (q : Pos ℝ) (p : Vel ℝ)

/-- `CartesianPos3D.from_(quantity)` -/
def posOf (q : Fin 3 → ℝ) : Pos ℝ := .cart3 (q 0) (q 1) (q 2)

/-- `CartesianVel3D.from_(quantity)` -/
def velOf (p : Fin 3 → ℝ) : Vel ℝ := .cart3 (p 0) (p 1) (p 2)

/-- a Quantity of shape `(3,)` from its components -/
def qty3 : List ℝ → Res (Fin 3 → ℝ)
  | [x, y, z] => .ok ![x, y, z]
  | _ => .error .noDispatch

/-- `_ICRS2GCFOperator.__call__`, `_GCF2ICRSOperator.__call__` (`frame_transforms.py` 209-290,
440-523). There is no rule for a position vector alone. -/
noncomputable def callParts (P : FrameParts) : FArg → Res FArg
  | .qty q => .ok (.qty (callQ id P q))
  | .qtys q p => .ok (.qtys (callQ id P q) (callP P q p))
  | .vecs qv pv =>
    if qv.kind.dim ≠ 3 then .error .noDispatch
    else do
      let p ← qty3 (← velToQuantity (← representVel {} pv .cart3 qv))
      let q ← qty3 (← toQuantity qv)
      return .vecs (posOf (callQ id P q)) (velOf (callP P q p))
  | .pos _ => .error .noDispatch

/-- Operators returned by `frame_transform_op`. -/
inductive FOp where
  | identity
  | icrs2gcf (g : Galactocentric)
  | gcf2icrs (g : Galactocentric)
  | pipe (ops : List FOp)

mutual
/-- `op(*args)`. A Pipe applied to a length Quantity goes through `CartesianPos3D`
(`operators/compat.py` 122-152). -/
noncomputable def FOp.call : FOp → FArg → Res FArg
  | .identity, a => .ok a
  | .icrs2gcf g, a => do callParts (← icrsToGcfParts g) a
  | .gcf2icrs g, a => do callParts (← gcfToIcrsParts g) a
  | .pipe ops, .qty q => do
    match ← fcallAll ops (.pos (posOf q)) with
    | .pos r => return .qty (← qty3 (← toQuantity (← representAs {} r .cart3)))
    | _ => .error .noDispatch
  | .pipe ops, a => fcallAll ops a
/-- the loop of `Pipe.__call__` (`operators/pipe.py` 107-109, 131-133) -/
noncomputable def fcallAll : List FOp → FArg → Res FArg
  | [], a => .ok a
  | o :: os, a => do fcallAll os (← o.call a)
end

mutual
/-- `op.inverse` (`frame_transforms.py` 187-202, 418-433, `operators/composite.py` 44-63) -/
def FOp.inverse : FOp → FOp
  | .identity => .identity
  | .icrs2gcf g => .gcf2icrs g
  | .gcf2icrs g => .icrs2gcf g
  | .pipe ops => .pipe (finverseAll ops)
/-- inverses in reverse order -/
def finverseAll : List FOp → List FOp
  | [] => []
  | o :: os => finverseAll os ++ [o.inverse]
end

open Classical in
/-- `frame_transform_op` (`_src/frames/xfm.py`, `frame_transforms.py` 35-78, 293-316, 526-549). The
comparison of two frames looks at the stored numbers and units; here at the values. -/
noncomputable def frameTransformOp : Frame → Frame → Res FOp
  | .noFrame, _ => .error .frame
  | _, .noFrame => .error .frame
  | .icrs, .icrs => .ok .identity
  | .icrs, .gcf g => .ok (.icrs2gcf g)
  | .gcf g, .icrs => .ok (.gcf2icrs g)
  | .gcf g, .gcf h =>
    if g = h then .ok (.pipe [.identity]) else .ok (.pipe [.gcf2icrs g, .icrs2gcf h])

end Verif
