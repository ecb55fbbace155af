import Verif.BatchArith
import Verif.BatchVel
import Verif.Op

/-!
# Operators whose parameters and arguments are arrays

`Verif/Op.lean` transcribes `op(...)` for one element. Here the same rules are transcribed on arrays, on top of
`represent_as` (`Verif/Batch.lean`, `Verif/BatchVel.lean`) and `+` (`Verif/BatchArith.lean`) on arrays. Times in
seconds, lengths in AU, velocities in AU/s; `none` is NaN. The rotation matrix has shape `(3, 3)` (annotation of
`galilean/rotation.py` 121) and no NaN.
-/

namespace Verif

open Num

/-- `FourVector` (`d4/spacetime.py` 81-93); `c` has shape `()` (annotation, 90) and is not NaN -/
structure FourB where
  /-- time -/
  t : BArr
  /-- spatial part -/
  q : Pos BArr
  /-- speed of light -/
  c : ℝ

/-- `FourVector(t=t, q=q, c=c)`: the shape check (`d4/spacetime.py` 95-101): the shape of `t` broadcasts to that
of `q` -/
def mkFourB (t : BArr) (q : Pos BArr) (c : ℝ) : Res FourB := do
  let s ← q.shapeB
  let u ← bc2 t.shape s
  if u = s then .ok ⟨t, q, c⟩ else .error .value

/-- `v4 + v4'` (`d4/spacetime.py` 336): the times are added with numpy's rule, `replace` checks again -/
noncomputable def FourB.add (x y : FourB) : Res FourB := do
  let t ← badd x.t y.t
  let q ← addPosB x.q y.q
  mkFourB t q x.c

/-- `-v4` (`d4/spacetime.py` 208) -/
noncomputable def FourB.neg (x : FourB) : Res FourB := do
  let q ← negPosB x.q
  mkFourB (bneg x.t) q x.c

/-- Operators with array parameters; see `Op`. -/
inductive OpB where
  | identity
  | rotation (R : Mat3)
  | spatial (d : Pos BArr)
  | translation (d : FourB)
  | boost (v : Vel BArr)
  | vboost (v : Vel BArr)
  | galilean (R : Mat3) (d : FourB) (v : Vel BArr)
  | pipe (ops : List OpB)

/-- Argument tuples of `op(...)`. -/
inductive ArgB where
  | pos (q : Pos BArr)
  | posTime (q : Pos BArr) (t : BArr)
  | four (x : FourB)
  | posVel (q : Pos BArr) (p : Vel BArr)
  | vel (p : Vel BArr)

/-- `full_shaped` and `jnp.stack(..., axis=-1)` (`base/compat.py` 69-70, `_src/vectors/compat.py` 32) -/
def stackFull (l : List BArr) : Res BArr := do
  let s ← broadcastShapes (l.map fun a => a.shape)
  return stackB s (l.map fun a => a.broadcastTo s)

/-- `obj[..., k]`, as in `Cartesian...from_(obj)` (`d1/base.py` 72, `d2/cartesian.py` 74, `d3/cartesian.py` 91) -/
def sliceLast (k : ℕ) (a : BArr) : BArr := ⟨a.shape.dropLast, fun idx => a.get (idx ++ [k])⟩

/-- the index of an array of shape `s` that is read at `idx` of an array to which it is broadcast -/
def bcPos (s idx : List ℕ) : List ℕ := (bcIdxRev s.reverse idx.reverse).reverse

/-- one row of `R @ v` -/
noncomputable def rowEl (a b c : ℝ) (x y z : El) : El :=
  el2 (fun u v => .ok (u + v))
    (el2 (fun u v => .ok (u + v)) (el1 (fun v => .ok (a * v)) x) (el1 (fun v => .ok (b * v)) y))
    (el1 (fun v => .ok (c * v)) z)

/-- `vec_matmul(R, v)` (`galilean/rotation.py` 28): `jax.numpy.vectorize(matmul, signature="(3,3),(3)->(3)")`, the
same matrix for every vector on the last axis -/
noncomputable def vecMatmul (R : Mat3) (v : BArr) : Res BArr :=
  if v.shape.getLast? = some 3 then
    .ok ⟨v.shape, fun idx =>
      let i : Fin 3 := Fin.ofNat 3 (idx.getLastD 0)
      rowEl (R i 0) (R i 1) (R i 2) (v.get (idx.dropLast ++ [0])) (v.get (idx.dropLast ++ [1]))
        (v.get (idx.dropLast ++ [2]))⟩
  else .error .value

/-- rotation of a position (`galilean/rotation.py` 263-289) -/
noncomputable def rotPosB (R : Mat3) (q : Pos BArr) : Res (Pos BArr) :=
  if q.kind.dim ≠ 3 then .error .noDispatch
  else do
    match ← representAsB {} q .cart3 with
    | .cart3 x y z => do
      let w ← vecMatmul R (← stackFull [x, y, z])
      representAsB {} (.cart3 (sliceLast 0 w) (sliceLast 1 w) (sliceLast 2 w)) q.kind
    | _ => .error .noDispatch

/-- `vel * time` (`base/base_vel.py` 141-162): each field `d_k` times `t` (numpy's rule) becomes field `k` of the
position class; a missing or unknown field raises -/
noncomputable def velTimesB (v : Vel BArr) (t : BArr) : Res (Pos BArr) :=
  match v with
  | .cart1 a => do return .cart1 (← bmul a t)
  | .radial a => do mkRadialB (.dist (← bmul a t))
  | .cart2 a b => do return .cart2 (← bmul a t) (← bmul b t)
  | .polar a b => do mkPolarB (.dist (← bmul a t)) (.qty (← bmul b t))
  | .twoSphere a b => do mkTwoSphereB (← bmul a t) (.qty (← bmul b t))
  | .cart3 a b c => do return .cart3 (← bmul a t) (← bmul b t) (← bmul c t)
  | .cyl a b c => do mkCylB (← bmul a t) (.qty (← bmul b t)) (← bmul c t)
  | .sph a b c => do mkSphB (.dist (← bmul a t)) (← bmul b t) (.qty (← bmul c t))
  | .lonlat a b c => do mkLonLatB (.qty (← bmul a t)) (← bmul b t) (.dist (← bmul c t))
  | .lonCosLat _ _ _ => .error .badField
  | .math a b c => do mkMathB (.dist (← bmul a t)) (.qty (← bmul b t)) (← bmul c t)
  | .prolate _ _ _ => .error .missingDelta

/-- `p + p'` for velocities (`d1/cartesian.py` 206-232, `d2/cartesian.py` 218-237, `d3/cartesian.py` 276-291):
`jax.tree.map(qlax.add, lhs, rhs)` -/
noncomputable def addVelB : Vel BArr → Vel BArr → Res (Vel BArr)
  | .cart1 a, .cart1 a' => do return .cart1 (← laxAdd a a')
  | .cart2 a b, .cart2 a' b' => do return .cart2 (← laxAdd a a') (← laxAdd b b')
  | .cart3 a b c, .cart3 a' b' c' => do return .cart3 (← laxAdd a a') (← laxAdd b b') (← laxAdd c c')
  | _, _ => .error .noDispatch

/-- `GalileanRotation.__call__` (`galilean/rotation.py` 263-316); a `FourVector` goes through `compat.py` 190-218 -/
noncomputable def callRotationB (R : Mat3) : ArgB → Res ArgB
  | .pos q => do return .pos (← rotPosB R q)
  | .posTime q t => do return .posTime (← rotPosB R q) t
  | .four x => do return .four (← mkFourB x.t (← rotPosB R x.q) lightSpeed)
  | _ => .error .noDispatch

/-! ### the velocity part of a spatial translation -/

/-- fields of a Cartesian velocity; `convert(vel, Quantity)` (`_src/vectors/compat.py` 30-210) -/
def Vel.cartArrays : Vel BArr → Res (List BArr)
  | .cart1 a => .ok [a]
  | .cart2 a b => .ok [a, b]
  | .cart3 a b c => .ok [a, b, c]
  | _ => .error .noDispatch

/-- `Cartesian...from_(obj)` for a Quantity (`d1/base.py` 45-73, `d2/cartesian.py` 52-75, `d3/cartesian.py` 69-92): the
last axis has one entry per field -/
def cartPosOf (k : Kind) (w : BArr) : Res (Pos BArr) :=
  match k with
  | .cart1 => if w.shape.getLast? = some 1 then .ok (.cart1 (sliceLast 0 w)) else .error .value
  | .cart2 =>
    if w.shape.getLast? = some 2 then .ok (.cart2 (sliceLast 0 w) (sliceLast 1 w)) else .error .value
  | .cart3 =>
    if w.shape.getLast? = some 3 then .ok (.cart3 (sliceLast 0 w) (sliceLast 1 w) (sliceLast 2 w))
    else .error .value
  | _ => .error .noDispatch

/-- the same for velocities (`d1/base.py` 105-132, `d2/cartesian.py` 189-212, `d3/cartesian.py` 246-269) -/
def cartVelOf (k : VKind) (w : BArr) : Res (Vel BArr) :=
  match k with
  | .cart1 => if w.shape.getLast? = some 1 then .ok (.cart1 (sliceLast 0 w)) else .error .value
  | .cart2 =>
    if w.shape.getLast? = some 2 then .ok (.cart2 (sliceLast 0 w) (sliceLast 1 w)) else .error .value
  | .cart3 =>
    if w.shape.getLast? = some 3 then .ok (.cart3 (sliceLast 0 w) (sliceLast 1 w) (sliceLast 2 w))
    else .error .value
  | _ => .error .noDispatch

/-- `jacfwd(self.__call__)(q)` (`spatial_translation.py` 352) for a Quantity `q` of shape `s ++ [F]` and a result of
shape `o ++ [F]`: an array of shape `o ++ [F] ++ s ++ [F]`, the derivative of component `a` of element `i` of
the result by component `b` of element `j` of `q`. Simplification: the Jacobian of `q ↦ q + d` is written down (1
where `a = b` and element `i` of the result comes from element `j` of `q`, else 0) instead of being obtained by
running the addition on dual numbers; for one element `spatialJacobian` does the latter. -/
noncomputable def translationJacobian (o s : List ℕ) (F : ℕ) : BArr :=
  ⟨o ++ [F] ++ (s ++ [F]), fun idx =>
    let i := idx.take o.length
    let a := idx.getD o.length 0
    let j := (idx.drop (o.length + 1)).dropLast
    let b := idx.getLastD 0
    some (if a = b ∧ bcPos s i = j then 1 else 0)⟩

/-- `jnp.matmul(a, b)`, `a` of rank 2 or more: a vector on the right is contracted with the last axis; otherwise
the last axis of `a` is contracted with the last but one of `b` and the leading axes broadcast -/
noncomputable def matmulB (a b : BArr) : Res BArr :=
  let dot := fun (n : ℕ) (f g : ℕ → El) =>
    sumEl ((List.range n).map fun k => el2 (fun u v => .ok (u * v)) (f k) (g k))
  match a.shape.reverse, b.shape.reverse with
  | k :: r :: A, [k'] =>
    if k = k' then .ok ⟨(r :: A).reverse, fun idx => dot k (fun l => a.get (idx ++ [l])) (fun l => b.get [l])⟩
    else .error .value
  | k :: r :: A, c :: k' :: B =>
    if k = k' then do
      let u ← bc2 A.reverse B.reverse
      return ⟨u ++ [r, c], fun idx =>
        let h := idx.dropLast.dropLast
        let i := idx.dropLast.getLastD 0
        let j := idx.getLastD 0
        dot k (fun l => a.get (bcPos A.reverse h ++ [i, l])) (fun l => b.get (bcPos B.reverse h ++ [l, j]))⟩
    else .error .value
  | _, _ => .error .value

/-- velocity part of `GalileanSpatialTranslation` on `(q, p)` (`galilean/spatial_translation.py` 349-358). `self(q)` for
the Quantity `q` (352) goes through `compat.py` 43, 90, 150-152. -/
noncomputable def spatialVelB (d q newq : Pos BArr) (p : Vel BArr) : Res (Vel BArr) := do
  let qs ← toQuantityB q
  let qc ← cartPosOf q.kind.cartesian qs
  let pc ← representVelB {} p p.kind.cartesian qc
  let ps ← stackFull (← pc.cartArrays)
  let out ← toQuantityB (← addPosB qc d)
  let newp ← matmulB (translationJacobian out.shape.dropLast qs.shape.dropLast q.kind.dim) ps
  representVelB {} (← cartVelOf p.kind.cartesian newp) p.kind newq

/-- `GalileanSpatialTranslation.__call__` (`galilean/spatial_translation.py` 210-231, 263-360) -/
noncomputable def callSpatialB (d : Pos BArr) : ArgB → Res ArgB
  | .pos q => do return .pos (← addPosB q d)
  | .posTime q t => do return .posTime (← addPosB q d) t
  | .four x => do return .four (← mkFourB x.t (← addPosB x.q d) x.c)
  | .posVel q p => do
    let newq ← addPosB q d
    return .posVel newq (← spatialVelB d q newq p)
  | .vel _ => .error .noDispatch

/-- `GalileanTranslation.__call__` (`galilean/translation.py` 145-218) -/
noncomputable def callTranslationB (d : FourB) : ArgB → Res ArgB
  | .posTime q t =>
    if q.kind.dim ≠ 3 then .error .noDispatch
    else do return .posTime (← addPosB q d.q) (← badd t d.t)
  | .four x => do return .four (← x.add d)
  | _ => .error .noDispatch

/-- `GalileanBoost.__call__` (`galilean/boost.py` 127-176) -/
noncomputable def callBoostB (v : Vel BArr) : ArgB → Res ArgB
  | .posTime q t => do return .posTime (← addPosB q (← velTimesB v t)) t
  | .four x => do return .four (← mkFourB x.t (← addPosB x.q (← velTimesB v x.t)) x.c)
  | _ => .error .noDispatch

/-- `VelocityBoost.__call__` (`boost.py` 109-127, 159-259); a `FourVector` is rebuilt with its own fields -/
noncomputable def callVBoostB (v : Vel BArr) : ArgB → Res ArgB
  | .vel p => do return .vel (← addVelB p v)
  | .posVel q p => do return .posVel q (← addVelB p v)
  | .four x => do return .four (← mkFourB x.t x.q x.c)
  | a => .ok a

/-- is the argument a single velocity? -/
def ArgB.isVel : ArgB → Bool
  | .vel _ => true
  | _ => false

mutual
/-- `op(*args)` (`identity.py` 125-173, `pipe.py` 89-133, `galilean/composite.py` 159-164); see `Op.call` -/
noncomputable def OpB.call : OpB → ArgB → Res ArgB
  | .identity, a => .ok a
  | .rotation R, a => callRotationB R a
  | .spatial d, a => callSpatialB d a
  | .translation d, a => callTranslationB d a
  | .boost v, a => callBoostB v a
  | .vboost v, a => callVBoostB v a
  | .galilean R d v, a => do callBoostB v (← callTranslationB d (← callRotationB R a))
  | .pipe ops, a =>
    if a.isVel = true ∧ ops.length ≠ 1 then .error .typeError else callAllB ops a

/-- the loop of `Pipe.__call__` (`pipe.py` 107-109, 131-133) -/
noncomputable def callAllB : List OpB → ArgB → Res ArgB
  | [], a => .ok a
  | op :: ops, a => do callAllB ops (← op.call a)
end

end Verif
