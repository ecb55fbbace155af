import Verif.FromDispatch

/-!
# The graph of vector classes

`differential_cls`, `integral_cls` and `_cartesian_cls` are `classproperty`s (`_src/utils.py` 105-140): looked up along the bases
of the class, and run on the class. This file models the definitions in all vector classes, the lookup for user classes with
or without definitions of their own, and how products with times rename the components.
-/

namespace Verif

/-- What reading such an attribute of a class gives: a class; `NotImplementedError`; `None`, where the body is `...`;
`AttributeError`, where no base has a definition -/
inductive ClsAns where
  | cls (c : Cls)
  | notImplemented
  | pyNone
  | attributeError
  deriving DecidableEq, Repr

/-- `return C` in a class of `coordinax` -/
def ret (b : Base) : Option ClsAns := some (.cls (.lib b))

/-- `differential_cls` in the class body, if it is there. `base/base_pos.py` 69-86, `base/base_vel.py` 78-95, `d1/base.py` 35-39,
95-99, `d1/cartesian.py` 57-60, 181-184, `d1/radial.py` 35-38, 53-56, `d2/base.py` 27-31, 53-57, `d2/cartesian.py` 46-49, 183-186,
`d2/polar.py` 56-59, 117-120, `d2/spherical.py` 82-85, 155-158, `d3/base.py` 29-33, 52-56, `d3/base_spherical.py` 26-29, 42-45,
`d3/cartesian.py` 58-62, 223-226, `d3/cylindrical.py` 58-61, 106-109, `d3/spherical.py` 74-77, 191-194, `d3/lonlatspherical.py`
124-127, 272-275, 302-305, `d3/mathspherical.py` 79-82, 251-254, `d3/spheroidal.py` 122-125, 152-155, `d4/base.py` 24-29,
`d4/spacetime.py` 181-186, `dn/base.py` 37-42, `dn/cartesian.py` 92-95, 349-352, 506-520, `dn/poincare.py` 55-59 -/
def Base.ownDiff : Base → Option ClsAns
  | .pos | .pos1 | .pos2 | .pos3 | .pos4 | .fourVector | .posN | .poincare => some .notImplemented
  | .vel | .vel1 | .vel2 | .vel3 | .cartAccN => some .notImplemented
  | .sphericalPos | .sphericalVel => some .pyNone
  | .cartPos1 => ret .cartVel1
  | .radialPos => ret .radialVel
  | .cartPos2 => ret .cartVel2
  | .polarPos => ret .polarVel
  | .twoSpherePos => ret .twoSphereVel
  | .cartPos3 => ret .cartVel3
  | .cylPos => ret .cylVel
  | .sphPos => ret .sphVel
  | .lonlatPos => ret .lonlatVel
  | .mathPos => ret .mathVel
  | .prolatePos => ret .prolateVel
  | .cartPosN => ret .cartVelN
  | .cartVel1 => ret .cartAcc1
  | .radialVel => ret .radialAcc
  | .cartVel2 => ret .cartAcc2
  | .polarVel => ret .polarAcc
  | .twoSphereVel => ret .twoSphereAcc
  | .cartVel3 => ret .cartAcc3
  | .cylVel => ret .cylAcc
  | .sphVel => ret .sphAcc
  | .lonlatVel => ret .lonlatAcc
  | .lonCosLatVel => ret .lonlatAcc
  | .mathVel => ret .mathAcc
  | .prolateVel => ret .prolateAcc
  | .cartVelN => ret .cartAccN
  | _ => none

/-- `integral_cls` in the class body. `base/base_vel.py` 59-76, `base/base_acc.py` 61-78, `d1/base.py` 89-93, 149-153,
`d1/cartesian.py` 175-178, 273-276, `d1/radial.py` 48-51, 71-74, `d2/base.py` 47-51, 73-77, `d2/cartesian.py` 178-181, 281-284,
`d2/polar.py` 112-115, 137-140, `d2/spherical.py` 149-152, 216-219, `d3/base.py` 46-50, 69-73, `d3/base_spherical.py` 36-39,
52-55, `d3/cartesian.py` 217-220, 331-334, `d3/cylindrical.py` 101-104, 131-134, `d3/spherical.py` 186-189, 219-222,
`d3/lonlatspherical.py` 267-270, 297-300, 330-333, `d3/mathspherical.py` 245-248, 280-283, `d3/spheroidal.py` 147-150, 177-180,
`dn/base.py` 174-179, 313-317, `dn/cartesian.py` 343-346, 492-504 -/
def Base.ownInt : Base → Option ClsAns
  | .vel | .vel1 | .vel2 | .vel3 | .velN | .acc | .acc1 | .acc2 | .acc3 | .accN => some .notImplemented
  | .sphericalVel | .sphericalAcc => some .pyNone
  | .cartVel1 => ret .cartPos1
  | .radialVel => ret .radialPos
  | .cartVel2 => ret .cartPos2
  | .polarVel => ret .polarPos
  | .twoSphereVel => ret .twoSpherePos
  | .cartVel3 => ret .cartPos3
  | .cylVel => ret .cylPos
  | .sphVel => ret .sphPos
  | .lonlatVel => ret .lonlatPos
  | .lonCosLatVel => ret .lonlatPos
  | .mathVel => ret .mathPos
  | .prolateVel => ret .prolatePos
  | .cartVelN => ret .cartPosN
  | .cartAcc1 => ret .cartVel1
  | .radialAcc => ret .radialVel
  | .cartAcc2 => ret .cartVel2
  | .polarAcc => ret .polarVel
  | .twoSphereAcc => ret .twoSphereVel
  | .cartAcc3 => ret .cartVel3
  | .cylAcc => ret .cylVel
  | .sphAcc => ret .sphVel
  | .lonlatAcc => ret .lonlatVel
  | .mathAcc => ret .mathVel
  | .prolateAcc => ret .prolateVel
  | .cartAccN => ret .cartVelN
  | _ => none

/-- `_cartesian_cls` in the class body. `base/base_pos.py` 49-67, `base/base_vel.py` 39-57, `base/base_acc.py` 41-59,
`d1/base.py` 27-33, 81-87, 141-147, `d2/base.py` 19-25, 39-45, 65-71, `d3/base.py` 21-27, 38-44, 61-67, `d4/base.py` 18-22,
`d4/spacetime.py` 174-179, `dn/base.py` 29-35, 157-172, 296-311, `dn/poincare.py` 48-53 -/
def Base.ownCart : Base → Option ClsAns
  | .pos | .vel | .acc | .pos4 | .fourVector | .poincare => some .notImplemented
  | .pos1 => ret .cartPos1
  | .pos2 => ret .cartPos2
  | .pos3 => ret .cartPos3
  | .posN => ret .cartPosN
  | .vel1 => ret .cartVel1
  | .vel2 => ret .cartVel2
  | .vel3 => ret .cartVel3
  | .velN => ret .cartVelN
  | .acc1 => ret .cartAcc1
  | .acc2 => ret .cartAcc2
  | .acc3 => ret .cartAcc3
  | .accN => ret .cartAccN
  | _ => none

/-- Definitions in users' classes -/
abbrev Overrides := Cls → Option ClsAns

/-- the first definition along the bases of a class of `coordinax` -/
def Base.lookupAttr (own : Base → Option ClsAns) (b : Base) : ClsAns := (b.mro.findSome? own).getD .attributeError

/-- Reading the attribute of a class: the definition of the class itself or of the nearest base -/
def Cls.attr (own : Base → Option ClsAns) (ov : Overrides) : Cls → ClsAns
  | .lib b => b.lookupAttr own
  | .user p n => (ov (.user p n)).getD (p.attr own ov)

/-- `cls.differential_cls` -/
def Cls.differential (ov : Overrides) (c : Cls) : ClsAns := c.attr Base.ownDiff ov

/-- `cls.integral_cls` -/
def Cls.integral (ov : Overrides) (c : Cls) : ClsAns := c.attr Base.ownInt ov

/-- `cls._cartesian_cls` -/
def Cls.cartesian (ov : Overrides) (c : Cls) : ClsAns := c.attr Base.ownCart ov

/-! ### Names of components -/

/-- `k[2:]` (`_src/vectors/base/base_vel.py` 162) -/
def velKey (k : List Char) : List Char := k.drop 2

/-- `k.replace("2", "")` (`_src/vectors/base/base_acc.py` 149) -/
def accKey (k : List Char) : List Char := k.filter (· ≠ '2')

/-- `k.replace("d2_", "")` (`_src/vectors/base/base_acc.py` 197) -/
def accKey2 : List Char → List Char
  | [] => []
  | [a] => [a]
  | [a, b] => [a, b]
  | a :: b :: c :: r => if a = 'd' ∧ b = '2' ∧ c = '_' then accKey2 r else a :: accKey2 (b :: c :: r)

/-- `cls.components` of the concrete classes; `q`, `d_q`, `d2_q` of the N-D classes (`dn/cartesian.py` 74-90, 329-340,
478-489) -/
def Base.compKeys : Base → Option (List (List Char))
  | .cartPosN => some ["q".toList]
  | .cartVelN => some ["d_q".toList]
  | .cartAccN => some ["d2_q".toList]
  | b => match [VCls.pos .cart1, .pos .radial, .pos .cart2, .pos .polar, .pos .twoSphere, .pos .cart3, .pos .cyl, .pos .sph,
      .pos .lonlat, .pos .math, .pos .prolate, .vel .cart1, .vel .radial, .vel .cart2, .vel .polar, .vel .twoSphere, .vel .cart3,
      .vel .cyl, .vel .sph, .vel .lonlat, .vel .lonCosLat, .vel .math, .vel .prolate, .acc .cart1, .acc .radial, .acc .cart2,
      .acc .polar, .acc .twoSphere, .acc .cart3, .acc .cyl, .acc .sph, .acc .lonlat, .acc .math, .acc .prolate].find?
      (fun c => c.base == some b) with
    | some c => some (c.components.map String.toList)
    | none => none

end Verif
