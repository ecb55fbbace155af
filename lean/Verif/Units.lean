import Verif.Vel

/-!
# Units inside vectors and `uconvert`

Here components carry explicit units (everywhere else lengths are in AU and angles in radians).
A unit is a physical type (astropy `PhysicalType`) and the positive factor to the base unit.
-/

namespace Verif

/-- A physical type: exponents of length, time, mass, angle and of the logarithmic magnitude. -/
structure Dim where
  len : ℤ := 0
  time : ℤ := 0
  mass : ℤ := 0
  angle : ℤ := 0
  mag : ℤ := 0
  deriving DecidableEq, Repr

namespace Dim
/-- "length" -/ def length : Dim := { len := 1 }
/-- "area" -/ def area : Dim := { len := 2 }
/-- "angle" -/ def ang : Dim := { angle := 1 }
/-- "speed" -/ def speed : Dim := { len := 1, time := -1 }
/-- "angular speed" -/ def angSpeed : Dim := { angle := 1, time := -1 }
/-- "diffusivity" -/ def diffusivity : Dim := { len := 2, time := -1 }
/-- "acceleration" -/ def acc : Dim := { len := 1, time := -2 }
/-- "angular acceleration" -/ def angAcc : Dim := { angle := 1, time := -2 }
/-- "specific energy" -/ def specificEnergy : Dim := { len := 2, time := -2 }
/-- magnitudes -/ def magnitude : Dim := { mag := 1 }
end Dim

/-- A unit: name, physical type, and the factor to the base unit of that type. -/
structure UnitU where
  name : String
  dim : Dim
  scale : ℝ
  pos : 0 < scale

/-- The `unxt` / coordinax quantity class of a component (`Quantity`, `Angle`, `Distance`, `Parallax`,
`DistanceModulus`). -/
inductive QCls where
  | quantity | angle | distance | parallax | distmod
  deriving DecidableEq, Repr

/-- A scalar quantity: class, value, unit. -/
structure Qty where
  cls : QCls
  value : ℝ
  unit : UnitU

/-- value in the base unit of its physical type -/
def Qty.phys (q : Qty) : ℝ := q.value * q.unit.scale

/-- `u.uconvert(unit, q)`: the class is kept, the value rescaled; units of another physical type raise. -/
noncomputable def uconvertQ (un : UnitU) (q : Qty) : Res Qty :=
  if un.dim = q.unit.dim then .ok { q with value := q.value * (q.unit.scale / un.scale), unit := un }
  else .error .units

/-- The part of a field declaration that matters here: its converter. -/
inductive Role where
  /-- `Quantity[dim].from_` -/
  | plain (d : Dim)
  /-- `Quantity.from_` without physical type (`d3/generic.py` 43-53, `dn/poincare.py` 28, 41) -/
  | any
  /-- `Unless(Angle, lambda x: converter_azimuth_to_range(Angle.from_(x)))` -/
  | azimuth
  /-- `Angle.from_` -/
  | incl
  /-- `Unless(AbstractDistance, Distance.from_)` -/
  | radial

/-- Concrete vector classes. `acc .lonCosLat` does not exist (`LonCosLatSphericalVel` has
`LonLatSphericalAcc` as derivative class): its schema is empty and construction raises. -/
inductive VCls where
  | pos (k : Kind)
  | vel (k : VKind)
  | acc (k : VKind)
  /-- `CartesianGeneric3D` (`_src/vectors/d3/generic.py` 25-53) -/
  | generic3
  /-- `PoincarePolarVector` (`_src/vectors/dn/poincare.py` 20-47) -/
  | poincare
  deriving DecidableEq

open Role in
/-- Component fields in declaration order (attributes such as `Delta` are not components).
`_src/vectors/d1/cartesian.py` 52, 171, 270; `d1/radial.py` 26, 45, 68; `d2/cartesian.py` 36-41, 168-173,
271-276; `d2/polar.py` 40-45, 102-107, 127-132; `d2/spherical.py` 67-70, 138-143, 205-210;
`d3/cartesian.py` 42-52, 201-211, 316-326; `d3/cylindrical.py` 36-48, 86-96, 116-126; `d3/spherical.py`
54-62, 171-181, 204-214; `d3/lonlatspherical.py` 103-113, 252-262, 282-292, 315-325;
`d3/mathspherical.py` 58-70, 229-239, 264-274; `d3/spheroidal.py` 90-101, 132-142, 162-172. -/
def VCls.schema : VCls → List (String × Role)
  | .pos .cart1 => [("x", plain .length)]
  | .pos .radial => [("r", radial)]
  | .pos .cart2 => [("x", plain .length), ("y", plain .length)]
  | .pos .polar => [("r", radial), ("phi", azimuth)]
  | .pos .twoSphere => [("theta", incl), ("phi", azimuth)]
  | .pos .cart3 => [("x", plain .length), ("y", plain .length), ("z", plain .length)]
  | .pos .cyl => [("rho", plain .length), ("phi", azimuth), ("z", plain .length)]
  | .pos .sph => [("r", radial), ("theta", incl), ("phi", azimuth)]
  | .pos .lonlat => [("lon", azimuth), ("lat", incl), ("distance", radial)]
  | .pos .math => [("r", radial), ("theta", azimuth), ("phi", incl)]
  | .pos .prolate => [("mu", plain .area), ("nu", plain .area), ("phi", azimuth)]
  | .vel .cart1 => [("d_x", plain .speed)]
  | .vel .radial => [("d_r", plain .speed)]
  | .vel .cart2 => [("d_x", plain .speed), ("d_y", plain .speed)]
  | .vel .polar => [("d_r", plain .speed), ("d_phi", plain .angSpeed)]
  | .vel .twoSphere => [("d_theta", plain .angSpeed), ("d_phi", plain .angSpeed)]
  | .vel .cart3 => [("d_x", plain .speed), ("d_y", plain .speed), ("d_z", plain .speed)]
  | .vel .cyl => [("d_rho", plain .speed), ("d_phi", plain .angSpeed), ("d_z", plain .speed)]
  | .vel .sph => [("d_r", plain .speed), ("d_theta", plain .angSpeed), ("d_phi", plain .angSpeed)]
  | .vel .lonlat => [("d_lon", plain .angSpeed), ("d_lat", plain .angSpeed), ("d_distance", plain .speed)]
  | .vel .lonCosLat =>
    [("d_lon_coslat", plain .angSpeed), ("d_lat", plain .angSpeed), ("d_distance", plain .speed)]
  | .vel .math => [("d_r", plain .speed), ("d_theta", plain .angSpeed), ("d_phi", plain .angSpeed)]
  | .vel .prolate => [("d_mu", plain .diffusivity), ("d_nu", plain .diffusivity), ("d_phi", plain .angSpeed)]
  | .acc .cart1 => [("d2_x", plain .acc)]
  | .acc .radial => [("d2_r", plain .acc)]
  | .acc .cart2 => [("d2_x", plain .acc), ("d2_y", plain .acc)]
  | .acc .polar => [("d2_r", plain .acc), ("d2_phi", plain .angAcc)]
  | .acc .twoSphere => [("d2_theta", plain .angAcc), ("d2_phi", plain .angAcc)]
  | .acc .cart3 => [("d2_x", plain .acc), ("d2_y", plain .acc), ("d2_z", plain .acc)]
  | .acc .cyl => [("d2_rho", plain .acc), ("d2_phi", plain .angAcc), ("d2_z", plain .acc)]
  | .acc .sph => [("d2_r", plain .acc), ("d2_theta", plain .angAcc), ("d2_phi", plain .angAcc)]
  | .acc .lonlat => [("d2_lon", plain .angAcc), ("d2_lat", plain .angAcc), ("d2_distance", plain .acc)]
  | .acc .lonCosLat => []
  | .acc .math => [("d2_r", plain .acc), ("d2_theta", plain .angAcc), ("d2_phi", plain .angAcc)]
  | .acc .prolate =>
    [("d2_mu", plain .specificEnergy), ("d2_nu", plain .specificEnergy), ("d2_phi", plain .angAcc)]
  | .generic3 => [("x", any), ("y", any), ("z", any)]
  | .poincare => [("rho", plain .length), ("pp_phi", any), ("z", plain .length), ("d_rho", plain .speed),
      ("d_pp_phi", any), ("d_z", plain .speed)]

/-- the astronomical unit, base unit of length in this model -/
def unitAU : UnitU := ⟨"AU", .length, 1, one_pos⟩

/-- the parsec (IAU definition) -/
noncomputable def unitPC : UnitU := ⟨"pc", .length, 648000 / Real.pi, by positivity⟩

/-- A vector: class, named components in order, and the attribute `Delta` of
`ProlateSpheroidalPos`. -/
structure UVec where
  cls : VCls
  fields : List (String × Qty)
  delta : Option Qty

/-- Field converters. `Quantity[dim].from_` and `Angle.from_` keep value and unit and raise on another
physical type; an azimuth that is not an `Angle` is wrapped into `[0, 360)` deg, in its own unit; a
radial argument that is not an `AbstractDistance` goes through `Distance.from_`
(`_src/distances/core.py` 275-320: a Quantity that is an angle is a parallax, magnitudes are distance moduli;
an `Angle` is not a `Quantity`, so it falls to the general rule of `unxt`, which calls the constructor, and
that raises, 45-49). -/
noncomputable def Role.convert : Role → Qty → Res Qty
  | .plain d, q => if q.unit.dim = d then .ok { q with cls := .quantity } else .error .units
  | .any, q => .ok { q with cls := .quantity }
  | .azimuth, q =>
    match q.cls with
    | .angle => .ok q
    | _ => if q.unit.dim = .ang then .ok ⟨.angle, wrapR q.phys / q.unit.scale, q.unit⟩ else .error .units
  | .incl, q => if q.unit.dim = .ang then .ok { q with cls := .angle } else .error .units
  | .radial, q =>
    match q.cls with
    | .distance | .parallax | .distmod => .ok q
    | .angle => .error .units
    | .quantity =>
      if q.unit.dim = .length then .ok { q with cls := .distance }
      else if q.unit.dim = .ang then do
        return ⟨.distance, ← (Dist.par q.phys).distance, unitAU⟩
      else if q.unit.dim = .magnitude then do
        return ⟨.distance, (← (Dist.dm q.phys).distance) / unitPC.scale, unitPC⟩
      else .error .units

/-- a stored radial component as a distance in base units -/
def Qty.dist (q : Qty) : Res (Dist ℝ) :=
  match q.cls with
  | .distance => .ok (.dist q.phys)
  | .parallax => .ok (.par q.phys)
  | .distmod => .ok (.dm q.phys)
  | _ => .error .noDispatch

/-- a stored azimuth as constructor argument -/
def Qty.az (q : Qty) : AzArg ℝ :=
  match q.cls with
  | .angle => .angle q.phys
  | _ => .qty q.phys

/-- The position (in base units) denoted by converted components; runs the class's `__check_init__`
(the constructors of `Verif/Vec.lean`). All checks look at signs and at comparisons of quantities, so
they see physical values only. -/
noncomputable def readPos : Kind → List Qty → Option Qty → Res (Pos ℝ)
  | .cart1, [x], _ => mkCart1 x.phys
  | .radial, [r], _ => do mkRadial (← r.dist)
  | .cart2, [x, y], _ => mkCart2 x.phys y.phys
  | .polar, [r, phi], _ => do mkPolar (← r.dist) phi.az
  | .twoSphere, [theta, phi], _ => mkTwoSphere theta.phys phi.az
  | .cart3, [x, y, z], _ => mkCart3 x.phys y.phys z.phys
  | .cyl, [rho, phi, z], _ => mkCyl rho.phys phi.az z.phys
  | .sph, [r, theta, phi], _ => do mkSph (← r.dist) theta.phys phi.az
  | .lonlat, [lon, lat, d], _ => do mkLonLat lon.az lat.phys (← d.dist)
  | .math, [r, theta, phi], _ => do mkMath (← r.dist) theta.az phi.phys
  | .prolate, [mu, nu, phi], some delta =>
    -- `Delta` has no converter (`d3/spheroidal.py` 109), but `mu < Delta**2` (115) raises for another type
    if delta.unit.dim = .length then mkProlate mu.phys nu.phys phi.az delta.phys else .error .units
  | _, _, _ => .error .noDispatch

/-- `__check_init__` of a class (velocities, accelerations, generic vectors have none); `Delta` is a keyword
of `ProlateSpheroidalPos` only -/
noncomputable def VCls.check (c : VCls) (qs : List Qty) (delta : Option Qty) : Res Unit :=
  if delta.isSome = true ∧ c ≠ .pos .prolate then .error .badField else
  match c with
  | .pos k => do discard (readPos k qs delta)
  | _ => .ok ()

/-- the field converters, in order; a missing or extra argument raises -/
noncomputable def convertFields : List (String × Role) → List Qty → Res (List (String × Qty))
  | [], [] => .ok []
  | (n, r) :: rs, q :: qs => do return (n, ← r.convert q) :: (← convertFields rs qs)
  | _, _ => .error .noDispatch

/-- `cls(*args)`: converters, then checks. -/
noncomputable def construct (c : VCls) (args : List Qty) (delta : Option Qty) : Res UVec := do
  if c.schema = [] then throw .noDispatch
  let fs ← convertFields c.schema args
  c.check (fs.map Prod.snd) delta
  return ⟨c, fs, delta⟩

/-- `replace(vector, **{k: v})` when the given items are all components in field order: the class is
constructed again, so converters and checks run again. -/
noncomputable def UVec.replace (v : UVec) (items : List (String × Qty)) : Res UVec := do
  if items.map Prod.fst ≠ v.fields.map Prod.fst then throw .noDispatch
  construct v.cls (items.map Prod.snd) v.delta

/-- `d[key]` for a dict displayed as the list of its assignments: the last assignment wins, a missing
key raises `KeyError`. -/
def dictGet {κ ν : Type} [DecidableEq κ] (d : List (κ × ν)) (k : κ) : Res ν :=
  match d with
  | [] => .error .key
  | (k', v) :: rest =>
    match dictGet rest k with
    | .ok w => .ok w
    | .error e => if k' = k then .ok v else .error e

/-- the second argument of `uconvert` -/
inductive ToUnits where
  /-- a unit system: `usys[dimension]` (provided by `unxt`; may raise) -/
  | usys (get : Dim → Res UnitU)
  /-- a mapping from physical types (or their names) to units -/
  | mapping (m : List (Dim × UnitU))
  /-- `ToUnitsOptions.consistent` -/
  | consistent

/-- body of `{k: uconvert(get(dimension_of(v)), v) for k, v in field_items(AttrFilter, vector)}` -/
noncomputable def convertAll (get : Dim → Res UnitU) : List (String × Qty) → Res (List (String × Qty))
  | [] => .ok []
  | (k, q) :: rest => do return (k, ← uconvertQ (← get q.unit.dim) q) :: (← convertAll get rest)

/-- the loop filling `dim2unit` and `units_` (`_src/vectors/base/compat.py` 317-324) -/
noncomputable def consistentLoop :
    List (String × Qty) → List (Dim × UnitU) → List (String × UnitU) → Res (List (String × UnitU))
  | [], _, units => .ok units
  | (k, q) :: rest, dim2unit, units => do
    let dim2unit := if q.unit.dim ∈ dim2unit.map Prod.fst then dim2unit
      else dim2unit ++ [(q.unit.dim, q.unit)]
    consistentLoop rest dim2unit (units ++ [(k, ← dictGet dim2unit q.unit.dim)])

/-- `{k: uconvert(units_[k], v) for k, v in field_items(AttrFilter, vector)}`
(`_src/vectors/base/compat.py` 326-329) -/
noncomputable def convertKeyed (units : List (String × UnitU)) :
    List (String × Qty) → Res (List (String × Qty))
  | [] => .ok []
  | (k, q) :: rest => do return (k, ← uconvertQ (← dictGet units k) q) :: (← convertKeyed units rest)

/-- `uconvert(units, vector)` (`_src/vectors/base/compat.py` 203-329; the method is
`_src/vectors/base/base.py` 209-240). `FourVector`, whose component `q` has no unit, is not
modelled. -/
noncomputable def uconvert (o : ToUnits) (v : UVec) : Res UVec := do
  match o with
  | .usys get => v.replace (← convertAll get v.fields)
  | .mapping m => v.replace (← convertAll (dictGet m) v.fields)
  | .consistent => v.replace (← convertKeyed (← consistentLoop v.fields [] []) v.fields)

end Verif
