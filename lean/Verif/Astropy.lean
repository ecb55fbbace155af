import Verif.Vel
import Verif.Frame

/-!
# Interoperability with astropy (`_interop/coordinax_interop_astropy`,
`_coordinax_space_frames/_interop/interop_astropy`)

Values in the units of the rest of the model (`convert(component, Quantity)` keeps value and unit).
Astropy itself is not part of the code base: its representation classes are records here, with the
checks its documentation states. Its conversions between representations are a parameter.
-/

namespace Verif

/-- Astropy representations. The radial field is a Quantity of dimension length (`.dist`), angle
(`.par`) or magnitude (`.dm`). -/
inductive ApyRep where
  /-- `CartesianRepresentation(x, y, z)` -/
  | cart (x y z : ℝ)
  /-- `CylindricalRepresentation(rho, phi, z)` -/
  | cyl (rho phi z : ℝ)
  /-- `PhysicsSphericalRepresentation(phi, theta, r)`: azimuth, inclination, radius -/
  | phys (phi theta : ℝ) (r : Dist ℝ)
  /-- `SphericalRepresentation(lon, lat, distance)` -/
  | sph (lon lat : ℝ) (distance : Dist ℝ)

/-- Astropy representation classes; `other` is any other subclass of `BaseRepresentation` -/
inductive ApyKind where
  | cart | cyl | phys | sph | other
deriving DecidableEq

/-- class of a representation -/
def ApyRep.kind : ApyRep → ApyKind
  | .cart .. => .cart
  | .cyl .. => .cyl
  | .phys .. => .phys
  | .sph .. => .sph

/-- `apyc.PhysicsSphericalRepresentation(phi=, theta=, r=)` (astropy: `phi` is wrapped at 360 deg,
`theta` must be in `[0, 180]` deg) -/
noncomputable def mkApyPhys (phi theta : ℝ) (r : Dist ℝ) : Res ApyRep := do
  checkRange theta 0 Real.pi
  return .phys (wrapR phi) theta r

/-- `apyc.SphericalRepresentation(lon=, lat=, distance=)` (astropy: `lon` is wrapped at 360 deg, `lat` must
be in `[-90, 90]` deg, a length must be non-negative) -/
noncomputable def mkApySph (lon lat : ℝ) (distance : Dist ℝ) : Res ApyRep := do
  checkRange lat (-(Real.pi / 2)) (Real.pi / 2)
  match distance with
  | .dist d => checkNonNeg d
  | _ => pure ()
  return .sph (wrapR lon) lat distance

/-- the conversion methods registered from 3-D positions to astropy representations
(`converters.py` 82-105, 133-159, 188-210, 240-264); `MathSphericalPos` and `ProlateSpheroidalPos` have
none, and plum raises `TypeError` -/
noncomputable def posToApy : Pos ℝ → Res ApyRep
  | .cart3 x y z => .ok (.cart x y z)
  | .cyl rho phi z => .ok (.cyl rho phi z)
  | .sph r theta phi => mkApyPhys phi theta r
  | .lonlat lon lat distance => mkApySph lon lat distance
  | _ => .error .noDispatch

/-- `convert(p, target)` for a representation class (plum looks up the conversion method by
`(type(p), target)`; a method registered for `BaseRepresentation` serves every subclass, and each class
registers its one function for `BaseRepresentation`: 82, 133, 188, 240), so the target is not used. -/
noncomputable def convertPos (p : Pos ℝ) (_target : ApyKind) : Res ApyRep := posToApy p

/-- The radial field made from an astropy Quantity by `Distance.from_` (`_src/vectors/d3/spherical.py`
55; unxt: `Distance(q.value, q.unit)`, `_src/distances/core.py` 45-49 raises unless it is a length). -/
def distOfApy : Dist ℝ → Res (Dist ℝ)
  | .dist d => .ok (.dist d)
  | _ => .error .units

/-- the fields of a representation passed to the constructor of the corresponding class
(`constructors.py` 171, 194, 217, 240); an azimuth is an astropy angle, not a coordinax `Angle`, so the
constructor wraps it -/
noncomputable def posOfRep : ApyRep → Res (Pos ℝ)
  | .cart x y z => mkCart3 x y z
  | .cyl rho phi z => mkCyl rho (.qty phi) z
  | .phys phi theta r => do mkSph (← distOfApy r) theta (.qty phi)
  | .sph lon lat distance => do mkLonLat (.qty lon) lat (← distOfApy distance)

/-- the class to which astropy is asked to convert: `constructors.py` 170, 193, 216, 239; the classes
without their own rule go by the class of the representation (64-147) -/
def apyTarget (cls : Kind) (rep : ApyRep) : ApyKind :=
  match cls with
  | .cart3 => .cart
  | .cyl => .cyl
  | .sph => .phys
  | .lonlat => .sph
  | _ => rep.kind

/-- `cls.from_(rep)` (`constructors.py` 64-240), defined for 3-D classes; `conv` is astropy's
`represent_as`. -/
noncomputable def posFromApy (conv : ApyRep → ApyKind → Res ApyRep) (cls : Kind) (rep : ApyRep) :
    Res (Pos ℝ) :=
  if cls.dim = 3 then do posOfRep (← conv rep (apyTarget cls rep)) else .error .noDispatch

/-- Astropy differentials -/
inductive ApyDiff where
  /-- `CartesianDifferential(d_x, d_y, d_z)` -/
  | cart (dx dy dz : ℝ)
  /-- `CylindricalDifferential(d_rho, d_phi, d_z)` -/
  | cyl (drho dphi dz : ℝ)
  /-- `PhysicsSphericalDifferential(d_phi, d_theta, d_r)` -/
  | phys (dphi dtheta dr : ℝ)
  /-- `SphericalDifferential(d_lon, d_lat, d_distance)` -/
  | sph (dlon dlat ddistance : ℝ)
  /-- `SphericalCosLatDifferential(d_lon_coslat, d_lat, d_distance)` -/
  | sphCosLat (dloncoslat dlat ddistance : ℝ)

/-- conversion of velocities to astropy differentials (`converters.py` 296-316, 346-373, 405-431, 463-491,
525-553) -/
def velToApy : Vel ℝ → Res ApyDiff
  | .cart3 dx dy dz => .ok (.cart dx dy dz)
  | .cyl drho dphi dz => .ok (.cyl drho dphi dz)
  | .sph dr dtheta dphi => .ok (.phys dphi dtheta dr)
  | .lonlat dlon dlat dd => .ok (.sph dlon dlat dd)
  | .lonCosLat dloncoslat dlat dd => .ok (.sphCosLat dloncoslat dlat dd)
  | _ => .error .noDispatch

/-- `cls.from_(differential)` (`constructors.py` 246-482): there is one rule for each class of
differential, whatever 3-D velocity class it is called on -/
def velFromApy (cls : VKind) (d : ApyDiff) : Res (Vel ℝ) :=
  if cls.dim ≠ 3 then .error .noDispatch else
  match d with
  | .cart dx dy dz => .ok (.cart3 dx dy dz)
  | .cyl drho dphi dz => .ok (.cyl drho dphi dz)
  | .phys dphi dtheta dr => .ok (.sph dr dtheta dphi)
  | .sph dlon dlat dd => .ok (.lonlat dlon dlat dd)
  | .sphCosLat dloncoslat dlat dd => .ok (.lonCosLat dloncoslat dlat dd)

/-- `apyc.Galactocentric`: RA and Dec of `galcen_coord`, `galcen_distance`, `roll`, `z_sun`,
`galcen_v_sun`, and whether it has data -/
structure ApyGalactocentric where
  ra : ℝ
  dec : ℝ
  distance : ℝ
  roll : ℝ
  zSun : ℝ
  vSun : Fin 3 → ℝ
  hasData : Bool

/-- `Galactocentric.from_(astropy frame)` (`interop_astropy/frames.py` 29-68) -/
noncomputable def frameFromApy (f : ApyGalactocentric) : Res Galactocentric := do
  if f.hasData then throw .check
  match ← mkLonLat (.qty f.ra) f.dec (.dist f.distance) with
  | .lonlat lon lat d => return ⟨lon, lat, d, f.roll, f.zSun, f.vSun⟩
  | _ => throw .badField

end Verif
