import Verif.Spec
import Verif.SpecVel
import Verif.Op

/-!
# Specification of operators

Textbook action of an operator on events `(x, t)`. Uses the types `Op`, `Four`, `Pos`, `Vel` of the
model, none of its functions.
-/

namespace Verif.Spec

/-- An event: a point and a time. -/
abbrev Event := V3 × ℝ

/-- matrix times vector -/
def mulV (R : Mat3) (v : V3) : V3 :=
  ⟨R 0 0 * v.x + R 0 1 * v.y + R 0 2 * v.z, R 1 0 * v.x + R 1 1 * v.y + R 1 2 * v.z,
    R 2 0 * v.x + R 2 1 * v.y + R 2 2 * v.z⟩

/-- distance between two points -/
noncomputable def dist3 (a b : V3) : ℝ := V3.norm (a.sub b)

/-- the vector of a Cartesian velocity -/
def velV : Vel ℝ → V3
  | .cart1 a => ⟨a, 0, 0⟩
  | .cart2 a b => ⟨a, b, 0⟩
  | .cart3 a b c => ⟨a, b, c⟩
  | _ => V3.zero

mutual
/-- The textbook action on events: rotation `x ↦ R x`, translations, boost `x ↦ x + t v`; a velocity
boost does not move points; the Galilean operator is `(x, t) ↦ (R x + s + (t + τ) v, t + τ)`; a
pipe is composition, first operator first. -/
noncomputable def act : Op → Event → Event
  | .identity, e => e
  | .rotation R, e => (mulV R e.1, e.2)
  | .spatial d, e => (e.1.add (point d), e.2)
  | .translation d, e => (e.1.add (point d.q), e.2 + d.t)
  | .boost v, e => (e.1.add (V3.smul e.2 (velV v)), e.2)
  | .vboost _, e => e
  | .galilean R d v, e =>
    (((mulV R e.1).add (point d.q)).add (V3.smul (e.2 + d.t) (velV v)), e.2 + d.t)
  | .pipe ops, e => actAll ops e
/-- composition of a list of actions, first one first -/
noncomputable def actAll : List Op → Event → Event
  | [], e => e
  | o :: os, e => actAll os (act o e)
end

mutual
/-- `P` holds of every operator that is not a pipe, inside `op`. -/
def Every (P : Op → Prop) : Op → Prop
  | .pipe ops => EveryAll P ops
  | .identity => P .identity
  | .rotation R => P (.rotation R)
  | .spatial d => P (.spatial d)
  | .translation d => P (.translation d)
  | .boost v => P (.boost v)
  | .vboost v => P (.vboost v)
  | .galilean R d v => P (.galilean R d v)
/-- `Every` for lists -/
def EveryAll (P : Op → Prop) : List Op → Prop
  | [] => True
  | o :: os => Every P o ∧ EveryAll P os
end

/-- a valid 3-D position -/
def Valid3 (d : Pos ℝ) : Prop := Valid d ∧ d.kind.dim = 3

/-- The parameters are meaningful: translations are valid 3-D positions (of any class), boost
velocities are Cartesian. -/
def WellFormed : Op → Prop :=
  Every fun
    | .spatial d => Valid3 d
    | .translation d => Valid3 d.q
    | .boost v => v.kind = .cart3
    | .galilean _ d v => Valid3 d.q ∧ v.kind = .cart3
    | _ => True

/-- an orthogonal matrix -/
def Orthogonal (R : Mat3) : Prop := R * R.transpose = 1

/-- Every rotation matrix inside is orthogonal. -/
def Rigid : Op → Prop :=
  Every fun
    | .rotation R => Orthogonal R
    | .galilean R _ _ => Orthogonal R
    | _ => True

mutual
/-- the points reached after each elementary step -/
noncomputable def visited : Op → Event → List V3
  | .identity, _ | .vboost _, _ => []
  | .galilean R d v, e =>
    [mulV R e.1, (mulV R e.1).add (point d.q),
      ((mulV R e.1).add (point d.q)).add (V3.smul (e.2 + d.t) (velV v))]
  | .pipe ops, e => visitedAll ops e
  | .rotation R, e => [(act (.rotation R) e).1]
  | .spatial d, e => [(act (.spatial d) e).1]
  | .translation d, e => [(act (.translation d) e).1]
  | .boost v, e => [(act (.boost v) e).1]
/-- `visited` for lists -/
noncomputable def visitedAll : List Op → Event → List V3
  | [], _ => []
  | o :: os, e => visited o e ++ visitedAll os (act o e)
end

/-- A position class in which results can be given back at every point visited: `CartesianPos3D`, or
another class except the prolate spheroidal one if the origin is not visited. -/
def Reaches (op : Op) (k : Kind) (e : Event) : Prop :=
  k = .cart3 ∨ (k ≠ .prolate ∧ ∀ x ∈ visited op e, x ≠ V3.zero)

/-- A translation vector whose opposite exists in its class: not prolate spheroidal, and not the
origin unless Cartesian. -/
def HasOpposite (d : Pos ℝ) : Prop := d.kind = .cart3 ∨ (d.kind ≠ .prolate ∧ point d ≠ V3.zero)

/-- Every translation vector inside has an opposite. -/
def Undoable : Op → Prop :=
  Every fun
    | .spatial d => HasOpposite d
    | .translation d => HasOpposite d.q
    | .galilean _ d _ => HasOpposite d.q
    | _ => True

/-- `q'` is the position `q`: same class, same point; and the same components, if `q` has its azimuth
in the standard range and is off the z axis. -/
def SamePos (q' q : Pos ℝ) : Prop :=
  q'.kind = q.kind ∧ Valid q' ∧ point q' = point q ∧
    (Canon q → OffAxis (point q) → q.kind ≠ .prolate → plain q' = plain q)

end Verif.Spec
