import Verif.Construct
import Verif.Props.Units

/-!
# C50, C51: constructors keep what they are given; mappings and vectors

Scope: every concrete position, velocity, acceleration class, `CartesianGeneric3D`, `PoincarePolarVector`.
-/

namespace Verif

open List Real

set_option linter.unusedSimpArgs false

namespace Spec

/-- what a component means -/
inductive Meaning where
  /-- a quantity of the given physical type -/
  | of (d : Dim)
  /-- a quantity of any physical type -/
  | anything
  /-- an angle around the axis -/
  | azimuth
  /-- another angle -/
  | polar
  /-- a distance -/
  | dist

/-- "length" etc.; a physical type per time -/
def perTime (d : Dim) : Dim := { d with time := d.time - 1 }

/-- textbook components of the positions -/
def posComps : Kind → List (String × Meaning)
  | .cart1 => [("x", .of { len := 1 })]
  | .radial => [("r", .dist)]
  | .cart2 => [("x", .of { len := 1 }), ("y", .of { len := 1 })]
  | .polar => [("r", .dist), ("phi", .azimuth)]
  | .twoSphere => [("theta", .polar), ("phi", .azimuth)]
  | .cart3 => [("x", .of { len := 1 }), ("y", .of { len := 1 }), ("z", .of { len := 1 })]
  | .cyl => [("rho", .of { len := 1 }), ("phi", .azimuth), ("z", .of { len := 1 })]
  | .sph => [("r", .dist), ("theta", .polar), ("phi", .azimuth)]
  | .lonlat => [("lon", .azimuth), ("lat", .polar), ("distance", .dist)]
  | .math => [("r", .dist), ("theta", .azimuth), ("phi", .polar)]
  | .prolate => [("mu", .of { len := 2 }), ("nu", .of { len := 2 }), ("phi", .azimuth)]

/-- physical type of a component -/
def Meaning.dim : Meaning → Dim
  | .of d => d
  | .anything => {}
  | .azimuth | .polar => { angle := 1 }
  | .dist => { len := 1 }

/-- components of the time derivative -/
def ddt (pre : String) (n : ℕ) (l : List (String × Meaning)) : List (String × Meaning) :=
  l.map fun e => (pre ++ e.1, .of (perTime^[n] e.2.dim))

/-- the position class a velocity class is the derivative of; `LonCosLatSphericalVel` has a component name of
its own -/
def base : VKind → List (String × Meaning)
  | .cart1 => posComps .cart1
  | .radial => posComps .radial
  | .cart2 => posComps .cart2
  | .polar => posComps .polar
  | .twoSphere => posComps .twoSphere
  | .cart3 => posComps .cart3
  | .cyl => posComps .cyl
  | .sph => posComps .sph
  | .lonlat => posComps .lonlat
  | .lonCosLat => [("lon_coslat", .azimuth), ("lat", .polar), ("distance", .dist)]
  | .math => posComps .math
  | .prolate => posComps .prolate

/-- components of every class. A velocity has the components of the position per time, an acceleration per
time squared. -/
def comps : VCls → List (String × Meaning)
  | .pos k => posComps k
  | .vel k => ddt "d_" 1 (base k)
  | .acc k => ddt "d2_" 2 (base k)
  | .generic3 => [("x", .anything), ("y", .anything), ("z", .anything)]
  | .poincare => [("rho", .of { len := 1 }), ("pp_phi", .anything), ("z", .of { len := 1 }),
      ("d_rho", .of { len := 1, time := -1 }), ("d_pp_phi", .anything), ("d_z", .of { len := 1, time := -1 })]

/-- `s` is what the component of meaning `m` holds after it was given as `q`. Value and unit are kept, except:
an azimuth that is not an `Angle` is reduced to `[0, 360)` deg; a parallax angle or a distance modulus in
magnitudes is turned into the distance (given as a `Quantity`; an `Angle` is rejected). -/
def Holds (m : Meaning) (q s : Qty) : Prop :=
  match m with
  | .of d => q.unit.dim = d ∧ s = ⟨.quantity, q.value, q.unit⟩
  | .anything => s = ⟨.quantity, q.value, q.unit⟩
  | .polar => q.unit.dim = { angle := 1 } ∧ s = ⟨.angle, q.value, q.unit⟩
  | .azimuth =>
    (q.cls = .angle ∧ s = q) ∨
    (q.cls ≠ .angle ∧ q.unit.dim = { angle := 1 } ∧ s.cls = .angle ∧ s.unit = q.unit ∧
      0 ≤ s.phys ∧ s.phys < 2 * π ∧ ∃ n : ℤ, s.phys = q.phys - n * (2 * π))
  | .dist =>
    (q.cls ∈ [.distance, .parallax, .distmod] ∧ s = q) ∨
    (q.cls = .quantity ∧
      ((q.unit.dim = { len := 1 } ∧ s = ⟨.distance, q.value, q.unit⟩) ∨
       (q.unit.dim = { angle := 1 } ∧ sin q.phys ≠ 0 ∧ cos q.phys ≠ 0 ∧
          s = ⟨.distance, cos q.phys / sin q.phys, unitAU⟩) ∨
       (q.unit.dim = { mag := 1 } ∧ s = ⟨.distance, (10 : ℝ) ^ (q.phys / 5 + 1), unitPC⟩)))

/-- the ranges the classes check, on physical values of the stored components -/
def InRange : Kind → List ℝ → Option Qty → Prop
  | .radial, [r], _ => 0 ≤ r
  | .polar, [r, _], _ => 0 ≤ r
  | .twoSphere, [theta, _], _ => 0 ≤ theta ∧ theta ≤ π
  | .cyl, [rho, _, _], _ => 0 ≤ rho
  | .sph, [r, theta, _], _ => 0 ≤ r ∧ 0 ≤ theta ∧ theta ≤ π
  | .lonlat, [_, lat, d], _ => 0 ≤ d ∧ -(π / 2) ≤ lat ∧ lat ≤ π / 2
  | .math, [r, _, phi], _ => 0 ≤ r ∧ 0 ≤ phi ∧ phi ≤ π
  | .prolate, [mu, nu, _], some d =>
    d.unit.dim = { len := 1 } ∧ 0 < d.phys ∧ d.phys * d.phys ≤ mu ∧ |nu| ≤ d.phys * d.phys
  | .prolate, _, none => False
  | _, _, _ => True

/-- the attribute `Delta` is given exactly for the prolate class, and the checks of the class pass -/
def Accepted (c : VCls) (stored : List Qty) (delta : Option Qty) : Prop :=
  (delta.isSome → c = .pos .prolate) ∧ ∀ k, c = .pos k → InRange k (stored.map Qty.phys) delta

end Spec

open Spec

/-- the code's converter for a meaning -/
def Spec.Meaning.role : Meaning → Role
  | .of d => .plain d
  | .anything => .any
  | .azimuth => .azimuth
  | .polar => .incl
  | .dist => .radial

theorem schema_comps (c : VCls) (h : c ≠ .acc .lonCosLat) :
    c.schema = (comps c).map fun e => (e.1, e.2.role) := by
  cases c with
  | pos k => cases k <;> rfl
  | vel k => cases k <;> rfl
  | acc k => cases k <;> first | rfl | exact absurd rfl h
  | generic3 => rfl
  | poincare => rfl

theorem convert_holds (m : Meaning) (q s : Qty) : m.role.convert q = .ok s ↔ Holds m q s := by
  cases m with
  | of d =>
    simp only [Meaning.role, Role.convert, Holds]
    split
    · rename_i h
      simp only [h, true_and, Except.ok.injEq]
      exact eq_comm
    · rename_i h; simp [h]
  | anything =>
    simp only [Meaning.role, Role.convert, Holds, Except.ok.injEq]
    exact eq_comm
  | polar =>
    simp only [Meaning.role, Role.convert, Holds]
    change (if q.unit.dim = Dim.ang then _ else _) = _ ↔ q.unit.dim = Dim.ang ∧ _
    split
    · rename_i h
      simp only [h, true_and, Except.ok.injEq]
      exact eq_comm
    · rename_i h; simp [h]
  | azimuth =>
    simp only [Meaning.role, Role.convert, Holds]
    change _ ↔ _ ∨ (_ ∧ q.unit.dim = Dim.ang ∧ _)
    have hw : ∀ x : ℝ, ∀ s : Qty, (⟨.angle, wrapR x / q.unit.scale, q.unit⟩ : Qty) = s ↔
        s.cls = .angle ∧ s.unit = q.unit ∧ 0 ≤ s.phys ∧ s.phys < 2 * π ∧ ∃ n : ℤ, s.phys = x - n * (2 * π) := by
      intro x s
      have hp := q.unit.pos.ne'
      constructor
      · rintro rfl
        have e : (⟨.angle, wrapR x / q.unit.scale, q.unit⟩ : Qty).phys = wrapR x := by
          simp only [Qty.phys]; field_simp
        rw [e]
        exact ⟨rfl, rfl, wrapR_nonneg x, wrapR_lt x, wrapR_eq_sub x⟩
      · rintro ⟨h1, h2, h3, h4, n, h5⟩
        have := wrapR_unique n h5 h3 h4
        obtain ⟨c, v, u⟩ := s
        simp only at h1 h2
        subst h1 h2
        rw [this]
        simp only [Qty.phys]
        congr 1
        field_simp
    by_cases hc : q.cls = .angle
    · simp only [hc, Except.ok.injEq, true_and, ne_eq, not_true_eq_false, false_and, or_false]
      exact eq_comm
    · simp only [hc, false_and, false_or, ne_eq, not_false_eq_true, true_and]
      rw [← hw]
      split
      · rename_i h; simp [h]
      · rename_i h; simp [h]
  | dist =>
    simp only [Meaning.role, Role.convert, Holds]
    change _ ↔ _ ∨ (_ ∧ ((q.unit.dim = Dim.length ∧ _) ∨ (q.unit.dim = Dim.ang ∧ _) ∨ (q.unit.dim = Dim.magnitude ∧ _)))
    have key : (if q.unit.dim = .length then Except.ok { q with cls := .distance }
        else if q.unit.dim = .ang then do return ⟨.distance, ← (Dist.par q.phys).distance, unitAU⟩
        else if q.unit.dim = .magnitude then do
          return ⟨.distance, (← (Dist.dm q.phys).distance) / unitPC.scale, unitPC⟩
        else (Except.error .units : Res Qty)) = .ok s ↔
       ((q.unit.dim = Dim.length ∧ s = ⟨.distance, q.value, q.unit⟩) ∨
       (q.unit.dim = Dim.ang ∧ sin q.phys ≠ 0 ∧ cos q.phys ≠ 0 ∧
          s = ⟨.distance, cos q.phys / sin q.phys, unitAU⟩) ∨
       (q.unit.dim = Dim.magnitude ∧ s = ⟨.distance, (10 : ℝ) ^ (q.phys / 5 + 1), unitPC⟩)) := by
      have e1 : Dim.ang ≠ Dim.length := by decide
      have e2 : Dim.magnitude ≠ Dim.length := by decide
      have e3 : Dim.magnitude ≠ Dim.ang := by decide
      split
      · rename_i h
        simp only [h, true_and, Except.ok.injEq, e1.symm, e2.symm, false_and, or_false]
        exact eq_comm
      · rename_i h0
        split
        · rename_i h
          simp only [h, e1, e3.symm, false_and, false_or, or_false, true_and]
          by_cases hc : cos q.phys = 0
          · simp [Dist.distance, tan_real, hc, bind, Except.bind]
          · by_cases hs : sin q.phys = 0
            · simp [Dist.distance, tan_real, hc, hs, div_real, Real.tan_eq_sin_div_cos, bind, Except.bind]
            · simp [Dist.distance, tan_real, hc, hs, div_real, Real.tan_eq_sin_div_cos, bind, Except.bind,
                pure, Except.pure]
              exact eq_comm
        · split
          · rename_i h1 h
            have hpi := Real.pi_ne_zero
            simp [h, e2, e3, Dist.distance, div_real, unitPC, bind, Except.bind, pure, Except.pure, hpi]
            exact eq_comm
          · rename_i h1 h2
            simp [h0, h1, h2]
    cases hc : q.cls <;> first
      | (simp only [mem_cons, reduceCtorEq, not_mem_nil, or_false, false_or, false_and, true_and, true_or,
          or_true]; exact key)
      | (simp only [mem_cons, reduceCtorEq, not_mem_nil, or_false, false_or, false_and, true_and, true_or,
          or_true, Except.ok.injEq]; exact eq_comm)
      | simp

namespace Spec

/-- `Holds` for all components in order -/
def AllHold : List (String × Meaning) → List Qty → List Qty → Prop
  | [], [], [] => True
  | m :: ms, q :: qs, s :: ss => Holds m.2 q s ∧ AllHold ms qs ss
  | _, _, _ => False

end Spec

theorem Spec.AllHold.nil {args st : List Qty} (h : AllHold [] args st) : args = [] ∧ st = [] := by
  cases args with
  | nil => cases st with
    | nil => exact ⟨rfl, rfl⟩
    | cons => exact h.elim
  | cons => exact h.elim

theorem Spec.AllHold.cons {m : String × Meaning} {ms : List (String × Meaning)} {args st : List Qty}
    (h : AllHold (m :: ms) args st) :
    ∃ q qs s ss, args = q :: qs ∧ st = s :: ss ∧ Holds m.2 q s ∧ AllHold ms qs ss := by
  cases args with
  | nil => exact h.elim
  | cons q qs => cases st with
    | nil => exact h.elim
    | cons s ss => exact ⟨q, qs, s, ss, rfl, rfl, h⟩

theorem convertFields_iff (l : List (String × Meaning)) (args : List Qty) (fs : List (String × Qty)) :
    convertFields (l.map fun e => (e.1, e.2.role)) args = .ok fs ↔
      ∃ stored, AllHold l args stored ∧ fs = (l.map Prod.fst).zip stored := by
  induction l generalizing args fs with
  | nil =>
    cases args with
    | nil =>
      constructor
      · intro h; exact ⟨[], trivial, (Except.ok.inj h).symm⟩
      · rintro ⟨st, h1, rfl⟩; rfl
    | cons q qs => exact ⟨fun h => (by cases h), fun ⟨st, h, _⟩ => (by cases st <;> cases h)⟩
  | cons e l ih =>
    obtain ⟨n, m⟩ := e
    cases args with
    | nil => exact ⟨fun h => (by cases h), fun ⟨st, h, _⟩ => (by cases st <;> cases h)⟩
    | cons q qs =>
      simp only [map_cons, convertFields]
      constructor
      · intro h
        obtain ⟨s, h1, h⟩ := (bind_ok_iff _ _ _).mp h
        obtain ⟨fs', h2, h⟩ := (bind_ok_iff _ _ _).mp h
        obtain rfl := Except.ok.inj h
        obtain ⟨st, h3, rfl⟩ := (ih qs fs').mp h2
        exact ⟨s :: st, ⟨(convert_holds m q s).mp h1, h3⟩, rfl⟩
      · rintro ⟨st, h, rfl⟩
        cases st with
        | nil => cases h
        | cons s st =>
          rw [(convert_holds m q s).mpr h.1, ok_bind, (ih qs _).mpr ⟨st, h.2, rfl⟩]
          rfl

theorem ctor_checkNonNeg_iff (x : ℝ) : checkNonNeg x = .ok () ↔ 0 ≤ x := by
  constructor
  · intro h
    by_contra hx
    rw [checkNonNeg_err (not_le.mp hx)] at h
    cases h
  · exact checkNonNeg_ok

theorem ctor_checkRange_iff (x lo hi : ℝ) : checkRange x lo hi = .ok () ↔ lo ≤ x ∧ x ≤ hi := by
  constructor
  · intro h
    by_contra hx
    have : x < lo ∨ hi < x := by
      by_contra hc; push Not at hc; exact hx hc
    unfold checkRange at h
    rcases this with h1 | h1 <;> simp [h1] at h
  · exact fun h => checkRange_ok h.1 h.2

theorem dist_of_holds {q s : Qty} (h : Holds .dist q s) :
    ∃ d, s.dist = .ok d ∧ d.raw = s.phys := by
  have hc : s.cls ∈ [QCls.distance, .parallax, .distmod] := by
    rcases h with ⟨h1, rfl⟩ | ⟨_, h⟩
    · exact h1
    · rcases h with ⟨_, rfl⟩ | ⟨_, _, _, rfl⟩ | ⟨_, rfl⟩ <;> simp
  unfold Qty.dist
  cases hs : s.cls <;> simp [hs] at hc ⊢ <;> rfl

theorem mkProlate_returns (mu nu delta : ℝ) (phi : AzArg ℝ) :
    (∃ p, mkProlate mu nu phi delta = .ok p) ↔ 0 < delta ∧ delta * delta ≤ mu ∧ |nu| ≤ delta * delta := by
  constructor
  · rintro ⟨p, h⟩
    unfold mkProlate at h
    obtain ⟨⟨⟩, h1, h⟩ := (bind_ok_iff _ _ _).mp h
    by_cases a : 0 < delta
    · by_cases b : mu < delta * delta
      · simp [b] at h
      · by_cases c : delta * delta < |nu|
        · simp [b, c] at h
        · exact ⟨a, not_lt.mp b, not_lt.mp c⟩
    · simp [checkPos, a] at h1
  · rintro ⟨a, b, c⟩
    exact ⟨_, mkProlate_ok phi a b c⟩

theorem readPos_iff (k : Kind) (args stored : List Qty) (delta : Option Qty)
    (h : AllHold (posComps k) args stored) :
    (∃ p, readPos k stored delta = .ok p) ↔ InRange k (stored.map Qty.phys) delta := by
  have hp : (halfPi : Res ℝ) = .ok (π / 2) := by simp [halfPi, Num.div, Num.pi, Num.nat]
  have t1 : ∀ (x : ℝ) (p : Pos ℝ), (∃ q, (do checkNonNeg x; return p : Res (Pos ℝ)) = .ok q) ↔ 0 ≤ x := by
    intro x p
    constructor
    · rintro ⟨q, h⟩
      obtain ⟨⟨⟩, h1, _⟩ := (bind_ok_iff _ _ _).mp h
      exact (ctor_checkNonNeg_iff x).mp h1
    · intro h
      rw [checkNonNeg_ok h, ok_bind]; exact ⟨_, rfl⟩
  have t2 : ∀ (x y lo hi : ℝ) (p : Pos ℝ), (∃ q, (do checkNonNeg x; checkRange y lo hi; return p : Res (Pos ℝ)) = .ok q) ↔
      0 ≤ x ∧ lo ≤ y ∧ y ≤ hi := by
    intro x y lo hi p
    constructor
    · rintro ⟨q, h⟩
      obtain ⟨⟨⟩, h1, h⟩ := (bind_ok_iff _ _ _).mp h
      obtain ⟨⟨⟩, h2, _⟩ := (bind_ok_iff _ _ _).mp h
      exact ⟨(ctor_checkNonNeg_iff x).mp h1, (ctor_checkRange_iff _ _ _).mp h2⟩
    · rintro ⟨h, h'⟩
      rw [checkNonNeg_ok h, ok_bind, (ctor_checkRange_iff _ _ _).mpr h', ok_bind]; exact ⟨_, rfl⟩
  have t3 : ∀ (x y lo hi : ℝ) (p : Pos ℝ), (∃ q, (do checkRange y lo hi; checkNonNeg x; return p : Res (Pos ℝ)) = .ok q) ↔
      0 ≤ x ∧ lo ≤ y ∧ y ≤ hi := by
    intro x y lo hi p
    constructor
    · rintro ⟨q, h⟩
      obtain ⟨⟨⟩, h1, h⟩ := (bind_ok_iff _ _ _).mp h
      obtain ⟨⟨⟩, h2, _⟩ := (bind_ok_iff _ _ _).mp h
      exact ⟨(ctor_checkNonNeg_iff x).mp h2, (ctor_checkRange_iff _ _ _).mp h1⟩
    · rintro ⟨h, h'⟩
      rw [(ctor_checkRange_iff _ _ _).mpr h', ok_bind, checkNonNeg_ok h, ok_bind]; exact ⟨_, rfl⟩
  have t4 : ∀ (y lo hi : ℝ) (p : Pos ℝ), (∃ q, (do checkRange y lo hi; return p : Res (Pos ℝ)) = .ok q) ↔
      lo ≤ y ∧ y ≤ hi := by
    intro y lo hi p
    constructor
    · rintro ⟨q, h⟩
      obtain ⟨⟨⟩, h1, h⟩ := (bind_ok_iff _ _ _).mp h
      exact (ctor_checkRange_iff _ _ _).mp h1
    · intro h'
      rw [(ctor_checkRange_iff _ _ _).mpr h', ok_bind]; exact ⟨_, rfl⟩
  cases k <;> simp only [posComps] at h
  case cart1 =>
    obtain ⟨q0, a0, x, b0, rfl, rfl, h0, h⟩ := h.cons
    obtain ⟨rfl, rfl⟩ := h.nil
    exact ⟨fun _ => trivial, fun _ => ⟨_, rfl⟩⟩
  case cart2 =>
    obtain ⟨q0, a0, x, b0, rfl, rfl, h0, h⟩ := h.cons
    obtain ⟨q1, a1, y, b1, rfl, rfl, h1, h⟩ := h.cons
    obtain ⟨rfl, rfl⟩ := h.nil
    exact ⟨fun _ => trivial, fun _ => ⟨_, rfl⟩⟩
  case cart3 =>
    obtain ⟨q0, a0, x, b0, rfl, rfl, h0, h⟩ := h.cons
    obtain ⟨q1, a1, y, b1, rfl, rfl, h1, h⟩ := h.cons
    obtain ⟨q2, a2, z, b2, rfl, rfl, h2, h⟩ := h.cons
    obtain ⟨rfl, rfl⟩ := h.nil
    exact ⟨fun _ => trivial, fun _ => ⟨_, rfl⟩⟩
  case radial =>
    obtain ⟨q0, a0, r, b0, rfl, rfl, h0, h⟩ := h.cons
    obtain ⟨rfl, rfl⟩ := h.nil
    obtain ⟨d, hd, hr⟩ := dist_of_holds h0
    simp only [readPos, hd, ok_bind, map_cons, map_nil, InRange, ← hr]
    exact t1 _ _
  case polar =>
    obtain ⟨q0, a0, r, b0, rfl, rfl, h0, h⟩ := h.cons
    obtain ⟨q1, a1, phi, b1, rfl, rfl, h1, h⟩ := h.cons
    obtain ⟨rfl, rfl⟩ := h.nil
    obtain ⟨d, hd, hr⟩ := dist_of_holds h0
    simp only [readPos, hd, ok_bind, map_cons, map_nil, InRange, ← hr]
    exact t1 _ _
  case twoSphere =>
    obtain ⟨q0, a0, theta, b0, rfl, rfl, h0, h⟩ := h.cons
    obtain ⟨q1, a1, phi, b1, rfl, rfl, h1, h⟩ := h.cons
    obtain ⟨rfl, rfl⟩ := h.nil
    simp only [readPos, map_cons, map_nil, InRange]
    simpa [mkTwoSphere, mkSph, mkMath, Num.nat, Num.pi] using t4 theta.phys 0 π (.twoSphere theta.phys phi.az.convert)
  case cyl =>
    obtain ⟨q0, a0, rho, b0, rfl, rfl, h0, h⟩ := h.cons
    obtain ⟨q1, a1, phi, b1, rfl, rfl, h1, h⟩ := h.cons
    obtain ⟨q2, a2, z, b2, rfl, rfl, h2, h⟩ := h.cons
    obtain ⟨rfl, rfl⟩ := h.nil
    simp only [readPos, map_cons, map_nil, InRange]
    exact t1 _ _
  case sph =>
    obtain ⟨q0, a0, r, b0, rfl, rfl, h0, h⟩ := h.cons
    obtain ⟨q1, a1, theta, b1, rfl, rfl, h1, h⟩ := h.cons
    obtain ⟨q2, a2, phi, b2, rfl, rfl, h2, h⟩ := h.cons
    obtain ⟨rfl, rfl⟩ := h.nil
    obtain ⟨d, hd, hr⟩ := dist_of_holds h0
    simp only [readPos, hd, ok_bind, map_cons, map_nil, InRange, ← hr]
    simpa [mkTwoSphere, mkSph, mkMath, Num.nat, Num.pi] using t2 d.raw theta.phys 0 π (.sph d theta.phys phi.az.convert)
  case lonlat =>
    obtain ⟨q0, a0, lon, b0, rfl, rfl, h0, h⟩ := h.cons
    obtain ⟨q1, a1, lat, b1, rfl, rfl, h1, h⟩ := h.cons
    obtain ⟨q2, a2, dd, b2, rfl, rfl, h2, h⟩ := h.cons
    obtain ⟨rfl, rfl⟩ := h.nil
    obtain ⟨d, hd, hr⟩ := dist_of_holds h2
    simp only [readPos, hd, ok_bind, map_cons, map_nil, InRange, ← hr, mkLonLat, hp]
    exact t3 _ _ _ _ _
  case math =>
    obtain ⟨q0, a0, r, b0, rfl, rfl, h0, h⟩ := h.cons
    obtain ⟨q1, a1, theta, b1, rfl, rfl, h1, h⟩ := h.cons
    obtain ⟨q2, a2, phi, b2, rfl, rfl, h2, h⟩ := h.cons
    obtain ⟨rfl, rfl⟩ := h.nil
    obtain ⟨d, hd, hr⟩ := dist_of_holds h0
    simp only [readPos, hd, ok_bind, map_cons, map_nil, InRange, ← hr]
    simpa [mkTwoSphere, mkSph, mkMath, Num.nat, Num.pi] using t2 d.raw phi.phys 0 π (.math d theta.az.convert phi.phys)
  case prolate =>
    obtain ⟨q0, a0, mu, b0, rfl, rfl, h0, h⟩ := h.cons
    obtain ⟨q1, a1, nu, b1, rfl, rfl, h1, h⟩ := h.cons
    obtain ⟨q2, a2, phi, b2, rfl, rfl, h2, h⟩ := h.cons
    obtain ⟨rfl, rfl⟩ := h.nil
    cases delta with
    | none =>
      simp only [readPos, map_cons, map_nil, InRange]
      exact ⟨fun ⟨_, h⟩ => (by cases h), fun h => h.elim⟩
    | some dl =>
      simp only [readPos, map_cons, map_nil, InRange]
      change _ ↔ dl.unit.dim = Dim.length ∧ _
      by_cases hd : dl.unit.dim = .length
      · simp only [hd, if_true, true_and]
        exact mkProlate_returns _ _ _ _
      · simp [hd]

theorem check_iff (c : VCls) (args stored : List Qty) (delta : Option Qty)
    (h : AllHold (comps c) args stored) : c.check stored delta = .ok () ↔ Accepted c stored delta := by
  unfold VCls.check Accepted
  by_cases hd : delta.isSome = true ∧ c ≠ .pos .prolate
  · rw [if_pos hd]
    exact ⟨fun h => (by cases h), fun h => absurd (h.1 hd.1) hd.2⟩
  · rw [if_neg hd]
    have hd' : delta.isSome → c = .pos .prolate := fun a => by
      by_contra hc; exact hd ⟨a, hc⟩
    cases c with
    | pos k =>
      have := readPos_iff k args stored delta h
      constructor
      · intro h
        refine ⟨hd', fun k' e => ?_⟩
        cases e
        obtain ⟨p, hp, _⟩ := (bind_ok_iff _ _ _).mp (show (readPos k stored delta >>= fun _ => .ok ()) = _ from h)
        exact this.mp ⟨p, hp⟩
      · intro h
        obtain ⟨p, hp⟩ := this.mpr (h.2 k rfl)
        show (readPos k stored delta >>= fun _ => .ok ()) = _
        rw [hp]; rfl
    | vel k => exact ⟨fun _ => ⟨hd', fun k e => (by cases e)⟩, fun _ => rfl⟩
    | acc k => exact ⟨fun _ => ⟨hd', fun k e => (by cases e)⟩, fun _ => rfl⟩
    | generic3 => exact ⟨fun _ => ⟨hd', fun k e => (by cases e)⟩, fun _ => rfl⟩
    | poincare => exact ⟨fun _ => ⟨hd', fun k e => (by cases e)⟩, fun _ => rfl⟩

/-- **C50.** The constructor of a class accepts exactly one quantity per component, of the physical type of that
component, within the class's ranges, and `Delta` exactly for the prolate class; the vector it returns has the
components in order, each holding what it was given (`Holds`). There is no acceleration class for
`LonCosLatSphericalVel`. -/
theorem C50_constructor (c : VCls) (args : List Qty) (delta : Option Qty) (v : UVec) :
    construct c args delta = .ok v ↔ c ≠ .acc .lonCosLat ∧
      ∃ stored, AllHold (comps c) args stored ∧ Accepted c stored delta ∧
        v = ⟨c, ((comps c).map Prod.fst).zip stored, delta⟩ := by
  by_cases hc : c = .acc .lonCosLat
  · subst hc
    exact ⟨fun h => (by cases h), fun h => absurd rfl h.1⟩
  have hs := schema_comps c hc
  have hne : c.schema ≠ [] := by
    rw [hs]
    cases c with
    | pos k => cases k <;> simp [comps, posComps]
    | vel k => cases k <;> simp [comps, posComps, base, ddt]
    | acc k => cases k <;> simp [comps, posComps, base, ddt]
    | generic3 => simp [comps]
    | poincare => simp [comps]
  have hzip : ∀ {l : List (String × Meaning)} {args st : List Qty}, AllHold l args st →
      ((l.map Prod.fst).zip st).map Prod.snd = st := by
    intro l
    induction l with
    | nil => intro args st h; obtain ⟨rfl, rfl⟩ := h.nil; rfl
    | cons e l ih =>
      intro args st h
      obtain ⟨q, qs, s, ss, rfl, rfl, _, h⟩ := h.cons
      simp only [map_cons, zip_cons_cons, ih h]
  simp only [ne_eq, hc, not_false_eq_true, true_and]
  unfold construct
  rw [if_neg hne]
  simp only []
  rw [hs]
  constructor
  · intro h
    obtain ⟨fs, h1, h⟩ := (bind_ok_iff _ _ _).mp h
    obtain ⟨⟨⟩, h2, h⟩ := (bind_ok_iff _ _ _).mp h
    obtain rfl := Except.ok.inj h
    obtain ⟨st, h3, rfl⟩ := (convertFields_iff _ _ _).mp h1
    rw [hzip h3] at h2
    exact ⟨st, h3, (check_iff c args st delta h3).mp h2, rfl⟩
  · rintro ⟨st, h1, h2, rfl⟩
    rw [(convertFields_iff _ _ _).mpr ⟨st, h1, rfl⟩, ok_bind, hzip h1, (check_iff c args st delta h1).mpr h2, ok_bind]
    rfl

/-! ### C50: consequences and instances -/

/-- **C50.** A velocity or acceleration class (other than the missing one) is constructed from any quantities of
the right physical types, and from nothing else; all values and units are kept. -/
theorem C50_derivatives (c : VCls) (hc : (∃ k, c = .vel k) ∨ ∃ k, c = .acc k) (hne : c ≠ .acc .lonCosLat)
    (args : List Qty) :
    ((∃ v, construct c args none = .ok v) ↔ args.map (fun q => q.unit.dim) = (comps c).map fun e => e.2.dim) ∧
    ∀ v, construct c args none = .ok v → v.fields = ((comps c).map Prod.fst).zip
      (args.map fun q => ⟨.quantity, q.value, q.unit⟩) := by
  have hof : ∀ e ∈ comps c, ∃ d, e.2 = .of d := by
    rcases hc with ⟨k, rfl⟩ | ⟨k, rfl⟩ <;> intro e he <;>
      simp only [comps, ddt, mem_map] at he <;> obtain ⟨a, _, rfl⟩ := he <;> exact ⟨_, rfl⟩
  have key : ∀ (l : List (String × Meaning)), (∀ e ∈ l, ∃ d, e.2 = .of d) → ∀ args st : List Qty,
      AllHold l args st ↔ args.map (fun q => q.unit.dim) = l.map (fun e => e.2.dim) ∧
        st = args.map fun q => ⟨.quantity, q.value, q.unit⟩ := by
    intro l
    induction l with
    | nil =>
      intro _ args st
      constructor
      · intro h; obtain ⟨rfl, rfl⟩ := h.nil; exact ⟨rfl, rfl⟩
      · rintro ⟨h1, rfl⟩
        cases args with
        | nil => trivial
        | cons => cases h1
    | cons e l ih =>
      intro hl args st
      obtain ⟨d, hd⟩ := hl e (by simp)
      have ih := ih fun a ha => hl a (by simp [ha])
      constructor
      · intro h
        obtain ⟨q, qs, s, ss, rfl, rfl, h1, h2⟩ := h.cons
        rw [hd] at h1
        obtain ⟨e1, e2⟩ := (ih qs ss).mp h2
        rw [e2, h1.2]
        exact ⟨by simp only [map_cons, e1, hd, Meaning.dim, h1.1], rfl⟩
      · rintro ⟨h1, rfl⟩
        cases args with
        | nil => cases h1
        | cons q qs =>
          simp only [map_cons, cons.injEq] at h1
          refine ⟨?_, (ih qs _).mpr ⟨h1.2, rfl⟩⟩
          rw [hd] at h1 ⊢
          exact ⟨h1.1, rfl⟩
  have hacc : ∀ st, Accepted c st none := fun st =>
    ⟨fun h => (by cases h), fun k e => (by rcases hc with ⟨k, rfl⟩ | ⟨k, rfl⟩ <;> cases e)⟩
  constructor
  · constructor
    · rintro ⟨v, h⟩
      obtain ⟨_, st, h1, _⟩ := (C50_constructor _ _ _ _).mp h
      exact ((key _ hof _ _).mp h1).1
    · intro h
      exact ⟨_, (C50_constructor _ _ _ _).mpr ⟨hne, _, (key _ hof _ _).mpr ⟨h, rfl⟩, hacc _, rfl⟩⟩
  · intro v h
    obtain ⟨_, st, h1, _, rfl⟩ := (C50_constructor _ _ _ _).mp h
    rw [((key _ hof _ _).mp h1).2]

/-- a spherical position given with a plain length, an angle and an azimuth of 370 degrees -/
example : ∃ v, construct (.pos .sph) [⟨.quantity, 3, UnitsExample.km⟩, ⟨.quantity, 60, UnitsExample.deg⟩,
    ⟨.quantity, 370, UnitsExample.deg⟩] none = .ok v ∧
    v.fields = [("r", ⟨.distance, 3, UnitsExample.km⟩), ("theta", ⟨.angle, 60, UnitsExample.deg⟩),
      ("phi", ⟨.angle, 10, UnitsExample.deg⟩)] := by
  have hp := Real.pi_pos
  refine ⟨_, (C50_constructor _ _ _ _).mpr ⟨by simp, [⟨.distance, 3, UnitsExample.km⟩,
    ⟨.angle, 60, UnitsExample.deg⟩, ⟨.angle, 10, UnitsExample.deg⟩], ⟨?_, ?_, ?_, trivial⟩, ⟨?_, ?_⟩, rfl⟩, rfl⟩
  · exact .inr ⟨by simp, .inl ⟨rfl, rfl⟩⟩
  · exact ⟨rfl, rfl⟩
  · refine .inr ⟨by simp, rfl, rfl, rfl, ?_, ?_, 1, ?_⟩ <;> simp only [Qty.phys, UnitsExample.deg]
    · positivity
    · nlinarith
    · push_cast; ring
  · intro h; cases h
  · intro k hk; cases hk
    simp only [map_cons, map_nil, InRange, Qty.phys, UnitsExample.deg, UnitsExample.km]
    refine ⟨by norm_num, by positivity, by nlinarith⟩

/-! ### C51 -/

theorem lookup_append_of_mem {α : Type} {l l' : List (String × α)} {n : String} (h : n ∈ l.map Prod.fst) :
    (l ++ l').lookup n = l.lookup n := by
  induction l with
  | nil => cases h
  | cons e l ih =>
    obtain ⟨k, v⟩ := e
    simp only [cons_append, lookup_cons]
    cases hk : (n == k)
    · simp only [map_cons, mem_cons] at h
      rcases h with rfl | h
      · simp at hk
      · exact ih h
    · rfl

theorem lookup_append_of_not_mem {α : Type} {l l' : List (String × α)} {n : String} (h : n ∉ l.map Prod.fst) :
    (l ++ l').lookup n = l'.lookup n := by
  induction l with
  | nil => rfl
  | cons e l ih =>
    obtain ⟨k, v⟩ := e
    simp only [map_cons, mem_cons, not_or] at h
    simp only [cons_append, lookup_cons]
    have : (n == k) = false := by simpa using h.1
    rw [this]; exact ih h.2

theorem lookup_none {α : Type} {l : List (String × α)} {n : String} (h : n ∉ l.map Prod.fst) : l.lookup n = none := by
  have := lookup_append_of_not_mem (l' := []) h
  simpa using this

/-- keys are distinct: the order of a mapping does not matter -/
theorem lookup_perm {α : Type} {l l' : List (String × α)} (h : l.Perm l') (hn : (l.map Prod.fst).Nodup) (n : String) :
    l.lookup n = l'.lookup n := by
  induction h with
  | nil => rfl
  | cons e _ ih =>
    obtain ⟨k, v⟩ := e
    simp only [map_cons, nodup_cons] at hn
    simp only [lookup_cons, ih hn.2]
  | swap a b l =>
    obtain ⟨k, v⟩ := a
    obtain ⟨k', v'⟩ := b
    simp only [map_cons, nodup_cons, mem_cons, not_or] at hn
    simp only [lookup_cons]
    cases h1 : (n == k') <;> cases h2 : (n == k) <;> simp only []
    simp only [beq_iff_eq] at h1 h2
    exact absurd (h1.symm.trans h2) hn.1.1
  | trans h1 _ ih1 ih2 =>
    rw [ih1 hn]
    exact ih2 ((h1.map Prod.fst).nodup_iff.mp hn)

theorem takeKw_congr {m m' : KwArgs} {ns : List String} (h : ∀ n ∈ ns, m.lookup n = m'.lookup n) :
    takeKw m ns = takeKw m' ns := by
  induction ns with
  | nil => rfl
  | cons n ns ih => simp only [takeKw, h n (by simp), ih fun a ha => h a (by simp [ha])]

theorem takeKw_self {m : KwArgs} (hn : (m.map Prod.fst).Nodup) : takeKw m (m.map Prod.fst) = .ok (m.map Prod.snd) := by
  induction m with
  | nil => rfl
  | cons e m ih =>
    obtain ⟨k, q⟩ := e
    simp only [map_cons, nodup_cons] at hn
    simp only [map_cons, takeKw, lookup_cons, beq_self_eq_true]
    have : takeKw ((k, q) :: m) (m.map Prod.fst) = takeKw m (m.map Prod.fst) := takeKw_congr fun n hm => by
      have : (n == k) = false := by
        rw [beq_eq_false_iff_ne]; rintro rfl; exact hn.1 hm
      simp only [lookup_cons, this]
    rw [this, ih hn.2, ok_bind]; rfl

theorem components_nodup (c : VCls) : (c.components ++ ["Delta"]).Nodup := by
  cases c with
  | pos k => cases k <;> decide
  | vel k => cases k <;> decide
  | acc k => cases k <;> decide
  | generic3 => decide
  | poincare => decide

theorem built_names {v : UVec} (hb : Built v) : v.fields.map Prod.fst = v.cls.components := by
  obtain ⟨_, h, _⟩ := (built_iff v).mp hb
  unfold VCls.components
  generalize v.cls.schema = sch at h
  generalize v.fields = fs at h
  induction h with
  | nil => rfl
  | cons a _ ih => simp only [map_cons, ih, a.1]

theorem built_self {v : UVec} (hb : Built v) : construct v.cls (v.fields.map Prod.snd) v.delta = .ok v := by
  have h := (built_iff v).mp hb
  unfold construct
  rw [if_neg h.schema]
  simp only []
  rw [convertFields_stored h.fields, ok_bind, h.check, ok_bind]
  rfl

theorem built_delta {v : UVec} (hb : Built v) : (v.cls = .pos .prolate ∧ v.delta.isSome) ∨
    (v.cls ≠ .pos .prolate ∧ v.delta = none) := by
  obtain ⟨c, args, delta, h⟩ := hb
  obtain ⟨_, st, h1, h2, rfl⟩ := (C50_constructor _ _ _ _).mp h
  by_cases hc : c = .pos .prolate
  · refine .inl ⟨hc, ?_⟩
    have := h2.2 _ hc
    cases delta with
    | none =>
      unfold InRange at this
      revert this
      split <;> simp_all
    | some d => rfl
  · refine .inr ⟨hc, ?_⟩
    cases delta with
    | none => rfl
    | some d => exact absurd (h2.1 rfl) hc

theorem attributes_eq {v : UVec} (hb : Built v) :
    v.cls.attributes = (match v.delta with | none => ([] : List (String × Qty)) | some d => [("Delta", d)]).map Prod.fst := by
  rcases built_delta hb with ⟨h1, h2⟩ | ⟨h1, h2⟩
  · cases hd : v.delta with
    | none => rw [hd] at h2; cases h2
    | some d => rw [h1]; rfl
  · rw [h2]
    cases hc : v.cls with
    | pos k => cases k <;> first | rfl | exact absurd hc h1
    | _ => rfl

theorem asdict_names {v : UVec} (hb : Built v) : v.asdict.map Prod.fst = v.cls.components ++ v.cls.attributes := by
  simp only [UVec.asdict, map_append, built_names hb, attributes_eq hb]
  cases v.delta <;> rfl

theorem asdict_delta {v : UVec} (hb : Built v) : v.asdict.lookup "Delta" = v.delta := by
  have : "Delta" ∉ v.fields.map Prod.fst := by
    rw [built_names hb]
    have := components_nodup v.cls
    rw [nodup_append] at this
    intro hm
    exact this.2.2 _ hm _ (by simp) rfl
  rw [UVec.asdict, lookup_append_of_not_mem this]
  cases v.delta <;> rfl

theorem asdict_nodup {v : UVec} (hb : Built v) : (v.asdict.map Prod.fst).Nodup := by
  rw [asdict_names hb]
  have := components_nodup v.cls
  cases hc : v.cls with
  | pos k => cases k <;> simp only [VCls.attributes, append_nil] <;> rw [hc] at this <;>
      first | exact this | exact this.of_append_left
  | vel k => rw [hc] at this; simp only [VCls.attributes, append_nil]; exact this.of_append_left
  | acc k => rw [hc] at this; simp only [VCls.attributes, append_nil]; exact this.of_append_left
  | generic3 => rw [hc] at this; simp only [VCls.attributes, append_nil]; exact this.of_append_left
  | poincare => rw [hc] at this; simp only [VCls.attributes, append_nil]; exact this.of_append_left

/-- **C51.** The order of the entries of a mapping does not matter. -/
theorem C51_order (c : VCls) (m m' : KwArgs) (h : m.Perm m') (hn : (m.map Prod.fst).Nodup) :
    fromMapping c m = fromMapping c m' := by
  unfold fromMapping constructKw
  have e : m.all (fun e => decide (e.1 ∈ c.components ++ c.attributes)) =
      m'.all (fun e => decide (e.1 ∈ c.components ++ c.attributes)) := by
    rw [Bool.eq_iff_iff, all_eq_true, all_eq_true]
    exact ⟨fun k a ha => k a (h.mem_iff.mpr ha), fun k a ha => k a (h.mem_iff.mp ha)⟩
  rw [e, takeKw_congr fun n _ => lookup_perm h hn n, lookup_perm h hn]

/-- **C51.** `cls.from_(v.asdict())` gives back the vector, whatever the order of the entries. -/
theorem C51_asdict_round_trip (v : UVec) (hb : Built v) (m : KwArgs) (hm : m.Perm v.asdict) :
    fromMapping v.cls m = .ok v := by
  have hn := asdict_nodup hb
  rw [C51_order v.cls m v.asdict hm ((hm.map Prod.fst).nodup_iff.mpr hn)]
  unfold fromMapping constructKw
  rw [if_pos]
  · have : takeKw v.asdict v.cls.components = .ok (v.fields.map Prod.snd) := by
      rw [← built_names hb]
      have hf : (v.fields.map Prod.fst).Nodup := by rw [built_names hb]; exact (components_nodup v.cls).of_append_left
      rw [← takeKw_self hf]
      exact takeKw_congr fun n hn => lookup_append_of_mem hn
    rw [this, ok_bind, asdict_delta hb]
    exact built_self hb
  · rw [all_eq_true]
    intro e he
    rw [decide_eq_true_eq, ← asdict_names hb]
    exact mem_map_of_mem he

open UnitsExample in
/-- a cylindrical position from a mapping in another order -/
example : fromMapping (.pos .cyl) [("z", ⟨.quantity, 7, m⟩), ("rho", ⟨.quantity, 1, km⟩), ("phi", ⟨.angle, 5, deg⟩)] =
    .ok cyl :=
  C51_asdict_round_trip cyl cyl_built _
    ((List.Perm.swap _ _ _).trans ((List.Perm.swap _ _ _).cons _))

/-- **C51.** A mapping with an entry that is not a component (or attribute) of the class, or without one of its
components, is rejected. -/
theorem C51_wrong_keys (c : VCls) (m : KwArgs) :
    ((∃ e ∈ m, e.1 ∉ c.components ++ c.attributes) → ∃ e, fromMapping c m = .error e) ∧
    ((∃ n ∈ c.components, n ∉ m.map Prod.fst) → ∃ e, fromMapping c m = .error e) := by
  constructor
  · rintro ⟨e, he, hne⟩
    refine ⟨.badField, ?_⟩
    unfold fromMapping constructKw
    rw [if_neg]
    rw [all_eq_true]
    intro h
    exact hne (by simpa using h e he)
  · rintro ⟨n, hn, hm⟩
    unfold fromMapping constructKw
    split
    · have : ∀ ns : List String, n ∈ ns → ∃ e, takeKw m ns = .error e := by
        intro ns
        induction ns with
        | nil => intro h; cases h
        | cons a ns ih =>
          intro h
          simp only [takeKw]
          cases hl : m.lookup a with
          | none => exact ⟨_, rfl⟩
          | some q =>
            simp only []
            simp only [mem_cons] at h
            rcases h with rfl | h
            · rw [lookup_none hm] at hl; cases hl
            · obtain ⟨e, he⟩ := ih h
              rw [he]; exact ⟨e, rfl⟩
      obtain ⟨e, he⟩ := this _ hn
      rw [he]; exact ⟨e, rfl⟩
    · exact ⟨_, rfl⟩

/-- **C51.** `replace(v, name=q, ...)` is the constructor with those components exchanged: in field order, the new
one where given and the old one elsewhere. -/
theorem C51_replace (v : UVec) (hb : Built v) (m : KwArgs)
    (hm : ∀ e ∈ m, e.1 ∈ v.cls.components) :
    v.replaceKw m = construct v.cls (v.fields.map fun e => (m.lookup e.1).getD e.2) v.delta := by
  have hdc : "Delta" ∉ v.cls.components := by
    have := components_nodup v.cls
    rw [nodup_append] at this
    intro h
    exact this.2.2 _ h _ (by simp) rfl
  have hdm : "Delta" ∉ m.map Prod.fst := by
    intro h
    obtain ⟨e, he, hd⟩ := mem_map.mp h
    exact hdc (hd ▸ hm e he)
  have hfl : ∀ (l : KwArgs) (n : String), n ∉ m.map Prod.fst →
      (l.filter fun e => decide (e.1 ∉ m.map Prod.fst)).lookup n = l.lookup n := by
    intro l n hn
    induction l with
    | nil => rfl
    | cons e l ih =>
      obtain ⟨k, q⟩ := e
      by_cases hk : k ∈ m.map Prod.fst
      · rw [filter_cons_of_neg (by simpa using hk), ih, lookup_cons]
        have : (n == k) = false := by rw [beq_eq_false_iff_ne]; rintro rfl; exact hn hk
        rw [this]
      · rw [filter_cons_of_pos (by simpa using hk), lookup_cons, lookup_cons, ih]
  unfold UVec.replaceKw constructKw
  rw [if_pos, lookup_append_of_not_mem hdm, hfl _ _ hdm, asdict_delta hb]
  · have key : ∀ fs : List (String × Qty), (fs.map Prod.fst).Nodup →
        (∀ n ∈ fs.map Prod.fst, v.asdict.lookup n = fs.lookup n) →
        takeKw (m ++ v.asdict.filter fun e => decide (e.1 ∉ m.map Prod.fst)) (fs.map Prod.fst) =
          .ok (fs.map fun e => (m.lookup e.1).getD e.2) := by
      intro fs
      induction fs with
      | nil => intro _ _; rfl
      | cons e fs ih =>
        obtain ⟨k, q⟩ := e
        intro hn hl
        simp only [map_cons, nodup_cons] at hn
        have hk : (m ++ v.asdict.filter fun e => decide (e.1 ∉ m.map Prod.fst)).lookup k =
            some ((m.lookup k).getD q) := by
          by_cases hmk : k ∈ m.map Prod.fst
          · rw [lookup_append_of_mem hmk]
            cases hlk : m.lookup k with
            | none =>
              exfalso
              obtain ⟨e, he, rfl⟩ := mem_map.mp hmk
              rw [lookup_eq_none_iff] at hlk
              have := hlk e he
              simp at this
            | some q' => rfl
          · rw [lookup_append_of_not_mem hmk, hfl _ _ hmk, hl k (by simp), lookup_none hmk]
            simp [lookup_cons]
        simp only [map_cons, takeKw, hk]
        rw [ih hn.2 fun n hm => by
          rw [hl n (by simp [hm]), lookup_cons]
          have : (n == k) = false := by rw [beq_eq_false_iff_ne]; rintro rfl; exact hn.1 hm
          rw [this], ok_bind]
        rfl
    rw [← built_names hb, key v.fields (by rw [built_names hb]; exact (components_nodup v.cls).of_append_left)
      (fun n hn => lookup_append_of_mem hn), ok_bind]
  · rw [all_eq_true]
    intro e he
    rw [decide_eq_true_eq]
    rcases mem_append.mp he with h | h
    · exact mem_append.mpr (.inl (hm e h))
    · rw [← asdict_names hb]
      exact mem_map_of_mem (mem_filter.mp h).1

/-- two three-dimensional classes of one sort: both positions, both velocities, or both accelerations -/
def Spec.Both3D (c d : VCls) : Prop :=
  (∃ k l, c = .pos k ∧ d = .pos l ∧ k.dim = 3 ∧ l.dim = 3) ∨
  (∃ k l, c = .vel k ∧ d = .vel l ∧ k.dim = 3 ∧ l.dim = 3) ∨
  (∃ k l, c = .acc k ∧ d = .acc l ∧ k.dim = 3 ∧ l.dim = 3)

theorem sort3_pos (k : Kind) : (VCls.pos k).sort3 = if k.dim = 3 then some 0 else none := by cases k <;> rfl
theorem sort3_vel (k : VKind) : (VCls.vel k).sort3 = if k.dim = 3 then some 1 else none := by cases k <;> rfl
theorem sort3_acc (k : VKind) : (VCls.acc k).sort3 = if k.dim = 3 then some 2 else none := by cases k <;> rfl

theorem sort3_iff (c d : VCls) : (c.sort3.isSome ∧ c.sort3 = d.sort3) ↔ Spec.Both3D c d := by
  unfold Spec.Both3D
  have hg : VCls.generic3.sort3 = none := rfl
  have hp : VCls.poincare.sort3 = none := rfl
  cases c <;> cases d <;> simp only [sort3_pos, sort3_vel, sort3_acc, hg, hp] <;> grind

/-- **C51.** `cls.from_(v)` returns `v` itself when `v` is of class `cls` or when both are
three-dimensional classes of one sort, and raises in all other cases. So the result is of class `cls` except
between three-dimensional classes (`C51_from_vector_wrong_class`). -/
theorem C51_from_vector (c : VCls) (v : UVec) :
    (v.cls = c ∨ Spec.Both3D c v.cls → fromVec c v = .ok v) ∧
    (v.cls ≠ c → ¬ Spec.Both3D c v.cls → ∃ e, fromVec c v = .error e) := by
  unfold fromVec
  constructor
  · intro h
    split
    · rfl
    · rename_i hn
      rw [sort3_iff] at hn
      rw [if_pos (h.resolve_right hn)]
  · intro hne hs
    rw [if_neg (by rw [sort3_iff]; exact hs), if_neg hne]
    exact ⟨_, rfl⟩

example : ¬ Spec.Both3D (.pos .cart3) (.vel .cart3) ∧ Spec.Both3D (.vel .cart3) (.vel .sph) :=
  ⟨by simp [Spec.Both3D], .inr (.inl ⟨_, _, rfl, rfl, rfl, rfl⟩)⟩

/-- `CartesianPos3D.from_(v)` of any cylindrical position `v` is that cylindrical position -/
theorem C51_from_vector_wrong_class (v : UVec) (h : v.cls = .pos .cyl) :
    fromVec (.pos .cart3) v = .ok v ∧ v.cls ≠ .pos .cart3 := by
  refine ⟨?_, by rw [h]; simp⟩
  unfold fromVec
  rw [if_pos ⟨rfl, by rw [h]; rfl⟩]

end Verif
