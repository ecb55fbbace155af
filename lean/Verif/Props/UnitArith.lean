import Verif.UnitArithUnits
import Verif.Props.UnitRep
import Verif.Props.Arith

/-!
# C62: arithmetic of positions does not depend on the units of the components

`+` of 3-D positions, `-p`, `s * p`, `p / s`, `p * q`, `norm` and `normalize_vector` behave as in base units. `-`, `+` in
one and two dimensions, and `==` compare pytree structures: they behave as in base units when the units of the two
vectors agree and raise otherwise.
-/

namespace Verif

open Num

namespace Spec

/-- the unit of the length that a radial field denotes: parallaxes give astronomical units, distance moduli parsecs -/
noncomputable def lengthUnit : Dist (UQ ℝ) → RUnit
  | .dist q => q.unit
  | .par _ => .au
  | .dm _ => .pc

/-- the units in which the Cartesian components of a position come out -/
noncomputable def cartesianUnits : Pos (UQ ℝ) → List RUnit
  | .cart1 x => [x.unit]
  | .radial r => [lengthUnit r]
  | .cart2 x y => [x.unit, y.unit]
  | .polar r _ => [lengthUnit r, lengthUnit r]
  | .twoSphere _ _ => []
  | .cart3 x y z => [x.unit, y.unit, z.unit]
  | .cyl rho _ z => [rho.unit, rho.unit, z.unit]
  | .sph r _ _ => [lengthUnit r, lengthUnit r, lengthUnit r]
  | .lonlat _ _ d => [lengthUnit d, lengthUnit d, lengthUnit d]
  | .math r _ _ => [lengthUnit r, lengthUnit r, lengthUnit r]
  | .prolate mu nu _ delta =>
    [mu.unit.pow (1 / 2), mu.unit.pow (1 / 2), (mu.unit.mul (nu.unit.div (delta.unit.mul delta.unit))).pow (1 / 2)]

/-- all lengths of the position are given in the unit `u`, and areas in its square -/
def AllIn (u : RUnit) : Pos (UQ ℝ) → Prop
  | .cart1 x => x.unit = u
  | .radial r => ∃ q, r = .dist q ∧ q.unit = u
  | .cart2 x y => x.unit = u ∧ y.unit = u
  | .polar r _ => ∃ q, r = .dist q ∧ q.unit = u
  | .twoSphere _ _ => True
  | .cart3 x y z => x.unit = u ∧ y.unit = u ∧ z.unit = u
  | .cyl rho _ z => rho.unit = u ∧ z.unit = u
  | .sph r _ _ => ∃ q, r = .dist q ∧ q.unit = u
  | .lonlat _ _ d => ∃ q, d = .dist q ∧ q.unit = u
  | .math r _ _ => ∃ q, r = .dist q ∧ q.unit = u
  | .prolate mu nu _ delta => mu.unit = u.mul u ∧ nu.unit = u.mul u ∧ delta.unit = u

/-- units of the fields, in order; for a radial field also its class -/
inductive FieldUnit
  | ofDistance (u : RUnit)
  | ofParallax (u : RUnit)
  | ofModulus (u : RUnit)
  | ofQuantity (u : RUnit)

/-- radial fields -/
def radialUnit : Dist (UQ ℝ) → FieldUnit
  | .dist q => .ofDistance q.unit
  | .par q => .ofParallax q.unit
  | .dm q => .ofModulus q.unit

/-- all fields -/
def fieldUnits : Pos (UQ ℝ) → List FieldUnit
  | .cart1 x => [.ofQuantity x.unit]
  | .radial r => [radialUnit r]
  | .cart2 x y => [.ofQuantity x.unit, .ofQuantity y.unit]
  | .polar r phi => [radialUnit r, .ofQuantity phi.unit]
  | .twoSphere theta phi => [.ofQuantity theta.unit, .ofQuantity phi.unit]
  | .cart3 x y z => [.ofQuantity x.unit, .ofQuantity y.unit, .ofQuantity z.unit]
  | .cyl rho phi z => [.ofQuantity rho.unit, .ofQuantity phi.unit, .ofQuantity z.unit]
  | .sph r theta phi => [radialUnit r, .ofQuantity theta.unit, .ofQuantity phi.unit]
  | .lonlat lon lat d => [.ofQuantity lon.unit, .ofQuantity lat.unit, radialUnit d]
  | .math r theta phi => [radialUnit r, .ofQuantity theta.unit, .ofQuantity phi.unit]
  | .prolate mu nu phi delta =>
    [.ofQuantity mu.unit, .ofQuantity nu.unit, .ofQuantity phi.unit, .ofQuantity delta.unit]

/-- the result is a vector of the right physical types and is `q'` in base units -/
def Denotes (q : Pos (UQ ℝ)) (q' : Pos ℝ) : Prop := PosTyped q ∧ basePos q = q'

end Spec

open Spec

/-! ### The specification and the model's notions -/

theorem lengthUnit_eq (r : Dist (UQ ℝ)) : lengthUnit r = r.lengthUnit := by cases r <;> rfl

theorem cartesianUnits_eq (p : Pos (UQ ℝ)) : cartesianUnits p = p.toCartUnits := by
  cases p <;> simp only [cartesianUnits, Pos.toCartUnits, lengthUnit_eq]

/-- leaves and field units -/
def Leaf.spec : Leaf → FieldUnit
  | .dist u => .ofDistance u
  | .par u => .ofParallax u
  | .dm u => .ofModulus u
  | .qty u => .ofQuantity u

theorem Leaf.spec_inj {a b : Leaf} (h : a.spec = b.spec) : a = b := by
  cases a <;> cases b <;> simp only [Leaf.spec, FieldUnit.ofDistance.injEq, FieldUnit.ofParallax.injEq,
    FieldUnit.ofModulus.injEq, FieldUnit.ofQuantity.injEq, reduceCtorEq] at h <;> rw [h]

theorem radialUnit_eq (r : Dist (UQ ℝ)) : radialUnit r = r.leaf.spec := by cases r <;> rfl

theorem fieldUnits_eq (p : Pos (UQ ℝ)) : fieldUnits p = p.fieldLeaves.map Leaf.spec := by
  cases p <;> simp only [fieldUnits, Pos.fieldLeaves, List.map, Leaf.spec, radialUnit_eq]

theorem fieldUnits_iff (p q : Pos (UQ ℝ)) : fieldUnits p = fieldUnits q ↔ p.fieldLeaves = q.fieldLeaves := by
  rw [fieldUnits_eq, fieldUnits_eq]
  exact ⟨fun h => (List.map_injective_iff.mpr fun a b => Leaf.spec_inj) h, fun h => by rw [h]⟩

theorem denotes_of {q : Pos (UQ ℝ)} {q' : Pos ℝ} (h : q.Rel q') : Denotes q q' :=
  ⟨(posTyped_iff q).mpr h.1, (basePos_eq q).trans h.2⟩

theorem rel_of {q : Pos (UQ ℝ)} {q' : Pos ℝ} (h : Denotes q q') : q.Rel q' :=
  ⟨(posTyped_iff q).mp h.1, (basePos_eq q).symm.trans h.2⟩

theorem baseDist_eq (r : Dist (UQ ℝ)) : baseDist r = r.tr UQ.phys := by
  cases r <;> simp only [baseDist, Dist.tr, base_eq]

/-! ### Operations that accept any units -/

/-- **C62**: `p.norm()` -/
theorem C62_norm (p : Pos (UQ ℝ)) (hp : PosTyped p) :
    SameOutcome (fun d d' => DistTyped d ∧ baseDist d = d') (normU p) (norm (basePos p)) := by
  rw [basePos_eq]
  refine (norm_rel ⟨(posTyped_iff p).mp hp, rfl⟩).outcome fun d d' h => ?_
  exact ⟨(distTyped_iff d).mpr h.1, (baseDist_eq d).trans h.2⟩

/-- **C62**: `p * q`: an area, whose values in base units are the products of the base values -/
theorem C62_product (p q : Pos (UQ ℝ)) (hp : PosTyped p) (hq : PosTyped q) :
    SameOutcome (fun w l => w.unit.dim = { len := 2 } ∧ w.values.map (fun v => v * w.unit.scale) = l)
      (mulPosPosU p q) (mulPosPos (basePos p) (basePos q)) := by
  rw [basePos_eq, basePos_eq]
  refine (mulPosPos_rel ⟨(posTyped_iff p).mp hp, rfl⟩ ⟨(posTyped_iff q).mp hq, rfl⟩).outcome fun w l h => ?_
  refine ⟨by rw [← area_dim]; exact h.1, ?_⟩
  rw [← h.2]
  exact List.map_congr_left fun v _ => mul_comm _ _

/-- **C62**: `-p` -/
theorem C62_negation (p : Pos (UQ ℝ)) (hp : PosTyped p) :
    SameOutcome Denotes (negPosU p) (negPos (basePos p)) := by
  rw [basePos_eq]
  exact (negPos_rel ((posTyped_iff p).mp hp)).outcome fun _ _ h => denotes_of h

/-- **C62**: `s * p` -/
theorem C62_scaling (s : ℝ) (p : Pos (UQ ℝ)) (hp : PosTyped p) :
    SameOutcome Denotes (scalePosU s p) (scalePos s (basePos p)) := by
  rw [basePos_eq]
  exact (scalePos_rel s ((posTyped_iff p).mp hp)).outcome fun _ _ h => denotes_of h

/-- **C62**: `p / s` -/
theorem C62_division (p : Pos (UQ ℝ)) (s : ℝ) (hp : PosTyped p) :
    SameOutcome Denotes (divPosU p s) (divPos (basePos p) s) := by
  rw [basePos_eq]
  exact (divPos_rel s ((posTyped_iff p).mp hp)).outcome fun _ _ h => denotes_of h

/-- **C62**: `normalize_vector` of a `CartesianPos3D`: dimensionless components, those of the base values -/
theorem C62_normalize (x y z : UQ ℝ) (hx : IsLength x) (hy : IsLength y) (hz : IsLength z) :
    SameOutcome (fun w w' => (w.1.unit.dim = {} ∧ w.2.1.unit.dim = {} ∧ w.2.2.unit.dim = {}) ∧
        (baseVal w.1, baseVal w.2.1, baseVal w.2.2) = w')
      (normalizeCart3U x y z) (normalizeCart3 (baseVal x) (baseVal y) (baseVal z)) := by
  rw [base_eq, base_eq, base_eq]
  refine (normalize_rel hx hy hz).outcome fun w w' h => ?_
  obtain ⟨h1, h2, h3⟩ := h
  refine ⟨⟨h1.1, h2.1, h3.1⟩, ?_⟩
  rw [base_eq, base_eq, base_eq, h1.2, h2.2, h3.2]

/-- **C62**: the sum of a 3-D position and any position -/
theorem C62_addition_3d (p q : Pos (UQ ℝ)) (hp : PosTyped p) (hq : PosTyped q) (hd : p.kind.dim = 3) :
    SameOutcome Denotes (addPosU p q) (addPos (basePos p) (basePos q)) := by
  rw [basePos_eq, basePos_eq]
  refine (bin_rel ((posTyped_iff p).mp hp) ((posTyped_iff q).mp hq) ?_).outcome fun _ _ h => denotes_of h
  intro a b a' b' _ _ ha hb hka hkb
  have hk : p.kind.cartesian = .cart3 := by
    revert hd; cases p.kind <;> intro hd <;> first | rfl | cases hd
  rw [hk] at hka hkb
  exact addCart3_rel ha hb hka hkb

/-! ### Operations that compare units -/

/-- rules that map over the stored values -/
theorem tree_outcome {f : ℝ → ℝ → ℝ} {F : Pos (UQ ℝ) → Pos (UQ ℝ) → Res (Pos (UQ ℝ))}
    (hf : ∀ {a b : UQ ℝ} {d : RDim}, a.unit = b.unit → a.unit.dim = d → ∃ r, leafOp f a b = .ok r ∧ r.Rel d (f a.phys b.phys))
    {p q : Pos (UQ ℝ)} (hF : ∀ a b, a.kind = p.kind.cartesian → F a b = treeCart f a b)
    (hp : p.WD) (hq : q.WD) :
    ((∀ a b, representAsU {} p p.kind.cartesian = .ok a → representAsU {} q p.kind.cartesian = .ok b →
        a.cartUnits = b.cartUnits) →
      SameOutcome Denotes (binPosU F p q) (binPos f (basePos p) (basePos q))) ∧
    (∀ a b, representAsU {} p p.kind.cartesian = .ok a → representAsU {} q p.kind.cartesian = .ok b →
        a.cartUnits ≠ b.cartUnits → binPosU F p q = .error .mismatch) := by
  constructor
  · intro hu
    rw [basePos_eq, basePos_eq]
    refine (bin_rel hp hq ?_).outcome fun _ _ h => denotes_of h
    intro a b a' b' ea eb ha hb hka hkb
    rw [hF a b hka]
    exact tree_rel hf ha hb (hka.trans hkb.symm) (hu a b ea eb)
  · intro a b ea eb hu
    have ka : a.kind = p.kind.cartesian := by
      have h := repr_relk (p := p) ⟨hp, rfl⟩ p.kind.cartesian fun _ => cartesian_ne _
      rw [ea] at h
      generalize representAs {} (p.tr UQ.phys) p.kind.cartesian = Y at h
      cases h with | ok h => exact h.2
    have kb : b.kind = p.kind.cartesian := by
      have h := repr_relk (p := q) ⟨hq, rfl⟩ p.kind.cartesian fun _ => cartesian_ne _
      rw [eb] at h
      generalize representAs {} (q.tr UQ.phys) p.kind.cartesian = Y at h
      cases h with | ok h => exact h.2
    have key := tree_fails (f := f) (ka.trans kb.symm) hu
    have cartCase : p.kind = p.kind.cartesian → (do F p (← representAsU {} q p.kind)) = .error .mismatch := by
      intro hc
      rw [← hc] at ea eb
      rw [repr_cart_self p hc] at ea
      obtain rfl := Except.ok.inj ea
      rw [eb, ok_bind, hF p b hc, key]
    have genCase : (do
          let a ← representAsU {} p p.kind.cartesian
          let b ← representAsU {} q p.kind.cartesian
          let c ← representAsU {} b a.kind
          representAsU {} (← F a c) p.kind) = .error .mismatch := by
      have hbs : b.kind = b.kind.cartesian := by rw [kb]; cases p.kind <;> rfl
      rw [ea, eb, ok_bind, ok_bind, ka, ← kb, repr_cart_self b hbs, ok_bind, hF a b ka, key]; rfl
    cases p with
    | cart1 x => exact cartCase rfl
    | cart2 x y => exact cartCase rfl
    | cart3 x y z => exact cartCase rfl
    | _ => exact genCase

/-- **C62**: `p - q`, any classes. When the Cartesian components of both (in the Cartesian class of `p`) come in the same
units, it behaves as in base units; otherwise it raises. -/
theorem C62_subtraction (p q : Pos (UQ ℝ)) (hp : PosTyped p) (hq : PosTyped q) :
    ((∀ a b, representAsU {} p p.kind.cartesian = .ok a → representAsU {} q p.kind.cartesian = .ok b →
        cartesianUnits a = cartesianUnits b) →
      SameOutcome Denotes (subPosU p q) (subPos (basePos p) (basePos q))) ∧
    (∀ a b, representAsU {} p p.kind.cartesian = .ok a → representAsU {} q p.kind.cartesian = .ok b →
        cartesianUnits a ≠ cartesianUnits b → subPosU p q = .error .mismatch) := by
  have h := tree_outcome (f := (· - ·)) (F := subCartU) (p := p) (q := q) leaf_sub (fun _ _ _ => rfl)
    ((posTyped_iff p).mp hp) ((posTyped_iff q).mp hq)
  have cu : ∀ {r : Pos (UQ ℝ)} {a}, r.WD → representAsU {} r p.kind.cartesian = .ok a →
      cartesianUnits a = a.cartUnits := by
    intro r a hr e
    have h := repr_relk (p := r) ⟨hr, rfl⟩ p.kind.cartesian fun _ => cartesian_ne _
    rw [e] at h
    generalize representAs {} (r.tr UQ.phys) p.kind.cartesian = Y at h
    have hk : a.kind = p.kind.cartesian := by cases h with | ok h => exact h.2
    cases a <;> first | rfl | (exfalso; revert hk; cases p.kind <;> nofun)
  refine ⟨fun hu => h.1 fun a b ea eb => ?_, fun a b ea eb hu => h.2 a b ea eb ?_⟩
  · rw [← cu ((posTyped_iff p).mp hp) ea, ← cu ((posTyped_iff q).mp hq) eb]; exact hu a b ea eb
  · rw [← cu ((posTyped_iff p).mp hp) ea, ← cu ((posTyped_iff q).mp hq) eb]; exact hu

theorem cartesian_of_dimU {p q : Pos (UQ ℝ)} (hd : p.kind.dim = q.kind.dim) : p.kind.cartesian = q.kind.cartesian := by
  revert hd
  cases p.kind <;> cases q.kind <;> intro hd <;> first | rfl | cases hd

/-- **C62**: `p - q` of two positions of the same dimension: the units of the Cartesian components, read off the
fields, decide. -/
theorem C62_subtraction_same_dimension (p q : Pos (UQ ℝ)) (hp : PosTyped p) (hq : PosTyped q)
    (hd : p.kind.dim = q.kind.dim) :
    (cartesianUnits p = cartesianUnits q →
      SameOutcome Denotes (subPosU p q) (subPos (basePos p) (basePos q))) ∧
    (cartesianUnits p ≠ cartesianUnits q → ∀ a b, representAs {} (basePos p) p.kind.cartesian = .ok a →
      representAs {} (basePos q) q.kind.cartesian = .ok b → subPosU p q = .error .mismatch) := by
  have h := tree_outcome (f := (· - ·)) (F := subCartU) (p := p) (q := q) leaf_sub (fun _ _ _ => rfl)
    ((posTyped_iff p).mp hp) ((posTyped_iff q).mp hq)
  have hc := cartesian_of_dimU hd
  rw [cartesianUnits_eq, cartesianUnits_eq]
  refine ⟨fun hu => h.1 fun a b ea eb => ?_, fun hu a' b' ea' eb' => ?_⟩
  · rw [hc] at eb
    rw [toCart_units ea, toCart_units eb]; exact hu
  · have r1 := repr_rel (p := p) ⟨(posTyped_iff p).mp hp, rfl⟩ p.kind.cartesian fun _ => cartesian_ne _
    have r2 := repr_rel (p := q) ⟨(posTyped_iff q).mp hq, rfl⟩ q.kind.cartesian fun _ => cartesian_ne _
    rw [← basePos_eq, ea'] at r1
    rw [← basePos_eq, eb'] at r2
    generalize ea : representAsU {} p p.kind.cartesian = X at r1
    generalize eb : representAsU {} q q.kind.cartesian = Y at r2
    cases r1 with
    | ok _ =>
      cases r2 with
      | ok _ =>
        refine h.2 _ _ ea (by rw [hc]; exact eb) ?_
        rw [toCart_units ea, toCart_units eb]; exact hu

/-- **C62**: the sum of 1-D and 2-D positions maps over the stored values, like the difference. -/
theorem C62_addition_low_dimension (p q : Pos (UQ ℝ)) (hp : PosTyped p) (hq : PosTyped q)
    (hd : p.kind.dim = q.kind.dim) (h3 : p.kind.dim ≠ 3) :
    (cartesianUnits p = cartesianUnits q →
      SameOutcome Denotes (addPosU p q) (addPos (basePos p) (basePos q))) ∧
    (cartesianUnits p ≠ cartesianUnits q → ∀ a b, representAs {} (basePos p) p.kind.cartesian = .ok a →
      representAs {} (basePos q) q.kind.cartesian = .ok b → addPosU p q = .error .mismatch) := by
  have hF : ∀ a b : Pos (UQ ℝ), a.kind = p.kind.cartesian → addCartU a b = treeCart (· + ·) a b := by
    intro a b hk
    cases a <;> first | rfl | (exfalso; revert hk h3; cases p.kind <;> intro h3 hk <;> first | exact h3 rfl | cases hk)
  have h := tree_outcome (f := (· + ·)) (F := addCartU) (p := p) (q := q) leaf_add hF
    ((posTyped_iff p).mp hp) ((posTyped_iff q).mp hq)
  have hc := cartesian_of_dimU hd
  rw [cartesianUnits_eq, cartesianUnits_eq]
  refine ⟨fun hu => h.1 fun a b ea eb => ?_, fun hu a' b' ea' eb' => ?_⟩
  · rw [hc] at eb
    rw [toCart_units ea, toCart_units eb]; exact hu
  · have r1 := repr_rel (p := p) ⟨(posTyped_iff p).mp hp, rfl⟩ p.kind.cartesian fun _ => cartesian_ne _
    have r2 := repr_rel (p := q) ⟨(posTyped_iff q).mp hq, rfl⟩ q.kind.cartesian fun _ => cartesian_ne _
    rw [← basePos_eq, ea'] at r1
    rw [← basePos_eq, eb'] at r2
    generalize ea : representAsU {} p p.kind.cartesian = X at r1
    generalize eb : representAsU {} q q.kind.cartesian = Y at r2
    cases r1 with
    | ok _ =>
      cases r2 with
      | ok _ =>
        refine h.2 _ _ ea (by rw [hc]; exact eb) ?_
        rw [toCart_units ea, toCart_units eb]; exact hu

theorem allIn_units {u : RUnit} {p : Pos (UQ ℝ)} (h : AllIn u p) (ht : p.kind ≠ .twoSphere) :
    cartesianUnits p = List.replicate p.kind.dim u := by
  cases p with
  | cart1 x => rw [cartesianUnits, show x.unit = u from h]; rfl
  | radial r => obtain ⟨q, rfl, rfl⟩ := h; rfl
  | cart2 x y => rw [cartesianUnits, h.1, h.2]; rfl
  | polar r phi => obtain ⟨q, rfl, rfl⟩ := h; rfl
  | twoSphere a b => exact absurd rfl ht
  | cart3 x y z => rw [cartesianUnits, h.1, h.2.1, h.2.2]; rfl
  | cyl x y z => rw [cartesianUnits, h.1, h.2]; rfl
  | sph r a b => obtain ⟨q, rfl, rfl⟩ := h; rfl
  | lonlat a b r => obtain ⟨q, rfl, rfl⟩ := h; rfl
  | math r a b => obtain ⟨q, rfl, rfl⟩ := h; rfl
  | prolate mu nu phi delta =>
    rw [cartesianUnits, h.1, h.2.1, h.2.2, RUnit.mul_div_self, RUnit.sq_half]; rfl

/-- **C62**: when all lengths of both operands are given in one unit (and the operands have the same dimension), `+` and
`-` behave as in base units, for all classes. -/
theorem C62_one_unit (u : RUnit) (p q : Pos (UQ ℝ)) (hp : PosTyped p) (hq : PosTyped q)
    (hd : p.kind.dim = q.kind.dim) (hpu : AllIn u p) (hqu : AllIn u q) (htp : p.kind ≠ .twoSphere)
    (htq : q.kind ≠ .twoSphere) :
    SameOutcome Denotes (addPosU p q) (addPos (basePos p) (basePos q)) ∧
    SameOutcome Denotes (subPosU p q) (subPos (basePos p) (basePos q)) := by
  have hu : cartesianUnits p = cartesianUnits q := by rw [allIn_units hpu htp, allIn_units hqu htq, hd]
  refine ⟨?_, (C62_subtraction_same_dimension p q hp hq hd).1 hu⟩
  by_cases h3 : p.kind.dim = 3
  · exact C62_addition_3d p q hp hq h3
  · exact (C62_addition_low_dimension p q hp hq hd h3).1 hu

/-- **C62**: `CartesianPos3D - CartesianPos1D` raises unless the `y` and `z` of the left operand are given in metres, the
unit of the default for missing components; `+` does not. -/
theorem C62_missing_components (x y z x' : UQ ℝ) (hx : IsLength x) (hy : IsLength y) (hz : IsLength z)
    (hx' : IsLength x') :
    (subPosU (.cart3 x y z) (.cart1 x') = .error .mismatch ↔
      ¬ (x.unit = x'.unit ∧ y.unit = RUnit.metre ∧ z.unit = RUnit.metre)) ∧
    ∃ r, addPosU (.cart3 x y z) (.cart1 x') = .ok r := by
  have hm : RUnit.metre.dim = dL := rfl
  have e : representAsU {} (.cart1 x') .cart3 = .ok (.cart3 x' ⟨nat 0, .metre⟩ ⟨nat 0, .metre⟩) := by
    show mkCart3U x' ⟨nat 0, .metre⟩ ⟨nat 0, .metre⟩ = _
    rw [mkCart3U, ofDim, if_pos (show x'.unit.dim = dL from hx'), ofDim, if_pos hm]; rfl
  constructor
  · show (do treeCart (· - ·) (Pos.cart3 x y z) (← representAsU {} (.cart1 x') .cart3)) = _ ↔ _
    rw [e, ok_bind]
    constructor
    · intro h hu
      obtain ⟨r1, e1, _⟩ := leaf_sub (a := x) (b := x') hu.1 rfl
      obtain ⟨r2, e2, _⟩ := leaf_sub (a := y) (b := ⟨nat 0, .metre⟩) hu.2.1 rfl
      obtain ⟨r3, e3, _⟩ := leaf_sub (a := z) (b := ⟨nat 0, .metre⟩) hu.2.2 rfl
      rw [treeCart, e1, ok_bind, e2, ok_bind, e3] at h
      cases h
    · intro hu
      refine tree_fails rfl ?_
      simpa [Pos.cartUnits] using hu
  · show ∃ r, (do addCartU (Pos.cart3 x y z) (← representAsU {} (.cart1 x') .cart3)) = _
    rw [e, ok_bind]
    have h := addCart3_rel (a := .cart3 x y z) (b := .cart3 x' ⟨nat 0, .metre⟩ ⟨nat 0, .metre⟩)
      ⟨⟨hx, hy, hz⟩, rfl⟩ ⟨⟨hx', hm, hm⟩, rfl⟩ rfl rfl
    revert h
    generalize addCartU (.cart3 x y z) (.cart3 x' ⟨nat 0, .metre⟩ ⟨nat 0, .metre⟩) = Y
    intro h
    cases h with
    | ok _ => exact ⟨_, rfl⟩

/-- **C62**: `p == q`. When the fields of `p` and of the converted `q` come in the same units, the result is that of the
comparison in base units; otherwise `==` raises. -/
theorem C62_equality (p q r : Pos (UQ ℝ)) (hq : PosTyped q) (hs : q.kind = .prolate → p.kind ≠ .prolate)
    (h : representAsU {} q p.kind = .ok r) :
    (fieldUnits p = fieldUnits r → eqPosU p q = eqPos (basePos p) (basePos q)) ∧
    (fieldUnits p ≠ fieldUnits r → eqPosU p q = .error .mismatch) := by
  have hr := repr_relk (p := q) ⟨(posTyped_iff q).mp hq, rfl⟩ p.kind hs
  rw [h] at hr
  have e : eqPosU p q = eqSameU p r := by unfold eqPosU; rw [h, ok_bind]
  rw [e, fieldUnits_iff, ne_eq, fieldUnits_iff]
  generalize hY : representAs {} (q.tr UQ.phys) p.kind = Y at hr
  cases hr with
  | ok hr =>
    refine ⟨fun hu => ?_, fun hu => eqSame_err hr.2.symm hu⟩
    rw [eqSame_ok hr.2.symm hu, hr.1.2, basePos_eq, basePos_eq, eqPos, tr_kind, hY, ok_bind]

theorem eqv_spec {a b : Dist (UQ ℝ)} (h : a.leaf = b.leaf) :
    ∃ v, (a.tr UQ.phys).eqv (b.tr UQ.phys) = .ok v ∧ (v = true ↔ a.tr UQ.phys = b.tr UQ.phys) := by
  cases a <;> cases b <;> first | (cases h; done) | exact ⟨_, rfl, by simp [Dist.tr]⟩

theorem eqSame_spec {p q : Pos (UQ ℝ)} (hk : p.kind = q.kind) (h : p.fieldLeaves = q.fieldLeaves) :
    ∃ b, eqSame (p.tr UQ.phys) (q.tr UQ.phys) = .ok b ∧ (b = true ↔ p.tr UQ.phys = q.tr UQ.phys) := by
  cases p <;> cases q <;> first | (cases hk; done) | skip
  all_goals simp only [Pos.fieldLeaves, List.cons.injEq, Leaf.qty.injEq, and_true] at h
  all_goals first
    | exact ⟨_, rfl, by simp [Pos.tr, and_assoc]⟩
    | (obtain ⟨v, e, hv⟩ := eqv_spec h
       exact ⟨v, e, hv.trans (by simp [Pos.tr])⟩)
    | (obtain ⟨v, e, hv⟩ := eqv_spec h.1
       simp only [Pos.tr, eqSame, e]
       exact ⟨_, rfl, by simp [hv, and_assoc]⟩)
    | (obtain ⟨v, e, hv⟩ := eqv_spec h.2.2
       simp only [Pos.tr, eqSame, e]
       exact ⟨_, rfl, by simp [hv, and_assoc]⟩)

/-- **C62**: `p == q` of two positions of the same class, prolate spheroidal excepted. -/
theorem C62_equality_same_class (p q : Pos (UQ ℝ)) (hk : p.kind = q.kind) (hn : p.kind ≠ .prolate)
    (ht : p.kind ≠ .twoSphere) :
    (fieldUnits p = fieldUnits q → ∃ b, eqPosU p q = .ok b ∧ (b = true ↔ basePos p = basePos q)) ∧
    (fieldUnits p ≠ fieldUnits q → eqPosU p q = .error .mismatch) := by
  have h : representAsU {} q p.kind = .ok q := by
    rw [hk] at hn ht ⊢
    cases q <;> first | exact absurd rfl hn | exact absurd rfl ht | rfl
  have e : eqPosU p q = eqSameU p q := by unfold eqPosU; rw [h, ok_bind]
  rw [e, fieldUnits_iff, ne_eq, fieldUnits_iff]
  refine ⟨fun hu => ?_, fun hu => eqSame_err hk hu⟩
  rw [eqSame_ok hk hu, basePos_eq, basePos_eq]
  exact eqSame_spec hk hu

/-- **C62**: `p == q` of two prolate spheroidal positions: it raises unless `q` has `mu` in the square of the unit of
`Delta` (the conversion to its own class raises then, C61) and the fields of `p` come in the units of those of `q`. -/
theorem C62_equality_prolate (p q : Pos (UQ ℝ)) (mu nu phi delta : UQ ℝ) (hk : p.kind = .prolate)
    (hq : q = .prolate mu nu phi delta) :
    (mu.unit = delta.unit.mul delta.unit ∧ fieldUnits p = fieldUnits q →
      ∃ b, eqPosU p q = .ok b ∧ (b = true ↔ basePos p = basePos q)) ∧
    (¬ (mu.unit = delta.unit.mul delta.unit ∧ fieldUnits p = fieldUnits q) → eqPosU p q = .error .mismatch) := by
  have hk' : p.kind = q.kind := by rw [hk, hq]; rfl
  have fwd : mu.unit = delta.unit.mul delta.unit → eqPosU p q = eqSameU p q := by
    intro hu
    have h : ∀ n, representU (n + 1) {} q .prolate = .ok q := by
      intro n
      rw [hq, representU]
      exact if_pos ((sameStructure_iff mu nu delta delta).mpr ⟨hu, rfl⟩)
    have h' : representAsU {} q p.kind = .ok q := by rw [hk]; exact h 199
    unfold eqPosU; rw [h', ok_bind]
  constructor
  · rintro ⟨hu, hf⟩
    rw [fwd hu, eqSame_ok hk' ((fieldUnits_iff p q).mp hf), basePos_eq, basePos_eq]
    exact eqSame_spec hk' ((fieldUnits_iff p q).mp hf)
  · intro hn
    by_cases hu : mu.unit = delta.unit.mul delta.unit
    · rw [fwd hu]
      exact eqSame_err hk' fun hf => hn ⟨hu, (fieldUnits_iff p q).mpr hf⟩
    · have h : representAsU {} q p.kind = .error .mismatch := by
        rw [hk]
        refine representU_self_fails 199 {} q (by rw [hq]; rfl) ?_
        rw [hq]
        exact fun h => hu h.1
      unfold eqPosU; rw [h]; rfl

/-- **C62**: the operations of the first part, called with the same quantities in other units, return the same vector or
raise the same error. -/
theorem C62_units_irrelevant (p p' q q' : Pos (UQ ℝ)) (s : ℝ) (hp : PosTyped p) (hp' : PosTyped p') (hq : PosTyped q)
    (hq' : PosTyped q') (h : SameUVec p p') (h' : SameUVec q q') :
    (p.kind.dim = 3 → SameOutcome SameUVec (addPosU p q) (addPosU p' q')) ∧
    SameOutcome SameUVec (negPosU p) (negPosU p') ∧
    SameOutcome SameUVec (scalePosU s p) (scalePosU s p') ∧
    SameOutcome SameUVec (divPosU p s) (divPosU p' s) ∧
    SameOutcome SameDist (normU p) (normU p') := by
  have e := sameVec_tr h
  have e' := sameVec_tr h'
  have w := (posTyped_iff p).mp hp
  have w' := (posTyped_iff p').mp hp'
  have hk : p'.kind = p.kind := by rw [← tr_kind, ← e, tr_kind]
  have fin : ∀ {X Y : Res (Pos (UQ ℝ))} {Z : Res (Pos ℝ)}, RelRes Pos.Rel X Z → RelRes Pos.Rel Y Z →
      SameOutcome SameUVec X Y := fun a b => a.join b fun _ _ _ ha hc => sameUVec_of ha.1 hc.1 (ha.2.trans hc.2.symm)
  have cart : p.kind.dim = 3 → p.kind.cartesian = .cart3 := by
    intro hd; revert hd; cases p.kind <;> intro hd <;> first | rfl | cases hd
  refine ⟨fun hd => ?_, ?_, ?_, ?_, ?_⟩
  · have r := bin_rel (f := addCartU) (g := (· + ·)) w ((posTyped_iff q).mp hq) fun a b a' b' _ _ ha hb ka kb => by
      rw [cart hd] at ka kb; exact addCart3_rel ha hb ka kb
    have r' := bin_rel (f := addCartU) (g := (· + ·)) w' ((posTyped_iff q').mp hq') fun a b a' b' _ _ ha hb ka kb => by
      rw [hk, cart hd] at ka kb; exact addCart3_rel ha hb ka kb
    rw [← e, ← e'] at r'
    exact fin r r'
  · have r' := negPos_rel w'
    rw [← e] at r'
    exact fin (negPos_rel w) r'
  · have r' := scalePos_rel s w'
    rw [← e] at r'
    exact fin (scalePos_rel s w) r'
  · have r' := divPos_rel s w'
    rw [← e] at r'
    exact fin (divPos_rel s w) r'
  · have r' := norm_rel (p := p') ⟨w', rfl⟩
    rw [← e] at r'
    exact (norm_rel ⟨w, rfl⟩).join r' fun _ _ _ ha hc => sameDist_of ha.1 hc.1 (ha.2.trans hc.2.symm)

/-- **C62** with C15: in any units, the sum of two valid 3-D positions is of the class of the left one and denotes the
sum of the points; so does the difference, when it returns. -/
theorem C62_sum_point (p q r : Pos (UQ ℝ)) (hp : PosTyped p) (hq : PosTyped q) (vp : Valid (basePos p))
    (vq : Valid (basePos q)) (hd : p.kind.dim = 3) (hd' : q.kind.dim = 3) :
    (addPosU p q = .ok r → r.kind = p.kind ∧ point (basePos r) = (point (basePos p)).add (point (basePos q))) ∧
    (subPosU p q = .ok r → r.kind = p.kind ∧ point (basePos r) = (point (basePos p)).sub (point (basePos q))) := by
  have bk : ∀ p, (basePos p).kind = p.kind := fun p => by rw [basePos_eq, tr_kind]
  have hdim : (basePos p).kind.dim = (basePos q).kind.dim := by rw [bk, bk, hd, hd']
  constructor
  · intro h
    have o := C62_addition_3d p q hp hq hd
    rw [h] at o
    generalize hY : addPos (basePos p) (basePos q) = Y at o
    cases o with
    | returns hr =>
      obtain ⟨k, _, pt⟩ := (Props.C15_add_sub _ _ _ vp vq hdim).1 hY
      rw [← hr.2] at k pt
      exact ⟨by rw [← bk, k, bk], pt⟩
  · intro h
    by_cases hu : cartesianUnits p = cartesianUnits q
    · have o := (C62_subtraction_same_dimension p q hp hq (by rw [hd, hd'])).1 hu
      rw [h] at o
      generalize hY : subPos (basePos p) (basePos q) = Y at o
      cases o with
      | returns hr =>
        obtain ⟨k, _, pt⟩ := (Props.C15_add_sub _ _ _ vp vq hdim).2 hY
        rw [← hr.2] at k pt
        exact ⟨by rw [← bk, k, bk], pt⟩
    · have nt : ∀ p : Pos (UQ ℝ), p.kind.dim = 3 → (basePos p).kind ≠ .twoSphere := fun p hp e => by
        rw [bk] at e; rw [e] at hp; cases hp
      obtain ⟨a, ha, _⟩ := toCart_total _ vp (nt p hd)
      obtain ⟨b, hb, _⟩ := toCart_total _ vq (nt q hd')
      rw [bk] at ha hb
      rw [(C62_subtraction_same_dimension p q hp hq (by rw [hd, hd'])).2 hu a b ha hb] at h
      cases h

/-! ### Witnesses -/

/-- kiloparsecs -/
noncomputable def kpc : RUnit := ⟨{ len := 1 }, 1000 * RUnit.pc.scale, by have := RUnit.pc.pos; positivity⟩

/-- `CartesianPos2D(1 kpc, 0 kpc) + CartesianPos2D(1 pc, 0 pc)` raises -/
example : addPosU (.cart2 ⟨1, kpc⟩ ⟨0, kpc⟩) (.cart2 ⟨1, .pc⟩ ⟨0, .pc⟩) = .error .mismatch := by
  refine (C62_addition_low_dimension (.cart2 ⟨1, kpc⟩ ⟨0, kpc⟩) (.cart2 ⟨1, .pc⟩ ⟨0, .pc⟩) ⟨rfl, rfl⟩ ⟨rfl, rfl⟩ rfl
    (by decide)).2 ?_ (.cart2 _ _) (.cart2 _ _) rfl rfl
  intro h
  have := congrArg RUnit.scale (List.cons.inj h).1
  have hp := RUnit.pc.pos
  simp only [kpc] at this
  linarith

/-- the same sum in three dimensions returns -/
example : ∃ r, addPosU (.cart3 ⟨1, kpc⟩ ⟨0, kpc⟩ ⟨0, kpc⟩) (.cart3 ⟨1, .pc⟩ ⟨0, .pc⟩ ⟨0, .pc⟩) = .ok r := by
  have h := C62_addition_3d (.cart3 ⟨1, kpc⟩ ⟨0, kpc⟩ ⟨0, kpc⟩) (.cart3 ⟨1, .pc⟩ ⟨0, .pc⟩ ⟨0, .pc⟩) ⟨rfl, rfl, rfl⟩
    ⟨rfl, rfl, rfl⟩ rfl
  generalize addPosU (.cart3 ⟨1, kpc⟩ ⟨0, kpc⟩ ⟨0, kpc⟩) (.cart3 ⟨1, .pc⟩ ⟨0, .pc⟩ ⟨0, .pc⟩) = X at h ⊢
  cases h with
  | returns _ => exact ⟨_, rfl⟩

/-- operands of different classes with all lengths in kiloparsecs -/
example : AllIn kpc (.sph (.dist ⟨1, kpc⟩) ⟨1, .rad⟩ ⟨30, .deg⟩) ∧ AllIn kpc (.cyl ⟨1, kpc⟩ ⟨1, .rad⟩ ⟨3, kpc⟩) ∧
    AllIn kpc (.prolate ⟨3, kpc.mul kpc⟩ ⟨1, kpc.mul kpc⟩ ⟨1, .rad⟩ ⟨1, kpc⟩) :=
  ⟨⟨_, rfl, rfl⟩, ⟨rfl, rfl⟩, rfl, rfl, rfl⟩

/-- equal positions in different units: `==` raises -/
example : eqPosU (.cart1 ⟨1, kpc⟩) (.cart1 ⟨1000, .pc⟩) = .error .mismatch ∧
    basePos (.cart1 ⟨1, kpc⟩) = basePos (.cart1 ⟨1000, .pc⟩) := by
  refine ⟨(C62_equality_same_class (.cart1 ⟨1, kpc⟩) (.cart1 ⟨1000, .pc⟩) rfl nofun nofun).2 ?_, ?_⟩
  · intro h
    injection h with h
    injection h with h
    have := congrArg RUnit.scale h
    have hp := RUnit.pc.pos
    simp only [kpc] at this
    linarith
  · simp only [basePos, baseVal, kpc]; rw [_root_.one_mul]

end Verif
