import Verif.UnitSimplify
import Verif.UnitArithUnits
import Verif.Props.UnitOp
import Verif.Props.SimplifyExact

/-!
# C67: `simplify` and the units of the components

Specification: an operator in base units (C66), and the size, in base units, of the unit in which `simplify` looks at the numbers.
-/

namespace Verif

open Num

namespace Spec

/-- the size of the first of some units -/
noncomputable def firstScale : List RUnit → ℝ
  | [] => 1
  | u :: _ => u.scale

/-- the sizes (in base units) of the units in which `simplify` compares with zero: for a translation that of the first Cartesian
component, for a 4-vector that of `c t`, for a velocity that of its first component -/
noncomputable def comparedIn : OpU → StoredUnits
  | .spatial d => ⟨firstScale (cartesianUnits d), 1⟩
  | .translation d => ⟨d.c.unit.scale * d.t.unit.scale, 1⟩
  | .boost v => ⟨1, firstScale (velUnits v)⟩
  | .vboost v => ⟨1, firstScale (velUnits v)⟩
  | .galilean _ d v => ⟨d.c.unit.scale * d.t.unit.scale, firstScale (velUnits v)⟩
  | _ => ⟨1, 1⟩

/-- not a `Pipe` -/
def Single : OpU → Prop
  | .pipe _ => False
  | _ => True

/-- translations are three-dimensional and velocities are given in the units `us` -/
def UniformIn (us : List RUnit) : OpU → Prop
  | .spatial d => d.kind.dim = 3
  | .translation d => d.q.kind.dim = 3
  | .boost v => velUnits v = us
  | .vboost v => velUnits v = us
  | _ => True

end Spec

open Spec

theorem firstScale_pos (l : List RUnit) : 0 < firstScale l := by
  cases l with
  | nil => exact one_pos
  | cons u l => exact u.pos

theorem comparedIn_pos (op : OpU) : 0 < (comparedIn op).len ∧ 0 < (comparedIn op).vel := by
  cases op <;> refine ⟨?_, ?_⟩ <;> first
    | exact one_pos
    | exact firstScale_pos _
    | exact mul_pos (RUnit.pos _) (RUnit.pos _)

theorem stack_unit {q : UQ ℝ} {l : List (UQ ℝ)} {w : QRow} (h : stackU (q :: l) = .ok w) : w.unit = q.unit := by
  obtain ⟨vs, _, h⟩ := (bind_ok_iff _ _ _).mp h
  rw [← Except.ok.inj h]

theorem zeros_scale {n : ℕ} {s : ℝ} (hs : 0 < s) {vs xs : List ℝ} (h : vs.map (fun v => s * v) = xs) :
    closeToZeros n vs = closeToZeros n (xs.map (· / s)) := by
  rw [← h, List.map_map]
  congr 1
  conv_lhs => rw [← List.map_id vs]
  refine List.map_congr_left fun v _ => ?_
  simp only [id, Function.comp]
  field_simp

/-! ### the Quantity that is compared -/

theorem toQuantityU_unit {d : Pos (UQ ℝ)} {w : QRow} (h : toQuantityU d = .ok w) : w.unit.scale = firstScale (cartesianUnits d) := by
  obtain ⟨c, hc, h⟩ := (bind_ok_iff _ _ _).mp h
  obtain ⟨l, hl, h⟩ := (bind_ok_iff _ _ _).mp h
  rw [cartesianUnits_eq, ← toCart_units hc]
  cases c <;> first | (cases hl; done) | skip
  all_goals
    obtain rfl := Except.ok.inj hl
    rw [stack_unit h]
    rfl

theorem quantity_rel {d : Pos (UQ ℝ)} (hd : PosTyped d) :
    RelRes (fun w xs => QRow.Rel dL w xs ∧ w.unit.scale = firstScale (cartesianUnits d)) (toQuantityU d) (toQuantity (basePos d)) := by
  have h := toQuantity_rel (pos_rel hd)
  have hu := fun w => toQuantityU_unit (d := d) (w := w)
  generalize toQuantityU d = X at h hu ⊢
  generalize toQuantity (basePos d) = Y at h ⊢
  cases h with
  | ok h => exact .ok ⟨h, hu _ rfl⟩
  | err e => exact .err e

theorem ct_dim {x : FourU} (h : FourTyped x) : (x.c.mul x.t).unit.dim = dL := by
  have ht : x.t.unit.dim = { time := 1 } := h.1
  have hc := h.2.2
  simp only [IsRate] at hc
  show (x.c.unit.dim).mul x.t.unit.dim = dL
  rw [ht, hc]
  simp [RDim.mul]
  rfl

theorem four_quantity_rel {x : FourU} (h : FourTyped x) :
    RelRes (fun w xs => w.values.map (fun v => (x.c.unit.scale * x.t.unit.scale) * v) = xs) x.toQuantityU (baseFour x).toQuantity := by
  refine .bind (quantity_rel h.2.1) fun w xs hw => ?_
  obtain ⟨⟨hd, rfl⟩, -⟩ := hw
  obtain ⟨vs, e, hv⟩ := strips_rel (ct_dim h) (w.values.map fun v => (⟨v, w.unit⟩ : UQ ℝ)) (by
    intro q hq; obtain ⟨v, _, rfl⟩ := List.mem_map.mp hq; exact hd)
  have e' : (w.values.mapM fun v => (⟨v, w.unit⟩ : UQ ℝ).strip (x.c.mul x.t).unit) = .ok vs := by
    rw [List.mapM_map] at e; exact e
  show RelRes _ (do let vs ← (w.values.mapM fun v => (⟨v, w.unit⟩ : UQ ℝ).strip (x.c.mul x.t).unit)
                    return (⟨(x.c.mul x.t).value :: vs, (x.c.mul x.t).unit⟩ : QRow)) _
  rw [e', ok_bind]
  refine .ok ?_
  simp only [List.map_cons]
  congr 1
  · simp only [baseFour, baseVal, UQ.mul]; ring
  · have : (fun v => x.c.unit.scale * x.t.unit.scale * v) = fun v => (x.c.mul x.t).unit.scale * v := rfl
    rw [this, hv, List.map_map]
    rfl

theorem vel_quantity_rel {v : Vel (UQ ℝ)} (hv : VelTyped 1 v) :
    RelRes (fun w xs => w.values.map (fun x => firstScale (velUnits v) * x) = xs) (velToQuantityU v) (velToQuantity (v.map baseVal)) := by
  rw [vel_map]
  cases v with
  | cart1 a =>
    obtain ⟨w, e, -, hw⟩ := stack_dims (l := [a]) (by simp) (d := a.unit.dim) (by simp)
    show RelRes _ (stackU [a]) _
    rw [e]
    refine .ok ?_
    rw [stack_unit e] at hw; exact hw
  | radial a =>
    obtain ⟨w, e, -, hw⟩ := stack_dims (l := [a]) (by simp) (d := a.unit.dim) (by simp)
    show RelRes _ (stackU [a]) _
    rw [e]
    refine .ok ?_
    rw [stack_unit e] at hw; exact hw
  | cart2 a b =>
    obtain ⟨w, e, -, hw⟩ := stack_dims (l := [a, b]) (by simp) (d := a.unit.dim) (by
      simp only [VelTyped, IsRate] at hv; simp [hv.1, hv.2])
    show RelRes _ (stackU [a, b]) _
    rw [e]
    refine .ok ?_
    rw [stack_unit e] at hw; exact hw
  | cart3 a b c =>
    obtain ⟨w, e, -, hw⟩ := stack_dims (l := [a, b, c]) (by simp) (d := a.unit.dim) (by
      simp only [VelTyped, IsRate] at hv; simp [hv.1, hv.2.1, hv.2.2])
    show RelRes _ (stackU [a, b, c]) _
    rw [e]
    refine .ok ?_
    rw [stack_unit e] at hw; exact hw
  | _ => exact .err _

/-! ### single operators -/

theorem rotation_base (R : Mat3) : baseOp (simplifyRotationU R) = simplifyRotation R ∧ OpTyped (simplifyRotationU R) := by
  unfold simplifyRotationU simplifyRotation
  split <;> simp only [baseOp, OpTyped, and_self]

/-- what the tests do: the same on both sides -/
theorem zeros_rel {A : Type} {n : ℕ} {s : ℝ} (hs : 0 < s) {vs xs : List ℝ} (h : vs.map (fun v => s * v) = xs) {B : Type} {R : A → B → Prop}
    {f : Bool → Res A} {g : Bool → Res B} (k : ∀ b, RelRes R (f b) (g b)) :
    RelRes R (closeToZeros n vs >>= f) (closeToZeros n (xs.map (· / s)) >>= g) := by
  rw [zeros_scale hs h]
  generalize closeToZeros n _ = Z
  cases Z with
  | error e => exact .err e
  | ok b => exact k b

theorem denotes_if {o : OpU} {o' : Op} (h : DenotesOp o o') (b : Bool) :
    DenotesOp (if b then .identity else o) (if b then .identity else o') := by
  cases b
  · exact h
  · exact ⟨by simp only [if_true, OpTyped], by simp only [if_true, baseOp]⟩

theorem spatial_simplify_rel {d : Pos (UQ ℝ)} (hd : PosTyped d) {u : StoredUnits} (hu : u.len = firstScale (cartesianUnits d)) :
    RelRes DenotesOp (simplifySpatialU d) (simplifySpatial u (basePos d)) := by
  refine .bind (quantity_rel hd) fun w xs hw => ?_
  have hs : 0 < u.len := by rw [hu]; exact firstScale_pos _
  refine zeros_rel hs (by rw [hu, ← hw.2]; exact hw.1.2) fun b => .ok (denotes_if (o := .spatial d) ⟨hd, by simp only [baseOp]⟩ b)

theorem translation_simplify_rel {d : FourU} (hd : FourTyped d) {u : StoredUnits} (hu : u.len = d.c.unit.scale * d.t.unit.scale) :
    RelRes (fun o o' => DenotesOp o o' ∧ (o = .identity ∨ o = .translation d))
      (simplifyTranslationU d) (simplifyTranslation u (baseFour d)) := by
  refine .bind (four_quantity_rel hd) fun w xs hw => ?_
  have hs : 0 < u.len := by rw [hu]; exact mul_pos (RUnit.pos _) (RUnit.pos _)
  refine zeros_rel hs (by rw [hu]; exact hw) fun b => .ok ⟨denotes_if (o := .translation d) ⟨hd, by simp only [baseOp]⟩ b, by cases b <;> simp⟩

theorem negligible_rel {v : Vel (UQ ℝ)} (hv : VelTyped 1 v) {u : StoredUnits} (hu : u.vel = firstScale (velUnits v)) :
    RelRes (· = ·) (velNegligibleU v) (velNegligible u (v.map baseVal)) := by
  refine .bind (vel_quantity_rel hv) fun w xs hw => ?_
  have hs : 0 < u.vel := by rw [hu]; exact firstScale_pos _
  have hw : w.values.map (fun x => u.vel * x) = xs := by rw [hu]; exact hw
  rw [zeros_scale hs hw]
  generalize closeToZeros 3 (xs.map (· / u.vel)) = Z
  cases Z with
  | error e => exact .err e
  | ok b => exact .ok rfl

theorem isIdentity_base (o : OpU) : (baseOp o).isIdentity = o.isIdentity := by
  cases o <;> simp only [baseOp] <;> rfl

/-! ### pairs and folds -/

theorem addFour_mirrors {x y : FourU} (hx : FourTyped x) (hy : FourTyped y) :
    Mirrors (fun z z' => FourTyped z ∧ baseFour z = z') (x.add y) ((baseFour x).add (baseFour y)) := by
  refine .bind (addPos_sound (pos_rel hx.2.1) (pos_rel hy.2.1)) fun r r' hr => ?_
  have := denotes_of hr
  obtain ⟨s, es, hs⟩ := add_rel (time_rel hx.1) (time_rel hy.1)
  rw [es]
  exact .ok ⟨⟨hs.1, this.1, hx.2.2⟩, by rw [baseFour, this.2, base_eq s, hs.2]; rfl⟩

theorem addFour_rel {x y : FourU} (hx : FourTyped x) (hy : FourTyped y) (h3 : x.q.kind.dim = 3) :
    RelRes (fun z z' => (FourTyped z ∧ baseFour z = z') ∧ z.q.kind.dim = 3) (x.add y) ((baseFour x).add (baseFour y)) := by
  refine .bind (add3_rel (pos_rel hx.2.1) (pos_rel hy.2.1) h3) fun r r' hr => ?_
  have := denotes_of hr.1
  obtain ⟨s, es, hs⟩ := add_rel (time_rel hx.1) (time_rel hy.1)
  rw [es]
  exact .ok ⟨⟨⟨hs.1, this.1, hx.2.2⟩, by rw [baseFour, this.2, base_eq s, hs.2]; rfl⟩, by show r.kind.dim = 3; rw [hr.2]; exact h3⟩

theorem leafOp_unit {f : ℝ → ℝ → ℝ} {a b r : UQ ℝ} (h : leafOp f a b = .ok r) : r.unit = a.unit := by
  unfold leafOp at h
  split at h
  · rw [← Except.ok.inj h]
  · cases h

theorem addVelU_units {v w r : Vel (UQ ℝ)} (h : addVelU v w = .ok r) : velUnits r = velUnits v := by
  cases v with
  | cart1 a =>
    cases w <;> first | (cases h; done) | skip
    obtain ⟨a', ha, h⟩ := (bind_ok_iff _ _ _).mp h
    obtain rfl := Except.ok.inj h
    simp only [velUnits, Vel.comps, List.map, leafOp_unit ha]
  | cart2 a b =>
    cases w <;> first | (cases h; done) | skip
    obtain ⟨a', ha, h⟩ := (bind_ok_iff _ _ _).mp h
    obtain ⟨b', hb, h⟩ := (bind_ok_iff _ _ _).mp h
    obtain rfl := Except.ok.inj h
    simp only [velUnits, Vel.comps, List.map, leafOp_unit ha, leafOp_unit hb]
  | cart3 a b c =>
    cases w <;> first | (cases h; done) | skip
    obtain ⟨a', ha, h⟩ := (bind_ok_iff _ _ _).mp h
    obtain ⟨b', hb, h⟩ := (bind_ok_iff _ _ _).mp h
    obtain ⟨c', hc, h⟩ := (bind_ok_iff _ _ _).mp h
    obtain rfl := Except.ok.inj h
    simp only [velUnits, Vel.comps, List.map, leafOp_unit ha, leafOp_unit hb, leafOp_unit hc]
  | _ => cases h

/-- velocities in the same units: same outcome as in base units -/
theorem addVel_rel {v w : Vel (UQ ℝ)} (hv : VelTyped 1 v) (hu : velUnits v = velUnits w) :
    RelRes (fun r r' => (VelTyped 1 r ∧ r.map baseVal = r') ∧ velUnits r = velUnits v)
      (addVelU v w) (addVel (v.map baseVal) (w.map baseVal)) := by
  by_cases h : v.kind = w.kind ∧ CartesianClass v.kind
  · obtain ⟨r, e⟩ := (addVelU_iff v w).mpr ⟨h.1, h.2, hu⟩
    obtain ⟨r', e', hr⟩ := addVel_sound ((velTyped_iff 1 v).mp hv) r e
    rw [vel_map, vel_map, e, e']
    exact .ok ⟨vel_of hr, addVelU_units e⟩
  · have e : addVelU v w = .error .noDispatch ∧ addVel (v.map baseVal) (w.map baseVal) = .error .noDispatch := by
      cases v <;> cases w <;> first
        | exact ⟨rfl, rfl⟩
        | exact absurd ⟨rfl, .inl rfl⟩ h
        | exact absurd ⟨rfl, .inr (.inl rfl)⟩ h
        | exact absurd ⟨rfl, .inr (.inr rfl)⟩ h
    rw [e.1, e.2]
    exact .err _

/-- appended operators -/
theorem pipe_denotes {as bs : List OpU} (ha : OpsTyped as) (hb : OpsTyped bs) :
    DenotesOp (.pipe (as ++ bs)) (.pipe (baseOps as ++ baseOps bs)) :=
  ⟨by simp only [OpTyped]; rw [opsTyped_append]; exact ⟨ha, hb⟩, by simp only [baseOp, baseOps_append]⟩

/-- the pairs of operators that `simplify` adds up -/
def Merged : OpU → OpU → Prop
  | .spatial _, .spatial _ => True
  | .translation _, .translation _ => True
  | .boost _, .boost _ => True
  | .vboost _, .vboost _ => True
  | _, _ => False

/-- all other pairs: nothing can fail -/
theorem simplify2_plain {a b : OpU} (ha : OpTyped a) (hb : OpTyped b) (h : ¬Merged a b) :
    ∃ o, simplify2U a b = .ok o ∧ OpTyped o ∧ simplify2 (baseOp a) (baseOp b) = .ok (baseOp o) ∧
      (o = a ∨ o = b ∨ (∃ R, o = .rotation R) ∨ ∃ l, o = .pipe l) := by
  have one : ∀ {o : OpU}, OpTyped o → OpsTyped [o] := fun h => by simp only [OpsTyped, and_true]; exact h
  have two : OpTyped (.pipe [a, b]) ∧ baseOp (.pipe [a, b]) = .pipe [baseOp a, baseOp b] :=
    ⟨by simp only [OpTyped, OpsTyped, and_true]; exact ⟨ha, hb⟩, by simp only [baseOp, baseOps]⟩
  have snoc : ∀ as, a = .pipe as → OpTyped (.pipe (as ++ [b])) ∧ baseOp (.pipe (as ++ [b])) = .pipe (baseOps as ++ [baseOp b]) := by
    rintro as rfl
    simpa only [baseOps, DenotesOp] using pipe_denotes (as := as) (by simpa only [OpTyped] using ha) (one hb)
  have app : ∀ as bs, a = .pipe as → b = .pipe bs →
      OpTyped (.pipe (as ++ bs)) ∧ baseOp (.pipe (as ++ bs)) = .pipe (baseOps as ++ baseOps bs) := by
    rintro as bs rfl rfl
    exact pipe_denotes (by simpa only [OpTyped] using ha) (by simpa only [OpTyped] using hb)
  cases a <;> cases b <;> first
    | exact absurd trivial h
    | exact ⟨_, rfl, ha, by simp only [baseOp]; rfl, .inl rfl⟩
    | exact ⟨_, rfl, hb, by simp only [baseOp]; rfl, .inr (.inl rfl)⟩
    | exact ⟨_, rfl, by simp only [OpTyped], by simp only [baseOp]; rfl, .inr (.inr (.inl ⟨_, rfl⟩))⟩
    | exact ⟨_, rfl, (app _ _ rfl rfl).1, by rw [(app _ _ rfl rfl).2]; simp only [baseOp]; rfl, .inr (.inr (.inr ⟨_, rfl⟩))⟩
    | exact ⟨_, rfl, (snoc _ rfl).1, by rw [(snoc _ rfl).2]; simp only [baseOp]; rfl, .inr (.inr (.inr ⟨_, rfl⟩))⟩
    | exact ⟨_, rfl, two.1, by rw [two.2]; simp only [baseOp]; rfl, .inr (.inr (.inr ⟨_, rfl⟩))⟩

theorem simplify2_mirrors {a b : OpU} (ha : OpTyped a) (hb : OpTyped b) :
    Mirrors DenotesOp (simplify2U a b) (simplify2 (baseOp a) (baseOp b)) := by
  by_cases h : Merged a b
  · cases a <;> cases b <;> first | exact h.elim | skip
    · simp only [baseOp, simplify2U, simplify2]
      refine .bind (addPos_sound (pos_rel ha) (pos_rel hb)) fun r r' hr => .ok ?_
      have := denotes_of hr
      exact ⟨this.1, by simp only [baseOp, this.2]⟩
    · simp only [baseOp, simplify2U, simplify2]
      exact .bind (addFour_mirrors ha hb) fun r r' hr => .ok ⟨hr.1, by simp only [baseOp, hr.2]⟩
    · simp only [baseOp, simplify2U, simplify2, vel_map]
      refine .bind (addVel_sound ((velTyped_iff 1 _).mp ha)) fun r r' hr => .ok ?_
      exact ⟨(vel_of hr).1, by simp only [baseOp, (vel_of hr).2]⟩
    · simp only [baseOp, simplify2U, simplify2, vel_map]
      refine .bind (addVel_sound ((velTyped_iff 1 _).mp ha)) fun r r' hr => .ok ?_
      exact ⟨(vel_of hr).1, by simp only [baseOp, (vel_of hr).2]⟩
  · obtain ⟨o, e, ho, e', -⟩ := simplify2_plain ha hb h
    rw [e, e']
    exact .ok ⟨ho, rfl⟩

theorem simplify2_rel {us : List RUnit} {a b : OpU} (ha : OpTyped a) (hb : OpTyped b) (ua : UniformIn us a) (ub : UniformIn us b) :
    RelRes (fun o o' => DenotesOp o o' ∧ UniformIn us o) (simplify2U a b) (simplify2 (baseOp a) (baseOp b)) := by
  by_cases h : Merged a b
  · cases a <;> cases b <;> first | exact h.elim | skip
    · simp only [baseOp, simplify2U, simplify2]
      refine .bind (add3_rel (pos_rel ha) (pos_rel hb) ua) fun r r' hr => .ok ?_
      have := denotes_of hr.1
      exact ⟨⟨this.1, by simp only [baseOp, this.2]⟩, by show r.kind.dim = 3; rw [hr.2]; exact ua⟩
    · simp only [baseOp, simplify2U, simplify2]
      exact .bind (addFour_rel ha hb ua) fun r r' hr => .ok ⟨⟨hr.1.1, by simp only [baseOp, hr.1.2]⟩, hr.2⟩
    · simp only [baseOp, simplify2U, simplify2]
      refine .bind (addVel_rel ha (ua.trans ub.symm)) fun r r' hr => .ok ?_
      exact ⟨⟨hr.1.1, by simp only [baseOp, hr.1.2]⟩, hr.2.trans ua⟩
    · simp only [baseOp, simplify2U, simplify2]
      refine .bind (addVel_rel ha (ua.trans ub.symm)) fun r r' hr => .ok ?_
      exact ⟨⟨hr.1.1, by simp only [baseOp, hr.1.2]⟩, hr.2.trans ua⟩
  · obtain ⟨o, e, ho, e', ho'⟩ := simplify2_plain ha hb h
    rw [e, e']
    refine .ok ⟨⟨ho, rfl⟩, ?_⟩
    rcases ho' with rfl | rfl | ⟨R, rfl⟩ | ⟨l, rfl⟩
    · exact ua
    · exact ub
    · trivial
    · trivial

theorem fold_mirrors : ∀ (ops : List OpU) (acc : OpU), OpTyped acc → OpsTyped ops →
    Mirrors DenotesOp (simplifyFoldU acc ops) (simplifyFold (baseOp acc) (baseOps ops))
  | [], acc, ha, _ => by simp only [simplifyFoldU, baseOps, simplifyFold]; exact .ok ⟨ha, rfl⟩
  | op :: ops, acc, ha, h => by
    simp only [OpsTyped] at h
    simp only [simplifyFoldU, baseOps, simplifyFold]
    refine .bind (simplify2_mirrors ha h.1) fun o o' ho => ?_
    obtain ⟨ho, rfl⟩ := ho
    exact fold_mirrors ops o ho h.2

theorem fold_rel {us : List RUnit} : ∀ (ops : List OpU) (acc : OpU), OpTyped acc → OpsTyped ops → UniformIn us acc →
    (∀ o ∈ ops, UniformIn us o) → RelRes DenotesOp (simplifyFoldU acc ops) (simplifyFold (baseOp acc) (baseOps ops))
  | [], acc, ha, _, _, _ => by simp only [simplifyFoldU, baseOps, simplifyFold]; exact .ok ⟨ha, rfl⟩
  | op :: ops, acc, ha, h, ua, uo => by
    simp only [OpsTyped] at h
    simp only [simplifyFoldU, baseOps, simplifyFold]
    refine .bind (simplify2_rel ha h.1 ua (uo _ (List.mem_cons_self ..))) fun o o' ho => ?_
    obtain ⟨⟨ho, rfl⟩, hu⟩ := ho
    exact fold_rel ops o ho h.2 hu fun o h => uo o (List.mem_cons_of_mem _ h)

/-- rotation, translation and boost are never added up with one another -/
theorem galilean_fold {a b c : OpU} (ha : OpTyped a) (hb : OpTyped b) (hc : OpTyped c)
    (ka : a = .identity ∨ ∃ R, a = .rotation R) (kb : b = .identity ∨ ∃ d, b = .translation d) (kc : c = .identity ∨ ∃ v, c = .boost v) :
    RelRes DenotesOp (simplifyFoldU .identity [a, b, c]) (simplifyFold .identity [baseOp a, baseOp b, baseOp c]) := by
  have hi : OpTyped .identity := by simp only [OpTyped]
  have step : ∀ {x y : OpU}, OpTyped x → OpTyped y → ¬Merged x y → ∀ {f : OpU → Res OpU} {g : Op → Res Op},
      (∀ o, OpTyped o → (o = x ∨ o = y ∨ (∃ R, o = .rotation R) ∨ ∃ l, o = .pipe l) → RelRes DenotesOp (f o) (g (baseOp o))) →
      RelRes DenotesOp (simplify2U x y >>= f) (simplify2 (baseOp x) (baseOp y) >>= g) := by
    intro x y hx hy hm f g k
    obtain ⟨o, e, ho, e', ho'⟩ := simplify2_plain hx hy hm
    rw [e, e', ok_bind, ok_bind]
    exact k o ho ho'
  have hbase : (Op.identity) = baseOp .identity := by simp only [baseOp]
  simp only [simplifyFoldU, simplifyFold]
  rw [hbase]
  refine step hi ha (fun h => h) fun o ho ko => ?_
  have ko : o = .identity ∨ (∃ R, o = .rotation R) ∨ ∃ l, o = .pipe l := by
    rcases ko with rfl | rfl | h | h
    · exact .inl rfl
    · rcases ka with rfl | h
      · exact .inl rfl
      · exact .inr (.inl h)
    · exact .inr (.inl h)
    · exact .inr (.inr h)
  refine step ho hb ?_ fun p hp kp => ?_
  · rcases ko with rfl | ⟨R, rfl⟩ | ⟨l, rfl⟩ <;> exact fun h => h
  have kp : ∀ v, p ≠ .boost v := by
    rintro v rfl
    rcases kp with rfl | rfl | ⟨R, h⟩ | ⟨l, h⟩
    · rcases ko with h | ⟨R, h⟩ | ⟨l, h⟩ <;> cases h
    · rcases kb with h | ⟨R, h⟩ <;> cases h
    · cases h
    · cases h
  refine step hp hc ?_ fun q hq _ => .ok ⟨hq, rfl⟩
  rcases kc with rfl | ⟨v, rfl⟩
  · cases p <;> exact fun h => h
  · cases p <;> first | exact absurd rfl (kp _) | exact fun h => h

/-- every operator but a `Pipe` -/
theorem single_rel {op : OpU} (ho : OpTyped op) (hs : Single op) :
    RelRes DenotesOp op.simplify ((baseOp op).simplify (comparedIn op)) := by
  cases op with
  | identity => simp only [OpU.simplify, baseOp, Op.simplify]; exact .ok ⟨ho, by simp only [baseOp]⟩
  | rotation R =>
    simp only [OpU.simplify, baseOp, Op.simplify]
    exact .ok ⟨(rotation_base R).2, (rotation_base R).1⟩
  | spatial d => simp only [OpU.simplify, baseOp, Op.simplify]; exact spatial_simplify_rel ho rfl
  | translation d =>
    simp only [OpU.simplify, baseOp, Op.simplify]; exact (translation_simplify_rel ho rfl).mono fun _ _ h => h.1
  | boost v =>
    simp only [OpU.simplify, baseOp, Op.simplify]
    refine .bind (negligible_rel ho rfl) fun b b' hb => .ok ?_
    subst hb
    exact denotes_if (o := .boost v) ⟨ho, by simp only [baseOp]⟩ b
  | vboost v =>
    simp only [OpU.simplify, baseOp, Op.simplify]
    refine .bind (negligible_rel ho rfl) fun b b' hb => .ok ?_
    subst hb
    exact denotes_if (o := .vboost v) ⟨ho, by simp only [baseOp]⟩ b
  | galilean R d v =>
    simp only [OpTyped] at ho
    simp only [OpU.simplify, baseOp, Op.simplify]
    refine .bind (translation_simplify_rel ho.1 rfl) fun t t' ht => .bind (negligible_rel ho.2 rfl) fun b b' hb => ?_
    obtain ⟨⟨ht, rfl⟩, kt⟩ := ht
    subst hb
    have hc := denotes_if (o := .boost v) (o' := .boost (v.map baseVal)) ⟨ho.2, by simp only [baseOp]⟩ b
    have kc : (if b = true then OpU.identity else OpU.boost v) = .identity ∨ ∃ w, (if b = true then OpU.identity else OpU.boost v) = .boost w := by
      cases b
      · exact .inr ⟨v, rfl⟩
      · exact .inl rfl
    rw [← (rotation_base R).1, ← hc.2]
    simp only [isIdentity_base]
    replace hc := hc.1
    generalize (if b = true then OpU.identity else OpU.boost v) = c at hc kc ⊢
    split
    · refine galilean_fold (rotation_base R).2 ht hc ?_ (kt.imp_right fun h => ⟨d, h⟩) kc
      unfold simplifyRotationU
      split
      · exact .inl rfl
      · exact .inr ⟨R, rfl⟩
    · exact .ok ⟨by simp only [OpTyped]; exact ho, by simp only [baseOp]⟩
  | pipe ops => exact hs.elim

/-! ### the property -/

/-- **C67**: whatever `simplify` returns is what it returns in base units, when there the numbers are compared in units of the same
size. -/
theorem C67_returns_base (op s : OpU) (ho : OpTyped op) (h : op.simplify = .ok s) :
    OpTyped s ∧ (baseOp op).simplify (comparedIn op) = .ok (baseOp s) := by
  have key : Mirrors DenotesOp op.simplify ((baseOp op).simplify (comparedIn op)) := by
    cases op with
    | pipe ops =>
      simp only [OpU.simplify, baseOp, Op.simplify]
      have := fold_mirrors ops .identity (by simp only [OpTyped]) (by simpa only [OpTyped] using ho)
      simpa only [baseOp] using this
    | _ => exact (single_rel ho trivial).sound
  obtain ⟨s', e, hs, rfl⟩ := key s h
  exact ⟨hs, e⟩

/-- **C67**: a single operator also raises exactly when it does in base units. -/
theorem C67_single (op : OpU) (ho : OpTyped op) (hs : Single op) :
    SameOutcome DenotesOp op.simplify ((baseOp op).simplify (comparedIn op)) :=
  (single_rel ho hs).outcome fun _ _ h => h

/-- **C67**: so does a `Pipe` of three-dimensional translations, and velocities in the same units. -/
theorem C67_pipe (us : List RUnit) (ops : List OpU) (ho : OpsTyped ops) (hu : ∀ o ∈ ops, UniformIn us o) (u : StoredUnits) :
    SameOutcome DenotesOp (OpU.pipe ops).simplify ((baseOp (.pipe ops)).simplify u) := by
  simp only [OpU.simplify, baseOp, Op.simplify]
  have := fold_rel (us := us) ops .identity (by simp only [OpTyped]) ho trivial hu
  simp only [baseOp] at this
  exact this.outcome fun _ _ h => h

/-- **C67**: a spatial translation is dropped exactly when each of its Cartesian components is at most `1e-8` of *the unit of the
first of them*. -/
theorem C67_dropped_iff (d : Pos (UQ ℝ)) (hd : PosTyped d) :
    (OpU.spatial d).simplify = .ok .identity ↔ ∃ xs, toQuantity (basePos d) = .ok xs ∧ (xs.length = 3 ∨ xs.length = 1) ∧
      ∀ x ∈ xs, |x| ≤ 1e-8 * firstScale (cartesianUnits d) := by
  have h := C67_single (.spatial d) hd trivial
  have hp := firstScale_pos (cartesianUnits d)
  have hn : ∀ s : OpU, baseOp s = .identity → s = .identity := by
    intro s hs; cases s <;> first | rfl | (simp only [baseOp] at hs; cases hs)
  have e1 : (OpU.spatial d).simplify = .ok .identity ↔ (baseOp (.spatial d)).simplify (comparedIn (.spatial d)) = .ok .identity := by
    generalize (OpU.spatial d).simplify = X at h
    generalize (baseOp (.spatial d)).simplify (comparedIn (.spatial d)) = Y at h
    cases h with
    | returns h =>
      constructor
      · intro e; obtain rfl := Except.ok.inj e; rw [← h.2]; simp only [baseOp]
      · intro e; obtain rfl := Except.ok.inj e; rw [hn _ h.2]
    | raises e => exact ⟨(fun h => by cases h), (fun h => by cases h)⟩
  rw [e1]
  simp only [baseOp, Op.simplify, simplifySpatial, comparedIn]
  constructor
  · intro h
    obtain ⟨xs, e, h⟩ := (bind_ok_iff _ _ _).mp h
    obtain ⟨b, hb, h⟩ := (bind_ok_iff _ _ _).mp h
    refine ⟨xs, e, ?_⟩
    unfold closeToZeros at hb
    split at hb
    · rename_i hl
      refine ⟨by simpa using hl, ?_⟩
      obtain rfl := Except.ok.inj hb
      have h := Except.ok.inj h
      split at h
      · rename_i hall
        intro x hx
        rw [List.all_map, List.all_eq_true] at hall
        exact (isClose_zero_div hp x).mp (hall x hx)
      · cases h
    · cases hb
  · rintro ⟨xs, e, hl, hx⟩
    rw [e, ok_bind]
    unfold closeToZeros
    rw [if_pos (by simpa using hl), ok_bind, if_pos]
    · rfl
    · rw [List.all_map, List.all_eq_true]
      exact fun x hm => (isClose_zero_div hp x).mpr (hx x hm)

/-- **C67**: `simplify` is *not* a function of the physical operator. Every translation other than zero can be written in units in
which it is dropped, and in units in which it is kept. -/
theorem C67_depends_on_units (x y z : ℝ) (h : ¬(x = 0 ∧ y = 0 ∧ z = 0)) :
    ∃ d e : Pos (UQ ℝ), PosTyped d ∧ PosTyped e ∧ basePos d = .cart3 x y z ∧ basePos e = .cart3 x y z ∧
      (OpU.spatial d).simplify = .ok .identity ∧ (OpU.spatial e).simplify = .ok (.spatial e) := by
  have hpos : 0 < |x| + |y| + |z| := by
    rcases lt_or_eq_of_le (show (0:ℝ) ≤ |x| + |y| + |z| by positivity) with h' | h'
    · exact h'
    · exfalso; apply h
      have hx := abs_nonneg x; have hy := abs_nonneg y; have hz := abs_nonneg z
      exact ⟨abs_eq_zero.mp (by linarith), abs_eq_zero.mp (by linarith), abs_eq_zero.mp (by linarith)⟩
  have mk : ∀ s : ℝ, 0 < s → ∃ d : Pos (UQ ℝ), PosTyped d ∧ basePos d = .cart3 x y z ∧ firstScale (cartesianUnits d) = s := by
    intro s hs
    refine ⟨.cart3 ⟨x / s, ⟨{ len := 1 }, s, hs⟩⟩ ⟨y / s, ⟨{ len := 1 }, s, hs⟩⟩ ⟨z / s, ⟨{ len := 1 }, s, hs⟩⟩,
      ⟨rfl, rfl, rfl⟩, ?_, rfl⟩
    simp only [basePos, baseVal]
    congr 1 <;> field_simp
  have e3 : toQuantity (Pos.cart3 x y z) = .ok [x, y, z] := rfl
  obtain ⟨d, hd, bd, sd⟩ := mk (1e8 * (|x| + |y| + |z|)) (by positivity)
  obtain ⟨e, he, be, se⟩ := mk (1e8 * (|x| + |y| + |z|) / 4) (by positivity)
  have hx := abs_nonneg x
  have hy := abs_nonneg y
  have hz := abs_nonneg z
  refine ⟨d, e, hd, he, bd, be, ?_, ?_⟩
  · rw [C67_dropped_iff d hd, bd, sd]
    refine ⟨_, e3, .inl rfl, ?_⟩
    simp only [List.mem_cons, List.not_mem_nil, or_false, forall_eq_or_imp, forall_eq]
    refine ⟨?_, ?_, ?_⟩ <;> norm_num <;> linarith
  · have hk := mt (C67_dropped_iff e he).mp (by
      rw [be, se]
      rintro ⟨xs, e', -, hb⟩
      obtain rfl := Except.ok.inj (e3.symm.trans e')
      simp only [List.mem_cons, List.not_mem_nil, or_false, forall_eq_or_imp, forall_eq] at hb
      norm_num at hb
      linarith [hb.1, hb.2.1, hb.2.2])
    have hs := C67_single (.spatial e) he trivial
    rw [show (baseOp (.spatial e)).simplify (comparedIn (.spatial e)) =
      simplifySpatial (comparedIn (.spatial e)) (.cart3 x y z) by simp only [baseOp, Op.simplify, be]] at hs
    simp only [OpU.simplify] at hk hs ⊢
    unfold simplifySpatialU at hk hs ⊢
    generalize toQuantityU e = W at hk hs ⊢
    cases W with
    | error er =>
      exfalso
      rw [error_bind] at hs
      unfold simplifySpatial at hs
      rw [e3, ok_bind, closeToZeros_ok (by rfl), ok_bind] at hs
      cases hs
    | ok w =>
      rw [ok_bind] at hk hs ⊢
      generalize closeToZeros 3 w.values = Z at hk hs ⊢
      cases Z with
      | error er =>
        exfalso
        rw [error_bind] at hs
        unfold simplifySpatial at hs
        rw [e3, ok_bind, closeToZeros_ok (by rfl), ok_bind] at hs
        cases hs
      | ok b =>
        cases b
        · rfl
        · exact absurd rfl hk

/-- **C67**, with C29: if the parameters are zero or above the tolerance of `comparedIn` and the leading rotations agree, the
simplified operator acts on every position and time like the operator itself. -/
theorem C67_acts_alike (op s : OpU) (ho : OpTyped op) (w : WellFormed (baseOp op)) (r : Rigid (baseOp op)) (h : op.simplify = .ok s)
    (hc : Resolved (comparedIn op) (baseOp op) ∧ LeadAgree (baseOp op)) (q : Pos (UQ ℝ)) (t : UQ ℝ) (hq : PosTyped q) (ht : IsTime t)
    (hv : Valid3 (basePos q)) (a b : ArgU) (h1 : op.call (.posTime q t) = .ok a) (h2 : s.call (.posTime q t) = .ok b) :
    ∃ q₁ q₂ t₁ t₂, a = .posTime q₁ t₁ ∧ b = .posTime q₂ t₂ ∧ q₁.kind = q.kind ∧ q₂.kind = q.kind ∧ baseVal t₁ = baseVal t₂ ∧
      point (basePos q₁) = point (basePos q₂) := by
  obtain ⟨hs, e⟩ := C67_returns_base op s ho h
  obtain ⟨ha, ea⟩ := C66_returns_base op (.posTime q t) a ho ⟨hq, ht⟩ h1
  obtain ⟨hb, eb⟩ := C66_returns_base s (.posTime q t) b hs ⟨hq, ht⟩ h2
  obtain ⟨q₁, q₂, t', e1, e2, k1, k2, -, -, hp⟩ := C29_simplify_any_class (comparedIn op) (comparedIn_pos op).1 (comparedIn_pos op).2
    (baseOp op) (baseOp s) w r e hc (basePos q) (baseVal t) hv (baseArg a) (baseArg b) ea eb
  have kind : ∀ x : Pos (UQ ℝ), (basePos x).kind = x.kind := fun x => by rw [basePos_eq, tr_kind]
  cases a <;> first | (cases e1; done) | skip
  cases b <;> first | (cases e2; done) | skip
  rename_i x1 t1 x2 t2
  obtain ⟨rfl, rfl⟩ := Arg.posTime.inj e1
  obtain ⟨rfl, e3⟩ := Arg.posTime.inj e2
  rw [kind, kind] at k1 k2
  exact ⟨x1, x2, t1, t2, rfl, rfl, k1, k2, e3.symm, hp⟩

/-! ### concrete cases -/

/-- a Pipe of two translations, by kiloparsecs and parsecs, and a boost in km/s -/
noncomputable def demoList : List OpU := [.spatial (.cart3 ⟨1, kpc⟩ ⟨0, .pc⟩ ⟨0, .au⟩), .spatial (.cart3 ⟨1, .pc⟩ ⟨2, .pc⟩ ⟨3, .pc⟩),
  .boost (.cart3 ⟨1, .kms⟩ ⟨2, .kms⟩ ⟨3, .kms⟩)]

theorem demoList_typed : OpsTyped demoList := by
  simp only [demoList, OpTyped, OpsTyped, PosTyped, VelTyped, IsLength, IsRate, and_true]
  refine ⟨⟨rfl, rfl, rfl⟩, ⟨rfl, rfl, rfl⟩, ?_⟩
  simp [RUnit.kms]

/-- the hypotheses of `C67_pipe` hold, and `simplify` returns (so `C67_returns_base` is not vacuous) -/
example : OpsTyped demoList ∧ (∀ o ∈ demoList, UniformIn [.kms, .kms, .kms] o) ∧ ∃ s, (OpU.pipe demoList).simplify = .ok s := by
  have hu : ∀ o ∈ demoList, UniformIn [.kms, .kms, .kms] o := by
    intro o ho
    simp only [demoList, List.mem_cons, List.not_mem_nil, or_false] at ho
    rcases ho with rfl | rfl | rfl <;> rfl
  refine ⟨demoList_typed, hu, ?_⟩
  have h := C67_pipe [.kms, .kms, .kms] demoList demoList_typed hu ⟨1, 1⟩
  have e : ∃ b, (baseOp (.pipe demoList)).simplify ⟨1, 1⟩ = .ok b := by
    simp only [demoList, baseOp, baseOps, basePos, Op.simplify, simplifyFold, simplify2]
    exact ⟨_, rfl⟩
  obtain ⟨b, e⟩ := e
  rw [e] at h
  generalize (OpU.pipe demoList).simplify = X at h ⊢
  cases h with
  | returns _ => exact ⟨_, rfl⟩

/-- the same translation, `1e-9` kpc: dropped in kiloparsecs, kept in parsecs -/
example : (OpU.spatial (.cart3 ⟨1e-9, kpc⟩ ⟨0, kpc⟩ ⟨0, kpc⟩)).simplify = .ok .identity ∧
    (OpU.spatial (.cart3 ⟨1e-6, .pc⟩ ⟨0, .pc⟩ ⟨0, .pc⟩)).simplify ≠ .ok .identity := by
  have small : ∀ s : ℝ, 0 < s → ∀ v : ℝ, |v * s| ≤ 1e-8 * s ↔ |v| ≤ 1e-8 := by
    intro s hs v
    rw [abs_mul, abs_of_pos hs]
    exact mul_le_mul_iff_of_pos_right hs
  refine ⟨(C67_dropped_iff (.cart3 ⟨1e-9, kpc⟩ ⟨0, kpc⟩ ⟨0, kpc⟩) ⟨rfl, rfl, rfl⟩).mpr ⟨_, rfl, .inl rfl, ?_⟩, fun h => ?_⟩
  · intro x hx
    have hx : x ∈ [baseVal ⟨1e-9, kpc⟩, baseVal ⟨0, kpc⟩, baseVal ⟨0, kpc⟩] := hx
    simp only [List.mem_cons, List.not_mem_nil, or_false] at hx
    rcases hx with rfl | rfl | rfl <;> refine (small _ kpc.pos _).mpr ?_ <;> norm_num [abs_of_pos]
  · obtain ⟨xs, e, -, hx⟩ := (C67_dropped_iff (.cart3 ⟨1e-6, .pc⟩ ⟨0, .pc⟩ ⟨0, .pc⟩) ⟨rfl, rfl, rfl⟩).mp h
    have e := Except.ok.inj e
    have := (small _ RUnit.pc.pos _).mp (hx (baseVal ⟨1e-6, .pc⟩) (by rw [← e]; exact List.mem_cons_self ..))
    norm_num [abs_of_pos] at this

end Verif
