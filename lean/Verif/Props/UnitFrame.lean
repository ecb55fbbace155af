import Verif.UnitFrame
import Verif.Props.UnitSimplify
import Verif.Props.Frames

/-!
# C68: frame transforms do not depend on units

Specification: frames and arguments *in base units*, with `baseVal` and `basePos` of C61.
-/

namespace Verif

open Num

namespace Spec

/-- a Quantity of three lengths -/ def Lengths (w : Q3) : Prop := w.unit.dim = { len := 1 }
/-- a Quantity of three speeds -/ def Speeds (w : Q3) : Prop := w.unit.dim = { len := 1, time := -1 }

/-- three values in base units -/
def baseQ3 (w : Q3) : Fin 3 → ℝ := fun i => baseVal ⟨w.values i, w.unit⟩

/-- the physical types of the fields of `Galactocentric` -/
def GcfTyped (g : GalactocentricU) : Prop :=
  IsAngle g.lon ∧ IsAngle g.lat ∧ DistTyped g.distance ∧ IsAngle g.roll ∧ IsLength g.zSun ∧
    IsRate 1 g.vx ∧ IsRate 1 g.vy ∧ IsRate 1 g.vz

/-- a frame in base units -/
def baseGcf (g : GalactocentricU) : Galactocentric :=
  ⟨baseVal g.lon, baseVal g.lat, baseDist g.distance, baseVal g.roll, baseVal g.zSun, ![baseVal g.vx, baseVal g.vy, baseVal g.vz]⟩

/-- typed frames -/
def FrameTyped : FrameU → Prop
  | .gcf g => GcfTyped g
  | _ => True

/-- a frame in base units -/
def baseFrame : FrameU → Frame
  | .noFrame => .noFrame
  | .icrs => .icrs
  | .gcf g => .gcf (baseGcf g)

mutual
/-- operators all of whose frames are typed -/
def FOpTyped : FOpU → Prop
  | .identity => True
  | .icrs2gcf g => GcfTyped g
  | .gcf2icrs g => GcfTyped g
  | .pipe ops => FOpsTyped ops
/-- all of a list -/
def FOpsTyped : List FOpU → Prop
  | [] => True
  | o :: os => FOpTyped o ∧ FOpsTyped os
end

mutual
/-- a frame operator in base units -/
def baseFOp : FOpU → FOp
  | .identity => .identity
  | .icrs2gcf g => .icrs2gcf (baseGcf g)
  | .gcf2icrs g => .gcf2icrs (baseGcf g)
  | .pipe ops => .pipe (baseFOps ops)
/-- all of a list -/
def baseFOps : List FOpU → List FOp
  | [] => []
  | o :: os => baseFOp o :: baseFOps os
end

/-- arguments of the right physical types; prolate spheroidal velocities are left out (they convert to no other class, see
`C61_prolate_velocity_raises`) -/
def FArgTyped : FArgU → Prop
  | .qty q => Lengths q
  | .qtys q p => Lengths q ∧ Speeds p
  | .pos q => PosTyped q
  | .vecs q p => PosTyped q ∧ VelTyped 1 p ∧ p.kind ≠ .prolate

/-- arguments in base units -/
def baseFArg : FArgU → FArg
  | .qty q => .qty (baseQ3 q)
  | .qtys q p => .qtys (baseQ3 q) (baseQ3 p)
  | .pos q => .pos (basePos q)
  | .vecs q p => .vecs (basePos q) (p.map baseVal)

/-- the result has the right physical types, and is `b'` in base units -/
def DenotesFArg (b : FArgU) (b' : FArg) : Prop := FArgTyped b ∧ baseFArg b = b'

end Spec

open Spec

theorem Q3.strip_rel {w : Q3} {un : RUnit} (h : un.dim = w.unit.dim) :
    ∃ v, w.strip un = .ok v ∧ ∀ i, v i * un.scale = baseQ3 w i := by
  obtain ⟨x, ex, hx⟩ := strip_ok (q := (⟨w.values 0, w.unit⟩ : UQ ℝ)) (un := un) h
  obtain ⟨y, ey, hy⟩ := strip_ok (q := (⟨w.values 1, w.unit⟩ : UQ ℝ)) (un := un) h
  obtain ⟨z, ez, hz⟩ := strip_ok (q := (⟨w.values 2, w.unit⟩ : UQ ℝ)) (un := un) h
  refine ⟨![x, y, z], by simp only [Q3.strip, ex, ey, ez, ok_bind]; rfl, fun i => ?_⟩
  rw [mul_comm]
  unfold baseQ3
  rw [base_eq]
  fin_cases i
  · exact hx
  · exact hy
  · exact hz

theorem eulerAngle_rel {a : UQ ℝ} {x : ℝ} (h : a.Rel dA x) : eulerAngle a = .ok x := by
  obtain ⟨v, e, hv⟩ := strip_rel (un := .deg) h rfl
  unfold eulerAngle
  rw [e, ok_bind, ← hv]
  show Except.ok _ = Except.ok _
  simp only [RUnit.deg, CNum.const]
  rw [mul_comm]

theorem roll0_rel : roll0U.Rel dA roll0 := by
  refine ⟨rfl, ?_⟩
  simp only [UQ.phys, roll0U, RUnit.deg, CNum.const, roll0]
  rw [mul_comm]

theorem angle_rel {q : UQ ℝ} (h : IsAngle q) : q.Rel dA (baseVal q) := ⟨h, (base_eq q).symm⟩
theorem length_rel {q : UQ ℝ} (h : IsLength q) : q.Rel dL (baseVal q) := ⟨h, (base_eq q).symm⟩

/-- rotation and offsets, in base units -/
def PartsRel (P : FramePartsU) (P' : FrameParts) : Prop :=
  (Lengths P.offset ∧ Speeds P.offsetV) ∧ P.A = P'.A ∧ baseQ3 P.offset = P'.offset ∧ baseQ3 P.offsetV = P'.offsetV

theorem speeds_quantity {x y z : UQ ℝ} (hx : IsRate 1 x) (hy : IsRate 1 y) (hz : IsRate 1 z) :
    ∃ w v, velToQuantityU (.cart3 x y z) = .ok w ∧ w.three = .ok v ∧ Speeds v ∧ baseQ3 v = ![baseVal x, baseVal y, baseVal z] := by
  have dim : ∀ {q : UQ ℝ}, IsRate 1 q → q.unit.dim = { len := 1, time := -1 } := fun h => by
    simpa [IsRate] using h
  obtain ⟨w, e, hd, hw⟩ := stack_dims (l := [x, y, z]) (by simp) (d := { len := 1, time := -1 }) (by
    simp only [List.mem_cons, List.not_mem_nil, or_false, forall_eq_or_imp, forall_eq]
    exact ⟨dim hx, dim hy, dim hz⟩)
  obtain ⟨vs, un⟩ := w
  have hl : vs.length = 3 := by
    have := congrArg List.length hw; simpa using this
  match vs, hl with
  | [a, b, c], _ =>
    simp only [List.map, List.cons.injEq, and_true] at hw
    refine ⟨_, ⟨![a, b, c], un⟩, e, rfl, hd, ?_⟩
    funext i
    simp only [base_eq]
    unfold baseQ3
    rw [base_eq]
    fin_cases i
    · exact hw.1
    · exact hw.2.1
    · exact hw.2.2

theorem parts_rel {g : GalactocentricU} (hg : GcfTyped g) :
    RelRes PartsRel (icrsToGcfPartsU g) (icrsToGcfParts (baseGcf g)) := by
  obtain ⟨h1, h2, h3, h4, h5, h6, h7, h8⟩ := hg
  obtain ⟨s, es, hs, -⟩ := sub_rel (angle_rel h4) roll0_rel
  unfold icrsToGcfPartsU icrsToGcfParts
  rw [eulerAngle_rel (angle_rel h2), ok_bind, eulerAngle_rel (neg_rel (angle_rel h1)), ok_bind, es, ok_bind, eulerAngle_rel hs, ok_bind]
  obtain ⟨wv, v, e1, e2, hv, hb⟩ := speeds_quantity h6 h7 h8
  rcases g with ⟨lon, lat, dist, roll, zs, vx, vy, vz⟩
  cases dist with
  | par p => exact .err _
  | dm p => exact .err _
  | dist d =>
    show RelRes _ (do
      let zd ← (← zs.div d).strip .one
      let H := eulerY (← eulerAngle ⟨← asinR zd, .rad⟩)
      let v ← (← velToQuantityU (.cart3 vx vy vz)).three
      return (⟨H * _, ⟨(-H).mulVec (fun i => d.value * ![1, 0, 0] i), d.unit⟩, v⟩ : FramePartsU)) (do
      let zd ← Num.div (baseVal zs) (baseVal d)
      let H := eulerY (← asinR zd)
      return (⟨H * _, (-H).mulVec (fun i => baseVal d * ![1, 0, 0] i), _⟩ : FrameParts))
    simp only [bind_assoc]
    refine .bind (div_rel (length_rel h5) (length_rel h3)) fun r r' hr => ?_
    obtain ⟨⟨hd, hp⟩, -⟩ := hr
    obtain ⟨z, ez, hz⟩ := strip_ok (q := r) (un := .one) (by rw [hd, RDim.div_self]; rfl)
    rw [ez, ok_bind]
    have : z = r' := by
      rw [← hp, ← hz]; simp [RUnit.one, CNum.const]
    subst this
    refine .bind (R := fun a b => a = b) (by cases asinR z with | error e => exact .err e | ok a => exact .ok rfl) fun a b hab => ?_
    subst hab
    rw [eulerAngle_rel (x := a) ⟨rfl, by simp [UQ.phys, RUnit.rad, CNum.const]⟩, ok_bind, e1, ok_bind, e2, ok_bind]
    refine .ok ⟨⟨h3, hv⟩, rfl, ?_, hb⟩
    funext i
    simp only [baseQ3, baseVal, Matrix.mulVec, dotProduct, Fin.sum_univ_three]
    ring

theorem inverse_parts_rel {g : GalactocentricU} (hg : GcfTyped g) :
    RelRes PartsRel (gcfToIcrsPartsU g) (gcfToIcrsParts (baseGcf g)) := by
  refine .bind (parts_rel hg) fun P P' hP => .ok ?_
  obtain ⟨⟨h1, h2⟩, hA, ho, hv⟩ := hP
  refine ⟨⟨h1, h2⟩, by rw [hA], ?_, ?_⟩
  · rw [← ho, ← hA]
    funext i
    simp only [baseQ3, baseVal, Matrix.mulVec, dotProduct, Fin.sum_univ_three]
    ring
  · rw [← hv, ← hA]
    funext i
    simp only [baseQ3, baseVal, Matrix.mulVec, dotProduct, Fin.sum_univ_three]
    ring

theorem callQ_rel {P : FramePartsU} {P' : FrameParts} (hP : PartsRel P P') {q : Q3} (hq : Lengths q) :
    ∃ r, callQU P q = .ok r ∧ r.unit = q.unit ∧ baseQ3 r = callQ id P' (baseQ3 q) := by
  obtain ⟨o, eo, ho⟩ := Q3.strip_rel (w := P.offset) (un := q.unit) (Eq.trans hq hP.1.1.symm)
  refine ⟨⟨callQ id ⟨P.A, o, 0⟩ q.values, q.unit⟩, by rw [callQU, FramePartsU.at, eo]; rfl, rfl, ?_⟩
  obtain ⟨-, hA, ho', -⟩ := hP
  funext i
  have := ho i
  simp only [baseQ3, baseVal, callQ, id]
  rw [← ho', ← this, hA]
  ring

theorem jac_unit_dim (u v : RUnit) : ((u.div u).mul v).dim = v.dim := by
  show (u.dim.div u.dim).mul v.dim = v.dim
  rw [RDim.div_self]
  cases v.dim
  simp [RDim.mul]

theorem callP_rel {P : FramePartsU} {P' : FrameParts} (hP : PartsRel P P') {q p : Q3} (hq : Lengths q) (hp : Speeds p) :
    ∃ r, callPU P q p = .ok r ∧ Speeds r ∧ baseQ3 r = callP P' (baseQ3 q) (baseQ3 p) := by
  obtain ⟨o, eo, ho⟩ := Q3.strip_rel (w := P.offset) (un := q.unit) (Eq.trans hq hP.1.1.symm)
  obtain ⟨v, ev, hv⟩ := Q3.strip_rel (w := P.offsetV) (un := (q.unit.div q.unit).mul p.unit)
    (by rw [jac_unit_dim]; exact Eq.trans hp hP.1.2.symm)
  refine ⟨⟨fun i => jacQ ⟨P.A, o, 0⟩ q.values i 0 * p.values 0 + jacQ ⟨P.A, o, 0⟩ q.values i 1 * p.values 1 +
    jacQ ⟨P.A, o, 0⟩ q.values i 2 * p.values 2 + v i, (q.unit.div q.unit).mul p.unit⟩, ?_, by unfold Speeds; rw [jac_unit_dim]; exact hp, ?_⟩
  · unfold callPU FramePartsU.at
    rw [eo, ok_bind, show ∀ x : FrameParts, (pure x : Res FrameParts) = .ok x from fun _ => rfl, ok_bind]
    show (do let o ← P.offsetV.strip ((q.unit.div q.unit).mul p.unit); _) = _
    rw [ev]
    rfl
  obtain ⟨-, hA, -, hv'⟩ := hP
  funext i
  have := hv i
  simp only [baseQ3, baseVal, callP, jacQ_eq]
  rw [← hv', ← this, hA, add_mul]
  have hs : ((q.unit.div q.unit).mul p.unit).scale = p.unit.scale := by
    show q.unit.scale / q.unit.scale * p.unit.scale = p.unit.scale
    rw [div_self q.unit.pos.ne', one_mul]
  rw [hs]
  ring

theorem three_rel {w : QRow} {d : RDim} {xs : List ℝ} (h : QRow.Rel d w xs) :
    RelRes (fun v v' => v.unit.dim = d ∧ baseQ3 v = v') w.three (qty3 xs) := by
  obtain ⟨vs, un⟩ := w
  obtain ⟨hd, rfl⟩ := h
  match vs with
  | [] => exact .err _
  | [_] => exact .err _
  | [_, _] => exact .err _
  | [a, b, c] =>
    refine .ok ⟨hd, ?_⟩
    funext i
    unfold baseQ3
    rw [base_eq]
    fin_cases i <;> rfl
  | _ :: _ :: _ :: _ :: _ => exact .err _

theorem posOf_denotes {q : Q3} (h : Lengths q) : PosTyped (posOfU q) ∧ basePos (posOfU q) = posOf (baseQ3 q) :=
  ⟨⟨h, h, h⟩, rfl⟩

theorem velOf_denotes {p : Q3} (h : Speeds p) : VelTyped 1 (velOfU p) ∧ (velOfU p).map baseVal = velOf (baseQ3 p) := by
  refine ⟨?_, rfl⟩
  have h : p.unit.dim = { len := 1, time := -1 } := h
  simp only [velOfU, VelTyped, IsRate, h]
  norm_num

theorem callParts_rel {P : FramePartsU} {P' : FrameParts} (hP : PartsRel P P') {a : FArgU} (ha : FArgTyped a) :
    RelRes DenotesFArg (callPartsU P a) (callParts P' (baseFArg a)) := by
  cases a with
  | qty q =>
    obtain ⟨r, e, hu, hr⟩ := callQ_rel hP (q := q) ha
    show RelRes _ (do return FArgU.qty (← callQU P q)) _
    rw [e]
    exact .ok ⟨show r.unit.dim = _ by rw [hu]; exact ha, by rw [baseFArg, hr]⟩
  | qtys q p =>
    obtain ⟨r, e, hu, hr⟩ := callQ_rel hP (q := q) ha.1
    obtain ⟨s, e', hs, hs'⟩ := callP_rel hP (q := q) (p := p) ha.1 ha.2
    show RelRes _ (do return FArgU.qtys (← callQU P q) (← callPU P q p)) _
    rw [e, e']
    exact .ok ⟨⟨show r.unit.dim = _ by rw [hu]; exact ha.1, hs⟩, by rw [baseFArg, hr, hs']⟩
  | pos q => exact .err _
  | vecs qv pv =>
    obtain ⟨hq, hv, hk⟩ := ha
    show RelRes _ (if qv.kind.dim ≠ 3 then _ else _) (if (basePos qv).kind.dim ≠ 3 then _ else _)
    rw [rel_kind (pos_rel hq)]
    split
    · exact .err _
    have hrv := representVel_rel kw_nil ((posTyped_iff qv).mp hq) ((velTyped_iff 1 pv).mp hv) .cart3 fun h => absurd h hk
    have e0 : basePos qv = qv.tr UQ.phys := basePos_eq qv
    rw [e0, vel_map]
    refine .bind hrv fun w w' hw => ?_
    obtain ⟨hw1, hw2⟩ := vel_of hw
    subst hw2
    refine .bind (R := fun x xs => QRow.Rel { len := 1, time := -1 } x xs) ?_ fun x xs hx => .bind (three_rel hx) fun p p' hp => ?_
    · cases w with
      | cart1 a =>
        obtain ⟨w, e, hd, hw⟩ := stack_dims (l := [a]) (by simp) (d := { len := 1, time := -1 }) (by
          simpa [VelTyped, IsRate] using hw1)
        show RelRes _ (stackU [a]) _
        rw [e, base_fun]
        exact .ok ⟨hd, hw⟩
      | radial a =>
        obtain ⟨w, e, hd, hw⟩ := stack_dims (l := [a]) (by simp) (d := { len := 1, time := -1 }) (by
          simpa [VelTyped, IsRate] using hw1)
        show RelRes _ (stackU [a]) _
        rw [e, base_fun]
        exact .ok ⟨hd, hw⟩
      | cart2 a b =>
        obtain ⟨w, e, hd, hw⟩ := stack_dims (l := [a, b]) (by simp) (d := { len := 1, time := -1 }) (by
          simpa [VelTyped, IsRate] using hw1)
        show RelRes _ (stackU [a, b]) _
        rw [e, base_fun]
        exact .ok ⟨hd, hw⟩
      | cart3 a b c =>
        obtain ⟨w, e, hd, hw⟩ := stack_dims (l := [a, b, c]) (by simp) (d := { len := 1, time := -1 }) (by
          simpa [VelTyped, IsRate] using hw1)
        show RelRes _ (stackU [a, b, c]) _
        rw [e, base_fun]
        exact .ok ⟨hd, hw⟩
      | _ => exact .err _
    · refine .bind (toQuantity_rel (e0 ▸ pos_rel hq)) fun y ys hy => .bind (three_rel hy) fun q q' hq' => ?_
      obtain ⟨hp1, rfl⟩ := hp
      obtain ⟨hq1, rfl⟩ := hq'
      obtain ⟨r, e, hu, hr⟩ := callQ_rel hP (q := q) hq1
      obtain ⟨s, e', hs, hs'⟩ := callP_rel hP (q := q) (p := p) hq1 hp1
      rw [e, ok_bind, e', ok_bind]
      have hr1 : Lengths r := show r.unit.dim = _ by rw [hu]; exact hq1
      refine .ok ⟨⟨(posOf_denotes hr1).1, (velOf_denotes hs).1, nofun⟩, ?_⟩
      rw [baseFArg, (posOf_denotes hr1).2, (velOf_denotes hs).2, hr, hs']

mutual
theorem fcall_rel : ∀ (op : FOpU) (a : FArgU), FOpTyped op → FArgTyped a →
    RelRes DenotesFArg (op.call a) ((baseFOp op).call (baseFArg a))
  | .identity, a, _, ha => by simp only [FOpU.call, baseFOp, FOp.call]; exact .ok ⟨ha, rfl⟩
  | .icrs2gcf g, a, hg, ha => by
    simp only [FOpTyped] at hg
    simp only [FOpU.call, baseFOp, FOp.call]
    exact .bind (parts_rel hg) fun P P' hP => callParts_rel hP ha
  | .gcf2icrs g, a, hg, ha => by
    simp only [FOpTyped] at hg
    simp only [FOpU.call, baseFOp, FOp.call]
    exact .bind (inverse_parts_rel hg) fun P P' hP => callParts_rel hP ha
  | .pipe ops, .qty q, h, ha => by
    simp only [FOpTyped] at h
    simp only [FOpU.call, baseFOp, baseFArg, FOp.call]
    have hp := posOf_denotes (q := q) ha
    have := fcallAll_rel ops (.pos (posOfU q)) h hp.1
    rw [baseFArg, hp.2] at this
    refine .bind this fun b b' hb => ?_
    obtain ⟨hb, rfl⟩ := hb
    cases b with
    | pos r =>
      refine .bind (repr_relk (pos_rel (q := r) hb) .cart3 fun _ => by decide) fun c c' hc => .bind (toQuantity_rel hc.1) fun w xs hw =>
        .bind (three_rel hw) fun v v' hv => .ok ⟨hv.1, by rw [baseFArg, hv.2]⟩
    | qty q => exact .err _
    | qtys q p => exact .err _
    | vecs q p => exact .err _
  | .pipe ops, .qtys q p, h, ha => by
    simp only [FOpTyped] at h
    simp only [FOpU.call, baseFOp, baseFArg, FOp.call]; exact fcallAll_rel ops (.qtys q p) h ha
  | .pipe ops, .pos q, h, ha => by
    simp only [FOpTyped] at h
    simp only [FOpU.call, baseFOp, baseFArg, FOp.call]; exact fcallAll_rel ops (.pos q) h ha
  | .pipe ops, .vecs q p, h, ha => by
    simp only [FOpTyped] at h
    simp only [FOpU.call, baseFOp, baseFArg, FOp.call]; exact fcallAll_rel ops (.vecs q p) h ha

theorem fcallAll_rel : ∀ (ops : List FOpU) (a : FArgU), FOpsTyped ops → FArgTyped a →
    RelRes DenotesFArg (fcallAllU ops a) (fcallAll (baseFOps ops) (baseFArg a))
  | [], a, _, ha => by simp only [fcallAllU, baseFOps, fcallAll]; exact .ok ⟨ha, rfl⟩
  | op :: ops, a, h, ha => by
    simp only [FOpsTyped] at h
    simp only [fcallAllU, baseFOps, fcallAll]
    refine .bind (fcall_rel op a h.1 ha) fun b b' hb => ?_
    obtain ⟨hb, rfl⟩ := hb
    exact fcallAll_rel ops b h.2 hb
end

/-! ### the property -/

/-- **C68**: a frame operator with parameters and arguments in any units behaves as in base units: it returns the same, or raises
the same error. -/
theorem C68_as_in_base_units (op : FOpU) (a : FArgU) (ho : FOpTyped op) (ha : FArgTyped a) :
    SameOutcome DenotesFArg (op.call a) ((baseFOp op).call (baseFArg a)) :=
  (fcall_rel op a ho ha).outcome fun _ _ h => h

theorem callParts_unit {P : FramePartsU} {q p : Q3} {b : FArgU} (h : callPartsU P (.qtys q p) = .ok b) :
    ∃ q' p', b = .qtys q' p' ∧ q'.unit = q.unit := by
  obtain ⟨r, hr, h⟩ := (bind_ok_iff _ _ _).mp h
  obtain ⟨s, _, h⟩ := (bind_ok_iff _ _ _).mp h
  obtain ⟨P', _, hr⟩ := (bind_ok_iff _ _ _).mp hr
  refine ⟨r, s, (Except.ok.inj h).symm, ?_⟩
  rw [← Except.ok.inj hr]

mutual
theorem fcall_unit : ∀ (op : FOpU) {q p : Q3} {b : FArgU}, op.call (.qtys q p) = .ok b → ∃ q' p', b = .qtys q' p' ∧ q'.unit = q.unit
  | .identity, q, p, b, h => by
    simp only [FOpU.call] at h
    exact ⟨q, p, (Except.ok.inj h).symm, rfl⟩
  | .icrs2gcf g, q, p, b, h => by
    simp only [FOpU.call] at h
    obtain ⟨P, _, h⟩ := (bind_ok_iff _ _ _).mp h
    exact callParts_unit h
  | .gcf2icrs g, q, p, b, h => by
    simp only [FOpU.call] at h
    obtain ⟨P, _, h⟩ := (bind_ok_iff _ _ _).mp h
    exact callParts_unit h
  | .pipe ops, q, p, b, h => by
    simp only [FOpU.call] at h
    exact fcallAll_unit ops h
theorem fcallAll_unit : ∀ (ops : List FOpU) {q p : Q3} {b : FArgU}, fcallAllU ops (.qtys q p) = .ok b →
    ∃ q' p', b = .qtys q' p' ∧ q'.unit = q.unit
  | [], q, p, b, h => by
    simp only [fcallAllU] at h
    exact ⟨q, p, (Except.ok.inj h).symm, rfl⟩
  | op :: ops, q, p, b, h => by
    simp only [fcallAllU] at h
    obtain ⟨c, hc, h⟩ := (bind_ok_iff _ _ _).mp h
    obtain ⟨q1, p1, rfl, h1⟩ := fcall_unit op hc
    obtain ⟨q2, p2, rfl, h2⟩ := fcallAll_unit ops h
    exact ⟨q2, p2, rfl, h2.trans h1⟩
end

/-- **C68**: `frame_transform_op`: the operator for frames in any units is, in base units, the operator for the frames in base
units, unless two frames are equal in base units but stored differently (see `C68_transform`, `C68_position_alone`). -/
theorem C68_operator (f g : FrameU) (hf : FrameTyped f) (hg : FrameTyped g) (h : baseFrame f = baseFrame g → f = g) :
    SameOutcome (fun o o' => FOpTyped o ∧ baseFOp o = o') (frameTransformOpU f g) (frameTransformOp (baseFrame f) (baseFrame g)) := by
  cases f with
  | noFrame => cases g <;> exact .raises _
  | icrs =>
    cases g with
    | noFrame => exact .raises _
    | icrs => exact .returns ⟨by simp only [FOpTyped], by simp only [baseFOp]⟩
    | gcf g => exact .returns ⟨by simp only [FOpTyped]; exact hg, by simp only [baseFOp]⟩
  | gcf f =>
    cases g with
    | noFrame => exact .raises _
    | icrs => exact .returns ⟨by simp only [FOpTyped]; exact hf, by simp only [baseFOp]⟩
    | gcf g =>
      simp only [frameTransformOpU, frameTransformOp, baseFrame]
      by_cases e : f = g
      · subst e
        rw [if_pos rfl, if_pos rfl]
        exact .returns ⟨by simp only [FOpTyped, FOpsTyped, and_self], by simp only [baseFOp, baseFOps]⟩
      · have e' : baseGcf f ≠ baseGcf g := fun h' => e (by
          have := h (by simp only [baseFrame, h']); cases this; rfl)
        rw [if_neg e, if_neg e']
        exact .returns ⟨by simp only [FOpTyped, FOpsTyped, and_true]; exact ⟨hf, hg⟩, by simp only [baseFOp, baseFOps]⟩

/-- **C68**: transforms between any two frames, in any units: position and velocity come out as in base units, the position in the
unit of the argument. -/
theorem C68_transform (f g : FrameU) (hf : FrameTyped f) (hg : FrameTyped g) (df : FrameDefined (baseFrame f))
    (dg : FrameDefined (baseFrame g)) : ∃ op op', frameTransformOpU f g = .ok op ∧
      frameTransformOp (baseFrame f) (baseFrame g) = .ok op' ∧ ∀ q p, Lengths q → Speeds p → ∃ q' p',
        op.call (.qtys q p) = .ok (.qtys q' p') ∧ q'.unit = q.unit ∧ Speeds p' ∧
        op'.call (.qtys (baseQ3 q) (baseQ3 p)) = .ok (.qtys (baseQ3 q') (baseQ3 p')) := by
  have finish : ∀ (op : FOpU) (op' : FOp), FOpTyped op →
      (∀ q p, ∃ q' p', (baseFOp op).call (.qtys q p) = .ok (.qtys q' p') ∧ op'.call (.qtys q p) = .ok (.qtys q' p')) →
      ∀ q p, Lengths q → Speeds p → ∃ q' p', op.call (.qtys q p) = .ok (.qtys q' p') ∧ q'.unit = q.unit ∧ Speeds p' ∧
        op'.call (.qtys (baseQ3 q) (baseQ3 p)) = .ok (.qtys (baseQ3 q') (baseQ3 p')) := by
    intro op op' ho hb q p hq hp
    obtain ⟨q', p', e, e'⟩ := hb (baseQ3 q) (baseQ3 p)
    have h := C68_as_in_base_units op (.qtys q p) ho ⟨hq, hp⟩
    rw [baseFArg, e] at h
    generalize hX : op.call (.qtys q p) = X at h
    cases h with
    | returns h =>
      obtain ⟨q1, p1, rfl, hu⟩ := fcall_unit op hX
      obtain ⟨ht, hd⟩ := h
      obtain ⟨rfl, rfl⟩ := FArg.qtys.inj hd
      exact ⟨q1, p1, rfl, hu, ht.2, e'⟩
  obtain ⟨fg, gh, fh, ff, e1, -, -, -, h⟩ := C36_composition (baseFrame f) (baseFrame g) (baseFrame g) df dg dg
  by_cases hs : baseFrame f = baseFrame g → f = g
  · have ho := C68_operator f g hf hg hs
    rw [e1] at ho
    generalize frameTransformOpU f g = X at ho ⊢
    cases ho with
    | returns ho =>
      refine ⟨_, _, rfl, e1, finish _ _ ho.1 fun q p => ?_⟩
      rw [ho.2]
      obtain ⟨q', p', -, -, e, -⟩ := (h q p).1
      exact ⟨q', p', e, e⟩
  · push Not at hs
    obtain ⟨hb, hne⟩ := hs
    cases f with
    | noFrame => exact df.elim
    | icrs => cases g <;> first | exact dg.elim | exact absurd rfl hne | (simp only [baseFrame] at hb; cases hb)
    | gcf f =>
      cases g with
      | noFrame => exact dg.elim
      | icrs => simp only [baseFrame] at hb; cases hb
      | gcf g =>
        have hb : baseGcf f = baseGcf g := by simpa [baseFrame] using hb
        have hne : f ≠ g := fun e => hne (by rw [e])
        refine ⟨.pipe [.gcf2icrs f, .icrs2gcf g], .pipe [.identity], by simp only [frameTransformOpU]; rw [if_neg hne],
          by simp only [baseFrame, frameTransformOp]; rw [if_pos hb], finish _ _ ?_ fun q p => ?_⟩
        · simp only [FOpTyped, FOpsTyped, and_true]; exact ⟨hf, hg⟩
        · obtain ⟨fwd, bwd, ef, eb, -, -, hr⟩ := C33_round_trip (baseGcf g) dg
          obtain rfl := Except.ok.inj ef
          obtain rfl := Except.ok.inj eb
          obtain ⟨q', p', h1, h2⟩ := (hr q p).2.2.2
          refine ⟨q, p, ?_, by simp only [FOp.call, fcallAll]; rfl⟩
          simp only [baseFOp, baseFOps, hb]
          rw [FOp.call]
          · simp only [fcallAll]
            rw [h1, ok_bind, h2, ok_bind]
          · nofun

/-- **C68**, with C36: transforms compose in any units: `T(g,h)` after `T(f,g)` is `T(f,h)` in base units. -/
theorem C68_composition (f g h : FrameU) (hf : FrameTyped f) (hg : FrameTyped g) (hh : FrameTyped h)
    (df : FrameDefined (baseFrame f)) (dg : FrameDefined (baseFrame g)) (dh : FrameDefined (baseFrame h)) :
    ∃ fg gh fh, frameTransformOpU f g = .ok fg ∧ frameTransformOpU g h = .ok gh ∧ frameTransformOpU f h = .ok fh ∧
      ∀ q p, Lengths q → Speeds p → ∃ q₁ p₁ q₂ p₂ q₃ p₃, fg.call (.qtys q p) = .ok (.qtys q₁ p₁) ∧
        gh.call (.qtys q₁ p₁) = .ok (.qtys q₂ p₂) ∧ fh.call (.qtys q p) = .ok (.qtys q₃ p₃) ∧
        baseQ3 q₂ = baseQ3 q₃ ∧ baseQ3 p₂ = baseQ3 p₃ := by
  obtain ⟨fg, fg', e1, e1', h1⟩ := C68_transform f g hf hg df dg
  obtain ⟨gh, gh', e2, e2', h2⟩ := C68_transform g h hg hh dg dh
  obtain ⟨fh, fh', e3, e3', h3⟩ := C68_transform f h hf hh df dh
  obtain ⟨a, b, c, _, ea, eb, ec, _, hc⟩ := C36_composition (baseFrame f) (baseFrame g) (baseFrame h) df dg dh
  obtain rfl := Except.ok.inj (ea.symm.trans e1')
  obtain rfl := Except.ok.inj (eb.symm.trans e2')
  obtain rfl := Except.ok.inj (ec.symm.trans e3')
  refine ⟨fg, gh, fh, e1, e2, e3, fun q p hq hp => ?_⟩
  obtain ⟨q1, p1, k1, u1, s1, b1⟩ := h1 q p hq hp
  have hq1 : Lengths q1 := by unfold Lengths; rw [u1]; exact hq
  obtain ⟨q2, p2, k2, u2, s2, b2⟩ := h2 q1 p1 hq1 s1
  obtain ⟨q3, p3, k3, u3, s3, b3⟩ := h3 q p hq hp
  obtain ⟨x1, y1, x2, y2, c1, c2, c3⟩ := (hc (baseQ3 q) (baseQ3 p)).1
  obtain ⟨rfl, rfl⟩ := FArg.qtys.inj (Except.ok.inj (c1.symm.trans b1))
  obtain ⟨rfl, rfl⟩ := FArg.qtys.inj (Except.ok.inj (c2.symm.trans b2))
  obtain ⟨z1, z2⟩ := FArg.qtys.inj (Except.ok.inj (c3.symm.trans b3))
  exact ⟨q1, p1, q2, p2, q3, p3, k1, k2, k3, z1, z2⟩

/-- **C68**: without a velocity, the transform between two Galactocentric frames returns exactly when the frames are equal *as
stored*: the same frame in two sets of units raises. -/
theorem C68_position_alone (f g : GalactocentricU) (op : FOpU) (h : frameTransformOpU (.gcf f) (.gcf g) = .ok op) (v : Pos (UQ ℝ)) :
    (∃ a, op.call (.pos v) = .ok a) ↔ f = g := by
  simp only [frameTransformOpU] at h
  split at h <;> rename_i e <;> obtain rfl := Except.ok.inj h
  · refine ⟨fun _ => e, fun _ => ⟨.pos v, ?_⟩⟩
    rw [FOpU.call]
    · simp only [fcallAllU, FOpU.call]; rfl
    · nofun
  · refine ⟨fun ⟨a, ha⟩ => ?_, fun h => absurd h e⟩
    rw [FOpU.call] at ha
    · simp only [fcallAllU, FOpU.call] at ha
      obtain ⟨b, hb, _⟩ := (bind_ok_iff _ _ _).mp ha
      obtain ⟨P, _, hb⟩ := (bind_ok_iff _ _ _).mp hb
      cases hb
    · nofun

/-- a frame in degrees, kpc, pc and km/s: distance and height as the defaults (`galactocentric.py` 25-79) -/
noncomputable def gcfKpc : GalactocentricU :=
  ⟨⟨266.4051, .deg⟩, ⟨-28.936175, .deg⟩, .dist ⟨8.122, kpc⟩, ⟨0, .deg⟩, ⟨20.8, .pc⟩, ⟨12.9, .kms⟩, ⟨245.6, .kms⟩, ⟨7.78, .kms⟩⟩

/-- the same frame, distance in pc -/
noncomputable def gcfPc : GalactocentricU := { gcfKpc with distance := .dist ⟨8122, .pc⟩ }

example : GcfTyped gcfKpc ∧ GcfTyped gcfPc :=
  ⟨⟨rfl, rfl, rfl, rfl, rfl, rfl, rfl, rfl⟩, ⟨rfl, rfl, rfl, rfl, rfl, rfl, rfl, rfl⟩⟩

/-- the two are one frame -/
theorem gcf_same : baseGcf gcfPc = baseGcf gcfKpc := by
  have : baseVal (⟨8122, .pc⟩ : UQ ℝ) = baseVal ⟨8.122, kpc⟩ := by
    simp only [baseVal, kpc]; ring
  simp only [baseGcf, gcfPc, gcfKpc, baseDist, this]

theorem gcf_defined : FrameDefined (baseFrame (.gcf gcfKpc)) := by
  have hp := RUnit.pc.pos
  refine ⟨_, rfl, ?_, ?_⟩
  · simp only [baseVal, kpc]; positivity
  · simp only [baseGcf, gcfKpc, baseVal, kpc]
    rw [abs_of_pos (by positivity)]
    linarith

theorem gcf_stored : gcfKpc ≠ gcfPc := by
  intro h
  have h := congrArg GalactocentricU.distance h
  simp only [gcfKpc, gcfPc, Dist.dist.injEq, UQ.mk.injEq] at h
  norm_num at h

/-- a position goes through `T(f,f)`, but not through `T(f,f')` with `f'` the same frame in other units -/
example (v : Pos (UQ ℝ)) : ∃ same other, frameTransformOpU (.gcf gcfKpc) (.gcf gcfKpc) = .ok same ∧
    frameTransformOpU (.gcf gcfKpc) (.gcf gcfPc) = .ok other ∧ (∃ a, same.call (.pos v) = .ok a) ∧
    ¬ ∃ a, other.call (.pos v) = .ok a := by
  obtain ⟨s, _, hs, -⟩ := C68_transform (.gcf gcfKpc) (.gcf gcfKpc) ⟨rfl, rfl, rfl, rfl, rfl, rfl, rfl, rfl⟩
    ⟨rfl, rfl, rfl, rfl, rfl, rfl, rfl, rfl⟩ gcf_defined gcf_defined
  obtain ⟨o, _, ho, -⟩ := C68_transform (.gcf gcfKpc) (.gcf gcfPc) ⟨rfl, rfl, rfl, rfl, rfl, rfl, rfl, rfl⟩
    ⟨rfl, rfl, rfl, rfl, rfl, rfl, rfl, rfl⟩ gcf_defined (by
      show FrameDefined (.gcf (baseGcf gcfPc))
      rw [gcf_same]
      exact gcf_defined)
  exact ⟨s, o, hs, ho, (C68_position_alone _ _ s hs v).mpr rfl, fun h => gcf_stored ((C68_position_alone _ _ o ho v).mp h)⟩

end Verif
