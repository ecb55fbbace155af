import Verif.UnitOpSim

/-!
# C66: operators do not depend on the units of the components

Specification: operators and arguments *in base units* (lengths in AU, angles in radian, times in seconds), using `baseVal` and
`basePos` of C61.
-/

namespace Verif

open Num

namespace Spec

/-- times -/ def IsTime (q : UQ ℝ) : Prop := q.unit.dim = { time := 1 }

/-- the physical types that the fields of `FourVector` accept -/
def FourTyped (x : FourU) : Prop := IsTime x.t ∧ PosTyped x.q ∧ IsRate 1 x.c

/-- a 4-vector in base units -/
def baseFour (x : FourU) : Four := ⟨baseVal x.t, basePos x.q, baseVal x.c⟩

mutual
/-- the physical types that the fields of the operator classes accept -/
def OpTyped : OpU → Prop
  | .identity => True
  | .rotation _ => True
  | .spatial d => PosTyped d
  | .translation d => FourTyped d
  | .boost v => VelTyped 1 v
  | .vboost v => VelTyped 1 v
  | .galilean _ d v => FourTyped d ∧ VelTyped 1 v
  | .pipe ops => OpsTyped ops

/-- all operators of a list -/
def OpsTyped : List OpU → Prop
  | [] => True
  | op :: ops => OpTyped op ∧ OpsTyped ops
end

mutual
/-- an operator in base units -/
def baseOp : OpU → Op
  | .identity => .identity
  | .rotation R => .rotation R
  | .spatial d => .spatial (basePos d)
  | .translation d => .translation (baseFour d)
  | .boost v => .boost (v.map baseVal)
  | .vboost v => .vboost (v.map baseVal)
  | .galilean R d v => .galilean R (baseFour d) (v.map baseVal)
  | .pipe ops => .pipe (baseOps ops)

/-- all operators of a list -/
def baseOps : List OpU → List Op
  | [] => []
  | op :: ops => baseOp op :: baseOps ops
end

/-- arguments of the right physical types -/
def ArgTyped : ArgU → Prop
  | .pos q => PosTyped q
  | .posTime q t => PosTyped q ∧ IsTime t
  | .four x => FourTyped x
  | .posVel q p => PosTyped q ∧ VelTyped 1 p
  | .vel p => VelTyped 1 p

/-- arguments in base units -/
def baseArg : ArgU → Arg
  | .pos q => .pos (basePos q)
  | .posTime q t => .posTime (basePos q) (baseVal t)
  | .four x => .four (baseFour x)
  | .posVel q p => .posVel (basePos q) (p.map baseVal)
  | .vel p => .vel (p.map baseVal)

/-- the position among the arguments is three-dimensional -/
def In3D : ArgU → Prop
  | .pos q => q.kind.dim = 3
  | .posTime q _ => q.kind.dim = 3
  | .four x => x.q.kind.dim = 3
  | .posVel q _ => q.kind.dim = 3
  | .vel _ => True

/-- there is a velocity among the arguments -/
def HasVelocity : ArgU → Prop
  | .posVel _ _ => True
  | .vel _ => True
  | _ => False

mutual
/-- no `VelocityBoost` occurs in the operator -/
def NoVelocityBoost : OpU → Prop
  | .vboost _ => False
  | .pipe ops => NoVelocityBoosts ops
  | _ => True

/-- in none of the operators -/
def NoVelocityBoosts : List OpU → Prop
  | [] => True
  | op :: ops => NoVelocityBoost op ∧ NoVelocityBoosts ops
end

/-- the result has the right physical types, and is `b'` in base units -/
def DenotesArg (b : ArgU) (b' : Arg) : Prop := ArgTyped b ∧ baseArg b = b'

/-- the operator has the right physical types, and is `o'` in base units -/
def DenotesOp (o : OpU) (o' : Op) : Prop := OpTyped o ∧ baseOp o = o'

/-- the Cartesian velocity classes -/
def CartesianClass (k : VKind) : Prop := k = .cart1 ∨ k = .cart2 ∨ k = .cart3

/-- the units of the components of a velocity, in order -/
def velUnits (v : Vel (UQ ℝ)) : List RUnit := v.comps.map fun q => q.unit

end Spec

open Spec

theorem pos_rel {q : Pos (UQ ℝ)} (h : PosTyped q) : q.Rel (basePos q) := rel_of ⟨h, rfl⟩
theorem time_rel {t : UQ ℝ} (h : IsTime t) : t.Rel dT (baseVal t) := ⟨h, (base_eq t).symm⟩
theorem vel_map (v : Vel (UQ ℝ)) : v.map baseVal = v.map UQ.phys := by rw [base_fun]
theorem vel_of {v : Vel (UQ ℝ)} {v' : Vel ℝ} (h : Vel.RelF (perTime 1) v v') : VelTyped 1 v ∧ v.map baseVal = v' :=
  ⟨(velTyped_iff 1 v).mpr h.2, (vel_map v).trans h.1⟩
theorem lightSpeed_typed : IsRate 1 lightSpeedU := by
  simp [IsRate, lightSpeedU, RUnit.kms]
theorem lightSpeed_base : baseVal lightSpeedU = lightSpeed := by
  simp only [baseVal, lightSpeedU, RUnit.kms, lightSpeed]; norm_num

theorem isVel_base (a : ArgU) : (baseArg a).isVel = a.isVel := by cases a <;> rfl
theorem baseOps_length : ∀ ops, (baseOps ops).length = ops.length
  | [] => rfl
  | op :: ops => by simp only [baseOps, List.length_cons, baseOps_length ops]

/-! ### any arguments: whatever is returned is what base units give -/

theorem rotation_rel (R : Mat3) {a : ArgU} (ha : ArgTyped a) :
    RelRes (fun b b' => DenotesArg b b' ∧ (In3D a → In3D b) ∧ (HasVelocity b → HasVelocity a))
      (callRotationU R a) (callRotation R (baseArg a)) := by
  cases a with
  | pos q =>
    refine .bind (rot_rel R (pos_rel ha)) fun r r' hr => .ok ?_
    have := denotes_of hr.1
    exact ⟨⟨this.1, by rw [baseArg, this.2]⟩, fun h => by rw [In3D, hr.2]; exact h, id⟩
  | posTime q t =>
    refine .bind (rot_rel R (pos_rel ha.1)) fun r r' hr => .ok ?_
    have := denotes_of hr.1
    exact ⟨⟨⟨this.1, ha.2⟩, by rw [baseArg, this.2]⟩, fun h => by rw [In3D, hr.2]; exact h, id⟩
  | four x =>
    refine .bind (rot_rel R (pos_rel ha.2.1)) fun r r' hr => .ok ?_
    have := denotes_of hr.1
    exact ⟨⟨⟨ha.1, this.1, lightSpeed_typed⟩, by rw [baseArg, baseFour, this.2, lightSpeed_base]; rfl⟩,
      fun h => by show r.kind.dim = 3; rw [hr.2]; exact h, id⟩
  | posVel q p => exact .err _
  | vel p => exact .err _

theorem spatial_mirrors {d : Pos (UQ ℝ)} (hd : PosTyped d) {a : ArgU} (ha : ArgTyped a) :
    Mirrors DenotesArg (callSpatialU d a) (callSpatial (basePos d) (baseArg a)) := by
  cases a with
  | pos q =>
    refine .bind (addPos_sound (pos_rel ha) (pos_rel hd)) fun r r' hr => .ok ?_
    have := denotes_of hr
    exact ⟨this.1, by rw [baseArg, this.2]⟩
  | posTime q t =>
    refine .bind (addPos_sound (pos_rel ha.1) (pos_rel hd)) fun r r' hr => .ok ?_
    have := denotes_of hr
    exact ⟨⟨this.1, ha.2⟩, by rw [baseArg, this.2]⟩
  | four x =>
    refine .bind (addPos_sound (pos_rel ha.2.1) (pos_rel hd)) fun r r' hr => .ok ?_
    have := denotes_of hr
    exact ⟨⟨ha.1, this.1, ha.2.2⟩, by rw [baseArg, baseFour, this.2]; rfl⟩
  | posVel q p =>
    refine .bind (addPos_sound (pos_rel ha.1) (pos_rel hd)) fun r r' hr => ?_
    rw [vel_map]
    refine .bind (spatialVel_sound (pos_rel hd) (pos_rel ha.1) hr ((velTyped_iff 1 p).mp ha.2)) fun w w' hw => .ok ?_
    have := denotes_of hr
    have hw := vel_of hw
    exact ⟨⟨this.1, hw.1⟩, by rw [baseArg, this.2, hw.2]⟩
  | vel p => exact .err _

theorem translation_mirrors {d : FourU} (hd : FourTyped d) {a : ArgU} (ha : ArgTyped a) :
    Mirrors DenotesArg (callTranslationU d a) (callTranslation (baseFour d) (baseArg a)) := by
  cases a with
  | posTime q t =>
    show Mirrors _ (if q.kind.dim ≠ 3 then _ else _) (if (basePos q).kind.dim ≠ 3 then _ else _)
    rw [rel_kind (pos_rel ha.1)]
    split
    · exact .err _
    refine .bind (addPos_sound (pos_rel ha.1) (pos_rel hd.2.1)) fun r r' hr => ?_
    have := denotes_of hr
    obtain ⟨s, es, hs⟩ := add_rel (time_rel ha.2) (time_rel hd.1)
    rw [es]
    exact .ok ⟨⟨this.1, hs.1⟩, by rw [baseArg, this.2, base_eq, hs.2]; rfl⟩
  | four x =>
    refine .bind (R := fun y y' => FourTyped y ∧ baseFour y = y') ?_ fun y y' hy => .ok ⟨hy.1, by rw [baseArg, hy.2]⟩
    refine .bind (addPos_sound (pos_rel ha.2.1) (pos_rel hd.2.1)) fun r r' hr => ?_
    have := denotes_of hr
    obtain ⟨s, es, hs⟩ := add_rel (time_rel ha.1) (time_rel hd.1)
    rw [es]
    exact .ok ⟨⟨hs.1, this.1, ha.2.2⟩, by rw [baseFour, this.2, base_eq s, hs.2]; rfl⟩
  | pos q => exact .err _
  | posVel q p => exact .err _
  | vel p => exact .err _

theorem boost_mirrors {v : Vel (UQ ℝ)} (hv : VelTyped 1 v) {a : ArgU} (ha : ArgTyped a) :
    Mirrors DenotesArg (callBoostU v a) (callBoost (v.map baseVal) (baseArg a)) := by
  rw [vel_map]
  cases a with
  | posTime q t =>
    refine .bind (velTimes_rel ((velTyped_iff 1 v).mp hv) (time_rel ha.2)).sound fun s s' hs => ?_
    refine .bind (addPos_sound (pos_rel ha.1) hs) fun r r' hr => .ok ?_
    have := denotes_of hr
    exact ⟨⟨this.1, ha.2⟩, by rw [baseArg, this.2]⟩
  | four x =>
    refine .bind (velTimes_rel ((velTyped_iff 1 v).mp hv) (time_rel ha.1)).sound fun s s' hs => ?_
    refine .bind (addPos_sound (pos_rel ha.2.1) hs) fun r r' hr => .ok ?_
    have := denotes_of hr
    exact ⟨⟨ha.1, this.1, ha.2.2⟩, by rw [baseArg, baseFour, this.2]; rfl⟩
  | pos q => exact .err _
  | posVel q p => exact .err _
  | vel p => exact .err _

theorem vboost_mirrors {v : Vel (UQ ℝ)} {a : ArgU} (ha : ArgTyped a) :
    Mirrors DenotesArg (callVBoostU v a) (callVBoost (v.map baseVal) (baseArg a)) := by
  cases a with
  | vel p =>
    show Mirrors _ _ (do return Arg.vel (← addVel (p.map baseVal) (v.map baseVal)))
    rw [vel_map, vel_map]
    refine .bind (addVel_sound ((velTyped_iff 1 p).mp ha)) fun w w' hw => .ok ?_
    have hw := vel_of hw
    exact ⟨hw.1, by rw [baseArg, hw.2]⟩
  | posVel q p =>
    show Mirrors _ _ (do return Arg.posVel (basePos q) (← addVel (p.map baseVal) (v.map baseVal)))
    rw [vel_map, vel_map]
    refine .bind (addVel_sound ((velTyped_iff 1 p).mp ha.2)) fun w w' hw => .ok ?_
    have hw := vel_of hw
    exact ⟨⟨ha.1, hw.1⟩, by rw [baseArg, hw.2]⟩
  | pos q => exact .ok ⟨ha, rfl⟩
  | posTime q t => exact .ok ⟨ha, rfl⟩
  | four x => exact .ok ⟨ha, rfl⟩

mutual
theorem call_mirrors : ∀ (op : OpU) (a : ArgU), OpTyped op → ArgTyped a →
    Mirrors DenotesArg (op.call a) ((baseOp op).call (baseArg a))
  | .identity, a, _, ha => by simp only [OpU.call, baseOp, Op.call]; exact .ok ⟨ha, rfl⟩
  | .rotation R, a, _, ha => by
    simp only [OpU.call, baseOp, Op.call]; exact (rotation_rel R ha).sound.mono fun _ _ h => h.1
  | .spatial d, a, hd, ha => by simp only [OpU.call, baseOp, Op.call]; exact spatial_mirrors hd ha
  | .translation d, a, hd, ha => by simp only [OpU.call, baseOp, Op.call]; exact translation_mirrors hd ha
  | .boost v, a, hv, ha => by simp only [OpU.call, baseOp, Op.call]; exact boost_mirrors hv ha
  | .vboost v, a, _, ha => by simp only [OpU.call, baseOp, Op.call]; exact vboost_mirrors ha
  | .galilean R d v, a, h, ha => by
    simp only [OpU.call, baseOp, Op.call]
    refine .bind (rotation_rel R ha).sound fun b b' hb => ?_
    obtain ⟨⟨hb, rfl⟩, -⟩ := hb
    refine .bind (translation_mirrors h.1 hb) fun c c' hc => ?_
    obtain ⟨hc, rfl⟩ := hc
    exact boost_mirrors h.2 hc
  | .pipe ops, a, h, ha => by
    simp only [OpU.call, baseOp, Op.call, isVel_base, baseOps_length]
    split
    · exact .err _
    · exact callAll_mirrors ops a h ha

theorem callAll_mirrors : ∀ (ops : List OpU) (a : ArgU), OpsTyped ops → ArgTyped a →
    Mirrors DenotesArg (callAllU ops a) (callAll (baseOps ops) (baseArg a))
  | [], a, _, ha => by simp only [callAllU, baseOps, callAll]; exact .ok ⟨ha, rfl⟩
  | op :: ops, a, h, ha => by
    simp only [callAllU, baseOps, callAll]
    refine .bind (call_mirrors op a h.1 ha) fun b b' hb => ?_
    obtain ⟨hb, rfl⟩ := hb
    exact callAll_mirrors ops b h.2 hb
end


/-! ### three-dimensional positions: same outcome -/

/-- the relation carried through the operators -/
def Kept (a b : ArgU) (b' : Arg) : Prop := DenotesArg b b' ∧ In3D b ∧ (HasVelocity b → HasVelocity a)

theorem kept3 {q r : Pos (UQ ℝ)} (h3 : q.kind.dim = 3) (h : r.kind = q.kind) : r.kind.dim = 3 := by rw [h, h3]

theorem spatial_rel3 {d : Pos (UQ ℝ)} (hd : PosTyped d) {a : ArgU} (ha : ArgTyped a) (h3 : In3D a) :
    RelRes (Kept a) (callSpatialU d a) (callSpatial (basePos d) (baseArg a)) := by
  cases a with
  | pos q =>
    refine .bind (add3_rel (pos_rel ha) (pos_rel hd) h3) fun r r' hr => .ok ?_
    have := denotes_of hr.1
    exact ⟨⟨this.1, by rw [baseArg, this.2]⟩, kept3 h3 hr.2, id⟩
  | posTime q t =>
    refine .bind (add3_rel (pos_rel ha.1) (pos_rel hd) h3) fun r r' hr => .ok ?_
    have := denotes_of hr.1
    exact ⟨⟨⟨this.1, ha.2⟩, by rw [baseArg, this.2]⟩, kept3 h3 hr.2, id⟩
  | four x =>
    refine .bind (add3_rel (pos_rel ha.2.1) (pos_rel hd) h3) fun r r' hr => .ok ?_
    have := denotes_of hr.1
    exact ⟨⟨⟨ha.1, this.1, ha.2.2⟩, by rw [baseArg, baseFour, this.2]; rfl⟩, kept3 h3 hr.2, id⟩
  | posVel q p =>
    refine .bind (add3_rel (pos_rel ha.1) (pos_rel hd) h3) fun r r' hr => ?_
    rw [vel_map]
    refine .bind (spatialVel3_rel (pos_rel hd) (pos_rel ha.1) hr.1 ((velTyped_iff 1 p).mp ha.2) h3) fun w w' hw => .ok ?_
    have := denotes_of hr.1
    have hw := vel_of hw
    exact ⟨⟨⟨this.1, hw.1⟩, by rw [baseArg, this.2, hw.2]⟩, kept3 h3 hr.2, id⟩
  | vel p => exact .err _

theorem translation_rel3 {d : FourU} (hd : FourTyped d) {a : ArgU} (ha : ArgTyped a) (h3 : In3D a) :
    RelRes (Kept a) (callTranslationU d a) (callTranslation (baseFour d) (baseArg a)) := by
  cases a with
  | posTime q t =>
    show RelRes _ (if q.kind.dim ≠ 3 then _ else _) (if (basePos q).kind.dim ≠ 3 then _ else _)
    rw [rel_kind (pos_rel ha.1)]
    split
    · exact .err _
    refine .bind (add3_rel (pos_rel ha.1) (pos_rel hd.2.1) h3) fun r r' hr => ?_
    have := denotes_of hr.1
    obtain ⟨s, es, hs⟩ := add_rel (time_rel ha.2) (time_rel hd.1)
    rw [es]
    exact .ok ⟨⟨⟨this.1, hs.1⟩, by rw [baseArg, this.2, base_eq, hs.2]; rfl⟩, kept3 h3 hr.2, id⟩
  | four x =>
    refine .bind (R := fun y y' => (FourTyped y ∧ baseFour y = y') ∧ y.q.kind = x.q.kind) ?_ fun y y' hy =>
      .ok ⟨⟨hy.1.1, by rw [baseArg, hy.1.2]⟩, kept3 h3 hy.2, id⟩
    refine .bind (add3_rel (pos_rel ha.2.1) (pos_rel hd.2.1) h3) fun r r' hr => ?_
    have := denotes_of hr.1
    obtain ⟨s, es, hs⟩ := add_rel (time_rel ha.1) (time_rel hd.1)
    rw [es]
    exact .ok ⟨⟨⟨hs.1, this.1, ha.2.2⟩, by rw [baseFour, this.2, base_eq s, hs.2]; rfl⟩, hr.2⟩
  | pos q => exact .err _
  | posVel q p => exact .err _
  | vel p => exact .err _

theorem boost_rel3 {v : Vel (UQ ℝ)} (hv : VelTyped 1 v) {a : ArgU} (ha : ArgTyped a) (h3 : In3D a) :
    RelRes (Kept a) (callBoostU v a) (callBoost (v.map baseVal) (baseArg a)) := by
  rw [vel_map]
  cases a with
  | posTime q t =>
    refine .bind (velTimes_rel ((velTyped_iff 1 v).mp hv) (time_rel ha.2)) fun s s' hs => ?_
    refine .bind (add3_rel (pos_rel ha.1) hs h3) fun r r' hr => .ok ?_
    have := denotes_of hr.1
    exact ⟨⟨⟨this.1, ha.2⟩, by rw [baseArg, this.2]⟩, kept3 h3 hr.2, id⟩
  | four x =>
    refine .bind (velTimes_rel ((velTyped_iff 1 v).mp hv) (time_rel ha.1)) fun s s' hs => ?_
    refine .bind (add3_rel (pos_rel ha.2.1) hs h3) fun r r' hr => .ok ?_
    have := denotes_of hr.1
    exact ⟨⟨⟨ha.1, this.1, ha.2.2⟩, by rw [baseArg, baseFour, this.2]; rfl⟩, kept3 h3 hr.2, id⟩
  | pos q => exact .err _
  | posVel q p => exact .err _
  | vel p => exact .err _

theorem Kept.trans {a b c : ArgU} {b' c' : Arg} (h : Kept a b b') (h' : Kept b c c') : Kept a c c' :=
  ⟨h'.1, h'.2.1, fun hc => h.2.2 (h'.2.2 hc)⟩

mutual
theorem call_rel3 : ∀ (op : OpU) (a : ArgU), OpTyped op → ArgTyped a → In3D a → (NoVelocityBoost op ∨ ¬HasVelocity a) →
    RelRes (Kept a) (op.call a) ((baseOp op).call (baseArg a))
  | .identity, a, _, ha, h3, _ => by simp only [OpU.call, baseOp, Op.call]; exact .ok ⟨⟨ha, rfl⟩, h3, id⟩
  | .rotation R, a, _, ha, h3, _ => by
    simp only [OpU.call, baseOp, Op.call]; exact (rotation_rel R ha).mono fun _ _ h => ⟨h.1, h.2.1 h3, h.2.2⟩
  | .spatial d, a, hd, ha, h3, _ => by simp only [OpU.call, baseOp, Op.call]; exact spatial_rel3 hd ha h3
  | .translation d, a, hd, ha, h3, _ => by simp only [OpU.call, baseOp, Op.call]; exact translation_rel3 hd ha h3
  | .boost v, a, hv, ha, h3, _ => by simp only [OpU.call, baseOp, Op.call]; exact boost_rel3 hv ha h3
  | .vboost v, a, _, ha, h3, hb => by
    have hn : ¬HasVelocity a := hb.resolve_left fun h => by simp only [NoVelocityBoost] at h
    simp only [OpU.call, baseOp, Op.call]
    cases a with
    | vel p => exact absurd trivial hn
    | posVel q p => exact absurd trivial hn
    | pos q => exact .ok ⟨⟨ha, rfl⟩, h3, id⟩
    | posTime q t => exact .ok ⟨⟨ha, rfl⟩, h3, id⟩
    | four x => exact .ok ⟨⟨ha, rfl⟩, h3, id⟩
  | .galilean R d v, a, h, ha, h3, _ => by
    simp only [OpU.call, baseOp, Op.call]
    refine .bind ((rotation_rel R ha).mono (S := Kept a) fun _ _ h => ⟨h.1, h.2.1 h3, h.2.2⟩) fun b b' hb => ?_
    obtain ⟨⟨hbt, rfl⟩, hb3, hbv⟩ := hb
    refine .bind (translation_rel3 h.1 hbt hb3) fun c c' hc => ?_
    obtain ⟨⟨hct, rfl⟩, hc3, hcv⟩ := hc
    exact (boost_rel3 h.2 hct hc3).mono fun _ _ hd => ⟨hd.1, hd.2.1, fun x => hbv (hcv (hd.2.2 x))⟩
  | .pipe ops, a, h, ha, h3, hb => by
    simp only [OpU.call, baseOp, Op.call, isVel_base, baseOps_length]
    split
    · exact .err _
    · exact callAll_rel3 ops a h ha h3 (hb.imp_left fun h => by simpa only [NoVelocityBoost] using h)

theorem callAll_rel3 : ∀ (ops : List OpU) (a : ArgU), OpsTyped ops → ArgTyped a → In3D a →
    (NoVelocityBoosts ops ∨ ¬HasVelocity a) → RelRes (Kept a) (callAllU ops a) (callAll (baseOps ops) (baseArg a))
  | [], a, _, ha, h3, _ => by simp only [callAllU, baseOps, callAll]; exact .ok ⟨⟨ha, rfl⟩, h3, id⟩
  | op :: ops, a, h, ha, h3, hb => by
    simp only [callAllU, baseOps, callAll]
    refine .bind (call_rel3 op a h.1 ha h3 (hb.imp_left fun h => by
      simp only [NoVelocityBoosts] at h; exact h.1)) fun b b' hb' => ?_
    obtain ⟨⟨hbt, rfl⟩, hb3, hbv⟩ := hb'
    refine (callAll_rel3 ops b h.2 hbt hb3 ?_).mono fun _ _ hd => ⟨hd.1, hd.2.1, fun x => hbv (hd.2.2 x)⟩
    exact hb.imp (fun h => by simp only [NoVelocityBoosts] at h; exact h.2) fun h x => h (hbv x)
end

/-! ### inverses -/

theorem negPos_denotes {d : Pos (UQ ℝ)} (hd : PosTyped d) : RelRes Denotes (negPosU d) (negPos (basePos d)) := by
  rw [basePos_eq]
  exact (negPos_rel ((posTyped_iff d).mp hd)).mono fun _ _ h => denotes_of h

theorem negFour_rel {d : FourU} (hd : FourTyped d) :
    RelRes (fun y y' => FourTyped y ∧ baseFour y = y') d.neg (baseFour d).neg := by
  refine .bind (negPos_denotes hd.2.1) fun r r' hr => .ok ?_
  have hn := neg_rel (time_rel hd.1)
  exact ⟨⟨hn.1, hr.1, hd.2.2⟩, by simp only [baseFour, hr.2, base_eq d.t.neg, hn.2]⟩

theorem negVel_base {v : Vel (UQ ℝ)} (hv : VelTyped 1 v) :
    VelTyped 1 (negVelU v) ∧ (negVelU v).map baseVal = negVel (v.map baseVal) := by
  rw [vel_map v]
  exact vel_of (negVel_rel ((velTyped_iff 1 v).mp hv))

theorem opsTyped_append : ∀ a b, OpsTyped (a ++ b) ↔ OpsTyped a ∧ OpsTyped b
  | [], b => by simp only [List.nil_append, OpsTyped, true_and]
  | o :: a, b => by simp only [List.cons_append, OpsTyped, opsTyped_append a b, and_assoc]

theorem baseOps_append : ∀ a b, baseOps (a ++ b) = baseOps a ++ baseOps b
  | [], b => by simp only [List.nil_append, baseOps]
  | o :: a, b => by simp only [List.cons_append, baseOps, baseOps_append a b]

mutual
theorem inverse_rel : ∀ (op : OpU), OpTyped op → RelRes DenotesOp op.inverse (baseOp op).inverse
  | .identity, _ => by simp only [OpU.inverse, baseOp, Op.inverse]; exact .ok ⟨by simp only [OpTyped], by simp only [baseOp]⟩
  | .rotation R, _ => by
    simp only [OpU.inverse, baseOp, Op.inverse]; exact .ok ⟨by simp only [OpTyped], by simp only [baseOp]⟩
  | .spatial d, hd => by
    simp only [OpU.inverse, baseOp, Op.inverse]
    exact .bind (negPos_denotes hd) fun r r' hr => .ok ⟨hr.1, by simp only [baseOp, hr.2]⟩
  | .translation d, hd => by
    simp only [OpU.inverse, baseOp, Op.inverse]
    exact .bind (negFour_rel hd) fun r r' hr => .ok ⟨hr.1, by simp only [baseOp, hr.2]⟩
  | .boost v, hv => by
    have h := negVel_base hv
    simp only [OpU.inverse, baseOp, Op.inverse]
    exact .ok ⟨h.1, by simp only [baseOp, h.2]⟩
  | .vboost v, hv => by
    have h := negVel_base hv
    simp only [OpU.inverse, baseOp, Op.inverse]
    exact .ok ⟨h.1, by simp only [baseOp, h.2]⟩
  | .galilean R d v, hg => by
    have h := negVel_base hg.2
    simp only [OpU.inverse, baseOp, Op.inverse]
    refine .bind (negFour_rel hg.1) fun r r' hr => .ok ⟨?_, ?_⟩
    · simp only [OpTyped, OpsTyped, and_true]; exact ⟨h.1, hr.1⟩
    · simp only [baseOp, baseOps, h.2, hr.2]
  | .pipe ops, h => by
    simp only [OpU.inverse, baseOp, Op.inverse]
    exact .bind (inverseAll_rel ops h) fun r r' hr => .ok ⟨hr.1, by simp only [baseOp, hr.2]⟩

theorem inverseAll_rel : ∀ (ops : List OpU), OpsTyped ops →
    RelRes (fun o o' => OpsTyped o ∧ baseOps o = o') (inverseAllU ops) (inverseAll (baseOps ops))
  | [], _ => by simp only [inverseAllU, baseOps, inverseAll]; exact .ok ⟨by simp only [OpsTyped], by simp only [baseOps]⟩
  | op :: ops, h => by
    simp only [inverseAllU, baseOps, inverseAll]
    refine .bind (inverseAll_rel ops h.2) fun r r' hr => .bind (inverse_rel op h.1) fun o o' ho => .ok ⟨?_, ?_⟩
    · rw [opsTyped_append]; simp only [OpsTyped, and_true]; exact ⟨hr.1, ho.1⟩
    · rw [baseOps_append, hr.2]; simp only [baseOps, ho.2]
end

/-! ### the property -/

/-- **C66**: whatever an operator returns, in any units, is what it returns in base units. -/
theorem C66_returns_base (op : OpU) (a b : ArgU) (ho : OpTyped op) (ha : ArgTyped a) (h : op.call a = .ok b) :
    ArgTyped b ∧ (baseOp op).call (baseArg a) = .ok (baseArg b) := by
  obtain ⟨b', e, hb, rfl⟩ := call_mirrors op a ho ha b h
  exact ⟨hb, e⟩

/-- **C66**: with a three-dimensional position and no sum of velocities, an operator behaves as in base units: it returns
the same or raises the same error. -/
theorem C66_three_dimensions (op : OpU) (a : ArgU) (ho : OpTyped op) (ha : ArgTyped a) (h3 : In3D a)
    (hv : NoVelocityBoost op ∨ ¬HasVelocity a) :
    SameOutcome DenotesArg (op.call a) ((baseOp op).call (baseArg a)) :=
  (call_rel3 op a ho ha h3 hv).outcome fun _ _ h => h.1

/-- **C66**: the units are irrelevant: operators and arguments that agree in base units give results that agree in base
units. -/
theorem C66_units_irrelevant (op op' : OpU) (a a' b b' : ArgU) (ho : OpTyped op) (ho' : OpTyped op') (ha : ArgTyped a)
    (ha' : ArgTyped a') (eo : baseOp op = baseOp op') (ea : baseArg a = baseArg a') (h : op.call a = .ok b)
    (h' : op'.call a' = .ok b') : baseArg b = baseArg b' := by
  have h1 := (C66_returns_base op a b ho ha h).2
  have h2 := (C66_returns_base op' a' b' ho' ha' h').2
  rw [eo, ea, h2] at h1
  exact (Except.ok.inj h1).symm

/-- **C66**: the inverse, for every operator -/
theorem C66_inverse (op : OpU) (ho : OpTyped op) : SameOutcome DenotesOp op.inverse (baseOp op).inverse :=
  (inverse_rel op ho).outcome fun _ _ h => h


theorem leafOp_ok_iff {f : ℝ → ℝ → ℝ} {a b : UQ ℝ} : (∃ r, leafOp f a b = .ok r) ↔ a.unit = b.unit := by
  unfold leafOp
  split <;> rename_i h
  · exact ⟨fun _ => h, fun _ => ⟨_, rfl⟩⟩
  · exact ⟨fun ⟨r, e⟩ => (by cases e), fun e => absurd e h⟩

theorem addVelU_iff (p v : Vel (UQ ℝ)) :
    (∃ r, addVelU p v = .ok r) ↔ p.kind = v.kind ∧ CartesianClass p.kind ∧ velUnits p = velUnits v := by
  constructor
  · rintro ⟨r, h⟩
    cases p with
    | cart1 a =>
      cases v <;> first | (cases h; done) | skip
      obtain ⟨a', ha, _⟩ := (bind_ok_iff _ _ _).mp h
      exact ⟨rfl, .inl rfl, congrArg (fun u => [u]) (leafOp_ok_iff.mp ⟨_, ha⟩)⟩
    | cart2 a b =>
      cases v <;> first | (cases h; done) | skip
      obtain ⟨a', ha, h⟩ := (bind_ok_iff _ _ _).mp h
      obtain ⟨b', hb, h⟩ := (bind_ok_iff _ _ _).mp h
      refine ⟨rfl, .inr (.inl rfl), ?_⟩
      simp only [velUnits, Vel.comps, List.map, leafOp_ok_iff.mp ⟨_, ha⟩, leafOp_ok_iff.mp ⟨_, hb⟩]
    | cart3 a b c =>
      cases v <;> first | (cases h; done) | skip
      obtain ⟨a', ha, h⟩ := (bind_ok_iff _ _ _).mp h
      obtain ⟨b', hb, h⟩ := (bind_ok_iff _ _ _).mp h
      obtain ⟨c', hc, h⟩ := (bind_ok_iff _ _ _).mp h
      refine ⟨rfl, .inr (.inr rfl), ?_⟩
      simp only [velUnits, Vel.comps, List.map, leafOp_ok_iff.mp ⟨_, ha⟩, leafOp_ok_iff.mp ⟨_, hb⟩,
        leafOp_ok_iff.mp ⟨_, hc⟩]
    | _ => cases h
  · rintro ⟨hk, hc, hu⟩
    rcases hc with hc | hc | hc
    · cases p <;> first | (cases hc; done) | skip
      cases v <;> first | (cases hk; done) | skip
      simp only [velUnits, Vel.comps, List.map, List.cons.injEq, and_true] at hu
      obtain ⟨r, hr⟩ := leafOp_ok_iff (f := (· + ·)).mpr hu
      exact ⟨_, by simp only [addVelU, hr, ok_bind]; rfl⟩
    · cases p <;> first | (cases hc; done) | skip
      cases v <;> first | (cases hk; done) | skip
      simp only [velUnits, Vel.comps, List.map, List.cons.injEq, and_true] at hu
      obtain ⟨r, hr⟩ := leafOp_ok_iff (f := (· + ·)).mpr hu.1
      obtain ⟨s, hs⟩ := leafOp_ok_iff (f := (· + ·)).mpr hu.2
      exact ⟨_, by simp only [addVelU, hr, hs, ok_bind]; rfl⟩
    · cases p <;> first | (cases hc; done) | skip
      cases v <;> first | (cases hk; done) | skip
      simp only [velUnits, Vel.comps, List.map, List.cons.injEq, and_true] at hu
      obtain ⟨r, hr⟩ := leafOp_ok_iff (f := (· + ·)).mpr hu.1
      obtain ⟨s, hs⟩ := leafOp_ok_iff (f := (· + ·)).mpr hu.2.1
      obtain ⟨t, ht⟩ := leafOp_ok_iff (f := (· + ·)).mpr hu.2.2
      exact ⟨_, by simp only [addVelU, hr, hs, ht, ok_bind]; rfl⟩

/-- **C66**: the excluded case. A velocity boost of a velocity returns exactly when both are of the same Cartesian class
*and stored in the same units*; in base units the same class suffices. -/
theorem C66_velocity_boost_iff (v p : Vel (UQ ℝ)) (q : Pos (UQ ℝ)) :
    ((∃ b, (OpU.vboost v).call (.vel p) = .ok b) ↔ p.kind = v.kind ∧ CartesianClass p.kind ∧ velUnits p = velUnits v) ∧
    ((∃ b, (OpU.vboost v).call (.posVel q p) = .ok b) ↔
      p.kind = v.kind ∧ CartesianClass p.kind ∧ velUnits p = velUnits v) ∧
    ((∃ b, (baseOp (.vboost v)).call (baseArg (.posVel q p)) = .ok b) ↔ p.kind = v.kind ∧ CartesianClass p.kind) := by
  refine ⟨?_, ?_, ?_⟩
  · rw [← addVelU_iff]
    simp only [OpU.call, callVBoostU]
    constructor
    · rintro ⟨b, h⟩
      obtain ⟨r, hr, _⟩ := (bind_ok_iff _ _ _).mp h
      exact ⟨r, hr⟩
    · rintro ⟨r, hr⟩
      exact ⟨_, by rw [hr]; rfl⟩
  · rw [← addVelU_iff]
    simp only [OpU.call, callVBoostU]
    constructor
    · rintro ⟨b, h⟩
      obtain ⟨r, hr, _⟩ := (bind_ok_iff _ _ _).mp h
      exact ⟨r, hr⟩
    · rintro ⟨r, hr⟩
      exact ⟨_, by rw [hr]; rfl⟩
  · simp only [baseOp, baseArg, Op.call, callVBoost]
    constructor
    · rintro ⟨b, h⟩
      obtain ⟨r, hr, _⟩ := (bind_ok_iff _ _ _).mp h
      cases p <;> cases v <;> first
        | (cases hr; done)
        | exact ⟨rfl, .inl rfl⟩
        | exact ⟨rfl, .inr (.inl rfl)⟩
        | exact ⟨rfl, .inr (.inr rfl)⟩
    · rintro ⟨hk, hc⟩
      rcases hc with hc | hc | hc <;> cases p <;> first | (cases hc; done) | skip
      all_goals
        cases v <;> first | (cases hk; done) | exact ⟨_, rfl⟩

/-- **C66**: in one and two dimensions a spatial translation returns only for operands whose Cartesian components come in the
same units; then it behaves as in base units. -/
theorem C66_low_dimension (d q : Pos (UQ ℝ)) (hd : PosTyped d) (hq : PosTyped q) (he : q.kind.dim = d.kind.dim)
    (h3 : q.kind.dim ≠ 3) :
    (cartesianUnits q = cartesianUnits d →
      SameOutcome DenotesArg ((OpU.spatial d).call (.pos q)) ((baseOp (.spatial d)).call (baseArg (.pos q)))) ∧
    (cartesianUnits q ≠ cartesianUnits d → ∀ a b, representAs {} (basePos q) q.kind.cartesian = .ok a →
      representAs {} (basePos d) d.kind.cartesian = .ok b → (OpU.spatial d).call (.pos q) = .error .mismatch) := by
  have h := C62_addition_low_dimension q d hq hd he h3
  simp only [OpU.call, baseOp, baseArg, Op.call, callSpatialU, callSpatial]
  refine ⟨fun hu => ?_, fun hu a b ha hb => by rw [h.2 hu a b ha hb]; rfl⟩
  have := h.1 hu
  generalize addPosU q d = X at this ⊢
  generalize addPos (basePos q) (basePos d) = Y at this ⊢
  cases this with
  | returns hr => exact .returns ⟨hr.1, by simp only [baseArg, hr.2]⟩
  | raises e => exact .raises e

/-! ### concrete cases -/

/-- a Pipe of a rotation, a translation by kiloparsecs and a boost, applied to a position in parsecs at a time in seconds -/
noncomputable def demoPipe : OpU := .pipe [.rotation 1, .spatial (.cart3 ⟨1, kpc⟩ ⟨0, .pc⟩ ⟨0, .au⟩),
  .boost (.cart3 ⟨1, .kms⟩ ⟨2, .kms⟩ ⟨3, .kms⟩)]

/-- a unit of time -/
noncomputable def secondU : RUnit := ⟨{ time := 1 }, 1, by norm_num⟩

theorem demoPipe_typed : OpTyped demoPipe := by
  simp only [demoPipe, OpTyped, OpsTyped, PosTyped, VelTyped, IsLength, IsRate, true_and, and_true]
  refine ⟨⟨rfl, rfl, rfl⟩, ?_⟩
  simp [RUnit.kms]

/-- the hypotheses of `C66_three_dimensions` hold -/
example : OpTyped demoPipe ∧ ArgTyped (.posTime (.cart3 ⟨1, .pc⟩ ⟨2, .pc⟩ ⟨3, kpc⟩) ⟨4, secondU⟩) ∧
    In3D (.posTime (.cart3 ⟨1, .pc⟩ ⟨2, .pc⟩ ⟨3, kpc⟩) ⟨4, secondU⟩) ∧ NoVelocityBoost demoPipe := by
  refine ⟨demoPipe_typed, ⟨⟨rfl, rfl, rfl⟩, rfl⟩, rfl, ?_⟩
  simp only [demoPipe, NoVelocityBoost, NoVelocityBoosts, and_self]

/-- and it returns (so `C66_returns_base` is not vacuous) -/
example : ∃ b, demoPipe.call (.posTime (.cart3 ⟨1, .pc⟩ ⟨2, .pc⟩ ⟨3, kpc⟩) ⟨4, secondU⟩) = .ok b := by
  have h := C66_three_dimensions demoPipe (.posTime (.cart3 ⟨1, .pc⟩ ⟨2, .pc⟩ ⟨3, kpc⟩) ⟨4, secondU⟩) demoPipe_typed
    ⟨⟨rfl, rfl, rfl⟩, rfl⟩ rfl (.inr nofun)
  have e : ∃ b, (baseOp demoPipe).call (baseArg (.posTime (.cart3 ⟨1, .pc⟩ ⟨2, .pc⟩ ⟨3, kpc⟩) ⟨4, secondU⟩)) = .ok b := by
    simp only [demoPipe, baseOp, baseOps, baseArg, basePos, Op.call, callAll]
    exact ⟨_, rfl⟩
  obtain ⟨b, e⟩ := e
  rw [e] at h
  generalize demoPipe.call _ = X at h ⊢
  cases h with
  | returns _ => exact ⟨_, rfl⟩

/-- km/s plus AU/s raises -/
example : ¬∃ b, (OpU.vboost (.cart1 ⟨1, .kms⟩)).call (.vel (.cart1 ⟨1, ⟨{ len := 1, time := -1 }, 1, by norm_num⟩⟩)) = .ok b := by
  rw [(C66_velocity_boost_iff _ _ (.cart1 ⟨1, .au⟩)).1]
  rintro ⟨_, _, h⟩
  have := congrArg RUnit.scale (List.cons.inj h).1
  simp only [RUnit.kms] at this
  norm_num at this

end Verif
