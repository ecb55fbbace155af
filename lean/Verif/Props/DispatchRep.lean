import Verif.Props.Dispatch

/-!
# Dispatch of `represent_as` over the registered rules
-/

namespace Verif

variable {ρ : Type}

theorem lonCosLatToLonLat_kind {a b c : ℝ} {p : Pos ℝ} {w : Vel ℝ} (h : lonCosLatToLonLat a b c p = .ok w) :
    ∃ x y z, w = .lonlat x y z := by
  unfold lonCosLatToLonLat at h
  simp only [bind_ok_iff] at h
  obtain ⟨pv, -, l, -, q, -, h⟩ := h
  injection h with h
  exact ⟨_, _, _, h.symm⟩

/-- **C74**: the conversion of velocities is dispatch over the table. The rules for `LonCosLatSphericalVel` call
`represent_as` again, which dispatches again. -/
theorem C74_velocities (kw : Kw ℝ) (v : Vel ℝ) (k : VKind) (p : Pos ℝ) :
    representVel kw v k p =
      (resolve repTable [.inst (.lib v.kind.cls), .klass (.lib k.cls), .inst (.lib p.kind.cls)]).run
        (fun r => r.runVel (fun v k => representVel {} v k p) kw v k p) := by
  rw [velRule_eq]
  cases v <;> cases k <;> simp [representVel, velRule, Lookup.run, Rule.runVel, Vel.kind, VKind.dim, VKind.integral,
    Kind.dim, VKind.selfRule, toLonCosLat, toLonLat]
  all_goals first
    | (rename_i a b c
       cases hL : lonCosLatToLonLat a b c p with
       | error e => simp_all
       | ok w =>
         obtain ⟨x, y, z, rfl⟩ := lonCosLatToLonLat_kind hL
         rfl)
    | (rename_i a b c
       first
         | (cases hG : representVelGeneric {} (Vel.cart3 a b c) VKind.lonlat p with
            | error e => rfl
            | ok w => cases w <;> rfl))

/-- The rule for each pair of acceleration classes, with velocity and position -/
def accRule (a b : VKind) : Lookup Rule :=
  if a.dim ≠ b.dim then .notFound else if a = b ∧ a.dim = 1 then .found .a84 else .found .acc

theorem accRule_eq (a b : VKind) (ca cb : Base) (ha : a.accCls = some ca) (hb : b.accCls = some cb) (v : VKind) (k : Kind) :
    resolve repTable [.inst (.lib ca), .klass (.lib cb), .inst (.lib v.cls), .inst (.lib k.cls)] = accRule a b := by
  rw [acc_third, repTable_eq]
  have h : ∀ a ∈ allVKinds, ∀ b ∈ allVKinds, (match a.accCls, b.accCls with
    | some ca, some cb =>
      decide (resolve repList [.inst (.lib ca), .klass (.lib cb), .inst (.lib .vel), .inst (.lib .pos)] = accRule a b)
    | _, _ => true) = true := by decide +kernel
  have := h a (mem_allVKinds a) b (mem_allVKinds b)
  rw [ha, hb] at this
  exact of_decide_eq_true this

/-- **C74**: the conversion of accelerations is dispatch over the table. -/
theorem C74_accelerations (kw : Kw ℝ) (a : Acc ℝ) (k : VKind) (ca ck : Base) (ha : a.kind.accCls = some ca)
    (hk : k.accCls = some ck) (v : Vel ℝ) (p : Pos ℝ) :
    representAcc kw a k v p =
      (resolve repTable [.inst (.lib ca), .klass (.lib ck), .inst (.lib v.kind.cls), .inst (.lib p.kind.cls)]).run
        (fun r => r.runAcc kw a k v p) := by
  rw [accRule_eq a.kind k ca ck ha hk]
  have h1 : a.kind ≠ .lonCosLat := fun e => by rw [e] at ha; cases ha
  have h2 : k ≠ .lonCosLat := fun e => by rw [e] at hk; cases hk
  unfold representAcc accRule
  by_cases hd : a.kind.dim = k.dim
  · by_cases he : a.kind = k
    · subst he
      by_cases h1d : a.kind.dim = 1 <;> simp [h1, h1d, Lookup.run, Rule.runAcc]
    · simp [h1, h2, hd, he, Lookup.run, Rule.runAcc]
  · simp [hd, Lookup.run]

/-! ### No call is ambiguous, with one exception -/

/-- all classes of `coordinax` that occur in signatures -/
def basesP : List Base :=
  [.vector, .pos, .vel, .acc, .pos1, .cartPos1, .radialPos, .pos2, .cartPos2, .polarPos, .twoSpherePos, .pos3]
def basesQ : List Base :=
  [.cartPos3, .cylPos, .sphericalPos, .sphPos, .lonlatPos, .mathPos, .prolatePos, .pos4, .fourVector, .posN, .cartPosN,
   .poincare]
def basesV : List Base :=
  [.vel1, .cartVel1, .radialVel, .vel2, .cartVel2, .polarVel, .twoSphereVel, .vel3, .cartVel3, .cylVel, .sphericalVel,
   .sphVel, .lonlatVel, .lonCosLatVel, .mathVel, .prolateVel, .velN, .cartVelN]
def basesA : List Base :=
  [.acc1, .cartAcc1, .radialAcc, .acc2, .cartAcc2, .polarAcc, .twoSphereAcc, .acc3, .cartAcc3, .cylAcc, .sphericalAcc, .sphAcc,
   .lonlatAcc, .mathAcc, .prolateAcc, .accN, .cartAccN, .generic3, .space, .qLength, .qSpeed, .qAngle, .frame, .noFrame, .icrs,
   .galactocentric]
def basesO : List Base :=
  [.operator, .galOp, .compOp, .identityOp, .rotationOp, .spatialOp, .translationOp, .boostOp, .vboostOp, .galileanOp, .pipeOp,
   .hint1, .hint2, .hint3, .hint3r, .hint4, .qTime, .scalarTime, .batchTime, .len1, .len2, .len3, .len4, .time0]
def basesC : List Base :=
  [.absQ, .uQ, .qAcc, .sh2, .sh3, .sh4, .lenX, .spd2, .spd3, .spd4, .spdX, .acc2q, .acc3q, .acc4q,
   .accXq, .dim2, .dim3, .dim4, .dimX, .dist2, .dist3, .distX, .mapQ, .mapApy, .mapEmpty, .arrayLike, .unitLike, .otherObj,
   .apyQ, .apyRep, .apyCart, .apyCyl, .apyPhys, .apySph, .apyDiff, .apyDCart, .apyDCyl, .apyDPhys, .apyDSph, .apyDCos,
   .mapAny, .strObj, .rotObj, .opSeq, .apyIcrs, .apyGcf]
def allBases : List Base := basesP ++ basesQ ++ basesV ++ basesA ++ basesO ++ basesC

theorem mem_allBases (b : Base) : b ∈ allBases := by cases b <;> decide

/-- does the first parameter accept the first argument -/
def headOk (a : Atom) (m : Method ρ) : Bool :=
  match m.sig.types with
  | h :: _ => hintLe [a] h
  | [] => true

theorem headOk_of_matches (a : Atom) (l : List Atom) (m : Method ρ) (h : m.sig.matches (a :: l) = true) :
    headOk a m = true := by
  unfold headOk
  cases ht : m.sig.types with
  | nil => rfl
  | cons x xs =>
    unfold Sig.matches Sig.expand at h
    cases hv : m.sig.varargs <;> simp [hv, ht, zipLe] at h <;> exact h.2.1

theorem resolve_head (ms : List (Method ρ)) (a : Atom) (l : List Atom) :
    resolve ms (a :: l) = resolve (ms.filter (headOk a)) (a :: l) := by
  unfold resolve candidates
  congr 2
  rw [List.filter_filter]
  refine List.filter_congr fun m _ => ?_
  cases hm : m.sig.matches (a :: l) with
  | false => rfl
  | true => simp [headOk_of_matches a l m hm]

def clear2 (as : List Base) : Prop := ∀ a ∈ as, ∀ b ∈ allBases,
  resolve (repList.filter (headOk (.inst (.lib a)))) [.inst (.lib a), .klass (.lib b)] ≠ .ambiguous

instance (as : List Base) : Decidable (clear2 as) := by unfold clear2; infer_instance

theorem clearP : clear2 basesP := by decide +kernel
theorem clearQ : clear2 basesQ := by decide +kernel
theorem clearV : clear2 basesV := by decide +kernel
theorem clearA : clear2 basesA := by decide +kernel
theorem clearO : clear2 basesO := by decide +kernel
theorem clearC : clear2 basesC := by decide +kernel

theorem unamb2 (a b : Base) : resolve repList [.inst (.lib a), .klass (.lib b)] ≠ .ambiguous := by
  rw [resolve_head]
  have h := mem_allBases a
  unfold allBases at h
  simp only [List.mem_append] at h
  rcases h with ((((h | h) | h) | h) | h) | h
  · exact clearP a h b (mem_allBases b)
  · exact clearQ a h b (mem_allBases b)
  · exact clearV a h b (mem_allBases b)
  · exact clearA a h b (mem_allBases b)
  · exact clearO a h b (mem_allBases b)
  · exact clearC a h b (mem_allBases b)

/-- **C74**: a call `represent_as(current, target)` is never ambiguous, whatever the classes, those of users included. -/
theorem C74_unambiguous (a b : Cls) : resolve repTable [.inst a, .klass b] ≠ .ambiguous := by
  rw [C74_subclass, repTable_eq]
  exact unamb2 a.root b.root

theorem unamb3 : ∀ a ∈ allVKinds, ∀ b ∈ allBases,
    resolve (repList.filter (headOk (.inst (.lib a.cls)))) [.inst (.lib a.cls), .klass (.lib b), .inst (.lib .pos)] ≠
      .ambiguous := by
  decide +kernel

/-- **C74**: a call `represent_as(velocity, target, position)` on vectors is never ambiguous, subclasses included. -/
theorem C74_unambiguous_velocity (a b c : Cls) (v : VKind) (k : Kind) (ha : a.root = v.cls) (hc : c.root = k.cls) :
    resolve repTable [.inst a, .klass b, .inst c] ≠ .ambiguous := by
  rw [C74_subclass]
  simp only [List.map_cons, List.map_nil, Atom.root, ha, hc]
  rw [vel_third, repTable_eq]
  rw [resolve_head]
  exact unamb3 v (mem_allVKinds v) b.root (mem_allBases _)

/-- the rule for each pair of velocity classes when the position is a `Quantity["length"]` -/
def velRuleQ (a b : VKind) : Lookup Rule :=
  if a.dim ≠ b.dim then .notFound
  else if a = .lonCosLat then (if b = .lonlat then .found .c885 else if b = .lonCosLat then .ambiguous else .found .c913)
  else if b = .lonCosLat then .found .c829
  else .found .vel

theorem velRuleQ_eq (a b : VKind) :
    resolve repTable [.inst (.lib a.cls), .klass (.lib b.cls), .inst (.lib .qLength)] = velRuleQ a b := by
  rw [repTable_eq]
  have h : ∀ a ∈ allVKinds, ∀ b ∈ allVKinds,
      resolve repList [.inst (.lib a.cls), .klass (.lib b.cls), .inst (.lib .qLength)] = velRuleQ a b := by decide +kernel
  exact h a (mem_allVKinds a) b (mem_allVKinds b)

/-- **C74**: with a `Quantity["length"]` as the position, exactly one conversion is ambiguous: that of a
`LonCosLatSphericalVel` to its own class. -/
theorem C74_ambiguous (a b : VKind) :
    resolve repTable [.inst (.lib a.cls), .klass (.lib b.cls), .inst (.lib .qLength)] = .ambiguous ↔
      a = .lonCosLat ∧ b = .lonCosLat := by
  rw [velRuleQ_eq]
  cases a <;> cases b <;> decide

/-- **C74**: conversions between different velocity classes run the same rule whether the position is a vector or a
`Quantity["length"]`. -/
theorem C74_position_argument (a b : VKind) (k : Kind) (h : a ≠ b) :
    resolve repTable [.inst (.lib a.cls), .klass (.lib b.cls), .inst (.lib .qLength)] =
      resolve repTable [.inst (.lib a.cls), .klass (.lib b.cls), .inst (.lib k.cls)] := by
  rw [velRuleQ_eq, velRule_eq]
  revert h
  cases a <;> cases b <;> decide

/-- **C74**: without a position, a velocity converts only to its own class, and only the Cartesian ones and `RadialVel` -/
theorem C74_velocity_needs_position (a b : VKind) :
    (∃ r, resolve repTable [.inst (.lib a.cls), .klass (.lib b.cls)] = .found r) ↔
      a = b ∧ (a = .cart1 ∨ a = .radial ∨ a = .cart2 ∨ a = .cart3) := by
  have h : ∀ a ∈ allVKinds, ∀ b ∈ allVKinds, resolve repList [.inst (.lib a.cls), .klass (.lib b.cls)] =
      (if a = b ∧ a = .cart1 then .found .a146 else if a = b ∧ a = .radial then .found .a68
       else if a = b ∧ a = .cart2 then .found .b91 else if a = b ∧ a = .cart3 then .found .c939 else .notFound) := by
    decide +kernel
  rw [repTable_eq, h a (mem_allVKinds a) b (mem_allVKinds b)]
  revert a b
  intro a b
  cases a <;> cases b <;> simp

/-- **C74**: an angle as a third positional argument is taken by two conversions only: a `PolarPos` to a spherical or math
spherical position. -/
theorem C74_positional_angle (a b : Kind) :
    (∃ r, resolve repTable [.inst (.lib a.cls), .klass (.lib b.cls), .inst (.lib .qAngle)] = .found r) ↔
      a = .polar ∧ (b = .sph ∨ b = .math) := by
  have h : ∀ a ∈ allKinds, ∀ b ∈ allKinds, resolve repList [.inst (.lib a.cls), .klass (.lib b.cls), .inst (.lib .qAngle)] =
      (if a = .polar ∧ b = .sph then .found .xb283 else if a = .polar ∧ b = .math then .found .xb312 else .notFound) := by
    decide +kernel
  rw [repTable_eq, h a (mem_allKinds a) b (mem_allKinds b)]
  revert a b
  intro a b
  cases a <;> cases b <;> simp

/-- the rules for the classes that are not positions, velocities or accelerations of one to three dimensions -/
def otherRule (a b : Base) : Lookup Rule :=
  match a with
  | .space =>
    if b = .space then .found .xs16 else if b = .poincare then .found .xs37
    else if b.mro.contains .vector then .found .s580 else .notFound
  | .poincare => if b = .poincare then .found .n121 else if b = .space then .found .xn16 else .notFound
  | .cartPosN => if b = .cartPosN then .found .n17 else .notFound
  | .cartVelN => if b = .cartVelN then .found .n65 else .notFound
  | .cartAccN => if b = .cartAccN then .found .n93 else .notFound
  | _ => .notFound

/-- **C74**: a `Space` converts to `Space` and `PoincarePolarVector` by rules of their own and to any other vector class by
the rule that takes the position; a `PoincarePolarVector` only to itself and to `Space`; the N-dimensional Cartesian
classes only to themselves, a `FourVector` and a `CartesianGeneric3D` to nothing. -/
theorem C74_other_classes (a : Base) (ha : a ∈ [.space, .poincare, .cartPosN, .cartVelN, .cartAccN, .fourVector, .generic3])
    (b : Cls) : resolve repTable [.inst (.lib a), .klass b] = otherRule a b.root := by
  rw [C74_subclass]
  simp only [List.map_cons, List.map_nil, Atom.root, Cls.root]
  rw [repTable_eq, resolve_head]
  have h : ∀ a ∈ [Base.space, .poincare, .cartPosN, .cartVelN, .cartAccN, .fourVector, .generic3], ∀ b ∈ allBases,
      resolve (repList.filter (headOk (.inst (.lib a)))) [.inst (.lib a), .klass (.lib b)] = otherRule a b := by
    decide +kernel
  exact h a ha b.root (mem_allBases _)

/-! ### Frames -/

theorem frameTable_lib : ∀ m ∈ frameTable, m.sig.isLib = true := by decide +kernel

theorem frame_root (args : List Atom) : resolve frameTable args = resolve frameTable (args.map Atom.root) := by
  unfold resolve candidates
  congr 2
  exact List.filter_congr fun m hm => matches_root m.sig (frameTable_lib m hm) args

/-- **C74**: `frame_transform_op` is dispatch over its table. From `NoFrame` to `NoFrame` two rules are equally specific and
the precedence decides. -/
theorem C74_frames (a b : Frame) :
    frameTransformOp a b = (resolve frameTable [.inst (.lib a.cls), .inst (.lib b.cls)]).run (fun r => r.run a b) := by
  cases a <;> cases b <;> rfl

/-- the outcome for each pair of roots -/
def frameRule (a b : Base) : Lookup FRule :=
  if a = .noFrame then .found .x15
  else if b = .noFrame then .found .x39
  else if a = .icrs then (if b = .icrs then .found .f36 else if b = .galactocentric then .found .f294 else .notFound)
  else if a = .galactocentric then (if b = .icrs then .found .f527 else if b = .galactocentric then .found .f55 else .notFound)
  else .notFound

/-- **C74**: a frame class of a user that derives from the abstract class only has no transformation to or from the frames
of the library, and between two of them there is none (`NotFoundLookupError`), except that `NoFrame` gets its own error;
no call is ambiguous. -/
theorem C74_user_frames (a b : Cls) (ha : a.sub (.lib .frame) = true) (hb : b.sub (.lib .frame) = true) :
    resolve frameTable [.inst a, .inst b] = frameRule a.root b.root := by
  rw [sub_lib] at ha hb
  rw [frame_root]
  simp only [List.map_cons, List.map_nil, Atom.root]
  generalize a.root = x at *
  generalize b.root = y at *
  have hx : x = .frame ∨ x = .noFrame ∨ x = .icrs ∨ x = .galactocentric := by
    revert ha; cases x <;> decide
  have hy : y = .frame ∨ y = .noFrame ∨ y = .icrs ∨ y = .galactocentric := by
    revert hb; cases y <;> decide
  rcases hx with rfl | rfl | rfl | rfl <;> rcases hy with rfl | rfl | rfl | rfl <;> decide +kernel

/-! ### Instances -/

namespace DispatchExample

/-- a user's class of positions, derived from a class of the library, and one derived from that -/
def mine : Cls := .user (.lib .sphPos) 0
def mine' : Cls := .user mine 1

/-- a user's rule: from the class to Cartesian positions -/
def myRule : Method Rule := ⟨⟨[[.inst mine], T .cartPos3], none⟩, 0, .c34⟩

theorem myRule_user : UserRule myRule := ⟨0, [.inst mine], rfl, fun b hb => ⟨.lib .sphPos, 0, by
  simp at hb; exact Or.inl hb⟩⟩

/-- registered before all others; a call on a spherical position runs the rule of the library -/
example : resolve (registerAll (myRule :: repRegs)) [.inst (.lib .sphPos), .klass (.lib .cartPos3)] = .found .c350 := by
  rw [C74_extension repRegs (myRule :: repRegs) (fun m => decide (m = myRule)) (by decide +kernel)
    (fun m _ h => by rw [of_decide_eq_true h]; exact myRule_user) repRegs_lib _ (by
      intro a ha; simp at ha; rcases ha with rfl | rfl <;> exact ⟨rfl, by decide⟩)]
  exact posRule_eq .sph .cart3

/-- an object of the subclass of the class runs the user's rule; without the rule, that of `SphericalPos` -/
example : resolve (registerAll (myRule :: repRegs)) [.inst mine', .klass (.lib .cartPos3)] = .found .c34 := by decide +kernel
example : resolve repTable [.inst mine', .klass (.lib .cartPos3)] = .found .c350 := by
  rw [C74_subclass]; exact posRule_eq .sph .cart3

/-- a rule for two classes of the library is not the user's: it overwrites -/
example : resolve (registerAll (repRegs ++ [m2 .sphPos .cartPos3 .c34])) [.inst (.lib .sphPos), .klass (.lib .cartPos3)] =
    .found .c34 := by decide +kernel

/-- so the order of registrations with the same signature counts: the modules must not share signatures -/
example : resolve (registerAll (m2 .sphPos .cartPos3 .c34 :: repRegs)) [.inst (.lib .sphPos), .klass (.lib .cartPos3)] =
    .found .c350 := by decide +kernel

/-- without its precedence, the rule for `NoFrame` would be ambiguous with the other one -/
example : resolve (registerAll (frameRegs.map fun m => { m with prec := 0 })) [.inst (.lib .noFrame), .inst (.lib .noFrame)] =
    .ambiguous := by decide +kernel
example : resolve frameTable [.inst (.lib .noFrame), .inst (.lib .noFrame)] = .found .x15 := by decide +kernel

/-- a user's frame -/
example : resolve frameTable [.inst (.user (.lib .frame) 0), .inst (.lib .icrs)] = .notFound :=
  C74_user_frames _ _ (by decide) (by decide)

/-- the hypotheses of `C74_import_order` -/
example : resolve (registerAll [regsXV, regsX3, regsD1, regsD2, regsD3, regsDN, regsX1, regsX2].flatten)
    [.inst (.lib .cartVel1), .klass (.lib .cartVel1)] = .found .a146 := by
  rw [C74_import_order]
  · rw [repTable_eq]; decide +kernel
  · decide

end DispatchExample

end Verif
