import Verif.FromDispatch
import Verif.Props.DispatchRep

/-!
# Dispatch of `from_`

C76: which rule `cls.from_(obj)` runs, and the class of what it returns.
-/

namespace Verif

/-! ### Specification -/

/-- `isinstance(obj, b)` for an object of class `c`, `issubclass(c, b)` -/
def Cls.isA (c : Cls) (b : Base) : Bool := c.sub (.lib b)

/-- a vector class other than `Space`, of `coordinax` or derived from one, abstract or not -/
def VectorClass (c : Cls) : Prop := c.isA .vector = true ∧ c.isA .space = false

instance (c : Cls) : Decidable (VectorClass c) := by unfold VectorClass; infer_instance

/-- both classes are 3-D positions, both 3-D velocities or both 3-D accelerations -/
def Same3 (c d : Cls) : Bool :=
  (c.isA .pos3 && d.isA .pos3) || (c.isA .vel3 && d.isA .vel3) || (c.isA .acc3 && d.isA .acc3)

/-- a 3-D class -/
def Cls.is3 (c : Cls) : Bool := c.isA .pos3 || c.isA .vel3 || c.isA .acc3

/-- What `c.from_(quantity)` does, `d` the class of the Quantity: the class called with the components. -/
def qtyMade (c d : Cls) : Made :=
  if c.isA .pos1 then if d.isA .qLength then .new c .u46 else .notFound
  else if c.isA .vel1 then if d.isA .qSpeed then .new c .u106 else .notFound
  else if c.isA .acc1 then if d.isA .qAcc then .new c .u160 else .notFound
  else if c.isA .cartPos2 then if d.isA .sh2 then .new c .d56 else .notFound
  else if c.isA .cartVel2 then if d.isA .sh2 then .new c .d193 else .notFound
  else if c.isA .cartAcc2 then .new c .d308
  else if c.isA .pos3 then .new (if c.isA .cartPos3 then c else .lib .cartPos3) .c70
  else if c.isA .vel3 then .new (if c.isA .cartVel3 then c else .lib .cartVel3) .c247
  else if c.isA .acc3 then
    if d.isA .sh3 then .new (if c.isA .cartAcc3 then c else .lib .cartAcc3) .c359 else .recursion
  else if c.isA .generic3 then .new c .g77
  else if c.isA .fourVector then
    if d.isA .sh3 then .new c .f285 else if d.isA .sh4 then .new c .f108 else .notFound
  else if c.isA .cartPosN then if d.isA .qLength then .new c .n128 else .notFound
  else if c.isA .cartVelN then if d.isA .qSpeed then .new c .n378 else .notFound
  else if c.isA .cartAccN then if d.isA .qAcc then .new c .n552 else .notFound
  else .notFound

/-- the coordinax class of an astropy representation or differential -/
def apyMade : Base → Option (Base × CRule)
  | .apyCart => some (.cartPos3, .y154)
  | .apyCyl => some (.cylPos, .y175)
  | .apyPhys => some (.sphPos, .y198)
  | .apySph => some (.lonlatPos, .y221)
  | .apyDCart => some (.cartVel3, .y367)
  | .apyDCyl => some (.cylVel, .y388)
  | .apyDPhys => some (.sphVel, .y410)
  | .apyDSph => some (.lonlatVel, .y432)
  | .apyDCos => some (.lonCosLatVel, .y455)
  | _ => none

/-- What `c.from_(representation)` does, `d` the class of the astropy representation. -/
def repMade (c : Cls) (d : Base) : Made :=
  if c.isA .cartPos3 then .new c .y154
  else if c.isA .cylPos then .new c .y175
  else if c.isA .sphPos then .new c .y198
  else if c.isA .lonlatPos then .new c .y221
  else if c.isA .pos3 then match apyMade d with
    | some (b, r) => .new (.lib b) r
    | none => .new (.lib .cartPos3) .y154
  else if c.is3 then .recursion else .notFound

/-- What `c.from_(differential)` does, `d` the class of the astropy differential. -/
def diffMade (c : Cls) (d : Base) : Made :=
  if c.isA .vel3 then match apyMade d with
    | some (b, r) => if c.isA b then .new c r else .new (.lib b) r
    | none => .recursion
  else if c.is3 then .recursion else .notFound

/-- the classes of Quantities -/
def qtyBases : List Base :=
  [.len1, .len2, .len3, .len4, .lenX, .spd2, .spd3, .spd4, .spdX, .acc2q, .acc3q, .acc4q, .accXq, .dim2, .dim3, .dim4, .dimX,
   .dist2, .dist3, .distX, .time0]

/-- the classes that the rules name for their argument -/
def namedObjs : List Base :=
  [.vector, .absQ, .mapQ, .mapApy, .apyQ, .apyRep, .apyDCart, .apyDCyl, .apyDPhys, .apyDSph, .apyDCos]

/-! ### Reduction to classes of the library -/

theorem isA_root (c : Cls) : c.isA = fun b => c.root.mro.contains b := by
  funext b; unfold Cls.isA; rw [sub_lib]; rfl

theorem fromTable_eq : fromTable = fromRegs := by decide +kernel

theorem fromRegs_lib : ∀ m ∈ fromRegs, m.sig.isLib = true := by decide +kernel

theorem from_root (args : List Atom) : resolve fromTable args = resolve fromRegs (args.map Atom.root) := by
  rw [fromTable_eq]
  unfold resolve candidates
  congr 2
  exact List.filter_congr fun m hm => matches_root m.sig (fromRegs_lib m hm) args

theorem from_root2 (c d : Cls) : resolve fromTable [.klass c, .inst d] =
    resolve (fromRegs.filter (headOk (.klass (.lib c.root)))) [.klass (.lib c.root), .inst (.lib d.root)] := by
  rw [from_root]
  exact resolve_head _ _ _

/-- the vector classes without `Space` -/
def vecBases : List Base := allBases.filter fun b => b.mro.contains .vector && !b.mro.contains .space

theorem mem_vecBases {c : Cls} (hc : VectorClass c) : c.root ∈ vecBases := by
  unfold VectorClass at hc
  rw [isA_root] at hc
  exact List.mem_filter.2 ⟨mem_allBases _, by simp only at hc; rw [hc.1, hc.2]; rfl⟩

/-- does the second parameter accept the object -/
def objOk (b : Base) (m : Method CRule) : Bool :=
  match m.sig.types with
  | [_, y] => hintLe [.inst (.lib b)] y
  | _ => true

theorem fromRegs_novar : ∀ m ∈ fromRegs, m.sig.varargs = none := by decide +kernel

theorem from_obj (a : Atom) (b b' : Base) (h : ∀ m ∈ fromRegs, objOk b m = objOk b' m) :
    resolve (fromRegs.filter (headOk a)) [a, .inst (.lib b)] = resolve (fromRegs.filter (headOk a)) [a, .inst (.lib b')] := by
  unfold resolve candidates
  congr 2
  refine List.filter_congr fun m hm => ?_
  have hm := List.mem_of_mem_filter hm
  have hv := fromRegs_novar m hm
  have ho := h m hm
  unfold objOk at ho
  unfold Sig.matches Sig.expand
  rw [hv]
  match ht : m.sig.types with
  | [] => rfl
  | [x] => rfl
  | [x, y] => rw [ht] at ho; simp only at ho; simp [zipLe, ho]
  | _ :: _ :: _ :: _ => simp

/-- a representative of the classes that the rules treat alike -/
def objRep (b : Base) : Base :=
  if b.mro.contains .pos3 then .pos3 else if b.mro.contains .vel3 then .vel3 else if b.mro.contains .acc3 then .acc3
  else if b.mro.contains .vector then .vector
  else if namedObjs.all fun x => !b.mro.contains x then .otherObj else b

theorem objRep_ok : ∀ b ∈ allBases, ∀ m ∈ fromRegs, objOk b m = objOk (objRep b) m := by decide +kernel

theorem from_rep (c d : Cls) : resolve fromTable [.klass c, .inst d] =
    resolve (fromRegs.filter (headOk (.klass (.lib c.root)))) [.klass (.lib c.root), .inst (.lib (objRep d.root))] := by
  rw [from_root2]
  exact from_obj _ _ _ (objRep_ok _ (mem_allBases _))

/-! ### Vectors -/

def vecRule (c d : Base → Bool) : Lookup CRule :=
  if c .pos3 && d .pos3 then .found .k36 else if c .vel3 && d .vel3 then .found .k84
  else if c .acc3 && d .acc3 then .found .k134 else .found .v987

theorem from_vec_table : ∀ a ∈ vecBases, ∀ b ∈ [Base.pos3, .vel3, .acc3, .vector],
    resolve (fromRegs.filter (headOk (.klass (.lib a)))) [.klass (.lib a), .inst (.lib b)] =
      vecRule a.mro.contains b.mro.contains := by decide +kernel

set_option maxRecDepth 8000 in
theorem objRep_vec : ∀ b ∈ allBases, b.mro.contains .vector = true →
    objRep b ∈ [Base.pos3, .vel3, .acc3, .vector] ∧ ∀ x ∈ [Base.pos3, .vel3, .acc3],
      (objRep b).mro.contains x = b.mro.contains x := by decide +kernel

theorem from_vec_rule (c d : Cls) (hc : VectorClass c) (hd : d.isA .vector = true) :
    resolve fromTable [.klass c, .inst d] = vecRule c.isA d.isA := by
  rw [from_rep, isA_root, isA_root]
  rw [isA_root] at hd
  obtain ⟨h1, h2⟩ := objRep_vec d.root (mem_allBases _) hd
  rw [from_vec_table _ (mem_vecBases hc) _ h1]
  unfold vecRule
  rw [h2 .pos3 (by simp), h2 .vel3 (by simp), h2 .acc3 (by simp)]

theorem fromCall_succ (n : ℕ) (c : Cls) (a : CArg) : fromCall (n + 1) c a =
    (resolve fromTable (.klass c :: a.atoms)).made (fun r => r.run (fromCall n) c a) := by rw [fromCall]

theorem fromCall_one (n : ℕ) (c d : Cls) : fromCall (n + 1) c (.one d) =
    (resolve fromTable [.klass c, .inst d]).made (fun r => r.run (fromCall n) c (.one d)) := fromCall_succ n c (.one d)

/-- **C76**: `cls.from_(vector)`: if both are 3-D positions (or velocities, or accelerations) the vector comes back as it is,
whatever `cls`; otherwise a vector of that very class comes back as it is, one of a subclass is rebuilt as `cls`, and any
other raises `TypeError`. For all classes, those of users included. -/
theorem C76_vector (n : ℕ) (c d : Cls) (hc : VectorClass c) (hd : d.isA .vector = true) :
    fromCall (n + 1) c (.one d) =
      if Same3 c d then .same else if d = c then .same else if d.sub c then .new c .v987 else .typeError := by
  rw [fromCall_one, from_vec_rule c d hc hd]
  unfold vecRule Same3
  cases hp : (c.isA .pos3 && d.isA .pos3)
  · cases hv : (c.isA .vel3 && d.isA .vel3)
    · cases ha : (c.isA .acc3 && d.isA .acc3)
      · simp only [Lookup.made, CRule.run, Bool.or_false, Bool.false_eq_true, if_false]
        by_cases he : d = c
        · subst he; simp [sub_refl]
        · cases hs : d.sub c <;> simp [he]
      · simp [Lookup.made, CRule.run]
    · simp [Lookup.made, CRule.run]
  · simp [Lookup.made, CRule.run]

/-! ### Quantities -/

def qtyRule (c d : Base → Bool) : Lookup CRule :=
  if c .pos1 then if d .qLength then .found .u46 else .notFound
  else if c .vel1 then if d .qSpeed then .found .u106 else .notFound
  else if c .acc1 then if d .qAcc then .found .u160 else .notFound
  else if c .cartPos2 then if d .sh2 then .found .d56 else .notFound
  else if c .cartVel2 then if d .sh2 then .found .d193 else .notFound
  else if c .cartAcc2 then .found .d308
  else if c .pos3 then .found (if c .cartPos3 then .c70 else .k15)
  else if c .vel3 then .found (if c .cartVel3 then .c247 else .k63)
  else if c .acc3 then if c .cartAcc3 && d .sh3 then .found .c359 else .found .k113
  else if c .generic3 then .found .g77
  else if c .fourVector then if d .sh3 then .found .f285 else if d .sh4 then .found .f108 else .notFound
  else if c .cartPosN then if d .qLength then .found .n128 else .notFound
  else if c .cartVelN then if d .qSpeed then .found .n378 else .notFound
  else if c .cartAccN then if d .qAcc then .found .n552 else .notFound
  else .notFound

theorem from_qty_table : ∀ a ∈ vecBases, ∀ q ∈ qtyBases,
    resolve (fromRegs.filter (headOk (.klass (.lib a)))) [.klass (.lib a), .inst (.lib q)] =
      qtyRule a.mro.contains q.mro.contains := by decide +kernel

theorem from_qty_rule (c d : Cls) (hc : VectorClass c) (hd : d.root ∈ qtyBases) :
    resolve fromTable [.klass c, .inst d] = qtyRule c.isA d.isA := by
  rw [from_root2, isA_root, isA_root]
  exact from_qty_table _ (mem_vecBases hc) _ hd

set_option maxRecDepth 8000 in
theorem qty_novec : ∀ q ∈ qtyBases, q.mro.contains .cartPos3 = false ∧ q.mro.contains .cartVel3 = false ∧
    q.mro.contains .cartAcc3 = false := by decide

theorem libVec (b : Base) (h : (b.mro.contains .vector && !b.mro.contains .space) = true) : VectorClass (.lib b) := by
  simp only [Bool.and_eq_true, Bool.not_eq_true'] at h
  exact h

/-- a wrong number of components never ends -/
theorem acc3_loop (d : Cls) (hd : d.root ∈ qtyBases) (h3 : d.isA .sh3 = false) :
    ∀ n, fromCall n (.lib .cartAcc3) (.one d) = .recursion
  | 0 => rfl
  | n + 1 => by
    have hn := qty_novec _ hd
    have e : d.sub (.lib .cartAcc3) = false := by rw [sub_lib]; exact hn.2.2
    rw [fromCall_one, from_qty_rule _ d (libVec _ rfl) hd]
    unfold qtyRule
    rw [h3]
    simp [Cls.isA, Cls.sub, Base.mro, Lookup.made, CRule.run, lastResort, e, acc3_loop d hd h3 n]

theorem cart3_qty (n : ℕ) (d : Cls) (hd : d.root ∈ qtyBases) :
    fromCall (n + 1) (.lib .cartPos3) (.one d) = .new (.lib .cartPos3) .c70 ∧
    fromCall (n + 1) (.lib .cartVel3) (.one d) = .new (.lib .cartVel3) .c247 ∧
    (d.isA .sh3 = true → fromCall (n + 1) (.lib .cartAcc3) (.one d) = .new (.lib .cartAcc3) .c359) := by
  refine ⟨?_, ?_, fun h3 => ?_⟩
  all_goals rw [fromCall_one, from_qty_rule _ d (libVec _ rfl) hd]; unfold qtyRule
  · rfl
  · rfl
  · rw [h3]; rfl

/-- **C76**: `cls.from_(quantity)`: the class that is called, and on which components. A 3-D class that is not Cartesian makes
a Cartesian vector; a `CartesianAcc3D`, or any other 3-D acceleration class, recurses without end unless the last axis has
three elements; 1-D and N-D classes require the dimension, the Cartesian 2-D positions and velocities the last axis; the
other classes have no rule. -/
theorem C76_quantity (n : ℕ) (c d : Cls) (hc : VectorClass c) (hd : d.root ∈ qtyBases) :
    fromCall (n + 2) c (.one d) = qtyMade c d := by
  have hn := qty_novec _ hd
  have e1 : d.sub (.lib .cartPos3) = false := by rw [sub_lib]; exact hn.1
  have e2 : d.sub (.lib .cartVel3) = false := by rw [sub_lib]; exact hn.2.1
  have e3 : d.sub (.lib .cartAcc3) = false := by rw [sub_lib]; exact hn.2.2
  obtain ⟨k1, k2, k3⟩ := cart3_qty n d hd
  rw [fromCall_one, from_qty_rule c d hc hd]
  unfold qtyRule qtyMade
  cases h_pos1 : c.isA .pos1 with
  | true => simp only [if_true]; cases d.isA .qLength <;> rfl
  | false =>
  simp only [Bool.false_eq_true, if_false]
  cases h_vel1 : c.isA .vel1 with
  | true => simp only [if_true]; cases d.isA .qSpeed <;> rfl
  | false =>
  simp only [Bool.false_eq_true, if_false]
  cases h_acc1 : c.isA .acc1 with
  | true => simp only [if_true]; cases d.isA .qAcc <;> rfl
  | false =>
  simp only [Bool.false_eq_true, if_false]
  cases h_cartPos2 : c.isA .cartPos2 with
  | true => simp only [if_true]; cases d.isA .sh2 <;> rfl
  | false =>
  simp only [Bool.false_eq_true, if_false]
  cases h_cartVel2 : c.isA .cartVel2 with
  | true => simp only [if_true]; cases d.isA .sh2 <;> rfl
  | false =>
  simp only [Bool.false_eq_true, if_false]
  cases h_cartAcc2 : c.isA .cartAcc2 with
  | true => simp only [if_true]; rfl
  | false =>
  simp only [Bool.false_eq_true, if_false]
  cases h_pos3 : c.isA .pos3 with
  | true => simp only [if_true]; cases c.isA .cartPos3 with | true => rfl | false => simp only [Bool.false_eq_true, if_false, Lookup.made, CRule.run, lastResort, e1]; exact k1
  | false =>
  simp only [Bool.false_eq_true, if_false]
  cases h_vel3 : c.isA .vel3 with
  | true => simp only [if_true]; cases c.isA .cartVel3 with | true => rfl | false => simp only [Bool.false_eq_true, if_false, Lookup.made, CRule.run, lastResort, e2]; exact k2
  | false =>
  simp only [Bool.false_eq_true, if_false]
  cases h_acc3 : c.isA .acc3 with
  | true => simp only [if_true]; cases h3 : d.isA .sh3 with
    | false =>
      simp only [Bool.and_false, Bool.false_eq_true, if_false, Lookup.made, CRule.run, lastResort, e3]
      exact acc3_loop d hd h3 (n + 1)
    | true =>
      cases c.isA .cartAcc3 with
      | true => rfl
      | false => simp only [Bool.and_true, Bool.false_eq_true, if_false, if_true, Lookup.made, CRule.run, lastResort, e3]; exact k3 h3
  | false =>
  simp only [Bool.false_eq_true, if_false]
  cases h_generic3 : c.isA .generic3 with
  | true => simp only [if_true]; rfl
  | false =>
  simp only [Bool.false_eq_true, if_false]
  cases h_fourVector : c.isA .fourVector with
  | true => simp only [if_true]; cases d.isA .sh3 <;> cases d.isA .sh4 <;> rfl
  | false =>
  simp only [Bool.false_eq_true, if_false]
  cases h_cartPosN : c.isA .cartPosN with
  | true => simp only [if_true]; cases d.isA .qLength <;> rfl
  | false =>
  simp only [Bool.false_eq_true, if_false]
  cases h_cartVelN : c.isA .cartVelN with
  | true => simp only [if_true]; cases d.isA .qSpeed <;> rfl
  | false =>
  simp only [Bool.false_eq_true, if_false]
  cases h_cartAccN : c.isA .cartAccN with
  | true => simp only [if_true]; cases d.isA .qAcc <;> rfl
  | false =>
  simp only [Bool.false_eq_true, if_false]
  rfl

/-! ### Objects without a rule -/

def restRule (c : Base → Bool) : Lookup CRule :=
  if c .pos3 then .found .k15 else if c .vel3 then .found .k63 else if c .acc3 then .found .k113 else .notFound

theorem from_other_table : ∀ a ∈ vecBases,
    resolve (fromRegs.filter (headOk (.klass (.lib a)))) [.klass (.lib a), .inst (.lib .otherObj)] =
      restRule a.mro.contains := by decide +kernel

set_option maxRecDepth 8000 in
theorem objRep_other : ∀ b ∈ allBases, (∀ x ∈ namedObjs, b.mro.contains x = false) → objRep b = .otherObj := by
  decide +kernel

theorem from_other_rule (c d : Cls) (hc : VectorClass c) (hd : ∀ b ∈ namedObjs, d.isA b = false) :
    resolve fromTable [.klass c, .inst d] = restRule c.isA := by
  rw [from_rep, isA_root c]
  rw [isA_root] at hd
  rw [objRep_other _ (mem_allBases _) hd]
  exact from_other_table _ (mem_vecBases hc)

set_option maxRecDepth 8000 in
theorem novec_novec : ∀ b ∈ allBases, b.mro.contains .vector = false → b.mro.contains .cartPos3 = false ∧
    b.mro.contains .cartVel3 = false ∧ b.mro.contains .cartAcc3 = false := by decide +kernel

theorem no_cart (d : Cls) (hd : d.isA .vector = false) : d.sub (.lib .cartPos3) = false ∧ d.sub (.lib .cartVel3) = false ∧
    d.sub (.lib .cartAcc3) = false := by
  rw [isA_root] at hd
  have h := novec_novec d.root (mem_allBases _) hd
  rw [sub_lib, sub_lib d .cartVel3, sub_lib d .cartAcc3]
  exact h

/-- if the class of last resort has no rule of its own for the object, the call never ends -/
theorem loopPos (d : Cls) (hd : d.isA .vector = false)
    (h : resolve fromTable [.klass (.lib .cartPos3), .inst d] = .found .k15) :
    ∀ n, fromCall n (.lib .cartPos3) (.one d) = .recursion
  | 0 => rfl
  | n + 1 => by
    rw [fromCall_one, h]
    simp only [Lookup.made, CRule.run, lastResort, (no_cart d hd).1, Bool.false_eq_true, if_false]
    exact loopPos d hd h n

theorem loopVel (d : Cls) (hd : d.isA .vector = false)
    (h : resolve fromTable [.klass (.lib .cartVel3), .inst d] = .found .k63) :
    ∀ n, fromCall n (.lib .cartVel3) (.one d) = .recursion
  | 0 => rfl
  | n + 1 => by
    rw [fromCall_one, h]
    simp only [Lookup.made, CRule.run, lastResort, (no_cart d hd).2.1, Bool.false_eq_true, if_false]
    exact loopVel d hd h n

theorem loopAcc (d : Cls) (hd : d.isA .vector = false)
    (h : resolve fromTable [.klass (.lib .cartAcc3), .inst d] = .found .k113) :
    ∀ n, fromCall n (.lib .cartAcc3) (.one d) = .recursion
  | 0 => rfl
  | n + 1 => by
    rw [fromCall_one, h]
    simp only [Lookup.made, CRule.run, lastResort, (no_cart d hd).2.2, Bool.false_eq_true, if_false]
    exact loopAcc d hd h n

/-- **C76**: an object that is no vector, Quantity, mapping or known astropy object: a 3-D class recurses without end, at every
depth that Python allows, instead of reporting that there is no rule; every other class raises `NotFoundLookupError`. -/
theorem C76_other (n : ℕ) (c d : Cls) (hc : VectorClass c) (hd : ∀ b ∈ namedObjs, d.isA b = false) :
    fromCall (n + 1) c (.one d) = if c.is3 then .recursion else .notFound := by
  have hv : d.isA .vector = false := hd .vector (by simp [namedObjs])
  have h1 := loopPos d hv (by rw [from_other_rule _ d (libVec _ rfl) hd]; rfl) n
  have h2 := loopVel d hv (by rw [from_other_rule _ d (libVec _ rfl) hd]; rfl) n
  have h3 := loopAcc d hv (by rw [from_other_rule _ d (libVec _ rfl) hd]; rfl) n
  obtain ⟨e1, e2, e3⟩ := no_cart d hv
  rw [fromCall_one, from_other_rule c d hc hd]
  unfold restRule Cls.is3
  cases c.isA .pos3 with
  | true => simp only [if_true, Lookup.made, CRule.run, lastResort, e1, Bool.false_eq_true, if_false, h1, Bool.true_or]
  | false =>
    cases c.isA .vel3 with
    | true => simp only [if_true, Lookup.made, CRule.run, lastResort, e2, Bool.false_eq_true, if_false, h2, Bool.true_or, Bool.or_true]
    | false =>
      cases c.isA .acc3 with
      | true => simp only [if_true, Lookup.made, CRule.run, lastResort, e3, Bool.false_eq_true, if_false, h3, Bool.or_true]
      | false => rfl

/-! ### Mappings, keywords, arrays -/

theorem from_map_table : ∀ a ∈ vecBases,
    resolve (fromRegs.filter (headOk (.klass (.lib a)))) [.klass (.lib a), .inst (.lib .mapQ)] = .found .v66 ∧
    resolve (fromRegs.filter (headOk (.klass (.lib a)))) [.klass (.lib a), .inst (.lib .mapApy)] = .found .y20 ∧
    resolve (fromRegs.filter (headOk (.klass (.lib a)))) [.klass (.lib a), .inst (.lib .mapEmpty)] = .ambiguous := by
  decide +kernel

/-- **C76**: `cls.from_(mapping)` calls `cls` with the entries as keyword arguments, for mappings to Quantities of `unxt` and
of astropy; on an empty mapping it is ambiguous. -/
theorem C76_mapping (n : ℕ) (c d : Cls) (hc : VectorClass c) :
    (d.root = .mapQ → fromCall (n + 1) c (.one d) = .new c .v66) ∧
    (d.root = .mapApy → fromCall (n + 1) c (.one d) = .new c .y20) ∧
    (d.root = .mapEmpty → fromCall (n + 1) c (.one d) = .ambiguous) := by
  obtain ⟨h1, h2, h3⟩ := from_map_table _ (mem_vecBases hc)
  refine ⟨fun h => ?_, fun h => ?_, fun h => ?_⟩ <;> rw [fromCall_one, from_root2, h]
  · rw [h1]; rfl
  · rw [h2]; rfl
  · rw [h3]; rfl

theorem from_kw_table : ∀ a ∈ vecBases, resolve fromRegs [.klass (.lib a)] =
    if a.mro.contains .lonlatPos then .found .l149 else if a.mro.contains .mathPos then .found .m103
    else if a.mro.contains .sphPos then .found .s81 else .notFound := by decide +kernel

/-- **C76**: `cls.from_` with keyword arguments only exists for the three spherical position classes and their subclasses. -/
theorem C76_keywords (n : ℕ) (c : Cls) (hc : VectorClass c) :
    fromCall (n + 1) c .keywords =
      if c.isA .lonlatPos then .new c .l149 else if c.isA .mathPos then .new c .m103 else if c.isA .sphPos then .new c .s81
      else .notFound := by
  have h : resolve fromTable [.klass c] = _ := (from_root [.klass c]).trans (from_kw_table _ (mem_vecBases hc))
  rw [fromCall_succ]
  show (resolve fromTable [.klass c]).made _ = _
  rw [h, isA_root]
  simp only
  by_cases h1 : c.root.mro.contains .lonlatPos = true
  · rw [if_pos h1, if_pos h1]; rfl
  rw [if_neg h1, if_neg h1]
  by_cases h2 : c.root.mro.contains .mathPos = true
  · rw [if_pos h2, if_pos h2]; rfl
  rw [if_neg h2, if_neg h2]
  by_cases h3 : c.root.mro.contains .sphPos = true
  · rw [if_pos h3, if_pos h3]; rfl
  rw [if_neg h3, if_neg h3]; rfl

theorem from_array_table : ∀ a ∈ vecBases,
    resolve fromRegs [.klass (.lib a), .inst (.lib .arrayLike), .inst (.lib .unitLike)] = .found .v107 ∧
    resolve fromRegs [.klass (.lib a), .inst (.lib .apyQ)] = .found .y489 := by decide +kernel

/-- **C76**: `cls.from_(array, unit)` and `cls.from_(astropy quantity)` are `cls.from_` of the `Quantity`, for every class. -/
theorem C76_array (n : ℕ) (c : Cls) (hc : VectorClass c) (q : Base) :
    fromCall (n + 1) c (.array q) = fromCall n c (.one (.lib q)) ∧
    fromCall (n + 1) c (.apyQty q) = fromCall n c (.one (.lib q)) := by
  obtain ⟨h1, h2⟩ := from_array_table _ (mem_vecBases hc)
  constructor
  · have h : resolve fromTable (.klass c :: (CArg.array q).atoms) = _ := (from_root _).trans h1
    rw [fromCall_succ, h]; rfl
  · have h : resolve fromTable (.klass c :: (CArg.apyQty q).atoms) = _ := (from_root _).trans h2
    rw [fromCall_succ, h]; rfl

/-! ### Astropy -/

def repBases : List Base := [.apyRep, .apyCart, .apyCyl, .apyPhys, .apySph]

def diffBases : List Base := [.apyDCart, .apyDCyl, .apyDPhys, .apyDSph, .apyDCos]

def viaRule : Base → CRule
  | .apyCart => .y65 | .apyCyl => .y85 | .apyPhys => .y107 | .apySph => .y129
  | .apyDCart => .y247 | .apyDCyl => .y268 | .apyDPhys => .y290 | .apyDSph => .y312 | .apyDCos => .y335
  | _ => .k15

def repRule (c : Base → Bool) (d : Base) : Lookup CRule :=
  if c .cartPos3 then .found .y154 else if c .cylPos then .found .y175 else if c .sphPos then .found .y198
  else if c .lonlatPos then .found .y221 else if c .pos3 then .found (viaRule d) else restRule c

theorem from_rep_table : ∀ a ∈ vecBases, ∀ b ∈ repBases,
    resolve (fromRegs.filter (headOk (.klass (.lib a)))) [.klass (.lib a), .inst (.lib b)] =
      repRule a.mro.contains b := by decide +kernel

theorem from_rep_rule (c d : Cls) (hc : VectorClass c) (hd : d.root ∈ repBases) :
    resolve fromTable [.klass c, .inst d] = repRule c.isA d.root := by
  rw [from_root2, isA_root]
  exact from_rep_table _ (mem_vecBases hc) _ hd

def diffRule (c : Base → Bool) (d : Base) : Lookup CRule :=
  if c .vel3 then match apyMade d with
    | some (b, r) => if c b then .found r else .found (viaRule d)
    | none => .notFound
  else restRule c

theorem from_diff_table : ∀ a ∈ vecBases, ∀ b ∈ diffBases,
    resolve (fromRegs.filter (headOk (.klass (.lib a)))) [.klass (.lib a), .inst (.lib b)] =
      diffRule a.mro.contains b := by decide +kernel

theorem from_diff_rule (c d : Cls) (hc : VectorClass c) (hd : d.root ∈ diffBases) :
    resolve fromTable [.klass c, .inst d] = diffRule c.isA d.root := by
  rw [from_root2, isA_root]
  exact from_diff_table _ (mem_vecBases hc) _ hd

theorem apy_novec : ∀ b ∈ repBases ++ diffBases, b.mro.contains .vector = false := by decide

/-- **C76**: `cls.from_(astropy representation)`. The four position classes with a counterpart convert every representation;
the other 3-D position classes return the coordinax class of the representation, not `cls`; 3-D velocities and
accelerations recurse without end. -/
theorem C76_representation (n : ℕ) (c d : Cls) (hc : VectorClass c) (hd : d.root ∈ repBases) :
    fromCall (n + 2) c (.one d) = repMade c d.root := by
  have hv : d.isA .vector = false := by
    rw [isA_root]; exact apy_novec _ (List.mem_append_left _ hd)
  obtain ⟨e1, e2, e3⟩ := no_cart d hv
  have h2 := loopVel d hv (by rw [from_rep_rule _ d (libVec _ rfl) hd]; rfl) (n + 1)
  have h3 := loopAcc d hv (by rw [from_rep_rule _ d (libVec _ rfl) hd]; rfl) (n + 1)
  have k1 : fromCall (n + 1) (.lib .cartPos3) (.one d) = .new (.lib .cartPos3) .y154 := by
    rw [fromCall_one, from_rep_rule _ d (libVec _ rfl) hd]; rfl
  have k2 : fromCall (n + 1) (.lib .cylPos) (.one d) = .new (.lib .cylPos) .y175 := by
    rw [fromCall_one, from_rep_rule _ d (libVec _ rfl) hd]; rfl
  have k3 : fromCall (n + 1) (.lib .sphPos) (.one d) = .new (.lib .sphPos) .y198 := by
    rw [fromCall_one, from_rep_rule _ d (libVec _ rfl) hd]; rfl
  have k4 : fromCall (n + 1) (.lib .lonlatPos) (.one d) = .new (.lib .lonlatPos) .y221 := by
    rw [fromCall_one, from_rep_rule _ d (libVec _ rfl) hd]; rfl
  rw [fromCall_one, from_rep_rule c d hc hd]
  unfold repRule repMade restRule Cls.is3
  cases c.isA .cartPos3 with
  | true => rfl
  | false =>
  cases c.isA .cylPos with
  | true => rfl
  | false =>
  cases c.isA .sphPos with
  | true => rfl
  | false =>
  cases c.isA .lonlatPos with
  | true => rfl
  | false =>
  cases c.isA .pos3 with
  | true =>
    simp only [Bool.false_eq_true, if_false, if_true]
    simp only [repBases, List.mem_cons, List.not_mem_nil, or_false] at hd
    rcases hd with hr | hr | hr | hr | hr <;> rw [hr]
    · simp only [viaRule, apyMade, Lookup.made, CRule.run, lastResort, e1, Bool.false_eq_true, if_false, k1]
    · simp only [viaRule, apyMade, Lookup.made, CRule.run, k1]
    · simp only [viaRule, apyMade, Lookup.made, CRule.run, k2]
    · simp only [viaRule, apyMade, Lookup.made, CRule.run, k3]
    · simp only [viaRule, apyMade, Lookup.made, CRule.run, k4]
  | false =>
  cases c.isA .vel3 with
  | true =>
    simp only [Bool.false_eq_true, if_false, if_true, Lookup.made, CRule.run, lastResort, e2, h2, Bool.or_true, Bool.true_or]
  | false =>
  cases c.isA .acc3 with
  | true => simp only [Bool.false_eq_true, if_false, if_true, Lookup.made, CRule.run, lastResort, e3, h3, Bool.or_true]
  | false => rfl

/-- **C76**: `cls.from_(astropy differential)` returns the coordinax class of the differential for every 3-D velocity class,
also if another class was asked for; 3-D positions and accelerations recurse without end. -/
theorem C76_differential (n : ℕ) (c d : Cls) (hc : VectorClass c) (hd : d.root ∈ diffBases) :
    fromCall (n + 2) c (.one d) = diffMade c d.root := by
  have hv : d.isA .vector = false := by
    rw [isA_root]; exact apy_novec _ (List.mem_append_right _ hd)
  obtain ⟨e1, e2, e3⟩ := no_cart d hv
  have h1 := loopPos d hv (by rw [from_diff_rule _ d (libVec _ rfl) hd]; rfl) (n + 1)
  have h3 := loopAcc d hv (by rw [from_diff_rule _ d (libVec _ rfl) hd]; rfl) (n + 1)
  have k : ∀ b r, apyMade d.root = some (b, r) → (b.mro.contains .vector && !b.mro.contains .space) = true →
      b.mro.contains .vel3 = true → (viaRule d.root).run (fromCall (n + 1)) c (.one d) = fromCall (n + 1) (.lib b) (.one d) →
      (∀ f, r.run f (.lib b) (.one d) = .new (.lib b) r) →
      (viaRule d.root).run (fromCall (n + 1)) c (.one d) = .new (.lib b) r := by
    intro b r hb hbv hb3 hvia hr
    rw [hvia, fromCall_one, from_diff_rule _ d (libVec _ hbv) hd]
    unfold diffRule
    have i1 : (Cls.lib b).isA .vel3 = true := hb3
    have i2 : (Cls.lib b).isA b = true := mro_self b
    rw [hb]
    simp only [i1, i2, if_true, Lookup.made]
    exact hr _
  rw [fromCall_one, from_diff_rule c d hc hd]
  unfold diffRule diffMade restRule Cls.is3
  cases c.isA .vel3 with
  | true =>
    simp only [if_true]
    simp only [diffBases, List.mem_cons, List.not_mem_nil, or_false] at hd
    rcases hd with hr | hr | hr | hr | hr <;> rw [hr] at k ⊢ <;> simp only [apyMade]
    · cases c.isA .cartVel3 with
      | true => rfl
      | false =>
        simp only [Bool.false_eq_true, if_false, Lookup.made]
        exact k _ _ rfl rfl rfl (by simp only [viaRule, CRule.run]) (fun _ => by simp only [CRule.run])
    · cases c.isA .cylVel with
      | true => rfl
      | false =>
        simp only [Bool.false_eq_true, if_false, Lookup.made]
        exact k _ _ rfl rfl rfl (by simp only [viaRule, CRule.run]) (fun _ => by simp only [CRule.run])
    · cases c.isA .sphVel with
      | true => rfl
      | false =>
        simp only [Bool.false_eq_true, if_false, Lookup.made]
        exact k _ _ rfl rfl rfl (by simp only [viaRule, CRule.run]) (fun _ => by simp only [CRule.run])
    · cases c.isA .lonlatVel with
      | true => rfl
      | false =>
        simp only [Bool.false_eq_true, if_false, Lookup.made]
        exact k _ _ rfl rfl rfl (by simp only [viaRule, CRule.run]) (fun _ => by simp only [CRule.run])
    · cases c.isA .lonCosLatVel with
      | true => rfl
      | false =>
        simp only [Bool.false_eq_true, if_false, Lookup.made]
        exact k _ _ rfl rfl rfl (by simp only [viaRule, CRule.run]) (fun _ => by simp only [CRule.run])
  | false =>
  cases c.isA .pos3 with
  | true => simp only [Bool.false_eq_true, if_false, if_true, Lookup.made, CRule.run, lastResort, e1, h1, Bool.true_or]
  | false =>
  cases c.isA .acc3 with
  | true => simp only [Bool.false_eq_true, if_false, if_true, Lookup.made, CRule.run, lastResort, e3, h3, Bool.or_true]
  | false => rfl

/-! ### Ambiguity, order of imports, the astropy module -/

def objReps : List Base := (allBases.map objRep).dedup

set_option maxRecDepth 8000 in
theorem from_amb_table : ∀ a ∈ vecBases, ∀ b ∈ objReps,
    (resolve (fromRegs.filter (headOk (.klass (.lib a)))) [.klass (.lib a), .inst (.lib b)] = .ambiguous ↔ b = .mapEmpty) := by
  decide +kernel

set_option maxRecDepth 8000 in
theorem objRep_empty : ∀ b ∈ allBases, objRep b ∈ objReps ∧ (objRep b = .mapEmpty ↔ b = .mapEmpty) := by decide +kernel

/-- **C76**: `cls.from_(obj)` is ambiguous for empty mappings and for nothing else. -/
theorem C76_ambiguous (c d : Cls) (hc : VectorClass c) :
    resolve fromTable [.klass c, .inst d] = .ambiguous ↔ d.root = .mapEmpty := by
  obtain ⟨h1, h2⟩ := objRep_empty d.root (mem_allBases _)
  rw [from_rep, from_amb_table _ (mem_vecBases hc) _ h1, h2]

theorem fromModules_distinct : fromModules.Pairwise fun A B => ∀ a ∈ A, ∀ b ∈ B, ¬ Same a.sig b.sig := by
  have h : fromModules.Pairwise fun A B => (A.all fun a => B.all fun b => !(a.sig.le b.sig && b.sig.le a.sig)) = true := by
    decide +kernel
  refine h.imp fun {A B} hAB a ha b hb hs => ?_
  simp only [List.all_eq_true] at hAB
  have := hAB a ha b hb
  simp [hs.1, hs.2] at this

/-- **C76**: the order in which the modules are imported makes no difference to any call. -/
theorem C76_import_order (mods : List (List (Method CRule))) (h : mods.Perm fromModules) (args : List Atom) :
    resolve (registerAll mods.flatten) args = resolve fromTable args := by
  have hd : mods.Pairwise fun A B => ∀ a ∈ A, ∀ b ∈ B, ¬ Same a.sig b.sig :=
    h.symm.pairwise fromModules_distinct fun {A B} hAB b hb a ha hs => hAB a ha b hb (same_symm hs)
  unfold fromTable fromRegs
  refine C74_order _ _ args fun m => ?_
  rw [last_flatten _ hd, last_flatten _ fromModules_distinct]
  simp only [h.mem_iff]

theorem core_eq : registerAll fromRegsCore = fromRegsCore := by decide +kernel

theorem core_append : fromRegs = fromRegsCore ++ fromApy := by decide +kernel

theorem fromApy_obj : ∀ m ∈ fromApy, ∀ b ∈ allBases, (∀ x ∈ [Base.mapApy, .apyQ, .apyRep, .apyDiff], b.mro.contains x = false) →
    objOk b m = false := by decide +kernel

theorem fromApy_two : ∀ m ∈ fromApy, m.sig.varargs = none ∧ m.sig.types.length = 2 := by decide +kernel

/-- **C76**: importing the astropy module changes no call on an object that is not of astropy, empty mappings apart: these are
taken by the rule for mappings without it. -/
theorem C76_astropy_module (c d : Cls) :
    ((∀ x ∈ [Base.mapApy, .apyQ, .apyRep, .apyDiff], d.isA x = false) →
      resolve (registerAll fromRegsCore) [.klass c, .inst d] = resolve fromTable [.klass c, .inst d]) ∧
    (VectorClass c → resolve (registerAll fromRegsCore) [.klass c, .inst (.lib .mapEmpty)] = .found .v66) := by
  have hroot : ∀ d : Cls, resolve (registerAll fromRegsCore) [.klass c, .inst d] =
      resolve fromRegsCore [.klass (.lib c.root), .inst (.lib d.root)] := by
    intro d
    rw [core_eq]
    unfold resolve candidates
    congr 2
    refine List.filter_congr fun m hm => ?_
    have : m ∈ fromRegs := by rw [core_append]; exact List.mem_append_left _ hm
    exact matches_root m.sig (fromRegs_lib m this) _
  constructor
  · intro h
    rw [isA_root] at h
    rw [hroot, from_root]
    show _ = resolve fromRegs [.klass (.lib c.root), .inst (.lib d.root)]
    rw [core_append]
    unfold resolve candidates
    congr 2
    rw [List.filter_append]
    have hnil : (fromApy.filter fun m => m.sig.matches [.klass (.lib c.root), .inst (.lib d.root)]) = [] := by
      rw [List.filter_eq_nil_iff]
      intro m hm hma
      obtain ⟨hv, hl⟩ := fromApy_two m hm
      have ho := fromApy_obj m hm d.root (mem_allBases _) h
      unfold objOk at ho
      unfold Sig.matches Sig.expand at hma
      rw [hv] at hma
      match ht : m.sig.types with
      | [x, y] => rw [ht] at ho hma; simp only at ho; simp [zipLe, ho] at hma
      | [] => simp [ht] at hl
      | [_] => simp [ht] at hl
      | _ :: _ :: _ :: _ => simp [ht] at hl
    rw [hnil, List.append_nil]
  · intro hc
    rw [hroot]
    have h : ∀ a ∈ vecBases, resolve fromRegsCore [.klass (.lib a), .inst (.lib .mapEmpty)] = .found .v66 := by decide +kernel
    exact h _ (mem_vecBases hc)

/-! ### The model of `from_` for vectors -/

def allVCls : List VCls :=
  allKinds.map .pos ++ allVKinds.map .vel ++ allVKinds.map .acc ++ [.generic3, .poincare]

theorem mem_allVCls (c : VCls) : c ∈ allVCls := by
  cases c with
  | pos k => cases k <;> decide
  | vel k => cases k <;> decide
  | acc k => cases k <;> decide
  | generic3 => decide
  | poincare => decide

/-- **C76**: `fromVec`, the model of `cls.from_(vector)` for the concrete classes (C51), is what dispatch does. -/
theorem C76_model (n : ℕ) (c : VCls) (v : UVec) (cb vb : Base) (hc : c.base = some cb) (hv : v.cls.base = some vb) :
    (fromCall (n + 1) (.lib cb) (.one (.lib vb)) = .same ∧ fromVec c v = .ok v) ∨
    (fromCall (n + 1) (.lib cb) (.one (.lib vb)) = .typeError ∧ fromVec c v = .error .typeError) := by
  have key : ∀ c d : VCls, ∀ cb db : Base, c.base = some cb → d.base = some db →
      VectorClass (.lib cb) ∧ (Cls.lib db).isA .vector = true ∧
      (Same3 (.lib cb) (.lib db) = true ↔ c.sort3.isSome ∧ c.sort3 = d.sort3) ∧ (cb = db ↔ d = c) ∧
      (db.mro.contains cb = true ↔ cb = db) := by
    intro c d cb db hc hd
    have h : ∀ c ∈ allVCls, ∀ d ∈ allVCls, ∀ cb ∈ c.base, ∀ db ∈ d.base,
        (cb.mro.contains .vector = true ∧ cb.mro.contains .space = false) ∧ db.mro.contains .vector = true ∧
        (Same3 (.lib cb) (.lib db) = true ↔ c.sort3.isSome ∧ c.sort3 = d.sort3) ∧ (cb = db ↔ d = c) ∧
        (db.mro.contains cb = true ↔ cb = db) := by decide +kernel
    exact h c (mem_allVCls c) d (mem_allVCls d) cb hc db hd
  obtain ⟨h1, h2, h3, h4, h5⟩ := key c v.cls cb vb hc hv
  rw [C76_vector n _ _ h1 h2]
  unfold fromVec
  by_cases hs : c.sort3.isSome ∧ c.sort3 = v.cls.sort3
  · left
    rw [if_pos hs, if_pos (h3.2 hs)]
    exact ⟨rfl, rfl⟩
  · rw [if_neg hs, if_neg (fun h => hs (h3.1 h))]
    by_cases he : v.cls = c
    · left
      rw [if_pos he, if_pos (by rw [h4.2 he])]
      exact ⟨rfl, rfl⟩
    · right
      have hne : ¬ cb = vb := fun h => he (h4.1 h)
      have hsub : ¬ (Cls.lib vb).sub (.lib cb) = true := fun h => hne (h5.1 h)
      rw [if_neg he, if_neg (fun h => hne (by injection h with h; exact h.symm)), if_neg hsub]
      exact ⟨rfl, rfl⟩

/-! ### Examples -/

/-- a user's subclass of `AbstractPos3D` -/
def myPos : Cls := .user (.lib .pos3) 0

example : VectorClass myPos := by decide

/-- `MyPos.from_([1, 2, 3], "kpc")` is a `CartesianPos3D` -/
example (n : ℕ) : fromCall (n + 3) myPos (.array .len3) = .new (.lib .cartPos3) .c70 := by
  rw [(C76_array (n + 2) myPos (by decide) .len3).1, C76_quantity n _ _ (by decide) (by decide)]
  decide

/-- `SphericalPos.from_("text")` ends in a `RecursionError` -/
example (n : ℕ) : fromCall (n + 1) (.lib .sphPos) (.one (.lib .otherObj)) = .recursion := by
  rw [C76_other n _ _ (by decide) (by decide)]; decide

/-- `PolarPos.from_("text")` raises `NotFoundLookupError` -/
example (n : ℕ) : fromCall (n + 1) (.lib .polarPos) (.one (.lib .otherObj)) = .notFound := by
  rw [C76_other n _ _ (by decide) (by decide)]; decide

/-- `CartesianPos3D.from_(cylindrical position)` is the cylindrical position -/
example (n : ℕ) : fromCall (n + 1) (.lib .cartPos3) (.one (.lib .cylPos)) = .same := by
  rw [C76_vector n _ _ (by decide) (by decide)]; decide

/-- `SphericalPos.from_(polar position)` raises `TypeError` -/
example (n : ℕ) : fromCall (n + 1) (.lib .sphPos) (.one (.lib .polarPos)) = .typeError := by
  rw [C76_vector n _ _ (by decide) (by decide)]; decide

/-- `CartesianVel3D.from_(CylindricalDifferential)` is a `CylindricalVel` -/
example (n : ℕ) : fromCall (n + 2) (.lib .cartVel3) (.one (.lib .apyDCyl)) = .new (.lib .cylVel) .y388 := by
  rw [C76_differential n _ _ (by decide) (by decide)]; decide

/-- `CartesianPos3D.from_(CylindricalRepresentation)` is a `CartesianPos3D`, `MathSphericalPos.from_` of it a `CylindricalPos` -/
example (n : ℕ) : fromCall (n + 2) (.lib .cartPos3) (.one (.lib .apyCyl)) = .new (.lib .cartPos3) .y154 ∧
    fromCall (n + 2) (.lib .mathPos) (.one (.lib .apyCyl)) = .new (.lib .cylPos) .y175 := by
  rw [C76_representation n _ _ (by decide) (by decide), C76_representation n _ _ (by decide) (by decide)]; decide

/-- `SphericalPos.from_(r=..., theta=..., phi=...)` has a rule, `CylindricalPos.from_(rho=...)` has none -/
example (n : ℕ) : fromCall (n + 1) (.lib .sphPos) .keywords = .new (.lib .sphPos) .s81 ∧
    fromCall (n + 1) (.lib .cylPos) .keywords = .notFound := by
  rw [C76_keywords n _ (by decide), C76_keywords n _ (by decide)]; decide

/-- `CartesianPos3D.from_({})` is ambiguous -/
example (n : ℕ) : fromCall (n + 1) (.lib .cartPos3) (.one (.lib .mapEmpty)) = .ambiguous :=
  (C76_mapping n _ _ (by decide)).2.2 rfl

example (c : VCls) (v : UVec) (hc : c = .pos .cart3) (hv : v.cls = .pos .cyl) : fromVec c v = .ok v := by
  rcases C76_model 0 c v .cartPos3 .cylPos (by rw [hc]; rfl) (by rw [hv]; rfl) with h | h
  · exact h.2
  · rw [C76_vector 0 _ _ (by decide) (by decide)] at h
    exact absurd h.1 (by decide)

end Verif
