import Verif.Props.Attribute
import Verif.Props.ClassGraph
import Verif.Props.OpFrom
import Verif.Props.DispatchOp

/-!
# Instances

Concrete cases that meet the hypotheses of theorems on attributes, class graphs and dispatch for which no instance stands
beside the theorem.
-/

namespace Verif.Instances2

/-! ### C77 -/

/-- the converter that adds one -/
def inc : ℤ → Res ℤ := fun v => .ok (v + 1)

/-- an attribute with the default 2 and that converter, as made -/
def A : VAttr ℤ := ⟨some 3, inc⟩

theorem A_made : VAttr.make (some 2) inc = .ok A := rfl

theorem nodup (c : ℤ → Res ℤ) (a : VAttr ℤ) : (userCls c a).names.Nodup := by
  show ["x", "y", "attr"].Nodup
  decide

theorem names_eq (c : ℤ → Res ℤ) (a : VAttr ℤ) : ["x", "y", "attr"] = (userCls c a).names := rfl

/-- an object of a class whose converters are the identity -/
def U : VClass ℤ := userCls .ok ⟨some 2, .ok⟩

def O : VObj ℤ := [("x", 7), ("y", 0), ("attr", 2)]

theorem O_settled : Settled U O := by
  refine ⟨rfl, fun k d hm => ?_⟩
  simp only [U, userCls, List.mem_cons, List.not_mem_nil, or_false, Prod.mk.injEq] at hm
  rcases hm with ⟨rfl, rfl⟩ | ⟨rfl, rfl⟩ | ⟨rfl, rfl⟩
  · exact ⟨7, rfl, rfl⟩
  · exact ⟨0, rfl, rfl⟩
  · exact ⟨2, rfl, rfl⟩

/-- the object made from `x=7` has the converted default twice converted -/
example : ObjectOf (userCls .ok A) [("x", 7), ("y", 0), ("attr", 4)]
    fun k d x => ∃ v, (([("x", 7)] : VObj ℤ).lookup k).or d.dflt = some v ∧ d.conv v = .ok x :=
  ((C77_construct (userCls .ok A) (nodup _ _) [("x", 7)] _).1 rfl).2

example : ∃ y x, inc 2 = .ok y ∧ inc y = .ok x ∧ ([("x", 7), ("y", 0), ("attr", 4)] : VObj ℤ).lookup "attr" = some x :=
  (C77_attribute (userCls .ok A) (nodup _ _) "attr" A (.tail _ (.tail _ (.head _))) 2 inc A_made [("x", 7)] _ rfl).1 rfl

/-- an attribute without a default: without a value there is no object -/
example (o : VObj ℤ) : (userCls .ok ⟨none, inc⟩).construct [("x", 7)] ≠ .ok o := fun h => by
  have := C77_required (userCls .ok ⟨none, inc⟩) (nodup _ _) "attr" inc ⟨none, inc⟩ rfl (.tail _ (.tail _ (.head _))) _ o h
  cases this

/-- and with one there is -/
example : (userCls .ok ⟨none, inc⟩).construct [("x", 7), ("attr", 1)] = .ok [("x", 7), ("y", 0), ("attr", 2)] := rfl

example : (U.describe (fun v => v + 1) O).map Prod.fst = ["x", "y"] :=
  (C77_items U (nodup _ _) O rfl fun v => v + 1).2.1

/-- `replace(obj, x=8)` converts the attribute once more -/
example : ObjectOf (userCls .ok A) [("x", 8), ("y", 0), ("attr", 5)] fun k d x =>
    ∃ v, (([("x", 8)] : VObj ℤ).lookup k).or (([("x", 7), ("y", 0), ("attr", 4)] : VObj ℤ).lookup k) = some v ∧ d.conv v = .ok x :=
  ((C77_replace (userCls .ok A) (nodup _ _) [("x", 7), ("y", 0), ("attr", 4)] [("x", 8)] _ rfl).1 rfl).2

example : ([("x", 8), ("y", 0), ("attr", 2)] : VObj ℤ).lookup "attr" = O.lookup "attr" :=
  C77_replace_keeps U (nodup _ _) O [("x", 8)] _ O_settled rfl "attr" rfl

example : U.replace O [] = .ok O := C77_replace_nothing U (nodup _ _) O O_settled

/-- after `n` calls of `replace` the attribute has grown by `n` -/
example (n : ℕ) (o' : VObj ℤ) (h : (userCls .ok A).replaceN n [("x", 7), ("y", 0), ("attr", 4)] = .ok o') :
    o'.lookup "attr" = some ((fun v : ℤ => v + 1)^[n] 4) :=
  C77_drift (userCls .ok A) (nodup _ _) "attr" (.attr A) (.tail _ (.tail _ (.head _))) _ (fun _ => rfl) n _ o' 4 rfl rfl h

example : (userCls .ok A).replaceN 2 [("x", 7), ("y", 0), ("attr", 4)] = .ok [("x", 7), ("y", 0), ("attr", 6)] := rfl

example : ([("x", 14), ("y", 0), ("attr", 2)] : VObj ℤ).lookup "attr" = O.lookup "attr" :=
  C77_map_attributes U (nodup _ _) (fun v => 2 * v) O _ O_settled rfl "attr" ⟨some 2, .ok⟩ (.tail _ (.tail _ (.head _)))

/-! ### C78 -/

/-- a class two levels below `CylindricalPos` -/
def W : Cls := .user (.user (.lib .cylPos) 1) 2

/-- a class below a velocity class that has its own `integral_cls` -/
def X : Cls := .user (.lib .cylVel) 3

/-- the definitions of the user: `X.integral_cls` is `W` -/
def ov : Overrides := fun c => if c = X then some (.cls W) else none

theorem W_inherits : Inherits ov W := ⟨by decide, by decide, trivial⟩

example : W.differential ov = .cls (.lib .cylVel) := by rw [(C78_user ov W W_inherits).1]; decide +kernel

/-- below `X` the user's definition counts -/
example : (Cls.user X 4).attr Base.ownInt ov = .cls W :=
  C78_override Base.ownInt ov (.lib .cylVel) 3 (.cls W) (by decide) (.user X 4) (.step X 4 (by decide) .refl)

example : (Cls.user (.lib .cylAcc) 9).integral ov = .cls (.lib .cylVel) :=
  (C78_integral ov (.user (.lib .cylAcc) 9) _ ⟨by decide, trivial⟩).2
    (.inl ⟨(.cylPos, .cylVel, .cylAcc), by decide, .inr ⟨by decide, rfl⟩⟩)

/-- from `LonCosLatSphericalVel` down and up again leads to `LonLatSphericalVel` -/
example : (Cls.lib .lonlatPos).differential ov = .cls (.lib .lonlatVel) :=
  (C78_back_and_there ov (.lib .lonCosLatVel) (.lib .lonlatPos) trivial (by decide +kernel)).2

example : ∃ e, (Cls.lib .cylVel).cartesian ov = .cls e ∧ (Cls.lib .cartPos3).differential ov = .cls e :=
  (C78_cartesian_commutes ov W (.lib .cartPos3) W_inherits (by decide +kernel)).2.1 _ (by decide +kernel)

example : ∃ ks, Base.prolatePos.compKeys = some ks ∧ Base.prolateVel.compKeys = some (ks.map dName) :=
  let ⟨ks, h⟩ := C78_names .prolatePos .prolateVel .prolateAcc (by decide)
  ⟨ks, h.1, h.2.1⟩

/-! ### C74, C75, C76 -/

/-- a user's operator class, two levels below `AbstractOperator` -/
def Y : Cls := .user (.user (.lib .operator) 1) 2

theorem Y_user : UserOp Y := ⟨⟨_, _, rfl⟩, .inl rfl⟩

example : resolve opTable [.inst Y, .inst (.lib .fourVector)] = .found .q191 := (C75_user_operator Y Y_user).2.2.2.1

example : resolve (registerAll (opRegs ++ [userFour Y .q28, userPos Y .q76])) [.inst Y, .inst (.lib .fourVector)] = .found .q28 :=
  C75_user_four_own_rule Y Y_user .q76 .q28 _ (.inr rfl)

/-- a `Pipe` on a Quantity with two components is ambiguous, with three it is not -/
example : resolve opTable [.inst (.lib .pipeOp), .inst (.lib .len2)] = .ambiguous ∧
    resolve opTable [.inst (.lib .pipeOp), .inst (.lib .len3)] ≠ .ambiguous :=
  ⟨(C75_ambiguous_quantity (.pipe []) .len2 (by decide)).2 (.inr ⟨⟨[], rfl⟩, by decide⟩), fun h => by
    rcases (C75_ambiguous_quantity (.pipe []) .len3 (by decide)).1 h with ⟨_, _, _, e⟩ | ⟨-, e⟩
    · cases e
    · exact e rfl⟩

example : resolve opTable [.inst (.lib .pipeOp), .inst (.lib .len3), .inst (.lib .time0)] = .ambiguous :=
  (C75_ambiguous_quantity_time (.pipe []) .len3 (by decide)).2 ⟨.inr ⟨[], rfl⟩, by decide⟩

example (op : Op) : op.callQ (.q [1, 2, 3]) =
    (resolve opTable [.inst (.lib op.opBase), .inst (.lib .len3)]).run (fun r => r.runQ op (.q [1, 2, 3])) :=
  C75_quantity op [1, 2, 3] .len3 rfl

example (op : Op) (t : ℝ) : op.callQ (.qt [1, 2] t) =
    (resolve opTable [.inst (.lib op.opBase), .inst (.lib .len2), .inst (.lib .time0)]).run (fun r => r.runQ op (.qt [1, 2] t)) :=
  C75_quantity_time op [1, 2] t .len2 rfl (by decide)

/-- a user's subclass of `CylindricalVel` to a user's class at a user's subclass of `SphericalPos` -/
example : resolve repTable [.inst (.user (.lib .cylVel) 1), .klass (.user (.lib .sphVel) 2), .inst (.user (.lib .sphPos) 3)] ≠ .ambiguous :=
  C74_unambiguous_velocity _ _ _ .cyl .sph rfl rfl

example : resolve repTable [.inst (.lib .polarVel), .klass (.lib .cartVel2), .inst (.lib .qLength)] =
    resolve repTable [.inst (.lib .polarVel), .klass (.lib .cartVel2), .inst (.lib .polarPos)] :=
  C74_position_argument .polar .cart2 .polar (by decide)

/-- a `Space` to a user's subclass of `PoincarePolarVector` -/
example : resolve repTable [.inst (.lib .space), .klass (.user (.lib .poincare) 7)] = .found .xs37 :=
  C74_other_classes .space (by decide) _

example (kw : Kw ℝ) (a b c : ℝ) (v : Vel ℝ) (p : Pos ℝ) :
    representAcc kw (.cart3 a b c) .sph v p =
      (resolve repTable [.inst (.lib .cartAcc3), .klass (.lib .sphAcc), .inst (.lib v.kind.cls), .inst (.lib p.kind.cls)]).run
        (fun r => r.runAcc kw (.cart3 a b c) .sph v p) :=
  C74_accelerations kw (.cart3 a b c) .sph .cartAcc3 .sphAcc rfl rfl v p

/-- modules in the opposite order -/
example (args : List Atom) : resolve (registerAll repModules.reverse.flatten) args = resolve repTable args :=
  C74_import_order _ (List.reverse_perm _) args

example (args : List Atom) : resolve (registerAll fromModules.reverse.flatten) args = resolve fromTable args :=
  C76_import_order _ (List.reverse_perm _) args

example : resolve fromTable [.klass (.user (.lib .sphPos) 1), .inst (.lib .mapEmpty)] = .ambiguous :=
  (C76_ambiguous (.user (.lib .sphPos) 1) (.lib .mapEmpty) ⟨rfl, rfl⟩).2 rfl

/-- a rule of a user for conversions of her own class, before all others -/
example (r : Rule) : resolve (registerAll (⟨⟨[I .pos3, [.klass (.user (.lib .pos3) 1)]], none⟩, 5, r⟩ :: repList))
    [.inst (.lib .sphPos), .klass (.lib .cylPos)] = resolve (registerAll repList) [.inst (.lib .sphPos), .klass (.lib .cylPos)] := by
  have key : ∀ m ∈ repList, (!(m.sig.types.any fun h => h == [.klass (.user (.lib .pos3) 1)])) = true := by decide +kernel
  refine C74_extension repList _ (fun m => m.sig.types.any fun h => h == [.klass (.user (.lib .pos3) 1)]) ?_ ?_ ?_ _ ?_
  · rw [List.filter_cons_of_neg (by show ¬ (false = true); decide)]
    exact List.filter_eq_self.2 key
  · intro m hm hu
    rcases List.mem_cons.1 hm with rfl | hm
    · exact ⟨1, _, rfl, by simp [Hint.isUser]⟩
    · have := key m hm
      rw [hu] at this; cases this
  · decide +kernel
  · intro a ha
    simp only [List.mem_cons, List.not_mem_nil, or_false] at ha
    rcases ha with rfl | rfl <;> decide

/-! ### C79 -/

/-- a rotation class of a user is rebuilt by its base, and not returned -/
example : opFrom (.lib .rotationOp) [.user (.lib .rotationOp) 1] ≠ .same := fun h =>
  absurd (((C79_operator_same (.lib .rotationOp) (.user (.lib .rotationOp) 1) rfl rfl).1.1 h)) (by decide)

example : opFrom (.lib .pipeOp) [.lib .boostOp] = .typeError ∧ pipeField (.lib .boostOp) = .single :=
  (C79_operator_same (.lib .pipeOp) (.lib .boostOp) rfl rfl).2.2 rfl

/-- the rotation of a `GalileanOperator` cannot be a boost -/
example : partField .rotationOp (.lib .boostOp) = .typeError := (C79_parts .rotationOp (by decide) (.lib .boostOp)).2.1 rfl rfl

end Verif.Instances2
