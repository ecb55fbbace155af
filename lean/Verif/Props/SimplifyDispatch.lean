import Verif.SimplifyDispatch
import Verif.Props.OpFrom
import Verif.Props.DispatchOp

/-!
# Dispatch of `simplify_op`

C80: `simplify_op` of one and two operators of any classes, and of a `Pipe` of any operators.
-/

namespace Verif

open List

/-! ### Specification -/

/-- the operator classes whose objects combine with each other, and the rule -/
def combines : List (Base × SRule) :=
  [(.rotationOp, .r408), (.spatialOp, .s399), (.translationOp, .t262), (.boostOp, .b236), (.vboostOp, .v295)]

/-- The rule for two operators. -/
def pairRule (a b : Cls) : SRule :=
  if b.isA .identityOp then .g101
  else if a.isA .identityOp then .g117
  else if a.isA .pipeOp then if b.isA .pipeOp then .g150 else .g133
  else match combines.find? fun t => a.isA t.1 && b.isA t.1 with
    | some t => t.2
    | none => .g81

/-- The rule for one operator. -/
def oneRule (c : Cls) : SRule :=
  match ([(.identityOp, .g31), (.pipeOp, .g47), (.vboostOp, .v267), (.boostOp, .b208), (.rotationOp, .r344), (.spatialOp, .s368),
      (.translationOp, .t228), (.galileanOp, .c198)] : List (Base × SRule)).find? fun t => c.isA t.1 with
  | some t => t.2
  | none => .g15

/-- The operators that an operator applies, in order, told apart by their numbers: those of a `Pipe`, and those that were
combined. -/
def UOp.leaves : UOp → List (Cls × ℕ)
  | .leaf c id => [(c, id)]
  | .pipe ops => leavesL ops
  | .merged _ a b => a.leaves ++ b.leaves
where
  /-- of a list -/
  leavesL : List UOp → List (Cls × ℕ)
  | [] => []
  | o :: l => UOp.leaves o ++ leavesL l

/-- The operators that are there after simplifying: an `Identity` and all objects of subclasses of it are left out. -/
def UOp.kept (o : UOp) : List (Cls × ℕ) := if o.cls.isA .identityOp then [] else o.leaves

/-- an operator: an object of an operator class that is no `Pipe`, a `Pipe` of operators, or a combination -/
def UOp.Ok (o : UOp) : Prop :=
  match o with
  | .leaf c _ => c.isA .operator = true ∧ c.isA .pipeOp = false
  | .pipe _ => True
  | .merged c _ _ => c ∈ combines.map Prod.fst

/-! ### Lookup -/

theorem simplifyTable_eq : simplifyTable = simplifyRegs := by decide +kernel

theorem simp_root (args : List Atom) : resolve simplifyTable args = resolve simplifyRegs (args.map Atom.root) := by
  rw [simplifyTable_eq]
  unfold resolve candidates
  congr 2
  have : ∀ m ∈ simplifyRegs, m.sig.isLib = true := by decide +kernel
  exact List.filter_congr fun m hm => matches_root m.sig (this m hm) args

theorem simp_two : ∀ a ∈ opClsBases, ∀ b ∈ opClsBases,
    resolve simplifyRegs [.inst (.lib a), .inst (.lib b)] = .found (pairRule (.lib a) (.lib b)) := by decide +kernel

theorem simp_one : ∀ a ∈ opClsBases, resolve simplifyRegs [.inst (.lib a)] = .found (oneRule (.lib a)) := by decide +kernel

theorem pairRule_root (a b : Cls) : pairRule a b = pairRule (.lib a.root) (.lib b.root) := by
  unfold pairRule
  rw [isA_root a, isA_root b]
  rfl

theorem oneRule_root (a : Cls) : oneRule a = oneRule (.lib a.root) := by
  unfold oneRule
  rw [isA_root a]
  rfl

/-- **C80**: `simplify_op(op1, op2)` for any two operator classes, users' classes at any depth included: there is always a rule, it
is never ambiguous, and it is this one: the identity on the right goes first, then the identity on the left, then pipes, then
two operators of one of the five classes that combine; any other two make a `Pipe`. -/
theorem C80_pair (a b : Cls) (ha : a.isA .operator = true) (hb : b.isA .operator = true) :
    resolve simplifyTable [.inst a, .inst b] = .found (pairRule a b) := by
  rw [simp_root, pairRule_root]
  exact simp_two _ (mem_opClsBases ha) _ (mem_opClsBases hb)

/-- **C80**: `simplify_op(op)`: the rule of the class of `coordinax` that `op` is an instance of; operators of other classes come
back unchanged. -/
theorem C80_single (c : Cls) (hc : c.isA .operator = true) :
    resolve simplifyTable [.inst c] = .found (oneRule c) := by
  rw [simp_root, oneRule_root]
  exact simp_one _ (mem_opClsBases hc)

/-- **C80**: an operator class of a user has rule 15, which returns the operator unchanged, exactly if it is derived from none of the
concrete classes. -/
theorem C80_unchanged (c : Cls) (hc : c.isA .operator = true) :
    resolve simplifyTable [.inst c] = .found .g15 ↔ c.root ∈ [.operator, .galOp, .compOp] := by
  rw [C80_single c hc, oneRule_root]
  have h : ∀ b ∈ opClsBases, (Lookup.found (oneRule (.lib b)) = .found .g15 ↔ b ∈ [Base.operator, .galOp, .compOp]) := by decide +kernel
  exact h _ (mem_opClsBases hc)

/-! ### The operators of `coordinax` -/

/-- **C80**: combining two operators (C29) is dispatch over the table. -/
theorem C80_two (a b : Op) :
    simplify2 a b = (resolve simplifyTable [.inst (.lib a.opBase), .inst (.lib b.opBase)]).run (fun r => r.run2 a b) := by
  have ha : (Cls.lib a.opBase).isA .operator = true := by cases a <;> rfl
  have hb : (Cls.lib b.opBase).isA .operator = true := by cases b <;> rfl
  rw [C80_pair _ _ ha hb]
  cases a <;> cases b <;> rfl

/-- **C80**: so is simplifying one. -/
theorem C80_one (u : StoredUnits) (op : Op) :
    op.simplify u = (resolve simplifyTable [.inst (.lib op.opBase)]).run
      (fun r => r.run1 u (fun o => o.simplify u) (simplifyFold .identity) op) := by
  have ha : (Cls.lib op.opBase).isA .operator = true := by cases op <;> rfl
  rw [C80_single _ ha]
  cases op with
  | galilean R d v =>
    rw [show oneRule (Cls.lib (Op.galilean R d v).opBase) = .c198 from (by decide +kernel : oneRule (.lib .galileanOp) = .c198)]
    show Op.simplify u (.galilean R d v) = SRule.run1 .c198 u (fun o => o.simplify u) (simplifyFold .identity) (.galilean R d v)
    simp only [Op.simplify, SRule.run1, ok_bind]
    cases simplifyTranslation u d with
    | error e => rfl
    | ok b => cases velNegligible u v <;> rfl
  | _ => rfl

/-! ### A `Pipe` of operators of any classes -/

theorem UOp.Ok.op {o : UOp} (h : o.Ok) : o.cls.isA .operator = true := by
  cases o with
  | leaf c i => exact h.1
  | pipe l => rfl
  | merged c a b =>
    have : ∀ c ∈ combines.map Prod.fst, (Cls.lib c).isA .operator = true := by decide
    exact this c h

theorem leavesL_append (l m : List UOp) : UOp.leaves.leavesL (l ++ m) = UOp.leaves.leavesL l ++ UOp.leaves.leavesL m := by
  induction l with
  | nil => rfl
  | cons o l ih => simp [UOp.leaves.leavesL, ih]

theorem leaves_pipe (l : List UOp) : (UOp.pipe l).leaves = UOp.leaves.leavesL l := by rw [UOp.leaves]

theorem pipe_of_isA {o : UOp} (h : o.Ok) (hp : o.cls.isA .pipeOp = true) : o = .pipe o.ops := by
  cases o with
  | leaf c i =>
    have h2 : c.isA .pipeOp = true := hp
    rw [h.2] at h2; cases h2
  | pipe l => rfl
  | merged c a b =>
    have : ∀ c ∈ combines.map Prod.fst, (Cls.lib c).isA .pipeOp = false := by decide
    have h2 := this c h
    exact absurd (h2.symm.trans hp) (by decide)

/-- one step: what the result is and what it keeps -/
theorem simplifyU2_spec (a b : UOp) (ha : a.Ok) (hb : b.Ok) :
    ∃ r, simplifyU2 a b = some r ∧ r.Ok ∧ r.kept = a.kept ++ b.kept := by
  unfold simplifyU2
  rw [C80_pair _ _ ha.op hb.op]
  refine ⟨_, rfl, ?_⟩
  unfold pairRule
  cases h1 : b.cls.isA .identityOp with
  | true =>
    refine ⟨ha, ?_⟩
    show a.kept = _
    rw [show b.kept = [] by unfold UOp.kept; rw [h1]; rfl, List.append_nil]
  | false =>
    simp only [Bool.false_eq_true, if_false]
    have kb : b.kept = b.leaves := by unfold UOp.kept; rw [h1]; rfl
    cases h2 : a.cls.isA .identityOp with
    | true =>
      refine ⟨hb, ?_⟩
      show b.kept = _
      rw [show a.kept = [] by unfold UOp.kept; rw [h2]; rfl, List.nil_append]
    | false =>
      simp only [Bool.false_eq_true, if_false]
      have ka : a.kept = a.leaves := by unfold UOp.kept; rw [h2]; rfl
      rw [ka, kb]
      have kp : ∀ l, (UOp.pipe l).kept = UOp.leaves.leavesL l := fun l => by
        unfold UOp.kept
        rw [show (UOp.pipe l).cls.isA .identityOp = false from rfl]
        simp only [Bool.false_eq_true, if_false]
        exact leaves_pipe l
      cases h3 : a.cls.isA .pipeOp with
      | true =>
        simp only [if_true]
        have ea := pipe_of_isA ha h3
        cases h4 : b.cls.isA .pipeOp with
        | true =>
          have eb := pipe_of_isA hb h4
          refine ⟨trivial, ?_⟩
          show (UOp.pipe (a.ops ++ b.ops)).kept = _
          rw [kp, leavesL_append, ← leaves_pipe, ← leaves_pipe, ← ea, ← eb]
        | false =>
          refine ⟨trivial, ?_⟩
          show (UOp.pipe (a.ops ++ [b])).kept = _
          rw [kp, leavesL_append, ← leaves_pipe, ← ea]
          simp [UOp.leaves.leavesL]
      | false =>
        simp only [Bool.false_eq_true, if_false]
        cases hf : combines.find? (fun t => a.cls.isA t.1 && b.cls.isA t.1) with
        | none =>
          refine ⟨trivial, ?_⟩
          show (UOp.pipe [a, b]).kept = _
          rw [kp]
          simp [UOp.leaves.leavesL]
        | some t =>
          have hm := List.mem_of_find?_eq_some hf
          have hk : ∀ t ∈ combines, t.2.runU a b = .merged t.1 a b := by
            intro t ht
            simp only [combines, List.mem_cons, List.not_mem_nil, or_false] at ht
            rcases ht with rfl | rfl | rfl | rfl | rfl <;> rfl
          simp only
          rw [hk t hm]
          have hi : (Cls.lib t.1).isA .identityOp = false := by
            have : ∀ t ∈ combines, (Cls.lib t.1).isA .identityOp = false := by decide
            exact this t hm
          refine ⟨List.mem_map.2 ⟨t, hm, rfl⟩, ?_⟩
          unfold UOp.kept
          rw [show (UOp.merged t.1 a b).cls.isA .identityOp = false from hi]
          simp only [Bool.false_eq_true, if_false]
          rw [UOp.leaves]

theorem simplifyUFold_spec : ∀ (ops : List UOp) (acc : UOp), acc.Ok → (∀ o ∈ ops, o.Ok) →
    ∃ r, simplifyUFold acc ops = some r ∧ r.Ok ∧ r.kept = acc.kept ++ ops.flatMap UOp.kept
  | [], acc, h, _ => ⟨acc, rfl, h, by simp⟩
  | o :: ops, acc, h, ho => by
    obtain ⟨r, e, hr, hk⟩ := simplifyU2_spec acc o h (ho o (by simp))
    obtain ⟨r', e', hr', hk'⟩ := simplifyUFold_spec ops r hr fun x hx => ho x (by simp [hx])
    refine ⟨r', ?_, hr', ?_⟩
    · show (simplifyU2 acc o).bind _ = _
      rw [e]; exact e'
    · rw [hk', hk]; simp

/-- **C80**: simplifying a `Pipe` of any number of operators of any classes always returns an operator, and this applies the same
operators in the same order, combined or not, except those that are instances of `Identity`, users' subclasses of it
included. -/
theorem C80_pipe (i : ℕ) (ops : List UOp) (h : ∀ o ∈ ops, o.Ok) :
    ∃ r, simplifyUPipe i ops = some r ∧ r.Ok ∧ r.kept = ops.flatMap UOp.kept := by
  obtain ⟨r, e, hr, hk⟩ := simplifyUFold_spec ops (.leaf (.lib .identityOp) i) ⟨rfl, rfl⟩ h
  exact ⟨r, e, hr, by rw [hk]; rfl⟩

/-- What a `Pipe` that is being simplified takes over from an operator. -/
def UOp.appended (o : UOp) : List UOp :=
  if o.cls.isA .identityOp then [] else if o.cls.isA .pipeOp then o.ops else [o]

/-- **C80**: once two operators did not combine, nothing after them does: the rest is appended as it is, without identities and
with pipes opened by one level. So neighbours of the same class stay apart. -/
theorem C80_no_more : ∀ (ops l : List UOp), (∀ o ∈ ops, o.Ok) →
    simplifyUFold (.pipe l) ops = some (.pipe (l ++ ops.flatMap UOp.appended))
  | [], l, _ => by simp [simplifyUFold]
  | o :: ops, l, h => by
    have ho := h o (by simp)
    have e : simplifyU2 (.pipe l) o = some (.pipe (l ++ o.appended)) := by
      unfold simplifyU2
      rw [C80_pair _ _ rfl ho.op]
      unfold pairRule UOp.appended
      cases h1 : o.cls.isA .identityOp with
      | true => simp [SRule.runU]
      | false =>
        simp only [Bool.false_eq_true, if_false]
        rw [show (UOp.pipe l).cls.isA .identityOp = false from rfl, show (UOp.pipe l).cls.isA .pipeOp = true from rfl]
        cases h2 : o.cls.isA .pipeOp <;> rfl
    show (simplifyU2 (.pipe l) o).bind _ = _
    rw [e]
    show simplifyUFold _ ops = _
    rw [C80_no_more ops _ fun x hx => h x (by simp [hx])]
    simp

/-- **C80**: a `Pipe` of operators that are all instances of `Identity`, subclasses included, becomes a new `Identity`. -/
theorem C80_identities (i : ℕ) : ∀ (ops : List UOp), (∀ o ∈ ops, o.Ok ∧ o.cls.isA .identityOp = true) →
    simplifyUPipe i ops = some (.leaf (.lib .identityOp) i)
  | [], _ => rfl
  | o :: ops, h => by
    have ho := h o (by simp)
    have e : simplifyU2 (.leaf (.lib .identityOp) i) o = some (.leaf (.lib .identityOp) i) := by
      unfold simplifyU2
      rw [C80_pair _ _ rfl ho.1.op]
      unfold pairRule
      rw [ho.2]; rfl
    show (simplifyU2 (.leaf (.lib .identityOp) i) o).bind _ = _
    rw [e]
    exact C80_identities i ops fun x hx => h x (by simp [hx])

/-- **C80**: a `Pipe` of one operator that is no identity becomes that operator; of two, what the rule for the two gives. -/
theorem C80_short (i : ℕ) (a b : UOp) (ha : a.Ok) (ha' : a.cls.isA .identityOp = false) :
    simplifyUPipe i [a] = some a ∧ simplifyUPipe i [a, b] = simplifyU2 a b := by
  have e : simplifyU2 (.leaf (.lib .identityOp) i) a = some a := by
    unfold simplifyU2
    rw [C80_pair _ _ rfl ha.op]
    unfold pairRule
    rw [ha']; rfl
  refine ⟨?_, ?_⟩
  · show (simplifyU2 _ a).bind _ = _
    rw [e]; rfl
  · show (simplifyU2 _ a).bind _ = _
    rw [e]
    show (simplifyU2 a b).bind _ = _
    cases simplifyU2 a b <;> rfl

/-- **C80**: two operators of one of the five classes that combine, both of any subclasses, become one operator of the class of
`coordinax` itself, made from the first and the second in this order: the users' classes, and what they override, are lost. -/
theorem C80_merge (c : Base) (hc : c ∈ [Base.rotationOp, .spatialOp, .translationOp, .boostOp, .vboostOp]) (a b : UOp) (ha : a.cls.isA c = true)
    (hb : b.cls.isA c = true) : simplifyU2 a b = some (.merged c a b) := by
  have ha' : a.cls.isA .operator = true := by
    rw [isA_root] at ha ⊢
    have : ∀ c ∈ [Base.rotationOp, .spatialOp, .translationOp, .boostOp, .vboostOp], ∀ x ∈ allBases, (Cls.lib x).isA c = true →
        (Cls.lib x).isA .operator = true := by decide +kernel
    exact this c hc _ (mem_allBases _) ha
  have hb' : b.cls.isA .operator = true := by
    rw [isA_root] at hb ⊢
    have : ∀ c ∈ [Base.rotationOp, .spatialOp, .translationOp, .boostOp, .vboostOp], ∀ x ∈ allBases, (Cls.lib x).isA c = true →
        (Cls.lib x).isA .operator = true := by decide +kernel
    exact this c hc _ (mem_allBases _) hb
  have hr : c = .rotationOp ∧ pairRule a.cls b.cls = .r408 ∨ c = .spatialOp ∧ pairRule a.cls b.cls = .s399 ∨
      c = .translationOp ∧ pairRule a.cls b.cls = .t262 ∨ c = .boostOp ∧ pairRule a.cls b.cls = .b236 ∨
      c = .vboostOp ∧ pairRule a.cls b.cls = .v295 := by
    have key : ∀ c ∈ [Base.rotationOp, .spatialOp, .translationOp, .boostOp, .vboostOp], ∀ x ∈ opClsBases, ∀ y ∈ opClsBases,
        (Cls.lib x).isA c = true → (Cls.lib y).isA c = true →
        (c = .rotationOp ∧ pairRule (.lib x) (.lib y) = .r408 ∨ c = .spatialOp ∧ pairRule (.lib x) (.lib y) = .s399 ∨
        c = .translationOp ∧ pairRule (.lib x) (.lib y) = .t262 ∨ c = .boostOp ∧ pairRule (.lib x) (.lib y) = .b236 ∨
        c = .vboostOp ∧ pairRule (.lib x) (.lib y) = .v295) := by decide +kernel
    rw [pairRule_root]
    rw [isA_root] at ha hb
    exact key c hc _ (mem_opClsBases ha') _ (mem_opClsBases hb') ha hb
  unfold simplifyU2
  rw [C80_pair _ _ ha' hb']
  rcases hr with ⟨rfl, h⟩ | ⟨rfl, h⟩ | ⟨rfl, h⟩ | ⟨rfl, h⟩ | ⟨rfl, h⟩ <;> simp only [h] <;> rfl

/-! ### Examples -/

/-- a rotation of a user, a boost, and a second boost -/
def xR : UOp := .leaf (.user (.lib .rotationOp) 1) 1
def xB : UOp := .leaf (.lib .boostOp) 2
def xC : UOp := .leaf (.lib .boostOp) 3

theorem xOk : xR.Ok ∧ xB.Ok ∧ xC.Ok := ⟨⟨rfl, rfl⟩, ⟨rfl, rfl⟩, ⟨rfl, rfl⟩⟩

/-- two boosts combine, but not after a rotation -/
example : simplifyUPipe 0 [xB, xC] = some (.merged .boostOp xB xC) ∧ simplifyUPipe 0 [xR, xB, xC] = some (.pipe [xR, xB, xC]) := by
  constructor
  · rw [(C80_short 0 xB xC xOk.2.1 rfl).2]
    unfold simplifyU2
    rw [C80_pair _ _ rfl rfl]; rfl
  · have e1 : simplifyU2 (.leaf (.lib .identityOp) 0) xR = some xR := by
      unfold simplifyU2
      rw [C80_pair _ _ rfl rfl]; rfl
    have e2 : simplifyU2 xR xB = some (.pipe [xR, xB]) := by
      unfold simplifyU2
      rw [C80_pair _ _ rfl rfl]; rfl
    unfold simplifyUPipe
    simp only [simplifyUFold, e1, e2, Option.bind_eq_bind, Option.bind_some]
    show simplifyUFold (.pipe [xR, xB]) [xC] = _
    rw [C80_no_more _ _ (by simpa using xOk.2.2)]
    rfl

/-- an operator of a user that derives from `Identity` and does something is lost -/
example : ∃ r, simplifyUPipe 0 [xB, .leaf (.user (.lib .identityOp) 5) 7, xC] = some r ∧
    (r.leaves = [(.lib .boostOp, 2), (.lib .boostOp, 3)] ∨ r.cls.isA .identityOp = true) := by
  obtain ⟨r, e, -, hk⟩ := C80_pipe 0 [xB, .leaf (.user (.lib .identityOp) 5) 7, xC] (by
    intro o ho
    simp only [List.mem_cons, List.not_mem_nil, or_false] at ho
    rcases ho with rfl | rfl | rfl
    · exact xOk.2.1
    · exact ⟨rfl, rfl⟩
    · exact xOk.2.2)
  refine ⟨r, e, ?_⟩
  unfold UOp.kept at hk
  cases hi : r.cls.isA .identityOp with
  | true => exact .inr rfl
  | false =>
    rw [hi] at hk
    exact .inl hk

example : simplifyUPipe 4 [.leaf (.user (.lib .identityOp) 5) 7, .leaf (.lib .identityOp) 8] = some (.leaf (.lib .identityOp) 4) :=
  C80_identities 4 _ (by
    intro o ho
    simp only [List.mem_cons, List.not_mem_nil, or_false] at ho
    rcases ho with rfl | rfl <;> exact ⟨⟨rfl, rfl⟩, rfl⟩)

example : resolve simplifyTable [.inst (.user (.lib .galOp) 3)] = .found .g15 := (C80_unchanged _ rfl).2 (by decide)

/-- two rotations of a user become a rotation of `coordinax` -/
example : simplifyU2 xR (.leaf (.user (.user (.lib .rotationOp) 1) 2) 4) =
    some (.merged .rotationOp xR (.leaf (.user (.user (.lib .rotationOp) 1) 2) 4)) :=
  C80_merge .rotationOp (by decide) _ _ rfl rfl

end Verif
