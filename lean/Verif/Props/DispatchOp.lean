import Verif.Props.DispatchRep

/-!
# Dispatch of operator calls

C75: which rule `op(...)` runs; the calls of the model are what dispatch selects; where calls are ambiguous.
-/

namespace Verif

variable {ρ : Type}

/-! ### Specification -/

/-- The rule for each operator class and argument tuple; `d` is the dimension of the position. -/
def ruleFor (o : Base) : Arg → Lookup ORule
  | .pos q => match o with
    | .identityOp => .found .i126
    | .rotationOp => if q.kind.dim = 3 then .found .r264 else .notFound
    | .spatialOp => .found .s211
    | .vboostOp => .found .v187
    | .galileanOp | .pipeOp => .found .p112
    | _ => .notFound
  | .posTime q _ => match o with
    | .identityOp => .found .i150
    | .rotationOp => if q.kind.dim = 3 then .found .r292 else .notFound
    | .spatialOp => .found .s264
    | .translationOp => if q.kind.dim = 3 then .found .t183 else .notFound
    | .boostOp => .found .b128
    | .vboostOp => .found .v207
    | .galileanOp | .pipeOp => .found .p90
    | _ => .notFound
  | .four _ => match o with
    | .identityOp => .found .i126
    | .rotationOp => .found .q191
    | .spatialOp => .found .s297
    | .translationOp => .found .t146
    | .boostOp => .found .b159
    | .vboostOp => .found .v233
    | .galileanOp | .pipeOp => .found .p112
    | _ => .notFound
  | .posVel _ _ => match o with
    | .identityOp => .found .i150
    | .spatialOp => .found .s318
    | .vboostOp => .found .v160
    | .galileanOp | .pipeOp => .found .p90
    | _ => .notFound
  | .vel _ => match o with
    | .identityOp => .found .i126
    | .vboostOp => .found .v110
    | .galileanOp | .pipeOp => .found .p90
    | _ => .notFound

/-- the classes of operators with instances -/
def opBases : List Base :=
  [.identityOp, .rotationOp, .spatialOp, .translationOp, .boostOp, .vboostOp, .galileanOp, .pipeOp]

theorem mem_opBases (op : Op) : op.opBase ∈ opBases := by cases op <;> simp [Op.opBase, opBases]

theorem opTable_eq : opTable = opRegs := by decide +kernel

theorem opRegs_lib : ∀ m ∈ opRegs, m.sig.isLib = true := by decide +kernel

theorem op_root (args : List Atom) : resolve opTable args = resolve opTable (args.map Atom.root) := by
  rw [opTable_eq]
  unfold resolve candidates
  congr 2
  exact List.filter_congr fun m hm => matches_root m.sig (opRegs_lib m hm) args

theorem op_pos : ∀ o ∈ opBases, ∀ k ∈ allKinds, resolve opRegs [.inst (.lib o), .inst (.lib k.cls)] =
    (match o with
    | .identityOp => .found .i126
    | .rotationOp => if k.dim = 3 then .found .r264 else .notFound
    | .spatialOp => .found .s211
    | .vboostOp => .found .v187
    | .galileanOp | .pipeOp => .found .p112
    | _ => .notFound) := by decide +kernel

theorem op_posTime : ∀ o ∈ opBases, ∀ k ∈ allKinds, resolve opRegs [.inst (.lib o), .inst (.lib k.cls), .inst (.lib .time0)] =
    (match o with
    | .identityOp => .found .i150
    | .rotationOp => if k.dim = 3 then .found .r292 else .notFound
    | .spatialOp => .found .s264
    | .translationOp => if k.dim = 3 then .found .t183 else .notFound
    | .boostOp => .found .b128
    | .vboostOp => .found .v207
    | .galileanOp | .pipeOp => .found .p90
    | _ => .notFound) := by decide +kernel

theorem op_four : ∀ o ∈ opBases, ∀ f : Four, resolve opRegs [.inst (.lib o), .inst (.lib .fourVector)] =
    ruleFor o (.four f) := by
  intro o ho f
  simp only [opBases, List.mem_cons, List.not_mem_nil, or_false] at ho
  rcases ho with rfl | rfl | rfl | rfl | rfl | rfl | rfl | rfl <;> simp only [ruleFor] <;> decide +kernel

theorem op_posVel : ∀ o ∈ opBases, ∀ k ∈ allKinds, ∀ j ∈ allVKinds,
    resolve opRegs [.inst (.lib o), .inst (.lib k.cls), .inst (.lib j.cls)] =
    (match o with
    | .identityOp => .found .i150
    | .spatialOp => .found .s318
    | .vboostOp => .found .v160
    | .galileanOp | .pipeOp => .found .p90
    | _ => .notFound) := by decide +kernel

theorem op_vel : ∀ o ∈ opBases, ∀ j ∈ allVKinds, resolve opRegs [.inst (.lib o), .inst (.lib j.cls)] =
    (match o with
    | .identityOp => .found .i126
    | .vboostOp => .found .v110
    | .galileanOp | .pipeOp => .found .p90
    | _ => .notFound) := by decide +kernel

/-- **C75**: the rule for every operator and every tuple of arguments, objects of user subclasses of an operator class
included; none of these calls is ambiguous. -/
theorem C75_rule (op : Op) (c : Cls) (hc : c.root = op.opBase) (a : Arg) :
    resolve opTable (.inst c :: a.atoms) = ruleFor op.opBase a := by
  rw [op_root, opTable_eq]
  simp only [List.map_cons, Atom.root, hc]
  have ho := mem_opBases op
  generalize op.opBase = o at *
  cases a with
  | pos q => exact (op_pos o ho q.kind (mem_allKinds _)).trans rfl
  | posTime q t => exact (op_posTime o ho q.kind (mem_allKinds _)).trans rfl
  | four f => exact op_four o ho f
  | posVel q p => exact (op_posVel o ho q.kind (mem_allKinds _) p.kind (mem_allVKinds _)).trans rfl
  | vel p => exact (op_vel o ho p.kind (mem_allVKinds _)).trans rfl

theorem callAll_fold : ∀ (ops : List Op) (a : Arg), callAll ops a = ops.foldlM (fun a o => o.call a) a
  | [], a => by simp only [callAll]; rfl
  | o :: ops, a => by
    simp only [callAll, List.foldlM_cons]
    exact bind_congr fun x => callAll_fold ops x

/-- **C75**: the calls of operators of this model are dispatch over the table: `op(...)` runs the body of the rule that
plum selects, whose inner calls are dispatched again. -/
theorem C75_call (op : Op) (a : Arg) :
    op.call a = (resolve opTable (.inst (.lib op.opBase) :: a.atoms)).run (fun r => r.run Op.call op a) := by
  rw [C75_rule op _ rfl a]
  cases op with
  | identity => cases a <;> rfl
  | rotation R =>
    cases a with
    | pos q =>
      by_cases h : q.kind.dim = 3
      · simp only [Op.opBase, ruleFor, h, if_true, Lookup.run, ORule.run, Op.call, callRotation, rotPos, ne_eq,
          not_true_eq_false, if_false]
        cases hr : representAs {} q .cart3 with
        | error e => rfl
        | ok w => cases w <;> rfl
      · simp [Op.opBase, ruleFor, h, Lookup.run, Op.call, callRotation, rotPos]
    | posTime q t =>
      by_cases h : q.kind.dim = 3
      · simp only [Op.opBase, ruleFor, h, if_true, Lookup.run, ORule.run, Op.call, callRotation]
        cases hr : rotPos R q <;> rfl
      · simp [Op.opBase, ruleFor, h, Lookup.run, Op.call, callRotation, rotPos]
    | four x =>
      simp only [Op.opBase, ruleFor, Lookup.run, ORule.run, Op.call, callRotation]
      cases hr : rotPos R x.q <;> rfl
    | posVel q p => rfl
    | vel p => rfl
  | spatial d =>
    cases a with
    | posVel q p =>
      simp only [Op.opBase, ruleFor, Lookup.run, ORule.run, Op.call, callSpatial]
      cases hr : addPos q d <;> rfl
    | _ => rfl
  | translation d =>
    cases a with
    | posTime q t =>
      by_cases h : q.kind.dim = 3 <;> simp [Op.opBase, ruleFor, h, Lookup.run, ORule.run, Op.call, callTranslation]
    | _ => rfl
  | boost v => cases a <;> rfl
  | vboost v =>
    cases a <;> rfl
  | galilean R d v =>
    have e : (Op.galilean R d v).call a = [Op.rotation R, .translation d, .boost v].foldlM (fun a o => o.call a) a := by
      simp only [Op.call, List.foldlM_cons, List.foldlM_nil, bind_pure]
    rw [e]
    cases a <;> rfl
  | pipe ops =>
    simp only [Op.call, callAll_fold]
    cases a <;> simp [Op.opBase, ruleFor, Lookup.run, ORule.run, Arg.isVel]

/-! ### Quantities -/

/-- the classes of length Quantities with one to four components -/
def lenBases : List Base := [.len1, .len2, .len3, .len4]

/-- rule for a Quantity -/
def ruleForQ (o n : Base) : Lookup ORule :=
  if o = .identityOp then .found .i126
  else if o = .rotationOp ∧ n = .len3 then .found .r228
  else if o = .pipeOp ∧ n = .len3 then .found .q126
  else if o = .pipeOp ∨ o = .galileanOp then .ambiguous
  else .found (if n = .len1 then .q28 else if n = .len2 then .q76 else if n = .len3 then .q126 else .q222)

/-- rule for a Quantity of one to three components and a time -/
def ruleForQt (o n : Base) : Lookup ORule :=
  if o = .identityOp then .found .i150
  else if n = .len4 then (if o = .pipeOp ∨ o = .galileanOp then .found .p90 else .notFound)
  else if o = .pipeOp ∨ o = .galileanOp then .ambiguous
  else .found (if n = .len1 then .q47 else if n = .len2 then .q94 else .q156)

theorem op_q : ∀ o ∈ opBases, ∀ n ∈ lenBases, resolve opRegs [.inst (.lib o), .inst (.lib n)] = ruleForQ o n := by
  decide +kernel

theorem op_qt : ∀ o ∈ opBases, ∀ n ∈ lenBases,
    resolve opRegs [.inst (.lib o), .inst (.lib n), .inst (.lib .time0)] = ruleForQt o n := by
  decide +kernel

/-- **C75**: on a bare Quantity a call is ambiguous exactly for a `GalileanOperator`, and for a `Pipe` unless the Quantity
has three components. -/
theorem C75_ambiguous_quantity (op : Op) (n : Base) (hn : n ∈ lenBases) :
    resolve opTable [.inst (.lib op.opBase), .inst (.lib n)] = .ambiguous ↔
      (∃ R d v, op = .galilean R d v) ∨ (∃ ops, op = .pipe ops) ∧ n ≠ .len3 := by
  rw [opTable_eq, op_q _ (mem_opBases op) n hn]
  cases op <;> simp only [ruleForQ, Op.opBase] <;> simp <;> split_ifs <;> simp_all

/-- **C75**: on a Quantity of up to three components with a time, exactly for `Pipe` and `GalileanOperator`. -/
theorem C75_ambiguous_quantity_time (op : Op) (n : Base) (hn : n ∈ lenBases) :
    resolve opTable [.inst (.lib op.opBase), .inst (.lib n), .inst (.lib .time0)] = .ambiguous ↔
      ((∃ R d v, op = .galilean R d v) ∨ ∃ ops, op = .pipe ops) ∧ n ≠ .len4 := by
  rw [opTable_eq, op_qt _ (mem_opBases op) n hn]
  cases op <;> simp only [ruleForQt, Op.opBase] <;> simp <;> split_ifs <;> simp_all

theorem lenCls_cases (xs : List ℝ) (n : Base) (hn : lenCls xs.length = some n) :
    (n = .len1 ∧ ∃ x, xs = [x]) ∨ (n = .len2 ∧ ∃ x y, xs = [x, y]) ∨ (n = .len3 ∧ ∃ x y z, xs = [x, y, z]) ∨
      (n = .len4 ∧ ∃ x y z w, xs = [x, y, z, w]) := by
  match xs, hn with
  | [], h => cases h
  | [x], h => cases h; exact Or.inl ⟨rfl, x, rfl⟩
  | [x, y], h => cases h; exact Or.inr (Or.inl ⟨rfl, x, y, rfl⟩)
  | [x, y, z], h => cases h; exact Or.inr (Or.inr (Or.inl ⟨rfl, x, y, z, rfl⟩))
  | [x, y, z, w], h => cases h; exact Or.inr (Or.inr (Or.inr ⟨rfl, x, y, z, w, rfl⟩))
  | _ :: _ :: _ :: _ :: _ :: l, h => simp [lenCls] at h

theorem generic1 (op : Op) (x : ℝ) :
    (do return QArg.q (← op.callQGeneric [x])) = ORule.runQ .q28 op (.q [x]) := by
  simp only [Op.callQGeneric, ORule.runQ, cartOf]
  cases h : op.call (.pos (.cart1 x)) with
  | error e => rfl
  | ok w => cases w <;> rfl

theorem generic2 (op : Op) (x y : ℝ) :
    (do return QArg.q (← op.callQGeneric [x, y])) = ORule.runQ .q76 op (.q [x, y]) := by
  simp only [Op.callQGeneric, ORule.runQ, cartOf]
  cases h : op.call (.pos (.cart2 x y)) with
  | error e => rfl
  | ok w => cases w <;> rfl

theorem generic3 (op : Op) (x y z : ℝ) (h1 : op ≠ .identity) (h2 : ∀ R, op ≠ .rotation R) :
    (do return QArg.q (← op.callQGeneric [x, y, z])) = ORule.runQ .q126 op (.q [x, y, z]) := by
  have e : op.callQGeneric [x, y, z] = (do
      match ← op.call (.pos (.cart3 x y z)) with
      | .pos q => toQuantity (← representAs {} q .cart3)
      | _ => .error .noDispatch) := by
    cases op <;> first | exact absurd rfl h1 | exact absurd rfl (h2 _) | rfl
  rw [e]
  simp only [ORule.runQ]
  cases h : op.call (.pos (.cart3 x y z)) with
  | error e => rfl
  | ok w =>
    cases w with
    | pos q => simp only [ok_bind, bind_assoc]
    | _ => rfl

theorem generic4 (op : Op) (x y z w : ℝ) :
    (do return QArg.q (← op.callQGeneric [x, y, z, w])) = ORule.runQ .q222 op (.q [x, y, z, w]) := by
  simp only [Op.callQGeneric, ORule.runQ]
  cases hf : Four.from_ [x, y, z, w] with
  | error e => rfl
  | ok f =>
    simp only [ok_bind]
    cases h : op.call (.four f) with
    | error e => rfl
    | ok w => cases w <;> rfl

theorem genericT (op : Op) (xs : List ℝ) (t : ℝ) (r : ORule) (hr : r = .q47 ∨ r = .q94 ∨ r = .q156)
    (h : cartOf xs ≠ none) :
    (do let q ← op.callQtGeneric xs t; return QArg.qt q.1 q.2) = ORule.runQ r op (.qt xs t) := by
  have e : ORule.runQ r op (.qt xs t) = ORule.runQ .q47 op (.qt xs t) := by rcases hr with rfl | rfl | rfl <;> rfl
  rw [e]
  simp only [Op.callQtGeneric, ORule.runQ]
  cases hp : cartOf xs with
  | none => exact absurd hp h
  | some p =>
    simp only
    cases h : op.call (.posTime p t) with
    | error e => rfl
    | ok w =>
      cases w with
      | posTime q t' => simp only [ok_bind, bind_assoc, pure_bind]
      | _ => rfl

/-- **C75**: calls on Quantities of one to four components are dispatch over the table. -/
theorem C75_quantity (op : Op) (xs : List ℝ) (n : Base) (hn : lenCls xs.length = some n) :
    op.callQ (.q xs) =
      (resolve opTable [.inst (.lib op.opBase), .inst (.lib n)]).run (fun r => r.runQ op (.q xs)) := by
  have hc := lenCls_cases xs n hn
  have hm : n ∈ lenBases := by rcases hc with h | h | h | h <;> rw [h.1] <;> decide
  rw [opTable_eq, op_q _ (mem_opBases op) n hm]
  rcases hc with ⟨rfl, x, rfl⟩ | ⟨rfl, x, y, rfl⟩ | ⟨rfl, x, y, z, rfl⟩ | ⟨rfl, x, y, z, w, rfl⟩
  · cases op <;> first | exact generic1 _ x | rfl
  · cases op <;> first | exact generic2 _ x y | rfl
  · cases op with
    | identity => rfl
    | rotation R => rfl
    | galilean R d v => rfl
    | _ => exact generic3 _ x y z (fun h => by cases h) (fun R h => by cases h)
  · cases op <;> first | exact generic4 _ x y z w | rfl

/-- **C75**: so are calls on Quantities of one to three components with a time. -/
theorem C75_quantity_time (op : Op) (xs : List ℝ) (t : ℝ) (n : Base) (hn : lenCls xs.length = some n) (h4 : n ≠ .len4) :
    op.callQ (.qt xs t) =
      (resolve opTable [.inst (.lib op.opBase), .inst (.lib n), .inst (.lib .time0)]).run
        (fun r => r.runQ op (.qt xs t)) := by
  have hc := lenCls_cases xs n hn
  have hm : n ∈ lenBases := by rcases hc with h | h | h | h <;> rw [h.1] <;> decide
  rw [opTable_eq, op_qt _ (mem_opBases op) n hm]
  rcases hc with ⟨rfl, x, rfl⟩ | ⟨rfl, x, y, rfl⟩ | ⟨rfl, x, y, z, rfl⟩ | ⟨rfl, -⟩
  · cases op <;> first | exact genericT _ [x] t .q47 (by decide) (by simp [cartOf]) | rfl
  · cases op <;> first | exact genericT _ [x, y] t .q94 (by decide) (by simp [cartOf]) | rfl
  · cases op <;> first | exact genericT _ [x, y, z] t .q156 (by decide) (by simp [cartOf]) | rfl
  · exact absurd rfl h4

/-! ### Import order, and operators of users -/

theorem opModules_distinct : opModules.Pairwise fun A B => ∀ a ∈ A, ∀ b ∈ B, ¬ Same a.sig b.sig := by
  have h : opModules.Pairwise fun A B => (A.all fun a => B.all fun b => !sameB a.sig b.sig) = true := by decide +kernel
  refine h.imp fun {A B} hAB a ha b hb hs => ?_
  simp only [List.all_eq_true] at hAB
  have := hAB a ha b hb
  simp [sameB, hs.1, hs.2] at this

/-- **C75**: the order in which the operator modules are imported makes no difference to any call. -/
theorem C75_import_order (mods : List (List (Method ORule))) (h : mods.Perm opModules) (args : List Atom) :
    resolve (registerAll mods.flatten) args = resolve opTable args := by
  have hd : mods.Pairwise fun A B => ∀ a ∈ A, ∀ b ∈ B, ¬ Same a.sig b.sig :=
    h.symm.pairwise opModules_distinct fun {A B} hAB b hb a ha hs => hAB a ha b hb (same_symm hs)
  unfold opTable opRegs
  refine C74_order _ _ args fun m => ?_
  rw [last_flatten _ hd, last_flatten _ opModules_distinct]
  simp only [h.mem_iff]

/-- a user's operator class, derived from `AbstractOperator` or `AbstractGalileanOperator`, possibly through other classes of
the user -/
def UserOp (c : Cls) : Prop := (∃ p n, c = .user p n) ∧ (c.root = .operator ∨ c.root = .galOp)

/-- **C75**: an operator class of a user without rules of its own: calls on positions and velocities raise
`NotFoundLookupError`, calls on a `FourVector` or a Quantity run the generic rules, which call the operator on positions. -/
theorem C75_user_operator (c : Cls) (hc : UserOp c) :
    (∀ k : Kind, resolve opTable [.inst c, .inst (.lib k.cls)] = .notFound) ∧
    (∀ k : Kind, resolve opTable [.inst c, .inst (.lib k.cls), .inst (.lib .time0)] = .notFound) ∧
    (∀ v : VKind, resolve opTable [.inst c, .inst (.lib v.cls)] = .notFound) ∧
    resolve opTable [.inst c, .inst (.lib .fourVector)] = .found .q191 ∧
    resolve opTable [.inst c, .inst (.lib .len1)] = .found .q28 ∧
    resolve opTable [.inst c, .inst (.lib .len2)] = .found .q76 ∧
    resolve opTable [.inst c, .inst (.lib .len3)] = .found .q126 ∧
    resolve opTable [.inst c, .inst (.lib .len4)] = .found .q222 := by
  have key : ∀ r, c.root = r → (r = .operator ∨ r = .galOp) := fun r h => h ▸ hc.2
  have e1 : ∀ b, resolve opTable [.inst c, .inst (.lib b)] = resolve opRegs [.inst (.lib c.root), .inst (.lib b)] := by
    intro b; rw [op_root, opTable_eq]; rfl
  have e2 : ∀ b b', resolve opTable [.inst c, .inst (.lib b), .inst (.lib b')] =
      resolve opRegs [.inst (.lib c.root), .inst (.lib b), .inst (.lib b')] := by
    intro b b'; rw [op_root, opTable_eq]; rfl
  simp only [e1, e2]
  generalize c.root = r at key
  have h1 : ∀ r ∈ [Base.operator, .galOp], ∀ k ∈ allKinds, resolve opRegs [.inst (.lib r), .inst (.lib k.cls)] = .notFound ∧
      resolve opRegs [.inst (.lib r), .inst (.lib k.cls), .inst (.lib .time0)] = .notFound := by decide +kernel
  have h2 : ∀ r ∈ [Base.operator, .galOp], ∀ k ∈ allVKinds, resolve opRegs [.inst (.lib r), .inst (.lib k.cls)] = .notFound := by
    decide +kernel
  have hr : r ∈ [Base.operator, .galOp] := by rcases key r rfl with rfl | rfl <;> decide
  refine ⟨fun k => (h1 r hr k (mem_allKinds k)).1, fun k => (h1 r hr k (mem_allKinds k)).2,
    fun k => h2 r hr k (mem_allVKinds k), ?_⟩
  rcases key r rfl with rfl | rfl <;> decide +kernel

/-- the rule a user registers for `op(position)` -/
def userPos (c : Cls) (r : ORule) : Method ORule := ⟨⟨[[.inst c], I .pos], none⟩, 0, r⟩

theorem applicable_snoc (regs : List (Method ρ)) (x : Method ρ) (args : List Atom) (m : Method ρ)
    (hx : ∀ m ∈ regs, ¬ Same m.sig x.sig) :
    Applicable (regs ++ [x]) args m ↔ (m = x ∧ Accepts x.sig args) ∨ Applicable regs args m := by
  unfold Applicable
  rw [last_snoc]
  constructor
  · rintro ⟨rfl | ⟨h, -⟩, ha⟩
    · exact Or.inl ⟨rfl, ha⟩
    · exact Or.inr ⟨h, ha⟩
  · rintro (⟨rfl, ha⟩ | ⟨h, ha⟩)
    · exact ⟨Or.inl rfl, ha⟩
    · exact ⟨Or.inr ⟨h, hx m (last_mem h)⟩, ha⟩

/-- **C75**: an operator class of a user with a rule for `op(position)` only: every call on a `FourVector` is ambiguous (with
the generic rule for every operator, a `FourVector` being a position). The operators of the library have a rule for a
`FourVector` of their own. -/
theorem C75_user_four_ambiguous (c : Cls) (hc : UserOp c) (r : ORule) :
    resolve (registerAll (opRegs ++ [userPos c r])) [.inst c, .inst (.lib .fourVector)] = .ambiguous := by
  obtain ⟨⟨p, n, rfl⟩, hroot⟩ := hc
  have hu : UserRule (userPos (.user p n) r) := ⟨0, _, rfl, fun b hb => ⟨p, n, by simp at hb; exact Or.inl hb⟩⟩
  have hx : ∀ m ∈ opRegs, ¬ Same m.sig (userPos (.user p n) r).sig :=
    fun m hm hs => user_not_same m _ (opRegs_lib m hm) hu (same_symm hs)
  have hself : (Cls.user p n).sub (.user p n) = true := by simp [Cls.sub]
  have hG : Accepts (userPos (.user p n) r).sig [.inst (.user p n), .inst (.lib .fourVector)] := by
    rw [← accepts_iff]
    simp [userPos, Sig.matches, Sig.expand, zipLe, hintLe, Atom.le, hself, I]; decide
  let F : Method ORule := mo [I .operator, I .fourVector] .q191
  -- the rules of the library for these arguments: only the generic one
  have hlib : ∀ m, Applicable opRegs [.inst (.user p n), .inst (.lib .fourVector)] m ↔ m = F := by
    intro m
    have hl : Last opRegs m ↔ m ∈ opRegs := by
      rw [← (registerAll_spec opRegs).1 m]; show m ∈ opTable ↔ _; rw [opTable_eq]
    have h2 : ∀ b ∈ [Base.operator, .galOp], ∀ m ∈ opRegs,
        m.sig.matches [.inst (.lib b), .inst (.lib .fourVector)] = decide (m = F) := by decide +kernel
    have hb : (Cls.user p n).root ∈ [Base.operator, .galOp] := by simp [hroot]
    unfold Applicable
    rw [hl, ← accepts_iff]
    constructor
    · rintro ⟨hm, ha⟩
      rw [matches_root m.sig (opRegs_lib m hm)] at ha
      have := h2 _ hb m hm
      simp only [List.map_cons, List.map_nil, Atom.root] at ha
      change m.sig.matches [.inst (.lib (Cls.user p n).root), .inst (.lib .fourVector)] = true at ha
      rw [this] at ha
      exact of_decide_eq_true ha
    · rintro rfl
      have hm : F ∈ opRegs := by decide +kernel
      refine ⟨hm, ?_⟩
      rw [matches_root F.sig (opRegs_lib F hm)]
      exact (h2 _ hb F hm).trans (by simp)
  have happ : ∀ m, Applicable (opRegs ++ [userPos (.user p n) r]) [.inst (.user p n), .inst (.lib .fourVector)] m ↔
      m = userPos (.user p n) r ∨ m = F := by
    intro m
    rw [applicable_snoc _ _ _ _ hx, hlib]
    exact ⟨fun h => h.imp And.left id, fun h => h.imp (fun e => ⟨e, hG⟩) id⟩
  have hFG : F.sig.le (userPos (.user p n) r).sig = false := by
    rcases hroot with h | h <;> simp [F, mo, userPos, Sig.le, zipLe, Sig.expand, hintLe, Atom.le, Cls.sub, I, varLe]
  have hGF : (userPos (.user p n) r).sig.le F.sig = false := by
    have : Atom.le (.inst (.lib .pos)) (.inst (.lib .fourVector)) = false := by decide
    simp [F, mo, userPos, Sig.le, zipLe, Sig.expand, hintLe, I, varLe, this]
  have hms : ∀ m, MostSpecific (opRegs ++ [userPos (.user p n) r]) [.inst (.user p n), .inst (.lib .fourVector)] m ↔
      m = userPos (.user p n) r ∨ m = F := by
    intro m
    unfold MostSpecific
    simp only [happ]
    refine ⟨And.left, fun h => ⟨h, ?_⟩⟩
    rcases h with rfl | rfl <;> rintro m' (rfl | rfl) hle
    · exact hle
    · rw [hFG] at hle; cases hle
    · rw [hGF] at hle; cases hle
    · exact hle
  have hne : userPos (.user p n) r ≠ F := fun e => by rw [e] at hFG; revert hFG; decide +kernel
  rw [(C74_resolve _ _).2.2]
  refine ⟨⟨F, (happ F).2 (Or.inr rfl)⟩, ?_⟩
  rintro m ⟨hm, hp⟩
  rcases (hms m).1 hm with rfl | rfl
  · have := hp F ((hms F).2 (Or.inr rfl)) (Ne.symm hne); exact absurd this (by show ¬ (0 < 0); omega)
  · have := hp _ ((hms _).2 (Or.inl rfl)) hne; exact absurd this (by show ¬ (0 < 0); omega)

/-- the rule a user registers for `op(four_vector)` -/
def userFour (c : Cls) (r : ORule) : Method ORule := ⟨⟨[[.inst c], I .fourVector], none⟩, 0, r⟩

/-- **C75**: with a rule for a `FourVector` as well, in whatever order the two are registered, that rule is run. -/
theorem C75_user_four_own_rule (c : Cls) (hc : UserOp c) (r r' : ORule) (regs : List (Method ORule))
    (hr : regs = [userPos c r, userFour c r'] ∨ regs = [userFour c r', userPos c r]) :
    resolve (registerAll (opRegs ++ regs)) [.inst c, .inst (.lib .fourVector)] = .found r' := by
  obtain ⟨⟨p, n, rfl⟩, hroot⟩ := hc
  have hself : (Cls.user p n).sub (.user p n) = true := by simp [Cls.sub]
  have hop : (Cls.user p n).sub (.lib .operator) = true := by
    rw [sub_lib]; rcases hroot with h | h <;> rw [h] <;> decide
  have h4 : Atom.le (.inst (.lib .fourVector)) (.inst (.lib .pos)) = true := by decide
  have h4' : Atom.le (.inst (.lib .pos)) (.inst (.lib .fourVector)) = false := by decide
  have h44 : Atom.le (.inst (.lib .fourVector)) (.inst (.lib .fourVector)) = true := by decide
  have uP : UserRule (userPos (.user p n) r) := ⟨0, _, rfl, fun b hb => ⟨p, n, by simp at hb; exact Or.inl hb⟩⟩
  have uF : UserRule (userFour (.user p n) r') := ⟨0, _, rfl, fun b hb => ⟨p, n, by simp at hb; exact Or.inl hb⟩⟩
  have hPF : (userPos (.user p n) r).sig.le (userFour (.user p n) r').sig = false := by
    simp [userPos, userFour, Sig.le, zipLe, Sig.expand, hintLe, I, varLe, h4']
  have hFP : (userFour (.user p n) r').sig.le (userPos (.user p n) r).sig = true := by
    simp [userPos, userFour, Sig.le, zipLe, Sig.expand, hintLe, I, varLe, h4, Atom.le, hself]; decide
  have hsame : ¬ Same (userPos (.user p n) r).sig (userFour (.user p n) r').sig := fun h => by
    have := h.1; rw [hPF] at this; cases this
  have hG : Accepts (userFour (.user p n) r').sig [.inst (.user p n), .inst (.lib .fourVector)] := by
    rw [← accepts_iff]
    simp [userFour, Sig.matches, Sig.expand, zipLe, hintLe, Atom.le, hself, I]; decide
  -- what is applicable besides the rule: the other rule of the user, and rules of the library
  have hlast : Last (opRegs ++ regs) (userFour (.user p n) r') := by
    rcases hr with rfl | rfl
    · exact ⟨opRegs ++ [userPos (.user p n) r], [], by simp, by simp⟩
    · exact ⟨opRegs, [userPos (.user p n) r], by simp, by simpa using hsame⟩
  have hmem : ∀ m, Last (opRegs ++ regs) m → m ∈ opRegs ∨ m = userPos (.user p n) r ∨ m = userFour (.user p n) r' := by
    intro m h
    have := last_mem h
    rw [List.mem_append] at this
    rcases this with h | h
    · exact Or.inl h
    · rcases hr with rfl | rfl <;> simp at h <;> tauto
  have hlibF : ∀ m ∈ opRegs, Accepts m.sig [.inst (.user p n), .inst (.lib .fourVector)] →
      m = mo [I .operator, I .fourVector] .q191 := by
    intro m hm ha
    have h2 : ∀ b ∈ [Base.operator, .galOp], ∀ m ∈ opRegs,
        m.sig.matches [.inst (.lib b), .inst (.lib .fourVector)] = decide (m = mo [I .operator, I .fourVector] .q191) := by
      decide +kernel
    have hb : (Cls.user p n).root ∈ [Base.operator, .galOp] := by simp [hroot]
    rw [← accepts_iff, matches_root m.sig (opRegs_lib m hm)] at ha
    change m.sig.matches [.inst (.lib (Cls.user p n).root), .inst (.lib .fourVector)] = true at ha
    rw [h2 _ hb m hm] at ha
    exact of_decide_eq_true ha
  have hFF : (mo [I .operator, I .fourVector] .q191).sig.le (userFour (.user p n) r').sig = false := by
    simp [mo, userFour, Sig.le, zipLe, Sig.expand, hintLe, Atom.le, Cls.sub, I, varLe]
  have hUF : (userFour (.user p n) r').sig.le (mo [I .operator, I .fourVector] .q191).sig = true := by
    simp [mo, userFour, Sig.le, zipLe, Sig.expand, hintLe, I, varLe, h44, Atom.le, hop]; decide
  rw [(C74_resolve _ _).1]
  refine ⟨userFour (.user p n) r', ⟨⟨⟨hlast, hG⟩, ?_⟩, ?_⟩, rfl⟩
  · rintro m' ⟨hl, ha⟩ hle
    rcases hmem m' hl with hm | rfl | rfl
    · rw [hlibF m' hm ha, hFF] at hle; cases hle
    · rw [hPF] at hle; cases hle
    · exact hle
  · rintro m' ⟨⟨hl, ha⟩, hmin⟩ hne
    exfalso
    rcases hmem m' hl with hm | rfl | rfl
    · have e := hlibF m' hm ha
      have := hmin _ ⟨hlast, hG⟩ (by rw [e]; exact hUF)
      rw [e, hFF] at this; cases this
    · have := hmin _ ⟨hlast, hG⟩ hFP
      rw [hPF] at this; cases this
    · exact hne rfl

/-! ### Instances -/

/-- a user's operator -/
example : UserOp (.user (.user (.lib .galOp) 0) 3) := ⟨⟨_, _, rfl⟩, Or.inr rfl⟩

example : resolve (registerAll (opRegs ++ [userPos (.user (.lib .operator) 7) .s211]))
    [.inst (.user (.lib .operator) 7), .inst (.lib .fourVector)] = .ambiguous :=
  C75_user_four_ambiguous _ ⟨⟨_, _, rfl⟩, Or.inl rfl⟩ _

/-- with precedence 1, as the rule of `Pipe` has it, the rule wins -/
example : resolve (registerAll (opRegs ++ [{ userPos (.user (.lib .operator) 7) .s211 with prec := 1 }]))
    [.inst (.user (.lib .operator) 7), .inst (.lib .fourVector)] = .found .s211 := by decide +kernel

/-- without its precedence, the rule for composite operators on positions would be ambiguous on a `FourVector` -/
example : resolve (registerAll (opRegs.map fun m => { m with prec := 0 })) [.inst (.lib .pipeOp), .inst (.lib .fourVector)] =
    .ambiguous := by decide +kernel

/-- a Pipe on a Quantity of three and of two components -/
example : lenCls [(1 : ℝ), 2, 3].length = some .len3 := rfl

example : resolve opTable [.inst (.lib .pipeOp), .inst (.lib .len3)] = .found .q126 ∧
    resolve opTable [.inst (.lib .pipeOp), .inst (.lib .len2)] = .ambiguous := by
  rw [opTable_eq, op_q .pipeOp (by decide) .len3 (by decide), op_q .pipeOp (by decide) .len2 (by decide)]
  decide

/-- the operator modules in reverse order -/
example (args : List Atom) : resolve (registerAll opModules.reverse.flatten) args = resolve opTable args :=
  C75_import_order _ (List.reverse_perm _) args

end Verif
