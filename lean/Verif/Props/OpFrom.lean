import Verif.OpFrom
import Verif.Props.ClassGraph

/-!
# `from_` of operators and frames

C79: what `cls.from_` of operator and frame classes does, and what the converters of their fields store.
-/

namespace Verif

open List

/-! ### Specification -/

/-- What `cls.from_(*args)` of an operator class does, `ds` the classes of the arguments. -/
def opMade (c : Cls) : List Cls → OMade
  | [d] =>
    if d.isA .operator then if d = c then .same else if d.sub c then .callFields c else .typeError
    else if d.isA .mapAny then .callMapping c
    else if c.isA .rotationOp && d.isA .rotObj then .callMatrix c
    else .callArgs c
  | [a, b] => if a.isA .arrayLike && b.isA .strObj then .callQuantity c else .callArgs c
  | _ => .callArgs c

/-! ### Reduction to classes of the library -/

theorem opFromTable_eq : opFromTable = opFromRegs := by decide +kernel

theorem frameFromTable_eq : frameFromTable = frameFromRegs := by decide +kernel

theorem opFrom_root (args : List Atom) : resolve opFromTable args = resolve opFromRegs (args.map Atom.root) := by
  rw [opFromTable_eq]
  unfold resolve candidates
  congr 2
  have : ∀ m ∈ opFromRegs, m.sig.isLib = true := by decide +kernel
  exact List.filter_congr fun m hm => matches_root m.sig (this m hm) args

theorem frameFrom_root (args : List Atom) : resolve frameFromTable args = resolve frameFromRegs (args.map Atom.root) := by
  rw [frameFromTable_eq]
  unfold resolve candidates
  congr 2
  have : ∀ m ∈ frameFromRegs, m.sig.isLib = true := by decide +kernel
  exact List.filter_congr fun m hm => matches_root m.sig (this m hm) args

/-- the operator classes -/
def opClsBases : List Base := allBases.filter fun b => b.mro.contains .operator

theorem mem_opClsBases {c : Cls} (hc : c.isA .operator = true) : c.root ∈ opClsBases := by
  rw [isA_root] at hc
  exact List.mem_filter.2 ⟨mem_allBases _, hc⟩

theorem any_all (l : List Atom) : zipLe (l.map fun a => [a]) (List.replicate l.length [.any]) = true := by
  induction l with
  | nil => rfl
  | cons a l ih =>
    rw [List.map_cons, List.length_cons, List.replicate_succ]
    show (hintLe [a] [.any] && _) = true
    rw [ih, Bool.and_true]
    cases a <;> rfl

set_option maxRecDepth 8000 in
theorem op_one : ∀ b ∈ opClsBases, ∀ d ∈ allBases, resolve opFromRegs [.klass (.lib b), .inst (.lib d)] =
    .found (if d.mro.contains .operator then .o241 else if d.mro.contains .mapAny then .o59
      else if b.mro.contains .rotationOp && d.mro.contains .rotObj then .r168 else .o45) := by decide +kernel

theorem op_none : ∀ b ∈ opClsBases, resolve opFromRegs [.klass (.lib b)] = .found .o45 := by decide +kernel

/-- two arguments: all that matters is whether they are an array and a string -/
theorem op_two (b : Base) (hb : b ∈ opClsBases) (d e : Base) : resolve opFromRegs [.klass (.lib b), .inst (.lib d), .inst (.lib e)] =
    .found (if d.mro.contains .arrayLike && e.mro.contains .strObj then .o76 else .o45) := by
  have h1 : b.mro.contains .operator = true := (List.mem_filter.1 hb).2
  have hm : ∀ m ∈ opFromRegs, m.sig.matches [.klass (.lib b), .inst (.lib d), .inst (.lib e)] =
      decide (m.rule = .o45 ∨ (m.rule = .o76 ∧ (d.mro.contains .arrayLike && e.mro.contains .strObj) = true)) := by
    intro m hm
    simp only [opFromRegs, List.mem_cons, List.not_mem_nil, or_false] at hm
    rcases hm with rfl | rfl | rfl | rfl | rfl
    · have : (List.contains b.mro Base.operator && true) = true := by rw [h1]; rfl
      simp [Sig.matches, Sig.expand, zipLe, hintLe, T, Atom.le, Cls.sub]
      simpa using h1
    · simp [Sig.matches, Sig.expand]
    · simp [Sig.matches, Sig.expand, zipLe, hintLe, T, I, Atom.le, Cls.sub]
      simp at h1
      simp [h1]
    · simp [Sig.matches, Sig.expand]
    · simp [Sig.matches, Sig.expand]
  have hf := List.filter_congr hm
  unfold resolve candidates
  rw [hf]
  cases (d.mro.contains .arrayLike && e.mro.contains .strObj) <;> decide +kernel

/-- three or more arguments -/
theorem op_many (b : Base) (hb : b ∈ opClsBases) (x y z : Atom) (l : List Atom) :
    resolve opFromRegs (.klass (.lib b) :: x :: y :: z :: l) = .found .o45 := by
  have h1 : b.mro.contains .operator = true := (List.mem_filter.1 hb).2
  have hm : ∀ m ∈ opFromRegs, m.sig.matches (.klass (.lib b) :: x :: y :: z :: l) = decide (m.rule = .o45) := by
    intro m hm
    simp only [opFromRegs, List.mem_cons, List.not_mem_nil, or_false] at hm
    rcases hm with rfl | rfl | rfl | rfl | rfl
    · have := any_all (x :: y :: z :: l)
      simp only [List.length_cons] at this
      have e : (Sig.expand ⟨[T .operator], some [.any]⟩ (Atom.klass (.lib b) :: x :: y :: z :: l).length) =
          T .operator :: List.replicate (l.length + 1 + 1 + 1) [.any] := by
        simp [Sig.expand]
      unfold Sig.matches
      simp only
      rw [e]
      simp only [List.length_cons, List.length_replicate, beq_self_eq_true, Bool.true_and, List.map_cons, zipLe, decide_true]
      simp only [List.map_cons] at this
      rw [this, Bool.and_true]
      simp [hintLe, T, Atom.le, Cls.sub, h1]
      simpa using h1
    all_goals
      simp [Sig.matches, Sig.expand]
  have hf : (opFromRegs.filter fun m => m.sig.matches (.klass (.lib b) :: x :: y :: z :: l)) =
      opFromRegs.filter fun m => decide (m.rule = .o45) := List.filter_congr hm
  unfold resolve candidates
  rw [hf]
  decide +kernel

/-- **C79**: `cls.from_(*args)` for every operator class, any number of arguments of any classes. It is never ambiguous and
always finds a rule; arguments without a rule of their own go to the class as they are. -/
theorem C79_operator (c : Cls) (hc : c.isA .operator = true) (ds : List Cls) : opFrom c ds = opMade c ds := by
  unfold opFrom
  rw [opFrom_root]
  have hb := mem_opClsBases hc
  match ds with
  | [] =>
    show (match resolve opFromRegs [.klass (.lib c.root)] with | .found r => r.run c none | .notFound => _ | .ambiguous => _) = _
    rw [op_none _ hb]; rfl
  | [d] =>
    show (match resolve opFromRegs [.klass (.lib c.root), .inst (.lib d.root)] with
      | .found r => r.run c (some d) | .notFound => _ | .ambiguous => _) = _
    rw [op_one _ hb _ (mem_allBases _)]
    simp only [opMade]
    rw [isA_root c, isA_root d]
    simp only
    cases h1 : d.root.mro.contains .operator with
    | true =>
      simp only [if_true, OFRule.run]
      cases h2 : d.sub c with
      | true => simp only [Bool.not_true, Bool.false_eq_true, if_false, if_true]
      | false =>
        have hne : d ≠ c := fun e => by rw [e, sub_refl] at h2; cases h2
        simp only [Bool.not_false, if_true, if_neg hne, Bool.false_eq_true, if_false]
    | false =>
      simp only [Bool.false_eq_true, if_false]
      cases h2 : d.root.mro.contains .mapAny with
      | true => rfl
      | false =>
        simp only [Bool.false_eq_true, if_false]
        cases h3 : (c.root.mro.contains .rotationOp && d.root.mro.contains .rotObj) <;> rfl
  | [a, b] =>
    show (match resolve opFromRegs [.klass (.lib c.root), .inst (.lib a.root), .inst (.lib b.root)] with
      | .found r => r.run c (some a) | .notFound => _ | .ambiguous => _) = _
    rw [op_two _ hb]
    simp only [opMade]
    rw [isA_root a, isA_root b]
    simp only
    cases h3 : (a.root.mro.contains .arrayLike && b.root.mro.contains .strObj) <;> rfl
  | a :: b :: e :: l =>
    show (match resolve opFromRegs (.klass (.lib c.root) :: Atom.root (.inst a) :: Atom.root (.inst b) :: Atom.root (.inst e) ::
      (l.map Atom.inst).map Atom.root) with | .found r => r.run c (some a) | .notFound => _ | .ambiguous => _) = _
    rw [op_many _ hb]; rfl

/-- **C79**: `cls.from_(op)` is `op` itself exactly if `op` is of the class `cls` itself. So an abstract operator class never
returns the operator, it calls itself on the fields, and `Pipe.from_(op)` raises although `Pipe(op)` is a pipe of `op`. -/
theorem C79_operator_same (c d : Cls) (hc : c.isA .operator = true) (hd : d.isA .operator = true) :
    (opFrom c [d] = .same ↔ d = c) ∧ (opFrom c [d] = .typeError ↔ d.sub c = false) ∧
    (d.isA .pipeOp = false → opFrom (.lib .pipeOp) [d] = .typeError ∧ pipeField d = .single) := by
  have h1 := C79_operator c hc [d]
  simp only [opMade] at h1
  rw [h1, hd]
  simp only [if_true]
  refine ⟨?_, ?_, fun hp => ⟨?_, ?_⟩⟩
  · by_cases e : d = c
    · simp [e]
    · rw [if_neg e]
      cases d.sub c <;> simp [e]
  · by_cases e : d = c
    · subst e; rw [sub_refl]; simp
    · rw [if_neg e]
      cases d.sub c <;> simp
  · rw [C79_operator _ rfl]
    simp only [opMade]
    rw [hd]
    have hs : d.sub (.lib .pipeOp) = false := hp
    have hne : d ≠ .lib .pipeOp := fun e => by rw [e] at hp; exact absurd hp (by decide)
    simp only [if_true, if_neg hne, hs, Bool.false_eq_true, if_false]
  · have hs : d.sub (.lib .pipeOp) = false := hp
    have ho : d.sub (.lib .operator) = true := hd
    have hq : d.sub (.lib .opSeq) = false := by
      have : ∀ b ∈ allBases, b.mro.contains .operator = true → b.mro.contains .opSeq = false := by decide +kernel
      rw [isA_root] at hd
      have := this d.root (mem_allBases _) hd
      rw [sub_lib]; exact this
    unfold pipeField
    rw [hq, hs, ho]; rfl

/-! ### Frames -/

/-- What `cls.from_(obj)` of a frame class does. -/
def frameMade (c d : Cls) : OMade :=
  if d.isA .frame then if d.sub c then .same else .typeError
  else if d.isA .mapAny then .callMapping c
  else if (c.isA .icrs && d.isA .apyIcrs) || (c.isA .galactocentric && d.isA .apyGcf) then .callAstropy c
  else .notFound

set_option maxRecDepth 8000 in
theorem frame_one : ∀ b ∈ allBases, b.mro.contains .frame = true → ∀ d ∈ allBases,
    resolve frameFromRegs [.klass (.lib b), .inst (.lib d)] =
      if d.mro.contains .frame then .found .f66 else if d.mro.contains .mapAny then .found .f32
      else if b.mro.contains .icrs && d.mro.contains .apyIcrs then .found .y13
      else if b.mro.contains .galactocentric && d.mro.contains .apyGcf then .found .y31 else .notFound := by decide +kernel

/-- **C79**: `cls.from_(obj)` for every frame class and every object. A frame comes back as it is if it is an instance of `cls`,
also if `cls` is abstract, other than for operators; astropy frames are taken by the class of that name only, not by the
abstract class; nothing is ambiguous. -/
theorem C79_frame (c d : Cls) (hc : c.isA .frame = true) : frameFrom c d = frameMade c d := by
  unfold frameFrom
  rw [frameFrom_root]
  show (match resolve frameFromRegs [.klass (.lib c.root), .inst (.lib d.root)] with
      | .found r => r.run c d | .notFound => _ | .ambiguous => _) = _
  rw [isA_root] at hc
  rw [frame_one _ (mem_allBases _) hc _ (mem_allBases _)]
  unfold frameMade
  rw [isA_root c, isA_root d]
  simp only
  cases h1 : d.root.mro.contains .frame with
  | true => rfl
  | false =>
    simp only [Bool.false_eq_true, if_false]
    cases h2 : d.root.mro.contains .mapAny with
    | true => rfl
    | false =>
      simp only [Bool.false_eq_true, if_false]
      cases h3 : (c.root.mro.contains .icrs && d.root.mro.contains .apyIcrs) with
      | true => rfl
      | false =>
        simp only [Bool.false_eq_true, if_false, Bool.false_or]
        cases h4 : (c.root.mro.contains .galactocentric && d.root.mro.contains .apyGcf) <;> rfl

/-! ### Converters of fields -/

/-- **C79**: the velocity of a boost: every velocity vector is stored as it is, of any dimension and class; a Quantity of any
physical type makes a `CartesianVel3D`; other vectors raise `TypeError`; anything unknown recurses without end. -/
theorem C79_boost (n : ℕ) (d : Cls) :
    (d.isA .vel = true → boostField (n + 2) d = .same) ∧
    (d.root ∈ qtyBases → boostField (n + 2) d = .new (.lib .cartVel3) .c247) ∧
    (d.isA .vector = true → d.isA .vel = false → boostField (n + 2) d = .typeError) ∧
    ((∀ b ∈ namedObjs, d.isA b = false) → boostField (n + 2) d = .recursion) := by
  have hc : VectorClass (.lib .cartVel3) := ⟨rfl, rfl⟩
  have hv : ∀ x : Bool, d.isA .vel = x → d.sub (.lib .vel) = x := fun _ h => h
  refine ⟨fun h => ?_, fun h => ?_, fun h h' => ?_, fun h => ?_⟩
  · unfold boostField; rw [hv _ h]; rfl
  · have h' : d.isA .vel = false := by
      have : ∀ b ∈ qtyBases, b.mro.contains .vel = false := by decide +kernel
      rw [isA_root]; exact this _ h
    unfold boostField; rw [hv _ h']
    simp only [Bool.false_eq_true, if_false]
    rw [C76_quantity n _ d hc h]; rfl
  · unfold boostField; rw [hv _ h']
    simp only [Bool.false_eq_true, if_false]
    rw [C76_vector (n + 1) _ d hc h]
    have h3 : d.isA .vel3 = false := by
      have : ∀ b ∈ allBases, b.mro.contains .vel = false → b.mro.contains .vel3 = false := by decide +kernel
      rw [isA_root] at h' ⊢; exact this _ (mem_allBases _) h'
    have h4 : d.isA .cartVel3 = false := by
      have : ∀ b ∈ allBases, b.mro.contains .vel = false → b.mro.contains .cartVel3 = false := by decide +kernel
      rw [isA_root] at h' ⊢; exact this _ (mem_allBases _) h'
    have hs : Same3 (.lib .cartVel3) d = false := by
      unfold Same3; rw [h3]; rfl
    have hne : d ≠ .lib .cartVel3 := fun e => by rw [e] at h4; exact absurd h4 (by decide)
    have h4 : d.sub (.lib .cartVel3) = false := h4
    rw [hs, h4]
    simp only [Bool.false_eq_true, if_false, if_neg hne]
  · have h' : d.isA .vel = false := by
      have : ∀ b ∈ allBases, b.mro.contains .vector = false → b.mro.contains .vel = false := by decide +kernel
      have hv := h .vector (by simp [namedObjs])
      rw [isA_root] at hv ⊢; exact this _ (mem_allBases _) hv
    unfold boostField; rw [hv _ h']
    simp only [Bool.false_eq_true, if_false]
    rw [C76_other (n + 1) _ d hc h]; rfl

/-- the class has the attributes `lon`, `lat` and `distance` that the frame transforms read -/
def HasLonLat (c : Cls) : Bool :=
  match c.root.compKeys with
  | some ks => ks.contains "lon".toList && ks.contains "lat".toList && ks.contains "distance".toList
  | none => false

theorem hasLonLat_iff (c : Cls) : HasLonLat c = true ↔ c.isA .lonlatPos = true := by
  have : ∀ b ∈ allBases, HasLonLat (.lib b) = (Cls.lib b).isA .lonlatPos := by decide +kernel
  rw [isA_root' c]
  show HasLonLat (.lib c.root) = true ↔ _
  rw [this _ (mem_allBases _)]

/-- **C79**: `galcen` of a `Galactocentric` frame. Every 3-D position is stored as it is, and a Quantity makes a
`CartesianPos3D`: neither has `lon` and `lat` unless it is a `LonLatSphericalPos`, so the frame is made and every transform with
it fails. A mapping to Quantities or an astropy representation makes a `LonLatSphericalPos`. -/
theorem C79_galcen (n : ℕ) (d : Cls) :
    (d.isA .pos3 = true → (galcenField (n + 2) d).stored d = some d ∧ (HasLonLat d = true ↔ d.isA .lonlatPos = true)) ∧
    (d.root ∈ qtyBases → ∃ c, (galcenField (n + 2) d).stored d = some c ∧ HasLonLat c = false) ∧
    (d.root = .mapQ ∨ d.root ∈ repBases → ∃ c, (galcenField (n + 2) d).stored d = some c ∧ HasLonLat c = true) := by
  have hc : VectorClass (.lib .lonlatPos) := ⟨rfl, rfl⟩
  refine ⟨fun h => ⟨?_, hasLonLat_iff d⟩, fun h => ?_, fun h => ?_⟩
  · have hv : d.isA .vector = true := by
      have : ∀ b ∈ allBases, b.mro.contains .pos3 = true → b.mro.contains .vector = true := by decide +kernel
      rw [isA_root] at h ⊢; exact this _ (mem_allBases _) h
    unfold galcenField
    rw [C76_vector (n + 1) _ d hc hv]
    have hs : Same3 (.lib .lonlatPos) d = true := by unfold Same3; rw [h]; rfl
    rw [hs]; rfl
  · refine ⟨.lib .cartPos3, ?_, by decide +kernel⟩
    unfold galcenField
    rw [C76_quantity n _ d hc h]; rfl
  · refine ⟨.lib .lonlatPos, ?_, by decide +kernel⟩
    unfold galcenField
    rcases h with h | h
    · rw [(C76_mapping (n + 1) _ d hc).1 h]; rfl
    · rw [C76_representation n _ d hc h]; rfl

/-- **C79**: `galcen_v_sun`: every 3-D velocity is stored as it is, not as a `CartesianVel3D`; a Quantity makes one. -/
theorem C79_v_sun (n : ℕ) (d : Cls) :
    (d.isA .vel3 = true → (vSunField (n + 2) d).stored d = some d) ∧
    (d.root ∈ qtyBases → (vSunField (n + 2) d).stored d = some (.lib .cartVel3)) := by
  have hc : VectorClass (.lib .cartVel3) := ⟨rfl, rfl⟩
  refine ⟨fun h => ?_, fun h => ?_⟩
  · have hv : d.isA .vector = true := by
      have : ∀ b ∈ allBases, b.mro.contains .vel3 = true → b.mro.contains .vector = true := by decide +kernel
      rw [isA_root] at h ⊢; exact this _ (mem_allBases _) h
    unfold vSunField
    rw [C76_vector (n + 1) _ d hc hv]
    have hs : Same3 (.lib .cartVel3) d = true := by unfold Same3; rw [h]; rfl
    rw [hs]; rfl
  · unfold vSunField
    rw [C76_quantity n _ d hc h]; rfl

/-- **C79**: the translation of a `GalileanTranslation`: a `FourVector` is stored as it is, a Quantity makes one exactly if its
last axis has three elements or it is a `Quantity` with four; a position raises `TypeError`. -/
theorem C79_translation (n : ℕ) (d : Cls) :
    (d = .lib .fourVector → translationField (n + 2) d = .same) ∧
    (d.root ∈ qtyBases → ((translationField (n + 2) d).stored d = some (.lib .fourVector) ↔ d.isA .sh3 = true ∨ d.isA .sh4 = true)) ∧
    (d.isA .vector = true → d.isA .fourVector = false → translationField (n + 2) d = .typeError) := by
  have hc : VectorClass (.lib .fourVector) := ⟨rfl, rfl⟩
  refine ⟨fun h => ?_, fun h => ?_, fun h h' => ?_⟩
  · subst h
    unfold translationField
    rw [C76_vector (n + 1) _ _ hc rfl]; decide
  · unfold translationField
    rw [C76_quantity n _ d hc h]
    show Made.stored (if d.isA .sh3 = true then _ else if d.isA .sh4 = true then _ else _) d = _ ↔ _
    cases h3 : d.isA .sh3 <;> cases h4 : d.isA .sh4 <;> simp [Made.stored]
  · unfold translationField
    rw [C76_vector (n + 1) _ d hc h]
    have hs : Same3 (.lib .fourVector) d = false := by
      unfold Same3
      have e1 : (Cls.lib .fourVector).isA .pos3 = false := rfl
      have e2 : (Cls.lib .fourVector).isA .vel3 = false := rfl
      have e3 : (Cls.lib .fourVector).isA .acc3 = false := rfl
      rw [e1, e2, e3]; rfl
    have hne : d ≠ .lib .fourVector := fun e => by rw [e] at h'; exact absurd h' (by decide)
    have h4 : d.sub (.lib .fourVector) = false := h'
    rw [hs, h4]
    simp only [Bool.false_eq_true, if_false, if_neg hne]

/-- **C79**: the parts of a `GalileanOperator`: an operator of the class of the part is stored as it is (for the rotation, of
that very class: one of a user's subclass becomes a `GalileanRotation` with its fields); any other operator raises `TypeError`; what is no operator or mapping goes to the class of the part. -/
theorem C79_parts (c : Base) (h : c ∈ [Base.rotationOp, .translationOp, .boostOp]) (d : Cls) :
    (d = .lib c → partField c d = .same) ∧
    (d.isA .operator = true → d.isA c = false → partField c d = .typeError) ∧
    (d.isA .operator = false → d.isA .mapAny = false → d.isA .rotObj = false → partField c d = .callArgs (.lib c)) ∧
    (d.isA c = true → c ≠ .rotationOp → partField c d = .same) ∧
    (d.isA c = true → c = .rotationOp → d ≠ .lib c → partField c d = .callFields (.lib c)) := by
  have hc : (Cls.lib c).isA .operator = true := by
    have : ∀ c ∈ [Base.rotationOp, .translationOp, .boostOp], (Cls.lib c).isA .operator = true := by decide
    exact this c h
  have hm : ∀ d : Cls, d.isA c = true → d.isA .operator = true := by
    have : ∀ c ∈ [Base.rotationOp, .translationOp, .boostOp], ∀ b ∈ allBases, b.mro.contains c = true →
      b.mro.contains .operator = true := by decide +kernel
    intro d hd
    rw [isA_root] at hd ⊢
    exact this c h _ (mem_allBases _) hd
  refine ⟨fun e => ?_, fun ho hd => ?_, fun ho hm' hr => ?_, fun hd hr => ?_, fun hd hr hne => ?_⟩
  · subst e
    unfold partField
    split
    · rfl
    · rw [C79_operator _ hc]
      simp only [opMade]
      rw [hc]
      simp only [if_true]
  · have hs : d.sub (.lib c) = false := hd
    unfold partField
    rw [if_neg (by rw [hs]; simp), C79_operator _ hc]
    simp only [opMade]
    have hne : d ≠ .lib c := fun e => by rw [e, sub_refl] at hs; cases hs
    rw [ho, hs]
    simp only [if_true, if_neg hne, Bool.false_eq_true, if_false]
  · have hd : d.sub (.lib c) = false := by
      cases hh : d.sub (.lib c) with
      | false => rfl
      | true => rw [hm d hh] at ho; cases ho
    unfold partField
    rw [if_neg (by rw [hd]; simp), C79_operator _ hc]
    simp only [opMade]
    rw [ho, hm', hr]
    simp only [Bool.and_false, Bool.false_eq_true, if_false]
  · unfold partField
    exact if_pos ⟨hr, hd⟩
  · unfold partField
    rw [if_neg (fun h => h.1 hr), C79_operator _ hc]
    simp only [opMade]
    rw [hm d hd, show d.sub (.lib c) = true from hd]
    simp only [if_true, if_neg hne]

/-! ### Examples -/

/-- a user's boost stays what it is as the velocity of a `GalileanOperator`, a user's rotation does not -/
example : partField .boostOp (.user (.lib .boostOp) 1) = .same ∧
    partField .rotationOp (.user (.lib .rotationOp) 1) = .callFields (.lib .rotationOp) :=
  ⟨(C79_parts .boostOp (by decide) _).2.2.2.1 rfl (by decide), (C79_parts .rotationOp (by decide) _).2.2.2.2 rfl rfl nofun⟩


/-- `AbstractOperator.from_(boost)` calls the abstract class -/
example : opFrom (.lib .operator) [.lib .boostOp] = .callFields (.lib .operator) := by
  rw [C79_operator _ rfl]; decide +kernel

/-- `Galactocentric(galcen=CylindricalPos(...))` is accepted and useless -/
example : (galcenField 5 (.lib .cylPos)).stored (.lib .cylPos) = some (.lib .cylPos) ∧ HasLonLat (.lib .cylPos) = false :=
  ⟨((C79_galcen 3 (.lib .cylPos)).1 rfl).1, by decide +kernel⟩

example : frameFrom (.lib .frame) (.user (.lib .galactocentric) 2) = .same ∧ frameFrom (.lib .frame) (.lib .apyIcrs) = .notFound := by
  rw [C79_frame _ _ rfl, C79_frame _ _ rfl]; decide +kernel

/-- a boost takes a 2-D velocity as it is -/
example : boostField 7 (.lib .polarVel) = .same := (C79_boost 5 _).1 rfl

end Verif
