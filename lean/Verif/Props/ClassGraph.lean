import Verif.ClassGraph
import Verif.Props.DispatchFrom

/-!
# The graph of vector classes

C78: `differential_cls`, `integral_cls`, `_cartesian_cls` for all classes, those of users included, and the names of the
components of products with times.
-/

namespace Verif

open List

/-! ### Specification -/

/-- a class of users on the way from `c` to `coordinax` defines nothing itself -/
def Inherits (ov : Overrides) : Cls → Prop
  | .lib _ => True
  | .user p n => ov (.user p n) = none ∧ Inherits ov p

/-- the dimensions: the abstract classes of positions, velocities and accelerations -/
def dimTriples : List (Base × Base × Base) :=
  [(.pos1, .vel1, .acc1), (.pos2, .vel2, .acc2), (.pos3, .vel3, .acc3), (.posN, .velN, .accN)]

/-- the Cartesian classes -/
def cartTriples : List (Base × Base × Base) :=
  [(.cartPos1, .cartVel1, .cartAcc1), (.cartPos2, .cartVel2, .cartAcc2), (.cartPos3, .cartVel3, .cartAcc3),
   (.cartPosN, .cartVelN, .cartAccN)]

/-- `d` is one derivative above `c`, in the same dimension -/
def Above (c d : Cls) : Bool :=
  dimTriples.any fun t => (c.isA t.1 && d.isA t.2.1) || (c.isA t.2.1 && d.isA t.2.2)

/-- `k` is the Cartesian class of the order and dimension of `c` -/
def CartesianOf (c k : Cls) : Bool :=
  (dimTriples.zip cartTriples).any fun (t, s) =>
    (c.isA t.1 && k == .lib s.1) || (c.isA t.2.1 && k == .lib s.2.1) || (c.isA t.2.2 && k == .lib s.2.2)

/-- the concrete classes of `coordinax` that have velocities, by order -/
def families : List (Base × Base × Base) :=
  cartTriples ++ [(.radialPos, .radialVel, .radialAcc), (.polarPos, .polarVel, .polarAcc),
    (.twoSpherePos, .twoSphereVel, .twoSphereAcc), (.cylPos, .cylVel, .cylAcc), (.sphPos, .sphVel, .sphAcc),
    (.lonlatPos, .lonlatVel, .lonlatAcc), (.mathPos, .mathVel, .mathAcc), (.prolatePos, .prolateVel, .prolateAcc)]

/-! ### Users' classes -/

theorem attr_root (own : Base → Option ClsAns) (ov : Overrides) : ∀ (c : Cls), Inherits ov c →
    c.attr own ov = c.root.lookupAttr own
  | .lib _, _ => rfl
  | .user p n, h => by
    show (ov (.user p n)).getD (p.attr own ov) = _
    rw [h.1]
    exact attr_root own ov p h.2

/-- **C78**: a class that users derive, at any depth, has the derivative, integral and Cartesian class of its base in `coordinax`
unless a class on the way defines its own. -/
theorem C78_user (ov : Overrides) (c : Cls) (h : Inherits ov c) :
    c.differential ov = (Cls.lib c.root).differential ov ∧ c.integral ov = (Cls.lib c.root).integral ov ∧
    c.cartesian ov = (Cls.lib c.root).cartesian ov :=
  ⟨attr_root _ ov c h, attr_root _ ov c h, attr_root _ ov c h⟩

/-- `c` is derived from `q`, and no class in between or `c` itself defines the attribute -/
inductive InheritsFrom (ov : Overrides) (q : Cls) : Cls → Prop
  | refl : InheritsFrom ov q q
  | step (p : Cls) (n : ℕ) (h : ov (.user p n) = none) (hp : InheritsFrom ov q p) : InheritsFrom ov q (.user p n)

/-- **C78**: the definition of the nearest class counts: if a class defines the attribute, all classes derived from it at any
depth without definitions of their own have that value. -/
theorem C78_override (own : Base → Option ClsAns) (ov : Overrides) (p : Cls) (n : ℕ) (a : ClsAns) (h : ov (.user p n) = some a)
    (c : Cls) (hc : InheritsFrom ov (.user p n) c) : c.attr own ov = a := by
  induction hc with
  | refl => show (ov (.user p n)).getD _ = a; rw [h]; rfl
  | step p' n' h' _ ih => show (ov (.user p' n')).getD _ = a; rw [h']; exact ih

/-! ### Derivatives and integrals -/

/-- the value of an attribute of a class that inherits it -/
theorem attr_cls (own : Base → Option ClsAns) (ov : Overrides) (c : Cls) (h : Inherits ov c) (a : ClsAns)
    (ha : c.attr own ov = a) : c.root.lookupAttr own = a := by rw [← attr_root own ov c h]; exact ha

theorem isA_root' (c : Cls) (b : Base) : c.isA b = (Cls.lib c.root).isA b := sub_lib c b

theorem above_root (c d : Cls) : Above c d = Above (.lib c.root) d := by
  unfold Above
  simp only [isA_root' c]

theorem cartesianOf_root (c k : Cls) : CartesianOf c k = CartesianOf (.lib c.root) k := by
  unfold CartesianOf
  simp only [isA_root' c]

/-- **C78**: `c.differential_cls` is a class exactly if `c` is (derived from) a concrete position or velocity class with
derivatives; which class it is. -/
theorem C78_differential (ov : Overrides) (c d : Cls) (h : Inherits ov c) :
    c.differential ov = .cls d ↔
      (∃ t ∈ families, (c.isA t.1 = true ∧ d = .lib t.2.1) ∨ (c.isA t.2.1 = true ∧ d = .lib t.2.2)) ∨
      (c.isA .lonCosLatVel = true ∧ d = .lib .lonlatAcc) := by
  unfold Cls.differential
  rw [attr_root _ ov c h]
  simp only [isA_root' c]
  have h1 : ∀ b ∈ allBases, (∀ t ∈ families, ((Cls.lib b).isA t.1 = true → b.lookupAttr Base.ownDiff = .cls (.lib t.2.1)) ∧
      ((Cls.lib b).isA t.2.1 = true → b.lookupAttr Base.ownDiff = .cls (.lib t.2.2))) ∧
      ((Cls.lib b).isA .lonCosLatVel = true → b.lookupAttr Base.ownDiff = .cls (.lib .lonlatAcc)) := by decide +kernel
  have h2 : ∀ b ∈ allBases, (match b.lookupAttr Base.ownDiff with | .cls _ => true | _ => false) = true →
      (∃ t ∈ families, (Cls.lib b).isA t.1 = true ∨ (Cls.lib b).isA t.2.1 = true) ∨ (Cls.lib b).isA .lonCosLatVel = true := by
    decide +kernel
  obtain ⟨g1, g2⟩ := h1 c.root (mem_allBases _)
  constructor
  · intro ha
    have key : ∀ x, c.root.lookupAttr Base.ownDiff = .cls x → d = x := fun x hx => by
      rw [ha] at hx; exact ClsAns.cls.inj hx
    rcases h2 c.root (mem_allBases _) (by rw [ha]) with ⟨t, ht, h | h⟩ | h
    · exact .inl ⟨t, ht, .inl ⟨h, key _ ((g1 t ht).1 h)⟩⟩
    · exact .inl ⟨t, ht, .inr ⟨h, key _ ((g1 t ht).2 h)⟩⟩
    · exact .inr ⟨h, key _ (g2 h)⟩
  · rintro (⟨t, ht, ⟨h, rfl⟩ | ⟨h, rfl⟩⟩ | ⟨h, rfl⟩)
    · exact (g1 t ht).1 h
    · exact (g1 t ht).2 h
    · exact g2 h

/-- **C78**: `c.integral_cls` is a class exactly if `c` is (derived from) a concrete velocity or acceleration class; which class
it is. -/
theorem C78_integral (ov : Overrides) (c d : Cls) (h : Inherits ov c) :
    c.integral ov = .cls d ↔
      (∃ t ∈ families, (c.isA t.2.1 = true ∧ d = .lib t.1) ∨ (c.isA t.2.2 = true ∧ d = .lib t.2.1)) ∨
      (c.isA .lonCosLatVel = true ∧ d = .lib .lonlatPos) := by
  unfold Cls.integral
  rw [attr_root _ ov c h]
  simp only [isA_root' c]
  have h1 : ∀ b ∈ allBases, (∀ t ∈ families, ((Cls.lib b).isA t.2.1 = true → b.lookupAttr Base.ownInt = .cls (.lib t.1)) ∧
      ((Cls.lib b).isA t.2.2 = true → b.lookupAttr Base.ownInt = .cls (.lib t.2.1))) ∧
      ((Cls.lib b).isA .lonCosLatVel = true → b.lookupAttr Base.ownInt = .cls (.lib .lonlatPos)) := by decide +kernel
  have h2 : ∀ b ∈ allBases, (match b.lookupAttr Base.ownInt with | .cls _ => true | _ => false) = true →
      (∃ t ∈ families, (Cls.lib b).isA t.2.1 = true ∨ (Cls.lib b).isA t.2.2 = true) ∨ (Cls.lib b).isA .lonCosLatVel = true := by
    decide +kernel
  obtain ⟨g1, g2⟩ := h1 c.root (mem_allBases _)
  constructor
  · intro ha
    have key : ∀ x, c.root.lookupAttr Base.ownInt = .cls x → d = x := fun x hx => by
      rw [ha] at hx; exact ClsAns.cls.inj hx
    rcases h2 c.root (mem_allBases _) (by rw [ha]) with ⟨t, ht, h | h⟩ | h
    · exact .inl ⟨t, ht, .inl ⟨h, key _ ((g1 t ht).1 h)⟩⟩
    · exact .inl ⟨t, ht, .inr ⟨h, key _ ((g1 t ht).2 h)⟩⟩
    · exact .inr ⟨h, key _ (g2 h)⟩
  · rintro (⟨t, ht, ⟨h, rfl⟩ | ⟨h, rfl⟩⟩ | ⟨h, rfl⟩)
    · exact (g1 t ht).1 h
    · exact (g1 t ht).2 h
    · exact g2 h

/-- `f` of the class of `coordinax` that an attribute gives, `d` if it gives none -/
def ClsAns.chk (a : ClsAns) (d : Bool) (f : Base → Bool) : Bool :=
  match a with
  | .cls (.lib b) => f b
  | .cls (.user _ _) => false
  | _ => d

/-- **C78**: the integral of the derivative is the class of `coordinax` that `c` is derived from, so `c` itself for a class of
`coordinax` and another one for a class of users. `LonCosLatSphericalVel` is the exception: it gives `LonLatSphericalVel`. -/
theorem C78_there_and_back (ov : Overrides) (c d : Cls) (h : Inherits ov c) (hd : c.differential ov = .cls d) :
    Above c d = true ∧ d.integral ov = .cls (if c.isA .lonCosLatVel then .lib .lonlatVel else .lib c.root) ∧
    (d.integral ov = .cls c ↔ (∃ b, c = .lib b) ∧ c ≠ .lib .lonCosLatVel) := by
  have h1 : ∀ b ∈ allBases, (b.lookupAttr Base.ownDiff).chk true (fun d => Above (.lib b) (.lib d) &&
        d.lookupAttr Base.ownInt == .cls (if (Cls.lib b).isA .lonCosLatVel then .lib .lonlatVel else .lib b)) = true := by
    decide +kernel
  have h1 := h1 c.root (mem_allBases _)
  have hd := attr_cls _ ov c h _ hd
  rw [hd] at h1
  cases d with
  | user p n => exact absurd h1 Bool.false_ne_true
  | lib d =>
    simp only [ClsAns.chk, Bool.and_eq_true, beq_iff_eq] at h1
    obtain ⟨a1, a2⟩ := h1
    have a2 : (Cls.lib d).integral ov = .cls (if c.isA .lonCosLatVel then .lib .lonlatVel else .lib c.root) := by
      rw [isA_root' c]; exact a2
    refine ⟨by rw [above_root]; exact a1, a2, ?_⟩
    rw [a2]
    cases hl : c.isA .lonCosLatVel with
    | true =>
      simp only [if_true]
      constructor
      · intro e
        have e := ClsAns.cls.inj e
        rw [← e] at hl; exact absurd hl (by decide)
      · rintro ⟨⟨b, rfl⟩, hb⟩
        exfalso
        have : ∀ b ∈ allBases, (Cls.lib b).isA .lonCosLatVel = true → b = .lonCosLatVel := by decide +kernel
        exact hb (by rw [this b (mem_allBases _) hl])
    | false =>
      simp only [Bool.false_eq_true, if_false]
      constructor
      · intro e
        have e := ClsAns.cls.inj e
        refine ⟨⟨c.root, e.symm⟩, fun e' => ?_⟩
        rw [e'] at hl; exact absurd hl (by decide)
      · rintro ⟨⟨b, rfl⟩, hb⟩; rfl

/-- **C78**: the derivative of the integral, likewise. -/
theorem C78_back_and_there (ov : Overrides) (c d : Cls) (h : Inherits ov c) (hd : c.integral ov = .cls d) :
    Above d c = true ∧ d.differential ov = .cls (if c.isA .lonCosLatVel then .lib .lonlatVel else .lib c.root) := by
  have h1 : ∀ b ∈ allBases, (b.lookupAttr Base.ownInt).chk true (fun d => Above (.lib d) (.lib b) &&
        d.lookupAttr Base.ownDiff == .cls (if (Cls.lib b).isA .lonCosLatVel then .lib .lonlatVel else .lib b)) = true := by
    decide +kernel
  have h1 := h1 c.root (mem_allBases _)
  have hd := attr_cls _ ov c h _ hd
  rw [hd] at h1
  cases d with
  | user p n => exact absurd h1 Bool.false_ne_true
  | lib d =>
    simp only [ClsAns.chk, Bool.and_eq_true, beq_iff_eq] at h1
    obtain ⟨a1, a2⟩ := h1
    refine ⟨?_, by rw [isA_root' c]; exact a2⟩
    unfold Above at a1 ⊢
    simp only [isA_root' c]
    exact a1

/-- **C78**: what reading `differential_cls` does where it gives no class: the abstract spherical classes give `None` instead of
raising; classes that are no positions or velocities have no such attribute, `CartesianAccND` apart. -/
theorem C78_no_differential (ov : Overrides) (c : Cls) (h : Inherits ov c) :
    (c.differential ov = .pyNone ↔ c.root = .sphericalPos ∨ c.root = .sphericalVel) ∧
    (c.differential ov = .attributeError ↔ c.isA .pos = false ∧ c.isA .vel = false ∧ c.isA .cartAccN = false) ∧
    (c.integral ov = .pyNone ↔ c.root = .sphericalVel ∨ c.root = .sphericalAcc) ∧
    (c.integral ov = .attributeError ↔ c.isA .vel = false ∧ c.isA .acc = false) := by
  have h1 : ∀ b ∈ allBases, (b.lookupAttr Base.ownDiff = .pyNone ↔ b = .sphericalPos ∨ b = .sphericalVel) ∧
    (b.lookupAttr Base.ownDiff = .attributeError ↔
      (Cls.lib b).isA .pos = false ∧ (Cls.lib b).isA .vel = false ∧ (Cls.lib b).isA .cartAccN = false) ∧
    (b.lookupAttr Base.ownInt = .pyNone ↔ b = .sphericalVel ∨ b = .sphericalAcc) ∧
    (b.lookupAttr Base.ownInt = .attributeError ↔ (Cls.lib b).isA .vel = false ∧ (Cls.lib b).isA .acc = false) := by
    decide +kernel
  unfold Cls.differential Cls.integral
  rw [attr_root _ ov c h, attr_root _ ov c h]
  simp only [isA_root' c]
  exact h1 c.root (mem_allBases _)

/-! ### Cartesian classes -/

/-- **C78**: `c._cartesian_cls` is the Cartesian class of the order and dimension of `c`; it exists exactly for the 1-D, 2-D, 3-D
and N-D classes. -/
theorem C78_cartesian (ov : Overrides) (c k : Cls) (h : Inherits ov c) :
    c.cartesian ov = .cls k ↔ CartesianOf c k = true := by
  unfold Cls.cartesian
  rw [attr_root _ ov c h, cartesianOf_root]
  have h1 : ∀ b ∈ allBases, ∀ ts ∈ dimTriples.zip cartTriples,
      ((Cls.lib b).isA ts.1.1 = true → b.lookupAttr Base.ownCart = .cls (.lib ts.2.1)) ∧
      ((Cls.lib b).isA ts.1.2.1 = true → b.lookupAttr Base.ownCart = .cls (.lib ts.2.2.1)) ∧
      ((Cls.lib b).isA ts.1.2.2 = true → b.lookupAttr Base.ownCart = .cls (.lib ts.2.2.2)) := by decide +kernel
  have h2 : ∀ b ∈ allBases, (b.lookupAttr Base.ownCart).chk true (fun k => CartesianOf (.lib b) (.lib k)) = true := by
    decide +kernel
  constructor
  · intro ha
    have h2 := h2 c.root (mem_allBases _)
    rw [ha] at h2
    cases k with
    | user p n => exact absurd h2 Bool.false_ne_true
    | lib k => exact h2
  · intro hk
    obtain ⟨⟨t, s⟩, hm, hk⟩ := List.any_eq_true.1 hk
    simp only [Bool.or_eq_true, Bool.and_eq_true, beq_iff_eq] at hk
    obtain ⟨g1, g2, g3⟩ := h1 c.root (mem_allBases _) (t, s) hm
    rcases hk with (⟨h, rfl⟩ | ⟨h, rfl⟩) | ⟨h, rfl⟩
    · exact g1 h
    · exact g2 h
    · exact g3 h

/-- **C78**: the Cartesian class is its own Cartesian class, and going to Cartesian classes commutes with derivatives. -/
theorem C78_cartesian_commutes (ov : Overrides) (c k : Cls) (h : Inherits ov c) (hk : c.cartesian ov = .cls k) :
    k.cartesian ov = .cls k ∧
    (∀ d, c.differential ov = .cls d → ∃ e, d.cartesian ov = .cls e ∧ k.differential ov = .cls e) ∧
    (∀ d, c.integral ov = .cls d → ∃ e, d.cartesian ov = .cls e ∧ k.integral ov = .cls e) := by
  have h1 : ∀ b ∈ allBases, (b.lookupAttr Base.ownCart).chk true (fun k => k.lookupAttr Base.ownCart == .cls (.lib k) &&
      ((b.lookupAttr Base.ownDiff).chk true (fun d => (d.lookupAttr Base.ownCart).chk false (fun e =>
        k.lookupAttr Base.ownDiff == .cls (.lib e))) &&
      (b.lookupAttr Base.ownInt).chk true (fun d => (d.lookupAttr Base.ownCart).chk false (fun e =>
        k.lookupAttr Base.ownInt == .cls (.lib e))))) = true := by decide +kernel
  have key : ∀ (a : ClsAns) (f : Base → Bool), a.chk false f = true → ∃ e, a = .cls (.lib e) ∧ f e = true := by
    intro a f ha
    cases a with
    | cls c => cases c with
      | lib e => exact ⟨e, rfl, ha⟩
      | user p n => exact absurd ha Bool.false_ne_true
    | notImplemented => exact absurd ha Bool.false_ne_true
    | pyNone => exact absurd ha Bool.false_ne_true
    | attributeError => exact absurd ha Bool.false_ne_true
  have h1 := h1 c.root (mem_allBases _)
  have hk := attr_cls _ ov c h _ hk
  rw [hk] at h1
  cases k with
  | user p n => exact absurd h1 Bool.false_ne_true
  | lib k =>
    have h1 : (_ && (_ && _)) = true := h1
    rw [Bool.and_eq_true, Bool.and_eq_true, beq_iff_eq] at h1
    obtain ⟨a1, a2, a3⟩ := h1
    refine ⟨a1, fun d hd => ?_, fun d hd => ?_⟩
    · have hd := attr_cls _ ov c h _ hd
      rw [hd] at a2
      cases d with
      | user p n => exact absurd a2 Bool.false_ne_true
      | lib d =>
        obtain ⟨e, he, h'⟩ := key _ _ a2
        exact ⟨.lib e, he, beq_iff_eq.1 h'⟩
    · have hd := attr_cls _ ov c h _ hd
      rw [hd] at a3
      cases d with
      | user p n => exact absurd a3 Bool.false_ne_true
      | lib d =>
        obtain ⟨e, he, h'⟩ := key _ _ a3
        exact ⟨.lib e, he, beq_iff_eq.1 h'⟩

/-! ### Names -/

/-- the names of the components of the derivatives of a component -/
def dName (k : List Char) : List Char := 'd' :: '_' :: k
def d2Name (k : List Char) : List Char := 'd' :: '2' :: '_' :: k

/-- **C78**: a velocity times a time: component `d_k` gives `k`, whatever the name. -/
theorem C78_velocity_name (k : List Char) : velKey (dName k) = k := rfl

/-- **C78**: an acceleration times a time: component `d2_k` gives `d_k` exactly if the name `k` has no digit 2. -/
theorem C78_acceleration_name (k : List Char) : accKey (d2Name k) = dName k ↔ '2' ∉ k := by
  have : accKey (d2Name k) = 'd' :: '_' :: k.filter (· ≠ '2') := by simp [accKey, d2Name]
  rw [this, dName]
  simp only [List.cons.injEq, true_and]
  rw [List.filter_eq_self]
  constructor
  · intro h hm; simpa using h '2' hm
  · intro h a ha; simp only [ne_eq, decide_not, Bool.not_eq_eq_eq_not, Bool.not_true, decide_eq_false_iff_not]
    intro e; subst e; exact h ha

theorem accKey2_length : ∀ k : List Char, (accKey2 k).length ≤ k.length
  | [] => le_refl _
  | [a] => le_refl _
  | [a, b] => le_refl _
  | a :: b :: c :: r => by
    rw [accKey2]
    split
    · have := accKey2_length r; simp only [List.length_cons]; omega
    · have := accKey2_length (b :: c :: r); simp only [List.length_cons] at this ⊢; omega

theorem accKey2_self : ∀ k : List Char, accKey2 k = k ↔ ¬ ['d', '2', '_'] <:+: k
  | [] => by simp [accKey2]
  | [a] => by
    simp only [accKey2, true_iff]
    intro h; have := h.length_le; simp at this
  | [a, b] => by
    simp only [accKey2, true_iff]
    intro h; have := h.length_le; simp at this
  | a :: b :: c :: r => by
    rw [accKey2]
    split
    · rename_i h
      obtain ⟨rfl, rfl, rfl⟩ := h
      constructor
      · intro h
        have := accKey2_length r
        rw [h] at this
        simp only [List.length_cons] at this; omega
      · intro h; exact absurd (⟨[], r, rfl⟩ : ['d', '2', '_'] <:+: 'd' :: '2' :: '_' :: r) h
    · rename_i hne
      simp only [List.cons.injEq, true_and]
      rw [accKey2_self (b :: c :: r)]
      refine ⟨fun h hp => ?_, fun h hp => h (List.infix_cons_iff.2 (.inr hp))⟩
      rcases List.infix_cons_iff.1 hp with hp | hp
      case inr => exact h hp
      obtain ⟨t, ht⟩ := hp
      simp only [List.cons_append, List.nil_append, List.cons.injEq] at ht
      exact hne ⟨ht.1.symm, ht.2.1.symm, ht.2.2.1.symm⟩

/-- **C78**: an acceleration times a squared time: component `d2_k` gives `k` exactly if the name `k` does not contain `d2_`. -/
theorem C78_acceleration_name_twice (k : List Char) : accKey2 (d2Name k) = k ↔ ¬ ['d', '2', '_'] <:+: k := by
  have : accKey2 (d2Name k) = accKey2 k := by rw [d2Name, accKey2]; simp
  rw [this]
  exact accKey2_self k

/-- **C78**: for the classes of `coordinax`: the names of the components of the derivatives, and products with times have the
names of the integral class. `LonCosLatSphericalVel` is the exception. -/
theorem C78_names (p v a : Base) (h : (p, v, a) ∈ families) :
    ∃ ks, p.compKeys = some ks ∧ v.compKeys = some (ks.map dName) ∧ a.compKeys = some (ks.map d2Name) ∧
      (ks.map dName).map velKey = ks ∧ (ks.map d2Name).map accKey = ks.map dName ∧ (ks.map d2Name).map accKey2 = ks := by
  have h1 : ∀ t ∈ families, t.1.compKeys.isSome = true ∧
      t.2.1.compKeys = some ((t.1.compKeys.getD []).map dName) ∧ t.2.2.compKeys = some ((t.1.compKeys.getD []).map d2Name) ∧
        ((t.1.compKeys.getD []).map dName).map velKey = t.1.compKeys.getD [] ∧
        ((t.1.compKeys.getD []).map d2Name).map accKey = (t.1.compKeys.getD []).map dName ∧
        ((t.1.compKeys.getD []).map d2Name).map accKey2 = t.1.compKeys.getD [] := by decide +kernel
  obtain ⟨h0, h1⟩ := h1 _ h
  simp only at h0 h1
  obtain ⟨ks, hp⟩ := Option.isSome_iff_exists.1 h0
  rw [hp] at h1
  exact ⟨ks, hp, h1⟩

/-- **C78**: `LonCosLatSphericalVel` times a time has a component name that its integral class does not have. -/
theorem C78_loncoslat : ∃ ks ps, Base.lonCosLatVel.compKeys = some ks ∧ Base.lonlatPos.compKeys = some ps ∧
    ∃ k ∈ ks.map velKey, k ∉ ps :=
  ⟨["d_lon_coslat".toList, "d_lat".toList, "d_distance".toList], ["lon".toList, "lat".toList, "distance".toList],
    by decide +kernel, by decide +kernel, "lon_coslat".toList, by decide +kernel, by decide +kernel⟩

/-! ### Examples -/

example : (Cls.user (.user (.lib .sphPos) 3) 5).differential (fun _ => none) = .cls (.lib .sphVel) :=
  (C78_differential _ (.user (.user (.lib .sphPos) 3) 5) _ ⟨rfl, rfl, trivial⟩).2
    (.inl ⟨(.sphPos, .sphVel, .sphAcc), by decide, .inl ⟨by decide, rfl⟩⟩)

/-- the integral of the derivative of a user's class is not that class -/
example : (Cls.lib .sphVel).integral (fun _ => none) ≠ .cls (.user (.lib .sphPos) 3) := fun h => by
  obtain ⟨⟨b, hb⟩, -⟩ := (C78_there_and_back _ (.user (.lib .sphPos) 3) (.lib .sphVel) ⟨rfl, trivial⟩ rfl).2.2.1 h
  cases hb

/-- a user's acceleration with components `d2_x1`, `d2_x2`: times a time the second becomes `d_x` -/
example : accKey (d2Name "x2".toList) = "d_x".toList := by decide +kernel

example : ¬ accKey (d2Name "x2".toList) = dName "x2".toList := fun h =>
  (C78_acceleration_name _).1 h (by decide +kernel)

example : (Cls.lib .prolateAcc).cartesian (fun _ => none) = .cls (.lib .cartAcc3) :=
  (C78_cartesian _ (.lib .prolateAcc) _ trivial).2 (by decide +kernel)

example : (Cls.lib .sphericalPos).differential (fun _ => none) = .pyNone :=
  (C78_no_differential _ (.lib .sphericalPos) trivial).1.2 (.inl rfl)

end Verif
