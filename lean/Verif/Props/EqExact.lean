import Verif.Props.Exact
import Verif.KindLemmas

/-!
# C44 exactly: when `p == q` returns, and what its answer means

Property C44 of `/verif/properties.jsonl`, for two positions of one dimension.
-/

namespace Verif.Props
open Real Spec

/-! ## Specification -/

/-- The three classes a radial field can have (`distances.py`). -/
inductive RadialClass | distance | parallax | modulus
  deriving DecidableEq

def radialClassOf : Dist ℝ → RadialClass
  | .dist _ => .distance
  | .par _ => .parallax
  | .dm _ => .modulus

/-- The class of the radial field of a position, if it has one. -/
def radialClass : Pos ℝ → Option RadialClass
  | .radial r | .polar r _ | .sph r _ _ | .lonlat _ _ r | .math r _ _ => some (radialClassOf r)
  | _ => none

/-- The conversions that hand the radial field on as it is. -/
def KeepsRadialClass (source target : Kind) : Prop :=
  source = target ∨ (source, target) ∈
    [(Kind.sph, Kind.lonlat), (.lonlat, .sph), (.sph, .math), (.math, .sph)]

instance (a b : Kind) : Decidable (KeepsRadialClass a b) :=
  inferInstanceAs (Decidable (_ ∨ _))

/-- `p` and `q` have comparable radial fields: none, or of one class after `q` is converted. -/
def RadialMatch (p q : Pos ℝ) : Prop :=
  radialClass p = none ∨
    radialClass p = if KeepsRadialClass q.kind p.kind then radialClass q else some .distance

/-! ## Lemmas -/

theorem keeps_class (n : ℕ) {kw : Kw ℝ} {p q : Pos ℝ} {k : Kind} (hk : KeepsRadialClass p.kind k)
    (h : represent (n + 1) kw p k = .ok q) :
    radialClass q = radialClass p := by
  rcases hk with rfl | hk
  · by_cases hs : p.kind = .twoSphere
    · have := (represent_kind _ _ _ _ _ h).trans hs
      cases p <;> first | (cases hs; done) | skip
      cases q <;> first | (cases this; done) | rfl
    by_cases hp : p.kind = .prolate
    · have := (represent_kind _ _ _ _ _ h).trans hp
      cases p <;> first | (cases hp; done) | skip
      cases q <;> first | (cases this; done) | rfl
    · cases p <;>
        first
        | exact absurd rfl hs
        | exact absurd rfl hp
        | (obtain rfl := Except.ok.inj h; rfl)
  · simp only [List.mem_cons, Prod.mk.injEq, List.not_mem_nil, or_false] at hk
    rcases hk with ⟨e, rfl⟩ | ⟨e, rfl⟩ | ⟨e, rfl⟩ | ⟨e, rfl⟩ <;>
      cases p <;> first | (cases e; done) | skip
    · obtain ⟨_, _, h⟩ := (bind_ok_iff _ _ _).mp h
      rw [(mkLonLat_iff.mp h).2.2]; rfl
    · obtain ⟨_, _, h⟩ := (bind_ok_iff _ _ _).mp h
      rw [(mkSph_iff.mp h).2.2]; rfl
    · rw [(mkMath_iff.mp h).2.2]; rfl
    · rw [(mkSph_iff.mp h).2.2]; rfl

theorem loses_class (n : ℕ) {kw : Kw ℝ} {p q : Pos ℝ} {k : Kind} (hv : Valid p)
    (hdim : p.kind.dim = k.dim) (hk : ¬ KeepsRadialClass p.kind k)
    (h : represent (n + 2) kw p k = .ok q) : PlainDist q := by
  have hqk := represent_kind _ _ _ _ _ h
  by_cases hp : PlainDist p
  · exact represent_plain _ _ _ _ _ hv hp hdim h
  by_cases hl : (p.kind = .lonlat ∧ k = .math) ∨ (p.kind = .math ∧ k = .lonlat)
  · rcases hl with ⟨e, rfl⟩ | ⟨e, rfl⟩ <;> cases p <;> first | (cases e; done) | skip
    all_goals
      obtain ⟨c, h1, h2⟩ := (bind_ok_iff _ _ _).mp h
      have g := represent_good _ _ _ .cart3 _ hv rfl h1
      have hc : PlainDist c := by
        have := g.kind
        cases c <;> first | (cases this; done) | trivial
      exact represent_plain _ _ _ _ _ g.valid hc (by rw [g.kind]; rfl) h2
  · have : ∀ a b : Kind, a.dim = b.dim → ¬ KeepsRadialClass a b →
        ¬ ((a = .lonlat ∧ b = .math) ∨ (a = .math ∧ b = .lonlat)) →
        a ∈ [Kind.radial, .polar, .sph, .lonlat, .math] →
        b ∉ [Kind.radial, .polar, .sph, .lonlat, .math] := by
      intro a b; cases a <;> cases b <;> decide
    have hpk : p.kind ∈ [Kind.radial, .polar, .sph, .lonlat, .math] := by
      cases p <;> first | exact absurd trivial hp | (simp [Pos.kind]; done)
    have := this _ _ hdim hk hl hpk
    rw [← hqk] at this
    cases q <;> first | trivial | (simp [Pos.kind] at this; done)

theorem plain_class {p : Pos ℝ} (h : PlainDist p) :
    radialClass p = none ∨ radialClass p = some .distance := by
  cases p <;> first | exact Or.inl rfl | (obtain ⟨d, rfl⟩ := h; exact Or.inr rfl)

theorem class_isSome {p q : Pos ℝ} (h : p.kind = q.kind) :
    (radialClass p = none ↔ radialClass q = none) := by
  cases p <;> cases q <;> first | (cases h; done) | simp [radialClass]

theorem Dist.eqv_class (a b : Dist ℝ) :
    (∃ c, a.eqv b = .ok c) ↔ radialClassOf a = radialClassOf b := by
  cases a <;> cases b <;> simp [Dist.eqv, radialClassOf]

theorem Dist.eqv_true {a b : Dist ℝ} {c : Bool} (h : a.eqv b = .ok c) : c = true ↔ a = b := by
  cases a <;> cases b <;>
    first
    | (cases h; done)
    | (obtain rfl := Except.ok.inj h; simp)

theorem eqSame_returns (p q : Pos ℝ) (hk : q.kind = p.kind) :
    (∃ b, eqSame p q = .ok b) ↔ radialClass p = radialClass q := by
  cases p <;> cases q <;>
    first
    | (cases hk; done)
    | exact ⟨fun _ => rfl, fun _ => ⟨_, rfl⟩⟩
    | skip
  all_goals
    simp only [radialClass, Option.some.injEq, ← Dist.eqv_class]
    constructor
    · rintro ⟨b, h⟩
      first
      | exact ⟨b, h⟩
      | (obtain ⟨c, h, _⟩ := (bind_ok_iff _ _ _).mp h; exact ⟨c, h⟩)
    · rintro ⟨c, h⟩
      first
      | exact ⟨c, h⟩
      | exact ⟨_, by simp only [eqSame, h, ok_bind]; rfl⟩

theorem eqSame_true {p q : Pos ℝ} {b : Bool} (hk : q.kind = p.kind) (h : eqSame p q = .ok b) :
    b = true ↔ p = q := by
  cases p <;> cases q <;>
    first
    | (cases hk; done)
    | (obtain rfl := Except.ok.inj h; simp [and_assoc]; done)
    | skip
  · exact (Dist.eqv_true h).trans (by simp)
  all_goals
    obtain ⟨c, h1, h2⟩ := (bind_ok_iff _ _ _).mp h
    obtain rfl := Except.ok.inj h2
    have := Dist.eqv_true h1
    simp only [Bool.and_eq_true, this, and_assoc, Pos.polar.injEq, Pos.sph.injEq, Pos.lonlat.injEq, Pos.math.injEq, beq_real, decide_eq_true_eq]

/-- within one class the stored number is determined by the distance -/
theorem distOf_inj {a b : Dist ℝ} (ha : DistOk a) (hb : DistOk b)
    (hc : radialClassOf a = radialClassOf b) (h : distOf a = distOf b) : a = b := by
  cases a <;> cases b <;> first | (cases hc; done) | skip
  · exact congrArg Dist.dist h
  · rename_i a b
    simp only [distOf, one_div, inv_inj] at h
    refine congrArg Dist.par (Real.injOn_tan ⟨?_, ha.2⟩ ⟨?_, hb.2⟩ h)
    · linarith [ha.1, pi_pos]
    · linarith [hb.1, pi_pos]
  · rename_i a b
    refine congrArg Dist.dm ?_
    have hpi : (648000 / π : ℝ) ≠ 0 := by positivity
    simp only [distOf] at h
    have h := mul_right_cancel₀ hpi h
    have := (Real.rpow_right_inj (by norm_num) (by norm_num)).mp h
    linarith

theorem eq_of_plain_eq {p q : Pos ℝ} (hp : Valid p) (hq : Valid q)
    (hc : radialClass p = radialClass q) (h : plain p = plain q) : p = q := by
  have hk : p.kind = q.kind := by rw [← plain_kind p, ← plain_kind q, h]
  cases p <;> cases q <;>
    first
    | (cases hk; done)
    | exact h
    | skip
  · simp only [plain, Pos.radial.injEq, Dist.dist.injEq] at h
    rw [distOf_inj hp hq (Option.some.inj hc) h]
  · simp only [plain, Pos.polar.injEq, Dist.dist.injEq] at h
    rw [distOf_inj hp hq (Option.some.inj hc) h.1, h.2]
  · simp only [plain, Pos.sph.injEq, Dist.dist.injEq] at h
    rw [distOf_inj hp.1 hq.1 (Option.some.inj hc) h.1, h.2.1, h.2.2]
  · simp only [plain, Pos.lonlat.injEq, Dist.dist.injEq] at h
    rw [distOf_inj hp.1 hq.1 (Option.some.inj hc) h.2.2, h.1, h.2.1]
  · simp only [plain, Pos.math.injEq, Dist.dist.injEq] at h
    rw [distOf_inj hp.1 hq.1 (Option.some.inj hc) h.1, h.2.1, h.2.2]

/-! ## Theorems -/

/-- **C44.** `p == q` for positions of one dimension returns exactly when `q` can be converted to the
class of `p` (`C09_returns_iff`) and the radial fields, if there are any, are then of one class. -/
theorem C44_returns_iff (p q : Pos ℝ) (hq : Valid q) (hd : p.kind.dim = q.kind.dim) :
    (∃ b, eqPos p q = .ok b) ↔
      (∃ q', representAs {} q p.kind = .ok q') ∧ RadialMatch p q := by
  have key : ∀ q', representAs {} q p.kind = .ok q' →
      ((∃ b, eqSame p q' = .ok b) ↔ RadialMatch p q) := by
    intro q' h
    have hk := represent_kind _ _ _ _ _ h
    rw [eqSame_returns p q' hk, RadialMatch]
    have hn := class_isSome hk
    by_cases hkp : KeepsRadialClass q.kind p.kind
    · have e := keeps_class 199 hkp h
      rw [if_pos hkp, e]
      rw [e] at hn
      constructor
      · exact Or.inr
      · rintro (h | h)
        · rw [h, hn.mpr h]
        · exact h
    · have e := plain_class (loses_class 198 hq hd.symm hkp h)
      rw [if_neg hkp]
      rcases e with e | e <;> rw [e] at hn ⊢
      · have := hn.mp rfl
        rw [this]; simp
      · have : radialClass p ≠ none := fun h => by
          have := hn.mpr h; cases this
        simp [this]
  constructor
  · rintro ⟨b, h⟩
    obtain ⟨q', h1, h2⟩ := (bind_ok_iff _ _ _).mp h
    exact ⟨⟨q', h1⟩, (key q' h1).mp ⟨b, h2⟩⟩
  · rintro ⟨⟨q', h1⟩, h2⟩
    obtain ⟨b, hb⟩ := (key q' h1).mpr h2
    exact ⟨b, by rw [eqPos, h1, ok_bind, hb]⟩

/-- **C44.** Whenever `p == q` is true, the two denote one point: no hypothesis on canonical form,
axis, focal length or radial class. -/
theorem C44_true_same_point (p q : Pos ℝ) (hq : Valid q) (hd : p.kind.dim = q.kind.dim)
    (h : eqPos p q = .ok true) : point p = point q := by
  obtain ⟨q', h1, h2⟩ := (bind_ok_iff _ _ _).mp h
  have g := represent_good _ _ _ _ _ hq hd.symm h1
  rw [(eqSame_true g.kind h2).mp rfl, g.point]

/-- **C44.** Whenever `p == q` returns for canonical positions off the z axis (and, if both are
prolate, of one focal length), it is true exactly when the two denote one point. -/
theorem C44_equality_exact (p q : Pos ℝ) (b : Bool) (hp : Valid p) (hq : Valid q) (cp : Canon p)
    (cq : Canon q) (hd : p.kind.dim = q.kind.dim) (op : OffAxis (point p))
    (hf : p.kind = .prolate → q.kind = .prolate → focal p = focal q)
    (h : eqPos p q = .ok b) : b = true ↔ point p = point q := by
  obtain ⟨q', h1, h2⟩ := (bind_ok_iff _ _ _).mp h
  have g := represent_good _ _ _ _ _ hq hd.symm h1
  have hc : radialClass p = radialClass q' := (eqSame_returns p q' g.kind).mp ⟨b, h2⟩
  rw [eqSame_true g.kind h2]
  constructor
  · intro e; rw [e, g.point]
  · intro e
    refine eq_of_plain_eq hp g.valid hc
      (plain_eq_of_point_eq hp g.valid g.kind.symm cp (g.canon cq) ?_ op (by rw [e, g.point]))
    by_cases hpr : p.kind = .prolate
    · have hqp : q.kind = .prolate := by
        by_contra hne
        rw [hpr] at h1 hd
        have h2 : ∀ n, represent (n + 1) {} q .prolate = .error .missingDelta := by
          intro n
          cases q <;> first | (cases hd; done) | exact absurd rfl hne | rfl
        have h3 : representAs {} q .prolate = .error .missingDelta := h2 199
        rw [h3] at h1; cases h1
      have hq' : representAs {} q q.kind = .ok q := represent_self 199 {} q (by rw [hqp]; decide) rfl
      rw [hpr, ← hqp, hq'] at h1
      obtain rfl := Except.ok.inj h1
      exact hf hpr hqp
    · have hq'' : q'.kind ≠ .prolate := by rw [g.kind]; exact hpr
      cases p <;> cases q' <;> first | rfl | exact absurd rfl hpr | exact absurd rfl hq''

/-- `C44_returns_iff` at work: two parallaxes can be compared across `SphericalPos` and
`LonLatSphericalPos`; through `CartesianPos3D` the class is lost and the comparison is an error. -/
example : RadialMatch (.sph (.par 1) 1 0) (.lonlat 0 0 (.par 1)) ∧
    ¬ RadialMatch (.math (.par 1) 0 1) (.lonlat 0 0 (.par 1)) := by
  constructor
  · right
    have : KeepsRadialClass .lonlat .sph := by decide
    show _ = if KeepsRadialClass .lonlat .sph then _ else _
    rw [if_pos this]; rfl
  · have : ¬ KeepsRadialClass .lonlat .math := by decide
    rintro (h | h)
    · cases h
    · have h : some RadialClass.parallax =
          if KeepsRadialClass .lonlat .math then some RadialClass.parallax else some .distance := h
      rw [if_neg this] at h
      cases h

/-- the hypotheses of `C44_equality_exact` are met by two parallaxes in different classes: the
comparison returns, and is true -/
example : eqPos (.sph (.par 1) (π / 2) 0 : Pos ℝ) (.lonlat 0 0 (.par 1)) = .ok true := by
  have h1 : (1 : ℝ) < π / 2 := by linarith [pi_gt_three]
  have vq : Valid (.lonlat 0 0 (.par 1) : Pos ℝ) :=
    ⟨⟨one_pos, h1⟩, by linarith [pi_pos], by positivity⟩
  have vp : Valid (.sph (.par 1) (π / 2) 0 : Pos ℝ) :=
    ⟨⟨one_pos, h1⟩, by positivity, by linarith [pi_pos]⟩
  have ht : tan 1 ≠ 0 := (tan_pos_of_pos_of_lt_pi_div_two one_pos h1).ne'
  have hpt : point (.sph (.par 1) (π / 2) 0 : Pos ℝ) = point (.lonlat 0 0 (.par 1)) := by
    simp [point, sphPoint, lonlatPoint, distOf]
  have hoff : OffAxis (point (.sph (.par 1) (π / 2) 0 : Pos ℝ)) := by
    rintro ⟨h, _⟩
    simp only [point, sphPoint, distOf, sin_pi_div_two, cos_zero, mul_one] at h
    exact one_div_ne_zero ht h
  obtain ⟨b, hb⟩ := (C44_returns_iff (.sph (.par 1) (π / 2) 0) (.lonlat 0 0 (.par 1)) vq rfl).mpr
    ⟨(C09_returns_iff {} _ .sph vq rfl).mpr ⟨nofun, nofun, fun _ => by
      rw [← hpt]; exact offAxis_ne_zero hoff, nofun, nofun⟩, by
      right
      have : KeepsRadialClass .lonlat .sph := by decide
      show _ = if KeepsRadialClass .lonlat .sph then _ else _
      rw [if_pos this]; rfl⟩
  have := (C44_equality_exact _ _ b vp vq ⟨le_refl _, by positivity⟩ ⟨le_refl _, by positivity⟩ rfl
    hoff nofun hb).mpr hpt
  rw [hb, this]

end Verif.Props
