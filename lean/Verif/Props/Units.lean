import Verif.Units
import Verif.Forms

/-!
# Unit conversion of vectors: C37, C38

Scope: every concrete position, velocity, acceleration class of `Verif/Units.lean`,
`CartesianGeneric3D` and `PoincarePolarVector`; every assignment of units with positive scale.
-/

namespace Verif

open List

namespace Spec

/-- vectors a user can hold: results of the constructor -/
def Built (v : UVec) : Prop := ∃ c args delta, construct c args delta = .ok v

/-- same physical content: quantity class, physical type, value in base units -/
structure SameQty (a b : Qty) : Prop where
  cls : b.cls = a.cls
  dim : b.unit.dim = a.unit.dim
  phys : b.phys = a.phys

/-- same named component with the same physical content -/
def SameComp (a b : String × Qty) : Prop := b.1 = a.1 ∧ SameQty a.2 b.2

/-- same vector up to units -/
structure SameVec (v w : UVec) : Prop where
  cls : w.cls = v.cls
  delta : w.delta = v.delta
  comps : Forall₂ SameComp v.fields w.fields

/-- each physical type occurs with one unit only -/
def OneUnitPerDim (v : UVec) : Prop :=
  ∀ a ∈ v.fields, ∀ b ∈ v.fields, a.2.unit.dim = b.2.unit.dim → a.2.unit = b.2.unit

/-- `c` is the first component of its physical type among `l` -/
def IsFirst (l : List (String × Qty)) (d : Dim) (c : String × Qty) : Prop :=
  ∃ l₁ l₂, l = l₁ ++ c :: l₂ ∧ c.2.unit.dim = d ∧ ∀ b ∈ l₁, b.2.unit.dim ≠ d

end Spec

open Spec

set_option linter.unusedSimpArgs false

/-! ### Helper lemmas -/

theorem uconvertQ_ok {un : UnitU} {q q' : Qty} (h : uconvertQ un q = .ok q') :
    SameQty q q' ∧ q'.unit = un := by
  unfold uconvertQ at h
  split at h
  · obtain rfl := Except.ok.inj h
    rename_i hd
    refine ⟨⟨rfl, hd, ?_⟩, rfl⟩
    have := un.pos.ne'
    simp only [Qty.phys]; field_simp
  · cases h

theorem uconvertQ_total {un : UnitU} {q : Qty} (h : un.dim = q.unit.dim) :
    ∃ q', uconvertQ un q = .ok q' := by
  unfold uconvertQ; rw [if_pos h]; exact ⟨_, rfl⟩

theorem qty_ext {a b : Qty} (h : SameQty a b) (hu : b.unit = a.unit) : b = a := by
  obtain ⟨c, v, u⟩ := a
  obtain ⟨c', v', u'⟩ := b
  obtain ⟨h1, _, h3⟩ := h
  simp only at h1 hu; subst h1 hu
  simp only [Qty.phys] at h3
  rw [mul_right_cancel₀ u'.pos.ne' h3]

theorem vec_ext {v w : UVec} (h : SameVec v w)
    (hu : Forall₂ (fun a b : String × Qty => b.2.unit = a.2.unit) v.fields w.fields) : w = v := by
  obtain ⟨c, f, d⟩ := v
  obtain ⟨c', f', d'⟩ := w
  obtain ⟨h1, h2, h3⟩ := h
  simp only at h1 h2 h3 hu
  subst h1 h2
  congr 1
  clear d' c'
  induction h3 with
  | nil => rfl
  | cons hab _ ih =>
    cases hu with
    | cons e hu =>
      rw [ih hu]
      congr 1
      exact Prod.ext hab.1 (qty_ext hab.2 e)

theorem Spec.SameQty.refl (a : Qty) : SameQty a a := ⟨rfl, rfl, rfl⟩

theorem Spec.SameQty.trans {a b c : Qty} (h : SameQty a b) (k : SameQty b c) : SameQty a c :=
  ⟨k.cls.trans h.cls, k.dim.trans h.dim, k.phys.trans h.phys⟩

/-- a component that the converter leaves alone -/
def Stored (r : Role) (q : Qty) : Prop := r.convert q = .ok q

theorem convert_stored {r : Role} {q q' : Qty} (h : r.convert q = .ok q') : Stored r q' := by
  unfold Stored
  cases r with
  | plain d =>
    simp only [Role.convert] at h
    split at h
    · obtain rfl := Except.ok.inj h; simp_all [Role.convert]
    · cases h
  | any =>
    simp only [Role.convert] at h
    obtain rfl := Except.ok.inj h; rfl
  | azimuth =>
    simp only [Role.convert] at h
    split at h
    · obtain rfl := Except.ok.inj h
      rename_i hc
      simp [Role.convert, hc]
    · split at h
      · obtain rfl := Except.ok.inj h; rfl
      · cases h
  | incl =>
    simp only [Role.convert] at h
    split at h
    · obtain rfl := Except.ok.inj h; simp_all [Role.convert]
    · cases h
  | radial =>
    simp only [Role.convert] at h
    split at h
    · obtain rfl := Except.ok.inj h; rename_i hc; simp [Role.convert, hc]
    · obtain rfl := Except.ok.inj h; rename_i hc; simp [Role.convert, hc]
    · obtain rfl := Except.ok.inj h; rename_i hc; simp [Role.convert, hc]
    · cases h
    · split at h
      · obtain rfl := Except.ok.inj h; rfl
      · split at h
        · obtain ⟨d, _, h⟩ := (bind_ok_iff _ _ _).mp h
          obtain rfl := Except.ok.inj h; rfl
        · split at h
          · obtain ⟨d, _, h⟩ := (bind_ok_iff _ _ _).mp h
            obtain rfl := Except.ok.inj h; rfl
          · cases h

theorem stored_same {r : Role} {q q' : Qty} (h : Stored r q) (hs : SameQty q q') : Stored r q' := by
  unfold Stored at *
  obtain ⟨hc, hd, _⟩ := hs
  obtain ⟨c, v, u⟩ := q
  obtain ⟨c', v', u'⟩ := q'
  simp only at hc hd; subst hc
  cases r with
  | plain d =>
    simp only [Role.convert] at h ⊢
    rw [hd]
    split at h
    · rename_i e
      rw [if_pos e]
      have := congrArg Qty.cls (Except.ok.inj h)
      simp only at this; rw [← this]
    · cases h
  | any =>
    simp only [Role.convert] at h ⊢
    have := congrArg Qty.cls (Except.ok.inj h)
    simp only at this; rw [← this]
  | azimuth =>
    cases c' <;> simp only [Role.convert] at h ⊢
    all_goals
      split at h
      · have := congrArg Qty.cls (Except.ok.inj h); cases this
      · cases h
  | incl =>
    simp only [Role.convert] at h ⊢
    rw [hd]
    split at h
    · rename_i e
      rw [if_pos e]
      have := congrArg Qty.cls (Except.ok.inj h)
      simp only at this; rw [← this]
    · cases h
  | radial =>
    have key : ∀ q : Qty, Role.radial.convert ⟨c', v, u⟩ = .ok q → q.cls = .quantity → False := by
      intro q hq hcl
      have := convert_stored hq
      unfold Stored at this
      simp only [Role.convert, hcl] at this
      split at this
      · have := congrArg Qty.cls (Except.ok.inj this); rw [hcl] at this; cases this
      · split at this
        · obtain ⟨d, _, h⟩ := (bind_ok_iff _ _ _).mp this
          have := congrArg Qty.cls (Except.ok.inj h); rw [hcl] at this; cases this
        · split at this
          · obtain ⟨d, _, h⟩ := (bind_ok_iff _ _ _).mp this
            have := congrArg Qty.cls (Except.ok.inj h); rw [hcl] at this; cases this
          · cases this
    have key2 : ∀ q : Qty, Role.radial.convert ⟨c', v, u⟩ = .ok q → q.cls = .angle → False := by
      intro q hq hcl
      have := convert_stored hq
      unfold Stored at this
      simp only [Role.convert, hcl] at this
      cases this
    cases c'
    · exact absurd rfl (fun e => key _ h e)
    · exact absurd rfl (fun e => key2 _ h e)
    · rfl
    · rfl
    · rfl

theorem dist_same {a b : Qty} (h : SameQty a b) : b.dist = a.dist := by
  unfold Qty.dist; rw [h.cls, h.phys]

theorem az_same {a b : Qty} (h : SameQty a b) : b.az = a.az := by
  unfold Qty.az; rw [h.cls, h.phys]

theorem readPos_same (k : Kind) (delta : Option Qty) {qs qs' : List Qty} (h : Forall₂ SameQty qs qs') :
    readPos k qs' delta = readPos k qs delta := by
  rcases h with _ | @⟨a, a', l, l', h1, h⟩
  · rfl
  rcases h with _ | @⟨b, b', l, l', h2, h⟩
  · cases k <;> cases delta <;>
      simp only [readPos, h1.phys, dist_same h1, az_same h1]
  rcases h with _ | @⟨c, c', l, l', h3, h⟩
  · cases k <;> cases delta <;>
      simp only [readPos, h1.phys, dist_same h1, az_same h1, h2.phys, dist_same h2, az_same h2]
  rcases h with _ | @⟨d, d', l, l', h4, h⟩
  · cases k <;> cases delta <;>
      simp only [readPos, h1.phys, dist_same h1, az_same h1, h2.phys, dist_same h2, az_same h2,
        h3.phys, dist_same h3, az_same h3]
  · cases k <;> cases delta <;> simp only [readPos]

/-- what it means to be built: names from the schema, stored components, checks passed -/
theorem convertFields_ok {sch : List (String × Role)} {args : List Qty} {fs : List (String × Qty)}
    (h : convertFields sch args = .ok fs) :
    Forall₂ (fun s f => f.1 = s.1 ∧ Stored s.2 f.2) sch fs := by
  induction sch generalizing args fs with
  | nil =>
    cases args
    · obtain rfl := Except.ok.inj h; exact .nil
    · cases h
  | cons s sch ih =>
    obtain ⟨n, r⟩ := s
    cases args with
    | nil => cases h
    | cons q qs =>
      simp only [convertFields] at h
      obtain ⟨q', hq, h⟩ := (bind_ok_iff _ _ _).mp h
      obtain ⟨fs', hf, h⟩ := (bind_ok_iff _ _ _).mp h
      obtain rfl := Except.ok.inj h
      exact .cons ⟨rfl, convert_stored hq⟩ (ih hf)

theorem convertFields_stored {sch : List (String × Role)} {fs : List (String × Qty)}
    (h : Forall₂ (fun s f => f.1 = s.1 ∧ Stored s.2 f.2) sch fs) :
    convertFields sch (fs.map Prod.snd) = .ok fs := by
  induction h with
  | nil => rfl
  | @cons s f sch fs hs _ ih =>
    obtain ⟨n, r⟩ := s
    obtain ⟨m, q⟩ := f
    obtain ⟨h1, h2⟩ := hs
    simp only at h1; subst h1
    simp only [map_cons, convertFields]
    rw [show r.convert q = .ok q from h2, ok_bind, ih]
    rfl

structure BuiltFacts (v : UVec) : Prop where
  schema : v.cls.schema ≠ []
  fields : Forall₂ (fun s f : String × _ => f.1 = s.1 ∧ Stored s.2 f.2) v.cls.schema v.fields
  check : v.cls.check (v.fields.map Prod.snd) v.delta = .ok ()

theorem built_iff (v : UVec) : Built v ↔ BuiltFacts v := by
  constructor
  · rintro ⟨c, args, delta, h⟩
    unfold construct at h
    split at h
    · cases h
    · rename_i hne
      obtain ⟨fs, h1, h⟩ := (bind_ok_iff _ _ _).mp h
      obtain ⟨⟨⟩, h2, h⟩ := (bind_ok_iff _ _ _).mp h
      obtain rfl := Except.ok.inj h
      exact ⟨hne, convertFields_ok h1, h2⟩
  · intro h
    refine ⟨v.cls, v.fields.map Prod.snd, v.delta, ?_⟩
    unfold construct
    rw [if_neg h.schema]
    simp only []
    rw [convertFields_stored h.fields, ok_bind, h.check, ok_bind]
    rfl

theorem forall₂_map_snd {f g : List (String × Qty)} (h : Forall₂ SameComp f g) :
    Forall₂ SameQty (f.map Prod.snd) (g.map Prod.snd) := by
  induction h with
  | nil => exact .nil
  | cons h _ ih => exact .cons h.2 ih

theorem forall₂_names {f g : List (String × Qty)} (h : Forall₂ SameComp f g) :
    g.map Prod.fst = f.map Prod.fst := by
  induction h with
  | nil => rfl
  | cons h _ ih => simp only [map_cons, ih, h.1]

/-- `replace` with physically equal components returns -/
theorem replace_same {v : UVec} (hb : Built v) {items : List (String × Qty)}
    (h : Forall₂ SameComp v.fields items) : v.replace items = .ok ⟨v.cls, items, v.delta⟩ := by
  obtain ⟨h1, h2, h3⟩ := (built_iff v).mp hb
  unfold UVec.replace
  rw [if_neg (by rw [forall₂_names h]; simp)]
  simp only []
  have hst : Forall₂ (fun s f : String × _ => f.1 = s.1 ∧ Stored s.2 f.2) v.cls.schema items := by
    clear h3 h1
    generalize v.cls.schema = sch at h2
    generalize v.fields = fs at h h2
    induction h2 generalizing items with
    | nil => cases h; exact .nil
    | cons a _ ih =>
      cases h with
      | cons b h => exact .cons ⟨b.1.trans a.1, stored_same a.2 b.2⟩ (ih h)
  have hch : v.cls.check (items.map Prod.snd) v.delta = .ok () := by
    rw [← h3]
    unfold VCls.check
    split
    · rfl
    · cases v.cls <;> first | rfl | skip
      simp only []
      rw [readPos_same _ _ (forall₂_map_snd h)]
  unfold construct
  rw [if_neg h1]
  simp only []
  rw [convertFields_stored hst, ok_bind, hch, ok_bind]
  rfl

theorem convertAll_ok {get : Dim → Res UnitU} {fs fs' : List (String × Qty)}
    (h : convertAll get fs = .ok fs') :
    Forall₂ (fun a b => SameComp a b ∧ get a.2.unit.dim = .ok b.2.unit) fs fs' := by
  induction fs generalizing fs' with
  | nil => obtain rfl := Except.ok.inj h; exact .nil
  | cons a fs ih =>
    obtain ⟨k, q⟩ := a
    simp only [convertAll] at h
    obtain ⟨un, h1, h⟩ := (bind_ok_iff _ _ _).mp h
    obtain ⟨q', h2, h⟩ := (bind_ok_iff _ _ _).mp h
    obtain ⟨fs'', h3, h⟩ := (bind_ok_iff _ _ _).mp h
    obtain rfl := Except.ok.inj h
    obtain ⟨e1, e2⟩ := uconvertQ_ok h2
    exact .cons ⟨⟨rfl, e1⟩, by simp only [e2]; exact h1⟩ (ih h3)

theorem convertAll_total {get : Dim → Res UnitU} {fs : List (String × Qty)}
    (h : ∀ a ∈ fs, ∃ un, get a.2.unit.dim = .ok un ∧ un.dim = a.2.unit.dim) :
    ∃ fs', convertAll get fs = .ok fs' := by
  induction fs with
  | nil => exact ⟨_, rfl⟩
  | cons a fs ih =>
    obtain ⟨k, q⟩ := a
    obtain ⟨un, h1, h2⟩ := h (k, q) (by simp)
    obtain ⟨q', hq⟩ := uconvertQ_total h2
    obtain ⟨fs', hf⟩ := ih (fun a ha => h a (by simp [ha]))
    exact ⟨(k, q') :: fs', by simp only [convertAll, h1, ok_bind, hq, hf]; rfl⟩

theorem convertKeyed_ok {units : List (String × UnitU)} {fs fs' : List (String × Qty)}
    (h : convertKeyed units fs = .ok fs') :
    Forall₂ (fun a b => SameComp a b ∧ dictGet units a.1 = .ok b.2.unit) fs fs' := by
  induction fs generalizing fs' with
  | nil => obtain rfl := Except.ok.inj h; exact .nil
  | cons a fs ih =>
    obtain ⟨k, q⟩ := a
    simp only [convertKeyed] at h
    obtain ⟨un, h1, h⟩ := (bind_ok_iff _ _ _).mp h
    obtain ⟨q', h2, h⟩ := (bind_ok_iff _ _ _).mp h
    obtain ⟨fs'', h3, h⟩ := (bind_ok_iff _ _ _).mp h
    obtain rfl := Except.ok.inj h
    obtain ⟨e1, e2⟩ := uconvertQ_ok h2
    exact .cons ⟨⟨rfl, e1⟩, by simp only [e2]; exact h1⟩ (ih h3)

theorem convertKeyed_total {units : List (String × UnitU)} {fs : List (String × Qty)}
    (h : ∀ a ∈ fs, ∃ un, dictGet units a.1 = .ok un ∧ un.dim = a.2.unit.dim) :
    ∃ fs', convertKeyed units fs = .ok fs' := by
  induction fs with
  | nil => exact ⟨_, rfl⟩
  | cons a fs ih =>
    obtain ⟨k, q⟩ := a
    obtain ⟨un, h1, h2⟩ := h (k, q) (by simp)
    obtain ⟨q', hq⟩ := uconvertQ_total h2
    obtain ⟨fs', hf⟩ := ih (fun a ha => h a (by simp [ha]))
    exact ⟨(k, q') :: fs', by simp only [convertKeyed, h1, ok_bind, hq, hf]; rfl⟩

/-! ### dictionaries -/

theorem dictGet_mem {κ ν : Type} [DecidableEq κ] {d : List (κ × ν)} {k : κ} {v : ν}
    (h : dictGet d k = .ok v) : (k, v) ∈ d := by
  induction d with
  | nil => cases h
  | cons a d ih =>
    obtain ⟨k', v'⟩ := a
    simp only [dictGet] at h
    split at h
    · obtain rfl := Except.ok.inj h
      rename_i h'
      exact mem_cons_of_mem _ (ih h')
    · split at h
      · rename_i e
        obtain rfl := Except.ok.inj h; subst e; simp
      · cases h

theorem dictGet_total {κ ν : Type} [DecidableEq κ] {d : List (κ × ν)} {k : κ} (h : k ∈ d.map Prod.fst) :
    ∃ v, dictGet d k = .ok v := by
  induction d with
  | nil => simp at h
  | cons a d ih =>
    obtain ⟨k', v'⟩ := a
    simp only [dictGet]
    by_cases hk : k ∈ d.map Prod.fst
    · obtain ⟨v, hv⟩ := ih hk
      exact ⟨v, by rw [hv]⟩
    · have e : k' = k := by
        simp only [map_cons, mem_cons] at h
        rcases h with h | h
        · exact h.symm
        · exact absurd h hk
      split
      · exact ⟨_, rfl⟩
      · exact ⟨v', by rw [if_pos e]⟩

theorem dictGet_unique {κ ν : Type} [DecidableEq κ] {d : List (κ × ν)} {k : κ} {v : ν} (h : (k, v) ∈ d)
    (hu : ∀ w, (k, w) ∈ d → w = v) : dictGet d k = .ok v := by
  obtain ⟨w, hw⟩ := dictGet_total (mem_map_of_mem h)
  rw [hw, hu w (dictGet_mem hw)]

/-! ### the loop of `consistent` -/

/-- invariant: `dim2unit` lists the first unit of each physical type seen -/
def FirstUnits (p : List (String × Qty)) (m : List (Dim × UnitU)) : Prop :=
  (m.map Prod.fst).Nodup ∧ (∀ a ∈ p, a.2.unit.dim ∈ m.map Prod.fst) ∧
  ∀ d un, (d, un) ∈ m → ∃ c, IsFirst p d c ∧ c.2.unit = un

theorem isFirst_append {p l : List (String × Qty)} {d : Dim} {c} (h : IsFirst p d c) :
    IsFirst (p ++ l) d c := by
  obtain ⟨l₁, l₂, rfl, h1, h2⟩ := h
  exact ⟨l₁, l₂ ++ l, by simp, h1, h2⟩

theorem isFirst_unique {l : List (String × Qty)} {d : Dim} {c c'} (h : IsFirst l d c)
    (h' : IsFirst l d c') : c = c' := by
  obtain ⟨l₁, l₂, rfl, h1, h2⟩ := h
  obtain ⟨m₁, m₂, e, h3, h4⟩ := h'
  rcases append_eq_append_iff.mp e with ⟨as, e1, e2⟩ | ⟨bs, e1, e2⟩
  · cases as with
    | nil => simp only [nil_append, cons.injEq] at e2; exact e2.1
    | cons a as =>
      simp only [cons_append, cons.injEq] at e2
      obtain ⟨rfl, _⟩ := e2
      exact absurd h1 (h4 c (by rw [e1]; simp))
  · cases bs with
    | nil => simp only [nil_append, cons.injEq] at e2; exact e2.1.symm
    | cons a as =>
      simp only [cons_append, cons.injEq] at e2
      obtain ⟨rfl, _⟩ := e2
      exact absurd h3 (h2 c' (by rw [e1]; simp))

theorem firstUnits_step {p : List (String × Qty)} {m : List (Dim × UnitU)} (h : FirstUnits p m)
    (k : String) (q : Qty) : FirstUnits (p ++ [(k, q)])
      (if q.unit.dim ∈ m.map Prod.fst then m else m ++ [(q.unit.dim, q.unit)]) := by
  obtain ⟨h1, h2, h3⟩ := h
  split
  · rename_i hm
    refine ⟨h1, ?_, fun d un hd => ?_⟩
    · intro a ha
      rcases mem_append.mp ha with ha | ha
      · exact h2 a ha
      · simp only [mem_singleton] at ha; subst ha; exact hm
    · obtain ⟨c, hc, e⟩ := h3 d un hd
      exact ⟨c, isFirst_append hc, e⟩
  · rename_i hm
    refine ⟨?_, ?_, fun d un hd => ?_⟩
    · rw [map_append, nodup_append]
      refine ⟨h1, by simp, ?_⟩
      intro a ha b hb e
      simp only [map_cons, map_nil, mem_singleton] at hb
      exact hm (by rw [← hb, ← e]; exact ha)
    · intro a ha
      rw [map_append, mem_append]
      rcases mem_append.mp ha with ha | ha
      · exact .inl (h2 a ha)
      · simp only [mem_singleton] at ha; subst ha; simp
    · rcases mem_append.mp hd with hd | hd
      · obtain ⟨c, hc, e⟩ := h3 d un hd
        exact ⟨c, isFirst_append hc, e⟩
      · simp only [mem_singleton, Prod.mk.injEq] at hd
        obtain ⟨rfl, rfl⟩ := hd
        refine ⟨(k, q), ⟨p, [], rfl, rfl, fun b hb e => hm ?_⟩, rfl⟩
        rw [← e]; exact h2 b hb

theorem consistentLoop_ok (l p : List (String × Qty)) (m : List (Dim × UnitU))
    (units : List (String × UnitU)) (hm : FirstUnits p m)
    (hu : Forall₂ (fun a b : String × _ => b.1 = a.1 ∧ ∃ c, IsFirst p a.2.unit.dim c ∧ b.2 = c.2.unit) p units) :
    ∃ units', consistentLoop l m units = .ok units' ∧
      Forall₂ (fun a b : String × _ => b.1 = a.1 ∧ ∃ c, IsFirst (p ++ l) a.2.unit.dim c ∧ b.2 = c.2.unit)
        (p ++ l) units' := by
  induction l generalizing p m units with
  | nil => exact ⟨units, rfl, by simpa using hu⟩
  | cons a l ih =>
    obtain ⟨k, q⟩ := a
    have hstep := firstUnits_step hm k q
    simp only [consistentLoop]
    generalize (if q.unit.dim ∈ m.map Prod.fst then m else m ++ [(q.unit.dim, q.unit)]) = m' at hstep ⊢
    obtain ⟨un, hun⟩ := dictGet_total (hstep.2.1 (k, q) (by simp))
    simp only at hun
    rw [hun, ok_bind]
    obtain ⟨c, hc, e⟩ := hstep.2.2 _ _ (dictGet_mem hun)
    obtain ⟨units', h1, h2⟩ := ih (p ++ [(k, q)]) m' (units ++ [(k, un)]) hstep (by
      apply List.rel_append
      · exact hu.imp (fun a b ⟨h1, c, h2, h3⟩ => ⟨h1, c, isFirst_append h2, h3⟩)
      · exact .cons ⟨rfl, c, hc, e.symm⟩ .nil)
    rw [append_assoc, singleton_append] at h2
    exact ⟨units', h1, h2⟩

theorem names_nodup {v : UVec} (hb : Built v) : (v.fields.map Prod.fst).Nodup := by
  obtain ⟨_, h2, _⟩ := (built_iff v).mp hb
  have e : v.fields.map Prod.fst = v.cls.schema.map Prod.fst := by
    generalize v.cls.schema = sch at h2
    generalize v.fields = fs at h2
    induction h2 with
    | nil => rfl
    | cons h _ ih => simp only [map_cons, ih, h.1]
  rw [e]
  cases v.cls with
  | pos k => cases k <;> decide
  | vel k => cases k <;> decide
  | acc k => cases k <;> decide
  | generic3 => decide
  | poincare => decide

theorem consistent_units {v : UVec} (hb : Built v) : ∃ units, consistentLoop v.fields [] [] = .ok units ∧
    ∀ a ∈ v.fields, ∃ c, IsFirst v.fields a.2.unit.dim c ∧ dictGet units a.1 = .ok c.2.unit := by
  obtain ⟨units, h1, h2⟩ := consistentLoop_ok v.fields [] [] [] ⟨by simp, by simp, by simp⟩ .nil
  rw [nil_append] at h2
  refine ⟨units, h1, fun a ha => ?_⟩
  have hnd := names_nodup hb
  have hn : units.map Prod.fst = v.fields.map Prod.fst := by
    generalize hE : v.fields = fs at h2
    have h2' : Forall₂ (fun a b : String × _ => b.1 = a.1) fs units := h2.imp (fun a b h => h.1)
    clear h2 hE h1
    induction h2' with
    | nil => rfl
    | cons h _ ih => simp only [map_cons, ih, h]
  obtain ⟨i, hi, rfl⟩ := List.mem_iff_getElem.mp ha
  have hlen := h2.length_eq
  have hi' : i < units.length := hlen ▸ hi
  obtain ⟨e1, c, hc, e2⟩ := (List.forall₂_iff_get.mp h2).2 i hi hi'
  simp only [List.get_eq_getElem] at e1 hc e2
  refine ⟨c, hc, dictGet_unique ?_ ?_⟩
  · rw [← e1, ← e2]; exact getElem_mem hi'
  · intro w hw
    obtain ⟨j, hj, e⟩ := List.mem_iff_getElem.mp hw
    have hnd' : (units.map Prod.fst).Nodup := hn ▸ hnd
    have hij : j = i := by
      have := List.Nodup.getElem_inj_iff hnd' (i := j) (j := i) (hi := by simpa using hj)
        (hj := by simpa using hi')
      apply this.mp
      rw [getElem_map, getElem_map, e, e1]
    subst hij
    rw [← e2, e]

/-! ### C37 -/

theorem sameVec_of {v : UVec} {items : List (String × Qty)} (h : Forall₂ SameComp v.fields items) :
    SameVec v ⟨v.cls, items, v.delta⟩ := ⟨rfl, rfl, h⟩

/-- the unit an option asks for, component by component -/
def Asked (o : ToUnits) (v : UVec) (a : String × Qty) (un : UnitU) : Prop :=
  match o with
  | .usys g => g a.2.unit.dim = .ok un
  | .mapping m => dictGet m a.2.unit.dim = .ok un
  | .consistent => ∃ c, IsFirst v.fields a.2.unit.dim c ∧ un = c.2.unit

theorem uconvert_ok {o : ToUnits} {v v' : UVec} (hb : Built v) (h : uconvert o v = .ok v') :
    SameVec v v' ∧ Forall₂ (fun a b => Asked o v a b.2.unit) v.fields v'.fields := by
  unfold uconvert at h
  cases o with
  | usys get =>
    obtain ⟨items, h1, h⟩ := (bind_ok_iff _ _ _).mp h
    have hc := convertAll_ok h1
    have hs : Forall₂ SameComp v.fields items := hc.imp (fun _ _ h => h.1)
    rw [replace_same hb hs] at h
    obtain rfl := Except.ok.inj h
    exact ⟨sameVec_of hs, hc.imp (fun _ _ h => h.2)⟩
  | mapping m =>
    obtain ⟨items, h1, h⟩ := (bind_ok_iff _ _ _).mp h
    have hc := convertAll_ok h1
    have hs : Forall₂ SameComp v.fields items := hc.imp (fun _ _ h => h.1)
    rw [replace_same hb hs] at h
    obtain rfl := Except.ok.inj h
    exact ⟨sameVec_of hs, hc.imp (fun _ _ h => h.2)⟩
  | consistent =>
    obtain ⟨units, h0, h⟩ := (bind_ok_iff _ _ _).mp h
    obtain ⟨items, h1, h⟩ := (bind_ok_iff _ _ _).mp h
    have hc := convertKeyed_ok h1
    have hs : Forall₂ SameComp v.fields items := hc.imp (fun _ _ h => h.1)
    rw [replace_same hb hs] at h
    obtain rfl := Except.ok.inj h
    refine ⟨sameVec_of hs, ?_⟩
    obtain ⟨units', e1, e2⟩ := consistent_units hb
    rw [h0] at e1
    obtain rfl := Except.ok.inj e1
    rw [List.forall₂_iff_get] at hc ⊢
    refine ⟨hc.1, fun i h1 h2 => ?_⟩
    obtain ⟨c, hc1, hc2⟩ := e2 (v.fields.get ⟨i, h1⟩) (by simp)
    obtain ⟨_, hd⟩ := hc.2 i h1 h2
    rw [hc2] at hd
    exact ⟨c, hc1, (Except.ok.inj hd).symm⟩

theorem built_same {v w : UVec} (hb : Built v) (h : SameVec v w) : Built w := by
  have := replace_same hb h.comps
  unfold UVec.replace at this
  rw [if_neg (by rw [forall₂_names h.comps]; simp)] at this
  simp only [] at this
  refine ⟨v.cls, w.fields.map Prod.snd, v.delta, ?_⟩
  · rw [this]
    obtain ⟨c, f, d⟩ := w
    obtain ⟨h1, h2, _⟩ := h
    simp only at h1 h2; subst h1 h2; rfl

/-- **C37.** Whatever the option: class, attributes, component names and quantity classes are unchanged
and every component keeps its physical value; the result is a valid vector; and a position denotes the
same position in base units (so every function of positions in this model is unaffected). -/
theorem C37_physical_value (o : ToUnits) (v v' : UVec) (hb : Built v) (h : uconvert o v = .ok v') :
    SameVec v v' ∧ Built v' ∧
    ∀ k, v.cls = .pos k → readPos k (v'.fields.map Prod.snd) v'.delta =
      readPos k (v.fields.map Prod.snd) v.delta := by
  obtain ⟨h1, _⟩ := uconvert_ok hb h
  refine ⟨h1, built_same hb h1, fun k _ => ?_⟩
  rw [h1.delta]
  exact readPos_same k _ (forall₂_map_snd h1.comps)

/-- **C37.** Every component of the result carries the unit that was asked for its physical type. -/
theorem C37_units_asked (v v' : UVec) (hb : Built v) :
    (∀ get, uconvert (.usys get) v = .ok v' → ∀ b ∈ v'.fields, get b.2.unit.dim = .ok b.2.unit) ∧
    (∀ m, uconvert (.mapping m) v = .ok v' → ∀ b ∈ v'.fields, (b.2.unit.dim, b.2.unit) ∈ m) := by
  have key : ∀ o, uconvert o v = .ok v' → ∀ b ∈ v'.fields, ∃ a, SameComp a b ∧ Asked o v a b.2.unit := by
    intro o h b hb'
    obtain ⟨h1, h2⟩ := uconvert_ok hb h
    obtain ⟨i, hi, rfl⟩ := List.mem_iff_getElem.mp hb'
    have hi' : i < v.fields.length := h2.length_eq ▸ hi
    exact ⟨v.fields[i], (List.forall₂_iff_get.mp h1.comps).2 i hi' hi,
      (List.forall₂_iff_get.mp h2).2 i hi' hi⟩
  constructor
  · intro get h b hb'
    obtain ⟨a, h1, h2⟩ := key _ h b hb'
    rw [h1.2.dim]; exact h2
  · intro m h b hb'
    obtain ⟨a, h1, h2⟩ := key _ h b hb'
    rw [h1.2.dim]; exact dictGet_mem h2

/-- **C37.** `uconvert` returns exactly when a unit of the right physical type is given for every
component; `consistent` always returns. -/
theorem C37_returns (v : UVec) (hb : Built v) :
    (∀ get, (∃ v', uconvert (.usys get) v = .ok v') ↔
      ∀ a ∈ v.fields, ∃ un, get a.2.unit.dim = .ok un ∧ un.dim = a.2.unit.dim) ∧
    (∀ m, (∃ v', uconvert (.mapping m) v = .ok v') ↔
      ∀ a ∈ v.fields, ∃ un, dictGet m a.2.unit.dim = .ok un ∧ un.dim = a.2.unit.dim) ∧
    ∃ v', uconvert .consistent v = .ok v' := by
  have key : ∀ get, (∃ v', (do v.replace (← convertAll get v.fields)) = .ok v') ↔
      ∀ a ∈ v.fields, ∃ un, get a.2.unit.dim = .ok un ∧ un.dim = a.2.unit.dim := by
    intro get
    constructor
    · rintro ⟨v', h⟩ a ha
      obtain ⟨items, h1, h⟩ := (bind_ok_iff _ _ _).mp h
      have hc := convertAll_ok h1
      obtain ⟨i, hi, rfl⟩ := List.mem_iff_getElem.mp ha
      have hi' : i < items.length := hc.length_eq ▸ hi
      obtain ⟨e1, e2⟩ := (List.forall₂_iff_get.mp hc).2 i hi hi'
      exact ⟨_, e2, e1.2.dim⟩
    · intro h
      obtain ⟨items, hi⟩ := convertAll_total h
      refine ⟨_, by
        rw [hi, ok_bind]
        exact replace_same hb ((convertAll_ok hi).imp (fun _ _ h => h.1))⟩
  refine ⟨fun get => key get, fun m => key _, ?_⟩
  obtain ⟨units, h1, h2⟩ := consistent_units hb
  obtain ⟨items, h3⟩ := convertKeyed_total (units := units) (fs := v.fields) (fun a ha => by
    obtain ⟨c, hc, e⟩ := h2 a ha
    obtain ⟨_, _, _, hd, _⟩ := hc
    exact ⟨_, e, hd⟩)
  refine ⟨⟨v.cls, items, v.delta⟩, ?_⟩
  simp only [uconvert]
  rw [h1, ok_bind, h3, ok_bind]
  exact replace_same hb ((convertKeyed_ok h3).imp (fun _ _ h => h.1))

theorem sameVec_trans {a b c : UVec} (h : SameVec a b) (k : SameVec b c) : SameVec a c := by
  refine ⟨k.cls.trans h.cls, k.delta.trans h.delta, ?_⟩
  have h1 := h.comps
  have h2 := k.comps
  rw [List.forall₂_iff_get] at *
  refine ⟨h1.1.trans h2.1, fun i hi hj => ?_⟩
  have hk : i < b.fields.length := h1.1 ▸ hi
  obtain ⟨a1, a2⟩ := h1.2 i hi hk
  obtain ⟨b1, b2⟩ := h2.2 i hk hj
  exact ⟨b1.trans a1, a2.trans b2⟩

/-- **C37.** Converting twice with the same option is converting once. -/
theorem C37_idempotent (o : ToUnits) (v v' : UVec) (hb : Built v) (h : uconvert o v = .ok v') :
    uconvert o v' = .ok v' := by
  obtain ⟨h1, h2⟩ := uconvert_ok hb h
  have hb' := built_same hb h1
  have hdim : ∀ i (hi : i < v.fields.length) (hj : i < v'.fields.length),
      v'.fields[i].2.unit.dim = v.fields[i].2.unit.dim := fun i hi hj =>
    ((List.forall₂_iff_get.mp h1.comps).2 i hi hj).2.dim
  have hlen := h2.length_eq
  -- it returns
  have hret : ∃ w, uconvert o v' = .ok w := by
    cases o with
    | usys get =>
      refine ((C37_returns v' hb').1 get).mpr fun a ha => ?_
      have := (C37_units_asked v v' hb).1 get h a ha
      exact ⟨_, this, rfl⟩
    | mapping m =>
      refine ((C37_returns v' hb').2.1 m).mpr fun b hb'' => ?_
      obtain ⟨i, hi, rfl⟩ := List.mem_iff_getElem.mp hb''
      have hi' : i < v.fields.length := hlen ▸ hi
      have := (List.forall₂_iff_get.mp h2).2 i hi' hi
      simp only [Asked, List.get_eq_getElem] at this
      rw [← hdim i hi' hi] at this
      exact ⟨_, this, rfl⟩
    | consistent => exact (C37_returns v' hb').2.2
  obtain ⟨w, hw⟩ := hret
  obtain ⟨k1, k2⟩ := uconvert_ok hb' hw
  rw [hw]
  congr 1
  apply vec_ext k1
  rw [List.forall₂_iff_get]
  refine ⟨k2.length_eq, fun i hi hj => ?_⟩
  have hi' : i < v.fields.length := hlen ▸ hi
  have a1 := (List.forall₂_iff_get.mp h2).2 i hi' hi
  have a2 := (List.forall₂_iff_get.mp k2).2 i hi hj
  simp only [List.get_eq_getElem] at *
  cases o with
  | usys get =>
    simp only [Asked, hdim i hi' hi] at a1 a2
    rw [a1] at a2; exact (Except.ok.inj a2).symm
  | mapping m =>
    simp only [Asked, hdim i hi' hi] at a1 a2
    rw [a1] at a2; exact (Except.ok.inj a2).symm
  | consistent =>
    obtain ⟨c, hc, e⟩ := a1
    obtain ⟨c', hc', e'⟩ := a2
    rw [e, e']
    -- the first of the type in `v'` sits where the first of the type in `v` is
    obtain ⟨l₁, l₂, el, hcd, hnot⟩ := hc
    obtain ⟨m₁, m₂, em, hcd', hnot'⟩ := hc'
    have lenl : l₁.length < v.fields.length := by rw [el]; simp
    have lenl' : l₁.length < v'.fields.length := hlen ▸ lenl
    have lenm : m₁.length < v'.fields.length := by rw [em]; simp
    have lenm' : m₁.length < v.fields.length := hlen ▸ lenm
    have gl : v.fields[l₁.length] = c := by simp [el]
    have gm : v'.fields[m₁.length] = c' := by simp [em]
    have hpos : l₁.length = m₁.length := by
      rcases Nat.lt_trichotomy l₁.length m₁.length with hlt | heq | hlt
      · exfalso
        have : v'.fields[l₁.length] = m₁[l₁.length] := by simp [em, hlt]
        apply hnot' m₁[l₁.length] (getElem_mem _)
        rw [← this, hdim _ lenl lenl', gl, hcd, hdim i hi' hi]
      · exact heq
      · exfalso
        have : v.fields[m₁.length] = l₁[m₁.length] := by simp [el, hlt]
        apply hnot l₁[m₁.length] (getElem_mem _)
        rw [← this, ← hdim _ lenm' lenm, gm, hcd', hdim i hi' hi]
    -- there the unit of `v'` is the unit of the first of the type in `v`, which is `c`
    have a3 := (List.forall₂_iff_get.mp h2).2 _ lenl lenl'
    simp only [List.get_eq_getElem, Asked] at a3
    obtain ⟨c'', hc'', e''⟩ := a3
    rw [gl, hcd] at hc''
    have : c'' = c := isFirst_unique hc'' ⟨l₁, l₂, el, hcd, hnot⟩
    rw [← gm, ← this, ← e'']
    simp only [hpos]

/-- the mapping of a vector's own units -/
def Spec.ownUnits (v : UVec) : List (Dim × UnitU) := v.fields.map fun a => (a.2.unit.dim, a.2.unit)

/-- **C37.** There and back: after converting `v` with any option, any conversion that asks for the
original units gives back `v` itself, values and units; in particular converting with the mapping of
`v`'s own units (when `v` has one unit per physical type) always returns `v`. -/
theorem C37_round_trip (o : ToUnits) (v v' : UVec) (hb : Built v) (h : uconvert o v = .ok v') :
    (∀ o' w, uconvert o' v' = .ok w →
      Forall₂ (fun a b : String × Qty => b.2.unit = a.2.unit) v.fields w.fields → w = v) ∧
    (OneUnitPerDim v → uconvert (.mapping (Spec.ownUnits v)) v' = .ok v) := by
  obtain ⟨h1, h2⟩ := uconvert_ok hb h
  have hb' := built_same hb h1
  have back : ∀ o' w, uconvert o' v' = .ok w →
      Forall₂ (fun a b : String × Qty => b.2.unit = a.2.unit) v.fields w.fields → w = v :=
    fun o' w hw hu => vec_ext (sameVec_trans h1 (uconvert_ok hb' hw).1) hu
  refine ⟨back, fun hone => ?_⟩
  have hget : ∀ i (hi : i < v.fields.length) (hj : i < v'.fields.length),
      dictGet (Spec.ownUnits v) v'.fields[i].2.unit.dim = .ok v.fields[i].2.unit := by
    intro i hi hj
    rw [show v'.fields[i].2.unit.dim = v.fields[i].2.unit.dim from
      ((List.forall₂_iff_get.mp h1.comps).2 i hi hj).2.dim]
    apply dictGet_unique
    · exact mem_map.mpr ⟨v.fields[i], getElem_mem hi, rfl⟩
    · intro w hw
      obtain ⟨a, ha, e⟩ := mem_map.mp hw
      obtain ⟨e1, e2⟩ := Prod.mk.inj e
      rw [← e2]
      exact hone a ha _ (getElem_mem hi) e1
  have hlen := h2.length_eq
  obtain ⟨w, hw⟩ := ((C37_returns v' hb').2.1 (Spec.ownUnits v)).mpr (fun b hb'' => by
    obtain ⟨i, hi, rfl⟩ := List.mem_iff_getElem.mp hb''
    have hi' : i < v.fields.length := hlen ▸ hi
    exact ⟨_, hget i hi' hi, ((List.forall₂_iff_get.mp h1.comps).2 i hi' hi).2.dim.symm⟩)
  rw [hw]
  congr 1
  apply back _ w hw
  have k2 := (uconvert_ok hb' hw).2
  rw [List.forall₂_iff_get]
  refine ⟨hlen.trans k2.length_eq, fun i hi hj => ?_⟩
  have hi' : i < v'.fields.length := hlen ▸ hi
  have := (List.forall₂_iff_get.mp k2).2 i hi' hj
  simp only [Asked, List.get_eq_getElem] at this ⊢
  rw [hget i hi hi'] at this
  exact (Except.ok.inj this).symm

/-! ### C38 -/

/-- **C38.** `uconvert(consistent)` returns, and each component gets the unit of the first component of
the same physical type. -/
theorem C38_first_unit (v : UVec) (hb : Built v) : ∃ v', uconvert .consistent v = .ok v' ∧
    SameVec v v' ∧
    Forall₂ (fun a b : String × Qty => ∃ c, IsFirst v.fields a.2.unit.dim c ∧ b.2.unit = c.2.unit)
      v.fields v'.fields := by
  obtain ⟨v', h⟩ := (C37_returns v hb).2.2
  obtain ⟨h1, h2⟩ := uconvert_ok hb h
  exact ⟨v', h, h1, h2⟩

/-- **C38.** After `uconvert(consistent)` two components of the same physical type carry the same
unit. -/
theorem C38_consistent (v v' : UVec) (hb : Built v) (h : uconvert .consistent v = .ok v') :
    OneUnitPerDim v' := by
  obtain ⟨w, hw, h1, h2⟩ := C38_first_unit v hb
  rw [h] at hw
  obtain rfl := Except.ok.inj hw
  intro a ha b hb' hd
  obtain ⟨i, hi, rfl⟩ := List.mem_iff_getElem.mp ha
  obtain ⟨j, hj, rfl⟩ := List.mem_iff_getElem.mp hb'
  have hlen := h2.length_eq
  have hi' : i < v.fields.length := hlen ▸ hi
  have hj' : j < v.fields.length := hlen ▸ hj
  have di := ((List.forall₂_iff_get.mp h1.comps).2 i hi' hi).2.dim
  have dj := ((List.forall₂_iff_get.mp h1.comps).2 j hj' hj).2.dim
  obtain ⟨c, hc, e⟩ := (List.forall₂_iff_get.mp h2).2 i hi' hi
  obtain ⟨c', hc', e'⟩ := (List.forall₂_iff_get.mp h2).2 j hj' hj
  simp only [List.get_eq_getElem] at *
  rw [e, e']
  rw [← di, hd, dj] at hc
  rw [isFirst_unique hc hc']

/-! ### an instance: a cylindrical position with three different units -/

namespace UnitsExample

noncomputable section

def km : UnitU := ⟨"km", .length, 2, two_pos⟩
def m : UnitU := ⟨"m", .length, 1 / 500, by norm_num⟩
def deg : UnitU := ⟨"deg", .ang, Real.pi / 180, by positivity⟩

/-- `CylindricalPos(rho=1 km, phi=Angle(5 deg), z=7 m)` -/
def cyl : UVec := ⟨.pos .cyl,
  [("rho", ⟨.quantity, 1, km⟩), ("phi", ⟨.angle, 5, deg⟩), ("z", ⟨.quantity, 7, m⟩)], none⟩

theorem cyl_built : Built cyl := by
  rw [built_iff]
  refine ⟨by simp [cyl, VCls.schema], ?_, ?_⟩
  · exact .cons ⟨rfl, rfl⟩ (.cons ⟨rfl, rfl⟩ (.cons ⟨rfl, rfl⟩ .nil))
  · simp only [cyl, VCls.check, map_cons, map_nil, readPos, mkCyl, Option.isSome_none, Bool.false_eq_true,
      false_and, if_false]
    rw [checkNonNeg_ok (by simp [Qty.phys, km])]
    rfl

/-- not already consistent, so `consistent` has something to do -/
example : ¬ OneUnitPerDim cyl := by
  intro h
  have := congrArg UnitU.name (h ("rho", ⟨.quantity, 1, km⟩) (by simp [cyl]) ("z", ⟨.quantity, 7, m⟩)
    (by simp [cyl]) rfl)
  simp [km, m] at this

end

end UnitsExample

end Verif
