import Verif.Attribute
import Verif.Props.Space

/-!
# Attributes of vectors and field functions

C77: construction of objects of any vector class with components and attributes; filters; `replace`.
-/

namespace Verif

open List

variable {V : Type}

/-! ### Specification -/

/-- the names of the fields -/
def VClass.names (cls : VClass V) : List String := cls.map Prod.fst

/-- the default and the converter of a field -/
def Fld.dflt : Fld V → Option V
  | .comp d _ => d
  | .attr a => a.default

def Fld.conv : Fld V → V → Res V
  | .comp _ c => c
  | .attr a => a.converter

/-- `o` is an object of `cls` whose field `k`, declared as `d`, has a value `x` with `F k d x` -/
def ObjectOf (cls : VClass V) (o : VObj V) (F : String → Fld V → V → Prop) : Prop :=
  o.map Prod.fst = cls.names ∧ ∀ k d, (k, d) ∈ cls → ∃ x, o.lookup k = some x ∧ F k d x

/-- converting a converted value changes nothing -/
def Idempotent (cls : VClass V) : Prop := ∀ k d, (k, d) ∈ cls → ∀ v w, d.conv v = .ok w → d.conv w = .ok w

/-! ### Lists of pairs -/

theorem lookup_cons_ne' {W : Type} {k k' : String} {x : W} {l : List (String × W)} (h : k' ≠ k) :
    ((k, x) :: l).lookup k' = l.lookup k' := by
  have hb : (k' == k) = false := by simpa using h
  simp only [List.lookup_cons, hb]

theorem lookup_cons_self' {W : Type} {k : String} {x : W} {l : List (String × W)} : ((k, x) :: l).lookup k = some x := by
  rw [List.lookup_cons]; simp

theorem lookup_isSome_mem {W : Type} {k : String} : ∀ {l : List (String × W)}, (l.lookup k).isSome = true ↔ k ∈ l.map Prod.fst
  | [] => by simp
  | (k', x) :: l => by
    by_cases h : k = k'
    · subst h; rw [lookup_cons_self']; simp
    · rw [lookup_cons_ne' h, lookup_isSome_mem]; simp [h]

theorem lookup_of_mem {W : Type} {k : String} {x : W} : ∀ {l : List (String × W)}, (l.map Prod.fst).Nodup → (k, x) ∈ l →
    l.lookup k = some x
  | [], _, h => by simp at h
  | (k', y) :: l, hn, h => by
    simp only [List.map_cons, List.nodup_cons] at hn
    by_cases he : k = k'
    · subst he
      rcases List.mem_cons.1 h with h | h
      · injection h with _ h; subst h; exact lookup_cons_self'
      · exact absurd (List.mem_map.2 ⟨(k, x), h, rfl⟩) hn.1
    · rw [lookup_cons_ne' he]
      rcases List.mem_cons.1 h with h | h
      · injection h with h _; exact absurd h he
      · exact lookup_of_mem hn.2 h

theorem mem_of_lookup {W : Type} {k : String} {x : W} : ∀ {l : List (String × W)}, l.lookup k = some x → (k, x) ∈ l
  | [], h => by simp at h
  | (k', y) :: l, h => by
    by_cases he : k = k'
    · subst he; rw [lookup_cons_self'] at h; injection h with h; subst h; exact List.mem_cons_self
    · rw [lookup_cons_ne' he] at h; exact List.mem_cons_of_mem _ (mem_of_lookup h)

theorem forall2_obj (F : String → Fld V → V → Prop) : ∀ (cls : VClass V) (o : VObj V), cls.names.Nodup →
    (Forall₂ (fun d e => e.1 = d.1 ∧ F d.1 d.2 e.2) cls o ↔ ObjectOf cls o F)
  | [], o, _ => by
    unfold ObjectOf VClass.names
    constructor
    · intro h; cases h; exact ⟨rfl, by simp⟩
    · rintro ⟨h, -⟩
      rw [List.map_nil, List.map_eq_nil_iff] at h; subst h; exact .nil
  | (k, d) :: cls, o, hn => by
    have hn' : k ∉ VClass.names cls ∧ (VClass.names cls).Nodup := by simpa [VClass.names] using hn
    constructor
    · intro h
      cases h with
      | cons h1 h2 =>
        rename_i e o'
        obtain ⟨ek, x⟩ := e
        obtain ⟨h1, hF⟩ := h1
        simp only at h1 hF; subst h1
        obtain ⟨i1, i2⟩ := (forall2_obj F cls o' hn'.2).1 h2
        refine ⟨by simp [VClass.names] at i1 ⊢; exact i1, fun k' d' hm => ?_⟩
        rcases List.mem_cons.1 hm with he | hm
        · injection he with e1 e2; subst e1; subst e2
          exact ⟨x, lookup_cons_self', hF⟩
        · have hne : k' ≠ ek := fun e => hn'.1 (by rw [← e]; exact List.mem_map.2 ⟨(k', d'), hm, rfl⟩)
          rw [lookup_cons_ne' hne]; exact i2 k' d' hm
    · rintro ⟨h1, h2⟩
      match o, h1, h2 with
      | [], h1, _ => simp [VClass.names] at h1
      | (ek, x) :: o', h1, h2 =>
        simp only [VClass.names, List.map_cons, List.cons.injEq] at h1
        obtain ⟨h1, h1'⟩ := h1
        subst h1
        obtain ⟨y, hy, hF⟩ := h2 ek d List.mem_cons_self
        rw [lookup_cons_self'] at hy; injection hy with hy; subst hy
        refine .cons ⟨rfl, hF⟩ ((forall2_obj F cls o' hn'.2).2 ⟨h1', fun k' d' hm => ?_⟩)
        have hne : k' ≠ ek := fun e => hn'.1 (by rw [← e]; exact List.mem_map.2 ⟨(k', d'), hm, rfl⟩)
        obtain ⟨z, hz, hF'⟩ := h2 k' d' (List.mem_cons_of_mem _ hm)
        rw [lookup_cons_ne' hne] at hz
        exact ⟨z, hz, hF'⟩

theorem value_iff (d : Fld V) (g : Option V) (x : V) :
    d.value g = .ok x ↔ ∃ v, g.or d.dflt = some v ∧ d.conv v = .ok x := by
  cases d with
  | comp df c => cases g <;> cases df <;> simp [Fld.value, Fld.dflt, Fld.conv]
  | attr a =>
    cases g with
    | some v => simp [Fld.value, Fld.dflt, Fld.conv, VAttr.set]
    | none => cases ha : a.default <;> simp [Fld.value, Fld.dflt, Fld.conv, VAttr.set, ha]

/-- **C77**: `cls(**kw)` for any class: it returns an object exactly if every keyword is a field, every field without a
default is given, and the converters accept the values; the fields are those of the class, in its order, each with its
converted value, the default where none is given. -/
theorem C77_construct (cls : VClass V) (hn : cls.names.Nodup) (kw o : VObj V) :
    cls.construct kw = .ok o ↔
      (∀ e ∈ kw, e.1 ∈ cls.names) ∧
      ObjectOf cls o fun k d x => ∃ v, (kw.lookup k).or d.dflt = some v ∧ d.conv v = .ok x := by
  unfold VClass.construct
  have hall : (kw.all fun e => cls.any fun d => d.1 == e.1) = true ↔ ∀ e ∈ kw, e.1 ∈ cls.names := by
    simp [VClass.names]
  by_cases h : (kw.all fun e => cls.any fun d => d.1 == e.1) = true
  · rw [if_pos h, mapM_res_iff, ← forall2_obj _ cls o hn]
    rw [and_iff_right (hall.1 h)]
    refine ⟨fun hf => hf.imp fun d e he => ?_, fun hf => hf.imp fun d e he => ?_⟩
    · obtain ⟨x, h1, h2⟩ := (bind_ok_iff _ _ _).1 he
      have h2 := Except.ok.inj h2
      rw [← h2]
      exact ⟨rfl, (value_iff _ _ _).1 h1⟩
    · obtain ⟨h1, h2⟩ := he
      rw [(value_iff _ _ _).2 h2, ← h1]; rfl
  · rw [if_neg h]
    constructor
    · intro h'; cases h'
    · rintro ⟨h', -⟩; exact absurd (hall.2 h') h

/-! ### Attributes -/

/-- **C77**: the default of an attribute goes through its converter twice, an argument once: `VectorAttribute` converts the
default when it is made and again when it is set. -/
theorem C77_attribute (cls : VClass V) (hn : cls.names.Nodup) (k : String) (a : VAttr V) (hk : (k, .attr a) ∈ cls)
    (d : V) (conv : V → Res V) (ha : VAttr.make (some d) conv = .ok a) (kw o : VObj V) (h : cls.construct kw = .ok o) :
    (kw.lookup k = none → ∃ y x, conv d = .ok y ∧ conv y = .ok x ∧ o.lookup k = some x) ∧
    (∀ v, kw.lookup k = some v → ∃ x, conv v = .ok x ∧ o.lookup k = some x) := by
  obtain ⟨y, hy, ha⟩ := (bind_ok_iff _ _ _).1 ha
  have ha := Except.ok.inj ha
  subst ha
  obtain ⟨-, -, hv⟩ := (C77_construct cls hn kw o).1 h
  obtain ⟨x, hx, v, h1, h2⟩ := hv k _ hk
  constructor
  · intro hnone
    rw [hnone] at h1
    simp only [Fld.dflt, Option.none_or, Option.some.injEq] at h1
    subst h1
    exact ⟨_, x, hy, h2, hx⟩
  · intro v' hv'
    rw [hv'] at h1
    simp only [Option.some_or, Option.some.injEq] at h1
    subst h1
    exact ⟨x, h2, hx⟩

/-- **C77**: an attribute without a default must be given. -/
theorem C77_required (cls : VClass V) (hn : cls.names.Nodup) (k : String) (conv : V → Res V) (a : VAttr V)
    (ha : VAttr.make none conv = .ok a) (hk : (k, .attr a) ∈ cls) (kw o : VObj V) (h : cls.construct kw = .ok o) :
    (kw.lookup k).isSome = true := by
  have ha := Except.ok.inj ha
  subst ha
  obtain ⟨-, -, hv⟩ := (C77_construct cls hn kw o).1 h
  obtain ⟨x, hx, v, h1, h2⟩ := hv k _ hk
  cases hl : kw.lookup k with
  | none => rw [hl] at h1; simp [Fld.dflt] at h1
  | some v => rfl

/-! ### Filters -/

/-- the components in the order of declaration -/
def VClass.compNames (cls : VClass V) : List String :=
  cls.filterMap fun d => match d.2 with
    | .comp _ _ => some d.1
    | .attr _ => none

theorem isAttr_iff (cls : VClass V) (hn : cls.names.Nodup) (k : String) (d : Fld V) (h : (k, d) ∈ cls) :
    cls.isAttr k = true ↔ ∃ a, d = .attr a := by
  unfold VClass.isAttr
  rw [lookup_of_mem hn h]
  cases d <;> simp

theorem filter_keys_aux (p : String → Bool) : ∀ (l : VClass V), (∀ k d, (k, d) ∈ l → (p k = true ↔ ∃ a, d = .attr a)) →
    (l.filter fun d => !p d.1).map Prod.fst = VClass.compNames l
  | [], _ => rfl
  | (k, d) :: l, h => by
    have ih := filter_keys_aux p l fun k' d' hm => h k' d' (List.mem_cons_of_mem _ hm)
    have hk := h k d List.mem_cons_self
    unfold VClass.compNames at ih ⊢
    cases d with
    | comp df c =>
      have : p k = false := by
        cases hp : p k with
        | false => rfl
        | true => obtain ⟨a, ha⟩ := hk.1 hp; cases ha
      simp [List.filterMap_cons, this, ih]
    | attr a =>
      have : p k = true := hk.2 ⟨a, rfl⟩
      simp [List.filterMap_cons, this, ih]

/-- **C77**: `cls.components` and `field_keys(AttrFilter, ...)` are the names of the components in the order of declaration. -/
theorem C77_components (cls : VClass V) (hn : cls.names.Nodup) : cls.fieldKeysF = cls.compNames :=
  filter_keys_aux cls.isAttr cls fun k d h => isAttr_iff cls hn k d h

theorem filter_keys_obj {W : Type} (p : String → Bool) : ∀ (l : VClass V) (o : List (String × W)), o.map Prod.fst = l.names →
    (o.filter fun e => !p e.1).map Prod.fst = (l.filter fun d => !p d.1).map Prod.fst
  | [], o, h => by
    simp only [VClass.names, List.map_nil, List.map_eq_nil_iff] at h; subst h; rfl
  | (k, d) :: l, [], h => by simp [VClass.names] at h
  | (k, d) :: l, (k', x) :: o, h => by
    simp only [VClass.names, List.map_cons, List.cons.injEq] at h
    obtain ⟨rfl, h⟩ := h
    have ih := filter_keys_obj p l o h
    cases hp : p k' <;> simp [hp, ih]

/-- **C77**: on an object, `field_items(AttrFilter, obj)` has the components as keys, in the order of declaration, each with its
value, `field_values(AttrFilter, obj)` has their values in that order, and `units`, `dtypes`, `shapes`, `sizes`, `devices` have
the same keys. -/
theorem C77_items (cls : VClass V) (hn : cls.names.Nodup) (o : VObj V) (ho : o.map Prod.fst = cls.names) {W : Type} (f : V → W) :
    (cls.fieldItemsF o).map Prod.fst = cls.compNames ∧
    (cls.describe f o).map Prod.fst = cls.compNames ∧
    (∀ k x, (k, x) ∈ cls.fieldItemsF o ↔ k ∈ cls.compNames ∧ o.lookup k = some x) ∧
    (cls.fieldValuesF o).map some = cls.compNames.map (fun k => o.lookup k) ∧
    (∀ k, k ∈ cls.compNames → (cls.describe f o).lookup k = (o.lookup k).map f) := by
  have hon : (o.map Prod.fst).Nodup := by rw [ho]; exact hn
  have h1 : (cls.fieldItemsF o).map Prod.fst = cls.compNames := by
    unfold VClass.fieldItemsF
    rw [filter_keys_obj cls.isAttr cls o ho]
    exact C77_components cls hn
  have h3 : ∀ k x, (k, x) ∈ cls.fieldItemsF o ↔ k ∈ cls.compNames ∧ o.lookup k = some x := by
    intro k x
    constructor
    · intro h
      refine ⟨by rw [← h1]; exact List.mem_map.2 ⟨(k, x), h, rfl⟩, lookup_of_mem hon (List.mem_of_mem_filter h)⟩
    · rintro ⟨hk, hx⟩
      rw [← h1] at hk
      obtain ⟨⟨k', y⟩, hm, rfl⟩ := List.mem_map.1 hk
      have := lookup_of_mem hon (List.mem_of_mem_filter hm)
      simp only at hx
      rw [this] at hx; injection hx with hx; subst hx
      exact hm
  have h2 : (cls.describe f o).map Prod.fst = cls.compNames := by
    unfold VClass.describe; rw [List.map_map]; exact h1
  have h4 : (cls.fieldValuesF o).map some = cls.compNames.map (fun k => o.lookup k) := by
    rw [← h1]
    unfold VClass.fieldValuesF
    rw [List.map_map, List.map_map]
    exact List.map_congr_left fun e he => ((h3 e.1 e.2).1 he).2.symm
  refine ⟨h1, h2, h3, h4, fun k hk => ?_⟩
  have hkn : k ∈ o.map Prod.fst := by
    rw [← h1] at hk
    obtain ⟨e, he, rfl⟩ := List.mem_map.1 hk
    exact List.mem_map.2 ⟨e, List.mem_of_mem_filter he, rfl⟩
  obtain ⟨x, hx⟩ := Option.isSome_iff_exists.1 (lookup_isSome_mem.2 hkn)
  rw [hx]
  have hm := (h3 k x).2 ⟨hk, hx⟩
  refine lookup_of_mem ?_ (List.mem_map.2 ⟨(k, x), hm, rfl⟩)
  rw [h2, ← h1]
  unfold VClass.fieldItemsF
  exact (List.filter_sublist.map _).nodup hon

/-! ### `replace` -/

theorem lookup_append_or {W : Type} {k : String} : ∀ (l m : List (String × W)), (l ++ m).lookup k = (l.lookup k).or (m.lookup k)
  | [], m => by simp
  | (k', x) :: l, m => by
    by_cases h : k = k'
    · subst h; rw [List.cons_append, lookup_cons_self', lookup_cons_self']; rfl
    · rw [List.cons_append, lookup_cons_ne' h, lookup_cons_ne' h, lookup_append_or l m]

theorem lookup_filter' {W : Type} (p : String → Bool) {k : String} : ∀ (l : List (String × W)), p k = true →
    (l.filter fun e => p e.1).lookup k = l.lookup k
  | [], _ => by simp
  | (k', x) :: l, h => by
    by_cases he : k = k'
    · subst he; rw [List.filter_cons_of_pos (p := fun e : String × W => p e.1) (by exact h), lookup_cons_self', lookup_cons_self']
    · rw [lookup_cons_ne' he]
      cases hp : p k' with
      | true => rw [List.filter_cons_of_pos (p := fun e : String × W => p e.1) (by exact hp), lookup_cons_ne' he, lookup_filter' p l h]
      | false => rw [List.filter_cons_of_neg (p := fun e : String × W => p e.1) (by simp [hp]), lookup_filter' p l h]

/-- **C77**: `replace(obj, **changes)`: every field that is not changed goes through its converter again, every changed one gets
the converted new value. -/
theorem C77_replace (cls : VClass V) (hn : cls.names.Nodup) (o ch o' : VObj V) (ho : o.map Prod.fst = cls.names) :
    cls.replace o ch = .ok o' ↔
      (∀ e ∈ ch, e.1 ∈ cls.names) ∧
      ObjectOf cls o' fun k d x => ∃ v, (ch.lookup k).or (o.lookup k) = some v ∧ d.conv v = .ok x := by
  unfold VClass.replace
  rw [C77_construct cls hn]
  have hkw : (∀ e ∈ ch ++ o.filter (fun e => (ch.lookup e.1).isNone), e.1 ∈ cls.names) ↔ ∀ e ∈ ch, e.1 ∈ cls.names := by
    constructor
    · exact fun h e he => h e (List.mem_append_left _ he)
    · intro h e he
      rcases List.mem_append.1 he with he | he
      · exact h e he
      · rw [← ho]; exact List.mem_map.2 ⟨e, List.mem_of_mem_filter he, rfl⟩
  rw [hkw]
  refine and_congr_right fun _ => ?_
  unfold ObjectOf
  refine and_congr_right fun _ => forall_congr' fun k => forall_congr' fun d => forall_congr' fun hm => exists_congr fun x =>
    and_congr_right fun _ => exists_congr fun v => ?_
  have hk : k ∈ o.map Prod.fst := by rw [ho]; exact List.mem_map.2 ⟨(k, d), hm, rfl⟩
  obtain ⟨y, hy⟩ := Option.isSome_iff_exists.1 (lookup_isSome_mem.2 hk)
  rw [lookup_append_or]
  cases hc : ch.lookup k with
  | some w => simp
  | none => rw [lookup_filter' (fun k => (ch.lookup k).isNone) o (by simp [hc]), hy]; simp

/-- objects of a class are determined by the values of the fields -/
theorem objectOf_ext (cls : VClass V) (hn : cls.names.Nodup) (o o' : VObj V) (h1 : o.map Prod.fst = cls.names)
    (h2 : o'.map Prod.fst = cls.names) (h : ∀ k ∈ cls.names, o.lookup k = o'.lookup k) : o = o' := by
  have key : ∀ l : List (String × V), (l.map Prod.fst).Nodup → l = (l.map Prod.fst).filterMap fun k => (l.lookup k).map fun x => (k, x) := by
    intro l
    induction l with
    | nil => intro _; rfl
    | cons e l ih =>
      intro hl
      obtain ⟨k, x⟩ := e
      simp only [List.map_cons, List.nodup_cons] at hl
      have : ((l.map Prod.fst).filterMap fun k' => (((k, x) :: l).lookup k').map fun x => (k', x)) =
          (l.map Prod.fst).filterMap fun k' => (l.lookup k').map fun x => (k', x) := by
        refine List.filterMap_congr fun k' hk' => ?_
        rw [lookup_cons_ne' (fun e => hl.1 (by rw [← e]; exact hk'))]
      rw [List.map_cons, List.filterMap_cons, lookup_cons_self', this, ← ih hl.2]
      rfl
  rw [key o (by rw [h1]; exact hn), key o' (by rw [h2]; exact hn), h1, h2]
  exact List.filterMap_congr fun k hk => by rw [h k hk]

/-- the fields hold values that their converters do not change -/
def Settled (cls : VClass V) (o : VObj V) : Prop := ObjectOf cls o fun _ d x => d.conv x = .ok x

/-- **C77**: if the converters are idempotent, every object that the class makes is settled. -/
theorem C77_settled (cls : VClass V) (hn : cls.names.Nodup) (hi : Idempotent cls) (kw o : VObj V)
    (h : cls.construct kw = .ok o) : Settled cls o := by
  obtain ⟨-, h1, h2⟩ := (C77_construct cls hn kw o).1 h
  exact ⟨h1, fun k d hm => by
    obtain ⟨x, hx, v, -, hv⟩ := h2 k d hm
    exact ⟨x, hx, hi k d hm v x hv⟩⟩

/-- **C77**: `replace` leaves the fields of a settled object alone that it is not told to change, attributes included. -/
theorem C77_replace_keeps (cls : VClass V) (hn : cls.names.Nodup) (o ch o' : VObj V) (hs : Settled cls o)
    (h : cls.replace o ch = .ok o') (k : String) (hk : ch.lookup k = none) : o'.lookup k = o.lookup k := by
  obtain ⟨hs1, hs2⟩ := hs
  obtain ⟨-, h1, h2⟩ := (C77_replace cls hn o ch o' hs1).1 h
  by_cases hm : k ∈ cls.names
  · obtain ⟨⟨k', d⟩, hmem, rfl⟩ := List.mem_map.1 hm
    obtain ⟨x, hx, v, hv, hc⟩ := h2 k' d hmem
    obtain ⟨y, hy, hyc⟩ := hs2 k' d hmem
    simp only at hk
    rw [hk, hy] at hv
    simp only [Option.none_or, Option.some.injEq] at hv
    subst hv
    rw [hyc] at hc
    injection hc with hc
    show o'.lookup k' = o.lookup k'
    rw [hx, hy, hc]
  · have a1 : o.lookup k = none := by
      rw [← Option.not_isSome_iff_eq_none, lookup_isSome_mem, hs1]; exact hm
    have a2 : o'.lookup k = none := by
      rw [← Option.not_isSome_iff_eq_none, lookup_isSome_mem, h1]; exact hm
    rw [a1, a2]

/-- **C77**: `replace(obj)` of a settled object is the object. -/
theorem C77_replace_nothing (cls : VClass V) (hn : cls.names.Nodup) (o : VObj V) (hs : Settled cls o) :
    cls.replace o [] = .ok o := by
  rw [C77_replace cls hn o [] o hs.1]
  refine ⟨by simp, hs.1, fun k d hm => ?_⟩
  obtain ⟨x, hx, hc⟩ := hs.2 k d hm
  exact ⟨x, hx, x, by simp [hx], hc⟩

/-- **C77**: without idempotence an attribute drifts: each of `n` calls of `replace`, whatever it is meant to change, applies
the converter once more. Here for a converter that never fails. -/
theorem C77_drift (cls : VClass V) (hn : cls.names.Nodup) (k : String) (d : Fld V) (hk : (k, d) ∈ cls) (g : V → V)
    (hg : ∀ v, d.conv v = .ok (g v)) : ∀ (n : ℕ) (o o' : VObj V) (v : V), o.map Prod.fst = cls.names → o.lookup k = some v →
    cls.replaceN n o = .ok o' → o'.lookup k = some (g^[n] v)
  | 0, o, o', v, _, hv, h => by
    have h := Except.ok.inj h
    subst h; exact hv
  | n + 1, o, o', v, ho, hv, h => by
    obtain ⟨o1, h1, h⟩ := (bind_ok_iff _ _ _).1 h
    obtain ⟨-, hn1, h2⟩ := (C77_replace cls hn o [] o1 ho).1 h1
    obtain ⟨x, hx, w, hw, hc⟩ := h2 k d hk
    rw [hv] at hw
    simp only [List.lookup_nil, Option.none_or, Option.some.injEq] at hw
    subst hw
    rw [hg] at hc
    injection hc with hc
    subst hc
    rw [Function.iterate_succ_apply]
    exact C77_drift cls hn k d hk g hg n o1 o' (g v) hn1 hx h

/-! ### Maps over the components -/

theorem lookup_map' {W X : Type} (f : W → X) {k : String} : ∀ (l : List (String × W)),
    (l.map fun e => (e.1, f e.2)).lookup k = (l.lookup k).map f
  | [] => by simp
  | (k', x) :: l => by
    by_cases h : k = k'
    · subst h; rw [List.map_cons, lookup_cons_self', lookup_cons_self']; rfl
    · rw [List.map_cons, lookup_cons_ne' h, lookup_cons_ne' h, lookup_map' f l]

/-- **C77**: `T`, `flatten`, indexing and so on return an object exactly if the converters accept the new components; the new
components are the converted results of `f`, and attributes go through their converters again. -/
theorem C77_map (cls : VClass V) (hn : cls.names.Nodup) (f : V → V) (o o' : VObj V) (ho : o.map Prod.fst = cls.names) :
    cls.mapComps f o = .ok o' ↔
      ObjectOf cls o' fun k d x => ∃ v, o.lookup k = some v ∧
        match d with
        | .comp _ c => c (f v) = .ok x
        | .attr a => a.converter v = .ok x := by
  unfold VClass.mapComps
  rw [C77_replace cls hn o _ o' ho, and_iff_right]
  · unfold ObjectOf
    refine and_congr_right fun _ => forall_congr' fun k => forall_congr' fun d => forall_congr' fun hm => exists_congr fun x =>
      and_congr_right fun _ => ?_
    have hk : k ∈ o.map Prod.fst := by rw [ho]; exact List.mem_map.2 ⟨(k, d), hm, rfl⟩
    obtain ⟨y, hy⟩ := Option.isSome_iff_exists.1 (lookup_isSome_mem.2 hk)
    beta_reduce
    rw [lookup_map', hy]
    cases d with
    | comp df c =>
      have hp : (!cls.isAttr k) = true := by
        cases hA : cls.isAttr k with
        | false => rfl
        | true => obtain ⟨a, ha⟩ := (isAttr_iff cls hn k _ hm).1 hA; cases ha
      have hl : (cls.fieldItemsF o).lookup k = some y := by
        unfold VClass.fieldItemsF; rw [lookup_filter' (fun k => !cls.isAttr k) o hp, hy]
      rw [hl]
      simp [Fld.conv]
    | attr a =>
      have hp : cls.isAttr k = true := (isAttr_iff cls hn k _ hm).2 ⟨a, rfl⟩
      have hl : (cls.fieldItemsF o).lookup k = none := by
        rw [← Option.not_isSome_iff_eq_none, lookup_isSome_mem]
        intro h
        obtain ⟨⟨k', z⟩, he, rfl⟩ := List.mem_map.1 h
        have := (List.mem_filter.1 he).2
        simp only at hp
        simp [hp] at this
      rw [hl]
      simp [Fld.conv]
  · intro e he
    obtain ⟨e', he', rfl⟩ := List.mem_map.1 he
    rw [← ho]
    exact List.mem_map.2 ⟨e', List.mem_of_mem_filter he', rfl⟩

/-- **C77**: on a settled object such an operation leaves every attribute as it is. -/
theorem C77_map_attributes (cls : VClass V) (hn : cls.names.Nodup) (f : V → V) (o o' : VObj V) (hs : Settled cls o)
    (h : cls.mapComps f o = .ok o') (k : String) (a : VAttr V) (hk : (k, .attr a) ∈ cls) : o'.lookup k = o.lookup k := by
  obtain ⟨-, h2⟩ := (C77_map cls hn f o o' hs.1).1 h
  obtain ⟨x, hx, v, hv, hc⟩ := h2 k _ hk
  obtain ⟨y, hy, hyc⟩ := hs.2 k _ hk
  rw [hv] at hy; injection hy with hy; subst hy
  have hyc : a.converter v = .ok v := hyc
  simp only at hc
  rw [hyc] at hc; injection hc with hc; subst hc
  rw [hx, hv]

/-- **C77**: the identity on components, such as `+v`, returns a settled object as it is. -/
theorem C77_map_id (cls : VClass V) (hn : cls.names.Nodup) (o : VObj V) (hs : Settled cls o) : cls.mapComps id o = .ok o := by
  rw [C77_map cls hn id o o hs.1]
  refine ⟨hs.1, fun k d hm => ?_⟩
  obtain ⟨x, hx, hc⟩ := hs.2 k d hm
  exact ⟨x, hx, x, hx, by cases d <;> exact hc⟩

/-! ### Examples -/

/-- a class of a user: two components and an attribute `attr: float = VectorAttribute(default=2.0)` -/
def userCls (c : ℤ → Res ℤ) (a : VAttr ℤ) : VClass ℤ :=
  [("x", .comp none c), ("y", .comp (some 0) c), ("attr", .attr a)]

example (c : ℤ → Res ℤ) (a : VAttr ℤ) : (userCls c a).names.Nodup := by
  show ["x", "y", "attr"].Nodup
  decide

example (c : ℤ → Res ℤ) (a : VAttr ℤ) : (userCls c a).fieldKeysF = ["x", "y"] :=
  C77_components _ (by show ["x", "y", "attr"].Nodup; decide)

/-- a converter that is not idempotent: the default 2 is stored as 4, and as 5 after `replace` -/
example : ∃ a, VAttr.make (some 2) (fun v : ℤ => .ok (v + 1)) = .ok a ∧
    (userCls .ok a).construct [("x", 7)] = .ok [("x", 7), ("y", 0), ("attr", 4)] ∧
    (userCls .ok a).replace [("x", 7), ("y", 0), ("attr", 4)] [("x", 8)] = .ok [("x", 8), ("y", 0), ("attr", 5)] :=
  ⟨⟨some 3, fun v => .ok (v + 1)⟩, rfl, rfl, rfl⟩

example (a : VAttr ℤ) : (userCls .ok a).construct [("z", 7)] = .error .badField := rfl

/-- with the identity as converter, as for `Delta` and `c`, objects are settled -/
example (o : VObj ℤ) (h : (userCls .ok ⟨some 2, .ok⟩).construct [("x", 7)] = .ok o) :
    (userCls .ok ⟨some 2, .ok⟩).mapComps id o = .ok o :=
  C77_map_id _ (by show ["x", "y", "attr"].Nodup; decide) o
    (C77_settled _ (by show ["x", "y", "attr"].Nodup; decide)
      (by
        intro k d hm v w hv
        simp only [userCls, List.mem_cons, List.not_mem_nil, or_false, Prod.mk.injEq] at hm
        rcases hm with ⟨-, rfl⟩ | ⟨-, rfl⟩ | ⟨-, rfl⟩ <;> rfl) _ o h)

end Verif
