import Verif.Space
import Verif.Props.Velocity
import Verif.Props.Shape
import Verif.Props.Arith

/-!
# Spaces: C40, C47 (and C43 for Spaces)

Scope: Spaces with any number of entries. Conversions are of scalar positions, velocities and
accelerations of the classes modelled elsewhere; construction, look-up and indexing are for any kind of
vector.
-/

namespace Verif

open List Spec Props
open Real hiding sqrt sqrt_eq_zero

/-! ### Specification -/

namespace Spec

/-- A Space as its constructor makes it: one entry per dimension, under the name of the dimension. -/
def SpaceOk {V : Type} (names : DimNames) (s : Space V) : Prop :=
  (s.data.map Prod.fst).Nodup ∧ ∀ k ∈ s.data.map Prod.fst, names.canon k = .ok k

/-- "length" and "speed" are names of dimensions -/
def Standard (names : DimNames) : Prop :=
  names.canon "length" = .ok "length" ∧ names.canon "speed" = .ok "speed"

/-- `w` is what conversion to `k` should make of the entry `v` of the Space `s` -/
def Converted (s : Space SVec) (k : Kind) : SVec → SVec → Prop
  | .pos p, w => ∃ q, w = .pos q ∧ representAs {} p k = .ok q
  | .vel v, w => ∃ p u, s.getStr "length" = .ok (.pos p) ∧ w = .vel u ∧
      representVel {} v k.differential p = .ok u
  | .acc a, w => ∃ p v b, s.getStr "length" = .ok (.pos p) ∧ s.getStr "speed" = .ok (.vel v) ∧
      w = .acc b ∧ representAcc {} a k.differential v p = .ok b

end Spec

/-- names as in astropy, where "velocity" is another name of "speed" (an example) -/
def exampleNames : DimNames where
  canon k := .ok (if k = "velocity" then "speed" else k)
  idem k k' h := by
    have h := Except.ok.inj h
    subst h
    split <;> simp_all

example : Standard exampleNames := ⟨rfl, rfl⟩

/-! ### dicts -/

section
variable {V : Type}

theorem dictSet_new {d : List (String × V)} {k : String} {v : V} (h : k ∉ d.map Prod.fst) :
    dictSet d k v = d ++ [(k, v)] := by
  induction d with
  | nil => rfl
  | cons kv d ih =>
    obtain ⟨k', v'⟩ := kv
    simp only [map_cons, mem_cons, not_or] at h
    simp only [dictSet, cons_append]
    rw [if_neg (Ne.symm h.1), ih h.2]

theorem foldl_dict (l : List (String × V)) (d : List (String × V))
    (h : ((d ++ l).map Prod.fst).Nodup) : l.foldl (fun d kv => dictSet d kv.1 kv.2) d = d ++ l := by
  induction l generalizing d with
  | nil => simp
  | cons kv l ih =>
    have hk : kv.1 ∉ d.map Prod.fst := by
      simp only [map_append, map_cons, nodup_append] at h
      intro hm
      exact h.2.2 _ hm _ (by simp) rfl
    rw [foldl_cons, dictSet_new hk, ih (d ++ [(kv.1, kv.2)]) (by simpa using h)]
    simp

theorem dictOf_nodup {l : List (String × V)} (h : (l.map Prod.fst).Nodup) : dictOf l = l :=
  foldl_dict l [] (by simpa using h)

theorem dictSet_keys (d : List (String × V)) (k : String) (v : V) :
    (dictSet d k v).map Prod.fst = d.map Prod.fst ∨
      (k ∉ d.map Prod.fst ∧ (dictSet d k v).map Prod.fst = d.map Prod.fst ++ [k]) := by
  by_cases h : k ∈ d.map Prod.fst
  · left
    induction d with
    | nil => simp at h
    | cons kv d ih =>
      obtain ⟨k', v'⟩ := kv
      simp only [dictSet]
      split
      · rfl
      · rename_i hk
        simp only [map_cons, mem_cons] at h ⊢
        rw [ih (h.resolve_left (Ne.symm hk))]
  · right
    refine ⟨h, ?_⟩
    rw [dictSet_new h]; simp

theorem dictOf_keys_nodup (l : List (String × V)) : ((dictOf l).map Prod.fst).Nodup := by
  unfold dictOf
  suffices ∀ d : List (String × V), (d.map Prod.fst).Nodup →
      ((l.foldl (fun d kv => dictSet d kv.1 kv.2) d).map Prod.fst).Nodup from this [] (by simp)
  induction l with
  | nil => intro d h; exact h
  | cons kv l ih =>
    intro d h
    rw [foldl_cons]
    apply ih
    rcases dictSet_keys d kv.1 kv.2 with e | ⟨hn, e⟩
    · rw [e]; exact h
    · rw [e, nodup_append]
      exact ⟨h, by simp, fun a ha b hb => by
        simp only [mem_singleton] at hb; subst hb
        exact fun e => hn (e ▸ ha)⟩

theorem dictOf_keys_mem (l : List (String × V)) (k : String) (h : k ∈ (dictOf l).map Prod.fst) :
    k ∈ l.map Prod.fst := by
  unfold dictOf at h
  suffices ∀ d : List (String × V), k ∈ (l.foldl (fun d kv => dictSet d kv.1 kv.2) d).map Prod.fst →
      k ∈ d.map Prod.fst ∨ k ∈ l.map Prod.fst by simpa using this [] h
  clear h
  induction l with
  | nil => intro d h; exact .inl h
  | cons kv l ih =>
    intro d h
    rw [foldl_cons] at h
    rcases ih _ h with h | h
    · rcases dictSet_keys d kv.1 kv.2 with e | ⟨_, e⟩
      · rw [e] at h; exact .inl h
      · rw [e, mem_append, mem_singleton] at h
        rcases h with h | h
        · exact .inl h
        · exact .inr (by rw [h]; simp)
    · exact .inr (by simp only [map_cons, mem_cons]; exact .inr h)

theorem lookup_nodup {d : List (String × V)} (h : (d.map Prod.fst).Nodup) {k : String} {v : V}
    (hm : (k, v) ∈ d) : d.lookup k = some v := by
  induction d with
  | nil => simp at hm
  | cons kv d ih =>
    obtain ⟨k', v'⟩ := kv
    simp only [map_cons, nodup_cons] at h
    rcases mem_cons.mp hm with e | hm'
    · obtain ⟨rfl, rfl⟩ := Prod.mk.inj e
      simp
    · have : k ≠ k' := fun e => h.1 (e ▸ mem_map_of_mem hm')
      have hb : (k == k') = false := by simpa using this
      rw [lookup_cons, hb]
      exact ih h.2 hm'

theorem lookup_none {d : List (String × V)} {k : String} (h : k ∉ d.map Prod.fst) : d.lookup k = none := by
  induction d with
  | nil => rfl
  | cons kv d ih =>
    obtain ⟨k', v'⟩ := kv
    simp only [map_cons, mem_cons, not_or] at h
    have hb : (k == k') = false := by simpa using h.1
    rw [lookup_cons, hb]
    exact ih h.2

theorem lookup_mem {d : List (String × V)} {k : String} {v : V} (h : d.lookup k = some v) : (k, v) ∈ d := by
  induction d with
  | nil => simp at h
  | cons kv d ih =>
    obtain ⟨k', v'⟩ := kv
    rw [lookup_cons] at h
    split at h
    · rename_i e
      simp only [beq_iff_eq] at e
      subst e
      obtain rfl := Option.some.inj h
      simp
    · exact mem_cons_of_mem _ (ih h)

theorem getStr_iff {s : Space V} {k : String} {v : V} : s.getStr k = .ok v ↔ s.data.lookup k = some v := by
  unfold Space.getStr
  cases s.data.lookup k with
  | none => exact ⟨fun h => (by cases h), fun h => (by cases h)⟩
  | some w => exact ⟨fun h => by rw [Except.ok.inj h], fun h => by rw [Option.some.inj h]⟩

theorem mapM_res_iff {β γ : Type} {f : β → Res γ} {l : List β} {m : List γ} :
    l.mapM f = .ok m ↔ Forall₂ (fun a b => f a = .ok b) l m := by
  induction l generalizing m with
  | nil =>
    constructor
    · intro h; have h := Except.ok.inj h; subst h; exact .nil
    · intro h; cases h; rfl
  | cons a l ih =>
    rw [mapM_cons]
    constructor
    · intro h
      obtain ⟨b, h1, h⟩ := (bind_ok_iff _ _ _).mp h
      obtain ⟨m', h2, h⟩ := (bind_ok_iff _ _ _).mp h
      have h := Except.ok.inj h
      subst h
      exact .cons h1 (ih.mp h2)
    · intro h
      cases h with
      | cons h1 h2 => rw [h1, ih.mpr h2]; rfl

theorem mapM_res_of {β γ : Type} {f : β → Res γ} {l : List β} {g : β → γ} (h : ∀ a ∈ l, f a = .ok (g a)) :
    l.mapM f = .ok (l.map g) := by
  rw [mapM_res_iff, forall₂_map_right_iff, forall₂_same]
  exact h

/-- the constructor on input with distinct keys -/
theorem mkSpace_iff {names : DimNames} {shape : V → Res (List ℕ)} {raw : List (String × V)}
    (hn : (raw.map Prod.fst).Nodup) {s : Space V} :
    mkSpace names shape raw = .ok s ↔ ∃ keys shapes t, raw.mapM (fun kv => names.canon kv.1) = .ok keys ∧
      raw.mapM (fun kv => shape kv.2) = .ok shapes ∧ broadcastShapes shapes = .ok t ∧
      s = ⟨dictOf (keys.zip (raw.map Prod.snd))⟩ := by
  unfold mkSpace
  simp only [dictOf_nodup hn]
  cases hk : raw.mapM (fun kv => names.canon kv.1) with
  | error e => exact ⟨fun h => (by cases h), fun ⟨_, _, _, h, _⟩ => (by cases h)⟩
  | ok keys =>
    have hl : ¬ keys.length < raw.length := by
      have := (mapM_res_iff.mp hk).length_eq; omega
    rw [ok_bind, if_neg hl]
    cases hs : raw.mapM (fun kv => shape kv.2) with
    | error e => exact ⟨fun h => (by cases h), fun ⟨_, _, _, _, h, _⟩ => (by cases h)⟩
    | ok shapes =>
      rw [ok_bind]
      cases ht : broadcastShapes shapes with
      | error e =>
        refine ⟨fun h => (by cases h), fun ⟨_, sh', _, _, h2, h3, _⟩ => ?_⟩
        obtain rfl := Except.ok.inj h2
        rw [ht] at h3; cases h3
      | ok t =>
        constructor
        · intro h
          exact ⟨keys, shapes, t, rfl, rfl, ht, (Except.ok.inj h).symm⟩
        · rintro ⟨k', _, _, h1, _, _, rfl⟩
          obtain rfl := Except.ok.inj h1
          rfl

/-! ### construction and look-up -/

/-- every constructed Space has one entry per dimension, under the name of the dimension (so the
hypothesis `SpaceOk` of the theorems below is what construction guarantees) -/
theorem C40_constructed_ok (names : DimNames) (shape : V → Res (List ℕ)) (input : List (String × V))
    (s : Space V) (h : mkSpace names shape input = .ok s) : SpaceOk names s := by
  have h' : mkSpace names shape (dictOf input) = .ok s := by
    unfold mkSpace at h ⊢
    rwa [dictOf_nodup (dictOf_keys_nodup input)]
  obtain ⟨keys, shapes, t, h1, h2, h3, rfl⟩ := (mkSpace_iff (dictOf_keys_nodup input)).mp h'
  refine ⟨dictOf_keys_nodup _, fun k hk => ?_⟩
  have := dictOf_keys_mem _ _ hk
  obtain ⟨⟨k1, v1⟩, hm, rfl⟩ := mem_map.mp this
  have hk1 := (of_mem_zip hm).1
  obtain ⟨i, hi, e⟩ := mem_iff_getElem.mp hk1
  have hf := mapM_res_iff.mp h1
  have hi' : i < (dictOf input).length := by rw [hf.length_eq]; exact hi
  have := (forall₂_iff_get.mp hf).2 i hi' hi
  simp only [get_eq_getElem] at this
  rw [e] at this
  exact names.idem _ _ this

/-- **C40.** A Space made of vectors of different dimensions stores each under the name of its
dimension, in the given order, and indexing by the dimension, or by its name, returns that vector. It is
constructed whenever the shapes broadcast. (Two vectors of one dimension: `C40_construct_exact`,
`C40_duplicates_accepted`; other names of a dimension as keys: `C40_alias_key_raises`.) -/
theorem C40_construct (names : DimNames) (shape : V → Res (List ℕ)) (raw : List (String × V))
    (keys : List String) (hk : raw.mapM (fun kv => names.canon kv.1) = .ok keys) (hd : keys.Nodup)
    (hn : (raw.map Prod.fst).Nodup) (shapes : List (List ℕ)) (t : List ℕ)
    (hs : raw.mapM (fun kv => shape kv.2) = .ok shapes) (ht : broadcastShapes shapes = .ok t) :
    ∃ s, mkSpace names shape raw = .ok s ∧ s.data.map Prod.fst = keys ∧
      s.data.map Prod.snd = raw.map Prod.snd ∧
      ∀ k v, (k, v) ∈ raw → s.getDim names k = .ok v ∧ (names.canon k = .ok k → s.getStr k = .ok v) := by
  have hlen : keys.length = raw.length := (mapM_res_iff.mp hk).length_eq.symm
  have hkeys : (keys.zip (raw.map Prod.snd)).map Prod.fst = keys := by
    rw [map_fst_zip]; simp [hlen]
  have hz : dictOf (keys.zip (raw.map Prod.snd)) = keys.zip (raw.map Prod.snd) :=
    dictOf_nodup (by rw [hkeys]; exact hd)
  refine ⟨⟨keys.zip (raw.map Prod.snd)⟩, (mkSpace_iff hn).mpr ⟨keys, shapes, t, hk, hs, ht, by rw [hz]⟩,
    hkeys, by rw [map_snd_zip]; simp [hlen], fun k v hm => ?_⟩
  obtain ⟨i, hi, e⟩ := mem_iff_getElem.mp hm
  have hi' : i < keys.length := hlen ▸ hi
  have hc := (forall₂_iff_get.mp (mapM_res_iff.mp hk)).2 i hi hi'
  simp only [get_eq_getElem, e] at hc
  have hmem : (keys[i], v) ∈ keys.zip (raw.map Prod.snd) := by
    rw [mem_iff_getElem]
    refine ⟨i, by simp [hi, hi'], ?_⟩
    simp [e]
  have hl := lookup_nodup (by rw [hkeys]; exact hd) hmem
  have hg : (⟨keys.zip (raw.map Prod.snd)⟩ : Space V).getStr keys[i] = .ok v := getStr_iff.mpr hl
  refine ⟨?_, fun hk' => ?_⟩
  · unfold Space.getDim
    rw [hc, ok_bind]; exact hg
  · rw [hk'] at hc
    rw [Except.ok.inj hc]; exact hg

/-- the hypotheses are met: a position and a velocity, by two different names -/
example : ([("length", SVec.pos (.cart3 1 2 3)), ("velocity", .vel (.cart3 4 5 6))].mapM
    fun kv => exampleNames.canon kv.1) = .ok ["length", "speed"] := by
  simp [exampleNames, mapM_cons]

/-- **C40, exception.** Two vectors of the same dimension (`Space(speed=v, velocity=w)`) are accepted, and the
first one is dropped. -/
theorem C40_duplicates_accepted (names : DimNames) (shape : V → Res (List ℕ)) (k₁ k₂ k : String) (v w : V)
    (hne : k₁ ≠ k₂) (h₁ : names.canon k₁ = .ok k) (h₂ : names.canon k₂ = .ok k) (sv sw t : List ℕ)
    (hv : shape v = .ok sv) (hw : shape w = .ok sw) (ht : broadcastShapes [sv, sw] = .ok t) :
    mkSpace names shape [(k₁, v), (k₂, w)] = .ok ⟨[(k, w)]⟩ := by
  rw [mkSpace_iff (by simp [hne])]
  refine ⟨[k, k], [sv, sw], t, ?_, ?_, ht, ?_⟩
  · rw [mapM_res_iff]; exact .cons h₁ (.cons h₂ .nil)
  · rw [mapM_res_iff]; exact .cons hv (.cons hw .nil)
  · simp [dictOf, dictSet]

example : exampleNames.canon "speed" = .ok "speed" ∧ exampleNames.canon "velocity" = .ok "speed" := ⟨rfl, rfl⟩

/-- vectors whose shapes do not broadcast are rejected -/
theorem C40_shapes_rejected (names : DimNames) (shape : V → Res (List ℕ)) (raw : List (String × V))
    (hn : (raw.map Prod.fst).Nodup) (shapes : List (List ℕ)) (e : Err)
    (hs : raw.mapM (fun kv => shape kv.2) = .ok shapes) (ht : broadcastShapes shapes = .error e) (s : Space V) :
    mkSpace names shape raw ≠ .ok s := by
  intro h
  obtain ⟨_, sh', t, _, h2, h3, _⟩ := (mkSpace_iff hn).mp h
  rw [hs] at h2
  obtain rfl := Except.ok.inj h2
  rw [ht] at h3; cases h3

/-- indexing any constructed Space by another name of a dimension raises, even by the name it was
constructed with (`Space(velocity=v)["velocity"]`) -/
theorem C40_alias_key_raises (names : DimNames) (s : Space V) (hs : SpaceOk names s) (k k' : String)
    (hk : names.canon k = .ok k') (hne : k' ≠ k) : s.getStr k = .error .key := by
  unfold Space.getStr
  rw [lookup_none]
  intro hm
  have := hs.2 k hm
  rw [hk] at this
  exact hne (Except.ok.inj this)

/-! ### conversion -/

/-- mapping over a constructed Space keeps the keys and maps each vector -/
theorem mapValues_iff {names : DimNames} {shape : V → Res (List ℕ)} {f : V → Res V} {s s' : Space V}
    (hs : SpaceOk names s) :
    s.mapValues names shape f = .ok s' ↔
      Forall₂ (fun a b => a.1 = b.1 ∧ f a.2 = .ok b.2) s.data s'.data ∧
      ∃ shapes t, s'.data.mapM (fun kv => shape kv.2) = .ok shapes ∧ broadcastShapes shapes = .ok t := by
  have hmap : ∀ m, s.data.mapM (fun kv => do return (kv.1, ← f kv.2)) = .ok m ↔
      Forall₂ (fun a b => a.1 = b.1 ∧ f a.2 = .ok b.2) s.data m := by
    intro m
    rw [mapM_res_iff]
    refine ⟨fun h => h.imp fun a b h => ?_, fun h => h.imp fun a b h => ?_⟩
    · obtain ⟨w, h1, h2⟩ := (bind_ok_iff _ _ _).mp h
      have h2 := Except.ok.inj h2
      subst h2; exact ⟨rfl, h1⟩
    · rw [h.2, ok_bind, h.1]; rfl
  have hkeys : ∀ m, Forall₂ (fun a b => a.1 = b.1 ∧ f a.2 = .ok b.2) s.data m →
      m.map Prod.fst = s.data.map Prod.fst := by
    intro m h
    generalize s.data = d at h
    induction h with
    | nil => rfl
    | cons h _ ih => simp only [map_cons, ih, h.1]
  have hmk : ∀ m, Forall₂ (fun a b => a.1 = b.1 ∧ f a.2 = .ok b.2) s.data m → ∀ s'',
      (mkSpace names shape m = .ok s'' ↔ s''.data = m ∧
        ∃ shapes t, m.mapM (fun kv => shape kv.2) = .ok shapes ∧ broadcastShapes shapes = .ok t) := by
    intro m h s''
    have hk := hkeys m h
    have hn : (m.map Prod.fst).Nodup := by rw [hk]; exact hs.1
    have hc : m.mapM (fun kv => names.canon kv.1) = .ok (m.map Prod.fst) := by
      apply mapM_res_of
      intro a ha
      exact hs.2 _ (by rw [← hk]; exact mem_map_of_mem ha)
    have hz : dictOf ((m.map Prod.fst).zip (m.map Prod.snd)) = m := by
      have : (m.map Prod.fst).zip (m.map Prod.snd) = m := by
        rw [zip_map', map_congr_left (g := id) (by intros; rfl), map_id]
      rw [this]; exact dictOf_nodup hn
    rw [mkSpace_iff hn]
    constructor
    · rintro ⟨keys, shapes, t, h1, h2, h3, rfl⟩
      rw [hc] at h1
      obtain rfl := Except.ok.inj h1
      exact ⟨hz, shapes, t, h2, h3⟩
    · rintro ⟨e, shapes, t, h2, h3⟩
      exact ⟨_, shapes, t, hc, h2, h3, by rw [hz, ← e]⟩
  unfold Space.mapValues
  constructor
  · intro h
    obtain ⟨m, h1, h2⟩ := (bind_ok_iff _ _ _).mp h
    obtain ⟨e, h3⟩ := (hmk m ((hmap m).mp h1) s').mp h2
    subst e
    exact ⟨(hmap _).mp h1, h3⟩
  · rintro ⟨h1, h2⟩
    rw [(hmap _).mpr h1, ok_bind]
    exact (hmk _ h1 s').mpr ⟨rfl, h2⟩

end

theorem scalar_shapes (l : List (String × SVec)) :
    ∃ shapes t, l.mapM (fun kv => SVec.shape kv.2) = .ok shapes ∧ broadcastShapes shapes = .ok t := by
  refine ⟨l.map fun _ => [], [], mapM_res_of (fun _ _ => rfl), ?_⟩
  induction l with
  | nil => rfl
  | cons a l ih => rw [map_cons, broadcastShapes, ih]; rfl

theorem temp_iff (s : Space SVec) (k : Kind) (v w : SVec) : tempRepresentAs v k s = .ok w ↔ Converted s k v w := by
  cases v with
  | pos p =>
    simp only [tempRepresentAs, Converted, bind_ok_iff]
    exact ⟨fun ⟨q, h1, h2⟩ => ⟨q, (Except.ok.inj h2).symm, h1⟩, fun ⟨q, h1, h2⟩ => ⟨q, h2, by rw [h1]; rfl⟩⟩
  | vel v =>
    simp only [tempRepresentAs, Converted, bind_ok_iff]
    constructor
    · rintro ⟨x, h1, p, h2, u, h3, h4⟩
      cases x <;> first | (cases h2; done) | skip
      have h2 := Except.ok.inj h2
      subst h2
      exact ⟨_, u, h1, (Except.ok.inj h4).symm, h3⟩
    · rintro ⟨p, u, h1, rfl, h3⟩
      exact ⟨_, h1, p, rfl, u, h3, rfl⟩
  | acc a =>
    simp only [tempRepresentAs, Converted, bind_ok_iff]
    constructor
    · rintro ⟨x, h1, v, h2, y, h3, p, h4, b, h5, h6⟩
      cases x <;> first | (cases h2; done) | skip
      cases y <;> first | (cases h4; done) | skip
      have h2 := Except.ok.inj h2
      have h4 := Except.ok.inj h4
      subst h2 h4
      exact ⟨_, _, b, h3, h1, (Except.ok.inj h6).symm, h5⟩
    · rintro ⟨p, v, b, h1, h2, rfl, h5⟩
      exact ⟨_, h2, v, rfl, _, h1, p, rfl, b, h5, rfl⟩

/-- **C40.** `space.represent_as(target)` returns exactly when every entry can be converted, and then it
has the same keys in the same order, each position converted to `target`, each velocity to the velocity
class of `target` at the Space's position, each acceleration likewise with the Space's velocity and
position. Any number of entries. -/
theorem C40_represent_as (names : DimNames) (s s' : Space SVec) (hs : SpaceOk names s) (k : Kind) :
    representSpace names s k = .ok s' ↔
      Forall₂ (fun a b => a.1 = b.1 ∧ Converted s k a.2 b.2) s.data s'.data := by
  unfold representSpace
  rw [mapValues_iff hs]
  simp only [temp_iff]
  exact ⟨fun h => h.1, fun h => ⟨h, scalar_shapes _⟩⟩

theorem forall₂_lookup {R : SVec → SVec → Prop} {d d' : List (String × SVec)} {k : String} {v : SVec}
    (h : Forall₂ (fun a b => a.1 = b.1 ∧ R a.2 b.2) d d') (hl : d.lookup k = some v) :
    ∃ w, d'.lookup k = some w ∧ R v w := by
  induction h with
  | nil => simp at hl
  | @cons a b d d' hab _ ih =>
    obtain ⟨k1, v1⟩ := a
    obtain ⟨k2, v2⟩ := b
    obtain ⟨e, hr⟩ := hab
    simp only at e hr
    subst e
    rw [lookup_cons] at hl ⊢
    cases hk : (k == k1) with
    | true =>
      rw [hk] at hl
      obtain rfl := Option.some.inj hl
      exact ⟨v2, rfl, hr⟩
    | false =>
      rw [hk] at hl
      exact ih hl

theorem differential_integral (k : Kind) : k.differential.integral = k := by cases k <;> rfl

theorem differential_dim (k : Kind) : k.differential.dim = k.dim := by
  unfold VKind.dim; rw [differential_integral]

/-- **C40.** The converted Space describes the same point moving at the same velocity, whatever else the
Space contains and whatever the classes of its position and velocity. -/
theorem C40_phase_space (names : DimNames) (s s' : Space SVec) (hs : SpaceOk names s) (k : Kind)
    (p : Pos ℝ) (v : Vel ℝ) (hp : s.getStr "length" = .ok (.pos p)) (hv : s.getStr "speed" = .ok (.vel v))
    (hc : VelCase {} v k.differential p) (h : representSpace names s k = .ok s') :
    ∃ q w, s'.getStr "length" = .ok (.pos q) ∧ s'.getStr "speed" = .ok (.vel w) ∧
      q.kind = k ∧ w.kind = k.differential ∧ point q = point p ∧
      ∀ p', At {} v.kind (point p) p' → cartVel q w = cartVel p' v := by
  have hf := (C40_represent_as names s s' hs k).mp h
  obtain ⟨x, hx, q, rfl, hq⟩ := forall₂_lookup hf (getStr_iff.mp hp)
  obtain ⟨y, hy, p', w, hp', rfl, hw⟩ := forall₂_lookup hf (getStr_iff.mp hv)
  rw [hp] at hp'
  have hp' := Except.ok.inj hp'
  injection hp' with hp'
  subst hp'
  have hdim : p.kind.dim = k.dim := by rw [hc.dimp, hc.dim, differential_dim]
  have g := represent_good _ _ _ _ _ hc.valid hdim hq
  obtain ⟨w', h1, h2, h3⟩ := vel_ok hc
  rw [hw] at h1
  obtain rfl := Except.ok.inj h1
  refine ⟨q, w, getStr_iff.mpr hx, getStr_iff.mpr hy, g.kind, h2, g.point, fun p' hp' => h3 p' q hp' ?_⟩
  refine ⟨by rw [g.kind, differential_integral], g.valid, g.point, fun hpro => ?_⟩
  obtain ⟨d, hd, _⟩ := hc.delta hpro
  cases hd

/-- **C40.** A Space of a position and a velocity converts to every class regular at the point (other
than prolate spheroidal, which needs a `Delta` that cannot be passed). -/
theorem C40_represent_as_returns (names : DimNames) (hn : Standard names) (p : Pos ℝ) (v : Vel ℝ) (k : Kind)
    (hc : VelCase {} v k.differential p) (h0 : point p ≠ V3.zero) :
    ∃ s', representSpace names ⟨[("length", .pos p), ("speed", .vel v)]⟩ k = .ok s' := by
  have hok : SpaceOk names (⟨[("length", .pos p), ("speed", .vel v)]⟩ : Space SVec) := by
    refine ⟨by simp, fun k hk => ?_⟩
    simp only [map_cons, map_nil, mem_cons, not_mem_nil, or_false] at hk
    rcases hk with rfl | rfl
    · exact hn.1
    · exact hn.2
  have hdim : p.kind.dim = k.dim := by rw [hc.dimp, hc.dim, differential_dim]
  have hkp : k ≠ .prolate := by
    rintro rfl
    obtain ⟨d, hd, _⟩ := hc.delta rfl
    cases hd
  obtain ⟨q, hq⟩ : ∃ q, representAs {} p k = .ok q :=
    represent_total 197 ⟨hc.valid, hdim, hc.pos_ts, by rintro rfl; exact hc.tgt_ts rfl, fun _ => h0,
      by rintro rfl; exact hc.reg', fun h => absurd h hkp⟩
  obtain ⟨w, hw, _⟩ := vel_ok hc
  refine ⟨⟨[("length", .pos q), ("speed", .vel w)]⟩, (C40_represent_as names _ _ hok k).mpr ?_⟩
  exact .cons ⟨rfl, q, rfl, hq⟩ (.cons ⟨rfl, p, w, rfl, rfl, hw⟩ .nil)

/-- the hypotheses are met: a spherical position with a Cartesian velocity, to cylindrical -/
example : VelCase {} (.cart3 1 2 3) Kind.cyl.differential (.cart3 1 1 1) where
  valid := trivial
  dimp := rfl
  dim := rfl
  pos_ts := by decide
  src_ts := fun h => by cases h
  tgt_ts := by decide
  reg := trivial
  reg' := by simp [Kind.differential, VKind.integral, Regular, OffAxis, point]
  delta := fun h => by cases h
  src_pro := fun h => by cases h
  src_loncoslat := fun h => by cases h

/-- a Space with a velocity or an acceleration and no position cannot be converted -/
theorem C40_no_position_raises (names : DimNames) (s s' : Space SVec) (hs : SpaceOk names s) (k : Kind)
    (key : String) (x : SVec) (hx : s.getStr key = .ok x) (hnp : ∀ p, x ≠ .pos p)
    (hno : "length" ∉ s.data.map Prod.fst) : representSpace names s k ≠ .ok s' := by
  intro h
  obtain ⟨y, _, hc⟩ := forall₂_lookup ((C40_represent_as names s s' hs k).mp h) (getStr_iff.mp hx)
  have hnone := lookup_none hno
  cases x with
  | pos p => exact hnp p rfl
  | vel v =>
    obtain ⟨p, _, hp, _⟩ := hc
    rw [getStr_iff, hnone] at hp; cases hp
  | acc a =>
    obtain ⟨p, _, _, hp, _⟩ := hc
    rw [getStr_iff, hnone] at hp; cases hp

/-! ### negation -/

/-- the entries of the negative of a Space -/
theorem neg_entries (names : DimNames) (s s' : Space SVec) (hs : SpaceOk names s)
    (h : s.neg names = .ok s') (p : Pos ℝ) (v : Vel ℝ) (hp : s.getStr "length" = .ok (.pos p))
    (hv : s.getStr "speed" = .ok (.vel v)) :
    ∃ q, s'.getStr "length" = .ok (.pos q) ∧ s'.getStr "speed" = .ok (.vel (negVel v)) ∧ negPos p = .ok q := by
  unfold Space.neg at h
  rw [mapValues_iff hs] at h
  obtain ⟨x, hx, h1⟩ := forall₂_lookup (R := fun a b => SVec.neg a = .ok b) h.1 (getStr_iff.mp hp)
  obtain ⟨y, hy, h2⟩ := forall₂_lookup (R := fun a b => SVec.neg a = .ok b) h.1 (getStr_iff.mp hv)
  obtain ⟨q, h1', e⟩ := (bind_ok_iff _ _ _).mp h1
  have e := Except.ok.inj e
  subst e
  have h2 : SVec.vel (negVel v) = y := Except.ok.inj h2
  subst h2
  exact ⟨q, getStr_iff.mpr hx, getStr_iff.mpr hy, h1'⟩

theorem negVel_map (v : Vel ℝ) : negVel v = v.map fun x => x * (-1) := by
  unfold negVel; congr 1; funext x; ring

/-- **C47.** The negative of a Space whose velocity is stored in Cartesian components is the
opposite point with the opposite velocity, whatever the class of its position and its other entries.
Other classes: `C47_negation_iff`. -/
theorem C47_negation_cartesian (names : DimNames) (s s' : Space SVec) (hs : SpaceOk names s)
    (h : s.neg names = .ok s') (p : Pos ℝ) (v : Vel ℝ) (hp : s.getStr "length" = .ok (.pos p))
    (hv : s.getStr "speed" = .ok (.vel v)) (hval : Valid p) (hc : v.kind = v.kind.cartesian) :
    ∃ q w, s'.getStr "length" = .ok (.pos q) ∧ s'.getStr "speed" = .ok (.vel w) ∧ q.kind = p.kind ∧
      w.kind = v.kind ∧ point q = (point p).neg ∧
      ∀ p' q', At {} v.kind (point p) p' → At {} v.kind (point q) q' →
        cartVel q' w = (cartVel p' v).neg := by
  obtain ⟨q, h1, h2, h3⟩ := neg_entries names s s' hs h p v hp hv
  obtain ⟨k1, _, _, k2⟩ := C16_negation p q hval h3
  refine ⟨q, negVel v, h1, h2, k1, ?_, k2, fun p' q' hp' hq' => ?_⟩
  · rw [negVel_map, map_kind]
  · have hk := hp'.1
    have hk' := hq'.1
    clear h hs hv h1 h2 hp' hq'
    cases v <;> first
      | (cases hc; done)
      | (cases p' <;> first
          | (cases hk; done)
          | (cases q' <;> first
              | (cases hk'; done)
              | simp [negVel, Vel.map, cartVel, V3.neg]))

/-- **C47 (rates).** In the negative of a Space every velocity and every acceleration, under any key, has all its components
negated, in its class; in particular Cartesian ones become the opposite vectors. -/
theorem C47_rates (names : DimNames) (s s' : Space SVec) (hs : SpaceOk names s) (h : s.neg names = .ok s') (k : String) :
    (∀ v, s.getStr k = .ok (.vel v) → ∃ w, s'.getStr k = .ok (.vel w) ∧ w.kind = v.kind ∧
      w.comps = v.comps.map fun x => -x) ∧
    (∀ a, s.getStr k = .ok (.acc a) → ∃ w, s'.getStr k = .ok (.acc w) ∧ w.kind = a.kind ∧
      w.comps = a.comps.map fun x => -x) := by
  unfold Space.neg at h
  rw [mapValues_iff hs] at h
  have hk : ∀ v : Vel ℝ, (negVel v).kind = v.kind ∧ (negVel v).comps = v.comps.map fun x => -x := fun v => by
    cases v <;> exact ⟨rfl, rfl⟩
  refine ⟨fun v hv => ?_, fun v hv => ?_⟩
  · obtain ⟨y, hy, h2⟩ := forall₂_lookup (R := fun a b => SVec.neg a = .ok b) h.1 (getStr_iff.mp hv)
    have h2 : SVec.vel (negVel v) = y := Except.ok.inj h2
    subst h2
    exact ⟨_, getStr_iff.mpr hy, hk v⟩
  · obtain ⟨y, hy, h2⟩ := forall₂_lookup (R := fun a b => SVec.neg a = .ok b) h.1 (getStr_iff.mp hv)
    have h2 : SVec.acc (negVel v) = y := Except.ok.inj h2
    subst h2
    exact ⟨_, getStr_iff.mpr hy, hk v⟩

/-- **C47, exception.** For a spherical position with a spherical velocity, the negative Space is at the opposite
point, but its radial motion is reversed in space: the velocity is not the opposite of the original one
whenever the radial rate is not zero. (`x·v` should be unchanged, and changes sign.) -/
theorem C47_spherical_wrong (names : DimNames) (hn : Standard names) (r : Dist ℝ) (θ φ a b c : ℝ)
    (hval : Valid (.sph r θ φ)) (hr : 0 < distOf r) (ha : a ≠ 0) :
    ∃ s' q, (⟨[("length", .pos (.sph r θ φ)), ("speed", .vel (.sph a b c))]⟩ : Space SVec).neg names = .ok s' ∧
      s'.getStr "length" = .ok (.pos q) ∧ s'.getStr "speed" = .ok (.vel (.sph (-a) (-b) (-c))) ∧
      point q = (point (.sph r θ φ)).neg ∧
      V3.dot (point q) (cartVel q (.sph (-a) (-b) (-c))) =
        -V3.dot (point (.sph r θ φ)) (cartVel (.sph r θ φ) (.sph a b c)) ∧
      cartVel q (.sph (-a) (-b) (-c)) ≠ (cartVel (.sph r θ φ) (.sph a b c)).neg := by
  have hsc := Real.sin_sq_add_cos_sq
  have hdot : ∀ (r : Dist ℝ) (θ φ a b c : ℝ), V3.dot (point (.sph r θ φ)) (cartVel (.sph r θ φ) (.sph a b c)) =
      distOf r * a := by
    intro r θ φ a b c
    simp only [V3.dot, point, sphPoint, cartVel]
    have h1 := hsc θ
    have h2 := hsc φ
    linear_combination (distOf r * a * sin θ ^ 2 + b * distOf r ^ 2 * sin θ * cos θ) * h2 + distOf r * a * h1
  have h0 : point (.sph r θ φ) ≠ V3.zero := by
    intro h
    simp only [point, sphPoint, V3.zero, V3.mk.injEq] at h
    obtain ⟨h1, h2, h3⟩ := h
    have : distOf r ^ 2 = 0 := by
      linear_combination (distOf r * sin θ * cos φ) * h1 + (distOf r * sin θ * sin φ) * h2 +
        distOf r * cos θ * h3 - distOf r ^ 2 * hsc θ - distOf r ^ 2 * sin θ ^ 2 * hsc φ
    exact hr.ne' (by simpa using this)
  obtain ⟨q, hq⟩ := C16_negation_returns (.sph r θ φ) hval (by simp [Pos.kind]) (by simp [Pos.kind])
    (by simp [Pos.kind]) (.inr h0)
  obtain ⟨k1, k3, _, k2⟩ := C16_negation _ q hval hq
  have hok : SpaceOk names (⟨[("length", .pos (.sph r θ φ)), ("speed", .vel (.sph a b c))]⟩ : Space SVec) := by
    refine ⟨by simp, fun k hk => ?_⟩
    simp only [map_cons, map_nil, mem_cons, not_mem_nil, or_false] at hk
    rcases hk with rfl | rfl
    · exact hn.1
    · exact hn.2
  refine ⟨⟨[("length", .pos q), ("speed", .vel (.sph (-a) (-b) (-c)))]⟩, q, ?_, rfl, rfl, k2, ?_⟩
  · unfold Space.neg
    rw [mapValues_iff hok]
    refine ⟨.cons ⟨rfl, ?_⟩ (.cons ⟨rfl, rfl⟩ .nil), scalar_shapes _⟩
    simp only [SVec.neg, hq, ok_bind]; rfl
  · obtain ⟨r', θ', φ', rfl⟩ : ∃ r' θ' φ', q = .sph r' θ' φ' := by
      cases q <;> first | (cases k1; done) | exact ⟨_, _, _, rfl⟩
    have hd' := hdot r' θ' φ' (-a) (-b) (-c)
    have hd := hdot r θ φ a b c
    have hrr : distOf r' = distOf r := by
      have n : ∀ (r : Dist ℝ) (θ φ : ℝ), V3.dot (point (.sph r θ φ)) (point (.sph r θ φ)) = distOf r ^ 2 := by
        intro r θ φ
        simp only [V3.dot, point, sphPoint]
        linear_combination distOf r ^ 2 * hsc θ + distOf r ^ 2 * sin θ ^ 2 * hsc φ
      have h1 := n r' θ' φ'
      rw [k2] at h1
      have h2 : V3.dot (point (.sph r θ φ)).neg (point (.sph r θ φ)).neg =
          V3.dot (point (.sph r θ φ)) (point (.sph r θ φ)) := by
        simp only [V3.dot, V3.neg]; ring
      rw [h2, n] at h1
      have hr' : 0 ≤ distOf r' := distOf_nonneg k3.1
      exact ((sq_eq_sq₀ hr.le hr').mp h1).symm
    refine ⟨by rw [hd', hd, hrr]; ring, fun e => ?_⟩
    rw [e, k2] at hd'
    have h2 : V3.dot (point (.sph r θ φ)).neg (cartVel (.sph r θ φ) (.sph a b c)).neg =
        V3.dot (point (.sph r θ φ)) (cartVel (.sph r θ φ) (.sph a b c)) := by
      simp only [V3.dot, V3.neg]; ring
    rw [h2, hd, hrr] at hd'
    have : distOf r * a = 0 := by linarith
    rcases mul_eq_zero.mp this with h | h
    · exact hr.ne' h
    · exact ha h

/-- the hypotheses are met -/
example : Valid (.sph (.dist 1) (π / 2) 0) ∧ 0 < distOf (.dist 1) ∧ (1 : ℝ) ≠ 0 := by
  refine ⟨⟨by simp [DistOk], by positivity, by linarith [Real.pi_pos]⟩, by simp [distOf], one_ne_zero⟩

/-! ### indexing -/

/-- **C43** for Spaces: indexing a Space whose vectors all have the shape `s` indexes each of
them: every vector of the result has the shape, and at each index the elements, that the index selects.
Any number of vectors, of any classes. Different shapes: `C43_space_getitem_exact`. -/
theorem C43_space_getitem {α : Type} (names : DimNames) (sp : Space (ClsVec α)) (hs : SpaceOk names sp)
    (s : List ℕ) (hv : ∀ kv ∈ sp.data, kv.2.vec.comps ≠ [] ∧ passesAll kv.2.chk kv.2.vec.comps ∧
      kv.2.vec.shape = .ok s) (p : Plan) (hp : PlanOk p) (s' : List ℕ) (f : List ℕ → List ℕ)
    (h : p s = .ok (s', f)) :
    ∃ sp', sp.getitem names p = .ok sp' ∧
      Forall₂ (fun a b => a.1 = b.1 ∧ a.2.chk = b.2.chk ∧ Moved a.2.vec b.2.vec s' f) sp.data sp'.data ∧
      (sp.data ≠ [] → sp'.shape = .ok s') := by
  have hall : ∀ kv : String × ClsVec α, ∃ kv' : String × ClsVec α, kv ∈ sp.data →
      kv.1 = kv'.1 ∧ kv.2.getitem p = .ok kv'.2 ∧ kv.2.chk = kv'.2.chk ∧ Moved kv.2.vec kv'.2.vec s' f := by
    intro kv
    by_cases hm : kv ∈ sp.data
    · obtain ⟨h1, h2, h3⟩ := hv kv hm
      obtain ⟨v', hg, hmv, _⟩ := (C43_getitem kv.2.chk kv.2.vec s h1 h2 h3 p hp).1 s' f h
      refine ⟨(kv.1, ⟨kv.2.chk, v'⟩), fun _ => ⟨rfl, ?_, rfl, hmv⟩⟩
      unfold ClsVec.getitem
      rw [hg, ok_bind]; rfl
    · exact ⟨kv, fun h => absurd h hm⟩
  choose g hg using hall
  have hshapes : (sp.data.map g).mapM (fun kv => kv.2.shape) = .ok ((sp.data.map g).map fun _ => s') := by
    apply mapM_res_of
    intro a ha
    obtain ⟨kv, hm, rfl⟩ := mem_map.mp ha
    exact (hg kv hm).2.2.2.shape
  have hbc : ∃ t, broadcastShapes ((sp.data.map g).map fun _ => s') = .ok t :=
    broadcastShapes_total (w := s') fun x hx => by
      obtain ⟨_, _, rfl⟩ := mem_map.mp hx
      exact compatRev_refl _
  obtain ⟨t, ht⟩ := hbc
  refine ⟨⟨sp.data.map g⟩, ?_, ?_, fun hne => ?_⟩
  · unfold Space.getitem
    rw [mapValues_iff hs]
    refine ⟨?_, _, t, hshapes, ht⟩
    rw [forall₂_map_right_iff, forall₂_same]
    exact fun kv hm => ⟨(hg kv hm).1, (hg kv hm).2.1⟩
  · rw [forall₂_map_right_iff, forall₂_same]
    exact fun kv hm => ⟨(hg kv hm).1, (hg kv hm).2.2.1, (hg kv hm).2.2.2⟩
  · unfold Space.shape
    show (do broadcastShapes (← (sp.data.map g).mapM fun kv : String × ClsVec α => kv.2.shape)) = _
    rw [hshapes, ok_bind]
    exact broadcast_const (by simpa using hne) fun t ht => by
      obtain ⟨_, _, rfl⟩ := mem_map.mp ht; rfl

theorem planInt_ok (i : ℕ) : PlanOk (planInt i) := by
  intro s s' f h idx hidx
  cases s with
  | nil => cases h
  | cons n t =>
    simp only [planInt] at h
    split at h
    · rename_i hi
      have h := Except.ok.inj h
      obtain ⟨e1, e2⟩ := Prod.mk.inj h
      subst e1 e2
      exact .cons hi hidx
    · cases h

/-- **C43, exception.** Spaces of vectors of different shapes: a position of shape (3,) with a scalar velocity
is accepted and the Space has shape (3,), but `space[0]` raises. -/
theorem C43_space_mixed_raises (names : DimNames) (hn : Standard names) :
    ∃ (sp : Space (ClsVec ℕ)) (e : Err), mkSpace names ClsVec.shape
        [("length", ⟨noChecks, ⟨[⟨[3], fun _ => 0⟩]⟩⟩), ("speed", ⟨noChecks, ⟨[⟨[], fun _ => 0⟩]⟩⟩)] = .ok sp ∧
      sp.shape = .ok [3] ∧ sp.getitem names (planInt 0) = .error e := by
  have hok : SpaceOk names (⟨[("length", ⟨noChecks, ⟨[⟨[3], fun _ => 0⟩]⟩⟩),
      ("speed", ⟨noChecks, ⟨[⟨[], fun _ => 0⟩]⟩⟩)]⟩ : Space (ClsVec ℕ)) := by
    refine ⟨by simp, fun k hk => ?_⟩
    simp only [map_cons, map_nil, mem_cons, not_mem_nil, or_false] at hk
    rcases hk with rfl | rfl
    · exact hn.1
    · exact hn.2
  refine ⟨⟨[("length", ⟨noChecks, ⟨[⟨[3], fun _ => 0⟩]⟩⟩), ("speed", ⟨noChecks, ⟨[⟨[], fun _ => 0⟩]⟩⟩)]⟩, .value,
    (mkSpace_iff (by simp)).mpr ⟨["length", "speed"], [[3], []], [3], ?_, rfl, rfl, ?_⟩, rfl, ?_⟩
  · rw [mapM_res_iff]; exact .cons hn.1 (.cons hn.2 .nil)
  · simp [dictOf, dictSet]
  · have h2 := (C43_getitem (noChecks (α := ℕ)) ⟨[⟨[], fun _ => 0⟩]⟩ [] (by simp) (passes_noChecks _) rfl
      (planInt 0) (planInt_ok 0)).2 .value rfl
    have h1 : ∃ v', (ClsVec.mk noChecks ⟨[⟨[3], fun _ => (0 : ℕ)⟩]⟩).getitem (planInt 0) = .ok v' := by
      obtain ⟨v', h, _⟩ := (C43_getitem (noChecks (α := ℕ)) ⟨[⟨[3], fun _ => 0⟩]⟩ [3] (by simp) (passes_noChecks _)
        rfl (planInt 0) (planInt_ok 0)).1 _ _ rfl
      exact ⟨⟨noChecks, v'⟩, by unfold ClsVec.getitem; rw [h, ok_bind]; rfl⟩
    obtain ⟨v', h1⟩ := h1
    have h3 : (ClsVec.mk noChecks ⟨[⟨[], fun _ => (0 : ℕ)⟩]⟩).getitem (planInt 0) = .error .value := by
      unfold ClsVec.getitem; rw [h2]; rfl
    unfold Space.getitem Space.mapValues
    simp only [mapM_cons, h1, h3]
    rfl

end Verif
