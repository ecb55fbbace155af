import Verif.SpaceArr
import Verif.Props.Space
import Verif.Props.ShapeExact

/-!
# C65: `Space` as an array
-/

namespace Verif

open List Spec

/-! ### specification -/

namespace Spec

/-- all component arrays of all entries -/
def allComps {α : Type} (s : Space (ClsVec α)) : List (Arr α) := s.data.flatMap fun kv => kv.2.vec.comps

/-- what stands at batch index `idx` of a Space: under each key the components of that vector (the shapes of the vectors may differ:
each is broadcast) -/
def spaceAt {α : Type} (s : Space (ClsVec α)) (idx : List ℕ) : List (String × List α) :=
  s.data.map fun kv => (kv.1, elemAt kv.2.vec idx)

/-- `s'` has shape `t`, and what stands at `idx` is what stands at `f idx` of `s` -/
structure SpaceMoved {α : Type} (s s' : Space (ClsVec α)) (t : List ℕ) (f : List ℕ → List ℕ) : Prop where
  shape : s'.shape = .ok t
  elems : ∀ idx, InB t idx → spaceAt s' idx = spaceAt s (f idx)

/-- a Space as it can be built: every vector has components and was accepted by its class -/
structure BuiltSpace {α : Type} (names : DimNames) (s : Space (ClsVec α)) : Prop where
  keys : SpaceOk names s
  comps : ∀ kv ∈ s.data, kv.2.vec.comps ≠ []
  checks : ∀ kv ∈ s.data, passesAll kv.2.chk kv.2.vec.comps

end Spec

section
variable {α : Type}

/-! ### the shape -/

theorem isBroadcast_flat {l : List (List (List ℕ))} {m : List (List ℕ)} {s : List ℕ} (h : Forall₂ IsBroadcast l m) :
    IsBroadcast m s ↔ IsBroadcast l.flatten s := by
  have key : ∀ u, (∀ t ∈ m, BroadcastsTo t u) ↔ ∀ t ∈ l.flatten, BroadcastsTo t u := by
    intro u
    induction h with
    | nil => simp
    | @cons a b l m hab _ ih =>
      simp only [mem_cons, flatten_cons, mem_append, or_imp, forall_and, ih]
      refine and_congr_left' ⟨fun hb t ht => broadcastsTo_trans (hab.1 t ht) (hb b rfl), fun ha x hx => hx ▸ hab.2 u ha⟩
  unfold IsBroadcast
  simp only [key]

theorem shape_iff {s : Space (ClsVec α)} {t : List ℕ} :
    s.shape = .ok t ↔ IsBroadcast ((allComps s).map Arr.shape) t := by
  have hfl : (allComps s).map Arr.shape = (s.data.map fun kv => kv.2.vec.comps.map Arr.shape).flatten := by
    unfold allComps
    rw [flatMap_def, map_flatten, map_map]; rfl
  rw [hfl]
  have hk : ∀ m, (s.data.mapM fun kv => kv.2.shape) = .ok m ↔
      Forall₂ IsBroadcast (s.data.map fun kv => kv.2.vec.comps.map Arr.shape) m := by
    intro m
    rw [mapM_res_iff, forall₂_map_left_iff]
    refine ⟨fun h => h.imp fun a b h => ((C43_shape _).1 _).mp h, fun h => h.imp fun a b h => ((C43_shape _).1 _).mpr h⟩
  unfold Space.shape
  rw [bind_ok_iff]
  constructor
  · rintro ⟨m, h1, h2⟩
    exact (isBroadcast_flat ((hk m).mp h1)).mp ((broadcastShapes_iff _ _).mp h2)
  · intro h
    have : ∃ m, Forall₂ IsBroadcast (s.data.map fun kv => kv.2.vec.comps.map Arr.shape) m := by
      have hall : ∀ x ∈ s.data.map fun kv => kv.2.vec.comps.map Arr.shape, ∀ y ∈ x, BroadcastsTo y t :=
        fun x hx y hy => h.1 y (mem_flatten.mpr ⟨x, hx, hy⟩)
      generalize (s.data.map fun kv => kv.2.vec.comps.map Arr.shape) = l at hall
      clear h hk hfl
      induction l with
      | nil => exact ⟨[], .nil⟩
      | cons a l ih =>
        obtain ⟨m, hm⟩ := ih fun x hx => hall x (by simp [hx])
        obtain ⟨b, hb⟩ := broadcastShapes_total (w := t) (hall a (by simp))
        exact ⟨b :: m, .cons ((broadcastShapes_iff _ _).mp hb) hm⟩
    obtain ⟨m, hm⟩ := this
    exact ⟨m, (hk m).mpr hm, (broadcastShapes_iff _ _).mpr ((isBroadcast_flat hm).mpr h)⟩

/-- all components as one vector -/
def joined (s : Space (ClsVec α)) : BVec α := ⟨allComps s⟩

theorem joined_shape {s : Space (ClsVec α)} {t : List ℕ} : s.shape = .ok t ↔ (joined s).shape = .ok t := by
  rw [shape_iff, (C43_shape _).1]; rfl

theorem noChecks_all (l : List (Arr α)) : passesAll noChecks l := fun _ _ _ _ => rfl

/-! ### one component after another -/

/-- a function of every component -/
def Space.mapC (G : Arr α → Arr α) (s : Space (ClsVec α)) : Space (ClsVec α) :=
  ⟨s.data.map fun kv => (kv.1, ⟨kv.2.chk, ⟨kv.2.vec.comps.map G⟩⟩)⟩

theorem allComps_mapC (G : Arr α → Arr α) (s : Space (ClsVec α)) : allComps (s.mapC G) = (allComps s).map G := by
  unfold allComps Space.mapC
  simp only [flatMap_def, map_flatten, map_map]
  rfl

theorem spaceAt_mapC {G : Arr α → Arr α} {s : Space (ClsVec α)} {i j : List ℕ}
    (h : elemAt ⟨(allComps s).map G⟩ i = elemAt (joined s) j) : spaceAt (s.mapC G) i = spaceAt s j := by
  unfold elemAt joined at h
  simp only [map_map] at h
  have h' := map_inj_left.mp h
  unfold spaceAt Space.mapC elemAt
  simp only [map_map]
  refine map_congr_left fun kv hkv => Prod.ext rfl ?_
  simp only [Function.comp_apply, map_map]
  exact map_congr_left fun a ha => h' a (mem_flatMap.mpr ⟨kv, hkv, ha⟩)

theorem foldl_same {V : Type} {d e : List (String × V)} (hn : (d.map Prod.fst).Nodup) (h : e.map Prod.fst = d.map Prod.fst) :
    e.foldl (fun d kv => dictSet d kv.1 kv.2) d = e := by
  suffices ∀ (p d e : List (String × V)), ((p ++ d).map Prod.fst).Nodup → e.map Prod.fst = d.map Prod.fst →
      e.foldl (fun d kv => dictSet d kv.1 kv.2) (p ++ d) = p ++ e by simpa using this [] d e (by simpa using hn) h
  intro p d
  induction d generalizing p with
  | nil =>
    intro e _ h
    have : e = [] := by simpa using h
    subst this; rfl
  | cons a d ih =>
    intro e hn h
    cases e with
    | nil => simp at h
    | cons b e =>
      simp only [map_cons, cons.injEq] at h
      obtain ⟨h1, h2⟩ := h
      have hset : dictSet (p ++ a :: d) b.1 b.2 = p ++ b :: d := by
        have hp : b.1 ∉ p.map Prod.fst := by
          rw [h1]
          intro hm
          rw [map_append, nodup_append] at hn
          exact hn.2.2 _ hm _ (by simp) rfl
        clear hn ih
        induction p with
        | nil => obtain ⟨k, v⟩ := a; simp only [nil_append, dictSet]; rw [if_pos h1.symm, show k = b.1 from h1.symm]
        | cons q p ihp =>
          obtain ⟨k, v⟩ := q
          simp only [map_cons, mem_cons, not_or] at hp
          simp only [cons_append, dictSet]
          rw [if_neg (Ne.symm hp.1), ihp hp.2]
      rw [foldl_cons, hset]
      have := ih (p ++ [b]) e (by simpa [h1] using hn) h2
      simpa using this

theorem replaceAll_eq {V : Type} {names : DimNames} {shape : V → Res (List ℕ)} {f : V → Res V} {s : Space V} (hs : SpaceOk names s) :
    s.replaceAll names shape f = s.mapValues names shape f := by
  unfold Space.replaceAll Space.mapValues Space.replace
  cases h : (s.data.mapM fun kv => do return (kv.1, ← f kv.2) : Res (List (String × V))) with
  | error e => rfl
  | ok m =>
    rw [ok_bind, ok_bind, foldl_same hs.1]
    have := mapM_res_iff.mp h
    clear h hs
    generalize s.data = d at this ⊢
    induction this with
    | nil => rfl
    | @cons a b l m hab _ ih =>
      obtain ⟨w, -, e⟩ := (bind_ok_iff _ _ _).mp hab
      obtain rfl := Except.ok.inj e
      rw [map_cons, map_cons, ih]

theorem mapC_iff {names : DimNames} {s s' : Space (ClsVec α)} {f : ClsVec α → Res (ClsVec α)} {G : Arr α → Arr α}
    (hs : SpaceOk names s) (hf : ∀ kv ∈ s.data, f kv.2 = .ok ⟨kv.2.chk, ⟨kv.2.vec.comps.map G⟩⟩) :
    s.replaceAll names ClsVec.shape f = .ok s' ↔ s' = s.mapC G ∧ ∃ t, s'.shape = .ok t := by
  rw [replaceAll_eq hs, mapValues_iff hs]
  have e : (∃ shapes t, s'.data.mapM (fun kv => kv.2.shape) = .ok shapes ∧ broadcastShapes shapes = .ok t) ↔
      ∃ t, s'.shape = .ok t := by
    unfold Space.shape
    simp only [bind_ok_iff]
    exact exists_comm
  rw [e]
  refine and_congr_left' ⟨fun h => ?_, ?_⟩
  · have : s'.data = (s.mapC G).data := by
      unfold Space.mapC
      have hf' := hf
      clear hf e
      generalize s.data = d at h hf'
      generalize s'.data = d' at h
      induction h with
      | nil => rfl
      | @cons a b d d' hab _ ih =>
        rw [map_cons, ih fun kv hkv => hf' kv (by simp [hkv])]
        have h2 := hab.2
        rw [hf' a (by simp)] at h2
        rw [← Except.ok.inj h2.symm, hab.1]
    cases s'; cases this; rfl
  · rintro rfl
    unfold Space.mapC
    rw [forall₂_map_right_iff, forall₂_same]
    exact fun kv hkv => ⟨rfl, hf kv hkv⟩

/-! ### the theorems -/

/-- **C65.** `space.shape` is the broadcast of the shapes of all components of all vectors; `ndim`, `size` belong to it. `len(space)`
is its first axis, and 0 when the vectors are single vectors, however many entries there are. -/
theorem C65_shape (s : Space (ClsVec α)) (t : List ℕ) :
    (s.shape = .ok t ↔ IsBroadcast (s.data.flatMap fun kv => kv.2.vec.comps.map Arr.shape) t) ∧
    (s.shape = .ok t → s.ndim = .ok t.length ∧ s.size = .ok t.prod ∧ s.len = .ok (t.headD 0)) ∧
    ((∀ kv ∈ s.data, ∀ a ∈ kv.2.vec.comps, a.shape = []) → s.len = .ok 0) := by
  have hfl : (allComps s).map Arr.shape = s.data.flatMap fun kv => kv.2.vec.comps.map Arr.shape := by
    unfold allComps
    rw [flatMap_def, map_flatten, map_map, flatMap_def]; rfl
  have h2 : s.shape = .ok t → s.ndim = .ok t.length ∧ s.size = .ok t.prod ∧ s.len = .ok (t.headD 0) := by
    intro h
    unfold Space.ndim Space.size Space.len
    rw [h]
    cases t <;> exact ⟨rfl, rfl, rfl⟩
  refine ⟨by rw [shape_iff, hfl], h2, fun h => ?_⟩
  have : s.shape = .ok [] := by
    rw [shape_iff]
    refine ⟨fun x hx => ?_, fun u hu => broadcastsTo_nil u⟩
    obtain ⟨a, ha, rfl⟩ := mem_map.mp hx
    obtain ⟨kv, h1, h2⟩ := mem_flatMap.mp ha
    rw [h kv h1 a h2]; exact broadcastsTo_nil _
  unfold Space.len
  rw [this]
  rfl

/-- **C65.** `space.shapes` and `space.sizes` list, under each key, the shape and the size of that vector. -/
theorem C65_shapes (s : Space (ClsVec α)) (l : List (String × List ℕ)) (m : List (String × ℕ)) :
    (s.shapes = .ok l ↔ Forall₂ (fun kv x => kv.1 = x.1 ∧ IsBroadcast (kv.2.vec.comps.map Arr.shape) x.2) s.data l) ∧
    (s.sizes = .ok m ↔ Forall₂ (fun kv x => kv.1 = x.1 ∧
      ∃ t, IsBroadcast (kv.2.vec.comps.map Arr.shape) t ∧ x.2 = t.prod) s.data m) := by
  have h1 : ∀ (kv : String × ClsVec α) (x : String × List ℕ), ((do return (kv.1, ← kv.2.shape)) : Res (String × List ℕ)) = .ok x ↔
      kv.1 = x.1 ∧ IsBroadcast (kv.2.vec.comps.map Arr.shape) x.2 := by
    intro kv x
    rw [bind_ok_iff, ← (C43_shape _).1]
    constructor
    · rintro ⟨t, h, e⟩
      obtain rfl := Except.ok.inj e
      exact ⟨rfl, h⟩
    · rintro ⟨e, h⟩
      exact ⟨x.2, h, by rw [e]; rfl⟩
  have h2 : ∀ (kv : String × ClsVec α) (x : String × ℕ), ((do return (kv.1, ← kv.2.vec.size)) : Res (String × ℕ)) = .ok x ↔
      kv.1 = x.1 ∧ ∃ t, IsBroadcast (kv.2.vec.comps.map Arr.shape) t ∧ x.2 = t.prod := by
    intro kv x
    unfold BVec.size
    simp only [bind_ok_iff, ← (C43_shape _).1]
    constructor
    · rintro ⟨n, ⟨t, h, e⟩, e'⟩
      obtain rfl := Except.ok.inj e
      obtain rfl := Except.ok.inj e'
      exact ⟨rfl, t, h, rfl⟩
    · rintro ⟨e, t, h, e'⟩
      exact ⟨t.prod, ⟨t, h, rfl⟩, by rw [e, ← e']; rfl⟩
  unfold Space.shapes Space.sizes
  rw [mapM_res_iff, mapM_res_iff]
  exact ⟨⟨fun h => h.imp fun a b => (h1 a b).mp, fun h => h.imp fun a b => (h1 a b).mpr⟩,
    ⟨fun h => h.imp fun a b => (h2 a b).mp, fun h => h.imp fun a b => (h2 a b).mpr⟩⟩

theorem entries_iff {names : DimNames} {s s' : Space (ClsVec α)} {f : ClsVec α → Res (ClsVec α)} (hs : SpaceOk names s) :
    s.replaceAll names ClsVec.shape f = .ok s' ↔
      Forall₂ (fun a b => a.1 = b.1 ∧ f a.2 = .ok b.2) s.data s'.data ∧ ∃ t, s'.shape = .ok t := by
  rw [replaceAll_eq hs, mapValues_iff hs]
  refine and_congr_right' ?_
  unfold Space.shape
  simp only [bind_ok_iff]
  exact exists_comm

/-- **C65.** `T`, `mT`, `flatten`, `ravel` of a Space are those of its vectors, under the same keys in the same order; they return
exactly when each of them returns and the results can be broadcast together. -/
theorem C65_entries (names : DimNames) (s s' : Space (ClsVec α)) (hs : SpaceOk names s) :
    (s.T names = .ok s' ↔
      Forall₂ (fun a b => a.1 = b.1 ∧ a.2.chk = b.2.chk ∧ a.2.vec.T a.2.chk = .ok b.2.vec) s.data s'.data ∧ ∃ t, s'.shape = .ok t) ∧
    (s.mT names = .ok s' ↔
      Forall₂ (fun a b => a.1 = b.1 ∧ a.2.chk = b.2.chk ∧ a.2.vec.mT a.2.chk = .ok b.2.vec) s.data s'.data ∧ ∃ t, s'.shape = .ok t) ∧
    (s.flatten names = .ok s' ↔
      Forall₂ (fun a b => a.1 = b.1 ∧ a.2.chk = b.2.chk ∧ a.2.vec.flatten a.2.chk = .ok b.2.vec) s.data s'.data ∧
        ∃ t, s'.shape = .ok t) ∧
    (s.ravel names = .ok s' ↔
      Forall₂ (fun a b => a.1 = b.1 ∧ a.2.chk = b.2.chk ∧ a.2.vec.ravel a.2.chk = .ok b.2.vec) s.data s'.data ∧
        ∃ t, s'.shape = .ok t) := by
  have key : ∀ (f : Checks α → BVec α → Res (BVec α)) (a b : ClsVec α),
      ((do return ⟨a.chk, ← f a.chk a.vec⟩) : Res (ClsVec α)) = .ok b ↔ a.chk = b.chk ∧ f a.chk a.vec = .ok b.vec := by
    intro f a b
    rw [bind_ok_iff]
    constructor
    · rintro ⟨v, h, e⟩
      obtain rfl := Except.ok.inj e
      exact ⟨rfl, h⟩
    · rintro ⟨e, h⟩
      exact ⟨b.vec, h, by rw [e]; rfl⟩
  refine ⟨?_, ?_, ?_, ?_⟩
  · exact (entries_iff hs).trans (by simp only [ClsVec.T, key fun c v => v.T c])
  · exact (entries_iff hs).trans (by simp only [ClsVec.mT, key fun c v => v.mT c])
  · exact (entries_iff hs).trans (by simp only [ClsVec.flatten, key fun c v => v.flatten c])
  · exact (entries_iff hs).trans (by simp only [ClsVec.ravel, key fun c v => v.ravel c])

theorem T_parts {names : DimNames} {s s' : Space (ClsVec α)} (hb : BuiltSpace names s) :
    s.T names = .ok s' ↔ s' = s.mapC (fun a => ⟨a.shape.reverse, fun idx => a.get idx.reverse⟩) ∧ ∃ t, s'.shape = .ok t :=
  mapC_iff hb.keys fun kv hkv => by unfold ClsVec.T; rw [T_eq (hb.checks kv hkv), ok_bind]; rfl

/-- **C65.** `space.T`: when every component of every vector has all the axes of `space.shape` or a single element, it returns, has
the axes reversed, and holds under each key the vector of the reversed index. -/
theorem C65_T (names : DimNames) (s : Space (ClsVec α)) (t : List ℕ) (hb : BuiltSpace names s) (hne : s.data ≠ [])
    (hs : s.shape = .ok t) (hr : ∀ kv ∈ s.data, ∀ a ∈ kv.2.vec.comps, a.shape.length = t.length ∨ a.shape.prod = 1) :
    ∃ s', s.T names = .ok s' ∧ SpaceMoved s s' t.reverse reverse := by
  have hj : (joined s).comps ≠ [] := by
    obtain ⟨kv, hkv⟩ := exists_mem_of_ne_nil _ hne
    obtain ⟨a, ha⟩ := exists_mem_of_ne_nil _ (hb.comps kv hkv)
    exact ne_nil_of_mem (mem_flatMap.mpr ⟨kv, hkv, ha⟩)
  obtain ⟨v', h1, h2⟩ := C43_T noChecks (joined s) t hj (noChecks_all _) (joined_shape.mp hs) fun a ha => by
    obtain ⟨kv, hkv, ha⟩ := mem_flatMap.mp ha
    exact hr kv hkv a ha
  rw [T_eq (noChecks_all _)] at h1
  obtain rfl := Except.ok.inj h1
  have hsh : (s.mapC fun a => ⟨a.shape.reverse, fun idx => a.get idx.reverse⟩).shape = .ok t.reverse := by
    rw [joined_shape, joined, allComps_mapC]; exact h2.shape
  exact ⟨_, (T_parts hb).mpr ⟨rfl, _, hsh⟩, hsh, fun idx hi => spaceAt_mapC (h2.elems idx hi)⟩

theorem mT_eq' {chk : Checks α} {v : BVec α} (hb : passesAll chk v.comps) (h : ∀ a ∈ v.comps, 2 ≤ a.shape.length) :
    v.mT chk = .ok ⟨v.comps.map fun a => ⟨swapLast a.shape, fun idx => a.get (swapLast idx)⟩⟩ :=
  gathered planMT_ok hb swapLast (fun _ => swapLast) fun a ha => by
    unfold planMT
    first
      | rw [if_pos (h a ha)]
      | rw [if_neg (by have := h a ha; omega)]

/-- **C65.** `space.mT` returns exactly when every component of every vector has at least two axes; it then swaps the last two axes of
`space.shape` and moves the vectors accordingly, whatever the shapes. -/
theorem C65_mT_iff (names : DimNames) (s : Space (ClsVec α)) (t : List ℕ) (hb : BuiltSpace names s) (hne : s.data ≠ [])
    (hs : s.shape = .ok t) :
    ((∀ kv ∈ s.data, ∀ a ∈ kv.2.vec.comps, 2 ≤ a.shape.length) →
      ∃ s' u i j, s.mT names = .ok s' ∧ t = u ++ [i, j] ∧ SpaceMoved s s' (u ++ [j, i]) swapLast) ∧
    ((∃ kv ∈ s.data, ∃ a ∈ kv.2.vec.comps, a.shape.length < 2) → ∃ e, s.mT names = .error e) := by
  have hj : (joined s).comps ≠ [] := by
    obtain ⟨kv, hkv⟩ := exists_mem_of_ne_nil _ hne
    obtain ⟨a, ha⟩ := exists_mem_of_ne_nil _ (hb.comps kv hkv)
    exact ne_nil_of_mem (mem_flatMap.mpr ⟨kv, hkv, ha⟩)
  constructor
  · intro h
    have h' : ∀ a ∈ (joined s).comps, 2 ≤ a.shape.length := fun a ha => by
      obtain ⟨kv, hkv, ha⟩ := mem_flatMap.mp ha
      exact h kv hkv a ha
    obtain ⟨v', u, i, j, h1, h2, h3⟩ := (C43_mT_iff noChecks (joined s) t hj (noChecks_all _) (joined_shape.mp hs)).1 h'
    rw [mT_eq' (noChecks_all _) h'] at h1
    obtain rfl := Except.ok.inj h1
    have hsh : (s.mapC fun a => ⟨swapLast a.shape, fun idx => a.get (swapLast idx)⟩).shape = .ok (u ++ [j, i]) := by
      rw [joined_shape, joined, allComps_mapC]; exact h3.shape
    refine ⟨_, u, i, j, (mapC_iff hb.keys fun kv hkv => ?_).mpr ⟨rfl, _, hsh⟩, h2, hsh, fun idx hi => spaceAt_mapC (h3.elems idx hi)⟩
    unfold ClsVec.mT
    rw [mT_eq' (hb.checks kv hkv) (h kv hkv), ok_bind]; rfl
  · rintro ⟨kv, hkv, a, ha, hl⟩
    cases h : s.mT names with
    | error e => exact ⟨e, rfl⟩
    | ok s' =>
      exfalso
      unfold Space.mT at h
      rw [replaceAll_eq hb.keys, mapValues_iff hb.keys] at h
      obtain ⟨w, h2⟩ : ∃ w, ClsVec.mT kv.2 = .ok w := by
        obtain ⟨i, hi, e⟩ := getElem_of_mem hkv
        have k := forall₂_iff_get.mp h.1
        have := (k.2 i hi (k.1 ▸ hi)).2
        exact ⟨_, by rw [← e]; exact this⟩
      obtain ⟨st, hst⟩ : ∃ st, kv.2.vec.shape = .ok st := by
        have := (shape_iff (s := s) (t := t)).mp hs
        exact broadcastShapes_total (w := t) fun x hx => this.1 x (by
          obtain ⟨b, hb', rfl⟩ := mem_map.mp hx
          exact mem_map_of_mem (mem_flatMap.mpr ⟨kv, hkv, hb'⟩))
      have := (C43_mT_iff kv.2.chk kv.2.vec st (hb.comps kv hkv) (hb.checks kv hkv) hst).2 ⟨a, ha, hl⟩
      unfold ClsVec.mT at h2
      rw [this] at h2
      cases h2

/-- **C65.** `space.flatten()` and `space.ravel()` agree. The result has shape `(space.size,)` exactly when every component of every
vector has `size` elements or one, and then it holds the vectors in row-major order. -/
theorem C65_flatten_iff (names : DimNames) (s : Space (ClsVec α)) (t : List ℕ) (hb : BuiltSpace names s) (hne : s.data ≠ [])
    (hs : s.shape = .ok t) :
    s.flatten names = s.ravel names ∧
    ((∃ s', s.flatten names = .ok s' ∧ s'.shape = .ok [t.prod]) ↔
      ∀ kv ∈ s.data, ∀ a ∈ kv.2.vec.comps, a.shape.prod = t.prod ∨ a.shape.prod = 1) ∧
    ∀ s', s.flatten names = .ok s' → s'.shape = .ok [t.prod] →
      ∀ idx, InB t idx → spaceAt s' [ravelIdx t idx] = spaceAt s idx := by
  have hj : (joined s).comps ≠ [] := by
    obtain ⟨kv, hkv⟩ := exists_mem_of_ne_nil _ hne
    obtain ⟨a, ha⟩ := exists_mem_of_ne_nil _ (hb.comps kv hkv)
    exact ne_nil_of_mem (mem_flatMap.mpr ⟨kv, hkv, ha⟩)
  obtain ⟨v', h1, -, h2, h3⟩ := C43_flatten_iff noChecks (joined s) t hj (noChecks_all _) (joined_shape.mp hs)
  rw [flatten_eq (noChecks_all _)] at h1
  obtain rfl := Except.ok.inj h1
  have hparts : ∀ s', s.flatten names = .ok s' ↔ s' = s.mapC (fun a => ⟨[a.shape.prod],
      fun idx => a.get (unravelIdx a.shape (ravelIdx [a.shape.prod] idx))⟩) ∧ ∃ t, s'.shape = .ok t := fun s' =>
    mapC_iff hb.keys fun kv hkv => by unfold ClsVec.flatten; rw [flatten_eq (hb.checks kv hkv), ok_bind]; rfl
  have hsh : (s.mapC (fun a => ⟨[a.shape.prod],
      fun idx => a.get (unravelIdx a.shape (ravelIdx [a.shape.prod] idx))⟩)).shape = .ok [t.prod] ↔
      ∀ kv ∈ s.data, ∀ a ∈ kv.2.vec.comps, a.shape.prod = t.prod ∨ a.shape.prod = 1 := by
    rw [joined_shape, joined, allComps_mapC]
    refine h2.trans ⟨fun h kv hkv a ha => h a (mem_flatMap.mpr ⟨kv, hkv, ha⟩), fun h a ha => ?_⟩
    obtain ⟨kv, hkv, ha⟩ := mem_flatMap.mp ha
    exact h kv hkv a ha
  refine ⟨rfl, ⟨?_, fun h => ⟨_, (hparts _).mpr ⟨rfl, _, hsh.mpr h⟩, hsh.mpr h⟩⟩, ?_⟩
  · rintro ⟨s', k1, k2⟩
    obtain ⟨rfl, -⟩ := (hparts s').mp k1
    exact hsh.mp k2
  · intro s' k1 k2 idx hi
    obtain ⟨rfl, -⟩ := (hparts s').mp k1
    refine spaceAt_mapC (h3 ?_ idx hi)
    rw [joined_shape, joined, allComps_mapC] at k2
    exact k2

/-- **C65.** `+space` is `space`. -/
theorem C65_plus (names : DimNames) (s : Space (ClsVec α)) (t : List ℕ) (hb : BuiltSpace names s) (hs : s.shape = .ok t) :
    s.plus names = .ok s := by
  have e : s.mapC id = s := by
    unfold Space.mapC
    simp
  refine (mapC_iff (G := id) hb.keys fun kv hkv => ?_).mpr ⟨e.symm, t, hs⟩
  unfold ClsVec.plus mkB
  rw [if_pos (hb.checks kv hkv), map_id]
  rfl

/-! ### `replace` -/

theorem zip_fst_snd {V : Type} (l : List (String × V)) : (l.map Prod.fst).zip (l.map Prod.snd) = l := by
  induction l with
  | nil => rfl
  | cons a l ih => simp [ih]

section dict
variable {V : Type}

theorem dictSet_old (d : List (String × V)) (k : String) (v : V) (hd : (d.map Prod.fst).Nodup) (h : k ∈ d.map Prod.fst) :
    dictSet d k v = d.map fun e => if e.1 = k then (e.1, v) else e := by
  induction d with
  | nil => simp at h
  | cons a d ih =>
    obtain ⟨k', v'⟩ := a
    simp only [map_cons, nodup_cons] at hd
    by_cases e : k' = k
    · subst e
      simp only [dictSet, if_true, map_cons]
      congr 1
      conv_lhs => rw [← map_id d]
      refine map_congr_left fun b hb => ?_
      have hne : b.1 ≠ k' := fun (e : b.1 = k') => hd.1 (e ▸ mem_map_of_mem hb)
      rw [if_neg hne]; rfl
    · simp only [dictSet, if_neg e, map_cons]
      rw [ih hd.2 (by simpa [Ne.symm e] using h)]

theorem dictSet_append (p q : List (String × V)) (k : String) (v : V) (h : k ∈ p.map Prod.fst) :
    dictSet (p ++ q) k v = dictSet p k v ++ q := by
  induction p with
  | nil => simp at h
  | cons a p ih =>
    obtain ⟨k', v'⟩ := a
    simp only [cons_append, dictSet]
    by_cases e : k' = k
    · rw [if_pos e, if_pos e]; rfl
    · rw [if_neg e, if_neg e, ih (by simpa [Ne.symm e] using h)]; rfl

theorem lookup_append' (p q : List (String × V)) (k : String) : (p ++ q).lookup k = (p.lookup k).or (q.lookup k) := by
  induction p with
  | nil => simp
  | cons a p ih =>
    obtain ⟨k', v'⟩ := a
    simp only [cons_append, lookup_cons]
    cases k == k' <;> simp [ih]

theorem lookup_eq_none' {p : List (String × V)} {k : String} (h : k ∉ p.map Prod.fst) : p.lookup k = none := by
  induction p with
  | nil => rfl
  | cons a p ih =>
    obtain ⟨k', v'⟩ := a
    simp only [map_cons, mem_cons, not_or] at h
    rw [lookup_cons, show (k == k') = false from by simpa using h.1]
    exact ih h.2

theorem lookup_of_nodup {p : List (String × V)} {k : String} {v : V} (hn : (p.map Prod.fst).Nodup) (h : (k, v) ∈ p) :
    p.lookup k = some v := by
  induction p with
  | nil => simp at h
  | cons a p ih =>
    obtain ⟨k', v'⟩ := a
    simp only [map_cons, nodup_cons] at hn
    rw [lookup_cons]
    rcases mem_cons.mp h with e | h
    · obtain ⟨rfl, rfl⟩ := Prod.mk.inj e
      simp
    · have : k ≠ k' := fun e => hn.1 (e ▸ mem_map.mpr ⟨_, h, rfl⟩)
      rw [show (k == k') = false from by simpa using this]
      exact ih hn.2 h

theorem foldl_dictSet (kw d : List (String × V)) (hd : (d.map Prod.fst).Nodup) (hn : (kw.map Prod.fst).Nodup) :
    kw.foldl (fun d kv => dictSet d kv.1 kv.2) d =
      d.map (fun e => (e.1, (kw.lookup e.1).getD e.2)) ++ kw.filter (fun e => e.1 ∉ d.map Prod.fst) := by
  induction kw using reverseRecOn with
  | nil => simp
  | append_singleton kw a ih =>
    obtain ⟨k, v⟩ := a
    rw [map_append, nodup_append] at hn
    have hk : k ∉ kw.map Prod.fst := fun h => hn.2.2 _ h _ (by simp) rfl
    rw [foldl_append, ih hn.1]
    show dictSet _ k v = _
    have e1 : ∀ e : String × V, e.1 ≠ k → ((kw ++ [(k, v)]).lookup e.1).getD e.2 = (kw.lookup e.1).getD e.2 := fun e he => by
      rw [lookup_append', lookup_eq_none' (p := [(k, v)]) (by simpa using he), Option.or_none]
    have e2 : (kw ++ [(k, v)]).lookup k = some v := by
      rw [lookup_append', lookup_eq_none' hk]; simp
    by_cases h : k ∈ d.map Prod.fst
    · have hm : (d.map fun e => (e.1, (kw.lookup e.1).getD e.2)).map Prod.fst = d.map Prod.fst := by rw [map_map]; rfl
      rw [dictSet_append _ _ _ _ (by rw [hm]; exact h), dictSet_old _ _ _ (by rw [hm]; exact hd) (by rw [hm]; exact h), filter_append,
        map_map]
      have : filter (fun e : String × V => decide (e.1 ∉ d.map Prod.fst)) [(k, v)] = [] := by
        rw [filter_eq_nil_iff]
        intro a ha
        obtain rfl := mem_singleton.mp ha
        simpa using h
      rw [this, append_nil]
      congr 1
      refine map_congr_left fun e _ => ?_
      simp only [Function.comp_apply]
      by_cases he : e.1 = k
      · rw [if_pos he, he, e2]; rfl
      · rw [if_neg he, e1 e he]
    · rw [dictSet_new, filter_append]
      · have : filter (fun e : String × V => decide (e.1 ∉ d.map Prod.fst)) [(k, v)] = [(k, v)] := by
          rw [filter_eq_self]
          intro a ha
          obtain rfl := mem_singleton.mp ha
          simpa using h
        rw [this, append_assoc]
        congr 1
        refine map_congr_left fun e he => ?_
        rw [e1 e fun e' => h (e' ▸ mem_map_of_mem he)]
      · rw [map_append, mem_append, not_or]
        refine ⟨by rw [map_map]; exact h, fun hm => ?_⟩
        obtain ⟨e, he, e'⟩ := mem_map.mp hm
        exact hk (e' ▸ mem_map_of_mem (mem_filter.mp he).1)

theorem lookup_dictSet (d : List (String × V)) (k k' : String) (v : V) :
    (dictSet d k v).lookup k' = if k' = k then some v else d.lookup k' := by
  induction d with
  | nil =>
    simp only [dictSet, lookup_cons, lookup_nil]
    by_cases h : k' = k
    · subst h; simp
    · rw [if_neg h, show (k' == k) = false from by simpa using h]
  | cons a d ih =>
    obtain ⟨c, w⟩ := a
    simp only [dictSet]
    by_cases e : c = k
    · subst e
      rw [if_pos rfl]
      simp only [lookup_cons]
      by_cases h : k' = c
      · subst h; simp
      · rw [if_neg h, show (k' == c) = false from by simpa using h]
    · rw [if_neg e]
      simp only [lookup_cons]
      by_cases h : k' = c
      · subst h; simp [e]
      · rw [show (k' == c) = false from by simpa using h]; exact ih

theorem lookup_dictOf (l : List (String × V)) (k : String) : (dictOf l).lookup k = l.reverse.lookup k := by
  induction l using reverseRecOn with
  | nil => rfl
  | append_singleton l a ih =>
    obtain ⟨k', v⟩ := a
    unfold dictOf at ih ⊢
    rw [foldl_append]
    show (dictSet _ k' v).lookup k = _
    rw [lookup_dictSet, reverse_append, ih]
    show _ = ((k', v) :: l.reverse).lookup k
    rw [lookup_cons]
    by_cases h : k = k'
    · subst h; simp
    · rw [if_neg h, show (k == k') = false from by simpa using h]

end dict

/-- **C65.** `replace(space, **kwargs)`, the keywords naming different dimensions (under any of their names): the new vectors stand
under their dimensions and all others are kept. -/
theorem C65_replace {V : Type} (names : DimNames) (shape : V → Res (List ℕ)) (s s' : Space V) (hs : SpaceOk names s)
    (kw : List (String × V)) (keys : List String) (hk : Forall₂ (fun kv k => names.canon kv.1 = .ok k) kw keys) (hd : keys.Nodup)
    (h : s.replace names shape kw = .ok s') :
    SpaceOk names s' ∧ (∀ kv ∈ kw, s'.getDim names kv.1 = .ok kv.2) ∧ ∀ k, k ∉ keys → s'.getStr k = s.getStr k := by
  -- names given twice would name one dimension twice
  have hcan : ∀ kv ∈ kw, ∃ k ∈ keys, names.canon kv.1 = .ok k := by
    intro kv hkv
    clear h hd
    induction hk with
    | nil => simp at hkv
    | @cons a b l m hab _ ih =>
      rcases mem_cons.mp hkv with rfl | h
      · exact ⟨b, by simp, hab⟩
      · obtain ⟨k, h1, h2⟩ := ih h
        exact ⟨k, by simp [h1], h2⟩
  have huniq : ∀ a ∈ kw, ∀ b ∈ kw, names.canon a.1 = names.canon b.1 → a = b := by
    clear h hcan
    induction hk with
    | nil => simp
    | @cons a b l m hab hl ih =>
      have hb := nodup_cons.mp hd
      have hnot : ∀ x ∈ l, names.canon x.1 ≠ .ok b := by
        intro x hx e
        obtain ⟨i, hi, ei⟩ := getElem_of_mem hx
        have k := forall₂_iff_get.mp hl
        have := k.2 i hi (k.1 ▸ hi)
        simp only [get_eq_getElem, ei] at this
        rw [e] at this
        exact hb.1 (Except.ok.inj this ▸ getElem_mem _)
      intro x hx y hy e
      rcases mem_cons.mp hx with rfl | hx' <;> rcases mem_cons.mp hy with rfl | hy'
      · rfl
      · exact absurd (e.symm.trans hab) (hnot y hy')
      · exact absurd (e.trans hab) (hnot x hx')
      · exact ih hb.2 x hx' y hy' e
  have hn : (kw.map Prod.fst).Nodup := by
    clear h huniq hcan
    induction hk with
    | nil => simp
    | @cons a b l m hab hl ih =>
      have hb := nodup_cons.mp hd
      rw [map_cons, nodup_cons]
      refine ⟨fun hm => ?_, ih hb.2⟩
      obtain ⟨x, hx, e⟩ := mem_map.mp hm
      obtain ⟨i, hi, ei⟩ := getElem_of_mem hx
      have k := forall₂_iff_get.mp hl
      have := k.2 i hi (k.1 ▸ hi)
      simp only [get_eq_getElem, ei] at this
      rw [e, hab] at this
      exact hb.1 (Except.ok.inj this ▸ getElem_mem _)
  refine ⟨C40_constructed_ok names shape _ s' h, ?_⟩
  unfold Space.replace at h
  rw [foldl_dictSet kw s.data hs.1 hn] at h
  set old := s.data.map fun e => (e.1, (kw.lookup e.1).getD e.2) with hold
  set new := kw.filter fun e => e.1 ∉ s.data.map Prod.fst with hnew
  have hold1 : old.map Prod.fst = s.data.map Prod.fst := by rw [hold, map_map]; rfl
  have hnd : ((old ++ new).map Prod.fst).Nodup := by
    rw [map_append, hold1, nodup_append]
    refine ⟨hs.1, hn.sublist (filter_sublist.map _), ?_⟩
    rintro a ha b hb rfl
    obtain ⟨e, he, e'⟩ := mem_map.mp hb
    have := (mem_filter.mp he).2
    rw [e'] at this
    exact (of_decide_eq_true this) ha
  obtain ⟨ks, shapes, t, h1, -, -, rfl⟩ := (mkSpace_iff hnd).mp h
  -- look-up in the result
  have hzip : ∀ (l : List (String × V)) (ks : List String), Forall₂ (fun kv k => names.canon kv.1 = .ok k) l ks →
      ∀ k v, (k, v) ∈ ks.zip (l.map Prod.snd) ↔ ∃ kv ∈ l, names.canon kv.1 = .ok k ∧ kv.2 = v := by
    intro l ks hl k v
    induction hl with
    | nil => simp
    | @cons a b l m hab _ ih =>
      simp only [map_cons, zip_cons_cons, mem_cons, Prod.mk.injEq, ih, exists_eq_or_imp, hab, Except.ok.injEq]
      tauto
  have h1' := mapM_res_iff.mp h1
  obtain ⟨k1, k2, g1, g2, rfl⟩ : ∃ k1 k2, Forall₂ (fun kv k => names.canon kv.1 = .ok k) old k1 ∧
      Forall₂ (fun kv k => names.canon kv.1 = .ok k) new k2 ∧ ks = k1 ++ k2 := by
    refine ⟨ks.take old.length, ks.drop old.length, ?_, ?_, (take_append_drop _ _).symm⟩
    · have := forall₂_take old.length h1'
      rwa [take_left] at this
    · have := forall₂_drop old.length h1'
      rwa [drop_left] at this
  have hk1 : k1 = old.map Prod.fst := by
    have hc : ∀ e ∈ old, names.canon e.1 = .ok e.1 := fun e he => hs.2 _ (hold1 ▸ mem_map_of_mem he)
    clear h h1 h1' hold1 hnd
    clear_value old
    clear hold
    induction g1 with
    | nil => rfl
    | @cons a b l m hab _ ih =>
      rw [map_cons, ← ih fun e he => hc e (by simp [he])]
      rw [hc a (by simp)] at hab
      rw [Except.ok.inj hab]
  have hz1 : k1.zip (old.map Prod.snd) = old := by rw [hk1]; exact zip_fst_snd old
  have hlook : ∀ k, ((⟨dictOf ((k1 ++ k2).zip ((old ++ new).map Prod.snd))⟩ : Space V)).data.lookup k =
      ((k2.zip (new.map Prod.snd)).reverse.lookup k).or (old.lookup k) := by
    intro k
    show (dictOf _).lookup k = _
    rw [lookup_dictOf, map_append, zip_append (by rw [length_map]; exact g1.length_eq.symm), reverse_append, lookup_append', hz1]
    congr 1
    -- distinct keys: the order does not matter
    have hno : (old.map Prod.fst).Nodup := hold1 ▸ hs.1
    by_cases hm : k ∈ old.map Prod.fst
    · obtain ⟨⟨k', v⟩, he, rfl⟩ := mem_map.mp hm
      rw [lookup_of_nodup hno he, lookup_of_nodup (by rw [map_reverse]; exact nodup_reverse.mpr hno) (by simpa using he)]
    · rw [lookup_eq_none' hm, lookup_eq_none' (by simpa using hm)]
  have hnone : ∀ k, (∀ kv ∈ new, names.canon kv.1 ≠ .ok k) → (k2.zip (new.map Prod.snd)).reverse.lookup k = none := by
    intro k hk
    refine lookup_eq_none' fun hm => ?_
    obtain ⟨⟨k', v⟩, he, rfl⟩ := mem_map.mp hm
    obtain ⟨kv, h3, h4, -⟩ := (hzip new k2 g2 k' v).mp (mem_reverse.mp he)
    exact hk kv h3 h4
  refine ⟨fun kv hkv => ?_, fun k hk => ?_⟩
  · obtain ⟨k, -, hc⟩ := hcan kv hkv
    unfold Space.getDim
    rw [hc, ok_bind, getStr_iff, hlook]
    by_cases hm : kv.1 ∈ s.data.map Prod.fst
    · -- the dimension's own name
      have e : kv.1 = k := Except.ok.inj ((hs.2 _ hm).symm.trans hc)
      rw [hnone k fun b hb hbc => ?_, Option.none_or]
      · obtain ⟨x, hx, ex⟩ := mem_map.mp hm
        refine lookup_of_nodup (hold1 ▸ hs.1) ?_
        rw [hold, mem_map]
        refine ⟨x, hx, ?_⟩
        rw [ex, lookup_of_nodup hn (show (kv.1, kv.2) ∈ kw from hkv), e]; rfl
      · have := huniq b (mem_filter.mp hb).1 kv hkv (hbc.trans hc.symm)
        subst this
        exact (of_decide_eq_true (mem_filter.mp hb).2) hm
    · have hin : kv ∈ new := mem_filter.mpr ⟨hkv, by simpa using hm⟩
      have : (k2.zip (new.map Prod.snd)).reverse.lookup k = some kv.2 := by
        have hmem : (k, kv.2) ∈ (k2.zip (new.map Prod.snd)).reverse := mem_reverse.mpr ((hzip new k2 g2 k kv.2).mpr ⟨kv, hin, hc, rfl⟩)
        have hall : ∀ v, (k, v) ∈ (k2.zip (new.map Prod.snd)).reverse → v = kv.2 := by
          intro v hv
          obtain ⟨b, hb, hbc, e⟩ := (hzip new k2 g2 k v).mp (mem_reverse.mp hv)
          rw [← e, huniq b (mem_filter.mp hb).1 kv hkv (hbc.trans hc.symm)]
        generalize (k2.zip (new.map Prod.snd)).reverse = l at hmem hall
        clear hlook hnone
        induction l with
        | nil => simp at hmem
        | cons a l ih =>
          obtain ⟨c, w⟩ := a
          rw [lookup_cons]
          by_cases ec : k = c
          · subst ec
            rw [hall w (by simp)]; simp
          · rw [show (k == c) = false from by simpa using ec]
            refine ih ?_ fun v hv => hall v (by simp [hv])
            rcases mem_cons.mp hmem with e | h
            · exact absurd (Prod.mk.inj e).1 ec
            · exact h
      rw [this]; rfl
  · have e : ((⟨dictOf ((k1 ++ k2).zip ((old ++ new).map Prod.snd))⟩ : Space V)).data.lookup k = s.data.lookup k := by
      rw [hlook, hnone k, Option.none_or]
      · by_cases hm : k ∈ s.data.map Prod.fst
        · obtain ⟨⟨k', v⟩, he, rfl⟩ := mem_map.mp hm
          rw [lookup_of_nodup hs.1 he]
          refine lookup_of_nodup (hold1 ▸ hs.1) ?_
          rw [hold, mem_map]
          refine ⟨_, he, ?_⟩
          have : kw.lookup k' = none := lookup_eq_none' fun hm' => by
            obtain ⟨b, hb, rfl⟩ := mem_map.mp hm'
            obtain ⟨c, hc1, hc2⟩ := hcan b hb
            have e := (hs.2 _ hm).symm.trans hc2
            exact hk (Except.ok.inj e ▸ hc1)
          rw [this]; rfl
        · rw [lookup_eq_none' hm, lookup_eq_none' (hold1 ▸ hm)]
      · intro b hb e
        obtain ⟨c, hc1, hc2⟩ := hcan b (mem_filter.mp hb).1
        exact hk (Except.ok.inj (e.symm.trans hc2) ▸ hc1)
    unfold Space.getStr
    rw [e]

end

/-! ### concrete cases -/

/-- a position of shape (2, 2) with a velocity of shape (2,) -/
def exMixed : Space (ClsVec ℕ) :=
  ⟨[("length", ⟨noChecks, ⟨[⟨[2, 2], fun _ => 0⟩]⟩⟩), ("speed", ⟨noChecks, ⟨[⟨[2], fun i => i.headD 0⟩]⟩⟩)]⟩

/-- a position of shape (2, 3) with a single velocity -/
def exGood : Space (ClsVec ℕ) :=
  ⟨[("length", ⟨noChecks, ⟨[⟨[2, 3], ravelIdx [2, 3]⟩]⟩⟩), ("speed", ⟨noChecks, ⟨[⟨[], fun _ => 7⟩]⟩⟩)]⟩

theorem built_two (names : DimNames) (hn : Standard names) (a b : Arr ℕ) :
    BuiltSpace names ⟨[("length", ⟨noChecks, ⟨[a]⟩⟩), ("speed", ⟨noChecks, ⟨[b]⟩⟩)]⟩ := by
  refine ⟨⟨by simp, fun k hk => ?_⟩, fun kv hkv => ?_, fun kv hkv => ?_⟩
  · simp only [map_cons, map_nil, mem_cons, not_mem_nil, or_false] at hk
    rcases hk with rfl | rfl
    · exact hn.1
    · exact hn.2
  all_goals
    simp only [mem_cons, not_mem_nil, or_false] at hkv
    rcases hkv with rfl | rfl
  · simp
  · simp
  · exact noChecks_all _
  · exact noChecks_all _

/-- **C65, exception.** For vectors of different rank `space.T` can return a Space of the right shape with the wrong vectors: a
position of shape (2, 2) with a velocity of shape (2,), which stands for the same two velocities in each row; after `T` they still
do, instead of standing in the columns. -/
theorem C65_T_mixed_wrong (names : DimNames) (hn : Standard names) :
    ∃ s', BuiltSpace names exMixed ∧ exMixed.shape = .ok [2, 2] ∧ exMixed.T names = .ok s' ∧ s'.shape = .ok [2, 2] ∧
      ¬ SpaceMoved exMixed s' [2, 2] reverse := by
  have hb : BuiltSpace names exMixed := built_two names hn _ _
  refine ⟨_, hb, rfl, (T_parts hb).mpr ⟨rfl, [2, 2], rfl⟩, rfl, fun h => ?_⟩
  have := h.elems [0, 1] (by repeat constructor)
  simp [spaceAt, exMixed, Space.mapC, elemAt, bcSource] at this

example (names : DimNames) (hn : Standard names) :
    BuiltSpace names exGood ∧ exGood.data ≠ [] ∧ exGood.shape = .ok [2, 3] ∧
      (∀ kv ∈ exGood.data, ∀ a ∈ kv.2.vec.comps, a.shape.length = 2 ∨ a.shape.prod = 1) ∧
      ∀ kv ∈ exGood.data, ∀ a ∈ kv.2.vec.comps, a.shape.prod = 6 ∨ a.shape.prod = 1 := by
  refine ⟨built_two names hn _ _, by simp [exGood], rfl, ?_, ?_⟩ <;> simp [exGood]

example : ∃ s', (⟨[("length", 1)]⟩ : Space ℕ).replace exampleNames (fun _ => .ok []) [("speed", 2)] = .ok s' := ⟨_, rfl⟩

end Verif
