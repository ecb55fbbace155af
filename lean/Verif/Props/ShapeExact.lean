import Verif.Props.ShapeND
import Verif.Props.Space

/-!
# Exactly when `T`, `mT`, `flatten` and `ravel` are right: C43

Scope: vectors of 1, 2, 3 dimensions, component shapes of any ranks that broadcast.
-/

namespace Verif

open List Spec

/-! ### operations on single-element components -/

theorem ones_of_prod {t : List ℕ} (h : t.prod = 1) : ∀ n ∈ t, n = 1 := by
  induction t with
  | nil => simp
  | cons a t ih =>
    rw [prod_cons] at h
    obtain ⟨h1, h2⟩ := mul_eq_one.mp h
    intro n hn
    rcases mem_cons.mp hn with rfl | hn
    · exact h1
    · exact ih h2 n hn

theorem compatRev_ones {t : List ℕ} (h : ∀ n ∈ t, n = 1) : ∀ {u : List ℕ}, t.length ≤ u.length → CompatRev t u := by
  induction t with
  | nil => intros; trivial
  | cons a t ih =>
    intro u hu
    cases u with
    | nil => simp at hu
    | cons b u =>
      exact ⟨.inl (h a (by simp)), ih (fun n hn => h n (by simp [hn])) (by simpa using hu)⟩

theorem broadcastsTo_ones {t u : List ℕ} (h : t.prod = 1) (hl : t.length ≤ u.length) : BroadcastsTo t u :=
  compatRev_ones (by simpa using ones_of_prod h) (by simpa using hl)

/-- some component has all the axes -/
theorem exists_full_rank {shapes : List (List ℕ)} {s : List ℕ} (hne : shapes ≠ []) (h : IsBroadcast shapes s) :
    ∃ t ∈ shapes, t.length = s.length := by
  by_contra hno
  push Not at hno
  have hlt : ∀ t ∈ shapes, t.length ≤ s.length - 1 := fun t ht => by
    have h1 := broadcastsTo_length (h.1 t ht)
    have h2 := hno t ht
    omega
  have h2 := broadcastsTo_length (h.2 (s.drop (s.length - (s.length - 1))) (fun t ht =>
    (broadcastsTo_suffix (hlt t ht)).mp (h.1 t ht)))
  rw [length_drop] at h2
  obtain ⟨t, ht⟩ := exists_mem_of_ne_nil _ hne
  have := broadcastsTo_length (h.1 t ht)
  have := hno t ht
  omega

/-- single-element components do not matter for the broadcast shape, if another one has all the axes -/
theorem isBroadcast_drop_ones {shapes : List (List ℕ)} {s t : List ℕ} (h : IsBroadcast shapes s)
    (P : List ℕ → Prop) (hP : ∀ t ∈ shapes, ¬ P t → t.prod = 1) (ht : t ∈ shapes) (hPt : P t)
    (hl : t.length = s.length) (l : List (List ℕ)) (hmem : ∀ x, x ∈ l ↔ x ∈ shapes ∧ P x) : IsBroadcast l s := by
  refine ⟨fun x hx => h.1 x ((hmem x).mp hx).1, fun u hu => h.2 u fun x hx => ?_⟩
  by_cases hp : P x
  · exact hu x ((hmem x).mpr ⟨hx, hp⟩)
  · refine broadcastsTo_ones (hP x hx hp) ?_
    have h1 := broadcastsTo_length (h.1 x hx)
    have h2 := broadcastsTo_length (hu t ((hmem t).mpr ⟨ht, hPt⟩))
    omega

/-! ### T -/

theorem zipWith_ones {t m : List ℕ} (h : ∀ n ∈ t, n = 1) (hl : t.length ≤ m.length) :
    zipWith (fun n i => if n = 1 then 0 else i) t m = replicate t.length 0 := by
  induction t generalizing m with
  | nil => rfl
  | cons a t ih =>
    cases m with
    | nil => simp at hl
    | cons b m =>
      rw [zipWith_cons_cons, ih (fun n hn => h n (by simp [hn])) (by simpa using hl), h a (by simp)]
      rfl

theorem bcSource_ones {t idx : List ℕ} (h : t.prod = 1) (hl : t.length ≤ idx.length) :
    bcSource t idx = replicate t.length 0 :=
  zipWith_ones (ones_of_prod h) (by rw [length_drop]; omega)

/-- componentwise gathers, all at once -/
theorem gathered {α : Type} {chk : Checks α} {p : Plan} (hp : PlanOk p) {v : BVec α} (hb : passesAll chk v.comps)
    (g : List ℕ → List ℕ) (f : List ℕ → List ℕ → List ℕ)
    (h : ∀ a ∈ v.comps, p a.shape = .ok (g a.shape, f a.shape)) :
    v.mapComps chk p = .ok ⟨v.comps.map fun a => ⟨g a.shape, fun idx => a.get (f a.shape idx)⟩⟩ := by
  obtain ⟨⟨cs'⟩, h1, h2⟩ := mapComps_ok hp hb (fun a ha => ⟨_, h a ha⟩)
  rw [h1]
  congr 2
  simp only at h2
  clear h1 hb
  generalize v.comps = cs at h h2
  induction h2 with
  | nil => rfl
  | @cons a b cs cs' hab _ ih =>
    obtain ⟨r, e1, e2⟩ := hab
    rw [h a (by simp)] at e1
    obtain rfl := Except.ok.inj e1
    rw [map_cons, ← ih (fun a ha => h a (by simp [ha])), e2]

/-- the elements of a gathered vector -/
theorem gathered_elems {α : Type} {v : BVec α} (g : List ℕ → List ℕ) (f : List ℕ → List ℕ → List ℕ)
    (idx idx' : List ℕ) (h : ∀ a ∈ v.comps, f a.shape (bcSource (g a.shape) idx) = bcSource a.shape idx') :
    elemAt ⟨v.comps.map fun a => (⟨g a.shape, fun idx => a.get (f a.shape idx)⟩ : Arr α)⟩ idx = elemAt v idx' := by
  unfold elemAt
  rw [map_map]
  apply map_congr_left
  intro a ha
  simp only [Function.comp_apply, h a ha]

theorem gathered_shape {α : Type} {v : BVec α} (g : List ℕ → List ℕ) (f : List ℕ → List ℕ → List ℕ) (s' : List ℕ) :
    BVec.shape ⟨v.comps.map fun a => (⟨g a.shape, fun idx => a.get (f a.shape idx)⟩ : Arr α)⟩ = .ok s' ↔
      IsBroadcast ((v.comps.map Arr.shape).map g) s' := by
  rw [(C43_shape _).1, map_map, map_map]
  rfl

theorem T_eq {α : Type} {chk : Checks α} {v : BVec α} (hb : passesAll chk v.comps) :
    v.T chk = .ok ⟨v.comps.map fun a => ⟨a.shape.reverse, fun idx => a.get idx.reverse⟩⟩ :=
  gathered planT_ok hb reverse (fun _ => reverse) (fun _ _ => rfl)

/-- **C43.** `vec.T` reverses the axes of `vec.shape` and moves the elements accordingly, when every component
has all the axes (of length 1 or more) or a single element. -/
theorem C43_T {α : Type} (chk : Checks α) (v : BVec α) (s : List ℕ) (hne : v.comps ≠ [])
    (hb : passesAll chk v.comps) (hs : v.shape = .ok s)
    (hr : ∀ a ∈ v.comps, a.shape.length = s.length ∨ a.shape.prod = 1) :
    ∃ v', v.T chk = .ok v' ∧ Moved v v' s.reverse reverse := by
  have hbr := ((C43_shape v).1 s).mp hs
  have hne' : v.comps.map Arr.shape ≠ [] := by simpa using hne
  have hr' : ∀ t ∈ v.comps.map Arr.shape, t.length = s.length ∨ t.prod = 1 := by
    intro t ht
    obtain ⟨a, ha, rfl⟩ := mem_map.mp ht
    exact hr a ha
  refine ⟨_, T_eq hb, ⟨?_, fun idx hidx => ?_⟩⟩
  · refine (gathered_shape (v := v) reverse (fun _ => reverse) s.reverse).mpr ?_
    generalize v.comps.map Arr.shape = shapes at hbr hne' hr'
    obtain ⟨t, ht, hl⟩ := exists_full_rank hne' hbr
    have h1 : IsBroadcast (shapes.filter fun x => x.length = s.length) s :=
      isBroadcast_drop_ones hbr (fun x => x.length = s.length) (fun x hx hn => (hr' x hx).resolve_left hn) ht hl hl
        _ (fun x => by simp)
    have h2 := isBroadcast_perm (swap_reverse s.length) (ne_nil_of_mem (mem_filter.mpr ⟨ht, by simpa using hl⟩))
      (fun x hx => by simpa using (mem_filter.mp hx).2) h1
    refine ⟨fun y hy => ?_, fun u hu => h2.2 u fun y hy => ?_⟩
    · obtain ⟨x, hx, rfl⟩ := mem_map.mp hy
      by_cases e : x.length = s.length
      · exact h2.1 _ (mem_map_of_mem (mem_filter.mpr ⟨hx, by simpa using e⟩))
      · exact broadcastsTo_ones (by rw [prod_reverse]; exact (hr' x hx).resolve_left e)
          (by simpa using broadcastsTo_length (hbr.1 x hx))
    · obtain ⟨x, hx, rfl⟩ := mem_map.mp hy
      exact hu _ (mem_map_of_mem (mem_filter.mp hx).1)
  · refine gathered_elems (v := v) reverse (fun _ => reverse) idx idx.reverse fun a ha => ?_
    have hil : idx.length = s.length := by simpa using inB_length hidx
    rcases hr a ha with e | e
    · exact perm_bcSource (swap_reverse s.length) e hil
    · have hle := broadcastsTo_length (hbr.1 _ (mem_map_of_mem ha))
      rw [bcSource_ones (by rw [prod_reverse]; exact e) (by simp; omega), bcSource_ones e (by simp; omega)]
      simp

theorem exists_ne_one {t : List ℕ} (h : t.prod ≠ 1) : ∃ j, ∃ hj : j < t.length, t[j] ≠ 1 := by
  by_contra hno
  push Not at hno
  apply h
  apply prod_eq_one
  intro x hx
  obtain ⟨j, hj, rfl⟩ := mem_iff_getElem.mp hx
  exact hno j hj

/-- an axis of a component that is not 1 is the axis of the broadcast shape -/
theorem axis_eq {t s : List ℕ} (h : BroadcastsTo t s) (j : ℕ) (hj : j < t.length) (hn : t[j] ≠ 1) :
    ∃ hk : j + (s.length - t.length) < s.length, s[j + (s.length - t.length)] = t[j] := by
  have hl := broadcastsTo_length h
  have h1 := (broadcastsTo_suffix (s := t) (u := s) le_rfl).mp h
  rw [broadcastsTo_eqlen (by rw [length_drop]; omega)] at h1
  have hd : j < (s.drop (s.length - t.length)).length := by rw [length_drop]; omega
  have h2 := (forall₂_iff_get.mp h1).2 j hj hd
  simp only [get_eq_getElem, getElem_drop] at h2
  refine ⟨by omega, ?_⟩
  have h3 := h2.resolve_left hn
  rw [h3]
  congr 1
  omega

/-- **C43, `T` exactly.** For component shapes that broadcast to a shape `s` without empty axes: `T` is right
for all elements iff every component has all the axes or a single element. -/
theorem C43_T_iff {α : Type} [Nontrivial α] (shapes : List (List ℕ)) (hne : shapes ≠ []) (s : List ℕ)
    (hs : IsBroadcast shapes s) (hpos : ∀ n ∈ s, 0 < n) :
    (∀ v : BVec α, v.comps.map Arr.shape = shapes →
      ∃ v', v.T noChecks = .ok v' ∧ Moved v v' s.reverse reverse) ↔
    ∀ t ∈ shapes, t.length = s.length ∨ t.prod = 1 := by
  constructor
  · intro h t ht
    by_contra hno
    push Not at hno
    obtain ⟨j, hj, hj1⟩ := exists_ne_one hno.2
    obtain ⟨x, y, hxy⟩ := exists_pair_ne α
    have hbt := hs.1 t ht
    have hle := broadcastsTo_length hbt
    obtain ⟨hk, hk1⟩ := axis_eq hbt j hj hj1
    have hk2 : 2 ≤ s[j + (s.length - t.length)] := by
      have := hpos _ (getElem_mem hk)
      omega
    let v : BVec α := ⟨shapes.map fun t => ⟨t, fun idx => if idx.getD j 0 = 0 then x else y⟩⟩
    obtain ⟨v', h1, h2⟩ := h v (by simp [v, Function.comp_def])
    rw [T_eq (passes_noChecks _)] at h1
    obtain rfl := Except.ok.inj h1
    let idx : List ℕ := (replicate s.length 0).set (j + (s.length - t.length)) 1
    have hidx : InB s idx := by
      rw [InB, forall₂_iff_get]
      refine ⟨by simp [idx], fun i hi hi' => ?_⟩
      simp only [get_eq_getElem, idx, getElem_set, getElem_replicate]
      split
      · rename_i e; subst e; omega
      · exact hpos _ (getElem_mem hi')
    have he := h2.elems idx.reverse (inB_reverse.mpr hidx)
    rw [reverse_reverse] at he
    obtain ⟨i, hi, rfl⟩ := mem_iff_getElem.mp ht
    have he := congrArg (fun l => l[i]?) he
    simp only [elemAt, v, map_map, getElem?_map, getElem?_eq_getElem hi, Option.map_some, Function.comp_apply,
      Option.some.injEq] at he
    have hil : idx.length = s.length := by simp [idx]
    have e1 : (bcSource shapes[i].reverse idx.reverse).reverse.getD j 0 = 0 := by
      have hle' : shapes[i].reverse.length ≤ idx.reverse.length := by simpa [hil] using hle
      unfold bcSource
      rw [reverse_zipWith (by rw [length_drop]; simp only [length_reverse] at hle' ⊢; omega), reverse_reverse]
      rw [getD_eq_getElem?_getD, getElem?_zipWith]
      rw [getElem?_eq_getElem hj]
      rw [reverse_drop, reverse_reverse, getElem?_take]
      simp only [length_reverse]
      have : j < idx.length - (idx.length - shapes[i].length) := by omega
      rw [if_pos this]
      have hji : j < idx.length := by omega
      rw [getElem?_eq_getElem hji]
      simp only [Option.getD_some, if_neg hj1, idx, getElem_set, getElem_replicate]
      rw [if_neg (by omega)]
    have e2 : (bcSource shapes[i] idx).getD j 0 = 1 := by
      unfold bcSource
      rw [getD_eq_getElem?_getD, getElem?_zipWith, getElem?_eq_getElem hj, getElem?_drop, hil,
        Nat.add_comm (s.length - shapes[i].length) j]
      have hki : j + (s.length - shapes[i].length) < idx.length := by omega
      rw [getElem?_eq_getElem hki]
      simp only [Option.getD_some, if_neg hj1, idx, getElem_set, if_true]
    rw [e1, e2] at he
    simp only [if_true, one_ne_zero, if_false] at he
    exact hxy he
  · intro h v hv
    have hbr : v.shape = .ok s := ((C43_shape v).1 s).mpr (by rw [hv]; exact hs)
    refine C43_T noChecks v s (by rintro e; rw [e] at hv; exact hne hv.symm) (passes_noChecks _) hbr fun a ha => ?_
    exact h _ (by rw [← hv]; exact mem_map_of_mem ha)

/-- both sides occur: shapes (2,3), (1,1) satisfy the condition, (2,2), (2,) do not -/
example : (∀ t ∈ [[2, 3], [1, 1], []], t.length = [2, 3].length ∨ t.prod = 1) ∧
    ¬ ∀ t ∈ [[2, 2], [2]], t.length = [2, 2].length ∨ t.prod = 1 := by
  constructor
  · simp
  · simp

/-! ### mT -/

theorem broadcastsTo_append2 (t s : List ℕ) (a b c d : ℕ) :
    BroadcastsTo (t ++ [a, b]) (s ++ [c, d]) ↔ (a = 1 ∨ a = c) ∧ (b = 1 ∨ b = d) ∧ BroadcastsTo t s := by
  simp only [BroadcastsTo, reverse_append, reverse_cons, reverse_nil, nil_append, cons_append, CompatRev]
  tauto

theorem broadcastsTo_swap {t s : List ℕ} (ht : 2 ≤ t.length) :
    BroadcastsTo (swapLast t) (swapLast s) ↔ BroadcastsTo t s := by
  obtain ⟨t', a, b, rfl⟩ := exists_last_two ht
  by_cases hs : 2 ≤ s.length
  · obtain ⟨s', c, d, rfl⟩ := exists_last_two hs
    rw [swapLast_append, swapLast_append, broadcastsTo_append2, broadcastsTo_append2]
    tauto
  · have e : swapLast s = s := by
      match s, hs with
      | [], _ => rfl
      | [_], _ => rfl
      | _ :: _ :: _, h => simp at h
    rw [swapLast_append, e]
    constructor <;> intro h <;> have := broadcastsTo_length h <;> simp at this <;> omega

theorem swapLast_length (l : List ℕ) : (swapLast l).length = l.length := by
  by_cases h : 2 ≤ l.length
  · exact (swap_last h).len l rfl
  · match l, h with
    | [], _ => rfl
    | [_], _ => rfl
    | _ :: _ :: _, h => simp at h

theorem swapLast_swapLast (l : List ℕ) : swapLast (swapLast l) = l := by
  by_cases h : 2 ≤ l.length
  · exact (swap_last h).inv l rfl
  · match l, h with
    | [], _ => rfl
    | [_], _ => rfl
    | _ :: _ :: _, h => simp at h

theorem isBroadcast_swap {shapes : List (List ℕ)} {s : List ℕ} (hr : ∀ t ∈ shapes, 2 ≤ t.length)
    (h : IsBroadcast shapes s) (hne : shapes ≠ []) : IsBroadcast (shapes.map swapLast) (swapLast s) := by
  have hs : 2 ≤ s.length := by
    obtain ⟨t, ht⟩ := exists_mem_of_ne_nil _ hne
    exact (hr t ht).trans (broadcastsTo_length (h.1 t ht))
  refine ⟨fun y hy => ?_, fun u hu => ?_⟩
  · obtain ⟨t, ht, rfl⟩ := mem_map.mp hy
    exact (broadcastsTo_swap (hr t ht)).mpr (h.1 t ht)
  · rw [← swapLast_swapLast u, broadcastsTo_swap hs]
    refine h.2 _ fun t ht => ?_
    rw [← broadcastsTo_swap (hr t ht), swapLast_swapLast]
    exact hu _ (mem_map_of_mem ht)

theorem bcSource_append2 (t i : List ℕ) (a b c d : ℕ) (hl : t.length ≤ i.length) :
    bcSource (t ++ [a, b]) (i ++ [c, d]) =
      bcSource t i ++ [if a = 1 then 0 else c, if b = 1 then 0 else d] := by
  unfold bcSource
  have h1 : (i ++ [c, d]).length - (t ++ [a, b]).length = i.length - t.length := by simp
  rw [h1, drop_append_of_le_length (by omega), zipWith_append (by rw [length_drop]; omega)]
  rfl

theorem swap_bcSource {t i : List ℕ} (ht : 2 ≤ t.length) (hl : t.length ≤ i.length) :
    swapLast (bcSource (swapLast t) i) = bcSource t (swapLast i) := by
  obtain ⟨t', a, b, rfl⟩ := exists_last_two ht
  obtain ⟨i', c, d, rfl⟩ := exists_last_two (ht.trans hl)
  have hl' : t'.length ≤ i'.length := by simpa using hl
  rw [swapLast_append, swapLast_append, bcSource_append2 _ _ _ _ _ _ hl', bcSource_append2 _ _ _ _ _ _ hl',
    swapLast_append]

/-- **C43, `mT` exactly.** `vec.mT` returns iff every component has at least two axes (otherwise it raises); it
then swaps the last two axes of `vec.shape` and moves the elements accordingly, for all component shapes. -/
theorem C43_mT_iff {α : Type} (chk : Checks α) (v : BVec α) (s : List ℕ) (hne : v.comps ≠ [])
    (hb : passesAll chk v.comps) (hs : v.shape = .ok s) :
    ((∀ a ∈ v.comps, 2 ≤ a.shape.length) →
      ∃ v' t i j, v.mT chk = .ok v' ∧ s = t ++ [i, j] ∧ Moved v v' (t ++ [j, i]) swapLast) ∧
    ((∃ a ∈ v.comps, a.shape.length < 2) → v.mT chk = .error .value) := by
  have hbr := ((C43_shape v).1 s).mp hs
  constructor
  · intro hr
    have hr' : ∀ t ∈ v.comps.map Arr.shape, 2 ≤ t.length := by
      intro t ht
      obtain ⟨a, ha, rfl⟩ := mem_map.mp ht
      exact hr a ha
    have hs2 : 2 ≤ s.length := by
      obtain ⟨a, ha⟩ := exists_mem_of_ne_nil _ hne
      exact (hr a ha).trans (broadcastsTo_length (hbr.1 _ (mem_map_of_mem ha)))
    have hm := gathered (chk := chk) planMT_ok hb swapLast (fun _ => swapLast) (fun a ha => by
      simp only [planMT]; rw [if_neg (by have := hr a ha; omega)])
    obtain ⟨t, i, j, rfl⟩ := exists_last_two hs2
    refine ⟨_, t, i, j, hm, rfl, ?_, fun idx hidx => ?_⟩
    · rw [← swapLast_append]
      exact (gathered_shape (v := v) swapLast (fun _ => swapLast) _).mpr
        (isBroadcast_swap hr' hbr (by simpa using hne))
    · refine gathered_elems (v := v) swapLast (fun _ => swapLast) idx (swapLast idx) fun a ha => ?_
      refine swap_bcSource (hr a ha) ?_
      rw [inB_length hidx]
      simpa using broadcastsTo_length (hbr.1 _ (mem_map_of_mem ha))
  · rintro ⟨a, ha, hl⟩
    have : v.comps.mapM (Arr.gather planMT) = .error .value := by
      clear hb hs hbr hne
      generalize v.comps = cs at ha
      induction cs with
      | nil => simp at ha
      | cons b cs ih =>
        rw [mapM_cons]
        by_cases hb2 : b.shape.length < 2
        · have : Arr.gather planMT b = .error .value := by
            simp only [Arr.gather, planMT]; rw [if_pos hb2]; rfl
          rw [this]; rfl
        · have : ∃ c, Arr.gather planMT b = .ok c := by
            simp only [Arr.gather, planMT]; rw [if_neg hb2]; exact ⟨_, rfl⟩
          obtain ⟨c, hc⟩ := this
          rw [hc, ok_bind, ih (by
            rcases mem_cons.mp ha with rfl | h
            · exact absurd hl hb2
            · exact h)]
          rfl
    simp only [BVec.mT, BVec.mapComps, this]; rfl

/-- both cases occur: shapes (4,2,1), (1,3) and shapes (2,3), (3,) -/
example : broadcastShapes [[4, 2, 1], [1, 3]] = .ok [4, 2, 3] ∧ (∀ t ∈ [[4, 2, 1], [1, 3]], 2 ≤ t.length) ∧
    ∃ t ∈ [[2, 3], [3]], t.length < 2 := by
  refine ⟨rfl, by simp, [3], by simp, by simp⟩

/-! ### flatten and ravel -/

theorem compat_prod {t s : List ℕ} (h : Forall₂ (fun a b => a = 1 ∨ a = b) t s) (hs : s.prod ≠ 0) :
    t.prod ≤ s.prod ∧ (t.prod = s.prod → t = s) := by
  induction h with
  | nil => simp
  | @cons a b t s hab _ ih =>
    simp only [prod_cons] at hs ⊢
    obtain ⟨hb, hs⟩ := mul_ne_zero_iff.mp hs
    obtain ⟨h1, h2⟩ := ih hs
    have hab' : a ≤ b := by omega
    refine ⟨Nat.mul_le_mul hab' h1, fun e => ?_⟩
    have ha : a = b := by
      by_contra hne
      have : a < b := by omega
      have : a * t.prod < b * s.prod := by
        calc a * t.prod ≤ a * s.prod := Nat.mul_le_mul_left _ h1
          _ < b * s.prod := Nat.mul_lt_mul_of_pos_right this (Nat.pos_of_ne_zero hs)
      omega
    subst ha
    rw [h2 (Nat.eq_of_mul_eq_mul_left (Nat.pos_of_ne_zero hb) e)]

/-- a component with as many elements as the whole: the shape up to leading axes of length 1 -/
theorem same_size {t s : List ℕ} (h : BroadcastsTo t s) (hs : s.prod ≠ 0) (e : t.prod = s.prod) :
    ∃ l, s = l ++ t ∧ l.prod = 1 := by
  have hl := broadcastsTo_length h
  have h1 := (broadcastsTo_suffix (s := t) (u := s) le_rfl).mp h
  rw [broadcastsTo_eqlen (by rw [length_drop]; omega)] at h1
  have h2 := (take_append_drop (s.length - t.length) s).symm
  generalize s.take (s.length - t.length) = l at h2
  generalize s.drop (s.length - t.length) = d at h1 h2
  subst h2
  rw [prod_append] at hs e
  obtain ⟨hl0, hd0⟩ := mul_ne_zero_iff.mp hs
  obtain ⟨h3, h4⟩ := compat_prod h1 hd0
  have hl1 : l.prod = 1 := by
    by_contra hne
    have : 2 ≤ l.prod := by omega
    have : 2 * d.prod ≤ l.prod * d.prod := Nat.mul_le_mul_right _ this
    omega
  rw [hl1, one_mul] at e
  exact ⟨l, by rw [h4 e], hl1⟩

theorem unravel_ones {l t : List ℕ} (h : l.prod = 1) (k : ℕ) (hk : k < t.prod) :
    unravelIdx (l ++ t) k = replicate l.length 0 ++ unravelIdx t k := by
  induction l with
  | nil => rfl
  | cons a l ih =>
    rw [prod_cons] at h
    obtain ⟨h1, h2⟩ := mul_eq_one.mp h
    simp only [cons_append, unravelIdx, prod_append, h2, one_mul, length_cons, replicate_succ]
    rw [Nat.div_eq_of_lt hk, Nat.mod_eq_of_lt hk, ih h2]

theorem flatten_eq {α : Type} {chk : Checks α} {v : BVec α} (hb : passesAll chk v.comps) :
    v.flatten chk = .ok ⟨v.comps.map fun a => ⟨[a.shape.prod],
      fun idx => a.get (unravelIdx a.shape (ravelIdx [a.shape.prod] idx))⟩⟩ :=
  gathered planFlatten_ok hb (fun t => [t.prod]) (fun t idx => unravelIdx t (ravelIdx [t.prod] idx)) (fun _ _ => rfl)

/-- **C43, `flatten` and `ravel` exactly.** They return. The result has shape `(size,)` iff every component has
`size` elements or one, and then it has the elements of the vector in row-major order. -/
theorem C43_flatten_iff {α : Type} (chk : Checks α) (v : BVec α) (s : List ℕ) (hne : v.comps ≠ [])
    (hb : passesAll chk v.comps) (hs : v.shape = .ok s) :
    ∃ v', v.flatten chk = .ok v' ∧ v.ravel chk = .ok v' ∧
      (v'.shape = .ok [s.prod] ↔ ∀ a ∈ v.comps, a.shape.prod = s.prod ∨ a.shape.prod = 1) ∧
      (v'.shape = .ok [s.prod] → ∀ idx, InB s idx → elemAt v' [ravelIdx s idx] = elemAt v idx) := by
  have hbr := ((C43_shape v).1 s).mp hs
  have hsh := gathered_shape (v := v) (fun t => [t.prod]) (fun t idx => unravelIdx t (ravelIdx [t.prod] idx)) [s.prod]
  have hiff : IsBroadcast ((v.comps.map Arr.shape).map fun t => [t.prod]) [s.prod] ↔
      ∀ a ∈ v.comps, a.shape.prod = s.prod ∨ a.shape.prod = 1 := by
    constructor
    · intro h a ha
      have := h.1 [a.shape.prod] (mem_map.mpr ⟨a.shape, mem_map_of_mem ha, rfl⟩)
      exact (show (a.shape.prod = 1 ∨ a.shape.prod = s.prod) ∧ True from this).1.symm
    · intro h
      refine ⟨fun y hy => ?_, fun u hu => ?_⟩
      · obtain ⟨t, ht, rfl⟩ := mem_map.mp hy
        obtain ⟨a, ha, rfl⟩ := mem_map.mp ht
        exact ⟨(h a ha).symm, trivial⟩
      · by_cases hex : ∃ a ∈ v.comps, a.shape.prod = s.prod
        · obtain ⟨a, ha, e⟩ := hex
          rw [← e]
          exact hu _ (mem_map.mpr ⟨a.shape, mem_map_of_mem ha, rfl⟩)
        · have hall : ∀ a ∈ v.comps, a.shape.prod = 1 := fun a ha => (h a ha).resolve_left fun e => hex ⟨a, ha, e⟩
          -- then the broadcast shape has a single element as well
          have hub : BroadcastsTo s (replicate s.length 1) := hbr.2 _ fun t ht => by
            obtain ⟨a, ha, rfl⟩ := mem_map.mp ht
            exact broadcastsTo_ones (hall a ha) (by simpa using broadcastsTo_length (hbr.1 _ (mem_map_of_mem ha)))
          rw [broadcastsTo_eqlen (by simp)] at hub
          have hs1 := (compat_prod hub (by simp)).1
          simp only [prod_replicate, one_pow] at hs1
          obtain ⟨a, ha⟩ := exists_mem_of_ne_nil _ hne
          have hu1 := hu [a.shape.prod] (mem_map.mpr ⟨a.shape, mem_map_of_mem ha, rfl⟩)
          have hs2 : s.prod = 1 := by
            have : ∀ l m : List ℕ, Forall₂ (fun a b => a = 1 ∨ a = b) l m → m.prod = 1 → l.prod = 1 := by
              intro l m h
              induction h with
              | nil => simp
              | cons hab _ ih =>
                simp only [prod_cons]
                intro h
                obtain ⟨h1, h2⟩ := mul_eq_one.mp h
                rw [ih h2, mul_one]; omega
            exact this _ _ hub (by simp)
          rw [hs2]
          rwa [hall a ha] at hu1
  refine ⟨_, flatten_eq hb, flatten_eq hb, hsh.trans hiff, fun h idx hidx => ?_⟩
  have hc := hiff.mp (hsh.mp h)
  have hk := ravel_lt hidx
  refine gathered_elems (v := v) (fun t => [t.prod]) (fun t idx => unravelIdx t (ravelIdx [t.prod] idx))
    [ravelIdx s idx] idx fun a ha => ?_
  have hbt := hbr.1 _ (mem_map_of_mem ha)
  have hle := broadcastsTo_length hbt
  have hrav : ∀ n m, ravelIdx [n] [m] = m := fun n m => by simp [ravelIdx]
  rcases hc a ha with e | e
  · have hb1 : bcSource [a.shape.prod] [ravelIdx s idx] = [ravelIdx s idx] :=
      bcSource_self (.cons (by rw [e]; exact hk) .nil)
    simp only [hb1, hrav]
    obtain ⟨l, rfl, hl⟩ := same_size hbt (by omega) e
    have hu := unravel_ravel hidx
    rw [unravel_ones hl _ (by rw [e]; exact hk)] at hu
    conv_rhs => rw [← hu]
    unfold bcSource
    have hlu : (unravelIdx a.shape (ravelIdx (l ++ a.shape) idx)).length = a.shape.length :=
      inB_length (unravel_inB (by rw [e]; exact hk))
    have hlen : (replicate l.length 0 ++ unravelIdx a.shape (ravelIdx (l ++ a.shape) idx)).length - a.shape.length =
        (replicate l.length 0).length := by
      rw [length_append, hlu]; simp
    rw [hlen, drop_left]
    have := bcSource_self (unravel_inB (s := a.shape) (k := ravelIdx (l ++ a.shape) idx) (by rw [e]; exact hk))
    unfold bcSource at this
    rw [hlu, Nat.sub_self, drop_zero] at this
    exact this.symm
  · have hb1 : bcSource [a.shape.prod] [ravelIdx s idx] = [0] := by simp [bcSource, e]
    simp only [hb1, hrav]
    exact unravel_zero_of_prod_one e (by rw [inB_length hidx]; exact hle)

/-- both cases occur: shapes (1,2,3), (2,3), (1,), and shapes (3,1), (1,3) -/
example : broadcastShapes [[1, 2, 3], [2, 3], [1]] = .ok [1, 2, 3] ∧
    (∀ t ∈ [[1, 2, 3], [2, 3], [1]], t.prod = [1, 2, 3].prod ∨ t.prod = 1) ∧
    ¬ ∀ t ∈ [[3, 1], [1, 3]], t.prod = [3, 3].prod ∨ t.prod = 1 := by
  refine ⟨rfl, by simp, by simp⟩

/-! ### Spaces -/

/-- one vector of a Space, indexed on its own -/
theorem clsVec_getitem {α : Type} (a : ClsVec α) (s : List ℕ) (hne : a.vec.comps ≠ [])
    (hb : passesAll a.chk a.vec.comps) (hs : a.vec.shape = .ok s) (p : Plan) (hp : PlanOk p) :
    (∀ b, a.getitem p = .ok b → ∃ s' f, p s = .ok (s', f) ∧ b.chk = a.chk ∧ Moved a.vec b.vec s' f) ∧
    ∀ s' f, p s = .ok (s', f) → ∃ b, a.getitem p = .ok b := by
  obtain ⟨h1, h2⟩ := C43_getitem a.chk a.vec s hne hb hs p hp
  constructor
  · intro b h
    cases hps : p s with
    | error e =>
      rw [ClsVec.getitem, h2 e hps] at h
      cases h
    | ok r =>
      obtain ⟨s', f⟩ := r
      obtain ⟨v', h3, h4, _⟩ := h1 s' f hps
      rw [ClsVec.getitem, h3, ok_bind] at h
      obtain rfl := Except.ok.inj h
      exact ⟨s', f, rfl, rfl, h4⟩
  · intro s' f hps
    obtain ⟨v', h3, _⟩ := h1 s' f hps
    exact ⟨⟨a.chk, v'⟩, by rw [ClsVec.getitem, h3, ok_bind]; rfl⟩

/-- **C43 for Spaces, exactly.** `space[index]` indexes every vector on its own, by its own shape: it returns iff
the index is valid for each of these shapes and the resulting shapes broadcast; every vector of the result has the
shape and the elements that the index selects from its own. (So for vectors of one shape it is the index into the
Space, `C43_space_getitem`, and otherwise it need not be.) -/
theorem C43_space_getitem_exact {α : Type} (names : DimNames) (sp : Space (ClsVec α)) (hs : SpaceOk names sp)
    (hv : ∀ kv ∈ sp.data, kv.2.vec.comps ≠ [] ∧ passesAll kv.2.chk kv.2.vec.comps ∧
      ∃ s, kv.2.vec.shape = .ok s) (p : Plan) (hp : PlanOk p) :
    ((∃ sp', sp.getitem names p = .ok sp') ↔
      ∃ shapes t, Forall₂ (fun kv s' => ∃ s f, kv.2.vec.shape = .ok s ∧ p s = .ok (s', f)) sp.data shapes ∧
        broadcastShapes shapes = .ok t) ∧
    ∀ sp', sp.getitem names p = .ok sp' →
      Forall₂ (fun a b => a.1 = b.1 ∧ a.2.chk = b.2.chk ∧
        ∃ s s' f, a.2.vec.shape = .ok s ∧ p s = .ok (s', f) ∧ Moved a.2.vec b.2.vec s' f) sp.data sp'.data := by
  have key : ∀ sp', sp.getitem names p = .ok sp' →
      Forall₂ (fun a b => a.1 = b.1 ∧ a.2.chk = b.2.chk ∧
        ∃ s s' f, a.2.vec.shape = .ok s ∧ p s = .ok (s', f) ∧ Moved a.2.vec b.2.vec s' f) sp.data sp'.data := by
    intro sp' h
    have h1 := ((mapValues_iff hs).mp h).1
    rw [forall₂_iff_get] at h1 ⊢
    refine ⟨h1.1, fun i hi hi' => ?_⟩
    obtain ⟨e1, e2⟩ := h1.2 i hi hi'
    obtain ⟨n, b, s, hsh⟩ := hv _ (get_mem sp.data ⟨i, hi⟩)
    obtain ⟨s', f, hps, hc, hm⟩ := (clsVec_getitem _ s n b hsh p hp).1 _ e2
    exact ⟨e1, hc.symm, s, s', f, hsh, hps, hm⟩
  refine ⟨⟨?_, ?_⟩, key⟩
  · rintro ⟨sp', h⟩
    obtain ⟨_, shapes, t, h1, h2⟩ := (mapValues_iff hs).mp h
    refine ⟨shapes, t, ?_, h2⟩
    have h3 := key sp' h
    have h1 := mapM_res_iff.mp h1
    rw [forall₂_iff_get] at h1 h3 ⊢
    refine ⟨h3.1.trans h1.1, fun i hi hi' => ?_⟩
    have hi2 : i < sp'.data.length := h3.1 ▸ hi
    obtain ⟨_, _, s, s', f, e1, e2, e3⟩ := h3.2 i hi hi2
    have e4 := h1.2 i hi2 hi'
    have e5 : s' = shapes.get ⟨i, hi'⟩ := Except.ok.inj (e3.shape.symm.trans e4)
    exact ⟨s, f, e1, e5 ▸ e2⟩
  · rintro ⟨shapes, t, h1, h2⟩
    have hall : ∀ kv : String × ClsVec α, ∃ b : ClsVec α, kv ∈ sp.data → ∀ s' : List ℕ,
        (∃ s f, kv.2.vec.shape = .ok s ∧ p s = .ok (s', f)) → kv.2.getitem p = .ok b ∧ b.vec.shape = .ok s' := by
      intro kv
      by_cases hm : kv ∈ sp.data
      · obtain ⟨n, hb, s, hsh⟩ := hv kv hm
        cases hps : p s with
        | error e =>
          refine ⟨kv.2, fun _ s' h => ?_⟩
          obtain ⟨s0, f, e1, e2⟩ := h
          rw [hsh] at e1
          obtain rfl := Except.ok.inj e1
          rw [hps] at e2; cases e2
        | ok r =>
          obtain ⟨s', f⟩ := r
          obtain ⟨b, hbk⟩ := (clsVec_getitem kv.2 s n hb hsh p hp).2 s' f hps
          obtain ⟨s1, f1, e3, _, e4⟩ := (clsVec_getitem kv.2 s n hb hsh p hp).1 b hbk
          refine ⟨b, fun _ s2 h => ⟨hbk, ?_⟩⟩
          obtain ⟨s0, f0, e1, e2⟩ := h
          rw [hsh] at e1
          obtain rfl := Except.ok.inj e1
          rw [e2] at e3
          rw [e4.shape, (Prod.mk.inj (Except.ok.inj e3)).1]
      · exact ⟨kv.2, fun h => absurd h hm⟩
    choose g hg using hall
    refine ⟨⟨sp.data.map fun kv => (kv.1, g kv)⟩, (mapValues_iff hs).mpr ⟨?_, shapes, t, ?_, h2⟩⟩
    · rw [forall₂_map_right_iff, forall₂_same]
      intro kv hm
      obtain ⟨i, hi, e⟩ := mem_iff_getElem.mp hm
      have := (forall₂_iff_get.mp h1).2 i hi ((forall₂_iff_get.mp h1).1 ▸ hi)
      simp only [get_eq_getElem, e] at this
      exact ⟨rfl, (hg kv hm _ this).1⟩
    · rw [mapM_res_iff, forall₂_map_left_iff]
      rw [forall₂_iff_get] at h1 ⊢
      refine ⟨h1.1, fun i hi hi' => ?_⟩
      exact (hg _ (get_mem sp.data ⟨i, hi⟩) _ (h1.2 i hi hi')).2

end Verif
