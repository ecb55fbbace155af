import Verif.Shape
import Verif.RealLemmas
import Verif.Forms
import Mathlib.Tactic.Linarith
import Mathlib.Tactic.Ring

/-!
# Array-shape operations: C43

Scope: vectors with any number of components of any shapes, element values of any type; N-dimensional
Cartesian vectors of any batch rank.
-/

namespace Verif

open List

/-! ### Specification -/

namespace Spec

/-- numpy's rule on reversed shapes: axis by axis from the last, a source axis is 1 or equal -/
def CompatRev : List ℕ → List ℕ → Prop
  | [], _ => True
  | _ :: _, [] => False
  | a :: s, b :: t => (a = 1 ∨ a = b) ∧ CompatRev s t

/-- an array of shape `s` can be broadcast to shape `t` -/
def BroadcastsTo (s t : List ℕ) : Prop := CompatRev s.reverse t.reverse

/-- `t` is the broadcast shape of `shapes`: all of them broadcast to it, and it is the least such -/
def IsBroadcast (shapes : List (List ℕ)) (t : List ℕ) : Prop :=
  (∀ s ∈ shapes, BroadcastsTo s t) ∧ ∀ u, (∀ s ∈ shapes, BroadcastsTo s u) → BroadcastsTo t u

/-- which element of an array of shape `sh` stands at batch index `idx`: align at the last axis, and
stay at 0 along axes of length 1 -/
def bcSource (sh idx : List ℕ) : List ℕ :=
  zipWith (fun n i => if n = 1 then 0 else i) sh (idx.drop (idx.length - sh.length))

/-- the components of the vector at a batch index -/
def elemAt {α : Type} (v : BVec α) (idx : List ℕ) : List α :=
  v.comps.map fun a => a.get (bcSource a.shape idx)

/-- an indexing operation never reads out of bounds -/
def PlanOk (p : Plan) : Prop := ∀ s s' f, p s = .ok (s', f) → ∀ idx, InB s' idx → InB s (f idx)

/-- `v'` has shape `s'`, and its element at `idx` is the element of `v` at `f idx` -/
structure Moved {α : Type} (v v' : BVec α) (s' : List ℕ) (f : List ℕ → List ℕ) : Prop where
  shape : v'.shape = .ok s'
  elems : ∀ idx, InB s' idx → elemAt v' idx = elemAt v (f idx)

end Spec

open Spec

/-! ### broadcasting -/

theorem compatRev_refl (s : List ℕ) : CompatRev s s := by
  induction s with
  | nil => trivial
  | cons a s ih => exact ⟨.inr rfl, ih⟩

theorem compatRev_trans {s t u : List ℕ} (h : CompatRev s t) (k : CompatRev t u) : CompatRev s u := by
  induction s generalizing t u with
  | nil => trivial
  | cons a s ih =>
    cases t with
    | nil => exact absurd h id
    | cons b t =>
      cases u with
      | nil => exact absurd k id
      | cons c u =>
        refine ⟨?_, ih h.2 k.2⟩
        rcases h.1 with h1 | h1
        · exact .inl h1
        · rcases k.1 with k1 | k1
          · exact .inl (h1.trans k1)
          · exact .inr (h1.trans k1)

theorem compatRev_antisymm {s t : List ℕ} (h : CompatRev s t) (k : CompatRev t s) : s = t := by
  induction s generalizing t with
  | nil => cases t with
    | nil => rfl
    | cons => exact absurd k id
  | cons a s ih =>
    cases t with
    | nil => exact absurd h id
    | cons b t =>
      rw [ih h.2 k.2]
      congr 1
      rcases h.1 with h1 | h1
      · rcases k.1 with k1 | k1
        · omega
        · exact k1.symm
      · exact h1

theorem compatRev_length {s t : List ℕ} (h : CompatRev s t) : s.length ≤ t.length := by
  induction s generalizing t with
  | nil => simp
  | cons a s ih =>
    cases t with
    | nil => exact absurd h id
    | cons b t => simpa using ih h.2

theorem bcAxis_ok {a b c : ℕ} (h : bcAxis a b = .ok c) : (a = 1 ∨ a = c) ∧ (b = 1 ∨ b = c) ∧
    ∀ d, (a = 1 ∨ a = d) → (b = 1 ∨ b = d) → (c = 1 ∨ c = d) := by
  unfold bcAxis at h
  split at h
  · have := Except.ok.inj h
    refine ⟨by omega, by omega, fun d _ _ => by omega⟩
  · split at h
    · have := Except.ok.inj h
      refine ⟨by omega, by omega, fun d _ _ => by omega⟩
    · split at h
      · have := Except.ok.inj h
        refine ⟨by omega, by omega, fun d _ _ => by omega⟩
      · cases h

theorem bcRev_ok {s t u : List ℕ} (h : bcRev s t = .ok u) :
    CompatRev s u ∧ CompatRev t u ∧ ∀ w, CompatRev s w → CompatRev t w → CompatRev u w := by
  induction s generalizing t u with
  | nil =>
    simp only [bcRev] at h
    obtain rfl := Except.ok.inj h
    exact ⟨trivial, compatRev_refl _, fun w _ h => h⟩
  | cons a s ih =>
    cases t with
    | nil =>
      simp only [bcRev] at h
      obtain rfl := Except.ok.inj h
      exact ⟨compatRev_refl _, trivial, fun w h _ => h⟩
    | cons b t =>
      simp only [bcRev] at h
      obtain ⟨c, h1, h⟩ := (bind_ok_iff _ _ _).mp h
      obtain ⟨u', h2, h⟩ := (bind_ok_iff _ _ _).mp h
      obtain rfl := Except.ok.inj h
      obtain ⟨k1, k2, k3⟩ := ih h2
      have hc := bcAxis_ok h1
      refine ⟨⟨hc.1, k1⟩, ⟨hc.2.1, k2⟩, fun w hw1 hw2 => ?_⟩
      cases w with
      | nil => exact absurd hw1 id
      | cons d w => exact ⟨hc.2.2 d hw1.1 hw2.1, k3 w hw1.2 hw2.2⟩

theorem bcRev_total {s t w : List ℕ} (h : CompatRev s w) (k : CompatRev t w) : ∃ u, bcRev s t = .ok u := by
  induction s generalizing t w with
  | nil => exact ⟨t, by simp only [bcRev]⟩
  | cons a s ih =>
    cases t with
    | nil => exact ⟨a :: s, by simp only [bcRev]⟩
    | cons b t =>
      cases w with
      | nil => exact absurd h id
      | cons d w =>
        obtain ⟨u, hu⟩ := ih h.2 k.2
        have : ∃ c, bcAxis a b = .ok c := by
          unfold bcAxis
          split
          · exact ⟨_, rfl⟩
          · split
            · exact ⟨_, rfl⟩
            · split
              · exact ⟨_, rfl⟩
              · rename_i h1 h2 h3
                rcases h.1 with e | e <;> rcases k.1 with e' | e' <;> omega
        obtain ⟨c, hc⟩ := this
        exact ⟨c :: u, by simp only [bcRev, hc, hu, ok_bind]; rfl⟩

theorem broadcastsTo_refl (s : List ℕ) : BroadcastsTo s s := compatRev_refl _
theorem broadcastsTo_nil (s : List ℕ) : BroadcastsTo [] s := trivial
theorem broadcastsTo_trans {s t u : List ℕ} (h : BroadcastsTo s t) (k : BroadcastsTo t u) :
    BroadcastsTo s u := compatRev_trans h k
theorem broadcastsTo_antisymm {s t : List ℕ} (h : BroadcastsTo s t) (k : BroadcastsTo t s) : s = t :=
  reverse_injective (compatRev_antisymm h k)
theorem broadcastsTo_length {s t : List ℕ} (h : BroadcastsTo s t) : s.length ≤ t.length := by
  simpa using compatRev_length h

theorem bc2_ok {s t u : List ℕ} (h : bc2 s t = .ok u) :
    BroadcastsTo s u ∧ BroadcastsTo t u ∧ ∀ w, BroadcastsTo s w → BroadcastsTo t w → BroadcastsTo u w := by
  unfold bc2 at h
  obtain ⟨r, h1, h⟩ := (bind_ok_iff _ _ _).mp h
  obtain rfl := Except.ok.inj h
  obtain ⟨k1, k2, k3⟩ := bcRev_ok h1
  exact ⟨by simpa [BroadcastsTo] using k1, by simpa [BroadcastsTo] using k2,
    fun w h h' => by simpa [BroadcastsTo] using k3 _ h h'⟩

theorem broadcastShapes_isBroadcast {shapes : List (List ℕ)} {t : List ℕ}
    (h : broadcastShapes shapes = .ok t) : IsBroadcast shapes t := by
  induction shapes generalizing t with
  | nil =>
    simp only [broadcastShapes] at h
    obtain rfl := Except.ok.inj h
    exact ⟨by simp, fun u _ => broadcastsTo_nil u⟩
  | cons s rest ih =>
    simp only [broadcastShapes] at h
    obtain ⟨t', h1, h⟩ := (bind_ok_iff _ _ _).mp h
    obtain ⟨k1, k2, k3⟩ := bc2_ok h
    obtain ⟨l1, l2⟩ := ih h1
    refine ⟨fun a ha => ?_, fun u hu => ?_⟩
    · rcases mem_cons.mp ha with rfl | ha
      · exact k1
      · exact broadcastsTo_trans (l1 a ha) k2
    · exact k3 u (hu s (by simp)) (l2 u fun a ha => hu a (by simp [ha]))

theorem broadcastShapes_total {shapes : List (List ℕ)} {w : List ℕ}
    (h : ∀ s ∈ shapes, BroadcastsTo s w) : ∃ t, broadcastShapes shapes = .ok t := by
  induction shapes with
  | nil => exact ⟨[], rfl⟩
  | cons s rest ih =>
    obtain ⟨t, ht⟩ := ih (fun a ha => h a (by simp [ha]))
    have hl := (broadcastShapes_isBroadcast ht).2 w (fun a ha => h a (by simp [ha]))
    obtain ⟨u, hu⟩ := bcRev_total (h s (by simp)) hl
    exact ⟨u.reverse, by simp only [broadcastShapes, ht, ok_bind, bc2, hu]; rfl⟩

theorem broadcastShapes_iff (shapes : List (List ℕ)) (t : List ℕ) :
    broadcastShapes shapes = .ok t ↔ IsBroadcast shapes t := by
  refine ⟨broadcastShapes_isBroadcast, fun h => ?_⟩
  obtain ⟨t', ht⟩ := broadcastShapes_total h.1
  have k := broadcastShapes_isBroadcast ht
  rw [ht, broadcastsTo_antisymm (k.2 t h.1) (h.2 t' k.1)]

/-- **C43.** `vec.shape` is the broadcast of the component shapes by numpy's rule: the least shape to
which every component shape broadcasts; it raises exactly when there is none. `ndim`, `size`, `len` are
those of that shape. -/
theorem C43_shape {α : Type} (v : BVec α) :
    (∀ t, v.shape = .ok t ↔ IsBroadcast (v.comps.map Arr.shape) t) ∧
    ((∃ t, v.shape = .ok t) ↔ ∃ w, ∀ a ∈ v.comps, BroadcastsTo a.shape w) ∧
    ∀ t, v.shape = .ok t → v.ndim = .ok t.length ∧ v.size = .ok t.prod ∧
      v.len = .ok (if t = [] then 0 else t.headD 0) := by
  refine ⟨fun t => broadcastShapes_iff _ t, ⟨?_, ?_⟩, ?_⟩
  · rintro ⟨t, ht⟩
    exact ⟨t, fun a ha => ((broadcastShapes_iff _ t).mp ht).1 _ (mem_map_of_mem ha)⟩
  · rintro ⟨w, hw⟩
    refine broadcastShapes_total (w := w) fun s hs => ?_
    obtain ⟨a, ha, rfl⟩ := mem_map.mp hs
    exact hw a ha
  · intro t ht
    simp only [BVec.ndim, BVec.size, BVec.len, ht, ok_bind]
    refine ⟨rfl, rfl, ?_⟩
    cases t <;> rfl

/-- (4,1,3) and (2,1) and a scalar broadcast to (4,2,3) -/
example : (⟨[⟨[4, 1, 3], fun _ => 0⟩, ⟨[2, 1], fun _ => 0⟩, ⟨[], fun _ => 0⟩]⟩ : BVec ℕ).shape =
    .ok [4, 2, 3] := rfl

/-! ### elements of broadcast arrays -/

theorem bcIdxRev_eq (s idx : List ℕ) :
    bcIdxRev s idx = zipWith (fun n i => if n = 1 then 0 else i) s idx := by
  induction s generalizing idx with
  | nil => cases idx <;> rfl
  | cons a s ih =>
    cases idx with
    | nil => rfl
    | cons i idx => simp only [bcIdxRev, zipWith_cons_cons, ih]

theorem zipWith_take_right {α β γ : Type} (f : α → β → γ) (l : List α) (m : List β) :
    zipWith f l (m.take l.length) = zipWith f l m := by
  induction l generalizing m with
  | nil => simp
  | cons a l ih => cases m <;> simp [ih]

theorem bcIdx_eq {sh idx : List ℕ} (h : sh.length ≤ idx.length) :
    (bcIdxRev sh.reverse idx.reverse).reverse = bcSource sh idx := by
  rw [bcIdxRev_eq, ← zipWith_take_right, length_reverse, take_reverse, bcSource]
  rw [← reverse_zipWith (by simp; omega), reverse_reverse]

theorem inB_length {s idx : List ℕ} (h : InB s idx) : idx.length = s.length := h.length_eq

theorem inB_reverse {s idx : List ℕ} : InB s.reverse idx.reverse ↔ InB s idx := by
  unfold InB; exact forall₂_reverse_iff

theorem inB_source_rev {s t idx : List ℕ} (h : CompatRev s t) (hi : InB t idx) :
    InB s (zipWith (fun n i => if n = 1 then 0 else i) s idx) := by
  induction s generalizing t idx with
  | nil => exact .nil
  | cons a s ih =>
    cases t with
    | nil => exact absurd h id
    | cons b t =>
      cases hi with
      | cons h1 hi =>
        refine .cons ?_ (ih h.2 hi)
        simp only []
        split
        · omega
        · rcases h.1 with e | e
          · omega
          · rw [e]; exact h1

theorem inB_source {s t idx : List ℕ} (h : BroadcastsTo s t) (hi : InB t idx) : InB s (bcSource s idx) := by
  have hl : s.length ≤ idx.length := by rw [inB_length hi]; exact broadcastsTo_length h
  rw [← bcIdx_eq hl, ← inB_reverse, reverse_reverse, bcIdxRev_eq]
  exact inB_source_rev h (inB_reverse.mpr hi)

theorem bcSource_self {s idx : List ℕ} (h : InB s idx) : bcSource s idx = idx := by
  unfold bcSource
  rw [inB_length h, Nat.sub_self, drop_zero]
  induction h with
  | nil => rfl
  | @cons i n is s h1 h ih =>
    simp only [zipWith_cons_cons, ih]
    congr 1
    split
    · omega
    · rfl

theorem mkB_ok {α : Type} {chk : Checks α} {cs : List (Arr α)} (h : passesAll chk cs) :
    mkB chk cs = .ok ⟨cs⟩ := by unfold mkB; rw [if_pos h]

theorem broadcastTo_get {α : Type} {a : Arr α} {s idx : List ℕ} (h : BroadcastsTo a.shape s)
    (hi : InB s idx) : (a.broadcastTo s).get idx = a.get (bcSource a.shape idx) := by
  simp only [Arr.broadcastTo]
  rw [bcIdx_eq]
  rw [inB_length hi]; exact broadcastsTo_length h

theorem fullShaped_ok {α : Type} {chk : Checks α} {v : BVec α} {s : List ℕ} (hb : passesAll chk v.comps)
    (hs : v.shape = .ok s) : fullShaped chk v = .ok ⟨v.comps.map fun a => a.broadcastTo s⟩ := by
  unfold fullShaped
  rw [hs, ok_bind]
  apply mkB_ok
  intro i hi idx hidx
  simp only [getElem_map] at hidx ⊢
  have hi' : i < v.comps.length := by simpa using hi
  have hbc : BroadcastsTo v.comps[i].shape s :=
    ((C43_shape v).1 s |>.mp hs).1 _ (mem_map_of_mem (getElem_mem hi'))
  rw [broadcastTo_get hbc hidx]
  exact hb i hi' _ (inB_source hbc hidx)

theorem mapM_gather {α : Type} {p : Plan} {cs : List (Arr α)}
    (h : ∀ a ∈ cs, ∃ r, p a.shape = .ok r) :
    ∃ cs', cs.mapM (Arr.gather p) = .ok cs' ∧
      Forall₂ (fun a b => ∃ r, p a.shape = .ok r ∧ b = ⟨r.1, fun idx => a.get (r.2 idx)⟩) cs cs' := by
  induction cs with
  | nil => exact ⟨[], rfl, .nil⟩
  | cons a cs ih =>
    obtain ⟨r, hr⟩ := h a (by simp)
    obtain ⟨cs', h1, h2⟩ := ih (fun b hb => h b (by simp [hb]))
    refine ⟨⟨r.1, fun idx => a.get (r.2 idx)⟩ :: cs', ?_, .cons ⟨r, hr, rfl⟩ h2⟩
    rw [mapM_cons, h1]
    simp only [Arr.gather, hr, ok_bind]
    rfl

theorem mapComps_ok {α : Type} {chk : Checks α} {p : Plan} (hp : PlanOk p) {v : BVec α}
    (hb : passesAll chk v.comps) (h : ∀ a ∈ v.comps, ∃ r, p a.shape = .ok r) :
    ∃ v', v.mapComps chk p = .ok v' ∧
      Forall₂ (fun a b => ∃ r, p a.shape = .ok r ∧ b = ⟨r.1, fun idx => a.get (r.2 idx)⟩) v.comps v'.comps := by
  obtain ⟨cs', h1, h2⟩ := mapM_gather h
  refine ⟨⟨cs'⟩, ?_, h2⟩
  unfold BVec.mapComps
  rw [h1, ok_bind]
  apply mkB_ok
  intro i hi idx hidx
  have hi' : i < v.comps.length := h2.length_eq ▸ hi
  obtain ⟨r, hr, e⟩ := (forall₂_iff_get.mp h2).2 i hi' hi
  simp only [get_eq_getElem] at hr e
  rw [e] at hidx ⊢
  exact hb i hi' _ (hp _ _ _ hr _ hidx)

theorem broadcast_const {l : List (List ℕ)} {s : List ℕ} (hne : l ≠ []) (h : ∀ t ∈ l, t = s) :
    broadcastShapes l = .ok s := by
  rw [broadcastShapes_iff]
  refine ⟨fun t ht => by rw [h t ht]; exact broadcastsTo_refl s, fun u hu => ?_⟩
  obtain ⟨t, ht⟩ := exists_mem_of_ne_nil l hne
  have := hu t ht
  rwa [h t ht] at this

/-- broadcasting first and then applying any plan componentwise moves the elements of the vector -/
theorem full_moved {α : Type} {chk : Checks α} {v : BVec α} {s : List ℕ} (hne : v.comps ≠ [])
    (hb : passesAll chk v.comps) (hs : v.shape = .ok s) {p : Plan} (hp : PlanOk p) {s' f}
    (h : p s = .ok (s', f)) : ∃ v', v.getitem chk p = .ok v' ∧ Moved v v' s' f ∧
      (∀ c ∈ v'.comps, c.shape = s') ∧ passesAll chk v'.comps := by
  unfold BVec.getitem
  rw [fullShaped_ok hb hs, ok_bind]
  have hfull : passesAll chk (v.comps.map fun a => a.broadcastTo s) := by
    have := fullShaped_ok hb hs
    unfold fullShaped at this
    rw [hs, ok_bind] at this
    unfold mkB at this
    split at this
    · assumption
    · cases this
  obtain ⟨v', h1, h2⟩ := mapComps_ok (v := ⟨v.comps.map fun a => a.broadcastTo s⟩) hp hfull (by
    intro a ha
    obtain ⟨a', _, rfl⟩ := mem_map.mp ha
    exact ⟨(s', f), h⟩)
  rw [forall₂_map_left_iff] at h2
  have hsh : ∀ c ∈ v'.comps, c.shape = s' := by
    intro c hc
    obtain ⟨i, hi, rfl⟩ := mem_iff_getElem.mp hc
    have hi' : i < v.comps.length := h2.length_eq ▸ hi
    obtain ⟨r, hr, e⟩ := (forall₂_iff_get.mp h2).2 i hi' hi
    have hr : p s = .ok r := hr
    rw [h] at hr
    obtain rfl := Except.ok.inj hr
    simp only [get_eq_getElem] at e
    rw [e]
  refine ⟨v', h1, ⟨?_, fun idx hidx => ?_⟩, hsh, ?_⟩
  · apply broadcast_const
    · intro e
      have : v'.comps = [] := by simpa using e
      exact hne (by rw [← length_eq_zero_iff, h2.length_eq, this]; rfl)
    · intro t ht
      obtain ⟨c, hc, rfl⟩ := mem_map.mp ht
      exact hsh c hc
  · unfold elemAt
    apply ext_getElem
    · simp [h2.length_eq]
    · intro i hi hj
      simp only [getElem_map]
      have hi1 : i < v'.comps.length := by simpa using hi
      have hi' : i < v.comps.length := by simpa using hj
      obtain ⟨r, hr, e⟩ := (forall₂_iff_get.mp h2).2 i hi' hi1
      have hr : p s = .ok r := hr
      rw [h] at hr
      obtain rfl := Except.ok.inj hr
      simp only [get_eq_getElem] at e
      have hbc : BroadcastsTo v.comps[i].shape s :=
        ((C43_shape v).1 s |>.mp hs).1 _ (mem_map_of_mem (getElem_mem hi'))
      rw [hsh _ (getElem_mem hi1), bcSource_self hidx, e]
      exact broadcastTo_get hbc (hp _ _ _ h _ hidx)
  · unfold BVec.mapComps at h1
    obtain ⟨cs', h3, h1⟩ := (bind_ok_iff _ _ _).mp h1
    unfold mkB at h1
    split at h1
    · obtain rfl := Except.ok.inj h1; assumption
    · cases h1

/-- **C43.** Indexing with any index: `vec[index]` succeeds when the index is valid for `vec.shape`, its
shape is that of indexing an array of shape `vec.shape`, all its components have that shape, and its
elements are the selected elements of `vec`; an index that is invalid for `vec.shape` raises. For all
component shapes. -/
theorem C43_getitem {α : Type} (chk : Checks α) (v : BVec α) (s : List ℕ) (hne : v.comps ≠ [])
    (hb : passesAll chk v.comps) (hs : v.shape = .ok s) (p : Plan) (hp : PlanOk p) :
    (∀ s' f, p s = .ok (s', f) → ∃ v', v.getitem chk p = .ok v' ∧ Moved v v' s' f ∧
      ∀ c ∈ v'.comps, c.shape = s') ∧
    ∀ e, p s = .error e → v.getitem chk p = .error e := by
  refine ⟨fun s' f h => ?_, fun e h => ?_⟩
  · obtain ⟨v', h1, h2, h3, _⟩ := full_moved hne hb hs hp h
    exact ⟨v', h1, h2, h3⟩
  · unfold BVec.getitem
    rw [fullShaped_ok hb hs, ok_bind]
    unfold BVec.mapComps
    obtain ⟨a, rest, e'⟩ := exists_cons_of_ne_nil hne
    simp only [e', map_cons, mapM_cons, Arr.gather]
    have : (a.broadcastTo s).shape = s := rfl
    rw [this, h]; rfl

/-! ### row-major order -/

theorem ravel_lt {s idx : List ℕ} (h : InB s idx) : ravelIdx s idx < s.prod := by
  induction h with
  | nil => simp [ravelIdx]
  | @cons i n is s h1 h ih =>
    simp only [ravelIdx, prod_cons]
    calc i * s.prod + ravelIdx s is < i * s.prod + s.prod := by omega
      _ = (i + 1) * s.prod := by ring
      _ ≤ n * s.prod := Nat.mul_le_mul_right _ h1

theorem unravel_inB {s : List ℕ} {k : ℕ} (h : k < s.prod) : InB s (unravelIdx s k) := by
  induction s generalizing k with
  | nil => exact .nil
  | cons n s ih =>
    simp only [prod_cons] at h
    have hp : 0 < s.prod := by
      rcases Nat.eq_zero_or_pos s.prod with e | e
      · rw [e] at h; omega
      · exact e
    refine .cons ?_ (ih (Nat.mod_lt _ hp))
    exact Nat.div_lt_of_lt_mul (by rw [Nat.mul_comm]; exact h)

theorem ravel_unravel {s : List ℕ} {k : ℕ} (h : k < s.prod) : ravelIdx s (unravelIdx s k) = k := by
  induction s generalizing k with
  | nil => simp at h; simp [ravelIdx, h]
  | cons n s ih =>
    simp only [prod_cons] at h
    have hp : 0 < s.prod := by
      rcases Nat.eq_zero_or_pos s.prod with e | e
      · rw [e] at h; omega
      · exact e
    simp only [unravelIdx, ravelIdx, ih (Nat.mod_lt _ hp)]
    rw [Nat.mul_comm]; exact Nat.div_add_mod k s.prod

theorem unravel_ravel {s idx : List ℕ} (h : InB s idx) : unravelIdx s (ravelIdx s idx) = idx := by
  induction h with
  | nil => rfl
  | @cons i n is s h1 h ih =>
    have hlt := ravel_lt h
    have hp : 0 < s.prod := by omega
    simp only [ravelIdx, unravelIdx]
    rw [show (i * s.prod + ravelIdx s is) / s.prod = i by
      rw [Nat.mul_comm, Nat.mul_add_div hp, Nat.div_eq_of_lt hlt, Nat.add_zero],
      show (i * s.prod + ravelIdx s is) % s.prod = ravelIdx s is by
      rw [Nat.mul_comm, Nat.mul_add_mod, Nat.mod_eq_of_lt hlt], ih]

theorem resolve_prod {t : List (Option ℕ)} {n : ℕ} {t' : List ℕ} (h : resolveShape t n = .ok t') :
    t'.prod = n ∧ Forall₂ (fun o k => o = none ∨ o = some k) t t' := by
  unfold resolveShape at h
  simp only at h
  have all : ∀ t : List (Option ℕ), t.countP Option.isNone = 0 →
      Forall₂ (fun o k => o = none ∨ o = some k) t (t.filterMap id) := by
    intro t ht
    induction t with
    | nil => exact .nil
    | cons o t ih =>
      cases o with
      | none => simp at ht
      | some k =>
        simp only [countP_cons, Option.isNone_some] at ht
        simp only [filterMap_cons, id]
        exact .cons (.inr rfl) (ih (by simpa using ht))
  have one : ∀ (t : List (Option ℕ)) (d : ℕ), t.countP Option.isNone = 1 →
      (t.map fun o => o.getD d).prod = (t.filterMap id).prod * d := by
    intro t d ht
    induction t with
    | nil => simp at ht
    | cons o t ih =>
      cases o with
      | none =>
        simp only [countP_cons, Option.isNone_none, if_true] at ht
        have h0 : t.countP Option.isNone = 0 := by omega
        have : t.map (fun o => o.getD d) = t.filterMap id := by
          clear ih ht
          induction t with
          | nil => rfl
          | cons o t ih =>
            cases o with
            | none => simp at h0
            | some k =>
              simp only [countP_cons, Option.isNone_some] at h0
              simp only [map_cons, Option.getD_some, filterMap_cons, id]
              rw [ih (by simpa using h0)]; rfl
        simp only [map_cons, Option.getD_none, prod_cons, this, filterMap_cons, id]
        ring
      | some k =>
        simp only [countP_cons, Option.isNone_some] at ht
        rw [map_cons, prod_cons, ih (by simpa using ht)]
        simp [mul_assoc]
  split at h
  · rename_i h0
    split at h
    · obtain rfl := Except.ok.inj h
      exact ⟨by assumption, all t h0⟩
    · cases h
  · rename_i h1
    split at h
    · cases h
    · split at h
      · rename_i hk hm
        obtain rfl := Except.ok.inj h
        refine ⟨?_, ?_⟩
        · rw [one t _ h1]
          exact Nat.mul_div_cancel' (Nat.dvd_of_mod_eq_zero hm)
        · clear one all h1
          generalize n / (t.filterMap id).prod = d
          clear h hk hm
          induction t with
          | nil => exact .nil
          | cons o t ih =>
            refine .cons ?_ ih
            cases o
            · exact .inl rfl
            · exact .inr rfl
      · cases h
  · cases h

theorem planReshape_ok (t : List (Option ℕ)) : PlanOk (planReshape t) := by
  intro s s' f h idx hidx
  unfold planReshape at h
  obtain ⟨t', h1, h⟩ := (bind_ok_iff _ _ _).mp h
  have h := Except.ok.inj h
  obtain ⟨e1, e2⟩ := Prod.mk.inj h
  subst e1 e2
  apply unravel_inB
  rw [← (resolve_prod h1).1]
  exact ravel_lt hidx

theorem planFlatten_ok : PlanOk planFlatten := by
  intro s s' f h idx hidx
  have h := Except.ok.inj h
  obtain ⟨e1, e2⟩ := Prod.mk.inj h
  subst e1 e2
  apply unravel_inB
  have := ravel_lt hidx
  simpa using this

/-- **C43.** `reshape`, for all component shapes and every new shape (with at most one inferred axis):
when the sizes match, the result has the new shape and keeps the row-major order of the elements;
otherwise it raises. -/
theorem C43_reshape {α : Type} (chk : Checks α) (v : BVec α) (s : List ℕ) (hne : v.comps ≠ [])
    (hb : passesAll chk v.comps) (hs : v.shape = .ok s) (t : List (Option ℕ)) :
    (∀ t', resolveShape t s.prod = .ok t' → t'.prod = s.prod ∧
      Forall₂ (fun o k => o = none ∨ o = some k) t t' ∧
      ∃ v', v.reshape chk t = .ok v' ∧ v'.shape = .ok t' ∧ (∀ c ∈ v'.comps, c.shape = t') ∧
        ∀ i j, InB t' i → InB s j → ravelIdx t' i = ravelIdx s j → elemAt v' i = elemAt v j) ∧
    ∀ e, resolveShape t s.prod = .error e → v.reshape chk t = .error e := by
  have hdef : v.reshape chk t = v.getitem chk (planReshape t) := rfl
  obtain ⟨k1, k2⟩ := C43_getitem chk v s hne hb hs (planReshape t) (planReshape_ok t)
  refine ⟨fun t' h => ⟨(resolve_prod h).1, (resolve_prod h).2, ?_⟩, fun e h => ?_⟩
  · obtain ⟨v', h1, h2, h3⟩ := k1 t' (fun idx => unravelIdx s (ravelIdx t' idx))
      (by simp only [planReshape, h, ok_bind]; rfl)
    refine ⟨v', by rw [hdef]; exact h1, h2.shape, h3, fun i j hi hj hij => ?_⟩
    rw [h2.elems i hi, hij, unravel_ravel hj]
  · rw [hdef]
    exact k2 e (by simp only [planReshape, h]; rfl)

/-- mixed shapes (2,1) and (3,): `reshape(3, -1)` gives shape (3,2) -/
example : resolveShape [some 3, none] [2, 3].prod = .ok [3, 2] := rfl

/-! ### transposes -/

/-- a rearrangement of axes of rank `r` that is its own inverse -/
structure AxisSwap (r : ℕ) (perm : List ℕ → List ℕ) : Prop where
  len : ∀ l, l.length = r → (perm l).length = r
  inv : ∀ l, l.length = r → perm (perm l) = l
  rel : ∀ (R : ℕ → ℕ → Prop) l m, l.length = r → Forall₂ R l m → Forall₂ R (perm l) (perm m)
  zip : ∀ (g : ℕ → ℕ → ℕ) l m, l.length = r → m.length = r →
    perm (zipWith g l m) = zipWith g (perm l) (perm m)

theorem compatRev_eqlen {s t : List ℕ} (h : s.length = t.length) :
    CompatRev s t ↔ Forall₂ (fun a b => a = 1 ∨ a = b) s t := by
  induction s generalizing t with
  | nil => cases t with
    | nil => exact ⟨fun _ => .nil, fun _ => trivial⟩
    | cons => simp at h
  | cons a s ih =>
    cases t with
    | nil => simp at h
    | cons b t =>
      simp only [length_cons, Nat.add_right_cancel_iff] at h
      simp only [CompatRev, ih h, forall₂_cons]

theorem broadcastsTo_eqlen {s t : List ℕ} (h : s.length = t.length) :
    BroadcastsTo s t ↔ Forall₂ (fun a b => a = 1 ∨ a = b) s t := by
  unfold BroadcastsTo
  rw [compatRev_eqlen (by simpa using h), forall₂_reverse_iff]

theorem compatRev_take {s t : List ℕ} {r : ℕ} (h : s.length ≤ r) : CompatRev s t ↔ CompatRev s (t.take r) := by
  induction s generalizing t r with
  | nil => exact ⟨fun _ => trivial, fun _ => trivial⟩
  | cons a s ih =>
    cases r with
    | zero => simp at h
    | succ r =>
      cases t with
      | nil => exact Iff.rfl
      | cons b t =>
        simp only [length_cons, Nat.add_le_add_iff_right] at h
        rw [take_succ_cons]
        exact and_congr Iff.rfl (ih h)

/-- only the last axes of the target matter -/
theorem broadcastsTo_suffix {s u : List ℕ} {r : ℕ} (h : s.length ≤ r) :
    BroadcastsTo s u ↔ BroadcastsTo s (u.drop (u.length - r)) := by
  unfold BroadcastsTo
  rw [compatRev_take (r := r) (by simpa using h), take_reverse]

theorem isBroadcast_rank {shapes : List (List ℕ)} {s : List ℕ} {r : ℕ} (hne : shapes ≠ [])
    (hr : ∀ t ∈ shapes, t.length = r) (h : IsBroadcast shapes s) : s.length = r := by
  obtain ⟨t, ht⟩ := exists_mem_of_ne_nil _ hne
  have h1 := broadcastsTo_length (h.1 t ht)
  have h2 := broadcastsTo_length (h.2 (s.drop (s.length - r)) (fun t ht =>
    (broadcastsTo_suffix (hr t ht).le).mp (h.1 t ht)))
  rw [length_drop] at h2
  rw [hr t ht] at h1
  omega

theorem isBroadcast_perm {shapes : List (List ℕ)} {s : List ℕ} {r : ℕ} {perm} (hp : AxisSwap r perm)
    (hne : shapes ≠ []) (hr : ∀ t ∈ shapes, t.length = r) (h : IsBroadcast shapes s) :
    IsBroadcast (shapes.map perm) (perm s) := by
  have hs := isBroadcast_rank hne hr h
  refine ⟨fun t' ht' => ?_, fun u hu => ?_⟩
  · obtain ⟨t, ht, rfl⟩ := mem_map.mp ht'
    rw [broadcastsTo_eqlen (by rw [hp.len _ (hr t ht), hp.len _ hs])]
    exact hp.rel _ _ _ (hr t ht) ((broadcastsTo_eqlen ((hr t ht).trans hs.symm)).mp (h.1 t ht))
  · rw [broadcastsTo_suffix (r := r) (hp.len _ hs).le]
    have hu' : ∀ t ∈ shapes, BroadcastsTo (perm t) (u.drop (u.length - r)) := fun t ht =>
      (broadcastsTo_suffix (hp.len _ (hr t ht)).le).mp (hu _ (mem_map_of_mem ht))
    generalize u.drop (u.length - r) = w at hu' ⊢
    have hw : r ≤ w.length := by
      obtain ⟨t, ht⟩ := exists_mem_of_ne_nil _ hne
      have := broadcastsTo_length (hu' t ht)
      rwa [hp.len _ (hr t ht)] at this
    rw [broadcastsTo_suffix (r := r) (hp.len _ hs).le]
    have hu'' : ∀ t ∈ shapes, BroadcastsTo (perm t) (w.drop (w.length - r)) := fun t ht =>
      (broadcastsTo_suffix (hp.len _ (hr t ht)).le).mp (hu' t ht)
    have hl : (w.drop (w.length - r)).length = r := by rw [length_drop]; omega
    generalize w.drop (w.length - r) = x at hu'' hl ⊢
    have key := h.2 (perm x) (fun t ht => by
      have h1 := (broadcastsTo_eqlen (by rw [hp.len _ (hr t ht), hl])).mp (hu'' t ht)
      have h2 := hp.rel _ _ _ (hp.len _ (hr t ht)) h1
      rw [hp.inv _ (hr t ht)] at h2
      exact (broadcastsTo_eqlen (by rw [hr t ht, hp.len _ hl])).mpr h2)
    have h1 := (broadcastsTo_eqlen (by rw [hs, hp.len _ hl])).mp key
    have h2 := hp.rel _ _ _ hs h1
    rw [hp.inv _ hl] at h2
    exact (broadcastsTo_eqlen (by rw [hp.len _ hs, hl])).mpr h2

theorem perm_bcSource {r : ℕ} {perm} (hp : AxisSwap r perm) {sh idx : List ℕ} (hs : sh.length = r)
    (hi : idx.length = r) : perm (bcSource (perm sh) idx) = bcSource sh (perm idx) := by
  unfold bcSource
  rw [hp.len _ hs, hi, hs, hp.len _ hi, Nat.sub_self, drop_zero, drop_zero,
    hp.zip _ _ _ (hp.len _ hs) hi, hp.inv _ hs]

theorem perm_moved {α : Type} {chk : Checks α} {v : BVec α} {s : List ℕ} {r : ℕ} {perm} {p : Plan}
    (hpl : PlanOk p) (hp : AxisSwap r perm) (hpp : ∀ t : List ℕ, t.length = r → p t = .ok (perm t, perm))
    (hne : v.comps ≠ []) (hb : passesAll chk v.comps) (hr : ∀ a ∈ v.comps, a.shape.length = r)
    (hs : v.shape = .ok s) : ∃ v', v.mapComps chk p = .ok v' ∧ Moved v v' (perm s) perm := by
  obtain ⟨v', h1, h2⟩ := mapComps_ok hpl hb (fun a ha => ⟨_, hpp _ (hr a ha)⟩)
  have hbr := ((C43_shape v).1 s).mp hs
  have hr' : ∀ t ∈ v.comps.map Arr.shape, t.length = r := by
    intro t ht
    obtain ⟨a, ha, rfl⟩ := mem_map.mp ht
    exact hr a ha
  have hne' : v.comps.map Arr.shape ≠ [] := by simpa using hne
  have hsl := isBroadcast_rank hne' hr' hbr
  have hsh : v'.comps.map Arr.shape = (v.comps.map Arr.shape).map perm := by
    clear h1 hne' hr' hbr
    generalize hvc : v.comps = cs at h2 hr
    clear hvc
    generalize v'.comps = cs' at h2
    induction h2 with
    | nil => rfl
    | @cons a b cs cs' hab _ ih =>
      obtain ⟨r', e1, e2⟩ := hab
      rw [hpp _ (hr a (by simp))] at e1
      obtain rfl := Except.ok.inj e1
      simp only [map_cons, ih (fun a ha => hr a (by simp [ha])), e2]
  refine ⟨v', h1, ⟨?_, fun idx hidx => ?_⟩⟩
  · rw [(C43_shape v').1, hsh]
    exact isBroadcast_perm hp hne' hr' hbr
  · unfold elemAt
    apply ext_getElem
    · simp [h2.length_eq]
    · intro i hi hj
      simp only [getElem_map]
      have hi1 : i < v'.comps.length := by simpa using hi
      have hi' : i < v.comps.length := by simpa using hj
      obtain ⟨r', e1, e2⟩ := (forall₂_iff_get.mp h2).2 i hi' hi1
      have hri := hr _ (getElem_mem hi')
      simp only [get_eq_getElem] at e1 e2
      rw [hpp _ hri] at e1
      obtain rfl := Except.ok.inj e1
      rw [e2]
      simp only
      congr 1
      have hil : idx.length = r := by rw [inB_length hidx, hp.len _ hsl]
      exact perm_bcSource hp hri hil

theorem swap_reverse (r : ℕ) : AxisSwap r reverse where
  len l h := by simpa using h
  inv l _ := reverse_reverse l
  rel R l m _ h := forall₂_reverse_iff.mpr h
  zip g l m h1 h2 := reverse_zipWith (h1.trans h2.symm)

theorem swapLast_append (l : List ℕ) (a b : ℕ) : swapLast (l ++ [a, b]) = l ++ [b, a] := by
  simp [swapLast]

theorem exists_last_two {l : List ℕ} (h : 2 ≤ l.length) : ∃ m a b, l = m ++ [a, b] := by
  refine ⟨l.take (l.length - 2), l[l.length - 2], l[l.length - 1], ?_⟩
  have h1 : l = l.take (l.length - 2) ++ l.drop (l.length - 2) := (take_append_drop _ _).symm
  conv_lhs => rw [h1]
  congr 1
  rw [drop_eq_getElem_cons (by omega), drop_eq_getElem_cons (by omega)]
  congr 2
  · congr 1; omega
  · rw [drop_eq_nil_iff]; omega

theorem swap_last {r : ℕ} (hr : 2 ≤ r) : AxisSwap r swapLast where
  len l h := by
    obtain ⟨m, a, b, rfl⟩ := exists_last_two (h ▸ hr)
    rw [swapLast_append]; simpa using h
  inv l h := by
    obtain ⟨m, a, b, rfl⟩ := exists_last_two (h ▸ hr)
    rw [swapLast_append, swapLast_append]
  rel R l m h hf := by
    obtain ⟨l', a, b, rfl⟩ := exists_last_two (h ▸ hr)
    obtain ⟨m', c, d, rfl⟩ := exists_last_two (l := m) (by rw [← hf.length_eq, h]; exact hr)
    have hlen : l'.length = m'.length := by simpa using hf.length_eq
    rw [swapLast_append, swapLast_append]
    have h1 : Forall₂ R l' m' := by
      have := forall₂_take l'.length hf
      rwa [take_left, hlen, take_left] at this
    have h2 : Forall₂ R [a, b] [c, d] := by
      have := forall₂_drop l'.length hf
      rwa [drop_left, hlen, drop_left] at this
    refine rel_append h1 ?_
    cases h2 with
    | cons x h2 => cases h2 with
      | cons y _ => exact .cons y (.cons x .nil)
  zip g l m h1 h2 := by
    obtain ⟨l', a, b, rfl⟩ := exists_last_two (h1 ▸ hr)
    obtain ⟨m', c, d, rfl⟩ := exists_last_two (h2 ▸ hr)
    have hlen : l'.length = m'.length := by simp at h1 h2; omega
    rw [zipWith_append hlen, swapLast_append, swapLast_append, zipWith_append hlen]
    exact swapLast_append _ _ _

theorem planT_ok : PlanOk planT := by
  intro s s' f h idx hidx
  have h := Except.ok.inj h
  obtain ⟨e1, e2⟩ := Prod.mk.inj h
  subst e1 e2
  rw [← inB_reverse, reverse_reverse]; exact hidx

theorem planMT_ok : PlanOk planMT := by
  intro s s' f h idx hidx
  unfold planMT at h
  split at h
  · cases h
  · rename_i hl
    have h := Except.ok.inj h
    obtain ⟨e1, e2⟩ := Prod.mk.inj h
    subst e1 e2
    have hw := swap_last (r := s.length) (by omega)
    have h1 := hw.rel _ _ _ (by rw [inB_length hidx, hw.len _ rfl]) hidx
    rwa [hw.inv _ rfl] at h1

/-- **C43.** `vec.T` reverses the axes of `vec.shape` and moves the elements accordingly when
all components have the same number of axes (axes of length 1 still broadcast). In general:
`C43_T_iff`. -/
theorem C43_T_same_rank {α : Type} (chk : Checks α) (v : BVec α) (s : List ℕ) (hne : v.comps ≠ [])
    (hb : passesAll chk v.comps) (hs : v.shape = .ok s) (r : ℕ)
    (hr : ∀ a ∈ v.comps, a.shape.length = r) :
    ∃ v', v.T chk = .ok v' ∧ Moved v v' s.reverse reverse :=
  perm_moved planT_ok (swap_reverse r) (fun _ _ => rfl) hne hb hr hs

/-- **C43.** `vec.mT` swaps the last two axes of `vec.shape`, when all components have the same
number `>= 2` of axes; below two axes it raises. In general:
`C43_mT_iff`. -/
theorem C43_mT_same_rank {α : Type} (chk : Checks α) (v : BVec α) (s : List ℕ) (hne : v.comps ≠ [])
    (hb : passesAll chk v.comps) (hs : v.shape = .ok s) (r : ℕ)
    (hr : ∀ a ∈ v.comps, a.shape.length = r) :
    (∀ t i j, s = t ++ [i, j] → ∃ v', v.mT chk = .ok v' ∧ Moved v v' (t ++ [j, i]) swapLast) ∧
    (s.length < 2 → v.mT chk = .error .value) := by
  have hsl : s.length = r := isBroadcast_rank (by simpa using hne) (fun t ht => by
    obtain ⟨a, ha, rfl⟩ := mem_map.mp ht; exact hr a ha) (((C43_shape v).1 s).mp hs)
  constructor
  · rintro t i j rfl
    have h2 : 2 ≤ r := by rw [← hsl]; simp
    have := perm_moved (chk := chk) planMT_ok (swap_last h2)
      (fun t ht => by simp only [planMT]; rw [if_neg (by omega)]) hne hb hr hs
    rwa [swapLast_append] at this
  · intro h
    obtain ⟨a, rest, e⟩ := exists_cons_of_ne_nil hne
    have ha := hr a (by rw [e]; simp)
    simp only [BVec.mT, BVec.mapComps, e, mapM_cons, Arr.gather, planMT]
    rw [if_pos (by omega)]; rfl

/-- the hypotheses are met with broadcasting between the components -/
example : let v : BVec ℕ := ⟨[⟨[2, 1], fun _ => 0⟩, ⟨[1, 3], fun _ => 1⟩]⟩
    v.shape = .ok [2, 3] ∧ ∀ a ∈ v.comps, a.shape.length = 2 := by
  exact ⟨rfl, by simp⟩

/-! ### flatten and ravel -/

theorem unravel_zero_of_prod_one {s : List ℕ} (h : s.prod = 1) {idx : List ℕ} (hi : s.length ≤ idx.length) :
    unravelIdx s 0 = bcSource s idx := by
  unfold bcSource
  have hl : s.length = (idx.drop (idx.length - s.length)).length := by rw [length_drop]; omega
  generalize idx.drop (idx.length - s.length) = m at hl
  clear hi
  induction s generalizing m with
  | nil => rfl
  | cons n s ih =>
    cases m with
    | nil => simp at hl
    | cons i m =>
      simp only [prod_cons] at h
      obtain ⟨h1, h2⟩ := mul_eq_one.mp h
      simp only [length_cons, Nat.add_right_cancel_iff] at hl
      simp only [unravelIdx, Nat.zero_div, Nat.zero_mod, zipWith_cons_cons, ih h2 m hl, h1, if_true]

theorem flatten_moved {α : Type} {chk : Checks α} {v : BVec α} {s : List ℕ} (hne : v.comps ≠ [])
    (hb : passesAll chk v.comps) (hs : v.shape = .ok s)
    (hc : ∀ a ∈ v.comps, a.shape = s ∨ a.shape.prod = 1) :
    ∃ v', v.mapComps chk planFlatten = .ok v' ∧
      Moved v v' [s.prod] (fun idx => unravelIdx s (idx.headD 0)) := by
  obtain ⟨v', h1, h2⟩ := mapComps_ok planFlatten_ok hb (fun a _ => ⟨_, rfl⟩)
  have hbr := ((C43_shape v).1 s).mp hs
  have hprod : (∀ a ∈ v.comps, a.shape.prod = 1) → s.prod = 1 := by
    intro hall
    -- the all-ones shape of the same length is an upper bound
    have hub : BroadcastsTo s (replicate s.length 1) := hbr.2 _ (fun t ht => by
      obtain ⟨a, ha, rfl⟩ := mem_map.mp ht
      have hl := broadcastsTo_length (hbr.1 a.shape (mem_map_of_mem ha))
      have hones : ∀ t : List ℕ, t.prod = 1 → ∀ n, t.length ≤ n → CompatRev t (replicate n 1) := by
        intro t
        induction t with
        | nil => intros; trivial
        | cons x t ih =>
          intro h n hn
          obtain ⟨e1, e2⟩ := (by simpa using h : x = 1 ∧ t.prod = 1)
          cases n with
          | zero => simp at hn
          | succ n => exact ⟨.inl e1, ih e2 n (by simpa using hn)⟩
      unfold BroadcastsTo
      rw [reverse_replicate]
      exact hones _ (by rw [prod_reverse]; exact hall a ha) _ (by simpa using hl))
    rw [broadcastsTo_eqlen (by simp)] at hub
    have : ∀ (t : List ℕ) (n : ℕ), Forall₂ (fun a b => a = 1 ∨ a = b) t (replicate n 1) → t.prod = 1 := by
      intro t
      induction t with
      | nil => intros; rfl
      | cons x t ih =>
        intro n h
        cases n with
        | zero => cases h
        | succ n =>
          rw [replicate_succ] at h
          cases h with
          | cons e h => rw [prod_cons, ih n h]; omega
    exact this _ _ hub
  have hsh : Forall₂ (fun a b : Arr α => b.shape = [a.shape.prod] ∧ ∀ idx, b.get idx =
      a.get (unravelIdx a.shape (ravelIdx [a.shape.prod] idx))) v.comps v'.comps :=
    h2.imp (fun a b ⟨r, e1, e2⟩ => by
      have e1 : _ = r := Except.ok.inj e1
      subst e1; subst e2
      exact ⟨rfl, fun _ => rfl⟩)
  refine ⟨v', h1, ⟨?_, fun idx hidx => ?_⟩⟩
  · rw [(C43_shape v').1]
    have hmem : ∀ t, t ∈ v'.comps.map Arr.shape ↔ ∃ a ∈ v.comps, t = [a.shape.prod] := by
      intro t
      constructor
      · intro ht
        obtain ⟨b, hb', rfl⟩ := mem_map.mp ht
        obtain ⟨i, hi, rfl⟩ := mem_iff_getElem.mp hb'
        have hi' : i < v.comps.length := hsh.length_eq ▸ hi
        exact ⟨v.comps[i], getElem_mem hi', ((forall₂_iff_get.mp hsh).2 i hi' hi).1⟩
      · rintro ⟨a, ha, rfl⟩
        obtain ⟨i, hi, rfl⟩ := mem_iff_getElem.mp ha
        have hi' : i < v'.comps.length := hsh.length_eq ▸ hi
        exact mem_map.mpr ⟨v'.comps[i], getElem_mem hi', ((forall₂_iff_get.mp hsh).2 i hi hi').1⟩
    refine ⟨fun t ht => ?_, fun u hu => ?_⟩
    · obtain ⟨a, ha, rfl⟩ := (hmem t).mp ht
      refine ⟨?_, trivial⟩
      rcases hc a ha with e | e
      · exact .inr (by rw [e])
      · exact .inl e
    · by_cases hex : ∃ a ∈ v.comps, a.shape = s
      · obtain ⟨a, ha, e⟩ := hex
        have := hu [a.shape.prod] ((hmem _).mpr ⟨a, ha, rfl⟩)
        rwa [e] at this
      · have hall : ∀ a ∈ v.comps, a.shape.prod = 1 := fun a ha => by
          rcases hc a ha with e | e
          · exact absurd ⟨a, ha, e⟩ hex
          · exact e
        obtain ⟨a, ha⟩ := exists_mem_of_ne_nil _ hne
        have := hu [a.shape.prod] ((hmem _).mpr ⟨a, ha, rfl⟩)
        rwa [hall a ha, ← hprod hall] at this
  · unfold elemAt
    apply ext_getElem
    · simp [hsh.length_eq]
    · intro i hi hj
      simp only [getElem_map]
      have hi1 : i < v'.comps.length := by simpa using hi
      have hi' : i < v.comps.length := by simpa using hj
      obtain ⟨e1, e2⟩ := (forall₂_iff_get.mp hsh).2 i hi' hi1
      simp only [get_eq_getElem] at e1 e2
      rw [e1, e2]
      congr 1
      obtain ⟨k, hk, rfl⟩ : ∃ k, k < s.prod ∧ idx = [k] := by
        cases hidx with
        | cons h h' => cases h'; exact ⟨_, h, rfl⟩
      simp only [headD_cons]
      have hrav : ∀ n m, ravelIdx [n] [m] = m := fun n m => by simp [ravelIdx]
      rcases hc _ (getElem_mem hi') with e | e
      · rw [e]
        rw [bcSource_self (s := [s.prod]) (.cons hk .nil), hrav, bcSource_self (unravel_inB hk)]
      · have h1 : bcSource [v.comps[i].shape.prod] [k] = [0] := by simp [bcSource, e]
        rw [h1, hrav]
        apply unravel_zero_of_prod_one e
        rw [inB_length (unravel_inB hk)]
        exact broadcastsTo_length (hbr.1 _ (mem_map_of_mem (getElem_mem hi')))

/-- **C43.** `flatten` and `ravel` give shape `(size,)` with the elements in row-major order,
when every component either has the full shape or a single element. In general: `C43_flatten_iff`. -/
theorem C43_flatten_full_or_single {α : Type} (chk : Checks α) (v : BVec α) (s : List ℕ) (hne : v.comps ≠ [])
    (hb : passesAll chk v.comps) (hs : v.shape = .ok s)
    (hc : ∀ a ∈ v.comps, a.shape = s ∨ a.shape.prod = 1) :
    v.flatten chk = v.ravel chk ∧ ∃ v', v.flatten chk = .ok v' ∧ v'.shape = .ok [s.prod] ∧
      ∀ idx, InB s idx → elemAt v' [ravelIdx s idx] = elemAt v idx := by
  obtain ⟨v', h1, h2⟩ := flatten_moved hne hb hs hc
  refine ⟨rfl, v', h1, h2.shape, fun idx hidx => ?_⟩
  rw [h2.elems _ (.cons (ravel_lt hidx) .nil), headD_cons, unravel_ravel hidx]

/-- the hypotheses are met: a scalar component with a (2,3) component -/
example : let v : BVec ℕ := ⟨[⟨[2, 3], fun l => l.sum⟩, ⟨[], fun _ => 1⟩]⟩
    v.shape = .ok [2, 3] ∧ ∀ a ∈ v.comps, a.shape = [2, 3] ∨ a.shape.prod = 1 := ⟨rfl, by simp⟩

/-! ### the cases where the code is wrong -/

/-- no checks -/
def noChecks {α : Type} : Checks α := fun _ _ => true

theorem passes_noChecks {α : Type} (cs : List (Arr α)) : passesAll noChecks cs := fun _ _ _ _ => rfl

/-- **C43, exception.** `T` of a vector with component shapes (2,2)
and (2,) returns a vector of the right shape whose elements are not those of `vec`. -/
theorem C43_T_mixed_wrong : ∃ (v v' : BVec ℕ) (s : List ℕ), v.shape = .ok s ∧ v.T noChecks = .ok v' ∧
    v'.shape = .ok s.reverse ∧ ∃ idx, InB s.reverse idx ∧ elemAt v' idx ≠ elemAt v idx.reverse := by
  let v : BVec ℕ := ⟨[⟨[2, 2], fun _ => 0⟩, ⟨[2], fun l => l.headD 0⟩]⟩
  refine ⟨v, ⟨[⟨[2, 2], fun _ => 0⟩, ⟨[2], fun l => l.reverse.headD 0⟩]⟩, [2, 2], rfl, ?_, rfl, [0, 1],
    .cons (by decide) (.cons (by decide) .nil), by decide⟩
  show mkB noChecks _ = _
  rw [mkB_ok (passes_noChecks _)]
  rfl

/-- and with shapes (2,1) and (3,) the result has components that do not broadcast, although `vec` has
shape (2,3). -/
theorem C43_T_mixed_raises : ∃ (v v' : BVec ℕ), v.shape = .ok [2, 3] ∧ v.T noChecks = .ok v' ∧
    v'.shape = .error .value := by
  refine ⟨⟨[⟨[2, 1], fun _ => 0⟩, ⟨[3], fun _ => 0⟩]⟩, ⟨[⟨[1, 2], fun _ => 0⟩, ⟨[3], fun _ => 0⟩]⟩, rfl,
    ?_, rfl⟩
  show mkB noChecks _ = _
  rw [mkB_ok (passes_noChecks _)]
  rfl

/-- `mT` raises for a (2,3) component with a scalar component, although `vec.shape` is (2,3). -/
theorem C43_mT_mixed_raises : ∃ v : BVec ℕ, v.shape = .ok [2, 3] ∧ v.mT noChecks = .error .value := by
  refine ⟨⟨[⟨[2, 3], fun _ => 0⟩, ⟨[], fun _ => 0⟩]⟩, rfl, ?_⟩
  rfl

/-- `flatten` (and `ravel`) of a vector of shape (3,3) with component shapes (3,1) and (1,3) returns a
vector of shape (3,) instead of (9,). -/
theorem C43_flatten_mixed_wrong : ∃ (v v' : BVec ℕ), v.shape = .ok [3, 3] ∧
    v.flatten noChecks = .ok v' ∧ v'.shape = .ok [3] := by
  refine ⟨⟨[⟨[3, 1], fun _ => 0⟩, ⟨[1, 3], fun _ => 0⟩]⟩, ⟨[⟨[3], fun _ => 0⟩, ⟨[3], fun _ => 0⟩]⟩, rfl,
    ?_, rfl⟩
  show mkB noChecks _ = _
  rw [mkB_ok (passes_noChecks _)]
  rfl

/-- `flatten` of component shapes (2,3) and (3,) leaves components that do not broadcast. -/
theorem C43_flatten_mixed_raises : ∃ (v v' : BVec ℕ), v.shape = .ok [2, 3] ∧
    v.flatten noChecks = .ok v' ∧ v'.shape = .error .value := by
  refine ⟨⟨[⟨[2, 3], fun _ => 0⟩, ⟨[3], fun _ => 0⟩]⟩, ⟨[⟨[6], fun _ => 0⟩, ⟨[3], fun _ => 0⟩]⟩, rfl,
    ?_, rfl⟩
  show mkB noChecks _ = _
  rw [mkB_ok (passes_noChecks _)]
  rfl

end Verif
