import Verif.CartArith
import Verif.BatchLemmas
import Verif.Props.QBridge

/-!
# Cartesian arithmetic with units and arrays: C52; N-dimensional arithmetic: C53

Scope: Cartesian positions, velocities, accelerations whose components are arrays of any shapes with any
units of the right physical type.
-/

namespace Verif

open List Spec

namespace Spec

/-- physical value of component number `k` of the element at batch index `idx` (0 if there is no such
component) -/
def physComp (v : CVec) (k : ℕ) (idx : List ℕ) : ℝ :=
  match v.comps[k]? with
  | some q => physAt q (bcSource q.arr.shape idx)
  | none => 0

/-- `s` is the batch shape of the vector -/
def IsShape (v : CVec) (s : List ℕ) : Prop := IsBroadcast (v.comps.map fun q => q.arr.shape) s

/-- two shapes that `jax.lax` combines: one has rank 0, or the ranks agree and the axes fit -/
def LaxFit (s t : List ℕ) : Prop :=
  s = [] ∨ t = [] ∨ (s.length = t.length ∧ ∃ u, BroadcastsTo s u ∧ BroadcastsTo t u)

/-- component by component, the shapes can be combined -/
def CompsFit (v w : CVec) : Prop := Forall₂ (fun a b : QArr => LaxFit a.arr.shape b.arr.shape) v.comps w.comps

/-- component by component, the same unit -/
def SameUnits (v w : CVec) : Prop :=
  Forall₂ (fun a b : QArr => a.unit.dim = b.unit.dim ∧ a.unit.scale = b.unit.scale) v.comps w.comps

/-- what a result must satisfy: class and units of the left operand, all components present, and each element
is `f` of the elements, in physical values -/
structure Elementwise (f : ℝ → ℝ → ℝ) (v w r : CVec) : Prop where
  cls : r.cls = v.cls
  built : BuiltC r
  units : r.comps.map QArr.unit = v.comps.map QArr.unit
  elems : ∀ S idx, IsShape r S → InB S idx → ∀ k < v.cls.n, physComp r k idx = f (physComp v k idx) (physComp w k idx)

end Spec

/-! ### shapes -/

theorem laxShape_ok_iff (s t u : List ℕ) : laxShape s t = .ok u ↔ LaxFit s t ∧ IsBroadcast [s, t] u := by
  have hnil : ∀ s : List ℕ, IsBroadcast [s, []] s := fun s =>
    ⟨by simp [broadcastsTo_refl, broadcastsTo_nil], fun u h => h s (by simp)⟩
  have hnil' : ∀ s : List ℕ, IsBroadcast [[], s] s := fun s =>
    ⟨by simp [broadcastsTo_refl, broadcastsTo_nil], fun u h => h s (by simp)⟩
  have huniq : ∀ l a b, IsBroadcast l a → IsBroadcast l b → a = b := fun l a b ha hb =>
    broadcastsTo_antisymm (ha.2 b hb.1) (hb.2 a ha.1)
  have hb : bc2 s t = .ok u ↔ IsBroadcast [s, t] u := by
    rw [← broadcastShapes_iff]
    have : broadcastShapes [s, t] = bc2 s t := by
      simp only [broadcastShapes, ok_bind]
      have : bc2 t [] = .ok t := by
        unfold bc2
        cases h : t.reverse with
        | nil => simp only [reverse_nil, bcRev, ok_bind]; simp at h; rw [h]; rfl
        | cons a l =>
          simp only [reverse_nil, bcRev, ok_bind]
          rw [← h, reverse_reverse]; rfl
      rw [this, ok_bind]
    rw [this]
  unfold laxShape
  split
  · rename_i h; subst h
    exact ⟨fun e => (Except.ok.inj e) ▸ ⟨.inl rfl, hnil' t⟩, fun h => by rw [huniq _ _ _ h.2 (hnil' t)]⟩
  · rename_i hs
    split
    · rename_i h; subst h
      exact ⟨fun e => (Except.ok.inj e) ▸ ⟨.inr (.inl rfl), hnil s⟩, fun h => by rw [huniq _ _ _ h.2 (hnil s)]⟩
    · rename_i ht
      split
      · rename_i hl
        rw [hb]
        exact ⟨fun h => ⟨.inr (.inr ⟨hl, u, h.1 s (by simp), h.1 t (by simp)⟩), h⟩, fun h => h.2⟩
      · rename_i hl
        refine ⟨fun e => (by cases e), fun h => ?_⟩
        rcases h.1 with e | e | e
        · exact absurd e hs
        · exact absurd e ht
        · exact absurd e.1 hl

theorem laxShape_total {s t : List ℕ} (h : LaxFit s t) : ∃ u, laxShape s t = .ok u := by
  have : ∃ w, BroadcastsTo s w ∧ BroadcastsTo t w := by
    rcases h with rfl | rfl | ⟨_, h⟩
    · exact ⟨t, broadcastsTo_nil _, broadcastsTo_refl _⟩
    · exact ⟨s, broadcastsTo_refl _, broadcastsTo_nil _⟩
    · exact h
  obtain ⟨w, h1, h2⟩ := this
  obtain ⟨u, hu⟩ := broadcastShapes_total (shapes := [s, t]) (w := w) (by simp [h1, h2])
  exact ⟨u, (laxShape_ok_iff _ _ _).mpr ⟨h, (broadcastShapes_iff _ _).mp hu⟩⟩

theorem lax2_elem {f : ℝ → ℝ → ℝ} {a b c : Arr ℝ} (h : a.lax2 f b = .ok c) :
    BroadcastsTo a.shape c.shape ∧ BroadcastsTo b.shape c.shape ∧ LaxFit a.shape b.shape ∧
      ∀ idx, c.elem idx = f (a.elem idx) (b.elem idx) := by
  unfold Arr.lax2 at h
  obtain ⟨s, h1, h⟩ := (bind_ok_iff _ _ _).mp h
  obtain rfl := Except.ok.inj h
  obtain ⟨hl, hb⟩ := (laxShape_ok_iff _ _ _).mp h1
  have ha : BroadcastsTo a.shape s := hb.1 _ (by simp)
  have hb : BroadcastsTo b.shape s := hb.1 _ (by simp)
  refine ⟨ha, hb, hl, fun idx => ?_⟩
  show f (a.elem _) (b.elem _) = _
  rw [Arr.elem_of_index ha, Arr.elem_of_index hb]

theorem lax2_total {f : ℝ → ℝ → ℝ} {a b : Arr ℝ} (h : LaxFit a.shape b.shape) : ∃ c, a.lax2 f b = .ok c := by
  obtain ⟨u, hu⟩ := laxShape_total h
  exact ⟨_, by simp only [Arr.lax2, hu, ok_bind]; rfl⟩

/-! ### lists of components -/

theorem zipRes_ok {g : QArr → QArr → Res QArr} {l m r : List QArr} (hl : l.length = m.length)
    (h : zipRes g l m = .ok r) :
    Forall₂ (fun a c => ∃ b, g a b = .ok c) l r ∧ Forall₂ (fun a b => ∃ c, g a b = .ok c) l m ∧
      ∀ (k : ℕ) a b, l[k]? = some a → m[k]? = some b → ∃ c, r[k]? = some c ∧ g a b = .ok c := by
  induction l generalizing m r with
  | nil =>
    cases m with
    | nil => simp only [zipRes] at h; obtain rfl := Except.ok.inj h; exact ⟨.nil, .nil, by simp⟩
    | cons => simp at hl
  | cons a l ih =>
    cases m with
    | nil => simp at hl
    | cons b m =>
      simp only [zipRes] at h
      obtain ⟨c, h1, h⟩ := (bind_ok_iff _ _ _).mp h
      obtain ⟨r', h2, h⟩ := (bind_ok_iff _ _ _).mp h
      obtain rfl := Except.ok.inj h
      obtain ⟨k1, k2, k3⟩ := ih (by simpa using hl) h2
      refine ⟨.cons ⟨b, h1⟩ k1, .cons ⟨c, h1⟩ k2, fun k x y hx hy => ?_⟩
      cases k with
      | zero => simp at hx hy; subst hx hy; exact ⟨c, rfl, h1⟩
      | succ k => simpa using k3 k x y (by simpa using hx) (by simpa using hy)

theorem zipRes_total {g : QArr → QArr → Res QArr} {l m : List QArr}
    (h : Forall₂ (fun a b => ∃ c, g a b = .ok c) l m) : ∃ r, zipRes g l m = .ok r := by
  induction h with
  | nil => exact ⟨[], rfl⟩
  | cons h _ ih =>
    obtain ⟨c, hc⟩ := h
    obtain ⟨r, hr⟩ := ih
    exact ⟨c :: r, by simp only [zipRes, hc, hr, ok_bind]; rfl⟩

theorem physComp_of_get {v : CVec} {k : ℕ} {q : QArr} (h : v.comps[k]? = some q) (idx : List ℕ) :
    physComp v k idx = physAt q (bcSource q.arr.shape idx) := by simp only [physComp, h]

/-- `physAt` through `elem` -/
theorem phys_elem {q : QArr} {S idx : List ℕ} (h : BroadcastsTo q.arr.shape S) (hi : InB S idx) :
    physAt q (bcSource q.arr.shape idx) = q.arr.elem idx * q.unit.scale := by
  rw [physAt, (Arr.elem_get h hi).1]

/-- a binary operation that is right on every component is right on the vector -/
theorem zip_elementwise {f : ℝ → ℝ → ℝ} {g : QArr → QArr → Res QArr} {v w : CVec} {l : List QArr}
    (hv : BuiltC v) (hw : BuiltC w) (hc : v.cls = w.cls)
    (hg : ∀ a b c, a.unit.dim = b.unit.dim → g a b = .ok c → c.unit = a.unit ∧ BroadcastsTo a.arr.shape c.arr.shape ∧
      BroadcastsTo b.arr.shape c.arr.shape ∧ ∀ idx, c.arr.elem idx * c.unit.scale
        = f (a.arr.elem idx * a.unit.scale) (b.arr.elem idx * b.unit.scale))
    (h : zipRes g v.comps w.comps = .ok l) : Elementwise f v w ⟨v.cls, l⟩ := by
  obtain ⟨hv1, hv2⟩ := builtC_iff.mp hv
  obtain ⟨hw1, hw2⟩ := builtC_iff.mp hw
  have hlen : v.comps.length = w.comps.length := by rw [hv1, hw1, hc]
  obtain ⟨k1, k2, k3⟩ := zipRes_ok hlen h
  have hdim : ∀ (k : ℕ) a b, v.comps[k]? = some a → w.comps[k]? = some b → a.unit.dim = b.unit.dim := fun k a b ha hb => by
    rw [hv2 a (mem_of_getElem? ha), hw2 b (mem_of_getElem? hb), hc]
  have hlen' : l.length = v.comps.length := k1.length_eq.symm
  have hget : ∀ k (hk : k < v.comps.length), ∃ a b c, v.comps[k]? = some a ∧ w.comps[k]? = some b ∧ l[k]? = some c ∧
      g a b = .ok c := fun k hk => by
    obtain ⟨c, hc', hgc⟩ := k3 k v.comps[k] (w.comps[k]'(hlen ▸ hk)) (by simp [hk]) (by simp [hlen ▸ hk])
    exact ⟨_, _, c, getElem?_eq_getElem hk, getElem?_eq_getElem (hlen ▸ hk), hc', hgc⟩
  have hunits : l.map QArr.unit = v.comps.map QArr.unit := by
    apply List.ext_getElem?
    intro k
    by_cases hk : k < v.comps.length
    · obtain ⟨a, b, c, ha, hb, hc', hgc⟩ := hget k hk
      rw [getElem?_map, getElem?_map, ha, hc']
      simp [(hg a b c (hdim k a b ha hb) hgc).1]
    · rw [getElem?_eq_none (by simpa [hlen'] using hk), getElem?_eq_none (by simpa using hk)]
  refine ⟨rfl, builtC_iff.mpr ⟨hlen'.trans hv1, fun q hq => ?_⟩, hunits, fun S idx hS hi k hk => ?_⟩
  · have : q.unit ∈ v.comps.map QArr.unit := hunits ▸ mem_map_of_mem hq
    obtain ⟨a, ha, e⟩ := mem_map.mp this
    rw [← e]; exact hv2 a ha
  · obtain ⟨a, b, c, ha, hb, hc', hgc⟩ := hget k (hv1 ▸ hk)
    obtain ⟨e1, e2, e3, e4⟩ := hg a b c (hdim k a b ha hb) hgc
    have hcS : BroadcastsTo c.arr.shape S := hS.1 _ (mem_map.mpr ⟨c, mem_of_getElem? hc', rfl⟩)
    rw [physComp_of_get ha, physComp_of_get hb, physComp_of_get (v := ⟨v.cls, l⟩) hc', phys_elem hcS hi,
      phys_elem (broadcastsTo_trans e2 hcS) hi, phys_elem (broadcastsTo_trans e3 hcS) hi, e4]

theorem qconvert_ok {un : UnitU} {q r : QArr} (h : q.uconvert un = .ok r) : un.dim = q.unit.dim ∧ r.unit = un ∧
    r.arr.shape = q.arr.shape ∧ ∀ idx, r.arr.elem idx * un.scale = q.arr.elem idx * q.unit.scale := by
  unfold QArr.uconvert at h
  split at h
  · rename_i hd
    obtain rfl := Except.ok.inj h
    refine ⟨hd, rfl, rfl, fun idx => ?_⟩
    show q.arr.get _ * (q.unit.scale / un.scale) * un.scale = q.arr.get _ * q.unit.scale
    have := un.pos.ne'
    field_simp
  · cases h

theorem qconvert_total {un : UnitU} {q : QArr} (h : un.dim = q.unit.dim) :
    ∃ r, q.uconvert un = .ok r ∧ r.arr.shape = q.arr.shape := by
  unfold QArr.uconvert
  rw [if_pos h]
  exact ⟨_, rfl, rfl⟩

/-- a linear function of two numbers does not care about a common factor -/
def Lin (f : ℝ → ℝ → ℝ) : Prop := ∀ x y c, f x y * c = f (x * c) (y * c)

theorem lin_add : Lin (· + ·) := fun x y c => by ring
theorem lin_sub : Lin (· - ·) := fun x y c => by ring

theorem leaf2_good {f : ℝ → ℝ → ℝ} (hf : Lin f) (a b c : QArr) (h : leaf2 f a b = .ok c) :
    (c.unit = a.unit ∧ BroadcastsTo a.arr.shape c.arr.shape ∧
      BroadcastsTo b.arr.shape c.arr.shape ∧ ∀ idx, c.arr.elem idx * c.unit.scale
        = f (a.arr.elem idx * a.unit.scale) (b.arr.elem idx * b.unit.scale)) ∧
      a.unit.dim = b.unit.dim ∧ a.unit.scale = b.unit.scale ∧ LaxFit a.arr.shape b.arr.shape := by
  unfold leaf2 at h
  split at h
  · rename_i hu
    obtain ⟨d, h1, h⟩ := (bind_ok_iff _ _ _).mp h
    obtain rfl := Except.ok.inj h
    obtain ⟨k1, k2, k3, k4⟩ := lax2_elem h1
    refine ⟨⟨rfl, k1, k2, fun idx => ?_⟩, hu.1, hu.2, k3⟩
    show d.elem idx * a.unit.scale = _
    rw [k4, hf, hu.2]
  · cases h

theorem leaf2_total {f : ℝ → ℝ → ℝ} (a b : QArr) (hu : a.unit.dim = b.unit.dim ∧ a.unit.scale = b.unit.scale)
    (h : LaxFit a.arr.shape b.arr.shape) : ∃ c, leaf2 f a b = .ok c := by
  obtain ⟨d, hd⟩ := lax2_total (f := f) h
  exact ⟨_, by rw [leaf2, if_pos (show a.unit.same b.unit from hu), hd, ok_bind]; rfl⟩

theorem qlax2_good {f : ℝ → ℝ → ℝ} (hf : Lin f) (a b c : QArr) (h : QArr.lax2 f a b = .ok c) :
    (c.unit = a.unit ∧ BroadcastsTo a.arr.shape c.arr.shape ∧
      BroadcastsTo b.arr.shape c.arr.shape ∧ ∀ idx, c.arr.elem idx * c.unit.scale
        = f (a.arr.elem idx * a.unit.scale) (b.arr.elem idx * b.unit.scale)) ∧ LaxFit a.arr.shape b.arr.shape := by
  unfold QArr.lax2 at h
  obtain ⟨b', h0, h⟩ := (bind_ok_iff _ _ _).mp h
  obtain ⟨d, h1, h⟩ := (bind_ok_iff _ _ _).mp h
  obtain rfl := Except.ok.inj h
  obtain ⟨k1, k2, k3, k4⟩ := lax2_elem h1
  obtain ⟨_, _, u2, u3⟩ := qconvert_ok h0
  rw [u2] at k2 k3
  refine ⟨⟨rfl, k1, k2, fun idx => ?_⟩, k3⟩
  show d.elem idx * a.unit.scale = _
  rw [k4, hf, u3]

theorem qlax2_total {f : ℝ → ℝ → ℝ} (a b : QArr) (hu : a.unit.dim = b.unit.dim)
    (h : LaxFit a.arr.shape b.arr.shape) : ∃ c, QArr.lax2 f a b = .ok c := by
  obtain ⟨b', hb, hs⟩ := qconvert_total (un := a.unit) (q := b) hu
  obtain ⟨d, hd⟩ := lax2_total (f := f) (a := a.arr) (b := b'.arr) (hs ▸ h)
  exact ⟨_, by simp only [QArr.lax2, hb, ok_bind, hd]; rfl⟩

theorem treeMap2_good {f : ℝ → ℝ → ℝ} (hf : Lin f) {v w r : CVec} (hv : BuiltC v) (hw : BuiltC w)
    (h : treeMap2 f v w = .ok r) : Elementwise f v w r ∧ v.cls = w.cls ∧ SameUnits v w ∧ CompsFit v w := by
  unfold treeMap2 at h
  split at h
  · rename_i hc
    obtain ⟨l, h1, h⟩ := (bind_ok_iff _ _ _).mp h
    obtain rfl := Except.ok.inj h
    refine ⟨zip_elementwise hv hw hc (fun a b c _ hg => (leaf2_good hf a b c hg).1) h1, hc, ?_, ?_⟩
    · have hlen : v.comps.length = w.comps.length := by
        rw [(builtC_iff.mp hv).1, (builtC_iff.mp hw).1, hc]
      exact (zipRes_ok hlen h1).2.1.imp fun a b ⟨c, hc⟩ => ⟨(leaf2_good hf a b c hc).2.1, (leaf2_good hf a b c hc).2.2.1⟩
    · have hlen : v.comps.length = w.comps.length := by
        rw [(builtC_iff.mp hv).1, (builtC_iff.mp hw).1, hc]
      exact (zipRes_ok hlen h1).2.1.imp fun a b ⟨c, hc⟩ => (leaf2_good hf a b c hc).2.2.2
  · cases h

theorem forall₂_and {α β : Type} {P Q : α → β → Prop} {l : List α} {m : List β} (h : Forall₂ P l m)
    (k : Forall₂ Q l m) : Forall₂ (fun a b => P a b ∧ Q a b) l m := by
  induction h with
  | nil => exact .nil
  | cons h _ ih => cases k with | cons k1 k2 => exact .cons ⟨h, k1⟩ (ih k2)

theorem treeMap2_total {f : ℝ → ℝ → ℝ} {v w : CVec} (hc : v.cls = w.cls) (hu : SameUnits v w)
    (hs : CompsFit v w) : ∃ r, treeMap2 f v w = .ok r := by
  obtain ⟨l, hl⟩ := zipRes_total ((forall₂_and hu hs).imp fun a b h => leaf2_total (f := f) a b h.1 h.2)
  exact ⟨_, by rw [treeMap2, if_pos hc, hl, ok_bind]; rfl⟩

/-! ### C52 -/

/-- **C52.** Whenever `v + w` and `v - w` return, for Cartesian positions, velocities or accelerations with
arrays of any shapes in any units, the result has the class and the units of `v`, and the physical
components of every element are the sums (differences) of those of the operands. -/
theorem C52_add_sub (v w r : CVec) (hv : BuiltC v) (hw : BuiltC w) :
    (v.add w = .ok r → Elementwise (· + ·) v w r) ∧ (v.sub w = .ok r → Elementwise (· - ·) v w r) := by
  constructor
  · intro h
    unfold CVec.add at h
    split at h
    · rename_i hp
      split at h
      · rename_i hw3
        obtain ⟨l, h1, h⟩ := (bind_ok_iff _ _ _).mp h
        obtain ⟨rfl, _⟩ := mkC_ok_iff.mp h
        have := zip_elementwise hv hw (hp.trans hw3.symm) (fun a b c _ hg => (qlax2_good lin_add a b c hg).1) h1
        rw [hp] at this
        exact this
      · cases h
    · cases h
    · cases h
    · exact (treeMap2_good lin_add hv hw h).1
  · intro h
    unfold CVec.sub at h
    split at h <;> first
      | exact (treeMap2_good lin_sub hv hw h).1
      | cases h

/-- The classes that have a rule for `+`. -/
def Spec.HasAdd (c : CCls) : Prop := c ≠ .radVel ∧ c ≠ .radAcc

/-- The classes that have a rule for `-`. -/
def Spec.HasSub (c : CCls) : Prop := c = .pos1 ∨ c = .pos2 ∨ c = .pos3 ∨ c = .vel3 ∨ c = .acc1 ∨ c = .acc3

/-- **C52.** When `v + w` returns. Everything except `CartesianPos3D` raises as soon as the operands are not in the
same units. -/
theorem C52_add_returns (v w : CVec) (hv : BuiltC v) (hw : BuiltC w) :
    (∃ r, v.add w = .ok r) ↔
      v.cls = w.cls ∧ HasAdd v.cls ∧ (v.cls = .pos3 ∨ SameUnits v w) ∧ CompsFit v w := by
  have hlen : v.cls = w.cls → v.comps.length = w.comps.length := fun hc => by
    rw [(builtC_iff.mp hv).1, (builtC_iff.mp hw).1, hc]
  by_cases hp : v.cls = .pos3
  · unfold CVec.add
    rw [hp]
    simp only
    constructor
    · rintro ⟨r, h⟩
      split at h
      · rename_i hw3
        obtain ⟨l, h1, h⟩ := (bind_ok_iff _ _ _).mp h
        refine ⟨hw3.symm, by simp [HasAdd], .inl trivial, ?_⟩
        exact (zipRes_ok (hlen (hp.trans hw3.symm)) h1).2.1.imp fun a b ⟨c, hc⟩ => (qlax2_good lin_add a b c hc).2
      · cases h
    · rintro ⟨hc, _, _, hs⟩
      rw [if_pos hc.symm]
      have hdims : Forall₂ (fun a b : QArr => a.unit.dim = b.unit.dim) v.comps w.comps := by
        rw [forall₂_iff_get]
        refine ⟨hlen (hp.trans hc), fun i h1 h2 => ?_⟩
        rw [(builtC_iff.mp hv).2 _ (get_mem _ _), (builtC_iff.mp hw).2 _ (get_mem _ _), hp, hc]
      obtain ⟨l, hl⟩ := zipRes_total ((forall₂_and hdims hs).imp fun a b h => qlax2_total (f := (· + ·)) a b h.1 h.2)
      refine ⟨⟨.pos3, l⟩, ?_⟩
      rw [hl, ok_bind]
      have := zip_elementwise hv hw (hp.trans hc) (fun a b c _ hg => (qlax2_good lin_add a b c hg).1) hl
      have hb := this.built
      rw [hp] at hb
      exact hb
  · have hne : ∀ c : CCls, v.cls = c → (c = .radVel ∨ c = .radAcc) → v.add w = .error .noDispatch := by
      rintro c hc (rfl | rfl) <;> (unfold CVec.add; rw [hc])
    have htree : HasAdd v.cls → v.add w = treeMap2 (· + ·) v w := by
      intro ha
      unfold CVec.add
      split
      · rename_i h; exact absurd h hp
      · rename_i h; exact absurd h ha.1
      · rename_i h; exact absurd h ha.2
      · rfl
    constructor
    · rintro ⟨r, h⟩
      have ha : HasAdd v.cls := by
        constructor
        · intro e; rw [hne _ e (.inl rfl)] at h; cases h
        · intro e; rw [hne _ e (.inr rfl)] at h; cases h
      rw [htree ha] at h
      obtain ⟨_, k1, k2, k3⟩ := treeMap2_good lin_add hv hw h
      exact ⟨k1, ha, .inr k2, k3⟩
    · rintro ⟨hc, ha, hu, hs⟩
      rw [htree ha]
      exact treeMap2_total hc (hu.resolve_left hp) hs

/-- **C52.** When `v - w` returns. All classes raise as soon as the operands are not in the same units, and
`CartesianVel1D`, `CartesianVel2D`, `CartesianAcc2D` cannot be subtracted at all. -/
theorem C52_sub_returns (v w : CVec) (hv : BuiltC v) (hw : BuiltC w) :
    (∃ r, v.sub w = .ok r) ↔ v.cls = w.cls ∧ HasSub v.cls ∧ SameUnits v w ∧ CompsFit v w := by
  have htree : HasSub v.cls → v.sub w = treeMap2 (· - ·) v w := by
    intro ha
    unfold CVec.sub
    rcases ha with h | h | h | h | h | h <;> rw [h]
  have hno : ¬ HasSub v.cls → v.sub w = .error .noDispatch := by
    intro ha
    unfold CVec.sub
    unfold HasSub at ha
    split <;> first | rfl | (rename_i h; simp [h] at ha)
  constructor
  · rintro ⟨r, h⟩
    by_cases ha : HasSub v.cls
    · rw [htree ha] at h
      obtain ⟨_, k1, k2, k3⟩ := treeMap2_good lin_sub hv hw h
      exact ⟨k1, ha, k2, k3⟩
    · rw [hno ha] at h; cases h
  · rintro ⟨hc, ha, hu, hs⟩
    rw [htree ha]
    exact treeMap2_total hc hu hs

/-- `-v` always returns: every physical component changes sign, units and shapes are kept. -/
theorem C52_neg (v : CVec) (hv : BuiltC v) :
    v.neg.cls = v.cls ∧ BuiltC v.neg ∧ v.neg.comps.map QArr.unit = v.comps.map QArr.unit ∧
      v.neg.comps.map (fun q => q.arr.shape) = v.comps.map (fun q => q.arr.shape) ∧
      ∀ k idx, physComp v.neg k idx = - physComp v k idx := by
  obtain ⟨h1, h2⟩ := builtC_iff.mp hv
  refine ⟨rfl, builtC_iff.mpr ⟨by simp [CVec.neg, h1], ?_⟩, by simp [CVec.neg], by simp [CVec.neg, Arr.map], fun k idx => ?_⟩
  · intro q hq
    simp only [CVec.neg, mem_map] at hq
    obtain ⟨a, ha, rfl⟩ := hq
    exact h2 a ha
  · unfold physComp
    simp only [CVec.neg, getElem?_map]
    cases v.comps[k]? with
    | none => simp
    | some q => simp [physAt, Arr.map]

/-- the arrays a factor must be: no axis, or only empty ones (`any(shape)` is false) -/
def Spec.ScalarShape (s : List ℕ) : Prop := ∀ n ∈ s, n = 0

/-- The classes that can be multiplied by a number from the left. -/
def Spec.HasScale (c : CCls) : Prop :=
  c = .pos1 ∨ c = .pos2 ∨ c = .pos3 ∨ c = .vel1 ∨ c = .vel2 ∨ c = .acc1 ∨ c = .acc2

/-- the positions -/
def Spec.IsPos (c : CCls) : Prop := c = .pos1 ∨ c = .pos2 ∨ c = .pos3

theorem bc2_nil_left (t : List ℕ) : bc2 [] t = .ok t := by
  unfold bc2
  simp only [reverse_nil, bcRev, ok_bind, reverse_reverse]
  rfl

theorem mapM_rel {α β : Type} {f : α → Res β} {l : List α} {r : List β} (h : l.mapM f = .ok r) :
    Forall₂ (fun a b => f a = .ok b) l r := by
  induction l generalizing r with
  | nil => rw [mapM_nil] at h; obtain rfl := Except.ok.inj h; exact .nil
  | cons a l ih =>
    rw [mapM_cons] at h
    obtain ⟨b, h1, h⟩ := (bind_ok_iff _ _ _).mp h
    obtain ⟨m, h2, h⟩ := (bind_ok_iff _ _ _).mp h
    obtain rfl := Except.ok.inj h
    exact .cons h1 (ih h2)

theorem mapM_returns {α β : Type} {f : α → Res β} {l : List α} (h : ∀ a ∈ l, ∃ b, f a = .ok b) :
    ∃ r, l.mapM f = .ok r := by
  induction l with
  | nil => exact ⟨[], rfl⟩
  | cons a l ih =>
    obtain ⟨b, hb⟩ := h a (by simp)
    obtain ⟨r, hr⟩ := ih fun x hx => h x (by simp [hx])
    exact ⟨b :: r, by rw [mapM_cons, hb, ok_bind, hr, ok_bind]; rfl⟩

theorem forall₂_get? {α β : Type} {R : α → β → Prop} {l : List α} {m : List β} (h : Forall₂ R l m) (k : ℕ) :
    (∃ a b, l[k]? = some a ∧ m[k]? = some b ∧ R a b) ∨ (l[k]? = none ∧ m[k]? = none) := by
  induction h generalizing k with
  | nil => simp
  | cons h _ ih =>
    cases k with
    | zero => exact .inl ⟨_, _, rfl, rfl, h⟩
    | succ k => simpa using ih k

/-- an operation that multiplies every component by the same factor -/
theorem mapM_phys {f : QArr → Res QArr} {φ : List ℕ → ℝ} {v : CVec} {l : List QArr} (h : v.comps.mapM f = .ok l)
    (hf : ∀ q r, f q = .ok r → BroadcastsTo q.arr.shape r.arr.shape ∧
      ∀ S idx, BroadcastsTo r.arr.shape S → InB S idx →
        r.arr.elem idx * r.unit.scale = φ idx * (q.arr.elem idx * q.unit.scale))
    (c : CCls) (S idx : List ℕ) (hS : IsShape ⟨c, l⟩ S) (hi : InB S idx) (k : ℕ) :
    physComp ⟨c, l⟩ k idx = φ idx * physComp v k idx := by
  rcases forall₂_get? (mapM_rel h) k with ⟨a, b, ha, hb, hab⟩ | ⟨ha, hb⟩
  · obtain ⟨h1, h2⟩ := hf a b hab
    have hbS : BroadcastsTo b.arr.shape S := hS.1 _ (mem_map.mpr ⟨b, mem_of_getElem? hb, rfl⟩)
    rw [physComp_of_get ha, physComp_of_get (v := ⟨c, l⟩) hb, phys_elem hbS hi,
      phys_elem (broadcastsTo_trans h1 hbS) hi, h2 S idx hbS hi]
  · simp only [physComp, ha, hb, mul_zero]

theorem mapM_units {f : QArr → Res QArr} {l m : List QArr} (h : l.mapM f = .ok m) {g : UnitU → UnitU}
    (hf : ∀ q r, f q = .ok r → r.unit = g q.unit) : m.map QArr.unit = l.map fun q => g q.unit := by
  have := mapM_rel h
  clear h
  induction this with
  | nil => rfl
  | cons h _ ih => rw [map_cons, map_cons, ih, hf _ _ h]

theorem mapM_shapes {f : QArr → Res QArr} {l m : List QArr} (h : l.mapM f = .ok m)
    (hf : ∀ q r, f q = .ok r → r.arr.shape = q.arr.shape) :
    m.map (fun q => q.arr.shape) = l.map fun q => q.arr.shape := by
  have := mapM_rel h
  clear h
  induction this with
  | nil => rfl
  | cons h _ ih => rw [map_cons, map_cons, ih, hf _ _ h]

theorem map2_ok_inv {f : ℝ → ℝ → ℝ} {a b c : Arr ℝ} (h : Arr.map2 f a b = .ok c) :
    bc2 a.shape b.shape = .ok c.shape ∧ ∀ idx, c.elem idx = f (a.elem idx) (b.elem idx) := by
  have hs : ∃ u, bc2 a.shape b.shape = .ok u := by
    unfold Arr.map2 at h
    obtain ⟨u, h1, -⟩ := (bind_ok_iff _ _ _).mp h
    exact ⟨u, h1⟩
  obtain ⟨u, hu⟩ := hs
  obtain ⟨k1, k2, -⟩ := bc2_ok hu
  obtain ⟨c', h1, -, h3, h2⟩ := Arr.map2_spec (f := f) k1 k2
  rw [h] at h1
  obtain rfl := Except.ok.inj h1
  exact ⟨h3, h2⟩

theorem map2_returns {f : ℝ → ℝ → ℝ} {a b : Arr ℝ} {S : List ℕ} (ha : BroadcastsTo a.shape S)
    (hb : BroadcastsTo b.shape S) : ∃ c, Arr.map2 f a b = .ok c := by
  obtain ⟨c, h, -⟩ := Arr.map2_spec (f := f) ha hb
  exact ⟨c, h⟩

theorem mkC_of {c : CCls} {l : List QArr} (h1 : l.length = c.n) (h2 : ∀ q ∈ l, q.unit.dim = c.dim) :
    mkC c l = .ok ⟨c, l⟩ := mkC_ok_iff.mpr ⟨rfl, h1, h2⟩

theorem scale_inv {a : Arr ℝ} {q r : QArr} (h : q.scale a = .ok r) :
    r.unit = q.unit ∧ bc2 a.shape q.arr.shape = .ok r.arr.shape ∧
      ∀ idx, r.arr.elem idx = a.elem idx * q.arr.elem idx := by
  unfold QArr.scale at h
  obtain ⟨d, h1, h⟩ := (bind_ok_iff _ _ _).mp h
  obtain rfl := Except.ok.inj h
  exact ⟨rfl, (map2_ok_inv h1).1, (map2_ok_inv h1).2⟩

/-- all components are mapped to components of the same units: the constructor accepts the result -/
theorem mkC_mapM {f : QArr → Res QArr} {v : CVec} {l : List QArr} (hv : BuiltC v) (h : v.comps.mapM f = .ok l)
    (hf : ∀ q r, f q = .ok r → r.unit = q.unit) : BuiltC ⟨v.cls, l⟩ ∧ l.map QArr.unit = v.comps.map QArr.unit := by
  obtain ⟨h1, h2⟩ := builtC_iff.mp hv
  have hu : l.map QArr.unit = v.comps.map QArr.unit := mapM_units (g := id) h hf
  refine ⟨builtC_iff.mpr ⟨(mapM_rel h).length_eq.symm.trans h1, fun q hq => ?_⟩, hu⟩
  have : q.unit ∈ v.comps.map QArr.unit := hu ▸ mem_map_of_mem hq
  obtain ⟨a, ha, e⟩ := mem_map.mp this
  rw [← e]; exact h2 a ha

/-- **C52.** A number times a vector: every physical component is multiplied; class, units and shapes stay. It
returns exactly for the classes that have a rule; `v * x` exactly for positions. -/
theorem C52_scale (v : CVec) (hv : BuiltC v) (x : ℝ) :
    (HasScale v.cls → ∃ r, v.lmul (.scalar x) = .ok r ∧ r.cls = v.cls ∧ BuiltC r ∧
      r.comps.map QArr.unit = v.comps.map QArr.unit ∧
      r.comps.map (fun q => q.arr.shape) = v.comps.map (fun q => q.arr.shape) ∧
      ∀ S, IsShape r S → ∀ idx, InB S idx → ∀ k, physComp r k idx = x * physComp v k idx) ∧
    (IsPos v.cls → v.rmul (.scalar x) = v.lmul (.scalar x)) ∧
    (¬ HasScale v.cls → ∃ e, v.lmul (.scalar x) = .error e) ∧
    (¬ IsPos v.cls → ∃ e, v.rmul (.scalar x) = .error e) := by
  have hlm : HasScale v.cls → v.lmul (.scalar x) = (do mkC v.cls (← v.comps.mapM (QArr.scale (.scalar x)))) := by
    intro h
    unfold CVec.lmul
    have : (Arr.scalar x).shape.all (· = 0) = true := rfl
    rcases h with h | h | h | h | h | h | h <;> rw [h] <;> simp only [this, if_true]
  have hsc : ∀ q : QArr, ∃ r, q.scale (.scalar x) = .ok r := fun q => by
    obtain ⟨c, hc⟩ := map2_returns (f := (· * ·)) (a := .scalar x) (b := q.arr) (S := q.arr.shape)
      (broadcastsTo_nil _) (broadcastsTo_refl _)
    exact ⟨_, by rw [QArr.scale, hc, ok_bind]; rfl⟩
  refine ⟨fun h => ?_, fun h => ?_, fun h => ?_, fun h => ?_⟩
  · obtain ⟨l, hl⟩ := mapM_returns (l := v.comps) (f := QArr.scale (.scalar x)) fun q _ => hsc q
    obtain ⟨hb, hu⟩ := mkC_mapM hv hl fun q r hr => (scale_inv hr).1
    have hshape : ∀ q r : QArr, q.scale (.scalar x) = .ok r → r.arr.shape = q.arr.shape := fun q r hr => by
      have h1 := (scale_inv hr).2.1
      have : (Arr.scalar x).shape = [] := rfl
      rw [this, bc2_nil_left] at h1
      exact (Except.ok.inj h1).symm
    refine ⟨⟨v.cls, l⟩, ?_, rfl, hb, hu, ?_, fun S hS idx hi k => ?_⟩
    · rw [hlm h, hl, ok_bind]; exact hb
    · exact mapM_shapes hl hshape
    · refine mapM_phys (φ := fun _ => x) hl (fun q r hr => ?_) v.cls S idx hS hi k
      refine ⟨hshape q r hr ▸ broadcastsTo_refl _, fun S idx _ _ => ?_⟩
      rw [(scale_inv hr).2.2, (scale_inv hr).1, Arr.scalar_elem]; ring
  · unfold CVec.rmul
    rcases h with h | h | h <;> rw [h]
  · refine ⟨.noDispatch, ?_⟩
    unfold CVec.lmul
    unfold HasScale at h
    split <;> first | rfl | (rename_i e; simp [e] at h)
  · refine ⟨.noDispatch, ?_⟩
    unfold CVec.rmul
    unfold IsPos at h
    split <;> first | rfl | (rename_i e; simp [e] at h)

/-- **C52.** A factor that is an array with a non-empty axis is rejected, whatever its shape. -/
theorem C52_scale_array_rejected (v : CVec) (a : Arr ℝ) (h : ∃ n ∈ a.shape, n ≠ 0) : ∃ e, v.lmul a = .error e := by
  have ha : a.shape.all (· = 0) = false := by
    rw [all_eq_false]
    obtain ⟨n, h1, h2⟩ := h
    exact ⟨n, h1, by simpa using h2⟩
  unfold CVec.lmul
  split
  all_goals first
    | exact ⟨_, rfl⟩
    | (rw [ha]; exact ⟨_, rfl⟩)

theorem divide_inv {a : Arr ℝ} {q r : QArr} (h : q.divide a = .ok r) :
    (∀ idx, InB a.shape idx → a.get idx ≠ 0) ∧ r.unit = q.unit ∧ bc2 q.arr.shape a.shape = .ok r.arr.shape ∧
      ∀ idx, r.arr.elem idx = q.arr.elem idx / a.elem idx := by
  unfold QArr.divide at h
  split at h
  · cases h
  · rename_i hn
    push Not at hn
    obtain ⟨d, h1, h⟩ := (bind_ok_iff _ _ _).mp h
    obtain rfl := Except.ok.inj h
    exact ⟨hn, rfl, (map2_ok_inv h1).1, (map2_ok_inv h1).2⟩

/-- **C52.** A position divided by an array of numbers (of any shape that broadcasts): each element is divided by
the number at its place, all of which are non-zero. Velocities and accelerations cannot be divided. -/
theorem C52_divide (v r : CVec) (hv : BuiltC v) (a : Arr ℝ) (h : v.divide a = .ok r) :
    IsPos v.cls ∧ r.cls = v.cls ∧ BuiltC r ∧ r.comps.map QArr.unit = v.comps.map QArr.unit ∧
      ∀ S, IsShape r S → ∀ idx, InB S idx →
        a.get (bcSource a.shape idx) ≠ 0 ∧ ∀ k, physComp r k idx = physComp v k idx / a.get (bcSource a.shape idx) := by
  have hp : IsPos v.cls := by
    unfold CVec.divide at h
    split at h
    · rename_i e; exact .inl e
    · rename_i e; exact .inr (.inl e)
    · rename_i e; exact .inr (.inr e)
    · cases h
  have hd : v.divide a = (do mkC v.cls (← v.comps.mapM (QArr.divide a))) := by
    unfold CVec.divide
    rcases hp with e | e | e <;> rw [e]
  rw [hd] at h
  obtain ⟨l, hl, h⟩ := (bind_ok_iff _ _ _).mp h
  obtain ⟨rfl, -⟩ := mkC_ok_iff.mp h
  obtain ⟨hb, hu⟩ := mkC_mapM hv hl fun q r hr => (divide_inv hr).2.1
  refine ⟨hp, rfl, hb, hu, fun S hS idx hi => ?_⟩
  have hcomp : ∃ q r, q ∈ v.comps ∧ r ∈ l ∧ q.divide a = .ok r := by
    have hn := n_pos v.cls
    rw [← (builtC_iff.mp hv).1] at hn
    rcases forall₂_get? (mapM_rel hl) 0 with ⟨q, r, h1, h2, h3⟩ | ⟨h1, -⟩
    · exact ⟨q, r, mem_of_getElem? h1, mem_of_getElem? h2, h3⟩
    · rw [getElem?_eq_none_iff] at h1; omega
  obtain ⟨q0, r0, -, hr0, hq0⟩ := hcomp
  have hr0S : BroadcastsTo r0.arr.shape S := hS.1 _ (mem_map.mpr ⟨r0, hr0, rfl⟩)
  have haS : BroadcastsTo a.shape S := broadcastsTo_trans (bc2_ok (divide_inv hq0).2.2.1).2.1 hr0S
  obtain ⟨ea, ia⟩ := Arr.elem_get haS hi
  refine ⟨(divide_inv hq0).1 _ ia, fun k => ?_⟩
  rw [← ea, div_eq_inv_mul]
  refine mapM_phys (φ := fun idx => (a.elem idx)⁻¹) hl (fun q r hr => ?_) v.cls S idx hS hi k
  refine ⟨(bc2_ok (divide_inv hr).2.2.1).1, fun S idx _ _ => ?_⟩
  rw [(divide_inv hr).2.2.2, (divide_inv hr).2.1]; ring

/-- **C52.** When `v / a` returns: exactly for positions, divisors without a zero, and shapes that broadcast. -/
theorem C52_divide_returns (v : CVec) (hv : BuiltC v) (a : Arr ℝ) :
    (∃ r, v.divide a = .ok r) ↔ IsPos v.cls ∧ (∀ idx, InB a.shape idx → a.get idx ≠ 0) ∧
      ∀ q ∈ v.comps, ∃ S, BroadcastsTo q.arr.shape S ∧ BroadcastsTo a.shape S := by
  have hd : IsPos v.cls → v.divide a = (do mkC v.cls (← v.comps.mapM (QArr.divide a))) := fun hp => by
    unfold CVec.divide
    rcases hp with e | e | e <;> rw [e]
  constructor
  · rintro ⟨r, h⟩
    have hp := (C52_divide v r hv a h).1
    rw [hd hp] at h
    obtain ⟨l, hl, -⟩ := (bind_ok_iff _ _ _).mp h
    have hget : ∀ k (hk : k < v.comps.length), ∃ b, v.comps[k].divide a = .ok b := fun k hk => by
      rcases forall₂_get? (mapM_rel hl) k with ⟨x, b, hx, -, hab⟩ | ⟨hx, -⟩
      · have : v.comps[k] = x := by rw [getElem?_eq_getElem hk] at hx; exact Option.some.inj hx
        exact ⟨b, this ▸ hab⟩
      · rw [getElem?_eq_none_iff] at hx; omega
    refine ⟨hp, ?_, fun q hq => ?_⟩
    · have hn := n_pos v.cls
      rw [← (builtC_iff.mp hv).1] at hn
      obtain ⟨b, hb⟩ := hget 0 hn
      exact (divide_inv hb).1
    · obtain ⟨k, hk, rfl⟩ := mem_iff_getElem.mp hq
      obtain ⟨b, hb⟩ := hget k hk
      have := bc2_ok (divide_inv hb).2.2.1
      exact ⟨_, this.1, this.2.1⟩
  · rintro ⟨hp, h0, hs⟩
    obtain ⟨l, hl⟩ := mapM_returns (l := v.comps) (f := QArr.divide a) fun q hq => by
      obtain ⟨S, h1, h2⟩ := hs q hq
      obtain ⟨d, hd⟩ := map2_returns (f := (· / ·)) h1 h2
      refine ⟨⟨q.unit, d⟩, ?_⟩
      rw [QArr.divide, if_neg, hd, ok_bind]
      · rfl
      · rintro ⟨idx, h3, h4⟩; exact h0 idx h3 h4
    refine ⟨⟨v.cls, l⟩, ?_⟩
    rw [hd hp, hl, ok_bind]
    exact (mkC_mapM hv hl fun q r hr => (divide_inv hr).2.1).1

/-! ### norm -/

theorem bc2_nil_right (t : List ℕ) : bc2 t [] = .ok t := by
  unfold bc2
  cases h : t.reverse with
  | nil => simp only [reverse_nil, bcRev, ok_bind]; simp at h; rw [h]; rfl
  | cons a l =>
    simp only [reverse_nil, bcRev, ok_bind]
    rw [← h, reverse_reverse]; rfl

theorem sumSquares_good {un : UnitU} {l : List QArr} {a : Arr ℝ} (h : sumSquares un l = .ok a) :
    broadcastShapes (l.map fun q => q.arr.shape) = .ok a.shape ∧
      ∀ idx, a.elem idx * (un.scale * un.scale)
        = (l.map fun q => (q.arr.elem idx * q.unit.scale) ^ 2).sum := by
  induction l generalizing a with
  | nil =>
    rw [sumSquares] at h
    obtain rfl := Except.ok.inj h
    exact ⟨rfl, fun idx => by rw [Arr.scalar_elem]; simp⟩
  | cons q l ih =>
    cases l with
    | nil =>
      rw [sumSquares] at h
      obtain ⟨q', h1, h⟩ := (bind_ok_iff _ _ _).mp h
      obtain rfl := Except.ok.inj h
      obtain ⟨-, -, u2, u3⟩ := qconvert_ok h1
      refine ⟨?_, fun idx => ?_⟩
      · simp only [map_cons, map_nil, broadcastShapes, ok_bind, bc2_nil_right]
        rw [← u2]; rfl
      · rw [Arr.map_elem, map_cons, map_nil, sum_cons, sum_nil, ← u3]; ring
    | cons q2 l =>
      rw [sumSquares] at h
      · obtain ⟨q', h1, h⟩ := (bind_ok_iff _ _ _).mp h
        obtain ⟨b, h2, h⟩ := (bind_ok_iff _ _ _).mp h
        obtain ⟨-, -, u2, u3⟩ := qconvert_ok h1
        obtain ⟨k1, k2⟩ := ih h2
        obtain ⟨m1, m2⟩ := map2_ok_inv h
        refine ⟨?_, fun idx => ?_⟩
        · rw [map_cons, broadcastShapes, k1, ok_bind, ← u2]; exact m1
        · rw [map_cons, sum_cons, ← k2, m2, Arr.map_elem, ← u3]; ring
      · simp

theorem sumSquares_total {un : UnitU} {l : List QArr} {S : List ℕ} (hd : ∀ q ∈ l, un.dim = q.unit.dim)
    (hS : ∀ q ∈ l, BroadcastsTo q.arr.shape S) : ∃ a, sumSquares un l = .ok a ∧ BroadcastsTo a.shape S := by
  induction l with
  | nil => exact ⟨_, rfl, broadcastsTo_nil _⟩
  | cons q l ih =>
    obtain ⟨q', h1, h2⟩ := qconvert_total (hd q (by simp))
    have hq : BroadcastsTo q'.arr.shape S := h2 ▸ hS q (by simp)
    cases l with
    | nil => exact ⟨q'.arr.map fun x => x * x, by rw [sumSquares, h1, ok_bind]; rfl, hq⟩
    | cons q2 l =>
      obtain ⟨b, k1, k2⟩ := ih (fun q h => hd q (by simp [h])) (fun q h => hS q (by simp [h]))
      obtain ⟨c, m1, m2, -⟩ := Arr.map2_spec (f := (· + ·)) (a := q'.arr.map fun x => x * x) (b := b) (S := S) hq k2
      refine ⟨c, ?_, m2⟩
      rw [sumSquares]
      · rw [h1, ok_bind, k1, ok_bind, m1]
      · simp

/-- The velocities and accelerations that have a norm of their own. -/
def Spec.HasNorm (c : CCls) : Prop := c = .vel1 ∨ c = .acc1 ∨ c = .acc2 ∨ c = .vel3 ∨ c = .acc3

theorem sum_phys {v : CVec} (hv : BuiltC v) {S idx : List ℕ} (hS : IsShape v S) (hi : InB S idx) :
    (v.comps.map fun q => (q.arr.elem idx * q.unit.scale) ^ 2).sum
      = ((List.range v.cls.n).map fun k => physComp v k idx ^ 2).sum := by
  congr 1
  apply List.ext_getElem?
  intro k
  rw [getElem?_map, getElem?_map]
  have hl := (builtC_iff.mp hv).1
  by_cases hk : k < v.comps.length
  · have hg : v.comps[k]? = some v.comps[k] := getElem?_eq_getElem hk
    rw [hg, getElem?_range (hl ▸ hk)]
    simp only [Option.map_some]
    rw [physComp_of_get hg, phys_elem (hS.1 _ (mem_map.mpr ⟨_, getElem_mem hk, rfl⟩)) hi]
  · rw [getElem?_eq_none (by simpa using hk), getElem?_eq_none (by simpa [hl] using hk)]
    rfl

/-- **C52.** `v.norm()` of Cartesian velocities and accelerations: when the components have a common batch shape,
the result has that shape, the unit of the first component, and each element is the Euclidean norm of the
physical components. `CartesianVel2D` and the radial classes raise. -/
theorem C52_norm (v : CVec) (hv : BuiltC v) :
    (∀ S, HasNorm v.cls → IsShape v S → ∃ q, v.norm = .ok q ∧ q.arr.shape = S ∧
      some q.unit = v.comps.head?.map QArr.unit ∧
      ∀ idx, InB S idx → physAt q idx = √ ((List.range v.cls.n).map fun k => physComp v k idx ^ 2).sum) ∧
    ((∃ q, v.norm = .ok q) → HasNorm v.cls ∧ ∃ S, IsShape v S) := by
  obtain ⟨hl, hd⟩ := builtC_iff.mp hv
  have habs : (v.cls = .vel1 ∨ v.cls = .acc1) → ∃ q, v.comps = [q] ∧
      v.norm = .ok ⟨q.unit, q.arr.map fun x => |x|⟩ := fun h => by
    have : v.comps.length = 1 := by rcases h with h | h <;> rw [hl, h] <;> rfl
    obtain ⟨q, hq⟩ := length_eq_one_iff.mp this
    refine ⟨q, hq, ?_⟩
    unfold CVec.norm
    rcases h with h | h <;> rw [h, hq]
  have hsq : (v.cls = .acc2 ∨ v.cls = .vel3 ∨ v.cls = .acc3) → ∃ q l, v.comps = q :: l ∧
      v.norm = (do return ⟨q.unit, (← sumSquares q.unit (q :: l)).map Real.sqrt⟩) := fun h => by
    cases hc : v.comps with
    | nil => rw [hc] at hl; have := n_pos v.cls; simp at hl; omega
    | cons q l =>
      refine ⟨q, l, rfl, ?_⟩
      unfold CVec.norm
      rcases h with h | h | h <;> rw [h, hc]
  constructor
  · intro S hn hS
    have hcases : (v.cls = .vel1 ∨ v.cls = .acc1) ∨ (v.cls = .acc2 ∨ v.cls = .vel3 ∨ v.cls = .acc3) := by
      unfold HasNorm at hn; tauto
    rcases hcases with h | h
    · obtain ⟨q, hq, he⟩ := habs h
      have hs : S = q.arr.shape := by
        have : IsBroadcast [q.arr.shape] S := by simpa [IsShape, hq] using hS
        exact broadcastsTo_antisymm (this.2 _ (by simp [broadcastsTo_refl])) (this.1 _ (by simp))
      refine ⟨_, he, hs.symm, by simp [hq], fun idx hi => ?_⟩
      rw [← sum_phys hv hS hi, hq]
      simp only [map_cons, map_nil, sum_cons, sum_nil, add_zero]
      rw [Real.sqrt_sq_eq_abs, abs_mul, abs_of_pos q.unit.pos,
        (Arr.elem_get (by rw [hs]; exact broadcastsTo_refl _) hi).1, bcSource_self (hs ▸ hi)]
      rfl
    · obtain ⟨q, l, hq, he⟩ := hsq h
      obtain ⟨a, ha, -⟩ := sumSquares_total (un := q.unit) (l := v.comps) (S := S)
        (fun r hr => by rw [hd r hr, hd q (by rw [hq]; simp)])
        (fun r hr => hS.1 _ (mem_map.mpr ⟨r, hr, rfl⟩))
      obtain ⟨k1, k2⟩ := sumSquares_good ha
      have hs : a.shape = S := by
        have := (broadcastShapes_iff _ _).mpr hS
        rw [k1] at this
        exact Except.ok.inj this
      refine ⟨⟨q.unit, a.map Real.sqrt⟩, ?_, hs, by simp [hq], fun idx hi => ?_⟩
      · rw [he, ← hq, ha, ok_bind]; rfl
      · rw [← sum_phys hv hS hi, ← k2, ← pow_two, Real.sqrt_mul' _ (sq_nonneg _), Real.sqrt_sq q.unit.pos.le,
          (Arr.elem_get (by rw [hs]; exact broadcastsTo_refl _) hi).1, bcSource_self (hs.symm ▸ hi)]
        rfl
  · rintro ⟨r, hr⟩
    by_cases hn : HasNorm v.cls
    · refine ⟨hn, ?_⟩
      have hcases : (v.cls = .vel1 ∨ v.cls = .acc1) ∨ (v.cls = .acc2 ∨ v.cls = .vel3 ∨ v.cls = .acc3) := by
        unfold HasNorm at hn; tauto
      rcases hcases with h | h
      · obtain ⟨q, hq, -⟩ := habs h
        exact ⟨q.arr.shape, by rw [IsShape, hq]; exact ⟨by simp [broadcastsTo_refl], fun u hu => hu _ (by simp)⟩⟩
      · obtain ⟨q, l, hq, he⟩ := hsq h
        rw [he] at hr
        obtain ⟨a, ha, -⟩ := (bind_ok_iff _ _ _).mp hr
        exact ⟨a.shape, (broadcastShapes_iff _ _).mp (by rw [hq]; exact (sumSquares_good ha).1)⟩
    · exfalso
      unfold CVec.norm at hr
      unfold HasNorm at hn
      split at hr <;> first | (cases hr; done) | (rename_i e _; simp [e] at hn)

/-! ### equality -/

theorem leafEq_good {a b : QArr} {c : Arr Bool} (h : leafEq a b = .ok c) :
    a.unit.dim = b.unit.dim ∧ a.unit.scale = b.unit.scale ∧ bc2 a.arr.shape b.arr.shape = .ok c.shape ∧
      ∀ idx, c.elem idx = true ↔ a.arr.elem idx = b.arr.elem idx := by
  unfold leafEq at h
  split at h
  · rename_i hu
    have hs : ∃ u, bc2 a.arr.shape b.arr.shape = .ok u := by
      unfold Arr.map2 at h
      obtain ⟨u, h1, -⟩ := (bind_ok_iff _ _ _).mp h
      exact ⟨u, h1⟩
    obtain ⟨u, hu'⟩ := hs
    obtain ⟨k1, k2, -⟩ := bc2_ok hu'
    obtain ⟨c', h1, -, h3, h2⟩ := Arr.map2_spec (f := fun x y : ℝ => decide (x = y)) k1 k2
    have hcc : c = c' := by
      have := h.symm.trans h1
      exact Except.ok.inj this
    subst hcc
    exact ⟨hu.1, hu.2, h3, fun idx => by rw [h2]; simp⟩
  · cases h

theorem leafEq_total {a b : QArr} {S : List ℕ} (hu : a.unit.dim = b.unit.dim ∧ a.unit.scale = b.unit.scale)
    (hS : IsBroadcast [a.arr.shape, b.arr.shape] S) : ∃ c, leafEq a b = .ok c ∧ c.shape = S := by
  obtain ⟨c, h1, h2, h3, -⟩ := Arr.map2_spec (f := fun x y : ℝ => decide (x = y)) (a := a.arr) (b := b.arr)
    (hS.1 _ (by simp)) (hS.1 _ (by simp))
  have hm := (bc2_ok h3)
  refine ⟨c, ?_, broadcastsTo_antisymm h2 (hS.2 _ (by simp [hm.1, hm.2.1]))⟩
  rw [leafEq, if_pos (show a.unit.same b.unit from hu), ← h1]

theorem leavesEq_ok {l m : List QArr} {r : List (Arr Bool)} (hl : l.length = m.length) (h : leavesEq l m = .ok r) :
    Forall₂ (fun a b => ∃ c ∈ r, leafEq a b = .ok c) l m ∧ ∀ c ∈ r, ∃ (k : ℕ) (a b : QArr), l[k]? = some a ∧ m[k]? = some b ∧ leafEq a b = .ok c := by
  induction l generalizing m r with
  | nil =>
    cases m with
    | nil => rw [leavesEq] at h; · obtain rfl := Except.ok.inj h; exact ⟨.nil, by simp⟩
             · simp
    | cons => simp at hl
  | cons a l ih =>
    cases m with
    | nil => simp at hl
    | cons b m =>
      rw [leavesEq] at h
      obtain ⟨c, h1, h⟩ := (bind_ok_iff _ _ _).mp h
      obtain ⟨r', h2, h⟩ := (bind_ok_iff _ _ _).mp h
      obtain rfl := Except.ok.inj h
      obtain ⟨k1, k2⟩ := ih (by simpa using hl) h2
      refine ⟨.cons ⟨c, by simp, h1⟩ (k1.imp fun x y ⟨z, hz, e⟩ => ⟨z, by simp [hz], e⟩), fun d hd => ?_⟩
      rcases mem_cons.mp hd with rfl | hd
      · exact ⟨0, a, b, rfl, rfl, h1⟩
      · obtain ⟨k, x, y, e1, e2, e3⟩ := k2 d hd
        exact ⟨k + 1, x, y, by simpa using e1, by simpa using e2, e3⟩

theorem leavesEq_total {l m : List QArr} (h : Forall₂ (fun a b => ∃ c, leafEq a b = .ok c) l m) :
    ∃ r, leavesEq l m = .ok r ∧ r.length = l.length := by
  induction h with
  | nil => exact ⟨[], rfl, rfl⟩
  | cons h _ ih =>
    obtain ⟨c, hc⟩ := h
    obtain ⟨r, hr, hlen⟩ := ih
    exact ⟨c :: r, by rw [leavesEq, hc, ok_bind, hr, ok_bind]; rfl, by simp [hlen]⟩

/-- **C52.** `v == w` of two vectors of one Cartesian class. It returns exactly when the units agree component by
component and all pairs of components broadcast to one and the same shape; the result has that shape and says
for every element whether all physical components agree. -/
theorem C52_eq (v w : CVec) (hv : BuiltC v) (hw : BuiltC w) :
    (∀ c, v.eq w = .ok c → ∀ idx, InB c.shape idx →
      (c.get idx = true ↔ ∀ k < v.cls.n, physComp v k idx = physComp w k idx)) ∧
    ∀ S, (∃ c, v.eq w = .ok c ∧ c.shape = S) ↔ v.cls = w.cls ∧ SameUnits v w ∧
      Forall₂ (fun a b : QArr => IsBroadcast [a.arr.shape, b.arr.shape] S) v.comps w.comps := by
  obtain ⟨hv1, -⟩ := builtC_iff.mp hv
  obtain ⟨hw1, -⟩ := builtC_iff.mp hw
  have hbc : ∀ {s t u : List ℕ}, bc2 s t = .ok u → IsBroadcast [s, t] u := fun h =>
    ⟨by simp [(bc2_ok h).1, (bc2_ok h).2.1], fun x hx => (bc2_ok h).2.2 x (hx _ (by simp)) (hx _ (by simp))⟩
  have inv : ∀ c, v.eq w = .ok c → v.cls = w.cls ∧ ∃ r, r ≠ [] ∧ leavesEq v.comps w.comps = .ok r ∧
      (∀ d ∈ r, d.shape = c.shape) ∧ ∀ idx, c.get idx = r.all fun d => d.get idx := by
    intro c h
    unfold CVec.eq at h
    split at h
    · rename_i hc
      obtain ⟨r, h1, h⟩ := (bind_ok_iff _ _ _).mp h
      refine ⟨hc, r, ?_⟩
      unfold allLeaves at h
      split at h
      · cases h
      · rename_i c0 l
        split at h
        · rename_i hall
          obtain rfl := Except.ok.inj h
          refine ⟨by simp, h1, fun d hd => ?_, fun idx => rfl⟩
          rcases mem_cons.mp hd with rfl | hd
          · rfl
          · have := all_eq_true.mp hall d hd
            simpa using this
        · cases h
    · cases h
  constructor
  · intro c h idx hi
    obtain ⟨hc, r, hne, h1, h2, h3⟩ := inv c h
    have hlen : v.comps.length = w.comps.length := by rw [hv1, hw1, hc]
    obtain ⟨k1, k2⟩ := leavesEq_ok hlen h1
    have hleaf : ∀ (k : ℕ) a b d, v.comps[k]? = some a → w.comps[k]? = some b → d ∈ r → leafEq a b = .ok d →
        (d.get idx = true ↔ physComp v k idx = physComp w k idx) := by
      intro k a b d ha hb hd hab
      obtain ⟨-, e1, e2, e3⟩ := leafEq_good hab
      rw [h2 d hd] at e2
      obtain ⟨b1, b2, -⟩ := bc2_ok e2
      rw [physComp_of_get ha, physComp_of_get hb, phys_elem b1 hi, phys_elem b2 hi, e1]
      have hdel : d.elem idx = d.get idx := by
        rw [(Arr.elem_get (by rw [h2 d hd]; exact broadcastsTo_refl _) hi).1, bcSource_self (h2 d hd ▸ hi)]
      rw [← hdel, e3, mul_left_inj' b.unit.pos.ne']
    rw [h3, all_eq_true]
    constructor
    · intro hall k hk
      have hk' : k < v.comps.length := hv1 ▸ hk
      obtain ⟨d, hd, hab⟩ := (forall₂_iff_get.mp k1).2 k hk' (hlen ▸ hk')
      exact (hleaf k _ _ d (by simp [hk']) (by simp [hlen ▸ hk']) hd hab).mp (hall d hd)
    · intro hall d hd
      obtain ⟨k, a, b, ha, hb, hab⟩ := k2 d hd
      refine (hleaf k a b d ha hb hd hab).mpr (hall k ?_)
      rw [← hv1]; exact (List.getElem?_eq_some_iff.mp ha).1
  · intro S
    constructor
    · rintro ⟨c, h, rfl⟩
      obtain ⟨hc, r, hne, h1, h2, h3⟩ := inv c h
      have hlen : v.comps.length = w.comps.length := by rw [hv1, hw1, hc]
      obtain ⟨k1, -⟩ := leavesEq_ok hlen h1
      exact ⟨hc, k1.imp fun a b ⟨d, hd, hab⟩ => ⟨(leafEq_good hab).1, (leafEq_good hab).2.1⟩,
        k1.imp fun a b ⟨d, hd, hab⟩ => hbc (h2 d hd ▸ (leafEq_good hab).2.2.1)⟩
    · rintro ⟨hc, hu, hs⟩
      have hlen : v.comps.length = w.comps.length := by rw [hv1, hw1, hc]
      obtain ⟨r, hr, hrl⟩ := leavesEq_total ((forall₂_and hu hs).imp fun a b h =>
        (leafEq_total h.1 h.2).imp fun c hc => hc.1)
      have hshape : ∀ d ∈ r, d.shape = S := by
        intro d hd
        obtain ⟨k, a, b, ha, hb, hab⟩ := (leavesEq_ok hlen hr).2 d hd
        have h1 := hbc (leafEq_good hab).2.2.1
        have hk := (List.getElem?_eq_some_iff.mp ha).1
        have h2 := (forall₂_iff_get.mp hs).2 k hk (hlen ▸ hk)
        have ea : v.comps.get ⟨k, hk⟩ = a := by have := List.getElem?_eq_some_iff.mp ha; exact this.2
        have eb : w.comps.get ⟨k, hlen ▸ hk⟩ = b := by have := List.getElem?_eq_some_iff.mp hb; exact this.2
        rw [ea, eb] at h2
        exact broadcastsTo_antisymm (h1.2 _ h2.1) (h2.2 _ h1.1)
      cases r with
      | nil => have := n_pos v.cls; simp at hrl; omega
      | cons c0 l =>
        refine ⟨⟨c0.shape, fun idx => (c0 :: l).all fun d => d.get idx⟩, ?_, hshape c0 (by simp)⟩
        rw [CVec.eq, if_pos hc, hr, ok_bind, allLeaves, if_pos]
        rw [all_eq_true]
        intro d hd
        rw [hshape d (by simp [hd]), hshape c0 (by simp)]
        simp

/-! ### times a time -/

/-- the class of `v * t`, where `t` is a time (`1`) or a squared time (`2`) -/
inductive Spec.TimesTo : CCls → ℤ → CCls → Prop where
  | vel1 : TimesTo .vel1 1 .pos1
  | vel2 : TimesTo .vel2 1 .pos2
  | vel3 : TimesTo .vel3 1 .pos3
  | acc1 : TimesTo .acc1 1 .vel1
  | acc2 : TimesTo .acc2 1 .vel2
  | acc3 : TimesTo .acc3 1 .vel3
  | acc1' : TimesTo .acc1 2 .pos1
  | acc2' : TimesTo .acc2 2 .pos2
  | acc3' : TimesTo .acc3 2 .pos3

theorem times_some {c c' : CCls} {d : Dim} : c.times d = some c' ↔ ∃ j, d = { time := j } ∧ TimesTo c j c' := by
  constructor
  · intro h
    cases c <;> simp only [CCls.times] at h
    all_goals first
      | cases h
      | (split at h
         · rename_i e
           cases h
           exact ⟨1, e, by constructor⟩
         · first
             | cases h
             | (split at h
                · rename_i e
                  cases h
                  exact ⟨2, e, by constructor⟩
                · cases h))
  · rintro ⟨j, rfl, h⟩
    cases h <;> rfl

theorem mul_inv {a b c : QArr} (h : a.mul b = .ok c) :
    c.unit = a.unit.mul b.unit ∧ bc2 a.arr.shape b.arr.shape = .ok c.arr.shape ∧
      ∀ idx, c.arr.elem idx * c.unit.scale = (a.arr.elem idx * a.unit.scale) * (b.arr.elem idx * b.unit.scale) := by
  unfold QArr.mul at h
  obtain ⟨d, h1, h⟩ := (bind_ok_iff _ _ _).mp h
  obtain rfl := Except.ok.inj h
  refine ⟨rfl, (map2_ok_inv h1).1, fun idx => ?_⟩
  show d.elem idx * (a.unit.scale * b.unit.scale) = _
  rw [(map2_ok_inv h1).2]; ring

theorem times_dim {c c' : CCls} {j : ℤ} (h : TimesTo c j c') : c.dim.mul { time := j } = c'.dim ∧ c.n = c'.n := by
  cases h <;> exact ⟨rfl, rfl⟩

/-- **C52.** `v * t` for a Quantity `t` of times (or squared times) of any shape: it returns exactly when the class
has a rule and every component broadcasts against `t`; the result is of the class of the integrated quantity
and each physical component of each element is multiplied by the time at that element. -/
theorem C52_times (v : CVec) (hv : BuiltC v) (t : QArr) :
    (∀ r, v.times t = .ok r → (∃ j, t.unit.dim = { time := j } ∧ TimesTo v.cls j r.cls) ∧ BuiltC r ∧
      ∀ S idx, IsShape r S → InB S idx → ∀ k,
        physComp r k idx = physAt t (bcSource t.arr.shape idx) * physComp v k idx) ∧
    ((∃ r, v.times t = .ok r) ↔ (∃ j c, t.unit.dim = { time := j } ∧ TimesTo v.cls j c) ∧
      ∀ q ∈ v.comps, ∃ S, BroadcastsTo q.arr.shape S ∧ BroadcastsTo t.arr.shape S) := by
  obtain ⟨hv1, hv2⟩ := builtC_iff.mp hv
  constructor
  · intro r h
    unfold CVec.times at h
    split at h
    · rename_i c hc
      obtain ⟨j, hj, ht⟩ := times_some.mp hc
      obtain ⟨l, hl, h⟩ := (bind_ok_iff _ _ _).mp h
      obtain ⟨rfl, hb1, hb2⟩ := mkC_ok_iff.mp h
      refine ⟨⟨j, hj, ht⟩, builtC_iff.mpr ⟨hb1, hb2⟩, fun S idx hS hi k => ?_⟩
      have hcomp : ∃ q r, q ∈ v.comps ∧ r ∈ l ∧ q.mul t = .ok r := by
        have hn := n_pos v.cls
        rw [← hv1] at hn
        rcases forall₂_get? (mapM_rel hl) 0 with ⟨q, r, h1, h2, h3⟩ | ⟨h1, -⟩
        · exact ⟨q, r, mem_of_getElem? h1, mem_of_getElem? h2, h3⟩
        · rw [getElem?_eq_none_iff] at h1; omega
      obtain ⟨q0, r0, -, hr0, hq0⟩ := hcomp
      have hr0S : BroadcastsTo r0.arr.shape S := hS.1 _ (mem_map.mpr ⟨r0, hr0, rfl⟩)
      have htS : BroadcastsTo t.arr.shape S := broadcastsTo_trans (bc2_ok (mul_inv hq0).2.1).2.1 hr0S
      rw [phys_elem htS hi]
      refine mapM_phys (φ := fun idx => t.arr.elem idx * t.unit.scale) hl (fun q r hr => ?_) c S idx hS hi k
      refine ⟨(bc2_ok (mul_inv hr).2.1).1, fun S idx _ _ => ?_⟩
      rw [(mul_inv hr).2.2]; ring
    · cases h
  · constructor
    · rintro ⟨r, h⟩
      unfold CVec.times at h
      split at h
      · rename_i c hc
        obtain ⟨j, hj, ht⟩ := times_some.mp hc
        obtain ⟨l, hl, h⟩ := (bind_ok_iff _ _ _).mp h
        refine ⟨⟨j, c, hj, ht⟩, fun q hq => ?_⟩
        obtain ⟨k, hk, rfl⟩ := mem_iff_getElem.mp hq
        rcases forall₂_get? (mapM_rel hl) k with ⟨a, b, ha, hb, hab⟩ | ⟨ha, -⟩
        · have : v.comps[k] = a := by rw [getElem?_eq_getElem hk] at ha; exact Option.some.inj ha
          rw [this]
          have := bc2_ok (mul_inv hab).2.1
          exact ⟨_, this.1, this.2.1⟩
        · rw [getElem?_eq_none_iff] at ha; omega
      · cases h
    · rintro ⟨⟨j, c, hj, ht⟩, hs⟩
      have hc := times_some.mpr ⟨j, hj, ht⟩
      obtain ⟨l, hl⟩ := mapM_returns (l := v.comps) (f := fun q => q.mul t) fun q hq => by
        obtain ⟨S, h1, h2⟩ := hs q hq
        obtain ⟨d, hd⟩ := map2_returns (f := (· * ·)) h1 h2
        exact ⟨_, by rw [QArr.mul, hd, ok_bind]; rfl⟩
      refine ⟨⟨c, l⟩, ?_⟩
      unfold CVec.times
      rw [hc]
      simp only [hl, ok_bind]
      refine mkC_of ((mapM_rel hl).length_eq.symm.trans (hv1.trans (times_dim ht).2)) fun q hq => ?_
      obtain ⟨k, hk, rfl⟩ := mem_iff_getElem.mp hq
      rcases forall₂_get? (mapM_rel hl) k with ⟨a, b, ha, hb, hab⟩ | ⟨-, hb⟩
      · have : l[k] = b := by rw [getElem?_eq_getElem hk] at hb; exact Option.some.inj hb
        rw [this, (mul_inv hab).1, ← (times_dim ht).1, ← hv2 a (mem_of_getElem? ha), ← hj]
        rfl
      · rw [getElem?_eq_none_iff] at hb; omega

/-! ### concrete cases -/

/-- metres -/
noncomputable def Spec.metre : UnitU := ⟨"m", .length, 1, by norm_num⟩
/-- kilometres -/
noncomputable def Spec.kilometre : UnitU := ⟨"km", .length, 1000, by norm_num⟩
/-- metres per second -/
noncomputable def Spec.mps : UnitU := ⟨"m / s", .speed, 1, by norm_num⟩
/-- seconds -/
noncomputable def Spec.second : UnitU := ⟨"s", { time := 1 }, 1, by norm_num⟩

/-- two elements, two scalars -/
noncomputable def Spec.exPos : CVec := ⟨.pos3, [⟨metre, ⟨[2], fun i => i.sum⟩⟩, ⟨kilometre, .scalar 1⟩, ⟨metre, .scalar 5⟩]⟩
/-- the same units -/
noncomputable def Spec.exPos' : CVec := ⟨.pos3, [⟨metre, .scalar 3⟩, ⟨kilometre, .scalar 2⟩, ⟨metre, ⟨[2], fun _ => 4⟩⟩]⟩
/-- other units -/
noncomputable def Spec.exPosKm : CVec := ⟨.pos3, [⟨kilometre, .scalar 3⟩, ⟨kilometre, .scalar 2⟩, ⟨metre, .scalar 4⟩]⟩
/-- a velocity -/
noncomputable def Spec.exVel : CVec := ⟨.vel3, [⟨mps, ⟨[2], fun i => i.sum⟩⟩, ⟨mps, .scalar 1⟩, ⟨mps, .scalar 2⟩]⟩

example : BuiltC exPos ∧ BuiltC exPos' ∧ BuiltC exPosKm ∧ BuiltC exVel := by
  simp only [builtC_iff]
  simp [exPos, exPos', exPosKm, exVel, CCls.n, CCls.dim, metre, kilometre, mps]

/-- `+` and `-` return, `C52_add_sub` applies -/
example : (∃ r, exPos.add exPos' = .ok r) ∧ (∃ r, exPos.sub exPos' = .ok r) ∧ (∃ r, exPos.add exPosKm = .ok r) ∧
    ¬ ∃ r, exPos.sub exPosKm = .ok r := by
  have h1 : BuiltC exPos := builtC_iff.mpr (by simp [exPos, CCls.n, CCls.dim, metre, kilometre])
  have h2 : BuiltC exPos' := builtC_iff.mpr (by simp [exPos', CCls.n, CCls.dim, metre, kilometre])
  have h3 : BuiltC exPosKm := builtC_iff.mpr (by simp [exPosKm, CCls.n, CCls.dim, metre, kilometre])
  rw [C52_add_returns _ _ h1 h2, C52_sub_returns _ _ h1 h2, C52_add_returns _ _ h1 h3, C52_sub_returns _ _ h1 h3]
  simp [HasAdd, HasSub, SameUnits, CompsFit, LaxFit, exPos, exPos', exPosKm, Arr.scalar, metre, kilometre]

/-- `C52_divide` applies: two elements divided by two numbers; `C52_scale` applies -/
example : (∃ r, exPos.divide ⟨[2], fun i => i.sum + 1⟩ = .ok r) ∧ HasScale exPos.cls ∧ ¬ HasScale exVel.cls := by
  have h1 : BuiltC exPos := builtC_iff.mpr (by simp [exPos, CCls.n, CCls.dim, metre, kilometre])
  rw [C52_divide_returns _ h1]
  refine ⟨⟨.inr (.inr rfl), fun idx _ => by positivity, fun q hq => ⟨[2], ?_, broadcastsTo_refl _⟩⟩,
    by simp [HasScale, exPos], by simp [HasScale, exVel]⟩
  simp only [exPos, mem_cons, not_mem_nil, or_false] at hq
  rcases hq with rfl | rfl | rfl
  · exact broadcastsTo_refl _
  · exact broadcastsTo_nil _
  · exact broadcastsTo_nil _

/-- `C52_norm`, `C52_times` and `C52_eq` apply -/
example : HasNorm exVel.cls ∧ IsShape exVel [2] ∧ (∃ r, exVel.times ⟨second, ⟨[3, 1], fun i => i.sum⟩⟩ = .ok r) ∧
    ∃ c, exPos.eq ⟨.pos3, [⟨metre, ⟨[1], fun i => i.sum⟩⟩, ⟨kilometre, ⟨[2], fun _ => 1⟩⟩, ⟨metre, ⟨[2], fun _ => 5⟩⟩]⟩ = .ok c
      ∧ c.shape = [2] := by
  have h1 : BuiltC exPos := builtC_iff.mpr (by simp [exPos, CCls.n, CCls.dim, metre, kilometre])
  have h2 : BuiltC exVel := builtC_iff.mpr (by simp [exVel, CCls.n, CCls.dim, mps])
  have hb : ∀ s : List ℕ, ∀ l : List (List ℕ), broadcastShapes l = .ok s → IsBroadcast l s := fun s l h =>
    (broadcastShapes_iff _ _).mp h
  refine ⟨by simp [HasNorm, exVel], hb _ _ rfl, ?_, ?_⟩
  · rw [(C52_times exVel h2 _).2]
    refine ⟨⟨1, .pos3, rfl, .vel3⟩, ?_⟩
    intro q hq
    refine ⟨[3, 2], ?_⟩
    have : q.arr.shape = [2] ∨ q.arr.shape = [] := by
      simp only [exVel, mem_cons, not_mem_nil, or_false] at hq
      rcases hq with rfl | rfl | rfl <;> simp [Arr.scalar]
    rcases this with h | h <;> rw [h] <;> simp [BroadcastsTo, CompatRev]
  · rw [(C52_eq exPos _ h1 (builtC_iff.mpr (by simp [CCls.n, CCls.dim, metre, kilometre]))).2 [2]]
    refine ⟨rfl, by simp [SameUnits, exPos], ?_⟩
    simp only [exPos, forall₂_cons, forall₂_nil_left_iff, and_true]
    exact ⟨hb _ _ rfl, hb _ _ rfl, hb _ _ rfl⟩

/-! ### C53: N dimensions -/

namespace Spec

/-- a batch of `F`-dimensional vectors -/
def IsND (q : QArr) (batch : List ℕ) (F : ℕ) : Prop := q.arr.shape = batch ++ [F]

/-- component `k` of the vector at batch index `idx`, physical value; a batch of shape `s` seen as part of a
larger batch -/
def physND (q : QArr) (s idx : List ℕ) (k : ℕ) : ℝ := physAt q (bcSource s idx ++ [k])

end Spec

theorem broadcastsTo_snoc {s t : List ℕ} {a b : ℕ} :
    BroadcastsTo (s ++ [a]) (t ++ [b]) ↔ (a = 1 ∨ a = b) ∧ BroadcastsTo s t := by
  unfold BroadcastsTo
  simp [CompatRev]

theorem bcSource_snoc {s idx : List ℕ} {F k : ℕ} (hi : s.length ≤ idx.length) (hk : k < F) :
    bcSource (s ++ [F]) (idx ++ [k]) = bcSource s idx ++ [k] := by
  rw [← bcIdx_eq (by simpa using hi), ← bcIdx_eq hi]
  simp only [reverse_append, reverse_cons, reverse_nil, nil_append, cons_append, bcIdxRev]
  congr 2
  split
  · omega
  · rfl

theorem inB_snoc {s idx : List ℕ} {F k : ℕ} : InB (s ++ [F]) (idx ++ [k]) ↔ InB s idx ∧ k < F := by
  rw [← inB_reverse]
  simp only [reverse_append, reverse_cons, reverse_nil, nil_append, cons_append]
  unfold InB
  rw [forall₂_cons]
  have := @inB_reverse s idx
  unfold InB at this
  rw [this, and_comm]

theorem bc2_snoc {s t u : List ℕ} {F G : ℕ} :
    bc2 (s ++ [F]) (t ++ [G]) = .ok u ↔ ∃ H S, bcAxis F G = .ok H ∧ bc2 s t = .ok S ∧ u = S ++ [H] := by
  unfold bc2
  simp only [reverse_append, reverse_cons, reverse_nil, nil_append, cons_append, bcRev]
  constructor
  · intro h
    obtain ⟨x, h1, h⟩ := (bind_ok_iff _ _ _).mp h
    obtain ⟨H, h2, h1⟩ := (bind_ok_iff _ _ _).mp h1
    obtain ⟨y, h3, h1⟩ := (bind_ok_iff _ _ _).mp h1
    obtain rfl := Except.ok.inj h1
    obtain rfl := Except.ok.inj h
    exact ⟨H, y.reverse, h2, by rw [h3, ok_bind]; rfl, by simp⟩
  · rintro ⟨H, S, h1, h2, rfl⟩
    obtain ⟨y, h3, h2⟩ := (bind_ok_iff _ _ _).mp h2
    obtain rfl := Except.ok.inj h2
    rw [h1, ok_bind, h3, ok_bind]
    simp only [pure, Except.pure, ok_bind, reverse_cons]

theorem bc2_iff {s t u : List ℕ} : bc2 s t = .ok u ↔ IsBroadcast [s, t] u := by
  rw [← broadcastShapes_iff]
  simp only [broadcastShapes, ok_bind, bc2_nil_right]

theorem bcAxis_self (F : ℕ) : bcAxis F F = .ok F := by simp [bcAxis]

/-- element `idx`, component `k` -/
theorem elemND {a : Arr ℝ} {s S idx : List ℕ} {F k : ℕ} (ha : a.shape = s ++ [F]) (hs : BroadcastsTo s S)
    (hi : InB S idx) (hk : k < F) : a.elem (idx ++ [k]) = a.get (bcSource s idx ++ [k]) := by
  have h1 : BroadcastsTo a.shape (S ++ [F]) := by rw [ha]; exact broadcastsTo_snoc.mpr ⟨.inr rfl, hs⟩
  rw [(Arr.elem_get h1 (inB_snoc.mpr ⟨hi, hk⟩)).1, ha, bcSource_snoc _ hk]
  rw [inB_length hi]; exact broadcastsTo_length hs

theorem bcSource_snoc_one {s idx : List ℕ} {k : ℕ} (hi : s.length ≤ idx.length) :
    bcSource (s ++ [1]) (idx ++ [k]) = bcSource s idx ++ [0] := by
  rw [← bcIdx_eq (by simpa using hi), ← bcIdx_eq hi]
  simp [bcIdxRev]

theorem elemND_one {a : Arr ℝ} {s S idx : List ℕ} {k : ℕ} (ha : a.shape = s ++ [1]) (hs : BroadcastsTo s S)
    (hi : InB S idx) : a.elem (idx ++ [k]) = a.get (bcSource s idx ++ [0]) := by
  have h1 : BroadcastsTo a.shape (S ++ [k + 1]) := by rw [ha]; exact broadcastsTo_snoc.mpr ⟨.inl rfl, hs⟩
  rw [(Arr.elem_get h1 (inB_snoc.mpr ⟨hi, by omega⟩)).1, ha, bcSource_snoc_one]
  rw [inB_length hi]; exact broadcastsTo_length hs

theorem physND_elem {q : QArr} {s S idx : List ℕ} {F k : ℕ} (ha : IsND q s F) (hs : BroadcastsTo s S)
    (hi : InB S idx) (hk : k < F) : physND q s idx k = q.arr.elem (idx ++ [k]) * q.unit.scale := by
  rw [physND, physAt, elemND ha hs hi hk]

theorem physND_self {q : QArr} {S idx : List ℕ} {k : ℕ} (hi : InB S idx) : physND q S idx k = physAt q (idx ++ [k]) := by
  rw [physND, bcSource_self hi]

theorem qadd_inv {a b r : QArr} (h : a.add b = .ok r) : r.unit = a.unit ∧ bc2 a.arr.shape b.arr.shape = .ok r.arr.shape ∧
    ∀ idx, r.arr.elem idx * a.unit.scale = a.arr.elem idx * a.unit.scale + b.arr.elem idx * b.unit.scale := by
  unfold QArr.add at h
  obtain ⟨b', h0, h⟩ := (bind_ok_iff _ _ _).mp h
  obtain ⟨d, h1, h⟩ := (bind_ok_iff _ _ _).mp h
  obtain rfl := Except.ok.inj h
  obtain ⟨-, -, u2, u3⟩ := qconvert_ok h0
  refine ⟨rfl, u2 ▸ (map2_ok_inv h1).1, fun idx => ?_⟩
  show d.elem idx * a.unit.scale = _
  rw [(map2_ok_inv h1).2, ← u3]; ring

theorem qsub_inv {a b r : QArr} (h : a.sub b = .ok r) : r.unit = a.unit ∧ bc2 a.arr.shape b.arr.shape = .ok r.arr.shape ∧
    ∀ idx, r.arr.elem idx * a.unit.scale = a.arr.elem idx * a.unit.scale - b.arr.elem idx * b.unit.scale := by
  unfold QArr.sub at h
  obtain ⟨b', h0, h⟩ := (bind_ok_iff _ _ _).mp h
  obtain ⟨d, h1, h⟩ := (bind_ok_iff _ _ _).mp h
  obtain rfl := Except.ok.inj h
  obtain ⟨-, -, u2, u3⟩ := qconvert_ok h0
  refine ⟨rfl, u2 ▸ (map2_ok_inv h1).1, fun idx => ?_⟩
  show d.elem idx * a.unit.scale = _
  rw [(map2_ok_inv h1).2, ← u3]; ring

theorem addND_inv {a b r : QArr} (h : addND a b = .ok r) : a.add b = .ok r := by
  unfold addND at h
  obtain ⟨x, h1, h⟩ := (bind_ok_iff _ _ _).mp h
  unfold mkND at h
  split at h
  · obtain rfl := Except.ok.inj h; exact h1
  · cases h

theorem subND_inv {a b r : QArr} (h : subND a b = .ok r) : a.sub b = .ok r := by
  unfold subND at h
  obtain ⟨x, h1, h⟩ := (bind_ok_iff _ _ _).mp h
  unfold mkND at h
  split at h
  · obtain rfl := Except.ok.inj h; exact h1
  · cases h

theorem addsubND_total {a b : QArr} (ha : a.unit.dim = .length) (hb : b.unit.dim = .length) {u : List ℕ}
    (h : bc2 a.arr.shape b.arr.shape = .ok u) : (∃ r, addND a b = .ok r) ∧ ∃ r, subND a b = .ok r := by
  obtain ⟨b', h1, h2⟩ := qconvert_total (un := a.unit) (q := b) (ha.trans hb.symm)
  obtain ⟨k1, k2, -⟩ := bc2_ok h
  rw [← h2] at k2
  obtain ⟨d, hd⟩ := map2_returns (f := (· + ·)) k1 k2
  obtain ⟨d', hd'⟩ := map2_returns (f := (· - ·)) k1 k2
  constructor
  · refine ⟨⟨a.unit, d⟩, ?_⟩
    rw [addND, QArr.add, h1, ok_bind, hd, ok_bind]
    simp [pure, Except.pure, mkND, ha, ok_bind]
  · refine ⟨⟨a.unit, d'⟩, ?_⟩
    rw [subND, QArr.sub, h1, ok_bind, hd', ok_bind]
    simp [pure, Except.pure, mkND, ha, ok_bind]

/-- **C53.** `p + p'` and `p - p'` of batches of `F`-dimensional positions: they return exactly when the batch
shapes broadcast; the result has the broadcast batch shape, the unit of the left operand, dimension `F`, and
the physical components of each element are the sums (differences). -/
theorem C53_add_sub (a b : QArr) (s t : List ℕ) (F : ℕ) (ha : a.unit.dim = .length) (hb : b.unit.dim = .length)
    (hs : IsND a s F) (ht : IsND b t F) :
    (∀ S, IsBroadcast [s, t] S →
      (∃ r, addND a b = .ok r ∧ r.unit = a.unit ∧ IsND r S F ∧ ∀ idx, InB S idx → ∀ k < F,
        physAt r (idx ++ [k]) = physND a s idx k + physND b t idx k) ∧
      ∃ r, subND a b = .ok r ∧ r.unit = a.unit ∧ IsND r S F ∧ ∀ idx, InB S idx → ∀ k < F,
        physAt r (idx ++ [k]) = physND a s idx k - physND b t idx k) ∧
    (((∃ r, addND a b = .ok r) ∨ ∃ r, subND a b = .ok r) → ∃ S, IsBroadcast [s, t] S) := by
  constructor
  · intro S hS
    have hbc : bc2 a.arr.shape b.arr.shape = .ok (S ++ [F]) := by
      rw [show a.arr.shape = s ++ [F] from hs, show b.arr.shape = t ++ [F] from ht]
      exact bc2_snoc.mpr ⟨F, S, bcAxis_self F, bc2_iff.mpr hS, rfl⟩
    have hsS : BroadcastsTo s S := hS.1 _ (by simp)
    have htS : BroadcastsTo t S := hS.1 _ (by simp)
    obtain ⟨⟨r, hr⟩, r', hr'⟩ := addsubND_total ha hb hbc
    constructor
    · obtain ⟨h1, h2, h3⟩ := qadd_inv (addND_inv hr)
      have hrs : IsND r S F := by rw [hbc] at h2; exact (Except.ok.inj h2).symm
      refine ⟨r, hr, h1, hrs, fun idx hi k hk => ?_⟩
      rw [← physND_self hi, physND_elem hrs (broadcastsTo_refl _) hi hk, physND_elem hs hsS hi hk,
        physND_elem ht htS hi hk, h1, h3]
    · obtain ⟨h1, h2, h3⟩ := qsub_inv (subND_inv hr')
      have hrs : IsND r' S F := by rw [hbc] at h2; exact (Except.ok.inj h2).symm
      refine ⟨r', hr', h1, hrs, fun idx hi k hk => ?_⟩
      rw [← physND_self hi, physND_elem hrs (broadcastsTo_refl _) hi hk, physND_elem hs hsS hi hk,
        physND_elem ht htS hi hk, h1, h3]
  · intro h
    have : ∃ u, bc2 a.arr.shape b.arr.shape = .ok u := by
      rcases h with ⟨r, h⟩ | ⟨r, h⟩
      · exact ⟨_, (qadd_inv (addND_inv h)).2.1⟩
      · exact ⟨_, (qsub_inv (subND_inv h)).2.1⟩
    obtain ⟨u, hu⟩ := this
    rw [show a.arr.shape = s ++ [F] from hs, show b.arr.shape = t ++ [F] from ht] at hu
    obtain ⟨H, S, -, h2, -⟩ := bc2_snoc.mp hu
    exact ⟨S, bc2_iff.mp h2⟩

/-- **C53.** Dimensions are not compared: positions of different dimensions raise unless one of them is
one-dimensional; a one-dimensional position is silently added to every component of the other. -/
theorem C53_dimension_mismatch (a b : QArr) (s t : List ℕ) (F G : ℕ) (ha : a.unit.dim = .length)
    (hb : b.unit.dim = .length) (hs : IsND a s F) (ht : IsND b t G) (hFG : F ≠ G) :
    (F ≠ 1 → G ≠ 1 → ∀ r, addND a b ≠ .ok r) ∧
    (G = 1 → ∀ S, IsBroadcast [s, t] S → ∃ r, addND a b = .ok r ∧ IsND r S F ∧ ∀ idx, InB S idx → ∀ k < F,
      physAt r (idx ++ [k]) = physND a s idx k + physND b t idx 0) := by
  constructor
  · intro hF hG r h
    have hu := (qadd_inv (addND_inv h)).2.1
    rw [show a.arr.shape = s ++ [F] from hs, show b.arr.shape = t ++ [G] from ht] at hu
    obtain ⟨H, S, h1, -, -⟩ := bc2_snoc.mp hu
    simp [bcAxis, hFG, hF, hG] at h1
  · rintro rfl S hS
    have hbc : bc2 a.arr.shape b.arr.shape = .ok (S ++ [F]) := by
      rw [show a.arr.shape = s ++ [F] from hs, show b.arr.shape = t ++ [1] from ht]
      exact bc2_snoc.mpr ⟨F, S, by simp [bcAxis, hFG], bc2_iff.mpr hS, rfl⟩
    have hsS : BroadcastsTo s S := hS.1 _ (by simp)
    have htS : BroadcastsTo t S := hS.1 _ (by simp)
    obtain ⟨⟨r, hr⟩, -⟩ := addsubND_total ha hb hbc
    obtain ⟨h1, h2, h3⟩ := qadd_inv (addND_inv hr)
    have hrs : IsND r S F := by rw [hbc] at h2; exact (Except.ok.inj h2).symm
    refine ⟨r, hr, hrs, fun idx hi k hk => ?_⟩
    rw [← physND_self hi, physND_elem hrs (broadcastsTo_refl _) hi hk, physND_elem hs hsS hi hk, h1, h3,
      elemND_one (a := b.arr) ht htS hi]
    rfl

/-- **C53.** `-p`, `x * p`, `p / x` for a number `x`: always return (the division: when `x` is not 0), keep unit
and shape, and act on every physical component. An array as factor raises. -/
theorem C53_scale (a : QArr) (ha : a.unit.dim = .length) (x : ℝ) :
    ((negND a).unit = a.unit ∧ (negND a).arr.shape = a.arr.shape ∧ ∀ idx, physAt (negND a) idx = - physAt a idx) ∧
    (∃ r, mulND (.scalar x) a = .ok r ∧ r.unit = a.unit ∧ r.arr.shape = a.arr.shape ∧
      ∀ idx, InB a.arr.shape idx → physAt r idx = x * physAt a idx) ∧
    (x ≠ 0 → ∃ r, divND a (.scalar x) = .ok r ∧ r.unit = a.unit ∧ r.arr.shape = a.arr.shape ∧
      ∀ idx, InB a.arr.shape idx → physAt r idx = physAt a idx / x) ∧
    (∀ d : Arr ℝ, (∃ n ∈ d.shape, n ≠ 0) → ∀ r, mulND d a ≠ .ok r) := by
  refine ⟨⟨rfl, rfl, fun idx => by simp [physAt, negND, Arr.map]⟩, ?_, fun hx => ?_, fun d hd r hr => ?_⟩
  · obtain ⟨c, hc⟩ := map2_returns (f := (· * ·)) (a := .scalar x) (b := a.arr) (broadcastsTo_nil _) (broadcastsTo_refl _)
    obtain ⟨h1, h2⟩ := map2_ok_inv hc
    have hsh : c.shape = a.arr.shape := by
      rw [show (Arr.scalar x).shape = [] from rfl, bc2_nil_left] at h1
      exact (Except.ok.inj h1).symm
    refine ⟨⟨a.unit, c⟩, ?_, rfl, hsh, fun idx hi => ?_⟩
    · rw [mulND, if_pos (show ((Arr.scalar x).shape.all (· = 0)) = true from rfl), QArr.scale, hc, ok_bind]
      simp [pure, Except.pure, mkND, ha, ok_bind]
    · have e1 := (Arr.elem_get (a := c) (by rw [hsh]; exact broadcastsTo_refl _) hi).1
      have e2 := (Arr.elem_get (a := a.arr) (broadcastsTo_refl _) hi).1
      rw [bcSource_self (hsh ▸ hi)] at e1
      rw [bcSource_self hi] at e2
      rw [physAt, physAt, ← e1, ← e2, h2, Arr.scalar_elem]; ring
  · obtain ⟨c, hc⟩ := map2_returns (f := (· / ·)) (a := a.arr) (b := .scalar x) (broadcastsTo_refl _) (broadcastsTo_nil _)
    obtain ⟨h1, h2⟩ := map2_ok_inv hc
    have hsh : c.shape = a.arr.shape := by
      rw [show (Arr.scalar x).shape = [] from rfl, bc2_nil_right] at h1
      exact (Except.ok.inj h1).symm
    refine ⟨⟨a.unit, c⟩, ?_, rfl, hsh, fun idx hi => ?_⟩
    · rw [divND, QArr.divide, if_neg, hc, ok_bind]
      · simp [pure, Except.pure, mkND, ha, ok_bind]
      · rintro ⟨idx, -, h⟩; exact hx h
    · have e1 := (Arr.elem_get (a := c) (by rw [hsh]; exact broadcastsTo_refl _) hi).1
      have e2 := (Arr.elem_get (a := a.arr) (broadcastsTo_refl _) hi).1
      rw [bcSource_self (hsh ▸ hi)] at e1
      rw [bcSource_self hi] at e2
      rw [physAt, physAt, ← e1, ← e2, h2, Arr.scalar_elem]; ring
  · have hf : d.shape.all (· = 0) = false := by
      rw [all_eq_false]
      obtain ⟨n, h1, h2⟩ := hd
      exact ⟨n, h1, by simpa using h2⟩
    rw [mulND, hf] at hr
    cases hr

/-- **C53.** The norm of a batch of `F`-dimensional vectors has the batch shape, the unit of the vectors, and each
element is the Euclidean norm of the physical components. -/
theorem C53_norm (a : QArr) (s : List ℕ) (F : ℕ) (hs : IsND a s F) :
    ∃ r, normND a = .ok r ∧ r.unit = a.unit ∧ r.arr.shape = s ∧
      ∀ idx, physAt r idx = √ ((List.range F).map fun k => physAt a (idx ++ [k]) ^ 2).sum := by
  have hrev : a.arr.shape.reverse = F :: s.reverse := by rw [show a.arr.shape = s ++ [F] from hs]; simp
  refine ⟨⟨a.unit, ⟨s.reverse.reverse, fun idx =>
      Real.sqrt (((List.range F).map fun k => a.arr.get (idx ++ [k]) * a.arr.get (idx ++ [k])).sum)⟩⟩,
    by rw [normND, hrev], rfl, reverse_reverse s, fun idx => ?_⟩
  simp only [physAt]
  have : ((List.range F).map fun k => (a.arr.get (idx ++ [k]) * a.unit.scale) ^ 2).sum
      = ((List.range F).map fun k => a.arr.get (idx ++ [k]) * a.arr.get (idx ++ [k])).sum * a.unit.scale ^ 2 := by
    rw [← sum_map_mul_right]
    congr 1
    exact map_congr_left fun k _ => by ring
  rw [this, Real.sqrt_mul' _ (sq_nonneg _), Real.sqrt_sq a.unit.pos.le]

/-- **C53.** `p == p'` of `F`-dimensional positions compares component by component: the result has the shape of
the batch *and* an axis of length `F`. It returns exactly when the units agree and the batch shapes broadcast. -/
theorem C53_eq (a b : QArr) (s t : List ℕ) (F : ℕ) (hs : IsND a s F) (ht : IsND b t F) :
    (∀ S, a.unit.dim = b.unit.dim → a.unit.scale = b.unit.scale → IsBroadcast [s, t] S →
      ∃ c, eqND a b = .ok c ∧ c.shape = S ++ [F] ∧ ∀ idx, InB S idx → ∀ k < F,
        (c.get (idx ++ [k]) = true ↔ physND a s idx k = physND b t idx k)) ∧
    ((∃ c, eqND a b = .ok c) → a.unit.dim = b.unit.dim ∧ a.unit.scale = b.unit.scale ∧ ∃ S, IsBroadcast [s, t] S) := by
  constructor
  · intro S hd hsc hS
    have hbc : bc2 a.arr.shape b.arr.shape = .ok (S ++ [F]) := by
      rw [show a.arr.shape = s ++ [F] from hs, show b.arr.shape = t ++ [F] from ht]
      exact bc2_snoc.mpr ⟨F, S, bcAxis_self F, bc2_iff.mpr hS, rfl⟩
    obtain ⟨c, hc, hcs⟩ := leafEq_total ⟨hd, hsc⟩ (bc2_iff.mp hbc)
    obtain ⟨-, -, -, h4⟩ := leafEq_good hc
    refine ⟨⟨c.shape, fun idx => ([c] : List (Arr Bool)).all fun d => d.get idx⟩, ?_, hcs, fun idx hi k hk => ?_⟩
    · rw [eqND, hc, ok_bind, allLeaves, if_pos (by simp)]
    · have hi' : InB c.shape (idx ++ [k]) := hcs ▸ inB_snoc.mpr ⟨hi, hk⟩
      have e1 := (Arr.elem_get (a := c) (broadcastsTo_refl _) hi').1
      rw [bcSource_self hi'] at e1
      rw [physND_elem hs (hS.1 _ (by simp)) hi hk, physND_elem ht (hS.1 _ (by simp)) hi hk, hsc,
        mul_left_inj' b.unit.pos.ne', ← h4, e1]
      simp
  · rintro ⟨c, h⟩
    unfold eqND at h
    obtain ⟨d, h1, -⟩ := (bind_ok_iff _ _ _).mp h
    obtain ⟨k1, k2, k3, -⟩ := leafEq_good h1
    rw [show a.arr.shape = s ++ [F] from hs, show b.arr.shape = t ++ [F] from ht] at k3
    obtain ⟨H, S, -, h2, -⟩ := bc2_snoc.mp k3
    exact ⟨k1, k2, S, bc2_iff.mp h2⟩

/-- what multiplying by a time gives: velocity times time is a length, acceleration times time a speed,
acceleration times squared time a length -/
inductive Spec.TimesDim : Dim → ℤ → Dim → Prop where
  | speed : TimesDim .speed 1 .length
  | acc : TimesDim .acc 1 .speed
  | acc2 : TimesDim .acc 2 .length

theorem timesND_eq {d d' : Dim} {j : ℤ} (h : TimesDim d j d') (q t : QArr) (hq : q.unit.dim = d)
    (ht : t.unit.dim = { time := j }) : timesND d q t = q.mul t ∧ d.mul { time := j } = d' := by
  have key : ∀ e, d.mul { time := j } = e → (do mkND e (← q.mul t)) = q.mul t := by
    intro e he
    cases hm : q.mul t with
    | error x => rfl
    | ok r =>
      rw [ok_bind, mkND, if_pos]
      rw [(mul_inv hm).1, ← he, ← hq, ← ht]; rfl
  unfold timesND
  rw [ht]
  cases h
  · rw [if_pos ⟨rfl, rfl⟩]; exact ⟨key _ rfl, rfl⟩
  · rw [if_neg (by simp [Dim.acc, Dim.speed]), if_pos ⟨rfl, rfl⟩]; exact ⟨key _ rfl, rfl⟩
  · rw [if_neg (by simp [Dim.acc, Dim.speed]), if_neg (by simp [Dim.sec]), if_pos ⟨rfl, rfl⟩]
    exact ⟨key _ rfl, rfl⟩

/-- **C53.** `v * t` for `F`-dimensional velocities and accelerations. A scalar time, or times with an explicit last
axis of length 1, multiply every component of the vector at their place. A plain array of times of shape `(F,)`
does not pair with the batch: it multiplies component `k` of every vector by time number `k`. -/
theorem C53_times (d d' : Dim) (j : ℤ) (h : TimesDim d j d') (q t : QArr) (s : List ℕ) (F : ℕ) (hs : IsND q s F)
    (hq : q.unit.dim = d) (ht : t.unit.dim = { time := j }) :
    (t.arr.shape = [] → ∃ r, timesND d q t = .ok r ∧ r.unit.dim = d' ∧ IsND r s F ∧ ∀ idx, InB s idx → ∀ k < F,
      physAt r (idx ++ [k]) = physAt t [] * physAt q (idx ++ [k])) ∧
    (∀ b S, t.arr.shape = b ++ [1] → IsBroadcast [s, b] S → ∃ r, timesND d q t = .ok r ∧ r.unit.dim = d' ∧ IsND r S F ∧
      ∀ idx, InB S idx → ∀ k < F, physAt r (idx ++ [k]) = physND t b idx 0 * physND q s idx k) ∧
    (t.arr.shape = [F] → ∃ r, timesND d q t = .ok r ∧ r.unit.dim = d' ∧ IsND r s F ∧ ∀ idx, InB s idx → ∀ k < F,
      physAt r (idx ++ [k]) = physAt t [k] * physAt q (idx ++ [k])) := by
  obtain ⟨he, hd⟩ := timesND_eq h q t hq ht
  rw [he]
  have hs' : q.arr.shape = s ++ [F] := hs
  have tot : ∀ u, bc2 q.arr.shape t.arr.shape = .ok u → ∃ r, q.mul t = .ok r ∧ r.unit.dim = d' ∧ r.arr.shape = u ∧
      ∀ idx, r.arr.elem idx * r.unit.scale = (q.arr.elem idx * q.unit.scale) * (t.arr.elem idx * t.unit.scale) := by
    intro u hu
    obtain ⟨k1, k2, -⟩ := bc2_ok hu
    obtain ⟨c, hc⟩ := map2_returns (f := (· * ·)) k1 k2
    have hr : q.mul t = .ok ⟨q.unit.mul t.unit, c⟩ := by rw [QArr.mul, hc, ok_bind]; rfl
    refine ⟨_, hr, ?_, ?_, (mul_inv hr).2.2⟩
    · rw [← hd, ← hq, ← ht]; rfl
    · have := (mul_inv hr).2.1
      rw [hu] at this
      exact (Except.ok.inj this).symm
  refine ⟨fun h0 => ?_, fun b S hb hS => ?_, fun h1 => ?_⟩
  · obtain ⟨r, hr, hrd, hrs, hel⟩ := tot (s ++ [F]) (by rw [h0, bc2_nil_right, hs'])
    refine ⟨r, hr, hrd, hrs, fun idx hi k hk => ?_⟩
    have e : ∀ i, t.arr.elem i = t.arr.get [] := fun i => by
      unfold Arr.elem
      rw [h0]
      cases i.reverse <;> rfl
    rw [← physND_self hi, physND_elem (F := F) hrs (broadcastsTo_refl _) hi hk, hel, ← physND_self hi,
      physND_elem hs (broadcastsTo_refl _) hi hk, e, physAt]
    ring
  · have htS : BroadcastsTo b S := hS.1 _ (by simp)
    obtain ⟨r, hr, hrd, hrs, hel⟩ := tot (S ++ [F]) (by
      rw [hb, hs']; exact bc2_snoc.mpr ⟨F, S, by simp only [bcAxis]; split <;> [rfl; split <;> simp_all], bc2_iff.mpr hS, rfl⟩)
    refine ⟨r, hr, hrd, hrs, fun idx hi k hk => ?_⟩
    rw [← physND_self hi, physND_elem (F := F) hrs (broadcastsTo_refl _) hi hk, hel,
      physND_elem hs (hS.1 _ (by simp)) hi hk, elemND_one hb htS hi, physND, physAt]
    ring
  · have h1' : t.arr.shape = ([] : List ℕ) ++ [F] := by simpa using h1
    obtain ⟨r, hr, hrd, hrs, hel⟩ := tot (s ++ [F]) (by
      rw [h1', hs']; exact bc2_snoc.mpr ⟨F, s, bcAxis_self F, bc2_nil_right s, rfl⟩)
    refine ⟨r, hr, hrd, hrs, fun idx hi k hk => ?_⟩
    rw [← physND_self hi, physND_elem (F := F) hrs (broadcastsTo_refl _) hi hk, hel, ← physND_self (q := q) hi,
      physND_elem hs (broadcastsTo_refl _) hi hk, elemND h1' (broadcastsTo_nil _) hi hk]
    have : bcSource [] idx = [] := by simp [bcSource]
    rw [this, physAt, nil_append]
    ring

/-- `C53_add_sub`, `C53_eq` apply: batches `(2, 1)` and `(3,)` of four-dimensional positions -/
example : IsND ⟨metre, ⟨[2, 1, 4], fun i => i.sum⟩⟩ [2, 1] 4 ∧ IsND ⟨kilometre, ⟨[3, 4], fun i => i.sum⟩⟩ [3] 4 ∧
    metre.dim = .length ∧ kilometre.dim = .length ∧ IsBroadcast [[2, 1], [3]] [2, 3] :=
  ⟨rfl, rfl, rfl, rfl, (broadcastShapes_iff _ _).mp rfl⟩

/-- `C53_dimension_mismatch` applies -/
example : IsND ⟨metre, ⟨[4], fun i => i.sum⟩⟩ [] 4 ∧ IsND ⟨metre, ⟨[1], fun _ => 7⟩⟩ [] 1 := ⟨rfl, rfl⟩

/-- `C53_times` applies -/
example : TimesDim mps.dim 1 .length ∧ IsND ⟨mps, ⟨[2, 4], fun i => i.sum⟩⟩ [2] 4 ∧
    second.dim = { time := 1 } ∧ (⟨second, ⟨[2, 1], fun i => i.sum⟩⟩ : QArr).arr.shape = [2] ++ [1] ∧
    IsBroadcast [[2], [2]] [2] := ⟨.speed, rfl, rfl, rfl, (broadcastShapes_iff _ _).mp rfl⟩

end Verif
