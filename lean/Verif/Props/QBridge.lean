import Verif.QBridge
import Verif.Props.ShapeND
import Verif.Props.Simplify

/-!
# Cartesian vectors and Quantities: C39

Scope: Cartesian positions, velocities, accelerations of 1, 2, 3 dimensions (and `RadialVel`,
`RadialAcc`) with components of any shapes and units; N-dimensional vectors of any shape. Non-Cartesian
positions are taken with scalar components.
-/

namespace Verif

open List Spec

namespace Spec

/-- the physical value of an element -/
def physAt (q : QArr) (idx : List ℕ) : ℝ := q.arr.get idx * q.unit.scale

/-- the same array: unit, shape, elements -/
def SameQ (a b : QArr) : Prop :=
  a.unit = b.unit ∧ a.arr.shape = b.arr.shape ∧ ∀ idx, InB a.arr.shape idx → a.arr.get idx = b.arr.get idx

/-- the same vector: class and, component by component, the same arrays -/
def SameC (v w : CVec) : Prop := v.cls = w.cls ∧ Forall₂ SameQ v.comps w.comps

/-- a vector as its constructor makes it -/
def BuiltC (v : CVec) : Prop := mkC v.cls v.comps = .ok v

end Spec

theorem mkC_ok_iff {c : CCls} {l : List QArr} {v : CVec} :
    mkC c l = .ok v ↔ v = ⟨c, l⟩ ∧ l.length = c.n ∧ ∀ q ∈ l, q.unit.dim = c.dim := by
  unfold mkC
  split
  · rename_i h; exact ⟨fun h => (by cases h), fun ⟨_, h', _⟩ => absurd h' h⟩
  · rename_i h
    push Not at h
    split
    · rename_i h'
      simp only [all_eq_true, decide_eq_true_eq] at h'
      exact ⟨fun e => ⟨(Except.ok.inj e).symm, h, h'⟩, fun ⟨e, _⟩ => by rw [e]⟩
    · rename_i h'
      simp only [all_eq_true, decide_eq_true_eq] at h'
      exact ⟨fun e => (by cases e), fun ⟨_, _, h2⟩ => absurd h2 h'⟩

theorem builtC_iff {v : CVec} : BuiltC v ↔ v.comps.length = v.cls.n ∧ ∀ q ∈ v.comps, q.unit.dim = v.cls.dim := by
  unfold BuiltC
  rw [mkC_ok_iff]
  exact ⟨fun h => h.2, fun h => ⟨rfl, h⟩⟩

theorem n_pos (c : CCls) : 0 < c.n := by cases c <;> decide

/-- unit of the first component -/
def Spec.IsFirstUnit (v : CVec) (u : UnitU) : Prop := ∃ q rest, v.comps = q :: rest ∧ u = q.unit

theorem mapM_uconvert {un : UnitU} {l : List QArr} (h : ∀ q ∈ l, q.unit.dim = un.dim) :
    l.mapM (QArr.uconvert un) = .ok (l.map fun q =>
      ⟨un, ⟨q.arr.shape, fun idx => q.arr.get idx * (q.unit.scale / un.scale)⟩⟩) := by
  induction l with
  | nil => rfl
  | cons q l ih =>
    rw [mapM_cons, ih fun q hq => h q (by simp [hq])]
    unfold QArr.uconvert
    rw [if_pos (h q (by simp)).symm]
    rfl

/-- **C39.** `convert(vec, Quantity)` of a Cartesian vector of any dimension, whatever the shapes and
units of its components: the last axis holds the components in the order `x, y, z`, each broadcast to
`vec.shape`, with their physical values; the unit is that of the first component. -/
theorem C39_to_quantity (v : CVec) (s : List ℕ) (hv : BuiltC v)
    (hs : broadcastShapes (v.comps.map fun q => q.arr.shape) = .ok s) :
    ∃ q, v.toQuantity = .ok q ∧ IsFirstUnit v q.unit ∧ q.arr.shape = s ++ [v.comps.length] ∧
      ∀ i (hi : i < v.comps.length) idx, InB s idx →
        physAt q (idx ++ [i]) = physAt v.comps[i] (bcSource v.comps[i].arr.shape idx) := by
  obtain ⟨hl, hd⟩ := builtC_iff.mp hv
  obtain ⟨q0, rest, hcons⟩ : ∃ q0 rest, v.comps = q0 :: rest :=
    exists_cons_of_ne_nil (fun h => by rw [h] at hl; have := n_pos v.cls; simp at hl; omega)
  have hfull : mkC v.cls (v.comps.map fun q => (⟨q.unit, q.arr.broadcastTo s⟩ : QArr)) =
      .ok ⟨v.cls, v.comps.map fun q => ⟨q.unit, q.arr.broadcastTo s⟩⟩ := by
    rw [mkC_ok_iff]
    refine ⟨rfl, by simpa using hl, fun q hq => ?_⟩
    obtain ⟨a, ha, rfl⟩ := mem_map.mp hq
    exact hd a ha
  have hm : (v.comps.map fun q => (⟨q.unit, q.arr.broadcastTo s⟩ : QArr)).mapM (QArr.uconvert q0.unit) = _ :=
    mapM_uconvert (un := q0.unit) (fun q hq => by
      obtain ⟨a, ha, rfl⟩ := mem_map.mp hq
      rw [show (⟨a.unit, a.arr.broadcastTo s⟩ : QArr).unit = a.unit from rfl, hd a ha,
        hd q0 (by rw [hcons]; simp)])
  have hst : v.toQuantity = stackLast s (v.comps.map fun q => ⟨q.unit, q.arr.broadcastTo s⟩) := by
    unfold CVec.toQuantity
    rw [hs, ok_bind, hfull, ok_bind]
  have hmap : v.comps.map (fun q => (⟨q.unit, q.arr.broadcastTo s⟩ : QArr)) =
    ⟨q0.unit, q0.arr.broadcastTo s⟩ :: rest.map fun q => ⟨q.unit, q.arr.broadcastTo s⟩ := by rw [hcons]; rfl
  have hdef : v.toQuantity = .ok ⟨q0.unit, ⟨s ++ [v.comps.length], fun idx =>
      match ((v.comps.map fun q => (⟨q.unit, q.arr.broadcastTo s⟩ : QArr)).map fun q =>
        (⟨q0.unit, ⟨q.arr.shape, fun idx => q.arr.get idx * (q.unit.scale / q0.unit.scale)⟩⟩ : QArr))[idx.getLastD 0]? with
      | some c => c.arr.get idx.dropLast
      | none => 0⟩⟩ := by
    rw [hst]
    have hlen : v.comps.length = (v.comps.map fun q => (⟨q.unit, q.arr.broadcastTo s⟩ : QArr)).length := by simp
    rw [hlen]
    generalize hL : (v.comps.map fun q => (⟨q.unit, q.arr.broadcastTo s⟩ : QArr)) = L at hm hmap ⊢
    subst hmap
    unfold stackLast
    simp only
    rw [hm]
    rfl
  refine ⟨_, hdef, ⟨q0, rest, hcons, rfl⟩, rfl, fun i hi idx hidx => ?_⟩
  have hbc : BroadcastsTo v.comps[i].arr.shape s :=
    ((broadcastShapes_iff _ s).mp hs).1 _ (mem_map_of_mem (getElem_mem hi))
  unfold physAt
  simp only [getLastD_concat, dropLast_concat, map_map]
  rw [getElem?_map, getElem?_eq_getElem hi]
  simp only [Option.map_some, Function.comp]
  rw [broadcastTo_get hbc hidx]
  have := q0.unit.pos
  field_simp

theorem atleast_append {q : QArr} {s : List ℕ} {m : ℕ} (h : q.arr.shape = s ++ [m]) : q.atleast1d = q := by
  unfold QArr.atleast1d
  split
  · rename_i h'; rw [h] at h'; simp at h'
  · rfl

theorem mapM_ok_of {β γ : Type} {f : β → Res γ} {g : β → γ} {l : List β} (h : ∀ x ∈ l, f x = .ok (g x)) :
    l.mapM f = .ok (l.map g) := by
  induction l with
  | nil => rfl
  | cons a l ih =>
    rw [mapM_cons, h a (by simp), ih fun x hx => h x (by simp [hx])]
    rfl

theorem gather_last {q : QArr} {s : List ℕ} {m i : ℕ} (h : q.arr.shape = s ++ [m]) (hi : i < m) :
    q.gather (planLast i) = .ok ⟨q.unit, ⟨s, fun idx => q.arr.get (idx ++ [i])⟩⟩ := by
  have : (s ++ [m]).reverse = m :: s.reverse := by simp
  simp only [QArr.gather, Arr.gather, planLast, h, this]
  rw [if_pos hi, reverse_reverse]; rfl

/-- `from_` reads the first `n` entries of the last axis -/
theorem from_ok (c : CCls) (q : QArr) (s : List ℕ) (m : ℕ) (h : q.arr.shape = s ++ [m]) (hm : c.n ≤ m)
    (hd : q.unit.dim = c.dim) (ha : c.accepts q = true) :
    fromQuantity c q = .ok ⟨c, (range c.n).map fun i => ⟨q.unit, ⟨s, fun idx => q.arr.get (idx ++ [i])⟩⟩⟩ := by
  have hsame : (if c.n = 1 then q.atleast1d else q) = q := by
    split
    · exact atleast_append h
    · rfl
  unfold fromQuantity
  rw [ha]
  simp only [Bool.not_true, Bool.false_eq_true, if_false]
  rw [hsame]
  rw [mapM_ok_of (g := fun i => (⟨q.unit, ⟨s, fun idx => q.arr.get (idx ++ [i])⟩⟩ : QArr))
    (fun i hi => gather_last h (by have : i < c.n := by simpa using hi
                                   omega))]
  show mkC c _ = _
  rw [mkC_ok_iff]
  refine ⟨rfl, by simp, fun a ha => ?_⟩
  obtain ⟨i, _, rfl⟩ := mem_map.mp ha
  exact hd

theorem accepts_n (c : CCls) (q : QArr) (s : List ℕ) (h : q.arr.shape = s ++ [c.n]) (hd : q.unit.dim = c.dim) :
    c.accepts q = true := by
  cases c <;> simp_all [CCls.accepts, CCls.n, CCls.dim]

/-- **C39.** `cls.from_(convert(vec, Quantity))` returns a vector of the same class with the same
physical values, for every dimension and all shapes and units of the components; every component then
has shape `vec.shape` and the unit of the first component. -/
theorem C39_round_trip (v : CVec) (s : List ℕ) (hv : BuiltC v)
    (hs : broadcastShapes (v.comps.map fun q => q.arr.shape) = .ok s) :
    ∃ q v', v.toQuantity = .ok q ∧ fromQuantity v.cls q = .ok v' ∧ v'.cls = v.cls ∧
      v'.comps.length = v.comps.length ∧
      ∀ i (hi : i < v.comps.length) (hi' : i < v'.comps.length),
        IsFirstUnit v v'.comps[i].unit ∧ v'.comps[i].arr.shape = s ∧
        ∀ idx, InB s idx →
          physAt v'.comps[i] idx = physAt v.comps[i] (bcSource v.comps[i].arr.shape idx) := by
  obtain ⟨q, h1, h2, h3, h4⟩ := C39_to_quantity v s hv hs
  obtain ⟨hl, hd⟩ := builtC_iff.mp hv
  have hdq : q.unit.dim = v.cls.dim := by
    obtain ⟨q0, rest, e1, e2⟩ := h2
    rw [e2]; exact hd q0 (by rw [e1]; simp)
  rw [hl] at h3
  have hf := from_ok v.cls q s v.cls.n h3 le_rfl hdq (accepts_n _ _ _ h3 hdq)
  refine ⟨q, _, h1, hf, rfl, by simp [hl], fun i hi hi' => ?_⟩
  simp only [getElem_map, getElem_range]
  exact ⟨h2, trivial, fun idx hidx => h4 i hi idx hidx⟩

/-- **C39.** If the components have one shape and one unit, the round trip returns the vector itself. -/
theorem C39_round_trip_exact (v : CVec) (s : List ℕ) (u : UnitU) (hv : BuiltC v)
    (hs : ∀ q ∈ v.comps, q.arr.shape = s ∧ q.unit = u) :
    ∃ q v', v.toQuantity = .ok q ∧ fromQuantity v.cls q = .ok v' ∧ SameC v' v := by
  obtain ⟨hl, hd⟩ := builtC_iff.mp hv
  have hne : v.comps ≠ [] := fun h => by rw [h] at hl; have := n_pos v.cls; simp at hl; omega
  have hbs : broadcastShapes (v.comps.map fun q => q.arr.shape) = .ok s := by
    refine broadcast_const (l := v.comps.map fun q => q.arr.shape) (by simpa using hne) (fun t ht => by
      obtain ⟨q, hq, rfl⟩ := mem_map.mp ht; exact (hs q hq).1)
  obtain ⟨q, v', h1, h2, h3, h4, h5⟩ := C39_round_trip v s hv hbs
  refine ⟨q, v', h1, h2, h3, forall₂_iff_get.mpr ⟨h4, fun i hi' hi => ?_⟩⟩
  obtain ⟨⟨q0, rest, e1, e2⟩, e3, e4⟩ := h5 i hi hi'
  simp only [get_eq_getElem]
  have hi2 := hs _ (getElem_mem hi)
  have hu : v'.comps[i].unit = u := by rw [e2]; exact (hs q0 (by rw [e1]; simp)).2
  refine ⟨hu.trans hi2.2.symm, e3.trans hi2.1.symm, fun idx hidx => ?_⟩
  rw [e3] at hidx
  have := e4 idx hidx
  unfold physAt at this
  rw [hu, hi2.2, hi2.1, bcSource_self hidx] at this
  exact mul_right_cancel₀ (ne_of_gt u.pos) this

/-- a position with components in km and m of shapes () and (3,) -/
example : BuiltC ⟨.pos2, [⟨⟨"km", .length, 1000, by norm_num⟩, ⟨[], fun _ => 1⟩⟩,
    ⟨⟨"m", .length, 1, by norm_num⟩, ⟨[3], fun _ => 2⟩⟩]⟩ := by
  rw [builtC_iff]; exact ⟨rfl, by simp [CCls.dim]⟩

/-- **C39.** The other way: a Quantity whose last axis has as many entries as the class has components
is taken apart in the order `x, y, z`, and put together again by `convert`. -/
theorem C39_from_quantity (c : CCls) (q : QArr) (s : List ℕ) (h : q.arr.shape = s ++ [c.n])
    (hd : q.unit.dim = c.dim) :
    ∃ v q', fromQuantity c q = .ok v ∧ v.cls = c ∧ BuiltC v ∧
      (∀ i (hi : i < v.comps.length), v.comps[i].unit = q.unit ∧ v.comps[i].arr.shape = s ∧
        ∀ idx, v.comps[i].arr.get idx = q.arr.get (idx ++ [i])) ∧
      v.toQuantity = .ok q' ∧ SameQ q' q := by
  have hf := from_ok c q s c.n h le_rfl hd (accepts_n _ _ _ h hd)
  set v : CVec := ⟨c, (range c.n).map fun i => ⟨q.unit, ⟨s, fun idx => q.arr.get (idx ++ [i])⟩⟩⟩ with hvdef
  have hb : BuiltC v := by
    rw [builtC_iff]
    refine ⟨by simp [hvdef], fun a ha => ?_⟩
    obtain ⟨i, _, rfl⟩ := mem_map.mp ha
    exact hd
  have hne : v.comps ≠ [] := by
    have := n_pos c
    simp [hvdef]; omega
  have hbs : broadcastShapes (v.comps.map fun q => q.arr.shape) = .ok s := by
    refine broadcast_const (l := v.comps.map fun q => q.arr.shape) (by simpa using hne) (fun t ht => by
      simp only [hvdef, map_map, mem_map, Function.comp] at ht
      obtain ⟨_, _, rfl⟩ := ht; rfl)
  obtain ⟨q', h1, ⟨q0, rest, e1, e2⟩, h3, h4⟩ := C39_to_quantity v s hb hbs
  have hcl : v.comps.length = c.n := by simp [hvdef]
  have hu : q'.unit = q.unit := by
    rw [e2]
    have : q0 ∈ v.comps := by rw [e1]; simp
    simp only [hvdef, mem_map] at this
    obtain ⟨_, _, rfl⟩ := this; rfl
  refine ⟨v, q', hf, rfl, hb, fun i hi => ?_, h1, hu, by rw [h3, hcl, h], fun idx hidx => ?_⟩
  · simp only [hvdef, getElem_map, getElem_range]
    exact ⟨trivial, trivial, fun _ => trivial⟩
  · rw [h3] at hidx
    obtain ⟨idx', k, rfl⟩ : ∃ idx' k, idx = idx' ++ [k] := by
      have hl := inB_length hidx
      rw [length_append, length_singleton] at hl
      exact ⟨idx.dropLast, idx.getLast (fun h => by simp [h] at hl), (dropLast_append_getLast _).symm⟩
    have hr := inB_reverse.mpr hidx
    simp only [reverse_append, reverse_singleton, singleton_append] at hr
    cases hr with
    | cons hk hr =>
      have hidx' : InB s idx' := inB_reverse.mp hr
      have := h4 k hk idx' hidx'
      unfold physAt at this
      simp only [hvdef, getElem_map, getElem_range] at this
      rw [hu, bcSource_self hidx'] at this
      exact mul_right_cancel₀ (ne_of_gt q.unit.pos) this

/-- C39 fails for Quantities of the wrong length, which are not all rejected. One-dimensional classes
take the first entry of the last axis and drop the rest (a Quantity of shape `(m,)` becomes a single
vector); `CartesianPos3D`, `CartesianVel3D` and `CartesianAcc2D` drop the entries they have no component
for. -/
theorem C39_extra_entries_dropped (c : CCls) (q : QArr) (s : List ℕ) (m : ℕ)
    (hc : c.n = 1 ∨ c = .pos3 ∨ c = .vel3 ∨ c = .acc2) (h : q.arr.shape = s ++ [m]) (hm : c.n < m)
    (hd : q.unit.dim = c.dim) :
    ∃ v q', fromQuantity c q = .ok v ∧ v.toQuantity = .ok q' ∧ q'.arr.shape = s ++ [c.n] ∧
      ∀ idx i, InB s idx → i < c.n → physAt q' (idx ++ [i]) = physAt q (idx ++ [i]) := by
  have ha : c.accepts q = true := by
    rcases hc with hc | rfl | rfl | rfl
    · cases c <;> first | (cases hc; done) | simp [CCls.accepts, hd]
    · rfl
    · rfl
    · rfl
  have hf := from_ok c q s m h hm.le hd ha
  set v : CVec := ⟨c, (range c.n).map fun i => ⟨q.unit, ⟨s, fun idx => q.arr.get (idx ++ [i])⟩⟩⟩ with hvdef
  have hb : BuiltC v := by
    rw [builtC_iff]
    refine ⟨by simp [hvdef], fun a ha => ?_⟩
    obtain ⟨i, _, rfl⟩ := mem_map.mp ha
    exact hd
  have hne : v.comps ≠ [] := by
    have := n_pos c
    simp [hvdef]; omega
  have hbs : broadcastShapes (v.comps.map fun q => q.arr.shape) = .ok s := by
    refine broadcast_const (l := v.comps.map fun q => q.arr.shape) (by simpa using hne) (fun t ht => by
      simp only [hvdef, map_map, mem_map, Function.comp] at ht
      obtain ⟨_, _, rfl⟩ := ht; rfl)
  have hcl : v.comps.length = c.n := by simp [hvdef]
  obtain ⟨q', h1, _, h3, h4⟩ := C39_to_quantity v s hb hbs
  refine ⟨v, q', hf, h1, by rw [h3, hcl], fun idx i hidx hi => ?_⟩
  have := h4 i (hcl.symm ▸ hi) idx hidx
  simp only [hvdef, getElem_map, getElem_range] at this
  rw [bcSource_self hidx] at this
  exact this

/-- the other classes reject a Quantity of the wrong length; `CartesianAcc3D` does so by unbounded
recursion -/
theorem C39_wrong_length_rejected (q : QArr) (s : List ℕ) (m : ℕ) (h : q.arr.shape = s ++ [m]) :
    (m ≠ 2 → fromQuantity .pos2 q = .error .noDispatch ∧ fromQuantity .vel2 q = .error .noDispatch) ∧
    (m ≠ 3 → fromQuantity .acc3 q = .error .recursion) := by
  have hlast : q.arr.shape.getLast? = some m := by rw [h]; simp
  constructor
  · intro hm
    have h1 : CCls.pos2.accepts q = false := by simp [CCls.accepts, hlast, hm]
    have h2 : CCls.vel2.accepts q = false := by simp [CCls.accepts, hlast, hm]
    exact ⟨by unfold fromQuantity; rw [h1]; rfl, by unfold fromQuantity; rw [h2]; rfl⟩
  · intro hm
    have h1 : CCls.acc3.accepts q = false := by simp [CCls.accepts, hlast, hm]
    unfold fromQuantity; rw [h1]; rfl

/-- **C39.** N-dimensional positions, any number of features, any batch shape: both round trips. (Velocities
and accelerations raise: `C39_nd_velocity_raises`.) -/
theorem C39_nd (q : QArr) (s : List ℕ) (F : ℕ) (h : q.arr.shape = s ++ [F]) (hd : q.unit.dim = .length) :
    toQuantityND .length q = .ok q ∧ fromQuantityND .length q = .ok q := by
  refine ⟨by simp [toQuantityND], ?_⟩
  unfold fromQuantityND
  rw [if_pos hd, atleast_append h]

/-- **C39, exception.** N-dimensional velocities and accelerations can be made from a Quantity but
not converted to one. -/
theorem C39_nd_velocity_raises (d : Dim) (hd : d = .speed ∨ d = .acc) (q : QArr) :
    toQuantityND d q = .error .noDispatch := by
  rcases hd with rfl | rfl <;> rfl

/-- **C39.** A scalar Quantity makes a one-dimensional vector whose component is that scalar: shape `()`, the same
number, the same unit; an N-dimensional vector gets one feature, an array of shape `(1,)`. -/
theorem C39_scalar (q : QArr) (h : q.arr.shape = []) :
    (∀ c : CCls, c.n = 1 → q.unit.dim = c.dim → ∃ v a, fromQuantity c q = .ok v ∧ v.cls = c ∧ v.comps = [a] ∧
      a.unit = q.unit ∧ a.arr.shape = [] ∧ a.arr.get [] = q.arr.get []) ∧
    (∀ d, q.unit.dim = d → ∃ a, fromQuantityND d q = .ok a ∧ a.unit = q.unit ∧ a.arr.shape = [1] ∧
      a.arr.get [0] = q.arr.get []) := by
  have e : q.atleast1d = ⟨q.unit, ⟨[1], fun _ => q.arr.get []⟩⟩ := by
    unfold QArr.atleast1d
    rw [h]
  constructor
  · intro c hn hd
    have hsame : fromQuantity c q = fromQuantity c q.atleast1d := by
      have h2 : q.atleast1d.atleast1d = q.atleast1d := by rw [e]; rfl
      have ha : c.accepts q.atleast1d = c.accepts q := by
        rw [e]
        cases c <;> first | (cases hn; done) | rfl
      unfold fromQuantity
      rw [ha, h2]
      simp only [hn, if_true]
    have hd1 : q.atleast1d.unit.dim = c.dim := by rw [e]; exact hd
    have hs1 : q.atleast1d.arr.shape = [] ++ [1] := by rw [e]; rfl
    have hf := from_ok c q.atleast1d [] 1 hs1 hn.le hd1
      (by cases c <;> first | (cases hn; done) | (simp [CCls.accepts, hd1]))
    rw [hn] at hf
    refine ⟨_, ⟨q.unit, ⟨[], fun idx => q.atleast1d.arr.get (idx ++ [0])⟩⟩, hsame.trans hf, rfl, ?_, rfl, rfl, ?_⟩
    · rw [e]; rfl
    · rw [e]
  · intro d hd
    refine ⟨_, by unfold fromQuantityND; rw [if_pos hd], ?_⟩
    rw [e]
    exact ⟨rfl, rfl, rfl⟩

/-- the hypotheses are met by a scalar length -/
example : ∃ v a, fromQuantity .pos1 ⟨⟨"km", .length, 1000, by norm_num⟩, ⟨[], fun _ => 4⟩⟩ = .ok v ∧ v.comps = [a] ∧ a.arr.get [] = 4 := by
  obtain ⟨v, a, h1, -, h2, -, -, h3⟩ := (C39_scalar ⟨⟨"km", .length, 1000, by norm_num⟩, ⟨[], fun _ => 4⟩⟩ rfl).1 .pos1 rfl rfl
  exact ⟨v, a, h1, h2, h3⟩

/-- **C39.** A position of any class converts to the coordinates of its point. -/
theorem C39_noncartesian (p : Pos ℝ) (hv : Valid p) (hs : p.kind ≠ .twoSphere) :
    toQuantity p = .ok ([(point p).x, (point p).y, (point p).z].take p.kind.dim) := by
  obtain ⟨c, hc, g⟩ := toCart_total p hv hs
  have hkind := g.kind
  rw [← g.point]
  unfold toQuantity toCartesian
  rw [hc, ok_bind]
  have hd : p.kind.dim = c.kind.dim := by rw [hkind, dim_cartesian]
  rw [hd]
  cases c <;> first
    | rfl
    | (exfalso; revert hkind; cases p <;> intro h <;> cases h)

end Verif
