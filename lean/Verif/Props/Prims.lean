import Verif.Prims
import Verif.Props.BatchExact
import Verif.Props.BatchOp
import Verif.BatchVelTotal

/-!
# C64: `jnp.broadcast_to` and `jnp.reshape` on vectors
-/

namespace Verif

open List Spec

/-! ### fields -/

/-- a function of every field -/
def Pos.mapFields (g : BArr → BArr) : Pos BArr → Pos BArr
  | .cart1 x => .cart1 (g x)
  | .radial r => .radial (r.mapRaw g)
  | .cart2 x y => .cart2 (g x) (g y)
  | .polar r phi => .polar (r.mapRaw g) (g phi)
  | .twoSphere theta phi => .twoSphere (g theta) (g phi)
  | .cart3 x y z => .cart3 (g x) (g y) (g z)
  | .cyl rho phi z => .cyl (g rho) (g phi) (g z)
  | .sph r theta phi => .sph (r.mapRaw g) (g theta) (g phi)
  | .lonlat lon lat distance => .lonlat (g lon) (g lat) (distance.mapRaw g)
  | .math r theta phi => .math (r.mapRaw g) (g theta) (g phi)
  | .prolate mu nu phi delta => .prolate (g mu) (g nu) (g phi) (g delta)

theorem mapFields_kind (g : BArr → BArr) (P : Pos BArr) : (P.mapFields g).kind = P.kind := by cases P <;> rfl

theorem raw_mapRaw (g : BArr → BArr) (r : Dist BArr) : (r.mapRaw g).raw = g r.raw := by cases r <;> rfl

theorem mapFields_comps (g : BArr → BArr) (P : Pos BArr) : compsOf (P.mapFields g) = (compsOf P).map g := by
  cases P <;> simp [Pos.mapFields, compsOf, raw_mapRaw]

theorem distAt_mapRaw {g : BArr → BArr} {i j : List ℕ} {r : Dist BArr} (h : at_ i (g r.raw) = at_ j r.raw) :
    distAt i (r.mapRaw g) = distAt j r := by
  cases r with
  | dist d => exact congrArg (Option.map Dist.dist) h
  | par d => exact congrArg (Option.map Dist.par) h
  | dm d => exact congrArg (Option.map Dist.dm) h

theorem posAt_mapFields {g : BArr → BArr} {i j : List ℕ} {P : Pos BArr} (h : ∀ a ∈ compsOf P, at_ i (g a) = at_ j a) :
    posAt i (P.mapFields g) = posAt j P := by
  cases P <;> simp only [compsOf, mem_cons, not_mem_nil, or_false, forall_eq_or_imp, forall_eq] at h <;>
    simp only [Pos.mapFields, posAt]
  case cart1 => rw [h]
  case radial => rw [distAt_mapRaw h]
  case cart2 => rw [h.1, h.2]
  case polar => rw [distAt_mapRaw h.1, h.2]
  case twoSphere => rw [h.1, h.2]
  case cart3 => rw [h.1, h.2.1, h.2.2]
  case cyl => rw [h.1, h.2.1, h.2.2]
  case sph => rw [distAt_mapRaw h.1, h.2.1, h.2.2]
  case lonlat => rw [h.1, h.2.1, distAt_mapRaw h.2.2]
  case math => rw [distAt_mapRaw h.1, h.2.1, h.2.2]
  case prolate => rw [h.1, h.2.1, h.2.2.1, h.2.2.2]

theorem mapRawM_ite {f : BArr → Res BArr} {g : BArr → BArr} {C : BArr → Prop} {r s : Dist BArr}
    (hf : ∀ a b, f a = .ok b ↔ C a ∧ b = g a) : r.mapRawM f = .ok s ↔ C r.raw ∧ s = r.mapRaw g := by
  cases r <;>
  · simp only [Dist.mapRawM, bind_ok_iff, hf, Dist.raw, Dist.mapRaw]
    constructor
    · rintro ⟨b, ⟨h1, rfl⟩, h⟩; exact ⟨h1, (Except.ok.inj h).symm⟩
    · rintro ⟨h1, rfl⟩; exact ⟨_, ⟨h1, rfl⟩, rfl⟩

theorem mapFieldsM_ite {f : BArr → Res BArr} {g : BArr → BArr} {C : BArr → Prop} {P Q : Pos BArr}
    (hf : ∀ a b, f a = .ok b ↔ C a ∧ b = g a) : P.mapFieldsM f = .ok Q ↔ (∀ a ∈ compsOf P, C a) ∧ Q = P.mapFields g := by
  cases P <;>
  · simp only [Pos.mapFieldsM, Pos.mapCoordsM, bind_ok_iff, hf, mapRawM_ite hf, compsOf, Pos.mapFields, mem_cons, not_mem_nil,
      or_false, forall_eq_or_imp, forall_eq]
    constructor
    · intro h
      first
        | (obtain ⟨_, ⟨h1, rfl⟩, h⟩ := h; exact ⟨h1, (Except.ok.inj h).symm⟩)
        | (obtain ⟨_, ⟨h1, rfl⟩, _, ⟨h2, rfl⟩, h⟩ := h; exact ⟨⟨h1, h2⟩, (Except.ok.inj h).symm⟩)
        | (obtain ⟨_, ⟨h1, rfl⟩, _, ⟨h2, rfl⟩, _, ⟨h3, rfl⟩, h⟩ := h; exact ⟨⟨h1, h2, h3⟩, (Except.ok.inj h).symm⟩)
        | (obtain ⟨_, ⟨h1, rfl⟩, _, ⟨h2, rfl⟩, _, ⟨h3, rfl⟩, _, ⟨h4, rfl⟩, h⟩ := h
           exact ⟨⟨h1, h2, h3, h4⟩, (Except.ok.inj h).symm⟩)
    · rintro ⟨h, rfl⟩
      first
        | exact ⟨_, ⟨h, rfl⟩, rfl⟩
        | exact ⟨_, ⟨h.1, rfl⟩, _, ⟨h.2, rfl⟩, rfl⟩
        | exact ⟨_, ⟨h.1, rfl⟩, _, ⟨h.2.1, rfl⟩, _, ⟨h.2.2, rfl⟩, rfl⟩
        | exact ⟨_, ⟨h.1, rfl⟩, _, ⟨h.2.1, rfl⟩, _, ⟨h.2.2.1, rfl⟩, _, ⟨h.2.2.2, rfl⟩, rfl⟩

/-! ### checks see the same elements -/

section
variable {s t : List ℕ} {φ : List ℕ → List ℕ}

/-- `a'` has shape `t` (or is a single number) and its elements are elements of `a` -/
def MovedA (s t : List ℕ) (φ : List ℕ → List ℕ) {α : Type} (a a' : Arr α) : Prop :=
  (a'.shape = t ∨ a'.shape = []) ∧ BroadcastsTo a.shape s ∧ ∀ i, InB t i → a'.elem i = a.elem (φ i)

theorem MovedA.scalar {α : Type} (x : α) : MovedA s t φ (Arr.scalar x) (Arr.scalar x) :=
  ⟨.inr rfl, broadcastsTo_nil _, fun _ _ => rfl⟩

theorem MovedA.map {α β : Type} {f : α → β} {a a' : Arr α} (h : MovedA s t φ a a') : MovedA s t φ (a.map f) (a'.map f) :=
  ⟨h.1, h.2.1, fun i hi => congrArg f (h.2.2 i hi)⟩

theorem bc2_shapes {a b u : List ℕ} (ha : a = t ∨ a = []) (hb : b = t ∨ b = []) (h : bc2 a b = .ok u) : u = t ∨ u = [] := by
  rcases ha with rfl | rfl <;> rcases hb with rfl | rfl
  · rw [bc2_self] at h; exact .inl (Except.ok.inj h).symm
  · rw [bc2_nil_right] at h; exact .inl (Except.ok.inj h).symm
  · rw [bc2_nil_left] at h; exact .inl (Except.ok.inj h).symm
  · rw [bc2_nil_left] at h; exact .inr (Except.ok.inj h).symm

theorem MovedA.map2 {α β γ : Type} {f : α → β → γ} {a a' : Arr α} {b b' : Arr β} (ha : MovedA s t φ a a') (hb : MovedA s t φ b b') :
    ∃ c c', Arr.map2 f a b = .ok c ∧ Arr.map2 f a' b' = .ok c' ∧ MovedA s t φ c c' ∧ (a'.shape = t → c'.shape = t) ∧
      (b'.shape = t → c'.shape = t) := by
  have fit : ∀ u, u = t ∨ u = [] → BroadcastsTo u t := by
    rintro u (rfl | rfl)
    · exact broadcastsTo_refl _
    · exact broadcastsTo_nil _
  obtain ⟨c, h1, h2, -, h3⟩ := Arr.map2_spec (f := f) ha.2.1 hb.2.1
  obtain ⟨c', k1, k2, k3, k4⟩ := Arr.map2_spec (f := f) (fit _ ha.1) (fit _ hb.1)
  refine ⟨c, c', h1, k1, ⟨bc2_shapes ha.1 hb.1 k3, h2, fun i hi => by rw [k4, h3, ha.2.2 i hi, hb.2.2 i hi]⟩, fun e => ?_, fun e => ?_⟩
  · rw [e] at k3
    exact broadcastsTo_antisymm k2 ((bc2_iff.mp k3).1 t (by simp))
  · rw [e] at k3
    exact broadcastsTo_antisymm k2 ((bc2_iff.mp k3).1 t (by simp))

variable (hφ : ∀ i, InB t i → InB s (φ i))
include hφ

theorem MovedA.errorIf {c c' : Arr Bool} (h : MovedA s t φ c c') (ht : c'.shape = t) (hc : errorIfAny c = .ok ()) :
    errorIfAny c' = .ok () := by
  unfold errorIfAny at hc ⊢
  split at hc
  · cases hc
  · rename_i hn
    rw [if_neg]
    rintro ⟨i, hi, hv⟩
    have hi' := hi
    rw [ht] at hi
    refine hn ⟨bcSource c.shape (φ i), (Arr.elem_get h.2.1 (hφ i hi)).2, ?_⟩
    rw [← (Arr.elem_get h.2.1 (hφ i hi)).1, ← h.2.2 i hi, Arr.elem_self hi']
    exact hv

theorem MovedA.nonNeg {x x' : BArr} (h : MovedA s t φ x x') (ht : x'.shape = t) (hc : checkNonNegB x = .ok ()) :
    checkNonNegB x' = .ok () := by
  obtain ⟨c, c', h1, h2, h3, h4, -⟩ := h.map2 (f := elCmp Num.lt) (MovedA.scalar (some (Num.nat 0)))
  obtain ⟨d, hd, hc⟩ := (bind_ok_iff _ _ _).mp hc
  obtain rfl := Except.ok.inj (hd.symm.trans h1)
  unfold checkNonNegB
  rw [show blt x' (bnat 0) = .ok c' from h2, ok_bind]
  exact h3.errorIf hφ (h4 ht) hc

theorem MovedA.pos {x x' : BArr} (h : MovedA s t φ x x') (ht : x'.shape = t) (hc : checkPosB x = .ok ()) :
    checkPosB x' = .ok () := by
  obtain ⟨c, c', h1, h2, h3, h4, -⟩ := h.map2 (f := elCmp fun x y => !Num.lt y x) (MovedA.scalar (some (Num.nat 0)))
  obtain ⟨d, hd, hc⟩ := (bind_ok_iff _ _ _).mp hc
  obtain rfl := Except.ok.inj (hd.symm.trans h1)
  unfold checkPosB
  rw [show ble x' (bnat 0) = .ok c' from h2, ok_bind]
  exact h3.errorIf hφ (h4 ht) hc

theorem MovedA.range {x x' lo hi : BArr} (h : MovedA s t φ x x') (ht : x'.shape = t) (hl : MovedA s t φ lo lo) (hh : MovedA s t φ hi hi)
    (hc : checkRangeB x lo hi = .ok ()) : checkRangeB x' lo hi = .ok () := by
  obtain ⟨c, c', h1, h2, h3, h4, -⟩ := h.map2 (f := elCmp Num.lt) hl
  obtain ⟨d, d', k1, k2, k3, -, k4⟩ := hh.map2 (f := elCmp Num.lt) h
  obtain ⟨e, e', l1, l2, l3, l4, -⟩ := h3.map2 (f := fun a b => a || b) k3
  simp only [checkRangeB, bind_ok_iff] at hc
  obtain ⟨_, hd, _, he, _, hf, hc⟩ := hc
  obtain rfl := Except.ok.inj (hd.symm.trans h1)
  obtain rfl := Except.ok.inj (he.symm.trans k1)
  obtain rfl := Except.ok.inj (hf.symm.trans l1)
  unfold checkRangeB
  rw [show blt x' lo = .ok c' from h2, ok_bind, show blt hi x' = .ok d' from k2, ok_bind, l2, ok_bind]
  exact l3.errorIf hφ (l4 (h4 ht)) hc

theorem MovedA.lt {x x' y y' : BArr} (h : MovedA s t φ x x') (k : MovedA s t φ y y') (ht : x'.shape = t ∨ y'.shape = t)
    (hc : (blt x y >>= errorIfAny) = .ok ()) : (blt x' y' >>= errorIfAny) = .ok () := by
  obtain ⟨c, c', h1, h2, h3, h4, h5⟩ := h.map2 (f := elCmp Num.lt) k
  obtain ⟨d, hd, hc⟩ := (bind_ok_iff _ _ _).mp hc
  obtain rfl := Except.ok.inj (hd.symm.trans h1)
  rw [show blt x' y' = .ok c' from h2, ok_bind]
  exact h3.errorIf hφ (ht.elim h4 h5) hc

/-- a vector made of elements of an accepted vector is accepted -/
theorem rebuild_moved {P : Pos BArr} {g : BArr → BArr} (h : ∀ a ∈ compsOf P, MovedA s t φ a (g a) ∧ (g a).shape = t)
    (hP : P.rebuildB = .ok P) : (P.mapFields g).rebuildB = .ok (P.mapFields g) := by
  suffices ∃ Q, (P.mapFields g).rebuildB = .ok Q by
    obtain ⟨Q, hQ⟩ := this
    rw [hQ, rebuildB_eq hQ]
  have m0 : MovedA s t φ (bnat 0) (bnat 0) := MovedA.scalar _
  have mpi : MovedA s t φ bpi bpi := MovedA.scalar _
  have mh : MovedA s t φ bhalfPi bhalfPi := MovedA.scalar _
  have mnh : MovedA s t φ (bneg bhalfPi) (bneg bhalfPi) := MovedA.map mh
  cases P <;> simp only [compsOf, mem_cons, not_mem_nil, or_false, forall_eq_or_imp, forall_eq] at h <;>
    simp only [Pos.mapFields, Pos.rebuildB, mkRadialB, mkPolarB, mkCylB, mkSphB, mkLonLatB, mkMathB, mkProlateB, AzArg.convertB,
      raw_mapRaw] at hP ⊢
  case cart1 => exact ⟨_, rfl⟩
  case cart2 => exact ⟨_, rfl⟩
  case cart3 => exact ⟨_, rfl⟩
  case radial =>
    obtain ⟨_, h1, -⟩ := (bind_ok_iff _ _ _).mp hP
    exact ⟨_, by rw [h.1.nonNeg hφ h.2 h1]; rfl⟩
  case polar =>
    obtain ⟨_, h1, -⟩ := (bind_ok_iff _ _ _).mp hP
    exact ⟨_, by rw [h.1.1.nonNeg hφ h.1.2 h1]; rfl⟩
  case twoSphere =>
    obtain ⟨_, h1, -⟩ := (bind_ok_iff _ _ _).mp hP
    exact ⟨_, by rw [h.1.1.range hφ h.1.2 m0 mpi h1]; rfl⟩
  case cyl =>
    obtain ⟨_, h1, -⟩ := (bind_ok_iff _ _ _).mp hP
    exact ⟨_, by rw [h.1.1.nonNeg hφ h.1.2 h1]; rfl⟩
  case sph =>
    obtain ⟨_, h1, hP⟩ := (bind_ok_iff _ _ _).mp hP
    obtain ⟨_, h2, -⟩ := (bind_ok_iff _ _ _).mp hP
    exact ⟨_, by rw [h.1.1.nonNeg hφ h.1.2 h1, ok_bind, h.2.1.1.range hφ h.2.1.2 m0 mpi h2]; rfl⟩
  case lonlat =>
    obtain ⟨_, h1, hP⟩ := (bind_ok_iff _ _ _).mp hP
    obtain ⟨_, h2, -⟩ := (bind_ok_iff _ _ _).mp hP
    exact ⟨_, by rw [h.2.1.1.range hφ h.2.1.2 mnh mh h1, ok_bind, h.2.2.1.nonNeg hφ h.2.2.2 h2]; rfl⟩
  case math =>
    obtain ⟨_, h1, hP⟩ := (bind_ok_iff _ _ _).mp hP
    obtain ⟨_, h2, -⟩ := (bind_ok_iff _ _ _).mp hP
    exact ⟨_, by rw [h.1.1.nonNeg hφ h.1.2 h1, ok_bind, h.2.2.1.range hφ h.2.2.2 m0 mpi h2]; rfl⟩
  case prolate mu nu phi delta =>
    obtain ⟨_, h1, hP⟩ := (bind_ok_iff _ _ _).mp hP
    obtain ⟨d2, h2, hP⟩ := (bind_ok_iff _ _ _).mp hP
    obtain ⟨e2, e2', k1, k2, k3, k4, -⟩ := h.2.2.2.1.map2 (f := el2 fun x y => .ok (x * y)) h.2.2.2.1
    obtain rfl := Except.ok.inj (h2.symm.trans k1)
    obtain ⟨c1, g1, hP⟩ := (bind_ok_iff _ _ _).mp hP
    obtain ⟨_, g2, hP⟩ := (bind_ok_iff _ _ _).mp hP
    obtain ⟨c2, g3, hP⟩ := (bind_ok_iff _ _ _).mp hP
    obtain ⟨_, g4, -⟩ := (bind_ok_iff _ _ _).mp hP
    have r1 := h.1.1.lt hφ k3 (.inl h.1.2) (by rw [g1]; exact g2)
    have r2 := k3.lt hφ (h.2.1.1.map (f := el1 fun x => .ok (Num.abs x))) (.inr h.2.1.2)
      (by rw [show blt d2 (Arr.map (el1 fun x => .ok (Num.abs x)) nu) = .ok c2 from g3]; exact g4)
    obtain ⟨c1', f1, f2⟩ := (bind_ok_iff _ _ _).mp r1
    obtain ⟨c2', f3, f4⟩ := (bind_ok_iff _ _ _).mp r2
    exact ⟨_, by
      rw [h.2.2.2.1.pos hφ h.2.2.2.2 h1, ok_bind, show bmul (g delta) (g delta) = .ok e2' from k2, ok_bind, f1, ok_bind, f2, ok_bind,
        show blt e2' (babs (g nu)) = .ok c2' from f3, ok_bind, f4]
      rfl⟩

end

/-! ### `jnp.broadcast_to` -/

theorem bcastTo_iff {s : List ℕ} {a b : BArr} : bcastTo s a = .ok b ↔ BroadcastsTo a.shape s ∧ b = a.broadcastTo s := by
  unfold bcastTo
  rw [bind_ok_iff]
  constructor
  · rintro ⟨u, h1, h2⟩
    by_cases e : u = s
    · subst e
      rw [if_pos rfl] at h2
      exact ⟨(bc2_iff.mp h1).1 _ (by simp), (Except.ok.inj h2).symm⟩
    · rw [if_neg e] at h2; cases h2
  · rintro ⟨h, rfl⟩
    refine ⟨s, bc2_iff.mpr ⟨?_, fun t ht => ht s (by simp)⟩, if_pos rfl⟩
    intro t ht
    simp only [mem_cons, not_mem_nil, or_false] at ht
    rcases ht with rfl | rfl
    · exact h
    · exact broadcastsTo_refl _

theorem at_broadcastTo {s i : List ℕ} {a : BArr} (h : BroadcastsTo a.shape s) (hi : InB s i) :
    at_ i (a.broadcastTo s) = at_ i a := by
  rw [at_eq (a := a.broadcastTo s) (broadcastsTo_refl _) hi, broadcast_elem a hi, at_eq h hi]

/-- **C64.** `jnp.broadcast_to(vec, (*t, k))` on a position: it returns exactly when every component broadcasts to `t`. The result
has the class of `vec`, every component has shape `t`, and the vector at each batch index is the vector that broadcasting reads
off `vec` there. -/
theorem C64_broadcast (t : List ℕ) (k : ℕ) (P : Pos BArr) (hP : P.rebuildB = .ok P) :
    ((∃ Q, broadcastInDimPos (t ++ [k]) P = .ok Q) ↔ Fits t P) ∧
    ∀ Q, broadcastInDimPos (t ++ [k]) P = .ok Q →
      Q.kind = P.kind ∧ (∀ a ∈ compsOf Q, a.shape = t) ∧
      ∀ i, InB t i → posAt i Q = posAt i P ∧ (compsOf Q).map (at_ i) = (compsOf P).map (at_ i) := by
  have key : ∀ Q, broadcastInDimPos (t ++ [k]) P = .ok Q ↔ Fits t P ∧ Q = P.mapFields fun a => a.broadcastTo t := by
    intro Q
    unfold broadcastInDimPos
    rw [dropLast_concat, bind_ok_iff]
    have gen : Fits t P → (P.mapFields fun a => a.broadcastTo t).rebuildB = .ok (P.mapFields fun a => a.broadcastTo t) := fun hf =>
      rebuild_moved (s := t) (t := t) (φ := id) (fun _ h => h)
        (fun a ha => ⟨⟨.inl rfl, hf a ha, fun i hi => broadcast_elem a hi⟩, rfl⟩) hP
    constructor
    · rintro ⟨R, h1, h2⟩
      obtain ⟨hf, rfl⟩ := (mapFieldsM_ite (C := fun a => BroadcastsTo a.shape t) fun a b => bcastTo_iff).mp h1
      exact ⟨hf, Except.ok.inj (h2.symm.trans (gen hf))⟩
    · rintro ⟨hf, rfl⟩
      exact ⟨_, (mapFieldsM_ite (C := fun a => BroadcastsTo a.shape t) fun a b => bcastTo_iff).mpr ⟨hf, rfl⟩, gen hf⟩
  refine ⟨⟨fun ⟨Q, h⟩ => ((key Q).mp h).1, fun h => ⟨_, (key _).mpr ⟨h, rfl⟩⟩⟩, fun Q h => ?_⟩
  obtain ⟨hf, rfl⟩ := (key Q).mp h
  refine ⟨mapFields_kind _ _, ?_, fun i hi => ⟨posAt_mapFields fun a ha => at_broadcastTo (hf a ha) hi, ?_⟩⟩
  · rw [mapFields_comps]
    intro a ha
    obtain ⟨b, -, rfl⟩ := mem_map.mp ha
    rfl
  · rw [mapFields_comps, map_map]
    exact map_congr_left fun a ha => at_broadcastTo (hf a ha) hi

theorem velComps_map (g : BArr → BArr) (V : Vel BArr) : velComps (V.map g) = (velComps V).map g := by cases V <;> rfl

theorem velMapM_iff {f : BArr → Res BArr} {g : BArr → BArr} {C : BArr → Prop} {P Q : Vel BArr}
    (hf : ∀ a b, f a = .ok b ↔ C a ∧ b = g a) : P.mapM f = .ok Q ↔ (∀ a ∈ velComps P, C a) ∧ Q = P.map g := by
  cases P <;>
  · simp only [Vel.mapM, bind_ok_iff, hf, velComps, Vel.map, mem_cons, not_mem_nil,
      or_false, forall_eq_or_imp, forall_eq]
    constructor
    · intro h
      first
        | (obtain ⟨_, ⟨h1, rfl⟩, h⟩ := h; exact ⟨h1, (Except.ok.inj h).symm⟩)
        | (obtain ⟨_, ⟨h1, rfl⟩, _, ⟨h2, rfl⟩, h⟩ := h; exact ⟨⟨h1, h2⟩, (Except.ok.inj h).symm⟩)
        | (obtain ⟨_, ⟨h1, rfl⟩, _, ⟨h2, rfl⟩, _, ⟨h3, rfl⟩, h⟩ := h; exact ⟨⟨h1, h2, h3⟩, (Except.ok.inj h).symm⟩)
    · rintro ⟨h, rfl⟩
      first
        | exact ⟨_, ⟨h, rfl⟩, rfl⟩
        | exact ⟨_, ⟨h.1, rfl⟩, _, ⟨h.2, rfl⟩, rfl⟩
        | exact ⟨_, ⟨h.1, rfl⟩, _, ⟨h.2.1, rfl⟩, _, ⟨h.2.2, rfl⟩, rfl⟩

theorem velAt_map {g : BArr → BArr} {i j : List ℕ} {V : Vel BArr} (h : ∀ a ∈ velComps V, at_ i (g a) = at_ j a) :
    velAt i (V.map g) = velAt j V := by
  cases V <;> simp only [velComps, mem_cons, not_mem_nil, or_false, forall_eq_or_imp, forall_eq] at h <;>
    simp only [Vel.map, velAt]
  all_goals first
    | rw [h.1, h.2.1, h.2.2]
    | rw [h.1, h.2]
    | rw [h]

/-- **C64.** The same for velocities and accelerations. -/
theorem C64_broadcast_velocity (t : List ℕ) (k : ℕ) (V : Vel BArr) :
    ((∃ W, broadcastInDimVel (t ++ [k]) V = .ok W) ↔ VFits t V) ∧
    ∀ W, broadcastInDimVel (t ++ [k]) V = .ok W →
      W.kind = V.kind ∧ (∀ a ∈ velComps W, a.shape = t) ∧
      ∀ i, InB t i → velAt i W = velAt i V ∧ (velComps W).map (at_ i) = (velComps V).map (at_ i) := by
  have key : ∀ W, broadcastInDimVel (t ++ [k]) V = .ok W ↔ VFits t V ∧ W = V.map fun a => a.broadcastTo t := by
    intro W
    unfold broadcastInDimVel
    rw [dropLast_concat]
    exact velMapM_iff (C := fun a => BroadcastsTo a.shape t) fun a b => bcastTo_iff
  refine ⟨⟨fun ⟨Q, h⟩ => ((key Q).mp h).1, fun h => ⟨_, (key _).mpr ⟨h, rfl⟩⟩⟩, fun Q h => ?_⟩
  obtain ⟨hf, rfl⟩ := (key Q).mp h
  refine ⟨Vel.map_kind _ _, ?_, fun i hi => ⟨velAt_map fun a ha => at_broadcastTo (hf a ha) hi, ?_⟩⟩
  · rw [velComps_map]
    intro a ha
    obtain ⟨b, -, rfl⟩ := mem_map.mp ha
    rfl
  · rw [velComps_map, map_map]
    exact map_congr_left fun a ha => at_broadcastTo (hf a ha) hi

/-- **C64.** For the N-dimensional classes the last axis of the requested shape is dropped although the field has the axis of the
components: a vector of `n` components (batch shape `s`) can be broadcast to `(*t, n)` only if `(*s, n)` broadcasts to `t`, and
then its data has shape `t`. So a request `(m, n)` for a single vector of `n ≠ 1` components raises unless `m = n`, and then the
result has lost its batch axis. -/
theorem C64_broadcast_nd (t : List ℕ) (k : ℕ) (q : BArr) :
    ((∃ r, broadcastInDimND (t ++ [k]) q = .ok r) ↔ BroadcastsTo q.shape t) ∧
    (∀ r, broadcastInDimND (t ++ [k]) q = .ok r → r.shape = t ∧ ∀ i, InB t i → at_ i r = at_ i q) ∧
    ∀ n m, q.shape = [n] → n ≠ 1 → ((∃ r, broadcastInDimND [m, n] q = .ok r) ↔ m = n) := by
  have key : ∀ t k r, broadcastInDimND (t ++ [k]) q = .ok r ↔ BroadcastsTo q.shape t ∧ r = q.broadcastTo t := by
    intro t k r
    unfold broadcastInDimND
    rw [dropLast_concat]
    exact bcastTo_iff
  refine ⟨⟨fun ⟨r, h⟩ => ((key t k r).mp h).1, fun h => ⟨_, (key t k _).mpr ⟨h, rfl⟩⟩⟩, fun r h => ?_, fun n m hq hn => ?_⟩
  · obtain ⟨hf, rfl⟩ := (key t k r).mp h
    exact ⟨rfl, fun i hi => at_broadcastTo hf hi⟩
  · have : (∃ r, broadcastInDimND [m, n] q = .ok r) ↔ BroadcastsTo q.shape [m] :=
      ⟨fun ⟨r, h⟩ => ((key [m] n r).mp h).1, fun h => ⟨_, (key [m] n _).mpr ⟨h, rfl⟩⟩⟩
    rw [this, hq]
    constructor
    · intro h
      have := (broadcastsTo_eqlen (s := [n]) (t := [m]) rfl).mp h
      cases this with
      | cons h1 _ => rcases h1 with h1 | h1 <;> first | exact absurd h1 hn | exact h1.symm
    · rintro rfl; exact broadcastsTo_refl _

/-! ### `jnp.reshape` -/

theorem coords_length (P : Pos BArr) : P.coords.length = P.kind.dim := by cases P <;> rfl

/-- row-major reshape of one array -/
def resh (t : List ℕ) (a : BArr) : BArr := ⟨t, fun i => a.get (unravelIdx a.shape (ravelIdx t i))⟩

theorem gather_resh (t : List ℕ) (a b : BArr) :
    a.gather (planReshape (t.map some)) = .ok b ↔ t.prod = a.shape.prod ∧ b = resh t a := by
  unfold Arr.gather planReshape
  show ((resolveShape (t.map some) a.shape.prod >>= _) >>= _) = _ ↔ _
  rw [resolve_some]
  by_cases h : t.prod = a.shape.prod
  · rw [if_pos h]
    exact ⟨fun e => ⟨h, (Except.ok.inj e).symm⟩, fun e => by rw [e.2]; rfl⟩
  · rw [if_neg h]
    exact ⟨fun e => (nomatch e), fun e => absurd e.1 h⟩

theorem reshapePrim_parts {n0 : ℕ} {rest : List ℕ} {P Q : Pos BArr} (h : reshapePrim (n0 :: rest) P = .ok Q) :
    (∀ a ∈ compsOf P, (n0 / P.kind.dim :: rest).prod = a.shape.prod) ∧ Q = P.mapFields (resh (n0 / P.kind.dim :: rest)) := by
  unfold reshapePrim at h
  obtain ⟨R, h1, h2⟩ := (bind_ok_iff _ _ _).mp h
  rw [coords_length] at h1
  obtain ⟨h3, rfl⟩ := (mapFieldsM_ite (C := fun a => (n0 / P.kind.dim :: rest).prod = a.shape.prod)
    fun a b => gather_resh _ a b).mp h1
  exact ⟨h3, rebuildB_eq h2⟩

/-- **C64.** `jnp.reshape(vec, (n0, *rest))` on a position: whenever it returns, the result has the class of `vec`, every
component has shape `(n0 // n_components, *rest)`, and each component is the row-major reshape of the component of `vec`. -/
theorem C64_reshape_elementwise (n0 : ℕ) (rest : List ℕ) (P Q : Pos BArr) (h : reshapePrim (n0 :: rest) P = .ok Q) :
    Q.kind = P.kind ∧
    Forall₂ (fun a b : BArr => b.shape = n0 / P.kind.dim :: rest ∧ b.shape.prod = a.shape.prod ∧
      ∀ i j, InB a.shape i → InB b.shape j → ravelIdx a.shape i = ravelIdx b.shape j → b.get j = a.get i) (compsOf P) (compsOf Q) := by
  obtain ⟨h1, rfl⟩ := reshapePrim_parts h
  refine ⟨mapFields_kind _ _, ?_⟩
  rw [mapFields_comps, forall₂_map_right_iff, forall₂_same]
  refine fun a ha => ⟨rfl, h1 a ha, fun i j hi hj e => ?_⟩
  show a.get (unravelIdx a.shape (ravelIdx (n0 / P.kind.dim :: rest) j)) = _
  have e' : ravelIdx a.shape i = ravelIdx (n0 / P.kind.dim :: rest) j := e
  rw [← e', unravel_ravel hi]

/-- **C64.** If all fields have shape `s`, `jnp.reshape(vec, (n0, *rest))` returns exactly when `(n0 // n_components, *rest)` has as
many elements as `s`, and the vector at index `j` of the result is the vector of `vec` at the index with the same row-major
position. -/
theorem C64_reshape_returns_iff (n0 : ℕ) (rest s : List ℕ) (P : Pos BArr) (hs : ∀ a ∈ compsOf P, a.shape = s)
    (hP : P.rebuildB = .ok P) :
    ((∃ Q, reshapePrim (n0 :: rest) P = .ok Q) ↔ n0 / P.kind.dim * rest.prod = s.prod) ∧
    ∀ Q, reshapePrim (n0 :: rest) P = .ok Q →
      ∀ i j, InB s i → InB (n0 / P.kind.dim :: rest) j → ravelIdx s i = ravelIdx (n0 / P.kind.dim :: rest) j →
        posAt j Q = posAt i P := by
  have hne : ∃ a, a ∈ compsOf P := by cases P <;> exact ⟨_, by simp only [compsOf]; exact mem_cons_self⟩
  refine ⟨⟨fun ⟨Q, h⟩ => ?_, fun h => ?_⟩, fun Q h i j hi hj e => ?_⟩
  · obtain ⟨a, ha⟩ := hne
    have := (reshapePrim_parts h).1 a ha
    rw [hs a ha] at this
    simpa using this
  · have hp : (n0 / P.kind.dim :: rest).prod = s.prod := by simpa using h
    refine ⟨P.mapFields (resh (n0 / P.kind.dim :: rest)), ?_⟩
    show (P.mapFieldsM (fun a => a.gather (planReshape ((n0 / P.coords.length :: rest).map some))) >>= fun Q => Q.rebuildB) = _
    rw [coords_length]
    rw [(mapFieldsM_ite (C := fun a => (n0 / P.kind.dim :: rest).prod = a.shape.prod) fun a b => gather_resh _ a b).mpr
      ⟨fun a ha => by rw [hs a ha, hp], rfl⟩, ok_bind]
    have hin : ∀ i, InB (n0 / P.kind.dim :: rest) i → InB s (unravelIdx s (ravelIdx (n0 / P.kind.dim :: rest) i)) :=
      fun i hi => unravel_inB (hp ▸ ravel_lt hi)
    refine rebuild_moved (s := s) (t := n0 / P.kind.dim :: rest)
      (φ := fun i => unravelIdx s (ravelIdx (n0 / P.kind.dim :: rest) i)) hin (fun a ha => ⟨⟨.inl rfl, ?_, fun i hi => ?_⟩, rfl⟩) hP
    · rw [hs a ha]; exact broadcastsTo_refl _
    · rw [Arr.elem_self (a := resh (n0 / P.kind.dim :: rest) a) hi]
      have := hin i hi
      rw [← hs a ha] at this ⊢
      rw [Arr.elem_self this]
      rfl
  · obtain ⟨h1, rfl⟩ := reshapePrim_parts h
    refine posAt_mapFields fun a ha => ?_
    have e1 : at_ i a = a.get i := by rw [at_eq (s := s) (by rw [hs a ha]; exact broadcastsTo_refl _) hi, Arr.elem_self (by rw [hs a ha]; exact hi)]
    have e2 : at_ j (resh (n0 / P.kind.dim :: rest) a) = (resh (n0 / P.kind.dim :: rest) a).get j := by
      rw [at_eq (a := resh (n0 / P.kind.dim :: rest) a) (broadcastsTo_refl _) hj, Arr.elem_self hj]
    rw [e1, e2]
    show a.get (unravelIdx a.shape (ravelIdx (n0 / P.kind.dim :: rest) j)) = _
    rw [← e, hs a ha, unravel_ravel hi]

/-- **C64.** A shape with the right number of elements is accepted exactly when its *first* axis is a multiple of the number of
components. -/
theorem C64_reshape_divides (n0 : ℕ) (rest s : List ℕ) (P : Pos BArr) (hs : ∀ a ∈ compsOf P, a.shape = s)
    (hP : P.rebuildB = .ok P) (h0 : 0 ∉ s) (hn : n0 * rest.prod = P.kind.dim * s.prod) :
    (∃ Q, reshapePrim (n0 :: rest) P = .ok Q) ↔ P.kind.dim ∣ n0 := by
  rw [(C64_reshape_returns_iff n0 rest s P hs hP).1]
  have hd : 0 < P.kind.dim := by cases P <;> exact Nat.succ_pos _
  have hp : 0 < s.prod := Nat.pos_of_ne_zero fun h => h0 (prod_eq_zero_iff.mp h)
  have hr : 0 < rest.prod := Nat.pos_of_ne_zero fun h => by
    rw [h, mul_zero] at hn
    have := Nat.mul_pos hd hp
    omega
  constructor
  · intro h
    have h1 : P.kind.dim * (n0 / P.kind.dim) * rest.prod = n0 * rest.prod := by rw [mul_assoc, h, hn]
    exact ⟨_, (Nat.eq_of_mul_eq_mul_right hr h1).symm⟩
  · rintro ⟨m, rfl⟩
    rw [Nat.mul_div_cancel_left _ hd]
    rw [mul_assoc] at hn
    exact Nat.eq_of_mul_eq_mul_left hd hn

/-- **C64.** The result never has the requested array shape: the shape that counts as an array (with the axis of the components) has
one axis more than the request. -/
theorem C64_reshape_rank (n0 : ℕ) (rest : List ℕ) (P Q : Pos BArr) (q : BArr) (h2 : P.kind ≠ .twoSphere)
    (h : reshapePrim (n0 :: rest) P = .ok Q) (hq : toQuantityB Q = .ok q) :
    q.shape = n0 / P.kind.dim :: rest ++ [P.kind.dim] ∧ q.shape ≠ n0 :: rest := by
  obtain ⟨h1, rfl⟩ := reshapePrim_parts h
  have hsh : ∀ a ∈ (compsOf (P.mapFields (resh (n0 / P.kind.dim :: rest)))).map (fun a => a.shape), a = n0 / P.kind.dim :: rest := by
    rw [mapFields_comps, map_map]
    intro a ha
    obtain ⟨b, -, rfl⟩ := mem_map.mp ha
    rfl
  have hne : ∃ a, a ∈ (compsOf (P.mapFields (resh (n0 / P.kind.dim :: rest)))).map (fun a => a.shape) := by
    cases P <;> exact ⟨_, by simp only [compsOf, Pos.mapFields]; exact mem_cons_self⟩
  have := toQuantityB_fit (t := n0 / P.kind.dim :: rest) (by rw [mapFields_kind]; exact h2)
    ⟨fun s hs => by rw [hsh s hs]; exact broadcastsTo_refl _, fun u hu => by
      obtain ⟨a, ha⟩ := hne
      have k := hu a ha
      rwa [hsh a ha] at k⟩ hq
  rw [mapFields_kind] at this
  refine ⟨this, fun e => ?_⟩
  have := congrArg length (this.symm.trans e)
  simp at this

/-- **C64.** Components of different sizes cannot be reshaped: in particular a `ProlateSpheroidalPos` whose `Delta` is a single
number can be reshaped only if it holds a single vector. -/
theorem C64_reshape_sizes (n0 : ℕ) (rest : List ℕ) (P Q : Pos BArr) (h : reshapePrim (n0 :: rest) P = .ok Q) :
    (∀ a ∈ compsOf P, ∀ b ∈ compsOf P, a.shape.prod = b.shape.prod) ∧
    ∀ mu nu phi delta, P = .prolate mu nu phi delta → delta.shape = [] → mu.shape.prod = 1 ∧ nu.shape.prod = 1 ∧ phi.shape.prod = 1 := by
  have h1 := (reshapePrim_parts h).1
  refine ⟨fun a ha b hb => (h1 a ha).symm.trans (h1 b hb), ?_⟩
  rintro mu nu phi delta rfl hd
  have k := h1 delta (by simp [compsOf])
  rw [hd, prod_nil] at k
  refine ⟨?_, ?_, ?_⟩
  · rw [← h1 mu (by simp [compsOf]), k]
  · rw [← h1 nu (by simp [compsOf]), k]
  · rw [← h1 phi (by simp [compsOf]), k]

/-- **C64.** `jnp.reshape(vec, ())` raises. -/
theorem C64_reshape_empty (P : Pos BArr) : ∃ e, reshapePrim [] P = .error e := ⟨_, rfl⟩

/-! ### a concrete case -/

/-- three points on a line, with a radius each -/
def exPrim : Pos BArr := .polar (.dist ⟨[3], fun _ => some 1⟩) ⟨[3], fun i => some (i.headD 0)⟩

theorem exPrim_ok : exPrim.rebuildB = .ok exPrim := by
  have : checkNonNegB (⟨[3], fun _ => some 1⟩ : BArr) = .ok () := by
    have e : blt (⟨[3], fun _ => some 1⟩ : BArr) (bnat 0) = .ok ⟨[3], fun i => elCmp Num.lt (some 1) (some (Num.nat 0))⟩ := rfl
    unfold checkNonNegB
    rw [e, ok_bind]
    unfold errorIfAny
    rw [if_neg]
    rintro ⟨i, -, h⟩
    have : Num.lt (1 : ℝ) (Num.nat 0) = true := h
    rw [lt_real] at this
    have : (1 : ℝ) < 0 := by simpa [nat_real] using this
    norm_num at this
  show (checkNonNegB _ >>= fun _ => _) = _
  rw [show (Dist.dist (⟨[3], fun _ => some 1⟩ : BArr)).raw = ⟨[3], fun _ => some 1⟩ from rfl, this]
  rfl

example : ∀ a ∈ compsOf exPrim, a.shape = [3] := by
  intro a ha
  simp only [exPrim, compsOf, mem_cons, not_mem_nil, or_false] at ha
  rcases ha with rfl | rfl <;> rfl

example : ∃ Q, broadcastInDimPos [2, 3, 2] exPrim = .ok Q :=
  (C64_broadcast [2, 3] 2 exPrim exPrim_ok).1.mpr fun a ha => by
    simp only [exPrim, compsOf, mem_cons, not_mem_nil, or_false] at ha
    rcases ha with rfl | rfl <;> exact (broadcastsTo_suffix (r := 1) le_rfl).mpr (broadcastsTo_refl [3])

end Verif
