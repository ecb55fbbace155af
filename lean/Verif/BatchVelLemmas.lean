import Verif.BatchShape
import Verif.VelKind

/-! # Flattening, converting and reshaping batches of velocities -/

namespace Verif

open List Spec

/-! ### lists -/

theorem mapM_forall₂ {β γ : Type} {f : β → Res γ} : ∀ {l : List β} {r : List γ}, l.mapM f = .ok r →
    Forall₂ (fun a b => f a = .ok b) l r := by
  intro l
  induction l with
  | nil => intro r h; cases h; exact .nil
  | cons a l ih =>
    intro r h
    rw [List.mapM_cons] at h
    obtain ⟨b, hb, h⟩ := (bind_ok_iff _ _ _).mp h
    obtain ⟨r', hr, h⟩ := (bind_ok_iff _ _ _).mp h
    obtain rfl := Except.ok.inj h
    exact .cons hb (ih hr)

theorem mapM_total {β γ : Type} {f : β → Res γ} : ∀ {l : List β}, (∀ a ∈ l, ∃ b, f a = .ok b) →
    ∃ r, l.mapM f = .ok r := by
  intro l
  induction l with
  | nil => intro _; exact ⟨[], rfl⟩
  | cons a l ih =>
    intro h
    obtain ⟨b, hb⟩ := h a (by simp)
    obtain ⟨r, hr⟩ := ih fun x hx => h x (by simp [hx])
    exact ⟨b :: r, by rw [List.mapM_cons, hb, hr]; rfl⟩

theorem mapM_range {γ : Type} {f : ℕ → Res γ} {n : ℕ} {r : List γ} (h : (List.range n).mapM f = .ok r) :
    r.length = n ∧ ∀ i (hi : i < r.length), f i = .ok r[i] := by
  have k := mapM_forall₂ h
  have hl : r.length = n := by have := k.length_eq; simpa using this.symm
  refine ⟨hl, fun i hi => ?_⟩
  have := k.get (i := i) (by simpa [hl] using hi) hi
  simpa using this

/-! ### one array -/

/-- `a` broadcast to `s`, then reshaped to `t` -/
def Arr.reshaped {α : Type} (s t : List ℕ) (a : Arr α) : Arr α :=
  ⟨t, fun idx => a.elem (unravelIdx s (ravelIdx t idx))⟩

theorem resolve_some (t : List ℕ) (n : ℕ) :
    resolveShape (t.map some) n = if t.prod = n then .ok t else .error .value := by
  have h1 : (t.map some).countP Option.isNone = 0 := by simp
  have h2 : (t.map some).filterMap id = t := by simp
  simp only [resolveShape, h1, h2]

theorem gather_reshape {α : Type} (a : Arr α) (s t : List ℕ) :
    (a.broadcastTo s).gather (planReshape (t.map some)) =
      if t.prod = s.prod then .ok (a.reshaped s t) else .error .value := by
  unfold Arr.gather planReshape
  show (resolveShape (t.map some) s.prod >>= _) >>= _ = _
  rw [resolve_some]
  by_cases h : t.prod = s.prod
  · rw [if_pos h, if_pos h]; rfl
  · rw [if_neg h, if_neg h]; rfl

theorem reshaped_elem {α : Type} {s t idx : List ℕ} (a : Arr α) (hi : InB t idx) :
    (a.reshaped s t).elem idx = a.elem (unravelIdx s (ravelIdx t idx)) := by
  rw [Arr.elem_self (a := a.reshaped s t) hi]; rfl

theorem ravel_flat (n i : ℕ) : ravelIdx [n] [i] = i := by simp [ravelIdx]
theorem unravel_flat (n i : ℕ) : unravelIdx [n] i = [i] := by simp [unravelIdx]
theorem inB_flat {n i : ℕ} (h : i < n) : InB [n] [i] := .cons h .nil

theorem elem_rank0 {α : Type} {a : Arr α} (h : a.shape = []) (i j : List ℕ) : a.elem i = a.elem j := by
  have e : ∀ i, a.elem i = a.get [] := fun i => by
    unfold Arr.elem
    rw [h]
    cases i.reverse <;> rfl
  rw [e i, e j]

/-! ### velocities -/

theorem Vel.ext' {α : Type} {v w : Vel α} (h : v.kind = w.kind) (k : v.comps = w.comps) : v = w := by
  cases v <;> cases w <;> first | (cases h; done) | skip
  all_goals simp only [Vel.comps, cons.injEq, and_true] at k
  all_goals first
    | (obtain ⟨rfl, rfl, rfl⟩ := k; rfl)
    | (obtain ⟨rfl, rfl⟩ := k; rfl)
    | (subst k; rfl)

theorem Vel.map_kind {α β : Type} (f : α → β) (v : Vel α) : (v.map f).kind = v.kind := by cases v <;> rfl
theorem Vel.map_comps {α β : Type} (f : α → β) (v : Vel α) : (v.map f).comps = v.comps.map f := by cases v <;> rfl

theorem Vel.elem_iff {V : Vel BArr} {v : Vel ℝ} {i : List ℕ} :
    V.elem i = some v ↔ V.kind = v.kind ∧ V.comps.map (fun a => a.elem i) = v.comps.map some := by
  constructor
  · intro h
    cases V <;> simp only [Vel.elem, Vel.mapM, Option.bind_eq_bind, Option.bind_eq_some_iff, Option.pure_def,
      Option.some.injEq] at h
    all_goals first
      | (obtain ⟨a, ha, b, hb, c, hc, rfl⟩ := h; simp [Vel.kind, Vel.comps, ha, hb, hc])
      | (obtain ⟨a, ha, b, hb, rfl⟩ := h; simp [Vel.kind, Vel.comps, ha, hb])
      | (obtain ⟨a, ha, rfl⟩ := h; simp [Vel.kind, Vel.comps, ha])
  · rintro ⟨h, k⟩
    cases V <;> cases v <;> first | (cases h; done) | skip
    all_goals simp only [Vel.comps, map_cons, map_nil, cons.injEq, and_true] at k
    all_goals first
      | simp [Vel.elem, Vel.mapM, k.1, k.2.1, k.2.2]
      | simp [Vel.elem, Vel.mapM, k.1, k.2]
      | simp [Vel.elem, Vel.mapM, k]

theorem Vel.mapM_ite {α β : Type} {p : Prop} [Decidable p] {e : Err} (f : α → β) (V : Vel α) :
    V.mapM (m := Except Err) (fun a => if p then .ok (f a) else .error e) =
      if p then .ok (V.map f) else .error e := by
  by_cases h : p
  · simp only [if_pos h]; cases V <;> rfl
  · simp only [if_neg h]; cases V <;> rfl

theorem Vel.reshapeB_eq {α : Type} {V : Vel (Arr α)} {s : List ℕ} (h : V.shapeB = .ok s) (t : List ℕ) :
    V.reshapeB t = if t.prod = s.prod then .ok (V.map (Arr.reshaped s t)) else .error .value := by
  unfold Vel.reshapeB
  rw [h, ok_bind]
  rw [← Vel.mapM_ite]
  cases V <;> simp only [Vel.map, Vel.mapM, gather_reshape]

theorem Vel.map_elem {V : Vel BArr} {g : BArr → BArr} {i j : List ℕ} (h : ∀ a ∈ V.comps, (g a).elem i = a.elem j) :
    (V.map g).elem i = V.elem j := by
  cases V <;> simp only [Vel.comps, mem_cons, not_mem_nil, or_false, forall_eq_or_imp, forall_eq] at h <;>
    simp only [Vel.map, Vel.elem, Vel.mapM, h]

theorem VKind.build_kind {α : Type} (k : VKind) (g : ℕ → α) : (k.build g).kind = k := by cases k <;> rfl

theorem velOfElems_shape (k : VKind) (l : List (Option (Vel ℝ))) :
    (velOfElems k l).shapeB = .ok [l.length] := by
  unfold Vel.shapeB
  refine broadcast_const ?_ ?_
  · cases k <;> simp [velOfElems, VKind.build, Vel.comps]
  · cases k <;> simp [velOfElems, VKind.build, Vel.comps]

theorem velOfElems_elem {k : VKind} {l : List (Option (Vel ℝ))} {i : ℕ} (hi : i < l.length) {w : Vel ℝ}
    (h : l[i] = some w) (hk : w.kind = k) : (velOfElems k l).elem [i] = some w := by
  have e : ∀ j : ℕ, (Arr.mk [l.length] fun idx => (l[ravelIdx [l.length] idx]?.join).bind fun w => w.comps[j]?).elem [i]
      = w.comps[j]? := by
    intro j
    rw [Arr.elem_self (inB_flat hi)]
    simp only [ravel_flat, getElem?_eq_getElem hi, h]
    rfl
  subst hk
  cases w <;> simp only [velOfElems, VKind.build, Vel.kind, Vel.elem, Vel.mapM, e] <;> rfl

/-! ### positions -/

/-- `mapCoordsM` with a total function -/
def Pos.mapCoords (f : BArr → BArr) : Pos BArr → Pos BArr
  | .cart1 x => .cart1 (f x)
  | .radial r => .radial (r.mapRaw f)
  | .cart2 x y => .cart2 (f x) (f y)
  | .polar r phi => .polar (r.mapRaw f) (f phi)
  | .twoSphere theta phi => .twoSphere (f theta) (f phi)
  | .cart3 x y z => .cart3 (f x) (f y) (f z)
  | .cyl rho phi z => .cyl (f rho) (f phi) (f z)
  | .sph r theta phi => .sph (r.mapRaw f) (f theta) (f phi)
  | .lonlat lon lat d => .lonlat (f lon) (f lat) (d.mapRaw f)
  | .math r theta phi => .math (r.mapRaw f) (f theta) (f phi)
  | .prolate mu nu phi delta => .prolate (f mu) (f nu) (f phi) delta

theorem Dist.mapRawM_ite {p : Prop} [Decidable p] {e : Err} (f : BArr → BArr) (r : Dist BArr) :
    r.mapRawM (fun a => if p then .ok (f a) else .error e) = if p then .ok (r.mapRaw f) else .error e := by
  by_cases h : p
  · simp only [if_pos h]; cases r <;> rfl
  · simp only [if_neg h]; cases r <;> rfl

theorem Dist.mapRawM_ok (f : BArr → BArr) (r : Dist BArr) : r.mapRawM (fun a => .ok (f a)) = .ok (r.mapRaw f) := by
  cases r <;> rfl

theorem Dist.mapRawM_err {e : Err} (r : Dist BArr) : r.mapRawM (fun _ => .error e) = .error e := by
  cases r <;> rfl

theorem Pos.mapCoordsM_ok (f : BArr → BArr) (P : Pos BArr) :
    P.mapCoordsM (fun a => .ok (f a)) = .ok (P.mapCoords f) := by
  cases P <;> simp only [Pos.mapCoordsM, Dist.mapRawM_ok, ok_bind] <;> rfl

theorem Pos.mapCoordsM_ite {p : Prop} [Decidable p] {e : Err} (f : BArr → BArr) (P : Pos BArr) :
    P.mapCoordsM (fun a => if p then .ok (f a) else .error e) = if p then .ok (P.mapCoords f) else .error e := by
  by_cases h : p
  · simp only [if_pos h]; exact P.mapCoordsM_ok f
  · simp only [if_neg h]
    cases P <;> first | rfl | skip
    all_goals simp only [Pos.mapCoordsM, Dist.mapRawM_err, error_bind]

theorem Pos.mapCoords_kind (f : BArr → BArr) (P : Pos BArr) : (P.mapCoords f).kind = P.kind := by cases P <;> rfl

theorem Pos.mapCoords_coords (f : BArr → BArr) (P : Pos BArr) : (P.mapCoords f).coords = P.coords.map f := by
  cases P <;> simp only [Pos.mapCoords, Pos.coords, Dist.mapRaw_raw, map_cons, map_nil]

/-- the `Delta` attribute -/
def Pos.focalArr : Pos BArr → Option BArr
  | .prolate _ _ _ d => some d
  | _ => none

theorem Pos.mapCoords_focal (f : BArr → BArr) (P : Pos BArr) : (P.mapCoords f).focalArr = P.focalArr := by
  cases P <;> rfl

theorem Pos.arrays_eq (P : Pos BArr) : P.arrays = P.coords ++ P.focalArr.toList := by cases P <;> rfl
theorem Pos.leaves_eq (P : Pos BArr) : P.leaves = P.coords ++ P.focalArr.toList := by cases P <;> rfl

theorem Dist.mapRaw_elem {r : Dist BArr} {g : BArr → BArr} {i j : List ℕ} (h : (g r.raw).elem i = r.raw.elem j) :
    (r.mapRaw g).elem i = r.elem j := by
  cases r <;> simp only [Dist.mapRaw, Dist.elem, Dist.raw] at * <;> rw [h]

theorem Pos.mapCoords_elem {P : Pos BArr} {g : BArr → BArr} {i j : List ℕ}
    (h : ∀ a ∈ P.coords, (g a).elem i = a.elem j) (hd : ∀ d ∈ P.focalArr, d.elem i = d.elem j) :
    (P.mapCoords g).elem i = P.elem j := by
  cases P <;> simp only [Pos.coords, mem_cons, not_mem_nil, or_false, forall_eq_or_imp, forall_eq] at h
  case cart1 => simp only [Pos.mapCoords, Pos.elem, h]
  case radial => simp only [Pos.mapCoords, Pos.elem, Dist.mapRaw_elem h]
  case cart2 => simp only [Pos.mapCoords, Pos.elem, h]
  case polar => simp only [Pos.mapCoords, Pos.elem, Dist.mapRaw_elem h.1, h]
  case twoSphere => simp only [Pos.mapCoords, Pos.elem, h]
  case cart3 => simp only [Pos.mapCoords, Pos.elem, h]
  case cyl => simp only [Pos.mapCoords, Pos.elem, h]
  case sph => simp only [Pos.mapCoords, Pos.elem, Dist.mapRaw_elem h.1, h]
  case lonlat => simp only [Pos.mapCoords, Pos.elem, Dist.mapRaw_elem h.2.2, h]
  case math => simp only [Pos.mapCoords, Pos.elem, Dist.mapRaw_elem h.1, h]
  case prolate mu nu phi d => simp only [Pos.mapCoords, Pos.elem, h, hd d rfl]

theorem Pos.elemO_eq (P : Pos BArr) (i : List ℕ) : P.elemO i = P.elem i := by cases P <;> rfl

theorem rebuildB_eq {P Q : Pos BArr} (h : P.rebuildB = .ok Q) : Q = P := by
  cases P <;> simp only [Pos.rebuildB, mkRadialB, mkPolarB, mkCylB, mkSphB, mkMathB, mkLonLatB, mkProlateB,
    bind_ok_iff, AzArg.convertB] at h
  case cart1 => exact (Except.ok.inj h).symm
  case cart2 => exact (Except.ok.inj h).symm
  case cart3 => exact (Except.ok.inj h).symm
  case radial => obtain ⟨_, _, h⟩ := h; exact (Except.ok.inj h).symm
  case polar => obtain ⟨_, _, h⟩ := h; exact (Except.ok.inj h).symm
  case cyl => obtain ⟨_, _, h⟩ := h; exact (Except.ok.inj h).symm
  case twoSphere => obtain ⟨_, _, h⟩ := h; exact (Except.ok.inj h).symm
  case sph => obtain ⟨_, _, _, _, h⟩ := h; exact (Except.ok.inj h).symm
  case lonlat => obtain ⟨_, _, _, _, h⟩ := h; exact (Except.ok.inj h).symm
  case math => obtain ⟨_, _, _, _, h⟩ := h; exact (Except.ok.inj h).symm
  case prolate => obtain ⟨_, _, _, _, _, _, _, _, _, _, _, _, h⟩ := h; exact (Except.ok.inj h).symm

theorem gather_dist (r : Dist BArr) (s t : List ℕ) :
    (r.mapRaw fun a => a.broadcastTo s).mapRawM (fun a => a.gather (planReshape (t.map some))) =
      if t.prod = s.prod then .ok (r.mapRaw (Arr.reshaped s t)) else .error .value := by
  rw [← Dist.mapRawM_ite]
  cases r <;> simp only [Dist.mapRaw, Dist.mapRawM, gather_reshape]

theorem gather_coords (P : Pos BArr) (s t : List ℕ) :
    (P.mapCoords fun a => a.broadcastTo s).mapCoordsM (fun a => a.gather (planReshape (t.map some))) =
      if t.prod = s.prod then .ok (P.mapCoords (Arr.reshaped s t)) else .error .value := by
  rw [← Pos.mapCoordsM_ite]
  cases P <;> simp only [Pos.mapCoords, Pos.mapCoordsM, gather_reshape, gather_dist, Dist.mapRawM_ite]

theorem reshapeB_inv {P Q : Pos BArr} {s t : List ℕ} (hs : P.shapeB = .ok s) (h : P.reshapeB t = .ok Q) :
    t.prod = s.prod ∧ Q = P.mapCoords (Arr.reshaped s t) := by
  unfold Pos.reshapeB at h
  rw [hs, ok_bind, Pos.mapCoordsM_ok, ok_bind] at h
  obtain ⟨F, hF, h⟩ := (bind_ok_iff _ _ _).mp h
  obtain rfl := rebuildB_eq hF
  obtain ⟨G, hG, h⟩ := (bind_ok_iff _ _ _).mp h
  obtain rfl := rebuildB_eq h
  rw [gather_coords] at hG
  by_cases hp : t.prod = s.prod
  · rw [if_pos hp] at hG; exact ⟨hp, (Except.ok.inj hG).symm⟩
  · rw [if_neg hp] at hG; cases hG

end Verif
