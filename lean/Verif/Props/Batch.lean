import Verif.BatchRep
import Verif.ConvTotal

/-!
# C49: converting an array of positions converts each element

`representAsB` (`Verif/Batch.lean`) is `represent_as` transcribed on arrays; `representAs`
(`Verif/Represent.lean`) is the scalar transcription that C01-C10, C46 and C48 are about. The two share no
formula. The theorems here relate them.
-/

namespace Verif

open List

namespace Spec

/-- the element of a component that stands at batch index `idx`; `none` is NaN -/
def at_ (idx : List ℕ) (a : BArr) : Option ℝ := a.get (bcSource a.shape idx)

/-- the same for a distance (which keeps its class) -/
def distAt (idx : List ℕ) : Dist BArr → Option (Dist ℝ)
  | .dist a => (at_ idx a).map .dist
  | .par a => (at_ idx a).map .par
  | .dm a => (at_ idx a).map .dm

/-- the scalar vector at batch index `idx`; `none` if one of its components is NaN -/
def posAt (idx : List ℕ) : Pos BArr → Option (Pos ℝ)
  | .cart1 x => do return .cart1 (← at_ idx x)
  | .radial r => do return .radial (← distAt idx r)
  | .cart2 x y => do return .cart2 (← at_ idx x) (← at_ idx y)
  | .polar r phi => do return .polar (← distAt idx r) (← at_ idx phi)
  | .twoSphere theta phi => do return .twoSphere (← at_ idx theta) (← at_ idx phi)
  | .cart3 x y z => do return .cart3 (← at_ idx x) (← at_ idx y) (← at_ idx z)
  | .cyl rho phi z => do return .cyl (← at_ idx rho) (← at_ idx phi) (← at_ idx z)
  | .sph r theta phi => do return .sph (← distAt idx r) (← at_ idx theta) (← at_ idx phi)
  | .lonlat lon lat d => do return .lonlat (← at_ idx lon) (← at_ idx lat) (← distAt idx d)
  | .math r theta phi => do return .math (← distAt idx r) (← at_ idx theta) (← at_ idx phi)
  | .prolate mu nu phi delta =>
    do return .prolate (← at_ idx mu) (← at_ idx nu) (← at_ idx phi) (← at_ idx delta)

/-- an optional keyword argument at batch index `idx` -/
def optAt (idx : List ℕ) : Option BArr → Option (Option ℝ)
  | none => some none
  | some a => (at_ idx a).map some

/-- the keyword arguments at batch index `idx`; `none` if one of them is NaN there -/
def kwAt (idx : List ℕ) (kw : Kw BArr) : Option (Kw ℝ) := do
  return { y := ← optAt idx kw.y, z := ← optAt idx kw.z, theta := ← optAt idx kw.theta,
           phi := ← optAt idx kw.phi, delta := ← optAt idx kw.delta }

/-- the components -/
def compsOf : Pos BArr → List BArr
  | .cart1 x => [x]
  | .radial r => [r.raw]
  | .cart2 x y => [x, y]
  | .polar r phi => [r.raw, phi]
  | .twoSphere theta phi => [theta, phi]
  | .cart3 x y z => [x, y, z]
  | .cyl rho phi z => [rho, phi, z]
  | .sph r theta phi => [r.raw, theta, phi]
  | .lonlat lon lat d => [lon, lat, d.raw]
  | .math r theta phi => [r.raw, theta, phi]
  | .prolate mu nu phi delta => [mu, nu, phi, delta]

/-- the keyword arguments that are given -/
def kwOf (kw : Kw BArr) : List BArr := [kw.y, kw.z, kw.theta, kw.phi, kw.delta].flatMap Option.toList

/-- all components and keyword arguments broadcast to `s` -/
def Fit (s : List ℕ) (kw : Kw BArr) (P : Pos BArr) : Prop :=
  (∀ a ∈ compsOf P, BroadcastsTo a.shape s) ∧ ∀ a ∈ kwOf kw, BroadcastsTo a.shape s

/-- what `lax.select` accepts in the `from_` constructors of the spherical classes: the radius is a scalar or
has the shape of both angles; the polar angle is a scalar or has the shape of the azimuth -/
def SelectShapes (radius azimuth polar : List ℕ) : Prop :=
  (radius = [] ∨ radius = azimuth) ∧ (radius = [] ∨ radius = polar) ∧ (polar = [] ∨ polar = azimuth)

/-- conversions in which the code uses `lax.select` or `lax.cond` on the arguments as given -/
def ShapesFit (kw : Kw BArr) : Pos BArr → Kind → Prop
  | .polar r phi, .sph => SelectShapes r.raw.shape phi.shape ((kw.theta.map fun a => a.shape).getD [])
  | .polar r phi, .math => SelectShapes r.raw.shape phi.shape ((kw.phi.map fun a => a.shape).getD [])
  | .prolate mu nu _ delta, .prolate =>
    mu.shape = nu.shape ∧ BroadcastsTo delta.shape mu.shape ∧
      ∀ dl ∈ kw.delta, dl.shape = delta.shape
  | _, _ => True

/-- the azimuth argument of a constructor (a Quantity or an Angle) at batch index `idx` -/
def azAt (idx : List ℕ) : AzArg BArr → Option (AzArg ℝ)
  | .qty a => (at_ idx a).map .qty
  | .angle a => (at_ idx a).map .angle

/-- its array -/
def azArr : AzArg BArr → BArr
  | .qty a => a
  | .angle a => a

end Spec

open Spec

theorem shapesFit {kw : Kw BArr} {P : Pos BArr} {k : Kind} (h : ShapesFit kw P k) : ShapesOk kw P k := by
  have hz : ∀ o : Option BArr, (orZeroB o).shape = (o.map fun a => a.shape).getD [] := fun o => by
    cases o <;> rfl
  cases P <;> cases k <;> first | exact trivial | skip
  · simp only [ShapesOk, hz]; exact h
  · simp only [ShapesOk, hz]; exact h
  · rename_i mu nu phi delta
    obtain ⟨h1, h2, h3⟩ := h
    have hd : (kw.delta.getD delta).shape = delta.shape := by
      cases hk : kw.delta with
      | none => rfl
      | some dl => exact h3 dl hk
    show condShapes mu nu delta (kw.delta.getD delta) = .ok ()
    have hb : broadcastShapes [mu.shape, nu.shape, delta.shape, (kw.delta.getD delta).shape] = .ok mu.shape := by
      rw [broadcastShapes_iff, hd, ← h1]
      refine ⟨?_, fun u hu => hu _ (by simp)⟩
      simp only [mem_cons, not_mem_nil, or_false, forall_eq_or_imp, forall_eq]
      exact ⟨broadcastsTo_refl _, broadcastsTo_refl _, h2, h2⟩
    unfold condShapes
    rw [hb, ok_bind, if_pos ⟨rfl, h1.symm, hd.symm⟩]

theorem at_eq {a : BArr} {s idx : List ℕ} (h : BroadcastsTo a.shape s) (hi : InB s idx) :
    at_ idx a = a.elem idx := ((Arr.elem_get h hi).1).symm

theorem distAt_eq {a : Dist BArr} {s idx : List ℕ} (h : BroadcastsTo a.raw.shape s) (hi : InB s idx) :
    distAt idx a = a.elem idx := by
  cases a with
  | dist d => exact congrArg (Option.map Dist.dist) (at_eq (a := d) h hi)
  | par d => exact congrArg (Option.map Dist.par) (at_eq (a := d) h hi)
  | dm d => exact congrArg (Option.map Dist.dm) (at_eq (a := d) h hi)

theorem compsOf_eq (P : Pos BArr) : compsOf P = P.arrays := by cases P <;> rfl

theorem posAt_eq {P : Pos BArr} {s idx : List ℕ} (h : ∀ a ∈ compsOf P, BroadcastsTo a.shape s)
    (hi : InB s idx) : posAt idx P = P.elem idx := by
  cases P <;> simp only [compsOf, mem_cons, not_mem_nil, or_false, forall_eq_or_imp, forall_eq] at h
  case cart1 => simp only [posAt, Pos.elem, at_eq h hi]
  case radial => simp only [posAt, Pos.elem, distAt_eq h hi]
  case cart2 => simp only [posAt, Pos.elem, at_eq h.1 hi, at_eq h.2 hi]
  case polar => simp only [posAt, Pos.elem, distAt_eq h.1 hi, at_eq h.2 hi]
  case twoSphere => simp only [posAt, Pos.elem, at_eq h.1 hi, at_eq h.2 hi]
  case cart3 => simp only [posAt, Pos.elem, at_eq h.1 hi, at_eq h.2.1 hi, at_eq h.2.2 hi]
  case cyl => simp only [posAt, Pos.elem, at_eq h.1 hi, at_eq h.2.1 hi, at_eq h.2.2 hi]
  case sph => simp only [posAt, Pos.elem, distAt_eq h.1 hi, at_eq h.2.1 hi, at_eq h.2.2 hi]
  case lonlat => simp only [posAt, Pos.elem, at_eq h.1 hi, at_eq h.2.1 hi, distAt_eq h.2.2 hi]
  case math => simp only [posAt, Pos.elem, distAt_eq h.1 hi, at_eq h.2.1 hi, at_eq h.2.2 hi]
  case prolate =>
    simp only [posAt, Pos.elem, at_eq h.1 hi, at_eq h.2.1 hi, at_eq h.2.2.1 hi, at_eq h.2.2.2 hi]

theorem optAt_some {o : Option BArr} {s idx : List ℕ} (h : ∀ a ∈ o, BroadcastsTo a.shape s) (hi : InB s idx)
    {v : Option ℝ} (e : optAt idx o = some v) :
    (o.map fun a => Arr.elemD a idx) = v ∧ ∀ a ∈ o, a.elem idx = some (a.elemD idx) := by
  cases o with
  | none => simp only [optAt] at e; exact ⟨Option.some.inj e, fun a ha => by cases ha⟩
  | some a =>
    simp only [optAt, Option.map_eq_some_iff] at e
    obtain ⟨x, hx, rfl⟩ := e
    rw [at_eq (h a rfl) hi] at hx
    exact ⟨by simp [Arr.elemD, hx], fun b hb => by cases hb; simp [Arr.elemD, hx]⟩

theorem kwAt_some {kw : Kw BArr} {s idx : List ℕ} (h : ∀ a ∈ kwOf kw, BroadcastsTo a.shape s) (hi : InB s idx)
    {kw' : Kw ℝ} (e : kwAt idx kw = some kw') :
    kw.elemD idx = kw' ∧ ∀ a ∈ kw.arrays, a.elem idx = some (a.elemD idx) := by
  simp only [kwAt, Option.bind_eq_bind, Option.bind_eq_some_iff, Option.pure_def, Option.some.injEq] at e
  obtain ⟨y, hy, z, hz, t, ht, p, hp, d, hd, rfl⟩ := e
  simp only [kwOf, flatMap_cons, flatMap_nil, append_nil, mem_append, Option.mem_toList] at h
  obtain ⟨y1, y2⟩ := optAt_some (fun a ha => h a (.inl ha)) hi hy
  obtain ⟨z1, z2⟩ := optAt_some (fun a ha => h a (.inr (.inl ha))) hi hz
  obtain ⟨t1, t2⟩ := optAt_some (fun a ha => h a (.inr (.inr (.inl ha)))) hi ht
  obtain ⟨p1, p2⟩ := optAt_some (fun a ha => h a (.inr (.inr (.inr (.inl ha))))) hi hp
  obtain ⟨d1, d2⟩ := optAt_some (fun a ha => h a (.inr (.inr (.inr (.inr ha))))) hi hd
  refine ⟨by simp only [Kw.elemD, y1, z1, t1, p1, d1], fun a ha => ?_⟩
  simp only [Kw.arrays, mem_append, Option.mem_toList] at ha
  rcases ha with (((ha | ha) | ha) | ha) | ha
  · exact y2 a ha
  · exact z2 a ha
  · exact t2 a ha
  · exact p2 a ha
  · exact d2 a ha

theorem kwOf_mem {kw : Kw BArr} {a : BArr} (h : a ∈ kw.arrays) : a ∈ kwOf kw := by
  simp only [Kw.arrays, kwOf, flatMap_cons, flatMap_nil, append_nil, mem_append, Option.mem_toList] at *
  tauto

/-- **C49 (elements).** Whenever `represent_as` returns for a batched vector, then at every batch index the
element of the result is the conversion of the element of the input with the elements of the keyword
arguments, if that is finite; and the scalar conversion does not raise (`nonFinite` is not raised: for the
elements where the scalar formula has no finite value see `C49_origin_nan`).
Only that element of the input matters: others may be NaN. The components of the result broadcast to the
common shape of the inputs. All classes, shapes, ranks, mixtures of component shapes, keyword arguments. -/
theorem C49_elementwise (kw : Kw BArr) (P Q : Pos BArr) (k : Kind) (s idx : List ℕ) (hfit : Fit s kw P)
    (hQ : representAsB kw P k = .ok Q) (hi : InB s idx) (p : Pos ℝ) (kw' : Kw ℝ)
    (hp : posAt idx P = some p) (hkw : kwAt idx kw = some kw') :
    (∀ a ∈ compsOf Q, BroadcastsTo a.shape s) ∧
    (∀ q, representAs kw' p k = .ok q → posAt idx Q = some q) ∧
    (∀ e, representAs kw' p k = .error e → e = .nonFinite) := by
  have hp' := hp
  rw [posAt_eq hfit.1 hi] at hp'
  obtain ⟨rfl, hdef⟩ := Pos.elem_some hp'
  obtain ⟨rfl, hkdef⟩ := kwAt_some hfit.2 hi hkw
  have hP : DefP {idx} s P := fun a ha => ⟨hfit.1 a (by rw [compsOf_eq]; exact ha), fun i h => by
    cases h; exact hdef a ha⟩
  have hK : DefKw {idx} s kw := fun a ha => ⟨hfit.2 a (kwOf_mem ha), fun i h => by cases h; exact hkdef a ha⟩
  have sim := simAt pyDepth {idx} s kw P k (fun i h => by cases h; exact hi) hK hP
  obtain ⟨h1, h2⟩ := sim.ok Q hQ
  have h1' : ∀ a ∈ compsOf Q, BroadcastsTo a.shape s := by rw [compsOf_eq]; exact h1
  refine ⟨h1', fun q hq => ?_, (h2 idx rfl).2⟩
  rw [posAt_eq h1' hi]
  exact (h2 idx rfl).1 q hq

/-- **C49 (raising).** If the conversion of one element raises (for a reason other than having no finite
value), so does the conversion of the batch. -/
theorem C49_element_raises (kw : Kw BArr) (P : Pos BArr) (k : Kind) (s idx : List ℕ) (hfit : Fit s kw P)
    (hi : InB s idx) (p : Pos ℝ) (kw' : Kw ℝ) (hp : posAt idx P = some p) (hkw : kwAt idx kw = some kw')
    (e : Err) (he : representAs kw' p k = .error e) (hne : e ≠ .nonFinite) :
    ∃ e', representAsB kw P k = .error e' := by
  rcases h : representAsB kw P k with e' | Q
  · exact ⟨e', rfl⟩
  · exact absurd ((C49_elementwise kw P Q k s idx hfit h hi p kw' hp hkw).2.2 e he) hne

/-- **C49 (returning).** If the conversions of all elements return, so does the conversion of the
batch. Proved for a shape without empty axes and, where the code uses `select` or `cond`, for shapes they
accept (`ShapesFit`: always true except from PolarPos to SphericalPos or MathSphericalPos and from
ProlateSpheroidalPos to itself). Without these conditions it is false: `C49_polar_to_spherical_raises`,
`C49_prolate_mixed_raises`. -/
theorem C49_returns_if_shapes_fit (kw : Kw BArr) (P : Pos BArr) (k : Kind) (s : List ℕ) (hfit : Fit s kw P)
    (h0 : 0 ∉ s) (hs : ShapesFit kw P k)
    (hall : ∀ idx, InB s idx → ∃ p kw' q, posAt idx P = some p ∧ kwAt idx kw = some kw' ∧
      representAs kw' p k = .ok q) : ∃ Q, representAsB kw P k = .ok Q := by
  have hP : DefP {i | InB s i} s P := fun a ha => ⟨hfit.1 a (by rw [compsOf_eq]; exact ha), fun i hi => by
    obtain ⟨p, kw', q, hp, -, -⟩ := hall i hi
    rw [posAt_eq hfit.1 hi] at hp
    exact (Pos.elem_some hp).2 a ha⟩
  have hK : DefKw {i | InB s i} s kw := fun a ha => ⟨hfit.2 a (kwOf_mem ha), fun i hi => by
    obtain ⟨p, kw', q, -, hk, -⟩ := hall i hi
    exact (kwAt_some hfit.2 hi hk).2 a ha⟩
  refine (simAt pyDepth {i | InB s i} s kw P k (fun i h => h) hK hP).total (shapesFit hs) ⟨rfl, h0⟩ fun i hi => ?_
  obtain ⟨p, kw', q, hp, hk, hq⟩ := hall i hi
  rw [posAt_eq hfit.1 hi] at hp
  obtain ⟨rfl, -⟩ := Pos.elem_some hp
  obtain ⟨rfl, -⟩ := kwAt_some hfit.2 hi hk
  exact ⟨q, hq⟩

/-- **C49 (with C01, C02).** A batch of valid points, none at the origin, always converts between classes of
the same dimension (apart from `select`/`cond` shapes), and every element of the result is the same physical
point as the element of the input. -/
theorem C49_points (kw : Kw BArr) (P : Pos BArr) (k : Kind) (s : List ℕ) (hfit : Fit s kw P)
    (h0 : 0 ∉ s) (hs : ShapesFit kw P k)
    (hall : ∀ idx, InB s idx → ∃ p kw', posAt idx P = some p ∧ kwAt idx kw = some kw' ∧ Convertible kw' p k) :
    ∃ Q, representAsB kw P k = .ok Q ∧ ∀ idx, InB s idx →
      ∃ p q, posAt idx P = some p ∧ posAt idx Q = some q ∧ q.kind = k ∧ point q = point p := by
  have tot : ∀ {kw' : Kw ℝ} {p : Pos ℝ}, Convertible kw' p k → ∃ q, representAs kw' p k = .ok q :=
    fun h => represent_total 197 h
  obtain ⟨Q, hQ⟩ := C49_returns_if_shapes_fit kw P k s hfit h0 hs fun idx hi => by
    obtain ⟨p, kw', h1, h2, h3⟩ := hall idx hi
    obtain ⟨q, hq⟩ := tot h3
    exact ⟨p, kw', q, h1, h2, hq⟩
  refine ⟨Q, hQ, fun idx hi => ?_⟩
  obtain ⟨p, kw', h1, h2, h3⟩ := hall idx hi
  obtain ⟨q, hq⟩ := tot h3
  have g := represent_good _ _ _ _ _ h3.valid h3.dim hq
  exact ⟨p, q, h1, (C49_elementwise kw P Q k s idx hfit hQ hi p kw' h1 h2).2.1 q hq, g.kind, g.point⟩

/-! ### `from_` -/

theorem bselect_ok {C : Arr Bool} {A B Z : BArr} (h : bselect C A B = .ok Z) :
    A.shape = B.shape ∧ (C.shape = [] ∨ C.shape = A.shape) ∧ Z.shape = A.shape := by
  unfold bselect at h
  split at h
  · rename_i hs
    obtain rfl := Except.ok.inj h
    exact ⟨hs.1, hs.2, rfl⟩
  · cases h

theorem sphFromB_selOk {R : Dist BArr} {X : BArr} {Φ : AzArg BArr} {Q : Pos BArr} (h : sphFromB R X Φ = .ok Q) :
    SelOk R.raw.shape Φ.arr.shape X.shape := by
  unfold sphFromB at h
  obtain ⟨C, hC, h⟩ := (bind_ok_iff _ _ _).mp h
  obtain ⟨R', hR', h⟩ := (bind_ok_iff _ _ _).mp h
  obtain ⟨a, ha, h⟩ := (bind_ok_iff _ _ _).mp h
  obtain ⟨P1, hP1, h⟩ := (bind_ok_iff _ _ _).mp h
  obtain ⟨b, hb, h⟩ := (bind_ok_iff _ _ _).mp h
  obtain ⟨T1, hT1, h⟩ := (bind_ok_iff _ _ _).mp h
  obtain ⟨C', hC', h⟩ := (bind_ok_iff _ _ _).mp h
  obtain ⟨t, ht, h⟩ := (bind_ok_iff _ _ _).mp h
  obtain ⟨u, hu, h⟩ := (bind_ok_iff _ _ _).mp h
  obtain ⟨T2, hT2, h⟩ := (bind_ok_iff _ _ _).mp h
  obtain ⟨v, hv, h⟩ := (bind_ok_iff _ _ _).mp h
  obtain ⟨P2, hP2, h⟩ := (bind_ok_iff _ _ _).mp h
  have sC : C.shape = R.raw.shape := shape_left hC
  obtain ⟨e1, e2, e3⟩ := bselect_ok hP1
  obtain ⟨f1, f2, f3⟩ := bselect_ok hT1
  have sC' : C'.shape = (bwrap T1).shape := shape_left hC'
  obtain ⟨g1, g2, g3⟩ := bselect_ok hP2
  have hsP := az_shape Φ
  rw [e1, hsP, sC] at e2
  rw [f1, sC] at f2
  refine ⟨e2, f2, ?_⟩
  have : (bwrap T1).shape = X.shape := (show T1.shape = X.shape from f3.trans f1)
  rw [sC', this, e3, e1, hsP] at g2
  exact g2

theorem mathFromB_selOk {R : Dist BArr} {X : BArr} {Φ : AzArg BArr} {Q : Pos BArr} (h : mathFromB R Φ X = .ok Q) :
    SelOk R.raw.shape Φ.arr.shape X.shape := by
  unfold mathFromB at h
  obtain ⟨C, hC, h⟩ := (bind_ok_iff _ _ _).mp h
  obtain ⟨R', hR', h⟩ := (bind_ok_iff _ _ _).mp h
  obtain ⟨a, ha, h⟩ := (bind_ok_iff _ _ _).mp h
  obtain ⟨P1, hP1, h⟩ := (bind_ok_iff _ _ _).mp h
  obtain ⟨b, hb, h⟩ := (bind_ok_iff _ _ _).mp h
  obtain ⟨T1, hT1, h⟩ := (bind_ok_iff _ _ _).mp h
  obtain ⟨C', hC', h⟩ := (bind_ok_iff _ _ _).mp h
  obtain ⟨t, ht, h⟩ := (bind_ok_iff _ _ _).mp h
  obtain ⟨u, hu, h⟩ := (bind_ok_iff _ _ _).mp h
  obtain ⟨T2, hT2, h⟩ := (bind_ok_iff _ _ _).mp h
  obtain ⟨v, hv, h⟩ := (bind_ok_iff _ _ _).mp h
  obtain ⟨P2, hP2, h⟩ := (bind_ok_iff _ _ _).mp h
  have sC : C.shape = R.raw.shape := shape_left hC
  obtain ⟨e1, e2, e3⟩ := bselect_ok hP1
  obtain ⟨f1, f2, f3⟩ := bselect_ok hT1
  have sC' : C'.shape = (bwrap T1).shape := shape_left hC'
  obtain ⟨g1, g2, g3⟩ := bselect_ok hP2
  have hsP := az_shape Φ
  rw [e1, hsP, sC] at e2
  rw [f1, sC] at f2
  refine ⟨e2, f2, ?_⟩
  have : (bwrap T1).shape = X.shape := (show T1.shape = X.shape from f3.trans f1)
  rw [sC', this, e3, e1, hsP] at g2
  exact g2

/-- PolarPos to SphericalPos or MathSphericalPos raises for every batched radius unless the inclination is
passed with the same shape: the default `Quantity(0.0, "radian")` is a scalar and `transform/d2.py` 308, 337
do not broadcast it. (From CartesianPos1D and RadialPos, `transform/d1.py` 203, 429 do.) -/
theorem C49_polar_to_spherical_raises (kw : Kw BArr) (r : Dist BArr) (phi : BArr) (h : r.raw.shape ≠ []) :
    ((orZeroB kw.theta).shape ≠ r.raw.shape → ∃ e, representAsB kw (.polar r phi) .sph = .error e) ∧
    ((orZeroB kw.phi).shape ≠ r.raw.shape → ∃ e, representAsB kw (.polar r phi) .math = .error e) := by
  constructor
  · intro hne
    rcases hr : representAsB kw (.polar r phi) .sph with e | Q
    · exact ⟨e, rfl⟩
    · exfalso
      have hr' : representB (199 + 1) kw (.polar r phi) .sph = .ok Q := hr
      rw [representB] at hr'
      rcases (sphFromB_selOk hr').2.1 with e | e
      · exact h e
      · exact hne e.symm
  · intro hne
    rcases hr : representAsB kw (.polar r phi) .math with e | Q
    · exact ⟨e, rfl⟩
    · exfalso
      have hr' : representB (199 + 1) kw (.polar r phi) .math = .ok Q := hr
      rw [representB] at hr'
      rcases (mathFromB_selOk hr').2.1 with e | e
      · exact h e
      · exact hne e.symm

/-- a prolate spheroidal position whose components do not all have one shape does not convert to its own
class, even without `Delta`: both branches of `lax.cond` must have equal shapes
(`_src/vectors/d3/transform.py` 768-775) -/
theorem C49_prolate_mixed_raises (mu nu phi delta : BArr) (h : mu.shape ≠ nu.shape) :
    ∃ e, representAsB {} (.prolate mu nu phi delta) .prolate = .error e := by
  rcases hr : representAsB {} (.prolate mu nu phi delta) .prolate with e | Q
  · exact ⟨e, rfl⟩
  · exfalso
    have hr' : representB (199 + 1) {} (.prolate mu nu phi delta) .prolate = .ok Q := hr
    rw [representB] at hr'
    obtain ⟨u, hu, -⟩ := (bind_ok_iff _ _ _).mp hr'
    unfold condShapes at hu
    obtain ⟨s, -, hs⟩ := (bind_ok_iff _ _ _).mp hu
    split at hs
    · rename_i hc; exact h (hc.1.trans hc.2.1.symm)
    · cases hs

theorem lonlatFromB_selOk {R : Dist BArr} {X : BArr} {Φ : AzArg BArr} {Q : Pos BArr} (h : lonlatFromB Φ X R = .ok Q) :
    SelOk R.raw.shape Φ.arr.shape X.shape := by
  unfold lonlatFromB at h
  obtain ⟨C, hC, h⟩ := (bind_ok_iff _ _ _).mp h
  obtain ⟨R', hR', h⟩ := (bind_ok_iff _ _ _).mp h
  obtain ⟨a, ha, h⟩ := (bind_ok_iff _ _ _).mp h
  obtain ⟨P1, hP1, h⟩ := (bind_ok_iff _ _ _).mp h
  obtain ⟨T1, hT1, h⟩ := (bind_ok_iff _ _ _).mp h
  obtain ⟨C', hC', h⟩ := (bind_ok_iff _ _ _).mp h
  obtain ⟨u, hu, h⟩ := (bind_ok_iff _ _ _).mp h
  obtain ⟨T2, hT2, h⟩ := (bind_ok_iff _ _ _).mp h
  obtain ⟨v, hv, h⟩ := (bind_ok_iff _ _ _).mp h
  obtain ⟨P2, hP2, h⟩ := (bind_ok_iff _ _ _).mp h
  have sC : C.shape = R.raw.shape := shape_left hC
  obtain ⟨e1, e2, e3⟩ := bselect_ok hP1
  obtain ⟨f1, f2, f3⟩ := bselect_ok hT1
  have sC' : C'.shape = T1.shape := shape_leftN rfl hC'
  obtain ⟨g1, g2, g3⟩ := bselect_ok hP2
  have hsP := az_shape Φ
  rw [e1, hsP, sC] at e2
  rw [f1, sC] at f2
  refine ⟨e2, f2, ?_⟩
  rw [sC', f3, f1, g1, e3, e1, hsP] at g2
  exact g2

theorem azAt_eq {a : AzArg BArr} {s idx : List ℕ} (h : BroadcastsTo (azArr a).shape s) (hi : InB s idx) :
    azAt idx a = a.elem idx := by
  cases a with
  | qty d => exact congrArg (Option.map AzArg.qty) (at_eq (a := d) h hi)
  | angle d => exact congrArg (Option.map AzArg.angle) (at_eq (a := d) h hi)

theorem azArr_eq (a : AzArg BArr) : azArr a = a.arr := by cases a <;> rfl

/-- a call of `from_` on arrays against the call on the elements at each index -/
def FromElementwise (call : Dist BArr → AzArg BArr → BArr → Res (Pos BArr))
    (one : Dist ℝ → AzArg ℝ → ℝ → Res (Pos ℝ)) : Prop :=
  ∀ (radius : Dist BArr) (azimuth : AzArg BArr) (polar : BArr) (s : List ℕ),
    BroadcastsTo radius.raw.shape s → BroadcastsTo (azArr azimuth).shape s → BroadcastsTo polar.shape s →
    -- the elements
    (∀ Q, call radius azimuth polar = .ok Q →
      SelectShapes radius.raw.shape (azArr azimuth).shape polar.shape ∧
      (∀ a ∈ compsOf Q, BroadcastsTo a.shape s) ∧
      ∀ idx, InB s idx → ∀ r f t, distAt idx radius = some r → azAt idx azimuth = some f →
        at_ idx polar = some t →
        (∀ q, one r f t = .ok q → posAt idx Q = some q) ∧ (∀ e, one r f t = .error e → e = .nonFinite)) ∧
    -- it returns
    (SelectShapes radius.raw.shape (azArr azimuth).shape polar.shape → 0 ∉ s →
      (∀ idx, InB s idx → ∃ r f t q, distAt idx radius = some r ∧ azAt idx azimuth = some f ∧
        at_ idx polar = some t ∧ one r f t = .ok q) → ∃ Q, call radius azimuth polar = .ok Q)

theorem fromElementwise_of {call : Dist BArr → AzArg BArr → BArr → Res (Pos BArr)}
    {one : Dist ℝ → AzArg ℝ → ℝ → Res (Pos ℝ)}
    (hsel : ∀ R Φ X Q, call R Φ X = .ok Q → SelOk R.raw.shape Φ.arr.shape X.shape)
    (hsim : ∀ (D : Set (List ℕ)) (S : List ℕ) R Φ X, (∀ i ∈ D, InB S i) → DefA D S R.raw → DefA D S X →
      DefA D S Φ.arr → BSim (SelOk R.raw.shape Φ.arr.shape X.shape) D S (call R Φ X) fun i =>
        one (R.elemD i) (Φ.elemD i) (X.elemD i)) : FromElementwise call one := by
  have hdist : ∀ {i : List ℕ} {R : Dist BArr} {r}, R.elem i = some r →
      r = R.elemD i ∧ R.raw.elem i = some (R.raw.elemD i) := fun {i R r} h => by
    cases R <;> simp only [Dist.elem, Option.map_eq_some_iff] at h <;> obtain ⟨x, hx, rfl⟩ := h <;>
      simp [Dist.elemD, Dist.raw, Arr.elemD, hx]
  have haz : ∀ {i : List ℕ} {R : AzArg BArr} {r}, R.elem i = some r →
      r = R.elemD i ∧ R.arr.elem i = some (R.arr.elemD i) := fun {i R r} h => by
    cases R <;> simp only [AzArg.elem, Option.map_eq_some_iff] at h <;> obtain ⟨x, hx, rfl⟩ := h <;>
      simp [AzArg.elemD, AzArg.arr, Arr.elemD, hx]
  have hel : ∀ {i : List ℕ} {X : BArr} {x}, X.elem i = some x →
      x = X.elemD i ∧ X.elem i = some (X.elemD i) := fun {i X x} h => by simp [Arr.elemD, h]
  intro R Φ X s hR hΦ hX
  refine ⟨fun Q hQ => ⟨by rw [azArr_eq]; exact hsel R Φ X Q hQ, ?_, ?_⟩, fun hs h0 hall => ?_⟩
  · have := hsim ∅ s R Φ X (fun i h => absurd h (Set.notMem_empty i)) ⟨hR, fun i h => absurd h (Set.notMem_empty i)⟩
      ⟨hX, fun i h => absurd h (Set.notMem_empty i)⟩
      ⟨by rw [← azArr_eq]; exact hΦ, fun i h => absurd h (Set.notMem_empty i)⟩
    rw [compsOf_eq]; exact (this.ok Q hQ).1
  · intro idx hi r f t hr hf ht
    rw [distAt_eq hR hi] at hr
    rw [azAt_eq hΦ hi] at hf
    rw [at_eq hX hi] at ht
    obtain ⟨rfl, dr⟩ := hdist hr
    obtain ⟨rfl, df⟩ := haz hf
    obtain ⟨rfl, dt⟩ := hel ht
    have := hsim {idx} s R Φ X (fun i h => by cases h; exact hi) ⟨hR, fun i h => by cases h; exact dr⟩
      ⟨hX, fun i h => by cases h; exact dt⟩
      ⟨by rw [← azArr_eq]; exact hΦ, fun i h => by cases h; exact df⟩
    obtain ⟨h1, h2⟩ := this.ok Q hQ
    refine ⟨fun q hq => ?_, (h2 idx rfl).2⟩
    rw [posAt_eq (by rw [compsOf_eq]; exact h1) hi]
    exact (h2 idx rfl).1 q hq
  · have key : ∀ i, InB s i → R.raw.elem i = some (R.raw.elemD i) ∧ Φ.arr.elem i = some (Φ.arr.elemD i) ∧
        X.elem i = some (X.elemD i) ∧ ∃ q, one (R.elemD i) (Φ.elemD i) (X.elemD i) = .ok q := fun i hi => by
      obtain ⟨r, f, t, q, hr, hf, ht, hq⟩ := hall i hi
      rw [distAt_eq hR hi] at hr
      rw [azAt_eq hΦ hi] at hf
      rw [at_eq hX hi] at ht
      obtain ⟨rfl, dr⟩ := hdist hr
      obtain ⟨rfl, df⟩ := haz hf
      obtain ⟨rfl, dt⟩ := hel ht
      exact ⟨dr, df, dt, q, hq⟩
    refine (hsim {i | InB s i} s R Φ X (fun i h => h) ⟨hR, fun i h => (key i h).1⟩
      ⟨hX, fun i h => (key i h).2.2.1⟩
      ⟨by rw [← azArr_eq]; exact hΦ, fun i h => (key i h).2.1⟩).total (by rw [azArr_eq] at hs; exact hs)
      ⟨rfl, h0⟩ fun i hi => (key i hi).2.2.2

/-- **C49 (`from_`).** `SphericalPos.from_`, `MathSphericalPos.from_` and `LonLatSphericalPos.from_` of arrays
act element by element. They return exactly for shapes `lax.select` accepts: scalar arguments are not
broadcast against the others (only a scalar radius, and a scalar polar angle with a scalar radius, are). -/
theorem C49_from_elementwise :
    FromElementwise (fun r f t => sphFromB r t f) (fun r f t => sphFrom r t f) ∧
    FromElementwise (fun r f t => mathFromB r f t) (fun r f t => mathFrom r f t) ∧
    FromElementwise (fun r f t => lonlatFromB f t r) (fun r f t => lonlatFrom f t r) :=
  ⟨fromElementwise_of (fun _ _ _ _ h => sphFromB_selOk h) fun _ _ _ _ _ hD h1 h2 h3 => sphFromB_sim hD h1 h2 h3,
   fromElementwise_of (fun _ _ _ _ h => mathFromB_selOk h) fun _ _ _ _ _ hD h1 h2 h3 => mathFromB_sim hD h1 h2 h3,
   fromElementwise_of (fun _ _ _ _ h => lonlatFromB_selOk h)
     fun _ _ _ _ _ hD h1 h2 h3 => lonlatFromB_sim hD h1 h2 h3⟩

/-! ### NaN -/

theorem map2_inv {α β γ : Type} {f : α → β → γ} {a : Arr α} {b : Arr β} {c : Arr γ} (h : Arr.map2 f a b = .ok c) (idx : List ℕ) :
    c.elem idx = f (a.elem idx) (b.elem idx) := by
  have hs : ∃ u, bc2 a.shape b.shape = .ok u := by
    unfold Arr.map2 at h
    obtain ⟨u, h1, -⟩ := (bind_ok_iff _ _ _).mp h
    exact ⟨u, h1⟩
  obtain ⟨u, hu⟩ := hs
  obtain ⟨k1, k2, -⟩ := bc2_ok hu
  obtain ⟨c', h1, -, -, h2⟩ := Arr.map2_spec (f := f) k1 k2
  rw [h] at h1
  obtain rfl := Except.ok.inj h1
  exact h2 idx

theorem mkSphB_inv {r : Dist BArr} {t : BArr} {ph : AzArg BArr} {Q : Pos BArr} (h : mkSphB r t ph = .ok Q) :
    ∃ ph', Q = .sph r t ph' := by
  unfold mkSphB at h
  obtain ⟨_, _, h⟩ := (bind_ok_iff _ _ _).mp h
  obtain ⟨_, _, h⟩ := (bind_ok_iff _ _ _).mp h
  exact ⟨_, (Except.ok.inj h).symm⟩

theorem mkMathB_inv {r : Dist BArr} {t : BArr} {ph : AzArg BArr} {Q : Pos BArr} (h : mkMathB r ph t = .ok Q) :
    ∃ ph', Q = .math r ph' t := by
  unfold mkMathB at h
  obtain ⟨_, _, h⟩ := (bind_ok_iff _ _ _).mp h
  obtain ⟨_, _, h⟩ := (bind_ok_iff _ _ _).mp h
  exact ⟨_, (Except.ok.inj h).symm⟩

theorem mkLonLatB_inv {r : Dist BArr} {t : BArr} {ph : AzArg BArr} {Q : Pos BArr} (h : mkLonLatB ph t r = .ok Q) :
    ∃ ph', Q = .lonlat ph' t r := by
  unfold mkLonLatB at h
  obtain ⟨_, _, h⟩ := (bind_ok_iff _ _ _).mp h
  obtain ⟨_, _, h⟩ := (bind_ok_iff _ _ _).mp h
  exact ⟨_, (Except.ok.inj h).symm⟩

theorem zero_over_zero (y : El) (hy : y = some 0) : el1 Num.acos (el2 Num.div (some (0 : ℝ)) y) = none := by
  subst hy
  have : (Num.div (0 : ℝ) 0 : Res ℝ) = .error .nonFinite := by simp [Num.div]
  simp only [el2, this, el1]

/-- the inclination is NaN at an element -/
def PolarNaN (idx : List ℕ) (Q : Pos BArr) : Prop := ∃ r t ph, Q = .sph r t ph ∧ t.elem idx = none

theorem sq_sum_zero : el1 Num.sqrt (some (0 : ℝ)) = some 0 := by
  have : (Num.sqrt (0 : ℝ) : Res ℝ) = .ok 0 := by simp [Num.sqrt]
  simp only [el1, this]

theorem cart3ToSphB_nan {X Y Z : BArr} {Q : Pos BArr} {idx : List ℕ} (h : cart3ToSphB X Y Z = .ok Q)
    (hx : X.elem idx = some 0) (hy : Y.elem idx = some 0) (hz : Z.elem idx = some 0) : PolarNaN idx Q := by
  unfold cart3ToSphB at h
  obtain ⟨xx, h1, h⟩ := (bind_ok_iff _ _ _).mp h
  obtain ⟨yy, h2, h⟩ := (bind_ok_iff _ _ _).mp h
  obtain ⟨s, h3, h⟩ := (bind_ok_iff _ _ _).mp h
  obtain ⟨zz, h4, h⟩ := (bind_ok_iff _ _ _).mp h
  obtain ⟨s', h5, h⟩ := (bind_ok_iff _ _ _).mp h
  obtain ⟨d, h6, h⟩ := (bind_ok_iff _ _ _).mp h
  obtain ⟨ph, h7, h⟩ := (bind_ok_iff _ _ _).mp h
  obtain ⟨ph', rfl⟩ := mkSphB_inv h
  refine ⟨_, _, _, rfl, ?_⟩
  show (bacos d).elem idx = none
  rw [bacos, Arr.map_elem, map2_inv h6, hz]
  refine zero_over_zero _ ?_
  rw [bsqrt, Arr.map_elem, map2_inv h5, map2_inv h4, map2_inv h3, map2_inv h2, map2_inv h1, hx, hy, hz]
  simp only [el2, mul_zero, add_zero]
  exact sq_sum_zero

theorem cylToSphB_nan {R P Z : BArr} {Q : Pos BArr} {idx : List ℕ} (h : cylToSphB R P Z = .ok Q)
    (hx : R.elem idx = some 0) (hz : Z.elem idx = some 0) : PolarNaN idx Q := by
  unfold cylToSphB at h
  obtain ⟨xx, h1, h⟩ := (bind_ok_iff _ _ _).mp h
  obtain ⟨zz, h4, h⟩ := (bind_ok_iff _ _ _).mp h
  obtain ⟨s', h5, h⟩ := (bind_ok_iff _ _ _).mp h
  obtain ⟨d, h6, h⟩ := (bind_ok_iff _ _ _).mp h
  obtain ⟨ph', rfl⟩ := mkSphB_inv h
  refine ⟨_, _, _, rfl, ?_⟩
  show (bacos d).elem idx = none
  rw [bacos, Arr.map_elem, map2_inv h6, hz]
  refine zero_over_zero _ ?_
  rw [bsqrt, Arr.map_elem, map2_inv h5, map2_inv h4, map2_inv h1, hx, hz]
  simp only [el2, mul_zero, add_zero]
  exact sq_sum_zero

theorem posAt_sph_nan {r : Dist BArr} {t ph : BArr} {idx : List ℕ} (h : at_ idx t = none) :
    posAt idx (.sph r t ph) = none := by
  simp only [posAt, h]
  cases distAt idx r <;> rfl

theorem posAt_lonlat_nan {r : Dist BArr} {t ph : BArr} {idx : List ℕ} (h : at_ idx t = none) :
    posAt idx (.lonlat ph t r) = none := by
  simp only [posAt, h]
  cases at_ idx ph <;> rfl

theorem posAt_math_nan {r : Dist BArr} {t ph : BArr} {idx : List ℕ} (h : at_ idx t = none) :
    posAt idx (.math r ph t) = none := by
  simp only [posAt, h]
  cases distAt idx r <;> cases at_ idx ph <;> rfl

/-- **C49 (NaN).** An element at the origin becomes NaN in the three spherical classes, never a number: whenever the
conversion of a batch returns, its result has a NaN component there (the other elements are as in
`C49_elementwise`). -/
theorem C49_origin_nan (kw : Kw BArr) (P Q : Pos BArr) (k : Kind) (s idx : List ℕ) (hfit : Fit s kw P)
    (hk : k = .sph ∨ k = .lonlat ∨ k = .math) (hQ : representAsB kw P k = .ok Q) (hi : InB s idx)
    (hp : posAt idx P = some (.cart3 0 0 0) ∨ ∃ phi, posAt idx P = some (.cyl 0 phi 0)) :
    posAt idx Q = none := by
  have hQs : ∀ a ∈ compsOf Q, BroadcastsTo a.shape s := by
    have hP : DefP ∅ s P := fun a ha => ⟨hfit.1 a (by rw [compsOf_eq]; exact ha), fun i h => h.elim⟩
    have hK : DefKw ∅ s kw := fun a ha => ⟨hfit.2 a (kwOf_mem ha), fun i h => h.elim⟩
    rw [compsOf_eq]
    exact ((simAt pyDepth ∅ s kw P k (fun i h => h.elim) hK hP).ok Q hQ).1
  -- the spherical form, with NaN as inclination
  have key : ∃ n S, PolarNaN idx S ∧ (S = Q ∨ representB n {} S k = .ok Q) := by
    rcases hp with hp | ⟨phi, hp⟩
    · cases P <;> simp only [posAt, Option.bind_eq_bind, Option.bind_eq_some_iff, Option.pure_def, Option.some.injEq,
        reduceCtorEq, and_false, exists_const, exists_false, Pos.cart3.injEq] at hp
      rename_i X Y Z
      obtain ⟨a, ha, b, hb, c, hc, rfl, rfl, rfl⟩ := hp
      have hX := hfit.1 X (by simp [compsOf])
      have hY := hfit.1 Y (by simp [compsOf])
      have hZ := hfit.1 Z (by simp [compsOf])
      rw [at_eq hX hi] at ha
      rw [at_eq hY hi] at hb
      rw [at_eq hZ hi] at hc
      have hQ' : representB (198 + 1 + 1) kw (.cart3 X Y Z) k = .ok Q := hQ
      rcases hk with rfl | rfl | rfl
      · rw [representB] at hQ'
        exact ⟨0, Q, cart3ToSphB_nan hQ' ha hb hc, .inl rfl⟩
      · rw [representB] at hQ'
        obtain ⟨S, h1, h2⟩ := (bind_ok_iff _ _ _).mp hQ'
        rw [representB] at h1
        exact ⟨_, S, cart3ToSphB_nan h1 ha hb hc, .inr h2⟩
      · rw [representB] at hQ'
        obtain ⟨S, h1, h2⟩ := (bind_ok_iff _ _ _).mp hQ'
        rw [representB] at h1
        exact ⟨_, S, cart3ToSphB_nan h1 ha hb hc, .inr h2⟩
    · cases P <;> simp only [posAt, Option.bind_eq_bind, Option.bind_eq_some_iff, Option.pure_def, Option.some.injEq,
        reduceCtorEq, and_false, exists_const, exists_false, Pos.cyl.injEq] at hp
      rename_i X Y Z
      obtain ⟨a, ha, b, hb, c, hc, rfl, -, rfl⟩ := hp
      have hX := hfit.1 X (by simp [compsOf])
      have hZ := hfit.1 Z (by simp [compsOf])
      rw [at_eq hX hi] at ha
      rw [at_eq hZ hi] at hc
      have hQ' : representB (198 + 1 + 1) kw (.cyl X Y Z) k = .ok Q := hQ
      rcases hk with rfl | rfl | rfl
      · rw [representB] at hQ'
        exact ⟨0, Q, cylToSphB_nan hQ' ha hc, .inl rfl⟩
      · rw [representB] at hQ'
        obtain ⟨S, h1, h2⟩ := (bind_ok_iff _ _ _).mp hQ'
        rw [representB] at h1
        exact ⟨_, S, cylToSphB_nan h1 ha hc, .inr h2⟩
      · rw [representB] at hQ'
        obtain ⟨S, h1, h2⟩ := (bind_ok_iff _ _ _).mp hQ'
        rw [representB] at h1
        exact ⟨_, S, cylToSphB_nan h1 ha hc, .inr h2⟩
  obtain ⟨n, S, ⟨r, t, ph, rfl, ht⟩, hS⟩ := key
  rcases hS with rfl | hS
  · refine posAt_sph_nan ?_
    rw [at_eq (hQs t (by simp [compsOf])) hi]; exact ht
  · cases n with
    | zero => rw [representB] at hS; cases hS
    | succ n =>
      rcases hk with rfl | rfl | rfl <;> rw [representB] at hS
      · obtain rfl := Except.ok.inj hS
        refine posAt_sph_nan ?_
        rw [at_eq (hQs t (by simp [compsOf])) hi]; exact ht
      · unfold sphToLonLatB at hS
        obtain ⟨l, h1, h2⟩ := (bind_ok_iff _ _ _).mp hS
        obtain ⟨ph', rfl⟩ := mkLonLatB_inv h2
        refine posAt_lonlat_nan ?_
        rw [at_eq (hQs l (by simp [compsOf])) hi, map2_inv h1, ht]
        unfold el2
        split
        · rename_i h; cases h
        · rfl
      · obtain ⟨ph', rfl⟩ := mkMathB_inv hS
        refine posAt_math_nan ?_
        rw [at_eq (hQs t (by simp [compsOf])) hi]; exact ht

/-- an array of two points, the second one the origin -/
example : ∃ P : Pos BArr, Fit [2] {} P ∧ InB [2] [1] ∧ posAt [1] P = some (.cart3 0 0 0) ∧
    posAt [0] P = some (.cart3 1 2 3) :=
  ⟨.cart3 ⟨[2], fun i => some (if i = [1] then 0 else 1)⟩ ⟨[2], fun i => some (if i = [1] then 0 else 2)⟩
      ⟨[2], fun i => some (if i = [1] then 0 else 3)⟩,
    ⟨by simp [compsOf, broadcastsTo_refl], by simp [kwOf]⟩, .cons (by norm_num) .nil,
    by simp [posAt, at_, bcSource], by simp [posAt, at_, bcSource]⟩

/-! ### the hypotheses are met -/

/-- a batch of two points (3, 4, 0), (0, 5, 12), given with components of shapes (2, 1), (2, 1) and (2,):
hence four points -/
noncomputable def batchWitness : Pos BArr :=
  .cart3 ⟨[2, 1], fun i => some (if i = [0, 0] then 3 else 0)⟩ ⟨[2, 1], fun i => some (if i = [0, 0] then 4 else 5)⟩
    ⟨[2], fun i => some (if i = [0] then 0 else 12)⟩

theorem batchWitness_fit : Fit [2, 2] {} batchWitness := by
  refine ⟨?_, by simp [kwOf]⟩
  simp only [batchWitness, compsOf, mem_cons, not_mem_nil, or_false, forall_eq_or_imp, forall_eq]
  refine ⟨?_, ?_, ?_⟩ <;> simp [BroadcastsTo, CompatRev]

theorem batchWitness_at (idx : List ℕ) :
    ∃ x y z : ℝ, posAt idx batchWitness = some (.cart3 x y z) ∧ kwAt idx {} = some {} := by
  refine ⟨_, _, _, rfl, rfl⟩

example : posAt [0, 1] batchWitness = some (.cart3 3 4 12) := by
  simp [posAt, batchWitness, at_, bcSource]

/-- the conversion of the batch to cylindrical coordinates returns, and its element (0, 1) is the conversion of
(3, 4, 12) -/
example : ∃ Q, representAsB {} batchWitness .cyl = .ok Q ∧
    ∃ q, representAs {} (.cart3 3 4 12) .cyl = .ok q ∧ posAt [0, 1] Q = some q := by
  have hall : ∀ x y z : ℝ, ∃ q, representAs {} (.cart3 x y z) .cyl = .ok q := fun x y z => by
    have : ∃ q, represent (199 + 1) {} (.cart3 x y z) .cyl = .ok q := by
      rw [represent]; exact ⟨_, cart3ToCyl_eq x y z⟩
    exact this
  obtain ⟨Q, hQ⟩ := C49_returns_if_shapes_fit {} batchWitness .cyl [2, 2] batchWitness_fit (by simp) trivial
    fun idx _ => by
      obtain ⟨x, y, z, h1, h2⟩ := batchWitness_at idx
      obtain ⟨q, hq⟩ := hall x y z
      exact ⟨_, _, q, h1, h2, hq⟩
  obtain ⟨q, hq⟩ := hall 3 4 12
  have hi : InB [2, 2] [0, 1] := .cons (by norm_num) (.cons (by norm_num) .nil)
  exact ⟨Q, hQ, q, hq, (C49_elementwise {} batchWitness Q .cyl [2, 2] [0, 1] batchWitness_fit hQ hi
    (.cart3 3 4 12) {} (by simp [posAt, batchWitness, at_, bcSource]) rfl).2.1 q hq⟩

end Verif
