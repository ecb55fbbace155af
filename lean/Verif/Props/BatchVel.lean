import Verif.BatchVelTotal
import Verif.Props.Velocity
import Verif.Props.Acceleration

/-!
# C57: converting an array of velocities converts each element

`representVelB` (`Verif/BatchVel.lean`) is `represent_as(vel, target, position)` transcribed on arrays, with its
`reshape`, `vmap` and `reshape`; `representVel` (`Verif/Vel.lean`) is the scalar transcription that C11-C13 are
about.
-/

namespace Verif

open List

namespace Spec

/-- the velocity (or acceleration) at batch index `idx`; `none` if one of its components is NaN -/
def velAt (idx : List ℕ) : Vel BArr → Option (Vel ℝ)
  | .cart1 a => do return .cart1 (← at_ idx a)
  | .radial a => do return .radial (← at_ idx a)
  | .cart2 a b => do return .cart2 (← at_ idx a) (← at_ idx b)
  | .polar a b => do return .polar (← at_ idx a) (← at_ idx b)
  | .twoSphere a b => do return .twoSphere (← at_ idx a) (← at_ idx b)
  | .cart3 a b c => do return .cart3 (← at_ idx a) (← at_ idx b) (← at_ idx c)
  | .cyl a b c => do return .cyl (← at_ idx a) (← at_ idx b) (← at_ idx c)
  | .sph a b c => do return .sph (← at_ idx a) (← at_ idx b) (← at_ idx c)
  | .lonlat a b c => do return .lonlat (← at_ idx a) (← at_ idx b) (← at_ idx c)
  | .lonCosLat a b c => do return .lonCosLat (← at_ idx a) (← at_ idx b) (← at_ idx c)
  | .math a b c => do return .math (← at_ idx a) (← at_ idx b) (← at_ idx c)
  | .prolate a b c => do return .prolate (← at_ idx a) (← at_ idx b) (← at_ idx c)

/-- the components of a velocity -/
def velComps : Vel BArr → List BArr
  | .cart1 a => [a]
  | .radial a => [a]
  | .cart2 a b => [a, b]
  | .polar a b => [a, b]
  | .twoSphere a b => [a, b]
  | .cart3 a b c => [a, b, c]
  | .cyl a b c => [a, b, c]
  | .sph a b c => [a, b, c]
  | .lonlat a b c => [a, b, c]
  | .lonCosLat a b c => [a, b, c]
  | .math a b c => [a, b, c]
  | .prolate a b c => [a, b, c]

/-- the coordinates of a position: its components, without the parameter `Delta` -/
def coordsOf : Pos BArr → List BArr
  | .prolate mu nu phi _ => [mu, nu, phi]
  | p => compsOf p

/-- `vel.shape` is `s` -/
def VelShape (V : Vel BArr) (s : List ℕ) : Prop := IsBroadcast ((velComps V).map Arr.shape) s

/-- `position.shape` is `s`; `Delta`, if there is one, is a single number -/
def PosShape (P : Pos BArr) (s : List ℕ) : Prop :=
  IsBroadcast ((coordsOf P).map Arr.shape) s ∧ ∀ mu nu phi d, P = .prolate mu nu phi d → d.shape = []

end Spec

open Spec

theorem velComps_eq (V : Vel BArr) : velComps V = V.comps := by cases V <;> rfl
theorem coordsOf_eq (P : Pos BArr) : coordsOf P = P.coords := by cases P <;> rfl

theorem velShape_iff {V : Vel BArr} {s : List ℕ} : VelShape V s ↔ V.shapeB = .ok s := by
  unfold VelShape Vel.shapeB; rw [velComps_eq, broadcastShapes_iff]

theorem posShape_shape {P : Pos BArr} {s : List ℕ} (h : PosShape P s) : P.shapeB = .ok s := by
  unfold Pos.shapeB; rw [broadcastShapes_iff, ← coordsOf_eq]; exact h.1

theorem posShape_focal {P : Pos BArr} {s : List ℕ} (h : PosShape P s) : ∀ d ∈ P.focalArr, d.shape = [] := by
  intro d hd
  cases P <;> first | (cases hd; done) | skip
  cases hd
  exact h.2 _ _ _ _ rfl

theorem posShape_focalFit {P : Pos BArr} {s : List ℕ} (h : PosShape P s) : FocalFit s P :=
  fun d hd => .inl (posShape_focal h d hd)

theorem posShape_fits {P : Pos BArr} {s : List ℕ} (h : PosShape P s) :
    ∀ a ∈ compsOf P, BroadcastsTo a.shape s := by
  intro a ha
  rw [compsOf_eq, Pos.arrays_eq, mem_append] at ha
  rcases ha with ha | ha
  · exact h.1.1 _ (mem_map.mpr ⟨a, by rw [coordsOf_eq]; exact ha, rfl⟩)
  · rw [posShape_focal h a (by simpa using ha)]; exact broadcastsTo_nil s

theorem velShape_fits {V : Vel BArr} {s : List ℕ} (h : VelShape V s) :
    ∀ a ∈ V.comps, BroadcastsTo a.shape s :=
  fun a ha => h.1 _ (mem_map.mpr ⟨a, by rw [velComps_eq]; exact ha, rfl⟩)

theorem velAt_eq {V : Vel BArr} {s idx : List ℕ} (h : ∀ a ∈ V.comps, BroadcastsTo a.shape s) (hi : InB s idx) :
    velAt idx V = V.elem idx := by
  cases V <;> simp only [Vel.comps, mem_cons, not_mem_nil, or_false, forall_eq_or_imp, forall_eq] at h
  case cart1 => simp only [velAt, Vel.elem, Vel.mapM, at_eq h hi]
  case radial => simp only [velAt, Vel.elem, Vel.mapM, at_eq h hi]
  case cart2 => simp only [velAt, Vel.elem, Vel.mapM, at_eq h.1 hi, at_eq h.2 hi]
  case polar => simp only [velAt, Vel.elem, Vel.mapM, at_eq h.1 hi, at_eq h.2 hi]
  case twoSphere => simp only [velAt, Vel.elem, Vel.mapM, at_eq h.1 hi, at_eq h.2 hi]
  all_goals simp only [velAt, Vel.elem, Vel.mapM, at_eq h.1 hi, at_eq h.2.1 hi, at_eq h.2.2 hi]

/-! ### prolate velocities -/

theorem genericB_prolate {kw : Kw ℝ} {V W : Vel BArr} {k : VKind} {P : Pos BArr} {s t : List ℕ}
    (hs : V.shapeB = .ok s) (ht : P.shapeB = .ok t) (hd : ∀ d ∈ P.focalArr, d.shape = [])
    (hv : V.kind = .prolate) : representVelGenericB kw V k P ≠ .ok W := by
  intro h
  obtain ⟨e, c0, cp, l, h0, h1, h2, -⟩ := genericB_inv hs ht h
  rw [hv] at h0
  obtain ⟨m, nu, p, d, rfl, hq⟩ := representB_delta pyDepth _ _ _ h0
  cases h1
  have h3 : d.shape = [t.prod] := h2 d (by simp [Pos.leaves])
  have h4 : d.shape = [] := by
    rcases hq with hq | ⟨-, hq⟩
    · exact rank0_kwSh kw d (by simp [Kw.arrays, hq])
    · refine hd d ?_
      rw [← Pos.mapCoords_focal (Arr.reshaped t [t.prod]) P, ← hq]; rfl
  rw [h4] at h3; cases h3

/-! ### the latitude of the position -/

theorem lat_elem {P pv : Pos BArr} {lat : BArr} {s : List ℕ} (hP : ∀ a ∈ compsOf P, BroadcastsTo a.shape s)
    (h1 : representAsB {} P .lonlat = .ok pv) (h2 : pv.lat = .ok lat) {idx : List ℕ} (hi : InB s idx) {p : Pos ℝ}
    (hp : P.elem idx = some p) :
    BroadcastsTo lat.shape s ∧
    (∀ q, representAs {} p .lonlat = .ok q → ∃ x, q.lat = .ok x ∧ lat.elem idx = some x) ∧
    ∀ e, representAs {} p .lonlat = .error e → e = .nonFinite := by
  obtain ⟨g1, g2, g3⟩ := C49_elementwise {} P pv .lonlat s idx ⟨hP, fun a ha => by cases ha⟩ h1 hi p {}
    ((posAt_eq hP hi).trans hp) rfl
  cases pv <;> first | (cases h2; done) | skip
  rename_i lon lat' d
  cases h2
  have hl : BroadcastsTo lat.shape s := g1 lat (by simp [compsOf])
  refine ⟨hl, fun q hq => ?_, g3⟩
  have hq' := g2 q hq
  simp only [posAt, Option.bind_eq_bind, Option.bind_eq_some_iff, Option.pure_def, Option.some.injEq] at hq'
  obtain ⟨x, hx, y, hy, z, hz, rfl⟩ := hq'
  exact ⟨y, rfl, by rw [← at_eq hl hi, hy]⟩

/-- `lat` broadcasts to the shape of the position, whatever its elements -/
theorem lat_fits {P pv : Pos BArr} {lat : BArr} {s : List ℕ} (hP : ∀ a ∈ compsOf P, BroadcastsTo a.shape s)
    (h1 : representAsB {} P .lonlat = .ok pv) (h2 : pv.lat = .ok lat) : BroadcastsTo lat.shape s := by
  have sim := simAt pyDepth ∅ s {} P .lonlat (fun i h => by cases h) (fun a ha => by cases ha)
    (fun a ha => ⟨hP a (by rw [compsOf_eq]; exact ha), fun i hi => by cases hi⟩)
  have g := (sim.ok pv h1).1
  cases pv <;> first | (cases h2; done) | skip
  cases h2
  exact g lat (by simp [Pos.arrays])

theorem bc2_fits {a b c S : List ℕ} (h : bc2 a b = .ok c) (ha : BroadcastsTo a S) (hb : BroadcastsTo b S) :
    BroadcastsTo a c ∧ BroadcastsTo c S := by
  obtain ⟨h1, -, h3⟩ := bc2_ok h
  exact ⟨h1, h3 S ha hb⟩

theorem cosLat_fits {P pv : Pos BArr} {lat : BArr} {s : List ℕ} (hP : ∀ a ∈ compsOf P, BroadcastsTo a.shape s)
    (h1 : representAsB {} P .lonlat = .ok pv) (h2 : pv.lat = .ok lat) : BroadcastsTo (bcos lat).shape s :=
  show BroadcastsTo lat.shape s from lat_fits hP h1 h2

/-- LonCosLat -> LonLat, element by element -/
theorem lonCosLatB_elem {a b c : BArr} {P : Pos BArr} {W : Vel BArr} {s : List ℕ}
    (hV : VelShape (.lonCosLat a b c) s) (hP : ∀ a ∈ compsOf P, BroadcastsTo a.shape s)
    (h : lonCosLatToLonLatB a b c P = .ok W) :
    W.kind = .lonlat ∧ VelShape W s ∧
    ∀ idx, InB s idx → ∀ x y z p, Vel.elem idx (.lonCosLat a b c) = some (.lonCosLat x y z) → P.elem idx = some p →
      (∀ w, lonCosLatToLonLat x y z p = .ok w → W.elem idx = some w) ∧
      ∀ e, lonCosLatToLonLat x y z p = .error e → e = .nonFinite := by
  unfold lonCosLatToLonLatB at h
  obtain ⟨pv, h1, ha⟩ := (bind_ok_iff _ _ _).mp h
  obtain ⟨lat, h2, hb⟩ := (bind_ok_iff _ _ _).mp ha
  obtain ⟨q, h3, hc⟩ := (bind_ok_iff _ _ _).mp hb
  obtain rfl := Except.ok.inj hc
  clear h ha hb hc
  have hf := velShape_fits hV
  simp only [Vel.comps, mem_cons, not_mem_nil, or_false, forall_eq_or_imp, forall_eq] at hf
  obtain ⟨fa, fb, fc⟩ := hf
  have fl := cosLat_fits hP h1 h2
  obtain ⟨q', e1, e2, e3, e4⟩ := Arr.map2_spec (f := el2 Num.div) fa fl
  rw [show Arr.map2 (el2 Num.div) a (bcos lat) = .ok q from h3] at e1
  obtain rfl := Except.ok.inj e1
  refine ⟨rfl, ⟨?_, ?_⟩, ?_⟩
  · simp only [velComps, map_cons, map_nil, mem_cons, not_mem_nil, or_false, forall_eq_or_imp, forall_eq]
    exact ⟨e2, fb, fc⟩
  · intro u hu
    simp only [velComps, map_cons, map_nil, mem_cons, not_mem_nil, or_false, forall_eq_or_imp, forall_eq] at hu
    refine hV.2 u ?_
    simp only [velComps, map_cons, map_nil, mem_cons, not_mem_nil, or_false, forall_eq_or_imp, forall_eq]
    exact ⟨broadcastsTo_trans (bc2_ok e3).1 hu.1, hu.2⟩
  intro idx hi x y z p hv hp
  obtain ⟨-, hl, he⟩ := lat_elem hP h1 h2 hi hp
  obtain ⟨-, hv⟩ := Vel.elem_iff.mp hv
  simp only [Vel.comps, map_cons, map_nil, cons.injEq, and_true] at hv
  obtain ⟨va, vb, vc⟩ := hv
  unfold lonCosLatToLonLat
  rcases hr : representAs {} p .lonlat with e | r
  · refine ⟨fun w hw => (by cases hw), fun e' h' => ?_⟩
    simp only [error_bind] at h'
    exact Except.error.inj h' ▸ he e hr
  obtain ⟨x', hx, hx'⟩ := hl r hr
  have hq : q.elem idx = el2 Num.div (some x) (some (Num.cos x')) := by
    rw [e4, va]
    show el2 Num.div (some x) ((bcos lat).elem idx) = _
    rw [show (bcos lat).elem idx = el1 (fun x => .ok (Num.cos x)) (lat.elem idx) from rfl, hx']; rfl
  simp only [ok_bind, hx]
  rcases hdiv : Num.div x (Num.cos x') with e | y'
  · refine ⟨fun w hw => (by cases hw), fun e' h' => ?_⟩
    simp only [error_bind] at h'
    rw [div_real] at hdiv
    split at hdiv <;> first | (cases hdiv; exact (Except.error.inj h').symm) | cases hdiv
  · refine ⟨fun w hw => ?_, fun e' h' => (by cases h')⟩
    obtain rfl := Except.ok.inj hw
    rw [Vel.elem_iff]
    refine ⟨rfl, ?_⟩
    simp only [Vel.comps, map_cons, map_nil, vb, vc, hq]
    simp only [el2, hdiv]

/-- -> LonCosLat, element by element -/
theorem toLonCosLatB_elem {V W : Vel BArr} {P : Pos BArr} {s : List ℕ} (hV : VelShape V s) (hP : PosShape P s)
    (h : toLonCosLatB V P = .ok W) :
    W.kind = .lonCosLat ∧ (∀ a ∈ W.comps, BroadcastsTo a.shape s) ∧
    ∀ idx, InB s idx → ∀ v p, V.elem idx = some v → P.elem idx = some p →
      (∀ w, toLonCosLat v p = .ok w → W.elem idx = some w) ∧
      ∀ e, toLonCosLat v p = .error e → e = .nonFinite := by
  have hPf := posShape_fits hP
  have hs := velShape_iff.mp hV
  have ht := posShape_shape hP
  unfold toLonCosLatB at h
  obtain ⟨U, h0, ha⟩ := (bind_ok_iff _ _ _).mp h
  clear h
  -- the velocity as `LonLatSphericalVel`
  obtain ⟨hU, hU', hUe⟩ : U.kind = .lonlat ∧ (∀ a ∈ U.comps, BroadcastsTo a.shape s) ∧
      ∀ idx, InB s idx → ∀ v p, V.elem idx = some v → P.elem idx = some p →
        (∀ w, toLonLat v p = .ok w → U.elem idx = some w) ∧ ∀ e, toLonLat v p = .error e → e = .nonFinite := by
    unfold toLonLatB at h0
    by_cases hk' : V.kind = .lonlat
    · rw [if_pos hk'] at h0
      obtain rfl := Except.ok.inj h0
      refine ⟨hk', velShape_fits hV, fun idx hi v p hv hp => ?_⟩
      have : v.kind = .lonlat := (Vel.elem_iff.mp hv).1 ▸ hk'
      unfold toLonLat
      rw [if_pos this]
      exact ⟨fun w hw => Except.ok.inj hw ▸ hv, fun e he => by cases he⟩
    · rw [if_neg hk'] at h0
      have hvp : V.kind ≠ .prolate := fun e => genericB_prolate hs ht (posShape_focal hP) e h0
      obtain ⟨-, g2, g3, g4⟩ := genericB_elem hs ht (posShape_focalFit hP) (by decide) hvp h0
      refine ⟨g2, fun a ha => by rw [g3 a ha]; exact broadcastsTo_refl s, fun idx hi v p hv hp => ?_⟩
      have : v.kind ≠ .lonlat := (Vel.elem_iff.mp hv).1 ▸ hk'
      unfold toLonLat
      rw [if_neg this]
      exact g4 idx hi v p hv (by rw [unravel_ravel hi]; exact hp)
  cases U <;> first | (cases hU; done) | skip
  rename_i a b c
  simp only at ha
  obtain ⟨pv, h1, hb⟩ := (bind_ok_iff _ _ _).mp ha
  obtain ⟨lat, h2, hc⟩ := (bind_ok_iff _ _ _).mp hb
  obtain ⟨q, h3, hd⟩ := (bind_ok_iff _ _ _).mp hc
  obtain rfl := Except.ok.inj hd
  clear ha hb hc hd
  simp only [Vel.comps, mem_cons, not_mem_nil, or_false, forall_eq_or_imp, forall_eq] at hU'
  obtain ⟨fa, fb, fc⟩ := hU'
  have fl := cosLat_fits hPf h1 h2
  obtain ⟨q', e1, e2, e3, e4⟩ := Arr.map2_spec (f := el2 fun x y => .ok (x * y)) fa fl
  rw [show Arr.map2 (el2 fun x y => .ok (x * y)) a (bcos lat) = .ok q from h3] at e1
  obtain rfl := Except.ok.inj e1
  refine ⟨rfl, ?_, ?_⟩
  · simp only [Vel.comps, mem_cons, not_mem_nil, or_false, forall_eq_or_imp, forall_eq]
    exact ⟨e2, fb, fc⟩
  intro idx hi v p hv hp
  obtain ⟨-, hl, he⟩ := lat_elem hPf h1 h2 hi hp
  obtain ⟨hU1, hU2⟩ := hUe idx hi v p hv hp
  unfold toLonCosLat
  rcases hu : toLonLat v p with e | u
  · refine ⟨fun w hw => (by cases hw), fun e' h' => ?_⟩
    simp only [error_bind] at h'
    exact Except.error.inj h' ▸ hU2 e hu
  obtain ⟨k1, k2⟩ := Vel.elem_iff.mp (hU1 u hu)
  cases u <;> first | (cases k1; done) | skip
  rename_i x y z
  simp only [Vel.comps, map_cons, map_nil, cons.injEq, and_true] at k2
  obtain ⟨va, vb, vc⟩ := k2
  simp only [ok_bind]
  rcases hr : representAs {} p .lonlat with e | r
  · refine ⟨fun w hw => (by cases hw), fun e' h' => ?_⟩
    simp only [error_bind] at h'
    exact Except.error.inj h' ▸ he e hr
  obtain ⟨x', hx, hx'⟩ := hl r hr
  simp only [ok_bind, hx]
  refine ⟨fun w hw => ?_, fun e' h' => (by cases h')⟩
  obtain rfl := Except.ok.inj hw
  rw [Vel.elem_iff]
  refine ⟨rfl, ?_⟩
  simp only [Vel.comps, map_cons, map_nil, vb, vc, e4, va]
  rw [show (bcos lat).elem idx = el1 (fun x => .ok (Num.cos x)) (lat.elem idx) from rfl, hx']; rfl

/-! ### dispatch on arrays -/

theorem representVelB_generic {kw : Kw ℝ} {V : Vel BArr} {k : VKind} {P : Pos BArr}
    (hd : V.kind.dim = k.dim) (hs : ¬ (V.kind = k ∧ k.selfRule = true)) (h1 : V.kind ≠ .lonCosLat)
    (h2 : k ≠ .lonCosLat) : representVelB kw V k P = representVelGenericB kw V k P := by
  unfold representVelB
  rw [if_neg (not_not.mpr hd), if_neg hs]
  cases V <;> cases k <;> first | exact absurd rfl h1 | exact absurd rfl h2 | rfl

theorem representVelB_toLonCosLat {kw : Kw ℝ} {V : Vel BArr} {P : Pos BArr}
    (hd : V.kind.dim = VKind.lonCosLat.dim) (h1 : V.kind ≠ .lonCosLat) :
    representVelB kw V .lonCosLat P = toLonCosLatB V P := by
  unfold representVelB
  rw [if_neg (not_not.mpr hd), if_neg (fun e => h1 e.1)]
  cases V <;> first | exact absurd rfl h1 | rfl

theorem representVelB_fromLonCosLat {kw : Kw ℝ} {a b c : BArr} {k : VKind} {P : Pos BArr}
    (hd : k.dim = VKind.lonCosLat.dim) (h1 : k ≠ .lonCosLat) (h2 : k ≠ .lonlat) :
    representVelB kw (.lonCosLat a b c) k P =
      (lonCosLatToLonLatB a b c P >>= fun x => representVelGenericB {} x k P) := by
  unfold representVelB
  rw [if_neg (not_not.mpr (show (Vel.lonCosLat a b c).kind.dim = k.dim from hd.symm)),
    if_neg (fun e => h1 e.1.symm)]
  cases k <;> first | exact absurd rfl h1 | exact absurd rfl h2 | rfl

theorem representVelB_elem {kw : Kw ℝ} {V W : Vel BArr} {k : VKind} {P : Pos BArr} {s : List ℕ}
    (hV : VelShape V s) (hP : PosShape P s) (h : representVelB kw V k P = .ok W) :
    W.kind = k ∧ (∀ a ∈ W.comps, BroadcastsTo a.shape s) ∧
    ∀ idx, InB s idx → ∀ v p, V.elem idx = some v → P.elem idx = some p →
      (∀ w, representVel kw v k p = .ok w → W.elem idx = some w) ∧
      ∀ e, representVel kw v k p = .error e → e = .nonFinite := by
  have hs := velShape_iff.mp hV
  have ht := posShape_shape hP
  have hPf := posShape_fits hP
  have hd : V.kind.dim = k.dim := by
    by_contra hd; unfold representVelB at h; rw [if_pos hd] at h; cases h
  by_cases hself : V.kind = k ∧ k.selfRule = true
  · unfold representVelB at h
    rw [if_neg (not_not.mpr hd), if_pos hself] at h
    obtain rfl := Except.ok.inj h
    refine ⟨hself.1, velShape_fits hV, fun idx hi v p hv hp => ?_⟩
    have hk : V.kind = v.kind := (Vel.elem_iff.mp hv).1
    unfold representVel
    rw [← hk, if_neg (not_not.mpr hd), if_pos hself]
    exact ⟨fun w hw => Except.ok.inj hw ▸ hv, fun e he => by cases he⟩
  by_cases h2 : k = .lonCosLat
  · subst h2
    by_cases h1 : V.kind = .lonCosLat
    · exact absurd ⟨h1, rfl⟩ hself
    rw [representVelB_toLonCosLat hd h1] at h
    obtain ⟨g1, g2, g3⟩ := toLonCosLatB_elem hV hP h
    refine ⟨g1, g2, fun idx hi v p hv hp => ?_⟩
    have hk : V.kind = v.kind := (Vel.elem_iff.mp hv).1
    rw [representVel_toLonCosLat (hk ▸ hd) (hk ▸ h1)]
    exact g3 idx hi v p hv hp
  by_cases h1 : V.kind = .lonCosLat
  · cases V <;> first | (cases h1; done) | skip
    rename_i a b c
    by_cases h3 : k = .lonlat
    · subst h3
      obtain ⟨g1, g2, g3⟩ := lonCosLatB_elem hV hPf (show lonCosLatToLonLatB a b c P = .ok W from h)
      refine ⟨g1, velShape_fits g2, fun idx hi v p hv hp => ?_⟩
      have hk := (Vel.elem_iff.mp hv).1
      cases v <;> first | (cases hk; done) | skip
      exact g3 idx hi _ _ _ p hv hp
    · rw [representVelB_fromLonCosLat hd.symm h2 h3] at h
      obtain ⟨U, i1, i2⟩ := (bind_ok_iff _ _ _).mp h
      obtain ⟨g1, g2, g3⟩ := lonCosLatB_elem hV hPf i1
      obtain ⟨-, f2, f3, f4⟩ := genericB_elem (velShape_iff.mp g2) ht (posShape_focalFit hP) h2
        (by rw [g1]; decide) i2
      refine ⟨f2, fun a ha => by rw [f3 a ha]; exact broadcastsTo_refl s, fun idx hi v p hv hp => ?_⟩
      have hk := (Vel.elem_iff.mp hv).1
      cases v <;> first | (cases hk; done) | skip
      rename_i x y z
      rw [representVel_fromLonCosLat hd.symm h2 h3]
      obtain ⟨k1, k2⟩ := g3 idx hi x y z p hv hp
      rcases hu : lonCosLatToLonLat x y z p with e | u
      · refine ⟨fun w hw => (by cases hw), fun e' h' => ?_⟩
        simp only [error_bind] at h'
        exact Except.error.inj h' ▸ k2 e hu
      · rw [ok_bind]
        exact f4 idx hi u p (k1 u hu) (by rw [unravel_ravel hi]; exact hp)
  · rw [representVelB_generic hd hself h1 h2] at h
    have hvp : V.kind ≠ .prolate := fun e => genericB_prolate hs ht (posShape_focal hP) e h
    obtain ⟨-, g2, g3, g4⟩ := genericB_elem hs ht (posShape_focalFit hP) h2 hvp h
    refine ⟨g2, fun a ha => by rw [g3 a ha]; exact broadcastsTo_refl s, fun idx hi v p hv hp => ?_⟩
    have hk : V.kind = v.kind := (Vel.elem_iff.mp hv).1
    rw [representVel_generic (hk ▸ hd) (hk ▸ hself) (hk ▸ h1) h2]
    exact g4 idx hi v p hv (by rw [unravel_ravel hi]; exact hp)

/-- **C57 (elements).** Whenever `represent_as(vel, target, position)` returns for a velocity and a position of
the same batch shape, then the result has the target class and, at every batch index, its element is the
conversion of the velocity's element at the position's element, if that is finite; the scalar conversion does not
raise there (`nonFinite` is not raised). Only that element matters: others may be NaN. All classes, shapes,
ranks, mixtures of component shapes; keyword arguments are single numbers. -/
theorem C57_elementwise (kw : Kw ℝ) (V W : Vel BArr) (k : VKind) (P : Pos BArr) (s : List ℕ)
    (hV : VelShape V s) (hP : PosShape P s) (h : representVelB kw V k P = .ok W) :
    W.kind = k ∧ (∀ a ∈ velComps W, BroadcastsTo a.shape s) ∧
    ∀ idx, InB s idx → ∀ v p, velAt idx V = some v → posAt idx P = some p →
      (∀ w, representVel kw v k p = .ok w → velAt idx W = some w) ∧
      ∀ e, representVel kw v k p = .error e → e = .nonFinite := by
  obtain ⟨h1, h2, h3⟩ := representVelB_elem hV hP h
  refine ⟨h1, by rw [velComps_eq]; exact h2, fun idx hi v p hv hp => ?_⟩
  rw [velAt_eq (velShape_fits hV) hi] at hv
  rw [posAt_eq (posShape_fits hP) hi] at hp
  rw [velAt_eq h2 hi]
  exact h3 idx hi v p hv hp

/-! ### returning -/

theorem lat_total {P : Pos BArr} {s : List ℕ} (hP : ∀ a ∈ compsOf P, BroadcastsTo a.shape s) (h0 : 0 ∉ s)
    (h : ∀ idx, InB s idx → ∃ p q, P.elem idx = some p ∧ representAs {} p .lonlat = .ok q) :
    ∃ pv lat, representAsB {} P .lonlat = .ok pv ∧ pv.lat = .ok lat ∧ BroadcastsTo (bcos lat).shape s := by
  obtain ⟨pv, h1⟩ := C49_returns_if_shapes_fit {} P .lonlat s ⟨hP, fun a ha => by cases ha⟩ h0
    (by cases P <;> trivial) fun idx hi => by
      obtain ⟨p, q, e1, e2⟩ := h idx hi
      exact ⟨p, {}, q, (posAt_eq hP hi).trans e1, rfl, e2⟩
  have hk : pv.kind = .lonlat := representB_kind _ _ _ _ _ h1
  obtain ⟨lat, h2⟩ : ∃ lat, pv.lat = .ok lat := by
    cases pv <;> first | (cases hk; done) | exact ⟨_, rfl⟩
  exact ⟨pv, lat, h1, h2, cosLat_fits hP h1 h2⟩

theorem lonCosLat_steps {a b c : ℝ} {p : Pos ℝ} {w : Vel ℝ} (h : lonCosLatToLonLat a b c p = .ok w) :
    ∃ q, representAs {} p .lonlat = .ok q := by
  unfold lonCosLatToLonLat at h
  obtain ⟨q, h1, _⟩ := (bind_ok_iff _ _ _).mp h
  exact ⟨q, h1⟩

theorem toLonCosLat_steps {v : Vel ℝ} {p : Pos ℝ} {w : Vel ℝ} (h : toLonCosLat v p = .ok w) :
    (∃ u, toLonLat v p = .ok u) ∧ ∃ q, representAs {} p .lonlat = .ok q := by
  unfold toLonCosLat at h
  obtain ⟨u, h1, h2⟩ := (bind_ok_iff _ _ _).mp h
  cases u <;> first | (cases h2; done) | skip
  simp only at h2
  obtain ⟨q, h3, _⟩ := (bind_ok_iff _ _ _).mp h2
  exact ⟨⟨_, h1⟩, q, h3⟩

theorem lonCosLatB_total {a b c : BArr} {P : Pos BArr} {s : List ℕ} (fa : BroadcastsTo a.shape s)
    (hP : ∀ a ∈ compsOf P, BroadcastsTo a.shape s) (h0 : 0 ∉ s)
    (h : ∀ idx, InB s idx → ∃ p q, P.elem idx = some p ∧ representAs {} p .lonlat = .ok q) :
    ∃ W, lonCosLatToLonLatB a b c P = .ok W := by
  obtain ⟨pv, lat, h1, h2, h3⟩ := lat_total hP h0 h
  obtain ⟨q, e1, -⟩ := Arr.map2_spec (f := el2 Num.div) fa h3
  refine ⟨.lonlat q b c, ?_⟩
  unfold lonCosLatToLonLatB
  rw [h1, ok_bind, h2, ok_bind, show bdiv a (bcos lat) = .ok q from e1]; rfl

theorem representVelB_total {kw : Kw ℝ} {V : Vel BArr} {k : VKind} {P : Pos BArr} {s : List ℕ}
    (hV : VelShape V s) (hP : PosShape P s) (h0 : 0 ∉ s)
    (he : ∀ idx, InB s idx → ∃ v p w, V.elem idx = some v ∧ P.elem idx = some p ∧ Passes p ∧
      representVel kw v k p = .ok w) : ∃ W, representVelB kw V k P = .ok W := by
  have hs := velShape_iff.mp hV
  have ht := posShape_shape hP
  have hPf := posShape_fits hP
  obtain ⟨j0, hj0, _⟩ := exists_source_rev (s := []) (t := s) (j := []) trivial h0 .nil
  obtain ⟨v0, p0, w0, a1, a2, _, a4⟩ := he j0 hj0
  have hk0 : V.kind = v0.kind := (Vel.elem_iff.mp a1).1
  have hd : V.kind.dim = k.dim := by
    rw [hk0]
    by_contra hd; unfold representVel at a4; rw [if_pos hd] at a4; cases a4
  by_cases hself : V.kind = k ∧ k.selfRule = true
  · unfold representVelB
    rw [if_neg (not_not.mpr hd), if_pos hself]
    exact ⟨V, rfl⟩
  have gen : ∀ (kw' : Kw ℝ) (U : Vel BArr) (k' : VKind), VelShape U s →
      (∀ idx, InB s idx → ∃ v p w, U.elem idx = some v ∧ P.elem idx = some p ∧ Passes p ∧
        representVelGeneric kw' v k' p = .ok w) → ∃ W, representVelGenericB kw' U k' P = .ok W := by
    intro kw' U k' hU hU'
    refine genericB_total (velShape_iff.mp hU) ht (posShape_focalFit hP) rfl h0 fun idx hi => ?_
    obtain ⟨v, p, w, e1, e2, e3, e4⟩ := hU' idx hi
    exact ⟨v, p, w, e1, by rw [unravel_ravel hi]; exact e2, e3, e4⟩
  by_cases h2 : k = .lonCosLat
  · subst h2
    by_cases h1 : V.kind = .lonCosLat
    · exact absurd ⟨h1, rfl⟩ hself
    rw [representVelB_toLonCosLat hd h1]
    have he' : ∀ idx, InB s idx → ∃ v p, V.elem idx = some v ∧ P.elem idx = some p ∧ Passes p ∧
        (∃ u, toLonLat v p = .ok u) ∧ ∃ q, representAs {} p .lonlat = .ok q := by
      intro idx hi
      obtain ⟨v, p, w, e1, e2, e3, e4⟩ := he idx hi
      have hk : V.kind = v.kind := (Vel.elem_iff.mp e1).1
      rw [representVel_toLonCosLat (hk ▸ hd) (hk ▸ h1)] at e4
      exact ⟨v, p, e1, e2, e3, toLonCosLat_steps e4⟩
    obtain ⟨pv, lat, l1, l2, l3⟩ := lat_total hPf h0 fun idx hi => by
      obtain ⟨v, p, e1, e2, e3, e4, q, e5⟩ := he' idx hi
      exact ⟨p, q, e2, e5⟩
    obtain ⟨U, hU, hUk, hUf⟩ : ∃ U, toLonLatB V P = .ok U ∧ U.kind = .lonlat ∧
        ∀ a ∈ U.comps, BroadcastsTo a.shape s := by
      unfold toLonLatB
      by_cases hk' : V.kind = .lonlat
      · rw [if_pos hk']; exact ⟨V, rfl, hk', velShape_fits hV⟩
      · rw [if_neg hk']
        obtain ⟨U, hU⟩ := gen {} V .lonlat hV fun idx hi => by
          obtain ⟨v, p, e1, e2, e3, ⟨u, e4⟩, -⟩ := he' idx hi
          have hk : V.kind = v.kind := (Vel.elem_iff.mp e1).1
          unfold toLonLat at e4
          rw [if_neg (hk ▸ hk')] at e4
          exact ⟨v, p, u, e1, e2, e3, e4⟩
        have hvp : V.kind ≠ .prolate := fun e => genericB_prolate hs ht (posShape_focal hP) e hU
        obtain ⟨-, g2, g3, -⟩ := genericB_elem hs ht (posShape_focalFit hP) (by decide) hvp hU
        exact ⟨U, hU, g2, fun a ha => by rw [g3 a ha]; exact broadcastsTo_refl s⟩
    unfold toLonCosLatB
    rw [hU, ok_bind]
    cases U <;> first | (cases hUk; done) | skip
    rename_i a b c
    obtain ⟨q, e1, -⟩ := Arr.map2_spec (f := el2 fun x y => .ok (x * y)) (hUf a (by simp [Vel.comps])) l3
    refine ⟨.lonCosLat q b c, ?_⟩
    simp only
    rw [l1, ok_bind, l2, ok_bind, show bmul a (bcos lat) = .ok q from e1]; rfl
  by_cases h1 : V.kind = .lonCosLat
  · cases V <;> first | (cases h1; done) | skip
    rename_i a b c
    have fa : BroadcastsTo a.shape s := velShape_fits hV a (by simp [Vel.comps])
    by_cases h3 : k = .lonlat
    · subst h3
      refine lonCosLatB_total fa hPf h0 fun idx hi => ?_
      obtain ⟨v, p, w, e1, e2, e3, e4⟩ := he idx hi
      have hk := (Vel.elem_iff.mp e1).1
      cases v <;> first | (cases hk; done) | skip
      obtain ⟨q, hq⟩ := lonCosLat_steps e4
      exact ⟨p, q, e2, hq⟩
    · rw [representVelB_fromLonCosLat hd.symm h2 h3]
      have he' : ∀ idx, InB s idx → ∃ x y z p u w, Vel.elem idx (.lonCosLat a b c) = some (.lonCosLat x y z) ∧
          P.elem idx = some p ∧ Passes p ∧ lonCosLatToLonLat x y z p = .ok u ∧
          representVelGeneric {} u k p = .ok w := by
        intro idx hi
        obtain ⟨v, p, w, e1, e2, e3, e4⟩ := he idx hi
        have hk := (Vel.elem_iff.mp e1).1
        cases v <;> first | (cases hk; done) | skip
        rename_i x y z
        rw [representVel_fromLonCosLat hd.symm h2 h3] at e4
        obtain ⟨u, i1, i2⟩ := (bind_ok_iff _ _ _).mp e4
        exact ⟨x, y, z, p, u, w, e1, e2, e3, i1, i2⟩
      obtain ⟨U, hU⟩ := lonCosLatB_total (b := b) (c := c) fa hPf h0 fun idx hi => by
        obtain ⟨x, y, z, p, u, w, e1, e2, e3, e4, e5⟩ := he' idx hi
        obtain ⟨q, hq⟩ := lonCosLat_steps e4
        exact ⟨p, q, e2, hq⟩
      obtain ⟨g1, g2, g3⟩ := lonCosLatB_elem hV hPf hU
      rw [hU, ok_bind]
      refine gen {} U k g2 fun idx hi => ?_
      obtain ⟨x, y, z, p, u, w, e1, e2, e3, e4, e5⟩ := he' idx hi
      exact ⟨u, p, w, (g3 idx hi x y z p e1 e2).1 u e4, e2, e3, e5⟩
  · rw [representVelB_generic hd hself h1 h2]
    refine gen kw V k hV fun idx hi => ?_
    obtain ⟨v, p, w, e1, e2, e3, e4⟩ := he idx hi
    have hk : V.kind = v.kind := (Vel.elem_iff.mp e1).1
    rw [representVel_generic (hk ▸ hd) (hk ▸ hself) (hk ▸ h1) h2] at e4
    exact ⟨v, p, w, e1, e2, e3, e4⟩

/-- **C57 (returning).** If no axis is empty, all elements are finite, the positions are valid and the conversions
of all elements return, so does the conversion of the batch. -/
theorem C57_returns (kw : Kw ℝ) (V : Vel BArr) (k : VKind) (P : Pos BArr) (s : List ℕ)
    (hV : VelShape V s) (hP : PosShape P s) (h0 : 0 ∉ s)
    (hall : ∀ idx, InB s idx → ∃ v p w, velAt idx V = some v ∧ posAt idx P = some p ∧ Valid p ∧
      representVel kw v k p = .ok w) : ∃ W, representVelB kw V k P = .ok W :=
  representVelB_total hV hP h0 fun idx hi => by
    obtain ⟨v, p, w, e1, e2, e3, e4⟩ := hall idx hi
    rw [velAt_eq (velShape_fits hV) hi] at e1
    rw [posAt_eq (posShape_fits hP) hi] at e2
    exact ⟨v, p, w, e1, e2, Valid.passes e3, e4⟩

/-- **C57 (with C19).** A batch of velocities at a batch of valid positions, every pair of elements of which is a
case of C19, always converts, and every element of the result is the same physical velocity as the element of the
input. -/
theorem C57_velocity_preserved (kw : Kw ℝ) (V : Vel BArr) (k : VKind) (P : Pos BArr) (s : List ℕ)
    (hV : VelShape V s) (hP : PosShape P s) (h0 : 0 ∉ s)
    (hall : ∀ idx, InB s idx → ∃ v p, velAt idx V = some v ∧ posAt idx P = some p ∧ VelCase kw v k p) :
    ∃ W, representVelB kw V k P = .ok W ∧ W.kind = k ∧ ∀ idx, InB s idx →
      ∃ v p w, velAt idx V = some v ∧ posAt idx P = some p ∧ velAt idx W = some w ∧ w.kind = k ∧
        ∀ p' q, At kw v.kind (point p) p' → At kw k (point p) q → cartVel q w = cartVel p' v := by
  obtain ⟨W, hW⟩ := C57_returns kw V k P s hV hP h0 fun idx hi => by
    obtain ⟨v, p, e1, e2, e3⟩ := hall idx hi
    obtain ⟨w, hw, -⟩ := vel_ok e3
    exact ⟨v, p, w, e1, e2, e3.valid, hw⟩
  obtain ⟨g1, -, g3⟩ := C57_elementwise kw V W k P s hV hP hW
  refine ⟨W, hW, g1, fun idx hi => ?_⟩
  obtain ⟨v, p, e1, e2, e3⟩ := hall idx hi
  obtain ⟨w, hw, hw2, hw3⟩ := vel_ok e3
  exact ⟨v, p, w, e1, e2, (g3 idx hi v p e1 e2).1 w hw, hw2, hw3⟩

/-! ### positions of another shape -/

theorem neq_self {k k' : VKind} (h : k ≠ k') : ¬ (k = k' ∧ k'.selfRule = true) := fun e => h e.1

/-- **C57 (shapes that differ).** Between two classes neither of which is `LonCosLatSphericalVel`, a velocity of
shape `s` at a position of shape `t` converts only if both have the same number of elements, and then the elements
are paired in row-major order, whatever the shapes. -/
theorem C57_row_major_pairing (kw : Kw ℝ) (V W : Vel BArr) (k : VKind) (P : Pos BArr) (s t : List ℕ)
    (hV : VelShape V s) (hP : PosShape P t) (hk : V.kind ≠ k) (h1 : V.kind ≠ .lonCosLat) (h2 : k ≠ .lonCosLat)
    (h : representVelB kw V k P = .ok W) :
    t.prod = s.prod ∧ (∀ a ∈ velComps W, a.shape = s) ∧
    ∀ i j, InB s i → InB t j → ravelIdx s i = ravelIdx t j → ∀ v p, velAt i V = some v → posAt j P = some p →
      (∀ w, representVel kw v k p = .ok w → velAt i W = some w) ∧
      ∀ e, representVel kw v k p = .error e → e = .nonFinite := by
  have hs := velShape_iff.mp hV
  have ht := posShape_shape hP
  have hd : V.kind.dim = k.dim := by
    by_contra hd; unfold representVelB at h; rw [if_pos hd] at h; cases h
  rw [representVelB_generic hd (neq_self hk) h1 h2] at h
  have hvp : V.kind ≠ .prolate := fun e => genericB_prolate hs ht (posShape_focal hP) e h
  obtain ⟨g1, g2, g3, g4⟩ := genericB_elem hs ht (posShape_focalFit hP) h2 hvp h
  refine ⟨g1, by rw [velComps_eq]; exact g3, fun i j hi hj hij v p hv hp => ?_⟩
  rw [velAt_eq (velShape_fits hV) hi] at hv
  rw [posAt_eq (posShape_fits hP) hj] at hp
  rw [velAt_eq (fun a ha => by rw [g3 a ha]; exact broadcastsTo_refl s) hi]
  have hkv : V.kind = v.kind := (Vel.elem_iff.mp hv).1
  rw [representVel_generic (hkv ▸ hd) (hkv ▸ neq_self hk) (hkv ▸ h1) h2]
  exact g4 i hi v p hv (by rw [hij, unravel_ravel hj]; exact hp)

/-- **C57, exception.** A position with another number of elements is not broadcast against the
velocity: the conversion raises. In particular a batch of velocities at one position raises. -/
theorem C57_size_mismatch_raises (kw : Kw ℝ) (V W : Vel BArr) (k : VKind) (P : Pos BArr) (s t : List ℕ)
    (hV : VelShape V s) (hP : PosShape P t) (hk : V.kind ≠ k) (h1 : V.kind ≠ .lonCosLat) (h2 : k ≠ .lonCosLat)
    (hst : t.prod ≠ s.prod) : representVelB kw V k P ≠ .ok W :=
  fun h => hst (C57_row_major_pairing kw V W k P s t hV hP hk h1 h2 h).1

namespace Spec

/-- the position has fewer dimensions than the velocity, in classes for which the conversion of the position adds
components that are single numbers -/
def AddsScalars (p : Kind) (v : VKind) : Prop :=
  (p.dim = 1 ∧ (v = .cart2 ∨ v = .polar ∨ v = .cart3 ∨ v = .cyl)) ∨
  (p = .cart2 ∧ (v = .cart3 ∨ v = .cyl)) ∨
  (p = .polar ∧ (v = .cart3 ∨ v = .cyl ∨ v = .sph ∨ v = .math))

end Spec

theorem addsScalars {p : Kind} {v : VKind} (h : AddsScalars p v) : p.leavesRank0 v.integral = true := by
  unfold AddsScalars at h
  cases p <;> cases v <;> first | rfl | (exfalso; revert h; simp [Kind.dim]; done)

/-- **C57 (position of fewer dimensions).** Single or batched, a velocity of these classes at a position of these
classes of fewer dimensions does not convert to any other class. -/
theorem C57_fewer_dimensions_raises (kw : Kw ℝ) (V W : Vel BArr) (k : VKind) (P : Pos BArr) (s t : List ℕ)
    (hV : VelShape V s) (hP : PosShape P t) (hk : V.kind ≠ k) (h2 : k ≠ .lonCosLat)
    (h : AddsScalars P.kind V.kind) : representVelB kw V k P ≠ .ok W := by
  intro hr
  have h1 : V.kind ≠ .lonCosLat := by
    intro e; rw [e] at h; simp [AddsScalars] at h
  have hd : V.kind.dim = k.dim := by
    by_contra hd; unfold representVelB at hr; rw [if_pos hd] at hr; cases hr
  rw [representVelB_generic hd (neq_self hk) h1 h2] at hr
  obtain ⟨-, c0, cp, l, g0, g1, g2, -⟩ := genericB_inv (velShape_iff.mp hV) (posShape_shape hP) hr
  have hne := addsScalars h
  rw [← Pos.mapCoords_kind (Arr.reshaped t [t.prod]) P] at hne
  have r0 := representB_rank0 (rank0_kwSh kw) (flat_allSh P t [t.prod]) hne
    (show representB pyDepth kw.rank0 _ _ = .ok c0 from g0)
  exact vmapOk_rank0 (castDistanceB_rank0 g1 r0) (vmapOk_iff.mpr g2)

/-! ### accelerations -/

theorem accB_inv {kw : Kw ℝ} {A W : Acc BArr} {k : VKind} {V : Vel BArr} {P : Pos BArr} {s t u : List ℕ}
    (hs : A.shapeB = .ok s) (hu : V.shapeB = .ok u) (ht : P.shapeB = .ok t)
    (h : representAccGenericB kw A k V P = .ok W) :
    t.prod = s.prod ∧ u.prod = s.prod ∧ A.kind ≠ .prolate ∧ k ≠ .prolate ∧ ∃ c0 cp U l,
      representAsB kw.rank0 (P.mapCoords (Arr.reshaped t [t.prod])) A.kind.integral = .ok c0 ∧
      c0.castDistanceB = .ok cp ∧ (∀ a ∈ cp.leaves, a.shape = [t.prod]) ∧
      representVelB kw (V.map (Arr.reshaped u [t.prod])) A.kind cp = .ok U ∧ l.length = t.prod ∧
      (∀ i (hi : i < l.length), velElem {} k.integral (cp.elem [i]) (A.elem (unravelIdx s i)) = .ok l[i]) ∧
      W = (velOfElems k l).map (Arr.reshaped [t.prod] s) := by
  unfold representAccGenericB at h
  rw [hs, ok_bind] at h
  obtain ⟨P1, hP1, ha⟩ := (bind_ok_iff _ _ _).mp h
  obtain ⟨V1, hV1, hb⟩ := (bind_ok_iff _ _ _).mp ha
  obtain ⟨c0, h0, hc⟩ := (bind_ok_iff _ _ _).mp hb
  obtain ⟨cp, h1, hd⟩ := (bind_ok_iff _ _ _).mp hc
  obtain ⟨U, hU, he⟩ := (bind_ok_iff _ _ _).mp hd
  obtain ⟨⟨⟩, h2, hf⟩ := (bind_ok_iff _ _ _).mp he
  clear h ha hb hc hd he
  obtain ⟨e1, rfl⟩ := reshapeB_inv ht hP1
  have e : t.prod = s.prod := by simpa using e1.symm
  rw [Vel.reshapeB_eq hu] at hV1
  split at hV1
  case isFalse => cases hV1
  rename_i e2
  obtain rfl := Except.ok.inj hV1
  have e2 : u.prod = s.prod := by simpa using e2.symm
  split at hf
  case isTrue => cases hf
  rename_i hpro
  push Not at hpro
  obtain ⟨F, hF, hg⟩ := (bind_ok_iff _ _ _).mp hf
  obtain ⟨l, hl, hh⟩ := (bind_ok_iff _ _ _).mp hg
  clear hf hg
  rw [Vel.reshapeB_eq hs, if_pos (by simp)] at hF
  obtain rfl := Except.ok.inj hF
  obtain ⟨hl1, hl2⟩ := mapM_range hl
  rw [Vel.reshapeB_eq (velOfElems_shape k l), if_pos (by simp [hl1])] at hh
  obtain rfl := Except.ok.inj hh
  rw [e]
  refine ⟨rfl, e2, hpro.1, hpro.2, c0, cp, U, l, h0, h1, vmapOk_iff.mp h2, hU, hl1, fun i hi => ?_, by rw [hl1]⟩
  rw [← hl2 i hi, Pos.elemO_eq]
  congr 1
  exact (Vel.map_elem fun a _ => by rw [reshaped_elem a (inB_flat (hl1 ▸ hi)), ravel_flat]).symm

theorem flatVel_shape (V : Vel BArr) (u : List ℕ) (n : ℕ) : VelShape (V.map (Arr.reshaped u [n])) [n] := by
  rw [velShape_iff]
  unfold Vel.shapeB
  rw [broadcastShapes_iff]
  have hall : ∀ x ∈ ((V.map (Arr.reshaped u [n])).comps).map Arr.shape, x = [n] := by
    intro x hx
    rw [Vel.map_comps, map_map] at hx
    obtain ⟨a, _, rfl⟩ := mem_map.mp hx
    rfl
  have hne : ∃ x, x ∈ ((V.map (Arr.reshaped u [n])).comps).map Arr.shape := by
    cases V <;> exact ⟨_, by simp only [Vel.map, Vel.comps, map_cons]; exact mem_cons_self⟩
  refine ⟨fun x hx => by rw [hall x hx]; exact broadcastsTo_refl _, fun y hy => ?_⟩
  obtain ⟨x, hx⟩ := hne
  have := hy x hx
  rw [hall x hx] at this
  exact this

theorem flatPos_shape {C : Pos BArr} {n : ℕ} (h : ∀ a ∈ C.leaves, a.shape = [n]) (hp : C.kind ≠ .prolate) :
    PosShape C [n] := by
  refine ⟨?_, fun mu nu phi d e => by subst e; exact absurd rfl hp⟩
  rw [coordsOf_eq]
  have hall : ∀ x ∈ C.coords.map Arr.shape, x = [n] := by
    intro x hx
    obtain ⟨a, ha, rfl⟩ := mem_map.mp hx
    exact h a (by rw [Pos.leaves_eq]; simp [ha])
  have hne : ∃ x, x ∈ C.coords.map Arr.shape := by
    cases C <;> exact ⟨_, by simp only [Pos.coords, map_cons]; exact mem_cons_self⟩
  refine ⟨fun x hx => by rw [hall x hx]; exact broadcastsTo_refl _, fun y hy => ?_⟩
  obtain ⟨x, hx⟩ := hne
  have := hy x hx
  rw [hall x hx] at this
  exact this

theorem integral_prolate {k : VKind} (h : k ≠ .prolate) : k.integral ≠ .prolate := by
  revert h; cases k <;> simp [VKind.integral]

/-- the generic rule for accelerations, element by element -/
theorem accB_elem {kw : Kw ℝ} {A W : Acc BArr} {k : VKind} {V : Vel BArr} {P : Pos BArr} {s t u : List ℕ}
    (hs : A.shapeB = .ok s) (hu : V.shapeB = .ok u) (ht : P.shapeB = .ok t) (hd : FocalFit t P)
    (hk : k ≠ .lonCosLat) (h : representAccGenericB kw A k V P = .ok W) :
    t.prod = s.prod ∧ u.prod = s.prod ∧ W.kind = k ∧ (∀ a ∈ W.comps, a.shape = s) ∧
    ∀ idx, InB s idx → ∀ a v p, A.elem idx = some a → V.elem (unravelIdx u (ravelIdx s idx)) = some v →
      P.elem (unravelIdx t (ravelIdx s idx)) = some p →
      (∀ w, representAccGeneric kw a k v p = .ok w → W.elem idx = some w) ∧
      ∀ e, representAccGeneric kw a k v p = .error e → e = .nonFinite := by
  obtain ⟨e, e', hA, hkp, c0, cp, U, l, h0, h1, h2, hU, h3, h4, rfl⟩ := accB_inv hs hu ht h
  refine ⟨e, e', velOfElems_map_kind _ _ _, ?_, ?_⟩
  · intro a ha
    rw [Vel.map_comps] at ha
    obtain ⟨b, _, rfl⟩ := mem_map.mp ha
    rfl
  intro idx hi a v p ha hv hp
  have hlt : ravelIdx s idx < t.prod := by rw [e]; exact ravel_lt hi
  have hll : ravelIdx s idx < l.length := by rw [h3]; exact hlt
  have hce := cp_elem hd hlt hp h0 h1
  have hve := h4 _ hll
  rw [unravel_ravel hi, ha] at hve
  have hak : a.kind = A.kind := (Vel.elem_iff.mp ha).1.symm
  have hck : cp.kind = A.kind.integral := by
    rw [castDistanceB_kind h1]; exact representB_kind _ _ _ _ _ h0
  have hcpro : cp.kind ≠ .prolate := by rw [hck]; exact integral_prolate hA
  have hlr : p.kind.leavesRank0 a.kind.integral = false := by
    by_contra hne
    have hne : p.kind.leavesRank0 a.kind.integral = true := by simpa using hne
    have hpk : p.kind = (P.mapCoords (Arr.reshaped t [t.prod])).kind := by
      rw [Pos.mapCoords_kind]; exact elem_kind hp
    rw [hak, hpk] at hne
    have r0 := representB_rank0 (rank0_kwSh kw) (flat_allSh P t [t.prod]) hne
      (show representB pyDepth kw.rank0 _ _ = .ok c0 from h0)
    exact vmapOk_rank0 (castDistanceB_rank0 h1 r0) (vmapOk_iff.mpr h2)
  have hWe : ∀ w, l[ravelIdx s idx] = some w → w.kind = k →
      ((velOfElems k l).map (Arr.reshaped [t.prod] s)).elem idx = some w := by
    intro w hw hwk
    rw [← velOfElems_elem hll hw hwk]
    exact Vel.map_elem fun a _ => by rw [reshaped_elem a hi, unravel_flat]
  unfold representAccGeneric
  rw [hak]
  rw [hak] at hlr
  rcases hA' : representAs kw p A.kind.integral with e' | c
  · rw [hA'] at hce
    exact ⟨fun w hw => (by cases hw), fun e'' he => by
      simp only [error_bind] at he hce; exact Except.error.inj he ▸ hce.2 e' rfl⟩
  rcases hB : c.castDistance with e' | q
  · simp only [hA', ok_bind, hB] at hce
    simp only [ok_bind, hB, error_bind]
    exact ⟨fun w hw => (by cases hw), fun e'' he => Except.error.inj he ▸ hce.2 e' rfl⟩
  simp only [hA', ok_bind, hB] at hce
  have hq := hce.1 q rfl
  have hqk : q.kind = A.kind.integral := by rw [castDistance_kind hB, representAs_kind hA']
  have hg : ¬ (q.kind = .prolate ∨ p.kind.leavesRank0 A.kind.integral = true) := by
    rw [hqk, hlr]
    rintro (h | h)
    · exact integral_prolate hA h
    · cases h
  -- the velocity
  have hVe : (V.map (Arr.reshaped u [t.prod])).elem [ravelIdx s idx] = some v := by
    rw [Vel.map_elem (j := unravelIdx u (ravelIdx s idx))
      fun a _ => by rw [reshaped_elem a (inB_flat hlt), ravel_flat], hv]
  obtain ⟨-, -, hUe⟩ := representVelB_elem (flatVel_shape V u t.prod) (flatPos_shape h2 hcpro) hU
  obtain ⟨-, hUe⟩ := hUe [ravelIdx s idx] (inB_flat hlt) v q hVe hq
  simp only [ok_bind, hB]
  rcases hV' : representVel kw v A.kind q with e' | uu
  · refine ⟨fun w hw => (by cases hw), fun e'' he => ?_⟩
    simp only [error_bind] at he
    exact Except.error.inj he ▸ hUe e' hV'
  simp only [ok_bind, if_neg hg]
  rw [hq] at hve
  simp only [velElem] at hve
  rcases hJ : jacobian {} q k.integral with e' | J
  · rw [hJ] at hve
    refine ⟨fun w hw => (by cases hw), fun e'' he => ?_⟩
    cases e' <;> first | exact (Except.error.inj he).symm | cases hve
  · rw [hJ] at hve
    simp only at hve
    show (∀ w, contract J a.comps = .ok w → _) ∧ ∀ e, contract J a.comps = .error e → _
    rcases hC : contract J a.comps with e' | w
    · rw [hC] at hve; cases hve
    · rw [hC] at hve
      refine ⟨fun w' hw => ?_, fun e'' he => (by cases he)⟩
      obtain rfl := Except.ok.inj hw
      obtain ⟨h5, c1, h6, _⟩ := jacobian_col hJ
      exact hWe w (Except.ok.inj hve).symm
        (by rw [← contract_kind _ _ hC c1 h6, h5 c1 h6, kind_vel_integral hk])

/-- **C57 (accelerations).** Whenever `represent_as(acc, target, velocity, position)` returns for an acceleration,
a velocity and a position of the same batch shape, then at every batch index the element of the result is the
conversion of the elements, if that is finite; the scalar conversion does not raise there. -/
theorem C57_acceleration_elementwise (kw : Kw ℝ) (A W : Acc BArr) (k : VKind) (V : Vel BArr) (P : Pos BArr)
    (s : List ℕ) (hA : VelShape A s) (hV : VelShape V s) (hP : PosShape P s)
    (h : representAccB kw A k V P = .ok W) :
    W.kind = k ∧ (∀ a ∈ velComps W, BroadcastsTo a.shape s) ∧
    ∀ idx, InB s idx → ∀ a v p, velAt idx A = some a → velAt idx V = some v → posAt idx P = some p →
      (∀ w, representAcc kw a k v p = .ok w → velAt idx W = some w) ∧
      ∀ e, representAcc kw a k v p = .error e → e = .nonFinite := by
  unfold representAccB at h
  split at h
  case isTrue => cases h
  rename_i h1
  split at h
  case isTrue h2 =>
    obtain rfl := Except.ok.inj h
    refine ⟨h2.1, by rw [velComps_eq]; exact velShape_fits hA, fun idx hi a v p ha hv hp => ?_⟩
    have hk : A.kind = a.kind := (Vel.elem_iff.mp ((velAt_eq (velShape_fits hA) hi).symm.trans ha)).1
    unfold representAcc
    rw [← hk, if_neg h1, if_pos h2]
    exact ⟨fun w hw => Except.ok.inj hw ▸ ha, fun e he => by cases he⟩
  case isFalse h2 =>
    push Not at h1
    obtain ⟨-, -, g2, g3, g4⟩ := accB_elem (velShape_iff.mp hA) (velShape_iff.mp hV) (posShape_shape hP)
      (posShape_focalFit hP) h1.2.2 h
    refine ⟨g2, by rw [velComps_eq]; exact fun a ha => by rw [g3 a ha]; exact broadcastsTo_refl s,
      fun idx hi a v p ha hv hp => ?_⟩
    rw [velAt_eq (velShape_fits hA) hi] at ha
    rw [velAt_eq (velShape_fits hV) hi] at hv
    rw [posAt_eq (posShape_fits hP) hi] at hp
    rw [velAt_eq (fun a ha => by rw [g3 a ha]; exact broadcastsTo_refl s) hi]
    have hk : A.kind = a.kind := (Vel.elem_iff.mp ha).1
    unfold representAcc
    rw [← hk, if_neg (by push Not; exact h1), if_neg h2]
    exact g4 idx hi a v p ha (by rw [unravel_ravel hi]; exact hv) (by rw [unravel_ravel hi]; exact hp)

theorem castDistance_passes {c q : Pos ℝ} (h : Valid c) (hq : c.castDistance = .ok q) : Passes q := by
  cases c <;> simp only [Pos.castDistance] at hq
  case radial =>
    obtain ⟨d, -, hq⟩ := (bind_ok_iff _ _ _).mp hq
    obtain ⟨g, rfl⟩ := mkRadial_iff.mp hq; exact g
  case polar =>
    obtain ⟨d, -, hq⟩ := (bind_ok_iff _ _ _).mp hq
    obtain ⟨g, rfl⟩ := mkPolar_iff.mp hq; exact g
  case sph =>
    obtain ⟨d, -, hq⟩ := (bind_ok_iff _ _ _).mp hq
    obtain ⟨g, g', rfl⟩ := mkSph_iff.mp hq; exact ⟨g, g'⟩
  case lonlat =>
    obtain ⟨d, -, hq⟩ := (bind_ok_iff _ _ _).mp hq
    obtain ⟨g, g', rfl⟩ := mkLonLat_iff.mp hq; exact ⟨g', g⟩
  case math =>
    obtain ⟨d, -, hq⟩ := (bind_ok_iff _ _ _).mp hq
    obtain ⟨g, g', rfl⟩ := mkMath_iff.mp hq; exact ⟨g, g'⟩
  all_goals
    obtain rfl := Except.ok.inj hq
    exact Valid.passes h

theorem acc_steps {kw : Kw ℝ} {a w v : Vel ℝ} {k : VKind} {p : Pos ℝ} (h : representAccGeneric kw a k v p = .ok w) :
    p.kind.leavesRank0 a.kind.integral = false ∧ a.kind.integral ≠ .prolate ∧
    ∃ c q u J, representAs kw p a.kind.integral = .ok c ∧ c.castDistance = .ok q ∧
      representVel kw v a.kind q = .ok u ∧ jacobian {} q k.integral = .ok J ∧ contract J a.comps = .ok w := by
  unfold representAccGeneric at h
  obtain ⟨c, h1, h⟩ := (bind_ok_iff _ _ _).mp h
  obtain ⟨q, h2, h⟩ := (bind_ok_iff _ _ _).mp h
  obtain ⟨u, hu, h⟩ := (bind_ok_iff _ _ _).mp h
  by_cases hp : q.kind = .prolate ∨ p.kind.leavesRank0 a.kind.integral = true
  · rw [if_pos hp] at h; cases h
  rw [if_neg hp] at h
  obtain ⟨J, h3, h⟩ := (bind_ok_iff _ _ _).mp h
  have hqk : q.kind = a.kind.integral := by rw [castDistance_kind h2, representAs_kind h1]
  rw [hqk] at hp
  push Not at hp
  exact ⟨by simpa using hp.2, hp.1, c, q, u, J, h1, h2, hu, h3, h⟩

theorem accB_total {kw : Kw ℝ} {A : Acc BArr} {k : VKind} {V : Vel BArr} {P : Pos BArr} {s : List ℕ}
    (hA : VelShape A s) (hV : VelShape V s) (hP : PosShape P s) (h0 : 0 ∉ s) (hk : k ≠ .prolate)
    (he : ∀ idx, InB s idx → ∃ a v p w, A.elem idx = some a ∧ V.elem idx = some v ∧ P.elem idx = some p ∧
      Valid p ∧ representAccGeneric kw a k v p = .ok w) : ∃ W, representAccGenericB kw A k V P = .ok W := by
  have hs := velShape_iff.mp hA
  have hu := velShape_iff.mp hV
  have ht := posShape_shape hP
  have hd := posShape_focalFit hP
  obtain ⟨j0, hj0, _⟩ := exists_source_rev (s := []) (t := s) (j := []) trivial h0 .nil
  obtain ⟨a0, v0, p0, w0, a1, _, a2, _, a4⟩ := he j0 hj0
  obtain ⟨b1, b2, _⟩ := acc_steps a4
  have hv0 : a0.kind = A.kind := (Vel.elem_iff.mp a1).1.symm
  rw [elem_kind a2, hv0] at b1
  rw [hv0] at b2
  have hAp : A.kind ≠ .prolate := fun e => b2 (by rw [e]; rfl)
  have k1 := reshapeB_total ht hd h0 fun j hj => by
    obtain ⟨_, _, p, _, _, _, h2, h3, _⟩ := he j hj; exact ⟨p, h2, Valid.passes h3⟩
  obtain ⟨c0, cp, h1, h2, h3⟩ := cp_total (kw := kw) hd h0 b2 b1 fun j hj => by
    obtain ⟨a, v, p, w, e1, _, e2, _, e4⟩ := he j hj
    obtain ⟨_, _, c, q, _, _, hc, hq, _⟩ := acc_steps e4
    rw [(Vel.elem_iff.mp e1).1.symm] at hc
    exact ⟨p, q, e2, by rw [hc, ok_bind, hq]⟩
  have hck : cp.kind ≠ .prolate := by
    rw [castDistanceB_kind h2, show c0.kind = _ from representB_kind _ _ _ _ _ h1]; exact b2
  have el : ∀ i, i < s.prod → ∃ a v q u J w, A.elem (unravelIdx s i) = some a ∧ V.elem (unravelIdx s i) = some v ∧
      cp.elem [i] = some q ∧ Passes q ∧ representVel kw v A.kind q = .ok u ∧
      jacobian {} q k.integral = .ok J ∧ contract J a.comps = .ok w := by
    intro i hi
    obtain ⟨a, v, p, w, e1, e2, e3, e4, e5⟩ := he _ (unravel_inB hi)
    obtain ⟨_, _, c, q, u, J, hc, hq, hr, hJ, hC⟩ := acc_steps e5
    rw [(Vel.elem_iff.mp e1).1.symm] at hc hr
    have hce := (cp_elem hd hi e3 h1 h2).1 q (by rw [hc, ok_bind, hq])
    exact ⟨a, v, q, u, J, w, e1, e2, hce, castDistance_passes (represent_wf _ _ _ _ _ e4 hc).valid hq, hr, hJ, hC⟩
  have hpos : 0 ∉ [s.prod] := by
    simp only [mem_singleton]
    intro h
    exact h0 (prod_eq_zero_iff.mp h.symm)
  obtain ⟨U, hU⟩ := representVelB_total (kw := kw) (k := A.kind) (flatVel_shape V s s.prod)
    (flatPos_shape (vmapOk_iff.mp h3) hck) hpos fun idx hi => by
      cases hi with
      | @cons i _ l _ hi hl =>
        cases hl
        obtain ⟨a, v, q, u, J, w, e1, e2, e3, e4, e5, e6, e7⟩ := el i hi
        refine ⟨v, q, u, ?_, e3, e4, e5⟩
        rw [Vel.map_elem (j := unravelIdx s i)
          fun a _ => by rw [reshaped_elem a (inB_flat hi), ravel_flat], e2]
  obtain ⟨l, hl⟩ : ∃ l, (List.range s.prod).mapM (fun i => velElem {} k.integral (cp.elemO [i])
      ((A.map (Arr.reshaped s [s.prod])).elem [i])) = .ok l := by
    refine mapM_total fun i hi => ?_
    have hi : i < s.prod := by simpa using hi
    obtain ⟨a, v, q, u, J, w, e1, e2, e3, e4, e5, e6, e7⟩ := el i hi
    rw [Pos.elemO_eq, e3, Vel.map_elem (j := unravelIdx s i)
      fun a _ => by rw [reshaped_elem a (inB_flat hi), ravel_flat], e1]
    exact ⟨some w, by simp only [velElem, e6, e7]; rfl⟩
  obtain ⟨hl1, -⟩ := mapM_range hl
  unfold representAccGenericB
  rw [hs, ok_bind, k1, ok_bind, Vel.reshapeB_eq hu, if_pos (by simp), ok_bind, h1, ok_bind, h2, ok_bind, hU,
    ok_bind, h3, ok_bind, if_neg (not_or.mpr ⟨hAp, hk⟩), Vel.reshapeB_eq hs,
    if_pos (by simp), ok_bind, hl, ok_bind, Vel.reshapeB_eq (velOfElems_shape k l), if_pos (by simp [hl1])]
  exact ⟨_, rfl⟩

/-- **C57 (accelerations, returning).** If no axis is empty, all elements are finite, the positions are valid and
the conversions of all elements return, so does the conversion of the batch. -/
theorem C57_acceleration_returns (kw : Kw ℝ) (A : Acc BArr) (k : VKind) (V : Vel BArr) (P : Pos BArr)
    (s : List ℕ) (hA : VelShape A s) (hV : VelShape V s) (hP : PosShape P s) (h0 : 0 ∉ s)
    (hall : ∀ idx, InB s idx → ∃ a v p w, velAt idx A = some a ∧ velAt idx V = some v ∧ posAt idx P = some p ∧
      Valid p ∧ representAcc kw a k v p = .ok w) : ∃ W, representAccB kw A k V P = .ok W := by
  obtain ⟨j0, hj0, _⟩ := exists_source_rev (s := []) (t := s) (j := []) trivial h0 .nil
  have hall : ∀ idx, InB s idx → ∃ a v p w, A.elem idx = some a ∧ V.elem idx = some v ∧ P.elem idx = some p ∧
      Valid p ∧ representAcc kw a k v p = .ok w := by
    intro idx hi
    obtain ⟨a, v, p, w, e1, e2, e3, e4, e5⟩ := hall idx hi
    rw [velAt_eq (velShape_fits hA) hi] at e1
    rw [velAt_eq (velShape_fits hV) hi] at e2
    rw [posAt_eq (posShape_fits hP) hi] at e3
    exact ⟨a, v, p, w, e1, e2, e3, e4, e5⟩
  obtain ⟨a0, v0, p0, w0, a1, a2, a3, _, a4⟩ := hall j0 hj0
  have hk0 : A.kind = a0.kind := (Vel.elem_iff.mp a1).1
  have hkp : k ≠ .prolate := fun e => C24_prolate_raises kw a0 v0 w0 k p0 (.inr e) a4
  have h1 : ¬ (A.kind.dim ≠ k.dim ∨ A.kind = .lonCosLat ∨ k = .lonCosLat) := by
    intro h1
    unfold representAcc at a4
    rw [if_pos (hk0 ▸ h1)] at a4
    cases a4
  unfold representAccB
  rw [if_neg h1]
  by_cases h2 : A.kind = k ∧ k.dim = 1
  · rw [if_pos h2]; exact ⟨A, rfl⟩
  · rw [if_neg h2]
    refine accB_total hA hV hP h0 hkp fun idx hi => ?_
    obtain ⟨a, v, p, w, e1, e2, e3, e4, e5⟩ := hall idx hi
    have hk : A.kind = a.kind := (Vel.elem_iff.mp e1).1
    unfold representAcc at e5
    rw [if_neg (hk ▸ h1), if_neg (hk ▸ h2)] at e5
    exact ⟨a, v, p, w, e1, e2, e3, e4, e5⟩

/-! ### row-major order -/

/-- **C43 (row-major order).** The order in which `reshape` and `flatten` read an array: position and index
determine each other, and positions increase with the lexicographic order of the indices. -/
theorem C43_row_major (s : List ℕ) :
    (∀ i, InB s i → ravelIdx s i < s.prod) ∧ (∀ n, n < s.prod → ∃! i, InB s i ∧ ravelIdx s i = n) ∧
    ∀ i j, InB s i → InB s j → (ravelIdx s i < ravelIdx s j ↔ List.Lex (· < ·) i j) := by
  refine ⟨fun i hi => ravel_lt hi, fun n hn => ⟨unravelIdx s n, ⟨unravel_inB hn, ravel_unravel hn⟩, ?_⟩, ?_⟩
  · rintro j ⟨hj, e⟩
    rw [← e, unravel_ravel hj]
  · have fwd : ∀ s i j, InB s i → InB s j → List.Lex (· < ·) i j → ravelIdx s i < ravelIdx s j := by
      intro s
      induction s with
      | nil => intro i j hi hj h; cases hi; cases hj; cases h
      | cons n s ih =>
        intro i j hi hj h
        cases hi with
        | @cons a _ i _ ha hi =>
          cases hj with
          | @cons b _ j _ hb hj =>
            simp only [ravelIdx]
            cases h with
            | rel h =>
              have h1 : ravelIdx s i < s.prod := ravel_lt hi
              have h2 : (a + 1) * s.prod ≤ b * s.prod := Nat.mul_le_mul_right _ h
              rw [Nat.add_mul] at h2
              omega
            | cons h => have := ih i j hi hj h; omega
    have bwd : ∀ s i j, InB s i → InB s j → ravelIdx s i < ravelIdx s j → List.Lex (· < ·) i j := by
      intro s
      induction s with
      | nil => intro i j hi hj h; cases hi; cases hj; exact absurd h (lt_irrefl _)
      | cons n s ih =>
        intro i j hi hj h
        cases hi with
        | @cons a _ i _ ha hi =>
          cases hj with
          | @cons b _ j _ hb hj =>
            rcases lt_trichotomy a b with hab | hab | hab
            · exact .rel hab
            · subst hab
              simp only [ravelIdx] at h
              exact .cons (ih i j hi hj (by omega))
            · exact absurd (fwd (n :: s) (b :: j) (a :: i) (.cons hb hj) (.cons ha hi) (.rel hab)) (by omega)
    exact fun i j hi hj => ⟨bwd s i j hi hj, fwd s i j hi hj⟩

/-! ### instances -/

/-- a batch of shape (2, 3), one component varying along each axis, at a batch of positions of the same shape -/
example : VelShape (.sph ⟨[2, 1], fun _ => some 1⟩ ⟨[3], fun i => some (i.sum : ℝ)⟩ (.scalar (some 3))) [2, 3] := by
  rw [velShape_iff]; rfl

example : PosShape (.cyl ⟨[2, 1], fun _ => some 2⟩ ⟨[3], fun i => some (i.sum : ℝ)⟩ (.scalar (some 1))) [2, 3] :=
  ⟨by rw [← broadcastShapes_iff]; rfl, fun _ _ _ _ h => by cases h⟩

/-- C57 applies: all six conversions return -/
theorem instance_cyl (s t : List ℕ) (h0 : 0 ∉ s) (hst : t.prod = s.prod) :
    ∃ W, representVelB {} (.sph ⟨s, fun _ => some 1⟩ ⟨s, fun i => some (ravelIdx s i : ℝ)⟩ ⟨s, fun _ => some 3⟩)
      .cart3 (.cyl ⟨t, fun _ => some 2⟩ ⟨t, fun i => some (ravelIdx t i : ℝ)⟩ ⟨t, fun _ => some 1⟩) = .ok W := by
  have sh3 : ∀ u : List ℕ, broadcastShapes [u, u, u] = .ok u := fun u => by
    rw [broadcastShapes_iff]
    exact ⟨by simp [broadcastsTo_refl], fun v hv => hv u (by simp)⟩
  have e : ∀ a b c P, representVelB {} (.sph a b c) .cart3 P = representVelGenericB {} (.sph a b c) .cart3 P :=
    fun a b c P => representVelB_generic (V := .sph a b c) rfl (fun e => by cases e.1) nofun (by decide)
  rw [e]
  refine genericB_total (t := t) (s := s) (sh3 s) (sh3 t) (fun d hd => by cases hd) hst h0 fun idx hi => ?_
  have hlt : ravelIdx s idx < t.prod := hst ▸ ravel_lt hi
  have hj := unravel_inB hlt
  have es : ∀ (g : List ℕ → Option ℝ), Arr.elem (⟨s, g⟩ : BArr) idx = g idx := fun g => Arr.elem_self hi
  have et : ∀ (g : List ℕ → Option ℝ), Arr.elem (⟨t, g⟩ : BArr) (unravelIdx t (ravelIdx s idx)) =
      g (unravelIdx t (ravelIdx s idx)) := fun g => Arr.elem_self hj
  have vc : VelCase {} (.sph 1 (ravelIdx s idx : ℝ) 3) .cart3 (.cyl 2 (ravelIdx s idx : ℝ) 1) :=
    { valid := by norm_num [Valid]
      dimp := rfl
      dim := rfl
      pos_ts := nofun
      src_ts := nofun
      tgt_ts := by decide
      reg := by
        show Regular _ (point (.cyl 2 (ravelIdx s idx : ℝ) 1))
        simp only [Vel.kind, VKind.integral, Regular, OffAxis, point, cylPoint]
        rintro ⟨h1, h2⟩
        have := Real.sin_sq_add_cos_sq (ravelIdx s idx : ℝ)
        nlinarith
      reg' := trivial
      delta := fun h => by cases h
      src_pro := fun h => by cases h
      src_loncoslat := fun h => by cases h }
  obtain ⟨w, hw, -⟩ := vel_ok vc
  refine ⟨.sph 1 (ravelIdx s idx : ℝ) 3, .cyl 2 (ravelIdx s idx : ℝ) 1, w, ?_, ?_, by norm_num [Passes], ?_⟩
  · rw [Vel.elem_iff]
    refine ⟨rfl, ?_⟩
    simp only [Vel.comps, map_cons, map_nil, es]
  · simp only [Pos.elem, et, ravel_unravel hlt]; rfl
  · rwa [representVel_generic (k := .cart3) (v := .sph 1 (ravelIdx s idx : ℝ) 3) rfl (fun e => by cases e.1)
      nofun (by decide)] at hw

/-- **C57, shapes that do not match pass silently.** Velocities of shape (2, 3) at positions of shape (3, 2), which
do not broadcast, are converted all the same. -/
theorem C57_mismatched_shapes_return : ∃ (V W : Vel BArr) (P : Pos BArr), VelShape V [2, 3] ∧ PosShape P [3, 2] ∧
    (¬ ∃ u, IsBroadcast [[2, 3], [3, 2]] u) ∧ representVelB {} V .cart3 P = .ok W := by
  have sh3 : ∀ u : List ℕ, IsBroadcast [u, u, u] u := fun u =>
    ⟨by simp [broadcastsTo_refl], fun v hv => hv u (by simp)⟩
  obtain ⟨W, hW⟩ := instance_cyl [2, 3] [3, 2] (by decide) rfl
  refine ⟨_, W, _, ?_, ?_, ?_, hW⟩
  · exact sh3 _
  · exact ⟨sh3 _, fun _ _ _ _ h => by cases h⟩
  rintro ⟨u, hu⟩
  rw [← broadcastShapes_iff] at hu
  cases hu

end Verif
