import Verif.UnitSim
import Verif.KindLemmas

/-! # Every conversion rule respects units -/

namespace Verif

open Num CNum LawfulCNum

section
variable {α : Type} [CNum α] [LawfulCNum α] {x y z w : UQ α} {x' y' z' w' : α} {r : Dist (UQ α)} {r' : Dist α}
  {az : AzArg (UQ α)} {az' : AzArg α}

omit [LawfulCNum α] in
theorem az_angle (h : x.Rel dA x') : AzArg.Rel (.angle x) (.angle x') := h
omit [LawfulCNum α] in
theorem az_qty (h : x.Rel dA x') : AzArg.Rel (.qty x) (.qty x') := h

theorem mkProlate_eq {β : Type} [Num β] (mu nu : β) (phi : AzArg β) (delta : β) : mkProlate mu nu phi delta = (do
    checkPos delta
    (if Num.lt mu (delta * delta) then .error .check else .ok () : Res Unit)
    (if Num.lt (delta * delta) (Num.abs nu) then .error .check else .ok () : Res Unit)
    return .prolate mu nu phi.convert delta) := by
  unfold mkProlate
  cases checkPos delta with
  | error e => rfl
  | ok u =>
    show (if _ then _ else _) = _
    cases Num.lt mu (delta * delta) <;> cases Num.lt (delta * delta) (Num.abs nu) <;> rfl

theorem mkProlate_rel (hx : x.Rel dL2 x') (hy : y.Rel dL2 y') (ha : az.Rel az') (hw : w.Rel dL w') :
    RelRes Pos.Rel (mkProlateU x y az w) (mkProlate x' y' az' w') := by
  rw [mkProlate_eq]
  refine .leftOk (ofDim_rel hx) (.leftOk (ofDim_rel hy) (.left (az_rel ha) fun q hq => ?_))
  refine .check (checkPos_rel hw) (.check (checkNotLt_rel hx (sq_rel hw)) (.check
    (checkNotLt_rel (sq_rel hw) (abs_rel hy)) (.ok ?_)))
  exact ⟨⟨hx.1, hy.1, hq.1, hw.1⟩, by rw [Pos.tr, hx.2, hy.2, hq.2, hw.2]⟩

omit [LawfulCNum α] in
theorem dist_ite {c : Bool} {s : Dist (UQ α)} {s' : Dist α} (h : r.Rel r') (h' : s.Rel s') :
    Dist.Rel (if c then r else s) (if c then r' else s') := by cases c <;> assumption

theorem sphFrom_rel (hr : r.Rel r') (hx : x.Rel dA x') (ha : az.Rel az') :
    RelRes Pos.Rel (sphFromU r x az) (sphFrom r' x' az') := by
  obtain ⟨d, hd⟩ := dist_raw hr
  unfold sphFromU sphFrom
  refine .leftOk (ofDim_rel hx) (.left (az_rel ha) fun φ hφ => ?_)
  rw [neg?_rel hd]
  refine .left (add_rel hφ degs180) fun φ1 h1 => .left (select_rel _ h1 hφ) fun φ2 h2 => ?_
  refine .left (sub_rel degs180 hx) fun θ1 t1 => .left (select_rel _ t1.1 hx) fun θ2 t2 => ?_
  have t3 := wrap_rel t2.1
  refine .leftOk (lt_rel t3 degs180) ?_
  refine .left (sub_rel degs360 t3) fun θ4 t4 => .left (select_rel _ t3 t4.1) fun θ5 t5 => ?_
  refine .left (add_rel h2.1 degs180) fun φ3 h3 => .left (select_rel _ h2.1 h3) fun φ4 h4 => ?_
  exact mkSph_rel (dist_ite (dist_neg hr) hr) t5.1 (az_qty h4.1)

theorem mathFrom_rel (hr : r.Rel r') (ha : az.Rel az') (hx : x.Rel dA x') :
    RelRes Pos.Rel (mathFromU r az x) (mathFrom r' az' x') := by
  obtain ⟨d, hd⟩ := dist_raw hr
  unfold mathFromU mathFrom
  refine .left (az_rel ha) fun φ hφ => .leftOk (ofDim_rel hx) ?_
  rw [neg?_rel hd]
  refine .left (add_rel hφ degs180) fun φ1 h1 => .left (select_rel _ h1 hφ) fun φ2 h2 => ?_
  refine .left (sub_rel degs180 hx) fun θ1 t1 => .left (select_rel _ t1.1 hx) fun θ2 t2 => ?_
  have t3 := wrap_rel t2.1
  refine .leftOk (lt_rel t3 degs180) ?_
  refine .left (sub_rel degs360 t3) fun θ4 t4 => .left (select_rel _ t3 t4.1) fun θ5 t5 => ?_
  refine .left (add_rel h2.1 degs180) fun φ3 h3 => .left (select_rel _ h2.1 h3) fun φ4 h4 => ?_
  exact mkMath_rel (dist_ite (dist_neg hr) hr) (az_qty h4.1) t5.1

theorem cart3ToCyl_rel (hx : x.Rel dL x') (hy : y.Rel dL y') (hz : z.Rel dL z') :
    RelRes Pos.Rel (cart3ToCylU x y z) (cart3ToCyl x' y' z') :=
  .left (add_rel (sq_rel hx) (sq_rel hy)) fun _ hs => .bind (sqrt_rel hs) fun _ _ hr =>
    .bind (atan2_rel hy hx) fun _ _ hp => mkCyl_rel hr (az_qty hp) hz

theorem ratio_rel (hx : x.Rel dL x') (hy : y.Rel dL y') : RelRes (UQ.Rel {}) (x.div y) (Num.div x' y') :=
  (div_rel hx hy).mono fun q v h => by have := h.1; rwa [RDim.div_self] at this

theorem cart3ToSph_rel (hx : x.Rel dL x') (hy : y.Rel dL y') (hz : z.Rel dL z') :
    RelRes Pos.Rel (cart3ToSphU x y z) (cart3ToSph x' y' z') :=
  .left (add_rel (sq_rel hx) (sq_rel hy)) fun _ hs => .left (add_rel hs (sq_rel hz)) fun _ ht =>
    .bind (sqrt_rel ht) fun _ _ hr => .bind (ratio_rel hz hr) fun _ _ hc => .bind (acos_rel hc) fun _ _ hθ =>
    .bind (atan2_rel hy hx) fun _ _ hp => .leftOk (radialFrom_len hr) (mkSph_rel (dist_dist hr) hθ (az_qty hp))

theorem cylToCart3_rel (hx : x.Rel dL x') (hy : y.Rel dA y') (hz : z.Rel dL z') :
    RelRes Pos.Rel (cylToCart3U x y z) (cylToCart3 x' y' z') :=
  .left (cos_rel hy) fun _ hc => .left (sin_rel hy) fun _ hs =>
    mkCart3_rel (mul_one_rel hx hc) (mul_one_rel hx hs) hz

theorem cylToSph_rel (hx : x.Rel dL x') (hy : y.Rel dA y') (hz : z.Rel dL z') :
    RelRes Pos.Rel (cylToSphU x y z) (cylToSph x' y' z') :=
  .left (add_rel (sq_rel hx) (sq_rel hz)) fun _ ht =>
    .bind (sqrt_rel ht) fun _ _ hr => .bind (ratio_rel hz hr) fun _ _ hc => .bind (acos_rel hc) fun _ _ hθ =>
    .leftOk (radialFrom_len hr) (mkSph_rel (dist_dist hr) hθ (az_angle hy))

theorem sphToCart3_rel (hr : r.Rel r') (hx : x.Rel dA x') (hy : y.Rel dA y') :
    RelRes Pos.Rel (sphToCart3U r x y) (sphToCart3 r' x' y') :=
  .bind (distance_rel hr) fun _ _ hd => .left (sin_rel hx) fun _ hs => .left (cos_rel hx) fun _ hc =>
    .left (cos_rel hy) fun _ hc' => .left (sin_rel hy) fun _ hs' =>
    mkCart3_rel (mul_one_rel (mul_one_rel hd hs) hc') (mul_one_rel (mul_one_rel hd hs) hs') (mul_one_rel hd hc)

theorem sphToCyl_rel (hr : r.Rel r') (hx : x.Rel dA x') (hy : y.Rel dA y') :
    RelRes Pos.Rel (sphToCylU r x y) (sphToCyl r' x' y') :=
  .bind (distance_rel hr) fun _ _ hd => .left (sin_rel hx) fun _ hs => .left (cos_rel hx) fun _ hc =>
    mkCyl_rel (abs_rel (mul_one_rel hd hs)) (az_angle hy) (mul_one_rel hd hc)

theorem sphToLonLat_rel (hr : r.Rel r') (hx : x.Rel dA x') (hy : y.Rel dA y') :
    RelRes Pos.Rel (sphToLonLatU r x y) (sphToLonLat r' x' y') :=
  .right halfPi_eq (.left (sub_rel degs90 hx) fun _ h => mkLonLat_rel (az_angle hy) h.1 hr)

theorem lonlatToSph_rel (hx : x.Rel dA x') (hy : y.Rel dA y') (hr : r.Rel r') :
    RelRes Pos.Rel (lonlatToSphU x y r) (lonlatToSph x' y' r') :=
  .right halfPi_eq (.left (sub_rel degs90 hy) fun _ h => mkSph_rel hr h.1 (az_angle hx))

theorem prolateToCyl_rel (hx : x.Rel dL2 x') (hy : y.Rel dL2 y') (hz : z.Rel dA z') (hw : w.Rel dL w') :
    RelRes Pos.Rel (prolateToCylU x y z w) (prolateToCyl x' y' z' w') := by
  unfold prolateToCylU prolateToCyl
  have h1 : (⟨nat 1, .one⟩ : UQ α).Rel {} (nat 1) := ⟨rfl, c_one_mul _⟩
  refine .bind (R := UQ.Rel {}) ((div_rel (abs_rel hy) (sq_rel hw)).mono fun q v h => by
    have := h.1; rwa [RDim.div_self] at this) fun n n' hn => ?_
  refine .left (sub_rel hx (sq_rel hw)) fun a ha => .left (sub_rel h1 hn) fun b hb => ?_
  refine .bind (sqrt_rel (mul_one_rel ha.1 hb.1)) fun ρ ρ' hρ => .bind (sqrt_rel (mul_one_rel hx hn)) fun s s' hs => ?_
  refine mkCyl_rel hρ (az_angle hz) ?_
  have := smul_rel (sign y.value) hs
  rw [sign_rel hy] at this ⊢; rwa [c_mul_comm] at this

theorem prolateD_rel {sm df rd : UQ α} {sm' df' rd' : α} (hx : x.Rel dL x') (hz : z.Rel dL z') (hs : sm.Rel dL2 sm')
    (hf : df.Rel dL2 df') (hr : rd.Rel (dL2.mul dL2) rd') :
    RelRes (UQ.Rel dL2) (prolateDU x z sm df rd) (prolateD x' z' sm' df' rd') := by
  unfold prolateDU prolateD
  refine .bind (sqrt_rel hr) fun d d' hd => ?_
  refine .left (select_rel _ hs hd) fun d1 h1 => ?_
  obtain ⟨e, he, h2, _⟩ := select_rel x.zero? (abs_rel hf) h1.1
  rw [he]
  refine .ok ?_
  rw [zero?_rel hx, zero?_rel hz] at h2
  exact h2

theorem area_rel {d1 d2 d3 : UQ α} {a b c : α} (h1 : d1.Rel dL2 a) (h2 : d2.Rel dL2 b) (h3 : d3.Rel dL2 c) :
    RelRes (fun q z => q.Rel dL2 z ∧ q.unit = (d1.mul d2).unit.div d3.unit) ((d1.mul d2).div d3)
      (Num.div (a * b) c) :=
  (div_rel (mul_rel h1 h2) h3).mono fun q v h => by have := h.1; rw [RDim.mul_div] at this; exact ⟨this, h.2⟩

theorem prolMuMinusDelta_rel {d df d2 r2 : UQ α} {d' df' d2' r2' hf : α} (hd : d.Rel dL2 d') (hdf : df.Rel dL2 df')
    (h2 : d2.Rel dL2 d2') (hr : r2.Rel dL2 r2') :
    RelRes (UQ.Rel dL2) (prolMuMinusDeltaU hf d df d2 r2) (prolMuMinusDelta hf d' df' d2' r2') := by
  unfold prolMuMinusDeltaU prolMuMinusDelta
  refine .left (sub_rel hd hdf) fun m hm => .left (add_rel hd hdf) fun p hp => ?_
  rw [neg?_rel hdf]
  cases Num.lt df' (nat 0)
  · obtain ⟨q, e, hq, _⟩ := inUnit_rel (un := (d2.mul r2).unit.div m.unit) (smul_rel hf hp) (by
      show (d2.unit.dim.mul r2.unit.dim).div m.unit.dim = _
      rw [h2.1, hr.1, hm.1.1, RDim.mul_div])
    show RelRes _ ((p.smul hf).inUnit ((d2.mul r2).unit.div m.unit)) (.ok (hf * (d' + df')))
    rw [e]
    exact .ok hq
  · exact (area_rel h2 hr (smul_rel hf hm.1)).mono fun _ _ h => h.1

theorem prolDeltaMinusNu_rel {d df d2 r2 : UQ α} {d' df' d2' r2' hf : α} (hd : d.Rel dL2 d') (hdf : df.Rel dL2 df')
    (h2 : d2.Rel dL2 d2') (hr : r2.Rel dL2 r2') :
    RelRes (UQ.Rel dL2) (prolDeltaMinusNuU hf d df d2 r2) (prolDeltaMinusNu hf d' df' d2' r2') := by
  unfold prolDeltaMinusNuU prolDeltaMinusNu
  refine .left (sub_rel hd hdf) fun m hm => .left (add_rel hd hdf) fun p hp => ?_
  rw [neg?_rel hdf]
  cases Num.lt df' (nat 0)
  · show RelRes _ (do let a ← (d2.mul r2).div (p.smul hf); a.inUnit m.unit) (Num.div (d2' * r2') (hf * (d' + df')))
    have := area_rel h2 hr (smul_rel hf hp)
    revert this
    generalize Num.div (d2' * r2') (hf * (d' + df')) = X
    generalize (d2.mul r2).div (p.smul hf) = Y
    intro h
    cases h with
    | err e => exact .err e
    | ok h =>
      obtain ⟨q, e, hq, _⟩ := inUnit_rel (un := m.unit) h.1 hm.1.1
      show RelRes _ (UQ.inUnit m.unit _) _
      rw [e]
      exact .ok hq
  · exact .ok (smul_rel hf hm.1)

theorem prolAbsNu_rel {n d df d2 r2 : UQ α} {n' d' df' d2' r2' hf : α} (hn : n.Rel dL2 n') (hd : d.Rel dL2 d')
    (hdf : df.Rel dL2 df') (h2 : d2.Rel dL2 d2') (hr : r2.Rel dL2 r2') :
    RelRes (UQ.Rel dL2) (prolAbsNuU n hf d df d2 r2) (prolAbsNu n' hf d' df' d2' r2') := by
  unfold prolAbsNuU prolAbsNu
  refine .leftOk (lt_rel h2 (smul_rel (nat 2) hn)) ?_
  rw [c_mul_comm (nat 2) n']
  cases Num.lt d2' (n' * nat 2)
  · exact .ok hn
  · refine .bind (prolDeltaMinusNu_rel hd hdf h2 hr) fun a a' ha => .left (sub_rel h2 ha) fun b hb => ?_
    obtain ⟨q, e, hq, _⟩ := inUnit_rel (un := n.unit) hb.1 hn.1
    rw [e]
    exact .ok hq

theorem cylToProlate_rel (hx : x.Rel dL x') (hy : y.Rel dA y') (hz : z.Rel dL z') (hw : w.Rel dL w') :
    RelRes Pos.Rel (cylToProlateU x y z w) (cylToProlate x' y' z' w') := by
  unfold cylToProlateU cylToProlate
  refine .left (add_rel (sq_rel hx) (sq_rel hz)) fun rz hrz => .left (add_rel hrz (sq_rel hw)) fun sm hsm => ?_
  refine .left (sub_rel hrz (sq_rel hw)) fun df hdf => ?_
  refine .left (add_rel (sq_rel hdf.1) (mul_rel (smul_rel (nat 4) (sq_rel hx)) (sq_rel hw))) fun rd hrd => ?_
  refine .bind (prolateD_rel hx hz hsm hdf.1 hrd) fun d d' hd => ?_
  refine .leftOk half_eq (.right half_eq ?_)
  refine .bind (prolMuMinusDelta_rel hd hdf.1 (sq_rel hw) (sq_rel hx)) fun m m' hm => ?_
  refine .left (add_rel hsm hd) fun sd hsd => ?_
  refine .bind (R := UQ.Rel {}) ((div_rel (smul_rel (nat 2) (sq_rel hw)) hsd).mono fun q v h => by
    have := h.1; rwa [RDim.div_self] at this) fun q q' hq => ?_
  refine .bind (prolAbsNu_rel (one_mul_rel hq (sq_rel hz)) hd hdf.1 (sq_rel hw) (sq_rel hx)) fun n n' hn => ?_
  refine .left (add_rel (sq_rel hw) hm) fun mu hmu => ?_
  refine mkProlate_rel hmu ?_ (az_angle hy) hw
  have := smul_rel (sign z.value) hn
  rw [sign_rel hz] at this ⊢; rwa [c_mul_comm] at this

theorem cart2ToPolar_rel (hx : x.Rel dL x') (hy : y.Rel dL y') :
    RelRes Pos.Rel (cart2ToPolarU x y) (cart2ToPolar x' y') :=
  .left (add_rel (sq_rel hx) (sq_rel hy)) fun _ hs => .bind (sqrt_rel hs) fun _ _ hr =>
    .bind (atan2_rel hy hx) fun _ _ hp => .leftOk (radialFrom_len hr) (mkPolar_rel (dist_dist hr) (az_qty hp))

theorem polarToCart2_rel (hr : r.Rel r') (hy : y.Rel dA y') :
    RelRes Pos.Rel (polarToCart2U r y) (polarToCart2 r' y') :=
  .bind (distance_rel hr) fun _ _ hd => .left (cos_rel hy) fun _ hc => .left (sin_rel hy) fun _ hs =>
    mkCart2_rel (mul_one_rel hd hc) (mul_one_rel hd hs)

omit [CNum α] [LawfulCNum α] in
theorem ofDim_ne {d : RDim} (h : x.unit.dim ≠ d) : ofDim d x = .error .units := by rw [ofDim, if_neg h]

omit [CNum α] [LawfulCNum α] in
theorem mkCart1_ne (h : x.unit.dim ≠ dL) : mkCart1U x = .error .units := by rw [mkCart1U, ofDim_ne h]; rfl
omit [CNum α] [LawfulCNum α] in
theorem mkCart2_ne (h : x.unit.dim ≠ dL) : mkCart2U x y = .error .units := by rw [mkCart2U, ofDim_ne h]; rfl
omit [CNum α] [LawfulCNum α] in
theorem mkCart3_ne (h : x.unit.dim ≠ dL) : mkCart3U x y z = .error .units := by rw [mkCart3U, ofDim_ne h]; rfl
omit [LawfulCNum α] in
theorem mkCyl_ne (h : x.unit.dim ≠ dL) : mkCylU x az z = .error .units := by rw [mkCylU, ofDim_ne h]; rfl

omit [LawfulCNum α] in
theorem mul_ne {d : RDim} (h : x.unit.dim ≠ d) (hy : y.Rel {} y') : (x.mul y).unit.dim ≠ d := by
  show x.unit.dim.mul y.unit.dim ≠ d
  rwa [hy.1, RDim.mul_one]

theorem sphToCart1_rel (hr : r.Rel r') (hx : x.Rel dA x') (hy : y.Rel dA y') :
    RelRes Pos.Rel (sphToCart1U r x y) (sphToCart1 r' x' y') := by
  refine .left (sin_rel hx) fun s hs => .left (cos_rel hy) fun c hc => ?_
  rcases raw_length hr with ⟨q, v, rfl, rfl, hq⟩ | ⟨hne, he⟩
  · exact mkCart1_rel (mul_one_rel (mul_one_rel hq hs) hc)
  · rw [mkCart1_ne (mul_ne (mul_ne hne hs) hc), sphToCart1, he]
    exact .err _

theorem sphToCart2_rel (hr : r.Rel r') (hx : x.Rel dA x') (hy : y.Rel dA y') :
    RelRes Pos.Rel (sphToCart2U r x y) (sphToCart2 r' x' y') := by
  refine .left (sin_rel hx) fun s hs => .left (cos_rel hy) fun c hc => .left (sin_rel hy) fun s' hs' => ?_
  rcases raw_length hr with ⟨q, v, rfl, rfl, hq⟩ | ⟨hne, he⟩
  · exact mkCart2_rel (mul_one_rel (mul_one_rel hq hs) hc) (mul_one_rel (mul_one_rel hq hs) hs')
  · rw [mkCart2_ne (mul_ne (mul_ne hne hs) hc), sphToCart2, he]
    exact .err _

theorem sphToPolar_rel (hr : r.Rel r') (hx : x.Rel dA x') (hy : y.Rel dA y') :
    RelRes Pos.Rel (sphToPolarU r x y) (sphToPolar r' x' y') :=
  .left (sin_rel hx) fun _ hs => .bind (scaleThenFrom_rel hr hs) fun _ _ h => mkPolar_rel h (az_angle hy)

theorem polarToCart1_rel (hr : r.Rel r') (hy : y.Rel dA y') :
    RelRes Pos.Rel (polarToCart1U r y) (polarToCart1 r' y') := by
  refine .left (cos_rel hy) fun c hc => ?_
  rcases raw_length hr with ⟨q, v, rfl, rfl, hq⟩ | ⟨hne, he⟩
  · exact mkCart1_rel (mul_one_rel hq hc)
  · rw [mkCart1_ne (mul_ne hne hc), polarToCart1, he]
    exact .err _

omit [LawfulCNum α] in
theorem rawCart2_rel (hr : r.Rel r') (hy : y.Rel dL y') :
    RelRes Pos.Rel (mkCart2U r.raw y) (do mkCart2 (← r'.asLength) y') := by
  rcases raw_length hr with ⟨q, v, rfl, rfl, hq⟩ | ⟨hne, he⟩
  · exact mkCart2_rel hq hy
  · rw [mkCart2_ne hne, he]
    exact .err _

omit [LawfulCNum α] in
theorem rawCart3_rel (hr : r.Rel r') (hy : y.Rel dL y') (hz : z.Rel dL z') :
    RelRes Pos.Rel (mkCart3U r.raw y z) (do mkCart3 (← r'.asLength) y' z') := by
  rcases raw_length hr with ⟨q, v, rfl, rfl, hq⟩ | ⟨hne, he⟩
  · exact mkCart3_rel hq hy hz
  · rw [mkCart3_ne hne, he]
    exact .err _

theorem rawCyl_rel (hr : r.Rel r') (ha : az.Rel az') (hz : z.Rel dL z') :
    RelRes Pos.Rel (mkCylU r.raw az z) (do mkCyl (← r'.asLength) az' z') := by
  rcases raw_length hr with ⟨q, v, rfl, rfl, hq⟩ | ⟨hne, he⟩
  · exact mkCyl_rel hq ha hz
  · rw [mkCyl_ne hne, he]
    exact .err _

omit [LawfulCNum α] in
theorem tr_kind {β γ : Type} (f : β → γ) (p : Pos β) : (p.tr f).kind = p.kind := by cases p <;> rfl

theorem orZero_rel (un : RUnit) {o : Option (UQ α)} (h : ∀ q ∈ o, q.unit.dim = un.dim) :
    (orZeroU un o).Rel un.dim (orZero (o.map UQ.phys)) := by
  cases o with
  | none => exact ⟨rfl, (zero_scale _).symm⟩
  | some q => exact ⟨h q rfl, rfl⟩

omit [CNum α] [LawfulCNum α] in
theorem kw_nil : Kw.WD ({} : Kw (UQ α)) := ⟨by simp, by simp, by simp, by simp, by simp⟩

omit [LawfulCNum α] in
theorem dist_self (h : r.WD) : r.Rel (r.tr UQ.phys) := ⟨h, rfl⟩

/-- the conversion whose own rule compares units: prolate to prolate -/
def ProlateSelf (p : Kind) (k : Kind) : Prop := p = .prolate ∧ k = .prolate

theorem representU_rel (n : ℕ) : ∀ (kw : Kw (UQ α)), kw.WD → ∀ (p : Pos (UQ α)), p.WD → ∀ (k : Kind),
    ¬ ProlateSelf p.kind k →
    RelRes Pos.Rel (representU n kw p k) (represent n (kw.tr UQ.phys) (p.tr UQ.phys) k) := by
  induction n with
  | zero => intro kw _ p _ k _; exact .err _
  | succ n ih =>
    intro kw hk p hp k hs
    -- two steps
    have two : ∀ (kw₁ kw₂ : Kw (UQ α)) (m k' : Kind), kw₁.WD → kw₂.WD → ¬ ProlateSelf p.kind m →
        ¬ ProlateSelf m k' → RelRes Pos.Rel (do representU n kw₂ (← representU n kw₁ p m) k')
        (do represent n (kw₂.tr UQ.phys) (← represent n (kw₁.tr UQ.phys) (p.tr UQ.phys) m) k') := by
      intro kw₁ kw₂ m k' h₁ h₂ s₁ s₂
      have h := ih kw₁ h₁ p hp m s₁
      have hkind := represent_kind n (kw₁.tr UQ.phys) (p.tr UQ.phys) m
      revert h hkind
      generalize representU n kw₁ p m = X
      generalize represent n (kw₁.tr UQ.phys) (p.tr UQ.phys) m = Y
      intro h hkind
      cases h with
      | err e => exact .err e
      | @ok q q' h =>
        obtain ⟨hq, rfl⟩ := h
        have hk' := hkind _ rfl
        rw [tr_kind] at hk'
        exact ih kw₂ h₂ q hq k' (by rw [hk']; exact s₂)
    have hy : (orZeroU .metre kw.y).Rel dL (orZero (kw.y.map UQ.phys)) := orZero_rel .metre hk.y
    have hz : (orZeroU .metre kw.z).Rel dL (orZero (kw.z.map UQ.phys)) := orZero_rel .metre hk.z
    have hθ : (orZeroU .rad kw.theta).Rel dA (orZero (kw.theta.map UQ.phys)) := orZero_rel .rad hk.theta
    have hφ : (orZeroU .rad kw.phi).Rel dA (orZero (kw.phi.map UQ.phys)) := orZero_rel .rad hk.phi
    have kz : Kw.WD ({ z := some (orZeroU .metre kw.z) } : Kw (UQ α)) :=
      ⟨by simp, fun q h => by cases h; exact hz.1, by simp, by simp, by simp⟩
    have twoz : ∀ (m k' : Kind), ¬ ProlateSelf p.kind m →
        ¬ ProlateSelf m k' → RelRes Pos.Rel
          (do representU n {} (← representU n { z := some (orZeroU .metre kw.z) } p m) k')
          (do represent n {} (← represent n { z := some (orZero (kw.z.map UQ.phys)) } (p.tr UQ.phys) m) k') := by
      intro m k' s₁ s₂
      have := two { z := some (orZeroU .metre kw.z) } {} m k' kz kw_nil s₁ s₂
      simp only [Kw.tr, Option.map_some, Option.map_none, hz.2] at this
      exact this
    have two0 : ∀ (m k' : Kind), ¬ ProlateSelf p.kind m → ¬ ProlateSelf m k' → RelRes Pos.Rel
        (do representU n {} (← representU n {} p m) k') (do represent n {} (← represent n {} (p.tr UQ.phys) m) k') :=
      fun m k' s₁ s₂ => two {} {} m k' kw_nil kw_nil s₁ s₂
    have viaCyl : ¬ ProlateSelf p.kind .cyl → RelRes Pos.Rel
        (match kw.delta with
          | none => .error .missingDelta
          | some dl => do representU n { delta := some dl } (← representU n {} p .cyl) .prolate)
        (match (kw.tr UQ.phys).delta with
          | none => .error .missingDelta
          | some dl => do represent n { delta := some dl } (← represent n {} (p.tr UQ.phys) .cyl) .prolate) := by
      intro s
      obtain ⟨_, _, _, _, kd⟩ := kw
      cases kd with
      | none => exact .err _
      | some dl =>
        exact two {} { delta := some dl } .cyl .prolate kw_nil
          ⟨by simp, by simp, by simp, by simp, hk.delta⟩ s (fun h => by cases h.1)
    cases p with
    | cart1 x =>
      have hx := UQ.rel_self (d := dL) hp
      cases k with
      | cart1 => exact .ok ⟨hp, rfl⟩
      | radial => exact .leftOk (radialFrom_len hx) (mkRadial_rel (dist_dist hx))
      | cart2 => exact mkCart2_rel hx hy
      | polar => exact .leftOk (radialFrom_len hx) (mkPolar_rel (dist_dist hx) (az_qty hφ))
      | twoSphere => exact .err _
      | cart3 => exact mkCart3_rel hx hy hz
      | cyl => exact mkCyl_rel hx (az_qty hφ) hz
      | sph => exact .leftOk (radialFrom_len hx) (sphFrom_rel (dist_dist hx) hθ (az_qty hφ))
      | lonlat => exact .err _
      | math => exact .leftOk (radialFrom_len hx) (mathFrom_rel (dist_dist hx) (az_qty hθ) hφ)
      | prolate => exact .err _
    | radial r =>
      have hr := dist_self hp
      cases k with
      | cart1 => exact .bind (distance_rel hr) fun _ _ hd => mkCart1_rel hd
      | radial => exact .ok ⟨hp, rfl⟩
      | cart2 => exact rawCart2_rel hr hy
      | polar => exact mkPolar_rel hr (az_qty hφ)
      | twoSphere => exact .err _
      | cart3 => exact rawCart3_rel hr hy hz
      | cyl => exact rawCyl_rel hr (az_qty hφ) hz
      | sph => exact sphFrom_rel hr hθ (az_qty hφ)
      | lonlat => exact .err _
      | math => exact mathFrom_rel hr (az_qty hθ) hφ
      | prolate => exact .err _
    | cart2 x y =>
      have hx := UQ.rel_self (d := dL) hp.1
      have hy' := UQ.rel_self (d := dL) hp.2
      cases k with
      | cart1 => exact mkCart1_rel hx
      | radial =>
        exact .left (add_rel (sq_rel hx) (sq_rel hy')) fun _ h1 =>
          .bind (sqrt_rel h1) fun _ _ hr => .leftOk (radialFrom_len hr) (mkRadial_rel (dist_dist hr))
      | cart2 => exact .ok ⟨hp, rfl⟩
      | polar => exact cart2ToPolar_rel hx hy'
      | twoSphere => exact two0 .cart2 .twoSphere (fun h => by cases h.2) (fun h => by cases h.2)
      | cart3 => exact mkCart3_rel hx hy' hz
      | cyl => exact twoz .cart3 .cyl (fun h => by cases h.2) (fun h => by cases h.2)
      | sph => exact twoz .cart3 .sph (fun h => by cases h.2) (fun h => by cases h.2)
      | lonlat => exact .err _
      | math => exact twoz .cart3 .math (fun h => by cases h.2) (fun h => by cases h.2)
      | prolate => exact .err _
    | polar r φ =>
      have hr := dist_self hp.1
      have hx := UQ.rel_self (d := dA) hp.2
      cases k with
      | cart1 => exact polarToCart1_rel hr hx
      | radial => exact mkRadial_rel hr
      | cart2 => exact polarToCart2_rel hr hx
      | polar => exact .ok ⟨hp, rfl⟩
      | twoSphere => exact two0 .cart2 .twoSphere (fun h => by cases h.2) (fun h => by cases h.2)
      | cart3 => exact twoz .cyl .cart3 (fun h => by cases h.2) (fun h => by cases h.2)
      | cyl => exact rawCyl_rel hr (az_angle hx) hz
      | sph => exact sphFrom_rel hr hθ (az_angle hx)
      | lonlat => exact .err _
      | math => exact mathFrom_rel hr (az_angle hx) hφ
      | prolate => exact .err _
    | twoSphere θ φ =>
      cases k with
      | cart1 => exact .err _
      | radial => exact .err _
      | cart2 => exact two0 .cart2 .cart2 (fun h => by cases h.2) (fun h => by cases h.2)
      | polar => exact two0 .cart2 .polar (fun h => by cases h.2) (fun h => by cases h.2)
      | twoSphere => exact two0 .cart2 .twoSphere (fun h => by cases h.2) (fun h => by cases h.2)
      | cart3 => exact .err _
      | cyl => exact .err _
      | sph => exact .err _
      | lonlat => exact .err _
      | math => exact .err _
      | prolate => exact .err _
    | cart3 x y z =>
      have hx := UQ.rel_self (d := dL) hp.1
      have hy' := UQ.rel_self (d := dL) hp.2.1
      have hz' := UQ.rel_self (d := dL) hp.2.2
      cases k with
      | cart1 => exact mkCart1_rel hx
      | radial =>
        exact .left (add_rel (sq_rel hx) (sq_rel hy')) fun _ h1 => .left (add_rel h1 (sq_rel hz')) fun _ h2 =>
          .bind (sqrt_rel h2) fun _ _ hr => .leftOk (radialFrom_len hr) (mkRadial_rel (dist_dist hr))
      | cart2 => exact mkCart2_rel hx hy'
      | polar => exact two0 .cart2 .polar (fun h => by cases h.2) (fun h => by cases h.2)
      | twoSphere => exact .err _
      | cart3 => exact .ok ⟨hp, rfl⟩
      | cyl => exact cart3ToCyl_rel hx hy' hz'
      | sph => exact cart3ToSph_rel hx hy' hz'
      | lonlat => exact two0 .sph .lonlat (fun h => by cases h.2) (fun h => by cases h.2)
      | math => exact two0 .sph .math (fun h => by cases h.2) (fun h => by cases h.2)
      | prolate => exact viaCyl (fun h => by cases h.2)
    | cyl ρ φ z =>
      have hx := UQ.rel_self (d := dL) hp.1
      have hy' := UQ.rel_self (d := dA) hp.2.1
      have hz' := UQ.rel_self (d := dL) hp.2.2
      cases k with
      | cart1 => exact .left (cos_rel hy') fun _ hc => mkCart1_rel (mul_one_rel hx hc)
      | radial => exact .leftOk (radialFrom_len hx) (mkRadial_rel (dist_dist hx))
      | cart2 => exact .left (cos_rel hy') fun _ hc => .left (sin_rel hy') fun _ hs => mkCart2_rel (mul_one_rel hx hc) (mul_one_rel hx hs)
      | polar => exact .leftOk (radialFrom_len hx) (mkPolar_rel (dist_dist hx) (az_angle hy'))
      | twoSphere => exact .err _
      | cart3 => exact cylToCart3_rel hx hy' hz'
      | cyl => exact .ok ⟨hp, rfl⟩
      | sph => exact cylToSph_rel hx hy' hz'
      | lonlat => exact two0 .sph .lonlat (fun h => by cases h.2) (fun h => by cases h.2)
      | math => exact two0 .sph .math (fun h => by cases h.2) (fun h => by cases h.2)
      | prolate =>
        obtain ⟨_, _, _, _, kd⟩ := kw
        cases kd with
        | none => exact .err _
        | some dl => exact cylToProlate_rel hx hy' hz' (UQ.rel_self (hk.delta dl rfl))
    | sph r θ φ =>
      have hr := dist_self hp.1
      have hx := UQ.rel_self (d := dA) hp.2.1
      have hy' := UQ.rel_self (d := dA) hp.2.2
      cases k with
      | cart1 => exact sphToCart1_rel hr hx hy'
      | radial => exact mkRadial_rel hr
      | cart2 => exact sphToCart2_rel hr hx hy'
      | polar => exact sphToPolar_rel hr hx hy'
      | twoSphere => exact .err _
      | cart3 => exact sphToCart3_rel hr hx hy'
      | cyl => exact sphToCyl_rel hr hx hy'
      | sph => exact .ok ⟨hp, rfl⟩
      | lonlat => exact sphToLonLat_rel hr hx hy'
      | math => exact mkMath_rel hr (az_angle hy') hx
      | prolate => exact viaCyl (fun h => by cases h.2)
    | lonlat lon lat r =>
      have hr := dist_self hp.2.2
      have hx := UQ.rel_self (d := dA) hp.1
      have hy' := UQ.rel_self (d := dA) hp.2.1
      cases k with
      | cart1 => exact .err _
      | radial => exact .err _
      | cart2 => exact .err _
      | polar => exact .err _
      | twoSphere => exact .err _
      | cart3 => exact two0 .sph .cart3 (fun h => by cases h.2) (fun h => by cases h.2)
      | cyl => exact two0 .sph .cyl (fun h => by cases h.2) (fun h => by cases h.2)
      | sph => exact lonlatToSph_rel hx hy' hr
      | lonlat => exact .ok ⟨hp, rfl⟩
      | math => exact two0 .cart3 .math (fun h => by cases h.2) (fun h => by cases h.2)
      | prolate => exact viaCyl (fun h => by cases h.2)
    | math r θ φ =>
      have hr := dist_self hp.1
      have hx := UQ.rel_self (d := dA) hp.2.1
      have hy' := UQ.rel_self (d := dA) hp.2.2
      cases k with
      | cart1 => exact sphToCart1_rel hr hy' hx
      | radial => exact mkRadial_rel hr
      | cart2 => exact sphToCart2_rel hr hy' hx
      | polar => exact sphToPolar_rel hr hy' hx
      | twoSphere => exact .err _
      | cart3 => exact sphToCart3_rel hr hy' hx
      | cyl => exact sphToCyl_rel hr hy' hx
      | sph => exact mkSph_rel hr hy' (az_angle hx)
      | lonlat => exact two0 .cart3 .lonlat (fun h => by cases h.2) (fun h => by cases h.2)
      | math => exact .ok ⟨hp, rfl⟩
      | prolate => exact viaCyl (fun h => by cases h.2)
    | prolate mu nu φ dl =>
      have hx := UQ.rel_self (d := dL2) hp.1
      have hy' := UQ.rel_self (d := dL2) hp.2.1
      have hz' := UQ.rel_self (d := dA) hp.2.2.1
      have hw := UQ.rel_self (d := dL) hp.2.2.2
      cases k with
      | cart1 => exact two0 .cart3 .cart1 (fun h => by cases h.2) (fun h => by cases h.2)
      | radial => exact two0 .cart3 .radial (fun h => by cases h.2) (fun h => by cases h.2)
      | cart2 => exact two0 .cart3 .cart2 (fun h => by cases h.2) (fun h => by cases h.2)
      | polar => exact two0 .cart3 .polar (fun h => by cases h.2) (fun h => by cases h.2)
      | twoSphere => exact two0 .cart3 .twoSphere (fun h => by cases h.2) (fun h => by cases h.2)
      | cart3 => exact two0 .cyl .cart3 (fun h => by cases h.2) (fun h => by cases h.2)
      | cyl => exact prolateToCyl_rel hx hy' hz' hw
      | sph => exact two0 .cyl .sph (fun h => by cases h.2) (fun h => by cases h.2)
      | lonlat => exact two0 .cyl .lonlat (fun h => by cases h.2) (fun h => by cases h.2)
      | math => exact two0 .cyl .math (fun h => by cases h.2) (fun h => by cases h.2)
      | prolate => exact absurd ⟨rfl, rfl⟩ hs

end

end Verif
