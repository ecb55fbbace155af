import Verif.BatchVelLemmas
import Verif.Props.Batch

/-! # The velocity rules on arrays act element by element -/

namespace Verif

open List Spec

/-! ### conversions to more dimensions leave rank-0 leaves -/

/-- a coordinate field is a scalar -/
def HasRank0 (P : Pos BArr) : Prop := ∃ a ∈ P.coords, a.shape = []

theorem r0_polar {r : Dist BArr} {y : BArr} (h : y.shape = []) : HasRank0 (.polar r y) :=
  ⟨y, by simp [Pos.coords], h⟩
theorem r0_cyl2 {r y z : BArr} (h : y.shape = []) : HasRank0 (.cyl r y z) := ⟨y, by simp [Pos.coords], h⟩
theorem r0_cyl3 {r y z : BArr} (h : z.shape = []) : HasRank0 (.cyl r y z) := ⟨z, by simp [Pos.coords], h⟩
theorem r0_cart3 {r y z : BArr} (h : z.shape = []) : HasRank0 (.cart3 r y z) := ⟨z, by simp [Pos.coords], h⟩

theorem mkPolarB_inv {r : Dist BArr} {a : AzArg BArr} {Q : Pos BArr} (h : mkPolarB r a = .ok Q) :
    Q = .polar r a.convertB := by
  unfold mkPolarB at h
  obtain ⟨_, _, h⟩ := (bind_ok_iff _ _ _).mp h
  exact (Except.ok.inj h).symm

theorem mkCylB_inv {r : BArr} {a : AzArg BArr} {z : BArr} {Q : Pos BArr} (h : mkCylB r a z = .ok Q) :
    Q = .cyl r a.convertB z := by
  unfold mkCylB at h
  obtain ⟨_, _, h⟩ := (bind_ok_iff _ _ _).mp h
  exact (Except.ok.inj h).symm

theorem representB_rank0 {m : ℕ} {kw : Kw BArr} {P Q : Pos BArr} {k : Kind} {n : ℕ} (hkw : KwSh kw)
    (hP : AllSh [n] P) (hk : P.kind.leavesRank0 k = true) (h : representB m kw P k = .ok Q) : HasRank0 Q := by
  obtain ⟨ky, kz, kt, kp⟩ := kwSh_orZero hkw
  have up2 : ∀ m (z : BArr) (x y : BArr) Q, representB m { z := some z } (.cart2 x y) .cart3 = .ok Q →
      Q = .cart3 x y z := by
    intro m z x y Q hQ
    cases m with
    | zero => cases hQ
    | succ m => simp only [representB] at hQ; exact (Except.ok.inj hQ).symm
  have upp : ∀ m (z : BArr) (r : Dist BArr) (y : BArr) Q, representB m { z := some z } (.polar r y) .cyl = .ok Q →
      ∃ a b, Q = .cyl a b z := by
    intro m z r y Q hQ
    cases m with
    | zero => cases hQ
    | succ m =>
      simp only [representB] at hQ
      obtain ⟨_, _, hQ⟩ := (bind_ok_iff _ _ _).mp hQ
      exact ⟨_, _, mkCylB_inv hQ⟩
  have c3cyl : ∀ m (z : BArr) (x y : BArr) Q, representB m {} (.cart3 x y z) .cyl = .ok Q →
      ∃ a b, Q = .cyl a b z := by
    intro m z x y Q hQ
    cases m with
    | zero => cases hQ
    | succ m =>
      simp only [representB, cart3ToCylB, bind_ok_iff] at hQ
      obtain ⟨_, _, _, _, _, _, _, _, hQ⟩ := hQ
      exact ⟨_, _, mkCylB_inv hQ⟩
  have cylc3 : ∀ m (z : BArr) (x y : BArr) Q, representB m {} (.cyl x y z) .cart3 = .ok Q →
      ∃ a b, Q = .cart3 a b z := by
    intro m z x y Q hQ
    cases m with
    | zero => cases hQ
    | succ m =>
      simp only [representB, cylToCart3B, bind_ok_iff] at hQ
      obtain ⟨_, _, _, _, hQ⟩ := hQ
      exact ⟨_, _, (Except.ok.inj hQ).symm⟩
  cases m with
  | zero => cases h
  | succ m =>
    cases P <;> cases k <;> first | (cases hk; done) | skip
    all_goals simp only [representB] at h
    case cart1.cart2 => cases h; exact ⟨_, by simp [Pos.coords], ky⟩
    case cart1.polar => cases mkPolarB_inv h; exact r0_polar kp
    case cart1.cart3 => cases h; exact ⟨_, by simp [Pos.coords], ky⟩
    case cart1.cyl =>
      cases mkCylB_inv h; exact r0_cyl2 kp
    case radial.cart2 =>
      obtain ⟨d, _, h⟩ := (bind_ok_iff _ _ _).mp h
      cases h; exact ⟨_, by simp [Pos.coords], ky⟩
    case radial.polar => cases mkPolarB_inv h; exact r0_polar kp
    case radial.cart3 =>
      obtain ⟨d, _, h⟩ := (bind_ok_iff _ _ _).mp h
      cases h; exact ⟨_, by simp [Pos.coords], ky⟩
    case radial.cyl =>
      obtain ⟨d, _, h⟩ := (bind_ok_iff _ _ _).mp h
      cases mkCylB_inv h; exact r0_cyl2 kp
    case cart2.cart3 =>
      cases h; exact r0_cart3 kz
    case cart2.cyl =>
      obtain ⟨d, h1, h⟩ := (bind_ok_iff _ _ _).mp h
      obtain rfl := up2 _ _ _ _ _ h1
      obtain ⟨a, b, rfl⟩ := c3cyl _ _ _ _ _ h
      exact r0_cyl3 kz
    case polar.cart3 =>
      obtain ⟨d, h1, h⟩ := (bind_ok_iff _ _ _).mp h
      obtain ⟨a, b, rfl⟩ := upp _ _ _ _ _ h1
      obtain ⟨a, b, rfl⟩ := cylc3 _ _ _ _ _ h
      exact r0_cart3 kz
    case polar.cyl =>
      obtain ⟨d, h1, h⟩ := (bind_ok_iff _ _ _).mp h
      cases mkCylB_inv h
      exact r0_cyl3 kz
    case polar.sph r phi =>
      have hr : r.raw.shape = [n] := hP _ (by simp [Pos.coords])
      rcases (sphFromB_selOk h).2.1 with e | e
      · rw [hr] at e; cases e
      · rw [hr, kt] at e; cases e
    case polar.math r phi =>
      have hr : r.raw.shape = [n] := hP _ (by simp [Pos.coords])
      rcases (mathFromB_selOk h).2.1 with e | e
      · rw [hr] at e; cases e
      · rw [hr, kp] at e; cases e

/-! ### `v.distance` for every distance -/

section
variable {T : Prop} {D : Set (List ℕ)} {S : List ℕ}

theorem castDistanceB_sim (hD : ∀ i ∈ D, InB S i) {C : Pos BArr} (hC : DefP D S C) :
    BSim T D S C.castDistanceB fun i => (C.elemD i).castDistance := by
  cases C with
  | cart1 x => exact BSim.ret hC
  | cart2 x y => exact BSim.ret hC
  | twoSphere x y => exact BSim.ret hC
  | cart3 x y z => exact BSim.ret hC
  | cyl x y z => exact BSim.ret hC
  | prolate x y z w => exact BSim.ret hC
  | radial r =>
    obtain ⟨X, hX, eX⟩ := (defP_radial.mp hC).distance
    simp only [Pos.castDistanceB, hX, ok_bind]
    refine (mkRadialB_sim hD eX.dist).congr fun i _ => ?_
    simp only [Pos.elemD, Pos.castDistance]
    rcases (r.elemD i).distance with e | v <;> rfl
  | polar r y =>
    obtain ⟨hr, hy⟩ := defP_polar.mp hC
    obtain ⟨X, hX, eX⟩ := hr.distance
    simp only [Pos.castDistanceB, hX, ok_bind]
    refine (mkPolarB_sim hD eX.dist hy.ef.angle).congr fun i _ => ?_
    simp only [Pos.elemD, Pos.castDistance]
    rcases (r.elemD i).distance with e | v <;> rfl
  | sph r y z =>
    obtain ⟨hr, hy, hz⟩ := defP_sph.mp hC
    obtain ⟨X, hX, eX⟩ := hr.distance
    simp only [Pos.castDistanceB, hX, ok_bind]
    refine (mkSphB_sim hD eX.dist hy.ef hz.ef.angle).congr fun i _ => ?_
    simp only [Pos.elemD, Pos.castDistance]
    rcases (r.elemD i).distance with e | v <;> rfl
  | math r y z =>
    obtain ⟨hr, hy, hz⟩ := defP_math.mp hC
    obtain ⟨X, hX, eX⟩ := hr.distance
    simp only [Pos.castDistanceB, hX, ok_bind]
    refine (mkMathB_sim hD eX.dist hy.ef.angle hz.ef).congr fun i _ => ?_
    simp only [Pos.elemD, Pos.castDistance]
    rcases (r.elemD i).distance with e | v <;> rfl
  | lonlat y z r =>
    obtain ⟨hy, hz, hr⟩ := defP_lonlat.mp hC
    obtain ⟨X, hX, eX⟩ := hr.distance
    simp only [Pos.castDistanceB, hX, ok_bind]
    refine (mkLonLatB_sim hD hy.ef.angle hz.ef eX.dist).congr fun i _ => ?_
    simp only [Pos.elemD, Pos.castDistance]
    rcases (r.elemD i).distance with e | v <;> rfl

end

theorem castDistanceB_kind {C C' : Pos BArr} (h : C.castDistanceB = .ok C') : C'.kind = C.kind := by
  cases C <;> simp only [Pos.castDistanceB] at h
  case radial => obtain ⟨_, _, h⟩ := (bind_ok_iff _ _ _).mp h; exact hkB_radial _ _ h
  case polar => obtain ⟨_, _, h⟩ := (bind_ok_iff _ _ _).mp h; exact hkB_polar _ _ _ h
  case sph => obtain ⟨_, _, h⟩ := (bind_ok_iff _ _ _).mp h; exact hkB_sph _ _ _ _ h
  case lonlat => obtain ⟨_, _, h⟩ := (bind_ok_iff _ _ _).mp h; exact hkB_lonlat _ _ _ _ h
  case math => obtain ⟨_, _, h⟩ := (bind_ok_iff _ _ _).mp h; exact hkB_math _ _ _ _ h
  all_goals cases h; rfl

theorem castDistanceB_shape {S : List ℕ} {C : Pos BArr} (h : AllSh S C) : ResSh S C.castDistanceB := by
  cases C with
  | cart1 x => exact rs_ok h
  | cart2 x y => exact rs_ok h
  | twoSphere x y => exact rs_ok h
  | cart3 x y z => exact rs_ok h
  | cyl x y z => exact rs_ok h
  | prolate x y z w => exact rs_ok h
  | radial r =>
    exact rs_bind fun d hd => rs_radial (R := .dist d) (distanceB_shape hd (h _ (by simp [Pos.coords])))
  | polar r y =>
    exact rs_bind fun d hd => rs_polar (R := .dist d) (distanceB_shape hd (h _ (by simp [Pos.coords])))
      (h y (by simp [Pos.coords]))
  | sph r y z =>
    exact rs_bind fun d hd => rs_sph (R := .dist d) (distanceB_shape hd (h _ (by simp [Pos.coords])))
      (h y (by simp [Pos.coords])) (h z (by simp [Pos.coords]))
  | math r y z =>
    exact rs_bind fun d hd => rs_math (R := .dist d) (distanceB_shape hd (h _ (by simp [Pos.coords])))
      (h z (by simp [Pos.coords])) (h y (by simp [Pos.coords]))
  | lonlat y z r =>
    exact rs_bind fun d hd => rs_lonlat (R := .dist d) (distanceB_shape hd (h _ (by simp [Pos.coords])))
      (h z (by simp [Pos.coords])) (h y (by simp [Pos.coords]))

/-- rank-0 leaves survive -/
theorem castDistanceB_rank0 {C C' : Pos BArr} (h : C.castDistanceB = .ok C') (hC : HasRank0 C) : HasRank0 C' := by
  obtain ⟨a, ha, h0⟩ := hC
  cases C <;> simp only [Pos.castDistanceB] at h
  case radial r =>
    obtain ⟨d, hd, h⟩ := (bind_ok_iff _ _ _).mp h
    simp only [Pos.coords, mem_cons, not_mem_nil, or_false] at ha
    have := rs_radial (R := .dist d) (distanceB_shape hd (ha ▸ h0)) _ h
    have hk := hkB_radial _ _ h
    cases C' <;> first | (cases hk; done) | skip
    rename_i q _
    exact ⟨q.raw, by simp [Pos.coords], this _ (by simp [Pos.coords])⟩
  case polar r y =>
    obtain ⟨d, hd, h⟩ := (bind_ok_iff _ _ _).mp h
    cases mkPolarB_inv h
    simp only [Pos.coords, mem_cons, not_mem_nil, or_false] at ha
    rcases ha with rfl | rfl
    · exact ⟨d, by simp [Pos.coords, Dist.raw], distanceB_shape hd h0⟩
    · exact ⟨a, by simp [Pos.coords, AzArg.convertB], h0⟩
  all_goals first | (cases h; exact ⟨a, ha, h0⟩) | skip
  case sph r y z =>
    obtain ⟨d, hd, h⟩ := (bind_ok_iff _ _ _).mp h
    simp only [mkSphB, bind_ok_iff] at h
    obtain ⟨_, _, _, _, h⟩ := h
    cases h
    simp only [Pos.coords, mem_cons, not_mem_nil, or_false] at ha
    rcases ha with rfl | rfl | rfl
    · exact ⟨d, by simp [Pos.coords, Dist.raw], distanceB_shape hd h0⟩
    · exact ⟨a, by simp [Pos.coords, AzArg.convertB], h0⟩
    · exact ⟨a, by simp [Pos.coords, AzArg.convertB], h0⟩
  case math r y z =>
    obtain ⟨d, hd, h⟩ := (bind_ok_iff _ _ _).mp h
    simp only [mkMathB, bind_ok_iff] at h
    obtain ⟨_, _, _, _, h⟩ := h
    cases h
    simp only [Pos.coords, mem_cons, not_mem_nil, or_false] at ha
    rcases ha with rfl | rfl | rfl
    · exact ⟨d, by simp [Pos.coords, Dist.raw], distanceB_shape hd h0⟩
    · exact ⟨a, by simp [Pos.coords, AzArg.convertB], h0⟩
    · exact ⟨a, by simp [Pos.coords, AzArg.convertB], h0⟩
  case lonlat y z r =>
    obtain ⟨d, hd, h⟩ := (bind_ok_iff _ _ _).mp h
    simp only [mkLonLatB, bind_ok_iff] at h
    obtain ⟨_, _, _, _, h⟩ := h
    cases h
    simp only [Pos.coords, mem_cons, not_mem_nil, or_false] at ha
    rcases ha with rfl | rfl | rfl
    · exact ⟨a, by simp [Pos.coords, AzArg.convertB], h0⟩
    · exact ⟨a, by simp [Pos.coords, AzArg.convertB], h0⟩
    · exact ⟨d, by simp [Pos.coords, Dist.raw], distanceB_shape hd h0⟩

theorem vmapOk_iff {n : ℕ} {P : Pos BArr} : vmapOk n P = .ok () ↔ ∀ a ∈ P.leaves, a.shape = [n] := by
  unfold vmapOk
  constructor
  · intro h
    split at h
    · rename_i hh; simpa using hh
    · cases h
  · intro h
    rw [if_pos (by simpa using h)]

theorem vmapOk_rank0 {n : ℕ} {P : Pos BArr} (h : HasRank0 P) : vmapOk n P ≠ .ok () := by
  intro hh
  obtain ⟨a, ha, h0⟩ := h
  have := vmapOk_iff.mp hh a (by rw [Pos.leaves_eq]; simp [ha])
  rw [h0] at this; cases this

/-! ### keyword arguments -/

theorem rank0_elemD (kw : Kw ℝ) (i : List ℕ) : kw.rank0.elemD i = kw := by
  obtain ⟨y, z, t, p, d⟩ := kw
  cases y <;> cases z <;> cases t <;> cases p <;> cases d <;> rfl

theorem rank0_arrays {kw : Kw ℝ} {a : BArr} (h : a ∈ kw.rank0.arrays) : ∃ x, a = .scalar (some x) := by
  simp only [Kw.arrays, Kw.rank0, mem_append, Option.mem_toList, Option.mem_def, Option.map_eq_some_iff] at h
  rcases h with (((⟨x, _, rfl⟩ | ⟨x, _, rfl⟩) | ⟨x, _, rfl⟩) | ⟨x, _, rfl⟩) | ⟨x, _, rfl⟩ <;> exact ⟨x, rfl⟩

theorem rank0_kwSh (kw : Kw ℝ) : KwSh kw.rank0 := fun a ha => by obtain ⟨x, rfl⟩ := rank0_arrays ha; rfl

theorem rank0_def (kw : Kw ℝ) (D : Set (List ℕ)) (S : List ℕ) : DefKw D S kw.rank0 := fun a ha => by
  obtain ⟨x, rfl⟩ := rank0_arrays ha
  exact ⟨broadcastsTo_nil S, fun _ _ => rfl⟩

/-! ### flattening -/

/-- `Delta` is a scalar, or the position is one-dimensional and `Delta` has its shape -/
def FocalFit (t : List ℕ) (P : Pos BArr) : Prop := ∀ d ∈ P.focalArr, d.shape = [] ∨ d.shape = t ∧ t.length = 1

theorem focalFit_elem {t : List ℕ} {P : Pos BArr} (h : FocalFit t P) (i : ℕ) :
    ∀ d ∈ P.focalArr, d.elem [i] = d.elem (unravelIdx t i) := by
  intro d hd
  rcases h d hd with h | ⟨_, h⟩
  · exact elem_rank0 h _ _
  · obtain ⟨n, rfl⟩ := length_eq_one_iff.mp h
    rw [unravel_flat]

theorem flat_elem {P : Pos BArr} {t : List ℕ} {n i : ℕ} (hd : FocalFit t P) (hi : i < n) :
    (P.mapCoords (Arr.reshaped t [n])).elem [i] = P.elem (unravelIdx t i) :=
  Pos.mapCoords_elem (fun a _ => by rw [reshaped_elem a (inB_flat hi), ravel_flat]) (focalFit_elem hd i)

theorem flat_allSh (P : Pos BArr) (t S : List ℕ) : AllSh S (P.mapCoords (Arr.reshaped t S)) := by
  intro a ha
  rw [Pos.mapCoords_coords] at ha
  obtain ⟨b, _, rfl⟩ := mem_map.mp ha
  rfl

theorem flat_fits {P : Pos BArr} {t : List ℕ} (hd : FocalFit t P) :
    FitsP [t.prod] (P.mapCoords (Arr.reshaped t [t.prod])) := by
  intro a ha
  rw [Pos.arrays_eq, Pos.mapCoords_focal, mem_append] at ha
  rcases ha with ha | ha
  · rw [flat_allSh P t [t.prod] a ha]; exact broadcastsTo_refl _
  · rcases hd a (by simpa using ha) with h | ⟨h, h'⟩
    · rw [h]; exact broadcastsTo_nil _
    · obtain ⟨n, rfl⟩ := length_eq_one_iff.mp h'
      rw [h]; simpa using broadcastsTo_refl [n]

theorem flat_focalSh {P : Pos BArr} {t : List ℕ} (hd : FocalFit t P) :
    FocalSh [t.prod] (P.mapCoords (Arr.reshaped t [t.prod])) := by
  cases P <;> first | trivial | skip
  rename_i mu nu phi d
  rcases hd d rfl with h | ⟨h, h'⟩
  · exact .inr h
  · obtain ⟨n, rfl⟩ := length_eq_one_iff.mp h'
    exact .inl (by simpa using h)

/-! ### the generic rule -/

/-- the position converted to the class the velocity belongs to, on one element -/
theorem cp_elem {kw : Kw ℝ} {P c0 cp : Pos BArr} {K : Kind} {t : List ℕ} {i : ℕ} {p : Pos ℝ} (hd : FocalFit t P)
    (hi : i < t.prod) (hp : P.elem (unravelIdx t i) = some p)
    (h0 : representAsB kw.rank0 (P.mapCoords (Arr.reshaped t [t.prod])) K = .ok c0)
    (h1 : c0.castDistanceB = .ok cp) :
    (∀ q, (representAs kw p K >>= fun c => c.castDistance) = .ok q → cp.elem [i] = some q) ∧
    ∀ e, (representAs kw p K >>= fun c => c.castDistance) = .error e → e = .nonFinite := by
  have hp' := hp
  rw [← flat_elem hd hi] at hp'
  obtain ⟨rfl, hdef⟩ := Pos.elem_some hp'
  have hD : ∀ j ∈ ({[i]} : Set (List ℕ)), InB [t.prod] j := fun j hj => by cases hj; exact inB_flat hi
  have hP : DefP {[i]} [t.prod] (P.mapCoords (Arr.reshaped t [t.prod])) := fun a ha =>
    ⟨flat_fits hd a ha, fun j hj => by cases hj; exact hdef a ha⟩
  have sim := (simAt pyDepth {[i]} [t.prod] kw.rank0 _ K hD (rank0_def _ _ _) hP).comp (T' := True)
    (G := Pos.castDistanceB) (g := fun _ c => c.castDistance)
    fun Q D' hD' hQ _ => castDistanceB_sim (fun j hj => hD j (hD' hj)) hQ
  have hok : (representB pyDepth kw.rank0 (P.mapCoords (Arr.reshaped t [t.prod])) K >>= Pos.castDistanceB) = .ok cp := by
    rw [show representB pyDepth kw.rank0 (P.mapCoords (Arr.reshaped t [t.prod])) K = .ok c0 from h0, ok_bind, h1]
  obtain ⟨_, h2⟩ := sim.ok cp hok
  have h3 := h2 [i] rfl
  simp only [rank0_elemD] at h3
  exact h3

theorem genericB_inv {kw : Kw ℝ} {V W : Vel BArr} {k : VKind} {P : Pos BArr} {s t : List ℕ}
    (hs : V.shapeB = .ok s) (ht : P.shapeB = .ok t) (h : representVelGenericB kw V k P = .ok W) :
    t.prod = s.prod ∧ ∃ c0 cp l, representAsB kw.rank0 (P.mapCoords (Arr.reshaped t [t.prod])) V.kind.integral = .ok c0 ∧
      c0.castDistanceB = .ok cp ∧ (∀ a ∈ cp.leaves, a.shape = [t.prod]) ∧ l.length = t.prod ∧
      (∀ i (hi : i < l.length), velElem kw k.integral (cp.elem [i]) (V.elem (unravelIdx s i)) = .ok l[i]) ∧
      W = (velOfElems k l).map (Arr.reshaped [t.prod] s) := by
  unfold representVelGenericB at h
  rw [hs, ok_bind] at h
  obtain ⟨P1, hP1, ha⟩ := (bind_ok_iff _ _ _).mp h
  obtain ⟨c0, h0, hb⟩ := (bind_ok_iff _ _ _).mp ha
  obtain ⟨cp, h1, hc⟩ := (bind_ok_iff _ _ _).mp hb
  obtain ⟨⟨⟩, h2, hd⟩ := (bind_ok_iff _ _ _).mp hc
  obtain ⟨F, hF, he⟩ := (bind_ok_iff _ _ _).mp hd
  obtain ⟨l, hl, hf⟩ := (bind_ok_iff _ _ _).mp he
  clear h ha hb hc hd he
  obtain ⟨e1, rfl⟩ := reshapeB_inv ht hP1
  have e : t.prod = s.prod := by simpa using e1.symm
  rw [Vel.reshapeB_eq hs, if_pos (by simp)] at hF
  obtain rfl := Except.ok.inj hF
  obtain ⟨hl1, hl2⟩ := mapM_range hl
  rw [Vel.reshapeB_eq (velOfElems_shape k l), if_pos (by simp [hl1])] at hf
  obtain rfl := Except.ok.inj hf
  rw [e]
  refine ⟨rfl, c0, cp, l, h0, h1, vmapOk_iff.mp h2, hl1, fun i hi => ?_, by rw [hl1]⟩
  rw [← hl2 i hi, Pos.elemO_eq]
  congr 1
  exact (Vel.map_elem fun a _ => by rw [reshaped_elem a (inB_flat (hl1 ▸ hi)), ravel_flat]).symm

theorem kind_vel_integral {k : VKind} (h : k ≠ .lonCosLat) : k.integral.vel = k := by
  cases k <;> first | rfl | exact absurd rfl h

theorem velOfElems_map_kind (k : VKind) (l : List (Option (Vel ℝ))) (g : BArr → BArr) :
    ((velOfElems k l).map g).kind = k := by
  rw [Vel.map_kind]; exact VKind.build_kind _ _

/-- the generic rule, element by element -/
theorem genericB_elem {kw : Kw ℝ} {V W : Vel BArr} {k : VKind} {P : Pos BArr} {s t : List ℕ}
    (hs : V.shapeB = .ok s) (ht : P.shapeB = .ok t) (hd : FocalFit t P) (hk : k ≠ .lonCosLat)
    (hv : V.kind ≠ .prolate) (h : representVelGenericB kw V k P = .ok W) :
    t.prod = s.prod ∧ W.kind = k ∧ (∀ a ∈ W.comps, a.shape = s) ∧
    ∀ idx, InB s idx → ∀ v p, V.elem idx = some v → P.elem (unravelIdx t (ravelIdx s idx)) = some p →
      (∀ w, representVelGeneric kw v k p = .ok w → W.elem idx = some w) ∧
      ∀ e, representVelGeneric kw v k p = .error e → e = .nonFinite := by
  obtain ⟨e, c0, cp, l, h0, h1, h2, h3, h4, rfl⟩ := genericB_inv hs ht h
  refine ⟨e, velOfElems_map_kind _ _ _, ?_, ?_⟩
  · intro a ha
    rw [Vel.map_comps] at ha
    obtain ⟨b, _, rfl⟩ := mem_map.mp ha
    rfl
  intro idx hi v p hv' hp
  have hlt : ravelIdx s idx < t.prod := by rw [e]; exact ravel_lt hi
  have hll : ravelIdx s idx < l.length := by rw [h3]; exact hlt
  have hce := cp_elem hd hlt hp h0 h1
  have hve := h4 _ hll
  rw [unravel_ravel hi, hv'] at hve
  have hvk : v.kind = V.kind := (Vel.elem_iff.mp hv').1.symm
  have hlr : p.kind.leavesRank0 v.kind.integral = false := by
    by_contra hne
    have hne : p.kind.leavesRank0 v.kind.integral = true := by simpa using hne
    have hpk : p.kind = (P.mapCoords (Arr.reshaped t [t.prod])).kind := by
      rw [Pos.mapCoords_kind]
      rw [← (Pos.elem_some hp).1]
      cases P <;> rfl
    rw [hvk, hpk] at hne
    have r0 := representB_rank0 (rank0_kwSh kw) (flat_allSh P t [t.prod]) hne
      (show representB pyDepth kw.rank0 _ _ = .ok c0 from h0)
    exact vmapOk_rank0 (castDistanceB_rank0 h1 r0) (vmapOk_iff.mpr h2)
  have hWe : ∀ w, l[ravelIdx s idx] = some w → w.kind = k →
      ((velOfElems k l).map (Arr.reshaped [t.prod] s)).elem idx = some w := by
    intro w hw hwk
    rw [← velOfElems_elem hll hw hwk]
    exact Vel.map_elem fun a _ => by rw [reshaped_elem a hi, unravel_flat]
  unfold representVelGeneric
  rw [hvk]
  rw [hvk] at hlr
  rcases hA : representAs kw p V.kind.integral with e' | c
  · rw [hA] at hce
    exact ⟨fun w hw => (by cases hw), fun e'' he => by
      simp only [error_bind] at he hce; exact Except.error.inj he ▸ hce.2 e' rfl⟩
  rcases hB : c.castDistance with e' | q
  · simp only [hA, ok_bind, hB] at hce
    simp only [ok_bind, hB, error_bind]
    exact ⟨fun w hw => (by cases hw), fun e'' he => Except.error.inj he ▸ hce.2 e' rfl⟩
  simp only [hA, ok_bind, hB] at hce
  have hq := hce.1 q rfl
  have hqk : q.kind = V.kind.integral := by rw [castDistance_kind hB, representAs_kind hA]
  have hg : ¬ (q.kind = .prolate ∨ p.kind.leavesRank0 V.kind.integral = true) := by
    rw [hqk, hlr]
    rintro (h | h)
    · apply hv; revert h; cases V <;> simp [Vel.kind, VKind.integral]
    · cases h
  simp only [ok_bind, hB, if_neg hg]
  rw [hq] at hve
  simp only [velElem] at hve
  rcases hJ : jacobian kw q k.integral with e' | J
  · rw [hJ] at hve
    refine ⟨fun w hw => (by cases hw), fun e'' he => ?_⟩
    cases e' <;> first | exact (Except.error.inj he).symm | cases hve
  · rw [hJ] at hve
    simp only at hve
    show (∀ w, contract J v.comps = .ok w → _) ∧ ∀ e, contract J v.comps = .error e → _
    rcases hC : contract J v.comps with e' | w
    · rw [hC] at hve; cases hve
    · rw [hC] at hve
      refine ⟨fun w' hw => ?_, fun e'' he => (by cases he)⟩
      obtain rfl := Except.ok.inj hw
      obtain ⟨h5, c1, h6, _⟩ := jacobian_col hJ
      exact hWe w (Except.ok.inj hve).symm
        (by rw [← contract_kind _ _ hC c1 h6, h5 c1 h6, kind_vel_integral hk])

end Verif
