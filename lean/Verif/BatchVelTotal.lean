import Verif.BatchVelMain

/-! # The velocity rules on arrays return when the scalar rules do -/

namespace Verif

open List Spec Real

/-- what the constructors check -/
def Passes : Pos ℝ → Prop
  | .radial r => 0 ≤ r.raw
  | .polar r _ => 0 ≤ r.raw
  | .twoSphere θ _ => 0 ≤ θ ∧ θ ≤ π
  | .cyl ρ _ _ => 0 ≤ ρ
  | .sph r θ _ => 0 ≤ r.raw ∧ 0 ≤ θ ∧ θ ≤ π
  | .lonlat _ lat d => 0 ≤ d.raw ∧ -(π / 2) ≤ lat ∧ lat ≤ π / 2
  | .math r _ φ => 0 ≤ r.raw ∧ 0 ≤ φ ∧ φ ≤ π
  | .prolate μ ν _ Δ => 0 < Δ ∧ Δ ^ 2 ≤ μ ∧ |ν| ≤ Δ ^ 2
  | _ => True

theorem DistOk.raw_nonneg {d : Dist ℝ} (h : DistOk d) : 0 ≤ d.raw := by
  cases d with
  | dist d => exact h
  | par d => exact h.1.le
  | dm d => exact h

theorem Valid.passes {p : Pos ℝ} (h : Valid p) : Passes p := by
  cases p
  case radial => exact DistOk.raw_nonneg h
  case polar => exact DistOk.raw_nonneg h
  case twoSphere => exact h
  case cyl => exact h
  case sph => exact ⟨DistOk.raw_nonneg h.1, h.2⟩
  case lonlat => exact ⟨DistOk.raw_nonneg h.1, h.2⟩
  case math => exact ⟨DistOk.raw_nonneg h.1, h.2⟩
  case prolate => exact h
  all_goals trivial

theorem rebuildB_total {S : List ℕ} {Q : Pos BArr} (h0 : 0 ∉ S) (hQ : DefP {i | InB S i} S Q)
    (hc : ∀ i, InB S i → Passes (Q.elemD i)) : Q.rebuildB = .ok Q := by
  have hF : Full {i | InB S i} S := ⟨rfl, h0⟩
  have hD : ∀ i ∈ {i | InB S i}, InB S i := fun i h => h
  suffices h : ∃ Q', Q.rebuildB = .ok Q' by
    obtain ⟨Q', h⟩ := h
    rw [h, rebuildB_eq h]
  cases Q with
  | cart1 x => exact ⟨_, rfl⟩
  | cart2 x y => exact ⟨_, rfl⟩
  | cart3 x y z => exact ⟨_, rfl⟩
  | radial r =>
    exact (mkRadialB_base (T := True) hD (defP_radial.mp hQ)).total trivial hF fun i hi =>
      ⟨_, mkRadial_iff.mpr ⟨hc i hi, rfl⟩⟩
  | polar r y =>
    obtain ⟨hr, hy⟩ := defP_polar.mp hQ
    exact (mkPolarB_base (T := True) (Φ := .angle y) hD hr hy).total trivial hF fun i hi =>
      ⟨_, mkPolar_iff.mpr ⟨hc i hi, rfl⟩⟩
  | twoSphere x y =>
    obtain ⟨hx, hy⟩ := defP_twoSphere.mp hQ
    have k := (checkRangeB_cf hD hx.ef (EF.nat 0) EF.pi).total hF fun i hi => by
      have := hc i hi
      simp only [Passes, Pos.elemD] at this
      simp only [ok_bind]
      exact checkRange_iff.mpr (by simpa using this)
    exact ⟨_, by simp only [Pos.rebuildB]; rw [k, ok_bind]; rfl⟩
  | cyl x y z =>
    obtain ⟨hx, hy, hz⟩ := defP_cyl.mp hQ
    exact (mkCylB_base (T := True) (Φ := .angle y) hD hx hy hz).total trivial hF fun i hi =>
      ⟨_, mkCyl_iff.mpr ⟨hc i hi, rfl⟩⟩
  | sph r y z =>
    obtain ⟨hr, hy, hz⟩ := defP_sph.mp hQ
    exact (mkSphB_base (T := True) (Φ := .angle z) hD hr hy hz).total trivial hF fun i hi =>
      ⟨_, mkSph_iff.mpr ⟨(hc i hi).1, (hc i hi).2, rfl⟩⟩
  | math r y z =>
    obtain ⟨hr, hy, hz⟩ := defP_math.mp hQ
    exact (mkMathB_base (T := True) (Φ := .angle y) hD hr hz hy).total trivial hF fun i hi =>
      ⟨_, mkMath_iff.mpr ⟨(hc i hi).1, (hc i hi).2, rfl⟩⟩
  | lonlat y z r =>
    obtain ⟨hy, hz, hr⟩ := defP_lonlat.mp hQ
    exact (mkLonLatB_base (T := True) (Φ := .angle y) hD hr hz hy).total trivial hF fun i hi =>
      ⟨_, mkLonLat_iff.mpr ⟨(hc i hi).2, (hc i hi).1, rfl⟩⟩
  | prolate x y z w =>
    obtain ⟨hx, hy, hz, hw⟩ := defP_prolate.mp hQ
    refine (mkProlateB_base (T := True) (Φ := .angle z) hD hx hy hz hw).total trivial hF fun i hi => ?_
    obtain ⟨h1, h2, h3⟩ := hc i hi
    exact ⟨_, mkProlate_ok _ h1 (by rw [← sq]; exact h2) (by rw [← sq]; exact h3)⟩

theorem DefP.of_elem {D : Set (List ℕ)} {S : List ℕ} {Q : Pos BArr} (hf : FitsP S Q)
    (h : ∀ i ∈ D, ∃ q, Q.elem i = some q) : DefP D S Q := fun a ha =>
  ⟨hf a ha, fun i hi => by obtain ⟨q, hq⟩ := h i hi; exact (Pos.elem_some hq).2 a ha⟩

theorem broadcast_elem {α : Type} {s idx : List ℕ} (a : Arr α) (hi : InB s idx) :
    (a.broadcastTo s).elem idx = a.elem idx := by rw [Arr.elem_self (a := a.broadcastTo s) hi]; rfl

theorem reshapeB_total {P : Pos BArr} {t : List ℕ} (ht : P.shapeB = .ok t) (hd : FocalFit t P) (h0 : 0 ∉ t)
    (he : ∀ j, InB t j → ∃ p, P.elem j = some p ∧ Passes p) :
    P.reshapeB [t.prod] = .ok (P.mapCoords (Arr.reshaped t [t.prod])) := by
  have hpos : 0 ∉ [t.prod] := by
    simp only [mem_singleton]
    intro h
    exact h0 (prod_eq_zero_iff.mp h.symm)
  have k1 : (P.mapCoords fun a => a.broadcastTo t).rebuildB = .ok (P.mapCoords fun a => a.broadcastTo t) := by
    have hel : ∀ j, InB t j → (P.mapCoords fun a => a.broadcastTo t).elem j = P.elem j := fun j hj =>
      Pos.mapCoords_elem (fun a _ => broadcast_elem a hj) fun _ _ => rfl
    refine rebuildB_total h0 (DefP.of_elem ?_ fun i hi => ?_) fun i hi => ?_
    · intro a ha
      rw [Pos.arrays_eq, Pos.mapCoords_focal, Pos.mapCoords_coords, mem_append] at ha
      rcases ha with ha | ha
      · obtain ⟨b, _, rfl⟩ := mem_map.mp ha; exact broadcastsTo_refl _
      · rcases hd a (by simpa using ha) with h | ⟨h, h'⟩
        · rw [h]; exact broadcastsTo_nil _
        · rw [h]; exact broadcastsTo_refl _
    · obtain ⟨p, hp, _⟩ := he i hi
      exact ⟨p, by rw [hel i hi, hp]⟩
    · obtain ⟨p, hp, h⟩ := he i hi
      rw [← hel i hi] at hp
      rw [(Pos.elem_some hp).1]; exact h
  have k2 : (P.mapCoords (Arr.reshaped t [t.prod])).rebuildB = .ok (P.mapCoords (Arr.reshaped t [t.prod])) := by
    have hel : ∀ i, InB [t.prod] i → ∃ p, (P.mapCoords (Arr.reshaped t [t.prod])).elem i = some p ∧ Passes p := by
      intro i hi
      cases hi with
      | @cons i _ l _ hi hl =>
        cases hl
        rw [flat_elem hd hi]
        exact he _ (unravel_inB hi)
    refine rebuildB_total hpos (DefP.of_elem (flat_fits hd) fun i hi => ?_) fun i hi => ?_
    · obtain ⟨p, hp, _⟩ := hel i hi; exact ⟨p, hp⟩
    · obtain ⟨p, hp, h⟩ := hel i hi
      rw [(Pos.elem_some hp).1]; exact h
  unfold Pos.reshapeB
  rw [ht, ok_bind, Pos.mapCoordsM_ok, ok_bind, k1, ok_bind, gather_coords, if_pos (by simp), ok_bind, k2]

/-- the steps before the Jacobian return, with arrays of shape `(n,)` only -/
theorem cp_total {kw : Kw ℝ} {P : Pos BArr} {K : Kind} {t : List ℕ} (hd : FocalFit t P) (h0 : 0 ∉ t)
    (hK : K ≠ .prolate) (hl : P.kind.leavesRank0 K = false)
    (he : ∀ j, InB t j → ∃ p q, P.elem j = some p ∧
      (representAs kw p K >>= fun c => c.castDistance) = .ok q) :
    ∃ c0 cp, representAsB kw.rank0 (P.mapCoords (Arr.reshaped t [t.prod])) K = .ok c0 ∧
      c0.castDistanceB = .ok cp ∧ vmapOk t.prod cp = .ok () := by
  have hpos : 0 ∉ [t.prod] := by
    simp only [mem_singleton]
    intro h
    exact h0 (prod_eq_zero_iff.mp h.symm)
  have hel : ∀ i, InB [t.prod] i → ∃ p q, (P.mapCoords (Arr.reshaped t [t.prod])).elem i = some p ∧
      (representAs kw p K >>= fun c => c.castDistance) = .ok q := by
    intro i hi
    cases hi with
    | @cons i _ l _ hi hl =>
      cases hl
      rw [flat_elem hd hi]
      exact he _ (unravel_inB hi)
  set P1 := P.mapCoords (Arr.reshaped t [t.prod]) with hP1
  have hP : DefP {i | InB [t.prod] i} [t.prod] P1 := DefP.of_elem (flat_fits hd) fun i hi => by
    obtain ⟨p, _, hp, _⟩ := hel i hi; exact ⟨p, hp⟩
  have sim := (simAt pyDepth {i | InB [t.prod] i} [t.prod] kw.rank0 P1 K (fun i h => h) (rank0_def _ _ _) hP).comp
    (T' := True) (G := Pos.castDistanceB) (g := fun _ c => c.castDistance)
    fun Q D' hD' hQ _ => castDistanceB_sim (fun j hj => hD' hj) hQ
  have hk1 : P1.kind = P.kind := Pos.mapCoords_kind _ _
  have hsh : ShapesOk kw.rank0 P1 K := by
    rw [← hk1] at hl
    revert hl
    cases P1 <;> cases K <;> first
      | exact fun _ => trivial
      | exact fun _ => absurd rfl hK
      | exact fun h => (by cases h)
  obtain ⟨cp, hcp⟩ := sim.total ⟨hsh, trivial⟩ ⟨rfl, hpos⟩ fun i hi => by
    obtain ⟨p, q, hp, hq⟩ := hel i hi
    exact ⟨q, by simp only [rank0_elemD]; rw [(Pos.elem_some hp).1]; exact hq⟩
  obtain ⟨c0, h1, h2⟩ := (bind_ok_iff _ _ _).mp hcp
  refine ⟨c0, cp, h1, h2, vmapOk_iff.mpr ?_⟩
  have a1 := representB_shape pyDepth kw.rank0 P1 K (rank0_kwSh kw) (flat_allSh P t [t.prod]) (flat_focalSh hd)
    (by rw [hk1]; exact hl) hK c0 h1
  have a2 := castDistanceB_shape a1 cp h2
  have hk : cp.kind = K := by rw [castDistanceB_kind h2, representB_kind _ _ _ _ _ h1]
  have hfoc : cp.focalArr = none := by
    cases cp <;> first | rfl | exact absurd hk hK.symm
  rw [Pos.leaves_eq, hfoc]
  intro a ha
  exact a2 a (by simpa using ha)

theorem generic_steps {kw : Kw ℝ} {v w : Vel ℝ} {k : VKind} {p : Pos ℝ} (h : representVelGeneric kw v k p = .ok w) :
    p.kind.leavesRank0 v.kind.integral = false ∧ v.kind.integral ≠ .prolate ∧
    ∃ q J, (representAs kw p v.kind.integral >>= fun c => c.castDistance) = .ok q ∧
      jacobian kw q k.integral = .ok J ∧ contract J v.comps = .ok w := by
  unfold representVelGeneric at h
  obtain ⟨c, h1, h⟩ := (bind_ok_iff _ _ _).mp h
  obtain ⟨q, h2, h⟩ := (bind_ok_iff _ _ _).mp h
  by_cases hp : q.kind = .prolate ∨ p.kind.leavesRank0 v.kind.integral = true
  · rw [if_pos hp] at h; cases h
  rw [if_neg hp] at h
  obtain ⟨J, h3, h⟩ := (bind_ok_iff _ _ _).mp h
  have hqk : q.kind = v.kind.integral := by rw [castDistance_kind h2, representAs_kind h1]
  rw [hqk] at hp
  push Not at hp
  exact ⟨by simpa using hp.2, hp.1, q, J, by rw [h1, ok_bind, h2], h3, h⟩

theorem elem_kind {P : Pos BArr} {i : List ℕ} {p : Pos ℝ} (h : P.elem i = some p) : p.kind = P.kind := by
  rw [← (Pos.elem_some h).1]; cases P <;> rfl

theorem genericB_total {kw : Kw ℝ} {V : Vel BArr} {k : VKind} {P : Pos BArr} {s t : List ℕ}
    (hs : V.shapeB = .ok s) (ht : P.shapeB = .ok t) (hd : FocalFit t P) (hst : t.prod = s.prod) (h0 : 0 ∉ s)
    (he : ∀ idx, InB s idx → ∃ v p w, V.elem idx = some v ∧ P.elem (unravelIdx t (ravelIdx s idx)) = some p ∧
      Passes p ∧ representVelGeneric kw v k p = .ok w) :
    ∃ W, representVelGenericB kw V k P = .ok W := by
  have h0t : 0 ∉ t := by
    intro h
    exact h0 (prod_eq_zero_iff.mp (hst ▸ prod_eq_zero_iff.mpr h))
  have he' : ∀ j, InB t j → ∃ v p w, V.elem (unravelIdx s (ravelIdx t j)) = some v ∧ P.elem j = some p ∧
      Passes p ∧ representVelGeneric kw v k p = .ok w := by
    intro j hj
    have hlt : ravelIdx t j < s.prod := hst ▸ ravel_lt hj
    obtain ⟨v, p, w, h1, h2, h3⟩ := he _ (unravel_inB hlt)
    rw [ravel_unravel hlt, unravel_ravel hj] at h2
    exact ⟨v, p, w, h1, h2, h3⟩
  -- some element exists
  obtain ⟨j0, hj0, _⟩ := exists_source_rev (s := []) (t := t) (j := []) trivial h0t .nil
  obtain ⟨v0, p0, w0, a1, a2, _, a4⟩ := he' j0 hj0
  obtain ⟨b1, b2, _⟩ := generic_steps a4
  have hv0 : v0.kind = V.kind := (Vel.elem_iff.mp a1).1.symm
  rw [elem_kind a2, hv0] at b1
  rw [hv0] at b2
  have k1 := reshapeB_total ht hd h0t fun j hj => by
    obtain ⟨_, p, _, _, h2, h3, _⟩ := he' j hj; exact ⟨p, h2, h3⟩
  obtain ⟨c0, cp, h1, h2, h3⟩ := cp_total (kw := kw) hd h0t b2 b1 fun j hj => by
    obtain ⟨v, p, w, e1, e2, _, e4⟩ := he' j hj
    obtain ⟨_, _, q, _, hq, _⟩ := generic_steps e4
    rw [(Vel.elem_iff.mp e1).1.symm] at hq
    exact ⟨p, q, e2, hq⟩
  obtain ⟨l, hl⟩ : ∃ l, (List.range t.prod).mapM (fun i => velElem kw k.integral (cp.elemO [i])
      ((V.map (Arr.reshaped s [t.prod])).elem [i])) = .ok l := by
    refine mapM_total fun i hi => ?_
    have hi : i < t.prod := by simpa using hi
    obtain ⟨v, p, w, e1, e2, _, e4⟩ := he' _ (unravel_inB hi)
    rw [ravel_unravel hi] at e1
    obtain ⟨_, _, q, J, hq, hJ, hC⟩ := generic_steps e4
    rw [(Vel.elem_iff.mp e1).1.symm] at hq
    have hce := (cp_elem hd hi e2 h1 h2).1 q hq
    rw [Pos.elemO_eq, hce, Vel.map_elem (j := unravelIdx s i)
      fun a _ => by rw [reshaped_elem a (inB_flat hi), ravel_flat], e1]
    exact ⟨some w, by simp only [velElem, hJ, hC]; rfl⟩
  obtain ⟨hl1, -⟩ := mapM_range hl
  unfold representVelGenericB
  rw [hs, ok_bind, ← hst, k1, ok_bind, h1, ok_bind, h2, ok_bind, h3, ok_bind, Vel.reshapeB_eq hs,
    if_pos (by simp [hst]), ok_bind, hl, ok_bind, Vel.reshapeB_eq (velOfElems_shape k l),
    if_pos (by simp [hl1, hst])]
  exact ⟨_, rfl⟩

end Verif
