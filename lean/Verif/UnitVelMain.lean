import Verif.UnitVelSim

/-! # Velocities and accelerations with units: the rules -/

namespace Verif

open Num CNum LawfulCNum

theorem RDim.col_mul (x d : RDim) (n : ℕ) : (x.div d).mul (perTime n d) = perTime n x := by
  cases x; cases d
  simp only [perTime, RDim.mul, RDim.pow, RDim.div, RDim.mk.injEq]
  refine ⟨?_, ?_, ?_, ?_, ?_⟩ <;> ring

theorem Vel.kind_map {α β : Type} (f : α → β) (v : Vel α) : (v.map f).kind = v.kind := by cases v <;> rfl
theorem Vel.comps_map {α β : Type} (f : α → β) (v : Vel α) : (v.map f).comps = v.comps.map f := by cases v <;> rfl
theorem Vel.map_map' {α β γ : Type} (f : α → β) (g : β → γ) (v : Vel α) : (v.map f).map g = v.map fun x => g (f x) := by
  cases v <;> rfl

theorem mul_phys (a b : UQ ℝ) : (a.mul b).phys = a.phys * b.phys := (mul_rel (UQ.rel_self rfl) (UQ.rel_self rfl)).2

theorem term_rel {n : ℕ} {d : RDim} {c : Vel (UQ ℝ)} {c' : Vel ℝ} {a : UQ ℝ} (hc : Vel.RelF (fun x => x.div d) c c')
    (ha : a.unit.dim = perTime n d) : Vel.RelF (perTime n) (c.map fun x => x.mul a) (c'.map fun x => x * a.phys) := by
  obtain ⟨rfl, h⟩ := hc
  refine ⟨?_, ?_⟩
  · rw [Vel.map_map', Vel.map_map']
    congr 1
    funext x
    exact mul_phys x a
  · unfold Vel.Has at h ⊢
    rw [Vel.comps_map, Vel.kind_map, List.map_map]
    have e : ((fun q : UQ ℝ => q.unit.dim) ∘ fun x : UQ ℝ => x.mul a) =
        (fun D => D.mul (perTime n d)) ∘ fun q => q.unit.dim := by
      funext x
      show x.unit.dim.mul a.unit.dim = _
      rw [ha]; rfl
    rw [e, ← List.map_map, h, List.map_map]
    congr 1
    funext x
    exact RDim.col_mul x d n

theorem add_fields {d : RDim} {a b : UQ ℝ} (ha : a.unit.dim = d) (hb : b.unit.dim = d) :
    ∃ r, a.add b = .ok r ∧ r.Rel d (a.phys + b.phys) := add_rel (UQ.rel_self ha) (UQ.rel_self hb)

theorem map2_rel {f : RDim → RDim} {v w : Vel (UQ ℝ)} (hv : v.Has f) (hw : w.Has f) :
    RelRes (Vel.RelF f) (Vel.map2M UQ.add v w) (Vel.map2 (fun x y => x + y) (v.map UQ.phys) (w.map UQ.phys)) := by
  cases v <;> cases w <;> first
    | exact .err _
    | (simp only [Vel.Has, Vel.comps, Vel.kind, VKind.fieldDims, List.map, List.cons.injEq, and_true] at hv hw
       first
       | exact .left (add_fields hv hw) fun a ha => .ok ⟨by simp only [Vel.map, ha.2], by
          simp only [Vel.Has, Vel.comps, Vel.kind, VKind.fieldDims, List.map, ha.1]⟩
       | exact .left (add_fields hv.1 hw.1) fun a ha => .left (add_fields hv.2 hw.2) fun b hb =>
          .ok ⟨by simp only [Vel.map, ha.2, hb.2], by
            simp only [Vel.Has, Vel.comps, Vel.kind, VKind.fieldDims, List.map, ha.1, hb.1]⟩
       | exact .left (add_fields hv.1 hw.1) fun a ha => .left (add_fields hv.2.1 hw.2.1) fun b hb =>
          .left (add_fields hv.2.2 hw.2.2) fun c hc => .ok ⟨by simp only [Vel.map, ha.2, hb.2, hc.2], by
            simp only [Vel.Has, Vel.comps, Vel.kind, VKind.fieldDims, List.map, ha.1, hb.1, hc.1]⟩)

theorem contract_rel (n : ℕ) {ds : List RDim} {cs : List (Vel (UQ ℝ))} {cs' : List (Vel ℝ)} (h : ColsRel ds cs cs') :
    ∀ as : List (UQ ℝ), as.map (fun q => q.unit.dim) = ds.map (perTime n) →
      RelRes (Vel.RelF (perTime n)) (contractU cs as) (contract cs' (as.map UQ.phys)) := by
  induction h with
  | nil => intro as _; cases as <;> exact .err _
  | @cons d ds c c' cs cs' hc hcs ih =>
    intro as has
    cases as with
    | nil => cases has
    | cons a as =>
      simp only [List.map_cons, List.cons.injEq] at has
      have ht := term_rel hc has.1
      have step : RelRes (Vel.RelF (perTime n)) (do Vel.map2M UQ.add (c.map fun x => x.mul a) (← contractU cs as))
          (do Vel.map2 (fun x y => x + y) (c'.map fun x => x * a.phys) (← contract cs' (as.map UQ.phys))) :=
        .bind (ih as has.2) fun w w' hw => by
          obtain ⟨rfl, hw⟩ := hw
          rw [← ht.1]
          exact map2_rel ht.2 hw
      cases hcs with
      | nil =>
        cases as with
        | nil => exact .ok ht
        | cons b bs => exact step
      | cons hc2 hcs2 => exact step

theorem mkVel_rel {n : ℕ} {v : Vel (UQ ℝ)} {v' : Vel ℝ} (h : Vel.RelF (perTime n) v v') :
    RelRes (Vel.RelF (perTime n)) (mkVelU n v) (.ok v') := by
  unfold mkVelU
  rw [if_pos (show v.comps.map (fun q => q.unit.dim) = v.kind.fieldDims.map (perTime n) from h.2)]
  exact .ok h

/-! ### Distances cast to lengths -/

theorem castDistance_rel {p : Pos (UQ ℝ)} {p' : Pos ℝ} (h : p.Rel p') :
    RelRes Pos.Rel p.castDistanceU p'.castDistance := by
  obtain ⟨h, rfl⟩ := h
  cases p with
  | radial r => exact .bind (distance_rel (dist_self h)) fun _ _ hd => mkRadial_rel (dist_dist hd)
  | polar r φ =>
    exact .bind (distance_rel (dist_self h.1)) fun _ _ hd => mkPolar_rel (dist_dist hd) (az_angle (UQ.rel_self h.2))
  | sph r θ φ =>
    exact .bind (distance_rel (dist_self h.1)) fun _ _ hd =>
      mkSph_rel (dist_dist hd) (UQ.rel_self h.2.1) (az_angle (UQ.rel_self h.2.2))
  | lonlat lon lat r =>
    exact .bind (distance_rel (dist_self h.2.2)) fun _ _ hd =>
      mkLonLat_rel (az_angle (UQ.rel_self h.1)) (UQ.rel_self h.2.1) (dist_dist hd)
  | math r θ φ =>
    exact .bind (distance_rel (dist_self h.1)) fun _ _ hd =>
      mkMath_rel (dist_dist hd) (az_angle (UQ.rel_self h.2.1)) (UQ.rel_self h.2.2)
  | cart1 x => exact .ok ⟨h, rfl⟩
  | cart2 x y => exact .ok ⟨h, rfl⟩
  | twoSphere x y => exact .ok ⟨h, rfl⟩
  | cart3 x y z => exact .ok ⟨h, rfl⟩
  | cyl x y z => exact .ok ⟨h, rfl⟩
  | prolate x y z w => exact .ok ⟨h, rfl⟩

/-- distances are lengths -/
def Pos.PlainD {α : Type} : Pos α → Prop
  | .radial r | .polar r _ | .sph r _ _ | .lonlat _ _ r | .math r _ _ => ∃ d, r = .dist d
  | _ => True

theorem castDistance_plain {p q : Pos ℝ} (h : p.castDistance = .ok q) : q.PlainD := by
  cases p <;> simp only [Pos.castDistance, bind_ok_iff, mkRadial_iff, mkPolar_iff, mkSph_iff, mkMath_iff,
    mkLonLat_iff] at h <;>
    first
    | (cases h; trivial)
    | (obtain ⟨d, _, h⟩ := h
       first
       | (obtain ⟨_, rfl⟩ := h; exact ⟨d, rfl⟩)
       | (obtain ⟨_, _, rfl⟩ := h; exact ⟨d, rfl⟩))

theorem tr_plain {p : Pos (UQ ℝ)} (h : (p.tr UQ.phys).PlainD) : p.PlainD := by
  cases p <;> first
    | trivial
    | (obtain ⟨d, hd⟩ := h
       rename_i r
       cases r <;> first | exact ⟨_, rfl⟩ | cases hd)
    | (obtain ⟨d, hd⟩ := h
       rename_i r _
       cases r <;> first | exact ⟨_, rfl⟩ | cases hd)
    | (obtain ⟨d, hd⟩ := h
       rename_i r _ _
       cases r <;> first | exact ⟨_, rfl⟩ | cases hd)

theorem columnUnits_dims {p : Pos (UQ ℝ)} (h : p.WD) (hp : p.PlainD) (k : VKind) (hk : p.kind = k.integral) :
    p.columnUnits.map (fun u => u.dim) = k.fieldDims := by
  cases p with
  | cart1 x => cases k <;> cases hk; simp only [Pos.columnUnits, VKind.fieldDims, List.map, show x.unit.dim = dL from h]
  | radial r =>
    obtain ⟨d, rfl⟩ := hp
    cases k <;> cases hk; simp only [Pos.columnUnits, VKind.fieldDims, List.map, Dist.raw, show d.unit.dim = dL from h]
  | cart2 x y => cases k <;> cases hk; simp only [Pos.columnUnits, VKind.fieldDims, List.map, h.1, h.2]
  | polar r φ =>
    obtain ⟨d, rfl⟩ := hp
    cases k <;> cases hk; simp only [Pos.columnUnits, VKind.fieldDims, List.map, Dist.raw, show d.unit.dim = dL from h.1, h.2]
  | twoSphere x y => cases k <;> cases hk; simp only [Pos.columnUnits, VKind.fieldDims, List.map, h.1, h.2]
  | cart3 x y z => cases k <;> cases hk; simp only [Pos.columnUnits, VKind.fieldDims, List.map, h.1, h.2.1, h.2.2]
  | cyl x y z => cases k <;> cases hk; simp only [Pos.columnUnits, VKind.fieldDims, List.map, h.1, h.2.1, h.2.2]
  | sph r θ φ =>
    obtain ⟨d, rfl⟩ := hp
    cases k <;> cases hk
    simp only [Pos.columnUnits, VKind.fieldDims, List.map, Dist.raw, show d.unit.dim = dL from h.1, h.2.1, h.2.2]
  | lonlat lon lat r =>
    obtain ⟨d, rfl⟩ := hp
    cases k <;> cases hk <;>
      simp only [Pos.columnUnits, VKind.fieldDims, List.map, Dist.raw, show d.unit.dim = dL from h.2.2, h.1, h.2.1]
  | math r θ φ =>
    obtain ⟨d, rfl⟩ := hp
    cases k <;> cases hk
    simp only [Pos.columnUnits, VKind.fieldDims, List.map, Dist.raw, show d.unit.dim = dL from h.1, h.2.1, h.2.2]
  | prolate x y z w => cases k <;> cases hk; simp only [Pos.columnUnits, VKind.fieldDims, List.map, h.1, h.2.1, h.2.2.1]

/-! ### Rules -/

theorem representAs_rel {kw : Kw (UQ ℝ)} (hk : kw.WD) {p : Pos (UQ ℝ)} (hp : p.WD) (k : Kind)
    (hu : k = .prolate → ProlateUnits kw p) :
    RelRes Pos.Rel (representAsU kw p k) (representAs (kw.tr UQ.phys) (p.tr UQ.phys) k) :=
  representU_all 199 kw hk p hp k hu

/-- the Jacobian contraction at a position of the class of the vector -/
theorem push_rel (n : ℕ) {kw : Kw (UQ ℝ)} (hk : kw.WD) {cp : Pos (UQ ℝ)} (hp : cp.WD) (hpl : cp.PlainD) {v : Vel (UQ ℝ)}
    (hv : v.Has (perTime n)) (hkind : cp.kind = v.kind.integral) (hnp : cp.kind ≠ .prolate) (k : Kind) :
    RelRes (Vel.RelF (perTime n)) (do let cols ← jacobianU kw cp k; mkVelU n (← contractU cols v.comps))
      (do let cols ← jacobian (kw.tr UQ.phys) (cp.tr UQ.phys) k; contract cols (v.map UQ.phys).comps) := by
  refine .bind (jacobian_rel hk hp hnp k) fun cols cols' hc => ?_
  rw [columnUnits_dims hp hpl v.kind hkind] at hc
  have h := contract_rel n hc v.comps hv
  rw [Vel.comps_map]
  revert h
  generalize contractU cols v.comps = X
  generalize contract cols' (v.comps.map UQ.phys) = Y
  intro h
  cases h with
  | err e => exact .err e
  | ok h => exact mkVel_rel h

theorem generic_rel {kw : Kw (UQ ℝ)} (hk : kw.WD) {p : Pos (UQ ℝ)} (hp : p.WD) {v : Vel (UQ ℝ)} (hv : v.Has (perTime 1))
    (k : VKind) (hu : v.kind = .prolate → ProlateUnits kw p) :
    RelRes (Vel.RelF (perTime 1)) (representVelGenericU kw v k p)
      (representVelGeneric (kw.tr UQ.phys) (v.map UQ.phys) k (p.tr UQ.phys)) := by
  unfold representVelGenericU representVelGeneric
  rw [Vel.kind_map, tr_kind]
  refine .bind ((representAs_rel hk hp v.kind.integral (fun h => hu (by revert h; cases v.kind <;> decide))).with
    (P := fun q => q.kind = v.kind.integral) fun b hb => representAs_kind hb) fun q q' hq => ?_
  refine .bind ((castDistance_rel hq.1).with (P := fun c => c.kind = v.kind.integral ∧ c.PlainD) fun b hb =>
    ⟨(castDistance_kind hb).trans hq.2, castDistance_plain hb⟩) fun cp cp' hcp => ?_
  obtain ⟨⟨hw, rfl⟩, hkind, hpl⟩ := hcp
  rw [tr_kind] at hkind ⊢
  by_cases hc : cp.kind = .prolate ∨ p.kind.leavesRank0 v.kind.integral = true
  · rw [if_pos hc, if_pos hc]; exact .err _
  · rw [if_neg hc, if_neg hc]
    exact push_rel 1 hk hw (tr_plain hpl) hv hkind (fun h => hc (.inl h)) k.integral

theorem lat_rel {p : Pos (UQ ℝ)} {p' : Pos ℝ} (h : p.Rel p') : RelRes (UQ.Rel dA) p.lat p'.lat := by
  obtain ⟨h, rfl⟩ := h
  cases p with
  | lonlat lon lat d => exact .ok ⟨h.2.1, rfl⟩
  | _ => exact .err _

theorem kw_empty_tr : (({} : Kw (UQ ℝ)).tr UQ.phys) = {} := rfl

theorem RDim.mul_empty (d : RDim) : d.mul {} = d := RDim.mul_one d

theorem lonCosLatToLonLat_rel {a b c : UQ ℝ} (hv : (Vel.lonCosLat a b c).Has (perTime 1)) {p : Pos (UQ ℝ)} (hp : p.WD) :
    RelRes (Vel.RelF (perTime 1)) (lonCosLatToLonLatU a b c p)
      (lonCosLatToLonLat a.phys b.phys c.phys (p.tr UQ.phys)) := by
  simp only [Vel.Has, Vel.comps, Vel.kind, VKind.fieldDims, List.map, List.cons.injEq, and_true] at hv
  refine .bind (representAs_rel kw_nil hp .lonlat nofun) fun pv pv' h => ?_
  refine .bind (lat_rel h) fun la la' hla => ?_
  refine .left (cos_rel hla) fun co hco => ?_
  refine .bind (div_rel (UQ.rel_self hv.1) hco) fun q q' hq => ?_
  have hd := hq.1.1
  rw [RDim.div_one] at hd
  refine mkVel_rel ⟨?_, ?_⟩
  · rw [Vel.map, hq.1.2]
  · simp only [Vel.Has, Vel.comps, Vel.kind, VKind.fieldDims, List.map, hd, hv.2.1, hv.2.2]

theorem toLonLat_rel {p : Pos (UQ ℝ)} (hp : p.WD) {v : Vel (UQ ℝ)} (hv : v.Has (perTime 1))
    (hu : v.kind = .prolate → ProlateUnits {} p) :
    RelRes (Vel.RelF (perTime 1)) (toLonLatU v p) (toLonLat (v.map UQ.phys) (p.tr UQ.phys)) := by
  unfold toLonLatU toLonLat
  rw [Vel.kind_map]
  by_cases h : v.kind = .lonlat
  · rw [if_pos h, if_pos h]; exact .ok ⟨rfl, hv⟩
  · rw [if_neg h, if_neg h]; exact generic_rel kw_nil hp hv .lonlat hu

theorem toLonCosLat_rel {p : Pos (UQ ℝ)} (hp : p.WD) {v : Vel (UQ ℝ)} (hv : v.Has (perTime 1))
    (hu : v.kind = .prolate → ProlateUnits {} p) :
    RelRes (Vel.RelF (perTime 1)) (toLonCosLatU v p) (toLonCosLat (v.map UQ.phys) (p.tr UQ.phys)) := by
  refine .bind (toLonLat_rel hp hv hu) fun w w' hw => ?_
  obtain ⟨rfl, hw⟩ := hw
  cases w with
  | lonlat a b c =>
    simp only [Vel.Has, Vel.comps, Vel.kind, VKind.fieldDims, List.map, List.cons.injEq, and_true] at hw
    refine .bind (representAs_rel kw_nil hp .lonlat nofun) fun pv pv' h => ?_
    refine .bind (lat_rel h) fun la la' hla => ?_
    refine .left (cos_rel hla) fun co hco => ?_
    have hm := mul_one_rel (UQ.rel_self hw.1) hco
    refine mkVel_rel ⟨?_, ?_⟩
    · rw [Vel.map, hm.2]
    · simp only [Vel.Has, Vel.comps, Vel.kind, VKind.fieldDims, List.map, hm.1, hw.2.1, hw.2.2]
  | _ => exact .err _

theorem representVel_rel {kw : Kw (UQ ℝ)} (hk : kw.WD) {p : Pos (UQ ℝ)} (hp : p.WD) {v : Vel (UQ ℝ)}
    (hv : v.Has (perTime 1)) (k : VKind)
    (hu : v.kind = .prolate → k ≠ .prolate → ProlateUnits {} p ∧ ProlateUnits kw p) :
    RelRes (Vel.RelF (perTime 1)) (representVelU kw v k p)
      (representVel (kw.tr UQ.phys) (v.map UQ.phys) k (p.tr UQ.phys)) := by
  unfold representVelU representVel
  rw [Vel.kind_map]
  by_cases h1 : v.kind.dim ≠ k.dim
  · rw [if_pos h1, if_pos h1]; exact .err _
  rw [if_neg h1, if_neg h1]
  by_cases h2 : v.kind = k ∧ k.selfRule = true
  · rw [if_pos h2, if_pos h2]; exact .ok ⟨rfl, hv⟩
  rw [if_neg h2, if_neg h2]
  have ne : v.kind = .prolate → k ≠ .prolate := fun h e => h2 ⟨h.trans e.symm, by rw [e]; rfl⟩
  have gen := generic_rel hk hp hv k fun h => (hu h (ne h)).2
  have toC := toLonCosLat_rel hp hv fun h => (hu h (ne h)).1
  cases v with
  | lonCosLat a b c =>
    have hl := lonCosLatToLonLat_rel hv hp
    have two : RelRes (Vel.RelF (perTime 1)) (do representVelGenericU {} (← lonCosLatToLonLatU a b c p) k p)
        (do representVelGeneric {} (← lonCosLatToLonLat a.phys b.phys c.phys (p.tr UQ.phys)) k (p.tr UQ.phys)) := by
      have hk' : ∀ w, lonCosLatToLonLat a.phys b.phys c.phys (p.tr UQ.phys) = .ok w → w.kind = .lonlat := by
        intro w hw
        simp only [lonCosLatToLonLat, bind_ok_iff] at hw
        obtain ⟨_, _, _, _, _, _, h⟩ := hw
        cases h; rfl
      refine .bind (hl.with hk') fun w w' hw => ?_
      obtain ⟨⟨rfl, hw⟩, hkd⟩ := hw
      rw [Vel.kind_map] at hkd
      exact generic_rel kw_nil hp hw k (fun h => by rw [hkd] at h; cases h)
    cases k <;> first | exact hl | exact two
  | _ => cases k <;> first | exact toC | exact gen

theorem representAcc_rel {kw : Kw (UQ ℝ)} (hk : kw.WD) {p : Pos (UQ ℝ)} (hp : p.WD) {a : Acc (UQ ℝ)}
    (ha : a.Has (perTime 2)) {v : Vel (UQ ℝ)} (hv : v.Has (perTime 1)) (k : VKind)
    (hu : a.kind = .prolate → ProlateUnits kw p) :
    RelRes (Vel.RelF (perTime 2)) (representAccU kw a k v p)
      (representAcc (kw.tr UQ.phys) (a.map UQ.phys) k (v.map UQ.phys) (p.tr UQ.phys)) := by
  unfold representAccU representAcc
  rw [Vel.kind_map]
  by_cases h1 : a.kind.dim ≠ k.dim ∨ a.kind = .lonCosLat ∨ k = .lonCosLat
  · rw [if_pos h1, if_pos h1]; exact .err _
  rw [if_neg h1, if_neg h1]
  by_cases h2 : a.kind = k ∧ k.dim = 1
  · rw [if_pos h2, if_pos h2]; exact .ok ⟨rfl, ha⟩
  rw [if_neg h2, if_neg h2]
  unfold representAccGenericU representAccGeneric
  rw [Vel.kind_map, tr_kind]
  refine .bind ((representAs_rel hk hp a.kind.integral (fun h => hu (by revert h; cases a.kind <;> decide))).with
    (P := fun q => q.kind = a.kind.integral) fun b hb => representAs_kind hb) fun q q' hq => ?_
  refine .bind ((castDistance_rel hq.1).with (P := fun c => c.kind = a.kind.integral ∧ c.PlainD) fun b hb =>
    ⟨(castDistance_kind hb).trans hq.2, castDistance_plain hb⟩) fun cp cp' hcp => ?_
  obtain ⟨⟨hw, rfl⟩, hkind, hpl⟩ := hcp
  rw [tr_kind] at hkind
  refine .bind (representVel_rel hk hw hv a.kind fun _ hv' => ?_) fun w w' _ => ?_
  · have hne : cp.kind ≠ .prolate := by
      rw [hkind]; have := hv'; revert this; cases a.kind <;> decide
    cases cp <;> first | exact ⟨trivial, trivial⟩ | exact absurd rfl hne
  rw [tr_kind]
  by_cases hc : cp.kind = .prolate ∨ p.kind.leavesRank0 a.kind.integral = true
  · rw [if_pos hc, if_pos hc]; exact .err _
  · rw [if_neg hc, if_neg hc]
    exact push_rel 2 kw_nil hw (tr_plain hpl) ha hkind (fun h => hc (.inl h)) k.integral

end Verif
