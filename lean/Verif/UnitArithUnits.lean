import Verif.UnitArithSim

/-! # The units of the Cartesian components of a converted position -/

namespace Verif

open Num CNum LawfulCNum

/-- the unit of `distance` -/
noncomputable def Dist.lengthUnit : Dist (UQ ℝ) → RUnit
  | .dist q => q.unit
  | .par _ => .au
  | .dm _ => .pc

/-- the units of `x, y, z` after `represent_as(p._cartesian_cls)` -/
noncomputable def Pos.toCartUnits : Pos (UQ ℝ) → List RUnit
  | .cart1 x => [x.unit]
  | .radial r => [r.lengthUnit]
  | .cart2 x y => [x.unit, y.unit]
  | .polar r _ => [r.lengthUnit, r.lengthUnit]
  | .twoSphere _ _ => []
  | .cart3 x y z => [x.unit, y.unit, z.unit]
  | .cyl rho _ z => [rho.unit, rho.unit, z.unit]
  | .sph r _ _ => [r.lengthUnit, r.lengthUnit, r.lengthUnit]
  | .lonlat _ _ d => [d.lengthUnit, d.lengthUnit, d.lengthUnit]
  | .math r _ _ => [r.lengthUnit, r.lengthUnit, r.lengthUnit]
  | .prolate mu nu _ delta =>
    [mu.unit.pow (1 / 2), mu.unit.pow (1 / 2), (mu.unit.mul (nu.unit.div (delta.unit.mul delta.unit))).pow (1 / 2)]

theorem RUnit.mul_one (u : RUnit) : u.mul .one = u :=
  RUnit.ext_scale (RDim.mul_one _) (by show u.scale * 1 = u.scale; ring)

theorem RUnit.div_one (u : RUnit) : u.div .one = u :=
  RUnit.ext_scale (RDim.div_one _) (by show u.scale / 1 = u.scale; ring)

theorem RUnit.sq_half (u : RUnit) : (u.mul u).pow (1 / 2) = u := by
  refine RUnit.ext_scale (RDim.half _) ?_
  show (u.scale * u.scale) ^ (((1 / 2 : ℚ)) : ℝ) = u.scale
  have h := u.pos
  rw [Real.mul_rpow h.le h.le, rpow_half_sq h]

theorem RUnit.mul_div_self (u v : RUnit) : u.mul (v.div v) = u := by
  refine RUnit.ext_scale ?_ ?_
  · show u.dim.mul (v.dim.div v.dim) = u.dim
    rw [RDim.div_self, RDim.mul_one]
  · show u.scale * (v.scale / v.scale) = u.scale
    rw [_root_.div_self v.pos.ne', _root_.mul_one]

theorem ofDim_eq {d : RDim} {q r : UQ ℝ} (h : ofDim d q = .ok r) : r = q := by
  unfold ofDim at h
  split at h
  · exact (Except.ok.inj h).symm
  · cases h

theorem mkCart1_eq {x : UQ ℝ} {c : Pos (UQ ℝ)} (h : mkCart1U x = .ok c) : c = .cart1 x := by
  unfold mkCart1U at h
  obtain ⟨a, ha, h⟩ := (bind_ok_iff _ _ _).mp h
  rw [← Except.ok.inj h, ofDim_eq ha]

theorem mkCart2_eq {x y : UQ ℝ} {c : Pos (UQ ℝ)} (h : mkCart2U x y = .ok c) : c = .cart2 x y := by
  unfold mkCart2U at h
  obtain ⟨a, ha, h⟩ := (bind_ok_iff _ _ _).mp h
  obtain ⟨b, hb, h⟩ := (bind_ok_iff _ _ _).mp h
  rw [← Except.ok.inj h, ofDim_eq ha, ofDim_eq hb]

theorem mkCart3_eq {x y z : UQ ℝ} {c : Pos (UQ ℝ)} (h : mkCart3U x y z = .ok c) : c = .cart3 x y z := by
  unfold mkCart3U at h
  obtain ⟨a, ha, h⟩ := (bind_ok_iff _ _ _).mp h
  obtain ⟨b, hb, h⟩ := (bind_ok_iff _ _ _).mp h
  obtain ⟨d, hd, h⟩ := (bind_ok_iff _ _ _).mp h
  rw [← Except.ok.inj h, ofDim_eq ha, ofDim_eq hb, ofDim_eq hd]

theorem trig_unit {q r : UQ ℝ} (h : q.cos = .ok r ∨ q.sin = .ok r ∨ q.tan = .ok r) : r.unit = .one := by
  rcases h with h | h | h
  · obtain ⟨a, _, h⟩ := (bind_ok_iff _ _ _).mp h
    rw [← Except.ok.inj h]
  · obtain ⟨a, _, h⟩ := (bind_ok_iff _ _ _).mp h
    rw [← Except.ok.inj h]
  · obtain ⟨a, _, h⟩ := (bind_ok_iff _ _ _).mp h
    obtain ⟨b, _, h⟩ := (bind_ok_iff _ _ _).mp h
    rw [← Except.ok.inj h]

theorem div_unit {a b r : UQ ℝ} (h : a.div b = .ok r) : r.unit = a.unit.div b.unit := by
  obtain ⟨v, _, h⟩ := (bind_ok_iff _ _ _).mp h
  rw [← Except.ok.inj h]

theorem sub_unit {a b r : UQ ℝ} (h : a.sub b = .ok r) : r.unit = a.unit := by
  obtain ⟨v, _, h⟩ := (bind_ok_iff _ _ _).mp h
  rw [← Except.ok.inj h]

theorem sqrt_unit {a r : UQ ℝ} (h : a.sqrt = .ok r) : r.unit = a.unit.pow (1 / 2) := by
  obtain ⟨v, _, h⟩ := (bind_ok_iff _ _ _).mp h
  rw [← Except.ok.inj h]

theorem distance_unit {r : Dist (UQ ℝ)} {q : UQ ℝ} (h : r.distanceU = .ok q) : q.unit = r.lengthUnit := by
  cases r with
  | dist d => rw [← Except.ok.inj h]; rfl
  | par p =>
    obtain ⟨t, ht, h⟩ := (bind_ok_iff _ _ _).mp h
    rw [div_unit h, trig_unit (.inr (.inr ht)), RUnit.div_one]; rfl
  | dm m =>
    obtain ⟨v, _, h⟩ := (bind_ok_iff _ _ _).mp h
    rw [← Except.ok.inj h]; rfl

theorem mul_trig {a t : UQ ℝ} (h : t.unit = .one) : (a.mul t).unit = a.unit := by
  show a.unit.mul t.unit = a.unit
  rw [h, RUnit.mul_one]

theorem polar_units {r : Dist (UQ ℝ)} {phi : UQ ℝ} {c : Pos (UQ ℝ)} (h : polarToCart2U r phi = .ok c) :
    c.cartUnits = [r.lengthUnit, r.lengthUnit] := by
  obtain ⟨d, hd, h⟩ := (bind_ok_iff _ _ _).mp h
  obtain ⟨co, hco, h⟩ := (bind_ok_iff _ _ _).mp h
  obtain ⟨si, hsi, h⟩ := (bind_ok_iff _ _ _).mp h
  rw [mkCart2_eq h, Pos.cartUnits, mul_trig (trig_unit (.inl hco)), mul_trig (trig_unit (.inr (.inl hsi))),
    distance_unit hd]

theorem sph_units {r : Dist (UQ ℝ)} {theta phi : UQ ℝ} {c : Pos (UQ ℝ)} (h : sphToCart3U r theta phi = .ok c) :
    c.cartUnits = [r.lengthUnit, r.lengthUnit, r.lengthUnit] := by
  obtain ⟨d, hd, h⟩ := (bind_ok_iff _ _ _).mp h
  obtain ⟨s, hs, h⟩ := (bind_ok_iff _ _ _).mp h
  obtain ⟨c', hc, h⟩ := (bind_ok_iff _ _ _).mp h
  obtain ⟨co, hco, h⟩ := (bind_ok_iff _ _ _).mp h
  obtain ⟨si, hsi, h⟩ := (bind_ok_iff _ _ _).mp h
  rw [mkCart3_eq h, Pos.cartUnits, mul_trig (trig_unit (.inl hco)), mul_trig (trig_unit (.inr (.inl hsi))),
    mul_trig (trig_unit (.inl hc)), mul_trig (trig_unit (.inr (.inl hs))), distance_unit hd]

theorem cyl_units {rho phi z : UQ ℝ} {c : Pos (UQ ℝ)} (h : cylToCart3U rho phi z = .ok c) :
    c.cartUnits = [rho.unit, rho.unit, z.unit] := by
  obtain ⟨co, hco, h⟩ := (bind_ok_iff _ _ _).mp h
  obtain ⟨si, hsi, h⟩ := (bind_ok_iff _ _ _).mp h
  rw [mkCart3_eq h, Pos.cartUnits, mul_trig (trig_unit (.inl hco)), mul_trig (trig_unit (.inr (.inl hsi)))]

theorem mkSphU_eq {r : Dist (UQ ℝ)} {theta : UQ ℝ} {az : AzArg (UQ ℝ)} {c : Pos (UQ ℝ)}
    (h : mkSphU r theta az = .ok c) : ∃ t a, c = .sph r t a := by
  obtain ⟨t, _, h⟩ := (bind_ok_iff _ _ _).mp h
  obtain ⟨a, _, h⟩ := (bind_ok_iff _ _ _).mp h
  obtain ⟨_, _, h⟩ := (bind_ok_iff _ _ _).mp h
  obtain ⟨_, _, h⟩ := (bind_ok_iff _ _ _).mp h
  exact ⟨t, a, (Except.ok.inj h).symm⟩

theorem mkCylU_eq {rho z : UQ ℝ} {az : AzArg (UQ ℝ)} {c : Pos (UQ ℝ)} (h : mkCylU rho az z = .ok c) :
    ∃ a, c = .cyl rho a z := by
  obtain ⟨x, hx, h⟩ := (bind_ok_iff _ _ _).mp h
  obtain ⟨a, _, h⟩ := (bind_ok_iff _ _ _).mp h
  obtain ⟨w, hw, h⟩ := (bind_ok_iff _ _ _).mp h
  obtain ⟨_, _, h⟩ := (bind_ok_iff _ _ _).mp h
  refine ⟨a, ?_⟩
  rw [← Except.ok.inj h, ofDim_eq hx, ofDim_eq hw]

theorem twoSphere_cart2U (m : ℕ) (theta phi : UQ ℝ) (c : Pos (UQ ℝ)) :
    representU m {} (.twoSphere theta phi) .cart2 ≠ .ok c := by
  induction m generalizing c with
  | zero => rw [representU]; nofun
  | succ m ih =>
    intro h
    rw [representU] at h
    obtain ⟨d, hd, _⟩ := (bind_ok_iff _ _ _).mp h
    exact ih d hd

theorem toCart_units_fuel (n : ℕ) {p c : Pos (UQ ℝ)} (h : representU (n + 3) {} p p.kind.cartesian = .ok c) :
    c.cartUnits = p.toCartUnits := by
  cases p with
  | cart1 x => obtain rfl := Except.ok.inj h; rfl
  | radial r =>
    obtain ⟨d, hd, h⟩ := (bind_ok_iff _ _ _).mp (show (do mkCart1U (← r.distanceU)) = .ok c from h)
    rw [mkCart1_eq h, Pos.cartUnits, distance_unit hd]; rfl
  | cart2 x y => obtain rfl := Except.ok.inj h; rfl
  | polar r phi => exact polar_units (show polarToCart2U r phi = .ok c from h)
  | twoSphere theta phi =>
    exact absurd h (twoSphere_cart2U _ theta phi c)
  | cart3 x y z => obtain rfl := Except.ok.inj h; rfl
  | cyl rho phi z => exact cyl_units (show cylToCart3U rho phi z = .ok c from h)
  | sph r theta phi => exact sph_units (show sphToCart3U r theta phi = .ok c from h)
  | math r theta phi => exact sph_units (show sphToCart3U r phi theta = .ok c from h)
  | lonlat lon lat d =>
    obtain ⟨s, hs, h⟩ := (bind_ok_iff _ _ _).mp
      (show (do representU (n + 2) {} (← representU (n + 2) {} (.lonlat lon lat d) .sph) .cart3) = .ok c from h)
    obtain ⟨a, _, hs⟩ := (bind_ok_iff _ _ _).mp (show lonlatToSphU lon lat d = .ok s from hs)
    obtain ⟨t, a, rfl⟩ := mkSphU_eq hs
    exact sph_units (show sphToCart3U d t a = .ok c from h)
  | prolate mu nu phi delta =>
    obtain ⟨s, hs, h⟩ := (bind_ok_iff _ _ _).mp
      (show (do representU (n + 2) {} (← representU (n + 2) {} (.prolate mu nu phi delta) .cyl) .cart3) = .ok c from h)
    obtain ⟨nd, hnd, hs⟩ := (bind_ok_iff _ _ _).mp (show prolateToCylU mu nu phi delta = .ok s from hs)
    obtain ⟨a, ha, hs⟩ := (bind_ok_iff _ _ _).mp hs
    obtain ⟨b, hb, hs⟩ := (bind_ok_iff _ _ _).mp hs
    obtain ⟨rho, hrho, hs⟩ := (bind_ok_iff _ _ _).mp hs
    obtain ⟨z, hz, hs⟩ := (bind_ok_iff _ _ _).mp hs
    obtain ⟨az, rfl⟩ := mkCylU_eq hs
    rw [cyl_units (show cylToCart3U _ _ _ = .ok c from h), sqrt_unit hrho]
    show [(a.unit.mul b.unit).pow _, (a.unit.mul b.unit).pow _, z.unit] = _
    rw [sub_unit ha, sub_unit hb, sqrt_unit hz]
    show [(mu.unit.mul .one).pow _, (mu.unit.mul .one).pow _, (mu.unit.mul nd.unit).pow _] = _
    rw [div_unit hnd, RUnit.mul_one]; rfl

theorem toCart_units {p c : Pos (UQ ℝ)} (h : toCartesianU p = .ok c) : c.cartUnits = p.toCartUnits :=
  toCart_units_fuel 197 h

end Verif
