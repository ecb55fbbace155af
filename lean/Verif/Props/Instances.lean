import Verif.Props.Convert
import Verif.Props.Dimension
import Verif.Props.DimExact
import Verif.Props.Arith
import Verif.Props.Exact
import Verif.Props.EqExact
import Verif.Props.Velocity
import Verif.Props.Acceleration
import Verif.Props.AccExact
import Verif.Props.Distance

/-!
# Instances

Concrete cases that meet the hypotheses of theorems on positions, velocities, accelerations and distances for which no
instance stands beside the theorem.
-/

namespace Verif.Instances

open Verif.Spec Verif.Props Real

/-- a spherical position in the x-y plane, at `(0, 3, 0)` -/
noncomputable def S : Pos ℝ := .sph (.dist 3) (π / 2) (π / 2)

theorem S_valid : Valid S := ⟨by norm_num [DistOk], by positivity, by linarith [pi_pos]⟩

theorem S_canon : Canon S := ⟨by positivity, by linarith [pi_pos]⟩

theorem S_point : point S = ⟨0, 3, 0⟩ := by simp [S, point, sphPoint, distOf]

theorem S_off : OffAxis (point S) := by rw [S_point]; simp [OffAxis]

theorem S_ne : point S ≠ V3.zero := by rw [S_point]; simp [V3.zero]

theorem S_to (k : Kind) (h3 : k.dim = 3) (h : k ≠ .prolate) : ∃ q, representAs {} S k = .ok q :=
  C09_conversion_total {} S k S_valid h3.symm (by decide) (by rintro rfl; cases h3) S_ne (by rintro rfl; cases h3)
    (fun e => absurd e h)

theorem S_plain : PlainDist S := by simp [S, PlainDist]

/-- a point of the plane, and one of the line -/
noncomputable def P : Pos ℝ := .polar (.dist 2) (π / 2)

theorem P_valid : Valid P := by norm_num [P, Valid, DistOk]

theorem P_point : point P = ⟨0, 2, 0⟩ := by simp [P, point, distOf]

theorem P_plain : PlainDist P := by simp [P, PlainDist]

def L : Pos ℝ := .cart1 5

/-! ### C01, C02, C04, C05, C08-C11 -/

example : ∃ q, representAs {} S .lonlat = .ok q ∧ q.kind = .lonlat ∧ point q = ⟨0, 3, 0⟩ := by
  obtain ⟨q, h⟩ := S_to .lonlat rfl (by decide)
  have := C01_conversion_preserves_point {} S q .lonlat S_valid rfl rfl h
  exact ⟨q, h, this.1, this.2.trans S_point⟩

example : ∃ q, representAs {} P .cart2 = .ok q ∧ point q = ⟨0, 2, 0⟩ := by
  obtain ⟨q, h⟩ := C09_conversion_total {} P .cart2 P_valid rfl (by decide) (by decide) (by rw [P_point]; simp [V3.zero])
    (fun h => by cases h) (fun h => by cases h)
  exact ⟨q, h, (C02_conversion_preserves_point {} P q .cart2 P_valid (Or.inl ⟨rfl, rfl⟩) h).2.trans P_point⟩

example : ∃ q, representAs {} L .radial = .ok q ∧ point q = ⟨5, 0, 0⟩ := by
  obtain ⟨q, h⟩ := C09_conversion_total {} L .radial trivial rfl (by decide) (by decide) (by simp [L, point, V3.zero])
    (by simp [L, point]) (fun h => by cases h)
  exact ⟨q, h, (C02_conversion_preserves_point {} L q .radial trivial (Or.inr ⟨rfl, rfl⟩) h).2⟩

example : ∃ b q, representAs {} S .cyl = .ok b ∧ representAs {} b .math = .ok q ∧ representAs {} S .math = .ok q := by
  obtain ⟨b, hb⟩ := S_to .cyl rfl (by decide)
  obtain ⟨q, h⟩ := S_to .math rfl (by decide)
  have g := represent_good _ {} S .cyl b S_valid rfl hb
  obtain ⟨q', h'⟩ := C09_conversion_total {} b .math g.valid (by rw [g.kind]; rfl) (by rw [g.kind]; decide) (by decide)
    (by rw [g.point]; exact S_ne) (fun h => by cases h) (fun h => by cases h)
  have := (C04_path_independent {} S b q q' .cyl .math S_valid rfl rfl hb h' h).2.2 S_canon S_off
  rw [this.2 S_plain] at h'
  exact ⟨b, q, hb, h', h⟩

example : ∃ b q q', representAs { delta := some (2 : ℝ) } S .prolate = .ok b ∧
    representAs { delta := some (2 : ℝ) } b .lonlat = .ok q' ∧ representAs { delta := some (2 : ℝ) } S .lonlat = .ok q :=
  C04_path_exists { delta := some 2 } S .prolate .lonlat S_valid rfl rfl rfl S_off ⟨2, rfl, by norm_num⟩

example : ∃ q, representAs {} S .lonlat = .ok q ∧ Valid q ∧ Canon q := by
  obtain ⟨q, h⟩ := S_to .lonlat rfl (by decide)
  have := C05_result_in_range {} S q .lonlat S_valid h
  exact ⟨q, h, this.2.1, this.2.2 S_canon⟩

/-- latitude 120 deg with a negative distance -/
example : ∃ q, lonlatFrom (.qty 7) (2 * π / 3) (.dist (-1)) = .ok q ∧ point q = lonlatPoint 7 (2 * π / 3) (-1) := by
  have := pi_pos
  obtain ⟨q, h, -, -, -, hp⟩ := C08_lonlat_from_in_range (.qty 7) (2 * π / 3) (-1) (by norm_num [effLat]; linarith)
    (by norm_num [effLat]; linarith)
  exact ⟨q, h, hp⟩

example : lonlatFrom (.qty (7 : ℝ)) (2 * π) (.dist 1) = .error .check :=
  C08_rejects (.qty 7) (2 * π) 1 (Or.inr (by norm_num [effLat]; linarith [pi_pos]))

example : representAs {} (.cart3 0 0 0 : Pos ℝ) .math = .error .nonFinite := (C09_origin_is_nan {} .math (by decide)).1

example (q : Pos ℝ) : representAs {} (.twoSphere 1 2 : Pos ℝ) .cart2 ≠ .ok q :=
  C09_twoSphere_never_returns _ {} (.twoSphere 1 2) q .cart2 rfl rfl (Or.inl rfl)

example : representAs {} (.cart1 (-2) : Pos ℝ) .radial = .error .check := C09_negative_cart1_rejected {} (-2) (by norm_num)

example : representAs { delta := some (2 : ℝ) } (.cyl 0 1 (-2)) .prolate = .error .nonFinite :=
  C10_focus_is_nan 1 (-2) 2 (by norm_num) (by norm_num)

example : representAs {} S .prolate = .error .missingDelta := (C11_prolate_needs_delta {} rfl S rfl).1 (by decide)

example : representAs { delta := some (2 : ℝ) } P .prolate = .error .noDispatch := C11_lower_dimension _ P (by decide)

/-! ### C12, C13 -/

example : ∃ q, representAs {} S .polar = .ok q ∧ q.kind = .polar ∧ point q = ⟨0, 3, 0⟩ := by
  obtain ⟨q, h, hk, hp⟩ := C13_lowering_projects {} S .polar S_valid S_plain (by decide) (by decide) (by decide) (by decide)
  exact ⟨q, h, hk, by rw [hp, S_point]; rfl⟩

example : ∃ q q', representAs {} S .cart1 = .ok q ∧ representAs {} (.cart3 0 3 0) .cart1 = .ok q' ∧ point q = point q' :=
  C13_class_independent {} S (.cart3 0 3 0) .cart1 S_valid trivial S_plain trivial (by decide) (by decide) (by decide)
    (by decide) (by decide) (by decide) (by decide) (by rw [S_point]; rfl)

example : ∃ r, representAs {} (.cart3 1 2 2 : Pos ℝ) .radial = .ok (.radial r) ∧ distOf r = 3 := by
  obtain ⟨r, h, hr⟩ := C13_radial_is_norm {} (.cart3 1 2 2 : Pos ℝ) trivial (by decide) (by decide) (by decide) (by decide)
  refine ⟨r, h, hr.trans ?_⟩
  have : (point (.cart3 1 2 2 : Pos ℝ)).norm = Real.sqrt (3 ^ 2) := by
    simp only [point, V3.norm]; norm_num [V3.dot]
  rw [this, Real.sqrt_sq (by norm_num)]

example : ∃ q, representAs {} P .cyl = .ok q ∧ q.kind = .cyl ∧ point q = ⟨0, 2, 0⟩ := by
  obtain ⟨q, h⟩ := C12_raising_returns P .cyl P_valid (by decide) P_plain (by decide) (by decide) (by decide)
    (by rw [P_point]; simp [V3.zero])
  have := C12_raising_embeds P q .cyl P_valid (by decide) (by decide) h
  obtain ⟨-, hx, -⟩ := C12_raising_exact P q .cyl P_valid (by decide) h
  exact ⟨q, h, this.1, this.2.trans P_point⟩

example : ∃ q p', representAs {} P .cyl = .ok q ∧ representAs {} q .polar = .ok p' ∧ point p' = ⟨0, 2, 0⟩ := by
  obtain ⟨q, h⟩ := C12_raising_returns P .cyl P_valid (by decide) P_plain (by decide) (by decide) (by decide)
    (by rw [P_point]; simp [V3.zero])
  obtain ⟨p', h', -, hp⟩ := C12_up_and_down P q .cyl P_valid (by decide) (by decide) h
  have := C12_up_and_down_exact P q .cyl P_valid (by decide) (fun _ => P_plain) h
  exact ⟨q, p', h, h', hp.trans P_point⟩

example : ∃ q, representAs {} (.polar (.dist 2) 1 : Pos ℝ) .sph = .ok q ∧ point q = ⟨0, 0, 2⟩ :=
  (C12_polar_to_sph_moves 2 1 (by norm_num)).1

example : ∃ q, representAs {} (.cyl 3 0 4 : Pos ℝ) .radial = .ok q ∧ point q ≠ ⟨(point (.cyl 3 0 4)).norm, 0, 0⟩ := by
  have hv : Valid (.cyl 3 0 4) := by norm_num [Valid]
  obtain ⟨q, h⟩ := (C13_returns_iff {} (.cyl 3 0 4) .radial hv (by decide)).2
    ⟨by decide, by decide, fun _ _ => trivial, fun h => by cases h⟩
  have := ((C13_lowering_exact {} (.cyl 3 0 4) q .radial hv (by decide) h).2.2.2.1 3 0 4 rfl rfl).2
  exact ⟨q, h, fun e => by have := this.1 e; norm_num at this⟩

/-! ### C14-C17, C44 -/

example : ∃ d e, norm S = .ok d ∧ norm (.cart3 0 3 0) = .ok e ∧ distOf d = distOf e :=
  C14_norm_class_independent S (.cart3 0 3 0) S_valid trivial (by decide) (by decide) (by rw [S_point]; rfl)

example : addPos (.prolate 5 1 0 2) S = .error .missingDelta :=
  (C15_prolate_fails 5 1 0 2 S (by norm_num [Valid]) S_valid rfl).1

example : negPos (.radial (.dist 2) : Pos ℝ) = .error .check :=
  C16_radial_fails (.dist 2) (by norm_num [DistOk]) (by norm_num [distOf])

example : scalePosRight S 2 = scalePos 2 S := C17_left_right 2 S

example : scalePos (-1) (.polar (.dist 2) 1 : Pos ℝ) = .error .check :=
  (C17_negative_rejected (-1) 2 (by norm_num) (by norm_num) 1 0).1

example : eqPos S S = .ok true := C44_refl S (by decide)

example : eqPos (.prolate 5 1 0 2 : Pos ℝ) (.prolate 5 1 0 (3 / 2)) = .ok false :=
  C44_prolate_focal 5 1 0 2 5 1 0 (3 / 2) (by norm_num)

example : eqPos (.prolate 5 1 0 2) S = .error .missingDelta := C44_prolate_error 5 1 0 2 S rfl (by decide)

/-! ### C19-C25 -/

theorem velCase : VelCase {} (.sph 1 2 3) .cart3 (.cyl 2 0 1) where
  valid := by norm_num [Valid]
  dimp := rfl
  dim := rfl
  pos_ts := by decide
  src_ts := fun h => by cases h
  tgt_ts := by decide
  reg := by simp [Vel.kind, VKind.integral, Regular, OffAxis, point, cylPoint]
  reg' := trivial
  delta := fun h => by cases h
  src_pro := fun h => by cases h
  src_loncoslat := fun h => by cases h

example : ∃ w, representVel {} (.sph 1 2 3) .cart3 (.cyl 2 0 1) = .ok w ∧ w.kind = .cart3 :=
  (C19_velocity_preserved {} (.sph 1 2 3) .cart3 (.cyl 2 0 1) velCase).imp fun _ h => ⟨h.1, h.2.1⟩

example : ∃ w w', representVel {} (.sph 1 2 3) .cart3 (.cyl 2 0 1) = .ok w ∧
    representVel {} (.sph 4 5 6) .cart3 (.cyl 2 0 1) = .ok w' ∧
    representVel {} (.sph 0 0 0) .cart3 (.cyl 2 0 1) = .ok (w.map fun _ => 0) := by
  obtain ⟨w, h, -⟩ := C19_velocity_preserved {} (.sph 1 2 3) .cart3 (.cyl 2 0 1) velCase
  obtain ⟨w', h', -⟩ := C21_domain {} .cart3 (.cyl 2 0 1) (.sph 1 2 3) (.sph 4 5 6) w rfl h
  exact ⟨w, w', h, h', C21_zero {} .cart3 (.cyl 2 0 1) (.sph 1 2 3) w h⟩

example (w : Vel ℝ) : representVel {} (.prolate 1 2 3) .cart3 (.cyl 2 0 1) ≠ .ok w :=
  C19_prolate_source_raises {} (.prolate 1 2 3) w .cart3 (.cyl 2 0 1) rfl (by decide)

example (w : Vel ℝ) : representVel {} (.twoSphere 1 2) .cart2 (.polar (.dist 1) 0) ≠ .ok w :=
  C19_twoSphere_raises {} (.twoSphere 1 2) w .cart2 _ (Or.inl rfl)

/-- motion on a circle -/
example : HasDeriv3 (fun s => point (.polar (.dist 2) s)) (cartVel (.polar (.dist 2) 1) (.polar 0 1)) 1 :=
  C19_cartVel_is_derivative (fun s => .polar (.dist 2) s) 1 (.polar 0 1)
    ⟨fun _ => 2, fun s => s, fun _ => rfl, hasDerivAt_const _ _, hasDerivAt_id _⟩ (by decide)
    (by norm_num [Valid, DistOk]) (by
      simp only [Vel.kind, VKind.integral, Regular, OffAxis, point, distOf]
      intro h
      have h1 : (2 * cos (1 : ℝ)) ^ 2 + (2 * sin (1 : ℝ)) ^ 2 = 4 := by
        have := Real.sin_sq_add_cos_sq (1 : ℝ); nlinarith
      simp at h
      rw [h.1, h.2] at h1
      norm_num at h1)

/-- on the axis the conversion from `LonCosLatSphericalVel` is undefined, off the axis it is defined -/
example : ¬ (∃ w, representVel {} (.lonCosLat 1 2 3) .lonlat (.cart3 0 0 1) = .ok w) ∧
    ∃ w, representVel {} (.lonCosLat 1 2 3) .lonlat (.cart3 1 1 1) = .ok w := by
  rw [C22_defined_iff {} (.cart3 0 0 1) trivial rfl (by simp [point, V3.zero]) 1 2 3,
    C22_defined_iff {} (.cart3 1 1 1) trivial rfl (by simp [point, V3.zero]) 1 2 3]
  simp [OffAxis, point]

example (s : ℝ) : normVel (.polar 1 2) (.polar (.dist 1) 0) ≠ .ok s := C23_two_dimensions_raise (.polar 1 2) _ rfl s

theorem accCase : AccCase (.sph 1 2 3) .cart3 (.cyl 1 1 1) (.cyl 2 0 1) where
  valid := by norm_num [Valid]
  dimp := rfl
  dim := rfl
  dimv := rfl
  pos_ts := by decide
  src_ts := by decide
  tgt_ts := by decide
  vel_ts := by decide
  src_pro := by decide
  tgt_pro := by decide
  vel_pro := by decide
  src_lcl := by decide
  tgt_lcl := by decide
  reg := by simp [Vel.kind, VKind.integral, Regular, OffAxis, point, cylPoint]
  reg' := trivial
  regv := by simp [Vel.kind, VKind.integral, Regular, OffAxis, point, cylPoint]
  nz := by simp [point, cylPoint, V3.zero]

example : ∃ w, representAcc {} (.sph 1 2 3) .cart3 (.cyl 1 1 1) (.cyl 2 0 1) = .ok w ∧
    representAcc {} (.sph 1 2 3) .cart3 (.cyl 7 8 9) (.cyl 2 0 1) = .ok w := by
  obtain ⟨w, h, -⟩ := C24_first_order {} (.sph 1 2 3) (.cyl 1 1 1) .cart3 (.cyl 2 0 1) accCase
  exact ⟨w, h, C24_ignores_velocity {} _ (.cyl 1 1 1) (.cyl 7 8 9) w .cart3 _ rfl h⟩

example : representAcc {} (.polar 0 0) .cart2 (.polar 0 1) (.polar (.dist 3) 0) = .ok (.cart2 0 0) :=
  (C24_circular_motion_wrong 3 (by norm_num)).2.2.2

example (w : Vel ℝ) : representAcc {} (.prolate 1 2 3) .cart3 (.cyl 1 1 1) (.cyl 2 0 1) ≠ .ok w :=
  C24_prolate_raises {} _ _ w .cart3 _ (Or.inl rfl)

example (w : Vel ℝ) : representAcc {} (.twoSphere 1 2) .cart2 (.polar 1 1) P ≠ .ok w :=
  C24_twoSphere_raises {} _ _ w .cart2 _ (Or.inl rfl)

example : ∃ q, velTimes (.cart3 1 2 3) 2 = .ok q ∧ point q = V3.smul 2 (cartVel (.cart3 0 0 0) (.cart3 1 2 3)) := by
  obtain ⟨q, h, -, hp⟩ := C25_vel_times_cartesian (.cart3 1 2 3) 2 (by decide)
  exact ⟨q, h, hp (.cart3 0 0 0) rfl⟩

example : ∃ q, accTimes2 (.cart3 1 2 3) (2 ^ 2) = .ok q ∧
    point q = V3.smul (2 ^ 2) (cartVel (.cart3 0 0 0) (.cart3 1 2 3)) := by
  obtain ⟨q, h, -, hp⟩ := C25_acc_times_sq_cartesian (.cart3 1 2 3) 2 (by decide)
  exact ⟨q, h, hp (.cart3 0 0 0) rfl⟩

/-! ### C26 -/

example : (∃ p, (Dist.dist (3 : ℝ)).toParallax = .ok (.par p) ∧ Denotes (.par p) 3) :=
  (C26_same_length (.dist 3) 3 (by norm_num) (by norm_num [Denotes])).2.1

end Verif.Instances
