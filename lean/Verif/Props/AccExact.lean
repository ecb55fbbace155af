import Verif.Props.Acceleration

/-!
# C24 exactly: by how much the converted acceleration is off

Property C24 of `/verif/properties.jsonl`.
-/

namespace Verif

open Real Spec

/-! ## Specification -/

/-- The part of the Cartesian acceleration that is quadratic in the coordinate rates (centripetal and
Coriolis terms): the second time derivative of the Cartesian coordinates when the coordinates in
the class of `p` have the rates `v` and vanishing second derivatives (textbook formulas). -/
noncomputable def quad : Pos ℝ → Vel ℝ → V3
  | .polar r φ, .polar a b =>
    ⟨-(2 * a * b * sin φ) - distOf r * b ^ 2 * cos φ, 2 * a * b * cos φ - distOf r * b ^ 2 * sin φ, 0⟩
  | .cyl ρ φ _, .cyl a b _ =>
    ⟨-(2 * a * b * sin φ) - ρ * b ^ 2 * cos φ, 2 * a * b * cos φ - ρ * b ^ 2 * sin φ, 0⟩
  | .sph r θ φ, .sph a b c => sphQuad (distOf r) θ φ a b c
  | .math r θ φ, .math a b c => sphQuad (distOf r) φ θ a c b
  | .lonlat lon lat d, .lonlat a b c =>
    ⟨-(2 * c * b * sin lat * cos lon) - 2 * c * a * cos lat * sin lon
        + distOf d * (2 * a * b * sin lat * sin lon - (a ^ 2 + b ^ 2) * cos lat * cos lon),
     -(2 * c * b * sin lat * sin lon) + 2 * c * a * cos lat * cos lon
        - distOf d * (2 * a * b * sin lat * cos lon + (a ^ 2 + b ^ 2) * cos lat * sin lon),
     2 * c * b * cos lat - distOf d * b ^ 2 * sin lat⟩
  | _, _ => V3.zero
where
  /-- radius, inclination, azimuth and their rates -/
  sphQuad (r θ φ a b c : ℝ) : V3 :=
    ⟨2 * a * b * cos θ * cos φ - 2 * a * c * sin θ * sin φ - 2 * r * b * c * cos θ * sin φ
        - r * (b ^ 2 + c ^ 2) * sin θ * cos φ,
     2 * a * b * cos θ * sin φ + 2 * a * c * sin θ * cos φ + 2 * r * b * c * cos θ * cos φ
        - r * (b ^ 2 + c ^ 2) * sin θ * sin φ,
     -(2 * a * b * sin θ) - r * b ^ 2 * cos θ⟩

/-- The rates of all angles are zero: the point moves along a coordinate line of the class that is
straight (a ray, or a line parallel to an axis). -/
def NoTurning : Vel ℝ → Prop
  | .polar _ b | .cyl _ b _ => b = 0
  | .sph _ b c | .math _ b c => b = 0 ∧ c = 0
  | .lonlat a b _ => a = 0 ∧ b = 0
  | _ => True

/-! ## Lemmas -/

/-- The second derivative of the Cartesian coordinates of a moving point. -/
theorem cartVel_moving {c : ℝ → Pos ℝ} {V : ℝ → Vel ℝ} {a : Vel ℝ} {t : ℝ} (h : AccAt c V t a)
    (h2 : a.kind ≠ .twoSphere) (hp : a.kind ≠ .prolate) (hl : a.kind ≠ .lonCosLat) :
    HasDeriv3 (fun s => cartVel (c s) (V s)) ((cartVel (c t) a).add (quad (c t) (V t))) t := by
  obtain ⟨hr, hk, hd⟩ := h
  have hrt := hr t
  cases a with
  | twoSphere => exact absurd rfl h2
  | prolate => exact absurd rfl hp
  | lonCosLat => exact absurd rfl hl
  | cart1 x =>
    obtain ⟨f, rfl⟩ := comps_fun1 (C := .cart1) hk (fun v hv => by
      cases v <;> first | (cases hv; done) | exact ⟨_, rfl⟩)
    have d0 : HasDerivAt f x t := hd 0
    obtain ⟨q0, hc, r0⟩ := hrt
    obtain rfl : c = fun s => .cart1 (q0 s) := funext hc
    refine ⟨?_, ?_, ?_⟩
    · exact d0.congr_deriv (by simp [cartVel, quad, V3.add, V3.zero])
    · exact (hasDerivAt_const t (0 : ℝ)).congr_deriv (by simp [cartVel, quad, V3.add, V3.zero])
    · exact (hasDerivAt_const t (0 : ℝ)).congr_deriv (by simp [cartVel, quad, V3.add, V3.zero])
  | radial x =>
    obtain ⟨f, rfl⟩ := comps_fun1 (C := .radial) hk (fun v hv => by
      cases v <;> first | (cases hv; done) | exact ⟨_, rfl⟩)
    have d0 : HasDerivAt f x t := hd 0
    obtain ⟨q0, hc, r0⟩ := hrt
    obtain rfl : c = fun s => .radial (.dist (q0 s)) := funext hc
    refine ⟨?_, ?_, ?_⟩
    · exact d0.congr_deriv (by simp [cartVel, quad, V3.add, V3.zero])
    · exact (hasDerivAt_const t (0 : ℝ)).congr_deriv (by simp [cartVel, quad, V3.add, V3.zero])
    · exact (hasDerivAt_const t (0 : ℝ)).congr_deriv (by simp [cartVel, quad, V3.add, V3.zero])
  | cart2 x y =>
    obtain ⟨f, g, rfl⟩ := comps_fun2 (C := .cart2) hk (fun v hv => by
      cases v <;> first | (cases hv; done) | exact ⟨_, _, rfl⟩)
    have d0 : HasDerivAt f x t := hd 0
    have d1 : HasDerivAt g y t := hd 1
    obtain ⟨q0, q1, hc, r0, r1⟩ := hrt
    obtain rfl : c = fun s => .cart2 (q0 s) (q1 s) := funext hc
    refine ⟨?_, ?_, ?_⟩
    · exact d0.congr_deriv (by simp [cartVel, quad, V3.add, V3.zero])
    · exact d1.congr_deriv (by simp [cartVel, quad, V3.add, V3.zero])
    · exact (hasDerivAt_const t (0 : ℝ)).congr_deriv (by simp [cartVel, quad, V3.add, V3.zero])
  | cart3 x y z =>
    obtain ⟨f, g, l, rfl⟩ := comps_fun3 (C := .cart3) hk (fun v hv => by
      cases v <;> first | (cases hv; done) | exact ⟨_, _, _, rfl⟩)
    have d0 : HasDerivAt f x t := hd 0
    have d1 : HasDerivAt g y t := hd 1
    have d2 : HasDerivAt l z t := hd 2
    obtain ⟨q0, q1, q2, hc, r0, r1, r2⟩ := hrt
    obtain rfl : c = fun s => .cart3 (q0 s) (q1 s) (q2 s) := funext hc
    refine ⟨?_, ?_, ?_⟩
    · exact d0.congr_deriv (by simp [cartVel, quad, V3.add, V3.zero])
    · exact d1.congr_deriv (by simp [cartVel, quad, V3.add, V3.zero])
    · exact d2.congr_deriv (by simp [cartVel, quad, V3.add, V3.zero])
  | polar x y =>
    obtain ⟨f, g, rfl⟩ := comps_fun2 (C := .polar) hk (fun v hv => by
      cases v <;> first | (cases hv; done) | exact ⟨_, _, rfl⟩)
    have d0 : HasDerivAt f x t := hd 0
    have d1 : HasDerivAt g y t := hd 1
    obtain ⟨q0, q1, hc, r0, r1⟩ := hrt
    obtain rfl : c = fun s => .polar (.dist (q0 s)) (q1 s) := funext hc
    refine ⟨?_, ?_, ?_⟩
    · exact (((d0).fun_mul r1.cos).fun_sub (((r0).fun_mul r1.sin).fun_mul d1)).congr_deriv (by simp only [cartVel, quad, quad.sphQuad, V3.add, distOf]; ring)
    · exact (((d0).fun_mul r1.sin).fun_add (((r0).fun_mul r1.cos).fun_mul d1)).congr_deriv (by simp only [cartVel, quad, quad.sphQuad, V3.add, distOf]; ring)
    · exact (hasDerivAt_const t (0 : ℝ)).congr_deriv (by simp [cartVel, quad, V3.add, V3.zero])
  | cyl x y z =>
    obtain ⟨f, g, l, rfl⟩ := comps_fun3 (C := .cyl) hk (fun v hv => by
      cases v <;> first | (cases hv; done) | exact ⟨_, _, _, rfl⟩)
    have d0 : HasDerivAt f x t := hd 0
    have d1 : HasDerivAt g y t := hd 1
    have d2 : HasDerivAt l z t := hd 2
    obtain ⟨q0, q1, q2, hc, r0, r1, r2⟩ := hrt
    obtain rfl : c = fun s => .cyl (q0 s) (q1 s) (q2 s) := funext hc
    refine ⟨?_, ?_, ?_⟩
    · exact (((d0).fun_mul r1.cos).fun_sub (((r0).fun_mul r1.sin).fun_mul d1)).congr_deriv (by simp only [cartVel, quad, quad.sphQuad, V3.add, distOf]; ring)
    · exact (((d0).fun_mul r1.sin).fun_add (((r0).fun_mul r1.cos).fun_mul d1)).congr_deriv (by simp only [cartVel, quad, quad.sphQuad, V3.add, distOf]; ring)
    · exact d2.congr_deriv (by simp [cartVel, quad, V3.add, V3.zero])
  | sph x y z =>
    obtain ⟨f, g, l, rfl⟩ := comps_fun3 (C := .sph) hk (fun v hv => by
      cases v <;> first | (cases hv; done) | exact ⟨_, _, _, rfl⟩)
    have d0 : HasDerivAt f x t := hd 0
    have d1 : HasDerivAt g y t := hd 1
    have d2 : HasDerivAt l z t := hd 2
    obtain ⟨q0, q1, q2, hc, r0, r1, r2⟩ := hrt
    obtain rfl : c = fun s => .sph (.dist (q0 s)) (q1 s) (q2 s) := funext hc
    refine ⟨?_, ?_, ?_⟩
    · exact (((d0.fun_mul (r1.sin.fun_mul r2.cos)).fun_add (d1.fun_mul ((r0.fun_mul r1.cos).fun_mul r2.cos))).fun_sub (d2.fun_mul ((r0.fun_mul r1.sin).fun_mul r2.sin))).congr_deriv (by simp only [cartVel, quad, quad.sphQuad, V3.add, distOf]; ring)
    · exact (((d0.fun_mul (r1.sin.fun_mul r2.sin)).fun_add (d1.fun_mul ((r0.fun_mul r1.cos).fun_mul r2.sin))).fun_add (d2.fun_mul ((r0.fun_mul r1.sin).fun_mul r2.cos))).congr_deriv (by simp only [cartVel, quad, quad.sphQuad, V3.add, distOf]; ring)
    · exact ((d0.fun_mul r1.cos).fun_sub (d1.fun_mul (r0.fun_mul r1.sin))).congr_deriv (by simp only [cartVel, quad, quad.sphQuad, V3.add, distOf]; ring)
  | math x y z =>
    obtain ⟨f, g, l, rfl⟩ := comps_fun3 (C := .math) hk (fun v hv => by
      cases v <;> first | (cases hv; done) | exact ⟨_, _, _, rfl⟩)
    have d0 : HasDerivAt f x t := hd 0
    have d1 : HasDerivAt g y t := hd 1
    have d2 : HasDerivAt l z t := hd 2
    obtain ⟨q0, q1, q2, hc, r0, r1, r2⟩ := hrt
    obtain rfl : c = fun s => .math (.dist (q0 s)) (q1 s) (q2 s) := funext hc
    refine ⟨?_, ?_, ?_⟩
    · exact (((d0.fun_mul (r2.sin.fun_mul r1.cos)).fun_sub (d1.fun_mul ((r0.fun_mul r2.sin).fun_mul r1.sin))).fun_add (d2.fun_mul ((r0.fun_mul r2.cos).fun_mul r1.cos))).congr_deriv (by simp only [cartVel, quad, quad.sphQuad, V3.add, distOf]; ring)
    · exact (((d0.fun_mul (r2.sin.fun_mul r1.sin)).fun_add (d1.fun_mul ((r0.fun_mul r2.sin).fun_mul r1.cos))).fun_add (d2.fun_mul ((r0.fun_mul r2.cos).fun_mul r1.sin))).congr_deriv (by simp only [cartVel, quad, quad.sphQuad, V3.add, distOf]; ring)
    · exact ((d0.fun_mul r2.cos).fun_sub (d2.fun_mul (r0.fun_mul r2.sin))).congr_deriv (by simp only [cartVel, quad, quad.sphQuad, V3.add, distOf]; ring)
  | lonlat x y z =>
    obtain ⟨f, g, l, rfl⟩ := comps_fun3 (C := .lonlat) hk (fun v hv => by
      cases v <;> first | (cases hv; done) | exact ⟨_, _, _, rfl⟩)
    have d0 : HasDerivAt f x t := hd 0
    have d1 : HasDerivAt g y t := hd 1
    have d2 : HasDerivAt l z t := hd 2
    obtain ⟨q0, q1, q2, hc, r0, r1, r2⟩ := hrt
    obtain rfl : c = fun s => .lonlat (q0 s) (q1 s) (.dist (q2 s)) := funext hc
    refine ⟨?_, ?_, ?_⟩
    · exact ((((d0.fun_mul ((r2.fun_mul r1.cos).fun_mul r0.sin)).fun_neg).fun_sub (d1.fun_mul ((r2.fun_mul r1.sin).fun_mul r0.cos))).fun_add (d2.fun_mul (r1.cos.fun_mul r0.cos))).congr_deriv (by simp only [cartVel, quad, quad.sphQuad, V3.add, distOf]; ring)
    · exact (((d0.fun_mul ((r2.fun_mul r1.cos).fun_mul r0.cos)).fun_sub (d1.fun_mul ((r2.fun_mul r1.sin).fun_mul r0.sin))).fun_add (d2.fun_mul (r1.cos.fun_mul r0.sin))).congr_deriv (by simp only [cartVel, quad, quad.sphQuad, V3.add, distOf]; ring)
    · exact ((d1.fun_mul (r2.fun_mul r1.cos)).fun_add (d2.fun_mul r1.sin)).congr_deriv (by simp only [cartVel, quad, quad.sphQuad, V3.add, distOf]; ring)

/-- Off the axis (at a non-zero distance) the quadratic terms vanish only if no angle changes. -/
theorem quad_eq_zero {p : Pos ℝ} {v : Vel ℝ} (hk : p.kind = v.kind.integral)
    (hr : Regular p.kind (point p)) (h2 : v.kind ≠ .twoSphere) (hp : v.kind ≠ .prolate)
    (hl : v.kind ≠ .lonCosLat) : quad p v = V3.zero ↔ NoTurning v := by
  have sph : ∀ r θ φ a b c : ℝ, r * sin θ ≠ 0 →
      (quad.sphQuad r θ φ a b c = V3.zero ↔ b = 0 ∧ c = 0) := by
    intro r θ φ a b c h
    have hr : r ≠ 0 := fun e => h (by rw [e, zero_mul])
    have hs : sin θ ≠ 0 := fun e => h (by rw [e, mul_zero])
    constructor
    · intro e
      simp only [quad.sphQuad, V3.zero, V3.mk.injEq] at e
      obtain ⟨e1, e2, e3⟩ := e
      have c1 := sin_sq_add_cos_sq φ
      have c2 := sin_sq_add_cos_sq θ
      -- the component along the radius
      have k : r * (b ^ 2 + sin θ ^ 2 * c ^ 2) = 0 := by
        linear_combination (-(sin θ * cos φ)) * e1 - (sin θ * sin φ) * e2 - cos θ * e3
          - (r * b ^ 2) * c2
          + (2 * a * b * sin θ * cos θ - r * (b ^ 2 + c ^ 2) * sin θ ^ 2) * c1
      have k2 := (mul_eq_zero.mp k).resolve_left hr
      have hb : b ^ 2 = 0 := by nlinarith [sq_nonneg b, sq_nonneg (sin θ * c)]
      have hb : b = 0 := pow_eq_zero_iff two_ne_zero |>.mp hb
      have hc : (sin θ * c) ^ 2 = 0 := by nlinarith [sq_nonneg b, sq_nonneg (sin θ * c)]
      exact ⟨hb, (mul_eq_zero.mp (pow_eq_zero_iff two_ne_zero |>.mp hc)).resolve_left hs⟩
    · rintro ⟨rfl, rfl⟩
      simp [quad.sphQuad, V3.zero]
  have pol : ∀ r φ a b : ℝ, r ≠ 0 → -(2 * a * b * sin φ) - r * b ^ 2 * cos φ = 0 →
      2 * a * b * cos φ - r * b ^ 2 * sin φ = 0 → b = 0 := by
    intro r φ a b h e1 e2
    have c1 := sin_sq_add_cos_sq φ
    have k : r * b ^ 2 = 0 := by
      linear_combination (-(cos φ)) * e1 - sin φ * e2 - (r * b ^ 2) * c1
    exact pow_eq_zero_iff two_ne_zero |>.mp ((mul_eq_zero.mp k).resolve_left h)
  cases v <;>
    first
    | exact absurd rfl h2
    | exact absurd rfl hp
    | exact absurd rfl hl
    | skip
  all_goals cases p <;> first | (cases hk; done) | skip
  all_goals first | exact iff_of_true rfl trivial | skip
  · -- polar
    rename_i a b r φ
    have h0 : distOf r ≠ 0 := fun e => hr ⟨by simp [point, e], by simp [point, e]⟩
    constructor
    · intro e
      simp only [quad, V3.zero, V3.mk.injEq] at e
      exact pol _ _ _ _ h0 e.1 e.2.1
    · rintro rfl; simp [quad, V3.zero]
  · -- cyl
    rename_i a b _ r φ _
    have h0 : r ≠ 0 := fun e => hr ⟨by simp [point, cylPoint, e], by simp [point, cylPoint, e]⟩
    constructor
    · intro e
      simp only [quad, V3.zero, V3.mk.injEq] at e
      exact pol _ _ _ _ h0 e.1 e.2.1
    · rintro rfl; simp [quad, V3.zero]
  · -- sph
    refine sph _ _ _ _ _ _ (fun e => hr ⟨?_, ?_⟩) <;> simp [point, sphPoint, e]
  · -- lonlat
    rename_i a b c lon lat d
    have h0 : distOf d * sin (π / 2 - lat) ≠ 0 := by
      rw [sin_pi_div_two_sub]
      exact fun e => hr ⟨by simp [point, lonlatPoint, e], by simp [point, lonlatPoint, e]⟩
    have := sph (distOf d) (π / 2 - lat) lon c (-b) a h0
    rw [neg_eq_zero] at this
    refine Iff.trans ?_ (this.trans and_comm)
    simp only [quad, quad.sphQuad, sin_pi_div_two_sub, cos_pi_div_two_sub, V3.zero, V3.mk.injEq]
    refine and_congr ?_ (and_congr ?_ ?_) <;>
      exact Eq.congr (by ring) rfl
  · -- math
    rename_i a b c r θ φ
    refine (sph (distOf r) φ θ a c b (fun e => hr ⟨?_, ?_⟩)).trans and_comm <;>
      simp [point, sphPoint, e]

/-! ## Theorems -/

/-- **C24, exactly.** One moving point is described by coordinates `c`, with first derivatives `V` and
second derivatives `a` at time `t`, and by coordinates `c'`, with `V'` and `a'`. Its acceleration `A`
is the linear image of `a` plus the terms quadratic in the rates, in either description. Converting
`a` to the class of `a'` returns an acceleration `w` that is off from `a'` by exactly the difference of
the quadratic terms, so it is right iff these agree. -/
theorem C24_exact (kw : Kw ℝ) (c c' : ℝ → Pos ℝ) (V V' : ℝ → Vel ℝ) (t : ℝ) (a a' v : Vel ℝ)
    (p : Pos ℝ) (hc : AccAt c V t a) (hc' : AccAt c' V' t a')
    (hsame : ∀ s, point (c s) = point (c' s)) (hval : ∀ s, Valid (c s)) (hval' : ∀ s, Valid (c' s))
    (hreg : ∀ s, Regular a.kind.integral (point (c s)))
    (hreg' : ∀ s, Regular a'.kind.integral (point (c s)))
    (hp : point p = point (c t)) (h : AccCase a a'.kind v p) :
    ∃ (U : ℝ → V3) (A : V3), (∀ s, HasDeriv3 (fun s => point (c s)) (U s) s) ∧ HasDeriv3 U A t ∧
      A = (cartVel (c t) a).add (quad (c t) (V t)) ∧
      A = (cartVel (c' t) a').add (quad (c' t) (V' t)) ∧
      ∃ w, representAcc kw a a'.kind v p = .ok w ∧ w.kind = a'.kind ∧
        (cartVel (c' t) w).add (quad (c' t) (V' t)) =
          (A.sub (quad (c t) (V t))).add (quad (c' t) (V' t)) ∧
        (w = a' ↔ quad (c t) (V t) = quad (c' t) (V' t)) := by
  obtain ⟨w, h1, h2, h3⟩ := acc_ok (kw := kw) h
  have dc : ∀ s, HasDeriv3 (fun s => point (c s)) (cartVel (c s) (V s)) s := fun s =>
    cartVel_hasDeriv (hc.1 s) (by rw [hc.2.1 s]; exact h.src_ts) (hval s)
      (by rw [hc.2.1 s]; exact hreg s)
  have hfun : (fun s => cartVel (c s) (V s)) = fun s => cartVel (c' s) (V' s) := by
    funext s
    have d1 := dc s
    have d2 := cartVel_hasDeriv (hc'.1 s) (by rw [hc'.2.1 s]; exact h.tgt_ts) (hval' s)
      (by rw [hc'.2.1 s, ← hsame]; exact hreg' s)
    rw [show (fun s => point (c s)) = fun s => point (c' s) from funext hsame] at d1
    exact hasDeriv3_unique d1 d2
  have d1 := cartVel_moving hc h.src_ts h.src_pro h.src_lcl
  have d2 := cartVel_moving hc' h.tgt_ts h.tgt_pro h.tgt_lcl
  rw [← hfun] at d2
  have hA := hasDeriv3_unique d1 d2
  have hk : (c t).kind = a.kind.integral := by rw [ratesAt_kind (hc.1 t) t, hc.2.1 t]
  have hk' : (c' t).kind = a'.kind.integral := by rw [ratesAt_kind (hc'.1 t) t, hc'.2.1 t]
  have e := h3 (c t) (c' t) ⟨hk, hval t, hp.symm, fun e => absurd e h.src_pro⟩
    ⟨hk', hval' t, by rw [← hsame, hp], fun e => absurd e h.tgt_pro⟩
  refine ⟨_, _, dc, d1, rfl, hA, w, h1, h2, ?_, ?_⟩
  · rw [e]
    simp only [V3.add, V3.sub, V3.mk.injEq]
    refine ⟨?_, ?_, ?_⟩ <;> ring
  · have inj : w = a' ↔ cartVel (c' t) w = cartVel (c' t) a' :=
      ⟨fun e => by rw [e], cartVel_inj (hval' t) h2 (by rw [h2, hk'])
        (by rw [hk', ← hsame]; exact hreg' t)
        (by rw [hk']; intro e; apply h.tgt_ts; revert e; cases a'.kind <;> decide)⟩
    rw [inj, e]
    simp only [V3.add, V3.mk.injEq] at hA
    rw [V3.ext_iff, V3.ext_iff]
    constructor
    · rintro ⟨e1, e2, e3⟩
      exact ⟨by linarith [hA.1], by linarith [hA.2.1], by linarith [hA.2.2]⟩
    · rintro ⟨e1, e2, e3⟩
      exact ⟨by linarith [hA.1], by linarith [hA.2.1], by linarith [hA.2.2]⟩

/-- **C24, exactly, to Cartesian components.** Converting an acceleration of any class to the
Cartesian class of its dimension gives the physical acceleration iff no angle changes at that
instant. -/
theorem C24_to_cartesian_iff (kw : Kw ℝ) (c c' : ℝ → Pos ℝ) (V V' : ℝ → Vel ℝ) (t : ℝ) (a a' v : Vel ℝ)
    (p : Pos ℝ) (hc : AccAt c V t a) (hc' : AccAt c' V' t a')
    (hsame : ∀ s, point (c s) = point (c' s)) (hval : ∀ s, Valid (c s))
    (hreg : ∀ s, Regular a.kind.integral (point (c s)))
    (hcart : a'.kind = .cart1 ∨ a'.kind = .cart2 ∨ a'.kind = .cart3)
    (hp : point p = point (c t)) (h : AccCase a a'.kind v p) :
    representAcc kw a a'.kind v p = .ok a' ↔ NoTurning (V t) := by
  have hk : (c t).kind = (V t).kind.integral := ratesAt_kind (hc.1 t) t
  have hk' : ∀ s, (c' s).kind = a'.kind.integral := fun s => by
    rw [ratesAt_kind (hc'.1 s) s, hc'.2.1 s]
  have hval' : ∀ s, Valid (c' s) := fun s => by
    have := hk' s
    rcases hcart with e | e | e <;> rw [e] at this <;> revert this <;> cases c' s <;>
      intro this <;> first | trivial | (cases this; done)
  obtain ⟨_, _, _, _, _, _, w, h1, _, _, h2⟩ := C24_exact kw c c' V V' t a a' v p hc hc' hsame hval hval'
    hreg (fun s => by rcases hcart with e | e | e <;> rw [e] <;> trivial) hp h
  have q0 : quad (c' t) (V' t) = V3.zero := by
    have := hk' t
    rcases hcart with e | e | e <;> rw [e] at this <;> revert this <;> cases c' t <;>
      intro this <;> first | (cases this; done) | rfl
  rw [h1, ← quad_eq_zero hk (by rw [hk, hc.2.1 t]; exact hreg t) (by rw [hc.2.1 t]; exact h.src_ts)
    (by rw [hc.2.1 t]; exact h.src_pro) (by rw [hc.2.1 t]; exact h.src_lcl), ← q0, ← h2]
  exact ⟨Except.ok.inj, fun e => by rw [e]⟩

/-- the hypotheses are met by uniform circular motion, which turns: the conversion does not give its
acceleration `(-r, 0)` -/
example (r : ℝ) (hr : 0 < r) :
    ¬ representAcc {} (.polar 0 0) .cart2 (.polar 0 1) (.polar (.dist r) 0) = .ok (.cart2 (-r) 0) := by
  obtain ⟨h1, h2, h3, _⟩ := C24_circular_motion_wrong r hr
  have reg : ∀ s : ℝ, OffAxis (point (.polar (.dist r) s)) := by
    rintro s ⟨e1, e2⟩
    simp only [point, distOf, mul_eq_zero, hr.ne', false_or] at e1 e2
    have := sin_sq_add_cos_sq s
    rw [e1, e2] at this; norm_num at this
  have k := C24_to_cartesian_iff {} _ _ _ _ 0 (.polar 0 0) (.cart2 (-r) 0) (.polar 0 1)
    (.polar (.dist r) 0) h1 h2 h3 (fun _ => hr.le) reg (Or.inr (Or.inl rfl)) rfl
    { valid := hr.le
      dimp := rfl, dim := rfl, dimv := rfl, pos_ts := fun h => (by cases h)
      src_ts := fun h => (by cases h), tgt_ts := fun h => (by cases h)
      vel_ts := fun h => (by cases h), src_pro := fun h => (by cases h)
      tgt_pro := fun h => (by cases h), vel_pro := fun h => (by cases h)
      src_lcl := fun h => (by cases h), tgt_lcl := fun h => (by cases h)
      reg := reg 0
      reg' := trivial
      regv := reg 0
      nz := fun e => (by cases e) }
  intro h
  exact one_ne_zero (k.mp h)

end Verif
