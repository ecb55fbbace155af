import Verif.Acc
import Verif.VelKind
import Verif.VelLemmas

/-! # Accelerations (helper lemmas) -/

namespace Verif

open Real Spec

/-- derivative of a product whose second factor vanishes: the first need only be continuous -/
theorem hasDerivAt_mul_zero {f g : ℝ → ℝ} {g' t : ℝ} (hf : ContinuousAt f t) (hg : HasDerivAt g g' t)
    (h0 : g t = 0) : HasDerivAt (fun s => g s * f s) (g' * f t) t := by
  rw [hasDerivAt_iff_tendsto_slope] at hg ⊢
  have h1 := hg.mul ((hf.tendsto).mono_left nhdsWithin_le_nhds)
  refine h1.congr' ?_
  filter_upwards [self_mem_nhdsWithin] with s hs
  simp only [slope, vsub_eq_sub, smul_eq_mul, h0]
  ring

theorem hasDeriv3_congr {f : ℝ → V3} {a b : V3} {t : ℝ} (h : HasDeriv3 f a t) (e : a = b) :
    HasDeriv3 f b t := e ▸ h

theorem comps_fun1 {V : ℝ → Vel ℝ} {C : ℝ → Vel ℝ} {k : VKind} (h : ∀ s, (V s).kind = k)
    (hC : ∀ v : Vel ℝ, v.kind = k → ∃ x, v = C x) : ∃ f : ℝ → ℝ, V = fun s => C (f s) := by
  choose f hf using fun s => hC (V s) (h s)
  exact ⟨f, funext hf⟩

theorem comps_fun2 {V : ℝ → Vel ℝ} {C : ℝ → ℝ → Vel ℝ} {k : VKind} (h : ∀ s, (V s).kind = k)
    (hC : ∀ v : Vel ℝ, v.kind = k → ∃ x y, v = C x y) : ∃ f g : ℝ → ℝ, V = fun s => C (f s) (g s) := by
  choose f g hf using fun s => hC (V s) (h s)
  exact ⟨f, g, funext hf⟩

theorem comps_fun3 {V : ℝ → Vel ℝ} {C : ℝ → ℝ → ℝ → Vel ℝ} {k : VKind} (h : ∀ s, (V s).kind = k)
    (hC : ∀ v : Vel ℝ, v.kind = k → ∃ x y z, v = C x y z) :
    ∃ f g l : ℝ → ℝ, V = fun s => C (f s) (g s) (l s) := by
  choose f g l hf using fun s => hC (V s) (h s)
  exact ⟨f, g, l, funext hf⟩

/-- a combination of rates that vanish at `t`, with continuous coefficients -/
theorem hasDerivAt_lin3 {f g l F G L : ℝ → ℝ} {x y z t : ℝ} (h0 : f t = 0) (h1 : g t = 0)
    (h2 : l t = 0) (d0 : HasDerivAt f x t) (d1 : HasDerivAt g y t) (d2 : HasDerivAt l z t)
    (c0 : ContinuousAt F t) (c1 : ContinuousAt G t) (c2 : ContinuousAt L t) {H : ℝ → ℝ} {u : ℝ}
    (hH : ∀ s, H s = f s * F s + g s * G s + l s * L s)
    (hu : u = x * F t + y * G t + z * L t) : HasDerivAt H u t := by
  rw [show H = fun s => f s * F s + g s * G s + l s * L s from funext hH, hu]
  exact ((hasDerivAt_mul_zero c0 d0 h0).fun_add (hasDerivAt_mul_zero c1 d1 h1)).fun_add
    (hasDerivAt_mul_zero c2 d2 h2)

/-- The second derivative of the Cartesian coordinates at an instant of rest. -/
theorem cartVel_rest {c : ℝ → Pos ℝ} {V : ℝ → Vel ℝ} {a : Vel ℝ} {t : ℝ} (h : AccAt c V t a)
    (h2 : a.kind ≠ .twoSphere) (hp : a.kind ≠ .prolate) (hl : a.kind ≠ .lonCosLat)
    (h0 : ∀ i, (V t).comps.getD i 0 = 0) :
    HasDeriv3 (fun s => cartVel (c s) (V s)) (cartVel (c t) a) t := by
  obtain ⟨hr, hk, hd⟩ := h
  have hrt := hr t
  cases a with
  | twoSphere => exact absurd rfl h2
  | prolate => exact absurd rfl hp
  | lonCosLat => exact absurd rfl hl
  | cart1 x =>
    obtain ⟨f, rfl⟩ := comps_fun1 (C := .cart1) hk (fun v hv => by
      cases v <;> first | (cases hv; done) | exact ⟨_, rfl⟩)
    have d0 : HasDerivAt f x t := hd 0
    have z0 : f t = 0 := h0 0
    obtain ⟨q0, hc, r0⟩ := hrt
    obtain rfl : c = fun s => .cart1 (q0 s) := funext hc
    have c0 := r0.continuousAt
    exact ⟨d0, hasDerivAt_const _ _, hasDerivAt_const _ _⟩
  | radial x =>
    obtain ⟨f, rfl⟩ := comps_fun1 (C := .radial) hk (fun v hv => by
      cases v <;> first | (cases hv; done) | exact ⟨_, rfl⟩)
    have d0 : HasDerivAt f x t := hd 0
    have z0 : f t = 0 := h0 0
    obtain ⟨q0, hc, r0⟩ := hrt
    obtain rfl : c = fun s => .radial (.dist (q0 s)) := funext hc
    have c0 := r0.continuousAt
    exact ⟨d0, hasDerivAt_const _ _, hasDerivAt_const _ _⟩
  | cart2 x y =>
    obtain ⟨f, g, rfl⟩ := comps_fun2 (C := .cart2) hk (fun v hv => by
      cases v <;> first | (cases hv; done) | exact ⟨_, _, rfl⟩)
    have d0 : HasDerivAt f x t := hd 0
    have z0 : f t = 0 := h0 0
    have d1 : HasDerivAt g y t := hd 1
    have z1 : g t = 0 := h0 1
    obtain ⟨q0, q1, hc, r0, r1⟩ := hrt
    obtain rfl : c = fun s => .cart2 (q0 s) (q1 s) := funext hc
    have c0 := r0.continuousAt
    have c1 := r1.continuousAt
    exact ⟨d0, d1, hasDerivAt_const _ _⟩
  | cart3 x y z =>
    obtain ⟨f, g, l, rfl⟩ := comps_fun3 (C := .cart3) hk (fun v hv => by
      cases v <;> first | (cases hv; done) | exact ⟨_, _, _, rfl⟩)
    have d0 : HasDerivAt f x t := hd 0
    have z0 : f t = 0 := h0 0
    have d1 : HasDerivAt g y t := hd 1
    have z1 : g t = 0 := h0 1
    have d2 : HasDerivAt l z t := hd 2
    have z2 : l t = 0 := h0 2
    obtain ⟨q0, q1, q2, hc, r0, r1, r2⟩ := hrt
    obtain rfl : c = fun s => .cart3 (q0 s) (q1 s) (q2 s) := funext hc
    have c0 := r0.continuousAt
    have c1 := r1.continuousAt
    have c2 := r2.continuousAt
    exact ⟨d0, d1, d2⟩
  | polar x y =>
    obtain ⟨f, g, rfl⟩ := comps_fun2 (C := .polar) hk (fun v hv => by
      cases v <;> first | (cases hv; done) | exact ⟨_, _, rfl⟩)
    have d0 : HasDerivAt f x t := hd 0
    have z0 : f t = 0 := h0 0
    have d1 : HasDerivAt g y t := hd 1
    have z1 : g t = 0 := h0 1
    obtain ⟨q0, q1, hc, r0, r1⟩ := hrt
    obtain rfl : c = fun s => .polar (.dist (q0 s)) (q1 s) := funext hc
    have c0 := r0.continuousAt
    have c1 := r1.continuousAt
    refine ⟨?_, ?_, ?_⟩
    · exact hasDerivAt_lin3 (F := (fun s => cos (q1 s))) (G := (fun s => -(q0 s * sin (q1 s)))) (L := fun _ => 0) (l := fun _ => 0) z0 z1 rfl d0 d1 (hasDerivAt_const t 0) (by fun_prop) (by fun_prop) (by fun_prop)
        (fun s => by simp only [cartVel, distOf]; ring) (by simp only [cartVel, distOf]; ring)
    · exact hasDerivAt_lin3 (F := (fun s => sin (q1 s))) (G := (fun s => q0 s * cos (q1 s))) (L := fun _ => 0) (l := fun _ => 0) z0 z1 rfl d0 d1 (hasDerivAt_const t 0) (by fun_prop) (by fun_prop) (by fun_prop)
        (fun s => by simp only [cartVel, distOf]; ring) (by simp only [cartVel, distOf]; ring)
    · exact hasDerivAt_lin3 (F := (fun s => 0)) (G := (fun s => 0)) (L := fun _ => 0) (l := fun _ => 0) z0 z1 rfl d0 d1 (hasDerivAt_const t 0) (by fun_prop) (by fun_prop) (by fun_prop)
        (fun s => by simp only [cartVel, distOf]; ring) (by simp only [cartVel, distOf]; ring)
  | cyl x y z =>
    obtain ⟨f, g, l, rfl⟩ := comps_fun3 (C := .cyl) hk (fun v hv => by
      cases v <;> first | (cases hv; done) | exact ⟨_, _, _, rfl⟩)
    have d0 : HasDerivAt f x t := hd 0
    have z0 : f t = 0 := h0 0
    have d1 : HasDerivAt g y t := hd 1
    have z1 : g t = 0 := h0 1
    have d2 : HasDerivAt l z t := hd 2
    have z2 : l t = 0 := h0 2
    obtain ⟨q0, q1, q2, hc, r0, r1, r2⟩ := hrt
    obtain rfl : c = fun s => .cyl (q0 s) (q1 s) (q2 s) := funext hc
    have c0 := r0.continuousAt
    have c1 := r1.continuousAt
    have c2 := r2.continuousAt
    refine ⟨?_, ?_, ?_⟩
    · exact hasDerivAt_lin3 (F := (fun s => cos (q1 s))) (G := (fun s => -(q0 s * sin (q1 s))))
        (L := (fun s => 0)) z0 z1 z2 d0 d1 d2 (by fun_prop) (by fun_prop) (by fun_prop)
        (fun s => by simp only [cartVel, distOf]; ring) (by simp only [cartVel, distOf]; ring)
    · exact hasDerivAt_lin3 (F := (fun s => sin (q1 s))) (G := (fun s => q0 s * cos (q1 s)))
        (L := (fun s => 0)) z0 z1 z2 d0 d1 d2 (by fun_prop) (by fun_prop) (by fun_prop)
        (fun s => by simp only [cartVel, distOf]; ring) (by simp only [cartVel, distOf]; ring)
    · exact hasDerivAt_lin3 (F := (fun s => 0)) (G := (fun s => 0))
        (L := (fun s => 1)) z0 z1 z2 d0 d1 d2 (by fun_prop) (by fun_prop) (by fun_prop)
        (fun s => by simp only [cartVel, distOf]; ring) (by simp only [cartVel, distOf]; ring)
  | sph x y z =>
    obtain ⟨f, g, l, rfl⟩ := comps_fun3 (C := .sph) hk (fun v hv => by
      cases v <;> first | (cases hv; done) | exact ⟨_, _, _, rfl⟩)
    have d0 : HasDerivAt f x t := hd 0
    have z0 : f t = 0 := h0 0
    have d1 : HasDerivAt g y t := hd 1
    have z1 : g t = 0 := h0 1
    have d2 : HasDerivAt l z t := hd 2
    have z2 : l t = 0 := h0 2
    obtain ⟨q0, q1, q2, hc, r0, r1, r2⟩ := hrt
    obtain rfl : c = fun s => .sph (.dist (q0 s)) (q1 s) (q2 s) := funext hc
    have c0 := r0.continuousAt
    have c1 := r1.continuousAt
    have c2 := r2.continuousAt
    refine ⟨?_, ?_, ?_⟩
    · exact hasDerivAt_lin3 (F := (fun s => sin (q1 s) * cos (q2 s))) (G := (fun s => q0 s * cos (q1 s) * cos (q2 s)))
        (L := (fun s => -(q0 s * sin (q1 s) * sin (q2 s)))) z0 z1 z2 d0 d1 d2 (by fun_prop) (by fun_prop) (by fun_prop)
        (fun s => by simp only [cartVel, distOf]; try ring) (by simp only [cartVel, distOf]; try ring)
    · exact hasDerivAt_lin3 (F := (fun s => sin (q1 s) * sin (q2 s))) (G := (fun s => q0 s * cos (q1 s) * sin (q2 s)))
        (L := (fun s => q0 s * sin (q1 s) * cos (q2 s))) z0 z1 z2 d0 d1 d2 (by fun_prop) (by fun_prop) (by fun_prop)
        (fun s => by simp only [cartVel, distOf]; try ring) (by simp only [cartVel, distOf]; try ring)
    · exact hasDerivAt_lin3 (F := (fun s => cos (q1 s))) (G := (fun s => -(q0 s * sin (q1 s))))
        (L := (fun s => 0)) z0 z1 z2 d0 d1 d2 (by fun_prop) (by fun_prop) (by fun_prop)
        (fun s => by simp only [cartVel, distOf]; try ring) (by simp only [cartVel, distOf]; try ring)
  | math x y z =>
    obtain ⟨f, g, l, rfl⟩ := comps_fun3 (C := .math) hk (fun v hv => by
      cases v <;> first | (cases hv; done) | exact ⟨_, _, _, rfl⟩)
    have d0 : HasDerivAt f x t := hd 0
    have z0 : f t = 0 := h0 0
    have d1 : HasDerivAt g y t := hd 1
    have z1 : g t = 0 := h0 1
    have d2 : HasDerivAt l z t := hd 2
    have z2 : l t = 0 := h0 2
    obtain ⟨q0, q1, q2, hc, r0, r1, r2⟩ := hrt
    obtain rfl : c = fun s => .math (.dist (q0 s)) (q1 s) (q2 s) := funext hc
    have c0 := r0.continuousAt
    have c1 := r1.continuousAt
    have c2 := r2.continuousAt
    refine ⟨?_, ?_, ?_⟩
    · exact hasDerivAt_lin3 (F := (fun s => sin (q2 s) * cos (q1 s))) (G := (fun s => -(q0 s * sin (q2 s) * sin (q1 s))))
        (L := (fun s => q0 s * cos (q2 s) * cos (q1 s))) z0 z1 z2 d0 d1 d2 (by fun_prop) (by fun_prop) (by fun_prop)
        (fun s => by simp only [cartVel, distOf]; try ring) (by simp only [cartVel, distOf]; try ring)
    · exact hasDerivAt_lin3 (F := (fun s => sin (q2 s) * sin (q1 s))) (G := (fun s => q0 s * sin (q2 s) * cos (q1 s)))
        (L := (fun s => q0 s * cos (q2 s) * sin (q1 s))) z0 z1 z2 d0 d1 d2 (by fun_prop) (by fun_prop) (by fun_prop)
        (fun s => by simp only [cartVel, distOf]; try ring) (by simp only [cartVel, distOf]; try ring)
    · exact hasDerivAt_lin3 (F := (fun s => cos (q2 s))) (G := (fun s => 0))
        (L := (fun s => -(q0 s * sin (q2 s)))) z0 z1 z2 d0 d1 d2 (by fun_prop) (by fun_prop) (by fun_prop)
        (fun s => by simp only [cartVel, distOf]; try ring) (by simp only [cartVel, distOf]; try ring)
  | lonlat x y z =>
    obtain ⟨f, g, l, rfl⟩ := comps_fun3 (C := .lonlat) hk (fun v hv => by
      cases v <;> first | (cases hv; done) | exact ⟨_, _, _, rfl⟩)
    have d0 : HasDerivAt f x t := hd 0
    have z0 : f t = 0 := h0 0
    have d1 : HasDerivAt g y t := hd 1
    have z1 : g t = 0 := h0 1
    have d2 : HasDerivAt l z t := hd 2
    have z2 : l t = 0 := h0 2
    obtain ⟨q0, q1, q2, hc, r0, r1, r2⟩ := hrt
    obtain rfl : c = fun s => .lonlat (q0 s) (q1 s) (.dist (q2 s)) := funext hc
    have c0 := r0.continuousAt
    have c1 := r1.continuousAt
    have c2 := r2.continuousAt
    refine ⟨?_, ?_, ?_⟩
    · exact hasDerivAt_lin3 (F := (fun s => -(q2 s * cos (q1 s) * sin (q0 s)))) (G := (fun s => -(q2 s * sin (q1 s) * cos (q0 s))))
        (L := (fun s => cos (q1 s) * cos (q0 s))) z0 z1 z2 d0 d1 d2 (by fun_prop) (by fun_prop) (by fun_prop)
        (fun s => by simp only [cartVel, distOf]; ring) (by simp only [cartVel, distOf]; ring)
    · exact hasDerivAt_lin3 (F := (fun s => q2 s * cos (q1 s) * cos (q0 s))) (G := (fun s => -(q2 s * sin (q1 s) * sin (q0 s))))
        (L := (fun s => cos (q1 s) * sin (q0 s))) z0 z1 z2 d0 d1 d2 (by fun_prop) (by fun_prop) (by fun_prop)
        (fun s => by simp only [cartVel, distOf]; ring) (by simp only [cartVel, distOf]; ring)
    · exact hasDerivAt_lin3 (F := (fun s => 0)) (G := (fun s => q2 s * cos (q1 s)))
        (L := (fun s => sin (q1 s))) z0 z1 z2 d0 d1 d2 (by fun_prop) (by fun_prop) (by fun_prop)
        (fun s => by simp only [cartVel, distOf]; ring) (by simp only [cartVel, distOf]; ring)

end Verif
