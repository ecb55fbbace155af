import Verif.DualTotal
import Verif.CrossDim

/-! # The velocity conversion rule (helper lemmas) -/

namespace Verif

open Real Spec

/-- `differential_cls` of a position class -/
def Kind.vel : Kind → VKind
  | .cart1 => .cart1
  | .radial => .radial
  | .cart2 => .cart2
  | .polar => .polar
  | .twoSphere => .twoSphere
  | .cart3 => .cart3
  | .cyl => .cyl
  | .sph => .sph
  | .lonlat => .lonlat
  | .math => .math
  | .prolate => .prolate

theorem tangent_kind {P : Pos Dual} {v : Vel ℝ} (h : P.tangent = .ok v) : v.kind = P.kind.vel := by
  cases P <;> simp only [Pos.tangent, bind_ok_iff, pure_ok] at h <;>
    first
    | (obtain ⟨_, _, h⟩ := h; cases h; rfl)
    | (cases h; rfl)

theorem V3.smul_ext (s : ℝ) (a : V3) : V3.smul s a = ⟨s * a.x, s * a.y, s * a.z⟩ := rfl

theorem cartVel_map (q : Pos ℝ) (v : Vel ℝ) (a : ℝ) :
    cartVel q (v.map fun x => x * a) = V3.smul a (cartVel q v) := by
  cases q <;> cases v <;> simp only [Vel.map, cartVel, V3.smul, V3.zero, mul_zero] <;>
    (congr 1 <;> ring)

theorem map2_total {v w : Vel ℝ} (h : v.kind = w.kind) :
    ∃ u, Vel.map2 (fun x y => x + y) v w = .ok u ∧ u.kind = w.kind ∧
      ∀ q, cartVel q u = V3.add (cartVel q v) (cartVel q w) := by
  cases v <;> cases w <;> first
    | (cases h; done)
    | (refine ⟨_, rfl, rfl, ?_⟩
       intro q
       cases q <;> simp only [cartVel, V3.add, V3.zero, add_zero] <;> (congr 1 <;> ring))

theorem map_kind (v : Vel ℝ) (f : ℝ → ℝ) : (v.map f).kind = v.kind := by cases v <;> rfl

theorem Dist.seed_re (r : Dist ℝ) (a : ℝ) : (r.seed a).re = r := by cases r <;> rfl

theorem seed_re {p : Pos ℝ} {v : Vel ℝ} {P : Pos Dual} (h : p.seed v = .ok P) : P.re = p := by
  cases p <;> cases v <;> first
    | (cases h; done)
    | (cases h; simp only [Pos.re, Dist.seed_re, Dual.const])

theorem seed_tangent {p : Pos ℝ} {v : Vel ℝ} {P : Pos Dual} (hp : PlainDist p)
    (h : p.seed v = .ok P) : P.tangent = .ok v := by
  cases p <;> cases v <;> first
    | (cases h; done)
    | (cases h; rfl)
    | (obtain ⟨d, rfl⟩ := hp; cases h; rfl)

theorem seed_total {p : Pos ℝ} {v : Vel ℝ} (h : v.kind = p.kind.vel) : ∃ P, p.seed v = .ok P := by
  cases p <;> cases v <;> first
    | (cases h; done)
    | exact ⟨_, rfl⟩

/-! ### the Cartesian velocity depends on the position only through the point -/

theorem trig_of_cyl {a b φ ψ : ℝ} (ha : 0 ≤ a) (hb : 0 ≤ b) (ha0 : a ≠ 0)
    (hx : a * cos φ = b * cos ψ) (hy : a * sin φ = b * sin ψ) :
    a = b ∧ cos φ = cos ψ ∧ sin φ = sin ψ := by
  have h := rho_eq_of_cyl ha hb hx hy
  subst h
  exact ⟨rfl, mul_left_cancel₀ ha0 hx, mul_left_cancel₀ ha0 hy⟩

theorem trig_of_sph {r s θ ξ φ ψ : ℝ} (hr : 0 ≤ r) (hs : 0 ≤ s) (h0 : 0 ≤ θ) (h1 : θ ≤ π)
    (h0' : 0 ≤ ξ) (h1' : ξ ≤ π) (ho : OffAxis (sphPoint r θ φ))
    (h : sphPoint r θ φ = sphPoint s ξ ψ) :
    r = s ∧ cos θ = cos ξ ∧ sin θ = sin ξ ∧ cos φ = cos ψ ∧ sin φ = sin ψ := by
  simp only [sphPoint, V3.mk.injEq] at h
  obtain ⟨hx, hy, hz⟩ := h
  have hp := offAxis_sph ho hr h0 h1
  obtain ⟨e1, e2, e3⟩ := trig_of_cyl hp.le (mul_nonneg hs (sin_nonneg_of_incl h0' h1')) hp.ne' hx hy
  have e4 : r = s := by
    have h2 : r ^ 2 = s ^ 2 := by
      have a1 := Real.sin_sq_add_cos_sq θ
      have a2 := Real.sin_sq_add_cos_sq ξ
      have : (r * sin θ) ^ 2 + (r * cos θ) ^ 2 = (s * sin ξ) ^ 2 + (s * cos ξ) ^ 2 := by
        rw [e1, hz]
      calc r ^ 2 = (r * sin θ) ^ 2 + (r * cos θ) ^ 2 := by rw [mul_pow, mul_pow, ← mul_add, a1, mul_one]
        _ = _ := this
        _ = s ^ 2 := by rw [mul_pow, mul_pow, ← mul_add, a2, mul_one]
    exact (sq_eq_sq₀ hr hs).mp h2
  subst e4
  have hr0 : r ≠ 0 := by rintro rfl; simp at hp
  exact ⟨rfl, mul_left_cancel₀ hr0 hz, mul_left_cancel₀ hr0 e1, e2, e3⟩

theorem cartVel_congr {p q : Pos ℝ} (hp : Valid p) (hq : Valid q) (hk : p.kind = q.kind)
    (hf : focal p = focal q) (h : point p = point q) (hr : Regular p.kind (point p)) (v : Vel ℝ) :
    cartVel p v = cartVel q v := by
  cases p <;> cases q <;> first
    | (cases hk; done)
    | (cases v <;> rfl)
    | skip
  case polar.polar r φ s ψ =>
    simp only [point, V3.mk.injEq, and_true] at h
    have ho : distOf r ≠ 0 := by
      intro h0; apply hr; simp [point, h0]
    obtain ⟨e1, e2, e3⟩ := trig_of_cyl (distOf_nonneg hp) (distOf_nonneg hq) ho h.1 h.2
    cases v <;> simp only [cartVel, e1, e2, e3]
  case cyl.cyl a φ z b ψ z' =>
    simp only [point, cylPoint, V3.mk.injEq] at h
    obtain ⟨e1, e2, e3⟩ := trig_of_cyl hp hq (offAxis_cyl hr) h.1 h.2.1
    cases v <;> simp only [cartVel, e1, e2, e3]
  case sph.sph r θ φ s ξ ψ =>
    obtain ⟨e1, e2, e3, e4, e5⟩ := trig_of_sph (distOf_nonneg hp.1) (distOf_nonneg hq.1) hp.2.1
      hp.2.2 hq.2.1 hq.2.2 hr h
    cases v <;> simp only [cartVel, e1, e2, e3, e4, e5]
  case math.math r φ θ s ψ ξ =>
    obtain ⟨e1, e2, e3, e4, e5⟩ := trig_of_sph (distOf_nonneg hp.1) (distOf_nonneg hq.1) hp.2.1
      hp.2.2 hq.2.1 hq.2.2 hr h
    cases v <;> simp only [cartVel, e1, e2, e3, e4, e5]
  case lonlat.lonlat lon lat d lon' lat' d' =>
    simp only [point, lonlatPoint_eq] at h
    simp only [Pos.kind, Regular, point, lonlatPoint_eq] at hr
    obtain ⟨e1, e2, e3, e4, e5⟩ := trig_of_sph (distOf_nonneg hp.1) (distOf_nonneg hq.1)
      (by linarith [hp.2.2]) (by linarith [hp.2.1]) (by linarith [hq.2.2]) (by linarith [hq.2.1]) hr h
    rw [Real.cos_pi_div_two_sub, Real.cos_pi_div_two_sub] at e2
    rw [Real.sin_pi_div_two_sub, Real.sin_pi_div_two_sub] at e3
    cases v <;> simp only [cartVel, e1, e2, e3, e4, e5]
  case prolate.prolate μ ν φ Δ μ' ν' φ' Δ' =>
    simp only [focal, Option.some.injEq] at hf
    subst hf
    have h' := h
    simp only [point, cylPoint, V3.mk.injEq] at h'
    obtain ⟨e1, e2, e3⟩ := trig_of_cyl (prolR_nonneg _ _ _) (prolR_nonneg _ _ _)
      (offAxis_cyl hr.1) h'.1 h'.2.1
    obtain ⟨rfl, rfl⟩ := prol_inj hp.1 hp.2.1 hp.2.2 hq.2.1 hq.2.2 e1 h'.2.2
    cases v <;> simp only [cartVel, e2, e3]

/-! ### one column, then the contraction -/

/-- a column of the Jacobian transports its basis tangent -/
def ColOk (kw : Kw ℝ) (p : Pos ℝ) (k : Kind) (e c : Vel ℝ) : Prop :=
  c.kind = k.vel ∧ ∀ q, q.kind = k → Valid q → point q = point p →
    (k = .prolate → focal q = kw.delta) → cartVel q c = cartVel p e

theorem focal_none {p : Pos ℝ} (h : p.kind ≠ .prolate) : focal p = none := by
  cases p <;> first | rfl | exact absurd rfl h

/-- conditions under which the Jacobian at `p` exists -/
structure VConv (kw : Kw ℝ) (p : Pos ℝ) (k : Kind) : Prop where
  valid : Valid p
  plain : PlainDist p
  dim : p.kind.dim = k.dim
  src : p.kind ≠ .twoSphere
  srcp : p.kind ≠ .prolate
  tgt : k ≠ .twoSphere
  reg : Regular k (point p)
  delta : k = .prolate → ∃ d, kw.delta = some d ∧ 0 < d

theorem column {kw : Kw ℝ} {p : Pos ℝ} {k : Kind} (h : VConv kw p k) {e : Vel ℝ}
    (he : e.kind = p.kind.vel) :
    ∃ c, (do (← representAs kw.dual (← p.seed e) k).tangent) = .ok c ∧ ColOk kw p k e c := by
  obtain ⟨P, hP⟩ := seed_total he
  have hre := seed_re hP
  have hkd : P.kind = p.kind := by rw [← hre, Pos.re_kind]
  have hc : DConv kw P k :=
    ⟨by rw [hre]; exact h.valid, by rw [hre]; exact h.plain, by rw [hkd]; exact h.dim,
     by rw [hkd]; exact h.src, by rw [hkd]; exact h.srcp, h.tgt, by rw [hre]; exact h.reg,
     by rw [hre]; exact fun e => by have := h.reg; rw [e] at this; exact this, h.delta⟩
  obtain ⟨Q, hQ, g, hf⟩ := d_representAs hc
  obtain ⟨c, h1, h2⟩ := g.tan e (seed_tangent h.plain hP)
  refine ⟨c, ?_, ?_, ?_⟩
  · rw [hP]
    show (representAs kw.dual P k >>= fun a => a.tangent) = _
    rw [hQ]; exact h1
  · rw [tangent_kind h1, g.kind]
  · intro q hqk hqv hqp hqf
    rw [hre] at h2
    rw [← h2]
    have gp := g.good.point
    rw [hre] at gp
    refine cartVel_congr hqv g.good.valid (by rw [hqk, g.good.kind]) ?_ (by rw [hqp, gp]) ?_ c
    · by_cases hk : k = .prolate
      · rw [hqf hk, hf hk]
      · rw [focal_none (by rw [hqk]; exact hk), focal_none (by rw [g.good.kind]; exact hk)]
    · rw [hqk, hqp]; exact h.reg

theorem contract1 {kw : Kw ℝ} {p : Pos ℝ} {k : Kind} {e c : Vel ℝ} (h : ColOk kw p k e c) (a : ℝ) :
    ∃ w, contract [c] [a] = .ok w ∧ ColOk kw p k (e.map fun x => x * a) w :=
  ⟨_, rfl, by rw [map_kind]; exact h.1, fun q h1 h2 h3 h4 => by
    rw [cartVel_map, cartVel_map, h.2 q h1 h2 h3 h4]⟩

theorem contract_cons {kw : Kw ℝ} {p : Pos ℝ} {k : Kind} {e c f w : Vel ℝ} (h : ColOk kw p k e c)
    (h' : ColOk kw p k f w) (a : ℝ) :
    ∃ u, Vel.map2 (fun x y => x + y) (c.map fun x => x * a) w = .ok u ∧ u.kind = k.vel ∧
      ∀ q, q.kind = k → Valid q → point q = point p → (k = .prolate → focal q = kw.delta) →
        cartVel q u = V3.add (cartVel p (e.map fun x => x * a)) (cartVel p f) := by
  obtain ⟨u, h1, h2, h3⟩ := map2_total (v := c.map fun x => x * a) (w := w)
    (by rw [map_kind, h.1, h'.1])
  refine ⟨u, h1, by rw [h2, h'.1], fun q e1 e2 e3 e4 => ?_⟩
  rw [h3, cartVel_map, cartVel_map, h.2 q e1 e2 e3 e4, h'.2 q e1 e2 e3 e4]

theorem jacobian_contract {kw : Kw ℝ} {p : Pos ℝ} {k : Kind} (h : VConv kw p k) {v : Vel ℝ}
    (hv : v.kind = p.kind.vel) :
    ∃ w, (do contract (← jacobian kw p k) v.comps) = .ok w ∧ ColOk kw p k v w := by
  have col := fun e he => column (kw := kw) (k := k) h (e := e) he
  unfold jacobian
  generalize hF : (fun e => do (← representAs kw.dual (← p.seed e) k).tangent) = F
  have col' : ∀ e, e.kind = p.kind.vel → ∃ c, F e = .ok c ∧ ColOk kw p k e c := by
    intro e he; rw [← hF]; exact col e he
  clear col hF
  have one : ∀ e a, e.kind = p.kind.vel → v.comps = [a] → p.kind.basis = [e] →
      (∀ q, cartVel q (e.map fun x => x * a) = cartVel q v) →
      ∃ w, (do contract (← p.kind.basis.mapM F) v.comps) = .ok w ∧ ColOk kw p k v w := by
    intro e a he hc hb hl
    obtain ⟨c, h1, h2⟩ := col' e he
    obtain ⟨w, h3, h4⟩ := contract1 h2 a
    refine ⟨w, ?_, h4.1, fun q e1 e2 e3 e4 => ?_⟩
    · rw [hb, hc]; simp only [List.mapM_cons, List.mapM_nil, h1, ok_bind, pure_ok]; exact h3
    · rw [h4.2 q e1 e2 e3 e4, hl]
  have two : ∀ e f a b, e.kind = p.kind.vel → f.kind = p.kind.vel → v.comps = [a, b] →
      p.kind.basis = [e, f] →
      (∀ q, V3.add (cartVel q (e.map fun x => x * a)) (cartVel q (f.map fun x => x * b))
        = cartVel q v) →
      ∃ w, (do contract (← p.kind.basis.mapM F) v.comps) = .ok w ∧ ColOk kw p k v w := by
    intro e f a b he hf hc hb hl
    obtain ⟨c, h1, h2⟩ := col' e he
    obtain ⟨d, h3, h4⟩ := col' f hf
    obtain ⟨w, h5, h6⟩ := contract1 h4 b
    obtain ⟨u, h7, h8, h9⟩ := contract_cons h2 h6 a
    refine ⟨u, ?_, h8, fun q e1 e2 e3 e4 => ?_⟩
    · rw [hb, hc]; simp only [List.mapM_cons, List.mapM_nil, h1, h3, ok_bind, pure_ok]
      show (do Vel.map2 _ _ (← contract [d] [b])) = _
      rw [h5]; exact h7
    · rw [h9 q e1 e2 e3 e4, hl]
  have three : ∀ e f g a b c, e.kind = p.kind.vel → f.kind = p.kind.vel → g.kind = p.kind.vel →
      v.comps = [a, b, c] → p.kind.basis = [e, f, g] →
      (∀ q, V3.add (cartVel q (e.map fun x => x * a)) (V3.add (cartVel q (f.map fun x => x * b))
        (cartVel q (g.map fun x => x * c))) = cartVel q v) →
      ∃ w, (do contract (← p.kind.basis.mapM F) v.comps) = .ok w ∧ ColOk kw p k v w := by
    intro e f g a b c he hf hg hc hb hl
    obtain ⟨c1, h1, h2⟩ := col' e he
    obtain ⟨c2, h3, h4⟩ := col' f hf
    obtain ⟨c3, h5, h6⟩ := col' g hg
    obtain ⟨w, h7, h8⟩ := contract1 h6 c
    obtain ⟨u, h9, h10, h11⟩ := contract_cons h4 h8 b
    obtain ⟨f', hf'⟩ : ∃ f', Vel.map2 (fun x y => x + y) (f.map fun x => x * b)
        (g.map fun x => x * c) = .ok f' ∧ ∀ q, cartVel q f' = V3.add (cartVel q (f.map fun x => x * b))
          (cartVel q (g.map fun x => x * c)) := by
      obtain ⟨f', i1, _, i3⟩ := map2_total (v := f.map fun x => x * b) (w := g.map fun x => x * c)
        (by rw [map_kind, map_kind, hf, hg])
      exact ⟨f', i1, i3⟩
    have h12 : ColOk kw p k f' u := ⟨h10, fun q e1 e2 e3 e4 => by
      rw [h11 q e1 e2 e3 e4, hf'.2]⟩
    obtain ⟨u', h13, h14, h15⟩ := contract_cons h2 h12 a
    refine ⟨u', ?_, h14, fun q e1 e2 e3 e4 => ?_⟩
    · rw [hb, hc]; simp only [List.mapM_cons, List.mapM_nil, h1, h3, h5, ok_bind, pure_ok]
      show (do Vel.map2 _ _ (← (do Vel.map2 _ _ (← contract [c3] [c])))) = _
      rw [h7]
      show (do Vel.map2 _ _ (← Vel.map2 _ _ w)) = _
      rw [h9]; exact h13
    · rw [h15 q e1 e2 e3 e4, hf'.2, hl]
  have hs := h.src
  clear col'
  generalize hK : p.kind = K at *
  cases v with
  | cart1 a =>
    obtain rfl : K = .cart1 := by cases K <;> first | rfl | cases hv
    exact one (.cart1 1) a rfl rfl rfl (fun q => by
      cases q <;> simp only [Vel.map, cartVel, one_mul])
  | radial a =>
    obtain rfl : K = .radial := by cases K <;> first | rfl | cases hv
    exact one (.radial 1) a rfl rfl rfl (fun q => by
      cases q <;> simp only [Vel.map, cartVel, one_mul])
  | cart2 a b =>
    obtain rfl : K = .cart2 := by cases K <;> first | rfl | cases hv
    exact two (.cart2 1 0) (.cart2 0 1) a b rfl rfl rfl rfl (fun q => by
      cases q <;> simp only [Vel.map, cartVel, V3.zero, V3.add, add_zero, V3.mk.injEq] <;>
        (refine ⟨?_, ?_, ?_⟩ <;> first | trivial | ring))
  | polar a b =>
    obtain rfl : K = .polar := by cases K <;> first | rfl | cases hv
    exact two (.polar 1 0) (.polar 0 1) a b rfl rfl rfl rfl (fun q => by
      cases q <;> simp only [Vel.map, cartVel, V3.zero, V3.add, add_zero, V3.mk.injEq] <;>
        (refine ⟨?_, ?_, ?_⟩ <;> first | trivial | ring))
  | twoSphere a b =>
    obtain rfl : K = .twoSphere := by cases K <;> first | rfl | cases hv
    exact absurd rfl hs
  | lonCosLat a b c => cases K <;> cases hv
  | cart3 a b c =>
    obtain rfl : K = .cart3 := by cases K <;> first | rfl | cases hv
    exact three (.cart3 1 0 0) (.cart3 0 1 0) (.cart3 0 0 1) a b c rfl rfl rfl rfl rfl (fun q => by
      cases q <;> simp only [Vel.map, cartVel, V3.zero, V3.add, add_zero, V3.mk.injEq] <;>
        (refine ⟨?_, ?_, ?_⟩ <;> first | trivial | ring))
  | cyl a b c =>
    obtain rfl : K = .cyl := by cases K <;> first | rfl | cases hv
    exact three (.cyl 1 0 0) (.cyl 0 1 0) (.cyl 0 0 1) a b c rfl rfl rfl rfl rfl (fun q => by
      cases q <;> simp only [Vel.map, cartVel, V3.zero, V3.add, add_zero, V3.mk.injEq] <;>
        (refine ⟨?_, ?_, ?_⟩ <;> first | trivial | ring))
  | sph a b c =>
    obtain rfl : K = .sph := by cases K <;> first | rfl | cases hv
    exact three (.sph 1 0 0) (.sph 0 1 0) (.sph 0 0 1) a b c rfl rfl rfl rfl rfl (fun q => by
      cases q <;> simp only [Vel.map, cartVel, V3.zero, V3.add, add_zero, V3.mk.injEq] <;>
        (refine ⟨?_, ?_, ?_⟩ <;> first | trivial | ring))
  | lonlat a b c =>
    obtain rfl : K = .lonlat := by cases K <;> first | rfl | cases hv
    exact three (.lonlat 1 0 0) (.lonlat 0 1 0) (.lonlat 0 0 1) a b c rfl rfl rfl rfl rfl (fun q => by
      cases q <;> simp only [Vel.map, cartVel, V3.zero, V3.add, add_zero, V3.mk.injEq] <;>
        (refine ⟨?_, ?_, ?_⟩ <;> first | trivial | ring))
  | math a b c =>
    obtain rfl : K = .math := by cases K <;> first | rfl | cases hv
    exact three (.math 1 0 0) (.math 0 1 0) (.math 0 0 1) a b c rfl rfl rfl rfl rfl (fun q => by
      cases q <;> simp only [Vel.map, cartVel, V3.zero, V3.add, add_zero, V3.mk.injEq] <;>
        (refine ⟨?_, ?_, ?_⟩ <;> first | trivial | ring))
  | prolate a b c =>
    obtain rfl : K = .prolate := by cases K <;> first | rfl | cases hv
    exact three (.prolate 1 0 0) (.prolate 0 1 0) (.prolate 0 0 1) a b c rfl rfl rfl rfl rfl (fun q => by
      cases q <;> simp only [Vel.map, cartVel, V3.zero, V3.add, add_zero, V3.mk.injEq] <;>
        (refine ⟨?_, ?_, ?_⟩ <;> first | trivial | ring))

/-! ### the rule -/

theorem valid_plain {p : Pos ℝ} (h : Valid p) : Valid (plain p) := by
  cases p <;> first
    | exact h
    | exact distOf_nonneg h
    | exact ⟨distOf_nonneg h.1, h.2⟩

theorem plainDist_plain (p : Pos ℝ) : PlainDist (plain p) := by
  cases p <;> first | exact trivial | exact ⟨_, rfl⟩

theorem kind_plain (p : Pos ℝ) : (plain p).kind = p.kind := by cases p <;> rfl

theorem point_plain (p : Pos ℝ) : point (plain p) = point p := by cases p <;> rfl

theorem cartVel_plain (p : Pos ℝ) (v : Vel ℝ) : cartVel (plain p) v = cartVel p v := by
  cases p <;> cases v <;> rfl

theorem castDistance_eq {p : Pos ℝ} (h : Valid p) : p.castDistance = .ok (plain p) := by
  cases p <;> first
    | rfl
    | (simp only [Pos.castDistance, distance_ok h, ok_bind]
       first | exact mkRadial_iff.mpr ⟨distOf_nonneg h, rfl⟩ | exact mkPolar_iff.mpr ⟨distOf_nonneg h, rfl⟩)
    | (simp only [Pos.castDistance, distance_ok h.1, ok_bind]
       first
         | exact mkSph_iff.mpr ⟨distOf_nonneg h.1, h.2, rfl⟩
         | exact mkMath_iff.mpr ⟨distOf_nonneg h.1, h.2, rfl⟩
         | exact mkLonLat_iff.mpr ⟨h.2, distOf_nonneg h.1, rfl⟩)

theorem regular_ne_zero {k : Kind} {v : V3} (h : Regular k v) (hc : k ≠ .cart1 ∧ k ≠ .cart2 ∧
    k ≠ .cart3 ∧ k ≠ .radial) : v ≠ V3.zero := by
  have ho : OffAxis v := by
    obtain ⟨h1, h2, h3, h4⟩ := hc
    cases k <;> first | exact h | exact h.1 | (exfalso; first | exact h1 rfl | exact h2 rfl | exact h3 rfl | exact h4 rfl)
  rintro rfl
  exact ho ⟨rfl, rfl⟩

/-- the position needed by a velocity conversion can be found -/
theorem pos_total_aux (n : ℕ) {kw : Kw ℝ} {p : Pos ℝ} {k k' : Kind} (hv : Valid p)
    (hd : p.kind.dim = k.dim) (hdk : k.dim = k'.dim) (hs : p.kind ≠ .twoSphere)
    (ht : k ≠ .twoSphere) (hp : k ≠ .prolate) (hkk : k ≠ k') (hr : Regular k (point p))
    (hr' : Regular k' (point p)) :
    ∃ q, represent (n + 3) kw p k = .ok q := by
  by_cases h1 : k.dim = 1
  · rw [h1] at hd
    cases p <;> simp only [Pos.kind, Kind.dim] at hd <;>
      first
      | (exfalso; revert hd; decide)
      | skip
    all_goals cases k <;> simp only [Kind.dim] at h1 <;>
      first
      | (exfalso; revert h1; decide)
      | exact ⟨_, rfl⟩
      | exact ⟨_, by simp only [represent]; exact mkRadial_ok (r := .dist _) hr⟩
      | exact ⟨_, by simp only [represent]; rw [distance_ok hv]; rfl⟩
  · apply represent_total
    refine ⟨hv, hd, hs, ht, fun _ => ?_, ?_, fun e => absurd e hp⟩
    · by_cases hc : k = .cart2 ∨ k = .cart3
      · apply regular_ne_zero hr'
        rcases hc with rfl | rfl <;> refine ⟨?_, ?_, ?_, ?_⟩ <;> rintro rfl <;>
          first | exact hkk rfl | (revert hdk; decide)
      · push Not at hc
        apply regular_ne_zero hr
        refine ⟨?_, hc.1, hc.2, ?_⟩ <;> rintro rfl <;> exact h1 rfl
    · rintro rfl; exact absurd rfl h1

theorem pos_total {kw : Kw ℝ} {p : Pos ℝ} {k k' : Kind} (hv : Valid p)
    (hd : p.kind.dim = k.dim) (hdk : k.dim = k'.dim) (hs : p.kind ≠ .twoSphere)
    (ht : k ≠ .twoSphere) (hp : k ≠ .prolate) (hkk : k ≠ k') (hr : Regular k (point p))
    (hr' : Regular k' (point p)) :
    ∃ q, representAs kw p k = .ok q := pos_total_aux 197 hv hd hdk hs ht hp hkk hr hr'

theorem vel_of_integral {k : VKind} (h : k ≠ .lonCosLat) : k.integral.vel = k := by
  cases k <;> first | rfl | exact absurd rfl h

/-- the generic rule is total and transports the velocity -/
theorem generic_ok {kw : Kw ℝ} {v : Vel ℝ} {k : VKind} {p : Pos ℝ} (hp : Valid p)
    (hd : p.kind.dim = v.kind.dim) (hdk : v.kind.dim = k.dim) (hs : p.kind ≠ .twoSphere)
    (h1 : v.kind ≠ .twoSphere) (h2 : v.kind ≠ .prolate) (h3 : v.kind ≠ .lonCosLat)
    (h4 : k ≠ .twoSphere) (h5 : k ≠ .lonCosLat) (hkk : v.kind ≠ k)
    (hr : Regular v.kind.integral (point p)) (hr' : Regular k.integral (point p))
    (hΔ : k = .prolate → ∃ d, kw.delta = some d ∧ 0 < d) :
    ∃ w, representVelGeneric kw v k p = .ok w ∧ w.kind = k ∧
      ∀ p' q, p'.kind = v.kind.integral → Valid p' → point p' = point p →
        q.kind = k.integral → Valid q → point q = point p → (k = .prolate → focal q = kw.delta) →
        cartVel q w = cartVel p' v := by
  have i1 : v.kind.integral ≠ .twoSphere := by
    intro e; apply h1; revert e; cases v.kind <;> decide
  have i2 : v.kind.integral ≠ .prolate := by
    intro e; apply h2; revert e; cases v.kind <;> decide
  have i4 : k.integral ≠ .twoSphere := by
    intro e; apply h4; revert e; cases k <;> decide
  have i5 : v.kind.integral ≠ k.integral := by
    intro e; apply hkk
    rw [← vel_of_integral h3, ← vel_of_integral h5, e]
  have i6 : k.integral = .prolate → k = .prolate := by cases k <;> decide
  obtain ⟨cp, hcp⟩ := pos_total (kw := kw) hp hd hdk hs i1 i2 i5 hr hr'
  have g := represent_good _ _ _ _ _ hp hd hcp
  have hc : VConv kw (plain cp) k.integral :=
    ⟨valid_plain g.valid, plainDist_plain _, by rw [kind_plain, g.kind]; exact hdk,
     by rw [kind_plain, g.kind]; exact i1, by rw [kind_plain, g.kind]; exact i2, i4,
     by rw [point_plain, g.point]; exact hr', fun e => hΔ (i6 e)⟩
  obtain ⟨w, hw, hk, hcol⟩ := jacobian_contract hc (v := v)
    (by rw [kind_plain, g.kind, vel_of_integral h3])
  refine ⟨w, ?_, by rw [hk, vel_of_integral h5], ?_⟩
  · unfold representVelGeneric
    rw [hcp, ok_bind, castDistance_eq g.valid, ok_bind,
      if_neg (not_or.mpr ⟨by rw [kind_plain, g.kind]; exact i2,
        fun e => absurd (leavesRank0_dim e) (by rw [hd]; exact lt_irrefl _)⟩)]
    exact hw
  · intro p' q a1 a2 a3 b1 b2 b3 b4
    rw [hcol q b1 b2 (by rw [b3, point_plain, g.point]) (fun e => b4 (i6 e)), cartVel_plain]
    refine cartVel_congr g.valid a2 (by rw [g.kind, a1]) ?_ (by rw [g.point, a3]) ?_ v
    · rw [focal_none (by rw [g.kind]; exact i2), focal_none (by rw [a1]; exact i2)]
    · rw [g.kind, g.point]; exact hr

end Verif
