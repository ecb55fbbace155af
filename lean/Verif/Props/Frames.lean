import Verif.Frame
import Verif.Props.Operators
import Verif.Props.Velocity

/-!
# Reference frames: C33, C34, C35, C36

Model: `Verif/Frame.lean`. The specification is in the statements (`vec3`, `FrameOk`,
`Spec.lonlatPoint`, `Spec.dist3`).
-/

namespace Verif

open Spec Props Real

namespace Spec

/-- the vector of a Quantity of shape `(3,)` -/
def vec3 (q : Fin 3 → ℝ) : V3 := ⟨q 0, q 1, q 2⟩

/-- Frame parameters for which the frame is defined: a positive distance to the Galactic centre, not
smaller than the height of the Sun. -/
def FrameOk (g : Galactocentric) : Prop := ∃ d, g.distance = .dist d ∧ 0 < d ∧ |g.zSun| ≤ d

end Spec

theorem vec3_inj {a b : Fin 3 → ℝ} (h : vec3 a = vec3 b) : a = b := by
  simp only [vec3, V3.mk.injEq] at h
  obtain ⟨h0, h1, h2⟩ := h
  funext i
  fin_cases i
  · exact h0
  · exact h1
  · exact h2

theorem Spec.Orthogonal.mul {A B : Mat3} (ha : Orthogonal A) (hb : Orthogonal B) :
    Orthogonal (A * B) := by
  unfold Orthogonal at *
  rw [Matrix.transpose_mul, Matrix.mul_assoc, ← Matrix.mul_assoc B, hb, Matrix.one_mul, ha]

theorem eulerX_orth (a : ℝ) : Orthogonal (eulerX a) := by
  have := Real.sin_sq_add_cos_sq a
  unfold Orthogonal eulerX
  ext i j
  fin_cases i <;> fin_cases j <;>
    simp [Matrix.mul_apply, Fin.sum_univ_three, Matrix.transpose_apply] <;> nlinarith

theorem eulerY_orth (a : ℝ) : Orthogonal (eulerY a) := by
  have := Real.sin_sq_add_cos_sq a
  unfold Orthogonal eulerY
  ext i j
  fin_cases i <;> fin_cases j <;>
    simp [Matrix.mul_apply, Fin.sum_univ_three, Matrix.transpose_apply] <;> nlinarith

theorem eulerZ_orth (a : ℝ) : Orthogonal (eulerZ a) := by
  have := Real.sin_sq_add_cos_sq a
  unfold Orthogonal eulerZ
  ext i j
  fin_cases i <;> fin_cases j <;>
    simp [Matrix.mul_apply, Fin.sum_univ_three, Matrix.transpose_apply] <;> nlinarith

theorem vec3_callQ (P : FrameParts) (q : Fin 3 → ℝ) :
    vec3 (callQ id P q) = (mulV P.A (vec3 q)).add (vec3 P.offset) := rfl

theorem jacQ_eq (P : FrameParts) (q : Fin 3 → ℝ) (i j : Fin 3) : jacQ P q i j = P.A i j := by
  show (0 * q 0 + P.A i 0 * (if (0 : Fin 3) = j then 1 else 0) +
      (0 * q 1 + P.A i 1 * (if (1 : Fin 3) = j then 1 else 0)) +
      (0 * q 2 + P.A i 2 * (if (2 : Fin 3) = j then 1 else 0)) + 0 : ℝ) = _
  fin_cases j <;> simp

theorem vec3_callP (P : FrameParts) (q p : Fin 3 → ℝ) :
    vec3 (callP P q p) = (mulV P.A (vec3 p)).add (vec3 P.offsetV) := by
  simp only [vec3, callP, jacQ_eq]; rfl

theorem vec3_mulVec (A : Mat3) (q : Fin 3 → ℝ) : vec3 (A.mulVec q) = mulV A (vec3 q) := by
  simp [vec3, mulV, Matrix.mulVec, dotProduct, Fin.sum_univ_three]

/-- the parts of the ICRS -> Galactocentric transform -/
theorem parts_ok {g : Galactocentric} {d : ℝ} (hg : g.distance = .dist d) (hd : 0 < d)
    (hz : |g.zSun| ≤ d) : icrsToGcfParts g = .ok
      ⟨eulerY (arcsin (g.zSun / d)) * (eulerX (g.roll - roll0) * eulerY g.lat * eulerZ (-g.lon)),
        (-eulerY (arcsin (g.zSun / d))).mulVec (fun i => d * ![1, 0, 0] i), g.vSun⟩ := by
  unfold icrsToGcfParts
  have hb : ¬ (g.zSun / d < -1 ∨ 1 < g.zSun / d) := by
    obtain ⟨h1, h2⟩ := abs_le.mp hz
    rw [not_or, not_lt, not_lt, le_div_iff₀ hd, div_le_iff₀ hd]
    constructor <;> linarith
  rw [hg]
  simp only [Dist.asLength, ok_bind, div_real_ok hd.ne', asinR, if_neg hb]
  rfl

theorem parts_total {g : Galactocentric} (h : FrameOk g) :
    ∃ P, icrsToGcfParts g = .ok P ∧ Orthogonal P.A ∧ P.offsetV = g.vSun := by
  obtain ⟨d, h1, h2, h3⟩ := h
  exact ⟨_, parts_ok h1 h2 h3,
    (eulerY_orth _).mul (((eulerX_orth _).mul (eulerY_orth _)).mul (eulerZ_orth _)), rfl⟩

theorem parts_inv {g : Galactocentric} {P : FrameParts} (h : icrsToGcfParts g = .ok P) :
    gcfToIcrsParts g = .ok ⟨P.A.transpose, P.A.transpose.mulVec (fun i => -P.offset i),
      P.A.transpose.mulVec (fun i => -P.offsetV i)⟩ := by
  unfold gcfToIcrsParts
  rw [h, ok_bind]; rfl

/-- the inverse parts undo the parts -/
theorem affine_cancel {A : Mat3} (hA : Orthogonal A) (o v : V3) :
    (mulV A.transpose ((mulV A v).add o)).add (mulV A.transpose o.neg) = v ∧
    (mulV A ((mulV A.transpose v).add (mulV A.transpose o.neg))).add o = v := by
  have hadd : ∀ (B : Mat3) (a b : V3), mulV B (a.add b) = (mulV B a).add (mulV B b) := by
    intro B a b
    simp only [mulV, V3.add, V3.mk.injEq]
    refine ⟨?_, ?_, ?_⟩ <;> ring
  have hneg : ∀ (B : Mat3) (a : V3), mulV B a.neg = (mulV B a).neg := by
    intro B a
    simp only [mulV, V3.neg, V3.mk.injEq]
    refine ⟨?_, ?_, ?_⟩ <;> ring
  constructor
  · rw [hadd, (hA.cancel v).2, hneg, (add_neg_cancel _ _).1]
  · rw [hadd, (hA.cancel v).1, (hA.cancel _).1, (add_neg_cancel _ _).2]

theorem icrs2gcf_call {g : Galactocentric} {P : FrameParts} (h : icrsToGcfParts g = .ok P) (a : FArg) :
    (FOp.icrs2gcf g).call a = callParts P a := by
  simp only [FOp.call, h, ok_bind]

theorem gcf2icrs_call {g : Galactocentric} {P : FrameParts} (h : gcfToIcrsParts g = .ok P) (a : FArg) :
    (FOp.gcf2icrs g).call a = callParts P a := by
  simp only [FOp.call, h, ok_bind]

/-- both directions cancel, on Quantities -/
theorem parts_cancel {g : Galactocentric} (hg : FrameOk g) :
    ∃ P Q, icrsToGcfParts g = .ok P ∧ gcfToIcrsParts g = .ok Q ∧
      (∀ q, callQ id Q (callQ id P q) = q ∧ callQ id P (callQ id Q q) = q) ∧
      ∀ q q' p, callP Q q' (callP P q p) = p ∧ callP P q' (callP Q q p) = p := by
  obtain ⟨P, h1, h2, _⟩ := parts_total hg
  have hn : ∀ o : Fin 3 → ℝ, vec3 (fun i => -o i) = (vec3 o).neg := fun o => rfl
  refine ⟨P, _, h1, parts_inv h1, fun q => ⟨vec3_inj ?_, vec3_inj ?_⟩,
    fun q q' p => ⟨vec3_inj ?_, vec3_inj ?_⟩⟩
  · rw [vec3_callQ, vec3_callQ]
    simp only [vec3_mulVec, hn]
    exact (affine_cancel h2 _ _).1
  · rw [vec3_callQ, vec3_callQ]
    simp only [vec3_mulVec, hn]
    exact (affine_cancel h2 _ _).2
  · rw [vec3_callP, vec3_callP]
    simp only [vec3_mulVec, hn]
    exact (affine_cancel h2 _ _).1
  · rw [vec3_callP, vec3_callP]
    simp only [vec3_mulVec, hn]
    exact (affine_cancel h2 _ _).2

/-- **C33.** For Quantities: ICRS to a Galactocentric frame and back, and the reverse, return the
original position, and the original position and velocity. -/
theorem C33_round_trip (g : Galactocentric) (hg : FrameOk g) :
    ∃ fwd bwd, frameTransformOp .icrs (.gcf g) = .ok fwd ∧ frameTransformOp (.gcf g) .icrs = .ok bwd ∧
      fwd.inverse = bwd ∧ bwd.inverse = fwd ∧
      ∀ q p : Fin 3 → ℝ,
        (∃ q', fwd.call (.qty q) = .ok (.qty q') ∧ bwd.call (.qty q') = .ok (.qty q)) ∧
        (∃ q', bwd.call (.qty q) = .ok (.qty q') ∧ fwd.call (.qty q') = .ok (.qty q)) ∧
        (∃ q' p', fwd.call (.qtys q p) = .ok (.qtys q' p') ∧ bwd.call (.qtys q' p') = .ok (.qtys q p)) ∧
        ∃ q' p', bwd.call (.qtys q p) = .ok (.qtys q' p') ∧ fwd.call (.qtys q' p') = .ok (.qtys q p) := by
  obtain ⟨P, Q, h1, h2, h3, h4⟩ := parts_cancel hg
  refine ⟨.icrs2gcf g, .gcf2icrs g, rfl, rfl, rfl, rfl, fun q p => ?_⟩
  simp only [icrs2gcf_call h1, gcf2icrs_call h2, callParts]
  refine ⟨⟨_, rfl, ?_⟩, ⟨_, rfl, ?_⟩, ⟨_, _, rfl, ?_⟩, _, _, rfl, ?_⟩
  · rw [(h3 q).1]
  · rw [(h3 q).2]
  · rw [(h3 q).1, (h4 q _ p).1]
  · rw [(h3 q).2, (h4 q _ p).2]

/-- the default frame (lengths in AU: 1 kpc = 648000000/π AU; the velocity is arbitrary here) -/
example (v : Fin 3 → ℝ) : FrameOk ⟨266.4051 * (π / 180), -28.936175 * (π / 180),
    .dist (8.122 * (648000000 / π)), 0, 20.8 * (648000 / π), v⟩ := by
  refine ⟨_, rfl, by positivity, ?_⟩
  rw [abs_of_nonneg (by positivity)]
  have : 0 < 1 / π := by positivity
  have e1 : 20.8 * (648000 / π) = 13478400 * (1 / π) := by ring
  have e2 : 8.122 * (648000000 / π) = 5263056000 * (1 / π) := by ring
  rw [e1, e2]; nlinarith

/-- the Cartesian vectors of a position and a velocity, as Quantities -/
theorem qty_of_vecs {q : Pos ℝ} {p : Vel ℝ} (h : VelCase {} p .cart3 q) :
    ∃ q₀ p₀ : Fin 3 → ℝ, vec3 q₀ = point q ∧
      (∀ s, At {} p.kind (point q) s → vec3 p₀ = cartVel s p) ∧
      ∀ P, callParts P (.vecs q p) = .ok (.vecs (posOf (callQ id P q₀)) (velOf (callP P q₀ p₀))) := by
  have hd : q.kind.dim = 3 := by rw [h.dimp, h.dim]; rfl
  obtain ⟨w, h1, h2, h3⟩ := vel_ok h
  obtain ⟨c, hc, gc⟩ := toCart_total q h.valid h.pos_ts
  have hk : q.kind.cartesian = .cart3 := by rw [cartesian_of_dim (k' := .cart3) hd]; rfl
  have hck : c.kind = .cart3 := by rw [gc.kind, hk]
  have hp := gc.point
  obtain ⟨r, hr⟩ := exists_at h
  cases w <;> first | (cases h2; done) | skip
  cases c <;> first | (cases hck; done) | skip
  rename_i a b e x y z
  refine ⟨![x, y, z], ![a, b, e], by rw [← hp]; rfl, fun s hs => ?_, fun P => ?_⟩
  · rw [← h3 s r hs hr]
    have hk := hr.1
    cases r <;> first | (cases hk; done) | rfl
  · simp only [callParts, toQuantity, toCartesian]
    rw [if_neg (by rw [hd]; decide), h1, ok_bind]
    simp only [velToQuantity, ok_bind, qty3, hc, Pos.cartComponents]
    rfl

theorem velCase_cart (q p : Fin 3 → ℝ) : VelCase {} (velOf p) .cart3 (posOf q) :=
  { valid := trivial, dimp := rfl, dim := rfl, pos_ts := fun h => (by cases h), src_ts := fun h => (by cases h),
    tgt_ts := fun h => (by cases h), reg := trivial, reg' := trivial, delta := fun h => (by cases h),
    src_pro := fun h => (by cases h), src_loncoslat := fun h => (by cases h) }

theorem callParts_cart (P : FrameParts) (q p : Fin 3 → ℝ) : callParts P (.vecs (posOf q) (velOf p)) =
    .ok (.vecs (posOf (callQ id P q)) (velOf (callP P q p))) := by
  obtain ⟨q₀, p₀, e1, e2, e3⟩ := qty_of_vecs (velCase_cart q p)
  have e1 : vec3 q₀ = vec3 q := e1
  have e2 : vec3 p₀ = vec3 p := e2 (posOf q) ⟨rfl, trivial, rfl, fun h => (by cases h)⟩
  rw [e3, vec3_inj e1, vec3_inj e2]

/-- **C33.** For a position vector and a velocity vector of any classes: the results are Cartesian, and
the round trip gives the Cartesian form of the original position and velocity. (A position vector
alone is rejected, next theorem.) -/
theorem C33_round_trip_vectors (g : Galactocentric) (hg : FrameOk g) (q : Pos ℝ) (p : Vel ℝ)
    (h : VelCase {} p .cart3 q) (s : Pos ℝ) (hs : At {} p.kind (point q) s) :
    (∃ q' p', (FOp.icrs2gcf g).call (.vecs q p) = .ok (.vecs q' p') ∧
      (FOp.gcf2icrs g).call (.vecs q' p') = .ok (.vecs
        (.cart3 (point q).x (point q).y (point q).z)
        (.cart3 (cartVel s p).x (cartVel s p).y (cartVel s p).z))) ∧
    ∃ q' p', (FOp.gcf2icrs g).call (.vecs q p) = .ok (.vecs q' p') ∧
      (FOp.icrs2gcf g).call (.vecs q' p') = .ok (.vecs
        (.cart3 (point q).x (point q).y (point q).z)
        (.cart3 (cartVel s p).x (cartVel s p).y (cartVel s p).z)) := by
  obtain ⟨P, Q, h1, h2, h3, h4⟩ := parts_cancel hg
  obtain ⟨q₀, p₀, e1, e2, e3⟩ := qty_of_vecs h
  have e2 := e2 s hs
  simp only [icrs2gcf_call h1, gcf2icrs_call h2, e3]
  have hq : posOf q₀ = .cart3 (point q).x (point q).y (point q).z := by rw [← e1]; rfl
  have hp : velOf p₀ = .cart3 (cartVel s p).x (cartVel s p).y (cartVel s p).z := by rw [← e2]; rfl
  refine ⟨⟨_, _, rfl, ?_⟩, _, _, rfl, ?_⟩
  · rw [callParts_cart, (h3 q₀).1, (h4 q₀ _ p₀).1, hq, hp]
  · rw [callParts_cart, (h3 q₀).2, (h4 q₀ _ p₀).2, hq, hp]

/-- the hypotheses are met: a star in geographic coordinates with proper motions -/
example : VelCase {} (.lonCosLat 1 2 3) .cart3 (.lonlat 1 0 (.dist 5)) :=
  { valid := ⟨by norm_num [DistOk], by constructor <;> linarith [Real.pi_pos]⟩
    dimp := rfl, dim := rfl, pos_ts := fun h => (by cases h), src_ts := fun h => (by cases h),
    tgt_ts := fun h => (by cases h)
    reg := by
      show OffAxis _
      intro h
      simp only [point, lonlatPoint, distOf, Real.cos_zero, mul_one] at h
      have := Real.sin_sq_add_cos_sq (1 : ℝ)
      obtain ⟨h1, h2⟩ := h
      have h1 : Real.cos 1 = 0 := by linarith
      have h2 : Real.sin 1 = 0 := by linarith
      rw [h1, h2] at this; norm_num at this
    reg' := trivial, delta := fun h => (by cases h),
    src_pro := fun h => (by cases h), src_loncoslat := fun h => (by cases h) }

/-- **C33, exception.** Position vectors without a velocity: the frame operators reject them. -/
theorem C33_position_vector_alone_raises (g : Galactocentric) (q : Pos ℝ) (a : FArg) :
    (FOp.icrs2gcf g).call (.pos q) ≠ .ok a ∧ (FOp.gcf2icrs g).call (.pos q) ≠ .ok a := by
  constructor
  · intro h
    simp only [FOp.call] at h
    obtain ⟨P, _, h⟩ := (bind_ok_iff _ _ _).mp h
    cases h
  · intro h
    simp only [FOp.call] at h
    obtain ⟨P, _, h⟩ := (bind_ok_iff _ _ _).mp h
    cases h

/-! ### C34: landmarks -/

theorem mulV_eulerX (a : ℝ) (v : V3) :
    mulV (eulerX a) v = ⟨v.x, cos a * v.y - sin a * v.z, sin a * v.y + cos a * v.z⟩ := by
  simp [mulV, eulerX]; ring

theorem mulV_eulerY (a : ℝ) (v : V3) :
    mulV (eulerY a) v = ⟨cos a * v.x + sin a * v.z, v.y, -(sin a * v.x) + cos a * v.z⟩ := by
  simp [mulV, eulerY]

theorem mulV_eulerZ (a : ℝ) (v : V3) :
    mulV (eulerZ a) v = ⟨cos a * v.x - sin a * v.y, sin a * v.x + cos a * v.y, v.z⟩ := by
  simp [mulV, eulerZ]; ring

theorem mulV_neg_mat (A : Mat3) (v : V3) : mulV (-A) v = (mulV A v).neg := by
  simp only [mulV, Matrix.neg_apply, V3.neg, V3.mk.injEq]
  refine ⟨?_, ?_, ?_⟩ <;> ring

/-- `R` turns the direction of the Galactic centre into the x axis. -/
theorem galcen_dir (lon lat roll d : ℝ) :
    mulV (eulerX roll * eulerY lat * eulerZ (-lon)) (lonlatPoint lon lat d) = ⟨d, 0, 0⟩ := by
  have h1 := Real.sin_sq_add_cos_sq lon
  have h2 := Real.sin_sq_add_cos_sq lat
  rw [mulV_mul, mulV_mul, mulV_eulerZ, mulV_eulerY, mulV_eulerX]
  simp only [lonlatPoint, Real.cos_neg, Real.sin_neg]
  have e1 : cos lon * (d * cos lat * cos lon) - -sin lon * (d * cos lat * sin lon) = d * cos lat := by
    linear_combination d * cos lat * h1
  have e2 : -sin lon * (d * cos lat * cos lon) + cos lon * (d * cos lat * sin lon) = 0 := by ring
  rw [e1, e2]
  have e3 : cos lat * (d * cos lat) + sin lat * (d * sin lat) = d := by linear_combination d * h2
  have e4 : -(sin lat * (d * cos lat)) + cos lat * (d * sin lat) = 0 := by ring
  rw [e3, e4]
  simp

theorem offset_eq (h d : ℝ) : vec3 ((-eulerY h).mulVec (fun i => d * ![1, 0, 0] i)) =
    ⟨-(d * cos h), 0, d * sin h⟩ := by
  rw [vec3_mulVec, mulV_neg_mat, mulV_eulerY]
  simp [vec3, V3.neg, mul_comm]

/-- **C34.** For every frame with `0 < d`, `|z_sun| <= d`: the Galactic centre, at the sky position and
distance of the frame, is mapped to the origin; the Sun (ICRS origin) to the point
`(-√(d² - z_sun²), 0, z_sun)`, at distance `d` from the origin; and an object at rest relative to
the Sun, wherever it is, gets the velocity `galcen_v_sun`. -/
theorem C34_landmarks (g : Galactocentric) (d : ℝ) (hg : g.distance = .dist d) (hd : 0 < d)
    (hz : |g.zSun| ≤ d) :
    (∀ q, vec3 q = lonlatPoint g.lon g.lat d →
      ∃ q', (FOp.icrs2gcf g).call (.qty q) = .ok (.qty q') ∧ vec3 q' = V3.zero) ∧
    (∀ q, vec3 q = V3.zero → ∃ q', (FOp.icrs2gcf g).call (.qty q) = .ok (.qty q') ∧
      vec3 q' = ⟨-√(d ^ 2 - g.zSun ^ 2), 0, g.zSun⟩ ∧ V3.norm (vec3 q') = d ∧ (vec3 q').x ≤ 0) ∧
    ∀ q p, vec3 p = V3.zero → ∃ q', (FOp.icrs2gcf g).call (.qtys q p) = .ok (.qtys q' g.vSun) := by
  have hP := parts_ok hg hd hz
  simp only [icrs2gcf_call hP, callParts]
  have hs : sin (arcsin (g.zSun / d)) = g.zSun / d := by
    obtain ⟨h1, h2⟩ := abs_le.mp hz
    apply Real.sin_arcsin
    · rw [le_div_iff₀ hd]; linarith
    · rw [div_le_iff₀ hd]; linarith
  have hc : d * cos (arcsin (g.zSun / d)) = √(d ^ 2 - g.zSun ^ 2) := by
    rw [Real.cos_arcsin]
    rw [show 1 - (g.zSun / d) ^ 2 = (d ^ 2 - g.zSun ^ 2) / d ^ 2 by field_simp,
      Real.sqrt_div' _ (by positivity), Real.sqrt_sq hd.le]
    field_simp
  refine ⟨fun q hq => ⟨_, rfl, ?_⟩, fun q hq => ⟨_, rfl, ?_⟩, fun q p hp => ?_⟩
  · rw [vec3_callQ]
    simp only [offset_eq, hq]
    rw [mulV_mul, galcen_dir, mulV_eulerY]
    simp [V3.add, V3.zero, mul_comm]
  · suffices aux : ∀ v : V3, v = ⟨-√(d ^ 2 - g.zSun ^ 2), 0, g.zSun⟩ →
        v = ⟨-√(d ^ 2 - g.zSun ^ 2), 0, g.zSun⟩ ∧ v.norm = d ∧ v.x ≤ 0 by
      apply aux
      rw [vec3_callQ]
      simp only [offset_eq, hq, hc, hs]
      simp [mulV, V3.add, V3.zero, mul_div_cancel₀ _ hd.ne']
    intro v key
    refine ⟨key, ?_, ?_⟩
    · rw [key]
      have h0 : 0 ≤ d ^ 2 - g.zSun ^ 2 := by
        have := sq_le_sq' (abs_le.mp hz).1 (abs_le.mp hz).2; linarith
      simp only [V3.norm, neg_sq, Real.sq_sqrt h0]
      rw [show d ^ 2 - g.zSun ^ 2 + 0 ^ 2 + g.zSun ^ 2 = d ^ 2 by ring, Real.sqrt_sq hd.le]
    · rw [key]; exact neg_nonpos.mpr (Real.sqrt_nonneg _)
  · rw [vec3_inj (a := callP _ q p) (b := g.vSun)
      (by rw [vec3_callP, hp]; simp [mulV, V3.zero, V3.add])]
    exact ⟨_, rfl⟩

/-- **C34 (roll).** The direction of the north celestial pole: seen from the Sun at the Galactic centre, it makes the angle
`58.5986320306 deg - roll` with the Galactic z axis, towards +y. (A step of length 1 to the north in ICRS changes y by
`cos(lat) sin(...)`; without solar height it changes z by `cos(lat) cos(...)` and x by `sin(lat)`.) -/
theorem C34_roll (g : Galactocentric) (d : ℝ) (hg : g.distance = .dist d) (hd : 0 < d) (hz : |g.zSun| ≤ d)
    (q n q' n' : Fin 3 → ℝ) (hn : vec3 n = (vec3 q).add ⟨0, 0, 1⟩) (hq : (FOp.icrs2gcf g).call (.qty q) = .ok (.qty q'))
    (hn' : (FOp.icrs2gcf g).call (.qty n) = .ok (.qty n')) :
    n' 1 - q' 1 = cos g.lat * sin (58.5986320306 * (π / 180) - g.roll) ∧
    (g.zSun = 0 → n' 2 - q' 2 = cos g.lat * cos (58.5986320306 * (π / 180) - g.roll) ∧ n' 0 - q' 0 = sin g.lat) := by
  have hP := parts_ok hg hd hz
  simp only [icrs2gcf_call hP, callParts] at hq hn'
  obtain rfl := FArg.qty.inj (Except.ok.inj hq)
  obtain rfl := FArg.qty.inj (Except.ok.inj hn')
  have e0 : n 0 = q 0 := by have := congrArg V3.x hn; simpa [vec3, V3.add] using this
  have e1 : n 1 = q 1 := by have := congrArg V3.y hn; simpa [vec3, V3.add] using this
  have e2 : n 2 = q 2 + 1 := by have := congrArg V3.z hn; simpa [vec3, V3.add] using this
  simp only [callQ, e0, e1, e2]
  have hs : sin (58.5986320306 * (π / 180) - g.roll) = -sin (g.roll - roll0) := by
    rw [← Real.sin_neg, neg_sub]; rfl
  have hc : cos (58.5986320306 * (π / 180) - g.roll) = cos (g.roll - roll0) := by
    rw [← Real.cos_neg, neg_sub]; rfl
  rw [hs, hc]
  refine ⟨?_, fun h0 => ?_⟩
  · simp [Matrix.mul_apply, Fin.sum_univ_three, eulerX, eulerY, eulerZ]
    ring
  · simp [Matrix.mul_apply, Fin.sum_univ_three, eulerX, eulerY, eulerZ, h0]
    exact ⟨by ring, by ring⟩

/-- an instance: a frame with the Sun 3 above the plane, at distance 5, is at `(-4, 0, 3)` -/
example : ∃ q', (FOp.icrs2gcf ⟨1, 2, .dist 5, 3, 3, 0⟩).call (.qty 0) = .ok (.qty q') ∧
    vec3 q' = ⟨-4, 0, 3⟩ := by
  obtain ⟨q', h, e, _⟩ := (C34_landmarks ⟨1, 2, .dist 5, 3, 3, 0⟩ 5 rfl (by norm_num)
    (by norm_num)).2.1 0 rfl
  refine ⟨q', h, ?_⟩
  rw [e]
  have : √((5 : ℝ) ^ 2 - 3 ^ 2) = 4 := by
    rw [show (5 : ℝ) ^ 2 - 3 ^ 2 = 4 ^ 2 by norm_num, Real.sqrt_sq (by norm_num)]
  rw [this]

/-- **C34**, outside the domain: no frame transform exists when the Sun is farther from the plane than
from the Galactic centre, when the distance is zero, or when the distance is given as a parallax or
a distance modulus. -/
theorem C34_undefined (g : Galactocentric)
    (h : g.distance = .dist 0 ∨ (∃ d, g.distance = .dist d ∧ 0 < d ∧ d < |g.zSun|) ∨
      (∃ x, g.distance = .par x) ∨ ∃ x, g.distance = .dm x) (a b : FArg) :
    (FOp.icrs2gcf g).call a ≠ .ok b ∧ (FOp.gcf2icrs g).call a ≠ .ok b := by
  have key : ∀ P, icrsToGcfParts g ≠ .ok P := by
    intro P hP
    unfold icrsToGcfParts at hP
    rcases h with h | ⟨d, h, hd, hz⟩ | ⟨x, h⟩ | ⟨x, h⟩ <;> rw [h] at hP
    · simp only [Dist.asLength, ok_bind] at hP
      obtain ⟨x, h1, _⟩ := (bind_ok_iff _ _ _).mp hP
      simp [Num.div] at h1
    · have hb : g.zSun / d < -1 ∨ 1 < g.zSun / d := by
        rcases lt_abs.mp hz with hz | hz
        · right; rw [lt_div_iff₀ hd]; linarith
        · left; rw [div_lt_iff₀ hd]; linarith
      simp only [Dist.asLength, ok_bind, div_real_ok hd.ne', asinR, if_pos hb] at hP
      cases hP
    · simp only [Dist.asLength] at hP; cases hP
    · simp only [Dist.asLength] at hP; cases hP
  constructor
  · intro hh
    simp only [FOp.call] at hh
    obtain ⟨P, hP, _⟩ := (bind_ok_iff _ _ _).mp hh
    exact key P hP
  · intro hh
    simp only [FOp.call] at hh
    obtain ⟨P, hP, _⟩ := (bind_ok_iff _ _ _).mp hh
    obtain ⟨P', hP', _⟩ := (bind_ok_iff _ _ _).mp hP
    exact key P' hP'

/-! ### C35: rigidity -/

theorem affine_dist {A : Mat3} (hA : Orthogonal A) (o a b : V3) :
    dist3 ((mulV A a).add o) ((mulV A b).add o) = dist3 a b := by
  unfold dist3
  rw [sub_add_right, mulV_sub, norm_mulV A hA]

/-- **C35.** Frame transforms in both directions preserve distances between positions and relative
speeds. -/
theorem C35_rigid (g : Galactocentric) (hg : FrameOk g) :
    ∀ op ∈ [FOp.icrs2gcf g, .gcf2icrs g], ∀ q₁ q₂ p₁ p₂ : Fin 3 → ℝ,
      ∃ r₁ r₂ s₁ s₂, op.call (.qtys q₁ p₁) = .ok (.qtys r₁ s₁) ∧
        op.call (.qtys q₂ p₂) = .ok (.qtys r₂ s₂) ∧
        op.call (.qty q₁) = .ok (.qty r₁) ∧ op.call (.qty q₂) = .ok (.qty r₂) ∧
        dist3 (vec3 r₁) (vec3 r₂) = dist3 (vec3 q₁) (vec3 q₂) ∧
        dist3 (vec3 s₁) (vec3 s₂) = dist3 (vec3 p₁) (vec3 p₂) := by
  obtain ⟨P, h1, h2, _⟩ := parts_total hg
  intro op hop q₁ q₂ p₁ p₂
  simp only [List.mem_cons, List.not_mem_nil, or_false] at hop
  rcases hop with rfl | rfl
  · simp only [icrs2gcf_call h1, callParts]
    refine ⟨_, _, _, _, rfl, rfl, rfl, rfl, ?_, ?_⟩
    · rw [vec3_callQ, vec3_callQ, affine_dist h2]
    · rw [vec3_callP, vec3_callP, affine_dist h2]
  · simp only [gcf2icrs_call (parts_inv h1), callParts]
    refine ⟨_, _, _, _, rfl, rfl, rfl, rfl, ?_, ?_⟩
    · rw [vec3_callQ, vec3_callQ, affine_dist h2.transpose]
    · rw [vec3_callP, vec3_callP, affine_dist h2.transpose]

/-- **C35.** The rotation of a frame has determinant `+1`: handedness is preserved. -/
theorem C35_orientation (g : Galactocentric) (P : FrameParts) (h : icrsToGcfParts g = .ok P) :
    Orthogonal P.A ∧ P.A.det = 1 := by
  unfold icrsToGcfParts at h
  obtain ⟨d, _, h⟩ := (bind_ok_iff _ _ _).mp h
  obtain ⟨x, _, h⟩ := (bind_ok_iff _ _ _).mp h
  obtain ⟨y, _, h⟩ := (bind_ok_iff _ _ _).mp h
  obtain rfl := Except.ok.inj h
  have dx : ∀ a, (eulerX a).det = 1 := fun a => by
    have := Real.sin_sq_add_cos_sq a
    simp only [eulerX, Matrix.det_fin_three]; simp; nlinarith
  have dy : ∀ a, (eulerY a).det = 1 := fun a => by
    have := Real.sin_sq_add_cos_sq a
    simp only [eulerY, Matrix.det_fin_three]; simp; nlinarith
  have dz : ∀ a, (eulerZ a).det = 1 := fun a => by
    have := Real.sin_sq_add_cos_sq a
    simp only [eulerZ, Matrix.det_fin_three]; simp; nlinarith
  refine ⟨(eulerY_orth _).mul (((eulerX_orth _).mul (eulerY_orth _)).mul (eulerZ_orth _)), ?_⟩
  simp only [Matrix.det_mul, dx, dy, dz, mul_one]

/-! ### C36: composition -/

namespace Spec
/-- frames between which transforms exist -/
def FrameDefined : Frame → Prop
  | .noFrame => False
  | .icrs => True
  | .gcf g => FrameOk g
end Spec

/-- what a frame transform does on (position, velocity): through ICRS -/
structure Through (f : Frame) where
  toI : (Fin 3 → ℝ) → (Fin 3 → ℝ)
  toIv : (Fin 3 → ℝ) → (Fin 3 → ℝ)
  fromI : (Fin 3 → ℝ) → (Fin 3 → ℝ)
  fromIv : (Fin 3 → ℝ) → (Fin 3 → ℝ)
  cancel : ∀ q, toI (fromI q) = q ∧ fromI (toI q) = q ∧ toIv (fromIv q) = q ∧ fromIv (toIv q) = q
  from_ : ∀ g, f = .gcf g → ∀ q p, (FOp.gcf2icrs g).call (.qtys q p) = .ok (.qtys (toI q) (toIv p)) ∧
    (FOp.gcf2icrs g).call (.vecs (posOf q) (velOf p)) = .ok (.vecs (posOf (toI q)) (velOf (toIv p)))
  to_ : ∀ g, f = .gcf g → ∀ q p, (FOp.icrs2gcf g).call (.qtys q p) = .ok (.qtys (fromI q) (fromIv p)) ∧
    (FOp.icrs2gcf g).call (.vecs (posOf q) (velOf p)) = .ok (.vecs (posOf (fromI q)) (velOf (fromIv p)))
  icrs : f = .icrs → toI = id ∧ toIv = id ∧ fromI = id ∧ fromIv = id

theorem callP_indep (P : FrameParts) (q q' p : Fin 3 → ℝ) : callP P q p = callP P q' p := by
  apply vec3_inj; rw [vec3_callP, vec3_callP]

theorem through_exists {f : Frame} (h : FrameDefined f) : Nonempty (Through f) := by
  cases f with
  | noFrame => exact absurd h id
  | icrs => exact ⟨⟨id, id, id, id, fun q => ⟨rfl, rfl, rfl, rfl⟩, fun g h => (by cases h),
      fun g h => (by cases h), fun _ => ⟨rfl, rfl, rfl, rfl⟩⟩⟩
  | gcf g =>
    obtain ⟨P, Q, h1, h2, h3, h4⟩ := parts_cancel h
    refine ⟨⟨callQ id Q, callP Q 0, callQ id P, callP P 0, fun q => ⟨(h3 q).1, (h3 q).2, ?_, ?_⟩,
      ?_, ?_, fun h => (by cases h)⟩⟩
    · exact (h4 0 0 q).1
    · exact (h4 0 0 q).2
    · intro g' e q p
      obtain rfl := Frame.gcf.inj e
      rw [gcf2icrs_call h2, gcf2icrs_call h2, callParts_cart, callP_indep Q q 0 p]
      exact ⟨by simp only [callParts]; rw [callP_indep Q q 0 p], rfl⟩
    · intro g' e q p
      obtain rfl := Frame.gcf.inj e
      rw [icrs2gcf_call h1, icrs2gcf_call h1, callParts_cart, callP_indep P q 0 p]
      exact ⟨by simp only [callParts]; rw [callP_indep P q 0 p], rfl⟩

theorem pipe_call_qtys (ops : List FOp) (q p : Fin 3 → ℝ) :
    (FOp.pipe ops).call (.qtys q p) = fcallAll ops (.qtys q p) := by simp only [FOp.call]

theorem pipe_call_vecs (ops : List FOp) (q : Pos ℝ) (p : Vel ℝ) :
    (FOp.pipe ops).call (.vecs q p) = fcallAll ops (.vecs q p) := by simp only [FOp.call]

/-- every frame transform goes through ICRS -/
theorem transform_through {f g : Frame} (tf : Through f) (tg : Through g) (hf : FrameDefined f)
    (hg : FrameDefined g) : ∃ op, frameTransformOp f g = .ok op ∧ ∀ q p,
      op.call (.qtys q p) = .ok (.qtys (tg.fromI (tf.toI q)) (tg.fromIv (tf.toIv p))) ∧
      op.call (.vecs (posOf q) (velOf p)) =
        .ok (.vecs (posOf (tg.fromI (tf.toI q))) (velOf (tg.fromIv (tf.toIv p)))) := by
  cases f with
  | noFrame => exact absurd hf id
  | icrs =>
    obtain ⟨a1, a2, _, _⟩ := tf.icrs rfl
    cases g with
    | noFrame => exact absurd hg id
    | icrs =>
      obtain ⟨_, _, b1, b2⟩ := tg.icrs rfl
      refine ⟨_, rfl, fun q p => ?_⟩
      simp only [FOp.call, a1, a2, b1, b2, id, and_self]
    | gcf g =>
      refine ⟨_, rfl, fun q p => ?_⟩
      rw [a1, a2]; exact tg.to_ g rfl q p
  | gcf f =>
    cases g with
    | noFrame => exact absurd hg id
    | icrs =>
      obtain ⟨_, _, b1, b2⟩ := tg.icrs rfl
      refine ⟨_, rfl, fun q p => ?_⟩
      rw [b1, b2]; exact tf.from_ f rfl q p
    | gcf g =>
      by_cases e : f = g
      · subst e
        refine ⟨.pipe [.identity], by simp [frameTransformOp], fun q p => ?_⟩
        have e1 : tg.fromI (tf.toI q) = q := by
          have x1 := (tg.from_ f rfl q p).1
          rw [(tf.from_ f rfl q p).1] at x1
          obtain ⟨x1, _⟩ := FArg.qtys.inj (Except.ok.inj x1)
          rw [x1]; exact (tg.cancel q).2.1
        have e2 : tg.fromIv (tf.toIv p) = p := by
          have x1 := (tg.from_ f rfl q p).1
          rw [(tf.from_ f rfl q p).1] at x1
          obtain ⟨_, x1⟩ := FArg.qtys.inj (Except.ok.inj x1)
          rw [x1]; exact (tg.cancel p).2.2.2
        simp only [FOp.call, fcallAll, ok_bind, e1, e2, and_self]
      · refine ⟨.pipe [.gcf2icrs f, .icrs2gcf g], by simp [frameTransformOp, e], fun q p => ?_⟩
        constructor
        · simp only [pipe_call_qtys, fcallAll, (tf.from_ f rfl q p).1, ok_bind, (tg.to_ g rfl _ _).1]
        · simp only [pipe_call_vecs, fcallAll, (tf.from_ f rfl q p).2, ok_bind, (tg.to_ g rfl _ _).2]

/-- **C36.** For all frames `f g h` (ICRS or any Galactocentric frame, in any combination), on every
position and velocity, given as Quantities or as Cartesian vectors: `T(g,h)` after `T(f,g)` is
`T(f,h)`, and `T(f,f)` is the identity. A position without a velocity is rejected by
`T(f,g)` between different Galactocentric frames (`C36_position_alone_raises`). -/
theorem C36_composition (f g h : Frame) (hf : FrameDefined f) (hg : FrameDefined g)
    (hh : FrameDefined h) : ∃ fg gh fh ff, frameTransformOp f g = .ok fg ∧
      frameTransformOp g h = .ok gh ∧ frameTransformOp f h = .ok fh ∧ frameTransformOp f f = .ok ff ∧
      ∀ q p : Fin 3 → ℝ,
        (∃ q' p' q'' p'', fg.call (.qtys q p) = .ok (.qtys q' p') ∧
          gh.call (.qtys q' p') = .ok (.qtys q'' p'') ∧ fh.call (.qtys q p) = .ok (.qtys q'' p'')) ∧
        (∃ q' p' q'' p'', fg.call (.vecs (posOf q) (velOf p)) = .ok (.vecs (posOf q') (velOf p')) ∧
          gh.call (.vecs (posOf q') (velOf p')) = .ok (.vecs (posOf q'') (velOf p'')) ∧
          fh.call (.vecs (posOf q) (velOf p)) = .ok (.vecs (posOf q'') (velOf p''))) ∧
        ff.call (.qtys q p) = .ok (.qtys q p) ∧
        ff.call (.vecs (posOf q) (velOf p)) = .ok (.vecs (posOf q) (velOf p)) := by
  obtain ⟨tf⟩ := through_exists hf
  obtain ⟨tg⟩ := through_exists hg
  obtain ⟨th⟩ := through_exists hh
  obtain ⟨fg, e1, k1⟩ := transform_through tf tg hf hg
  obtain ⟨gh, e2, k2⟩ := transform_through tg th hg hh
  obtain ⟨fh, e3, k3⟩ := transform_through tf th hf hh
  obtain ⟨ff, e4, k4⟩ := transform_through tf tf hf hf
  refine ⟨fg, gh, fh, ff, e1, e2, e3, e4, fun q p => ⟨?_, ?_, ?_, ?_⟩⟩
  · refine ⟨_, _, _, _, (k1 q p).1, (k2 _ _).1, ?_⟩
    rw [(k3 q p).1, (tg.cancel _).1, (tg.cancel _).2.2.1]
  · refine ⟨_, _, _, _, (k1 q p).2, (k2 _ _).2, ?_⟩
    rw [(k3 q p).2, (tg.cancel _).1, (tg.cancel _).2.2.1]
  · rw [(k4 q p).1, (tf.cancel _).2.1, (tf.cancel _).2.2.2]
  · rw [(k4 q p).2, (tf.cancel _).2.1, (tf.cancel _).2.2.2]

/-- **C36, vectors of every class.** Between different frames a position and a velocity vector of
whatever classes are transformed exactly like their Cartesian forms (so `C36_composition` applies);
from a frame to itself they come back untouched. -/
theorem C36_any_class (f g : Frame) (hf : FrameDefined f) (hg : FrameDefined g) (q : Pos ℝ)
    (p : Vel ℝ) (h : VelCase {} p .cart3 q) (s : Pos ℝ) (hs : At {} p.kind (point q) s) :
    ∃ fg ff, frameTransformOp f g = .ok fg ∧ frameTransformOp f f = .ok ff ∧
      ff.call (.vecs q p) = .ok (.vecs q p) ∧
      (f ≠ g → fg.call (.vecs q p) = fg.call (.vecs (.cart3 (point q).x (point q).y (point q).z)
        (.cart3 (cartVel s p).x (cartVel s p).y (cartVel s p).z)) ∧
        ∃ q' p', fg.call (.vecs q p) = .ok (.vecs (posOf q') (velOf p'))) := by
  obtain ⟨tf⟩ := through_exists hf
  obtain ⟨tg⟩ := through_exists hg
  obtain ⟨fg, e1, k1⟩ := transform_through tf tg hf hg
  obtain ⟨ff, e2, _⟩ := transform_through tf tf hf hf
  refine ⟨fg, ff, e1, e2, ?_, ?_⟩
  · cases f with
    | noFrame => exact absurd hf id
    | icrs => obtain rfl := Except.ok.inj e2; simp only [FOp.call]
    | gcf f =>
      simp only [frameTransformOp, if_true] at e2
      obtain rfl := Except.ok.inj e2
      simp only [FOp.call, fcallAll, ok_bind]
  · intro hne
    obtain ⟨q₀, p₀, c1, c2, c3⟩ := qty_of_vecs h
    have c2 := c2 s hs
    have hq : posOf q₀ = .cart3 (point q).x (point q).y (point q).z := by rw [← c1]; rfl
    have hp : velOf p₀ = .cart3 (cartVel s p).x (cartVel s p).y (cartVel s p).z := by rw [← c2]; rfl
    rw [← hq, ← hp]
    have key : ∀ P, callParts P (.vecs q p) = callParts P (.vecs (posOf q₀) (velOf p₀)) := by
      intro P; rw [c3, callParts_cart]
    have : fg.call (.vecs q p) = fg.call (.vecs (posOf q₀) (velOf p₀)) := by
      cases f with
      | noFrame => exact absurd hf id
      | icrs =>
        cases g with
        | noFrame => exact absurd hg id
        | icrs => exact absurd rfl hne
        | gcf g => obtain rfl := Except.ok.inj e1; simp only [FOp.call, key]
      | gcf f =>
        cases g with
        | noFrame => exact absurd hg id
        | icrs => obtain rfl := Except.ok.inj e1; simp only [FOp.call, key]
        | gcf g =>
          simp only [frameTransformOp, if_neg (show ¬ f = g from fun e => hne (by rw [e]))] at e1
          obtain rfl := Except.ok.inj e1
          simp only [FOp.call, fcallAll, key]
    exact ⟨this, _, _, this.trans (k1 q₀ p₀).2⟩

example : FrameDefined (.gcf ⟨1, 2, .dist 5, 3, 3, 0⟩) := ⟨5, rfl, by norm_num, by norm_num⟩

/-- **C36.** Transforming from or to `NoFrame` is an error, for every other frame; ICRS to ICRS is
`Identity`. -/
theorem C36_no_frame (f : Frame) : frameTransformOp .noFrame f = .error .frame ∧
    frameTransformOp f .noFrame = .error .frame ∧
    frameTransformOp .icrs .icrs = .ok .identity ∧ ∀ a, FOp.identity.call a = .ok a := by
  refine ⟨by simp [frameTransformOp], by cases f <;> rfl, rfl, fun a => by simp only [FOp.call]⟩

/-- **C36, exception.** Positions alone: the transform between two different Galactocentric frames
rejects a position given without a velocity, as Quantity or as vector. -/
theorem C36_position_alone_raises (f g : Galactocentric) (h : f ≠ g) (op : FOp)
    (hop : frameTransformOp (.gcf f) (.gcf g) = .ok op) (q : Fin 3 → ℝ) (v : Pos ℝ) (a : FArg) :
    op.call (.qty q) ≠ .ok a ∧ op.call (.pos v) ≠ .ok a := by
  simp only [frameTransformOp, if_neg h] at hop
  obtain rfl := Except.ok.inj hop
  have key : ∀ w b, fcallAll [.gcf2icrs f, .icrs2gcf g] (.pos w) ≠ .ok b := by
    intro w b hb
    simp only [fcallAll] at hb
    obtain ⟨c, hc, _⟩ := (bind_ok_iff _ _ _).mp hb
    exact (C33_position_vector_alone_raises f w c).2 hc
  constructor
  · intro hh
    simp only [FOp.call] at hh
    obtain ⟨c, hc, _⟩ := (bind_ok_iff _ _ _).mp hh
    exact key _ _ hc
  · intro hh
    simp only [FOp.call] at hh
    exact key _ _ hh

namespace Spec

mutual
/-- an operator without any frame transform in it, nested to any depth -/
def NoTransform : FOp → Prop
  | .identity => True
  | .icrs2gcf _ => False
  | .gcf2icrs _ => False
  | .pipe ops => NoTransforms ops
/-- the same for a list -/
def NoTransforms : List FOp → Prop
  | [] => True
  | o :: os => NoTransform o ∧ NoTransforms os
end

end Spec

mutual
theorem call_pos_iff : ∀ (op : FOp) (v : Pos ℝ) (a : FArg), op.call (.pos v) = .ok a ↔ NoTransform op ∧ a = .pos v
  | .identity, v, a => by
    simp only [FOp.call, NoTransform, true_and]
    exact ⟨fun h => (Except.ok.inj h).symm, fun h => by rw [h]⟩
  | .icrs2gcf g, v, a => by
    simp only [NoTransform, false_and, iff_false]
    exact (C33_position_vector_alone_raises g v a).1
  | .gcf2icrs g, v, a => by
    simp only [NoTransform, false_and, iff_false]
    exact (C33_position_vector_alone_raises g v a).2
  | .pipe ops, v, a => by
    simp only [FOp.call, NoTransform]
    exact fcallAll_pos_iff ops v a
theorem fcallAll_pos_iff : ∀ (ops : List FOp) (v : Pos ℝ) (a : FArg), fcallAll ops (.pos v) = .ok a ↔ NoTransforms ops ∧ a = .pos v
  | [], v, a => by
    simp only [fcallAll, NoTransforms, true_and]
    exact ⟨fun h => (Except.ok.inj h).symm, fun h => by rw [h]⟩
  | o :: os, v, a => by
    simp only [fcallAll, NoTransforms]
    rw [bind_ok_iff]
    constructor
    · rintro ⟨b, h1, h2⟩
      obtain ⟨ho, rfl⟩ := (call_pos_iff o v b).1 h1
      obtain ⟨hs, rfl⟩ := (fcallAll_pos_iff os v a).1 h2
      exact ⟨⟨ho, hs⟩, rfl⟩
    · rintro ⟨⟨ho, hs⟩, rfl⟩
      exact ⟨.pos v, (call_pos_iff o v _).2 ⟨ho, rfl⟩, (fcallAll_pos_iff os v _).2 ⟨hs, rfl⟩⟩
end

/-- **C36, exception.** Any operator, pipes nested to any depth, on a position vector alone, and any pipe on a Quantity of positions
alone: it returns exactly if there is no frame transform anywhere in it, and then the position itself. So one transform, at any
place of a pipe, makes the pipe raise on positions without velocities, though the transform itself takes such Quantities. -/
theorem C36_pipe_positions (op : FOp) (ops : List FOp) (v : Pos ℝ) (q : Fin 3 → ℝ) (a : FArg) :
    (op.call (.pos v) = .ok a ↔ NoTransform op ∧ a = .pos v) ∧
    ((FOp.pipe ops).call (.qty q) = .ok a ↔ NoTransform (.pipe ops) ∧ a = .qty q) := by
  refine ⟨call_pos_iff op v a, ?_⟩
  have back : (do return .qty (← qty3 (← toQuantity (← representAs {} (posOf q) .cart3))) : Res FArg) = .ok (.qty q) := by
    rw [show representAs {} (posOf q) .cart3 = .ok (posOf q) from representAs_self_cart {} (posOf q) rfl]
    simp only [ok_bind, posOf, toQuantity]
    rw [show toCartesian (Pos.cart3 (q 0) (q 1) (q 2)) = .ok (.cart3 (q 0) (q 1) (q 2)) from
      representAs_self_cart {} (.cart3 (q 0) (q 1) (q 2)) rfl]
    simp only [ok_bind, Pos.cartComponents, qty3]
    have hq : ![q 0, q 1, q 2] = q := by
      funext i
      fin_cases i <;> rfl
    rw [hq]; rfl
  simp only [FOp.call, NoTransform]
  rw [bind_ok_iff]
  constructor
  · rintro ⟨b, h1, h2⟩
    obtain ⟨hs, rfl⟩ := (fcallAll_pos_iff ops _ b).1 h1
    exact ⟨hs, (Except.ok.inj (back.symm.trans h2)).symm⟩
  · rintro ⟨hs, rfl⟩
    exact ⟨_, (fcallAll_pos_iff ops _ _).2 ⟨hs, rfl⟩, back⟩

/-- a transform behind an identity in a nested pipe -/
example (g : Galactocentric) (q : Fin 3 → ℝ) (a : FArg) : (FOp.pipe [.identity, .pipe [.icrs2gcf g]]).call (.qty q) ≠ .ok a := fun h => by
  have := ((C36_pipe_positions .identity _ (posOf q) q a).2.1 h).1
  simp [NoTransform, NoTransforms] at this

example (q : Fin 3 → ℝ) : (FOp.pipe [.identity, .pipe [.identity]]).call (.qty q) = .ok (.qty q) :=
  (C36_pipe_positions .identity _ (posOf q) q _).2.2 ⟨by simp [NoTransform, NoTransforms], rfl⟩

namespace Spec

mutual
/-- the transforms in an operator have a defined frame (nested to any depth) -/
def OpDefined : FOp → Prop
  | .identity => True
  | .icrs2gcf g => FrameOk g
  | .gcf2icrs g => FrameOk g
  | .pipe ops => OpsDefined ops
/-- the same for a list -/
def OpsDefined : List FOp → Prop
  | [] => True
  | o :: os => OpDefined o ∧ OpsDefined os
end

/-- `f` takes the phase-space point `(q, p)` to `(q', p')`, as Quantities and as Cartesian vectors -/
def Maps (f : FArg → Res FArg) (q p q' p' : Fin 3 → ℝ) : Prop :=
  f (.qtys q p) = .ok (.qtys q' p') ∧ f (.vecs (posOf q) (velOf p)) = .ok (.vecs (posOf q') (velOf p'))

end Spec

theorem maps_append {a b : List FOp} {q p q' p' q'' p'' : Fin 3 → ℝ} (ha : Maps (fcallAll a) q p q' p')
    (hb : Maps (fcallAll b) q' p' q'' p'') : Maps (fcallAll (a ++ b)) q p q'' p'' := by
  have key : ∀ (a : List FOp) (x y : FArg), fcallAll a x = .ok y → fcallAll (a ++ b) x = fcallAll b y := by
    intro a
    induction a with
    | nil => intro x y h; simp only [fcallAll] at h; obtain rfl := Except.ok.inj h; rfl
    | cons o a ih =>
      intro x y h
      simp only [fcallAll, List.cons_append] at h ⊢
      obtain ⟨z, h1, h2⟩ := (bind_ok_iff _ _ _).mp h
      rw [h1, ok_bind]; exact ih z y h2
  exact ⟨(key _ _ _ ha.1).trans hb.1, (key _ _ _ ha.2).trans hb.2⟩

mutual
/-- **C36.** The inverse of every frame operator, Pipes of Pipes included, undoes it in both directions. -/
theorem C36_inverse_undoes : ∀ (op : FOp), OpDefined op → ∀ q p : Fin 3 → ℝ,
    (∃ q' p', Maps op.call q p q' p' ∧ Maps op.inverse.call q' p' q p) ∧
    ∃ q' p', Maps op.inverse.call q p q' p' ∧ Maps op.call q' p' q p
  | .identity, _, q, p => by
    simp only [Maps, FOp.inverse, FOp.call]
    exact ⟨⟨q, p, ⟨rfl, rfl⟩, rfl, rfl⟩, q, p, ⟨rfl, rfl⟩, rfl, rfl⟩
  | .icrs2gcf g, h, q, p => by
    obtain ⟨P, Q, h1, h2, h3, h4⟩ := parts_cancel h
    simp only [Maps, FOp.inverse, icrs2gcf_call h1, gcf2icrs_call h2, callParts_cart]
    simp only [callParts]
    exact ⟨⟨_, _, ⟨rfl, rfl⟩, by rw [(h3 q).1, (h4 q _ p).1], by rw [(h3 q).1, (h4 q _ p).1]⟩,
      _, _, ⟨rfl, rfl⟩, by rw [(h3 q).2, (h4 q _ p).2], by rw [(h3 q).2, (h4 q _ p).2]⟩
  | .gcf2icrs g, h, q, p => by
    obtain ⟨P, Q, h1, h2, h3, h4⟩ := parts_cancel h
    simp only [Maps, FOp.inverse, icrs2gcf_call h1, gcf2icrs_call h2, callParts_cart]
    simp only [callParts]
    exact ⟨⟨_, _, ⟨rfl, rfl⟩, by rw [(h3 q).2, (h4 q _ p).2], by rw [(h3 q).2, (h4 q _ p).2]⟩,
      _, _, ⟨rfl, rfl⟩, by rw [(h3 q).1, (h4 q _ p).1], by rw [(h3 q).1, (h4 q _ p).1]⟩
  | .pipe ops, h, q, p => by
    obtain ⟨⟨q', p', a, b⟩, q'', p'', c, d⟩ := inverse_undoes_all ops h q p
    simp only [Maps, FOp.inverse, pipe_call_qtys, pipe_call_vecs]
    exact ⟨⟨q', p', a, b⟩, q'', p'', c, d⟩
theorem inverse_undoes_all : ∀ (ops : List FOp), OpsDefined ops → ∀ q p : Fin 3 → ℝ,
    (∃ q' p', Maps (fcallAll ops) q p q' p' ∧ Maps (fcallAll (finverseAll ops)) q' p' q p) ∧
    ∃ q' p', Maps (fcallAll (finverseAll ops)) q p q' p' ∧ Maps (fcallAll ops) q' p' q p
  | [], _, q, p => by
    simp only [Maps, finverseAll, fcallAll]
    exact ⟨⟨q, p, ⟨rfl, rfl⟩, rfl, rfl⟩, q, p, ⟨rfl, rfl⟩, rfl, rfl⟩
  | o :: os, h, q, p => by
    have single : ∀ {o : FOp} {q p q' p' : Fin 3 → ℝ}, Maps o.call q p q' p' → Maps (fcallAll [o]) q p q' p' :=
      fun h => by
        simp only [Maps, fcallAll] at h ⊢
        exact ⟨by rw [h.1, ok_bind], by rw [h.2, ok_bind]⟩
    rw [show (o :: os) = [o] ++ os from rfl]
    have hf : finverseAll ([o] ++ os) = finverseAll os ++ [o.inverse] := by
      simp only [List.singleton_append, finverseAll]
    rw [hf]
    constructor
    · obtain ⟨⟨q1, p1, a1, b1⟩, _⟩ := C36_inverse_undoes o h.1 q p
      obtain ⟨⟨q2, p2, a2, b2⟩, _⟩ := inverse_undoes_all os h.2 q1 p1
      exact ⟨q2, p2, maps_append (single a1) a2, maps_append b2 (single b1)⟩
    · obtain ⟨_, q1, p1, a1, b1⟩ := inverse_undoes_all os h.2 q p
      obtain ⟨_, q2, p2, a2, b2⟩ := C36_inverse_undoes o h.1 q1 p1
      exact ⟨q2, p2, maps_append a1 (single a2), maps_append (single b2) b1⟩
end

/-- **C36.** The inverse of the transform from `f` to `g` is the transform from `g` to `f`, for all frames. -/
theorem C36_inverse_is_reverse (f g : Frame) (op : FOp) (h : frameTransformOp f g = .ok op) :
    frameTransformOp g f = .ok op.inverse := by
  cases f with
  | noFrame => cases h
  | icrs =>
    cases g with
    | noFrame => cases h
    | icrs => obtain rfl := Except.ok.inj h; simp only [frameTransformOp, FOp.inverse]
    | gcf g => obtain rfl := Except.ok.inj h; simp only [frameTransformOp, FOp.inverse]
  | gcf f =>
    cases g with
    | noFrame => cases h
    | icrs => obtain rfl := Except.ok.inj h; simp only [frameTransformOp, FOp.inverse]
    | gcf g =>
      simp only [frameTransformOp] at h ⊢
      by_cases e : f = g
      · subst e
        rw [if_pos rfl] at h ⊢
        obtain rfl := Except.ok.inj h
        simp only [FOp.inverse, finverseAll, List.nil_append]
      · rw [if_neg e] at h
        rw [if_neg fun e' => e e'.symm]
        obtain rfl := Except.ok.inj h
        simp only [FOp.inverse, finverseAll, List.nil_append, List.singleton_append]

end Verif
