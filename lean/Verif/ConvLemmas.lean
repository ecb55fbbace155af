import Verif.Forms

/-! # Every same-dimension conversion keeps the point (helper lemmas) -/

namespace Verif

open Real Spec

/-- `q` is a correct conversion of `p` to class `k`. -/
structure Good (p q : Pos ℝ) (k : Kind) : Prop where
  kind : q.kind = k
  valid : Valid q
  point : point q = point p
  canon : Canon p → Canon q

theorem Good.trans {p q s : Pos ℝ} {k k' : Kind} (h : Good p q k) (h' : Good q s k') :
    Good p s k' :=
  ⟨h'.kind, h'.valid, h'.point.trans h.point, fun c => h'.canon (h.canon c)⟩

theorem Good.refl {p : Pos ℝ} (h : Valid p) : Good p p p.kind := ⟨rfl, h, rfl, id⟩

theorem sqrt_xyz_sin_arccos {a z : ℝ} (h : 0 < a + z * z) (ha : 0 ≤ a) :
    √(a + z * z) * sin (arccos (z / √(a + z * z))) = √a := by
  have hs : 0 < √(a + z * z) := Real.sqrt_pos.mpr h
  have hsq : √(a + z * z) * √(a + z * z) = a + z * z := Real.mul_self_sqrt h.le
  rw [Real.sin_arccos]
  have : 1 - (z / √(a + z * z)) ^ 2 = a / (a + z * z) := by
    rw [div_pow, Real.sq_sqrt h.le, eq_div_iff h.ne', sub_mul, div_mul_cancel₀ _ h.ne']; ring
  rw [this, Real.sqrt_div ha, mul_div_cancel₀ _ hs.ne']

theorem sqrt_cos_arccos {a z : ℝ} (h : 0 < a) (hz : z * z ≤ a) :
    √a * cos (arccos (z / √a)) = z := by
  have h1 := div_sqrt_mem a z hz
  rw [Real.cos_arccos h1.1 h1.2]
  have hs : 0 < √a := Real.sqrt_pos.mpr h
  field_simp

theorem inTurn_wrapR (x : ℝ) : InTurn (wrapR x) := ⟨wrapR_nonneg x, wrapR_lt x⟩

theorem good_cart3_cyl {x y z : ℝ} {q : Pos ℝ} (h : cart3ToCyl x y z = .ok q) :
    Good (.cart3 x y z) q .cyl := by
  rw [cart3ToCyl_eq] at h
  cases h
  refine ⟨rfl, Real.sqrt_nonneg _, ?_, fun _ => inTurn_wrapR _⟩
  simp [point, cylPoint, sqrt_mul_cos_atan2, sqrt_mul_sin_atan2]

theorem good_cart3_sph {x y z : ℝ} {q : Pos ℝ} (h : cart3ToSph x y z = .ok q) :
    Good (.cart3 x y z) q .sph := by
  rcases (sumsq3_nonneg x y z).eq_or_lt with h0 | h0
  · have hx : x = 0 := by nlinarith [mul_self_nonneg x, mul_self_nonneg y, mul_self_nonneg z]
    have hy : y = 0 := by nlinarith [mul_self_nonneg x, mul_self_nonneg y, mul_self_nonneg z]
    have hz : z = 0 := by nlinarith [mul_self_nonneg x, mul_self_nonneg y, mul_self_nonneg z]
    subst hx hy hz
    rw [cart3ToSph_zero] at h; cases h
  rw [cart3ToSph_eq h0] at h
  cases h
  refine ⟨rfl, ⟨Real.sqrt_nonneg _, Real.arccos_nonneg _, Real.arccos_le_pi _⟩, ?_,
    fun _ => inTurn_wrapR _⟩
  have h1 := sqrt_xyz_sin_arccos h0 (sumsq2_nonneg x y)
  have h2 := sqrt_cos_arccos (z := z) h0 (by nlinarith [sumsq2_nonneg x y])
  simp only [point, sphPoint, distOf, h1, h2, cos_wrapR, sin_wrapR, sqrt_mul_cos_atan2,
    sqrt_mul_sin_atan2]

theorem good_cyl_cart3 {rho phi z : ℝ} {q : Pos ℝ} (h : cylToCart3 rho phi z = .ok q) :
    Good (.cyl rho phi z) q .cart3 := by
  rw [cylToCart3_eq] at h
  cases h
  exact ⟨rfl, trivial, rfl, fun _ => trivial⟩

theorem good_cyl_sph {rho phi z : ℝ} {q : Pos ℝ} (hv : Valid (.cyl rho phi z))
    (h : cylToSph rho phi z = .ok q) : Good (.cyl rho phi z) q .sph := by
  rcases (sumsq2_nonneg rho z).eq_or_lt with h0 | h0
  · have hx : rho = 0 := by nlinarith [mul_self_nonneg rho, mul_self_nonneg z]
    have hz : z = 0 := by nlinarith [mul_self_nonneg rho, mul_self_nonneg z]
    subst hx hz
    rw [cylToSph_zero] at h; cases h
  rw [cylToSph_eq h0] at h
  cases h
  refine ⟨rfl, ⟨Real.sqrt_nonneg _, Real.arccos_nonneg _, Real.arccos_le_pi _⟩, ?_, id⟩
  have h1 := sqrt_xyz_sin_arccos h0 (mul_self_nonneg rho)
  have h2 := sqrt_cos_arccos (z := z) h0 (by nlinarith [mul_self_nonneg rho])
  have h3 : √(rho * rho) = rho := Real.sqrt_mul_self hv
  simp only [point, sphPoint, cylPoint, distOf, h1, h2, h3]

theorem good_sph_cart3 {r : Dist ℝ} {theta phi : ℝ} {q : Pos ℝ} (hv : Valid (.sph r theta phi))
    (h : sphToCart3 r theta phi = .ok q) : Good (.sph r theta phi) q .cart3 := by
  rw [sphToCart3_eq hv.1] at h
  cases h
  exact ⟨rfl, trivial, rfl, fun _ => trivial⟩

theorem good_sph_cyl {r : Dist ℝ} {theta phi : ℝ} {q : Pos ℝ} (hv : Valid (.sph r theta phi))
    (h : sphToCyl r theta phi = .ok q) : Good (.sph r theta phi) q .cyl := by
  rw [sphToCyl_eq hv.1] at h
  cases h
  refine ⟨rfl, abs_nonneg _, ?_, id⟩
  have : 0 ≤ distOf r * sin theta :=
    mul_nonneg (distOf_nonneg hv.1) (Real.sin_nonneg_of_nonneg_of_le_pi hv.2.1 hv.2.2)
  simp [point, sphPoint, cylPoint, abs_of_nonneg this]

theorem good_sph_lonlat {r : Dist ℝ} {theta phi : ℝ} {q : Pos ℝ} (hv : Valid (.sph r theta phi))
    (h : sphToLonLat r theta phi = .ok q) : Good (.sph r theta phi) q .lonlat := by
  rw [sphToLonLat_eq hv.1 _ hv.2.1 hv.2.2] at h
  cases h
  refine ⟨rfl, ⟨hv.1, by linarith [hv.2.2], by linarith [hv.2.1]⟩, ?_, id⟩
  simp [point, sphPoint, lonlatPoint, Real.cos_pi_div_two_sub, Real.sin_pi_div_two_sub]

theorem good_sph_math {r : Dist ℝ} {theta phi : ℝ} {q : Pos ℝ} (hv : Valid (.sph r theta phi))
    (h : sphToMath r theta phi = .ok q) : Good (.sph r theta phi) q .math := by
  rw [sphToMath_eq hv.1 _ hv.2.1 hv.2.2] at h
  cases h
  exact ⟨rfl, hv, rfl, id⟩

theorem good_lonlat_sph {r : Dist ℝ} {lon lat : ℝ} {q : Pos ℝ} (hv : Valid (.lonlat lon lat r))
    (h : lonlatToSph lon lat r = .ok q) : Good (.lonlat lon lat r) q .sph := by
  rw [lonlatToSph_eq hv.1 _ hv.2.1 hv.2.2] at h
  cases h
  refine ⟨rfl, ⟨hv.1, by linarith [hv.2.2], by linarith [hv.2.1]⟩, ?_, id⟩
  simp [point, sphPoint, lonlatPoint, Real.cos_pi_div_two_sub, Real.sin_pi_div_two_sub]

theorem good_math_cart3 {r : Dist ℝ} {theta phi : ℝ} {q : Pos ℝ} (hv : Valid (.math r theta phi))
    (h : mathToCart3 r theta phi = .ok q) : Good (.math r theta phi) q .cart3 := by
  rw [mathToCart3_eq hv.1] at h
  cases h
  exact ⟨rfl, trivial, rfl, fun _ => trivial⟩

theorem good_math_cyl {r : Dist ℝ} {theta phi : ℝ} {q : Pos ℝ} (hv : Valid (.math r theta phi))
    (h : mathToCyl r theta phi = .ok q) : Good (.math r theta phi) q .cyl := by
  rw [mathToCyl_eq hv.1] at h
  cases h
  refine ⟨rfl, abs_nonneg _, ?_, id⟩
  have : 0 ≤ distOf r * sin phi :=
    mul_nonneg (distOf_nonneg hv.1) (Real.sin_nonneg_of_nonneg_of_le_pi hv.2.1 hv.2.2)
  simp [point, sphPoint, cylPoint, abs_of_nonneg this]

theorem good_math_sph {r : Dist ℝ} {theta phi : ℝ} {q : Pos ℝ} (hv : Valid (.math r theta phi))
    (h : mathToSph r theta phi = .ok q) : Good (.math r theta phi) q .sph := by
  rw [mathToSph_eq hv.1 _ hv.2.1 hv.2.2] at h
  cases h
  exact ⟨rfl, hv, rfl, id⟩

theorem prolR_nonneg (mu nu delta : ℝ) : 0 ≤ prolR mu nu delta := Real.sqrt_nonneg _

theorem good_prolate_cyl {mu nu phi delta : ℝ} {q : Pos ℝ} (hv : Valid (.prolate mu nu phi delta))
    (h : prolateToCyl mu nu phi delta = .ok q) : Good (.prolate mu nu phi delta) q .cyl := by
  rw [prolateToCyl_eq hv.1 hv.2.1 hv.2.2] at h
  cases h
  exact ⟨rfl, prolR_nonneg _ _ _, rfl, id⟩

theorem signR_abs_le (z : ℝ) : |signR z| ≤ 1 := by
  rcases lt_trichotomy z 0 with h | h | h
  · simp [signR_neg h]
  · simp [h]
  · simp [signR_pos h]

/-- the prolate coordinates found for a cylindrical point lead back to it: radius -/
theorem prolR_pMu {rho z delta : ℝ} (hr : 0 ≤ rho) (hd : 0 < delta) :
    prolR (pMu rho z delta) (pAbsNu rho z delta * signR z) delta = rho := by
  have hn := pAbsNu_nonneg rho z delta
  unfold prolR
  have habs : |pAbsNu rho z delta * signR z| = pAbsNu rho z delta := by
    rcases lt_trichotomy z 0 with h | h | h
    · rw [signR_neg h]; simp [abs_of_nonneg hn]
    · subst h
      have h0 : pAbsNu rho 0 delta = 0 := by
        have := pMu_mul_pAbsNu rho 0 delta
        have h2 := pMu_ge rho 0 delta
        have h3 : pMu rho 0 delta ≠ 0 := by
          have : 0 < delta * delta := by positivity
          linarith
        rcases mul_eq_zero.mp (by rw [this]; ring) with h | h
        · exact absurd h h3
        · exact h
      simp [h0]
    · rw [signR_pos h]; simp [abs_of_nonneg hn]
  rw [habs]
  have h := pMu_sub_mul rho z delta
  have hdd : (0:ℝ) < delta ^ 2 := by positivity
  have : (pMu rho z delta - delta ^ 2) * (1 - pAbsNu rho z delta / delta ^ 2) = rho * rho := by
    field_simp
    nlinarith
  rw [this, Real.sqrt_mul_self hr]

theorem abs_pNu {rho z delta : ℝ} (hd : 0 < delta) :
    |pAbsNu rho z delta * signR z| = pAbsNu rho z delta := by
  have hn := pAbsNu_nonneg rho z delta
  rcases lt_trichotomy z 0 with h | h | h
  · rw [signR_neg h]; simp [abs_of_nonneg hn]
  · subst h
    have h0 : pAbsNu rho 0 delta = 0 := by
      have := pMu_mul_pAbsNu rho 0 delta
      have h2 := pMu_ge rho 0 delta
      have h3 : pMu rho 0 delta ≠ 0 := by
        have : 0 < delta * delta := by positivity
        linarith
      rcases mul_eq_zero.mp (by rw [this]; ring) with h | h
      · exact absurd h h3
      · exact h
    simp [h0]
  · rw [signR_pos h]; simp [abs_of_nonneg hn]

/-- ... and height -/
theorem prolZ_pMu {rho z delta : ℝ} (hd : 0 < delta) :
    prolZ (pMu rho z delta) (pAbsNu rho z delta * signR z) delta = z := by
  have hn := pAbsNu_nonneg rho z delta
  unfold prolZ
  rw [abs_pNu hd]
  have h := pMu_mul_pAbsNu rho z delta
  have hdd : (0:ℝ) < delta ^ 2 := by positivity
  have h1 : pMu rho z delta * (pAbsNu rho z delta / delta ^ 2) = z * z := by
    field_simp
    nlinarith
  rw [h1, Real.sqrt_mul_self_eq_abs]
  rcases lt_trichotomy z 0 with h | h | h
  · have hz : 0 < pAbsNu rho z delta := by
      rcases hn.eq_or_lt with h0 | h0
      · rw [← h0] at h1; simp at h1; linarith
      · exact h0
    rw [signR_neg h, if_pos (by linarith), abs_of_neg h]; ring
  · subst h; simp
  · rw [signR_pos h, if_neg (by linarith), abs_of_pos h]

theorem good_cyl_prolate {rho phi z delta : ℝ} {q : Pos ℝ} (hv : Valid (.cyl rho phi z))
    (h : cylToProlate rho phi z delta = .ok q) : Good (.cyl rho phi z) q .prolate := by
  have hd := cylToProlate_delta_pos h
  have hv' : 0 ≤ rho := hv
  by_cases hf : rho = 0 ∧ z * z = delta * delta
  · obtain ⟨rfl, hz⟩ := hf
    rw [cylToProlate_focus hd hz] at h; cases h
  · rw [cylToProlate_eq hd hf] at h
    cases h
    refine ⟨rfl, ⟨hd, by nlinarith [pMu_ge rho z delta], ?_⟩, ?_, id⟩
    · rw [abs_pNu hd]; nlinarith [pAbsNu_le rho z delta]
    · simp only [point, prolR_pMu hv' hd, prolZ_pMu hd]

theorem good_cart2_polar {x y : ℝ} {q : Pos ℝ} (h : cart2ToPolar x y = .ok q) :
    Good (.cart2 x y) q .polar := by
  rw [cart2ToPolar_eq] at h
  cases h
  refine ⟨rfl, Real.sqrt_nonneg _, ?_, fun _ => inTurn_wrapR _⟩
  simp [point, distOf, sqrt_mul_cos_atan2, sqrt_mul_sin_atan2]

theorem good_polar_cart2 {r : Dist ℝ} {phi : ℝ} {q : Pos ℝ} (hv : Valid (.polar r phi))
    (h : polarToCart2 r phi = .ok q) : Good (.polar r phi) q .cart2 := by
  rw [polarToCart2_eq hv] at h
  cases h
  exact ⟨rfl, trivial, rfl, fun _ => trivial⟩

theorem good_cart1_radial {x : ℝ} {q : Pos ℝ} (h : mkRadial (.dist x) = .ok q) :
    Good (.cart1 x) q .radial := by
  by_cases hx : x < 0
  · simp [mkRadial, Dist.raw, checkNonNeg_err hx] at h
  · rw [mkRadial_ok (r := .dist x) (not_lt.mp hx)] at h
    cases h
    exact ⟨rfl, not_lt.mp hx, rfl, fun _ => trivial⟩

theorem good_radial_cart1 {r : Dist ℝ} {q : Pos ℝ} (hv : Valid (.radial r))
    (h : (r.distance >>= fun d => mkCart1 d) = .ok q) : Good (.radial r) q .cart1 := by
  rw [distance_ok hv] at h
  cases h
  exact ⟨rfl, trivial, rfl, fun _ => trivial⟩

/-- no conversion involving `TwoSpherePos` returns -/
theorem twoSphere_cart2 {α : Type} [Num α] (n : ℕ) (kw : Kw α) (theta phi : α) (q : Pos α) :
    represent n kw (.twoSphere theta phi) .cart2 ≠ .ok q := by
  induction n generalizing kw q with
  | zero => simp [represent]
  | succ n ih =>
    intro h
    simp only [represent, bind_ok_iff] at h
    obtain ⟨a, h1, _⟩ := h
    exact ih _ _ h1

/-- Main lemma: a same-dimension conversion that returns is correct. -/
theorem represent_good (n : ℕ) : ∀ (kw : Kw ℝ) (p : Pos ℝ) (k : Kind) (q : Pos ℝ),
    Valid p → p.kind.dim = k.dim → represent n kw p k = .ok q → Good p q k := by
  induction n with
  | zero => intro kw p k q _ _ h; simp [represent] at h
  | succ n ih =>
    intro kw p k q hv hd h
    have step : ∀ {kw kw' : Kw ℝ} {m : Kind},
        (represent n kw p m >>= fun s => represent n kw' s k) = .ok q →
        p.kind.dim = m.dim → Good p q k := by
      intro kw kw' m h hm
      obtain ⟨a, h1, h2⟩ := (bind_ok_iff _ _ _).mp h
      have g := ih _ _ _ _ hv hm h1
      exact g.trans (ih _ _ _ _ g.valid (by rw [g.kind, ← hm, hd]) h2)
    cases p <;> cases k <;> simp only [Pos.kind, Kind.dim] at hd <;>
      first
      | (exfalso; revert hd; decide)
      | (simp only [represent] at h
         first
         | (cases h; exact Good.refl hv)
         | exact step h rfl
         | exact good_cart3_cyl h
         | exact good_cart3_sph h
         | exact good_cyl_cart3 h
         | exact good_cyl_sph hv h
         | exact good_sph_cart3 hv h
         | exact good_sph_cyl hv h
         | exact good_sph_lonlat hv h
         | exact good_sph_math hv h
         | exact good_lonlat_sph hv h
         | exact good_math_cart3 hv h
         | exact good_math_cyl hv h
         | exact good_math_sph hv h
         | exact good_prolate_cyl hv h
         | exact good_cart2_polar h
         | exact good_polar_cart2 hv h
         | exact good_cart1_radial h
         | exact good_radial_cart1 hv h
         | (cases hk : kw.delta with
            | none => rw [hk] at h; first | (cases h; exact Good.refl hv) | cases h
            | some dl => rw [hk] at h; first | exact good_cyl_prolate hv h | exact step h rfl))

end Verif
