import Verif.Props.Convert

/-! # Conversions that change the dimension (C12, C13) -/

namespace Verif.Props

open Real Spec

/-! ## C13: lowering the dimension -/

theorem prolate_cart3 (n : ℕ) {mu nu phi delta : ℝ} (hv : Valid (.prolate mu nu phi delta)) :
    represent (n + 2) {} (.prolate mu nu phi delta) .cart3 =
      .ok (.cart3 (prolR mu nu delta * cos phi) (prolR mu nu delta * sin phi)
        (prolZ mu nu delta)) := by
  show (prolateToCyl mu nu phi delta >>= fun s => represent (n + 1) {} s .cart3) = _
  rw [prolateToCyl_eq hv.1 hv.2.1 hv.2.2]; rfl

theorem cart2_polar_point (x y : ℝ) :
    point (.polar (.dist (√(x * x + y * y))) (wrapR (atan2R y x))) = ⟨x, y, 0⟩ := by
  simp [point, distOf, sqrt_mul_cos_atan2, sqrt_mul_sin_atan2]

/-- **C13.** (`C13_lowering_exact` in `Props/DimExact.lean` covers every case.) For every class with a rule (all but `LonLatSphericalPos` and `TwoSpherePos`)
and every valid position whose radial field is a plain `Distance`: lowering to a Cartesian class
or to `PolarPos` returns the orthogonal projection of the point. Not covered here: `Parallax` and
`DistanceModulus` radial fields and the `RadialPos` target (next theorems). -/
theorem C13_lowering_projects (kw : Kw ℝ) (p : Pos ℝ) (k : Kind) (hv : Valid p)
    (hpl : PlainDist p) (hk : k = .cart1 ∨ k = .cart2 ∨ k = .polar) (hlt : k.dim < p.kind.dim)
    (h1 : p.kind ≠ .lonlat) (h2 : p.kind ≠ .twoSphere) :
    ∃ q, representAs kw p k = .ok q ∧ q.kind = k ∧ point q = proj k.dim (point p) := by
  suffices H : ∀ n, ∃ q, represent (n + 4) kw p k = .ok q ∧ q.kind = k ∧
      point q = proj k.dim (point p) from H 196
  intro n
  cases p with
  | cart1 => rcases hk with rfl | rfl | rfl <;> simp [Pos.kind, Kind.dim] at hlt
  | radial => rcases hk with rfl | rfl | rfl <;> simp [Pos.kind, Kind.dim] at hlt
  | twoSphere => exact absurd rfl h2
  | lonlat => exact absurd rfl h1
  | cart2 x y =>
    rcases hk with rfl | rfl | rfl <;> simp [Pos.kind, Kind.dim] at hlt
    exact ⟨_, rfl, rfl, rfl⟩
  | polar r phi =>
    rcases hk with rfl | rfl | rfl <;> simp [Pos.kind, Kind.dim] at hlt
    obtain ⟨d, rfl⟩ := hpl
    exact ⟨_, rfl, rfl, rfl⟩
  | cart3 x y z =>
    rcases hk with rfl | rfl | rfl
    · exact ⟨_, rfl, rfl, rfl⟩
    · exact ⟨_, rfl, rfl, rfl⟩
    · refine ⟨_, show cart2ToPolar x y = _ from cart2ToPolar_eq x y, rfl, ?_⟩
      rw [cart2_polar_point]; rfl
  | cyl rho phi z =>
    rcases hk with rfl | rfl | rfl
    · exact ⟨_, rfl, rfl, rfl⟩
    · exact ⟨_, rfl, rfl, rfl⟩
    · exact ⟨_, mkPolar_ok (r := .dist rho) _ hv, rfl, rfl⟩
  | sph r theta phi =>
    obtain ⟨d, rfl⟩ := hpl
    rcases hk with rfl | rfl | rfl
    · exact ⟨_, rfl, rfl, rfl⟩
    · exact ⟨_, rfl, rfl, rfl⟩
    · have h0 : 0 ≤ d * sin theta :=
        mul_nonneg hv.1 (sin_nonneg_of_nonneg_of_le_pi hv.2.1 hv.2.2)
      exact ⟨_, mkPolar_ok (r := .dist (d * sin theta)) _ h0, rfl, rfl⟩
  | math r theta phi =>
    obtain ⟨d, rfl⟩ := hpl
    rcases hk with rfl | rfl | rfl
    · exact ⟨_, rfl, rfl, rfl⟩
    · exact ⟨_, rfl, rfl, rfl⟩
    · have h0 : 0 ≤ d * sin phi :=
        mul_nonneg hv.1 (sin_nonneg_of_nonneg_of_le_pi hv.2.1 hv.2.2)
      exact ⟨_, mkPolar_ok (r := .dist (d * sin phi)) _ h0, rfl, rfl⟩
  | prolate mu nu phi delta =>
    have e := prolate_cart3 (n + 1) hv
    rcases hk with rfl | rfl | rfl
    · have e' : represent (n + 4) kw (.prolate mu nu phi delta) .cart1 =
        (represent (n + 3) {} (.prolate mu nu phi delta) .cart3 >>=
          fun s => represent (n + 3) {} s .cart1) := rfl
      exact ⟨_, by rw [e', e]; rfl, rfl, rfl⟩
    · have e' : represent (n + 4) kw (.prolate mu nu phi delta) .cart2 =
        (represent (n + 3) {} (.prolate mu nu phi delta) .cart3 >>=
          fun s => represent (n + 3) {} s .cart2) := rfl
      exact ⟨_, by rw [e', e]; rfl, rfl, rfl⟩
    · have e' : represent (n + 4) kw (.prolate mu nu phi delta) .polar =
        (represent (n + 3) {} (.prolate mu nu phi delta) .cart3 >>=
          fun s => represent (n + 3) {} s .polar) := rfl
      refine ⟨_, by rw [e', e]; exact cart2ToPolar_eq _ _, rfl, ?_⟩
      rw [cart2_polar_point]; rfl

/-- The result of lowering does not depend on the class the source is expressed in. -/
theorem C13_class_independent (kw : Kw ℝ) (p p' : Pos ℝ) (k : Kind) (hv : Valid p)
    (hv' : Valid p') (hpl : PlainDist p) (hpl' : PlainDist p')
    (hk : k = .cart1 ∨ k = .cart2 ∨ k = .polar) (hlt : k.dim < p.kind.dim)
    (hlt' : k.dim < p'.kind.dim) (h1 : p.kind ≠ .lonlat) (h2 : p.kind ≠ .twoSphere)
    (h1' : p'.kind ≠ .lonlat) (h2' : p'.kind ≠ .twoSphere) (hpt : point p = point p') :
    ∃ q q', representAs kw p k = .ok q ∧ representAs kw p' k = .ok q' ∧ point q = point q' := by
  obtain ⟨q, a, _, b⟩ := C13_lowering_projects kw p k hv hpl hk hlt h1 h2
  obtain ⟨q', a', _, b'⟩ := C13_lowering_projects kw p' k hv' hpl' hk hlt' h1' h2'
  exact ⟨q, q', a, a', by rw [b, b', hpt]⟩

/-- C13 for `RadialPos`: from every class but `CylindricalPos` (and those without a rule) the
result is the Euclidean length, whatever the distance class. -/
theorem C13_radial_is_norm (kw : Kw ℝ) (p : Pos ℝ) (hv : Valid p)
    (hlt : 1 < p.kind.dim) (h1 : p.kind ≠ .lonlat) (h2 : p.kind ≠ .twoSphere)
    (h3 : p.kind ≠ .cyl) :
    ∃ r, representAs kw p .radial = .ok (.radial r) ∧ distOf r = (point p).norm := by
  suffices H : ∀ n, ∃ r, represent (n + 4) kw p .radial = .ok (.radial r) ∧
      distOf r = (point p).norm from H 196
  intro n
  have sphn : ∀ {r t f : ℝ}, 0 ≤ r → r = (sphPoint r t f).norm := by
    intro r t f hr
    have : (r * sin t * cos f) ^ 2 + (r * sin t * sin f) ^ 2 + (r * cos t) ^ 2 = r ^ 2 := by
      linear_combination (r * sin t) ^ 2 * sin_sq_add_cos_sq f + r ^ 2 * sin_sq_add_cos_sq t
    simp only [V3.norm, sphPoint, this]
    rw [sqrt_sq hr]
  cases p with
  | cart1 => simp [Pos.kind, Kind.dim] at hlt
  | radial => simp [Pos.kind, Kind.dim] at hlt
  | twoSphere => exact absurd rfl h2
  | lonlat => exact absurd rfl h1
  | cyl => exact absurd rfl h3
  | cart2 x y =>
    refine ⟨.dist (√(x * x + y * y)), ?_, ?_⟩
    · show (do mkRadial (.dist (← Num.sqrt (x * x + y * y)))) = _
      rw [sqrt_real_ok (sumsq2_nonneg x y), ok_bind]
      exact mkRadial_ok (r := .dist _) (sqrt_nonneg _)
    · simp [distOf, point, V3.norm, pow_two]
  | polar r phi =>
    refine ⟨r, mkRadial_ok (distOk_raw hv), ?_⟩
    have : (distOf r * cos phi) ^ 2 + (distOf r * sin phi) ^ 2 + 0 ^ 2 = distOf r ^ 2 := by
      linear_combination distOf r ^ 2 * sin_sq_add_cos_sq phi
    simp only [V3.norm, point, this]
    rw [sqrt_sq (distOf_nonneg hv)]
  | cart3 x y z =>
    refine ⟨.dist (√(x * x + y * y + z * z)), ?_, ?_⟩
    · show (do mkRadial (.dist (← Num.sqrt (x * x + y * y + z * z)))) = _
      rw [sqrt_real_ok (sumsq3_nonneg x y z), ok_bind]
      exact mkRadial_ok (r := .dist _) (sqrt_nonneg _)
    · simp [distOf, point, V3.norm, pow_two]
  | sph r theta phi =>
    exact ⟨r, mkRadial_ok (distOk_raw hv.1),
      sphn (distOf_nonneg hv.1)⟩
  | math r theta phi =>
    exact ⟨r, mkRadial_ok (distOk_raw hv.1),
      sphn (distOf_nonneg hv.1)⟩
  | prolate mu nu phi delta =>
    have e := prolate_cart3 (n + 1) hv
    have e' : represent (n + 4) kw (.prolate mu nu phi delta) .radial =
        (represent (n + 3) {} (.prolate mu nu phi delta) .cart3 >>=
          fun s => represent (n + 3) {} s .radial) := rfl
    refine ⟨.dist (√(prolR mu nu delta * cos phi * (prolR mu nu delta * cos phi) +
      prolR mu nu delta * sin phi * (prolR mu nu delta * sin phi) +
      prolZ mu nu delta * prolZ mu nu delta)), ?_, ?_⟩
    · rw [e', e, ok_bind]
      show (do mkRadial (.dist (← Num.sqrt _))) = _
      rw [sqrt_real_ok (sumsq3_nonneg _ _ _), ok_bind]
      exact mkRadial_ok (r := .dist _) (sqrt_nonneg _)
    · simp [distOf, point, V3.norm, pow_two, cylPoint]

/-- C13 is false for `RadialPos`: from `CylindricalPos` the result is `rho`, so one point, written
in cylindrical and in Cartesian form, has two different radial positions. -/
theorem C13_cyl_radial_drops_height :
    representAs {} (.cyl 3 0 4 : Pos ℝ) .radial = .ok (.radial (.dist 3)) ∧
    point (.cyl 3 0 4) = point (.cart3 3 0 4) ∧
    representAs {} (.cart3 3 0 4 : Pos ℝ) .radial = .ok (.radial (.dist 5)) := by
  refine ⟨mkRadial_ok (r := .dist 3) (by norm_num [Dist.raw]), by simp [point, cylPoint], ?_⟩
  show (do mkRadial (.dist (← Num.sqrt ((3 : ℝ) * 3 + 0 * 0 + 4 * 4)))) = _
  have : √((3 : ℝ) * 3 + 0 * 0 + 4 * 4) = 5 := by
    rw [show (3 : ℝ) * 3 + 0 * 0 + 4 * 4 = 5 ^ 2 by norm_num]; exact sqrt_sq (by norm_num)
  rw [sqrt_real_ok (by norm_num), ok_bind, this]
  exact mkRadial_ok (r := .dist 5) (by norm_num [Dist.raw])

/-- C13 is false for a `Parallax` radial field: `SphericalPos` to `PolarPos` scales the parallax
instead of the distance and silently returns another point; to `CartesianPos2D` it raises. -/
theorem C13_parallax_polar_wrong :
    ∃ q, representAs {} (.sph (.par (π / 4)) (π / 6) 0 : Pos ℝ) .polar = .ok q ∧
      point q ≠ proj 2 (point (.sph (.par (π / 4)) (π / 6) 0)) ∧
      representAs {} (.sph (.par (π / 4)) (π / 6) 0 : Pos ℝ) .cart2 = .error .units := by
  have hpi := pi_pos
  have ok8 : DistOk (.par (π / 4 * sin (π / 6))) := by
    rw [sin_pi_div_six]; constructor <;> linarith
  refine ⟨.polar (.dist (distOf (.par (π / 4 * sin (π / 6))))) 0, ?_, ?_, rfl⟩
  · show (do
        let r' ← Dist.scaleThenFrom (.par (π / 4)) (sin (π / 6))
        mkPolar r' (.angle (0 : ℝ))) = _
    simp only [Dist.scaleThenFrom, distance_ok ok8, ok_bind, pure_ok]
    exact mkPolar_ok (r := .dist _) _ (distOf_nonneg ok8)
  · intro h
    have h := congrArg V3.x h
    simp only [point, proj, sphPoint, distOf, sin_pi_div_six, tan_pi_div_four, cos_zero] at h
    have t8 : tan (π / 4 * (1 / 2)) < 1 := by
      rw [show π / 4 * (1 / 2) = π / 8 by ring, ← tan_pi_div_four]
      exact tan_lt_tan_of_nonneg_of_lt_pi_div_two (by linarith) (by linarith) (by linarith)
    have t80 : 0 < tan (π / 4 * (1 / 2)) := tan_pos_of_pos_of_lt_pi_div_two (by linarith) (by linarith)
    have : 1 < 1 / tan (π / 4 * (1 / 2)) := by rw [lt_div_iff₀ t80]; linarith
    linarith

/-! ## C12: raising the dimension -/

/-- Targets for which the default keyword arguments embed the point: all of them for
`CartesianPos2D` sources; everything but the spherical classes for the others. -/
def embeds (a b : Kind) : Bool :=
  a.dim < b.dim && (a == .cart2 || (b != .sph && b != .math))

theorem raising_embeds_aux (n : ℕ) (p q : Pos ℝ) (k : Kind) (hv : Valid p)
    (hs : p.kind ≠ .twoSphere) (hk : embeds p.kind k = true)
    (h : represent (n + 4) {} p k = .ok q) : q.kind = k ∧ point q = point p := by
  have wf := represent_wf _ _ _ _ _ hv h
  refine ⟨wf.kind, ?_⟩
  have via3 : ∀ {k : Kind} {x y : ℝ}, k.dim = 3 →
      represent (n + 3) {} (.cart3 x y (orZero (some (orZero none)))) k = .ok q →
      point q = point (.cart2 x y) := by
    intro k x y hk h
    rw [orZero_none, orZero_some] at h
    exact (represent_good _ _ _ _ _ (show Valid (.cart3 x y 0) from trivial) hk.symm h).point
  cases p with
  | twoSphere => exact absurd rfl hs
  | cart1 x =>
    cases k <;> first | (cases hk; done) | skip
    · cases h; simp [point]
    · obtain ⟨_, rfl⟩ := mkPolar_iff.mp h; simp [point, AzArg.convert, distOf]
    · cases h
    · cases h; simp [point]
    · obtain ⟨_, rfl⟩ := mkCyl_iff.mp h; simp [point, AzArg.convert, cylPoint]
    · cases h
    · cases h
  | radial r =>
    cases k <;> first | (cases hk; done) | skip
    · obtain ⟨a, ha, h⟩ := (bind_ok_iff _ _ _).mp h
      rw [asLength_iff] at ha
      cases h; simp [point, ha, distOf]
    · obtain ⟨_, rfl⟩ := mkPolar_iff.mp h; simp [point, AzArg.convert]
    · cases h
    · obtain ⟨a, ha, h⟩ := (bind_ok_iff _ _ _).mp h
      rw [asLength_iff] at ha
      cases h; simp [point, ha, distOf]
    · obtain ⟨a, ha, h⟩ := (bind_ok_iff _ _ _).mp h
      rw [asLength_iff] at ha
      obtain ⟨_, rfl⟩ := mkCyl_iff.mp h; simp [point, AzArg.convert, cylPoint, ha, distOf]
    · cases h
    · cases h
  | cart2 x y =>
    cases k <;> first | (cases hk; done) | skip
    · cases h; simp [point]
    · exact via3 (k := .cyl) rfl h
    · exact via3 (k := .sph) rfl h
    · cases h
    · exact via3 (k := .math) rfl h
    · cases h
  | polar r phi =>
    cases k <;> first | (cases hk; done) | skip
    · obtain ⟨a, ha, h⟩ := (bind_ok_iff _ _ _).mp h
      obtain ⟨b, hb, ha⟩ := (bind_ok_iff _ _ _).mp ha
      rw [asLength_iff] at hb
      obtain ⟨_, rfl⟩ := mkCyl_iff.mp ha
      cases h
      simp [point, AzArg.convert, hb, distOf]
    · obtain ⟨a, ha, h⟩ := (bind_ok_iff _ _ _).mp h
      rw [asLength_iff] at ha
      obtain ⟨_, rfl⟩ := mkCyl_iff.mp h
      simp [point, AzArg.convert, cylPoint, ha, distOf]
    · cases h
    · cases h
  | _ => cases k <;> cases hk

/-- **C12.** (`C12_raising_exact` in `Props/DimExact.lean` covers every case.) Whenever raising the dimension with default arguments returns, the result
denotes the same point (missing Cartesian coordinates zero), except that from 1-D or polar
positions to `SphericalPos`/`MathSphericalPos` this is false (`C12_polar_to_sph_moves`). -/
theorem C12_raising_embeds (p q : Pos ℝ) (k : Kind) (hv : Valid p)
    (hs : p.kind ≠ .twoSphere) (hk : embeds p.kind k = true) (h : representAs {} p k = .ok q) :
    q.kind = k ∧ point q = point p :=
  raising_embeds_aux 196 p q k hv hs hk h

theorem raising_returns_aux (n : ℕ) (p : Pos ℝ) (k : Kind) (hv : Valid p) (hs : p.kind ≠ .twoSphere)
    (hpl : PlainDist p) (hk : embeds p.kind k = true) (hr : k ≠ .lonlat ∧ k ≠ .prolate ∧ k ≠ .twoSphere)
    (hx : p.kind.dim = 1 → 0 ≤ (point p).x) (h0 : point p ≠ V3.zero) :
    ∃ q, represent (n + 4) {} p k = .ok q := by
  cases p with
  | twoSphere => exact absurd rfl hs
  | cart1 x =>
    have hx : 0 ≤ x := hx rfl
    cases k <;> first | (cases hk; done) | (exact absurd hr (by decide)) | skip
    · exact ⟨_, rfl⟩
    · exact ⟨_, mkPolar_ok (r := .dist x) _ hx⟩
    · exact ⟨_, rfl⟩
    · exact ⟨_, mkCyl_ok _ hx⟩
  | radial r =>
    obtain ⟨d, rfl⟩ := hpl
    cases k <;> first | (cases hk; done) | (exact absurd hr (by decide)) | skip
    · exact ⟨_, rfl⟩
    · exact ⟨_, mkPolar_ok (r := .dist d) _ hv⟩
    · exact ⟨_, rfl⟩
    · exact ⟨_, mkCyl_ok _ hv⟩
  | cart2 x y =>
    have c : ∀ k : Kind, k.dim = 3 → k ≠ .prolate →
        ∃ q, represent (n + 3) {} (.cart3 x y (orZero (some (orZero none)))) k = .ok q := by
      intro k hk hp
      rw [orZero_none, orZero_some]
      exact represent_total n ⟨trivial, hk.symm, (by intro e; cases e), (by rintro rfl; cases hk), fun _ => h0,
        (by rintro rfl; cases hk), fun e => absurd e hp⟩
    cases k <;> first | (cases hk; done) | (exact absurd hr (by decide)) | skip
    · exact ⟨_, rfl⟩
    · exact c .cyl rfl (by decide)
    · exact c .sph rfl (by decide)
    · exact c .math rfl (by decide)
  | polar r phi =>
    obtain ⟨d, rfl⟩ := hpl
    have hd : 0 ≤ d := hv
    cases k <;> first | (cases hk; done) | (exact absurd hr (by decide)) | skip
    · refine ⟨.cart3 (d * cos phi) (d * sin phi) (orZero (some (orZero none))), ?_⟩
      show (mkCyl d (.angle phi) (orZero (some (orZero none))) >>= fun s =>
        represent (n + 3) {} s .cart3) = _
      rw [mkCyl_ok _ hd]; rfl
    · exact ⟨_, mkCyl_ok _ hd⟩
  | _ => cases k <;> cases hk

/-- The calls of C12 return for every position with a non-negative `x` coordinate (1-D) or off the
origin (2-D) whose radial field is a plain distance. -/
theorem C12_raising_returns (p : Pos ℝ) (k : Kind) (hv : Valid p) (hs : p.kind ≠ .twoSphere)
    (hpl : PlainDist p) (hk : embeds p.kind k = true) (hr : k ≠ .lonlat ∧ k ≠ .prolate ∧ k ≠ .twoSphere)
    (hx : p.kind.dim = 1 → 0 ≤ (point p).x) (h0 : point p ≠ V3.zero) :
    ∃ q, representAs {} p k = .ok q :=
  raising_returns_aux 196 p k hv hs hpl hk hr hx h0

theorem raising_plain_aux (n : ℕ) (p q : Pos ℝ) (k : Kind)
    (hp : p.kind = .cart1 ∨ p.kind = .cart2 ∨ p.kind = .polar) (hk : embeds p.kind k = true)
    (h : represent (n + 4) {} p k = .ok q) : PlainDist q ∧ k ≠ .lonlat ∧ k ≠ .twoSphere := by
  have via3 : ∀ {k : Kind} {x y : ℝ}, k.dim = 3 →
      represent (n + 3) {} (.cart3 x y (orZero (some (orZero none)))) k = .ok q →
      PlainDist q := by
    intro k x y hk h
    exact represent_plain _ _ _ _ _ (show Valid (.cart3 x y _) from trivial) trivial hk.symm h
  cases p with
  | cart1 x =>
    cases k <;> first | (cases hk; done) | skip
    · cases h; exact ⟨trivial, by decide⟩
    · obtain ⟨_, rfl⟩ := mkPolar_iff.mp h; exact ⟨⟨_, rfl⟩, by decide⟩
    · cases h
    · cases h; exact ⟨trivial, by decide⟩
    · obtain ⟨_, rfl⟩ := mkCyl_iff.mp h; exact ⟨trivial, by decide⟩
    · cases h
    · cases h
  | cart2 x y =>
    cases k <;> first | (cases hk; done) | skip
    · cases h; exact ⟨trivial, by decide⟩
    · exact ⟨via3 (k := .cyl) rfl h, by decide⟩
    · exact ⟨via3 (k := .sph) rfl h, by decide⟩
    · cases h
    · exact ⟨via3 (k := .math) rfl h, by decide⟩
    · cases h
  | polar r phi =>
    cases k <;> first | (cases hk; done) | skip
    · obtain ⟨a, ha, h⟩ := (bind_ok_iff _ _ _).mp h
      obtain ⟨b, hb, ha⟩ := (bind_ok_iff _ _ _).mp ha
      obtain ⟨_, rfl⟩ := mkCyl_iff.mp ha
      cases h
      exact ⟨trivial, by decide⟩
    · obtain ⟨a, ha, h⟩ := (bind_ok_iff _ _ _).mp h
      obtain ⟨_, rfl⟩ := mkCyl_iff.mp h
      exact ⟨trivial, by decide⟩
    · cases h
    · cases h
  | _ => rcases hp with h | h | h <;> cases h

/-- Up and down again: the original point is recovered in the original Cartesian or polar class. -/
theorem C12_up_and_down (p q : Pos ℝ) (k : Kind) (hv : Valid p)
    (hp : p.kind = .cart1 ∨ p.kind = .cart2 ∨ p.kind = .polar) (hk : embeds p.kind k = true)
    (h : representAs {} p k = .ok q) :
    ∃ p', representAs {} q p.kind = .ok p' ∧ p'.kind = p.kind ∧ point p' = point p := by
  have hs : p.kind ≠ .twoSphere := by rcases hp with h | h | h <;> rw [h] <;> decide
  obtain ⟨hqk, hqp⟩ := C12_raising_embeds p q k hv hs hk h
  have wf := represent_wf _ _ _ _ _ hv h
  have hlt : p.kind.dim < q.kind.dim := by
    rw [hqk]; simp [embeds] at hk; exact hk.1
  obtain ⟨hqpl, hk1⟩ := raising_plain_aux 196 p q k hp hk h
  obtain ⟨p', h1, h2, h3⟩ := C13_lowering_projects {} q p.kind wf.valid hqpl hp hlt
    (by rw [hqk]; exact hk1.1) (by rw [hqk]; exact hk1.2)
  refine ⟨p', h1, h2, ?_⟩
  rw [h3, hqp]
  cases p <;> first | rfl | (rcases hp with h | h | h <;> cases h)

/-- C12 is false for the spherical classes: with the default inclination 0 the polar position
`(r, phi)` becomes the point `(0, 0, r)` on the z axis, and so does `CartesianPos1D(r)`. -/
theorem C12_polar_to_sph_moves (d phi : ℝ) (hd : 0 ≤ d) :
    (∃ q, representAs {} (.polar (.dist d) phi) .sph = .ok q ∧ point q = ⟨0, 0, d⟩) ∧
    (∃ q, representAs {} (.cart1 d) .sph = .ok q ∧ point q = ⟨0, 0, d⟩) ∧
    (0 < d → point (.cart1 d) ≠ ⟨0, 0, d⟩ ∧ point (.polar (.dist d) phi) ≠ ⟨0, 0, d⟩) := by
  refine ⟨?_, ?_, ?_⟩
  · obtain ⟨r', t, p, h1, _, _, _, h5⟩ := sphFrom_good (r := .dist d) 0 (.angle phi) (Or.inr ⟨_, rfl⟩)
    refine ⟨.sph r' t p, ?_, Eq.trans (show point (.sph r' t p) = _ from h5) ?_⟩
    · show sphFrom (.dist d) (orZero none) (.angle phi) = _
      rw [orZero_none]; exact h1
    · simp [sphPoint, distOf]
  · obtain ⟨r', t, p, h1, _, _, _, h5⟩ := sphFrom_good (r := .dist d) 0 (.qty 0) (Or.inr ⟨_, rfl⟩)
    refine ⟨.sph r' t p, ?_, Eq.trans (show point (.sph r' t p) = _ from h5) ?_⟩
    · show sphFrom (.dist d) (orZero none) (.qty (orZero none)) = _
      rw [orZero_none]; exact h1
    · simp [sphPoint, distOf]
  · intro h0
    constructor
    · intro h; have := congrArg V3.z h; simp [point] at this; linarith
    · intro h; have := congrArg V3.z h; simp [point] at this; linarith

example : ∃ q, representAs {} (.cart2 3 4 : Pos ℝ) .sph = .ok q :=
  C12_raising_returns (.cart2 3 4) .sph trivial (by decide) trivial (by decide) (by decide) (by decide)
    (by simp [point, V3.zero])

end Verif.Props
