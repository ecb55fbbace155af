import Verif.Props.Dimension

/-! # Keyword coordinates when raising the dimension (C48) -/

namespace Verif.Spec

open Real

/-- The length of a one-dimensional position. -/
noncomputable def length1 : Pos ℝ → Option ℝ
  | .cart1 x => some x
  | .radial r => some (distOf r)
  | _ => none

/-- The point meant when a position of lower dimension is raised to a class of higher dimension: the
missing coordinates of that class are the keyword arguments `y`, `z`, `theta`, `phi` (zero when absent),
inserted in the textbook formulas. -/
noncomputable def raised (y z theta phi : ℝ) : Pos ℝ → Kind → Option V3
  | .cart2 a b, .cart3 | .cart2 a b, .cyl | .cart2 a b, .sph | .cart2 a b, .math => some ⟨a, b, z⟩
  | .polar r az, .cart3 | .polar r az, .cyl => some (cylPoint (distOf r) az z)
  | .polar r az, .sph => some (sphPoint (distOf r) theta az)
  | .polar r az, .math => some (sphPoint (distOf r) phi az)
  | p, .cart2 => (length1 p).map fun a => ⟨a, y, 0⟩
  | p, .polar => (length1 p).map fun a => cylPoint a phi 0
  | p, .cart3 => (length1 p).map fun a => ⟨a, y, z⟩
  | p, .cyl => (length1 p).map fun a => cylPoint a phi z
  | p, .sph => (length1 p).map fun a => sphPoint a theta phi
  | p, .math => (length1 p).map fun a => sphPoint a phi theta
  | _, _ => none

end Verif.Spec

namespace Verif.Props

open Real Spec

theorem sphFrom_point {r : Dist ℝ} (hr : DistOk r ∨ ∃ d, r = .dist d) {th : ℝ} {az : AzArg ℝ} {q : Pos ℝ}
    (h : sphFrom r th az = .ok q) : point q = sphPoint (distOf r) th az.val := by
  obtain ⟨r', t, p, h1, _, _, _, h5⟩ := sphFrom_good th az hr
  rw [h1] at h; cases h; exact h5

theorem mathFrom_point {r : Dist ℝ} (hr : DistOk r ∨ ∃ d, r = .dist d) {ph : ℝ} {az : AzArg ℝ} {q : Pos ℝ}
    (h : mathFrom r az ph = .ok q) : point q = sphPoint (distOf r) ph az.val := by
  obtain ⟨r', t, p, h1, _, _, _, h5⟩ := mathFrom_good az ph hr
  rw [h1] at h; cases h; exact h5

theorem orZero_getD (o : Option ℝ) : (orZero o : ℝ) = o.getD 0 := by
  cases o <;> simp [orZero_none, orZero_some]

theorem raised_aux (n : ℕ) (kw : Kw ℝ) (p q : Pos ℝ) (k : Kind) (hv : Valid p)
    (hs : p.kind ≠ .twoSphere) (hlt : p.kind.dim < k.dim) (h : represent (n + 4) kw p k = .ok q) :
    q.kind = k ∧
    raised (kw.y.getD 0) (kw.z.getD 0) (kw.theta.getD 0) (kw.phi.getD 0) p k = some (point q) := by
  have wf := represent_wf _ _ _ _ _ hv h
  refine ⟨wf.kind, ?_⟩
  have via3 : ∀ {k : Kind} {x y : ℝ}, k.dim = 3 →
      represent (n + 3) {} (.cart3 x y (orZero (some (orZero kw.z)))) k = .ok q →
      point q = ⟨x, y, kw.z.getD 0⟩ := by
    intro k x y hk h
    rw [orZero_some, orZero_getD] at h
    exact (represent_good _ _ _ _ _ (show Valid (.cart3 x y _) from trivial) hk.symm h).point
  cases p with
  | twoSphere => exact absurd rfl hs
  | cart1 x =>
    cases k <;> first | (simp [Pos.kind, Kind.dim] at hlt; done) | skip
    · cases h; simp [raised, length1, point, orZero_getD]
    · obtain ⟨_, rfl⟩ := mkPolar_iff.mp h
      simp [raised, length1, point, AzArg.convert, distOf, cylPoint, orZero_getD]
    · cases h
    · cases h; simp [raised, length1, point, orZero_getD]
    · obtain ⟨_, rfl⟩ := mkCyl_iff.mp h
      simp [raised, length1, point, AzArg.convert, cylPoint, orZero_getD]
    · rw [sphFrom_point (Or.inr ⟨_, rfl⟩) h]; simp [raised, length1, distOf, AzArg.val, orZero_getD]
    · cases h
    · rw [mathFrom_point (Or.inr ⟨_, rfl⟩) h]; simp [raised, length1, distOf, AzArg.val, orZero_getD]
    · cases h
  | radial r =>
    cases k <;> first | (simp [Pos.kind, Kind.dim] at hlt; done) | skip
    · obtain ⟨a, ha, h⟩ := (bind_ok_iff _ _ _).mp h
      rw [asLength_iff] at ha
      cases h; simp [raised, length1, point, ha, distOf, orZero_getD]
    · obtain ⟨_, rfl⟩ := mkPolar_iff.mp h
      simp [raised, length1, point, AzArg.convert, cylPoint, orZero_getD]
    · cases h
    · obtain ⟨a, ha, h⟩ := (bind_ok_iff _ _ _).mp h
      rw [asLength_iff] at ha
      cases h; simp [raised, length1, point, ha, distOf, orZero_getD]
    · obtain ⟨a, ha, h⟩ := (bind_ok_iff _ _ _).mp h
      rw [asLength_iff] at ha
      obtain ⟨_, rfl⟩ := mkCyl_iff.mp h
      simp [raised, length1, point, AzArg.convert, cylPoint, ha, distOf, orZero_getD]
    · rw [sphFrom_point (Or.inl hv) h]; simp [raised, length1, AzArg.val, orZero_getD]
    · cases h
    · rw [mathFrom_point (Or.inl hv) h]; simp [raised, length1, AzArg.val, orZero_getD]
    · cases h
  | cart2 x y =>
    cases k <;> first | (simp [Pos.kind, Kind.dim] at hlt; done) | skip
    · cases h; simp [raised, point, orZero_getD]
    · rw [via3 (k := .cyl) rfl h]; rfl
    · rw [via3 (k := .sph) rfl h]; rfl
    · cases h
    · rw [via3 (k := .math) rfl h]; rfl
    · cases h
  | polar r phi =>
    cases k <;> first | (simp [Pos.kind, Kind.dim] at hlt; done) | skip
    · obtain ⟨a, ha, h⟩ := (bind_ok_iff _ _ _).mp h
      obtain ⟨b, hb, ha⟩ := (bind_ok_iff _ _ _).mp ha
      rw [asLength_iff] at hb
      obtain ⟨_, rfl⟩ := mkCyl_iff.mp ha
      cases h
      simp [raised, point, AzArg.convert, hb, distOf, cylPoint, orZero_getD]
    · obtain ⟨a, ha, h⟩ := (bind_ok_iff _ _ _).mp h
      rw [asLength_iff] at ha
      obtain ⟨_, rfl⟩ := mkCyl_iff.mp h
      simp [raised, point, AzArg.convert, cylPoint, ha, distOf, orZero_getD]
    · rw [sphFrom_point (Or.inl hv) h]; simp [raised, AzArg.val, orZero_getD]
    · cases h
    · rw [mathFrom_point (Or.inl hv) h]; simp [raised, AzArg.val, orZero_getD]
    · cases h
  | _ => cases k <;> simp [Pos.kind, Kind.dim] at hlt

/-- **C48.** Raising a valid position to a class of higher dimension, whenever the call returns: the result
is of the requested class and denotes the textbook point whose missing coordinates are the keyword
arguments (zero where absent). -/
theorem C48_keywords_used (kw : Kw ℝ) (p q : Pos ℝ) (k : Kind) (hv : Valid p)
    (hs : p.kind ≠ .twoSphere) (hlt : p.kind.dim < k.dim) (h : representAs kw p k = .ok q) :
    q.kind = k ∧
    raised (kw.y.getD 0) (kw.z.getD 0) (kw.theta.getD 0) (kw.phi.getD 0) p k = some (point q) :=
  raised_aux 196 kw p q k hv hs hlt h

theorem raised_returns_aux (n : ℕ) (kw : Kw ℝ) (p : Pos ℝ) (k : Kind) (hv : Valid p)
    (hs : p.kind ≠ .twoSphere) (hpl : PlainDist p) (hlt : p.kind.dim < k.dim)
    (hr : k ≠ .lonlat ∧ k ≠ .prolate ∧ k ≠ .twoSphere)
    (hx : ∀ x, p = .cart1 x → (k = .polar ∨ k = .cyl) → 0 ≤ x)
    (h0 : ∀ x y, p = .cart2 x y → ¬ (x = 0 ∧ y = 0 ∧ kw.z.getD 0 = 0)) :
    ∃ q, represent (n + 4) kw p k = .ok q := by
  cases p with
  | twoSphere => exact absurd rfl hs
  | cart1 x =>
    have hx := hx x rfl
    cases k <;> first | (simp [Pos.kind, Kind.dim] at hlt; done) | (exact absurd hr (by decide)) | skip
    · exact ⟨_, rfl⟩
    · exact ⟨_, mkPolar_ok (r := .dist x) _ (hx (Or.inl rfl))⟩
    · exact ⟨_, rfl⟩
    · exact ⟨_, mkCyl_ok _ (hx (Or.inr rfl))⟩
    · obtain ⟨r', t, p, h1, _⟩ := sphFrom_good (orZero kw.theta) (.qty (orZero kw.phi)) (Or.inr ⟨x, rfl⟩)
      exact ⟨_, h1⟩
    · obtain ⟨r', t, p, h1, _⟩ := mathFrom_good (.qty (orZero kw.theta)) (orZero kw.phi) (Or.inr ⟨x, rfl⟩)
      exact ⟨_, h1⟩
  | radial r =>
    obtain ⟨d, rfl⟩ := hpl
    cases k <;> first | (simp [Pos.kind, Kind.dim] at hlt; done) | (exact absurd hr (by decide)) | skip
    · exact ⟨_, rfl⟩
    · exact ⟨_, mkPolar_ok (r := .dist d) _ hv⟩
    · exact ⟨_, rfl⟩
    · exact ⟨_, mkCyl_ok _ hv⟩
    · obtain ⟨r', t, p, h1, _⟩ := sphFrom_good (orZero kw.theta) (.qty (orZero kw.phi)) (Or.inr ⟨d, rfl⟩)
      exact ⟨_, h1⟩
    · obtain ⟨r', t, p, h1, _⟩ := mathFrom_good (.qty (orZero kw.theta)) (orZero kw.phi) (Or.inr ⟨d, rfl⟩)
      exact ⟨_, h1⟩
  | cart2 x y =>
    have h0 := h0 x y rfl
    have c : ∀ k : Kind, k.dim = 3 → k ≠ .prolate →
        ∃ q, represent (n + 3) {} (.cart3 x y (orZero (some (orZero kw.z)))) k = .ok q := by
      intro k hk hp
      rw [orZero_some, orZero_getD]
      refine represent_total n ⟨trivial, hk.symm, (by intro e; cases e), (by rintro rfl; cases hk), ?_,
        (by rintro rfl; cases hk), fun e => absurd e hp⟩
      intro _ e
      simp only [point, V3.zero, V3.mk.injEq] at e
      exact h0 e
    cases k <;> first | (simp [Pos.kind, Kind.dim] at hlt; done) | (exact absurd hr (by decide)) | skip
    · exact ⟨_, rfl⟩
    · exact c .cyl rfl (by decide)
    · exact c .sph rfl (by decide)
    · exact c .math rfl (by decide)
  | polar r phi =>
    obtain ⟨d, rfl⟩ := hpl
    have hd : 0 ≤ d := hv
    cases k <;> first | (simp [Pos.kind, Kind.dim] at hlt; done) | (exact absurd hr (by decide)) | skip
    · refine ⟨.cart3 (d * cos phi) (d * sin phi) (orZero (some (orZero kw.z))), ?_⟩
      show (mkCyl d (.angle phi) (orZero (some (orZero kw.z))) >>= fun s =>
        represent (n + 3) {} s .cart3) = _
      rw [mkCyl_ok _ hd]; rfl
    · exact ⟨_, mkCyl_ok _ hd⟩
    · obtain ⟨r', t, p, h1, _⟩ := sphFrom_good (orZero kw.theta) (.angle phi) (Or.inr ⟨d, rfl⟩)
      exact ⟨_, h1⟩
    · obtain ⟨r', t, p, h1, _⟩ := mathFrom_good (.angle phi) (orZero kw.phi) (Or.inr ⟨d, rfl⟩)
      exact ⟨_, h1⟩
  | _ => cases k <;> simp [Pos.kind, Kind.dim] at hlt

/-- The calls of C48 return, for every keyword arguments: every target but `LonLatSphericalPos`,
`ProlateSpheroidalPos`, `TwoSpherePos` (no rule), every plain-distance source, unless a negative `x` would
become a polar or cylindrical radius or the raised 2-D point is the origin. -/
theorem C48_keywords_returns (kw : Kw ℝ) (p : Pos ℝ) (k : Kind) (hv : Valid p)
    (hs : p.kind ≠ .twoSphere) (hpl : PlainDist p) (hlt : p.kind.dim < k.dim)
    (hr : k ≠ .lonlat ∧ k ≠ .prolate ∧ k ≠ .twoSphere)
    (hx : ∀ x, p = .cart1 x → (k = .polar ∨ k = .cyl) → 0 ≤ x)
    (h0 : ∀ x y, p = .cart2 x y → ¬ (x = 0 ∧ y = 0 ∧ kw.z.getD 0 = 0)) :
    ∃ q, representAs kw p k = .ok q :=
  raised_returns_aux 196 kw p k hv hs hpl hlt hr hx h0

example : ∃ q, representAs (α := ℝ) { y := some 2, z := some 3 } (.cart1 (-1)) .cart3 = .ok q ∧
    point q = ⟨-1, 2, 3⟩ := by
  obtain ⟨q, h⟩ := C48_keywords_returns { y := some 2, z := some 3 } (.cart1 (-1)) .cart3 trivial (by decide)
    trivial (by decide) (by decide) (by intro _ _ h; rcases h with h | h <;> cases h)
    (by intro _ _ h; cases h)
  refine ⟨q, h, ?_⟩
  have := (C48_keywords_used _ (.cart1 (-1)) _ _ trivial (by decide) (by decide) h).2
  simpa [raised, length1] using this.symm

example : ∃ q, representAs (α := ℝ) { theta := some 1, phi := some 2 } (.cart1 (-1)) .sph = .ok q ∧
    point q = sphPoint (-1) 1 2 := by
  obtain ⟨q, h⟩ := C48_keywords_returns { theta := some 1, phi := some 2 } (.cart1 (-1)) .sph trivial
    (by decide) trivial (by decide) (by decide) (by intro _ _ h; rcases h with h | h <;> cases h)
    (by intro _ _ h; cases h)
  refine ⟨q, h, ?_⟩
  have := (C48_keywords_used _ (.cart1 (-1)) _ _ trivial (by decide) (by decide) h).2
  simpa [raised, length1] using this.symm

end Verif.Props
