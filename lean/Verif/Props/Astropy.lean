import Verif.Astropy
import Verif.Forms
import Verif.CrossDim
import Verif.Props.Frames

/-!
# Interoperability with astropy: C45

Scope: scalar components, all 3-D classes. What astropy's representations mean is part of the
specification below; astropy's own conversions enter through the hypothesis `AstropyOk`.
-/

namespace Verif

open Real Spec

namespace Spec

/-- the point an astropy representation stands for, according to astropy's documentation (radial field
given as a length) -/
noncomputable def apyPoint : ApyRep → V3
  | .cart x y z => ⟨x, y, z⟩
  | .cyl rho phi z => cylPoint rho phi z
  | .phys phi theta r => sphPoint (distOf r) theta phi
  | .sph lon lat d => lonlatPoint lon lat (distOf d)

/-- the corresponding classes -/
def Kind.apy : Kind → Option ApyKind
  | .cart3 => some .cart
  | .cyl => some .cyl
  | .sph => some .phys
  | .lonlat => some .sph
  | _ => none

/-- the azimuth reduced to `[0, 360)` deg -/
noncomputable def _root_.Verif.Pos.reduceAz : Pos ℝ → Pos ℝ
  | .cyl ρ φ z => .cyl ρ (wrapR φ) z
  | .sph r θ φ => .sph r θ (wrapR φ)
  | .lonlat lon lat d => .lonlat (wrapR lon) lat d
  | p => p

/-- what is assumed of astropy's `represent_as`: it returns a representation of the requested class that
stands for the same point, and converting to the same class changes nothing -/
structure AstropyOk (conv : ApyRep → ApyKind → Res ApyRep) : Prop where
  same : ∀ r, conv r r.kind = .ok r
  kind : ∀ r k r', conv r k = .ok r' → r'.kind = k
  point : ∀ r k r', conv r k = .ok r' → apyPoint r' = apyPoint r

/-- the Cartesian velocity of an astropy differential at a representation of its class: textbook basis
vectors in astropy's conventions -/
noncomputable def apyVel : ApyRep → ApyDiff → V3
  | .cart _ _ _, .cart a b c => ⟨a, b, c⟩
  | .cyl ρ φ _, .cyl a b c => ⟨a * cos φ - ρ * b * sin φ, a * sin φ + ρ * b * cos φ, c⟩
  | .phys φ θ r, .phys dφ dθ dr =>
    ⟨dr * sin θ * cos φ + distOf r * dθ * cos θ * cos φ - distOf r * sin θ * dφ * sin φ,
     dr * sin θ * sin φ + distOf r * dθ * cos θ * sin φ + distOf r * sin θ * dφ * cos φ,
     dr * cos θ - distOf r * dθ * sin θ⟩
  | .sph lon lat d, .sph dlon dlat dd =>
    ⟨dd * cos lat * cos lon - distOf d * dlat * sin lat * cos lon - distOf d * cos lat * dlon * sin lon,
     dd * cos lat * sin lon - distOf d * dlat * sin lat * sin lon + distOf d * cos lat * dlon * cos lon,
     dd * sin lat + distOf d * dlat * cos lat⟩
  | .sph lon lat d, .sphCosLat dlc dlat dd =>
    ⟨dd * cos lat * cos lon - distOf d * dlat * sin lat * cos lon - distOf d * dlc * sin lon,
     dd * cos lat * sin lon - distOf d * dlat * sin lat * sin lon + distOf d * dlc * cos lon,
     dd * sin lat + distOf d * dlat * cos lat⟩
  | _, _ => V3.zero

end Spec

/-- astropy's conversions exist: here one that only does the trivial ones (the hypothesis `AstropyOk` is
consistent) -/
example : AstropyOk (fun r k => if r.kind = k then .ok r else .error .noDispatch) where
  same r := by simp
  kind r k r' h := by
    split at h
    · rename_i e; obtain rfl := Except.ok.inj h; exact e
    · cases h
  point r k r' h := by
    split at h
    · obtain rfl := Except.ok.inj h; rfl
    · cases h

/-! ### positions -/

/-- **C45.** Every valid position of a class with an astropy counterpart converts to a representation of
that class standing for the same point. -/
theorem C45_to_astropy (p : Pos ℝ) (hv : Valid p) (k : ApyKind) (hk : Kind.apy p.kind = some k) :
    ∃ rep, posToApy p = .ok rep ∧ rep.kind = k ∧ apyPoint rep = point p := by
  cases p <;> first | (cases hk; done) | skip
  case cart3 => obtain rfl := Option.some.inj hk; exact ⟨_, rfl, rfl, rfl⟩
  case cyl => obtain rfl := Option.some.inj hk; exact ⟨_, rfl, rfl, rfl⟩
  case sph r θ φ =>
    obtain rfl := Option.some.inj hk
    refine ⟨.phys (wrapR φ) θ r, ?_, rfl, ?_⟩
    · simp only [posToApy, mkApyPhys]
      rw [checkRange_ok hv.2.1 hv.2.2]; rfl
    · simp [apyPoint, point, sphPoint]
  case lonlat lon lat d =>
    obtain rfl := Option.some.inj hk
    refine ⟨.sph (wrapR lon) lat d, ?_, rfl, ?_⟩
    · simp only [posToApy, mkApySph]
      rw [checkRange_ok hv.2.1 hv.2.2]
      cases d with
      | dist d =>
        rw [ok_bind]
        simp only []
        rw [checkNonNeg_ok hv.1]; rfl
      | par _ => rfl
      | dm _ => rfl
    · simp [apyPoint, point, lonlatPoint]

theorem wrapR_wrapR (x : ℝ) : wrapR (wrapR x) = wrapR x := wrapR_of_mem (wrapR_nonneg x) (wrapR_lt x)

/-- what comes back from astropy: the same components, with the azimuth reduced to `[0, 360)` deg -/
theorem back_ok {conv : ApyRep → ApyKind → Res ApyRep} (ha : AstropyOk conv) {p : Pos ℝ} (hv : Valid p)
    (hd : PlainDist p) {k : ApyKind} (hk : Kind.apy p.kind = some k) :
    ∃ rep, posToApy p = .ok rep ∧ rep.kind = k ∧ posFromApy conv p.kind rep = .ok (p.reduceAz) := by
  obtain ⟨rep, h1, h2, -⟩ := C45_to_astropy p hv k hk
  refine ⟨rep, h1, h2, ?_⟩
  have hdim : p.kind.dim = 3 := by cases p <;> first | (cases hk; done) | rfl
  have ht : apyTarget p.kind rep = rep.kind := by
    cases p <;> first
      | (cases hk; done)
      | (have := Option.some.inj hk; rw [h2, ← this]; rfl)
  unfold posFromApy
  rw [if_pos hdim, ht, ha.same, ok_bind]
  cases p <;> first | (cases hk; done) | skip
  case cart3 => obtain rfl := Except.ok.inj h1; rfl
  case cyl ρ φ z => obtain rfl := Except.ok.inj h1; exact mkCyl_ok _ hv
  case sph r θ φ =>
    obtain ⟨d, rfl⟩ := hd
    simp only [posToApy, mkApyPhys] at h1
    rw [checkRange_ok hv.2.1 hv.2.2] at h1
    obtain rfl := Except.ok.inj h1
    simp only [posOfRep, distOfApy, ok_bind]
    rw [mkSph_ok _ (show 0 ≤ (Dist.dist d).raw from hv.1) hv.2.1 hv.2.2]
    simp only [AzArg.convert, wrap_real, wrapR_wrapR, Pos.reduceAz]
  case lonlat lon lat d =>
    obtain ⟨d, rfl⟩ := hd
    simp only [posToApy, mkApySph] at h1
    rw [checkRange_ok hv.2.1 hv.2.2, ok_bind] at h1
    rw [checkNonNeg_ok hv.1] at h1
    obtain rfl := Except.ok.inj h1
    simp only [posOfRep, distOfApy, ok_bind]
    rw [mkLonLat_ok _ (show 0 ≤ (Dist.dist d).raw from hv.1) hv.2.1 hv.2.2]
    simp only [AzArg.convert, wrap_real, wrapR_wrapR, Pos.reduceAz]

/-- **C45.** Converting to astropy and back returns the same components, for every valid position
of the four classes with a `Distance` radial field and an azimuth in range. Exceptions: other radial
fields, which raise on the way back (`C45_parallax_raises`); an out-of-range `Angle`, which comes back
reduced (`C45_angle_reduced`); `MathSphericalPos` and `ProlateSpheroidalPos`, which have no conversion
(`C45_unsupported`). -/
theorem C45_round_trip (conv : ApyRep → ApyKind → Res ApyRep) (ha : AstropyOk conv) (p : Pos ℝ)
    (hv : Valid p) (hc : Canon p) (hd : PlainDist p) (k : ApyKind) (hk : Kind.apy p.kind = some k) :
    ∃ rep, posToApy p = .ok rep ∧ rep.kind = k ∧ posFromApy conv p.kind rep = .ok p := by
  obtain ⟨rep, h1, h2, h3⟩ := back_ok ha hv hd hk
  refine ⟨rep, h1, h2, ?_⟩
  rw [h3]
  cases p <;> first | (cases hk; done) | rfl | simp only [Pos.reduceAz, wrapR_of_mem hc.1 hc.2]

/-- the hypotheses are met -/
example : Valid (.lonlat 1 (-1) (.dist 2)) ∧ Canon (.lonlat 1 (-1) (.dist 2)) ∧ PlainDist (.lonlat 1 (-1) (.dist 2)) ∧
    Kind.apy (Pos.lonlat (1 : ℝ) (-1) (.dist 2)).kind = some .sph := by
  have := Real.pi_gt_three
  exact ⟨⟨by norm_num [DistOk], by linarith, by linarith⟩, ⟨by norm_num, by linarith⟩, ⟨_, rfl⟩, rfl⟩

/-- An out-of-range azimuth (possible with an `Angle` argument) comes back reduced to one turn: the same
point, other components. -/
theorem C45_angle_reduced (conv : ApyRep → ApyKind → Res ApyRep) (ha : AstropyOk conv) (p : Pos ℝ)
    (hv : Valid p) (hd : PlainDist p) (k : ApyKind) (hk : Kind.apy p.kind = some k) :
    ∃ rep q, posToApy p = .ok rep ∧ posFromApy conv p.kind rep = .ok q ∧ q.kind = p.kind ∧
      point q = point p ∧ Canon q ∧ (q = p ↔ Canon p) := by
  obtain ⟨rep, h1, h2, h3⟩ := back_ok ha hv hd hk
  refine ⟨rep, _, h1, h3, ?_, ?_, ?_, ?_⟩
  · cases p <;> rfl
  · cases p <;> first | (cases hk; done) | rfl | simp [Pos.reduceAz, point, cylPoint, sphPoint, lonlatPoint]
  · cases p <;> first | (cases hk; done) | trivial | exact inTurn_wrapR _
  · cases p <;> first
      | (cases hk; done)
      | exact ⟨fun _ => trivial, fun _ => rfl⟩
      | (simp only [Pos.reduceAz, Canon, Pos.cyl.injEq, Pos.sph.injEq, Pos.lonlat.injEq, true_and, and_true]
         exact ⟨fun h => h ▸ inTurn_wrapR _, fun h => wrapR_of_mem h.1 h.2⟩)

/-- **C45, exception.** With a `Parallax` or `DistanceModulus` radial field the position converts to astropy, but
the result cannot be converted back. -/
theorem C45_parallax_raises (conv : ApyRep → ApyKind → Res ApyRep) (ha : AstropyOk conv) (p : Pos ℝ)
    (hv : Valid p) (hk : p.kind = .sph ∨ p.kind = .lonlat) (hd : ¬ PlainDist p) :
    ∃ rep, posToApy p = .ok rep ∧ posFromApy conv p.kind rep = .error .units := by
  have hbad : ∀ r : Dist ℝ, (¬ ∃ d, r = .dist d) → distOfApy r = .error .units := by
    intro r hr
    cases r with
    | dist d => exact absurd ⟨d, rfl⟩ hr
    | par _ => rfl
    | dm _ => rfl
  cases p <;> first | (rcases hk with h | h <;> cases h; done) | skip
  case sph r θ φ =>
    obtain ⟨rep, h1, h2, _⟩ := C45_to_astropy (.sph r θ φ) hv .phys rfl
    refine ⟨rep, h1, ?_⟩
    simp only [posToApy, mkApyPhys] at h1
    rw [checkRange_ok hv.2.1 hv.2.2] at h1
    obtain rfl := Except.ok.inj h1
    show (do posOfRep (← conv _ (ApyRep.phys (wrapR φ) θ r).kind)) = _
    rw [ha.same, ok_bind]
    simp only [posOfRep, hbad r hd]
    rfl
  case lonlat lon lat d =>
    obtain ⟨rep, h1, h2, _⟩ := C45_to_astropy (.lonlat lon lat d) hv .sph rfl
    refine ⟨rep, h1, ?_⟩
    have h1' : rep = .sph (wrapR lon) lat d := by
      simp only [posToApy, mkApySph] at h1
      rw [checkRange_ok hv.2.1 hv.2.2, ok_bind] at h1
      cases d with
      | dist d => exact absurd ⟨d, rfl⟩ hd
      | par _ => exact (Except.ok.inj h1).symm
      | dm _ => exact (Except.ok.inj h1).symm
    subst h1'
    show (do posOfRep (← conv _ (ApyRep.sph (wrapR lon) lat d).kind)) = _
    rw [ha.same, ok_bind]
    simp only [posOfRep, hbad d hd]
    rfl

/-- the hypotheses are met -/
example : Valid (.sph (.par 1) 1 1) ∧ ¬ PlainDist (.sph (.par (1 : ℝ)) 1 1) := by
  have := Real.pi_gt_three
  exact ⟨⟨⟨by norm_num, by linarith⟩, by norm_num, by linarith⟩, fun ⟨_, h⟩ => by cases h⟩

/-- the other classes have no conversion to astropy -/
theorem C45_unsupported (p : Pos ℝ) (h : Kind.apy p.kind = none) : posToApy p = .error .noDispatch := by
  cases p <;> first | (cases h; done) | rfl

/-- **C45.** `cls.from_(representation)`, for any 3-D class and any representation: whenever it returns,
the result stands for the same point, is valid and canonical, and is of the class `cls` if that has an
astropy counterpart. -/
theorem C45_from_astropy (conv : ApyRep → ApyKind → Res ApyRep) (ha : AstropyOk conv) (cls : Kind)
    (rep : ApyRep) (q : Pos ℝ) (h : posFromApy conv cls rep = .ok q) :
    point q = apyPoint rep ∧ Valid q ∧ Canon q ∧ ((Kind.apy cls).isSome → q.kind = cls) ∧
      Kind.apy q.kind = some (apyTarget cls rep) := by
  unfold posFromApy at h
  split at h
  · obtain ⟨rep', h1, h2⟩ := (bind_ok_iff _ _ _).mp h
    have hk := ha.kind _ _ _ h1
    rw [← ha.point _ _ _ h1]
    have main : point q = apyPoint rep' ∧ Valid q ∧ Canon q ∧ Kind.apy q.kind = some rep'.kind := by
      cases rep' with
      | cart x y z => obtain rfl := Except.ok.inj h2; exact ⟨rfl, trivial, trivial, rfl⟩
      | cyl ρ φ z =>
        obtain ⟨u, h3, h4⟩ := (bind_ok_iff _ _ _).mp h2
        have h4 := Except.ok.inj h4
        subst h4
        refine ⟨by simp [point, apyPoint, cylPoint, AzArg.convert], checkNonNeg_iff.mp h3, inTurn_wrapR _, rfl⟩
      | phys φ θ r =>
        cases r with
        | dist d =>
          simp only [posOfRep, distOfApy, ok_bind] at h2
          obtain ⟨_, h3, h4⟩ := (bind_ok_iff _ _ _).mp h2
          obtain ⟨_, h5, h6⟩ := (bind_ok_iff _ _ _).mp h4
          have h6 := Except.ok.inj h6
          subst h6
          have h5 := checkRange_iff.mp h5
          refine ⟨by simp [point, apyPoint, sphPoint, AzArg.convert], ⟨checkNonNeg_iff.mp h3, ?_⟩, inTurn_wrapR _, rfl⟩
          simpa using h5
        | par _ => cases h2
        | dm _ => cases h2
      | sph lon lat d =>
        cases d with
        | dist d =>
          simp only [posOfRep, distOfApy, ok_bind] at h2
          have h2 : mkLonLat (AzArg.qty lon) lat (.dist d) = .ok q := h2
          unfold mkLonLat at h2
          obtain ⟨hp, h0, h2⟩ := (bind_ok_iff _ _ _).mp h2
          have h0 : hp = π / 2 := by rw [halfPi_real] at h0; exact (Except.ok.inj h0).symm
          subst h0
          obtain ⟨_, h3, h4⟩ := (bind_ok_iff _ _ _).mp h2
          obtain ⟨_, h5, h6⟩ := (bind_ok_iff _ _ _).mp h4
          have h6 := Except.ok.inj h6
          subst h6
          exact ⟨by simp [point, apyPoint, lonlatPoint, AzArg.convert],
            ⟨checkNonNeg_iff.mp h5, checkRange_iff.mp h3⟩, inTurn_wrapR _, rfl⟩
        | par _ => cases h2
        | dm _ => cases h2
    refine ⟨main.1, main.2.1, main.2.2.1, fun hs => ?_, by rw [main.2.2.2, hk]⟩
    have h5 := main.2.2.2
    rw [hk] at h5
    clear main h h1 h2 hk
    cases cls <;> first
      | (cases hs; done)
      | (cases q <;> first | (cases h5; done) | rfl)
  · cases h

/-- Called on a class without astropy counterpart (e.g. `MathSphericalPos.from_(rep)`), `from_` returns a
vector of another class. -/
theorem C45_from_other_class (conv : ApyRep → ApyKind → Res ApyRep) (ha : AstropyOk conv) (cls : Kind)
    (hc : Kind.apy cls = none) (rep : ApyRep) (q : Pos ℝ) (h : posFromApy conv cls rep = .ok q) :
    q.kind ≠ cls := by
  intro e
  have := (C45_from_astropy conv ha cls rep q h).2.2.2.2
  rw [e, hc] at this
  cases this

/-- `convert(p, representation class)` ignores which subclass of `BaseRepresentation` is asked for: asking
for any class but the corresponding one returns an object of the wrong class. In particular
`convert(lonlat, PhysicsSphericalRepresentation)`, the registered target of `LonLatSphericalPos`, returns
a `SphericalRepresentation`. -/
theorem C45_convert_wrong_class (p : Pos ℝ) (hv : Valid p) (k t : ApyKind) (hk : Kind.apy p.kind = some k)
    (ht : t ≠ k) : ∃ rep, convertPos p t = .ok rep ∧ rep.kind ≠ t ∧ apyPoint rep = point p := by
  obtain ⟨rep, h1, h2, h3⟩ := C45_to_astropy p hv k hk
  exact ⟨rep, h1, by rw [h2]; exact ht.symm, h3⟩

/-! ### velocities -/

/-- **C45.** Every velocity of the five classes with an astropy differential converts to it and back
unchanged, whatever velocity class the way back is called on, and the differential stands for the same
Cartesian velocity at the converted position. -/
theorem C45_velocity_round_trip (p : Pos ℝ) (hv : Valid p) (v : Vel ℝ) (hp : p.kind = v.kind.integral)
    (hs : v.kind = .cart3 ∨ v.kind = .cyl ∨ v.kind = .sph ∨ v.kind = .lonlat ∨ v.kind = .lonCosLat) :
    ∃ rep d, posToApy p = .ok rep ∧ velToApy v = .ok d ∧ apyVel rep d = cartVel p v ∧
      ∀ cls : VKind, cls.dim = 3 → velFromApy cls d = .ok v := by
  have key : ∃ d, velToApy v = .ok d ∧ ∀ cls : VKind, cls.dim = 3 → velFromApy cls d = .ok v := by
    cases v <;> first
      | (simp [Vel.kind] at hs; done)
      | (refine ⟨_, rfl, fun cls hc => ?_⟩; unfold velFromApy; rw [if_neg (not_not.mpr hc)])
  obtain ⟨d, h1, h2⟩ := key
  obtain ⟨k, hk⟩ : ∃ k, Kind.apy p.kind = some k := by
    rw [hp]; rcases hs with h | h | h | h | h <;> rw [h] <;> exact ⟨_, rfl⟩
  obtain ⟨rep, h3, h4, -⟩ := C45_to_astropy p hv k hk
  refine ⟨rep, d, h3, h1, ?_, h2⟩
  have hrep : (∃ x y z, p = .cart3 x y z ∧ rep = .cart x y z) ∨ (∃ a b c, p = .cyl a b c ∧ rep = .cyl a b c) ∨
      (∃ r θ φ, p = .sph r θ φ ∧ rep = .phys (wrapR φ) θ r) ∨
      (∃ lon lat d, p = .lonlat lon lat d ∧ rep = .sph (wrapR lon) lat d) := by
    cases p <;> first | (cases hk; done) | skip
    case cart3 => obtain rfl := Except.ok.inj h3; exact .inl ⟨_, _, _, rfl, rfl⟩
    case cyl => obtain rfl := Except.ok.inj h3; exact .inr (.inl ⟨_, _, _, rfl, rfl⟩)
    case sph r θ φ =>
      simp only [posToApy, mkApyPhys] at h3
      rw [checkRange_ok hv.2.1 hv.2.2] at h3
      obtain rfl := Except.ok.inj h3
      exact .inr (.inr (.inl ⟨_, _, _, rfl, rfl⟩))
    case lonlat lon lat d =>
      simp only [posToApy, mkApySph] at h3
      rw [checkRange_ok hv.2.1 hv.2.2, ok_bind] at h3
      refine .inr (.inr (.inr ⟨_, _, _, rfl, ?_⟩))
      cases d with
      | dist d =>
        simp only [] at h3
        rw [checkNonNeg_ok hv.1] at h3
        exact (Except.ok.inj h3).symm
      | par _ => exact (Except.ok.inj h3).symm
      | dm _ => exact (Except.ok.inj h3).symm
  clear h2 h3 h4 hk hv
  rcases hrep with ⟨a, b, c, rfl, rfl⟩ | ⟨a, b, c, rfl, rfl⟩ | ⟨a, b, c, rfl, rfl⟩ | ⟨a, b, c, rfl, rfl⟩ <;>
    cases v <;> first
      | (cases hp; done)
      | (obtain rfl := Except.ok.inj h1
         simp only [apyVel, cartVel, cos_wrapR, sin_wrapR]
         try (congr 1 <;> ring))

/-- `cls.from_(differential)` ignores `cls`: `CylindricalVel.from_(CartesianDifferential)` returns a
`CartesianVel3D`. -/
theorem C45_velocity_from_other_class (a b c : ℝ) :
    ∃ v, velFromApy .cyl (.cart a b c) = .ok v ∧ v.kind = .cart3 := ⟨_, rfl, rfl⟩

/-! ### frames -/

/-- **C45.** A `Galactocentric` frame made from an astropy one has the same parameters (the right ascension
reduced to one turn), and is made exactly when the declination and the distance are in range and the
astropy frame has no data. -/
theorem C45_frame (f : ApyGalactocentric) (g : Galactocentric) :
    frameFromApy f = .ok g ↔ f.hasData = false ∧ -(π / 2) ≤ f.dec ∧ f.dec ≤ π / 2 ∧ 0 ≤ f.distance ∧
      g = ⟨wrapR f.ra, f.dec, .dist f.distance, f.roll, f.zSun, f.vSun⟩ := by
  unfold frameFromApy
  cases hd : f.hasData with
  | true => exact ⟨fun h => (by cases h), fun h => (by cases h.1)⟩
  | false =>
    constructor
    · intro h
      obtain ⟨p, h1, h2⟩ := (bind_ok_iff _ _ _).mp h
      unfold mkLonLat at h1
      obtain ⟨hp, h0, h1⟩ := (bind_ok_iff _ _ _).mp h1
      have h0 : hp = π / 2 := by rw [halfPi_real] at h0; exact (Except.ok.inj h0).symm
      subst h0
      obtain ⟨_, h3, h4⟩ := (bind_ok_iff _ _ _).mp h1
      obtain ⟨_, h5, h6⟩ := (bind_ok_iff _ _ _).mp h4
      have h6 := Except.ok.inj h6
      subst h6
      have h3 := checkRange_iff.mp h3
      exact ⟨rfl, h3.1, h3.2, checkNonNeg_iff.mp h5, (Except.ok.inj h2).symm⟩
    · rintro ⟨_, h1, h2, h3, rfl⟩
      have : mkLonLat (AzArg.qty f.ra) f.dec (Dist.dist f.distance) = .ok (.lonlat (wrapR f.ra) f.dec (.dist f.distance)) :=
        mkLonLat_ok _ h3 h1 h2
      simp only [this]
      rfl

end Verif
