import Verif.ConvTotal

/-! # Class invariants of every conversion, also across dimensions (helper lemmas) -/

namespace Verif

open Real Spec

theorem AzArg.inTurn_qty (x : ℝ) : InTurn (AzArg.qty x).convert := inTurn_wrapR x

theorem checkNonNeg_iff {x : ℝ} {u : Unit} : checkNonNeg x = .ok u ↔ 0 ≤ x := by
  unfold checkNonNeg; simp
theorem checkRange_iff {x lo hi : ℝ} {u : Unit} :
    checkRange x lo hi = .ok u ↔ lo ≤ x ∧ x ≤ hi := by
  unfold checkRange; simp [not_or]

theorem mkCyl_iff {rho z : ℝ} {phi : AzArg ℝ} {q : Pos ℝ} :
    mkCyl rho phi z = .ok q ↔ 0 ≤ rho ∧ q = .cyl rho phi.convert z := by
  simp only [mkCyl, bind_ok_iff, checkNonNeg_iff, pure_ok, Except.ok.injEq]
  grind
theorem mkSph_iff {r : Dist ℝ} {theta : ℝ} {phi : AzArg ℝ} {q : Pos ℝ} :
    mkSph r theta phi = .ok q ↔ 0 ≤ r.raw ∧ (0 ≤ theta ∧ theta ≤ π) ∧
      q = .sph r theta phi.convert := by
  simp only [mkSph, bind_ok_iff, checkNonNeg_iff, checkRange_iff, pure_ok, Except.ok.injEq,
    nat_real, Nat.cast_zero, pi_real]
  grind
theorem mkMath_iff {r : Dist ℝ} {theta : AzArg ℝ} {phi : ℝ} {q : Pos ℝ} :
    mkMath r theta phi = .ok q ↔ 0 ≤ r.raw ∧ (0 ≤ phi ∧ phi ≤ π) ∧
      q = .math r theta.convert phi := by
  simp only [mkMath, bind_ok_iff, checkNonNeg_iff, checkRange_iff, pure_ok, Except.ok.injEq,
    nat_real, Nat.cast_zero, pi_real]
  grind
theorem mkLonLat_iff {r : Dist ℝ} {lon : AzArg ℝ} {lat : ℝ} {q : Pos ℝ} :
    mkLonLat lon lat r = .ok q ↔ (-(π / 2) ≤ lat ∧ lat ≤ π / 2) ∧ 0 ≤ r.raw ∧
      q = .lonlat lon.convert lat r := by
  simp only [mkLonLat, halfPi_real, ok_bind, bind_ok_iff, checkNonNeg_iff, checkRange_iff,
    pure_ok, Except.ok.injEq]
  grind
theorem mkPolar_iff {r : Dist ℝ} {phi : AzArg ℝ} {q : Pos ℝ} :
    mkPolar r phi = .ok q ↔ 0 ≤ r.raw ∧ q = .polar r phi.convert := by
  simp only [mkPolar, bind_ok_iff, checkNonNeg_iff, pure_ok, Except.ok.injEq]
  grind
theorem mkRadial_iff {r : Dist ℝ} {q : Pos ℝ} :
    mkRadial r = .ok q ↔ 0 ≤ r.raw ∧ q = .radial r := by
  simp only [mkRadial, bind_ok_iff, checkNonNeg_iff, pure_ok, Except.ok.injEq]
  grind
theorem mkTwoSphere_iff {theta : ℝ} {phi : AzArg ℝ} {q : Pos ℝ} :
    mkTwoSphere theta phi = .ok q ↔ (0 ≤ theta ∧ theta ≤ π) ∧ q = .twoSphere theta phi.convert := by
  simp only [mkTwoSphere, bind_ok_iff, checkRange_iff, pure_ok, Except.ok.injEq,
    nat_real, Nat.cast_zero, pi_real]
  grind
theorem mkProlate_iff {mu nu : ℝ} {phi : AzArg ℝ} {delta : ℝ} {q : Pos ℝ} :
    mkProlate mu nu phi delta = .ok q ↔ (0 < delta ∧ delta ^ 2 ≤ mu ∧ |nu| ≤ delta ^ 2) ∧
      q = .prolate mu nu phi.convert delta := by
  unfold mkProlate checkPos
  simp only [pow_two]
  constructor
  · intro h
    by_cases h1 : 0 < delta
    · by_cases h2 : mu < delta * delta
      · simp [h1, h2] at h
      · by_cases h3 : delta * delta < |nu|
        · simp [h1, h2, h3] at h
        · simp [h1, h2, h3] at h
          exact ⟨⟨h1, not_lt.mp h2, not_lt.mp h3⟩, h.symm⟩
    · simp [h1] at h
  · rintro ⟨⟨h1, h2, h3⟩, rfl⟩
    simp [h1, not_lt.mpr h2, not_lt.mpr h3]

theorem sphFrom_good {r : Dist ℝ} (theta : ℝ) (phi : AzArg ℝ)
    (hr : DistOk r ∨ ∃ d, r = .dist d) :
    ∃ r' theta' phi', sphFrom r theta phi = .ok (.sph r' theta' phi') ∧ DistOk r' ∧
      (0 ≤ theta' ∧ theta' ≤ π) ∧ InTurn phi' ∧
      sphPoint (distOf r') theta' phi' = sphPoint (distOf r) theta phi.val := by
  have hphi : cos phi.convert = cos phi.val ∧ sin phi.convert = sin phi.val := by
    cases phi <;> simp [AzArg.convert, AzArg.val]
  -- second half of the cascade
  have key : ∀ (r' : Dist ℝ) (th ph : ℝ), DistOk r' →
      ∃ r'' theta' phi', mkSph r' (if wrapR th < π then wrapR th else 2 * π - wrapR th)
        (.qty (if wrapR th < π then ph else ph + π)) = .ok (.sph r'' theta' phi') ∧ DistOk r'' ∧
      (0 ≤ theta' ∧ theta' ≤ π) ∧ InTurn phi' ∧
      sphPoint (distOf r'') theta' phi' = sphPoint (distOf r') th ph := by
    intro r' th ph hr'
    have w0 := wrapR_nonneg th
    have w1 := wrapR_lt th
    by_cases hw : wrapR th < π
    · simp only [if_pos hw]
      refine ⟨r', wrapR th, wrapR ph, ?_, hr', ⟨w0, hw.le⟩, inTurn_wrapR _, ?_⟩
      · rw [mkSph_ok _ (distOk_raw hr') w0 hw.le]; rfl
      · simp [sphPoint]
    · simp only [if_neg hw]
      refine ⟨r', 2 * π - wrapR th, wrapR (ph + π), ?_, hr', ⟨by linarith, by linarith⟩,
        inTurn_wrapR _, ?_⟩
      · rw [mkSph_ok _ (distOk_raw hr') (by linarith) (by linarith)]; rfl
      · simp [sphPoint, Real.sin_two_pi_sub, Real.cos_two_pi_sub, Real.cos_add_pi,
          Real.sin_add_pi]
  simp only [sphFrom, lt_real, nat_real, Nat.cast_zero, pi_real, wrap_real, twoPi_real,
    decide_eq_true_eq]
  by_cases hn : r.raw < 0
  · simp only [if_pos hn]
    obtain ⟨d, rfl⟩ := hr.resolve_left (fun h => absurd (distOk_raw h) (not_le.mpr hn))
    have hd : d < 0 := hn
    obtain ⟨r'', t, f, h1, h2, h3, h4, h5⟩ := key (.dist (-d)) (π - theta) (phi.convert + π)
      (by show 0 ≤ -d; linarith)
    refine ⟨r'', t, f, h1, h2, h3, h4, ?_⟩
    rw [h5]
    simp [sphPoint, distOf, Real.sin_pi_sub, Real.cos_pi_sub, Real.cos_add_pi, Real.sin_add_pi,
      hphi.1, hphi.2]
  · simp only [if_neg hn]
    have hr' : DistOk r := by
      rcases hr with h | ⟨d, rfl⟩
      · exact h
      · exact not_lt.mp hn
    obtain ⟨r'', t, f, h1, h2, h3, h4, h5⟩ := key r theta phi.convert hr'
    refine ⟨r'', t, f, h1, h2, h3, h4, ?_⟩
    rw [h5]
    simp [sphPoint, hphi.1, hphi.2]

/-- `MathSphericalPos.from_` is `SphericalPos.from_` with the angles exchanged. -/
theorem mathFrom_eq_sphFrom (r : Dist ℝ) (theta : AzArg ℝ) (phi : ℝ) :
    mathFrom r theta phi = (sphFrom r phi theta).bind (fun v => match v with
      | .sph r t p => .ok (.math r p t)
      | _ => .error .noDispatch) := by
  have key : ∀ (a : Dist ℝ) (t : AzArg ℝ) (b : ℝ), mkMath a t b =
      (mkSph a b t).bind (fun v => match v with
        | .sph r t p => .ok (.math r p t)
        | _ => .error .noDispatch) := by
    intro a t b
    unfold mkMath mkSph
    cases h1 : checkNonNeg a.raw with
    | error e => rfl
    | ok u =>
      cases h2 : checkRange b (Num.nat 0) Num.pi with
      | error e => simp; rfl
      | ok u => simp; rfl
  simp only [mathFrom, sphFrom]
  exact key _ _ _

theorem mathFrom_good {r : Dist ℝ} (theta : AzArg ℝ) (phi : ℝ)
    (hr : DistOk r ∨ ∃ d, r = .dist d) :
    ∃ r' theta' phi', mathFrom r theta phi = .ok (.math r' theta' phi') ∧ DistOk r' ∧
      (0 ≤ phi' ∧ phi' ≤ π) ∧ InTurn theta' ∧
      sphPoint (distOf r') phi' theta' = sphPoint (distOf r) phi theta.val := by
  obtain ⟨r', t, p, h1, h2, h3, h4, h5⟩ := sphFrom_good phi theta hr
  refine ⟨r', p, t, ?_, h2, h3, h4, h5⟩
  rw [mathFrom_eq_sphFrom, h1]; rfl

/-- `q` is a well-formed vector of class `k`, canonical if `p` is. -/
structure WF (p q : Pos ℝ) (k : Kind) : Prop where
  kind : q.kind = k
  valid : Valid q
  canon : Canon p → Canon q

theorem asLength_iff {r : Dist ℝ} {d : ℝ} : r.asLength = .ok d ↔ r = .dist d := by
  cases r <;> simp [Dist.asLength]

theorem scaleThenFrom_dist {r r' : Dist ℝ} {q : ℝ} (h : r.scaleThenFrom q = .ok r') :
    ∃ d, r' = .dist d := by
  cases r with
  | dist d => simp only [Dist.scaleThenFrom, Except.ok.injEq] at h; exact ⟨_, h.symm⟩
  | par p =>
    simp only [Dist.scaleThenFrom, bind_ok_iff, pure_ok, Except.ok.injEq] at h
    obtain ⟨a, _, h⟩ := h; exact ⟨_, h.symm⟩
  | dm m =>
    simp only [Dist.scaleThenFrom, bind_ok_iff, pure_ok, Except.ok.injEq] at h
    obtain ⟨a, _, h⟩ := h; exact ⟨_, h.symm⟩

/-- Every conversion that returns, across dimensions too, returns a well-formed vector. -/
theorem represent_wf (n : ℕ) : ∀ (kw : Kw ℝ) (p : Pos ℝ) (k : Kind) (q : Pos ℝ),
    Valid p → represent n kw p k = .ok q → WF p q k := by
  induction n with
  | zero => intro kw p k q _ h; simp [represent] at h
  | succ n ih =>
    intro kw p k q hv h
    by_cases hd : p.kind.dim = k.dim
    · have g := represent_good _ _ _ _ _ hv hd h
      exact ⟨g.kind, g.valid, g.canon⟩
    have step : ∀ {kw kw' : Kw ℝ} {m : Kind},
        (represent n kw p m >>= fun s => represent n kw' s k) = .ok q → WF p q k := by
      intro kw kw' m h
      obtain ⟨a, h1, h2⟩ := (bind_ok_iff _ _ _).mp h
      have g := ih _ _ _ _ hv h1
      have g' := ih _ _ _ _ g.valid h2
      exact ⟨g'.kind, g'.valid, fun c => g'.canon (g.canon c)⟩
    have polarOf : ∀ {r : Dist ℝ} {phi : AzArg ℝ}, mkPolar r phi = .ok q → k = .polar →
        (DistOk r ∨ ∃ d, r = .dist d) → (Canon p → InTurn phi.convert) → WF p q k := by
      rintro r phi h' rfl hr hc
      obtain ⟨h1, rfl⟩ := mkPolar_iff.mp h'
      refine ⟨rfl, ?_, hc⟩
      rcases hr with h | ⟨d, rfl⟩
      · exact h
      · exact h1
    have radialOf : ∀ {r : Dist ℝ}, mkRadial r = .ok q → k = .radial →
        (DistOk r ∨ ∃ d, r = .dist d) → WF p q k := by
      rintro r h' rfl hr
      obtain ⟨h1, rfl⟩ := mkRadial_iff.mp h'
      refine ⟨rfl, ?_, fun _ => trivial⟩
      rcases hr with h | ⟨d, rfl⟩
      · exact h
      · exact h1
    have cylOf : ∀ {rho z : ℝ} {phi : AzArg ℝ}, mkCyl rho phi z = .ok q → k = .cyl →
        (Canon p → InTurn phi.convert) → WF p q k := by
      rintro rho z phi h' rfl hc
      obtain ⟨h1, rfl⟩ := mkCyl_iff.mp h'
      exact ⟨rfl, h1, hc⟩
    have sphOf : ∀ {r : Dist ℝ} {theta : ℝ} {phi : AzArg ℝ}, sphFrom r theta phi = .ok q →
        k = .sph → (DistOk r ∨ ∃ d, r = .dist d) → WF p q k := by
      rintro r theta phi h' rfl hr
      obtain ⟨r', t, f, h1, h2, h3, h4, _⟩ := sphFrom_good theta phi hr
      rw [h1] at h'; cases h'
      exact ⟨rfl, ⟨h2, h3⟩, fun _ => h4⟩
    have mathOf : ∀ {r : Dist ℝ} {theta : AzArg ℝ} {phi : ℝ}, mathFrom r theta phi = .ok q →
        k = .math → (DistOk r ∨ ∃ d, r = .dist d) → WF p q k := by
      rintro r theta phi h' rfl hr
      obtain ⟨r', t, f, h1, h2, h3, h4, _⟩ := mathFrom_good theta phi hr
      rw [h1] at h'; cases h'
      exact ⟨rfl, ⟨h2, h3⟩, fun _ => h4⟩
    cases p <;> cases k <;> simp only [Pos.kind, Kind.dim] at hd <;>
      first
      | exact absurd trivial hd
      | (simp only [represent] at h
         first
         | exact step h
         | (cases h; exact ⟨rfl, trivial, fun _ => trivial⟩)
         | cases h
         | exact polarOf h rfl (Or.inr ⟨_, rfl⟩) (fun _ => AzArg.inTurn_qty _)
         | exact polarOf h rfl (Or.inl hv) (fun _ => AzArg.inTurn_qty _)
         | exact polarOf h rfl (Or.inr ⟨_, rfl⟩) (fun c => c)
         | exact radialOf h rfl (Or.inr ⟨_, rfl⟩)
         | exact radialOf h rfl (Or.inl hv)
         | exact radialOf h rfl (Or.inl hv.1)
         | exact cylOf h rfl (fun _ => AzArg.inTurn_qty _)
         | exact sphOf h rfl (Or.inr ⟨_, rfl⟩)
         | exact sphOf h rfl (Or.inl hv)
         | exact mathOf h rfl (Or.inr ⟨_, rfl⟩)
         | exact mathOf h rfl (Or.inl hv)
         | (simp only [bind_ok_iff] at h
            obtain ⟨a, _, h⟩ := h
            first
            | (cases h; exact ⟨rfl, trivial, fun _ => trivial⟩)
            | exact radialOf h rfl (Or.inr ⟨_, rfl⟩)
            | exact cylOf h rfl (fun _ => AzArg.inTurn_qty _)
            | exact cylOf h rfl (fun c => c))
         | (simp only [sphToPolar, bind_ok_iff] at h
            obtain ⟨a, ha, h⟩ := h
            exact polarOf h rfl (Or.inr (scaleThenFrom_dist ha)) (fun c => c))
         | (simp only [sphToCart1, sphToCart2, polarToCart1, bind_ok_iff] at h
            obtain ⟨a, _, h⟩ := h
            cases h; exact ⟨rfl, trivial, fun _ => trivial⟩))

end Verif
