import Verif.BatchSim

/-! # Conversion rules act element by element -/

namespace Verif

open List Spec

section
variable {T : Prop} {D : Set (List ℕ)} {S : List ℕ} {X Y Z W : BArr} {x y z w : List ℕ → Res ℝ}
  {R : Dist BArr} {r : List ℕ → Res (Dist ℝ)} {Φ : AzArg BArr} {φ : List ℕ → Res (AzArg ℝ)}
  {A : Res (Pos BArr)} {s t : List ℕ → Res (Pos ℝ)}

theorem retCart1 (hX : EF D S X x) : BSim T D S (.ok (.cart1 X)) fun i => (do return .cart1 (← x i)) := by
  refine BSim.restrict (fun i => ∃ v, x i = .ok v) (fun i hi hn => ?_) ?_
  · rcases hr : x i with e | a
    · rw [hX.err i hi e hr]; rfl
    · exact absurd ⟨a, hr⟩ hn
  · refine (BSim.ret (Q := .cart1 X) (by simpa [DefP, Pos.arrays] using hX.defA)).congr fun i hi => ?_
    obtain ⟨hi, a, ha⟩ := hi
    rw [ha, ok_bind, Pos.elemD, hX.eqD hi ha]; rfl

theorem retCart2 (hX : EF D S X x) (hY : EF D S Y y) :
    BSim T D S (.ok (.cart2 X Y)) fun i => (do return .cart2 (← x i) (← y i)) := by
  refine BSim.restrict (fun i => (∃ v, x i = .ok v) ∧ ∃ v, y i = .ok v) (fun i hi hn => ?_) ?_
  · rcases hr : x i with e | a
    · rw [hX.err i hi e hr]; rfl
    · rcases hp : y i with e | b
      · rw [hY.err i hi e hp]; rfl
      · exact absurd ⟨⟨a, hr⟩, b, hp⟩ hn
  · refine (BSim.ret (Q := .cart2 X Y) ?_).congr fun i hi => ?_
    · have h1 : DefA {i | i ∈ D ∧ (∃ v, x i = .ok v) ∧ ∃ v, y i = .ok v} S X :=
        hX.defA.mono fun i hi => ⟨hi.1, hi.2.1⟩
      have h2 : DefA {i | i ∈ D ∧ (∃ v, x i = .ok v) ∧ ∃ v, y i = .ok v} S Y :=
        hY.defA.mono fun i hi => ⟨hi.1, hi.2.2⟩
      intro a ha
      simp only [Pos.arrays, mem_cons, not_mem_nil, or_false] at ha
      rcases ha with rfl | rfl <;> assumption
    · obtain ⟨hi, ⟨a, ha⟩, b, hb⟩ := hi
      rw [ha, ok_bind, hb, ok_bind, Pos.elemD, hX.eqD hi ha, hY.eqD hi hb]; rfl

theorem retCart3 (hX : EF D S X x) (hY : EF D S Y y) (hZ : EF D S Z z) :
    BSim T D S (.ok (.cart3 X Y Z)) fun i => (do return .cart3 (← x i) (← y i) (← z i)) := by
  refine BSim.restrict (fun i => (∃ v, x i = .ok v) ∧ (∃ v, y i = .ok v) ∧ ∃ v, z i = .ok v)
    (fun i hi hn => ?_) ?_
  · rcases hr : x i with e | a
    · rw [hX.err i hi e hr]; rfl
    · rcases hp : y i with e | b
      · rw [hY.err i hi e hp]; rfl
      · rcases hq : z i with e | c
        · rw [hZ.err i hi e hq]; rfl
        · exact absurd ⟨⟨a, hr⟩, ⟨b, hp⟩, c, hq⟩ hn
  · refine (BSim.ret (Q := .cart3 X Y Z) ?_).congr fun i hi => ?_
    · have h1 : DefA {i | i ∈ D ∧ (∃ v, x i = .ok v) ∧ (∃ v, y i = .ok v) ∧ ∃ v, z i = .ok v} S X :=
        hX.defA.mono fun i hi => ⟨hi.1, hi.2.1⟩
      have h2 : DefA {i | i ∈ D ∧ (∃ v, x i = .ok v) ∧ (∃ v, y i = .ok v) ∧ ∃ v, z i = .ok v} S Y :=
        hY.defA.mono fun i hi => ⟨hi.1, hi.2.2.1⟩
      have h3 : DefA {i | i ∈ D ∧ (∃ v, x i = .ok v) ∧ (∃ v, y i = .ok v) ∧ ∃ v, z i = .ok v} S Z :=
        hZ.defA.mono fun i hi => ⟨hi.1, hi.2.2.2⟩
      intro a ha
      simp only [Pos.arrays, mem_cons, not_mem_nil, or_false] at ha
      rcases ha with rfl | rfl | rfl <;> assumption
    · obtain ⟨hi, ⟨a, ha⟩, ⟨b, hb⟩, c, hc⟩ := hi
      rw [ha, ok_bind, hb, ok_bind, hc, ok_bind, Pos.elemD, hX.eqD hi ha, hY.eqD hi hb, hZ.eqD hi hc]; rfl

variable (hD : ∀ i ∈ D, InB S i)

include hD in
theorem cart3ToCylB_sim (hX : DefA D S X) (hY : DefA D S Y) (hZ : DefA D S Z) :
    BSim T D S (cart3ToCylB X Y Z) fun i => cart3ToCyl (X.elemD i) (Y.elemD i) (Z.elemD i) := by
  obtain ⟨a, ha, ea⟩ := hX.ef.mul hX.ef
  obtain ⟨b, hb, eb⟩ := hY.ef.mul hY.ef
  obtain ⟨c, hc, ec⟩ := ea.add eb
  obtain ⟨d, hd, ed⟩ := hY.ef.atan2 hX.ef
  unfold cart3ToCylB
  simp only [ha, hb, hc, hd, ok_bind]
  exact (mkCylB_sim hD ec.sqrt ed.qty hZ.ef).congr fun i _ => rfl

include hD in
theorem cart3ToSphB_sim (hX : DefA D S X) (hY : DefA D S Y) (hZ : DefA D S Z) :
    BSim T D S (cart3ToSphB X Y Z) fun i => cart3ToSph (X.elemD i) (Y.elemD i) (Z.elemD i) := by
  obtain ⟨a, ha, ea⟩ := hX.ef.mul hX.ef
  obtain ⟨b, hb, eb⟩ := hY.ef.mul hY.ef
  obtain ⟨c, hc, ec⟩ := ea.add eb
  obtain ⟨d, hd, ed⟩ := hZ.ef.mul hZ.ef
  obtain ⟨e, he, ee⟩ := ec.add ed
  obtain ⟨f, hf, ef⟩ := hZ.ef.div ee.sqrt
  obtain ⟨g, hg, eg⟩ := hY.ef.atan2 hX.ef
  unfold cart3ToSphB
  simp only [ha, hb, hc, hd, he, hf, hg, ok_bind]
  refine (mkSphB_sim hD ee.sqrt.dist ef.acos eg.qty).congr fun i _ => ?_
  simp only [ok_bind, cart3ToSph, pure, Except.pure]
  rcases h : (Num.sqrt (X.elemD i * X.elemD i + Y.elemD i * Y.elemD i + Z.elemD i * Z.elemD i) : Res ℝ) with e | v
  · rfl
  · simp only [ok_bind]
    rcases (Num.div (Z.elemD i) v : Res ℝ) with e | w <;> rfl

theorem cylToCart3B_sim (hX : DefA D S X) (hY : DefA D S Y) (hZ : DefA D S Z) :
    BSim T D S (cylToCart3B X Y Z) fun i => cylToCart3 (X.elemD i) (Y.elemD i) (Z.elemD i) := by
  obtain ⟨a, ha, ea⟩ := hX.ef.mul hY.ef.cos
  obtain ⟨b, hb, eb⟩ := hX.ef.mul hY.ef.sin
  unfold cylToCart3B
  simp only [ha, hb, ok_bind]
  exact (retCart3 ea eb hZ.ef).congr fun i _ => rfl

include hD in
theorem cylToSphB_sim (hX : DefA D S X) (hY : DefA D S Y) (hZ : DefA D S Z) :
    BSim T D S (cylToSphB X Y Z) fun i => cylToSph (X.elemD i) (Y.elemD i) (Z.elemD i) := by
  obtain ⟨a, ha, ea⟩ := hX.ef.mul hX.ef
  obtain ⟨b, hb, eb⟩ := hZ.ef.mul hZ.ef
  obtain ⟨c, hc, ec⟩ := ea.add eb
  obtain ⟨f, hf, ef⟩ := hZ.ef.div ec.sqrt
  unfold cylToSphB
  simp only [ha, hb, hc, hf, ok_bind]
  refine (mkSphB_sim hD ec.sqrt.dist ef.acos hY.ef.angle).congr fun i _ => ?_
  simp only [ok_bind, cylToSph, pure, Except.pure]
  rcases h : (Num.sqrt (X.elemD i * X.elemD i + Z.elemD i * Z.elemD i) : Res ℝ) with e | v
  · rfl
  · simp only [ok_bind]
    rcases (Num.div (Z.elemD i) v : Res ℝ) with e | w <;> rfl

theorem DefA.distance (h : DefA D S R.raw) :
    ∃ X, R.distanceB = .ok X ∧ EF D S X fun i => (R.elemD i).distance := by
  cases R with
  | dist a => exact ⟨a, rfl, h.ef⟩
  | par p =>
    obtain ⟨a, ha, ea⟩ := (EF.nat 1).div h.ef.tan
    exact ⟨a, ha, ea.congr fun i _ => rfl⟩
  | dm m =>
    obtain ⟨a, ha, ea⟩ := h.ef.div (EF.nat 5)
    obtain ⟨b, hb, eb⟩ := ea.add (EF.nat 1)
    have hpc : EF D S (.scalar (el1 (fun x => Num.div (Num.nat 648000) x) (some Num.pi)))
        fun _ => (pcAU : Res ℝ) := by
      refine ⟨broadcastsTo_nil S, fun _ _ v h => ?_, fun _ _ e h => nf_div _ _ e h⟩
      unfold pcAU at h
      show el1 (fun x => Num.div (Num.nat 648000) x) (some Num.pi) = _
      simp only [el1, h]
    obtain ⟨c, hc, ec⟩ := eb.pow10.mul hpc
    refine ⟨c, by simp only [Dist.distanceB, Dist.raw] at *; simp only [ha, hb, hc, ok_bind], ec.congr fun i _ => ?_⟩
    simp only [ok_bind, Dist.elemD, Dist.distance, pure, Except.pure, Dist.raw]
    rcases (Num.div (Arr.elemD m i) (Num.nat 5) : Res ℝ) with e | v
    · rfl
    · rcases (pcAU : Res ℝ) with e | v <;> rfl

theorem sphToCart3B_sim (hR : DefA D S R.raw) (hY : DefA D S Y) (hZ : DefA D S Z) :
    BSim T D S (sphToCart3B R Y Z) fun i => sphToCart3 (R.elemD i) (Y.elemD i) (Z.elemD i) := by
  obtain ⟨d, hd, ed⟩ := hR.distance
  obtain ⟨a, ha, ea⟩ := ed.mul hY.ef.sin
  obtain ⟨b, hb, eb⟩ := ea.mul hZ.ef.cos
  obtain ⟨c, hc, ec⟩ := ea.mul hZ.ef.sin
  obtain ⟨e, he, ee⟩ := ed.mul hY.ef.cos
  unfold sphToCart3B
  simp only [hd, ha, hb, hc, he, ok_bind]
  refine (retCart3 eb ec ee).congr fun i _ => ?_
  simp only [ok_bind, sphToCart3, pure, Except.pure]
  rcases h : (R.elemD i).distance with e | v
  · rfl
  · rfl

include hD in
theorem sphToCylB_sim (hR : DefA D S R.raw) (hY : DefA D S Y) (hZ : DefA D S Z) :
    BSim T D S (sphToCylB R Y Z) fun i => sphToCyl (R.elemD i) (Y.elemD i) (Z.elemD i) := by
  obtain ⟨d, hd, ed⟩ := hR.distance
  obtain ⟨a, ha, ea⟩ := ed.mul hY.ef.sin
  obtain ⟨b, hb, eb⟩ := ed.mul hY.ef.cos
  unfold sphToCylB
  simp only [hd, ha, hb, ok_bind]
  refine (mkCylB_sim hD ea.abs hZ.ef.angle eb).congr fun i _ => ?_
  simp only [ok_bind, sphToCyl, pure, Except.pure]
  rcases h : (R.elemD i).distance with e | v
  · rfl
  · rfl

include hD in
theorem sphToLonLatB_sim (hR : DefA D S R.raw) (hY : DefA D S Y) (hZ : DefA D S Z) :
    BSim T D S (sphToLonLatB R Y Z) fun i => sphToLonLat (R.elemD i) (Y.elemD i) (Z.elemD i) := by
  obtain ⟨a, ha, ea⟩ := EF.halfPi.sub hY.ef
  unfold sphToLonLatB
  simp only [ha, ok_bind]
  refine (mkLonLatB_sim hD hZ.ef.angle ea hR.df).congr fun i _ => ?_
  simp only [ok_bind, sphToLonLat, pure, Except.pure]
  rcases (halfPi : Res ℝ) with e | v <;> rfl

include hD in
theorem lonlatToSphB_sim (hX : DefA D S X) (hY : DefA D S Y) (hR : DefA D S R.raw) :
    BSim T D S (lonlatToSphB X Y R) fun i => lonlatToSph (X.elemD i) (Y.elemD i) (R.elemD i) := by
  obtain ⟨a, ha, ea⟩ := EF.halfPi.sub hY.ef
  unfold lonlatToSphB
  simp only [ha, ok_bind]
  refine (mkSphB_sim hD hR.df ea hX.ef.angle).congr fun i _ => ?_
  simp only [ok_bind, lonlatToSph, pure, Except.pure]
  rcases (halfPi : Res ℝ) with e | v <;> rfl

include hD in
theorem prolateToCylB_sim (hX : DefA D S X) (hY : DefA D S Y) (hZ : DefA D S Z) (hW : DefA D S W) :
    BSim T D S (prolateToCylB X Y Z W) fun i =>
      prolateToCyl (X.elemD i) (Y.elemD i) (Z.elemD i) (W.elemD i) := by
  obtain ⟨a, ha, ea⟩ := hW.ef.mul hW.ef
  obtain ⟨b, hb, eb⟩ := hY.ef.abs.div ea
  obtain ⟨c, hc, ec⟩ := hX.ef.sub ea
  obtain ⟨d, hd, ed⟩ := (EF.nat 1).sub eb
  obtain ⟨e, he, ee⟩ := ec.mul ed
  obtain ⟨f, hf, ef⟩ := hX.ef.mul eb
  obtain ⟨g, hg, eg⟩ := ef.sqrt.mul hY.ef.sign
  unfold prolateToCylB
  simp only [ha, hb, hc, hd, he, hf, hg, ok_bind]
  refine (mkCylB_sim hD ee.sqrt hZ.ef.angle eg).congr fun i _ => ?_
  simp only [ok_bind, prolateToCyl, pure, Except.pure]
  rcases h : (Num.div (Num.abs (Y.elemD i)) (W.elemD i * W.elemD i) : Res ℝ) with e | v
  · rfl
  · simp only [ok_bind]
    rcases (Num.sqrt ((X.elemD i - W.elemD i * W.elemD i) * (Num.nat 1 - v)) : Res ℝ) with e | w
    · rfl
    · simp only [ok_bind]
      rcases (Num.sqrt (X.elemD i * v) : Res ℝ) with e | u <;> rfl

include hD in
theorem cart2ToPolarB_sim (hX : DefA D S X) (hY : DefA D S Y) :
    BSim T D S (cart2ToPolarB X Y) fun i => cart2ToPolar (X.elemD i) (Y.elemD i) := by
  obtain ⟨a, ha, ea⟩ := hX.ef.mul hX.ef
  obtain ⟨b, hb, eb⟩ := hY.ef.mul hY.ef
  obtain ⟨c, hc, ec⟩ := ea.add eb
  obtain ⟨d, hd, ed⟩ := hY.ef.atan2 hX.ef
  unfold cart2ToPolarB
  simp only [ha, hb, hc, hd, ok_bind]
  refine (mkPolarB_sim hD ec.sqrt.dist ed.qty).congr fun i _ => ?_
  simp only [ok_bind, cart2ToPolar, pure, Except.pure]
  rcases (Num.sqrt (X.elemD i * X.elemD i + Y.elemD i * Y.elemD i) : Res ℝ) with e | v <;> rfl

theorem polarToCart2B_sim (hR : DefA D S R.raw) (hY : DefA D S Y) :
    BSim T D S (polarToCart2B R Y) fun i => polarToCart2 (R.elemD i) (Y.elemD i) := by
  obtain ⟨d, hd, ed⟩ := hR.distance
  obtain ⟨a, ha, ea⟩ := ed.mul hY.ef.cos
  obtain ⟨b, hb, eb⟩ := ed.mul hY.ef.sin
  unfold polarToCart2B
  simp only [hd, ha, hb, ok_bind]
  refine (retCart2 ea eb).congr fun i _ => ?_
  simp only [ok_bind, polarToCart2, pure, Except.pure]
  rcases (R.elemD i).distance with e | v <;> rfl

theorem radialToCart1B_sim (hR : DefA D S R.raw) :
    BSim T D S (do return .cart1 (← R.distanceB)) fun i => (do mkCart1 (← (R.elemD i).distance)) := by
  obtain ⟨d, hd, ed⟩ := hR.distance
  simp only [hd, ok_bind]
  exact (retCart1 ed).congr fun i _ => rfl

/-! ### rules that need a length -/

theorem asLength_cases (R : Dist BArr) :
    (∃ a, R = .dist a) ∨ R.asLengthB = .error .units ∧ ∀ i, (R.elemD i).asLength = .error .units := by
  cases R with
  | dist a => exact .inl ⟨a, rfl⟩
  | par a => exact .inr ⟨rfl, fun _ => rfl⟩
  | dm a => exact .inr ⟨rfl, fun _ => rfl⟩

theorem sphToCart1B_sim (hR : DefA D S R.raw) (hY : DefA D S Y) (hZ : DefA D S Z) :
    BSim T D S (sphToCart1B R Y Z) fun i => sphToCart1 (R.elemD i) (Y.elemD i) (Z.elemD i) := by
  rcases asLength_cases R with ⟨d, rfl⟩ | ⟨h1, h2⟩
  · obtain ⟨a, ha, ea⟩ := DefA.ef (X := d) hR |>.mul hY.ef.sin
    obtain ⟨b, hb, eb⟩ := ea.mul hZ.ef.cos
    unfold sphToCart1B
    simp only [Dist.asLengthB, ha, hb, ok_bind]
    exact (retCart1 eb).congr fun i _ => rfl
  · unfold sphToCart1B
    rw [h1]
    exact BSim.error fun i _ q hq => by rw [sphToCart1, h2 i] at hq; cases hq

theorem sphToCart2B_sim (hR : DefA D S R.raw) (hY : DefA D S Y) (hZ : DefA D S Z) :
    BSim T D S (sphToCart2B R Y Z) fun i => sphToCart2 (R.elemD i) (Y.elemD i) (Z.elemD i) := by
  rcases asLength_cases R with ⟨d, rfl⟩ | ⟨h1, h2⟩
  · obtain ⟨a, ha, ea⟩ := DefA.ef (X := d) hR |>.mul hY.ef.sin
    obtain ⟨b, hb, eb⟩ := ea.mul hZ.ef.cos
    obtain ⟨c, hc, ec⟩ := ea.mul hZ.ef.sin
    unfold sphToCart2B
    simp only [Dist.asLengthB, ha, hb, hc, ok_bind]
    exact (retCart2 eb ec).congr fun i _ => rfl
  · unfold sphToCart2B
    rw [h1]
    exact BSim.error fun i _ q hq => by rw [sphToCart2, h2 i] at hq; cases hq

theorem polarToCart1B_sim (hR : DefA D S R.raw) (hY : DefA D S Y) :
    BSim T D S (polarToCart1B R Y) fun i => polarToCart1 (R.elemD i) (Y.elemD i) := by
  rcases asLength_cases R with ⟨d, rfl⟩ | ⟨h1, h2⟩
  · obtain ⟨a, ha, ea⟩ := DefA.ef (X := d) hR |>.mul hY.ef.cos
    unfold polarToCart1B
    simp only [Dist.asLengthB, ha, ok_bind]
    exact (retCart1 ea).congr fun i _ => rfl
  · unfold polarToCart1B
    rw [h1]
    exact BSim.error fun i _ q hq => by rw [polarToCart1, h2 i] at hq; cases hq

include hD in
theorem sphToPolarB_sim (hR : DefA D S R.raw) (hY : DefA D S Y) (hZ : DefA D S Z) :
    BSim T D S (sphToPolarB R Y Z) fun i => sphToPolar (R.elemD i) (Y.elemD i) (Z.elemD i) := by
  unfold sphToPolarB
  cases R with
  | dist d =>
    obtain ⟨a, ha, ea⟩ := DefA.ef (X := d) hR |>.mul hY.ef.sin
    simp only [Dist.scaleThenFromB, ha, ok_bind]
    exact (mkPolarB_sim hD ea.dist hZ.ef.angle).congr fun i _ => rfl
  | par d =>
    obtain ⟨a, ha, ea⟩ := DefA.ef (X := d) hR |>.mul hY.ef.sin
    have hda : DefA D S a := DefA.of_elem ea.fits fun i hi => ⟨_, ea.val i hi _ rfl⟩
    obtain ⟨b, hb, eb⟩ := DefA.distance (R := .par a) hda
    simp only [Dist.scaleThenFromB, ha, hb, ok_bind]
    refine (mkPolarB_sim hD eb.dist hZ.ef.angle).congr fun i hi => ?_
    have e1 : a.elemD i = d.elemD i * Num.sin (Y.elemD i) := ea.eqD hi rfl
    simp only [sphToPolar, Dist.elemD, Dist.scaleThenFrom, e1]
    rcases (Dist.par (Arr.elemD d i * Num.sin (Arr.elemD Y i))).distance with e | v <;> rfl
  | dm d =>
    obtain ⟨a, ha, ea⟩ := DefA.ef (X := d) hR |>.mul hY.ef.sin
    have hda : DefA D S a := DefA.of_elem ea.fits fun i hi => ⟨_, ea.val i hi _ rfl⟩
    obtain ⟨b, hb, eb⟩ := DefA.distance (R := .dm a) hda
    simp only [Dist.scaleThenFromB, ha, hb, ok_bind]
    refine (mkPolarB_sim hD eb.dist hZ.ef.angle).congr fun i hi => ?_
    have e1 : a.elemD i = d.elemD i * Num.sin (Y.elemD i) := ea.eqD hi rfl
    simp only [sphToPolar, Dist.elemD, Dist.scaleThenFrom, e1]
    rcases (Dist.dm (Arr.elemD d i * Num.sin (Arr.elemD Y i))).distance with e | v <;> rfl

include hD in
theorem cart2ToRadialB_sim (hX : DefA D S X) (hY : DefA D S Y) :
    BSim T D S (cart2ToRadialB X Y) fun i =>
      (do mkRadial (.dist (← Num.sqrt (X.elemD i * X.elemD i + Y.elemD i * Y.elemD i)))) := by
  obtain ⟨a, ha, ea⟩ := hX.ef.mul hX.ef
  obtain ⟨b, hb, eb⟩ := hY.ef.mul hY.ef
  obtain ⟨c, hc, ec⟩ := ea.add eb
  unfold cart2ToRadialB
  simp only [ha, hb, hc, ok_bind]
  refine (mkRadialB_sim hD ec.sqrt.dist).congr fun i _ => ?_
  simp only [ok_bind, pure, Except.pure]
  rcases (Num.sqrt (X.elemD i * X.elemD i + Y.elemD i * Y.elemD i) : Res ℝ) with e | v <;> rfl

include hD in
theorem cart3ToRadialB_sim (hX : DefA D S X) (hY : DefA D S Y) (hZ : DefA D S Z) :
    BSim T D S (cart3ToRadialB X Y Z) fun i =>
      (do mkRadial (.dist (← Num.sqrt
        (X.elemD i * X.elemD i + Y.elemD i * Y.elemD i + Z.elemD i * Z.elemD i)))) := by
  obtain ⟨a, ha, ea⟩ := hX.ef.mul hX.ef
  obtain ⟨b, hb, eb⟩ := hY.ef.mul hY.ef
  obtain ⟨c, hc, ec⟩ := ea.add eb
  obtain ⟨d, hd, ed⟩ := hZ.ef.mul hZ.ef
  obtain ⟨e, he, ee⟩ := ec.add ed
  unfold cart3ToRadialB
  simp only [ha, hb, hc, hd, he, ok_bind]
  refine (mkRadialB_sim hD ee.sqrt.dist).congr fun i _ => ?_
  simp only [ok_bind, pure, Except.pure]
  rcases (Num.sqrt (X.elemD i * X.elemD i + Y.elemD i * Y.elemD i + Z.elemD i * Z.elemD i) : Res ℝ)
    with e | v <;> rfl

end

end Verif
