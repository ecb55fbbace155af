import Verif.UnitSelf

/-! # Conversions commute with maps of the scalars that respect every operation -/

namespace Verif

open Num

/-- a map of scalars that respects every operation -/
structure NumHom {α β : Type} [Num α] [Num β] (f : α → β) : Prop where
  add (x y : α) : f (x + y) = f x + f y
  sub (x y : α) : f (x - y) = f x - f y
  mul (x y : α) : f (x * y) = f x * f y
  neg (x : α) : f (-x) = -f x
  nat (n : ℕ) : f (Num.nat n) = Num.nat n
  pi : f Num.pi = Num.pi
  abs (x : α) : f (Num.abs x) = Num.abs (f x)
  sign (x : α) : f (Num.sign x) = Num.sign (f x)
  sin (x : α) : f (Num.sin x) = Num.sin (f x)
  cos (x : α) : f (Num.cos x) = Num.cos (f x)
  wrap (x : α) : f (Num.wrap x) = Num.wrap (f x)
  pow10 (x : α) : f (Num.pow10 x) = Num.pow10 (f x)
  lt (x y : α) : Num.lt (f x) (f y) = Num.lt x y
  beq (x y : α) : Num.beq (f x) (f y) = Num.beq x y
  div (x y : α) : Num.div (f x) (f y) = (Num.div x y).map f
  sqrt (x : α) : Num.sqrt (f x) = (Num.sqrt x).map f
  acos (x : α) : Num.acos (f x) = (Num.acos x).map f
  tan (x : α) : Num.tan (f x) = (Num.tan x).map f
  atan2 (y x : α) : Num.atan2 (f y) (f x) = (Num.atan2 y x).map f

/-- azimuth arguments -/
def AzArg.tr {α β : Type} (f : α → β) : AzArg α → AzArg β
  | .qty x => .qty (f x)
  | .angle x => .angle (f x)

section
variable {α β : Type} [Num α] [Num β] {f : α → β}

/-- the image of a result -/
abbrev Img (f : α → β) : Res α → Res β → Prop := RelRes fun a b => f a = b

omit [Num α] [Num β] in
theorem img_of {f : α → β} {m : Res α} {m' : Res β} (h : m' = m.map f) : Img f m m' := by
  subst h
  cases m with
  | error e => exact .err e
  | ok a => exact .ok rfl

/-- images of positions -/
abbrev PImg (f : α → β) : Res (Pos α) → Res (Pos β) → Prop := RelRes fun a b => Pos.tr f a = b

variable (h : NumHom f) {x y z w : α} {r : Dist α} {az : AzArg α}
include h

theorem hom_div : Img f (Num.div x y) (Num.div (f x) (f y)) := img_of (h.div x y)
theorem hom_sqrt : Img f (Num.sqrt x) (Num.sqrt (f x)) := img_of (h.sqrt x)
theorem hom_acos : Img f (Num.acos x) (Num.acos (f x)) := img_of (h.acos x)
theorem hom_tan : Img f (Num.tan x) (Num.tan (f x)) := img_of (h.tan x)
theorem hom_atan2 : Img f (Num.atan2 x y) (Num.atan2 (f x) (f y)) := img_of (h.atan2 x y)

theorem hom_halfPi : Img f halfPi halfPi := by
  have := hom_div h (x := Num.pi) (y := Num.nat 2)
  rwa [h.pi, h.nat] at this

theorem hom_half : Img f (Num.div (Num.nat 1) (Num.nat 2)) (Num.div (Num.nat 1) (Num.nat 2)) := by
  have := hom_div h (x := Num.nat 1) (y := Num.nat 2)
  rwa [h.nat, h.nat] at this

theorem hom_pcAU : Img f pcAU pcAU := by
  have := hom_div h (x := Num.nat 648000) (y := Num.pi)
  rwa [h.pi, h.nat] at this

theorem hom_convert : f az.convert = (az.tr f).convert := by
  cases az
  · exact h.wrap _
  · rfl

omit h [Num α] [Num β] in
theorem hom_raw : f r.raw = (r.tr f).raw := by cases r <;> rfl

theorem hom_neg_raw : (r.mapRaw fun v => -v).tr f = (r.tr f).mapRaw fun v => -v := by
  cases r <;> simp only [Dist.mapRaw, Dist.tr, h.neg]

theorem hom_par : Img f (Dist.par x).distance (Dist.par (f x)).distance :=
  .bind (hom_tan h) fun t _ e => by
    subst e
    have := hom_div h (x := Num.nat 1) (y := t)
    rwa [h.nat] at this

theorem hom_dm : Img f (Dist.dm x).distance (Dist.dm (f x)).distance := by
  have := hom_div h (x := x) (y := Num.nat 5)
  rw [h.nat] at this
  exact .bind this fun e e' he => .bind (hom_pcAU h) fun c c' hc => .ok (by
    subst he; subst hc; rw [h.mul, h.pow10, h.add, h.nat])

theorem hom_distance : Img f r.distance (r.tr f).distance := by
  cases r with
  | dist d => exact .ok rfl
  | par p => exact hom_par h
  | dm m => exact hom_dm h

omit h [Num α] [Num β] in
theorem hom_asLength : Img f r.asLength (r.tr f).asLength := by
  cases r with
  | dist d => exact .ok rfl
  | par p => exact .err _
  | dm m => exact .err _

theorem hom_scale : RelRes (fun a b => Dist.tr f a = b) (r.scaleThenFrom x) ((r.tr f).scaleThenFrom (f x)) := by
  cases r with
  | dist d => exact .ok (by rw [Dist.tr, h.mul])
  | par p =>
    show RelRes _ _ (do return Dist.dist (← (Dist.par (f p * f x)).distance))
    rw [← h.mul]
    exact (hom_par h).bind fun a b e => .ok (by rw [Dist.tr, e])
  | dm m =>
    show RelRes _ _ (do return Dist.dist (← (Dist.dm (f m * f x)).distance))
    rw [← h.mul]
    exact (hom_dm h).bind fun a b e => .ok (by rw [Dist.tr, e])

theorem hom_nonNeg : checkNonNeg x = checkNonNeg (f x) := by
  rw [checkNonNeg, checkNonNeg, ← h.nat 0, h.lt]

theorem hom_checkPos : checkPos x = checkPos (f x) := by
  rw [checkPos, checkPos, ← h.nat 0, h.lt]

theorem hom_range : checkRange x y z = checkRange (f x) (f y) (f z) := by
  rw [checkRange, checkRange, h.lt, h.lt]

/-! Constructors -/

omit h [Num α] [Num β] in
theorem hom_mkCart1 : PImg f (mkCart1 x) (mkCart1 (f x)) := .ok rfl
omit h [Num α] [Num β] in
theorem hom_mkCart2 : PImg f (mkCart2 x y) (mkCart2 (f x) (f y)) := .ok rfl
omit h [Num α] [Num β] in
theorem hom_mkCart3 : PImg f (mkCart3 x y z) (mkCart3 (f x) (f y) (f z)) := .ok rfl

theorem hom_mkRadial : PImg f (mkRadial r) (mkRadial (r.tr f)) :=
  .check (by rw [← hom_raw]; exact hom_nonNeg h) (.ok rfl)

theorem hom_mkPolar : PImg f (mkPolar r az) (mkPolar (r.tr f) (az.tr f)) :=
  .check (by rw [← hom_raw]; exact hom_nonNeg h) (.ok (by rw [Pos.tr, hom_convert h]))

theorem hom_mkCyl : PImg f (mkCyl x az z) (mkCyl (f x) (az.tr f) (f z)) :=
  .check (hom_nonNeg h) (.ok (by rw [Pos.tr, hom_convert h]))

theorem hom_mkSph : PImg f (mkSph r x az) (mkSph (r.tr f) (f x) (az.tr f)) :=
  .check (by rw [← hom_raw]; exact hom_nonNeg h)
    (.check (by rw [hom_range h, h.nat, h.pi]) (.ok (by rw [Pos.tr, hom_convert h])))

theorem hom_mkMath : PImg f (mkMath r az x) (mkMath (r.tr f) (az.tr f) (f x)) :=
  .check (by rw [← hom_raw]; exact hom_nonNeg h)
    (.check (by rw [hom_range h, h.nat, h.pi]) (.ok (by rw [Pos.tr, hom_convert h])))

theorem hom_mkLonLat : PImg f (mkLonLat az x r) (mkLonLat (az.tr f) (f x) (r.tr f)) :=
  .bind (hom_halfPi h) fun a b e => .check (by subst e; rw [hom_range h, h.neg])
    (.check (by rw [← hom_raw]; exact hom_nonNeg h) (.ok (by rw [Pos.tr, hom_convert h])))

theorem hom_mkProlate : PImg f (mkProlate x y az w) (mkProlate (f x) (f y) (az.tr f) (f w)) := by
  rw [mkProlate_eq, mkProlate_eq, ← h.mul, ← h.abs, h.lt, h.lt]
  exact .check (hom_checkPos h) (.check rfl (.check rfl (.ok (by rw [Pos.tr, hom_convert h]))))

omit h [Num α] [Num β] in
theorem hom_ite {γ δ : Type} {g : γ → δ} {c : Bool} {a b : γ} {a' b' : δ} (ha : g a = a') (hb : g b = b') :
    g (if c then a else b) = if c then a' else b' := by cases c <;> assumption

theorem hom_twoPi : f twoPi = twoPi := by rw [twoPi, h.mul, h.nat, h.pi, twoPi]

theorem hom_sphFrom : PImg f (sphFrom r x az) (sphFrom (r.tr f) (f x) (az.tr f)) := by
  have e1 : Num.lt (r.tr f).raw (Num.nat 0) = Num.lt r.raw (Num.nat 0) := by rw [← hom_raw, ← h.nat 0, h.lt]
  unfold sphFrom
  rw [e1, ← hom_convert h, ← h.pi, ← hom_neg_raw h]
  cases Num.lt r.raw (Num.nat 0)
  all_goals
    simp only [if_true, if_false, Bool.false_eq_true, ← h.wrap, h.lt, ← h.add, ← h.sub, ← hom_twoPi h]
    rw [← hom_ite (g := f) rfl rfl, ← hom_ite (g := f) rfl rfl]
    exact hom_mkSph h (az := .qty _)

theorem hom_mathFrom : PImg f (mathFrom r az x) (mathFrom (r.tr f) (az.tr f) (f x)) := by
  have e1 : Num.lt (r.tr f).raw (Num.nat 0) = Num.lt r.raw (Num.nat 0) := by rw [← hom_raw, ← h.nat 0, h.lt]
  unfold mathFrom
  rw [e1, ← hom_convert h, ← h.pi, ← hom_neg_raw h]
  cases Num.lt r.raw (Num.nat 0)
  all_goals
    simp only [if_true, if_false, Bool.false_eq_true, ← h.wrap, h.lt, ← h.add, ← h.sub, ← hom_twoPi h]
    rw [← hom_ite (g := f) rfl rfl, ← hom_ite (g := f) rfl rfl]
    exact hom_mkMath h (az := .qty _)

/-! Rules -/

theorem hom_cart3ToCyl : PImg f (cart3ToCyl x y z) (cart3ToCyl (f x) (f y) (f z)) := by
  unfold cart3ToCyl
  simp only [← h.mul, ← h.add]
  exact .bind (hom_sqrt h) fun _ _ e => .bind (hom_atan2 h) fun _ _ e' => by
    subst e; subst e'; exact hom_mkCyl h (az := .qty _)

theorem hom_cart3ToSph : PImg f (cart3ToSph x y z) (cart3ToSph (f x) (f y) (f z)) := by
  unfold cart3ToSph
  simp only [← h.mul, ← h.add]
  refine .bind (hom_sqrt h) fun _ _ e => ?_
  subst e
  refine .bind (hom_div h) fun _ _ e => ?_
  subst e
  refine .bind (hom_acos h) fun _ _ e => ?_
  subst e
  refine .bind (hom_atan2 h) fun _ _ e => ?_
  subst e
  exact hom_mkSph h (r := .dist _) (az := .qty _)

theorem hom_cylToCart3 : PImg f (cylToCart3 x y z) (cylToCart3 (f x) (f y) (f z)) := by
  unfold cylToCart3
  simp only [← h.cos, ← h.sin, ← h.mul]
  exact hom_mkCart3

theorem hom_cylToSph : PImg f (cylToSph x y z) (cylToSph (f x) (f y) (f z)) := by
  unfold cylToSph
  simp only [← h.mul, ← h.add]
  refine .bind (hom_sqrt h) fun _ _ e => ?_
  subst e
  refine .bind (hom_div h) fun _ _ e => ?_
  subst e
  refine .bind (hom_acos h) fun _ _ e => ?_
  subst e
  exact hom_mkSph h (r := .dist _) (az := .angle _)

theorem hom_sphToCart3 : PImg f (sphToCart3 r x y) (sphToCart3 (r.tr f) (f x) (f y)) := by
  unfold sphToCart3
  simp only [← h.cos, ← h.sin]
  refine .bind (hom_distance h) fun _ _ e => ?_
  subst e
  simp only [← h.mul]
  exact hom_mkCart3

theorem hom_sphToCyl : PImg f (sphToCyl r x y) (sphToCyl (r.tr f) (f x) (f y)) := by
  unfold sphToCyl
  simp only [← h.cos, ← h.sin]
  refine .bind (hom_distance h) fun _ _ e => ?_
  subst e
  simp only [← h.mul, ← h.abs]
  exact hom_mkCyl h (az := .angle _)

theorem hom_sphToLonLat : PImg f (sphToLonLat r x y) (sphToLonLat (r.tr f) (f x) (f y)) :=
  .bind (hom_halfPi h) fun _ _ e => by
    subst e; rw [← h.sub]; exact hom_mkLonLat h (az := .angle _)

theorem hom_lonlatToSph : PImg f (lonlatToSph x y r) (lonlatToSph (f x) (f y) (r.tr f)) :=
  .bind (hom_halfPi h) fun _ _ e => by
    subst e; rw [← h.sub]; exact hom_mkSph h (az := .angle _)

theorem hom_prolateToCyl : PImg f (prolateToCyl x y z w) (prolateToCyl (f x) (f y) (f z) (f w)) := by
  unfold prolateToCyl
  simp only [← h.mul, ← h.sub, ← h.abs]
  refine .bind (hom_div h) fun _ _ e => ?_
  subst e
  rw [← h.nat 1]
  simp only [← h.mul, ← h.sub]
  refine .bind (hom_sqrt h) fun _ _ e => ?_
  subst e
  refine .bind (hom_sqrt h) fun _ _ e => ?_
  subst e
  rw [← h.sign, ← h.mul]
  exact hom_mkCyl h (az := .angle _)

theorem hom_prolateD {s d t : α} : Img f (prolateD x z s d t) (prolateD (f x) (f z) (f s) (f d) (f t)) :=
  .bind (hom_sqrt h) fun _ _ e => .ok (by
    subst e
    rw [← h.abs, ← h.nat 0, h.beq, h.beq]
    exact hom_ite rfl (hom_ite rfl rfl))

theorem hom_prolMu {a d df d2 r2 : α} :
    Img f (prolMuMinusDelta a d df d2 r2) (prolMuMinusDelta (f a) (f d) (f df) (f d2) (f r2)) := by
  unfold prolMuMinusDelta
  rw [← h.nat 0, h.lt]
  simp only [← h.add, ← h.sub, ← h.mul]
  cases Num.lt df (Num.nat 0)
  · exact .ok rfl
  · exact hom_div h

theorem hom_prolNu {a d df d2 r2 : α} :
    Img f (prolDeltaMinusNu a d df d2 r2) (prolDeltaMinusNu (f a) (f d) (f df) (f d2) (f r2)) := by
  unfold prolDeltaMinusNu
  rw [← h.nat 0, h.lt]
  simp only [← h.add, ← h.sub, ← h.mul]
  cases Num.lt df (Num.nat 0)
  · exact hom_div h
  · exact .ok rfl

theorem hom_prolAbs {b a d df d2 r2 : α} :
    Img f (prolAbsNu b a d df d2 r2) (prolAbsNu (f b) (f a) (f d) (f df) (f d2) (f r2)) := by
  unfold prolAbsNu
  rw [← h.nat 2, ← h.mul, h.lt]
  cases Num.lt d2 (b * Num.nat 2)
  · exact .ok rfl
  · exact .bind (hom_prolNu h) fun _ _ e => .ok (by subst e; rw [h.sub])

theorem hom_cylToProlate : PImg f (cylToProlate x y z w) (cylToProlate (f x) (f y) (f z) (f w)) := by
  unfold cylToProlate
  simp only [← h.mul, ← h.add, ← h.sub]
  have n4 : (Num.nat 4 : β) = f (Num.nat 4) := (h.nat 4).symm
  have n2 : (Num.nat 2 : β) = f (Num.nat 2) := (h.nat 2).symm
  rw [n4]
  simp only [← h.mul, ← h.add]
  refine .bind (hom_prolateD h) fun _ _ e => ?_
  subst e
  refine .bind (hom_half h) fun _ _ e => ?_
  subst e
  refine .bind (hom_prolMu h) fun _ _ e => ?_
  subst e
  rw [n2]
  simp only [← h.mul, ← h.add]
  refine .bind (hom_div h) fun _ _ e => ?_
  subst e
  simp only [← h.mul]
  refine .bind (hom_prolAbs h) fun _ _ e => ?_
  subst e
  simp only [← h.sign, ← h.mul]
  exact hom_mkProlate h (az := .angle _)

theorem hom_cart2ToPolar : PImg f (cart2ToPolar x y) (cart2ToPolar (f x) (f y)) := by
  unfold cart2ToPolar
  simp only [← h.mul, ← h.add]
  exact .bind (hom_sqrt h) fun _ _ e => .bind (hom_atan2 h) fun _ _ e' => by
    subst e; subst e'; exact hom_mkPolar h (r := .dist _) (az := .qty _)

theorem hom_polarToCart2 : PImg f (polarToCart2 r y) (polarToCart2 (r.tr f) (f y)) := by
  unfold polarToCart2
  simp only [← h.cos, ← h.sin]
  refine .bind (hom_distance h) fun _ _ e => ?_
  subst e
  simp only [← h.mul]
  exact hom_mkCart2

theorem hom_sphToCart1 : PImg f (sphToCart1 r x y) (sphToCart1 (r.tr f) (f x) (f y)) := by
  unfold sphToCart1
  simp only [← h.cos, ← h.sin]
  refine .bind hom_asLength fun _ _ e => ?_
  subst e
  simp only [← h.mul]
  exact hom_mkCart1

theorem hom_sphToCart2 : PImg f (sphToCart2 r x y) (sphToCart2 (r.tr f) (f x) (f y)) := by
  unfold sphToCart2
  simp only [← h.cos, ← h.sin]
  refine .bind hom_asLength fun _ _ e => ?_
  subst e
  simp only [← h.mul]
  exact hom_mkCart2

theorem hom_sphToPolar : PImg f (sphToPolar r x y) (sphToPolar (r.tr f) (f x) (f y)) := by
  unfold sphToPolar
  rw [← h.sin]
  exact .bind (hom_scale h) fun _ _ e => by subst e; exact hom_mkPolar h (az := .angle _)

theorem hom_polarToCart1 : PImg f (polarToCart1 r y) (polarToCart1 (r.tr f) (f y)) := by
  unfold polarToCart1
  rw [← h.cos]
  refine .bind hom_asLength fun _ _ e => ?_
  subst e
  rw [← h.mul]
  exact hom_mkCart1

theorem hom_orZero (o : Option α) : orZero (o.map f) = f (orZero o) := by
  cases o with
  | none => exact (h.nat 0).symm
  | some x => rfl

omit h [Num α] [Num β] in
theorem tr_kw_nil : ({} : Kw α).tr f = ({} : Kw β) := rfl

theorem represent_hom (n : ℕ) : ∀ (kw : Kw α) (p : Pos α) (k : Kind),
    PImg f (represent n kw p k) (represent n (kw.tr f) (p.tr f) k) := by
  induction n with
  | zero => intro kw p k; exact .err _
  | succ n ih =>
    intro kw p k
    have two : ∀ (kw₁ kw₂ : Kw α) (m k' : Kind), PImg f (do represent n kw₂ (← represent n kw₁ p m) k')
        (do represent n (kw₂.tr f) (← represent n (kw₁.tr f) (p.tr f) m) k') := by
      intro kw₁ kw₂ m k'
      exact (ih kw₁ p m).bind fun a b e => by subst e; exact ih kw₂ a k'
    have two0 : ∀ (m k' : Kind), PImg f (do represent n {} (← represent n {} p m) k')
        (do represent n {} (← represent n {} (p.tr f) m) k') := fun m k' => two {} {} m k'
    have twoz : ∀ (m k' : Kind), PImg f
        (do represent n {} (← represent n { z := some (orZero kw.z) } p m) k')
        (do represent n {} (← represent n { z := some (orZero (kw.z.map f)) } (p.tr f) m) k') := by
      intro m k'
      rw [hom_orZero h]
      exact two { z := some (orZero kw.z) } {} m k'
    have viaCyl : PImg f
        (match kw.delta with
          | none => .error .missingDelta
          | some dl => do represent n { delta := some dl } (← represent n {} p .cyl) .prolate)
        (match (kw.tr f).delta with
          | none => .error .missingDelta
          | some dl => do represent n { delta := some dl } (← represent n {} (p.tr f) .cyl) .prolate) := by
      obtain ⟨_, _, _, _, kd⟩ := kw
      cases kd with
      | none => exact .err _
      | some dl => exact two {} { delta := some dl } .cyl .prolate
    have hy : orZero (kw.y.map f) = f (orZero kw.y) := hom_orZero h _
    have hz : orZero (kw.z.map f) = f (orZero kw.z) := hom_orZero h _
    have hθ : orZero (kw.theta.map f) = f (orZero kw.theta) := hom_orZero h _
    have hφ : orZero (kw.phi.map f) = f (orZero kw.phi) := hom_orZero h _
    cases p with
    | cart1 x =>
      cases k with
      | cart1 => exact .ok rfl
      | radial => exact hom_mkRadial h (r := .dist x)
      | cart2 => show PImg f _ (mkCart2 (f x) (orZero (kw.y.map f))); rw [hy]; exact hom_mkCart2
      | polar => show PImg f _ (mkPolar (.dist (f x)) (.qty (orZero (kw.phi.map f)))); rw [hφ]; exact hom_mkPolar h (r := .dist x) (az := .qty _)
      | twoSphere => exact .err _
      | cart3 => show PImg f _ (mkCart3 (f x) (orZero (kw.y.map f)) (orZero (kw.z.map f))); rw [hy, hz]; exact hom_mkCart3
      | cyl => show PImg f _ (mkCyl (f x) (.qty (orZero (kw.phi.map f))) (orZero (kw.z.map f))); rw [hφ, hz]; exact hom_mkCyl h (az := .qty _)
      | sph =>
        show PImg f _ (sphFrom (.dist (f x)) (orZero (kw.theta.map f)) (.qty (orZero (kw.phi.map f))))
        rw [hθ, hφ]; exact hom_sphFrom h (r := .dist x) (az := .qty _)
      | lonlat => exact .err _
      | math =>
        show PImg f _ (mathFrom (.dist (f x)) (.qty (orZero (kw.theta.map f))) (orZero (kw.phi.map f)))
        rw [hθ, hφ]; exact hom_mathFrom h (r := .dist x) (az := .qty _)
      | prolate => exact .err _
    | radial r =>
      cases k with
      | cart1 => exact .bind (hom_distance h) fun _ _ e => by subst e; exact hom_mkCart1
      | radial => exact .ok rfl
      | cart2 =>
        show PImg f _ (do mkCart2 (← (r.tr f).asLength) (orZero (kw.y.map f)))
        rw [hy]; exact .bind hom_asLength fun _ _ e => by subst e; exact hom_mkCart2
      | polar => show PImg f _ (mkPolar (r.tr f) (.qty (orZero (kw.phi.map f)))); rw [hφ]; exact hom_mkPolar h (az := .qty _)
      | twoSphere => exact .err _
      | cart3 =>
        show PImg f _ (do mkCart3 (← (r.tr f).asLength) (orZero (kw.y.map f)) (orZero (kw.z.map f)))
        rw [hy, hz]; exact .bind hom_asLength fun _ _ e => by subst e; exact hom_mkCart3
      | cyl =>
        show PImg f _ (do mkCyl (← (r.tr f).asLength) (.qty (orZero (kw.phi.map f))) (orZero (kw.z.map f)))
        rw [hφ, hz]; exact .bind hom_asLength fun _ _ e => by subst e; exact hom_mkCyl h (az := .qty _)
      | sph =>
        show PImg f _ (sphFrom (r.tr f) (orZero (kw.theta.map f)) (.qty (orZero (kw.phi.map f))))
        rw [hθ, hφ]; exact hom_sphFrom h (az := .qty _)
      | lonlat => exact .err _
      | math =>
        show PImg f _ (mathFrom (r.tr f) (.qty (orZero (kw.theta.map f))) (orZero (kw.phi.map f)))
        rw [hθ, hφ]; exact hom_mathFrom h (az := .qty _)
      | prolate => exact .err _
    | cart2 x y =>
      cases k with
      | cart1 => exact hom_mkCart1
      | radial =>
        show PImg f _ (do mkRadial (.dist (← Num.sqrt (f x * f x + f y * f y))))
        rw [← h.mul, ← h.mul, ← h.add]
        exact .bind (hom_sqrt h) fun _ _ e => by subst e; exact hom_mkRadial h (r := .dist _)
      | cart2 => exact .ok rfl
      | polar => exact hom_cart2ToPolar h
      | twoSphere => exact two0 .cart2 .twoSphere
      | cart3 => show PImg f _ (mkCart3 (f x) (f y) (orZero (kw.z.map f))); rw [hz]; exact hom_mkCart3
      | cyl => exact twoz .cart3 .cyl
      | sph => exact twoz .cart3 .sph
      | lonlat => exact .err _
      | math => exact twoz .cart3 .math
      | prolate => exact .err _
    | polar r φ =>
      cases k with
      | cart1 => exact hom_polarToCart1 h
      | radial => exact hom_mkRadial h
      | cart2 => exact hom_polarToCart2 h
      | polar => exact .ok rfl
      | twoSphere => exact two0 .cart2 .twoSphere
      | cart3 => exact twoz .cyl .cart3
      | cyl =>
        show PImg f _ (do mkCyl (← (r.tr f).asLength) (.angle (f φ)) (orZero (kw.z.map f)))
        rw [hz]; exact .bind hom_asLength fun _ _ e => by subst e; exact hom_mkCyl h (az := .angle _)
      | sph =>
        show PImg f _ (sphFrom (r.tr f) (orZero (kw.theta.map f)) (.angle (f φ)))
        rw [hθ]; exact hom_sphFrom h (az := .angle _)
      | lonlat => exact .err _
      | math =>
        show PImg f _ (mathFrom (r.tr f) (.angle (f φ)) (orZero (kw.phi.map f)))
        rw [hφ]; exact hom_mathFrom h (az := .angle _)
      | prolate => exact .err _
    | twoSphere θ φ =>
      cases k with
      | cart1 => exact .err _
      | radial => exact .err _
      | cart2 => exact two0 .cart2 .cart2
      | polar => exact two0 .cart2 .polar
      | twoSphere => exact two0 .cart2 .twoSphere
      | cart3 => exact .err _
      | cyl => exact .err _
      | sph => exact .err _
      | lonlat => exact .err _
      | math => exact .err _
      | prolate => exact .err _
    | cart3 x y z =>
      cases k with
      | cart1 => exact hom_mkCart1
      | radial =>
        show PImg f _ (do mkRadial (.dist (← Num.sqrt (f x * f x + f y * f y + f z * f z))))
        rw [← h.mul, ← h.mul, ← h.mul, ← h.add, ← h.add]
        exact .bind (hom_sqrt h) fun _ _ e => by subst e; exact hom_mkRadial h (r := .dist _)
      | cart2 => exact hom_mkCart2
      | polar => exact two0 .cart2 .polar
      | twoSphere => exact .err _
      | cart3 => exact .ok rfl
      | cyl => exact hom_cart3ToCyl h
      | sph => exact hom_cart3ToSph h
      | lonlat => exact two0 .sph .lonlat
      | math => exact two0 .sph .math
      | prolate => exact viaCyl
    | cyl ρ φ z =>
      cases k with
      | cart1 =>
        show PImg f _ (mkCart1 (f ρ * Num.cos (f φ)))
        rw [← h.cos, ← h.mul]; exact hom_mkCart1
      | radial => exact hom_mkRadial h (r := .dist ρ)
      | cart2 =>
        show PImg f _ (mkCart2 (f ρ * Num.cos (f φ)) (f ρ * Num.sin (f φ)))
        rw [← h.cos, ← h.sin, ← h.mul, ← h.mul]; exact hom_mkCart2
      | polar => exact hom_mkPolar h (r := .dist ρ) (az := .angle φ)
      | twoSphere => exact .err _
      | cart3 => exact hom_cylToCart3 h
      | cyl => exact .ok rfl
      | sph => exact hom_cylToSph h
      | lonlat => exact two0 .sph .lonlat
      | math => exact two0 .sph .math
      | prolate =>
        obtain ⟨_, _, _, _, kd⟩ := kw
        cases kd with
        | none => exact .err _
        | some dl => exact hom_cylToProlate h
    | sph r θ φ =>
      cases k with
      | cart1 => exact hom_sphToCart1 h
      | radial => exact hom_mkRadial h
      | cart2 => exact hom_sphToCart2 h
      | polar => exact hom_sphToPolar h
      | twoSphere => exact .err _
      | cart3 => exact hom_sphToCart3 h
      | cyl => exact hom_sphToCyl h
      | sph => exact .ok rfl
      | lonlat => exact hom_sphToLonLat h
      | math => exact hom_mkMath h (az := .angle φ)
      | prolate => exact viaCyl
    | lonlat lon lat r =>
      cases k with
      | cart1 => exact .err _
      | radial => exact .err _
      | cart2 => exact .err _
      | polar => exact .err _
      | twoSphere => exact .err _
      | cart3 => exact two0 .sph .cart3
      | cyl => exact two0 .sph .cyl
      | sph => exact hom_lonlatToSph h
      | lonlat => exact .ok rfl
      | math => exact two0 .cart3 .math
      | prolate => exact viaCyl
    | math r θ φ =>
      cases k with
      | cart1 => exact hom_sphToCart1 h
      | radial => exact hom_mkRadial h
      | cart2 => exact hom_sphToCart2 h
      | polar => exact hom_sphToPolar h
      | twoSphere => exact .err _
      | cart3 => exact hom_sphToCart3 h
      | cyl => exact hom_sphToCyl h
      | sph => exact hom_mkSph h (az := .angle θ)
      | lonlat => exact two0 .cart3 .lonlat
      | math => exact .ok rfl
      | prolate => exact viaCyl
    | prolate mu nu φ dl =>
      cases k with
      | cart1 => exact two0 .cart3 .cart1
      | radial => exact two0 .cart3 .radial
      | cart2 => exact two0 .cart3 .cart2
      | polar => exact two0 .cart3 .polar
      | twoSphere => exact two0 .cart3 .twoSphere
      | cart3 => exact two0 .cyl .cart3
      | cyl => exact hom_prolateToCyl h
      | sph => exact two0 .cyl .sph
      | lonlat => exact two0 .cyl .lonlat
      | math => exact two0 .cyl .math
      | prolate =>
        obtain ⟨_, _, _, _, kd⟩ := kw
        cases kd with
        | none => exact .ok rfl
        | some dl => exact two {} { delta := some dl } .cyl .prolate

end

/-- scaling the tangent -/
def Dual.scale (s : ℝ) (x : Dual) : Dual := ⟨x.re, s * x.du⟩

theorem Dual.scale_hom (s : ℝ) : NumHom (Dual.scale s) where
  add x y := Dual.ext' rfl (by show s * (x.du + y.du) = s * x.du + s * y.du; ring)
  sub x y := Dual.ext' rfl (by show s * (x.du - y.du) = s * x.du - s * y.du; ring)
  mul x y := Dual.ext' rfl (by
    show s * (x.du * y.re + x.re * y.du) = s * x.du * y.re + x.re * (s * y.du); ring)
  neg x := Dual.ext' rfl (by show s * (-x.du) = -(s * x.du); ring)
  nat n := by apply Dual.ext' <;> simp [Dual.scale, Num.nat]
  pi := by apply Dual.ext' <;> simp [Dual.scale, Num.pi]
  abs x := by apply Dual.ext' <;> simp [Dual.scale, Num.abs]; ring
  sign x := by apply Dual.ext' <;> simp [Dual.scale, Num.sign]
  sin x := by apply Dual.ext' <;> simp [Dual.scale, Num.sin]; ring
  cos x := by apply Dual.ext' <;> simp [Dual.scale, Num.cos]; ring
  wrap x := by apply Dual.ext' <;> simp [Dual.scale, Num.wrap]
  pow10 x := by apply Dual.ext' <;> simp [Dual.scale, Num.pow10]; ring
  lt x y := rfl
  beq x y := rfl
  div x y := by
    show (if y.re = 0 then _ else _) = Except.map _ (if y.re = 0 then _ else _)
    split
    · rfl
    · exact congrArg _ (Dual.ext' rfl (by simp only [Dual.scale]; ring))
  sqrt x := by
    show (if x.re ≤ 0 then _ else _) = Except.map _ (if x.re ≤ 0 then _ else _)
    split
    · rfl
    · exact congrArg _ (Dual.ext' rfl (by simp only [Dual.scale]; ring))
  acos x := by
    show (if x.re ≤ -1 ∨ 1 ≤ x.re then _ else _) = Except.map _ (if x.re ≤ -1 ∨ 1 ≤ x.re then _ else _)
    split
    · rfl
    · exact congrArg _ (Dual.ext' rfl (by simp only [Dual.scale]; ring))
  tan x := by
    show (if Real.cos x.re = 0 then _ else _) = Except.map _ (if Real.cos x.re = 0 then _ else _)
    split
    · rfl
    · exact congrArg _ (Dual.ext' rfl (by simp only [Dual.scale]; ring))
  atan2 y x := by
    show (if x.re = 0 ∧ y.re = 0 then _ else _) = Except.map _ (if x.re = 0 ∧ y.re = 0 then _ else _)
    split
    · rfl
    · exact congrArg _ (Dual.ext' rfl (by simp only [Dual.scale]; ring))

end Verif
