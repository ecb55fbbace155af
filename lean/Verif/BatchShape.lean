import Verif.BatchVel
import Verif.BatchRep

/-! # Shapes of the components of a converted batch -/

namespace Verif

open List Spec

section
variable {S : List ℕ}

/-- the full shape or a scalar -/
def Sub (S : List ℕ) (a : List ℕ) : Prop := a = S ∨ a = []

theorem bc2_self (s : List ℕ) : bc2 s s = .ok s := by
  have := broadcast_const (l := [s, s]) (s := s) (by simp) (by simp)
  simpa [broadcastShapes] using (by
    simp only [broadcastShapes, ok_bind] at this
    have e : bc2 s [] = .ok s := by
      unfold bc2
      cases h : s.reverse with
      | nil => simp [bcRev] at h ⊢; subst h; rfl
      | cons a l => simp only [reverse_nil, bcRev, ok_bind]; rw [← h, reverse_reverse]; rfl
    rw [e, ok_bind] at this
    exact this)

theorem map2_bc {α β γ : Type} {f : α → β → γ} {a : Arr α} {b : Arr β} {c : Arr γ}
    (h : Arr.map2 f a b = .ok c) : bc2 a.shape b.shape = .ok c.shape := by
  unfold Arr.map2 at h
  obtain ⟨u, h1, h2⟩ := (bind_ok_iff _ _ _).mp h
  obtain rfl := Except.ok.inj h2
  exact h1

theorem map2_l {α β γ : Type} {f : α → β → γ} {a : Arr α} {b : Arr β} {c : Arr γ}
    (h : Arr.map2 f a b = .ok c) (ha : a.shape = S) (hb : Sub S b.shape) : c.shape = S := by
  have := map2_bc h
  rcases hb with hb | hb
  · rw [ha, hb, bc2_self] at this; exact (Except.ok.inj this).symm
  · rw [ha, hb, bc2_nil_right] at this; exact (Except.ok.inj this).symm

theorem map2_r {α β γ : Type} {f : α → β → γ} {a : Arr α} {b : Arr β} {c : Arr γ}
    (h : Arr.map2 f a b = .ok c) (ha : Sub S a.shape) (hb : b.shape = S) : c.shape = S := by
  have := map2_bc h
  rcases ha with ha | ha
  · rw [ha, hb, bc2_self] at this; exact (Except.ok.inj this).symm
  · rw [ha, hb, bc2_nil_left] at this; exact (Except.ok.inj this).symm

theorem map2_0 {α β γ : Type} {f : α → β → γ} {a : Arr α} {b : Arr β} {c : Arr γ}
    (h : Arr.map2 f a b = .ok c) (ha : a.shape = []) (hb : b.shape = []) : c.shape = [] := by
  have := map2_bc h
  rw [ha, hb, bc2_nil_left] at this; exact (Except.ok.inj this).symm

theorem Sub.refl (S : List ℕ) : Sub S S := .inl rfl
theorem Sub.nil (S : List ℕ) : Sub S [] := .inr rfl
theorem Sub.of_eq {a : List ℕ} (h : a = S) : Sub S a := .inl h

/-- all coordinate fields have shape `S` -/
def AllSh (S : List ℕ) (P : Pos BArr) : Prop := ∀ a ∈ P.coords, a.shape = S

theorem distanceB_shape {R : Dist BArr} {d : BArr} (h : R.distanceB = .ok d) (hR : R.raw.shape = S) : d.shape = S := by
  cases R with
  | dist a => cases h; exact hR
  | par a => exact map2_r (S := S) h (.inr rfl) hR
  | dm a =>
    simp only [Dist.distanceB, bind_ok_iff] at h
    obtain ⟨x, h1, y, h2, h3⟩ := h
    have s1 : x.shape = S := map2_l h1 hR (.inr rfl)
    have s2 : y.shape = S := map2_l h2 s1 (.inr rfl)
    exact map2_l h3 (a := bpow10 y) s2 (.inr rfl)

theorem asLengthB_shape {R : Dist BArr} {d : BArr} (h : R.asLengthB = .ok d) (hR : R.raw.shape = S) : d.shape = S := by
  cases R <;> cases h; exact hR

/-- if the computation returns, all coordinate fields have shape `S` -/
def ResSh (S : List ℕ) (x : Res (Pos BArr)) : Prop := ∀ Q, x = .ok Q → AllSh S Q

theorem rs_err {e : Err} : ResSh S (.error e) := fun _ h => by cases h

theorem rs_bind {β : Type} {x : Res β} {f : β → Res (Pos BArr)} (h : ∀ a, x = .ok a → ResSh S (f a)) :
    ResSh S (x >>= f) := by
  intro Q hQ
  obtain ⟨a, h1, h2⟩ := (bind_ok_iff _ _ _).mp hQ
  exact h a h1 Q h2

theorem rs_ok {P : Pos BArr} (h : AllSh S P) : ResSh S (.ok P) := fun _ e => by cases e; exact h

theorem rs_radial {R : Dist BArr} (h : R.raw.shape = S) : ResSh S (mkRadialB R) :=
  rs_bind fun _ _ => rs_ok (P := .radial R) (by simpa [AllSh, Pos.coords] using h)

theorem convertB_shape (Φ : AzArg BArr) : Φ.convertB.shape = Φ.arr.shape := by cases Φ <;> rfl

theorem rs_polar {R : Dist BArr} {Φ : AzArg BArr} (h : R.raw.shape = S) (k : Φ.arr.shape = S) :
    ResSh S (mkPolarB R Φ) :=
  rs_bind fun _ _ => rs_ok (P := .polar R Φ.convertB) (by simp [AllSh, Pos.coords, h, k, convertB_shape])

theorem rs_cyl {R Z : BArr} {Φ : AzArg BArr} (h : R.shape = S) (k : Φ.arr.shape = S) (l : Z.shape = S) :
    ResSh S (mkCylB R Φ Z) :=
  rs_bind fun _ _ => rs_ok (P := .cyl R Φ.convertB Z) (by simp [AllSh, Pos.coords, h, k, l, convertB_shape])

theorem rs_sph {R : Dist BArr} {T : BArr} {Φ : AzArg BArr} (h : R.raw.shape = S) (l : T.shape = S)
    (k : Φ.arr.shape = S) : ResSh S (mkSphB R T Φ) :=
  rs_bind fun _ _ => rs_bind fun _ _ => rs_ok (P := .sph R T Φ.convertB)
    (by simp [AllSh, Pos.coords, h, k, l, convertB_shape])

theorem rs_math {R : Dist BArr} {T : BArr} {Φ : AzArg BArr} (h : R.raw.shape = S) (l : T.shape = S)
    (k : Φ.arr.shape = S) : ResSh S (mkMathB R Φ T) :=
  rs_bind fun _ _ => rs_bind fun _ _ => rs_ok (P := .math R Φ.convertB T)
    (by simp [AllSh, Pos.coords, h, k, l, convertB_shape])

theorem rs_lonlat {R : Dist BArr} {T : BArr} {Φ : AzArg BArr} (h : R.raw.shape = S) (l : T.shape = S)
    (k : Φ.arr.shape = S) : ResSh S (mkLonLatB Φ T R) :=
  rs_bind fun _ _ => rs_bind fun _ _ => rs_ok (P := .lonlat Φ.convertB T R)
    (by simp [AllSh, Pos.coords, h, k, l, convertB_shape])

theorem rs_cart3ToCyl {x y z : BArr} (hx : x.shape = S) (hy : y.shape = S) (hz : z.shape = S) :
    ResSh S (cart3ToCylB x y z) :=
  rs_bind fun a ha => rs_bind fun b hb => rs_bind fun c hc => rs_bind fun d hd =>
    have sc : c.shape = S := map2_l (S := S) hc (map2_l ha hx (.of_eq hx)) (.of_eq (map2_l hb hy (.of_eq hy)))
    rs_cyl sc (map2_l hd hy (.of_eq hx)) hz

theorem rs_cart3ToSph {x y z : BArr} (hx : x.shape = S) (hy : y.shape = S) (hz : Sub S z.shape) :
    ResSh S (cart3ToSphB x y z) :=
  rs_bind fun a ha => rs_bind fun b hb => rs_bind fun c hc => rs_bind fun d hd => rs_bind fun e he =>
    rs_bind fun f hf => rs_bind fun g hg =>
    have sc : c.shape = S := map2_l (S := S) hc (map2_l ha hx (.of_eq hx)) (.of_eq (map2_l hb hy (.of_eq hy)))
    have sd : Sub S d.shape := by
      rcases hz with hz | hz
      · exact .inl (map2_l hd hz (.of_eq hz))
      · exact .inr (map2_0 hd hz hz)
    have se : e.shape = S := map2_l he sc sd
    have sf : f.shape = S := map2_r hf hz se
    rs_sph se sf (map2_l hg hy (.of_eq hx))

theorem rs_cylToCart3 {x y z : BArr} (hx : x.shape = S) (hy : y.shape = S) (hz : z.shape = S) :
    ResSh S (cylToCart3B x y z) :=
  rs_bind fun a ha => rs_bind fun b hb => rs_ok (P := .cart3 a b z) (by
    simp [AllSh, Pos.coords, hz, map2_l (S := S) ha hx (.of_eq hy), map2_l (S := S) hb hx (.of_eq hy)])

theorem rs_cylToSph {x y z : BArr} (hx : x.shape = S) (hy : y.shape = S) (hz : z.shape = S) :
    ResSh S (cylToSphB x y z) :=
  rs_bind fun a ha => rs_bind fun b hb => rs_bind fun c hc => rs_bind fun d hd =>
    have sc : c.shape = S := map2_l (S := S) hc (map2_l ha hx (.of_eq hx)) (.of_eq (map2_l hb hz (.of_eq hz)))
    have sd : d.shape = S := map2_l hd hz (.of_eq sc)
    rs_sph sc sd hy

theorem rs_sphToCart3 {r : Dist BArr} {y z : BArr} (hx : r.raw.shape = S) (hy : y.shape = S) (hz : z.shape = S) :
    ResSh S (sphToCart3B r y z) :=
  rs_bind fun d hd => rs_bind fun a ha => rs_bind fun b hb => rs_bind fun c hc => rs_bind fun e he =>
    rs_bind fun f hf => rs_ok (P := .cart3 b e f) (by
    have sd := distanceB_shape hd hx
    have s1 := map2_l (S := S) hb (map2_l ha sd (.of_eq hy)) (.of_eq hz)
    have s2 := map2_l (S := S) he (map2_l hc sd (.of_eq hy)) (.of_eq hz)
    have s3 := map2_l (S := S) hf sd (.of_eq hy)
    simp [AllSh, Pos.coords, s1, s2, s3])

theorem rs_sphToCyl {r : Dist BArr} {y z : BArr} (hx : r.raw.shape = S) (hy : y.shape = S) (hz : z.shape = S) :
    ResSh S (sphToCylB r y z) :=
  rs_bind fun d hd => rs_bind fun a ha => rs_bind fun b hb =>
    have sd := distanceB_shape hd hx
    have sa : a.shape = S := map2_l ha sd (.of_eq hy)
    rs_cyl sa hz (map2_l (S := S) hb sd (.of_eq hy))

theorem rs_sphToLonLat {r : Dist BArr} {y z : BArr} (hx : r.raw.shape = S) (hy : y.shape = S) (hz : z.shape = S) :
    ResSh S (sphToLonLatB r y z) :=
  rs_bind fun d hd => rs_lonlat hx (map2_r (S := S) hd (.inr rfl) hy) hz

theorem rs_lonlatToSph {r : Dist BArr} {y z : BArr} (hx : r.raw.shape = S) (hy : y.shape = S) (hz : z.shape = S) :
    ResSh S (lonlatToSphB y z r) :=
  rs_bind fun d hd => rs_sph hx (map2_r (S := S) hd (.inr rfl) hz) hy

theorem rs_prolateToCyl {m n p d : BArr} (hm : m.shape = S) (hn : n.shape = S) (hp : p.shape = S)
    (hd : Sub S d.shape) : ResSh S (prolateToCylB m n p d) :=
  rs_bind fun a ha => rs_bind fun b hb => rs_bind fun c hc => rs_bind fun e he => rs_bind fun f hf =>
    rs_bind fun g hg => rs_bind fun h hh =>
    have sa : Sub S a.shape := by
      rcases hd with hd | hd
      · exact .inl (map2_l ha hd (.of_eq hd))
      · exact .inr (map2_0 ha hd hd)
    have sb := map2_l (S := S) hb hn sa
    have sf := map2_l (S := S) hf (map2_l hc hm sa) (.of_eq (map2_r (S := S) he (.inr rfl) sb))
    have sg : g.shape = S := map2_l hg hm (.of_eq sb)
    rs_cyl sf hp (map2_l (S := S) hh sg (.of_eq hn))

theorem rs_cart2ToPolar {x y : BArr} (hx : x.shape = S) (hy : y.shape = S) : ResSh S (cart2ToPolarB x y) :=
  rs_bind fun a ha => rs_bind fun b hb => rs_bind fun c hc => rs_bind fun d hd =>
    have sc : c.shape = S := map2_l (S := S) hc (map2_l ha hx (.of_eq hx)) (.of_eq (map2_l hb hy (.of_eq hy)))
    rs_polar sc (map2_l hd hy (.of_eq hx))

theorem rs_polarToCart2 {r : Dist BArr} {y : BArr} (hx : r.raw.shape = S) (hy : y.shape = S) :
    ResSh S (polarToCart2B r y) :=
  rs_bind fun d hd => rs_bind fun a ha => rs_bind fun b hb => rs_ok (P := .cart2 a b) (by
    have sd := distanceB_shape hd hx
    simp [AllSh, Pos.coords, map2_l (S := S) ha sd (.of_eq hy), map2_l (S := S) hb sd (.of_eq hy)])

theorem rs_sphToCart1 {r : Dist BArr} {y z : BArr} (hx : r.raw.shape = S) (hy : y.shape = S) (hz : z.shape = S) :
    ResSh S (sphToCart1B r y z) :=
  rs_bind fun d hd => rs_bind fun a ha => rs_bind fun b hb => rs_ok (P := .cart1 b) (by
    have sd := asLengthB_shape hd hx
    simp [AllSh, Pos.coords, map2_l (S := S) hb (map2_l ha sd (.of_eq hy)) (.of_eq hz)])

theorem rs_sphToCart2 {r : Dist BArr} {y z : BArr} (hx : r.raw.shape = S) (hy : y.shape = S) (hz : z.shape = S) :
    ResSh S (sphToCart2B r y z) :=
  rs_bind fun d hd => rs_bind fun a ha => rs_bind fun b hb => rs_bind fun a' ha' => rs_bind fun b' hb' =>
    rs_ok (P := .cart2 b b') (by
    have sd := asLengthB_shape hd hx
    simp [AllSh, Pos.coords, map2_l (S := S) hb (map2_l ha sd (.of_eq hy)) (.of_eq hz),
      map2_l (S := S) hb' (map2_l ha' sd (.of_eq hy)) (.of_eq hz)])

theorem scaleThenFromB_shape {r r' : Dist BArr} {q : BArr} (h : r.scaleThenFromB q = .ok r') (hr : r.raw.shape = S)
    (hq : q.shape = S) : r'.raw.shape = S := by
  cases r <;> simp only [Dist.scaleThenFromB, bind_ok_iff, pure_ok, Except.ok.injEq] at h
  · obtain ⟨a, h1, rfl⟩ := h; exact map2_l h1 hr (.of_eq hq)
  · obtain ⟨a, h1, b, h2, rfl⟩ := h
    exact distanceB_shape (R := .par a) h2 (map2_l h1 hr (.of_eq hq))
  · obtain ⟨a, h1, b, h2, rfl⟩ := h
    exact distanceB_shape (R := .dm a) h2 (map2_l h1 hr (.of_eq hq))

theorem rs_sphToPolar {r : Dist BArr} {y z : BArr} (hx : r.raw.shape = S) (hy : y.shape = S) (hz : z.shape = S) :
    ResSh S (sphToPolarB r y z) :=
  rs_bind fun d hd => rs_polar (scaleThenFromB_shape hd hx hy) hz

theorem rs_polarToCart1 {r : Dist BArr} {y : BArr} (hx : r.raw.shape = S) (hy : y.shape = S) :
    ResSh S (polarToCart1B r y) :=
  rs_bind fun d hd => rs_bind fun a ha => rs_ok (P := .cart1 a) (by
    simp [AllSh, Pos.coords, map2_l (S := S) ha (asLengthB_shape hd hx) (.of_eq hy)])

theorem rs_cart2ToRadial {x y : BArr} (hx : x.shape = S) (hy : y.shape = S) : ResSh S (cart2ToRadialB x y) :=
  rs_bind fun a ha => rs_bind fun b hb => rs_bind fun c hc =>
    have sc : c.shape = S := map2_l (S := S) hc (map2_l ha hx (.of_eq hx)) (.of_eq (map2_l hb hy (.of_eq hy)))
    rs_radial sc

theorem rs_cart3ToRadial {x y z : BArr} (hx : x.shape = S) (hy : y.shape = S) (hz : z.shape = S) :
    ResSh S (cart3ToRadialB x y z) :=
  rs_bind fun a ha => rs_bind fun b hb => rs_bind fun c hc => rs_bind fun d hd => rs_bind fun e he =>
    have sc : c.shape = S := map2_l (S := S) hc (map2_l ha hx (.of_eq hx)) (.of_eq (map2_l hb hy (.of_eq hy)))
    have se : e.shape = S := map2_l he sc (.of_eq (map2_l hd hz (.of_eq hz)))
    rs_radial se

theorem bselect_shape {C : Arr Bool} {A B X : BArr} (h : bselect C A B = .ok X) : X.shape = A.shape := by
  unfold bselect at h
  split at h
  · cases h; rfl
  · cases h

theorem bselect_shape' {C : Arr Bool} {A B X : BArr} (h : bselect C A B = .ok X) : X.shape = B.shape := by
  unfold bselect at h
  split at h
  · rename_i hh; cases h; exact hh.1
  · cases h

theorem mapRawM_shape {r r' : Dist BArr} {f : BArr → Res BArr} (h : r.mapRawM f = .ok r') :
    ∃ b, f r.raw = .ok b ∧ r'.raw = b := by
  cases r <;> simp only [Dist.mapRawM, bind_ok_iff, pure_ok, Except.ok.injEq] at h <;> obtain ⟨a, h1, rfl⟩ := h <;> exact ⟨a, h1, rfl⟩

theorem rs_sphFrom {r : Dist BArr} {t : BArr} {Φ : AzArg BArr} (hr : r.raw.shape = S) (ht : t.shape = S)
    (hp : Φ.arr.shape = S) : ResSh S (sphFromB r t Φ) := by
  refine rs_bind fun a ha => rs_bind fun b hb => rs_bind fun c hc => rs_bind fun d hd => rs_bind fun e he =>
    rs_bind fun f hf => rs_bind fun g hg => rs_bind fun h hh => rs_bind fun i hi => rs_bind fun j hj =>
    rs_bind fun k hk => rs_bind fun l hl => ?_
  obtain ⟨b', h1, h2⟩ := mapRawM_shape hb
  have sf : f.shape = S := (bselect_shape' hf).trans ht
  refine rs_sph (by rw [h2, bselect_shape h1]; exact hr) ((bselect_shape hj).trans sf)
    ((bselect_shape hl).trans ((bselect_shape' hd).trans (by rw [convertB_shape]; exact hp)))

theorem rs_mathFrom {r : Dist BArr} {t : BArr} {Φ : AzArg BArr} (hr : r.raw.shape = S) (ht : t.shape = S)
    (hp : Φ.arr.shape = S) : ResSh S (mathFromB r Φ t) := by
  refine rs_bind fun a ha => rs_bind fun b hb => rs_bind fun c hc => rs_bind fun d hd => rs_bind fun e he =>
    rs_bind fun f hf => rs_bind fun g hg => rs_bind fun h hh => rs_bind fun i hi => rs_bind fun j hj =>
    rs_bind fun k hk => rs_bind fun l hl => ?_
  obtain ⟨b', h1, h2⟩ := mapRawM_shape hb
  have sf : f.shape = S := (bselect_shape' hf).trans ht
  refine rs_math (by rw [h2, bselect_shape h1]; exact hr) ((bselect_shape hj).trans sf)
    ((bselect_shape hl).trans ((bselect_shape' hd).trans (by rw [convertB_shape]; exact hp)))

theorem broadcast3_shape {r : Dist BArr} {a b : BArr} {t : Dist BArr × BArr × BArr} (h : broadcast3 r a b = .ok t)
    (hr : r.raw.shape = S) (ha : a.shape = []) (hb : b.shape = []) :
    t.1.raw.shape = S ∧ t.2.1.shape = S ∧ t.2.2.shape = S := by
  unfold broadcast3 at h
  obtain ⟨s, h1, h2⟩ := (bind_ok_iff _ _ _).mp h
  obtain rfl := Except.ok.inj h2
  simp only [hr, ha, hb, broadcastShapes, ok_bind, bc2_nil_left, bc2_nil_right] at h1
  obtain rfl := Except.ok.inj h1
  refine ⟨?_, rfl, rfl⟩
  cases r <;> rfl

theorem rs_oneToSph {r : Dist BArr} {a b : BArr} (hr : r.raw.shape = S) (ha : a.shape = []) (hb : b.shape = []) :
    ResSh S (oneToSphB r a b) :=
  rs_bind fun _ h => have k := broadcast3_shape h hr ha hb; rs_sphFrom k.1 k.2.1 (Φ := .qty _) k.2.2

theorem rs_oneToMath {r : Dist BArr} {a b : BArr} (hr : r.raw.shape = S) (ha : a.shape = []) (hb : b.shape = []) :
    ResSh S (oneToMathB r a b) :=
  rs_bind fun _ h => have k := broadcast3_shape h hr ha hb; rs_mathFrom k.1 k.2.2 (Φ := .qty _) k.2.1

/-- keyword arguments are scalars -/
def KwSh (kw : Kw BArr) : Prop := ∀ a ∈ kw.arrays, a.shape = []

theorem kwSh_orZero {kw : Kw BArr} (h : KwSh kw) : (orZeroB kw.y).shape = [] ∧ (orZeroB kw.z).shape = [] ∧
    (orZeroB kw.theta).shape = [] ∧ (orZeroB kw.phi).shape = [] := by
  simp only [KwSh, Kw.arrays, mem_append, Option.mem_toList] at h
  refine ⟨?_, ?_, ?_, ?_⟩
  · cases e : kw.y with
    | none => rfl
    | some a => exact h a (by simp [e])
  · cases e : kw.z with
    | none => rfl
    | some a => exact h a (by simp [e])
  · cases e : kw.theta with
    | none => rfl
    | some a => exact h a (by simp [e])
  · cases e : kw.phi with
    | none => rfl
    | some a => exact h a (by simp [e])

theorem kwSh_empty : KwSh {} := by simp [KwSh, Kw.arrays]
theorem kwSh_z {z : BArr} (h : z.shape = []) : KwSh { z := some z } := by simp [KwSh, Kw.arrays, h]

/-- `Delta` is a scalar or has the common shape -/
def FocalSh (S : List ℕ) : Pos BArr → Prop
  | .prolate _ _ _ d => Sub S d.shape
  | _ => True

theorem focalSh_of_kind {P : Pos BArr} (h : P.kind ≠ .prolate) : FocalSh S P := by
  cases P <;> first | trivial | exact absurd rfl h

/-- what the induction proves -/
def ShAt (S : List ℕ) (n : ℕ) : Prop := ∀ (kw : Kw BArr) (P : Pos BArr) (k : Kind), KwSh kw → AllSh S P →
  FocalSh S P → P.kind.leavesRank0 k = false → k ≠ .prolate → ResSh S (representB n kw P k)

theorem rs_two {n : ℕ} (ih : ShAt S n) {kw1 kw2 : Kw BArr} {P : Pos BArr} {m k : Kind} (h1 : KwSh kw1) (h2 : KwSh kw2)
    (hP : AllSh S P) (hf : FocalSh S P) (a1 : P.kind.leavesRank0 m = false) (a2 : m ≠ .prolate)
    (a3 : m.leavesRank0 k = false) (a4 : k ≠ .prolate) :
    ResSh S (representB n kw1 P m >>= fun Q => representB n kw2 Q k) :=
  rs_bind fun Q hQ => by
    have hk := representB_kind n kw1 P m Q hQ
    exact ih kw2 Q k h2 (ih kw1 P m h1 hP hf a1 a2 Q hQ) (focalSh_of_kind (by rw [hk]; exact a2))
      (by rw [hk]; exact a3) a4

theorem sh1 {x : BArr} (h : x.shape = S) : AllSh S (.cart1 x) := by simp [AllSh, Pos.coords, h]
theorem sh2 {x y : BArr} (h : x.shape = S) (k : y.shape = S) : AllSh S (.cart2 x y) := by simp [AllSh, Pos.coords, h, k]

theorem rs_mathA {R : Dist BArr} {T p : BArr} (h : R.raw.shape = S) (l : T.shape = S) (k : p.shape = S) :
    ResSh S (mkMathB R (.angle p) T) := rs_math h l k
theorem rs_sphA {R : Dist BArr} {T p : BArr} (h : R.raw.shape = S) (l : T.shape = S) (k : p.shape = S) :
    ResSh S (mkSphB R T (.angle p)) := rs_sph h l k
theorem rs_radialD {x : BArr} (h : x.shape = S) : ResSh S (mkRadialB (.dist x)) := rs_radial (R := .dist x) h
theorem rs_polarD {x p : BArr} (h : x.shape = S) (k : p.shape = S) : ResSh S (mkPolarB (.dist x) (.angle p)) :=
  rs_polar (R := .dist x) h k

theorem representB_shape (n : ℕ) : ShAt S n := by
  induction n with
  | zero => intro kw P k _ _ _ _ _; exact rs_err
  | succ n ih =>
    intro kw P k hkw hP hf hr hk
    obtain ⟨ky, kz, kt, kp⟩ := kwSh_orZero hkw
    cases P with
    | cart1 x =>
      have hx : (Dist.dist x).raw.shape = S := hP x (by simp [Pos.coords])
      cases k <;> simp only [representB] <;> first
        | (cases hr; done)
        | with_reducible exact rs_err
        | with_reducible exact rs_ok hP
        | with_reducible exact rs_radial hx
        | with_reducible exact rs_oneToSph hx kt kp
        | with_reducible exact rs_oneToMath hx kt kp
    | radial r =>
      have hx : r.raw.shape = S := hP r.raw (by simp [Pos.coords])
      cases k <;> simp only [representB] <;> first
        | (cases hr; done)
        | with_reducible exact rs_err
        | with_reducible exact rs_ok hP
        | (cases hr; done)
        | with_reducible exact rs_oneToSph hx kt kp
        | with_reducible exact rs_oneToMath hx kt kp
        | exact rs_bind fun d hd => rs_ok (sh1 (distanceB_shape hd hx))
    | cart2 x y =>
      have hx : x.shape = S := hP x (by simp [Pos.coords])
      have hy : y.shape = S := hP y (by simp [Pos.coords])
      have up : ∀ Q, representB n { z := some (orZeroB kw.z) } (.cart2 x y) .cart3 = .ok Q →
          ∃ z, z.shape = [] ∧ Q = .cart3 x y z := by
        intro Q hQ
        cases n with
        | zero => cases hQ
        | succ n => simp only [representB] at hQ; cases hQ; exact ⟨_, kz, rfl⟩
      have sph : ∀ m (z : BArr), z.shape = [] → ResSh S (representB m {} (.cart3 x y z) .sph) := by
        intro m z hz
        cases m with
        | zero => exact rs_err
        | succ m => simp only [representB]; exact rs_cart3ToSph hx hy (.inr hz)
      cases k <;> simp only [representB]
      case prolate => exact absurd rfl hk
      case cart3 => cases hr
      case cyl => cases hr
      case lonlat => exact rs_err
      case cart1 => exact rs_ok (sh1 hx)
      case radial => exact rs_cart2ToRadial hx hy
      case cart2 => exact rs_ok hP
      case polar => exact rs_cart2ToPolar hx hy
      case twoSphere => exact rs_two ih kwSh_empty kwSh_empty hP (focalSh_of_kind (by simp [Pos.kind])) rfl (by decide) rfl (by decide)
      case sph =>
        exact rs_bind fun Q hQ => by obtain ⟨z, hz, rfl⟩ := up Q hQ; exact sph n z hz
      case math =>
        refine rs_bind fun Q hQ => ?_
        obtain ⟨z, hz, rfl⟩ := up Q hQ
        cases n with
        | zero => exact rs_err
        | succ n =>
          simp only [representB]
          refine rs_bind fun Q hQ => ?_
          have k1 := sph n z hz Q hQ
          have kk := representB_kind n _ _ _ Q hQ
          cases Q <;> first | (cases kk; done) | skip
          rename_i r t p
          cases n with
          | zero => exact rs_err
          | succ n =>
            simp only [representB]
            exact rs_math (Φ := .angle p) (k1 _ (by simp [Pos.coords])) (k1 t (by simp [Pos.coords]))
              (k1 p (by simp [Pos.coords]))
    | polar r y =>
      have hx : r.raw.shape = S := hP _ (by simp [Pos.coords])
      have hy : y.shape = S := hP y (by simp [Pos.coords])
      cases k <;> simp only [representB] <;> first
        | (cases hr; done)
        | with_reducible exact rs_err
        | with_reducible exact rs_ok hP
        | (cases hr; done)
        | with_reducible exact rs_polarToCart1 hx hy
        | with_reducible exact rs_radial hx
        | with_reducible exact rs_polarToCart2 hx hy
        | with_reducible exact rs_two ih kwSh_empty kwSh_empty hP (focalSh_of_kind (by simp [Pos.kind])) rfl (by decide) rfl (by decide)
    | twoSphere x y =>
      cases k <;> simp only [representB] <;> first
        | (cases hr; done)
        | with_reducible exact rs_err
        | with_reducible exact rs_two ih kwSh_empty kwSh_empty hP (focalSh_of_kind (by simp [Pos.kind])) rfl (by decide) rfl (by decide)
    | cart3 x y z =>
      have hx : x.shape = S := hP x (by simp [Pos.coords])
      have hy : y.shape = S := hP y (by simp [Pos.coords])
      have hz : z.shape = S := hP z (by simp [Pos.coords])
      cases k <;> simp only [representB] <;> first
        | exact absurd rfl hk
        | with_reducible exact rs_ok hP
        | with_reducible exact rs_ok (sh1 hx)
        | with_reducible exact rs_ok (sh2 hx hy)
        | with_reducible exact rs_cart3ToRadial hx hy hz
        | with_reducible exact rs_cart3ToCyl hx hy hz
        | with_reducible exact rs_cart3ToSph hx hy (.of_eq hz)
        | with_reducible exact rs_err
        | with_reducible exact rs_two ih kwSh_empty kwSh_empty hP (focalSh_of_kind (by simp [Pos.kind])) rfl (by decide) rfl (by decide)
    | cyl x y z =>
      have hx : x.shape = S := hP x (by simp [Pos.coords])
      have hy : y.shape = S := hP y (by simp [Pos.coords])
      have hz : z.shape = S := hP z (by simp [Pos.coords])
      cases k <;> simp only [representB] <;> first
        | exact absurd rfl hk
        | with_reducible exact rs_ok hP
        | with_reducible exact rs_radialD hx
        | with_reducible exact rs_polarD hx hy
        | with_reducible exact rs_cylToCart3 hx hy hz
        | with_reducible exact rs_cylToSph hx hy hz
        | with_reducible exact rs_err
        | with_reducible exact rs_two ih kwSh_empty kwSh_empty hP (focalSh_of_kind (by simp [Pos.kind])) rfl (by decide) rfl (by decide)
        | exact rs_bind fun d hd => rs_ok (sh1 (map2_l hd hx (.of_eq hy)))
        | exact rs_bind fun d hd => rs_bind fun e he => rs_ok (sh2 (map2_l hd hx (.of_eq hy)) (map2_l he hx (.of_eq hy)))
    | sph r y z =>
      have hx : r.raw.shape = S := hP _ (by simp [Pos.coords])
      have hy : y.shape = S := hP y (by simp [Pos.coords])
      have hz : z.shape = S := hP z (by simp [Pos.coords])
      cases k <;> simp only [representB] <;> first
        | exact absurd rfl hk
        | with_reducible exact rs_ok hP
        | with_reducible exact rs_sphToCart1 hx hy hz
        | with_reducible exact rs_radial hx
        | with_reducible exact rs_sphToCart2 hx hy hz
        | with_reducible exact rs_sphToPolar hx hy hz
        | with_reducible exact rs_sphToCart3 hx hy hz
        | with_reducible exact rs_sphToCyl hx hy hz
        | with_reducible exact rs_sphToLonLat hx hy hz
        | with_reducible exact rs_mathA hx hy hz
        | with_reducible exact rs_err
    | lonlat y z r =>
      have hx : r.raw.shape = S := hP _ (by simp [Pos.coords])
      have hy : y.shape = S := hP y (by simp [Pos.coords])
      have hz : z.shape = S := hP z (by simp [Pos.coords])
      cases k <;> simp only [representB] <;> first
        | exact absurd rfl hk
        | with_reducible exact rs_ok hP
        | with_reducible exact rs_lonlatToSph hx hy hz
        | with_reducible exact rs_err
        | with_reducible exact rs_two ih kwSh_empty kwSh_empty hP (focalSh_of_kind (by simp [Pos.kind])) rfl (by decide) rfl (by decide)
    | math r y z =>
      have hx : r.raw.shape = S := hP _ (by simp [Pos.coords])
      have hy : y.shape = S := hP y (by simp [Pos.coords])
      have hz : z.shape = S := hP z (by simp [Pos.coords])
      cases k <;> simp only [representB] <;> first
        | exact absurd rfl hk
        | with_reducible exact rs_ok hP
        | with_reducible exact rs_sphToCart1 hx hz hy
        | with_reducible exact rs_radial hx
        | with_reducible exact rs_sphToCart2 hx hz hy
        | with_reducible exact rs_sphToPolar hx hz hy
        | with_reducible exact rs_sphToCart3 hx hz hy
        | with_reducible exact rs_sphToCyl hx hz hy
        | with_reducible exact rs_sphA hx hz hy
        | with_reducible exact rs_err
        | with_reducible exact rs_two ih kwSh_empty kwSh_empty hP (focalSh_of_kind (by simp [Pos.kind])) rfl (by decide) rfl (by decide)
    | prolate x y z w =>
      have hf' : Sub S w.shape := hf
      have hx : x.shape = S := hP x (by simp [Pos.coords])
      have hy : y.shape = S := hP y (by simp [Pos.coords])
      have hz : z.shape = S := hP z (by simp [Pos.coords])
      cases k <;> simp only [representB] <;> first
        | exact absurd rfl hk
        | with_reducible exact rs_prolateToCyl hx hy hz hf'
        | with_reducible exact rs_two ih kwSh_empty kwSh_empty hP hf rfl (by decide) rfl (by decide)

/-- conversions to a prolate spheroidal class: what `Delta` of the result is -/
theorem representB_delta (n : ℕ) : ∀ (kw : Kw BArr) (P Q : Pos BArr), representB n kw P .prolate = .ok Q →
    ∃ m nu p d, Q = .prolate m nu p d ∧ (kw.delta = some d ∨ kw.delta = none ∧ Q = P) := by
  have mk : ∀ {m nu d : BArr} {p : AzArg BArr} {Q}, mkProlateB m nu p d = .ok Q →
      ∃ m nu p, Q = .prolate m nu p d := by
    intro m nu d p Q h
    unfold mkProlateB at h
    iterate 6 obtain ⟨_, _, h⟩ := (bind_ok_iff _ _ _).mp h
    exact ⟨_, _, _, (Except.ok.inj h).symm⟩
  have cyl : ∀ {x y z d : BArr} {Q}, cylToProlateB x y z d = .ok Q → ∃ m nu p, Q = .prolate m nu p d := by
    intro x y z d Q h
    unfold cylToProlateB at h
    iterate 60 (try obtain ⟨_, _, h⟩ := (bind_ok_iff _ _ _).mp h)
    exact ⟨_, _, _, (Except.ok.inj h).symm⟩
  induction n with
  | zero => intro kw P Q h; cases h
  | succ n ih =>
    intro kw P Q h
    have two : ∀ dl, (representB n {} P .cyl >>= fun R => representB n { delta := some dl } R .prolate) = .ok Q →
        ∃ m nu p, Q = .prolate m nu p dl := by
      intro dl hh
      obtain ⟨R, _, h2⟩ := (bind_ok_iff _ _ _).mp hh
      obtain ⟨m, nu, p, d, rfl, hd⟩ := ih _ _ _ h2
      rcases hd with hd | ⟨hd, _⟩
      · cases hd; exact ⟨m, nu, p, rfl⟩
      · cases hd
    cases hd : kw.delta with
    | none =>
      cases P <;> simp only [representB, hd] at h <;> first | (cases h; done) | skip
      obtain ⟨_, _, h⟩ := (bind_ok_iff _ _ _).mp h
      obtain rfl := Except.ok.inj h
      exact ⟨_, _, _, _, rfl, .inr ⟨rfl, rfl⟩⟩
    | some dl =>
      have fin : (∃ m nu p, Q = .prolate m nu p dl) →
          ∃ m nu p d, Q = .prolate m nu p d ∧ (some dl = some d ∨ some dl = none ∧ Q = P) := by
        rintro ⟨m, nu, p, rfl⟩
        exact ⟨m, nu, p, dl, rfl, .inl rfl⟩
      cases P <;> simp only [representB, hd] at h <;> first
        | (cases h; done)
        | exact fin (two dl h)
        | exact fin (cyl h)
        | exact fin (two dl ((bind_ok_iff _ _ _).mp h).choose_spec.2)

end

end Verif
