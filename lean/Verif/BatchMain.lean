import Verif.BatchFrom

/-! # `represent_as` on arrays acts element by element -/

namespace Verif

open List Spec

/-- keyword arguments of one element -/
noncomputable def Kw.elemD (i : List ℕ) (kw : Kw BArr) : Kw ℝ where
  y := kw.y.map fun a => Arr.elemD a i
  z := kw.z.map fun a => Arr.elemD a i
  theta := kw.theta.map fun a => Arr.elemD a i
  phi := kw.phi.map fun a => Arr.elemD a i
  delta := kw.delta.map fun a => Arr.elemD a i

/-- the arrays among the keyword arguments -/
def Kw.arrays (kw : Kw BArr) : List BArr :=
  kw.y.toList ++ kw.z.toList ++ kw.theta.toList ++ kw.phi.toList ++ kw.delta.toList

/-- shapes for which no `select` and no `cond` has to broadcast -/
def ShapesOk (kw : Kw BArr) (P : Pos BArr) (k : Kind) : Prop :=
  match P, k with
  | .polar r phi, .sph => SelOk r.raw.shape phi.shape (orZeroB kw.theta).shape
  | .polar r phi, .math => SelOk r.raw.shape phi.shape (orZeroB kw.phi).shape
  | .prolate mu nu _ delta, .prolate => condShapes mu nu delta (kw.delta.getD delta) = .ok ()
  | _, _ => True

theorem shapesOk_of_kind {kw : Kw BArr} {P : Pos BArr} {k : Kind} (h1 : P.kind ≠ .polar) (h2 : P.kind ≠ .prolate) :
    ShapesOk kw P k := by
  cases P <;> first | exact trivial | exact absurd rfl h1 | exact absurd rfl h2

/-! ### classes -/

/-- if the computation returns, it returns a vector of class `k` -/
def HasKindB (k : Kind) (x : Res (Pos BArr)) : Prop := ∀ q, x = .ok q → q.kind = k

theorem HasKindB.error {k : Kind} {e : Err} : HasKindB k (.error e) := fun _ h => by cases h
theorem HasKindB.bind {k : Kind} {β : Type} {x : Res β} {f : β → Res (Pos BArr)}
    (h : ∀ a, HasKindB k (f a)) : HasKindB k (x >>= f) := by
  intro q hq
  obtain ⟨a, _, h2⟩ := (bind_ok_iff _ _ _).mp hq
  exact h a q h2
theorem HasKindB.ok {P : Pos BArr} : HasKindB P.kind (.ok P) := fun _ h => by cases h; rfl

theorem hkB_radial (r : Dist BArr) : HasKindB .radial (mkRadialB r) := .bind fun _ => .ok (P := .radial _)
theorem hkB_polar (r : Dist BArr) (p : AzArg BArr) : HasKindB .polar (mkPolarB r p) :=
  .bind fun _ => .ok (P := .polar _ _)
theorem hkB_cyl (r : BArr) (p : AzArg BArr) (z : BArr) : HasKindB .cyl (mkCylB r p z) :=
  .bind fun _ => .ok (P := .cyl _ _ _)
theorem hkB_sph (r : Dist BArr) (t : BArr) (p : AzArg BArr) : HasKindB .sph (mkSphB r t p) :=
  .bind fun _ => .bind fun _ => .ok (P := .sph _ _ _)
theorem hkB_lonlat (r : Dist BArr) (t : BArr) (p : AzArg BArr) : HasKindB .lonlat (mkLonLatB p t r) :=
  .bind fun _ => .bind fun _ => .ok (P := .lonlat _ _ _)
theorem hkB_math (r : Dist BArr) (t : BArr) (p : AzArg BArr) : HasKindB .math (mkMathB r p t) :=
  .bind fun _ => .bind fun _ => .ok (P := .math _ _ _)
theorem hkB_prolate (m n : BArr) (p : AzArg BArr) (d : BArr) : HasKindB .prolate (mkProlateB m n p d) :=
  .bind fun _ => .bind fun _ => .bind fun _ => .bind fun _ => .bind fun _ => .bind fun _ =>
    .ok (P := .prolate _ _ _ _)

theorem hkB_cart3ToCyl (x y z : BArr) : HasKindB .cyl (cart3ToCylB x y z) :=
  .bind fun _ => .bind fun _ => .bind fun _ => .bind fun _ => hkB_cyl _ _ _
theorem hkB_cart3ToSph (x y z : BArr) : HasKindB .sph (cart3ToSphB x y z) :=
  .bind fun _ => .bind fun _ => .bind fun _ => .bind fun _ => .bind fun _ => .bind fun _ => .bind fun _ =>
    hkB_sph _ _ _
theorem hkB_cylToCart3 (x y z : BArr) : HasKindB .cart3 (cylToCart3B x y z) :=
  .bind fun _ => .bind fun _ => .ok (P := .cart3 _ _ _)
theorem hkB_cylToSph (x y z : BArr) : HasKindB .sph (cylToSphB x y z) :=
  .bind fun _ => .bind fun _ => .bind fun _ => .bind fun _ => hkB_sph _ _ _
theorem hkB_sphToCart3 (r : Dist BArr) (y z : BArr) : HasKindB .cart3 (sphToCart3B r y z) :=
  .bind fun _ => .bind fun _ => .bind fun _ => .bind fun _ => .bind fun _ => .bind fun _ => .ok (P := .cart3 _ _ _)
theorem hkB_sphToCyl (r : Dist BArr) (y z : BArr) : HasKindB .cyl (sphToCylB r y z) :=
  .bind fun _ => .bind fun _ => .bind fun _ => hkB_cyl _ _ _
theorem hkB_lonlatToSph (x y : BArr) (r : Dist BArr) : HasKindB .sph (lonlatToSphB x y r) :=
  .bind fun _ => hkB_sph _ _ _
theorem hkB_prolateToCyl (m n p d : BArr) : HasKindB .cyl (prolateToCylB m n p d) :=
  .bind fun _ => .bind fun _ => .bind fun _ => .bind fun _ => .bind fun _ => .bind fun _ => .bind fun _ =>
    hkB_cyl _ _ _
theorem hkB_polarToCart2 (r : Dist BArr) (p : BArr) : HasKindB .cart2 (polarToCart2B r p) :=
  .bind fun _ => .bind fun _ => .bind fun _ => .ok (P := .cart2 _ _)

/-- classes reached as an intermediate step -/
def Mid (k : Kind) : Prop := k = .sph ∨ k = .cart3 ∨ k = .cyl ∨ k = .cart2

theorem mathFromB_kind (r : Dist BArr) (t : AzArg BArr) (p : BArr) : HasKindB .math (mathFromB r t p) := by
  unfold mathFromB
  repeat' first | exact hkB_math _ _ _ | refine .bind fun _ => ?_
theorem sphFromB_kind (r : Dist BArr) (t : BArr) (p : AzArg BArr) : HasKindB .sph (sphFromB r t p) := by
  unfold sphFromB
  repeat' first | exact hkB_sph _ _ _ | refine .bind fun _ => ?_
theorem hkB_cylToProlate (x y z d : BArr) : HasKindB .prolate (cylToProlateB x y z d) := by
  unfold cylToProlateB
  repeat' first | exact hkB_prolate _ _ _ _ | refine .bind fun _ => ?_

theorem hkB_oneToSph (r : Dist BArr) (t p : BArr) : HasKindB .sph (oneToSphB r t p) :=
  .bind fun _ => sphFromB_kind _ _ _
theorem hkB_oneToMath (r : Dist BArr) (t p : BArr) : HasKindB .math (oneToMathB r t p) :=
  .bind fun _ => mathFromB_kind _ _ _
theorem hkB_cart2ToRadial (x y : BArr) : HasKindB .radial (cart2ToRadialB x y) :=
  .bind fun _ => .bind fun _ => .bind fun _ => hkB_radial _
theorem hkB_cart3ToRadial (x y z : BArr) : HasKindB .radial (cart3ToRadialB x y z) :=
  .bind fun _ => .bind fun _ => .bind fun _ => .bind fun _ => .bind fun _ => hkB_radial _
theorem hkB_cart2ToPolar (x y : BArr) : HasKindB .polar (cart2ToPolarB x y) :=
  .bind fun _ => .bind fun _ => .bind fun _ => .bind fun _ => hkB_polar _ _
theorem hkB_sphToLonLat (r : Dist BArr) (y z : BArr) : HasKindB .lonlat (sphToLonLatB r y z) :=
  .bind fun _ => hkB_lonlat _ _ _
theorem hkB_sphToCart1 (r : Dist BArr) (y z : BArr) : HasKindB .cart1 (sphToCart1B r y z) :=
  .bind fun _ => .bind fun _ => .bind fun _ => .ok (P := .cart1 _)
theorem hkB_sphToCart2 (r : Dist BArr) (y z : BArr) : HasKindB .cart2 (sphToCart2B r y z) :=
  .bind fun _ => .bind fun _ => .bind fun _ => .bind fun _ => .bind fun _ => .ok (P := .cart2 _ _)
theorem hkB_sphToPolar (r : Dist BArr) (y z : BArr) : HasKindB .polar (sphToPolarB r y z) :=
  .bind fun _ => hkB_polar _ _
theorem hkB_polarToCart1 (r : Dist BArr) (y : BArr) : HasKindB .cart1 (polarToCart1B r y) :=
  .bind fun _ => .bind fun _ => .ok (P := .cart1 _)

theorem representB_kind (n : ℕ) : ∀ (kw : Kw BArr) (p : Pos BArr) (k : Kind), HasKindB k (representB n kw p k) := by
  induction n with
  | zero => intro kw p k; exact HasKindB.error
  | succ n ih =>
    intro kw p k
    cases p <;> cases k <;> simp only [representB] <;>
      first
      | with_reducible exact HasKindB.error
      | exact fun _ h => by cases h; rfl
      | with_reducible exact HasKindB.bind fun _ => ih _ _ _
      | with_reducible exact hkB_radial _
      | with_reducible exact hkB_polar _ _
      | with_reducible exact hkB_cyl _ _ _
      | with_reducible exact hkB_sph _ _ _
      | with_reducible exact hkB_math _ _ _
      | with_reducible exact hkB_cart3ToCyl _ _ _
      | with_reducible exact hkB_cart3ToSph _ _ _
      | with_reducible exact hkB_cylToCart3 _ _ _
      | with_reducible exact hkB_cylToSph _ _ _
      | with_reducible exact hkB_sphToCart3 _ _ _
      | with_reducible exact hkB_sphToCyl _ _ _
      | with_reducible exact hkB_lonlatToSph _ _ _
      | with_reducible exact hkB_prolateToCyl _ _ _ _
      | with_reducible exact hkB_polarToCart2 _ _
      | with_reducible exact hkB_oneToSph _ _ _
      | with_reducible exact hkB_oneToMath _ _ _
      | with_reducible exact hkB_cart2ToRadial _ _
      | with_reducible exact hkB_cart3ToRadial _ _ _
      | with_reducible exact hkB_cart2ToPolar _ _
      | with_reducible exact hkB_sphToLonLat _ _ _
      | with_reducible exact hkB_sphToCart1 _ _ _
      | with_reducible exact hkB_sphToCart2 _ _ _
      | with_reducible exact hkB_sphToPolar _ _ _
      | with_reducible exact hkB_polarToCart1 _ _
      | with_reducible exact sphFromB_kind _ _ _
      | with_reducible exact mathFromB_kind _ _ _
      | with_reducible exact HasKindB.bind fun _ => sphFromB_kind _ _ _
      | with_reducible exact HasKindB.bind fun _ => mathFromB_kind _ _ _
      | with_reducible exact HasKindB.bind fun _ => hkB_radial _
      | with_reducible exact HasKindB.bind fun _ => hkB_polar _ _
      | with_reducible exact HasKindB.bind fun _ => hkB_cyl _ _ _
      | with_reducible exact HasKindB.bind fun _ => hkB_lonlat _ _ _
      | exact HasKindB.bind fun _ => fun _ h => by cases h; rfl
      | exact HasKindB.bind fun _ => .bind fun _ => fun _ h => by cases h; rfl
      | with_reducible exact HasKindB.bind fun _ => .bind fun _ => .bind fun _ => fun _ h => by cases h; rfl
      | with_reducible exact HasKindB.bind fun _ => .bind fun _ => .bind fun _ => .bind fun _ => .bind fun _ => fun _ h => by cases h; rfl
      | with_reducible exact HasKindB.bind fun _ => .bind fun _ => .bind fun _ => hkB_radial _
      | with_reducible exact HasKindB.bind fun _ => .bind fun _ => .bind fun _ => .bind fun _ => .bind fun _ => hkB_radial _
      | with_reducible exact HasKindB.bind fun _ => .bind fun _ => .bind fun _ => .bind fun _ => hkB_polar _ _
      | (split
         · exact HasKindB.error
         · first | exact hkB_cylToProlate _ _ _ _ | exact HasKindB.bind fun _ => ih _ _ _)
      | (split
         · exact HasKindB.bind fun _ => fun _ h => by cases h; rfl
         · exact HasKindB.bind fun _ => .bind fun _ => ih _ _ _)

/-! ### the main simulation -/

section
variable {T : Prop} {D : Set (List ℕ)} {S : List ℕ}

/-- keyword arrays broadcast to `S` and have values -/
def DefKw (D : Set (List ℕ)) (S : List ℕ) (kw : Kw BArr) : Prop := ∀ a ∈ kw.arrays, DefA D S a

theorem defKw_empty : DefKw D S {} := fun a ha => by simp [Kw.arrays] at ha

theorem DefKw.mono {D' : Set (List ℕ)} {kw : Kw BArr} (h : DefKw D S kw) (k : D' ⊆ D) : DefKw D' S kw :=
  fun a ha => (h a ha).mono k

theorem defA_zero : DefA D S (bnat 0) := ⟨broadcastsTo_nil S, fun _ _ => rfl⟩

theorem DefKw.orZero {kw : Kw BArr} (h : DefKw D S kw) {o : Option BArr} (ho : ∀ a ∈ o, a ∈ kw.arrays) :
    DefA D S (orZeroB o) := by
  cases o with
  | none => exact defA_zero
  | some a => exact h a (ho a rfl)

theorem orZeroB_elemD (o : Option BArr) (i : List ℕ) :
    (orZeroB o).elemD i = Verif.orZero (o.map fun a => Arr.elemD a i) := by cases o <;> rfl

theorem DefKw.y {kw : Kw BArr} (h : DefKw D S kw) : DefA D S (orZeroB kw.y) :=
  h.orZero fun a ha => by simp [Kw.arrays, Option.mem_toList.mpr ha]
theorem DefKw.z {kw : Kw BArr} (h : DefKw D S kw) : DefA D S (orZeroB kw.z) :=
  h.orZero fun a ha => by simp [Kw.arrays, Option.mem_toList.mpr ha]
theorem DefKw.theta {kw : Kw BArr} (h : DefKw D S kw) : DefA D S (orZeroB kw.theta) :=
  h.orZero fun a ha => by simp [Kw.arrays, Option.mem_toList.mpr ha]
theorem DefKw.phi {kw : Kw BArr} (h : DefKw D S kw) : DefA D S (orZeroB kw.phi) :=
  h.orZero fun a ha => by simp [Kw.arrays, Option.mem_toList.mpr ha]
theorem DefKw.delta {kw : Kw BArr} (h : DefKw D S kw) {dl : BArr} (hd : kw.delta = some dl) : DefA D S dl :=
  h dl (by simp [Kw.arrays, hd])

theorem defKw_z {a : BArr} (h : DefA D S a) : DefKw D S { z := some a } := fun b hb => by
  simp [Kw.arrays] at hb; rw [hb]; exact h
theorem defKw_delta {a : BArr} (h : DefA D S a) : DefKw D S { delta := some a } := fun b hb => by
  simp [Kw.arrays] at hb; rw [hb]; exact h

theorem Mid.shapes {m : Kind} (h : Mid m) {kw : Kw BArr} {Q : Pos BArr} {k : Kind} (hQ : Q.kind = m) :
    ShapesOk kw Q k := by
  refine shapesOk_of_kind ?_ ?_ <;> rw [hQ] <;> rcases h with rfl | rfl | rfl | rfl <;> simp

/-- what the induction on the recursion depth proves -/
def SimAt (n : ℕ) : Prop := ∀ (D : Set (List ℕ)) (S : List ℕ) (kw : Kw BArr) (P : Pos BArr) (k : Kind),
  (∀ i ∈ D, InB S i) → DefKw D S kw → DefP D S P →
  BSim (ShapesOk kw P k) D S (representB n kw P k) fun i => represent n (kw.elemD i) (P.elemD i) k

theorem two_step {n : ℕ} (ih : SimAt n) {kw1 kw2 : Kw BArr} {P : Pos BArr} {m k : Kind} (hm : Mid m)
    (hD : ∀ i ∈ D, InB S i) (h1 : DefKw D S kw1) (h2 : DefKw D S kw2) (hP : DefP D S P)
    (hs : ShapesOk kw1 P m) :
    BSim T D S (representB n kw1 P m >>= fun Q => representB n kw2 Q k) fun i =>
      represent n (kw1.elemD i) (P.elemD i) m >>= fun q => represent n (kw2.elemD i) q k :=
  ((ih D S kw1 P m hD h1 hP).comp (T' := True) (g := fun i q => represent n (kw2.elemD i) q k)
    fun Q D' hsub hdef hA => (ih D' S kw2 Q k (fun i hi => hD i (hsub hi)) (h2.mono hsub) hdef).weaken
      fun _ => hm.shapes (representB_kind n _ _ _ Q hA)).weaken fun _ => ⟨hs, trivial⟩

theorem BSim.errors {e e' : Err} : BSim T D S (.error e) fun _ => (.error e' : Res (Pos ℝ)) :=
  BSim.error fun _ _ _ h => by cases h

theorem asLengthB_err {R : Dist BArr} {f : BArr → Res (Pos BArr)} {g : List ℕ → ℝ → Res (Pos ℝ)}
    (h : ∀ a, R = .dist a → BSim T D S (f a) fun i => g i (a.elemD i)) :
    BSim T D S (R.asLengthB >>= f) fun i => (R.elemD i).asLength >>= g i := by
  rcases asLength_cases R with ⟨a, rfl⟩ | ⟨h1, h2⟩
  · exact h a rfl
  · rw [h1]
    exact BSim.error fun i _ q hq => by rw [h2 i] at hq; cases hq

end

end Verif
