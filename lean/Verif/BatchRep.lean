import Verif.BatchMain

/-! # `represent_as` on arrays acts element by element: all pairs of classes -/

namespace Verif

open List Spec

section
variable {T : Prop} {D : Set (List ℕ)} {S : List ℕ} {n : ℕ} {kw : Kw BArr}

theorem kwy (i : List ℕ) : Verif.orZero (kw.elemD i).y = (orZeroB kw.y).elemD i := (orZeroB_elemD _ _).symm
theorem kwz (i : List ℕ) : Verif.orZero (kw.elemD i).z = (orZeroB kw.z).elemD i := (orZeroB_elemD _ _).symm
theorem kwt (i : List ℕ) : Verif.orZero (kw.elemD i).theta = (orZeroB kw.theta).elemD i := (orZeroB_elemD _ _).symm
theorem kwp (i : List ℕ) : Verif.orZero (kw.elemD i).phi = (orZeroB kw.phi).elemD i := (orZeroB_elemD _ _).symm

theorem defP_cart1 {x : BArr} : DefP D S (.cart1 x) ↔ DefA D S x := by simp [DefP, Pos.arrays]
theorem defP_radial {r : Dist BArr} : DefP D S (.radial r) ↔ DefA D S r.raw := by simp [DefP, Pos.arrays]
theorem defP_cart2 {x y : BArr} : DefP D S (.cart2 x y) ↔ DefA D S x ∧ DefA D S y := by simp [DefP, Pos.arrays]
theorem defP_polar {r : Dist BArr} {y : BArr} : DefP D S (.polar r y) ↔ DefA D S r.raw ∧ DefA D S y := by
  simp [DefP, Pos.arrays]
theorem defP_twoSphere {x y : BArr} : DefP D S (.twoSphere x y) ↔ DefA D S x ∧ DefA D S y := by
  simp [DefP, Pos.arrays]
theorem defP_cart3 {x y z : BArr} : DefP D S (.cart3 x y z) ↔ DefA D S x ∧ DefA D S y ∧ DefA D S z := by
  simp [DefP, Pos.arrays]
theorem defP_cyl {x y z : BArr} : DefP D S (.cyl x y z) ↔ DefA D S x ∧ DefA D S y ∧ DefA D S z := by
  simp [DefP, Pos.arrays]
theorem defP_sph {r : Dist BArr} {y z : BArr} : DefP D S (.sph r y z) ↔ DefA D S r.raw ∧ DefA D S y ∧ DefA D S z := by
  simp [DefP, Pos.arrays]
theorem defP_math {r : Dist BArr} {y z : BArr} : DefP D S (.math r y z) ↔ DefA D S r.raw ∧ DefA D S y ∧ DefA D S z := by
  simp [DefP, Pos.arrays]
theorem defP_lonlat {r : Dist BArr} {y z : BArr} : DefP D S (.lonlat y z r) ↔ DefA D S y ∧ DefA D S z ∧ DefA D S r.raw := by
  simp [DefP, Pos.arrays]
theorem defP_prolate {x y z w : BArr} :
    DefP D S (.prolate x y z w) ↔ DefA D S x ∧ DefA D S y ∧ DefA D S z ∧ DefA D S w := by
  simp [DefP, Pos.arrays]

theorem sim_cart1 (ih : SimAt n) (hD : ∀ i ∈ D, InB S i) (hkw : DefKw D S kw) {x : BArr}
    (hP : DefP D S (.cart1 x)) (k : Kind) : BSim (ShapesOk kw (.cart1 x) k) D S (representB (n + 1) kw (.cart1 x) k)
      fun i => represent (n + 1) (kw.elemD i) ((Pos.cart1 x).elemD i) k := by
  have hx := defP_cart1.mp hP
  cases k <;> simp only [representB, represent, Pos.elemD, kwy, kwz, kwt, kwp] <;>
    first
    | exact BSim.errors
    | exact BSim.ret hP
    | exact mkRadialB_base hD (R := .dist x) hx
    | exact mkPolarB_base hD (R := .dist x) (Φ := .qty (orZeroB kw.phi)) hx hkw.phi
    | exact mkCylB_base hD (Φ := .qty (orZeroB kw.phi)) hx hkw.phi hkw.z
    | exact oneToSphB_sim hD (R := .dist x) hx hkw.theta hkw.phi
    | exact oneToMathB_sim hD (R := .dist x) hx hkw.theta hkw.phi
    | exact BSim.ret (Q := .cart2 x (orZeroB kw.y)) (defP_cart2.mpr ⟨hx, hkw.y⟩)
    | exact BSim.ret (Q := .cart3 x (orZeroB kw.y) (orZeroB kw.z)) (defP_cart3.mpr ⟨hx, hkw.y, hkw.z⟩)

theorem sim_radial (ih : SimAt n) (hD : ∀ i ∈ D, InB S i) (hkw : DefKw D S kw) {r : Dist BArr}
    (hP : DefP D S (.radial r)) (k : Kind) : BSim (ShapesOk kw (.radial r) k) D S (representB (n + 1) kw (.radial r) k)
      fun i => represent (n + 1) (kw.elemD i) ((Pos.radial r).elemD i) k := by
  have hx := defP_radial.mp hP
  cases k <;> simp only [representB, represent, Pos.elemD, kwy, kwz, kwt, kwp]
  case cart1 => exact radialToCart1B_sim hx
  case radial => exact BSim.ret hP
  case polar => exact mkPolarB_base hD (Φ := .qty (orZeroB kw.phi)) hx hkw.phi
  case sph => exact oneToSphB_sim hD hx hkw.theta hkw.phi
  case math => exact oneToMathB_sim hD hx hkw.theta hkw.phi
  case cart2 =>
    exact asLengthB_err (g := fun i a => mkCart2 a ((orZeroB kw.y).elemD i)) fun a ha => by
      subst ha; exact BSim.ret (Q := .cart2 a (orZeroB kw.y)) (defP_cart2.mpr ⟨hx, hkw.y⟩)
  case cart3 =>
    exact asLengthB_err (g := fun i a => mkCart3 a ((orZeroB kw.y).elemD i) ((orZeroB kw.z).elemD i)) fun a ha => by
      subst ha
      exact BSim.ret (Q := .cart3 a (orZeroB kw.y) (orZeroB kw.z)) (defP_cart3.mpr ⟨hx, hkw.y, hkw.z⟩)
  case cyl =>
    exact asLengthB_err (g := fun i a => mkCyl a (.qty ((orZeroB kw.phi).elemD i)) ((orZeroB kw.z).elemD i))
      fun a ha => by
        subst ha
        exact mkCylB_base hD (Φ := .qty (orZeroB kw.phi)) hx hkw.phi hkw.z
  all_goals exact BSim.errors

theorem sim_cart2 (ih : SimAt n) (hD : ∀ i ∈ D, InB S i) (hkw : DefKw D S kw) {x y : BArr}
    (hP : DefP D S (.cart2 x y)) (k : Kind) : BSim (ShapesOk kw (.cart2 x y) k) D S
      (representB (n + 1) kw (.cart2 x y) k)
      fun i => represent (n + 1) (kw.elemD i) ((Pos.cart2 x y).elemD i) k := by
  obtain ⟨hx, hy⟩ := defP_cart2.mp hP
  cases k <;> simp only [representB, represent, Pos.elemD, kwy, kwz, kwt, kwp]
  case cart1 => exact BSim.ret (Q := .cart1 x) (defP_cart1.mpr hx)
  case radial => exact cart2ToRadialB_sim hD hx hy
  case cart2 => exact BSim.ret hP
  case polar => exact cart2ToPolarB_sim hD hx hy
  case cart3 => exact BSim.ret (Q := .cart3 x y (orZeroB kw.z)) (defP_cart3.mpr ⟨hx, hy, hkw.z⟩)
  case twoSphere =>
    exact (two_step ih (.inr (.inr (.inr rfl))) hD defKw_empty defKw_empty hP trivial).congr fun i _ => rfl
  case cyl =>
    exact (two_step ih (.inr (.inl rfl)) hD (defKw_z hkw.z) defKw_empty hP trivial).congr fun i _ => rfl
  case sph =>
    exact (two_step ih (.inr (.inl rfl)) hD (defKw_z hkw.z) defKw_empty hP trivial).congr fun i _ => rfl
  case math =>
    exact (two_step ih (.inr (.inl rfl)) hD (defKw_z hkw.z) defKw_empty hP trivial).congr fun i _ => rfl
  all_goals exact BSim.errors

theorem sim_polar (ih : SimAt n) (hD : ∀ i ∈ D, InB S i) (hkw : DefKw D S kw) {r : Dist BArr} {y : BArr}
    (hP : DefP D S (.polar r y)) (k : Kind) : BSim (ShapesOk kw (.polar r y) k) D S
      (representB (n + 1) kw (.polar r y) k)
      fun i => represent (n + 1) (kw.elemD i) ((Pos.polar r y).elemD i) k := by
  obtain ⟨hx, hy⟩ := defP_polar.mp hP
  cases k <;> simp only [representB, represent, Pos.elemD, kwy, kwz, kwt, kwp]
  case cart1 => exact polarToCart1B_sim hx hy
  case radial => exact mkRadialB_base hD hx
  case cart2 => exact polarToCart2B_sim hx hy
  case polar => exact BSim.ret hP
  case cart3 =>
    exact (two_step ih (.inr (.inr (.inl rfl))) hD (defKw_z hkw.z) defKw_empty hP trivial).congr fun i _ => rfl
  case twoSphere =>
    exact (two_step ih (.inr (.inr (.inr rfl))) hD defKw_empty defKw_empty hP trivial).congr fun i _ => rfl
  case cyl =>
    exact asLengthB_err (g := fun i a => mkCyl a (.angle (y.elemD i)) ((orZeroB kw.z).elemD i))
      fun a ha => by
        subst ha
        exact mkCylB_base hD (Φ := .angle y) hx hy hkw.z
  case sph => exact sphFromB_sim hD (Φ := .angle y) hx hkw.theta hy
  case math => exact mathFromB_sim hD (Φ := .angle y) hx hkw.phi hy
  all_goals exact BSim.errors

theorem sim_twoSphere (ih : SimAt n) (hD : ∀ i ∈ D, InB S i) {x y : BArr}
    (hP : DefP D S (.twoSphere x y)) (k : Kind) : BSim (ShapesOk kw (.twoSphere x y) k) D S
      (representB (n + 1) kw (.twoSphere x y) k)
      fun i => represent (n + 1) (kw.elemD i) ((Pos.twoSphere x y).elemD i) k := by
  cases k <;> simp only [representB, represent, Pos.elemD]
  case cart2 =>
    exact (two_step ih (.inr (.inr (.inr rfl))) hD defKw_empty defKw_empty hP trivial).congr fun i _ => rfl
  case polar =>
    exact (two_step ih (.inr (.inr (.inr rfl))) hD defKw_empty defKw_empty hP trivial).congr fun i _ => rfl
  case twoSphere =>
    exact (two_step ih (.inr (.inr (.inr rfl))) hD defKw_empty defKw_empty hP trivial).congr fun i _ => rfl
  all_goals exact BSim.errors

theorem sim_cart3 (ih : SimAt n) (hD : ∀ i ∈ D, InB S i) (hkw : DefKw D S kw) {x y z : BArr}
    (hP : DefP D S (.cart3 x y z)) (k : Kind) : BSim (ShapesOk kw (.cart3 x y z) k) D S
      (representB (n + 1) kw (.cart3 x y z) k)
      fun i => represent (n + 1) (kw.elemD i) ((Pos.cart3 x y z).elemD i) k := by
  obtain ⟨hx, hy, hz⟩ := defP_cart3.mp hP
  cases k <;> simp only [representB, represent, Pos.elemD]
  case cart1 => exact BSim.ret (Q := .cart1 x) (defP_cart1.mpr hx)
  case radial => exact cart3ToRadialB_sim hD hx hy hz
  case cart2 => exact BSim.ret (Q := .cart2 x y) (defP_cart2.mpr ⟨hx, hy⟩)
  case polar =>
    exact (two_step ih (.inr (.inr (.inr rfl))) hD defKw_empty defKw_empty hP trivial).congr fun i _ => rfl
  case cart3 => exact BSim.ret hP
  case cyl => exact cart3ToCylB_sim hD hx hy hz
  case sph => exact cart3ToSphB_sim hD hx hy hz
  case lonlat => exact (two_step ih (.inl rfl) hD defKw_empty defKw_empty hP trivial).congr fun i _ => rfl
  case math => exact (two_step ih (.inl rfl) hD defKw_empty defKw_empty hP trivial).congr fun i _ => rfl
  case prolate =>
    rcases h : kw.delta with _ | dl
    · have : ∀ i, (kw.elemD i).delta = none := fun i => by simp [Kw.elemD, h]
      simp only [this]
      exact BSim.errors
    · have : ∀ i, (kw.elemD i).delta = some (dl.elemD i) := fun i => by simp [Kw.elemD, h]
      simp only [this]
      exact (two_step ih (.inr (.inr (.inl rfl))) hD defKw_empty (defKw_delta (hkw.delta h)) hP trivial).congr
        fun i _ => rfl
  all_goals exact BSim.errors

theorem sim_cyl (ih : SimAt n) (hD : ∀ i ∈ D, InB S i) (hkw : DefKw D S kw) {x y z : BArr}
    (hP : DefP D S (.cyl x y z)) (k : Kind) : BSim (ShapesOk kw (.cyl x y z) k) D S
      (representB (n + 1) kw (.cyl x y z) k)
      fun i => represent (n + 1) (kw.elemD i) ((Pos.cyl x y z).elemD i) k := by
  obtain ⟨hx, hy, hz⟩ := defP_cyl.mp hP
  cases k <;> simp only [representB, represent, Pos.elemD]
  case cart1 =>
    obtain ⟨a, ha, ea⟩ := hx.ef.mul hy.ef.cos
    exact .bindOk ha ((retCart1 ea).congr fun i _ => rfl)
  case radial => exact mkRadialB_base hD (R := .dist x) hx
  case cart2 =>
    obtain ⟨a, ha, ea⟩ := hx.ef.mul hy.ef.cos
    obtain ⟨b, hb, eb⟩ := hx.ef.mul hy.ef.sin
    exact .bindOk ha (.bindOk hb ((retCart2 ea eb).congr fun i _ => rfl))
  case polar => exact mkPolarB_base hD (R := .dist x) (Φ := .angle y) hx hy
  case cart3 => exact cylToCart3B_sim hx hy hz
  case cyl => exact BSim.ret hP
  case sph => exact cylToSphB_sim hD hx hy hz
  case lonlat => exact (two_step ih (.inl rfl) hD defKw_empty defKw_empty hP trivial).congr fun i _ => rfl
  case math => exact (two_step ih (.inl rfl) hD defKw_empty defKw_empty hP trivial).congr fun i _ => rfl
  case prolate =>
    rcases h : kw.delta with _ | dl
    · have : ∀ i, (kw.elemD i).delta = none := fun i => by simp [Kw.elemD, h]
      simp only [this]
      exact BSim.errors
    · have : ∀ i, (kw.elemD i).delta = some (dl.elemD i) := fun i => by simp [Kw.elemD, h]
      simp only [this]
      exact cylToProlateB_sim hD hx hy hz (hkw.delta h)
  all_goals exact BSim.errors

theorem sim_sph (ih : SimAt n) (hD : ∀ i ∈ D, InB S i) (hkw : DefKw D S kw) {r : Dist BArr} {y z : BArr}
    (hP : DefP D S (.sph r y z)) (k : Kind) : BSim (ShapesOk kw (.sph r y z) k) D S
      (representB (n + 1) kw (.sph r y z) k)
      fun i => represent (n + 1) (kw.elemD i) ((Pos.sph r y z).elemD i) k := by
  obtain ⟨hx, hy, hz⟩ := defP_sph.mp hP
  cases k <;> simp only [representB, represent, Pos.elemD]
  case cart1 => exact sphToCart1B_sim hx hy hz
  case radial => exact mkRadialB_base hD hx
  case cart2 => exact sphToCart2B_sim hx hy hz
  case polar => exact sphToPolarB_sim hD hx hy hz
  case cart3 => exact sphToCart3B_sim hx hy hz
  case cyl => exact sphToCylB_sim hD hx hy hz
  case sph => exact BSim.ret hP
  case lonlat => exact sphToLonLatB_sim hD hx hy hz
  case math => exact mkMathB_base hD (Φ := .angle z) hx hy hz
  case prolate =>
    rcases h : kw.delta with _ | dl
    · have : ∀ i, (kw.elemD i).delta = none := fun i => by simp [Kw.elemD, h]
      simp only [this]
      exact BSim.errors
    · have : ∀ i, (kw.elemD i).delta = some (dl.elemD i) := fun i => by simp [Kw.elemD, h]
      simp only [this]
      exact (two_step ih (.inr (.inr (.inl rfl))) hD defKw_empty (defKw_delta (hkw.delta h)) hP trivial).congr
        fun i _ => rfl
  all_goals exact BSim.errors

theorem sim_math (ih : SimAt n) (hD : ∀ i ∈ D, InB S i) (hkw : DefKw D S kw) {r : Dist BArr} {y z : BArr}
    (hP : DefP D S (.math r y z)) (k : Kind) : BSim (ShapesOk kw (.math r y z) k) D S
      (representB (n + 1) kw (.math r y z) k)
      fun i => represent (n + 1) (kw.elemD i) ((Pos.math r y z).elemD i) k := by
  obtain ⟨hx, hy, hz⟩ := defP_math.mp hP
  cases k <;> simp only [representB, represent, Pos.elemD]
  case cart1 => exact sphToCart1B_sim hx hz hy
  case radial => exact mkRadialB_base hD hx
  case cart2 => exact sphToCart2B_sim hx hz hy
  case polar => exact sphToPolarB_sim hD hx hz hy
  case cart3 => exact sphToCart3B_sim hx hz hy
  case cyl => exact sphToCylB_sim hD hx hz hy
  case sph => exact mkSphB_base hD (Φ := .angle y) hx hz hy
  case lonlat => exact (two_step ih (.inr (.inl rfl)) hD defKw_empty defKw_empty hP trivial).congr fun i _ => rfl
  case math => exact BSim.ret hP
  case prolate =>
    rcases h : kw.delta with _ | dl
    · have : ∀ i, (kw.elemD i).delta = none := fun i => by simp [Kw.elemD, h]
      simp only [this]
      exact BSim.errors
    · have : ∀ i, (kw.elemD i).delta = some (dl.elemD i) := fun i => by simp [Kw.elemD, h]
      simp only [this]
      exact (two_step ih (.inr (.inr (.inl rfl))) hD defKw_empty (defKw_delta (hkw.delta h)) hP trivial).congr
        fun i _ => rfl
  all_goals exact BSim.errors

theorem sim_lonlat (ih : SimAt n) (hD : ∀ i ∈ D, InB S i) (hkw : DefKw D S kw) {r : Dist BArr} {y z : BArr}
    (hP : DefP D S (.lonlat y z r)) (k : Kind) : BSim (ShapesOk kw (.lonlat y z r) k) D S
      (representB (n + 1) kw (.lonlat y z r) k)
      fun i => represent (n + 1) (kw.elemD i) ((Pos.lonlat y z r).elemD i) k := by
  obtain ⟨hy, hz, hx⟩ := defP_lonlat.mp hP
  cases k <;> simp only [representB, represent, Pos.elemD]
  case cart3 => exact (two_step ih (.inl rfl) hD defKw_empty defKw_empty hP trivial).congr fun i _ => rfl
  case cyl => exact (two_step ih (.inl rfl) hD defKw_empty defKw_empty hP trivial).congr fun i _ => rfl
  case sph => exact lonlatToSphB_sim hD hy hz hx
  case lonlat => exact BSim.ret hP
  case math => exact (two_step ih (.inr (.inl rfl)) hD defKw_empty defKw_empty hP trivial).congr fun i _ => rfl
  case prolate =>
    rcases h : kw.delta with _ | dl
    · have : ∀ i, (kw.elemD i).delta = none := fun i => by simp [Kw.elemD, h]
      simp only [this]
      exact BSim.errors
    · have : ∀ i, (kw.elemD i).delta = some (dl.elemD i) := fun i => by simp [Kw.elemD, h]
      simp only [this]
      exact (two_step ih (.inr (.inr (.inl rfl))) hD defKw_empty (defKw_delta (hkw.delta h)) hP trivial).congr
        fun i _ => rfl
  all_goals exact BSim.errors

theorem sim_prolate (ih : SimAt n) (hD : ∀ i ∈ D, InB S i) (hkw : DefKw D S kw) {x y z w : BArr}
    (hP : DefP D S (.prolate x y z w)) (k : Kind) : BSim (ShapesOk kw (.prolate x y z w) k) D S
      (representB (n + 1) kw (.prolate x y z w) k)
      fun i => represent (n + 1) (kw.elemD i) ((Pos.prolate x y z w).elemD i) k := by
  obtain ⟨hx, hy, hz, hw⟩ := defP_prolate.mp hP
  cases k <;> simp only [representB, represent, Pos.elemD]
  case cart1 => exact (two_step ih (.inr (.inl rfl)) hD defKw_empty defKw_empty hP trivial).congr fun i _ => rfl
  case radial => exact (two_step ih (.inr (.inl rfl)) hD defKw_empty defKw_empty hP trivial).congr fun i _ => rfl
  case cart2 => exact (two_step ih (.inr (.inl rfl)) hD defKw_empty defKw_empty hP trivial).congr fun i _ => rfl
  case polar => exact (two_step ih (.inr (.inl rfl)) hD defKw_empty defKw_empty hP trivial).congr fun i _ => rfl
  case twoSphere => exact (two_step ih (.inr (.inl rfl)) hD defKw_empty defKw_empty hP trivial).congr fun i _ => rfl
  case cart3 => exact (two_step ih (.inr (.inr (.inl rfl))) hD defKw_empty defKw_empty hP trivial).congr fun i _ => rfl
  case cyl => exact prolateToCylB_sim hD hx hy hz hw
  case sph => exact (two_step ih (.inr (.inr (.inl rfl))) hD defKw_empty defKw_empty hP trivial).congr fun i _ => rfl
  case lonlat =>
    exact (two_step ih (.inr (.inr (.inl rfl))) hD defKw_empty defKw_empty hP trivial).congr fun i _ => rfl
  case math => exact (two_step ih (.inr (.inr (.inl rfl))) hD defKw_empty defKw_empty hP trivial).congr fun i _ => rfl
  case prolate =>
    rcases h : kw.delta with _ | dl
    · have h1 : ∀ i, (kw.elemD i).delta = none := fun i => by simp [Kw.elemD, h]
      simp only [h1]
      rcases hc : condShapes x y w w with e | u
      · refine ⟨fun Q hQ => (by cases hQ), fun hT _ _ => ?_⟩
        simp only [ShapesOk, h, Option.getD, hc] at hT
        cases hT
      · exact BSim.ret hP
    · have h1 : ∀ i, (kw.elemD i).delta = some (dl.elemD i) := fun i => by simp [Kw.elemD, h]
      simp only [h1]
      rcases hc : condShapes x y w dl with e | u
      · refine ⟨fun Q hQ => (by cases hQ), fun hT _ _ => ?_⟩
        simp only [ShapesOk, h, Option.getD, hc] at hT
        cases hT
      · exact (two_step ih (.inr (.inr (.inl rfl))) hD defKw_empty (defKw_delta (hkw.delta h)) hP trivial).congr
          fun i _ => rfl

theorem simAt : ∀ n, SimAt n := by
  intro n
  induction n with
  | zero => intro D S kw P k _ _ _; exact BSim.errors
  | succ n ih =>
    intro D S kw P k hD hkw hP
    cases P with
    | cart1 x => exact sim_cart1 ih hD hkw hP k
    | radial r => exact sim_radial ih hD hkw hP k
    | cart2 x y => exact sim_cart2 ih hD hkw hP k
    | polar r y => exact sim_polar ih hD hkw hP k
    | twoSphere x y => exact sim_twoSphere ih hD hP k
    | cart3 x y z => exact sim_cart3 ih hD hkw hP k
    | cyl x y z => exact sim_cyl ih hD hkw hP k
    | sph r y z => exact sim_sph ih hD hkw hP k
    | lonlat y z r => exact sim_lonlat ih hD hkw hP k
    | math r y z => exact sim_math ih hD hkw hP k
    | prolate x y z w => exact sim_prolate ih hD hkw hP k

end

end Verif
