import Verif.BatchFour
import Verif.Props.BatchOpExact
import Verif.Props.FourVector

/-!
# C63: four-vectors whose components are arrays
-/

namespace Verif

open List Spec

namespace Spec

/-- time and position of the four-vector broadcast to `s` -/
def FourFits (s : List ℕ) (x : FourB) : Prop := Fits s x.q ∧ BroadcastsTo x.t.shape s

/-- the element of `Z` at `idx` is the result `r` of the scalar computation, if that is finite -/
def FourAgrees (idx : List ℕ) (Z : FourB) (r : Res Four) : Prop :=
  (∀ z, r = .ok z → fourAt idx Z = some z) ∧ ∀ e, r = .error e → e = .nonFinite

/-- the element of the array `Z` at `idx` is the result `r` of the scalar computation, if that is finite -/
def NumAgrees (idx : List ℕ) (Z : BArr) (r : Res ℝ) : Prop :=
  (∀ z, r = .ok z → at_ idx Z = some z) ∧ ∀ e, r = .error e → e = .nonFinite

/-- the shape of the position (including `Delta`) is `s` -/
def ShapeOf (q : Pos BArr) (s : List ℕ) : Prop := IsBroadcast ((compsOf q).map fun a => a.shape) s

end Spec

section
variable {s idx : List ℕ}

theorem fourAt_iff {x : FourB} {a : Four} :
    fourAt idx x = some a ↔ at_ idx x.t = some a.t ∧ posAt idx x.q = some a.q ∧ a.c = x.c := by
  unfold fourAt
  simp only [Option.bind_eq_some_iff, Option.pure_def, Option.bind_eq_bind, Option.some.injEq]
  constructor
  · rintro ⟨t, h1, q, h2, rfl⟩; exact ⟨h1, h2, rfl⟩
  · rintro ⟨h1, h2, h3⟩; exact ⟨_, h1, _, h2, by rw [← h3]⟩

theorem at_map2 {f : ℝ → ℝ → ℝ} {X Y Z : BArr} {x y : ℝ} (hX : BroadcastsTo X.shape s) (hY : BroadcastsTo Y.shape s)
    (hi : InB s idx) (hx : at_ idx X = some x) (hy : at_ idx Y = some y)
    (h : Arr.map2 (el2 fun a b => .ok (f a b)) X Y = .ok Z) : BroadcastsTo Z.shape s ∧ at_ idx Z = some (f x y) := by
  obtain ⟨Z', h1, h2, -, h3⟩ := Arr.map2_spec (f := el2 fun a b => .ok (f a b)) hX hY
  obtain rfl := Except.ok.inj (h.symm.trans h1)
  refine ⟨h2, ?_⟩
  rw [at_eq h2 hi, h3, ← at_eq hX hi, ← at_eq hY hi, hx, hy]
  rfl

theorem at_map1 {f : ℝ → Res ℝ} {X : BArr} {x v : ℝ} (hx : at_ idx X = some x) (hv : f x = .ok v) :
    at_ idx (X.map (el1 f)) = some v := by
  have hx' : X.get (bcSource X.shape idx) = some x := hx
  show el1 f (X.get (bcSource X.shape idx)) = _
  rw [hx']
  simp only [el1, hv]

theorem four_combine {t : BArr} {q : Pos BArr} {c v : ℝ} {Z : FourB} {r : Res (Pos ℝ)} (h : mkFourB t q c = .ok Z)
    (ht : BroadcastsTo t.shape s ∧ at_ idx t = some v) (hq : Fits s q ∧ Agrees idx q r) :
    FourFits s Z ∧ FourAgrees idx Z (do return ⟨v, ← r, c⟩) := by
  obtain rfl := mkFourB_eq h
  refine ⟨⟨hq.1, ht.1⟩, fun z hz => ?_, fun e he => ?_⟩
  · obtain ⟨p, h1, h2⟩ := (bind_ok_iff _ _ _).mp hz
    obtain rfl := Except.ok.inj h2
    exact fourAt_iff.mpr ⟨ht.2, hq.2.1 p h1, rfl⟩
  · cases r with
    | ok p => cases he
    | error e' => exact hq.2.2 e (by cases he; rfl)

/-- **C63 (arithmetic).** Sum, difference and negation of batches of four-vectors: at every index where the numbers are not
NaN, the result is the scalar result for the elements there. -/
theorem C63_arithmetic_elementwise (x y Z : FourB) (s idx : List ℕ) (hx : FourFits s x) (hy : FourFits s y) (hi : InB s idx)
    (a b : Four) (ha : fourAt idx x = some a) (hb : fourAt idx y = some b) :
    (x.add y = .ok Z → FourFits s Z ∧ FourAgrees idx Z (a.add b)) ∧
    (x.sub y = .ok Z → FourFits s Z ∧ FourAgrees idx Z (a.sub b)) ∧
    (x.neg = .ok Z → FourFits s Z ∧ FourAgrees idx Z a.neg) := by
  obtain ⟨a1, a2, a3⟩ := fourAt_iff.mp ha
  obtain ⟨b1, b2, -⟩ := fourAt_iff.mp hb
  refine ⟨fun h => ?_, fun h => ?_, fun h => ?_⟩
  · obtain ⟨t, ht, h⟩ := (bind_ok_iff _ _ _).mp h
    obtain ⟨q, hq, h⟩ := (bind_ok_iff _ _ _).mp h
    have := four_combine h (at_map2 hx.2 hy.2 hi a1 b1 ht) (binPosB_agrees isLax_add hx.1 hy.1 hi a2 b2 hq)
    rw [← a3] at this
    exact this
  · obtain ⟨t, ht, h⟩ := (bind_ok_iff _ _ _).mp h
    obtain ⟨q, hq, h⟩ := (bind_ok_iff _ _ _).mp h
    have := four_combine h (at_map2 hx.2 hy.2 hi a1 b1 ht) (binPosB_agrees isLax_sub hx.1 hy.1 hi a2 b2 hq)
    rw [← a3] at this
    exact this
  · obtain ⟨q, hq, h⟩ := (bind_ok_iff _ _ _).mp h
    have := four_combine h ⟨hx.2, at_map1 (f := fun v => .ok (-v)) a1 rfl⟩ (C58_neg_elementwise x.q q s idx hx.1 hi a.q a2 hq)
    rw [← a3] at this
    exact this

/-- **C63 (arithmetic, geometry).** For 3-D positions: time and space are added (subtracted, negated) separately at every
index, and the class of the left spatial part and its speed of light are kept. -/
theorem C63_arithmetic_points (x y Z : FourB) (s idx : List ℕ) (hx : FourFits s x) (hy : FourFits s y) (hi : InB s idx)
    (a b : Four) (ha : fourAt idx x = some a) (hb : fourAt idx y = some b) (va : Valid3 a.q) (vb : Valid3 b.q) :
    (x.add y = .ok Z → (∃ z, a.add b = .ok z) →
      ∃ z, fourAt idx Z = some z ∧ z.t = a.t + b.t ∧ point z.q = (point a.q).add (point b.q) ∧ z.q.kind = a.q.kind ∧ z.c = a.c) ∧
    (x.sub y = .ok Z → (∃ z, a.sub b = .ok z) →
      ∃ z, fourAt idx Z = some z ∧ z.t = a.t - b.t ∧ point z.q = (point a.q).sub (point b.q) ∧ z.q.kind = a.q.kind ∧ z.c = a.c) ∧
    (x.neg = .ok Z → (∃ z, a.neg = .ok z) →
      ∃ z, fourAt idx Z = some z ∧ z.t = -a.t ∧ point z.q = (point a.q).neg ∧ z.q.kind = a.q.kind ∧ z.c = a.c) := by
  obtain ⟨h1, h2, h3⟩ := C63_arithmetic_elementwise x y Z s idx hx hy hi a b ha hb
  refine ⟨fun h ⟨z, hz⟩ => ?_, fun h ⟨z, hz⟩ => ?_, fun h ⟨z, hz⟩ => ?_⟩
  · obtain ⟨e1, e2, e3, -, e4⟩ := (C42_arithmetic a b z va vb).1 hz
    exact ⟨z, (h1 h).2.1 z hz, e1, e2, e3, e4⟩
  · obtain ⟨e1, e2, e3, -, e4⟩ := (C42_arithmetic a b z va vb).2.1 hz
    exact ⟨z, (h2 h).2.1 z hz, e1, e2, e3, e4⟩
  · obtain ⟨e1, e2, e3, -, e4⟩ := (C42_arithmetic a b z va vb).2.2 hz
    exact ⟨z, (h3 h).2.1 z hz, e1, e2, e3, e4⟩

/-! ### shapes of sums -/

/-- all of the shapes broadcast to `u` -/
def AllLe (l : List BArr) (u : List ℕ) : Prop := ∀ a ∈ l, BroadcastsTo a.shape u

theorem Deps.le {l : List (List ℕ)} {a : BArr} (h : Deps l a) {u : List ℕ} :
    BroadcastsTo a.shape u ↔ ∀ t ∈ l, BroadcastsTo t u := isBroadcast_le h

theorem cart3ToSphB_le {x y z : BArr} {Q : Pos BArr} (h : cart3ToSphB x y z = .ok Q) :
    ∃ r theta phi, Q = .sph (.dist r) theta phi ∧ Deps [x.shape, y.shape, z.shape] r ∧
      Deps [x.shape, y.shape, z.shape] theta ∧ Deps [x.shape, y.shape] phi := by
  simp only [cart3ToSphB, mkSphB, bind_ok_iff] at h
  obtain ⟨a, h1, b, h2, c, h3, d, h4, e, h5, t, h6, p, h7, _, -, _, -, h⟩ := h
  obtain rfl := Except.ok.inj h
  have d1 := deps_map2 (deps_self x) (deps_self x) h1
  have d2 := deps_map2 (deps_self y) (deps_self y) h2
  have d3 := deps_map2 d1 d2 h3
  have d4 := deps_map2 (deps_self z) (deps_self z) h4
  have d5 : Deps [x.shape, y.shape, z.shape] (bsqrt e) :=
    (deps_congr (deps_map2 d3 d4 h5) (by simp) : Deps [x.shape, y.shape, z.shape] e)
  have d6 : Deps [x.shape, y.shape, z.shape] (bacos t) :=
    (deps_congr (deps_map2 (deps_self z) d5 h6) (by simp) : Deps [x.shape, y.shape, z.shape] t)
  have d7 : Deps [x.shape, y.shape] p := deps_congr (deps_map2 (deps_self y) (deps_self x) h7) (by simp; tauto)
  exact ⟨_, _, _, rfl, d5, d6, d7⟩

/-- converting a Cartesian vector to a class of its dimension keeps the overall shape -/
theorem back_le (n : ℕ) {C Q : Pos BArr} {k : Kind} (hc : C.kind.isCart = true) (hk : k.cartesian = C.kind)
    (h2 : k ≠ .twoSphere) (h : representB (n + 2) {} C k = .ok Q) (u : List ℕ) :
    AllLe (coordsOf Q) u ↔ AllLe (compsOf C) u := by
  unfold AllLe
  cases C <;> first | (cases hc; done) | skip
  all_goals cases k <;> first | (cases hk; done) | (exact absurd rfl h2) | skip
  all_goals rw [representB] at h
  case cart1.cart1 => obtain rfl := Except.ok.inj h; rfl
  case cart2.cart2 => obtain rfl := Except.ok.inj h; rfl
  case cart3.cart3 => obtain rfl := Except.ok.inj h; rfl
  case cart1.radial =>
    obtain ⟨_, -, h⟩ := (bind_ok_iff _ _ _).mp h
    obtain rfl := Except.ok.inj h; rfl
  case cart2.polar x y =>
    simp only [cart2ToPolarB, mkPolarB, bind_ok_iff] at h
    obtain ⟨a, h1, b, h3, e, h5, p, h7, _, -, h⟩ := h
    obtain rfl := Except.ok.inj h
    have d5 := deps_map2 (deps_map2 (deps_self x) (deps_self x) h1) (deps_map2 (deps_self y) (deps_self y) h3) h5
    have d7 := deps_map2 (deps_self y) (deps_self x) h7
    have e1 : BroadcastsTo (bsqrt e).shape u ↔ _ := d5.le
    have e2 : BroadcastsTo (AzArg.qty p).convertB.shape u ↔ _ := d7.le
    simp only [coordsOf, compsOf, mem_cons, not_mem_nil, or_false, forall_eq_or_imp, forall_eq, Dist.raw, e1, e2, cons_append,
      nil_append]
    tauto
  case cart3.cyl x y z =>
    simp only [cart3ToCylB, mkCylB, bind_ok_iff] at h
    obtain ⟨a, h1, b, h3, e, h5, p, h7, _, -, h⟩ := h
    obtain rfl := Except.ok.inj h
    have d5 := deps_map2 (deps_map2 (deps_self x) (deps_self x) h1) (deps_map2 (deps_self y) (deps_self y) h3) h5
    have d7 := deps_map2 (deps_self y) (deps_self x) h7
    have e1 : BroadcastsTo (bsqrt e).shape u ↔ _ := d5.le
    have e2 : BroadcastsTo (AzArg.qty p).convertB.shape u ↔ _ := d7.le
    simp only [coordsOf, compsOf, mem_cons, not_mem_nil, or_false, forall_eq_or_imp, forall_eq, e1, e2, cons_append,
      nil_append]
    tauto
  case cart3.sph x y z =>
    obtain ⟨r, t, p, rfl, d1, d2, d3⟩ := cart3ToSphB_le h
    simp only [coordsOf, compsOf, mem_cons, not_mem_nil, or_false, forall_eq_or_imp, forall_eq, Dist.raw, d1.le, d2.le, d3.le]
    tauto
  case cart3.lonlat x y z =>
    obtain ⟨S, hS, h⟩ := (bind_ok_iff _ _ _).mp h
    rw [representB] at hS
    obtain ⟨r, t, p, rfl, d1, d2, d3⟩ := cart3ToSphB_le hS
    rw [representB] at h
    simp only [sphToLonLatB, mkLonLatB, bind_ok_iff] at h
    obtain ⟨l, h1, _, -, _, -, h⟩ := h
    obtain rfl := Except.ok.inj h
    have d4 := deps_map2 (a := bhalfPi) (deps_scalar rfl) d2 h1
    have e3 : BroadcastsTo (AzArg.angle p).convertB.shape u ↔ _ := d3.le
    simp only [coordsOf, compsOf, mem_cons, not_mem_nil, or_false, forall_eq_or_imp, forall_eq, Dist.raw, d1.le, d4.le, e3,
      nil_append]
    tauto
  case cart3.math x y z =>
    obtain ⟨S, hS, h⟩ := (bind_ok_iff _ _ _).mp h
    rw [representB] at hS
    obtain ⟨r, t, p, rfl, d1, d2, d3⟩ := cart3ToSphB_le hS
    rw [representB] at h
    simp only [mkMathB, bind_ok_iff] at h
    obtain ⟨_, -, _, -, h⟩ := h
    obtain rfl := Except.ok.inj h
    have e3 : BroadcastsTo (AzArg.angle p).convertB.shape u ↔ _ := d3.le
    simp only [coordsOf, compsOf, mem_cons, not_mem_nil, or_false, forall_eq_or_imp, forall_eq, Dist.raw, d1.le, d2.le, e3]
    tauto
  case cart3.prolate x y z => cases h

theorem mapCart2B_le {g : BArr → BArr → Res BArr} {f : ℝ → ℝ → ℝ} (hg : IsLax g f) {C D M : Pos BArr}
    (h : mapCart2B g C D = .ok M) (u : List ℕ) :
    AllLe (compsOf M) u ↔ AllLe (compsOf C) u ∧ AllLe (compsOf D) u := by
  have one : ∀ {X Y Z}, g X Y = .ok Z → (BroadcastsTo Z.shape u ↔ BroadcastsTo X.shape u ∧ BroadcastsTo Y.shape u) :=
    fun {X Y Z} h => by
      have := isBroadcast_le (u := u) (bc2_iff.mp (lax_bc2 (laxMap2_shape ((hg X Y).symm.trans h))))
      simpa using this
  unfold AllLe
  cases C <;> cases D <;> simp only [mapCart2B, bind_ok_iff, reduceCtorEq] at h
  · obtain ⟨a, h1, h⟩ := h
    obtain rfl := Except.ok.inj h
    simp [compsOf, one h1]
  · obtain ⟨a, h1, b, h2, h⟩ := h
    obtain rfl := Except.ok.inj h
    simp [compsOf, one h1, one h2]; tauto
  · obtain ⟨a, h1, b, h2, c, h3, h⟩ := h
    obtain rfl := Except.ok.inj h
    simp [compsOf, one h1, one h2, one h3]; tauto

theorem mapCartB_le {C M : Pos BArr} (h : mapCartB (fun x => .ok (bneg x)) C = .ok M) (u : List ℕ) :
    AllLe (compsOf M) u ↔ AllLe (compsOf C) u := by
  unfold AllLe
  cases C <;> simp only [mapCartB, ok_bind, reduceCtorEq] at h <;> obtain rfl := Except.ok.inj h <;>
    simp only [compsOf, mem_cons, not_mem_nil, or_false, forall_eq_or_imp, forall_eq] <;> exact Iff.rfl

theorem coords_of_cart {C : Pos BArr} (h : C.kind.isCart = true) : coordsOf C = compsOf C := by
  cases C <;> first | (cases h; done) | rfl

theorem mapCart2B_kind' {g : BArr → BArr → Res BArr} {C D M : Pos BArr} (h : mapCart2B g C D = .ok M) :
    M.kind = C.kind ∧ C.kind.isCart = true := by
  cases C <;> cases D <;> simp only [mapCart2B, bind_ok_iff, reduceCtorEq] at h
  · obtain ⟨a, h1, h⟩ := h
    obtain rfl := Except.ok.inj h; exact ⟨rfl, rfl⟩
  · obtain ⟨a, h1, b, h2, h⟩ := h
    obtain rfl := Except.ok.inj h; exact ⟨rfl, rfl⟩
  · obtain ⟨a, h1, b, h2, c, h3, h⟩ := h
    obtain rfl := Except.ok.inj h; exact ⟨rfl, rfl⟩

theorem cartesian_of_isCart {k : Kind} (h : k.isCart = true) : k.cartesian = k := by
  cases k <;> first | (cases h; done) | rfl

/-- the sum or difference has the broadcast of the shapes of the operands -/
theorem binPosB_le {g : BArr → BArr → Res BArr} {f : ℝ → ℝ → ℝ} (hg : IsLax g f) {A B Q : Pos BArr}
    (hA : A.kind ≠ .twoSphere) (hB : B.kind ≠ .twoSphere) (hd : A.kind.dim = B.kind.dim) (h : binPosB g A B = .ok Q)
    (u : List ℕ) : AllLe (coordsOf Q) u ↔ AllLe (compsOf A) u ∧ AllLe (compsOf B) u := by
  have hBc : B.kind.cartesian = A.kind.cartesian := cartesian_of_dim hd.symm
  by_cases hk : A.kind.isCart = true
  · have h' : binCartB g A B = .ok Q := by
      revert h; cases A <;> first | (cases hk; done) | exact id
    obtain ⟨D, h1, h2⟩ := (bind_ok_iff _ _ _).mp h'
    obtain ⟨k1, k2⟩ := mapCart2B_kind' h2
    have e : representAsB {} B B.kind.cartesian = .ok D := by rw [hBc, cartesian_of_isCart hk]; exact h1
    rw [coords_of_cart (by rw [k1]; exact hk), mapCart2B_le hg h2]
    exact and_congr_right fun _ => cartShapes_all (C58_cartesian_shapes B D e hB) u
  · have h' : (representAsB {} A A.kind.cartesian >>= fun a => representAsB {} B A.kind.cartesian >>= fun b =>
        binCartB g a b >>= fun m => representAsB {} m A.kind) = .ok Q := by
      revert h; cases A <;> first | exact absurd rfl hk | exact id
    obtain ⟨C, hC, h3⟩ := (bind_ok_iff _ _ _).mp h'
    obtain ⟨D, hD, h4⟩ := (bind_ok_iff _ _ _).mp h3
    obtain ⟨M, hM, h5⟩ := (bind_ok_iff _ _ _).mp h4
    obtain ⟨D', h1, h2⟩ := (bind_ok_iff _ _ _).mp hM
    have kC : C.kind = A.kind.cartesian := representB_kind _ _ _ _ _ hC
    have kD : D.kind = A.kind.cartesian := representB_kind _ _ _ _ _ hD
    have : D' = D := by
      rw [kC, ← kD, representB_self (by rw [kD]; exact isCart_cartesian _)] at h1
      exact (Except.ok.inj h1).symm
    subst this
    obtain ⟨k1, k2⟩ := mapCart2B_kind' h2
    have e : representAsB {} B B.kind.cartesian = .ok D' := by rw [hBc]; exact hD
    have hb := back_le 198 (C := M) (Q := Q) (k := A.kind) (by rw [k1]; exact k2) (by rw [k1, kC]) hA h5 u
    rw [hb, mapCart2B_le hg h2]
    exact and_congr (cartShapes_all (C58_cartesian_shapes A C hC hA) u) (cartShapes_all (C58_cartesian_shapes B D' e hB) u)

/-- `-p` keeps the overall shape -/
theorem negPosB_le {A Q : Pos BArr} (hA : A.kind ≠ .twoSphere) (h : negPosB A = .ok Q) (u : List ℕ) :
    AllLe (coordsOf Q) u ↔ AllLe (compsOf A) u := by
  by_cases hk : A.kind.isCart = true
  · have h' : mapCartB (fun x => .ok (bneg x)) A = .ok Q := by
      revert h; cases A <;> first | (cases hk; done) | exact id
    have k1 : Q.kind.isCart = true := by
      cases A <;> simp only [mapCartB, ok_bind, reduceCtorEq] at h' <;> obtain rfl := Except.ok.inj h' <;> rfl
    rw [coords_of_cart k1]; exact mapCartB_le h' u
  · have h' : viaCartB (fun x => .ok (bneg x)) A = .ok Q := by
      revert h; cases A <;> first | exact absurd rfl hk | exact id
    obtain ⟨C, hC, h'⟩ := (bind_ok_iff _ _ _).mp h'
    obtain ⟨M, hM, h'⟩ := (bind_ok_iff _ _ _).mp h'
    have kC : C.kind = A.kind.cartesian := representB_kind _ _ _ _ _ hC
    have k1 : M.kind = C.kind := by
      cases C <;> simp only [mapCartB, ok_bind, reduceCtorEq] at hM <;> obtain rfl := Except.ok.inj hM <;> rfl
    have hb := back_le 198 (C := M) (Q := Q) (k := A.kind) (by rw [k1, kC]; exact isCart_cartesian _) (by rw [k1, kC]) hA h' u
    rw [hb, mapCartB_le hM]
    exact cartShapes_all (C58_cartesian_shapes A C hC hA) u

theorem coords_sub_comps (P : Pos BArr) : ∀ a ∈ coordsOf P, a ∈ compsOf P := by
  cases P <;> simp [coordsOf, compsOf]

/-- the time of an accepted four-vector broadcasts to everything its coordinates broadcast to -/
theorem Spec.TimeFits.le {t : BArr} {q : Pos BArr} (h : TimeFits t q) {u : List ℕ} (hu : AllLe (compsOf q) u) :
    BroadcastsTo t.shape u := by
  obtain ⟨s, h1, h2⟩ := h
  exact broadcastsTo_trans h2 (h1.2 u fun s hs => by
    obtain ⟨a, ha, rfl⟩ := mem_map.mp hs; exact hu a (coords_sub_comps q a ha))

/-- a time fits if it broadcasts to everything the coordinates broadcast to -/
theorem timeFits_of {t : BArr} {q : Pos BArr} {w : List ℕ} (hw : AllLe (coordsOf q) w)
    (h : ∀ u, AllLe (coordsOf q) u → BroadcastsTo t.shape u) : TimeFits t q := by
  obtain ⟨s, hs⟩ := broadcastShapes_total (shapes := (coordsOf q).map fun a => a.shape) (w := w) fun s hs => by
    obtain ⟨a, ha, rfl⟩ := mem_map.mp hs; exact hw a ha
  have hb := (broadcastShapes_iff _ _).mp hs
  exact ⟨s, hb, h s fun a ha => hb.1 _ (mem_map.mpr ⟨a, ha, rfl⟩)⟩

theorem dim3_ne {k : Kind} (h : k.dim = 3) : k ≠ .twoSphere := fun e => by rw [e] at h; cases h

theorem binFour_iff {g : BArr → BArr → Res BArr} {f : ℝ → ℝ → ℝ} (hg : IsLax g f) {tf : BArr → BArr → Res BArr}
    (htf : ∀ {a b c}, tf a b = .ok c → bc2 a.shape b.shape = .ok c.shape)
    (htt : ∀ {a b : BArr} {s : List ℕ}, BroadcastsTo a.shape s → BroadcastsTo b.shape s → ∃ c, tf a b = .ok c)
    {x y : FourB} (hx : FourFits s x) (hy : FourFits s y) (h0 : 0 ∉ s) (dx : x.q.kind.dim = 3)
    (dy : y.q.kind.dim = 3) (tx : TimeFits x.t x.q) (ty : TimeFits y.t y.q)
    (h : ∀ idx, InB s idx → ∃ a b q, posAt idx x.q = some a ∧ posAt idx y.q = some b ∧ binPos f a b = .ok q) :
    (∃ Z, (tf x.t y.t >>= fun t => binPosB g x.q y.q >>= fun q => mkFourB t q x.c) = .ok Z) ↔ Addable x.q y.q := by
  obtain ⟨C, D, h1, h2, h3⟩ := binPosB_returns_iff hg hx.1 hy.1 h0 h
  have key : Addable x.q y.q ↔ ∃ Q, binPosB g x.q y.q = .ok Q := by
    rw [h3]
    refine ⟨fun ⟨C', D', e1, e2, h⟩ => ?_, fun h => ⟨C, D, h1, h2, h⟩⟩
    rw [h1] at e1; rw [h2] at e2
    obtain rfl := Except.ok.inj e1
    obtain rfl := Except.ok.inj e2
    exact h
  rw [key]
  obtain ⟨T, hT⟩ := htt hx.2 hy.2
  constructor
  · rintro ⟨Z, hZ⟩
    rw [hT, ok_bind] at hZ
    obtain ⟨Q, hQ, -⟩ := (bind_ok_iff _ _ _).mp hZ
    exact ⟨Q, hQ⟩
  · rintro ⟨Q, hQ⟩
    have le := binPosB_le hg (dim3_ne dx) (dim3_ne dy) (dx.trans dy.symm) hQ
    rw [hT, ok_bind, hQ, ok_bind, timeFits_iff]
    refine timeFits_of (w := s) ((le s).mpr ⟨hx.1, hy.1⟩) fun u hu => ?_
    obtain ⟨h4, h5⟩ := (le u).mp hu
    exact (bc2_iff.mp (htf hT)).2 u (by simpa using ⟨tx.le h4, ty.le h5⟩)

/-- **C63 (arithmetic returns, exactly).** Let `x` and `y` be batches of four-vectors as the class accepts them (the time
broadcasts to the shape of the position), broadcasting to `s` (no empty axis), and let the scalar operation return at every
index. Then `x + y` and `x - y` return exactly when the positions can be combined component by component, and `-x` always
returns: the result always passes the shape check of the class. -/
theorem C63_arithmetic_returns_iff (x y : FourB) (s : List ℕ) (hx : FourFits s x) (hy : FourFits s y) (h0 : 0 ∉ s)
    (dx : x.q.kind.dim = 3) (dy : y.q.kind.dim = 3) (tx : TimeFits x.t x.q) (ty : TimeFits y.t y.q) :
    ((∀ idx, InB s idx → ∃ a b z, fourAt idx x = some a ∧ fourAt idx y = some b ∧ a.add b = .ok z) →
      ((∃ Z, x.add y = .ok Z) ↔ Addable x.q y.q)) ∧
    ((∀ idx, InB s idx → ∃ a b z, fourAt idx x = some a ∧ fourAt idx y = some b ∧ a.sub b = .ok z) →
      ((∃ Z, x.sub y = .ok Z) ↔ Addable x.q y.q)) ∧
    ((∀ idx, InB s idx → ∃ a z, fourAt idx x = some a ∧ a.neg = .ok z) → ∃ Z, x.neg = .ok Z) := by
  refine ⟨fun h => ?_, fun h => ?_, fun h => ?_⟩
  · refine binFour_iff isLax_add (tf := badd) (fun h => map2_bc h) (fun ha hb => ?_) hx hy h0 dx dy tx ty fun idx hi => ?_
    · obtain ⟨c, hc, -⟩ := Arr.map2_spec (f := el2 fun a b : ℝ => .ok (a + b)) ha hb; exact ⟨c, hc⟩
    · obtain ⟨a, b, z, h1, h2, h3⟩ := h idx hi
      obtain ⟨q, hq, -⟩ := (bind_ok_iff _ _ _).mp h3
      exact ⟨a.q, b.q, q, (fourAt_iff.mp h1).2.1, (fourAt_iff.mp h2).2.1, hq⟩
  · refine binFour_iff isLax_sub (tf := bsub) (fun h => map2_bc h) (fun ha hb => ?_) hx hy h0 dx dy tx ty fun idx hi => ?_
    · obtain ⟨c, hc, -⟩ := Arr.map2_spec (f := el2 fun a b : ℝ => .ok (a - b)) ha hb; exact ⟨c, hc⟩
    · obtain ⟨a, b, z, h1, h2, h3⟩ := h idx hi
      obtain ⟨q, hq, -⟩ := (bind_ok_iff _ _ _).mp h3
      exact ⟨a.q, b.q, q, (fourAt_iff.mp h1).2.1, (fourAt_iff.mp h2).2.1, hq⟩
  · obtain ⟨Q, hQ⟩ := C58_neg_returns x.q s hx.1 h0 fun idx hi => by
      obtain ⟨a, z, h1, h2⟩ := h idx hi
      obtain ⟨q, hq, -⟩ := (bind_ok_iff _ _ _).mp h2
      exact ⟨a.q, (fourAt_iff.mp h1).2.1, q, hq⟩
    have le := negPosB_le (dim3_ne dx) hQ
    unfold FourB.neg
    rw [hQ, ok_bind, timeFits_iff]
    exact timeFits_of (w := s) ((le s).mpr hx.1) fun u hu => (show BroadcastsTo x.t.shape u from tx.le ((le u).mp hu))

/-! ### norm -/

theorem ct_at {x : FourB} {a : Four} (h : fourAt idx x = some a) : at_ idx x.ct = some (a.c * a.t) := by
  obtain ⟨h1, -, h3⟩ := fourAt_iff.mp h
  rw [h3]
  exact at_map1 (f := fun t => .ok (x.c * t)) h1 rfl

theorem asLength_at {N : Dist BArr} {n : BArr} (h : N.asLengthB = .ok n) {d : Dist ℝ} (hd : distAt idx N = some d) :
    n.shape = N.raw.shape ∧ ∃ v, d = .dist v ∧ at_ idx n = some v := by
  cases N with
  | dist m =>
    obtain rfl := Except.ok.inj h
    obtain ⟨v, h1, h2⟩ := Option.map_eq_some_iff.mp (show (at_ idx m).map Dist.dist = some d from hd)
    exact ⟨rfl, v, h2.symm, h1⟩
  | par _ => cases h
  | dm _ => cases h

theorem norm2_at (x : FourB) (N2 : BArr) (hx : FourFits s x) (hi : InB s idx)
    (a : Four) (ha : fourAt idx x = some a) (h : x.norm2 = .ok N2) : BroadcastsTo N2.shape s ∧ NumAgrees idx N2 a.norm2 := by
  obtain ⟨a1, a2, a3⟩ := fourAt_iff.mp ha
  simp only [FourB.norm2, bind_ok_iff] at h
  obtain ⟨N, hN, n, hn, m, hm, w, hw, h⟩ := h
  obtain ⟨n1, n2, n3⟩ := C58_norm_elementwise x.q N s idx hx.1 hi a.q a2 hN
  have hns : n.shape = N.raw.shape := by
    cases N <;> first | (cases hn; done) | (obtain rfl := Except.ok.inj hn; rfl)
  have fn : BroadcastsTo n.shape s := by rw [hns]; exact n1
  have fct : BroadcastsTo x.ct.shape s := hx.2
  obtain ⟨w1, w2⟩ := at_map2 fct fct hi (ct_at ha) (ct_at ha) hw
  obtain ⟨m', e1, fm, -, -⟩ := Arr.map2_spec (f := el2 fun a b : ℝ => .ok (a * b)) fn fn
  obtain rfl := Except.ok.inj (hm.symm.trans e1)
  obtain ⟨z', e2, fz, -, -⟩ := Arr.map2_spec (f := el2 fun a b : ℝ => .ok (a + b)) (show BroadcastsTo (bneg m).shape s from fm) w1
  obtain rfl := Except.ok.inj (h.symm.trans e2)
  refine ⟨fz, fun z hz => ?_, fun e he => ?_⟩
  · simp only [Four.norm2, bind_ok_iff] at hz
    obtain ⟨d, hd, v, hv, hz⟩ := hz
    obtain rfl := Except.ok.inj hz
    obtain ⟨-, v', rfl, e3⟩ := asLength_at hn (n2 d hd)
    obtain rfl := Except.ok.inj hv
    obtain ⟨-, e4⟩ := at_map2 fn fn hi e3 e3 hm
    exact (at_map2 (f := (· + ·)) (show BroadcastsTo (bneg m).shape s from fm) w1 hi
      (at_map1 (f := fun v => .ok (-v)) e4 rfl) w2 h).2
  · rcases hd : Verif.norm a.q with e' | d
    · simp only [Four.norm2, hd, error_bind] at he
      cases he; exact n3 _ hd
    · obtain ⟨-, v', rfl, e3⟩ := asLength_at hn (n2 d hd)
      simp only [Four.norm2, hd, ok_bind, Dist.asLength] at he
      cases he

/-- **C63 (norm).** The squared norm and the two parts of the norm of a batch of four-vectors are, at every index where the
numbers are not NaN, those of the element there. -/
theorem C63_norm_elementwise (x : FourB) (N2 re im : BArr) (s idx : List ℕ) (hx : FourFits s x) (hi : InB s idx)
    (a : Four) (ha : fourAt idx x = some a) :
    (x.norm2 = .ok N2 → BroadcastsTo N2.shape s ∧ NumAgrees idx N2 a.norm2) ∧
    (x.norm = .ok (re, im) → BroadcastsTo re.shape s ∧ BroadcastsTo im.shape s ∧
      (∀ u v, a.norm = .ok (u, v) → at_ idx re = some u ∧ at_ idx im = some v) ∧
      ∀ e, a.norm = .error e → e = .nonFinite) := by
  refine ⟨norm2_at x N2 hx hi a ha, fun h => ?_⟩
  obtain ⟨n2, h1, h2⟩ := (bind_ok_iff _ _ _).mp h
  obtain ⟨e1, e2⟩ := Prod.mk.inj (Except.ok.inj h2)
  subst e1; subst e2
  obtain ⟨f, g1, g2⟩ := norm2_at x n2 hx hi a ha h1
  refine ⟨f, f, fun u v huv => ?_, fun e he => ?_⟩
  · obtain ⟨z, hz, h3⟩ := (bind_ok_iff _ _ _).mp huv
    have h4 := Except.ok.inj h3
    have hz' := g1 z hz
    by_cases hn : z < 0
    · rw [if_pos hn] at h4
      obtain ⟨rfl, rfl⟩ := Prod.mk.inj h4
      exact ⟨at_map1 hz' (by rw [if_pos hn]), at_map1 hz' (by rw [if_pos hn])⟩
    · rw [if_neg hn] at h4
      obtain ⟨rfl, rfl⟩ := Prod.mk.inj h4
      exact ⟨at_map1 hz' (by rw [if_neg hn]), at_map1 hz' (by rw [if_neg hn])⟩
  · rcases hd : a.norm2 with e' | d
    · simp only [Four.norm, hd, error_bind] at he
      cases he; exact g2 _ hd
    · simp only [Four.norm, hd, ok_bind] at he
      cases he

/-- **C63 (norm returns).** If the norm of every element returns, so does the norm of the (non-empty) batch. -/
theorem C63_norm_returns (x : FourB) (s : List ℕ) (hx : FourFits s x) (h0 : 0 ∉ s)
    (h : ∀ idx, InB s idx → ∃ a z, fourAt idx x = some a ∧ a.norm = .ok z) : ∃ re im, x.norm = .ok (re, im) := by
  obtain ⟨N, hN⟩ := C58_norm_returns x.q s hx.1 h0 fun idx hi => by
    obtain ⟨a, z, h1, h2⟩ := h idx hi
    obtain ⟨n, h3, -⟩ := (bind_ok_iff _ _ _).mp h2
    obtain ⟨d, h4, -⟩ := (bind_ok_iff _ _ _).mp h3
    exact ⟨a.q, (fourAt_iff.mp h1).2.1, d, h4⟩
  have hF : Full {i | InB s i} s := ⟨rfl, h0⟩
  obtain ⟨i, hi⟩ := hF.nonempty
  obtain ⟨a, z, h1, h2⟩ := h i hi
  obtain ⟨n, h3, -⟩ := (bind_ok_iff _ _ _).mp h2
  obtain ⟨d, h4, h5⟩ := (bind_ok_iff _ _ _).mp h3
  obtain ⟨fN, n2, -⟩ := C58_norm_elementwise x.q N s i hx.1 hi a.q (fourAt_iff.mp h1).2.1 hN
  obtain ⟨v, hv, -⟩ := (bind_ok_iff _ _ _).mp h5
  have hd := n2 d h4
  obtain ⟨m, rfl⟩ : ∃ m, N = .dist m := by
    cases N with
    | dist m => exact ⟨m, rfl⟩
    | par m =>
      obtain ⟨w, -, e⟩ := Option.map_eq_some_iff.mp (show (at_ i m).map Dist.par = some d from hd)
      subst e
      cases hv
    | dm m =>
      obtain ⟨w, -, e⟩ := Option.map_eq_some_iff.mp (show (at_ i m).map Dist.dm = some d from hd)
      subst e
      cases hv
  have fct : BroadcastsTo x.ct.shape s := hx.2
  obtain ⟨p, e1, fp, -, -⟩ := Arr.map2_spec (f := el2 fun a b : ℝ => .ok (a * b)) fN fN
  obtain ⟨w, e2, fw, -, -⟩ := Arr.map2_spec (f := el2 fun a b : ℝ => .ok (a * b)) fct fct
  obtain ⟨y, e3, -, -, -⟩ := Arr.map2_spec (f := el2 fun a b : ℝ => .ok (a + b)) (show BroadcastsTo (bneg p).shape s from fp) fw
  have key : x.norm2 = .ok y := by
    unfold FourB.norm2
    rw [hN, ok_bind]
    show (bmul m m >>= _) = _
    rw [show bmul m m = .ok p from e1, ok_bind, show bmul x.ct x.ct = .ok w from e2, ok_bind]
    exact e3
  exact ⟨_, _, by unfold FourB.norm; rw [key, ok_bind]; rfl⟩

/-! ### conversion to and from a `Quantity` -/

theorem concatLast_snoc {a b : BArr} {s t : List ℕ} {m n : ℕ} (ha : a.shape = s ++ [m]) (hb : b.shape = t ++ [n]) (Z : BArr) :
    concatLast a b = .ok Z ↔ s = t ∧ Z = ⟨s ++ [m + n], fun idx =>
      if idx.getLastD 0 < m then a.get idx else b.get (idx.dropLast ++ [idx.getLastD 0 - m])⟩ := by
  unfold concatLast
  rw [ha, hb]
  simp only [length_append, length_cons, length_nil, dropLast_concat, getLastD_concat]
  by_cases h : s = t
  · subst h
    simp [eq_comm]
  · rw [if_neg (by rintro ⟨-, e⟩; exact h e)]
    simp [h]

/-- **C63 (conversion to a Quantity returns, exactly).** For batches of valid 3-D positions broadcasting to `s` (no empty axis),
`convert(x, Quantity)` returns exactly when the time has the shape of the position: a time that only broadcasts to it, which the
class accepts, makes the conversion raise (`jnp.concat` does not broadcast). -/
theorem C63_to_quantity_returns_iff (x : FourB) (s sq : List ℕ) (hx : FourFits s x) (h0 : 0 ∉ s) (dx : x.q.kind.dim = 3)
    (hq : ShapeOf x.q sq) (hv : Everywhere s x.q fun _ p => Valid p) :
    (∃ Z, x.toQuantity = .ok Z) ↔ x.t.shape = sq := by
  obtain ⟨c, hc⟩ := toQuantityB_returns hx.1 h0 (dim3_ne dx) hv
  have ec := toQuantityB_fit (dim3_ne dx) hq hc
  unfold FourB.toQuantity
  rw [hc, ok_bind]
  constructor
  · rintro ⟨Z, hZ⟩
    exact ((concatLast_snoc (s := x.t.shape) (m := 1) rfl ec Z).mp hZ).1
  · intro h
    exact ⟨_, (concatLast_snoc (s := x.t.shape) (m := 1) rfl ec _).mpr ⟨h, rfl⟩⟩

/-- **C63 (conversion to a Quantity).** The result has the batch shape and a last axis of length 4; at every index where the
numbers are not NaN and the position is valid its entries are `c t, x, y, z` of the element there. -/
theorem C63_to_quantity_elementwise (x : FourB) (Z : BArr) (s idx : List ℕ) (hx : FourFits s x) (hi : InB s idx)
    (dx : x.q.kind.dim = 3) (a : Four) (ha : fourAt idx x = some a) (hv : Valid a.q) (h : x.toQuantity = .ok Z) :
    Z.shape = x.t.shape ++ [4] ∧ at_ (idx ++ [0]) Z = some (a.c * a.t) ∧ at_ (idx ++ [1]) Z = some (point a.q).x ∧
      at_ (idx ++ [2]) Z = some (point a.q).y ∧ at_ (idx ++ [3]) Z = some (point a.q).z := by
  obtain ⟨a1, a2, a3⟩ := fourAt_iff.mp ha
  obtain ⟨c, hc, h⟩ := (bind_ok_iff _ _ _).mp h
  obtain ⟨C, hC, hc⟩ := (bind_ok_iff _ _ _).mp hc
  obtain ⟨l, hl, hc⟩ := (bind_ok_iff _ _ _).mp hc
  obtain ⟨u, hu, hc⟩ := (bind_ok_iff _ _ _).mp hc
  obtain rfl := Except.ok.inj hc
  have ka : a.q.kind = x.q.kind := by rw [← (defP_at hx.1 hi a2).1, elemD_kind]
  obtain ⟨l', g1, g2, g3, g4⟩ := cartArrays_at hx.1 hi a2 hv (by rw [ka]; exact dim3_ne dx) hC
  obtain rfl := Except.ok.inj (hl.symm.trans g1)
  rw [ka, dx] at g3 g4
  have bl := (broadcastShapes_iff _ _).mp hu
  have fu : BroadcastsTo u s := bl.2 s (by simpa using g2)
  have hc2 : (stackB u (l.map fun a => a.broadcastTo u)).shape = u ++ [3] := by simp [stackB, g3]
  obtain ⟨e1, rfl⟩ := (concatLast_snoc (s := x.t.shape) (m := 1) rfl hc2 Z).mp h
  have hlen : x.t.shape.length ≤ idx.length := by rw [inB_length hi]; exact broadcastsTo_length hx.2
  refine ⟨rfl, ?_, ?_⟩
  · have := ct_at ha
    unfold at_ at this ⊢
    show ite _ _ _ = _
    rw [show (x.t.shape ++ [1 + 3]) = x.t.shape ++ [4] from rfl, bcSource_snoc hlen (by omega), getLastD_concat, if_pos (by omega)]
    simp only [newLast, dropLast_concat]
    exact this
  · have key : ∀ k v, k < 3 → (firstCoords 3 (point a.q))[k]? = some v → at_ (idx ++ [k + 1])
        (⟨x.t.shape ++ [1 + 3], fun i => if i.getLastD 0 < 1 then (newLast x.ct).get i else
          (stackB u (l.map fun a => a.broadcastTo u)).get (i.dropLast ++ [i.getLastD 0 - 1])⟩ : BArr) = some v := by
      intro k v hk hv
      obtain ⟨A, hA⟩ : ∃ A, l[k]? = some A := ⟨_, getElem?_eq_getElem (by rw [g3]; exact hk)⟩
      obtain ⟨w, p1, p2⟩ := g4 k A hA
      obtain rfl := Option.some.inj (p1.symm.trans hv)
      unfold at_
      show ite _ _ _ = _
      rw [show (x.t.shape ++ [1 + 3]) = x.t.shape ++ [4] from rfl, bcSource_snoc hlen (by omega), getLastD_concat,
        if_neg (by omega), dropLast_concat, Nat.add_sub_cancel, stackB_get hA, e1,
        elem_bcSource (bl.1 _ (mem_map.mpr ⟨A, mem_of_getElem? hA, rfl⟩)) fu hi]
      exact p2
    exact ⟨key 0 _ (by omega) rfl, key 1 _ (by omega) rfl, key 2 _ (by omega) rfl⟩

theorem getLastD_four {l : List ℕ} : l.getLastD 0 = 4 ↔ ∃ s, l = s ++ [4] := by
  rcases eq_nil_or_concat' l with rfl | ⟨m, k, rfl⟩
  · simp
  · rw [getLastD_concat]
    constructor
    · rintro rfl; exact ⟨m, rfl⟩
    · rintro ⟨s, h⟩; exact (append_inj' h rfl).2 |> fun h => by cases h; rfl

/-- **C63 (construction from a Quantity).** `FourVector.from_(obj)` returns exactly when the last axis of `obj` has length 4. The
result has the remaining axes as shape and the default speed of light; at every index the time is the first entry divided by `c`
and the position holds the other three entries. -/
theorem C63_from_quantity (obj : BArr) :
    ((∃ x, FourB.from_ obj = .ok x) ↔ ∃ s, obj.shape = s ++ [4]) ∧
    ∀ x s, obj.shape = s ++ [4] → FourB.from_ obj = .ok x → x.t.shape = s ∧ ShapeOf x.q s ∧ x.c = lightSpeed ∧
      ∀ idx ct a b d, InB s idx → at_ (idx ++ [0]) obj = some ct → at_ (idx ++ [1]) obj = some a →
        at_ (idx ++ [2]) obj = some b → at_ (idx ++ [3]) obj = some d →
        fourAt idx x = some ⟨ct / lightSpeed, .cart3 a b d, lightSpeed⟩ := by
  have hsh : ∀ s, obj.shape = s ++ [4] → ∀ k, (sliceLast k obj).shape = s := fun s hs k => by
    show obj.shape.dropLast = s
    rw [hs, dropLast_concat]
  have hB : ∀ s, IsBroadcast [s, s, s] s := fun s =>
    ⟨by simp [broadcastsTo_refl], fun u hu => hu s (by simp)⟩
  constructor
  · unfold FourB.from_
    by_cases h : obj.shape.getLastD 0 = 4
    · rw [if_pos h, timeFits_iff]
      obtain ⟨s, hs⟩ := getLastD_four.mp h
      refine ⟨fun _ => ⟨s, hs⟩, fun _ => ⟨s, ?_, ?_⟩⟩
      · simp only [coordsOf, compsOf, map_cons, map_nil, hsh s hs]
        exact hB s
      · show BroadcastsTo (sliceLast 0 obj).shape s
        rw [hsh s hs]; exact broadcastsTo_refl s
    · rw [if_neg h]
      exact ⟨fun ⟨x, hx⟩ => (by cases hx), fun hs => absurd (getLastD_four.mpr hs) h⟩
  · intro x s hs hx
    unfold FourB.from_ at hx
    rw [if_pos (getLastD_four.mpr ⟨s, hs⟩)] at hx
    obtain rfl := mkFourB_eq hx
    refine ⟨hsh s hs 0, ?_, rfl, fun idx ct a b d hi h0 h1 h2 h3 => ?_⟩
    · simp only [ShapeOf, compsOf, map_cons, map_nil, hsh s hs]
      exact hB s
    have key : ∀ k v, k < 4 → at_ (idx ++ [k]) obj = some v → at_ idx (sliceLast k obj) = some v := fun k v hk h => by
      unfold at_ at h ⊢
      rw [hs, bcSource_snoc (by rw [inB_length hi]) hk] at h
      rw [hsh s hs]
      exact h
    refine fourAt_iff.mpr ⟨?_, ?_, rfl⟩
    · exact at_map1 (key 0 _ (by omega) h0) (div_real_ok lightSpeed_pos.ne')
    · simp only [posAt, key 1 _ (by omega) h1, key 2 _ (by omega) h2, key 3 _ (by omega) h3]
      rfl

/-- **C63 (round trip).** A Quantity with last axis of length 4, turned into a four-vector and back, is unchanged at every index
(NaN entries included). -/
theorem C63_roundtrip (obj : BArr) (s : List ℕ) (hs : obj.shape = s ++ [4]) :
    ∃ x Z, FourB.from_ obj = .ok x ∧ x.toQuantity = .ok Z ∧ Z.shape = obj.shape ∧
      ∀ idx, InB obj.shape idx → at_ idx Z = at_ idx obj := by
  obtain ⟨x, hx⟩ := (C63_from_quantity obj).1.mpr ⟨s, hs⟩
  have hsh : ∀ k, (sliceLast k obj).shape = s := fun k => by
    show obj.shape.dropLast = s
    rw [hs, dropLast_concat]
  have ex : x = ⟨(sliceLast 0 obj).map (el1 fun v => Num.div v lightSpeed),
      .cart3 (sliceLast 1 obj) (sliceLast 2 obj) (sliceLast 3 obj), lightSpeed⟩ := by
    have hx' := hx
    unfold FourB.from_ at hx'
    rw [if_pos (getLastD_four.mpr ⟨s, hs⟩)] at hx'
    exact mkFourB_eq hx'
  have hq : toQuantityB x.q = .ok (stackB s ([sliceLast 1 obj, sliceLast 2 obj, sliceLast 3 obj].map fun a => a.broadcastTo s)) := by
    rw [ex]
    show (toCartesianB _ >>= fun C => C.cartArrays >>= stackFull) = _
    unfold toCartesianB
    rw [show (Pos.cart3 (sliceLast 1 obj) (sliceLast 2 obj) (sliceLast 3 obj)).kind.cartesian =
      (Pos.cart3 (sliceLast 1 obj) (sliceLast 2 obj) (sliceLast 3 obj)).kind from rfl, representB_self rfl, ok_bind]
    show stackFull [_, _, _] = _
    unfold stackFull
    rw [broadcast_const (s := s) (by simp) (by simp [hsh]), ok_bind]
    rfl
  have et : (newLast x.ct).shape = s ++ [1] := by
    show x.t.shape ++ [1] = _
    rw [ex]
    show (sliceLast 0 obj).shape ++ [1] = _
    rw [hsh]
  refine ⟨x, _, hx, by unfold FourB.toQuantity; rw [hq, ok_bind]; exact (concatLast_snoc (n := 3) et rfl _).mpr ⟨rfl, rfl⟩,
    by rw [hs], fun idx hi => ?_⟩
  rw [hs] at hi
  obtain ⟨i, k, rfl⟩ : ∃ i k, idx = i ++ [k] := by
    rcases eq_nil_or_concat' idx with rfl | ⟨i, k, rfl⟩
    · have := inB_length hi
      simp at this
    · exact ⟨i, k, rfl⟩
  obtain ⟨hi', hk⟩ := inB_snoc.mp hi
  unfold at_
  rw [hs, bcSource_self hi]
  simp only [getLastD_concat, dropLast_concat]
  have key : ∀ j, (sliceLast j obj).elem i = obj.get (i ++ [j]) := fun j => by
    have f : BroadcastsTo (sliceLast j obj).shape s := by rw [hsh]; exact broadcastsTo_refl s
    rw [(Arr.elem_get f hi').1, hsh, bcSource_self hi']
    rfl
  by_cases h : k < 1
  · rw [if_pos h]
    obtain rfl : k = 0 := by omega
    rw [ex]
    simp only [newLast, dropLast_concat, FourB.ct, Arr.map, sliceLast]
    rcases e : obj.get (i ++ [0]) with _ | v
    · rfl
    · simp only [el1, div_real_ok lightSpeed_pos.ne']
      rw [mul_div_cancel₀ _ lightSpeed_pos.ne']
  · rw [if_neg h]
    match k, h, hk with
    | 1, _, _ => exact (stackB_get (l := [_, _, _]) (k := 0) rfl).trans (key 1)
    | 2, _, _ => exact (stackB_get (l := [_, _, _]) (k := 1) rfl).trans (key 2)
    | 3, _, _ => exact (stackB_get (l := [_, _, _]) (k := 2) rfl).trans (key 3)

end

/-! ### witnesses -/

/-- a batch of four-vectors `(t, 3, 0, 4)`: the position has shape `(2,)`, the time shape `st` -/
noncomputable def exFour (st : List ℕ) : FourB :=
  ⟨⟨st, fun _ => some 1⟩, .cart3 ⟨[2], fun _ => some 3⟩ ⟨[2], fun _ => some 0⟩ ⟨[2], fun _ => some 4⟩, lightSpeed⟩

theorem exFour_at (st idx : List ℕ) : fourAt idx (exFour st) = some ⟨1, .cart3 3 0 4, lightSpeed⟩ := rfl

theorem exFour_shape (st : List ℕ) : ShapeOf (exFour st).q [2] := by
  simp only [ShapeOf, exFour, compsOf, map_cons, map_nil]
  exact ⟨by simp [broadcastsTo_refl], fun u hu => hu [2] (by simp)⟩

theorem exFour_fits {st : List ℕ} (h : BroadcastsTo st [2]) : FourFits [2] (exFour st) := by
  refine ⟨?_, h⟩
  simp [Fits, exFour, compsOf, broadcastsTo_refl]

/-- both a single time and one time per position are accepted by the class, but only the latter can be converted -/
example : TimeFits (exFour []).t (exFour []).q ∧ ¬ (∃ Z, (exFour []).toQuantity = .ok Z) ∧ ∃ Z, (exFour [2]).toQuantity = .ok Z := by
  have v : ∀ st, Everywhere [2] (exFour st).q fun _ p => Valid p := fun st idx _ => ⟨.cart3 3 0 4, rfl, trivial⟩
  refine ⟨⟨[2], exFour_shape [], broadcastsTo_nil _⟩, ?_, ?_⟩
  · rw [C63_to_quantity_returns_iff _ [2] [2] (exFour_fits (broadcastsTo_nil _)) (by simp) rfl (exFour_shape _) (v _)]
    simp [exFour]
  · rw [C63_to_quantity_returns_iff _ [2] [2] (exFour_fits (broadcastsTo_refl _)) (by simp) rfl (exFour_shape _) (v _)]
    rfl

/-- the sum of a batch with a single time and a batch with one time per position -/
example : ∃ Z, (exFour []).add (exFour [2]) = .ok Z ∧ ∀ idx, InB [2] idx →
    ∃ z, fourAt idx Z = some z ∧ z.t = 2 ∧ point z.q = ⟨6, 0, 8⟩ := by
  have f1 := exFour_fits (broadcastsTo_nil [2])
  have f2 := exFour_fits (broadcastsTo_refl [2])
  have va : Valid3 (.cart3 3 0 4) := ⟨trivial, rfl⟩
  have tot : ∃ z, Four.add ⟨1, .cart3 3 0 4, lightSpeed⟩ ⟨1, .cart3 3 0 4, lightSpeed⟩ = .ok z := by
    have e : representAs {} (.cart3 (3 : ℝ) 0 4) .cart3 = .ok (.cart3 3 0 4) := by
      have : represent (199 + 1) {} (.cart3 (3 : ℝ) 0 4) .cart3 = .ok (.cart3 3 0 4) := by rw [represent]
      exact this
    have : addPos (.cart3 (3 : ℝ) 0 4) (.cart3 3 0 4) = .ok (.cart3 (3 + 3) (0 + 0) (4 + 4)) := by
      show binPos (· + ·) _ _ = _
      rw [binPos_cart rfl]
      unfold binCart
      rw [show (Pos.cart3 (3 : ℝ) 0 4).kind = .cart3 from rfl, e]
      rfl
    exact ⟨_, by unfold Four.add; rw [this]; rfl⟩
  have e : ∀ st, representAsB {} (exFour st).q .cart3 = .ok (exFour st).q := fun st => representB_self rfl
  obtain ⟨Z, hZ⟩ := ((C63_arithmetic_returns_iff (exFour []) (exFour [2]) [2] f1 f2 (by simp) rfl rfl
    ⟨[2], exFour_shape [], broadcastsTo_nil _⟩ ⟨[2], exFour_shape [2], broadcastsTo_refl _⟩).1
    fun idx _ => by
      obtain ⟨z, hz⟩ := tot
      exact ⟨_, _, z, exFour_at [] idx, exFour_at [2] idx, hz⟩).mpr
      ⟨_, _, e [], e [2], by
        simp only [exFour]
        exact .cons (.inr (.inr ⟨rfl, [2], broadcastsTo_refl _, broadcastsTo_refl _⟩)) (.cons (.inr (.inr ⟨rfl, [2], broadcastsTo_refl _, broadcastsTo_refl _⟩))
          (.cons (.inr (.inr ⟨rfl, [2], broadcastsTo_refl _, broadcastsTo_refl _⟩)) .nil))⟩
  refine ⟨Z, hZ, fun idx hi => ?_⟩
  obtain ⟨z, h1, h2, h3, -⟩ := (C63_arithmetic_points _ _ Z [2] idx f1 f2 hi _ _ (exFour_at [] idx) (exFour_at [2] idx) va va).1 hZ tot
  refine ⟨z, h1, by rw [h2]; norm_num, ?_⟩
  rw [h3]
  simp only [point, V3.add]
  norm_num

end Verif
