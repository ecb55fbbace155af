import Verif.BatchLemmas

/-! # Constructors and conversion rules act element by element -/

namespace Verif

open List Spec

/-- value of an element, 0 for NaN -/
noncomputable def Arr.elemD (a : BArr) (i : List ℕ) : ℝ := (a.elem i).getD 0

/-- the same for distances -/
noncomputable def Dist.elemD (i : List ℕ) : Dist BArr → Dist ℝ
  | .dist a => .dist (a.elemD i)
  | .par a => .par (a.elemD i)
  | .dm a => .dm (a.elemD i)

/-- azimuth argument of one element -/
def AzArg.elem (i : List ℕ) : AzArg BArr → Option (AzArg ℝ)
  | .qty a => (Arr.elem a i).map .qty
  | .angle a => (Arr.elem a i).map .angle

/-- the same, 0 for NaN -/
noncomputable def AzArg.elemD (i : List ℕ) : AzArg BArr → AzArg ℝ
  | .qty a => .qty (Arr.elemD a i)
  | .angle a => .angle (Arr.elemD a i)

/-- the array of an azimuth argument -/
def AzArg.arr : AzArg BArr → BArr
  | .qty a => a
  | .angle a => a

/-- the arrays of a vector -/
def Pos.arrays : Pos BArr → List BArr
  | .cart1 x => [x]
  | .radial r => [r.raw]
  | .cart2 x y => [x, y]
  | .polar r phi => [r.raw, phi]
  | .twoSphere theta phi => [theta, phi]
  | .cart3 x y z => [x, y, z]
  | .cyl rho phi z => [rho, phi, z]
  | .sph r theta phi => [r.raw, theta, phi]
  | .lonlat lon lat distance => [lon, lat, distance.raw]
  | .math r theta phi => [r.raw, theta, phi]
  | .prolate mu nu phi delta => [mu, nu, phi, delta]

/-- one element of a vector; `none` if one of its components is NaN -/
def Pos.elem (i : List ℕ) : Pos BArr → Option (Pos ℝ)
  | .cart1 x => do return .cart1 (← x.elem i)
  | .radial r => do return .radial (← r.elem i)
  | .cart2 x y => do return .cart2 (← x.elem i) (← y.elem i)
  | .polar r phi => do return .polar (← r.elem i) (← phi.elem i)
  | .twoSphere theta phi => do return .twoSphere (← theta.elem i) (← phi.elem i)
  | .cart3 x y z => do return .cart3 (← x.elem i) (← y.elem i) (← z.elem i)
  | .cyl rho phi z => do return .cyl (← rho.elem i) (← phi.elem i) (← z.elem i)
  | .sph r theta phi => do return .sph (← r.elem i) (← theta.elem i) (← phi.elem i)
  | .lonlat lon lat distance => do return .lonlat (← lon.elem i) (← lat.elem i) (← distance.elem i)
  | .math r theta phi => do return .math (← r.elem i) (← theta.elem i) (← phi.elem i)
  | .prolate mu nu phi delta =>
    do return .prolate (← mu.elem i) (← nu.elem i) (← phi.elem i) (← delta.elem i)

/-- the same with 0 for NaN -/
noncomputable def Pos.elemD (i : List ℕ) : Pos BArr → Pos ℝ
  | .cart1 x => .cart1 (x.elemD i)
  | .radial r => .radial (r.elemD i)
  | .cart2 x y => .cart2 (x.elemD i) (y.elemD i)
  | .polar r phi => .polar (r.elemD i) (phi.elemD i)
  | .twoSphere theta phi => .twoSphere (theta.elemD i) (phi.elemD i)
  | .cart3 x y z => .cart3 (x.elemD i) (y.elemD i) (z.elemD i)
  | .cyl rho phi z => .cyl (rho.elemD i) (phi.elemD i) (z.elemD i)
  | .sph r theta phi => .sph (r.elemD i) (theta.elemD i) (phi.elemD i)
  | .lonlat lon lat distance => .lonlat (lon.elemD i) (lat.elemD i) (distance.elemD i)
  | .math r theta phi => .math (r.elemD i) (theta.elemD i) (phi.elemD i)
  | .prolate mu nu phi delta => .prolate (mu.elemD i) (nu.elemD i) (phi.elemD i) (delta.elemD i)

/-- every array of the vector broadcasts to `S` -/
def FitsP (S : List ℕ) (P : Pos BArr) : Prop := ∀ a ∈ P.arrays, BroadcastsTo a.shape S

/-- broadcasts to `S` and has a value at every index considered -/
structure DefA (D : Set (List ℕ)) (S : List ℕ) (X : BArr) : Prop where
  fits : BroadcastsTo X.shape S
  val : ∀ i ∈ D, X.elem i = some (X.elemD i)

/-- the same for a vector -/
def DefP (D : Set (List ℕ)) (S : List ℕ) (P : Pos BArr) : Prop := ∀ a ∈ P.arrays, DefA D S a

/-- azimuth argument and family -/
structure AF (D : Set (List ℕ)) (S : List ℕ) (X : AzArg BArr) (x : List ℕ → Res (AzArg ℝ)) : Prop where
  fits : BroadcastsTo X.arr.shape S
  val : ∀ i ∈ D, ∀ v, x i = .ok v → X.elem i = some v
  err : ∀ i ∈ D, ∀ e, x i = .error e → e = .nonFinite

/-- a call on arrays and the calls on its elements: if the first returns, each element of the result is
the result of the second, or that is NaN; under `T`, if all of the second return, so does the first. -/
structure BSim (T : Prop) (D : Set (List ℕ)) (S : List ℕ) (A : Res (Pos BArr)) (s : List ℕ → Res (Pos ℝ)) :
    Prop where
  ok : ∀ Q, A = .ok Q → FitsP S Q ∧ ∀ i ∈ D, (∀ q, s i = .ok q → Q.elem i = some q) ∧
    ∀ e, s i = .error e → e = .nonFinite
  total : T → Full D S → (∀ i ∈ D, ∃ q, s i = .ok q) → ∃ Q, A = .ok Q

section
variable {T : Prop} {D : Set (List ℕ)} {S : List ℕ} {X Y Z W : BArr} {x y z w : List ℕ → Res ℝ}
  {R : Dist BArr} {r : List ℕ → Res (Dist ℝ)} {Φ : AzArg BArr} {φ : List ℕ → Res (AzArg ℝ)}
  {A : Res (Pos BArr)} {s t : List ℕ → Res (Pos ℝ)}

theorem Full.nonempty (h : Full D S) : ∃ i, i ∈ D := by
  obtain ⟨i, hi, _⟩ := exists_source_rev (s := []) (t := S) (j := []) trivial h.2 .nil
  exact ⟨i, by rw [h.1]; exact hi⟩

theorem DefA.ef (h : DefA D S X) : EF D S X fun i => .ok (X.elemD i) :=
  ⟨h.fits, fun i hi v hv => by rw [h.val i hi, Except.ok.inj hv], fun _ _ _ hh => by cases hh⟩

theorem DefA.mono {D' : Set (List ℕ)} (h : DefA D S X) (k : D' ⊆ D) : DefA D' S X :=
  ⟨h.fits, fun i hi => h.val i (k hi)⟩

theorem DefP.mono {D' : Set (List ℕ)} {P : Pos BArr} (h : DefP D S P) (k : D' ⊆ D) : DefP D' S P :=
  fun a ha => (h a ha).mono k

theorem DefA.of_elem (h : BroadcastsTo X.shape S) (k : ∀ i ∈ D, ∃ v, X.elem i = some v) : DefA D S X :=
  ⟨h, fun i hi => by obtain ⟨v, hv⟩ := k i hi; simp [Arr.elemD, hv]⟩

theorem elemD_of_elem {i : List ℕ} {v : ℝ} (h : X.elem i = some v) : X.elemD i = v := by simp [Arr.elemD, h]

theorem Dist.elem_some {i : List ℕ} {d : Dist ℝ} (h : R.elem i = some d) :
    R.raw.elem i = some d.raw ∧ R.elemD i = d := by
  cases R <;> simp only [Dist.elem, Option.map_eq_some_iff] at h <;> obtain ⟨v, hv, rfl⟩ := h <;>
    exact ⟨hv, by simp [Dist.elemD, Arr.elemD, hv]⟩

theorem Dist.elem_of_def {i : List ℕ} (h : R.raw.elem i = some (R.raw.elemD i)) : R.elem i = some (R.elemD i) := by
  cases R <;> simp_all [Dist.elem, Dist.elemD, Dist.raw]

theorem AzArg.elem_some {i : List ℕ} {d : AzArg ℝ} (h : Φ.elem i = some d) :
    (∃ v, Φ.arr.elem i = some v) ∧ Φ.elemD i = d := by
  cases Φ <;> simp only [AzArg.elem, Option.map_eq_some_iff] at h <;> obtain ⟨v, hv, rfl⟩ := h <;>
    exact ⟨⟨v, hv⟩, by simp [AzArg.elemD, Arr.elemD, hv]⟩

theorem DefA.df (h : DefA D S R.raw) : DF D S R fun i => .ok (R.elemD i) :=
  ⟨h.fits, fun i hi v hv => by rw [← Except.ok.inj hv]; exact Dist.elem_of_def (h.val i hi),
   fun _ _ _ hh => by cases hh⟩

theorem EF.qty (h : EF D S X x) : AF D S (.qty X) fun i => (do return .qty (← x i)) := by
  refine ⟨h.fits, fun i hi v hv => ?_, fun i hi e he => ?_⟩
  · obtain ⟨w, hw, hv⟩ := (bind_ok_iff _ _ _).mp hv
    rw [← Except.ok.inj hv]; simp [AzArg.elem, h.val i hi w hw]
  · rcases hx : x i with e' | w
    · rw [hx] at he; exact Except.error.inj he ▸ h.err i hi e' hx
    · rw [hx] at he; cases he

theorem EF.angle (h : EF D S X x) : AF D S (.angle X) fun i => (do return .angle (← x i)) := by
  refine ⟨h.fits, fun i hi v hv => ?_, fun i hi e he => ?_⟩
  · obtain ⟨w, hw, hv⟩ := (bind_ok_iff _ _ _).mp hv
    rw [← Except.ok.inj hv]; simp [AzArg.elem, h.val i hi w hw]
  · rcases hx : x i with e' | w
    · rw [hx] at he; exact Except.error.inj he ▸ h.err i hi e' hx
    · rw [hx] at he; cases he

theorem EF.dist (h : EF D S X x) : DF D S (.dist X) fun i => (do return .dist (← x i)) := by
  refine ⟨h.fits, fun i hi v hv => ?_, fun i hi e he => ?_⟩
  · obtain ⟨w, hw, hv⟩ := (bind_ok_iff _ _ _).mp hv
    rw [← Except.ok.inj hv]; simp [Dist.elem, h.val i hi w hw]
  · rcases hx : x i with e' | w
    · rw [hx] at he; exact Except.error.inj he ▸ h.err i hi e' hx
    · rw [hx] at he; cases he

theorem BSim.congr (h : BSim T D S A s) (e : ∀ i ∈ D, s i = t i) : BSim T D S A t :=
  ⟨fun Q hQ => ⟨(h.ok Q hQ).1, fun i hi => by rw [← e i hi]; exact (h.ok Q hQ).2 i hi⟩,
   fun hT hF ht => h.total hT hF fun i hi => by rw [e i hi]; exact ht i hi⟩

theorem BSim.weaken {T' : Prop} (h : BSim T D S A s) (k : T' → T) : BSim T' D S A s :=
  ⟨h.ok, fun hT => h.total (k hT)⟩

theorem BSim.error {e : Err} (h : ∀ i ∈ D, ∀ q, s i ≠ .ok q) : BSim T D S (.error e) s := by
  refine ⟨fun Q hQ => (by cases hQ), fun _ hF hs => ?_⟩
  obtain ⟨i, hi⟩ := hF.nonempty
  obtain ⟨q, hq⟩ := hs i hi
  exact absurd hq (h i hi q)

theorem BSim.restrict (P : List ℕ → Prop) (h : ∀ i ∈ D, ¬ P i → s i = .error .nonFinite)
    (k : BSim T {i | i ∈ D ∧ P i} S A s) : BSim T D S A s := by
  refine ⟨fun Q hQ => ⟨(k.ok Q hQ).1, fun i hi => ?_⟩, fun hT hF hs => ?_⟩
  · by_cases hp : P i
    · exact (k.ok Q hQ).2 i ⟨hi, hp⟩
    · rw [h i hi hp]
      exact ⟨fun q hq => (by cases hq), fun e he => (Except.error.inj he).symm⟩
  · have hD : {i | i ∈ D ∧ P i} = D := by
      ext i
      refine ⟨fun hi => hi.1, fun hi => ⟨hi, ?_⟩⟩
      by_contra hp
      obtain ⟨q, hq⟩ := hs i hi
      rw [h i hi hp] at hq
      cases hq
    rw [hD] at k
    exact k.total hT hF hs

theorem BSim.check {C : Res Unit} {c : List ℕ → Res Unit} (h : CF D S C c) (k : BSim T D S A s) :
    BSim T D S (C >>= fun _ => A) fun i => c i >>= fun _ => s i := by
  refine ⟨fun Q hQ => ?_, fun hT hF hs => ?_⟩
  · obtain ⟨⟨⟩, hC, hA⟩ := (bind_ok_iff _ _ _).mp hQ
    refine ⟨(k.ok Q hA).1, fun i hi => ⟨fun q hq => ?_, fun e he => ?_⟩⟩
    · obtain ⟨_, _, hq⟩ := (bind_ok_iff _ _ _).mp hq
      exact ((k.ok Q hA).2 i hi).1 q hq
    · rcases hc : c i with e' | u
      · rw [hc] at he; exact Except.error.inj he ▸ h.ok hC i hi e' hc
      · rw [hc] at he; exact ((k.ok Q hA).2 i hi).2 e he
  · have h1 : C = .ok () := h.total hF fun i hi => by
      obtain ⟨q, hq⟩ := hs i hi
      obtain ⟨⟨⟩, hc, _⟩ := (bind_ok_iff _ _ _).mp hq
      exact hc
    obtain ⟨Q, hQ⟩ := k.total hT hF fun i hi => by
      obtain ⟨q, hq⟩ := hs i hi
      obtain ⟨_, _, hq⟩ := (bind_ok_iff _ _ _).mp hq
      exact ⟨q, hq⟩
    exact ⟨Q, by rw [h1, hQ]; rfl⟩

theorem Pos.elem_of_def {P : Pos BArr} {i : List ℕ} (h : ∀ a ∈ P.arrays, a.elem i = some (a.elemD i)) :
    P.elem i = some (P.elemD i) := by
  cases P <;> simp only [Pos.arrays, mem_cons, forall_eq_or_imp, not_mem_nil, false_imp_iff, implies_true,
      and_true] at h <;> simp [Pos.elem, Pos.elemD, h, Dist.elem_of_def]

theorem Pos.elem_some {P : Pos BArr} {i : List ℕ} {q : Pos ℝ} (h : P.elem i = some q) :
    P.elemD i = q ∧ ∀ a ∈ P.arrays, a.elem i = some (a.elemD i) := by
  cases P <;> simp only [Pos.elem, Option.bind_eq_bind, Option.bind_eq_some_iff, Option.pure_def,
      Option.some.injEq] at h <;> simp only [Pos.elemD, Pos.arrays, mem_cons, forall_eq_or_imp, not_mem_nil,
      false_imp_iff, implies_true, and_true]
  case cart1 => obtain ⟨a, ha, rfl⟩ := h; simp [Arr.elemD, ha]
  case radial =>
    obtain ⟨a, ha, rfl⟩ := h; have := Dist.elem_some ha; simp [this, Arr.elemD]
  case cart2 => obtain ⟨a, ha, b, hb, rfl⟩ := h; simp [Arr.elemD, ha, hb]
  case polar =>
    obtain ⟨a, ha, b, hb, rfl⟩ := h; have := Dist.elem_some ha; simp [this, Arr.elemD, hb]
  case twoSphere => obtain ⟨a, ha, b, hb, rfl⟩ := h; simp [Arr.elemD, ha, hb]
  case cart3 => obtain ⟨a, ha, b, hb, c, hc, rfl⟩ := h; simp [Arr.elemD, ha, hb, hc]
  case cyl => obtain ⟨a, ha, b, hb, c, hc, rfl⟩ := h; simp [Arr.elemD, ha, hb, hc]
  case sph =>
    obtain ⟨a, ha, b, hb, c, hc, rfl⟩ := h; have := Dist.elem_some ha; simp [this, Arr.elemD, hb, hc]
  case lonlat =>
    obtain ⟨a, ha, b, hb, c, hc, rfl⟩ := h; have := Dist.elem_some hc; simp [this, Arr.elemD, ha, hb]
  case math =>
    obtain ⟨a, ha, b, hb, c, hc, rfl⟩ := h; have := Dist.elem_some ha; simp [this, Arr.elemD, hb, hc]
  case prolate =>
    obtain ⟨a, ha, b, hb, c, hc, d, hd, rfl⟩ := h; simp [Arr.elemD, ha, hb, hc, hd]

theorem BSim.ret {Q : Pos BArr} (h : DefP D S Q) : BSim T D S (.ok Q) fun i => .ok (Q.elemD i) := by
  refine ⟨fun Q' hQ => ?_, fun _ _ _ => ⟨Q, rfl⟩⟩
  obtain rfl := Except.ok.inj hQ
  refine ⟨fun a ha => (h a ha).fits, fun i hi => ⟨fun q hq => ?_, fun e he => by cases he⟩⟩
  rw [← Except.ok.inj hq]
  exact Pos.elem_of_def fun a ha => (h a ha).val i hi

/-- two steps -/
theorem BSim.comp {T' : Prop} {G : Pos BArr → Res (Pos BArr)} {g : List ℕ → Pos ℝ → Res (Pos ℝ)}
    (h : BSim T D S A s)
    (k : ∀ Q D', D' ⊆ D → DefP D' S Q → A = .ok Q → BSim T' D' S (G Q) fun i => g i (Q.elemD i)) :
    BSim (T ∧ T') D S (A >>= G) fun i => s i >>= g i := by
  rcases hA : A with e | Q
  · refine ⟨fun Q hQ => (by cases hQ), fun hT hF hs => ?_⟩
    obtain ⟨Q, hQ⟩ := h.total hT.1 hF fun i hi => by
      obtain ⟨q, hq⟩ := hs i hi
      obtain ⟨q', hq', _⟩ := (bind_ok_iff _ _ _).mp hq
      exact ⟨q', hq'⟩
    rw [hA] at hQ; cases hQ
  · obtain ⟨hfit, hel⟩ := h.ok Q hA
    rw [ok_bind]
    refine BSim.restrict (fun i => ∃ q, s i = .ok q) (fun i hi hn => ?_) ?_
    · rcases hs : s i with e | q
      · rw [(hel i hi).2 e hs]; rfl
      · exact absurd ⟨q, hs⟩ hn
    · have hdef : DefP {i | i ∈ D ∧ ∃ q, s i = .ok q} S Q := by
        intro a ha
        refine ⟨hfit a ha, fun i hi => ?_⟩
        obtain ⟨hi, q, hq⟩ := hi
        exact (Pos.elem_some ((hel i hi).1 q hq)).2 a ha
      refine ((k Q _ (fun i hi => hi.1) hdef hA).congr fun i hi => ?_).weaken fun h => h.2
      obtain ⟨hi, q, hq⟩ := hi
      rw [hq, ok_bind, (Pos.elem_some ((hel i hi).1 q hq)).1]

/-! ### constructors -/

variable (hD : ∀ i ∈ D, InB S i)

theorem DefA.az (h : DefA D S Φ.arr) : DefA D S Φ.convertB ∧ ∀ i ∈ D, (Φ.elemD i).convert = Φ.convertB.elemD i := by
  cases Φ with
  | qty a =>
    refine ⟨DefA.of_elem h.fits fun i hi => ?_, fun i hi => ?_⟩
    · exact ⟨_, h.ef.wrap.val i hi _ rfl⟩
    · exact (elemD_of_elem (h.ef.wrap.val i hi _ rfl)).symm
  | angle a => exact ⟨h, fun _ _ => rfl⟩

theorem Dist.raw_elemD (i : List ℕ) : (R.elemD i).raw = R.raw.elemD i := by cases R <;> rfl

include hD in
theorem mkRadialB_base (hR : DefA D S R.raw) : BSim T D S (mkRadialB R) fun i => mkRadial (R.elemD i) := by
  refine (BSim.check (checkNonNegB_cf hD hR.ef)
    (BSim.ret (Q := .radial R) (by simpa [DefP, Pos.arrays] using hR))).congr fun i _ => ?_
  simp only [ok_bind, mkRadial, Dist.raw_elemD]; rfl

include hD in
theorem mkPolarB_base (hR : DefA D S R.raw) (hP : DefA D S Φ.arr) :
    BSim T D S (mkPolarB R Φ) fun i => mkPolar (R.elemD i) (Φ.elemD i) := by
  refine (BSim.check (checkNonNegB_cf hD hR.ef)
    (BSim.ret (Q := .polar R Φ.convertB) (by simpa [DefP, Pos.arrays] using ⟨hR, hP.az.1⟩))).congr fun i hi => ?_
  simp only [ok_bind, mkPolar, Dist.raw_elemD, hP.az.2 i hi]; rfl

include hD in
theorem mkCylB_base (hX : DefA D S X) (hP : DefA D S Φ.arr) (hZ : DefA D S Z) :
    BSim T D S (mkCylB X Φ Z) fun i => mkCyl (X.elemD i) (Φ.elemD i) (Z.elemD i) := by
  refine (BSim.check (checkNonNegB_cf hD hX.ef)
    (BSim.ret (Q := .cyl X Φ.convertB Z) (by simpa [DefP, Pos.arrays] using ⟨hX, hP.az.1, hZ⟩))).congr fun i hi => ?_
  simp only [ok_bind, mkCyl, hP.az.2 i hi]; rfl

include hD in
theorem mkSphB_base (hR : DefA D S R.raw) (hX : DefA D S X) (hP : DefA D S Φ.arr) :
    BSim T D S (mkSphB R X Φ) fun i => mkSph (R.elemD i) (X.elemD i) (Φ.elemD i) := by
  refine (BSim.check (checkNonNegB_cf hD hR.ef) (BSim.check (checkRangeB_cf hD hX.ef (EF.nat 0) EF.pi)
    (BSim.ret (Q := .sph R X Φ.convertB) (by simpa [DefP, Pos.arrays] using ⟨hR, hX, hP.az.1⟩)))).congr fun i hi => ?_
  simp only [ok_bind, mkSph, Dist.raw_elemD, hP.az.2 i hi]; rfl

include hD in
theorem mkMathB_base (hR : DefA D S R.raw) (hX : DefA D S X) (hP : DefA D S Φ.arr) :
    BSim T D S (mkMathB R Φ X) fun i => mkMath (R.elemD i) (Φ.elemD i) (X.elemD i) := by
  refine (BSim.check (checkNonNegB_cf hD hR.ef) (BSim.check (checkRangeB_cf hD hX.ef (EF.nat 0) EF.pi)
    (BSim.ret (Q := .math R Φ.convertB X) (by simpa [DefP, Pos.arrays] using ⟨hR, hP.az.1, hX⟩)))).congr fun i hi => ?_
  simp only [ok_bind, mkMath, Dist.raw_elemD, hP.az.2 i hi]; rfl

include hD in
theorem mkLonLatB_base (hR : DefA D S R.raw) (hX : DefA D S X) (hP : DefA D S Φ.arr) :
    BSim T D S (mkLonLatB Φ X R) fun i => mkLonLat (Φ.elemD i) (X.elemD i) (R.elemD i) := by
  refine (BSim.check (checkRangeB_cf hD hX.ef EF.halfPi.neg EF.halfPi) (BSim.check (checkNonNegB_cf hD hR.ef)
    (BSim.ret (Q := .lonlat Φ.convertB X R) (by simpa [DefP, Pos.arrays] using ⟨hP.az.1, hX, hR⟩)))).congr fun i hi => ?_
  simp only [ok_bind, mkLonLat, Dist.raw_elemD, hP.az.2 i hi]
  rcases (halfPi : Res ℝ) with e | hp
  · rfl
  · rfl

include hD in
theorem mkProlateB_base (hX : DefA D S X) (hY : DefA D S Y) (hP : DefA D S Φ.arr) (hW : DefA D S W) :
    BSim T D S (mkProlateB X Y Φ W) fun i =>
      mkProlate (X.elemD i) (Y.elemD i) (Φ.elemD i) (W.elemD i) := by
  obtain ⟨V, hV, hv⟩ := hW.ef.mul hW.ef
  obtain ⟨C, hC, hc⟩ := hX.ef.cmp hv Num.lt
  obtain ⟨E, hE, he⟩ := hv.cmp hY.ef.abs Num.lt
  unfold mkProlateB blt
  rw [hV, ok_bind, hC, ok_bind, hE, ok_bind]
  refine (BSim.check (checkPosB_cf hD hW.ef) (BSim.check (errorIfAny_cf hD hc (hX.ef.cmpErr hv _))
    (BSim.check (errorIfAny_cf hD he (hv.cmpErr hY.ef.abs _))
    (BSim.ret (Q := .prolate X Y Φ.convertB W)
      (by simpa [DefP, Pos.arrays] using ⟨hX, hY, hP.az.1, hW⟩))))).congr fun i hi => ?_
  simp only [ok_bind, mkProlate, hP.az.2 i hi]
  rcases checkPos (Arr.elemD W i) with e | u
  · rfl
  · simp only [ok_bind, pure, Except.pure]
    cases Num.lt (Arr.elemD X i) (Arr.elemD W i * Arr.elemD W i) <;>
      cases Num.lt (Arr.elemD W i * Arr.elemD W i) (Num.abs (Arr.elemD Y i)) <;> rfl

/-! ### constructors applied to computed arguments -/

theorem EF.defA (h : EF D S X x) : DefA {i | i ∈ D ∧ ∃ v, x i = .ok v} S X :=
  DefA.of_elem h.fits fun i hi => by obtain ⟨hi, v, hv⟩ := hi; exact ⟨v, h.val i hi v hv⟩
theorem EF.eqD (h : EF D S X x) {i : List ℕ} (hi : i ∈ D) {v : ℝ} (hv : x i = .ok v) : X.elemD i = v :=
  elemD_of_elem (h.val i hi v hv)
theorem DF.defA (h : DF D S R r) : DefA {i | i ∈ D ∧ ∃ v, r i = .ok v} S R.raw :=
  DefA.of_elem h.fits fun i hi => by
    obtain ⟨hi, v, hv⟩ := hi; exact ⟨_, (Dist.elem_some (h.val i hi v hv)).1⟩
theorem DF.eqD (h : DF D S R r) {i : List ℕ} (hi : i ∈ D) {v : Dist ℝ} (hv : r i = .ok v) : R.elemD i = v :=
  (Dist.elem_some (h.val i hi v hv)).2
theorem AF.defA (h : AF D S Φ φ) : DefA {i | i ∈ D ∧ ∃ v, φ i = .ok v} S Φ.arr :=
  DefA.of_elem h.fits fun i hi => by
    obtain ⟨hi, v, hv⟩ := hi; exact (AzArg.elem_some (h.val i hi v hv)).1
theorem AF.eqD (h : AF D S Φ φ) {i : List ℕ} (hi : i ∈ D) {v : AzArg ℝ} (hv : φ i = .ok v) : Φ.elemD i = v :=
  (AzArg.elem_some (h.val i hi v hv)).2

include hD in
theorem mkRadialB_sim (hR : DF D S R r) : BSim T D S (mkRadialB R) fun i => (do mkRadial (← r i)) := by
  refine BSim.restrict (fun i => ∃ v, r i = .ok v) (fun i hi hn => ?_) ?_
  · rcases hr : r i with e | a
    · rw [hR.err i hi e hr]; rfl
    · exact absurd ⟨a, hr⟩ hn
  · refine (mkRadialB_base (fun i hi => hD i hi.1) hR.defA).congr fun i hi => ?_
    obtain ⟨hi, a, ha⟩ := hi
    rw [ha, ok_bind, hR.eqD hi ha]

include hD in
theorem mkPolarB_sim (hR : DF D S R r) (hP : AF D S Φ φ) :
    BSim T D S (mkPolarB R Φ) fun i => (do mkPolar (← r i) (← φ i)) := by
  refine BSim.restrict (fun i => (∃ v, r i = .ok v) ∧ ∃ v, φ i = .ok v) (fun i hi hn => ?_) ?_
  · rcases hr : r i with e | a
    · rw [hR.err i hi e hr]; rfl
    · rcases hp : φ i with e | b
      · rw [hP.err i hi e hp]; rfl
      · exact absurd ⟨⟨a, hr⟩, b, hp⟩ hn
  · refine (mkPolarB_base (fun i hi => hD i hi.1) (hR.defA.mono fun i hi => ⟨hi.1, hi.2.1⟩)
      (hP.defA.mono fun i hi => ⟨hi.1, hi.2.2⟩)).congr fun i hi => ?_
    obtain ⟨hi, ⟨a, ha⟩, b, hb⟩ := hi
    rw [ha, ok_bind, hb, ok_bind, hR.eqD hi ha, hP.eqD hi hb]

include hD in
theorem mkCylB_sim (hX : EF D S X x) (hP : AF D S Φ φ) (hZ : EF D S Z z) :
    BSim T D S (mkCylB X Φ Z) fun i => (do mkCyl (← x i) (← φ i) (← z i)) := by
  refine BSim.restrict (fun i => (∃ v, x i = .ok v) ∧ (∃ v, φ i = .ok v) ∧ ∃ v, z i = .ok v)
    (fun i hi hn => ?_) ?_
  · rcases hr : x i with e | a
    · rw [hX.err i hi e hr]; rfl
    · rcases hp : φ i with e | b
      · rw [hP.err i hi e hp]; rfl
      · rcases hz : z i with e | c
        · rw [hZ.err i hi e hz]; rfl
        · exact absurd ⟨⟨a, hr⟩, ⟨b, hp⟩, c, hz⟩ hn
  · refine (mkCylB_base (fun i hi => hD i hi.1) (hX.defA.mono fun i hi => ⟨hi.1, hi.2.1⟩)
      (hP.defA.mono fun i hi => ⟨hi.1, hi.2.2.1⟩) (hZ.defA.mono fun i hi => ⟨hi.1, hi.2.2.2⟩)).congr fun i hi => ?_
    obtain ⟨hi, ⟨a, ha⟩, ⟨b, hb⟩, c, hc⟩ := hi
    rw [ha, ok_bind, hb, ok_bind, hc, ok_bind, hX.eqD hi ha, hP.eqD hi hb, hZ.eqD hi hc]

include hD in
theorem mkSphB_sim (hR : DF D S R r) (hX : EF D S X x) (hP : AF D S Φ φ) :
    BSim T D S (mkSphB R X Φ) fun i => (do mkSph (← r i) (← x i) (← φ i)) := by
  refine BSim.restrict (fun i => (∃ v, r i = .ok v) ∧ (∃ v, x i = .ok v) ∧ ∃ v, φ i = .ok v)
    (fun i hi hn => ?_) ?_
  · rcases hr : r i with e | a
    · rw [hR.err i hi e hr]; rfl
    · rcases hp : x i with e | b
      · rw [hX.err i hi e hp]; rfl
      · rcases hz : φ i with e | c
        · rw [hP.err i hi e hz]; rfl
        · exact absurd ⟨⟨a, hr⟩, ⟨b, hp⟩, c, hz⟩ hn
  · refine (mkSphB_base (fun i hi => hD i hi.1) (hR.defA.mono fun i hi => ⟨hi.1, hi.2.1⟩)
      (hX.defA.mono fun i hi => ⟨hi.1, hi.2.2.1⟩) (hP.defA.mono fun i hi => ⟨hi.1, hi.2.2.2⟩)).congr fun i hi => ?_
    obtain ⟨hi, ⟨a, ha⟩, ⟨b, hb⟩, c, hc⟩ := hi
    rw [ha, ok_bind, hb, ok_bind, hc, ok_bind, hR.eqD hi ha, hX.eqD hi hb, hP.eqD hi hc]

include hD in
theorem mkMathB_sim (hR : DF D S R r) (hP : AF D S Φ φ) (hX : EF D S X x) :
    BSim T D S (mkMathB R Φ X) fun i => (do mkMath (← r i) (← φ i) (← x i)) := by
  refine BSim.restrict (fun i => (∃ v, r i = .ok v) ∧ (∃ v, φ i = .ok v) ∧ ∃ v, x i = .ok v)
    (fun i hi hn => ?_) ?_
  · rcases hr : r i with e | a
    · rw [hR.err i hi e hr]; rfl
    · rcases hz : φ i with e | c
      · rw [hP.err i hi e hz]; rfl
      · rcases hp : x i with e | b
        · rw [hX.err i hi e hp]; rfl
        · exact absurd ⟨⟨a, hr⟩, ⟨c, hz⟩, b, hp⟩ hn
  · refine (mkMathB_base (fun i hi => hD i hi.1) (hR.defA.mono fun i hi => ⟨hi.1, hi.2.1⟩)
      (hX.defA.mono fun i hi => ⟨hi.1, hi.2.2.2⟩) (hP.defA.mono fun i hi => ⟨hi.1, hi.2.2.1⟩)).congr fun i hi => ?_
    obtain ⟨hi, ⟨a, ha⟩, ⟨b, hb⟩, c, hc⟩ := hi
    rw [ha, ok_bind, hb, ok_bind, hc, ok_bind, hR.eqD hi ha, hX.eqD hi hc, hP.eqD hi hb]

include hD in
theorem mkLonLatB_sim (hP : AF D S Φ φ) (hX : EF D S X x) (hR : DF D S R r) :
    BSim T D S (mkLonLatB Φ X R) fun i => (do mkLonLat (← φ i) (← x i) (← r i)) := by
  refine BSim.restrict (fun i => (∃ v, r i = .ok v) ∧ (∃ v, φ i = .ok v) ∧ ∃ v, x i = .ok v)
    (fun i hi hn => ?_) ?_
  · rcases hz : φ i with e | c
    · rw [hP.err i hi e hz]; rfl
    · rcases hp : x i with e | b
      · rw [hX.err i hi e hp]; rfl
      · rcases hr : r i with e | a
        · rw [hR.err i hi e hr]; rfl
        · exact absurd ⟨⟨a, hr⟩, ⟨c, hz⟩, b, hp⟩ hn
  · refine (mkLonLatB_base (fun i hi => hD i hi.1) (hR.defA.mono fun i hi => ⟨hi.1, hi.2.1⟩)
      (hX.defA.mono fun i hi => ⟨hi.1, hi.2.2.2⟩) (hP.defA.mono fun i hi => ⟨hi.1, hi.2.2.1⟩)).congr fun i hi => ?_
    obtain ⟨hi, ⟨a, ha⟩, ⟨b, hb⟩, c, hc⟩ := hi
    rw [ha, hb, ok_bind, hc, ok_bind, ok_bind, hR.eqD hi ha, hX.eqD hi hc, hP.eqD hi hb]

include hD in
theorem mkProlateB_sim (hX : EF D S X x) (hY : EF D S Y y) (hP : AF D S Φ φ) (hW : EF D S W w) :
    BSim T D S (mkProlateB X Y Φ W) fun i => (do mkProlate (← x i) (← y i) (← φ i) (← w i)) := by
  refine BSim.restrict (fun i => (∃ v, x i = .ok v) ∧ (∃ v, y i = .ok v) ∧ (∃ v, φ i = .ok v) ∧ ∃ v, w i = .ok v)
    (fun i hi hn => ?_) ?_
  · rcases h1 : x i with e | a
    · rw [hX.err i hi e h1]; rfl
    · rcases h2 : y i with e | b
      · rw [hY.err i hi e h2]; rfl
      · rcases h3 : φ i with e | c
        · rw [hP.err i hi e h3]; rfl
        · rcases h4 : w i with e | d
          · rw [hW.err i hi e h4]; rfl
          · exact absurd ⟨⟨a, h1⟩, ⟨b, h2⟩, ⟨c, h3⟩, d, h4⟩ hn
  · refine (mkProlateB_base (fun i hi => hD i hi.1) (hX.defA.mono fun i hi => ⟨hi.1, hi.2.1⟩)
      (hY.defA.mono fun i hi => ⟨hi.1, hi.2.2.1⟩) (hP.defA.mono fun i hi => ⟨hi.1, hi.2.2.2.1⟩)
      (hW.defA.mono fun i hi => ⟨hi.1, hi.2.2.2.2⟩)).congr fun i hi => ?_
    obtain ⟨hi, ⟨a, ha⟩, ⟨b, hb⟩, ⟨c, hc⟩, d, hd⟩ := hi
    rw [ha, ok_bind, hb, ok_bind, hc, ok_bind, hd, ok_bind, hX.eqD hi ha, hY.eqD hi hb, hP.eqD hi hc,
      hW.eqD hi hd]

end

end Verif
