import Verif.Props.BatchExact
import Verif.Props.Convert

/-!
# C06 for batches: the constructors on arrays
-/

namespace Verif

open List Spec Props
open Real hiding sqrt sqrt_eq_zero

namespace Spec

/-- every element that is a number satisfies `P` (NaN elements are not looked at) -/
def AllNumbers (a : BArr) (P : ℝ → Prop) : Prop := ∀ idx, InB a.shape idx → ∀ x, a.get idx = some x → P x

/-- `b` holds the reductions of the elements of `a` to one turn; NaN stays NaN -/
def Reduced (a b : BArr) : Prop :=
  b.shape = a.shape ∧ ∀ idx, (a.get idx = none → b.get idx = none) ∧
    ∀ x, a.get idx = some x → ∃ y, IsReduction x y ∧ b.get idx = some y

/-- `P x y` holds wherever the broadcast elements of `a` and `b` are numbers; the shapes can be broadcast -/
def AllPairs (a b : BArr) (P : ℝ → ℝ → Prop) : Prop :=
  ∃ t, IsBroadcast [a.shape, b.shape] t ∧ ∀ idx, InB t idx → ∀ x y, at_ idx a = some x → at_ idx b = some y → P x y

end Spec

theorem errorIfAny_iff {c : Arr Bool} : errorIfAny c = .ok () ↔ ∀ idx, InB c.shape idx → c.get idx = false := by
  unfold errorIfAny
  constructor
  · intro h
    split at h
    · cases h
    · rename_i hn
      intro idx hi
      by_contra hc
      exact hn ⟨idx, hi, by simpa using hc⟩
  · intro h
    rw [if_neg]
    rintro ⟨idx, hi, hc⟩
    rw [h idx hi] at hc; cases hc

theorem map2_scalar_right {α β γ : Type} (f : α → β → γ) (a : Arr α) (y : β) :
    Arr.map2 f a (.scalar y) = .ok ⟨a.shape, fun idx => f (a.elem idx) y⟩ := by
  unfold Arr.map2
  rw [show (Arr.scalar y).shape = [] from rfl, bc2_nil_right, ok_bind]
  rfl

theorem map2_scalar_left {α β γ : Type} (f : α → β → γ) (x : α) (b : Arr β) :
    Arr.map2 f (.scalar x) b = .ok ⟨b.shape, fun idx => f x (b.elem idx)⟩ := by
  unfold Arr.map2
  rw [show (Arr.scalar x).shape = [] from rfl, bc2_nil_left, ok_bind]
  rfl

theorem elCmp_false {f : ℝ → ℝ → Bool} {x y : El} :
    elCmp f x y = false ↔ ∀ v w, x = some v → y = some w → f v w = false := by
  cases x <;> cases y <;> simp [elCmp]

theorem checkNonNegB_iff {x : BArr} : checkNonNegB x = .ok () ↔ AllNumbers x (0 ≤ ·) := by
  unfold checkNonNegB blt bnat
  rw [map2_scalar_right, ok_bind, errorIfAny_iff]
  refine forall_congr' fun idx => forall_congr' fun hi => ?_
  show elCmp Num.lt (x.elem idx) (some (Num.nat 0)) = false ↔ _
  rw [Arr.elem_self (a := x) hi, elCmp_false]
  constructor
  · intro h v hv
    have := h v _ hv rfl
    simpa [nat_real] using this
  · rintro h v w hv e
    obtain rfl := Option.some.inj e
    simpa [nat_real] using h v hv

theorem checkPosB_iff {x : BArr} : checkPosB x = .ok () ↔ AllNumbers x (0 < ·) := by
  unfold checkPosB ble bnat
  rw [map2_scalar_right, ok_bind, errorIfAny_iff]
  refine forall_congr' fun idx => forall_congr' fun hi => ?_
  show elCmp (fun x y => !Num.lt y x) (x.elem idx) (some (Num.nat 0)) = false ↔ _
  rw [Arr.elem_self (a := x) hi, elCmp_false]
  constructor
  · intro h v hv
    have := h v _ hv rfl
    simpa [nat_real] using this
  · rintro h v w hv e
    obtain rfl := Option.some.inj e
    simpa [nat_real] using h v hv

theorem checkRangeB_iff {x : BArr} {lo hi : ℝ} :
    checkRangeB x (.scalar (some lo)) (.scalar (some hi)) = .ok () ↔ AllNumbers x fun v => lo ≤ v ∧ v ≤ hi := by
  unfold checkRangeB blt
  rw [map2_scalar_right, ok_bind, map2_scalar_left, ok_bind]
  obtain ⟨c, h1, -, h3, h4⟩ := Arr.map2_spec (f := fun a b => a || b) (S := x.shape)
    (a := ⟨x.shape, fun idx => elCmp Num.lt (x.elem idx) (some lo)⟩) (b := ⟨x.shape, fun idx => elCmp Num.lt (some hi) (x.elem idx)⟩)
    (broadcastsTo_refl _) (broadcastsTo_refl _)
  have hs : c.shape = x.shape := by
    have := h3
    rw [show bc2 x.shape x.shape = .ok x.shape from bc2_self _] at this
    exact (Except.ok.inj this).symm
  rw [h1, ok_bind, errorIfAny_iff, hs]
  refine forall_congr' fun idx => forall_congr' fun hx => ?_
  have e := h4 idx
  rw [Arr.elem_self (by rw [hs]; exact hx)] at e
  rw [e, Arr.elem_self (a := (⟨x.shape, fun idx => elCmp Num.lt (x.elem idx) (some lo)⟩ : Arr Bool)) hx,
    Arr.elem_self (a := (⟨x.shape, fun idx => elCmp Num.lt (some hi) (x.elem idx)⟩ : Arr Bool)) hx]
  simp only [Bool.or_eq_false_iff]
  rw [Arr.elem_self hx, elCmp_false, elCmp_false]
  constructor
  · rintro ⟨h, k⟩ v hv
    exact ⟨by simpa using h v _ hv rfl, by simpa using k _ v rfl hv⟩
  · intro h
    refine ⟨fun v w hv e => ?_, fun v w e hv => ?_⟩
    · obtain rfl := Option.some.inj e
      simpa using (h v hv).1
    · obtain rfl := Option.some.inj e
      simpa using (h w hv).2

theorem reduced_iff {a b : BArr} : Reduced a b ↔ b = bwrap a := by
  constructor
  · rintro ⟨h1, h2⟩
    obtain ⟨sb, gb⟩ := b
    obtain ⟨sa, ga⟩ := a
    simp only at h1 h2
    subst h1
    unfold bwrap Arr.map
    congr 1
    funext idx
    show gb idx = el1 (fun x => .ok (Num.wrap x)) (ga idx)
    cases e : ga idx with
    | none => rw [(h2 idx).1 e]; rfl
    | some x =>
      obtain ⟨y, hy, e'⟩ := (h2 idx).2 x e
      rw [e', isReduction_unique hy (isReduction_wrapR x)]
      rfl
  · rintro rfl
    refine ⟨rfl, fun idx => ⟨fun h => ?_, fun x h => ⟨wrapR x, isReduction_wrapR x, ?_⟩⟩⟩
    · show el1 (fun x => .ok (Num.wrap x)) (a.get idx) = none
      rw [h]; rfl
    · show el1 (fun x => .ok (Num.wrap x)) (a.get idx) = some (wrapR x)
      rw [h]; rfl

theorem lt2_iff {a b : BArr} : (blt a b >>= errorIfAny) = .ok () ↔ AllPairs a b fun x y => ¬ x < y := by
  unfold blt AllPairs
  constructor
  · intro h
    obtain ⟨c, h1, h2⟩ := (bind_ok_iff _ _ _).mp h
    unfold Arr.map2 at h1
    obtain ⟨t, ht, h1⟩ := (bind_ok_iff _ _ _).mp h1
    obtain rfl := Except.ok.inj h1
    have hb := bc2_iff.mp ht
    refine ⟨t, hb, fun idx hi x y hx hy => ?_⟩
    have := errorIfAny_iff.mp h2 idx hi
    rw [at_eq (hb.1 _ (by simp)) hi] at hx hy
    have := elCmp_false.mp this x y hx hy
    simpa using this
  · rintro ⟨t, hb, h⟩
    have ht := bc2_iff.mpr hb
    rw [bind_ok_iff]
    refine ⟨⟨t, fun idx => elCmp Num.lt (a.elem idx) (b.elem idx)⟩, by unfold Arr.map2; rw [ht, ok_bind]; rfl, errorIfAny_iff.mpr ?_⟩
    intro idx hi
    refine elCmp_false.mpr fun x y hx hy => ?_
    have := h idx hi x y (by rw [at_eq (hb.1 _ (by simp)) hi]; exact hx) (by rw [at_eq (hb.1 _ (by simp)) hi]; exact hy)
    simpa using this

/-- the product of an array with itself, read back element by element -/
theorem bmul_self (d : BArr) : ∃ d2, bmul d d = .ok d2 ∧ d2.shape = d.shape ∧
    ∀ idx, InB d.shape idx → ∀ v, d2.get idx = some v ↔ ∃ x, d.get idx = some x ∧ v = x ^ 2 := by
  unfold bmul Arr.map2
  rw [bc2_self, ok_bind]
  refine ⟨_, rfl, rfl, fun idx hi v => ?_⟩
  show el2 (fun x y => .ok (x * y)) (d.elem idx) (d.elem idx) = some v ↔ _
  rw [Arr.elem_self hi]
  cases d.get idx with
  | none => simp [el2]
  | some x => simp [el2, sq, eq_comm]

theorem sq_at {d d2 : BArr} (hs : d2.shape = d.shape)
    (h : ∀ idx, InB d.shape idx → ∀ v, d2.get idx = some v ↔ ∃ x, d.get idx = some x ∧ v = x ^ 2)
    {t idx : List ℕ} (hb : BroadcastsTo d.shape t) (hi : InB t idx) (v : ℝ) :
    at_ idx d2 = some v ↔ ∃ x, at_ idx d = some x ∧ v = x ^ 2 := by
  rw [at_eq (by rw [hs]; exact hb) hi, at_eq hb hi]
  have e1 := (Arr.elem_get (a := d) hb hi)
  have e2 := (Arr.elem_get (a := d2) (by rw [hs]; exact hb) hi)
  rw [e1.1, e2.1, hs]
  exact h _ (by simpa using e1.2) v

theorem isBroadcast_pair {a b t : List ℕ} (h : IsBroadcast [a, b] t) : IsBroadcast [b, a] t :=
  ⟨fun y hy => h.1 y (by simp only [mem_cons, not_mem_nil, or_false] at hy ⊢; exact hy.symm),
    fun u hu => h.2 u fun y hy => hu y (by simp only [mem_cons, not_mem_nil, or_false] at hy ⊢; exact hy.symm)⟩

theorem holds2_swap {a b : BArr} {P : ℝ → ℝ → Prop} : AllPairs a b P ↔ AllPairs b a fun y x => P x y := by
  unfold AllPairs
  constructor <;> rintro ⟨t, hb, h⟩ <;>
    exact ⟨t, isBroadcast_pair hb, fun idx hi x y hx hy => h idx hi y x hy hx⟩

theorem bhalfPi_eq : bhalfPi = .scalar (some (π / 2)) := by
  unfold bhalfPi el1
  have : Num.div (Num.pi : ℝ) (Num.nat 2) = .ok (π / 2) := by
    rw [div_real_ok (by simp [nat_real])]
    simp [nat_real]
  simp only [this]

theorem bneg_scalar (x : ℝ) : bneg (.scalar (some x)) = .scalar (some (-x)) := rfl

theorem ok_unit {x : Res Unit} {f : Res (Pos BArr)} {q : Pos BArr} :
    (x >>= fun _ => f) = .ok q ↔ x = .ok () ∧ f = .ok q := by
  rw [bind_ok_iff]
  exact ⟨fun ⟨_, h, k⟩ => ⟨h, k⟩, fun ⟨h, k⟩ => ⟨(), h, k⟩⟩

theorem ret_red {f : BArr → Pos BArr} {phi : BArr} {q : Pos BArr} :
    (Except.ok (f (bwrap phi)) : Res (Pos BArr)) = .ok q ↔ ∃ phi', Reduced phi phi' ∧ q = f phi' := by
  constructor
  · intro h; exact ⟨_, reduced_iff.mpr rfl, (Except.ok.inj h).symm⟩
  · rintro ⟨p, h, rfl⟩; rw [reduced_iff.mp h]

theorem range0pi {x : BArr} : checkRangeB x (bnat 0) bpi = .ok () ↔ AllNumbers x fun v => 0 ≤ v ∧ v ≤ π := by
  have : bnat 0 = .scalar (some (0 : ℝ)) := by unfold bnat; rw [nat_real]; simp
  rw [this]
  exact checkRangeB_iff

/-- **C06** (batches).  A vector class of arrays can be built iff every element that is a number is in the range
of its component — an element that is NaN passes every check — and the azimuth is reduced to one turn element by
element.  For the prolate class the two conditions compare `mu` and `nu` with `Delta ** 2` after broadcasting. -/
theorem C06_batches :
    (∀ (rho phi z : BArr) (q : Pos BArr), mkCylB rho (.qty phi) z = .ok q ↔
      AllNumbers rho (0 ≤ ·) ∧ ∃ phi', Reduced phi phi' ∧ q = .cyl rho phi' z) ∧
    (∀ (r theta phi : BArr) (q : Pos BArr), mkSphB (.dist r) theta (.qty phi) = .ok q ↔
      (AllNumbers r (0 ≤ ·) ∧ AllNumbers theta fun v => 0 ≤ v ∧ v ≤ π) ∧ ∃ phi', Reduced phi phi' ∧
        q = .sph (.dist r) theta phi') ∧
    (∀ (r theta phi : BArr) (q : Pos BArr), mkMathB (.dist r) (.qty theta) phi = .ok q ↔
      (AllNumbers r (0 ≤ ·) ∧ AllNumbers phi fun v => 0 ≤ v ∧ v ≤ π) ∧ ∃ theta', Reduced theta theta' ∧
        q = .math (.dist r) theta' phi) ∧
    (∀ (lon lat d : BArr) (q : Pos BArr), mkLonLatB (.qty lon) lat (.dist d) = .ok q ↔
      (AllNumbers d (0 ≤ ·) ∧ AllNumbers lat fun v => -(π / 2) ≤ v ∧ v ≤ π / 2) ∧ ∃ lon', Reduced lon lon' ∧
        q = .lonlat lon' lat (.dist d)) ∧
    (∀ (r phi : BArr) (q : Pos BArr), mkPolarB (.dist r) (.qty phi) = .ok q ↔
      AllNumbers r (0 ≤ ·) ∧ ∃ phi', Reduced phi phi' ∧ q = .polar (.dist r) phi') ∧
    (∀ (mu nu phi delta : BArr) (q : Pos BArr), mkProlateB mu nu (.qty phi) delta = .ok q ↔
      (AllNumbers delta (0 < ·) ∧ AllPairs delta mu (fun d m => d ^ 2 ≤ m) ∧ AllPairs delta nu fun d n => |n| ≤ d ^ 2) ∧
        ∃ phi', Reduced phi phi' ∧ q = .prolate mu nu phi' delta) ∧
    (∀ (r : BArr) (q : Pos BArr), mkRadialB (.dist r) = .ok q ↔ AllNumbers r (0 ≤ ·) ∧ q = .radial (.dist r)) := by
  refine ⟨fun rho phi z q => ?_, fun r theta phi q => ?_, fun r theta phi q => ?_, fun lon lat d q => ?_,
    fun r phi q => ?_, fun mu nu phi delta q => ?_, fun r q => ?_⟩
  · unfold mkCylB
    rw [ok_unit, checkNonNegB_iff]
    exact and_congr_right fun _ => ret_red (f := fun p => .cyl rho p z)
  · unfold mkSphB
    rw [ok_unit, ok_unit, range0pi, ← and_assoc]
    exact and_congr (and_congr checkNonNegB_iff Iff.rfl) (ret_red (f := fun p => .sph (.dist r) theta p))
  · unfold mkMathB
    rw [ok_unit, ok_unit, range0pi, ← and_assoc]
    exact and_congr (and_congr checkNonNegB_iff Iff.rfl) (ret_red (f := fun p => .math (.dist r) p phi))
  · unfold mkLonLatB
    rw [ok_unit, ok_unit, bhalfPi_eq, bneg_scalar, checkRangeB_iff, ← and_assoc]
    exact and_congr ((and_congr Iff.rfl checkNonNegB_iff).trans and_comm) (ret_red (f := fun p => .lonlat p lat (.dist d)))
  · unfold mkPolarB
    rw [ok_unit]
    exact and_congr checkNonNegB_iff (ret_red (f := fun p => .polar (.dist r) p))
  · obtain ⟨d2, e, hs, hd⟩ := bmul_self delta
    unfold mkProlateB
    rw [ok_unit, checkPosB_iff, e, ok_bind, and_assoc]
    refine and_congr_right fun _ => ?_
    rw [bind_ok_iff]
    have k1 : AllPairs delta mu (fun d m => d ^ 2 ≤ m) ↔ (blt mu d2 >>= errorIfAny) = .ok () := by
      rw [lt2_iff, holds2_swap]
      unfold AllPairs
      rw [hs]
      refine exists_congr fun t => and_congr_right fun hb => forall_congr' fun idx => forall_congr' fun hi => ?_
      have ha := sq_at hs hd (hb.1 delta.shape (by simp)) hi
      constructor
      · intro h x y hx hy
        obtain ⟨z, hz, rfl⟩ := (ha y).mp hy
        exact not_lt.mpr (h x z hx hz)
      · intro h x y hx hy
        exact not_lt.mp (h x _ hx ((ha _).mpr ⟨y, hy, rfl⟩))
    have k2 : AllPairs delta nu (fun d n => |n| ≤ d ^ 2) ↔ (blt d2 (babs nu) >>= errorIfAny) = .ok () := by
      rw [lt2_iff]
      unfold AllPairs
      rw [hs, show (babs nu).shape = nu.shape from rfl]
      refine exists_congr fun t => and_congr_right fun hb => forall_congr' fun idx => forall_congr' fun hi => ?_
      have ha := sq_at hs hd (hb.1 delta.shape (by simp)) hi
      have hn : ∀ v, at_ idx (babs nu) = some v ↔ ∃ x, at_ idx nu = some x ∧ v = |x| := by
        intro v
        rw [at_eq (a := babs nu) (hb.1 nu.shape (by simp)) hi, at_eq (hb.1 nu.shape (by simp)) hi]
        show el1 (fun x => .ok (Num.abs x)) (nu.elem idx) = some v ↔ _
        cases nu.elem idx with
        | none => simp [el1]
        | some x => simp [el1, eq_comm]
      constructor
      · intro h x y hx hy
        obtain ⟨z, hz, rfl⟩ := (ha x).mp hx
        obtain ⟨w, hw, rfl⟩ := (hn y).mp hy
        exact not_lt.mpr (h z w hz hw)
      · intro h x y hx hy
        exact not_lt.mp (h _ _ ((ha _).mpr ⟨x, hx, rfl⟩) ((hn _).mpr ⟨y, hy, rfl⟩))
    rw [k1, k2, ← ret_red (f := fun p => .prolate mu nu p delta)]
    simp only [bind_ok_iff]
    constructor
    · rintro ⟨c, h1, u, h2, c', h3, u', h4, h5⟩
      exact ⟨⟨⟨c, h1, h2⟩, c', h3, h4⟩, h5⟩
    · rintro ⟨⟨⟨c, h1, h2⟩, c', h3, h4⟩, h5⟩
      exact ⟨c, h1, (), h2, c', h3, (), h4, h5⟩
  · unfold mkRadialB
    rw [ok_unit, checkNonNegB_iff]
    exact and_congr Iff.rfl ⟨fun h => (Except.ok.inj h).symm, fun h => by rw [h]; rfl⟩

/-- the check passes for an array whose numbers are non-negative although one element is NaN … -/
example : ∃ q, mkCylB ⟨[2], fun i => if i = [0] then some 3 else none⟩ (.qty (.scalar (some 7))) (.scalar (some 1)) =
    .ok q := by
  refine ⟨_, (C06_batches.1 _ _ _ _).mpr ⟨fun idx _ x hx => ?_, _, reduced_iff.mpr rfl, rfl⟩⟩
  simp only at hx
  split at hx
  · obtain rfl := Option.some.inj hx; norm_num
  · cases hx

/-- … and fails as soon as one number is negative -/
example (q : Pos BArr) : mkCylB ⟨[2], fun i => if i = [0] then some 3 else some (-1)⟩ (.qty (.scalar (some 7)))
    (.scalar (some 1)) ≠ .ok q := by
  intro h
  have := ((C06_batches.1 _ _ _ _).mp h).1 [1] (by simp [InB]) (-1) (by simp)
  norm_num at this

end Verif
