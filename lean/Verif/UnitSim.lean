import Verif.UnitLemmas

/-! # Simulation between quantities with units and values in base units -/

namespace Verif

open Num CNum LawfulCNum

/-- the value in the base unit -/
noncomputable def UQ.phys {α : Type} [CNum α] (q : UQ α) : α := const q.unit.scale * q.value

/-- two results: both return related values, or both fail alike -/
inductive RelRes {A B : Type} (R : A → B → Prop) : Res A → Res B → Prop where
  | ok {a b} : R a b → RelRes R (.ok a) (.ok b)
  | err (e) : RelRes R (.error e) (.error e)

theorem RelRes.bind {A B C D : Type} {R : A → B → Prop} {S : C → D → Prop} {m : Res A} {m' : Res B}
    {f : A → Res C} {g : B → Res D} (h : RelRes R m m') (k : ∀ a b, R a b → RelRes S (f a) (g b)) :
    RelRes S (m >>= f) (m' >>= g) := by
  cases h with
  | ok h => exact k _ _ h
  | err e => exact .err e

/-- a step of the left side only -/
theorem RelRes.left {A C D : Type} {P : A → Prop} {S : C → D → Prop} {m : Res A} {f : A → Res C} {t : Res D}
    (h : ∃ a, m = .ok a ∧ P a) (k : ∀ a, P a → RelRes S (f a) t) : RelRes S (m >>= f) t := by
  obtain ⟨a, rfl, ha⟩ := h
  exact k a ha

theorem RelRes.leftOk {A C D : Type} {S : C → D → Prop} {m : Res A} {a : A} {f : A → Res C} {t : Res D}
    (h : m = .ok a) (k : RelRes S (f a) t) : RelRes S (m >>= f) t := by
  subst h; exact k

theorem RelRes.right {B C D : Type} {S : C → D → Prop} {m : Res B} {b : B} {t : Res C} {g : B → Res D}
    (h : m = .ok b) (k : RelRes S t (g b)) : RelRes S t (m >>= g) := by
  subst h; exact k

theorem RelRes.mono {A B : Type} {R S : A → B → Prop} {m : Res A} {m' : Res B} (h : RelRes R m m')
    (k : ∀ a b, R a b → S a b) : RelRes S m m' := by
  cases h with
  | ok h => exact .ok (k _ _ h)
  | err e => exact .err e

namespace RDim
theorem mul_one (d : RDim) : d.mul {} = d := by simp [RDim.mul]
theorem one_mul (d : RDim) : RDim.mul {} d = d := by simp [RDim.mul]
theorem div_self (d : RDim) : d.div d = {} := by simp [RDim.div, RDim.mul, RDim.pow]
theorem div_one (d : RDim) : d.div {} = d := by simp [RDim.div, RDim.mul, RDim.pow]
theorem mul_div (d e : RDim) : (d.mul e).div e = d := by simp [RDim.div, RDim.mul, RDim.pow]
theorem half (d : RDim) : (d.mul d).pow (1 / 2) = d := by
  cases d; simp only [RDim.mul, RDim.pow, RDim.mk.injEq]; refine ⟨?_, ?_, ?_, ?_, ?_⟩ <;> ring
end RDim

/-- length -/ abbrev dL : RDim := RUnit.au.dim
/-- angle -/ abbrev dA : RDim := RUnit.rad.dim
/-- area -/ abbrev dL2 : RDim := dL.mul dL

theorem dA_ne_dL : dA ≠ dL := by simp [dA, dL, RUnit.au, RUnit.rad]
theorem dM_ne_dL : RUnit.mag.dim ≠ dL := by simp [dL, RUnit.au, RUnit.mag]
theorem dM_ne_dA : RUnit.mag.dim ≠ dA := by simp [dA, RUnit.rad, RUnit.mag]

section
variable {α : Type} [CNum α]

/-- the quantity has physical type `d` and value `x` in the base unit -/
def UQ.Rel (d : RDim) (q : UQ α) (x : α) : Prop := q.unit.dim = d ∧ q.phys = x

variable [LawfulCNum α] {d : RDim} {a b q : UQ α} {x y : α}

omit [LawfulCNum α] in
theorem UQ.rel_self (h : q.unit.dim = d) : q.Rel d q.phys := ⟨h, rfl⟩

theorem strip_ok {un : RUnit} (hd : un.dim = q.unit.dim) : ∃ v, q.strip un = .ok v ∧ const un.scale * v = q.phys := by
  refine ⟨const (q.unit.scale / un.scale) * q.value, by rw [UQ.strip, if_pos hd], ?_⟩
  rw [c_mul_mul, UQ.phys]
  congr 2
  have := un.pos
  field_simp

theorem strip_rel {un : RUnit} (h : q.Rel d x) (hd : un.dim = d) :
    ∃ v, q.strip un = .ok v ∧ const un.scale * v = x := by
  obtain ⟨v, e, hv⟩ := strip_ok (q := q) (un := un) (hd.trans h.1.symm)
  exact ⟨v, e, hv.trans h.2⟩

theorem inUnit_rel {un : RUnit} (h : q.Rel d x) (hd : un.dim = d) :
    ∃ r, q.inUnit un = .ok r ∧ r.Rel d x ∧ r.unit = un := by
  obtain ⟨v, e, hv⟩ := strip_rel h hd
  exact ⟨⟨v, un⟩, by rw [UQ.inUnit, e]; rfl, ⟨hd, hv⟩, rfl⟩

theorem add_rel (ha : a.Rel d x) (hb : b.Rel d y) : ∃ r, a.add b = .ok r ∧ r.Rel d (x + y) := by
  obtain ⟨v, e, hv⟩ := strip_rel hb ha.1
  refine ⟨⟨a.value + v, a.unit⟩, by rw [UQ.add, e]; rfl, ha.1, ?_⟩
  show const a.unit.scale * (a.value + v) = _
  rw [c_mul_add, hv, ← ha.2]; rfl

theorem sub_rel (ha : a.Rel d x) (hb : b.Rel d y) :
    ∃ r, a.sub b = .ok r ∧ (r.Rel d (x - y) ∧ r.unit = a.unit) := by
  obtain ⟨v, e, hv⟩ := strip_rel hb ha.1
  refine ⟨⟨a.value - v, a.unit⟩, by rw [UQ.sub, e]; rfl, ⟨ha.1, ?_⟩, rfl⟩
  show const a.unit.scale * (a.value - v) = _
  rw [c_mul_sub, hv, ← ha.2]; rfl

theorem mul_rel {d' : RDim} (ha : a.Rel d x) (hb : b.Rel d' y) : (a.mul b).Rel (d.mul d') (x * y) := by
  refine ⟨?_, ?_⟩
  · show a.unit.dim.mul b.unit.dim = _; rw [ha.1, hb.1]
  · rw [← ha.2, ← hb.2]
    show const (a.unit.scale * b.unit.scale) * (a.value * b.value) = _
    rw [UQ.phys, UQ.phys, c_mul_mul_mul]

theorem mul_one_rel (ha : a.Rel d x) (hb : b.Rel {} y) : (a.mul b).Rel d (x * y) := by
  have := mul_rel ha hb
  rwa [RDim.mul_one] at this

theorem one_mul_rel (ha : a.Rel {} x) (hb : b.Rel d y) : (a.mul b).Rel d (x * y) := by
  have := mul_rel ha hb
  rwa [RDim.one_mul] at this

theorem sq_rel (ha : a.Rel d x) : a.sq.Rel (d.mul d) (x * x) := mul_rel ha ha

theorem smul_rel (s : α) (ha : a.Rel d x) : (a.smul s).Rel d (s * x) := by
  refine ⟨ha.1, ?_⟩
  show const a.unit.scale * (s * a.value) = _
  have := c_mul_mul_mul 1 a.unit.scale s a.value
  rw [← ha.2, UQ.phys]
  rw [c_one_mul, _root_.one_mul] at this
  exact this.symm

theorem neg_rel (ha : a.Rel d x) : a.neg.Rel d (-x) := by
  refine ⟨ha.1, ?_⟩
  rw [← ha.2]; exact c_mul_neg _ _

theorem abs_rel (ha : a.Rel d x) : a.abs.Rel d (Num.abs x) := by
  refine ⟨ha.1, ?_⟩
  rw [← ha.2]; exact (c_abs_mul a.unit.pos _).symm

theorem sign_rel (ha : a.Rel d x) : sign a.value = sign x := by
  rw [← ha.2]; exact (c_sign_mul a.unit.pos _).symm

theorem div_rel {d' : RDim} (ha : a.Rel d x) (hb : b.Rel d' y) :
    RelRes (fun q z => q.Rel (d.div d') z ∧ q.unit = a.unit.div b.unit) (a.div b) (Num.div x y) := by
  rw [← ha.2, ← hb.2, UQ.phys, UQ.phys, c_div_mul a.unit.pos b.unit.pos, UQ.div]
  cases Num.div a.value b.value with
  | error e => exact .err e
  | ok v =>
    refine .ok ⟨⟨?_, rfl⟩, rfl⟩
    show a.unit.dim.div b.unit.dim = _
    rw [ha.1, hb.1]

theorem sqrt_rel (ha : a.Rel (d.mul d) x) : RelRes (UQ.Rel d) a.sqrt (Num.sqrt x) := by
  rw [← ha.2, UQ.phys, c_sqrt_mul a.unit.pos, UQ.sqrt]
  cases Num.sqrt a.value with
  | error e => exact .err e
  | ok v =>
    refine .ok ⟨?_, ?_⟩
    · show a.unit.dim.pow (1 / 2) = _
      rw [ha.1, RDim.half]
    · show const (a.unit.scale ^ (((1 / 2 : ℚ)) : ℝ)) * v = const (√a.unit.scale) * v
      rw [Real.sqrt_eq_rpow]
      norm_num

theorem rad_strip (ha : a.Rel dA x) : a.strip .rad = .ok x := by
  obtain ⟨v, e, hv⟩ := strip_rel (un := .rad) ha rfl
  rw [e, ← hv]; congr 1
  exact (c_one_mul v).symm

theorem one_strip (ha : a.Rel {} x) : a.strip .one = .ok x := by
  obtain ⟨v, e, hv⟩ := strip_rel (un := .one) ha rfl
  rw [e, ← hv]; congr 1
  exact (c_one_mul v).symm

theorem sin_rel (ha : a.Rel dA x) : ∃ r, a.sin = .ok r ∧ r.Rel {} (Num.sin x) :=
  ⟨⟨Num.sin x, .one⟩, by rw [UQ.sin, rad_strip ha]; rfl, rfl, c_one_mul _⟩

theorem cos_rel (ha : a.Rel dA x) : ∃ r, a.cos = .ok r ∧ r.Rel {} (Num.cos x) :=
  ⟨⟨Num.cos x, .one⟩, by rw [UQ.cos, rad_strip ha]; rfl, rfl, c_one_mul _⟩

theorem tan_rel (ha : a.Rel dA x) : RelRes (UQ.Rel {}) a.tan (Num.tan x) := by
  rw [UQ.tan, rad_strip ha]
  show RelRes _ (do let v ← Num.tan x; return (⟨v, .one⟩ : UQ α)) _
  cases Num.tan x with
  | error e => exact .err e
  | ok v => exact .ok ⟨rfl, c_one_mul _⟩

theorem acos_rel (ha : a.Rel {} x) : RelRes (UQ.Rel dA) a.acos (Num.acos x) := by
  rw [UQ.acos, one_strip ha]
  show RelRes _ (do let v ← Num.acos x; return (⟨v, .rad⟩ : UQ α)) _
  cases Num.acos x with
  | error e => exact .err e
  | ok v => exact .ok ⟨rfl, c_one_mul _⟩

theorem atan2_rel (ha : a.Rel d y) (hb : b.Rel d x) : RelRes (UQ.Rel dA) (a.atan2 b) (Num.atan2 y x) := by
  obtain ⟨v, e, hv⟩ := strip_rel hb ha.1
  rw [UQ.atan2, e, ← hv, ← ha.2, UQ.phys, c_atan2_mul a.unit.pos]
  show RelRes _ (do let v ← Num.atan2 a.value v; return (⟨v, .rad⟩ : UQ α)) _
  cases Num.atan2 a.value v with
  | error e => exact .err e
  | ok v => exact .ok ⟨rfl, c_one_mul _⟩

theorem lt_rel (ha : a.Rel d x) (hb : b.Rel d y) : a.lt b = .ok (Num.lt x y) := by
  obtain ⟨v, e, hv⟩ := strip_rel hb ha.1
  rw [UQ.lt, e, ← hv, ← ha.2, UQ.phys, c_lt_mul a.unit.pos]; rfl

theorem zero_scale (c : ℝ) : (nat 0 : α) = const c * nat 0 := by
  rw [c_nat_eq, c_const_mul]; simp

theorem neg?_rel (ha : a.Rel d x) : a.neg? = Num.lt x (nat 0) := by
  rw [← ha.2, UQ.phys, zero_scale a.unit.scale, c_lt_mul a.unit.pos, UQ.neg?]

theorem pos?_rel (ha : a.Rel d x) : a.pos? = Num.lt (nat 0) x := by
  rw [← ha.2, UQ.phys, zero_scale a.unit.scale, c_lt_mul a.unit.pos, UQ.pos?]

theorem zero?_rel (ha : a.Rel d x) : a.zero? = Num.beq x (nat 0) := by
  rw [← ha.2, UQ.phys, zero_scale a.unit.scale, c_beq_mul a.unit.pos, UQ.zero?]

theorem wrap_rel (ha : a.Rel dA x) : a.wrap.Rel dA (Num.wrap x) := by
  refine ⟨ha.1, ?_⟩
  rw [← ha.2]
  show const a.unit.scale * (const (1 / a.unit.scale) * Num.wrap (const a.unit.scale * a.value)) = Num.wrap a.phys
  rw [c_mul_mul, mul_one_div_cancel a.unit.pos.ne', c_one_mul]; rfl

theorem select_rel (c : Bool) (ha : a.Rel d x) (hb : b.Rel d y) :
    ∃ r, UQ.select c a b = .ok r ∧ (r.Rel d (if c then x else y) ∧ r.unit = b.unit) := by
  obtain ⟨r, e, hr, hu⟩ := inUnit_rel ha hb.1
  rw [UQ.select, e]
  cases c
  · exact ⟨b, rfl, hb, rfl⟩
  · exact ⟨r, rfl, hr, hu⟩

theorem degs_rel (n : ℕ) : (UQ.degs n : UQ α).Rel dA (const (Real.pi / 180 * n)) :=
  ⟨rfl, by show const (Real.pi / 180) * nat n = _; rw [c_nat_eq, c_const_mul]⟩

theorem degs0 : (UQ.degs 0 : UQ α).Rel dA (nat 0) := by
  have := degs_rel (α := α) 0
  rwa [c_nat_eq, show Real.pi / 180 * ((0 : ℕ) : ℝ) = ((0 : ℕ) : ℝ) by simp] at *

theorem degs90 : (UQ.degs 90 : UQ α).Rel dA (const (Real.pi / 2)) := by
  have := degs_rel (α := α) 90
  rwa [show Real.pi / 180 * ((90 : ℕ) : ℝ) = Real.pi / 2 by push_cast; ring] at this

theorem degs180 : (UQ.degs 180 : UQ α).Rel dA pi := by
  have := degs_rel (α := α) 180
  rwa [show Real.pi / 180 * ((180 : ℕ) : ℝ) = Real.pi by push_cast; ring, ← c_pi_eq] at this

theorem degs360 : (UQ.degs 360 : UQ α).Rel dA twoPi := by
  have := degs_rel (α := α) 360
  rwa [show Real.pi / 180 * ((360 : ℕ) : ℝ) = ((2 : ℕ) : ℝ) * Real.pi by push_cast; ring, ← c_const_mul, ← c_nat_eq,
    ← c_pi_eq] at this

theorem halfPi_eq : (halfPi : Res α) = .ok (const (Real.pi / 2)) := by
  rw [halfPi, c_pi_eq, c_nat_eq, c_div_const (by norm_num)]
  norm_num

theorem half_eq : Num.div (nat 1 : α) (nat 2) = .ok (const (1 / 2)) := by
  rw [c_nat_eq, c_nat_eq, c_div_const (by norm_num)]
  norm_num

theorem pcAU_eq : (pcAU : Res α) = .ok (const (648000 / Real.pi)) := by
  rw [pcAU, c_pi_eq, c_nat_eq, c_div_const Real.pi_ne_zero]
  norm_num

omit [LawfulCNum α] in
theorem ofDim_rel (ha : a.Rel d x) : ofDim d a = .ok a := by rw [ofDim, if_pos ha.1]

end

/-! ### Change of scalars -/

/-- apply a function to the stored value, keeping the distance class -/
def Dist.tr {α β : Type} (f : α → β) : Dist α → Dist β
  | .dist a => .dist (f a)
  | .par a => .par (f a)
  | .dm a => .dm (f a)

/-- componentwise -/
def Pos.tr {α β : Type} (f : α → β) : Pos α → Pos β
  | .cart1 x => .cart1 (f x)
  | .radial r => .radial (r.tr f)
  | .cart2 x y => .cart2 (f x) (f y)
  | .polar r phi => .polar (r.tr f) (f phi)
  | .twoSphere theta phi => .twoSphere (f theta) (f phi)
  | .cart3 x y z => .cart3 (f x) (f y) (f z)
  | .cyl rho phi z => .cyl (f rho) (f phi) (f z)
  | .sph r theta phi => .sph (r.tr f) (f theta) (f phi)
  | .lonlat lon lat d => .lonlat (f lon) (f lat) (d.tr f)
  | .math r theta phi => .math (r.tr f) (f theta) (f phi)
  | .prolate mu nu phi delta => .prolate (f mu) (f nu) (f phi) (f delta)

/-- keyword arguments -/
def Kw.tr {α β : Type} (f : α → β) (kw : Kw α) : Kw β where
  y := kw.y.map f
  z := kw.z.map f
  theta := kw.theta.map f
  phi := kw.phi.map f
  delta := kw.delta.map f

section
variable {α : Type} [CNum α]

/-- what the constructors of the distance classes check -/
def Dist.WD : Dist (UQ α) → Prop
  | .dist q => q.unit.dim = dL
  | .par q => q.unit.dim = dA
  | .dm q => q.unit = RUnit.mag

/-- the physical types the field converters enforce -/
def Pos.WD : Pos (UQ α) → Prop
  | .cart1 x => x.unit.dim = dL
  | .radial r => r.WD
  | .cart2 x y => x.unit.dim = dL ∧ y.unit.dim = dL
  | .polar r phi => r.WD ∧ phi.unit.dim = dA
  | .twoSphere theta phi => theta.unit.dim = dA ∧ phi.unit.dim = dA
  | .cart3 x y z => x.unit.dim = dL ∧ y.unit.dim = dL ∧ z.unit.dim = dL
  | .cyl rho phi z => rho.unit.dim = dL ∧ phi.unit.dim = dA ∧ z.unit.dim = dL
  | .sph r theta phi => r.WD ∧ theta.unit.dim = dA ∧ phi.unit.dim = dA
  | .lonlat lon lat d => lon.unit.dim = dA ∧ lat.unit.dim = dA ∧ d.WD
  | .math r theta phi => r.WD ∧ theta.unit.dim = dA ∧ phi.unit.dim = dA
  | .prolate mu nu phi delta => mu.unit.dim = dL2 ∧ nu.unit.dim = dL2 ∧ phi.unit.dim = dA ∧ delta.unit.dim = dL

/-- keyword arguments of the right physical types -/
structure Kw.WD (kw : Kw (UQ α)) : Prop where
  y : ∀ q ∈ kw.y, q.unit.dim = dL
  z : ∀ q ∈ kw.z, q.unit.dim = dL
  theta : ∀ q ∈ kw.theta, q.unit.dim = dA
  phi : ∀ q ∈ kw.phi, q.unit.dim = dA
  delta : ∀ q ∈ kw.delta, q.unit.dim = dL

/-- azimuth argument that is an angle -/
def AzArg.Rel : AzArg (UQ α) → AzArg α → Prop
  | .qty q, .qty x => q.Rel dA x
  | .angle q, .angle x => q.Rel dA x
  | _, _ => False

/-- a distance and its value in base units -/
def Dist.Rel (r : Dist (UQ α)) (r' : Dist α) : Prop := r.WD ∧ r.tr UQ.phys = r'

/-- a position and its components in base units -/
def Pos.Rel (p : Pos (UQ α)) (p' : Pos α) : Prop := p.WD ∧ p.tr UQ.phys = p'

end

section
variable {α : Type} [CNum α] [LawfulCNum α] {x y z : UQ α} {x' y' z' : α} {r : Dist (UQ α)} {r' : Dist α}
  {az : AzArg (UQ α)} {az' : AzArg α}

theorem az_rel (h : az.Rel az') : ∃ q, az.convertU = .ok q ∧ q.Rel dA az'.convert := by
  cases az <;> cases az' <;> try exact h.elim
  · refine ⟨_, ?_, wrap_rel h⟩
    rw [AzArg.convertU, ofDim_rel h]; rfl
  · exact ⟨_, rfl, h⟩

omit [LawfulCNum α] in
theorem dist_dist (h : x.Rel dL x') : Dist.Rel (.dist x) (.dist x') := ⟨h.1, by rw [Dist.tr, h.2]⟩

omit [LawfulCNum α] in
theorem radialFrom_len (h : x.Rel dL x') : radialFrom x = .ok (.dist x) := by rw [radialFrom, if_pos h.1]

omit [LawfulCNum α] in
theorem dist_raw (h : r.Rel r') : ∃ d, r.raw.Rel d r'.raw := by
  obtain ⟨h, rfl⟩ := h
  cases r <;> exact ⟨_, rfl, rfl⟩

theorem dist_neg (h : r.Rel r') : (r.mapRaw UQ.neg).Rel (r'.mapRaw fun v => -v) := by
  obtain ⟨h, rfl⟩ := h
  cases r with
  | dist q => exact ⟨h, congrArg Dist.dist (neg_rel (UQ.rel_self h)).2⟩
  | par q => exact ⟨h, congrArg Dist.par (neg_rel (UQ.rel_self h)).2⟩
  | dm q => exact ⟨h, congrArg Dist.dm (neg_rel (UQ.rel_self rfl)).2⟩

theorem distance_par (h : x.Rel dA x') : RelRes (UQ.Rel dL) (Dist.par x).distanceU (Dist.par x').distance := by
  refine (tan_rel h).bind fun t t' ht => ?_
  have h1 : (⟨nat 1, .au⟩ : UQ α).Rel dL (nat 1) := ⟨rfl, c_one_mul _⟩
  refine (div_rel h1 ht).mono fun q v hq => ?_
  have := hq.1
  rwa [RDim.div_one] at this

theorem distance_dm (h : x.Rel RUnit.mag.dim x') (hu : x.unit = RUnit.mag) :
    RelRes (UQ.Rel dL) (Dist.dm x).distanceU (Dist.dm x').distance := by
  have e : x.value = x' := by
    rw [← h.2, UQ.phys, hu]; exact (c_one_mul _).symm
  show RelRes _ (do let e ← Num.div x.value (nat 5); return (⟨pow10 (e + nat 1), .pc⟩ : UQ α))
    (do let e ← Num.div x' (nat 5); let pc ← pcAU; return pow10 (e + nat 1) * pc)
  rw [e, pcAU_eq]
  cases Num.div x' (nat 5) with
  | error e => exact .err e
  | ok v => exact .ok ⟨rfl, c_mul_comm _ _⟩

theorem distance_rel (h : r.Rel r') : RelRes (UQ.Rel dL) r.distanceU r'.distance := by
  obtain ⟨h, rfl⟩ := h
  cases r with
  | dist q => exact .ok (UQ.rel_self h)
  | par q => exact distance_par (UQ.rel_self h)
  | dm q => exact distance_dm (UQ.rel_self (by rw [show q.unit = RUnit.mag from h])) h

omit [LawfulCNum α] in
/-- a distance is a length, or another physical type and then no length -/
theorem raw_length (h : r.Rel r') :
    (∃ q x, r = .dist q ∧ r' = .dist x ∧ q.Rel dL x) ∨ (r.raw.unit.dim ≠ dL ∧ r'.asLength = .error .units) := by
  obtain ⟨h, rfl⟩ := h
  cases r with
  | dist q => exact .inl ⟨q, _, rfl, rfl, h, rfl⟩
  | par q => exact .inr ⟨by show q.unit.dim ≠ _; rw [show q.unit.dim = dA from h]; exact dA_ne_dL, rfl⟩
  | dm q => exact .inr ⟨by show q.unit.dim ≠ _; rw [show q.unit = RUnit.mag from h]; exact dM_ne_dL, rfl⟩

theorem scaleThenFrom_rel (h : r.Rel r') (hx : x.Rel {} x') :
    RelRes Dist.Rel (radialFrom (r.raw.mul x)) (r'.scaleThenFrom x') := by
  obtain ⟨h, rfl⟩ := h
  cases r with
  | dist q =>
    have hm := mul_one_rel (UQ.rel_self (show q.unit.dim = dL from h)) hx
    show RelRes _ (radialFrom (q.mul x)) _
    rw [radialFrom_len hm]
    exact .ok (dist_dist hm)
  | par q =>
    have hm := mul_one_rel (UQ.rel_self (show q.unit.dim = dA from h)) hx
    show RelRes _ (radialFrom (q.mul x)) (do return Dist.dist (← (Dist.par (q.phys * x')).distance))
    rw [radialFrom, if_neg (by rw [hm.1]; exact dA_ne_dL), if_pos hm.1]
    exact (distance_par hm).bind fun a b hab => .ok (dist_dist hab)
  | dm q =>
    have hm := mul_one_rel (UQ.rel_self (show q.unit.dim = RUnit.mag.dim by rw [show q.unit = RUnit.mag from h])) hx
    show RelRes _ (radialFrom (q.mul x)) (do return Dist.dist (← (Dist.dm (q.phys * x')).distance))
    rw [radialFrom, if_neg (by rw [hm.1]; exact dM_ne_dL), if_neg (by rw [hm.1]; exact dM_ne_dA), if_pos hm.1]
    obtain ⟨s, e, hs, hu⟩ := inUnit_rel (un := .mag) hm rfl
    rw [e]
    exact (distance_dm hs hu).bind fun a b hab => .ok (dist_dist hab)

/-! ### Checks and constructors -/

theorem checkNonNeg_rel {d : RDim} (h : x.Rel d x') : checkNonNegU x = checkNonNeg x' := by
  rw [checkNonNegU, checkNonNeg, neg?_rel h]

theorem checkPos_rel {d : RDim} (h : x.Rel d x') : checkPosU x = checkPos x' := by
  rw [checkPosU, checkPos, pos?_rel h]

theorem checkRange_rel {d : RDim} (h : x.Rel d x') (hl : y.Rel d y') (hh : z.Rel d z') :
    checkRangeU x y z = checkRange x' y' z' := by
  rw [checkRangeU, lt_rel h hl, lt_rel hh h]; rfl

theorem checkNotLt_rel {d : RDim} (h : x.Rel d x') (hl : y.Rel d y') :
    checkNotLtU x y = if Num.lt x' y' then .error .check else .ok () := by
  rw [checkNotLtU, lt_rel h hl]; rfl

/-- a check that both sides make -/
theorem RelRes.check {C D : Type} {S : C → D → Prop} {m m' : Res Unit} {f : Unit → Res C} {g : Unit → Res D}
    (h : m = m') (k : RelRes S (f ()) (g ())) : RelRes S (m >>= f) (m' >>= g) := by
  subst h
  cases m with
  | error e => exact .err e
  | ok u => exact k

omit [LawfulCNum α] in
theorem mkCart1_rel (hx : x.Rel dL x') : RelRes Pos.Rel (mkCart1U x) (mkCart1 x') := by
  rw [mkCart1U, ofDim_rel hx]
  exact .ok ⟨hx.1, by rw [Pos.tr, hx.2]⟩

omit [LawfulCNum α] in
theorem mkCart2_rel (hx : x.Rel dL x') (hy : y.Rel dL y') : RelRes Pos.Rel (mkCart2U x y) (mkCart2 x' y') := by
  rw [mkCart2U, ofDim_rel hx, ofDim_rel hy]
  exact .ok ⟨⟨hx.1, hy.1⟩, by rw [Pos.tr, hx.2, hy.2]⟩

omit [LawfulCNum α] in
theorem mkCart3_rel (hx : x.Rel dL x') (hy : y.Rel dL y') (hz : z.Rel dL z') :
    RelRes Pos.Rel (mkCart3U x y z) (mkCart3 x' y' z') := by
  rw [mkCart3U, ofDim_rel hx, ofDim_rel hy, ofDim_rel hz]
  exact .ok ⟨⟨hx.1, hy.1, hz.1⟩, by rw [Pos.tr, hx.2, hy.2, hz.2]⟩

theorem mkRadial_rel (hr : r.Rel r') : RelRes Pos.Rel (mkRadialU r) (mkRadial r') := by
  obtain ⟨d, hd⟩ := dist_raw hr
  exact .check (checkNonNeg_rel hd) (.ok ⟨hr.1, congrArg Pos.radial hr.2⟩)

theorem mkPolar_rel (hr : r.Rel r') (ha : az.Rel az') : RelRes Pos.Rel (mkPolarU r az) (mkPolar r' az') := by
  obtain ⟨d, hd⟩ := dist_raw hr
  refine .left (az_rel ha) fun q hq => ?_
  exact .check (checkNonNeg_rel hd) (.ok ⟨⟨hr.1, hq.1⟩, by rw [Pos.tr, hr.2, hq.2]⟩)

theorem mkCyl_rel (hx : x.Rel dL x') (ha : az.Rel az') (hz : z.Rel dL z') :
    RelRes Pos.Rel (mkCylU x az z) (mkCyl x' az' z') := by
  refine .leftOk (ofDim_rel hx) ?_
  refine .left (az_rel ha) fun q hq => ?_
  refine .leftOk (ofDim_rel hz) ?_
  exact .check (checkNonNeg_rel hx) (.ok ⟨⟨hx.1, hq.1, hz.1⟩, by rw [Pos.tr, hx.2, hq.2, hz.2]⟩)

theorem mkSph_rel (hr : r.Rel r') (hx : x.Rel dA x') (ha : az.Rel az') :
    RelRes Pos.Rel (mkSphU r x az) (mkSph r' x' az') := by
  obtain ⟨d, hd⟩ := dist_raw hr
  refine .leftOk (ofDim_rel hx) ?_
  refine .left (az_rel ha) fun q hq => ?_
  exact .check (checkNonNeg_rel hd) (.check (checkRange_rel hx degs0 degs180)
    (.ok ⟨⟨hr.1, hx.1, hq.1⟩, by rw [Pos.tr, hr.2, hx.2, hq.2]⟩))

theorem mkMath_rel (hr : r.Rel r') (ha : az.Rel az') (hx : x.Rel dA x') :
    RelRes Pos.Rel (mkMathU r az x) (mkMath r' az' x') := by
  obtain ⟨d, hd⟩ := dist_raw hr
  refine .left (az_rel ha) fun q hq => ?_
  refine .leftOk (ofDim_rel hx) ?_
  exact .check (checkNonNeg_rel hd) (.check (checkRange_rel hx degs0 degs180)
    (.ok ⟨⟨hr.1, hq.1, hx.1⟩, by rw [Pos.tr, hr.2, hx.2, hq.2]⟩))

theorem mkLonLat_rel (ha : az.Rel az') (hx : x.Rel dA x') (hr : r.Rel r') :
    RelRes Pos.Rel (mkLonLatU az x r) (mkLonLat az' x' r') := by
  obtain ⟨d, hd⟩ := dist_raw hr
  refine .left (az_rel ha) fun q hq => ?_
  refine .leftOk (ofDim_rel hx) ?_
  refine .right halfPi_eq ?_
  exact .check (checkRange_rel hx (neg_rel degs90) degs90) (.check (checkNonNeg_rel hd)
    (.ok ⟨⟨hq.1, hx.1, hr.1⟩, by rw [Pos.tr, hr.2, hx.2, hq.2]⟩))

end

end Verif
