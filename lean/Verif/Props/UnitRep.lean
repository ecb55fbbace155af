import Verif.UnitVelMain
import Verif.BatchVelLemmas
import Verif.Props.Convert
import Verif.Props.Velocity

/-!
# C61: conversions do not depend on the units of the components

Specification: a quantity is a value and a unit; two quantities are *the same* if they have the same physical type and
`value * scale of the unit` agrees. Vectors are the same if they have the same class and the same components.
-/

namespace Verif

open Num

namespace Spec

/-- the value in the base unit of the physical type (AU, radian, ...) -/
def baseVal (q : UQ ℝ) : ℝ := q.value * q.unit.scale

/-- same physical type, same value -/
def SameUQ (q q' : UQ ℝ) : Prop := q.unit.dim = q'.unit.dim ∧ baseVal q = baseVal q'

/-- lengths -/ def IsLength (q : UQ ℝ) : Prop := q.unit.dim = { len := 1 }
/-- angles -/ def IsAngle (q : UQ ℝ) : Prop := q.unit.dim = { angle := 1 }
/-- areas -/ def IsArea (q : UQ ℝ) : Prop := q.unit.dim = { len := 2 }

/-- the physical types that the classes `Distance`, `Parallax` and `DistanceModulus` accept -/
def DistTyped : Dist (UQ ℝ) → Prop
  | .dist q => IsLength q
  | .par q => IsAngle q
  | .dm q => q.unit = RUnit.mag

/-- the physical types that the fields of the position classes accept -/
def PosTyped : Pos (UQ ℝ) → Prop
  | .cart1 x => IsLength x
  | .radial r => DistTyped r
  | .cart2 x y => IsLength x ∧ IsLength y
  | .polar r phi => DistTyped r ∧ IsAngle phi
  | .twoSphere theta phi => IsAngle theta ∧ IsAngle phi
  | .cart3 x y z => IsLength x ∧ IsLength y ∧ IsLength z
  | .cyl rho phi z => IsLength rho ∧ IsAngle phi ∧ IsLength z
  | .sph r theta phi => DistTyped r ∧ IsAngle theta ∧ IsAngle phi
  | .lonlat lon lat d => IsAngle lon ∧ IsAngle lat ∧ DistTyped d
  | .math r theta phi => DistTyped r ∧ IsAngle theta ∧ IsAngle phi
  | .prolate mu nu phi delta => IsArea mu ∧ IsArea nu ∧ IsAngle phi ∧ IsLength delta

/-- keyword arguments of the right physical type -/
def KwTyped (kw : Kw (UQ ℝ)) : Prop :=
  (∀ q ∈ kw.y, IsLength q) ∧ (∀ q ∈ kw.z, IsLength q) ∧ (∀ q ∈ kw.theta, IsAngle q) ∧ (∀ q ∈ kw.phi, IsAngle q) ∧
    ∀ q ∈ kw.delta, IsLength q

/-- speeds (`n = 1`), accelerations (`n = 2`) -/
def IsRate (n : ℕ) (q : UQ ℝ) : Prop := q.unit.dim = { len := 1, time := -n }
/-- angular speeds and accelerations -/
def IsAngRate (n : ℕ) (q : UQ ℝ) : Prop := q.unit.dim = { angle := 1, time := -n }
/-- diffusivities, specific energies -/
def IsAreaRate (n : ℕ) (q : UQ ℝ) : Prop := q.unit.dim = { len := 2, time := -n }

/-- the physical types that the fields of the velocity (`n = 1`) and acceleration (`n = 2`) classes accept -/
def VelTyped (n : ℕ) : Vel (UQ ℝ) → Prop
  | .cart1 x => IsRate n x
  | .radial r => IsRate n r
  | .cart2 x y => IsRate n x ∧ IsRate n y
  | .polar r phi => IsRate n r ∧ IsAngRate n phi
  | .twoSphere theta phi => IsAngRate n theta ∧ IsAngRate n phi
  | .cart3 x y z => IsRate n x ∧ IsRate n y ∧ IsRate n z
  | .cyl rho phi z => IsRate n rho ∧ IsAngRate n phi ∧ IsRate n z
  | .sph r theta phi => IsRate n r ∧ IsAngRate n theta ∧ IsAngRate n phi
  | .lonlat lon lat d => IsAngRate n lon ∧ IsAngRate n lat ∧ IsRate n d
  | .lonCosLat lon lat d => IsAngRate n lon ∧ IsAngRate n lat ∧ IsRate n d
  | .math r theta phi => IsRate n r ∧ IsAngRate n theta ∧ IsAngRate n phi
  | .prolate mu nu phi => IsAreaRate n mu ∧ IsAreaRate n nu ∧ IsAngRate n phi

/-- same distance class, same quantity -/
inductive SameDist : Dist (UQ ℝ) → Dist (UQ ℝ) → Prop
  | dist {q q'} : SameUQ q q' → SameDist (.dist q) (.dist q')
  | par {q q'} : SameUQ q q' → SameDist (.par q) (.par q')
  | dm {q q'} : SameUQ q q' → SameDist (.dm q) (.dm q')

/-- same class, same components -/
inductive SameUVec : Pos (UQ ℝ) → Pos (UQ ℝ) → Prop
  | cart1 {x x'} : SameUQ x x' → SameUVec (.cart1 x) (.cart1 x')
  | radial {r r'} : SameDist r r' → SameUVec (.radial r) (.radial r')
  | cart2 {x x' y y'} : SameUQ x x' → SameUQ y y' → SameUVec (.cart2 x y) (.cart2 x' y')
  | polar {r r' y y'} : SameDist r r' → SameUQ y y' → SameUVec (.polar r y) (.polar r' y')
  | twoSphere {x x' y y'} : SameUQ x x' → SameUQ y y' → SameUVec (.twoSphere x y) (.twoSphere x' y')
  | cart3 {x x' y y' z z'} : SameUQ x x' → SameUQ y y' → SameUQ z z' → SameUVec (.cart3 x y z) (.cart3 x' y' z')
  | cyl {x x' y y' z z'} : SameUQ x x' → SameUQ y y' → SameUQ z z' → SameUVec (.cyl x y z) (.cyl x' y' z')
  | sph {r r' y y' z z'} : SameDist r r' → SameUQ y y' → SameUQ z z' → SameUVec (.sph r y z) (.sph r' y' z')
  | lonlat {x x' y y' r r'} : SameUQ x x' → SameUQ y y' → SameDist r r' → SameUVec (.lonlat x y r) (.lonlat x' y' r')
  | math {r r' y y' z z'} : SameDist r r' → SameUQ y y' → SameUQ z z' → SameUVec (.math r y z) (.math r' y' z')
  | prolate {x x' y y' z z' w w'} : SameUQ x x' → SameUQ y y' → SameUQ z z' → SameUQ w w' →
      SameUVec (.prolate x y z w) (.prolate x' y' z' w')

/-- an optional argument -/
def SameOpt (o o' : Option (UQ ℝ)) : Prop := Option.Rel SameUQ o o'

/-- same keyword arguments -/
def SameKwargs (kw kw' : Kw (UQ ℝ)) : Prop :=
  SameOpt kw.y kw'.y ∧ SameOpt kw.z kw'.z ∧ SameOpt kw.theta kw'.theta ∧ SameOpt kw.phi kw'.phi ∧
    SameOpt kw.delta kw'.delta

/-- same class, same components -/
def SameRates (v v' : Vel (UQ ℝ)) : Prop := v.kind = v'.kind ∧ List.Forall₂ SameUQ v.comps v'.comps

/-- both calls return, and the results are related; or both raise the same error -/
inductive SameOutcome {A B : Type} (R : A → B → Prop) : Res A → Res B → Prop
  | returns {a b} : R a b → SameOutcome R (.ok a) (.ok b)
  | raises (e) : SameOutcome R (.error e) (.error e)

/-- the distance with its value in base units -/
def baseDist : Dist (UQ ℝ) → Dist ℝ
  | .dist q => .dist (baseVal q)
  | .par q => .par (baseVal q)
  | .dm q => .dm (baseVal q)

/-- the vector with its components in base units -/
def basePos : Pos (UQ ℝ) → Pos ℝ
  | .cart1 x => .cart1 (baseVal x)
  | .radial r => .radial (baseDist r)
  | .cart2 x y => .cart2 (baseVal x) (baseVal y)
  | .polar r phi => .polar (baseDist r) (baseVal phi)
  | .twoSphere theta phi => .twoSphere (baseVal theta) (baseVal phi)
  | .cart3 x y z => .cart3 (baseVal x) (baseVal y) (baseVal z)
  | .cyl rho phi z => .cyl (baseVal rho) (baseVal phi) (baseVal z)
  | .sph r theta phi => .sph (baseDist r) (baseVal theta) (baseVal phi)
  | .lonlat lon lat d => .lonlat (baseVal lon) (baseVal lat) (baseDist d)
  | .math r theta phi => .math (baseDist r) (baseVal theta) (baseVal phi)
  | .prolate mu nu phi delta => .prolate (baseVal mu) (baseVal nu) (baseVal phi) (baseVal delta)

/-- keyword arguments in base units -/
def baseKw (kw : Kw (UQ ℝ)) : Kw ℝ :=
  ⟨kw.y.map baseVal, kw.z.map baseVal, kw.theta.map baseVal, kw.phi.map baseVal, kw.delta.map baseVal⟩

end Spec

open Spec

/-! ### The specification and the model's notions -/

theorem base_eq (q : UQ ℝ) : baseVal q = q.phys := mul_comm _ _
theorem base_fun : baseVal = UQ.phys := funext base_eq
theorem area_dim : RUnit.au.dim.mul RUnit.au.dim = { len := 2 } := by simp [RUnit.au, RDim.mul]; norm_num

theorem basePos_eq (p : Pos (UQ ℝ)) : basePos p = p.tr UQ.phys := by
  have hd : ∀ r, baseDist r = r.tr UQ.phys := fun r => by cases r <;> simp only [baseDist, Dist.tr, base_eq]
  cases p <;> simp only [basePos, Pos.tr, base_eq, hd]
theorem baseKw_eq (kw : Kw (UQ ℝ)) : baseKw kw = kw.tr UQ.phys := by simp only [baseKw, Kw.tr, base_fun]

theorem distTyped_iff (r : Dist (UQ ℝ)) : DistTyped r ↔ r.WD := by cases r <;> exact Iff.rfl
theorem posTyped_iff (p : Pos (UQ ℝ)) : PosTyped p ↔ p.WD := by
  cases p <;> simp only [PosTyped, Pos.WD, IsArea, ← area_dim] <;>
    (try simp only [distTyped_iff]) <;> exact Iff.rfl
theorem kwTyped_wd {kw : Kw (UQ ℝ)} (h : KwTyped kw) : kw.WD := ⟨h.1, h.2.1, h.2.2.1, h.2.2.2.1, h.2.2.2.2⟩

theorem perTime_len (n : ℕ) : perTime n RUnit.au.dim = { len := 1, time := -n } := by
  simp [perTime, RUnit.au, RDim.div, RDim.mul, RDim.pow]
theorem perTime_ang (n : ℕ) : perTime n RUnit.rad.dim = { angle := 1, time := -n } := by
  simp [perTime, RUnit.rad, RDim.div, RDim.mul, RDim.pow]
theorem perTime_area (n : ℕ) : perTime n (RUnit.au.dim.mul RUnit.au.dim) = { len := 2, time := -n } := by
  rw [area_dim]; simp [perTime, RDim.div, RDim.mul, RDim.pow]

theorem velTyped_iff (n : ℕ) (v : Vel (UQ ℝ)) : VelTyped n v ↔ v.Has (perTime n) := by
  cases v <;>
    simp only [VelTyped, Vel.Has, Vel.comps, Vel.kind, VKind.fieldDims, List.map, perTime_len, perTime_ang, perTime_area,
      List.cons.injEq, and_true, IsRate, IsAngRate, IsAreaRate]

theorem sameDist_tr {r r' : Dist (UQ ℝ)} (h : SameDist r r') : r.tr UQ.phys = r'.tr UQ.phys := by
  cases h <;> rename_i h <;> simp only [Dist.tr, ← base_eq, h.2]

theorem sameVec_tr {p p' : Pos (UQ ℝ)} (h : SameUVec p p') : p.tr UQ.phys = p'.tr UQ.phys := by
  cases h with
  | cart1 a => simp only [Pos.tr, ← base_eq, a.2]
  | radial a => simp only [Pos.tr, sameDist_tr a]
  | cart2 a b => simp only [Pos.tr, ← base_eq, a.2, b.2]
  | polar a b => simp only [Pos.tr, sameDist_tr a, ← base_eq, b.2]
  | twoSphere a b => simp only [Pos.tr, ← base_eq, a.2, b.2]
  | cart3 a b c => simp only [Pos.tr, ← base_eq, a.2, b.2, c.2]
  | cyl a b c => simp only [Pos.tr, ← base_eq, a.2, b.2, c.2]
  | sph a b c => simp only [Pos.tr, sameDist_tr a, ← base_eq, b.2, c.2]
  | lonlat a b c => simp only [Pos.tr, ← base_eq, a.2, b.2, sameDist_tr c]
  | math a b c => simp only [Pos.tr, sameDist_tr a, ← base_eq, b.2, c.2]
  | prolate a b c d => simp only [Pos.tr, ← base_eq, a.2, b.2, c.2, d.2]

theorem sameQ_of {d : RDim} {a b : UQ ℝ} (ha : a.unit.dim = d) (hb : b.unit.dim = d) (h : a.phys = b.phys) : SameUQ a b :=
  ⟨ha.trans hb.symm, by rw [base_eq, base_eq, h]⟩

theorem sameDist_of {r r' : Dist (UQ ℝ)} (h : r.WD) (h' : r'.WD) (e : r.tr UQ.phys = r'.tr UQ.phys) : SameDist r r' := by
  cases r <;> cases r' <;> simp only [Dist.tr, Dist.dist.injEq, Dist.par.injEq, Dist.dm.injEq, reduceCtorEq] at e
  · exact .dist (sameQ_of h h' e)
  · exact .par (sameQ_of h h' e)
  · exact .dm (sameQ_of (congrArg RUnit.dim h) (congrArg RUnit.dim h') e)

theorem sameUVec_of {p p' : Pos (UQ ℝ)} (h : p.WD) (h' : p'.WD) (e : p.tr UQ.phys = p'.tr UQ.phys) : SameUVec p p' := by
  cases p with
  | cart1 x =>
    cases p' <;> first | (cases e; done) | skip
    injection e with a
    exact .cart1 (sameQ_of h h' a)
  | radial x =>
    cases p' <;> first | (cases e; done) | skip
    injection e with a
    exact .radial (sameDist_of h h' a)
  | cart2 x y =>
    cases p' <;> first | (cases e; done) | skip
    injection e with a b
    exact .cart2 (sameQ_of h.1 h'.1 a) (sameQ_of h.2 h'.2 b)
  | polar x y =>
    cases p' <;> first | (cases e; done) | skip
    injection e with a b
    exact .polar (sameDist_of h.1 h'.1 a) (sameQ_of h.2 h'.2 b)
  | twoSphere x y =>
    cases p' <;> first | (cases e; done) | skip
    injection e with a b
    exact .twoSphere (sameQ_of h.1 h'.1 a) (sameQ_of h.2 h'.2 b)
  | cart3 x y z =>
    cases p' <;> first | (cases e; done) | skip
    injection e with a b c
    exact .cart3 (sameQ_of h.1 h'.1 a) (sameQ_of h.2.1 h'.2.1 b) (sameQ_of h.2.2 h'.2.2 c)
  | cyl x y z =>
    cases p' <;> first | (cases e; done) | skip
    injection e with a b c
    exact .cyl (sameQ_of h.1 h'.1 a) (sameQ_of h.2.1 h'.2.1 b) (sameQ_of h.2.2 h'.2.2 c)
  | sph x y z =>
    cases p' <;> first | (cases e; done) | skip
    injection e with a b c
    exact .sph (sameDist_of h.1 h'.1 a) (sameQ_of h.2.1 h'.2.1 b) (sameQ_of h.2.2 h'.2.2 c)
  | lonlat x y z =>
    cases p' <;> first | (cases e; done) | skip
    injection e with a b c
    exact .lonlat (sameQ_of h.1 h'.1 a) (sameQ_of h.2.1 h'.2.1 b) (sameDist_of h.2.2 h'.2.2 c)
  | math x y z =>
    cases p' <;> first | (cases e; done) | skip
    injection e with a b c
    exact .math (sameDist_of h.1 h'.1 a) (sameQ_of h.2.1 h'.2.1 b) (sameQ_of h.2.2 h'.2.2 c)
  | prolate x y z w =>
    cases p' <;> first | (cases e; done) | skip
    injection e with a b c d
    exact .prolate (sameQ_of h.1 h'.1 a) (sameQ_of h.2.1 h'.2.1 b) (sameQ_of h.2.2.1 h'.2.2.1 c)
      (sameQ_of h.2.2.2 h'.2.2.2 d)

theorem sameOpt_map {o o' : Option (UQ ℝ)} (h : SameOpt o o') : o.map UQ.phys = o'.map UQ.phys := by
  cases h with
  | none => rfl
  | some h => simp only [Option.map_some, ← base_eq, h.2]

theorem sameKw_tr {kw kw' : Kw (UQ ℝ)} (h : SameKwargs kw kw') : kw.tr UQ.phys = kw'.tr UQ.phys := by
  simp only [Kw.tr, sameOpt_map h.1, sameOpt_map h.2.1, sameOpt_map h.2.2.1, sameOpt_map h.2.2.2.1,
    sameOpt_map h.2.2.2.2]

theorem forall₂_map {l l' : List (UQ ℝ)} (h : List.Forall₂ SameUQ l l') : l.map UQ.phys = l'.map UQ.phys := by
  induction h with
  | nil => rfl
  | cons h _ ih => simp only [List.map, ← base_eq, h.2]; exact congrArg _ ih

theorem forall₂_of {l l' : List (UQ ℝ)} (hd : l.map (fun q => q.unit.dim) = l'.map (fun q => q.unit.dim))
    (h : l.map UQ.phys = l'.map UQ.phys) : List.Forall₂ SameUQ l l' := by
  induction l generalizing l' with
  | nil => cases l' <;> first | exact .nil | cases h
  | cons a l ih =>
    cases l' with
    | nil => cases h
    | cons b l' =>
      simp only [List.map, List.cons.injEq] at hd h
      exact .cons ⟨hd.1, by rw [base_eq, base_eq, h.1]⟩ (ih hd.2 h.2)

theorem sameRates_map {v v' : Vel (UQ ℝ)} (h : SameRates v v') : v.map UQ.phys = v'.map UQ.phys :=
  Vel.ext' (by rw [Vel.kind_map, Vel.kind_map, h.1]) (by rw [Vel.comps_map, Vel.comps_map, forall₂_map h.2])

theorem sameRates_of {f : RDim → RDim} {v v' : Vel (UQ ℝ)} (h : v.Has f) (h' : v'.Has f)
    (e : v.map UQ.phys = v'.map UQ.phys) : SameRates v v' := by
  have hk : v.kind = v'.kind := by rw [← Vel.kind_map UQ.phys, e, Vel.kind_map]
  refine ⟨hk, forall₂_of ?_ ?_⟩
  · unfold Vel.Has at h h'; rw [h, h', hk]
  · rw [← Vel.comps_map, ← Vel.comps_map, e]

theorem RelRes.outcome {A B : Type} {R S : A → B → Prop} {m : Res A} {m' : Res B} (h : RelRes R m m')
    (k : ∀ a b, R a b → S a b) : SameOutcome S m m' := by
  cases h with
  | ok h => exact .returns (k _ _ h)
  | err e => exact .raises e

theorem RelRes.join {A B C : Type} {R : A → B → Prop} {R' : C → B → Prop} {S : A → C → Prop} {m : Res A} {t : Res B}
    {m' : Res C} (h : RelRes R m t) (h' : RelRes R' m' t) (k : ∀ a b c, R a b → R' c b → S a c) : SameOutcome S m m' := by
  cases h with
  | ok h => cases h' with | ok h' => exact .returns (k _ _ _ h h')
  | err e => cases h'; exact .raises e

theorem prolateUnits_of {kw : Kw (UQ ℝ)} {p : Pos (UQ ℝ)} {k : Kind} (h : p.kind = .prolate → k ≠ .prolate) :
    k = .prolate → ProlateUnits kw p := by
  intro e
  cases p <;> first | trivial | exact absurd e (h rfl)

/-! ### The theorems -/

/-- **C61.** `vec.represent_as(target, **kw)` with any units: it behaves as with all arguments given in base units, i.e.
it raises the same error or returns the same vector of the same class, with components of the physical types of the
class. Prolate spheroidal to prolate spheroidal: see `C61_prolate_to_prolate`. -/
theorem C61_as_in_base_units (kw : Kw (UQ ℝ)) (p : Pos (UQ ℝ)) (k : Kind) (hk : KwTyped kw) (hp : PosTyped p)
    (hs : p.kind = .prolate → k ≠ .prolate) :
    SameOutcome (fun q q' => PosTyped q ∧ basePos q = q') (representAsU kw p k)
      (representAs (baseKw kw) (basePos p) k) := by
  rw [baseKw_eq, basePos_eq]
  refine (representAs_rel (kwTyped_wd hk) ((posTyped_iff p).mp hp) k (prolateUnits_of hs)).outcome fun q q' h => ?_
  exact ⟨(posTyped_iff q).mpr h.1, (basePos_eq q).trans h.2⟩

/-- **C61.** Two calls with the same quantities in different units return the same vector, or raise the same error. -/
theorem C61_units_irrelevant (kw kw' : Kw (UQ ℝ)) (p p' : Pos (UQ ℝ)) (k : Kind) (hk : KwTyped kw) (hk' : KwTyped kw')
    (hp : PosTyped p) (hp' : PosTyped p') (h : SameUVec p p') (hkw : SameKwargs kw kw')
    (hs : p.kind = .prolate → k ≠ .prolate) :
    SameOutcome SameUVec (representAsU kw p k) (representAsU kw' p' k) := by
  have r := representAs_rel (kwTyped_wd hk) ((posTyped_iff p).mp hp) k (prolateUnits_of hs)
  have hkind : p'.kind = p.kind := by cases h <;> rfl
  have r' := representAs_rel (kwTyped_wd hk') ((posTyped_iff p').mp hp') k (prolateUnits_of (by rw [hkind]; exact hs))
  rw [← sameVec_tr h, ← sameKw_tr hkw] at r'
  exact r.join r' fun a b c ha hc => sameUVec_of ha.1 hc.1 (ha.2.trans hc.2.symm)

/-- **C61**, prolate spheroidal to prolate spheroidal: if the units are those of `Delta`, the conversion behaves as in
base units; otherwise it raises, even when no new `Delta` is given and nothing is to be done. -/
theorem C61_prolate_to_prolate (kw : Kw (UQ ℝ)) (mu nu phi delta : UQ ℝ) (hk : KwTyped kw)
    (hp : PosTyped (.prolate mu nu phi delta)) :
    (mu.unit = (kw.delta.getD delta).unit.mul (kw.delta.getD delta).unit ∧
        delta.unit = (kw.delta.getD delta).unit →
      SameOutcome (fun q q' => PosTyped q ∧ basePos q = q') (representAsU kw (.prolate mu nu phi delta) .prolate)
        (representAs (baseKw kw) (basePos (.prolate mu nu phi delta)) .prolate)) ∧
    (¬ (mu.unit = (kw.delta.getD delta).unit.mul (kw.delta.getD delta).unit ∧
        delta.unit = (kw.delta.getD delta).unit) →
      representAsU kw (.prolate mu nu phi delta) .prolate = .error .mismatch) := by
  refine ⟨fun h => ?_, fun h => representU_self_fails 199 kw _ rfl h⟩
  rw [baseKw_eq, basePos_eq]
  exact (representAs_rel (kwTyped_wd hk) ((posTyped_iff _).mp hp) .prolate fun _ => h).outcome fun q q' h =>
    ⟨(posTyped_iff q).mpr h.1, (basePos_eq q).trans h.2⟩

/-- **C61** with C01, C02: in any units, a converted vector of the same dimension is the same point of space. -/
theorem C61_same_point (kw : Kw (UQ ℝ)) (p q : Pos (UQ ℝ)) (k : Kind) (hk : KwTyped kw) (hp : PosTyped p)
    (hv : Valid (basePos p)) (hd : p.kind.dim = k.dim) (h : representAsU kw p k = .ok q) :
    q.kind = k ∧ PosTyped q ∧ point (basePos q) = point (basePos p) := by
  have hu : k = .prolate → ProlateUnits kw p := by
    rintro rfl
    by_contra hn
    have hs : p.kind = .prolate := by cases p <;> first | rfl | exact absurd trivial hn
    rw [show representAsU kw p .prolate = .error .mismatch from representU_self_fails 199 kw p hs hn] at h
    cases h
  have r := representAs_rel (kwTyped_wd hk) ((posTyped_iff p).mp hp) k hu
  rw [h, ← baseKw_eq, ← basePos_eq] at r
  generalize hX : representAs (baseKw kw) (basePos p) k = X at r
  cases r with
  | @ok _ b hq =>
    have hkind : (basePos p).kind = p.kind := by rw [basePos_eq, tr_kind]
    have g := represent_good _ _ _ _ _ hv (hkind ▸ hd) hX
    have e : basePos q = b := (basePos_eq q).trans hq.2
    refine ⟨?_, (posTyped_iff q).mpr hq.1, e ▸ g.point⟩
    rw [← g.kind, ← e, basePos_eq, tr_kind]

/-- **C61** for velocities: `represent_as(vel, target, position, **kw)` in any units behaves as in base units. (No
velocity of class `ProlateSpheroidalVel` converts to another class: `C61_prolate_velocity_raises`.) -/
theorem C61_velocity_as_in_base_units (kw : Kw (UQ ℝ)) (v : Vel (UQ ℝ)) (k : VKind) (p : Pos (UQ ℝ)) (hk : KwTyped kw)
    (hv : VelTyped 1 v) (hp : PosTyped p) (hs : v.kind = .prolate → k = .prolate) :
    SameOutcome (fun w w' => VelTyped 1 w ∧ w.map baseVal = w') (representVelU kw v k p)
      (representVel (baseKw kw) (v.map baseVal) k (basePos p)) := by
  rw [baseKw_eq, basePos_eq, base_fun]
  refine (representVel_rel (kwTyped_wd hk) ((posTyped_iff p).mp hp) ((velTyped_iff 1 v).mp hv) k
    fun h e => absurd (hs h) e).outcome fun w w' h => ?_
  exact ⟨(velTyped_iff 1 w).mpr h.2, h.1⟩

/-- **C61** for velocities: the units of velocity, position and keyword arguments are irrelevant. -/
theorem C61_velocity_units_irrelevant (kw kw' : Kw (UQ ℝ)) (v v' : Vel (UQ ℝ)) (k : VKind) (p p' : Pos (UQ ℝ))
    (hk : KwTyped kw) (hk' : KwTyped kw') (hv : VelTyped 1 v) (hv' : VelTyped 1 v') (hp : PosTyped p)
    (hp' : PosTyped p') (h : SameUVec p p') (hsv : SameRates v v') (hkw : SameKwargs kw kw')
    (hs : v.kind = .prolate → k = .prolate) :
    SameOutcome SameRates (representVelU kw v k p) (representVelU kw' v' k p') := by
  have r := representVel_rel (kwTyped_wd hk) ((posTyped_iff p).mp hp) ((velTyped_iff 1 v).mp hv) k
    fun h e => absurd (hs h) e
  have r' := representVel_rel (kwTyped_wd hk') ((posTyped_iff p').mp hp') ((velTyped_iff 1 v').mp hv') k
    fun h e => absurd (hs (hsv.1.trans h)) e
  rw [← sameVec_tr h, ← sameKw_tr hkw, ← sameRates_map hsv] at r'
  exact r.join r' fun a b c ha hc => sameRates_of ha.2 hc.2 (ha.1.trans hc.1.symm)

theorem prolate_source {kw : Kw (UQ ℝ)} {v : Vel (UQ ℝ)} {p q c : Pos (UQ ℝ)} (hk : kw.WD) (hp : p.WD)
    (hv : v.kind = .prolate) (h1 : representAsU kw p v.kind.integral = .ok q) (h2 : q.castDistanceU = .ok c) :
    c.kind = .prolate := by
  have hu : ProlateUnits kw p := by
    by_contra hn
    have hs : p.kind = .prolate := by cases p <;> first | rfl | exact absurd trivial hn
    rw [hv, show representAsU kw p VKind.prolate.integral = .error .mismatch from representU_self_fails 199 kw p hs hn] at h1
    cases h1
  have r := representAs_rel hk hp v.kind.integral fun _ => hu
  rw [h1] at r
  generalize hX : representAs (kw.tr UQ.phys) (p.tr UQ.phys) v.kind.integral = X at r
  have hq : q.kind = .prolate := by
    cases r with
    | ok hr => rw [← tr_kind UQ.phys, hr.2, representAs_kind hX, hv]; rfl
  cases q <;> first | (cases hq; done) | (cases h2; rfl)

theorem genericU_prolate (kw : Kw (UQ ℝ)) (v w : Vel (UQ ℝ)) (k : VKind) (p : Pos (UQ ℝ)) (hk : kw.WD) (hp : p.WD)
    (hv : v.kind = .prolate) : representVelGenericU kw v k p ≠ .ok w := by
  intro h
  unfold representVelGenericU at h
  obtain ⟨q, h1, h⟩ := (bind_ok_iff _ _ _).mp h
  obtain ⟨c, h2, h⟩ := (bind_ok_iff _ _ _).mp h
  rw [if_pos (.inl (prolate_source hk hp hv h1 h2))] at h
  cases h

/-- The excluded case of the theorems above: no conversion of a `ProlateSpheroidalVel` to another class returns, in any
units. -/
theorem C61_prolate_velocity_raises (kw : Kw (UQ ℝ)) (v w : Vel (UQ ℝ)) (k : VKind) (p : Pos (UQ ℝ)) (hk : KwTyped kw)
    (hp : PosTyped p) (hv : v.kind = .prolate) (hs : k ≠ .prolate) : representVelU kw v k p ≠ .ok w := by
  intro h
  have hp' := (posTyped_iff p).mp hp
  unfold representVelU at h
  split at h
  · cases h
  split at h
  · rename_i e; exact hs (e.1.symm.trans hv)
  cases v <;> try cases hv
  cases k with
  | prolate => exact hs rfl
  | lonCosLat =>
    simp only [toLonCosLatU, toLonLatU] at h
    rw [if_neg nofun] at h
    obtain ⟨u, h1, -⟩ := (bind_ok_iff _ _ _).mp h
    exact genericU_prolate _ _ _ _ _ kw_nil hp' rfl h1
  | _ => exact genericU_prolate _ _ _ _ _ (kwTyped_wd hk) hp' rfl h

/-- **C61** for accelerations: `represent_as(acc, target, velocity, position, **kw)` in any units behaves as in base
units. -/
theorem C61_acceleration_as_in_base_units (kw : Kw (UQ ℝ)) (a : Acc (UQ ℝ)) (k : VKind) (v : Vel (UQ ℝ)) (p : Pos (UQ ℝ))
    (hk : KwTyped kw) (ha : VelTyped 2 a) (hv : VelTyped 1 v) (hp : PosTyped p)
    (hs : a.kind = .prolate → p.kind ≠ .prolate) :
    SameOutcome (fun w w' => VelTyped 2 w ∧ w.map baseVal = w') (representAccU kw a k v p)
      (representAcc (baseKw kw) (a.map baseVal) k (v.map baseVal) (basePos p)) := by
  rw [baseKw_eq, basePos_eq, base_fun]
  refine (representAcc_rel (kwTyped_wd hk) ((posTyped_iff p).mp hp) ((velTyped_iff 2 a).mp ha) ((velTyped_iff 1 v).mp hv)
    k fun h => ?_).outcome fun w w' h => ⟨(velTyped_iff 2 w).mpr h.2, h.1⟩
  cases p <;> first | trivial | exact absurd rfl (hs h)

/-- **C61** for accelerations: the units are irrelevant. -/
theorem C61_acceleration_units_irrelevant (kw kw' : Kw (UQ ℝ)) (a a' : Acc (UQ ℝ)) (k : VKind) (v v' : Vel (UQ ℝ))
    (p p' : Pos (UQ ℝ)) (hk : KwTyped kw) (hk' : KwTyped kw') (ha : VelTyped 2 a) (ha' : VelTyped 2 a')
    (hv : VelTyped 1 v) (hv' : VelTyped 1 v') (hp : PosTyped p) (hp' : PosTyped p') (h : SameUVec p p')
    (hsa : SameRates a a') (hsv : SameRates v v') (hkw : SameKwargs kw kw')
    (hs : a.kind = .prolate → p.kind ≠ .prolate) :
    SameOutcome SameRates (representAccU kw a k v p) (representAccU kw' a' k v' p') := by
  have hkind : p'.kind = p.kind := by cases h <;> rfl
  have r := representAcc_rel (kwTyped_wd hk) ((posTyped_iff p).mp hp) ((velTyped_iff 2 a).mp ha)
    ((velTyped_iff 1 v).mp hv) k fun e => by cases p <;> first | trivial | exact absurd rfl (hs e)
  have r' := representAcc_rel (kwTyped_wd hk') ((posTyped_iff p').mp hp') ((velTyped_iff 2 a').mp ha')
    ((velTyped_iff 1 v').mp hv') k fun e => by
      have := hs (hsa.1.trans e)
      rw [← hkind] at this
      cases p' <;> trivial
  rw [← sameVec_tr h, ← sameKw_tr hkw, ← sameRates_map hsv, ← sameRates_map hsa] at r'
  exact r.join r' fun a b c ha hc => sameRates_of ha.2 hc.2 (ha.1.trans hc.1.symm)

/-- The excluded case of the theorem above: no conversion of a `ProlateSpheroidalAcc` returns, in any units. -/
theorem C61_prolate_acceleration_raises (kw : Kw (UQ ℝ)) (a w : Acc (UQ ℝ)) (k : VKind) (v : Vel (UQ ℝ))
    (p : Pos (UQ ℝ)) (hk : KwTyped kw) (hp : PosTyped p) (ha : a.kind = .prolate) : representAccU kw a k v p ≠ .ok w := by
  intro h
  unfold representAccU at h
  split at h
  · cases h
  split at h
  · rename_i e; rw [← e.1, ha] at e; exact absurd e.2 (by decide)
  unfold representAccGenericU at h
  obtain ⟨q, h1, h⟩ := (bind_ok_iff _ _ _).mp h
  obtain ⟨c, h2, h⟩ := (bind_ok_iff _ _ _).mp h
  obtain ⟨_, -, h⟩ := (bind_ok_iff _ _ _).mp h
  have hc := prolate_source (kwTyped_wd hk) ((posTyped_iff p).mp hp) ha h1 h2
  rw [if_pos (.inl hc)] at h
  cases h

theorem mkVelU_typed {n : ℕ} {v w : Vel (UQ ℝ)} (h : mkVelU n v = .ok w) : VelTyped n w := by
  unfold mkVelU at h
  split at h
  · rename_i e; obtain rfl := Except.ok.inj h; exact (velTyped_iff n v).mpr e
  · cases h

theorem genericU_typed {kw : Kw (UQ ℝ)} {v w : Vel (UQ ℝ)} {k : VKind} {p : Pos (UQ ℝ)}
    (h : representVelGenericU kw v k p = .ok w) : VelTyped 1 w := by
  unfold representVelGenericU at h
  obtain ⟨q, -, h⟩ := (bind_ok_iff _ _ _).mp h
  obtain ⟨c, -, h⟩ := (bind_ok_iff _ _ _).mp h
  split at h
  · cases h
  obtain ⟨cols, -, h⟩ := (bind_ok_iff _ _ _).mp h
  obtain ⟨u, -, h⟩ := (bind_ok_iff _ _ _).mp h
  exact mkVelU_typed h

/-- **C61**: whatever the physical types of the arguments, a velocity or acceleration converted to another class has
components of the physical types of that class. -/
theorem C61_result_typed (kw : Kw (UQ ℝ)) (v w : Vel (UQ ℝ)) (k : VKind) (p : Pos (UQ ℝ)) (hne : v.kind ≠ k) :
    (representVelU kw v k p = .ok w → VelTyped 1 w) ∧
    ∀ u, representAccU kw v k u p = .ok w → VelTyped 2 w := by
  constructor
  · intro h
    unfold representVelU at h
    split at h
    · cases h
    split at h
    · rename_i e; exact absurd e.1 hne
    have toC : ∀ v', toLonCosLatU v' p = .ok w → VelTyped 1 w := by
      intro v' h
      unfold toLonCosLatU at h
      obtain ⟨u, -, h⟩ := (bind_ok_iff _ _ _).mp h
      split at h
      · obtain ⟨_, -, h⟩ := (bind_ok_iff _ _ _).mp h
        obtain ⟨_, -, h⟩ := (bind_ok_iff _ _ _).mp h
        obtain ⟨_, -, h⟩ := (bind_ok_iff _ _ _).mp h
        exact mkVelU_typed h
      · cases h
    split at h
    · unfold lonCosLatToLonLatU at h
      obtain ⟨_, -, h⟩ := (bind_ok_iff _ _ _).mp h
      obtain ⟨_, -, h⟩ := (bind_ok_iff _ _ _).mp h
      obtain ⟨_, -, h⟩ := (bind_ok_iff _ _ _).mp h
      obtain ⟨_, -, h⟩ := (bind_ok_iff _ _ _).mp h
      exact mkVelU_typed h
    · obtain ⟨_, -, h⟩ := (bind_ok_iff _ _ _).mp h
      exact genericU_typed h
    · exact toC _ h
    · exact genericU_typed h
  · intro u h
    unfold representAccU at h
    split at h
    · cases h
    split at h
    · rename_i e; exact absurd e.1 hne
    unfold representAccGenericU at h
    obtain ⟨q, -, h⟩ := (bind_ok_iff _ _ _).mp h
    obtain ⟨c, -, h⟩ := (bind_ok_iff _ _ _).mp h
    obtain ⟨_, -, h⟩ := (bind_ok_iff _ _ _).mp h
    split at h
    · cases h
    obtain ⟨cols, -, h⟩ := (bind_ok_iff _ _ _).mp h
    obtain ⟨u, -, h⟩ := (bind_ok_iff _ _ _).mp h
    exact mkVelU_typed h

/-! ### Witnesses -/

/-- metres per second -/
noncomputable def mps : RUnit := RUnit.metre.div ⟨{ time := 1 }, 1, one_pos⟩
/-- astronomical units per day -/
noncomputable def auPerDay : RUnit := RUnit.au.div ⟨{ time := 1 }, 86400, by norm_num⟩

/-- 1 pc, 2 m, 3 AU: a vector with three units -/
example : PosTyped (.cart3 ⟨1, .pc⟩ ⟨2, .metre⟩ ⟨3, .au⟩) := ⟨rfl, rfl, rfl⟩

/-- the same point in AU and in pc -/
example : SameUVec (.cart3 ⟨648000 / Real.pi, .au⟩ ⟨0, .au⟩ ⟨1, .au⟩) (.cart3 ⟨1, .pc⟩ ⟨0, .metre⟩ ⟨149597870700, .metre⟩) :=
  .cart3 ⟨rfl, by simp [baseVal, RUnit.au, RUnit.pc]⟩ ⟨rfl, by simp [baseVal]⟩
    ⟨rfl, by simp [baseVal, RUnit.au, RUnit.metre]⟩

/-- 90 degrees and π/2 radians; the calls return -/
example : SameUVec (.cyl ⟨1, .au⟩ ⟨90, .deg⟩ ⟨2, .au⟩) (.cyl ⟨149597870700, .metre⟩ ⟨Real.pi / 2, .rad⟩ ⟨2, .au⟩) ∧
    ∃ q, representAsU {} (.cyl ⟨1, .au⟩ ⟨90, .deg⟩ ⟨2, .au⟩ : Pos (UQ ℝ)) .cart3 = .ok q := by
  refine ⟨.cyl ⟨rfl, by simp [baseVal, RUnit.au, RUnit.metre]⟩
    ⟨rfl, by simp only [baseVal, RUnit.deg, RUnit.rad]; ring⟩ ⟨rfl, rfl⟩, ?_⟩
  have h := C61_as_in_base_units {} (.cyl ⟨1, .au⟩ ⟨90, .deg⟩ ⟨2, .au⟩) .cart3
    ⟨nofun, nofun, nofun, nofun, nofun⟩ ⟨rfl, rfl, rfl⟩ nofun
  have hv : Valid (basePos (.cyl ⟨1, .au⟩ ⟨90, .deg⟩ ⟨2, .au⟩)) := by
    norm_num [Valid, basePos, baseVal, RUnit.au]
  obtain ⟨q, e⟩ := Props.C09_conversion_total (baseKw {}) _ .cart3 hv rfl (by decide) (by decide)
    (by
      intro e
      have := congrArg V3.z e
      simp [point, basePos, baseVal, RUnit.au, V3.zero, cylPoint] at this) nofun nofun
  rw [e] at h
  generalize representAsU {} (.cyl ⟨1, .au⟩ ⟨90, .deg⟩ ⟨2, .au⟩ : Pos (UQ ℝ)) .cart3 = X at h ⊢
  cases h with
  | returns _ => exact ⟨_, rfl⟩

/-- a velocity with three units -/
example : VelTyped 1 (.cart3 ⟨1, mps⟩ ⟨2, auPerDay⟩ ⟨3, mps⟩) := by
  refine ⟨?_, ?_, ?_⟩ <;>
    simp [IsRate, mps, auPerDay, RUnit.metre, RUnit.au, RUnit.div, RDim.div, RDim.mul, RDim.pow]

/-- a prolate vector that does not convert to its own class: `mu` in m², `Delta` in AU -/
example (nu phi : UQ ℝ) : representAsU {} (.prolate ⟨2, RUnit.metre.mul .metre⟩ nu phi ⟨1, .au⟩) .prolate =
    .error .mismatch := by
  refine representU_self_fails 199 {} _ rfl fun h => ?_
  have := congrArg RUnit.scale h.1
  norm_num [RUnit.mul, RUnit.metre, RUnit.au] at this

end Verif
