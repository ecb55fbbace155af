import Verif.UnitSpace
import Verif.Props.UnitOp
import Verif.Props.Space
import Verif.Props.Poincare
import Verif.Props.PhaseExact

/-!
# C70: Spaces and Poincaré polar vectors do not depend on the units of the components

Specification: Spaces and Poincaré polar vectors *in base units* (lengths in AU, angles in radian, times in seconds), using
`baseVal` and `basePos` of C61.
-/

namespace Verif

open Num Real

namespace Spec

/-- the physical types that the fields of the classes accept -/
def SVecTyped : SVecU → Prop
  | .pos p => PosTyped p
  | .vel v => VelTyped 1 v
  | .acc a => VelTyped 2 a

/-- a vector of a Space in base units -/
def baseSVec : SVecU → SVec
  | .pos p => .pos (basePos p)
  | .vel v => .vel (v.map baseVal)
  | .acc a => .acc (a.map baseVal)

/-- all vectors of the Space have the right physical types -/
def SpaceTyped (s : Space SVecU) : Prop := ∀ kv ∈ s.data, SVecTyped kv.2

/-- a Space in base units: the same keys in the same order -/
def baseSpace (s : Space SVecU) : Space SVec := ⟨s.data.map fun kv => (kv.1, baseSVec kv.2)⟩

/-- the Space has the right physical types, and is `s'` in base units -/
def DenotesSpace (s : Space SVecU) (s' : Space SVec) : Prop := SpaceTyped s ∧ baseSpace s = s'

/-- prolate spheroidal coordinates are in matching units: `mu` in the square of the unit of `Delta` -/
def MatchingUnits : Pos (UQ ℝ) → Prop
  | .prolate mu _ _ delta => mu.unit = delta.unit.mul delta.unit
  | _ => True

/-- the positions of the Space are in matching units -/
def SpaceMatching (s : Space SVecU) : Prop := ∀ k p, (k, SVecU.pos p) ∈ s.data → MatchingUnits p

/-- the square root of an angular momentum per unit mass -/
def IsRootMomentum (q : UQ ℝ) : Prop := q.unit.dim = { len := 1, angle := 1 / 2, time := -1 / 2 }

/-- the physical types of the components of a Poincaré polar vector -/
def PoincareTyped (w : PoincareU) : Prop :=
  IsLength w.rho ∧ IsRootMomentum w.ppPhi ∧ IsLength w.z ∧ IsRate 1 w.dRho ∧ IsRootMomentum w.dPpPhi ∧ IsRate 1 w.dZ

/-- a Poincaré polar vector in base units -/
def basePoincare (w : PoincareU) : Poincare :=
  ⟨baseVal w.rho, baseVal w.ppPhi, baseVal w.z, baseVal w.dRho, baseVal w.dPpPhi, baseVal w.dZ⟩

/-- the right physical types, and `w'` in base units -/
def DenotesPoincare (w : PoincareU) (w' : Poincare) : Prop := PoincareTyped w ∧ basePoincare w = w'

end Spec

open Spec

/-! ### dicts of related values -/

section
variable {V W : Type} {R : V → W → Prop}

/-- same keys in the same order, related values -/
def RelDict (R : V → W → Prop) (d : List (String × V)) (d' : List (String × W)) : Prop :=
  List.Forall₂ (fun a b => a.1 = b.1 ∧ R a.2 b.2) d d'

theorem dictSet_rel {d : List (String × V)} {d' : List (String × W)} (h : RelDict R d d') (k : String) {v : V} {w : W}
    (hv : R v w) : RelDict R (dictSet d k v) (dictSet d' k w) := by
  induction h with
  | nil => exact .cons ⟨rfl, hv⟩ .nil
  | @cons a b l m hab hl ih =>
    obtain ⟨ka, va⟩ := a
    obtain ⟨kb, vb⟩ := b
    obtain ⟨rfl, hr⟩ := hab
    simp only [dictSet]
    split
    · exact .cons ⟨rfl, hv⟩ hl
    · exact .cons ⟨rfl, hr⟩ ih

theorem foldl_rel {l : List (String × V)} {l' : List (String × W)} (h : RelDict R l l') :
    ∀ {d : List (String × V)} {d' : List (String × W)}, RelDict R d d' →
      RelDict R (l.foldl (fun d kv => dictSet d kv.1 kv.2) d) (l'.foldl (fun d kv => dictSet d kv.1 kv.2) d') := by
  induction h with
  | nil => exact fun h => h
  | @cons a b l m hab hl ih =>
    obtain ⟨ka, va⟩ := a
    obtain ⟨kb, vb⟩ := b
    obtain ⟨rfl, hr⟩ := hab
    exact fun h => ih (dictSet_rel h _ hr)

theorem dictOf_rel {l : List (String × V)} {l' : List (String × W)} (h : RelDict R l l') : RelDict R (dictOf l) (dictOf l') :=
  foldl_rel h .nil

theorem mapM_left {A B C : Type} {P : A → B → Prop} {f : A → Res C} {g : B → Res C} (hfg : ∀ a b, P a b → f a = g b)
    {l : List A} {m : List B} (h : List.Forall₂ P l m) : l.mapM f = m.mapM g := by
  induction h with
  | nil => rfl
  | cons h _ ih => simp only [List.mapM_cons, hfg _ _ h, ih]

theorem zip_rel {d : List (String × V)} {d' : List (String × W)} (h : RelDict R d d') (keys : List String) :
    RelDict R (keys.zip (d.map Prod.snd)) (keys.zip (d'.map Prod.snd)) := by
  induction h generalizing keys with
  | nil => cases keys <;> exact .nil
  | cons h _ ih =>
    cases keys with
    | nil => exact .nil
    | cons k ks => exact .cons ⟨rfl, h.2⟩ (ih ks)

theorem mkSpace_rel (names : DimNames) {shape : V → Res (List ℕ)} {shape' : W → Res (List ℕ)}
    (hs : ∀ v w, R v w → shape v = shape' w) {l : List (String × V)} {l' : List (String × W)} (h : RelDict R l l') :
    RelRes (fun s s' => RelDict R s.data s'.data) (mkSpace names shape l) (mkSpace names shape' l') := by
  have hd := dictOf_rel h
  have e1 : (dictOf l).mapM (fun kv => names.canon kv.1) = (dictOf l').mapM (fun kv => names.canon kv.1) :=
    mapM_left (fun a b hab => by rw [hab.1]) hd
  have e2 : (dictOf l).mapM (fun kv => shape kv.2) = (dictOf l').mapM (fun kv => shape' kv.2) :=
    mapM_left (fun a b hab => hs _ _ hab.2) hd
  have e3 : (dictOf l).length = (dictOf l').length := hd.length_eq
  unfold mkSpace
  simp only [e1, e2, e3]
  cases (dictOf l').mapM (fun kv => names.canon kv.1) with
  | error e => exact .err e
  | ok keys =>
    simp only [ok_bind]
    split
    · exact .err _
    · cases (dictOf l').mapM (fun kv => shape' kv.2) with
      | error e => exact .err e
      | ok shapes =>
        simp only [ok_bind]
        cases broadcastShapes shapes with
        | error e => exact .err _
        | ok _ => exact .ok (dictOf_rel (zip_rel hd keys))

theorem lookup_rel {d : List (String × V)} {d' : List (String × W)} (h : RelDict R d d') (k : String) :
    Option.Rel R (d.lookup k) (d'.lookup k) := by
  induction h with
  | nil => exact .none
  | @cons a b l m hab hl ih =>
    obtain ⟨ka, va⟩ := a
    obtain ⟨kb, vb⟩ := b
    obtain ⟨rfl, hr⟩ := hab
    rw [List.lookup_cons, List.lookup_cons]
    cases hk : k == ka with
    | true => exact .some hr
    | false => exact ih

theorem getStr_rel {s : Space V} {s' : Space W} (h : RelDict R s.data s'.data) (k : String) :
    RelRes R (s.getStr k) (s'.getStr k) := by
  unfold Space.getStr
  have hl := lookup_rel h k
  generalize s.data.lookup k = o at hl
  generalize s'.data.lookup k = o' at hl
  cases hl with
  | none => exact .err _
  | some h => exact .ok h

theorem mapValues_rel (names : DimNames) {shape : V → Res (List ℕ)} {shape' : W → Res (List ℕ)}
    (hs : ∀ v w, R v w → shape v = shape' w) {f : V → Res V} {g : W → Res W} {s : Space V} {s' : Space W}
    (h : RelDict R s.data s'.data) (hfg : ∀ kv ∈ s.data, ∀ w, R kv.2 w → RelRes R (f kv.2) (g w)) :
    RelRes (fun s s' => RelDict R s.data s'.data) (s.mapValues names shape f) (s'.mapValues names shape' g) := by
  unfold Space.mapValues
  refine .bind (R := RelDict R) ?_ fun a b hab => mkSpace_rel names hs hab
  generalize s.data = d at h hfg
  generalize s'.data = d' at h
  induction h with
  | nil => exact .ok .nil
  | @cons a b l m hab hl ih =>
    simp only [List.mapM_cons, bind_assoc, pure_bind]
    refine .bind (hfg a List.mem_cons_self b.2 hab.2) fun v w hvw => ?_
    refine .bind (ih fun kv hm => hfg kv (List.mem_cons_of_mem _ hm)) fun t u htu => ?_
    exact .ok (.cons ⟨hab.1, hvw⟩ htu)

end

/-! ### the specification and related dicts -/

/-- the right physical types, and the same in base units -/
def RelSV (a : SVecU) (b : SVec) : Prop := SVecTyped a ∧ baseSVec a = b

theorem relDict_of {s : Space SVecU} (h : SpaceTyped s) : RelDict RelSV s.data (baseSpace s).data := by
  obtain ⟨d⟩ := s
  show RelDict RelSV d (d.map _)
  have h' : ∀ kv ∈ d, SVecTyped kv.2 := h
  clear h
  induction d with
  | nil => exact .nil
  | cons a l ih =>
    exact .cons ⟨rfl, h' a List.mem_cons_self, rfl⟩ (ih fun kv hm => h' kv (List.mem_cons_of_mem _ hm))

theorem denotesSpace_of {s : Space SVecU} {s' : Space SVec} (h : RelDict RelSV s.data s'.data) : DenotesSpace s s' := by
  obtain ⟨d⟩ := s
  obtain ⟨d'⟩ := s'
  have h' : RelDict RelSV d d' := h
  clear h
  suffices (∀ kv ∈ d, SVecTyped kv.2) ∧ d.map (fun kv => (kv.1, baseSVec kv.2)) = d' from ⟨this.1, congrArg Space.mk this.2⟩
  induction h' with
  | nil => exact ⟨fun _ h => absurd h List.not_mem_nil, rfl⟩
  | cons h _ ih =>
    refine ⟨fun kv hm => ?_, ?_⟩
    · rcases List.mem_cons.mp hm with rfl | hm
      · exact h.2.1
      · exact ih.1 kv hm
    · rw [List.map_cons, ih.2, h.1, h.2.2]

theorem asPos_rel {a : SVecU} {b : SVec} (h : RelSV a b) : RelRes Denotes a.asPos b.asPos := by
  obtain ⟨h, rfl⟩ := h
  cases a with
  | pos p => exact .ok ⟨h, rfl⟩
  | vel v => exact .err _
  | acc a => exact .err _

theorem asVel_rel {a : SVecU} {b : SVec} (h : RelSV a b) : RelRes (Vel.RelF (perTime 1)) a.asVel b.asVel := by
  obtain ⟨h, rfl⟩ := h
  cases a with
  | pos p => exact .err _
  | vel v => exact .ok ⟨(vel_map v).symm, (velTyped_iff 1 v).mp h⟩
  | acc a => exact .err _

theorem matching_units {p : Pos (UQ ℝ)} (h : MatchingUnits p) : ProlateUnits {} p := by
  cases p <;> first | trivial | exact ⟨h, rfl⟩

theorem length_matching {s : Space SVecU} (hm : SpaceMatching s) {x : SVecU} {p : Pos (UQ ℝ)} {k : String}
    (hx : s.getStr k = .ok x) (hp : x.asPos = .ok p) : ProlateUnits {} p := by
  cases x with
  | pos q =>
    obtain rfl := Except.ok.inj hp
    exact matching_units (hm k q (lookup_mem (getStr_iff.mp hx)))
  | vel v => cases hp
  | acc a => cases hp

theorem RelRes.keep {A B : Type} {R : A → B → Prop} {m : Res A} {m' : Res B} (h : RelRes R m m') :
    RelRes (fun a b => R a b ∧ m = .ok a ∧ m' = .ok b) m m' := by
  cases h with
  | ok h => exact .ok ⟨h, rfl, rfl⟩
  | err e => exact .err e

theorem temp_rel {s : Space SVecU} {s' : Space SVec} (h : RelDict RelSV s.data s'.data) (hm : SpaceMatching s)
    (k : Kind) {a : SVecU} {b : SVec}
    (hab : RelSV a b) (hk : ∃ n, (n, a) ∈ s.data) : RelRes RelSV (tempRepresentAsU a k s) (tempRepresentAs b k s') := by
  obtain ⟨ha, rfl⟩ := hab
  cases a with
  | pos p =>
    obtain ⟨n, hk⟩ := hk
    obtain ⟨hw, e⟩ := pos_rel ha
    show RelRes _ _ (do return SVec.pos (← representAs {} (basePos p) k))
    rw [← e]
    refine .bind (representAs_rel kw_nil hw k fun _ => matching_units (hm n p hk)) fun q q' hq => ?_
    have := denotes_of hq
    exact .ok ⟨this.1, congrArg SVec.pos this.2⟩
  | vel v =>
    refine .bind (getStr_rel h "length").keep fun x y hxy => ?_
    refine .bind (asPos_rel hxy.1).keep fun p p' hp => ?_
    have hu := length_matching hm hxy.2.1 hp.2.1
    replace hp := hp.1
    have hp := rel_of hp
    obtain ⟨hw, rfl⟩ := hp
    show RelRes _ _ (do return SVec.vel (← representVel {} (v.map baseVal) k.differential (p.tr UQ.phys)))
    rw [vel_map]
    refine .bind (representVel_rel kw_nil hw ((velTyped_iff 1 v).mp ha) k.differential fun _ _ => ⟨hu, hu⟩) fun u u' hu => ?_
    have := vel_of hu
    exact .ok ⟨this.1, congrArg SVec.vel this.2⟩
  | acc a =>
    refine .bind (getStr_rel h "speed") fun x y hxy => ?_
    refine .bind (asVel_rel hxy) fun v v' hv => ?_
    obtain ⟨rfl, hv⟩ := hv
    refine .bind (getStr_rel h "length").keep fun x y hxy => ?_
    refine .bind (asPos_rel hxy.1).keep fun p p' hp => ?_
    have hu := length_matching hm hxy.2.1 hp.2.1
    replace hp := hp.1
    have hp := rel_of hp
    obtain ⟨hw, rfl⟩ := hp
    show RelRes _ _ (do return SVec.acc (← representAcc {} (a.map baseVal) k.differential (v.map UQ.phys) (p.tr UQ.phys)))
    rw [vel_map]
    refine .bind (representAcc_rel kw_nil hw ((velTyped_iff 2 a).mp ha) hv k.differential fun _ => hu) fun u u' hu => ?_
    exact .ok ⟨(velTyped_iff 2 u).mpr hu.2, congrArg SVec.acc ((vel_map u).trans hu.1)⟩

theorem neg_rel_svec {a : SVecU} {b : SVec} (h : RelSV a b) : RelRes RelSV a.neg b.neg := by
  obtain ⟨h, rfl⟩ := h
  cases a with
  | pos p =>
    have hp := pos_rel h
    obtain ⟨hw, e⟩ := hp
    show RelRes _ _ (do return SVec.pos (← negPos (basePos p)))
    rw [← e]
    refine .bind (negPos_rel hw) fun q q' hq => ?_
    have := denotes_of hq
    exact .ok ⟨this.1, congrArg SVec.pos this.2⟩
  | vel v =>
    have := vel_of (negVel_rel ((velTyped_iff 1 v).mp h))
    refine .ok ⟨this.1, ?_⟩
    show SVec.vel _ = SVec.vel (negVel (v.map baseVal))
    rw [vel_map v, ← this.2]
  | acc a =>
    have := negVel_rel ((velTyped_iff 2 a).mp h)
    refine .ok ⟨(velTyped_iff 2 _).mpr this.2, ?_⟩
    show SVec.acc ((negVelU a).map baseVal) = SVec.acc (negVel (a.map baseVal))
    rw [vel_map, vel_map, this.1]

/-! ### Poincaré polar vectors -/

/-- the dimension of `pp_phi` -/
def dPP : RDim := { len := 1, angle := 1 / 2, time := -1 / 2 }

theorem pp_dim : ((RUnit.au.dim.mul RUnit.au.dim).mul (perTime 1 RUnit.rad.dim)) = dPP.mul dPP := by
  simp [RUnit.au, RUnit.rad, perTime, RDim.mul, RDim.div, RDim.pow, dPP]; norm_num

theorem rate_dim : (dPP.mul dPP).div (RUnit.au.dim.mul RUnit.au.dim) = perTime 1 RUnit.rad.dim := by
  simp [RUnit.au, RUnit.rad, perTime, RDim.mul, RDim.div, RDim.pow, dPP]; norm_num

theorem pp_one : dPP.mul {} = dPP := by simp [RDim.mul, dPP]

theorem isRate_rel {q : UQ ℝ} : IsRate 1 q ↔ q.unit.dim = perTime 1 RUnit.au.dim := by rw [IsRate, perTime_len]

theorem cyl_fields {q : Pos (UQ ℝ)} {q' : Pos ℝ} (h : q.Rel q') :
    RelRes (fun a b => a.1.Rel dL b.1 ∧ a.2.1.Rel dA b.2.1 ∧ a.2.2.Rel dL b.2.2) q.cylFieldsU q'.cylFields := by
  obtain ⟨h, rfl⟩ := h
  cases q <;> first | exact .err _ | exact .ok ⟨⟨h.1, rfl⟩, ⟨h.2.1, rfl⟩, ⟨h.2.2, rfl⟩⟩

theorem cyl_rates {v : Vel (UQ ℝ)} {v' : Vel ℝ} (h : Vel.RelF (perTime 1) v v') :
    RelRes (fun a b => a.1.Rel (perTime 1 dL) b.1 ∧ a.2.1.Rel (perTime 1 dA) b.2.1 ∧ a.2.2.Rel (perTime 1 dL) b.2.2)
      v.cylFieldsU v'.cylFields := by
  obtain ⟨rfl, h⟩ := h
  cases v with
  | cyl a b c =>
    simp only [Vel.Has, Vel.comps, Vel.kind, VKind.fieldDims, List.map, List.cons.injEq, and_true] at h
    exact .ok ⟨⟨h.1, rfl⟩, ⟨h.2.1, rfl⟩, ⟨h.2.2, rfl⟩⟩
  | _ => exact .err _

theorem poincare_rel {rho pp z dRho dPp dZ : UQ ℝ} {rho' pp' z' dRho' dPp' dZ' : ℝ} (h1 : rho.Rel dL rho') (h2 : pp.Rel dPP pp')
    (h3 : z.Rel dL z') (h4 : dRho.Rel (perTime 1 dL) dRho') (h5 : dPp.Rel dPP dPp') (h6 : dZ.Rel (perTime 1 dL) dZ') :
    RelRes DenotesPoincare (mkPoincareU rho pp z dRho dPp dZ) (.ok ⟨rho', pp', z', dRho', dPp', dZ'⟩) := by
  refine .leftOk (ofDim_rel h1) ?_
  refine .leftOk (ofDim_rel h3) ?_
  refine .leftOk (ofDim_rel h4) ?_
  refine .leftOk (ofDim_rel h6) ?_
  refine .ok ⟨⟨h1.1, h2.1, h3.1, isRate_rel.mpr h4.1, h5.1, isRate_rel.mpr h6.1⟩, ?_⟩
  simp only [basePoincare, base_eq, h1.2, h2.2, h3.2, h4.2, h5.2, h6.2]

theorem toPoincare_rel {s : Space SVecU} (hs : SpaceTyped s) : RelRes DenotesPoincare (toPoincareU s) (toPoincare (baseSpace s)) := by
  have h := relDict_of hs
  refine .bind (getStr_rel h "length") fun x y hxy => ?_
  refine .bind (asPos_rel hxy) fun p p' hp => ?_
  refine .bind (repr_rel (rel_of hp) .cyl fun _ => by decide).keep fun q q' hq => ?_
  refine .bind (getStr_rel h "speed") fun x y hxy => ?_
  refine .bind (asVel_rel hxy) fun v v' hv => ?_
  obtain ⟨hqr, -, hq⟩ := hq
  have hkind : q.kind = .cyl := (rel_kind hqr).symm.trans (representAs_kind hq)
  have hu : ProlateUnits {} q := by cases q <;> first | trivial | cases hkind
  obtain ⟨hw, rfl⟩ := hqr
  obtain ⟨rfl, hv⟩ := hv
  refine .bind (representVel_rel kw_nil hw hv .cyl fun _ _ => ⟨hu, hu⟩) fun u u' hu => ?_
  refine .bind (cyl_fields ⟨hw, rfl⟩) fun a b hab => ?_
  obtain ⟨rho, phi, z⟩ := a
  obtain ⟨rho', phi', z'⟩ := b
  obtain ⟨h1, h2, h3⟩ := hab
  refine .bind (cyl_rates hu) fun a b hab => ?_
  obtain ⟨dRho, dPhi, dZ⟩ := a
  obtain ⟨dRho', dPhi', dZ'⟩ := b
  obtain ⟨h4, h5, h6⟩ := hab
  have hr := abs_rel (mul_rel (smul_rel (nat 2) (sq_rel h1)) h5)
  rw [pp_dim] at hr
  refine .bind (sqrt_rel hr) fun r r' hr => ?_
  obtain ⟨c, ec, hc⟩ := cos_rel h2
  obtain ⟨d, ed, hd⟩ := sin_rel h2
  refine .leftOk ec (.leftOk ed ?_)
  have hx := mul_rel hr hc
  have hy := mul_rel hr hd
  rw [pp_one] at hx hy
  exact poincare_rel h1 hx h3 h4 hy h6

theorem ofPoincare_rel (names : DimNames) {w : PoincareU} (hw : PoincareTyped w) :
    RelRes DenotesSpace (ofPoincareU names w) (ofPoincare names (basePoincare w)) := by
  obtain ⟨h1, h2, h3, h4, h5, h6⟩ := hw
  have r1 : w.rho.Rel dL (baseVal w.rho) := ⟨h1, (base_eq _).symm⟩
  have r2 : w.ppPhi.Rel dPP (baseVal w.ppPhi) := ⟨h2, (base_eq _).symm⟩
  have r3 : w.z.Rel dL (baseVal w.z) := ⟨h3, (base_eq _).symm⟩
  have r4 : w.dRho.Rel (perTime 1 dL) (baseVal w.dRho) := ⟨isRate_rel.mp h4, (base_eq _).symm⟩
  have r5 : w.dPpPhi.Rel dPP (baseVal w.dPpPhi) := ⟨h5, (base_eq _).symm⟩
  have r6 : w.dZ.Rel (perTime 1 dL) (baseVal w.dZ) := ⟨isRate_rel.mp h6, (base_eq _).symm⟩
  refine .bind (atan2_rel r5 r2) fun phi phi' hphi => ?_
  obtain ⟨a, ea, ha⟩ := add_rel (sq_rel r2) (sq_rel r5)
  refine .leftOk ea ?_
  show RelRes _ _ (Num.div (baseVal w.ppPhi * baseVal w.ppPhi + baseVal w.dPpPhi * baseVal w.dPpPhi) (nat 2) >>= _)
  rw [← ha.2]
  refine .bind (divBy_rel (nat 2) ha.1) fun h h' hh => ?_
  refine .bind (div_rel hh.1 (sq_rel r1)) fun dPhi dPhi' hd => ?_
  have hd := hd.1
  rw [rate_dim] at hd
  refine .bind (mkCyl_rel r1 (show AzArg.Rel (.qty phi) (.qty phi') from hphi) r3) fun q q' hq => ?_
  have hp : Vel.RelF (perTime 1) (.cyl w.dRho dPhi w.dZ) (.cyl (baseVal w.dRho) dPhi' (baseVal w.dZ)) := by
    refine ⟨?_, ?_⟩
    · simp only [Vel.map, r4.2, hd.2, r6.2]
    · simp only [Vel.Has, Vel.comps, Vel.kind, VKind.fieldDims, List.map, r4.1, hd.1, r6.1]
  have hm := mkVel_rel hp
  generalize hm' : mkVelU 1 (.cyl w.dRho dPhi w.dZ) = m at hm ⊢
  cases hm with
  | ok hm =>
    have hv := vel_of hm
    have hq := denotes_of hq
    refine (mkSpace_rel (R := RelSV) names (fun _ _ _ => rfl) ?_).mono fun _ _ h => denotesSpace_of h
    exact .cons ⟨rfl, hq.1, congrArg SVec.pos hq.2⟩ (.cons ⟨rfl, hv.1, congrArg SVec.vel hv.2⟩ .nil)

/-! ### C70 -/

/-- **C70**: `represent_as` of a Space to a position class, component units arbitrary: it returns the Space that the same
conversion gives in base units, or raises the same error -/
theorem C70_represent_as (names : DimNames) (s : Space SVecU) (hs : SpaceTyped s) (hm : SpaceMatching s) (k : Kind) :
    SameOutcome DenotesSpace (representSpaceU names s k) (representSpace names (baseSpace s) k) :=
  (mapValues_rel names (fun _ _ _ => rfl) (relDict_of hs)
    fun kv hkv _ hw => temp_rel (relDict_of hs) hm k hw ⟨kv.1, hkv⟩).outcome fun _ _ h => denotesSpace_of h

/-- **C70**: negation -/
theorem C70_negation (names : DimNames) (s : Space SVecU) (hs : SpaceTyped s) :
    SameOutcome DenotesSpace (s.negU names) ((baseSpace s).neg names) :=
  (mapValues_rel names (fun _ _ _ => rfl) (relDict_of hs) fun _ _ _ hw => neg_rel_svec hw).outcome fun _ _ h => denotesSpace_of h

/-- **C70**: to Poincaré polar coordinates -/
theorem C70_to_poincare (s : Space SVecU) (hs : SpaceTyped s) :
    SameOutcome DenotesPoincare (toPoincareU s) (toPoincare (baseSpace s)) :=
  (toPoincare_rel hs).outcome fun _ _ h => h

/-- **C70**: and back -/
theorem C70_from_poincare (names : DimNames) (w : PoincareU) (hw : PoincareTyped w) :
    SameOutcome DenotesSpace (ofPoincareU names w) (ofPoincare names (basePoincare w)) :=
  (ofPoincare_rel names hw).outcome fun _ _ h => h

/-- **C70**: a Space in other units of the same physical types gives the same Space -/
theorem C70_units_irrelevant (names : DimNames) (s s' t t' : Space SVecU) (hs : SpaceTyped s) (hs' : SpaceTyped s')
    (hm : SpaceMatching s) (hm' : SpaceMatching s') (e : baseSpace s = baseSpace s') (k : Kind)
    (h : representSpaceU names s k = .ok t) (h' : representSpaceU names s' k = .ok t') : baseSpace t = baseSpace t' := by
  have h1 := C70_represent_as names s hs hm k
  have h2 := C70_represent_as names s' hs' hm' k
  rw [h] at h1
  rw [h', ← e] at h2
  generalize representSpace names (baseSpace s) k = r at h1 h2
  cases h1 with
  | returns h1 => cases h2 with
    | returns h2 => exact h1.2.trans h2.2.symm

/-- **C70**: the class accepts `pp_phi` and `d_pp_phi` of every physical type, but only square roots of angular momenta, with
their root of a radian, convert back -/
theorem C70_root_radian_needed (names : DimNames) (w : PoincareU) (h1 : IsLength w.rho) (s : Space SVecU)
    (h : ofPoincareU names w = .ok s) : IsRootMomentum w.ppPhi ∧ IsRootMomentum w.dPpPhi := by
  simp only [ofPoincareU, bind_ok_iff] at h
  obtain ⟨phi, -, a, ha, b, hb, d, hd, q, -, v, hv, -⟩ := h
  simp only [UQ.add, bind_ok_iff] at ha
  obtain ⟨x, hx, ha⟩ := ha
  obtain rfl := Except.ok.inj ha
  simp only [UQ.divBy, bind_ok_iff] at hb
  obtain ⟨y, -, hb⟩ := hb
  obtain rfl := Except.ok.inj hb
  simp only [UQ.div, bind_ok_iff] at hd
  obtain ⟨z, -, hd⟩ := hd
  obtain rfl := Except.ok.inj hd
  rw [UQ.strip] at hx
  rw [mkVelU] at hv
  split at hx
  · rename_i hx'
    split at hv
    · rename_i hv'
      simp only [Vel.comps, Vel.kind, VKind.fieldDims, List.map, List.cons.injEq, and_true] at hv'
      obtain ⟨-, e, -⟩ := hv'
      replace hx' : w.ppPhi.unit.dim.mul w.ppPhi.unit.dim = w.dPpPhi.unit.dim.mul w.dPpPhi.unit.dim := hx'
      replace e : (w.ppPhi.unit.dim.mul w.ppPhi.unit.dim).div (w.rho.unit.dim.mul w.rho.unit.dim) =
          perTime 1 { angle := 1 } := e
      rw [show w.rho.unit.dim = { len := 1 } from h1] at e
      unfold IsRootMomentum
      generalize w.ppPhi.unit.dim = a at hx' e
      generalize w.dPpPhi.unit.dim = b at hx'
      obtain ⟨a1, a2, a3, a4, a5⟩ := a
      obtain ⟨b1, b2, b3, b4, b5⟩ := b
      simp only [RDim.mul, RDim.div, RDim.pow, perTime, RUnit.rad, RDim.mk.injEq, Nat.cast_one] at hx' e
      simp only [RDim.mk.injEq]
      obtain ⟨e1, e2, e3, e4, e5⟩ := e
      obtain ⟨f1, f2, f3, f4, f5⟩ := hx'
      refine ⟨⟨?_, ?_, ?_, ?_, ?_⟩, ?_, ?_, ?_, ?_, ?_⟩ <;> linarith
    · cases hv
  · cases hx

theorem getStr_base {s : Space SVecU} (hs : SpaceTyped s) {k : String} {x : SVecU} (h : s.getStr k = .ok x) :
    (baseSpace s).getStr k = .ok (baseSVec x) := by
  have := getStr_rel (relDict_of hs) k
  rw [h] at this
  generalize (baseSpace s).getStr k = r at this
  cases this with
  | ok h => rw [h.2]

/-- **C70**: a point off the z axis moving with positive angular momentum about it comes back from Poincaré polar coordinates,
whatever the units of its components -/
theorem C70_round_trip (names : DimNames) (hn : Standard names) (s : Space SVecU) (hs : SpaceTyped s) (p : Pos (UQ ℝ))
    (v : Vel (UQ ℝ)) (hp : s.getStr "length" = .ok (.pos p)) (hv : s.getStr "speed" = .ok (.vel v))
    (hc : VelCase {} (v.map baseVal) .cyl (basePos p)) (p' : Pos ℝ) (hp' : At {} v.kind (point (basePos p)) p')
    (hL : 0 < angularZ (point (basePos p)) (cartVel p' (v.map baseVal))) :
    ∃ w s' q u, toPoincareU s = .ok w ∧ PoincareTyped w ∧ ofPoincareU names w = .ok s' ∧
      s'.data = [("length", .pos q), ("speed", .vel u)] ∧ PosTyped q ∧ VelTyped 1 u ∧ q.kind = .cyl ∧ u.kind = .cyl ∧
      point (basePos q) = point (basePos p) ∧ cartVel (basePos q) (u.map baseVal) = cartVel p' (v.map baseVal) := by
  have hp1 : (baseSpace s).getStr "length" = .ok (.pos (basePos p)) := getStr_base hs hp
  have hv1 : (baseSpace s).getStr "speed" = .ok (.vel (v.map baseVal)) := getStr_base hs hv
  obtain ⟨w', t', q', u', e1, e2, e3, hk, hk', e4, e5, -⟩ := C41_round_trip names hn _ _ _ hp1 hv1 hc p'
    (by rw [Vel.kind_map]; exact hp') hL
  have r1 := toPoincare_rel hs
  rw [e1] at r1
  generalize hw : toPoincareU s = m at r1
  cases r1 with
  | @ok w _ hd =>
    obtain ⟨hd, rfl⟩ := hd
    have r2 := ofPoincare_rel names hd
    rw [e2] at r2
    generalize hsp : ofPoincareU names w = m at r2
    cases r2 with
    | @ok t _ ht =>
      obtain ⟨ht, rfl⟩ := ht
      obtain ⟨d⟩ := t
      have e3 : d.map (fun kv => (kv.1, baseSVec kv.2)) = [("length", .pos q'), ("speed", .vel u')] := e3
      obtain ⟨⟨k1, x1⟩, d, rfl, b1, e3⟩ := List.map_eq_cons_iff.mp e3
      obtain ⟨⟨k2, x2⟩, d, rfl, b2, e3⟩ := List.map_eq_cons_iff.mp e3
      obtain rfl := List.map_eq_nil_iff.mp e3
      simp only [Prod.mk.injEq] at b1 b2
      obtain ⟨rfl, b1⟩ := b1
      obtain ⟨rfl, b2⟩ := b2
      have t1 : SVecTyped x1 := ht ("length", x1) (by simp)
      have t2 : SVecTyped x2 := ht ("speed", x2) (by simp)
      cases x1 <;> first | (cases b1; done) | skip
      cases x2 <;> first | (cases b2; done) | skip
      rename Pos (UQ ℝ) => q
      rename Vel (UQ ℝ) => u
      obtain rfl := SVec.pos.inj b1
      obtain rfl := SVec.vel.inj b2
      refine ⟨w, _, q, u, rfl, hd, hsp, rfl, t1, t2, ?_, ?_, e4, e5⟩
      · exact (rel_kind (pos_rel t1)).symm.trans hk
      · rw [← hk', Vel.kind_map]

/-- a point at (1 kpc, 1 kpc, 1 pc) moving with (0, 1, 2) km/s -/
noncomputable def spaceKpc : Space SVecU :=
  ⟨[("length", .pos (.cart3 ⟨1, kpc⟩ ⟨1, kpc⟩ ⟨1, .pc⟩)), ("speed", .vel (.cart3 ⟨0, .kms⟩ ⟨1, .kms⟩ ⟨2, .kms⟩))]⟩

/-- the hypotheses of `C70_round_trip` are met -/
example (names : DimNames) (hn : Standard names) :
    ∃ w s' q u, toPoincareU spaceKpc = .ok w ∧ PoincareTyped w ∧ ofPoincareU names w = .ok s' ∧
      s'.data = [("length", .pos q), ("speed", .vel u)] ∧ PosTyped q ∧ VelTyped 1 u ∧ q.kind = .cyl ∧ u.kind = .cyl ∧
      point (basePos q) = ⟨baseVal ⟨1, kpc⟩, baseVal ⟨1, kpc⟩, baseVal ⟨1, .pc⟩⟩ ∧
      cartVel (basePos q) (u.map baseVal) = ⟨0, baseVal ⟨1, .kms⟩, baseVal ⟨2, .kms⟩⟩ := by
  have hk : 0 < baseVal ⟨1, kpc⟩ := by simpa [baseVal] using kpc.pos
  have hs : 0 < baseVal ⟨1, .kms⟩ := by simpa [baseVal] using RUnit.kms.pos
  have hr : ∀ x : ℝ, IsRate 1 ⟨x, .kms⟩ := fun x => by simp [IsRate, RUnit.kms]
  have h := C70_round_trip names hn spaceKpc ?_ (.cart3 ⟨1, kpc⟩ ⟨1, kpc⟩ ⟨1, .pc⟩)
    (.cart3 ⟨0, .kms⟩ ⟨1, .kms⟩ ⟨2, .kms⟩) rfl rfl
    { valid := trivial, dimp := rfl, dim := rfl, pos_ts := by decide, src_ts := (fun h => by cases h),
      tgt_ts := by decide, reg := trivial,
      reg' := by
        show OffAxis _
        simp only [OffAxis, point, basePos]
        exact fun h => hk.ne' h.1
      delta := (fun h => by cases h), src_pro := (fun h => by cases h),
      src_loncoslat := (fun h => by cases h) }
    (.cart3 (baseVal ⟨1, kpc⟩) (baseVal ⟨1, kpc⟩) (baseVal ⟨1, .pc⟩)) ⟨rfl, trivial, rfl, fun h => by cases h⟩ ?_
  · obtain ⟨w, s', q, u, h1, h2, h3, h4, h5, h6, h7, h8, h9, h10⟩ := h
    refine ⟨w, s', q, u, h1, h2, h3, h4, h5, h6, h7, h8, h9.trans rfl, h10.trans ?_⟩
    simp [cartVel, Vel.map, baseVal]
  · intro kv hkv
    simp only [spaceKpc, List.mem_cons, List.not_mem_nil, or_false] at hkv
    rcases hkv with rfl | rfl
    · exact ⟨rfl, rfl, rfl⟩
    · exact ⟨hr _, hr _, hr _⟩
  · have e : baseVal ⟨0, .kms⟩ = 0 := by simp [baseVal]
    simp only [angularZ, point, basePos, cartVel, Vel.map, e]
    simpa using mul_pos hk hs

/-- prolate spheroidal coordinates in matching units -/
example : SpaceMatching ⟨[("length", .pos (.prolate ⟨4, kpc.mul kpc⟩ ⟨1, kpc.mul kpc⟩ ⟨1, .rad⟩ ⟨1, kpc⟩))]⟩ := by
  intro k p h
  simp only [List.mem_cons, List.not_mem_nil, or_false, Prod.mk.injEq, SVecU.pos.injEq] at h
  obtain ⟨-, rfl⟩ := h
  exact rfl

end Verif
