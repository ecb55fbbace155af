import Verif.BatchSpace
import Verif.Props.BatchVel
import Verif.Props.BatchArith
import Verif.Props.BatchFour
import Verif.Props.Space
import Verif.Props.Poincare

/-!
# C71: Spaces and Poincaré polar vectors of batched vectors

Specification: the elements of the batch are scalar Spaces (C40, C41), one for every batch index.
-/

namespace Verif

open List

namespace Spec

/-- the element of a vector at a batch index, if its components there are numbers -/
def svecAt (idx : List ℕ) : SVecB → Option SVec
  | .pos P => (posAt idx P).map .pos
  | .vel V => (velAt idx V).map .vel
  | .acc A => (velAt idx A).map .acc

/-- `v.shape` is `s` -/
def SVecShape (s : List ℕ) : SVecB → Prop
  | .pos P => PosShape P s
  | .vel V => VelShape V s
  | .acc A => VelShape A s

/-- the components of the vector broadcast to the shape `s` -/
def SVecFits (s : List ℕ) : SVecB → Prop
  | .pos P => Fits s P
  | .vel V => ∀ a ∈ velComps V, BroadcastsTo a.shape s
  | .acc A => ∀ a ∈ velComps A, BroadcastsTo a.shape s

/-- all vectors of the Space have shape `s` -/
def SpaceShape (s : List ℕ) (S : Space SVecB) : Prop := ∀ kv ∈ S.data, SVecShape s kv.2

/-- the components of all vectors of the Space broadcast to `s` -/
def SpaceFits (s : List ℕ) (S : Space SVecB) : Prop := ∀ kv ∈ S.data, SVecFits s kv.2

/-- the scalar Space `T` is the element of `S` at the batch index `idx`: the same keys in the same order, with the elements of
the vectors -/
def IsElement (idx : List ℕ) (S : Space SVecB) (T : Space SVec) : Prop :=
  Forall₂ (fun a b => a.1 = b.1 ∧ svecAt idx a.2 = some b.2) S.data T.data

/-- at batch index `idx` the result `S` agrees with the scalar result `r` -/
def SpaceAgrees (idx : List ℕ) (S : Space SVecB) (r : Res (Space SVec)) : Prop :=
  (∀ T, r = .ok T → IsElement idx S T) ∧ ∀ e, r = .error e → e = .nonFinite

/-- the components of a Poincaré polar vector -/
def poincareComps (W : PoincareB) : List BArr := [W.rho, W.ppPhi, W.z, W.dRho, W.dPpPhi, W.dZ]

/-- the element of a Poincaré polar vector at a batch index, if its components there are numbers -/
def poincareAt (idx : List ℕ) (W : PoincareB) : Option Poincare := do
  return ⟨← at_ idx W.rho, ← at_ idx W.ppPhi, ← at_ idx W.z, ← at_ idx W.dRho, ← at_ idx W.dPpPhi, ← at_ idx W.dZ⟩

/-- the components of the vector broadcast to the shape `s` -/
def PoincareFits (s : List ℕ) (W : PoincareB) : Prop := ∀ a ∈ poincareComps W, BroadcastsTo a.shape s

end Spec

open Spec

/-! ### lists -/

theorem forall₂_square {A B C D : Type} {P : A → B → Prop} {Q : A → C → Prop} {R : C → D → Prop} {U : B → D → Prop}
    {a : List A} {b : List B} {c : List C} {d : List D} (h1 : Forall₂ P a b) (h2 : Forall₂ Q a c) (h3 : Forall₂ R c d)
    (h : ∀ x ∈ a, ∀ y z w, P x y → Q x z → R z w → U y w) : Forall₂ U b d := by
  induction h1 generalizing c d with
  | nil => cases h2; cases h3; exact .nil
  | cons p _ ih =>
    cases h2 with
    | cons q h2 => cases h3 with
      | cons r h3 => exact .cons (h _ mem_cons_self _ _ _ p q r) (ih h2 h3 fun x hx => h x (mem_cons_of_mem _ hx))

theorem mapM_error {A B : Type} {f : A → Res B} {l : List A} {e : Err} (h : l.mapM f = .error e) : ∃ a ∈ l, f a = .error e := by
  induction l with
  | nil => cases h
  | cons a l ih =>
    rw [mapM_cons] at h
    cases ha : f a with
    | error e' =>
      rw [ha] at h
      obtain rfl := Except.error.inj h
      exact ⟨a, mem_cons_self, ha⟩
    | ok b =>
      rw [ha, ok_bind] at h
      cases hl : l.mapM f with
      | error e' =>
        rw [hl] at h
        obtain rfl := Except.error.inj h
        obtain ⟨x, hx, h⟩ := ih hl
        exact ⟨x, mem_cons_of_mem _ hx, h⟩
      | ok m => rw [hl] at h; cases h

theorem forall₂_mem_right {A B : Type} {R : A → B → Prop} {a : List A} {b : List B} (h : Forall₂ R a b) {y : B} (hy : y ∈ b) :
    ∃ x ∈ a, R x y := by
  induction h with
  | nil => cases hy
  | cons r _ ih =>
    rcases mem_cons.mp hy with rfl | hy
    · exact ⟨_, mem_cons_self, r⟩
    · obtain ⟨x, hx, h⟩ := ih hy
      exact ⟨x, mem_cons_of_mem _ hx, h⟩

theorem forall₂_mem_left {A B : Type} {R : A → B → Prop} {a : List A} {b : List B} (h : Forall₂ R a b) {x : A} (hx : x ∈ a) :
    ∃ y ∈ b, R x y := by
  obtain ⟨y, hy, h⟩ := forall₂_mem_right h.flip hx
  exact ⟨y, hy, h⟩

theorem forall₂_exists {A B : Type} {R : A → B → Prop} {a : List A} (h : ∀ x ∈ a, ∃ y, R x y) : ∃ b, Forall₂ R a b := by
  induction a with
  | nil => exact ⟨[], .nil⟩
  | cons x a ih =>
    obtain ⟨y, hy⟩ := h x mem_cons_self
    obtain ⟨b, hb⟩ := ih fun z hz => h z (mem_cons_of_mem _ hz)
    exact ⟨y :: b, .cons hy hb⟩

theorem isElement_keys {idx : List ℕ} {S : Space SVecB} {T : Space SVec} (h : IsElement idx S T) :
    S.data.map Prod.fst = T.data.map Prod.fst := by
  have h : Forall₂ _ S.data T.data := h
  generalize S.data = a at h
  generalize T.data = b at h
  induction h with
  | nil => rfl
  | cons h _ ih => rw [map_cons, map_cons, h.1, ih]

theorem isElement_ok {names : DimNames} {idx : List ℕ} {S : Space SVecB} {T : Space SVec} (hs : SpaceOk names S)
    (h : IsElement idx S T) : SpaceOk names T := by
  unfold SpaceOk
  rw [← isElement_keys h]
  exact hs

/-- looking up a key -/
theorem element_get {A B : Type} {R : A → B → Prop} {d : List (String × A)} {d' : List (String × B)}
    (h : Forall₂ (fun a b => a.1 = b.1 ∧ R a.2 b.2) d d') (k : String) : Option.Rel R (d.lookup k) (d'.lookup k) := by
  induction h with
  | nil => exact .none
  | @cons a b l m hab hl ih =>
    obtain ⟨ka, va⟩ := a
    obtain ⟨kb, vb⟩ := b
    obtain ⟨rfl, hr⟩ := hab
    rw [lookup_cons, lookup_cons]
    cases hk : k == ka with
    | true => exact .some hr
    | false => exact ih

theorem get_element {A B : Type} {R : A → B → Prop} {S : Space A} {T : Space B}
    (h : Forall₂ (fun a b => a.1 = b.1 ∧ R a.2 b.2) S.data T.data) {k : String} {V : A} (hV : S.getStr k = .ok V) :
    ∃ v, T.getStr k = .ok v ∧ R V v := by
  have hl := element_get h k
  rw [getStr_iff.mp hV] at hl
  generalize hT : T.data.lookup k = o at hl
  cases hl with
  | some h => exact ⟨_, getStr_iff.mpr hT, h⟩

theorem element_get' {A B : Type} {R : A → B → Prop} {S : Space A} {T : Space B}
    (h : Forall₂ (fun a b => a.1 = b.1 ∧ R a.2 b.2) S.data T.data) {k : String} {v : B} (hv : T.getStr k = .ok v) :
    ∃ V, S.getStr k = .ok V ∧ R V v := by
  have hl := element_get h k
  rw [getStr_iff.mp hv] at hl
  generalize hT : S.data.lookup k = o at hl
  cases hl with
  | some h => exact ⟨_, getStr_iff.mpr hT, h⟩

theorem asPos_iff {x : SVecB} {P : Pos BArr} : x.asPos = .ok P ↔ x = .pos P := by
  cases x <;> simp [SVecB.asPos]

theorem asVel_iff {x : SVecB} {V : Vel BArr} : x.asVel = .ok V ↔ x = .vel V := by
  cases x <;> simp [SVecB.asVel]

theorem lookupPos_iff {S : Space SVecB} {k : String} {P : Pos BArr} :
    (S.getStr k >>= SVecB.asPos) = .ok P ↔ S.getStr k = .ok (.pos P) := by
  rw [bind_ok_iff]
  constructor
  · rintro ⟨x, h1, h2⟩
    rw [h1, asPos_iff.mp h2]
  · exact fun h => ⟨_, h, rfl⟩

/-- what the conversion of one entry does -/
theorem tempB_iff (S : Space SVecB) (k : Kind) (V W : SVecB) : tempRepresentAsB V k S = .ok W ↔
    match V with
    | .pos P => ∃ Q, W = .pos Q ∧ representAsB {} P k = .ok Q
    | .vel V => ∃ P U, S.getStr "length" = .ok (.pos P) ∧ W = .vel U ∧ representVelB {} V k.differential P = .ok U
    | .acc A => ∃ P V B, S.getStr "length" = .ok (.pos P) ∧ S.getStr "speed" = .ok (.vel V) ∧ W = .acc B ∧
        representAccB {} A k.differential V P = .ok B := by
  cases V with
  | pos P =>
    simp only [tempRepresentAsB, bind_ok_iff]
    constructor
    · rintro ⟨Q, h, e⟩
      exact ⟨Q, (Except.ok.inj e).symm, h⟩
    · rintro ⟨Q, rfl, h⟩
      exact ⟨Q, h, rfl⟩
  | vel V =>
    simp only [tempRepresentAsB, bind_ok_iff]
    constructor
    · rintro ⟨x, h1, P, h2, U, h3, e⟩
      obtain rfl := asPos_iff.mp h2
      exact ⟨P, U, h1, (Except.ok.inj e).symm, h3⟩
    · rintro ⟨P, U, h1, rfl, h3⟩
      exact ⟨_, h1, P, rfl, U, h3, rfl⟩
  | acc A =>
    simp only [tempRepresentAsB, bind_ok_iff]
    constructor
    · rintro ⟨x, h1, V, h2, y, h3, P, h4, B, h5, e⟩
      obtain rfl := asVel_iff.mp h2
      obtain rfl := asPos_iff.mp h4
      exact ⟨P, V, B, h3, h1, (Except.ok.inj e).symm, h5⟩
    · rintro ⟨P, V, B, h1, h2, rfl, h3⟩
      exact ⟨_, h2, V, rfl, _, h1, P, rfl, B, h3, rfl⟩

theorem shape_of_get {s : List ℕ} {S : Space SVecB} (hS : SpaceShape s S) {k : String} {V : SVecB} (h : S.getStr k = .ok V) :
    SVecShape s V := hS (k, V) (lookup_mem (getStr_iff.mp h))

theorem svecAt_pos {idx : List ℕ} {P : Pos BArr} {v : SVec} (h : svecAt idx (.pos P) = some v) :
    ∃ p, posAt idx P = some p ∧ v = .pos p := by
  obtain ⟨p, hp, rfl⟩ := Option.map_eq_some_iff.mp h
  exact ⟨p, hp, rfl⟩

theorem svecAt_vel {idx : List ℕ} {V : Vel BArr} {v : SVec} (h : svecAt idx (.vel V) = some v) :
    ∃ p, velAt idx V = some p ∧ v = .vel p := by
  obtain ⟨p, hp, rfl⟩ := Option.map_eq_some_iff.mp h
  exact ⟨p, hp, rfl⟩

theorem svecAt_acc {idx : List ℕ} {V : Vel BArr} {v : SVec} (h : svecAt idx (.acc V) = some v) :
    ∃ p, velAt idx V = some p ∧ v = .acc p := by
  obtain ⟨p, hp, rfl⟩ := Option.map_eq_some_iff.mp h
  exact ⟨p, hp, rfl⟩

theorem kwAt_nil (idx : List ℕ) : kwAt idx {} = some {} := rfl

theorem fit_nil {s : List ℕ} {P : Pos BArr} (h : PosShape P s) : Fit s {} P :=
  ⟨posShape_fits h, fun a ha => by simp [kwOf] at ha⟩

theorem exists_index {s : List ℕ} (h : 0 ∉ s) : ∃ idx, InB s idx :=
  ⟨_, unravel_inB (k := 0) (Nat.pos_of_ne_zero fun e => h (prod_eq_zero_iff.mp e))⟩

/-- the element of a converted entry -/
theorem temp_sim {s idx : List ℕ} {S : Space SVecB} {T : Space SVec} {k : Kind} (hS : SpaceShape s S) (hi : InB s idx)
    (hT : IsElement idx S T) {V W : SVecB} {v : SVec} (hV : SVecShape s V) (hv : svecAt idx V = some v)
    (h : tempRepresentAsB V k S = .ok W) :
    (∀ w, tempRepresentAs v k T = .ok w → svecAt idx W = some w) ∧
      ∀ e, tempRepresentAs v k T = .error e → e = .nonFinite := by
  rw [tempB_iff] at h
  cases V with
  | pos P =>
    obtain ⟨Q, rfl, h⟩ := h
    obtain ⟨p, hp, rfl⟩ := svecAt_pos hv
    obtain ⟨-, h1, h2⟩ := C49_elementwise {} P Q k s idx (fit_nil hV) h hi p {} hp (kwAt_nil idx)
    refine ⟨fun w hw => ?_, fun e he => ?_⟩
    · obtain ⟨q, hq, e⟩ := (bind_ok_iff _ _ _).mp hw
      obtain rfl := Except.ok.inj e
      show (posAt idx Q).map SVec.pos = _
      rw [h1 q hq]; rfl
    · show e = _
      have he : (representAs {} p k >>= fun q => pure (SVec.pos q)) = .error e := he
      generalize representAs {} p k = r at he h2
      cases r with
      | error e' =>
        obtain rfl := Except.error.inj he
        exact h2 _ rfl
      | ok q => cases he
  | vel V =>
    obtain ⟨P, U, hP, rfl, h⟩ := h
    obtain ⟨v, hv', rfl⟩ := svecAt_vel hv
    obtain ⟨x, hx, hpx⟩ := get_element (R := fun a b => svecAt idx a = some b) hT hP
    obtain ⟨p, hp, rfl⟩ := svecAt_pos hpx
    obtain ⟨h1, h2⟩ := (C57_elementwise {} V U k.differential P s hV (shape_of_get hS hP) h).2.2 idx hi v p hv' hp
    have e1 : tempRepresentAs (.vel v) k T = (representVel {} v k.differential p >>= fun u => pure (SVec.vel u)) := by
      simp only [tempRepresentAs, hx, ok_bind, SVec.asPos]
    rw [e1]
    generalize representVel {} v k.differential p = r at h1 h2
    cases r with
    | error e' =>
      refine ⟨(fun w hw => by cases hw), fun e he => ?_⟩
      obtain rfl := Except.error.inj he
      exact h2 _ rfl
    | ok u =>
      refine ⟨fun w hw => ?_, (fun e he => by cases he)⟩
      obtain rfl := Except.ok.inj hw
      show (velAt idx U).map SVec.vel = _
      rw [h1 u rfl]; rfl
  | acc A =>
    obtain ⟨P, V, B, hP, hsp, rfl, h⟩ := h
    obtain ⟨a, ha, rfl⟩ := svecAt_acc hv
    obtain ⟨x, hx, hpx⟩ := get_element (R := fun a b => svecAt idx a = some b) hT hP
    obtain ⟨p, hp, rfl⟩ := svecAt_pos hpx
    obtain ⟨y, hy, hvy⟩ := get_element (R := fun a b => svecAt idx a = some b) hT hsp
    obtain ⟨v, hv, rfl⟩ := svecAt_vel hvy
    obtain ⟨h1, h2⟩ := (C57_acceleration_elementwise {} A B k.differential V P s hV (shape_of_get hS hsp)
      (shape_of_get hS hP) h).2.2 idx hi a v p ha hv hp
    have e1 : tempRepresentAs (.acc a) k T = (representAcc {} a k.differential v p >>= fun u => pure (SVec.acc u)) := by
      simp only [tempRepresentAs, hx, hy, ok_bind, SVec.asPos, SVec.asVel]
    rw [e1]
    generalize representAcc {} a k.differential v p = r at h1 h2
    cases r with
    | error e' =>
      refine ⟨(fun w hw => by cases hw), fun e he => ?_⟩
      obtain rfl := Except.error.inj he
      exact h2 _ rfl
    | ok u =>
      refine ⟨fun w hw => ?_, (fun e he => by cases he)⟩
      obtain rfl := Except.ok.inj hw
      show (velAt idx B).map SVec.acc = _
      rw [h1 u rfl]; rfl

theorem representAsB_fits {s : List ℕ} {P Q : Pos BArr} {k : Kind} (hfit : Fit s {} P) (h : representAsB {} P k = .ok Q) :
    Fits s Q := by
  have hP : DefP ∅ s P := fun a ha => ⟨hfit.1 a (by rw [compsOf_eq]; exact ha), fun i h => h.elim⟩
  have hK : DefKw ∅ s {} := fun a ha => ⟨hfit.2 a (kwOf_mem ha), fun i h => h.elim⟩
  have h1 := ((simAt pyDepth ∅ s {} P k (fun i h => h.elim) hK hP).ok Q h).1
  unfold Fits; rw [compsOf_eq]; exact h1

/-- the shape of a converted entry -/
theorem temp_fits {s : List ℕ} {S : Space SVecB} {k : Kind} (hS : SpaceShape s S) {V W : SVecB} (hV : SVecShape s V)
    (h : tempRepresentAsB V k S = .ok W) : SVecFits s W := by
  rw [tempB_iff] at h
  cases V with
  | pos P =>
    obtain ⟨Q, rfl, h⟩ := h
    exact representAsB_fits (fit_nil hV) h
  | vel V =>
    obtain ⟨P, U, hP, rfl, h⟩ := h
    exact (C57_elementwise {} V U k.differential P s hV (shape_of_get hS hP) h).2.1
  | acc A =>
    obtain ⟨P, V, B, hP, hsp, rfl, h⟩ := h
    exact (C57_acceleration_elementwise {} A B k.differential V P s hV (shape_of_get hS hsp) (shape_of_get hS hP) h).2.1

/-- a value-wise map, element by element -/
theorem mapValues_sim {names : DimNames} {S S' : Space SVecB} (hs : SpaceOk names S) {f : SVecB → Res SVecB}
    (h : S.mapValues names SVecB.shape f = .ok S') :
    S'.data.map Prod.fst = S.data.map Prod.fst ∧
    ∀ (P : SVecB → Prop), (∀ kv ∈ S.data, ∀ W, f kv.2 = .ok W → P W) → ∀ kv ∈ S'.data, P kv.2 := by
  have hf := ((mapValues_iff hs).mp h).1
  refine ⟨?_, fun P hP kv hkv => ?_⟩
  · clear h
    generalize S.data = a at hf
    generalize S'.data = b at hf
    induction hf with
    | nil => rfl
    | cons h _ ih => rw [map_cons, map_cons, h.1, ih]
  · obtain ⟨x, hx, -, h⟩ := forall₂_mem_right hf hkv
    exact hP x hx _ h

theorem mapValues_agrees {names : DimNames} {S S' : Space SVecB} (hs : SpaceOk names S) {idx : List ℕ} {T : Space SVec}
    (hT : IsElement idx S T) {f : SVecB → Res SVecB} {g : SVec → Res SVec}
    (hfg : ∀ kv ∈ S.data, ∀ v W, svecAt idx kv.2 = some v → f kv.2 = .ok W →
      (∀ w, g v = .ok w → svecAt idx W = some w) ∧ ∀ e, g v = .error e → e = .nonFinite)
    (h : S.mapValues names SVecB.shape f = .ok S') : SpaceAgrees idx S' (T.mapValues names SVec.shape g) := by
  have hf := ((mapValues_iff hs).mp h).1
  have hsT := isElement_ok hs hT
  refine ⟨fun T' h' => ?_, fun e he => ?_⟩
  · have hg := ((mapValues_iff hsT).mp h').1
    refine forall₂_square hf hT hg fun x hx y z w h1 h2 h3 => ⟨by rw [← h1.1, h2.1, h3.1], ?_⟩
    exact (hfg x hx z.2 y.2 h2.2 h1.2).1 w.2 h3.2
  · by_contra hne
    have hall : ∀ kv ∈ T.data, ∃ w, g kv.2 = .ok w ∨ g kv.2 = .error .nonFinite := by
      intro kv hkv
      obtain ⟨x, hx, -, hv⟩ := forall₂_mem_right hT hkv
      obtain ⟨y, hy, -, hw⟩ := forall₂_mem_left hf hx
      have := (hfg x hx kv.2 y.2 hv hw).2
      cases hg : g kv.2 with
      | ok w => exact ⟨w, .inl rfl⟩
      | error e' => exact ⟨kv.2, .inr (congrArg _ (this e' hg))⟩
    unfold Space.mapValues at he
    cases hm : T.data.mapM (fun kv => do return (kv.1, ← g kv.2)) with
    | error e' =>
      rw [hm] at he
      obtain rfl := Except.error.inj he
      obtain ⟨kv, hkv, hg⟩ := mapM_error hm
      obtain ⟨w, hw | hw⟩ := hall kv hkv
      · rw [hw] at hg; cases hg
      · rw [hw] at hg
        exact hne (Except.error.inj hg).symm
    | ok m =>
      have hg : Forall₂ (fun a b => a.1 = b.1 ∧ g a.2 = .ok b.2) T.data m := by
        refine (mapM_res_iff.mp hm).imp fun a b h => ?_
        obtain ⟨w, h1, h2⟩ := (bind_ok_iff _ _ _).mp h
        obtain rfl := Except.ok.inj h2
        exact ⟨rfl, h1⟩
      have := (mapValues_iff (shape := SVec.shape) (s' := ⟨m⟩) hsT).mpr ⟨hg, scalar_shapes _⟩
      unfold Space.mapValues at this
      rw [this] at he
      cases he

/-! ### C71: conversion and negation -/

/-- **C71 (elements).** Whenever `represent_as(space, target)` returns for a Space of vectors of one batch shape, the result has
the same keys and, at every batch index where the Space is finite, it is the conversion of the scalar Space there, if that is
finite; that scalar conversion does not raise. -/
theorem C71_represent_as (names : DimNames) (S S' : Space SVecB) (k : Kind) (s : List ℕ) (hs : SpaceOk names S)
    (hS : SpaceShape s S) (h : representSpaceB names S k = .ok S') :
    S'.data.map Prod.fst = S.data.map Prod.fst ∧ SpaceFits s S' ∧
    ∀ idx, InB s idx → ∀ T, IsElement idx S T → SpaceAgrees idx S' (representSpace names T k) :=
  ⟨(mapValues_sim hs h).1, (mapValues_sim hs h).2 _ fun kv hkv _ hW => temp_fits hS (hS kv hkv) hW,
    fun _ hi _ hT => mapValues_agrees hs hT (fun kv hkv _ _ hv hW => temp_sim hS hi hT (hS kv hkv) hv hW) h⟩

/-- **C71 (entries).** Entry by entry: only the elements that the entry is computed from matter, others may be NaN. -/
theorem C71_entries (names : DimNames) (S S' : Space SVecB) (k : Kind) (s : List ℕ) (hs : SpaceOk names S)
    (hS : SpaceShape s S) (h : representSpaceB names S k = .ok S') (key : String) :
    (∀ P, S.getStr key = .ok (.pos P) → ∃ Q, S'.getStr key = .ok (.pos Q) ∧ ∀ idx, InB s idx → ∀ p, posAt idx P = some p →
      Agrees idx Q (representAs {} p k)) ∧
    (∀ V, S.getStr key = .ok (.vel V) → ∃ P W, S.getStr "length" = .ok (.pos P) ∧ S'.getStr key = .ok (.vel W) ∧
      ∀ idx, InB s idx → ∀ v p, velAt idx V = some v → posAt idx P = some p →
        (∀ w, representVel {} v k.differential p = .ok w → velAt idx W = some w) ∧
        ∀ e, representVel {} v k.differential p = .error e → e = .nonFinite) ∧
    (∀ A, S.getStr key = .ok (.acc A) → ∃ P V B, S.getStr "length" = .ok (.pos P) ∧ S.getStr "speed" = .ok (.vel V) ∧
      S'.getStr key = .ok (.acc B) ∧
      ∀ idx, InB s idx → ∀ a v p, velAt idx A = some a → velAt idx V = some v → posAt idx P = some p →
        (∀ w, representAcc {} a k.differential v p = .ok w → velAt idx B = some w) ∧
        ∀ e, representAcc {} a k.differential v p = .error e → e = .nonFinite) := by
  have hf := ((mapValues_iff hs).mp h).1
  refine ⟨fun P hP => ?_, fun V hV => ?_, fun A hA => ?_⟩
  · obtain ⟨W, hW, hr⟩ := get_element (R := fun a b => tempRepresentAsB a k S = .ok b) hf hP
    obtain ⟨Q, rfl, hQ⟩ := (tempB_iff S k _ _).mp hr
    exact ⟨Q, hW, fun idx hi p hp =>
      (C49_elementwise {} P Q k s idx (fit_nil (shape_of_get hS hP)) hQ hi p {} hp (kwAt_nil idx)).2⟩
  · obtain ⟨W, hW, hr⟩ := get_element (R := fun a b => tempRepresentAsB a k S = .ok b) hf hV
    obtain ⟨P, U, hP, rfl, hU⟩ := (tempB_iff S k _ _).mp hr
    exact ⟨P, U, hP, hW, (C57_elementwise {} V U k.differential P s (shape_of_get hS hV) (shape_of_get hS hP) hU).2.2⟩
  · obtain ⟨W, hW, hr⟩ := get_element (R := fun a b => tempRepresentAsB a k S = .ok b) hf hA
    obtain ⟨P, V, B, hP, hV, rfl, hB⟩ := (tempB_iff S k _ _).mp hr
    exact ⟨P, V, B, hP, hV, hW, (C57_acceleration_elementwise {} A B k.differential V P s (shape_of_get hS hA)
      (shape_of_get hS hV) (shape_of_get hS hP) hB).2.2⟩

theorem fits_shape {s : List ℕ} {W : SVecB} (h : SVecFits s W) : ∃ t, W.shape = .ok t ∧ BroadcastsTo t s := by
  have key : ∀ l : List BArr, (∀ a ∈ l, BroadcastsTo a.shape s) →
      ∃ t, broadcastShapes (l.map Arr.shape) = .ok t ∧ BroadcastsTo t s := by
    intro l hl
    have hl' : ∀ x ∈ l.map Arr.shape, BroadcastsTo x s := by
      intro x hx
      obtain ⟨a, ha, rfl⟩ := mem_map.mp hx
      exact hl a ha
    obtain ⟨t, ht⟩ := broadcastShapes_total hl'
    exact ⟨t, ht, (broadcastShapes_isBroadcast ht).2 s hl'⟩
  cases W with
  | pos P =>
    refine key P.coords fun a ha => h a ?_
    rw [compsOf_eq, Pos.arrays_eq, mem_append]
    exact .inl ha
  | vel V => exact key V.comps fun a ha => h a (by rw [velComps_eq]; exact ha)
  | acc V => exact key V.comps fun a ha => h a (by rw [velComps_eq]; exact ha)

theorem mapValues_total {names : DimNames} {S : Space SVecB} (hs : SpaceOk names S) {f : SVecB → Res SVecB} {s : List ℕ}
    (h : ∀ kv ∈ S.data, ∃ W, f kv.2 = .ok W ∧ SVecFits s W) : ∃ S', S.mapValues names SVecB.shape f = .ok S' := by
  obtain ⟨b, hb⟩ := forall₂_exists (R := fun (a b : String × SVecB) => a.1 = b.1 ∧ f a.2 = .ok b.2 ∧ SVecFits s b.2)
    fun x hx => by
      obtain ⟨W, h1, h2⟩ := h x hx
      exact ⟨(x.1, W), rfl, h1, h2⟩
  refine ⟨⟨b⟩, (mapValues_iff hs).mpr ⟨hb.imp fun _ _ h => ⟨h.1, h.2.1⟩, ?_⟩⟩
  have hfit : ∀ kv ∈ b, SVecFits s kv.2 := fun kv hkv => by
    obtain ⟨x, -, -, -, h⟩ := forall₂_mem_right hb hkv
    exact h
  obtain ⟨shapes, hsh⟩ := forall₂_exists (R := fun (a : String × SVecB) t => a.2.shape = .ok t ∧ BroadcastsTo t s)
    fun x hx => fits_shape (hfit x hx)
  obtain ⟨t, ht⟩ := broadcastShapes_total (shapes := shapes) (w := s) fun x hx => by
    obtain ⟨y, -, -, h⟩ := forall₂_mem_right hsh hx
    exact h
  exact ⟨shapes, t, mapM_res_iff.mpr (hsh.imp fun _ _ h => h.1), ht⟩

/-- **C71 (returning).** If no axis is empty, all elements are finite, their positions valid and the scalar conversions of all
elements return, so does the conversion of the batch. (`ShapesFit` as in C49: always true for classes of equal dimension other
than prolate spheroidal coordinates.) -/
theorem C71_returns (names : DimNames) (S : Space SVecB) (k : Kind) (s : List ℕ) (hs : SpaceOk names S)
    (hS : SpaceShape s S) (h0 : 0 ∉ s) (hfit : ∀ key P, (key, SVecB.pos P) ∈ S.data → ShapesFit {} P k)
    (hall : ∀ idx, InB s idx → ∃ T, IsElement idx S T ∧ (∀ key p, (key, SVec.pos p) ∈ T.data → Valid p) ∧
      ∃ T', representSpace names T k = .ok T') : ∃ S', representSpaceB names S k = .ok S' := by
  have helem : ∀ idx, InB s idx → ∃ T, IsElement idx S T ∧ (∀ key p, (key, SVec.pos p) ∈ T.data → Valid p) ∧
      ∀ kv ∈ T.data, ∃ w, tempRepresentAs kv.2 k T = .ok w := by
    intro idx hi
    obtain ⟨T, h1, h2, T', h3⟩ := hall idx hi
    refine ⟨T, h1, h2, fun kv hkv => ?_⟩
    have hf := ((mapValues_iff (isElement_ok hs h1)).mp h3).1
    obtain ⟨y, -, -, h⟩ := forall₂_mem_left hf hkv
    exact ⟨_, h⟩
  obtain ⟨i0, hi0⟩ := exists_index h0
  refine mapValues_total (s := s) hs fun kv hkv => ?_
  suffices ∃ W, tempRepresentAsB kv.2 k S = .ok W by
    obtain ⟨W, hW⟩ := this
    exact ⟨W, hW, temp_fits hS (hS kv hkv) hW⟩
  obtain ⟨key, V⟩ := kv
  cases V with
  | pos P =>
    obtain ⟨Q, hQ⟩ := C49_returns_if_shapes_fit {} P k s (fit_nil (hS _ hkv)) h0 (hfit key P hkv) fun idx hi => by
      obtain ⟨T, h1, -, h3⟩ := helem idx hi
      obtain ⟨⟨key', v⟩, hy, -, hv⟩ := forall₂_mem_left h1 hkv
      obtain ⟨p, hp, rfl⟩ := svecAt_pos hv
      obtain ⟨w, hw⟩ := h3 _ hy
      obtain ⟨q, hq, -⟩ := (temp_iff T k _ _).mp hw |> fun h => (h : ∃ q, w = .pos q ∧ _) |>.imp fun _ h => h.symm
      exact ⟨p, {}, q, hp, kwAt_nil idx, hq⟩
    exact ⟨.pos Q, (tempB_iff S k _ _).mpr ⟨Q, rfl, hQ⟩⟩
  | vel V =>
    have hp0 : ∃ P, S.getStr "length" = .ok (.pos P) := by
      obtain ⟨T, h1, -, h3⟩ := helem i0 hi0
      obtain ⟨⟨key', v⟩, hy, -, hv⟩ := forall₂_mem_left h1 hkv
      obtain ⟨v, hv', rfl⟩ := svecAt_vel hv
      obtain ⟨w, hw⟩ := h3 _ hy
      obtain ⟨p, u, hp, -, -⟩ := (temp_iff T k _ _).mp hw
      obtain ⟨X, hX, hx⟩ := element_get' (R := fun a b => svecAt i0 a = some b) h1 hp
      cases X with
      | pos P => exact ⟨P, hX⟩
      | vel V => obtain ⟨_, _, h⟩ := svecAt_vel hx; cases h
      | acc V => obtain ⟨_, _, h⟩ := svecAt_acc hx; cases h
    obtain ⟨P, hP⟩ := hp0
    obtain ⟨U, hU⟩ := C57_returns {} V k.differential P s (hS _ hkv) (shape_of_get hS hP) h0 fun idx hi => by
      obtain ⟨T, h1, h2, h3⟩ := helem idx hi
      obtain ⟨⟨key', v⟩, hy, -, hv⟩ := forall₂_mem_left h1 hkv
      obtain ⟨v, hv', rfl⟩ := svecAt_vel hv
      obtain ⟨w, hw⟩ := h3 _ hy
      obtain ⟨p, u, hp, -, hu⟩ := (temp_iff T k _ _).mp hw
      obtain ⟨x, hx, hpx⟩ := get_element (R := fun a b => svecAt idx a = some b) h1 hP
      obtain ⟨p', hp', rfl⟩ := svecAt_pos hpx
      rw [hx] at hp
      obtain rfl := SVec.pos.inj (Except.ok.inj hp)
      exact ⟨v, p', u, hv', hp', h2 _ _ (lookup_mem (getStr_iff.mp hx)), hu⟩
    exact ⟨.vel U, (tempB_iff S k _ _).mpr ⟨P, U, hP, rfl, hU⟩⟩
  | acc A =>
    have hp0 : ∃ P V, S.getStr "length" = .ok (.pos P) ∧ S.getStr "speed" = .ok (.vel V) := by
      obtain ⟨T, h1, -, h3⟩ := helem i0 hi0
      obtain ⟨⟨key', v⟩, hy, -, hv⟩ := forall₂_mem_left h1 hkv
      obtain ⟨v, hv', rfl⟩ := svecAt_acc hv
      obtain ⟨w, hw⟩ := h3 _ hy
      obtain ⟨p, u, b, hp, hu, -, -⟩ := (temp_iff T k _ _).mp hw
      obtain ⟨X, hX, hx⟩ := element_get' (R := fun a b => svecAt i0 a = some b) h1 hp
      obtain ⟨Y, hY, hy⟩ := element_get' (R := fun a b => svecAt i0 a = some b) h1 hu
      cases X with
      | pos P =>
        cases Y with
        | vel V => exact ⟨P, V, hX, hY⟩
        | pos P => obtain ⟨_, _, h⟩ := svecAt_pos hy; cases h
        | acc V => obtain ⟨_, _, h⟩ := svecAt_acc hy; cases h
      | vel V => obtain ⟨_, _, h⟩ := svecAt_vel hx; cases h
      | acc V => obtain ⟨_, _, h⟩ := svecAt_acc hx; cases h
    obtain ⟨P, V, hP, hV⟩ := hp0
    obtain ⟨B, hB⟩ := C57_acceleration_returns {} A k.differential V P s (hS _ hkv) (shape_of_get hS hV)
      (shape_of_get hS hP) h0 fun idx hi => by
        obtain ⟨T, h1, h2, h3⟩ := helem idx hi
        obtain ⟨⟨key', a⟩, hy, -, ha⟩ := forall₂_mem_left h1 hkv
        obtain ⟨a, ha', rfl⟩ := svecAt_acc ha
        obtain ⟨w, hw⟩ := h3 _ hy
        obtain ⟨p, v, b, hp, hv, -, hb⟩ := (temp_iff T k _ _).mp hw
        obtain ⟨x, hx, hpx⟩ := get_element (R := fun a b => svecAt idx a = some b) h1 hP
        obtain ⟨p', hp', rfl⟩ := svecAt_pos hpx
        rw [hx] at hp
        obtain rfl := SVec.pos.inj (Except.ok.inj hp)
        obtain ⟨y, hy, hvy⟩ := get_element (R := fun a b => svecAt idx a = some b) h1 hV
        obtain ⟨v', hv', rfl⟩ := svecAt_vel hvy
        rw [hy] at hv
        obtain rfl := SVec.vel.inj (Except.ok.inj hv)
        exact ⟨a, v', p', b, ha', hv', hp', h2 _ _ (lookup_mem (getStr_iff.mp hx)), hb⟩
    exact ⟨.acc B, (tempB_iff S k _ _).mpr ⟨P, V, B, hP, hV, rfl, hB⟩⟩


/-! ### negation -/

theorem negVel_at {idx : List ℕ} {V : Vel BArr} {v : Vel ℝ} (h : velAt idx V = some v) :
    velAt idx (negVelB V) = some (negVel v) := by
  have neg : ∀ {a : BArr} {x : ℝ}, at_ idx a = some x → at_ idx (bneg a) = some (-x) := fun h => at_map1 h rfl
  cases V <;>
    simp only [velAt, Option.bind_eq_some_iff, Option.pure_def, Option.bind_eq_bind, Option.some.injEq] at h
  all_goals first
    | (obtain ⟨a, ha, b, hb, c, hc, rfl⟩ := h
       simp only [negVelB, Vel.map, velAt, neg ha, neg hb, neg hc, negVel, Option.bind_eq_bind, Option.bind_some, Option.pure_def])
    | (obtain ⟨a, ha, b, hb, rfl⟩ := h
       simp only [negVelB, Vel.map, velAt, neg ha, neg hb, negVel, Option.bind_eq_bind, Option.bind_some, Option.pure_def])
    | (obtain ⟨a, ha, rfl⟩ := h
       simp only [negVelB, Vel.map, velAt, neg ha, negVel, Option.bind_eq_bind, Option.bind_some, Option.pure_def])

theorem negVel_fits {s : List ℕ} {V : Vel BArr} (h : ∀ a ∈ velComps V, BroadcastsTo a.shape s) :
    ∀ a ∈ velComps (negVelB V), BroadcastsTo a.shape s := by
  have e : velComps (negVelB V) = (velComps V).map bneg := by cases V <;> rfl
  rw [e]
  intro a ha
  obtain ⟨b, hb, rfl⟩ := mem_map.mp ha
  exact h b hb

/-- **C71 (negation).** `-space` is entry by entry and element by element what negating the scalar Spaces is. -/
theorem C71_negation (names : DimNames) (S S' : Space SVecB) (s : List ℕ) (hs : SpaceOk names S) (hS : SpaceFits s S)
    (h : Space.negB names S = .ok S') :
    S'.data.map Prod.fst = S.data.map Prod.fst ∧
    ∀ idx, InB s idx → ∀ T, IsElement idx S T → SpaceAgrees idx S' (Space.neg names T) := by
  refine ⟨(mapValues_sim hs h).1, fun idx hi T hT => mapValues_agrees hs hT (fun kv hkv v W hv hW => ?_) h⟩
  obtain ⟨key, V⟩ := kv
  cases V with
  | pos P =>
    obtain ⟨p, hp, rfl⟩ := svecAt_pos hv
    obtain ⟨Q, hQ, e⟩ := (bind_ok_iff _ _ _).mp (hW : (negPosB P >>= fun Q => pure (SVecB.pos Q)) = .ok W)
    obtain rfl := Except.ok.inj e
    obtain ⟨-, h1, h2⟩ := C58_neg_elementwise P Q s idx (hS _ hkv) hi p hp hQ
    show (∀ w, (negPos p >>= fun q => pure (SVec.pos q)) = .ok w → _) ∧ ∀ e, (negPos p >>= fun q => pure (SVec.pos q)) = .error e → _
    generalize negPos p = r at h1 h2
    cases r with
    | error e' =>
      refine ⟨(fun w hw => by cases hw), fun e he => ?_⟩
      obtain rfl := Except.error.inj he
      exact h2 _ rfl
    | ok q =>
      refine ⟨fun w hw => ?_, (fun e he => by cases he)⟩
      obtain rfl := Except.ok.inj hw
      show (posAt idx Q).map SVec.pos = _
      rw [h1 q rfl]; rfl
  | vel V =>
    obtain ⟨v', hv', rfl⟩ := svecAt_vel hv
    obtain rfl := Except.ok.inj hW
    refine ⟨fun w hw => ?_, (fun e he => by cases he)⟩
    obtain rfl := Except.ok.inj hw
    show (velAt idx (negVelB V)).map SVec.vel = _
    rw [negVel_at hv']; rfl
  | acc V =>
    obtain ⟨v', hv', rfl⟩ := svecAt_acc hv
    obtain rfl := Except.ok.inj hW
    refine ⟨fun w hw => ?_, (fun e he => by cases he)⟩
    obtain rfl := Except.ok.inj hw
    show (velAt idx (negVelB V)).map SVec.acc = _
    rw [negVel_at hv']; rfl

/-- **C71 (negation returns).** If no axis is empty and the scalar Spaces can be negated, so can the batch. -/
theorem C71_neg_returns (names : DimNames) (S : Space SVecB) (s : List ℕ) (hs : SpaceOk names S) (hS : SpaceFits s S)
    (h0 : 0 ∉ s) (hall : ∀ idx, InB s idx → ∃ T T', IsElement idx S T ∧ Space.neg names T = .ok T') :
    ∃ S', Space.negB names S = .ok S' := by
  refine mapValues_total (s := s) hs fun kv hkv => ?_
  obtain ⟨key, V⟩ := kv
  cases V with
  | pos P =>
    obtain ⟨Q, hQ⟩ := C58_neg_returns P s (hS _ hkv) h0 fun idx hi => by
      obtain ⟨T, T', h1, h2⟩ := hall idx hi
      obtain ⟨⟨key', v⟩, hy, -, hv⟩ := forall₂_mem_left h1 hkv
      obtain ⟨p, hp, rfl⟩ := svecAt_pos hv
      have hf := ((mapValues_iff (isElement_ok hs h1)).mp h2).1
      obtain ⟨y, -, -, h⟩ := forall₂_mem_left hf hy
      obtain ⟨q, hq, -⟩ := (bind_ok_iff _ _ _).mp (h : (negPos p >>= fun q => pure (SVec.pos q)) = .ok y.2)
      exact ⟨p, hp, q, hq⟩
    obtain ⟨i0, hi0⟩ := exists_index h0
    obtain ⟨T, T', h1, h2⟩ := hall i0 hi0
    obtain ⟨⟨key', v⟩, hy, -, hv⟩ := forall₂_mem_left h1 hkv
    obtain ⟨p, hp, rfl⟩ := svecAt_pos hv
    refine ⟨.pos Q, ?_, (C58_neg_elementwise P Q s i0 (hS _ hkv) hi0 p hp hQ).1⟩
    show (negPosB P >>= fun Q => pure (SVecB.pos Q)) = _
    rw [hQ]; rfl
  | vel V => exact ⟨_, rfl, negVel_fits (hS _ hkv)⟩
  | acc V => exact ⟨_, rfl, negVel_fits (hS _ hkv)⟩

/-! ### Poincaré polar vectors -/

theorem poincareAt_iff {idx : List ℕ} {W : PoincareB} {w : Poincare} : poincareAt idx W = some w ↔
    at_ idx W.rho = some w.rho ∧ at_ idx W.ppPhi = some w.ppPhi ∧ at_ idx W.z = some w.z ∧ at_ idx W.dRho = some w.dRho ∧
    at_ idx W.dPpPhi = some w.dPpPhi ∧ at_ idx W.dZ = some w.dZ := by
  unfold poincareAt
  simp only [Option.bind_eq_some_iff, Option.pure_def, Option.bind_eq_bind, Option.some.injEq]
  constructor
  · rintro ⟨a, h1, b, h2, c, h3, d, h4, e, h5, f, h6, rfl⟩; exact ⟨h1, h2, h3, h4, h5, h6⟩
  · rintro ⟨h1, h2, h3, h4, h5, h6⟩; exact ⟨_, h1, _, h2, _, h3, _, h4, _, h5, _, h6, rfl⟩

/-- an operation on two arrays -/
theorem map2_step (f : ℝ → ℝ → Res ℝ) {s : List ℕ} {X Y : BArr} (hX : BroadcastsTo X.shape s) (hY : BroadcastsTo Y.shape s) :
    ∃ Z, Arr.map2 (el2 f) X Y = .ok Z ∧ BroadcastsTo Z.shape s ∧ ∀ idx, InB s idx → ∀ x y v, at_ idx X = some x →
      at_ idx Y = some y → f x y = .ok v → at_ idx Z = some v := by
  obtain ⟨Z, h1, h2, -, h3⟩ := Arr.map2_spec (f := el2 f) hX hY
  refine ⟨Z, h1, h2, fun idx hi x y v hx hy hv => ?_⟩
  rw [at_eq h2 hi, h3, ← at_eq hX hi, ← at_eq hY hi, hx, hy]
  simp only [el2, hv]

theorem mul_step {s : List ℕ} {X Y : BArr} (hX : BroadcastsTo X.shape s) (hY : BroadcastsTo Y.shape s) :
    ∃ Z, bmul X Y = .ok Z ∧ BroadcastsTo Z.shape s ∧ ∀ idx, InB s idx → ∀ x y, at_ idx X = some x →
      at_ idx Y = some y → at_ idx Z = some (x * y) := by
  obtain ⟨Z, h1, h2, h3⟩ := map2_step (fun a b => .ok (a * b)) hX hY
  exact ⟨Z, h1, h2, fun idx hi x y hx hy => h3 idx hi x y _ hx hy rfl⟩

/-- the last part of Space -> PoincarePolarVector -/
theorem toPoincareB_tail {s : List ℕ} {S : Space SVecB} {P : Pos BArr} {V : Vel BArr} {ρ φ z a b c : BArr}
    (hP : S.getStr "length" = .ok (.pos P)) (hV : S.getStr "speed" = .ok (.vel V))
    (hq : representAsB {} P .cyl = .ok (.cyl ρ φ z)) (hp : representVelB {} V .cyl (.cyl ρ φ z) = .ok (.cyl a b c))
    (h1 : ∀ x ∈ [ρ, φ, z], BroadcastsTo x.shape s) (h2 : ∀ x ∈ [a, b, c], BroadcastsTo x.shape s) :
    ∃ W, toPoincareB S = .ok W ∧ PoincareFits s W ∧ ∀ idx, InB s idx → ∀ ρ' φ' z' a' b' c', at_ idx ρ = some ρ' →
      at_ idx φ = some φ' → at_ idx z = some z' → at_ idx a = some a' → at_ idx b = some b' → at_ idx c = some c' →
      poincareAt idx W = some ⟨ρ', √|2 * (ρ' * ρ') * b'| * Real.cos φ', z', a', √|2 * (ρ' * ρ') * b'| * Real.sin φ', c'⟩ := by
  have f1 := h1 ρ (by simp)
  have f2 := h1 φ (by simp)
  have f3 := h1 z (by simp)
  have g1 := h2 a (by simp)
  have g2 := h2 b (by simp)
  have g3 := h2 c (by simp)
  obtain ⟨Z1, e1, k1, v1⟩ := mul_step f1 f1
  obtain ⟨Z2, e2, k2, v2⟩ := mul_step (X := bnat 2) (Y := Z1) (s := s) (broadcastsTo_nil s) k1
  obtain ⟨Z3, e3, k3, v3⟩ := mul_step k2 g2
  have k4 : BroadcastsTo (bsqrt (babs Z3)).shape s := k3
  obtain ⟨Z4, e4, k5, v4⟩ := mul_step (Y := bcos φ) k4 f2
  obtain ⟨Z5, e5, k6, v5⟩ := mul_step (Y := bsin φ) k4 f2
  refine ⟨⟨ρ, Z4, z, a, Z5, c⟩, ?_, ?_, ?_⟩
  · unfold toPoincareB
    rw [hP, ok_bind]
    show (do let q ← representAsB {} P .cyl; _) = _
    rw [hq, ok_bind, hV, ok_bind]
    show (do let p ← representVelB {} V .cyl (.cyl ρ φ z); _) = _
    rw [hp, ok_bind]
    simp only [Pos.cylFieldsB, Vel.cylFieldsB, ok_bind, e1, e2, e3, e4, e5]
    rfl
  · intro x hx
    simp only [poincareComps, mem_cons, not_mem_nil, or_false] at hx
    rcases hx with rfl | rfl | rfl | rfl | rfl | rfl <;> assumption
  · intro idx hi ρ' φ' z' a' b' c' r1 r2 r3 r4 r5 r6
    have w1 := v1 idx hi _ _ r1 r1
    have w2 := v2 idx hi 2 _ (by show some (Num.nat 2 : ℝ) = _; simp [Num.nat]) w1
    have w3 := v3 idx hi _ _ w2 r5
    have w4 : at_ idx (bsqrt (babs Z3)) = some √|2 * (ρ' * ρ') * b'| :=
      at_map1 (at_map1 (f := fun x => .ok (Num.abs x)) w3 rfl) (sqrt_real_ok (abs_nonneg _))
    rw [poincareAt_iff]
    exact ⟨r1, v4 idx hi _ _ w4 (at_map1 r2 rfl), r3, r4, v5 idx hi _ _ w4 (at_map1 r2 rfl), r6⟩

/-- the same for one element -/
theorem toPoincare_of {T : Space SVec} {p : Pos ℝ} {v : Vel ℝ} {ρ φ z a b c : ℝ} (hp : T.getStr "length" = .ok (.pos p))
    (hv : T.getStr "speed" = .ok (.vel v)) (hq : representAs {} p .cyl = .ok (.cyl ρ φ z))
    (hw : representVel {} v .cyl (.cyl ρ φ z) = .ok (.cyl a b c)) :
    toPoincare T = .ok ⟨ρ, √|2 * (ρ * ρ) * b| * Real.cos φ, z, a, √|2 * (ρ * ρ) * b| * Real.sin φ, c⟩ := by
  unfold toPoincare
  rw [hp, ok_bind]
  show (do let q ← representAs {} p .cyl; _) = _
  rw [hq, ok_bind, hv, ok_bind]
  show (do let p ← representVel {} v .cyl (.cyl ρ φ z); _) = _
  rw [hw, ok_bind]
  simp only [Pos.cylFields, Vel.cylFields, ok_bind]
  have : (Num.abs (Num.nat 2 * (ρ * ρ) * b) : ℝ) = |2 * (ρ * ρ) * b| := by
    simp [Num.abs, Num.nat]
  rw [this, sqrt_real_ok (abs_nonneg _), ok_bind]
  rfl

theorem allSh_posShape {s : List ℕ} {Q : Pos BArr} (h : AllSh s Q) (hk : Q.kind ≠ .prolate) : PosShape Q s := by
  refine ⟨⟨fun t ht => ?_, fun w hw => ?_⟩, fun mu nu phi d e => absurd (by rw [e]; rfl) hk⟩
  · obtain ⟨a, ha, rfl⟩ := mem_map.mp ht
    rw [h a (by rw [← coordsOf_eq]; exact ha)]
    exact broadcastsTo_refl _
  · obtain ⟨a, ha⟩ : ∃ a, a ∈ Q.coords := by cases Q <;> exact ⟨_, mem_cons_self⟩
    rw [← h a ha]
    exact hw _ (mem_map.mpr ⟨a, by rw [coordsOf_eq]; exact ha, rfl⟩)

theorem cyl_of_fields {Q : Pos BArr} {x : BArr × BArr × BArr} (h : Q.cylFieldsB = .ok x) : ∃ ρ φ z, Q = .cyl ρ φ z := by
  cases Q <;> first | (cases h; done) | exact ⟨_, _, _, rfl⟩

theorem velCyl_of_fields {Q : Vel BArr} {x : BArr × BArr × BArr} (h : Q.cylFieldsB = .ok x) : ∃ ρ φ z, Q = .cyl ρ φ z := by
  cases Q <;> first | (cases h; done) | exact ⟨_, _, _, rfl⟩

theorem cylB_shape {s : List ℕ} {P Q : Pos BArr} (hU : Uniform s P) (hd : P.kind.dim = 3) (h : representAsB {} P .cyl = .ok Q)
    (hk : Q.kind ≠ .prolate) : PosShape Q s := by
  refine allSh_posShape (representB_shape pyDepth {} P .cyl kwSh_empty (uniform_sh hU).1 (uniform_sh hU).2 ?_ (by decide) Q h) hk
  cases hl : P.kind.leavesRank0 .cyl with
  | false => rfl
  | true =>
    have := leavesRank0_dim hl
    rw [hd] at this
    exact absurd this (by decide)

/-- **C71 (Poincaré polar vectors).** Whenever a Space of batched vectors is converted to a Poincaré polar vector, the result is
element by element the conversion of the scalar Spaces. -/
theorem C71_to_poincare (S : Space SVecB) (W : PoincareB) (s : List ℕ) (P : Pos BArr) (V : Vel BArr)
    (hP : S.getStr "length" = .ok (.pos P)) (hV : S.getStr "speed" = .ok (.vel V)) (hU : Uniform s P) (hd : P.kind.dim = 3)
    (hv : VelShape V s) (h : toPoincareB S = .ok W) :
    PoincareFits s W ∧ ∀ idx, InB s idx → ∀ T, IsElement idx S T →
      (∀ w, toPoincare T = .ok w → poincareAt idx W = some w) ∧ ∀ e, toPoincare T = .error e → e = .nonFinite := by
  have h' := h
  simp only [toPoincareB, bind_ok_iff] at h'
  obtain ⟨_, e1, _, e2, Q, hQ, _, e3, _, e4, U, hUU, _, e5, _, e6, -⟩ := h'
  rw [hP] at e1
  obtain rfl := Except.ok.inj e1
  obtain rfl := Except.ok.inj e2
  rw [hV] at e3
  obtain rfl := Except.ok.inj e3
  obtain rfl := Except.ok.inj e4
  obtain ⟨ρ, φ, z, rfl⟩ := cyl_of_fields e5
  obtain ⟨a, b, c, rfl⟩ := velCyl_of_fields e6
  have hQs := cylB_shape hU hd hQ (fun e => by cases e)
  have hel := C57_elementwise {} V _ .cyl _ s hv hQs hUU
  have hQf : Fits s (.cyl ρ φ z) := posShape_fits hQs
  obtain ⟨W', hW', hfit, hval⟩ := toPoincareB_tail hP hV hQ hUU (s := s) hQf hel.2.1
  rw [h] at hW'
  obtain rfl := Except.ok.inj hW'
  refine ⟨hfit, fun idx hi T hT => ?_⟩
  obtain ⟨x, hx, hpx⟩ := get_element (R := fun a b => svecAt idx a = some b) hT hP
  obtain ⟨p, hp, rfl⟩ := svecAt_pos hpx
  obtain ⟨y, hy, hvy⟩ := get_element (R := fun a b => svecAt idx a = some b) hT hV
  obtain ⟨v, hvv, rfl⟩ := svecAt_vel hvy
  have hPf : Fit s {} P := ⟨uniform_fits hU (broadcastsTo_refl _), fun a ha => by simp [kwOf] at ha⟩
  obtain ⟨-, q1, q2⟩ := C49_elementwise {} P _ .cyl s idx hPf hQ hi p {} hp (kwAt_nil idx)
  cases hr : representAs {} p .cyl with
  | error e =>
    have : toPoincare T = .error e := by
      unfold toPoincare
      rw [hx, ok_bind]
      show (do let q ← representAs {} p .cyl; _) = _
      rw [hr]; rfl
    rw [this]
    refine ⟨(fun w hw => by cases hw), fun e' he => ?_⟩
    obtain rfl := Except.error.inj he
    exact q2 _ hr
  | ok q =>
    have hq := q1 q hr
    simp only [posAt, Option.bind_eq_some_iff, Option.pure_def, Option.bind_eq_bind, Option.some.injEq] at hq
    obtain ⟨ρ', r1, φ', r2, z', r3, rfl⟩ := hq
    obtain ⟨u1, u2⟩ := hel.2.2 idx hi v _ hvv (q1 _ hr)
    cases hu : representVel {} v .cyl (.cyl ρ' φ' z') with
    | error e =>
      have : toPoincare T = .error e := by
        unfold toPoincare
        rw [hx, ok_bind]
        show (do let q ← representAs {} p .cyl; _) = _
        rw [hr, ok_bind, hy, ok_bind]
        show (do let q ← representVel {} v .cyl (.cyl ρ' φ' z'); _) = _
        rw [hu]; rfl
      rw [this]
      refine ⟨(fun w hw => by cases hw), fun e' he => ?_⟩
      obtain rfl := Except.error.inj he
      exact u2 _ hu
    | ok u =>
      have hu' := u1 u hu
      simp only [velAt, Option.bind_eq_some_iff, Option.pure_def, Option.bind_eq_bind, Option.some.injEq] at hu'
      obtain ⟨a', s1, b', s2, c', s3, rfl⟩ := hu'
      rw [toPoincare_of hx hy hr hu]
      refine ⟨fun w hw => ?_, (fun e he => by cases he)⟩
      obtain rfl := Except.ok.inj hw
      exact hval idx hi _ _ _ _ _ _ r1 r2 r3 s1 s2 s3

theorem mkSpace_two {V : Type} {names : DimNames} (hn : Standard names) {shape : V → Res (List ℕ)} {a b : V} {S : Space V} :
    mkSpace names shape [("length", a), ("speed", b)] = .ok S ↔
      (∃ sa sb t, shape a = .ok sa ∧ shape b = .ok sb ∧ broadcastShapes [sa, sb] = .ok t) ∧
      S = ⟨[("length", a), ("speed", b)]⟩ := by
  have hk : [("length", a), ("speed", b)].mapM (fun kv => names.canon kv.1) = .ok ["length", "speed"] :=
    mapM_res_iff.mpr (.cons hn.1 (.cons hn.2 .nil))
  rw [mkSpace_iff (by simp), hk]
  have hd : dictOf (["length", "speed"].zip ([("length", a), ("speed", b)].map Prod.snd)) = [("length", a), ("speed", b)] := by
    simp [dictOf, dictSet]
  constructor
  · rintro ⟨keys, shapes, t, h1, h2, h3, rfl⟩
    obtain rfl := Except.ok.inj h1
    rw [mapM_res_iff] at h2
    cases h2 with
    | cons ha h2 => cases h2 with
      | cons hb h2 =>
        cases h2
        exact ⟨⟨_, _, t, ha, hb, h3⟩, by rw [hd]⟩
  · rintro ⟨⟨sa, sb, t, ha, hb, ht⟩, rfl⟩
    exact ⟨_, [sa, sb], t, rfl, mapM_res_iff.mpr (.cons ha (.cons hb .nil)), ht, by rw [hd]⟩

/-- the first part of PoincarePolarVector -> Space -/
theorem ofPoincareB_head (names : DimNames) {s : List ℕ} {W : PoincareB} (hW : PoincareFits s W) :
    ∃ A D, (ofPoincareB names W = do
        let q ← mkCylB W.rho (.qty A) W.z
        mkSpace names SVecB.shape [("length", .pos q), ("speed", .vel (.cyl W.dRho D W.dZ))]) ∧
      BroadcastsTo A.shape s ∧ BroadcastsTo D.shape s ∧ ∀ idx, InB s idx → ∀ w, poincareAt idx W = some w →
        at_ idx A = some (atan2R w.dPpPhi w.ppPhi) ∧ (w.rho ≠ 0 →
          at_ idx D = some ((w.ppPhi * w.ppPhi + w.dPpPhi * w.dPpPhi) / 2 / (w.rho * w.rho))) := by
  have f1 := hW W.rho (by simp [poincareComps])
  have f2 := hW W.ppPhi (by simp [poincareComps])
  have f5 := hW W.dPpPhi (by simp [poincareComps])
  obtain ⟨A, eA, kA, vA⟩ := map2_step Num.atan2 f5 f2
  obtain ⟨B1, e1, k1, v1⟩ := mul_step f2 f2
  obtain ⟨B2, e2, k2, v2⟩ := mul_step f5 f5
  obtain ⟨B3, e3, k3, v3⟩ := map2_step (fun a b => .ok (a + b)) k1 k2
  obtain ⟨B4, e4, k4, v4⟩ := map2_step Num.div (Y := bnat 2) k3 (broadcastsTo_nil s)
  obtain ⟨B5, e5, k5, v5⟩ := mul_step f1 f1
  obtain ⟨D, e6, k6, v6⟩ := map2_step Num.div k4 k5
  refine ⟨A, D, ?_, kA, k6, fun idx hi w hw => ?_⟩
  · have eA' : batan2 W.dPpPhi W.ppPhi = .ok A := eA
    have e3' : badd B1 B2 = .ok B3 := e3
    have e4' : bdiv B3 (bnat 2) = .ok B4 := e4
    have e6' : bdiv B4 B5 = .ok D := e6
    simp only [ofPoincareB, eA', e1, e2, e3', e4', e5, e6', ok_bind]
  · obtain ⟨r1, r2, r3, r4, r5, r6⟩ := poincareAt_iff.mp hw
    refine ⟨vA idx hi _ _ _ r5 r2 (atan2_real _ _), fun h0 => ?_⟩
    have w3 := v3 idx hi _ _ _ (v1 idx hi _ _ r2 r2) (v2 idx hi _ _ r5 r5) rfl
    have w4 := v4 idx hi _ 2 _ w3 (by show some (Num.nat 2 : ℝ) = _; simp [Num.nat]) (div_real_ok two_ne_zero)
    exact v6 idx hi _ _ _ w4 (v5 idx hi _ _ r1 r1) (div_real_ok (mul_ne_zero h0 h0))

theorem ofPoincare_head (names : DimNames) (w : Poincare) :
    ofPoincare names w = if w.rho = 0 then .error .nonFinite else (do
      let q ← mkCyl w.rho (.qty (atan2R w.dPpPhi w.ppPhi)) w.z
      mkSpace names SVec.shape [("length", .pos q),
        ("speed", .vel (.cyl w.dRho ((w.ppPhi * w.ppPhi + w.dPpPhi * w.dPpPhi) / 2 / (w.rho * w.rho)) w.dZ))]) := by
  have h2 : (Num.nat 2 : ℝ) = 2 := by simp [Num.nat]
  unfold ofPoincare
  simp only [atan2_real, ok_bind]
  rw [h2, div_real_ok two_ne_zero, ok_bind]
  split
  · rename_i h
    rw [h]
    have : Num.div ((w.ppPhi * w.ppPhi + w.dPpPhi * w.dPpPhi) / 2) ((0 : ℝ) * 0) = .error .nonFinite := by
      simp [Num.div]
    rw [this]; rfl
  · rename_i h
    rw [div_real_ok (mul_ne_zero h h), ok_bind]

theorem cylB_sim {s : List ℕ} {R A Z : BArr} (D : Set (List ℕ)) (hD : ∀ i ∈ D, InB s i) (hR : BroadcastsTo R.shape s)
    (hA : BroadcastsTo A.shape s) (hZ : BroadcastsTo Z.shape s) {r a z : List ℕ → ℝ}
    (v : ∀ i ∈ D, at_ i R = some (r i) ∧ at_ i A = some (a i) ∧ at_ i Z = some (z i)) :
    BSim True D s (mkCylB R (.qty A) Z) fun i => mkCyl (r i) (.qty (a i)) (z i) := by
  have one : ∀ {X : BArr} {x : List ℕ → ℝ}, BroadcastsTo X.shape s → (∀ i ∈ D, at_ i X = some (x i)) →
      DefA D s X ∧ ∀ i ∈ D, X.elemD i = x i := fun {X x} hX hx => by
    have e : ∀ i ∈ D, X.elem i = some (x i) := fun i hi => by rw [← at_eq hX (hD i hi)]; exact hx i hi
    exact ⟨.of_elem hX fun i hi => ⟨_, e i hi⟩, fun i hi => elemD_of_elem (e i hi)⟩
  obtain ⟨r1, r2⟩ := one hR fun i hi => (v i hi).1
  obtain ⟨a1, a2⟩ := one hA fun i hi => (v i hi).2.1
  obtain ⟨z1, z2⟩ := one hZ fun i hi => (v i hi).2.2
  refine (mkCylB_base (T := True) (Φ := .qty A) hD r1 a1 z1).congr fun i hi => ?_
  simp only [AzArg.elemD, r2 i hi, a2 i hi, z2 i hi]

/-- **C71 (from Poincaré polar vectors).** Element by element the conversion of the scalar vectors. -/
theorem C71_from_poincare (names : DimNames) (hn : Standard names) (W : PoincareB) (S' : Space SVecB) (s : List ℕ)
    (hW : PoincareFits s W) (h : ofPoincareB names W = .ok S') :
    SpaceFits s S' ∧ ∀ idx, InB s idx → ∀ w, poincareAt idx W = some w → SpaceAgrees idx S' (ofPoincare names w) := by
  obtain ⟨A, D, e, kA, kD, hv⟩ := ofPoincareB_head names hW
  rw [e, bind_ok_iff] at h
  obtain ⟨Q, hQ, hS⟩ := h
  obtain ⟨-, rfl⟩ := (mkSpace_two hn).mp hS
  have f1 := hW W.rho (by simp [poincareComps])
  have f3 := hW W.z (by simp [poincareComps])
  have f4 := hW W.dRho (by simp [poincareComps])
  have f6 := hW W.dZ (by simp [poincareComps])
  have hQf : Fits s Q := by
    have := ((cylB_sim ∅ (fun i h => h.elim) f1 kA f3 (r := fun _ => 0) (a := fun _ => 0) (z := fun _ => 0)
      fun i h => h.elim).ok Q hQ).1
    unfold Fits; rw [compsOf_eq]; exact this
  refine ⟨?_, fun idx hi w hw => ?_⟩
  · intro kv hkv
    simp only [mem_cons, not_mem_nil, or_false] at hkv
    rcases hkv with rfl | rfl
    · exact hQf
    · intro a ha
      simp only [velComps, mem_cons, not_mem_nil, or_false] at ha
      rcases ha with rfl | rfl | rfl <;> assumption
  · obtain ⟨r1, r2, r3, r4, r5, r6⟩ := poincareAt_iff.mp hw
    obtain ⟨wA, wD⟩ := hv idx hi w hw
    have hsim := (cylB_sim {idx} (fun i h => by obtain rfl := h; exact hi) f1 kA f3 (r := fun _ => w.rho) (a := fun _ => _)
      (z := fun _ => w.z) fun i h => by obtain rfl := h; exact ⟨r1, wA, r3⟩).ok Q hQ
    obtain ⟨s1, s2⟩ := hsim.2 idx rfl
    rw [ofPoincare_head]
    split
    · refine ⟨(fun T hT => by cases hT), fun e he => (Except.error.inj he).symm⟩
    · rename_i h0
      cases hm : mkCyl w.rho (.qty (atan2R w.dPpPhi w.ppPhi)) w.z with
      | error e' =>
        refine ⟨(fun T hT => by cases hT), fun e he => ?_⟩
        obtain rfl := Except.error.inj he
        exact s2 _ hm
      | ok q =>
        have hq := s1 q hm
        rw [ok_bind]
        have hm2 : ∀ a b : SVec, mkSpace names SVec.shape [("length", a), ("speed", b)] = .ok ⟨[("length", a), ("speed", b)]⟩ :=
          fun a b => (mkSpace_two hn).mpr ⟨⟨[], [], [], rfl, rfl, rfl⟩, rfl⟩
        rw [hm2]
        refine ⟨fun T hT => ?_, (fun e he => by cases he)⟩
        obtain rfl := Except.ok.inj hT
        refine .cons ⟨rfl, ?_⟩ (.cons ⟨rfl, ?_⟩ .nil)
        · show (posAt idx Q).map SVec.pos = _
          rw [posAt_eq hQf hi, hq]; rfl
        · show (velAt idx (.cyl W.dRho D W.dZ)).map SVec.vel = _
          simp only [velAt, r4, wD h0, r6]; rfl

theorem posAt_kind {idx : List ℕ} {P : Pos BArr} {p : Pos ℝ} (h : posAt idx P = some p) : p.kind = P.kind := by
  cases P <;>
    simp only [posAt, Option.bind_eq_some_iff, Option.pure_def, Option.bind_eq_bind, Option.some.injEq] at h
  all_goals first
    | (obtain ⟨a, ha, b, hb, c, hc, d, hd, rfl⟩ := h; rfl)
    | (obtain ⟨a, ha, b, hb, c, hc, rfl⟩ := h; rfl)
    | (obtain ⟨a, ha, b, hb, rfl⟩ := h; rfl)
    | (obtain ⟨a, ha, rfl⟩ := h; rfl)

/-- **C71 (round trip).** A batch of moving points off the z axis with positive angular momentum about it converts to a
Poincaré polar vector and back, and every element comes back at the same point with the same velocity. -/
theorem C71_round_trip (names : DimNames) (hn : Standard names) (S : Space SVecB) (s : List ℕ) (P : Pos BArr) (V : Vel BArr)
    (hP : S.getStr "length" = .ok (.pos P)) (hV : S.getStr "speed" = .ok (.vel V)) (hU : Uniform s P) (hv : VelShape V s)
    (h0 : 0 ∉ s)
    (hall : ∀ idx, InB s idx → ∃ p v p', posAt idx P = some p ∧ velAt idx V = some v ∧ VelCase {} v .cyl p ∧
      At {} v.kind (point p) p' ∧ 0 < angularZ (point p) (cartVel p' v)) :
    ∃ W Q U, toPoincareB S = .ok W ∧ ofPoincareB names W = .ok ⟨[("length", .pos Q), ("speed", .vel U)]⟩ ∧
      ∀ idx, InB s idx → ∃ p v q u, posAt idx P = some p ∧ velAt idx V = some v ∧ posAt idx Q = some q ∧
        velAt idx U = some u ∧ q.kind = .cyl ∧ u.kind = .cyl ∧ point q = point p ∧
        ∀ p', At {} v.kind (point p) p' → cartVel q u = cartVel p' v := by
  obtain ⟨i0, hi0⟩ := exists_index h0
  have hPf : Fit s {} P := ⟨uniform_fits hU (broadcastsTo_refl _), fun a ha => by simp [kwOf] at ha⟩
  have hkp : ∀ {idx p}, posAt idx P = some p → p.kind = P.kind := fun {idx p} h => posAt_kind h
  have hd : P.kind.dim = 3 := by
    obtain ⟨p, v, p', h1, h2, hc, -⟩ := hall i0 hi0
    rw [← hkp h1, hc.dimp, hc.dim]; rfl
  -- the position converts
  have hsf : ShapesFit {} P .cyl := by cases P <;> trivial
  obtain ⟨Q, hQ⟩ := C49_returns_if_shapes_fit {} P .cyl s hPf h0 hsf fun idx hi => by
    obtain ⟨p, v, p', h1, h2, hc, -⟩ := hall idx hi
    obtain ⟨ρ, φ, z, a, b, c, g1, -⟩ := cyl_form hc
    exact ⟨p, {}, _, h1, rfl, g1⟩
  have hQk : Q.kind = .cyl := by
    obtain ⟨p, v, p', h1, h2, hc, -⟩ := hall i0 hi0
    obtain ⟨ρ, φ, z, a, b, c, g1, -⟩ := cyl_form hc
    rw [← posAt_kind ((C49_elementwise {} P Q .cyl s i0 hPf hQ hi0 p {} h1 rfl).2.1 _ g1)]; rfl
  obtain ⟨ρ, φ, z, rfl⟩ : ∃ ρ φ z, Q = .cyl ρ φ z := by
    cases Q <;> first | (cases hQk; done) | exact ⟨_, _, _, rfl⟩
  have hQs := cylB_shape hU hd hQ (fun e => by cases e)
  have hQf : Fits s (.cyl ρ φ z) := posShape_fits hQs
  -- so does the velocity
  have helem : ∀ idx, InB s idx → ∃ p v p' ρ' φ' z' a b c, posAt idx P = some p ∧ velAt idx V = some v ∧
      VelCase {} v .cyl p ∧ At {} v.kind (point p) p' ∧ 0 < angularZ (point p) (cartVel p' v) ∧
      representAs {} p .cyl = .ok (.cyl ρ' φ' z') ∧ 0 < ρ' ∧ representVel {} v .cyl (.cyl ρ' φ' z') = .ok (.cyl a b c) ∧
      posAt idx (.cyl ρ φ z) = some (.cyl ρ' φ' z') := by
    intro idx hi
    obtain ⟨p, v, p', h1, h2, hc, h3, h4⟩ := hall idx hi
    obtain ⟨ρ', φ', z', a, b, c, g1, g2, g3, -⟩ := cyl_form hc
    exact ⟨p, v, p', ρ', φ', z', a, b, c, h1, h2, hc, h3, h4, g1, g2, g3,
      (C49_elementwise {} P _ .cyl s idx hPf hQ hi p {} h1 rfl).2.1 _ g1⟩
  obtain ⟨U, hUU⟩ := C57_returns {} V .cyl _ s hv hQs h0 fun idx hi => by
    obtain ⟨p, v, p', ρ', φ', z', a, b, c, h1, h2, -, -, -, -, g2, g3, g4⟩ := helem idx hi
    exact ⟨v, _, _, h2, g4, g2.le, g3⟩
  have hel := C57_elementwise {} V U .cyl _ s hv hQs hUU
  obtain ⟨a, b, c, rfl⟩ : ∃ a b c, U = .cyl a b c := by
    have := hel.1
    cases U <;> first | (cases this; done) | exact ⟨_, _, _, rfl⟩
  obtain ⟨W, hW, hfit, hval⟩ := toPoincareB_tail hP hV hQ hUU (s := s) hQf hel.2.1
  -- and the way back
  have hback : ∀ idx, InB s idx → ∃ p v p' w q u, posAt idx P = some p ∧ velAt idx V = some v ∧ poincareAt idx W = some w ∧
      ofPoincare names w = .ok ⟨[("length", .pos q), ("speed", .vel u)]⟩ ∧ q.kind = .cyl ∧ u.kind = .cyl ∧
      point q = point p ∧ At {} v.kind (point p) p' ∧ ∀ p', At {} v.kind (point p) p' → cartVel q u = cartVel p' v := by
    intro idx hi
    obtain ⟨p, v, p', ρ', φ', z', a', b', c', h1, h2, hc, h3, h4, g1, g2, g3, g4⟩ := helem idx hi
    have hT1 : Space.getStr ⟨[("length", SVec.pos p), ("speed", SVec.vel v)]⟩ "length" = .ok (.pos p) := rfl
    have hT2 : Space.getStr ⟨[("length", SVec.pos p), ("speed", SVec.vel v)]⟩ "speed" = .ok (.vel v) := rfl
    obtain ⟨w, s', q, u, k1, k2, k3, k4, k5, k6, k7, -⟩ := C41_round_trip names hn p v _ hT1 hT2 hc p' h3 h4
    obtain ⟨_, _, _, _, _, _, x1, -, x2, -, -, x3⟩ := cyl_form hc
    rw [g1] at x1
    injection x1 with x1
    obtain ⟨rfl, rfl, rfl⟩ := Pos.cyl.inj x1
    rw [g3] at x2
    injection x2 with x2
    obtain ⟨rfl, rfl, rfl⟩ := Vel.cyl.inj x2
    rw [toPoincare_of hT1 hT2 g1 g3] at k1
    obtain rfl := Except.ok.inj k1
    have g5 := g4
    simp only [posAt, Option.bind_eq_some_iff, Option.pure_def, Option.bind_eq_bind, Option.some.injEq, Pos.cyl.injEq] at g5
    obtain ⟨_, r1, _, r2, _, r3, rfl, rfl, rfl⟩ := g5
    have g6 := (hel.2.2 idx hi v _ h2 g4).1 _ g3
    simp only [velAt, Option.bind_eq_some_iff, Option.pure_def, Option.bind_eq_bind, Option.some.injEq, Vel.cyl.injEq] at g6
    obtain ⟨_, r4, _, r5, _, r6, rfl, rfl, rfl⟩ := g6
    have hs' : s' = ⟨[("length", .pos q), ("speed", .vel u)]⟩ := by cases s'; exact congrArg _ k3
    refine ⟨p, v, p', _, q, u, h1, h2, hval idx hi _ _ _ _ _ _ r1 r2 r3 r4 r5 r6, by rw [k2, hs'], k4, k5, k6, h3, ?_⟩
    intro p'' hp''
    rw [k7, ← x3 p' h3, x3 p'' hp'']
  obtain ⟨A, D, e, kA, kD, hhead⟩ := ofPoincareB_head names hfit
  have f1 := hfit W.rho (by simp [poincareComps])
  have f3 := hfit W.z (by simp [poincareComps])
  have f4 := hfit W.dRho (by simp [poincareComps])
  have f6 := hfit W.dZ (by simp [poincareComps])
  let wv : List ℕ → Poincare := fun i => (poincareAt i W).getD ⟨0, 0, 0, 0, 0, 0⟩
  have hwv : ∀ i, InB s i → poincareAt i W = some (wv i) := fun i hi => by
    obtain ⟨p, v, p', w, q, u, -, -, hw, -⟩ := hback i hi
    show _ = some ((poincareAt i W).getD _)
    rw [hw]; rfl
  obtain ⟨X, hX⟩ := (cylB_sim {i | InB s i} (fun i h => h) f1 kA f3 (r := fun i => (wv i).rho)
    (a := fun i => atan2R (wv i).dPpPhi (wv i).ppPhi) (z := fun i => (wv i).z) fun i hi => by
      obtain ⟨r1, -, r3, -⟩ := poincareAt_iff.mp (hwv i hi)
      exact ⟨r1, (hhead i hi _ (hwv i hi)).1, r3⟩).total trivial ⟨rfl, h0⟩ fun i hi => by
        obtain ⟨p, v, p', w, q, u, -, -, hw, k, -⟩ := hback i hi
        obtain rfl : w = wv i := Option.some.inj (hw.symm.trans (hwv i hi))
        rw [ofPoincare_head] at k
        split at k
        · cases k
        · obtain ⟨m, hm, -⟩ := (bind_ok_iff _ _ _).mp k
          exact ⟨m, hm⟩
  have hXf : SVecFits s (.pos X) := by
    have := ((cylB_sim ∅ (fun i h => h.elim) f1 kA f3 (r := fun _ => 0) (a := fun _ => 0) (z := fun _ => 0)
      fun i h => h.elim).ok X hX).1
    show Fits s X
    unfold Fits; rw [compsOf_eq]; exact this
  have hYf : SVecFits s (.vel (.cyl W.dRho D W.dZ)) := by
    intro a ha
    simp only [velComps, mem_cons, not_mem_nil, or_false] at ha
    rcases ha with rfl | rfl | rfl <;> assumption
  have hret : ofPoincareB names W = .ok ⟨[("length", .pos X), ("speed", .vel (.cyl W.dRho D W.dZ))]⟩ := by
    rw [e, hX, ok_bind, mkSpace_two hn]
    obtain ⟨t1, a1, a2⟩ := fits_shape hXf
    obtain ⟨t2, b1, b2⟩ := fits_shape hYf
    obtain ⟨t, ht⟩ := broadcastShapes_total (shapes := [t1, t2]) (w := s) fun x hx => by
      simp only [mem_cons, not_mem_nil, or_false] at hx
      rcases hx with rfl | rfl <;> assumption
    exact ⟨⟨t1, t2, t, a1, b1, ht⟩, rfl⟩
  refine ⟨W, X, _, hW, hret, fun idx hi => ?_⟩
  obtain ⟨p, v, p', w, q, u, h1, h2, hw, k, k4, k5, k6, -, k7⟩ := hback idx hi
  have hag := ((C71_from_poincare names hn W _ s hfit hret).2 idx hi w hw).1 _ k
  cases hag with
  | cons y1 hag => cases hag with
    | cons y2 hag =>
      obtain ⟨q', hq', e1⟩ := svecAt_pos y1.2
      obtain ⟨u', hu', e2⟩ := svecAt_vel y2.2
      obtain rfl := SVec.pos.inj e1
      obtain rfl := SVec.vel.inj e2
      exact ⟨p, v, _, _, h1, h2, hq', hu', k4, k5, k6, k7⟩

/-! ### moving points -/

theorem spaceTwo_ok {V : Type} {names : DimNames} (hn : Standard names) (a b : V) :
    SpaceOk names ⟨[("length", a), ("speed", b)]⟩ := by
  refine ⟨by simp, fun k hk => ?_⟩
  simp only [map_cons, map_nil, mem_cons, not_mem_nil, or_false] at hk
  rcases hk with rfl | rfl
  · exact hn.1
  · exact hn.2

/-- **C71 (with C40).** A batch of moving points converts to every class regular at all of them (other than prolate spheroidal,
which needs a `Delta` that cannot be passed), and every element is the same point with the same velocity. -/
theorem C71_phase_space (names : DimNames) (hn : Standard names) (k : Kind) (s : List ℕ) (P : Pos BArr) (V : Vel BArr)
    (hP : PosShape P s) (hV : VelShape V s) (h0 : 0 ∉ s)
    (hall : ∀ idx, InB s idx → ∃ p v, posAt idx P = some p ∧ velAt idx V = some v ∧ VelCase {} v k.differential p ∧
      point p ≠ V3.zero) :
    ∃ Q U, representSpaceB names ⟨[("length", .pos P), ("speed", .vel V)]⟩ k = .ok ⟨[("length", .pos Q), ("speed", .vel U)]⟩ ∧
      ∀ idx, InB s idx → ∃ p v q u, posAt idx P = some p ∧ velAt idx V = some v ∧ posAt idx Q = some q ∧ velAt idx U = some u ∧
        q.kind = k ∧ u.kind = k.differential ∧ point q = point p ∧
        ∀ p', At {} v.kind (point p) p' → cartVel q u = cartVel p' v := by
  have hs := spaceTwo_ok hn (SVecB.pos P) (SVecB.vel V)
  have hS : SpaceShape s ⟨[("length", SVecB.pos P), ("speed", SVecB.vel V)]⟩ := by
    intro kv hkv
    simp only [mem_cons, not_mem_nil, or_false] at hkv
    rcases hkv with rfl | rfl <;> assumption
  have hel : ∀ idx, InB s idx → ∃ p v, posAt idx P = some p ∧ velAt idx V = some v ∧ VelCase {} v k.differential p ∧
      IsElement idx ⟨[("length", SVecB.pos P), ("speed", SVecB.vel V)]⟩ ⟨[("length", .pos p), ("speed", .vel v)]⟩ ∧
      ∃ T', representSpace names ⟨[("length", .pos p), ("speed", .vel v)]⟩ k = .ok T' := by
    intro idx hi
    obtain ⟨p, v, h1, h2, hc, hne⟩ := hall idx hi
    refine ⟨p, v, h1, h2, hc, .cons ⟨rfl, ?_⟩ (.cons ⟨rfl, ?_⟩ .nil), C40_represent_as_returns names hn p v k hc hne⟩
    · show (posAt idx P).map SVec.pos = _
      rw [h1]; rfl
    · show (velAt idx V).map SVec.vel = _
      rw [h2]; rfl
  obtain ⟨i0, hi0⟩ := exists_index h0
  have hsf : ShapesFit {} P k := by
    obtain ⟨p, v, h1, h2, hc, -⟩ := hall i0 hi0
    have hk := posAt_kind h1
    have hd : P.kind.dim = k.differential.dim := by rw [← hk, hc.dimp, hc.dim]
    have hnp : k ≠ .prolate := fun e => by
      obtain ⟨d, hd, -⟩ := hc.delta (by rw [e]; rfl)
      cases hd
    cases P <;> cases k <;> first | trivial | exact absurd rfl hnp | exact absurd (show (2 : ℕ) = 3 from hd) (by decide)
  obtain ⟨S', hS'⟩ := C71_returns names _ k s hs hS h0 (fun key P' hP' => by
    simp only [mem_cons, not_mem_nil, or_false, Prod.mk.injEq, reduceCtorEq, and_false] at hP'
    obtain ⟨-, e⟩ := hP'
    obtain rfl := SVecB.pos.inj e
    exact hsf) fun idx hi => by
      obtain ⟨p, v, h1, h2, hc, hT, hr⟩ := hel idx hi
      refine ⟨_, hT, fun key p' hp' => ?_, hr⟩
      simp only [mem_cons, not_mem_nil, or_false, Prod.mk.injEq, reduceCtorEq, and_false] at hp'
      obtain ⟨-, e⟩ := hp'
      obtain rfl := SVec.pos.inj e
      exact hc.valid
  have hf := ((mapValues_iff hs).mp hS').1
  obtain ⟨d⟩ := S'
  cases hf with
  | @cons _ b _ _ f1 hf => cases hf with
    | @cons _ b' _ _ f2 hf =>
      cases hf
      obtain ⟨kb, W⟩ := b
      obtain ⟨kb', W'⟩ := b'
      obtain ⟨rfl, f1⟩ := f1
      obtain ⟨rfl, f2⟩ := f2
      obtain ⟨Q, rfl, hQ⟩ := (tempB_iff _ k _ _).mp f1
      obtain ⟨_, U, -, rfl, hU⟩ := (tempB_iff _ k _ _).mp f2
      refine ⟨Q, U, hS', fun idx hi => ?_⟩
      obtain ⟨p, v, h1, h2, hc, hT, T', hr⟩ := hel idx hi
      have hag := ((C71_represent_as names _ _ k s hs hS hS').2.2 idx hi _ hT).1 _ hr
      obtain ⟨q, u, g1, g2, g3, g4, g5, g6⟩ := C40_phase_space names _ T' (spaceTwo_ok hn _ _) k p v rfl rfl hc hr
      obtain ⟨X, hX, e1⟩ := element_get' (R := fun a b => svecAt idx a = some b) hag g1
      obtain ⟨Y, hY, e2⟩ := element_get' (R := fun a b => svecAt idx a = some b) hag g2
      obtain rfl := Except.ok.inj (hX : Except.ok (SVecB.pos Q) = .ok X)
      obtain rfl := Except.ok.inj (hY : Except.ok (SVecB.vel U) = .ok Y)
      obtain ⟨q', hq', e1⟩ := svecAt_pos e1
      obtain ⟨u', hu', e2⟩ := svecAt_vel e2
      obtain rfl := SVec.pos.inj e1
      obtain rfl := SVec.vel.inj e2
      exact ⟨p, v, _, _, h1, h2, hq', hu', g3, g4, g5, g6⟩

/-- **C71, exception.** The constructor accepts vectors whose shapes broadcast, but a Space of a position and a velocity with
different numbers of elements (a batch of velocities at one position, for example) does not convert to any other class. -/
theorem C71_shapes_differ_raises (names : DimNames) (hn : Standard names) (k : Kind) (s t u : List ℕ) (P : Pos BArr)
    (V : Vel BArr) (hP : PosShape P t) (hV : VelShape V s) (hb : IsBroadcast [t, s] u) (hst : t.prod ≠ s.prod)
    (hk : V.kind ≠ k.differential) (h1 : V.kind ≠ .lonCosLat) :
    ∃ S, mkSpace names SVecB.shape [("length", .pos P), ("speed", .vel V)] = .ok S ∧
      ∀ S', representSpaceB names S k ≠ .ok S' := by
  refine ⟨_, (mkSpace_two hn).mpr ⟨⟨t, s, u, posShape_shape hP, velShape_iff.mp hV, (broadcastShapes_iff _ _).mpr hb⟩, rfl⟩,
    fun S' h => ?_⟩
  have hf := ((mapValues_iff (spaceTwo_ok hn _ _)).mp h).1
  generalize S'.data = d at hf
  cases hf with
  | cons f1 hf => cases hf with
    | cons f2 hf =>
      obtain ⟨P', U, hP', -, hU⟩ := (tempB_iff _ k _ _).mp f2.2
      obtain rfl := SVecB.pos.inj (Except.ok.inj (hP' : Except.ok (SVecB.pos P) = .ok (SVecB.pos P')))
      exact C57_size_mismatch_raises {} V U k.differential P s t hV hP hk h1 (by cases k <;> decide) hst hU

/-! ### the hypotheses are met -/

/-- two moving points `(n + 1, 1, 1)` with velocities `(0, 1, n)` -/
theorem instance_two : ∃ (P : Pos BArr) (V : Vel BArr), Uniform [2] P ∧ PosShape P [2] ∧ VelShape V [2] ∧
    ∀ idx, InB [2] idx → ∃ p v, posAt idx P = some p ∧ velAt idx V = some v ∧ VelCase {} v .cyl p ∧ point p ≠ V3.zero ∧
      At {} v.kind (point p) p ∧ 0 < angularZ (point p) (cartVel p v) := by
  have h2 : IsBroadcast [[2], [2], [2]] [2] := by rw [← broadcastShapes_iff]; rfl
  refine ⟨.cart3 ⟨[2], fun i => some ((i.sum : ℝ) + 1)⟩ ⟨[2], fun _ => some 1⟩ ⟨[2], fun _ => some 1⟩,
    .cart3 ⟨[2], fun _ => some 0⟩ ⟨[2], fun _ => some 1⟩ ⟨[2], fun i => some (i.sum : ℝ)⟩,
    ⟨by simp [coordsOf, compsOf], fun _ _ _ _ e => by cases e⟩, ⟨h2, fun _ _ _ _ e => by cases e⟩, h2, fun idx hi => ?_⟩
  have hc : ∀ a b c x : ℝ, VelCase {} (.cart3 a b c) .cyl (.cart3 x 1 1) := fun a b c x =>
    { valid := trivial, dimp := rfl, dim := rfl, pos_ts := (fun h => by cases h), src_ts := (fun h => by cases h),
      tgt_ts := by decide, reg := trivial,
      reg' := by simp [VKind.integral, Regular, OffAxis, point],
      delta := (fun h => by cases h), src_pro := (fun h => by cases h),
      src_loncoslat := (fun h => by cases h) }
  refine ⟨_, _, rfl, rfl, hc _ _ _ _, ?_, ⟨rfl, trivial, rfl, fun h => by cases h⟩, ?_⟩
  · intro e
    have := congrArg V3.y e
    simp [point, V3.zero] at this
  · simp only [angularZ, point, cartVel]
    have : (0 : ℝ) ≤ ((bcSource [2] idx).sum : ℝ) := Nat.cast_nonneg _
    linarith

/-- **C71, exception.** A Space whose `length` entry is not a position has no Poincaré polar form: no rule (`TypeError` of the dispatch), neither a
value nor a failed check. -/
theorem C71_wrong_class (S : Space SVecB) (v : SVecB) (hv : S.getStr "length" = .ok v) (hn : ∀ P, v ≠ .pos P) :
    toPoincareB S = .error .noDispatch := by
  unfold toPoincareB
  rw [hv]
  cases v with
  | pos P => exact absurd rfl (hn P)
  | vel V => rfl
  | acc A => rfl

/-- C71 applies to the two points: they convert, to cylindrical classes and to Poincaré polar coordinates and back -/
example : ∃ P V Q U W S', representSpaceB exampleNames ⟨[("length", .pos P), ("speed", .vel V)]⟩ .cyl =
      .ok ⟨[("length", .pos Q), ("speed", .vel U)]⟩ ∧
    toPoincareB ⟨[("length", .pos P), ("speed", .vel V)]⟩ = .ok W ∧ ofPoincareB exampleNames W = .ok S' := by
  obtain ⟨P, V, h1, h2, h3, h4⟩ := instance_two
  have hn : Standard exampleNames := ⟨rfl, rfl⟩
  obtain ⟨Q, U, e1, -⟩ := C71_phase_space exampleNames hn .cyl [2] P V h2 h3 (by decide) fun idx hi => by
    obtain ⟨p, v, a, b, c, d, -⟩ := h4 idx hi
    exact ⟨p, v, a, b, c, d⟩
  obtain ⟨W, Q', U', e2, e3, -⟩ := C71_round_trip exampleNames hn ⟨[("length", .pos P), ("speed", .vel V)]⟩ [2] P V rfl rfl h1 h3
    (by decide) fun idx hi => by
      obtain ⟨p, v, a, b, c, -, d, e⟩ := h4 idx hi
      exact ⟨p, v, p, a, b, c, d, e⟩
  exact ⟨P, V, Q, U, W, _, e1, e2, e3⟩

/-- and the exception occurs: one position, two velocities -/
example : ∃ (P : Pos BArr) (V : Vel BArr), PosShape P [] ∧ VelShape V [2] ∧ IsBroadcast [[], [2]] [2] ∧
    ([] : List ℕ).prod ≠ [2].prod ∧ V.kind ≠ Kind.cyl.differential ∧ V.kind ≠ .lonCosLat := by
  refine ⟨.cart3 (.scalar (some 1)) (.scalar (some 1)) (.scalar (some 1)),
    .cart3 ⟨[2], fun _ => some 0⟩ ⟨[2], fun _ => some 1⟩ ⟨[2], fun _ => some 1⟩,
    ⟨by rw [← broadcastShapes_iff]; rfl, fun _ _ _ _ e => by cases e⟩, by rw [velShape_iff]; rfl,
    by rw [← broadcastShapes_iff]; rfl, by decide, (fun e => by cases e), fun e => by cases e⟩

end Verif
