import Verif.Batch
import Verif.KindLemmas
import Verif.Props.Shape

/-! # Array operations act element by element -/

namespace Verif

open List Spec

theorem bcIdxRev_comp {s u : List ℕ} (h : CompatRev s u) (r : List ℕ) :
    bcIdxRev s (bcIdxRev u r) = bcIdxRev s r := by
  induction s generalizing u r with
  | nil => cases r <;> cases u <;> simp [bcIdxRev]
  | cons a s ih =>
    cases u with
    | nil => exact absurd h id
    | cons b u =>
      cases r with
      | nil => rfl
      | cons i r =>
        simp only [bcIdxRev, ih h.2]
        rcases h.1 with e | e
        · simp [e]
        · subst e
          split <;> simp_all

section
variable {α β γ : Type}

theorem Arr.elem_of_index {a : Arr α} {u idx : List ℕ} (h : BroadcastsTo a.shape u) :
    a.elem (bcIdxRev u.reverse idx.reverse).reverse = a.elem idx := by
  unfold Arr.elem
  rw [reverse_reverse, bcIdxRev_comp h]

theorem Arr.map_elem (f : α → β) (a : Arr α) (idx : List ℕ) : (a.map f).elem idx = f (a.elem idx) := rfl

theorem Arr.scalar_elem (x : α) (idx : List ℕ) : (Arr.scalar x).elem idx = x := rfl

theorem Arr.map2_spec {f : α → β → γ} {a : Arr α} {b : Arr β} {S : List ℕ}
    (ha : BroadcastsTo a.shape S) (hb : BroadcastsTo b.shape S) :
    ∃ c, Arr.map2 f a b = .ok c ∧ BroadcastsTo c.shape S ∧ bc2 a.shape b.shape = .ok c.shape ∧
      ∀ idx, c.elem idx = f (a.elem idx) (b.elem idx) := by
  obtain ⟨u, hu⟩ := bcRev_total ha hb
  have hbc : bc2 a.shape b.shape = .ok u.reverse := by simp only [bc2, hu, ok_bind]; rfl
  obtain ⟨h1, h2, h3⟩ := bc2_ok hbc
  refine ⟨⟨u.reverse, fun idx => f (a.elem idx) (b.elem idx)⟩, ?_, h3 S ha hb, hbc, fun idx => ?_⟩
  · simp only [Arr.map2, hbc, ok_bind]; rfl
  · show f (a.elem _) (b.elem _) = _
    rw [Arr.elem_of_index h1, Arr.elem_of_index h2]

/-- every element of an array occurs in its broadcast to a shape without empty axes -/
theorem exists_source_rev {s t j : List ℕ} (h : CompatRev s t) (h0 : 0 ∉ t) (hj : InB s j) :
    ∃ i, InB t i ∧ bcIdxRev s i = j := by
  induction s generalizing t j with
  | nil =>
    cases hj
    refine ⟨t.map fun _ => 0, ?_, by cases t <;> rfl⟩
    clear h
    induction t with
    | nil => exact .nil
    | cons b t ih =>
      refine .cons ?_ (ih fun hh => h0 (by simp [hh]))
      exact Nat.pos_of_ne_zero fun e => h0 (by simp [e])
  | cons a s ih =>
    cases t with
    | nil => exact absurd h id
    | cons b t =>
      cases hj with
      | @cons j0 _ j _ h1 hj =>
        obtain ⟨i, hi, e⟩ := ih h.2 (fun hh => h0 (by simp [hh])) hj
        have hb : b ≠ 0 := fun e => h0 (by simp [e])
        refine ⟨j0 :: i, .cons ?_ hi, ?_⟩
        · rcases h.1 with e | e <;> omega
        · simp only [bcIdxRev, e]
          congr 1
          split
          · omega
          · rfl

theorem Arr.exists_elem {a : Arr α} {S j : List ℕ} (h : BroadcastsTo a.shape S) (h0 : 0 ∉ S)
    (hj : InB a.shape j) : ∃ i, InB S i ∧ a.elem i = a.get j := by
  obtain ⟨i, hi, e⟩ := exists_source_rev h (by simpa using h0) (inB_reverse.mpr hj)
  refine ⟨i.reverse, ?_, ?_⟩
  · rw [← inB_reverse, reverse_reverse]; exact hi
  · unfold Arr.elem; rw [reverse_reverse, e, reverse_reverse]

theorem Arr.elem_get {a : Arr α} {S i : List ℕ} (h : BroadcastsTo a.shape S) (hi : InB S i) :
    a.elem i = a.get (bcSource a.shape i) ∧ InB a.shape (bcSource a.shape i) := by
  refine ⟨?_, inB_source h hi⟩
  unfold Arr.elem
  rw [bcIdx_eq]
  rw [inB_length hi]; exact broadcastsTo_length h

theorem Arr.elem_self {a : Arr α} {i : List ℕ} (hi : InB a.shape i) : a.elem i = a.get i := by
  rw [(Arr.elem_get (broadcastsTo_refl _) hi).1, bcSource_self hi]

end

/-! ### the simulation relation -/

/-- the stored value of one element -/
def Dist.elem (idx : List ℕ) : Dist BArr → Option (Dist ℝ)
  | .dist a => (a.elem idx).map .dist
  | .par a => (a.elem idx).map .par
  | .dm a => (a.elem idx).map .dm

/-- an array and a family of scalar results -/
structure EF (D : Set (List ℕ)) (S : List ℕ) (X : BArr) (x : List ℕ → Res ℝ) : Prop where
  fits : BroadcastsTo X.shape S
  val : ∀ i ∈ D, ∀ v, x i = .ok v → X.elem i = some v
  err : ∀ i ∈ D, ∀ e, x i = .error e → e = .nonFinite

/-- the same for distances -/
structure DF (D : Set (List ℕ)) (S : List ℕ) (X : Dist BArr) (x : List ℕ → Res (Dist ℝ)) : Prop where
  fits : BroadcastsTo X.raw.shape S
  val : ∀ i ∈ D, ∀ v, x i = .ok v → X.elem i = some v
  err : ∀ i ∈ D, ∀ e, x i = .error e → e = .nonFinite

/-- the same for booleans -/
structure BF (D : Set (List ℕ)) (S : List ℕ) (X : Arr Bool) (x : List ℕ → Res Bool) : Prop where
  fits : BroadcastsTo X.shape S
  val : ∀ i ∈ D, ∀ v, x i = .ok v → X.elem i = v

section
variable {D : Set (List ℕ)} {S : List ℕ} {X Y Z : BArr} {x y z : List ℕ → Res ℝ}

theorem EF.congr (h : EF D S X x) (e : ∀ i ∈ D, x i = y i) : EF D S X y :=
  ⟨h.fits, fun i hi v hv => h.val i hi v ((e i hi).trans hv), fun i hi v hv => h.err i hi v ((e i hi).trans hv)⟩

theorem EF.map (h : EF D S X x) {f : ℝ → Res ℝ} (hf : ∀ v e, f v = .error e → e = .nonFinite) :
    EF D S (X.map (el1 f)) fun i => x i >>= f := by
  refine ⟨h.fits, fun i hi v hv => ?_, fun i hi e he => ?_⟩
  · obtain ⟨w, hw, hv⟩ := (bind_ok_iff _ _ _).mp hv
    rw [Arr.map_elem, h.val i hi w hw]
    simp only [el1, hv]
  · rcases hx : x i with e' | w
    · rw [hx] at he
      have : e' = e := Except.error.inj he
      exact this ▸ h.err i hi e' hx
    · rw [hx] at he
      exact hf w e he

theorem EF.map2 (h : EF D S X x) (k : EF D S Y y) {f : ℝ → ℝ → Res ℝ}
    (hf : ∀ v w e, f v w = .error e → e = .nonFinite) :
    ∃ Z, Arr.map2 (el2 f) X Y = .ok Z ∧ EF D S Z fun i => (do f (← x i) (← y i)) := by
  obtain ⟨Z, hZ, hs, _, he⟩ := Arr.map2_spec (f := el2 f) h.fits k.fits
  refine ⟨Z, hZ, hs, fun i hi v hv => ?_, fun i hi e hh => ?_⟩
  · obtain ⟨a, ha, hv⟩ := (bind_ok_iff _ _ _).mp hv
    obtain ⟨b, hb, hv⟩ := (bind_ok_iff _ _ _).mp hv
    rw [he, h.val i hi a ha, k.val i hi b hb]
    simp only [el2, hv]
  · rcases hx : x i with e' | a
    · simp only [hx, error_bind] at hh
      exact Except.error.inj hh ▸ h.err i hi e' hx
    · rcases hy : y i with e' | b
      · simp only [hx, hy, ok_bind, error_bind] at hh
        exact Except.error.inj hh ▸ k.err i hi e' hy
      · simp only [hx, hy, ok_bind] at hh
        exact hf a b e hh

theorem EF.cmp (h : EF D S X x) (k : EF D S Y y) (f : ℝ → ℝ → Bool) :
    ∃ Z, Arr.map2 (elCmp f) X Y = .ok Z ∧ BF D S Z fun i => (do return f (← x i) (← y i)) := by
  obtain ⟨Z, hZ, hs, _, he⟩ := Arr.map2_spec (f := elCmp f) h.fits k.fits
  refine ⟨Z, hZ, hs, fun i hi v hv => ?_⟩
  obtain ⟨a, ha, hv⟩ := (bind_ok_iff _ _ _).mp hv
  obtain ⟨b, hb, hv⟩ := (bind_ok_iff _ _ _).mp hv
  rw [he, h.val i hi a ha, k.val i hi b hb]
  exact Except.ok.inj hv

theorem EF.const (v : ℝ) : EF D S (.scalar (some v)) fun _ => .ok v :=
  ⟨broadcastsTo_nil S, fun _ _ _ h => by rw [← Except.ok.inj h]; rfl, fun _ _ _ h => by cases h⟩

theorem EF.neg (h : EF D S X x) : EF D S (bneg X) fun i => (do return -(← x i)) :=
  h.map fun _ _ h => by cases h
theorem EF.abs (h : EF D S X x) : EF D S (babs X) fun i => (do return Num.abs (← x i)) :=
  h.map fun _ _ h => by cases h
theorem EF.sign (h : EF D S X x) : EF D S (bsign X) fun i => (do return Num.sign (← x i)) :=
  h.map fun _ _ h => by cases h
theorem EF.sin (h : EF D S X x) : EF D S (bsin X) fun i => (do return Num.sin (← x i)) :=
  h.map fun _ _ h => by cases h
theorem EF.cos (h : EF D S X x) : EF D S (bcos X) fun i => (do return Num.cos (← x i)) :=
  h.map fun _ _ h => by cases h
theorem EF.wrap (h : EF D S X x) : EF D S (bwrap X) fun i => (do return Num.wrap (← x i)) :=
  h.map fun _ _ h => by cases h
theorem EF.pow10 (h : EF D S X x) : EF D S (bpow10 X) fun i => (do return Num.pow10 (← x i)) :=
  h.map fun _ _ h => by cases h

theorem nf_sqrt (v : ℝ) (e : Err) (h : Num.sqrt v = .error e) : e = .nonFinite := by
  simp only [Num.sqrt] at h; split at h
  · exact (Except.error.inj h).symm
  · cases h
theorem nf_acos (v : ℝ) (e : Err) (h : Num.acos v = .error e) : e = .nonFinite := by
  simp only [Num.acos] at h; split at h
  · exact (Except.error.inj h).symm
  · cases h
theorem nf_tan (v : ℝ) (e : Err) (h : Num.tan v = .error e) : e = .nonFinite := by
  simp only [Num.tan] at h; split at h
  · exact (Except.error.inj h).symm
  · cases h
theorem nf_div (v w : ℝ) (e : Err) (h : Num.div v w = .error e) : e = .nonFinite := by
  simp only [Num.div] at h; split at h
  · exact (Except.error.inj h).symm
  · cases h
theorem nf_atan2 (v w : ℝ) (e : Err) (h : Num.atan2 v w = .error e) : e = .nonFinite := by
  simp only [Num.atan2] at h; cases h

theorem EF.sqrt (h : EF D S X x) : EF D S (bsqrt X) fun i => x i >>= Num.sqrt := h.map nf_sqrt
theorem EF.acos (h : EF D S X x) : EF D S (bacos X) fun i => x i >>= Num.acos := h.map nf_acos
theorem EF.tan (h : EF D S X x) : EF D S (btan X) fun i => x i >>= Num.tan := h.map nf_tan

theorem EF.add (h : EF D S X x) (k : EF D S Y y) :
    ∃ Z, badd X Y = .ok Z ∧ EF D S Z fun i => (do return (← x i) + (← y i)) :=
  h.map2 k fun _ _ _ h => by cases h
theorem EF.sub (h : EF D S X x) (k : EF D S Y y) :
    ∃ Z, bsub X Y = .ok Z ∧ EF D S Z fun i => (do return (← x i) - (← y i)) :=
  h.map2 k fun _ _ _ h => by cases h
theorem EF.mul (h : EF D S X x) (k : EF D S Y y) :
    ∃ Z, bmul X Y = .ok Z ∧ EF D S Z fun i => (do return (← x i) * (← y i)) :=
  h.map2 k fun _ _ _ h => by cases h
theorem EF.div (h : EF D S X x) (k : EF D S Y y) :
    ∃ Z, bdiv X Y = .ok Z ∧ EF D S Z fun i => (do Num.div (← x i) (← y i)) := h.map2 k nf_div
theorem EF.atan2 (h : EF D S X x) (k : EF D S Y y) :
    ∃ Z, batan2 X Y = .ok Z ∧ EF D S Z fun i => (do Num.atan2 (← x i) (← y i)) := h.map2 k nf_atan2

theorem EF.nat (n : ℕ) : EF D S (bnat n) fun _ => .ok (Num.nat n) := .const _
theorem EF.pi : EF D S bpi fun _ => .ok Num.pi := .const _
theorem EF.halfPi : EF D S bhalfPi fun _ => (Verif.halfPi : Res ℝ) := by
  refine ⟨broadcastsTo_nil S, fun _ _ v h => ?_, fun _ _ e h => nf_div _ _ e h⟩
  unfold Verif.halfPi at h
  show el1 (fun x => Num.div x (Num.nat 2)) (some Num.pi) = _
  simp only [el1, h]

theorem EF.where {C : Arr Bool} {c : List ℕ → Res Bool} (hc : BF D S C c) (h : EF D S X x) (k : EF D S Y y)
    (herr : ∀ i ∈ D, ∀ e, c i = .error e → e = .nonFinite) :
    ∃ Z, bwhere C X Y = .ok Z ∧ EF D S Z fun i => (do if ← c i then x i else y i) := by
  obtain ⟨P, hP, hs, _, he⟩ := Arr.map2_spec (f := fun (x y : El) => (x, y)) h.fits k.fits
  obtain ⟨Z, hZ, hs', _, he'⟩ := Arr.map2_spec
    (f := fun (t : Bool) (p : El × El) => if t then p.1 else p.2) hc.fits hs
  refine ⟨Z, by simp only [bwhere, hP, ok_bind, hZ], hs', fun i hi v hv => ?_, fun i hi e hh => ?_⟩
  · obtain ⟨b, hb, hv⟩ := (bind_ok_iff _ _ _).mp hv
    rw [he', he, hc.val i hi b hb]
    cases b
    · exact k.val i hi v hv
    · exact h.val i hi v hv
  · rcases hx : c i with e' | b
    · rw [hx] at hh
      exact Except.error.inj hh ▸ herr i hi e' hx
    · rw [hx] at hh
      cases b
      · exact k.err i hi e hh
      · exact h.err i hi e hh

/-- `select`: shapes must agree -/
theorem EF.select {C : Arr Bool} {c : List ℕ → Res Bool} (hc : BF D S C c) (h : EF D S X x) (k : EF D S Y y)
    (herr : ∀ i ∈ D, ∀ e, c i = .error e → e = .nonFinite) (Z : BArr) (hZ : bselect C X Y = .ok Z) :
    X.shape = Y.shape ∧ (C.shape = [] ∨ C.shape = X.shape) ∧ Z.shape = X.shape ∧
    EF D S Z fun i => (do if ← c i then x i else y i) := by
  unfold bselect at hZ
  split at hZ
  · rename_i hsh
    obtain rfl := Except.ok.inj hZ
    refine ⟨hsh.1, hsh.2, rfl, h.fits, fun i hi v hv => ?_, fun i hi e hh => ?_⟩
    · obtain ⟨b, hb, hv⟩ := (bind_ok_iff _ _ _).mp hv
      have hC : BroadcastsTo C.shape X.shape := by
        rcases hsh.2 with e | e
        · rw [e]; exact broadcastsTo_nil _
        · rw [e]; exact broadcastsTo_refl _
      show (if C.elem _ then X.get _ else Y.get _) = some v
      rw [Arr.elem_of_index hC, hc.val i hi b hb]
      cases b
      · show Y.get _ = _
        simp only [Bool.false_eq_true, if_false] at hv ⊢
        rw [hsh.1]; exact k.val i hi v hv
      · exact h.val i hi v hv
    · rcases hx : c i with e' | b
      · rw [hx] at hh
        exact Except.error.inj hh ▸ herr i hi e' hx
      · rw [hx] at hh
        cases b
        · exact k.err i hi e hh
        · exact h.err i hi e hh
  · cases hZ

theorem bselect_total {C : Arr Bool} {A B : BArr} (h : A.shape = B.shape)
    (hc : C.shape = [] ∨ C.shape = A.shape) : ∃ Z, bselect C A B = .ok Z := by
  unfold bselect; rw [if_pos ⟨h, hc⟩]; exact ⟨_, rfl⟩

/-! ### checks -/

/-- all elements of a shape without empty axes are considered -/
def Full (D : Set (List ℕ)) (S : List ℕ) : Prop := D = {i | InB S i} ∧ 0 ∉ S

theorem errorIfAny_ok {C : Arr Bool} (hD : ∀ i ∈ D, InB S i) (hC : BroadcastsTo C.shape S)
    (h : errorIfAny C = .ok ()) : ∀ i ∈ D, C.elem i = false := by
  intro i hi
  unfold errorIfAny at h
  split at h
  · cases h
  · rename_i hn
    obtain ⟨e, hb⟩ := Arr.elem_get hC (hD i hi)
    rw [e]
    by_contra hc
    exact hn ⟨_, hb, by simpa using hc⟩

theorem errorIfAny_total {C : Arr Bool} (hF : Full D S) (hC : BroadcastsTo C.shape S)
    (h : ∀ i ∈ D, C.elem i = false) : errorIfAny C = .ok () := by
  unfold errorIfAny
  rw [if_neg]
  rintro ⟨j, hj, e⟩
  obtain ⟨i, hi, e'⟩ := Arr.exists_elem hC hF.2 hj
  have := h i (by rw [hF.1]; exact hi)
  rw [e', e] at this
  cases this

/-- the check passes on the array iff it passes on all elements considered -/
structure CF (D : Set (List ℕ)) (S : List ℕ) (A : Res Unit) (s : List ℕ → Res Unit) : Prop where
  ok : A = .ok () → ∀ i ∈ D, (∀ e, s i = .error e → e = .nonFinite)
  total : Full D S → (∀ i ∈ D, s i = .ok ()) → A = .ok ()

theorem errorIfAny_cf {C : Arr Bool} (hD : ∀ i ∈ D, InB S i) {c : List ℕ → Res Bool} (hC : BF D S C c)
    (herr : ∀ i ∈ D, ∀ e, c i = .error e → e = .nonFinite) :
    CF D S (errorIfAny C) fun i => (do if ← c i then .error .check else .ok ()) := by
  refine ⟨fun h i hi e he => ?_, fun hF h => errorIfAny_total hF hC.fits fun i hi => ?_⟩
  · have hf := errorIfAny_ok hD hC.fits h i hi
    rcases hx : c i with e' | b
    · rw [hx] at he; exact Except.error.inj he ▸ herr i hi e' hx
    · have := hC.val i hi b hx
      rw [hf] at this
      subst this
      rw [hx] at he
      cases he
  · have hs := h i hi
    obtain ⟨b, hb, hs⟩ := (bind_ok_iff _ _ _).mp hs
    rw [hC.val i hi b hb]
    cases b
    · rfl
    · cases hs

theorem CF.congr {A : Res Unit} {s t : List ℕ → Res Unit} (h : CF D S A s) (e : ∀ i ∈ D, s i = t i) :
    CF D S A t :=
  ⟨fun hA i hi e' he => h.ok hA i hi e' ((e i hi).trans he),
   fun hF ht => h.total hF fun i hi => (e i hi).trans (ht i hi)⟩

theorem EF.cmpErr (h : EF D S X x) (k : EF D S Y y) (f : ℝ → ℝ → Bool) :
    ∀ i ∈ D, ∀ e, (do return f (← x i) (← y i) : Res Bool) = .error e → e = .nonFinite := by
  intro i hi e he
  rcases hx : x i with e' | a
  · simp only [hx, error_bind] at he
    exact Except.error.inj he ▸ h.err i hi e' hx
  · rcases hy : y i with e' | b
    · simp only [hx, hy, ok_bind, error_bind] at he
      exact Except.error.inj he ▸ k.err i hi e' hy
    · simp only [hx, hy, ok_bind] at he
      cases he

theorem checkNonNegB_cf (hD : ∀ i ∈ D, InB S i) (h : EF D S X x) :
    CF D S (checkNonNegB X) fun i => (do checkNonNeg (← x i)) := by
  obtain ⟨C, hC, hb⟩ := h.cmp (EF.nat 0) Num.lt
  unfold checkNonNegB blt
  rw [hC, ok_bind]
  refine (errorIfAny_cf hD hb (h.cmpErr (EF.nat 0) _)).congr fun i _ => ?_
  rcases x i with e | v
  · rfl
  · simp only [ok_bind, checkNonNeg]; rfl

theorem checkPosB_cf (hD : ∀ i ∈ D, InB S i) (h : EF D S X x) :
    CF D S (checkPosB X) fun i => (do checkPos (← x i)) := by
  obtain ⟨C, hC, hb⟩ := h.cmp (EF.nat 0) (fun x y => !Num.lt y x)
  unfold checkPosB ble
  rw [hC, ok_bind]
  refine (errorIfAny_cf hD hb (h.cmpErr (EF.nat 0) _)).congr fun i _ => ?_
  rcases x i with e | v
  · rfl
  · simp only [ok_bind, checkPos]
    cases hl : Num.lt (Num.nat 0) v <;> simp [pure, Except.pure, bind, Except.bind]

theorem checkRangeB_cf (hD : ∀ i ∈ D, InB S i) (h : EF D S X x) (k : EF D S Y y) (l : EF D S Z z) :
    CF D S (checkRangeB X Y Z) fun i => (do checkRange (← x i) (← y i) (← z i)) := by
  obtain ⟨C, hC, hb⟩ := h.cmp k Num.lt
  obtain ⟨C', hC', hb'⟩ := l.cmp h Num.lt
  obtain ⟨E, hE, hs, _, he⟩ := Arr.map2_spec (f := fun (a b : Bool) => a || b) hb.fits hb'.fits
  unfold checkRangeB blt
  rw [hC, ok_bind, hC', ok_bind, hE, ok_bind]
  have hB : BF D S E fun i => do
      let v ← x i
      let lo ← y i
      let hi ← z i
      return (Num.lt v lo || Num.lt hi v) := by
    refine ⟨hs, fun i hi b hbv => ?_⟩
    obtain ⟨v, hv, hbv⟩ := (bind_ok_iff _ _ _).mp hbv
    obtain ⟨lo, hlo, hbv⟩ := (bind_ok_iff _ _ _).mp hbv
    obtain ⟨hi', hhi, hbv⟩ := (bind_ok_iff _ _ _).mp hbv
    rw [he, hb.val i hi (Num.lt v lo) (by simp only [hv, hlo, ok_bind]; rfl),
      hb'.val i hi (Num.lt hi' v) (by simp only [hv, hhi, ok_bind]; rfl)]
    exact Except.ok.inj hbv
  refine (errorIfAny_cf hD hB fun i hi e hh => ?_).congr fun i _ => ?_
  · rcases hx : x i with e' | a
    · simp only [hx, error_bind] at hh
      exact Except.error.inj hh ▸ h.err i hi e' hx
    · rcases hy : y i with e' | b
      · simp only [hx, hy, ok_bind, error_bind] at hh
        exact Except.error.inj hh ▸ k.err i hi e' hy
      · rcases hz : z i with e' | c
        · simp only [hx, hy, hz, ok_bind, error_bind] at hh
          exact Except.error.inj hh ▸ l.err i hi e' hz
        · simp only [hx, hy, hz, ok_bind] at hh
          cases hh
  · rcases x i with e' | a
    · rfl
    · rcases y i with e' | b
      · rfl
      · rcases z i with e' | c
        · rfl
        · simp only [ok_bind, checkRange]; rfl

end

end Verif
