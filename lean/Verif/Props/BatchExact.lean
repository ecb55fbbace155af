import Verif.Props.Batch
import Verif.Props.BatchArith

/-!
# Exact conditions for C49 and C58: when do operations on batches return?

If the operation returns at every element, only shapes can make the batch raise. These theorems say which.
-/

namespace Verif

open List Spec

theorem condShapes_ok {mu nu delta dl : BArr} {u : Unit} (h : condShapes mu nu delta dl = .ok u) :
    mu.shape = nu.shape ∧ BroadcastsTo delta.shape mu.shape ∧ dl.shape = delta.shape := by
  unfold condShapes at h
  obtain ⟨s, hs, h⟩ := (bind_ok_iff _ _ _).mp h
  split at h
  · rename_i hc
    obtain ⟨h1, h2, h3⟩ := hc
    have hb := ((broadcastShapes_iff _ _).mp hs).1 delta.shape (by simp)
    rw [← h1] at hb
    exact ⟨h1.trans h2.symm, hb, h3.symm⟩
  · cases h

/-- whatever the values, a conversion that returns had shapes that `select` and `cond` accept -/
theorem representB_shapesFit (n : ℕ) {kw : Kw BArr} {P Q : Pos BArr} {k : Kind}
    (h : representB (n + 1) kw P k = .ok Q) : ShapesFit kw P k := by
  have hz : ∀ o : Option BArr, (orZeroB o).shape = (o.map fun a => a.shape).getD [] := fun o => by
    cases o <;> rfl
  cases P <;> cases k <;> first | exact trivial | skip
  · rw [representB] at h
    have := sphFromB_selOk h
    rw [hz] at this
    exact this
  · rw [representB] at h
    have := mathFromB_selOk h
    rw [hz] at this
    exact this
  · rw [representB] at h
    show _ ∧ _ ∧ _
    cases hk : kw.delta with
    | none =>
      rw [hk] at h
      obtain ⟨u, hu, -⟩ := (bind_ok_iff _ _ _).mp h
      obtain ⟨h1, h2, -⟩ := condShapes_ok hu
      exact ⟨h1, h2, fun dl hd => by cases hd⟩
    | some d =>
      rw [hk] at h
      obtain ⟨u, hu, -⟩ := (bind_ok_iff _ _ _).mp h
      obtain ⟨h1, h2, h3⟩ := condShapes_ok hu
      exact ⟨h1, h2, fun dl hd => by cases hd; exact h3⟩

/-- **C49 (returning, exactly).** If the conversions of all elements return (and the batch is not empty), the
conversion of the batch returns exactly when the shapes are acceptable to `lax.select` and `lax.cond` where the
code uses them on the arguments as given. -/
theorem C49_returns_iff (kw : Kw BArr) (P : Pos BArr) (k : Kind) (s : List ℕ) (hfit : Fit s kw P)
    (h0 : 0 ∉ s)
    (hall : ∀ idx, InB s idx → ∃ p kw' q, posAt idx P = some p ∧ kwAt idx kw = some kw' ∧
      representAs kw' p k = .ok q) : (∃ Q, representAsB kw P k = .ok Q) ↔ ShapesFit kw P k :=
  ⟨fun ⟨_, h⟩ => representB_shapesFit 199 h, fun hs => C49_returns_if_shapes_fit kw P k s hfit h0 hs hall⟩

/-! ### sums -/

theorem mapCart2B_pairLax {g : BArr → BArr → Res BArr} {f : ℝ → ℝ → ℝ} (hg : IsLax g f) {A B Q : Pos BArr}
    (h : mapCart2B g A B = .ok Q) : PairLax A B := by
  have one : ∀ {X Y Z : BArr}, g X Y = .ok Z → ∃ u, laxShape X.shape Y.shape = .ok u := fun hZ => by
    rw [hg] at hZ; exact ⟨_, laxMap2_shape hZ⟩
  cases A <;> cases B <;> simp only [mapCart2B, bind_ok_iff, reduceCtorEq] at h <;>
    simp only [PairLax, Pos.arrays, forall₂_cons, forall₂_nil_left_iff, and_true]
  · obtain ⟨_, h1, -⟩ := h; exact one h1
  · obtain ⟨_, h1, _, h2, -⟩ := h; exact ⟨one h1, one h2⟩
  · obtain ⟨_, h1, _, h2, _, h3, -⟩ := h; exact ⟨one h1, one h2, one h3⟩

theorem binPosB_cartLax {g : BArr → BArr → Res BArr} {f : ℝ → ℝ → ℝ} (hg : IsLax g f) {A B Q : Pos BArr}
    (h : binPosB g A B = .ok Q) : CartLax A B := by
  intro A' B' eA eB
  by_cases hk : A.kind.isCart = true
  · have h' : binCartB g A B = .ok Q := by cases A <;> first | (cases hk; done) | exact h
    have hc : A.kind.cartesian = A.kind := by cases A <;> first | (cases hk; done) | rfl
    rw [hc] at eA eB
    rw [representB_self hk] at eA
    obtain rfl := Except.ok.inj eA
    unfold binCartB at h'
    rw [eB, ok_bind] at h'
    exact mapCart2B_pairLax hg h'
  · have h' : (do
        let a ← representAsB {} A A.kind.cartesian
        let b ← representAsB {} B A.kind.cartesian
        representAsB {} (← binCartB g a b) A.kind) = .ok Q := by
      cases A <;> first | exact absurd rfl hk | exact h
    rw [eA, ok_bind, eB, ok_bind] at h'
    obtain ⟨M, e3, -⟩ := (bind_ok_iff _ _ _).mp h'
    have kA : A'.kind = A.kind.cartesian := representB_kind _ _ _ _ _ eA
    have kB : B'.kind = A.kind.cartesian := representB_kind _ _ _ _ _ eB
    have cB : B'.kind.isCart = true := by rw [kB]; exact isCart_cartesian _
    unfold binCartB at e3
    rw [kA, ← kB, representB_self cB, ok_bind] at e3
    exact mapCart2B_pairLax hg e3

namespace Spec

/-- component by component, the shapes of the two Cartesian vectors are combined by `jax.lax`: one of them is `()`, or
they have the same rank and fit -/
def Combine (C D : Pos BArr) : Prop := Forall₂ (fun a b : BArr => LaxFit a.shape b.shape) (compsOf C) (compsOf D)

end Spec

theorem combine_iff (C D : Pos BArr) : Combine C D ↔ PairLax C D := by
  unfold Combine PairLax
  rw [compsOf_eq, compsOf_eq]
  have : (fun a b : BArr => LaxFit a.shape b.shape) = fun a b => ∃ u, laxShape a.shape b.shape = .ok u := by
    funext a b
    exact propext ⟨laxShape_total, fun ⟨u, hu⟩ => ((laxShape_ok_iff _ _ _).mp hu).1⟩
  rw [this]

theorem binPos_toCart {f : ℝ → ℝ → ℝ} {a b q : Pos ℝ} (h : binPos f a b = .ok q) :
    (∃ c, representAs {} a a.kind.cartesian = .ok c) ∧ ∃ d, representAs {} b a.kind.cartesian = .ok d := by
  by_cases hk : a.kind.isCart = true
  · have h' : binCart f a b = .ok q := by cases a <;> first | (cases hk; done) | exact h
    have hc : a.kind.cartesian = a.kind := by cases a <;> first | (cases hk; done) | rfl
    unfold binCart at h'
    obtain ⟨d, h1, -⟩ := (bind_ok_iff _ _ _).mp h'
    rw [hc]
    refine ⟨⟨a, ?_⟩, d, h1⟩
    have key : ∀ n, represent (n + 1) {} a a.kind = .ok a := fun n => by
      cases a <;> first | (cases hk; done) | (rw [Pos.kind, represent])
    exact key 199
  · have h' : (do
        let c ← representAs {} a a.kind.cartesian
        let d ← representAs {} b a.kind.cartesian
        representAs {} (← binCart f c d) a.kind) = .ok q := by
      cases a <;> first | exact absurd rfl hk | exact h
    obtain ⟨c, h1, h'⟩ := (bind_ok_iff _ _ _).mp h'
    obtain ⟨d, h2, -⟩ := (bind_ok_iff _ _ _).mp h'
    exact ⟨⟨c, h1⟩, d, h2⟩

theorem binPosB_returns_def {g : BArr → BArr → Res BArr} {f : ℝ → ℝ → ℝ} (hg : IsLax g f) {A B : Pos BArr} {s : List ℕ}
    {I : Set (List ℕ)} (hF : Full I s) (dA : DefP I s A) (dB : DefP I s B)
    (h' : ∀ i ∈ I, ∃ q, binPos f (A.elemD i) (B.elemD i) = .ok q) :
    ∃ C D, representAsB {} A A.kind.cartesian = .ok C ∧ representAsB {} B A.kind.cartesian = .ok D ∧
      ((∃ Q, binPosB g A B = .ok Q) ↔ Combine C D) := by
  have hin : ∀ i ∈ I, InB s i := fun i hi => by rw [hF.1] at hi; exact hi
  have hc := isCart_cartesian A.kind
  obtain ⟨C, hC⟩ := (rep_sim_cart (T := True) hin dA hc).total trivial hF fun i hi => by
    obtain ⟨q, hq⟩ := h' i hi
    have := (binPos_toCart hq).1
    rwa [elemD_kind] at this
  obtain ⟨D, hD⟩ := (rep_sim_cart (T := True) hin dB hc).total trivial hF fun i hi => by
    obtain ⟨q, hq⟩ := h' i hi
    have := (binPos_toCart hq).2
    rwa [elemD_kind] at this
  refine ⟨C, D, hC, hD, fun ⟨Q, hQ⟩ => (combine_iff _ _).mpr (binPosB_cartLax hg hQ C D hC hD), fun hl => ?_⟩
  refine (binPosB_sim hg hin dA dB).total (fun C' D' e1 e2 => ?_) hF h'
  rw [hC] at e1; rw [hD] at e2
  obtain rfl := Except.ok.inj e1
  obtain rfl := Except.ok.inj e2
  exact (combine_iff _ _).mp hl

theorem binPosB_returns_iff {g : BArr → BArr → Res BArr} {f : ℝ → ℝ → ℝ} (hg : IsLax g f) {A B : Pos BArr} {s : List ℕ}
    (hA : Fits s A) (hB : Fits s B) (h0 : 0 ∉ s)
    (h : ∀ idx, InB s idx → ∃ a b q, posAt idx A = some a ∧ posAt idx B = some b ∧ binPos f a b = .ok q) :
    ∃ C D, representAsB {} A A.kind.cartesian = .ok C ∧ representAsB {} B A.kind.cartesian = .ok D ∧
      ((∃ Q, binPosB g A B = .ok Q) ↔ Combine C D) :=
  binPosB_returns_def hg (I := {i | InB s i}) ⟨rfl, h0⟩
    (defP_full hA fun i hi => by obtain ⟨a, b, q, h1, h2, h3⟩ := h i hi; exact ⟨a, h1⟩)
    (defP_full hB fun i hi => by obtain ⟨a, b, q, h1, h2, h3⟩ := h i hi; exact ⟨b, h2⟩) fun i hi => by
      obtain ⟨a, b, q, h1, h2, h3⟩ := h i hi
      obtain ⟨rfl, -⟩ := defP_at hA hi h1
      obtain ⟨rfl, -⟩ := defP_at hB hi h2
      exact ⟨q, h3⟩

/-- **C58 (sum and difference return, exactly).** Let the components of both operands broadcast to `s` (no empty axis) and
let the scalar operation return at every index. Then both operands convert to the Cartesian class of the left one, and the
operation on the batches returns exactly when, component by component, the shapes of these Cartesian forms are combined by
`jax.lax`. (Which shapes these are: `C58_cartesian_shapes`.) -/
theorem C58_add_sub_returns_iff (A B : Pos BArr) (s : List ℕ) (hA : Fits s A) (hB : Fits s B) (h0 : 0 ∉ s) :
    ((∀ idx, InB s idx → ∃ a b q, posAt idx A = some a ∧ posAt idx B = some b ∧ addPos a b = .ok q) →
      ∃ C D, representAsB {} A A.kind.cartesian = .ok C ∧ representAsB {} B A.kind.cartesian = .ok D ∧
        ((∃ Q, addPosB A B = .ok Q) ↔ Combine C D)) ∧
    ((∀ idx, InB s idx → ∃ a b q, posAt idx A = some a ∧ posAt idx B = some b ∧ subPos a b = .ok q) →
      ∃ C D, representAsB {} A A.kind.cartesian = .ok C ∧ representAsB {} B A.kind.cartesian = .ok D ∧
        ((∃ Q, subPosB A B = .ok Q) ↔ Combine C D)) :=
  ⟨binPosB_returns_iff isLax_add hA hB h0, binPosB_returns_iff isLax_sub hA hB h0⟩

/-! ### equality -/

theorem beqB_iff {X Y : BArr} {u : List ℕ} : (∃ c, beqB X Y = .ok c ∧ c.shape = u) ↔ bc2 X.shape Y.shape = .ok u := by
  unfold beqB Arr.map2
  constructor
  · rintro ⟨c, h, rfl⟩
    obtain ⟨s, h1, h⟩ := (bind_ok_iff _ _ _).mp h
    obtain rfl := Except.ok.inj h
    exact h1
  · intro h
    rw [h, ok_bind]; exact ⟨_, rfl, rfl⟩

theorem eqvB_iff {X Y : Dist BArr} {i : List ℕ} {v : Bool} (he : (X.elemD i).eqv (Y.elemD i) = .ok v) {u : List ℕ} :
    (∃ c, X.eqvB Y = .ok c ∧ c.shape = u) ↔ bc2 X.raw.shape Y.raw.shape = .ok u := by
  cases X <;> cases Y <;> simp only [Dist.elemD, Dist.eqv, reduceCtorEq] at he <;> exact beqB_iff

theorem allLeaves_iff {r : List (Arr Bool)} {u : List ℕ} :
    (∃ c, allLeaves r = .ok c ∧ c.shape = u) ↔ r ≠ [] ∧ ∀ d ∈ r, d.shape = u := by
  constructor
  · rintro ⟨c, h, rfl⟩
    obtain ⟨k1, k2, -⟩ := allLeaves_inv h
    exact ⟨k2, k1⟩
  · rintro ⟨h1, h2⟩
    obtain ⟨c, hc⟩ := allLeaves_total h1 h2
    obtain ⟨k1, k2, -⟩ := allLeaves_inv hc
    obtain ⟨d, hd⟩ := exists_mem_of_ne_nil _ k2
    exact ⟨c, hc, by rw [← k1 d hd, h2 d hd]⟩

theorem leaves1 {m : Res (Arr Bool)} {P : Arr Bool → Prop} :
    (∃ r, (∃ a, m = .ok a ∧ (pure [a] : Res (List (Arr Bool))) = .ok r) ∧ r ≠ [] ∧ ∀ d ∈ r, P d) ↔ ∃ a, m = .ok a ∧ P a := by
  constructor
  · rintro ⟨r, ⟨c, h1, h2⟩, -, h3⟩
    obtain rfl := Except.ok.inj h2
    exact ⟨c, h1, h3 c (by simp)⟩
  · rintro ⟨c, h1, h2⟩
    exact ⟨_, ⟨c, h1, rfl⟩, by simp, by simpa using h2⟩

theorem leaves2 {m n : Res (Arr Bool)} {P : Arr Bool → Prop} :
    (∃ r, (∃ a, m = .ok a ∧ ∃ b, n = .ok b ∧ (pure [a, b] : Res (List (Arr Bool))) = .ok r) ∧ r ≠ [] ∧ ∀ d ∈ r, P d) ↔
      (∃ a, m = .ok a ∧ P a) ∧ ∃ a, n = .ok a ∧ P a := by
  constructor
  · rintro ⟨r, ⟨a, h1, b, h2, h3⟩, -, h4⟩
    obtain rfl := Except.ok.inj h3
    exact ⟨⟨a, h1, h4 a (by simp)⟩, b, h2, h4 b (by simp)⟩
  · rintro ⟨⟨a, h1, h2⟩, b, h3, h4⟩
    exact ⟨_, ⟨a, h1, b, h3, rfl⟩, by simp, by simpa using ⟨h2, h4⟩⟩

theorem leaves3 {m n o : Res (Arr Bool)} {P : Arr Bool → Prop} :
    (∃ r, (∃ a, m = .ok a ∧ ∃ b, n = .ok b ∧ ∃ c, o = .ok c ∧ (pure [a, b, c] : Res (List (Arr Bool))) = .ok r) ∧
      r ≠ [] ∧ ∀ d ∈ r, P d) ↔ (∃ a, m = .ok a ∧ P a) ∧ (∃ a, n = .ok a ∧ P a) ∧ ∃ a, o = .ok a ∧ P a := by
  constructor
  · rintro ⟨r, ⟨a, h1, b, h2, c, h3, h5⟩, -, h4⟩
    obtain rfl := Except.ok.inj h5
    exact ⟨⟨a, h1, h4 a (by simp)⟩, ⟨b, h2, h4 b (by simp)⟩, c, h3, h4 c (by simp)⟩
  · rintro ⟨⟨a, h1, h2⟩, ⟨b, h3, h4⟩, c, h5, h6⟩
    exact ⟨_, ⟨a, h1, b, h3, c, h5, rfl⟩, by simp, by simpa using ⟨h2, h4, h6⟩⟩

theorem leaves4 {m n o q : Res (Arr Bool)} {P : Arr Bool → Prop} :
    (∃ r, (∃ a, m = .ok a ∧ ∃ b, n = .ok b ∧ ∃ c, o = .ok c ∧ ∃ d, q = .ok d ∧
      (pure [a, b, c, d] : Res (List (Arr Bool))) = .ok r) ∧ r ≠ [] ∧ ∀ d ∈ r, P d) ↔
      (∃ a, m = .ok a ∧ P a) ∧ (∃ a, n = .ok a ∧ P a) ∧ (∃ a, o = .ok a ∧ P a) ∧ ∃ a, q = .ok a ∧ P a := by
  constructor
  · rintro ⟨r, ⟨a, h1, b, h2, c, h3, d, h6, h5⟩, -, h4⟩
    obtain rfl := Except.ok.inj h5
    exact ⟨⟨a, h1, h4 a (by simp)⟩, ⟨b, h2, h4 b (by simp)⟩, ⟨c, h3, h4 c (by simp)⟩, d, h6, h4 d (by simp)⟩
  · rintro ⟨⟨a, h1, h2⟩, ⟨b, h3, h4⟩, ⟨c, h5, h6⟩, d, h7, h8⟩
    exact ⟨_, ⟨a, h1, b, h3, c, h5, d, h7, rfl⟩, by simp, by simpa using ⟨h2, h4, h6, h8⟩⟩

theorem leavesEqB_iff {A C : Pos BArr} {i : List ℕ} {v : Bool} (he : eqSame (A.elemD i) (C.elemD i) = .ok v) {u : List ℕ} :
    (∃ r c, leavesEqB A C = .ok r ∧ allLeaves r = .ok c ∧ c.shape = u) ↔
      Forall₂ (fun a c : BArr => bc2 a.shape c.shape = .ok u) A.arrays C.arrays := by
  have hl : ∀ r, (∃ c, allLeaves r = .ok c ∧ c.shape = u) ↔ r ≠ [] ∧ ∀ d ∈ r, d.shape = u := fun r => allLeaves_iff
  have e0 : (∃ r c, leavesEqB A C = .ok r ∧ allLeaves r = .ok c ∧ c.shape = u) ↔
      ∃ r, leavesEqB A C = .ok r ∧ r ≠ [] ∧ ∀ d ∈ r, d.shape = u := by
    refine exists_congr fun r => ?_
    rw [← hl r]
    exact ⟨fun ⟨c, h1, h2⟩ => ⟨h1, c, h2⟩, fun ⟨h1, c, h2⟩ => ⟨c, h1, h2⟩⟩
  rw [e0]
  cases A <;> cases C <;> simp only [eqSame, Pos.elemD, bind_ok_iff, reduceCtorEq] at he <;>
    simp only [leavesEqB, bind_ok_iff, Pos.arrays, forall₂_cons, forall₂_nil_left_iff, and_true]
  case cart1 => rw [leaves1, beqB_iff]
  case radial => rw [leaves1, eqvB_iff he]
  case cart2 => rw [leaves2, beqB_iff, beqB_iff]
  case polar => obtain ⟨w, hw, -⟩ := he; rw [leaves2, eqvB_iff hw, beqB_iff]
  case twoSphere => rw [leaves2, beqB_iff, beqB_iff]
  case cart3 => rw [leaves3, beqB_iff, beqB_iff, beqB_iff]
  case cyl => rw [leaves3, beqB_iff, beqB_iff, beqB_iff]
  case sph => obtain ⟨w, hw, -⟩ := he; rw [leaves3, eqvB_iff hw, beqB_iff, beqB_iff]
  case lonlat => obtain ⟨w, hw, -⟩ := he; rw [leaves3, eqvB_iff hw, beqB_iff, beqB_iff]
  case math => obtain ⟨w, hw, -⟩ := he; rw [leaves3, eqvB_iff hw, beqB_iff, beqB_iff]
  case prolate => rw [leaves4, beqB_iff, beqB_iff, beqB_iff, beqB_iff]

namespace Spec

/-- all pairs of corresponding components have the same broadcast shape `t` -/
def CompareTo (t : List ℕ) (A C : Pos BArr) : Prop :=
  Forall₂ (fun a c : BArr => IsBroadcast [a.shape, c.shape] t) (compsOf A) (compsOf C)

end Spec

/-- **C58 (equality returns, exactly).** Let the components of both operands broadcast to `s` (no empty axis) and let the
scalar comparison return at every index. Then `p == q` returns an answer of shape `t` exactly when `q` converts to the
class of `p` (always, except for prolate spheroidal positions: `C49_returns_iff`) and every component of `p` together with
the same component of the converted `q` broadcasts to the one shape `t`: `jnp.array` of the leaves needs equal shapes. -/
theorem C58_eq_returns_iff (A B : Pos BArr) (s t : List ℕ) (hA : Fits s A) (hB : Fits s B) (h0 : 0 ∉ s)
    (h : ∀ idx, InB s idx → ∃ a b v, posAt idx A = some a ∧ posAt idx B = some b ∧ eqPos a b = .ok v) :
    (∃ c, eqPosB A B = .ok c ∧ c.shape = t) ↔ ∃ C, representAsB {} B A.kind = .ok C ∧ CompareTo t A C := by
  have dB := defP_full hB fun i hi => by obtain ⟨a, b, q, h1, h2, h3⟩ := h i hi; exact ⟨b, h2⟩
  have hF : Full {i | InB s i} s := ⟨rfl, h0⟩
  obtain ⟨i, hi⟩ := hF.nonempty
  have key : ∀ C, representAsB {} B A.kind = .ok C → ∃ v, eqSame (A.elemD i) (C.elemD i) = .ok v := fun C hC => by
    obtain ⟨a, b, v, h1, h2, h3⟩ := h i hi
    obtain ⟨rfl, -⟩ := defP_at hA hi h1
    obtain ⟨rfl, -⟩ := defP_at hB hi h2
    unfold eqPos at h3
    rw [elemD_kind] at h3
    obtain ⟨q, h4, h5⟩ := (bind_ok_iff _ _ _).mp h3
    obtain ⟨rfl, -⟩ := Pos.elem_some ((((rep_sim (fun i h => h) dB A.kind).ok C hC).2 i hi).1 q h4)
    exact ⟨v, h5⟩
  have cmp : ∀ C, CompareTo t A C ↔ Forall₂ (fun a c : BArr => bc2 a.shape c.shape = .ok t) A.arrays C.arrays := fun C => by
    unfold CompareTo
    rw [compsOf_eq, compsOf_eq]
    simp only [← bc2_iff]
  unfold eqPosB
  constructor
  · rintro ⟨c, hc, hs⟩
    obtain ⟨C, hC, hc⟩ := (bind_ok_iff _ _ _).mp hc
    obtain ⟨r, hr, hc⟩ := (bind_ok_iff _ _ _).mp hc
    obtain ⟨v, hv⟩ := key C hC
    exact ⟨C, hC, (cmp C).mpr ((leavesEqB_iff hv).mp ⟨r, c, hr, hc, hs⟩)⟩
  · rintro ⟨C, hC, hl⟩
    obtain ⟨v, hv⟩ := key C hC
    obtain ⟨r, c, h1, h2, h3⟩ := (leavesEqB_iff hv).mpr ((cmp C).mp hl)
    exact ⟨c, by rw [hC, ok_bind, h1, ok_bind, h2], h3⟩

/-! ### which shapes the Cartesian components have -/

namespace Spec

/-- the Cartesian form `C` of `P`: each component has the broadcast shape of the components of `P` it depends on -/
def CartShapes : Pos BArr → Pos BArr → Prop
  | .cart1 x, .cart1 x' => x'.shape = x.shape
  | .cart2 x y, .cart2 x' y' => x'.shape = x.shape ∧ y'.shape = y.shape
  | .cart3 x y z, .cart3 x' y' z' => x'.shape = x.shape ∧ y'.shape = y.shape ∧ z'.shape = z.shape
  | .radial r, .cart1 x => x.shape = r.raw.shape
  | .polar r phi, .cart2 x y =>
    IsBroadcast [r.raw.shape, phi.shape] x.shape ∧ IsBroadcast [r.raw.shape, phi.shape] y.shape
  | .cyl rho phi z, .cart3 x y z' =>
    IsBroadcast [rho.shape, phi.shape] x.shape ∧ IsBroadcast [rho.shape, phi.shape] y.shape ∧ z'.shape = z.shape
  | .sph r theta phi, .cart3 x y z =>
    IsBroadcast [r.raw.shape, theta.shape, phi.shape] x.shape ∧
      IsBroadcast [r.raw.shape, theta.shape, phi.shape] y.shape ∧ IsBroadcast [r.raw.shape, theta.shape] z.shape
  | .lonlat lon lat d, .cart3 x y z =>
    IsBroadcast [lon.shape, lat.shape, d.raw.shape] x.shape ∧
      IsBroadcast [lon.shape, lat.shape, d.raw.shape] y.shape ∧ IsBroadcast [lat.shape, d.raw.shape] z.shape
  | .math r theta phi, .cart3 x y z =>
    IsBroadcast [r.raw.shape, theta.shape, phi.shape] x.shape ∧
      IsBroadcast [r.raw.shape, theta.shape, phi.shape] y.shape ∧ IsBroadcast [r.raw.shape, phi.shape] z.shape
  | .prolate mu nu phi delta, .cart3 x y z =>
    IsBroadcast [mu.shape, nu.shape, phi.shape, delta.shape] x.shape ∧
      IsBroadcast [mu.shape, nu.shape, phi.shape, delta.shape] y.shape ∧
      IsBroadcast [mu.shape, nu.shape, delta.shape] z.shape
  | _, _ => False

end Spec

theorem isBroadcast_congr {l m : List (List ℕ)} {s : List ℕ} (h : ∀ x, x ≠ [] → (x ∈ l ↔ x ∈ m)) (hl : IsBroadcast l s) :
    IsBroadcast m s := by
  have key : ∀ {a b : List (List ℕ)} {u : List ℕ}, (∀ x, x ≠ [] → (x ∈ a ↔ x ∈ b)) → (∀ x ∈ a, BroadcastsTo x u) →
      ∀ x ∈ b, BroadcastsTo x u := fun h k x hx => by
    by_cases e : x = []
    · rw [e]; exact broadcastsTo_nil _
    · exact k x ((h x e).mpr hx)
  exact ⟨key h hl.1, fun u hu => hl.2 u (key (fun x e => (h x e).symm) hu)⟩

theorem isBroadcast_bc2 {l m : List (List ℕ)} {s t u : List ℕ} (hl : IsBroadcast l s) (hm : IsBroadcast m t)
    (h : bc2 s t = .ok u) : IsBroadcast (l ++ m) u := by
  obtain ⟨h1, h2⟩ := bc2_iff.mp h
  refine ⟨fun x hx => ?_, fun w hw => h2 w ?_⟩
  · rcases mem_append.mp hx with hx | hx
    · exact broadcastsTo_trans (hl.1 x hx) (h1 s (by simp))
    · exact broadcastsTo_trans (hm.1 x hx) (h1 t (by simp))
  · simp only [mem_cons, not_mem_nil, or_false, forall_eq_or_imp, forall_eq]
    exact ⟨hl.2 w fun x hx => hw x (by simp [hx]), hm.2 w fun x hx => hw x (by simp [hx])⟩

/-- the shape of `a` is the broadcast of the shapes in `l` -/
def Deps (l : List (List ℕ)) (a : BArr) : Prop := IsBroadcast l a.shape

theorem deps_self (a : BArr) : Deps [a.shape] a :=
  ⟨by simp [broadcastsTo_refl], fun u h => h _ (by simp)⟩

theorem deps_scalar {a : BArr} (h : a.shape = []) : Deps [] a :=
  ⟨by simp, fun u _ => by rw [h]; exact broadcastsTo_nil u⟩

theorem deps_map2 {f : El → El → El} {a b c : BArr} {l m : List (List ℕ)} (ha : Deps l a) (hb : Deps m b)
    (h : Arr.map2 f a b = .ok c) : Deps (l ++ m) c := isBroadcast_bc2 ha hb (map2_bc h)

theorem deps_congr {a : BArr} {l m : List (List ℕ)} (ha : Deps l a) (h : ∀ x, x ∈ l ↔ x ∈ m) : Deps m a :=
  isBroadcast_congr (fun x _ => h x) ha

theorem deps_distance {r : Dist BArr} {d : BArr} {l : List (List ℕ)} (hr : Deps l r.raw) (h : r.distanceB = .ok d) :
    Deps l d := by
  cases r with
  | dist a => obtain rfl := Except.ok.inj h; exact hr
  | par a => exact deps_map2 (a := bnat 1) (deps_scalar rfl) (show Deps l (btan a) from hr) h
  | dm a =>
    simp only [Dist.distanceB, bind_ok_iff] at h
    obtain ⟨e', h1, e, h2, h3⟩ := h
    have d1 : Deps l e' := deps_congr (deps_map2 (b := bnat 5) hr (deps_scalar rfl) h1) (by simp)
    have d2 : Deps l e := deps_congr (deps_map2 (b := bnat 1) d1 (deps_scalar rfl) h2) (by simp)
    exact deps_congr (deps_map2 (a := bpow10 e) (m := []) d2 (deps_scalar rfl) h3) (by simp)

theorem sphToCart3B_deps {r : Dist BArr} {theta phi : BArr} {Q : Pos BArr} {lr lt lp : List (List ℕ)}
    (hr : Deps lr r.raw) (ht : Deps lt theta) (hp : Deps lp phi) (h : sphToCart3B r theta phi = .ok Q) :
    ∃ x y z, Q = .cart3 x y z ∧ Deps (lr ++ lt ++ lp) x ∧ Deps (lr ++ lt ++ lp) y ∧ Deps (lr ++ lt) z := by
  simp only [sphToCart3B, bind_ok_iff] at h
  obtain ⟨d, h1, x', h2, x, h3, y', h4, y, h5, z, h6, h7⟩ := h
  obtain rfl := Except.ok.inj h7
  have dd := deps_distance hr h1
  exact ⟨x, y, z, rfl, deps_map2 (b := bcos phi) (deps_map2 (b := bsin theta) dd ht h2) hp h3,
    deps_map2 (b := bsin phi) (deps_map2 (b := bsin theta) dd ht h4) hp h5, deps_map2 (b := bcos theta) dd ht h6⟩

theorem cylToCart3B_deps {rho phi z : BArr} {Q : Pos BArr} {lr lp : List (List ℕ)} (hr : Deps lr rho)
    (hp : Deps lp phi) (h : cylToCart3B rho phi z = .ok Q) :
    ∃ x y, Q = .cart3 x y z ∧ Deps (lr ++ lp) x ∧ Deps (lr ++ lp) y := by
  simp only [cylToCart3B, bind_ok_iff] at h
  obtain ⟨x, h1, y, h2, h3⟩ := h
  obtain rfl := Except.ok.inj h3
  exact ⟨x, y, rfl, deps_map2 (b := bcos phi) hr hp h1, deps_map2 (b := bsin phi) hr hp h2⟩

theorem cartShapes_aux (n : ℕ) {P C : Pos BArr} (h : representB (n + 2) {} P P.kind.cartesian = .ok C)
    (h2 : P.kind ≠ .twoSphere) : CartShapes P C := by
  cases P <;> simp only [Pos.kind, Kind.cartesian] at h <;> first | exact absurd rfl h2 | rw [representB] at h
  case cart1 => obtain rfl := Except.ok.inj h; rfl
  case cart2 => obtain rfl := Except.ok.inj h; exact ⟨rfl, rfl⟩
  case cart3 => obtain rfl := Except.ok.inj h; exact ⟨rfl, rfl, rfl⟩
  case radial r =>
    obtain ⟨d, h1, h⟩ := (bind_ok_iff _ _ _).mp h
    obtain rfl := Except.ok.inj h
    have := deps_distance (deps_self r.raw) h1
    exact broadcastsTo_antisymm (this.2 _ (by simp [broadcastsTo_refl])) (this.1 _ (by simp))
  case polar r phi =>
    simp only [polarToCart2B, bind_ok_iff] at h
    obtain ⟨d, h1, x, h3, y, h4, h⟩ := h
    obtain rfl := Except.ok.inj h
    have dd := deps_distance (deps_self r.raw) h1
    exact ⟨deps_map2 (b := bcos phi) dd (deps_self phi) h3, deps_map2 (b := bsin phi) dd (deps_self phi) h4⟩
  case cyl rho phi z =>
    obtain ⟨x, y, rfl, h1, h3⟩ := cylToCart3B_deps (deps_self rho) (deps_self phi) h
    exact ⟨h1, h3, rfl⟩
  case sph r theta phi =>
    obtain ⟨x, y, z, rfl, h1, h3, h4⟩ := sphToCart3B_deps (deps_self r.raw) (deps_self theta) (deps_self phi) h
    exact ⟨h1, h3, h4⟩
  case lonlat lon lat d =>
    obtain ⟨S, hS, h⟩ := (bind_ok_iff _ _ _).mp h
    rw [representB] at hS
    simp only [lonlatToSphB, mkSphB, bind_ok_iff] at hS
    obtain ⟨t, h1, _, -, _, -, hS⟩ := hS
    obtain rfl := Except.ok.inj hS
    rw [representB] at h
    have ht : Deps [lat.shape] t := deps_map2 (a := bhalfPi) (deps_scalar rfl) (deps_self lat) h1
    obtain ⟨x, y, z, rfl, h3, h4, h5⟩ := sphToCart3B_deps (deps_self d.raw) ht (deps_self lon) h
    exact ⟨deps_congr h3 (by simp; tauto), deps_congr h4 (by simp; tauto), deps_congr h5 (by simp; tauto)⟩
  case math r theta phi =>
    obtain ⟨x, y, z, rfl, h1, h3, h4⟩ := sphToCart3B_deps (deps_self r.raw) (deps_self phi) (deps_self theta) h
    exact ⟨deps_congr h1 (by simp; tauto), deps_congr h3 (by simp; tauto), h4⟩
  case prolate mu nu phi delta =>
    obtain ⟨S, hS, h⟩ := (bind_ok_iff _ _ _).mp h
    rw [representB] at hS
    simp only [prolateToCylB, mkCylB, bind_ok_iff] at hS
    obtain ⟨d2, h1, nd, h3, a, h4, b, h5, q, h6, m, h7, w, h8, _, -, hS⟩ := hS
    obtain rfl := Except.ok.inj hS
    rw [representB] at h
    have hd2 : Deps [delta.shape] d2 := deps_congr (deps_map2 (deps_self delta) (deps_self delta) h1) (by simp)
    have hnd := deps_map2 (a := babs nu) (deps_self nu) hd2 h3
    have ha := deps_map2 (deps_self mu) hd2 h4
    have hb := deps_map2 (a := bnat 1) (deps_scalar rfl) hnd h5
    have hq := deps_map2 ha hb h6
    have hm := deps_map2 (deps_self mu) hnd h7
    have hw := deps_map2 (a := bsqrt m) (b := bsign nu) hm (deps_self nu) h8
    obtain ⟨x, y, rfl, h9, h10⟩ := cylToCart3B_deps (rho := bsqrt q) (phi := (AzArg.angle phi).convertB) (hq : Deps _ (bsqrt q))
      (deps_self phi) h
    refine ⟨deps_congr h9 ?_, deps_congr h10 ?_, deps_congr hw ?_⟩ <;> intro s <;>
      simp only [mem_append, mem_cons, not_mem_nil, or_false] <;> tauto

/-- **C58 (shapes of the Cartesian forms).** The Cartesian form of a batch has, component by component, the broadcast shape
of exactly the components of the batch that it depends on. (TwoSpherePos has no Cartesian form.) -/
theorem C58_cartesian_shapes (P C : Pos BArr) (h : representAsB {} P P.kind.cartesian = .ok C) (h2 : P.kind ≠ .twoSphere) :
    CartShapes P C := cartShapes_aux 198 h h2

/-! ### products -/

theorem isBroadcast_le {l : List (List ℕ)} {t u : List ℕ} (h : IsBroadcast l t) :
    BroadcastsTo t u ↔ ∀ s ∈ l, BroadcastsTo s u :=
  ⟨fun k s hs => broadcastsTo_trans (h.1 s hs) k, fun k => h.2 u k⟩

/-- the Cartesian form has the same overall shape -/
theorem cartShapes_all {P C : Pos BArr} (h : CartShapes P C) (u : List ℕ) :
    (∀ a ∈ compsOf C, BroadcastsTo a.shape u) ↔ ∀ a ∈ compsOf P, BroadcastsTo a.shape u := by
  cases P <;> cases C <;> simp only [CartShapes] at h <;>
    simp only [compsOf, mem_cons, not_mem_nil, or_false, forall_eq_or_imp, forall_eq] at *
  case cart1.cart1 => rw [h]
  case cart2.cart2 => rw [h.1, h.2]
  case cart3.cart3 => rw [h.1, h.2.1, h.2.2]
  case radial.cart1 => rw [h]
  case polar.cart2 => rw [isBroadcast_le h.1, isBroadcast_le h.2]; simp
  case cyl.cart3 =>
    rw [isBroadcast_le h.1, isBroadcast_le h.2.1, h.2.2]
    simp only [mem_cons, not_mem_nil, or_false, forall_eq_or_imp, forall_eq]; tauto
  all_goals
    rw [isBroadcast_le h.1, isBroadcast_le h.2.1, isBroadcast_le h.2.2]
    simp only [mem_cons, not_mem_nil, or_false, forall_eq_or_imp, forall_eq]; tauto

theorem toQuantityB_fit {P : Pos BArr} {q : BArr} {t : List ℕ} (h2 : P.kind ≠ .twoSphere)
    (hP : IsBroadcast ((compsOf P).map fun a => a.shape) t) (h : toQuantityB P = .ok q) : q.shape = t ++ [P.kind.dim] := by
  unfold toQuantityB at h
  obtain ⟨C, h1, h⟩ := (bind_ok_iff _ _ _).mp h
  obtain ⟨l, hl, h⟩ := (bind_ok_iff _ _ _).mp h
  obtain ⟨u, h3, h⟩ := (bind_ok_iff _ _ _).mp h
  obtain rfl := Except.ok.inj h
  have hc := cartShapes_all (C58_cartesian_shapes P C h1 h2)
  have kC : C.kind = P.kind.cartesian := representB_kind _ _ _ _ _ h1
  have e : l = compsOf C ∧ l.length = C.kind.dim := by
    cases C <;> simp only [Pos.cartArrays, reduceCtorEq] at hl <;> obtain rfl := Except.ok.inj hl <;> exact ⟨rfl, rfl⟩
  have hu := (broadcastShapes_iff _ _).mp h3
  have hut : u = t := by
    refine broadcastsTo_antisymm (hu.2 t ?_) (hP.2 u ?_)
    · intro s hs
      obtain ⟨a, ha, rfl⟩ := mem_map.mp hs
      exact (hc t).mpr (fun a ha => hP.1 _ (mem_map.mpr ⟨a, ha, rfl⟩)) a (e.1 ▸ ha)
    · intro s hs
      obtain ⟨a, ha, rfl⟩ := mem_map.mp hs
      exact (hc u).mp (fun a ha => hu.1 _ (mem_map.mpr ⟨a, e.1 ▸ ha, rfl⟩)) a ha
  simp [stackB, hut, e.2, kC, dim_cartesian]

theorem toQuantityB_returns {P : Pos BArr} {s : List ℕ} (fP : Fits s P) (h0 : 0 ∉ s) (hs : P.kind ≠ .twoSphere)
    (hv : Everywhere s P fun _ a => Valid a) : ∃ q, toQuantityB P = .ok q := by
  have dP := defP_full fP fun i hi => by obtain ⟨p, h1, -⟩ := hv i hi; exact ⟨p, h1⟩
  obtain ⟨C, hC⟩ := (rep_sim_cart (T := True) (fun i h => h) dP (isCart_cartesian P.kind)).total trivial ⟨rfl, h0⟩
    fun i hi => by
      obtain ⟨p, h1, h2⟩ := hv i hi
      obtain ⟨rfl, -⟩ := defP_at fP hi h1
      obtain ⟨c, hc, -⟩ := toCart_total _ h2 (by rw [elemD_kind]; exact hs)
      rw [elemD_kind] at hc
      exact ⟨c, hc⟩
  have kC : C.kind.isCart = true := by rw [representB_kind _ _ _ _ _ hC]; exact isCart_cartesian _
  have hc := (cartShapes_all (C58_cartesian_shapes P C hC hs) s).mpr fP
  obtain ⟨l, e1, e2⟩ : ∃ l, C.cartArrays = .ok l ∧ l = compsOf C := by
    cases C <;> first | (cases kC; done) | exact ⟨_, rfl, rfl⟩
  have : ∃ u, broadcastShapes (l.map fun a => a.shape) = .ok u := by
    rw [e2]
    obtain ⟨u, hu⟩ := broadcastShapes_total (shapes := (compsOf C).map fun a => a.shape) (w := s) (by
      intro t ht
      obtain ⟨a, ha, rfl⟩ := mem_map.mp ht
      exact hc a ha)
    exact ⟨u, hu⟩
  obtain ⟨u, hu⟩ := this
  unfold toQuantityB toCartesianB
  rw [hC, ok_bind, e1, ok_bind, hu]
  exact ⟨_, rfl⟩

/-- **C58 (product returns, exactly).** For batches of valid positions whose components broadcast to `s` (no empty axis),
`A` of shape `sa` and `B` of shape `sb`: `A * B` returns exactly when the shapes have equal rank and the dimensions are equal
or one of them is 1. -/
theorem C58_product_returns_iff (A B : Pos BArr) (s sa sb : List ℕ) (hA : Fits s A) (hB : Fits s B) (h0 : 0 ∉ s)
    (ha : IsBroadcast ((compsOf A).map fun a => a.shape) sa) (hb : IsBroadcast ((compsOf B).map fun a => a.shape) sb)
    (hsa : A.kind ≠ .twoSphere) (hsb : B.kind ≠ .twoSphere) (vA : Everywhere s A fun _ a => Valid a)
    (vB : Everywhere s B fun _ b => Valid b) :
    (∃ Z, mulPosPosB A B = .ok Z) ↔
      sa.length = sb.length ∧ (A.kind.dim = B.kind.dim ∨ A.kind.dim = 1 ∨ B.kind.dim = 1) := by
  obtain ⟨x, hx⟩ := toQuantityB_returns hA h0 hsa vA
  obtain ⟨y, hy⟩ := toQuantityB_returns hB h0 hsb vB
  have ex := toQuantityB_fit hsa ha hx
  have ey := toQuantityB_fit hsb hb hy
  have fa : BroadcastsTo sa s := ha.2 s (by simpa [Fits] using hA)
  have fb : BroadcastsTo sb s := hb.2 s (by simpa [Fits] using hB)
  unfold mulPosPosB
  rw [hx, ok_bind, hy, ok_bind]
  constructor
  · rintro ⟨Z, hZ⟩
    have e := laxMap2_shape hZ
    have eb := lax_bc2 e
    rw [ex, ey] at e eb
    rcases ((laxShape_ok_iff _ _ _).mp e).1 with c | c | ⟨c, -⟩
    · simp at c
    · simp at c
    · refine ⟨by simpa using c, ?_⟩
      obtain ⟨h1, -⟩ := bc2_iff.mp eb
      obtain ⟨d, u, hd, h4, e5⟩ := bc2_snoc.mp eb
      rw [e5] at h1
      have k1 := (broadcastsTo_snoc.mp (h1 _ (by simp : sa ++ [A.kind.dim] ∈ _))).1
      have k2 := (broadcastsTo_snoc.mp (h1 _ (by simp : sb ++ [B.kind.dim] ∈ _))).1
      omega
  · rintro ⟨hl, hd⟩
    have : ∃ d, (A.kind.dim = 1 ∨ A.kind.dim = d) ∧ (B.kind.dim = 1 ∨ B.kind.dim = d) := by
      rcases hd with h | h | h
      · exact ⟨_, .inr rfl, .inr h.symm⟩
      · exact ⟨_, .inl h, .inr rfl⟩
      · exact ⟨_, .inr rfl, .inl h⟩
    obtain ⟨d, d1, d2⟩ := this
    obtain ⟨u, hu⟩ := laxShape_total (s := sa ++ [A.kind.dim]) (t := sb ++ [B.kind.dim]) (.inr (.inr
      ⟨by simp [hl], s ++ [d], broadcastsTo_snoc.mpr ⟨d1, fa⟩, broadcastsTo_snoc.mpr ⟨d2, fb⟩⟩))
    exact laxMap2_total _ (by rw [ex, ey]; exact hu)

/-! ### examples -/

/-- `x` of shape `(2,)` and `y` a single number, plus `x` a single number and `y` of shape `(2,)`: returns -/
example : ∃ Q, addPosB (.cart2 ⟨[2], fun _ => some 1⟩ ⟨[], fun _ => some 5⟩) (.cart2 ⟨[], fun _ => some 3⟩ ⟨[2], fun _ => some 4⟩)
    = .ok Q := by
  have e1 : Fits [2] (.cart2 ⟨[2], fun _ => some 1⟩ ⟨[], fun _ => some 5⟩) := by
    simp [Fits, compsOf, broadcastsTo_refl, broadcastsTo_nil]
  have e2 : Fits [2] (.cart2 ⟨[], fun _ => some 3⟩ ⟨[2], fun _ => some 4⟩) := by
    simp [Fits, compsOf, broadcastsTo_refl, broadcastsTo_nil]
  obtain ⟨C, D, hC, hD, h⟩ := (C58_add_sub_returns_iff _ _ [2] e1 e2 (by simp)).1 fun idx _ =>
    by
      obtain ⟨q, hq⟩ := (Props.C15_add_sub_return (.cart2 1 5) (.cart2 3 4) trivial trivial rfl nofun nofun nofun).1
        (.inl rfl) nofun
      exact ⟨_, _, q, rfl, rfl, hq⟩
  refine h.mpr ?_
  obtain rfl := Except.ok.inj (hC.symm.trans (representB_self rfl))
  obtain rfl := Except.ok.inj (hD.symm.trans (representB_self rfl))
  exact .cons (.inr (.inl rfl)) (.cons (.inl rfl) .nil)

/-- shapes `(3,)` and `(2, 3)` have a broadcast shape but no common rank: the sum raises -/
example (Q : Pos BArr) : addPosB (.cart1 ⟨[3], fun _ => some 1⟩) (.cart1 ⟨[2, 3], fun _ => some 5⟩) ≠ .ok Q := fun hQ => by
  have e1 : Fits [2, 3] (.cart1 ⟨[3], fun _ => some 1⟩) := by
    simp [Fits, compsOf, BroadcastsTo, CompatRev]
  have e2 : Fits [2, 3] (.cart1 ⟨[2, 3], fun _ => some 5⟩) := by
    simp [Fits, compsOf, broadcastsTo_refl]
  obtain ⟨C, D, hC, hD, h⟩ := (C58_add_sub_returns_iff _ _ [2, 3] e1 e2 (by simp)).1 fun idx _ =>
    by
      obtain ⟨q, hq⟩ := (Props.C15_add_sub_return (.cart1 1) (.cart1 5) trivial trivial rfl nofun nofun nofun).1
        (.inl rfl) nofun
      exact ⟨_, _, q, rfl, rfl, hq⟩
  obtain rfl := Except.ok.inj (hC.symm.trans (representB_self rfl))
  obtain rfl := Except.ok.inj (hD.symm.trans (representB_self rfl))
  cases h.mp ⟨Q, hQ⟩ with
  | cons h _ => rcases h with h | h | ⟨h, -⟩ <;> simp at h

/-- `==` of positions whose components have different shapes raises, although every single comparison returns: the leaves
have shapes `(2,)` and `()` -/
example (c : Arr Bool) : eqPosB (.cart2 ⟨[2], fun _ => some 1⟩ ⟨[], fun _ => some 5⟩)
    (.cart2 ⟨[2], fun _ => some 3⟩ ⟨[], fun _ => some 4⟩) ≠ .ok c := fun hc => by
  have e1 : ∀ x y : ℝ, Fits [2] (.cart2 ⟨[2], fun _ => some x⟩ ⟨[], fun _ => some y⟩) := fun x y => by
    simp [Fits, compsOf, broadcastsTo_refl, broadcastsTo_nil]
  obtain ⟨C, hC, h⟩ := (C58_eq_returns_iff _ _ [2] c.shape (e1 1 5) (e1 3 4) (by simp) fun idx _ =>
    ⟨.cart2 1 5, .cart2 3 4, (Num.beq (1 : ℝ) 3 && Num.beq (5 : ℝ) 4), rfl, rfl, by
      have : representAs {} (.cart2 (3 : ℝ) 4) .cart2 = .ok (.cart2 3 4) := by
        have : represent (199 + 1) {} (.cart2 (3 : ℝ) 4) .cart2 = .ok (.cart2 3 4) := by rw [represent]
        exact this
      unfold eqPos
      rw [show (Pos.cart2 (1 : ℝ) 5).kind = .cart2 from rfl, this]; rfl⟩).mp ⟨c, hc, rfl⟩
  obtain rfl := Except.ok.inj (hC.symm.trans (representB_self rfl))
  cases h with
  | cons h1 h2 =>
    cases h2 with
    | cons h2 _ =>
      have a1 := bc2_iff.mpr h1
      have a2 := bc2_iff.mpr h2
      simp only [bc2_self] at a1
      rw [show (⟨[], fun _ => some 5⟩ : BArr).shape = [] from rfl, bc2_nil_left] at a2
      have := (Except.ok.inj a1).trans (Except.ok.inj a2).symm
      cases this

end Verif
