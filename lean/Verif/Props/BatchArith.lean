import Verif.BatchArithMore
import Verif.Props.Batch
import Verif.Props.BatchVel
import Verif.Props.Arith

/-!
# C58: arithmetic on arrays of positions is arithmetic on each element

`addPosB`, `negPosB`, ... (`Verif/BatchArith.lean`) transcribe the arithmetic on arrays; `addPos`, `negPos`, ...
(`Verif/Arith.lean`) transcribe it for one element and are what C14-C18 are about. `Spec.posAt idx P` is the
scalar vector that stands at batch index `idx`.
-/

namespace Verif

open List

namespace Spec

/-- every component of the vector broadcasts to `s` -/
def Fits (s : List ℕ) (P : Pos BArr) : Prop := ∀ a ∈ compsOf P, BroadcastsTo a.shape s

/-- at batch index `idx` the array result `Q` agrees with the scalar result `r`: it holds the value that the
scalar operation returns, and the scalar operation does not raise (`nonFinite` is not raised: it stands for
an inf or NaN in the result) -/
def Agrees (idx : List ℕ) (Q : Pos BArr) (r : Res (Pos ℝ)) : Prop :=
  (∀ q, r = .ok q → posAt idx Q = some q) ∧ ∀ e, r = .error e → e = .nonFinite

/-- all coordinates of the vector have shape `s`; `Delta`, if there is one, has shape `s` or is a scalar -/
def Uniform (s : List ℕ) (P : Pos BArr) : Prop :=
  (∀ a ∈ coordsOf P, a.shape = s) ∧ ∀ mu nu phi d, P = .prolate mu nu phi d → d.shape = [] ∨ d.shape = s

/-- the scalar operation returns at every batch index -/
def Everywhere (s : List ℕ) (P : Pos BArr) (f : List ℕ → Pos ℝ → Prop) : Prop :=
  ∀ idx, InB s idx → ∃ p, posAt idx P = some p ∧ f idx p

/-- the first `n` Cartesian coordinates of a point -/
def firstCoords (n : ℕ) (v : V3) : List ℝ := [v.x, v.y, v.z].take n

end Spec

open Spec

theorem defP_at {P : Pos BArr} {s idx : List ℕ} (hfit : Fits s P) (hi : InB s idx) {p : Pos ℝ}
    (hp : posAt idx P = some p) : P.elemD idx = p ∧ DefP {idx} s P := by
  rw [posAt_eq hfit hi] at hp
  obtain ⟨rfl, hdef⟩ := Pos.elem_some hp
  exact ⟨rfl, fun a ha => ⟨hfit a (by rw [compsOf_eq]; exact ha), fun i h => by cases h; exact hdef a ha⟩⟩

theorem defP_full {P : Pos BArr} {s : List ℕ} (hfit : Fits s P)
    (h : ∀ idx, InB s idx → ∃ p, posAt idx P = some p) : DefP {i | InB s i} s P := fun a ha =>
  ⟨hfit a (by rw [compsOf_eq]; exact ha), fun i hi => by
    obtain ⟨p, hp⟩ := h i hi
    rw [posAt_eq hfit hi] at hp
    exact (Pos.elem_some hp).2 a ha⟩

theorem defA_at {W : BArr} {s idx : List ℕ} (hfit : BroadcastsTo W.shape s) (hi : InB s idx) {w : ℝ}
    (hw : at_ idx W = some w) : W.elemD idx = w ∧ DefA {idx} s W := by
  rw [at_eq hfit hi] at hw
  have e : W.elemD idx = w := by simp [Arr.elemD, hw]
  exact ⟨e, ⟨hfit, fun i h => by cases h; rw [e]; exact hw⟩⟩

theorem defA_full {W : BArr} {s : List ℕ} (hfit : BroadcastsTo W.shape s)
    (h : ∀ idx, InB s idx → ∃ w, at_ idx W = some w) : DefA {i | InB s i} s W :=
  ⟨hfit, fun i hi => by
    obtain ⟨w, hw⟩ := h i hi
    rw [at_eq hfit hi] at hw
    simp [Arr.elemD, hw]⟩

theorem at_single {s idx : List ℕ} (hi : InB s idx) : ∀ i ∈ ({idx} : Set (List ℕ)), InB s i := fun i h => by
  cases h; exact hi

theorem BSim.agrees {T : Prop} {s idx : List ℕ} {A : Res (Pos BArr)} {f : List ℕ → Res (Pos ℝ)} {Q : Pos BArr}
    (h : BSim T {idx} s A f) (hi : InB s idx) (hQ : A = .ok Q) : Fits s Q ∧ Agrees idx Q (f idx) := by
  obtain ⟨h1, h2⟩ := h.ok Q hQ
  have h1' : Fits s Q := by unfold Fits; rw [compsOf_eq]; exact h1
  refine ⟨h1', fun q hq => ?_, (h2 idx rfl).2⟩
  rw [posAt_eq h1' hi]
  exact (h2 idx rfl).1 q hq

/-! ### elements -/

theorem binPosB_agrees {g : BArr → BArr → Res BArr} {f : ℝ → ℝ → ℝ} (hg : IsLax g f) {A B Q : Pos BArr}
    {s idx : List ℕ} (hA : Fits s A) (hB : Fits s B) (hi : InB s idx) {a b : Pos ℝ} (ha : posAt idx A = some a)
    (hb : posAt idx B = some b) (h : binPosB g A B = .ok Q) : Fits s Q ∧ Agrees idx Q (binPos f a b) := by
  obtain ⟨rfl, dA⟩ := defP_at hA hi ha
  obtain ⟨rfl, dB⟩ := defP_at hB hi hb
  exact (binPosB_sim hg (at_single hi) dA dB).agrees hi h

/-- **C58 (sum, difference).** Whenever the sum or difference of two batches of positions returns, then at every
batch index the element of the result is the sum or difference of the elements (if that is finite), and the
scalar operation does not raise. The operands may be of any classes, shapes and ranks, with components of
different shapes; elements at other indices may be NaN. The components of the result broadcast to the common
shape of the operands. -/
theorem C58_add_sub_elementwise (A B Q : Pos BArr) (s idx : List ℕ) (hA : Fits s A) (hB : Fits s B)
    (hi : InB s idx) (a b : Pos ℝ) (ha : posAt idx A = some a) (hb : posAt idx B = some b) :
    (addPosB A B = .ok Q → Fits s Q ∧ Agrees idx Q (addPos a b)) ∧
    (subPosB A B = .ok Q → Fits s Q ∧ Agrees idx Q (subPos a b)) :=
  ⟨fun h => binPosB_agrees isLax_add hA hB hi ha hb h, fun h => binPosB_agrees isLax_sub hA hB hi ha hb h⟩

/-- **C58 (negation).** The same for `-p`. -/
theorem C58_neg_elementwise (P Q : Pos BArr) (s idx : List ℕ) (hP : Fits s P) (hi : InB s idx) (p : Pos ℝ)
    (hp : posAt idx P = some p) (h : negPosB P = .ok Q) : Fits s Q ∧ Agrees idx Q (negPos p) := by
  obtain ⟨rfl, dP⟩ := defP_at hP hi hp
  exact (negPosB_sim (T := True) (at_single hi) dP).agrees hi h

/-- **C58 (scaling).** The same for `s * p` and `p * s`. -/
theorem C58_scale_elementwise (W : BArr) (P Q : Pos BArr) (s idx : List ℕ) (hW : BroadcastsTo W.shape s)
    (hP : Fits s P) (hi : InB s idx) (w : ℝ) (p : Pos ℝ) (hw : at_ idx W = some w) (hp : posAt idx P = some p) :
    (scalePosB W P = .ok Q → Fits s Q ∧ Agrees idx Q (scalePos w p)) ∧
    (scalePosRightB P W = .ok Q → Fits s Q ∧ Agrees idx Q (scalePosRight p w)) := by
  have key : scalePosB W P = .ok Q → Fits s Q ∧ Agrees idx Q (scalePos w p) := fun h => by
    have h0 : W.shape.all (· = 0) = true := by
      by_contra hn
      unfold scalePosB at h
      rw [if_neg hn] at h; cases h
    obtain ⟨rfl, dP⟩ := defP_at hP hi hp
    obtain ⟨rfl, dW⟩ := defA_at hW hi hw
    exact (scalePosB_sim (T := True) (at_single hi) h0 dW dP).agrees hi h
  exact ⟨key, key⟩

/-- **C58 (division).** The same for `p / s`, where the divisor may be an array. -/
theorem C58_divide_elementwise (W : BArr) (P Q : Pos BArr) (s idx : List ℕ) (hW : BroadcastsTo W.shape s)
    (hP : Fits s P) (hi : InB s idx) (w : ℝ) (p : Pos ℝ) (hw : at_ idx W = some w) (hp : posAt idx P = some p)
    (h : divPosB P W = .ok Q) : Fits s Q ∧ Agrees idx Q (divPos p w) := by
  obtain ⟨rfl, dP⟩ := defP_at hP hi hp
  obtain ⟨rfl, dW⟩ := defA_at hW hi hw
  exact (divPosB_sim (T := True) (at_single hi) dW dP).agrees hi h

/-- **C58 (norm).** The same for `p.norm()`. -/
theorem C58_norm_elementwise (P : Pos BArr) (N : Dist BArr) (s idx : List ℕ) (hP : Fits s P) (hi : InB s idx)
    (p : Pos ℝ) (hp : posAt idx P = some p) (h : normB P = .ok N) : BroadcastsTo N.raw.shape s ∧
      (∀ d, norm p = .ok d → distAt idx N = some d) ∧ ∀ e, norm p = .error e → e = .nonFinite := by
  obtain ⟨rfl, dP⟩ := defP_at hP hi hp
  obtain ⟨h1, h2⟩ := (normB_sim (at_single hi) dP).ok N h
  refine ⟨h1, fun d hd => ?_, (h2 idx rfl).2⟩
  rw [distAt_eq h1 hi]
  exact (h2 idx rfl).1 d hd

theorem Arr.bool_get {c : Arr Bool} {s idx : List ℕ} (h : BroadcastsTo c.shape s) (hi : InB s idx) :
    c.get (bcSource c.shape idx) = c.elem idx := ((Arr.elem_get h hi).1).symm

/-- **C58 (equality).** Whenever `p == q` returns for batches, its element at every batch index is the answer
of the scalar comparison of the elements. -/
theorem C58_eq_elementwise (A B : Pos BArr) (c : Arr Bool) (s idx : List ℕ) (hA : Fits s A) (hB : Fits s B)
    (hi : InB s idx) (a b : Pos ℝ) (ha : posAt idx A = some a) (hb : posAt idx B = some b)
    (h : eqPosB A B = .ok c) : BroadcastsTo c.shape s ∧
      (∀ v, eqPos a b = .ok v → c.get (bcSource c.shape idx) = v) ∧ ∀ e, eqPos a b = .error e → e = .nonFinite := by
  obtain ⟨rfl, dA⟩ := defP_at hA hi ha
  obtain ⟨rfl, dB⟩ := defP_at hB hi hb
  unfold eqPosB at h
  obtain ⟨C, hC, h⟩ := (bind_ok_iff _ _ _).mp h
  obtain ⟨r, hr, h⟩ := (bind_ok_iff _ _ _).mp h
  obtain ⟨f1, f2⟩ := (rep_sim (at_single hi) dB A.kind).ok C hC
  have hcf : r ≠ [] ∧ ∀ d ∈ r, BroadcastsTo d.shape s := by
    obtain ⟨g1, g2, -⟩ := leavesEqB_good (D := ∅) (S := s)
      (fun a h => ⟨(dA a h).fits, fun i hi => hi.elim⟩) (fun a h => ⟨f1 a h, fun i hi => hi.elim⟩) hr
    exact ⟨g1, g2⟩
  have hsh : BroadcastsTo c.shape s := by
    obtain ⟨k1, k2, -⟩ := allLeaves_inv h
    obtain ⟨d, hd⟩ := exists_mem_of_ne_nil _ k2
    rw [← k1 d hd]; exact hcf.2 d hd
  refine ⟨hsh, ?_⟩
  unfold eqPos
  rw [elemD_kind]
  rcases hq : representAs {} (B.elemD idx) A.kind with e | q
  · have := (f2 idx rfl).2 e hq
    exact ⟨fun v hv => by simp [error_bind] at hv, fun e' he' => by
      simp only [error_bind] at he'; exact Except.error.inj he' ▸ this⟩
  · obtain ⟨rfl, hd⟩ := Pos.elem_some ((f2 idx rfl).1 q hq)
    have dC : DefP {idx} s C := fun a ha => ⟨f1 a ha, fun i h => by cases h; exact hd a ha⟩
    obtain ⟨-, -, g3⟩ := leavesEqB_good dA dC hr
    rw [ok_bind, g3 idx rfl, ← allLeaves_elem h]
    exact ⟨fun v hv => by rw [Arr.bool_get hsh hi]; exact Except.ok.inj hv, fun e he => by cases he⟩

/-! ### returning -/

theorem uniform_sh {s : List ℕ} {P : Pos BArr} (h : Uniform s P) : AllSh s P ∧ FocalSh s P := by
  refine ⟨fun a ha => h.1 a (by rw [coordsOf_eq]; exact ha), ?_⟩
  cases P <;> first | trivial | skip
  exact (h.2 _ _ _ _ rfl).symm

theorem uniform_fits {s t : List ℕ} {P : Pos BArr} (h : Uniform s P) (ht : BroadcastsTo s t) : Fits t P := by
  intro a ha
  rw [compsOf_eq, Pos.arrays_eq, mem_append] at ha
  rcases ha with ha | ha
  · rw [h.1 a (by rw [coordsOf_eq]; exact ha)]; exact ht
  · cases P <;> first | (cases ha; done) | skip
    obtain rfl : a = _ := by simpa [Pos.focalArr] using ha
    rcases h.2 _ _ _ _ rfl with e | e
    · rw [e]; exact broadcastsTo_nil t
    · rw [e]; exact ht

/-- **C58 (sum and difference return).** If all coordinates on the left have one shape and all those on the
right have one shape, these combine by the rule of `jax.lax` (one of them is `()`, or equal ranks), and the
scalar operation returns at every index, then the operation on the batches returns. Shapes without empty
axes. -/
theorem C58_add_sub_returns_uniform (A B : Pos BArr) (sa sb s : List ℕ) (hA : Uniform sa A) (hB : Uniform sb B)
    (hd : A.kind.dim = B.kind.dim) (hl : LaxFit sa sb) (hs : IsBroadcast [sa, sb] s) (h0 : 0 ∉ s) :
    ((∀ idx, InB s idx → ∃ a b q, posAt idx A = some a ∧ posAt idx B = some b ∧ addPos a b = .ok q) →
      ∃ Q, addPosB A B = .ok Q) ∧
    ((∀ idx, InB s idx → ∃ a b q, posAt idx A = some a ∧ posAt idx B = some b ∧ subPos a b = .ok q) →
      ∃ Q, subPosB A B = .ok Q) := by
  have fA : Fits s A := uniform_fits hA (hs.1 _ (by simp))
  have fB : Fits s B := uniform_fits hB (hs.1 _ (by simp))
  have sh : CartLax A B := BinShapes.cartLax (s := sa) (t := sb) ⟨(uniform_sh hA).1, (uniform_sh hA).2, (uniform_sh hB).1,
    (uniform_sh hB).2, hd, laxShape_total hl⟩
  have key : ∀ (g : BArr → BArr → Res BArr) (f : ℝ → ℝ → ℝ), IsLax g f →
      (∀ idx, InB s idx → ∃ a b q, posAt idx A = some a ∧ posAt idx B = some b ∧ binPos f a b = .ok q) →
      ∃ Q, binPosB g A B = .ok Q := fun g f hg h => by
    have dA := defP_full fA fun i hi => by obtain ⟨a, b, q, h1, h2, h3⟩ := h i hi; exact ⟨a, h1⟩
    have dB := defP_full fB fun i hi => by obtain ⟨a, b, q, h1, h2, h3⟩ := h i hi; exact ⟨b, h2⟩
    refine (binPosB_sim hg (fun i h => h) dA dB).total sh ⟨rfl, h0⟩ fun i hi => ?_
    obtain ⟨a, b, q, h1, h2, h3⟩ := h i hi
    obtain ⟨rfl, -⟩ := defP_at fA hi h1
    obtain ⟨rfl, -⟩ := defP_at fB hi h2
    exact ⟨q, h3⟩
  exact ⟨key _ _ isLax_add, key _ _ isLax_sub⟩

/-- **C58 (negation returns).** No condition on the shapes of the components. -/
theorem C58_neg_returns (P : Pos BArr) (s : List ℕ) (hP : Fits s P) (h0 : 0 ∉ s)
    (h : Everywhere s P fun _ p => ∃ q, negPos p = .ok q) : ∃ Q, negPosB P = .ok Q := by
  have dP := defP_full hP fun i hi => by obtain ⟨p, h1, -⟩ := h i hi; exact ⟨p, h1⟩
  refine (negPosB_sim (T := True) (fun i h => h) dP).total trivial ⟨rfl, h0⟩ fun i hi => ?_
  obtain ⟨p, h1, h2⟩ := h i hi
  obtain ⟨rfl, -⟩ := defP_at hP hi h1
  exact h2

/-- **C58 (scaling returns)** for a scalar factor (shape `()`); other shapes: `C58_scale_array_raises`. -/
theorem C58_scale_returns (W : BArr) (P : Pos BArr) (s : List ℕ) (w : ℝ) (hW : W.shape = [])
    (hw : W.get [] = some w) (hP : Fits s P) (h0 : 0 ∉ s)
    (h : Everywhere s P fun _ p => ∃ q, scalePos w p = .ok q) :
    (∃ Q, scalePosB W P = .ok Q) ∧ ∃ Q, scalePosRightB P W = .ok Q := by
  have fW : BroadcastsTo W.shape s := by rw [hW]; exact broadcastsTo_nil s
  have hat : ∀ idx, InB s idx → at_ idx W = some w := fun idx hi => by
    unfold at_
    have : bcSource W.shape idx = [] := by
      rw [hW]; simp [bcSource]
    rw [this]; exact hw
  have dP := defP_full hP fun i hi => by obtain ⟨p, h1, -⟩ := h i hi; exact ⟨p, h1⟩
  have dW := defA_full fW fun i hi => ⟨w, hat i hi⟩
  have key : ∃ Q, scalePosB W P = .ok Q := by
    refine (scalePosB_sim (T := True) (fun i h => h) (by simp [hW]) dW dP).total trivial ⟨rfl, h0⟩ fun i hi => ?_
    obtain ⟨p, h1, h2⟩ := h i hi
    obtain ⟨rfl, -⟩ := defP_at hP hi h1
    obtain ⟨rfl, -⟩ := defA_at fW hi (hat i hi)
    exact h2
  exact ⟨key, key⟩

/-- **C58 (division returns)**; the divisor may be an array of any shape that fits. -/
theorem C58_divide_returns (W : BArr) (P : Pos BArr) (s : List ℕ) (hW : BroadcastsTo W.shape s) (hP : Fits s P)
    (h0 : 0 ∉ s) (h : Everywhere s P fun idx p => ∃ w q, at_ idx W = some w ∧ divPos p w = .ok q) :
    ∃ Q, divPosB P W = .ok Q := by
  have dP := defP_full hP fun i hi => by obtain ⟨p, h1, -⟩ := h i hi; exact ⟨p, h1⟩
  have dW := defA_full hW fun i hi => by obtain ⟨p, h1, w, q, h2, -⟩ := h i hi; exact ⟨w, h2⟩
  refine (divPosB_sim (T := True) (fun i h => h) dW dP).total trivial ⟨rfl, h0⟩ fun i hi => ?_
  obtain ⟨p, h1, w, q, h2, h3⟩ := h i hi
  obtain ⟨rfl, -⟩ := defP_at hP hi h1
  obtain ⟨rfl, -⟩ := defA_at hW hi h2
  exact ⟨q, h3⟩

/-- **C58 (norm returns).** -/
theorem C58_norm_returns (P : Pos BArr) (s : List ℕ) (hP : Fits s P) (h0 : 0 ∉ s)
    (h : Everywhere s P fun _ p => ∃ d, norm p = .ok d) : ∃ N, normB P = .ok N := by
  have dP := defP_full hP fun i hi => by obtain ⟨p, h1, -⟩ := h i hi; exact ⟨p, h1⟩
  refine (normB_sim (fun i h => h) dP).total ⟨rfl, h0⟩ fun i hi => ?_
  obtain ⟨p, h1, h2⟩ := h i hi
  obtain ⟨rfl, -⟩ := defP_at hP hi h1
  exact h2

/-- **C58 (equality returns)** for batches of one dimension, not prolate spheroidal on the left, each with one
shape for all its coordinates, the two shapes having a common broadcast (numpy's rule, unlike `+`), and the
scalar comparison returning at every index. -/
theorem C58_eq_returns_uniform (A B : Pos BArr) (sa sb s : List ℕ) (hA : Uniform sa A) (hB : Uniform sb B)
    (hd : A.kind.dim = B.kind.dim) (hp : A.kind ≠ .prolate) (hs : IsBroadcast [sa, sb] s) (h0 : 0 ∉ s)
    (h : ∀ idx, InB s idx → ∃ a b v, posAt idx A = some a ∧ posAt idx B = some b ∧ eqPos a b = .ok v) :
    ∃ c, eqPosB A B = .ok c ∧ c.shape = s := by
  have fA : Fits s A := uniform_fits hA (hs.1 _ (by simp))
  have fB : Fits s B := uniform_fits hB (hs.1 _ (by simp))
  have dA := defP_full fA fun i hi => by obtain ⟨a, b, q, h1, h2, h3⟩ := h i hi; exact ⟨a, h1⟩
  have dB := defP_full fB fun i hi => by obtain ⟨a, b, q, h1, h2, h3⟩ := h i hi; exact ⟨b, h2⟩
  have hF : Full {i | InB s i} s := ⟨rfl, h0⟩
  have hv : ∀ i, InB s i → ∃ q v, representAs {} (B.elemD i) A.kind = .ok q ∧ eqSame (A.elemD i) q = .ok v := by
    intro i hi
    obtain ⟨a, b, v, h1, h2, h3⟩ := h i hi
    obtain ⟨rfl, -⟩ := defP_at fA hi h1
    obtain ⟨rfl, -⟩ := defP_at fB hi h2
    unfold eqPos at h3
    rw [elemD_kind] at h3
    obtain ⟨q, h4, h5⟩ := (bind_ok_iff _ _ _).mp h3
    exact ⟨q, v, h4, h5⟩
  have hsim := rep_sim (fun i h => h) dB A.kind
  obtain ⟨C, hC⟩ := hsim.total (by
    cases A <;> cases B <;> first | trivial | exact absurd rfl hp | (cases hd; done)) hF fun i hi => by
    obtain ⟨q, v, h1, -⟩ := hv i hi; exact ⟨q, h1⟩
  have kC : C.kind = A.kind := representB_kind _ _ _ _ _ hC
  have hr0 : B.kind.leavesRank0 A.kind = false := by
    rcases hb : B.kind.leavesRank0 A.kind with _ | _
    · rfl
    · exact absurd (leavesRank0_dim hb) (by omega)
  have shC : AllSh sb C := representB_shape pyDepth {} B A.kind (fun a ha => by simp [Kw.arrays] at ha)
    (uniform_sh hB).1 (uniform_sh hB).2 hr0 hp C hC
  have hAc : ∀ a ∈ A.arrays, a.shape = sa := by
    intro a ha
    refine hA.1 a ?_
    rw [coordsOf_eq]
    cases A <;> first | exact absurd rfl hp | exact ha
  have hCc : ∀ a ∈ C.arrays, a.shape = sb := by
    intro a ha
    refine shC a ?_
    cases C <;> first | exact absurd kC.symm hp | exact ha
  have hb2 : bc2 sa sb = .ok s := bc2_iff.mpr hs
  obtain ⟨i, hi⟩ := hF.nonempty
  obtain ⟨q, v, h1, h2⟩ := hv i hi
  obtain ⟨rfl, -⟩ := Pos.elem_some (((hsim.ok C hC).2 i hi).1 q h1)
  obtain ⟨r, hr, hr1, hr2⟩ := leavesEqB_total hAc hCc hb2 h2
  obtain ⟨c, hc⟩ := allLeaves_total hr1 hr2
  refine ⟨c, by unfold eqPosB; rw [hC, ok_bind, hr, ok_bind, hc], ?_⟩
  obtain ⟨k1, k2, -⟩ := allLeaves_inv hc
  obtain ⟨d, hd'⟩ := exists_mem_of_ne_nil _ k2
  rw [← k1 d hd', hr2 d hd']

/-! ### raising -/

/-- **C58 (shapes of a sum).** A sum or difference of two batches of one dimension, each with one shape for all
its coordinates, that returns, had shapes that combine by the rule of `jax.lax`. In particular a batch of shape
`(3,)` cannot be added to one of shape `(2, 3)`, although numpy would broadcast them. -/
theorem C58_add_sub_shapes (A B Q : Pos BArr) (sa sb : List ℕ) (hA : Uniform sa A) (hB : Uniform sb B)
    (hd : A.kind.dim = B.kind.dim) (h : addPosB A B = .ok Q ∨ subPosB A B = .ok Q) : LaxFit sa sb := by
  have m2 : ∀ {g : BArr → BArr → Res BArr} {f : ℝ → ℝ → ℝ}, IsLax g f → ∀ {A B Q : Pos BArr},
      (∀ a ∈ A.arrays, a.shape = sa) → (∀ b ∈ B.arrays, b.shape = sb) → mapCart2B g A B = .ok Q → LaxFit sa sb := by
    intro g f hg A B Q hA hB h
    have one : ∀ {X Y Z : BArr}, X.shape = sa → Y.shape = sb → g X Y = .ok Z → LaxFit sa sb := fun hX hY hZ => by
      rw [hg] at hZ
      have := laxMap2_shape hZ
      rw [hX, hY] at this
      exact ((laxShape_ok_iff _ _ _).mp this).1
    cases A <;> cases B <;> simp only [mapCart2B, bind_ok_iff, reduceCtorEq] at h <;>
      obtain ⟨c, h1, -⟩ := h <;> exact one (hA _ (by simp [Pos.arrays])) (hB _ (by simp [Pos.arrays])) h1
  have bc : ∀ {g : BArr → BArr → Res BArr} {f : ℝ → ℝ → ℝ}, IsLax g f → ∀ {A B Q : Pos BArr},
      (∀ a ∈ A.arrays, a.shape = sa) → AllSh sb B → FocalSh sb B → A.kind.isCart = true →
      A.kind.dim = B.kind.dim → binCartB g A B = .ok Q → LaxFit sa sb := by
    intro g f hg A B Q hA hB hF hk hd h
    unfold binCartB at h
    obtain ⟨B', h1, h2⟩ := (bind_ok_iff _ _ _).mp h
    have hc : A.kind.cartesian = A.kind := by cases A <;> first | (cases hk; done) | rfl
    exact m2 hg hA (toCart_shape hB hF hd (by rw [hc]; exact h1)) h2
  have main : ∀ {g : BArr → BArr → Res BArr} {f : ℝ → ℝ → ℝ}, IsLax g f → binPosB g A B = .ok Q → LaxFit sa sb := by
    intro g f hg h
    obtain ⟨a1, a2⟩ := uniform_sh hA
    obtain ⟨b1, b2⟩ := uniform_sh hB
    by_cases hk : A.kind.isCart = true
    · refine bc hg (by rw [cart_arrays hk]; exact a1) b1 b2 hk hd (Q := Q) ?_
      cases A <;> first | (cases hk; done) | exact h
    · have h' : (do
          let a ← representAsB {} A A.kind.cartesian
          let b ← representAsB {} B A.kind.cartesian
          representAsB {} (← binCartB g a b) A.kind) = .ok Q := by
        cases A <;> first | exact absurd rfl hk | exact h
      obtain ⟨A', e1, h'⟩ := (bind_ok_iff _ _ _).mp h'
      obtain ⟨B', e2, h'⟩ := (bind_ok_iff _ _ _).mp h'
      obtain ⟨M, e3, h'⟩ := (bind_ok_iff _ _ _).mp h'
      have kA : A'.kind = A.kind.cartesian := representB_kind _ _ _ _ _ e1
      have kB : B'.kind = A.kind.cartesian := representB_kind _ _ _ _ _ e2
      have cA : A'.kind.isCart = true := by rw [kA]; exact isCart_cartesian _
      have cB : B'.kind.isCart = true := by rw [kB]; exact isCart_cartesian _
      have sB := toCart_shape b1 b2 hd e2
      rw [cart_arrays cB] at sB
      exact bc hg (toCart_shape a1 a2 rfl e1) sB (focalSh_of_kind (by
        rw [kB]; cases A.kind <;> decide)) cA (by rw [kA, kB]) e3
  rcases h with h | h
  · exact main isLax_add h
  · exact main isLax_sub h

/-- **C58 (array factors).** `s * p` and `p * s` raise for every factor with an axis of length other than zero,
also where its shape is that of the batch: the code checks `any(jax.numpy.shape(lhs))`. -/
theorem C58_scale_array_raises (W : BArr) (P : Pos BArr) (n : ℕ) (hn : n ∈ W.shape) (h0 : n ≠ 0) :
    scalePosB W P = .error .check ∧ scalePosRightB P W = .error .check := by
  have : ¬ W.shape.all (· = 0) = true := fun h => h0 (by simpa using (all_eq_true.mp h) n hn)
  unfold scalePosRightB scalePosB
  rw [if_neg this]; exact ⟨rfl, rfl⟩

/-- **C58 (prolate spheroidal batches cannot be compared).** If `Delta` is a single number on both sides, as
usual, `p == q` raises for every batch: `jnp.array` of the leaves fails, because the leaf of `Delta` has
another shape. -/
theorem C58_prolate_eq_raises (mu nu phi delta mu' nu' phi' delta' : BArr) (h : mu.shape ≠ [])
    (hd : delta.shape = []) (hd' : delta'.shape = []) :
    ∃ e, eqPosB (.prolate mu nu phi delta) (.prolate mu' nu' phi' delta') = .error e := by
  rcases hr : eqPosB (.prolate mu nu phi delta) (.prolate mu' nu' phi' delta') with e | c
  · exact ⟨e, rfl⟩
  exfalso
  unfold eqPosB at hr
  obtain ⟨C, hC, hr⟩ := (bind_ok_iff _ _ _).mp hr
  obtain ⟨r, h1, h2⟩ := (bind_ok_iff _ _ _).mp hr
  obtain ⟨m, n, p, d, rfl, hq⟩ := representB_delta _ _ _ _ hC
  rcases hq with hq | ⟨-, hq⟩
  · cases hq
  obtain ⟨rfl, rfl, rfl, rfl⟩ := Pos.prolate.inj hq
  simp only [leavesEqB, bind_ok_iff] at h1
  obtain ⟨c1, g1, c2, g2, c3, g3, c4, g4, h1⟩ := h1
  obtain rfl := Except.ok.inj h1
  obtain ⟨k1, -, -⟩ := allLeaves_inv h2
  have s1 := map2_bc (show Arr.map2 (elCmp Num.beq) mu m = .ok c1 from g1)
  have s4 := map2_bc (show Arr.map2 (elCmp Num.beq) delta d = .ok c4 from g4)
  rw [hd, hd', bc2_nil_left] at s4
  have s4 := Except.ok.inj s4
  rw [k1 c1 (by simp), ← k1 c4 (by simp), ← s4] at s1
  have := ((bc2_iff).mp s1).1 mu.shape (by simp)
  have hl := broadcastsTo_length this
  exact h (length_eq_zero_iff.mp (by simpa using hl))

/-! ### points -/

/-- **C58 (with C15).** Whenever the sum or difference of two batches returns, then at every index where the
elements are valid and the result is representable in the class of the left operand (as in C15: any result for
a Cartesian left operand; else not the origin, and not negative for RadialPos), the element of the result is the
vector sum or difference of the points. -/
theorem C58_add_sub_points (A B Q : Pos BArr) (s idx : List ℕ) (hA : Fits s A) (hB : Fits s B)
    (hi : InB s idx) (a b : Pos ℝ) (ha : posAt idx A = some a) (hb : posAt idx B = some b) (va : Valid a)
    (vb : Valid b) (hd : a.kind.dim = b.kind.dim) (hsa : a.kind ≠ .twoSphere) (hsb : b.kind ≠ .twoSphere)
    (hp : a.kind ≠ .prolate) :
    ((a.kind.isCart = true ∨ (point a).add (point b) ≠ V3.zero) →
      (a.kind = .radial → 0 ≤ (point a).x + (point b).x) → addPosB A B = .ok Q →
      ∃ q, posAt idx Q = some q ∧ q.kind = A.kind ∧ Valid q ∧ point q = (point a).add (point b)) ∧
    ((a.kind.isCart = true ∨ (point a).sub (point b) ≠ V3.zero) →
      (a.kind = .radial → 0 ≤ (point a).x - (point b).x) → subPosB A B = .ok Q →
      ∃ q, posAt idx Q = some q ∧ q.kind = A.kind ∧ Valid q ∧ point q = (point a).sub (point b)) := by
  have hk : a.kind = A.kind := by obtain ⟨rfl, -⟩ := defP_at hA hi ha; exact elemD_kind _ _
  obtain ⟨r1, r2⟩ := Props.C15_add_sub_return a b va vb hd hsa hsb hp
  obtain ⟨e1, e2⟩ := C58_add_sub_elementwise A B Q s idx hA hB hi a b ha hb
  rw [← hk]
  constructor
  · intro h1 h2 hQ
    obtain ⟨q, hq⟩ := r1 h1 h2
    exact ⟨q, (e1 hQ).2.1 q hq, (Props.C15_add_sub a b q va vb hd).1 hq⟩
  · intro h1 h2 hQ
    obtain ⟨q, hq⟩ := r2 h1 h2
    exact ⟨q, (e2 hQ).2.1 q hq, (Props.C15_add_sub a b q va vb hd).2 hq⟩

/-- **C58 (with C14).** The norm of a batch of valid positions holds at every index the Euclidean length of the
point there. -/
theorem C58_norm_points (P : Pos BArr) (s : List ℕ) (hP : Fits s P) (h0 : 0 ∉ s) (hs : P.kind ≠ .twoSphere)
    (h : Everywhere s P fun _ p => Valid p) : ∃ N, normB P = .ok N ∧
      ∀ idx, InB s idx → ∃ p d, posAt idx P = some p ∧ distAt idx N = some d ∧ distOf d = V3.norm (point p) := by
  have hk : ∀ idx, InB s idx → ∀ p, posAt idx P = some p → p.kind ≠ .twoSphere := fun idx hi p hp => by
    obtain ⟨rfl, -⟩ := defP_at hP hi hp; rw [elemD_kind]; exact hs
  obtain ⟨N, hN⟩ := C58_norm_returns P s hP h0 fun idx hi => by
    obtain ⟨p, h1, h2⟩ := h idx hi
    obtain ⟨d, h3, -⟩ := Props.C14_norm_is_euclidean p h2 (hk idx hi p h1)
    exact ⟨p, h1, d, h3⟩
  refine ⟨N, hN, fun idx hi => ?_⟩
  obtain ⟨p, h1, h2⟩ := h idx hi
  obtain ⟨d, h3, h4⟩ := Props.C14_norm_is_euclidean p h2 (hk idx hi p h1)
  exact ⟨p, d, h1, (C58_norm_elementwise P N s idx hP hi p h1 hN).2.1 d h3, h4⟩

/-! ### products -/

theorem cartComponents_point {c : Pos ℝ} (h : c.kind.isCart = true) :
    c.cartComponents = .ok (firstCoords c.kind.dim (point c)) := by
  cases c <;> first | (cases h; done) | rfl

theorem toQuantity_point {p : Pos ℝ} (hv : Valid p) (hs : p.kind ≠ .twoSphere) :
    toQuantity p = .ok (firstCoords p.kind.dim (point p)) := by
  obtain ⟨c, hc, g⟩ := toCart_total p hv hs
  unfold toQuantity toCartesian
  rw [hc, ok_bind, cartComponents_point (by rw [g.kind]; exact isCart_cartesian _), g.kind, g.point, dim_cartesian]

theorem firstCoords_length {n : ℕ} (h : n ≤ 3) (v : V3) : (firstCoords n v).length = n := by
  simp [firstCoords, h]

theorem dim_le (k : Kind) : k.dim ≤ 3 := by cases k <;> decide

/-- **C58 (product, one element).** `p * q` of two valid positions of one dimension, of whatever classes, is the
array of the products of their Cartesian coordinates; summed, it is the Euclidean inner product. -/
theorem C58_product_scalar (p q : Pos ℝ) (hp : Valid p) (hq : Valid q) (hsp : p.kind ≠ .twoSphere)
    (hsq : q.kind ≠ .twoSphere) (hd : p.kind.dim = q.kind.dim) : ∃ l, mulPosPos p q = .ok l ∧
      l = zipWith (· * ·) (firstCoords p.kind.dim (point p)) (firstCoords p.kind.dim (point q)) ∧
      l.sum = (point p).x * (point q).x + (point p).y * (point q).y + (point p).z * (point q).z := by
  refine ⟨_, ?_, rfl, ?_⟩
  · unfold mulPosPos
    rw [toQuantity_point hp hsp, ok_bind, toQuantity_point hq hsq, ok_bind]
    unfold mulRank1
    rw [if_pos, hd]
    rw [firstCoords_length (dim_le _), firstCoords_length (dim_le _), hd]
  · have flat : ∀ p : Pos ℝ, p.kind ≠ .twoSphere → (p.kind.dim ≤ 2 → (point p).z = 0) ∧ (p.kind.dim = 1 → (point p).y = 0) := by
      intro p hs
      cases p <;> first | exact absurd rfl hs | simp [Pos.kind, Kind.dim, point]
    have f1 := flat p hsp
    have hdp : p.kind.dim = 1 ∨ p.kind.dim = 2 ∨ p.kind.dim = 3 := by cases p.kind <;> decide
    rcases hdp with e | e | e <;> rw [e] at f1 ⊢ <;> simp [firstCoords] at f1 ⊢
    · simp [f1]
    · simp [f1]
    · ring

/-- **C58 (product, other dimensions).** A 1-D position times one of another dimension multiplies every Cartesian
coordinate of it (the axis of length 1 broadcasts); a 2-D position times a 3-D one raises. -/
theorem C58_product_dimensions (p q : Pos ℝ) (hp : Valid p) (hq : Valid q) (hsp : p.kind ≠ .twoSphere)
    (hsq : q.kind ≠ .twoSphere) (hd : p.kind.dim ≠ q.kind.dim) :
    (p.kind.dim = 1 → mulPosPos p q = .ok ((firstCoords q.kind.dim (point q)).map fun y => (point p).x * y)) ∧
    (q.kind.dim = 1 → mulPosPos p q = .ok ((firstCoords p.kind.dim (point p)).map fun x => x * (point q).x)) ∧
    (p.kind.dim ≠ 1 → q.kind.dim ≠ 1 → mulPosPos p q = .error .mismatch) := by
  have hdp : p.kind.dim = 1 ∨ p.kind.dim = 2 ∨ p.kind.dim = 3 := by cases p.kind <;> decide
  have hdq : q.kind.dim = 1 ∨ q.kind.dim = 2 ∨ q.kind.dim = 3 := by cases q.kind <;> decide
  unfold mulPosPos
  rw [toQuantity_point hp hsp, ok_bind, toQuantity_point hq hsq, ok_bind]
  rcases hdp with e | e | e <;> rcases hdq with f | f | f <;> rw [e, f] at hd ⊢ <;>
    first
    | exact absurd rfl hd
    | exact ⟨fun _ => rfl, (fun h => by cases h), fun h => absurd rfl h⟩
    | exact ⟨(fun h => by cases h), fun _ => rfl, fun _ h => absurd rfl h⟩
    | exact ⟨(fun h => by cases h), (fun h => by cases h), fun _ _ => rfl⟩

example : mulPosPos (.cart1 2 : Pos ℝ) (.cart3 3 4 5) = .ok [2 * 3, 2 * 4, 2 * 5] :=
  (C58_product_dimensions (.cart1 2) (.cart3 3 4 5) trivial trivial nofun nofun nofun).1 rfl

/-- the arrays of the Cartesian form -/
theorem cartArrays_at {P C : Pos BArr} {s idx : List ℕ} (hP : Fits s P) (hi : InB s idx) {p : Pos ℝ}
    (hp : posAt idx P = some p) (hv : Valid p) (hs : p.kind ≠ .twoSphere) (hC : toCartesianB P = .ok C) :
    ∃ l, C.cartArrays = .ok l ∧ (∀ a ∈ l, BroadcastsTo a.shape s) ∧ l.length = p.kind.dim ∧
      ∀ (k : ℕ) (a : BArr), l[k]? = some a → ∃ x, (firstCoords p.kind.dim (point p))[k]? = some x ∧ a.elem idx = some x := by
  obtain ⟨rfl, dP⟩ := defP_at hP hi hp
  obtain ⟨c, hc, g⟩ := toCart_total _ hv hs
  rw [elemD_kind] at hc
  obtain ⟨f1, f2⟩ := (rep_sim_cart (T := True) (at_single hi) dP (isCart_cartesian P.kind)).ok C hC
  obtain ⟨rfl, hdef⟩ := Pos.elem_some ((f2 idx rfl).1 c hc)
  have kC : C.kind.isCart = true := by
    rw [representB_kind _ _ _ _ _ hC]; exact isCart_cartesian _
  have hdim : C.kind.dim = (P.elemD idx).kind.dim := by
    rw [← elemD_kind C idx, g.kind, dim_cartesian]
  rw [← g.point, ← hdim]
  cases C <;> first | (cases kC; done) | skip
  all_goals
    simp only [FitsP, Pos.arrays] at f1 hdef
    refine ⟨_, rfl, f1, rfl, fun k a hk => ?_⟩
  · match k, hk with
    | 0, hk => cases hk; exact ⟨_, rfl, hdef _ (by simp)⟩
  · match k, hk with
    | 0, hk => cases hk; exact ⟨_, rfl, hdef _ (by simp)⟩
    | 1, hk => cases hk; exact ⟨_, rfl, hdef _ (by simp)⟩
  · match k, hk with
    | 0, hk => cases hk; exact ⟨_, rfl, hdef _ (by simp)⟩
    | 1, hk => cases hk; exact ⟨_, rfl, hdef _ (by simp)⟩
    | 2, hk => cases hk; exact ⟨_, rfl, hdef _ (by simp)⟩

/-- **C58 (product).** Whenever the product of two batches returns, the element at `(*idx, k)` is the product of
the `k`-th Cartesian coordinates of the two points at `idx`. -/
theorem C58_product_elementwise (A B : Pos BArr) (Z : BArr) (s idx : List ℕ) (hA : Fits s A) (hB : Fits s B)
    (hi : InB s idx) (a b : Pos ℝ) (ha : posAt idx A = some a) (hb : posAt idx B = some b) (va : Valid a)
    (vb : Valid b) (hsa : a.kind ≠ .twoSphere) (hsb : b.kind ≠ .twoSphere) (hd : a.kind.dim = b.kind.dim)
    (h : mulPosPosB A B = .ok Z) : BroadcastsTo Z.shape (s ++ [a.kind.dim]) ∧ ∀ k (x y : ℝ),
      (firstCoords a.kind.dim (point a))[k]? = some x → (firstCoords a.kind.dim (point b))[k]? = some y →
      at_ (idx ++ [k]) Z = some (x * y) := by
  unfold mulPosPosB toQuantityB at h
  obtain ⟨QA, h1, h⟩ := (bind_ok_iff _ _ _).mp h
  obtain ⟨QB, h2, h⟩ := (bind_ok_iff _ _ _).mp h
  obtain ⟨CA, g1, h1⟩ := (bind_ok_iff _ _ _).mp h1
  obtain ⟨l, g2, h1⟩ := (bind_ok_iff _ _ _).mp h1
  obtain ⟨u, g3, h1⟩ := (bind_ok_iff _ _ _).mp h1
  obtain rfl := Except.ok.inj h1
  obtain ⟨CB, e1, h2⟩ := (bind_ok_iff _ _ _).mp h2
  obtain ⟨m, e2, h2⟩ := (bind_ok_iff _ _ _).mp h2
  obtain ⟨w, e3, h2⟩ := (bind_ok_iff _ _ _).mp h2
  obtain rfl := Except.ok.inj h2
  obtain ⟨l', g4, g5, g6, g7⟩ := cartArrays_at hA hi ha va hsa g1
  obtain rfl := Except.ok.inj (g2.symm.trans g4)
  obtain ⟨m', e4, e5, e6, e7⟩ := cartArrays_at hB hi hb vb hsb e1
  obtain rfl := Except.ok.inj (e2.symm.trans e4)
  have bl := (broadcastShapes_iff _ _).mp g3
  have bm := (broadcastShapes_iff _ _).mp e3
  have fu : BroadcastsTo u s := bl.2 s (by simpa using g5)
  have fw : BroadcastsTo w s := bm.2 s (by simpa using e5)
  obtain ⟨v, k1, k2, k3⟩ := mulStack (fun a ha => bl.1 _ (mem_map.mpr ⟨a, ha, rfl⟩))
    (fun a ha => bm.1 _ (mem_map.mpr ⟨a, ha, rfl⟩)) (by rw [g6, e6, hd]) h
  have fv : BroadcastsTo v s := (bc2_iff.mp k1).2 s (by simp [fu, fw])
  have fZ : BroadcastsTo Z.shape (s ++ [a.kind.dim]) := by
    rw [k2, g6]; exact broadcastsTo_snoc.mpr ⟨.inr rfl, fv⟩
  refine ⟨fZ, fun k x y hx hy => ?_⟩
  have hk : k < a.kind.dim := by
    have := (List.getElem?_eq_some_iff.mp hx).1
    rwa [firstCoords_length (dim_le _)] at this
  obtain ⟨A', hA'⟩ : ∃ A', l[k]? = some A' := ⟨_, getElem?_eq_getElem (by rw [g6]; exact hk)⟩
  obtain ⟨B', hB'⟩ : ∃ B', m[k]? = some B' := ⟨_, getElem?_eq_getElem (by rw [e6, ← hd]; exact hk)⟩
  obtain ⟨x', p1, p2⟩ := g7 k A' hA'
  obtain ⟨y', q1, q2⟩ := e7 k B' hB'
  rw [← hd] at q1
  obtain rfl := Option.some.inj (p1.symm.trans hx)
  obtain rfl := Option.some.inj (q1.symm.trans hy)
  rw [at_eq fZ (inB_snoc.mpr ⟨hi, hk⟩), k3 s idx fv hi k A' B' hA' hB', p2, q2]
  rfl

/-- the stacked Cartesian components of a batch with one shape -/
theorem toQuantityB_shape {P : Pos BArr} {q : BArr} {s : List ℕ} (hP : Uniform s P) (h : toQuantityB P = .ok q) :
    q.shape = s ++ [P.kind.dim] := by
  unfold toQuantityB at h
  obtain ⟨C, h1, h⟩ := (bind_ok_iff _ _ _).mp h
  obtain ⟨l, h2, h⟩ := (bind_ok_iff _ _ _).mp h
  obtain ⟨u, h3, h⟩ := (bind_ok_iff _ _ _).mp h
  obtain rfl := Except.ok.inj h
  have kC : C.kind = P.kind.cartesian := representB_kind _ _ _ _ _ h1
  have hs := toCart_shape (uniform_sh hP).1 (uniform_sh hP).2 rfl h1
  have hl : l = C.arrays ∧ l.length = C.kind.dim ∧ l ≠ [] := by
    cases C <;> simp only [Pos.cartArrays, reduceCtorEq] at h2 <;> obtain rfl := Except.ok.inj h2 <;>
      exact ⟨rfl, rfl, by simp⟩
  have hu : u = s := by
    have := broadcast_const (l := l.map fun a => a.shape) (s := s) (by simpa using hl.2.2) (by
      intro t ht
      obtain ⟨a, ha, rfl⟩ := mem_map.mp ht
      exact hs a (hl.1 ▸ ha))
    exact Except.ok.inj (h3.symm.trans this)
  simp [stackB, hu, hl.2.1, kC, dim_cartesian]

/-- **C58 (product, shapes).** The product of two batches with one shape each, if it returns, had operands of
equal rank: unlike with `+` and `-`, not even a position of shape `()` can be multiplied with a batch, since
the stacked quantities have ranks 1 and 2. -/
theorem C58_product_shapes (A B : Pos BArr) (Z : BArr) (sa sb : List ℕ) (hA : Uniform sa A) (hB : Uniform sb B)
    (h : mulPosPosB A B = .ok Z) : sa.length = sb.length ∧ ∃ u, IsBroadcast [sa, sb] u := by
  unfold mulPosPosB at h
  obtain ⟨x, h1, h⟩ := (bind_ok_iff _ _ _).mp h
  obtain ⟨y, h2, h⟩ := (bind_ok_iff _ _ _).mp h
  have e := laxMap2_shape h
  have eb := lax_bc2 e
  rw [toQuantityB_shape hA h1, toQuantityB_shape hB h2] at e eb
  rcases ((laxShape_ok_iff _ _ _).mp e).1 with c | c | ⟨c, -⟩
  · simp at c
  · simp at c
  · obtain ⟨_, u, -, h4, -⟩ := bc2_snoc.mp eb
    exact ⟨by simpa using c, u, bc2_iff.mp h4⟩

/-- **C58 (product returns)** for batches of one dimension with one shape each, equal ranks and a common
broadcast, of valid positions. -/
theorem C58_product_returns (A B : Pos BArr) (sa sb s : List ℕ) (hA : Uniform sa A) (hB : Uniform sb B)
    (hl : sa.length = sb.length) (hd : A.kind.dim = B.kind.dim) (hs : IsBroadcast [sa, sb] s) (h0 : 0 ∉ s)
    (hsa : A.kind ≠ .twoSphere) (hsb : B.kind ≠ .twoSphere) (vA : Everywhere s A fun _ a => Valid a)
    (vB : Everywhere s B fun _ b => Valid b) : ∃ Z, mulPosPosB A B = .ok Z := by
  have one : ∀ (P : Pos BArr) (t : List ℕ), Uniform t P → BroadcastsTo t s → P.kind ≠ .twoSphere →
      (Everywhere s P fun _ a => Valid a) → ∃ q, toQuantityB P = .ok q := by
    intro P t hP ht hs hv
    have fP := uniform_fits hP ht
    have dP := defP_full fP fun i hi => by obtain ⟨p, h1, -⟩ := hv i hi; exact ⟨p, h1⟩
    obtain ⟨C, hC⟩ := (rep_sim_cart (T := True) (fun i h => h) dP (isCart_cartesian P.kind)).total trivial ⟨rfl, h0⟩
      fun i hi => by
        obtain ⟨p, h1, h2⟩ := hv i hi
        obtain ⟨rfl, -⟩ := defP_at fP hi h1
        obtain ⟨c, hc, -⟩ := toCart_total _ h2 (by rw [elemD_kind]; exact hs)
        rw [elemD_kind] at hc
        exact ⟨c, hc⟩
    have kC : C.kind.isCart = true := by rw [representB_kind _ _ _ _ _ hC]; exact isCart_cartesian _
    have hs' := toCart_shape (uniform_sh hP).1 (uniform_sh hP).2 rfl hC
    obtain ⟨l, e1, e2, e3⟩ : ∃ l, C.cartArrays = .ok l ∧ l ≠ [] ∧ ∀ a ∈ l, a.shape = t := by
      cases C <;> first | (cases kC; done) | exact ⟨_, rfl, by simp, hs'⟩
    have := broadcast_const (l := l.map fun a => a.shape) (s := t) (by simpa using e2) (by
      intro t ht
      obtain ⟨a, ha, rfl⟩ := mem_map.mp ht
      exact e3 a ha)
    unfold toQuantityB toCartesianB
    rw [hC, ok_bind, e1, ok_bind, this]
    exact ⟨_, rfl⟩
  have ba : BroadcastsTo sa s := hs.1 _ (by simp)
  have bb : BroadcastsTo sb s := hs.1 _ (by simp)
  obtain ⟨x, hx⟩ := one A sa hA ba hsa vA
  obtain ⟨y, hy⟩ := one B sb hB bb hsb vB
  obtain ⟨u, hu⟩ := laxShape_total (s := sa ++ [A.kind.dim]) (t := sb ++ [B.kind.dim]) (.inr (.inr
    ⟨by simp [hl], s ++ [A.kind.dim], broadcastsTo_snoc.mpr ⟨.inr rfl, ba⟩,
      broadcastsTo_snoc.mpr ⟨.inr hd.symm, bb⟩⟩))
  unfold mulPosPosB
  rw [hx, ok_bind, hy, ok_bind]
  exact laxMap2_total _ (by rw [toQuantityB_shape hA hx, toQuantityB_shape hB hy]; exact hu)

/-- **C58 (normalising).** Whenever `normalize_vector` returns for a batch of Cartesian positions, each element of
the result is the unit vector in the direction of the element of the input, if that is not the origin. -/
theorem C58_normalize_elementwise (X Y Z U V W : BArr) (s idx : List ℕ) (hX : BroadcastsTo X.shape s)
    (hY : BroadcastsTo Y.shape s) (hZ : BroadcastsTo Z.shape s) (hi : InB s idx) (x y z : ℝ) (hx : at_ idx X = some x)
    (hy : at_ idx Y = some y) (hz : at_ idx Z = some z) (h0 : (⟨x, y, z⟩ : V3) ≠ V3.zero)
    (h : normalizeCart3B X Y Z = .ok (U, V, W)) : ∃ u v w : ℝ, at_ idx U = some u ∧ at_ idx V = some v ∧
      at_ idx W = some w ∧ V3.norm ⟨u, v, w⟩ = 1 ∧ V3.smul (V3.norm ⟨x, y, z⟩) ⟨u, v, w⟩ = ⟨x, y, z⟩ := by
  obtain ⟨rfl, dX⟩ := defA_at hX hi hx
  obtain ⟨rfl, dY⟩ := defA_at hY hi hy
  obtain ⟨rfl, dZ⟩ := defA_at hZ hi hz
  unfold normalizeCart3B at h
  obtain ⟨N, h1, h⟩ := (bind_ok_iff _ _ _).mp h
  obtain ⟨U', e1, h⟩ := (bind_ok_iff _ _ _).mp h
  obtain ⟨V', e2, h⟩ := (bind_ok_iff _ _ _).mp h
  obtain ⟨W', e3, h⟩ := (bind_ok_iff _ _ _).mp h
  have h := Except.ok.inj h
  simp only [Prod.mk.injEq] at h
  obtain ⟨rfl, rfl, rfl⟩ := h
  have dP : DefP {idx} s (.cart3 X Y Z) := fun a ha => by
    simp only [Pos.arrays, mem_cons, not_mem_nil, or_false] at ha
    rcases ha with rfl | rfl | rfl <;> assumption
  obtain ⟨f1, f2⟩ := (normB_sim (at_single hi) dP).ok N h1
  have hn := Props.norm_default (.cart3 (X.elemD idx) (Y.elemD idx) (Z.elemD idx)) _ rfl rfl
  have g := (f2 idx rfl).1 _ hn
  obtain ⟨n, rfl⟩ : ∃ n, N = .dist n := by
    simp only [normB, bind_ok_iff] at h1
    obtain ⟨_, _, _, _, h1⟩ := h1
    exact ⟨_, (Except.ok.inj h1).symm⟩
  have gn : n.elem idx = some (V3.norm ⟨X.elemD idx, Y.elemD idx, Z.elemD idx⟩) := by
    simp only [Dist.elem, Option.map_eq_some_iff] at g
    obtain ⟨v, g1, g2⟩ := g
    rw [g1, Dist.dist.inj g2]; rfl
  have dn : DefA {idx} s n := ⟨f1, fun i hi => by cases hi; simp [Arr.elemD, gn]⟩
  have en : n.elemD idx = V3.norm ⟨X.elemD idx, Y.elemD idx, Z.elemD idx⟩ := by simp [Arr.elemD, gn]
  have hpos : n.elemD idx ≠ 0 := by
    rw [en]
    intro hh
    apply h0
    unfold V3.norm at hh
    have hs := (Real.sqrt_eq_zero (by positivity)).mp hh
    simp only at hs
    have a1 : X.elemD idx = 0 := by nlinarith [sq_nonneg (X.elemD idx), sq_nonneg (Y.elemD idx), sq_nonneg (Z.elemD idx)]
    have a2 : Y.elemD idx = 0 := by nlinarith [sq_nonneg (X.elemD idx), sq_nonneg (Y.elemD idx), sq_nonneg (Z.elemD idx)]
    have a3 : Z.elemD idx = 0 := by nlinarith [sq_nonneg (X.elemD idx), sq_nonneg (Y.elemD idx), sq_nonneg (Z.elemD idx)]
    simp [V3.zero, a1, a2, a3]
  have one : ∀ {A B : BArr}, DefA {idx} s A → bdiv A n = .ok B → at_ idx B = some (A.elemD idx / n.elemD idx) := by
    intro A B hA hB
    obtain ⟨B', k1, k2⟩ := div_ok dn A hA
    obtain rfl := Except.ok.inj (hB.symm.trans k1)
    rw [at_eq k2.fits hi]
    exact k2.val idx rfl _ (div_real_ok hpos)
  refine ⟨_, _, _, one dX e1, one dY e2, one dZ e3, ?_, ?_⟩
  · have hnn : 0 ≤ n.elemD idx := by rw [en]; exact Real.sqrt_nonneg _
    have hsq : (n.elemD idx) ^ 2 = X.elemD idx ^ 2 + Y.elemD idx ^ 2 + Z.elemD idx ^ 2 := by
      rw [en]; exact Real.sq_sqrt (by positivity)
    have h2 : (n.elemD idx) ^ 2 ≠ 0 := pow_ne_zero 2 hpos
    unfold V3.norm
    simp only [div_pow]
    rw [← add_div, ← add_div, ← hsq, div_self h2, Real.sqrt_one]
  · rw [← en]
    simp only [V3.smul, V3.mk.injEq]
    exact ⟨mul_div_cancel₀ _ hpos, mul_div_cancel₀ _ hpos, mul_div_cancel₀ _ hpos⟩

/-! ### the hypotheses are met -/

/-- two polar positions -/
noncomputable def polarBatch : Pos BArr :=
  .polar (.dist ⟨[2], fun _ => some 3⟩) ⟨[2], fun i => some (if i = [0] then 0 else 1)⟩

/-- one Cartesian position, shape `()` -/
noncomputable def cartScalar : Pos BArr := .cart2 ⟨[], fun _ => some 4⟩ ⟨[], fun _ => some 0⟩

theorem polarBatch_at (idx : List ℕ) : ∃ f : ℝ, posAt idx polarBatch = some (.polar (.dist 3) f) := ⟨_, rfl⟩
theorem cartScalar_at (idx : List ℕ) : posAt idx cartScalar = some (.cart2 4 0) := rfl
theorem polarBatch_uniform : Uniform [2] polarBatch :=
  ⟨by simp [polarBatch, coordsOf, compsOf, Dist.raw], fun _ _ _ _ h => by cases h⟩
theorem cartScalar_uniform : Uniform [] cartScalar :=
  ⟨by simp [cartScalar, coordsOf, compsOf], fun _ _ _ _ h => by cases h⟩
theorem witness_shape : IsBroadcast [[2], []] [2] :=
  ⟨by simp [broadcastsTo_refl, broadcastsTo_nil], fun u h => h [2] (by simp)⟩

/-- `polarBatch + cartScalar` returns, and at index 1 it is the vector sum -/
example : ∃ Q, addPosB polarBatch cartScalar = .ok Q ∧ ∃ q, posAt [1] Q = some q ∧ q.kind = .polar ∧
    point q = (V3.mk (3 * Real.cos 1 + 4) (3 * Real.sin 1) 0) := by
  have hv : ∀ f : ℝ, Valid (.polar (.dist 3) f) := fun f => by norm_num [Valid, DistOk]
  have hc : Valid (.cart2 (4 : ℝ) 0) := trivial
  have hne : ∀ f : ℝ, (point (.polar (.dist 3) f)).add (point (.cart2 4 0)) ≠ V3.zero := fun f h => by
    have := congrArg V3.x h
    simp only [V3.add, point, V3.zero, distOf] at this
    nlinarith [Real.neg_one_le_cos f]
  have hret : ∀ f : ℝ, ∃ q, addPos (.polar (.dist 3) f : Pos ℝ) (.cart2 4 0) = .ok q := fun f =>
    (Props.C15_add_sub_return _ _ (hv f) hc rfl nofun nofun nofun).1 (.inr (hne f))
      (by intro h; cases h)
  obtain ⟨Q, hQ⟩ := (C58_add_sub_returns_uniform polarBatch cartScalar [2] [] [2] polarBatch_uniform cartScalar_uniform rfl
    (.inr (.inl rfl)) witness_shape (by simp)).1 fun idx _ => by
      obtain ⟨f, hf⟩ := polarBatch_at idx
      obtain ⟨q, hq⟩ := hret f
      exact ⟨_, _, q, hf, cartScalar_at idx, hq⟩
  have hi : InB [2] [1] := .cons (by norm_num) .nil
  have e1 : posAt [1] polarBatch = some (.polar (.dist 3) 1) := by
    simp [posAt, polarBatch, distAt, at_, bcSource]
  obtain ⟨q, h1, h2, -, h3⟩ := (C58_add_sub_points polarBatch cartScalar Q [2] [1]
    (uniform_fits polarBatch_uniform (broadcastsTo_refl _)) (uniform_fits cartScalar_uniform (broadcastsTo_nil _)) hi
    _ _ e1 (cartScalar_at [1]) (hv 1) hc rfl nofun nofun nofun).1 (.inr (hne 1))
    (by intro h; cases h) hQ
  exact ⟨Q, hQ, q, h1, h2, h3.trans (by simp [V3.add, point, distOf])⟩

/-- the comparison of the two returns an array of shape `(2,)` -/
example : ∃ c, eqPosB polarBatch cartScalar = .ok c ∧ c.shape = [2] := by
  refine C58_eq_returns_uniform polarBatch cartScalar [2] [] [2] polarBatch_uniform cartScalar_uniform rfl nofun
    witness_shape (by simp) fun idx _ => ?_
  obtain ⟨f, hf⟩ := polarBatch_at idx
  have hr : ∃ r g, representAs {} (.cart2 (4 : ℝ) 0) .polar = .ok (.polar (.dist r) g) := by
    have : ∃ r g, represent (199 + 1) {} (.cart2 (4 : ℝ) 0) .polar = .ok (.polar (.dist r) g) := by
      rw [represent]; exact ⟨_, _, cart2ToPolar_eq 4 0⟩
    exact this
  obtain ⟨r, g, hr⟩ := hr
  refine ⟨_, _, (Num.beq 3 r && Num.beq f g), hf, cartScalar_at idx, ?_⟩
  · unfold eqPos
    rw [show (Pos.polar (Dist.dist (3 : ℝ)) f).kind = .polar from rfl, hr]; rfl

/-- minus, factor, divisor (an array) and norm: all return for the batch of polar positions -/
example : (∃ Q, negPosB polarBatch = .ok Q) ∧ (∃ Q, scalePosB ⟨[], fun _ => some 2⟩ polarBatch = .ok Q) ∧
    (∃ Q, divPosB polarBatch ⟨[2], fun i => some (if i = [0] then 1 else 2)⟩ = .ok Q) ∧
    ∃ N, normB polarBatch = .ok N := by
  have fit : Fits [2] polarBatch := uniform_fits polarBatch_uniform (broadcastsTo_refl _)
  have hv : ∀ f : ℝ, Valid (.polar (.dist 3) f) := fun f => by norm_num [Valid, DistOk]
  have hne : ∀ f : ℝ, point (.polar (.dist 3) f) ≠ V3.zero := fun f h => by
    have h1 := congrArg V3.x h
    have h2 := congrArg V3.y h
    simp only [point, V3.zero, distOf] at h1 h2
    nlinarith [Real.sin_sq_add_cos_sq f]
  refine ⟨C58_neg_returns _ [2] fit (by simp) fun idx _ => ?_,
    (C58_scale_returns _ _ [2] 2 rfl rfl fit (by simp) fun idx _ => ?_).1,
    C58_divide_returns _ _ [2] (broadcastsTo_refl _) fit (by simp) fun idx _ => ?_,
    C58_norm_returns _ [2] fit (by simp) fun idx _ => ?_⟩
  · obtain ⟨f, hf⟩ := polarBatch_at idx
    exact ⟨_, hf, Props.C16_negation_returns _ (hv f) nofun nofun nofun (.inr (hne f))⟩
  · obtain ⟨f, hf⟩ := polarBatch_at idx
    exact ⟨_, hf, Props.C17_scaling_returns 2 _ (hv f) nofun nofun (by norm_num)
      (.inr (.inl rfl))⟩
  · obtain ⟨f, hf⟩ := polarBatch_at idx
    have hw : (0 : ℝ) < if bcSource [2] idx = [0] then (1 : ℝ) else 2 := by split <;> norm_num
    refine ⟨_, hf, if bcSource [2] idx = [0] then 1 else 2,
      .polar (.dist (3 / if bcSource [2] idx = [0] then (1 : ℝ) else 2))
        (f / if bcSource [2] idx = [0] then (1 : ℝ) else 2), rfl, ?_⟩
    · generalize (if bcSource [2] idx = [0] then (1 : ℝ) else 2) = w at hw
      simp only [divPos, Dist.divRaw, Dist.raw, div_real_ok hw.ne', ok_bind, Dist.mapRaw]
      rw [pure_ok, ok_bind]
      exact mkPolar_ok _ (show (0 : ℝ) ≤ 3 / w by positivity)
  · obtain ⟨f, hf⟩ := polarBatch_at idx
    obtain ⟨d, h1, -⟩ := Props.C14_norm_is_euclidean _ (hv f) nofun
    exact ⟨_, hf, d, h1⟩

/-- the product of the batch of polar positions with itself returns, and its element `(1, 0)` is `(3 cos 1)²` -/
example : ∃ Z, mulPosPosB polarBatch polarBatch = .ok Z ∧
    at_ [1, 0] Z = some ((3 * Real.cos 1) * (3 * Real.cos 1)) := by
  have fit : Fits [2] polarBatch := uniform_fits polarBatch_uniform (broadcastsTo_refl _)
  have hv : ∀ f : ℝ, Valid (.polar (.dist 3) f) := fun f => by norm_num [Valid, DistOk]
  have hev : Everywhere [2] polarBatch fun _ p => Valid p := fun idx _ => ⟨_, rfl, hv _⟩
  obtain ⟨Z, hZ⟩ := C58_product_returns polarBatch polarBatch [2] [2] [2] polarBatch_uniform polarBatch_uniform rfl rfl
    ⟨by simp [broadcastsTo_refl], fun u h => h [2] (by simp)⟩ (by simp) nofun nofun hev hev
  have hi : InB [2] [1] := .cons (by norm_num) .nil
  have e1 : posAt [1] polarBatch = some (.polar (.dist 3) 1) := by
    simp [posAt, polarBatch, distAt, at_, bcSource]
  exact ⟨Z, hZ, (C58_product_elementwise polarBatch polarBatch Z [2] [1] fit fit hi _ _ e1 e1 (hv 1) (hv 1) nofun nofun
    rfl hZ).2 0 _ _ rfl rfl⟩

/-- `normalize_vector` of three arrays of shape `(2,)` returns -/
example : ∃ U V W, normalizeCart3B ⟨[2], fun _ => some 3⟩ ⟨[2], fun _ => some 4⟩ ⟨[2], fun _ => some 12⟩ = .ok (U, V, W) := by
  have fit : Fits [2] (.cart3 ⟨[2], fun _ => some 3⟩ ⟨[2], fun _ => some 4⟩ ⟨[2], fun _ => some 12⟩) := by
    simp [Fits, compsOf, broadcastsTo_refl]
  obtain ⟨N, hN⟩ := C58_norm_returns _ [2] fit (by simp) fun idx _ => ⟨_, rfl, _, Props.norm_default _ _ rfl rfl⟩
  have hi : InB [2] [1] := .cons (by norm_num) .nil
  have hN' := (C58_norm_elementwise _ N [2] [1] fit hi _ rfl hN).1
  have hd : ∀ X : BArr, X.shape = [2] → ∃ Z, bdiv X N.raw = .ok Z := fun X hX => by
    obtain ⟨c, h, -⟩ := Arr.map2_spec (f := el2 Num.div) (a := X) (S := [2]) (by rw [hX]; exact broadcastsTo_refl _) hN'
    exact ⟨c, h⟩
  obtain ⟨U, hU⟩ := hd ⟨[2], fun _ => some 3⟩ rfl
  obtain ⟨V, hV⟩ := hd ⟨[2], fun _ => some 4⟩ rfl
  obtain ⟨W, hW⟩ := hd ⟨[2], fun _ => some 12⟩ rfl
  exact ⟨U, V, W, by unfold normalizeCart3B; rw [hN, ok_bind, hU, ok_bind, hV, ok_bind, hW]; rfl⟩

end Verif
