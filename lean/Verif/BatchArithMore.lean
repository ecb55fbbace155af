import Verif.BatchArithLemmas
import Verif.Props.CartArith

/-! # Norm, product and equality of batches of positions -/

namespace Verif

open List Spec

section
variable {D : Set (List ℕ)} {S : List ℕ}

/-! ### stacked components -/

theorem stack_elem {l : List BArr} {s : List ℕ} (hl : ∀ a ∈ l, BroadcastsTo a.shape s) (hs : BroadcastsTo s S)
    {idx : List ℕ} (hi : InB S idx) {k : ℕ} {a : BArr} (hk : l[k]? = some a) :
    (stackB s (l.map fun a => a.broadcastTo s)).elem (idx ++ [k]) = a.elem idx := by
  have hlt : k < l.length := (List.getElem?_eq_some_iff.mp hk).1
  have hsh : (stackB s (l.map fun a => a.broadcastTo s)).shape = s ++ [l.length] := by simp [stackB]
  have h1 : BroadcastsTo (stackB s (l.map fun a => a.broadcastTo s)).shape (S ++ [l.length]) := by
    rw [hsh]; exact broadcastsTo_snoc.mpr ⟨.inr rfl, hs⟩
  have ha : a ∈ l := List.mem_of_getElem? hk
  have hlen : s.length ≤ idx.length := by rw [inB_length hi]; exact broadcastsTo_length hs
  rw [(Arr.elem_get h1 (inB_snoc.mpr ⟨hi, hlt⟩)).1, hsh, bcSource_snoc hlen hlt]
  simp only [stackB, getLastD_concat, dropLast_concat, getElem?_map, hk, Option.map_some]
  show a.elem (bcSource s idx) = a.elem idx
  rw [← bcIdx_eq hlen, Arr.elem_of_index (hl a ha)]

/-- two stacks multiplied: the shape, and each element -/
theorem mulStack {l m : List BArr} {s t : List ℕ} {Z : BArr} (hl : ∀ a ∈ l, BroadcastsTo a.shape s)
    (hm : ∀ a ∈ m, BroadcastsTo a.shape t) (hlm : l.length = m.length)
    (h : laxMul (stackB s (l.map fun a => a.broadcastTo s)) (stackB t (m.map fun a => a.broadcastTo t)) = .ok Z) :
    ∃ u, bc2 s t = .ok u ∧ Z.shape = u ++ [l.length] ∧ ∀ S idx, BroadcastsTo u S → InB S idx → ∀ k a b,
      l[k]? = some a → m[k]? = some b → Z.elem (idx ++ [k]) = el2 (fun x y => .ok (x * y)) (a.elem idx) (b.elem idx) := by
  have h' := laxMap2_map2 h
  have hb := map2_bc h'
  simp only [stackB, length_map, hlm] at hb
  obtain ⟨H, u, h1, h2, h3⟩ := bc2_snoc.mp hb
  rw [bcAxis_self] at h1
  obtain rfl := Except.ok.inj h1
  refine ⟨u, h2, by rw [h3, hlm], fun S idx hu hi k a b ha hb => ?_⟩
  obtain ⟨b1, b2, -⟩ := bc2_ok h2
  have f1 := broadcastsTo_trans b1 hu
  have f2 := broadcastsTo_trans b2 hu
  have g1 : BroadcastsTo (stackB s (l.map fun a => a.broadcastTo s)).shape (S ++ [m.length]) := by
    simp only [stackB, length_map, hlm]; exact broadcastsTo_snoc.mpr ⟨.inr rfl, f1⟩
  have g2 : BroadcastsTo (stackB t (m.map fun a => a.broadcastTo t)).shape (S ++ [m.length]) := by
    simp only [stackB, length_map]; exact broadcastsTo_snoc.mpr ⟨.inr rfl, f2⟩
  obtain ⟨c, e1, -, -, e2⟩ := Arr.map2_spec (f := el2 fun x y => .ok (x * y)) g1 g2
  rw [h'] at e1
  obtain rfl := Except.ok.inj e1
  rw [e2, stack_elem hl f1 hi ha, stack_elem hm f2 hi hb]

theorem range_getElem {l : List BArr} {f : ℕ → El} {g : BArr → El}
    (h : ∀ (k : ℕ) (a : BArr), l[k]? = some a → f k = g a) : (range l.length).map f = l.map g := by
  refine ext_getElem? fun k => ?_
  simp only [getElem?_map]
  by_cases hk : k < l.length
  · simp [hk, h k l[k] (getElem?_eq_getElem hk)]
  · simp [hk]

theorem sumLast {u : List ℕ} {n : ℕ} {Z : BArr} (hZ : Z.shape = u ++ [n]) :
    ∃ N, sumLastB Z = .ok N ∧ N.shape = u ∧ ∀ S idx, BroadcastsTo u S → InB S idx →
      N.elem idx = sumEl ((range n).map fun k => Z.elem (idx ++ [k])) := by
  refine ⟨⟨u, fun idx => sumEl ((range n).map fun k => Z.get (idx ++ [k]))⟩, ?_, rfl, fun S idx hu hi => ?_⟩
  · unfold sumLastB
    rw [hZ]; simp
  · have hlen : u.length ≤ idx.length := by rw [inB_length hi]; exact broadcastsTo_length hu
    rw [(Arr.elem_get (a := ⟨u, _⟩) hu hi).1]
    show sumEl _ = _
    congr 1
    refine map_congr_left fun k hk => ?_
    have hk' : k < n := by simpa using hk
    have h1 : BroadcastsTo Z.shape (S ++ [n]) := by rw [hZ]; exact broadcastsTo_snoc.mpr ⟨.inr rfl, hu⟩
    rw [(Arr.elem_get h1 (inB_snoc.mpr ⟨hi, hk'⟩)).1, hZ, bcSource_snoc hlen hk']

/-- sum of the squares of the fields of a Cartesian vector -/
theorem sumSq {l : List BArr} (hl : ∀ a ∈ l, BroadcastsTo a.shape S) :
    ∃ s N, broadcastShapes (l.map fun a => a.shape) = .ok s ∧
      (laxMul (stackB s (l.map fun a => a.broadcastTo s)) (stackB s (l.map fun a => a.broadcastTo s)) >>= sumLastB) =
        .ok N ∧ N.shape = s ∧ BroadcastsTo s S ∧ ∀ idx, InB S idx →
        N.elem idx = sumEl (l.map fun a => el2 (fun x y => .ok (x * y)) (a.elem idx) (a.elem idx)) := by
  obtain ⟨s, hs⟩ := broadcastShapes_total (shapes := l.map fun a => a.shape) (w := S) (by simpa using hl)
  have hb := (broadcastShapes_iff _ _).mp hs
  have h1 : ∀ a ∈ l, BroadcastsTo a.shape s := fun a ha => hb.1 _ (mem_map.mpr ⟨a, ha, rfl⟩)
  have h2 : BroadcastsTo s S := hb.2 S (by simpa using hl)
  obtain ⟨Z, hZ⟩ := laxMap2_total (el2 fun x y => .ok (x * y))
    (laxShape_self (stackB s (l.map fun a => a.broadcastTo s)).shape)
  obtain ⟨u, hu, hsh, hel⟩ := mulStack h1 h1 rfl hZ
  rw [bc2_self] at hu
  obtain rfl := Except.ok.inj hu
  obtain ⟨N, hN, hNs, hNe⟩ := sumLast hsh
  refine ⟨s, N, hs, ?_, hNs, h2, fun idx hi => ?_⟩
  · show Arr.laxMap2 _ _ _ >>= _ = _
    rw [hZ, ok_bind, hN]
  · rw [hNe S idx h2 hi]
    congr 1
    exact range_getElem fun k a ha => hel S idx h2 hi k a a ha ha

/-! ### norm -/

/-- as `BSim`, for a computation that returns a distance -/
structure DSim (D : Set (List ℕ)) (S : List ℕ) (A : Res (Dist BArr)) (s : List ℕ → Res (Dist ℝ)) : Prop where
  ok : ∀ Q, A = .ok Q → BroadcastsTo Q.raw.shape S ∧ ∀ i ∈ D, (∀ q, s i = .ok q → Q.elem i = some q) ∧
    ∀ e, s i = .error e → e = .nonFinite
  total : Full D S → (∀ i ∈ D, ∃ q, s i = .ok q) → ∃ Q, A = .ok Q

theorem DF.dsim {R : Dist BArr} {r : List ℕ → Res (Dist ℝ)} (h : DF D S R r) : DSim D S (.ok R) r :=
  ⟨fun Q hQ => by obtain rfl := Except.ok.inj hQ; exact ⟨h.fits, fun i hi => ⟨h.val i hi, h.err i hi⟩⟩,
   fun _ _ => ⟨R, rfl⟩⟩

theorem DSim.congr {A : Res (Dist BArr)} {s t : List ℕ → Res (Dist ℝ)} (h : DSim D S A s)
    (e : ∀ i ∈ D, s i = t i) : DSim D S A t :=
  ⟨fun Q hQ => ⟨(h.ok Q hQ).1, fun i hi => e i hi ▸ (h.ok Q hQ).2 i hi⟩,
   fun hF hs => h.total hF fun i hi => by rw [e i hi]; exact hs i hi⟩

/-- `jnp.linalg.vector_norm` of the stacked fields of a Cartesian vector -/
noncomputable def normCartB (c : Pos BArr) : Res (Dist BArr) := do
  let l ← c.cartArrays
  let s ← broadcastShapes (l.map fun a => a.shape)
  let Z ← laxMul (stackB s (l.map fun a => a.broadcastTo s)) (stackB s (l.map fun a => a.broadcastTo s))
  return .dist (bsqrt (← sumLastB Z))

theorem default_eq (P : Pos BArr) :
    (do return .dist (bsqrt (← sumLastB (← mulPosPosB P P))) : Res (Dist BArr)) = toCartesianB P >>= normCartB := by
  unfold mulPosPosB toQuantityB normCartB
  rcases toCartesianB P with e | c
  · rfl
  simp only [ok_bind]
  rcases c.cartArrays with e | l
  · rfl
  simp only [ok_bind]
  rcases hb : broadcastShapes (l.map fun a => a.shape) with e | s
  · simp only [hb, error_bind]
  · simp only [hb, ok_bind, pure, Except.pure]

/-- the same for one element -/
noncomputable def normCart (c : Pos ℝ) : Res (Dist ℝ) := do
  let a ← c.cartComponents
  return .dist (← Num.sqrt (sumList (List.zipWith (· * ·) a a)))

theorem default_eq' (p : Pos ℝ) :
    (do return Dist.dist (← Num.sqrt (sumList (← mulPosPos p p))) : Res (Dist ℝ)) = toCartesian p >>= normCart := by
  unfold mulPosPos mulRank1 toQuantity normCart
  rcases toCartesian p with e | c
  · rfl
  simp only [ok_bind]
  rcases c.cartComponents with e | l
  · rfl
  simp only [ok_bind, if_true]

theorem normCartB_sim {C : Pos BArr} (hC : DefP D S C) (hD : ∀ i ∈ D, InB S i) :
    DSim D S (normCartB C) fun i => normCart (C.elemD i) := by
  have main : ∀ (l : List BArr) (f : List ℕ → List ℝ), C.cartArrays = .ok l → (∀ a ∈ l, DefA D S a) →
      (∀ i ∈ D, (C.elemD i).cartComponents = .ok (f i)) →
      (∀ i ∈ D, sumEl (l.map fun a => el2 (fun x y => .ok (x * y)) (a.elem i) (a.elem i)) =
        some (sumList (List.zipWith (· * ·) (f i) (f i)))) →
      DSim D S (normCartB C) fun i => normCart (C.elemD i) := by
    intro l f h1 h2 h3 h4
    obtain ⟨s, N, e1, e2, e3, e4, e5⟩ := sumSq (S := S) fun a ha => (h2 a ha).fits
    obtain ⟨Z, e6, e7⟩ := (bind_ok_iff _ _ _).mp e2
    unfold normCartB
    rw [h1, ok_bind, e1, ok_bind, e6, ok_bind, e7, ok_bind]
    have hN : EF D S N fun i => .ok (sumList (List.zipWith (· * ·) (f i) (f i))) :=
      ⟨by rw [e3]; exact e4, fun i hi v hv => by rw [e5 i (hD i hi), h4 i hi, Except.ok.inj hv],
       fun _ _ _ h => by cases h⟩
    refine hN.sqrt.dist.dsim.congr fun i hi => ?_
    unfold normCart
    rw [h3 i hi]; rfl
  cases C with
  | cart1 x =>
    refine main [x] (fun i => [x.elemD i]) rfl (by simpa [DefP, Pos.arrays] using hC) (fun i hi => rfl) fun i hi => ?_
    have hx := (hC x (by simp [Pos.arrays])).val i hi
    simp only [map_cons, map_nil, sumEl, hx, el2]; rfl
  | cart2 x y =>
    refine main [x, y] (fun i => [x.elemD i, y.elemD i]) rfl (by simpa [DefP, Pos.arrays] using hC) (fun i hi => rfl) fun i hi => ?_
    have hx := (hC x (by simp [Pos.arrays])).val i hi
    have hy := (hC y (by simp [Pos.arrays])).val i hi
    simp only [map_cons, map_nil, sumEl, hx, hy, el2]; rfl
  | cart3 x y z =>
    refine main [x, y, z] (fun i => [x.elemD i, y.elemD i, z.elemD i]) rfl (by simpa [DefP, Pos.arrays] using hC) (fun i hi => rfl) fun i hi => ?_
    have hx := (hC x (by simp [Pos.arrays])).val i hi
    have hy := (hC y (by simp [Pos.arrays])).val i hi
    have hz := (hC z (by simp [Pos.arrays])).val i hi
    simp only [map_cons, map_nil, sumEl, hx, hy, hz, el2]; rfl
  | _ =>
    refine ⟨fun Q hQ => (by cases hQ), fun hF hs => ?_⟩
    obtain ⟨i, hi⟩ := hF.nonempty
    obtain ⟨q, hq⟩ := hs i hi
    cases hq

theorem normDefault_sim (hD : ∀ i ∈ D, InB S i) {P : Pos BArr} (hP : DefP D S P) :
    DSim D S (toCartesianB P >>= normCartB) fun i => toCartesian (P.elemD i) >>= normCart := by
  have h1 : BSim True D S (toCartesianB P) fun i => toCartesian (P.elemD i) := by
    refine (rep_sim_cart hD hP (isCart_cartesian P.kind)).congr fun i _ => ?_
    unfold toCartesian; rw [elemD_kind]
  rcases hA : toCartesianB P with e | C
  · refine ⟨fun Q hQ => (by cases hQ), fun hF hs => ?_⟩
    obtain ⟨Q, hQ⟩ := h1.total trivial hF fun i hi => by
      obtain ⟨q, hq⟩ := hs i hi
      obtain ⟨q', hq', _⟩ := (bind_ok_iff _ _ _).mp hq
      exact ⟨q', hq'⟩
    rw [hA] at hQ; cases hQ
  · obtain ⟨hfit, hel⟩ := h1.ok C hA
    rw [ok_bind]
    set E : Set (List ℕ) := {i | i ∈ D ∧ ∃ q, toCartesian (P.elemD i) = .ok q}
    have hdef : DefP E S C := fun a ha => ⟨hfit a ha, fun i hi => by
      obtain ⟨hi, q, hq⟩ := hi
      exact (Pos.elem_some ((hel i hi).1 q hq)).2 a ha⟩
    have hsim := normCartB_sim hdef fun i hi => hD i hi.1
    refine ⟨fun Q hQ => ⟨(hsim.ok Q hQ).1, fun i hi => ?_⟩, fun hF hs => ?_⟩
    · rcases hq : toCartesian (P.elemD i) with e | q
      · exact ⟨fun q h => (by cases h), fun e' he => by
          rw [← Except.error.inj he]; exact (hel i hi).2 e hq⟩
      · have := (hsim.ok Q hQ).2 i ⟨hi, q, hq⟩
        rw [(Pos.elem_some ((hel i hi).1 q hq)).1] at this
        exact this
    · have hE : E = D := by
        ext i
        refine ⟨fun h => h.1, fun hi => ⟨hi, ?_⟩⟩
        obtain ⟨q, hq⟩ := hs i hi
        obtain ⟨q', hq', _⟩ := (bind_ok_iff _ _ _).mp hq
        exact ⟨q', hq'⟩
      refine hsim.total (by rw [hE]; exact hF) fun i hi => ?_
      obtain ⟨q, hq⟩ := hs i hi.1
      obtain ⟨q', hq', hq⟩ := (bind_ok_iff _ _ _).mp hq
      rw [(Pos.elem_some ((hel i hi.1).1 q' hq')).1]
      exact ⟨q, hq⟩

theorem normB_sim (hD : ∀ i ∈ D, InB S i) {P : Pos BArr} (hP : DefP D S P) :
    DSim D S (normB P) fun i => norm (P.elemD i) := by
  have hd := normDefault_sim hD hP
  cases P with
  | cyl rho phi z =>
    have h1 := (hP rho (by simp [Pos.arrays])).ef
    have h2 := (hP z (by simp [Pos.arrays])).ef
    obtain ⟨A, a1, a2⟩ := h1.mul h1
    obtain ⟨B, b1, b2⟩ := h2.mul h2
    obtain ⟨C, c1, c2⟩ := a2.add b2
    simp only [normB, a1, b1, c1, ok_bind]
    exact c2.sqrt.dist.dsim.congr fun i hi => rfl
  | lonlat lon lat d => exact (hP d.raw (by simp [Pos.arrays])).df.dsim
  | math r theta phi => exact (hP r.raw (by simp [Pos.arrays])).df.dsim
  | _ =>
    simp only [← default_eq, ← default_eq'] at hd
    exact hd

/-! ### equality -/

theorem beqB_good {X Y : BArr} (hX : DefA D S X) (hY : DefA D S Y) {c : Arr Bool} (h : beqB X Y = .ok c) :
    BroadcastsTo c.shape S ∧ ∀ i ∈ D, c.elem i = Num.beq (X.elemD i) (Y.elemD i) := by
  obtain ⟨Z, h1, h2⟩ := hX.ef.cmp hY.ef Num.beq
  rw [show Arr.map2 (elCmp Num.beq) X Y = .ok c from h] at h1
  obtain rfl := Except.ok.inj h1
  exact ⟨h2.fits, fun i hi => h2.val i hi _ rfl⟩

theorem eqvB_good {X Y : Dist BArr} (hX : DefA D S X.raw) (hY : DefA D S Y.raw) {c : Arr Bool} (h : X.eqvB Y = .ok c) :
    BroadcastsTo c.shape S ∧ ∀ i ∈ D, (X.elemD i).eqv (Y.elemD i) = .ok (c.elem i) := by
  cases X <;> cases Y <;> simp only [Dist.eqvB, reduceCtorEq] at h
  all_goals
    obtain ⟨h1, h2⟩ := beqB_good hX hY h
    exact ⟨h1, fun i hi => by rw [h2 i hi]; rfl⟩

theorem leavesEqB_good {A B : Pos BArr} (hA : DefP D S A) (hB : DefP D S B) {r : List (Arr Bool)}
    (h : leavesEqB A B = .ok r) : r ≠ [] ∧ (∀ c ∈ r, BroadcastsTo c.shape S) ∧
      ∀ i ∈ D, eqSame (A.elemD i) (B.elemD i) = .ok (r.all fun c => c.elem i) := by
  cases A <;> cases B <;> simp only [leavesEqB, bind_ok_iff, reduceCtorEq] at h <;>
    simp only [DefP, Pos.arrays, mem_cons, forall_eq_or_imp, not_mem_nil, false_imp_iff, implies_true, and_true] at hA hB
  case cart1 =>
    obtain ⟨c, h1, h⟩ := h; obtain rfl := Except.ok.inj h
    obtain ⟨a1, a2⟩ := beqB_good hA hB h1
    exact ⟨by simp, by simpa using a1, fun i hi => by simp [Pos.elemD, eqSame, a2 i hi]⟩
  case radial =>
    obtain ⟨c, h1, h⟩ := h; obtain rfl := Except.ok.inj h
    obtain ⟨a1, a2⟩ := eqvB_good hA hB h1
    exact ⟨by simp, by simpa using a1, fun i hi => by simp [Pos.elemD, eqSame, a2 i hi]⟩
  case cart2 | twoSphere =>
    obtain ⟨c, h1, d, h2, h⟩ := h; obtain rfl := Except.ok.inj h
    obtain ⟨a1, a2⟩ := beqB_good hA.1 hB.1 h1
    obtain ⟨b1, b2⟩ := beqB_good hA.2 hB.2 h2
    exact ⟨by simp, by simpa using ⟨a1, b1⟩, fun i hi => by simp [Pos.elemD, eqSame, a2 i hi, b2 i hi]⟩
  case polar =>
    obtain ⟨c, h1, d, h2, h⟩ := h; obtain rfl := Except.ok.inj h
    obtain ⟨a1, a2⟩ := eqvB_good hA.1 hB.1 h1
    obtain ⟨b1, b2⟩ := beqB_good hA.2 hB.2 h2
    exact ⟨by simp, by simpa using ⟨a1, b1⟩, fun i hi => by
      simp [Pos.elemD, eqSame, a2 i hi, b2 i hi, ok_bind]⟩
  case cart3 | cyl =>
    obtain ⟨c, h1, d, h2, e, h3, h⟩ := h; obtain rfl := Except.ok.inj h
    obtain ⟨a1, a2⟩ := beqB_good hA.1 hB.1 h1
    obtain ⟨b1, b2⟩ := beqB_good hA.2.1 hB.2.1 h2
    obtain ⟨c1, c2⟩ := beqB_good hA.2.2 hB.2.2 h3
    exact ⟨by simp, by simpa using ⟨a1, b1, c1⟩, fun i hi => by
      simp [Pos.elemD, eqSame, a2 i hi, b2 i hi, c2 i hi, Bool.and_assoc]⟩
  case sph | math =>
    obtain ⟨c, h1, d, h2, e, h3, h⟩ := h; obtain rfl := Except.ok.inj h
    obtain ⟨a1, a2⟩ := eqvB_good hA.1 hB.1 h1
    obtain ⟨b1, b2⟩ := beqB_good hA.2.1 hB.2.1 h2
    obtain ⟨c1, c2⟩ := beqB_good hA.2.2 hB.2.2 h3
    exact ⟨by simp, by simpa using ⟨a1, b1, c1⟩, fun i hi => by
      simp [Pos.elemD, eqSame, a2 i hi, b2 i hi, c2 i hi, Bool.and_assoc, ok_bind]⟩
  case lonlat =>
    obtain ⟨c, h1, d, h2, e, h3, h⟩ := h; obtain rfl := Except.ok.inj h
    obtain ⟨a1, a2⟩ := beqB_good hA.1 hB.1 h1
    obtain ⟨b1, b2⟩ := beqB_good hA.2.1 hB.2.1 h2
    obtain ⟨c1, c2⟩ := eqvB_good hA.2.2 hB.2.2 h3
    exact ⟨by simp, by simpa using ⟨a1, b1, c1⟩, fun i hi => by
      simp [Pos.elemD, eqSame, a2 i hi, b2 i hi, c2 i hi, Bool.and_assoc, ok_bind]⟩
  case prolate =>
    obtain ⟨c, h1, d, h2, e, h3, f, h4, h⟩ := h; obtain rfl := Except.ok.inj h
    obtain ⟨a1, a2⟩ := beqB_good hA.1 hB.1 h1
    obtain ⟨b1, b2⟩ := beqB_good hA.2.1 hB.2.1 h2
    obtain ⟨c1, c2⟩ := beqB_good hA.2.2.1 hB.2.2.1 h3
    obtain ⟨d1, d2⟩ := beqB_good hA.2.2.2 hB.2.2.2 h4
    exact ⟨by simp, by simpa using ⟨a1, b1, c1, d1⟩, fun i hi => by
      simp [Pos.elemD, eqSame, a2 i hi, b2 i hi, c2 i hi, d2 i hi, Bool.and_assoc]⟩

theorem allLeaves_inv {r : List (Arr Bool)} {c : Arr Bool} (h : allLeaves r = .ok c) :
    (∀ d ∈ r, d.shape = c.shape) ∧ r ≠ [] ∧ ∀ idx, c.get idx = r.all fun d => d.get idx := by
  unfold allLeaves at h
  split at h
  · cases h
  · rename_i c0 l
    split at h
    · rename_i hall
      obtain rfl := Except.ok.inj h
      refine ⟨fun d hd => ?_, by simp, fun idx => rfl⟩
      rcases mem_cons.mp hd with rfl | hd
      · rfl
      · simpa using all_eq_true.mp hall d hd
    · cases h

theorem allLeaves_elem {r : List (Arr Bool)} {c : Arr Bool} (h : allLeaves r = .ok c) (i : List ℕ) :
    c.elem i = r.all fun d => d.elem i := by
  obtain ⟨h1, -, h3⟩ := allLeaves_inv h
  unfold Arr.elem
  rw [h3, Bool.eq_iff_iff, all_eq_true, all_eq_true]
  exact ⟨fun k d hd => by rw [h1 d hd]; exact k d hd, fun k d hd => by have := k d hd; rwa [h1 d hd] at this⟩

theorem allLeaves_total {r : List (Arr Bool)} {u : List ℕ} (h0 : r ≠ []) (h : ∀ d ∈ r, d.shape = u) :
    ∃ c, allLeaves r = .ok c := by
  cases r with
  | nil => exact absurd rfl h0
  | cons c l =>
    rw [allLeaves, if_pos]
    · exact ⟨_, rfl⟩
    · rw [all_eq_true]; intro d hd
      rw [h d (by simp [hd]), h c (by simp)]; simp

/-- all leaves of the comparison of two batches, one of shape `s`, one of shape `t` -/
theorem leavesEqB_total {A B : Pos BArr} {s t u : List ℕ} (hA : ∀ a ∈ A.arrays, a.shape = s)
    (hB : ∀ b ∈ B.arrays, b.shape = t) (hu : bc2 s t = .ok u)
    {i : List ℕ} {b : Bool} (he : eqSame (A.elemD i) (B.elemD i) = .ok b) :
    ∃ r, leavesEqB A B = .ok r ∧ r ≠ [] ∧ ∀ d ∈ r, d.shape = u := by
  have hb : ∀ X Y : BArr, X.shape = s → Y.shape = t → ∃ c, beqB X Y = .ok c ∧ c.shape = u := fun X Y h k => by
    unfold beqB Arr.map2
    rw [h, k, hu, ok_bind]; exact ⟨_, rfl, rfl⟩
  have hr : ∀ X Y : Dist BArr, X.raw.shape = s → Y.raw.shape = t → (∃ v, (X.elemD i).eqv (Y.elemD i) = .ok v) →
      ∃ c, X.eqvB Y = .ok c ∧ c.shape = u := fun X Y h k he => by
    obtain ⟨v, hv⟩ := he
    cases X <;> cases Y <;> simp only [Dist.elemD, Dist.eqv, reduceCtorEq] at hv <;> exact hb _ _ h k
  cases A <;> cases B <;> simp only [eqSame, Pos.elemD, reduceCtorEq] at he <;>
    simp only [Pos.arrays, mem_cons, forall_eq_or_imp, not_mem_nil, false_imp_iff, implies_true, and_true] at hA hB
  case cart1 =>
    obtain ⟨c, h1, k1⟩ := hb _ _ hA hB
    exact ⟨[c], by simp only [leavesEqB, h1, ok_bind]; rfl, by simp, by simpa using k1⟩
  case radial =>
    obtain ⟨c, h1, k1⟩ := hr _ _ hA hB ⟨_, he⟩
    exact ⟨[c], by simp only [leavesEqB, h1, ok_bind]; rfl, by simp, by simpa using k1⟩
  case cart2 | twoSphere =>
    obtain ⟨c, h1, k1⟩ := hb _ _ hA.1 hB.1
    obtain ⟨d, h2, k2⟩ := hb _ _ hA.2 hB.2
    exact ⟨[c, d], by simp only [leavesEqB, h1, h2, ok_bind]; rfl, by simp, by simp [k1, k2]⟩
  case polar =>
    obtain ⟨v, hv, -⟩ := (bind_ok_iff _ _ _).mp he
    obtain ⟨c, h1, k1⟩ := hr _ _ hA.1 hB.1 ⟨_, hv⟩
    obtain ⟨d, h2, k2⟩ := hb _ _ hA.2 hB.2
    exact ⟨[c, d], by simp only [leavesEqB, h1, h2, ok_bind]; rfl, by simp, by simp [k1, k2]⟩
  case cart3 | cyl =>
    obtain ⟨c, h1, k1⟩ := hb _ _ hA.1 hB.1
    obtain ⟨d, h2, k2⟩ := hb _ _ hA.2.1 hB.2.1
    obtain ⟨e, h3, k3⟩ := hb _ _ hA.2.2 hB.2.2
    exact ⟨[c, d, e], by simp only [leavesEqB, h1, h2, h3, ok_bind]; rfl, by simp, by simp [k1, k2, k3]⟩
  case sph | math =>
    obtain ⟨v, hv, -⟩ := (bind_ok_iff _ _ _).mp he
    obtain ⟨c, h1, k1⟩ := hr _ _ hA.1 hB.1 ⟨_, hv⟩
    obtain ⟨d, h2, k2⟩ := hb _ _ hA.2.1 hB.2.1
    obtain ⟨e, h3, k3⟩ := hb _ _ hA.2.2 hB.2.2
    exact ⟨[c, d, e], by simp only [leavesEqB, h1, h2, h3, ok_bind]; rfl, by simp, by simp [k1, k2, k3]⟩
  case lonlat =>
    obtain ⟨v, hv, -⟩ := (bind_ok_iff _ _ _).mp he
    obtain ⟨c, h1, k1⟩ := hb _ _ hA.1 hB.1
    obtain ⟨d, h2, k2⟩ := hb _ _ hA.2.1 hB.2.1
    obtain ⟨e, h3, k3⟩ := hr _ _ hA.2.2 hB.2.2 ⟨_, hv⟩
    exact ⟨[c, d, e], by simp only [leavesEqB, h1, h2, h3, ok_bind]; rfl, by simp, by simp [k1, k2, k3]⟩
  case prolate =>
    obtain ⟨c, h1, k1⟩ := hb _ _ hA.1 hB.1
    obtain ⟨d, h2, k2⟩ := hb _ _ hA.2.1 hB.2.1
    obtain ⟨e, h3, k3⟩ := hb _ _ hA.2.2.1 hB.2.2.1
    obtain ⟨f, h4, k4⟩ := hb _ _ hA.2.2.2 hB.2.2.2
    exact ⟨[c, d, e, f], by simp only [leavesEqB, h1, h2, h3, h4, ok_bind]; rfl, by simp, by simp [k1, k2, k3, k4]⟩

end

end Verif
