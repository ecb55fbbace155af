import Verif.Props.BatchOp

/-!
# C60: a position with its velocity through a spatial translation, on batches

The Jacobian that `GalileanSpatialTranslation` applies to the velocity is taken with `jax.jacfwd` of the whole batch and
has an axis for every axis of the input and of the output; it is applied with `@`.
-/

namespace Verif

open List Spec

section
variable {s : List ℕ}

theorem cartPosOf_shape {k : Kind} {w : BArr} {Q : Pos BArr} (hw : w.shape.dropLast = s) (h : cartPosOf k w = .ok Q) :
    PosShape Q s := by
  have sl : ∀ j, (sliceLast j w).shape = s := fun j => hw
  have key : ∀ l : List BArr, l ≠ [] → (∀ a ∈ l, a.shape = s) → IsBroadcast (l.map Arr.shape) s := fun l hl ha =>
    (broadcastShapes_iff _ _).mp (broadcast_const (by simpa using hl) (by simpa using ha))
  cases k <;> simp only [cartPosOf, reduceCtorEq] at h <;> split at h <;> first | (cases h; done) | skip
  all_goals
    obtain rfl := Except.ok.inj h
    exact ⟨key _ (by simp [coordsOf, compsOf]) (by simp [coordsOf, compsOf, sl]), nofun⟩

theorem velCart_shape {p W : Vel BArr} {Q : Pos BArr} (hV : VelShape p s) (hP : PosShape Q s)
    (h : representVelB {} p p.kind.cartesian Q = .ok W) : W.shapeB = .ok s := by
  have hs := velShape_iff.mp hV
  have ht := posShape_shape hP
  have hd : p.kind.dim = p.kind.cartesian.dim := (vcart_dim _).symm
  have fin : ∀ {V : Vel BArr} {kw : Kw ℝ}, V.shapeB = .ok s →
      representVelGenericB kw V p.kind.cartesian Q = .ok W → W.shapeB = .ok s := fun {V kw} hs h => by
    have hvp : V.kind ≠ .prolate := fun e => genericB_prolate hs ht (posShape_focal hP) e h
    obtain ⟨-, -, g3, -⟩ := genericB_elem hs ht (posShape_focalFit hP) (by cases p.kind <;> decide) hvp h
    unfold Vel.shapeB
    exact broadcast_const (by cases W <;> simp [Vel.comps]) (by simpa using g3)
  by_cases hself : p.kind = p.kind.cartesian ∧ p.kind.cartesian.selfRule = true
  · unfold representVelB at h
    rw [if_neg (not_not.mpr hd), if_pos hself] at h
    obtain rfl := Except.ok.inj h
    exact hs
  by_cases h1 : p.kind = .lonCosLat
  · cases p <;> first | (cases h1; done) | skip
    rw [representVelB_fromLonCosLat hd.symm nofun nofun] at h
    obtain ⟨U, i1, i2⟩ := (bind_ok_iff _ _ _).mp h
    obtain ⟨-, g2, -⟩ := lonCosLatB_elem hV (posShape_fits hP) i1
    exact fin (velShape_iff.mp g2) i2
  · rw [representVelB_generic hd hself h1 (by cases p.kind <;> decide)] at h
    exact fin hs h

theorem stackFull_shape {V : Vel BArr} {l : List BArr} {w : BArr} (hl : V.cartArrays = .ok l) (hV : V.shapeB = .ok s)
    (h : stackFull l = .ok w) : w.shape = s ++ [l.length] := by
  have e : l = V.comps := by cases V <;> first | (cases hl; done) | exact (Except.ok.inj hl).symm
  unfold Vel.shapeB at hV
  unfold stackFull at h
  rw [e] at h ⊢
  rw [show (V.comps.map fun a => a.shape) = V.comps.map Arr.shape from rfl, hV, ok_bind] at h
  obtain rfl := Except.ok.inj h
  simp [stackB]

end

/-- **C60 (pairs: batches raise).** A `GalileanSpatialTranslation` applied to a pair (position, velocity) with batch
shape `s ++ [n]` raises unless `n` happens to be the number of coordinates; all classes and values, any translation. -/
theorem C60_pair_batch_raises (d q : Pos BArr) (p : Vel BArr) (s : List ℕ) (n : ℕ) (hq : Uniform (s ++ [n]) q)
    (hp : VelShape p (s ++ [n])) (hn : n ≠ q.kind.dim) : ∃ e, (OpB.spatial d).call (.posVel q p) = .error e := by
  rcases hr : (OpB.spatial d).call (.posVel q p) with e | Q
  · exact ⟨e, rfl⟩
  exfalso
  simp only [OpB.call, callSpatialB] at hr
  obtain ⟨newq, h1, hr⟩ := (bind_ok_iff _ _ _).mp hr
  obtain ⟨W, h2, hr⟩ := (bind_ok_iff _ _ _).mp hr
  unfold spatialVelB at h2
  obtain ⟨qs, e1, h2⟩ := (bind_ok_iff _ _ _).mp h2
  obtain ⟨qc, e2, h2⟩ := (bind_ok_iff _ _ _).mp h2
  obtain ⟨pc, e3, h2⟩ := (bind_ok_iff _ _ _).mp h2
  obtain ⟨l, e4, h2⟩ := (bind_ok_iff _ _ _).mp h2
  obtain ⟨ps, e5, h2⟩ := (bind_ok_iff _ _ _).mp h2
  obtain ⟨qd, e6, h2⟩ := (bind_ok_iff _ _ _).mp h2
  obtain ⟨out, e7, h2⟩ := (bind_ok_iff _ _ _).mp h2
  obtain ⟨newp, e8, h2⟩ := (bind_ok_iff _ _ _).mp h2
  have a1 := toQuantityB_shape hq e1
  have a2 : qs.shape.dropLast = s ++ [n] := by rw [a1]; simp
  have a5 := stackFull_shape e4 (velCart_shape hp (cartPosOf_shape a2 e2) e3) e5
  unfold matmulB at e8
  simp only [translationJacobian, a2, a5, reverse_append, reverse_cons, reverse_nil, nil_append, cons_append,
    singleton_append] at e8
  rw [if_neg fun h => hn h.symm] at e8
  cases e8

theorem representB_cart3_self (n : ℕ) (kw : Kw BArr) (x y z : BArr) :
    representB (n + 1) kw (.cart3 x y z) .cart3 = .ok (.cart3 x y z) := by
  rw [representB]

theorem laxAdd_ok {X Y : BArr} {u : List ℕ} (h : laxShape X.shape Y.shape = .ok u) :
    ∃ Z, laxAdd X Y = .ok Z ∧ Z.shape = u := laxAdd_total h

theorem matmul_square (ps : BArr) (psh : ps.shape = [3, 3]) :
    ∃ w, matmulB (translationJacobian [3] [3] 3) ps = .ok w ∧ w.shape = [3, 3, 3, 3] ∧
      ∀ i e j k, i < 3 → e < 3 → j < 3 → k < 3 → (∀ n < 3, ∃ u : ℝ, ps.get [n, k] = some u) →
        w.get [i, e, j, k] = if i = j then ps.get [e, k] else some 0 := by
  have hu : bc2 [3, 3] [] = .ok [3, 3] := bc2_nil_right _
  have key : matmulB (translationJacobian [3] [3] 3) ps = .ok ⟨[3, 3] ++ [3, 3], fun idx =>
        let h := idx.dropLast.dropLast
        let i := idx.dropLast.getLastD 0
        let j := idx.getLastD 0
        sumEl ((List.range 3).map fun k => el2 (fun u v => .ok (u * v))
          ((translationJacobian [3] [3] 3).get (bcPos [3, 3] h ++ [i, k])) (ps.get (bcPos [] h ++ [k, j])))⟩ := by
    unfold matmulB
    rw [psh]
    simp only [translationJacobian, reverse_cons, reverse_nil, nil_append, cons_append, if_true, hu, ok_bind]
    rfl
  refine ⟨_, key, rfl, fun i e j k hi he hj hk hv => ?_⟩
  have b1 : bcPos [3, 3] [i, e] = [i, e] := by simp [bcPos, bcIdxRev]
  have b2 : bcPos [] [i, e] = [] := by simp [bcPos, bcIdxRev]
  have b3 : bcPos [3] [i] = [i] := by simp [bcPos, bcIdxRev]
  obtain ⟨u0, h0⟩ := hv 0 (by omega)
  obtain ⟨u1, h1⟩ := hv 1 (by omega)
  obtain ⟨u2, h2⟩ := hv 2 (by omega)
  simp only [dropLast, getLastD, b1, b2, cons_append, nil_append, translationJacobian, length_cons, length_nil, b3, take,
    drop, range_succ, range_zero, map_append, map_cons, map_nil, h0, h1, h2, getD, b3]
  simp only [getLast_cons_cons, getLast_singleton, h0, h1, h2, getElem?_cons_succ, getElem?_cons_zero, Option.getD_some,
    cons.injEq, and_true, Nat.zero_add]
  have pr : ∀ a b : ℝ, el2 (fun u v : ℝ => Except.ok (u * v)) (some a) (some b) = some (a * b) := fun a b => rfl
  have sm : ∀ a b c : ℝ, sumEl [some a, some b, some c] = some (a + (b + c)) := fun a b c => rfl
  rw [pr, pr, pr, sm]
  by_cases hij : i = j
  · have h3 : e = 0 ∨ e = 1 ∨ e = 2 := by omega
    rcases h3 with rfl | rfl | rfl <;> simp [hij, h0, h1, h2]
  · simp [hij]

/-- **C60 (pairs: square batches).** Where the batch size happens to be the number of coordinates, the call returns and
the velocity is wrong: for `N = 3` elements in three dimensions the velocity that comes back has shape `(3, 3, 3)`
instead of `(3,)`, and its component `k` at `(i, a, j)` is component `k` of the velocity of element `a` if `i = j` and 0
otherwise. -/
theorem C60_pair_square_wrong (dx dy dz x y z a b c : BArr) (hd : dx.shape = [] ∧ dy.shape = [] ∧ dz.shape = [])
    (hq : x.shape = [3] ∧ y.shape = [3] ∧ z.shape = [3]) (hp : a.shape = [3] ∧ b.shape = [3] ∧ c.shape = [3])
    (ha : ∀ n < 3, ∃ u v w : ℝ, a.get [n] = some u ∧ b.get [n] = some v ∧ c.get [n] = some w) :
    ∃ newq A B C, (OpB.spatial (.cart3 dx dy dz)).call (.posVel (.cart3 x y z) (.cart3 a b c)) =
        .ok (.posVel newq (.cart3 A B C)) ∧ A.shape = [3, 3, 3] ∧ B.shape = [3, 3, 3] ∧ C.shape = [3, 3, 3] ∧
      ∀ i e j, i < 3 → e < 3 → j < 3 → A.get [i, e, j] = (if i = j then a.get [e] else some 0) ∧
        B.get [i, e, j] = (if i = j then b.get [e] else some 0) ∧
        C.get [i, e, j] = (if i = j then c.get [e] else some 0) := by
  have add : ∀ x y z : BArr, x.shape = [3] → y.shape = [3] → z.shape = [3] →
      ∃ X Y Z, addPosB (.cart3 x y z) (.cart3 dx dy dz) = .ok (.cart3 X Y Z) ∧
        X.shape = [3] ∧ Y.shape = [3] ∧ Z.shape = [3] := fun x y z hx hy hz => by
    have l3 : laxShape [3] [] = .ok [3] := rfl
    obtain ⟨X, x1, x2⟩ := laxAdd_ok (X := x) (Y := dx) (by rw [hx, hd.1]; exact l3)
    obtain ⟨Y, y1, y2⟩ := laxAdd_ok (X := y) (Y := dy) (by rw [hy, hd.2.1]; exact l3)
    obtain ⟨Z, z1, z2⟩ := laxAdd_ok (X := z) (Y := dz) (by rw [hz, hd.2.2]; exact l3)
    refine ⟨X, Y, Z, ?_, x2, y2, z2⟩
    show binCartB laxAdd (.cart3 x y z) (.cart3 dx dy dz) = _
    unfold binCartB
    have : representAsB {} (.cart3 dx dy dz) (Pos.cart3 x y z).kind = .ok (.cart3 dx dy dz) := representB_cart3_self _ _ _ _ _
    rw [this, ok_bind]
    simp only [mapCart2B, x1, y1, z1, ok_bind]; rfl
  have bs : broadcastShapes [[3], [3], [3]] = .ok [3] := broadcast_const (by simp) (by simp)
  have toQ : ∀ x y z : BArr, x.shape = [3] → y.shape = [3] → z.shape = [3] →
      toQuantityB (.cart3 x y z) = .ok (stackB [3] [x.broadcastTo [3], y.broadcastTo [3], z.broadcastTo [3]]) :=
    fun x y z hx hy hz => by
      unfold toQuantityB toCartesianB
      have : representAsB {} (.cart3 x y z) (Pos.cart3 x y z).kind.cartesian = .ok (.cart3 x y z) :=
        representB_cart3_self _ _ _ _ _
      rw [this, ok_bind]
      simp only [Pos.cartArrays, ok_bind, map_cons, map_nil, hx, hy, hz, bs]
      rfl
  obtain ⟨X, Y, Z, n1, -⟩ := add x y z hq.1 hq.2.1 hq.2.2
  generalize hqs : stackB [3] [x.broadcastTo [3], y.broadcastTo [3], z.broadcastTo [3]] = qs
  have qsh : qs.shape = [3, 3] := by rw [← hqs]; rfl
  obtain ⟨X', Y', Z', m1, m2, m3, m4⟩ := add (sliceLast 0 qs) (sliceLast 1 qs) (sliceLast 2 qs)
    (by simp [sliceLast, qsh]) (by simp [sliceLast, qsh]) (by simp [sliceLast, qsh])
  generalize hps : stackB [3] [a.broadcastTo [3], b.broadcastTo [3], c.broadcastTo [3]] = ps
  have psh : ps.shape = [3, 3] := by rw [← hps]; rfl
  have self : ∀ (a b c : BArr) (P : Pos BArr), representVelB {} (.cart3 a b c) .cart3 P = .ok (.cart3 a b c) := fun a b c P => by
    unfold representVelB
    rw [if_neg (by simp [Vel.kind]), if_pos ⟨rfl, rfl⟩]
  generalize hout : stackB [3] [X'.broadcastTo [3], Y'.broadcastTo [3], Z'.broadcastTo [3]] = out
  have osh : out.shape = [3, 3] := by rw [← hout]; rfl
  obtain ⟨w, w1, w2, w3⟩ := matmul_square ps psh
  have hel : ∀ (k : ℕ) (u : BArr), [a, b, c][k]? = some u → ∀ n < 3, ps.get [n, k] = u.get [n] := fun k u hk n hn => by
    have hu : u.shape = [3] := by
      rcases k with _ | _ | _ | k <;> simp at hk <;> subst hk
      · exact hp.1
      · exact hp.2.1
      · exact hp.2.2
    rw [← hps]
    refine (stackB_get (l := [a, b, c]) (s := [3]) (idx := [n]) hk).trans ?_
    have e := (Arr.elem_get (a := u) (S := [3]) (i := [n]) (by rw [hu]; exact broadcastsTo_refl _) (.cons hn .nil)).1
    rw [e, hu, bcSource_self (.cons hn .nil)]
  refine ⟨.cart3 X Y Z, sliceLast 0 w, sliceLast 1 w, sliceLast 2 w, ?_, by simp [sliceLast, w2], by simp [sliceLast, w2],
    by simp [sliceLast, w2], fun i e j hi he hj => ?_⟩
  · have hv : spatialVelB (.cart3 dx dy dz) (.cart3 x y z) (.cart3 X Y Z) (.cart3 a b c) =
        .ok (.cart3 (sliceLast 0 w) (sliceLast 1 w) (sliceLast 2 w)) := by
      unfold spatialVelB
      rw [toQ x y z hq.1 hq.2.1 hq.2.2, ok_bind, hqs]
      have c1 : cartPosOf (Pos.cart3 x y z).kind.cartesian qs =
          .ok (.cart3 (sliceLast 0 qs) (sliceLast 1 qs) (sliceLast 2 qs)) := by
        show cartPosOf .cart3 qs = _
        unfold cartPosOf
        simp [qsh]
      have c2 : stackFull [a, b, c] = .ok ps := by
        unfold stackFull
        simp only [map_cons, map_nil, hp.1, hp.2.1, hp.2.2, bs, ok_bind]
        rw [← hps]; rfl
      have c3 : cartVelOf .cart3 w = .ok (.cart3 (sliceLast 0 w) (sliceLast 1 w) (sliceLast 2 w)) := by
        unfold cartVelOf
        simp [w2]
      rw [c1, ok_bind, show (Vel.cart3 a b c).kind.cartesian = .cart3 from rfl, self, ok_bind,
        show (Vel.cart3 a b c).cartArrays = .ok [a, b, c] from rfl, ok_bind, c2, ok_bind, m1, ok_bind,
        toQ X' Y' Z' m2 m3 m4, ok_bind, hout, osh, qsh,
        show (Pos.cart3 x y z).kind.dim = 3 from rfl, show ([3, 3] : List ℕ).dropLast = [3] from rfl, w1, ok_bind, c3, ok_bind]
      exact self _ _ _ _
    simp only [OpB.call, callSpatialB]
    rw [n1, ok_bind, hv, ok_bind]; rfl
  · have fin : ∀ (k : ℕ) (u : BArr), k < 3 → [a, b, c][k]? = some u → (∀ n < 3, ∃ v : ℝ, u.get [n] = some v) →
        (sliceLast k w).get [i, e, j] = if i = j then u.get [e] else some 0 := fun k u hk hu hv => by
      rw [← hel k u hu e he]
      exact w3 i e j k hi he hj hk fun n hn => by rw [hel k u hu n hn]; exact hv n hn
    exact ⟨fin 0 a (by omega) rfl fun n hn => (ha n hn).imp fun u h => by obtain ⟨_, _, h, _⟩ := h; exact h,
      fin 1 b (by omega) rfl fun n hn => by obtain ⟨_, v, _, _, h, _⟩ := ha n hn; exact ⟨v, h⟩,
      fin 2 c (by omega) rfl fun n hn => by obtain ⟨_, _, w, _, _, h⟩ := ha n hn; exact ⟨w, h⟩⟩

/-! ### a single pair -/

theorem slice_stack {S s : List ℕ} {l : List BArr} {w : BArr} (hl : ∀ a ∈ l, BroadcastsTo a.shape S)
    (hs : IsBroadcast (l.map fun a => a.shape) s) (h : stackFull l = .ok w) : w.shape = s ++ [l.length] ∧
      ∀ (k : ℕ) (a : BArr), l[k]? = some a → ∀ idx, InB S idx → (sliceLast k w).elem idx = a.elem idx := by
  obtain ⟨s', h1, h2, h3, h4⟩ := stackFull_spec hl
  have e : s' = s := broadcastsTo_antisymm (h4.2 s hs.1) (hs.2 s' h4.1)
  subst e
  rw [h1] at h
  obtain rfl := Except.ok.inj h
  refine ⟨by simp [stackB], fun k a hk idx hi => ?_⟩
  have e : ∀ b : BArr, BroadcastsTo b.shape S → b.elem idx = b.get (bcSource b.shape idx) :=
    fun b h => (Arr.elem_get h hi).1
  refine (e _ (by simpa [sliceLast, stackB] using h2)).trans ?_
  have hsh : (sliceLast k (stackB s' (l.map fun a => a.broadcastTo s'))).shape = s' := by simp [sliceLast, stackB]
  rw [hsh]
  show (stackB s' (l.map fun a => a.broadcastTo s')).get (bcSource s' idx ++ [k]) = _
  rw [stackB_get hk, elem_bcSource (h3 a (mem_of_getElem? hk)) h2 hi]

theorem toQuantityB_eq (q : Pos BArr) : toQuantityB q = (toCartesianB q >>= fun C => C.cartArrays >>= stackFull) := rfl

/-- stacking the Cartesian components and taking them apart again -/
theorem cart_roundtrip {S s : List ℕ} {C Q : Pos BArr} {l : List BArr} {w : BArr} (hC : ∀ a ∈ C.arrays, a.shape = s)
    (hs : BroadcastsTo s S) (h1 : C.cartArrays = .ok l) (h2 : stackFull l = .ok w) (h3 : cartPosOf C.kind w = .ok Q) :
    w.shape = s ++ [C.kind.dim] ∧ (∀ a ∈ Q.arrays, a.shape = s) ∧ Q.kind = C.kind ∧
      ∀ idx, InB S idx → Q.elem idx = C.elem idx := by
  have hl : l = C.arrays ∧ l.length = C.kind.dim ∧ l ≠ [] := by
    cases C <;> simp only [Pos.cartArrays, reduceCtorEq] at h1 <;> obtain rfl := Except.ok.inj h1 <;>
      exact ⟨rfl, rfl, by simp⟩
  have hb : IsBroadcast (l.map fun a => a.shape) s := (broadcastShapes_iff _ _).mp
    (broadcast_const (by simpa using hl.2.2) (by simpa [hl.1] using hC))
  obtain ⟨w1, w2⟩ := slice_stack (S := S) (fun a ha => by rw [hC a (hl.1 ▸ ha)]; exact hs) hb h2
  have sl : ∀ j, (sliceLast j w).shape = s := fun j => by simp [sliceLast, w1]
  refine ⟨by rw [w1, hl.2.1], ?_⟩
  cases C <;> simp only [Pos.cartArrays, reduceCtorEq] at h1 <;> obtain rfl := Except.ok.inj h1 <;>
    simp only [Pos.kind, cartPosOf] at h3 <;> split at h3 <;> (try (cases h3; done)) <;> obtain rfl := Except.ok.inj h3
  · exact ⟨by simp [Pos.arrays, sl], rfl, fun idx hi => by simp only [Pos.elem, w2 0 _ rfl idx hi]⟩
  · exact ⟨by simp [Pos.arrays, sl], rfl, fun idx hi => by simp only [Pos.elem, w2 0 _ rfl idx hi, w2 1 _ rfl idx hi]⟩
  · exact ⟨by simp [Pos.arrays, sl], rfl, fun idx hi => by
      simp only [Pos.elem, w2 0 _ rfl idx hi, w2 1 _ rfl idx hi, w2 2 _ rfl idx hi]⟩

theorem matmul_single {o : List ℕ} {F G : ℕ} {ps w : BArr} (psh : ps.shape = [G]) (hF : 1 ≤ F ∧ F ≤ 3)
    (h : matmulB (translationJacobian o [] F) ps = .ok w) : F = G ∧ w.shape = o ++ [F] ∧
      ∀ idx a, idx.length = o.length → a < F → (∀ l < F, ∃ u : ℝ, ps.get [l] = some u) → w.get (idx ++ [a]) = ps.get [a] := by
  have hrev : (translationJacobian o [] F).shape.reverse = F :: F :: o.reverse := by simp [translationJacobian]
  unfold matmulB at h
  simp only [hrev, psh, reverse_cons, reverse_nil, nil_append] at h
  by_cases hFG : F = G
  swap
  · rw [if_neg hFG] at h; cases h
  rw [if_pos hFG] at h
  obtain rfl := Except.ok.inj h
  refine ⟨hFG, by simp, fun idx a hi ha hv => ?_⟩
  have hJ : ∀ l, (translationJacobian o [] F).get (idx ++ [a] ++ [l]) = some (if a = l then 1 else 0) := fun l => by
    have b1 : bcPos [] idx = [] := by simp [bcPos]; cases idx.reverse <;> rfl
    simp only [translationJacobian, append_assoc, singleton_append, ← hi, take_left, b1]
    have e1 : (idx ++ [a, l]).getD idx.length 0 = a := by simp [getD]
    have e2 : ((idx ++ [a, l]).drop (idx.length + 1)).dropLast = [] := by simp [drop_append]
    have e3 : (idx ++ [a, l]).getLastD 0 = l := by
      rw [show idx ++ [a, l] = (idx ++ [a]) ++ [l] by simp, getLastD_concat]
    rw [e1, e2, e3]
    simp
  simp only [hJ]
  have pr : ∀ a b : ℝ, el2 (fun u v : ℝ => Except.ok (u * v)) (some a) (some b) = some (a * b) := fun a b => rfl
  obtain ⟨u0, h0⟩ := hv 0 (by omega)
  have hF3 : F = 1 ∨ F = 2 ∨ F = 3 := by omega
  rcases hF3 with rfl | rfl | rfl
  · obtain rfl : a = 0 := by omega
    simp [sumEl, h0, pr, range_succ]
  · obtain ⟨u1, h1⟩ := hv 1 (by omega)
    have sm : ∀ a b : ℝ, sumEl [some a, some b] = some (a + b) := fun a b => rfl
    have h3 : a = 0 ∨ a = 1 := by omega
    rcases h3 with rfl | rfl <;> simp [h0, h1, pr, range_succ, sm]
  · obtain ⟨u1, h1⟩ := hv 1 (by omega)
    obtain ⟨u2, h2⟩ := hv 2 (by omega)
    have sm : ∀ a b c : ℝ, sumEl [some a, some b, some c] = some (a + (b + c)) := fun a b c => rfl
    have h3 : a = 0 ∨ a = 1 ∨ a = 2 := by omega
    rcases h3 with rfl | rfl | rfl <;> simp [h0, h1, h2, pr, range_succ, sm]

/-- the translation applied to one Cartesian velocity -/
theorem cartVel_single {s : List ℕ} {F : ℕ} {pc W : Vel BArr} {l : List BArr} {ps w : BArr} {k : VKind} {v : Vel ℝ}
    (hk : pc.kind = k) (hpc : ∀ a ∈ pc.comps, a.shape = []) (h1 : pc.cartArrays = .ok l) (h2 : stackFull l = .ok ps)
    (hF : 1 ≤ F ∧ F ≤ 3) (h3 : matmulB (translationJacobian s [] F) ps = .ok w) (h4 : cartVelOf k w = .ok W) :
    pc.comps.length = F ∧ W.kind = k ∧ (∀ a ∈ W.comps, a.shape = s) ∧
      (pc.elem [] = some v → ∀ idx, InB s idx → W.elem idx = some v) := by
  have hl : l = pc.comps ∧ l ≠ [] := by
    cases pc <;> simp only [Vel.cartArrays, reduceCtorEq] at h1 <;> obtain rfl := Except.ok.inj h1 <;>
      exact ⟨rfl, by simp⟩
  have hb : IsBroadcast (l.map fun a => a.shape) [] := (broadcastShapes_iff _ _).mp
    (broadcast_const (by simpa using hl.2) (by simpa [hl.1] using hpc))
  obtain ⟨s1, s2⟩ := slice_stack (S := []) (fun a ha => by rw [hpc a (hl.1 ▸ ha)]; exact broadcastsTo_refl _) hb h2
  have hget : ∀ (n : ℕ) (a : BArr), l[n]? = some a → ps.get [n] = a.elem [] := fun n a hn => by
    have := s2 n a hn [] .nil
    rw [← this]
    have e : ∀ b : BArr, b.shape = [] → b.elem [] = b.get [] := fun b hb => by unfold Arr.elem; rw [hb]; rfl
    exact (e (sliceLast n ps) (by simp [sliceLast, s1])).symm
  obtain ⟨m1, m2, m3⟩ := matmul_single (by simpa using s1) hF h3
  have hfin : pc.elem [] = some v → ∀ n < F, ∃ u : ℝ, ps.get [n] = some u := fun hv n hn => by
    have hvc := (Vel.elem_iff.mp hv).2
    obtain ⟨a, ha⟩ : ∃ a, l[n]? = some a := ⟨l[n]'(m1 ▸ hn), by simp [m1 ▸ hn]⟩
    rw [hget n a ha]
    have h5 : (pc.comps.map fun a => a.elem [])[n]? = some (a.elem []) := by simp [← hl.1, ha]
    rw [hvc] at h5
    simp only [getElem?_map, Option.map_eq_some_iff] at h5
    obtain ⟨u, -, hu⟩ := h5
    exact ⟨u, hu.symm⟩
  have sl : ∀ j, (sliceLast j w).shape = s := fun j => by simp [sliceLast, m2]
  have hel : pc.elem [] = some v → ∀ (n : ℕ) (a : BArr), l[n]? = some a → ∀ idx, InB s idx →
      (sliceLast n w).elem idx = a.elem [] :=
    fun hv n a hn idx hi => by
      have e : ∀ b : BArr, BroadcastsTo b.shape s → b.elem idx = b.get (bcSource b.shape idx) :=
        fun b h => (Arr.elem_get h hi).1
      have hnF : n < F := by rw [m1]; exact (List.getElem?_eq_some_iff.mp hn).1
      rw [e _ (by rw [sl]; exact broadcastsTo_refl s), sl, bcSource_self hi, ← hget n a hn]
      exact m3 idx n (inB_length hi) hnF (hfin hv)
  refine ⟨by rw [m1, hl.1], ?_⟩
  subst hk
  cases pc <;> simp only [Vel.cartArrays, reduceCtorEq] at h1 <;> obtain rfl := Except.ok.inj h1 <;>
    simp only [Vel.kind, cartVelOf] at h4 <;> split at h4 <;> (try (cases h4; done)) <;> obtain rfl := Except.ok.inj h4
  · exact ⟨rfl, by simp [Vel.comps, sl], fun hv idx hi => by
      rw [← hv]; simp only [Vel.elem, Vel.mapM, hel hv 0 _ rfl idx hi]⟩
  · exact ⟨rfl, by simp [Vel.comps, sl], fun hv idx hi => by
      rw [← hv]; simp only [Vel.elem, Vel.mapM, hel hv 0 _ rfl idx hi, hel hv 1 _ rfl idx hi]⟩
  · exact ⟨rfl, by simp [Vel.comps, sl], fun hv idx hi => by
      rw [← hv]; simp only [Vel.elem, Vel.mapM, hel hv 0 _ rfl idx hi, hel hv 1 _ rfl idx hi, hel hv 2 _ rfl idx hi]⟩

theorem addPos_second {q d r : Pos ℝ} (h : addPos q d = .ok r) : ∃ c, representAs {} d q.kind.cartesian = .ok c := by
  unfold addPos at h
  cases q with
  | cart1 | cart2 | cart3 =>
    obtain ⟨c, hc, -⟩ := (bind_ok_iff _ _ _).mp h
    exact ⟨c, hc⟩
  | _ =>
    obtain ⟨a, -, h⟩ := (bind_ok_iff _ _ _).mp h
    obtain ⟨c, hc, -⟩ := (bind_ok_iff _ _ _).mp h
    exact ⟨c, hc⟩

/-- **C60 (pairs: a single pair).** A single (position, velocity) pair through a batch of spatial translations: whenever
the call returns, the element of the result at every batch index is what the translation at that index gives for the pair.
In particular, with a single translation (`s = []`), the array code computes the scalar code. -/
theorem C60_pair_single_elementwise (d q : Pos BArr) (p : Vel BArr) (Q : ArgB) (s idx : List ℕ) (hd : Uniform s d)
    (hq : Uniform [] q) (hp : ∀ a ∈ velComps p, a.shape = []) (hdim : d.kind.dim = q.kind.dim) (hi : InB s idx)
    (d0 q0 : Pos ℝ) (p0 : Vel ℝ) (hd0 : posAt idx d = some d0) (hq0 : posAt idx q = some q0) (hp0 : velAt idx p = some p0)
    (h : (OpB.spatial d).call (.posVel q p) = .ok Q) :
    ArgFits s Q ∧ (∀ r, (Op.spatial d0).call (.posVel q0 p0) = .ok r → argAt idx Q = some r) ∧
      ∀ e, (Op.spatial d0).call (.posVel q0 p0) = .error e → e = .nonFinite := by
  have fd : Fits s d := uniform_fits hd (broadcastsTo_refl s)
  have fq : Fits s q := uniform_fits hq (broadcastsTo_nil s)
  have fq' : Fits [] q := uniform_fits hq (broadcastsTo_refl [])
  have fp : VFits s p := fun a ha => by rw [hp a ha]; exact broadcastsTo_nil s
  obtain ⟨rfl, dd⟩ := defP_at fd hi hd0
  obtain ⟨rfl, dq⟩ := defP_at fq hi hq0
  obtain ⟨rfl, dp⟩ := (velAt_def fp hi).mp hp0
  simp only [OpB.call, callSpatialB] at h
  obtain ⟨newq, h1, h⟩ := (bind_ok_iff _ _ _).mp h
  obtain ⟨W, h2, h⟩ := (bind_ok_iff _ _ _).mp h
  obtain rfl := Except.ok.inj h
  have uq : UniP s [] q := ⟨.inr rfl, (uniform_sh hq).1, (uniform_sh hq).2⟩
  have ud : UniP s s d := ⟨.inl rfl, (uniform_sh hd).1, (uniform_sh hd).2⟩
  have hlax : laxShape [] s = .ok s := by unfold laxShape; rw [if_pos rfl]
  obtain ⟨n1, n2, n3⟩ := binPosB_shape isLax_add uq ud hdim.symm hlax h1
  have hnewq : PosShape newq s := by
    refine ⟨(broadcastShapes_iff _ _).mp (broadcast_const ?_ ?_), fun mu nu phi e he => ?_⟩
    · rw [coordsOf_eq]; cases newq <;> simp [Pos.coords]
    · intro a ha
      obtain ⟨b, hb, rfl⟩ := mem_map.mp ha
      exact n1 b (by rw [← coordsOf_eq]; exact hb)
    · rw [he] at n3; exact absurd rfl n3
  have simq := addPosB_sim (at_single hi) dq dd
  obtain ⟨f1, f2⟩ := simq.ok newq h1
  unfold spatialVelB at h2
  rw [toQuantityB_eq] at h2
  obtain ⟨qs, e1, h2⟩ := (bind_ok_iff _ _ _).mp h2
  obtain ⟨C, c1, e1⟩ := (bind_ok_iff _ _ _).mp e1
  obtain ⟨lq, c2, e1⟩ := (bind_ok_iff _ _ _).mp e1
  obtain ⟨qc, e2, h2⟩ := (bind_ok_iff _ _ _).mp h2
  obtain ⟨pc, e3, h2⟩ := (bind_ok_iff _ _ _).mp h2
  obtain ⟨l, e4, h2⟩ := (bind_ok_iff _ _ _).mp h2
  obtain ⟨ps, e5, h2⟩ := (bind_ok_iff _ _ _).mp h2
  obtain ⟨qd, e6, h2⟩ := (bind_ok_iff _ _ _).mp h2
  obtain ⟨out, e7, h2⟩ := (bind_ok_iff _ _ _).mp h2
  obtain ⟨newp, e8, h2⟩ := (bind_ok_iff _ _ _).mp h2
  obtain ⟨V, e9, h2⟩ := (bind_ok_iff _ _ _).mp h2
  have kC : C.kind = q.kind.cartesian := representB_kind _ _ _ _ _ c1
  have cC : C.kind.isCart = true := by rw [kC]; exact isCart_cartesian _
  have shC := toCart_shape uq.all uq.focal (k := q.kind) rfl c1
  rw [← kC] at e2
  obtain ⟨r1, r2, r3, r4⟩ := cart_roundtrip (S := []) shC (broadcastsTo_refl _) c2 e1 e2
  have cqc : qc.kind.isCart = true := by rw [r3]; exact cC
  -- the scalar position and its Cartesian form
  have hqel : q.elemD idx = q.elemD [] ∧ DefP {[]} [] q := by
    have e : ∀ a ∈ q.arrays, a.shape = [] := fun a ha => by
      have := fq' a (by rw [compsOf_eq]; exact ha)
      have hle := broadcastsTo_length this
      exact length_eq_zero_iff.mp (by simpa using hle)
    refine ⟨?_, fun a ha => ⟨by rw [e a ha]; exact broadcastsTo_refl _, fun i hi' => ?_⟩⟩
    · have hd : ∀ r : Dist BArr, r.raw.shape = [] → r.elemD idx = r.elemD [] := fun r hr => by
        cases r <;> simp only [Dist.elemD, Arr.elemD, Dist.raw] at hr ⊢ <;> rw [elem_rank0 hr idx []]
      have ha : ∀ a : BArr, a.shape = [] → a.elemD idx = a.elemD [] := fun a h => by
        unfold Arr.elemD; rw [elem_rank0 h idx []]
      cases q <;> simp only [Pos.arrays, mem_cons, not_mem_nil, or_false, forall_eq_or_imp, forall_eq] at e <;>
        simp only [Pos.elemD] <;> grind
    · cases hi'
      have := (dq a ha).val idx rfl
      unfold Arr.elemD at this ⊢
      rw [elem_rank0 (e a ha) idx []] at this
      exact this
  obtain ⟨hq1, dq'⟩ := hqel
  have simC := rep_sim_cart (T := True) (at_single (s := []) .nil) dq' (isCart_cartesian q.kind)
  obtain ⟨g1, g2⟩ := simC.ok C c1
  -- the scalar velocity
  have hpe : velAt [] p = some (p.elemD idx) := by
    have fp' : VFits [] p := fun a ha => by rw [hp a ha]; exact broadcastsTo_refl _
    rw [velAt_eq (fun a ha => fp a (by rw [velComps_eq]; exact ha)) hi] at hp0
    rw [velAt_eq (fun a ha => fp' a (by rw [velComps_eq]; exact ha)) .nil, Vel.elem_iff]
    rw [Vel.elem_iff] at hp0
    refine ⟨hp0.1, ?_⟩
    rw [← hp0.2]
    exact map_congr_left fun a ha => elem_rank0 (hp a (by rw [velComps_eq]; exact ha)) [] idx
  rw [velAt_eq (s := []) (fun a ha => by rw [hp a (by rw [velComps_eq]; exact ha)]; exact broadcastsTo_refl _) .nil] at hpe
  have vsp : VelShape p [] := (broadcastShapes_iff _ _).mp (broadcast_const (by
    rw [velComps_eq]; cases p <;> simp [Vel.comps]) (by simpa using hp))
  have psq : PosShape qc [] := cartPosOf_shape (by rw [r1]; rfl) e2
  have kp : p.kind = (p.elemD idx).kind := (Vel.elem_iff.mp hpe).1
  obtain ⟨v1, v2, v3⟩ := representVelB_elem vsp psq e3
  have hpcs : ∀ a ∈ pc.comps, a.shape = [] := fun a ha =>
    length_eq_zero_iff.mp (by simpa using broadcastsTo_length (v2 a ha))
  -- the shape of the translated Cartesian position
  have uqc : UniP s [] qc := ⟨.inr rfl, by rw [AllSh, ← cart_arrays cqc]; exact r2, focalSh_of_kind (by
    rw [r3, kC]; cases q.kind <;> decide)⟩
  have dimc : qc.kind.dim = d.kind.dim := by rw [r3, kC, dim_cartesian, hdim]
  obtain ⟨o1, o2, o3⟩ := binPosB_shape isLax_add uqc ud dimc hlax e6
  have osh : out.shape = s ++ [qd.kind.dim] := toQuantityB_shape ⟨by rw [coordsOf_eq]; exact o1, fun mu nu phi e he => by
    rw [he] at o3; exact absurd rfl o3⟩ e7
  have j1 : out.shape.dropLast = s := by rw [osh]; simp
  have j2 : qs.shape.dropLast = [] := by rw [r1]; simp
  rw [j1, j2] at e8
  have hF : 1 ≤ q.kind.dim ∧ q.kind.dim ≤ 3 := by cases q.kind <;> decide
  -- the scalar call
  have hcall : (Op.spatial (d.elemD idx)).call (.posVel (q.elemD idx) (p.elemD idx)) =
      (addPos (q.elemD idx) (d.elemD idx) >>= fun nq =>
        spatialVel (d.elemD idx) (q.elemD idx) nq (p.elemD idx) >>= fun v => .ok (.posVel nq v)) := by
    simp only [Op.call, callSpatial]; rfl
  rw [hcall]
  have hfitW : (∀ a ∈ W.comps, BroadcastsTo a.shape s) → ArgFits s (.posVel newq W) := fun h =>
    ⟨by unfold Fits; rw [compsOf_eq]; exact f1, fun a ha => h a (by rw [← velComps_eq]; exact ha)⟩
  have kcv : p.kind.cartesian.dim = q.kind.dim := by
    have := (cartVel_single (v := .cart1 0) v1 hpcs e4 e5 hF e8 e9).1
    rw [← this, ← v1]
    cases pc <;> simp only [Vel.cartArrays, reduceCtorEq] at e4 <;> rfl
  obtain ⟨-, kV, shV, -⟩ := cartVel_single (v := .cart1 0) v1 hpcs e4 e5 hF e8 e9
  have vsV : VelShape V s := (broadcastShapes_iff _ _).mp (broadcast_const (by
    rw [velComps_eq]; cases V <;> simp [Vel.comps]) (by rw [velComps_eq]; simpa using shV))
  obtain ⟨w1, w2, w3⟩ := representVelB_elem vsV hnewq h2
  have fitW := hfitW w2
  refine ⟨fitW, ?_⟩
  -- where the scalar code fails it fails with a division by zero
  have key : ∀ nq, addPos (q.elemD idx) (d.elemD idx) = .ok nq → 
      (∀ v, spatialVel (d.elemD idx) (q.elemD idx) nq (p.elemD idx) = .ok v → W.elem idx = some v) ∧
      ∀ e, spatialVel (d.elemD idx) (q.elemD idx) nq (p.elemD idx) = .error e → e = .nonFinite := fun nq hnq => by
    have hne := (f2 idx rfl).1 nq hnq
    unfold spatialVel
    rw [← kp]
    cases hc : toCartesian (q.elemD idx) with
    | error e' =>
      rw [hq1] at hc
      have := (g2 [] rfl).2 e' (by rw [← hc, toCartesian, elemD_kind])
      subst this
      exact ⟨fun v hv => (by cases hv), fun e he => (by cases he; rfl)⟩
    | ok c =>
      have hcC : C.elem [] = some c := (g2 [] rfl).1 c (by rw [← hc, hq1, toCartesian, elemD_kind])
      have hcq : qc.elem [] = some c := by rw [r4 [] .nil, hcC]
      have kc : c.kind = q.kind.cartesian := by
        rw [← elemD_kind (i := idx)]; exact representAs_kind hc
      simp only [ok_bind]
      obtain ⟨x1, x2⟩ := v3 [] .nil _ _ hpe hcq
      cases hv : representVel {} (p.elemD idx) p.kind.cartesian c with
      | error e' =>
        obtain rfl := x2 e' hv
        exact ⟨fun v hv => (by cases hv), fun e he => (by cases he; rfl)⟩
      | ok v =>
        have hpv := x1 v hv
        obtain ⟨dc, hdc⟩ := addPos_second hnq
        rw [elemD_kind, ← kc] at hdc
        have kv : v.kind = p.kind.cartesian := by rw [← (Vel.elem_iff.mp hpv).1, v1]
        obtain ⟨cols, y1, y2⟩ := spatialJacobian_contract (qc := c) (dc := dc) (pc := v) (by rw [kc]; exact isCart_cartesian _)
          (representAs_kind hdc) (by rw [kv, kc]; revert kcv; cases p.kind <;> cases q.kind <;> decide)
        simp only [ok_bind, hdc, y1, y2]
        obtain ⟨-, -, -, hVe⟩ := cartVel_single (v := v) v1 hpcs e4 e5 hF e8 e9
        exact w3 idx hi v nq (hVe hpv idx hi) hne
  constructor
  · intro r hr
    obtain ⟨nq, hnq, hr⟩ := (bind_ok_iff _ _ _).mp hr
    obtain ⟨v, hv, hr⟩ := (bind_ok_iff _ _ _).mp hr
    obtain rfl := Except.ok.inj hr
    have a1 := (f2 idx rfl).1 nq hnq
    have a2 := (key nq hnq).1 v hv
    simp only [argAt]
    rw [posAt_eq fitW.1 hi, velAt_eq (fun a ha => fitW.2 a (by rw [velComps_eq]; exact ha)) hi, a1, a2]
    rfl
  · intro e he
    cases hnq : addPos (q.elemD idx) (d.elemD idx) with
    | error e' => rw [hnq] at he; cases he; exact (f2 idx rfl).2 _ hnq
    | ok nq =>
      rw [hnq, ok_bind] at he
      cases hv : spatialVel (d.elemD idx) (q.elemD idx) nq (p.elemD idx) with
      | error e' => rw [hv] at he; cases he; exact (key nq hnq).2 _ hv
      | ok v => rw [hv, ok_bind] at he; cases he

theorem cart_passes {c : Pos ℝ} (h : c.kind.isCart = true) : Passes c := by
  cases c <;> first | trivial | cases h

theorem cart_stack {C : Pos BArr} (hc : C.kind.isCart = true) {s : List ℕ} (hs : ∀ a ∈ C.arrays, a.shape = s) :
    ∃ l w, C.cartArrays = .ok l ∧ stackFull l = .ok w ∧ ∃ Q, cartPosOf C.kind w = .ok Q := by
  have key : ∀ l : List BArr, (∀ a ∈ l, a.shape = s) → l ≠ [] →
      ∃ w, stackFull l = .ok w ∧ w.shape = s ++ [l.length] := fun l hl hne => by
    obtain ⟨s', h1, h2, h3, h4⟩ := stackFull_spec (S := s) (l := l) fun a ha => by rw [hl a ha]; exact broadcastsTo_refl s
    have := (broadcastShapes_iff _ _).mp (broadcast_const (l := l.map fun a => a.shape) (s := s) (by simpa using hne) (by simpa using hl))
    have e : s' = s := broadcastsTo_antisymm (h4.2 s this.1) (this.2 s' h4.1)
    subst e
    exact ⟨_, h1, by simp [stackB]⟩
  cases C <;> first | (cases hc; done) | skip
  all_goals
    obtain ⟨w, h1, h2⟩ := key (Pos.arrays _) hs (by simp [Pos.arrays])
    refine ⟨_, w, rfl, h1, ?_⟩
    simp [Pos.kind, cartPosOf, h2, Pos.arrays]

theorem toCartesianB_self {P : Pos BArr} (h : P.kind.isCart = true) : toCartesianB P = .ok P := by
  have key : ∀ (n : ℕ) (kw : Kw BArr) (Q : Pos BArr), Q.kind.isCart = true →
      representB (n + 1) kw Q Q.kind.cartesian = .ok Q := fun n kw Q hQ => by
    cases Q with
    | cart1 => show representB (n + 1) kw _ .cart1 = _; rw [representB]
    | cart2 => show representB (n + 1) kw _ .cart2 = _; rw [representB]
    | cart3 => show representB (n + 1) kw _ .cart3 = _; rw [representB]
    | _ => cases hQ
  exact key 199 {} P h

theorem vel_stack {p : Vel BArr} (hc : p.kind = p.kind.cartesian) (hs : ∀ a ∈ p.comps, a.shape = []) :
    ∃ l w, p.cartArrays = .ok l ∧ stackFull l = .ok w ∧ w.shape = [p.kind.dim] := by
  have key : ∀ l : List BArr, (∀ a ∈ l, a.shape = []) → l ≠ [] →
      ∃ w, stackFull l = .ok w ∧ w.shape = [l.length] := fun l hl hne => by
    obtain ⟨s', h1, h2, h3, h4⟩ := stackFull_spec (S := []) (l := l) fun a ha => by rw [hl a ha]; exact broadcastsTo_refl _
    have := (broadcastShapes_iff _ _).mp (broadcast_const (l := l.map fun a => a.shape) (s := []) (by simpa using hne) (by simpa using hl))
    have e : s' = [] := broadcastsTo_antisymm (h4.2 [] this.1) (this.2 s' h4.1)
    subst e
    exact ⟨_, h1, by simp [stackB]⟩
  cases p <;> first | (cases hc; done) | skip
  all_goals
    obtain ⟨w, h1, h2⟩ := key (Vel.comps _) hs (by simp [Vel.comps])
    exact ⟨_, w, rfl, h1, h2⟩

theorem matmul_single_ok (o : List ℕ) {F : ℕ} {ps : BArr} (psh : ps.shape = [F]) (hF : 1 ≤ F ∧ F ≤ 3) :
    ∃ w, matmulB (translationJacobian o [] F) ps = .ok w ∧ w.shape = o ++ [F] := by
  have hrev : (translationJacobian o [] F).shape.reverse = F :: F :: o.reverse := by simp [translationJacobian]
  have : ∃ w, matmulB (translationJacobian o [] F) ps = .ok w := by
    unfold matmulB
    simp only [hrev, psh, reverse_cons, reverse_nil, nil_append]
    exact ⟨_, rfl⟩
  obtain ⟨w, hw⟩ := this
  exact ⟨w, hw, (matmul_single psh hF hw).2.1⟩

theorem single_elemD {q : Pos BArr} (e : ∀ a ∈ q.arrays, a.shape = []) (idx : List ℕ) : q.elemD idx = q.elemD [] := by
  have hd : ∀ r : Dist BArr, r.raw.shape = [] → r.elemD idx = r.elemD [] := fun r hr => by
    cases r <;> simp only [Dist.elemD, Arr.elemD, Dist.raw] at hr ⊢ <;> rw [elem_rank0 hr idx []]
  have ha : ∀ a : BArr, a.shape = [] → a.elemD idx = a.elemD [] := fun a h => by
    unfold Arr.elemD; rw [elem_rank0 h idx []]
  cases q <;> simp only [Pos.arrays, mem_cons, not_mem_nil, or_false, forall_eq_or_imp, forall_eq] at e <;>
    simp only [Pos.elemD] <;> grind

/-- **C60 (pairs: a single pair returns).** A single (position, velocity) pair through a batch of spatial translations: if
the scalar call returns for the translation at every index, the call returns. -/
theorem C60_pair_single_returns (d q : Pos BArr) (p : Vel BArr) (s : List ℕ) (hd : Uniform s d)
    (hq : Uniform [] q) (hp : ∀ a ∈ velComps p, a.shape = []) (hdim : d.kind.dim = q.kind.dim)
    (hpd : p.kind.dim = q.kind.dim) (h0 : 0 ∉ s)
    (h : ∀ idx, InB s idx → ∃ d0 q0 p0 r, posAt idx d = some d0 ∧ posAt idx q = some q0 ∧ velAt idx p = some p0 ∧
      Valid d0 ∧ Valid q0 ∧ (Op.spatial d0).call (.posVel q0 p0) = .ok r) :
    ∃ Q, (OpB.spatial d).call (.posVel q p) = .ok Q := by
  have fd : Fits s d := uniform_fits hd (broadcastsTo_refl s)
  have fq : Fits s q := uniform_fits hq (broadcastsTo_nil s)
  have fq' : Fits [] q := uniform_fits hq (broadcastsTo_refl [])
  have fp : VFits s p := fun a ha => by rw [hp a ha]; exact broadcastsTo_nil s
  have uq : UniP s [] q := ⟨.inr rfl, (uniform_sh hq).1, (uniform_sh hq).2⟩
  have ud : UniP s s d := ⟨.inl rfl, (uniform_sh hd).1, (uniform_sh hd).2⟩
  have hlax : laxShape [] s = .ok s := by unfold laxShape; rw [if_pos rfl]
  have hF : Full {i | InB s i} s := ⟨rfl, h0⟩
  have hF0 : Full {i | InB [] i} [] := ⟨rfl, by simp⟩
  obtain ⟨i0, hi0⟩ := hF.nonempty
  have dq : DefP {i | InB s i} s q := defP_full fq fun i hi => by
    obtain ⟨d0, q0, p0, r, h1, h2, h3, -⟩ := h i hi; exact ⟨q0, h2⟩
  have dd : DefP {i | InB s i} s d := defP_full fd fun i hi => by
    obtain ⟨d0, q0, p0, r, h1, h2, h3, -⟩ := h i hi; exact ⟨d0, h1⟩
  have eq0 : ∀ a ∈ q.arrays, a.shape = [] := fun a ha => by
    have := fq' a (by rw [compsOf_eq]; exact ha)
    exact length_eq_zero_iff.mp (by simpa using broadcastsTo_length this)
  have dq' : DefP {i | InB [] i} [] q := fun a ha => ⟨by rw [eq0 a ha]; exact broadcastsTo_refl _, fun i hi' => by
    have := (dq a ha).val i0 hi0
    unfold Arr.elemD at this ⊢
    rw [elem_rank0 (eq0 a ha) i i0]
    exact this⟩
  -- the scalar runs
  have run : ∀ i, InB s i → ∃ nq c v dc w, Valid (d.elemD i) ∧ Valid (q.elemD []) ∧ addPos (q.elemD []) (d.elemD i) = .ok nq ∧
      toCartesian (q.elemD []) = .ok c ∧ velAt i p = some (p.elemD i) ∧
      representVel {} (p.elemD i) p.kind.cartesian c = .ok v ∧ representAs {} (d.elemD i) c.kind = .ok dc ∧
      representVel {} v p.kind nq = .ok w ∧ v.kind.integral = c.kind := fun i hi => by
    obtain ⟨d0, q0, p0, r, h1, h2, h3, hvd, hvq, h4⟩ := h i hi
    obtain ⟨rfl, -⟩ := defP_at fd hi h1
    obtain ⟨rfl, -⟩ := defP_at fq hi h2
    obtain ⟨rfl, -⟩ := (velAt_def fp hi).mp h3
    have hcall : (Op.spatial (d.elemD i)).call (.posVel (q.elemD i) (p.elemD i)) =
        (addPos (q.elemD i) (d.elemD i) >>= fun nq =>
          spatialVel (d.elemD i) (q.elemD i) nq (p.elemD i) >>= fun v => .ok (.posVel nq v)) := by
      simp only [Op.call, callSpatial]; rfl
    rw [hcall, single_elemD eq0 i] at h4
    rw [single_elemD eq0 i] at hvq
    obtain ⟨nq, g1, h4⟩ := (bind_ok_iff _ _ _).mp h4
    obtain ⟨w, g2, h4⟩ := (bind_ok_iff _ _ _).mp h4
    unfold spatialVel at g2
    obtain ⟨c, k1, g2⟩ := (bind_ok_iff _ _ _).mp g2
    obtain ⟨v, k2, g2⟩ := (bind_ok_iff _ _ _).mp g2
    obtain ⟨dc, k3, g2⟩ := (bind_ok_iff _ _ _).mp g2
    obtain ⟨cols, k4, g2⟩ := (bind_ok_iff _ _ _).mp g2
    obtain ⟨v', k5, k6⟩ := (bind_ok_iff _ _ _).mp g2
    clear g2
    have kp : (p.elemD i).kind = p.kind := by cases p <;> rfl
    rw [kp] at k2 k6
    have cc : c.kind.isCart = true := by rw [representAs_kind k1]; exact isCart_cartesian _
    have hint : v.kind.integral = c.kind := by
      rw [representVel_kind k2, vcart_integral, representAs_kind k1, elemD_kind]
      revert hpd
      cases p.kind <;> cases q.kind <;> decide
    obtain ⟨cols', y1, y2⟩ := spatialJacobian_contract (qc := c) (dc := dc) (pc := v) cc (representAs_kind k3) hint
    rw [k4] at y1
    obtain rfl := Except.ok.inj y1
    rw [k5] at y2
    obtain rfl := Except.ok.inj y2
    exact ⟨nq, c, v', dc, w, hvd, hvq, g1, k1, h3, k2, k3, k6, hint⟩
  obtain ⟨newq, u, e1, un, kn, dn, -, hu⟩ := addPosB_total hF dq dd uq ud hdim.symm fun i hi => by
    obtain ⟨nq, c, v, dc, w, -, -, a1, -⟩ := run i hi
    rw [single_elemD eq0 i]; exact ⟨nq, a1⟩
  rw [hu rfl] at un
  obtain ⟨nq0, c, v0, dc0, w0, -, hvq, -, hc, hp0, hv0, -, -, hint0⟩ := run i0 hi0
  have simC := rep_sim_cart (T := True) (fun i hi => hi) dq' (isCart_cartesian q.kind)
  obtain ⟨C, hC⟩ := simC.total trivial hF0 fun i hi => ⟨c, by cases hi; rw [← hc, toCartesian, elemD_kind]⟩
  have cel : C.elem [] = some c := ((simC.ok C hC).2 [] .nil).1 c (by rw [← hc, toCartesian, elemD_kind])
  have kC : C.kind = q.kind.cartesian := representB_kind _ _ _ _ _ hC
  have cC : C.kind.isCart = true := by rw [kC]; exact isCart_cartesian _
  have shC := toCart_shape uq.all uq.focal (k := q.kind) rfl hC
  obtain ⟨lq, qs, f1, f2, qc, f3⟩ := cart_stack cC shC
  obtain ⟨r1, r2, r3, r4⟩ := cart_roundtrip (S := []) shC (broadcastsTo_refl _) f1 f2 f3
  have cqc : qc.kind.isCart = true := by rw [r3]; exact cC
  have psq : PosShape qc [] := cartPosOf_shape (by rw [r1]; rfl) f3
  have hqe : qc.elem [] = some c := by rw [r4 [] .nil, cel]
  have pel : ∀ i, InB s i → p.elem [] = some (p.elemD i) := fun i hi => by
    obtain ⟨_, _, _, _, _, -, -, -, -, hp0, -⟩ := run i hi
    rw [velAt_eq (fun a ha => fp a (by rw [velComps_eq]; exact ha)) hi, Vel.elem_iff] at hp0
    rw [Vel.elem_iff]
    refine ⟨hp0.1, ?_⟩
    rw [← hp0.2]
    exact map_congr_left fun a ha => elem_rank0 (hp a (by rw [velComps_eq]; exact ha)) [] i
  have vsp : VelShape p [] := (broadcastShapes_iff _ _).mp (broadcast_const (by
    rw [velComps_eq]; cases p <;> simp [Vel.comps]) (by simpa using hp))
  obtain ⟨pc, f4⟩ := representVelB_total (kw := {}) (k := p.kind.cartesian) vsp psq (by simp) fun idx hi => by
    cases hi
    exact ⟨_, c, v0, pel i0 hi0, hqe, cart_passes (by rw [representAs_kind hc]; exact isCart_cartesian _), hv0⟩
  obtain ⟨v1, v2, v3⟩ := representVelB_elem vsp psq f4
  have hpcs : ∀ a ∈ pc.comps, a.shape = [] := fun a ha =>
    length_eq_zero_iff.mp (by simpa using broadcastsTo_length (v2 a ha))
  obtain ⟨l, ps, f5, f6, f7⟩ := vel_stack (p := pc) (by rw [v1]; cases p.kind <;> rfl) hpcs
  -- the translated Cartesian position
  have uqc : UniP s [] qc := ⟨.inr rfl, by rw [AllSh, ← cart_arrays cqc]; exact r2, focalSh_of_kind (by
    rw [r3, kC]; cases q.kind <;> decide)⟩
  have dimc : qc.kind.dim = d.kind.dim := by rw [r3, kC, dim_cartesian, hdim]
  have qce : ∀ i, qc.elemD i = c := fun i => by
    rw [single_elemD r2 i]; exact (Pos.elem_some hqe).1
  have dqc : DefP {i | InB s i} s qc := fun a ha => ⟨by rw [r2 a ha]; exact broadcastsTo_nil _, fun i hi => by
    rw [elem_rank0 (r2 a ha) i [], (Pos.elem_some hqe).2 a ha]
    unfold Arr.elemD; rw [elem_rank0 (r2 a ha) i []]⟩
  have kc : c.kind = q.kind.cartesian := by rw [representAs_kind hc, elemD_kind]
  have cc : c.kind.isCart = true := by rw [kc]; exact isCart_cartesian _
  obtain ⟨qd, u', f8, uqd, kqd, dqd, -, hu'⟩ := addPosB_total hF dqc dd uqc ud dimc fun i hi => by
    obtain ⟨nq, c', v, dc, w, -, -, -, b1, -, -, b2, -⟩ := run i hi
    rw [hc] at b1
    obtain rfl := Except.ok.inj b1
    rw [qce, addPos, binPos_cart cc, binCart, b2, ok_bind]
    obtain ⟨r, hr, -⟩ := mapCart2_total (fun x y : ℝ => x + y) c dc cc (representAs_kind b2) (by simp)
    exact ⟨r, hr⟩
  rw [hu' rfl] at uqd
  have cqd : qd.kind.isCart = true := by rw [kqd, cqc]
  obtain ⟨lo, out, f9, f10, -⟩ := cart_stack (s := s) cqd (by rw [cart_arrays cqd]; exact uqd.all)
  have f11 : toQuantityB qd = .ok out := by
    rw [toQuantityB_eq, toCartesianB_self cqd, ok_bind, f9, ok_bind, f10]
  have osh : out.shape.dropLast = s := by
    rw [toQuantityB_shape ⟨by rw [coordsOf_eq]; exact uqd.all, fun mu nu phi e he => by
      rw [he] at cqd; cases cqd⟩ f11, dropLast_concat]
  have f11' : toQuantityB q = .ok qs := by rw [toQuantityB_eq]; unfold toCartesianB; rw [hC, ok_bind, f1, ok_bind, f2]
  have qsh : qs.shape.dropLast = [] := by rw [r1]; simp
  have hF3 : 1 ≤ q.kind.dim ∧ q.kind.dim ≤ 3 := by cases q.kind <;> decide
  obtain ⟨newp, f12, nsh⟩ := matmul_single_ok s (F := q.kind.dim) (ps := ps) (by
    rw [f7, v1, vcart_dim, hpd]) hF3
  have : ∃ V, cartVelOf p.kind.cartesian newp = .ok V := by
    have hl : newp.shape.getLast? = some p.kind.cartesian.dim := by rw [nsh, vcart_dim, hpd]; simp
    revert hl
    cases p.kind <;> intro hl <;> simp only [VKind.cartesian, VKind.dim] at hl ⊢ <;>
      simp only [cartVelOf, hl] <;> exact ⟨_, rfl⟩
  obtain ⟨V, f13⟩ := this
  obtain ⟨-, kV, shV, -⟩ := cartVel_single (v := .cart1 0) v1 hpcs f5 f6 hF3 f12 f13
  have vsV : VelShape V s := (broadcastShapes_iff _ _).mp (broadcast_const (by
    rw [velComps_eq]; cases V <;> simp [Vel.comps]) (by rw [velComps_eq]; simpa using shV))
  have knp : newq.kind ≠ .prolate := (binPosB_shape isLax_add uq ud hdim.symm hlax e1).2.2
  have hnewq : PosShape newq s := by
    refine ⟨(broadcastShapes_iff _ _).mp (broadcast_const ?_ ?_), fun mu nu phi e he => ?_⟩
    · rw [coordsOf_eq]; cases newq <;> simp [Pos.coords]
    · intro a ha
      obtain ⟨b, hb, rfl⟩ := mem_map.mp ha
      exact un.all b (by rw [← coordsOf_eq]; exact hb)
    · rw [he] at knp; exact absurd rfl knp
  have simq := addPosB_sim (fun i hi => hi) dq dd
  obtain ⟨W, f14⟩ := representVelB_total (kw := {}) (k := p.kind) vsV hnewq h0 fun idx hi => by
    obtain ⟨nq, c', v, dc, w, hvd, hvq, b0, b1, -, b2, -, b3, -⟩ := run idx hi
    rw [hc] at b1
    obtain rfl := Except.ok.inj b1
    have hpv : pc.elem [] = some v := (v3 [] .nil _ _ (pel idx hi) hqe).1 v b2
    obtain ⟨-, -, -, hVe⟩ := cartVel_single (v := v) v1 hpcs f5 f6 hF3 f12 f13
    refine ⟨v, nq, w, hVe hpv idx hi, ((simq.ok newq e1).2 idx hi).1 nq (by rw [single_elemD eq0 idx]; exact b0), ?_, b3⟩
    exact Valid.passes (addPos_good hvq hvd (by simp only [elemD_kind, hdim]) b0).2.1
  refine ⟨.posVel newq W, ?_⟩
  have : spatialVelB d q newq p = .ok W := by
    unfold spatialVelB
    rw [f11', ok_bind, ← kC, f3, ok_bind, f4, ok_bind, f5, ok_bind, f6, ok_bind, f8, ok_bind, f11, ok_bind, osh, qsh,
      f12, ok_bind, f13, ok_bind, f14]
  simp only [OpB.call, callSpatialB, e1, ok_bind, this]
  rfl

/-! ### the hypotheses are met -/

/-- two translations along the x axis -/
noncomputable def pairShift : Pos BArr :=
  .cart3 ⟨[2], fun i => some (if i = [0] then 10 else 20)⟩ ⟨[2], fun _ => some 0⟩ ⟨[2], fun _ => some 0⟩

/-- a single position, shape `s` -/
noncomputable def pairPos (s : List ℕ) : Pos BArr := .cart3 ⟨s, fun _ => some 4⟩ ⟨s, fun _ => some 5⟩ ⟨s, fun _ => some 6⟩

/-- a single cylindrical velocity, shape `s` -/
noncomputable def pairVel (s : List ℕ) : Vel BArr := .cyl ⟨s, fun _ => some 1⟩ ⟨s, fun _ => some 2⟩ ⟨s, fun _ => some 3⟩

/-- a pair through two translations returns; its element at index 1 is the position `(24, 5, 6)` with a cylindrical
velocity -/
example : ∃ Q, (OpB.spatial pairShift).call (.posVel (pairPos []) (pairVel [])) = .ok Q ∧
    ∃ q p, argAt [1] Q = some (.posVel q p) ∧ q.kind = .cart3 ∧ point q = V3.mk 24 5 6 ∧ p.kind = .cyl := by
  have u1 : Uniform [2] pairShift := ⟨by simp [pairShift, coordsOf, compsOf], fun _ _ _ _ h => (by cases h)⟩
  have u2 : Uniform [] (pairPos []) := ⟨by simp [pairPos, coordsOf, compsOf], fun _ _ _ _ h => (by cases h)⟩
  have u3 : ∀ a ∈ velComps (pairVel []), a.shape = [] := by simp [pairVel, velComps]
  have sc : ∀ x : ℝ, 0 < x → ∃ q p, (Op.spatial (.cart3 x 0 0)).call (.posVel (.cart3 4 5 6) (.cyl 1 2 3)) =
      .ok (.posVel q p) ∧ q.kind = .cart3 ∧ point q = V3.mk (4 + x) 5 6 ∧ p.kind = .cyl := fun x hx => by
    have v3 : ∀ x y z : ℝ, Valid3 (.cart3 x y z) := fun x y z => ⟨trivial, rfl⟩
    obtain ⟨q', h⟩ := addPos_total3 (v3 4 5 6) (v3 x 0 0) (fun h => by cases h) (Or.inl rfl)
    have hc : (Op.spatial (.cart3 x 0 0)).call (.pos (.cart3 4 5 6)) = .ok (.pos q') := by
      simp only [Op.call, callSpatial, h]; rfl
    obtain ⟨e1, e2, p', h1, h2, _⟩ := C32_translation_keeps_velocity (.cart3 x 0 0) (.cart3 4 5 6) q'
      (.cyl 1 2 3) trivial trivial rfl rfl (fun h => by cases h) (fun h => by cases h)
      (fun h => by cases h) (fun h => by cases h) (by norm_num [Regular, OffAxis, point, Vel.kind, VKind.integral])
      (by norm_num [Regular, OffAxis, point, Vel.kind, VKind.integral, V3.add]) hc
    exact ⟨q', p', h1, e2, e1.trans (by simp [point, V3.add]), h2⟩
  have hd : ∀ idx : List ℕ, ∃ x : ℝ, 0 < x ∧ posAt idx pairShift = some (.cart3 x 0 0) := fun idx =>
    ⟨if bcSource [2] idx = [0] then 10 else 20, by split <;> norm_num, rfl⟩
  obtain ⟨Q, hQ⟩ := C60_pair_single_returns pairShift (pairPos []) (pairVel []) [2] u1 u2 u3 rfl rfl (by simp)
    fun idx _ => by
      obtain ⟨x, hx, h⟩ := hd idx
      obtain ⟨q, p, h', -⟩ := sc x hx
      exact ⟨_, _, _, _, h, rfl, rfl, trivial, trivial, h'⟩
  have e1 : posAt [1] pairShift = some (.cart3 20 0 0) := by
    simp [posAt, pairShift, at_, bcSource]
  obtain ⟨q, p, h1, h2, h3, h4⟩ := sc 20 (by norm_num)
  obtain ⟨-, h5, -⟩ := C60_pair_single_elementwise pairShift (pairPos []) (pairVel []) Q [2] [1] u1 u2 u3 rfl
    (.cons (by norm_num) .nil) _ _ _ e1 rfl rfl hQ
  exact ⟨Q, hQ, q, p, h5 _ h1, h2, h3.trans (by norm_num), h4⟩

/-- two pairs through one or two translations raise -/
example (d : Pos BArr) : ∃ e, (OpB.spatial d).call (.posVel (pairPos [2]) (pairVel [2])) = .error e :=
  C60_pair_batch_raises d (pairPos [2]) (pairVel [2]) [] 2
    ⟨by simp [pairPos, coordsOf, compsOf], fun _ _ _ _ h => (by cases h)⟩
    ((broadcastShapes_iff _ _).mp (broadcast_const (by simp [velComps, pairVel]) (by simp [velComps, pairVel]))) (by decide)

/-- three Cartesian pairs: the x velocity of the result has shape `(3, 3, 3)` and its element `(0, 1, 2)` is 0 -/
example : ∃ newq A B C, (OpB.spatial (pairPos [])).call (.posVel (pairPos [3])
    (.cart3 ⟨[3], fun _ => some 1⟩ ⟨[3], fun _ => some 2⟩ ⟨[3], fun _ => some 3⟩)) = .ok (.posVel newq (.cart3 A B C)) ∧
    A.shape = [3, 3, 3] ∧ A.get [0, 1, 2] = some 0 := by
  obtain ⟨newq, A, B, C, h1, h2, -, -, h3⟩ := C60_pair_square_wrong ⟨[], fun _ => some 4⟩ ⟨[], fun _ => some 5⟩
    ⟨[], fun _ => some 6⟩ ⟨[3], fun _ => some 4⟩ ⟨[3], fun _ => some 5⟩ ⟨[3], fun _ => some 6⟩
    ⟨[3], fun _ => some 1⟩ ⟨[3], fun _ => some 2⟩ ⟨[3], fun _ => some 3⟩ ⟨rfl, rfl, rfl⟩ ⟨rfl, rfl, rfl⟩ ⟨rfl, rfl, rfl⟩
    fun _ _ => ⟨1, 2, 3, rfl, rfl, rfl⟩
  exact ⟨newq, A, B, C, h1, h2, by simpa using (h3 0 1 2 (by decide) (by decide) (by decide)).1⟩

end Verif
