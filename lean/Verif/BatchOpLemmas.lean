import Verif.BatchOp
import Verif.BatchArithMore
import Verif.BatchVelTotal

/-! # Operators on batches act element by element -/

namespace Verif

open List Spec

/-! ### elements of arguments and operators -/

/-- one element of a velocity, with 0 for NaN -/
noncomputable def Vel.elemD (i : List ℕ) (V : Vel BArr) : Vel ℝ := V.map fun a => a.elemD i

/-- one element of a four-vector -/
noncomputable def FourB.elemD (i : List ℕ) (x : FourB) : Four := ⟨x.t.elemD i, x.q.elemD i, x.c⟩

/-- one element of an argument -/
noncomputable def ArgB.elemD (i : List ℕ) : ArgB → Arg
  | .pos q => .pos (q.elemD i)
  | .posTime q t => .posTime (q.elemD i) (t.elemD i)
  | .four x => .four (x.elemD i)
  | .posVel q p => .posVel (q.elemD i) (p.elemD i)
  | .vel p => .vel (p.elemD i)

/-- the arrays of an argument -/
def ArgB.arrays : ArgB → List BArr
  | .pos q => q.arrays
  | .posTime q t => t :: q.arrays
  | .four x => x.t :: x.q.arrays
  | .posVel q p => q.arrays ++ p.comps
  | .vel p => p.comps

mutual
/-- one element of an operator -/
noncomputable def OpB.elemD (i : List ℕ) : OpB → Op
  | .identity => .identity
  | .rotation R => .rotation R
  | .spatial d => .spatial (d.elemD i)
  | .translation d => .translation (d.elemD i)
  | .boost v => .boost (v.elemD i)
  | .vboost v => .vboost (v.elemD i)
  | .galilean R d v => .galilean R (d.elemD i) (v.elemD i)
  | .pipe ops => .pipe (elemsD i ops)

noncomputable def elemsD (i : List ℕ) : List OpB → List Op
  | [] => []
  | op :: ops => op.elemD i :: elemsD i ops
end

mutual
/-- the arrays of an operator -/
def OpB.arrays : OpB → List BArr
  | .identity => []
  | .rotation _ => []
  | .spatial d => d.arrays
  | .translation d => d.t :: d.q.arrays
  | .boost v => v.comps
  | .vboost v => v.comps
  | .galilean _ d v => (d.t :: d.q.arrays) ++ v.comps
  | .pipe ops => opArrays ops

def opArrays : List OpB → List BArr
  | [] => []
  | op :: ops => op.arrays ++ opArrays ops
end

/-- all arrays of the list broadcast to `S` and have values at every index considered -/
def DefL (D : Set (List ℕ)) (S : List ℕ) (l : List BArr) : Prop := ∀ a ∈ l, DefA D S a

/-- a call on arrays and the calls on its elements -/
def ASim (D : Set (List ℕ)) (S : List ℕ) (A : Res ArgB) (s : List ℕ → Res Arg) : Prop :=
  ∀ Q, A = .ok Q → (∀ a ∈ Q.arrays, BroadcastsTo a.shape S) ∧ ∀ i ∈ D,
    (∀ q, s i = .ok q → Q.elemD i = q ∧ DefL {i} S Q.arrays) ∧ ∀ e, s i = .error e → e = .nonFinite

section
variable {T : Prop} {D : Set (List ℕ)} {S : List ℕ} {X Y Z : BArr}

theorem DefL.mono {D' : Set (List ℕ)} {l : List BArr} (h : DefL D S l) (k : D' ⊆ D) : DefL D' S l :=
  fun a ha => (h a ha).mono k

theorem defL_of_singles {l : List BArr} (hf : ∀ a ∈ l, BroadcastsTo a.shape S) (h : ∀ i ∈ D, DefL {i} S l) :
    DefL D S l := fun a ha => ⟨hf a ha, fun i hi => (h i hi a ha).val i rfl⟩

theorem ASim.error {e : Err} {s : List ℕ → Res Arg} : ASim D S (.error e) s := fun _ h => by cases h

theorem ASim.congr {A : Res ArgB} {s t : List ℕ → Res Arg} (h : ASim D S A s) (e : ∀ i ∈ D, s i = t i) :
    ASim D S A t := fun Q hQ => ⟨(h Q hQ).1, fun i hi => e i hi ▸ (h Q hQ).2 i hi⟩

theorem ASim.ret {A : ArgB} (h : DefL D S A.arrays) : ASim D S (.ok A) fun i => .ok (A.elemD i) := by
  intro Q hQ
  obtain rfl := Except.ok.inj hQ
  exact ⟨fun a ha => (h a ha).fits, fun i hi => ⟨fun q hq => ⟨Except.ok.inj hq, h.mono fun j hj => by
    cases hj; exact hi⟩, fun e he => by cases he⟩⟩

/-- two steps -/
theorem ASim.comp {A : Res ArgB} {s : List ℕ → Res Arg} {G : ArgB → Res ArgB} {g : List ℕ → Arg → Res Arg}
    (h : ASim D S A s)
    (k : ∀ Q D', D' ⊆ D → DefL D' S Q.arrays → A = .ok Q → ASim D' S (G Q) fun i => g i (Q.elemD i)) :
    ASim D S (A >>= G) fun i => s i >>= g i := by
  intro Q hQ
  obtain ⟨B, hB, hQ⟩ := (bind_ok_iff _ _ _).mp hQ
  obtain ⟨f1, f2⟩ := h B hB
  have hdef : DefL {i | i ∈ D ∧ ∃ q, s i = .ok q} S B.arrays :=
    defL_of_singles f1 fun i ⟨hi, q, hq⟩ => ((f2 i hi).1 q hq).2
  obtain ⟨g1, g2⟩ := k B _ (fun i hi => hi.1) hdef hB Q hQ
  refine ⟨g1, fun i hi => ?_⟩
  show (∀ q, (s i >>= g i) = .ok q → _) ∧ ∀ e, (s i >>= g i) = .error e → _
  rcases hs : s i with e | q
  · rw [error_bind]
    exact ⟨fun q hq => by (cases hq), fun e' he' => by rw [← Except.error.inj he']; exact (f2 i hi).2 e hs⟩
  · rw [ok_bind, ← ((f2 i hi).1 q hs).1]
    exact g2 i ⟨hi, q, hs⟩

/-- a step that computes a position -/
theorem ASim.ofPos {A : Res (Pos BArr)} {s : List ℕ → Res (Pos ℝ)} {G : Pos BArr → Res ArgB}
    {g : List ℕ → Pos ℝ → Res Arg} (h : BSim T D S A s)
    (k : ∀ Q D', D' ⊆ D → DefP D' S Q → ASim D' S (G Q) fun i => g i (Q.elemD i)) :
    ASim D S (A >>= G) fun i => s i >>= g i := by
  intro Q hQ
  obtain ⟨B, hB, hQ⟩ := (bind_ok_iff _ _ _).mp hQ
  obtain ⟨f1, f2⟩ := h.ok B hB
  have hdef : DefP {i | i ∈ D ∧ ∃ q, s i = .ok q} S B := fun a ha => ⟨f1 a ha, fun i ⟨hi, q, hq⟩ =>
    (Pos.elem_some ((f2 i hi).1 q hq)).2 a ha⟩
  obtain ⟨g1, g2⟩ := k B _ (fun i hi => hi.1) hdef Q hQ
  refine ⟨g1, fun i hi => ?_⟩
  show (∀ q, (s i >>= g i) = .ok q → _) ∧ ∀ e, (s i >>= g i) = .error e → _
  rcases hs : s i with e | q
  · rw [error_bind]
    exact ⟨fun q hq => by (cases hq), fun e' he' => by rw [← Except.error.inj he']; exact (f2 i hi).2 e hs⟩
  · rw [ok_bind, ← (Pos.elem_some ((f2 i hi).1 q hs)).1]
    exact g2 i ⟨hi, q, hs⟩

/-! ### products and sums of arrays -/

theorem bmul_def (h : DefA D S X) (k : DefA D S Y) :
    ∃ Z, bmul X Y = .ok Z ∧ DefA D S Z ∧ ∀ i ∈ D, Z.elemD i = X.elemD i * Y.elemD i := by
  obtain ⟨Z, h1, h2⟩ := h.ef.mul k.ef
  exact ⟨Z, h1, DefA.of_elem h2.fits fun i hi => ⟨_, h2.val i hi _ rfl⟩, fun i hi => h2.eqD hi rfl⟩

theorem badd_def (h : DefA D S X) (k : DefA D S Y) :
    ∃ Z, badd X Y = .ok Z ∧ DefA D S Z ∧ ∀ i ∈ D, Z.elemD i = X.elemD i + Y.elemD i := by
  obtain ⟨Z, h1, h2⟩ := h.ef.add k.ef
  exact ⟨Z, h1, DefA.of_elem h2.fits fun i hi => ⟨_, h2.val i hi _ rfl⟩, fun i hi => h2.eqD hi rfl⟩

theorem laxAdd_def (h : DefA D S X) (k : DefA D S Y) (hZ : laxAdd X Y = .ok Z) :
    DefA D S Z ∧ ∀ i ∈ D, Z.elemD i = X.elemD i + Y.elemD i := by
  have e := isLax_add.ef h k hZ
  exact ⟨DefA.of_elem e.fits fun i hi => ⟨_, e.val i hi _ rfl⟩, fun i hi => e.eqD hi rfl⟩

/-! ### velocity times time -/

theorem velTimesB_sim (hD : ∀ i ∈ D, InB S i) {v : Vel BArr} {t : BArr} (hv : DefL D S v.comps) (ht : DefA D S t) :
    BSim T D S (velTimesB v t) fun i => velTimes (v.elemD i) (t.elemD i) := by
  have m : ∀ X ∈ v.comps, ∃ Z, bmul X t = .ok Z ∧ DefA D S Z ∧ ∀ i ∈ D, X.elemD i * t.elemD i = Z.elemD i := fun X hX => by
    obtain ⟨Z, h1, h2, h3⟩ := bmul_def (hv X hX) ht
    exact ⟨Z, h1, h2, fun i hi => (h3 i hi).symm⟩
  cases v with
  | cart1 a =>
    obtain ⟨A, a1, a2, a3⟩ := m a (by simp [Vel.comps])
    simp only [velTimesB, a1, ok_bind]
    refine (BSim.ret (Q := .cart1 A) (by simpa [DefP, Pos.arrays] using a2)).congr fun i hi => ?_
    simp only [Vel.elemD, Vel.map, velTimes, a3 i hi]; rfl
  | radial a =>
    obtain ⟨A, a1, a2, a3⟩ := m a (by simp [Vel.comps])
    simp only [velTimesB, a1, ok_bind]
    refine (mkRadialB_base (R := .dist A) hD a2).congr fun i hi => ?_
    simp only [Vel.elemD, Vel.map, velTimes, a3 i hi]; rfl
  | cart2 a b =>
    obtain ⟨A, a1, a2, a3⟩ := m a (by simp [Vel.comps])
    obtain ⟨B, b1, b2, b3⟩ := m b (by simp [Vel.comps])
    simp only [velTimesB, a1, b1, ok_bind]
    refine (BSim.ret (Q := .cart2 A B) (by simpa [DefP, Pos.arrays] using ⟨a2, b2⟩)).congr fun i hi => ?_
    simp only [Vel.elemD, Vel.map, velTimes, a3 i hi, b3 i hi]; rfl
  | polar a b =>
    obtain ⟨A, a1, a2, a3⟩ := m a (by simp [Vel.comps])
    obtain ⟨B, b1, b2, b3⟩ := m b (by simp [Vel.comps])
    simp only [velTimesB, a1, b1, ok_bind]
    refine (mkPolarB_base (R := .dist A) (Φ := .qty B) hD a2 b2).congr fun i hi => ?_
    simp only [Vel.elemD, Vel.map, velTimes, a3 i hi, b3 i hi]; rfl
  | twoSphere a b =>
    obtain ⟨A, a1, a2, a3⟩ := m a (by simp [Vel.comps])
    obtain ⟨B, b1, b2, b3⟩ := m b (by simp [Vel.comps])
    simp only [velTimesB, a1, b1, ok_bind]
    refine (mkTwoSphereB_base (Φ := .qty B) hD a2 b2).congr fun i hi => ?_
    simp only [Vel.elemD, Vel.map, velTimes, a3 i hi, b3 i hi]; rfl
  | lonCosLat => exact BSim.error fun i hi q hq => by simp [Vel.elemD, Vel.map, velTimes] at hq
  | prolate => exact BSim.error fun i hi q hq => by simp [Vel.elemD, Vel.map, velTimes] at hq
  | cart3 a b c =>
    obtain ⟨A, a1, a2, a3⟩ := m a (by simp [Vel.comps])
    obtain ⟨B, b1, b2, b3⟩ := m b (by simp [Vel.comps])
    obtain ⟨C, c1, c2, c3⟩ := m c (by simp [Vel.comps])
    simp only [velTimesB, a1, b1, c1, ok_bind]
    refine (BSim.ret (Q := .cart3 A B C) (by simpa [DefP, Pos.arrays] using ⟨a2, b2, c2⟩)).congr fun i hi => ?_
    simp only [Vel.elemD, Vel.map, velTimes, a3 i hi, b3 i hi, c3 i hi]; rfl
  | cyl a b c =>
    obtain ⟨A, a1, a2, a3⟩ := m a (by simp [Vel.comps])
    obtain ⟨B, b1, b2, b3⟩ := m b (by simp [Vel.comps])
    obtain ⟨C, c1, c2, c3⟩ := m c (by simp [Vel.comps])
    simp only [velTimesB, a1, b1, c1, ok_bind]
    refine (mkCylB_base (Φ := .qty B) hD a2 b2 c2).congr fun i hi => ?_
    simp only [Vel.elemD, Vel.map, velTimes, a3 i hi, b3 i hi, c3 i hi]; rfl
  | sph a b c =>
    obtain ⟨A, a1, a2, a3⟩ := m a (by simp [Vel.comps])
    obtain ⟨B, b1, b2, b3⟩ := m b (by simp [Vel.comps])
    obtain ⟨C, c1, c2, c3⟩ := m c (by simp [Vel.comps])
    simp only [velTimesB, a1, b1, c1, ok_bind]
    refine (mkSphB_base (R := .dist A) (Φ := .qty C) hD a2 b2 c2).congr fun i hi => ?_
    simp only [Vel.elemD, Vel.map, velTimes, a3 i hi, b3 i hi, c3 i hi]; rfl
  | lonlat a b c =>
    obtain ⟨A, a1, a2, a3⟩ := m a (by simp [Vel.comps])
    obtain ⟨B, b1, b2, b3⟩ := m b (by simp [Vel.comps])
    obtain ⟨C, c1, c2, c3⟩ := m c (by simp [Vel.comps])
    simp only [velTimesB, a1, b1, c1, ok_bind]
    refine (mkLonLatB_base (R := .dist C) (Φ := .qty A) hD c2 b2 a2).congr fun i hi => ?_
    simp only [Vel.elemD, Vel.map, velTimes, a3 i hi, b3 i hi, c3 i hi]; rfl
  | math a b c =>
    obtain ⟨A, a1, a2, a3⟩ := m a (by simp [Vel.comps])
    obtain ⟨B, b1, b2, b3⟩ := m b (by simp [Vel.comps])
    obtain ⟨C, c1, c2, c3⟩ := m c (by simp [Vel.comps])
    simp only [velTimesB, a1, b1, c1, ok_bind]
    refine (mkMathB_base (R := .dist A) (Φ := .qty B) hD a2 c2 b2).congr fun i hi => ?_
    simp only [Vel.elemD, Vel.map, velTimes, a3 i hi, b3 i hi, c3 i hi]; rfl

/-! ### rotation -/

theorem stackFull_spec {l : List BArr} (hl : ∀ a ∈ l, BroadcastsTo a.shape S) :
    ∃ s, stackFull l = .ok (stackB s (l.map fun a => a.broadcastTo s)) ∧ BroadcastsTo s S ∧
      (∀ a ∈ l, BroadcastsTo a.shape s) ∧ IsBroadcast (l.map fun a => a.shape) s := by
  obtain ⟨s, hs⟩ := broadcastShapes_total (shapes := l.map fun a => a.shape) (w := S) (by simpa using hl)
  have hb := (broadcastShapes_iff _ _).mp hs
  refine ⟨s, by unfold stackFull; rw [hs, ok_bind]; rfl, hb.2 S (by simpa using hl),
    fun a ha => hb.1 _ (mem_map.mpr ⟨a, ha, rfl⟩), hb⟩

theorem stackB_get {l : List BArr} {s idx : List ℕ} {k : ℕ} {a : BArr} (hk : l[k]? = some a) :
    (stackB s (l.map fun a => a.broadcastTo s)).get (idx ++ [k]) = a.elem idx := by
  simp only [stackB, getLastD_concat, dropLast_concat, getElem?_map, hk, Option.map_some]
  rfl

theorem elem_bcSource {a : BArr} {s idx : List ℕ} (ha : BroadcastsTo a.shape s) (hs : BroadcastsTo s S) (hi : InB S idx) :
    a.elem (bcSource s idx) = a.elem idx := by
  have hlen : s.length ≤ idx.length := by rw [inB_length hi]; exact broadcastsTo_length hs
  rw [← bcIdx_eq hlen, Arr.elem_of_index ha]

/-- the rotated stack -/
theorem rotStack (R : Mat3) {x y z : BArr} (h : ∀ a ∈ [x, y, z], BroadcastsTo a.shape S) :
    ∃ w s, (stackFull [x, y, z] >>= vecMatmul R) = .ok w ∧ w.shape = s ++ [3] ∧ BroadcastsTo s S ∧
      IsBroadcast [x.shape, y.shape, z.shape] s ∧
      ∀ (k : ℕ) (hk : k < 3) idx, InB S idx → (sliceLast k w).elem idx =
        rowEl (R ⟨k, hk⟩ 0) (R ⟨k, hk⟩ 1) (R ⟨k, hk⟩ 2) (x.elem idx) (y.elem idx) (z.elem idx) := by
  obtain ⟨s, h1, h2, h3, h4⟩ := stackFull_spec h
  generalize hV : stackB s ([x, y, z].map fun a => a.broadcastTo s) = V at h1
  have hsh : V.shape = s ++ [3] := by rw [← hV]; simp [stackB]
  have hget : ∀ (k : ℕ) (a : BArr) idx, [x, y, z][k]? = some a → V.get (idx ++ [k]) = a.elem idx :=
    fun k a idx hk => by rw [← hV]; exact stackB_get hk
  refine ⟨⟨V.shape, fun idx =>
      let i : Fin 3 := Fin.ofNat 3 (idx.getLastD 0)
      rowEl (R i 0) (R i 1) (R i 2) (V.get (idx.dropLast ++ [0])) (V.get (idx.dropLast ++ [1]))
        (V.get (idx.dropLast ++ [2]))⟩, s, ?_, hsh, h2, by simpa using h4, ?_⟩
  · rw [h1, ok_bind]
    unfold vecMatmul
    rw [if_pos (by rw [hsh]; simp)]
  · intro k hk idx hi
    have hf : BroadcastsTo (V.shape.dropLast) S := by rw [hsh]; simpa using h2
    have e : ∀ a : BArr, BroadcastsTo a.shape S → a.elem idx = a.get (bcSource a.shape idx) :=
      fun a h => (Arr.elem_get h hi).1
    refine (e _ ?_).trans ?_
    · exact hf
    simp only [sliceLast, dropLast_concat, getLastD_concat, hsh]
    rw [hget 0 x _ rfl, hget 1 y _ rfl, hget 2 z _ rfl, elem_bcSource (h3 x (by simp)) h2 hi,
      elem_bcSource (h3 y (by simp)) h2 hi, elem_bcSource (h3 z (by simp)) h2 hi]
    have : (Fin.ofNat 3 k : Fin 3) = ⟨k, hk⟩ := by
      apply Fin.ext; simp [Fin.ofNat, Nat.mod_eq_of_lt hk]
    rw [this]

theorem rowEl_some (a b c u v w : ℝ) : rowEl a b c (some u) (some v) (some w) = some (a * u + b * v + c * w) := rfl

theorem rotPosB_sim (hD : ∀ i ∈ D, InB S i) (R : Mat3) {q : Pos BArr} (hq : DefP D S q) :
    BSim T D S (rotPosB R q) fun i => rotPos R (q.elemD i) := by
  unfold rotPosB
  by_cases hdim : q.kind.dim ≠ 3
  · rw [if_pos hdim]
    exact BSim.error fun i hi r hr => by
      unfold rotPos at hr; rw [elemD_kind, if_pos hdim] at hr; cases hr
  rw [if_neg hdim]
  have h1 := rep_sim_cart (T := True) hD hq (k := .cart3) rfl
  refine ((h1.comp (T' := True) (G := fun c => match c with
      | .cart3 x y z => do
        let w ← vecMatmul R (← stackFull [x, y, z])
        representAsB {} (.cart3 (sliceLast 0 w) (sliceLast 1 w) (sliceLast 2 w)) q.kind
      | _ => .error .noDispatch)
    (g := fun i c => match c with
      | .cart3 x y z => representAs {} (matApply R x y z) q.kind
      | _ => .error .noDispatch) fun C D' hs hC hA => ?_).weaken fun _ => ⟨trivial, trivial⟩).congr fun i hi => ?_
  · have hk : C.kind = .cart3 := representB_kind _ _ _ _ _ hA
    cases C <;> first | (cases hk; done) | skip
    rename_i x y z
    have hx := hC x (by simp [Pos.arrays])
    have hy := hC y (by simp [Pos.arrays])
    have hz := hC z (by simp [Pos.arrays])
    obtain ⟨w, s, e1, e2, e3, -, e5⟩ := rotStack R (x := x) (y := y) (z := z) (S := S)
      (by simpa using ⟨hx.fits, hy.fits, hz.fits⟩)
    have hel : ∀ (k : ℕ) (hk : k < 3), ∀ i ∈ D', (sliceLast k w).elem i =
        some (R ⟨k, hk⟩ 0 * x.elemD i + R ⟨k, hk⟩ 1 * y.elemD i + R ⟨k, hk⟩ 2 * z.elemD i) := fun k hk i hi => by
      rw [e5 k hk i (hD i (hs hi)), hx.val i hi, hy.val i hi, hz.val i hi, rowEl_some]
    have hdef : ∀ (k : ℕ), k < 3 → DefA D' S (sliceLast k w) := fun k hk =>
      DefA.of_elem (by simpa [sliceLast, e2] using e3) fun i hi => ⟨_, hel k hk i hi⟩
    show BSim True D' S (do
        let w ← vecMatmul R (← stackFull [x, y, z])
        representAsB {} (.cart3 (sliceLast 0 w) (sliceLast 1 w) (sliceLast 2 w)) q.kind) _
    have e1' : (stackFull [x, y, z] >>= fun v => vecMatmul R v >>= fun w =>
        representAsB {} (.cart3 (sliceLast 0 w) (sliceLast 1 w) (sliceLast 2 w)) q.kind) =
        representAsB {} (.cart3 (sliceLast 0 w) (sliceLast 1 w) (sliceLast 2 w)) q.kind := by
      obtain ⟨v, hv, hw⟩ := (bind_ok_iff _ _ _).mp e1
      rw [hv, ok_bind, hw, ok_bind]
    rw [e1']
    refine (rep_sim_from (T := True) (fun i hi => hD i (hs hi))
      (P := .cart3 (sliceLast 0 w) (sliceLast 1 w) (sliceLast 2 w))
      (by simpa [DefP, Pos.arrays] using ⟨hdef 0 (by omega), hdef 1 (by omega), hdef 2 (by omega)⟩) rfl).congr
      fun i hi => ?_
    simp only [Pos.elemD, elemD_of_elem (hel 0 (by omega) i hi), elemD_of_elem (hel 1 (by omega) i hi),
      elemD_of_elem (hel 2 (by omega) i hi)]
    rfl
  · unfold rotPos
    rw [elemD_kind, if_neg hdim]
    rfl

/-! ### calls -/

theorem mkFourB_eq {t : BArr} {q : Pos BArr} {c : ℝ} {x : FourB} (h : mkFourB t q c = .ok x) : x = ⟨t, q, c⟩ := by
  unfold mkFourB at h
  obtain ⟨s, -, h⟩ := (bind_ok_iff _ _ _).mp h
  obtain ⟨u, -, h⟩ := (bind_ok_iff _ _ _).mp h
  split at h
  · exact (Except.ok.inj h).symm
  · cases h

theorem ASim.four {t : BArr} {q : Pos BArr} {c : ℝ} (ht : DefA D S t) (hq : DefP D S q) :
    ASim D S (mkFourB t q c >>= fun x => .ok (.four x)) fun i => .ok (.four ⟨t.elemD i, q.elemD i, c⟩) := by
  intro Q hQ
  obtain ⟨x, hx, hQ⟩ := (bind_ok_iff _ _ _).mp hQ
  obtain rfl := mkFourB_eq hx
  obtain rfl := Except.ok.inj hQ
  exact ASim.ret (A := .four ⟨t, q, c⟩) (fun a ha => by
    rcases mem_cons.mp ha with rfl | ha
    · exact ht
    · exact hq a ha) _ rfl

theorem defL_cons {a : BArr} {l : List BArr} : DefL D S (a :: l) ↔ DefA D S a ∧ DefL D S l := by
  simp [DefL]

theorem defL_append {l m : List BArr} : DefL D S (l ++ m) ↔ DefL D S l ∧ DefL D S m := by
  simp only [DefL, mem_append]
  exact ⟨fun h => ⟨fun a ha => h a (.inl ha), fun a ha => h a (.inr ha)⟩, fun h a ha => ha.elim (h.1 a) (h.2 a)⟩

theorem addPosB_sim (hD : ∀ i ∈ D, InB S i) {A B : Pos BArr} (hA : DefP D S A) (hB : DefP D S B) :
    BSim (CartLax A B) D S (addPosB A B) fun i => addPos (A.elemD i) (B.elemD i) :=
  binPosB_sim isLax_add hD hA hB

theorem callRotationB_sim (hD : ∀ i ∈ D, InB S i) (R : Mat3) {A : ArgB} (hA : DefL D S A.arrays) :
    ASim D S (callRotationB R A) fun i => callRotation R (A.elemD i) := by
  cases A with
  | pos q =>
    exact ASim.ofPos (G := fun q => .ok (.pos q)) (g := fun _ q => .ok (.pos q)) (rotPosB_sim (T := True) hD R hA)
      fun Q D' hs hQ => ASim.ret (A := .pos Q) hQ
  | posTime q t =>
    obtain ⟨ht, hq⟩ := defL_cons.mp hA
    exact ASim.ofPos (G := fun q => .ok (.posTime q t)) (g := fun i q => .ok (.posTime q (t.elemD i)))
      (rotPosB_sim (T := True) hD R hq)
      fun Q D' hs hQ => ASim.ret (A := .posTime Q t) (defL_cons.mpr ⟨ht.mono hs, hQ⟩)
  | four x =>
    obtain ⟨ht, hq⟩ := defL_cons.mp hA
    exact ASim.ofPos (G := fun q => mkFourB x.t q lightSpeed >>= fun x => .ok (.four x))
      (g := fun i q => .ok (.four ⟨x.t.elemD i, q, lightSpeed⟩))
      (rotPosB_sim (T := True) hD R hq) fun Q D' hs hQ => ASim.four (ht.mono hs) hQ
  | posVel => exact ASim.error
  | vel => exact ASim.error

theorem callSpatialB_sim (hD : ∀ i ∈ D, InB S i) {d : Pos BArr} (hd : DefP D S d) {A : ArgB} (hA : DefL D S A.arrays)
    (hp : ∀ q p, A ≠ .posVel q p) : ASim D S (callSpatialB d A) fun i => callSpatial (d.elemD i) (A.elemD i) := by
  cases A with
  | pos q =>
    exact ASim.ofPos (G := fun q => .ok (.pos q)) (g := fun _ q => .ok (.pos q)) (addPosB_sim hD hA hd)
      fun Q D' hs hQ => ASim.ret (A := .pos Q) hQ
  | posTime q t =>
    obtain ⟨ht, hq⟩ := defL_cons.mp hA
    exact ASim.ofPos (G := fun q => .ok (.posTime q t)) (g := fun i q => .ok (.posTime q (t.elemD i)))
      (addPosB_sim hD hq hd)
      fun Q D' hs hQ => ASim.ret (A := .posTime Q t) (defL_cons.mpr ⟨ht.mono hs, hQ⟩)
  | four x =>
    obtain ⟨ht, hq⟩ := defL_cons.mp hA
    exact ASim.ofPos (G := fun q => mkFourB x.t q x.c >>= fun x => .ok (.four x))
      (g := fun i q => .ok (.four ⟨x.t.elemD i, q, x.c⟩))
      (addPosB_sim hD hq hd) fun Q D' hs hQ => ASim.four (ht.mono hs) hQ
  | posVel q p => exact absurd rfl (hp q p)
  | vel => exact ASim.error

theorem callTranslationB_sim (hD : ∀ i ∈ D, InB S i) {d : FourB} (hd : DefL D S (d.t :: d.q.arrays)) {A : ArgB}
    (hA : DefL D S A.arrays) : ASim D S (callTranslationB d A) fun i => callTranslation (d.elemD i) (A.elemD i) := by
  obtain ⟨dt, dq⟩ := defL_cons.mp hd
  cases A with
  | pos => exact ASim.error
  | posTime q t =>
    obtain ⟨ht, hq⟩ := defL_cons.mp hA
    simp only [callTranslationB]
    by_cases h3 : q.kind.dim ≠ 3
    · rw [if_pos h3]; exact ASim.error
    rw [if_neg h3]
    obtain ⟨Z, z1, z2, z3⟩ := badd_def ht dt
    refine (ASim.ofPos (G := fun q => badd t d.t >>= fun t => .ok (.posTime q t))
      (g := fun i q => .ok (.posTime q (t.elemD i + d.t.elemD i))) (addPosB_sim hD hq dq) fun Q D' hs hQ => ?_).congr
        fun i hi => ?_
    · rw [z1, ok_bind]
      refine (ASim.ret (A := .posTime Q Z) (defL_cons.mpr ⟨z2.mono hs, hQ⟩)).congr fun i hi => ?_
      simp only [ArgB.elemD, z3 i (hs hi)]
    · show _ = callTranslation _ (.posTime (q.elemD i) (t.elemD i))
      simp only [callTranslation, elemD_kind, if_neg h3]
      rfl
  | four x =>
    obtain ⟨ht, hq⟩ := defL_cons.mp hA
    obtain ⟨Z, z1, z2, z3⟩ := badd_def ht dt
    have e : callTranslationB d (.four x) = (addPosB x.q d.q >>= fun q => mkFourB Z q x.c >>= fun x => .ok (.four x)) := by
      simp only [callTranslationB, FourB.add, z1, ok_bind]
      rcases addPosB x.q d.q with e | Q <;> rfl
    rw [e]
    refine (ASim.ofPos (G := fun q => mkFourB Z q x.c >>= fun x => .ok (.four x))
      (g := fun i q => .ok (.four ⟨x.t.elemD i + d.t.elemD i, q, x.c⟩)) (addPosB_sim hD hq dq) fun Q D' hs hQ => ?_).congr
        fun i hi => ?_
    · exact (ASim.four (z2.mono hs) hQ).congr fun i hi => by rw [z3 i (hs hi)]
    · show _ = (do return Arg.four (← (x.elemD i).add (d.elemD i)))
      simp only [Four.add, FourB.elemD]
      rcases addPos (x.q.elemD i) (d.q.elemD i) with e | q <;> rfl
  | posVel => exact ASim.error
  | vel => exact ASim.error

theorem callBoostB_sim (hD : ∀ i ∈ D, InB S i) {v : Vel BArr} (hv : DefL D S v.comps) {A : ArgB}
    (hA : DefL D S A.arrays) : ASim D S (callBoostB v A) fun i => callBoost (v.elemD i) (A.elemD i) := by
  cases A with
  | pos => exact ASim.error
  | posTime q t =>
    obtain ⟨ht, hq⟩ := defL_cons.mp hA
    exact ASim.ofPos (G := fun d => addPosB q d >>= fun q => .ok (.posTime q t))
      (g := fun i d => addPos (q.elemD i) d >>= fun q => .ok (.posTime q (t.elemD i)))
      (velTimesB_sim (T := True) hD hv ht) fun d D' hs hd =>
        ASim.ofPos (G := fun q => .ok (.posTime q t)) (g := fun i q => .ok (.posTime q (t.elemD i)))
          (addPosB_sim (fun i hi => hD i (hs hi)) (DefP.mono hq hs) hd)
          fun Q D'' hs' hQ => ASim.ret (A := .posTime Q t) (defL_cons.mpr ⟨ht.mono fun i hi => hs (hs' hi), hQ⟩)
  | four x =>
    obtain ⟨ht, hq⟩ := defL_cons.mp hA
    exact ASim.ofPos (G := fun d => addPosB x.q d >>= fun q => mkFourB x.t q x.c >>= fun x => .ok (.four x))
      (g := fun i d => addPos (x.q.elemD i) d >>= fun q => .ok (.four ⟨x.t.elemD i, q, x.c⟩))
      (velTimesB_sim (T := True) hD hv ht) fun d D' hs hd =>
        ASim.ofPos (G := fun q => mkFourB x.t q x.c >>= fun x => .ok (.four x))
          (g := fun i q => .ok (.four ⟨x.t.elemD i, q, x.c⟩))
          (addPosB_sim (fun i hi => hD i (hs hi)) (DefP.mono hq hs) hd)
          fun Q D'' hs' hQ => ASim.four (ht.mono fun i hi => hs (hs' hi)) hQ
  | posVel => exact ASim.error
  | vel => exact ASim.error

theorem addVelB_def {p v w : Vel BArr} (hp : DefL D S p.comps) (hv : DefL D S v.comps) (h : addVelB p v = .ok w) :
    DefL D S w.comps ∧ ∀ i ∈ D, addVel (p.elemD i) (v.elemD i) = .ok (w.elemD i) := by
  cases p <;> cases v <;> simp only [addVelB, bind_ok_iff, reduceCtorEq] at h
  · obtain ⟨x, h1, h⟩ := h
    obtain rfl := Except.ok.inj h
    obtain ⟨a1, a2⟩ := laxAdd_def (hp _ (by simp [Vel.comps])) (hv _ (by simp [Vel.comps])) h1
    exact ⟨by simpa [DefL, Vel.comps] using a1, fun i hi => by simp [Vel.elemD, Vel.map, addVel, a2 i hi]⟩
  · obtain ⟨x, h1, y, h2, h⟩ := h
    obtain rfl := Except.ok.inj h
    obtain ⟨a1, a2⟩ := laxAdd_def (hp _ (by simp [Vel.comps])) (hv _ (by simp [Vel.comps])) h1
    obtain ⟨b1, b2⟩ := laxAdd_def (hp _ (by simp [Vel.comps])) (hv _ (by simp [Vel.comps])) h2
    exact ⟨by simpa [DefL, Vel.comps] using ⟨a1, b1⟩, fun i hi => by
      simp [Vel.elemD, Vel.map, addVel, a2 i hi, b2 i hi]⟩
  · obtain ⟨x, h1, y, h2, z, h3, h⟩ := h
    obtain rfl := Except.ok.inj h
    obtain ⟨a1, a2⟩ := laxAdd_def (hp _ (by simp [Vel.comps])) (hv _ (by simp [Vel.comps])) h1
    obtain ⟨b1, b2⟩ := laxAdd_def (hp _ (by simp [Vel.comps]))
      (hv _ (by simp [Vel.comps])) h2
    obtain ⟨c1, c2⟩ := laxAdd_def (hp _ (by simp [Vel.comps]))
      (hv _ (by simp [Vel.comps])) h3
    exact ⟨by simpa [DefL, Vel.comps] using ⟨a1, b1, c1⟩, fun i hi => by
      simp [Vel.elemD, Vel.map, addVel, a2 i hi, b2 i hi, c2 i hi]⟩

theorem callVBoostB_sim {v : Vel BArr} (hv : DefL D S v.comps) {A : ArgB}
    (hA : DefL D S A.arrays) : ASim D S (callVBoostB v A) fun i => callVBoost (v.elemD i) (A.elemD i) := by
  cases A with
  | pos q => exact ASim.ret (A := .pos q) hA
  | posTime q t => exact ASim.ret (A := .posTime q t) hA
  | four x =>
    obtain ⟨ht, hq⟩ := defL_cons.mp hA
    exact ASim.four (t := x.t) (q := x.q) (c := x.c) ht hq
  | posVel q p =>
    obtain ⟨hq, hp⟩ := defL_append.mp hA
    intro Q hQ
    obtain ⟨w, hw, hQ⟩ := (bind_ok_iff _ _ _).mp hQ
    obtain ⟨w1, w2⟩ := addVelB_def hp hv hw
    refine (ASim.ret (A := .posVel q w) (defL_append.mpr ⟨hq, w1⟩)).congr (fun i hi => ?_) Q hQ
    simp only [ArgB.elemD, callVBoost, w2 i hi]; rfl
  | vel p =>
    intro Q hQ
    obtain ⟨w, hw, hQ⟩ := (bind_ok_iff _ _ _).mp hQ
    obtain ⟨w1, w2⟩ := addVelB_def hA hv hw
    refine (ASim.ret (A := .vel w) w1).congr (fun i hi => ?_) Q hQ
    simp only [ArgB.elemD, callVBoost, w2 i hi]; rfl

/-- is the argument a position with a velocity? -/
def ArgB.isPair : ArgB → Bool
  | .posVel _ _ => true
  | _ => false

mutual
/-- does the operator contain a spatial translation? -/
def OpB.translates : OpB → Bool
  | .spatial _ => true
  | .pipe ops => anyTranslates ops
  | _ => false

def anyTranslates : List OpB → Bool
  | [] => false
  | op :: ops => op.translates || anyTranslates ops
end

/-- the constructor of an argument -/
def ArgB.tag : ArgB → ℕ
  | .pos _ => 0
  | .posTime _ _ => 1
  | .four _ => 2
  | .posVel _ _ => 3
  | .vel _ => 4

theorem callRotationB_tag {R : Mat3} {A Q : ArgB} (h : callRotationB R A = .ok Q) : Q.tag = A.tag := by
  cases A <;> simp only [callRotationB, bind_ok_iff, reduceCtorEq] at h
  · obtain ⟨_, _, h⟩ := h; cases h; rfl
  · obtain ⟨_, _, h⟩ := h; cases h; rfl
  · obtain ⟨_, _, _, _, h⟩ := h; cases h; rfl

theorem callSpatialB_tag {d : Pos BArr} {A Q : ArgB} (h : callSpatialB d A = .ok Q) : Q.tag = A.tag := by
  cases A <;> simp only [callSpatialB, bind_ok_iff, reduceCtorEq] at h
  · obtain ⟨_, _, h⟩ := h; cases h; rfl
  · obtain ⟨_, _, h⟩ := h; cases h; rfl
  · obtain ⟨_, _, _, _, h⟩ := h; cases h; rfl
  · obtain ⟨_, _, _, _, h⟩ := h; cases h; rfl

theorem callTranslationB_tag {d : FourB} {A Q : ArgB} (h : callTranslationB d A = .ok Q) : Q.tag = A.tag := by
  cases A <;> simp only [callTranslationB, reduceCtorEq] at h
  · split at h
    · cases h
    · obtain ⟨_, _, h⟩ := (bind_ok_iff _ _ _).mp h
      obtain ⟨_, _, h⟩ := (bind_ok_iff _ _ _).mp h
      cases h; rfl
  · obtain ⟨_, _, h⟩ := (bind_ok_iff _ _ _).mp h; cases h; rfl

theorem callBoostB_tag {v : Vel BArr} {A Q : ArgB} (h : callBoostB v A = .ok Q) : Q.tag = A.tag := by
  cases A <;> simp only [callBoostB, bind_ok_iff, reduceCtorEq] at h
  · obtain ⟨_, _, _, _, h⟩ := h; cases h; rfl
  · obtain ⟨_, _, _, _, _, _, h⟩ := h; cases h; rfl

theorem callVBoostB_tag {v : Vel BArr} {A Q : ArgB} (h : callVBoostB v A = .ok Q) : Q.tag = A.tag := by
  cases A <;> simp only [callVBoostB, bind_ok_iff] at h
  · cases h; rfl
  · cases h; rfl
  · obtain ⟨_, _, h⟩ := h; cases h; rfl
  · obtain ⟨_, _, h⟩ := h; cases h; rfl
  · obtain ⟨_, _, h⟩ := h; cases h; rfl

mutual
theorem callB_tag : ∀ (op : OpB) {A Q : ArgB}, op.call A = .ok Q → Q.tag = A.tag
  | .identity, A, Q, h => by simp only [OpB.call] at h; cases h; rfl
  | .rotation R, A, Q, h => callRotationB_tag (by simpa only [OpB.call] using h)
  | .spatial d, A, Q, h => callSpatialB_tag (by simpa only [OpB.call] using h)
  | .translation d, A, Q, h => callTranslationB_tag (by simpa only [OpB.call] using h)
  | .boost v, A, Q, h => callBoostB_tag (by simpa only [OpB.call] using h)
  | .vboost v, A, Q, h => callVBoostB_tag (by simpa only [OpB.call] using h)
  | .galilean R d v, A, Q, h => by
    simp only [OpB.call, bind_ok_iff] at h
    obtain ⟨B, hB, C, hC, h⟩ := h
    rw [callBoostB_tag h, callTranslationB_tag hC, callRotationB_tag hB]
  | .pipe ops, A, Q, h => by
    simp only [OpB.call] at h
    split at h
    · cases h
    · exact callAllB_tag ops h

theorem callAllB_tag : ∀ (ops : List OpB) {A Q : ArgB}, callAllB ops A = .ok Q → Q.tag = A.tag
  | [], A, Q, h => by simp only [callAllB] at h; cases h; rfl
  | op :: ops, A, Q, h => by
    simp only [callAllB, bind_ok_iff] at h
    obtain ⟨B, hB, h⟩ := h
    rw [callAllB_tag ops h, callB_tag op hB]
end

theorem isPair_tag (A : ArgB) : A.isPair = decide (A.tag = 3) := by cases A <;> rfl
theorem isVel_tag (A : ArgB) : A.isVel = decide (A.tag = 4) := by cases A <;> rfl
theorem isVel_elemD (A : ArgB) (i : List ℕ) : (A.elemD i).isVel = A.isVel := by cases A <;> rfl
theorem elemsD_length (i : List ℕ) (ops : List OpB) : (elemsD i ops).length = ops.length := by
  induction ops with
  | nil => rfl
  | cons op ops ih => simp [elemsD, ih]

mutual
theorem callB_sim : ∀ (op : OpB) {D : Set (List ℕ)} {A : ArgB}, (∀ i ∈ D, InB S i) → DefL D S op.arrays →
    DefL D S A.arrays → (A.isPair = false ∨ op.translates = false) →
    ASim D S (op.call A) fun i => (op.elemD i).call (A.elemD i)
  | .identity, D, A, hD, ho, hA, hp => by simpa only [OpB.call, OpB.elemD, Op.call] using ASim.ret hA
  | .rotation R, D, A, hD, ho, hA, hp => by
    simpa only [OpB.call, OpB.elemD, Op.call] using callRotationB_sim hD R hA
  | .spatial d, D, A, hD, ho, hA, hp => by
    simpa only [OpB.call, OpB.elemD, Op.call] using callSpatialB_sim hD ho hA fun q p e => by
      rcases hp with hp | hp
      · rw [e] at hp; cases hp
      · simp [OpB.translates] at hp
  | .translation d, D, A, hD, ho, hA, hp => by
    simpa only [OpB.call, OpB.elemD, Op.call] using callTranslationB_sim hD ho hA
  | .boost v, D, A, hD, ho, hA, hp => by
    simpa only [OpB.call, OpB.elemD, Op.call] using callBoostB_sim hD ho hA
  | .vboost v, D, A, hD, ho, hA, hp => by
    simpa only [OpB.call, OpB.elemD, Op.call] using callVBoostB_sim ho hA
  | .galilean R d v, D, A, hD, ho, hA, hp => by
    simp only [OpB.call, OpB.elemD, Op.call]
    obtain ⟨hd, hv⟩ := defL_append.mp ho
    exact (callRotationB_sim hD R hA).comp (G := fun a => callTranslationB d a >>= callBoostB v)
      (g := fun i a => callTranslation (d.elemD i) a >>= callBoost (v.elemD i)) fun B D' hs hB _ =>
      (callTranslationB_sim (fun i hi => hD i (hs hi)) (hd.mono hs) hB).comp (G := callBoostB v)
        (g := fun i => callBoost (v.elemD i)) fun C D'' hs' hC _ =>
        callBoostB_sim (fun i hi => hD i (hs (hs' hi))) (hv.mono fun i hi => hs (hs' hi)) hC
  | .pipe ops, D, A, hD, ho, hA, hp => by
    have key := callAllB_sim ops hD ho hA hp
    simp only [OpB.call, OpB.elemD, Op.call, isVel_elemD, elemsD_length]
    by_cases hc : A.isVel = true ∧ ops.length ≠ 1
    · rw [if_pos hc]; exact ASim.error
    · simp only [if_neg hc]; exact key

theorem callAllB_sim : ∀ (ops : List OpB) {D : Set (List ℕ)} {A : ArgB}, (∀ i ∈ D, InB S i) →
    DefL D S (opArrays ops) → DefL D S A.arrays → (A.isPair = false ∨ anyTranslates ops = false) →
    ASim D S (callAllB ops A) fun i => callAll (elemsD i ops) (A.elemD i)
  | [], D, A, hD, ho, hA, hp => by simpa only [callAllB, elemsD, callAll] using ASim.ret hA
  | op :: ops, D, A, hD, ho, hA, hp => by
    simp only [callAllB, elemsD, callAll]
    obtain ⟨h1, h2⟩ := defL_append.mp ho
    exact (callB_sim op hD h1 hA (hp.imp id fun h => by
      simp only [anyTranslates, Bool.or_eq_false_iff] at h; exact h.1)).comp (G := callAllB ops)
        (g := fun i => callAll (elemsD i ops)) fun B D' hs hB e =>
        callAllB_sim ops (fun i hi => hD i (hs hi)) (h2.mono hs) hB (hp.imp
          (fun h => by rw [isPair_tag, callB_tag op e, ← isPair_tag]; exact h)
          fun h => by simp only [anyTranslates, Bool.or_eq_false_iff] at h; exact h.2)
end

end

end Verif
