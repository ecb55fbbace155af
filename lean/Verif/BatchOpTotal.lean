import Verif.BatchOpLemmas

/-! # Operators on batches return -/

namespace Verif

open List Spec

/-- one shape, `S` or `()`, for all coordinates -/
structure UniP (S s : List ℕ) (P : Pos BArr) : Prop where
  sub : Sub S s
  all : AllSh s P
  focal : FocalSh s P

/-- the same for velocities -/
structure UniV (S s : List ℕ) (V : Vel BArr) : Prop where
  sub : Sub S s
  all : ∀ a ∈ V.comps, a.shape = s

section
variable {D : Set (List ℕ)} {S : List ℕ} {X Y Z : BArr}

theorem lax_sub {a b : List ℕ} (ha : Sub S a) (hb : Sub S b) :
    ∃ u, laxShape a b = .ok u ∧ Sub S u ∧ (a = S → u = S) ∧ (b = S → u = S) := by
  rcases ha with rfl | rfl
  · rcases hb with rfl | rfl
    · exact ⟨_, laxShape_self _, .inl rfl, fun _ => rfl, fun _ => rfl⟩
    · refine ⟨a, ?_, .inl rfl, fun _ => rfl, fun _ => rfl⟩
      unfold laxShape
      by_cases h : a = []
      · rw [if_pos h, h]
      · rw [if_neg h, if_pos rfl]
  · exact ⟨b, by unfold laxShape; rw [if_pos rfl], hb, fun h => by
      rcases hb with h' | h'
      · exact h'
      · rw [h', ← h], fun h => h⟩

theorem bc2_sub {a b : List ℕ} (ha : Sub S a) (hb : Sub S b) :
    ∃ u, bc2 a b = .ok u ∧ Sub S u ∧ (a = S → u = S) ∧ (b = S → u = S) := by
  rcases ha with rfl | rfl
  · rcases hb with rfl | rfl
    · exact ⟨_, bc2_self _, .inl rfl, fun _ => rfl, fun _ => rfl⟩
    · exact ⟨a, bc2_nil_right _, .inl rfl, fun _ => rfl, fun _ => rfl⟩
  · exact ⟨b, bc2_nil_left _, hb, fun h => by
      rcases hb with h' | h'
      · exact h'
      · rw [h', ← h], fun h => h⟩

/-! ### sums -/

theorem mapCart2B_shape {g : BArr → BArr → Res BArr} {f : ℝ → ℝ → ℝ} (hg : IsLax g f) {A B Q : Pos BArr} {s t u : List ℕ}
    (hA : ∀ a ∈ A.arrays, a.shape = s) (hB : ∀ a ∈ B.arrays, a.shape = t) (hu : laxShape s t = .ok u)
    (h : mapCart2B g A B = .ok Q) : AllSh u Q := by
  have one : ∀ {X Y Z : BArr}, X ∈ A.arrays → Y ∈ B.arrays → g X Y = .ok Z → Z.shape = u := fun hX hY hZ => by
    rw [hg] at hZ
    have := laxMap2_shape hZ
    rw [hA _ hX, hB _ hY, hu] at this
    exact (Except.ok.inj this).symm
  cases A <;> cases B <;> simp only [mapCart2B, bind_ok_iff, reduceCtorEq] at h
  · obtain ⟨a, h1, h⟩ := h
    cases h
    simpa [AllSh, Pos.coords] using one (by simp [Pos.arrays]) (by simp [Pos.arrays]) h1
  · obtain ⟨a, h1, b, h2, h⟩ := h
    cases h
    simpa [AllSh, Pos.coords] using ⟨one (by simp [Pos.arrays]) (by simp [Pos.arrays]) h1,
      one (by simp [Pos.arrays]) (by simp [Pos.arrays]) h2⟩
  · obtain ⟨a, h1, b, h2, c, h3, h⟩ := h
    cases h
    simpa [AllSh, Pos.coords] using ⟨one (by simp [Pos.arrays]) (by simp [Pos.arrays]) h1,
      one (by simp [Pos.arrays]) (by simp [Pos.arrays]) h2, one (by simp [Pos.arrays]) (by simp [Pos.arrays]) h3⟩

theorem binCartB_shape {g : BArr → BArr → Res BArr} {f : ℝ → ℝ → ℝ} (hg : IsLax g f) {A B Q : Pos BArr} {s t u : List ℕ}
    (hA : ∀ a ∈ A.arrays, a.shape = s) (hB : AllSh t B) (hF : FocalSh t B) (hk : A.kind.isCart = true)
    (hd : A.kind.dim = B.kind.dim) (hu : laxShape s t = .ok u) (h : binCartB g A B = .ok Q) :
    AllSh u Q ∧ Q.kind = A.kind := by
  unfold binCartB at h
  obtain ⟨B', h1, h2⟩ := (bind_ok_iff _ _ _).mp h
  have hc : A.kind.cartesian = A.kind := by cases A <;> first | (cases hk; done) | rfl
  exact ⟨mapCart2B_shape hg hA (toCart_shape hB hF hd (by rw [hc]; exact h1)) hu h2, (mapCart2B_kind h2).1⟩

theorem binPosB_shape {g : BArr → BArr → Res BArr} {f : ℝ → ℝ → ℝ} (hg : IsLax g f) {A B Q : Pos BArr} {s t u : List ℕ}
    (hA : UniP S s A) (hB : UniP S t B) (hd : A.kind.dim = B.kind.dim) (hu : laxShape s t = .ok u)
    (h : binPosB g A B = .ok Q) : AllSh u Q ∧ Q.kind = A.kind ∧ Q.kind ≠ .prolate := by
  by_cases hk : A.kind.isCart = true
  · obtain ⟨h1, h2⟩ := binCartB_shape hg (A := A) (by rw [cart_arrays hk]; exact hA.all) hB.all hB.focal hk hd hu (Q := Q) (by
      cases A <;> first | (cases hk; done) | exact h)
    exact ⟨h1, h2, by rw [h2]; cases A <;> first | (cases hk; done) | nofun⟩
  · have h' : (do
        let a ← representAsB {} A A.kind.cartesian
        let b ← representAsB {} B A.kind.cartesian
        representAsB {} (← binCartB g a b) A.kind) = .ok Q := by
      cases A <;> first | exact absurd rfl hk | exact h
    obtain ⟨A', e1, h'⟩ := (bind_ok_iff _ _ _).mp h'
    obtain ⟨B', e2, h'⟩ := (bind_ok_iff _ _ _).mp h'
    obtain ⟨M, e3, h'⟩ := (bind_ok_iff _ _ _).mp h'
    have kA : A'.kind = A.kind.cartesian := representB_kind _ _ _ _ _ e1
    have kB : B'.kind = A.kind.cartesian := representB_kind _ _ _ _ _ e2
    have cA : A'.kind.isCart = true := by rw [kA]; exact isCart_cartesian _
    have cB : B'.kind.isCart = true := by rw [kB]; exact isCart_cartesian _
    have sB := toCart_shape hB.all hB.focal hd e2
    rw [cart_arrays cB] at sB
    obtain ⟨m1, m2⟩ := binCartB_shape hg (toCart_shape hA.all hA.focal rfl e1) sB (focalSh_of_kind (by
      rw [kB]; cases A.kind <;> decide)) cA (by rw [kA, kB]) hu e3
    have mk : M.kind = A.kind.cartesian := m2.trans kA
    have hnp : A.kind ≠ .prolate := fun hp => by
      rw [hp] at h'
      obtain ⟨m, n, p, d, -, hq⟩ := representB_delta _ _ _ _ h'
      rcases hq with hq | ⟨-, hq⟩
      · cases hq
      · rw [← hq, representB_kind _ _ _ _ _ h', hp] at mk; cases mk
    have kQ : Q.kind = A.kind := representB_kind _ _ _ _ _ h'
    refine ⟨representB_shape pyDepth {} M A.kind kwSh_empty m1 (focalSh_of_kind (by rw [mk]; cases A.kind <;> decide))
      (by rw [mk]; cases A.kind <;> rfl) hnp Q h', kQ, by rw [kQ]; exact hnp⟩

theorem addPosB_total (hF : Full D S) {A B : Pos BArr} {s t : List ℕ} (hA : DefP D S A) (hB : DefP D S B)
    (uA : UniP S s A) (uB : UniP S t B) (hd : A.kind.dim = B.kind.dim)
    (h : ∀ i ∈ D, ∃ q, addPos (A.elemD i) (B.elemD i) = .ok q) :
    ∃ Q u, addPosB A B = .ok Q ∧ UniP S u Q ∧ Q.kind = A.kind ∧ DefP D S Q ∧ (s = S → u = S) ∧ (t = S → u = S) := by
  obtain ⟨u, u1, u2, u3, u4⟩ := lax_sub uA.sub uB.sub
  have hs := addPosB_sim (fun i hi => by rw [hF.1] at hi; exact hi) hA hB
  obtain ⟨Q, hQ⟩ := hs.total (BinShapes.cartLax (s := s) (t := t) ⟨uA.all, uA.focal, uB.all, uB.focal, hd, u, u1⟩) hF h
  obtain ⟨q1, q2, q3⟩ := binPosB_shape isLax_add uA uB hd u1 hQ
  refine ⟨Q, u, hQ, ⟨u2, q1, focalSh_of_kind q3⟩, q2, fun a ha => ⟨(hs.ok Q hQ).1 a ha, fun i hi => ?_⟩, u3, u4⟩
  obtain ⟨q, hq⟩ := h i hi
  exact (Pos.elem_some (((hs.ok Q hQ).2 i hi).1 q hq)).2 a ha

/-! ### rotations -/

theorem rotPosB_shape (R : Mat3) {A Q : Pos BArr} {s : List ℕ} (hA : UniP S s A) (h : rotPosB R A = .ok Q) :
    AllSh s Q ∧ Q.kind = A.kind ∧ Q.kind ≠ .prolate := by
  unfold rotPosB at h
  by_cases hdim : A.kind.dim ≠ 3
  · rw [if_pos hdim] at h; cases h
  rw [if_neg hdim] at h
  obtain ⟨C, e1, h⟩ := (bind_ok_iff _ _ _).mp h
  have hc : A.kind.cartesian = .cart3 := by
    push Not at hdim
    revert hdim; cases A.kind <;> decide
  have kC : C.kind = .cart3 := representB_kind _ _ _ _ _ e1
  have sC := toCart_shape hA.all hA.focal (k := A.kind) rfl (by rw [hc]; exact e1)
  cases C <;> first | (cases kC; done) | skip
  rename_i x y z
  obtain ⟨v, e2, h⟩ := (bind_ok_iff _ _ _).mp h
  obtain ⟨w, e3, h⟩ := (bind_ok_iff _ _ _).mp h
  have fit : ∀ a ∈ [x, y, z], BroadcastsTo a.shape s := fun a ha => by
    rw [sC a (by simpa [Pos.arrays] using ha)]; exact broadcastsTo_refl s
  obtain ⟨w', s', f1, f2, f3, f4, -⟩ := rotStack R fit
  rw [e2, ok_bind, e3] at f1
  obtain rfl := Except.ok.inj f1
  have hs : s' = s := by
    refine broadcastsTo_antisymm f3 ?_
    have := f4.1 x.shape (by simp)
    rwa [sC x (by simp [Pos.arrays])] at this
  have sl : ∀ (k : ℕ), (sliceLast k w).shape = s := fun k => by simp [sliceLast, f2, hs]
  have hnp : A.kind ≠ .prolate := fun hp => by
    rw [hp] at h
    obtain ⟨m, n, p, d, hqp, hq⟩ := representB_delta _ _ _ _ h
    rcases hq with hq | ⟨-, hq⟩
    · cases hq
    · rw [hq] at hqp; cases hqp
  have kQ : Q.kind = A.kind := representB_kind _ _ _ _ _ h
  refine ⟨representB_shape pyDepth {} (.cart3 (sliceLast 0 w) (sliceLast 1 w) (sliceLast 2 w)) A.kind kwSh_empty
    (by simp [AllSh, Pos.coords, sl]) trivial (by
      have := leavesRank0_dim (a := .cart3) (b := A.kind)
      rcases hb : Kind.leavesRank0 .cart3 A.kind with _ | _
      · exact hb
      · have := this hb
        have h3 : Kind.dim .cart3 = 3 := rfl
        omega) hnp Q h, kQ, by rw [kQ]; exact hnp⟩

theorem rotPosB_total (hF : Full D S) (R : Mat3) {A : Pos BArr} {s : List ℕ} (hA : DefP D S A) (uA : UniP S s A)
    (h : ∀ i ∈ D, ∃ q, rotPos R (A.elemD i) = .ok q) :
    ∃ Q, rotPosB R A = .ok Q ∧ UniP S s Q ∧ Q.kind = A.kind := by
  have hs := rotPosB_sim (T := True) (fun i hi => by rw [hF.1] at hi; exact hi) R hA
  obtain ⟨Q, hQ⟩ := hs.total trivial hF h
  obtain ⟨q1, q2, q3⟩ := rotPosB_shape R uA hQ
  exact ⟨Q, hQ, ⟨uA.sub, q1, focalSh_of_kind q3⟩, q2⟩

/-! ### velocity times time -/

theorem rs_twoSphere {T : BArr} {Φ : AzArg BArr} (l : T.shape = S) (k : Φ.arr.shape = S) :
    ResSh S (mkTwoSphereB T Φ) :=
  rs_bind fun _ _ => rs_ok (P := .twoSphere T Φ.convertB) (by simp [AllSh, Pos.coords, k, l, convertB_shape])

theorem velTimesB_shape {v : Vel BArr} {t : BArr} {s u : List ℕ} (hv : ∀ a ∈ v.comps, a.shape = s)
    (hu : bc2 s t.shape = .ok u) : ResSh u (velTimesB v t) := by
  have m : ∀ X ∈ v.comps, ∀ Z, bmul X t = .ok Z → Z.shape = u := fun X hX Z hZ => by
    have := map2_bc hZ
    rw [hv X hX, hu] at this
    exact (Except.ok.inj this).symm
  cases v with
  | cart1 a =>
    exact rs_bind fun A hA => rs_ok (by simpa [AllSh, Pos.coords] using m a (by simp [Vel.comps]) A hA)
  | radial a =>
    exact rs_bind fun A hA => rs_radial (R := .dist A) (m a (by simp [Vel.comps]) A hA)
  | cart2 a b =>
    exact rs_bind fun A hA => rs_bind fun B hB => rs_ok (by
      simpa [AllSh, Pos.coords] using ⟨m a (by simp [Vel.comps]) A hA, m b (by simp [Vel.comps]) B hB⟩)
  | polar a b =>
    exact rs_bind fun A hA => rs_bind fun B hB => rs_polar (R := .dist A) (Φ := .qty B)
      (m a (by simp [Vel.comps]) A hA) (m b (by simp [Vel.comps]) B hB)
  | twoSphere a b =>
    exact rs_bind fun A hA => rs_bind fun B hB => rs_twoSphere (Φ := .qty B)
      (m a (by simp [Vel.comps]) A hA) (m b (by simp [Vel.comps]) B hB)
  | lonCosLat => exact rs_err
  | prolate => exact rs_err
  | cart3 a b c =>
    exact rs_bind fun A hA => rs_bind fun B hB => rs_bind fun C hC => rs_ok (by
      simpa [AllSh, Pos.coords] using ⟨m a (by simp [Vel.comps]) A hA, m b (by simp [Vel.comps]) B hB,
        m c (by simp [Vel.comps]) C hC⟩)
  | cyl a b c =>
    exact rs_bind fun A hA => rs_bind fun B hB => rs_bind fun C hC => rs_cyl (Φ := .qty B)
      (m a (by simp [Vel.comps]) A hA) (m b (by simp [Vel.comps]) B hB) (m c (by simp [Vel.comps]) C hC)
  | sph a b c =>
    exact rs_bind fun A hA => rs_bind fun B hB => rs_bind fun C hC => rs_sph (R := .dist A) (Φ := .qty C)
      (m a (by simp [Vel.comps]) A hA) (m b (by simp [Vel.comps]) B hB) (m c (by simp [Vel.comps]) C hC)
  | lonlat a b c =>
    exact rs_bind fun A hA => rs_bind fun B hB => rs_bind fun C hC => rs_lonlat (R := .dist C) (Φ := .qty A)
      (m c (by simp [Vel.comps]) C hC) (m b (by simp [Vel.comps]) B hB) (m a (by simp [Vel.comps]) A hA)
  | math a b c =>
    exact rs_bind fun A hA => rs_bind fun B hB => rs_bind fun C hC => rs_math (R := .dist A) (Φ := .qty B)
      (m a (by simp [Vel.comps]) A hA) (m c (by simp [Vel.comps]) C hC) (m b (by simp [Vel.comps]) B hB)

/-- dimension of a velocity class -/
def Vel.dim {α : Type} : Vel α → ℕ
  | .cart1 _ | .radial _ => 1
  | .cart2 .. | .polar .. | .twoSphere .. => 2
  | _ => 3

/-- the class of a result -/
def ResK (k : Kind) (x : Res (Pos BArr)) : Prop := ∀ Q, x = .ok Q → Q.kind = k

theorem rk_bind {β : Type} {k : Kind} {x : Res β} {f : β → Res (Pos BArr)} (h : ∀ a, ResK k (f a)) :
    ResK k (x >>= f) := fun Q hQ => by
  obtain ⟨a, -, hQ⟩ := (bind_ok_iff _ _ _).mp hQ
  exact h a Q hQ

theorem rk_ok {k : Kind} {P : Pos BArr} (h : P.kind = k) : ResK k (.ok P) := fun _ e => by cases e; exact h

theorem velTimesB_dim {v : Vel BArr} {t : BArr} {Q : Pos BArr} (h : velTimesB v t = .ok Q) :
    Q.kind.dim = v.dim ∧ Q.kind ≠ .prolate := by
  have fin : ∀ k : Kind, k.dim = v.dim ∧ k ≠ .prolate → ResK k (velTimesB v t) → Q.kind.dim = v.dim ∧ Q.kind ≠ .prolate :=
    fun k hk hr => by rw [hr Q h]; exact hk
  cases v with
  | cart1 a => exact fin .cart1 ⟨rfl, nofun⟩ (rk_bind fun _ => rk_ok rfl)
  | radial a => exact fin .radial ⟨rfl, nofun⟩ (rk_bind fun _ => rk_bind fun _ => rk_ok rfl)
  | cart2 a b => exact fin .cart2 ⟨rfl, nofun⟩ (rk_bind fun _ => rk_bind fun _ => rk_ok rfl)
  | polar a b => exact fin .polar ⟨rfl, nofun⟩ (rk_bind fun _ => rk_bind fun _ => rk_bind fun _ => rk_ok rfl)
  | twoSphere a b => exact fin .twoSphere ⟨rfl, nofun⟩ (rk_bind fun _ => rk_bind fun _ => rk_bind fun _ => rk_ok rfl)
  | lonCosLat => cases h
  | prolate => cases h
  | cart3 a b c => exact fin .cart3 ⟨rfl, nofun⟩ (rk_bind fun _ => rk_bind fun _ => rk_bind fun _ => rk_ok rfl)
  | cyl a b c =>
    exact fin .cyl ⟨rfl, nofun⟩ (rk_bind fun _ => rk_bind fun _ => rk_bind fun _ => rk_bind fun _ => rk_ok rfl)
  | sph a b c => exact fin .sph ⟨rfl, nofun⟩ (rk_bind fun _ => rk_bind fun _ => rk_bind fun _ => rk_bind fun _ =>
      rk_bind fun _ => rk_ok rfl)
  | lonlat a b c => exact fin .lonlat ⟨rfl, nofun⟩ (rk_bind fun _ => rk_bind fun _ => rk_bind fun _ => rk_bind fun _ =>
      rk_bind fun _ => rk_ok rfl)
  | math a b c => exact fin .math ⟨rfl, nofun⟩ (rk_bind fun _ => rk_bind fun _ => rk_bind fun _ => rk_bind fun _ =>
      rk_bind fun _ => rk_ok rfl)

theorem velTimesB_total (hF : Full D S) {v : Vel BArr} {t : BArr} {s : List ℕ} (hv : DefL D S v.comps)
    (ht : DefA D S t) (uv : UniV S s v) (ut : Sub S t.shape)
    (h : ∀ i ∈ D, ∃ q, velTimes (v.elemD i) (t.elemD i) = .ok q) :
    ∃ Q u, velTimesB v t = .ok Q ∧ UniP S u Q ∧ Q.kind.dim = v.dim ∧ DefP D S Q ∧
      ∀ i ∈ D, velTimes (v.elemD i) (t.elemD i) = .ok (Q.elemD i) := by
  have hs := velTimesB_sim (T := True) (fun i hi => by rw [hF.1] at hi; exact hi) hv ht
  obtain ⟨Q, hQ⟩ := hs.total trivial hF h
  obtain ⟨u, u1, u2, -, -⟩ := bc2_sub uv.sub ut
  obtain ⟨k1, k2⟩ := velTimesB_dim hQ
  refine ⟨Q, u, hQ, ⟨u2, velTimesB_shape uv.all u1 Q hQ, focalSh_of_kind k2⟩, k1, fun a ha =>
    ⟨(hs.ok Q hQ).1 a ha, fun i hi => ?_⟩, fun i hi => ?_⟩
  · obtain ⟨q, hq⟩ := h i hi
    exact (Pos.elem_some (((hs.ok Q hQ).2 i hi).1 q hq)).2 a ha
  · obtain ⟨q, hq⟩ := h i hi
    rw [(Pos.elem_some (((hs.ok Q hQ).2 i hi).1 q hq)).1]; exact hq

/-! ### four-vectors -/

theorem mkFourB_total {t : BArr} {q : Pos BArr} {c : ℝ} {s : List ℕ} (hq : AllSh s q)
    (ht : t.shape = [] ∨ t.shape = s) : mkFourB t q c = .ok ⟨t, q, c⟩ := by
  have hs : q.shapeB = .ok s := by
    unfold Pos.shapeB
    refine broadcast_const ?_ ?_
    · cases q <;> simp [Pos.coords]
    · intro a ha
      obtain ⟨b, hb, rfl⟩ := mem_map.mp ha
      exact hq b hb
  unfold mkFourB
  rw [hs, ok_bind]
  rcases ht with h | h
  · rw [h, bc2_nil_left, ok_bind, if_pos rfl]
  · rw [h, bc2_self, ok_bind, if_pos rfl]

/-- a four-vector: one shape for `q`, that of `t` fits -/
structure UniF (S : List ℕ) (n : ℕ) (x : FourB) : Prop where
  q : ∃ s, UniP S s x.q ∧ (x.t.shape = [] ∨ x.t.shape = s)
  dim : x.q.kind.dim = n

/-- an argument all of whose vectors have `n` coordinates and the shape `S` or `()` -/
def ArgB.Uni (S : List ℕ) (n : ℕ) : ArgB → Prop
  | .pos q => q.kind.dim = n ∧ ∃ s, UniP S s q
  | .posTime q t => q.kind.dim = n ∧ (∃ s, UniP S s q) ∧ Sub S t.shape
  | .four x => UniF S n x
  | .posVel _ p => ∃ s, UniV S s p
  | .vel p => ∃ s, UniV S s p

mutual
/-- the same for the parameters of an operator -/
def OpB.Uni (S : List ℕ) (n : ℕ) : OpB → Prop
  | .identity => True
  | .rotation _ => True
  | .spatial d => d.kind.dim = n ∧ ∃ s, UniP S s d
  | .translation d => UniF S n d
  | .boost v => v.dim = n ∧ ∃ s, UniV S s v
  | .vboost v => ∃ s, UniV S s v
  | .galilean _ d v => UniF S n d ∧ v.dim = n ∧ ∃ s, UniV S s v
  | .pipe ops => unis S n ops

def unis (S : List ℕ) (n : ℕ) : List OpB → Prop
  | [] => True
  | op :: ops => op.Uni S n ∧ unis S n ops
end

/-- a call returns, and its result is again uniform -/
def Ret (S : List ℕ) (n : ℕ) (x : Res ArgB) : Prop := ∃ Q, x = .ok Q ∧ Q.Uni S n

variable {n : ℕ}

theorem callRotationB_total (hF : Full D S) (R : Mat3) {A : ArgB} (hA : DefL D S A.arrays) (uA : A.Uni S n)
    (h : ∀ i ∈ D, ∃ r, callRotation R (A.elemD i) = .ok r) : Ret S n (callRotationB R A) := by
  have inv : ∀ {α : Type} {x : Res (Pos ℝ)} {g : Pos ℝ → Res α} {r}, (x >>= g) = .ok r → ∃ q, x = .ok q :=
    fun h => by obtain ⟨q, hq, -⟩ := (bind_ok_iff _ _ _).mp h; exact ⟨q, hq⟩
  obtain ⟨i0, h0⟩ := hF.nonempty
  cases A with
  | pos q =>
    obtain ⟨hd, s, us⟩ := uA
    obtain ⟨Q, q1, q2, q3⟩ := rotPosB_total hF R hA us fun i hi => by obtain ⟨r, hr⟩ := h i hi; exact inv hr
    exact ⟨.pos Q, by simp only [callRotationB, q1, ok_bind]; rfl, by rw [← hd, ← q3]; exact ⟨rfl, s, q2⟩⟩
  | posTime q t =>
    obtain ⟨ht, hq⟩ := defL_cons.mp hA
    obtain ⟨hd, ⟨s, us⟩, ut⟩ := uA
    obtain ⟨Q, q1, q2, q3⟩ := rotPosB_total hF R hq us fun i hi => by obtain ⟨r, hr⟩ := h i hi; exact inv hr
    exact ⟨.posTime Q t, by simp only [callRotationB, q1, ok_bind]; rfl, by rw [← hd, ← q3]; exact ⟨rfl, ⟨s, q2⟩, ut⟩⟩
  | four x =>
    obtain ⟨ht, hq⟩ := defL_cons.mp hA
    obtain ⟨⟨s, us, ut⟩, hd⟩ := uA
    obtain ⟨Q, q1, q2, q3⟩ := rotPosB_total hF R hq us fun i hi => by obtain ⟨r, hr⟩ := h i hi; exact inv hr
    exact ⟨.four ⟨x.t, Q, lightSpeed⟩, by
      simp only [callRotationB, q1, ok_bind, mkFourB_total q2.all ut]; rfl, ⟨⟨s, q2, ut⟩, by rw [← hd, ← q3]⟩⟩
  | posVel => obtain ⟨r, hr⟩ := h i0 h0; cases hr
  | vel => obtain ⟨r, hr⟩ := h i0 h0; cases hr

theorem callSpatialB_total (hF : Full D S) {d : Pos BArr} (hd : DefP D S d) (ud : d.kind.dim = n ∧ ∃ s, UniP S s d)
    {A : ArgB} (hA : DefL D S A.arrays) (uA : A.Uni S n) (hp : ∀ q p, A ≠ .posVel q p)
    (h : ∀ i ∈ D, ∃ r, callSpatial (d.elemD i) (A.elemD i) = .ok r) : Ret S n (callSpatialB d A) := by
  have inv : ∀ {α : Type} {x : Res (Pos ℝ)} {g : Pos ℝ → Res α} {r}, (x >>= g) = .ok r → ∃ q, x = .ok q :=
    fun h => by obtain ⟨q, hq, -⟩ := (bind_ok_iff _ _ _).mp h; exact ⟨q, hq⟩
  obtain ⟨i0, h0⟩ := hF.nonempty
  obtain ⟨nd, sd, usd⟩ := ud
  cases A with
  | pos q =>
    obtain ⟨nq, s, us⟩ := uA
    obtain ⟨Q, u, q1, q2, q3, -⟩ := addPosB_total hF hA hd us usd (nq.trans nd.symm) fun i hi => by
      obtain ⟨r, hr⟩ := h i hi; exact inv hr
    exact ⟨.pos Q, by simp only [callSpatialB, q1, ok_bind]; rfl, by rw [← nq, ← q3]; exact ⟨rfl, u, q2⟩⟩
  | posTime q t =>
    obtain ⟨ht, hq⟩ := defL_cons.mp hA
    obtain ⟨nq, ⟨s, us⟩, ut⟩ := uA
    obtain ⟨Q, u, q1, q2, q3, -⟩ := addPosB_total hF hq hd us usd (nq.trans nd.symm) fun i hi => by
      obtain ⟨r, hr⟩ := h i hi; exact inv hr
    exact ⟨.posTime Q t, by simp only [callSpatialB, q1, ok_bind]; rfl, by rw [← nq, ← q3]; exact ⟨rfl, ⟨u, q2⟩, ut⟩⟩
  | four x =>
    obtain ⟨ht, hq⟩ := defL_cons.mp hA
    obtain ⟨⟨s, us, ut⟩, nq⟩ := uA
    obtain ⟨Q, u, q1, q2, q3, -, q5, -⟩ := addPosB_total hF hq hd us usd (nq.trans nd.symm) fun i hi => by
      obtain ⟨r, hr⟩ := h i hi; exact inv hr
    have ut' : x.t.shape = [] ∨ x.t.shape = u := by
      rcases ut with e | e
      · exact .inl e
      · rcases us.sub with e' | e'
        · right; rw [e, e', q5 e']
        · left; rw [e, e']
    exact ⟨.four ⟨x.t, Q, x.c⟩, by simp only [callSpatialB, q1, ok_bind, mkFourB_total q2.all ut']; rfl,
      ⟨⟨u, q2, ut'⟩, by rw [← nq, ← q3]⟩⟩
  | posVel q p => exact absurd rfl (hp q p)
  | vel => obtain ⟨r, hr⟩ := h i0 h0; cases hr

/-- shape of the time of a sum of four-vectors -/
theorem time_fits {a b s t u w : List ℕ} (ha : a = [] ∨ a = s) (hb : b = [] ∨ b = t) (hs : Sub S s) (ht : Sub S t)
    (h1 : s = S → u = S) (h2 : t = S → u = S) (hw : bc2 a b = .ok w) : w = [] ∨ w = u := by
  have ha' : a = [] ∨ a = S ∧ u = S := by
    rcases ha with e | e
    · exact .inl e
    · rcases hs with e' | e'
      · exact .inr ⟨e.trans e', h1 e'⟩
      · exact .inl (e.trans e')
  have hb' : b = [] ∨ b = S ∧ u = S := by
    rcases hb with e | e
    · exact .inl e
    · rcases ht with e' | e'
      · exact .inr ⟨e.trans e', h2 e'⟩
      · exact .inl (e.trans e')
  rcases ha' with rfl | ⟨rfl, hu⟩
  · rw [bc2_nil_left] at hw
    obtain rfl := Except.ok.inj hw
    rcases hb' with e | ⟨e, hu⟩
    · exact .inl e
    · exact .inr (e.trans hu.symm)
  · rcases hb' with rfl | ⟨rfl, hu⟩
    · rw [bc2_nil_right] at hw
      exact .inr ((Except.ok.inj hw).symm.trans hu.symm)
    · rw [bc2_self] at hw
      exact .inr ((Except.ok.inj hw).symm.trans hu.symm)

theorem callTranslationB_total (hF : Full D S) {d : FourB} (hd : DefL D S (d.t :: d.q.arrays)) (ud : UniF S n d)
    {A : ArgB} (hA : DefL D S A.arrays) (uA : A.Uni S n)
    (h : ∀ i ∈ D, ∃ r, callTranslation (d.elemD i) (A.elemD i) = .ok r) : Ret S n (callTranslationB d A) := by
  have inv : ∀ {α : Type} {x : Res (Pos ℝ)} {g : Pos ℝ → Res α} {r}, (x >>= g) = .ok r → ∃ q, x = .ok q :=
    fun h => by obtain ⟨q, hq, -⟩ := (bind_ok_iff _ _ _).mp h; exact ⟨q, hq⟩
  obtain ⟨i0, h0⟩ := hF.nonempty
  obtain ⟨dt, dq⟩ := defL_cons.mp hd
  obtain ⟨⟨sd, usd, utd⟩, nd⟩ := ud
  cases A with
  | pos => obtain ⟨r, hr⟩ := h i0 h0; cases hr
  | posTime q t =>
    obtain ⟨ht, hq⟩ := defL_cons.mp hA
    obtain ⟨nq, ⟨s, us⟩, ut⟩ := uA
    have h3 : ¬ q.kind.dim ≠ 3 := fun hn => by
      obtain ⟨r, hr⟩ := h i0 h0
      simp only [ArgB.elemD, callTranslation, elemD_kind, if_pos hn] at hr
      cases hr
    obtain ⟨Z, z1, -, -⟩ := badd_def ht dt
    obtain ⟨Q, u, q1, q2, q3, -⟩ := addPosB_total hF hq dq us usd (nq.trans nd.symm) fun i hi => by
      obtain ⟨r, hr⟩ := h i hi
      simp only [ArgB.elemD, callTranslation, elemD_kind, if_neg h3] at hr
      exact inv hr
    obtain ⟨w, w1, w2, -, -⟩ := bc2_sub ut (b := d.t.shape) (by
      rcases utd with e | e
      · exact .inr e
      · rw [e]; exact usd.sub)
    have hz := map2_bc z1
    rw [w1] at hz
    exact ⟨.posTime Q Z, by simp only [callTranslationB, if_neg h3, q1, z1, ok_bind]; rfl, by
      rw [← nq, ← q3]; exact ⟨rfl, ⟨u, q2⟩, by rw [← Except.ok.inj hz]; exact w2⟩⟩
  | four x =>
    obtain ⟨ht, hq⟩ := defL_cons.mp hA
    obtain ⟨⟨s, us, ut⟩, nq⟩ := uA
    obtain ⟨Z, z1, -, -⟩ := badd_def ht dt
    obtain ⟨Q, u, q1, q2, q3, -, q5, q6⟩ := addPosB_total hF hq dq us usd (nq.trans nd.symm) fun i hi => by
      obtain ⟨r, hr⟩ := h i hi
      have hr' : (do return Arg.four (← (x.elemD i).add (d.elemD i))) = Except.ok r := hr
      obtain ⟨y, hy, -⟩ := (bind_ok_iff _ _ _).mp hr'
      exact inv hy
    have uz := time_fits ut utd us.sub usd.sub q5 q6 (map2_bc z1)
    exact ⟨.four ⟨Z, Q, x.c⟩, by
      simp only [callTranslationB, FourB.add, q1, z1, ok_bind, mkFourB_total q2.all uz]; rfl,
      ⟨⟨u, q2, uz⟩, by rw [← nq, ← q3]⟩⟩
  | posVel => obtain ⟨r, hr⟩ := h i0 h0; cases hr
  | vel => obtain ⟨r, hr⟩ := h i0 h0; cases hr

theorem callBoostB_total (hF : Full D S) {v : Vel BArr} (hv : DefL D S v.comps) (uv : v.dim = n ∧ ∃ s, UniV S s v)
    {A : ArgB} (hA : DefL D S A.arrays) (uA : A.Uni S n)
    (h : ∀ i ∈ D, ∃ r, callBoost (v.elemD i) (A.elemD i) = .ok r) : Ret S n (callBoostB v A) := by
  have inv : ∀ {α : Type} {x : Res (Pos ℝ)} {g : Pos ℝ → Res α} {r}, (x >>= g) = .ok r →
    ∃ q, x = .ok q ∧ g q = .ok r := fun h => (bind_ok_iff _ _ _).mp h
  obtain ⟨i0, h0⟩ := hF.nonempty
  obtain ⟨nv, sv, usv⟩ := uv
  cases A with
  | pos => obtain ⟨r, hr⟩ := h i0 h0; cases hr
  | posTime q t =>
    obtain ⟨ht, hq⟩ := defL_cons.mp hA
    obtain ⟨nq, ⟨s, us⟩, ut⟩ := uA
    obtain ⟨d, sd, d1, d2, d3, d4, d5⟩ := velTimesB_total hF hv ht usv ut fun i hi => by
      obtain ⟨r, hr⟩ := h i hi
      obtain ⟨q, hq, -⟩ := inv hr
      exact ⟨q, hq⟩
    obtain ⟨Q, u, q1, q2, q3, -⟩ := addPosB_total hF hq d4 us d2 (by omega) fun i hi => by
      obtain ⟨r, hr⟩ := h i hi
      obtain ⟨q, hq, hr⟩ := inv hr
      rw [d5 i hi] at hq
      obtain rfl := Except.ok.inj hq
      obtain ⟨q, hq, -⟩ := inv hr
      exact ⟨q, hq⟩
    exact ⟨.posTime Q t, by simp only [callBoostB, d1, q1, ok_bind]; rfl, by rw [← nq, ← q3]; exact ⟨rfl, ⟨u, q2⟩, ut⟩⟩
  | four x =>
    obtain ⟨ht, hq⟩ := defL_cons.mp hA
    obtain ⟨⟨s, us, ut⟩, nq⟩ := uA
    have ut0 : Sub S x.t.shape := by
      rcases ut with e | e
      · exact .inr e
      · rw [e]; exact us.sub
    obtain ⟨d, sd, d1, d2, d3, d4, d5⟩ := velTimesB_total hF hv ht usv ut0 fun i hi => by
      obtain ⟨r, hr⟩ := h i hi
      obtain ⟨q, hq, -⟩ := inv hr
      exact ⟨q, hq⟩
    obtain ⟨Q, u, q1, q2, q3, -, q5, -⟩ := addPosB_total hF hq d4 us d2 (by omega) fun i hi => by
      obtain ⟨r, hr⟩ := h i hi
      obtain ⟨q, hq, hr⟩ := inv hr
      have hq' : velTimes (v.elemD i) (x.t.elemD i) = .ok q := hq
      rw [d5 i hi] at hq'
      obtain rfl := Except.ok.inj hq'
      obtain ⟨q, hq, -⟩ := inv hr
      exact ⟨q, hq⟩
    have ut' : x.t.shape = [] ∨ x.t.shape = u := by
      rcases ut with e | e
      · exact .inl e
      · rcases us.sub with e' | e'
        · right; rw [e, e', q5 e']
        · left; rw [e, e']
    exact ⟨.four ⟨x.t, Q, x.c⟩, by simp only [callBoostB, d1, q1, ok_bind, mkFourB_total q2.all ut']; rfl,
      ⟨⟨u, q2, ut'⟩, by rw [← nq, ← q3]⟩⟩
  | posVel => obtain ⟨r, hr⟩ := h i0 h0; cases hr
  | vel => obtain ⟨r, hr⟩ := h i0 h0; cases hr

theorem laxAdd_total {u : List ℕ} (h : laxShape X.shape Y.shape = .ok u) : ∃ Z, laxAdd X Y = .ok Z ∧ Z.shape = u := by
  obtain ⟨Z, hZ⟩ := isLax_add.total h rfl rfl
  have := laxMap2_shape hZ
  rw [h] at this
  exact ⟨Z, hZ, (Except.ok.inj this).symm⟩

theorem addVelB_total {p v : Vel BArr} {s t : List ℕ} (up : UniV S s p) (uv : UniV S t v) {i : List ℕ}
    (h : ∃ r, addVel (p.elemD i) (v.elemD i) = .ok r) : ∃ w u, addVelB p v = .ok w ∧ UniV S u w := by
  obtain ⟨u, u1, u2, -, -⟩ := lax_sub up.sub uv.sub
  have one : ∀ {X Y}, X ∈ p.comps → Y ∈ v.comps → ∃ Z, laxAdd X Y = .ok Z ∧ Z.shape = u := fun {X Y} hX hY =>
    laxAdd_total (by rw [up.all X hX, uv.all Y hY]; exact u1)
  obtain ⟨r, h⟩ := h
  cases p with
  | cart1 a =>
    cases v <;> first | (cases h; done) | skip
    obtain ⟨A, a1, a2⟩ := one (X := a) (by simp [Vel.comps]) (mem_cons_self ..)
    exact ⟨.cart1 A, u, by simp only [addVelB, a1, ok_bind]; rfl, u2, by simpa [Vel.comps] using a2⟩
  | cart2 a b =>
    cases v with
    | cart2 a' b' =>
      obtain ⟨A, a1, a2⟩ := one (X := a) (Y := a') (by simp [Vel.comps]) (by simp [Vel.comps])
      obtain ⟨B, b1, b2⟩ := one (X := b) (Y := b') (by simp [Vel.comps]) (by simp [Vel.comps])
      exact ⟨.cart2 A B, u, by simp only [addVelB, a1, b1, ok_bind]; rfl, u2, by simpa [Vel.comps] using ⟨a2, b2⟩⟩
    | _ => cases h
  | cart3 a b c =>
    cases v with
    | cart3 a' b' c' =>
      obtain ⟨A, a1, a2⟩ := one (X := a) (Y := a') (by simp [Vel.comps]) (by simp [Vel.comps])
      obtain ⟨B, b1, b2⟩ := one (X := b) (Y := b') (by simp [Vel.comps]) (by simp [Vel.comps])
      obtain ⟨C, c1, c2⟩ := one (X := c) (Y := c') (by simp [Vel.comps]) (by simp [Vel.comps])
      exact ⟨.cart3 A B C, u, by simp only [addVelB, a1, b1, c1, ok_bind]; rfl, u2, by
        simpa [Vel.comps] using ⟨a2, b2, c2⟩⟩
    | _ => cases h
  | _ => cases h

theorem callVBoostB_total (hF : Full D S) {v : Vel BArr} (uv : ∃ s, UniV S s v) {A : ArgB} (uA : A.Uni S n)
    (h : ∀ i ∈ D, ∃ r, callVBoost (v.elemD i) (A.elemD i) = .ok r) : Ret S n (callVBoostB v A) := by
  obtain ⟨i0, h0⟩ := hF.nonempty
  obtain ⟨sv, usv⟩ := uv
  obtain ⟨r, hr⟩ := h i0 h0
  cases A with
  | pos q => exact ⟨_, rfl, uA⟩
  | posTime q t => exact ⟨_, rfl, uA⟩
  | four x =>
    obtain ⟨⟨s, us, ut⟩, nq⟩ := uA
    exact ⟨.four x, by simp only [callVBoostB, mkFourB_total us.all ut, ok_bind]; rfl, ⟨s, us, ut⟩, nq⟩
  | posVel q p =>
    obtain ⟨s, us⟩ := uA
    obtain ⟨w, u, w1, w2⟩ := addVelB_total us usv (i := i0) (by
      obtain ⟨y, hy, -⟩ := (bind_ok_iff _ _ _).mp hr; exact ⟨y, hy⟩)
    exact ⟨.posVel q w, by simp only [callVBoostB, w1, ok_bind]; rfl, u, w2⟩
  | vel p =>
    obtain ⟨s, us⟩ := uA
    obtain ⟨w, u, w1, w2⟩ := addVelB_total us usv (i := i0) (by
      obtain ⟨y, hy, -⟩ := (bind_ok_iff _ _ _).mp hr; exact ⟨y, hy⟩)
    exact ⟨.vel w, by simp only [callVBoostB, w1, ok_bind]; rfl, u, w2⟩

/-- a second step -/
theorem ASim.step {A : Res ArgB} {s : List ℕ → Res Arg} {B : ArgB} (h : ASim D S A s) (hB : A = .ok B)
    {g : List ℕ → Arg → Res Arg} (hr : ∀ i ∈ D, ∃ r, (s i >>= g i) = .ok r) :
    DefL D S B.arrays ∧ ∀ i ∈ D, ∃ r, g i (B.elemD i) = .ok r := by
  obtain ⟨f1, f2⟩ := h B hB
  refine ⟨defL_of_singles f1 fun i hi => ?_, fun i hi => ?_⟩
  · obtain ⟨r, hr⟩ := hr i hi
    obtain ⟨q, hq, -⟩ := (bind_ok_iff _ _ _).mp hr
    exact ((f2 i hi).1 q hq).2
  · obtain ⟨r, hr⟩ := hr i hi
    obtain ⟨q, hq, hr⟩ := (bind_ok_iff _ _ _).mp hr
    rw [((f2 i hi).1 q hq).1]
    exact ⟨r, hr⟩

theorem Full.inB (hF : Full D S) : ∀ i ∈ D, InB S i := fun i hi => by rw [hF.1] at hi; exact hi

theorem Full.first (hF : Full D S) {s : List ℕ → Res Arg} {g : List ℕ → Arg → Res Arg}
    (h : ∀ i ∈ D, ∃ r, (s i >>= g i) = .ok r) : ∀ i ∈ D, ∃ r, s i = .ok r := fun i hi => by
  obtain ⟨r, hr⟩ := h i hi
  obtain ⟨q, hq, -⟩ := (bind_ok_iff _ _ _).mp hr
  exact ⟨q, hq⟩

mutual
theorem callB_total : ∀ (op : OpB) {A : ArgB}, Full D S → DefL D S op.arrays → DefL D S A.arrays →
    op.Uni S n → A.Uni S n → (A.isPair = false ∨ op.translates = false) →
    (∀ i ∈ D, ∃ r, (op.elemD i).call (A.elemD i) = .ok r) → Ret S n (op.call A)
  | .identity, A, hF, ho, hA, uo, uA, hp, h => by
    simp only [OpB.call]; exact ⟨A, rfl, uA⟩
  | .rotation R, A, hF, ho, hA, uo, uA, hp, h => by
    simp only [OpB.call, OpB.elemD, Op.call] at h ⊢
    exact callRotationB_total hF R hA uA h
  | .spatial d, A, hF, ho, hA, uo, uA, hp, h => by
    simp only [OpB.call, OpB.elemD, Op.call] at h ⊢
    exact callSpatialB_total hF ho (by simpa only [OpB.Uni] using uo) hA uA (fun q p e => by
      rcases hp with hp | hp
      · rw [e] at hp; cases hp
      · simp [OpB.translates] at hp) h
  | .translation d, A, hF, ho, hA, uo, uA, hp, h => by
    simp only [OpB.call, OpB.elemD, Op.call] at h ⊢
    exact callTranslationB_total hF ho (by simpa only [OpB.Uni] using uo) hA uA h
  | .boost v, A, hF, ho, hA, uo, uA, hp, h => by
    simp only [OpB.call, OpB.elemD, Op.call] at h ⊢
    exact callBoostB_total hF ho (by simpa only [OpB.Uni] using uo) hA uA h
  | .vboost v, A, hF, ho, hA, uo, uA, hp, h => by
    simp only [OpB.call, OpB.elemD, Op.call] at h ⊢
    exact callVBoostB_total hF (by simpa only [OpB.Uni] using uo) uA h
  | .galilean R d v, A, hF, ho, hA, uo, uA, hp, h => by
    simp only [OpB.call, OpB.elemD, Op.call] at h ⊢
    simp only [OpB.Uni] at uo
    obtain ⟨hd, hv⟩ := defL_append.mp ho
    obtain ⟨B, b1, b2⟩ := callRotationB_total hF R hA uA (hF.first h)
    obtain ⟨b3, b4⟩ := (callRotationB_sim hF.inB R hA).step b1
      (g := fun i a => callTranslation (d.elemD i) a >>= callBoost (v.elemD i)) h
    obtain ⟨C, c1, c2⟩ := callTranslationB_total hF hd uo.1 b3 b2
      (hF.first (g := fun i a => callBoost (v.elemD i) a) b4)
    obtain ⟨c3, c4⟩ := (callTranslationB_sim hF.inB hd b3).step c1 (g := fun i a => callBoost (v.elemD i) a) b4
    obtain ⟨Q, q1, q2⟩ := callBoostB_total hF hv uo.2 c3 c2 c4
    exact ⟨Q, by rw [b1, ok_bind, c1, ok_bind, q1], q2⟩
  | .pipe ops, A, hF, ho, hA, uo, uA, hp, h => by
    obtain ⟨i0, h0⟩ := hF.nonempty
    simp only [OpB.call, OpB.elemD, Op.call, isVel_elemD, elemsD_length] at h ⊢
    by_cases hc : A.isVel = true ∧ ops.length ≠ 1
    · simp only [if_pos hc] at h
      obtain ⟨r, hr⟩ := h i0 h0
      cases hr
    · simp only [if_neg hc] at h ⊢
      exact callAllB_total ops hF ho hA (by simpa only [OpB.Uni] using uo) uA hp h

theorem callAllB_total : ∀ (ops : List OpB) {A : ArgB}, Full D S → DefL D S (opArrays ops) → DefL D S A.arrays →
    unis S n ops → A.Uni S n → (A.isPair = false ∨ anyTranslates ops = false) →
    (∀ i ∈ D, ∃ r, callAll (elemsD i ops) (A.elemD i) = .ok r) → Ret S n (callAllB ops A)
  | [], A, hF, ho, hA, uo, uA, hp, h => by simp only [callAllB]; exact ⟨A, rfl, uA⟩
  | op :: ops, A, hF, ho, hA, uo, uA, hp, h => by
    simp only [callAllB, elemsD, callAll] at h ⊢
    simp only [unis] at uo
    obtain ⟨h1, h2⟩ := defL_append.mp ho
    have hp1 : A.isPair = false ∨ op.translates = false := hp.imp id fun h => by
      simp only [anyTranslates, Bool.or_eq_false_iff] at h; exact h.1
    obtain ⟨B, b1, b2⟩ := callB_total op hF h1 hA uo.1 uA hp1 (hF.first h)
    obtain ⟨b3, b4⟩ := (callB_sim op hF.inB h1 hA hp1).step b1 (g := fun i => callAll (elemsD i ops)) h
    obtain ⟨Q, q1, q2⟩ := callAllB_total ops hF h2 b3 uo.2 b2 (hp.imp
      (fun h => by rw [isPair_tag, callB_tag op b1, ← isPair_tag]; exact h)
      fun h => by simp only [anyTranslates, Bool.or_eq_false_iff] at h; exact h.2) b4
    exact ⟨Q, by rw [b1, ok_bind, q1], q2⟩
end

end

end Verif
