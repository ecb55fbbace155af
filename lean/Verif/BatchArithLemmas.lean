import Verif.BatchArith
import Verif.BatchShape
import Verif.ArithLemmas

/-! # Arithmetic of batches acts element by element -/

namespace Verif

open List Spec

theorem lax_bc2 {s t u : List ℕ} (h : laxShape s t = .ok u) : bc2 s t = .ok u := by
  unfold laxShape at h
  split at h
  · rename_i e; rw [e, bc2_nil_left]; exact h
  · split at h
    · rename_i e; rw [e, bc2_nil_right]; exact h
    · split at h
      · exact h
      · cases h

theorem laxShape_self (s : List ℕ) : laxShape s s = .ok s := by
  unfold laxShape
  by_cases h : s = []
  · simp [h]
  · simp [h, bc2_self]

theorem laxMap2_map2 {α β γ : Type} {f : α → β → γ} {a : Arr α} {b : Arr β} {c : Arr γ}
    (h : Arr.laxMap2 f a b = .ok c) : Arr.map2 f a b = .ok c := by
  unfold Arr.laxMap2 at h
  obtain ⟨s, h1, h2⟩ := (bind_ok_iff _ _ _).mp h
  unfold Arr.map2
  rw [lax_bc2 h1, ok_bind]; exact h2

theorem laxMap2_shape {α β γ : Type} {f : α → β → γ} {a : Arr α} {b : Arr β} {c : Arr γ}
    (h : Arr.laxMap2 f a b = .ok c) : laxShape a.shape b.shape = .ok c.shape := by
  unfold Arr.laxMap2 at h
  obtain ⟨s, h1, h2⟩ := (bind_ok_iff _ _ _).mp h
  obtain rfl := Except.ok.inj h2
  exact h1

theorem laxMap2_total {α β γ : Type} (f : α → β → γ) {a : Arr α} {b : Arr β} {u : List ℕ}
    (h : laxShape a.shape b.shape = .ok u) : ∃ c, Arr.laxMap2 f a b = .ok c := by
  unfold Arr.laxMap2
  rw [h, ok_bind]; exact ⟨_, rfl⟩

section
variable {T : Prop} {D : Set (List ℕ)} {S : List ℕ} {X Y Z : BArr} {x y : List ℕ → Res ℝ}
  {R : Dist BArr}

theorem EF.lax (h : EF D S X x) (k : EF D S Y y) {f : ℝ → ℝ → Res ℝ}
    (hf : ∀ v w e, f v w = .error e → e = .nonFinite) (hZ : Arr.laxMap2 (el2 f) X Y = .ok Z) :
    EF D S Z fun i => (do f (← x i) (← y i)) := by
  obtain ⟨Z', h1, h2⟩ := h.map2 k hf
  rw [laxMap2_map2 hZ] at h1
  obtain rfl := Except.ok.inj h1
  exact h2

/-- a binary operation on arrays in the style of `jax.lax` -/
def IsLax (g : BArr → BArr → Res BArr) (f : ℝ → ℝ → ℝ) : Prop :=
  ∀ a b, g a b = Arr.laxMap2 (el2 fun x y => .ok (f x y)) a b

theorem isLax_add : IsLax laxAdd (· + ·) := fun _ _ => rfl
theorem isLax_sub : IsLax laxSub (· - ·) := fun _ _ => rfl

theorem IsLax.ef {g : BArr → BArr → Res BArr} {f : ℝ → ℝ → ℝ} (hg : IsLax g f) (h : DefA D S X) (k : DefA D S Y)
    (hZ : g X Y = .ok Z) : EF D S Z fun i => .ok (f (X.elemD i) (Y.elemD i)) := by
  rw [hg] at hZ
  exact (h.ef.lax k.ef (fun _ _ _ h => by cases h) hZ).congr fun i _ => rfl

/-- component by component, `jax.lax` combines the shapes -/
def PairLax (A B : Pos BArr) : Prop :=
  Forall₂ (fun a b : BArr => ∃ u, laxShape a.shape b.shape = .ok u) A.arrays B.arrays

theorem IsLax.total {g : BArr → BArr → Res BArr} {f : ℝ → ℝ → ℝ} (hg : IsLax g f) {s t u : List ℕ}
    (h : laxShape s t = .ok u) (hX : X.shape = s) (hY : Y.shape = t) : ∃ Z, g X Y = .ok Z := by
  rw [hg]; exact laxMap2_total _ (by rw [hX, hY]; exact h)

theorem mapCart2B_sim {g : BArr → BArr → Res BArr} {f : ℝ → ℝ → ℝ} (hg : IsLax g f) {A B : Pos BArr}
    (hA : DefP D S A) (hB : DefP D S B) :
    BSim (PairLax A B) D S (mapCart2B g A B) fun i => mapCart2 f (A.elemD i) (B.elemD i) := by
  refine ⟨fun Q hQ => ?_, fun hT hF hs => ?_⟩
  · cases A <;> cases B <;> simp only [mapCart2B, bind_ok_iff, reduceCtorEq] at hQ
    · rename_i a b
      obtain ⟨c, h1, hQ⟩ := hQ
      obtain rfl := Except.ok.inj hQ
      have e1 := hg.ef (hA a (by simp [Pos.arrays])) (hB b (by simp [Pos.arrays])) h1
      refine ⟨by simpa [FitsP, Pos.arrays] using e1.fits, fun i hi => ⟨fun q hq => ?_, fun e he => by cases he⟩⟩
      obtain rfl := Except.ok.inj hq
      simp [Pos.elem, e1.val i hi _ rfl]
    · rename_i a a' b b'
      obtain ⟨c, h1, c', h2, hQ⟩ := hQ
      obtain rfl := Except.ok.inj hQ
      have e1 := hg.ef (hA a (by simp [Pos.arrays])) (hB b (by simp [Pos.arrays])) h1
      have e2 := hg.ef (hA a' (by simp [Pos.arrays])) (hB b' (by simp [Pos.arrays])) h2
      refine ⟨by simpa [FitsP, Pos.arrays] using ⟨e1.fits, e2.fits⟩, fun i hi => ⟨fun q hq => ?_, fun e he => by cases he⟩⟩
      obtain rfl := Except.ok.inj hq
      simp [Pos.elem, e1.val i hi _ rfl, e2.val i hi _ rfl]
    · rename_i a a' a'' b b' b''
      obtain ⟨c, h1, c', h2, c'', h3, hQ⟩ := hQ
      obtain rfl := Except.ok.inj hQ
      have e1 := hg.ef (hA a (by simp [Pos.arrays])) (hB b (by simp [Pos.arrays])) h1
      have e2 := hg.ef (hA a' (by simp [Pos.arrays])) (hB b' (by simp [Pos.arrays])) h2
      have e3 := hg.ef (hA a'' (by simp [Pos.arrays])) (hB b'' (by simp [Pos.arrays])) h3
      refine ⟨by simpa [FitsP, Pos.arrays] using ⟨e1.fits, e2.fits, e3.fits⟩,
        fun i hi => ⟨fun q hq => ?_, fun e he => by cases he⟩⟩
      obtain rfl := Except.ok.inj hq
      simp [Pos.elem, e1.val i hi _ rfl, e2.val i hi _ rfl, e3.val i hi _ rfl]
  · obtain ⟨i, hi⟩ := hF.nonempty
    obtain ⟨q, hq⟩ := hs i hi
    have tot : ∀ {a b : BArr}, (∃ u, laxShape a.shape b.shape = .ok u) → ∃ Z, g a b = .ok Z := fun ⟨u, hu⟩ =>
      hg.total hu rfl rfl
    cases A <;> cases B <;> simp only [mapCart2, Pos.elemD, reduceCtorEq] at hq <;>
      simp only [PairLax, Pos.arrays, forall₂_cons, forall₂_nil_left_iff, and_true] at hT
    · obtain ⟨c, hc⟩ := tot hT
      exact ⟨_, by simp only [mapCart2B, hc, ok_bind]; rfl⟩
    · obtain ⟨c, hc⟩ := tot hT.1
      obtain ⟨c', hc'⟩ := tot hT.2
      exact ⟨_, by simp only [mapCart2B, hc, hc', ok_bind]; rfl⟩
    · obtain ⟨c, hc⟩ := tot hT.1
      obtain ⟨c', hc'⟩ := tot hT.2.1
      obtain ⟨c'', hc''⟩ := tot hT.2.2
      exact ⟨_, by simp only [mapCart2B, hc, hc', hc'', ok_bind]; rfl⟩

theorem mapCartB_sim {g : BArr → Res BArr} {f : List ℕ → ℝ → ℝ}
    (hg : ∀ X, DefA D S X → ∃ Z, g X = .ok Z ∧ EF D S Z fun i => .ok (f i (X.elemD i))) {A : Pos BArr}
    (hA : DefP D S A) : BSim T D S (mapCartB g A) fun i => mapCart (f i) (A.elemD i) := by
  have ret : ∀ {Q : Pos BArr}, DefP D S Q → (∀ i ∈ D, mapCart (f i) (A.elemD i) = .ok (Q.elemD i)) →
      BSim T D S (.ok Q) fun i => mapCart (f i) (A.elemD i) := fun h e => (BSim.ret h).congr fun i hi => (e i hi).symm
  have dd : ∀ {Z : BArr} {h : List ℕ → ℝ}, EF D S Z (fun i => .ok (h i)) → DefA D S Z ∧ ∀ i ∈ D, Z.elemD i = h i :=
    fun e => ⟨DefA.of_elem e.fits fun i hi => ⟨_, e.val i hi _ rfl⟩, fun i hi => e.eqD hi rfl⟩
  cases A with
  | cart1 x =>
    obtain ⟨Z, h1, e1⟩ := hg x (hA x (by simp [Pos.arrays]))
    simp only [mapCartB, h1, ok_bind]
    refine ret (Q := .cart1 Z) (by simpa [DefP, Pos.arrays] using (dd e1).1) fun i hi => ?_
    simp only [Pos.elemD, mapCart, (dd e1).2 i hi]; rfl
  | cart2 x y =>
    obtain ⟨Z, h1, e1⟩ := hg x (hA x (by simp [Pos.arrays]))
    obtain ⟨Z', h2, e2⟩ := hg y (hA y (by simp [Pos.arrays]))
    simp only [mapCartB, h1, h2, ok_bind]
    refine ret (Q := .cart2 Z Z') (by simpa [DefP, Pos.arrays] using ⟨(dd e1).1, (dd e2).1⟩) fun i hi => ?_
    simp only [Pos.elemD, mapCart, (dd e1).2 i hi, (dd e2).2 i hi]; rfl
  | cart3 x y z =>
    obtain ⟨Z, h1, e1⟩ := hg x (hA x (by simp [Pos.arrays]))
    obtain ⟨Z', h2, e2⟩ := hg y (hA y (by simp [Pos.arrays]))
    obtain ⟨Z'', h3, e3⟩ := hg z (hA z (by simp [Pos.arrays]))
    simp only [mapCartB, h1, h2, h3, ok_bind]
    refine ret (Q := .cart3 Z Z' Z'') (by simpa [DefP, Pos.arrays] using ⟨(dd e1).1, (dd e2).1, (dd e3).1⟩) fun i hi => ?_
    simp only [Pos.elemD, mapCart, (dd e1).2 i hi, (dd e2).2 i hi, (dd e3).2 i hi]; rfl
  | _ => exact BSim.error fun i hi q hq => by simp [Pos.elemD, mapCart] at hq

theorem rep_sim (hD : ∀ i ∈ D, InB S i) {P : Pos BArr} (hP : DefP D S P) (k : Kind) :
    BSim (ShapesOk {} P k) D S (representAsB {} P k) fun i => representAs {} (P.elemD i) k :=
  simAt pyDepth D S {} P k hD (fun a ha => by simp [Kw.arrays] at ha) hP

theorem rep_sim_cart (hD : ∀ i ∈ D, InB S i) {P : Pos BArr} (hP : DefP D S P) {k : Kind} (hk : k.isCart = true) :
    BSim T D S (representAsB {} P k) fun i => representAs {} (P.elemD i) k :=
  (rep_sim hD hP k).weaken fun _ => by cases P <;> cases k <;> first | trivial | cases hk

theorem rep_sim_from (hD : ∀ i ∈ D, InB S i) {P : Pos BArr} (hP : DefP D S P) {k : Kind} (hk : P.kind.isCart = true) :
    BSim T D S (representAsB {} P k) fun i => representAs {} (P.elemD i) k :=
  (rep_sim hD hP k).weaken fun _ => by cases P <;> first | (cases hk; done) | (cases k <;> trivial)

theorem elemD_kind (P : Pos BArr) (i : List ℕ) : (P.elemD i).kind = P.kind := by cases P <;> rfl

theorem mapCartB_kind {g : BArr → Res BArr} {A Q : Pos BArr} (h : mapCartB g A = .ok Q) :
    Q.kind = A.kind ∧ A.kind.isCart = true := by
  cases A <;> simp only [mapCartB, bind_ok_iff, reduceCtorEq] at h
  · obtain ⟨_, _, h⟩ := h; cases h; exact ⟨rfl, rfl⟩
  · obtain ⟨_, _, _, _, h⟩ := h; cases h; exact ⟨rfl, rfl⟩
  · obtain ⟨_, _, _, _, _, _, h⟩ := h; cases h; exact ⟨rfl, rfl⟩

theorem mapCart2B_kind {g : BArr → BArr → Res BArr} {A B Q : Pos BArr} (h : mapCart2B g A B = .ok Q) :
    Q.kind = A.kind ∧ A.kind.isCart = true ∧ B.kind = A.kind := by
  cases A <;> cases B <;> simp only [mapCart2B, bind_ok_iff, reduceCtorEq] at h
  · obtain ⟨_, _, h⟩ := h; cases h; exact ⟨rfl, rfl, rfl⟩
  · obtain ⟨_, _, _, _, h⟩ := h; cases h; exact ⟨rfl, rfl, rfl⟩
  · obtain ⟨_, _, _, _, _, _, h⟩ := h; cases h; exact ⟨rfl, rfl, rfl⟩

theorem viaCartB_sim (hD : ∀ i ∈ D, InB S i) {g : BArr → Res BArr} {f : List ℕ → ℝ → ℝ}
    (hg : ∀ D', D' ⊆ D → ∀ X, DefA D' S X → ∃ Z, g X = .ok Z ∧ EF D' S Z fun i => .ok (f i (X.elemD i)))
    {P : Pos BArr} (hP : DefP D S P) :
    BSim T D S (viaCartB g P) fun i => (do
      representAs {} (← mapCart (f i) (← toCartesian (P.elemD i))) P.kind) := by
  have h1 : BSim True D S (toCartesianB P) fun i => toCartesian (P.elemD i) := by
    refine (rep_sim_cart hD hP (isCart_cartesian P.kind)).congr fun i _ => ?_
    unfold toCartesian; rw [elemD_kind]
  refine (h1.comp (T' := True) (G := fun c => mapCartB g c >>= fun m => representAsB {} m P.kind)
    (g := fun i c => mapCart (f i) c >>= fun m => representAs {} m P.kind) fun C D' hs hC hA => ?_).weaken
    fun _ => ⟨trivial, trivial⟩
  refine ((mapCartB_sim (T := True) (hg D' hs) hC).comp (T' := True) (G := fun m => representAsB {} m P.kind)
    (g := fun _ m => representAs {} m P.kind) fun M D'' hs' hM hA' => ?_).weaken fun _ => ⟨trivial, trivial⟩
  obtain ⟨k1, k2⟩ := mapCartB_kind hA'
  exact rep_sim_from (fun i hi => hD i (hs (hs' hi))) hM (by rw [k1]; exact k2)

theorem neg_ok (D : Set (List ℕ)) (X : BArr) (h : DefA D S X) :
    ∃ Z, (.ok (bneg X) : Res BArr) = .ok Z ∧ EF D S Z fun i => .ok (-(X.elemD i)) :=
  ⟨_, rfl, h.ef.neg⟩

theorem mul_ok {W : BArr} (hW : DefA D S W) (D' : Set (List ℕ)) (hs : D' ⊆ D) (X : BArr) (h : DefA D' S X) :
    ∃ Z, bmul W X = .ok Z ∧ EF D' S Z fun i => .ok (W.elemD i * X.elemD i) := by
  obtain ⟨Z, h1, h2⟩ := (hW.mono hs).ef.mul h.ef
  exact ⟨Z, h1, h2⟩

theorem negPosB_sim (hD : ∀ i ∈ D, InB S i) {P : Pos BArr} (hP : DefP D S P) :
    BSim T D S (negPosB P) fun i => negPos (P.elemD i) := by
  have hc := mapCartB_sim (T := T) (g := fun x => .ok (bneg x)) (f := fun _ x => -x) (fun X h => neg_ok D X h) hP
  have hv := viaCartB_sim (T := T) hD (g := fun x => .ok (bneg x)) (f := fun _ x => -x)
    (fun D' _ X h => neg_ok D' X h) hP
  cases P with
  | cart1 | cart2 | cart3 => exact hc
  | _ => exact hv

theorem mapRawM_df {g : BArr → Res BArr} {f : List ℕ → ℝ → Res ℝ} (hR : DefA D S R.raw)
    (hg : ∀ X, DefA D S X → ∃ Z, g X = .ok Z ∧ EF D S Z fun i => f i (X.elemD i)) :
    ∃ R', R.mapRawM g = .ok R' ∧ DF D S R' fun i => (do
      let v ← f i (R.elemD i).raw; return (R.elemD i).mapRaw (fun _ => v)) := by
  have key : ∀ {W : BArr} {w : List ℕ → Res ℝ} {C : ∀ {α : Type}, α → Dist α}, EF D S W w →
      (∀ i, (C W).elem i = (W.elem i).map C) → (C W).raw = W → DF D S (C W) fun i => (do let v ← w i; return C v) := by
    intro W w C h hc hr
    refine ⟨by rw [hr]; exact h.fits, fun i hi v hv => ?_, fun i hi e he => ?_⟩
    · obtain ⟨u, h1, h2⟩ := (bind_ok_iff _ _ _).mp hv
      obtain rfl := Except.ok.inj h2
      rw [hc, h.val i hi u h1]; rfl
    · rcases hx : w i with e' | u
      · rw [hx] at he; exact Except.error.inj he ▸ h.err i hi e' hx
      · rw [hx] at he; cases he
  cases R with
  | dist a =>
    obtain ⟨Z, h1, h2⟩ := hg a hR
    exact ⟨.dist Z, by simp only [Dist.mapRawM, h1, ok_bind]; rfl, key (C := Dist.dist) h2 (fun _ => rfl) rfl⟩
  | par a =>
    obtain ⟨Z, h1, h2⟩ := hg a hR
    exact ⟨.par Z, by simp only [Dist.mapRawM, h1, ok_bind]; rfl, key (C := Dist.par) h2 (fun _ => rfl) rfl⟩
  | dm a =>
    obtain ⟨Z, h1, h2⟩ := hg a hR
    exact ⟨.dm Z, by simp only [Dist.mapRawM, h1, ok_bind]; rfl, key (C := Dist.dm) h2 (fun _ => rfl) rfl⟩

theorem scalePosB_sim (hD : ∀ i ∈ D, InB S i) {P : Pos BArr} {W : BArr} (h0 : W.shape.all (· = 0) = true)
    (hW : DefA D S W) (hP : DefP D S P) :
    BSim T D S (scalePosB W P) fun i => scalePos (W.elemD i) (P.elemD i) := by
  have hc := mapCartB_sim (T := T) (g := fun x => bmul W x) (f := fun i x => W.elemD i * x)
    (mul_ok hW D (fun _ h => h)) hP
  have hv := viaCartB_sim (T := T) hD (g := fun x => bmul W x) (f := fun i x => W.elemD i * x)
    (mul_ok hW) hP
  unfold scalePosB
  rw [if_pos h0]
  cases P with
  | polar r phi =>
    obtain ⟨hr, hp⟩ := defP_polar.mp hP
    obtain ⟨R', h1, h2⟩ := mapRawM_df (f := fun i x => .ok (W.elemD i * x)) hr (mul_ok hW D (fun _ h => h))
    simp only [h1, ok_bind]
    refine (mkPolarB_sim hD h2 hp.ef.angle).congr fun i _ => ?_
    simp only [ok_bind, Pos.elemD, scalePos]
    cases r <;> rfl
  | math r theta phi =>
    obtain ⟨hr, ht, hp⟩ := defP_math.mp hP
    obtain ⟨R', h1, h2⟩ := mapRawM_df (f := fun i x => .ok (W.elemD i * x)) hr (mul_ok hW D (fun _ h => h))
    simp only [h1, ok_bind]
    refine (mkMathB_sim hD h2 ht.ef.angle hp.ef).congr fun i _ => ?_
    simp only [ok_bind, Pos.elemD, scalePos]
    cases r <;> rfl
  | cart1 | cart2 | cart3 => exact hc
  | _ => exact hv

theorem div_ok {W : BArr} (hW : DefA D S W) (X : BArr) (h : DefA D S X) :
    ∃ Z, bdiv X W = .ok Z ∧ EF D S Z fun i => Num.div (X.elemD i) (W.elemD i) := by
  obtain ⟨Z, h1, h2⟩ := h.ef.div hW.ef
  exact ⟨Z, h1, h2⟩

theorem mkTwoSphereB_base {Φ : AzArg BArr} (hD : ∀ i ∈ D, InB S i) (hX : DefA D S X) (hP : DefA D S Φ.arr) :
    BSim T D S (mkTwoSphereB X Φ) fun i => mkTwoSphere (X.elemD i) (Φ.elemD i) := by
  refine (BSim.check (checkRangeB_cf hD hX.ef (EF.nat 0) EF.pi)
    (BSim.ret (Q := .twoSphere X Φ.convertB) (by simpa [DefP, Pos.arrays] using ⟨hX, hP.az.1⟩))).congr fun i hi => ?_
  simp only [ok_bind, mkTwoSphere, hP.az.2 i hi]; rfl

theorem divPosB_sim (hD : ∀ i ∈ D, InB S i) {P : Pos BArr} {W : BArr}
    (hW : DefA D S W) (hP : DefP D S P) :
    BSim T D S (divPosB P W) fun i => divPos (P.elemD i) (W.elemD i) := by
  -- where the divisor is zero nothing is claimed
  refine BSim.restrict (fun i => W.elemD i ≠ 0) (fun i hi hn => ?_) ?_
  · have h0 : W.elemD i = 0 := not_not.mp hn
    have hd : ∀ v : ℝ, Num.div v (W.elemD i) = .error .nonFinite := fun v => by simp [Num.div, h0]
    cases P <;> simp only [Pos.elemD, divPos, Dist.divRaw, hd, error_bind]
  replace hD : ∀ i ∈ {i | i ∈ D ∧ W.elemD i ≠ 0}, InB S i := fun i hi => hD i hi.1
  replace hP : DefP {i | i ∈ D ∧ W.elemD i ≠ 0} S P := hP.mono fun i hi => hi.1
  replace hW : DefA {i | i ∈ D ∧ W.elemD i ≠ 0} S W := hW.mono fun i hi => hi.1
  have hne : ∀ i ∈ {i | i ∈ D ∧ W.elemD i ≠ 0}, W.elemD i ≠ 0 := fun i hi => hi.2
  generalize {i | i ∈ D ∧ W.elemD i ≠ 0} = E at hD hP hW hne
  have hd : ∀ X : BArr, DefA E S X → ∃ Z, bdiv X W = .ok Z ∧ DefA E S Z ∧
      ∀ i ∈ E, Num.div (X.elemD i) (W.elemD i) = .ok (Z.elemD i) := fun X h => by
    obtain ⟨Z, h1, h2⟩ := div_ok hW X h
    have hv : ∀ i ∈ E, Num.div (X.elemD i) (W.elemD i) = .ok (X.elemD i / W.elemD i) := fun i hi => by
      simp [Num.div, hne i hi]
    refine ⟨Z, h1, DefA.of_elem h2.fits fun i hi => ⟨_, h2.val i hi _ (hv i hi)⟩, fun i hi => ?_⟩
    rw [hv i hi, h2.eqD hi (hv i hi)]
  have hr : ∀ R : Dist BArr, DefA E S R.raw → ∃ R', (R.mapRawM fun x => bdiv x W) = .ok R' ∧ DefA E S R'.raw ∧
      ∀ i ∈ E, (R.elemD i).divRaw (W.elemD i) = .ok (R'.elemD i) := fun R h => by
    obtain ⟨Z, h1, h2, h3⟩ := hd R.raw h
    cases R with
    | dist a => exact ⟨.dist Z, by simp only [Dist.mapRawM]; erw [h1]; rfl, h2, fun i hi => by
        simp only [Dist.divRaw, Dist.elemD, Dist.raw]; erw [h3 i hi]; rfl⟩
    | par a => exact ⟨.par Z, by simp only [Dist.mapRawM]; erw [h1]; rfl, h2, fun i hi => by
        simp only [Dist.divRaw, Dist.elemD, Dist.raw]; erw [h3 i hi]; rfl⟩
    | dm a => exact ⟨.dm Z, by simp only [Dist.mapRawM]; erw [h1]; rfl, h2, fun i hi => by
        simp only [Dist.divRaw, Dist.elemD, Dist.raw]; erw [h3 i hi]; rfl⟩
  cases P with
  | cart1 a =>
    obtain ⟨A, a1, a2, a3⟩ := hd a (hP a (by simp [Pos.arrays]))
    simp only [divPosB, a1, ok_bind]
    refine (BSim.ret (Q := .cart1 A) (by simpa [DefP, Pos.arrays] using a2)).congr fun i hi => ?_
    simp only [Pos.elemD, divPos, a3 i hi, ok_bind]; rfl
  | cart2 a b =>
    obtain ⟨A, a1, a2, a3⟩ := hd a (hP a (by simp [Pos.arrays]))
    obtain ⟨B, b1, b2, b3⟩ := hd b (hP b (by simp [Pos.arrays]))
    simp only [divPosB, a1, b1, ok_bind]
    refine (BSim.ret (Q := .cart2 A B) (by simpa [DefP, Pos.arrays] using ⟨a2, b2⟩)).congr fun i hi => ?_
    simp only [Pos.elemD, divPos, a3 i hi, b3 i hi, ok_bind]; rfl
  | cart3 a b c =>
    obtain ⟨A, a1, a2, a3⟩ := hd a (hP a (by simp [Pos.arrays]))
    obtain ⟨B, b1, b2, b3⟩ := hd b (hP b (by simp [Pos.arrays]))
    obtain ⟨C, c1, c2, c3⟩ := hd c (hP c (by simp [Pos.arrays]))
    simp only [divPosB, a1, b1, c1, ok_bind]
    refine (BSim.ret (Q := .cart3 A B C) (by simpa [DefP, Pos.arrays] using ⟨a2, b2, c2⟩)).congr fun i hi => ?_
    simp only [Pos.elemD, divPos, a3 i hi, b3 i hi, c3 i hi, ok_bind]; rfl
  | radial r =>
    obtain ⟨A, a1, a2, a3⟩ := hr r (hP r.raw (by simp [Pos.arrays]))
    simp only [divPosB, a1, ok_bind]
    refine (mkRadialB_base hD a2).congr fun i hi => ?_
    simp only [Pos.elemD, divPos, a3 i hi, ok_bind]
  | polar r b =>
    obtain ⟨A, a1, a2, a3⟩ := hr r (hP r.raw (by simp [Pos.arrays]))
    obtain ⟨B, b1, b2, b3⟩ := hd b (hP b (by simp [Pos.arrays]))
    simp only [divPosB, a1, b1, ok_bind]
    refine (mkPolarB_base (Φ := .angle B) hD a2 b2).congr fun i hi => ?_
    simp only [Pos.elemD, divPos, a3 i hi, b3 i hi, ok_bind]; rfl
  | twoSphere a b =>
    obtain ⟨A, a1, a2, a3⟩ := hd a (hP a (by simp [Pos.arrays]))
    obtain ⟨B, b1, b2, b3⟩ := hd b (hP b (by simp [Pos.arrays]))
    simp only [divPosB, a1, b1, ok_bind]
    refine (mkTwoSphereB_base (Φ := .angle B) hD a2 b2).congr fun i hi => ?_
    simp only [Pos.elemD, divPos, a3 i hi, b3 i hi, ok_bind]; rfl
  | cyl a b c =>
    obtain ⟨A, a1, a2, a3⟩ := hd a (hP a (by simp [Pos.arrays]))
    obtain ⟨B, b1, b2, b3⟩ := hd b (hP b (by simp [Pos.arrays]))
    obtain ⟨C, c1, c2, c3⟩ := hd c (hP c (by simp [Pos.arrays]))
    simp only [divPosB, a1, b1, c1, ok_bind]
    refine (mkCylB_base (Φ := .angle B) hD a2 b2 c2).congr fun i hi => ?_
    simp only [Pos.elemD, divPos, a3 i hi, b3 i hi, c3 i hi, ok_bind]; rfl
  | sph r b c =>
    obtain ⟨A, a1, a2, a3⟩ := hr r (hP r.raw (by simp [Pos.arrays]))
    obtain ⟨B, b1, b2, b3⟩ := hd b (hP b (by simp [Pos.arrays]))
    obtain ⟨C, c1, c2, c3⟩ := hd c (hP c (by simp [Pos.arrays]))
    simp only [divPosB, a1, b1, c1, ok_bind]
    refine (mkSphB_base (Φ := .angle C) hD a2 b2 c2).congr fun i hi => ?_
    simp only [Pos.elemD, divPos, a3 i hi, b3 i hi, c3 i hi, ok_bind]; rfl
  | lonlat b c r =>
    obtain ⟨A, a1, a2, a3⟩ := hr r (hP r.raw (by simp [Pos.arrays]))
    obtain ⟨B, b1, b2, b3⟩ := hd b (hP b (by simp [Pos.arrays]))
    obtain ⟨C, c1, c2, c3⟩ := hd c (hP c (by simp [Pos.arrays]))
    simp only [divPosB, a1, b1, c1, ok_bind]
    refine (mkLonLatB_base (Φ := .angle B) hD a2 c2 b2).congr fun i hi => ?_
    simp only [Pos.elemD, divPos, a3 i hi, b3 i hi, c3 i hi, ok_bind]; rfl
  | math r b c =>
    obtain ⟨A, a1, a2, a3⟩ := hr r (hP r.raw (by simp [Pos.arrays]))
    obtain ⟨B, b1, b2, b3⟩ := hd b (hP b (by simp [Pos.arrays]))
    obtain ⟨C, c1, c2, c3⟩ := hd c (hP c (by simp [Pos.arrays]))
    simp only [divPosB, a1, b1, c1, ok_bind]
    refine (mkMathB_base (Φ := .angle B) hD a2 c2 b2).congr fun i hi => ?_
    simp only [Pos.elemD, divPos, a3 i hi, b3 i hi, c3 i hi, ok_bind]; rfl
  | prolate a b c d =>
    obtain ⟨A, a1, a2, a3⟩ := hd a (hP a (by simp [Pos.arrays]))
    obtain ⟨B, b1, b2, b3⟩ := hd b (hP b (by simp [Pos.arrays]))
    obtain ⟨C, c1, c2, c3⟩ := hd c (hP c (by simp [Pos.arrays]))
    simp only [divPosB, a1, b1, c1, ok_bind]
    refine (mkProlateB_base (Φ := .angle C) hD a2 b2 c2 (hP d (by simp [Pos.arrays]))).congr fun i hi => ?_
    simp only [Pos.elemD, divPos, a3 i hi, b3 i hi, c3 i hi, ok_bind]; rfl

/-- all fields of the left operand have shape `s`, all of the right one shape `t`, and `jax.lax` accepts these -/
structure BinShapes (A B : Pos BArr) (s t : List ℕ) : Prop where
  left : AllSh s A
  leftF : FocalSh s A
  right : AllSh t B
  rightF : FocalSh t B
  dim : A.kind.dim = B.kind.dim
  lax : ∃ u, laxShape s t = .ok u

theorem leavesRank0_cartesian {j k : Kind} (h : k.dim = j.dim) : j.leavesRank0 k.cartesian = false := by
  cases j <;> cases k <;> first | (cases h; done) | rfl

theorem cart_arrays {P : Pos BArr} (h : P.kind.isCart = true) : P.arrays = P.coords := by
  cases P <;> first | (cases h; done) | rfl

theorem toCart_shape {s : List ℕ} {B Q : Pos BArr} {k : Kind} (hs : AllSh s B) (hf : FocalSh s B)
    (hd : k.dim = B.kind.dim) (h : representAsB {} B k.cartesian = .ok Q) : ∀ a ∈ Q.arrays, a.shape = s := by
  have hk : Q.kind.isCart = true := by
    rw [representB_kind _ _ _ _ _ h]; exact isCart_cartesian k
  rw [cart_arrays hk]
  exact representB_shape pyDepth {} B k.cartesian (fun a ha => by simp [Kw.arrays] at ha) hs hf
    (leavesRank0_cartesian hd) (by cases k <;> decide) Q h

theorem representB_self {P : Pos BArr} (h : P.kind.isCart = true) : representAsB {} P P.kind = .ok P := by
  have key : ∀ n, representB (n + 1) {} P P.kind = .ok P := fun n => by
    cases P <;> first | (cases h; done) | (rw [Pos.kind, representB])
  exact key 199

/-- the Cartesian forms of the operands have components whose shapes `jax.lax` combines -/
def CartLax (A B : Pos BArr) : Prop :=
  ∀ A' B', representAsB {} A A.kind.cartesian = .ok A' → representAsB {} B A.kind.cartesian = .ok B' → PairLax A' B'

theorem BinShapes.cartLax {A B : Pos BArr} {s t : List ℕ} (h : BinShapes A B s t) : CartLax A B := by
  intro A' B' eA eB
  obtain ⟨u, hu⟩ := h.lax
  have hA := toCart_shape h.left h.leftF rfl eA
  have hB := toCart_shape h.right h.rightF h.dim eB
  have kA : A'.kind = A.kind.cartesian := representB_kind _ _ _ _ _ eA
  have kB : B'.kind = A.kind.cartesian := representB_kind _ _ _ _ _ eB
  have kk : A'.kind = B'.kind := kA.trans kB.symm
  have hl : A'.arrays.length = B'.arrays.length := by
    cases A' <;> cases B' <;> first | (cases kk; done) | rfl
  refine forall₂_iff_get.mpr ⟨hl, fun i h1 h2 => ⟨u, ?_⟩⟩
  rw [hA _ (get_mem _ _), hB _ (get_mem _ _)]; exact hu

theorem binCartB_sim {g : BArr → BArr → Res BArr} {f : ℝ → ℝ → ℝ} (hg : IsLax g f)
    (hD : ∀ i ∈ D, InB S i) {A B : Pos BArr} (hA : DefP D S A) (hB : DefP D S B) (hk : A.kind.isCart = true) :
    BSim (CartLax A B) D S (binCartB g A B) fun i => binCart f (A.elemD i) (B.elemD i) := by
  have h1 := rep_sim_cart (T := CartLax A B) hD hB hk
  have h2 := h1.comp (T' := CartLax A B) (G := fun b => mapCart2B g A b)
    (g := fun i b => mapCart2 f (A.elemD i) b) fun Q D' hs hQ hq =>
      (mapCart2B_sim hg (hA.mono hs) hQ).weaken fun hT => by
        have hc : A.kind.cartesian = A.kind := by cases A <;> first | (cases hk; done) | rfl
        exact hT A Q (by rw [hc]; exact representB_self hk) (by rw [hc]; exact hq)
  refine (h2.weaken fun h => ⟨h, h⟩).congr fun i hi => ?_
  unfold binCart
  rw [elemD_kind]

theorem binPosB_sim {g : BArr → BArr → Res BArr} {f : ℝ → ℝ → ℝ} (hg : IsLax g f)
    (hD : ∀ i ∈ D, InB S i) {A B : Pos BArr} (hA : DefP D S A) (hB : DefP D S B) :
    BSim (CartLax A B) D S (binPosB g A B) fun i => binPos f (A.elemD i) (B.elemD i) := by
  by_cases hk : A.kind.isCart = true
  · have := binCartB_sim hg hD hA hB hk
    cases A <;> first | (cases hk; done) | exact this
  · set T := CartLax A B
    have hc := isCart_cartesian A.kind
    have s1 := rep_sim_cart (T := T) hD hA hc
    have step3 : ∀ D' ⊆ D, ∀ A' B' : Pos BArr, DefP D' S A' → DefP D' S B' →
        representAsB {} A A.kind.cartesian = .ok A' → representAsB {} B A.kind.cartesian = .ok B' →
        BSim T D' S (binCartB g A' B' >>= fun m => representAsB {} m A.kind) fun i =>
          binCart f (A'.elemD i) (B'.elemD i) >>= fun m => representAs {} m A.kind := by
      intro D' hs A' B' dA dB eA eB
      have kA : A'.kind = A.kind.cartesian := representB_kind _ _ _ _ _ eA
      have kB : B'.kind = A.kind.cartesian := representB_kind _ _ _ _ _ eB
      have h3 := binCartB_sim hg (fun i hi => hD i (hs hi)) dA dB (by rw [kA]; exact hc)
      refine ((h3.comp (T' := True) (G := fun m => representAsB {} m A.kind)
        (g := fun _ m => representAs {} m A.kind) fun M D'' hs' hM hm => ?_).weaken ?_)
      · unfold binCartB at hm
        obtain ⟨b, _, hm⟩ := (bind_ok_iff _ _ _).mp hm
        obtain ⟨k1, k2, _⟩ := mapCart2B_kind hm
        exact rep_sim_from (fun i hi => hD i (hs (hs' hi))) hM (by rw [k1]; exact k2)
      · intro hT
        have cA : A'.kind.isCart = true := by rw [kA]; exact hc
        have cB : B'.kind.isCart = true := by rw [kB]; exact hc
        have hcc : A'.kind.cartesian = A'.kind := by
          generalize A'.kind = j at cA
          cases j <;> first | (cases cA; done) | rfl
        refine ⟨fun A'' B'' e1 e2 => ?_, trivial⟩
        rw [hcc, representB_self cA] at e1
        rw [hcc, kA, ← kB, representB_self cB] at e2
        obtain rfl := Except.ok.inj e1
        obtain rfl := Except.ok.inj e2
        exact hT A' B' eA eB
    have s2 : BSim T D S (representAsB {} A A.kind.cartesian >>= fun a =>
        representAsB {} B A.kind.cartesian >>= fun b => binCartB g a b >>= fun m => representAsB {} m A.kind) fun i =>
        representAs {} (A.elemD i) A.kind.cartesian >>= fun a =>
        representAs {} (B.elemD i) A.kind.cartesian >>= fun b => binCart f a b >>= fun m => representAs {} m A.kind := by
      refine (s1.comp (T' := T) (G := fun a => representAsB {} B A.kind.cartesian >>= fun b =>
          binCartB g a b >>= fun m => representAsB {} m A.kind)
        (g := fun i a => representAs {} (B.elemD i) A.kind.cartesian >>= fun b => binCart f a b >>= fun m =>
          representAs {} m A.kind) fun A' D' hs hA' eA => ?_).weaken fun h => ⟨h, h⟩
      refine ((rep_sim_cart (T := T) (fun i hi => hD i (hs hi)) (hB.mono hs) hc).comp (T' := T)
        (G := fun b => binCartB g A' b >>= fun m => representAsB {} m A.kind)
        (g := fun i b => binCart f (A'.elemD i) b >>= fun m => representAs {} m A.kind) fun B' D'' hs' hB' eB => ?_).weaken
          fun h => ⟨h, h⟩
      exact step3 D'' (fun i hi => hs (hs' hi)) A' B' (hA'.mono hs') hB' eA eB
    cases A <;> first | exact absurd rfl hk | exact s2

end

end Verif
