import Verif.BatchRules

/-! # `from_`, broadcasting, prolate coordinates: element by element -/

namespace Verif

open List Spec

theorem bcRev_nil_right (s : List ℕ) : bcRev s [] = .ok s := by cases s <;> rfl
theorem bc2_nil_right (s : List ℕ) : bc2 s [] = .ok s := by
  simp only [bc2, reverse_nil, bcRev_nil_right, ok_bind, pure, Except.pure, reverse_reverse]
theorem bc2_nil_left (s : List ℕ) : bc2 [] s = .ok s := by
  simp [bc2, bcRev, ok_bind, pure, Except.pure]

theorem map2_shape {α β γ : Type} {f : α → β → γ} {a : Arr α} {b : Arr β} {c : Arr γ}
    (h : Arr.map2 f a b = .ok c) : bc2 a.shape b.shape = .ok c.shape := by
  unfold Arr.map2 at h
  obtain ⟨s, hs, h⟩ := (bind_ok_iff _ _ _).mp h
  obtain rfl := Except.ok.inj h
  exact hs

theorem shape_left {α β γ : Type} {f : α → β → γ} {a : Arr α} {x : β} {c : Arr γ}
    (h : Arr.map2 f a (.scalar x) = .ok c) : c.shape = a.shape := by
  have := map2_shape h
  simp only [Arr.scalar, bc2_nil_right] at this
  exact (Except.ok.inj this).symm

theorem shape_right {α β γ : Type} {f : α → β → γ} {a : Arr β} {x : α} {c : Arr γ}
    (h : Arr.map2 f (.scalar x) a = .ok c) : c.shape = a.shape := by
  have := map2_shape h
  simp only [Arr.scalar, bc2_nil_left] at this
  exact (Except.ok.inj this).symm

theorem shape_leftN {α β γ : Type} {f : α → β → γ} {a : Arr α} {b : Arr β} {c : Arr γ} (hb : b.shape = [])
    (h : Arr.map2 f a b = .ok c) : c.shape = a.shape := by
  have := map2_shape h
  rw [hb, bc2_nil_right] at this
  exact (Except.ok.inj this).symm

theorem shape_rightN {α β γ : Type} {f : α → β → γ} {a : Arr α} {b : Arr β} {c : Arr γ} (ha : a.shape = [])
    (h : Arr.map2 f a b = .ok c) : c.shape = b.shape := by
  have := map2_shape h
  rw [ha, bc2_nil_left] at this
  exact (Except.ok.inj this).symm

/-- shapes for which `from_` of a spherical class returns: no `select` has to broadcast its operands -/
def SelOk (r phi theta : List ℕ) : Prop := (r = [] ∨ r = phi) ∧ (r = [] ∨ r = theta) ∧ (theta = [] ∨ theta = phi)

section
variable {T : Prop} {D : Set (List ℕ)} {S : List ℕ} {X Y Z W : BArr} {x y z w : List ℕ → Res ℝ}
  {R : Dist BArr} {r : List ℕ → Res (Dist ℝ)} {Φ : AzArg BArr} {φ : List ℕ → Res (AzArg ℝ)}
  {A : Res (Pos BArr)} {s t : List ℕ → Res (Pos ℝ)} {f g : List ℕ → ℝ} {c : List ℕ → Bool} {C : Arr Bool}

/-- one `select` followed by the rest of the function -/
theorem BSim.sel {G : BArr → Res (Pos BArr)} (hC : BF D S C fun i => .ok (c i))
    (hX : EF D S X fun i => .ok (f i)) (hY : EF D S Y fun i => .ok (g i))
    (hT : T → X.shape = Y.shape ∧ (C.shape = [] ∨ C.shape = Y.shape))
    (k : ∀ Z, X.shape = Y.shape → Z.shape = Y.shape → (C.shape = [] ∨ C.shape = Y.shape) →
      EF D S Z (fun i => .ok (if c i then f i else g i)) → BSim T D S (G Z) s) :
    BSim T D S (bselect C X Y >>= G) s := by
  rcases h : bselect C X Y with e | Z
  · refine ⟨fun Q hQ => (by cases hQ), fun ht _ _ => ?_⟩
    obtain ⟨h1, h2⟩ := hT ht
    obtain ⟨Z, hZ⟩ := bselect_total (C := C) h1 (by rw [h1]; exact h2)
    rw [h] at hZ; cases hZ
  · obtain ⟨h1, h2, h3, h4⟩ := EF.select hC hX hY (fun _ _ _ hh => by cases hh) Z h
    rw [ok_bind]
    refine k Z h1 (h3.trans h1) (by rw [← h1]; exact h2) (h4.congr fun i _ => ?_)
    simp only [ok_bind]
    split <;> rfl

theorem EF.ltB (h : EF D S X fun i => .ok (f i)) (k : EF D S Y fun i => .ok (g i)) :
    ∃ C, blt X Y = .ok C ∧ BF D S C fun i => .ok (Num.lt (f i) (g i)) := h.cmp k Num.lt

theorem EF.addOk (h : EF D S X fun i => .ok (f i)) (k : EF D S Y fun i => .ok (g i)) :
    ∃ Z, badd X Y = .ok Z ∧ EF D S Z fun i => .ok (f i + g i) := h.add k
theorem EF.subOk (h : EF D S X fun i => .ok (f i)) (k : EF D S Y fun i => .ok (g i)) :
    ∃ Z, bsub X Y = .ok Z ∧ EF D S Z fun i => .ok (f i - g i) := h.sub k
theorem EF.mulOk (h : EF D S X fun i => .ok (f i)) (k : EF D S Y fun i => .ok (g i)) :
    ∃ Z, bmul X Y = .ok Z ∧ EF D S Z fun i => .ok (f i * g i) := h.mul k
theorem EF.negOk (h : EF D S X fun i => .ok (f i)) : EF D S (bneg X) fun i => .ok (-f i) := h.neg
theorem EF.wrapOk (h : EF D S X fun i => .ok (f i)) : EF D S (bwrap X) fun i => .ok (Num.wrap (f i)) := h.wrap

theorem map_ite (h : ℝ → Dist ℝ) (b : Bool) (x y : ℝ) :
    Option.map h (some (if b then x else y)) = some (if b then h x else h y) := by cases b <;> rfl

/-- the distance after `select(r < 0, -r, r)` -/
theorem BSim.selDist {G : Dist BArr → Res (Pos BArr)} (hR : DefA D S R.raw)
    (hC : BF D S C fun i => .ok (Num.lt (R.raw.elemD i) (Num.nat 0))) (hs : C.shape = R.raw.shape)
    (k : ∀ R', DF D S R' (fun i => .ok (if Num.lt (R.elemD i).raw (Num.nat 0)
        then (R.elemD i).mapRaw (fun v => -v) else R.elemD i)) → R'.raw.shape = R.raw.shape →
      BSim T D S (G R') s) :
    BSim T D S (R.mapRawM (fun a => bselect C (bneg a) a) >>= G) s := by
  cases R with
  | dist a =>
    simp only [Dist.mapRawM, bind_assoc, pure_bind]
    refine BSim.sel hC hR.ef.negOk hR.ef (fun _ => ⟨rfl, .inr hs⟩) fun Z _ hsh _ hZ => ?_
    refine k (.dist Z) ⟨hZ.fits, fun i hi v hv => ?_, fun _ _ _ hh => (by cases hh)⟩ hsh
    have := hZ.val i hi _ rfl
    rw [← Except.ok.inj hv]
    exact (congrArg (Option.map _) this).trans (map_ite _ _ _ _)
  | par a =>
    simp only [Dist.mapRawM, bind_assoc, pure_bind]
    refine BSim.sel hC hR.ef.negOk hR.ef (fun _ => ⟨rfl, .inr hs⟩) fun Z _ hsh _ hZ => ?_
    refine k (.par Z) ⟨hZ.fits, fun i hi v hv => ?_, fun _ _ _ hh => (by cases hh)⟩ hsh
    have := hZ.val i hi _ rfl
    rw [← Except.ok.inj hv]
    exact (congrArg (Option.map _) this).trans (map_ite _ _ _ _)
  | dm a =>
    simp only [Dist.mapRawM, bind_assoc, pure_bind]
    refine BSim.sel hC hR.ef.negOk hR.ef (fun _ => ⟨rfl, .inr hs⟩) fun Z _ hsh _ hZ => ?_
    refine k (.dm Z) ⟨hZ.fits, fun i hi v hv => ?_, fun _ _ _ hh => (by cases hh)⟩ hsh
    have := hZ.val i hi _ rfl
    rw [← Except.ok.inj hv]
    exact (congrArg (Option.map _) this).trans (map_ite _ _ _ _)

theorem az_shape (Φ : AzArg BArr) : Φ.convertB.shape = Φ.arr.shape := by cases Φ <;> rfl

variable (hD : ∀ i ∈ D, InB S i)

include hD in
theorem sphFromB_sim (hR : DefA D S R.raw) (hX : DefA D S X) (hP : DefA D S Φ.arr) :
    BSim (SelOk R.raw.shape Φ.arr.shape X.shape) D S (sphFromB R X Φ) fun i =>
      sphFrom (R.elemD i) (X.elemD i) (Φ.elemD i) := by
  obtain ⟨hP', hPe⟩ := hP.az
  have hsP := az_shape Φ
  unfold sphFromB
  obtain ⟨C, hC, cC⟩ := hR.ef.ltB (EF.nat 0)
  have sC : C.shape = R.raw.shape := shape_left hC
  simp only [hC, ok_bind]
  refine BSim.selDist hR cC sC fun R' hR' _ => ?_
  obtain ⟨a, ha, ea⟩ := hP'.ef.addOk EF.pi
  have sa : a.shape = Φ.convertB.shape := shape_left ha
  simp only [ha, ok_bind]
  refine BSim.sel cC ea hP'.ef (fun hT => ⟨sa, by rw [sC, hsP]; exact hT.1⟩) fun P1 _ s1 _ e1 => ?_
  obtain ⟨b, hb, eb⟩ := EF.pi.subOk hX.ef
  have sb : b.shape = X.shape := shape_right hb
  simp only [hb, ok_bind]
  refine BSim.sel cC eb hX.ef (fun hT => ⟨sb, by rw [sC]; exact hT.2.1⟩) fun T1 _ s2 _ e2 => ?_
  obtain ⟨C', hC', cC'⟩ := e2.wrapOk.ltB EF.pi
  have sC' : C'.shape = T1.shape := (shape_left hC' : C'.shape = (bwrap T1).shape)
  obtain ⟨t, ht, et⟩ := (EF.nat 2).mulOk (EF.pi (D := D) (S := S))
  obtain ⟨u, hu, eu⟩ := et.subOk e2.wrapOk
  have st : t.shape = [] := shape_left ht
  have su : u.shape = T1.shape := by
    have := map2_shape hu
    rw [st, bc2_nil_left] at this
    exact (Except.ok.inj this).symm
  simp only [hC', ht, hu, ok_bind]
  refine BSim.sel cC' e2.wrapOk eu (fun hT => ⟨su.symm, .inr (sC'.trans su.symm)⟩) fun T2 _ _ _ e3 => ?_
  obtain ⟨v, hv, ev⟩ := e1.addOk EF.pi
  have sv : v.shape = P1.shape := shape_left hv
  simp only [hv, ok_bind]
  refine BSim.sel cC' e1 ev (fun hT => ⟨sv.symm, by rw [sC', s2, sv, s1, hsP]; exact hT.2.2⟩)
    fun P2 _ _ _ e4 => ?_
  refine (mkSphB_sim hD hR' e3 e4.qty).congr fun i hi => ?_
  simp only [ok_bind, sphFrom, hPe i hi, Dist.raw_elemD, twoPi]; rfl

include hD in
theorem mathFromB_sim (hR : DefA D S R.raw) (hX : DefA D S X) (hP : DefA D S Φ.arr) :
    BSim (SelOk R.raw.shape Φ.arr.shape X.shape) D S (mathFromB R Φ X) fun i =>
      mathFrom (R.elemD i) (Φ.elemD i) (X.elemD i) := by
  obtain ⟨hP', hPe⟩ := hP.az
  have hsP := az_shape Φ
  unfold mathFromB
  obtain ⟨C, hC, cC⟩ := hR.ef.ltB (EF.nat 0)
  have sC : C.shape = R.raw.shape := shape_left hC
  simp only [hC, ok_bind]
  refine BSim.selDist hR cC sC fun R' hR' _ => ?_
  obtain ⟨a, ha, ea⟩ := hP'.ef.addOk EF.pi
  have sa : a.shape = Φ.convertB.shape := shape_left ha
  simp only [ha, ok_bind]
  refine BSim.sel cC ea hP'.ef (fun hT => ⟨sa, by rw [sC, hsP]; exact hT.1⟩) fun P1 _ s1 _ e1 => ?_
  obtain ⟨b, hb, eb⟩ := EF.pi.subOk hX.ef
  have sb : b.shape = X.shape := shape_right hb
  simp only [hb, ok_bind]
  refine BSim.sel cC eb hX.ef (fun hT => ⟨sb, by rw [sC]; exact hT.2.1⟩) fun T1 _ s2 _ e2 => ?_
  obtain ⟨C', hC', cC'⟩ := e2.wrapOk.ltB EF.pi
  have sC' : C'.shape = T1.shape := (shape_left hC' : C'.shape = (bwrap T1).shape)
  obtain ⟨t, ht, et⟩ := (EF.nat 2).mulOk (EF.pi (D := D) (S := S))
  obtain ⟨u, hu, eu⟩ := et.subOk e2.wrapOk
  have st : t.shape = [] := shape_left ht
  have su : u.shape = T1.shape := by
    have := map2_shape hu
    rw [st, bc2_nil_left] at this
    exact (Except.ok.inj this).symm
  simp only [hC', ht, hu, ok_bind]
  refine BSim.sel cC' e2.wrapOk eu (fun hT => ⟨su.symm, .inr (sC'.trans su.symm)⟩) fun T2 _ _ _ e3 => ?_
  obtain ⟨v, hv, ev⟩ := e1.addOk EF.pi
  have sv : v.shape = P1.shape := shape_left hv
  simp only [hv, ok_bind]
  refine BSim.sel cC' e1 ev (fun hT => ⟨sv.symm, by rw [sC', s2, sv, s1, hsP]; exact hT.2.2⟩)
    fun P2 _ _ _ e4 => ?_
  refine (mkMathB_sim hD hR' e4.qty e3).congr fun i hi => ?_
  simp only [ok_bind, mathFrom, hPe i hi, Dist.raw_elemD, twoPi]; rfl

theorem EF.halfPiOk : EF D S bhalfPi fun _ => .ok (Real.pi / 2) :=
  EF.halfPi.congr fun _ _ => by simp

include hD in
theorem lonlatFromB_sim (hR : DefA D S R.raw) (hX : DefA D S X) (hP : DefA D S Φ.arr) :
    BSim (SelOk R.raw.shape Φ.arr.shape X.shape) D S (lonlatFromB Φ X R) fun i =>
      lonlatFrom (Φ.elemD i) (X.elemD i) (R.elemD i) := by
  obtain ⟨hP', hPe⟩ := hP.az
  have hsP := az_shape Φ
  unfold lonlatFromB
  obtain ⟨C, hC, cC⟩ := hR.ef.ltB (EF.nat 0)
  have sC : C.shape = R.raw.shape := shape_left hC
  simp only [hC, ok_bind]
  refine BSim.selDist hR cC sC fun R' hR' _ => ?_
  obtain ⟨a, ha, ea⟩ := hP'.ef.addOk EF.pi
  have sa : a.shape = Φ.convertB.shape := shape_left ha
  simp only [ha, ok_bind]
  refine BSim.sel cC ea hP'.ef (fun hT => ⟨sa, by rw [sC, hsP]; exact hT.1⟩) fun P1 _ s1 _ e1 => ?_
  refine BSim.sel cC hX.ef.negOk hX.ef (fun hT => ⟨rfl, by rw [sC]; exact hT.2.1⟩) fun T1 _ s2 _ e2 => ?_
  obtain ⟨C1, hC1, cC1⟩ := e2.ltB EF.halfPiOk.negOk
  have sC1 : C1.shape = T1.shape := shape_leftN rfl hC1
  obtain ⟨u, hu, eu⟩ := (EF.pi (D := D) (S := S)).negOk.subOk e2
  have su : u.shape = T1.shape := shape_rightN rfl hu
  simp only [hC1, hu, ok_bind]
  refine BSim.sel cC1 eu e2 (fun hT => ⟨su, .inr sC1⟩) fun T2 _ s3 _ e3 => ?_
  obtain ⟨v, hv, ev⟩ := e1.addOk EF.pi
  have sv : v.shape = P1.shape := shape_left hv
  simp only [hv, ok_bind]
  refine BSim.sel cC1 ev e1 (fun hT => ⟨sv, by rw [sC1, s2, s1, hsP]; exact hT.2.2⟩) fun P2 _ s4 _ e4 => ?_
  obtain ⟨C2, hC2, cC2⟩ := EF.halfPiOk.ltB e3
  have sC2 : C2.shape = T2.shape := shape_rightN rfl hC2
  obtain ⟨u2, hu2, eu2⟩ := (EF.pi (D := D) (S := S)).subOk e3
  have su2 : u2.shape = T2.shape := shape_rightN rfl hu2
  simp only [hC2, hu2, ok_bind]
  refine BSim.sel cC2 eu2 e3 (fun hT => ⟨su2, .inr sC2⟩) fun T3 _ s5 _ e5 => ?_
  obtain ⟨v2, hv2, ev2⟩ := e4.addOk EF.pi
  have sv2 : v2.shape = P2.shape := shape_left hv2
  simp only [hv2, ok_bind]
  refine BSim.sel cC2 ev2 e4 (fun hT => ⟨sv2, by rw [sC2, s3, s2, s4, s1, hsP]; exact hT.2.2⟩)
    fun P3 _ _ _ e6 => ?_
  refine (mkLonLatB_sim hD e6.qty e5 hR').congr fun i hi => ?_
  have hhp : (halfPi : Res ℝ) = .ok (Real.pi / 2) := by simp [halfPi, Num.div, Num.pi, Num.nat]
  simp only [ok_bind, lonlatFrom, hPe i hi, Dist.raw_elemD, hhp]; rfl

/-! ### broadcasting first -/

theorem Arr.broadcastTo_elem {α : Type} {a : Arr α} {u : List ℕ} (h : BroadcastsTo a.shape u) (i : List ℕ) :
    (a.broadcastTo u).elem i = a.elem i := by
  show a.get (bcIdxRev a.shape.reverse (bcIdxRev u.reverse i.reverse).reverse.reverse).reverse = _
  rw [reverse_reverse, bcIdxRev_comp h]; rfl

theorem DefA.broadcastTo {u : List ℕ} (h : DefA D S X) (hu : BroadcastsTo X.shape u) (hS : BroadcastsTo u S) :
    DefA D S (X.broadcastTo u) ∧ ∀ i, (X.broadcastTo u).elemD i = X.elemD i := by
  have he : ∀ i, (X.broadcastTo u).elemD i = X.elemD i := fun i => by
    unfold Arr.elemD; rw [Arr.broadcastTo_elem hu]
  exact ⟨⟨hS, fun i hi => by rw [he, Arr.broadcastTo_elem hu, h.val i hi]⟩, he⟩

theorem broadcast3_ok (hR : BroadcastsTo R.raw.shape S) (hX : BroadcastsTo X.shape S)
    (hY : BroadcastsTo Y.shape S) : ∃ u, BroadcastsTo R.raw.shape u ∧ BroadcastsTo X.shape u ∧
      BroadcastsTo Y.shape u ∧ BroadcastsTo u S ∧
      broadcast3 R X Y = .ok (R.mapRaw (fun x => x.broadcastTo u), X.broadcastTo u, Y.broadcastTo u) := by
  obtain ⟨u, hu⟩ := broadcastShapes_total (shapes := [R.raw.shape, X.shape, Y.shape]) (w := S) (by
    simp only [mem_cons, not_mem_nil, or_false, forall_eq_or_imp, forall_eq]; exact ⟨hR, hX, hY⟩)
  obtain ⟨h1, h2⟩ := broadcastShapes_isBroadcast hu
  refine ⟨u, h1 _ (by simp), h1 _ (by simp), h1 _ (by simp), h2 S (by
    simp only [mem_cons, not_mem_nil, or_false, forall_eq_or_imp, forall_eq]; exact ⟨hR, hX, hY⟩), ?_⟩
  simp only [broadcast3, hu, ok_bind]; rfl

theorem Dist.mapRaw_raw (R : Dist BArr) (h : BArr → BArr) : (R.mapRaw h).raw = h R.raw := by cases R <;> rfl

theorem Dist.elemD_mapRaw {h : BArr → BArr} {i : List ℕ} (e : (h R.raw).elemD i = R.raw.elemD i) :
    (R.mapRaw h).elemD i = R.elemD i := by
  cases R <;> simp only [Dist.mapRaw, Dist.elemD, Dist.raw] at * <;> rw [e]

include hD in
theorem oneToSphB_sim (hR : DefA D S R.raw) (hX : DefA D S X) (hY : DefA D S Y) :
    BSim T D S (oneToSphB R X Y) fun i => sphFrom (R.elemD i) (X.elemD i) (.qty (Y.elemD i)) := by
  obtain ⟨u, h1, h2, h3, h4, h5⟩ := broadcast3_ok hR.fits hX.fits hY.fits
  unfold oneToSphB
  simp only [h5, ok_bind]
  obtain ⟨hR1, hR2⟩ := hR.broadcastTo h1 h4
  obtain ⟨hX1, hX2⟩ := hX.broadcastTo h2 h4
  obtain ⟨hY1, hY2⟩ := hY.broadcastTo h3 h4
  refine ((sphFromB_sim hD (R := R.mapRaw fun x => x.broadcastTo u) (Φ := .qty (Y.broadcastTo u))
    (by rw [Dist.mapRaw_raw]; exact hR1) hX1 hY1).congr fun i _ => ?_).weaken fun _ => ?_
  · rw [Dist.elemD_mapRaw (hR2 i), hX2, AzArg.elemD, hY2]
  · rw [Dist.mapRaw_raw]
    exact ⟨.inr rfl, .inr rfl, .inr rfl⟩

include hD in
theorem oneToMathB_sim (hR : DefA D S R.raw) (hX : DefA D S X) (hY : DefA D S Y) :
    BSim T D S (oneToMathB R X Y) fun i => mathFrom (R.elemD i) (.qty (X.elemD i)) (Y.elemD i) := by
  obtain ⟨u, h1, h2, h3, h4, h5⟩ := broadcast3_ok hR.fits hX.fits hY.fits
  unfold oneToMathB
  simp only [h5, ok_bind]
  obtain ⟨hR1, hR2⟩ := hR.broadcastTo h1 h4
  obtain ⟨hX1, hX2⟩ := hX.broadcastTo h2 h4
  obtain ⟨hY1, hY2⟩ := hY.broadcastTo h3 h4
  refine ((mathFromB_sim hD (R := R.mapRaw fun x => x.broadcastTo u) (Φ := .qty (X.broadcastTo u))
    (by rw [Dist.mapRaw_raw]; exact hR1) hY1 hX1).congr fun i _ => ?_).weaken fun _ => ?_
  · rw [Dist.elemD_mapRaw (hR2 i), hY2, AzArg.elemD, hX2]
  · rw [Dist.mapRaw_raw]
    exact ⟨.inr rfl, .inr rfl, .inr rfl⟩

/-! ### prolate spheroidal coordinates -/

/-- `D` of the source, lines 670, 682-683 -/
theorem prolD_ef {sum diff rad : BArr} {xs zs sums diffs rads dv : List ℕ → ℝ}
    (hX : EF D S X fun i => .ok (xs i)) (hZ : EF D S Z fun i => .ok (zs i))
    (hsum : EF D S sum fun i => .ok (sums i)) (hdiff : EF D S diff fun i => .ok (diffs i))
    (hrad : EF D S rad fun i => .ok (rads i)) (hdv : ∀ i, Num.sqrt (rads i) = .ok (dv i)) :
    ∃ C1 D1 C2 D2, beqB Z (bnat 0) = .ok C1 ∧ bwhere C1 sum (bsqrt rad) = .ok D1 ∧
      beqB X (bnat 0) = .ok C2 ∧ bwhere C2 (babs diff) D1 = .ok D2 ∧
      EF D S D2 fun i => prolateD (xs i) (zs i) (sums i) (diffs i) (rads i) := by
  obtain ⟨C1, hC1, cC1⟩ := hZ.cmp (EF.nat 0) Num.beq
  obtain ⟨D1, hD1, eD1⟩ := EF.where cC1 hsum hrad.sqrt (hZ.cmpErr (EF.nat 0) _)
  obtain ⟨C2, hC2, cC2⟩ := hX.cmp (EF.nat 0) Num.beq
  obtain ⟨D2, hD2, eD2⟩ := EF.where cC2 hdiff.abs eD1 (hX.cmpErr (EF.nat 0) _)
  refine ⟨C1, D1, C2, D2, hC1, hD1, hC2, hD2, eD2.congr fun i _ => ?_⟩
  simp only [ok_bind, pure, Except.pure, prolateD, hdv i]
  generalize Num.beq (xs i) (Num.nat 0 : ℝ) = b1
  generalize Num.beq (zs i) (Num.nat 0 : ℝ) = b2
  cases b1 <;> cases b2 <;> rfl

include hD in
theorem prolRest_sim {r2 z2 d2 sum diff dA hf phi : BArr} {r2s z2s d2s sums diffs dds zs phis ws : List ℕ → ℝ} {hv : ℝ}
    (er2 : EF D S r2 fun i => .ok (r2s i)) (ez2 : EF D S z2 fun i => .ok (z2s i))
    (ed2 : EF D S d2 fun i => .ok (d2s i)) (esum : EF D S sum fun i => .ok (sums i))
    (ediff : EF D S diff fun i => .ok (diffs i)) (eD : EF D S dA fun i => .ok (dds i))
    (ehf : EF D S hf fun _ => .ok hv) (eZ : EF D S Z fun i => .ok (zs i))
    (eP : EF D S phi fun i => .ok (phis i)) (eW : EF D S W fun i => .ok (ws i)) :
    BSim T D S (do
      let posMuMinusDelta ← bmul hf (← badd dA diff)
      let posDeltaMinusNu ← bdiv (← bmul d2 r2) posMuMinusDelta
      let negDeltaMinusNu ← bmul hf (← bsub dA diff)
      let negMuMinusDelta ← bdiv (← bmul d2 r2) negDeltaMinusNu
      let muMinusDelta ← bwhere (← bge diff (bnat 0)) posMuMinusDelta negMuMinusDelta
      let deltaMinusNu ← bwhere (← bge diff (bnat 0)) posDeltaMinusNu negDeltaMinusNu
      let mu ← badd d2 muMinusDelta
      let absNu0 ← bmul (← bdiv (← bmul (bnat 2) d2) (← badd sum dA)) z2
      let absNu ← bwhere (← blt d2 (← bmul absNu0 (bnat 2))) (← bsub d2 deltaMinusNu) absNu0
      let nu ← bmul absNu (bsign Z)
      mkProlateB mu nu (.angle phi) W) fun i => (do
        let m ← prolMuMinusDelta hv (dds i) (diffs i) (d2s i) (r2s i)
        let q ← Num.div (Num.nat 2 * d2s i) (sums i + dds i)
        let a ← prolAbsNu (q * z2s i) hv (dds i) (diffs i) (d2s i) (r2s i)
        mkProlate (d2s i + m) (a * Num.sign (zs i)) (.angle (phis i)) (ws i)) := by
  obtain ⟨p1, hp1, ep1⟩ := eD.addOk ediff
  obtain ⟨p2, hp2, ep2⟩ := ehf.mulOk ep1
  obtain ⟨p3, hp3, ep3⟩ := ed2.mulOk er2
  obtain ⟨p4, hp4, ep4⟩ := ep3.div ep2
  obtain ⟨p5, hp5, ep5⟩ := eD.subOk ediff
  obtain ⟨p6, hp6, ep6⟩ := ehf.mulOk ep5
  obtain ⟨p7, hp7, ep7⟩ := ep3.div ep6
  obtain ⟨C3, hC3, cC3⟩ := ediff.cmp (EF.nat 0) (fun x y => !Num.lt x y)
  have hC3' : bge diff (bnat 0) = .ok C3 := hC3
  obtain ⟨mm, hmm, emm'⟩ := EF.where cC3 ep2 ep7 (ediff.cmpErr (EF.nat 0) _)
  obtain ⟨mn, hmn, emn'⟩ := EF.where cC3 ep4 ep6 (ediff.cmpErr (EF.nat 0) _)
  have emm : EF D S mm fun i => prolMuMinusDelta hv (dds i) (diffs i) (d2s i) (r2s i) :=
    emm'.congr fun i _ => by
      simp only [ok_bind, pure, Except.pure, prolMuMinusDelta]
      generalize Num.lt (diffs i) (Num.nat 0) = b
      cases b <;> rfl
  have emn : EF D S mn fun i => prolDeltaMinusNu hv (dds i) (diffs i) (d2s i) (r2s i) :=
    emn'.congr fun i _ => by
      simp only [ok_bind, pure, Except.pure, prolDeltaMinusNu]
      generalize Num.lt (diffs i) (Num.nat 0) = b
      cases b <;> rfl
  obtain ⟨mu, hmu, emu⟩ := ed2.add emm
  obtain ⟨q1, hq1, eq1⟩ := (EF.nat 2).mulOk ed2
  obtain ⟨q2, hq2, eq2⟩ := esum.addOk eD
  obtain ⟨q3, hq3, eq3⟩ := eq1.div eq2
  obtain ⟨q4, hq4, eq4⟩ := eq3.mul ez2
  obtain ⟨q5, hq5, eq5⟩ := eq4.mul (EF.nat 2)
  obtain ⟨C4, hC4, cC4⟩ := ed2.cmp eq5 Num.lt
  have hC4' : blt d2 q5 = .ok C4 := hC4
  obtain ⟨q6, hq6, eq6⟩ := ed2.sub emn
  obtain ⟨an, han, ean'⟩ := EF.where cC4 eq6 eq4 (ed2.cmpErr eq5 _)
  obtain ⟨nu, hnu, enu⟩ := ean'.mul eZ.sign
  simp only [hp1, hp2, hp3, hp4, hp5, hp6, hp7, hC3', hmm, hmn, hmu, hq1, hq2, hq3, hq4, hq5, hC4', hq6,
    han, hnu, ok_bind]
  refine (mkProlateB_sim hD emu enu eP.angle eW).congr fun i _ => ?_
  simp only [ok_bind, pure, Except.pure]
  generalize prolMuMinusDelta hv (dds i) (diffs i) (d2s i) (r2s i) = m
  rcases m with e | m
  · rfl
  · simp only [ok_bind]
    generalize (Num.div (Num.nat 2 * d2s i) (sums i + dds i) : Res ℝ) = q
    rcases q with e | q
    · rfl
    · simp only [ok_bind, prolAbsNu]
      generalize prolDeltaMinusNu hv (dds i) (diffs i) (d2s i) (r2s i) = dn
      generalize Num.lt (d2s i) (q * z2s i * Num.nat 2) = b
      cases b
      · rfl
      · simp only [if_true]
        rcases dn with e | v <;> rfl

theorem prolRad_ok (x z w : ℝ) : ∃ v, Num.sqrt ((x * x + z * z - w * w) * (x * x + z * z - w * w) +
    Num.nat 4 * (x * x) * (w * w)) = (.ok v : Res ℝ) := by
  simp only [Num.sqrt, Num.nat]
  rw [if_neg]
  · exact ⟨_, rfl⟩
  · have h1 := mul_self_nonneg (x * x + z * z - w * w)
    have h2 := mul_nonneg (mul_self_nonneg x) (mul_self_nonneg w)
    push_cast
    nlinarith

theorem BSim.bindOk {β : Type} {a0 : Res β} {a : β} {G : β → Res (Pos BArr)} (h : a0 = .ok a)
    (k : BSim T D S (G a) s) : BSim T D S (a0 >>= G) s := by rw [h]; exact k

theorem half_ok : ∃ v, (Num.div (Num.nat 1) (Num.nat 2) : Res ℝ) = .ok v := ⟨1 / 2, by simp [Num.div, Num.nat]⟩

theorem cylToProlate_steps {x phi z w dd hv : ℝ} (hd : prolateD x z (x * x + z * z + w * w) (x * x + z * z - w * w)
      ((x * x + z * z - w * w) * (x * x + z * z - w * w) + Num.nat 4 * (x * x) * (w * w)) = .ok dd)
    (hh : (Num.div (Num.nat 1) (Num.nat 2) : Res ℝ) = .ok hv) :
    cylToProlate x phi z w = (do
        let m ← prolMuMinusDelta hv dd (x * x + z * z - w * w) (w * w) (x * x)
        let q ← Num.div (Num.nat 2 * (w * w)) (x * x + z * z + w * w + dd)
        let a ← prolAbsNu (q * (z * z)) hv dd (x * x + z * z - w * w) (w * w) (x * x)
        mkProlate (w * w + m) (a * Num.sign z) (.angle phi) w) := by
  unfold cylToProlate
  simp only [hd, hh, ok_bind]

theorem prolateD_ok {x z s d rad v : ℝ} (h : Num.sqrt rad = .ok v) : ∃ u, prolateD x z s d rad = .ok u := by
  simp only [prolateD, h, ok_bind]
  exact ⟨_, rfl⟩

include hD in
theorem cylToProlateB_sim (hX : DefA D S X) (hY : DefA D S Y) (hZ : DefA D S Z) (hW : DefA D S W) :
    BSim T D S (cylToProlateB X Y Z W) fun i =>
      cylToProlate (X.elemD i) (Y.elemD i) (Z.elemD i) (W.elemD i) := by
  unfold cylToProlateB
  obtain ⟨r2, hr2, er2⟩ := hX.ef.mulOk hX.ef
  obtain ⟨z2, hz2, ez2⟩ := hZ.ef.mulOk hZ.ef
  obtain ⟨d2, hd2, ed2⟩ := hW.ef.mulOk hW.ef
  obtain ⟨a, ha, ea⟩ := er2.addOk ez2
  obtain ⟨sum, hsum, esum⟩ := ea.addOk ed2
  obtain ⟨diff, hdiff, ediff⟩ := ea.subOk ed2
  obtain ⟨b, hb, eb⟩ := ediff.mulOk ediff
  obtain ⟨c1, hc1, ec1⟩ := (EF.nat 4).mulOk er2
  obtain ⟨c2, hc2, ec2⟩ := ec1.mulOk ed2
  obtain ⟨rad, hrad, erad⟩ := eb.addOk ec2
  choose dv hdv using fun i => prolRad_ok (X.elemD i) (Z.elemD i) (W.elemD i)
  obtain ⟨C1, D1, C2, D2, h1, h2, h3, h4, eD'⟩ := prolD_ef hX.ef hZ.ef esum ediff erad hdv
  have hok : ∀ i, ∃ v, prolateD (X.elemD i) (Z.elemD i)
      (X.elemD i * X.elemD i + Z.elemD i * Z.elemD i + W.elemD i * W.elemD i)
      (X.elemD i * X.elemD i + Z.elemD i * Z.elemD i - W.elemD i * W.elemD i)
      ((X.elemD i * X.elemD i + Z.elemD i * Z.elemD i - W.elemD i * W.elemD i) *
      (X.elemD i * X.elemD i + Z.elemD i * Z.elemD i - W.elemD i * W.elemD i) +
      Num.nat 4 * (X.elemD i * X.elemD i) * (W.elemD i * W.elemD i)) = .ok v := fun i => prolateD_ok (hdv i)
  choose dd hdd using hok
  have eD : EF D S D2 fun i => .ok (dd i) := eD'.congr fun i _ => hdd i
  obtain ⟨hf, hhf, ehf'⟩ := (EF.nat (D := D) (S := S) 1).div (EF.nat 2)
  obtain ⟨hv, hhalf⟩ := half_ok
  have ehf : EF D S hf fun _ => .ok hv := ehf'.congr fun i _ => by simp only [ok_bind, hhalf]
  refine .bindOk hr2 (.bindOk hz2 (.bindOk hd2 (.bindOk ha (.bindOk hsum (.bindOk ha (.bindOk hdiff
    (.bindOk hb (.bindOk hc1 (.bindOk hc2 (.bindOk hrad (.bindOk h1 (.bindOk h2 (.bindOk h3 (.bindOk h4
    (.bindOk hhf ?_)))))))))))))))
  refine (prolRest_sim hD er2 ez2 ed2 esum ediff eD ehf hZ.ef hY.ef hW.ef).congr fun i _ =>
    (cylToProlate_steps (hdd i) hhalf).symm

end

end Verif
