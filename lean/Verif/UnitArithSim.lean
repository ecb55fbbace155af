import Verif.UnitArith
import Verif.UnitVelMain

/-! # Arithmetic with units: simulation by values in base units -/

namespace Verif

open Num CNum LawfulCNum

theorem repr_rel {p : Pos (UQ ℝ)} {p' : Pos ℝ} (h : p.Rel p') (k : Kind) (hk : p.kind = .prolate → k ≠ .prolate) :
    RelRes Pos.Rel (representAsU {} p k) (representAs {} p' k) := by
  obtain ⟨h, rfl⟩ := h
  refine representAs_rel kw_nil h k ?_
  intro e
  cases p <;> first | trivial | exact absurd e (hk rfl)

theorem cartesian_ne (k : Kind) : k.cartesian ≠ .prolate := by cases k <;> decide

theorem rel_kind {p : Pos (UQ ℝ)} {p' : Pos ℝ} (h : p.Rel p') : p'.kind = p.kind := by rw [← h.2, tr_kind]

/-- `repr_rel` and the class of the result -/
theorem repr_relk {p : Pos (UQ ℝ)} {p' : Pos ℝ} (h : p.Rel p') (k : Kind) (hk : p.kind = .prolate → k ≠ .prolate) :
    RelRes (fun q q' => q.Rel q' ∧ q.kind = k) (representAsU {} p k) (representAs {} p' k) :=
  ((repr_rel h k hk).with (P := fun q => q.kind = k) fun _ hb => representAs_kind hb).mono fun _ _ hq =>
    ⟨hq.1, (rel_kind hq.1).symm.trans hq.2⟩

theorem toCart_rel {p : Pos (UQ ℝ)} {p' : Pos ℝ} (h : p.Rel p') :
    RelRes (fun q q' => q.Rel q' ∧ q.kind = p.kind.cartesian) (toCartesianU p) (toCartesian p') := by
  unfold toCartesianU toCartesian
  rw [rel_kind h]
  exact repr_relk h _ fun _ => cartesian_ne _

/-! ### Norm and product -/

theorem strips_rel {un : RUnit} (hun : un.dim = dL) (l : List (UQ ℝ)) (hl : ∀ q ∈ l, q.unit.dim = dL) :
    ∃ vs, (l.mapM fun r => r.strip un) = .ok vs ∧ vs.map (fun v => un.scale * v) = l.map UQ.phys := by
  induction l with
  | nil => exact ⟨[], rfl, rfl⟩
  | cons q l ih =>
    obtain ⟨vs, e, hv⟩ := ih fun r hr => hl r (List.mem_cons_of_mem _ hr)
    obtain ⟨v, e', hv'⟩ := strip_rel (un := un) (UQ.rel_self (hl q (List.mem_cons_self ..))) hun
    refine ⟨v :: vs, ?_, ?_⟩
    · rw [List.mapM_cons, e', ok_bind, e]; rfl
    · rw [List.map, hv, List.map]; exact congrArg (· :: _) hv'

/-- values and unit of a stacked quantity against base values -/
def QRow.Rel (d : RDim) (w : QRow) (l : List ℝ) : Prop := w.unit.dim = d ∧ w.values.map (fun v => w.unit.scale * v) = l

theorem stack_rel {q : UQ ℝ} {l : List (UQ ℝ)} (hl : ∀ r ∈ q :: l, r.unit.dim = dL) :
    RelRes (QRow.Rel dL) (stackU (q :: l)) (.ok ((q :: l).map UQ.phys)) := by
  have hq := hl q (List.mem_cons_self ..)
  obtain ⟨vs, e, hv⟩ := strips_rel hq l fun r hr => hl r (List.mem_cons_of_mem _ hr)
  show RelRes _ (do let vs ← l.mapM (fun r => r.strip q.unit); return (⟨q.value :: vs, q.unit⟩ : QRow)) _
  rw [e, ok_bind]
  refine .ok ⟨hq, ?_⟩
  rw [List.map, hv]; rfl

theorem cartFields_rel {p : Pos (UQ ℝ)} {p' : Pos ℝ} (h : p.Rel p') :
    RelRes (QRow.Rel dL) (do stackU (← p.cartFieldsU)) p'.cartComponents := by
  obtain ⟨h, rfl⟩ := h
  cases p with
  | cart1 x => exact stack_rel (q := x) (l := []) (by simpa [Pos.WD] using h)
  | cart2 x y => exact stack_rel (q := x) (l := [y]) (by simpa [Pos.WD] using h)
  | cart3 x y z => exact stack_rel (q := x) (l := [y, z]) (by simpa [Pos.WD] using h)
  | _ => exact .err _

theorem toQuantity_rel {p : Pos (UQ ℝ)} {p' : Pos ℝ} (h : p.Rel p') :
    RelRes (QRow.Rel dL) (toQuantityU p) (toQuantity p') := by
  unfold toQuantityU toQuantity
  exact .bind (toCart_rel h) fun q q' hq => cartFields_rel hq.1

theorem zipWith_scale (s t : ℝ) (a b : List ℝ) :
    (List.zipWith (· * ·) a b).map (fun v => s * t * v) =
      List.zipWith (· * ·) (a.map fun v => s * v) (b.map fun v => t * v) := by
  induction a generalizing b with
  | nil => rfl
  | cons x a ih =>
    cases b with
    | nil => rfl
    | cons y b =>
      simp only [List.zipWith, List.map, ih]
      congr 1; ring

theorem mulRank1_rel (s t : ℝ) (a b : List ℝ) :
    RelRes (fun w l => w.map (fun v => s * t * v) = l) (mulRank1 a b)
      (mulRank1 (a.map fun v => s * v) (b.map fun v => t * v)) := by
  unfold mulRank1
  simp only [List.length_map]
  by_cases h : a.length = b.length
  · rw [if_pos h, if_pos h]; exact .ok (zipWith_scale s t a b)
  · rw [if_neg h, if_neg h]
    match a, b, h with
    | [x], l, _ =>
      refine .ok ?_
      simp only [List.map_map]
      exact List.map_congr_left fun y _ => by simp only [Function.comp]; ring
    | [], [y], _ => exact .ok rfl
    | x :: x2 :: l, [y], _ =>
      refine .ok ?_
      simp only [List.map, List.map_map]
      refine congrArg₂ _ (by ring) (congrArg₂ _ (by ring) (List.map_congr_left fun y _ => by simp only [Function.comp]; ring))
    | [], [], h => exact absurd rfl h
    | [], y :: y2 :: l, _ => exact .err _
    | x :: x2 :: l, [], _ => exact .err _
    | x :: x2 :: l, y :: y2 :: l', _ => exact .err _

theorem mulPosPos_rel {p q : Pos (UQ ℝ)} {p' q' : Pos ℝ} (h : p.Rel p') (h' : q.Rel q') :
    RelRes (QRow.Rel dL2) (mulPosPosU p q) (mulPosPos p' q') := by
  unfold mulPosPosU mulPosPos
  refine .bind (toQuantity_rel h) fun a a' ha => .bind (toQuantity_rel h') fun b b' hb => ?_
  obtain ⟨ha1, rfl⟩ := ha
  obtain ⟨hb1, rfl⟩ := hb
  have := mulRank1_rel a.unit.scale b.unit.scale a.values b.values
  revert this
  generalize mulRank1 a.values b.values = X
  generalize mulRank1 (a.values.map fun v => a.unit.scale * v) (b.values.map fun v => b.unit.scale * v) = Y
  intro hr
  cases hr with
  | err e => exact .err e
  | ok hr =>
    refine .ok ⟨?_, hr⟩
    show a.unit.dim.mul b.unit.dim = _
    rw [ha1, hb1]

theorem sumList_scale (s : ℝ) (l : List ℝ) : s * sumList l = sumList (l.map fun v => s * v) := by
  induction l with
  | nil => show s * ((0 : ℕ) : ℝ) = ((0 : ℕ) : ℝ); simp
  | cons x l ih =>
    cases l with
    | nil => rfl
    | cons y l =>
      show s * (x + sumList (y :: l)) = s * x + sumList ((y :: l).map fun v => s * v)
      rw [← ih]; ring

theorem norm_rel {p : Pos (UQ ℝ)} {p' : Pos ℝ} (h : p.Rel p') : RelRes Dist.Rel (normU p) (norm p') := by
  have gen : RelRes Dist.Rel (do let w ← mulPosPosU p p; return .dist (← UQ.sqrt ⟨sumList w.values, w.unit⟩))
      (do return .dist (← Num.sqrt (sumList (← mulPosPos p' p')))) := by
    refine .bind (mulPosPos_rel h h) fun w l hw => ?_
    have : (⟨sumList w.values, w.unit⟩ : UQ ℝ).Rel dL2 (sumList l) :=
      ⟨hw.1, by rw [← hw.2]; exact sumList_scale _ _⟩
    exact .bind (sqrt_rel this) fun d d' hd => .ok (dist_dist hd)
  obtain ⟨hw, rfl⟩ := h
  cases p with
  | cyl rho phi z =>
    refine .left (add_rel (sq_rel (UQ.rel_self hw.1)) (sq_rel (UQ.rel_self hw.2.2))) fun s hs => ?_
    exact .bind (sqrt_rel hs) fun d d' hd => .ok (dist_dist hd)
  | lonlat a b d => exact .ok ⟨hw.2.2, rfl⟩
  | math r a b => exact .ok ⟨hw.1, rfl⟩
  | _ => exact gen

/-! ### Sums and differences -/

/-- units of the components of a Cartesian vector -/
def Pos.cartUnits : Pos (UQ ℝ) → List RUnit
  | .cart1 x => [x.unit]
  | .cart2 x y => [x.unit, y.unit]
  | .cart3 x y z => [x.unit, y.unit, z.unit]
  | _ => []

theorem leaf_add {a b : UQ ℝ} {d : RDim} (h : a.unit = b.unit) (ha : a.unit.dim = d) :
    ∃ r, leafOp (· + ·) a b = .ok r ∧ r.Rel d (a.phys + b.phys) := by
  refine ⟨⟨a.value + b.value, a.unit⟩, by rw [leafOp, if_pos h], ha, ?_⟩
  show a.unit.scale * (a.value + b.value) = a.unit.scale * a.value + b.unit.scale * b.value
  rw [h]; ring

theorem leaf_sub {a b : UQ ℝ} {d : RDim} (h : a.unit = b.unit) (ha : a.unit.dim = d) :
    ∃ r, leafOp (· - ·) a b = .ok r ∧ r.Rel d (a.phys - b.phys) := by
  refine ⟨⟨a.value - b.value, a.unit⟩, by rw [leafOp, if_pos h], ha, ?_⟩
  show a.unit.scale * (a.value - b.value) = a.unit.scale * a.value - b.unit.scale * b.value
  rw [h]; ring

theorem tree_rel {f : ℝ → ℝ → ℝ}
    (hf : ∀ {a b : UQ ℝ} {d : RDim}, a.unit = b.unit → a.unit.dim = d → ∃ r, leafOp f a b = .ok r ∧ r.Rel d (f a.phys b.phys))
    {a b : Pos (UQ ℝ)} {a' b' : Pos ℝ} (ha : a.Rel a') (hb : b.Rel b') (hk : a.kind = b.kind)
    (hu : a.cartUnits = b.cartUnits) : RelRes Pos.Rel (treeCart f a b) (mapCart2 f a' b') := by
  obtain ⟨ha, rfl⟩ := ha
  obtain ⟨hb, rfl⟩ := hb
  cases a with
  | cart1 x =>
    cases b <;> first | (cases hk; done) | skip
    simp only [Pos.cartUnits, List.cons.injEq, and_true] at hu
    refine .left (hf hu ha) fun r hr => .ok ⟨hr.1, ?_⟩
    rw [Pos.tr, hr.2]
  | cart2 x y =>
    cases b <;> first | (cases hk; done) | skip
    simp only [Pos.cartUnits, List.cons.injEq, and_true] at hu
    refine .left (hf hu.1 ha.1) fun r hr => .left (hf hu.2 ha.2) fun s hs => .ok ⟨⟨hr.1, hs.1⟩, ?_⟩
    rw [Pos.tr, hr.2, hs.2]
  | cart3 x y z =>
    cases b <;> first | (cases hk; done) | skip
    simp only [Pos.cartUnits, List.cons.injEq, and_true] at hu
    refine .left (hf hu.1 ha.1) fun r hr => .left (hf hu.2.1 ha.2.1) fun s hs => .left (hf hu.2.2 ha.2.2) fun t ht =>
      .ok ⟨⟨hr.1, hs.1, ht.1⟩, ?_⟩
    rw [Pos.tr, hr.2, hs.2, ht.2]
  | _ => cases b <;> exact .err _

theorem leaf_fails {f : ℝ → ℝ → ℝ} {a b : UQ ℝ} (h : a.unit ≠ b.unit) : leafOp f a b = .error .mismatch := by
  rw [leafOp, if_neg h]

theorem leaf_cases (f : ℝ → ℝ → ℝ) (a b : UQ ℝ) :
    (a.unit = b.unit ∧ ∃ r, leafOp f a b = .ok r) ∨ leafOp f a b = .error .mismatch := by
  by_cases h : a.unit = b.unit
  · exact .inl ⟨h, _, by rw [leafOp, if_pos h]⟩
  · exact .inr (leaf_fails h)

theorem tree_fails {f : ℝ → ℝ → ℝ} {a b : Pos (UQ ℝ)} (hk : a.kind = b.kind) (hu : a.cartUnits ≠ b.cartUnits) :
    treeCart f a b = .error .mismatch := by
  cases a with
  | cart1 x =>
    cases b <;> first | (cases hk; done) | skip
    rename_i x'
    simp only [Pos.cartUnits, ne_eq, List.cons.injEq, and_true] at hu
    rw [treeCart, leaf_fails hu]; rfl
  | cart2 x y =>
    cases b <;> first | (cases hk; done) | skip
    rename_i x' y'
    simp only [Pos.cartUnits, ne_eq, List.cons.injEq, and_true] at hu
    rw [treeCart]
    rcases leaf_cases f x x' with ⟨h1, r, e⟩ | e
    · rw [e, ok_bind, leaf_fails fun h2 => hu ⟨h1, h2⟩]; rfl
    · rw [e]; rfl
  | cart3 x y z =>
    cases b <;> first | (cases hk; done) | skip
    rename_i x' y' z'
    simp only [Pos.cartUnits, ne_eq, List.cons.injEq, and_true] at hu
    rw [treeCart]
    rcases leaf_cases f x x' with ⟨h1, r, e⟩ | e
    · rw [e, ok_bind]
      rcases leaf_cases f y y' with ⟨h2, s, e2⟩ | e2
      · rw [e2, ok_bind, leaf_fails fun h3 => hu ⟨h1, h2, h3⟩]; rfl
      · rw [e2]; rfl
    · rw [e]; rfl
  | _ => cases b <;> first | (cases hk; done) | exact absurd rfl hu

theorem addCart3_rel {a b : Pos (UQ ℝ)} {a' b' : Pos ℝ} (ha : a.Rel a') (hb : b.Rel b') (hk : a.kind = .cart3)
    (hk' : b.kind = .cart3) : RelRes Pos.Rel (addCartU a b) (mapCart2 (· + ·) a' b') := by
  obtain ⟨ha, rfl⟩ := ha
  obtain ⟨hb, rfl⟩ := hb
  cases a <;> first | (cases hk; done) | skip
  cases b <;> first | (cases hk'; done) | skip
  refine .left (add_rel (UQ.rel_self ha.1) (UQ.rel_self hb.1)) fun r hr =>
    .left (add_rel (UQ.rel_self ha.2.1) (UQ.rel_self hb.2.1)) fun s hs =>
    .left (add_rel (UQ.rel_self ha.2.2) (UQ.rel_self hb.2.2)) fun t ht => mkCart3_rel hr hs ht

theorem repr_cart_self (p : Pos (UQ ℝ)) (h : p.kind = p.kind.cartesian) : representAsU {} p p.kind = .ok p := by
  cases p <;> first | (cases h; done) | rfl

theorem repr_cart_self' (p : Pos ℝ) (h : p.kind = p.kind.cartesian) : representAs {} p p.kind = .ok p := by
  cases p <;> first | (cases h; done) | rfl

theorem mapCart2_kind {g : ℝ → ℝ → ℝ} {a b c : Pos ℝ} (h : mapCart2 g a b = .ok c) : c.kind ≠ .prolate := by
  cases a <;> cases b <;> first | (cases h; done) | (cases h; nofun)

/-- `binPos` with any two related Cartesian rules -/
theorem bin_rel {f : Pos (UQ ℝ) → Pos (UQ ℝ) → Res (Pos (UQ ℝ))} {g : ℝ → ℝ → ℝ} {lhs rhs : Pos (UQ ℝ)} (hl : lhs.WD)
    (hr : rhs.WD)
    (hf : ∀ a b a' b', representAsU {} lhs lhs.kind.cartesian = .ok a → representAsU {} rhs lhs.kind.cartesian = .ok b →
      a.Rel a' → b.Rel b' → a.kind = lhs.kind.cartesian → b.kind = lhs.kind.cartesian →
      RelRes Pos.Rel (f a b) (mapCart2 g a' b')) :
    RelRes Pos.Rel (binPosU f lhs rhs) (binPos g (lhs.tr UQ.phys) (rhs.tr UQ.phys)) := by
  have cartCase : lhs.kind = lhs.kind.cartesian →
      RelRes Pos.Rel (do f lhs (← representAsU {} rhs lhs.kind))
        (do mapCart2 g (lhs.tr UQ.phys) (← representAs {} (rhs.tr UQ.phys) (lhs.tr UQ.phys).kind)) := by
    intro hc
    have e := repr_cart_self lhs hc
    rw [tr_kind]
    have hr2 := repr_relk ⟨hr, rfl⟩ lhs.kind.cartesian fun _ => cartesian_ne _
    rw [← hc] at hr2 hf
    have key : ∀ X Y, X = representAsU {} rhs lhs.kind → RelRes (fun q q' => Pos.Rel q q' ∧ q.kind = lhs.kind) X Y →
        RelRes Pos.Rel (X >>= f lhs) (Y >>= mapCart2 g (lhs.tr UQ.phys)) := by
      intro X Y hX h
      cases h with
      | err e => exact .err e
      | ok hb => exact hf _ _ _ _ e hX.symm ⟨hl, rfl⟩ hb.1 rfl hb.2
    exact key _ _ rfl hr2
  have genCase : lhs.kind ≠ lhs.kind.cartesian →
      RelRes Pos.Rel (do
          let a ← representAsU {} lhs lhs.kind.cartesian
          let b ← representAsU {} rhs lhs.kind.cartesian
          let c ← representAsU {} b a.kind
          representAsU {} (← f a c) lhs.kind)
        (do
          let a ← representAs {} (lhs.tr UQ.phys) (lhs.tr UQ.phys).kind.cartesian
          let b ← representAs {} (rhs.tr UQ.phys) (lhs.tr UQ.phys).kind.cartesian
          representAs {} (← binCart g a b) (lhs.tr UQ.phys).kind) := by
    intro hc
    rw [tr_kind]
    have h1 := repr_relk ⟨hl, rfl⟩ lhs.kind.cartesian fun _ => cartesian_ne _
    have h2 := repr_relk ⟨hr, rfl⟩ lhs.kind.cartesian fun _ => cartesian_ne _
    generalize hX : representAsU {} lhs lhs.kind.cartesian = X at h1
    generalize hY : representAsU {} rhs lhs.kind.cartesian = Y at h2
    generalize representAs {} (lhs.tr UQ.phys) lhs.kind.cartesian = X' at h1
    generalize representAs {} (rhs.tr UQ.phys) lhs.kind.cartesian = Y' at h2
    cases h1 with
    | err e => exact .err e
    | @ok a a' ha =>
      cases h2 with
      | err e => exact .err e
      | @ok b b' hb =>
        have hbs : b.kind = b.kind.cartesian := by rw [hb.2]; cases lhs.kind <;> rfl
        rw [ok_bind, ok_bind, ok_bind, ok_bind, binCart, rel_kind ha.1, ha.2, ← hb.2, repr_cart_self b hbs, ok_bind]
        have hbs' : b'.kind = b'.kind.cartesian := by rw [rel_kind hb.1]; exact hbs
        rw [← rel_kind hb.1, repr_cart_self' b' hbs', ok_bind]
        refine .bind ((hf a b a' b' hX hY ha.1 hb.1 ha.2 hb.2).with (P := fun c => c.kind ≠ .prolate) fun c h =>
          mapCart2_kind h) fun c c' hc => ?_
        exact repr_rel hc.1 lhs.kind fun h => absurd ((rel_kind hc.1).trans h) hc.2
  cases lhs with
  | cart1 x => exact cartCase rfl
  | cart2 x y => exact cartCase rfl
  | cart3 x y z => exact cartCase rfl
  | _ => exact genCase nofun


/-! ### Negation, scaling, division -/

theorem mapCart_rel {f : UQ ℝ → UQ ℝ} {g : ℝ → ℝ} (hf : ∀ q x, q.Rel dL x → (f q).Rel dL (g x)) {p : Pos (UQ ℝ)}
    {p' : Pos ℝ} (h : p.Rel p') :
    RelRes (fun q q' => Pos.Rel q q' ∧ q'.kind ≠ .prolate) (mapCartU f p) (mapCart g p') := by
  obtain ⟨h, rfl⟩ := h
  have fin : ∀ {X : Res (Pos (UQ ℝ))} {Y : Res (Pos ℝ)}, RelRes Pos.Rel X Y → (∀ c, Y = .ok c → c.kind ≠ .prolate) →
      RelRes (fun q q' => Pos.Rel q q' ∧ q'.kind ≠ .prolate) X Y := fun h hk => h.with hk
  cases p with
  | cart1 x => exact fin (mkCart1_rel (hf _ _ (UQ.rel_self h))) fun c e => by cases e; nofun
  | cart2 x y =>
    exact fin (mkCart2_rel (hf _ _ (UQ.rel_self h.1)) (hf _ _ (UQ.rel_self h.2))) fun c e => by cases e; nofun
  | cart3 x y z =>
    exact fin (mkCart3_rel (hf _ _ (UQ.rel_self h.1)) (hf _ _ (UQ.rel_self h.2.1)) (hf _ _ (UQ.rel_self h.2.2)))
      fun c e => by cases e; nofun
  | _ => exact .err _

theorem mapGen_rel {f : UQ ℝ → UQ ℝ} {g : ℝ → ℝ} (hf : ∀ q x, q.Rel dL x → (f q).Rel dL (g x)) {p : Pos (UQ ℝ)}
    (h : p.WD) : RelRes Pos.Rel (do
        let c ← toCartesianU p
        representAsU {} (← mapCartU f c) p.kind)
      (do
        let c ← toCartesian (p.tr UQ.phys)
        representAs {} (← mapCart g c) (p.tr UQ.phys).kind) := by
  refine .bind (toCart_rel ⟨h, rfl⟩) fun c c' hc => .bind (mapCart_rel hf hc.1) fun d d' hd => ?_
  rw [tr_kind]
  exact repr_rel hd.1 p.kind fun e => absurd ((rel_kind hd.1).trans e) hd.2

theorem negPos_rel {p : Pos (UQ ℝ)} (h : p.WD) : RelRes Pos.Rel (negPosU p) (negPos (p.tr UQ.phys)) := by
  have hf : ∀ (q : UQ ℝ) x, q.Rel dL x → q.neg.Rel dL (-x) := fun q x hq => neg_rel hq
  cases p with
  | cart1 x => exact (mapCart_rel hf ⟨h, rfl⟩).mono fun _ _ h => h.1
  | cart2 x y => exact (mapCart_rel hf ⟨h, rfl⟩).mono fun _ _ h => h.1
  | cart3 x y z => exact (mapCart_rel hf ⟨h, rfl⟩).mono fun _ _ h => h.1
  | _ => exact mapGen_rel hf h

theorem dist_smul (s : ℝ) {r : Dist (UQ ℝ)} {r' : Dist ℝ} (h : r.Rel r') :
    (r.mapRaw (UQ.smul s)).Rel (r'.mapRaw fun v => s * v) := by
  obtain ⟨h, rfl⟩ := h
  cases r with
  | dist q => exact ⟨h, congrArg Dist.dist (smul_rel s (UQ.rel_self h)).2⟩
  | par q => exact ⟨h, congrArg Dist.par (smul_rel s (UQ.rel_self h)).2⟩
  | dm q => exact ⟨h, congrArg Dist.dm (smul_rel s (UQ.rel_self rfl)).2⟩

theorem scalePos_rel (s : ℝ) {p : Pos (UQ ℝ)} (h : p.WD) :
    RelRes Pos.Rel (scalePosU s p) (scalePos s (p.tr UQ.phys)) := by
  have hf : ∀ (q : UQ ℝ) x, q.Rel dL x → (q.smul s).Rel dL (s * x) := fun q x hq => smul_rel s hq
  cases p with
  | cart1 x => exact (mapCart_rel hf ⟨h, rfl⟩).mono fun _ _ h => h.1
  | cart2 x y => exact (mapCart_rel hf ⟨h, rfl⟩).mono fun _ _ h => h.1
  | cart3 x y z => exact (mapCart_rel hf ⟨h, rfl⟩).mono fun _ _ h => h.1
  | polar r phi => exact mkPolar_rel (dist_smul s ⟨h.1, rfl⟩) (az_angle (UQ.rel_self h.2))
  | math r theta phi =>
    exact mkMath_rel (dist_smul s ⟨h.1, rfl⟩) (az_angle (UQ.rel_self h.2.1)) (UQ.rel_self h.2.2)
  | _ => exact mapGen_rel hf h

theorem divBy_rel (s : ℝ) {q : UQ ℝ} {d : RDim} (h : q.unit.dim = d) :
    RelRes (fun r x => r.Rel d x ∧ r.unit = q.unit) (q.divBy s) (Num.div q.phys s) := by
  have := c_div_mul q.unit.pos one_pos q.value s
  rw [c_one_mul, div_one] at this
  show RelRes _ _ (Num.div (const q.unit.scale * q.value) s)
  rw [this, UQ.divBy]
  cases Num.div q.value s with
  | error e => exact .err e
  | ok v => exact .ok ⟨⟨h, rfl⟩, rfl⟩

theorem divDist_rel (s : ℝ) {r : Dist (UQ ℝ)} (h : r.WD) : RelRes Dist.Rel (r.divByU s) ((r.tr UQ.phys).divRaw s) := by
  cases r with
  | dist q => exact .bind (divBy_rel s (show q.unit.dim = dL from h)) fun a b hab => .ok ⟨hab.1.1, congrArg _ hab.1.2⟩
  | par q => exact .bind (divBy_rel s (show q.unit.dim = dA from h)) fun a b hab => .ok ⟨hab.1.1, congrArg _ hab.1.2⟩
  | dm q =>
    refine .bind (divBy_rel s (q := q) rfl) fun a b hab => .ok ⟨?_, congrArg _ hab.1.2⟩
    exact hab.2.trans h

theorem mkTwoSphere_rel {x : UQ ℝ} {x' : ℝ} {az : AzArg (UQ ℝ)} {az' : AzArg ℝ} (hx : x.Rel dA x') (ha : az.Rel az') :
    RelRes Pos.Rel (mkTwoSphereU x az) (mkTwoSphere x' az') := by
  refine .leftOk (ofDim_rel hx) ?_
  refine .left (az_rel ha) fun q hq => ?_
  exact .check (checkRange_rel hx degs0 degs180) (.ok ⟨⟨hx.1, hq.1⟩, by rw [Pos.tr, hx.2, hq.2]⟩)

theorem divPos_rel (s : ℝ) {p : Pos (UQ ℝ)} (h : p.WD) :
    RelRes Pos.Rel (divPosU p s) (divPos (p.tr UQ.phys) s) := by
  cases p with
  | cart1 x => exact .bind (divBy_rel s h) fun _ _ a => mkCart1_rel a.1
  | radial r => exact .bind (divDist_rel s h) fun _ _ a => mkRadial_rel a
  | cart2 x y => exact .bind (divBy_rel s h.1) fun _ _ a => .bind (divBy_rel s h.2) fun _ _ b => mkCart2_rel a.1 b.1
  | polar r phi =>
    exact .bind (divDist_rel s h.1) fun _ _ a => .bind (divBy_rel s h.2) fun _ _ b => mkPolar_rel a (az_angle b.1)
  | twoSphere r phi =>
    exact .bind (divBy_rel s h.1) fun _ _ a => .bind (divBy_rel s h.2) fun _ _ b => mkTwoSphere_rel a.1 (az_angle b.1)
  | cart3 x y z =>
    exact .bind (divBy_rel s h.1) fun _ _ a => .bind (divBy_rel s h.2.1) fun _ _ b =>
      .bind (divBy_rel s h.2.2) fun _ _ c => mkCart3_rel a.1 b.1 c.1
  | cyl x y z =>
    exact .bind (divBy_rel s h.1) fun _ _ a => .bind (divBy_rel s h.2.1) fun _ _ b =>
      .bind (divBy_rel s h.2.2) fun _ _ c => mkCyl_rel a.1 (az_angle b.1) c.1
  | sph x y z =>
    exact .bind (divDist_rel s h.1) fun _ _ a => .bind (divBy_rel s h.2.1) fun _ _ b =>
      .bind (divBy_rel s h.2.2) fun _ _ c => mkSph_rel a b.1 (az_angle c.1)
  | lonlat x y z =>
    exact .bind (divBy_rel s h.1) fun _ _ a => .bind (divBy_rel s h.2.1) fun _ _ b =>
      .bind (divDist_rel s h.2.2) fun _ _ c => mkLonLat_rel (az_angle a.1) b.1 c
  | math x y z =>
    exact .bind (divDist_rel s h.1) fun _ _ a => .bind (divBy_rel s h.2.1) fun _ _ b =>
      .bind (divBy_rel s h.2.2) fun _ _ c => mkMath_rel a (az_angle b.1) c.1
  | prolate x y z w =>
    exact .bind (divBy_rel s h.1) fun _ _ a => .bind (divBy_rel s h.2.1) fun _ _ b =>
      .bind (divBy_rel s h.2.2.1) fun _ _ c => mkProlate_rel a.1 b.1 (az_angle c.1) (UQ.rel_self h.2.2.2)

/-! ### Equality -/

/-- class and unit of a radial leaf -/
inductive Leaf
  | dist (u : RUnit)
  | par (u : RUnit)
  | dm (u : RUnit)
  | qty (u : RUnit)

/-- static data of a radial field -/
def Dist.leaf : Dist (UQ ℝ) → Leaf
  | .dist q => .dist q.unit
  | .par q => .par q.unit
  | .dm q => .dm q.unit

/-- static data of the fields: class and unit -/
def Pos.fieldLeaves : Pos (UQ ℝ) → List Leaf
  | .cart1 x => [.qty x.unit]
  | .radial r => [r.leaf]
  | .cart2 x y => [.qty x.unit, .qty y.unit]
  | .polar r phi => [r.leaf, .qty phi.unit]
  | .twoSphere theta phi => [.qty theta.unit, .qty phi.unit]
  | .cart3 x y z => [.qty x.unit, .qty y.unit, .qty z.unit]
  | .cyl rho phi z => [.qty rho.unit, .qty phi.unit, .qty z.unit]
  | .sph r theta phi => [r.leaf, .qty theta.unit, .qty phi.unit]
  | .lonlat lon lat d => [.qty lon.unit, .qty lat.unit, d.leaf]
  | .math r theta phi => [r.leaf, .qty theta.unit, .qty phi.unit]
  | .prolate mu nu phi delta => [.qty mu.unit, .qty nu.unit, .qty phi.unit, .qty delta.unit]

theorem leafEq_ok {a b : UQ ℝ} (h : a.unit = b.unit) : leafEqU a b = .ok (beq a.phys b.phys) := by
  rw [leafEqU, if_pos h, UQ.phys, UQ.phys, h, c_beq_mul b.unit.pos]

theorem leafEq_err {a b : UQ ℝ} (h : a.unit ≠ b.unit) : leafEqU a b = .error .mismatch := by rw [leafEqU, if_neg h]

theorem distEq_ok {a b : Dist (UQ ℝ)} (h : a.leaf = b.leaf) :
    ∃ v, a.leafEqU b = .ok v ∧ (a.tr UQ.phys).eqv (b.tr UQ.phys) = .ok v := by
  cases a <;> cases b <;> simp only [Dist.leaf, Leaf.dist.injEq, Leaf.par.injEq, Leaf.dm.injEq, reduceCtorEq] at h <;>
    exact ⟨_, leafEq_ok h, rfl⟩

theorem distEq_err {a b : Dist (UQ ℝ)} (h : a.leaf ≠ b.leaf) : a.leafEqU b = .error .mismatch := by
  cases a <;> cases b <;>
    simp only [Dist.leaf, ne_eq, Leaf.dist.injEq, Leaf.par.injEq, Leaf.dm.injEq, reduceCtorEq, not_false_eq_true] at h <;>
    first | rfl | exact leafEq_err h

theorem eqSame_ok {p r : Pos (UQ ℝ)} (hk : p.kind = r.kind) (h : p.fieldLeaves = r.fieldLeaves) :
    eqSameU p r = eqSame (p.tr UQ.phys) (r.tr UQ.phys) := by
  cases p <;> cases r <;> first | (cases hk; done) | skip
  all_goals simp only [Pos.fieldLeaves, List.cons.injEq, Leaf.qty.injEq, and_true] at h
  · exact leafEq_ok h
  · obtain ⟨v, e, e'⟩ := distEq_ok h
    exact e.trans e'.symm
  · rw [eqSameU, leafEq_ok h.1, leafEq_ok h.2]; rfl
  · obtain ⟨v, e, e'⟩ := distEq_ok h.1
    simp only [eqSameU, Pos.tr, eqSame, e, e', leafEq_ok h.2]; rfl
  · rw [eqSameU, leafEq_ok h.1, leafEq_ok h.2]; rfl
  · rw [eqSameU, leafEq_ok h.1, leafEq_ok h.2.1, leafEq_ok h.2.2]; rfl
  · rw [eqSameU, leafEq_ok h.1, leafEq_ok h.2.1, leafEq_ok h.2.2]; rfl
  · obtain ⟨v, e, e'⟩ := distEq_ok h.1
    simp only [eqSameU, Pos.tr, eqSame, e, e', leafEq_ok h.2.1, leafEq_ok h.2.2]; rfl
  · obtain ⟨v, e, e'⟩ := distEq_ok h.2.2
    simp only [eqSameU, Pos.tr, eqSame, e, e', leafEq_ok h.1, leafEq_ok h.2.1]; rfl
  · obtain ⟨v, e, e'⟩ := distEq_ok h.1
    simp only [eqSameU, Pos.tr, eqSame, e, e', leafEq_ok h.2.1, leafEq_ok h.2.2]; rfl
  · rw [eqSameU, leafEq_ok h.1, leafEq_ok h.2.1, leafEq_ok h.2.2.1, leafEq_ok h.2.2.2]; rfl

theorem leafEq_cases (a b : UQ ℝ) :
    (a.unit = b.unit ∧ ∃ v, leafEqU a b = .ok v) ∨ leafEqU a b = .error .mismatch := by
  by_cases h : a.unit = b.unit
  · exact .inl ⟨h, _, leafEq_ok h⟩
  · exact .inr (leafEq_err h)

theorem distEq_cases (a b : Dist (UQ ℝ)) :
    (a.leaf = b.leaf ∧ ∃ v, a.leafEqU b = .ok v) ∨ a.leafEqU b = .error .mismatch := by
  by_cases h : a.leaf = b.leaf
  · obtain ⟨v, e, _⟩ := distEq_ok h
    exact .inl ⟨h, v, e⟩
  · exact .inr (distEq_err h)

/-- chains of leaves: either all agree or the chain fails -/
theorem chain2 {A B : Prop} {m m' : Res Bool} (h : (A ∧ ∃ v, m = .ok v) ∨ m = .error .mismatch)
    (h' : (B ∧ ∃ v, m' = .ok v) ∨ m' = .error .mismatch) (hn : ¬ (A ∧ B)) :
    (do return (← m) && (← m') : Res Bool) = .error .mismatch := by
  rcases h with ⟨ha, v, rfl⟩ | rfl
  · rcases h' with ⟨hb, w, rfl⟩ | rfl
    · exact absurd ⟨ha, hb⟩ hn
    · rfl
  · rfl

theorem chain3 {A B C : Prop} {m m' m'' : Res Bool} (h : (A ∧ ∃ v, m = .ok v) ∨ m = .error .mismatch)
    (h' : (B ∧ ∃ v, m' = .ok v) ∨ m' = .error .mismatch) (h'' : (C ∧ ∃ v, m'' = .ok v) ∨ m'' = .error .mismatch)
    (hn : ¬ (A ∧ B ∧ C)) : (do return (← m) && (← m') && (← m'') : Res Bool) = .error .mismatch := by
  rcases h with ⟨ha, v, rfl⟩ | rfl
  · rcases h' with ⟨hb, w, rfl⟩ | rfl
    · rcases h'' with ⟨hc, w, rfl⟩ | rfl
      · exact absurd ⟨ha, hb, hc⟩ hn
      · rfl
    · rfl
  · rfl

theorem chain4 {A B C D : Prop} {m m' m'' m3 : Res Bool} (h : (A ∧ ∃ v, m = .ok v) ∨ m = .error .mismatch)
    (h' : (B ∧ ∃ v, m' = .ok v) ∨ m' = .error .mismatch) (h'' : (C ∧ ∃ v, m'' = .ok v) ∨ m'' = .error .mismatch)
    (h3 : (D ∧ ∃ v, m3 = .ok v) ∨ m3 = .error .mismatch)
    (hn : ¬ (A ∧ B ∧ C ∧ D)) :
    (do return (← m) && (← m') && (← m'') && (← m3) : Res Bool) = .error .mismatch := by
  rcases h with ⟨ha, v, rfl⟩ | rfl
  · rcases h' with ⟨hb, w, rfl⟩ | rfl
    · rcases h'' with ⟨hc, w, rfl⟩ | rfl
      · rcases h3 with ⟨hd, w, rfl⟩ | rfl
        · exact absurd ⟨ha, hb, hc, hd⟩ hn
        · rfl
      · rfl
    · rfl
  · rfl

theorem eqSame_err {p r : Pos (UQ ℝ)} (hk : p.kind = r.kind) (h : p.fieldLeaves ≠ r.fieldLeaves) :
    eqSameU p r = .error .mismatch := by
  cases p <;> cases r <;> first | (cases hk; done) | skip
  all_goals simp only [Pos.fieldLeaves, ne_eq, List.cons.injEq, Leaf.qty.injEq, and_true] at h
  · exact leafEq_err h
  · exact distEq_err h
  · exact chain2 (leafEq_cases _ _) (leafEq_cases _ _) h
  · exact chain2 (distEq_cases _ _) (leafEq_cases _ _) h
  · exact chain2 (leafEq_cases _ _) (leafEq_cases _ _) h
  · exact chain3 (leafEq_cases _ _) (leafEq_cases _ _) (leafEq_cases _ _) h
  · exact chain3 (leafEq_cases _ _) (leafEq_cases _ _) (leafEq_cases _ _) h
  · exact chain3 (distEq_cases _ _) (leafEq_cases _ _) (leafEq_cases _ _) h
  · exact chain3 (leafEq_cases _ _) (leafEq_cases _ _) (distEq_cases _ _) h
  · exact chain3 (distEq_cases _ _) (leafEq_cases _ _) (leafEq_cases _ _) h
  · exact chain4 (leafEq_cases _ _) (leafEq_cases _ _) (leafEq_cases _ _) (leafEq_cases _ _) h

/-! ### Unit vectors -/

theorem normalize_rel {x y z : UQ ℝ} (hx : x.unit.dim = dL) (hy : y.unit.dim = dL) (hz : z.unit.dim = dL) :
    RelRes (fun w w' => w.1.Rel {} w'.1 ∧ w.2.1.Rel {} w'.2.1 ∧ w.2.2.Rel {} w'.2.2) (normalizeCart3U x y z)
      (normalizeCart3 x.phys y.phys z.phys) := by
  have hn := norm_rel (p := .cart3 x y z) (p' := .cart3 x.phys y.phys z.phys) ⟨⟨hx, hy, hz⟩, rfl⟩
  have en : norm (.cart3 x.phys y.phys z.phys) =
      (do let n ← Num.sqrt (x.phys * x.phys + y.phys * y.phys + z.phys * z.phys); return Dist.dist n) := by
    show (do return Dist.dist (← Num.sqrt (x.phys * x.phys + (y.phys * y.phys + z.phys * z.phys)))) = _
    rw [← add_assoc]
  rw [en] at hn
  unfold normalizeCart3U normalizeCart3
  revert hn
  generalize Num.sqrt (x.phys * x.phys + y.phys * y.phys + z.phys * z.phys) = N
  generalize normU (.cart3 x y z) = M
  intro hn
  cases N with
  | error e => cases hn; exact .err e
  | ok n =>
    cases hn with
    | ok hd =>
      rename_i r
      obtain ⟨hw, e⟩ := hd
      cases r <;> simp only [Dist.tr, Dist.dist.injEq, reduceCtorEq] at e
      rename_i q
      subst e
      have hq : q.Rel dL q.phys := UQ.rel_self hw
      have dv : ∀ {a : UQ ℝ}, a.unit.dim = dL → RelRes (UQ.Rel {}) (a.div q) (Num.div a.phys q.phys) := fun ha =>
        (div_rel (UQ.rel_self ha) hq).mono fun b b' hb => by have := hb.1; rwa [RDim.div_self] at this
      refine .leftOk rfl (.right rfl ?_)
      refine .bind (dv hx) fun a a' ha => .bind (dv hy) fun b b' hb => .bind (dv hz) fun c c' hc => ?_
      exact .ok (And.intro ha (And.intro hb hc))

end Verif
