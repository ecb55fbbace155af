import Verif.Props.Flt
import Verif.Arith

/-!
# C73: identities of vector arithmetic that rounding does not break
-/

namespace Verif

open Num

namespace Spec

/-- one of the Cartesian position classes -/
def IsCart {α : Type} (p : Pos α) : Prop := p.kind = .cart1 ∨ p.kind = .cart2 ∨ p.kind = .cart3

/-- the components of a Cartesian position -/
def cartVals {A : FltArith} : Pos (Flt A) → List ℝ
  | .cart1 x => [x.val]
  | .cart2 x y => [x.val, y.val]
  | .cart3 x y z => [x.val, y.val, z.val]
  | _ => []

end Spec

open Spec

variable {A : FltArith}

theorem Flt.ext {a b : Flt A} (h : a.val = b.val) : a = b := by
  obtain ⟨x, hx⟩ := a
  obtain ⟨y, hy⟩ := b
  cases h
  rfl

theorem rnd_congr {x y : ℝ} (h : x = y) : A.rnd x = A.rnd y := by rw [h]
theorem addF_comm (a b : Flt A) : a + b = b + a := rnd_congr (add_comm _ _)
theorem negF_neg (a : Flt A) : -(-a) = a := Flt.ext (by rw [val_neg, val_neg, neg_neg])
theorem subF_eq (a b : Flt A) : a - b = a + -b := by
  refine rnd_congr ?_
  rw [val_neg]; ring
theorem negF_sub (a b : Flt A) : -(a - b) = b - a := by
  refine Flt.ext ?_
  rw [val_neg]
  show -A.fl (a.val - b.val) = A.fl (b.val - a.val)
  rw [← A.odd, neg_sub]
theorem subF_self (a : Flt A) : a - a = nat 0 := by
  refine Flt.ext ?_
  rw [val_zero]
  show A.fl (a.val - a.val) = 0
  rw [sub_self, A.fl_zero]
theorem addF_zero (a : Flt A) : a + nat 0 = a := by
  refine Flt.ext ?_
  show A.fl (a.val + (nat 0 : Flt A).val) = a.val
  rw [val_zero, add_zero, a.rep]
theorem val_one : (nat 1 : Flt A).val = 1 := by
  show A.fl ((1 : ℕ) : ℝ) = 1
  simpa using A.small 1 (by decide)
theorem oneF_mul (a : Flt A) : nat 1 * a = a := by
  refine Flt.ext ?_
  show A.fl ((nat 1 : Flt A).val * a.val) = a.val
  rw [val_one, one_mul, a.rep]
theorem zeroF_mul (a : Flt A) : nat 0 * a = nat 0 := by
  refine Flt.ext ?_
  show A.fl ((nat 0 : Flt A).val * a.val) = _
  rw [val_zero, zero_mul, A.fl_zero]
theorem negF_mul (a b : Flt A) : -a * b = -(a * b) := by
  refine Flt.ext ?_
  rw [val_neg]
  show A.fl ((-a).val * b.val) = -A.fl (a.val * b.val)
  rw [val_neg, neg_mul, A.odd]
theorem negF_mul_self (a : Flt A) : -a * -a = a * a := by
  refine rnd_congr ?_
  rw [val_neg]; ring
theorem beqF_refl (a : Flt A) : beq a a = true := decide_eq_true rfl
theorem beqF_comm (a b : Flt A) : beq a b = beq b a := by
  show decide (a.val = b.val) = decide (b.val = a.val)
  by_cases h : a.val = b.val
  · rw [decide_eq_true h, decide_eq_true h.symm]
  · rw [decide_eq_false h, decide_eq_false (Ne.symm h)]

/-! ### the identity conversion -/

theorem representF_self {α : Type} [Num α] (p : Pos α) (h : p.kind ≠ .twoSphere) : representAs {} p p.kind = .ok p := by
  show represent (199 + 1) _ _ _ = _
  cases p
  case twoSphere => exact absurd rfl h
  all_goals
    simp only [Pos.kind]
    rw [represent]

theorem binPosF_cart {α : Type} [Num α] (f : α → α → α) (p q : Pos α) (hp : IsCart p) (hk : p.kind = q.kind) :
    binPos f p q = mapCart2 f p q := by
  have hq : representAs {} q p.kind = .ok q := by
    rw [hk]
    refine representF_self q ?_
    rw [← hk]
    rcases hp with h | h | h <;> rw [h] <;> decide
  have e : binPos f p q = binCart f p q := by
    rcases hp with h | h | h <;> (cases p <;> first | exact Kind.noConfusion h | rfl)
  rw [e]
  unfold binCart
  rw [hq]
  rfl

theorem bin1 {α : Type} [Num α] (f : α → α → α) (x x' : α) : binPos f (.cart1 x) (.cart1 x') = .ok (.cart1 (f x x')) :=
  binPosF_cart f _ _ (.inl rfl) rfl
theorem bin2 {α : Type} [Num α] (f : α → α → α) (x y x' y' : α) :
    binPos f (.cart2 x y) (.cart2 x' y') = .ok (.cart2 (f x x') (f y y')) := binPosF_cart f _ _ (.inr (.inl rfl)) rfl
theorem bin3 {α : Type} [Num α] (f : α → α → α) (x y z x' y' z' : α) :
    binPos f (.cart3 x y z) (.cart3 x' y' z') = .ok (.cart3 (f x x') (f y y') (f z z')) := binPosF_cart f _ _ (.inr (.inr rfl)) rfl

theorem negPos_cart {α : Type} [Num α] (p : Pos α) (hp : IsCart p) : negPos p = mapCart (fun x => -x) p := by
  rcases hp with h | h | h <;> (cases p <;> first | exact Kind.noConfusion h | rfl)
theorem scalePos_cart {α : Type} [Num α] (s : α) (p : Pos α) (hp : IsCart p) : scalePos s p = mapCart (fun x => s * x) p := by
  rcases hp with h | h | h <;> (cases p <;> first | exact Kind.noConfusion h | rfl)

theorem mapCart2_comm (p q : Pos (Flt A)) : mapCart2 (· + ·) p q = mapCart2 (· + ·) q p := by
  cases p <;> cases q <;> first | rfl | simp only [mapCart2, addF_comm]

theorem cart_cases {α : Type} {p : Pos α} (h : IsCart p) :
    (∃ x, p = .cart1 x) ∨ (∃ x y, p = .cart2 x y) ∨ ∃ x y z, p = .cart3 x y z := by
  rcases h with h | h | h
  · cases p <;> first | exact Kind.noConfusion h | exact .inl ⟨_, rfl⟩
  · cases p <;> first | exact Kind.noConfusion h | exact .inr (.inl ⟨_, _, rfl⟩)
  · cases p <;> first | exact Kind.noConfusion h | exact .inr (.inr ⟨_, _, _, rfl⟩)

/-! ### theorems -/

/-- **C73.** `p + q` and `q + p` are the same vector, bit for bit, for vectors of one class (every class). -/
theorem C73_add_comm (p q r : Pos (Flt A)) (hk : p.kind = q.kind) : addPos p q = .ok r ↔ addPos q p = .ok r := by
  have key : ∀ p q : Pos (Flt A), p.kind = q.kind → addPos p q = .ok r → addPos q p = .ok r := by
    intro p q hk h
    by_cases hc : IsCart p
    · have hc' : IsCart q := by unfold IsCart; rw [← hk]; exact hc
      unfold addPos at h ⊢
      rw [binPosF_cart _ _ _ hc hk] at h
      rw [binPosF_cart _ _ _ hc' hk.symm, mapCart2_comm]
      exact h
    · have gen : ∀ p q : Pos (Flt A), ¬ IsCart p → addPos p q = (do
          let a ← representAs {} p p.kind.cartesian
          let b ← representAs {} q p.kind.cartesian
          representAs {} (← binCart (· + ·) a b) p.kind) := by
        intro p q hp
        unfold addPos
        cases p <;> first | rfl | (exfalso; apply hp; simp [IsCart, Pos.kind])
      have hc' : ¬ IsCart q := by unfold IsCart at hc ⊢; rw [← hk]; exact hc
      rw [gen p q hc] at h
      rw [gen q p hc', ← hk]
      simp only [bind_ok_iff] at h ⊢
      obtain ⟨a, ha, b, hb, c, hab, hr⟩ := h
      refine ⟨b, hb, a, ha, c, ?_, hr⟩
      have ka : a.kind = p.kind.cartesian := representAs_kind ha
      have kb : b.kind = p.kind.cartesian := representAs_kind hb
      have ca : IsCart a := by
        unfold IsCart; rw [ka]
        cases p.kind <;> simp [Kind.cartesian]
      have cb : IsCart b := by unfold IsCart at ca ⊢; rw [kb, ← ka]; exact ca
      have e1 : binCart (· + ·) a b = mapCart2 (· + ·) a b := by
        rw [← binPosF_cart _ a b ca (ka.trans kb.symm)]
        obtain ⟨x, rfl⟩ | ⟨x, y, rfl⟩ | ⟨x, y, z, rfl⟩ := cart_cases ca <;> rfl
      have e2 : binCart (· + ·) b a = mapCart2 (· + ·) b a := by
        rw [← binPosF_cart _ b a cb (kb.trans ka.symm)]
        obtain ⟨x, rfl⟩ | ⟨x, y, rfl⟩ | ⟨x, y, z, rfl⟩ := cart_cases cb <;> rfl
      rw [e2, mapCart2_comm, ← e1]
      exact hab
  exact ⟨key p q hk, key q p hk.symm⟩

/-- **C73.** For Cartesian positions of one class, exactly: `-(-p) = p`, `p - q = p + (-q)`, `-(p - q) = q - p`, `p - p = 0`. -/
theorem C73_neg_sub (p q : Pos (Flt A)) (hp : IsCart p) (hk : p.kind = q.kind) :
    ∃ np nq d d' z, negPos p = .ok np ∧ negPos np = .ok p ∧ negPos q = .ok nq ∧ subPos p q = .ok d ∧ addPos p nq = .ok d ∧
      subPos q p = .ok d' ∧ negPos d = .ok d' ∧ subPos p p = .ok z ∧ (∀ v ∈ cartVals z, v = 0) ∧ z.kind = p.kind := by
  have hq : IsCart q := by unfold IsCart at hp ⊢; rw [← hk]; exact hp
  have zv : (nat 0 : Flt A).val = 0 := val_zero
  obtain ⟨x, rfl⟩ | ⟨x, y, rfl⟩ | ⟨x, y, z, rfl⟩ := cart_cases hp <;>
    (obtain ⟨x', rfl⟩ | ⟨x', y', rfl⟩ | ⟨x', y', z', rfl⟩ := cart_cases hq) <;> try cases hk
  · refine ⟨.cart1 (-x), .cart1 (-x'), .cart1 (x - x'), .cart1 (x' - x), .cart1 (nat 0), rfl, ?_, rfl, ?_, ?_, ?_, ?_, ?_, ?_, rfl⟩
    · rw [negPos_cart _ (.inl rfl)]; simp only [mapCart, mkCart1, negF_neg]
    · unfold subPos; rw [bin1]
    · unfold addPos; rw [bin1]; simp only [subF_eq]
    · unfold subPos; rw [bin1]
    · rw [negPos_cart _ (.inl rfl)]; simp only [mapCart, mkCart1, negF_sub]
    · unfold subPos; rw [bin1]; simp only [subF_self]
    · simp [cartVals, zv]
  · refine ⟨.cart2 (-x) (-y), .cart2 (-x') (-y'), .cart2 (x - x') (y - y'), .cart2 (x' - x) (y' - y), .cart2 (nat 0) (nat 0), rfl, ?_, rfl, ?_, ?_, ?_, ?_, ?_, ?_, rfl⟩
    · rw [negPos_cart _ (.inr (.inl rfl))]; simp only [mapCart, mkCart2, negF_neg]
    · unfold subPos; rw [bin2]
    · unfold addPos; rw [bin2]; simp only [subF_eq]
    · unfold subPos; rw [bin2]
    · rw [negPos_cart _ (.inr (.inl rfl))]; simp only [mapCart, mkCart2, negF_sub]
    · unfold subPos; rw [bin2]; simp only [subF_self]
    · simp [cartVals, zv]
  · refine ⟨.cart3 (-x) (-y) (-z), .cart3 (-x') (-y') (-z'), .cart3 (x - x') (y - y') (z - z'), .cart3 (x' - x) (y' - y) (z' - z),
      .cart3 (nat 0) (nat 0) (nat 0), rfl, ?_, rfl, ?_, ?_, ?_, ?_, ?_, ?_, rfl⟩
    · rw [negPos_cart _ (.inr (.inr rfl))]; simp only [mapCart, mkCart3, negF_neg]
    · unfold subPos; rw [bin3]
    · unfold addPos; rw [bin3]; simp only [subF_eq]
    · unfold subPos; rw [bin3]
    · rw [negPos_cart _ (.inr (.inr rfl))]; simp only [mapCart, mkCart3, negF_sub]
    · unfold subPos; rw [bin3]; simp only [subF_self]
    · simp [cartVals, zv]

/-- **C73.** For Cartesian positions, exactly: `1 * p = p`, `(-s) * p = -(s * p)`, `p + 0 * q = p`. -/
theorem C73_scale (p q : Pos (Flt A)) (hp : IsCart p) (hk : p.kind = q.kind) (s : Flt A) :
    scalePos (nat 1) p = .ok p ∧ (∃ m, scalePos s p = .ok m ∧ scalePos (-s) p = negPos m) ∧
      ∃ z, scalePos (nat 0) q = .ok z ∧ addPos p z = .ok p := by
  have hq : IsCart q := by unfold IsCart at hp ⊢; rw [← hk]; exact hp
  obtain ⟨x, rfl⟩ | ⟨x, y, rfl⟩ | ⟨x, y, z, rfl⟩ := cart_cases hp <;>
    (obtain ⟨x', rfl⟩ | ⟨x', y', rfl⟩ | ⟨x', y', z', rfl⟩ := cart_cases hq) <;> try cases hk
  · refine ⟨?_, ⟨.cart1 (s * x), rfl, ?_⟩, .cart1 (nat 0), ?_, ?_⟩
    · simp only [scalePos, mapCart, mkCart1, oneF_mul]
    · rw [negPos_cart _ (.inl rfl)]; simp only [scalePos, mapCart, negF_mul]
    · simp only [scalePos, mapCart, mkCart1, zeroF_mul]
    · unfold addPos; rw [bin1]; simp only [addF_zero]
  · refine ⟨?_, ⟨.cart2 (s * x) (s * y), rfl, ?_⟩, .cart2 (nat 0) (nat 0), ?_, ?_⟩
    · simp only [scalePos, mapCart, mkCart2, oneF_mul]
    · rw [negPos_cart _ (.inr (.inl rfl))]; simp only [scalePos, mapCart, negF_mul]
    · simp only [scalePos, mapCart, mkCart2, zeroF_mul]
    · unfold addPos; rw [bin2]; simp only [addF_zero]
  · refine ⟨?_, ⟨.cart3 (s * x) (s * y) (s * z), rfl, ?_⟩, .cart3 (nat 0) (nat 0) (nat 0), ?_, ?_⟩
    · simp only [scalePos, mapCart, mkCart3, oneF_mul]
    · rw [negPos_cart _ (.inr (.inr rfl))]; simp only [scalePos, mapCart, negF_mul]
    · simp only [scalePos, mapCart, mkCart3, zeroF_mul]
    · unfold addPos; rw [bin3]; simp only [addF_zero]

/-! ### norms -/

theorem norm1 (x : Flt A) : norm (.cart1 x) = .ok (.dist (A.rnd (Real.sqrt (x * x).val))) := by
  have e : representAs {} (.cart1 x) .cart1 = .ok (.cart1 x) := representF_self (.cart1 x) (by simp [Pos.kind])
  show (do return Dist.dist (← Num.sqrt (sumList (← mulPosPos (.cart1 x) (.cart1 x)))) : Res (Dist (Flt A))) = _
  simp only [mulPosPos, toQuantity, toCartesian, Pos.kind, Kind.cartesian, e, ok_bind, Pos.cartComponents, mulRank1]
  simp only [if_true, List.zipWith, ok_bind, sumList]
  rw [sqrt_ok (mul_self_fl x)]
  rfl
theorem norm2 (x y : Flt A) : norm (.cart2 x y) = .ok (.dist (A.rnd (Real.sqrt (x * x + y * y).val))) := by
  have e : representAs {} (.cart2 x y) .cart2 = .ok (.cart2 x y) := representF_self (.cart2 x y) (by simp [Pos.kind])
  show (do return Dist.dist (← Num.sqrt (sumList (← mulPosPos (.cart2 x y) (.cart2 x y)))) : Res (Dist (Flt A))) = _
  simp only [mulPosPos, toQuantity, toCartesian, Pos.kind, Kind.cartesian, e, ok_bind, Pos.cartComponents, mulRank1]
  simp only [if_true, List.zipWith, ok_bind, sumList]
  rw [sqrt_ok (sum2_nonneg x y)]
  rfl
theorem sum3_nonneg' (x y z : Flt A) : 0 ≤ (x * x + (y * y + z * z)).val :=
  A.fl_nonneg (add_nonneg (mul_self_fl x) (sum2_nonneg y z))
theorem norm3 (x y z : Flt A) : norm (.cart3 x y z) = .ok (.dist (A.rnd (Real.sqrt (x * x + (y * y + z * z)).val))) := by
  have e : representAs {} (.cart3 x y z) .cart3 = .ok (.cart3 x y z) := representF_self (.cart3 x y z) (by simp [Pos.kind])
  show (do return Dist.dist (← Num.sqrt (sumList (← mulPosPos (.cart3 x y z) (.cart3 x y z)))) : Res (Dist (Flt A))) = _
  simp only [mulPosPos, toQuantity, toCartesian, Pos.kind, Kind.cartesian, e, ok_bind, Pos.cartComponents, mulRank1]
  simp only [if_true, List.zipWith, ok_bind, sumList]
  rw [sqrt_ok (sum3_nonneg' x y z)]
  rfl

theorem le_sum_left (a b : Flt A) (hb : 0 ≤ b.val) : a.val ≤ (a + b).val := A.le_fl (by linarith)
theorem le_sum_right (a b : Flt A) (ha : 0 ≤ a.val) : b.val ≤ (a + b).val := A.le_fl (by linarith)

theorem le_norm {v : ℝ} {s : Flt A} (h : |v| ≤ A.fl (Real.sqrt (A.fl (v * v)))) (hs : A.fl (v * v) ≤ s.val) :
    |v| ≤ (A.rnd (Real.sqrt s.val)).val := h.trans (A.mono (Real.sqrt_le_sqrt hs))

/-- **C73.** The norm of a Cartesian position is always a number, not negative, and not less than any component's absolute value (where the square of the component does
not underflow); `norm(-p) = norm(p)` and `norm(p - q) = norm(q - p)` exactly. -/
theorem C73_norm (p q : Pos (Flt A)) (hp : IsCart p) (hk : p.kind = q.kind) :
    ∃ n np d d', norm p = .ok (.dist n) ∧ 0 ≤ n.val ∧
      (∀ v ∈ cartVals p, |v| ≤ A.fl (Real.sqrt (A.fl (v * v))) → |v| ≤ n.val) ∧
      negPos p = .ok np ∧ norm np = .ok (.dist n) ∧
      subPos p q = .ok d ∧ subPos q p = .ok d' ∧ norm d = norm d' := by
  have hq : IsCart q := by unfold IsCart at hp ⊢; rw [← hk]; exact hp
  have sw : ∀ a b : Flt A, (a - b) * (a - b) = (b - a) * (b - a) := by
    intro a b; rw [← negF_sub b a, negF_mul_self]
  obtain ⟨x, rfl⟩ | ⟨x, y, rfl⟩ | ⟨x, y, z, rfl⟩ := cart_cases hp <;>
    (obtain ⟨x', rfl⟩ | ⟨x', y', rfl⟩ | ⟨x', y', z', rfl⟩ := cart_cases hq) <;> try cases hk
  · refine ⟨_, .cart1 (-x), .cart1 (x - x'), .cart1 (x' - x), norm1 x, A.fl_nonneg (Real.sqrt_nonneg _), ?_, rfl, ?_, ?_, ?_, ?_⟩
    · intro v hv h
      simp only [cartVals, List.mem_singleton] at hv
      subst hv
      exact le_norm h le_rfl
    · rw [norm1, negF_mul_self]
    · exact bin1 _ _ _
    · exact bin1 _ _ _
    · rw [norm1, norm1, sw]
  · refine ⟨_, .cart2 (-x) (-y), .cart2 (x - x') (y - y'), .cart2 (x' - x) (y' - y), norm2 x y, A.fl_nonneg (Real.sqrt_nonneg _), ?_,
      rfl, ?_, ?_, ?_, ?_⟩
    · intro v hv h
      simp only [cartVals, List.mem_cons, List.not_mem_nil, or_false] at hv
      rcases hv with rfl | rfl
      · exact le_norm h (le_sum_left (x * x) _ (mul_self_fl y))
      · exact le_norm h (le_sum_right _ (y * y) (mul_self_fl x))
    · rw [norm2, negF_mul_self, negF_mul_self]
    · exact bin2 _ _ _ _ _
    · exact bin2 _ _ _ _ _
    · rw [norm2, norm2, sw x, sw y]
  · refine ⟨_, .cart3 (-x) (-y) (-z), .cart3 (x - x') (y - y') (z - z'), .cart3 (x' - x) (y' - y) (z' - z), norm3 x y z,
      A.fl_nonneg (Real.sqrt_nonneg _), ?_, rfl, ?_, ?_, ?_, ?_⟩
    · intro v hv h
      simp only [cartVals, List.mem_cons, List.not_mem_nil, or_false] at hv
      rcases hv with rfl | rfl | rfl
      · exact le_norm h (le_sum_left (x * x) _ (sum2_nonneg y z))
      · exact le_norm h ((le_sum_left (y * y) _ (mul_self_fl z)).trans (le_sum_right _ _ (mul_self_fl x)))
      · exact le_norm h ((le_sum_right _ (z * z) (mul_self_fl y)).trans (le_sum_right _ _ (mul_self_fl x)))
    · rw [norm3, negF_mul_self, negF_mul_self, negF_mul_self]
    · exact bin3 _ _ _ _ _ _ _
    · exact bin3 _ _ _ _ _ _ _
    · rw [norm3, norm3, sw x, sw y, sw z]

/-! ### equality and identity conversions -/

/-- **C73.** Converting a position to its own class returns it unchanged, and a position equals itself (classes other than `TwoSpherePos`, for which there is
no conversion). -/
theorem C73_self (p : Pos (Flt A)) (h : p.kind ≠ .twoSphere) : representAs {} p p.kind = .ok p ∧ eqPos p p = .ok true := by
  have e := representF_self p h
  refine ⟨e, ?_⟩
  unfold eqPos
  rw [e, ok_bind]
  have hd : ∀ r : Dist (Flt A), r.eqv r = .ok true := by
    intro r; cases r <;> simp only [Dist.eqv, beqF_refl]
  cases p <;> simp only [eqSame, beqF_refl, hd, ok_bind] <;> rfl

/-- **C73.** Equality of two positions of one class is symmetric. -/
theorem C73_eq_comm (p q : Pos (Flt A)) (hk : p.kind = q.kind) (h : p.kind ≠ .twoSphere) : eqPos p q = eqPos q p := by
  have e1 : representAs {} q p.kind = .ok q := by rw [hk]; exact representF_self q (hk ▸ h)
  have e2 : representAs {} p q.kind = .ok p := by rw [← hk]; exact representF_self p h
  unfold eqPos
  rw [e1, e2, ok_bind, ok_bind]
  have hd : ∀ r r' : Dist (Flt A), r.eqv r' = r'.eqv r := by
    intro r r'; cases r <;> cases r' <;> simp only [Dist.eqv] <;> rw [beqF_comm]
  cases p <;> cases q <;> try cases hk
  case cart1.cart1 x x' => simp only [eqSame]; rw [beqF_comm x]
  case radial.radial r r' => exact hd _ _
  case cart2.cart2 x y x' y' => simp only [eqSame]; rw [beqF_comm x, beqF_comm y]
  case polar.polar r a r' a' => simp only [eqSame]; rw [hd r, beqF_comm a]
  case twoSphere.twoSphere => exact absurd rfl h
  case cart3.cart3 x y z x' y' z' => simp only [eqSame]; rw [beqF_comm x, beqF_comm y, beqF_comm z]
  case cyl.cyl x y z x' y' z' => simp only [eqSame]; rw [beqF_comm x, beqF_comm y, beqF_comm z]
  case sph.sph r a b r' a' b' => simp only [eqSame]; rw [hd r, beqF_comm a, beqF_comm b]
  case lonlat.lonlat a b r a' b' r' => simp only [eqSame]; rw [hd r, beqF_comm a, beqF_comm b]
  case math.math r a b r' a' b' => simp only [eqSame]; rw [hd r, beqF_comm a, beqF_comm b]
  case prolate.prolate a b c d a' b' c' d' => simp only [eqSame]; rw [beqF_comm a, beqF_comm b, beqF_comm c, beqF_comm d]

/-! ### exact conversions -/

/-- **C73.** The two conventions for spherical coordinates convert into each other without rounding. -/
theorem C73_math_exact (r : Dist (Flt A)) (θ φ : Flt A) (h : RangesF (.sph r θ φ)) :
    representAs {} (.sph r θ φ) .math = .ok (.math r φ θ) ∧ representAs {} (.math r φ θ) .sph = .ok (.sph r θ φ) := by
  obtain ⟨h0, h1, h2⟩ := h
  have c1 := checkNonNeg_okF h0
  have c2 : checkRange θ (nat 0) pi = .ok () := checkRange_okF (by rw [val_zero]; exact h1) (by rw [val_pi]; exact h2)
  constructor
  · show represent (199 + 1) _ _ _ = _
    rw [represent]
    unfold sphToMath mkMath
    rw [c1, c2]; rfl
  · show represent (199 + 1) _ _ _ = _
    rw [represent]
    unfold mathToSph mkSph
    rw [c1, c2]; rfl

/-- **C73.** Cartesian positions are embedded and projected without rounding. -/
theorem C73_embed_exact (kw : Kw (Flt A)) (x y z : Flt A) :
    representAs { kw with z := some z } (.cart2 x y) .cart3 = .ok (.cart3 x y z) ∧
      representAs kw (.cart3 x y z) .cart2 = .ok (.cart2 x y) ∧
      representAs kw (.cart3 x y z) .cart1 = .ok (.cart1 x) ∧ representAs kw (.cart2 x y) .cart1 = .ok (.cart1 x) ∧
      representAs { kw with y := some y, z := some z } (.cart1 x) .cart3 = .ok (.cart3 x y z) := by
  refine ⟨?_, ?_, ?_, ?_, ?_⟩ <;> (show represent (199 + 1) _ _ _ = _; rw [represent]; rfl)

/-- **C73.** From an inclination to a latitude and back: the round trip is exact where `90 deg - theta` is representable (as it is for inclinations from 45 to 180 deg, by
Sterbenz's lemma); where it rounds to 90 deg, near the north pole, the position comes back on the pole itself. The radius and the azimuth come back unchanged. -/
theorem C73_lonlat_round_trip (r : Dist (Flt A)) (θ φ : Flt A) (h : RangesF (.sph r θ φ)) :
    ∃ lat θ', representAs {} (.sph r θ φ) .lonlat = .ok (.lonlat φ lat r) ∧ representAs {} (.lonlat φ lat r) .sph = .ok (.sph r θ' φ) ∧
      (A.fl (A.piF / 2 - θ.val) = A.piF / 2 - θ.val → θ' = θ) ∧ (A.fl (A.piF / 2 - θ.val) = A.piF / 2 → θ'.val = 0) := by
  obtain ⟨h0, h1, h2⟩ := h
  obtain ⟨hp, e⟩ := half_okF (A := A)
  have hv := val_half e
  have l1 : -(A.piF / 2) ≤ A.fl (A.piF / 2 - θ.val) := A.le_fl' (by linarith) fl_neg_half
  have l2 : A.fl (A.piF / 2 - θ.val) ≤ A.piF / 2 := A.fl_le' (by linarith) A.fl_half
  have lv : (hp - θ).val = A.fl (A.piF / 2 - θ.val) := by show A.fl (hp.val - θ.val) = _; rw [hv]
  have tv : (hp - (hp - θ)).val = A.fl (A.piF / 2 - A.fl (A.piF / 2 - θ.val)) := by
    show A.fl (hp.val - (hp - θ).val) = _; rw [hv, lv]
  have c1 := checkNonNeg_okF h0
  refine ⟨hp - θ, hp - (hp - θ), ?_, ?_, fun hx => Flt.ext ?_, fun hx => ?_⟩
  · show represent (199 + 1) _ _ _ = _
    rw [represent]
    unfold sphToLonLat mkLonLat
    rw [e, ok_bind, ok_bind, checkRange_okF (by rw [val_neg, hv, lv]; exact l1) (by rw [hv, lv]; exact l2), c1]
    rfl
  · show represent (199 + 1) _ _ _ = _
    rw [represent]
    unfold lonlatToSph mkSph
    rw [e, ok_bind, c1, checkRange_okF (by rw [val_zero, tv]; exact A.fl_nonneg (by linarith))
      (by rw [val_pi, tv]; exact A.fl_le' (by linarith) A.fl_pi)]
    rfl
  · rw [tv, hx, sub_sub_cancel, θ.rep]
  · rw [tv, hx, sub_self, A.fl_zero]

/-! ### what rounding does break -/

namespace FltExample

theorem val_add (a b : Flt down) : (a + b).val = fl (a.val + b.val) := rfl
theorem val_sub (a b : Flt down) : (a - b).val = fl (a.val - b.val) := rfl

/-- four -/
noncomputable def four : Flt down := ⟨4, fl_four'⟩

theorem fl_absorb : fl (4 + 1 / 8) = 4 := by
  rw [fl_pos (by norm_num)]
  unfold g
  rw [if_neg (by norm_num), show ⌊2 * ((4 : ℝ) + 1 / 8) + 1 / 2⌋ = 8 by rw [Int.floor_eq_iff]; norm_num]
  norm_num

theorem absorb : four + eighth = four := Flt.ext (by rw [val_add]; exact fl_absorb)

end FltExample

open FltExample in
/-- **C73, exception.** Subtraction does not undo addition and addition is not associative, for Cartesian positions in an arithmetic that satisfies all
assumptions. -/
theorem C73_not_exact : ∃ (A : FltArith) (p q : Pos (Flt A)), IsCart p ∧ p.kind = q.kind ∧
    (∃ s r, addPos q p = .ok s ∧ subPos s q = .ok r ∧ r ≠ p) ∧
    ∃ nq s a b, negPos q = .ok nq ∧ addPos p q = .ok s ∧ addPos s nq = .ok a ∧ addPos q nq = .ok b ∧ addPos p b ≠ .ok a := by
  have ne : (nat 0 : Flt down) ≠ eighth := fun e => by
    have := congrArg Flt.val e
    rw [val_zero] at this
    norm_num [eighth] at this
  have e1 : four + -four = (nat 0 : Flt down) := by rw [← subF_eq, subF_self]
  refine ⟨down, .cart1 eighth, .cart1 four, .inl rfl, rfl, ⟨.cart1 four, .cart1 (nat 0), ?_, ?_, fun e => ne (Pos.cart1.inj e)⟩,
    .cart1 (-four), .cart1 four, .cart1 (nat 0), .cart1 (nat 0), rfl, ?_, ?_, ?_, ?_⟩
  · unfold addPos; rw [bin1]; simp only [absorb]
  · unfold subPos; rw [bin1]; simp only [subF_self]
  · unfold addPos; rw [bin1]; simp only [addF_comm eighth, absorb]
  · unfold addPos; rw [bin1]; simp only [e1]
  · unfold addPos; rw [bin1]; simp only [e1]
  · unfold addPos; rw [bin1]; simp only [addF_zero]
    exact fun e => ne (Pos.cart1.inj (Except.ok.inj e)).symm

/-! ### the hypotheses are met -/

namespace FltExample

/-- two Cartesian positions: `C73_add_comm`, `C73_neg_sub`, `C73_scale`, `C73_norm`, `C73_eq_comm`, `C73_self` -/
example : IsCart (Pos.cart3 two four eighth) ∧ (Pos.cart3 two four eighth).kind = (Pos.cart3 four two two).kind ∧
    (Pos.cart3 two four eighth).kind ≠ .twoSphere ∧ Pos.cart3 two four eighth ≠ .cart3 four two two := by
  refine ⟨.inr (.inr rfl), rfl, (fun e => by cases e), fun e => ?_⟩
  have := congrArg Flt.val (Pos.cart3.inj e).1
  norm_num [two, four] at this

/-- two cylindrical positions are added, in either order (`C73_add_comm`) -/
example : ∃ s, addPos (Pos.cyl two two four) (.cyl four eighth two) = .ok s ∧ addPos (Pos.cyl four eighth two) (.cyl two two four) = .ok s := by
  have c : ∀ a b c : Flt down, 0 ≤ a.val → ∃ q, representAs {} (.cyl a b c) .cart3 = .ok q ∧ q.kind = .cart3 ∧ RangesF q := fun a b c h =>
    C72_returns {} (.cyl a b c) .cart3 h (fun _ e => by cases e) trivial rfl fun e => by cases e
  obtain ⟨p, hp, kp, -⟩ := c two two four (by norm_num [two])
  obtain ⟨q, hq, kq, -⟩ := c four eighth two (by norm_num [four])
  cases p <;> try cases kp
  cases q <;> try cases kq
  rename_i x y z x' y' z'
  have hr : RangesF (Pos.cart3 (x + x') (y + y') (z + z')) := trivial
  obtain ⟨s, hs, -⟩ := C72_returns {} (.cart3 (x + x') (y + y') (z + z')) .cyl hr (fun _ e => by cases e) trivial rfl fun e => by cases e
  have h : addPos (Pos.cyl two two four) (.cyl four eighth two) = .ok s := by
    show (do
      let a ← representAs {} (Pos.cyl two two four) .cart3
      let b ← representAs {} (Pos.cyl four eighth two) .cart3
      representAs {} (← binCart (· + ·) a b) .cyl) = _
    rw [hp, hq, ok_bind, ok_bind]
    have : binCart (· + ·) (Pos.cart3 x y z) (.cart3 x' y' z') = .ok (.cart3 (x + x') (y + y') (z + z')) := bin3 (· + ·) x y z x' y' z'
    rw [this]
    exact hs
  exact ⟨s, h, (C73_add_comm (Pos.cyl two two four) (.cyl four eighth two) s rfl).mp h⟩

/-- angles in hours: 180 deg is 12 -/
noncomputable def hours : FltArith :=
  { down with
    piF := 12
    pi_pos := by norm_num
    fl_pi := by have := fl_half (n := 24) (by decide); norm_num at this ⊢; exact this
    fl_half := by have := fl_half (n := 12) (by decide); norm_num at this ⊢; exact this
    fl_two := by have := fl_half (n := 48) (by decide); norm_num at this ⊢; exact this
    sinF := fun x => Real.sin (Real.pi * x / 12)
    cosF := fun x => Real.cos (Real.pi * x / 12)
    acosF := fun c => 12 * Real.arccos c / Real.pi
    acos_range := fun c _ _ => ⟨by have := Real.arccos_nonneg c; positivity, by
      rw [div_le_iff₀ Real.pi_pos]; linarith [Real.arccos_le_pi c]⟩ }

/-- `C73_lonlat_round_trip`, both cases: an inclination of an eighth of an hour is lost, one of six hours is not -/
example : hours.fl (hours.piF / 2 - 1 / 8) = hours.piF / 2 ∧ hours.fl (hours.piF / 2 - 6) = hours.piF / 2 - 6 := by
  constructor
  · show fl (12 / 2 - 1 / 8) = 12 / 2
    rw [fl_pos (by norm_num)]
    unfold g
    rw [if_neg (by norm_num), show ⌊2 * ((12 : ℝ) / 2 - 1 / 8) + 1 / 2⌋ = 12 by rw [Int.floor_eq_iff]; norm_num]
    norm_num
  · show fl (12 / 2 - 6) = 12 / 2 - 6
    norm_num
    exact down.fl_zero

end FltExample

end Verif
