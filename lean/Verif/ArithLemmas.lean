import Verif.Arith
import Verif.CrossDim

/-! # Helper lemmas for arithmetic -/

namespace Verif

open Real Spec

theorem toCart_total_aux (n : ℕ) (p : Pos ℝ) (hv : Valid p) (hs : p.kind ≠ .twoSphere) :
    ∃ c, represent (n + 4) {} p p.kind.cartesian = .ok c := by
  cases p with
  | twoSphere t f => exact absurd rfl hs
  | cart1 x => exact ⟨_, rfl⟩
  | radial r => exact ⟨.cart1 (distOf r), by
      show (r.distance >>= fun a => mkCart1 a) = _
      rw [distance_ok hv]; rfl⟩
  | cart2 x y => exact ⟨_, rfl⟩
  | polar r f => exact ⟨_, polarToCart2_eq hv f⟩
  | cart3 x y z => exact ⟨_, rfl⟩
  | cyl a b c => exact ⟨_, rfl⟩
  | sph r a b => exact ⟨_, sphToCart3_eq hv.1 a b⟩
  | lonlat a b r =>
    show ∃ c, (lonlatToSph a b r >>= fun q => represent (n + 3) {} q .cart3) = .ok c
    rw [lonlatToSph_eq hv.1 a hv.2.1 hv.2.2]
    exact ⟨_, sphToCart3_eq hv.1 _ _⟩
  | math r a b => exact ⟨_, mathToCart3_eq hv.1 a b⟩
  | prolate a b c d =>
    show ∃ e, (prolateToCyl a b c d >>= fun q => represent (n + 3) {} q .cart3) = .ok e
    rw [prolateToCyl_eq hv.1 hv.2.1 hv.2.2]
    exact ⟨_, rfl⟩

theorem dim_cartesian (k : Kind) : k.cartesian.dim = k.dim := by cases k <;> rfl
theorem cartesian_of_dim {k k' : Kind} (h : k.dim = k'.dim) : k.cartesian = k'.cartesian := by
  cases k <;> cases k' <;> first | rfl | cases h

/-- conversion to the Cartesian class of the dimension always returns -/
theorem toCart_total (p : Pos ℝ) (hv : Valid p) (hs : p.kind ≠ .twoSphere) :
    ∃ c, representAs {} p p.kind.cartesian = .ok c ∧ Good p c p.kind.cartesian := by
  obtain ⟨c, hc⟩ := toCart_total_aux 196 p hv hs
  exact ⟨c, hc, represent_good _ _ _ _ _ hv (dim_cartesian _).symm hc⟩

/-- a Cartesian kind -/
def Kind.isCart : Kind → Bool
  | .cart1 | .cart2 | .cart3 => true
  | _ => false

theorem isCart_cartesian (k : Kind) : k.cartesian.isCart = true := by cases k <;> rfl

theorem represent_self_cart (n : ℕ) (kw : Kw ℝ) (p : Pos ℝ) (h : p.kind.isCart = true) :
    represent (n + 1) kw p p.kind = .ok p := by
  cases p <;> first | (cases h; done) | rfl

theorem representAs_self_cart (kw : Kw ℝ) (p : Pos ℝ) (h : p.kind.isCart = true) :
    representAs kw p p.kind = .ok p := represent_self_cart 199 kw p h

theorem valid_of_cart (p : Pos ℝ) (h : p.kind.isCart = true) : Valid p := by
  cases p <;> first | trivial | cases h

/-- componentwise maps on Cartesian vectors -/
theorem mapCart_total (f : ℝ → ℝ) (p : Pos ℝ) (h : p.kind.isCart = true) (f0 : f 0 = 0) :
    ∃ q, mapCart f p = .ok q ∧ q.kind = p.kind ∧
      point q = ⟨f (point p).x, f (point p).y, f (point p).z⟩ := by
  cases p <;> first | (cases h; done) | exact ⟨_, rfl, rfl, by simp [point, f0]⟩

theorem mapCart2_total (f : ℝ → ℝ → ℝ) (p p' : Pos ℝ) (h : p.kind.isCart = true)
    (hk : p'.kind = p.kind) (f0 : f 0 0 = 0) :
    ∃ q, mapCart2 f p p' = .ok q ∧ q.kind = p.kind ∧
      point q = ⟨f (point p).x (point p').x, f (point p).y (point p').y,
        f (point p).z (point p').z⟩ := by
  cases p <;> first | (cases h; done) | skip
  all_goals (cases p' <;> first | (cases hk; done) | exact ⟨_, rfl, rfl, by simp [point, f0]⟩)

theorem mapCart_cart {f : ℝ → ℝ} {p q : Pos ℝ} (h : mapCart f p = .ok q) :
    p.kind.isCart = true := by
  cases p <;> first | rfl | cases h

theorem mapCart2_cart {f : ℝ → ℝ → ℝ} {p p' q : Pos ℝ} (h : mapCart2 f p p' = .ok q) :
    p.kind.isCart = true ∧ p'.kind = p.kind := by
  cases p <;> cases p' <;> first | exact ⟨rfl, rfl⟩ | cases h

/-- the Cartesian rule -/
theorem binCart_good {f : ℝ → ℝ → ℝ} {a b q : Pos ℝ} (f0 : f 0 0 = 0) (hb : Valid b)
    (hd : a.kind.dim = b.kind.dim) (h : binCart f a b = .ok q) :
    q.kind = a.kind ∧ a.kind.isCart = true ∧
      point q = ⟨f (point a).x (point b).x, f (point a).y (point b).y,
        f (point a).z (point b).z⟩ := by
  simp only [binCart, bind_ok_iff] at h
  obtain ⟨c, h1, h2⟩ := h
  have g := represent_good _ _ _ _ _ hb hd.symm h1
  obtain ⟨hc, hk⟩ := mapCart2_cart h2
  obtain ⟨q', h3, h4, h5⟩ := mapCart2_total f a c hc hk f0
  rw [h3] at h2; cases h2
  exact ⟨h4, hc, by rw [h5, g.point]⟩

theorem binCart_total {f : ℝ → ℝ → ℝ} {a b : Pos ℝ} (f0 : f 0 0 = 0) (hb : Valid b)
    (ha : a.kind.isCart = true) (hs : b.kind ≠ .twoSphere) (hd : a.kind.dim = b.kind.dim) :
    ∃ q, binCart f a b = .ok q := by
  obtain ⟨c, hc, g⟩ := toCart_total b hb hs
  have : b.kind.cartesian = a.kind := by
    rw [cartesian_of_dim hd.symm]; cases a <;> first | rfl | cases ha
  rw [this] at hc g
  obtain ⟨q, h3, _⟩ := mapCart2_total f a c ha g.kind f0
  exact ⟨q, by simp only [binCart, hc, ok_bind, h3]⟩

theorem binPos_cart {f : ℝ → ℝ → ℝ} {a b : Pos ℝ} (h : a.kind.isCart = true) :
    binPos f a b = binCart f a b := by
  cases a <;> first | (cases h; done) | rfl

theorem binPos_other {f : ℝ → ℝ → ℝ} {a b : Pos ℝ} (h : a.kind.isCart = false) :
    binPos f a b = (do
      let a' ← representAs {} a a.kind.cartesian
      let b' ← representAs {} b a.kind.cartesian
      representAs {} (← binCart f a' b') a.kind) := by
  cases a <;> first | (cases h; done) | rfl

theorem binPos_good {f : ℝ → ℝ → ℝ} {a b q : Pos ℝ} (f0 : f 0 0 = 0) (ha : Valid a) (hb : Valid b)
    (hd : a.kind.dim = b.kind.dim) (h : binPos f a b = .ok q) :
    q.kind = a.kind ∧ Valid q ∧
      point q = ⟨f (point a).x (point b).x, f (point a).y (point b).y,
        f (point a).z (point b).z⟩ := by
  cases hc : a.kind.isCart with
  | true =>
    rw [binPos_cart hc] at h
    obtain ⟨h1, _, h3⟩ := binCart_good f0 hb hd h
    exact ⟨h1, valid_of_cart _ (by rw [h1, hc]), h3⟩
  | false =>
    rw [binPos_other hc] at h
    simp only [bind_ok_iff] at h
    obtain ⟨a', h1, b', h2, c, h3, h4⟩ := h
    have g1 := represent_good _ _ _ _ _ ha (dim_cartesian _).symm h1
    have g2 := represent_good _ _ _ _ _ hb (by rw [dim_cartesian, hd]) h2
    obtain ⟨k3, c3, p3⟩ := binCart_good f0 g2.valid (by rw [g1.kind, g2.kind]) h3
    have g4 := represent_good _ _ _ _ _ (valid_of_cart _ (by rw [k3, c3]))
      (by rw [k3, g1.kind, dim_cartesian]) h4
    exact ⟨g4.kind, g4.valid, by rw [g4.point, p3, g1.point, g2.point]⟩

theorem binPos_total {f : ℝ → ℝ → ℝ} {a b : Pos ℝ} (f0 : f 0 0 = 0) (ha : Valid a) (hb : Valid b)
    (hd : a.kind.dim = b.kind.dim) (hsa : a.kind ≠ .twoSphere) (hsb : b.kind ≠ .twoSphere)
    (hp : a.kind ≠ .prolate)
    (h0 : a.kind.isCart = true ∨ (⟨f (point a).x (point b).x, f (point a).y (point b).y,
        f (point a).z (point b).z⟩ : V3) ≠ V3.zero)
    (hr : a.kind = .radial → 0 ≤ f (point a).x (point b).x) :
    ∃ q, binPos f a b = .ok q := by
  cases hc : a.kind.isCart with
  | true => rw [binPos_cart hc]; exact binCart_total f0 hb hc hsb hd
  | false =>
    rw [binPos_other hc]
    obtain ⟨a', h1, g1⟩ := toCart_total a ha hsa
    obtain ⟨b', h2, g2⟩ := toCart_total b hb hsb
    rw [← cartesian_of_dim hd] at h2 g2
    have ca : a'.kind.isCart = true := by rw [g1.kind]; exact isCart_cartesian _
    obtain ⟨c, h3⟩ := binCart_total (a := a') (b := b') f0 g2.valid ca
      (by rw [g2.kind]; cases a.kind <;> decide) (by rw [g1.kind, g2.kind])
    obtain ⟨k3, c3, p3⟩ := binCart_good f0 g2.valid (by rw [g1.kind, g2.kind]) h3
    rw [g1.point, g2.point] at p3
    obtain ⟨q, h4⟩ := represent_total (kw := {}) (p := c) (k := a.kind) 197
      ⟨valid_of_cart _ (by rw [k3, c3]), by rw [k3, g1.kind, dim_cartesian],
        (by intro e; rw [k3] at e; rw [e] at c3; cases c3),
        hsa, fun _ => by rw [p3]; exact h0.resolve_left (by rw [hc]; decide),
        fun e => by rw [p3]; exact hr e, fun e => absurd e hp⟩
    refine ⟨q, ?_⟩
    rw [h1, ok_bind, h2, ok_bind, h3, ok_bind]
    exact h4

/-- unary operations that go through the Cartesian form -/
noncomputable def viaCart (f : ℝ → ℝ) (p : Pos ℝ) : Res (Pos ℝ) := do
  representAs {} (← mapCart f (← toCartesian p)) p.kind

theorem viaCart_good {f : ℝ → ℝ} {p q : Pos ℝ} (f0 : f 0 = 0) (hv : Valid p)
    (h : viaCart f p = .ok q) :
    q.kind = p.kind ∧ Valid q ∧ (Canon p → Canon q) ∧
      point q = ⟨f (point p).x, f (point p).y, f (point p).z⟩ := by
  simp only [viaCart, toCartesian, bind_ok_iff] at h
  obtain ⟨c, h1, d, h2, h3⟩ := h
  have g1 := represent_good _ _ _ _ _ hv (dim_cartesian _).symm h1
  have hc := mapCart_cart h2
  obtain ⟨d', h4, h5, h6⟩ := mapCart_total f c hc f0
  rw [h4] at h2; obtain rfl := Except.ok.inj h2
  have hd : d'.kind.isCart = true := by rw [h5, hc]
  have g3 := represent_good _ _ _ _ _ (valid_of_cart _ hd)
    (by rw [h5, g1.kind, dim_cartesian]) h3
  refine ⟨g3.kind, g3.valid, fun _ => g3.canon ?_, by rw [g3.point, h6, g1.point]⟩
  cases d' <;> first | trivial | cases hd

theorem viaCart_total {f : ℝ → ℝ} {p : Pos ℝ} (f0 : f 0 = 0) (hv : Valid p)
    (hs : p.kind ≠ .twoSphere) (hp : p.kind ≠ .prolate)
    (h0 : (⟨f (point p).x, f (point p).y, f (point p).z⟩ : V3) ≠ V3.zero)
    (hr : p.kind = .radial → 0 ≤ f (point p).x) : ∃ q, viaCart f p = .ok q := by
  obtain ⟨c, h1, g1⟩ := toCart_total p hv hs
  have hc : c.kind.isCart = true := by rw [g1.kind]; exact isCart_cartesian _
  obtain ⟨d, h4, h5, h6⟩ := mapCart_total f c hc f0
  rw [g1.point] at h6
  have hd : d.kind.isCart = true := by rw [h5, hc]
  obtain ⟨q, h7⟩ := represent_total (kw := {}) (p := d) (k := p.kind) 197
      ⟨valid_of_cart _ hd, by rw [h5, g1.kind, dim_cartesian],
        (by intro e; rw [e] at hd; cases hd),
        hs, fun _ => by rw [h6]; exact h0, fun e => by rw [h6]; exact hr e, fun e => absurd e hp⟩
  refine ⟨q, ?_⟩
  rw [viaCart, toCartesian, h1, ok_bind, h4, ok_bind]
  exact h7

end Verif
