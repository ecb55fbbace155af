import Verif.Props.Poincare
import Verif.Props.FourVector
import Verif.Props.Exact
import Verif.Props.Astropy

/-!
# Exact statements about Spaces, Poincaré coordinates, four-vectors and astropy

Properties C40, C41, C42, C45, C47 of `/verif/properties.jsonl`.
-/

namespace Verif

open List Spec Props
open Real hiding sqrt sqrt_eq_zero

/-! ## C40: construction -/

theorem dictSet_lookup {V : Type} (d : List (String × V)) (k k' : String) (v : V) :
    (dictSet d k v).lookup k' = if k' = k then some v else d.lookup k' := by
  induction d with
  | nil =>
    by_cases h : k' = k
    · subst h; simp [dictSet]
    · have : (k' == k) = false := by simpa using h
      simp [dictSet, lookup_cons, this, h]
  | cons kv d ih =>
    obtain ⟨a, b⟩ := kv
    simp only [dictSet]
    by_cases ha : a = k
    · rw [if_pos ha]
      subst ha
      by_cases h : k' = a
      · subst h; simp
      · have : (k' == a) = false := by simpa using h
        simp [lookup_cons, this, h]
    · rw [if_neg ha]
      by_cases h : k' = a
      · subst h
        rw [if_neg ha]; simp
      · have : (k' == a) = false := by simpa using h
        simp only [lookup_cons, this, ih]

/-- the last entry under a key wins -/
theorem dictOf_lookup {V : Type} (pre post : List (String × V)) (k : String) (v : V)
    (h : k ∉ post.map Prod.fst) : (dictOf (pre ++ (k, v) :: post)).lookup k = some v := by
  unfold dictOf
  rw [foldl_append, foldl_cons]
  generalize pre.foldl (fun d kv => dictSet d kv.1 kv.2) [] = d
  have : ∀ (l : List (String × V)) (d : List (String × V)), k ∉ l.map Prod.fst →
      (l.foldl (fun d kv => dictSet d kv.1 kv.2) d).lookup k = d.lookup k := by
    intro l
    induction l with
    | nil => intro d _; rfl
    | cons kv l ih =>
      intro d h
      simp only [map_cons, mem_cons, not_or] at h
      rw [foldl_cons, ih _ h.2, dictSet_lookup, if_neg h.1]
  rw [this _ _ h, dictSet_lookup, if_pos rfl]

theorem forall₂_split {α β : Type} {R : α → β → Prop} {pre post : List α} {a : α} {l : List β}
    (h : Forall₂ R (pre ++ a :: post) l) : ∃ lpre b lpost, l = lpre ++ b :: lpost ∧
      Forall₂ R pre lpre ∧ R a b ∧ Forall₂ R post lpost := by
  induction pre generalizing l with
  | nil => cases h with | cons h1 h2 => exact ⟨[], _, _, rfl, .nil, h1, h2⟩
  | cons x pre ih =>
    cases h with
    | cons h1 h2 =>
      obtain ⟨lpre, b, lpost, rfl, k1, k2, k3⟩ := ih h2
      exact ⟨_ :: lpre, b, lpost, rfl, .cons h1 k1, k2, k3⟩

/-- **C40, construction exactly.** Keyword arguments have distinct names. The Space is constructed iff
every name is the name of a dimension and the shapes broadcast. Each vector is found under its
dimension unless a later argument has the same dimension, which then replaces it; no other vector is
found. (So two vectors of one dimension are not rejected.) -/
theorem C40_construct_exact {V : Type} (names : DimNames) (shape : V → Res (List ℕ))
    (raw : List (String × V)) (hn : (raw.map Prod.fst).Nodup) :
    ((∃ s, mkSpace names shape raw = .ok s) ↔
      (∀ kv ∈ raw, ∃ k, names.canon kv.1 = .ok k) ∧
      ∃ shapes t, Forall₂ (fun kv l => shape kv.2 = .ok l) raw shapes ∧ broadcastShapes shapes = .ok t) ∧
    ∀ s, mkSpace names shape raw = .ok s →
      (∀ pre k v post, raw = pre ++ (k, v) :: post →
        (∀ e ∈ post, names.canon e.1 ≠ names.canon k) →
        s.getDim names k = .ok v ∧ (names.canon k = .ok k → s.getStr k = .ok v)) ∧
      ∀ k v, s.getStr k = .ok v → ∃ k', (k', v) ∈ raw ∧ names.canon k' = .ok k := by
  refine ⟨⟨fun ⟨s, h⟩ => ?_, fun ⟨h1, shapes, t, h2, h3⟩ => ?_⟩, fun s h => ?_⟩
  · obtain ⟨keys, shapes, t, h1, h2, h3, _⟩ := (mkSpace_iff hn).mp h
    refine ⟨fun kv hkv => ?_, shapes, t, mapM_res_iff.mp h2, h3⟩
    have hf := mapM_res_iff.mp h1
    obtain ⟨i, hi, rfl⟩ := mem_iff_getElem.mp hkv
    exact ⟨_, (forall₂_iff_get.mp hf).2 i hi (hf.length_eq ▸ hi)⟩
  · choose! f hf using h1
    exact ⟨_, (mkSpace_iff hn).mpr ⟨raw.map f, shapes, t, mapM_res_of hf, mapM_res_iff.mpr h2, h3, rfl⟩⟩
  · obtain ⟨keys, shapes, t, h1, h2, h3, rfl⟩ := (mkSpace_iff hn).mp h
    have hf := mapM_res_iff.mp h1
    have hlen : keys.length = raw.length := hf.length_eq.symm
    constructor
    · intro pre k v post e hpost
      subst e
      obtain ⟨kpre, kk, kpost, rfl, f1, f2, f3⟩ : ∃ kpre kk kpost, keys = kpre ++ kk :: kpost ∧
          Forall₂ (fun (a : String × V) b => names.canon a.1 = .ok b) pre kpre ∧
          names.canon k = .ok kk ∧
          Forall₂ (fun (a : String × V) b => names.canon a.1 = .ok b) post kpost := by
        obtain ⟨kpre, kk, kpost, e, g1, g2, g3⟩ := forall₂_split hf
        exact ⟨kpre, kk, kpost, e, g1, g2, g3⟩
      have hz : (kpre ++ kk :: kpost).zip ((pre ++ (k, v) :: post).map Prod.snd) =
          kpre.zip (pre.map Prod.snd) ++ (kk, v) :: kpost.zip (post.map Prod.snd) := by
        rw [map_append, zip_append (by simp [f1.length_eq])]
        simp
      have hg : (⟨dictOf ((kpre ++ kk :: kpost).zip ((pre ++ (k, v) :: post).map Prod.snd))⟩ :
          Space V).getStr kk = .ok v := by
        refine getStr_iff.mpr ?_
        show (dictOf _).lookup kk = _
        rw [hz]
        refine dictOf_lookup _ _ _ _ fun hm => ?_
        rw [map_fst_zip (by simp [f3.length_eq])] at hm
        obtain ⟨i, hi, e⟩ := mem_iff_getElem.mp hm
        have hi' : i < post.length := f3.length_eq ▸ hi
        have := (forall₂_iff_get.mp f3).2 i hi' hi
        simp only [get_eq_getElem, e] at this
        exact hpost _ (getElem_mem hi') (this.trans f2.symm)
      refine ⟨?_, fun hk' => ?_⟩
      · unfold Space.getDim
        rw [f2, ok_bind]; exact hg
      · rw [hk'] at f2
        have e := Except.ok.inj f2
        subst e
        exact hg
    · intro k v hg
      have hm : (k, v) ∈ dictOf (keys.zip (raw.map Prod.snd)) := lookup_mem (getStr_iff.mp hg)
      have key : ∀ (l d : List (String × V)) (e : String × V),
          e ∈ l.foldl (fun d kv => dictSet d kv.1 kv.2) d → e ∈ d ∨ e ∈ l := by
        intro l
        induction l with
        | nil => intro d e h; exact .inl h
        | cons kv l ih =>
          intro d e h
          rcases ih _ _ h with h | h
          · have : e ∈ d ∨ e = kv := by
              clear * - h
              induction d with
              | nil => simp only [dictSet, mem_singleton] at h; exact .inr h
              | cons x d ihd =>
                obtain ⟨a, b⟩ := x
                simp only [dictSet] at h
                split at h
                · rename_i ha
                  subst ha
                  rcases mem_cons.mp h with h | h
                  · exact .inr h
                  · exact .inl (mem_cons_of_mem _ h)
                · rcases mem_cons.mp h with h | h
                  · exact .inl (by rw [h]; exact mem_cons_self ..)
                  · rcases ihd h with h | h
                    · exact .inl (mem_cons_of_mem _ h)
                    · exact .inr h
            rcases this with h | h
            · exact .inl h
            · exact .inr (by rw [h]; exact mem_cons_self ..)
          · exact .inr (mem_cons_of_mem _ h)
      rcases key _ _ _ hm with h | h
      · simp at h
      · obtain ⟨i, hi, e⟩ := mem_iff_getElem.mp h
        have hi1 : i < raw.length := by
          have := hi
          simp only [length_zip, length_map, hlen, min_self] at this
          exact this
        have hc := (forall₂_iff_get.mp hf).2 i hi1 (hlen ▸ hi1)
        simp only [getElem_zip, getElem_map, Prod.mk.injEq] at e
        simp only [get_eq_getElem] at hc
        refine ⟨raw[i].1, ?_, by rw [hc, e.1]⟩
        rw [← e.2]
        exact getElem_mem hi1

/-- the hypotheses are met: a position, a velocity and another vector of the same dimension -/
example : (([("length", 0), ("speed", 1), ("velocity", 2)] : List (String × ℕ)).map Prod.fst).Nodup ∧
    exampleNames.canon "speed" = exampleNames.canon "velocity" := ⟨by simp, rfl⟩

/-! ## C41 -/

/-- **C41, exactly.** A moving point off the z axis, given in any classes, comes back from Poincaré polar
coordinates, in cylindrical classes. It is the same point with the same velocity iff its angular
momentum about the z axis is positive, or is zero and the azimuth is zero. -/
theorem C41_round_trip_iff (names : DimNames) (hn : Standard names) (p : Pos ℝ) (v : Vel ℝ)
    (s : Space SVec) (hp : s.getStr "length" = .ok (.pos p)) (hv : s.getStr "speed" = .ok (.vel v))
    (hc : VelCase {} v .cyl p) (p' : Pos ℝ) (hp' : At {} v.kind (point p) p') :
    ∃ w s' q u, toPoincare s = .ok w ∧ ofPoincare names w = .ok s' ∧
      s'.data = [("length", .pos q), ("speed", .vel u)] ∧ q.kind = .cyl ∧ u.kind = .cyl ∧
      (point q = point p ∧ cartVel q u = cartVel p' v ↔
        0 < angularZ (point p) (cartVel p' v) ∨
        angularZ (point p) (cartVel p' v) = 0 ∧ (point p).y = 0 ∧ 0 ≤ (point p).x) := by
  obtain ⟨ρ, φ, z, a, b, c, h1, hρ, h2, h3, h4, h5⟩ := cyl_form hc
  obtain ⟨w, k1, k2⟩ := poincare_core hn hp hv h1 hρ h2
  have hL := angularZ_cyl ρ φ z a b c
  rw [h3, h5 p' hp'] at hL
  refine ⟨w, _, _, _, k1, k2, rfl, rfl, rfl, ?_⟩
  rw [hL, ← h5 p' hp', ← h3]
  have hρ2 : 0 < ρ ^ 2 := by positivity
  rcases lt_trichotomy b 0 with hb | hb | hb
  · rw [if_neg hb.ne, abs_of_neg hb]
    refine iff_of_false (fun ⟨_, e⟩ => ?_) (fun h => ?_)
    · have e1 := angularZ_cyl ρ (wrapR φ) z a (-b) c
      have e2 : point (.cyl ρ (wrapR φ) z) = point (.cyl ρ φ z) := by simp [point, cylPoint]
      rw [e, e2, angularZ_cyl] at e1
      have : b = -b := mul_left_cancel₀ hρ2.ne' e1
      linarith
    · rcases h with h | ⟨h, _⟩
      · exact absurd h (not_lt.mpr (mul_nonpos_of_nonneg_of_nonpos hρ2.le hb.le))
      · exact hb.ne ((mul_eq_zero.mp h).resolve_left hρ2.ne')
  · subst hb
    rw [if_pos rfl]
    simp only [mul_zero, lt_self_iff_false, true_and, false_or, abs_zero, point, cylPoint, cartVel,
      V3.mk.injEq, cos_zero, sin_zero, mul_one, and_true, sub_zero, add_zero]
    constructor
    · rintro ⟨⟨e1, e2⟩, _⟩
      exact ⟨e2.symm, by rw [← e1]; exact hρ.le⟩
    · rintro ⟨e1, e2⟩
      have hs : sin φ = 0 := (mul_eq_zero.mp e1).resolve_left hρ.ne'
      have hc0 : 0 ≤ cos φ := by
        by_contra h
        exact absurd e2 (not_le.mpr (mul_neg_of_pos_of_neg hρ (not_le.mp h)))
      have hc1 : cos φ = 1 := by
        have := Real.sin_sq_add_cos_sq φ
        rw [hs] at this
        nlinarith
      rw [hs, hc1]; simp
  · rw [if_neg hb.ne', abs_of_pos hb]
    exact iff_of_true ⟨by simp [point, cylPoint], by simp [cartVel]⟩ (Or.inl (mul_pos hρ2 hb))

/-! ## C42 -/

/-- **C42, when.** Sums, differences and negatives are returned exactly when the spatial part can be
expressed in the class of the left one. -/
theorem C42_arithmetic_returns_iff (x y : Four) (hx : Valid3 x.q) (hy : Valid3 y.q) :
    ((∃ z, x.add y = .ok z) ↔ x.q.kind ≠ .prolate ∧
      (x.q.kind = .sph ∨ x.q.kind = .lonlat ∨ x.q.kind = .math →
        (point x.q).add (point y.q) ≠ V3.zero)) ∧
    ((∃ z, x.sub y = .ok z) ↔ x.q.kind ≠ .prolate ∧
      (x.q.kind = .sph ∨ x.q.kind = .lonlat ∨ x.q.kind = .math →
        (point x.q).sub (point y.q) ≠ V3.zero)) ∧
    ((∃ z, x.neg = .ok z) ↔ x.q.kind ≠ .prolate ∧
      (x.q.kind = .sph ∨ x.q.kind = .lonlat ∨ x.q.kind = .math → point x.q ≠ V3.zero)) := by
  have hd : x.q.kind.dim = y.q.kind.dim := by rw [hx.2, hy.2]
  have ts : ∀ {q : Pos ℝ}, Valid3 q → q.kind ≠ .twoSphere ∧ q.kind ≠ .radial := by
    intro q hq
    have := hq.2
    exact ⟨(fun e => by rw [e] at this; cases this), (fun e => by rw [e] at this; cases this)⟩
  obtain ⟨a1, a2⟩ := C15_returns_iff x.q y.q hx.1 hy.1 hd
  have a3 := C16_returns_iff x.q hx.1
  refine ⟨?_, ?_, ?_⟩
  · rw [show (∃ z, x.add y = .ok z) ↔ ∃ q, addPos x.q y.q = .ok q from
      ⟨fun ⟨z, h⟩ => (by
        obtain ⟨q, h1, _⟩ := (bind_ok_iff _ _ _).mp h
        exact ⟨q, h1⟩),
       fun ⟨q, h⟩ => ⟨_, by simp only [Four.add, h, ok_bind]; rfl⟩⟩, a1]
    exact ⟨fun h => ⟨h.2.2.1, h.2.2.2.1⟩,
      fun h => ⟨(ts hx).1, (ts hy).1, h.1, h.2, fun e => absurd e (ts hx).2⟩⟩
  · rw [show (∃ z, x.sub y = .ok z) ↔ ∃ q, subPos x.q y.q = .ok q from
      ⟨fun ⟨z, h⟩ => (by
        obtain ⟨q, h1, _⟩ := (bind_ok_iff _ _ _).mp h
        exact ⟨q, h1⟩),
       fun ⟨q, h⟩ => ⟨_, by simp only [Four.sub, h, ok_bind]; rfl⟩⟩, a2]
    exact ⟨fun h => ⟨h.2.2.1, h.2.2.2.1⟩,
      fun h => ⟨(ts hx).1, (ts hy).1, h.1, h.2, fun e => absurd e (ts hx).2⟩⟩
  · rw [show (∃ z, x.neg = .ok z) ↔ ∃ q, negPos x.q = .ok q from
      ⟨fun ⟨z, h⟩ => (by
        obtain ⟨q, h1, _⟩ := (bind_ok_iff _ _ _).mp h
        exact ⟨q, h1⟩),
       fun ⟨q, h⟩ => ⟨_, by simp only [Four.neg, h, ok_bind]; rfl⟩⟩, a3]
    exact ⟨fun h => ⟨h.2.1, h.2.2.1⟩, fun h => ⟨(ts hx).1, h.1, h.2, fun e => absurd e (ts hx).2⟩⟩

/-- **C42, the squared norm exactly.** It is `(c t)² - |q|²`, except exactly for a `LonLatSphericalPos` or
`MathSphericalPos` whose distance is stored as a parallax or distance modulus, where it raises. -/
theorem C42_norm2_iff (x : Four) (hx : Valid3 x.q) :
    (∀ n, x.norm2 = .ok n → n = (x.c * x.t) ^ 2 - (V3.norm (point x.q)) ^ 2) ∧
    ((∃ n, x.norm2 = .ok n) ↔ (x.q.kind = .lonlat ∨ x.q.kind = .math → PlainDist x.q)) := by
  have key : (∃ n, x.norm2 = .ok n) → (x.q.kind = .lonlat ∨ x.q.kind = .math → PlainDist x.q) := by
    rintro ⟨n, h⟩ hk
    obtain ⟨t, q, c⟩ := x
    cases q <;> first | (rcases hk with hk | hk <;> cases hk; done) | skip
    all_goals
      rename Dist ℝ => r
      cases r <;> first | exact ⟨_, rfl⟩ | cases h
  refine ⟨fun n h => ?_, key, fun h => ⟨_, C42_norm2 x hx h⟩⟩
  rw [C42_norm2 x hx (key ⟨n, h⟩)] at h
  exact (Except.ok.inj h).symm

/-- **C42, to a Quantity and back, for every speed of light.** The point comes back in Cartesian form, the
speed of light is the default one, and the time is multiplied by the ratio of the two; so the time is
right iff the speed of light is the default one (or the time is zero). -/
theorem C42_to_from_quantity_exact (v : Four) (hv : Valid3 v.q) :
    ∃ l w, v.toQuantity = .ok l ∧ Four.from_ l = .ok w ∧ w.q.kind = .cart3 ∧ point w.q = point v.q ∧
      w.c = lightSpeed ∧ w.t = v.c * v.t / lightSpeed ∧ (w.t = v.t ↔ v.c = lightSpeed ∨ v.t = 0) := by
  have h0 := lightSpeed_pos.ne'
  obtain ⟨l, w, h1, h2, h3, _, h5, _⟩ := C42_to_from_quantity { v with c := lightSpeed } hv rfl
  have hs : v.q.kind ≠ .twoSphere := fun e => by have := hv.2; rw [e] at this; cases this
  have hk : v.q.kind.cartesian = .cart3 := by rw [cartesian_of_dim (k' := .cart3) hv.2]; rfl
  obtain ⟨c, e1, g⟩ := toCart_total v.q hv.1 hs
  have gk := g.kind
  have gp := g.point
  rw [hk] at gk
  cases c <;> first | (cases gk; done) | skip
  rename_i x y z
  refine ⟨[v.c * v.t, x, y, z], ⟨v.c * v.t / lightSpeed, .cart3 x y z, lightSpeed⟩, ?_, ?_, rfl, gp,
    rfl, rfl, ?_⟩
  · simp only [Four.toQuantity, Verif.toQuantity, toCartesian, e1, ok_bind, Pos.cartComponents]
    rfl
  · simp only [Four.from_, div_real_ok h0, ok_bind, mkCart3]
    rfl
  · show v.c * v.t / lightSpeed = v.t ↔ _
    rw [div_eq_iff h0]
    constructor
    · intro h
      by_cases ht : v.t = 0
      · exact Or.inr ht
      · exact Or.inl (mul_right_cancel₀ ht (h.trans (mul_comm _ _)))
    · rintro (h | h)
      · rw [h]; ring
      · rw [h]; ring

/-! ## C45 -/

/-- **C45, exactly.** A valid position comes back unchanged from astropy iff its class has an astropy
counterpart, its azimuth is in range and its radial field is a `Distance`. -/
theorem C45_round_trip_iff (conv : ApyRep → ApyKind → Res ApyRep) (ha : AstropyOk conv) (p : Pos ℝ)
    (hv : Valid p) :
    (∃ rep, posToApy p = .ok rep ∧ posFromApy conv p.kind rep = .ok p) ↔
      (Kind.apy p.kind).isSome ∧ Canon p ∧ PlainDist p := by
  constructor
  · rintro ⟨rep, h1, h2⟩
    cases hk : Kind.apy p.kind with
    | none => rw [C45_unsupported p hk] at h1; cases h1
    | some k =>
      have hd : PlainDist p := by
        by_contra hd
        have hk' : p.kind = .sph ∨ p.kind = .lonlat := by
          cases p <;> first
            | (cases hk; done)
            | exact Or.inl rfl
            | exact Or.inr rfl
            | exact absurd trivial hd
        obtain ⟨rep', e1, e2⟩ := C45_parallax_raises conv ha p hv hk' hd
        obtain rfl := Except.ok.inj (e1.symm.trans h1)
        rw [e2] at h2; cases h2
      obtain ⟨rep', q, e1, e2, _, _, _, e3⟩ := C45_angle_reduced conv ha p hv hd k hk
      obtain rfl := Except.ok.inj (e1.symm.trans h1)
      obtain rfl := Except.ok.inj (e2.symm.trans h2)
      exact ⟨rfl, e3.mp rfl, hd⟩
  · rintro ⟨h1, h2, h3⟩
    obtain ⟨k, hk⟩ := Option.isSome_iff_exists.mp h1
    obtain ⟨rep, e1, _, e2⟩ := C45_round_trip conv ha p hv h2 h3 k hk
    exact ⟨rep, e1, e2⟩

/-! ## C47 -/

/-- The rates of a velocity that are reversed together with the basis vectors vanish: all radial and
azimuthal rates. -/
def MirrorRates : Vel ℝ → Prop
  | .polar a b => a = 0 ∧ b = 0
  | .cyl a b _ => a = 0 ∧ b = 0
  | .sph a _ c => a = 0 ∧ c = 0
  | .math a b _ => a = 0 ∧ b = 0
  | .lonlat a _ c => a = 0 ∧ c = 0
  | .lonCosLat a _ c => a = 0 ∧ c = 0
  | _ => True

/-- a point in the plane in polar coordinates, and its opposite -/
theorem polar_opposite {r r' c s c' s' : ℝ} (hr : 0 ≤ r) (hr' : 0 ≤ r') (h : c ^ 2 + s ^ 2 = 1)
    (h' : c' ^ 2 + s' ^ 2 = 1) (e1 : r' * c' = -(r * c)) (e2 : r' * s' = -(r * s)) (h0 : r ≠ 0) :
    r' = r ∧ c' = -c ∧ s' = -s := by
  have e : r' = r := by
    have : r' ^ 2 = r ^ 2 := by
      linear_combination (r' * c' - r * c) * e1 + (r' * s' - r * s) * e2 - r' ^ 2 * h' + r ^ 2 * h
    exact (sq_eq_sq₀ hr' hr).mp this
  subst e
  exact ⟨rfl, mul_left_cancel₀ h0 (by linarith), mul_left_cancel₀ h0 (by linarith)⟩

/-- a point in space in spherical coordinates, and its opposite -/
theorem sph_opposite {r r' ct st cp sp ct' st' cp' sp' : ℝ} (hr : 0 ≤ r) (hr' : 0 ≤ r')
    (ht : 0 ≤ st) (ht' : 0 ≤ st') (h1 : ct ^ 2 + st ^ 2 = 1) (h2 : cp ^ 2 + sp ^ 2 = 1)
    (h1' : ct' ^ 2 + st' ^ 2 = 1) (h2' : cp' ^ 2 + sp' ^ 2 = 1)
    (e1 : r' * st' * cp' = -(r * st * cp)) (e2 : r' * st' * sp' = -(r * st * sp))
    (e3 : r' * ct' = -(r * ct)) (h0 : r * st ≠ 0) :
    r' = r ∧ ct' = -ct ∧ st' = st ∧ cp' = -cp ∧ sp' = -sp := by
  obtain ⟨a, b, c⟩ := polar_opposite (mul_nonneg hr ht) (mul_nonneg hr' ht') h2 h2' e1 e2 h0
  have hr0 : r ≠ 0 := fun h => h0 (by rw [h]; ring)
  have e : r' = r := by
    have : r' ^ 2 = r ^ 2 := by
      linear_combination (r' * ct' - r * ct) * e3 + (r' * st' + r * st) * a - r' ^ 2 * h1' + r ^ 2 * h1
    exact (sq_eq_sq₀ hr' hr).mp this
  subst e
  exact ⟨rfl, mul_left_cancel₀ hr0 (by linarith), mul_left_cancel₀ hr0 a, b, c⟩

theorem negVel_opposite (v : Vel ℝ) (p q : Pos ℝ) (hp : At {} v.kind (point p) p)
    (hq : At {} v.kind (point q) q) (hpq : point q = (point p).neg)
    (hr : Regular v.kind.integral (point p)) (hs : v.kind ≠ .twoSphere) :
    cartVel q (negVel v) = (cartVel p v).neg ↔ MirrorRates v := by
  obtain ⟨kp, vp, jp, fp⟩ := hp
  obtain ⟨kq, vq, jq, fq⟩ := hq
  clear jp jq
  have sc : ∀ x : ℝ, cos x ^ 2 + sin x ^ 2 = 1 := fun x => by
    rw [add_comm]; exact Real.sin_sq_add_cos_sq x
  have two : ∀ {c s x y : ℝ}, c ^ 2 + s ^ 2 = 1 → x * c - y * s = 0 → x * s + y * c = 0 → x = 0 ∧ y = 0 := by
    intro c s x y h h1 h2
    exact ⟨by linear_combination c * h1 + s * h2 - x * h, by linear_combination c * h2 - s * h1 - y * h⟩
  cases v with
  | cart1 a | cart2 a b | cart3 a b c | radial a =>
    cases p <;> first
      | (cases kp; done)
      | (cases q <;> first
          | (cases kq; done)
          | exact iff_of_true (by simp [negVel, Vel.map, cartVel, V3.neg]) trivial)
  | twoSphere => exact absurd rfl hs
  | prolate a b c =>
    cases p <;> first | (cases kp; done) | skip
    cases fp rfl
  | polar a b =>
    cases p <;> first | (cases kp; done) | skip
    rename_i r φ
    cases q <;> first | (cases kq; done) | skip
    rename_i r' φ'
    simp only [point, V3.neg, V3.mk.injEq] at hpq
    have h0 : distOf r ≠ 0 := fun h => hr (by simp [point, h])
    obtain ⟨e1, e2, e3⟩ := polar_opposite (distOf_nonneg vp) (distOf_nonneg vq) (sc φ) (sc φ')
      hpq.1 hpq.2.1 h0
    simp only [negVel, Vel.map, cartVel, V3.neg, V3.mk.injEq, e1, e2, e3, MirrorRates]
    constructor
    · rintro ⟨x1, x2, _⟩
      obtain ⟨y1, y2⟩ := two (sc φ) (x := a) (y := distOf r * b) (by linarith) (by linarith)
      exact ⟨y1, (mul_eq_zero.mp y2).resolve_left h0⟩
    · rintro ⟨rfl, rfl⟩; simp
  | cyl a b c =>
    cases p <;> first | (cases kp; done) | skip
    rename_i r φ z
    cases q <;> first | (cases kq; done) | skip
    rename_i r' φ' z'
    simp only [point, cylPoint, V3.neg, V3.mk.injEq] at hpq
    have h0 : r ≠ 0 := fun h => hr (by simp [point, cylPoint, h])
    obtain ⟨e1, e2, e3⟩ := polar_opposite vp vq (sc φ) (sc φ') hpq.1 hpq.2.1 h0
    simp only [negVel, Vel.map, cartVel, V3.neg, V3.mk.injEq, e1, e2, e3, MirrorRates]
    constructor
    · rintro ⟨x1, x2, _⟩
      obtain ⟨y1, y2⟩ := two (sc φ) (x := a) (y := r * b) (by linarith) (by linarith)
      exact ⟨y1, (mul_eq_zero.mp y2).resolve_left h0⟩
    · rintro ⟨rfl, rfl⟩; simp
  | sph a b c =>
    cases p <;> first | (cases kp; done) | skip
    rename_i r θ φ
    cases q <;> first | (cases kq; done) | skip
    rename_i r' θ' φ'
    obtain ⟨vr, vt⟩ := vp
    obtain ⟨vr', vt'⟩ := vq
    simp only [point, sphPoint, V3.neg, V3.mk.injEq] at hpq
    have h0 : distOf r * sin θ ≠ 0 := fun h => hr (by simp [point, sphPoint, h])
    obtain ⟨e1, e2, e3, e4, e5⟩ := sph_opposite (distOf_nonneg vr) (distOf_nonneg vr')
      (sin_nonneg_of_nonneg_of_le_pi vt.1 vt.2) (sin_nonneg_of_nonneg_of_le_pi vt'.1 vt'.2)
      (sc θ) (sc φ) (sc θ') (sc φ') hpq.1 hpq.2.1 hpq.2.2 h0
    simp only [negVel, Vel.map, cartVel, V3.neg, V3.mk.injEq, e1, e2, e3, e4, e5, MirrorRates]
    constructor
    · rintro ⟨x1, x2, x3⟩
      obtain ⟨y1, y2⟩ := two (sc φ) (x := a * sin θ) (y := c * (distOf r * sin θ))
        (by linarith) (by linarith)
      exact ⟨(mul_eq_zero.mp y1).resolve_right fun h => h0 (by rw [h]; ring),
        (mul_eq_zero.mp y2).resolve_right h0⟩
    · rintro ⟨rfl, rfl⟩; simp
  | math a b c =>
    cases p <;> first | (cases kp; done) | skip
    rename_i r θ φ
    cases q <;> first | (cases kq; done) | skip
    rename_i r' θ' φ'
    obtain ⟨vr, vt⟩ := vp
    obtain ⟨vr', vt'⟩ := vq
    simp only [point, sphPoint, V3.neg, V3.mk.injEq] at hpq
    have h0 : distOf r * sin φ ≠ 0 := fun h => hr (by simp [point, sphPoint, h])
    obtain ⟨e1, e2, e3, e4, e5⟩ := sph_opposite (distOf_nonneg vr) (distOf_nonneg vr')
      (sin_nonneg_of_nonneg_of_le_pi vt.1 vt.2) (sin_nonneg_of_nonneg_of_le_pi vt'.1 vt'.2)
      (sc φ) (sc θ) (sc φ') (sc θ') hpq.1 hpq.2.1 hpq.2.2 h0
    simp only [negVel, Vel.map, cartVel, V3.neg, V3.mk.injEq, e1, e2, e3, e4, e5, MirrorRates]
    constructor
    · rintro ⟨x1, x2, x3⟩
      obtain ⟨y1, y2⟩ := two (sc θ) (x := a * sin φ) (y := b * (distOf r * sin φ))
        (by linarith) (by linarith)
      exact ⟨(mul_eq_zero.mp y1).resolve_right fun h => h0 (by rw [h]; ring),
        (mul_eq_zero.mp y2).resolve_right h0⟩
    · rintro ⟨rfl, rfl⟩; simp
  | lonlat a b c =>
    cases p <;> first | (cases kp; done) | skip
    rename_i lon lat r
    cases q <;> first | (cases kq; done) | skip
    rename_i lon' lat' r'
    obtain ⟨vr, vt⟩ := vp
    obtain ⟨vr', vt'⟩ := vq
    simp only [point, lonlatPoint, V3.neg, V3.mk.injEq] at hpq
    have h0 : distOf r * cos lat ≠ 0 := fun h => hr (by simp [point, lonlatPoint, h])
    obtain ⟨e1, e2, e3, e4, e5⟩ := sph_opposite (distOf_nonneg vr) (distOf_nonneg vr')
      (cos_nonneg_of_neg_pi_div_two_le_of_le vt.1 vt.2)
      (cos_nonneg_of_neg_pi_div_two_le_of_le vt'.1 vt'.2)
      (by rw [add_comm]; exact sc lat) (sc lon) (by rw [add_comm]; exact sc lat') (sc lon')
      hpq.1 hpq.2.1 hpq.2.2 h0
    simp only [negVel, Vel.map, cartVel, V3.neg, V3.mk.injEq, e1, e2, e3, e4, e5, MirrorRates]
    constructor
    · rintro ⟨x1, x2, x3⟩
      obtain ⟨y1, y2⟩ := two (sc lon) (x := c * cos lat) (y := a * (distOf r * cos lat))
        (by linarith) (by linarith)
      exact ⟨(mul_eq_zero.mp y2).resolve_right h0,
        (mul_eq_zero.mp y1).resolve_right fun h => h0 (by rw [h]; ring)⟩
    · rintro ⟨rfl, rfl⟩; simp
  | lonCosLat a b c =>
    cases p <;> first | (cases kp; done) | skip
    rename_i lon lat r
    cases q <;> first | (cases kq; done) | skip
    rename_i lon' lat' r'
    obtain ⟨vr, vt⟩ := vp
    obtain ⟨vr', vt'⟩ := vq
    simp only [point, lonlatPoint, V3.neg, V3.mk.injEq] at hpq
    have h0 : distOf r * cos lat ≠ 0 := fun h => hr (by simp [point, lonlatPoint, h])
    obtain ⟨e1, e2, e3, e4, e5⟩ := sph_opposite (distOf_nonneg vr) (distOf_nonneg vr')
      (cos_nonneg_of_neg_pi_div_two_le_of_le vt.1 vt.2)
      (cos_nonneg_of_neg_pi_div_two_le_of_le vt'.1 vt'.2)
      (by rw [add_comm]; exact sc lat) (sc lon) (by rw [add_comm]; exact sc lat') (sc lon')
      hpq.1 hpq.2.1 hpq.2.2 h0
    simp only [negVel, Vel.map, cartVel, V3.neg, V3.mk.injEq, e1, e2, e3, e4, e5, MirrorRates]
    constructor
    · rintro ⟨x1, x2, x3⟩
      obtain ⟨y1, y2⟩ := two (sc lon) (x := c * cos lat) (y := a * distOf r)
        (by linarith) (by linarith)
      exact ⟨(mul_eq_zero.mp y2).resolve_right fun h => h0 (by rw [h]; ring),
        (mul_eq_zero.mp y1).resolve_right fun h => h0 (by rw [h]; ring)⟩
    · rintro ⟨rfl, rfl⟩; simp

/-- **C47, exactly.** The negative of a Space is at the opposite point, with the position and the velocity
in their classes. Its velocity is the opposite Cartesian velocity iff the velocity is Cartesian or its
radial and azimuthal rates vanish. All classes (other than `TwoSphereVel`, which stands for no motion
in space), wherever the class of the velocity is regular. -/
theorem C47_negation_iff (names : DimNames) (s s' : Space SVec) (hs : SpaceOk names s)
    (h : s.neg names = .ok s') (p : Pos ℝ) (v : Vel ℝ) (hp : s.getStr "length" = .ok (.pos p))
    (hv : s.getStr "speed" = .ok (.vel v)) (hval : Valid p)
    (hr : Regular v.kind.integral (point p)) (ht : v.kind ≠ .twoSphere) :
    ∃ q w, s'.getStr "length" = .ok (.pos q) ∧ s'.getStr "speed" = .ok (.vel w) ∧ q.kind = p.kind ∧
      w.kind = v.kind ∧ point q = (point p).neg ∧
      ∀ p' q', At {} v.kind (point p) p' → At {} v.kind (point q) q' →
        (cartVel q' w = (cartVel p' v).neg ↔ MirrorRates v) := by
  obtain ⟨q, h1, h2, h3⟩ := neg_entries names s s' hs h p v hp hv
  obtain ⟨k1, _, _, k2⟩ := C16_negation p q hval h3
  refine ⟨q, negVel v, h1, h2, k1, by rw [negVel_map, map_kind], k2, fun p' q' hp' hq' => ?_⟩
  have e1 := hp'.2.2.1
  have e2 := hq'.2.2.1
  exact negVel_opposite v p' q' (by rw [e1]; exact hp') (by rw [e2]; exact hq') (by rw [e1, e2, k2])
    (by rw [e1]; exact hr) ht

/-- **C47, when.** The negative of a Space is returned iff every position in it has a negative in its
class (`C16_returns_iff`); velocities and accelerations always have one. -/
theorem C47_negation_returns_iff (names : DimNames) (s : Space SVec) (hs : SpaceOk names s) :
    (∃ s', s.neg names = .ok s') ↔ ∀ k p, (k, SVec.pos p) ∈ s.data → ∃ q, negPos p = .ok q := by
  constructor
  · rintro ⟨s', h⟩ k p hm
    unfold Space.neg at h
    rw [mapValues_iff hs] at h
    obtain ⟨i, hi, e⟩ := mem_iff_getElem.mp hm
    have := (forall₂_iff_get.mp h.1).2 i hi (h.1.length_eq ▸ hi)
    simp only [get_eq_getElem, e] at this
    obtain ⟨q, h1, _⟩ := (bind_ok_iff _ _ _).mp this.2
    exact ⟨q, h1⟩
  · intro h
    have all : ∀ kv ∈ s.data, ∃ w, SVec.neg kv.2 = .ok w := by
      rintro ⟨k, x⟩ hm
      cases x with
      | pos p =>
        obtain ⟨q, hq⟩ := h k p hm
        exact ⟨.pos q, by simp only [SVec.neg, hq, ok_bind]; rfl⟩
      | vel v => exact ⟨_, rfl⟩
      | acc v => exact ⟨_, rfl⟩
    have : Nonempty SVec := ⟨.pos (.cart1 0)⟩
    choose! f hf using all
    refine ⟨⟨s.data.map fun kv => (kv.1, f kv)⟩, ?_⟩
    unfold Space.neg
    rw [mapValues_iff hs]
    refine ⟨?_, scalar_shapes _⟩
    rw [forall₂_map_right_iff, forall₂_same]
    exact fun kv hkv => ⟨rfl, hf kv hkv⟩

/-- the hypotheses are met, with and without the opposite velocity -/
example : Regular (Vel.sph 1 2 3 : Vel ℝ).kind.integral (point (.cart3 1 2 3)) ∧
    ¬ MirrorRates (.sph 1 2 3) ∧ MirrorRates (.sph 0 2 0) := by
  refine ⟨?_, ?_, rfl, rfl⟩
  · intro h; simp [point] at h
  · rintro ⟨h, _⟩; norm_num at h

end Verif
