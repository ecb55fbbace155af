import Verif.VelTotal

/-! # Linearity of velocity conversion (helper lemmas) -/

namespace Verif

open Real Spec

theorem comb_kind (a : ℝ) (v : Vel ℝ) (b : ℝ) (v' : Vel ℝ) : (comb a v b v').kind = v.kind := by
  cases v <;> cases v' <;> rfl

theorem comps_comb (a b : ℝ) {v v' : Vel ℝ} (h : v.kind = v'.kind) :
    (comb a v b v').comps = List.zipWith (fun x y => a * x + b * y) v.comps v'.comps := by
  cases v <;> cases v' <;> first | (cases h; done) | rfl

theorem comps_length {v v' : Vel ℝ} (h : v.kind = v'.kind) : v.comps.length = v'.comps.length := by
  cases v <;> cases v' <;> first | (cases h; done) | rfl

theorem map2_ok_kind {v w u : Vel ℝ} {f : ℝ → ℝ → ℝ} (h : Vel.map2 f v w = .ok u) :
    v.kind = w.kind ∧ u.kind = w.kind := by
  cases v <;> cases w <;> first | (cases h; done) | (cases h; exact ⟨rfl, rfl⟩)

theorem map2_of_kind {v w : Vel ℝ} (f : ℝ → ℝ → ℝ) (h : v.kind = w.kind) :
    ∃ u, Vel.map2 f v w = .ok u := by
  cases v <;> cases w <;> first | (cases h; done) | exact ⟨_, rfl⟩

theorem map_comb (c : Vel ℝ) (a b x y : ℝ) :
    comb a (c.map fun t => t * x) b (c.map fun t => t * y) = c.map fun t => t * (a * x + b * y) := by
  cases c <;> simp only [Vel.map, comb] <;> (congr 1 <;> ring)

theorem map2_comb (a b : ℝ) {v w u v' w' u' : Vel ℝ} (h : Vel.map2 (fun x y => x + y) v w = .ok u)
    (h' : Vel.map2 (fun x y => x + y) v' w' = .ok u') (hk : v.kind = v'.kind) :
    Vel.map2 (fun x y => x + y) (comb a v b v') (comb a w b w') = .ok (comb a u b u') := by
  obtain ⟨k1, _⟩ := map2_ok_kind h
  obtain ⟨k2, _⟩ := map2_ok_kind h'
  cases v <;> cases w <;> first | (cases k1; done) | skip
  all_goals (cases v' <;> first | (cases hk; done) | skip)
  all_goals (cases w' <;> first | (cases k2; done) | skip)
  all_goals (cases h; cases h'; simp only [comb, Vel.map2]; congr 2 <;> ring)

theorem contract_kind : ∀ (cs : List (Vel ℝ)) (l : List ℝ) {w : Vel ℝ}, contract cs l = .ok w →
    ∀ c ∈ cs, c.kind = w.kind := by
  intro cs
  induction cs with
  | nil => intro l w h; cases l <;> cases h
  | cons c cs ih =>
    intro l w h
    cases l with
    | nil => cases cs <;> cases h
    | cons x l =>
      cases cs with
      | nil =>
        cases l with
        | nil => cases h; intro d hd; simp only [List.mem_singleton] at hd; rw [hd, map_kind]
        | cons y l =>
          have : contract [] (y :: l) = .error .badField := rfl
          simp only [contract, bind_ok_iff] at h
          obtain ⟨_, h, _⟩ := h; cases h
      | cons d cs =>
        simp only [contract, bind_ok_iff] at h
        obtain ⟨u, h1, h2⟩ := h
        obtain ⟨k1, k2⟩ := map2_ok_kind h2
        rw [map_kind] at k1
        intro e he
        rcases List.mem_cons.mp he with rfl | he
        · rw [k1, k2]
        · rw [ih l h1 e he, k2]

theorem contract_comb (a b : ℝ) : ∀ (cs : List (Vel ℝ)) (l l' : List ℝ) {w w' : Vel ℝ},
    contract cs l = .ok w → contract cs l' = .ok w' →
    contract cs (List.zipWith (fun x y => a * x + b * y) l l') = .ok (comb a w b w') := by
  intro cs
  induction cs with
  | nil => intro l l' w w' h; cases l <;> cases h
  | cons c cs ih =>
    intro l l' w w' h h'
    cases l with
    | nil => cases cs <;> cases h
    | cons x l =>
    cases l' with
    | nil => cases cs <;> cases h'
    | cons y l' =>
      cases cs with
      | nil =>
        cases l with
        | nil =>
          cases l' with
          | nil => cases h; cases h'; rw [map_comb]; rfl
          | cons y l =>
            simp only [contract, bind_ok_iff] at h'
            obtain ⟨_, h', _⟩ := h'; cases h'
        | cons y l =>
          simp only [contract, bind_ok_iff] at h
          obtain ⟨_, h, _⟩ := h; cases h
      | cons d cs =>
        simp only [contract, bind_ok_iff] at h h'
        obtain ⟨u, h1, h2⟩ := h
        obtain ⟨u', h1', h2'⟩ := h'
        simp only [List.zipWith_cons_cons, contract, bind_ok_iff]
        refine ⟨_, ih l l' h1 h1', ?_⟩
        rw [← map_comb]
        exact map2_comb a b h2 h2' (by rw [map_kind, map_kind])

theorem contract_ok_of (cs : List (Vel ℝ)) : ∀ (l l' : List ℝ) {w : Vel ℝ},
    contract cs l = .ok w → l'.length = l.length → ∃ w', contract cs l' = .ok w' ∧ w'.kind = w.kind := by
  induction cs with
  | nil => intro l l' w h; cases l <;> cases h
  | cons c cs ih =>
    intro l l' w h hl
    cases l with
    | nil => cases cs <;> cases h
    | cons x l =>
    cases l' with
    | nil => cases hl
    | cons y l' =>
      cases cs with
      | nil =>
        cases l with
        | nil =>
          cases l' with
          | nil => cases h; exact ⟨_, rfl, by rw [map_kind, map_kind]⟩
          | cons y l => cases hl
        | cons y l =>
          simp only [contract, bind_ok_iff] at h
          obtain ⟨_, h, _⟩ := h; cases h
      | cons d cs =>
        simp only [contract, bind_ok_iff] at h ⊢
        obtain ⟨u, h1, h2⟩ := h
        obtain ⟨u', i1, i2⟩ := ih l l' h1 (by simpa using hl)
        obtain ⟨k1, k2⟩ := map2_ok_kind h2
        rw [map_kind] at k1
        obtain ⟨u'', i3⟩ := map2_of_kind (v := c.map fun t => t * y) (w := u') (fun x y => x + y)
          (by rw [map_kind, i2, k1])
        exact ⟨u'', ⟨u', i1, i3⟩, by rw [(map2_ok_kind i3).2, i2, k2]⟩

theorem generic_split {kw : Kw ℝ} {v w : Vel ℝ} {k : VKind} {p : Pos ℝ}
    (h : representVelGeneric kw v k p = .ok w) :
    ∃ J, contract J v.comps = .ok w ∧ ∀ v' : Vel ℝ, v'.kind = v.kind →
      representVelGeneric kw v' k p = contract J v'.comps := by
  unfold representVelGeneric at h
  simp only [bind_ok_iff] at h
  obtain ⟨c, h1, c', h2, h⟩ := h
  by_cases hp : c'.kind = .prolate ∨ p.kind.leavesRank0 v.kind.integral = true
  · rw [if_pos hp] at h; cases h
  rw [if_neg hp] at h
  obtain ⟨J, h3, h⟩ := (bind_ok_iff _ _ _).mp h
  refine ⟨J, h, fun v' hv => ?_⟩
  unfold representVelGeneric
  rw [hv, h1, ok_bind, h2, ok_bind, if_neg hp]
  show (jacobian kw c' k.integral >>= fun cols => contract cols v'.comps) = _
  rw [h3]; rfl

theorem generic_comb {kw : Kw ℝ} {v v' w w' : Vel ℝ} {k : VKind} {p : Pos ℝ} (a b : ℝ)
    (hk : v.kind = v'.kind) (h : representVelGeneric kw v k p = .ok w)
    (h' : representVelGeneric kw v' k p = .ok w') :
    representVelGeneric kw (comb a v b v') k p = .ok (comb a w b w') := by
  obtain ⟨J, h1, h2⟩ := generic_split h
  rw [h2 v' hk.symm] at h'
  rw [h2 _ (comb_kind a v b v'), comps_comb a b hk]
  exact contract_comb a b J _ _ h1 h'

theorem generic_same {kw : Kw ℝ} {v v' w : Vel ℝ} {k : VKind} {p : Pos ℝ}
    (hk : v'.kind = v.kind) (h : representVelGeneric kw v k p = .ok w) :
    ∃ w', representVelGeneric kw v' k p = .ok w' ∧ w'.kind = w.kind := by
  obtain ⟨J, h1, h2⟩ := generic_split h
  rw [h2 v' hk]
  exact contract_ok_of J _ _ h1 (comps_length hk)

theorem lonCosLat_split {a b c : ℝ} {p : Pos ℝ} {w : Vel ℝ} (h : lonCosLatToLonLat a b c p = .ok w) :
    ∃ l, l ≠ 0 ∧ w = .lonlat (a / l) b c ∧
      ∀ a' b' c', lonCosLatToLonLat a' b' c' p = .ok (.lonlat (a' / l) b' c') := by
  unfold lonCosLatToLonLat at h
  simp only [bind_ok_iff, pure_ok] at h
  obtain ⟨pv, h1, l, h2, q, h3, h4⟩ := h
  rw [div_real] at h3
  by_cases h5 : Num.cos l = (0 : ℝ)
  · rw [if_pos h5] at h3; cases h3
  rw [if_neg h5] at h3
  obtain rfl := Except.ok.inj h3
  cases h4
  refine ⟨_, h5, rfl, fun a' b' c' => ?_⟩
  unfold lonCosLatToLonLat
  rw [h1, ok_bind, h2, ok_bind, div_real_ok h5]; rfl

theorem toLonCosLat_split {v w : Vel ℝ} {p : Pos ℝ} (h : toLonCosLat v p = .ok w) :
    ∃ x y z l, toLonLat v p = .ok (.lonlat x y z) ∧ w = .lonCosLat (x * l) y z ∧
      ∀ v' x' y' z', toLonLat v' p = .ok (.lonlat x' y' z') → toLonCosLat v' p = .ok (.lonCosLat (x' * l) y' z') := by
  unfold toLonCosLat at h
  obtain ⟨u, h1, h⟩ := (bind_ok_iff _ _ _).mp h
  cases u <;> first | (cases h; done) | skip
  rename_i x y z
  simp only [bind_ok_iff, pure_ok] at h
  obtain ⟨pv, h2, l, h3, h4⟩ := h
  cases h4
  refine ⟨x, y, z, _, h1, rfl, fun v' x' y' z' hv => ?_⟩
  unfold toLonCosLat
  rw [hv, ok_bind]
  simp only [h2, ok_bind, h3]; rfl

theorem representVel_generic {kw : Kw ℝ} {v : Vel ℝ} {k : VKind} {p : Pos ℝ}
    (hd : v.kind.dim = k.dim) (hs : ¬ (v.kind = k ∧ k.selfRule = true)) (h1 : v.kind ≠ .lonCosLat)
    (h2 : k ≠ .lonCosLat) : representVel kw v k p = representVelGeneric kw v k p := by
  unfold representVel
  rw [if_neg (not_not.mpr hd), if_neg hs]
  cases v <;> cases k <;> first | exact absurd rfl h1 | exact absurd rfl h2 | rfl

theorem representVel_toLonCosLat {kw : Kw ℝ} {v : Vel ℝ} {p : Pos ℝ}
    (hd : v.kind.dim = VKind.lonCosLat.dim) (h1 : v.kind ≠ .lonCosLat) :
    representVel kw v .lonCosLat p = toLonCosLat v p := by
  unfold representVel
  rw [if_neg (not_not.mpr hd), if_neg (fun e => h1 e.1)]
  cases v <;> first | exact absurd rfl h1 | rfl

theorem representVel_fromLonCosLat {kw : Kw ℝ} {a b c : ℝ} {k : VKind} {p : Pos ℝ}
    (hd : k.dim = VKind.lonCosLat.dim) (h1 : k ≠ .lonCosLat) (h2 : k ≠ .lonlat) :
    representVel kw (.lonCosLat a b c) k p =
      (lonCosLatToLonLat a b c p >>= fun x => representVelGeneric {} x k p) := by
  unfold representVel
  rw [if_neg (not_not.mpr (show (Vel.lonCosLat a b c).kind.dim = k.dim from hd.symm)),
    if_neg (fun e => h1 e.1.symm)]
  cases k <;> first | exact absurd rfl h1 | exact absurd rfl h2 | rfl

theorem representVel_comb {kw : Kw ℝ} {v v' w w' : Vel ℝ} {k : VKind} {p : Pos ℝ} (a b : ℝ)
    (hk : v.kind = v'.kind) (h : representVel kw v k p = .ok w)
    (h' : representVel kw v' k p = .ok w') :
    representVel kw (comb a v b v') k p = .ok (comb a w b w') := by
  have hd : v.kind.dim = k.dim := by
    by_contra hd; unfold representVel at h; rw [if_pos hd] at h; cases h
  have ck := comb_kind a v b v'
  by_cases hs : v.kind = k ∧ k.selfRule = true
  · unfold representVel at h h' ⊢
    rw [ck]
    rw [← hk] at h'
    rw [if_neg (not_not.mpr hd), if_pos hs] at h h' ⊢
    cases h; cases h'; rfl
  by_cases h1 : v.kind = .lonCosLat
  · obtain ⟨x, y, z, rfl⟩ : ∃ a b c, v = .lonCosLat a b c := by
      cases v <;> first | (cases h1; done) | exact ⟨_, _, _, rfl⟩
    obtain ⟨x', y', z', rfl⟩ : ∃ a b c, v' = .lonCosLat a b c := by
      cases v' <;> first | (cases hk; done) | exact ⟨_, _, _, rfl⟩
    have hc : comb a (.lonCosLat x y z) b (.lonCosLat x' y' z')
      = .lonCosLat (a * x + b * x') (a * y + b * y') (a * z + b * z') := rfl
    have hk' : k ≠ .lonCosLat := by rintro rfl; exact hs ⟨rfl, rfl⟩
    by_cases h2 : k = .lonlat
    · subst h2
      have h0 : lonCosLatToLonLat x y z p = .ok w := h
      have h0' : lonCosLatToLonLat x' y' z' p = .ok w' := h'
      obtain ⟨l, l0, rfl, hl⟩ := lonCosLat_split h0
      rw [hl] at h0'; cases h0'
      show lonCosLatToLonLat (a * x + b * x') (a * y + b * y') (a * z + b * z') p = _
      rw [hl]
      simp only [comb]
      congr 2; ring
    · rw [hc, representVel_fromLonCosLat hd.symm hk' h2]
      rw [representVel_fromLonCosLat hd.symm hk' h2] at h h'
      obtain ⟨u, i1, i2⟩ := (bind_ok_iff _ _ _).mp h
      obtain ⟨u', i1', i2'⟩ := (bind_ok_iff _ _ _).mp h'
      obtain ⟨l, l0, rfl, hl⟩ := lonCosLat_split i1
      rw [hl] at i1'; cases i1'
      rw [hl, ok_bind, ← generic_comb a b (by rfl) i2 i2']
      simp only [comb]
      congr 2; ring
  have h1' : v'.kind ≠ .lonCosLat := hk ▸ h1
  by_cases h2 : k = .lonCosLat
  · subst h2
    rw [representVel_toLonCosLat hd h1] at h
    rw [representVel_toLonCosLat (hk ▸ hd) h1'] at h'
    rw [representVel_toLonCosLat (by rw [ck]; exact hd) (by rw [ck]; exact h1)]
    obtain ⟨x, y, z, l, i1, rfl, hl⟩ := toLonCosLat_split h
    obtain ⟨x', y', z', l', i1', i2', _⟩ := toLonCosLat_split h'
    have e := hl _ _ _ _ i1'
    rw [h', i2'] at e
    rw [i2', Except.ok.inj e, hl (comb a v b v') (a * x + b * x') (a * y + b * y') (a * z + b * z') ?_]
    · simp only [comb]; congr 2; ring
    · unfold toLonLat at i1 i1' ⊢
      rw [ck]
      rw [← hk] at i1'
      by_cases h3 : v.kind = .lonlat
      · rw [if_pos h3] at i1 i1' ⊢
        cases i1; cases i1'; rfl
      · rw [if_neg h3] at i1 i1' ⊢
        exact generic_comb a b hk i1 i1'
  · rw [representVel_generic hd hs h1 h2] at h
    rw [representVel_generic (hk ▸ hd) (hk ▸ hs) h1' h2] at h'
    rw [representVel_generic (by rw [ck]; exact hd) (by rw [ck]; exact hs) (by rw [ck]; exact h1) h2]
    exact generic_comb a b hk h h'

/-- whether a conversion returns does not depend on the velocity's values -/
theorem representVel_same {kw : Kw ℝ} {v v' w : Vel ℝ} {k : VKind} {p : Pos ℝ}
    (hk : v'.kind = v.kind) (h : representVel kw v k p = .ok w) :
    ∃ w', representVel kw v' k p = .ok w' := by
  have hd : v.kind.dim = k.dim := by
    by_contra hd; unfold representVel at h; rw [if_pos hd] at h; cases h
  by_cases hs : v.kind = k ∧ k.selfRule = true
  · unfold representVel
    rw [hk, if_neg (not_not.mpr hd), if_pos hs]
    exact ⟨_, rfl⟩
  by_cases h1 : v.kind = .lonCosLat
  · obtain ⟨x, y, z, rfl⟩ : ∃ a b c, v = .lonCosLat a b c := by
      cases v <;> first | (cases h1; done) | exact ⟨_, _, _, rfl⟩
    obtain ⟨x', y', z', rfl⟩ : ∃ a b c, v' = .lonCosLat a b c := by
      cases v' <;> first | (cases hk; done) | exact ⟨_, _, _, rfl⟩
    have hk' : k ≠ .lonCosLat := by rintro rfl; exact hs ⟨rfl, rfl⟩
    by_cases h2 : k = .lonlat
    · subst h2
      have h0 : lonCosLatToLonLat x y z p = .ok w := h
      obtain ⟨l, l0, rfl, hl⟩ := lonCosLat_split h0
      exact ⟨_, hl x' y' z'⟩
    · rw [representVel_fromLonCosLat hd.symm hk' h2] at h ⊢
      obtain ⟨u, i1, i2⟩ := (bind_ok_iff _ _ _).mp h
      obtain ⟨l, l0, rfl, hl⟩ := lonCosLat_split i1
      rw [hl, ok_bind]
      obtain ⟨w', e, _⟩ := generic_same (v := .lonlat (x / l) y z) (v' := .lonlat (x' / l) y' z') rfl i2
      exact ⟨w', e⟩
  have h1' : v'.kind ≠ .lonCosLat := hk ▸ h1
  by_cases h2 : k = .lonCosLat
  · subst h2
    rw [representVel_toLonCosLat hd h1] at h
    rw [representVel_toLonCosLat (hk ▸ hd) h1']
    obtain ⟨x, y, z, l, i1, rfl, hl⟩ := toLonCosLat_split h
    obtain ⟨x', y', z', e⟩ : ∃ x' y' z', toLonLat v' p = .ok (.lonlat x' y' z') := by
      unfold toLonLat at i1 ⊢
      by_cases h3 : v.kind = .lonlat
      · rw [if_pos (hk ▸ h3)]
        obtain ⟨x', y', z', rfl⟩ := vel_lonlat_of (hk ▸ h3)
        exact ⟨_, _, _, rfl⟩
      · rw [if_neg h3] at i1
        rw [if_neg (hk ▸ h3)]
        obtain ⟨w', e1, e2⟩ := generic_same hk i1
        obtain ⟨x', y', z', rfl⟩ := vel_lonlat_of e2
        exact ⟨_, _, _, e1⟩
    exact ⟨_, hl _ _ _ _ e⟩
  · rw [representVel_generic hd hs h1 h2] at h
    rw [representVel_generic (hk ▸ hd) (hk ▸ hs) h1' h2]
    obtain ⟨w', e1, e2⟩ := generic_same hk h
    exact ⟨w', e1⟩

end Verif
