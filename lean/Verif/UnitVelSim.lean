import Verif.UnitHom
import Verif.UnitVel
import Verif.VelKind

/-! # Velocities and accelerations with units: simulation by values in base units -/

namespace Verif

open Num CNum LawfulCNum

theorem RelRes.with {A B : Type} {R : A → B → Prop} {P : B → Prop} {m : Res A} {m' : Res B} (h : RelRes R m m')
    (k : ∀ b, m' = .ok b → P b) : RelRes (fun a b => R a b ∧ P b) m m' := by
  cases h with
  | ok h => exact .ok ⟨h, k _ rfl⟩
  | err e => exact .err e

/-! ### Seeds -/

theorem UQ.phys_seed (q : UQ ℝ) (t : ℝ) : (q.seed t).phys = ⟨q.phys, q.unit.scale * t⟩ :=
  Dual.ext' rfl (by show 0 * q.value + q.unit.scale * t = _; ring)

theorem UQ.phys_seed' (q : UQ ℝ) (t s : ℝ) (h : q.unit.scale * t = s * t) :
    (q.seed t).phys = Dual.scale s ⟨q.phys, t⟩ := by
  rw [UQ.phys_seed, h]; rfl

theorem Dist.phys_seed (r : Dist (UQ ℝ)) (t s : ℝ) (h : r.raw.unit.scale * t = s * t) :
    (r.seedU t).tr UQ.phys = ((r.tr UQ.phys).seed t).tr (Dual.scale s) := by
  cases r <;> exact congrArg _ (UQ.phys_seed' _ _ _ h)

theorem UQ.phys_seed0 (q : UQ ℝ) : (q.seed 0).phys = ⟨q.phys, 0⟩ := by rw [UQ.phys_seed, mul_zero]
theorem UQ.phys_seed1 (q : UQ ℝ) : (q.seed 1).phys = Dual.scale q.unit.scale ⟨q.phys, 1⟩ := UQ.phys_seed' _ _ _ rfl
theorem Dual.scale_zero (s x : ℝ) : Dual.scale s ⟨x, 0⟩ = ⟨x, 0⟩ := by rw [Dual.scale, mul_zero]
theorem Dist.phys_seed0 (r : Dist (UQ ℝ)) : (r.seedU 0).tr UQ.phys = (r.tr UQ.phys).seed 0 := by
  cases r <;> exact congrArg _ (UQ.phys_seed0 _)
theorem Dist.phys_seed1 (r : Dist (UQ ℝ)) :
    (r.seedU 1).tr UQ.phys = ((r.tr UQ.phys).seed 1).tr (Dual.scale r.raw.unit.scale) := Dist.phys_seed _ _ _ rfl
theorem Dist.scale_zero (s : ℝ) (r : Dist ℝ) : (r.seed 0).tr (Dual.scale s) = r.seed 0 := by
  cases r <;> exact congrArg _ (Dual.scale_zero _ _)

theorem Dist.seedU_WD {r : Dist (UQ ℝ)} (h : r.WD) (t : ℝ) : (r.seedU t).WD := by cases r <;> exact h

theorem seed_basis (p : Pos (UQ ℝ)) (hp : p.WD) (e : Vel ℝ × RUnit) (he : e ∈ p.kind.basis.zip p.columnUnits) :
    ∃ X E, p.seedU e.1 = .ok X ∧ (p.tr UQ.phys).seed e.1 = .ok E ∧ X.WD ∧
      X.tr UQ.phys = E.tr (Dual.scale e.2.scale) ∧ X.kind = p.kind := by
  cases p with
  | cart1 x =>
    simp only [Pos.kind, Kind.basis, Pos.columnUnits, List.zip_cons_cons, List.zip_nil_left, List.mem_cons, List.not_mem_nil, or_false] at he
    subst he
    exact ⟨_, _, rfl, rfl, hp, by simp only [Pos.tr, UQ.phys_seed0, UQ.phys_seed1, Dual.scale_zero], rfl⟩
  | radial r =>
    simp only [Pos.kind, Kind.basis, Pos.columnUnits, List.zip_cons_cons, List.zip_nil_left, List.mem_cons, List.not_mem_nil, or_false] at he
    subst he
    exact ⟨_, _, rfl, rfl, Dist.seedU_WD hp _, by simp only [Pos.tr, Dist.phys_seed1], rfl⟩
  | cart2 x y =>
    simp only [Pos.kind, Kind.basis, Pos.columnUnits, List.zip_cons_cons, List.zip_nil_left, List.mem_cons, List.not_mem_nil, or_false] at he
    rcases he with rfl | rfl <;>
    exact ⟨_, _, rfl, rfl, hp, by simp only [Pos.tr, UQ.phys_seed0, UQ.phys_seed1, Dual.scale_zero], rfl⟩
  | polar r φ =>
    simp only [Pos.kind, Kind.basis, Pos.columnUnits, List.zip_cons_cons, List.zip_nil_left, List.mem_cons, List.not_mem_nil, or_false] at he
    rcases he with rfl | rfl <;>
    exact ⟨_, _, rfl, rfl, ⟨Dist.seedU_WD hp.1 _, hp.2⟩,
      by simp only [Pos.tr, UQ.phys_seed0, UQ.phys_seed1, Dual.scale_zero, Dist.phys_seed0, Dist.phys_seed1, Dist.scale_zero], rfl⟩
  | twoSphere θ φ =>
    simp only [Pos.kind, Kind.basis, Pos.columnUnits, List.zip_cons_cons, List.zip_nil_left, List.mem_cons, List.not_mem_nil, or_false] at he
    rcases he with rfl | rfl <;>
    exact ⟨_, _, rfl, rfl, hp, by simp only [Pos.tr, UQ.phys_seed0, UQ.phys_seed1, Dual.scale_zero], rfl⟩
  | cart3 x y z =>
    simp only [Pos.kind, Kind.basis, Pos.columnUnits, List.zip_cons_cons, List.zip_nil_left, List.mem_cons, List.not_mem_nil, or_false] at he
    rcases he with rfl | rfl | rfl <;>
    exact ⟨_, _, rfl, rfl, hp, by simp only [Pos.tr, UQ.phys_seed0, UQ.phys_seed1, Dual.scale_zero], rfl⟩
  | cyl ρ φ z =>
    simp only [Pos.kind, Kind.basis, Pos.columnUnits, List.zip_cons_cons, List.zip_nil_left, List.mem_cons, List.not_mem_nil, or_false] at he
    rcases he with rfl | rfl | rfl <;>
    exact ⟨_, _, rfl, rfl, hp, by simp only [Pos.tr, UQ.phys_seed0, UQ.phys_seed1, Dual.scale_zero], rfl⟩
  | sph r θ φ =>
    simp only [Pos.kind, Kind.basis, Pos.columnUnits, List.zip_cons_cons, List.zip_nil_left, List.mem_cons, List.not_mem_nil, or_false] at he
    rcases he with rfl | rfl | rfl <;>
    exact ⟨_, _, rfl, rfl, ⟨Dist.seedU_WD hp.1 _, hp.2⟩,
      by simp only [Pos.tr, UQ.phys_seed0, UQ.phys_seed1, Dual.scale_zero, Dist.phys_seed0, Dist.phys_seed1, Dist.scale_zero], rfl⟩
  | lonlat lon lat r =>
    simp only [Pos.kind, Kind.basis, Pos.columnUnits, List.zip_cons_cons, List.zip_nil_left, List.mem_cons, List.not_mem_nil, or_false] at he
    rcases he with rfl | rfl | rfl <;>
    exact ⟨_, _, rfl, rfl, ⟨hp.1, hp.2.1, Dist.seedU_WD hp.2.2 _⟩,
      by simp only [Pos.tr, UQ.phys_seed0, UQ.phys_seed1, Dual.scale_zero, Dist.phys_seed0, Dist.phys_seed1, Dist.scale_zero], rfl⟩
  | math r θ φ =>
    simp only [Pos.kind, Kind.basis, Pos.columnUnits, List.zip_cons_cons, List.zip_nil_left, List.mem_cons, List.not_mem_nil, or_false] at he
    rcases he with rfl | rfl | rfl <;>
    exact ⟨_, _, rfl, rfl, ⟨Dist.seedU_WD hp.1 _, hp.2⟩,
      by simp only [Pos.tr, UQ.phys_seed0, UQ.phys_seed1, Dual.scale_zero, Dist.phys_seed0, Dist.phys_seed1, Dist.scale_zero], rfl⟩
  | prolate μ ν φ δ =>
    simp only [Pos.kind, Kind.basis, Pos.columnUnits, List.zip_cons_cons, List.zip_nil_left, List.mem_cons, List.not_mem_nil, or_false] at he
    rcases he with rfl | rfl | rfl
    all_goals
      refine ⟨_, _, rfl, rfl, hp, ?_, rfl⟩
      simp only [Pos.tr, UQ.phys_seed0, UQ.phys_seed1, Dual.scale_zero, Dual.const]

theorem dualU_tr (kw : Kw (UQ ℝ)) (s : ℝ) :
    kw.dualU.tr UQ.phys = (kw.tr UQ.phys).dual ∧ ((kw.tr UQ.phys).dual).tr (Dual.scale s) = (kw.tr UQ.phys).dual := by
  have h : ∀ q : UQ ℝ, (q.seed 0).phys = Dual.const q.phys := fun q => by
    rw [UQ.phys_seed]; exact Dual.ext' rfl (by simp [Dual.const])
  have h' : ∀ x : ℝ, Dual.scale s (Dual.const x) = Dual.const x := fun x => Dual.ext' rfl (by simp [Dual.scale, Dual.const])
  obtain ⟨a, b, c, d, e⟩ := kw
  constructor
  · cases a <;> cases b <;> cases c <;> cases d <;> cases e <;> simp [Kw.dualU, Kw.tr, Kw.dual, h]
  · cases a <;> cases b <;> cases c <;> cases d <;> cases e <;> simp [Kw.tr, Kw.dual, h']

theorem dualU_WD {kw : Kw (UQ ℝ)} (h : kw.WD) : kw.dualU.WD := by
  obtain ⟨a, b, c, d, e⟩ := kw
  have key : ∀ (o : Option (UQ ℝ)) (D : RDim), (∀ q ∈ o, q.unit.dim = D) →
      ∀ q ∈ o.map (fun q => q.seed 0), q.unit.dim = D := by
    intro o D ho q hq
    cases o with
    | none => cases hq
    | some x => cases hq; exact ho x rfl
  exact ⟨key _ _ h.y, key _ _ h.z, key _ _ h.theta, key _ _ h.phi, key _ _ h.delta⟩

/-! ### Columns -/

/-- the fields have the physical types of the class, after `f` -/
def Vel.Has (f : RDim → RDim) (v : Vel (UQ ℝ)) : Prop :=
  v.comps.map (fun q => q.unit.dim) = v.kind.fieldDims.map f

/-- a vector and its values in base units -/
def Vel.RelF (f : RDim → RDim) (v : Vel (UQ ℝ)) (v' : Vel ℝ) : Prop := v.map UQ.phys = v' ∧ v.Has f

theorem row_phys {q : UQ Dual} {Q : Dual} {u : RUnit} (h : q.phys = Dual.scale u.scale Q) : (q.row u).phys = Q.du := by
  have := congrArg Dual.du h
  have e : q.phys.du = q.unit.scale * q.value.du := by
    show 0 * q.value.re + q.unit.scale * q.value.du = _; ring
  rw [e] at this
  show q.unit.scale / u.scale * q.value.du = Q.du
  have hu := u.pos
  have : q.unit.scale * q.value.du = u.scale * Q.du := this
  field_simp
  linarith

theorem rowU_rel {r : Dist (UQ Dual)} {R : Dist Dual} {u : RUnit} (hr : r.WD)
    (h : r.tr UQ.phys = R.tr (Dual.scale u.scale)) :
    RelRes (fun a b => a.phys = b ∧ a.unit.dim = dL.div u.dim) (r.rowU u) R.tangent := by
  cases r <;> cases R <;> simp only [Dist.tr, reduceCtorEq, Dist.dist.injEq, Dist.par.injEq, Dist.dm.injEq] at h
  · rename_i q Q
    refine .ok ⟨row_phys h, ?_⟩
    show q.unit.dim.div u.dim = _
    rw [show q.unit.dim = dL from hr]
  · exact .err _
  · exact .err _

theorem has1 {f : RDim → RDim} {a b : RDim} (h : a = f b) : [a] = [b].map f := by rw [h]; rfl

theorem columnU_rel {q : Pos (UQ Dual)} {Q : Pos Dual} {u : RUnit} (hq : q.WD)
    (h : q.tr UQ.phys = Q.tr (Dual.scale u.scale)) :
    RelRes (Vel.RelF fun d => d.div u.dim) (q.columnU u) Q.tangent := by
  have dm : ∀ {x : UQ Dual} {d : RDim}, x.unit.dim = d → (x.row u).unit.dim = d.div u.dim := by
    intro x d hd; show x.unit.dim.div u.dim = _; rw [hd]
  cases q with
  | cart1 x =>
    cases Q <;> simp only [Pos.tr, reduceCtorEq, Pos.cart1.injEq] at h
    exact .ok ⟨by rw [Vel.map, row_phys h], by simp only [Vel.Has, Vel.comps, Vel.kind, VKind.fieldDims, List.map, dm hq]⟩
  | radial r =>
    cases Q <;> simp only [Pos.tr, reduceCtorEq, Pos.radial.injEq] at h
    exact .bind (rowU_rel hq h) fun a b e => .ok ⟨by rw [Vel.map, e.1], by
      simp only [Vel.Has, Vel.comps, Vel.kind, VKind.fieldDims, List.map, e.2]⟩
  | cart2 x y =>
    cases Q <;> simp only [Pos.tr, reduceCtorEq, Pos.cart2.injEq] at h
    exact .ok ⟨by rw [Vel.map, row_phys h.1, row_phys h.2], by
      simp only [Vel.Has, Vel.comps, Vel.kind, VKind.fieldDims, List.map, dm hq.1, dm hq.2]⟩
  | polar r φ =>
    cases Q <;> simp only [Pos.tr, reduceCtorEq, Pos.polar.injEq] at h
    exact .bind (rowU_rel hq.1 h.1) fun a b e => .ok ⟨by rw [Vel.map, e.1, row_phys h.2], by
      simp only [Vel.Has, Vel.comps, Vel.kind, VKind.fieldDims, List.map, e.2, dm hq.2]⟩
  | twoSphere x y =>
    cases Q <;> simp only [Pos.tr, reduceCtorEq, Pos.twoSphere.injEq] at h
    exact .ok ⟨by rw [Vel.map, row_phys h.1, row_phys h.2], by
      simp only [Vel.Has, Vel.comps, Vel.kind, VKind.fieldDims, List.map, dm hq.1, dm hq.2]⟩
  | cart3 x y z =>
    cases Q <;> simp only [Pos.tr, reduceCtorEq, Pos.cart3.injEq] at h
    exact .ok ⟨by rw [Vel.map, row_phys h.1, row_phys h.2.1, row_phys h.2.2], by
      simp only [Vel.Has, Vel.comps, Vel.kind, VKind.fieldDims, List.map, dm hq.1, dm hq.2.1, dm hq.2.2]⟩
  | cyl x y z =>
    cases Q <;> simp only [Pos.tr, reduceCtorEq, Pos.cyl.injEq] at h
    exact .ok ⟨by rw [Vel.map, row_phys h.1, row_phys h.2.1, row_phys h.2.2], by
      simp only [Vel.Has, Vel.comps, Vel.kind, VKind.fieldDims, List.map, dm hq.1, dm hq.2.1, dm hq.2.2]⟩
  | sph r x y =>
    cases Q <;> simp only [Pos.tr, reduceCtorEq, Pos.sph.injEq] at h
    exact .bind (rowU_rel hq.1 h.1) fun a b e => .ok ⟨by rw [Vel.map, e.1, row_phys h.2.1, row_phys h.2.2], by
      simp only [Vel.Has, Vel.comps, Vel.kind, VKind.fieldDims, List.map, e.2, dm hq.2.1, dm hq.2.2]⟩
  | lonlat x y r =>
    cases Q <;> simp only [Pos.tr, reduceCtorEq, Pos.lonlat.injEq] at h
    exact .bind (rowU_rel hq.2.2 h.2.2) fun a b e => .ok ⟨by rw [Vel.map, e.1, row_phys h.1, row_phys h.2.1], by
      simp only [Vel.Has, Vel.comps, Vel.kind, VKind.fieldDims, List.map, e.2, dm hq.1, dm hq.2.1]⟩
  | math r x y =>
    cases Q <;> simp only [Pos.tr, reduceCtorEq, Pos.math.injEq] at h
    exact .bind (rowU_rel hq.1 h.1) fun a b e => .ok ⟨by rw [Vel.map, e.1, row_phys h.2.1, row_phys h.2.2], by
      simp only [Vel.Has, Vel.comps, Vel.kind, VKind.fieldDims, List.map, e.2, dm hq.2.1, dm hq.2.2]⟩
  | prolate x y z w =>
    cases Q <;> simp only [Pos.tr, reduceCtorEq, Pos.prolate.injEq] at h
    exact .ok ⟨by rw [Vel.map, row_phys h.1, row_phys h.2.1, row_phys h.2.2.1], by
      simp only [Vel.Has, Vel.comps, Vel.kind, VKind.fieldDims, List.map, dm hq.1, dm hq.2.1, dm hq.2.2.1]⟩

theorem column_aux (n : ℕ) {kw : Kw (UQ ℝ)} (hk : kw.WD) {p : Pos (UQ ℝ)} (hp : p.WD) (hnp : p.kind ≠ .prolate)
    {e : Vel ℝ × RUnit} (he : e ∈ p.kind.basis.zip p.columnUnits) (k : Kind) :
    RelRes (Vel.RelF fun d => d.div e.2.dim)
      (do (← representU (n + 1) kw.dualU (← p.seedU e.1) k).columnU e.2)
      (do (← represent (n + 1) (kw.tr UQ.phys).dual (← (p.tr UQ.phys).seed e.1) k).tangent) := by
  obtain ⟨X, E, hX, hE, hw, ht, hkind⟩ := seed_basis p hp e he
  rw [hX, hE]
  show RelRes _ (representU (n + 1) kw.dualU X k >>= fun q => q.columnU e.2)
    (represent (n + 1) (kw.tr UQ.phys).dual E k >>= fun q => q.tangent)
  have h1 := representU_all n kw.dualU (dualU_WD hk) X hw k (by
    intro _
    cases X <;> first | trivial | exact absurd hkind.symm hnp)
  have h2 := represent_hom (Dual.scale_hom e.2.scale) (n + 1) (kw.tr UQ.phys).dual E k
  rw [(dualU_tr kw e.2.scale).2, ← ht] at h2
  rw [(dualU_tr kw e.2.scale).1] at h1
  revert h1 h2
  generalize represent (n + 1) (kw.tr UQ.phys).dual (X.tr UQ.phys) k = M
  generalize representU (n + 1) kw.dualU X k = A
  generalize represent (n + 1) (kw.tr UQ.phys).dual E k = B
  intro h1 h2
  cases h2 with
  | err e' => cases h1; exact .err _
  | @ok b b' hb =>
    cases h1 with
    | @ok a _ ha =>
      exact columnU_rel ha.1 (ha.2.trans hb.symm)

/-- columns with the physical types of the differentiated fields -/
inductive ColsRel : List RDim → List (Vel (UQ ℝ)) → List (Vel ℝ) → Prop where
  | nil : ColsRel [] [] []
  | cons {d ds c c' cs cs'} : Vel.RelF (fun x => x.div d) c c' → ColsRel ds cs cs' → ColsRel (d :: ds) (c :: cs) (c' :: cs')

theorem mapM_cols {F : Vel ℝ × RUnit → Res (Vel (UQ ℝ))} {G : Vel ℝ → Res (Vel ℝ)} (L : List (Vel ℝ × RUnit))
    (h : ∀ e ∈ L, RelRes (Vel.RelF fun d => d.div e.2.dim) (F e) (G e.1)) :
    RelRes (ColsRel (L.map fun e => e.2.dim)) (L.mapM F) ((L.map Prod.fst).mapM G) := by
  induction L with
  | nil => exact .ok .nil
  | cons e L ih =>
    simp only [List.map_cons, List.mapM_cons]
    exact .bind (h e (by simp)) fun a b hab => .bind (ih fun e' he' => h e' (by simp [he'])) fun as bs hs =>
      .ok (.cons hab hs)

theorem basis_len (p : Pos (UQ ℝ)) : p.kind.basis.length = p.columnUnits.length := by cases p <;> rfl

theorem jacobian_rel {kw : Kw (UQ ℝ)} (hk : kw.WD) {p : Pos (UQ ℝ)} (hp : p.WD) (hnp : p.kind ≠ .prolate) (k : Kind) :
    RelRes (ColsRel (p.columnUnits.map fun u => u.dim)) (jacobianU kw p k)
      (jacobian (kw.tr UQ.phys) (p.tr UQ.phys) k) := by
  have := mapM_cols (F := fun e => do (← representAsU kw.dualU (← p.seedU e.1) k).columnU e.2)
    (G := fun e => do (← representAs (kw.tr UQ.phys).dual (← (p.tr UQ.phys).seed e) k).tangent)
    (p.kind.basis.zip p.columnUnits) (fun e he => column_aux 199 hk hp hnp he k)
  rw [List.map_fst_zip (basis_len p).le] at this
  have e : (p.kind.basis.zip p.columnUnits).map (fun e => e.2.dim) = p.columnUnits.map fun u => u.dim := by
    rw [show (fun e : Vel ℝ × RUnit => e.2.dim) = (fun u => u.dim) ∘ Prod.snd from rfl, ← List.map_map,
      List.map_snd_zip (basis_len p).ge]
  rw [e] at this
  unfold jacobian
  rw [tr_kind]
  exact this

end Verif
