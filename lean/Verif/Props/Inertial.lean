import Verif.Props.Operators

/-!
# C86: operators keep free motion free
-/

namespace Verif
open Spec

/-- `op` acts as `(x, t) ↦ (R x + t v + d, t + τ)` -/
def ActsBy (f : Event → Event) (R : Mat3) (v d : V3) (τ : ℝ) : Prop :=
  ∀ x t, f (x, t) = (((mulV R x).add (V3.smul t v)).add d, t + τ)

theorem actsBy_id : ActsBy (fun e => e) 1 V3.zero V3.zero 0 := by
  intro x t
  ext <;> simp [mulV, V3.add, V3.smul, V3.zero]

theorem actsBy_comp {f g : Event → Event} {R R' v v' d d' τ τ'} (hf : ActsBy f R v d τ)
    (hg : ActsBy g R' v' d' τ') :
    ActsBy (fun e => g (f e)) (R' * R) ((mulV R' v).add v')
      (((mulV R' d).add (V3.smul τ v')).add d') (τ + τ') := by
  intro x t
  show g (f (x, t)) = _
  rw [hf, hg]
  ext <;> simp [Matrix.mul_apply, Fin.sum_univ_three, mulV, V3.add, V3.smul] <;> ring

theorem orth_one : Orthogonal 1 := by simp [Orthogonal]

theorem orth_mul {A B : Mat3} (ha : Orthogonal A) (hb : Orthogonal B) : Orthogonal (A * B) := by
  unfold Orthogonal at *
  rw [Matrix.transpose_mul, Matrix.mul_assoc, ← Matrix.mul_assoc B, hb, Matrix.one_mul, ha]

theorem act_affine (op : Op) :
    ∃ R v d τ, ActsBy (act op) R v d τ ∧ (Rigid op → Orthogonal R) := by
  induction op using Op.ind with
  | id => exact ⟨_, _, _, _, by simpa [act] using actsBy_id, fun _ => orth_one⟩
  | rot R =>
    refine ⟨R, V3.zero, V3.zero, 0, ?_, fun h => h⟩
    intro x t
    ext <;> simp [act, mulV, V3.add, V3.smul, V3.zero]
  | sp p =>
    refine ⟨1, V3.zero, point p, 0, ?_, fun _ => orth_one⟩
    intro x t
    ext <;> simp [act, mulV, V3.add, V3.smul, V3.zero]
  | tr p =>
    refine ⟨1, V3.zero, point p.q, p.t, ?_, fun _ => orth_one⟩
    intro x t
    ext <;> simp [act, mulV, V3.add, V3.smul, V3.zero]
  | bo w =>
    refine ⟨1, velV w, V3.zero, 0, ?_, fun _ => orth_one⟩
    intro x t
    ext <;> simp [act, mulV, V3.add, V3.smul, V3.zero]
  | vb w => exact ⟨_, _, _, _, by simpa [act] using actsBy_id, fun _ => orth_one⟩
  | ga R p w =>
    refine ⟨R, velV w, (point p.q).add (V3.smul p.t (velV w)), p.t, ?_, fun h => h⟩
    intro x t
    ext <;> simp [act, mulV, V3.add, V3.smul] <;> ring
  | pi ops ih =>
    have : ∃ R v d τ, ActsBy (actAll ops) R v d τ ∧ ((∀ o ∈ ops, Rigid o) → Orthogonal R) := by
      induction ops with
      | nil => exact ⟨_, _, _, _, by simpa [actAll] using actsBy_id, fun _ => orth_one⟩
      | cons o os ih2 =>
        obtain ⟨R, v, d, τ, h1, r1⟩ := ih o (by simp)
        obtain ⟨R', v', d', τ', h2, r2⟩ := ih2 (fun o' ho => ih o' (by simp [ho]))
        exact ⟨_, _, _, _, by simpa [actAll] using actsBy_comp h1 h2, fun h =>
          orth_mul (r2 fun o' ho => h o' (by simp [ho])) (r1 (h o (by simp)))⟩
    obtain ⟨R, v, d, τ, h, r⟩ := this
    refine ⟨R, v, d, τ, by intro x t; rw [act]; exact h x t, fun g => r ?_⟩
    exact (everyAll_iff ops).mp (by simpa [Rigid, Every] using g)

/-- **C86.** Every operator with meaningful parameters, however nested, is one affine map of space
and time: there are a matrix `R`, a velocity `v`, a displacement `d` and a time shift `τ`, belonging
to the operator alone, such that calling it on any 3-D position, of any class, at any time `t` gives
the position `R x + t v + d`, in the same class, at the time `t + τ`, whenever it gives anything; and
it always does for `CartesianPos3D`. `R` is orthogonal if all rotations inside the operator are. -/
theorem C86_affine (op : Op) (w : WellFormed op) :
    ∃ (R : Mat3) (v d : V3) (τ : ℝ), (Rigid op → Orthogonal R) ∧
      (∀ (q : Pos ℝ) (t : ℝ) (a : Arg), Valid3 q → op.call (.posTime q t) = .ok a →
        ∃ q', a = .posTime q' (t + τ) ∧ q'.kind = q.kind ∧
          point q' = ((mulV R (point q)).add (V3.smul t v)).add d) ∧
      ∀ x y z t, op.call (.posTime (.cart3 x y z) t) =
        let p := ((mulV R ⟨x, y, z⟩).add (V3.smul t v)).add d
        .ok (.posTime (.cart3 p.x p.y p.z) (t + τ)) := by
  obtain ⟨R, v, d, τ, h, r⟩ := act_affine op
  have key : ∀ (q : Pos ℝ) (t : ℝ) (a : Arg), Valid3 q → op.call (.posTime q t) = .ok a →
      ∃ q', a = .posTime q' (t + τ) ∧ q'.kind = q.kind ∧
        point q' = ((mulV R (point q)).add (V3.smul t v)).add d := by
    intro q t a hq hc
    obtain ⟨q', t', rfl, s⟩ := call_sound op w q t a hq hc
    have e := s.act
    rw [h] at e
    obtain ⟨e1, rfl⟩ := Prod.mk.inj e
    exact ⟨q', rfl, s.kind, e1⟩
  refine ⟨R, v, d, τ, r, key, fun x y z t => ?_⟩
  obtain ⟨a, ha⟩ := call_total op w (.cart3 x y z) t ⟨trivial, rfl⟩ (Or.inl rfl)
  obtain ⟨q', rfl, hk, hp⟩ := key (.cart3 x y z) t a ⟨trivial, rfl⟩ ha
  rw [ha]
  cases q' <;> try (cases hk; done)
  simp only [point] at hp
  rw [← hp]

/-- **C86.** One `GalileanOperator` does what any operator does: for every operator with meaningful
parameters, however nested, there is a single `GalileanOperator` with a Cartesian translation and boost
that sends every Cartesian position and time to the same result, and every position of another class to
the same point, class and time whenever both return. -/
theorem C86_one_galilean (op : Op) (w : WellFormed op) :
    ∃ (R : Mat3) (τ dx dy dz vx vy vz : ℝ), (Rigid op → Orthogonal R) ∧
      (∀ x y z t, op.call (.posTime (.cart3 x y z) t) =
        (Op.galilean R ⟨τ, .cart3 dx dy dz, lightSpeed⟩ (.cart3 vx vy vz)).call (.posTime (.cart3 x y z) t)) ∧
      ∀ (q : Pos ℝ) (t : ℝ) (a b : Arg), Valid3 q → op.call (.posTime q t) = .ok a →
        (Op.galilean R ⟨τ, .cart3 dx dy dz, lightSpeed⟩ (.cart3 vx vy vz)).call (.posTime q t) = .ok b →
        ∃ p p' t', a = .posTime p t' ∧ b = .posTime p' t' ∧ p.kind = p'.kind ∧
          point p = point p' := by
  obtain ⟨R, v, d, τ, r, h, hc⟩ := C86_affine op w
  have hd : Valid3 (.cart3 (d.x - τ * v.x) (d.y - τ * v.y) (d.z - τ * v.z)) := ⟨trivial, rfl⟩
  have gal := C30_galilean_affine R ⟨τ, .cart3 (d.x - τ * v.x) (d.y - τ * v.y) (d.z - τ * v.z), lightSpeed⟩
    v.x v.y v.z
  refine ⟨R, τ, d.x - τ * v.x, d.y - τ * v.y, d.z - τ * v.z, v.x, v.y, v.z, r, ?_, ?_⟩
  · intro x y z t
    have hq : Valid3 (.cart3 x y z) := ⟨trivial, rfl⟩
    obtain ⟨b, hb⟩ := C30_galilean_returns R
      ⟨τ, .cart3 (d.x - τ * v.x) (d.y - τ * v.y) (d.z - τ * v.z), lightSpeed⟩ v.x v.y v.z
      (.cart3 x y z) t hq hd (Or.inl rfl)
    obtain ⟨p, rfl, hk, -, hp⟩ := gal (.cart3 x y z) t b hq hd hb
    rw [hc, hb]
    cases p <;> try (cases hk; done)
    simp only [point] at hp
    have e1 := congrArg V3.x hp
    have e2 := congrArg V3.y hp
    have e3 := congrArg V3.z hp
    simp only [mulV, V3.add, V3.smul] at e1 e2 e3 ⊢
    rw [e1, e2, e3]
    ring_nf
  · intro q t a b hq ha hb
    obtain ⟨p, rfl, hk, hp⟩ := h q t a hq ha
    obtain ⟨p', rfl, hk', -, hp'⟩ := gal q t b hq hd hb
    refine ⟨p, p', _, rfl, rfl, hk.trans hk'.symm, ?_⟩
    rw [hp, hp']
    ext <;> simp [mulV, V3.add, V3.smul, point] <;> ring

/-- **C86.** Free motion stays free motion: if a particle moves on the line `x₀ + t u`, the operator
sends all its events to one line `x₀' + t' u'`, whatever class the positions are given in; and the
new velocity is `R u + v` with the same `R` and `v` for every particle, so for operators whose
rotations are orthogonal the relative speed of any two particles is unchanged. -/
theorem C86_free_motion (op : Op) (w : WellFormed op) :
    ∃ newVel : V3 → V3, (∃ (R : Mat3) (v : V3), ∀ u, newVel u = (mulV R u).add v) ∧
      (Rigid op → ∀ u u', dist3 (newVel u) (newVel u') = dist3 u u') ∧
      ∀ x₀ u : V3, ∃ x₀' : V3, ∀ (q : Pos ℝ) (t : ℝ) (a : Arg), Valid3 q →
        point q = x₀.add (V3.smul t u) → op.call (.posTime q t) = .ok a →
          ∃ q' t', a = .posTime q' t' ∧ point q' = x₀'.add (V3.smul t' (newVel u)) := by
  obtain ⟨R, v, d, τ, r, h, -⟩ := C86_affine op w
  refine ⟨fun u => (mulV R u).add v, ⟨R, v, fun _ => rfl⟩, ?_, fun x₀ u =>
    ⟨((mulV R x₀).add d).sub (V3.smul τ ((mulV R u).add v)), ?_⟩⟩
  · intro g u u'
    simp only [dist3, sub_add_right, mulV_sub, norm_mulV R (r g)]
  intro q t a hq hp hc
  obtain ⟨q', rfl, -, hx⟩ := h q t a hq hc
  refine ⟨q', _, rfl, ?_⟩
  rw [hx, hp]
  ext <;> simp [mulV, V3.add, V3.sub, V3.smul] <;> ring

/-- a nested operator: its hypotheses are met, and it moves a particle -/
example : ∃ a, exampleOp.call (.posTime (.cart3 7 8 9) 1) = .ok a ∧
    ∃ R τ dx dy dz vx vy vz, Orthogonal R ∧
      (Op.galilean R ⟨τ, .cart3 dx dy dz, lightSpeed⟩ (.cart3 vx vy vz)).call (.posTime (.cart3 7 8 9) 1) = .ok a := by
  obtain ⟨a, ha⟩ := call_total exampleOp exampleOp_wf (.cart3 7 8 9) 1 ⟨trivial, rfl⟩ (Or.inl rfl)
  obtain ⟨R, τ, dx, dy, dz, vx, vy, vz, r, h, -⟩ := C86_one_galilean exampleOp exampleOp_wf
  exact ⟨a, ha, R, τ, dx, dy, dz, vx, vy, vz, r exampleOp_rigid, (h 7 8 9 1).symm.trans ha⟩

end Verif
