import Verif.Euler
import Verif.Props.Inertial
import Verif.Props.OpQty
import Mathlib.LinearAlgebra.Matrix.Determinant.Basic

/-!
# C87: rotations from Euler angles

Specification: the textbook rotation matrices about the axes, and their product.
-/

namespace Verif
open Spec

/-- the textbook rotation about an axis, anticlockwise seen against the axis -/
noncomputable def axisRot : Axis → ℝ → Mat3
  | .x, a => !![1, 0, 0; 0, Real.cos a, -Real.sin a; 0, Real.sin a, Real.cos a]
  | .y, a => !![Real.cos a, 0, Real.sin a; 0, 1, 0; -Real.sin a, 0, Real.cos a]
  | .z, a => !![Real.cos a, -Real.sin a, 0; Real.sin a, Real.cos a, 0; 0, 0, 1]

/-- rotations about fixed axes one after the other, first one first: the first matrix stands on the right -/
noncomputable def extrinsicRot : List (Axis × ℝ) → Mat3
  | [] => 1
  | (k, a) :: l => extrinsicRot l * axisRot k a

/-- rotations about the axes of the rotated system: the first matrix stands on the left -/
noncomputable def intrinsicRot : List (Axis × ℝ) → Mat3
  | [] => 1
  | (k, a) :: l => axisRot k a * intrinsicRot l

/-- the angle in radians -/
noncomputable def NumQty.radians (a : NumQty) : ℝ := a.val * a.factor

/-! ## quaternions -/

theorem half (a : ℝ) : Real.cos a = Real.cos (a / 2) * Real.cos (a / 2) - Real.sin (a / 2) * Real.sin (a / 2) ∧
    Real.sin a = 2 * (Real.sin (a / 2) * Real.cos (a / 2)) ∧
    Real.sin (a / 2) * Real.sin (a / 2) + Real.cos (a / 2) * Real.cos (a / 2) = 1 := by
  refine ⟨?_, ?_, ?_⟩
  · rw [← Real.cos_add]; congr 1; ring
  · have := Real.sin_add (a / 2) (a / 2)
    rw [add_halves] at this
    rw [this]; ring
  · nlinarith [Real.sin_sq_add_cos_sq (a / 2)]

theorem quat_elem (k : Axis) (a : ℝ) : quatMatrix (elemQuat k a) = axisRot k a := by
  obtain ⟨h1, h2, h3⟩ := half a
  cases k <;> ext i j <;> fin_cases i <;> fin_cases j <;>
    simp [quatMatrix, elemQuat, axisRot, h1, h2] <;> linarith

theorem quat_compose (p q : Quat) : quatMatrix (composeQuat p q) = quatMatrix p * quatMatrix q := by
  ext i j
  fin_cases i <;> fin_cases j <;>
    simp [quatMatrix, composeQuat, Matrix.mul_apply, Fin.sum_univ_three] <;> ring

theorem quat_rest (r : Quat) (l : List (Axis × ℝ)) :
    quatMatrix (composeRest true r l) = quatMatrix r * intrinsicRot l ∧
    quatMatrix (composeRest false r l) = extrinsicRot l * quatMatrix r := by
  induction l generalizing r with
  | nil => simp [composeRest, intrinsicRot, extrinsicRot]
  | cons x l ih =>
    obtain ⟨k, a⟩ := x
    simp only [composeRest, intrinsicRot, extrinsicRot, if_true, Bool.false_eq_true, if_false]
    rw [(ih _).1, (ih _).2, quat_compose, quat_compose, quat_elem]
    exact ⟨Matrix.mul_assoc _ _ _, (Matrix.mul_assoc _ _ _).symm⟩

theorem axisRot_orth (k : Axis) (a : ℝ) : Orthogonal (axisRot k a) ∧ (axisRot k a).det = 1 := by
  have h := Real.sin_sq_add_cos_sq a
  constructor
  · unfold Orthogonal
    cases k <;> ext i j <;> fin_cases i <;> fin_cases j <;>
      simp [axisRot, Matrix.mul_apply, Fin.sum_univ_three] <;> nlinarith
  · cases k <;> simp [axisRot, Matrix.det_fin_three] <;> nlinarith

theorem eulerRot_orth (l : List (Axis × ℝ)) :
    (Orthogonal (intrinsicRot l) ∧ (intrinsicRot l).det = 1) ∧
    (Orthogonal (extrinsicRot l) ∧ (extrinsicRot l).det = 1) := by
  induction l with
  | nil => simp [intrinsicRot, extrinsicRot, orth_one]
  | cons x l ih =>
    obtain ⟨k, a⟩ := x
    obtain ⟨⟨h1, h2⟩, h3, h4⟩ := ih
    have e := axisRot_orth k a
    simp only [intrinsicRot, extrinsicRot, Matrix.det_mul, h2, h4, e.2, mul_one, and_true]
    exact ⟨orth_mul e.1 h1, orth_mul h3 e.1⟩

theorem euler_radians_ok {a : NumQty} (h : a.dim = .ang) : eulerRadians a = .ok a.radians := by
  have : Real.pi / 180 ≠ 0 := by positivity
  rw [eulerRadians, if_pos h, div_mul_cancel₀ _ this]; rfl

theorem mapM_radians {l : List NumQty} (h : ∀ a ∈ l, a.dim = .ang) :
    l.mapM eulerRadians = .ok (l.map NumQty.radians) := by
  induction l with
  | nil => rfl
  | cons a l ih =>
    rw [List.mapM_cons, euler_radians_ok (h a (by simp)), ih fun b hb => h b (by simp [hb])]
    rfl

/-- The letters of the axes. -/
def lower : Axis → Char
  | .x => 'x'
  | .y => 'y'
  | .z => 'z'

/-- The capital letters of the axes. -/
def upper : Axis → Char
  | .x => 'X'
  | .y => 'Y'
  | .z => 'Z'

/-- one to three axes, neighbours different -/
def GoodAxes (axes : List Axis) : Prop := 1 ≤ axes.length ∧ axes.length ≤ 3 ∧ axes.IsChain (· ≠ ·)

theorem hasRepeat_iff (l : List Axis) : hasRepeat l = false ↔ l.IsChain (· ≠ ·) := by
  induction l with
  | nil => simp [hasRepeat]
  | cons a l ih =>
    cases l with
    | nil => simp [hasRepeat]
    | cons b l => simp [hasRepeat, ih]

theorem letters (axes : List Axis) :
    (axes.map lower).mapM letterOf = some (axes.map fun k => (k, false)) ∧
    (axes.map upper).mapM letterOf = some (axes.map fun k => (k, true)) := by
  induction axes with
  | nil => exact ⟨rfl, rfl⟩
  | cons k l ih =>
    simp only [List.map_cons, List.mapM_cons, ih.1, ih.2]
    cases k <;> exact ⟨rfl, rfl⟩

theorem parse_good {axes : List Axis} (h : GoodAxes axes) :
    parseSeq (axes.map lower) = some (false, axes) ∧ parseSeq (axes.map upper) = some (true, axes) := by
  obtain ⟨h1, h2, h3⟩ := h
  have h4 := (hasRepeat_iff axes).mpr h3
  have e : ∀ b : Bool, List.map (Prod.fst ∘ fun k : Axis => (k, b)) axes = axes := fun b => List.map_id axes
  have ne : axes ≠ [] := by rintro rfl; simp at h1
  have h5 : ¬ (axes.length < 1 ∨ 3 < axes.length) := by omega
  obtain ⟨k, hk⟩ := List.exists_mem_of_ne_nil axes ne
  simp only [parseSeq, letters, List.length_map, h5, if_false, List.map_map, e, h4]
  constructor
  · rw [if_neg (by simp), if_neg (by simp; exact ⟨k, hk⟩), if_pos (by simp)]
  · rw [if_neg (by simp), if_pos (by simp)]

/-- **C87.** `from_euler` makes the textbook rotation: with one to three axes, neighbours different, and one angle for each, in any units, small letters
give the rotations about the fixed axes one after the other, capitals the rotations about the moving axes. -/
theorem C87_euler (axes : List Axis) (angles : List NumQty) (h : GoodAxes axes) (hl : axes.length = angles.length)
    (ha : ∀ a ∈ angles, a.dim = .ang) :
    fromEulerCall (axes.map lower) angles = .ok (.rotation (extrinsicRot (axes.zip (angles.map NumQty.radians)))) ∧
    fromEulerCall (axes.map upper) angles = .ok (.rotation (intrinsicRot (axes.zip (angles.map NumQty.radians)))) := by
  obtain ⟨p1, p2⟩ := parse_good h
  have hr := mapM_radians ha
  obtain ⟨h1, -, -⟩ := h
  rcases axes with _ | ⟨k, axes⟩
  · simp at h1
  rcases angles with _ | ⟨a, angles⟩
  · simp at hl
  constructor
  · simp only [fromEulerCall, hr, p1, ok_bind, List.length_map, hl, if_true]
    simp only [List.map_cons, List.zip_cons_cons, (quat_rest _ _).2, quat_elem, extrinsicRot]
  · simp only [fromEulerCall, hr, p2, ok_bind, List.length_map, hl, if_true]
    simp only [List.map_cons, List.zip_cons_cons, (quat_rest _ _).1, quat_elem, intrinsicRot]

/-- **C87.** Which sequences are accepted: if `from_euler` returns, all angles are angles, and the sequence is one to three letters, all small or all
capital, no neighbours equal. -/
theorem C87_accepts (seq : List Char) (angles : List NumQty) (op : Op) (h : fromEulerCall seq angles = .ok op) :
    (∀ a ∈ angles, a.dim = .ang) ∧ ∃ axes, GoodAxes axes ∧ axes.length = angles.length ∧
      (seq = axes.map lower ∨ seq = axes.map upper) := by
  have key : ∀ l r, List.mapM eulerRadians l = .ok r → r.length = l.length ∧ ∀ a ∈ l, a.dim = Dim.ang := by
    intro l
    induction l with
    | nil => intro r h; cases h; simp
    | cons a l ih =>
      intro r h
      rw [List.mapM_cons] at h
      obtain ⟨x, hx, h⟩ := (bind_ok_iff _ _ _).mp h
      obtain ⟨y, hy, h⟩ := (bind_ok_iff _ _ _).mp h
      obtain rfl := Except.ok.inj h
      obtain ⟨i1, i2⟩ := ih y hy
      refine ⟨by simp [i1], ?_⟩
      intro b hb
      rcases List.mem_cons.mp hb with rfl | hb
      · by_contra hd
        rw [eulerRadians, if_neg hd] at hx
        cases hx
      · exact i2 b hb
  have lets : ∀ (s : List Char) ls, s.mapM letterOf = some ls →
      s = ls.map fun l => if l.2 then upper l.1 else lower l.1 := by
    intro s
    induction s with
    | nil => intro ls h; cases h; rfl
    | cons c s ih =>
      intro ls h
      rw [List.mapM_cons] at h
      cases hc : letterOf c with
      | none => rw [hc] at h; cases h
      | some x =>
        cases hs : List.mapM letterOf s with
        | none => rw [hc, hs] at h; cases h
        | some y =>
          rw [hc, hs] at h
          cases h
          rw [List.map_cons, ← ih y hs]
          congr 1
          unfold letterOf at hc
          split at hc <;> first | (cases hc; rfl) | cases hc
  simp only [fromEulerCall] at h
  obtain ⟨rad, hr, h⟩ := (bind_ok_iff _ _ _).mp h
  obtain ⟨k1, k2⟩ := key _ _ hr
  refine ⟨k2, ?_⟩
  cases hp : parseSeq seq with
  | none => rw [hp] at h; cases h
  | some x =>
    obtain ⟨b, axes⟩ := x
    rw [hp] at h
    simp only at h
    split at h
    · rename_i hlen
      refine ⟨axes, ?_⟩
      simp only [parseSeq] at hp
      cases hs : List.mapM letterOf seq with
      | none => rw [hs] at hp; cases hp
      | some ls =>
        rw [hs] at hp
        simp only at hp
        have e := lets _ _ hs
        split at hp
        · cases hp
        rename_i n1
        split at hp
        · cases hp
        rename_i n2
        have good : GoodAxes (ls.map Prod.fst) := by
          refine ⟨by rw [List.length_map]; omega, by rw [List.length_map]; omega, ?_⟩
          exact (hasRepeat_iff _).mp (by simpa using n2)
        split at hp
        · rename_i hall
          cases hp
          refine ⟨good, hlen.trans k1, Or.inr ?_⟩
          rw [e, List.map_map]
          refine List.map_congr_left fun l hl => ?_
          simp [List.all_eq_true.mp hall l hl]
        · split at hp
          · rename_i hall
            cases hp
            refine ⟨good, hlen.trans k1, Or.inl ?_⟩
            rw [e, List.map_map]
            refine List.map_congr_left fun l hl => ?_
            have := List.all_eq_true.mp hall l hl
            simp at this
            simp [this]
          · cases hp
    · cases h

/-- **C87.** Whatever `from_euler` returns is a rotation: orthogonal, with determinant 1, so the operator is rigid and with meaningful parameters. -/
theorem C87_rigid (seq : List Char) (angles : List NumQty) (op : Op) (h : fromEulerCall seq angles = .ok op) :
    ∃ R, op = .rotation R ∧ Orthogonal R ∧ R.det = 1 ∧ Rigid op ∧ WellFormed op := by
  obtain ⟨ha, axes, g, hl, hs⟩ := C87_accepts seq angles op h
  have o := eulerRot_orth (axes.zip (angles.map NumQty.radians))
  have e := C87_euler axes angles g hl ha
  rcases hs with rfl | rfl
  · obtain rfl := Except.ok.inj (e.1.symm.trans h)
    exact ⟨_, rfl, o.2.1, o.2.2, o.2.1, trivial⟩
  · obtain rfl := Except.ok.inj (e.2.symm.trans h)
    exact ⟨_, rfl, o.1.1, o.1.2, o.1.1, trivial⟩

/-- **C87.** The units of the angles do not matter. -/
theorem C87_units (seq : List Char) (as bs : List NumQty) (ha : ∀ a ∈ as, a.dim = .ang) (hb : ∀ b ∈ bs, b.dim = .ang)
    (h : as.map NumQty.radians = bs.map NumQty.radians) : fromEulerCall seq as = fromEulerCall seq bs := by
  simp only [fromEulerCall, mapM_radians ha, mapM_radians hb, h]

theorem extrinsic_append (l m : List (Axis × ℝ)) : extrinsicRot (l ++ m) = extrinsicRot m * extrinsicRot l := by
  induction l with
  | nil => simp [extrinsicRot]
  | cons x l ih => simp only [List.cons_append, extrinsicRot, ih, Matrix.mul_assoc]

theorem extrinsic_reverse (l : List (Axis × ℝ)) : extrinsicRot l.reverse = intrinsicRot l := by
  induction l with
  | nil => rfl
  | cons x l ih => rw [List.reverse_cons, extrinsic_append, ih]; simp [extrinsicRot, intrinsicRot]

theorem good_reverse {axes : List Axis} (h : GoodAxes axes) : GoodAxes axes.reverse := by
  obtain ⟨h1, h2, h3⟩ := h
  refine ⟨by simpa using h1, by simpa using h2, ?_⟩
  rw [List.isChain_reverse]
  exact h3.imp fun _ _ h => h.symm

theorem zip_reverse' {α β : Type} (l : List α) (m : List β) (h : l.length = m.length) :
    (l.zip m).reverse = l.reverse.zip m.reverse := by
  induction l generalizing m with
  | nil => simp
  | cons a l ih =>
    rcases m with _ | ⟨b, m⟩
    · simp at h
    · have h' : l.length = m.length := by simpa using h
      rw [List.zip_cons_cons, List.reverse_cons, List.reverse_cons, List.reverse_cons, ih m h',
        List.zip_append (by simpa using h')]
      rfl

/-- **C87.** Rotations about the moving axes are the rotations about the fixed axes in the opposite order. -/
theorem C87_intrinsic_is_reversed_extrinsic (axes : List Axis) (angles : List NumQty) (h : GoodAxes axes)
    (hl : axes.length = angles.length) (ha : ∀ a ∈ angles, a.dim = .ang) :
    fromEulerCall (axes.map upper) angles = fromEulerCall (axes.reverse.map lower) angles.reverse := by
  rw [(C87_euler axes angles h hl ha).2, (C87_euler axes.reverse angles.reverse (good_reverse h) (by simpa using hl)
    (by simpa using ha)).1, ← extrinsic_reverse]
  rw [List.map_reverse]
  congr 3
  exact zip_reverse' _ _ (by simpa using hl)

/-- the opposite angle -/
noncomputable def NumQty.opp (a : NumQty) : NumQty := { a with val := -a.val }

theorem axisRot_neg (k : Axis) (a : ℝ) : axisRot k (-a) = (axisRot k a).transpose := by
  cases k <;> ext i j <;> fin_cases i <;> fin_cases j <;> simp [axisRot]

theorem extrinsic_transpose (l : List (Axis × ℝ)) :
    (extrinsicRot l).transpose = intrinsicRot (l.map fun x => (x.1, -x.2)) := by
  induction l with
  | nil => simp [extrinsicRot, intrinsicRot]
  | cons x l ih => simp only [extrinsicRot, List.map_cons, intrinsicRot, Matrix.transpose_mul, ih, axisRot_neg]

/-- **C87.** The inverse of the rotation with small letters is the one with the same capital letters and the opposite angles. -/
theorem C87_inverse (axes : List Axis) (angles : List NumQty) (h : GoodAxes axes) (hl : axes.length = angles.length)
    (ha : ∀ a ∈ angles, a.dim = .ang) :
    (do (← fromEulerCall (axes.map lower) angles).inverse) = fromEulerCall (axes.map upper) (angles.map NumQty.opp) := by
  rw [(C87_euler axes angles h hl ha).1, (C87_euler axes (angles.map .opp) h (by simpa using hl) (by
    intro a ha'; obtain ⟨b, hb, rfl⟩ := List.mem_map.mp ha'; exact ha b hb)).2]
  simp only [ok_bind, Op.inverse, extrinsic_transpose]
  congr 3
  rw [List.map_map]
  have : ((fun a => NumQty.radians a) ∘ NumQty.opp) = fun a => -a.radians := by
    funext a; simp [NumQty.radians, NumQty.opp]
  rw [this]
  clear ha hl h this
  induction axes generalizing angles with
  | nil => rfl
  | cons k l ih => cases angles <;> simp_all

/-- **C87.** Which way it turns: about the z axis by the angle θ, a point with azimuth φ gets the azimuth φ + θ and keeps its height and its
distance from the axis; likewise about the other axes. -/
theorem C87_turns (r p h : ℝ) (a : NumQty) (ha : a.dim = .ang) :
    (∃ R, fromEulerCall ['z'] [a] = .ok (.rotation R) ∧ mulV R ⟨r * Real.cos p, r * Real.sin p, h⟩ =
      ⟨r * Real.cos (p + a.radians), r * Real.sin (p + a.radians), h⟩) ∧
    (∃ R, fromEulerCall ['x'] [a] = .ok (.rotation R) ∧ mulV R ⟨h, r * Real.cos p, r * Real.sin p⟩ =
      ⟨h, r * Real.cos (p + a.radians), r * Real.sin (p + a.radians)⟩) ∧
    (∃ R, fromEulerCall ['y'] [a] = .ok (.rotation R) ∧ mulV R ⟨r * Real.sin p, h, r * Real.cos p⟩ =
      ⟨r * Real.sin (p + a.radians), h, r * Real.cos (p + a.radians)⟩) := by
  have g : ∀ k : Axis, fromEulerCall [lower k] [a] = .ok (.rotation (axisRot k a.radians)) := fun k => by
    have := (C87_euler [k] [a] ⟨by simp, by simp, by simp⟩ rfl (by simpa using ha)).1
    simpa [extrinsicRot] using this
  refine ⟨⟨_, g .z, ?_⟩, ⟨_, g .x, ?_⟩, ⟨_, g .y, ?_⟩⟩ <;> ext <;>
    simp [mulV, axisRot, Real.cos_add, Real.sin_add] <;> ring

/-- **C87.** `GalileanRotation(x)`: an array and another `GalileanRotation` give their matrix; a Quantity gives its matrix in the unit 1 if it is
dimensionless and raises otherwise. No matrix is refused for not being orthogonal. -/
theorem C87_constructor (R : Mat3) (d : Dim) (f : ℝ) :
    mkRotation (.arr R) = .ok (.rotation R) ∧ mkRotation (.op R) = .ok (.rotation R) ∧
    (mkRotation (.qty R {} f) = .ok (.rotation (f • R))) ∧ (d ≠ {} → mkRotation (.qty R d f) = .error .units) := by
  refine ⟨rfl, rfl, ?_, fun h => by rw [mkRotation, if_neg h]⟩
  rw [mkRotation, if_pos rfl]
  congr 2
  ext i j
  simp [mul_comm]

theorem foldl_ext (l : List (Axis × ℝ)) (A : Mat3) (m : Axis → ℝ → Mat3) (hm : ∀ k a, m k a = axisRot k a) :
    (l.map fun p => m p.1 p.2).foldl (fun A B => A * B) A = A * intrinsicRot l ∧
    (l.map fun p => m p.1 p.2).foldl (fun A B => B * A) A = extrinsicRot l * A := by
  induction l generalizing A with
  | nil => simp [intrinsicRot, extrinsicRot]
  | cons x l ih =>
    obtain ⟨k, a⟩ := x
    rw [List.map_cons, List.foldl_cons, List.foldl_cons, (ih _).1, (ih _).2]
    simp only [hm, intrinsicRot, extrinsicRot, Matrix.mul_assoc, and_self]

theorem axis_matrix (k : Axis) (a : ℝ) : k.matrix a = axisRot k a := by
  cases k <;> ext i j <;> fin_cases i <;> fin_cases j <;> simp [Axis.matrix, axisRot, eulerX, eulerY, eulerZ]

/-- **C87.** The call with letters and Quantities gives the operator of the model of C56, so what C56 says of that model holds of the quaternions that
are computed. -/
theorem C87_refines (axes : List Axis) (angles : List NumQty) (h : GoodAxes axes) (hl : axes.length = angles.length)
    (ha : ∀ a ∈ angles, a.dim = .ang) :
    fromEulerCall (axes.map lower) angles = .ok (fromEuler false (axes.zip (angles.map NumQty.radians))) ∧
    fromEulerCall (axes.map upper) angles = .ok (fromEuler true (axes.zip (angles.map NumQty.radians))) := by
  rw [(C87_euler axes angles h hl ha).1, (C87_euler axes angles h hl ha).2]
  have f := foldl_ext (axes.zip (angles.map NumQty.radians)) 1 Axis.matrix axis_matrix
  simp only [fromEuler, f.1, f.2, if_true, Bool.false_eq_true, if_false, mul_one, one_mul, and_self]

theorem rot_call (R : Mat3) (x y z t : ℝ) : (Op.rotation R).call (.posTime (.cart3 x y z) t) =
    .ok (.posTime (.cart3 (mulV R ⟨x, y, z⟩).x (mulV R ⟨x, y, z⟩).y (mulV R ⟨x, y, z⟩).z) t) := by
  have w : WellFormed (.rotation R) := trivial
  obtain ⟨a, ha⟩ := call_total (.rotation R) w (.cart3 x y z) t ⟨trivial, rfl⟩ (Or.inl rfl)
  obtain ⟨q', t', rfl, s⟩ := call_sound (.rotation R) w (.cart3 x y z) t a ⟨trivial, rfl⟩ ha
  have hk := s.kind
  obtain ⟨e1, e2⟩ := Prod.mk.inj s.act
  rw [ha]
  cases q' <;> try (cases hk; done)
  simp only [point] at e1
  rw [← e1, e2]

/-- **C87.** The inverse of a rotation operator undoes it, at every Cartesian position and time, iff its matrix is orthogonal; so for the other
matrices, which the constructor accepts too, it does not. -/
theorem C87_inverse_iff (R : Mat3) :
    (∀ x y z t, (do (← (Op.rotation R).inverse).call (← (Op.rotation R).call (.posTime (.cart3 x y z) t))) =
      .ok (.posTime (.cart3 x y z) t)) ↔ Orthogonal R := by
  simp only [Op.inverse, rot_call, ok_bind]
  constructor
  · intro h
    have g : ∀ x y z, mulV R.transpose (mulV R ⟨x, y, z⟩) = ⟨x, y, z⟩ := by
      intro x y z
      have := h x y z 0
      simp only [Except.ok.injEq, Arg.posTime.injEq, Pos.cart3.injEq, and_true] at this
      ext
      · exact this.1
      · exact this.2.1
      · exact this.2.2
    have e : R.transpose * R = 1 := by
      ext i j
      have g1 := g 1 0 0
      have g2 := g 0 1 0
      have g3 := g 0 0 1
      simp only [mulV, V3.mk.injEq, Matrix.transpose_apply] at g1 g2 g3
      fin_cases i <;> fin_cases j <;> simp [Matrix.mul_apply, Fin.sum_univ_three] <;> linarith
    exact mul_eq_one_comm.mp e
  · intro h x y z t
    have e : R.transpose * R = 1 := mul_eq_one_comm.mp h
    have m : ∀ i j, (R.transpose * R) i j = (1 : Mat3) i j := fun i j => by rw [e]
    simp only [Matrix.mul_apply, Fin.sum_univ_three, Matrix.transpose_apply, Matrix.one_apply] at m
    have a00 := m 0 0; have a01 := m 0 1; have a02 := m 0 2
    have a11 := m 1 1; have a12 := m 1 2; have a22 := m 2 2
    simp at a00 a01 a02 a11 a12 a22
    congr 3 <;> simp only [mulV, Matrix.transpose_apply]
    · linear_combination x * a00 + y * a01 + z * a02
    · linear_combination x * a01 + y * a11 + z * a12
    · linear_combination x * a02 + y * a12 + z * a22

/-- a case: three angles in degrees about the fixed axes z, y, x; 180 deg = π rad -/
example : ∃ R, fromEulerCall ['z', 'y', 'x'] [⟨10, .ang, Real.pi / 180⟩, ⟨20, .ang, Real.pi / 180⟩, ⟨1, .ang, 1⟩] = .ok (.rotation R) ∧
    Orthogonal R := by
  have g : GoodAxes [.z, .y, .x] := ⟨by simp, by simp, by decide⟩
  have e := (C87_euler [.z, .y, .x] [⟨10, .ang, Real.pi / 180⟩, ⟨20, .ang, Real.pi / 180⟩, ⟨1, .ang, 1⟩] g rfl (by simp)).1
  exact ⟨_, e, (eulerRot_orth _).2.1⟩

end Verif
