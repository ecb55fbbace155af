import Verif.Props.Operators
import Verif.Props.Frames
import Verif.Props.Space

/-!
# Instances

Concrete cases of theorems on operators, frames and Spaces for which no instance stands beside the theorem.
-/

namespace Verif.Instances3

open Verif Verif.Spec Real

/-! ### Operators -/

/-- a boost by a spherical velocity has an inverse that fails -/
example : ∃ inv, (Op.boost (.sph 1 2 3)).inverse = .ok inv ∧ inv.call (.posTime (.cart3 4 5 6) 2) = .error .check :=
  C27_curvilinear_boost_fails 1 2 3 one_pos _ 2 two_pos

/-- a rotation and a shift -/
noncomputable def a : Op := .rotation !![0, -1, 0; 1, 0, 0; 0, 0, 1]
noncomputable def b : Op := .spatial (.cart3 1 2 3)
noncomputable def c : Op := .boost (.cart3 4 5 6)
def x : Arg := .posTime (.cart3 7 8 9) 1

example : (Op.pipe [a, b, c]).call x = [a, b, c].foldlM (fun y o => o.call y) x := C28_pipe_left_to_right _ x rfl

example : (Op.pipe [a, b]).call x = (a.call x >>= b.call) := C28_or_is_composition a b _ rfl x rfl

/-- three compositions, where the first operator is a `Pipe` -/
example : (Op.pipe [a, b, c]).call x = (Op.pipe ([a] ++ [b, c])).call x :=
  C28_or_assoc (.pipe [a]) b c (.pipe [a, b]) (.pipe [b, c]) _ _ rfl rfl rfl rfl x rfl

example : (Op.pipe [.identity, a]).call x = a.call x := (C28_identity_neutral a _ _ rfl rfl x rfl [] []).1

noncomputable def R : Mat3 := !![0, -1, 0; 1, 0, 0; 0, 0, 1]

/-- a Galilean operator on a Cartesian position -/
example : ∃ q', (Op.galilean R ⟨2, .cart3 1 2 3, lightSpeed⟩ (.cart3 4 5 6)).call x = .ok (.posTime q' 3) ∧
    point q' = ((mulV R ⟨7, 8, 9⟩).add ⟨1, 2, 3⟩).add (V3.smul 3 ⟨4, 5, 6⟩) := by
  have hq : Valid3 (.cart3 7 8 9) := ⟨trivial, rfl⟩
  have hd : Valid3 (.cart3 1 2 3) := ⟨trivial, rfl⟩
  obtain ⟨r, h⟩ := C30_galilean_returns R ⟨2, .cart3 1 2 3, lightSpeed⟩ 4 5 6 (.cart3 7 8 9) 1 hq hd (.inl rfl)
  obtain ⟨q', rfl, -, -, e⟩ := C30_galilean_affine R ⟨2, .cart3 1 2 3, lightSpeed⟩ 4 5 6 (.cart3 7 8 9) 1 r hq hd h
  have h3 : (1 : ℝ) + 2 = 3 := by norm_num
  simp only [h3] at h e
  exact ⟨q', h, e⟩

/-- the nested pipe at two positions -/
example : ∃ q' p' t', exampleOp.call (.posTime (.cart3 7 8 9) 1) = .ok (.posTime q' t') ∧
    exampleOp.call (.posTime (.cart3 1 0 0) 1) = .ok (.posTime p' t') ∧
    dist3 (point q') (point p') = dist3 ⟨7, 8, 9⟩ ⟨1, 0, 0⟩ := by
  have hq : Valid3 (.cart3 7 8 9) := ⟨trivial, rfl⟩
  have hp : Valid3 (.cart3 1 0 0) := ⟨trivial, rfl⟩
  obtain ⟨r, h1⟩ := call_total exampleOp exampleOp_wf _ 1 hq (Or.inl rfl)
  obtain ⟨s, h2⟩ := call_total exampleOp exampleOp_wf _ 1 hp (Or.inl rfl)
  obtain ⟨q', p', -, t', -, rfl, rfl, -, e, -⟩ :=
    C30_distances_preserved exampleOp exampleOp_wf exampleOp_rigid _ _ 1 1 r s s hq hp h1 h2 h2
  exact ⟨q', p', t', h1, h2, e⟩

/-- the same point in two classes: on the z axis, spherical and Cartesian, turned and lifted -/
example : ∃ q' p' t', (Op.pipe [.boost (.cart3 0 0 1), .rotation 1]).call (.posTime (.sph (.dist 3) 0 0) 2) = .ok (.posTime q' t') ∧
    (Op.pipe [.boost (.cart3 0 0 1), .rotation 1]).call (.posTime (.cart3 0 0 3) 2) = .ok (.posTime p' t') ∧ point q' = point p' := by
  have hq : Valid3 (.sph (.dist 3) 0 0) := ⟨⟨by norm_num [DistOk], le_refl _, Real.pi_pos.le⟩, rfl⟩
  have hp : Valid3 (.cart3 0 0 3) := ⟨trivial, rfl⟩
  have w : WellFormed (.pipe [.boost (.cart3 0 0 1), .rotation 1]) := ⟨rfl, trivial, trivial⟩
  have e : point (.sph (.dist 3) 0 0) = point (.cart3 0 0 3) := by simp [point, sphPoint, distOf]
  obtain ⟨r, h1⟩ := call_total _ w _ 2 hq (Or.inr ⟨(fun h => by cases h), by
      intro x hx h
      have := congrArg V3.z h
      simp only [visited, visitedAll, act, List.append_nil, List.mem_append, List.mem_singleton] at hx
      rcases hx with rfl | rfl <;>
        norm_num [point, sphPoint, distOf, velV, V3.smul, V3.add, V3.zero, mulV] at this⟩)
  obtain ⟨s, h2⟩ := call_total _ w _ 2 hp (Or.inl rfl)
  obtain ⟨q', p', t', rfl, rfl, -, -, -, -, h⟩ := C31_class_independent _ w _ _ 2 r s hq hp e h1 h2
  exact ⟨q', p', t', h1, h2, h⟩

/-! ### Frames -/

/-- a Galactocentric frame with the Sun three fifths of its distance above the plane -/
noncomputable def g : Galactocentric := ⟨1, 2, .dist 5, 3, 3, 0⟩

theorem g_ok : FrameOk g := ⟨5, rfl, by norm_num, by norm_num [g]⟩

/-- the same with another distance -/
noncomputable def g' : Galactocentric := ⟨1, 2, .dist 6, 3, 3, 0⟩

theorem g'_ok : FrameOk g' := ⟨6, rfl, by norm_num, by norm_num [g']⟩

theorem g_ne : g ≠ g' := fun h => by
  have := congrArg Galactocentric.distance h
  simp only [g, g', Dist.dist.injEq] at this
  norm_num at this

example (q : Fin 3 → ℝ) : ∃ fwd bwd q', frameTransformOp .icrs (.gcf g) = .ok fwd ∧ frameTransformOp (.gcf g) .icrs = .ok bwd ∧
    fwd.call (.qty q) = .ok (.qty q') ∧ bwd.call (.qty q') = .ok (.qty q) := by
  obtain ⟨fwd, bwd, h1, h2, -, -, h⟩ := C33_round_trip g g_ok
  obtain ⟨q', h3, h4⟩ := (h q 0).1
  exact ⟨fwd, bwd, q', h1, h2, h3, h4⟩

/-- no transform with the Sun farther from the plane than from the centre -/
example (r s : FArg) : (FOp.icrs2gcf ⟨1, 2, .dist 2, 3, 3, 0⟩).call r ≠ .ok s :=
  (C34_undefined ⟨1, 2, .dist 2, 3, 3, 0⟩ (.inr (.inl ⟨2, rfl, by norm_num, by norm_num⟩)) r s).1

example (q₁ q₂ : Fin 3 → ℝ) : ∃ r₁ r₂, (FOp.icrs2gcf g).call (.qty q₁) = .ok (.qty r₁) ∧ (FOp.icrs2gcf g).call (.qty q₂) = .ok (.qty r₂) ∧
    dist3 (vec3 r₁) (vec3 r₂) = dist3 (vec3 q₁) (vec3 q₂) := by
  obtain ⟨r₁, r₂, -, -, -, -, h1, h2, h, -⟩ := C35_rigid g g_ok _ (List.mem_cons_self ..) q₁ q₂ 0 0
  exact ⟨r₁, r₂, h1, h2, h⟩

/-- from one Galactocentric frame to ICRS and on to the other -/
example (q p : Fin 3 → ℝ) : ∃ fg gh fh q' p' q'' p'', frameTransformOp (.gcf g) .icrs = .ok fg ∧
    frameTransformOp .icrs (.gcf g') = .ok gh ∧ frameTransformOp (.gcf g) (.gcf g') = .ok fh ∧
    fg.call (.qtys q p) = .ok (.qtys q' p') ∧ gh.call (.qtys q' p') = .ok (.qtys q'' p'') ∧ fh.call (.qtys q p) = .ok (.qtys q'' p'') := by
  obtain ⟨fg, gh, fh, ff, h1, h2, h3, h0, h⟩ := C36_composition (.gcf g) .icrs (.gcf g') g_ok trivial g'_ok
  obtain ⟨⟨q', p', q'', p'', h4, h5, h6⟩, -⟩ := h q p
  exact ⟨fg, gh, fh, q', p', q'', p'', h1, h2, h3, h4, h5, h6⟩

example (q : Fin 3 → ℝ) (r : FArg) : ∃ op, frameTransformOp (.gcf g) (.gcf g') = .ok op ∧ op.call (.qty q) ≠ .ok r := by
  obtain ⟨-, -, fh, -, -, -, h3, -⟩ := C36_composition (.gcf g) .icrs (.gcf g') g_ok trivial g'_ok
  exact ⟨fh, h3, (C36_position_alone_raises g g' g_ne fh h3 q (.cart3 1 2 3) r).1⟩

example : frameTransformOp (.gcf g) .icrs = .ok (FOp.icrs2gcf g).inverse := C36_inverse_is_reverse .icrs (.gcf g) _ rfl

/-! ### Spaces -/

/-- a Space of a position and a velocity -/
noncomputable def s : Space SVec := ⟨[("length", .pos (.cart3 1 1 1)), ("speed", .vel (.cart3 1 2 3))]⟩

theorem s_ok : SpaceOk exampleNames s := by
  refine ⟨by simp [s], fun k hk => ?_⟩
  simp only [s, List.map_cons, List.map_nil, List.mem_cons, List.not_mem_nil, or_false] at hk
  rcases hk with rfl | rfl <;> rfl

theorem s_case : VelCase {} (.cart3 1 2 3) Kind.cyl.differential (.cart3 1 1 1) where
  valid := trivial
  dimp := rfl
  dim := rfl
  pos_ts := by decide
  src_ts := fun h => by cases h
  tgt_ts := by decide
  reg := trivial
  reg' := by simp [Kind.differential, VKind.integral, Regular, OffAxis, point]
  delta := fun h => by cases h
  src_pro := fun h => by cases h
  src_loncoslat := fun h => by cases h

/-- in cylindrical components it is at the same point -/
example : ∃ s' q w, representSpace exampleNames s .cyl = .ok s' ∧ s'.getStr "length" = .ok (.pos q) ∧
    s'.getStr "speed" = .ok (.vel w) ∧ q.kind = .cyl ∧ w.kind = .cyl ∧ point q = ⟨1, 1, 1⟩ := by
  obtain ⟨s', h⟩ := C40_represent_as_returns exampleNames ⟨rfl, rfl⟩ (.cart3 1 1 1) (.cart3 1 2 3) .cyl s_case (by simp [point, V3.zero])
  obtain ⟨q, w, h1, h2, k1, k2, e, -⟩ := C40_phase_space exampleNames s s' s_ok .cyl (.cart3 1 1 1) (.cart3 1 2 3) rfl rfl s_case h
  exact ⟨s', q, w, h, h1, h2, k1, k2, e⟩

/-- `Space(speed=..., velocity=...)` keeps the second -/
example : mkSpace exampleNames (fun _ : ℕ => .ok []) [("speed", 1), ("velocity", 2)] = .ok ⟨[("speed", 2)]⟩ :=
  C40_duplicates_accepted exampleNames _ "speed" "velocity" "speed" 1 2 (by decide) rfl rfl [] [] [] rfl rfl rfl

/-- shapes 2 and 3 do not broadcast -/
example (t : Space ℕ) : mkSpace exampleNames (fun n : ℕ => .ok [n]) [("length", 2), ("speed", 3)] ≠ .ok t :=
  C40_shapes_rejected exampleNames _ _ (by simp) [[2], [3]] .value rfl rfl t

/-- a Space has no entry "velocity" -/
example : s.getStr "velocity" = .error .key := C40_alias_key_raises exampleNames s s_ok "velocity" "speed" rfl (by decide)

/-- a velocity alone cannot be converted -/
example (t : Space SVec) : representSpace exampleNames ⟨[("speed", .vel (.cart3 1 2 3))]⟩ .sph ≠ .ok t :=
  C40_no_position_raises exampleNames _ t (by
    refine ⟨by simp, fun k hk => ?_⟩
    simp only [List.map_cons, List.map_nil, List.mem_cons, List.not_mem_nil, or_false] at hk
    subst hk; rfl) .sph "speed" (.vel (.cart3 1 2 3)) rfl (fun p h => by cases h) (by simp)

end Verif.Instances3
