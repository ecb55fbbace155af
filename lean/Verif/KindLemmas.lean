import Verif.Forms

/-! # The class of a result is the requested class (helper lemmas, any number type) -/

namespace Verif

variable {α : Type} [Num α]

/-- if the computation returns, it returns a vector of class `k` -/
def HasKind (k : Kind) (x : Res (Pos α)) : Prop := ∀ q, x = .ok q → q.kind = k

theorem HasKind.ok {p : Pos α} : HasKind p.kind (.ok p) := fun _ h => by cases h; rfl
theorem HasKind.error {k : Kind} {e : Err} : HasKind (α := α) k (.error e) := fun _ h => by cases h
theorem HasKind.bind {k : Kind} {β : Type} {x : Res β} {f : β → Res (Pos α)}
    (h : ∀ a, HasKind k (f a)) : HasKind k (x >>= f) := by
  intro q hq
  obtain ⟨a, _, h2⟩ := (bind_ok_iff _ _ _).mp hq
  exact h a q h2
theorem HasKind.ite {k : Kind} {c : Prop} [Decidable c] {x y : Res (Pos α)} (h1 : HasKind k x)
    (h2 : HasKind k y) : HasKind k (if c then x else y) := by split_ifs <;> assumption

theorem hk_radial (r : Dist α) : HasKind .radial (mkRadial r) :=
  HasKind.bind fun _ => fun _ h => by cases h; rfl
theorem hk_polar (r : Dist α) (p : AzArg α) : HasKind .polar (mkPolar r p) :=
  HasKind.bind fun _ => fun _ h => by cases h; rfl
theorem hk_cyl (r : α) (p : AzArg α) (z : α) : HasKind .cyl (mkCyl r p z) :=
  HasKind.bind fun _ => fun _ h => by cases h; rfl
theorem hk_sph (r : Dist α) (t : α) (p : AzArg α) : HasKind .sph (mkSph r t p) :=
  HasKind.bind fun _ => HasKind.bind fun _ => fun _ h => by cases h; rfl
theorem hk_lonlat (r : Dist α) (t : α) (p : AzArg α) : HasKind .lonlat (mkLonLat p t r) :=
  HasKind.bind fun _ => HasKind.bind fun _ => HasKind.bind fun _ => fun _ h => by cases h; rfl
theorem hk_math (r : Dist α) (t : α) (p : AzArg α) : HasKind .math (mkMath r p t) :=
  HasKind.bind fun _ => HasKind.bind fun _ => fun _ h => by cases h; rfl
theorem hk_prolate (m n : α) (p : AzArg α) (d : α) : HasKind .prolate (mkProlate m n p d) := by
  unfold mkProlate
  refine HasKind.bind fun _ => ?_
  intro q hq
  simp only [bind_ok_iff] at hq
  split_ifs at hq <;> simp at hq
  all_goals first | (obtain ⟨_, hq⟩ := hq; cases hq; rfl) | (cases hq; rfl)

theorem represent_kind (n : ℕ) : ∀ (kw : Kw α) (p : Pos α) (k : Kind), HasKind k (represent n kw p k) := by
  induction n with
  | zero => intro kw p k; exact HasKind.error
  | succ n ih =>
    intro kw p k
    cases p <;> cases k <;> simp only [represent] <;>
      first
      | exact HasKind.error
      | exact HasKind.ok
      | exact HasKind.bind fun _ => ih _ _ _
      | exact fun _ h => by cases h; rfl
      | exact hk_radial _
      | exact hk_polar _ _
      | exact hk_cyl _ _ _
      | exact hk_sph _ _ _
      | exact hk_math _ _ _
      | exact HasKind.bind fun _ => hk_radial _
      | exact HasKind.bind fun _ => hk_polar _ _
      | exact HasKind.bind fun _ => hk_cyl _ _ _
      | exact HasKind.bind fun _ => hk_lonlat _ _ _
      | exact HasKind.bind fun _ => hk_sph _ _ _
      | exact HasKind.bind fun _ => HasKind.bind fun _ => hk_polar _ _
      | exact HasKind.bind fun _ => HasKind.bind fun _ => hk_cyl _ _ _
      | exact HasKind.bind fun _ => HasKind.bind fun _ => HasKind.bind fun _ => hk_sph _ _ _
      | exact HasKind.bind fun _ => HasKind.bind fun _ => HasKind.bind fun _ => HasKind.bind fun _ => hk_sph _ _ _
      | exact HasKind.bind fun _ => HasKind.bind fun _ => HasKind.bind fun _ => hk_cyl _ _ _
      | (exact HasKind.bind fun _ => fun _ h => by cases h; rfl)
      | (split <;> first
          | exact HasKind.error
          | exact HasKind.ok
          | exact HasKind.bind fun _ => ih _ _ _
          | exact HasKind.bind fun _ => HasKind.bind fun _ => HasKind.bind fun _ =>
              HasKind.bind fun _ => HasKind.bind fun _ => hk_prolate _ _ _ _)

theorem representAs_kind {kw : Kw α} {p q : Pos α} {k : Kind} (h : representAs kw p k = .ok q) :
    q.kind = k := represent_kind _ kw p k q h

end Verif
