import Verif.UnitRules

/-! # Prolate to prolate: the two branches of `jax.lax.cond` must agree in units -/

namespace Verif

open Num CNum LawfulCNum

theorem RUnit.ext_scale {a b : RUnit} (h : a.dim = b.dim) (h' : a.scale = b.scale) : a = b := by
  cases a; cases b; simp_all

theorem RDim.nu_dim (a b c : RDim) :
    ((b.mul b).div (((a.mul {}).pow (1 / 2)).mul ((a.mul {}).pow (1 / 2)))).mul
      (((a.mul (c.div (b.mul b))).pow (1 / 2)).mul ((a.mul (c.div (b.mul b))).pow (1 / 2))) = c := by
  cases a; cases b; cases c
  simp only [RDim.mul, RDim.pow, RDim.div, RDim.mk.injEq]
  refine ⟨?_, ?_, ?_, ?_, ?_⟩ <;> ring

theorem rpow_half_sq {x : ℝ} (h : 0 < x) : x ^ (((1 / 2 : ℚ)) : ℝ) * x ^ (((1 / 2 : ℚ)) : ℝ) = x := by
  rw [← Real.rpow_add h]
  norm_num

/-- the unit the converting branch gives to `nu` is its old one, if `Delta` keeps its unit -/
theorem RUnit.nu_unit (mu nu b : RUnit) :
    ((b.mul b).div (((mu.mul RUnit.one).pow (1 / 2)).mul ((mu.mul RUnit.one).pow (1 / 2)))).mul
      (((mu.mul (nu.div (b.mul b))).pow (1 / 2)).mul ((mu.mul (nu.div (b.mul b))).pow (1 / 2))) = nu := by
  refine RUnit.ext_scale (RDim.nu_dim _ _ _) ?_
  show (b.scale * b.scale) / ((mu.scale * 1) ^ (((1 / 2 : ℚ)) : ℝ) * (mu.scale * 1) ^ (((1 / 2 : ℚ)) : ℝ)) *
    ((mu.scale * (nu.scale / (b.scale * b.scale))) ^ (((1 / 2 : ℚ)) : ℝ) *
      (mu.scale * (nu.scale / (b.scale * b.scale))) ^ (((1 / 2 : ℚ)) : ℝ)) = nu.scale
  have h1 := mu.pos
  have h2 := nu.pos
  have h3 := b.pos
  rw [rpow_half_sq (by positivity), rpow_half_sq (by positivity)]
  field_simp

section
variable {α : Type} [CNum α]

omit [CNum α] in
theorem sameStructure_iff (mu nu delta dl : UQ α) :
    sameStructure mu nu delta dl = true ↔ mu.unit = dl.unit.mul dl.unit ∧ delta.unit = dl.unit := by
  unfold sameStructure
  simp only [decide_eq_true_eq]
  constructor
  · rintro ⟨h1, _, h3⟩; exact ⟨h1, h3⟩
  · rintro ⟨h1, h3⟩
    refine ⟨h1, ?_, h3⟩
    rw [← h3]
    exact (RUnit.nu_unit mu.unit nu.unit delta.unit).symm

/-- the structures agree: `mu` is in the square of `Delta`'s unit and the new `Delta` in the unit of the old one -/
def ProlateUnits (kw : Kw (UQ α)) : Pos (UQ α) → Prop
  | .prolate mu _ _ delta => mu.unit = (kw.delta.getD delta).unit.mul (kw.delta.getD delta).unit ∧
      delta.unit = (kw.delta.getD delta).unit
  | _ => True

variable [LawfulCNum α]

theorem representU_self (n : ℕ) (kw : Kw (UQ α)) (hk : kw.WD) (p : Pos (UQ α)) (hp : p.WD)
    (hs : p.kind = .prolate) (hu : ProlateUnits kw p) :
    RelRes Pos.Rel (representU (n + 1) kw p .prolate) (represent (n + 1) (kw.tr UQ.phys) (p.tr UQ.phys) .prolate) := by
  cases p <;> try cases hs
  rename_i mu nu phi delta
  have hss := (sameStructure_iff mu nu delta (kw.delta.getD delta)).mpr hu
  rw [representU, if_pos hss]
  obtain ⟨_, _, _, _, kd⟩ := kw
  cases kd with
  | none => exact .ok ⟨hp, rfl⟩
  | some dl =>
    show RelRes Pos.Rel (do representU n { delta := some dl } (← representU n {} (.prolate mu nu phi delta) .cyl) .prolate)
      (do represent n { delta := some dl.phys } (← represent n {} (Pos.tr UQ.phys (.prolate mu nu phi delta)) .cyl) .prolate)
    have h := representU_rel n {} kw_nil (.prolate mu nu phi delta) hp .cyl (fun h => by cases h.2)
    have hkind := represent_kind n (Kw.tr UQ.phys {}) (Pos.tr UQ.phys (.prolate mu nu phi delta)) .cyl
    revert h hkind
    show RelRes _ _ (represent n {} _ _) → _
    generalize representU n {} (.prolate mu nu phi delta) .cyl = X
    show RelRes _ _ _ → HasKind _ (represent n {} _ _) → _
    generalize represent n {} (Pos.tr UQ.phys (.prolate mu nu phi delta)) .cyl = Y
    intro h hkind
    cases h with
    | err e => exact .err e
    | @ok q q' h =>
      obtain ⟨hq, rfl⟩ := h
      have hk' := hkind _ rfl
      rw [tr_kind] at hk'
      exact representU_rel n { delta := some dl } ⟨by simp, by simp, by simp, by simp, hk.delta⟩ q hq .prolate
        (fun h => by rw [hk'] at h; cases h.1)

omit [LawfulCNum α] in
theorem representU_self_fails (n : ℕ) (kw : Kw (UQ α)) (p : Pos (UQ α)) (hs : p.kind = .prolate)
    (hu : ¬ ProlateUnits kw p) : representU (n + 1) kw p .prolate = .error .mismatch := by
  cases p <;> try cases hs
  rename_i mu nu phi delta
  rw [representU, if_neg]
  intro h
  exact hu ((sameStructure_iff mu nu delta (kw.delta.getD delta)).mp h)

/-- every conversion: like the run in base units, except prolate to prolate with unequal units -/
theorem representU_all (n : ℕ) (kw : Kw (UQ α)) (hk : kw.WD) (p : Pos (UQ α)) (hp : p.WD) (k : Kind)
    (hu : k = .prolate → ProlateUnits kw p) :
    RelRes Pos.Rel (representU (n + 1) kw p k) (represent (n + 1) (kw.tr UQ.phys) (p.tr UQ.phys) k) := by
  by_cases h : ProlateSelf p.kind k
  · obtain ⟨h1, rfl⟩ := h
    exact representU_self n kw hk p hp h1 (hu rfl)
  · exact representU_rel (n + 1) kw hk p hp k h

end

end Verif
