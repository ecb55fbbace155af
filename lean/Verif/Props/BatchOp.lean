import Verif.BatchOpTotal
import Verif.Props.BatchArith
import Verif.Props.Operators
import Verif.Props.OpVelocity

/-!
# C60: operators on batches act on each element

`OpB.call` (`Verif/BatchOp.lean`) transcribes `op(...)` on arrays; `Op.call` (`Verif/Op.lean`) transcribes it for one
element and is what C20-C32 are about. `Spec.argAt idx A` is the argument that stands at batch index `idx`, `Spec.opAt
idx op` the operator with the parameters that stand there.
-/

namespace Verif

open List

namespace Spec

/-- the four-vector at batch index `idx`, if none of its numbers is NaN -/
def fourAt (idx : List ℕ) (x : FourB) : Option Four := do return ⟨← at_ idx x.t, ← posAt idx x.q, x.c⟩

/-- the argument at batch index `idx` -/
def argAt (idx : List ℕ) : ArgB → Option Arg
  | .pos q => do return .pos (← posAt idx q)
  | .posTime q t => do return .posTime (← posAt idx q) (← at_ idx t)
  | .four x => do return .four (← fourAt idx x)
  | .posVel q p => do return .posVel (← posAt idx q) (← velAt idx p)
  | .vel p => do return .vel (← velAt idx p)

mutual
/-- the operator with the parameters at batch index `idx`; a rotation matrix has no batch axes -/
def opAt (idx : List ℕ) : OpB → Option Op
  | .identity => some .identity
  | .rotation R => some (.rotation R)
  | .spatial d => do return .spatial (← posAt idx d)
  | .translation d => do return .translation (← fourAt idx d)
  | .boost v => do return .boost (← velAt idx v)
  | .vboost v => do return .vboost (← velAt idx v)
  | .galilean R d v => do return .galilean R (← fourAt idx d) (← velAt idx v)
  | .pipe ops => do return .pipe (← opsAt idx ops)

def opsAt (idx : List ℕ) : List OpB → Option (List Op)
  | [] => some []
  | op :: ops => do return (← opAt idx op) :: (← opsAt idx ops)
end

/-- all components of the velocity broadcast to `s` -/
def VFits (s : List ℕ) (p : Vel BArr) : Prop := ∀ a ∈ velComps p, BroadcastsTo a.shape s

/-- all arrays of the argument broadcast to `s` -/
def ArgFits (s : List ℕ) : ArgB → Prop
  | .pos q => Fits s q
  | .posTime q t => Fits s q ∧ BroadcastsTo t.shape s
  | .four x => Fits s x.q ∧ BroadcastsTo x.t.shape s
  | .posVel q p => Fits s q ∧ VFits s p
  | .vel p => VFits s p

mutual
/-- all parameters of the operator broadcast to `s` -/
def OpFits (s : List ℕ) : OpB → Prop
  | .identity => True
  | .rotation _ => True
  | .spatial d => Fits s d
  | .translation d => Fits s d.q ∧ BroadcastsTo d.t.shape s
  | .boost v => VFits s v
  | .vboost v => VFits s v
  | .galilean _ d v => (Fits s d.q ∧ BroadcastsTo d.t.shape s) ∧ VFits s v
  | .pipe ops => OpsFit s ops

def OpsFit (s : List ℕ) : List OpB → Prop
  | [] => True
  | op :: ops => OpFits s op ∧ OpsFit s ops
end

mutual
/-- the operator is not and does not contain a `GalileanSpatialTranslation` -/
def NoTranslation : OpB → Prop
  | .spatial _ => False
  | .pipe ops => NoTranslations ops
  | _ => True

def NoTranslations : List OpB → Prop
  | [] => True
  | op :: ops => NoTranslation op ∧ NoTranslations ops
end

/-- all coordinates of the position have shape `s` or all have shape `()`, and there are `n` of them -/
def PosBatch (s : List ℕ) (n : ℕ) (q : Pos BArr) : Prop := q.kind.dim = n ∧ (Uniform s q ∨ Uniform [] q)

/-- all components of the velocity have shape `s` or all have shape `()` -/
def VelBatch (s : List ℕ) (p : Vel BArr) : Prop :=
  (∀ a ∈ velComps p, a.shape = s) ∨ ∀ a ∈ velComps p, a.shape = []

/-- the same for a four-vector; the time has the shape of the position or is a single number -/
def FourBatch (s : List ℕ) (n : ℕ) (x : FourB) : Prop :=
  x.q.kind.dim = n ∧ (Uniform s x.q ∧ (x.t.shape = s ∨ x.t.shape = []) ∨ Uniform [] x.q ∧ x.t.shape = [])

/-- the arrays of an argument have shape `s` or `()`, vector by vector -/
def ArgBatch (s : List ℕ) (n : ℕ) : ArgB → Prop
  | .pos q => PosBatch s n q
  | .posTime q t => PosBatch s n q ∧ (t.shape = s ∨ t.shape = [])
  | .four x => FourBatch s n x
  | .posVel _ p => VelBatch s p
  | .vel p => VelBatch s p

mutual
/-- the same for the parameters of an operator -/
def OpBatch (s : List ℕ) (n : ℕ) : OpB → Prop
  | .identity => True
  | .rotation _ => True
  | .spatial d => PosBatch s n d
  | .translation d => FourBatch s n d
  | .boost v => v.kind.dim = n ∧ VelBatch s v
  | .vboost v => VelBatch s v
  | .galilean _ d v => FourBatch s n d ∧ v.kind.dim = n ∧ VelBatch s v
  | .pipe ops => OpsBatch s n ops

def OpsBatch (s : List ℕ) (n : ℕ) : List OpB → Prop
  | [] => True
  | op :: ops => OpBatch s n op ∧ OpsBatch s n ops
end

/-- the argument is a pair of a position and a velocity -/
def IsPair (A : ArgB) : Prop := ∃ q p, A = .posVel q p

end Spec

open Spec

/-! ### between the specification and the model -/

section
variable {s idx : List ℕ}

theorem velAt_def {p : Vel BArr} (hf : VFits s p) (hi : InB s idx) {v : Vel ℝ} :
    velAt idx p = some v ↔ p.elemD idx = v ∧ DefL {idx} s p.comps := by
  have hf' : ∀ a ∈ p.comps, BroadcastsTo a.shape s := fun a ha => hf a (by rw [velComps_eq]; exact ha)
  rw [velAt_eq hf' hi]
  have one : ∀ a ∈ p.comps, (DefA {idx} s a ↔ a.elem idx = some (a.elemD idx)) := fun a ha =>
    ⟨fun h => h.val idx rfl, fun h => ⟨hf' a ha, fun i e => by cases e; exact h⟩⟩
  have key : ∀ a ∈ p.comps, ∀ x, a.elem idx = some x ↔ a.elemD idx = x ∧ DefA {idx} s a := fun a ha x =>
    ⟨fun h => ⟨by simp [Arr.elemD, h], (one a ha).mpr (by simp [Arr.elemD, h])⟩,
      fun ⟨h1, h2⟩ => by rw [← h1]; exact (one a ha).mp h2⟩
  cases p <;> cases v <;>
    simp only [Vel.elem, Vel.mapM, Vel.elemD, Vel.map, DefL, Vel.comps, mem_cons, not_mem_nil, or_false,
      forall_eq_or_imp, forall_eq, Option.bind_eq_some_iff, Option.pure_def, Option.bind_eq_bind, Option.some.injEq, reduceCtorEq,
      and_false, exists_false, false_and, exists_eq_right, exists_const, forall_const] at key ⊢
  all_goals grind

theorem posAt_def {q : Pos BArr} (hf : Fits s q) (hi : InB s idx) {r : Pos ℝ} :
    posAt idx q = some r ↔ q.elemD idx = r ∧ DefL {idx} s q.arrays := by
  constructor
  · exact defP_at hf hi
  · rintro ⟨rfl, h⟩
    rw [posAt_eq hf hi]
    exact Pos.elem_of_def (fun a ha => (h a ha).val idx rfl)

theorem at_def {W : BArr} (hf : BroadcastsTo W.shape s) (hi : InB s idx) {w : ℝ} :
    at_ idx W = some w ↔ W.elemD idx = w ∧ DefA {idx} s W := by
  constructor
  · exact defA_at hf hi
  · rintro ⟨rfl, h⟩
    rw [at_eq hf hi]
    exact h.val idx rfl

theorem fourAt_def {x : FourB} (hf : Fits s x.q ∧ BroadcastsTo x.t.shape s) (hi : InB s idx) {y : Four} :
    fourAt idx x = some y ↔ x.elemD idx = y ∧ DefL {idx} s (x.t :: x.q.arrays) := by
  unfold fourAt FourB.elemD
  simp only [Option.bind_eq_some_iff, Option.pure_def, Option.bind_eq_bind, Option.some.injEq, at_def hf.2 hi,
    posAt_def hf.1 hi, defL_cons]
  grind

theorem argAt_def {A : ArgB} (hf : ArgFits s A) (hi : InB s idx) {a : Arg} :
    argAt idx A = some a ↔ A.elemD idx = a ∧ DefL {idx} s A.arrays := by
  cases A <;> simp only [ArgFits] at hf <;>
    simp only [argAt, ArgB.elemD, ArgB.arrays, Option.bind_eq_some_iff, Option.pure_def, Option.bind_eq_bind, Option.some.injEq]
  · simp only [posAt_def hf hi]; grind
  · simp only [posAt_def hf.1 hi, at_def hf.2 hi, defL_cons]; grind
  · simp only [fourAt_def hf hi]; grind
  · simp only [posAt_def hf.1 hi, velAt_def hf.2 hi, defL_append]; grind
  · simp only [velAt_def hf hi]; grind

mutual
theorem opAt_def (hi : InB s idx) : ∀ (op : OpB), OpFits s op → ∀ {o : Op},
    opAt idx op = some o ↔ op.elemD idx = o ∧ DefL {idx} s op.arrays
  | .identity, hf, o => by simp [opAt, OpB.elemD, OpB.arrays, DefL]
  | .rotation R, hf, o => by simp [opAt, OpB.elemD, OpB.arrays, DefL]
  | .spatial d, hf, o => by
    simp only [OpFits] at hf
    simp only [opAt, OpB.elemD, OpB.arrays, Option.bind_eq_some_iff, Option.pure_def, Option.bind_eq_bind, Option.some.injEq,
      posAt_def hf hi]
    grind
  | .translation d, hf, o => by
    simp only [OpFits] at hf
    simp only [opAt, OpB.elemD, OpB.arrays, Option.bind_eq_some_iff, Option.pure_def, Option.bind_eq_bind, Option.some.injEq,
      fourAt_def hf hi]
    grind
  | .boost v, hf, o => by
    simp only [OpFits] at hf
    simp only [opAt, OpB.elemD, OpB.arrays, Option.bind_eq_some_iff, Option.pure_def, Option.bind_eq_bind, Option.some.injEq,
      velAt_def hf hi]
    grind
  | .vboost v, hf, o => by
    simp only [OpFits] at hf
    simp only [opAt, OpB.elemD, OpB.arrays, Option.bind_eq_some_iff, Option.pure_def, Option.bind_eq_bind, Option.some.injEq,
      velAt_def hf hi]
    grind
  | .galilean R d v, hf, o => by
    simp only [OpFits] at hf
    simp only [opAt, OpB.elemD, OpB.arrays, Option.bind_eq_some_iff, Option.pure_def, Option.bind_eq_bind, Option.some.injEq,
      fourAt_def hf.1 hi, velAt_def hf.2 hi, defL_append]
    grind
  | .pipe ops, hf, o => by
    simp only [OpFits] at hf
    simp only [opAt, OpB.elemD, OpB.arrays, Option.bind_eq_some_iff, Option.pure_def, Option.bind_eq_bind, Option.some.injEq,
      opsAt_def hi ops hf]
    grind

theorem opsAt_def (hi : InB s idx) : ∀ (ops : List OpB), OpsFit s ops → ∀ {l : List Op},
    opsAt idx ops = some l ↔ elemsD idx ops = l ∧ DefL {idx} s (opArrays ops)
  | [], hf, l => by simp [opsAt, elemsD, opArrays, DefL]
  | op :: ops, hf, l => by
    simp only [OpsFit] at hf
    simp only [opsAt, elemsD, opArrays, Option.bind_eq_some_iff, Option.pure_def, Option.bind_eq_bind, Option.some.injEq,
      opAt_def hi op hf.1, opsAt_def hi ops hf.2, defL_append]
    grind
end

mutual
theorem noTranslation_iff : ∀ op : OpB, NoTranslation op ↔ op.translates = false
  | .identity => by simp [NoTranslation, OpB.translates]
  | .rotation _ => by simp [NoTranslation, OpB.translates]
  | .spatial _ => by simp [NoTranslation, OpB.translates]
  | .translation _ => by simp [NoTranslation, OpB.translates]
  | .boost _ => by simp [NoTranslation, OpB.translates]
  | .vboost _ => by simp [NoTranslation, OpB.translates]
  | .galilean _ _ _ => by simp [NoTranslation, OpB.translates]
  | .pipe ops => by simp only [NoTranslation, OpB.translates, noTranslations_iff ops]

theorem noTranslations_iff : ∀ ops : List OpB, NoTranslations ops ↔ anyTranslates ops = false
  | [] => by simp [NoTranslations, anyTranslates]
  | op :: ops => by
    simp only [NoTranslations, anyTranslates, Bool.or_eq_false_iff, noTranslation_iff op, noTranslations_iff ops]
end

theorem isPair_iff (A : ArgB) : ¬ IsPair A ↔ A.isPair = false := by
  cases A <;> simp [IsPair, ArgB.isPair]

theorem argFits_iff (A : ArgB) : ArgFits s A ↔ ∀ a ∈ A.arrays, BroadcastsTo a.shape s := by
  cases A <;> simp only [ArgFits, Fits, VFits, ArgB.arrays, compsOf_eq, velComps_eq, mem_cons, forall_eq_or_imp, mem_append]
  all_goals grind

theorem pair_cond {op : OpB} {A : ArgB} (h : ¬ IsPair A ∨ NoTranslation op) :
    A.isPair = false ∨ op.translates = false := h.imp (isPair_iff A).mp (noTranslation_iff op).mp

end

/-! ### elements -/

/-- **C60 (elements).** Whenever `op(args)` returns for an operator and arguments with batch axes, then at every batch
index the element of the result is what the operator with the parameters at that index returns for the argument at that
index (if that is finite); the scalar call does not raise (`nonFinite` is not raised). Operators: every class of the
package and pipes of them of any length and depth; parameters and arguments of any vector classes, shapes and ranks, with
components of different shapes that broadcast to `s`; elements at other indices may be NaN. Excluded: a pair (position,
velocity) through a `GalileanSpatialTranslation`, see `C60_pair_batch_raises`. -/
theorem C60_elementwise (op : OpB) (A Q : ArgB) (s idx : List ℕ) (ho : OpFits s op) (hA : ArgFits s A) (hi : InB s idx)
    (o : Op) (a : Arg) (ho' : opAt idx op = some o) (ha : argAt idx A = some a) (hp : ¬ IsPair A ∨ NoTranslation op)
    (h : op.call A = .ok Q) :
    ArgFits s Q ∧ (∀ r, o.call a = .ok r → argAt idx Q = some r) ∧ ∀ e, o.call a = .error e → e = .nonFinite := by
  obtain ⟨rfl, d1⟩ := (opAt_def hi op ho).mp ho'
  obtain ⟨rfl, d2⟩ := (argAt_def hA hi).mp ha
  obtain ⟨h1, h2⟩ := callB_sim op (at_single hi) d1 d2 (pair_cond hp) Q h
  have hQ := (argFits_iff Q).mpr h1
  obtain ⟨h3, h4⟩ := h2 idx rfl
  exact ⟨hQ, fun r hr => (argAt_def hQ hi).mpr (h3 r hr), h4⟩

/-! ### returning -/

section
variable {s : List ℕ} {n : ℕ}

theorem posBatch_uni {q : Pos BArr} (h : PosBatch s n q) : q.kind.dim = n ∧ ∃ t, UniP s t q := by
  refine ⟨h.1, ?_⟩
  rcases h.2 with h | h
  · exact ⟨s, .inl rfl, (uniform_sh h).1, (uniform_sh h).2⟩
  · exact ⟨[], .inr rfl, (uniform_sh h).1, (uniform_sh h).2⟩

theorem velBatch_uni {p : Vel BArr} (h : VelBatch s p) : ∃ t, UniV s t p := by
  rcases h with h | h <;> rw [velComps_eq] at h
  · exact ⟨s, .inl rfl, h⟩
  · exact ⟨[], .inr rfl, h⟩

theorem fourBatch_uni {x : FourB} (h : FourBatch s n x) : UniF s n x := by
  refine ⟨?_, h.1⟩
  rcases h.2 with ⟨h1, h2⟩ | ⟨h1, h2⟩
  · exact ⟨s, ⟨.inl rfl, (uniform_sh h1).1, (uniform_sh h1).2⟩, h2.symm⟩
  · exact ⟨[], ⟨.inr rfl, (uniform_sh h1).1, (uniform_sh h1).2⟩, .inl h2⟩

theorem argBatch_uni {A : ArgB} (h : ArgBatch s n A) : A.Uni s n := by
  cases A with
  | pos q => exact posBatch_uni h
  | posTime q t => exact ⟨(posBatch_uni h.1).1, (posBatch_uni h.1).2, h.2⟩
  | four x => exact fourBatch_uni h
  | posVel q p => exact velBatch_uni h
  | vel p => exact velBatch_uni h

theorem Vel.dim_eq {α : Type} (v : Vel α) : v.dim = v.kind.dim := by cases v <;> rfl

mutual
theorem opBatch_uni : ∀ op : OpB, OpBatch s n op → op.Uni s n
  | .identity, h => by simp [OpB.Uni]
  | .rotation R, h => by simp [OpB.Uni]
  | .spatial d, h => by simp only [OpBatch] at h; simp only [OpB.Uni]; exact posBatch_uni h
  | .translation d, h => by simp only [OpBatch] at h; simp only [OpB.Uni]; exact fourBatch_uni h
  | .boost v, h => by
    simp only [OpBatch] at h; simp only [OpB.Uni]; exact ⟨(Vel.dim_eq v).trans h.1, velBatch_uni h.2⟩
  | .vboost v, h => by simp only [OpBatch] at h; simp only [OpB.Uni]; exact velBatch_uni h
  | .galilean R d v, h => by
    simp only [OpBatch] at h; simp only [OpB.Uni]
    exact ⟨fourBatch_uni h.1, (Vel.dim_eq v).trans h.2.1, velBatch_uni h.2.2⟩
  | .pipe ops, h => by simp only [OpBatch] at h; simp only [OpB.Uni]; exact opsBatch_uni ops h

theorem opsBatch_uni : ∀ ops : List OpB, OpsBatch s n ops → unis s n ops
  | [], h => by simp [unis]
  | op :: ops, h => by
    simp only [OpsBatch] at h; simp only [unis]; exact ⟨opBatch_uni op h.1, opsBatch_uni ops h.2⟩
end

theorem posBatch_fits {q : Pos BArr} (h : PosBatch s n q) : Fits s q := by
  rcases h.2 with h | h
  · exact uniform_fits h (broadcastsTo_refl s)
  · exact uniform_fits h (broadcastsTo_nil s)

theorem velBatch_fits {p : Vel BArr} (h : VelBatch s p) : VFits s p := by
  rcases h with h | h <;> intro a ha <;> rw [h a ha]
  · exact broadcastsTo_refl s
  · exact broadcastsTo_nil s

theorem sub_fits {t : List ℕ} (h : t = s ∨ t = []) : BroadcastsTo t s := by
  rcases h with rfl | rfl
  · exact broadcastsTo_refl t
  · exact broadcastsTo_nil s

theorem fourBatch_fits {x : FourB} (h : FourBatch s n x) : Fits s x.q ∧ BroadcastsTo x.t.shape s := by
  rcases h.2 with ⟨h1, h2⟩ | ⟨h1, h2⟩
  · exact ⟨uniform_fits h1 (broadcastsTo_refl s), sub_fits h2⟩
  · exact ⟨uniform_fits h1 (broadcastsTo_nil s), sub_fits (.inr h2)⟩

mutual
theorem opBatch_fits : ∀ op : OpB, OpBatch s n op → OpFits s op
  | .identity, h => by simp [OpFits]
  | .rotation R, h => by simp [OpFits]
  | .spatial d, h => by simp only [OpBatch] at h; simp only [OpFits]; exact posBatch_fits h
  | .translation d, h => by simp only [OpBatch] at h; simp only [OpFits]; exact fourBatch_fits h
  | .boost v, h => by simp only [OpBatch] at h; simp only [OpFits]; exact velBatch_fits h.2
  | .vboost v, h => by simp only [OpBatch] at h; simp only [OpFits]; exact velBatch_fits h
  | .galilean R d v, h => by
    simp only [OpBatch] at h; simp only [OpFits]; exact ⟨fourBatch_fits h.1, velBatch_fits h.2.2⟩
  | .pipe ops, h => by simp only [OpBatch] at h; simp only [OpFits]; exact opsBatch_fits ops h

theorem opsBatch_fits : ∀ ops : List OpB, OpsBatch s n ops → OpsFit s ops
  | [], h => by simp [OpsFit]
  | op :: ops, h => by
    simp only [OpsBatch] at h; simp only [OpsFit]; exact ⟨opBatch_fits op h.1, opsBatch_fits ops h.2⟩
end

theorem uniP_posBatch {q : Pos BArr} {t : List ℕ} (h : UniP s t q) (hd : q.kind.dim = n) : PosBatch s n q := by
  have hu : Uniform t q := ⟨by rw [coordsOf_eq]; exact h.all, fun mu nu phi d e => by
    have := h.focal; rw [e] at this; exact this.symm⟩
  rcases h.sub with rfl | rfl
  · exact ⟨hd, .inl hu⟩
  · exact ⟨hd, .inr hu⟩

theorem uniV_velBatch {p : Vel BArr} {t : List ℕ} (h : UniV s t p) : VelBatch s p := by
  have ha := h.all
  rw [← velComps_eq] at ha
  rcases h.sub with rfl | rfl
  · exact .inl ha
  · exact .inr ha

theorem uni_argBatch {A : ArgB} (h : A.Uni s n) : ArgBatch s n A := by
  cases A with
  | pos q => obtain ⟨hd, t, ht⟩ := h; exact uniP_posBatch ht hd
  | posTime q t => obtain ⟨hd, ⟨u, hu⟩, ht⟩ := h; exact ⟨uniP_posBatch hu hd, ht⟩
  | four x =>
    obtain ⟨⟨t, ht, hx⟩, hd⟩ := h
    have hu : Uniform t x.q := ⟨by rw [coordsOf_eq]; exact ht.all, fun mu nu phi d e => by
      have := ht.focal; rw [e] at this; exact this.symm⟩
    refine ⟨hd, ?_⟩
    rcases ht.sub with rfl | rfl
    · exact .inl ⟨hu, hx.symm⟩
    · exact .inr ⟨hu, hx.elim id id⟩
  | posVel q p => obtain ⟨t, ht⟩ := h; exact uniV_velBatch ht
  | vel p => obtain ⟨t, ht⟩ := h; exact uniV_velBatch ht

end

/-- **C60 (returning).** Let every vector among the parameters of the operator and the arguments be a batch of shape `s`
or a single vector, with one number of coordinates (times: shape `s` or single numbers, in a four-vector not larger than
its position). If the scalar call returns at every index, then the call on the batches returns, and its result is again
of this form. (Exactly when a call returns, for all shapes: `C60_returns_iff`.) -/
theorem C60_returns_uniform (op : OpB) (A : ArgB) (s : List ℕ) (n : ℕ) (ho : OpBatch s n op) (hA : ArgBatch s n A)
    (hq : ArgFits s A) (h0 : 0 ∉ s) (hp : ¬ IsPair A ∨ NoTranslation op)
    (h : ∀ idx, InB s idx → ∃ o a r, opAt idx op = some o ∧ argAt idx A = some a ∧ o.call a = .ok r) :
    ∃ Q, op.call A = .ok Q ∧ ArgBatch s n Q := by
  have hf := opBatch_fits op ho
  have d1 : ∀ i ∈ {i | InB s i}, DefL {i} s op.arrays := fun i hi => by
    obtain ⟨o, a, r, h1, h2, h3⟩ := h i hi
    exact ((opAt_def hi op hf).mp h1).2
  have d2 : ∀ i ∈ {i | InB s i}, DefL {i} s A.arrays := fun i hi => by
    obtain ⟨o, a, r, h1, h2, h3⟩ := h i hi
    exact ((argAt_def hq hi).mp h2).2
  have hF : Full {i | InB s i} s := ⟨rfl, h0⟩
  obtain ⟨i0, hi0⟩ := hF.nonempty
  obtain ⟨Q, q1, q2⟩ := callB_total op hF (defL_of_singles (fun a ha => (d1 i0 hi0 a ha).fits) d1)
    (defL_of_singles (fun a ha => (d2 i0 hi0 a ha).fits) d2) (opBatch_uni op ho) (argBatch_uni hA) (pair_cond hp) fun i hi => by
      obtain ⟨o, a, r, h1, h2, h3⟩ := h i hi
      rw [((opAt_def hi op hf).mp h1).1, ((argAt_def hq hi).mp h2).1]
      exact ⟨r, h3⟩
  exact ⟨Q, q1, uni_argBatch q2⟩

/-- **C60 (geometry).** A well-formed operator with batched parameters applied to batches of 3-D positions and times: at
every index where none of the numbers is NaN the result has the class of the input, is valid, and denotes the event obtained
by the rigid motion, shift or boost (`act`) with the parameters of that index from the event at that index. -/
theorem C60_acts_on_each (op : OpB) (q : Pos BArr) (t : BArr) (Q : ArgB) (s idx : List ℕ) (ho : OpFits s op)
    (hq : Fits s q) (ht : BroadcastsTo t.shape s) (hi : InB s idx) (o : Op) (q0 : Pos ℝ) (t0 : ℝ)
    (ho' : opAt idx op = some o) (hq' : posAt idx q = some q0) (ht' : at_ idx t = some t0) (hw : WellFormed o)
    (hv : Valid3 q0) (hr : Reaches o q0.kind (point q0, t0)) (h : op.call (.posTime q t) = .ok Q) :
    ∃ q1 t1, argAt idx Q = some (.posTime q1 t1) ∧ q1.kind = q0.kind ∧ Valid q1 ∧ (point q1, t1) = act o (point q0, t0) := by
  obtain ⟨-, h1, -⟩ := C60_elementwise op (.posTime q t) Q s idx ho ⟨hq, ht⟩ hi o (.posTime q0 t0) ho'
    (by simp [argAt, hq', ht']) (.inl (by simp [IsPair])) h
  obtain ⟨a, ha⟩ := call_total o hw q0 t0 hv hr
  obtain ⟨q1, t1, rfl, hs⟩ := call_sound o hw q0 t0 a hv ha
  exact ⟨q1, t1, h1 _ ha, hs.kind, hs.valid, hs.act⟩

/-- **C60 (four-vectors).** `FourVector(t=t, q=q)` returns exactly if the coordinates of `q` have a common broadcast shape
and the shape of `t` broadcasts to it; it then stores the two unchanged. So a batch of times with a single position raises. -/
theorem C60_four_shape (t : BArr) (q : Pos BArr) (c : ℝ) (x : FourB) : mkFourB t q c = .ok x ↔
    x = ⟨t, q, c⟩ ∧ ∃ s, IsBroadcast ((coordsOf q).map fun a => a.shape) s ∧ BroadcastsTo t.shape s := by
  unfold mkFourB
  rw [coordsOf_eq]
  constructor
  · intro h
    obtain ⟨s, h1, h'⟩ := (bind_ok_iff _ _ _).mp h
    obtain ⟨u, h2, h3⟩ := (bind_ok_iff _ _ _).mp h'
    by_cases hu : u = s
    · rw [if_pos hu] at h3
      exact ⟨(Except.ok.inj h3).symm, s, (broadcastShapes_iff _ _).mp h1, hu ▸ (bc2_ok h2).1⟩
    · rw [if_neg hu] at h3; cases h3
  · rintro ⟨rfl, s, h1, h2⟩
    have e1 : q.shapeB = .ok s := (broadcastShapes_iff _ _).mpr h1
    have e2 : bc2 t.shape s = .ok s := bc2_iff.mpr ⟨by simp [h2, broadcastsTo_refl], fun u h => h s (by simp)⟩
    rw [e1, ok_bind, e2, ok_bind, if_pos rfl]

/-! ### the hypotheses are met -/

/-- a quarter turn about the z axis, then two boosts, then two translations -/
noncomputable def opBatchExample : OpB :=
  .pipe [.rotation !![0, -1, 0; 1, 0, 0; 0, 0, 1],
    .boost (.cart3 ⟨[2], fun i => some (if i = [0] then 1 else 2)⟩ ⟨[2], fun _ => some 0⟩ ⟨[2], fun _ => some 0⟩),
    .spatial (.cart3 ⟨[2], fun i => some (if i = [0] then 10 else 20)⟩ ⟨[2], fun _ => some 5⟩ ⟨[2], fun _ => some 0⟩)]

/-- one position -/
noncomputable def opArgPos : Pos BArr := .cart3 ⟨[], fun _ => some 1⟩ ⟨[], fun _ => some 2⟩ ⟨[], fun _ => some 3⟩

/-- two times with one position raise -/
example (c : ℝ) (x : FourB) : mkFourB ⟨[2], fun _ => some 4⟩ opArgPos c ≠ .ok x := fun h => by
  obtain ⟨-, s, h1, h2⟩ := (C60_four_shape _ _ _ _).mp h
  have : BroadcastsTo s [] := h1.2 [] (by simp [coordsOf, compsOf, opArgPos, broadcastsTo_refl])
  have l1 := broadcastsTo_length h2
  have l2 := broadcastsTo_length this
  simp at l1 l2; simp [l2] at l1

/-- the call with one position and one time returns, and the element at index 1 of the result is the rotated position
`(-2, 1, 3)` moved by `4 · (2, 0, 0) + (20, 5, 0)` -/
example : ∃ Q, opBatchExample.call (.posTime opArgPos ⟨[], fun _ => some 4⟩) = .ok Q ∧
    ∃ q, argAt [1] Q = some (.posTime q 4) ∧ q.kind = .cart3 ∧ point q = V3.mk 26 6 3 := by
  have hq : ∀ idx, posAt idx opArgPos = some (.cart3 1 2 3) := fun _ => rfl
  have hv : Valid3 (.cart3 1 2 3) := ⟨trivial, rfl⟩
  have ha : ∀ idx, argAt idx (.posTime opArgPos ⟨[], fun _ => some 4⟩) = some (.posTime (.cart3 1 2 3) 4) := fun _ => rfl
  have hb : ArgBatch [2] 3 (.posTime opArgPos ⟨[], fun _ => some 4⟩) :=
    ⟨⟨rfl, .inr ⟨by simp [opArgPos, coordsOf, compsOf], fun _ _ _ _ h => (by cases h)⟩⟩, .inr rfl⟩
  have ho : OpBatch [2] 3 opBatchExample :=
    ⟨trivial, ⟨rfl, .inl (by simp [velComps])⟩,
      ⟨rfl, .inl ⟨by simp [coordsOf, compsOf], fun _ _ _ _ h => (by cases h)⟩⟩, trivial⟩
  have hf : ArgFits [2] (.posTime opArgPos ⟨[], fun _ => some 4⟩) :=
    ⟨uniform_fits (s := []) ⟨by simp [opArgPos, coordsOf, compsOf], fun _ _ _ _ h => (by cases h)⟩ (broadcastsTo_nil _),
      broadcastsTo_nil _⟩
  have hop : ∀ idx : List ℕ, ∃ a b : ℝ, opAt idx opBatchExample = some (.pipe [.rotation !![0, -1, 0; 1, 0, 0; 0, 0, 1],
      .boost (.cart3 a 0 0), .spatial (.cart3 b 5 0)]) := fun idx => ⟨_, _, rfl⟩
  have hw : ∀ a b : ℝ, WellFormed (.pipe [.rotation !![0, -1, 0; 1, 0, 0; 0, 0, 1],
      .boost (.cart3 a 0 0), .spatial (.cart3 b 5 0)]) := fun a b =>
    ⟨trivial, rfl, ⟨trivial, rfl⟩, trivial⟩
  obtain ⟨Q, hQ, -⟩ := C60_returns_uniform opBatchExample _ [2] 3 ho hb hf (by simp) (.inl (by simp [IsPair]))
    fun idx hi => by
      obtain ⟨a, b, h⟩ := hop idx
      obtain ⟨r, hr⟩ := call_total _ (hw a b) (.cart3 1 2 3) 4 hv (.inl rfl)
      exact ⟨_, _, r, h, ha idx, hr⟩
  have h1 : opAt [1] opBatchExample = some (.pipe [.rotation !![0, -1, 0; 1, 0, 0; 0, 0, 1],
      .boost (.cart3 2 0 0), .spatial (.cart3 20 5 0)]) := by
    simp [opAt, opsAt, opBatchExample, velAt, posAt, at_, bcSource]
  obtain ⟨q1, t1, g1, g2, -, g3⟩ := C60_acts_on_each opBatchExample opArgPos _ Q [2] [1] (opBatch_fits _ ho) hf.1 hf.2
    (.cons (by norm_num) .nil) _ _ 4 h1 (hq [1]) rfl (hw _ _) hv (.inl rfl) hQ
  simp only [act, actAll, Prod.mk.injEq] at g3
  obtain ⟨g4, rfl⟩ := g3
  refine ⟨Q, hQ, q1, g1, g2, g4.trans ?_⟩
  simp [mulV, point, V3.add, V3.smul, velV]
  norm_num

end Verif
