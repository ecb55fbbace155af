import Verif.Num
import Mathlib.Data.List.Forall2
import Mathlib.Algebra.BigOperators.Group.List.Basic

/-!
# Batched vectors: shapes, broadcasting, array methods

Elsewhere vectors are scalar. Here components are arrays of any rank. An array is its shape and a
function from index lists; only indices in bounds matter. Element values are of an arbitrary type.
-/

namespace Verif

/-- An array (`jax.Array` inside a `Quantity`). -/
structure Arr (α : Type) where
  shape : List ℕ
  get : List ℕ → α

/-- an index list is in bounds -/
def InB (s idx : List ℕ) : Prop := List.Forall₂ (· < ·) idx s

/-! ## numpy broadcasting -/

/-- two axes -/
def bcAxis (a b : ℕ) : Res ℕ :=
  if a = b then .ok a else if a = 1 then .ok b else if b = 1 then .ok a else .error .value

/-- two reversed shapes -/
def bcRev : List ℕ → List ℕ → Res (List ℕ)
  | [], t => .ok t
  | s, [] => .ok s
  | a :: s, b :: t => do return (← bcAxis a b) :: (← bcRev s t)

/-- two shapes, aligned at the last axis -/
def bc2 (s t : List ℕ) : Res (List ℕ) := do return (← bcRev s.reverse t.reverse).reverse

/-- `jnp.broadcast_shapes(*shapes)` -/
def broadcastShapes : List (List ℕ) → Res (List ℕ)
  | [] => .ok []
  | s :: rest => do bc2 s (← broadcastShapes rest)

/-- source index of an element of a broadcast array, on reversed shape and index -/
def bcIdxRev : List ℕ → List ℕ → List ℕ
  | n :: s, i :: is => (if n = 1 then 0 else i) :: bcIdxRev s is
  | _, _ => []

/-- `jnp.broadcast_to(a, s)`, for a shape `s` the array broadcasts to -/
def Arr.broadcastTo {α : Type} (a : Arr α) (s : List ℕ) : Arr α :=
  ⟨s, fun idx => a.get (bcIdxRev a.shape.reverse idx.reverse).reverse⟩

/-! ## gathers

Every operation below (`T`, `mT`, `flatten`, `ravel`, `reshape`, indexing with integers, slices,
`None`, `...`, boolean masks, index arrays) picks elements of the source: given the shape of the source
it determines the new shape and for each new index the source index. -/

/-- new shape and source index, or an error -/
abbrev Plan := List ℕ → Res (List ℕ × (List ℕ → List ℕ))

/-- apply a plan to an array -/
def Arr.gather {α : Type} (p : Plan) (a : Arr α) : Res (Arr α) := do
  let r ← p a.shape
  return ⟨r.1, fun idx => a.get (r.2 idx)⟩

/-- reverse the last two entries -/
def swapLast (l : List ℕ) : List ℕ :=
  match l.reverse with
  | a :: b :: rest => (b :: a :: rest).reverse
  | _ => l

/-- `a.T`: reversed axes -/
def planT : Plan := fun s => .ok (s.reverse, List.reverse)

/-- `a.mT`: last two axes swapped; raises below two dimensions -/
def planMT : Plan := fun s => if s.length < 2 then .error .value else .ok (swapLast s, swapLast)

/-- position of an index in row-major order -/
def ravelIdx : List ℕ → List ℕ → ℕ
  | _ :: s, i :: is => i * s.prod + ravelIdx s is
  | _, _ => 0

/-- index of a position in row-major order -/
def unravelIdx : List ℕ → ℕ → List ℕ
  | [], _ => []
  | _ :: s, k => k / s.prod :: unravelIdx s (k % s.prod)

/-- the new shape in `reshape`: at most one `-1` (here `none`), which is inferred; a total size that
does not match raises. -/
def resolveShape (t : List (Option ℕ)) (size : ℕ) : Res (List ℕ) :=
  let known := (t.filterMap id).prod
  match t.countP Option.isNone with
  | 0 => if known = size then .ok (t.filterMap id) else .error .value
  | 1 =>
    if known = 0 then .error .value
    else if size % known = 0 then .ok (t.map fun o => o.getD (size / known)) else .error .value
  | _ => .error .value

/-- `a.reshape(*t)` in "C" order (the only order modelled) -/
def planReshape (t : List (Option ℕ)) : Plan := fun s => do
  let t' ← resolveShape t s.prod
  return (t', fun idx => unravelIdx s (ravelIdx t' idx))

/-- `a.flatten()`, `a.ravel()` -/
def planFlatten : Plan := fun s => .ok ([s.prod], fun idx => unravelIdx s (ravelIdx [s.prod] idx))

/-- the index `a[i]`, `i >= 0`. JAX clamps an index that is too large; here it raises (no theorem
relies on it). -/
def planInt (i : ℕ) : Plan := fun s => match s with
  | n :: t => if i < n then .ok (t, fun idx => i :: idx) else .error .value
  | [] => .error .value

/-- the index `a[..., i]`, `i >= 0` (same remark) -/
def planLast (i : ℕ) : Plan := fun s => match s.reverse with
  | n :: t => if i < n then .ok (t.reverse, fun idx => idx ++ [i]) else .error .value
  | [] => .error .value

/-! ## vectors of 1, 2, 3 dimensions, Poincaré vectors -/

/-- A vector: its components (attributes are not touched by the methods below). -/
structure BVec (α : Type) where
  comps : List (Arr α)

section
variable {α : Type}

/-- elementwise range checks of the class (`_src/vectors/checks.py`), component by component; the
prolate checks compare each component with the scalar attribute `Delta` -/
abbrev Checks (α : Type) := ℕ → α → Bool

/-- all elements of component number `i` pass -/
def Arr.passes (chk : Checks α) (i : ℕ) (a : Arr α) : Prop := ∀ idx, InB a.shape idx → chk i (a.get idx) = true

/-- all elements of all components pass -/
def passesAll (chk : Checks α) (cs : List (Arr α)) : Prop :=
  ∀ i (h : i < cs.length), cs[i].passes chk i

open Classical in
/-- `replace(self, **components)`: construct again; `__check_init__` raises if an element fails -/
noncomputable def mkB (chk : Checks α) (cs : List (Arr α)) : Res (BVec α) :=
  if passesAll chk cs then .ok ⟨cs⟩ else .error .check

/-- `vec.shape` (`_src/vectors/base/base.py` 246-279) -/
def BVec.shape (v : BVec α) : Res (List ℕ) := broadcastShapes (v.comps.map Arr.shape)

/-- `vec.ndim` (352-383) -/
def BVec.ndim (v : BVec α) : Res ℕ := do return (← v.shape).length

/-- `vec.size` (385-416) -/
def BVec.size (v : BVec α) : Res ℕ := do return (← v.shape).prod

/-- `len(vec)` (701-726) -/
def BVec.len (v : BVec α) : Res ℕ := do return match ← v.shape with | n :: _ => n | [] => 0

/-- `full_shaped(vec)` (`_src/vectors/utils.py` 17-36): `jnp.broadcast_arrays` of the components -/
noncomputable def fullShaped (chk : Checks α) (v : BVec α) : Res (BVec α) := do
  let s ← v.shape
  mkB chk (v.comps.map fun a => a.broadcastTo s)

/-- `replace(vec, **{k: op(v) for k, v in field_items(AttrFilter, vec)})` -/
noncomputable def BVec.mapComps (chk : Checks α) (p : Plan) (v : BVec α) : Res (BVec α) := do
  mkB chk (← v.comps.mapM (Arr.gather p))

/-- `vec.T` (`_src/vectors/base/base.py` 418-439): componentwise, no broadcasting -/
noncomputable def BVec.T (chk : Checks α) (v : BVec α) : Res (BVec α) := v.mapComps chk planT

/-- `vec.mT` (329-350): componentwise, no broadcasting -/
noncomputable def BVec.mT (chk : Checks α) (v : BVec α) : Res (BVec α) := v.mapComps chk planMT

/-- `vec.flatten()` (728-747): componentwise, no broadcasting -/
noncomputable def BVec.flatten (chk : Checks α) (v : BVec α) : Res (BVec α) := v.mapComps chk planFlatten

/-- `vec.ravel()` (749-766): componentwise, no broadcasting -/
noncomputable def BVec.ravel (chk : Checks α) (v : BVec α) : Res (BVec α) := v.mapComps chk planFlatten

/-- `vec.reshape(*t)` (768-810): broadcast first, then componentwise -/
noncomputable def BVec.reshape (chk : Checks α) (t : List (Option ℕ)) (v : BVec α) : Res (BVec α) := do
  (← fullShaped chk v).mapComps chk (planReshape t)

/-- `vec[index]` (642-671): broadcast first, then componentwise; any index -/
noncomputable def BVec.getitem (chk : Checks α) (p : Plan) (v : BVec α) : Res (BVec α) := do
  (← fullShaped chk v).mapComps chk p

/-! ## N-dimensional Cartesian vectors -/

/-- `CartesianPosND`, `CartesianVelND`, `CartesianAccND`: one array of shape `(*batch, F)`
(`_src/vectors/dn/cartesian.py` 82, 334, 482) -/
structure NDVec (α : Type) where
  q : Arr α

/-- `vec.shape` (`_src/vectors/dn/base.py` 76-92) -/
def NDVec.shape (v : NDVec α) : List ℕ := v.q.shape.dropLast

/-- number of features -/
def NDVec.features (v : NDVec α) : ℕ := v.q.shape.getLast?.getD 0

/-- `qlax.transpose(a, axes)`: raises unless `axes` is a permutation of all axes -/
def planTranspose (axes : List ℕ) : Plan := fun s =>
  if axes.Perm (List.range s.length) then
    .ok (axes.map fun i => s.getD i 0,
      fun idx => (List.range s.length).map fun i => idx.getD (axes.idxOf i) 0)
  else .error .value

/-- `vec.T` (`_src/vectors/dn/base.py` 94-112): `axes = (*range(ndim)[::-1], ndim)` -/
def NDVec.T (v : NDVec α) : Res (NDVec α) := do
  let n := v.shape.length
  return ⟨← v.q.gather (planTranspose ((List.range n).reverse ++ [n]))⟩

/-- `vec.mT` (`_src/vectors/dn/base.py` 47-74): `axes = (*range(ndim - 3), ndim - 1, ndim - 2, ndim)`;
`range` of a negative number is empty -/
def NDVec.mT (v : NDVec α) : Res (NDVec α) := do
  let n := v.shape.length
  if n < 2 then throw .check
  return ⟨← v.q.gather (planTranspose (List.range (n - 3) ++ [n - 1, n - 2, n]))⟩

/-- `vec.flatten()` (`_src/vectors/dn/base.py` 117-132): `reshape(q, (size, F))` -/
def NDVec.flatten (v : NDVec α) : Res (NDVec α) := do
  return ⟨← v.q.gather (planReshape [some v.shape.prod, some v.features])⟩

/-- `vec.reshape(*t)` (`_src/vectors/dn/base.py` 134-149): `q.reshape(*t, F)` -/
def NDVec.reshape (t : List (Option ℕ)) (v : NDVec α) : Res (NDVec α) := do
  return ⟨← v.q.gather (planReshape (t ++ [some v.features]))⟩

/-- `vec.ravel()`: inherited from `AbstractVector` (`_src/vectors/base/base.py` 749-766) -/
def NDVec.ravel (v : NDVec α) : Res (NDVec α) := do return ⟨← v.q.gather planFlatten⟩

/-- `vec[index]`: inherited from `AbstractVector` (642-671); the index acts on `q` -/
def NDVec.getitem (p : Plan) (v : NDVec α) : Res (NDVec α) := do return ⟨← v.q.gather p⟩

end

end Verif
