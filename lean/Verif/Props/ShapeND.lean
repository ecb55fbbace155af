import Verif.Props.Shape

/-!
# Array-shape operations of N-dimensional Cartesian vectors: C43

Scope: `CartesianPosND`, `CartesianVelND`, `CartesianAccND` of any batch rank and any number of features.
-/

namespace Verif

open List Spec

namespace Spec

/-- `v` has batch shape `s` and `F` features -/
def HasShape {α : Type} (v : NDVec α) (s : List ℕ) (F : ℕ) : Prop := v.q.shape = s ++ [F]

/-- the vector at a batch index: the function from feature numbers to coordinates -/
def ndElem {α : Type} (v : NDVec α) (idx : List ℕ) (k : ℕ) : α := v.q.get (idx ++ [k])

/-- `v'` has batch shape `s'` and the same number of features; the vector at `idx` is the one at `f idx`
in `v`. -/
structure NDMoved {α : Type} (v v' : NDVec α) (F : ℕ) (s' : List ℕ) (f : List ℕ → List ℕ) : Prop where
  shape : HasShape v' s' F
  elems : ∀ idx, InB s' idx → ∀ k < F, ndElem v' idx k = ndElem v (f idx) k

end Spec

variable {α : Type}

theorem nd_shape {v : NDVec α} {s : List ℕ} {F : ℕ} (h : HasShape v s F) : v.shape = s ∧ v.features = F := by
  unfold HasShape at h
  simp [NDVec.shape, NDVec.features, h]

theorem ravel_append {s idx : List ℕ} (F k : ℕ) (h : idx.length = s.length) :
    ravelIdx (s ++ [F]) (idx ++ [k]) = ravelIdx s idx * F + k := by
  induction s generalizing idx with
  | nil =>
    have : idx = [] := by simpa using h
    subst this
    simp [ravelIdx]
  | cons n s ih =>
    cases idx with
    | nil => simp at h
    | cons i idx =>
      simp only [length_cons, Nat.add_right_cancel_iff] at h
      simp only [cons_append, ravelIdx, ih h, prod_append, prod_singleton]
      ring

theorem inB_append {s idx : List ℕ} {F k : ℕ} (h : InB s idx) (hk : k < F) : InB (s ++ [F]) (idx ++ [k]) :=
  rel_append h (.cons hk .nil)

/-- **C43.** `vec.T` of an N-dimensional vector reverses the batch axes, keeping the features, for every
batch shape. -/
theorem C43_nd_T (v : NDVec α) (s : List ℕ) (F : ℕ) (h : HasShape v s F) :
    ∃ v', v.T = .ok v' ∧ NDMoved v v' F s.reverse reverse := by
  have hsh := nd_shape h
  have hq : v.q.shape = s ++ [F] := h
  have hperm : ((range s.length).reverse ++ [s.length]).Perm (range (s ++ [F]).length) := by
    rw [length_append, length_singleton, range_succ]
    exact (reverse_perm _).append_right _
  have hT : v.T = .ok ⟨⟨((range s.length).reverse ++ [s.length]).map fun i => (s ++ [F]).getD i 0, fun idx =>
      v.q.get ((range (s ++ [F]).length).map fun i =>
        idx.getD (((range s.length).reverse ++ [s.length]).idxOf i) 0)⟩⟩ := by
    simp only [NDVec.T, hsh.1, Arr.gather, planTranspose, hq]
    rw [if_pos hperm]; rfl
  have hrev : ∀ l : List ℕ, (range l.length).reverse.map (fun i => l.getD i 0) = l.reverse := by
    intro l
    rw [map_reverse]
    congr 1
    apply ext_getElem
    · simp
    · intro i h1 h2
      simp [getD_eq_getElem?_getD, getElem?_eq_getElem h2]
  refine ⟨_, hT, ?_, fun idx hidx k hk => ?_⟩
  · show _ = _
    simp only [map_append, map_cons, map_nil]
    congr 1
    · rw [← hrev s]
      apply map_congr_left
      intro i hi
      have hi : i < s.length := by simpa using hi
      simp [getD_eq_getElem?_getD, getElem?_append_left hi]
    · simp [getD_eq_getElem?_getD]
  · unfold ndElem
    simp only
    congr 1
    have hl : idx.length = s.length := by rw [inB_length hidx, length_reverse]
    rw [length_append, length_singleton, range_succ, map_append, map_singleton]
    congr 1
    · rw [← hrev idx, hl]
      apply ext_getElem
      · simp
      · intro i h1 h2
        have hi : i < s.length := by simpa using h1
        have hnd : ((range s.length).reverse).Nodup := nodup_reverse.mpr nodup_range
        have e : ((range s.length).reverse ++ [s.length]).idxOf i = s.length - 1 - i := by
          rw [idxOf_append_of_mem (by simpa using hi)]
          have hlt : s.length - 1 - i < (range s.length).reverse.length := by simp; omega
          have := hnd.idxOf_getElem (s.length - 1 - i) hlt
          have e2 : ((range s.length).reverse)[s.length - 1 - i] = i := by
            rw [getElem_reverse]; simp; omega
          rwa [e2] at this
        simp only [getElem_map, getElem_range, e, map_reverse, getElem_reverse, length_map, length_range]
        have : s.length - 1 - i < idx.length := by omega
        simp [getD_eq_getElem?_getD, getElem?_append_left this]
    · have e : ((range s.length).reverse ++ [s.length]).idxOf s.length = s.length := by
        rw [idxOf_append_of_notMem (by simp)]; simp
      rw [e]
      simp [getD_eq_getElem?_getD, ← hl]

/-- **C43.** `vec.mT` of an N-dimensional vector with two batch axes swaps them; with fewer it
raises. With three or more batch axes it raises as well (`C43_nd_mT_raises`). -/
theorem C43_nd_mT (v : NDVec α) (s : List ℕ) (F : ℕ) (h : HasShape v s F) :
    (∀ a b, s = [a, b] → ∃ v', v.mT = .ok v' ∧ NDMoved v v' F [b, a] swapLast) ∧
    (s.length < 2 → v.mT = .error .check) := by
  have hsh := nd_shape h
  have hq : v.q.shape = s ++ [F] := h
  constructor
  · rintro a b rfl
    have hm : v.mT = .ok ⟨⟨[b, a, F], fun idx => v.q.get [idx.getD 1 0, idx.getD 0 0, idx.getD 2 0]⟩⟩ := by
      simp only [NDVec.mT, hsh.1, Arr.gather, planTranspose, hq]
      rfl
    refine ⟨_, hm, rfl, fun idx hidx k _ => ?_⟩
    cases hidx with
    | cons h1 h' => cases h' with
      | cons h2 h'' => cases h''; rfl
  · intro hl
    simp only [NDVec.mT, hsh.1]
    rw [if_pos hl]; rfl

/-- **C43, exception.** `mT` of N-dimensional vectors: for every vector with three or more batch axes it
raises, because the list of axes it passes on is one short. -/
theorem C43_nd_mT_raises (v : NDVec α) (s : List ℕ) (F : ℕ) (h : HasShape v s F) (hs : 3 ≤ s.length) :
    v.mT = .error .value := by
  have hsh := nd_shape h
  have hq : v.q.shape = s ++ [F] := h
  simp only [NDVec.mT, hsh.1]
  rw [if_neg (by omega)]
  simp only [Arr.gather, planTranspose, hq]
  rw [if_neg]
  · rfl
  · intro hp
    have := hp.length_eq
    simp at this
    omega

/-- three batch axes -/
example : HasShape (⟨⟨[2, 3, 4, 5], fun _ => 0⟩⟩ : NDVec ℕ) [2, 3, 4] 5 := rfl

theorem nd_reshape_aux (v : NDVec α) (s : List ℕ) (F : ℕ) (h : HasShape v s F) (t : List (Option ℕ))
    (t' : List ℕ) (ht : resolveShape t (s.prod * F) = .ok (t' ++ [F])) :
    ∃ v', v.q.gather (planReshape t) = .ok v' ∧ HasShape ⟨v'⟩ t' F ∧ ∀ i j, InB t' i → InB s j →
      ravelIdx t' i = ravelIdx s j → ∀ k < F, ndElem ⟨v'⟩ i k = ndElem v j k := by
  have hq : v.q.shape = s ++ [F] := h
  have hpr : (s ++ [F]).prod = s.prod * F := by simp
  refine ⟨⟨t' ++ [F], fun idx => v.q.get (unravelIdx (s ++ [F]) (ravelIdx (t' ++ [F]) idx))⟩, ?_, rfl,
    fun i j hi hj hij k hk => ?_⟩
  · simp only [Arr.gather, planReshape, hq, hpr, ht, ok_bind]; rfl
  · unfold ndElem
    simp only
    rw [ravel_append F k (inB_length hi), hij, ← ravel_append F k (inB_length hj),
      unravel_ravel (inB_append hj hk)]

/-- **C43.** `vec.flatten()` of an N-dimensional vector has batch shape `(size,)` with the vectors in
row-major order, for every batch shape. -/
theorem C43_nd_flatten (v : NDVec α) (s : List ℕ) (F : ℕ) (h : HasShape v s F) :
    ∃ v', v.flatten = .ok v' ∧ HasShape v' [s.prod] F ∧
      ∀ idx, InB s idx → ∀ k < F, ndElem v' [ravelIdx s idx] k = ndElem v idx k := by
  obtain ⟨h1, h2⟩ := nd_shape h
  obtain ⟨q', e1, e2, e3⟩ := nd_reshape_aux v s F h [some s.prod, some F] [s.prod]
    (by simp [resolveShape])
  refine ⟨⟨q'⟩, ?_, e2, fun idx hidx k hk => e3 _ idx (.cons (ravel_lt hidx) .nil) hidx ?_ k hk⟩
  · simp only [NDVec.flatten, h1, h2, e1]; rfl
  · simp [ravelIdx]

theorem resolve_feature (t : List (Option ℕ)) (n F : ℕ) (hF : 0 < F) :
    resolveShape (t ++ [some F]) (n * F) = (resolveShape t n).map (· ++ [F]) := by
  have hk : ((t ++ [some F]).filterMap id) = t.filterMap id ++ [F] := by simp
  have hc : (t ++ [some F]).countP Option.isNone = t.countP Option.isNone := by simp
  unfold resolveShape
  simp only [hk, hc, prod_append, prod_singleton]
  match hcase : t.countP Option.isNone with
  | 0 =>
    by_cases h : (filterMap id t).prod = n
    · rw [if_pos h, if_pos (by rw [h])]; rfl
    · rw [if_neg h, if_neg (fun h' => h (Nat.eq_of_mul_eq_mul_right hF h'))]; rfl
  | 1 =>
    simp only
    by_cases h0 : (filterMap id t).prod = 0
    · rw [if_pos h0, if_pos (by rw [h0, Nat.zero_mul])]; rfl
    · rw [if_neg h0, if_neg (by
        intro h'
        rcases Nat.mul_eq_zero.mp h' with h' | h'
        · exact h0 h'
        · omega)]
      have hm : n * F % ((filterMap id t).prod * F) = n % (filterMap id t).prod * F :=
        Nat.mul_mod_mul_right F n _
      by_cases h : n % (filterMap id t).prod = 0
      · rw [if_pos h, if_pos (by rw [hm, h, Nat.zero_mul]), Nat.mul_div_mul_right _ _ hF]
        simp [Except.map]
      · rw [if_neg h, if_neg (by
          rw [hm]; intro h'
          rcases Nat.mul_eq_zero.mp h' with h' | h'
          · exact h h'
          · omega)]
        rfl
  | k + 2 => rfl

/-- **C43.** `vec.reshape(*t)` of an N-dimensional vector, for every batch shape and every new shape
(with at most one inferred axis): when the sizes match, the result has batch shape `t` and keeps the
row-major order of the vectors; otherwise it raises. With at least one feature. -/
theorem C43_nd_reshape (v : NDVec α) (s : List ℕ) (F : ℕ) (h : HasShape v s F) (hF : 0 < F)
    (t : List (Option ℕ)) :
    (∀ t', resolveShape t s.prod = .ok t' → t'.prod = s.prod ∧
      Forall₂ (fun o k => o = none ∨ o = some k) t t' ∧
      ∃ v', v.reshape t = .ok v' ∧ HasShape v' t' F ∧ ∀ i j, InB t' i → InB s j →
        ravelIdx t' i = ravelIdx s j → ∀ k < F, ndElem v' i k = ndElem v j k) ∧
    ∀ e, resolveShape t s.prod = .error e → v.reshape t = .error e := by
  obtain ⟨h1, h2⟩ := nd_shape h
  have hq : v.q.shape = s ++ [F] := h
  refine ⟨fun t' ht => ⟨(resolve_prod ht).1, (resolve_prod ht).2, ?_⟩, fun e he => ?_⟩
  · have := resolve_feature t s.prod F hF
    rw [ht] at this
    obtain ⟨q', e1, e2, e3⟩ := nd_reshape_aux v s F h _ t' this
    refine ⟨⟨q'⟩, ?_, e2, e3⟩
    simp only [NDVec.reshape, h2, e1]; rfl
  · have := resolve_feature t s.prod F hF
    rw [he] at this
    have hpr : (s ++ [F]).prod = s.prod * F := by simp
    simp only [NDVec.reshape, h2, Arr.gather, planReshape, hq, hpr, this]; rfl

/-- batch shape (2,3): `reshape(3, -1)` gives (3,2) -/
example : resolveShape [some 3, none] [2, 3].prod = .ok [3, 2] := rfl

/-- **C43, exception.** `ravel` of N-dimensional vectors: every such vector is turned into a single vector
(batch shape `()`, not `(size,)`) that has all coordinates of all vectors as its features. -/
theorem C43_nd_ravel_wrong (v : NDVec α) (s : List ℕ) (F : ℕ) (h : HasShape v s F) :
    ∃ v', v.ravel = .ok v' ∧ HasShape v' [] (s.prod * F) := by
  have hq : v.q.shape = s ++ [F] := h
  refine ⟨_, rfl, ?_⟩
  show [v.q.shape.prod] = _
  rw [hq]; simp

/-- an index that concerns leading axes only: what it does to an array is not affected by another axis
at the end -/
def Spec.Leading (p : Plan) : Prop := ∀ s F s' f, p s = .ok (s', f) →
  ∃ f', p (s ++ [F]) = .ok (s' ++ [F], f') ∧ ∀ idx k, InB s' idx → f' (idx ++ [k]) = f idx ++ [k]

/-- **C43.** An index into the leading batch axes that is valid for the batch shape selects the
vectors it should. For indices that reach the feature axis, see `C43_nd_getitem_wrong`. -/
theorem C43_nd_getitem (v : NDVec α) (s : List ℕ) (F : ℕ) (h : HasShape v s F) (p : Plan)
    (hp : Leading p) (s' : List ℕ) (f : List ℕ → List ℕ) (hs : p s = .ok (s', f)) :
    ∃ v', v.getitem p = .ok v' ∧ NDMoved v v' F s' f := by
  have hq : v.q.shape = s ++ [F] := h
  obtain ⟨f', e1, e2⟩ := hp s F s' f hs
  refine ⟨⟨⟨s' ++ [F], fun idx => v.q.get (f' idx)⟩⟩, ?_, rfl, fun idx hidx k _ => ?_⟩
  · simp only [NDVec.getitem, Arr.gather, hq, e1, ok_bind]; rfl
  · unfold ndElem
    simp only [e2 idx k hidx]

theorem leading_int (i : ℕ) : Leading (planInt i) := by
  intro s F s' f h
  cases s with
  | nil => cases h
  | cons n t =>
    simp only [planInt] at h
    split at h
    · rename_i hi
      have h := Except.ok.inj h
      obtain ⟨e1, e2⟩ := Prod.mk.inj h
      subst e1 e2
      exact ⟨fun idx => i :: idx, by simp only [cons_append, planInt]; rw [if_pos hi], fun _ _ _ => rfl⟩
    · cases h

/-- the hypotheses are met: `vec[1]` for batch shape (2,3) -/
example : Leading (planInt 1) ∧ ∃ f, planInt 1 [2, 3] = .ok ([3], f) := ⟨leading_int 1, _, rfl⟩

/-- **C43, exception.** Indexing of N-dimensional vectors: `vec[i]` of a single vector (batch shape `()`,
where indexing should raise) returns a coordinate, and `vec[..., i]` takes a coordinate of each vector
instead of indexing the last batch axis: for a batch `(*s, m)` it drops the features and makes the last
batch axis the feature axis. -/
theorem C43_nd_getitem_wrong (v : NDVec α) (i : ℕ) :
    (∀ F, HasShape v [] F → i < F → (∃ e, planInt i [] = .error e) ∧
      ∃ v', v.getitem (planInt i) = .ok v' ∧ v'.q.shape = [] ∧ v'.q.get [] = ndElem v [] i) ∧
    ∀ s m F, HasShape v (s ++ [m]) F → i < F →
      ∃ v', v.getitem (planLast i) = .ok v' ∧ HasShape v' s m ∧
        ∀ idx k, ndElem v' idx k = ndElem v (idx ++ [k]) i := by
  refine ⟨fun F h hi => ⟨⟨_, rfl⟩, ⟨⟨[], fun idx => v.q.get (i :: idx)⟩⟩, ?_, rfl, rfl⟩,
    fun s m F h hi => ⟨⟨⟨s ++ [m], fun idx => v.q.get (idx ++ [i])⟩⟩, ?_, rfl, fun _ _ => rfl⟩⟩
  · have hq : v.q.shape = [F] := h
    simp only [NDVec.getitem, Arr.gather, hq, planInt]
    rw [if_pos hi]; rfl
  · have hq : v.q.shape = (s ++ [m]) ++ [F] := h
    have : ((s ++ [m]) ++ [F]).reverse = F :: (s ++ [m]).reverse := by simp
    simp only [NDVec.getitem, Arr.gather, hq, planLast, this]
    rw [if_pos hi, reverse_reverse]; rfl

end Verif
