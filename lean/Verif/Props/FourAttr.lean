import Verif.FourAttr

/-!
# Attributes of a `FourVector`

C81: what `w.name` is for a `FourVector` `w`, for all names and all spatial parts.
-/

namespace Verif

/-! ### Specification -/

/-- The lookup ends with `r`: it does with enough steps, and more steps change nothing. -/
def PyObj.Ends (o : PyObj) (name : String) (r : Got PyObj) : Prop := ∃ n, ∀ m, n ≤ m → o.getattr m name = some r

/-- The lookup does not end, whatever the number of steps: Python raises `RecursionError`. -/
def PyObj.Loops (o : PyObj) (name : String) : Prop := ∀ n, o.getattr n name = none

/-! ### Theorems -/

/-- more steps do not change the result -/
theorem getattr_mono : ∀ (n : ℕ) (o : PyObj) (name : String) (r : Got PyObj), o.getattr n name = some r →
    o.getattr (n + 1) name = some r
  | 0, _, _, _, h => by cases h
  | n + 1, o, name, r, h => by
    rw [PyObj.getattr] at h ⊢
    cases ho : o.ordinary name with
    | value v => rw [ho] at h; exact h
    | raises e => rw [ho] at h; exact h
    | missing =>
      rw [ho] at h
      simp only at h ⊢
      cases hf : o.four with
      | false => rw [hf] at h; exact h
      | true =>
        rw [hf] at h
        simp only [if_true] at h ⊢
        cases hq : o.getattr n "q" with
        | none => rw [hq] at h; cases h
        | some q =>
          rw [getattr_mono n o "q" q hq]
          rw [hq] at h
          cases q with
          | value q => exact getattr_mono n q name r h
          | missing => exact h
          | raises e => exact h

theorem ends_of {o : PyObj} {name : String} {r : Got PyObj} {n : ℕ} (h : o.getattr n name = some r) : o.Ends name r := by
  refine ⟨n, fun m hm => ?_⟩
  induction hm with
  | refl => exact h
  | step _ ih => exact getattr_mono _ _ _ _ ih

/-- **C81**: a lookup has at most one result, and it ends or loops. -/
theorem C81_one_result (o : PyObj) (name : String) :
    (∀ r s, o.Ends name r → o.Ends name s → r = s) ∧ (o.Loops name ∨ ∃ r, o.Ends name r) := by
  refine ⟨fun r s ⟨n, hn⟩ ⟨m, hm⟩ => ?_, ?_⟩
  · have := hn (max n m) (le_max_left _ _)
    rw [hm _ (le_max_right _ _)] at this
    exact (Option.some.inj this).symm
  · by_cases h : ∃ n r, o.getattr n name = some r
    · obtain ⟨n, r, h⟩ := h
      exact .inr ⟨r, ends_of h⟩
    · refine .inl fun n => ?_
      cases hn : o.getattr n name with
      | none => rfl
      | some r => exact absurd ⟨n, r, hn⟩ h

/-- **C81**: what a `FourVector` defines itself is never taken from its spatial part: a value is returned, and an exception other than
`AttributeError` is raised, also if `q` has an attribute of this name. -/
theorem C81_own (w : PyObj) (name : String) :
    (∀ v, w.ordinary name = .value v → w.Ends name (.value v)) ∧ (∀ e, w.ordinary name = .raises e → w.Ends name (.raises e)) :=
  ⟨fun v h => ends_of (n := 1) (by rw [PyObj.getattr, h]), fun e h => ends_of (n := 1) (by rw [PyObj.getattr, h])⟩

/-- **C81**: any other name is looked up on `q`, and the result is what it is on `q`: its value, its `AttributeError`, its other
exceptions; also if `q` forwards names itself. This includes names of properties of `w` that raise `AttributeError`: the error
is hidden, and `q` is asked. -/
theorem C81_forward (as : List (String × Got PyObj)) (q : PyObj) (hq : as.lookup "q" = some (.value q)) (name : String)
    (h : as.lookup name = none ∨ as.lookup name = some .missing) (r : Got PyObj) :
    (PyObj.obj true as).Ends name r ↔ q.Ends name r := by
  have hm : (PyObj.obj true as).ordinary name = .missing := by
    rcases h with h | h <;> simp [PyObj.ordinary, h]
  have hv : (PyObj.obj true as).ordinary "q" = .value q := by simp [PyObj.ordinary, hq]
  have step : ∀ n, (PyObj.obj true as).getattr (n + 2) name = q.getattr (n + 1) name := fun n => by
    rw [PyObj.getattr, hm]
    simp only [PyObj.four, if_true]
    rw [show (PyObj.obj true as).getattr (n + 1) "q" = some (.value q) by rw [PyObj.getattr, hv]]
  constructor
  · rintro ⟨n, hn⟩
    exact ends_of (n := n + 1) (by rw [← step n]; exact hn _ (by omega))
  · rintro ⟨n, hn⟩
    exact ends_of (n := n + 2) (by rw [step n]; exact hn _ (by omega))

/-- **C81**: so with a spatial part that does not forward, as all of `coordinax`, every lookup ends, and `w` has an attribute exactly if it
or `q` has it. -/
theorem C81_hasattr (as bs : List (String × Got PyObj)) (hq : as.lookup "q" = some (.value (.obj false bs))) (name : String) :
    (∃ r, (PyObj.obj true as).Ends name r) ∧
    ((PyObj.obj true as).Ends name .missing ↔
      (as.lookup name = none ∨ as.lookup name = some .missing) ∧ (bs.lookup name = none ∨ bs.lookup name = some .missing)) := by
  have hb : (PyObj.obj false bs).Ends name ((bs.lookup name).getD .missing) := ends_of (n := 1) (by
    rw [PyObj.getattr]
    simp only [PyObj.ordinary, PyObj.four]
    cases (bs.lookup name).getD .missing <;> rfl)
  have hbm : (PyObj.obj false bs).Ends name .missing ↔ (bs.lookup name = none ∨ bs.lookup name = some .missing) := by
    constructor
    · intro h
      have e := (C81_one_result _ _).1 _ _ hb h
      cases hl : bs.lookup name with
      | none => exact .inl rfl
      | some g => rw [hl] at e; exact .inr (congrArg some e)
    · rintro (h | h) <;> · rw [h] at hb; exact hb
  have fwd := C81_forward as _ hq name
  cases ha : as.lookup name with
  | none =>
    have f := fwd (.inl ha)
    exact ⟨⟨_, (f _).2 hb⟩, by rw [f, hbm]; simp⟩
  | some g =>
    cases g with
    | missing =>
      have f := fwd (.inr ha)
      exact ⟨⟨_, (f _).2 hb⟩, by rw [f, hbm]; simp⟩
    | value v =>
      have hv := (C81_own (.obj true as) name).1 v (by simp [PyObj.ordinary, ha])
      refine ⟨⟨_, hv⟩, fun h => ?_, fun h => ?_⟩
      · cases (C81_one_result _ _).1 _ _ hv h
      · rcases h.1 with h | h <;> cases h
    | raises e =>
      have hv := (C81_own (.obj true as) name).2 e (by simp [PyObj.ordinary, ha])
      refine ⟨⟨_, hv⟩, fun h => ?_, fun h => ?_⟩
      · cases (C81_one_result _ _).1 _ _ hv h
      · rcases h.1 with h | h <;> cases h

/-- **C81**: a `FourVector` without its field `q`, as `copy` and `pickle` make one before they set the fields: asking for any attribute that its
classes do not define, and for `q` itself, does not raise `AttributeError` but recurses without end. -/
theorem C81_no_q (as : List (String × Got PyObj)) (hq : as.lookup "q" = none ∨ as.lookup "q" = some .missing) (name : String)
    (h : as.lookup name = none ∨ as.lookup name = some .missing) : (PyObj.obj true as).Loops name := by
  have key : ∀ (n : ℕ) (name : String), (as.lookup name = none ∨ as.lookup name = some .missing) →
      (PyObj.obj true as).getattr n name = none := by
    intro n
    induction n with
    | zero => intros; rfl
    | succ n ih =>
      intro name h
      have hm : (PyObj.obj true as).ordinary name = .missing := by
        rcases h with h | h <;> simp [PyObj.ordinary, h]
      rw [PyObj.getattr, hm]
      simp only [PyObj.four, if_true]
      rw [ih "q" hq]
  exact fun n => key n name h

/-- **C81**: where `q` is a property, in a subclass, and raises another exception, names that are forwarded raise this. -/
theorem C81_q_raises (as : List (String × Got PyObj)) (e : String) (hq : as.lookup "q" = some (.raises e)) (name : String)
    (h : as.lookup name = none ∨ as.lookup name = some .missing) : (PyObj.obj true as).Ends name (.raises e) := by
  have hm : (PyObj.obj true as).ordinary name = .missing := by
    rcases h with h | h <;> simp [PyObj.ordinary, h]
  have hv : (PyObj.obj true as).ordinary "q" = .raises e := by simp [PyObj.ordinary, hq]
  refine ends_of (n := 2) ?_
  rw [PyObj.getattr, hm]
  simp only [PyObj.four, if_true]
  rw [show (PyObj.obj true as).getattr 1 "q" = some (.raises e) by rw [PyObj.getattr, hv]]

example : (PyObj.obj true [("q", .raises "ValueError")]).Ends "x" (.raises "ValueError") := C81_q_raises _ _ rfl _ (.inl rfl)

theorem names_free (k : Kind) : ∀ name ∈ (VCls.pos k).components ++ (VCls.pos k).attributes, name ∉ fourNames := by
  cases k <;> decide +kernel

/-- **C81**: the components and attributes of every position class, in particular of those of three dimensions, are attributes of a `FourVector` with such a spatial
part: no name of theirs is taken by `FourVector` or its base classes in `coordinax`, so if `w` has no other attributes of these
names, `w.name` is `w.q.name`. -/
theorem C81_components (k : Kind) (name : String)
    (hn : name ∈ (VCls.pos k).components ++ (VCls.pos k).attributes) (as : List (String × Got PyObj))
    (has : ∀ e ∈ as, e.1 ∈ fourNames ∨ e.1 ∉ (VCls.pos k).components ++ (VCls.pos k).attributes) (bs : List (String × Got PyObj))
    (hq : as.lookup "q" = some (.value (.obj false bs))) (v : PyObj) (hv : bs.lookup name = some (.value v)) :
    name ∉ fourNames ∧ (PyObj.obj true as).Ends name (.value v) := by
  have hnot := names_free k name hn
  refine ⟨hnot, ?_⟩
  have hl : as.lookup name = none := by
    rw [List.lookup_eq_none_iff]
    intro e he
    by_contra hc
    have : name = e.1 := by simpa using hc
    rcases has e he with h | h
    · exact hnot (this ▸ h)
    · exact h (this ▸ hn)
  rw [C81_forward as _ hq name (.inl hl)]
  exact (C81_own (.obj false bs) name).1 v (by simp [PyObj.ordinary, hv])

/-! ### Examples -/

/-- a spherical spatial part and a `FourVector` of it: both have `norm` -/
def xQ : List (String × Got PyObj) := [("r", .value (.data 1)), ("theta", .value (.data 2)), ("phi", .value (.data 3)), ("norm", .value (.data 4))]
def xW : List (String × Got PyObj) := [("t", .value (.data 5)), ("q", .value (.obj false xQ)), ("norm", .value (.data 6)),
  ("differential_cls", .raises "NotImplementedError")]

example : (PyObj.obj true xW).Ends "r" (.value (.data 1)) :=
  (C81_components .sph "r" (by decide) xW (by decide) xQ rfl _ rfl).2

example : (PyObj.obj true xW).Ends "norm" (.value (.data 6)) ∧ (PyObj.obj true xW).Ends "differential_cls" (.raises "NotImplementedError") :=
  ⟨(C81_own _ _).1 _ rfl, (C81_own _ _).2 _ rfl⟩

example : (PyObj.obj true xW).Ends "x" .missing := (C81_hasattr xW xQ rfl "x").2.2 ⟨.inl rfl, .inl rfl⟩

/-- `hasattr(w, "__setstate__")`, which `copy.copy` asks of the new object -/
example : (PyObj.obj true [("norm", .value (.data 6))]).Loops "__setstate__" := C81_no_q _ (.inl rfl) _ (.inl rfl)

end Verif
