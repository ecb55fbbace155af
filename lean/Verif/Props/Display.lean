import Verif.Display
import Verif.Props.Space

/-!
# Rich display

C82: which formats `_repr_mimebundle_` returns, for every `include` and `exclude`.
-/

namespace Verif

open List

/-! ### Specification -/

/-- Is this format asked for? There are two formats; `include` has precedence; without both arguments all formats are asked for. A string
as `include` asks for none, as `exclude` for those whose name is no part of it. -/
def MimeAsked (incl excl : Option PySeq) (key : String) : Prop :=
  (key = "text/plain" ∨ key = "text/latex") ∧
  match incl with
  | some (.list l) => key ∈ l
  | some (.str _) => False
  | none => match excl with
    | none => True
    | some (.list l) => key ∉ l
    | some (.str s) => ¬ key.toList <:+: s.toList

/-! ### Lemmas -/

theorem mime_mapM_ok (f : String → Res String) : ∀ keys : List String, (∀ k ∈ keys, ∃ v, f k = .ok v) →
    ∃ l, (keys.mapM fun key => do return (key, ← f key)) = (.ok l : Res (List (String × String))) ∧ l.map Prod.fst = keys ∧ ∀ e ∈ l, f e.1 = .ok e.2
  | [], _ => ⟨[], rfl, rfl, by simp⟩
  | k :: keys, h => by
    obtain ⟨v, hv⟩ := h k (by simp)
    obtain ⟨l, hl, hk, he⟩ := mime_mapM_ok f keys fun k hk => h k (by simp [hk])
    refine ⟨(k, v) :: l, ?_, by simp [hk], ?_⟩
    · rw [List.mapM_cons, hl, hv]; rfl
    · intro e he'
      rcases List.mem_cons.1 he' with rfl | he'
      · exact hv
      · exact he e he'

theorem mime_mapM_all (f : String → Res String) : ∀ (keys : List String) (l : List (String × String)),
    (keys.mapM fun key => do return (key, ← f key)) = (.ok l : Res (List (String × String))) → ∀ k ∈ keys, ∃ v, f k = .ok v
  | [], _, _ => by simp
  | k :: keys, l, h => by
    rw [List.mapM_cons] at h
    cases hv : f k with
    | error e => rw [hv] at h; cases h
    | ok v =>
      cases hl : (keys.mapM fun key => do return (key, ← f key) : Res (List (String × String))) with
      | error e => rw [hl, hv] at h; cases h
      | ok l' =>
        intro k' hk'
        rcases List.mem_cons.1 hk' with rfl | hk'
        · exact ⟨v, hv⟩
        · exact mime_mapM_all f keys l' hl k' hk'

theorem mem_dictSet {V : Type} (d : List (String × V)) (k : String) (v : V) : ∀ e ∈ dictSet d k v, e ∈ d ∨ e = (k, v) := by
  induction d with
  | nil => intro e he; exact .inr (by simpa [dictSet] using he)
  | cons kv d ih =>
    intro e he
    obtain ⟨k', v'⟩ := kv
    simp only [dictSet] at he
    split at he
    · rename_i h
      subst h
      rcases List.mem_cons.1 he with h | h
      · exact .inr h
      · exact .inl (by simp [h])
    · rcases List.mem_cons.1 he with h | h
      · exact .inl (by simp [h])
      · rcases ih e h with h | h
        · exact .inl (by simp [h])
        · exact .inr h

theorem mem_key_dictSet {V : Type} (d : List (String × V)) (k : String) (v : V) (k' : String) (h : k' ∈ d.map Prod.fst ∨ k' = k) :
    k' ∈ (dictSet d k v).map Prod.fst := by
  rcases dictSet_keys d k v with e | ⟨hn, e⟩
  · rcases h with h | rfl
    · rw [e]; exact h
    · by_contra hc
      rw [e] at hc
      rw [dictSet_new hc] at e
      simp at e
  · rw [e]
    rcases h with h | rfl <;> simp_all

theorem mem_dictOf {V : Type} (l : List (String × V)) :
    (∀ e ∈ dictOf l, e ∈ l) ∧ ∀ k ∈ l.map Prod.fst, k ∈ (dictOf l).map Prod.fst := by
  unfold dictOf
  have : ∀ (l d : List (String × V)), (∀ e ∈ l.foldl (fun d kv => dictSet d kv.1 kv.2) d, e ∈ d ∨ e ∈ l) ∧
      ∀ k, k ∈ d.map Prod.fst ∨ k ∈ l.map Prod.fst → k ∈ (l.foldl (fun d kv => dictSet d kv.1 kv.2) d).map Prod.fst := by
    intro l
    induction l with
    | nil => intro d; exact ⟨fun e he => .inl he, fun k h => by simpa using h⟩
    | cons kv l ih =>
      intro d
      rw [List.foldl_cons]
      refine ⟨fun e he => ?_, fun k hk => ?_⟩
      · rcases (ih _).1 e he with h | h
        · rcases mem_dictSet d kv.1 kv.2 e h with h | h
          · exact .inl h
          · exact .inr (by simp [h])
        · exact .inr (by simp [h])
      · apply (ih _).2
        simp only [List.map_cons, List.mem_cons] at hk
        rcases hk with h | h | h
        · exact .inl (mem_key_dictSet d kv.1 kv.2 k (.inl h))
        · exact .inl (mem_key_dictSet d kv.1 kv.2 k (.inr h))
        · exact .inr h
  refine ⟨fun e he => ?_, fun k hk => (this l []).2 k (.inr hk)⟩
  simpa using (this l []).1 e he

theorem mem_mimeKeys (plain latex : Res String) (incl excl : Option PySeq) (key : String) :
    key ∈ mimeKeys (supported plain latex) incl excl ↔ MimeAsked incl excl key := by
  unfold mimeKeys MimeAsked supported
  cases incl with
  | some i =>
    cases i with
    | list l => simp [PySeq.items, and_comm]
    | str s =>
      simp only [and_false, iff_false, PySeq.items, List.mem_filter, List.mem_map, not_and]
      rintro ⟨c, -, rfl⟩ h
      simp only [List.map_cons, List.map_nil, List.contains_cons, List.contains_nil, Bool.or_false, Bool.or_eq_true, beq_iff_eq] at h
      rcases h with h | h
      · exact absurd (congrArg (fun s => s.toList.length) h) (by rw [String.toList_ofList, List.length_singleton]; decide +kernel)
      · exact absurd (congrArg (fun s => s.toList.length) h) (by rw [String.toList_ofList, List.length_singleton]; decide +kernel)
  | none =>
    cases excl with
    | none => simp
    | some e =>
      cases e with
      | list l => simp [PySeq.has]
      | str s =>
        simp only [List.mem_filter, List.map_cons, List.map_nil, List.mem_cons, List.not_mem_nil, or_false, PySeq.has, Bool.not_eq_true',
          decide_eq_false_iff_not]

/-! ### Theorems -/

/-- **C82**: the bundle is returned exactly if the methods of the formats asked for return; a format that is not asked for is not computed,
so its failure does no harm. -/
theorem C82_returns (plain latex : Res String) (incl excl : Option PySeq) :
    (∃ d, mimeBundle plain latex incl excl = .ok d) ↔
      (MimeAsked incl excl "text/plain" → ∃ s, plain = .ok s) ∧ (MimeAsked incl excl "text/latex" → ∃ s, latex = .ok s) := by
  have hv : mimeValue (supported plain latex) "text/plain" = plain := rfl
  have hl : mimeValue (supported plain latex) "text/latex" = latex := rfl
  constructor
  · rintro ⟨d, h⟩
    unfold mimeBundle at h
    cases hm : ((mimeKeys (supported plain latex) incl excl).mapM fun key => do
        return (key, ← mimeValue (supported plain latex) key) : Res (List (String × String))) with
    | error e => simp only [hm] at h; cases h
    | ok l =>
      have := mime_mapM_all _ _ _ hm
      exact ⟨fun ha => hv ▸ this _ ((mem_mimeKeys ..).2 ha), fun ha => hl ▸ this _ ((mem_mimeKeys ..).2 ha)⟩
  · rintro ⟨h1, h2⟩
    obtain ⟨l, e, -, -⟩ := mime_mapM_ok (mimeValue (supported plain latex)) (mimeKeys (supported plain latex) incl excl) (by
      intro k hk
      have ha := (mem_mimeKeys ..).1 hk
      rcases ha.1 with rfl | rfl
      · exact h1 ha
      · exact h2 ha)
    refine ⟨dictOf l, ?_⟩
    unfold mimeBundle
    simp only [e]; rfl

/-- **C82**: the bundle has exactly the formats asked for, each once, each with what its method returns. -/
theorem C82_bundle (plain latex : Res String) (incl excl : Option PySeq) (d : List (String × String))
    (h : mimeBundle plain latex incl excl = .ok d) :
    (d.map Prod.fst).Nodup ∧ (∀ key, key ∈ d.map Prod.fst ↔ MimeAsked incl excl key) ∧
    (∀ s, ("text/plain", s) ∈ d → plain = .ok s) ∧ (∀ s, ("text/latex", s) ∈ d → latex = .ok s) := by
  unfold mimeBundle at h
  cases hm : ((mimeKeys (supported plain latex) incl excl).mapM fun key => do
      return (key, ← mimeValue (supported plain latex) key) : Res (List (String × String))) with
  | error e => simp only [hm] at h; cases h
  | ok l =>
    simp only [hm] at h
    obtain rfl : dictOf l = d := by injection h
    obtain ⟨l', e, hk, he⟩ := mime_mapM_ok _ _ (mime_mapM_all _ _ _ hm)
    obtain rfl : l = l' := by rw [hm] at e; injection e
    refine ⟨dictOf_keys_nodup l, fun key => ?_, fun s hs => ?_, fun s hs => ?_⟩
    · rw [← mem_mimeKeys plain latex, ← hk]
      exact ⟨dictOf_keys_mem l key, (mem_dictOf l).2 key⟩
    · exact he _ ((mem_dictOf l).1 _ hs)
    · exact he _ ((mem_dictOf l).1 _ hs)

/-! ### Examples -/

/-- without arguments both formats, in this order -/
example : mimeBundle (.ok "P") (.ok "L") none none = .ok [("text/plain", "P"), ("text/latex", "L")] := by decide +kernel

/-- `include` goes first, repeated and unknown formats do no harm -/
example : mimeBundle (.ok "P") (.ok "L") (some (.list ["text/latex", "image/png", "text/plain", "text/latex"])) (some (.list ["text/latex"])) =
    .ok [("text/latex", "L"), ("text/plain", "P")] := by decide +kernel

/-- `include="text/plain"` asks for nothing -/
example : ¬ MimeAsked (some (.str "text/plain")) none "text/plain" := fun h => h.2

/-- an object whose LaTeX form raises is shown as text -/
example : ∃ d, mimeBundle (.ok "P") (.error .badField) none (some (.list ["text/latex"])) = .ok d :=
  (C82_returns _ _ _ _).2 ⟨fun _ => ⟨_, rfl⟩, fun h => absurd h.2 (by simp)⟩

end Verif
