import Verif.Dispatch

/-!
# Lemmas on the resolver

`candidates` are the minimal elements of the matching methods; subtyping of classes, hints and signatures is a preorder.
-/

namespace Verif

variable {ρ : Type}

/-! ### Classes and hints -/

theorem mro_self (b : Base) : b.mro.contains b = true := by cases b <;> decide

theorem mro_trans (a : Base) : ∀ b ∈ a.mro, ∀ c ∈ b.mro, c ∈ a.mro := by cases a <;> decide

theorem sub_refl (c : Cls) : c.sub c = true := by
  cases c with
  | lib b => exact mro_self b
  | user p n => simp [Cls.sub]

theorem sub_trans : ∀ (c d e : Cls), c.sub d = true → d.sub e = true → c.sub e = true
  | .lib a, .lib b, .lib c, h, h' => by
    simp only [Cls.sub, List.contains_iff_mem] at *
    exact mro_trans a b h c h'
  | .lib a, .lib b, .user q m, _, h' => by simp [Cls.sub] at h'
  | .lib a, .user q m, _, h, _ => by simp [Cls.sub] at h
  | .user p n, d, e, h, h' => by
    simp only [Cls.sub, Bool.or_eq_true, decide_eq_true_eq] at h
    rcases h with h | h
    · subst h; exact h'
    · simp only [Cls.sub, Bool.or_eq_true]
      exact Or.inr (sub_trans p d e h h')

theorem atom_refl (a : Atom) : a.le a = true := by
  cases a <;> simp [Atom.le, sub_refl]

theorem atom_trans (a b c : Atom) (h : a.le b = true) (h' : b.le c = true) : a.le c = true := by
  cases a <;> cases b <;> cases c <;> simp_all [Atom.le] <;> exact sub_trans _ _ _ h h'

theorem hintLe_iff (s t : Hint) : hintLe s t = true ↔ ∀ a ∈ s, ∃ b ∈ t, a.le b = true := by
  simp [hintLe]

theorem hint_refl (s : Hint) : hintLe s s = true := by
  rw [hintLe_iff]; exact fun a h => ⟨a, h, atom_refl a⟩

theorem hint_trans (s t u : Hint) (h : hintLe s t = true) (h' : hintLe t u = true) : hintLe s u = true := by
  rw [hintLe_iff] at *
  intro a ha
  obtain ⟨b, hb, hab⟩ := h a ha
  obtain ⟨c, hc, hbc⟩ := h' b hb
  exact ⟨c, hc, atom_trans a b c hab hbc⟩

/-! ### Signatures -/

theorem zipLe_iff : ∀ (xs ys : List Hint), zipLe xs ys = true ↔
    ∀ i : ℕ, ∀ x ∈ xs[i]?, ∀ y ∈ ys[i]?, hintLe x y = true
  | [], _ => by simp [zipLe]
  | _ :: _, [] => by simp [zipLe]
  | x :: xs, y :: ys => by
    simp only [zipLe, Bool.and_eq_true, zipLe_iff xs ys]
    constructor
    · rintro ⟨h, h'⟩ i a ha b hb
      cases i with
      | zero => simp only [List.getElem?_cons_zero, Option.mem_def, Option.some.injEq] at ha hb; subst ha hb; exact h
      | succ i => simp only [List.getElem?_cons_succ] at ha hb; exact h' i a ha b hb
    · intro h
      exact ⟨h 0 x (by simp) y (by simp), fun i a ha b hb => h (i + 1) a (by simpa using ha) b (by simpa using hb)⟩

/-- the hint at a position -/
def Sig.at (s : Sig) (i : ℕ) : Option Hint := if i < s.types.length then s.types[i]? else s.varargs

theorem expand_get (s : Sig) (n i : ℕ) (hi : i < n) : (s.expand n)[i]? = s.at i := by
  unfold Sig.expand Sig.at
  cases hv : s.varargs with
  | none =>
    by_cases h : i < s.types.length
    · simp [h]
    · simp only [h, if_false]; exact List.getElem?_eq_none (by omega)
  | some v =>
    by_cases h : i < s.types.length
    · simp [h, List.getElem?_append]
    · simp only [h, if_false, List.getElem?_append]
      rw [List.getElem?_replicate]
      simp; omega

theorem expand_length (s : Sig) (n : ℕ) (h : s.types.length ≤ n) (hv : s.varargs.isSome = true) :
    (s.expand n).length = n := by
  unfold Sig.expand
  cases hs : s.varargs with
  | none => simp [hs] at hv
  | some v => simp; omega

/-- a signature that takes `n` arguments -/
def Sig.takes (s : Sig) (n : ℕ) : Prop :=
  s.types.length = n ∨ s.types.length ≤ n ∧ s.varargs.isSome = true

theorem matches_takes (s : Sig) (args : List Atom) (h : s.matches args = true) : s.takes args.length := by
  unfold Sig.matches at h
  simp only [Bool.and_eq_true, beq_iff_eq] at h
  obtain ⟨h, -⟩ := h
  unfold Sig.takes
  unfold Sig.expand at h
  cases hv : s.varargs with
  | none => simp only [hv] at h; exact Or.inl h
  | some v => simp only [hv, List.length_append, List.length_replicate] at h; right; exact ⟨by omega, rfl⟩

/-- For signatures that take `n` arguments, the order is the order of the hints at each of the `n` positions, and of the
variable arguments. -/
theorem sigLe_iff (s t : Sig) (n : ℕ) (hs : s.takes n) (ht : t.takes n) : s.le t = true ↔
    (∀ v ∈ s.varargs, ∃ w ∈ t.varargs, hintLe v w = true) ∧
    ∀ i < max s.types.length t.types.length, ∀ x ∈ s.at i, ∀ y ∈ t.at i, hintLe x y = true := by
  unfold Sig.le
  have hlok : (s.types.length == t.types.length || (decide (t.types.length < s.types.length) && t.varargs.isSome)
    || (decide (s.types.length < t.types.length) && s.varargs.isSome)) = true := by
    simp only [Bool.or_eq_true, Bool.and_eq_true, beq_iff_eq, decide_eq_true_eq]
    rcases hs with hs | ⟨hs, hs'⟩ <;> rcases ht with ht | ⟨ht, ht'⟩
    · left; left; omega
    · by_cases e : s.types.length = t.types.length
      · left; left; exact e
      · left; right; exact ⟨by omega, ht'⟩
    · by_cases e : s.types.length = t.types.length
      · left; left; exact e
      · right; exact ⟨by omega, hs'⟩
    · by_cases e : s.types.length = t.types.length
      · left; left; exact e
      · by_cases l : t.types.length < s.types.length
        · left; right; exact ⟨l, ht'⟩
        · right; exact ⟨by omega, hs'⟩
  have hvok : varLe s.varargs t.varargs = true ↔ ∀ v ∈ s.varargs, ∃ w ∈ t.varargs, hintLe v w = true := by
    cases s.varargs <;> cases t.varargs <;> simp [varLe]
  simp only [hlok, Bool.and_true, Bool.and_eq_true, hvok]
  refine and_congr_right fun _ => ?_
  rw [zipLe_iff]
  have key : ∀ i, (∀ x ∈ (s.expand t.types.length)[i]?, ∀ y ∈ (t.expand s.types.length)[i]?, hintLe x y = true) ↔
      (i < max s.types.length t.types.length → ∀ x ∈ s.at i, ∀ y ∈ t.at i, hintLe x y = true) := by
    intro i
    have e : ∀ (a b : Sig), i < max a.types.length b.types.length → (a.expand b.types.length)[i]? = a.at i := by
      intro a b hi
      by_cases h : i < b.types.length
      · exact expand_get a _ i h
      · have h' : i < a.types.length := by omega
        unfold Sig.expand Sig.at
        cases a.varargs
        · simp [h']
        · simp only [List.getElem?_append_left h', h', if_true]
    by_cases hi : i < max s.types.length t.types.length
    · rw [e s t hi, e t s (by rwa [max_comm])]; simp [hi]
    · have : (s.expand t.types.length)[i]? = none := by
        apply List.getElem?_eq_none
        unfold Sig.expand
        cases s.varargs <;> simp <;> omega
      rw [this]; simp [hi]
  exact ⟨fun h i hi => (key i).1 (h i) hi, fun h i => (key i).2 fun hi => h i hi⟩

theorem sig_refl (s : Sig) : s.le s = true := by
  rw [sigLe_iff s s s.types.length (Or.inl rfl) (Or.inl rfl)]
  refine ⟨fun v hv => ⟨v, hv, hint_refl v⟩, fun i _ x hx y hy => ?_⟩
  rw [Option.mem_def] at hx hy
  rw [hx] at hy; cases hy; exact hint_refl x

/-- among signatures that take the same number of arguments the order is transitive -/
theorem sig_trans (s t u : Sig) (n : ℕ) (hs : s.takes n) (ht : t.takes n) (hu : u.takes n) (h : s.le t = true)
    (h' : t.le u = true) : s.le u = true := by
  rw [sigLe_iff s t n hs ht] at h
  rw [sigLe_iff t u n ht hu] at h'
  rw [sigLe_iff s u n hs hu]
  obtain ⟨h1, h2⟩ := h
  obtain ⟨h3, h4⟩ := h'
  refine ⟨fun v hv => ?_, fun i hi x hx y hy => ?_⟩
  · obtain ⟨w, hw, hvw⟩ := h1 v hv
    obtain ⟨z, hz, hwz⟩ := h3 w hw
    exact ⟨z, hz, hint_trans v w z hvw hwz⟩
  · -- the hint of `t` at that position
    have hin : i < n := by
      rcases hs with hs | ⟨hs, -⟩ <;> rcases hu with hu | ⟨hu, -⟩ <;> omega
    have htat : ∃ z, z ∈ t.at i := by
      unfold Sig.at
      by_cases hit : i < t.types.length
      · simp only [hit, if_true]; exact ⟨t.types[i], by simp⟩
      · simp only [hit, if_false]
        rcases ht with ht | ⟨-, ht⟩
        · omega
        · exact Option.isSome_iff_exists.1 ht
    obtain ⟨z, hz⟩ := htat
    by_cases hi1 : i < max s.types.length t.types.length
    · by_cases hi2 : i < max t.types.length u.types.length
      · exact hint_trans x z y (h2 i hi1 x hx z hz) (h4 i hi2 z hz y hy)
      · -- past the types of `t` and `u`: variable arguments
        have hit : ¬ i < t.types.length := by omega
        have hiu : ¬ i < u.types.length := by omega
        simp only [Sig.at, hit, hiu, if_false] at hz hy
        obtain ⟨w, hw, hzw⟩ := h3 z hz
        rw [Option.mem_def] at hw hy
        rw [hw] at hy; injection hy with e; subst e
        exact hint_trans _ z _ (h2 i hi1 x hx z (by simpa [Sig.at, hit] using hz)) hzw
    · have his : ¬ i < s.types.length := by omega
      have hit : ¬ i < t.types.length := by omega
      simp only [Sig.at, his, hit, if_false] at hx hz
      obtain ⟨w, hw, hxw⟩ := h1 x hx
      rw [Option.mem_def] at hw hz
      rw [hw] at hz; injection hz with e; subst e
      by_cases hi2 : i < max t.types.length u.types.length
      · exact hint_trans x w y hxw (h4 i hi2 w (by simpa [Sig.at, hit] using hw) y hy)
      · omega

/-! ### The candidates -/

/-- A matching method that no other matching method is more specific than. -/
def Best (ms : List (Method ρ)) (args : List Atom) (m : Method ρ) : Prop :=
  m ∈ ms ∧ m.sig.matches args = true ∧
    ∀ m' ∈ ms, m'.sig.matches args = true → m'.sig.le m.sig = true → m.sig.le m'.sig = true

/-- no two methods have the same signature -/
def Distinct (ms : List (Method ρ)) : Prop :=
  ms.Pairwise fun a b => ¬ (a.sig.le b.sig = true ∧ b.sig.le a.sig = true)

/-- minimal elements of a list of methods -/
def Minimal (ms : List (Method ρ)) (m : Method ρ) : Prop :=
  m ∈ ms ∧ ∀ m' ∈ ms, m'.sig.le m.sig = true → m.sig.le m'.sig = true

theorem exists_minimal (n : ℕ) : ∀ (ms : List (Method ρ)), (∀ m ∈ ms, m.sig.takes n) → ∀ m ∈ ms,
    ∃ m', Minimal ms m' ∧ m'.sig.le m.sig = true
  | [], _, m, h => by simp at h
  | a :: ms, ht, m, h => by
    have ih := exists_minimal n ms (fun x hx => ht x (List.mem_cons_of_mem _ hx))
    have tr : ∀ x ∈ a :: ms, ∀ y ∈ a :: ms, ∀ z ∈ a :: ms, x.sig.le y.sig = true → y.sig.le z.sig = true →
        x.sig.le z.sig = true := fun x hx y hy z hz => sig_trans _ _ _ n (ht x hx) (ht y hy) (ht z hz)
    have ma : a ∈ a :: ms := List.mem_cons_self
    -- either `a` is minimal, or something in `ms` is strictly below it
    by_cases hm : Minimal (a :: ms) a
    · rcases List.mem_cons.1 h with e | h
      · exact ⟨a, hm, by rw [e]; exact sig_refl _⟩
      · obtain ⟨m', hm', hle⟩ := ih m h
        have mm' : m' ∈ a :: ms := List.mem_cons_of_mem _ hm'.1
        by_cases hx : Minimal (a :: ms) m'
        · exact ⟨m', hx, hle⟩
        · -- then `a` is below `m'`
          have : a.sig.le m'.sig = true := by
            by_contra hna
            apply hx
            refine ⟨mm', fun y hy hyle => ?_⟩
            rcases List.mem_cons.1 hy with e | hy
            · subst e; exact absurd hyle hna
            · exact hm'.2 y hy hyle
          exact ⟨a, hm, tr a ma m' mm' m (List.mem_cons_of_mem _ h) this hle⟩
    · -- something below `a`, not above
      have : ∃ y ∈ ms, y.sig.le a.sig = true ∧ ¬ a.sig.le y.sig = true := by
        by_contra hc
        apply hm
        refine ⟨ma, fun y hy hyle => ?_⟩
        rcases List.mem_cons.1 hy with e | hy
        · subst e; exact hyle
        · by_contra hna; exact hc ⟨y, hy, hyle, hna⟩
      obtain ⟨y, hy, hya, hnay⟩ := this
      have lift : ∀ m', Minimal ms m' → Minimal (a :: ms) m' := by
        intro m' hm'
        have mm' : m' ∈ a :: ms := List.mem_cons_of_mem _ hm'.1
        refine ⟨mm', fun z hz hzle => ?_⟩
        rcases List.mem_cons.1 hz with e | hz
        · subst e
          -- y ≤ z ≤ m', so m' ≤ y ≤ z
          have hym : y.sig.le m'.sig = true := tr y (List.mem_cons_of_mem _ hy) z ma m' mm' hya hzle
          exact tr m' mm' y (List.mem_cons_of_mem _ hy) z ma (hm'.2 y hy hym) hya
        · exact hm'.2 z hz hzle
      rcases List.mem_cons.1 h with e | h
      · obtain ⟨m', hm', hle⟩ := ih y hy
        subst e
        exact ⟨m', lift m' hm', tr m' (List.mem_cons_of_mem _ hm'.1) y (List.mem_cons_of_mem _ hy) m ma hle hya⟩
      · obtain ⟨m', hm', hle⟩ := ih m h
        exact ⟨m', lift m' hm', hle⟩

/-- one more method: the candidates stay the minimal elements -/
theorem candStep_minimal (n : ℕ) (ms cs : List (Method ρ)) (m : Method ρ) (ht : ∀ x ∈ ms, x.sig.takes n)
    (hm : m.sig.takes n) (hd : ∀ x ∈ ms, ¬ (x.sig.le m.sig = true ∧ m.sig.le x.sig = true))
    (hc : ∀ x, x ∈ cs ↔ Minimal ms x) (x : Method ρ) : x ∈ candStep cs m ↔ Minimal (ms ++ [m]) x := by
  have tr : ∀ x y z : Method ρ, x.sig.takes n → y.sig.takes n → z.sig.takes n → x.sig.le y.sig = true →
      y.sig.le z.sig = true → x.sig.le z.sig = true := fun x y z hx hy hz => sig_trans _ _ _ n hx hy hz
  have below : ∀ y ∈ ms, ∃ c ∈ cs, c.sig.le y.sig = true := by
    intro y hy
    obtain ⟨c, hcm, hle⟩ := exists_minimal n ms ht y hy
    exact ⟨c, (hc c).2 hcm, hle⟩
  have cms : ∀ c ∈ cs, c ∈ ms := fun c h => ((hc c).1 h).1
  -- minimality in the longer list
  have old : ∀ x, x ∈ ms → (Minimal (ms ++ [m]) x ↔ x ∈ cs ∧ ¬ m.sig.le x.sig = true) := by
    intro x hx
    constructor
    · rintro ⟨-, h⟩
      refine ⟨(hc x).2 ⟨hx, fun y hy => h y (by simp [hy])⟩, fun hle => ?_⟩
      exact hd x hx ⟨h m (by simp) hle, hle⟩
    · rintro ⟨hxc, hnle⟩
      refine ⟨by simp [hx], fun y hy hle => ?_⟩
      rcases List.mem_append.1 hy with hy | hy
      · exact ((hc x).1 hxc).2 y hy hle
      · rw [List.mem_singleton] at hy; subst hy; exact absurd hle hnle
  have new : Minimal (ms ++ [m]) m ↔ ∀ c ∈ cs, ¬ c.sig.le m.sig = true := by
    constructor
    · rintro ⟨-, h⟩ c hcc hle
      exact hd c (cms c hcc) ⟨hle, h c (by simp [cms c hcc]) hle⟩
    · intro h
      refine ⟨by simp, fun y hy hle => ?_⟩
      rcases List.mem_append.1 hy with hy | hy
      · obtain ⟨c, hcc, hcy⟩ := below y hy
        exact absurd (tr c y m (ht c (cms c hcc)) (ht y hy) hm hcy hle) (h c hcc)
      · rw [List.mem_singleton] at hy; subst hy; exact sig_refl _
  have mx : Minimal (ms ++ [m]) x → x ∈ ms ∨ x = m := by
    rintro ⟨h, -⟩
    rcases List.mem_append.1 h with h | h
    · exact Or.inl h
    · exact Or.inr (List.mem_singleton.1 h)
  have hmn : m ∉ ms := fun h => hd m h ⟨sig_refl _, sig_refl _⟩
  unfold candStep
  by_cases hcomp : (cs.any fun c => c.sig.comparable m.sig) = true
  · rw [if_pos hcomp]
    have filt : ∀ x, x ∈ (cs.filter fun c => !m.sig.lt c.sig) ↔ x ∈ cs ∧ ¬ m.sig.le x.sig = true := by
      intro x
      simp only [List.mem_filter, Sig.lt, Bool.not_eq_true', Bool.and_eq_false_iff, Bool.not_eq_false',
        Bool.not_eq_true]
      constructor
      · rintro ⟨h, h'⟩
        refine ⟨h, ?_⟩
        rcases h' with h' | h'
        · exact h'
        · cases hb : m.sig.le x.sig with
          | false => rfl
          | true => exact absurd ⟨h', hb⟩ (hd x (cms x h))
      · rintro ⟨h, h'⟩; exact ⟨h, Or.inl h'⟩
    by_cases habove : (cs.any fun c => m.sig.le c.sig) = true
    · simp only [habove, if_true, List.mem_append, List.mem_singleton, filt]
      have hmin : Minimal (ms ++ [m]) m := by
        rw [new]
        intro c hcc hle
        simp only [List.any_eq_true] at habove
        obtain ⟨d, hd', hmd⟩ := habove
        have hcd : c.sig.le d.sig = true := tr c m d (ht c (cms c hcc)) hm (ht d (cms d hd')) hle hmd
        have hdc : d.sig.le c.sig = true := ((hc d).1 hd').2 c (cms c hcc) hcd
        exact hd d (cms d hd') ⟨tr d c m (ht d (cms d hd')) (ht c (cms c hcc)) hm hdc hle, hmd⟩
      constructor
      · rintro (⟨h, h'⟩ | h)
        · exact (old x (cms x h)).2 ⟨h, h'⟩
        · subst h; exact hmin
      · intro h
        rcases mx h with h' | h'
        · exact Or.inl ((old x h').1 h)
        · exact Or.inr h'
    · simp only [habove, Bool.false_eq_true, if_false, filt]
      have hna : ∀ c ∈ cs, ¬ m.sig.le c.sig = true := by
        intro c hcc hle
        exact habove (List.any_eq_true.2 ⟨c, hcc, hle⟩)
      constructor
      · rintro ⟨h, h'⟩; exact (old x (cms x h)).2 ⟨h, h'⟩
      · intro h
        rcases mx h with h' | h'
        · exact (old x h').1 h
        · subst h'
          rw [new] at h
          simp only [List.any_eq_true, Sig.comparable, Bool.or_eq_true] at hcomp
          obtain ⟨c, hcc, h1 | h1⟩ := hcomp
          · exact absurd h1 (h c hcc)
          · exact absurd h1 (hna c hcc)
  · rw [if_neg hcomp]
    have hnc : ∀ c ∈ cs, ¬ c.sig.le m.sig = true ∧ ¬ m.sig.le c.sig = true := by
      intro c hcc
      constructor <;> intro h <;> apply hcomp <;> refine List.any_eq_true.2 ⟨c, hcc, ?_⟩ <;>
        simp [Sig.comparable, h]
    simp only [List.mem_append, List.mem_singleton]
    constructor
    · rintro (h | h)
      · exact (old x (cms x h)).2 ⟨h, (hnc x h).2⟩
      · subst h; exact new.2 fun c hcc => (hnc c hcc).1
    · intro h
      rcases mx h with h' | h'
      · exact Or.inl ((old x h').1 h).1
      · exact Or.inr h'

theorem candStep_sub (cs : List (Method ρ)) (m x : Method ρ) (h : x ∈ candStep cs m) : x ∈ cs ∨ x = m := by
  unfold candStep at h
  split at h
  · split at h
    · simp only [List.mem_append, List.mem_filter, List.mem_singleton] at h
      rcases h with h | h
      · exact Or.inl h.1
      · exact Or.inr h
    · simp only [List.mem_filter] at h; exact Or.inl h.1
  · simp only [List.mem_append, List.mem_singleton] at h; exact h

theorem candStep_nodup (cs : List (Method ρ)) (m : Method ρ) (h : cs.Nodup) (hm : m ∉ cs) : (candStep cs m).Nodup := by
  unfold candStep
  have app : ∀ l : List (Method ρ), l.Nodup → m ∉ l → (l ++ [m]).Nodup := by
    intro l hl hn
    rw [List.nodup_append]
    refine ⟨hl, by simp, fun a ha b hb => ?_⟩
    rw [List.mem_singleton] at hb; subst hb
    exact fun e => hn (e ▸ ha)
  split
  · simp only
    split
    · exact app _ (h.filter _) fun hx => hm (List.mem_of_mem_filter hx)
    · exact h.filter _
  · exact app _ h hm

theorem fold_minimal (n : ℕ) : ∀ (rest done cs : List (Method ρ)), (∀ x ∈ done ++ rest, x.sig.takes n) →
    Distinct (done ++ rest) → (∀ x, x ∈ cs ↔ Minimal done x) → cs.Nodup →
    (∀ x, x ∈ rest.foldl candStep cs ↔ Minimal (done ++ rest) x) ∧ (rest.foldl candStep cs).Nodup
  | [], done, cs, _, _, hc, hn => by simpa using ⟨hc, hn⟩
  | m :: rest, done, cs, ht, hd, hc, hn => by
    have e : done ++ m :: rest = (done ++ [m]) ++ rest := by simp
    have hd' : ∀ x ∈ done, ¬ (x.sig.le m.sig = true ∧ m.sig.le x.sig = true) := by
      intro x hx
      unfold Distinct at hd
      rw [List.pairwise_append] at hd
      exact hd.2.2 x hx m List.mem_cons_self
    have hmc : m ∉ cs := fun h => hd' m ((hc m).1 h).1 ⟨sig_refl _, sig_refl _⟩
    rw [e] at ht hd ⊢
    rw [List.foldl_cons]
    exact fold_minimal n rest (done ++ [m]) (candStep cs m) ht hd
      (candStep_minimal n done cs m (fun x hx => ht x (by simp [hx])) (ht m (by simp)) hd' hc)
      (candStep_nodup cs m hn hmc)

theorem candidates_iff (ms : List (Method ρ)) (args : List Atom) (hd : Distinct ms) :
    (∀ x, x ∈ candidates ms args ↔ Best ms args x) ∧ (candidates ms args).Nodup := by
  have h := fold_minimal args.length (ms.filter fun m => m.sig.matches args) [] []
    (fun x hx => matches_takes x.sig args (by simp only [List.nil_append, List.mem_filter] at hx; exact hx.2))
    (by simpa [Distinct] using List.Pairwise.filter _ hd) (by intro x; simp [Minimal]) List.nodup_nil
  refine ⟨fun x => ?_, h.2⟩
  unfold candidates
  rw [h.1 x]
  simp only [List.nil_append, Minimal, Best, List.mem_filter]
  constructor
  · rintro ⟨⟨h1, h2⟩, h3⟩; exact ⟨h1, h2, fun m' a b c => h3 m' ⟨a, b⟩ c⟩
  · rintro ⟨h1, h2, h3⟩; exact ⟨⟨h1, h2⟩, fun m' a c => h3 m' a.1 a.2 c⟩

/-! ### The pick -/

theorem foldl_max_le : ∀ (l : List ℕ) (a : ℕ), a ≤ l.foldl max a ∧ ∀ x ∈ l, x ≤ l.foldl max a
  | [], a => by simp
  | b :: l, a => by
    obtain ⟨h1, h2⟩ := foldl_max_le l (max a b)
    simp only [List.foldl_cons]
    refine ⟨le_trans (le_max_left a b) h1, fun x hx => ?_⟩
    rcases List.mem_cons.1 hx with e | hx
    · subst e; exact le_trans (le_max_right a x) h1
    · exact h2 x hx

theorem foldl_max_mem : ∀ (l : List ℕ) (a : ℕ), l.foldl max a = a ∨ l.foldl max a ∈ l
  | [], a => by simp
  | b :: l, a => by
    simp only [List.foldl_cons]
    rcases foldl_max_mem l (max a b) with h | h
    · rw [h]
      rcases le_total a b with hab | hab
      · right; rw [max_eq_right hab]; simp
      · left; exact max_eq_left hab
    · right; exact List.mem_cons_of_mem _ h

/-- the only one of highest precedence -/
theorem filter_top (cs : List (Method ρ)) (hn : cs.Nodup) (c : Method ρ) :
    (cs.filter fun c => c.prec == (cs.map fun c => c.prec).foldl max 0) = [c] ↔
      c ∈ cs ∧ ∀ c' ∈ cs, c' ≠ c → c'.prec < c.prec := by
  generalize htop : (cs.map fun c => c.prec).foldl max 0 = top
  have hle : ∀ x ∈ cs, x.prec ≤ top := fun x hx => by
    rw [← htop]; exact (foldl_max_le _ 0).2 _ (List.mem_map.2 ⟨x, hx, rfl⟩)
  constructor
  · intro h
    have mem : ∀ x, x ∈ cs ∧ x.prec = top ↔ x = c := by
      intro x
      have := congrArg (fun l => x ∈ l) h
      simp only [List.mem_filter, beq_iff_eq, List.mem_singleton, eq_iff_iff] at this
      exact this
    obtain ⟨h1, h2⟩ := (mem c).2 rfl
    refine ⟨h1, fun x hx hne => lt_of_le_of_ne (h2 ▸ hle x hx) fun e => hne ((mem x).1 ⟨hx, e.trans h2⟩)⟩
  · rintro ⟨h1, h2⟩
    have hc : c.prec = top := by
      rcases foldl_max_mem (cs.map fun c => c.prec) 0 with h | h
      · rw [htop] at h
        have := hle c h1
        omega
      · rw [htop] at h
        obtain ⟨x, hx, hxe⟩ := List.mem_map.1 h
        by_cases hxc : x = c
        · rw [← hxc]; exact hxe
        · have := h2 x hx hxc
          have := hle c h1
          omega
    have hmem : ∀ x, x ∈ (cs.filter fun c => c.prec == top) ↔ x = c := by
      intro x
      simp only [List.mem_filter, beq_iff_eq]
      constructor
      · rintro ⟨hx, hxe⟩
        by_contra hne
        have := h2 x hx hne
        omega
      · intro e; subst e; exact ⟨h1, hc⟩
    have hnd : (cs.filter fun c => c.prec == top).Nodup := hn.filter _
    generalize (cs.filter fun c => c.prec == top) = l at hmem hnd
    match l with
    | [] => simp at hmem
    | [a] => rw [(hmem a).1 (by simp)]
    | a :: b :: l =>
      have ha := (hmem a).1 (by simp)
      have hb := (hmem b).1 (by simp)
      rw [ha, hb] at hnd
      simp at hnd

theorem pick_iff (cs : List (Method ρ)) (hn : cs.Nodup) :
    (∀ r, pick cs = .found r ↔ ∃ c ∈ cs, c.rule = r ∧ ∀ c' ∈ cs, c' ≠ c → c'.prec < c.prec) ∧
    (pick cs = .notFound ↔ cs = []) := by
  match cs with
  | [] => simp [pick]
  | [c] => simp [pick]
  | a :: b :: l =>
    have key := filter_top (a :: b :: l) hn
    generalize hcs : a :: b :: l = cs at *
    have hp : pick cs = match cs.filter fun c => c.prec == (cs.map fun c => c.prec).foldl max 0 with
        | [c] => .found c.rule
        | _ => .ambiguous := by rw [← hcs]; rfl
    rw [hp]
    generalize hf : (cs.filter fun c => c.prec == (cs.map fun c => c.prec).foldl max 0) = fl at *
    have hne : cs ≠ [] := by rw [← hcs]; simp
    match fl with
    | [] =>
      refine ⟨fun r => ⟨fun h => (by cases h), ?_⟩, by simp [hne]⟩
      rintro ⟨c, hc, -, h⟩
      have := (key c).2 ⟨hc, h⟩
      cases this
    | [c] =>
      refine ⟨fun r => ?_, by simp [hne]⟩
      have hc := (key c).1 rfl
      constructor
      · intro h; injection h with e; exact ⟨c, hc.1, e, hc.2⟩
      · rintro ⟨d, hd, e, h⟩
        have := (key d).2 ⟨hd, h⟩
        injection this with e'
        subst e'; rw [← e]
    | c :: d :: l' =>
      refine ⟨fun r => ⟨fun h => (by cases h), ?_⟩, by simp [hne]⟩
      rintro ⟨c, hc, -, h⟩
      have := (key c).2 ⟨hc, h⟩
      cases this

/-! ### Registration -/

/-- equal signatures -/
def Same (s t : Sig) : Prop := s.le t = true ∧ t.le s = true

theorem same_refl (s : Sig) : Same s s := ⟨sig_refl s, sig_refl s⟩

theorem same_symm {s t : Sig} (h : Same s t) : Same t s := ⟨h.2, h.1⟩

theorem le_varargs {s t : Sig} (h : s.le t = true) : s.varargs.isSome = true → t.varargs.isSome = true := by
  unfold Sig.le at h
  simp only [Bool.and_eq_true] at h
  obtain ⟨⟨h, -⟩, -⟩ := h
  cases hs : s.varargs <;> cases ht : t.varargs <;> simp_all [varLe]

theorem le_length {s t : Sig} (h : s.le t = true) (hs : s.varargs.isSome = false) (ht : t.varargs.isSome = false) :
    s.types.length = t.types.length := by
  unfold Sig.le at h
  simp only [Bool.and_eq_true] at h
  obtain ⟨⟨-, h⟩, -⟩ := h
  simpa [hs, ht] using h

theorem same_trans {s t u : Sig} (h : Same s t) (h' : Same t u) : Same s u := by
  by_cases hv : s.varargs.isSome = true
  · have ht := le_varargs h.1 hv
    have hu := le_varargs h'.1 ht
    let n := max s.types.length (max t.types.length u.types.length)
    have ks : s.takes n := Or.inr ⟨le_max_left _ _, hv⟩
    have kt : t.takes n := Or.inr ⟨le_trans (le_max_left _ _) (le_max_right _ _), ht⟩
    have ku : u.takes n := Or.inr ⟨le_trans (le_max_right _ _) (le_max_right _ _), hu⟩
    exact ⟨sig_trans s t u n ks kt ku h.1 h'.1, sig_trans u t s n ku kt ks h'.2 h.2⟩
  · have hs : s.varargs.isSome = false := by simpa using hv
    have ht : t.varargs.isSome = false := by
      rw [← Bool.not_eq_true]; exact fun hc => hv (le_varargs h.2 hc)
    have hu : u.varargs.isSome = false := by
      rw [← Bool.not_eq_true]; intro hc
      have := le_varargs h'.2 hc
      rw [ht] at this; cases this
    have e1 := le_length h.1 hs ht
    have e2 := le_length h'.1 ht hu
    exact ⟨sig_trans s t u _ (Or.inl rfl) (Or.inl e1.symm) (Or.inl (e1.trans e2).symm) h.1 h'.1,
      sig_trans u t s _ (Or.inl rfl) (Or.inl e2) (Or.inl (e1.trans e2)) h'.2 h.2⟩

/-- `m` is the last registration with its signature. -/
def Last (regs : List (Method ρ)) (m : Method ρ) : Prop :=
  ∃ before after, regs = before ++ m :: after ∧ ∀ x ∈ after, ¬ Same x.sig m.sig

theorem register_same (m m' : Method ρ) : (m'.sig.le m.sig && m.sig.le m'.sig) = true ↔ Same m'.sig m.sig := by
  simp [Same]

theorem mem_register (ms : List (Method ρ)) (m x : Method ρ) :
    x ∈ register ms m ↔ x = m ∨ x ∈ ms ∧ ¬ Same x.sig m.sig := by
  unfold register
  split
  · rename_i h
    simp only [List.any_eq_true, register_same] at h
    obtain ⟨y, hy, hys⟩ := h
    simp only [List.mem_map]
    constructor
    · rintro ⟨z, hz, rfl⟩
      split
      · exact Or.inl rfl
      · rename_i hn; exact Or.inr ⟨hz, fun hs => hn ((register_same m z).2 hs)⟩
    · rintro (rfl | ⟨hx, hn⟩)
      · exact ⟨y, hy, if_pos ((register_same _ y).2 hys)⟩
      · exact ⟨x, hx, if_neg fun h => hn ((register_same m x).1 h)⟩
  · rename_i h
    simp only [List.any_eq_true, register_same, not_exists, not_and] at h
    simp only [List.mem_append, List.mem_singleton]
    constructor
    · rintro (hx | hx)
      · exact Or.inr ⟨hx, h x hx⟩
      · exact Or.inl hx
    · rintro (hx | hx)
      · exact Or.inr hx
      · exact Or.inl hx.1

theorem register_distinct (ms : List (Method ρ)) (m : Method ρ) (hd : Distinct ms) : Distinct (register ms m) := by
  unfold register
  split
  · unfold Distinct at *
    rw [List.pairwise_map]
    refine hd.imp fun {a b} hab hs => ?_
    by_cases ha : (a.sig.le m.sig && m.sig.le a.sig) = true <;> by_cases hb : (b.sig.le m.sig && m.sig.le b.sig) = true
    · exact hab (same_trans ((register_same m a).1 ha) (same_symm ((register_same m b).1 hb)))
    · rw [if_pos ha, if_neg hb] at hs; exact hb ((register_same m b).2 (same_symm hs))
    · rw [if_neg ha, if_pos hb] at hs; exact ha ((register_same m a).2 hs)
    · rw [if_neg ha, if_neg hb] at hs; exact hab hs
  · rename_i h
    simp only [List.any_eq_true, register_same, not_exists, not_and] at h
    unfold Distinct at *
    rw [List.pairwise_append]
    refine ⟨hd, by simp, fun a ha b hb hs => ?_⟩
    rw [List.mem_singleton] at hb; subst hb
    exact h a ha hs

theorem last_snoc (regs : List (Method ρ)) (m x : Method ρ) :
    Last (regs ++ [m]) x ↔ x = m ∨ Last regs x ∧ ¬ Same x.sig m.sig := by
  constructor
  · rintro ⟨l1, l2, e, h⟩
    rcases List.eq_nil_or_concat l2 with rfl | ⟨l2', z, rfl⟩
    · left
      have := List.append_inj' e (by simp)
      simpa using this.2.symm
    · right
      have e' : regs ++ [m] = (l1 ++ x :: l2') ++ [z] := by rw [e]; simp
      have := List.append_inj' e' (by simp)
      obtain ⟨h1, h2⟩ := this
      simp only [List.cons.injEq, and_true] at h2
      subst h2
      exact ⟨⟨l1, l2', h1, fun y hy => h y (by simp [hy])⟩, fun hs => h m (by simp) (same_symm hs)⟩
  · rintro (rfl | ⟨⟨l1, l2, e, h⟩, hn⟩)
    · exact ⟨regs, [], rfl, by simp⟩
    · refine ⟨l1, l2 ++ [m], by rw [e]; simp, fun y hy => ?_⟩
      rcases List.mem_append.1 hy with hy | hy
      · exact h y hy
      · rw [List.mem_singleton] at hy; subst hy; exact fun hs => hn (same_symm hs)

/-- The table holds the last registration of every signature, once. -/
theorem registerAll_spec (regs : List (Method ρ)) :
    (∀ x, x ∈ registerAll regs ↔ Last regs x) ∧ Distinct (registerAll regs) := by
  induction regs using List.reverseRecOn with
  | nil =>
    refine ⟨fun x => ⟨fun h => by simp [registerAll] at h, ?_⟩, by simp [registerAll, Distinct]⟩
    rintro ⟨l1, l2, e, -⟩
    simp at e
  | append_singleton regs m ih =>
    have e : registerAll (regs ++ [m]) = register (registerAll regs) m := by simp [registerAll]
    rw [e]
    exact ⟨fun x => by rw [mem_register, last_snoc, ih.1], register_distinct _ _ ih.2⟩

/-! ### Matching -/

theorem matches_iff (s : Sig) (args : List Atom) : s.matches args = true ↔
    s.takes args.length ∧ ∀ i, ∀ a ∈ args[i]?, ∃ h ∈ s.at i, ∃ b ∈ h, a.le b = true := by
  constructor
  · intro h
    have ht := matches_takes s args h
    refine ⟨ht, fun i a ha => ?_⟩
    unfold Sig.matches at h
    simp only [Bool.and_eq_true, beq_iff_eq, zipLe_iff] at h
    obtain ⟨hl, h⟩ := h
    rw [Option.mem_def, List.getElem?_eq_some_iff] at ha
    obtain ⟨hi, ha⟩ := ha
    have hi' : i < (s.expand args.length).length := by omega
    have hg : (s.expand args.length)[i]? = some (s.expand args.length)[i] := List.getElem?_eq_getElem hi'
    refine ⟨(s.expand args.length)[i], ?_, ?_⟩
    · rw [← expand_get s args.length i hi]; exact hg
    · have := h i [a] (by simp [hi, ha]) _ hg
      rw [hintLe_iff] at this
      exact this a (by simp)
  · rintro ⟨ht, h⟩
    unfold Sig.matches
    simp only [Bool.and_eq_true, beq_iff_eq, zipLe_iff]
    constructor
    · rcases ht with ht | ⟨ht, hv⟩
      · unfold Sig.expand; cases s.varargs <;> simp <;> omega
      · exact expand_length s _ ht hv
    · intro i x hx y hy
      simp only [List.getElem?_map, Option.mem_def, Option.map_eq_some_iff] at hx
      obtain ⟨a, ha, rfl⟩ := hx
      have hi : i < args.length := by
        by_contra hc; rw [List.getElem?_eq_none (by omega)] at ha; cases ha
      rw [expand_get s _ i hi] at hy
      obtain ⟨z, hz, b, hb, hab⟩ := h i a ha
      rw [Option.mem_def] at hz hy
      rw [hz] at hy; injection hy with e; subst e
      rw [hintLe_iff]
      intro a' ha'
      rw [List.mem_singleton] at ha'; subst ha'
      exact ⟨b, hb, hab⟩

/-! ### User classes -/

/-- the class of `coordinax` that a class derives from -/
def Cls.root : Cls → Base
  | .lib b => b
  | .user p _ => p.root

theorem sub_lib : ∀ (c : Cls) (b : Base), c.sub (.lib b) = (Cls.lib c.root).sub (.lib b)
  | .lib _, _ => rfl
  | .user p n, b => by
    have e : decide (Cls.user p n = Cls.lib b) = false := decide_eq_false fun h => by cases h
    have h : (Cls.user p n).sub (.lib b) = (decide (Cls.user p n = Cls.lib b) || p.sub (.lib b)) := by simp only [Cls.sub]
    rw [h, e, Bool.false_or, sub_lib p b]; rfl

/-- a hint that names classes of `coordinax` only -/
def Atom.isLib : Atom → Bool
  | .inst (.lib _) | .klass (.lib _) | .any => true
  | _ => false

def Hint.isLib (h : Hint) : Bool := !h.isEmpty && h.all Atom.isLib

def Sig.isLib (s : Sig) : Bool :=
  s.types.all Hint.isLib && (match s.varargs with | none => true | some h => Hint.isLib h)

/-- the argument with its class replaced by the class of `coordinax` it derives from -/
def Atom.root : Atom → Atom
  | .inst c => .inst (.lib c.root)
  | .klass c => .klass (.lib c.root)
  | .any => .any

theorem atom_root (a b : Atom) (hb : b.isLib = true) : a.le b = a.root.le b := by
  cases b with
  | any => cases a <;> rfl
  | inst c =>
    cases c with
    | user p n => cases hb
    | lib b => cases a <;> simp only [Atom.le, Atom.root]; exact sub_lib _ _
  | klass c =>
    cases c with
    | user p n => cases hb
    | lib b => cases a <;> simp only [Atom.le, Atom.root]; exact sub_lib _ _

theorem at_isLib' (s : Sig) (hs : s.isLib = true) (i : ℕ) (h : Hint) (hh : h ∈ s.at i) : Hint.isLib h = true := by
  unfold Sig.isLib at hs
  simp only [Bool.and_eq_true, List.all_eq_true] at hs
  unfold Sig.at at hh
  split at hh
  · exact hs.1 h (List.mem_of_getElem? hh)
  · rw [Option.mem_def] at hh
    simp only [hh] at hs
    exact hs.2

theorem at_isLib (s : Sig) (hs : s.isLib = true) (i : ℕ) (h : Hint) (hh : h ∈ s.at i) : ∀ b ∈ h, b.isLib = true := by
  have := at_isLib' s hs i h hh
  simp only [Hint.isLib, Bool.and_eq_true, List.all_eq_true] at this
  exact this.2

theorem matches_root (s : Sig) (hs : s.isLib = true) (args : List Atom) :
    s.matches args = s.matches (args.map Atom.root) := by
  rw [Bool.eq_iff_iff, matches_iff, matches_iff]
  simp only [List.length_map, List.getElem?_map]
  refine and_congr_right fun _ => forall_congr' fun i => ?_
  constructor
  · intro h a ha
    rw [Option.mem_def, Option.map_eq_some_iff] at ha
    obtain ⟨a', ha', rfl⟩ := ha
    obtain ⟨x, hx, b, hb, hab⟩ := h a' ha'
    exact ⟨x, hx, b, hb, by rw [← atom_root a' b (at_isLib s hs i x hx b hb)]; exact hab⟩
  · intro h a ha
    obtain ⟨x, hx, b, hb, hab⟩ := h a.root (by rw [Option.mem_def] at ha ⊢; rw [ha]; rfl)
    exact ⟨x, hx, b, hb, by rw [atom_root a b (at_isLib s hs i x hx b hb)]; exact hab⟩

end Verif
