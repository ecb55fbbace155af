import Verif.DispatchLemmas
import Verif.Frame
import Verif.Forms

/-!
# Dispatch

C74: which rule a call runs is determined by the classes of its arguments, not by the order of imports; calls between
positions are never ambiguous; code that registers rules for its own classes changes no existing call; and the conversion
functions of this model are what dispatch selects.
-/

namespace Verif

variable {ρ : Type}

/-! ### Specification -/

/-- A signature accepts the arguments: the number fits, and each is an instance of an alternative of its hint. -/
def Accepts (s : Sig) (args : List Atom) : Prop :=
  s.takes args.length ∧ ∀ i, ∀ a ∈ args[i]?, ∃ h ∈ s.at i, ∃ b ∈ h, a.le b = true

/-- The methods a call can run: those registered, and not overwritten, whose signature accepts the arguments. -/
def Applicable (regs : List (Method ρ)) (args : List Atom) (m : Method ρ) : Prop := Last regs m ∧ Accepts m.sig args

/-- no applicable method is more specific -/
def MostSpecific (regs : List (Method ρ)) (args : List Atom) (m : Method ρ) : Prop :=
  Applicable regs args m ∧ ∀ m', Applicable regs args m' → m'.sig.le m.sig = true → m.sig.le m'.sig = true

/-- The method for a call: a most specific one, of higher precedence than all other most specific ones. -/
def Chosen (regs : List (Method ρ)) (args : List Atom) (m : Method ρ) : Prop :=
  MostSpecific regs args m ∧ ∀ m', MostSpecific regs args m' → m' ≠ m → m'.prec < m.prec

theorem accepts_iff (s : Sig) (args : List Atom) : s.matches args = true ↔ Accepts s args := matches_iff s args

theorem best_iff (regs : List (Method ρ)) (args : List Atom) (m : Method ρ) :
    Best (registerAll regs) args m ↔ MostSpecific regs args m := by
  have h := (registerAll_spec regs).1
  unfold Best MostSpecific Applicable
  simp only [h, accepts_iff, and_assoc, and_imp]

/-- **C74**: a call runs the method chosen by specificity and precedence among the last registrations of each signature;
it raises `NotFoundLookupError` exactly if no method is applicable, and `AmbiguousLookupError` exactly if some are and none
is chosen. -/
theorem C74_resolve (regs : List (Method ρ)) (args : List Atom) :
    (∀ r, resolve (registerAll regs) args = .found r ↔ ∃ m, Chosen regs args m ∧ m.rule = r) ∧
    (resolve (registerAll regs) args = .notFound ↔ ∀ m, ¬ Applicable regs args m) ∧
    (resolve (registerAll regs) args = .ambiguous ↔ (∃ m, Applicable regs args m) ∧ ∀ m, ¬ Chosen regs args m) := by
  have hs := registerAll_spec regs
  obtain ⟨hc, hn⟩ := candidates_iff (registerAll regs) args hs.2
  have hcb : ∀ x, x ∈ candidates (registerAll regs) args ↔ MostSpecific regs args x := fun x => (hc x).trans (best_iff regs args x)
  obtain ⟨hf, he⟩ := pick_iff (candidates (registerAll regs) args) hn
  have h1 : ∀ r, resolve (registerAll regs) args = .found r ↔ ∃ m, Chosen regs args m ∧ m.rule = r := by
    intro r
    unfold resolve
    rw [hf r]
    constructor
    · rintro ⟨c, hcm, hr, hp⟩
      exact ⟨c, ⟨(hcb c).1 hcm, fun m' hm' => hp m' ((hcb m').2 hm')⟩, hr⟩
    · rintro ⟨c, ⟨hcm, hp⟩, hr⟩
      exact ⟨c, (hcb c).2 hcm, hr, fun m' hm' => hp m' ((hcb m').1 hm')⟩
  have h2 : resolve (registerAll regs) args = .notFound ↔ ∀ m, ¬ Applicable regs args m := by
    unfold resolve
    rw [he]
    constructor
    · intro h m hm
      have hex := exists_minimal args.length ((registerAll regs).filter fun m => m.sig.matches args)
        (fun x hx => matches_takes _ _ (List.mem_filter.1 hx).2) m
        (List.mem_filter.2 ⟨(hs.1 m).2 hm.1, (accepts_iff _ _).2 hm.2⟩)
      obtain ⟨m', hm', -⟩ := hex
      have : m' ∈ candidates (registerAll regs) args := by
        rw [hc]
        refine ⟨(List.mem_filter.1 hm'.1).1, (List.mem_filter.1 hm'.1).2, fun y hy hym => ?_⟩
        exact hm'.2 y (List.mem_filter.2 ⟨hy, hym⟩)
      rw [h] at this; cases this
    · intro h
      rw [List.eq_nil_iff_forall_not_mem]
      exact fun m hm => h m ((hcb m).1 hm).1
  refine ⟨h1, h2, ?_⟩
  constructor
  · intro ha
    constructor
    · by_contra hne
      rw [h2.2 fun m hm => hne ⟨m, hm⟩] at ha; cases ha
    · intro m hm
      rw [(h1 m.rule).2 ⟨m, hm, rfl⟩] at ha; cases ha
  · rintro ⟨⟨m, hm⟩, hno⟩
    cases hr : resolve (registerAll regs) args with
    | found r => obtain ⟨m', hm', -⟩ := (h1 r).1 hr; exact absurd hm' (hno m')
    | notFound => exact absurd hm (h2.1 hr m)
    | ambiguous => rfl

/-- **C74**: more specific means accepting less: of two signatures for that number of arguments, the one above accepts what
the one below accepts. -/
theorem C74_specific (s t : Sig) (args : List Atom) (h : s.le t = true) (ht : t.takes args.length)
    (hs : Accepts s args) : Accepts t args := by
  refine ⟨ht, fun i a ha => ?_⟩
  obtain ⟨x, hx, b, hb, hab⟩ := hs.2 i a ha
  have hi : i < args.length := by
    by_contra hc; rw [Option.mem_def, List.getElem?_eq_none (by omega)] at ha; cases ha
  have hy : ∃ y, y ∈ t.at i := by
    unfold Sig.at
    by_cases hit : i < t.types.length
    · simp only [hit, if_true]; exact ⟨t.types[i], by simp⟩
    · simp only [hit, if_false]
      rcases ht with ht | ⟨-, ht⟩
      · omega
      · exact Option.isSome_iff_exists.1 ht
  obtain ⟨y, hy⟩ := hy
  have hxy : hintLe x y = true := by
    rw [sigLe_iff s t args.length hs.1 ht] at h
    by_cases hm : i < max s.types.length t.types.length
    · exact h.2 i hm x hx y hy
    · have h1 : ¬ i < s.types.length := by omega
      have h2 : ¬ i < t.types.length := by omega
      simp only [Sig.at, h1, h2, if_false] at hx hy
      obtain ⟨w, hw, hxw⟩ := h.1 x hx
      rw [Option.mem_def] at hw hy
      rw [hw] at hy; injection hy with e; subst e; exact hxw
  rw [hintLe_iff] at hxy
  obtain ⟨c, hc, hbc⟩ := hxy b hb
  exact ⟨y, hy, c, hc, atom_trans a b c hab hbc⟩

/-- a lookup is determined by its found rules and whether it finds nothing -/
theorem lookup_ext {x y : Lookup ρ} (h : ∀ r, x = .found r ↔ y = .found r) (h' : x = .notFound ↔ y = .notFound) :
    x = y := by
  cases x with
  | found r => exact ((h r).1 rfl).symm
  | notFound => exact (h'.1 rfl).symm
  | ambiguous =>
    cases y with
    | found r => exact (h r).2 rfl
    | notFound => exact h'.2 rfl
    | ambiguous => rfl

/-- Calls depend on the applicable methods only. -/
theorem resolve_congr (regs regs' : List (Method ρ)) (args : List Atom)
    (h : ∀ m, Applicable regs args m ↔ Applicable regs' args m) :
    resolve (registerAll regs) args = resolve (registerAll regs') args := by
  have hm : ∀ m, MostSpecific regs args m ↔ MostSpecific regs' args m := fun m => by
    unfold MostSpecific; simp only [h]
  have hch : ∀ m, Chosen regs args m ↔ Chosen regs' args m := fun m => by unfold Chosen; simp only [hm]
  obtain ⟨a1, a2, -⟩ := C74_resolve regs args
  obtain ⟨b1, b2, -⟩ := C74_resolve regs' args
  refine lookup_ext (fun r => ?_) ?_
  · rw [a1, b1]; simp only [hch]
  · rw [a2, b2]; simp only [h]

/-- **C74**: the order in which methods with different signatures are registered does not matter; of methods with the same
signature the last one counts. -/
theorem C74_order (regs regs' : List (Method ρ)) (args : List Atom) (h : ∀ m, Last regs m ↔ Last regs' m) :
    resolve (registerAll regs) args = resolve (registerAll regs') args :=
  resolve_congr regs regs' args fun m => by unfold Applicable; rw [h]

theorem last_mem {regs : List (Method ρ)} {m : Method ρ} (h : Last regs m) : m ∈ regs := by
  obtain ⟨a, b, rfl, -⟩ := h; simp

theorem last_append (l1 l2 : List (Method ρ)) (m : Method ρ) :
    Last (l1 ++ l2) m ↔ Last l2 m ∨ Last l1 m ∧ ∀ x ∈ l2, ¬ Same x.sig m.sig := by
  induction l2 using List.reverseRecOn with
  | nil =>
    simp only [List.append_nil, List.not_mem_nil, false_imp_iff, implies_true, and_true, iff_or_self]
    rintro ⟨a, b, e, -⟩; simp at e
  | append_singleton l2 z ih =>
    rw [← List.append_assoc, last_snoc, last_snoc, ih]
    simp only [List.mem_append, List.mem_singleton]
    constructor
    · rintro (h | ⟨h | h, hn⟩)
      · exact Or.inl (Or.inl h)
      · exact Or.inl (Or.inr ⟨h, hn⟩)
      · refine Or.inr ⟨h.1, fun x hx => ?_⟩
        rcases hx with hx | rfl
        · exact h.2 x hx
        · exact fun hs => hn (same_symm hs)
    · rintro ((h | h) | h)
      · exact Or.inl h
      · exact Or.inr ⟨Or.inl h.1, h.2⟩
      · exact Or.inr ⟨Or.inr ⟨h.1, fun x hx => h.2 x (Or.inl hx)⟩, fun hs => h.2 z (Or.inr rfl) (same_symm hs)⟩

/-- modules with different signatures -/
theorem last_flatten (mods : List (List (Method ρ)))
    (hd : mods.Pairwise fun A B => ∀ a ∈ A, ∀ b ∈ B, ¬ Same a.sig b.sig) (m : Method ρ) :
    Last mods.flatten m ↔ ∃ A ∈ mods, Last A m := by
  induction mods with
  | nil => simp only [List.flatten_nil, List.not_mem_nil, false_and, exists_false, iff_false]; rintro ⟨a, b, e, -⟩; simp at e
  | cons A mods ih =>
    rw [List.pairwise_cons] at hd
    rw [List.flatten_cons, last_append, ih hd.2]
    simp only [List.mem_cons, exists_eq_or_imp]
    constructor
    · rintro (h | h)
      · exact Or.inr h
      · exact Or.inl h.1
    · rintro (h | h)
      · refine Or.inr ⟨h, fun x hx hs => ?_⟩
        obtain ⟨B, hB, hxB⟩ := List.mem_flatten.1 hx
        exact hd.1 B hB m (last_mem h) x hxB (same_symm hs)
      · exact Or.inl h

/-- the modules that register conversions -/
def repModules : List (List (Method Rule)) := [regsD1, regsD2, regsD3, regsDN, regsX1, regsX2, regsX3, regsXV]

theorem repModules_flatten : repModules.flatten = repRegs := by
  simp only [repModules, repRegs, List.flatten_cons, List.flatten_nil, List.append_nil, List.append_assoc]

/-- decidable form of `Same` -/
def sameB (s t : Sig) : Bool := s.le t && t.le s

theorem repModules_distinct : repModules.Pairwise fun A B => ∀ a ∈ A, ∀ b ∈ B, ¬ Same a.sig b.sig := by
  have h : repModules.Pairwise fun A B => (A.all fun a => B.all fun b => !sameB a.sig b.sig) = true := by decide +kernel
  refine h.imp fun {A B} hAB a ha b hb hs => ?_
  simp only [List.all_eq_true] at hAB
  have := hAB a ha b hb
  simp [sameB, hs.1, hs.2] at this

/-- **C74**: whatever the order in which the modules of `coordinax` are imported, every conversion runs the same rule. -/
theorem C74_import_order (mods : List (List (Method Rule))) (h : mods.Perm repModules) (args : List Atom) :
    resolve (registerAll mods.flatten) args = resolve repTable args := by
  have hd : mods.Pairwise fun A B => ∀ a ∈ A, ∀ b ∈ B, ¬ Same a.sig b.sig :=
    h.symm.pairwise repModules_distinct fun {A B} hAB b hb a ha hs => hAB a ha b hb (same_symm hs)
  unfold repTable
  rw [← repModules_flatten]
  refine C74_order _ _ args fun m => ?_
  rw [last_flatten _ hd, last_flatten _ repModules_distinct]
  simp only [h.mem_iff]

/-! ### Classes and rules of users -/

/-- a hint all of whose alternatives are classes of users -/
def Hint.isUser (h : Hint) : Prop := ∀ b ∈ h, ∃ p n, b = .inst (.user p n) ∨ b = .klass (.user p n)

/-- a registration by a user: some parameter takes classes of the user only -/
def UserRule (m : Method ρ) : Prop := ∃ (i : ℕ) (h : Hint), m.sig.types[i]? = some h ∧ Hint.isUser h

theorem lib_not_user (b : Base) (p : Cls) (n : ℕ) : (Cls.lib b).sub (.user p n) = false := rfl

theorem userRule_rejects (m : Method ρ) (hm : UserRule m) (args : List Atom) (hl : ∀ a ∈ args, a = a.root ∧ a ≠ .any) :
    ¬ Accepts m.sig args := by
  rintro ⟨ht, h⟩
  obtain ⟨i, x, hx, hu⟩ := hm
  have hi : i < m.sig.types.length := by
    by_contra hc; rw [List.getElem?_eq_none (by omega)] at hx; cases hx
  have hia : i < args.length := by rcases ht with ht | ⟨ht, -⟩ <;> omega
  obtain ⟨y, hy, b, hb, hab⟩ := h i args[i] (by simp)
  have hat : m.sig.at i = some x := by unfold Sig.at; rw [if_pos hi, hx]
  rw [Option.mem_def, hat] at hy; injection hy with e; subst e
  obtain ⟨hr, hne⟩ := hl args[i] (List.getElem_mem hia)
  rw [hr] at hab hne
  obtain ⟨p, n, rfl | rfl⟩ := hu b hb <;> cases hargs : args[i] <;> rw [hargs] at hab hne <;>
    first
    | exact absurd rfl hne
    | simp [Atom.root, Atom.le, lib_not_user] at hab

theorem last_filter (q : Method ρ → Bool) (regs : List (Method ρ)) (m : Method ρ) (hm : q m = true)
    (hq : ∀ x ∈ regs, q x = false → ¬ Same x.sig m.sig) : Last regs m ↔ Last (regs.filter q) m := by
  induction regs using List.reverseRecOn with
  | nil => simp
  | append_singleton regs z ih =>
    have ih := ih fun x hx => hq x (by simp [hx])
    rw [last_snoc, List.filter_append]
    cases hz : q z with
    | true => simp only [List.filter_cons, hz, if_true, List.filter_nil]; rw [last_snoc, ih]
    | false =>
      simp only [List.filter_cons, hz, Bool.false_eq_true, if_false, List.filter_nil, List.append_nil]
      rw [← ih]
      constructor
      · rintro (h | h)
        · rw [h, hz] at hm; cases hm
        · exact h.1
      · intro h
        exact Or.inr ⟨h, fun hs => hq z (by simp) hz (same_symm hs)⟩

theorem user_not_same (m x : Method ρ) (hm : m.sig.isLib = true) (hx : UserRule x) : ¬ Same x.sig m.sig := by
  intro hs
  obtain ⟨i, y, hy, hu⟩ := hx
  have hi : i < x.sig.types.length := by
    by_contra hc; rw [List.getElem?_eq_none (by omega)] at hy; cases hy
  -- both take a common number of arguments, and `m` has a hint at `i`
  obtain ⟨n, hxn, hmn, z, hz⟩ : ∃ n, x.sig.takes n ∧ m.sig.takes n ∧ ∃ z, z ∈ m.sig.at i := by
    by_cases hv : x.sig.varargs.isSome = true
    · have hv' := le_varargs hs.1 hv
      refine ⟨max x.sig.types.length m.sig.types.length, Or.inr ⟨le_max_left _ _, hv⟩, Or.inr ⟨le_max_right _ _, hv'⟩, ?_⟩
      unfold Sig.at
      by_cases him : i < m.sig.types.length
      · exact ⟨m.sig.types[i], by simp [him]⟩
      · simp only [him, if_false]; exact Option.isSome_iff_exists.1 hv'
    · have hv' : ¬ m.sig.varargs.isSome = true := fun h => hv (le_varargs hs.2 h)
      have e := le_length hs.1 (by simpa using hv) (by simpa using hv')
      exact ⟨x.sig.types.length, Or.inl rfl, Or.inl e.symm, m.sig.types[i]'(by omega), by simp [Sig.at, ← e, hi]⟩
  have hle := ((sigLe_iff m.sig x.sig n hmn hxn).1 hs.2).2 i (lt_of_lt_of_le hi (le_max_right _ _)) z hz y
    (by unfold Sig.at; rw [if_pos hi, hy]; rfl)
  have hzl := at_isLib' m.sig hm i z hz
  unfold Hint.isLib at hzl
  simp only [Bool.and_eq_true, List.all_eq_true, Bool.not_eq_true', List.isEmpty_eq_false_iff] at hzl
  obtain ⟨b, hb⟩ := List.exists_mem_of_ne_nil z hzl.1
  obtain ⟨c, hc, hbc⟩ := (hintLe_iff z y).1 hle b hb
  have hbl := hzl.2 b hb
  obtain ⟨p, k, rfl | rfl⟩ := hu c hc <;>
    (cases b with
     | any => simp [Atom.le] at hbc
     | inst d => cases d <;> simp [Atom.le, Atom.isLib, lib_not_user] at hbc hbl
     | klass d => cases d <;> simp [Atom.le, Atom.isLib, lib_not_user] at hbc hbl)

/-- **C74**: rules that users register for their own classes, at whatever moment, change no call on objects and classes of
`coordinax` (or of anyone else's table): the library's registrations keep their order, any number of user registrations
come before, between or after them. -/
theorem C74_extension (regs all : List (Method ρ)) (isUser : Method ρ → Bool)
    (h : all.filter (fun m => !isUser m) = regs) (hu : ∀ m ∈ all, isUser m = true → UserRule m)
    (hlib : ∀ m ∈ regs, m.sig.isLib = true) (args : List Atom) (hl : ∀ a ∈ args, a = a.root ∧ a ≠ .any) :
    resolve (registerAll all) args = resolve (registerAll regs) args := by
  refine resolve_congr _ _ _ fun m => ?_
  unfold Applicable
  refine and_congr_left fun hacc => ?_
  subst h
  by_cases hm : isUser m = true
  · constructor
    · intro hlast; exact absurd hacc (userRule_rejects m (hu m (last_mem hlast) hm) args hl)
    · intro hlast
      have := (List.mem_filter.1 (last_mem hlast)).2
      rw [hm] at this; cases this
  · by_cases hmr : m ∈ all.filter (fun m => !isUser m)
    case neg =>
      refine ⟨fun hlast => absurd (List.mem_filter.2 ⟨last_mem hlast, by simp [hm]⟩) hmr, fun hlast => absurd (last_mem hlast) hmr⟩
    refine last_filter (fun m => !isUser m) all m (by simp [hm]) fun x hx hxu hs => ?_
    exact user_not_same m x (hlib m hmr) (hu x hx (by simpa using hxu)) hs

/-! ### The table of `represent_as` -/

/-- `regsD1` after registration: 146 and 174 have overwritten 68 and 101 for the Cartesian classes -/
def listD1 : List (Method Rule) :=
  [m2 .pos1 .pos1 .a19, m2p .cartPos1 .cartPos1 .a32, m2p .radialPos .radialPos .a41,
   m3 .cartVel1 .cartVel1 (I .pos) .a52, m3 .radialVel .radialVel (I .pos) .a52,
   m2 .cartVel1 .cartVel1 .a146, m2 .radialVel .radialVel .a68,
   m4 .cartAcc1 .cartAcc1 (I .vel) (I .pos) .a84, m4 .radialAcc .radialAcc (I .vel) (I .pos) .a84,
   m2 .cartAcc1 .cartAcc1 .a174, m2 .radialAcc .radialAcc .a101,
   m2 .cartPos1 .radialPos .a116, m2 .radialPos .cartPos1 .a131]

def repList : List (Method Rule) := listD1 ++ regsD2 ++ regsD3 ++ regsDN ++ regsX1 ++ regsX2 ++ regsX3 ++ regsXV

theorem repTable_eq : repTable = repList := by decide +kernel

theorem repList_lib : ∀ m ∈ repList, m.sig.isLib = true := by decide +kernel

theorem repRegs_lib : ∀ m ∈ repRegs, m.sig.isLib = true := by decide +kernel

/-- **C74**: objects and classes of user-defined subclasses, of any depth, are converted by the rule for the class of
`coordinax` that they derive from, unless the user registers a rule. -/
theorem C74_subclass (args : List Atom) : resolve repTable args = resolve repTable (args.map Atom.root) := by
  rw [repTable_eq]
  unfold resolve candidates
  congr 2
  exact List.filter_congr fun m hm => matches_root m.sig (repList_lib m hm) args

def allKinds : List Kind := [.cart1, .radial, .cart2, .polar, .twoSphere, .cart3, .cyl, .sph, .lonlat, .math, .prolate]

theorem mem_allKinds (k : Kind) : k ∈ allKinds := by cases k <;> decide

/-- The rule for each pair of position classes; pairs not listed have none. -/
def posRule : Kind → Kind → Lookup Rule
  | .cart1, .cart1 => .found .a32 | .cart1, .radial => .found .a116 | .cart1, .cart2 => .found .xa30
  | .cart1, .polar => .found .xa65 | .cart1, .cart3 => .found .xa104 | .cart1, .cyl => .found .xa208
  | .cart1, .sph => .found .xa145 | .cart1, .math => .found .xa145
  | .radial, .cart1 => .found .a131 | .radial, .radial => .found .a41 | .radial, .cart2 => .found .xa256
  | .radial, .polar => .found .xa291 | .radial, .cart3 => .found .xa330 | .radial, .cyl => .found .xa434
  | .radial, .sph => .found .xa371 | .radial, .math => .found .xa371
  | .cart2, .cart1 => .found .xb124 | .cart2, .radial => .found .xb153 | .cart2, .cart2 => .found .b32
  | .cart2, .polar => .found .b59 | .cart2, .twoSphere => .found .b18 | .cart2, .cart3 => .found .xb185
  | .cart2, .cyl => .found .xb30 | .cart2, .sph => .found .xb30 | .cart2, .math => .found .xb30
  | .polar, .cart1 => .found .xb225 | .polar, .radial => .found .xb252 | .polar, .cart2 => .found .b77
  | .polar, .polar => .found .b32 | .polar, .twoSphere => .found .b18 | .polar, .cart3 => .found .xb82
  | .polar, .cyl => .found .xb341 | .polar, .sph => .found .xb283 | .polar, .math => .found .xb312
  | .twoSphere, .cart2 => .found .b18 | .twoSphere, .polar => .found .b18 | .twoSphere, .twoSphere => .found .b18
  | .cart3, .cart1 => .found .xc32 | .cart3, .radial => .found .xc58 | .cart3, .cart2 => .found .xc87
  | .cart3, .polar => .found .xc115 | .cart3, .cart3 => .found .c48 | .cart3, .cyl => .found .c187
  | .cart3, .sph => .found .c208 | .cart3, .lonlat => .found .c233 | .cart3, .math => .found .c233
  | .cart3, .prolate => .found .c779
  | .cyl, .cart1 => .found .xc149 | .cyl, .radial => .found .xc176 | .cyl, .cart2 => .found .xc207
  | .cyl, .polar => .found .xc237 | .cyl, .cart3 => .found .c264 | .cyl, .cyl => .found .c48
  | .cyl, .sph => .found .c289 | .cyl, .lonlat => .found .c316 | .cyl, .math => .found .c316
  | .cyl, .prolate => .found .c633
  | .sph, .cart1 => .found .xc273 | .sph, .radial => .found .xc300 | .sph, .cart2 => .found .xc331
  | .sph, .polar => .found .xc361 | .sph, .cart3 => .found .c350 | .sph, .cyl => .found .c375
  | .sph, .sph => .found .c48 | .sph, .lonlat => .found .c399 | .sph, .math => .found .c423
  | .sph, .prolate => .found .c779
  | .lonlat, .cart3 => .found .c449 | .lonlat, .cyl => .found .c474 | .lonlat, .sph => .found .c499
  | .lonlat, .lonlat => .found .c48 | .lonlat, .math => .found .c34 | .lonlat, .prolate => .found .c779
  | .math, .cart1 => .found .xc397 | .math, .radial => .found .xc424 | .math, .cart2 => .found .xc455
  | .math, .polar => .found .xc485 | .math, .cart3 => .found .c527 | .math, .cyl => .found .c552
  | .math, .sph => .found .c576 | .math, .lonlat => .found .c34 | .math, .math => .found .c48
  | .math, .prolate => .found .c779
  | .prolate, .cart1 => .found .xc521 | .prolate, .radial => .found .xc521 | .prolate, .cart2 => .found .xc563
  | .prolate, .polar => .found .xc563 | .prolate, .twoSphere => .found .xc563 | .prolate, .cart3 => .found .c709
  | .prolate, .cyl => .found .c602 | .prolate, .sph => .found .c709 | .prolate, .lonlat => .found .c709
  | .prolate, .math => .found .c709 | .prolate, .prolate => .found .c735
  | _, _ => .notFound

theorem posRule_eq (a b : Kind) : resolve repTable [.inst (.lib a.cls), .klass (.lib b.cls)] = posRule a b := by
  rw [repTable_eq]
  have h : ∀ a ∈ allKinds, ∀ b ∈ allKinds, resolve repList [.inst (.lib a.cls), .klass (.lib b.cls)] = posRule a b := by
    decide +kernel
  exact h a (mem_allKinds a) b (mem_allKinds b)

/-- What a call does with the outcome of the lookup: run the rule, or raise. -/
def Lookup.run {ρ β : Type} (body : ρ → Res β) : Lookup ρ → Res β
  | .found r => body r
  | .notFound => .error .noDispatch
  | .ambiguous => .error .noDispatch

/-- **C74**: the conversion of positions is dispatch over the table: `represent` runs, for every position, target class and
keyword arguments, the body of the rule that plum selects, whose inner calls of `represent_as` are dispatched again. -/
theorem C74_positions {α : Type} [Num α] (n : ℕ) (kw : Kw α) (p : Pos α) (k : Kind) :
    represent (n + 1) kw p k =
      (resolve repTable [.inst (.lib p.kind.cls), .klass (.lib k.cls)]).run
        (fun r => r.runPos (represent n) kw p k) := by
  rw [posRule_eq]
  cases p <;> cases k <;> simp only [represent, posRule, Lookup.run, Rule.runPos, Pos.kind] <;> cases kw.delta <;> rfl

/-! ### Velocities and accelerations -/

theorem matches_congr (s : Sig) (args args' : List Atom) (hl : args.length = args'.length)
    (h : ∀ (i : ℕ) (a a' : Atom), args[i]? = some a → args'[i]? = some a' → ∀ x ∈ s.at i, hintLe [a] x = hintLe [a'] x) :
    s.matches args = s.matches args' := by
  rw [Bool.eq_iff_iff, matches_iff, matches_iff, hl]
  refine and_congr_right fun _ => forall_congr' fun i => ?_
  have single : ∀ (a : Atom) (x : Hint), hintLe [a] x = true ↔ ∃ b ∈ x, a.le b = true := by
    intro a x; simp [hintLe]
  by_cases hi : i < args.length
  · have hi' : i < args'.length := by omega
    have e : args[i]? = some args[i] := List.getElem?_eq_getElem hi
    have e' : args'[i]? = some args'[i] := List.getElem?_eq_getElem hi'
    have key := h i _ _ e e'
    simp only [e, e', Option.mem_def, Option.some.injEq, forall_eq']
    constructor
    · rintro ⟨x, hx, hb⟩; exact ⟨x, hx, (single _ x).1 ((key x hx) ▸ (single _ x).2 hb)⟩
    · rintro ⟨x, hx, hb⟩; exact ⟨x, hx, (single _ x).1 ((key x hx).symm ▸ (single _ x).2 hb)⟩
  · rw [List.getElem?_eq_none (by omega), List.getElem?_eq_none (by omega)]

def allVKinds : List VKind :=
  [.cart1, .radial, .cart2, .polar, .twoSphere, .cart3, .cyl, .sph, .lonlat, .lonCosLat, .math, .prolate]

theorem mem_allVKinds (k : VKind) : k ∈ allVKinds := by cases k <;> decide

/-- for the third and fourth parameters only the family matters -/
theorem third_pos (k : Kind) : ∀ m ∈ repList, ∀ x ∈ m.sig.at 2,
    hintLe [.inst (.lib k.cls)] x = hintLe [.inst (.lib .pos)] x := by
  have h : ∀ k ∈ allKinds, ∀ m ∈ repList, (match m.sig.at 2 with
    | none => true
    | some x => hintLe [.inst (.lib k.cls)] x == hintLe [.inst (.lib .pos)] x) = true := by decide +kernel
  intro m hm x hx
  have := h k (mem_allKinds k) m hm
  rw [Option.mem_def] at hx
  rw [hx] at this
  simpa using this

theorem fourth_pos (k : Kind) : ∀ m ∈ repList, ∀ x ∈ m.sig.at 3,
    hintLe [.inst (.lib k.cls)] x = hintLe [.inst (.lib .pos)] x := by
  have h : ∀ k ∈ allKinds, ∀ m ∈ repList, (match m.sig.at 3 with
    | none => true
    | some x => hintLe [.inst (.lib k.cls)] x == hintLe [.inst (.lib .pos)] x) = true := by decide +kernel
  intro m hm x hx
  have := h k (mem_allKinds k) m hm
  rw [Option.mem_def] at hx
  rw [hx] at this
  simpa using this

theorem third_vel (k : VKind) : ∀ m ∈ repList, ∀ x ∈ m.sig.at 2,
    hintLe [.inst (.lib k.cls)] x = hintLe [.inst (.lib .vel)] x := by
  have h : ∀ k ∈ allVKinds, ∀ m ∈ repList, (match m.sig.at 2 with
    | none => true
    | some x => hintLe [.inst (.lib k.cls)] x == hintLe [.inst (.lib .vel)] x) = true := by decide +kernel
  intro m hm x hx
  have := h k (mem_allVKinds k) m hm
  rw [Option.mem_def] at hx
  rw [hx] at this
  simpa using this

theorem resolve_congr_args (ms : List (Method ρ)) (args args' : List Atom)
    (h : ∀ m ∈ ms, m.sig.matches args = m.sig.matches args') : resolve ms args = resolve ms args' := by
  unfold resolve candidates
  congr 2
  exact List.filter_congr h

theorem vel_third (x y : Atom) (k : Kind) :
    resolve repTable [x, y, .inst (.lib k.cls)] = resolve repTable [x, y, .inst (.lib .pos)] := by
  rw [repTable_eq]
  refine resolve_congr_args _ _ _ fun m hm => matches_congr _ _ _ rfl fun i a a' ha ha' z hz => ?_
  match i with
  | 0 => simp at ha ha'; subst ha ha'; rfl
  | 1 => simp at ha ha'; subst ha ha'; rfl
  | 2 => simp at ha ha'; subst ha ha'; exact third_pos k m hm z hz
  | i + 3 => simp at ha

theorem acc_third (x y : Atom) (v : VKind) (k : Kind) : resolve repTable [x, y, .inst (.lib v.cls), .inst (.lib k.cls)] =
    resolve repTable [x, y, .inst (.lib .vel), .inst (.lib .pos)] := by
  rw [repTable_eq]
  refine resolve_congr_args _ _ _ fun m hm => matches_congr _ _ _ rfl fun i a a' ha ha' z hz => ?_
  match i with
  | 0 => simp at ha ha'; subst ha ha'; rfl
  | 1 => simp at ha ha'; subst ha ha'; rfl
  | 2 => simp at ha ha'; subst ha ha'; exact third_vel v m hm z hz
  | 3 => simp at ha ha'; subst ha ha'; exact fourth_pos k m hm z hz
  | i + 4 => simp at ha

/-- The rule for each pair of velocity classes, with a position -/
def velRule (a b : VKind) : Lookup Rule :=
  if a.dim ≠ b.dim then .notFound
  else if a = b ∧ a ≠ .twoSphere then .found (if a.dim = 1 then .a52 else if a.dim = 2 then .b43 else .c113)
  else if a = .lonCosLat then .found (if b = .lonlat then .c885 else .c913)
  else if b = .lonCosLat then .found .c829
  else .found .vel

theorem velRule_eq (a b : VKind) (k : Kind) :
    resolve repTable [.inst (.lib a.cls), .klass (.lib b.cls), .inst (.lib k.cls)] = velRule a b := by
  rw [vel_third, repTable_eq]
  have h : ∀ a ∈ allVKinds, ∀ b ∈ allVKinds,
      resolve repList [.inst (.lib a.cls), .klass (.lib b.cls), .inst (.lib .pos)] = velRule a b := by decide +kernel
  exact h a (mem_allVKinds a) b (mem_allVKinds b)

end Verif
