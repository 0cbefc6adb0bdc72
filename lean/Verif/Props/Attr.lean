import Verif.Model.Attr
import Mathlib.Data.List.Induction
/-!
# C111: setting attributes by name; C112: converting nested inputs
-/
namespace Verif
open Dict

/-! ## C111 -/

/-- The attribute `attr` of the module called `container`. -/
def attrAt {V : Type} (m : Dict (List String) (Dict String V)) (container : List String) (attr : String) : Option V :=
  (m.get? container).bind fun attrs => attrs.get? attr

theorem contains_get? {V : Type} {m : Dict (List String) V} {k : List String} (h : k ∈ m.map Prod.fst) : ∃ v, m.get? k = some v := by
  cases hg : m.get? k with
  | some v => exact ⟨v, rfl⟩
  | none => exact absurd h ((get?_eq_none_iff m k).1 hg)

theorem attrWalk_module (p : List String → Bool) (c : List String) (a : String) (h : p c = true ∨ c = []) :
    attrWalk p c.reverse a = (c, a) := by
  rcases h with h | rfl
  · cases hc : c.reverse with
    | nil => rw [List.reverse_eq_nil_iff.1 hc]; rfl
    | cons x xs =>
      have : (x :: xs).reverse = c := by rw [← hc]; simp
      rw [attrWalk, this, if_pos h]
  · rfl

/-- **C111** For every name of the form shown by `named_modules`, `named_parameters` or `named_buffers` - the name of
a module, followed by an attribute - the attribute of that module has the new value afterwards, and every other
attribute of every module is unchanged. -/
theorem C111_sets {V : Type} (m : Dict (List String) (Dict String V)) (container : List String) (attr : String) (v : V)
    (h : container ∈ m.map Prod.fst) :
    ∃ m', modelSetattr m container attr v = .ok m' ∧ attrAt m' container attr = some v ∧
      (∀ c a, (c, a) ≠ (container, attr) → attrAt m' c a = attrAt m c a) ∧ m'.map Prod.fst = m.map Prod.fst := by
  obtain ⟨attrs, hg⟩ := contains_get? h
  have hc : (m.get? container).isSome = true := by simp [hg]
  have hw := attrWalk_module (fun n => (m.get? n).isSome) container attr (.inl hc)
  refine ⟨m.set container (attrs.set attr v), ?_, ?_, ?_, ?_⟩
  · unfold modelSetattr
    simp only [hw, hg]
  · simp [attrAt]
  · intro c a hne
    unfold attrAt
    rw [get?_set]
    by_cases e : c = container
    · subst e
      have : attr ≠ a := fun e => hne (by rw [e])
      simp [hg, get?_set, this]
    · rw [if_neg (fun h => e h.symm)]
  · exact keys_set_of_mem _ _ _ h

def exAttrs : Dict (List String) (Dict String ℕ) := [([], [("conv", 1)]), (["conv"], [("weight", 5), ("bias", 6)])]

example : ["conv"] ∈ exAttrs.map Prod.fst ∧ modelSetattr exAttrs ["conv"] "weight" 7 =
    .ok [([], [("conv", 1)]), (["conv"], [("weight", 7), ("bias", 6)])] := by decide +kernel

theorem attrWalk_missing (p : List String → Bool) (c rest : List String) (a : String) (hc : p c = true ∨ c = [])
    (h : ∀ pre post, rest = pre ++ post → pre ≠ [] → p (c ++ pre) = false) :
    attrWalk p (c ++ rest).reverse a = (c, rest.foldr (· ++ ·) a) := by
  induction rest using List.reverseRecOn generalizing a with
  | nil => simpa using attrWalk_module p c a hc
  | append_singleton rest x ih =>
    have hp := h (rest ++ [x]) [] (by simp) (by simp)
    have e1 : (c ++ (rest ++ [x])).reverse = x :: (c ++ rest).reverse := by simp
    have e2 : (x :: (c ++ rest).reverse).reverse = c ++ (rest ++ [x]) := by simp
    rw [e1, attrWalk, e2, if_neg (by simp [hp]), ih (x ++ a) (fun pre post e hne => h pre (post ++ [x]) (by rw [e]; simp) hne)]
    simp

/-- **C111** is violated by every name whose container does not exist: instead of failing, a new attribute is set on
the nearest existing module, called like the remaining components run together. -/
theorem C111_violated_missing {V : Type} (m : Dict (List String) (Dict String V)) (c rest : List String) (attr : String) (v : V)
    (hc : c ∈ m.map Prod.fst) (hr : ∀ pre post, rest = pre ++ post → pre ≠ [] → c ++ pre ∉ m.map Prod.fst) :
    ∃ m', modelSetattr m (c ++ rest) attr v = .ok m' ∧ attrAt m' c (rest.foldr (· ++ ·) attr) = some v := by
  obtain ⟨attrs, hg⟩ := contains_get? hc
  have hw := attrWalk_missing (fun n => (m.get? n).isSome) c rest attr (.inl (by simp [hg])) (by
    intro pre post e hne
    have := hr pre post e hne
    rw [(get?_eq_none_iff m _).2 this]; rfl)
  refine ⟨m.set c (attrs.set (rest.foldr (· ++ ·) attr) v), ?_, by simp [attrAt]⟩
  unfold modelSetattr
  simp only [hw, hg]

example : modelSetattr exAttrs ["conv", "wrapped"] "scale" 9 =
    .ok [([], [("conv", 1)]), (["conv"], [("weight", 5), ("bias", 6), ("wrappedscale", 9)])] := by decide +kernel

/-! ## C112 -/

mutual

/-- A value built of lists, plain tuples, tensors and other values. -/
def Plain {T : Type} : PyVal T → Prop
  | .tensor _ => True
  | .list l => PlainL l
  | .tuple l => PlainL l
  | .named _ => False
  | .dict _ => False
  | .other _ => True
def PlainL {T : Type} : List (PyVal T) → Prop
  | [] => True
  | v :: vs => Plain v ∧ PlainL vs

end

mutual

/-- Specification: `y` is `x` with every tensor `t`, at any depth, replaced by `f t`. -/
inductive Converted {T : Type} (f : T → T) : PyVal T → PyVal T → Prop
  | tensor (t) : Converted f (.tensor t) (.tensor (f t))
  | list {l l'} : ConvertedL f l l' → Converted f (.list l) (.list l')
  | tuple {l l'} : ConvertedL f l l' → Converted f (.tuple l) (.tuple l')
  | named {l l'} : ConvertedF f l l' → Converted f (.named l) (.named l')
  | dict {l l'} : ConvertedF f l l' → Converted f (.dict l) (.dict l')
  | other (s) : Converted f (.other s) (.other s)
inductive ConvertedL {T : Type} (f : T → T) : List (PyVal T) → List (PyVal T) → Prop
  | nil : ConvertedL f [] []
  | cons {v v' vs vs'} : Converted f v v' → ConvertedL f vs vs' → ConvertedL f (v :: vs) (v' :: vs')
inductive ConvertedF {T : Type} (f : T → T) : List (String × PyVal T) → List (String × PyVal T) → Prop
  | nil : ConvertedF f [] []
  | cons {n v v' vs vs'} : Converted f v v' → ConvertedF f vs vs' → ConvertedF f ((n, v) :: vs) ((n, v') :: vs')

end

mutual

theorem convert_plain {T : Type} (f : T → T) : (x : PyVal T) → Plain x → ∃ y, convertRec f x = .ok y ∧ Converted f x y
  | .tensor t, _ => ⟨_, rfl, .tensor t⟩
  | .list l, h => by
    obtain ⟨l', h1, h2⟩ := convertL_plain f l (by simpa [Plain] using h)
    exact ⟨.list l', by rw [convertRec, h1]; rfl, .list h2⟩
  | .tuple l, h => by
    obtain ⟨l', h1, h2⟩ := convertL_plain f l (by simpa [Plain] using h)
    exact ⟨.tuple l', by rw [convertRec, h1]; rfl, .tuple h2⟩
  | .named _, h => absurd h (by simp [Plain])
  | .dict _, h => absurd h (by simp [Plain])
  | .other s, _ => ⟨_, by rw [convertRec], .other s⟩
theorem convertL_plain {T : Type} (f : T → T) : (l : List (PyVal T)) → PlainL l → ∃ l', convertRecL f l = .ok l' ∧ ConvertedL f l l'
  | [], _ => ⟨[], by rw [convertRecL], .nil⟩
  | v :: vs, h => by
    rw [PlainL] at h
    obtain ⟨y, h1, h2⟩ := convert_plain f v h.1
    obtain ⟨l', h3, h4⟩ := convertL_plain f vs h.2
    exact ⟨y :: l', by rw [convertRecL, h1, h3]; rfl, .cons h2 h4⟩

end

/-- **C112** (part) Conversion of nested lists and tuples converts every tensor at any depth and changes nothing
else.  (Missing: dictionaries and named tuples, see the violations.) -/
theorem C112_nested_partial {T : Type} (f : T → T) (x : PyVal T) (h : Plain x) :
    ∃ y, convertRec f x = .ok y ∧ Converted f x y :=
  convert_plain f x h

example : Plain (PyVal.tuple [.tensor 1, .list [.tensor 2, .other "None"], .tuple []]) ∧
    convertRec (fun x : ℕ => x + 10) (PyVal.tuple [.tensor 1, .list [.tensor 2, .other "None"], .tuple []]) =
      .ok (.tuple [.tensor 11, .list [.tensor 12, .other "None"], .tuple []]) := by
  refine ⟨by simp [Plain, PlainL], rfl⟩

/-- **C112** is violated by named tuples: those with two or more fields raise `TypeError`, those with one lose their
value. -/
theorem C112_violated_namedtuple {T : Type} (f : T → T) (fields : List (String × PyVal T)) (h : fields ≠ []) (t : T)
    (ht : ∃ n, (n, PyVal.tensor t) ∈ fields) :
    ¬ ∃ y, convertRec f (.named fields) = .ok y ∧ Converted f (.named fields) y := by
  rintro ⟨y, h1, h2⟩
  match fields with
  | [] => exact h rfl
  | [(n, v)] =>
    obtain ⟨n', hn⟩ := ht
    simp only [List.mem_singleton, Prod.mk.injEq] at hn
    obtain ⟨rfl, rfl⟩ := hn
    rw [convertRec] at h1
    cases h1
    cases h2 with
    | named hf => cases hf with
      | cons hv _ => cases hv
  | a :: b :: l => simp [convertRec] at h1

/-- **C112** is violated by dictionaries: their tensors are not converted. -/
theorem C112_violated_dict {T : Type} (f : T → T) (l : List (String × PyVal T)) : convertRec f (.dict l) = .ok (.dict l) := by
  rw [convertRec]

end Verif
