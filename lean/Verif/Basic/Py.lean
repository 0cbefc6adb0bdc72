/-!
# Python-like basics: exceptions as values and insertion-ordered dictionaries

Nothing here models a particular distiller function; it fixes the meaning of the
Python built-ins used by the model (Python >= 3.7 `dict` semantics).
-/

namespace Verif

/-- The Python exceptions the modelled code can raise. -/
inductive Err where
  | assertion | value | key | index | type | runtime | attribute | zeroDiv
  | notImplemented | stopIteration | name
  deriving DecidableEq, Repr

/-- A Python `dict`: association list in insertion order.  Model code only builds
dictionaries through `set`, which never duplicates a key. -/
abbrev Dict (α β : Type) := List (α × β)

namespace Dict
variable {α β γ : Type} [DecidableEq α]

/-- `d.get(k)`; `none` stands for a missing key. -/
def get? : Dict α β → α → Option β
  | [], _ => none
  | (k', v) :: d, k => if k' = k then some v else get? d k

/-- `d[k]`, raising `KeyError`. -/
def getE (d : Dict α β) (k : α) : Except Err β :=
  match get? d k with
  | some v => .ok v
  | none => .error .key

/-- `d[k] = v`: overwrite in place or append at the end. -/
def set : Dict α β → α → β → Dict α β
  | [], k, v => [(k, v)]
  | (k', v') :: d, k, v => if k' = k then (k', v) :: d else (k', v') :: set d k v

/-- `list(d.keys())` -/
def keys (d : Dict α β) : List α := d.map Prod.fst

/-- `k in d` -/
def has (d : Dict α β) (k : α) : Bool := (get? d k).isSome

/-- Replace every value, keeping keys and order. -/
def mapVals (f : α → β → γ) (d : Dict α β) : Dict α γ := d.map fun kv => (kv.1, f kv.1 kv.2)

/-- `{f(k): v for k, v in d.items()}`: later items overwrite earlier ones. -/
def mapKeys (f : α → α) (d : Dict α β) : Dict α β :=
  d.foldl (fun acc kv => acc.set (f kv.1) kv.2) []

/-- No key occurs twice: the invariant of every real Python dictionary. -/
def Nodup (d : Dict α β) : Prop := (d.map Prod.fst).Nodup

@[simp] theorem get?_nil (k : α) : get? ([] : Dict α β) k = none := rfl

theorem get?_cons (k' : α) (v : β) (d : Dict α β) (k : α) :
    get? ((k', v) :: d) k = if k' = k then some v else get? d k := rfl

@[simp] theorem get?_set_self (d : Dict α β) (k : α) (v : β) : get? (set d k v) k = some v := by
  induction d with
  | nil => simp [set, get?]
  | cons kv d ih =>
    obtain ⟨k', v'⟩ := kv
    by_cases h : k' = k <;> simp [set, get?, h, ih]

theorem get?_set_ne (d : Dict α β) {k k' : α} (v : β) (h : k ≠ k') :
    get? (set d k v) k' = get? d k' := by
  induction d with
  | nil => simp [set, get?, h]
  | cons kv d ih =>
    obtain ⟨a, v'⟩ := kv
    by_cases h1 : a = k
    · subst h1; simp [set, get?, h]
    · simp only [set, h1, if_false, get?, ih]

theorem get?_set (d : Dict α β) (k k' : α) (v : β) :
    get? (set d k v) k' = if k = k' then some v else get? d k' := by
  by_cases h : k = k'
  · subst h; simp
  · simp [get?_set_ne d v h, h]

theorem get?_eq_none_iff (d : Dict α β) (k : α) : get? d k = none ↔ k ∉ d.map Prod.fst := by
  induction d with
  | nil => simp
  | cons kv d ih =>
    obtain ⟨a, v⟩ := kv
    by_cases h : a = k
    · simp [get?, h]
    · have h' : ¬ k = a := fun e => h e.symm
      simp only [get?, h, if_false, ih, List.map_cons, List.mem_cons, h', false_or]

theorem get?_isSome_iff (d : Dict α β) (k : α) : (get? d k).isSome ↔ k ∈ d.map Prod.fst := by
  have := get?_eq_none_iff d k
  cases hg : get? d k with
  | none => simp only [hg, true_iff] at this; simp [this]
  | some v => simp only [hg, reduceCtorEq, false_iff, Decidable.not_not] at this; simp only [this, Option.isSome_some]

theorem mem_of_get? {d : Dict α β} {k : α} {v : β} (h : get? d k = some v) : (k, v) ∈ d := by
  induction d with
  | nil => simp at h
  | cons kv d ih =>
    obtain ⟨a, v'⟩ := kv
    by_cases h1 : a = k
    · simp [get?, h1] at h; simp [h1, h]
    · simp [get?, h1] at h; simp [ih h]

theorem get?_of_mem {d : Dict α β} (hd : Nodup d) {k : α} {v : β} (h : (k, v) ∈ d) :
    get? d k = some v := by
  induction d with
  | nil => simp at h
  | cons kv d ih =>
    obtain ⟨a, v'⟩ := kv
    simp [Nodup] at hd
    rcases List.mem_cons.1 h with h | h
    · cases h; simp [get?]
    · have : a ≠ k := by
        rintro rfl; exact hd.1 v h
      simp [get?, this]; exact ih hd.2 h

theorem keys_set_of_mem (d : Dict α β) (k : α) (v : β) (h : k ∈ d.map Prod.fst) :
    (set d k v).map Prod.fst = d.map Prod.fst := by
  induction d with
  | nil => simp at h
  | cons kv d ih =>
    obtain ⟨a, v'⟩ := kv
    by_cases h1 : a = k
    · simp [set, h1]
    · simp only [List.map_cons, List.mem_cons] at h
      have : k ∈ d.map Prod.fst := by
        rcases h with h | h
        · exact absurd h.symm h1
        · exact h
      simp [set, h1, ih this]

theorem keys_set_of_not_mem (d : Dict α β) (k : α) (v : β) (h : k ∉ d.map Prod.fst) :
    set d k v = d ++ [(k, v)] := by
  induction d with
  | nil => simp [set]
  | cons kv d ih =>
    obtain ⟨a, v'⟩ := kv
    simp only [List.map_cons, List.mem_cons, not_or] at h
    have h1 : ¬ a = k := fun e => h.1 e.symm
    simp [set, h1, ih h.2]

theorem nodup_set {d : Dict α β} (hd : Nodup d) (k : α) (v : β) : Nodup (set d k v) := by
  by_cases h : k ∈ d.map Prod.fst
  · unfold Nodup; rw [keys_set_of_mem d k v h]; exact hd
  · unfold Nodup at *; rw [keys_set_of_not_mem d k v h]
    rw [List.map_append, List.nodup_append]
    refine ⟨hd, by simp, ?_⟩
    intro a ha b hb
    simp at hb; subst hb
    rintro rfl; exact h ha

theorem mem_keys_set (d : Dict α β) (k k' : α) (v : β) :
    k' ∈ (set d k v).map Prod.fst ↔ k' = k ∨ k' ∈ d.map Prod.fst := by
  by_cases h : k ∈ d.map Prod.fst
  · rw [keys_set_of_mem d k v h]
    constructor
    · exact Or.inr
    · rintro (rfl | h') <;> assumption
  · rw [keys_set_of_not_mem d k v h]; simp [or_comm]

omit [DecidableEq α] in
@[simp] theorem keys_mapVals (f : α → β → γ) (d : Dict α β) :
    (mapVals f d).map Prod.fst = d.map Prod.fst := by
  simp [mapVals]

theorem get?_mapVals (f : α → β → γ) (d : Dict α β) (k : α) :
    get? (mapVals f d) k = (get? d k).map (f k) := by
  induction d with
  | nil => simp [mapVals]
  | cons kv d ih =>
    obtain ⟨a, v⟩ := kv
    by_cases h : a = k
    · subst h; simp [mapVals, get?]
    · simp only [mapVals, List.map_cons, get?, h, if_false]; exact ih

/-- Setting a key to the value it already has changes nothing. -/
theorem set_get?_self {d : Dict α β} {k : α} {v : β} (h : get? d k = some v) : set d k v = d := by
  induction d with
  | nil => simp at h
  | cons kv d ih =>
    obtain ⟨a, v'⟩ := kv
    by_cases h1 : a = k
    · simp [get?, h1] at h; simp [set, h1, h]
    · simp [get?, h1] at h; simp [set, h1, ih h]

omit [DecidableEq α] in
theorem nodup_nil : Nodup ([] : Dict α β) := by simp [Nodup]

omit [DecidableEq α] in
theorem nodup_mapVals {d : Dict α β} (f : α → β → γ) (hd : Nodup d) : Nodup (mapVals f d) := by
  unfold Nodup at *; rw [keys_mapVals]; exact hd

end Dict
end Verif
