import Verif.Model.SchedulerState
import Verif.Lemmas.Fold
import Verif.Lemmas.Masking
/-! Helper lemmas: loading masks, name normalization. -/
namespace Verif
open Dict

theorem normalize_insert (p q : Name) (h : "module" ∉ p) :
    normalizeName (p ++ "module" :: q) = p ++ q := by
  induction p with
  | nil => simp [normalizeName]
  | cons c p ih =>
    simp only [List.mem_cons, not_or] at h
    have : ¬ c = "module" := fun e => h.1 e.symm
    simp [normalizeName, this, ih h.2]

theorem normalize_id (n : Name) (h : "module" ∉ n) : normalizeName n = n := by
  induction n with
  | nil => rfl
  | cons c n ih =>
    simp only [List.mem_cons, not_or] at h
    have : ¬ c = "module" := fun e => h.1 e.symm
    simp [normalizeName, this, ih h.2]

theorem get?_stateDict (mk : Dict Name Masker) (n : Name) :
    (stateDict mk).get? n = (mk.get? n).map (·.mask) :=
  get?_mapVals (fun (_ : Name) (m : Masker) => m.mask) mk n

/-- Outcome of the load loop. -/
theorem loadLoop_ok {loaded : MasksDict} {mk : Dict Name Masker}
    (h : ∀ n ∈ mk.map Prod.fst, n ∈ loaded.map Prod.fst) :
    (loadLoop loaded mk).2 = .ok () ∧
    (loadLoop loaded mk).1 = mk.map (fun p => (p.1, { p.2 with mask := (loaded.get? p.1).getD none })) := by
  induction mk with
  | nil => exact ⟨rfl, rfl⟩
  | cons p mk ih =>
    obtain ⟨n, m⟩ := p
    have hn := h n (by simp)
    obtain ⟨v, hv⟩ := Option.isSome_iff_exists.1 ((get?_isSome_iff loaded n).2 hn)
    have := ih (fun n hn => h n (by simp only [List.map_cons, List.mem_cons]; exact Or.inr hn))
    simp [loadLoop, hv, this.1, this.2]

theorem loadLoop_err {loaded : MasksDict} {mk : Dict Name Masker}
    (h : ∃ n ∈ mk.map Prod.fst, n ∉ loaded.map Prod.fst) :
    (loadLoop loaded mk).2 = .error .key := by
  induction mk with
  | nil => simp at h
  | cons p mk ih =>
    obtain ⟨n, m⟩ := p
    cases hv : loaded.get? n with
    | none => simp [loadLoop, hv]
    | some v =>
      simp only [loadLoop, hv]
      apply ih
      obtain ⟨n', hn', hnl⟩ := h
      refine ⟨n', ?_, hnl⟩
      simp only [List.map_cons, List.mem_cons] at hn'
      rcases hn' with rfl | hn'
      · exfalso; apply hnl; rw [← get?_isSome_iff, hv]; rfl
      · exact hn'

theorem get?_map_masker (f : Name → Masker → Masker) (mk : Dict Name Masker) (n : Name) :
    Dict.get? (mk.map (fun p => (p.1, f p.1 p.2))) n = (mk.get? n).map (f n) :=
  get?_mapVals f mk n

/-- `{f(k): v}` for an injective-on-keys `f`: lookups go through. -/
theorem get?_mapKeys_of_inj {β : Type} (f : Name → Name) (d : Dict Name β) (hd : Nodup d)
    (hinj : ∀ a ∈ d.map Prod.fst, ∀ b ∈ d.map Prod.fst, f a = f b → a = b)
    {k : Name} {v : β} (h : d.get? k = some v) :
    (mapKeys f d).get? (f k) = some v := by
  have hmem := mem_of_get? h
  unfold mapKeys
  -- process the list: after the element (k,v) no later element writes f k
  suffices H : ∀ (l : Dict Name β) (acc : Dict Name β), (l.map Prod.fst).Nodup →
      (∀ a ∈ l.map Prod.fst, ∀ b ∈ l.map Prod.fst, f a = f b → a = b) →
      ((k, v) ∈ l ∨ (acc.get? (f k) = some v ∧ ∀ a ∈ l.map Prod.fst, f a ≠ f k)) →
      (l.foldl (fun acc kv => acc.set (f kv.1) kv.2) acc).get? (f k) = some v from
    H d [] hd hinj (Or.inl hmem)
  intro l
  induction l with
  | nil =>
    intro acc _ _ hor
    rcases hor with hor | hor
    · simp at hor
    · exact hor.1
  | cons p l ih =>
    obtain ⟨a, x⟩ := p
    intro acc hnd hinj hor
    simp only [List.map_cons, List.nodup_cons] at hnd
    rw [List.foldl_cons]
    apply ih _ hnd.2
    · intro b hb c hc
      exact hinj b (List.mem_cons_of_mem _ hb) c (List.mem_cons_of_mem _ hc)
    · rcases hor with hor | hor
      · rcases List.mem_cons.1 hor with e | hin
        · injection e with e1 e2
          subst e1; subst e2
          right
          refine ⟨get?_set_self _ _ _, ?_⟩
          intro b hb hfb
          have := hinj b (List.mem_cons_of_mem _ hb) k (by simp) hfb
          subst this; exact hnd.1 hb
        · exact Or.inl hin
      · right
        have hne := hor.2 a (by simp)
        refine ⟨by rw [get?_set_ne _ _ hne]; exact hor.1, fun b hb => hor.2 b (List.mem_cons_of_mem _ hb)⟩

theorem mem_keys_mapKeys {β : Type} (f : Name → Name) (d : Dict Name β) (k : Name) :
    k ∈ (mapKeys f d).map Prod.fst ↔ ∃ a ∈ d.map Prod.fst, f a = k := by
  unfold mapKeys
  suffices H : ∀ (l acc : Dict Name β),
      k ∈ (l.foldl (fun acc kv => acc.set (f kv.1) kv.2) acc).map Prod.fst ↔
        (k ∈ acc.map Prod.fst ∨ ∃ a ∈ l.map Prod.fst, f a = k) by
    have := H d []
    simpa using this
  intro l
  induction l with
  | nil => intro acc; simp
  | cons p l ih =>
    intro acc
    rw [List.foldl_cons, ih, mem_keys_set]
    simp only [List.map_cons, List.mem_cons, exists_eq_or_imp]
    constructor
    · rintro ((rfl | h) | h)
      · exact Or.inr (Or.inl rfl)
      · exact Or.inl h
      · exact Or.inr (Or.inr h)
    · rintro (h | h | h)
      · exact Or.inl (Or.inr h)
      · exact Or.inl (Or.inl h.symm)
      · exact Or.inr h

/-- `{f(k): v}`: the last key with image `x` wins. -/
theorem get?_mapKeys_last {β : Type} (f : Name → Name) (l : Dict Name β) (k : Name) (v : β) :
    (mapKeys f (l ++ [(k, v)])).get? (f k) = some v := by
  unfold mapKeys
  rw [List.foldl_append]; simp

end Verif
