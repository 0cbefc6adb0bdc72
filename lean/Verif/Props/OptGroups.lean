import Verif.Model.OptGroups
import Verif.Lemmas.Fold
import Mathlib.Data.List.Nodup
/-!
# C140: after preparing for quantized training, the optimizer optimizes every parameter exactly once
-/
namespace Verif

/-! ## Specification -/

/-- The identities of the parameters of a model. -/
def paramIds (ms : List OMod) : List ℕ := (allParams ms).map Prod.snd
/-- The parameters of an optimizer. -/
def optIds (gs : List OGroup) : List ℕ := gs.flatMap OGroup.params

/-- A model and its optimizer before quantization: parameters of a module have different names, ReLUs have none, a
parameter and its backup name do not clash; identities are below `next`; the optimizer has each parameter of the model once. -/
structure OReady (ms : List OMod) (next : ℕ) (gs : List OGroup) : Prop where
  names : ∀ m ∈ ms, (m.params.map Prod.fst).Nodup
  clash : ∀ m ∈ ms, ∀ p ∈ m.params, ∀ p' ∈ m.params, p'.1 ≠ "float_" ++ p.1
  relu : ∀ m ∈ ms, ∀ a, m.kind = .relu a → m.params = []
  below : ∀ i ∈ paramIds ms, i < next
  opt : (optIds gs).Nodup
  same : ∀ i, i ∈ optIds gs ↔ i ∈ paramIds ms

/-- The ReLUs that are replaced. -/
def replacedRelus (ms : List OMod) : List OMod := ms.filter fun m => match m.kind with | .relu (some _) => true | _ => false

/-! ## Backups keep the objects -/

theorem backup_ids (ps : List (String × ℕ)) (p : String × ℕ) (hn : (ps.map Prod.fst).Nodup) (hp : p ∈ ps) (i : ℕ) :
    i ∈ (backup ps p).map Prod.snd ↔ i ∈ ps.map Prod.snd := by
  unfold backup
  simp only [List.map_append, List.map_cons, List.map_nil, List.mem_append, List.mem_map, List.mem_filter, decide_eq_true_eq, List.mem_singleton]
  constructor
  · rintro (⟨x, ⟨h1, _⟩, h3⟩ | h)
    · exact ⟨x, h1, h3⟩
    · exact ⟨p, hp, h.symm⟩
  · rintro ⟨x, h1, h2⟩
    by_cases e : x.1 = p.1
    · right
      have : x = p := List.inj_on_of_nodup_map hn h1 hp e
      rw [← h2, this]
    · exact .inl ⟨x, ⟨h1, e⟩, h2⟩

theorem backups_ids : ∀ (l ps : List (String × ℕ)), (ps.map Prod.fst).Nodup → (l.map Prod.fst).Nodup → (∀ p ∈ l, p ∈ ps) →
    (∀ p ∈ l, ∀ p' ∈ ps, p'.1 ≠ "float_" ++ p.1) → (∀ p ∈ l, ∀ p' ∈ l, p'.1 ≠ "float_" ++ p.1) →
    ∀ i, i ∈ (l.foldl backup ps).map Prod.snd ↔ i ∈ ps.map Prod.snd := by
  intro l
  induction l with
  | nil => intro ps _ _ _ _ _ i; rfl
  | cons p l ih =>
    intro ps hn hl hm hc hc2 i
    rw [List.map_cons, List.nodup_cons] at hl
    rw [List.foldl_cons]
    rw [ih (backup ps p) ?_ hl.2 ?_ ?_ ?_ i, backup_ids ps p hn (hm p List.mem_cons_self) i]
    · unfold backup
      rw [List.map_append, List.nodup_append]
      refine ⟨(List.filter_sublist.map _).nodup hn, by simp, ?_⟩
      intro a ha b hb
      simp only [List.map_cons, List.map_nil, List.mem_singleton] at hb
      obtain ⟨x, hx, rfl⟩ := List.mem_map.1 ha
      rw [hb]
      exact hc p List.mem_cons_self x (List.mem_filter.1 hx).1
    · intro x hx
      unfold backup
      refine List.mem_append_left _ (List.mem_filter.2 ⟨hm x (List.mem_cons_of_mem _ hx), ?_⟩)
      simp only [decide_eq_true_eq]
      intro e
      exact hl.1 (e ▸ List.mem_map_of_mem hx)
    · intro x hx y hy
      unfold backup at hy
      rcases List.mem_append.1 hy with hy | hy
      · exact hc x (List.mem_cons_of_mem _ hx) y (List.mem_filter.1 hy).1
      · rw [List.mem_singleton] at hy
        subst hy
        dsimp only
        intro e
        have : x.1 = p.1 := by
          have := congrArg String.toList e
          exact String.toList_inj.1 (by simpa using this.symm)
        exact hl.1 (this ▸ List.mem_map_of_mem hx)
    · intro x hx y hy
      exact hc2 x (List.mem_cons_of_mem _ hx) y (List.mem_cons_of_mem _ hy)

theorem backupAll_ids (m : OMod) (hn : (m.params.map Prod.fst).Nodup) (hc : ∀ p ∈ m.params, ∀ p' ∈ m.params, p'.1 ≠ "float_" ++ p.1) (i : ℕ) :
    i ∈ (backupAll m).params.map Prod.snd ↔ i ∈ m.params.map Prod.snd := by
  unfold backupAll
  refine backups_ids _ _ hn ((List.filter_sublist.map _).nodup hn) (fun p hp => (List.mem_filter.1 hp).1) ?_ ?_ i
  · intro p hp p' hp'
    exact hc p (List.mem_filter.1 hp).1 p' hp'
  · intro p hp p' hp'
    exact hc p (List.mem_filter.1 hp).1 p' (List.mem_filter.1 hp').1

/-! ## Names -/

theorem clip_float (p : String) : "clip_val".toList <:+: ("float_" ++ p).toList ↔ "clip_val".toList <:+: p.toList := by
  have e : ("float_" ++ p).toList = 'f' :: 'l' :: 'o' :: 'a' :: 't' :: '_' :: p.toList := by
    rw [String.toList_append]; rfl
  have c : "clip_val".toList = ['c', 'l', 'i', 'p', '_', 'v', 'a', 'l'] := by decide
  rw [e, c]
  constructor
  · intro h
    repeat (rw [List.infix_cons_iff] at h; rcases h with h | h; · (rw [List.cons_prefix_cons] at h; exact absurd h.1 (by decide)))
    exact h
  · rintro ⟨a, b, h⟩
    exact ⟨'f' :: 'l' :: 'o' :: 'a' :: 't' :: '_' :: a, b, by rw [← h]; rfl⟩

theorem hasClip_float (path : List String) (p : String) : hasClipVal (path ++ ["float_" ++ p]) = hasClipVal (path ++ [p]) := by
  unfold hasClipVal
  rw [List.any_append, List.any_append]
  congr 1
  simp only [List.any_cons, List.any_nil, Bool.or_false]
  exact decide_eq_decide.2 (clip_float p)

theorem backups_names (path : List String) : ∀ (l ps : List (String × ℕ)), (∀ p ∈ l, ∃ p' ∈ ps, p'.2 = p.2 ∧ hasClipVal (path ++ [p'.1]) = hasClipVal (path ++ [p.1])) →
    ∀ x ∈ l.foldl backup ps, ∃ y ∈ ps, y.2 = x.2 ∧ hasClipVal (path ++ [y.1]) = hasClipVal (path ++ [x.1]) := by
  intro l
  induction l with
  | nil => intro ps _ x hx; exact ⟨x, hx, rfl, rfl⟩
  | cons p l ih =>
    intro ps h x hx
    rw [List.foldl_cons] at hx
    have hb : ∀ z ∈ backup ps p, ∃ y ∈ ps, y.2 = z.2 ∧ hasClipVal (path ++ [y.1]) = hasClipVal (path ++ [z.1]) := by
      intro z hz
      unfold backup at hz
      rcases List.mem_append.1 hz with hz | hz
      · exact ⟨z, (List.mem_filter.1 hz).1, rfl, rfl⟩
      · rw [List.mem_singleton] at hz
        subst hz
        obtain ⟨y, h1, h2, h3⟩ := h p List.mem_cons_self
        exact ⟨y, h1, h2, by rw [hasClip_float]; exact h3⟩
    have key : ∀ (l : List (String × ℕ)) (qs : List (String × ℕ)), (∀ z ∈ qs, ∃ y ∈ ps, y.2 = z.2 ∧ hasClipVal (path ++ [y.1]) = hasClipVal (path ++ [z.1])) →
        (∀ p ∈ l, ∃ p' ∈ ps, p'.2 = p.2 ∧ hasClipVal (path ++ [p'.1]) = hasClipVal (path ++ [p.1])) →
        ∀ x ∈ l.foldl backup qs, ∃ y ∈ ps, y.2 = x.2 ∧ hasClipVal (path ++ [y.1]) = hasClipVal (path ++ [x.1]) := by
      intro l
      induction l with
      | nil => intro qs hq _ x hx; exact hq x hx
      | cons r l ihl =>
        intro qs hq hl x hx
        rw [List.foldl_cons] at hx
        refine ihl (backup qs r) ?_ (fun p hp => hl p (List.mem_cons_of_mem _ hp)) x hx
        intro z hz
        unfold backup at hz
        rcases List.mem_append.1 hz with hz | hz
        · exact hq z (List.mem_filter.1 hz).1
        · rw [List.mem_singleton] at hz
          subst hz
          obtain ⟨y, h1, h2, h3⟩ := hl r List.mem_cons_self
          exact ⟨y, h1, h2, by rw [hasClip_float]; exact h3⟩
    exact key l (backup ps p) hb (fun p hp => h p (List.mem_cons_of_mem _ hp)) x hx

theorem backupAll_names (m : OMod) : ∀ x ∈ (backupAll m).params, ∃ y ∈ m.params, y.2 = x.2 ∧
    hasClipVal (m.path ++ [y.1]) = hasClipVal (m.path ++ [x.1]) :=
  backups_names m.path _ _ fun p hp => ⟨p, (List.mem_filter.1 hp).1, rfl, rfl⟩

/-! ## Replacing ReLUs -/

theorem mem_allParams {ms : List OMod} {n : List String} {i : ℕ} :
    (n, i) ∈ allParams ms ↔ ∃ m ∈ ms, ∃ p ∈ m.params, n = m.path ++ [p.1] ∧ i = p.2 := by
  unfold allParams
  simp only [List.mem_flatMap, List.mem_map, Prod.mk.injEq]
  constructor
  · rintro ⟨m, hm, p, hp, h1, h2⟩; exact ⟨m, hm, p, hp, h1.symm, h2.symm⟩
  · rintro ⟨m, hm, p, hp, h1, h2⟩; exact ⟨m, hm, p, hp, h1.symm, h2.symm⟩

theorem mem_paramIds {ms : List OMod} {i : ℕ} : i ∈ paramIds ms ↔ ∃ m ∈ ms, i ∈ m.params.map Prod.snd := by
  unfold paramIds allParams
  simp [List.mem_flatMap, List.mem_map]

/-- The new modules: old ones unchanged, and one module per replaced ReLU. -/
theorem replaceRelus_spec (pact : Bool) : ∀ (ms : List OMod) (next : ℕ), (∀ m ∈ ms, ∀ a, m.kind = .relu a → m.params = []) →
    (∀ m ∈ replaceRelus pact ms next, m ∈ ms ∨ (∃ a, m.kind = .relu (some a)) ∧
      (pact = false ∧ m.params = [] ∨ pact = true ∧ ∃ i, m.params = [("clip_val", i)] ∧ next ≤ i ∧ i < next + (replacedRelus ms).length)) ∧
    (∀ m ∈ ms, m ∉ replacedRelus ms → m ∈ replaceRelus pact ms next) ∧
    (pact = true → ∀ i, next ≤ i → i < next + (replacedRelus ms).length → ∃ m ∈ replaceRelus pact ms next, m.params = [("clip_val", i)]) := by
  intro ms
  induction ms with
  | nil => intro next _; exact ⟨by simp [replaceRelus], by simp, fun _ i h1 h2 => by simp [replacedRelus] at h2; omega⟩
  | cons m ms ih =>
    intro next hr
    have hr' := fun m' hm' => hr m' (List.mem_cons_of_mem _ hm')
    unfold replaceRelus
    by_cases hm : ∃ a, m.kind = .relu (some a)
    · obtain ⟨a, ha⟩ := hm
      have hcount : (replacedRelus (m :: ms)).length = (replacedRelus ms).length + 1 := by
        unfold replacedRelus
        rw [List.filter_cons_of_pos (by rw [ha])]
        rfl
      have hin : m ∈ replacedRelus (m :: ms) := by
        unfold replacedRelus
        exact List.mem_filter.2 ⟨List.mem_cons_self, by rw [ha]⟩
      have hsub : ∀ m', m' ∉ replacedRelus (m :: ms) → m' ∉ replacedRelus ms := by
        intro m' h h'
        unfold replacedRelus at h h'
        exact h (List.mem_filter.2 ⟨List.mem_cons_of_mem _ (List.mem_filter.1 h').1, (List.mem_filter.1 h').2⟩)
      cases pact with
      | true =>
        have e : replaceRelu true m next = ({ m with params := [("clip_val", next)] }, next + 1) := by
          unfold replaceRelu; rw [ha]; rfl
        rw [e]
        obtain ⟨i1, i2, i3⟩ := ih (next + 1) hr'
        refine ⟨?_, ?_, ?_⟩
        · intro x hx
          rcases List.mem_cons.1 hx with rfl | hx
          · exact .inr ⟨⟨a, ha⟩, .inr ⟨rfl, next, rfl, le_refl _, by omega⟩⟩
          · rcases i1 x hx with h | ⟨h1, h2 | ⟨_, i, h3, h4, h5⟩⟩
            · exact .inl (List.mem_cons_of_mem _ h)
            · exact .inr ⟨h1, .inl h2⟩
            · exact .inr ⟨h1, .inr ⟨rfl, i, h3, by omega, by omega⟩⟩
        · intro x hx hnx
          rcases List.mem_cons.1 hx with rfl | hx
          · exact absurd hin hnx
          · exact List.mem_cons_of_mem _ (i2 x hx (hsub x hnx))
        · intro _ i h1 h2
          by_cases e : i = next
          · exact ⟨_, List.mem_cons_self, by rw [e]⟩
          · obtain ⟨x, hx, hp⟩ := i3 rfl i (by omega) (by omega)
            exact ⟨x, List.mem_cons_of_mem _ hx, hp⟩
      | false =>
        have e : replaceRelu false m next = ({ m with params := [] }, next) := by
          unfold replaceRelu; rw [ha]; rfl
        rw [e]
        obtain ⟨i1, i2, i3⟩ := ih next hr'
        refine ⟨?_, ?_, fun h => by cases h⟩
        · intro x hx
          rcases List.mem_cons.1 hx with rfl | hx
          · exact .inr ⟨⟨a, ha⟩, .inl ⟨rfl, rfl⟩⟩
          · rcases i1 x hx with h | ⟨h1, h2 | ⟨h, _⟩⟩
            · exact .inl (List.mem_cons_of_mem _ h)
            · exact .inr ⟨h1, .inl h2⟩
            · cases h
        · intro x hx hnx
          rcases List.mem_cons.1 hx with rfl | hx
          · exact absurd hin hnx
          · exact List.mem_cons_of_mem _ (i2 x hx (hsub x hnx))
    · have e : replaceRelu pact m next = (m, next) := by
        unfold replaceRelu
        split
        · rename_i a h; exact absurd ⟨a, h⟩ hm
        · rfl
      have hcount : replacedRelus (m :: ms) = replacedRelus ms := by
        unfold replacedRelus
        rw [List.filter_cons_of_neg]
        intro h
        split at h
        · rename_i a h'; exact hm ⟨a, h'⟩
        · cases h
      rw [e, hcount]
      obtain ⟨i1, i2, i3⟩ := ih next hr'
      refine ⟨?_, ?_, ?_⟩
      · intro x hx
        rcases List.mem_cons.1 hx with rfl | hx
        · exact .inl List.mem_cons_self
        · rcases i1 x hx with h | h
          · exact .inl (List.mem_cons_of_mem _ h)
          · exact .inr h
      · intro x hx hnx
        rcases List.mem_cons.1 hx with rfl | hx
        · exact List.mem_cons_self
        · exact List.mem_cons_of_mem _ (i2 x hx hnx)
      · intro h i h1 h2
        obtain ⟨x, hx, hp⟩ := i3 h i h1 h2
        exact ⟨x, List.mem_cons_of_mem _ hx, hp⟩

/-! ## `named_parameters` -/

theorem named_fold : ∀ (l acc : List (List String × ℕ)), (acc.map Prod.snd).Nodup →
    ((l.foldl (fun acc p => if acc.any fun a => a.2 = p.2 then acc else acc ++ [p]) acc).map Prod.snd).Nodup ∧
    (∀ i, i ∈ (l.foldl (fun acc p => if acc.any fun a => a.2 = p.2 then acc else acc ++ [p]) acc).map Prod.snd ↔
      i ∈ acc.map Prod.snd ∨ i ∈ l.map Prod.snd) ∧
    (∀ x ∈ l.foldl (fun acc p => if acc.any fun a => a.2 = p.2 then acc else acc ++ [p]) acc, x ∈ acc ∨ x ∈ l) := by
  intro l
  induction l with
  | nil => intro acc h; exact ⟨h, by simp, fun x hx => .inl hx⟩
  | cons p l ih =>
    intro acc h
    rw [List.foldl_cons]
    by_cases hp : acc.any (fun a => a.2 = p.2) = true
    · rw [if_pos hp]
      obtain ⟨i1, i2, i3⟩ := ih acc h
      refine ⟨i1, ?_, ?_⟩
      · intro i
        rw [i2 i, List.map_cons, List.mem_cons]
        constructor
        · rintro (h | h)
          · exact .inl h
          · exact .inr (.inr h)
        · rintro (h | rfl | h)
          · exact .inl h
          · left
            obtain ⟨a, ha, e⟩ := List.any_eq_true.1 hp
            exact List.mem_map.2 ⟨a, ha, by simpa using e⟩
          · exact .inr h
      · intro x hx
        rcases i3 x hx with h | h
        · exact .inl h
        · exact .inr (List.mem_cons_of_mem _ h)
    · rw [if_neg hp]
      have hn : ((acc ++ [p]).map Prod.snd).Nodup := by
        rw [List.map_append, List.nodup_append]
        refine ⟨h, by simp, ?_⟩
        intro a ha b hb e
        simp only [List.map_cons, List.map_nil, List.mem_singleton] at hb
        obtain ⟨x, hx, rfl⟩ := List.mem_map.1 ha
        exact hp (List.any_eq_true.2 ⟨x, hx, by simp [e, hb]⟩)
      obtain ⟨i1, i2, i3⟩ := ih _ hn
      refine ⟨i1, ?_, ?_⟩
      · intro i
        rw [i2 i]
        simp only [List.map_append, List.map_cons, List.map_nil, List.mem_append, List.mem_singleton, List.mem_cons]
        tauto
      · intro x hx
        rcases i3 x hx with h | h
        · rcases List.mem_append.1 h with h | h
          · exact .inl h
          · exact .inr (by rw [List.mem_singleton] at h; rw [h]; exact List.mem_cons_self)
        · exact .inr (List.mem_cons_of_mem _ h)

theorem namedParams_spec (ms : List OMod) : ((namedParams ms).map Prod.snd).Nodup ∧
    (∀ i, i ∈ (namedParams ms).map Prod.snd ↔ i ∈ paramIds ms) ∧ (∀ x ∈ namedParams ms, x ∈ allParams ms) := by
  obtain ⟨h1, h2, h3⟩ := named_fold (allParams ms) [] (by simp)
  exact ⟨h1, fun i => by rw [namedParams, h2 i]; simp [paramIds], fun x hx => by simpa using h3 x hx⟩

/-! ## The property -/

theorem prepared_ids (pact : Bool) (ms : List OMod) (next : ℕ) (gs : List OGroup) (hr : OReady ms next gs) (i : ℕ) :
    i ∈ paramIds ((replaceRelus pact ms next).map backupAll) ↔
      i ∈ paramIds ms ∨ pact = true ∧ next ≤ i ∧ i < next + (replacedRelus ms).length := by
  obtain ⟨s1, s2, s3⟩ := replaceRelus_spec pact ms next hr.relu
  have hids : ∀ m ∈ replaceRelus pact ms next, (i ∈ (backupAll m).params.map Prod.snd ↔ i ∈ m.params.map Prod.snd) := by
    intro m hm
    rcases s1 m hm with h | ⟨_, ⟨_, h⟩ | ⟨_, j, h, _⟩⟩
    · exact backupAll_ids m (hr.names m h) (hr.clash m h) i
    · exact backupAll_ids m (by rw [h]; simp) (by rw [h]; simp) i
    · refine backupAll_ids m (by rw [h]; simp) ?_ i
      rw [h]
      intro p hp p' hp'
      rw [List.mem_singleton] at hp hp'
      subst hp hp'
      show "clip_val" ≠ "float_" ++ "clip_val"
      decide
  rw [mem_paramIds]
  constructor
  · rintro ⟨m', hm', hi⟩
    obtain ⟨m, hm, rfl⟩ := List.mem_map.1 hm'
    rw [hids m hm] at hi
    rcases s1 m hm with h | ⟨_, ⟨_, h⟩ | ⟨hp, j, h, h1, h2⟩⟩
    · exact .inl (mem_paramIds.2 ⟨m, h, hi⟩)
    · rw [h] at hi; simp at hi
    · rw [h] at hi
      simp only [List.map_cons, List.map_nil, List.mem_singleton] at hi
      subst hi
      exact .inr ⟨hp, h1, h2⟩
  · rintro (h | ⟨hp, h1, h2⟩)
    · obtain ⟨m, hm, hi⟩ := mem_paramIds.1 h
      have : m ∉ replacedRelus ms := by
        intro h'
        unfold replacedRelus at h'
        have h' := (List.mem_filter.1 h').2
        split at h'
        · rename_i a ha
          rw [hr.relu m hm _ ha] at hi
          simp at hi
        · cases h'
      have hm1 := s2 m hm this
      exact ⟨_, List.mem_map_of_mem hm1, (hids m hm1).2 hi⟩
    · obtain ⟨m, hm, he⟩ := s3 hp i h1 h2
      exact ⟨_, List.mem_map_of_mem hm, (hids m hm).2 (by rw [he]; simp)⟩

/-- **C140** (WRPN, DoReFa): the model keeps exactly its Parameter objects, so the optimizer still has each of them once,
with the same groups. -/
theorem C140_fixed (q : OQuant) (hq : q = .wrpn ∨ q = .dorefa) (ms : List OMod) (next : ℕ) (gs : List OGroup) (hr : OReady ms next gs) :
    ∃ ms', prepTrain q ms next gs = .ok (ms', gs) ∧ (∀ i, i ∈ optIds gs ↔ i ∈ paramIds ms') ∧ (∀ i, i ∈ paramIds ms' ↔ i ∈ paramIds ms) := by
  have hp : q.isPact = false := by rcases hq with rfl | rfl <;> rfl
  have hg : ∀ ms, q.groups ms = [] := by rcases hq with rfl | rfl <;> exact fun _ => rfl
  refine ⟨(replaceRelus q.isPact ms next).map backupAll, ?_, ?_, ?_⟩
  · unfold prepTrain
    simp only [hg]
    rfl
  · intro i
    rw [prepared_ids _ ms next gs hr i, hp, hr.same i]
    simp
  · intro i
    rw [prepared_ids _ ms next gs hr i, hp]
    simp

/-- **C140** (PACT): unless a parameter of the model has `clip_val` in its name, the optimizer afterwards has every parameter
of the model exactly once: the old ones as before, and the clipping values of the replaced ReLUs in a new group
with the weight decay asked for. -/
theorem C140_pact_partial (d : Option ℚ) (ms : List OMod) (next : ℕ) (gs : List OGroup) (hr : OReady ms next gs)
    (hclip : ∀ p ∈ allParams ms, hasClipVal p.1 = false) :
    ∃ ms' g, prepTrain (.pact d) ms next gs = .ok (ms', gs ++ [g]) ∧ g.decay = d ∧
      (optIds (gs ++ [g])).Nodup ∧ (∀ i, i ∈ optIds (gs ++ [g]) ↔ i ∈ paramIds ms') ∧
      (∀ i ∈ paramIds ms, i ∈ paramIds ms') ∧ (∀ i ∈ g.params, i ∉ paramIds ms) ∧ g.params.length = (replacedRelus ms).length := by
  obtain ⟨s1, s2, s3⟩ := replaceRelus_spec true ms next hr.relu
  let ms' := (replaceRelus true ms next).map backupAll
  obtain ⟨n1, n2, n3⟩ := namedParams_spec ms'
  have hids := prepared_ids true ms next gs hr
  -- which parameters have the name
  have hname : ∀ x ∈ allParams ms', (hasClipVal x.1 = true ↔ next ≤ x.2 ∧ x.2 < next + (replacedRelus ms).length) := by
    rintro ⟨n, i⟩ hx
    obtain ⟨m', hm', p, hp, rfl, rfl⟩ := mem_allParams.1 hx
    obtain ⟨m, hm, rfl⟩ := List.mem_map.1 hm'
    obtain ⟨y, hy, e1, e2⟩ := backupAll_names m p hp
    have ep : (backupAll m).path = m.path := rfl
    dsimp only
    rw [ep, ← e2, ← e1]
    rcases s1 m hm with h | ⟨_, ⟨hf, _⟩ | ⟨_, j, h, h1, h2⟩⟩
    · have a1 : (m.path ++ [y.1], y.2) ∈ allParams ms := mem_allParams.2 ⟨m, h, y, hy, rfl, rfl⟩
      have a2 := hclip _ a1
      have a3 := hr.below y.2 (List.mem_map.2 ⟨_, a1, rfl⟩)
      dsimp only at a2
      rw [a2]
      constructor
      · intro h; cases h
      · intro h; omega
    · cases hf
    · rw [h, List.mem_singleton] at hy
      subst hy
      refine ⟨fun _ => ⟨h1, h2⟩, fun _ => ?_⟩
      unfold hasClipVal
      rw [List.any_append]
      simp
  let g : OGroup := ⟨((namedParams ms').filter fun p => hasClipVal p.1).map Prod.snd, d⟩
  have hgmem : ∀ i, i ∈ g.params ↔ next ≤ i ∧ i < next + (replacedRelus ms).length := by
    intro i
    constructor
    · intro h
      obtain ⟨x, hx, rfl⟩ := List.mem_map.1 h
      obtain ⟨hx, hc⟩ := List.mem_filter.1 hx
      exact (hname x (n3 x hx)).1 hc
    · intro h
      have : i ∈ paramIds ms' := (hids i).2 (.inr ⟨rfl, h⟩)
      obtain ⟨x, hx, rfl⟩ := List.mem_map.1 ((n2 i).2 this)
      exact List.mem_map.2 ⟨x, List.mem_filter.2 ⟨hx, (hname x (n3 x hx)).2 h⟩, rfl⟩
  have hgn : g.params.Nodup := (List.filter_sublist.map _).nodup n1
  have hnew : ∀ i ∈ g.params, i ∉ paramIds ms := by
    intro i hi h
    have := hr.below i h
    have := (hgmem i).1 hi
    omega
  refine ⟨ms', g, ?_, rfl, ?_, ?_, ?_, hnew, ?_⟩
  · unfold prepTrain
    have e1 : (OQuant.pact d).isPact = true := rfl
    have e2 : (OQuant.pact d).groups ms' = [g] := rfl
    rw [e1]
    dsimp only
    rw [e2, List.foldlM_cons]
    have : addGroup gs g = .ok (gs ++ [g]) := by
      unfold addGroup
      rw [if_neg]
      intro h
      obtain ⟨i, hi, h⟩ := List.any_eq_true.1 h
      obtain ⟨g', hg', h⟩ := List.any_eq_true.1 h
      rw [List.contains_iff_mem] at h
      exact hnew i hi ((hr.same i).1 (List.mem_flatMap.2 ⟨g', hg', h⟩))
    rw [this]
    rfl
  · unfold optIds
    rw [List.flatMap_append, List.nodup_append]
    refine ⟨hr.opt, by simpa using hgn, ?_⟩
    intro a ha b hb e
    subst e
    exact hnew a (by simpa using hb) ((hr.same a).1 ha)
  · intro i
    rw [hids i, ← hr.same i]
    unfold optIds
    rw [List.flatMap_append, List.mem_append]
    simp [hgmem i]
  · intro i hi
    exact (hids i).2 (.inl hi)
  · have hperm : g.params.Perm (List.range' next (replacedRelus ms).length) := by
      refine (List.perm_ext_iff_of_nodup hgn List.nodup_range').2 fun i => ?_
      rw [hgmem i, List.mem_range'_1]
    rw [hperm.length_eq, List.length_range']

/-- Which parameters a module has after the backups of some of them. -/
theorem backups_mem : ∀ (l ps : List (String × ℕ)), (ps.map Prod.fst).Nodup → (l.map Prod.fst).Nodup → (∀ p ∈ l, p ∈ ps) →
    (∀ p ∈ l, ∀ p' ∈ ps, p'.1 ≠ "float_" ++ p.1) → ∀ x, x ∈ l.foldl backup ps ↔ (x ∈ ps ∧ x ∉ l) ∨ ∃ p ∈ l, x = ("float_" ++ p.1, p.2) := by
  intro l
  induction l with
  | nil => intro ps _ _ _ _ x; simp
  | cons p l ih =>
    intro ps hn hl hm hc x
    rw [List.map_cons, List.nodup_cons] at hl
    rw [List.foldl_cons]
    have hfl : ∀ q ∈ l, q.1 ≠ p.1 := fun q hq e => hl.1 (e ▸ List.mem_map_of_mem hq)
    have hinj : ∀ {u v : String}, "float_" ++ u = "float_" ++ v → u = v := by
      intro u v e
      have := congrArg String.toList e
      exact String.toList_inj.1 (by simpa using this)
    rw [ih (backup ps p) ?_ hl.2 ?_ ?_ x]
    · have hb : x ∈ backup ps p ↔ (x ∈ ps ∧ x.1 ≠ p.1) ∨ x = ("float_" ++ p.1, p.2) := by
        unfold backup
        simp [List.mem_append, List.mem_filter]
      rw [hb]
      constructor
      · rintro (⟨⟨h1, h2⟩ | h1, h3⟩ | ⟨q, hq, h⟩)
        · refine .inl ⟨h1, ?_⟩
          rw [List.mem_cons, not_or]
          exact ⟨fun e => h2 (by rw [e]), h3⟩
        · exact .inr ⟨p, List.mem_cons_self, h1⟩
        · exact .inr ⟨q, List.mem_cons_of_mem _ hq, h⟩
      · rintro (⟨h1, h2⟩ | ⟨q, hq, h⟩)
        · rw [List.mem_cons, not_or] at h2
          exact .inl ⟨.inl ⟨h1, fun e => h2.1 (List.inj_on_of_nodup_map hn h1 (hm p List.mem_cons_self) e)⟩, h2.2⟩
        · rcases List.mem_cons.1 hq with rfl | hq
          · refine .inl ⟨.inr h, fun hx => ?_⟩
            have := hc q List.mem_cons_self x (hm x (List.mem_cons_of_mem _ hx))
            exact this (by rw [h])
          · exact .inr ⟨q, hq, h⟩
    · unfold backup
      rw [List.map_append, List.nodup_append]
      refine ⟨(List.filter_sublist.map _).nodup hn, by simp, ?_⟩
      intro a ha b hb
      simp only [List.map_cons, List.map_nil, List.mem_singleton] at hb
      obtain ⟨y, hy, rfl⟩ := List.mem_map.1 ha
      rw [hb]
      exact hc p List.mem_cons_self y (List.mem_filter.1 hy).1
    · intro y hy
      unfold backup
      exact List.mem_append_left _ (List.mem_filter.2 ⟨hm y (List.mem_cons_of_mem _ hy), by simpa using hfl y hy⟩)
    · intro y hy z hz
      unfold backup at hz
      rcases List.mem_append.1 hz with hz | hz
      · exact hc y (List.mem_cons_of_mem _ hy) z (List.mem_filter.1 hz).1
      · rw [List.mem_singleton] at hz
        subst hz
        exact fun e => hfl y hy (hinj e.symm)

/-- The name ends with "bias". -/
def EndsBias (p : String) : Prop := ∃ u, p = u ++ "bias"

/-- There are bits for this parameter. -/
def HasBits (k : OKind) (p : String) : Prop := ∃ w b, k = .layer w b ∧ ((EndsBias p ∧ b ≠ none) ∨ (¬ EndsBias p ∧ w ≠ none))

theorem isBias_iff (p : String) : isBias p = true ↔ EndsBias p := by
  unfold isBias EndsBias
  rw [List.isSuffixOf_iff_suffix]
  constructor
  · rintro ⟨t, ht⟩
    exact ⟨String.ofList t, String.toList_inj.1 (by rw [String.toList_append, ← ht]; simp)⟩
  · rintro ⟨u, rfl⟩
    exact ⟨u.toList, by rw [String.toList_append]⟩

theorem bits_iff (k : OKind) (p : String) : (k.bits p).isSome = true ↔ HasBits k p := by
  unfold OKind.bits HasBits
  cases k with
  | layer w b =>
    dsimp only
    by_cases h : isBias p = true
    · rw [if_pos h]
      have h' := (isBias_iff p).1 h
      constructor
      · intro hb; exact ⟨w, b, rfl, .inl ⟨h', by cases b <;> simp_all⟩⟩
      · rintro ⟨w', b', e, h1 | h1⟩
        · cases e; exact Option.isSome_iff_ne_none.2 h1.2
        · exact absurd h' h1.1
    · rw [if_neg h]
      have h' : ¬ EndsBias p := fun x => h ((isBias_iff p).2 x)
      constructor
      · intro hb; exact ⟨w, b, rfl, .inr ⟨h', by cases w <;> simp_all⟩⟩
      · rintro ⟨w', b', e, h1 | h1⟩
        · exact absurd h1.1 h'
        · cases e; exact Option.isSome_iff_ne_none.2 h1.2
  | relu a => simp
  | other => simp

/-- **C140** (which parameters are copies): in a layer, the bias is quantized if there are bits for it, any other parameter
if there are bits for weights; a quantized one goes on as `float_…` and is no parameter under its own name, the
others stay what they are.  In other modules nothing changes. -/
theorem C140_backups (q : OQuant) (ms : List OMod) (next : ℕ) (gs : List OGroup) (hr : OReady ms next gs) (ms' : List OMod) (gs' : List OGroup)
    (h : prepTrain q ms next gs = .ok (ms', gs')) (m : OMod) (hm : m ∈ ms) (hrelu : ∀ a, m.kind ≠ .relu (some a)) :
    ∃ m' ∈ ms', m'.path = m.path ∧ ∀ n i, (n, i) ∈ m'.params ↔
      ((n, i) ∈ m.params ∧ ¬ HasBits m.kind n) ∨ (∃ p, (p, i) ∈ m.params ∧ n = "float_" ++ p ∧ HasBits m.kind p) := by
  unfold prepTrain at h
  obtain ⟨gs1, _, h⟩ := ok_bind h
  cases h
  obtain ⟨_, s2, _⟩ := replaceRelus_spec q.isPact ms next hr.relu
  have hm1 := s2 m hm (by
    intro h'
    unfold replacedRelus at h'
    have h' := (List.mem_filter.1 h').2
    split at h'
    · rename_i a ha; exact hrelu a ha
    · cases h')
  refine ⟨backupAll m, List.mem_map_of_mem hm1, rfl, ?_⟩
  intro n i
  unfold backupAll
  dsimp only
  have hn := hr.names m hm
  rw [backups_mem _ _ hn ((List.filter_sublist.map _).nodup hn) (fun p hp => (List.mem_filter.1 hp).1)
    (fun p hp p' hp' => hr.clash m hm p (List.mem_filter.1 hp).1 p' hp') (n, i)]
  constructor
  · rintro (⟨h1, h2⟩ | ⟨⟨p, j⟩, hp, h⟩)
    · refine .inl ⟨h1, fun hb => h2 (List.mem_filter.2 ⟨h1, (bits_iff _ _).2 hb⟩)⟩
    · simp only [Prod.mk.injEq] at h
      obtain ⟨rfl, rfl⟩ := h
      obtain ⟨h1, h2⟩ := List.mem_filter.1 hp
      exact .inr ⟨p, h1, rfl, (bits_iff _ _).1 h2⟩
  · rintro (⟨h1, h2⟩ | ⟨p, h1, rfl, h2⟩)
    · exact .inl ⟨h1, fun h => h2 ((bits_iff _ _).1 (List.mem_filter.1 h).2)⟩
    · exact .inr ⟨(p, i), List.mem_filter.2 ⟨h1, (bits_iff _ _).2 h2⟩, rfl⟩

/-- **C140** is violated by PACT if a parameter of the user has `clip_val` in its name: preparing the model raises
ValueError. -/
theorem C140_violated_name : ∃ (ms : List OMod) (next : ℕ) (gs : List OGroup), OReady ms next gs ∧
    ∀ d, prepTrain (.pact d) ms next gs = .error .value := by
  refine ⟨[⟨["act"], .other, [("clip_val", 0)]⟩, ⟨["relu"], .relu (some 4), []⟩], 1, [⟨[0], none⟩], ⟨?_, ?_, ?_, ?_, ?_, ?_⟩, ?_⟩
  · decide
  · decide
  · simp
  · simp [paramIds, allParams]
  · simp [optIds]
  · simp [optIds, paramIds, allParams]
  · intro d
    unfold prepTrain
    have : ((OQuant.pact d).groups ((replaceRelus (OQuant.pact d).isPact [⟨["act"], .other, [("clip_val", 0)]⟩, ⟨["relu"], .relu (some 4), []⟩] 1).map backupAll)) =
        [⟨[0, 1], d⟩] := by
      simp only [OQuant.groups, OQuant.isPact, List.cons.injEq, OGroup.mk.injEq, and_true]
      decide +kernel
    dsimp only
    rw [this]
    rfl

/-- A network with two layers that share their weights, two ReLUs that are quantized and one that is not. -/
def exOMods : List OMod :=
  [⟨["fc1"], .layer (some 4) none, [("weight", 0), ("bias", 1)]⟩, ⟨["relu1"], .relu (some 4), []⟩,
   ⟨["fc2"], .layer (some 4) (some 8), [("weight", 0), ("bias", 2)]⟩, ⟨["relu2"], .relu (some 4), []⟩, ⟨["relu3"], .relu none, []⟩,
   ⟨["bn"], .other, [("weight", 3), ("bias", 4)]⟩]

example : OReady exOMods 5 [⟨[0, 1, 2], none⟩, ⟨[3, 4], some 0⟩] where
  names := by decide
  clash := by decide
  relu := by simp [exOMods]
  below := by decide
  opt := by decide
  same := by
    intro i
    simp [optIds, paramIds, allParams, exOMods]
    tauto

example : (∀ p ∈ allParams exOMods, hasClipVal p.1 = false) ∧ (replacedRelus exOMods).length = 2 := by decide +kernel

example : prepTrain (.pact (some (1 / 1000))) exOMods 5 [⟨[0, 1, 2], none⟩, ⟨[3, 4], some 0⟩] = .ok
    ([⟨["fc1"], .layer (some 4) none, [("bias", 1), ("float_weight", 0)]⟩, ⟨["relu1"], .relu (some 4), [("clip_val", 5)]⟩,
      ⟨["fc2"], .layer (some 4) (some 8), [("float_weight", 0), ("float_bias", 2)]⟩, ⟨["relu2"], .relu (some 4), [("clip_val", 6)]⟩,
      ⟨["relu3"], .relu none, []⟩, ⟨["bn"], .other, [("weight", 3), ("bias", 4)]⟩],
     [⟨[0, 1, 2], none⟩, ⟨[3, 4], some 0⟩, ⟨[5, 6], some (1 / 1000)⟩]) := by decide +kernel

end Verif
