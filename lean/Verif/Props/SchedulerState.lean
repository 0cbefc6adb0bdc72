import Verif.Lemmas.SchedulerState
import Verif.Props.Masking2
/-!
# C07–C11, C56, C57: saving and loading masks, name normalization, loss threading,
minibatch-granularity pruning
-/
namespace Verif
open Dict

/-! ## C07, C08 -/

/-- **C07** Loading the saved masks of `mk1` into a scheduler whose parameters all occur in
`mk1` succeeds; afterwards every parameter has the mask it had in `mk1` (possibly none),
and nothing else about its masker changes; no parameter is added or removed. -/
theorem C07_masks_round_trip (mk1 mk2 : Dict Name Masker)
    (hkeys : ∀ n ∈ mk2.map Prod.fst, n ∈ mk1.map Prod.fst) :
    (loadStateDict mk2 (some (stateDict mk1))).2 = .ok () ∧
    ∀ n, (loadStateDict mk2 (some (stateDict mk1))).1.get? n =
      match mk1.get? n, mk2.get? n with
      | some m1, some m2 => some { m2 with mask := m1.mask }
      | _, _ => none := by
  have hk : ∀ n ∈ mk2.map Prod.fst, n ∈ (stateDict mk1).map Prod.fst := by
    intro n hn
    have := hkeys n hn
    simpa [stateDict] using this
  obtain ⟨h1, h2⟩ := loadLoop_ok hk
  refine ⟨h1, fun n => ?_⟩
  show (loadLoop (stateDict mk1) mk2).1.get? n = _
  rw [h2, get?_map_masker (fun n m => { m with mask := ((stateDict mk1).get? n).getD none }),
    get?_stateDict]
  cases h2 : mk2.get? n with
  | none => simp
  | some m2 =>
    have : n ∈ mk1.map Prod.fst := hkeys n (by rw [← get?_isSome_iff, h2]; rfl)
    obtain ⟨m1, h1⟩ := Option.isSome_iff_exists.1 ((get?_isSome_iff mk1 n).2 this)
    simp [h1]

/-- **C07** corollary: restoring a scheduler's own snapshot undoes any change to the masks. -/
theorem C07_self_restore (mk mk' : Dict Name Masker) (hkeys : mk'.map Prod.fst = mk.map Prod.fst)
    (n : Name) (m : Masker) (hm : mk.get? n = some m) :
    ∃ m', (loadStateDict mk' (some (stateDict mk))).1.get? n = some m' ∧ m'.mask = m.mask := by
  have := (C07_masks_round_trip mk mk' (by rw [hkeys]; exact fun _ h => h)).2 n
  have hn : n ∈ mk'.map Prod.fst := by rw [hkeys, ← get?_isSome_iff, hm]; rfl
  obtain ⟨m2, h2⟩ := Option.isSome_iff_exists.1 ((get?_isSome_iff mk' n).2 hn)
  rw [hm, h2] at this
  exact ⟨_, this, rfl⟩

example : loadStateDict [(["a", "w"], {}), (["b", "w"], { mask := some [1] })]
    (some (stateDict [(["b", "w"], {}), (["a", "w"], { mask := some [0, 1] })]))
    = ([(["a", "w"], { mask := some [0, 1] }), (["b", "w"], {})], .ok ()) := by decide +kernel

/-- **C07 fails** for "masking then behaves identically": only the masks are saved, not the
masking mode.  A forward-only mask (its policy is over) lets the optimizer change the weight;
after a save/load the same step zeroes it. -/
theorem C07_violated_modes_not_saved :
    ∃ (mk : Dict Name Masker) (p p1 p2 : Dict Name Tensor) (mk' : Dict Name Masker),
      loadStateDict (createModelMasksDict p) (some (stateDict mk)) = (mk', .ok ()) ∧
      (run exEnv ⟨{ params := p, maskers := mk }, {}, fun _ => .other⟩ [plus7, .mbEnd 0 0 1]).map
        (·.store.params) = .ok p1 ∧
      (run exEnv ⟨{ params := p, maskers := mk' }, {}, fun _ => .other⟩ [plus7, .mbEnd 0 0 1]).map
        (·.store.params) = .ok p2 ∧ p1 ≠ p2 := by
  refine ⟨[(["fc", "w"], { mask := some [0, 1], fwdOnly := true })], [(["fc", "w"], [0, 5])],
    [(["fc", "w"], [7, 12])], [(["fc", "w"], [0, 12])], [(["fc", "w"], { mask := some [0, 1] })],
    by decide +kernel, by decide +kernel, by decide +kernel, by decide +kernel⟩

/-- **C08** Loading fails with `KeyError` exactly when the masks dictionary is absent or
lacks a parameter of the model. -/
theorem C08_load_fails_iff (mk : Dict Name Masker) (state : Option MasksDict) :
    (loadStateDict mk state).2 = .error .key ↔
      (state = none ∨ ∃ d, state = some d ∧ ∃ n ∈ mk.map Prod.fst, n ∉ d.map Prod.fst) := by
  cases state with
  | none => simp [loadStateDict]
  | some d =>
    simp only [reduceCtorEq, Option.some.injEq, exists_eq_left', false_or]
    constructor
    · intro h
      by_contra hc
      have hall : ∀ n ∈ mk.map Prod.fst, n ∈ d.map Prod.fst := by
        intro n hn; by_contra hn'; exact hc ⟨n, hn, hn'⟩
      have := (loadLoop_ok hall).1
      simp only [loadStateDict, Bool.false_eq_true, if_false] at h
      rw [this] at h; cases h
    · exact loadLoop_err

/-- **C08 fails** for atomicity: a failed load may already have overwritten masks. -/
theorem C08_violated_partial_load :
    ∃ (mk : Dict Name Masker) (d : MasksDict),
      (loadStateDict mk (some d)).2 = .error .key ∧ (loadStateDict mk (some d)).1 ≠ mk := by
  refine ⟨[(["a"], { mask := some [1] }), (["b"], {})], [(["a"], some [0])], by decide +kernel,
    by decide +kernel⟩

/-- **C08** (partial) the parameters after the first missing one keep their masks, and the
failing parameter itself does. -/
theorem C08_suffix_unchanged_partial (pre post : Dict Name Masker) (n : Name) (m : Masker)
    (d : MasksDict) (hpre : ∀ x ∈ pre.map Prod.fst, x ∈ d.map Prod.fst)
    (hn : n ∉ d.map Prod.fst) :
    ∃ pre', (loadStateDict (pre ++ (n, m) :: post) (some d)).1 = pre' ++ (n, m) :: post ∧
      pre'.length = pre.length := by
  induction pre with
  | nil =>
    refine ⟨[], ?_, rfl⟩
    simp [loadStateDict, loadLoop, (get?_eq_none_iff d n).2 hn]
  | cons p pre ih =>
    obtain ⟨a, ma⟩ := p
    obtain ⟨pre', h1, h2⟩ := ih (fun x hx => hpre x (by simp only [List.map_cons, List.mem_cons]; exact Or.inr hx))
    obtain ⟨v, hv⟩ := Option.isSome_iff_exists.1 ((get?_isSome_iff d a).2 (hpre a (by simp)))
    simp only [loadStateDict, Bool.false_eq_true, if_false] at h1
    refine ⟨(a, { ma with mask := v }) :: pre', ?_, by simp [h2]⟩
    simp [loadStateDict, loadLoop, hv, h1]

/-! ## C09 -/

/-- **C09** Inserting the DataParallel component `module` at any level of a name that has no
such component above is undone by normalization. -/
theorem C09_normalize_inverts_wrapping (p q : Name) (h : "module" ∉ p) :
    normalizeName (p ++ "module" :: q) = p ++ q := normalize_insert p q h

/-- **C09** Names without such a component are left alone; so is the result of normalizing
a singly wrapped name (idempotence). -/
theorem C09_normalize_plain (n : Name) (h : "module" ∉ n) :
    normalizeName n = n ∧ normalizeName (normalizeName n) = normalizeName n := by
  simp [normalize_id n h]

/-- **C09** Masks saved from `DataParallel(model)` (every parameter name prefixed by
`module`) and loaded with `normalize_dataparallel_keys` land on the same parameters. -/
theorem C09_dataparallel_masks_load (mk1 mk2 : Dict Name Masker) (hnd : Nodup mk1)
    (hkeys : ∀ n ∈ mk2.map Prod.fst, n ∈ mk1.map Prod.fst) :
    let saved := stateDict (mk1.map fun p => ("module" :: p.1, p.2))
    (loadStateDict mk2 (some saved) true).2 = .ok () ∧
    ∀ n m1 m2, mk1.get? n = some m1 → mk2.get? n = some m2 →
      (loadStateDict mk2 (some saved) true).1.get? n = some { m2 with mask := m1.mask } := by
  intro saved
  have hsk : saved.map Prod.fst = mk1.map (fun p => "module" :: p.1) := by
    simp [saved, stateDict, Function.comp_def]
  have hsnd : Nodup saved := by
    unfold Nodup; rw [hsk]
    have : mk1.map (fun p => "module" :: p.1) = (mk1.map Prod.fst).map (fun n => "module" :: n) := by
      simp
    rw [this]
    exact List.Nodup.map (fun a b h => by simpa using h) hnd
  have hinj : ∀ a ∈ saved.map Prod.fst, ∀ b ∈ saved.map Prod.fst,
      normalizeName a = normalizeName b → a = b := by
    rw [hsk]
    intro a ha b hb hab
    obtain ⟨x, _, rfl⟩ := List.mem_map.1 ha
    obtain ⟨y, _, rfl⟩ := List.mem_map.1 hb
    simpa [normalizeName] using hab
  have hget : ∀ n m1, mk1.get? n = some m1 → (mapKeys normalizeName saved).get? n = some m1.mask := by
    intro n m1 h
    have hmem := mem_of_get? h
    have : saved.get? ("module" :: n) = some m1.mask := by
      apply get?_of_mem hsnd
      simp only [saved, stateDict, List.mem_map]
      exact ⟨("module" :: n, m1), ⟨(n, m1), hmem, rfl⟩, rfl⟩
    have := get?_mapKeys_of_inj normalizeName saved hsnd hinj this
    simpa [normalizeName] using this
  have hk : ∀ n ∈ mk2.map Prod.fst, n ∈ (mapKeys normalizeName saved).map Prod.fst := by
    intro n hn
    obtain ⟨m1, h1⟩ := Option.isSome_iff_exists.1 ((get?_isSome_iff mk1 n).2 (hkeys n hn))
    rw [← get?_isSome_iff, hget n m1 h1]; rfl
  obtain ⟨h1, h2⟩ := loadLoop_ok hk
  refine ⟨h1, ?_⟩
  intro n m1 m2 hm1 hm2
  show (loadLoop (mapKeys normalizeName saved) mk2).1.get? n = _
  rw [h2, get?_map_masker (fun n m => { m with mask := ((mapKeys normalizeName saved).get? n).getD none }),
    hget n m1 hm1, hm2]
  rfl

example : normalizeName ["features", "module", "0", "weight"] = ["features", "0", "weight"] := by decide
example : loadStateDict [(["fc", "w"], {})]
    (some (stateDict ([(["fc", "w"], { mask := some [0, 1] })].map fun p => ("module" :: p.1, p.2)))) true
    = ([(["fc", "w"], { mask := some [0, 1] })], .ok ()) := by decide +kernel

/-! ## C56: init_from_masks_dict -/

/-- **C56** Without key normalization: `init_from_masks_dict` gives each parameter the mask
listed for it, and no mask when it is not listed; it never fails. -/
theorem C56_init_from_masks (mk : Dict Name Masker) (masks : MasksDict) :
    (initFromMasksDict mk masks).2 = .ok () ∧
    ∀ n m, mk.get? n = some m →
      (initFromMasksDict mk masks).1.get? n = some { m with mask := (masks.get? n).getD none } := by
  have hfill : ∀ (names : List Name) (d : MasksDict),
      (∀ n, n ∈ (fillMissing names d).map Prod.fst ↔ (n ∈ names ∨ n ∈ d.map Prod.fst)) ∧
      ∀ n, ((fillMissing names d).get? n).getD none = (d.get? n).getD none := by
    intro names
    induction names with
    | nil => intro d; simp [fillMissing]
    | cons a names ih =>
      intro d
      have hstep : fillMissing (a :: names) d =
          fillMissing names (if d.has a then d else d.set a none) := rfl
      rw [hstep]
      obtain ⟨i1, i2⟩ := ih (if d.has a then d else d.set a none)
      refine ⟨fun n => ?_, fun n => ?_⟩
      · rw [i1]
        by_cases hd : d.has a = true
        · have : a ∈ d.map Prod.fst := (get?_isSome_iff d a).1 hd
          rw [if_pos hd]
          simp only [List.mem_cons]
          constructor
          · rintro (h | h)
            · exact Or.inl (Or.inr h)
            · exact Or.inr h
          · rintro ((rfl | h) | h)
            · exact Or.inr this
            · exact Or.inl h
            · exact Or.inr h
        · rw [if_neg hd, mem_keys_set]
          simp only [List.mem_cons]
          tauto
      · rw [i2]
        by_cases hd : d.has a = true
        · rw [if_pos hd]
        · rw [if_neg hd, get?_set]
          by_cases han : a = n
          · subst han
            have : d.get? a = none := by
              cases hg : d.get? a with
              | none => rfl
              | some v => simp [Dict.has, hg] at hd
            simp [this]
          · simp [han]
  obtain ⟨f1, f2⟩ := hfill (mk.map Prod.fst) masks
  have hk : ∀ n ∈ mk.map Prod.fst, n ∈ (fillMissing (mk.map Prod.fst) masks).map Prod.fst :=
    fun n hn => (f1 n).2 (Or.inl hn)
  obtain ⟨h1, h2⟩ := loadLoop_ok hk
  refine ⟨h1, fun n m hm => ?_⟩
  show (loadLoop (fillMissing (mk.map Prod.fst) masks) mk).1.get? n = _
  rw [h2, get?_map_masker
    (fun n m => { m with mask := ((fillMissing (mk.map Prod.fst) masks).get? n).getD none }), hm]
  simp [f2]

example : initFromMasksDict [(["a"], {}), (["b"], { mask := some [1] })] [(["a"], some [0])]
    = ([(["a"], { mask := some [0] }), (["b"], {})], .ok ()) := by decide +kernel

/-- **C56 fails** with key normalization, for every DataParallel masks dictionary: the `None`
entries added for the plain names come later in the dictionary and overwrite every given
mask.  For *any* parameter name without a `module` component and any mask, the mask is
silently dropped. -/
theorem C56_violated_dataparallel (n : Name) (k : Tensor) (hn : "module" ∉ n) :
    initFromMasksDict [(n, {})] [("module" :: n, some k)] true = ([(n, {})], .ok ()) := by
  have hne : ¬ ("module" :: n = n) := fun h => by
    have := congrArg List.length h; simp at this
  have hfill : fillMissing [n] [("module" :: n, some k)] =
      [("module" :: n, some k), (n, none)] := by
    simp [fillMissing, Dict.has, Dict.get?, Dict.set, hne]
  have hmap : mapKeys normalizeName [("module" :: n, some k), (n, none)] = [(n, none)] := by
    simp [mapKeys, Dict.set, normalizeName, normalize_id n hn]
  simp only [initFromMasksDict, List.map_cons, List.map_nil, loadStateDict, if_true, hfill, hmap]
  simp [loadLoop, Dict.get?]

example : "module" ∉ (["fc", "weight"] : Name) := by decide

/-! ## C10 -/

/-- Specification: the sum of the components' values. -/
def compSum (l : List LossComp) : ℚ := (l.map (·.value)).sum

/-- A policy that adds to the loss exactly what it reports. -/
def Additive (pol : ℚ → PolicyRet) : Prop :=
  ∀ x, pol x = .nothing ∨
    ∃ l : List LossComp, pol x = .loss (x + compSum l) (.list (l.map some))

private theorem verify_list (l : List LossComp) : verifyComps (.list (l.map some)) = .ok l := by
  simp [verifyComps]

/-- **C10** If every policy of the epoch adds to the loss what it reports (or nothing), the
resulting loss is the original loss plus the sum of all reported components. -/
theorem C10_loss_accounted (pols : List (ℚ → PolicyRet)) (hadd : ∀ p ∈ pols, Additive p) (loss : ℚ) :
    ∃ total comps, beforeBackward pols loss = .ok (total, comps) ∧ total = loss + compSum comps := by
  suffices H : ∀ (acc : ℚ × List LossComp), acc.1 = loss + compSum acc.2 →
      ∃ total comps, pols.foldlM (fun (acc : ℚ × List LossComp) pol =>
        match pol acc.1 with
        | .nothing => .ok acc
        | .notPolicyLoss => .error .type
        | .loss o cs => do
          let l ← verifyComps cs
          return (o, acc.2 ++ l)) acc = (Except.ok (total, comps) : Except Err _) ∧
        total = loss + compSum comps from
    H (loss, []) (by simp [compSum])
  induction pols with
  | nil => intro acc h; exact ⟨acc.1, acc.2, rfl, h⟩
  | cons p pols ih =>
    intro acc h
    rw [List.foldlM_cons]
    rcases hadd p (by simp) acc.1 with hp | ⟨l, hp⟩
    · simp only [hp]
      exact ih (fun q hq => hadd q (List.mem_cons_of_mem _ hq)) acc h
    · simp only [hp, verify_list]
      refine ih (fun q hq => hadd q (List.mem_cons_of_mem _ hq)) (acc.1 + compSum l, acc.2 ++ l) ?_
      simp only [compSum, List.map_append, List.sum_append] at h ⊢
      rw [h, add_assoc]

/-- **C10** threading: each policy receives its predecessor's overall loss; components are
concatenated in order; a policy returning `None` is transparent. -/
theorem C10_threading (p : ℚ → PolicyRet) (pols : List (ℚ → PolicyRet)) (loss : ℚ) :
    (p loss = .nothing → beforeBackward (p :: pols) loss = beforeBackward pols loss) ∧
    (∀ o l total comps, p loss = .loss o (.list (l.map some)) →
      beforeBackward pols o = .ok (total, comps) →
      beforeBackward (p :: pols) loss = .ok (total, l ++ comps)) := by
  refine ⟨?_, ?_⟩
  · intro h
    unfold beforeBackward
    rw [List.foldlM_cons]
    simp only [h]
    rfl
  · intro o l total comps h hrest
    have gen : ∀ (pols : List (ℚ → PolicyRet)) (x : ℚ) (a b : List LossComp) (r : ℚ × List LossComp),
        pols.foldlM (fun (acc : ℚ × List LossComp) pol =>
          match pol acc.1 with
          | .nothing => .ok acc
          | .notPolicyLoss => .error .type
          | .loss o cs => do
            let l ← verifyComps cs
            return (o, acc.2 ++ l)) (x, b) = (Except.ok r : Except Err _) →
        pols.foldlM (fun (acc : ℚ × List LossComp) pol =>
          match pol acc.1 with
          | .nothing => .ok acc
          | .notPolicyLoss => .error .type
          | .loss o cs => do
            let l ← verifyComps cs
            return (o, acc.2 ++ l)) (x, a ++ b) = (Except.ok (r.1, a ++ r.2) : Except Err _) := by
      intro pols
      induction pols with
      | nil => intro x a b r h; injection h with h; subst h; rfl
      | cons q pols ih =>
        intro x a b r h
        rw [List.foldlM_cons] at h ⊢
        obtain ⟨s1, h1, h2⟩ := ok_bind h
        dsimp only at h1 ⊢
        split at h1
        · next hq =>
          injection h1 with h1; subst h1
          exact ih _ _ _ _ h2
        · cases h1
        · next o' cs hq =>
          obtain ⟨l', hl', h1⟩ := ok_bind h1
          injection h1 with h1; subst h1
          rw [hl']
          show List.foldlM _ (o', (a ++ b) ++ l') pols = _
          rw [List.append_assoc]
          exact ih _ _ _ _ h2
    unfold beforeBackward at hrest ⊢
    rw [List.foldlM_cons]
    simp only [h, verify_list]
    have := gen pols o l [] (total, comps) hrest
    rw [List.append_nil] at this
    exact this

/-- **C10** The regularization policy is additive and reports the sum of its terms. -/
theorem C10_regularization_additive (nm : String) (terms : List ℚ) : Additive (regBackward nm terms) := by
  intro x
  right
  refine ⟨[⟨nm ++ "_loss", terms.foldl (· + ·) 0⟩], ?_⟩
  simp [regBackward, compSum]

/-- **C10** no policies: the loss is returned unchanged, without components. -/
theorem C10_unscheduled (loss : ℚ) : beforeBackward [] loss = .ok (loss, []) := rfl

/-- **C10** a policy returning something that is not a `PolicyLoss` of `LossComponent`s raises
`TypeError`. -/
theorem C10_bad_return (p : ℚ → PolicyRet) (pols : List (ℚ → PolicyRet)) (loss : ℚ)
    (h : p loss = .notPolicyLoss ∨ ∃ o l, p loss = .loss o (.list l) ∧ none ∈ l) :
    beforeBackward (p :: pols) loss = .error .type := by
  unfold beforeBackward
  rw [List.foldlM_cons]
  rcases h with h | ⟨o, l, h, hl⟩
  · simp only [h]; rfl
  · simp only [h]
    have : ¬ (l.all Option.isSome = true) := by
      intro hall
      rw [List.all_eq_true] at hall
      have := hall none hl
      simp at this
    simp [verifyComps, this, bind, Except.bind]

example : beforeBackward [regBackward "L1" [1, 2], fun _ => .nothing, regBackward "Lasso" [10]] 100
    = .ok (113, [⟨"L1_loss", 3⟩, ⟨"Lasso_loss", 10⟩]) := by decide +kernel

/-! ## C11 -/

private theorem foldlM_clock {body : Store → Name → Except Err Store} (c : Nat)
    (hb : ∀ s n s', body s n = .ok s' → s'.clock = s.clock + c)
    {l : List Name} {s s' : Store} (h : l.foldlM body s = .ok s') :
    s'.clock = s.clock + c * l.length := by
  induction l generalizing s with
  | nil => simp [pure, Except.pure] at h; simp [h]
  | cons a l ih =>
    rw [List.foldlM_cons] at h
    obtain ⟨s1, h1, h2⟩ := ok_bind h
    rw [ih h2, hb s a s1 h1, List.length_cons]
    ring

private theorem setParamMask_clock {env : Env} {pol : Nat} {mt : Meta} {s s' : Store} {n : Name}
    {w : Tensor} (h : setParamMask env pol mt s n w = .ok s') : s'.clock = s.clock + 1 := by
  unfold setParamMask at h
  obtain ⟨m, hm, h⟩ := ok_bind h
  obtain ⟨k, hk, h⟩ := ok_bind h
  injection h with h; subst h; rfl

/-- **C11** (begin of a minibatch) In an epoch with one active pruning policy, the pruner is
invoked on every parameter at the begin of minibatch `mb` iff `mb > 0` and the global step is
a multiple of a non-zero `mini_batch_pruning_frequency`, or `skip_first_minibatch` is set and
this is global step 1; otherwise it is not invoked at all.  `clock` counts pruner calls. -/
theorem C11_minibatch_pruning_calls (env : Env) (st st' : State) (e : Int) (mb mpe p : Nat)
    (cfg : PruneCfg) (a b : Bool) (hact : st.sched.active e = [p]) (hp : st.pols p = .prune cfg a b)
    (h : onMbBegin env st e mb mpe = .ok st') :
    st'.store.clock = st.store.clock +
      (if (0 < mb ∧ cfg.mbFreq ≠ 0 ∧ (cfg.mbFreq : Int) ∣ e * mpe + mb) ∨
          (cfg.skipFirst = true ∧ e * mpe + mb = 1)
       then st.store.params.length else 0) := by
  unfold onMbBegin at h
  rw [hact, List.foldlM_cons] at h
  obtain ⟨st1, h1, h⟩ := ok_bind h
  simp [pure, Except.pure] at h; subst h
  unfold policyMbBegin at h1
  obtain ⟨⟨st2, mt⟩, ht, h1⟩ := ok_bind h1
  unfold touchMeta at ht
  obtain ⟨mm, _, ht⟩ := ok_bind ht
  injection ht with ht; injection ht with ht ht'; subst ht
  simp only [hp] at h1
  obtain ⟨s, hs, h1⟩ := ok_bind h1
  injection h1 with h1; subst h1
  have hdec : setMasksNow cfg e mb mpe = decide ((0 < mb ∧ cfg.mbFreq ≠ 0 ∧ (cfg.mbFreq : Int) ∣ e * mpe + mb) ∨
          (cfg.skipFirst = true ∧ e * mpe + mb = 1)) := by
    rw [Bool.eq_iff_iff]
    simp [setMasksNow, Int.dvd_iff_emod_eq_zero, and_assoc]
  have hbody : ∀ s n s', pruneMbBeginBody env p cfg (setMasksNow cfg e mb mpe) mt s n = .ok s' →
      s'.clock = s.clock + (if setMasksNow cfg e mb mpe then 1 else 0) := by
    intro s n s' hb
    unfold pruneMbBeginBody at hb
    obtain ⟨s1, hs1, hb⟩ := ok_bind hb
    obtain ⟨m, _, hb⟩ := ok_bind hb
    have hc : s'.clock = s1.clock := by
      split at hb
      · injection hb with hb; subst hb; rfl
      · injection hb with hb; subst hb; rfl
    rw [hc]
    cases hsm : setMasksNow cfg e mb mpe with
    | true => rw [hsm] at hs1; simp only [if_true] at hs1 ⊢; exact setParamMask_clock hs1
    | false => rw [hsm] at hs1; simp at hs1; simp [hs1]
  have := foldlM_clock _ hbody hs
  rw [this, hdec]
  simp only [List.length_map, decide_eq_true_eq]
  split <;> simp

/-- **C11** (begin of an epoch) The pruner is invoked on every parameter at the begin of every
active epoch, except at the policy's very first one if `skip_first_minibatch` is set. -/
theorem C11_epoch_pruning_calls (env : Env) (st st' : State) (e : Int) (p : Nat)
    (cfg : PruneCfg) (a isInit : Bool) (hact : st.sched.active e = [p])
    (hp : st.pols p = .prune cfg a isInit) (h : onEpochBegin env st e = .ok st') :
    st'.store.clock = st.store.clock +
      (if isInit = false ∧ cfg.skipFirst = true then 0 else st.store.params.length) := by
  unfold onEpochBegin at h
  rw [hact, List.foldlM_cons] at h
  obtain ⟨st1, h1, h⟩ := ok_bind h
  simp [pure, Except.pure] at h; subst h
  unfold policyEpochBegin at h1
  obtain ⟨⟨st2, mt⟩, ht, h1⟩ := ok_bind h1
  unfold touchMeta at ht
  obtain ⟨mm, _, ht⟩ := ok_bind ht
  injection ht with ht; injection ht with ht ht'; subst ht
  simp only [hp] at h1
  obtain ⟨s, hs, h1⟩ := ok_bind h1
  injection h1 with h1; subst h1
  have hbody : ∀ s n s', pruneEpochBeginBody env p cfg isInit mt s n = .ok s' →
      s'.clock = s.clock + (if isInit = false ∧ cfg.skipFirst = true then 0 else 1) := by
    intro s n s' hb
    unfold pruneEpochBeginBody at hb
    cases isInit with
    | true => simp only [if_true] at hb; simpa using setParamMask_clock hb
    | false =>
      simp only [Bool.false_eq_true, if_false] at hb
      obtain ⟨m, _, hb⟩ := ok_bind hb
      obtain ⟨m', _, hb⟩ := ok_bind hb
      cases hsk : cfg.skipFirst with
      | true => simp only [hsk, if_true] at hb; injection hb with hb; subst hb; simp [Store.setMasker]
      | false =>
        simp only [hsk, Bool.false_eq_true, if_false] at hb
        have := setParamMask_clock hb
        simpa [Store.setMasker] using this
  have := foldlM_clock _ hbody hs
  show s.clock = _
  rw [this]
  simp only [List.length_map]
  split <;> simp

example : (run exEnv (exState { mbFreq := 3 } { policy := 0, starting := some 0, ending := some 3 })
    [.epochBegin 1, .mbBegin 1 0 5, .mbBegin 1 1 5, .mbBegin 1 2 5, .mbBegin 1 3 5, .mbBegin 1 4 5]).map
      (·.store.clock) = .ok 3 := by decide +kernel

/-- **C11** `skip_first_minibatch` only "catches up" at global step 1: a policy that starts
in a later epoch of at least two minibatches never computes a mask in its first epoch
unless a minibatch frequency is configured. -/
theorem C11_skip_first_late_start (cfg : PruneCfg) (hs : cfg.skipFirst = true) (hf : cfg.mbFreq = 0)
    (e : Int) (he : 1 ≤ e) (mpe : Nat) (hm : 2 ≤ mpe) (mb : Nat) : setMasksNow cfg e mb mpe = false := by
  have h2 : (2 : Int) ≤ e * mpe := by
    have : (2 : Int) ≤ mpe := by omega
    nlinarith
  have : ¬ (e * (mpe : Int) + mb = 1) := by omega
  simp [setMasksNow, hs, hf, this]

end Verif
