import Verif.Model.Checkpoint
import Verif.Props.SchedulerState
/-!
# C44: checkpoints
-/
namespace Verif
open Dict

/-- The model and the checkpoint hold tensors of the same names and sizes. -/
def SameSizes (a b : Dict Name Tensor) : Prop :=
  ∀ n, (a.get? n).map List.length = (b.get? n).map List.length

theorem get?_copyInto (own state : Dict Name Tensor) (n : Name) :
    (copyInto own state).get? n = (own.get? n).map (fun w => match state.get? n with
      | some v => if v.length = w.length then v else w
      | none => w) := get?_mapVals _ own n

theorem get?_append' {β : Type} (a b : Dict Name β) (n : Name) : Dict.get? (a ++ b) n = (a.get? n).or (b.get? n) := by
  induction a with
  | nil => simp
  | cons x a ih =>
    obtain ⟨k, v⟩ := x
    simp only [List.cons_append, get?_cons]
    by_cases h : k = n <;> simp [h, ih]

/-- A successful load went through all stages. -/
theorem loadCkpt_ok {m m' : NetState} {c : Ckpt} {lean : Bool} {thin : Option StoredThin} {r : Loaded}
    (h : loadCkpt m c lean thin = (m', .ok r)) :
    ∃ sd m1 mk norm, c.stateDict = some sd ∧ loadSchedStage m c thin = .ok (m1, mk, norm) ∧
      sizeClash (m1.params ++ m1.buffers) (effState sd norm) = false ∧ missingKeys (m1.params ++ m1.buffers) (effState sd norm) = false ∧
      m' = { m1 with params := copyInto m1.params (effState sd norm), buffers := copyInto m1.buffers (effState sd norm) } ∧
      (lean = true → r = ⟨none, none, 0⟩) ∧
      (lean = false → r.sched = mk ∧ loadOpt m' c.opt = .ok r.opt ∧ archOk m' c = true ∧
        r.startEpoch = (match c.epoch with | some e => e + 1 | none => 0)) := by
  unfold loadCkpt at h
  cases hsd : c.stateDict with
  | none => simp [hsd] at h
  | some sd =>
    simp only [hsd] at h
    cases hst : loadSchedStage m c thin with
    | error e => simp [hst] at h
    | ok t =>
      obtain ⟨m1, mk, norm⟩ := t
      simp only [hst] at h
      split at h
      · simp at h
      · rename_i h1
        split at h
        · simp at h
        · rename_i h2
          split at h
          · rename_i hl
            simp only [Prod.mk.injEq, Except.ok.injEq] at h
            obtain ⟨rfl, rfl⟩ := h
            exact ⟨sd, m1, mk, norm, rfl, rfl, by simpa using h1, by simpa using h2, rfl, fun _ => rfl, fun h => by simp [hl] at h⟩
          · rename_i hl
            split at h
            · simp at h
            · rename_i o ho
              split at h
              · rename_i ha
                simp only [Prod.mk.injEq, Except.ok.injEq] at h
                obtain ⟨rfl, rfl⟩ := h
                exact ⟨sd, m1, mk, norm, rfl, rfl, by simpa using h1, by simpa using h2, rfl, fun h => by simp [h] at hl, fun _ => ⟨rfl, ho, ha, rfl⟩⟩
              · simp at h

/-- C44: every successful full load returns the epoch after the saved one, or 0 if the checkpoint
has no epoch; a lean load returns no scheduler, no optimizer and epoch 0. -/
theorem C44_start_epoch (m m' : NetState) (c : Ckpt) (lean : Bool) (thin : Option StoredThin) (r : Loaded)
    (h : loadCkpt m c lean thin = (m', .ok r)) :
    (lean = false → ∀ e, c.epoch = some e → r.startEpoch = e + 1) ∧
    (lean = false → c.epoch = none → r.startEpoch = 0) ∧
    (lean = true → r = ⟨none, none, 0⟩) := by
  obtain ⟨sd, m1, mk, norm, _, _, _, _, _, h1, h2⟩ := loadCkpt_ok h
  refine ⟨fun hl e he => ?_, fun hl he => ?_, h1⟩
  · have := (h2 hl).2.2.2; rw [he] at this; exact this
  · have := (h2 hl).2.2.2; rw [he] at this; exact this

/-- C44: after any successful load without recipes and without renaming, every parameter and buffer
of the model holds the checkpoint's value, and no entry of the model is added or removed. -/
theorem C44_weights (m m' : NetState) (c : Ckpt) (lean : Bool) (r : Loaded) (sd : Dict Name Tensor)
    (hsd : c.stateDict = some sd) (hn : c.sched = none) (h : loadCkpt m c lean none = (m', .ok r)) :
    (∀ n, n ∈ m.params.map Prod.fst → m'.params.get? n = sd.get? n) ∧
    (∀ n, n ∈ m.buffers.map Prod.fst → m'.buffers.get? n = sd.get? n) ∧
    m'.params.map Prod.fst = m.params.map Prod.fst ∧ m'.buffers.map Prod.fst = m.buffers.map Prod.fst := by
  obtain ⟨sd', m1, mk, norm, k1, k2, k3, k4, k5, _, _⟩ := loadCkpt_ok h
  rw [hsd] at k1; cases k1
  simp [loadSchedStage, hn] at k2
  obtain ⟨rfl, _, rfl⟩ := k2
  simp only [effState] at k3 k4 k5
  have key : ∀ own : Dict Name Tensor, (∀ kv ∈ own, kv ∈ m.params ++ m.buffers) → ∀ n, n ∈ own.map Prod.fst →
      (copyInto own sd).get? n = sd.get? n := by
    intro own hsub n hmem
    obtain ⟨w, hw⟩ := Option.isSome_iff_exists.1 ((get?_isSome_iff own n).2 hmem)
    have hin := hsub _ (mem_of_get? hw)
    rw [get?_copyInto, hw]
    have a1 : ¬ (sizeClash (m.params ++ m.buffers) sd = true) := by simpa using k3
    have a2 : ¬ (missingKeys (m.params ++ m.buffers) sd = true) := by simpa using k4
    unfold sizeClash at a1; unfold missingKeys at a2
    rw [List.any_eq_true] at a1 a2
    cases hs : sd.get? n with
    | none => exact absurd ⟨(n, w), hin, by simp [Dict.has, hs]⟩ a2
    | some v =>
      have : v.length = w.length := by
        by_contra hne
        exact a1 ⟨(n, w), hin, by simp [hs, hne]⟩
      simp [this]
  subst k5
  refine ⟨key m.params (fun kv h => List.mem_append_left _ h), key m.buffers (fun kv h => List.mem_append_right _ h), ?_, ?_⟩
  · simp [copyInto, mapVals, Function.comp_def]
  · simp [copyInto, mapVals, Function.comp_def]

/-- C44: a checkpoint that lacks an entry of the model, or has it in another size, is refused. -/
theorem C44_incomplete_refused (m : NetState) (c : Ckpt) (lean : Bool) (sd : Dict Name Tensor)
    (hsd : c.stateDict = some sd) (hn : c.sched = none) (n : Name) (w : Tensor) (hm : (n, w) ∈ m.params ++ m.buffers)
    (hbad : ∀ v, sd.get? n = some v → v.length ≠ w.length) :
    ∃ e, (loadCkpt m c lean none).2 = .error e ∧ (e = .value ∨ e = .runtime) := by
  unfold loadCkpt
  simp only [hsd, loadSchedStage, hn, effState]
  by_cases h1 : sizeClash (m.params ++ m.buffers) sd = true
  · simp [h1]
  · have : missingKeys (m.params ++ m.buffers) sd = true := by
      unfold missingKeys
      rw [List.any_eq_true]
      refine ⟨(n, w), hm, ?_⟩
      cases hs : sd.get? n with
      | none => simp [Dict.has, hs]
      | some v =>
        exfalso; apply h1
        unfold sizeClash
        rw [List.any_eq_true]
        exact ⟨(n, w), hm, by simp [hs, hbad v hs]⟩
    rw [Bool.not_eq_true] at h1
    simp [this, h1]

example : (loadCkpt { params := [(["fc", "w"], [0, 0])] } { stateDict := some [(["fc", "w"], [1])] } true).2 = .error .runtime ∧
  (loadCkpt { params := [(["fc", "w"], [0, 0])] } { stateDict := some [(["fx", "w"], [1])] } true).2 = .error .value := by decide +kernel

theorem createMasks_keys (p : Dict Name Tensor) : (createModelMasksDict p).map Prod.fst = p.map Prod.fst := by
  simp [createModelMasksDict, Function.comp_def]

theorem createMasks_get (p : Dict Name Tensor) (n : Name) (h : n ∈ p.map Prod.fst) :
    (createModelMasksDict p).get? n = some {} := by
  have := get?_mapVals (fun (_ : Name) (_ : Tensor) => ({} : Masker)) p n
  unfold createModelMasksDict
  unfold mapVals at this
  rw [this]
  obtain ⟨w, hw⟩ := Option.isSome_iff_exists.1 ((get?_isSome_iff p n).2 h)
  simp [hw]

/-- C44: saving after epoch `e` and loading into any model of the same architecture restores the
weights, buffers, optimizer state and masks, and resumes at epoch `e+1`. -/
theorem C44_round_trip (e : Int) (arch : String) (harch : arch ≠ "") (m m0 : NetState) (opt : OptState) (mk : Dict Name Masker)
    (hm : (m.params ++ m.buffers).Nodup)
    (hp : m0.params.map Prod.fst = m.params.map Prod.fst) (hb : m0.buffers.map Prod.fst = m.buffers.map Prod.fst)
    (hps : SameSizes m0.params m.params) (hbs : SameSizes m0.buffers m.buffers)
    (hopt : opt.nparams = m.params.length) (hmk : mk.map Prod.fst = m.params.map Prod.fst)
    (ha : m0.arch = none ∨ m0.arch = some arch) :
    ∃ m' mk', loadCkpt m0 (saveCkpt e arch m (some opt) (some mk)) false none = (m', .ok ⟨some mk', some opt, e + 1⟩) ∧
      (∀ n, m'.params.get? n = m.params.get? n) ∧ (∀ n, m'.buffers.get? n = m.buffers.get? n) ∧
      mk'.map Prod.fst = m0.params.map Prod.fst ∧
      (∀ n k, mk.get? n = some k → mk'.get? n = some { mask := k.mask }) ∧ m'.params.map Prod.fst = m0.params.map Prod.fst := by
  have hkeys : ∀ n ∈ (createModelMasksDict m0.params).map Prod.fst, n ∈ mk.map Prod.fst := by
    intro n hn; rw [createMasks_keys, hp] at hn; rw [hmk]; exact hn
  obtain ⟨r1, r2⟩ := C07_masks_round_trip mk (createModelMasksDict m0.params) hkeys
  have hload : loadSched m0.params (some (stateDict mk)) =
      .ok ((loadStateDict (createModelMasksDict m0.params) (some (stateDict mk))).1, false) := by
    unfold loadSched
    simp only [r1]
  -- the two halves of the state dictionary
  have hgp : ∀ n w, m.params.get? n = some w → Dict.get? (m.params ++ m.buffers) n = some w := by
    intro n w h; rw [get?_append', h]; rfl
  have hgb : ∀ n w, m.buffers.get? n = some w → Dict.get? (m.params ++ m.buffers) n = some w := by
    intro n w h; exact get?_of_mem hm (List.mem_append_right _ (mem_of_get? h))
  have hclash : ∀ n w, Dict.get? m0.params n = some w ∨ Dict.get? m0.buffers n = some w →
      ∃ v, Dict.get? (m.params ++ m.buffers) n = some v ∧ v.length = w.length := by
    intro n w h
    rcases h with h | h
    · have := hps n; rw [h] at this
      cases hx : m.params.get? n with
      | none => simp [hx] at this
      | some v => simp [hx] at this; exact ⟨v, hgp n v hx, this.symm⟩
    · have := hbs n; rw [h] at this
      cases hx : m.buffers.get? n with
      | none => simp [hx] at this
      | some v => simp [hx] at this; exact ⟨v, hgb n v hx, this.symm⟩
  have hm0 : (m0.params ++ m0.buffers).Nodup := by
    unfold Dict.Nodup at hm ⊢
    rw [List.map_append, hp, hb, ← List.map_append]; exact hm
  have hmem0 : ∀ kv ∈ m0.params ++ m0.buffers, Dict.get? m0.params kv.1 = some kv.2 ∨ Dict.get? m0.buffers kv.1 = some kv.2 := by
    intro kv hkv
    have := get?_of_mem hm0 (show (kv.1, kv.2) ∈ _ from hkv)
    rw [get?_append'] at this
    cases hx : m0.params.get? kv.1 with
    | some v => rw [hx] at this; simp at this; left; rw [this]
    | none => rw [hx] at this; right; simpa using this
  have c1 : sizeClash (m0.params ++ m0.buffers) (m.params ++ m.buffers) = false := by
    unfold sizeClash
    rw [List.any_eq_false]
    intro kv hkv
    obtain ⟨v, hv1, hv2⟩ := hclash kv.1 kv.2 (hmem0 kv hkv)
    simp [hv1, hv2]
  have c2 : missingKeys (m0.params ++ m0.buffers) (m.params ++ m.buffers) = false := by
    unfold missingKeys
    rw [List.any_eq_false]
    intro kv hkv
    obtain ⟨v, hv1, hv2⟩ := hclash kv.1 kv.2 (hmem0 kv hkv)
    simp [Dict.has, hv1]
  refine ⟨{ m0 with params := copyInto m0.params (m.params ++ m.buffers), buffers := copyInto m0.buffers (m.params ++ m.buffers) },
    (loadStateDict (createModelMasksDict m0.params) (some (stateDict mk))).1, ?_, ?_, ?_, ?_, ?_, ?_⟩
  · unfold loadCkpt
    simp only [saveCkpt, Option.map_some, loadSchedStage, hload, Except.map, effState, Bool.false_eq_true, if_false, c1, c2, loadOpt]
    have hlen : opt.nparams = (copyInto m0.params (m.params ++ m.buffers)).length := by
      rw [hopt]
      have := congrArg List.length hp
      simp at this
      simp [copyInto, mapVals, this]
    rw [if_pos hlen]
    simp only [archOk, harch, if_false]
    rcases ha with ha | ha <;> simp [ha]
  · intro n
    simp only [get?_copyInto]
    have := hps n
    cases hx : m0.params.get? n with
    | none => rw [hx] at this; cases hy : m.params.get? n with
      | none => rfl
      | some v => rw [hy] at this; simp at this
    | some w => rw [hx] at this; cases hy : m.params.get? n with
      | none => rw [hy] at this; simp at this
      | some v =>
        rw [hy] at this; simp at this
        simp [hgp n v hy, this]
  · intro n
    simp only [get?_copyInto]
    have := hbs n
    cases hx : m0.buffers.get? n with
    | none => rw [hx] at this; cases hy : m.buffers.get? n with
      | none => rfl
      | some v => rw [hy] at this; simp at this
    | some w => rw [hx] at this; cases hy : m.buffers.get? n with
      | none => rw [hy] at this; simp at this
      | some v =>
        rw [hy] at this; simp at this
        simp [hgb n v hy, this]
  · have hk : ∀ n ∈ (createModelMasksDict m0.params).map Prod.fst, n ∈ (stateDict mk).map Prod.fst := by
      intro n hn; have := hkeys n hn; simpa [stateDict] using this
    show (loadLoop (stateDict mk) (createModelMasksDict m0.params)).1.map Prod.fst = _
    rw [(loadLoop_ok hk).2, ← createMasks_keys]
    simp [Function.comp_def]
  · intro n k hk
    have hn : n ∈ m0.params.map Prod.fst := by
      rw [hp, ← hmk, ← get?_isSome_iff, hk]; rfl
    have := r2 n
    rw [hk, createMasks_get _ _ hn] at this
    exact this
  · simp [copyInto, mapVals, Function.comp_def]

example : ∃ m' mk', loadCkpt { params := [(["fc", "w"], [0, 0])], buffers := [(["bn", "mean"], [0])] }
    (saveCkpt 7 "net" { params := [(["fc", "w"], [0, 5])], buffers := [(["bn", "mean"], [3])] } (some ⟨"SGD", 1, 42⟩)
      (some [(["fc", "w"], { mask := some [0, 1] })])) false = (m', .ok ⟨some mk', some ⟨"SGD", 1, 42⟩, 8⟩) ∧
    m'.params = [(["fc", "w"], [0, 5])] ∧ mk' = [(["fc", "w"], { mask := some [0, 1] })] :=
  ⟨{ params := [(["fc", "w"], [0, 5])], buffers := [(["bn", "mean"], [3])] }, [(["fc", "w"], { mask := some [0, 1] })],
   by decide +kernel, rfl, rfl⟩

/-- What `save_checkpoint` writes at epoch `e` for the model wrapped in `DataParallel`, whose
parameters (and masks) are those of the plain model with `module` in front of the name. -/
def dpCkpt (e : Int) (m : NetState) (mk : Dict Name Masker) : Ckpt :=
  { stateDict := some (m.params.map (fun p => ("module" :: p.1, p.2)))
    epoch := some e
    sched := some (some (Verif.stateDict (mk.map fun p => ("module" :: p.1, p.2)))) }

/-- C44: a checkpoint of a `DataParallel` model loads into the plain model when it holds a
compression schedule for at least one parameter: the names are normalized after the first attempt
fails. -/
theorem C44_dataparallel (e : Int) (m m0 : NetState) (mk : Dict Name Masker)
    (hm : m.params.Nodup) (hbuf : m.buffers = [] ∧ m0.buffers = []) (hne : m.params ≠ [])
    (hp : m0.params.map Prod.fst = m.params.map Prod.fst) (hps : SameSizes m0.params m.params)
    (hplain : ∀ n ∈ m.params.map Prod.fst, "module" ∉ n) (hmk : mk.map Prod.fst = m.params.map Prod.fst)
    (hmkn : mk.Nodup) (ha : m0.arch = none) :
    ∃ m' mk', loadCkpt m0 (dpCkpt e m mk) false none
      = (m', .ok ⟨some mk', none, e + 1⟩) ∧
      (∀ n, m'.params.get? n = m.params.get? n) ∧
      (∀ n k, mk.get? n = some k → ∃ k', mk'.get? n = some k' ∧ k'.mask = k.mask) := by
  -- first attempt fails: the first parameter is missing
  have hfail : (loadStateDict (createModelMasksDict m0.params) (some (stateDict (mk.map fun p => ("module" :: p.1, p.2))))).2
      = .error .key := by
    rw [C08_load_fails_iff]
    right
    refine ⟨_, rfl, ?_⟩
    obtain ⟨kv, hkv⟩ := List.exists_mem_of_ne_nil _ hne
    have hmem : kv.1 ∈ m.params.map Prod.fst := List.mem_map.2 ⟨kv, hkv, rfl⟩
    refine ⟨kv.1, by rw [createMasks_keys, hp]; exact hmem, ?_⟩
    intro hin
    simp only [stateDict, List.map_map, List.mem_map, Function.comp_def] at hin
    obtain ⟨q, _, hq⟩ := hin
    have := hplain kv.1 hmem
    rw [← hq] at this
    simp at this
  -- the first attempt changed no name
  have hkeep : ∀ (loaded : MasksDict) (k : Dict Name Masker), (loadLoop loaded k).1.map Prod.fst = k.map Prod.fst := by
    intro loaded k
    induction k with
    | nil => rfl
    | cons x k ih =>
      obtain ⟨a, b⟩ := x
      unfold loadLoop
      cases loaded.get? a with
      | none => rfl
      | some v => simp [ih]
  generalize hmk1 : (loadStateDict (createModelMasksDict m0.params) (some (stateDict (mk.map fun p => ("module" :: p.1, p.2))))).1 = mk1
  have hk1 : mk1.map Prod.fst = mk.map Prod.fst := by
    rw [← hmk1]
    show (loadLoop _ _).1.map Prod.fst = _
    rw [hkeep, createMasks_keys, hp, hmk]
  obtain ⟨s1, s2⟩ := C09_dataparallel_masks_load mk mk1 hmkn (by rw [hk1]; exact fun _ h => h)
  have hload : loadSched m0.params (some (stateDict (mk.map fun p => ("module" :: p.1, p.2)))) =
      .ok ((loadStateDict mk1 (some (stateDict (mk.map fun p => ("module" :: p.1, p.2)))) true).1, true) := by
    unfold loadSched
    simp only [hfail, hmk1]
    simp only [s1]
  -- the renamed state dictionary
  generalize hsd : Dict.mapKeys normalizeName (m.params.map (fun p => ("module" :: p.1, p.2))) = sd
  have hwn : Dict.Nodup (m.params.map (fun p => ("module" :: p.1, p.2))) := by
    unfold Dict.Nodup
    have : (m.params.map (fun p => ("module" :: p.1, p.2))).map Prod.fst = (m.params.map Prod.fst).map (fun n => "module" :: n) := by
      simp
    rw [this]
    exact List.Nodup.map (fun a b h => by simpa using h) hm
  have hget : ∀ n w, m.params.get? n = some w → sd.get? n = some w := by
    intro n w h
    rw [← hsd]
    have := get?_mapKeys_of_inj normalizeName (m.params.map (fun p => ("module" :: p.1, p.2))) hwn (by
      intro a ha b hb hab
      simp only [List.map_map, List.mem_map, Function.comp_def] at ha hb
      obtain ⟨x, _, rfl⟩ := ha
      obtain ⟨y, _, rfl⟩ := hb
      simpa [normalizeName] using hab) (k := "module" :: n) (v := w) (by
      apply get?_of_mem hwn
      exact List.mem_map.2 ⟨(n, w), mem_of_get? h, rfl⟩)
    simpa [normalizeName] using this
  have hclash : ∀ kv ∈ m0.params, ∃ v, sd.get? kv.1 = some v ∧ v.length = kv.2.length := by
    intro kv hkv
    have h0 : m0.params.Nodup := by unfold Dict.Nodup; rw [hp]; exact hm
    have := hps kv.1
    rw [get?_of_mem h0 (show (kv.1, kv.2) ∈ _ from hkv)] at this
    cases hx : m.params.get? kv.1 with
    | none => simp [hx] at this
    | some v => simp [hx] at this; exact ⟨v, hget _ v hx, this.symm⟩
  have c1 : sizeClash (m0.params ++ m0.buffers) sd = false := by
    rw [hbuf.2, List.append_nil]
    unfold sizeClash
    rw [List.any_eq_false]
    intro kv hkv
    obtain ⟨v, hv1, hv2⟩ := hclash kv hkv
    simp [hv1, hv2]
  have c2 : missingKeys (m0.params ++ m0.buffers) sd = false := by
    rw [hbuf.2, List.append_nil]
    unfold missingKeys
    rw [List.any_eq_false]
    intro kv hkv
    obtain ⟨v, hv1, hv2⟩ := hclash kv hkv
    simp [Dict.has, hv1]
  refine ⟨{ m0 with params := copyInto m0.params sd, buffers := copyInto m0.buffers sd },
    (loadStateDict mk1 (some (stateDict (mk.map fun p => ("module" :: p.1, p.2)))) true).1, ?_, ?_, ?_⟩
  · unfold loadCkpt
    simp only [dpCkpt, loadSchedStage, hload, Except.map, effState, if_true, hsd, c1, c2, Bool.false_eq_true, if_false, loadOpt, archOk, ha]
  · intro n
    simp only [get?_copyInto]
    have := hps n
    cases hx : m0.params.get? n with
    | none => rw [hx] at this; cases hy : m.params.get? n with
      | none => rfl
      | some v => rw [hy] at this; simp at this
    | some w => rw [hx] at this; cases hy : m.params.get? n with
      | none => rw [hy] at this; simp at this
      | some v =>
        rw [hy] at this; simp at this
        simp [hget n v hy, this]
  · intro n k hk
    have hn : n ∈ mk1.map Prod.fst := by rw [hk1, ← get?_isSome_iff, hk]; rfl
    obtain ⟨k2, hk2⟩ := Option.isSome_iff_exists.1 ((get?_isSome_iff mk1 n).2 hn)
    exact ⟨_, s2 n k k2 hk hk2, rfl⟩

example : ∃ m', loadCkpt { params := [(["fc", "w"], [0, 0])] } (dpCkpt 3 { params := [(["fc", "w"], [0, 2])] }
    [(["fc", "w"], { mask := some [0, 1] })]) false = (m', .ok ⟨some [(["fc", "w"], { mask := some [0, 1] })], none, 4⟩) ∧
    m'.params = [(["fc", "w"], [0, 2])] := ⟨{ params := [(["fc", "w"], [0, 2])] }, by decide +kernel, rfl⟩

/-- C44 is violated: without a compression schedule in it, the same `DataParallel` checkpoint is
refused, because the names are only normalized when loading the masks failed. -/
theorem C44_violated_dataparallel_no_schedule : ∃ (m0 : NetState) (c : Ckpt) (w : Tensor),
    m0.params = [(["fc", "w"], [0, 0])] ∧ c.stateDict = some [(["module", "fc", "w"], w)] ∧
    (loadCkpt m0 c false).2 = .error .value ∧
    (loadCkpt m0 { c with sched := some (some [(["module", "fc", "w"], none)]) } false).1.params = [(["fc", "w"], w)] :=
  ⟨{ params := [(["fc", "w"], [0, 0])] }, { stateDict := some [(["module", "fc", "w"], [1, 2])], epoch := some 3 }, [1, 2],
    rfl, rfl, by decide +kernel, by decide +kernel⟩

/-- C44 is violated: a lean load, which should read the weights only, fails when the scheduler state
in the checkpoint does not fit the model. -/
theorem C44_violated_lean_reads_schedule : ∃ (m0 : NetState) (c : Ckpt),
    (loadCkpt m0 { c with sched := none } true).2 = .ok ⟨none, none, 0⟩ ∧ (loadCkpt m0 c true).2 = .error .key :=
  ⟨{ params := [(["fc", "w"], [0, 0])] }, { stateDict := some [(["fc", "w"], [1, 2])], sched := some (some []) },
    by decide +kernel, by decide +kernel⟩

/-- **C44** (architecture) A full load succeeds only if the model's architecture name and the checkpoint's are equal, whenever
both are known (and the load did not go through a lean reading). -/
theorem C44_architecture {m m' : NetState} {c : Ckpt} {thin : Option StoredThin} {r : Loaded}
    (h : loadCkpt m c false thin = (m', .ok r)) (a b : String) (ha : m'.arch = some a) (hb : c.arch = some b) : a = b := by
  obtain ⟨sd, m1, mk, norm, -, -, -, -, -, -, h7⟩ := loadCkpt_ok h
  have := (h7 rfl).2.2.1
  unfold archOk at this
  rw [ha, hb] at this
  simpa using this

/-- **C44** (thinned networks) When a checkpoint with stored thinning recipes is loaded, the recipes are applied to the
model and to the masks first; the model afterwards has exactly the layers of the thinned model (its names and sizes), and
every parameter and buffer holds the checkpoint's value under its name; the masks returned are those left by the recipes. -/
theorem C44_thinned {m m' : NetState} {c : Ckpt} {lean : Bool} {t : StoredThin} {r : Loaded}
    (h : loadCkpt m c lean (some t) = (m', .ok r)) :
    ∃ sd m1 mk mk1 norm, c.stateDict = some sd ∧ t norm m mk = .ok (m1, mk1) ∧
      (c.sched = none → norm = false ∧ mk = createModelMasksDict m.params) ∧
      m'.params.map Prod.fst = m1.params.map Prod.fst ∧ m'.buffers.map Prod.fst = m1.buffers.map Prod.fst ∧
      (norm = false → (∀ n, n ∈ m1.params.map Prod.fst → m'.params.get? n = sd.get? n) ∧
        (∀ n, n ∈ m1.buffers.map Prod.fst → m'.buffers.get? n = sd.get? n)) ∧
      (lean = false → r.sched = some mk1) := by
  obtain ⟨sd, m1, mk, norm, k1, k2, k3, k4, k5, _, k7⟩ := loadCkpt_ok h
  have key : ∃ mk0 mk1, t norm m mk0 = .ok (m1, mk1) ∧ mk = some mk1 ∧
      (c.sched = none → norm = false ∧ mk0 = createModelMasksDict m.params) := by
    unfold loadSchedStage at k2
    dsimp only at k2
    split at k2
    · cases k2
    · rename_i mk0 norm0 hs
      cases ht : t norm0 m (mk0.getD (createModelMasksDict m.params)) with
      | error e => rw [ht] at k2; cases k2
      | ok q =>
        obtain ⟨q1, q2⟩ := q
        rw [ht] at k2
        simp only [Except.map, Except.ok.injEq, Prod.mk.injEq] at k2
        obtain ⟨rfl, rfl, rfl⟩ := k2
        refine ⟨_, q2, ht, rfl, fun hn => ?_⟩
        rw [hn] at hs
        simp only [Except.ok.injEq, Prod.mk.injEq] at hs
        obtain ⟨rfl, rfl⟩ := hs
        exact ⟨rfl, rfl⟩
  obtain ⟨mk0, mk1, ht, hmk, hno⟩ := key
  subst k5
  refine ⟨sd, m1, mk0, mk1, norm, k1, ht, hno, ?_, ?_, ?_, fun hl => by rw [(k7 hl).1, hmk]⟩
  · simp [copyInto, mapVals, Function.comp_def]
  · simp [copyInto, mapVals, Function.comp_def]
  · rintro rfl
    simp only [effState] at k3 k4 ⊢
    have key : ∀ own : Dict Name Tensor, (∀ kv ∈ own, kv ∈ m1.params ++ m1.buffers) → ∀ n, n ∈ own.map Prod.fst →
        (copyInto own sd).get? n = sd.get? n := by
      intro own hsub n hmem
      obtain ⟨w, hw⟩ := Option.isSome_iff_exists.1 ((get?_isSome_iff own n).2 hmem)
      have hin := hsub _ (mem_of_get? hw)
      rw [get?_copyInto, hw]
      have a1 : ¬ (sizeClash (m1.params ++ m1.buffers) sd = true) := by simpa using k3
      have a2 : ¬ (missingKeys (m1.params ++ m1.buffers) sd = true) := by simpa using k4
      unfold sizeClash at a1; unfold missingKeys at a2
      rw [List.any_eq_true] at a1 a2
      cases hs : sd.get? n with
      | none => exact absurd ⟨(n, w), hin, by simp [Dict.has, hs]⟩ a2
      | some v =>
        have : v.length = w.length := by
          by_contra hne
          exact a1 ⟨(n, w), hin, by simp [hs, hne]⟩
        simp [this]
    exact ⟨key m1.params (fun kv h => List.mem_append_left _ h), key m1.buffers (fun kv h => List.mem_append_right _ h)⟩

/-- A recipe that leaves one of two weights of `fc`. -/
def exThin : StoredThin := fun _ m mk => .ok ({ m with params := m.params.map fun kv => (kv.1, kv.2.take 1) }, mk)

example : ∃ m' r, loadCkpt { params := [(["fc", "w"], [0, 0])] } { stateDict := some [(["fc", "w"], [7])], epoch := some 2 } false
    (some exThin) = (m', .ok r) ∧ m'.params = [(["fc", "w"], [7])] ∧ r.startEpoch = 3 :=
  ⟨_, _, rfl, by decide +kernel, by decide +kernel⟩

/-- C44 is violated: the architecture check comes after the weights were overwritten. -/
theorem C44_violated_late_check : ∃ (m0 : NetState) (c : Ckpt),
    m0.arch = some "a" ∧ c.arch = some "b" ∧ (loadCkpt m0 c false).2 = .error .value ∧
    (loadCkpt m0 c false).1.params ≠ m0.params :=
  ⟨{ params := [(["fc", "w"], [0, 0])], arch := some "a" }, { stateDict := some [(["fc", "w"], [1, 2])], arch := some "b" },
    rfl, rfl, by decide +kernel, by decide +kernel⟩

end Verif
