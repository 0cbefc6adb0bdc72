import Verif.Lemmas.Fold
import Verif.Model.Scheduler
import Mathlib.Tactic.Tauto
/-! Helper lemmas for the masking invariants. -/
namespace Verif
open Dict

@[simp] theorem Store.param_setMasker (s : Store) (n n' : Name) (m : Masker) :
    (s.setMasker n m).param n' = s.param n' := rfl
@[simp] theorem Store.params_setMasker (s : Store) (n : Name) (m : Masker) :
    (s.setMasker n m).params = s.params := rfl
@[simp] theorem Store.maskers_setParam (s : Store) (n : Name) (w : Tensor) :
    (s.setParam n w).maskers = s.maskers := rfl
@[simp] theorem Store.maskers_setMasker (s : Store) (n : Name) (m : Masker) :
    (s.setMasker n m).maskers = s.maskers.set n m := rfl
@[simp] theorem Store.params_setParam (s : Store) (n : Name) (w : Tensor) :
    (s.setParam n w).params = s.params.set n w := rfl

theorem getE_ok {α β : Type} [DecidableEq α] {d : Dict α β} {k : α} {v : β}
    (h : d.getE k = .ok v) : d.get? k = some v := by
  unfold getE at h
  cases hg : d.get? k <;> simp [hg] at h; simp [h]

theorem Store.param_of_get? {s : Store} {n : Name} {w : Tensor} (h : s.params.get? n = some w) :
    s.param n = w := by simp [Store.param, h]

/-- The masker governing parameter `n` outside the forward pass: its own masker
unless that one is forward-only, or the masker of the parameter it was renamed from
by a quantizer. -/
def Store.governing (s : Store) (n : Name) : Option Masker :=
  match s.maskers.get? n with
  | some m => if m.fwdOnly then none else some m
  | none =>
    match fallbackName n with
    | .ok (some n') => s.maskers.get? n'
    | _ => none

/-- Parameter `n` is zero wherever its governing mask is zero. -/
def Masked (s : Store) (n : Name) : Prop :=
  ∀ w m k, s.params.get? n = some w → s.governing n = some m → m.mask = some k → ZeroWhere k w

theorem zeroWhere_maskTensor {m : Masker} {k : Tensor} (h : m.mask = some k) (w : Tensor) :
    ZeroWhere k (m.maskTensor w) := by
  simp only [Masker.maskTensor, h]; exact zeroWhere_tmul k w

theorem applyMask_mask {m : Masker} {w : Tensor} {k : Tensor}
    (h : (m.applyMask w).1.mask = some k) : m.mask = some k ∧ m.isReg = false := by
  unfold Masker.applyMask at h
  cases hm : m.mask with
  | none => simp [hm] at h
  | some k' =>
    simp only [hm] at h
    cases hd : m.dbl <;> cases hr : m.isReg <;> simp [hd, hr, hm] at h
    · exact ⟨by rw [h], rfl⟩
    · exact ⟨by rw [h], rfl⟩

theorem applyMask_snd (m : Masker) (w : Tensor) : (m.applyMask w).2 = m.maskTensor w := by
  unfold Masker.applyMask Masker.maskTensor
  cases hm : m.mask with
  | none => rfl
  | some k => cases hd : m.dbl <;> simp [hm]

theorem applyMask_fwdOnly (m : Masker) (w : Tensor) : (m.applyMask w).1.fwdOnly = m.fwdOnly := by
  unfold Masker.applyMask
  cases hm : m.mask with
  | none => rfl
  | some k => cases hd : m.dbl <;> cases hr : m.isReg <;> simp [hr]

theorem applyMask_isReg (m : Masker) (w : Tensor) : (m.applyMask w).1.isReg = m.isReg := by
  unfold Masker.applyMask
  cases hm : m.mask with
  | none => rfl
  | some k => cases hd : m.dbl <;> cases hr : m.isReg <;> simp [hr]

theorem applyMask_dbl (m : Masker) (w : Tensor) : (m.applyMask w).1.dbl = m.dbl := by
  unfold Masker.applyMask
  cases hm : m.mask with
  | none => rfl
  | some k => cases hd : m.dbl <;> cases hr : m.isReg <;> simp [hd, hr]

/-- Keys of the parameter dictionary. -/
abbrev Store.names (s : Store) : List Name := s.params.map Prod.fst

theorem names_setParam_mem {s : Store} {n : Name} (w : Tensor) (h : n ∈ s.names) :
    (s.setParam n w).names = s.names := keys_set_of_mem _ _ _ h

/-! ### `mask_all_weights` -/

theorem maskAllBody_spec {isF : Bool} {s s' : Store} {n : Name}
    (h : maskAllBody isF s n = .ok s') :
    (∃ m, s.maskers.get? n = some m ∧ (isF = false → m.fwdOnly = true) ∧ m.fwdOnly = !isF ∧ s' = s) ∨
    (∃ m, s.maskers.get? n = some m ∧ (isF || !m.fwdOnly) = true ∧
        s' = s.setParam n (m.maskTensor (s.param n))) ∨
    (s.maskers.get? n = none ∧ fallbackName n = .ok none ∧ s' = s) ∨
    (∃ n' m, s.maskers.get? n = none ∧ fallbackName n = .ok (some n') ∧ s.maskers.get? n' = some m ∧
        s' = (s.setMasker n' (m.applyMask (s.param n)).1).setParam n (m.maskTensor (s.param n))) := by
  unfold maskAllBody at h
  cases hm : s.maskers.get? n with
  | some m =>
    simp only [hm] at h
    cases hf : (isF || !m.fwdOnly) with
    | true =>
      simp only [hf, if_true] at h
      right; left
      exact ⟨m, rfl, hf, by injection h with h; exact h.symm⟩
    | false =>
      simp only [hf] at h
      left
      simp only [Bool.or_eq_false_iff, Bool.not_eq_false'] at hf
      refine ⟨m, rfl, fun _ => hf.2, by simp [hf], ?_⟩
      simp at h; exact h.symm
  | none =>
    simp only [hm] at h
    obtain ⟨o, ho, h⟩ := ok_bind h
    cases o with
    | none =>
      right; right; left
      exact ⟨rfl, ho, by injection h with h; exact h.symm⟩
    | some n' =>
      obtain ⟨m, hm', h⟩ := ok_bind h
      right; right; right
      refine ⟨n', m, rfl, ho, getE_ok hm', ?_⟩
      injection h with h
      rw [← h, applyMask_snd]

theorem maskAllBody_masked {s s' : Store} {n : Name}
    (h : maskAllBody false s n = .ok s') : Masked s' n := by
  intro w m k hw hg hk
  rcases maskAllBody_spec h with ⟨m0, h1, h2, _, rfl⟩ | ⟨m0, h1, h2, rfl⟩ | ⟨h1, h2, rfl⟩ |
    ⟨n', m0, h1, h2, h3, rfl⟩
  · simp [Store.governing, h1, h2 rfl] at hg
  · simp at h2
    simp [Store.governing, h1, h2] at hg
    subst hg
    simp at hw; subst hw
    exact zeroWhere_maskTensor hk _
  · simp [Store.governing, h1, h2] at hg
  · have hne : n' ≠ n := by rintro rfl; rw [h1] at h3; cases h3
    simp [Store.governing, get?_set_ne _ _ hne, h1, h2] at hg
    simp at hw; subst hw
    subst hg
    exact zeroWhere_maskTensor (applyMask_mask hk).1 _

theorem maskAllBody_preserves {s s' : Store} {n b : Name}
    (h : maskAllBody false s n = .ok s') (hb : Masked s b) : Masked s' b := by
  by_cases hnb : n = b
  · subst hnb; exact maskAllBody_masked h
  intro w m k hw hg hk
  rcases maskAllBody_spec h with ⟨m0, h1, h2, _, rfl⟩ | ⟨m0, h1, h2, rfl⟩ | ⟨h1, h2, rfl⟩ |
    ⟨n', m0, h1, h2, h3, rfl⟩
  · exact hb w m k hw hg hk
  · simp [get?_set_ne _ _ hnb] at hw
    exact hb w m k hw hg hk
  · exact hb w m k hw hg hk
  · simp [get?_set_ne _ _ hnb] at hw
    -- the masker dictionary changed only at `n'`, where a mask may have been dropped
    by_cases hbn : n' = b
    · subst hbn
      simp [Store.governing, applyMask_fwdOnly] at hg
      obtain ⟨hf, rfl⟩ := hg
      have := applyMask_mask hk
      exact hb w m0 k hw (by simp [Store.governing, h3, hf]) this.1
    · cases hmb : s.maskers.get? b with
      | some mb =>
        simp [Store.governing, get?_set_ne _ _ hbn, hmb] at hg
        obtain ⟨hf, rfl⟩ := hg
        exact hb w mb k hw (by simp [Store.governing, hmb, hf]) hk
      | none =>
        simp [Store.governing, get?_set_ne _ _ hbn, hmb] at hg
        cases hfb : fallbackName b with
        | error x => simp [hfb] at hg
        | ok o =>
          cases o with
          | none => simp [hfb] at hg
          | some b' =>
            simp [hfb] at hg
            by_cases hb' : n' = b'
            · subst hb'
              simp at hg; subst hg
              exact hb w m0 k hw (by simp [Store.governing, hmb, hfb, h3]) (applyMask_mask hk).1
            · rw [get?_set_ne _ _ hb'] at hg
              exact hb w m k hw (by simp [Store.governing, hmb, hfb, hg]) hk

theorem maskAllBody_names {isF : Bool} {s s' : Store} {n : Name} (hn : n ∈ s.names)
    (h : maskAllBody isF s n = .ok s') : s'.names = s.names := by
  rcases maskAllBody_spec h with ⟨m0, h1, h2, _, rfl⟩ | ⟨m0, h1, h2, rfl⟩ | ⟨h1, h2, rfl⟩ |
    ⟨n', m0, h1, h2, h3, rfl⟩
  · rfl
  · exact names_setParam_mem _ hn
  · rfl
  · exact names_setParam_mem (s := s.setMasker n' _) _ hn

theorem masked_of_not_mem {s : Store} {n : Name} (h : n ∉ s.names) : Masked s n := by
  intro w m k hw
  rw [(get?_eq_none_iff _ _).2 h] at hw; cases hw

/-- A loop over all parameters keeps the set of parameters if its body does. -/
theorem forParams_names {body : Store → Name → Except Err Store} {s s' : Store}
    (hb : ∀ s n s', n ∈ s.names → body s n = .ok s' → s'.names = s.names)
    (h : s.forParams body = .ok s') : s'.names = s.names := by
  have := foldlM_preserves (P := fun t : Store => t.names = s.names)
    (fun t a t' ha ht hf => by
      rw [hb t a t' (by rw [ht]; exact ha) hf, ht]) rfl h
  exact this

theorem maskAllWeights_masked {s s' : Store} (h : maskAllWeights s false = .ok s') :
    ∀ n, Masked s' n := by
  intro n
  have hnames := forParams_names (fun s n s' hn => maskAllBody_names hn) h
  by_cases hn : n ∈ s'.names
  · rw [hnames] at hn
    exact foldlM_establish (Q := Masked) (fun s a s' h => maskAllBody_masked h)
      (fun s a b s' h hb => maskAllBody_preserves h hb) h n hn
  · exact masked_of_not_mem hn

theorem maskAllWeights_names {s s' : Store} {f : Bool} (h : maskAllWeights s f = .ok s') :
    s'.names = s.names :=
  forParams_names (fun _ _ _ hn => maskAllBody_names hn) h

/-! ### The policies' `on_minibatch_end` -/

/-- `Masked` for a parameter which has its own masker. -/
theorem masked_own {s : Store} {n : Name} {m : Masker} (h : s.maskers.get? n = some m) :
    Masked s n ↔ ∀ w k, s.params.get? n = some w → m.fwdOnly = false → m.mask = some k →
      ZeroWhere k w := by
  constructor
  · intro H w k hw hf hk
    exact H w m k hw (by simp [Store.governing, h, hf]) hk
  · intro H w m' k hw hg hk
    simp [Store.governing, h] at hg
    obtain ⟨hf, rfl⟩ := hg
    exact H w k hw hf hk

/-- A body that touches only the masker and the value of the parameter it processes,
which must have a masker. -/
structure Local (body : Store → Name → Except Err Store) : Prop where
  own : ∀ s n s', body s n = .ok s' → ∃ m m' w', s.maskers.get? n = some m ∧
    s'.maskers = s.maskers.set n m' ∧
    (s'.params = s.params.set n w' ∨ s'.params = s.params)

theorem Local.names {body} (hl : Local body) {s s' : Store} {n : Name} (hn : n ∈ s.names)
    (h : body s n = .ok s') : s'.names = s.names := by
  obtain ⟨m, m', w', h1, h2, h3 | h3⟩ := hl.own s n s' h
  · simp [Store.names, h3, keys_set_of_mem _ _ _ hn]
  · simp [Store.names, h3]

theorem Local.maskerNames {body} (hl : Local body) {s s' : Store} {n : Name}
    (h : body s n = .ok s') : s'.maskers.map Prod.fst = s.maskers.map Prod.fst := by
  obtain ⟨m, m', w', h1, h2, _⟩ := hl.own s n s' h
  rw [h2, keys_set_of_mem]
  rw [← get?_isSome_iff, h1]; rfl

theorem Local.forParams_maskerNames {body} (hl : Local body) {s s' : Store}
    (h : s.forParams body = .ok s') : s'.maskers.map Prod.fst = s.maskers.map Prod.fst :=
  foldlM_preserves (P := fun t : Store => t.maskers.map Prod.fst = s.maskers.map Prod.fst)
    (fun t a t' _ ht hf => by rw [hl.maskerNames hf, ht]) rfl h

/-- After a successful local loop every parameter has its own masker. -/
theorem Local.forParams_have {body} (hl : Local body) {s s' : Store}
    (h : s.forParams body = .ok s') : ∀ n ∈ s.names, n ∈ s'.maskers.map Prod.fst := by
  refine foldlM_establish (Q := fun t n => n ∈ t.maskers.map Prod.fst) ?_ ?_ h
  · intro s a s' hf
    obtain ⟨m, m', w', h1, h2, _⟩ := hl.own s a s' hf
    rw [hl.maskerNames hf, ← get?_isSome_iff, h1]; rfl
  · intro s a b s' hf hb
    rw [hl.maskerNames hf]; exact hb

theorem discardBody_local : Local discardBody := by
  constructor
  intro s n s' h
  obtain ⟨m, hm, h⟩ := ok_bind h
  injection h with h; subst h
  exact ⟨m, _, [], getE_ok hm, rfl, Or.inr rfl⟩

theorem regMbEndBody_local (env : Env) (p : Nat) (keep : Bool) : Local (regMbEndBody env p keep) := by
  constructor
  intro s n s' h
  unfold regMbEndBody at h
  obtain ⟨m, hm, h⟩ := ok_bind h
  injection h with h; subst h
  exact ⟨m, _, _, getE_ok hm, rfl, Or.inl rfl⟩

theorem revertBody_local : Local revertBody := by
  constructor
  intro s n s' h
  obtain ⟨m, hm, h⟩ := ok_bind h
  injection h with h; subst h
  exact ⟨m, _, _, getE_ok hm, rfl, Or.inl rfl⟩

theorem pruneEpochEndBody_local (cfg : PruneCfg) : Local (pruneEpochEndBody cfg) := by
  constructor
  intro s n s' h
  unfold pruneEpochEndBody at h
  obtain ⟨m, hm, h⟩ := ok_bind h
  injection h with h; subst h
  exact ⟨m, _, _, getE_ok hm, rfl, Or.inl rfl⟩

/-- The parameter is masked according to its own masker. -/
def OwnMasked (s : Store) (n : Name) : Prop :=
  ∀ w m k, s.params.get? n = some w → s.maskers.get? n = some m → m.fwdOnly = false →
    m.mask = some k → ZeroWhere k w

theorem Local.preserves_other {body} (hl : Local body) {s s' : Store} {n b : Name} (hne : n ≠ b)
    (h : body s n = .ok s') (hb : OwnMasked s b) : OwnMasked s' b := by
  obtain ⟨m, m', w', h1, h2, h3⟩ := hl.own s n s' h
  intro w mb k hw hm hf hk
  rw [h2, get?_set_ne _ _ hne] at hm
  rcases h3 with h3 | h3
  · rw [h3, get?_set_ne _ _ hne] at hw; exact hb w mb k hw hm hf hk
  · rw [h3] at hw; exact hb w mb k hw hm hf hk

theorem discardBody_own {s s' : Store} {n : Name} (h : discardBody s n = .ok s') : OwnMasked s' n := by
  obtain ⟨m, hm, h⟩ := ok_bind h
  injection h with h; subst h
  intro w m' k hw hm' hf hk
  simp at hm'; subst hm'; simp at hk

theorem regMbEndBody_own {env : Env} {p : Nat} {keep : Bool} {s s' : Store} {n : Name}
    (h : regMbEndBody env p keep s n = .ok s') : OwnMasked s' n := by
  unfold regMbEndBody at h
  obtain ⟨m, hm, h⟩ := ok_bind h
  injection h with h; subst h
  intro w m' k hw hm' hf hk
  simp at hm' hw
  subst hm'; subst hw
  rw [applyMask_snd]
  exact zeroWhere_maskTensor (applyMask_mask hk).1 _

theorem masked_iff_own {s : Store} {n : Name} (h : n ∈ s.maskers.map Prod.fst) :
    Masked s n ↔ OwnMasked s n := by
  have := (get?_isSome_iff s.maskers n).2 h
  obtain ⟨m, hm⟩ := Option.isSome_iff_exists.1 this
  rw [masked_own hm]
  constructor
  · intro H w m' k hw hm' hf hk
    rw [hm] at hm'; cases hm'; exact H w k hw hf hk
  · intro H w k hw hf hk; exact H w m k hw hm hf hk

/-- A successful local loop whose body establishes `OwnMasked` for its parameter. -/
theorem local_loop_masked {body} (hl : Local body)
    (hown : ∀ s n s', body s n = .ok s' → OwnMasked s' n)
    {s s' : Store} (h : s.forParams body = .ok s') : ∀ n, Masked s' n := by
  intro n
  have hnames := forParams_names (fun s n s' hn => hl.names hn) h
  by_cases hn : n ∈ s'.names
  · rw [hnames] at hn
    have hmk := hl.forParams_have h n hn
    rw [masked_iff_own hmk]
    refine foldlM_establish (Q := OwnMasked) hown ?_ h n hn
    intro s a b s' hf hb
    by_cases hab : a = b
    · subst hab; exact hown _ _ _ hf
    · exact hl.preserves_other hab hf hb
  · exact masked_of_not_mem hn

theorem policyMbEnd_masked {env : Env} {mb mpe : Nat} {st st' : State} {p : Nat}
    (hs : ∀ n, Masked st.store n) (h : policyMbEnd env mb mpe st p = .ok st') :
    ∀ n, Masked st'.store n := by
  unfold policyMbEnd at h
  split at h
  · split at h
    · obtain ⟨s1, h1, h⟩ := ok_bind h
      injection h with h; subst h
      exact local_loop_masked discardBody_local (fun _ _ _ => discardBody_own) h1
    · injection h with h; subst h; exact hs
  · split at h
    · obtain ⟨s1, h1, h⟩ := ok_bind h
      injection h with h; subst h
      exact local_loop_masked (regMbEndBody_local _ _ _) (fun _ _ _ => regMbEndBody_own) h1
    · injection h with h; subst h; exact hs
  · injection h with h; subst h; exact hs

/-! ### What a local loop does to one parameter -/

/-- The part of the store a local body may look at (besides the clock) and change. -/
def Store.at (s : Store) (n : Name) : Option Tensor × Option Masker :=
  (s.params.get? n, s.maskers.get? n)

theorem Local.at_other {body} (hl : Local body) {s s' : Store} {n b : Name} (hne : n ≠ b)
    (h : body s n = .ok s') : s'.at b = s.at b := by
  obtain ⟨m, m', w', h1, h2, h3⟩ := hl.own s n s' h
  unfold Store.at
  rw [h2, get?_set_ne _ _ hne]
  rcases h3 with h3 | h3
  · rw [h3, get?_set_ne _ _ hne]
  · rw [h3]

theorem Local.fold_at_not_mem {body} (hl : Local body) {l : List Name} {s s' : Store} {n : Name}
    (hn : n ∉ l) (h : l.foldlM body s = .ok s') : s'.at n = s.at n :=
  foldlM_preserves (P := fun t : Store => t.at n = s.at n)
    (fun t a t' ha ht hf => by
      rw [hl.at_other (by rintro rfl; exact hn ha) hf, ht]) rfl h

/-- Each parameter is processed exactly once, starting from its value and masker
before the loop. -/
theorem Local.forParams_at {body} (hl : Local body) {s s' : Store} (hnd : s.names.Nodup)
    (h : s.forParams body = .ok s') {n : Name} (hn : n ∈ s.names) :
    ∃ t t', t.at n = s.at n ∧ body t n = .ok t' ∧ t'.at n = s'.at n := by
  unfold Store.forParams at h
  change n ∈ s.params.map Prod.fst at hn
  change (s.params.map Prod.fst).Nodup at hnd
  obtain ⟨l1, l2, hl12⟩ := List.append_of_mem hn
  rw [hl12] at h hnd
  rw [List.foldlM_append] at h
  obtain ⟨t, ht, h⟩ := ok_bind h
  rw [List.foldlM_cons] at h
  obtain ⟨t', ht', h⟩ := ok_bind h
  rw [List.nodup_append] at hnd
  refine ⟨t, t', hl.fold_at_not_mem ?_ ht, ht', (hl.fold_at_not_mem ?_ h).symm⟩
  · intro hmem; exact hnd.2.2 n hmem n (by simp) rfl
  · exact (List.nodup_cons.1 hnd.2.1).1

theorem setParamMask_spec {env : Env} {pol : Nat} {mt : Meta} {s s' : Store} {n : Name} {w : Tensor}
    (h : setParamMask env pol mt s n w = .ok s') :
    ∃ m k, s.maskers.get? n = some m ∧ s'.maskers = s.maskers.set n { m with mask := k } ∧
      s'.params = s.params ∧ env.prune s.clock pol n w m.mask mt = .ok k := by
  unfold setParamMask at h
  obtain ⟨m, hm, h⟩ := ok_bind h
  obtain ⟨k, hk, h⟩ := ok_bind h
  injection h with h; subst h
  exact ⟨m, k, getE_ok hm, rfl, rfl, hk⟩

theorem set_set {α β : Type} [DecidableEq α] (d : Dict α β) (k : α) (v v' : β) :
    (d.set k v).set k v' = d.set k v' := by
  induction d with
  | nil => simp [Dict.set]
  | cons kv d ih =>
    obtain ⟨a, x⟩ := kv
    by_cases h : a = k <;> simp [Dict.set, h, ih]

/-- What `on_minibatch_begin` does to one parameter: the mask may be recomputed, then
it is applied to the parameter – or to the BN-folded temporary. -/
theorem pruneMbBeginBody_spec {env : Env} {pol : Nat} {cfg : PruneCfg} {sm : Bool} {mt : Meta}
    {s s' : Store} {n : Name} (h : pruneMbBeginBody env pol cfg sm mt s n = .ok s') :
    ∃ m k, s.maskers.get? n = some m ∧ (sm = false → k = m.mask) ∧
      ((∃ w', (sm && cfg.foldBn) = true ∧ env.folded pol n (s.param n) = some w' ∧
          s'.params = s.params ∧
          s'.maskers = s.maskers.set n (({ m with mask := k } : Masker).applyMask w').1) ∨
       (((sm && cfg.foldBn) = false ∨ env.folded pol n (s.param n) = none) ∧
          s'.params = s.params.set n (({ m with mask := k } : Masker).maskTensor (s.param n)) ∧
          s'.maskers = s.maskers.set n (({ m with mask := k } : Masker).applyMask (s.param n)).1)) := by
  unfold pruneMbBeginBody at h
  obtain ⟨s1, hs1, h⟩ := ok_bind h
  obtain ⟨m1, hm1, h⟩ := ok_bind h
  have hm1' := getE_ok hm1
  have key : ∃ m k, s.maskers.get? n = some m ∧ (sm = false → k = m.mask) ∧
      m1 = { m with mask := k } ∧ s1.params = s.params ∧
      ∀ v, s1.maskers.set n v = s.maskers.set n v := by
    cases sm with
    | true =>
      simp only [if_true] at hs1
      obtain ⟨m, k, h1, h2, h3, _⟩ := setParamMask_spec hs1
      refine ⟨m, k, h1, by simp, ?_, h3, ?_⟩
      · rw [h2] at hm1'; simp at hm1'; exact hm1'.symm
      · intro v; rw [h2, set_set]
    | false =>
      simp at hs1; subst hs1
      exact ⟨m1, m1.mask, hm1', by simp, rfl, rfl, fun _ => rfl⟩
  obtain ⟨m, k, h1, h2, rfl, h4, h5⟩ := key
  refine ⟨m, k, h1, h2, ?_⟩
  cases hf : (sm && cfg.foldBn) with
  | true =>
    simp only [hf, if_true] at h
    cases hfo : env.folded pol n (s.param n) with
    | some w' =>
      simp only [hfo] at h
      injection h with h; subst h
      left
      exact ⟨w', rfl, rfl, h4, by simp [h5]⟩
    | none =>
      simp only [hfo] at h
      injection h with h; subst h
      right
      refine ⟨Or.inr rfl, ?_, ?_⟩
      · simp [h4, applyMask_snd]
      · simp [h5]
  | false =>
    simp only [hf] at h
    right
    simp at h
    injection h with h; subst h
    refine ⟨Or.inl rfl, ?_, ?_⟩
    · simp [h4, applyMask_snd]
    · simp [h5]

theorem pruneMbBeginBody_local (env : Env) (pol : Nat) (cfg : PruneCfg) (sm : Bool) (mt : Meta) :
    Local (pruneMbBeginBody env pol cfg sm mt) := by
  constructor
  intro s n s' h
  obtain ⟨m, k, h1, _, ⟨w', _, _, h2, h3⟩ | ⟨_, h2, h3⟩⟩ := pruneMbBeginBody_spec h
  · exact ⟨m, _, [], h1, h3, Or.inr h2⟩
  · exact ⟨m, _, _, h1, h3, Or.inl h2⟩

end Verif
