import Verif.Model.Config
import Verif.Props.Schedule
/-!
# C52, C76: configuration files
-/
namespace Verif

/-- The function can be given `k` by keyword as an ordinary parameter. -/
def Sig.Accepts (s : Sig) (k : String) : Prop := ∃ p ∈ s, p.name = k ∧ p.kind = .posOrKw

instance Sig.decAccepts (s : Sig) (k : String) : Decidable (s.Accepts k) := by unfold Sig.Accepts; infer_instance

theorem mem_filterKeys (s : Sig) (k : String) : k ∈ s.filterKeys ↔ s.Accepts k := by
  unfold Sig.filterKeys Sig.Accepts
  simp only [List.mem_map, List.mem_filter, decide_eq_true_eq]
  constructor
  · rintro ⟨p, ⟨h1, h2⟩, h3⟩; exact ⟨p, h1, h3, h2⟩
  · rintro ⟨p, h1, h3, h2⟩; exact ⟨p, ⟨h1, h2⟩, h3⟩

theorem Dict.set_fresh {β : Type} (d : Dict String β) (k : String) (v : β) (h : k ∉ d.map Prod.fst) :
    d.set k v = d ++ [(k, v)] := by
  induction d with
  | nil => rfl
  | cons x d ih =>
    obtain ⟨k', v'⟩ := x
    simp only [List.map_cons, List.mem_cons, not_or] at h
    simp [Dict.set, Ne.symm h.1, ih h.2]

theorem filterKwargs_aux (s : Sig) (d : Dict String YVal) : ∀ (a b : Dict String YVal),
    (∀ k ∈ d.map Prod.fst, k ∉ a.map Prod.fst ∧ k ∉ b.map Prod.fst) → d.Nodup →
    d.foldl (fun acc kv =>
      if kv.1 ∈ s.filterKeys then ((acc.1.set kv.1 kv.2, acc.2) : Dict String YVal × Dict String YVal)
      else (acc.1, acc.2.set kv.1 kv.2)) (a, b)
    = (a ++ d.filter (fun kv => decide (kv.1 ∈ s.filterKeys)), b ++ d.filter (fun kv => decide (kv.1 ∉ s.filterKeys))) := by
  induction d with
  | nil => intro a b _ _; simp
  | cons x d ih =>
    intro a b h hn
    have hn' : (x.1 :: d.map Prod.fst).Nodup := hn
    rw [List.nodup_cons] at hn'
    have hx := h x.1 (by simp)
    rw [List.foldl_cons]
    by_cases hk : x.1 ∈ s.filterKeys
    · simp only [hk, if_true]
      rw [Dict.set_fresh _ _ _ hx.1, ih _ _ ?_ hn'.2]
      · simp [hk]
      · intro k hkd
        have := h k (by simp only [List.map_cons, List.mem_cons]; exact .inr hkd)
        refine ⟨?_, this.2⟩
        simp only [List.map_append, List.map_cons, List.map_nil, List.mem_append, List.mem_singleton, not_or]
        exact ⟨this.1, fun e => hn'.1 (e ▸ hkd)⟩
    · simp only [hk, if_false]
      rw [Dict.set_fresh _ _ _ hx.2, ih _ _ ?_ hn'.2]
      · simp [hk]
      · intro k hkd
        have := h k (by simp only [List.map_cons, List.mem_cons]; exact .inr hkd)
        refine ⟨this.1, ?_⟩
        simp only [List.map_append, List.map_cons, List.map_nil, List.mem_append, List.mem_singleton, not_or]
        exact ⟨this.2, fun e => hn'.1 (e ▸ hkd)⟩

theorem filterKwargs_eq (d : Dict String YVal) (hd : d.Nodup) (s : Sig) :
    filterKwargs d s = (d.filter (fun kv => decide (s.Accepts kv.1)), d.filter (fun kv => decide (¬ s.Accepts kv.1))) := by
  unfold filterKwargs
  rw [filterKwargs_aux s d [] [] (by simp) hd]
  simp only [mem_filterKeys, List.nil_append]

theorem get?_filter_key {β : Type} (d : Dict String β) (p : String → Bool) (k : String) :
    Dict.get? (d.filter (fun kv => p kv.1)) k = if p k then d.get? k else none := by
  induction d with
  | nil => simp
  | cons x d ih =>
    obtain ⟨a, v⟩ := x
    by_cases hp : p a = true
    · simp only [List.filter_cons, hp, if_true, Dict.get?_cons, ih]
      by_cases e : a = k
      · subst e; simp [hp]
      · simp [e]
    · simp only [List.filter_cons, hp, Dict.get?_cons, if_false, ih, Bool.false_eq_true]
      by_cases e : a = k
      · subst e; simp [hp]
      · simp [e]

/-- C52: `filter_kwargs` splits the dictionary: every entry lands, unchanged and in order, in
exactly one of the two results, the first holding exactly those the function accepts. -/
theorem C52_filter (d : Dict String YVal) (hd : d.Nodup) (s : Sig) :
    List.Perm ((filterKwargs d s).1 ++ (filterKwargs d s).2) d ∧
    (filterKwargs d s).1.Sublist d ∧ (filterKwargs d s).2.Sublist d ∧
    (∀ kv ∈ (filterKwargs d s).1, s.Accepts kv.1) ∧ (∀ kv ∈ (filterKwargs d s).2, ¬ s.Accepts kv.1) := by
  rw [filterKwargs_eq d hd s]
  refine ⟨?_, List.filter_sublist, List.filter_sublist, ?_, ?_⟩
  · have := List.filter_append_perm (fun kv : String × YVal => decide (s.Accepts kv.1)) d
    simpa using this
  · intro kv h; simpa using (List.mem_filter.1 h).2
  · intro kv h; simpa using (List.mem_filter.1 h).2

/-- The signature of `MultiStepMultiGammaLR.__init__` (learning_rate.py:37). -/
def sigMultiStep : Sig := [⟨"self", .posOrKw, false⟩, ⟨"optimizer", .posOrKw, false⟩, ⟨"milestones", .posOrKw, false⟩,
  ⟨"gammas", .posOrKw, false⟩, ⟨"last_epoch", .posOrKw, true⟩]

example : Dict.Nodup [("milestones", YVal.obj 1), ("gamma", .obj 2), ("gammas", .obj 3)] ∧
    filterKwargs [("milestones", .obj 1), ("gamma", .obj 2), ("gammas", .obj 3)] sigMultiStep =
      ([("milestones", .obj 1), ("gammas", .obj 3)], [("gamma", .obj 2)]) := by
  unfold Dict.Nodup; decide +kernel

theorem has_of_get? {α β : Type} [DecidableEq α] {d : Dict α β} {k : α} {v : β} (h : d.get? k = some v) : d.has k = true := by
  simp [Dict.has, h]

theorem popE_ok {β : Type} (d : Dict String β) (k : String) (v : β) (h : d.get? k = some v) :
    d.popE k = .ok (v, d.filter (fun kv => decide (kv.1 ≠ k))) := by simp [Dict.popE, h]

theorem nodup_filter {β : Type} {d : Dict String β} (hd : d.Nodup) (p : String × β → Bool) : Dict.Nodup (d.filter p) :=
  List.Nodup.sublist (List.Sublist.map _ List.filter_sublist) hd

/-- C52: a user argument the class does not accept is reported, not dropped. -/
theorem C52_rejects_unknown (classes : Dict String Sig) (model : YVal) (name : String) (user extra : Dict String YVal)
    (hu : user.Nodup) (c : String) (sig : Sig) (hc : user.get? "class" = some (.str c)) (hs : classes.get? c = some sig)
    (k : String) (hk : user.has k = true) (hkc : k ≠ "class") (hna : ¬ sig.Accepts k) :
    (buildComponent classes model name user extra).1 = .error .value := by
  unfold buildComponent
  rw [popE_ok _ _ _ hc]
  simp only [hs]
  rw [filterKwargs_eq _ (nodup_filter hu _)]
  rw [if_pos]
  intro hnil
  obtain ⟨v, hv⟩ := Option.isSome_iff_exists.1 hk
  have : (k, v) ∈ (user.filter (fun kv => decide (kv.1 ≠ "class"))).filter (fun kv => decide (¬ sig.Accepts kv.1)) :=
    List.mem_filter.2 ⟨List.mem_filter.2 ⟨Dict.mem_of_get? hv, by simpa using hkc⟩, by simpa using hna⟩
  simp only at hnil
  rw [hnil] at this
  simp at this

/-- C52: naming a class that does not exist is reported. -/
theorem C52_rejects_unknown_class (classes : Dict String Sig) (model : YVal) (name : String) (user extra : Dict String YVal)
    (c : String) (hc : user.get? "class" = some (.str c)) (hs : classes.get? c = none) :
    (buildComponent classes model name user extra).1 = .error .value := by
  unfold buildComponent
  rw [popE_ok _ _ _ hc]
  simp [hs]

theorem update_get (d e : Dict String YVal) (k : String) (hd : e.Nodup) :
    (d.update e).get? k = (e.get? k).or (d.get? k) := by
  unfold Dict.update
  induction e generalizing d with
  | nil => simp
  | cons x e ih =>
    obtain ⟨a, v⟩ := x
    have hn' : (a :: e.map Prod.fst).Nodup := hd
    rw [List.nodup_cons] at hn'
    rw [List.foldl_cons, ih _ hn'.2, Dict.get?_set, Dict.get?_cons]
    by_cases h : a = k
    · subst h
      have := (Dict.get?_eq_none_iff e a).2 hn'.1
      simp [this]
    · simp [h]

theorem update_nodup (d e : Dict String YVal) (hd : d.Nodup) : (d.update e).Nodup := by
  unfold Dict.update
  induction e generalizing d with
  | nil => exact hd
  | cons x e ih => rw [List.foldl_cons]; exact ih _ (Dict.nodup_set hd _ _)

/-- What the constructor of a successfully built component received. -/
theorem build_ok {classes : Dict String Sig} {model : YVal} {name : String} {user extra : Dict String YVal}
    (hu : user.Nodup) (he : extra.Nodup) {comp : Comp}
    (h : (buildComponent classes model name user extra).1 = .ok comp) :
    ∃ sig, user.get? "class" = some (.str comp.cls) ∧ classes.get? comp.cls = some sig ∧
      (∀ k, user.has k = true → k ≠ "class" → sig.Accepts k) ∧
      ∀ k, comp.kwargs.get? k = if sig.Accepts k then
          (if k = "name" then some (.str name) else if k = "model" then some model else
            (extra.get? k).or (if k = "class" then none else user.get? k)) else none := by
  unfold buildComponent at h
  cases hc : user.get? "class" with
  | none => simp [Dict.popE, hc] at h
  | some cv =>
    rw [popE_ok _ _ _ hc] at h
    cases cv with
    | int n => simp at h
    | obj n => simp at h
    | bool b => simp at h
    | str c =>
      cases hs : classes.get? c with
      | none => simp [hs] at h
      | some sig =>
        simp only [hs] at h
        have hu' := nodup_filter hu (fun kv => decide (kv.1 ≠ "class"))
        rw [filterKwargs_eq _ hu'] at h
        split at h
        · simp at h
        · rename_i hinv
          simp only [ne_eq, not_not] at hinv
          generalize hv : ((Dict.update ((user.filter (fun kv => decide (kv.1 ≠ "class"))).filter
            (fun kv => decide (sig.Accepts kv.1))) extra).set "model" model).set "name" (.str name) = v at h
          have hvn : v.Nodup := by
            rw [← hv]
            exact Dict.nodup_set (Dict.nodup_set (update_nodup _ _ (nodup_filter hu' _)) _ _) _ _
          simp only [filterKwargs_eq v hvn sig] at h
          have hcomp : comp = ⟨c, v.filter (fun kv => decide (sig.Accepts kv.1))⟩ := by
            unfold callClass at h
            split at h
            · simp at h
            · split at h
              · simp at h
              · simp only [Except.ok.injEq] at h; exact h.symm
          subst hcomp
          refine ⟨sig, rfl, hs, ?_, ?_⟩
          · intro k hk hkc
            by_contra hna
            obtain ⟨w, hw⟩ := Option.isSome_iff_exists.1 hk
            have : (k, w) ∈ (user.filter (fun kv => decide (kv.1 ≠ "class"))).filter (fun kv => decide (¬ sig.Accepts kv.1)) :=
              List.mem_filter.2 ⟨List.mem_filter.2 ⟨Dict.mem_of_get? hw, by simpa using hkc⟩, by simpa using hna⟩
            rw [hinv] at this
            simp at this
          · intro k
            simp only []
            rw [get?_filter_key v (fun k => decide (sig.Accepts k)) k]
            by_cases hA : sig.Accepts k
            · simp only [hA, decide_true, if_true]
              rw [← hv, Dict.get?_set, Dict.get?_set, update_get _ _ _ he,
                get?_filter_key _ (fun k => decide (sig.Accepts k)) k,
                get?_filter_key _ (fun k => decide (k ≠ "class")) k]
              by_cases e1 : "name" = k
              · subst e1; simp
              · by_cases e2 : "model" = k
                · subst e2; simp
                · have e1' : ¬ k = "name" := fun h => e1 h.symm
                  have e2' : ¬ k = "model" := fun h => e2 h.symm
                  by_cases e3 : k = "class" <;> simp [e1, e2, e1', e2', e3, hA]
            · simp [hA]

/-- C52: if the component is built, its constructor received every argument the user wrote, with the
user's value, except those that the library itself supplies (`model`, `name` and the extra
arguments of the section) -- see `C52_violated_override`. -/
theorem C52_delivers_partial (classes : Dict String Sig) (model : YVal) (name : String) (user extra : Dict String YVal)
    (hu : user.Nodup) (he : extra.Nodup) (comp : Comp)
    (h : (buildComponent classes model name user extra).1 = .ok comp) :
    (∀ k v, user.get? k = some v → k ≠ "class" → k ≠ "name" → k ≠ "model" → extra.has k = false →
      comp.kwargs.get? k = some v) ∧
    (∀ k v, comp.kwargs.get? k = some v →
      user.get? k = some v ∨ extra.get? k = some v ∨ (k = "model" ∧ v = model) ∨ (k = "name" ∧ v = .str name)) := by
  obtain ⟨sig, h1, h2, h3, h4⟩ := build_ok hu he h
  constructor
  · intro k v hk k1 k2 k3 k4
    have : extra.get? k = none := by simpa [Dict.has] using k4
    rw [h4 k, if_pos (h3 k (by simp [Dict.has, hk]) k1)]
    simp [k1, k2, k3, this, hk]
  · intro k v hk
    rw [h4 k] at hk
    split at hk
    · split at hk
      · rename_i e; cases hk; exact .inr (.inr (.inr ⟨e, rfl⟩))
      · split at hk
        · rename_i e; cases hk; exact .inr (.inr (.inl ⟨e, rfl⟩))
        · cases hx : extra.get? k with
          | some w => rw [hx] at hk; simp at hk; subst hk; exact .inr (.inl rfl)
          | none =>
            rw [hx] at hk
            simp only [Option.none_or] at hk
            split at hk
            · cases hk
            · exact .inl hk
    · cases hk

/-- C52: a parameter without a default that nobody supplies makes the construction fail with
Python's `TypeError`. -/
theorem C52_missing_required (classes : Dict String Sig) (model : YVal) (name : String) (user extra : Dict String YVal)
    (hu : user.Nodup) (he : extra.Nodup) (c : String) (sig : Sig) (hc : user.get? "class" = some (.str c))
    (hs : classes.get? c = some sig) (p : SigParam) (hp : p ∈ sig) (hpk : p.kind = .posOrKw ∨ p.kind = .kwOnly)
    (hself : p.name ≠ "self") (hdef : p.hasDefault = false)
    (hok : ∀ k, user.has k = true → k ≠ "class" → sig.Accepts k)
    (hmiss : user.has p.name = false ∧ extra.has p.name = false ∧ p.name ≠ "model" ∧ p.name ≠ "name") :
    (buildComponent classes model name user extra).1 = .error .type := by
  cases hb : (buildComponent classes model name user extra).1 with
  | ok comp =>
    exfalso
    obtain ⟨sig', h1, h2, h3, h4⟩ := build_ok hu he hb
    -- look at the binding of arguments
    unfold buildComponent at hb
    rw [popE_ok _ _ _ hc] at hb
    simp only [hs] at hb
    split at hb
    · simp at hb
    · unfold callClass at hb
      split at hb
      · simp at hb
      · split at hb
        · simp at hb
        · rename_i hreq
          simp only [Except.ok.injEq] at hb
          rw [hc] at h1
          simp only [Option.some.injEq, YVal.str.injEq] at h1
          subst h1
          rw [hs] at h2
          cases h2
          apply hreq
          refine ⟨p, hp, hpk, hself, hdef, ?_⟩
          have hb' := congrArg Comp.kwargs hb
          simp only at hb'
          rw [hb']
          unfold Dict.has
          rw [h4 p.name]
          have u1 : user.get? p.name = none := by simpa [Dict.has] using hmiss.1
          have u2 : extra.get? p.name = none := by simpa [Dict.has] using hmiss.2.1
          split
          · simp [hmiss.2.2.1, hmiss.2.2.2, u1, u2]
          · rfl
  | error e =>
    unfold buildComponent at hb
    rw [popE_ok _ _ _ hc] at hb
    simp only [hs] at hb
    rw [filterKwargs_eq _ (nodup_filter hu _)] at hb
    split at hb
    · rename_i hne
      exfalso
      apply hne
      simp only
      rw [List.filter_eq_nil_iff]
      intro kv hkv
      obtain ⟨m1, m2⟩ := List.mem_filter.1 hkv
      have := hok kv.1 (has_of_get? (Dict.get?_of_mem hu m1)) (by simpa using m2)
      simpa using this
    · unfold callClass at hb
      split at hb
      · simp only [Except.error.injEq] at hb; subst hb; rfl
      · split at hb
        · simp only [Except.error.injEq] at hb; subst hb; rfl
        · simp at hb

def clsEx : Dict String Sig := [("MultiStepMultiGammaLR", sigMultiStep)]

example : (buildComponent clsEx (.obj 0) "lr" [("class", .str "MultiStepMultiGammaLR"), ("milestones", .obj 1)]
    [("optimizer", .obj 5), ("last_epoch", .int (-1))]).1 = .error .type := by decide +kernel
example : (buildComponent clsEx (.obj 0) "lr" [("class", .str "MultiStepMultiGammaLR"), ("milestones", .obj 1), ("gamma", .obj 2)]
    [("optimizer", .obj 5), ("last_epoch", .int (-1))]).1 = .error .value := by decide +kernel

/-- C52 is violated: `last_epoch: 10` written by the user for an LR scheduler is accepted and
silently replaced. -/
theorem C52_violated_override : ∃ (user : Dict String YVal) (comp : Comp),
    (buildComponent clsEx (.obj 0) "lr" user [("optimizer", .obj 5), ("last_epoch", .int (-1))]).1 = .ok comp ∧
    user.get? "last_epoch" = some (.int 10) ∧ comp.kwargs.get? "last_epoch" = some (.int (-1)) :=
  ⟨[("class", .str "MultiStepMultiGammaLR"), ("milestones", .obj 1), ("gammas", .obj 2), ("last_epoch", .int 10)],
    ⟨"MultiStepMultiGammaLR", [("milestones", .obj 1), ("gammas", .obj 2), ("last_epoch", .int (-1)), ("optimizer", .obj 5)]⟩,
    by decide +kernel, by decide +kernel, by decide +kernel⟩

/-- C52 is violated: a misspelt argument of a pruning policy is dropped silently; here `keep_masks`. -/
theorem C52_violated_policy_args : ∃ (cs : Containers) (d : PolicyDef),
    d.refs = [(.pruner, some ⟨some "p", some [("keep_masks", .bool true)]⟩)] ∧
    (processDef cs {} d).2 = .ok false ∧ (processDef cs {} d).1.objs = [.prune "p" {}] :=
  ⟨{ pruners := [("p", ⟨"AGP", []⟩)] },
    { refs := [(.pruner, some ⟨some "p", some [("keep_masks", .bool true)]⟩)], epochs := some [0, 1] },
    rfl, by decide +kernel, by decide +kernel⟩

/-! ## C76: the schedule described by the configuration -/

/-- The kind of a definition: the first of the five keys it has. -/
def PolicyDef.kind (d : PolicyDef) : Option PolKind :=
  if d.refs.has .pruner then some .pruner else if d.refs.has .regularizer then some .regularizer
  else if d.refs.has .quantizer then some .quantizer else if d.refs.has .lrScheduler then some .lrScheduler
  else if d.refs.has .extension then some .extension else none

/-- The instance a definition names. -/
def PolicyDef.instName (d : PolicyDef) (k : PolKind) : Option String :=
  match d.refs.get? k with
  | some (some r) => r.inst
  | _ => none

/-- The `args` written under a definition (none: the empty dictionary). -/
def PolicyDef.instArgs (d : PolicyDef) (k : PolKind) : Dict String YVal :=
  match d.refs.get? k with
  | some (some r) => r.args.getD []
  | _ => []

/-- The user switched the option on: the key is there and its value is true in Python. -/
def SwitchedOn (a : Dict String YVal) (key : String) : Prop :=
  ∃ v, a.get? key = some v ∧ v ≠ .bool false ∧ v ≠ .int 0 ∧ v ≠ .str ""

/-- Every option of a pruning policy is what the `args` of its definition say. -/
structure ConfiguredBy (a : Dict String YVal) (c : PruneCfg) : Prop where
  keep : c.keepMask = true ↔ SwitchedOn a "keep_mask"
  fwd : c.fwdOnly = true ↔ SwitchedOn a "mask_on_forward_only"
  grads : c.maskGrads = true ↔ SwitchedOn a "mask_gradients"
  dbl : c.dbl = true ↔ SwitchedOn a "use_double_copies"
  discard : c.discard = true ↔ SwitchedOn a "discard_masks_at_minibatch_end"
  skip : c.skipFirst = true ↔ SwitchedOn a "skip_first_minibatch"
  fold : c.foldBn = true ↔ SwitchedOn a "fold_batchnorm"
  freq : ∀ n : ℕ, a.get? "mini_batch_pruning_frequency" = some (.int n) → c.mbFreq = n
  freq0 : a.get? "mini_batch_pruning_frequency" = none → c.mbFreq = 0

/-- The policy object is the one the definition describes. -/
def Describes (d : PolicyDef) (o : PolObj) : Prop :=
  match o with
  | .prune i c => d.kind = some .pruner ∧ d.instName .pruner = some i ∧ ConfiguredBy (d.instArgs .pruner) c
  | .reg i keep => d.kind = some .regularizer ∧ d.instName .regularizer = some i ∧
      (keep = true ↔ SwitchedOn (d.instArgs .regularizer) "keep_mask")
  | .quant i => d.kind = some .quantizer ∧ d.instName .quantizer = some i
  | .lr i => d.kind = some .lrScheduler ∧ d.instName .lrScheduler = some i
  | .ext i => d.kind = some .extension ∧ d.instName .extension = some i

/-- The call `a` registers the definition `d` on its own schedule with the right policy object. -/
def Registers (objs : List PolObj) (d : PolicyDef) (a : AddArgs) : Prop :=
  (a.epochs = d.epochs ∧ (d.epochs = none → a.starting = d.starting ∧ a.ending = d.ending ∧ a.freq = d.freq)) ∧
  ∃ o, objs[a.policy]? = some o ∧ Describes d o

theorem addArgs_ok {d : PolicyDef} {id : ℕ} {a : AddArgs} (h : d.addArgs id = .ok a) :
    a.epochs = d.epochs ∧ (d.epochs = none → a.starting = d.starting ∧ a.ending = d.ending ∧ a.freq = d.freq) := by
  unfold PolicyDef.addArgs at h
  split at h
  · next es he => cases h; simp [he]
  · next he =>
    split at h
    · next s e f h1 h2 h3 => cases h; simp [he, h1, h2, h3]
    · cases h

theorem argFlag_iff (a : Dict String YVal) (k : String) : argFlag a k = true ↔ SwitchedOn a k := by
  unfold argFlag SwitchedOn
  cases h : a.get? k with
  | none => simp
  | some v => cases v <;> simp

theorem pruneCfgOf_ok (args : Option (Dict String YVal)) : ConfiguredBy (args.getD []) (pruneCfgOf args) := by
  refine ⟨argFlag_iff _ _, argFlag_iff _ _, argFlag_iff _ _, argFlag_iff _ _, argFlag_iff _ _, argFlag_iff _ _,
    argFlag_iff _ _, ?_, ?_⟩
  · intro n h; simp [pruneCfgOf, h]
  · intro h; simp [pruneCfgOf, h]

theorem regPolicyArgs_ok {args : Option (Dict String YVal)} {keep : Bool} (h : regPolicyArgs args = .ok keep) :
    keep = true ↔ SwitchedOn (args.getD []) "keep_mask" := by
  unfold regPolicyArgs at h
  split at h
  · cases h; simp [SwitchedOn]
  · split at h
    · cases h; exact argFlag_iff _ _
    · cases h

theorem addAll_append {s s' : Sched} {l : List AddArgs} (h : addAll s l = .ok s') (l2 : List AddArgs) :
    addAll s (l ++ l2) = addAll s' l2 := by
  induction l generalizing s with
  | nil => simp [addAll] at h; subst h; rfl
  | cons a l ih =>
    simp only [List.cons_append, addAll] at h ⊢
    cases hx : s.addPolicy a with
    | mk s1 r =>
      cases r with
      | error e => rw [hx] at h; simp at h
      | ok u => rw [hx] at h; simp only at h ⊢; exact ih h

theorem addAll_one {s s' : Sched} {a : AddArgs} (h : s.addPolicy a = (s', .ok ())) : addAll s [a] = .ok s' := by
  simp [addAll, h]

/-- The extension numbers point at the extension objects. -/
def ExtOk (st : CfgState) : Prop := ∀ i id, st.extIds.get? i = some id → st.objs[id]? = some (.ext i)

theorem add_ok {st st' : CfgState} {d : PolicyDef} {id : Nat} (h : st.add d id = (st', .ok ())) :
    ∃ a, d.addArgs id = .ok a ∧ a.policy = id ∧ addAll st.sched [a] = .ok st'.sched ∧ st'.objs = st.objs ∧ st'.extIds = st.extIds := by
  unfold CfgState.add at h
  cases ha : d.addArgs id with
  | error e => rw [ha] at h; simp at h
  | ok a =>
    rw [ha] at h
    simp only [Prod.mk.injEq] at h
    obtain ⟨h1, h2⟩ := h
    refine ⟨a, rfl, ?_, ?_, by rw [← h1], by rw [← h1]⟩
    · unfold PolicyDef.addArgs at ha
      split at ha
      · cases ha; rfl
      · split at ha
        · cases ha; rfl
        · cases ha
    · rw [← h1]
      exact addAll_one (Prod.ext rfl h2)

theorem not_has_of_get? {α β : Type} [DecidableEq α] {d : Dict α β} {k : α} (h : d.get? k = none) : d.has k = false := by
  simp [Dict.has, h]

theorem policyParams_ok {r : Option PolRef} {i : String} {args} (h : policyParams r = .ok (i, args)) :
    ∃ p, r = some p ∧ p.inst = some i ∧ p.args = args := by
  unfold policyParams at h
  split at h
  · cases h
  · rename_i p
    split at h
    · cases h
    · rename_i j hj; cases h; exact ⟨p, rfl, hj, rfl⟩

/-- One definition: a successful step either puts an LR definition off, leaving the scheduler alone,
or registers the definition. -/
theorem processDef_ok {cs : Containers} {st st' : CfgState} {d : PolicyDef} {put : Bool} (hE : ExtOk st)
    (h : processDef cs st d = (st', .ok put)) :
    ExtOk st' ∧ (∃ suf, st'.objs = st.objs ++ suf) ∧
    ((put = true ∧ d.kind = some .lrScheduler ∧ st' = st) ∨
     (put = false ∧ d.kind ≠ some .lrScheduler ∧ ∃ a, addAll st.sched [a] = .ok st'.sched ∧ Registers st'.objs d a)) := by
  -- registering a fresh object
  have fresh : ∀ (o : PolObj) (st1 st2 : CfgState), st1.objs = st.objs ++ [o] → st1.sched = st.sched → ExtOk st1 →
      st1.add d st.objs.length = (st2, .ok ()) → Describes d o → d.kind ≠ some .lrScheduler →
      ExtOk st2 ∧ (∃ suf, st2.objs = st.objs ++ suf) ∧
      ((false = true ∧ d.kind = some .lrScheduler ∧ st2 = st) ∨
       (false = false ∧ d.kind ≠ some .lrScheduler ∧ ∃ a, addAll st.sched [a] = .ok st2.sched ∧ Registers st2.objs d a)) := by
    intro o st1 st2 h1 h2 h3 h4 h5 h6
    obtain ⟨a, a1, a2, a3, a4, a5⟩ := add_ok h4
    refine ⟨?_, ⟨[o], by rw [a4, h1]⟩, .inr ⟨rfl, h6, a, by rw [← h2]; exact a3, addArgs_ok a1, o, ?_, h5⟩⟩
    · intro i id hi; rw [a4]; rw [a5] at hi; exact h3 i id hi
    · rw [a2, a4, h1]; simp
  have keepExt : ∀ o, ExtOk (st.newObj o) := by
    intro o i id hi
    have := hE i id hi
    unfold CfgState.newObj
    simp only
    rw [List.getElem?_append_left]
    · exact this
    · by_contra hlt
      rw [List.getElem?_eq_none (by omega)] at this
      cases this
  unfold processDef at h
  simp only at h
  cases hp : d.refs.get? .pruner with
  | some r =>
    have hk : d.kind = some .pruner := by simp [PolicyDef.kind, has_of_get? hp]
    rw [hp] at h; simp only at h
    cases hpp : policyParams r with
    | error e => rw [hpp] at h; simp at h
    | ok ia =>
      obtain ⟨i, args⟩ := ia
      rw [hpp] at h; simp only at h
      obtain ⟨q, rfl, hq, rfl⟩ := policyParams_ok hpp
      split at h
      · split at h
        · simp at h
        · simp only [Prod.mk.injEq] at h
          obtain ⟨e1, e2⟩ := h
          cases hadd : ((st.newObj (.prune i (pruneCfgOf q.args))).add d st.objs.length) with
          | mk s2 r2 =>
            rw [hadd] at e1 e2
            simp only at e1 e2
            subst e1
            cases r2 with
            | error e => cases e2
            | ok u =>
              cases e2
              exact fresh (.prune i (pruneCfgOf q.args)) (st.newObj (.prune i (pruneCfgOf q.args))) _ rfl rfl (keepExt _) hadd ⟨hk, by simp [PolicyDef.instName, hp, hq],
                by simpa [PolicyDef.instArgs, hp] using pruneCfgOf_ok q.args⟩ (by simp [hk])
      · simp at h
  | none =>
  rw [hp] at h; simp only at h
  have np := not_has_of_get? hp
  cases hr : d.refs.get? .regularizer with
  | some r =>
    have hk : d.kind = some .regularizer := by simp [PolicyDef.kind, np, has_of_get? hr]
    rw [hr] at h; simp only at h
    cases hpp : policyParams r with
    | error e => rw [hpp] at h; simp at h
    | ok ia =>
      obtain ⟨i, args⟩ := ia
      rw [hpp] at h; simp only at h
      obtain ⟨q, rfl, hq, rfl⟩ := policyParams_ok hpp
      split at h
      · split at h
        · simp at h
        · rename_i kk hkk
          simp only [Prod.mk.injEq] at h
          obtain ⟨e1, e2⟩ := h
          cases hadd : ((st.newObj (.reg i kk)).add d st.objs.length) with
          | mk s2 r2 =>
            rw [hadd] at e1 e2
            simp only at e1 e2
            subst e1
            cases r2 with
            | error e => cases e2
            | ok u =>
              cases e2
              exact fresh (.reg i kk) (st.newObj (.reg i kk)) _ rfl rfl (keepExt _) hadd ⟨hk, by simp [PolicyDef.instName, hr, hq],
                by simpa [PolicyDef.instArgs, hr] using regPolicyArgs_ok hkk⟩ (by simp [hk])
      · simp at h
  | none =>
  rw [hr] at h; simp only at h
  have nr := not_has_of_get? hr
  cases hqz : d.refs.get? .quantizer with
  | some r =>
    have hk : d.kind = some .quantizer := by simp [PolicyDef.kind, np, nr, has_of_get? hqz]
    rw [hqz] at h; simp only at h
    cases hpp : policyParams r with
    | error e => rw [hpp] at h; simp at h
    | ok ia =>
      obtain ⟨i, args⟩ := ia
      rw [hpp] at h; simp only at h
      obtain ⟨q, rfl, hq, rfl⟩ := policyParams_ok hpp
      split at h
      · simp only [Prod.mk.injEq] at h
        obtain ⟨e1, e2⟩ := h
        cases hadd : ((st.newObj (.quant i)).add d st.objs.length) with
        | mk s2 r2 =>
          rw [hadd] at e1 e2
          simp only at e1 e2
          subst e1
          cases r2 with
          | error e => cases e2
          | ok u =>
            cases e2
            exact fresh (.quant i) (st.newObj (.quant i)) _ rfl rfl (keepExt _) hadd ⟨hk, by simp [PolicyDef.instName, hqz, hq]⟩ (by simp [hk])
      · simp at h
  | none =>
  rw [hqz] at h; simp only at h
  have nq := not_has_of_get? hqz
  cases hl : d.refs.get? .lrScheduler with
  | some r =>
    have hk : d.kind = some .lrScheduler := by simp [PolicyDef.kind, np, nr, nq, has_of_get? hl]
    rw [hl] at h; simp only [Prod.mk.injEq, Except.ok.injEq] at h
    obtain ⟨rfl, rfl⟩ := h
    exact ⟨hE, ⟨[], by simp⟩, .inl ⟨rfl, hk, rfl⟩⟩
  | none =>
  rw [hl] at h; simp only at h
  have nl := not_has_of_get? hl
  cases hx : d.refs.get? .extension with
  | some r =>
    have hk : d.kind = some .extension := by simp [PolicyDef.kind, np, nr, nq, nl, has_of_get? hx]
    rw [hx] at h; simp only at h
    cases hpp : policyParams r with
    | error e => rw [hpp] at h; simp at h
    | ok ia =>
      obtain ⟨i, args⟩ := ia
      rw [hpp] at h; simp only at h
      obtain ⟨q, rfl, hq, rfl⟩ := policyParams_ok hpp
      have hD : Describes d (.ext i) := ⟨hk, by simp [PolicyDef.instName, hx, hq]⟩
      split at h
      · cases hid : st.extIds.get? i with
        | some id =>
          rw [hid] at h
          simp only [Prod.mk.injEq] at h
          obtain ⟨e1, e2⟩ := h
          cases hadd : (st.add d id) with
          | mk s2 r2 =>
            rw [hadd] at e1 e2
            simp only at e1 e2
            subst e1
            cases r2 with
            | error e => cases e2
            | ok u =>
              cases e2
              obtain ⟨a, a1, a2, a3, a4, a5⟩ := add_ok hadd
              refine ⟨?_, ⟨[], by simp [a4]⟩, .inr ⟨rfl, by simp [hk], a, a3, addArgs_ok a1, .ext i, ?_, hD⟩⟩
              · intro j jd hj; rw [a4]; rw [a5] at hj; exact hE j jd hj
              · rw [a2, a4]; exact hE i id hid
        | none =>
          rw [hid] at h
          simp only [Prod.mk.injEq] at h
          obtain ⟨e1, e2⟩ := h
          cases hadd : (({ st.newObj (.ext i) with extIds := st.extIds.set i st.objs.length } : CfgState).add d st.objs.length) with
          | mk s2 r2 =>
            rw [hadd] at e1 e2
            simp only at e1 e2
            subst e1
            cases r2 with
            | error e => cases e2
            | ok u =>
              cases e2
              refine fresh (.ext i) ({ st.newObj (.ext i) with extIds := st.extIds.set i st.objs.length } : CfgState) _ rfl rfl ?_ hadd hD (by simp [hk])
              intro j jd hj
              simp only at hj
              rw [Dict.get?_set] at hj
              split at hj
              · rename_i e; subst e; cases hj; simp [CfgState.newObj]
              · exact keepExt (.ext i) j jd hj
      · simp at h
  | none => rw [hx] at h; simp at h

theorem registers_mono {objs objs' : List PolObj} (h : ∃ suf, objs' = objs ++ suf) {d a} (hr : Registers objs d a) :
    Registers objs' d a := by
  obtain ⟨suf, rfl⟩ := h
  obtain ⟨h1, o, h2, h3⟩ := hr
  refine ⟨h1, o, ?_, h3⟩
  rw [List.getElem?_append_left]
  · exact h2
  · by_contra hlt
    rw [List.getElem?_eq_none (by omega)] at h2
    cases h2

theorem processDefs_ok {cs : Containers} : ∀ (ds : List PolicyDef) (st st' : CfgState) (lrs : List PolicyDef), ExtOk st →
    processDefs cs st ds = (st', .ok lrs) →
    ExtOk st' ∧ (∃ suf, st'.objs = st.objs ++ suf) ∧ lrs = ds.filter (fun d => decide (d.kind = some .lrScheduler)) ∧
    ∃ calls, addAll st.sched calls = .ok st'.sched ∧
      List.Forall₂ (Registers st'.objs) (ds.filter (fun d => decide (d.kind ≠ some .lrScheduler))) calls := by
  intro ds
  induction ds with
  | nil =>
    intro st st' lrs hE h
    simp [processDefs] at h
    obtain ⟨rfl, rfl⟩ := h
    exact ⟨hE, ⟨[], by simp⟩, rfl, [], rfl, .nil⟩
  | cons d ds ih =>
    intro st st' lrs hE h
    simp only [processDefs] at h
    cases h1 : processDef cs st d with
    | mk s1 r1 =>
      rw [h1] at h
      cases r1 with
      | error e => simp at h
      | ok put =>
        simp only at h
        cases h2 : processDefs cs s1 ds with
        | mk s2 r2 =>
          rw [h2] at h
          cases r2 with
          | error e => simp at h
          | ok ls =>
            simp only [Prod.mk.injEq, Except.ok.injEq] at h
            obtain ⟨rfl, rfl⟩ := h
            obtain ⟨E1, ⟨suf1, o1⟩, hor⟩ := processDef_ok hE h1
            obtain ⟨E2, ⟨suf2, o2⟩, hl, calls, c1, c2⟩ := ih s1 s2 ls E1 h2
            refine ⟨E2, ⟨suf1 ++ suf2, by rw [o2, o1]; simp⟩, ?_⟩
            rcases hor with ⟨rfl, hk, rfl⟩ | ⟨rfl, hk, a, ha, hreg⟩
            · refine ⟨by simp [hk, hl], calls, c1, by simpa [hk] using c2⟩
            · refine ⟨by simp [hk, hl], a :: calls, ?_, ?_⟩
              · have := addAll_append ha calls
                simp only [List.singleton_append] at this
                rw [this]; exact c1
              · simp only [ne_eq, hk, not_false_eq_true, decide_true, List.filter_cons_of_pos]
                exact .cons (registers_mono ⟨suf2, o2⟩ hreg) c2

theorem processLr_ok {lrs : Dict String Comp} : ∀ (ds : List PolicyDef) (st st' : CfgState),
    (∀ d ∈ ds, d.kind = some .lrScheduler) → processLr lrs st ds = (st', .ok ()) →
    (∃ suf, st'.objs = st.objs ++ suf) ∧ ∃ calls, addAll st.sched calls = .ok st'.sched ∧
      List.Forall₂ (Registers st'.objs) ds calls := by
  intro ds
  induction ds with
  | nil =>
    intro st st' _ h
    simp [processLr] at h
    subst h
    exact ⟨⟨[], by simp⟩, [], rfl, .nil⟩
  | cons d ds ih =>
    intro st st' hk h
    simp only [processLr] at h
    have hkd := hk d (by simp)
    cases hpp : policyParams ((d.refs.get? .lrScheduler).getD none) with
    | error e => rw [hpp] at h; simp at h
    | ok ia =>
      obtain ⟨i, args⟩ := ia
      rw [hpp] at h; simp only at h
      obtain ⟨q, hq0, hq, _⟩ := policyParams_ok hpp
      split at h
      · cases hadd : ((st.newObj (.lr i)).add d st.objs.length) with
        | mk s1 r1 =>
          rw [hadd] at h
          cases r1 with
          | error e => simp at h
          | ok u =>
            simp only at h
            obtain ⟨a, a1, a2, a3, a4, a5⟩ := add_ok hadd
            obtain ⟨⟨suf, o1⟩, calls, c1, c2⟩ := ih s1 st' (fun d hd => hk d (by simp [hd])) h
            have hD : Describes d (.lr i) := by
              refine ⟨hkd, ?_⟩
              unfold PolicyDef.instName
              cases hx : d.refs.get? .lrScheduler with
              | none => simp [hx] at hq0
              | some r => simp only [hx, Option.getD_some] at hq0; subst hq0; simp [hq]
            refine ⟨⟨.lr i :: suf, by rw [o1, a4]; simp [CfgState.newObj]⟩, a :: calls, ?_, .cons ?_ c2⟩
            · have := addAll_append a3 calls
              simp only [List.singleton_append] at this
              simp only [CfgState.newObj] at this
              rw [this]; exact c1
            · refine registers_mono ⟨suf, o1⟩ ⟨addArgs_ok a1, .lr i, ?_, hD⟩
              rw [a2, a4]; simp [CfgState.newObj]
      · simp at h

/-- C76: when `dict_config` succeeds, the scheduler is exactly what the definitions describe: every
definition is registered once, with its own schedule and with the policy its keys name, first the
definitions that are not learning-rate policies, then those that are, each group in file order.
Together with C01 this gives the policies running in each epoch. -/
theorem C76_schedule (classes : Dict String Sig) (model optimizer : YVal) (resumed : Option Nat) (sd sd' : SchedDict)
    (st' : CfgState) (h : dictConfig classes model optimizer resumed sd {} = (sd', st', .ok ())) :
    ∃ calls, addAll {} calls = .ok st'.sched ∧
      List.Forall₂ (Registers st'.objs)
        (sd.policies.filter (fun d => decide (d.kind ≠ some .lrScheduler)) ++
         sd.policies.filter (fun d => decide (d.kind = some .lrScheduler))) calls := by
  unfold dictConfig at h
  simp only at h
  split at h
  · simp at h
  · split at h
    · simp at h
    · split at h
      · simp at h
      · split at h
        · simp at h
        · split at h
          · simp at h
          · split at h
            · simp at h
            · rename_i st1 lrDefs hdefs
              split at h
              · simp at h
              · split at h
                · simp at h
                · rename_i st2 hlr
                  simp only [Prod.mk.injEq, and_true] at h
                  obtain ⟨_, rfl⟩ := h
                  obtain ⟨_, _, hl, c1, hc1, hf1⟩ := processDefs_ok _ _ _ _ (by intro i id hi; simp at hi) hdefs
                  obtain ⟨hsuf, c2, hc2, hf2⟩ := processLr_ok _ _ _ (by
                    intro d hd; rw [hl] at hd; simpa using (List.mem_filter.1 hd).2) hlr
                  refine ⟨c1 ++ c2, ?_, ?_⟩
                  · rw [addAll_append hc1]; exact hc2
                  · rw [← hl]
                    refine List.rel_append (hf1.imp fun _ _ hr => registers_mono hsuf hr) hf2

/-- How often a definition asks for epoch `e`: in its `epochs` list, or once for every `frequency`-th epoch
from `starting_epoch` up to (not including) `ending_epoch`. -/
def PolicyDef.timesIn (d : PolicyDef) (e : Int) : Nat :=
  match d.epochs, d.starting, d.ending, d.freq with
  | some es, _, _, _ => es.count e
  | none, some s, some n, some f => if s ≤ e ∧ e < n ∧ f ∣ e - s then 1 else 0
  | _, _, _, _ => 0

/-- C76 (what runs): there is one policy object per definition, made as its definition says, and the
policies run in an epoch are those of the definitions due in it, learning-rate policies last. -/
theorem C76_running (classes : Dict String Sig) (model optimizer : YVal) (resumed : Option Nat) (sd sd' : SchedDict)
    (st' : CfgState) (h : dictConfig classes model optimizer resumed sd {} = (sd', st', .ok ())) :
    ∃ objs : List PolObj,
      List.Forall₂ Describes
        (sd.policies.filter (fun d => decide (d.kind ≠ some .lrScheduler)) ++
         sd.policies.filter (fun d => decide (d.kind = some .lrScheduler))) objs ∧
      ∀ e : Int, (st'.sched.active e).map (fun i => st'.objs[i]?) =
        (List.zip (sd.policies.filter (fun d => decide (d.kind ≠ some .lrScheduler)) ++
         sd.policies.filter (fun d => decide (d.kind = some .lrScheduler))) objs).flatMap fun p =>
          List.replicate (p.1.timesIn e) (some p.2) := by
  obtain ⟨calls, hc, hf⟩ := C76_schedule classes model optimizer resumed sd sd' st' h
  have key : ∀ (ds : List PolicyDef) (calls : List AddArgs), List.Forall₂ (Registers st'.objs) ds calls →
      ∃ objs : List PolObj, List.Forall₂ Describes ds objs ∧ ∀ e : Int,
        (calls.flatMap fun a => List.replicate (a.occurrences e) a.policy).map (fun i => st'.objs[i]?) =
        (List.zip ds objs).flatMap fun p => List.replicate (p.1.timesIn e) (some p.2) := by
    intro ds calls hf
    induction hf with
    | nil => exact ⟨[], .nil, by simp⟩
    | @cons d a ds as h1 _ ih =>
      obtain ⟨os, i1, i2⟩ := ih
      obtain ⟨⟨e1, e2⟩, o, e3, e4⟩ := h1
      refine ⟨o :: os, .cons e4 i1, fun e => ?_⟩
      have : a.occurrences e = d.timesIn e := by
        unfold AddArgs.occurrences PolicyDef.timesIn
        cases hd : d.epochs with
        | some es => rw [e1, hd]
        | none =>
          obtain ⟨f1, f2, f3⟩ := e2 hd
          rw [e1, hd, f1, f2, f3]
          cases d.starting <;> cases d.ending <;> cases d.freq <;> simp
      simp only [List.flatMap_cons, List.map_append, List.zip_cons_cons, List.map_replicate, this, e3]
      rw [← i2 e]
  obtain ⟨objs, k1, k2⟩ := key _ _ hf
  exact ⟨objs, k1, fun e => by rw [C01_active_policies calls _ hc e]; exact k2 e⟩

def clsEx2 : Dict String Sig := [("AutomatedGradualPruner", [⟨"self", .posOrKw, false⟩, ⟨"name", .posOrKw, false⟩,
    ⟨"initial_sparsity", .posOrKw, false⟩, ⟨"final_sparsity", .posOrKw, false⟩, ⟨"weights", .posOrKw, false⟩]),
  ("MultiStepMultiGammaLR", sigMultiStep)]

def sdEx : SchedDict where
  pruners := [("agp", [("class", .str "AutomatedGradualPruner"), ("initial_sparsity", .int 0), ("final_sparsity", .int 1), ("weights", .obj 3)])]
  lrSchedulers := [("lr", [("class", .str "MultiStepMultiGammaLR"), ("milestones", .obj 1), ("gammas", .obj 2)])]
  policies := [{ refs := [(.lrScheduler, some ⟨some "lr", none⟩)], starting := some 0, ending := some 4, freq := some 1 },
    { refs := [(.pruner, some ⟨some "agp", none⟩)], starting := some 0, ending := some 4, freq := some 2 }]

example : (dictConfig clsEx2 (.obj 7) (.obj 8) none sdEx {}).2.2 = .ok () ∧
    (dictConfig clsEx2 (.obj 7) (.obj 8) none sdEx {}).2.1.objs = [.prune "agp" {}, .lr "lr"] ∧
    (dictConfig clsEx2 (.obj 7) (.obj 8) none sdEx {}).2.1.sched.active 2 = [0, 1] := by decide +kernel

/-- C76 (sections): a section is built when every entry of it can be built, and then the container has one component per
entry, under the entry's name and in file order, of the class the entry names and with the arguments `C52` describes. -/
theorem C76_sections (classes : Dict String Sig) (model : YVal) (extra : Dict String YVal) (sec : Dict String (Dict String YVal))
    (cs : Dict String Comp) (h : (factory classes model extra sec).1 = .ok cs) :
    cs.map Prod.fst = sec.map Prod.fst ∧
    List.Forall₂ (fun (e : String × Dict String YVal) (c : String × Comp) => c.1 = e.1 ∧
      (buildComponent classes model e.1 e.2 extra).1 = .ok c.2 ∧ e.2.get? "class" = some (.str c.2.cls)) sec cs := by
  induction sec generalizing cs with
  | nil => simp only [factory, Except.ok.injEq] at h; subst h; exact ⟨rfl, .nil⟩
  | cons e sec ih =>
    obtain ⟨name, user⟩ := e
    unfold factory at h
    rcases hb : buildComponent classes model name user extra with ⟨r, user'⟩
    rw [hb] at h
    cases r with
    | error er => cases h
    | ok c =>
      dsimp only at h
      rcases hf : factory classes model extra sec with ⟨r2, rest'⟩
      rw [hf] at h
      cases r2 with
      | error er => cases h
      | ok cs' =>
        dsimp only at h
        cases h
        obtain ⟨i1, i2⟩ := ih cs' (by rw [hf])
        refine ⟨by simp [i1], .cons ⟨rfl, by rw [hb], ?_⟩ i2⟩
        unfold buildComponent at hb
        cases hc : user.get? "class" with
        | none => simp [Dict.popE, hc] at hb
        | some cv =>
          rw [popE_ok _ _ _ hc] at hb
          cases cv with
          | int n => simp at hb
          | obj n => simp at hb
          | bool b => simp at hb
          | str c0 =>
            cases hs : classes.get? c0 with
            | none => simp [hs] at hb
            | some sig =>
              simp only [hs] at hb
              split at hb
              · simp at hb
              · have hb1 := congrArg Prod.fst hb
                dsimp only at hb1
                unfold callClass at hb1
                split at hb1
                · simp at hb1
                · split at hb1
                  · simp at hb1
                  · simp only [Except.ok.injEq] at hb1
                    rw [← hb1]

example : ∃ cs, (factory clsEx2 (.obj 7) [] sdEx.pruners).1 = .ok cs ∧ cs.map Prod.fst = ["agp"] ∧
    cs.map (fun c => c.2.cls) = ["AutomatedGradualPruner"] := ⟨_, rfl, by decide +kernel, by decide +kernel⟩

/-- C77 is violated: the configuration dictionary is changed in place, so using it a second time
(for another model, or to rebuild the schedule after a failure) fails. -/
theorem C77_violated_second_use : ∃ (sd : SchedDict),
    (dictConfig clsEx2 (.obj 7) (.obj 8) none sd {}).2.2 = .ok () ∧
    (dictConfig clsEx2 (.obj 7) (.obj 8) none (dictConfig clsEx2 (.obj 7) (.obj 8) none sd {}).1 {}).2.2 = .error .key :=
  ⟨sdEx, by decide +kernel, by decide +kernel⟩

/-- C78 is violated: a schedule that is refused has already changed the scheduler passed by the
caller: the definitions before the faulty one stay registered. -/
theorem C78_violated_partial_registration : ∃ (sd : SchedDict) (e : Err),
    (dictConfig clsEx2 (.obj 7) (.obj 8) none sd {}).2.2 = .error e ∧
    (dictConfig clsEx2 (.obj 7) (.obj 8) none sd {}).2.1.sched.active 0 = [0] :=
  ⟨{ sdEx with policies := [{ refs := [(.pruner, some ⟨some "agp", none⟩)], starting := some 0, ending := some 4, freq := some 2 },
      { refs := [(.pruner, some ⟨some "nosuch", none⟩)], starting := some 0, ending := some 4, freq := some 2 }] },
    .assertion, by decide +kernel, by decide +kernel⟩

/-- C78: a schedule refused before any policy is handled (a section that cannot be built, more than
one quantizer) leaves the scheduler alone. -/
theorem C78_sections_partial (classes : Dict String Sig) (model optimizer : YVal) (resumed : Option Nat) (sd : SchedDict)
    (st : CfgState) (e : Err)
    (h : (factory classes model [] sd.pruners).1 = .error e ∨ (factory classes model [] sd.regularizers).1 = .error e ∨
      (factory classes model [("optimizer", optimizer)] sd.quantizers).1 = .error e ∨
      (factory classes model [] sd.extensions).1 = .error e) :
    (dictConfig classes model optimizer resumed sd st).2.1 = st ∧
    ∃ e', (dictConfig classes model optimizer resumed sd st).2.2 = .error e' := by
  unfold dictConfig
  simp only
  cases h1 : (factory classes model [] sd.pruners).1 with
  | error e1 => exact ⟨rfl, _, rfl⟩
  | ok c1 =>
    simp only
    cases h2 : (factory classes model [] sd.regularizers).1 with
    | error e1 => exact ⟨rfl, _, rfl⟩
    | ok c2 =>
      simp only
      cases h3 : (factory classes model [("optimizer", optimizer)] sd.quantizers).1 with
      | error e1 => exact ⟨rfl, _, rfl⟩
      | ok c3 =>
        simp only
        split
        · exact ⟨rfl, _, rfl⟩
        · cases h4 : (factory classes model [] sd.extensions).1 with
          | error e1 => exact ⟨rfl, _, rfl⟩
          | ok c4 =>
            exfalso
            rw [h1, h2, h3, h4] at h
            simp at h

example : (factory clsEx2 (.obj 0) [] [("p", [("class", .str "Nope")])]).1 = .error .value := by decide +kernel

end Verif
