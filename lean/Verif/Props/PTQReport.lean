import Verif.Model.PTQReport
import Verif.Props.PTQFuse2
import Verif.Lemmas.Fold
import Mathlib.Data.List.Nodup
/-! # C161-C163: the per-layer report, models with bidirectional LSTMs, the beginning of the searches -/
namespace Verif

theorem set_new {α β : Type} [DecidableEq α] (d : Dict α β) (k : α) (v : β) (h : k ∉ d.map Prod.fst) :
    d.set k v = d ++ [(k, v)] := by
  induction d with
  | nil => rfl
  | cons kv d ih =>
    obtain ⟨a, b⟩ := kv
    rw [List.map_cons, List.mem_cons, not_or] at h
    show (if a = k then _ else (a, b) :: Dict.set d k v) = _
    rw [if_neg (fun e => h.1 e.symm), ih h.2]; rfl

/-! ## Specification -/

/-- The module has an entry in the report: it has no children, or stands for a quantized layer. -/
def Listed (mods : Dict Name RMod) (n : Name) : Bool :=
  match mods.get? n with
  | some m => !m.children || m.wrapper
  | none => false

/-- The settings the report repeats for every layer. -/
def Setting (k : String) : Prop := k ≠ "bits_activations" ∧ k ≠ "bits_parameters" ∧ k ≠ "bits_accum"

/-! ## The layers -/

/-- The entry of a listed layer. -/
def entryOf (mods : Dict Name RMod) (qbits : Dict Name QBits) (defaults : Dict String RVal)
    (no : Name × Dict String RVal) : Option (Name × Dict String RVal) :=
  match Listed mods no.1, qbits.get? no.1 with
  | true, some q => some (no.1, reportEntry defaults no.2 q)
  | _, _ => none

theorem reportStep_ok {mods : Dict Name RMod} {qbits : Dict Name QBits} {defaults : Dict String RVal}
    {out out' : Dict Name (Dict String RVal)} {no : Name × Dict String RVal}
    (h : reportStep mods qbits defaults out no = .ok out') :
    (mods.get? no.1).isSome ∧ (Listed mods no.1 = true → (qbits.get? no.1).isSome) ∧
    out' = (match entryOf mods qbits defaults no with
      | some e => out.set e.1 e.2
      | none => out) := by
  unfold reportStep at h
  obtain ⟨m, hm, h⟩ := ok_bind h
  have hm' : mods.get? no.1 = some m := by
    unfold Dict.getE at hm
    cases e : mods.get? no.1 with
    | none => rw [e] at hm; cases hm
    | some x => rw [e] at hm; cases hm; rfl
  refine ⟨by rw [hm']; rfl, ?_⟩
  unfold entryOf Listed
  rw [hm']
  by_cases hc : (m.children && !m.wrapper) = true
  · have hl : (!m.children || m.wrapper) = false := by revert hc; cases m.children <;> cases m.wrapper <;> simp
    simp only [hc, if_true] at h
    cases h
    simp [hl]
  · have hl : (!m.children || m.wrapper) = true := by revert hc; cases m.children <;> cases m.wrapper <;> simp
    rw [if_neg hc] at h
    obtain ⟨q, hq, h⟩ := ok_bind h
    have hq' : qbits.get? no.1 = some q := by
      unfold Dict.getE at hq
      cases e : qbits.get? no.1 with
      | none => rw [e] at hq; cases hq
      | some x => rw [e] at hq; cases hq; rfl
    cases h
    simp [hl, hq']

theorem reportStep_total (mods : Dict Name RMod) (qbits : Dict Name QBits) (defaults : Dict String RVal)
    (out : Dict Name (Dict String RVal)) (no : Name × Dict String RVal) :
    (∃ o, reportStep mods qbits defaults out no = .ok o) ∨ reportStep mods qbits defaults out no = .error .key ∧
      ((mods.get? no.1).isNone ∨ (qbits.get? no.1).isNone) := by
  unfold reportStep Dict.getE
  cases hm : mods.get? no.1 with
  | none => right; exact ⟨rfl, by simp⟩
  | some m =>
    simp only [bind, Except.bind]
    split
    · left; exact ⟨_, rfl⟩
    · cases hq : qbits.get? no.1 with
      | none => right; exact ⟨rfl, by simp⟩
      | some q => left; exact ⟨_, rfl⟩

theorem report_fold {mods : Dict Name RMod} {qbits : Dict Name QBits} {defaults : Dict String RVal}
    (l : Dict Name (Dict String RVal)) (acc out : Dict Name (Dict String RVal))
    (hn : (acc.map Prod.fst ++ l.map Prod.fst).Nodup)
    (h : l.foldlM (reportStep mods qbits defaults) acc = .ok out) :
    out = acc ++ l.filterMap (entryOf mods qbits defaults) ∧
    ∀ no ∈ l, (mods.get? no.1).isSome ∧ (Listed mods no.1 = true → (qbits.get? no.1).isSome) := by
  induction l generalizing acc with
  | nil => simp only [List.foldlM_nil] at h; cases h; simp
  | cons no l ih =>
    rw [List.foldlM_cons] at h
    obtain ⟨s1, h1, h2⟩ := ok_bind h
    obtain ⟨ha, hb, hc⟩ := reportStep_ok h1
    rw [List.map_cons] at hn
    have hnot : no.1 ∉ acc.map Prod.fst := by
      intro hx
      exact (List.nodup_append.1 hn).2.2 _ hx _ (by simp) rfl
    cases he : entryOf mods qbits defaults no with
    | none =>
      rw [he] at hc
      simp only at hc
      subst hc
      have hn' : (s1.map Prod.fst ++ l.map Prod.fst).Nodup := by
        refine hn.sublist (List.Sublist.append_left ?_ _)
        exact List.sublist_cons_self _ _
      obtain ⟨i1, i2⟩ := ih _ hn' h2
      rw [List.filterMap_cons, he]
      refine ⟨i1, ?_⟩
      intro x hx
      rcases List.mem_cons.1 hx with rfl | hx
      · exact ⟨ha, hb⟩
      · exact i2 x hx
    | some e =>
      rw [he] at hc
      simp only at hc
      have hk : e.1 = no.1 := by
        unfold entryOf at he
        split at he
        · cases he; rfl
        · cases he
      rw [set_new _ _ _ (by rw [hk]; exact hnot)] at hc
      subst hc
      have hn' : ((acc ++ [(e.1, e.2)]).map Prod.fst ++ l.map Prod.fst).Nodup := by
        simp only [List.map_append, List.map_cons, List.map_nil, List.append_assoc, hk]
        exact hn
      obtain ⟨i1, i2⟩ := ih _ hn' h2
      rw [List.filterMap_cons, he]
      refine ⟨by rw [i1]; simp, ?_⟩
      intro x hx
      rcases List.mem_cons.1 hx with rfl | hx
      · exact ⟨ha, hb⟩
      · exact i2 x hx

/-! ## One entry -/

theorem entry_fold_get (l : Dict String RVal) (ov acc : Dict String RVal) (hn : Dict.Nodup l) (k : String) :
    Dict.get? (l.foldl (fun d kv => d.set kv.1 ((Dict.get? ov kv.1).getD kv.2)) acc) k =
      match Dict.get? l k with
      | some v => some ((Dict.get? ov k).getD v)
      | none => Dict.get? acc k := by
  induction l generalizing acc with
  | nil => rfl
  | cons kv l ih =>
    obtain ⟨a, v⟩ := kv
    have hn' : a ∉ l.map Prod.fst ∧ Dict.Nodup l := List.nodup_cons.1 hn
    rw [List.foldl_cons, ih _ hn'.2, Dict.get?_cons]
    by_cases e : a = k
    · subst e
      rw [(Dict.get?_eq_none_iff l a).2 hn'.1, if_pos rfl]
      simp
    · rw [if_neg e]
      cases Dict.get? l k with
      | some w => rfl
      | none => simp only; rw [Dict.get?_set_ne _ _ e]

theorem get?_filter_neR (d : Dict String RVal) (k x : String) :
    Dict.get? (d.filter fun kv => kv.1 ≠ k) x = if x = k then none else Dict.get? d x := by
  induction d with
  | nil => simp
  | cons kv d ih =>
    obtain ⟨a, v⟩ := kv
    by_cases e : a = k
    · subst e
      rw [List.filter_cons_of_neg (by simp), ih, Dict.get?_cons]
      by_cases h : x = a
      · simp [h]
      · rw [if_neg h, if_neg h, if_neg (fun h' => h h'.symm)]
    · rw [List.filter_cons_of_pos (by simpa using e), Dict.get?_cons, Dict.get?_cons, ih]
      by_cases h : a = x
      · subst h; simp [e]
      · simp [h]

theorem popKey_ok {d d' : Dict String RVal} {k : String} (h : popKey d k = .ok d') :
    (Dict.get? d k).isSome ∧ d' = d.filter fun kv => kv.1 ≠ k := by
  unfold popKey Dict.has at h
  split at h
  · next hh => cases h; exact ⟨hh, rfl⟩
  · cases h

theorem reportDefaults_ok {p d : Dict String RVal} (h : reportDefaults p = .ok d) :
    d = ((p.filter fun kv => kv.1 ≠ "bits_activations").filter fun kv => kv.1 ≠ "bits_parameters").filter fun kv => kv.1 ≠ "bits_accum" := by
  unfold reportDefaults at h
  obtain ⟨a, ha, h⟩ := ok_bind h
  obtain ⟨b, hb, h⟩ := ok_bind h
  rw [(popKey_ok h).2, (popKey_ok hb).2, (popKey_ok ha).2]

theorem reportDefaults_get {p d : Dict String RVal} (h : reportDefaults p = .ok d) (k : String) :
    Dict.get? d k = if k = "bits_activations" ∨ k = "bits_parameters" ∨ k = "bits_accum" then none else Dict.get? p k := by
  rw [reportDefaults_ok h, get?_filter_neR, get?_filter_neR, get?_filter_neR]
  by_cases h1 : k = "bits_accum" <;> by_cases h2 : k = "bits_parameters" <;> by_cases h3 : k = "bits_activations" <;> simp [h1, h2, h3]

theorem nodup_filterR {d : Dict String RVal} (h : Dict.Nodup d) (p : String × RVal → Bool) : Dict.Nodup (d.filter p) := by
  unfold Dict.Nodup at *
  exact h.sublist ((List.filter_sublist).map _)

theorem savePerLayer_ok {params : Dict String RVal} {overrides : Dict Name (Dict String RVal)} {qbits : Dict Name QBits}
    {mods : Dict Name RMod} {lqp : Dict String (List ℚ)} {r : QReport} (h : savePerLayer params overrides qbits mods lqp = .ok r) :
    ∃ d, reportDefaults params = .ok d ∧ overrides.foldlM (reportStep mods qbits d) [] = .ok r.layers ∧
      r.lqp = if lqp.isEmpty then none else some (scalarParams lqp) := by
  unfold savePerLayer at h
  obtain ⟨d, hd, h⟩ := ok_bind h
  obtain ⟨l, hl, h⟩ := ok_bind h
  cases h
  exact ⟨d, hd, hl, rfl⟩

/-- C161: the report lists exactly the modules without children and the quantized layers, in the order in which the
quantizer found the modules, each with its own numbers of bits, and each argument of the quantizer with the
value of the override for this layer or else the value the quantizer was built with.  Missing: that the module
really works with these settings, see `C161_violated_float` and `C161_violated_fp16`. -/
theorem C161_layers_partial (params : Dict String RVal) (overrides : Dict Name (Dict String RVal)) (qbits : Dict Name QBits)
    (mods : Dict Name RMod) (lqp : Dict String (List ℚ)) (r : QReport)
    (hp : Dict.Nodup params) (ho : Dict.Nodup overrides)
    (h : savePerLayer params overrides qbits mods lqp = .ok r) :
    r.layers.map Prod.fst = (overrides.map Prod.fst).filter (Listed mods) ∧
    ∀ n ov, (n, ov) ∈ overrides → Listed mods n = true →
      ∃ e q, Dict.get? r.layers n = some e ∧ Dict.get? qbits n = some q ∧
        Dict.get? e "bits_activations" = some (RVal.ofBits q.acts) ∧
        (Dict.get? params "bits_weights" = none → Dict.get? e "bits_weights" = some (RVal.ofBits q.wts)) ∧
        (Dict.get? params "bits_bias" = none → Dict.get? e "bits_bias" = some (RVal.ofBits q.bias)) ∧
        (∀ k v, Setting k → Dict.get? params k = some v →
          Dict.get? e k = some (match (Dict.get? ov k : Option RVal) with | some x => x | none => v)) ∧
        (∀ k, (Dict.get? e k).isSome →
          k = "bits_activations" ∨ k = "bits_weights" ∨ k = "bits_bias" ∨ Setting k ∧ (Dict.get? params k).isSome) := by
  obtain ⟨d, hd, hl, -⟩ := savePerLayer_ok h
  obtain ⟨e1, e2⟩ := report_fold overrides [] r.layers (by simpa [Dict.Nodup] using ho) hl
  rw [List.nil_append] at e1
  have hkeys : r.layers.map Prod.fst = (overrides.map Prod.fst).filter (Listed mods) := by
    rw [e1]
    clear e1 hl h ho
    induction overrides with
    | nil => rfl
    | cons no l ih =>
      have i := ih (fun x hx => e2 x (List.mem_cons_of_mem _ hx))
      have hq := (e2 no (by simp)).2
      rw [List.filterMap_cons, List.map_cons, List.filter_cons]
      cases hL : Listed mods no.1 with
      | false => simp only [entryOf, hL]; simpa using i
      | true =>
        obtain ⟨q, hq⟩ := Option.isSome_iff_exists.1 (hq hL)
        simp only [entryOf, hL, hq, List.map_cons, if_true]
        rw [i]
  refine ⟨hkeys, ?_⟩
  intro n ov hno hL
  obtain ⟨q, hq⟩ := Option.isSome_iff_exists.1 ((e2 _ hno).2 hL)
  have hdn : Dict.Nodup d := by
    rw [reportDefaults_ok hd]
    exact nodup_filterR (nodup_filterR (nodup_filterR hp _) _) _
  have hget : ∀ k, Dict.get? (reportEntry d ov q) k = _ := fun k => entry_fold_get d ov _ hdn k
  have hdk := reportDefaults_get hd
  refine ⟨reportEntry d ov q, q, ?_, hq, ?_, ?_, ?_, ?_, ?_⟩
  · refine Dict.get?_of_mem ?_ ?_
    · show (r.layers.map Prod.fst).Nodup
      rw [hkeys]; exact List.Nodup.filter _ ho
    · rw [e1, List.mem_filterMap]
      exact ⟨(n, ov), hno, by simp only [entryOf, hL, hq]⟩
  · rw [hget, hdk]; simp [Dict.get?_cons]
  · intro hw
    rw [hget, hdk]; simp [hw, Dict.get?_cons]
  · intro hw
    rw [hget, hdk]; simp [hw, Dict.get?_cons]
  · intro k v hs hv
    rw [hget, hdk, if_neg (by rintro (h | h | h); exacts [hs.1 h, hs.2.1 h, hs.2.2 h]), hv]
    cases Dict.get? ov k <;> rfl
  · intro k hk
    rw [hget, hdk] at hk
    by_cases h3 : k = "bits_activations" ∨ k = "bits_parameters" ∨ k = "bits_accum"
    · rw [if_pos h3] at hk
      simp only [Dict.get?_cons, Dict.get?_nil] at hk
      by_cases a : "bits_activations" = k
      · exact Or.inl a.symm
      · by_cases b : "bits_weights" = k
        · exact Or.inr (Or.inl b.symm)
        · by_cases c : "bits_bias" = k
          · exact Or.inr (Or.inr (Or.inl c.symm))
          · simp [a, b, c] at hk
    · rw [if_neg h3] at hk
      have hs : Setting k := ⟨fun h => h3 (.inl h), fun h => h3 (.inr (.inl h)), fun h => h3 (.inr (.inr h))⟩
      cases hx : Dict.get? params k with
      | some v => exact Or.inr (Or.inr (Or.inr ⟨hs, rfl⟩))
      | none =>
        rw [hx] at hk
        simp only [Dict.get?_cons, Dict.get?_nil] at hk
        by_cases a : "bits_activations" = k
        · exact Or.inl a.symm
        · by_cases b : "bits_weights" = k
          · exact Or.inr (Or.inl b.symm)
          · by_cases c : "bits_bias" = k
            · exact Or.inr (Or.inr (Or.inl c.symm))
            · simp [a, b, c] at hk

/-- C161: writing the report fails only with a KeyError; it does not if the prepared model has all the
modules that the quantizer saw when it was built. -/
theorem C161_total (params : Dict String RVal) (overrides : Dict Name (Dict String RVal)) (qbits : Dict Name QBits)
    (mods : Dict Name RMod) (lqp : Dict String (List ℚ)) :
    ((∃ r, savePerLayer params overrides qbits mods lqp = .ok r) ∨ savePerLayer params overrides qbits mods lqp = .error .key) ∧
    (((Dict.get? params "bits_activations").isSome ∧ (Dict.get? params "bits_parameters").isSome ∧ (Dict.get? params "bits_accum").isSome) →
      (∀ no ∈ overrides, (Dict.get? mods no.1).isSome ∧ (Dict.get? qbits no.1).isSome) →
      ∃ r, savePerLayer params overrides qbits mods lqp = .ok r) := by
  have hpop : ∀ d k, (∃ x, popKey d k = .ok x) ∨ popKey d k = .error .key := by
    intro d k; unfold popKey; split
    · exact Or.inl ⟨_, rfl⟩
    · exact Or.inr rfl
  have hfold : ∀ d acc, (∃ x, overrides.foldlM (reportStep mods qbits d) acc = .ok x) ∨
      overrides.foldlM (reportStep mods qbits d) acc = .error .key := by
    intro d
    induction overrides with
    | nil => intro acc; exact Or.inl ⟨acc, rfl⟩
    | cons no l ih =>
      intro acc
      rw [List.foldlM_cons]
      rcases reportStep_total mods qbits d acc no with ⟨o, ho⟩ | ⟨ho, -⟩
      · rw [ho]; exact ih o
      · rw [ho]; exact Or.inr rfl
  have hdef : (∃ x, reportDefaults params = .ok x) ∨ reportDefaults params = .error .key := by
    unfold reportDefaults
    rcases hpop params "bits_activations" with ⟨a, ha⟩ | ha
    · rw [ha]
      rcases hpop a "bits_parameters" with ⟨b, hb⟩ | hb
      · simp only [bind, Except.bind, hb]; exact hpop b _
      · simp only [bind, Except.bind, hb]; simp
    · rw [ha]; exact Or.inr rfl
  constructor
  · unfold savePerLayer
    rcases hdef with ⟨d, hd⟩ | hd
    · rw [hd]
      rcases hfold d [] with ⟨o, ho⟩ | ho
      · simp only [bind, Except.bind, ho]; exact Or.inl ⟨_, rfl⟩
      · simp only [bind, Except.bind, ho]; simp
    · rw [hd]; exact Or.inr rfl
  · rintro ⟨h1, h2, h3⟩ hall
    have hd : ∃ d, reportDefaults params = .ok d := by
      refine ⟨((params.filter fun kv => kv.1 ≠ "bits_activations").filter fun kv => kv.1 ≠ "bits_parameters").filter fun kv => kv.1 ≠ "bits_accum", ?_⟩
      have e1 : popKey params "bits_activations" = .ok (params.filter fun kv => kv.1 ≠ "bits_activations") := by
        unfold popKey Dict.has; rw [if_pos h1]
      have e2 : popKey (params.filter fun kv => kv.1 ≠ "bits_activations") "bits_parameters" =
          .ok ((params.filter fun kv => kv.1 ≠ "bits_activations").filter fun kv => kv.1 ≠ "bits_parameters") := by
        unfold popKey Dict.has; rw [if_pos]; rw [get?_filter_neR]; simpa using h2
      have e3 : popKey ((params.filter fun kv => kv.1 ≠ "bits_activations").filter fun kv => kv.1 ≠ "bits_parameters") "bits_accum" =
          .ok (((params.filter fun kv => kv.1 ≠ "bits_activations").filter fun kv => kv.1 ≠ "bits_parameters").filter fun kv => kv.1 ≠ "bits_accum") := by
        unfold popKey Dict.has; rw [if_pos]; rw [get?_filter_neR, get?_filter_neR]; simpa using h3
      unfold reportDefaults
      rw [e1]; simp only [bind, Except.bind]; rw [e2]; simp only; exact e3
    obtain ⟨d, hd⟩ := hd
    have hf : ∀ acc, ∃ x, overrides.foldlM (reportStep mods qbits d) acc = .ok x := by
      clear hfold
      induction overrides with
      | nil => intro acc; exact ⟨acc, rfl⟩
      | cons no l ih =>
        intro acc
        rw [List.foldlM_cons]
        have hx := hall no (by simp)
        rcases reportStep_total mods qbits d acc no with ⟨o, ho⟩ | ⟨-, ho⟩
        · rw [ho]; exact ih (fun x hx => hall x (List.mem_cons_of_mem _ hx)) o
        · exfalso
          rcases ho with ho | ho
          · rw [Option.isNone_iff_eq_none] at ho; rw [ho] at hx; simp at hx
          · rw [Option.isNone_iff_eq_none] at ho; rw [ho] at hx; simp at hx
    obtain ⟨x, hx⟩ := hf []
    unfold savePerLayer
    rw [hd]; simp only [bind, Except.bind]; rw [hx]; exact ⟨_, rfl⟩

theorem scalar_fold_get (l : Dict String (List ℚ)) (acc : Dict String ℚ) (hn : Dict.Nodup l) (k : String) :
    Dict.get? (l.foldl scalarStep acc) k =
      match Dict.get? l k with
      | some [v] => some v
      | _ => Dict.get? acc k := by
  induction l generalizing acc with
  | nil => rfl
  | cons kv l ih =>
    obtain ⟨a, v⟩ := kv
    have hn' : a ∉ l.map Prod.fst ∧ Dict.Nodup l := List.nodup_cons.1 hn
    rw [List.foldl_cons, Dict.get?_cons]
    by_cases e : a = k
    · subst e
      rw [if_pos rfl]
      rw [ih _ hn'.2, (Dict.get?_eq_none_iff l a).2 hn'.1]
      match v with
      | [] => rfl
      | [x] => simp [scalarStep]
      | _ :: _ :: _ => rfl
    · rw [if_neg e, ih _ hn'.2]
      have : Dict.get? (scalarStep acc (a, v)) k = Dict.get? acc k := by
        match v with
        | [] => rfl
        | [x] => exact Dict.get?_set_ne _ _ e
        | _ :: _ :: _ => rfl
      rw [this]

/-- C161: the report has exactly the quantization parameters that are single numbers, with their values.  Missing: the
parameters of layers quantized per channel, see `C161_violated_per_channel`. -/
theorem C161_scalars_partial (params : Dict String RVal) (overrides : Dict Name (Dict String RVal)) (qbits : Dict Name QBits)
    (mods : Dict Name RMod) (lqp : Dict String (List ℚ)) (r : QReport) (hl : Dict.Nodup lqp)
    (h : savePerLayer params overrides qbits mods lqp = .ok r) (k : String) (v : ℚ) :
    (∃ d, r.lqp = some d ∧ Dict.get? d k = some v) ↔ Dict.get? lqp k = some [v] := by
  obtain ⟨-, -, -, e⟩ := savePerLayer_ok h
  rw [e]
  cases lqp with
  | nil => simp
  | cons a l =>
    rw [if_neg (by simp)]
    have hg := scalar_fold_get (a :: l) [] hl k
    constructor
    · rintro ⟨d, hd, hk⟩
      cases hd
      unfold scalarParams at hk
      rw [hg] at hk
      split at hk
      · next heq => rw [heq]; cases hk; rfl
      · cases hk
    · intro hk
      refine ⟨_, rfl, ?_⟩
      unfold scalarParams
      rw [hg, hk]

/-- A quantizer for 8 bits with the average clipping, for a model with a convolution quantized per channel, a
block, an addition and a layer with overrides. -/
def reportParams : Dict String RVal :=
  [("bits_activations", .int 8), ("bits_parameters", .int 8), ("bits_accum", .int 32), ("clip_acts", .str "AVG"), ("per_channel_wts", .flag true)]

def reportMods : Dict Name RMod :=
  [([], ⟨true, false⟩), (["conv"], ⟨true, true⟩), (["block"], ⟨true, false⟩), (["block", "add"], ⟨false, false⟩), (["fc"], ⟨true, true⟩)]

def reportOverrides : Dict Name (Dict String RVal) :=
  [([], []), (["conv"], []), (["block"], []), (["block", "add"], []), (["fc"], [("clip_acts", .str "NONE")])]

def reportQbits : Dict Name QBits :=
  [([], ⟨some 8, none, none⟩), (["conv"], ⟨some 8, some 8, some 32⟩), (["block"], ⟨some 8, none, none⟩),
   (["block", "add"], ⟨some 8, none, none⟩), (["fc"], ⟨some 8, some 4, some 32⟩)]

example : savePerLayer reportParams reportOverrides reportQbits reportMods [("conv.w_scale", [2, 3]), ("fc.w_scale", [7])] = .ok
    ⟨[(["conv"], [("bits_activations", .int 8), ("bits_weights", .int 8), ("bits_bias", .int 32), ("clip_acts", .str "AVG"), ("per_channel_wts", .flag true)]),
      (["block", "add"], [("bits_activations", .int 8), ("bits_weights", .none), ("bits_bias", .none), ("clip_acts", .str "AVG"), ("per_channel_wts", .flag true)]),
      (["fc"], [("bits_activations", .int 8), ("bits_weights", .int 4), ("bits_bias", .int 32), ("clip_acts", .str "NONE"), ("per_channel_wts", .flag true)])],
     some [("fc.w_scale", 7)]⟩ := by decide +kernel

example : (reportParams.map Prod.fst).Nodup ∧ (reportOverrides.map Prod.fst).Nodup := by decide +kernel

/-- An addition without statistics stays in floating point (`replaceNonParam` keeps the module, which has no
children and is no wrapper), but the report says that its output is quantized to 8 bits. -/
theorem C161_violated_float :
    replaceNonParam true false ⟨(.symmetric, .symmetric), .none, false, none, false⟩ {} ⟨some 8, none, none⟩ = .ok .keep ∧
    ∃ r e, savePerLayer reportParams [(["add"], [])] [(["add"], ⟨some 8, none, none⟩)] [(["add"], ⟨false, false⟩)] [] = .ok r ∧
      Dict.get? r.layers ["add"] = some e ∧ Dict.get? e "bits_activations" = some (.int 8) := by
  refine ⟨by decide +kernel, ⟨[(["add"], [("bits_activations", .int 8), ("bits_weights", .none), ("bits_bias", .none), ("clip_acts", .str "AVG"), ("per_channel_wts", .flag true)])], none⟩, [("bits_activations", .int 8), ("bits_weights", .none), ("bits_bias", .none), ("clip_acts", .str "AVG"), ("per_channel_wts", .flag true)], by decide +kernel, by decide +kernel, by decide +kernel⟩

/-- A layer in half precision is an `FPWrapper` with the layer as its child, and is missing from the report. -/
theorem C161_violated_fp16 :
    replaceParamLayer ⟨(.symmetric, .symmetric), .none, false, none, false⟩ { keys := [.fpq], fpq := some 16 } ⟨some 8, some 8, none⟩ = .ok (.fp 16 true) ∧
    savePerLayer reportParams [(["fc"], [("fpq_module", .int 16)])] [(["fc"], ⟨some 8, some 8, none⟩)] [(["fc"], ⟨true, false⟩)] [] = .ok ⟨[], none⟩ := by
  decide +kernel

/-- The scales of a layer quantized per channel are missing from the report. -/
theorem C161_violated_per_channel :
    savePerLayer reportParams [(["fc"], [])] [(["fc"], ⟨some 8, some 8, none⟩)] [(["fc"], ⟨true, true⟩)] [("fc.w_scale", [2, 3])] =
      .ok ⟨[(["fc"], [("bits_activations", .int 8), ("bits_weights", .int 8), ("bits_bias", .none), ("clip_acts", .str "AVG"), ("per_channel_wts", .flag true)])], some []⟩ := by
  decide +kernel

/-! ## C162: bidirectional LSTMs -/

/-- C162: a model without a bidirectional LSTM cannot be prepared without an example of its input, and is traced with the
one given; a model with one is never traced. -/
theorem C162_input {α : Type} (dummy : Option α) :
    prepareInput true dummy = .ok none ∧
    (∀ x : α, prepareInput false (some x) = .ok (some x)) ∧ prepareInput false (none : Option α) = .error .runtime :=
  ⟨rfl, fun _ => rfl, rfl⟩

theorem bidi_fold (cells : List Name) (st st' : StatsMap) (hn : cells.Nodup) (h : bidiFusion cells st = .ok st') :
    (∀ c ∈ cells, ∃ s, Dict.get? st (c ++ ["eltwiseadd_gate"]) = some s ∧
      Dict.get? st' (c ++ ["eltwiseadd_gate"]) = some { s with output := clipStats s.output (-6) 6 }) ∧
    (∀ n, (∀ c ∈ cells, n ≠ c ++ ["eltwiseadd_gate"]) → Dict.get? st' n = Dict.get? st n) ∧
    st'.map Prod.fst = st.map Prod.fst := by
  unfold bidiFusion at h
  induction cells generalizing st with
  | nil => simp only [List.foldlM_nil] at h; cases h; simp
  | cons c l ih =>
    rw [List.foldlM_cons] at h
    obtain ⟨s1, h1, h2⟩ := ok_bind h
    obtain ⟨hc, hl⟩ := List.nodup_cons.1 hn
    obtain ⟨i1, i2, i3⟩ := ih s1 hl h2
    unfold bidiStep at h1
    obtain ⟨s, hs, h1⟩ := ok_bind h1
    have hs' : Dict.get? st (c ++ ["eltwiseadd_gate"]) = some s := by
      unfold Dict.getE at hs
      cases e : Dict.get? st (c ++ ["eltwiseadd_gate"]) with
      | none => rw [e] at hs; cases hs
      | some x => rw [e] at hs; cases hs; rfl
    cases h1
    refine ⟨?_, ?_, ?_⟩
    · intro x hx
      rcases List.mem_cons.1 hx with rfl | hx
      · refine ⟨s, hs', ?_⟩
        rw [i2 _ (fun c hc' e => hc (by rw [List.append_left_injective _ e]; exact hc')), Dict.get?_set_self]
      · obtain ⟨s2, a, b⟩ := i1 x hx
        refine ⟨s2, ?_, b⟩
        rw [Dict.get?_set_ne] at a
        · exact a
        · intro e
          exact hc (by rw [List.append_left_injective _ e]; exact hx)
    · intro n hn'
      rw [i2 n (fun c hc => hn' c (List.mem_cons_of_mem _ hc)), Dict.get?_set_ne]
      exact fun e => hn' c (by simp) e.symm
    · rw [i3, Dict.keys_set_of_mem]
      exact (Dict.get?_isSome_iff _ _).1 (by rw [hs']; rfl)

/-- C162: in a model with a bidirectional LSTM the recorded range of the gate sum of every cell is cut to
`[-6, 6]`, where the sigmoids are not saturated; its other numbers and all other statistics stay.  Missing: that this
works for all models, see `C162_violated_dynamic` and `C162_violated_parallel`. -/
theorem C162_statistics_partial (cells : List Name) (st st' : StatsMap) (hn : cells.Nodup) (h : bidiFusion cells st = .ok st') :
    (∀ c ∈ cells, ∃ s s', Dict.get? st (c ++ ["eltwiseadd_gate"]) = some s ∧ Dict.get? st' (c ++ ["eltwiseadd_gate"]) = some s' ∧
      s'.inputs = s.inputs ∧ s'.output.mean = s.output.mean ∧ s'.output.std = s.output.std ∧ s'.output.b = s.output.b ∧
      (s.output.min ≤ s.output.max →
        s'.output.min = min (max s.output.min (-6)) 6 ∧ s'.output.max = min (max s.output.max (-6)) 6)) ∧
    (∀ n, (∀ c ∈ cells, n ≠ c ++ ["eltwiseadd_gate"]) → Dict.get? st' n = Dict.get? st n) ∧
    st'.map Prod.fst = st.map Prod.fst := by
  obtain ⟨a, b, c⟩ := bidi_fold cells st st' hn h
  refine ⟨?_, b, c⟩
  intro x hx
  obtain ⟨s, h1, h2⟩ := a x hx
  refine ⟨s, _, h1, h2, rfl, ?_, ?_, ?_, ?_⟩
  · show (clipStats s.output (-6) 6).mean = _
    unfold clipStats; split <;> [rfl; (split <;> rfl)]
  · show (clipStats s.output (-6) 6).std = _
    unfold clipStats; split <;> [rfl; (split <;> rfl)]
  · show (clipStats s.output (-6) 6).b = _
    unfold clipStats; split <;> [rfl; (split <;> rfl)]
  · intro hle
    have := clipStats_range s.output hle (-6) 6 (Or.inl (by decide +kernel))
    have e : max (-6 : ℚ) 6 = 6 := by decide +kernel
    rw [e] at this
    exact this

/-- C162: the preparation succeeds if and only if there are statistics for the gate sum of every cell; otherwise it is a
KeyError. -/
theorem C162_total (cells : List Name) (st : StatsMap) :
    ((∀ c ∈ cells, (Dict.get? st (c ++ ["eltwiseadd_gate"])).isSome) → ∃ st', bidiFusion cells st = .ok st') ∧
    ((∃ c ∈ cells, Dict.get? st (c ++ ["eltwiseadd_gate"]) = none) → bidiFusion cells st = .error .key) := by
  unfold bidiFusion
  induction cells generalizing st with
  | nil => exact ⟨fun _ => ⟨st, rfl⟩, by simp⟩
  | cons c l ih =>
    have hstep : ∀ s, Dict.get? st (c ++ ["eltwiseadd_gate"]) = some s →
        bidiStep st c = .ok (st.set (c ++ ["eltwiseadd_gate"]) { s with output := clipStats s.output (-6) 6 }) := by
      intro s hs
      unfold bidiStep Dict.getE
      rw [hs]; rfl
    have hsame : ∀ v k, (Dict.get? st (c ++ ["eltwiseadd_gate"])).isSome →
        ((Dict.get? (Dict.set st (c ++ ["eltwiseadd_gate"]) v) k).isSome ↔ (Dict.get? st k).isSome) := by
      intro v k h
      rw [Dict.get?_isSome_iff, Dict.get?_isSome_iff, Dict.keys_set_of_mem]
      exact (Dict.get?_isSome_iff _ _).1 h
    constructor
    · intro h
      have h0 := h c (by simp)
      obtain ⟨s, hs⟩ := Option.isSome_iff_exists.1 h0
      rw [List.foldlM_cons, hstep s hs]
      exact (ih _).1 (fun x hx => (hsame _ _ h0).2 (h x (List.mem_cons_of_mem _ hx)))
    · rintro ⟨x, hx, hn⟩
      rw [List.foldlM_cons]
      cases hc : Dict.get? st (c ++ ["eltwiseadd_gate"]) with
      | none =>
        have : bidiStep st c = .error .key := by unfold bidiStep Dict.getE; rw [hc]; rfl
        rw [this]; rfl
      | some s =>
        rw [hstep s hc]
        refine (ih _).2 ⟨x, ?_, ?_⟩
        · rcases List.mem_cons.1 hx with rfl | hx
          · rw [hc] at hn; cases hn
          · exact hx
        · have := (not_congr (hsame { s with output := clipStats s.output (-6) 6 } (x ++ ["eltwiseadd_gate"]) (by rw [hc]; rfl)))
          rw [hn] at this
          simpa using this

/-- Statistics of a cell. -/
def bidiSt : StatsMap := [(["lstm", "c0"], ⟨[], ⟨0, 1, 0, 1, 0, 1, 1⟩⟩), (["lstm", "c0", "eltwiseadd_gate"], ⟨[], ⟨-9, 3, -8, 2, 0, 1, 1⟩⟩)]

example : bidiFusion [["lstm", "c0"]] bidiSt =
    .ok [(["lstm", "c0"], ⟨[], ⟨0, 1, 0, 1, 0, 1, 1⟩⟩), (["lstm", "c0", "eltwiseadd_gate"], ⟨[], ⟨-6, 3, -6, 2, 0, 1, 1⟩⟩)] := by decide +kernel

/-- Quantization without statistics is announced by a warning only, but fails for a model with a bidirectional LSTM. -/
theorem C162_violated_dynamic : bidiFusion [["lstm", "c0"]] [] = .error .key := by decide +kernel

/-- The statistics are stored under names without the prefix of `DataParallel`, but looked up with it. -/
theorem C162_violated_parallel :
    normalizeName ["module", "lstm", "c0", "eltwiseadd_gate"] = ["lstm", "c0", "eltwiseadd_gate"] ∧
    bidiFusion [["module", "lstm", "c0"]] bidiSt = .error .key := by decide +kernel

/-! ## C163: the beginning of the searches -/

/-- C163: the coordinate search refuses anything but a fresh post-training quantizer, and otherwise starts without any
clipping of activations, with all other overrides, with weights that can be quantized again and clipped, and
with statistics: the ones given, or the collected ones (then also in the metadata). -/
theorem C163_prologue_partial (collect : StatsMap) (q : SearchQuantizer) :
    ((q.ptq = false ∨ q.prepared = true) → searchPrologue collect q = .error .value) ∧
    (q.ptq = true → q.prepared = false → ∃ q', searchPrologue collect q = .ok q' ∧
      q'.clip = .none ∧ q'.saveFp = true ∧ q'.alsoClip = true ∧ q'.ptq = true ∧ q'.prepared = false ∧
      q'.overrides.map Prod.fst = q.overrides.map Prod.fst ∧
      (∀ n ov, Dict.get? q.overrides n = some ov → ∃ ov', Dict.get? q'.overrides n = some ov' ∧
        ∀ k, Dict.get? ov' k = if k = "clip_acts" then none else Dict.get? ov k) ∧
      ((q.stats = none ∨ q.stats = some []) → q'.stats = some collect ∧ q'.metaStats = some collect) ∧
      (∀ a l, q.stats = some (a :: l) → q'.stats = some (a :: l) ∧ q'.metaStats = q.metaStats)) := by
  constructor
  · intro h
    unfold searchPrologue
    rcases h with h | h
    · simp [h]
    · cases hp : q.ptq <;> simp [h]
  · intro h1 h2
    have key : ∀ o : Dict Name (Dict String RVal), (∀ n ov, Dict.get? o n = some ov →
        ∃ ov', Dict.get? (o.mapVals fun _ o => popClip o) n = some ov' ∧ ∀ k, Dict.get? ov' k = if k = "clip_acts" then none else Dict.get? ov k) := by
      intro o n ov hn
      refine ⟨popClip ov, by rw [Dict.get?_mapVals, hn]; rfl, fun k => get?_filter_neR ov _ k⟩
    have keysEq : ∀ o : Dict Name (Dict String RVal), (o.mapVals fun _ o => popClip o).map Prod.fst = o.map Prod.fst := by
      intro o; simp [Dict.mapVals, Function.comp_def]
    unfold searchPrologue
    rw [h1, h2]
    simp only [Bool.not_true, Bool.false_eq_true, if_false]
    cases hs : q.stats with
    | none =>
      refine ⟨_, rfl, rfl, rfl, rfl, ?_, ?_, ?_, ?_, ?_, ?_⟩ <;> simp [h1, h2, keysEq]
      exact key _
    | some st =>
      cases st with
      | nil =>
        refine ⟨_, rfl, rfl, rfl, rfl, ?_, ?_, ?_, ?_, ?_, ?_⟩ <;> simp [h1, h2, keysEq]
        exact key _
      | cons a l =>
        refine ⟨_, rfl, rfl, rfl, rfl, ?_, ?_, ?_, ?_, ?_, ?_⟩ <;> simp [h1, h2, hs, keysEq]
        exact key _

/-- A quantizer with the average clipping and an override of it. -/
def searchExample : SearchQuantizer :=
  ⟨true, false, none, false, false, .avg, [(["fc"], [("clip_acts", .str "GAUSS"), ("per_channel_wts", .flag false)])], none⟩

example : searchPrologue bidiSt searchExample =
    .ok ⟨true, false, some bidiSt, true, true, .none, [(["fc"], [("per_channel_wts", .flag false)])], some bidiSt⟩ := by decide +kernel

/-- The search works without clipping, but the report written by `prepare_model` gives the clipping that the quantizer was
built with. -/
theorem C163_violated_report : ∃ q r e, searchPrologue bidiSt searchExample = .ok q ∧ q.clip = .none ∧
    savePerLayer reportParams q.overrides [(["fc"], ⟨some 8, some 8, none⟩)] [(["fc"], ⟨true, true⟩)] [] = .ok r ∧
    Dict.get? r.layers ["fc"] = some e ∧ Dict.get? e "clip_acts" = some (.str "AVG") := by
  refine ⟨⟨true, false, some bidiSt, true, true, .none, [(["fc"], [("per_channel_wts", .flag false)])], some bidiSt⟩,
    ⟨[(["fc"], [("bits_activations", .int 8), ("bits_weights", .int 8), ("bits_bias", .none), ("clip_acts", .str "AVG"), ("per_channel_wts", .flag false)])], none⟩,
    [("bits_activations", .int 8), ("bits_weights", .int 8), ("bits_bias", .none), ("clip_acts", .str "AVG"), ("per_channel_wts", .flag false)], ?_⟩
  decide +kernel

theorem prefix_iff (s k : String) : (s.toList.take 5 = "lapq_".toList ∧ String.ofList (s.toList.drop 5) = k) ↔ s = "lapq_" ++ k := by
  constructor
  · rintro ⟨h1, h2⟩
    apply String.toList_inj.1
    rw [String.toList_append, ← h1, ← h2, String.toList_ofList, List.take_append_drop]
  · rintro rfl
    have h5 : "lapq_".toList.length = 5 := by decide +kernel
    rw [String.toList_append]
    constructor
    · rw [← h5, List.take_left]
    · rw [← h5, List.drop_left, String.ofList_toList]

theorem cmdline_fold (l : Dict String RVal) (acc : Dict String RVal) (hn : Dict.Nodup l) (k : String) :
    Dict.get? (l.foldl cmdlineStep acc) k = (match Dict.get? l ("lapq_" ++ k) with
      | some v => some v
      | none => Dict.get? acc k) := by
  induction l generalizing acc with
  | nil => rfl
  | cons kv l ih =>
    obtain ⟨a, v⟩ := kv
    have hn' : a ∉ l.map Prod.fst ∧ Dict.Nodup l := List.nodup_cons.1 hn
    rw [List.foldl_cons, ih _ hn'.2, Dict.get?_cons]
    by_cases e : a = "lapq_" ++ k
    · obtain ⟨p1, p2⟩ := (prefix_iff a k).2 e
      rw [if_pos e, ← e, (Dict.get?_eq_none_iff l a).2 hn'.1]
      simp only [cmdlineStep]
      rw [if_pos p1, p2, Dict.get?_set_self]
    · rw [if_neg e]
      cases Dict.get? l ("lapq_" ++ k) with
      | some w => rfl
      | none =>
        simp only [cmdlineStep]
        split
        · next hp =>
          rw [Dict.get?_set_ne]
          intro hk
          exact e ((prefix_iff a k).1 ⟨hp, hk⟩)
        · rfl

/-- C163: the arguments for the search are the command-line arguments whose name begins with `lapq_`, without that prefix, except the
two that are for the evaluation; these have to be there. -/
theorem C163_cmdline (args d : Dict String RVal) (hn : Dict.Nodup args) (h : cmdlineArgs args = .ok d) (k : String) :
    Dict.get? d k = if k = "eval_size" ∨ k = "eval_memoize_dataloader" then none else Dict.get? args ("lapq_" ++ k) := by
  unfold cmdlineArgs at h
  obtain ⟨x, hx, h⟩ := ok_bind h
  rw [(popKey_ok h).2, get?_filter_neR, (popKey_ok hx).2, get?_filter_neR, cmdline_fold args [] hn]
  by_cases h1 : k = "eval_memoize_dataloader"
  · simp [h1]
  · by_cases h2 : k = "eval_size"
    · simp [h2]
    · simp only [h1, h2, if_false, or_self]
      cases Dict.get? args ("lapq_" ++ k) <;> rfl

example : cmdlineArgs [("arch", .str "resnet18"), ("lapq_maxiter", .int 2), ("lapq_eval_size", .int 1), ("lapq_eval_memoize_dataloader", .flag false), ("lapq_", .int 3)] =
    .ok [("maxiter", .int 2), ("", .int 3)] := by decide +kernel

/-- C163: the inputs to quantize are, for every module, the numbers given for it on the command line in order; anything that is
not a name and a number with a single '#' between them is a ValueError. -/
theorem C163_inputs (pyInt : String → Option ℕ) (specs : List (List String)) :
    (∀ items : List (String × String × ℕ), (∀ t ∈ items, pyInt t.2.1 = some t.2.2) → specs = items.map (fun t => [t.1, t.2.1]) →
      ∃ d, inputsToQuantize pyInt specs = .ok d ∧
        ∀ n, (Dict.get? d n).getD [] = (items.filter fun t => t.1 = n).map fun t => t.2.2) ∧
    ((∃ s ∈ specs, ¬ ∃ n i k, s = [n, i] ∧ pyInt i = some k) → inputsToQuantize pyInt specs = .error .value) := by
  constructor
  · intro items hi hs
    subst hs
    have key : ∀ (l : List (String × String × ℕ)) (acc : Dict String (List ℕ)), (∀ t ∈ l, pyInt t.2.1 = some t.2.2) →
        ∃ d, (l.map fun t => [t.1, t.2.1]).foldlM (inputStep pyInt) acc = .ok d ∧
          ∀ n, (Dict.get? d n).getD [] = (Dict.get? acc n).getD [] ++ (l.filter fun t => t.1 = n).map fun t => t.2.2 := by
      intro l
      induction l with
      | nil => intro acc _; exact ⟨acc, rfl, by simp⟩
      | cons t l ih =>
        intro acc h
        obtain ⟨d, hd, hg⟩ := ih (Dict.set acc t.1 ((Dict.get? acc t.1).getD [] ++ [t.2.2])) (fun x hx => h x (List.mem_cons_of_mem _ hx))
        refine ⟨d, ?_, ?_⟩
        · rw [List.map_cons, List.foldlM_cons]
          have : inputStep pyInt acc [t.1, t.2.1] = .ok (Dict.set acc t.1 ((Dict.get? acc t.1).getD [] ++ [t.2.2])) := by
            simp [inputStep, h t (by simp)]
          rw [this]; exact hd
        · intro n
          rw [hg, Dict.get?_set]
          by_cases e : t.1 = n
          · subst e; simp
          · simp [e]
    obtain ⟨d, hd, hg⟩ := key items [] hi
    exact ⟨d, hd, by simpa using hg⟩
  · unfold inputsToQuantize
    generalize ([] : Dict String (List ℕ)) = acc
    induction specs generalizing acc with
    | nil => simp
    | cons s l ih =>
      rintro ⟨x, hx, hbad⟩
      rw [List.foldlM_cons]
      have hcase : (∃ a, inputStep pyInt acc s = .ok a ∧ ∃ n i k, s = [n, i] ∧ pyInt i = some k) ∨ inputStep pyInt acc s = .error .value := by
        match s with
        | [] => exact Or.inr rfl
        | [_] => exact Or.inr rfl
        | [n, i] =>
          cases hi : pyInt i with
          | none => right; simp [inputStep, hi]
          | some k => left; exact ⟨Dict.set acc n ((Dict.get? acc n).getD [] ++ [k]), by simp only [inputStep, hi], n, i, k, rfl, hi⟩
        | _ :: _ :: _ :: _ => exact Or.inr rfl
      rcases hcase with ⟨a, ha, hgood⟩ | ha
      · rw [ha]
        refine ih a ⟨x, ?_, hbad⟩
        rcases List.mem_cons.1 hx with rfl | hx
        · exact absurd hgood hbad
        · exact hx
      · rw [ha]; rfl

example : inputsToQuantize (fun s => if s = "0" then some 0 else if s = "1" then some 1 else none) [["a", "0"], ["b", "1"], ["a", "1"]] =
    .ok [("a", [0, 1]), ("b", [1])] := by decide +kernel

end Verif
