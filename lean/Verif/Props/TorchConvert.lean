import Verif.Model.TorchConvert
import Mathlib.Data.List.Basic
import Mathlib.Tactic.ByContra
/-!
# C115: the two conversion passes to PyTorch native quantization
-/
namespace Verif
open Dict

variable {D : Type}

/-! ## Specification -/

mutual
/-- Which parts of a value are (quantized) tensors, with all data forgotten. -/
def TVal.pattern : TVal D → TVal Unit
  | .tensor q _ => .tensor q ()
  | .seq xs => .seq (patternList xs)
  | .other _ => .other 0
/-- The patterns of a list of values. -/
def patternList : List (TVal D) → List (TVal Unit)
  | [] => []
  | x :: xs => TVal.pattern x :: patternList xs
end

/-- `n` was called in this history, and its last call had arguments of the pattern `p`. -/
def LastCallPattern (cs : List (String × List (TVal D))) (n : String) (p : List (TVal Unit)) : Prop :=
  ∃ pre args post, cs = pre ++ (n, args) :: post ∧ (∀ c ∈ post, c.1 ≠ n) ∧ patternList args = p

/-- Wrappers inserted by the first pass. -/
def CMod.isWrapper : CMod D → Bool
  | .plain _ => false
  | _ => true

/-! ## Lemmas -/

mutual
theorem anyQuant_pattern : ∀ (x : TVal D), anyQuant x = anyQuant x.pattern
  | .tensor q d => rfl
  | .seq xs => by
    show anyQuants xs = anyQuants (patternList xs)
    exact anyQuants_pattern xs
  | .other o => rfl
theorem anyQuants_pattern : ∀ (xs : List (TVal D)), anyQuants xs = anyQuants (patternList xs)
  | [] => rfl
  | x :: xs => by
    show (anyQuant x || anyQuants xs) = (anyQuant x.pattern || anyQuants (patternList xs))
    rw [anyQuant_pattern x, anyQuants_pattern xs]
end

theorem isQTensor_pattern (x : TVal D) : isQTensor x = isQTensor x.pattern := by
  cases x <;> simp [isQTensor, TVal.pattern]

theorem quantIdxs_pattern (i : ℕ) (xs : List (TVal D)) : quantIdxsFrom i xs = quantIdxsFrom i (patternList xs) := by
  induction xs generalizing i with
  | nil => rfl
  | cons x xs ih => simp only [quantIdxsFrom, patternList, ← isQTensor_pattern, ih]

theorem observe_pattern {xs ys : List (TVal D)} (h : patternList xs = patternList ys) : observe xs = observe ys := by
  simp only [observe, quantIdxs_pattern 0 xs, anyQuants_pattern xs, h, ← quantIdxs_pattern 0 ys, ← anyQuants_pattern ys]

theorem mem_quantIdxs (i j : ℕ) (xs : List (TVal D)) :
    j ∈ quantIdxsFrom i xs ↔ ∃ k d, j = i + k ∧ xs[k]? = some (.tensor true d) := by
  induction xs generalizing i with
  | nil => simp [quantIdxsFrom]
  | cons x xs ih =>
    have step : j ∈ quantIdxsFrom (i + 1) xs ↔ ∃ k d, j = i + (k + 1) ∧ (x :: xs)[k + 1]? = some (.tensor true d) := by
      rw [ih (i + 1)]
      constructor
      · rintro ⟨k, d, h1, h2⟩
        exact ⟨k, d, by omega, by simpa using h2⟩
      · rintro ⟨k, d, h1, h2⟩
        exact ⟨k, d, by omega, by simpa using h2⟩
    by_cases hx : isQTensor x = true
    · rw [quantIdxsFrom, if_pos hx, List.mem_cons, step]
      constructor
      · rintro (h | ⟨k, d, h1, h2⟩)
        · cases x with
          | tensor q d =>
            simp only [isQTensor] at hx
            subst hx
            exact ⟨0, d, by omega, by simp⟩
          | seq l => simp [isQTensor] at hx
          | other o => simp [isQTensor] at hx
        · exact ⟨k + 1, d, h1, h2⟩
      · rintro ⟨k, d, h1, h2⟩
        cases k with
        | zero => left; omega
        | succ k => right; exact ⟨k, d, h1, h2⟩
    · rw [quantIdxsFrom, if_neg hx, step]
      constructor
      · rintro ⟨k, d, h1, h2⟩
        exact ⟨k + 1, d, h1, h2⟩
      · rintro ⟨k, d, h1, h2⟩
        cases k with
        | zero =>
          simp only [List.getElem?_cons_zero, Option.some.injEq] at h2
          subst h2
          simp [isQTensor] at hx
        | succ k => exact ⟨k, d, h1, h2⟩

theorem get?_filter_keyT {α β : Type} [DecidableEq α] (p : α → Bool) (d : Dict α β) (k : α) :
    Dict.get? (d.filter fun kv => p kv.1) k = if p k then Dict.get? d k else none := by
  induction d with
  | nil => simp
  | cons kv d ih =>
    obtain ⟨a, v⟩ := kv
    by_cases ha : p a = true
    · rw [List.filter_cons_of_pos (by simpa using ha), Dict.get?_cons, Dict.get?_cons, ih]
      by_cases hk : a = k
      · subst hk; simp [ha]
      · simp [hk]
    · rw [List.filter_cons_of_neg (by simpa using ha), ih, Dict.get?_cons]
      by_cases hk : a = k
      · subst hk; simp [ha]
      · simp [hk]

theorem condQuant_congr (ops : TOps D) (qs qs' : Dict ℕ (ℚ × ℤ)) (i : ℕ) (xs : List (TVal D))
    (h : ∀ k x, xs[k]? = some x → condQuantItem ops qs (i + k) x = condQuantItem ops qs' (i + k) x) :
    condQuantFrom ops qs i xs = condQuantFrom ops qs' i xs := by
  induction xs generalizing i with
  | nil => rfl
  | cons x xs ih =>
    have h0 := h 0 x (by simp)
    have h1 := ih (i + 1) (fun k y hk => by
      have := h (k + 1) y (by simpa using hk)
      rwa [show i + (k + 1) = i + 1 + k by omega] at this)
    simp only [Nat.add_zero] at h0
    simp only [condQuantFrom, h0, h1]

theorem condQuant_nil (ops : TOps D) (i : ℕ) (xs : List (TVal D)) : condQuantFrom ops [] i xs = .ok xs := by
  induction xs generalizing i with
  | nil => rfl
  | cons x xs ih =>
    simp only [condQuantFrom, condQuantItem, Dict.get?_nil, ih]
    rfl

theorem condQuant_get (ops : TOps D) (qs : Dict ℕ (ℚ × ℤ)) (i : ℕ) (xs ys : List (TVal D))
    (h : condQuantFrom ops qs i xs = .ok ys) (k : ℕ) (x : TVal D) (hk : xs[k]? = some x) :
    ∃ y, ys[k]? = some y ∧ condQuantItem ops qs (i + k) x = .ok y := by
  induction xs generalizing i ys k with
  | nil => simp at hk
  | cons a xs ih =>
    simp only [condQuantFrom] at h
    cases h1 : condQuantItem ops qs i a with
    | error e => rw [h1] at h; cases h
    | ok b =>
      rw [h1] at h
      change (condQuantFrom ops qs (i + 1) xs >>= fun ys => pure (b :: ys)) = _ at h
      cases h2 : condQuantFrom ops qs (i + 1) xs with
      | error e => rw [h2] at h; cases h
      | ok zs =>
        rw [h2] at h
        cases h
        cases k with
        | zero =>
          simp only [List.getElem?_cons_zero, Option.some.injEq] at hk
          subst hk
          exact ⟨b, by simp, h1⟩
        | succ k =>
          obtain ⟨y, hy1, hy2⟩ := ih (i + 1) zs h2 k (by simpa using hk)
          exact ⟨y, by simpa using hy1, by rwa [show i + (k + 1) = i + 1 + k by omega]⟩

mutual
theorem dequantRec_id (ops : TOps D) : ∀ (x : TVal D), anyQuant x = false → dequantRec ops x = x
  | .tensor q d, h => by
    have hq : q = false := h
    subst hq; rfl
  | .seq xs, h => by
    show TVal.seq (dequantRecs ops xs) = _
    rw [dequantRecs_id ops xs h]
  | .other o, _ => rfl
theorem dequantRecs_id (ops : TOps D) : ∀ (xs : List (TVal D)), anyQuants xs = false → dequantRecs ops xs = xs
  | [], _ => rfl
  | x :: xs, h => by
    have h' : (anyQuant x || anyQuants xs) = false := h
    rw [Bool.or_eq_false_iff] at h'
    show dequantRec ops x :: dequantRecs ops xs = _
    rw [dequantRec_id ops x h'.1, dequantRecs_id ops xs h'.2]
end

mutual
theorem dequantRec_none (ops : TOps D) : ∀ (x : TVal D), anyQuant (dequantRec ops x) = false
  | .tensor q d => by cases q <;> rfl
  | .seq xs => dequantRecs_none ops xs
  | .other o => rfl
theorem dequantRecs_none (ops : TOps D) : ∀ (xs : List (TVal D)), anyQuants (dequantRecs ops xs) = false
  | [] => rfl
  | x :: xs => by
    show (anyQuant (dequantRec ops x) || anyQuants (dequantRecs ops xs)) = false
    rw [dequantRec_none ops x, dequantRecs_none ops xs]; rfl
end

theorem cleanMod_leaf {s : Option Seen} {m m' : CMod D} (h : cleanMod s m = .ok m') : m'.leaf = m.leaf := by
  cases m with
  | quant qs f =>
    cases s with
    | none => cases h
    | some s => simp only [cleanMod, Except.ok.injEq] at h; subst h; split <;> rfl
  | dequant f =>
    cases s with
    | none => cases h
    | some s => simp only [cleanMod, Except.ok.injEq] at h; subst h; split <;> rfl
  | plain f => cases h; rfl

/-- A cleaned quantize wrapper quantizes with the quantizers that were needed. -/
theorem cleanMod_quant_feed (ops : TOps D) (s : Seen) (qs : Dict ℕ (ℚ × ℤ)) (f : ModFn D) {m' : CMod D}
    (h : cleanMod (some s) (.quant qs f) = .ok m') (xs : List (TVal D)) :
    m'.feed ops xs = condQuantFrom ops (qs.filter fun kv => !s.already.contains kv.1) 0 xs := by
  simp only [cleanMod, Except.ok.injEq] at h
  subst h
  split
  · rename_i he
    rw [List.isEmpty_iff.1 he, condQuant_nil]; rfl
  · rfl

theorem cleanMod_feed (ops : TOps D) {m m' : CMod D} (xs : List (TVal D))
    (h : cleanMod (some (observe xs)) m = .ok m') : m'.feed ops xs = m.feed ops xs := by
  cases m with
  | quant qs f =>
    rw [cleanMod_quant_feed ops _ qs f h]
    show _ = condQuantFrom ops qs 0 xs
    apply condQuant_congr
    intro k x hk
    simp only [Nat.zero_add]
    unfold condQuantItem
    rw [get?_filter_keyT (fun i => !(observe xs).already.contains i)]
    by_cases hm : (observe xs).already.contains k = true
    · simp only [hm, Bool.not_true, Bool.false_eq_true, if_false]
      have hm' : k ∈ quantIdxsFrom 0 xs := by simpa [observe] using hm
      obtain ⟨j, d, h1, h2⟩ := (mem_quantIdxs 0 k xs).1 hm'
      have : j = k := by omega
      subst this
      rw [hk] at h2
      cases h2
      cases Dict.get? qs j <;> simp
    · simp only [Bool.not_eq_true] at hm
      simp only [hm, Bool.not_false, if_true]
  | dequant f =>
    simp only [cleanMod, Except.ok.injEq] at h
    subst h
    split
    · rfl
    · rename_i hq
      have : anyQuants xs = false := by simpa [observe] using hq
      show Except.ok xs = Except.ok (dequantRecs ops xs)
      rw [dequantRecs_id ops xs this]
  | plain f => cases h; rfl

theorem cleanAll_get (d : Dict String Seen) (ms ms' : Dict String (CMod D)) (h : cleanAll d ms = .ok ms') (n : String) :
    (Dict.get? ms n = none ∧ Dict.get? ms' n = none) ∨
    ∃ m m', Dict.get? ms n = some m ∧ Dict.get? ms' n = some m' ∧ cleanMod (d.get? n) m = .ok m' := by
  induction ms generalizing ms' with
  | nil => cases h; left; simp
  | cons nm ms ih =>
    obtain ⟨a, m⟩ := nm
    simp only [cleanAll] at h
    cases h1 : cleanMod (d.get? a) m with
    | error e => rw [h1] at h; cases h
    | ok m' =>
      rw [h1] at h
      change (cleanAll d ms >>= fun x => pure ((a, m') :: x)) = _ at h
      cases h2 : cleanAll d ms with
      | error e => rw [h2] at h; cases h
      | ok rest =>
        rw [h2] at h
        cases h
        by_cases hn : a = n
        · subst hn
          right
          exact ⟨m, m', by simp [Dict.get?_cons], by simp [Dict.get?_cons], h1⟩
        · simpa [Dict.get?_cons, hn] using ih rest h2

theorem recordAll_get_aux (cs : List (String × List (TVal D))) (d : Dict String Seen) (n : String) :
    (∀ c ∈ cs, c.1 ≠ n) → (cs.foldl recordCall d).get? n = d.get? n := by
  induction cs generalizing d with
  | nil => intro _; rfl
  | cons c cs ih =>
    intro h
    rw [List.foldl_cons, ih _ (fun c' hc' => h c' (List.mem_cons_of_mem _ hc')), recordCall, Dict.get?_set,
      if_neg (h c (by simp))]

theorem recordAll_last {cs : List (String × List (TVal D))} {n : String} {p : List (TVal Unit)}
    (h : LastCallPattern cs n p) (args : List (TVal D)) (ha : patternList args = p) :
    (recordAll cs).get? n = some (observe args) := by
  obtain ⟨pre, as, post, rfl, h2, h3⟩ := h
  unfold recordAll
  rw [List.foldl_append, List.foldl_cons, recordAll_get_aux post _ n h2, recordCall, Dict.get?_set, if_pos rfl,
    observe_pattern (h3.trans ha.symm)]

theorem recordAll_none {cs : List (String × List (TVal D))} {n : String} (h : ∀ c ∈ cs, c.1 ≠ n) :
    (recordAll cs).get? n = none := by
  unfold recordAll; rw [recordAll_get_aux cs [] n h]; rfl

theorem removeRedundant_ok {ops : TOps D} {fwd : List (TVal D) → Fwd D} {ms : Dict String (CMod D)}
    {dummy : List (TVal D)} {c : ConvModel D} (h : removeRedundant ops fwd ms dummy = .ok c) :
    ∃ d, (fwd dummy).run ops ms = .ok (.tensor c.patched d) ∧
      cleanAll (recordAll ((fwd dummy).calls ops ms)) ms = .ok c.mods := by
  unfold removeRedundant at h
  cases h1 : (fwd dummy).run ops ms with
  | error e => rw [h1] at h; cases h
  | ok out =>
    rw [h1] at h
    cases h2 : cleanAll (recordAll ((fwd dummy).calls ops ms)) ms with
    | error e =>
      rw [h2] at h
      cases h
    | ok ms' =>
      rw [h2] at h
      cases out with
      | tensor q d => cases h; exact ⟨d, rfl, rfl⟩
      | seq l => cases h
      | other o => cases h

/-- Runs with the cleaned modules follow runs with the original ones as long as the patterns
agree. -/
theorem run_clean (ops : TOps D) (ms ms' : Dict String (CMod D)) (cs : List (String × List (TVal D)))
    (hc : cleanAll (recordAll cs) ms = .ok ms') (p : Fwd D)
    (hp : ∀ c ∈ p.calls ops ms, LastCallPattern cs c.1 (patternList c.2)) :
    p.run ops ms' = p.run ops ms := by
  induction p with
  | ret v => rfl
  | fail e => rfl
  | call n args k ih =>
    have hl := hp (n, args) (by simp [Fwd.calls])
    have hrec := recordAll_last hl args rfl
    rcases cleanAll_get _ ms ms' hc n with ⟨h1, h2⟩ | ⟨m, m', h1, h2, h3⟩
    · simp only [Fwd.run, h1, h2]; rfl
    · rw [hrec] at h3
      have hcall : m'.call ops args = m.call ops args := by
        unfold CMod.call
        rw [cleanMod_feed ops args h3, cleanMod_leaf h3]
      simp only [Fwd.run, h1, h2]
      change (m'.call ops args >>= fun v => (k v).run ops ms') = (m.call ops args >>= fun v => (k v).run ops ms)
      rw [hcall]
      cases hv : m.call ops args with
      | error e => rfl
      | ok v =>
        change (k v).run ops ms' = (k v).run ops ms
        apply ih v
        intro c hcm
        apply hp c
        simp only [Fwd.calls, h1, hv, List.mem_cons]
        right; exact hcm

/-! ## Theorems -/

/-- **C115**: removing the redundant quantize and de-quantize operations does not change the
model.  Whatever the model's forward code does, on every input for which each module call sees the
pattern of (un)quantized arguments it last saw in the dummy pass, the model with the cleaned
modules returns (or raises) exactly what it did before; and the converted model returns the
de-quantized output. -/
theorem C115_cleanup_preserves_partial (ops : TOps D) (fwd : List (TVal D) → Fwd D) (ms : Dict String (CMod D))
    (dummy : List (TVal D)) (c : ConvModel D) (hconv : removeRedundant ops fwd ms dummy = .ok c)
    (x : List (TVal D))
    (hpat : ∀ call ∈ (fwd x).calls ops ms, LastCallPattern ((fwd dummy).calls ops ms) call.1 (patternList call.2)) :
    (fwd x).run ops c.mods = (fwd x).run ops ms ∧
    (∀ d, x.length = 1 → (fwd x).run ops ms = .ok (.tensor c.patched d) →
      c.forward ops fwd x = .ok (dequantRec ops (.tensor c.patched d))) ∧
    (∀ d, c.patched = false → (fwd x).run ops ms = .ok (.tensor c.patched d) →
      c.forward ops fwd x = .ok (.tensor false d)) := by
  obtain ⟨d0, h1, h2⟩ := removeRedundant_ok hconv
  have hrun := run_clean ops ms c.mods _ h2 (fwd x) hpat
  refine ⟨hrun, ?_, ?_⟩
  · intro d hx hd
    unfold ConvModel.forward
    rw [hrun, hd]
    cases hp : c.patched with
    | true => rw [if_pos rfl, if_pos hx]; rfl
    | false => rw [if_neg (by simp)]; rfl
  · intro d hp hd
    unfold ConvModel.forward
    rw [hrun, hd, hp]; rfl

/-- **C115** (dummy input): on the dummy input itself the converted model, if every module is
called at most once, returns the de-quantized output of the unconverted one. -/
theorem C115_dummy_input (ops : TOps D) (fwd : List (TVal D) → Fwd D) (ms : Dict String (CMod D))
    (dummy : List (TVal D)) (c : ConvModel D) (hconv : removeRedundant ops fwd ms dummy = .ok c)
    (hlen : dummy.length = 1) (honce : (((fwd dummy).calls ops ms).map Prod.fst).Nodup) :
    ∃ q d, (fwd dummy).run ops ms = .ok (.tensor q d) ∧
      c.forward ops fwd dummy = .ok (dequantRec ops (.tensor q d)) := by
  obtain ⟨d0, h1, h2⟩ := removeRedundant_ok hconv
  refine ⟨c.patched, d0, h1, ?_⟩
  refine (C115_cleanup_preserves_partial ops fwd ms dummy c hconv dummy ?_).2.1 d0 hlen h1
  intro call hcall
  obtain ⟨pre, post, hsplit⟩ := List.append_of_mem hcall
  refine ⟨pre, call.2, post, hsplit, ?_, rfl⟩
  intro c' hc' he
  rw [hsplit, List.map_append, List.nodup_append] at honce
  have := honce.2.1
  rw [List.map_cons, List.nodup_cons] at this
  exact this.1 (he ▸ List.mem_map_of_mem hc')

/-- **C115** (a wrapper never called): the conversion fails with AttributeError if any inserted
wrapper is not called in the dummy pass. -/
theorem C115_violated_uncalled (ops : TOps D) (fwd : List (TVal D) → Fwd D) (ms : Dict String (CMod D))
    (dummy : List (TVal D)) (out : TVal D) (hrun : (fwd dummy).run ops ms = .ok out)
    (n : String) (m : CMod D) (hm : ms.get? n = some m) (hw : m.isWrapper = true)
    (hnot : ∀ c ∈ (fwd dummy).calls ops ms, c.1 ≠ n) :
    removeRedundant ops fwd ms dummy = .error .attribute := by
  have hnone := recordAll_none hnot
  have key : ∀ (l : Dict String (CMod D)), l.get? n = some m →
      cleanAll (recordAll ((fwd dummy).calls ops ms)) l = .error .attribute := by
    intro l
    induction l with
    | nil => intro h; simp at h
    | cons nm l ih =>
      obtain ⟨a, b⟩ := nm
      intro h
      by_cases ha : a = n
      · subst ha
        simp only [Dict.get?_cons, if_true, Option.some.injEq] at h
        subst h
        have : cleanMod ((recordAll ((fwd dummy).calls ops ms)).get? a) b = .error .attribute := by
          rw [hnone]
          cases b with
          | quant qs f => rfl
          | dequant f => rfl
          | plain f => simp [CMod.isWrapper] at hw
        simp only [cleanAll, this]; rfl
      · simp only [Dict.get?_cons, ha, if_false] at h
        simp only [cleanAll, ih h]
        cases hcm : cleanMod ((recordAll ((fwd dummy).calls ops ms)).get? a) b with
        | error e =>
          have : e = .attribute := by
            cases b with
            | quant qs f =>
              cases hr : (recordAll ((fwd dummy).calls ops ms)).get? a with
              | none => rw [hr] at hcm; cases hcm; rfl
              | some s => rw [hr] at hcm; cases hcm
            | dequant f =>
              cases hr : (recordAll ((fwd dummy).calls ops ms)).get? a with
              | none => rw [hr] at hcm; cases hcm; rfl
              | some s => rw [hr] at hcm; cases hcm
            | plain f => cases hcm
          subst this; rfl
        | ok v => rfl
  unfold removeRedundant
  rw [hrun, key ms hm]; rfl

/-- **C115** (exactly when a cleaned quantize wrapper agrees): at a call that worked before, the
module inside a cleaned quantize wrapper receives what it received before iff every input position
that was quantized at the last dummy call (and has a quantizer) holds a quantized tensor now. -/
theorem C115_quantize_wrapper_exact (ops : TOps D) (qs : Dict ℕ (ℚ × ℤ)) (f : ModFn D) (last xs ys : List (TVal D))
    (m' : CMod D) (hclean : cleanMod (some (observe last)) (.quant qs f) = .ok m')
    (hfeed : (CMod.quant qs f).feed ops xs = .ok ys) :
    m'.feed ops xs = .ok ys ↔
      ∀ i p d x, qs.get? i = some p → last[i]? = some (.tensor true d) → xs[i]? = some x →
        ∃ d', x = .tensor true d' := by
  rw [cleanMod_quant_feed ops _ qs f hclean]
  have hmem : ∀ i, (observe last).already.contains i = true ↔ ∃ d, last[i]? = some (TVal.tensor true d) := by
    intro i
    simp only [observe, List.contains_iff_mem, mem_quantIdxs]
    constructor
    · rintro ⟨k, d, h1, h2⟩
      have : k = i := by omega
      subst this; exact ⟨d, h2⟩
    · rintro ⟨d, h⟩; exact ⟨i, d, by omega, h⟩
  constructor
  · intro h i p d x hp hl hx
    obtain ⟨y, hy1, hy2⟩ := condQuant_get ops qs 0 xs ys hfeed i x hx
    obtain ⟨z, hz1, hz2⟩ := condQuant_get ops _ 0 xs ys h i x hx
    rw [hy1] at hz1
    cases hz1
    simp only [Nat.zero_add] at hy2 hz2
    unfold condQuantItem at hy2 hz2
    rw [get?_filter_keyT (fun i => !(observe last).already.contains i)] at hz2
    have hm := (hmem i).2 ⟨d, hl⟩
    simp only [hm, Bool.not_true, Bool.false_eq_true, if_false, Except.ok.injEq] at hz2
    rw [hp] at hy2
    subst hz2
    cases x with
    | tensor q dx =>
      cases q with
      | true => exact ⟨dx, rfl⟩
      | false => simp at hy2
    | seq l => cases hy2
    | other o => cases hy2
  · intro h
    rw [← hfeed]
    show _ = condQuantFrom ops qs 0 xs
    apply condQuant_congr
    intro k x hk
    simp only [Nat.zero_add]
    unfold condQuantItem
    rw [get?_filter_keyT (fun i => !(observe last).already.contains i)]
    by_cases hm : (observe last).already.contains k = true
    · simp only [hm, Bool.not_true, Bool.false_eq_true, if_false]
      obtain ⟨d, hd⟩ := (hmem k).1 hm
      cases hp : Dict.get? qs k with
      | none => rfl
      | some p =>
        obtain ⟨d', rfl⟩ := h k p d x hp hd hk
        simp
    · simp only [Bool.not_eq_true] at hm
      simp only [hm, Bool.not_false, if_true]

/-- **C115** (exactly when a cleaned de-quantize wrapper agrees): iff something was quantized at
the last dummy call, or nothing is quantized now. -/
theorem C115_dequantize_wrapper_exact (ops : TOps D) (f : ModFn D) (last xs : List (TVal D)) (m' : CMod D)
    (hclean : cleanMod (some (observe last)) (.dequant f) = .ok m') :
    m'.feed ops xs = (CMod.dequant f).feed ops xs ↔ (anyQuants last = true ∨ anyQuants xs = false) := by
  simp only [cleanMod, Except.ok.injEq] at hclean
  subst hclean
  by_cases hl : anyQuants last = true
  · simp [observe, hl]
  · simp only [Bool.not_eq_true] at hl
    simp only [observe, hl, Bool.false_eq_true, if_false, false_or]
    show Except.ok xs = Except.ok (dequantRecs ops xs) ↔ _
    constructor
    · intro h
      simp only [Except.ok.injEq] at h
      rw [h]; exact dequantRecs_none ops xs
    · intro h; rw [dequantRecs_id ops xs h]

/-- **C115** (several inputs): if the model's output is quantized, the converted model rejects
every call with any number of inputs other than one, the dummy input's own number included. -/
theorem C115_violated_multi_input (ops : TOps D) (fwd : List (TVal D) → Fwd D) (ms : Dict String (CMod D))
    (dummy : List (TVal D)) (c : ConvModel D) (hconv : removeRedundant ops fwd ms dummy = .ok c)
    (d : D) (hout : (fwd dummy).run ops ms = .ok (.tensor true d)) (xs : List (TVal D)) (hx : xs.length ≠ 1) :
    c.forward ops fwd xs = .error .type := by
  obtain ⟨d0, h1, -⟩ := removeRedundant_ok hconv
  rw [h1] at hout
  simp only [Except.ok.injEq, TVal.tensor.injEq] at hout
  unfold ConvModel.forward
  rw [if_pos hout.1, if_neg hx]

/-! ## Straight-line models -/

/-- A reference to a value of a straight-line forward: a model input, the result of an earlier
call, a tuple of references, or an item of a tuple. -/
inductive VRef where
  | input (i : ℕ)
  | step (j : ℕ)
  | pack (rs : List VRef)
  | item (r : VRef) (k : ℕ)

mutual
/-- Value of a reference. -/
def VRef.eval (inputs env : List (TVal D)) : VRef → Option (TVal D)
  | .input i => inputs[i]?
  | .step j => env[j]?
  | .pack rs => (evalRefs inputs env rs).map .seq
  | .item r k =>
    match VRef.eval inputs env r with
    | some (.seq xs) => xs[k]?
    | _ => none
/-- Values of a list of references. -/
def evalRefs (inputs env : List (TVal D)) : List VRef → Option (List (TVal D))
  | [] => some []
  | r :: rs =>
    match VRef.eval inputs env r, evalRefs inputs env rs with
    | some v, some vs => some (v :: vs)
    | _, _ => none
end

/-- Forward code that calls a fixed sequence of modules on fixed references and returns a
reference. -/
def lineFwd (inputs : List (TVal D)) (out : VRef) : List (String × List VRef) → List (TVal D) → Fwd D
  | [], env =>
    match out.eval inputs env with
    | some v => .ret v
    | none => .fail .index
  | st :: rest, env =>
    match evalRefs inputs env st.2 with
    | some vs => .call st.1 vs fun v => lineFwd inputs out rest (env ++ [v])
    | none => .fail .index

/-- The pattern of a module's result depends only on the pattern of its arguments. -/
def Uniform (f : ModFn D) : Prop :=
  ∀ xs ys u v, patternList xs = patternList ys → f xs = .ok u → f ys = .ok v → u.pattern = v.pattern

theorem patternList_eq_map (xs : List (TVal D)) : patternList xs = xs.map TVal.pattern := by
  induction xs with
  | nil => rfl
  | cons x xs ih => simp [patternList, ih]

theorem patternList_append (xs ys : List (TVal D)) : patternList (xs ++ ys) = patternList xs ++ patternList ys := by
  simp [patternList_eq_map]

theorem get?_pattern {xs ys : List (TVal D)} (h : patternList xs = patternList ys) (i : ℕ) :
    (xs[i]?).map TVal.pattern = (ys[i]?).map TVal.pattern := by
  rw [patternList_eq_map, patternList_eq_map] at h
  rw [← List.getElem?_map, ← List.getElem?_map, h]

mutual
theorem eval_pattern {ins ins' env env' : List (TVal D)} (h1 : patternList ins = patternList ins')
    (h2 : patternList env = patternList env') : ∀ (r : VRef),
    (r.eval ins env).map TVal.pattern = (r.eval ins' env').map TVal.pattern
  | .input i => get?_pattern h1 i
  | .step j => get?_pattern h2 j
  | .pack rs => by
    have := evalRefs_pattern h1 h2 rs
    show ((evalRefs ins env rs).map TVal.seq).map TVal.pattern = ((evalRefs ins' env' rs).map TVal.seq).map TVal.pattern
    cases ha : evalRefs ins env rs with
    | none =>
      cases hb : evalRefs ins' env' rs with
      | none => rfl
      | some b => rw [ha, hb] at this; cases this
    | some a =>
      cases hb : evalRefs ins' env' rs with
      | none => rw [ha, hb] at this; cases this
      | some b =>
        rw [ha, hb] at this
        simp only [Option.map_some, Option.some.injEq] at this
        simp only [Option.map_some, TVal.pattern, this]
  | .item r k => by
    have := eval_pattern h1 h2 r
    simp only [VRef.eval]
    cases ha : r.eval ins env with
    | none =>
      rw [ha] at this
      cases hb : r.eval ins' env' with
      | none => rfl
      | some v => rw [hb] at this; cases this
    | some u =>
      rw [ha] at this
      cases hb : r.eval ins' env' with
      | none => rw [hb] at this; cases this
      | some v =>
        rw [hb] at this
        simp only [Option.map_some, Option.some.injEq] at this
        cases u <;> cases v <;> simp only [TVal.pattern, TVal.seq.injEq, reduceCtorEq] at this
        · rfl
        · exact get?_pattern this k
        · rfl
theorem evalRefs_pattern {ins ins' env env' : List (TVal D)} (h1 : patternList ins = patternList ins')
    (h2 : patternList env = patternList env') : ∀ (rs : List VRef),
    (evalRefs ins env rs).map patternList = (evalRefs ins' env' rs).map patternList
  | [] => rfl
  | r :: rs => by
    have a := eval_pattern h1 h2 r
    have b := evalRefs_pattern h1 h2 rs
    simp only [evalRefs]
    cases ha : r.eval ins env with
    | none =>
      cases ha' : r.eval ins' env' with
      | none => rfl
      | some b => rw [ha, ha'] at a; cases a
    | some x =>
      cases ha' : r.eval ins' env' with
      | none => rw [ha, ha'] at a; cases a
      | some y =>
        rw [ha, ha'] at a
        simp only [Option.map_some, Option.some.injEq] at a
        cases hb : evalRefs ins env rs with
        | none =>
          cases hb' : evalRefs ins' env' rs with
          | none => rfl
          | some b' => rw [hb, hb'] at b; cases b
        | some z =>
          cases hb' : evalRefs ins' env' rs with
          | none => rw [hb, hb'] at b; cases b
          | some z' =>
            rw [hb, hb'] at b
            simp only [Option.map_some, Option.some.injEq] at b
            simp only [Option.map_some, patternList, a, b]
end

theorem condQuantItem_pattern (ops : TOps D) (qs : Dict ℕ (ℚ × ℤ)) (i : ℕ) (x y u v : TVal D)
    (h : x.pattern = y.pattern) (hu : condQuantItem ops qs i x = .ok u) (hv : condQuantItem ops qs i y = .ok v) :
    u.pattern = v.pattern := by
  unfold condQuantItem at hu hv
  cases hq : Dict.get? qs i with
  | none =>
    rw [hq] at hu hv
    cases hu; cases hv; exact h
  | some p =>
    rw [hq] at hu hv
    cases x with
    | tensor qx dx =>
      cases y with
      | tensor qy dy =>
        cases hu; cases hv
        simp only [TVal.pattern, TVal.tensor.injEq, and_true] at h
        subst h
        cases qx <;> rfl
      | seq l => cases hv
      | other o => cases hv
    | seq l => cases hu
    | other o => cases hu

theorem condQuant_pattern (ops : TOps D) (qs : Dict ℕ (ℚ × ℤ)) (i : ℕ) (xs ys us vs : List (TVal D))
    (h : patternList xs = patternList ys) (hu : condQuantFrom ops qs i xs = .ok us)
    (hv : condQuantFrom ops qs i ys = .ok vs) : patternList us = patternList vs := by
  induction xs generalizing i ys us vs with
  | nil =>
    cases ys with
    | nil => cases hu; cases hv; rfl
    | cons y ys => simp [patternList] at h
  | cons x xs ih =>
    cases ys with
    | nil => simp [patternList] at h
    | cons y ys =>
      simp only [patternList, List.cons.injEq] at h
      simp only [condQuantFrom] at hu hv
      cases h1 : condQuantItem ops qs i x with
      | error e => rw [h1] at hu; cases hu
      | ok a =>
        cases h2 : condQuantItem ops qs i y with
        | error e => rw [h2] at hv; cases hv
        | ok b =>
          rw [h1] at hu; rw [h2] at hv
          change (condQuantFrom ops qs (i + 1) xs >>= fun z => pure (a :: z)) = _ at hu
          change (condQuantFrom ops qs (i + 1) ys >>= fun z => pure (b :: z)) = _ at hv
          cases h3 : condQuantFrom ops qs (i + 1) xs with
          | error e => rw [h3] at hu; cases hu
          | ok as =>
            cases h4 : condQuantFrom ops qs (i + 1) ys with
            | error e => rw [h4] at hv; cases hv
            | ok bs =>
              rw [h3] at hu; rw [h4] at hv
              cases hu; cases hv
              simp only [patternList, condQuantItem_pattern ops qs i x y a b h.1 h1 h2, ih (i + 1) ys as bs h.2 h3 h4]

mutual
theorem dequantRec_pattern (ops : TOps D) : ∀ (x y : TVal D), x.pattern = y.pattern →
    (dequantRec ops x).pattern = (dequantRec ops y).pattern
  | .tensor q d, y, h => by
    cases y with
    | tensor q' d' =>
      simp only [TVal.pattern, TVal.tensor.injEq, and_true] at h
      subst h; cases q <;> rfl
    | seq l => simp [TVal.pattern] at h
    | other o => simp [TVal.pattern] at h
  | .seq xs, y, h => by
    cases y with
    | tensor q d => simp [TVal.pattern] at h
    | seq ys =>
      simp only [TVal.pattern, TVal.seq.injEq] at h
      simp only [dequantRec, TVal.pattern, dequantRecs_pattern ops xs ys h]
    | other o => simp [TVal.pattern] at h
  | .other o, y, h => by
    cases y with
    | tensor q d => simp [TVal.pattern] at h
    | seq ys => simp [TVal.pattern] at h
    | other o => rfl
theorem dequantRecs_pattern (ops : TOps D) : ∀ (xs ys : List (TVal D)), patternList xs = patternList ys →
    patternList (dequantRecs ops xs) = patternList (dequantRecs ops ys)
  | [], ys, h => by
    cases ys with
    | nil => rfl
    | cons y ys => simp [patternList] at h
  | x :: xs, ys, h => by
    cases ys with
    | nil => simp [patternList] at h
    | cons y ys =>
      simp only [patternList, List.cons.injEq] at h
      simp only [dequantRecs, patternList, dequantRec_pattern ops x y h.1, dequantRecs_pattern ops xs ys h.2]
end

theorem call_pattern (ops : TOps D) (m : CMod D) (hm : Uniform m.leaf) (xs ys : List (TVal D)) (u v : TVal D)
    (h : patternList xs = patternList ys) (hu : m.call ops xs = .ok u) (hv : m.call ops ys = .ok v) :
    u.pattern = v.pattern := by
  unfold CMod.call at hu hv
  cases h1 : m.feed ops xs with
  | error e => rw [h1] at hu; cases hu
  | ok as =>
    cases h2 : m.feed ops ys with
    | error e => rw [h2] at hv; cases hv
    | ok bs =>
      rw [h1] at hu; rw [h2] at hv
      refine hm as bs u v ?_ hu hv
      cases m with
      | quant qs f => exact condQuant_pattern ops qs 0 xs ys as bs h h1 h2
      | dequant f => cases h1; cases h2; exact dequantRecs_pattern ops xs ys h
      | plain f => cases h1; cases h2; exact h

/-- Two successful runs of a straight-line model on inputs of the same pattern make calls of the
same patterns and return values of the same pattern. -/
theorem line_pattern (ops : TOps D) (ms : Dict String (CMod D)) (hu : ∀ n m, ms.get? n = some m → Uniform m.leaf)
    (out : VRef) (ins ins' : List (TVal D)) (h1 : patternList ins = patternList ins') (sts : List (String × List VRef)) :
    ∀ (env env' : List (TVal D)) (u v : TVal D), patternList env = patternList env' →
    (lineFwd ins out sts env).run ops ms = .ok u → (lineFwd ins' out sts env').run ops ms = .ok v →
    u.pattern = v.pattern ∧
    ((lineFwd ins out sts env).calls ops ms).map (fun c => (c.1, patternList c.2)) =
      ((lineFwd ins' out sts env').calls ops ms).map (fun c => (c.1, patternList c.2)) := by
  induction sts with
  | nil =>
    intro env env' u v henv hr hr'
    have he := eval_pattern h1 henv out
    simp only [lineFwd] at hr hr' ⊢
    cases ha : out.eval ins env with
    | none => rw [ha] at hr; cases hr
    | some a =>
      cases hb : out.eval ins' env' with
      | none => rw [hb] at hr'; cases hr'
      | some b =>
        rw [ha] at hr; rw [hb] at hr'
        rw [ha, hb] at he
        cases hr; cases hr'
        exact ⟨by simpa using he, rfl⟩
  | cons st sts ih =>
    intro env env' u v henv hr hr'
    have he := evalRefs_pattern h1 henv st.2
    simp only [lineFwd] at hr hr' ⊢
    cases ha : evalRefs ins env st.2 with
    | none => rw [ha] at hr; cases hr
    | some as =>
      cases hb : evalRefs ins' env' st.2 with
      | none => rw [hb] at hr'; cases hr'
      | some bs =>
        rw [ha] at hr; rw [hb] at hr'
        rw [ha, hb] at he
        simp only [Option.map_some, Option.some.injEq] at he
        simp only [Fwd.run] at hr hr'
        cases hm : Dict.get? ms st.1 with
        | none => rw [hm] at hr; cases hr
        | some m =>
          rw [hm] at hr hr'
          change (m.call ops as >>= fun w => (lineFwd ins out sts (env ++ [w])).run ops ms) = _ at hr
          change (m.call ops bs >>= fun w => (lineFwd ins' out sts (env' ++ [w])).run ops ms) = _ at hr'
          cases hca : m.call ops as with
          | error e => rw [hca] at hr; cases hr
          | ok w =>
            cases hcb : m.call ops bs with
            | error e => rw [hcb] at hr'; cases hr'
            | ok w' =>
              rw [hca] at hr; rw [hcb] at hr'
              have hw := call_pattern ops m (hu _ _ hm) as bs w w' he hca hcb
              have := ih (env ++ [w]) (env' ++ [w']) u v (by
                rw [patternList_append, patternList_append, henv]
                simp only [patternList, hw]) hr hr'
              refine ⟨this.1, ?_⟩
              simp only [Fwd.calls, hm, hca, hcb, List.map_cons, he, this.2]

theorem line_calls_names (ops : TOps D) (ms : Dict String (CMod D)) (out : VRef) (ins : List (TVal D))
    (sts : List (String × List VRef)) : ∀ (env : List (TVal D)),
    (((lineFwd ins out sts env).calls ops ms).map Prod.fst) <+: (sts.map Prod.fst) := by
  induction sts with
  | nil =>
    intro env
    simp only [lineFwd]
    cases out.eval ins env <;> simp [Fwd.calls]
  | cons st sts ih =>
    intro env
    simp only [lineFwd]
    cases evalRefs ins env st.2 with
    | none => simp [Fwd.calls]
    | some as =>
      simp only [Fwd.calls, List.map_cons]
      rw [List.cons_prefix_cons]
      refine ⟨rfl, ?_⟩
      cases Dict.get? ms st.1 with
      | none => simp
      | some m =>
        cases hc : m.call ops as with
        | error e => simp only [hc]; simp
        | ok v => simpa only [hc] using ih (env ++ [v])

/-- **C115** (straight-line models): a model that calls each of its modules at most once, in a
fixed order, with modules whose outputs are (un)quantized depending only on which inputs are: for
every input of the dummy input's form the converted model returns the de-quantized output of the
unconverted one. -/
theorem C115_straight_line (ops : TOps D) (ms : Dict String (CMod D)) (hu : ∀ n m, ms.get? n = some m → Uniform m.leaf)
    (out : VRef) (sts : List (String × List VRef)) (honce : (sts.map Prod.fst).Nodup)
    (dummy x : List (TVal D)) (hform : patternList x = patternList dummy) (hlen : x.length = 1)
    (c : ConvModel D) (hconv : removeRedundant ops (fun ins => lineFwd ins out sts []) ms dummy = .ok c)
    (v : TVal D) (hrun : (lineFwd x out sts []).run ops ms = .ok v) :
    c.forward ops (fun ins => lineFwd ins out sts []) x = .ok (dequantRec ops v) := by
  obtain ⟨d0, h1, -⟩ := removeRedundant_ok hconv
  have hp := line_pattern ops ms hu out x dummy hform sts [] [] v _ rfl hrun h1
  have hv : ∃ d, v = .tensor c.patched d := by
    have := hp.1
    cases v with
    | tensor q d =>
      simp only [TVal.pattern, TVal.tensor.injEq, and_true] at this
      exact ⟨d, by rw [this]⟩
    | seq l => simp [TVal.pattern] at this
    | other o => simp [TVal.pattern] at this
  obtain ⟨d, rfl⟩ := hv
  refine (C115_cleanup_preserves_partial ops _ ms dummy c hconv x ?_).2.1 d hlen hrun
  intro call hcall
  have hmem : (call.1, patternList call.2) ∈ ((lineFwd dummy out sts []).calls ops ms).map (fun c => (c.1, patternList c.2)) := by
    rw [← hp.2]; exact List.mem_map_of_mem (f := fun c : String × List (TVal D) => (c.1, patternList c.2)) hcall
  obtain ⟨call', hc', he⟩ := List.mem_map.1 hmem
  simp only [Prod.mk.injEq] at he
  have hnd : (((lineFwd dummy out sts []).calls ops ms).map Prod.fst).Nodup :=
    honce.sublist (line_calls_names ops ms out dummy sts []).sublist
  obtain ⟨pre, post, hsplit⟩ := List.append_of_mem hc'
  refine ⟨pre, call'.2, post, ?_, ?_, he.2⟩
  · show (lineFwd dummy out sts []).calls ops ms = _
    rw [hsplit, ← he.1]
  · intro c'' hc'' hn
    rw [hsplit, List.map_append, List.nodup_append] at hnd
    have := hnd.2.1
    rw [List.map_cons, List.nodup_cons] at this
    rw [← he.1] at hn
    exact this.1 (hn ▸ List.mem_map_of_mem hc'')

/-! ### Non-vacuity -/

section Example

/-- Payloads are rationals; quantization rounds nothing here, it only rescales. -/
def exOps : TOps ℚ := ⟨fun p d => d * p.1, fun d => d / 2⟩
/-- A quantized layer: doubles a quantized tensor, rejects anything else. -/
def exLayer : ModFn ℚ
  | [.tensor true d] => .ok (.tensor true (d + 1))
  | _ => .error .runtime
/-- A float layer: rejects quantized tensors. -/
def exFloat : ModFn ℚ
  | [.tensor false d] => .ok (.tensor false (d * d))
  | _ => .error .runtime
def exMods : Dict String (CMod ℚ) :=
  [("fc1", .quant [(0, (2, 0))] exLayer), ("fc2", .quant [(0, (2, 0))] exLayer), ("act", .dequant exFloat),
   ("fc3", .quant [(0, (2, 0))] exLayer)]
def exSteps : List (String × List VRef) :=
  [("fc1", [.input 0]), ("fc2", [.step 0]), ("act", [.step 1]), ("fc3", [.step 2])]

theorem exLayer_uniform : Uniform exLayer := by
  intro xs ys u v _ hu hv
  have key : ∀ zs w, exLayer zs = .ok w → ∃ d, w = .tensor true d := by
    intro zs w h
    unfold exLayer at h
    split at h
    · cases h; exact ⟨_, rfl⟩
    · cases h
  obtain ⟨d, rfl⟩ := key xs u hu
  obtain ⟨d', rfl⟩ := key ys v hv
  rfl

theorem exFloat_uniform : Uniform exFloat := by
  intro xs ys u v _ hu hv
  have key : ∀ zs w, exFloat zs = .ok w → ∃ d, w = .tensor false d := by
    intro zs w h
    unfold exFloat at h
    split at h
    · cases h; exact ⟨_, rfl⟩
    · cases h
  obtain ⟨d, rfl⟩ := key xs u hu
  obtain ⟨d', rfl⟩ := key ys v hv
  rfl

/-- The hypotheses of `C115_straight_line` hold for a four-layer model: the second layer loses its
quantizer, the float layer keeps its de-quantize wrapper, the output is de-quantized. -/
example : (∀ n m, exMods.get? n = some m → Uniform m.leaf) ∧ (exSteps.map Prod.fst).Nodup ∧
    ∃ c, removeRedundant exOps (fun ins => lineFwd ins (.step 3) exSteps []) exMods [.tensor false 5] = .ok c ∧
      c.patched = true ∧ (∃ f, c.mods.get? "fc2" = some (.plain f)) ∧ (∃ f, c.mods.get? "act" = some (.dequant f)) ∧
      (∃ q f, c.mods.get? "fc1" = some (.quant q f)) ∧
      ∃ v, (lineFwd [.tensor false 7] (.step 3) exSteps []).run exOps exMods = .ok v := by
  refine ⟨?_, by decide, ⟨_, true⟩, rfl, rfl, ⟨_, rfl⟩, ⟨_, rfl⟩, ⟨_, _, rfl⟩, ⟨_, rfl⟩⟩
  intro n m h
  have := mem_of_get? h
  simp only [exMods, List.mem_cons, List.not_mem_nil, or_false, Prod.mk.injEq] at this
  rcases this with ⟨-, rfl⟩ | ⟨-, rfl⟩ | ⟨-, rfl⟩ | ⟨-, rfl⟩
  · exact exLayer_uniform
  · exact exLayer_uniform
  · exact exFloat_uniform
  · exact exLayer_uniform

/-- **C115** (a module used twice): the hooks keep only the last call of the dummy pass.  Here one
layer is applied to the float input and then to its own quantized output; its quantizer is
removed, and the converted model fails on the dummy input itself, which the unconverted model
accepts. -/
theorem C115_violated_reused_module :
    ∃ (ms : Dict String (CMod ℚ)) (sts : List (String × List VRef)) (out : VRef) (c : ConvModel ℚ) (v : TVal ℚ),
      (lineFwd [.tensor false 5] out sts []).run exOps ms = .ok v ∧
      removeRedundant exOps (fun ins => lineFwd ins out sts []) ms [.tensor false 5] = .ok c ∧
      c.forward exOps (fun ins => lineFwd ins out sts []) [.tensor false 5] = .error .runtime :=
  ⟨[("fc", .quant [(0, (2, 0))] exLayer)], [("fc", [.input 0]), ("fc", [.step 0])], .step 1, ⟨_, true⟩, _, rfl, rfl, rfl⟩

end Example

/-! ## First pass -/

/-- `c` is a child of `p` somewhere in the tree `t` (the root included). -/
inductive TreeEdge : MTree → MTree → MTree → Prop
  | here {k cs n c} : (n, c) ∈ cs → TreeEdge (.node k cs) (.node k cs) c
  | deeper {k cs n m p c} : (n, m) ∈ cs → TreeEdge m p c → TreeEdge (.node k cs) p c

/-- A model before conversion: no node of a class that the conversion creates. -/
inductive FreshTree : MTree → Prop
  | node {k cs} : (k = .distEmbedding ∨ k = .identity ∨ (∃ b, k = .distWrapper b) ∨ ∃ l, k = .user l) →
      (∀ n c, (n, c) ∈ cs → FreshTree c) → FreshTree (.node k cs)

theorem convertKids_eq (cs : List (String × MTree)) :
    convertKids cs = cs.map fun nm => (nm.1, convertChild nm.2) := by
  induction cs with
  | nil => simp [convertKids]
  | cons c cs ih => simp [convertKids, ih]

/-- What the first pass guarantees of an edge from a parent class to a child. -/
def GoodEdge (pk : MKind) (c : MTree) : Prop :=
  (∀ b, c.kind ≠ .distWrapper b) ∧ c.kind ≠ .distEmbedding ∧
  ((∃ l, c.kind = .user l) → c.hasChildren = false → pk = .condDequantWrapper) ∧
  (c.kind = .torchQuant → pk ≠ .condDequantWrapper)

theorem good_deqWrap (l : ℕ) : ∀ p c, TreeEdge (deqWrap (.node (.user l) [])) p c → GoodEdge p.kind c := by
  intro p c h
  cases h with
  | here hm =>
    simp only [List.mem_cons, List.not_mem_nil, or_false, Prod.mk.injEq] at hm
    rcases hm with ⟨-, rfl⟩ | ⟨-, rfl⟩ <;> simp [GoodEdge, MTree.kind]
  | deeper hm he =>
    simp only [List.mem_cons, List.not_mem_nil, or_false, Prod.mk.injEq] at hm
    rcases hm with ⟨-, rfl⟩ | ⟨-, rfl⟩ <;> (cases he <;> simp_all)

theorem edge_leaf {k : MKind} {p c : MTree} (h : TreeEdge (.node k []) p c) : False := by
  cases h with
  | here hm => simp at hm
  | deeper hm _ => simp at hm

theorem good_quantWrap : ∀ p c, TreeEdge (quantWrap (.node .torchQuant [])) p c → GoodEdge p.kind c := by
  intro p c h
  cases h with
  | here hm =>
    simp only [List.mem_cons, List.not_mem_nil, or_false, Prod.mk.injEq] at hm
    rcases hm with ⟨-, rfl⟩ | ⟨-, rfl⟩ <;> simp [GoodEdge, MTree.kind]
  | deeper hm he =>
    simp only [List.mem_cons, List.not_mem_nil, or_false, Prod.mk.injEq] at hm
    rcases hm with ⟨-, rfl⟩ | ⟨-, rfl⟩
    · cases he with
      | here hm =>
        simp only [List.mem_cons, List.not_mem_nil, or_false, Prod.mk.injEq] at hm
        obtain ⟨-, rfl⟩ := hm
        simp [GoodEdge, MTree.kind, MTree.hasChildren]
      | deeper hm he =>
        simp only [List.mem_cons, List.not_mem_nil, or_false, Prod.mk.injEq] at hm
        obtain ⟨-, rfl⟩ := hm
        cases he with
        | here hm =>
          simp only [List.mem_cons, List.not_mem_nil, or_false, Prod.mk.injEq] at hm
          obtain ⟨-, rfl⟩ := hm
          simp [GoodEdge, MTree.kind, MTree.hasChildren]
        | deeper hm he =>
          simp only [List.mem_cons, List.not_mem_nil, or_false, Prod.mk.injEq] at hm
          obtain ⟨-, rfl⟩ := hm
          exact (edge_leaf he).elim
    · exact (edge_leaf he).elim

/-- A converted fresh child is good below any parent that is not a de-quantize wrapper. -/
theorem convertChild_good : ∀ (t : MTree), FreshTree t →
    (∀ pk, pk ≠ MKind.condDequantWrapper → GoodEdge pk (convertChild t)) ∧
    ∀ p c, TreeEdge (convertChild t) p c → GoodEdge p.kind c
  | .node k cs, hf => by
    cases hf with
    | node hk hcs =>
    rcases hk with rfl | rfl | ⟨b, rfl⟩ | ⟨l, rfl⟩
    · refine ⟨fun pk hpk => by simp [convertChild, GoodEdge, MTree.kind], fun p c h => ?_⟩
      simp only [convertChild] at h
      exact (edge_leaf h).elim
    · by_cases he : cs = []
      · subst he
        have : convertChild (.node .identity []) = .node .identity [] := by simp [convertChild]
        rw [this]
        exact ⟨fun pk hpk => by simp [GoodEdge, MTree.kind], fun p c h => (edge_leaf h).elim⟩
      · have hc : convertChild (.node .identity cs) = .node .identity (convertKids cs) := by
          simp [convertChild, he]
        rw [hc]
        refine ⟨fun pk hpk => by simp [GoodEdge, MTree.kind], fun p c h => ?_⟩
        rw [convertKids_eq] at h
        cases h with
        | here hm =>
          obtain ⟨⟨n, m⟩, hm1, hm2⟩ := List.mem_map.1 hm
          simp only [Prod.mk.injEq] at hm2
          rw [← hm2.2]
          exact (convertChild_good m (hcs n m hm1)).1 _ (by simp [MTree.kind])
        | deeper hm he2 =>
          obtain ⟨⟨n, m⟩, hm1, hm2⟩ := List.mem_map.1 hm
          simp only [Prod.mk.injEq] at hm2
          rw [← hm2.2] at he2
          exact (convertChild_good m (hcs n m hm1)).2 _ _ he2
    · cases b with
      | false =>
        have : convertChild (.node (.distWrapper false) cs) = quantWrap (.node .torchQuant []) := by simp [convertChild]
        rw [this]
        exact ⟨fun pk hpk => by simp [GoodEdge, MTree.kind, quantWrap], good_quantWrap⟩
      | true =>
        have : convertChild (.node (.distWrapper true) cs) =
            .node (.user 0) [("0", deqWrap (.node (.user 1) [])), ("1", .node .torchQuant [])] := by simp [convertChild]
        rw [this]
        refine ⟨fun pk hpk => by simp [GoodEdge, MTree.kind, MTree.hasChildren], fun p c h => ?_⟩
        cases h with
        | here hm =>
          simp only [List.mem_cons, List.not_mem_nil, or_false, Prod.mk.injEq] at hm
          rcases hm with ⟨-, rfl⟩ | ⟨-, rfl⟩ <;> simp [GoodEdge, MTree.kind, deqWrap]
        | deeper hm he2 =>
          simp only [List.mem_cons, List.not_mem_nil, or_false, Prod.mk.injEq] at hm
          rcases hm with ⟨-, rfl⟩ | ⟨-, rfl⟩
          · exact good_deqWrap 1 _ _ he2
          · exact (edge_leaf he2).elim
    · by_cases he : cs = []
      · subst he
        have : convertChild (.node (.user l) []) = deqWrap (.node (.user l) []) := by simp [convertChild]
        rw [this]
        exact ⟨fun pk hpk => by simp [GoodEdge, MTree.kind, deqWrap], good_deqWrap l⟩
      · have hc : convertChild (.node (.user l) cs) = .node (.user l) (convertKids cs) := by
          simp [convertChild, he]
        rw [hc]
        refine ⟨fun pk hpk => ?_, fun p c h => ?_⟩
        · have : (convertKids cs).isEmpty = false := by
            rw [convertKids_eq]; cases cs <;> simp_all
          simp [GoodEdge, MTree.kind, MTree.hasChildren, this]
        rw [convertKids_eq] at h
        cases h with
        | here hm =>
          obtain ⟨⟨n, m⟩, hm1, hm2⟩ := List.mem_map.1 hm
          simp only [Prod.mk.injEq] at hm2
          rw [← hm2.2]
          exact (convertChild_good m (hcs n m hm1)).1 _ (by simp [MTree.kind])
        | deeper hm he2 =>
          obtain ⟨⟨n, m⟩, hm1, hm2⟩ := List.mem_map.1 hm
          simp only [Prod.mk.injEq] at hm2
          rw [← hm2.2] at he2
          exact (convertChild_good m (hcs n m hm1)).2 _ _ he2
termination_by t => sizeOf t
decreasing_by all_goals (simp_wf; have := List.sizeOf_lt_of_mem hm1; simp at this; omega)

/-- **C115** (first pass): in the converted model no Distiller wrapper is left, every leaf of the
user's own classes sits inside a de-quantize wrapper, no quantized module does, and the model's
children keep their names and order. -/
theorem C115_first_pass (k : ℕ) (cs : List (String × MTree)) (hf : FreshTree (.node (.user k) cs)) :
    (∀ p c, TreeEdge (convertPass1 (.node (.user k) cs)) p c →
      (∀ b, c.kind ≠ .distWrapper b) ∧ c.kind ≠ .distEmbedding ∧
      ((∃ l, c.kind = .user l) → c.hasChildren = false → p.kind = .condDequantWrapper) ∧
      (c.kind = .torchQuant → p.kind ≠ .condDequantWrapper)) ∧
    ∃ cs', convertPass1 (.node (.user k) cs) = .node (.user k) cs' ∧ cs'.map Prod.fst = cs.map Prod.fst := by
  cases hf with
  | node _ hcs =>
  constructor
  · intro p c h
    simp only [convertPass1, convertKids_eq] at h
    cases h with
    | here hm =>
      obtain ⟨⟨n, m⟩, hm1, hm2⟩ := List.mem_map.1 hm
      simp only [Prod.mk.injEq] at hm2
      rw [← hm2.2]
      exact (convertChild_good m (hcs n m hm1)).1 _ (by simp [MTree.kind])
    | deeper hm he2 =>
      obtain ⟨⟨n, m⟩, hm1, hm2⟩ := List.mem_map.1 hm
      simp only [Prod.mk.injEq] at hm2
      rw [← hm2.2] at he2
      exact (convertChild_good m (hcs n m hm1)).2 _ _ he2
  · refine ⟨convertKids cs, rfl, ?_⟩
    rw [convertKids_eq, List.map_map]
    rfl

/-- **C115** (a container reachable from two parents is converted twice): the second conversion
puts every quantized module behind a de-quantize wrapper, so it never again receives the quantized
input its own quantizer (now also de-quantized) should give it. -/
theorem C115_violated_shared_container (k : ℕ) (n : String) (ws : List (String × MTree)) :
    convertPass1 (convertPass1 (.node (.user k) [(n, .node (.distWrapper false) ws)])) =
      .node (.user k) [(n, .node .condQuantWrapper
        [("quant", .node .condQuantize [("quantizers", .node (.user 2) [("0", deqWrap (.node .torchQuant []))])]),
         ("wrapped", deqWrap (.node .torchQuant []))])] := by
  simp [convertPass1, convertKids, convertChild, quantWrap, deqWrap]

/-- A fresh model with all kinds of children. -/
example : FreshTree (.node (.user 0) [("conv", .node (.distWrapper false) []), ("pool", .node (.distWrapper true) []),
    ("emb", .node .distEmbedding []), ("id", .node .identity []), ("seq", .node (.user 3) [("relu", .node (.user 4) [])])]) := by
  refine .node (by simp) ?_
  intro n c h
  simp only [List.mem_cons, List.not_mem_nil, or_false, Prod.mk.injEq] at h
  rcases h with ⟨-, rfl⟩ | ⟨-, rfl⟩ | ⟨-, rfl⟩ | ⟨-, rfl⟩ | ⟨-, rfl⟩
  · exact .node (by simp) (by simp)
  · exact .node (by simp) (by simp)
  · exact .node (by simp) (by simp)
  · exact .node (by simp) (by simp)
  · refine .node (by simp) ?_
    intro n c h
    simp only [List.mem_cons, List.not_mem_nil, or_false, Prod.mk.injEq] at h
    obtain ⟨-, rfl⟩ := h
    exact .node (by simp) (by simp)

end Verif
