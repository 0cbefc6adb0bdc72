import Verif.Model.Replace
import Verif.Lemmas.Fold
import Verif.Lemmas.Masking
/-!
# C98: replacing modules for quantization
-/
namespace Verif
open Dict

mutual
/-- Specification: all module identities of a tree. -/
def idsT : MT → List ℕ
  | .mk i _ cs => i :: idsC cs
def idsC : List (String × MT) → List ℕ
  | [] => []
  | (_, t) :: cs => idsT t ++ idsC cs
end

theorem id_mem_idsT (t : MT) : t.id ∈ idsT t := by
  cases t; simp [MT.id, idsT]

/-- Specification: a module is replaced under a name if something is configured for it and the
replacement function of its class returns a new module. -/
def Replaced (e : ReplEnv) (ty : String) (name : List String) : Prop :=
  ((e.bits name).acts ≠ none ∨ (e.bits name).wts ≠ none ∨ e.overrides name ≠ []) ∧
  ∃ f, e.factory ty = some f ∧ f.2 name = true

instance (e : ReplEnv) (ty : String) (name : List String) : Decidable (Replaced e ty name) := by
  unfold Replaced
  cases h : e.factory ty with
  | none => exact .isFalse (by simp)
  | some f =>
    cases hf : f.2 name with
    | false => exact .isFalse (by rintro ⟨_, g, hg, hg2⟩; cases hg; rw [hf] at hg2; cases hg2)
    | true =>
      exact decidable_of_iff ((e.bits name).acts ≠ none ∨ (e.bits name).wts ≠ none ∨ e.overrides name ≠ [])
        ⟨fun h => ⟨h, f, rfl, hf⟩, fun h => h.1⟩

mutual
/-- Specification: the model after replacement – blacklisted modules (with everything below) untouched,
every other module replaced or not by its own name's configuration. -/
def expectT (e : ReplEnv) (name : List String) : MT → QT
  | .mk i ty cs =>
    if e.black ty then embedT (.mk i ty cs)
    else if Replaced e ty name then .wrap name (.plain i (expectC e name cs))
    else .plain i (expectC e name cs)
def expectC (e : ReplEnv) (pre : List String) : List (String × MT) → List (String × QT)
  | [] => []
  | (n, t) :: cs => (n, expectT e (pre ++ [n]) t) :: expectC e pre cs
end

mutual
/-- Specification: names and override arguments are acceptable: every module outside blacklisted ones
has an entry, and its override arguments are accepted by the replacement function used for it. -/
def AcceptT (e : ReplEnv) (name : List String) : MT → Prop
  | .mk _ ty cs => e.black ty = true ∨ (name ∈ e.avail ∧
      (∀ f, e.factory ty = some f → ∀ a ∈ e.overrides name, a ∈ f.1) ∧ AcceptC e name cs)
def AcceptC (e : ReplEnv) (pre : List String) : List (String × MT) → Prop
  | [] => True
  | (n, t) :: cs => AcceptT e (pre ++ [n]) t ∧ AcceptC e pre cs
end

theorem verdict_ok (e : ReplEnv) (ty : String) (name : List String) (h1 : name ∈ e.avail)
    (h2 : ∀ f, e.factory ty = some f → ∀ a ∈ e.overrides name, a ∈ f.1) :
    ∃ v, e.verdict ty name = .ok v ∧ (v = .replace ↔ Replaced e ty name) := by
  unfold ReplEnv.verdict
  rw [if_neg (by simpa using h1)]
  by_cases hb : (e.bits name).acts = none ∧ (e.bits name).wts = none ∧ e.overrides name = []
  · rw [if_pos hb]
    refine ⟨_, rfl, ?_⟩
    simp only [reduceCtorEq, false_iff]
    rintro ⟨h, _⟩
    rcases h with h | h | h
    · exact h hb.1
    · exact h hb.2.1
    · exact h hb.2.2
  · rw [if_neg hb]
    have hb' : (e.bits name).acts ≠ none ∨ (e.bits name).wts ≠ none ∨ e.overrides name ≠ [] := by
      by_contra hc
      simp only [not_or, not_not] at hc
      exact hb hc
    cases hf : e.factory ty with
    | none =>
      refine ⟨_, rfl, ?_⟩
      simp only [reduceCtorEq, false_iff]
      rintro ⟨_, f, h, _⟩
      rw [hf] at h; cases h
    | some f =>
      obtain ⟨ok, isNew⟩ := f
      simp only
      rw [if_neg]
      · refine ⟨_, rfl, ?_⟩
        cases hn : isNew name with
        | true => simp only [if_true, true_iff]; exact ⟨hb', _, hf, hn⟩
        | false =>
          simp only [Bool.false_eq_true, if_false, reduceCtorEq, false_iff]
          rintro ⟨_, f, h, h2⟩
          rw [hf] at h; cases h
          simp only at h2
          rw [hn] at h2; cases h2
      · intro hc
        rw [List.any_eq_true] at hc
        obtain ⟨a, ha, hna⟩ := hc
        have := h2 _ hf a ha
        simp [this] at hna

/-- The identities the state knows. -/
def ReplState.known (s : ReplState) (i : ℕ) : Prop := i ∈ s.processed.map Prod.fst ∨ i ∈ s.objs.map Prod.fst

theorem known_finish (s : ReplState) (i j : ℕ) (name : List String) (v : Verdict) (cs : List (String × QT))
    (h : (finish s i name v cs).1.known j) : j = i ∨ s.known j := by
  unfold finish ReplState.known at h
  unfold ReplState.known
  cases v <;> simp only [mem_keys_set] at h <;> tauto

theorem known_called (s : ReplState) (i j : ℕ) (name : List String) (v : Verdict) :
    (s.called i name v).known j ↔ s.known j := by
  unfold ReplState.called ReplState.known
  cases v <;> rfl

mutual
theorem procChild_unshared (e : ReplEnv) (s : ReplState) (name : List String) (t : MT) (hn : (idsT t).Nodup)
    (hd : ∀ i ∈ idsT t, ¬ s.known i) (ha : AcceptT e name t) :
    ∃ s', procChild e s name t = .ok (s', expectT e name t) ∧ ∀ j, s'.known j → s.known j ∨ j ∈ idsT t := by
  match t with
  | .mk i ty cs =>
    have hi := hd i (by simp [idsT])
    rw [procChild, expectT]
    cases hb : e.black ty with
    | true =>
      simp only [if_true]
      refine ⟨s, ?_, fun j h => Or.inl h⟩
      have : s.obj (.mk i ty cs) = embedT (.mk i ty cs) := by
        unfold ReplState.obj
        have : s.objs.get? i = none := by
          rw [get?_eq_none_iff]; intro h; exact hi (Or.inr h)
        simp only [MT.id, this, Option.getD_none]
      rw [this]
    | false =>
      rw [AcceptT] at ha
      obtain ⟨h1, h2, h3⟩ := ha.resolve_left (by simp [hb])
      have hp : s.processed.get? i = none := by
        rw [get?_eq_none_iff]; intro h; exact hi (Or.inl h)
      obtain ⟨v, hv, hrep⟩ := verdict_ok e ty name h1 h2
      simp only [Bool.false_eq_true, if_false, hp, hv, Except.bind]
      rw [idsT, List.nodup_cons] at hn
      obtain ⟨s', hs', hk⟩ := procChildren_unshared e (s.called i name v) name [] cs hn.2
        (fun j hj => by rw [known_called]; exact hd j (by simp [idsT, hj])) (by simp) h3
      rw [hs']
      refine ⟨(finish s' i name v (expectC e name cs)).1, ?_, ?_⟩
      · simp only [Except.map]
        congr 1
        ext1
        · rfl
        · by_cases hr : Replaced e ty name
          · rw [if_pos hr]
            have := hrep.2 hr
            subst this; rfl
          · rw [if_neg hr]
            cases v with
            | replace => exact absurd (hrep.1 rfl) hr
            | keep => rfl
            | unmarked => rfl
            | returnsSame => rfl
      · intro j hj
        rcases known_finish _ _ _ _ _ _ hj with rfl | hj
        · exact Or.inr (by simp [idsT])
        · rcases hk j hj with h | h
          · rw [known_called] at h; exact Or.inl h
          · exact Or.inr (by simp [idsT, h])
theorem procChildren_unshared (e : ReplEnv) (s : ReplState) (pre : List String) (memo : List ℕ) (cs : List (String × MT))
    (hn : (idsC cs).Nodup) (hd : ∀ i ∈ idsC cs, ¬ s.known i) (hm : ∀ i ∈ idsC cs, i ∉ memo) (ha : AcceptC e pre cs) :
    ∃ s', procChildren e s pre memo cs = .ok (s', expectC e pre cs) ∧ ∀ j, s'.known j → s.known j ∨ j ∈ idsC cs := by
  match cs with
  | [] => exact ⟨s, by rw [procChildren, expectC], fun j h => Or.inl h⟩
  | (n, t) :: cs =>
    rw [idsC, List.nodup_append] at hn
    obtain ⟨n1, n2, n3⟩ := hn
    rw [AcceptC] at ha
    have hid : t.id ∉ memo := hm _ (by rw [idsC]; exact List.mem_append_left _ (id_mem_idsT t))
    obtain ⟨s1, h1, k1⟩ := procChild_unshared e s (pre ++ [n]) t n1
      (fun i hi => hd i (by rw [idsC]; exact List.mem_append_left _ hi)) ha.1
    obtain ⟨s2, h2, k2⟩ := procChildren_unshared e s1 pre (t.id :: memo) cs n2
      (fun i hi hk => by
        rcases k1 i hk with h | h
        · exact hd i (by rw [idsC]; exact List.mem_append_right _ hi) h
        · exact n3 i h i hi rfl)
      (fun i hi => by
        simp only [List.mem_cons, not_or]
        exact ⟨fun heq => n3 t.id (id_mem_idsT t) i hi heq.symm, hm i (by rw [idsC]; exact List.mem_append_right _ hi)⟩) ha.2
    refine ⟨s2, ?_, ?_⟩
    · rw [procChildren, if_neg hid, h1]
      simp only [Except.bind, h2, Except.map, expectC]
    · intro j hj
      rw [idsC]
      rcases k2 j hj with h | h
      · rcases k1 j h with h | h
        · exact Or.inl h
        · exact Or.inr (List.mem_append_left _ h)
      · exact Or.inr (List.mem_append_right _ h)
end

/-- **C98** (models without sharing) If every module object is reachable under one name only and the
override arguments are acceptable, the quantizer replaces exactly the modules the configuration says, at
every depth, each by the replacement made for its own full name; everything else is left in place. -/
theorem C98_unshared (e : ReplEnv) (model : MT) (hn : (idsT model).Nodup) (ha : AcceptC e [] model.children) :
    ∃ s, replaceModules e model = .ok (s, expectC e [] model.children) := by
  obtain ⟨i, ty, cs⟩ := model
  rw [idsT, List.nodup_cons] at hn
  obtain ⟨s, hs, -⟩ := procChildren_unshared e ⟨[], [], []⟩ [] [] cs hn.2
    (by intro i _ h; rcases h with h | h <;> simp at h) (by simp) ha
  exact ⟨s, hs⟩

/-! ### The entries of the configuration table -/

mutual
/-- Specification: all full names of a tree. -/
def namesT (pre : List String) : MT → List (List String)
  | .mk _ _ cs => pre :: namesC pre cs
def namesC (pre : List String) : List (String × MT) → List (List String)
  | [] => []
  | (n, t) :: cs => namesT (pre ++ [n]) t ++ namesC pre cs
end

mutual
theorem namedModsT_unshared (acc : List ℕ × List (List String)) (pre : List String) (t : MT) (hn : (idsT t).Nodup)
    (hd : ∀ i ∈ idsT t, i ∉ acc.1) :
    (namedModsT acc pre t).2 = acc.2 ++ namesT pre t ∧ ∀ j, j ∈ (namedModsT acc pre t).1 ↔ j ∈ acc.1 ∨ j ∈ idsT t := by
  match t with
  | .mk i ty cs =>
    rw [idsT, List.nodup_cons] at hn
    have hi := hd i (by simp [idsT])
    rw [namedModsT, if_neg hi]
    obtain ⟨h1, h2⟩ := namedModsC_unshared (i :: acc.1, acc.2 ++ [pre]) pre cs hn.2 (by
      intro j hj
      simp only [List.mem_cons, not_or]
      exact ⟨fun heq => hn.1 (heq ▸ hj), hd j (by simp [idsT, hj])⟩)
    refine ⟨?_, ?_⟩
    · rw [h1, namesT]; simp
    · intro j
      rw [h2 j, idsT]
      simp only [List.mem_cons]
      tauto
theorem namedModsC_unshared (acc : List ℕ × List (List String)) (pre : List String) (cs : List (String × MT))
    (hn : (idsC cs).Nodup) (hd : ∀ i ∈ idsC cs, i ∉ acc.1) :
    (namedModsC acc pre cs).2 = acc.2 ++ namesC pre cs ∧ ∀ j, j ∈ (namedModsC acc pre cs).1 ↔ j ∈ acc.1 ∨ j ∈ idsC cs := by
  match cs with
  | [] => simp [namedModsC, namesC, idsC]
  | (n, t) :: cs =>
    rw [idsC, List.nodup_append] at hn
    obtain ⟨n1, n2, n3⟩ := hn
    obtain ⟨a1, a2⟩ := namedModsT_unshared acc (pre ++ [n]) t n1
      (fun i hi => hd i (by rw [idsC]; exact List.mem_append_left _ hi))
    obtain ⟨b1, b2⟩ := namedModsC_unshared (namedModsT acc (pre ++ [n]) t) pre cs n2 (by
      intro i hi hc
      rcases (a2 i).1 hc with h | h
      · exact hd i (by rw [idsC]; exact List.mem_append_right _ hi) h
      · exact n3 i h i hi rfl)
    rw [namedModsC]
    refine ⟨?_, ?_⟩
    · rw [b1, a1, namesC, List.append_assoc]
    · intro j
      rw [b2 j, a2 j, idsC, List.mem_append]
      tauto
end

/-- **C98** (the table) Without sharing, every full name has an entry in the configuration table. -/
theorem C98_table (model : MT) (hn : (idsT model).Nodup) :
    (namedModsT ([], []) [] model).2 = namesT [] model := by
  have := (namedModsT_unshared ([], []) [] model hn (by simp)).1
  simpa using this

mutual
theorem namedModsT_once (acc : List ℕ × List (List String)) (pre : List String) (t : MT) (hn : acc.1.Nodup)
    (hl : acc.1.length = acc.2.length) :
    (namedModsT acc pre t).1.Nodup ∧ (namedModsT acc pre t).1.length = (namedModsT acc pre t).2.length ∧
    (∀ j ∈ (namedModsT acc pre t).1, j ∈ acc.1 ∨ j ∈ idsT t) ∧ ∀ j ∈ acc.1, j ∈ (namedModsT acc pre t).1 := by
  match t with
  | .mk i ty cs =>
    rw [namedModsT]
    by_cases hi : i ∈ acc.1
    · rw [if_pos hi]; exact ⟨hn, hl, fun j h => Or.inl h, fun j h => h⟩
    · rw [if_neg hi]
      obtain ⟨h1, h2, h3, h4⟩ := namedModsC_once (i :: acc.1, acc.2 ++ [pre]) pre cs (by simp [hi, hn]) (by simp [hl])
      refine ⟨h1, h2, fun j hj => ?_, fun j hj => h4 j (by simp [hj])⟩
      rcases h3 j hj with h | h
      · rcases List.mem_cons.1 h with rfl | h
        · exact Or.inr (by simp [idsT])
        · exact Or.inl h
      · exact Or.inr (by simp [idsT, h])
theorem namedModsC_once (acc : List ℕ × List (List String)) (pre : List String) (cs : List (String × MT))
    (hn : acc.1.Nodup) (hl : acc.1.length = acc.2.length) :
    (namedModsC acc pre cs).1.Nodup ∧ (namedModsC acc pre cs).1.length = (namedModsC acc pre cs).2.length ∧
    (∀ j ∈ (namedModsC acc pre cs).1, j ∈ acc.1 ∨ j ∈ idsC cs) ∧ ∀ j ∈ acc.1, j ∈ (namedModsC acc pre cs).1 := by
  match cs with
  | [] => rw [namedModsC]; exact ⟨hn, hl, fun j h => Or.inl h, fun j h => h⟩
  | (n, t) :: cs =>
    obtain ⟨a1, a2, a3, a4⟩ := namedModsT_once acc (pre ++ [n]) t hn hl
    obtain ⟨b1, b2, b3, b4⟩ := namedModsC_once (namedModsT acc (pre ++ [n]) t) pre cs a1 a2
    rw [namedModsC]
    refine ⟨b1, b2, fun j hj => ?_, fun j hj => b4 j (a4 j hj)⟩
    rcases b3 j hj with h | h
    · rcases a3 j h with h | h
      · exact Or.inl h
      · exact Or.inr (by simp [idsC, h])
    · exact Or.inr (by simp [idsC, h])
end

/-- **C98** (the table, with sharing) The configuration table has one name per module object visited,
whatever the sharing. -/
theorem C98_table_once (model : MT) :
    (namedModsT ([], []) [] model).1.Nodup ∧
    (namedModsT ([], []) [] model).2.length = (namedModsT ([], []) [] model).1.length ∧
    ∀ j ∈ (namedModsT ([], []) [] model).1, j ∈ idsT model := by
  obtain ⟨h1, h2, h3, -⟩ := namedModsT_once ([], []) [] model (by simp) rfl
  exact ⟨h1, h2.symm, fun j hj => by simpa using h3 j hj⟩

/-! ### Shared modules -/

/-- Specification: the identity of an original module, looking through the replacement. -/
def QT.rootId : QT → ℕ
  | .plain i _ => i
  | .wrap _ q => q.rootId

mutual
/-- Specification: all replacements in a model: the object replaced and the name the replacement was
made for. -/
def wrapsT : QT → List (ℕ × List String)
  | .plain _ cs => wrapsC cs
  | .wrap n q => (q.rootId, n) :: wrapsT q
def wrapsC : List (String × QT) → List (ℕ × List String)
  | [] => []
  | (_, q) :: cs => wrapsT q ++ wrapsC cs
end

mutual
/-- Specification: no module is contained in itself. -/
def AcyclicT : MT → Prop
  | .mk i _ cs => i ∉ idsC cs ∧ AcyclicC cs
def AcyclicC : List (String × MT) → Prop
  | [] => True
  | (_, t) :: cs => AcyclicT t ∧ AcyclicC cs
end

mutual
theorem wraps_embedT (t : MT) : wrapsT (embedT t) = [] := by
  match t with
  | .mk i ty cs => rw [embedT, wrapsT]; exact wraps_embedC cs
theorem wraps_embedC (cs : List (String × MT)) : wrapsC (embedC cs) = [] := by
  match cs with
  | [] => rw [embedC, wrapsC]
  | (n, t) :: cs => rw [embedC, wrapsC, wraps_embedT t, wraps_embedC cs]; rfl
end

/-- Everything the state holds was made by a recorded call. -/
def ReplInv (s : ReplState) : Prop :=
  (∀ i q, s.objs.get? i = some q → ∀ c ∈ wrapsT q, c ∈ s.calls) ∧
  (∀ i q, s.processed.get? i = some (some q) → ∀ c ∈ wrapsT q, c ∈ s.calls)

theorem inv_obj {s : ReplState} (h : ReplInv s) (t : MT) : ∀ c ∈ wrapsT (s.obj t), c ∈ s.calls := by
  unfold ReplState.obj
  cases ho : s.objs.get? t.id with
  | none => simp [wraps_embedT]
  | some q => simpa using h.1 _ _ ho

theorem called_processed (s : ReplState) (i : ℕ) (name : List String) (v : Verdict) :
    (s.called i name v).processed = s.processed := by
  unfold ReplState.called; cases v <;> rfl

theorem called_objs (s : ReplState) (i : ℕ) (name : List String) (v : Verdict) :
    (s.called i name v).objs = s.objs := by
  unfold ReplState.called; cases v <;> rfl

/-- The calls added by `called`. -/
def newCall (i : ℕ) (name : List String) : Verdict → List (ℕ × List String)
  | .replace | .returnsSame => [(i, name)]
  | .keep | .unmarked => []

theorem called_calls (s : ReplState) (i : ℕ) (name : List String) (v : Verdict) :
    (s.called i name v).calls = s.calls ++ newCall i name v := by
  unfold ReplState.called newCall; cases v <;> simp

theorem inv_called {s : ReplState} (h : ReplInv s) (i : ℕ) (name : List String) (v : Verdict) :
    ReplInv (s.called i name v) := by
  refine ⟨?_, ?_⟩
  · intro j q hq c hc
    rw [called_objs] at hq
    rw [called_calls]
    exact List.mem_append_left _ (h.1 j q hq c hc)
  · intro j q hq c hc
    rw [called_processed] at hq
    rw [called_calls]
    exact List.mem_append_left _ (h.2 j q hq c hc)

theorem finish_calls (s : ReplState) (i : ℕ) (name : List String) (v : Verdict) (cs : List (String × QT)) :
    (finish s i name v cs).1.calls = s.calls := by
  unfold finish; cases v <;> rfl

theorem finish_processed_ne (s : ReplState) (i : ℕ) (name : List String) (v : Verdict) (cs : List (String × QT)) (j : ℕ)
    (hj : j ≠ i) : (finish s i name v cs).1.processed.get? j = s.processed.get? j := by
  unfold finish
  cases v <;> simp [get?_set_ne _ _ (fun e : i = j => hj e.symm)]

theorem finish_marked (s : ReplState) (i : ℕ) (name : List String) (v : Verdict) (cs : List (String × QT))
    (h : newCall i name v ≠ []) : ((finish s i name v cs).1.processed.get? i).isSome := by
  cases v <;> simp [finish, newCall] at h ⊢

theorem finish_wraps (s : ReplState) (i : ℕ) (name : List String) (v : Verdict) (cs : List (String × QT))
    (h : ∀ c ∈ wrapsC cs, c ∈ s.calls) (hn : ∀ c ∈ newCall i name v, c ∈ s.calls) :
    ∀ c ∈ wrapsT (finish s i name v cs).2, c ∈ s.calls := by
  cases v <;> simp only [finish, wrapsT, QT.rootId, List.mem_cons] <;> intro c hc
  · exact h c hc
  · exact h c hc
  · rcases hc with rfl | hc
    · exact hn _ (by simp [newCall])
    · exact h c hc
  · exact h c hc

theorem inv_finish {s : ReplState} (hs : ReplInv s) (i : ℕ) (name : List String) (v : Verdict) (cs : List (String × QT))
    (h : ∀ c ∈ wrapsC cs, c ∈ s.calls) (hn : ∀ c ∈ newCall i name v, c ∈ s.calls) :
    ReplInv (finish s i name v cs).1 := by
  have hf := finish_wraps s i name v cs h hn
  have hobj : (finish s i name v cs).1.objs = s.objs.set i (.plain i cs) := by
    unfold finish; cases v <;> rfl
  refine ⟨?_, ?_⟩
  · intro j q hq c hc
    rw [finish_calls]
    rw [hobj, get?_set] at hq
    split at hq
    · cases hq; rw [wrapsT] at hc; exact h c hc
    · exact hs.1 j q hq c hc
  · intro j q hq c hc
    rw [finish_calls]
    by_cases hj : j = i
    · subst hj
      cases v with
      | keep => simp [finish] at hq
      | unmarked => exact hs.2 j q hq c hc
      | returnsSame => simp [finish] at hq
      | replace =>
        simp [finish] at hq
        subst hq
        exact hf c hc
    · rw [finish_processed_ne _ _ _ _ _ _ hj] at hq
      exact hs.2 j q hq c hc

/-- What a step preserves: invariant, marked entries, calls only grow, new calls are for objects of the
given identities, not marked before, marked now, and for no object twice; the result's replacements are
recorded. -/
structure ReplStep (s s' : ReplState) (ids : List ℕ) (wr : List (ℕ × List String)) : Prop where
  inv : ReplInv s'
  keep : ∀ j w, s.processed.get? j = some w → s'.processed.get? j = some w
  calls : ∃ more, s'.calls = s.calls ++ more ∧ (more.map Prod.fst).Nodup ∧
    ∀ c ∈ more, s.processed.get? c.1 = none ∧ (s'.processed.get? c.1).isSome ∧ c.1 ∈ ids
  wraps : ∀ c ∈ wr, c ∈ s'.calls

theorem ReplStep.refl {s : ReplState} (h : ReplInv s) (ids : List ℕ) (wr : List (ℕ × List String))
    (hw : ∀ c ∈ wr, c ∈ s.calls) : ReplStep s s ids wr :=
  ⟨h, fun _ _ h => h, ⟨[], by simp, by simp, by simp⟩, hw⟩

theorem ReplStep.trans {s s' s'' : ReplState} {ids ids' : List ℕ} {wr wr' : List (ℕ × List String)}
    (h : ReplStep s s' ids wr) (h' : ReplStep s' s'' ids' wr') : ReplStep s s'' (ids ++ ids') (wr ++ wr') := by
  obtain ⟨m, hm, mn, mp⟩ := h.calls
  obtain ⟨m', hm', mn', mp'⟩ := h'.calls
  refine ⟨h'.inv, fun j w hj => h'.keep j w (h.keep j w hj), ⟨m ++ m', ?_, ?_, ?_⟩, ?_⟩
  · rw [hm', hm, List.append_assoc]
  · rw [List.map_append, List.nodup_append]
    refine ⟨mn, mn', ?_⟩
    intro a ha b hb hab
    obtain ⟨c, hc, rfl⟩ := List.mem_map.1 ha
    obtain ⟨c', hc', rfl⟩ := List.mem_map.1 hb
    have h1 := (mp c hc).2.1
    rw [hab, (mp' c' hc').1] at h1
    cases h1
  · intro c hc
    rcases List.mem_append.1 hc with hc | hc
    · obtain ⟨x1, x2, x3⟩ := mp c hc
      refine ⟨x1, ?_, List.mem_append_left _ x3⟩
      obtain ⟨w, hw⟩ := Option.isSome_iff_exists.1 x2
      rw [h'.keep _ _ hw]; rfl
    · obtain ⟨x1, x2, x3⟩ := mp' c hc
      refine ⟨?_, x2, List.mem_append_right _ x3⟩
      cases hs : s.processed.get? c.1 with
      | none => rfl
      | some w => rw [h.keep _ _ hs] at x1; cases x1
  · intro c hc
    rcases List.mem_append.1 hc with hc | hc
    · rw [hm']; exact List.mem_append_left _ (h.wraps c hc)
    · exact h'.wraps c hc

mutual
theorem procChild_step (e : ReplEnv) (s s' : ReplState) (name : List String) (t : MT) (q : QT)
    (h : procChild e s name t = .ok (s', q)) (hw : AcyclicT t) (hs : ReplInv s) :
    ReplStep s s' (idsT t) (wrapsT q) := by
  match t with
  | .mk i ty cs =>
    rw [procChild] at h
    cases hb : e.black ty with
    | true =>
      simp only [hb, if_true] at h
      injection h with h; cases h
      exact .refl hs _ _ (inv_obj hs _)
    | false =>
      simp only [hb, Bool.false_eq_true, if_false] at h
      cases hp : s.processed.get? i with
      | some o =>
        cases o with
        | some w =>
          simp only [hp] at h
          injection h with h; cases h
          exact .refl hs _ _ (hs.2 _ _ hp)
        | none =>
          simp only [hp] at h
          injection h with h; cases h
          exact .refl hs _ _ (inv_obj hs _)
      | none =>
        simp only [hp] at h
        obtain ⟨v, hv, h⟩ := ok_bind h
        cases hc : procChildren e (s.called i name v) name [] cs with
        | error e => rw [hc] at h; cases h
        | ok r =>
          rw [hc] at h
          simp only [Except.map] at h
          injection h with h
          rw [AcyclicT] at hw
          have hr := procChildren_step e (s.called i name v) r.1 name [] cs r.2 (by rw [hc]) hw.2 (inv_called hs i name v)
          obtain ⟨more, hm1, hm2, hm3⟩ := hr.calls
          have hri : ∀ c ∈ more, c.1 ≠ i := by
            intro c hcm e
            exact hw.1 (e ▸ (hm3 c hcm).2.2)
          have hfin : s' = (finish r.1 i name v r.2).1 ∧ q = (finish r.1 i name v r.2).2 := by rw [h]; exact ⟨rfl, rfl⟩
          obtain ⟨rfl, rfl⟩ := hfin
          have hnew : ∀ c ∈ newCall i name v, c ∈ r.1.calls := by
            intro c hc
            rw [hm1, called_calls]
            exact List.mem_append_left _ (List.mem_append_right _ hc)
          rw [called_processed] at hm3
          have hfst : ∀ c ∈ newCall i name v, c.1 = i := by
            intro c hc; cases v <;> simp [newCall] at hc <;> rw [hc]
          refine ⟨inv_finish hr.inv i name v r.2 hr.wraps hnew, ?_, ⟨newCall i name v ++ more, ?_, ?_, ?_⟩, ?_⟩
          · intro j w hj
            have hji : j ≠ i := by rintro rfl; rw [hp] at hj; cases hj
            rw [finish_processed_ne _ _ _ _ _ _ hji]
            exact hr.keep j w (by rw [called_processed]; exact hj)
          · rw [finish_calls, hm1, called_calls, List.append_assoc]
          · rw [List.map_append, List.nodup_append]
            refine ⟨by cases v <;> simp [newCall], hm2, ?_⟩
            intro a ha b hb hab
            obtain ⟨c, hc, rfl⟩ := List.mem_map.1 ha
            obtain ⟨c', hc', rfl⟩ := List.mem_map.1 hb
            exact hri c' hc' (by rw [← hab, hfst c hc])
          · intro c hc
            rcases List.mem_append.1 hc with hc | hc
            · rw [hfst c hc]
              exact ⟨hp, finish_marked _ _ _ _ _ (List.ne_nil_of_mem hc), by simp [idsT]⟩
            · obtain ⟨x1, x2, x3⟩ := hm3 c hc
              refine ⟨x1, ?_, by simp [idsT, x3]⟩
              rw [finish_processed_ne _ _ _ _ _ _ (hri c hc)]; exact x2
          · rw [finish_calls]
            exact finish_wraps r.1 i name v r.2 hr.wraps hnew
theorem procChildren_step (e : ReplEnv) (s s' : ReplState) (pre : List String) (memo : List ℕ) (cs : List (String × MT))
    (q : List (String × QT)) (h : procChildren e s pre memo cs = .ok (s', q)) (hw : AcyclicC cs) (hs : ReplInv s) :
    ReplStep s s' (idsC cs) (wrapsC q) := by
  match cs with
  | [] =>
    rw [procChildren] at h
    injection h with h; cases h
    exact .refl hs _ _ (by simp [wrapsC])
  | (n, t) :: cs =>
    rw [procChildren] at h
    rw [AcyclicC] at hw
    by_cases hm : t.id ∈ memo
    · rw [if_pos hm] at h
      cases hc : procChildren e s pre memo cs with
      | error e => rw [hc] at h; cases h
      | ok r =>
        rw [hc] at h
        simp only [Except.map] at h
        injection h with h; cases h
        have h2 := procChildren_step e s r.1 pre memo cs r.2 (by rw [hc]) hw.2 hs
        have h1 : ReplStep s s (idsT t) (wrapsT (s.obj t)) := .refl hs _ _ (inv_obj hs t)
        rw [idsC, wrapsC]
        exact h1.trans h2
    · rw [if_neg hm] at h
      obtain ⟨r, hr, h⟩ := ok_bind h
      cases hc : procChildren e r.1 pre (t.id :: memo) cs with
      | error e => rw [hc] at h; cases h
      | ok r' =>
        rw [hc] at h
        simp only [Except.map] at h
        injection h with h; cases h
        have h1 := procChild_step e s r.1 (pre ++ [n]) t r.2 (by rw [hr]) hw.1 hs
        have h2 := procChildren_step e r.1 r'.1 pre (t.id :: memo) cs r'.2 (by rw [hc]) hw.2 h1.inv
        rw [idsC, wrapsC]
        exact h1.trans h2
end

/-- **C98** (sharing) However modules are shared between containers, if the quantizer succeeds then the
replacement function was called at most once for every module object, and all references that were
replaced refer to the one replacement made for it, at every depth. -/
theorem C98_shared (e : ReplEnv) (model : MT) (hw : AcyclicT model) (s : ReplState) (q : List (String × QT))
    (h : replaceModules e model = .ok (s, q)) :
    (s.calls.map Prod.fst).Nodup ∧
    (∀ i n n', (i, n) ∈ wrapsC q → (i, n') ∈ wrapsC q → n = n') := by
  obtain ⟨i, ty, cs⟩ := model
  rw [AcyclicT] at hw
  have hs := procChildren_step e ⟨[], [], []⟩ s [] [] cs q h hw.2 ⟨by simp [Dict.get?], by simp [Dict.get?]⟩
  obtain ⟨more, hm1, hm2, -⟩ := hs.calls
  have hn : (s.calls.map Prod.fst).Nodup := by rw [hm1]; simpa using hm2
  refine ⟨hn, ?_⟩
  intro j n n' h1 h2
  have a := get?_of_mem hn (hs.wraps _ h1)
  have b := get?_of_mem hn (hs.wraps _ h2)
  rw [a] at b
  exact Option.some.inj b

/-! ### Examples and the two cases in which the docstring's promise fails -/

/-- A configuration: 8 bits for every name of the model, replacement functions for "Conv" and "ReLU",
none for containers. -/
def replEx (model : MT) : ReplEnv where
  black := fun ty => ty == "Dropout"
  avail := (namedModsT ([], []) [] model).2
  bits := fun _ => ⟨some 8, some 8, some 32⟩
  overrides := fun _ => []
  factory := fun ty => if ty == "Conv" || ty == "ReLU" then some ([], fun _ => true) else none

/-- Two blocks, a dropout layer; no sharing. -/
def modelEx : MT := .mk 0 "Net" [("a", .mk 1 "Block" [("c", .mk 2 "Conv" []), ("d", .mk 3 "Dropout" [])]), ("r", .mk 4 "ReLU" [])]

example : (idsT modelEx).Nodup ∧ AcceptC (replEx modelEx) [] modelEx.children ∧
    expectC (replEx modelEx) [] modelEx.children =
      [("a", .plain 1 [("c", .wrap ["a", "c"] (.plain 2 [])), ("d", .plain 3 [])]), ("r", .wrap ["r"] (.plain 4 []))] := by
  refine ⟨by decide +kernel, ?_, by rfl⟩
  simp only [modelEx, MT.children, AcceptC, AcceptT]
  refine ⟨Or.inr ⟨by decide +kernel, by simp [replEx], Or.inr ⟨by decide +kernel, by simp [replEx], trivial⟩, Or.inl (by decide +kernel), trivial⟩,
    Or.inr ⟨by decide +kernel, by simp [replEx], trivial⟩, trivial⟩

/-- One ReLU object used by two blocks. -/
def modelShared : MT :=
  .mk 0 "Net" [("a", .mk 1 "Block" [("r", .mk 9 "ReLU" [])]), ("b", .mk 2 "Block" [("r", .mk 9 "ReLU" [])])]

example : AcyclicT modelShared ∧ ∃ s, replaceModules (replEx modelShared) modelShared = .ok (s,
    [("a", .plain 1 [("r", .wrap ["a", "r"] (.plain 9 []))]), ("b", .plain 2 [("r", .wrap ["a", "r"] (.plain 9 []))])]) ∧
    s.calls = [(9, ["a", "r"])] := by
  refine ⟨?_, _, rfl, rfl⟩
  simp [modelShared, AcyclicT, AcyclicC, idsC, idsT]

/-- The toy model of the docstring: one ReLU object under two names of the same container. -/
def modelTwice : MT :=
  .mk 0 "Net" [("c", .mk 1 "Conv" []), ("relu1", .mk 9 "ReLU" []), ("relu2", .mk 9 "ReLU" [])]

/-- **C98, violated**: `named_children()` yields a shared object once, so its second name in the same
container keeps the unquantized module. -/
theorem C98_violated_same_container : ∃ s, replaceModules (replEx modelTwice) modelTwice = .ok (s,
    [("c", .wrap ["c"] (.plain 1 [])), ("relu1", .wrap ["relu1"] (.plain 9 [])), ("relu2", .plain 9 [])]) :=
  ⟨_, rfl⟩

/-- One tanh object (no replacement function) used by two blocks. -/
def modelTanh : MT :=
  .mk 0 "Net" [("a", .mk 1 "Block" [("t", .mk 9 "Tanh" [])]), ("b", .mk 2 "Block" [("t", .mk 9 "Tanh" [])])]

/-- **C98, violated**: a shared module whose class has no replacement function is not remembered, and its
second name has no entry in the bit-width table: preparing the model fails with a KeyError. -/
theorem C98_violated_shared_unsupported :
    replaceModules (replEx modelTanh) modelTanh = .error .key := by rfl

end Verif
