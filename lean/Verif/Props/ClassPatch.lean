import Verif.Model.ClassPatch
import Verif.Lemmas.Fold
/-!
# C139: preparing a model for quantization-aware training changes that model only
-/
namespace Verif

/-! ## Specification -/

/-- Each class is first in its own method resolution order. -/
structure GoodClasses {V : Type} (e : PyEnv V) : Prop where
  self : ∀ c, ∃ l, e.mro c = c :: l
  
/-- The class whose `forward` an object of class `c` runs in a fresh interpreter. -/
def definer {V : Type} (e : PyEnv V) (defines : ℕ → Bool) (c : ℕ) : Option ℕ := (e.mro c).find? defines

/-- The classes of different prepared models are unrelated: none is the class, or a base class, of another. -/
def Unrelated {V : Type} (e : PyEnv V) (is : List ℕ) : Prop := is.Pairwise fun i j => e.cls i ∉ e.mro (e.cls j) ∧ e.cls j ∉ e.mro (e.cls i)

theorem fresh_find {V : Type} (e : PyEnv V) (defines : ℕ → Bool) (c : ℕ) :
    findAttr (e.mro c) (PyState.fresh defines).fwd = (definer e defines c).map .written := by
  unfold findAttr definer PyState.fresh
  generalize e.mro c = l
  induction l with
  | nil => rfl
  | cons a l ih =>
    simp only [List.findSome?_cons, List.find?_cons] at ih ⊢
    cases h : defines a <;> simp [h, ih]

theorem findAttr_congr {l : List ℕ} {t t' : ℕ → Option FwdFn} (h : ∀ c ∈ l, t c = t' c) : findAttr l t = findAttr l t' := by
  unfold findAttr
  induction l with
  | nil => rfl
  | cons a l ih =>
    simp only [List.findSome?_cons]
    rw [h a List.mem_cons_self, ih fun c hc => h c (List.mem_cons_of_mem _ hc)]

/-- What the state says about the classes that were prepared, and the others. -/
structure Patched {V : Type} (e : PyEnv V) (defines : ℕ → Bool) (is : List ℕ) (s : PyState) : Prop where
  wrapped : ∀ i ∈ is, s.fwd (e.cls i) = some .wrapped ∧ s.quant i = true ∧
    ∃ d, definer e defines (e.cls i) = some d ∧ s.orig (e.cls i) = some (.written d)
  other : ∀ c, (∀ i ∈ is, e.cls i ≠ c) → s.fwd c = (PyState.fresh defines).fwd c
  unprepared : ∀ j, j ∉ is → s.quant j = false

theorem patchAll_patched {V : Type} (e : PyEnv V) (defines : ℕ → Bool) : ∀ (js is : List ℕ) (s s' : PyState), Unrelated e (is ++ js) →
    Patched e defines is s → patchAll e s js = .ok s' → Patched e defines (is ++ js) s' := by
  intro js
  induction js with
  | nil => intro is s s' _ hp h; cases h; simpa using hp
  | cons j js ih =>
    intro is s s' hu hp h
    unfold patchAll at h
    rw [List.foldlM_cons] at h
    obtain ⟨s1, h1, h⟩ := ok_bind h
    have hu1 : ∀ i ∈ is, e.cls i ∉ e.mro (e.cls j) ∧ e.cls j ∉ e.mro (e.cls i) := by
      intro i hi
      exact (List.pairwise_append.1 hu).2.2 i hi j List.mem_cons_self
    have hfind : findAttr (e.mro (e.cls j)) s.fwd = (definer e defines (e.cls j)).map .written := by
      rw [← fresh_find]
      apply findAttr_congr
      intro c hc
      refine hp.other c fun i hi e' => ?_
      subst e'
      exact (hu1 i hi).1 hc
    unfold patchInputs at h1
    rw [hfind] at h1
    cases hd : definer e defines (e.cls j) with
    | none => rw [hd] at h1; cases h1
    | some d =>
      rw [hd] at h1
      cases h1
      have := ih (is ++ [j]) _ s' (by simpa using hu) (by
        constructor
        · intro i hi
          rcases List.mem_append.1 hi with hi | hi
          · obtain ⟨a1, a2, d', a3, a4⟩ := hp.wrapped i hi
            refine ⟨?_, ?_, d', a3, ?_⟩
            · dsimp only; split
              · rfl
              · exact a1
            · dsimp only; split
              · rfl
              · exact a2
            · dsimp only; split
              · rename_i e'
                rw [e', hd] at a3
                cases a3; rfl
              · exact a4
          · rw [List.mem_singleton] at hi
            subst hi
            refine ⟨?_, ?_, d, hd, ?_⟩ <;> simp
        · intro c hc
          dsimp only
          rw [if_neg (fun e' => hc j (by simp) e'.symm)]
          exact hp.other c fun i hi => hc i (by simp [hi])
        · intro k hk
          simp only [List.mem_append, List.mem_singleton, not_or] at hk
          dsimp only
          rw [if_neg hk.2]
          exact hp.unprepared k hk.1) h
      simpa using this

/-- **C139** If the prepared models are of unrelated classes, then after preparing all of them every prepared model
computes what it did before on its quantized input, and every model that is not of a prepared class (or derived
from one) computes what it did before. -/
theorem C139_partial {V : Type} (e : PyEnv V) (hc : GoodClasses e) (defines : ℕ → Bool) (is : List ℕ) (s : PyState)
    (hu : Unrelated e is) (h : patchAll e (PyState.fresh defines) is = .ok s) (n : ℕ) :
    (∀ i ∈ is, ∀ x, ∃ d, definer e defines (e.cls i) = some d ∧ callModel e s (n + 2) i [x] = .ok (e.sem d i [e.q i x])) ∧
    (∀ k, (∀ i ∈ is, e.cls i ∉ e.mro (e.cls k)) → ∀ xs,
      callModel e s (n + 2) k xs = callModel e (PyState.fresh defines) (n + 2) k xs) := by
  have hp := patchAll_patched e defines is [] _ s (by simpa using hu) ⟨by simp, fun _ _ => rfl, fun _ _ => rfl⟩ h
  rw [List.nil_append] at hp
  constructor
  · intro i hi x
    obtain ⟨a1, a2, d, a3, a4⟩ := hp.wrapped i hi
    refine ⟨d, a3, ?_⟩
    obtain ⟨l, hl⟩ := hc.self (e.cls i)
    unfold callModel findAttr
    rw [hl, List.findSome?_cons, a1]
    dsimp only
    unfold runFwd
    rw [if_neg (by simp [a2])]
    unfold findAttr
    rw [hl, List.findSome?_cons, a4]
    rfl
  · intro k hk xs
    have hf : findAttr (e.mro (e.cls k)) s.fwd = findAttr (e.mro (e.cls k)) (PyState.fresh defines).fwd := by
      apply findAttr_congr
      intro c hc
      exact hp.other c fun i hi e' => hk i hi (e' ▸ hc)
    unfold callModel
    rw [hf, fresh_find]
    cases definer e defines (e.cls k) with
    | none => rfl
    | some d => rfl

/-- Preparing succeeds for every list of models whose classes have a `forward`. -/
theorem C139_succeeds {V : Type} (e : PyEnv V) (hc : GoodClasses e) (defines : ℕ → Bool) (is : List ℕ)
    (hd : ∀ i ∈ is, (definer e defines (e.cls i)).isSome) : ∃ s, patchAll e (PyState.fresh defines) is = .ok s := by
  have gen : ∀ (is : List ℕ) (s : PyState), (∀ i ∈ is, (findAttr (e.mro (e.cls i)) s.fwd).isSome) → ∃ s', patchAll e s is = .ok s' := by
    intro is
    induction is with
    | nil => intro s _; exact ⟨s, rfl⟩
    | cons i is ih =>
      intro s hs
      obtain ⟨f, hf⟩ := Option.isSome_iff_exists.1 (hs i List.mem_cons_self)
      unfold patchAll
      rw [List.foldlM_cons]
      unfold patchInputs
      rw [hf]
      refine ih _ fun j hj => ?_
      have := hs j (List.mem_cons_of_mem _ hj)
      unfold findAttr at this ⊢
      rw [List.findSome?_isSome_iff] at this ⊢
      obtain ⟨c, hc1, hc2⟩ := this
      refine ⟨c, hc1, ?_⟩
      dsimp only
      split
      · rfl
      · exact hc2
  refine gen is _ fun i hi => ?_
  rw [fresh_find, Option.isSome_map]
  exact hd i hi

/-! ## Where it fails -/

/-- An endless recursion: a model that finds the wrapper under both names. -/
theorem run_loop {V : Type} (e : PyEnv V) (s : PyState) (i : ℕ) (hq : s.quant i = true)
    (ho : findAttr (e.mro (e.cls i)) s.orig = some .wrapped) : ∀ (n : ℕ) (x : V), runFwd e s i n .wrapped [x] = .error .runtime := by
  intro n
  induction n with
  | zero => intro x; rfl
  | succ n ih =>
    intro x
    unfold runFwd
    rw [if_neg (by simp [hq]), ho]
    exact ih _

/-- **C139** is violated by two models of one class: once the second one is prepared, both recurse without end. -/
theorem C139_violated_same_class {V : Type} (e : PyEnv V) (hc : GoodClasses e) (s0 s : PyState) (i j : ℕ) (hcls : e.cls i = e.cls j)
    (h : patchAll e s0 [i, j] = .ok s) (x : V) :
    ∀ n, callModel e s n i [x] = .error .runtime ∧ callModel e s n j [x] = .error .runtime := by
  intro n
  unfold patchAll at h
  rw [List.foldlM_cons] at h
  obtain ⟨s1, h1, h⟩ := ok_bind h
  rw [List.foldlM_cons] at h
  obtain ⟨s2, h2, h⟩ := ok_bind h
  cases h
  obtain ⟨l, hl⟩ := hc.self (e.cls j)
  unfold patchInputs at h1
  split at h1
  · cases h1
  · cases h1
    unfold patchInputs at h2
    have e1 : findAttr (e.mro (e.cls j)) (fun c => if c = e.cls i then some .wrapped else s0.fwd c) = some .wrapped := by
      unfold findAttr
      rw [hl, List.findSome?_cons]
      simp [hcls]
    rw [e1] at h2
    cases h2
    have go : ∀ (t : PyState) (k : ℕ), e.cls k = e.cls j → t.fwd (e.cls j) = some .wrapped → t.orig (e.cls j) = some .wrapped →
        t.quant k = true → callModel e t n k [x] = .error .runtime := by
      intro t k hkc h1 h2 h3
      unfold callModel
      have e2 : findAttr (e.mro (e.cls k)) t.fwd = some .wrapped := by
        unfold findAttr
        rw [hkc, hl, List.findSome?_cons, h1]
      rw [e2]
      refine run_loop e _ k h3 ?_ n x
      unfold findAttr
      rw [hkc, hl, List.findSome?_cons, h2]
    exact ⟨go _ i hcls (by simp) (by simp) (by simp), go _ j rfl (by simp) (by simp) (by simp)⟩

/-- **C139** is violated for a model of a derived class that is prepared after one of its base class. -/
theorem C139_violated_derived {V : Type} (e : PyEnv V) (s0 s : PyState) (i j : ℕ) (l : List ℕ) (hne : e.cls i ≠ e.cls j)
    (hl : e.mro (e.cls j) = e.cls j :: e.cls i :: l) (hf : s0.fwd (e.cls j) = none) (h : patchAll e s0 [i, j] = .ok s) (x : V) (n : ℕ) :
    callModel e s n j [x] = .error .runtime := by
  unfold patchAll at h
  rw [List.foldlM_cons] at h
  obtain ⟨s1, h1, h⟩ := ok_bind h
  rw [List.foldlM_cons] at h
  obtain ⟨s2, h2, h⟩ := ok_bind h
  cases h
  unfold patchInputs at h1
  split at h1
  · cases h1
  · cases h1
    unfold patchInputs at h2
    have e1 : findAttr (e.mro (e.cls j)) (fun c => if c = e.cls i then some .wrapped else s0.fwd c) = some .wrapped := by
      unfold findAttr
      rw [hl, List.findSome?_cons, if_neg (Ne.symm hne), hf, List.findSome?_cons]
      simp
    rw [e1] at h2
    cases h2
    unfold callModel
    have e2 : findAttr (e.mro (e.cls j)) (fun c => if c = e.cls j then some .wrapped else if c = e.cls i then some .wrapped else s0.fwd c) = some .wrapped := by
      unfold findAttr
      rw [hl, List.findSome?_cons]
      simp
    dsimp only
    rw [e2]
    refine run_loop e _ j (by simp) ?_ n x
    unfold findAttr
    rw [hl, List.findSome?_cons]
    simp

/-- **C139** is violated for an unprepared model of the class of a prepared one, such as the teacher in knowledge
distillation: its `forward` raises AttributeError. -/
theorem C139_violated_unprepared {V : Type} (e : PyEnv V) (hc : GoodClasses e) (s0 s : PyState) (i k : ℕ) (hcls : e.cls k = e.cls i)
    (hne : k ≠ i) (hk : s0.quant k = false) (h : patchAll e s0 [i] = .ok s) (x : V) (n : ℕ) :
    callModel e s (n + 1) k [x] = .error .attribute := by
  unfold patchAll at h
  rw [List.foldlM_cons] at h
  obtain ⟨s1, h1, h⟩ := ok_bind h
  cases h
  unfold patchInputs at h1
  split at h1
  · cases h1
  · cases h1
    obtain ⟨l, hl⟩ := hc.self (e.cls i)
    unfold callModel findAttr
    rw [hcls, hl, List.findSome?_cons]
    simp only [if_true]
    unfold runFwd
    rw [if_pos (by simp [hne, hk])]

/-- **C139** is violated for models with several inputs (or none): they cannot be called after preparation. -/
theorem C139_violated_inputs {V : Type} (e : PyEnv V) (hc : GoodClasses e) (s0 s : PyState) (i : ℕ) (h : patchAll e s0 [i] = .ok s)
    (xs : List V) (hx : xs.length ≠ 1) (n : ℕ) : callModel e s (n + 1) i xs = .error .type := by
  unfold patchAll at h
  rw [List.foldlM_cons] at h
  obtain ⟨s1, h1, h⟩ := ok_bind h
  cases h
  unfold patchInputs at h1
  split at h1
  · cases h1
  · cases h1
    obtain ⟨l, hl⟩ := hc.self (e.cls i)
    unfold callModel findAttr
    rw [hl, List.findSome?_cons]
    simp only [if_true]
    match xs, hx with
    | [], _ => rfl
    | [_], hx => exact absurd rfl hx
    | _ :: _ :: _, _ => rfl

/-! ## Cases -/

/-- Classes 0 and 1 unrelated, 2 derived from 0 (without own `forward`), 9 the common base class without `forward`;
model objects 0-4 of the classes 0, 1, 2, 0, 1. -/
def exPy : PyEnv ℤ where
  cls := fun i => if i = 0 then 0 else if i = 1 then 1 else if i = 2 then 2 else if i = 3 then 0 else 1
  mro := fun c => if c = 2 then [2, 0, 9] else if c = 9 then [9] else [c, 9]
  sem := fun c i xs => 100 * c + 10 * i + xs.sum
  q := fun i x => x / 4 * 4 + i

theorem exPy_good : GoodClasses exPy := ⟨fun c => by
  show ∃ l, (if c = 2 then [2, 0, 9] else if c = 9 then [9] else [c, 9]) = c :: l
  split
  · exact ⟨_, by rename_i h; rw [h]⟩
  · split
    · exact ⟨_, by rename_i h; rw [h]⟩
    · exact ⟨_, rfl⟩⟩

example : Unrelated exPy [2, 1] ∧ ¬ Unrelated exPy [0, 2] ∧ ¬ Unrelated exPy [0, 3] ∧ (∀ i ∈ [2, 1], exPy.cls i ∉ exPy.mro (exPy.cls 0)) := by
  unfold Unrelated; decide

/-- Result of a call after preparing some models. -/
def exCall (is : List ℕ) (i : ℕ) (x : ℤ) : Except Err ℤ :=
  (patchAll exPy (PyState.fresh fun c => c = 0 || c = 1) is).bind fun s => callModel exPy s 5 i [x]

/-- Models 2 and 1 are quantized, model 0 is as before (it is of the base class of 2's class), model 4 is not usable. -/
example : exCall [2, 1] 2 7 = .ok 26 ∧ exCall [2, 1] 1 7 = .ok 115 ∧ exCall [2, 1] 0 7 = .ok 7 ∧ exCall [] 2 7 = .ok 27 ∧
    exCall [2, 1] 4 7 = .error .attribute ∧ exCall [0, 3] 0 7 = .error .runtime ∧ exCall [0, 2] 2 7 = .error .runtime := by decide +kernel

end Verif
