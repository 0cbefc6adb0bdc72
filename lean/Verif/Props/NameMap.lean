import Verif.Props.NonParallel
/-!
# C143: names of modules with and without `DataParallel`
-/
namespace Verif

/-! ## Specification -/

mutual

/-- The names `named_modules()` yields, in its order (the names of the `DataParallel` wrappers included; no module is registered
twice). -/
def moduleNames : PTree → List Name
  | .node _ _ cs => [] :: moduleNamesL cs
def moduleNamesL : List (String × PTree) → List Name
  | [] => []
  | (n, t) :: cs => (moduleNames t).map (n :: ·) ++ moduleNamesL cs

end

mutual

/-- The children of a module have different names. -/
def NamesDistinct : PTree → Prop
  | .node _ _ cs => (cs.map (·.1)).Nodup ∧ NamesDistinctL cs
def NamesDistinctL : List (String × PTree) → Prop
  | [] => True
  | (_, t) :: cs => NamesDistinct t ∧ NamesDistinctL cs

end

/-! ## Proofs -/

/-- The last name that normalizes to `n`. -/
def lastMatch (l : List Name) (n : Name) : Option Name := (l.filter fun x => normalizeName x = n).getLast?

theorem lastMatch_append (a b : List Name) (n : Name) : lastMatch (a ++ b) n = (lastMatch b n).or (lastMatch a n) := by
  unfold lastMatch
  rw [List.filter_append, List.getLast?_append]

theorem lastMatch_none {l : List Name} {n : Name} (h : ∀ x ∈ l, normalizeName x ≠ n) : lastMatch l n = none := by
  unfold lastMatch
  rw [List.getLast?_eq_none_iff, List.filter_eq_nil_iff]
  intro x hx
  simpa using h x hx

theorem lastMatch_only {l : List Name} {n m : Name} (hm : m ∈ l) (hn : normalizeName m = n)
    (h : ∀ x ∈ l, normalizeName x = n → x = m) : lastMatch l n = some m := by
  unfold lastMatch
  cases hl : (l.filter fun x => normalizeName x = n).getLast? with
  | none =>
    rw [List.getLast?_eq_none_iff, List.filter_eq_nil_iff] at hl
    exact absurd hn (by simpa using hl m hm)
  | some y =>
    have := List.mem_of_getLast? hl
    rw [List.mem_filter] at this
    rw [h y this.1 (by simpa using this.2)]

theorem lastMatch_map (l : List Name) (c : String) (hc : c ≠ "module") (n : Name) :
    lastMatch (l.map (c :: ·)) (c :: n) = (lastMatch l n).map (c :: ·) := by
  unfold lastMatch
  rw [List.filter_map, List.getLast?_map]
  congr 3
  funext x
  simp [normalizeName, hc]

theorem lastMatch_map_ne (l : List Name) (c d : String) (hc : c ≠ "module") (hd : c ≠ d) (n : Name) :
    lastMatch (l.map (c :: ·)) (d :: n) = none := by
  apply lastMatch_none
  intro x hx
  obtain ⟨y, -, rfl⟩ := List.mem_map.1 hx
  simp [normalizeName, hc, hd]

mutual

theorem no_module : (t : PTree) → OneDP false t → ∀ x ∈ moduleNames t, "module" ∉ x
  | .node i d cs, h => by
    simp only [OneDP] at h
    obtain ⟨h1, h2, -, h4⟩ := h
    have hd : d = false := by
      cases d
      · rfl
      · exact absurd (h1 rfl).1 (by simp)
    subst hd
    intro x hx
    rw [moduleNames, List.mem_cons] at hx
    rcases hx with rfl | hx
    · simp
    · exact no_moduleL cs (by simpa using h4) (h2 rfl) x hx
theorem no_moduleL : (cs : List (String × PTree)) → OneDPL false cs → (∀ c ∈ cs, c.1 ≠ "module") → ∀ x ∈ moduleNamesL cs, "module" ∉ x
  | [], _, _ => by simp [moduleNamesL]
  | (n, t) :: cs, h, hm => by
    rw [OneDPL] at h
    intro x hx
    rw [moduleNamesL, List.mem_append] at hx
    rcases hx with hx | hx
    · obtain ⟨y, hy, rfl⟩ := List.mem_map.1 hx
      have := no_module t h.1 y hy
      have hn := hm (n, t) (by simp)
      simp only [List.mem_cons, not_or]
      exact ⟨fun e => hn e.symm, this⟩
    · exact no_moduleL cs h.2 (fun c hc => hm c (by simp [hc])) x hx

end

mutual

theorem names_mem : (t : PTree) → ∀ p ∈ namesOf t, p.1 ∈ moduleNames t
  | .node i d cs => by
    intro p hp
    rw [namesOf, List.mem_append] at hp
    rw [moduleNames, List.mem_cons]
    rcases hp with hp | hp
    · left
      split at hp
      · simp at hp
      · simp at hp; rw [hp]
    · exact Or.inr (namesL_mem cs p hp)
theorem namesL_mem : (cs : List (String × PTree)) → ∀ p ∈ namesOfL cs, p.1 ∈ moduleNamesL cs
  | [] => by simp [namesOfL]
  | (n, t) :: cs => by
    intro p hp
    rw [namesOfL, List.mem_append] at hp
    rw [moduleNamesL, List.mem_append]
    rcases hp with hp | hp
    · left
      obtain ⟨q, hq, rfl⟩ := List.mem_map.1 hp
      exact List.mem_map.2 ⟨q.1, names_mem t q hq, rfl⟩
    · exact Or.inr (namesL_mem cs p hp)

end

theorem namesL_head (cs : List (String × PTree)) : ∀ x ∈ moduleNamesL cs, ∃ c ∈ cs, ∃ y, x = c.1 :: y := by
  induction cs with
  | nil => simp [moduleNamesL]
  | cons c cs ih =>
    obtain ⟨n, t⟩ := c
    intro x hx
    rw [moduleNamesL, List.mem_append] at hx
    rcases hx with hx | hx
    · obtain ⟨y, -, rfl⟩ := List.mem_map.1 hx
      exact ⟨_, List.mem_cons_self, y, rfl⟩
    · obtain ⟨c, hc, y, rfl⟩ := ih x hx
      exact ⟨c, by simp [hc], y, rfl⟩

mutual

theorem roundtrip : (t : PTree) → OneDP true t → NamesDistinct t → ∀ p ∈ namesOf t, lastMatch (moduleNames t) (normalizeName p.1) = some p.1
  | .node i true cs, h, hd => by
    simp only [OneDP] at h
    obtain ⟨h1, -, -, h3⟩ := h
    obtain ⟨-, m, rfl⟩ := h1 trivial
    simp only [OneDPL, Bool.not_true, Bool.and_false] at h3
    have hno := no_module m h3.1
    intro p hp
    simp only [namesOf, namesOfL, if_true, List.nil_append, List.append_nil] at hp
    obtain ⟨q, hq, rfl⟩ := List.mem_map.1 hp
    have hq' := names_mem m q hq
    have e : normalizeName ("module" :: q.1) = q.1 := by simp [normalizeName]
    rw [moduleNames, moduleNamesL, moduleNamesL, List.append_nil]
    change lastMatch ([[]] ++ _) _ = _
    rw [lastMatch_append, e, lastMatch_only (m := "module" :: q.1) (List.mem_map.2 ⟨_, hq', rfl⟩) e]
    · rfl
    · intro x hx hx'
      obtain ⟨y, -, rfl⟩ := List.mem_map.1 hx
      simp only [normalizeName, if_true] at hx'
      rw [hx']
  | .node i false cs, h, hd => by
    simp only [OneDP] at h
    obtain ⟨-, h2, -, h3⟩ := h
    have hm := h2 trivial
    rw [NamesDistinct] at hd
    intro p hp
    simp only [namesOf, Bool.false_eq_true, if_false, List.cons_append, List.nil_append, List.mem_cons] at hp
    rw [moduleNames]
    change lastMatch ([[]] ++ _) _ = _
    rw [lastMatch_append]
    rcases hp with rfl | hp
    · rw [lastMatch_none]
      · rfl
      · intro x hx
        obtain ⟨c, hc, y, rfl⟩ := namesL_head cs x hx
        simp [normalizeName, hm c hc]
    · rw [roundtripL cs (by simpa using h3) hd.2 hd.1 hm p hp]
      rfl
theorem roundtripL : (cs : List (String × PTree)) → OneDPL true cs → NamesDistinctL cs → (cs.map (·.1)).Nodup →
    (∀ c ∈ cs, c.1 ≠ "module") → ∀ p ∈ namesOfL cs, lastMatch (moduleNamesL cs) (normalizeName p.1) = some p.1
  | [], _, _, _, _ => by simp [namesOfL]
  | (n, t) :: cs, h, hd, hn, hm => by
    rw [OneDPL] at h
    rw [NamesDistinctL] at hd
    rw [List.map_cons, List.nodup_cons] at hn
    have hnm : n ≠ "module" := hm (n, t) (by simp)
    intro p hp
    rw [namesOfL, List.mem_append] at hp
    rw [moduleNamesL, lastMatch_append]
    rcases hp with hp | hp
    · obtain ⟨q, hq, rfl⟩ := List.mem_map.1 hp
      have e : normalizeName (n :: q.1) = n :: normalizeName q.1 := by simp [normalizeName, hnm]
      rw [e, lastMatch_map _ _ hnm, roundtrip t h.1 hd.1 q hq, lastMatch_none]
      · rfl
      · intro x hx
        obtain ⟨c, hc, y, rfl⟩ := namesL_head cs x hx
        have hcm : c.1 ≠ "module" := hm c (by simp [hc])
        have : c.1 ≠ n := fun e => hn.1 (List.mem_map.2 ⟨c, hc, e⟩)
        simp [normalizeName, hcm, this]
    · rw [roundtripL cs h.2 hd.2 hn.2 (fun c hc => hm c (by simp [hc])) p hp]
      rfl

end

/-- **C143** (partial) In every model whose `DataParallel` wrappers are not nested and in which nothing else is called `module`, going
from the name of a module (other than a wrapper) to its normalized name and back gives the name.  Missing: models with a submodule
called `module` (`C143_violated_module`). -/
theorem C143_roundtrip_partial (t : PTree) (h : OneDP true t) (hd : NamesDistinct t) (n : Name) (i : ℕ) (hn : (n, i) ∈ namesOf t) :
    denormalizeName (moduleNames t) (normalizeName n) = n := by
  have := roundtrip t h hd (n, i) hn
  unfold denormalizeName
  unfold lastMatch at this
  rw [this]
  rfl

/-- **C143** (partial) In such a model, different modules have different normalized names. -/
theorem C143_injective_partial (t : PTree) (h : OneDP true t) (hd : NamesDistinct t) (n m : Name) (i j : ℕ) (hn : (n, i) ∈ namesOf t)
    (hm : (m, j) ∈ namesOf t) (e : normalizeName n = normalizeName m) : n = m := by
  rw [← C143_roundtrip_partial t h hd n i hn, e, C143_roundtrip_partial t h hd m j hm]

/-- **C143** A name that is not the normalized name of any module is left as it is. -/
theorem C143_unknown (names : List Name) (n : Name) (h : ∀ x ∈ names, normalizeName x ≠ n) : denormalizeName names n = n := by
  have := lastMatch_none h
  unfold denormalizeName
  unfold lastMatch at this
  rw [this]
  rfl

/-- **C143** A model without `DataParallel` and without a submodule called `module`: both directions leave the names as they are. -/
theorem C143_plain (t : PTree) (h : OneDP false t) (n : Name) (hn : n ∈ moduleNames t) :
    normalizeName n = n ∧ denormalizeName (moduleNames t) n = n := by
  have hno := no_module t h
  refine ⟨normalizeName_self (hno n hn), ?_⟩
  have := lastMatch_only (l := moduleNames t) (n := n) (m := n) hn (normalizeName_self (hno n hn)) (by
    intro x hx e
    rwa [normalizeName_self (hno x hx)] at e)
  unfold denormalizeName
  unfold lastMatch at this
  rw [this]
  rfl

example : OneDP true exParallel ∧ NamesDistinct exParallel ∧ (["features", "module", "conv"], 3) ∈ namesOf exParallel ∧
    normalizeName ["features", "module", "conv"] = ["features", "conv"] ∧
    denormalizeName (moduleNames exParallel) ["features", "conv"] = ["features", "module", "conv"] ∧
    denormalizeName (moduleNames exParallel) ["features"] = ["features", "module"] := by
  refine ⟨?_, ?_, ?_, by decide, by decide, by decide⟩
  · simp [exParallel, OneDP, OneDPL, dpIds, PTree.dp]
  · simp [exParallel, NamesDistinct, NamesDistinctL]
  · simp [exParallel, namesOf, namesOfL]

/-- A model without `DataParallel`, with a submodule called `module`. -/
def exModule : PTree := .node 0 false [("fc", .node 1 false []), ("module", .node 2 false [("fc", .node 3 false [])])]

/-- **C143** is violated by a model with a submodule called `module`: the layers `fc` and `module.fc` have the same normalized name, and
going back from it leads to the other layer. -/
theorem C143_violated_module : NamesDistinct exModule ∧ (["fc"], 1) ∈ namesOf exModule ∧ (["module", "fc"], 3) ∈ namesOf exModule ∧
    normalizeName ["fc"] = normalizeName ["module", "fc"] ∧
    denormalizeName (moduleNames exModule) (normalizeName ["fc"]) = ["module", "fc"] := by
  refine ⟨?_, ?_, ?_, by decide, by decide⟩
  · simp [exModule, NamesDistinct, NamesDistinctL]
  · simp [exModule, namesOf, namesOfL]
  · simp [exModule, namesOf, namesOfL]

end Verif
