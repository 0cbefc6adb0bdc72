import Verif.Model.Perf
/-!
# The non-parallel copy of a model: C110
-/
namespace Verif

/-! ## Specification

What a module computes is determined by the module itself and by what its children compute; a `DataParallel` computes
what the module inside computes. -/

mutual

/-- The function of a model; `f i` is how module `i` combines its children. -/
def funOf {F : Type} (f : ℕ → List (String × F) → F) : PTree → F
  | .node i d cs => funOfDP f i d (funOfL f cs)
def funOfL {F : Type} (f : ℕ → List (String × F) → F) : List (String × PTree) → List (String × F)
  | [] => []
  | (n, t) :: cs => (n, funOf f t) :: funOfL f cs
/-- A `DataParallel` has one child. -/
def funOfDP {F : Type} (f : ℕ → List (String × F) → F) (i : ℕ) (d : Bool) (l : List (String × F)) : F :=
  match d, l with
  | true, (_, m) :: _ => m
  | _, l => f i l

end

mutual

/-- A model without `DataParallel`. -/
def NoDP : PTree → Prop
  | .node _ d cs => d = false ∧ NoDPL cs
def NoDPL : List (String × PTree) → Prop
  | [] => True
  | (_, t) :: cs => NoDP t ∧ NoDPL cs

end

/-- The `DataParallel` children of a module. -/
def dpIds (cs : List (String × PTree)) : List ℕ := (cs.filter fun c => c.2.dp).map fun c => c.2.id

mutual

/-- No `DataParallel` directly inside another, none twice under one parent. -/
def SimpleDP : PTree → Prop
  | .node _ d cs => (d = true → ∃ m, cs = [("module", m)] ∧ m.dp = false) ∧ (dpIds cs).Nodup ∧ SimpleDPL cs
def SimpleDPL : List (String × PTree) → Prop
  | [] => True
  | (_, t) :: cs => SimpleDP t ∧ SimpleDPL cs

end

mutual

/-- The modules of a model other than `DataParallel`, with their qualified names. -/
def namesOf : PTree → List (Name × ℕ)
  | .node i d cs => (if d then [] else [([], i)]) ++ namesOfL cs
def namesOfL : List (String × PTree) → List (Name × ℕ)
  | [] => []
  | (n, t) :: cs => (namesOf t).map (fun p => (n :: p.1, p.2)) ++ namesOfL cs

end

mutual

/-- At most one `DataParallel` on every path (if `b`; otherwise none), and nothing but the child of a
`DataParallel` is called `module`. -/
def OneDP : Bool → PTree → Prop
  | b, .node _ d cs => (d = true → b = true ∧ ∃ m, cs = [("module", m)]) ∧ (d = false → ∀ c ∈ cs, c.1 ≠ "module") ∧
      (dpIds cs).Nodup ∧ OneDPL (b && !d) cs
def OneDPL : Bool → List (String × PTree) → Prop
  | _, [] => True
  | b, (_, t) :: cs => OneDP b t ∧ OneDPL b cs

end

/-! ## The same function -/

theorem funOf_unwrap {F : Type} (f : ℕ → List (String × F) → F) (t : PTree) : funOf f t.unwrap = funOf f t := by
  match t with
  | .node i true ((n, m) :: cs) => simp [PTree.unwrap, funOf, funOfL, funOfDP]
  | .node i true [] => rfl
  | .node i false cs => rfl

mutual

theorem funOf_repl {F : Type} (f : ℕ → List (String × F) → F) : (t : PTree) → funOf f (replDP t) = funOf f t
  | .node i d cs => by simp only [replDP, funOf]; rw [funOfL_repl f cs []]
theorem funOfL_repl {F : Type} (f : ℕ → List (String × F) → F) : (cs : List (String × PTree)) → (seen : List ℕ) →
    funOfL f (replDPL seen cs) = funOfL f cs
  | [], _ => rfl
  | (n, t) :: cs, seen => by
    simp only [replDPL, funOfL]
    rw [funOfL_repl f cs]
    congr 2
    split
    · rw [funOf_unwrap, funOf_repl f t]
    · exact funOf_repl f t

end

/-- **C110** The non-parallel copy computes the same function as the model, whatever the modules compute and
wherever `DataParallel` occurs. -/
theorem C110_function {F : Type} (f : ℕ → List (String × F) → F) (t : PTree) :
    funOf f (nonParallel t) = funOf f t := by
  unfold nonParallel
  rw [funOf_repl]
  split
  · exact funOf_unwrap f t
  · rfl

/-! ## Removal -/

theorem dpIds_true {n : String} {i : ℕ} {ds cs : List (String × PTree)} :
    dpIds ((n, .node i true ds) :: cs) = i :: dpIds cs := rfl
theorem dpIds_false {n : String} {i : ℕ} {ds cs : List (String × PTree)} :
    dpIds ((n, .node i false ds) :: cs) = dpIds cs := rfl

theorem replDPL_true {n : String} {i : ℕ} {m : PTree} {cs : List (String × PTree)} {seen : List ℕ} (hi : i ∉ seen)
    (hm : m.dp = false) :
    replDPL seen ((n, .node i true [("module", m)]) :: cs) = (n, replDP m) :: replDPL (i :: seen) cs := by
  simp [replDPL, PTree.dp, PTree.id, hi, replDP, PTree.unwrap]
  intro e; simp [PTree.dp] at hm; cases m; simp_all

theorem replDPL_false {n : String} {i : ℕ} {ds cs : List (String × PTree)} {seen : List ℕ} :
    replDPL seen ((n, .node i false ds) :: cs) = (n, replDP (.node i false ds)) :: replDPL seen cs := by
  simp [replDPL, PTree.dp]

mutual

theorem noDP_repl : (t : PTree) → SimpleDP t → t.dp = false → NoDP (replDP t)
  | .node i d cs, h, hd => by
    simp only [SimpleDP] at h
    simp only [replDP, NoDP]
    exact ⟨hd, noDPL_repl cs [] h.2.2 h.2.1 (by simp)⟩
theorem noDPL_repl : (cs : List (String × PTree)) → (seen : List ℕ) → SimpleDPL cs → (dpIds cs).Nodup →
    (∀ i ∈ dpIds cs, i ∉ seen) → NoDPL (replDPL seen cs)
  | [], _, _, _, _ => by simp [replDPL, NoDPL]
  | (n, .node i true ds) :: cs, seen, h, hn, hs => by
    rw [dpIds_true] at hn hs
    have hi : i ∉ seen := hs i (by simp)
    simp only [SimpleDPL, SimpleDP] at h
    obtain ⟨⟨h1, _, h3⟩, h4⟩ := h
    obtain ⟨m, rfl, hm⟩ := h1 trivial
    simp only [SimpleDPL] at h3
    rw [replDPL_true hi hm, NoDPL]
    refine ⟨noDP_repl m h3.1 hm, noDPL_repl cs _ h4 (List.nodup_cons.1 hn).2 ?_⟩
    intro j hj hmem
    rcases List.mem_cons.1 hmem with rfl | hmem
    · exact (List.nodup_cons.1 hn).1 hj
    · exact hs j (List.mem_cons_of_mem _ hj) hmem
  | (n, .node i false ds) :: cs, seen, h, hn, hs => by
    rw [dpIds_false] at hn hs
    rw [SimpleDPL] at h
    rw [replDPL_false, NoDPL]
    exact ⟨noDP_repl _ h.1 rfl, noDPL_repl cs _ h.2 hn hs⟩

end

/-- **C110** No `DataParallel` remains, unless one directly contains another or occurs twice under one parent. -/
theorem C110_removed (t : PTree) (h : SimpleDP t) : NoDP (nonParallel t) := by
  unfold nonParallel
  match t, h with
  | .node i false cs, h => exact noDP_repl _ h rfl
  | .node i true cs, h =>
    simp only [SimpleDP] at h
    obtain ⟨h1, _, h3⟩ := h
    obtain ⟨m, rfl, hm⟩ := h1 trivial
    simp only [SimpleDPL] at h3
    exact noDP_repl m h3.1 hm

/-! ## Names -/

mutual

theorem oneDP_false : (t : PTree) → OneDP false t → NoDP t ∧ ∀ p ∈ namesOf t, "module" ∉ p.1
  | .node i d cs, h => by
    simp only [OneDP] at h
    obtain ⟨h1, h2, _, h4⟩ := h
    have hd : d = false := by
      cases d
      · rfl
      · exact absurd (h1 rfl).1 (by simp)
    subst hd
    obtain ⟨a, b⟩ := oneDPL_false cs (by simpa using h4) (h2 rfl)
    refine ⟨⟨rfl, a⟩, ?_⟩
    intro p hp
    simp only [namesOf, Bool.false_eq_true, if_false, List.singleton_append, List.mem_cons] at hp
    rcases hp with rfl | hp
    · simp
    · exact b p hp
theorem oneDPL_false : (cs : List (String × PTree)) → OneDPL false cs → (∀ c ∈ cs, c.1 ≠ "module") →
    NoDPL cs ∧ ∀ p ∈ namesOfL cs, "module" ∉ p.1
  | [], _, _ => by simp [NoDPL, namesOfL]
  | (n, t) :: cs, h, hn => by
    rw [OneDPL] at h
    obtain ⟨a, b⟩ := oneDP_false t h.1
    obtain ⟨c, d⟩ := oneDPL_false cs h.2 fun c hc => hn c (List.mem_cons_of_mem _ hc)
    refine ⟨⟨a, c⟩, ?_⟩
    intro p hp
    simp only [namesOfL, List.mem_append, List.mem_map] at hp
    rcases hp with ⟨q, hq, rfl⟩ | hp
    · simp only [List.mem_cons, not_or]
      exact ⟨fun e => hn (n, t) (by simp) e.symm, b q hq⟩
    · exact d p hp

end

mutual

theorem repl_noDP : (t : PTree) → NoDP t → replDP t = t
  | .node i d cs, h => by rw [NoDP] at h; rw [replDP, replL_noDP cs [] h.2]
theorem replL_noDP : (cs : List (String × PTree)) → (seen : List ℕ) → NoDPL cs → replDPL seen cs = cs
  | [], _, _ => rfl
  | (n, .node i d ds) :: cs, seen, h => by
    rw [NoDPL] at h
    have hd : d = false := h.1.1
    subst hd
    rw [replDPL_false, repl_noDP _ h.1, replL_noDP cs _ h.2]

end

theorem normalizeName_self {p : Name} (h : "module" ∉ p) : normalizeName p = p := by
  induction p with
  | nil => rfl
  | cons c cs ih =>
    simp only [List.mem_cons, not_or] at h
    rw [normalizeName, if_neg (fun e => h.1 e.symm), ih h.2]

/-- Normalizing the names of a list of modules. -/
def normAll (l : List (Name × ℕ)) : List (Name × ℕ) := l.map fun p => (normalizeName p.1, p.2)

theorem normAll_self {l : List (Name × ℕ)} (h : ∀ p ∈ l, "module" ∉ p.1) : normAll l = l := by
  unfold normAll
  conv_rhs => rw [← List.map_id l]
  refine List.map_congr_left fun p hp => ?_
  rw [normalizeName_self (h p hp)]; rfl

mutual

theorem names_repl : (t : PTree) → OneDP true t → t.dp = false → namesOf (replDP t) = normAll (namesOf t)
  | .node i d cs, h, hd => by
    have hd' : d = false := hd
    subst hd'
    simp only [OneDP] at h
    obtain ⟨_, h2, h3, h4⟩ := h
    have := namesL_repl cs [] (by simpa using h4) (h2 trivial) h3 (by simp)
    simp only [replDP, namesOf, Bool.false_eq_true, if_false, this, normAll, List.map_append, List.map_cons, List.map_nil]
    rfl
theorem namesL_repl : (cs : List (String × PTree)) → (seen : List ℕ) → OneDPL true cs → (∀ c ∈ cs, c.1 ≠ "module") →
    (dpIds cs).Nodup → (∀ i ∈ dpIds cs, i ∉ seen) → namesOfL (replDPL seen cs) = normAll (namesOfL cs)
  | [], _, _, _, _, _ => rfl
  | (n, .node i true ds) :: cs, seen, h, hm, hn, hs => by
    rw [dpIds_true] at hn hs
    have hi : i ∉ seen := hs i (by simp)
    have hnm : n ≠ "module" := hm _ (List.mem_cons_self)
    simp only [OneDPL, OneDP] at h
    obtain ⟨⟨h1, _, _, h3⟩, h4⟩ := h
    obtain ⟨_, m, rfl⟩ := h1 trivial
    simp only [OneDPL, Bool.not_true, Bool.and_false] at h3
    obtain ⟨a, b⟩ := oneDP_false m h3.1
    have hmd : m.dp = false := by cases m; exact a.1
    rw [replDPL_true hi hmd, repl_noDP m a]
    have ih := namesL_repl cs (i :: seen) h4 (fun c hc => hm c (List.mem_cons_of_mem _ hc)) (List.nodup_cons.1 hn).2 (by
      intro j hj hmem
      rcases List.mem_cons.1 hmem with rfl | hmem
      · exact (List.nodup_cons.1 hn).1 hj
      · exact hs j (List.mem_cons_of_mem _ hj) hmem)
    simp only [namesOfL, ih, namesOf, if_true, List.nil_append, List.append_nil, List.map_map, normAll, List.map_append]
    congr 1
    refine List.map_congr_left fun p _ => ?_
    simp [normalizeName, hnm]
  | (n, .node i false ds) :: cs, seen, h, hm, hn, hs => by
    rw [dpIds_false] at hn hs
    rw [OneDPL] at h
    have hnm : n ≠ "module" := hm _ (List.mem_cons_self)
    rw [replDPL_false]
    have ih := namesL_repl cs seen h.2 (fun c hc => hm c (List.mem_cons_of_mem _ hc)) hn hs
    rw [namesOfL, ih, names_repl _ h.1 rfl, namesOfL]
    simp only [normAll, List.map_append, List.map_map]
    congr 1
    refine List.map_congr_left fun p _ => ?_
    simp [normalizeName, hnm]

end

/-- **C110** The modules of the copy are the modules of the model other than `DataParallel`, in the same order, each
under its normalized name (the name `normalize_module_name` gives). -/
theorem C110_names (t : PTree) (h : OneDP true t) :
    namesOf (nonParallel t) = (namesOf t).map fun p => (normalizeName p.1, p.2) := by
  unfold nonParallel
  match t, h with
  | .node i false cs, h => exact names_repl _ h rfl
  | .node i true cs, h =>
    simp only [OneDP] at h
    obtain ⟨h1, _, _, h3⟩ := h
    obtain ⟨_, m, rfl⟩ := h1 trivial
    simp only [OneDPL, Bool.not_true, Bool.and_false] at h3
    obtain ⟨a, b⟩ := oneDP_false m h3.1
    change namesOf (replDP m) = _
    rw [repl_noDP m a]
    simp only [namesOf, if_true, List.nil_append, namesOfL, List.append_nil, List.map_map]
    conv_lhs => rw [← List.map_id (namesOf m)]
    refine List.map_congr_left fun p _ => ?_
    simp [normalizeName]

/-- A classifier on top of parallelized features. -/
def exParallel : PTree :=
  .node 0 false [("features", .node 1 true [("module", .node 2 false [("conv", .node 3 false [])])]), ("fc", .node 4 false [])]

example : SimpleDP exParallel ∧ OneDP true exParallel ∧
    namesOf exParallel = [([], 0), (["features", "module"], 2), (["features", "module", "conv"], 3), (["fc"], 4)] ∧
    namesOf (nonParallel exParallel) = [([], 0), (["features"], 2), (["features", "conv"], 3), (["fc"], 4)] := by
  refine ⟨?_, ?_, rfl, rfl⟩
  · simp [exParallel, SimpleDP, SimpleDPL, dpIds, PTree.dp]
  · simp [exParallel, OneDP, OneDPL, dpIds, PTree.dp]

/-- **C110** is violated by a `DataParallel` inside a `DataParallel`: one of them remains. -/
theorem C110_violated_nested : ∃ t : PTree, ¬ NoDP (nonParallel t) :=
  ⟨.node 0 true [("module", .node 1 true [("module", .node 2 false [])])], by
    simp [nonParallel, replDP, replDPL, PTree.unwrap, PTree.dp, NoDP, NoDPL]⟩

/-- **C110** is violated by a `DataParallel` registered under two names of one module: only the first is replaced. -/
theorem C110_violated_shared : ∃ t : PTree, namesOf (nonParallel t) =
    [([], 0), (["encoder"], 2), (["decoder", "module"], 2)] ∧ ¬ NoDP (nonParallel t) :=
  ⟨.node 0 false [("encoder", .node 1 true [("module", .node 2 false [])]), ("decoder", .node 1 true [("module", .node 2 false [])])],
   rfl, by simp [nonParallel, replDP, replDPL, PTree.unwrap, PTree.dp, PTree.id, NoDP, NoDPL]⟩

end Verif
