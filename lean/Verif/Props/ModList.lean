import Verif.Model.ModList
import Verif.Lemmas.Fold
import Mathlib.Data.List.Nodup
/-!
# C134: names in the traced graph are those of the modules of the original model
-/
namespace Verif
open Dict

/-! ## Specification -/

mutual
/-- The names under which a child called `n` appears in its container after the conversion. -/
def ModTree.flat (n : String) : ModTree → List String
  | .list items => items.flatItems n 0
  | .mod _ _ _ => [n]
/-- The names of the members of a list, from position `i` on. -/
def ModForest.flatItems (n : String) (i : Nat) : ModForest → List String
  | .nil => []
  | .cons _ t r => t.flat (n ++ "_" ++ toString i) ++ r.flatItems n (i + 1)
end

/-- The names in a container after the conversion. -/
def ModForest.flatNames : ModForest → List String
  | .nil => []
  | .cons n t r => t.flat n ++ r.flatNames

/-- The names of the lists in a container. -/
def ModForest.listNames : ModForest → List String
  | .nil => []
  | .cons n (.list _) r => n :: r.listNames
  | .cons _ (.mod _ _ _) r => r.listNames

mutual
/-- In every container, the names `list_index` given to the members of lists are not taken by other
sub-modules, attributes or members of lists. -/
def ModTree.Clean : ModTree → Prop
  | .list items => items.Clean
  | .mod _ attrs ch => ch.flatNames.Nodup ∧ (∀ x ∈ ch.flatNames, x ∉ attrs ∧ x ∉ ch.listNames) ∧ ch.Clean
def ModForest.Clean : ModForest → Prop
  | .nil => True
  | .cons _ t r => t.Clean ∧ r.Clean
end

mutual
/-- There is no `nn.ModuleList` in the model, and sub-modules have different names. -/
def ModTree.NoLists : ModTree → Prop
  | .list _ => False
  | .mod _ _ ch => ch.names.Nodup ∧ ch.NoLists
def ModForest.NoLists : ModForest → Prop
  | .nil => True
  | .cons _ t r => t.NoLists ∧ r.NoLists
/-- The names of sub-modules. -/
def ModForest.names : ModForest → List String
  | .nil => []
  | .cons n _ r => n :: r.names
end

/-! ## Lemmas -/

theorem flatItems_cons (n : String) (i : Nat) (m : String) (t : ModTree) (r : ModForest) :
    (ModForest.cons m t r).flatItems n i = t.flat (itemName n i) ++ r.flatItems n (i + 1) := rfl

mutual
/-- The objects, in order. -/
def ModTree.ids : ModTree → List Nat
  | .list items => items.ids
  | .mod id _ ch => id :: ch.ids
def ModForest.ids : ModForest → List Nat
  | .nil => []
  | .cons _ t r => t.ids ++ r.ids
end

mutual
theorem ModTree.named_snd (t : ModTree) (pre : List String) : (t.named pre).map Prod.snd = t.ids := by
  cases t with
  | list items => exact items.named_snd pre
  | mod id attrs ch => simp only [ModTree.named, ModTree.ids, List.map_cons, ch.named_snd pre]
theorem ModForest.named_snd (f : ModForest) (pre : List String) : (f.named pre).map Prod.snd = f.ids := by
  cases f with
  | nil => rfl
  | cons n t r => simp only [ModForest.named, ModForest.ids, List.map_append, t.named_snd, r.named_snd pre]
end

mutual
theorem ModTree.named_prefix (t : ModTree) (pre : List String) : ∀ x ∈ t.named pre, pre <+: x.1 := by
  cases t with
  | list items => exact fun x hx => items.named_prefix pre x hx
  | mod id attrs ch =>
    intro x hx
    simp only [ModTree.named, List.mem_cons] at hx
    rcases hx with rfl | hx
    · exact List.prefix_refl _
    · exact ch.named_prefix pre x hx
theorem ModForest.named_prefix (f : ModForest) (pre : List String) : ∀ x ∈ f.named pre, pre <+: x.1 := by
  cases f with
  | nil => intro x hx; simp [ModForest.named] at hx
  | cons n t r =>
    intro x hx
    simp only [ModForest.named, List.mem_append] at hx
    rcases hx with hx | hx
    · exact (List.prefix_append pre [n]).trans (t.named_prefix (pre ++ [n]) x hx)
    · exact r.named_prefix pre x hx
end

theorem ModForest.named_step (f : ModForest) (pre : List String) : ∀ x ∈ f.named pre, ∃ n ∈ f.names, pre ++ [n] <+: x.1 := by
  match f with
  | .nil => intro x hx; simp [ModForest.named] at hx
  | .cons n t r =>
    intro x hx
    simp only [ModForest.named, List.mem_append] at hx
    rcases hx with hx | hx
    · exact ⟨n, by simp [ModForest.names], t.named_prefix _ x hx⟩
    · obtain ⟨m, hm, h⟩ := r.named_step pre x hx
      exact ⟨m, by simp [ModForest.names, hm], h⟩

theorem prefix_last {pre p : List String} {a b : String} (h1 : pre ++ [a] <+: p) (h2 : pre ++ [b] <+: p) : a = b := by
  have := List.prefix_of_prefix_length_le h1 h2 (by simp)
  have := this.eq_of_length (by simp)
  simpa using this

mutual
theorem ModTree.named_nodup (t : ModTree) (pre : List String) (h : t.NoLists) : ((t.named pre).map Prod.fst).Nodup := by
  cases t with
  | list items => exact h.elim
  | mod id attrs ch =>
    obtain ⟨h1, h2⟩ := h
    simp only [ModTree.named, List.map_cons, List.nodup_cons]
    refine ⟨?_, ch.named_nodup pre h1 h2⟩
    intro hc
    obtain ⟨x, hx, e⟩ := List.mem_map.1 hc
    obtain ⟨n, _, hp⟩ := ch.named_step pre x hx
    have := hp.length_le
    rw [e] at this
    simp at this
    omega
theorem ModForest.named_nodup (f : ModForest) (pre : List String) (hn : f.names.Nodup) (h : f.NoLists) : ((f.named pre).map Prod.fst).Nodup := by
  cases f with
  | nil => simp [ModForest.named]
  | cons n t r =>
    obtain ⟨h1, h2⟩ := h
    simp only [ModForest.names, List.nodup_cons] at hn
    simp only [ModForest.named, List.map_append]
    rw [List.nodup_append]
    refine ⟨t.named_nodup _ h1, r.named_nodup pre hn.2 h2, ?_⟩
    intro a ha b hb e
    subst e
    obtain ⟨x, hx, ex⟩ := List.mem_map.1 ha
    obtain ⟨y, hy, ey⟩ := List.mem_map.1 hb
    have p1 := t.named_prefix _ x hx
    obtain ⟨m, hm, p2⟩ := r.named_step pre y hy
    rw [ex] at p1; rw [ey] at p2
    have := prefix_last p1 p2
    subst this
    exact hn.1 hm
end

theorem ofDict_names (d : Dict String ModTree) : (ModForest.ofDict d).names = d.map Prod.fst := by
  induction d with
  | nil => rfl
  | cons x d ih => obtain ⟨n, t⟩ := x; simp [ModForest.ofDict, ModForest.names, ih]

theorem ofDict_noLists (d : Dict String ModTree) : (ModForest.ofDict d).NoLists ↔ ∀ x ∈ d, x.2.NoLists := by
  induction d with
  | nil => simp [ModForest.ofDict, ModForest.NoLists]
  | cons x d ih => obtain ⟨n, t⟩ := x; simp [ModForest.ofDict, ModForest.NoLists, ih]

theorem ofDict_ids (d : Dict String ModTree) : (ModForest.ofDict d).ids = d.flatMap fun x => x.2.ids := by
  induction d with
  | nil => rfl
  | cons x d ih => obtain ⟨n, t⟩ := x; simp [ModForest.ofDict, ModForest.ids, ih]

theorem set_fresh {d : Dict String ModTree} {n : String} {t : ModTree} (h : n ∉ d.map Prod.fst) : d.set n t = d ++ [(n, t)] := by
  induction d with
  | nil => rfl
  | cons x d ih =>
    obtain ⟨m, u⟩ := x
    simp only [List.map_cons, List.mem_cons, not_or] at h
    show (if m = n then _ else _) = _
    rw [if_neg (Ne.symm h.1)]
    show (m, u) :: Dict.set d n t = _
    rw [ih h.2]; rfl

theorem has_iff (d : Dict String ModTree) (n : String) : d.has n = true ↔ n ∈ d.map Prod.fst := by
  unfold Dict.has; exact get?_isSome_iff d n

/-- What adding modules with the names `N` and objects `I` does. -/
def Adds (s s' : MReg) (N : List String) (I : List Nat) : Prop :=
  ∃ X : Dict String ModTree, s'.reg = s.reg ++ X ∧ X.map Prod.fst = N ∧ (X.flatMap fun x => x.2.ids) = I ∧ ∀ x ∈ X, x.2.NoLists

theorem Adds.trans {s s' s'' : MReg} {N N' : List String} {I I' : List Nat} (h : Adds s s' N I) (h' : Adds s' s'' N' I') :
    Adds s s'' (N ++ N') (I ++ I') := by
  obtain ⟨X, a1, a2, a3, a4⟩ := h
  obtain ⟨Y, b1, b2, b3, b4⟩ := h'
  refine ⟨X ++ Y, by rw [b1, a1, List.append_assoc], by simp [a2, b2], by simp [a3, b3], ?_⟩
  intro x hx
  rcases List.mem_append.1 hx with h | h
  · exact a4 x h
  · exact b4 x h

theorem Adds.keys {s s' : MReg} {N : List String} {I : List Nat} (h : Adds s s' N I) : s'.reg.map Prod.fst = s.reg.map Prod.fst ++ N := by
  obtain ⟨X, a1, a2, _⟩ := h
  rw [a1, List.map_append, a2]

theorem noLists_of {c : MReg} {attrs : List String} {N : List String} {I : List Nat} (h : Adds ⟨[], attrs⟩ c N I) (hN : N.Nodup) (id : Nat) :
    (ModTree.mod id c.attrs (.ofDict c.reg)).NoLists ∧ (ModForest.ofDict c.reg).ids = I := by
  obtain ⟨X, a1, a2, a3, a4⟩ := h
  rw [List.nil_append] at a1
  rw [a1]
  refine ⟨⟨?_, (ofDict_noLists X).2 a4⟩, ?_⟩
  · rw [ofDict_names, a2]; exact hN
  · rw [ofDict_ids, a3]

mutual
theorem conv_forest (f : ModForest) (s : MReg) (hc : f.Clean) (hn : f.flatNames.Nodup)
    (hs : ∀ x ∈ f.flatNames, x ∉ s.reg.map Prod.fst ∧ x ∉ s.attrs ∧ x ∉ f.listNames)
    (hl : ∀ x ∈ f.listNames, x ∉ s.reg.map Prod.fst) :
    ∃ s', convForest s f = .ok s' ∧ Adds s s' f.flatNames f.ids := by
  cases f with
  | nil => exact ⟨s, rfl, [], by simp, rfl, rfl, by simp⟩
  | cons n t r =>
    simp only [ModForest.flatNames, ModForest.Clean] at hc hn hs
    rw [List.nodup_append] at hn
    have hln : ∀ x ∈ r.listNames, x ∈ (ModForest.cons n t r).listNames := by
      intro x hx; cases t <;> simp [ModForest.listNames, hx]
    obtain ⟨s1, e1, a1, at1⟩ := conv_child t n s hc.1 hn.1 (fun x hx => ⟨(hs x (by simp [hx])).1, (hs x (by simp [hx])).2.1⟩)
      (by
        intro items ht
        subst ht
        refine ⟨hl n (by simp [ModForest.listNames]), fun h => ?_⟩
        exact (hs n (by simp [h])).2.2 (by simp [ModForest.listNames]))
    obtain ⟨s2, e2, a2⟩ := conv_forest r s1 hc.2 hn.2.1
      (by
        intro x hx
        have h := hs x (by simp [hx])
        refine ⟨?_, ?_, fun h' => h.2.2 (hln x h')⟩
        · rw [a1.keys]
          simp only [List.mem_append, not_or]
          exact ⟨h.1, fun h' => hn.2.2 x h' x hx rfl⟩
        · intro h'
          rcases at1 x h' with h'' | ⟨⟨items, rfl⟩, rfl⟩
          · exact h.2.1 h''
          · exact h.2.2 (by simp [ModForest.listNames]))
      (by
        intro x hx
        rw [a1.keys]
        simp only [List.mem_append, not_or]
        exact ⟨hl x (hln x hx), fun h' => (hs x (by simp [h'])).2.2 (hln x hx)⟩)
    refine ⟨s2, ?_, a1.trans a2⟩
    simp only [convForest, e1, bind, Except.bind, e2]
theorem conv_child (t : ModTree) (n : String) (s : MReg) (hc : t.Clean) (hn : (t.flat n).Nodup)
    (hs : ∀ x ∈ t.flat n, x ∉ s.reg.map Prod.fst ∧ x ∉ s.attrs)
    (hl : ∀ items, t = .list items → n ∉ s.reg.map Prod.fst ∧ n ∉ t.flat n) :
    ∃ s', convChild n s t = .ok s' ∧ Adds s s' (t.flat n) t.ids ∧ ∀ x ∈ s'.attrs, x ∈ s.attrs ∨ ((∃ items, t = .list items) ∧ x = n) := by
  cases t with
  | list items =>
    obtain ⟨h1, h2⟩ := hl items rfl
    obtain ⟨s1, e1, a1, at1⟩ := conv_items items n 0 s hc hn hs
    refine ⟨{ s1 with attrs := n :: s1.attrs }, ?_, ?_, ?_⟩
    · simp only [convChild, e1, bind, Except.bind, MReg.setList]
      rw [if_neg]
      rw [has_iff, a1.keys]
      simp only [List.mem_append, not_or]
      exact ⟨h1, h2⟩
    · exact a1
    · intro x hx
      simp only [List.mem_cons] at hx
      rcases hx with rfl | hx
      · exact Or.inr ⟨⟨items, rfl⟩, rfl⟩
      · left; rw [← at1]; exact hx
  | mod id attrs ch =>
    obtain ⟨c1, c2, c3⟩ := hc
    obtain ⟨c, e, a⟩ := conv_forest ch ⟨[], attrs⟩ c3 c1 (fun x hx => ⟨by simp, (c2 x hx).1, (c2 x hx).2⟩) (by simp)
    have hg := noLists_of a c1 id
    have hfr := hs n (by simp [ModTree.flat])
    refine ⟨_, by simp only [convChild, e, bind, Except.bind]; rfl, ?_, ?_⟩
    · refine ⟨[(n, .mod id c.attrs (.ofDict c.reg))], ?_, rfl, ?_, ?_⟩
      · show Dict.set s.reg n _ = _
        exact set_fresh hfr.1
      · simp [ModTree.ids, hg.2]
      · intro x hx; simp at hx; subst hx; exact hg.1
    · intro x hx
      left
      exact (List.mem_filter.1 hx).1
theorem conv_items (f : ModForest) (n : String) (i : Nat) (s : MReg) (hc : f.Clean) (hn : (f.flatItems n i).Nodup)
    (hs : ∀ x ∈ f.flatItems n i, x ∉ s.reg.map Prod.fst ∧ x ∉ s.attrs) :
    ∃ s', convItems n i s f = .ok s' ∧ Adds s s' (f.flatItems n i) f.ids ∧ s'.attrs = s.attrs := by
  cases f with
  | nil => exact ⟨s, rfl, ⟨[], by simp, rfl, rfl, by simp⟩, rfl⟩
  | cons m t r =>
    simp only [flatItems_cons, ModForest.Clean] at hc hn hs
    rw [List.nodup_append] at hn
    obtain ⟨s1, e1, a1, at1⟩ := conv_item t (itemName n i) s hc.1 hn.1 (fun x hx => hs x (by simp [hx]))
    obtain ⟨s2, e2, a2, at2⟩ := conv_items r n (i + 1) s1 hc.2 hn.2.1 (by
      intro x hx
      have h := hs x (by simp [hx])
      rw [a1.keys, at1]
      simp only [List.mem_append, not_or]
      exact ⟨⟨h.1, fun h' => hn.2.2 x h' x hx rfl⟩, h.2⟩)
    refine ⟨s2, ?_, a1.trans a2, at2.trans at1⟩
    simp only [convItems, e1, bind, Except.bind, e2]
theorem conv_item (t : ModTree) (n : String) (s : MReg) (hc : t.Clean) (hn : (t.flat n).Nodup)
    (hs : ∀ x ∈ t.flat n, x ∉ s.reg.map Prod.fst ∧ x ∉ s.attrs) :
    ∃ s', convItem n s t = .ok s' ∧ Adds s s' (t.flat n) t.ids ∧ s'.attrs = s.attrs := by
  cases t with
  | list items => exact conv_items items n 0 s hc hn hs
  | mod id attrs ch =>
    obtain ⟨c1, c2, c3⟩ := hc
    obtain ⟨c, e, a⟩ := conv_forest ch ⟨[], attrs⟩ c3 c1 (fun x hx => ⟨by simp, (c2 x hx).1, (c2 x hx).2⟩) (by simp)
    have hg := noLists_of a c1 id
    have hfr := hs n (by simp [ModTree.flat])
    refine ⟨{ s with reg := s.reg.set n (.mod id c.attrs (.ofDict c.reg)) }, ?_, ?_, rfl⟩
    · simp only [convItem, e, bind, Except.bind, MReg.addModule]
      rw [if_neg (fun h => hfr.2 h.1)]
    · refine ⟨[(n, .mod id c.attrs (.ofDict c.reg))], ?_, rfl, ?_, ?_⟩
      · show Dict.set s.reg n _ = _
        exact set_fresh hfr.1
      · simp [ModTree.ids, hg.2]
      · intro x hx; simp at hx; subst hx; exact hg.1
end

/-! ## C134 -/

theorem zip_get {α β : Type} [DecidableEq α] (l : List α) (r : List β) (hn : l.Nodup) (hl : l.length = r.length) :
    List.Forall₂ (fun a b => Dict.get? (List.zip l r) a = some b) l r := by
  induction l generalizing r with
  | nil => cases r with
    | nil => exact .nil
    | cons _ _ => simp at hl
  | cons a l ih => cases r with
    | nil => simp at hl
    | cons b r =>
      rw [List.nodup_cons] at hn
      refine .cons (by simp [Dict.get?]) ?_
      have := ih r hn.2 (by simpa using hl)
      refine (List.forall₂_iff_zip.2 ?_)
      rw [List.forall₂_iff_zip] at this
      refine ⟨this.1, fun {x y} hxy => ?_⟩
      have hx : x ∈ l := (List.of_mem_zip hxy).1
      show (if a = x then some b else Dict.get? (List.zip l r) x) = some y
      rw [if_neg (by rintro rfl; exact hn.1 hx)]
      exact this.2 hxy

/-- **C134**: if in no container the names made for the members of module lists are taken, converting a model
succeeds, leaves no module list, keeps all modules (the same objects in the same order), and maps the new name
of each to its name in the original model. -/
theorem C134_names_partial (id : Nat) (attrs : List String) (ch : ModForest) (h : (ModTree.mod id attrs ch).Clean) :
    ∃ t names, toDistillerModuleList id attrs ch = .ok (t, names) ∧ t.NoLists ∧
      ((t.named []).map Prod.fst).Nodup ∧
      List.Forall₂ (fun new old => new.2 = old.2 ∧ names.get? new.1 = some old.1) (t.named []) ((ModTree.mod id attrs ch).named []) := by
  obtain ⟨c1, c2, c3⟩ := h
  obtain ⟨c, e, a⟩ := conv_forest ch ⟨[], attrs⟩ c3 c1 (fun x hx => ⟨by simp, (c2 x hx).1, (c2 x hx).2⟩) (by simp)
  obtain ⟨g1, g2⟩ := noLists_of a c1 id
  have hnd := ModTree.named_nodup _ [] g1
  refine ⟨.mod id c.attrs (.ofDict c.reg), _, by simp only [toDistillerModuleList, e, bind, Except.bind]; rfl, g1, hnd, ?_⟩
  have hids : ((ModTree.mod id c.attrs (.ofDict c.reg)).named []).map Prod.snd = ((ModTree.mod id attrs ch).named []).map Prod.snd := by
    rw [ModTree.named_snd, ModTree.named_snd]
    simp [ModTree.ids, g2]
  have hlen : ((ModTree.mod id c.attrs (.ofDict c.reg)).named []).length = ((ModTree.mod id attrs ch).named []).length := by
    simpa using congrArg List.length hids
  have hz := zip_get _ (((ModTree.mod id attrs ch).named []).map Prod.fst) hnd (by simpa using hlen)
  rw [List.forall₂_map_left_iff, List.forall₂_map_right_iff] at hz
  have hz2 : List.Forall₂ (fun a b : List String × Nat => a.2 = b.2) ((ModTree.mod id c.attrs (.ofDict c.reg)).named []) ((ModTree.mod id attrs ch).named []) := by
    have : List.Forall₂ (· = ·) (((ModTree.mod id c.attrs (.ofDict c.reg)).named []).map Prod.snd) (((ModTree.mod id attrs ch).named []).map Prod.snd) := by
      rw [hids]; exact List.forall₂_refl _
    rwa [List.forall₂_map_left_iff, List.forall₂_map_right_iff] at this
  rw [List.forall₂_iff_zip] at hz hz2 ⊢
  exact ⟨hz.1, fun h => ⟨hz2.2 h, hz.2 h⟩⟩

/-- A module without sub-modules. -/
def leaf (id : Nat) : ModTree := .mod id [] .nil

/-- `layers = ModuleList([a, ModuleList([b, Block(ModuleList([c]))])])`, `fc`. -/
def exModList : ModForest :=
  .cons "layers" (.list (.cons "0" (leaf 1) (.cons "1" (.list (.cons "0" (leaf 2) (.cons "1" (.mod 3 ["w"] (.cons "l" (.list (.cons "0" (leaf 4) .nil)) .nil)) .nil))) .nil)))
  (.cons "fc" (leaf 5) .nil)

example : (ModTree.mod 0 ["training"] exModList).Clean := by
  simp only [ModTree.Clean, exModList, leaf, ModForest.flatNames, ModTree.flat, ModForest.flatItems, ModForest.listNames, ModForest.Clean]
  decide +kernel

example : (toDistillerModuleList 0 ["training"] exModList).toOption.map Prod.snd =
    some [([], []), (["layers_0"], ["layers", "0"]), (["layers_1_0"], ["layers", "1", "0"]), (["layers_1_1"], ["layers", "1", "1"]),
      (["layers_1_1", "l_0"], ["layers", "1", "1", "l", "0"]), (["fc"], ["fc"])] := by decide +kernel

/-- **C134** is violated if a sub-module has the name made for a member of a list (`a = ModuleList([x, y])` and
`a_0`): `x` is gone from the converted model, and the names of all following modules are those of others. -/
theorem C134_violated_clash : ∃ ch t names,
    ch = ModForest.cons "a" (.list (.cons "0" (leaf 1) (.cons "1" (leaf 2) .nil))) (.cons "a_0" (leaf 3) (.cons "b" (leaf 4) .nil)) ∧
    toDistillerModuleList 0 [] ch = .ok (t, names) ∧ (["b"], 4) ∈ t.named [] ∧ names.get? ["b"] = some ["a_0"] ∧
    1 ∉ (t.named []).map Prod.snd := by
  refine ⟨_, _, _, rfl, rfl, by decide +kernel, by decide +kernel, by decide +kernel⟩

/-- **C134** is violated if an attribute has the name made for a member of a list: the graph cannot be built. -/
theorem C134_violated_attribute (n : String) (m : String) (id id' : Nat) : toDistillerModuleList id [itemName n 0]
    (.cons n (.list (.cons m (leaf id') .nil)) .nil) = .error .key := by
  have : ((MReg.mk [] [itemName n 0]).addModule (itemName n 0) (.mod id' [] (.ofDict []))) = .error .key := by
    unfold MReg.addModule; rw [if_pos]; simp [Dict.has, Dict.get?]
  simp only [toDistillerModuleList, leaf, convForest, convChild, convItems, convItem, bind, Except.bind, this]

end Verif
