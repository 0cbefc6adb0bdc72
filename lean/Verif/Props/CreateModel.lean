import Verif.Model.CreateModel
import Verif.Lemmas.Fold
import Mathlib.Tactic.Ring
import Mathlib.Tactic.Linarith
import Mathlib.Tactic.FieldSimp
/-!
# C157 (creating models), C158 (the MobileNet v2 patch)
-/
namespace Verif
variable {M : Type}

/-! ## C157 -/

/-- Specification: `m` was built by a constructor that one of the libraries has for this architecture and data set, called for
pretrained weights iff `pre`. -/
inductive FromLibrary (Z : ModelZoo M) (ds arch : String) (pre : Bool) : M → Prop where
  | own (m : M) (c) (hd : ds = "imagenet") (h : Dict.get? Z.own arch = some c) (hm : c pre = .ok m) : FromLibrary Z ds arch pre m
  | tv (m : M) (c) (hd : ds = "imagenet") (h : Dict.get? Z.tv arch = some c)
      (ha : arch ≠ "mobilenet_v2") (hm : c (isInception arch) pre = .ok m) : FromLibrary Z ds arch pre m
  | mobilenet (m m' : M) (c) (hd : ds = "imagenet") (h : Dict.get? Z.tv arch = some c)
      (ha : arch = "mobilenet_v2") (hm : c (isInception arch) pre = .ok m) (hp : Z.patch m = .ok m') : FromLibrary Z ds arch pre m'
  | cadene (m : M) (c) (hd : ds = "imagenet") (h : Dict.get? Z.cadene arch = some c) (hm : c pre = .ok m) :
      FromLibrary Z ds arch pre m
  | cifar (m : M) (hd : ds = "cifar10") (hp : pre = false) (h : Dict.get? Z.cifar arch = some (.ok m)) : FromLibrary Z ds arch pre m
  | mnist (m : M) (hd : ds = "mnist") (hp : pre = false) (h : Dict.get? Z.mnist arch = some (.ok m)) : FromLibrary Z ds arch pre m

theorem map_ok {α β : Type} {f : α → β} {x : Except Err α} {b : β} (h : x.map f = .ok b) : ∃ a, x = .ok a ∧ f a = b := by
  cases x with
  | error e => cases h
  | ok a => exact ⟨a, rfl, by cases h; rfl⟩

theorem smallModel_ok {d : Dict String (Except Err M)} {arch : String} {pre : Bool} {r : M × Bool}
    (h : smallModel d arch pre = .ok r) : pre = false ∧ Dict.get? d arch = some (.ok r.1) ∧ r.2 = false := by
  unfold smallModel at h
  cases pre with
  | true => cases h
  | false =>
    simp only [Bool.false_eq_true, if_false] at h
    split at h
    · cases h
    · cases h
    · next x _ hx =>
      obtain ⟨m, hm, he⟩ := map_ok h
      subst he
      exact ⟨rfl, by rw [hx, hm], rfl⟩

theorem tvTry_some {Z : ModelZoo M} {c : Bool → Bool → Except Err M} {arch : String} {pre : Bool} {m : M}
    (h : Z.tvTry c arch pre = .ok (some m)) : Z.tvBuild c arch pre = .ok m := by
  unfold ModelZoo.tvTry at h
  split at h
  · next m' he => cases h; exact he
  · split at h <;> cases h
  · cases h

theorem firstChoice_some {Z : ModelZoo M} {arch : String} {pre : Bool} {m : M} (h : Z.firstChoice arch pre = .ok (some m)) :
    FromLibrary Z "imagenet" arch pre m := by
  unfold ModelZoo.firstChoice at h
  split at h
  · split at h
    · cases h
    · next c hc =>
      obtain ⟨m', hm, he⟩ := map_ok h
      cases he
      exact .own _ c rfl hc hm
  · split at h
    · cases h
    · next c hc =>
      have hb := tvTry_some h
      unfold ModelZoo.tvBuild at hb
      split at hb
      · cases hb
      · next m' hm =>
        split at hb
        · next ha => exact .mobilenet _ m c rfl hc ha hm hb
        · next ha => cases hb; exact .tv _ c rfl hc ha hm

theorem laterChoice_ok {Z : ModelZoo M} {arch : String} {pre : Bool} {r : M × Bool} (h : Z.laterChoice arch pre = .ok r) :
    FromLibrary Z "imagenet" arch pre r.1 := by
  unfold ModelZoo.laterChoice at h
  split at h
  · next c hc =>
    obtain ⟨m, hm, he⟩ := map_ok h
    subst he
    cases pre with
    | true => simp at hc
    | false => exact .own m c rfl (by simpa using hc) hm
  · split at h
    · next c hc =>
      obtain ⟨m, hm, he⟩ := map_ok h
      subst he
      exact .cadene m c rfl hc hm
    · cases h

theorem builtin_ok {Z : ModelZoo M} {ds arch : String} {pre : Bool} {r : M × Bool} (hds : ds ∈ ["imagenet", "cifar10", "mnist"])
    (h : Z.builtin ds arch pre = .ok r) : FromLibrary Z ds arch pre r.1 := by
  unfold ModelZoo.builtin at h
  split at h
  · next hd =>
    subst hd
    unfold ModelZoo.imagenet at h
    split at h
    · cases h
    · next m hm => cases h; exact firstChoice_some hm
    · exact laterChoice_ok h
  · next h1 =>
    split at h
    · next hd =>
      obtain ⟨hp, hm, -⟩ := smallModel_ok h
      exact .cifar _ hd hp hm
    · next h2 =>
      obtain ⟨hp, hm, -⟩ := smallModel_ok h
      refine .mnist _ ?_ hp hm
      simp only [List.mem_cons, List.not_mem_nil, or_false] at hds
      tauto

/-- The stages of `create_model`. -/
theorem create_ok {Z : ModelZoo M} {cuda pre : Bool} {dataset arch : String} {parallel : Bool} {dev : Option Int} {c : Created M}
    (h : Z.create cuda pre dataset arch parallel dev = .ok c) :
    dataset.toLower ∈ ["imagenet", "cifar10", "mnist"] ∧
    ∃ r w shape, Z.build dataset.toLower arch pre = .ok r ∧
      Z.wrapAs r.1 arch (cuda && decide (dev ≠ some (-1))) parallel = .ok w ∧
      Z.shapeAfter r.1 w arch dataset.toLower pre r.2 = .ok shape ∧
      c = { model := r.1, wrap := w, isParallel := (cuda && decide (dev ≠ some (-1))) && parallel
            device := if (cuda && decide (dev ≠ some (-1))) = true then "cuda" else "cpu", arch := arch
            dataset := dataset.toLower, shape := shape } := by
  unfold ModelZoo.create at h
  by_cases hd : dataset.toLower ∉ ["imagenet", "cifar10", "mnist"]
  · simp only [hd, not_false_eq_true, if_true, throw, throwThe, MonadExceptOf.throw, bind, Except.bind] at h
    cases h
  · simp only [hd, if_false, bind, Except.bind, pure, Except.pure] at h
    refine ⟨not_not.1 hd, ?_⟩
    split at h
    · cases h
    · next r hr =>
      split at h
      · cases h
      · next w hw =>
        split at h
        · cases h
        · next s hs =>
          cases h
          exact ⟨r, w, s, hr, hw, hs, rfl⟩

/-- **C157** The returned model says what it is: architecture and (lower-case) data set are recorded, it is on the GPU iff there is
one and the CPU was not asked for, and it is data-parallel iff that was asked for on a GPU – for AlexNet and VGG its `features` only. -/
theorem C157_attributes (Z : ModelZoo M) (cuda pre : Bool) (dataset arch : String) (parallel : Bool) (dev : Option Int)
    (c : Created M) (h : Z.create cuda pre dataset arch parallel dev = .ok c) :
    c.arch = arch ∧ c.dataset = dataset.toLower ∧ c.dataset ∈ ["imagenet", "cifar10", "mnist"] ∧
    (c.device = "cuda" ↔ cuda = true ∧ dev ≠ some (-1)) ∧ (c.device = "cuda" ∨ c.device = "cpu") ∧
    (c.isParallel = true ↔ cuda = true ∧ dev ≠ some (-1) ∧ parallel = true) ∧
    (c.wrap = .no ↔ c.isParallel = false) ∧
    (c.wrap = .features → startsWithStr arch "alexnet" ∨ startsWithStr arch "vgg") ∧
    (c.wrap = .whole → ¬ (startsWithStr arch "alexnet" ∨ startsWithStr arch "vgg")) := by
  obtain ⟨hd, r, w, s, hr, hw, hs, rfl⟩ := create_ok h
  have key : ∀ gpu : Bool, Z.wrapAs r.1 arch gpu parallel = .ok w →
      (w = .no ↔ (gpu && parallel) = false) ∧ (w = .features → startsWithStr arch "alexnet" ∨ startsWithStr arch "vgg") ∧
      (w = .whole → ¬ (startsWithStr arch "alexnet" ∨ startsWithStr arch "vgg")) := by
    intro gpu hw
    unfold ModelZoo.wrapAs at hw
    split at hw
    · next hg =>
      split at hw
      · next ha =>
        split at hw
        · cases hw; simp [hg]; simpa using ha
        · cases hw
      · next ha => cases hw; simp [hg]; simpa using ha
    · next hg => cases hw; simp; simpa using hg
  obtain ⟨k1, k2, k3⟩ := key _ hw
  refine ⟨rfl, rfl, hd, ?_, ?_, ?_, k1, k2, k3⟩
  · show (if _ then "cuda" else "cpu") = "cuda" ↔ _
    by_cases hg : (cuda && decide (dev ≠ some (-1))) = true
    · rw [if_pos hg]; simpa using hg
    · rw [if_neg hg]
      simp only [Bool.and_eq_true, decide_eq_true_eq] at hg
      simp [hg]
  · show (if _ then "cuda" else "cpu") = "cuda" ∨ (if _ then "cuda" else "cpu") = "cpu"
    split <;> simp
  · simp [and_assoc]

/-- **C157** The returned model comes from a library that has this architecture for this data set, with pretrained weights iff
asked for – or it was registered by the user for them. -/
theorem C157_source (Z : ModelZoo M) (cuda pre : Bool) (dataset arch : String) (parallel : Bool) (dev : Option Int)
    (c : Created M) (h : Z.create cuda pre dataset arch parallel dev = .ok c) :
    FromLibrary Z dataset.toLower arch pre c.model ∨ Dict.get? Z.user (arch, dataset.toLower) = some (some (.ok c.model)) := by
  obtain ⟨hd, r, w, s, hr, hw, hs, rfl⟩ := create_ok h
  unfold ModelZoo.build at hr
  split at hr
  · right
    unfold ModelZoo.extension at hr
    split at hr
    · next c hc =>
      obtain ⟨m, hm, he⟩ := map_ok hr
      subst he
      rw [hc, hm]
    · cases hr
  · exact Or.inl (builtin_ok hd hr)

/-- **C157** (pretrained, _partial) If no model is registered for the pair, a pretrained model was asked for and one is returned,
then it was built with pretrained weights. -/
theorem C157_pretrained_partial (Z : ModelZoo M) (cuda : Bool) (dataset arch : String) (parallel : Bool) (dev : Option Int)
    (c : Created M) (hu : Dict.get? Z.user (arch, dataset.toLower) = none)
    (h : Z.create cuda true dataset arch parallel dev = .ok c) : FromLibrary Z dataset.toLower arch true c.model := by
  rcases C157_source Z cuda true dataset arch parallel dev c h with h | h
  · exact h
  · rw [hu] at h; cases h

/-- **C157** An unknown data set is refused; so is an architecture that no library has and that was not registered. -/
theorem C157_refused (Z : ModelZoo M) (cuda pre : Bool) (dataset arch : String) (parallel : Bool) (dev : Option Int) :
    (dataset.toLower ∉ ["imagenet", "cifar10", "mnist"] → Z.create cuda pre dataset arch parallel dev = .error .value) ∧
    (arch ∉ resnetSyms → Dict.get? Z.own arch = none → Dict.get? Z.tv arch = none → Dict.get? Z.cadene arch = none →
      Dict.get? Z.cifar arch = none → Dict.get? Z.mnist arch = none → Dict.get? Z.user (arch, dataset.toLower) = none →
      Z.create cuda pre dataset arch parallel dev = .error .value) := by
  constructor
  · intro hd
    unfold ModelZoo.create
    simp only [hd, not_false_eq_true, if_true, throw, throwThe, MonadExceptOf.throw, bind, Except.bind]
  · intro h0 h1 h2 h3 h4 h5 h6
    by_cases hd : dataset.toLower ∉ ["imagenet", "cifar10", "mnist"]
    · unfold ModelZoo.create
      simp only [hd, not_false_eq_true, if_true, throw, throwThe, MonadExceptOf.throw, bind, Except.bind]
    · have hb : Z.builtin dataset.toLower arch pre = .error .value := by
        unfold ModelZoo.builtin ModelZoo.imagenet ModelZoo.firstChoice ModelZoo.laterChoice smallModel
        rw [if_neg h0, h1, h2, h3, h4, h5]
        cases pre <;> simp
      unfold ModelZoo.create
      simp only [hd, if_false, bind, Except.bind, pure, Except.pure]
      have : Z.build dataset.toLower arch pre = .error .value := by
        unfold ModelZoo.build ModelZoo.extension
        rw [hb, h6]
      rw [this]

/-- **C157** (pretrained small models) CIFAR10 and MNIST have no pretrained models: asking for one is refused unless registered. -/
theorem C157_small_pretrained (Z : ModelZoo M) (cuda : Bool) (dataset arch : String) (parallel : Bool) (dev : Option Int)
    (hds : dataset.toLower = "cifar10" ∨ dataset.toLower = "mnist") (hu : Dict.get? Z.user (arch, dataset.toLower) = none) :
    Z.create cuda true dataset arch parallel dev = .error .value := by
  have hb : Z.builtin dataset.toLower arch true = .error .value := by
    unfold ModelZoo.builtin smallModel
    rcases hds with h | h <;> rw [h] <;> simp
  have hd : dataset.toLower ∈ ["imagenet", "cifar10", "mnist"] := by rcases hds with h | h <;> rw [h] <;> simp
  unfold ModelZoo.create
  simp only [hd, not_true_eq_false, if_false, bind, Except.bind, pure, Except.pure]
  have : Z.build dataset.toLower arch true = .error .value := by
    unfold ModelZoo.build ModelZoo.extension
    rw [hb, hu]
  rw [this]

/-- **C157** (own ResNets) For the ResNet names it is Distiller's version that is built, never torchvision's or Cadene's. -/
theorem C157_own_resnets (Z : ModelZoo M) (cuda pre : Bool) (dataset arch : String) (parallel : Bool) (dev : Option Int)
    (c : Created M) (hds : dataset.toLower = "imagenet")
    (ha : arch ∈ ["resnet18", "resnet34", "resnet50", "resnet101", "resnet152", "resnext50_32x4d", "resnext101_32x8d",
      "wide_resnet50_2", "wide_resnet101_2"])
    (hu : Dict.get? Z.user (arch, dataset.toLower) = none)
    (h : Z.create cuda pre dataset arch parallel dev = .ok c) :
    ∃ k, Dict.get? Z.own arch = some k ∧ k pre = .ok c.model := by
  have ha' : arch ∈ resnetSyms := List.mem_cons_of_mem _ ha
  obtain ⟨hd, r, w, s, hr, hw, hs, rfl⟩ := create_ok h
  unfold ModelZoo.build at hr
  split at hr
  · unfold ModelZoo.extension at hr; rw [hu] at hr; cases hr
  · unfold ModelZoo.builtin at hr
    rw [if_pos hds] at hr
    unfold ModelZoo.imagenet at hr
    have hf : ∀ o, Z.firstChoice arch pre = .ok o → ∃ k m, Dict.get? Z.own arch = some k ∧ k pre = .ok m ∧ o = some m := by
      intro o ho
      unfold ModelZoo.firstChoice at ho
      rw [if_pos ha'] at ho
      split at ho
      · cases ho
      · next k hk =>
        obtain ⟨m, hm, he⟩ := map_ok ho
        exact ⟨k, m, hk, hm, he.symm⟩
    split at hr
    · cases hr
    · next m hm =>
      cases hr
      obtain ⟨k, m', h1, h2, h3⟩ := hf _ hm
      cases h3
      exact ⟨k, h1, h2⟩
    · next hm =>
      obtain ⟨k, m', h1, h2, h3⟩ := hf _ hm
      cases h3

/-- **C157** (registered models) A model registered for an architecture and a (lower-case) data set is what `create_model` returns
for them, unless a library has it; other pairs are not affected by the registration. -/
theorem C157_registered_partial (Z : ModelZoo M) (cuda pre : Bool) (ds arch : String) (parallel : Bool) (dev : Option Int) (m : M) :
    (ds.toLower = ds → Z.builtin ds arch pre = .error .value →
      ∀ c, (Z.register arch ds (some (.ok m))).create cuda pre ds arch parallel dev = .ok c → c.model = m) ∧
    (ds.toLower = ds → ds ∈ ["imagenet", "cifar10", "mnist"] → Z.builtin ds arch pre = .error .value →
      ¬ (startsWithStr arch "alexnet" ∨ startsWithStr arch "vgg") → Z.inputShape m = none →
      ∃ c, (Z.register arch ds (some (.ok m))).create cuda pre ds arch parallel dev = .ok c) ∧
    (∀ ds' arch', (arch', ds'.toLower) ≠ (arch, ds) →
      (Z.register arch ds (some (.ok m))).create cuda pre ds' arch' parallel dev = Z.create cuda pre ds' arch' parallel dev) := by
  refine ⟨?_, ?_, ?_⟩
  · intro hl hb c h
    obtain ⟨hd, r, w, s, hr, hw, hs, rfl⟩ := create_ok h
    rw [hl] at hr
    have : (Z.register arch ds (some (.ok m))).build ds arch pre = .ok (m, false) := by
      unfold ModelZoo.build
      have hb' : (Z.register arch ds (some (.ok m))).builtin ds arch pre = .error .value := hb
      rw [hb']
      simp only [ModelZoo.extension, ModelZoo.register, Dict.get?_set_self]
      rfl
    rw [this] at hr
    cases hr
    rfl
  · intro hl hds hb ha hsh
    have hbu : (Z.register arch ds (some (.ok m))).build ds arch pre = .ok (m, false) := by
      unfold ModelZoo.build
      have hb' : (Z.register arch ds (some (.ok m))).builtin ds arch pre = .error .value := hb
      rw [hb']
      simp only [ModelZoo.extension, ModelZoo.register, Dict.get?_set_self]
      rfl
    have hw : ∀ gpu, ∃ w, (Z.register arch ds (some (.ok m))).wrapAs m arch gpu parallel = .ok w := by
      intro gpu
      have ha' : ¬ ((startsWithStr arch "alexnet" || startsWithStr arch "vgg") = true) := by simpa using ha
      unfold ModelZoo.wrapAs
      rw [if_neg ha']
      split <;> exact ⟨_, rfl⟩
    obtain ⟨w, hw⟩ := hw (cuda && decide (dev ≠ some (-1)))
    have hs : ∃ s, (Z.register arch ds (some (.ok m))).shapeAfter m w arch ds pre false = .ok s := by
      have hb4 : (Z.register arch ds (some (.ok m))).shapeBefore m w = none := by
        cases w <;> simp [ModelZoo.shapeBefore, ModelZoo.register, hsh]
      unfold ModelZoo.shapeAfter
      rw [hb4]
      simp only [Bool.false_and, Bool.false_eq_true, if_false]
      split
      · exact ⟨_, rfl⟩
      · simp only [List.mem_cons, List.not_mem_nil, or_false] at hds
        rcases hds with rfl | rfl | rfl <;> exact ⟨_, rfl⟩
    obtain ⟨s, hs⟩ := hs
    unfold ModelZoo.create
    rw [hl]
    simp only [hds, not_true_eq_false, if_false, bind, Except.bind, pure, Except.pure, hbu, hw, hs]
    exact ⟨_, rfl⟩
  · intro ds' arch' hne
    have hx : (Z.register arch ds (some (.ok m))).extension ds'.toLower arch' = Z.extension ds'.toLower arch' := by
      simp only [ModelZoo.extension, ModelZoo.register]
      rw [Dict.get?_set_ne _ _ (fun h => hne h.symm)]
    have hbuild : (Z.register arch ds (some (.ok m))).build ds'.toLower arch' pre = Z.build ds'.toLower arch' pre := by
      unfold ModelZoo.build
      rw [hx]
      rfl
    unfold ModelZoo.create
    simp only [hbuild]
    rfl

/-- **C157** (input shape) Unless the whole model was wrapped for data-parallel execution, an input shape that the model declares
itself is kept; otherwise the shape is that of the data set, of Inception v3, or what a pretrained Cadene model says. -/
theorem C157_input_shape_partial (Z : ModelZoo M) (cuda pre : Bool) (dataset arch : String) (parallel : Bool) (dev : Option Int)
    (c : Created M) (h : Z.create cuda pre dataset arch parallel dev = .ok c) :
    (∀ s, Z.inputShape c.model = some s → c.wrap ≠ .whole → c.shape = some s) ∧
    (Z.inputShape c.model = none →
      (∃ l, pre = true ∧ Dict.get? Z.cadene arch ≠ none ∧ Z.inputSize c.model = some l ∧
          c.shape = some (.tup (.int 1 :: l.map .int))) ∨
      (arch = "inception_v3" ∧ c.shape = some (.tup [.int 1, .int 3, .int 299, .int 299])) ∨
      (arch ≠ "inception_v3" ∧ ∃ s, datasetShape dataset.toLower = .ok s ∧ c.shape = some s)) := by
  obtain ⟨hd, r, w, s, hr, hw, hs, rfl⟩ := create_ok h
  have hcad : r.2 = true → Dict.get? Z.cadene arch ≠ none := by
    intro h2
    unfold ModelZoo.build at hr
    split at hr
    · unfold ModelZoo.extension at hr
      split at hr
      · obtain ⟨m, -, he⟩ := map_ok hr; subst he; cases h2
      · cases hr
    · unfold ModelZoo.builtin at hr
      split at hr
      · unfold ModelZoo.imagenet at hr
        split at hr
        · cases hr
        · cases hr; cases h2
        · unfold ModelZoo.laterChoice at hr
          split at hr
          · obtain ⟨m, -, he⟩ := map_ok hr; subst he; cases h2
          · split at hr
            · next k hk => rw [hk]; simp
            · cases hr
      · split at hr <;> (rw [(smallModel_ok hr).2.2] at h2; cases h2)
  constructor
  · intro s' hs' hwne
    have hb : Z.shapeBefore r.1 w = some s' := by cases w <;> first | exact hs' | exact absurd rfl hwne
    show s = some s'
    unfold ModelZoo.shapeAfter at hs
    rw [hb] at hs
    split at hs
    · split at hs
      · cases hs
      · cases hs; rfl
    · split at hs <;> (cases hs; rfl)
  · intro hn
    have hb : Z.shapeBefore r.1 w = none := by cases w <;> first | exact hn | rfl
    show (∃ l, _ ∧ _ ∧ _ ∧ s = _) ∨ (_ ∧ s = _) ∨ (_ ∧ ∃ s', _ ∧ s = _)
    unfold ModelZoo.shapeAfter at hs
    rw [hb] at hs
    split at hs
    · next hc =>
      simp only [Bool.and_eq_true] at hc
      split at hs
      · cases hs
      · next l hl =>
        left
        refine ⟨l, hc.2, hcad hc.1, hl, ?_⟩
        unfold setInputShape at hs
        obtain ⟨x, hx, he⟩ := map_ok hs
        subst he
        simp only [validateInputShape, Option.getD_none, ne_eq, not_true_eq_false, if_false] at hx
        unfold valShape at hx
        split at hx
        · split at hx
          · cases hx
          · cases hx; rfl
        · next ha => exact absurd (by simp [ShapeObj.isInt]) ha
    · split at hs
      · next ha =>
        right; left
        refine ⟨ha, ?_⟩
        cases hs
        rfl
      · next ha =>
        right; right
        refine ⟨ha, ?_⟩
        unfold setInputShape at hs
        obtain ⟨x, hx, he⟩ := map_ok hs
        subst he
        refine ⟨x, ?_, rfl⟩
        have hne : (some dataset.toLower).getD "" ≠ "" := by
          show dataset.toLower ≠ ""
          intro h0; rw [h0] at hd; simp at hd
        unfold validateInputShape at hx
        rw [if_pos hne] at hx
        exact hx

/-- **C157** (Cadene's shapes) A pretrained model that only Cadene's library has gets the input shape that library gives for it. -/
theorem C157_cadene_shape (Z : ModelZoo M) (cuda : Bool) (dataset arch : String) (parallel : Bool) (dev : Option Int)
    (c : Created M) (l : List Int) (hds : dataset.toLower = "imagenet") (ha : arch ∉ resnetSyms) (ht : Dict.get? Z.tv arch = none)
    (hu : Dict.get? Z.user (arch, dataset.toLower) = none) (h : Z.create cuda true dataset arch parallel dev = .ok c)
    (hs : Z.inputShape c.model = none) (hl : Z.inputSize c.model = some l) :
    c.shape = some (.tup (.int 1 :: l.map .int)) := by
  obtain ⟨hd, r, w, s, hr, hw, hsh, rfl⟩ := create_ok h
  have hr2 : r.2 = true := by
    unfold ModelZoo.build at hr
    split at hr
    · unfold ModelZoo.extension at hr; rw [hu] at hr; cases hr
    · unfold ModelZoo.builtin at hr
      rw [if_pos hds] at hr
      unfold ModelZoo.imagenet at hr
      have hf : Z.firstChoice arch true = .ok none := by unfold ModelZoo.firstChoice; rw [if_neg ha, ht]
      rw [hf] at hr
      simp only [ModelZoo.laterChoice, if_true] at hr
      split at hr
      · obtain ⟨m, -, he⟩ := map_ok hr; subst he; rfl
      · cases hr
  have hb : Z.shapeBefore r.1 w = none := by cases w <;> first | exact hs | rfl
  unfold ModelZoo.shapeAfter at hsh
  have hl' : Z.inputSize r.1 = some l := hl
  rw [hr2, hb, hl'] at hsh
  simp only [Bool.and_self, if_true, setInputShape] at hsh
  obtain ⟨x, hx, he⟩ := map_ok hsh
  subst he
  simp only [validateInputShape, Option.getD_none, ne_eq, not_true_eq_false, if_false] at hx
  unfold valShape at hx
  split at hx
  · split at hx
    · cases hx
    · cases hx; rfl
  · next ha => exact absurd (by simp [ShapeObj.isInt]) ha

/-- **C157** (prefixes) Only the feature extractor is made parallel for the architectures whose name begins with `alexnet` or `vgg`, the
whole model for all others. -/
theorem C157_parallel_part (Z : ModelZoo M) (cuda pre : Bool) (dataset arch : String) (parallel : Bool) (dev : Option Int)
    (c : Created M) (h : Z.create cuda pre dataset arch parallel dev = .ok c) (hp : c.isParallel = true) :
    (("alexnet".toList <+: arch.toList ∨ "vgg".toList <+: arch.toList) → c.wrap = .features) ∧
    (¬ ("alexnet".toList <+: arch.toList ∨ "vgg".toList <+: arch.toList) → c.wrap = .whole) := by
  have key : ∀ p : String, startsWithStr arch p = true ↔ p.toList <+: arch.toList := by
    intro p
    unfold startsWithStr
    rw [decide_eq_true_iff]
    constructor
    · intro e; rw [← e]; exact List.take_prefix _ _
    · intro e; exact (List.prefix_iff_eq_take.1 e).symm
  obtain ⟨-, -, -, -, -, -, hno, hf, hw⟩ := C157_attributes Z cuda pre dataset arch parallel dev c h
  rw [key, key] at hf hw
  rw [hp] at hno
  cases hwr : c.wrap with
  | no => rw [hwr] at hno; simp at hno
  | whole => exact ⟨fun hx => absurd hx (hw hwr), fun _ => rfl⟩
  | features => exact ⟨fun _ => rfl, fun hx => absurd (hf hwr) hx⟩

/-- **C157** (errors) An error other than ValueError in the constructor of one of Distiller's ResNets is reported, whatever
models are registered. -/
theorem C157_errors (Z : ModelZoo M) (cuda pre : Bool) (dataset arch : String) (parallel : Bool) (dev : Option Int)
    (k : Bool → Except Err M) (e : Err) (hds : dataset.toLower = "imagenet") (ha : arch ∈ resnetSyms)
    (hk : Dict.get? Z.own arch = some k) (he : k pre = .error e) (hne : e ≠ .value) :
    Z.create cuda pre dataset arch parallel dev = .error e := by
  have hb : Z.builtin dataset.toLower arch pre = .error e := by
    unfold ModelZoo.builtin ModelZoo.imagenet ModelZoo.firstChoice
    rw [if_pos hds, if_pos ha, hk]
    simp only [he]
    rfl
  have hbu : Z.build dataset.toLower arch pre = .error e := by
    unfold ModelZoo.build
    rw [hb]
    cases e <;> first | rfl | exact absurd rfl hne
  have hd : dataset.toLower ∈ ["imagenet", "cifar10", "mnist"] := by rw [hds]; simp
  unfold ModelZoo.create
  simp only [hd, not_true_eq_false, if_false, bind, Except.bind, pure, Except.pure]
  rw [hbu]

/-- A small zoo: models are numbers. -/
def zooEx : ModelZoo ℕ where
  own := [("resnet18", fun p => .ok (if p then 11 else 10)), ("mobilenet", fun _ => .ok 12)]
  tv := [("resnet18", fun _ _ => .ok 20), ("alexnet", fun _ _ => .ok 21), ("inception_v3", fun _ _ => .ok 22)]
  cadene := [("nasnetalarge", fun p => .ok (if p then 31 else 30)), ("inceptionv4", fun p => .ok (if p then 33 else 32))]
  cifar := [("simplenet_cifar", .ok 40)]
  mnist := []
  user := []
  patch := .ok
  inputShape := fun n => if n = 50 then some (.tup [.int 1, .int 9]) else none
  inputSize := fun n => if n = 31 then some [3, 331, 331] else if n = 33 then some [3, 299, 299] else none
  hasFeatures := fun n => n = 21

/-- The observable result. -/
def seeM (r : Except Err (Created ℕ)) : Except Err (ℕ × DPWrap × Bool × String × String) :=
  r.map fun c => (c.model, c.wrap, c.isParallel, c.device, c.dataset)

example : zooEx.inputShape 31 = none ∧ zooEx.inputSize 31 = some [3, 331, 331] ∧
    seeM (zooEx.create true true "ImageNet" "nasnetalarge" true none) = .ok (31, .whole, true, "cuda", "imagenet") := by decide +kernel

example : seeM (zooEx.create true false "ImageNet" "resnet18" true none) = .ok (10, .whole, true, "cuda", "imagenet") := by decide +kernel
example : seeM (zooEx.create true false "imagenet" "alexnet" true none) = .ok (21, .features, true, "cuda", "imagenet") := by decide +kernel
example : seeM (zooEx.create true true "imagenet" "nasnetalarge" true (some (-1))) = .ok (31, .no, false, "cpu", "imagenet") := by
  decide +kernel
example : seeM (zooEx.create false true "cifar10" "simplenet_cifar" true none) = .error .value := by decide +kernel
example : seeM ((zooEx.register "mynet" "cifar10" (some (.ok 50))).create false false "CIFAR10" "mynet" true none) =
    .ok (50, .no, false, "cpu", "cifar10") := by decide +kernel

/-- **C157, violated**: asking for a pretrained version of a registered architecture gives the model without pretrained weights. -/
theorem C157_violated_pretrained_user :
    seeM ((zooEx.register "mynet" "cifar10" (some (.ok 50))).create false true "cifar10" "mynet" true none) =
      .ok (50, .no, false, "cpu", "cifar10") := by decide +kernel

/-- **C157, violated**: a model registered for `CIFAR10` cannot be created, whether one asks for `CIFAR10` or for `cifar10`. -/
theorem C157_violated_register_case :
    seeM ((zooEx.register "mynet" "CIFAR10" (some (.ok 50))).create false false "CIFAR10" "mynet" true none) = .error .value ∧
    seeM ((zooEx.register "mynet" "CIFAR10" (some (.ok 50))).create false false "cifar10" "mynet" true none) = .error .value := by
  decide +kernel

/-- **C157, violated**: the input shape a model declares is replaced by that of the data set when it is wrapped for data-parallel
execution. -/
theorem C157_violated_shape (c : Created ℕ)
    (h : (zooEx.register "mynet" "cifar10" (some (.ok 50))).create true false "cifar10" "mynet" true none = .ok c) :
    zooEx.inputShape c.model = some (.tup [.int 1, .int 9]) ∧ c.shape = some (.tup [.int 1, .int 3, .int 32, .int 32]) := by
  have hs := create_ok h
  obtain ⟨-, r, w, s, hr, hw, hs, rfl⟩ := hs
  have hl : "cifar10".toLower = "cifar10" := by decide +kernel
  rw [hl] at hr hs
  have : (zooEx.register "mynet" "cifar10" (some (.ok 50))).build "cifar10" "mynet" false = .ok (50, false) := by decide +kernel
  rw [this] at hr
  cases hr
  have hw' : (zooEx.register "mynet" "cifar10" (some (.ok 50))).wrapAs 50 "mynet" (true && decide ((none : Option Int) ≠ some (-1))) true =
      .ok .whole := by decide +kernel
  rw [hw'] at hw
  cases hw
  refine ⟨rfl, ?_⟩
  have ha : ¬ ("mynet" = "inception_v3") := by decide
  unfold ModelZoo.shapeAfter at hs
  simp only [Bool.false_and, Bool.false_eq_true, if_false, ha] at hs
  cases hs
  rfl

example : (seeM ((zooEx.register "mynet" "cifar10" (some (.ok 50))).create true false "cifar10" "mynet" true none)) =
    .ok (50, .whole, true, "cuda", "cifar10") := by decide +kernel

/-- **C157, violated**: Cadene's Inception v4 takes inputs of 299 × 299, which is recorded only for the pretrained version; without
pretrained weights the recorded shape is 224 × 224. -/
theorem C157_violated_inception (c : Created ℕ) (h : zooEx.create false false "imagenet" "inceptionv4" false none = .ok c) :
    c.shape = some (.tup [.int 1, .int 3, .int 224, .int 224]) := by
  obtain ⟨-, r, w, s, hr, hw, hs, rfl⟩ := create_ok h
  have hl : "imagenet".toLower = "imagenet" := by decide +kernel
  rw [hl] at hr hs
  have : zooEx.build "imagenet" "inceptionv4" false = .ok (32, true) := by decide +kernel
  rw [this] at hr
  cases hr
  have hw' : zooEx.wrapAs 32 "inceptionv4" (false && decide ((none : Option Int) ≠ some (-1))) false = .ok .no := by decide +kernel
  rw [hw'] at hw
  cases hw
  have ha : ¬ ("inceptionv4" = "inception_v3") := by decide
  unfold ModelZoo.shapeAfter at hs
  simp only [Bool.and_false, Bool.false_eq_true, if_false, ha] at hs
  cases hs
  rfl

/-! ## C158 -/

/-- Specification: a feature map of `h` non-empty rows and `w` columns. -/
def RectMap (h w : ℕ) (f : List (List (List ℚ))) : Prop := ∀ ch ∈ f, ch.length = h ∧ ∀ row ∈ ch, row.length = w

theorem mean_of_means (w : ℕ) (hw : 0 < w) (ch : List (List ℚ)) (h : ∀ row ∈ ch, row.length = w) :
    qmean (ch.map qmean) = qmean ch.flatten := by
  have h1 : (ch.map qmean).sum = ch.flatten.sum / w := by
    induction ch with
    | nil => simp
    | cons r ch ih =>
      rw [List.map_cons, List.sum_cons, ih (fun row hr => h row (by simp [hr])), List.flatten_cons, List.sum_append]
      unfold qmean
      rw [h r (by simp)]
      ring
  have h2 : ch.flatten.length = ch.length * w := by
    induction ch with
    | nil => simp
    | cons r ch ih =>
      rw [List.flatten_cons, List.length_append, ih (fun row hr => h row (by simp [hr])), h r (by simp), List.length_cons]
      · ring
      · rw [List.map_cons, List.sum_cons, List.flatten_cons, List.sum_append] at h1
        have hr := h r (by simp)
        have : qmean r = r.sum / w := by unfold qmean; rw [hr]
        rw [this] at h1
        have := h1
        rw [add_div] at this
        linarith
  unfold qmean at h1 ⊢
  rw [h1, h2, List.length_map]
  have hw' : (w : ℚ) ≠ 0 := by exact_mod_cast hw.ne'
  by_cases hc : (ch.length : ℚ) = 0
  · have : ch = [] := by
      have : ch.length = 0 := by exact_mod_cast hc
      exact List.length_eq_zero_iff.1 this
    subst this; simp
  · push_cast
    field_simp

theorem fmAdd_comm (a b : List (List (List ℚ))) : fmAdd a b = fmAdd b a := by
  have h1 : ∀ x y : List ℚ, List.zipWith (· + ·) x y = List.zipWith (· + ·) y x := fun x y => by
    rw [List.zipWith_comm]; congr 1; funext p q; ring
  have h2 : ∀ x y : List (List ℚ), List.zipWith (List.zipWith (· + ·)) x y = List.zipWith (List.zipWith (· + ·)) y x := fun x y => by
    rw [List.zipWith_comm]; congr 1; funext p q; exact h1 q p
  unfold fmAdd
  rw [List.zipWith_comm]; congr 1; funext p q; exact h2 q p

theorem foldl_resBlockP (bs : List (Bool × (List (List (List ℚ)) → List (List (List ℚ))))) (f : List (List (List ℚ))) :
    bs.foldlM (resBlockP true) f = .ok (bs.foldl resBlock f) := by
  induction bs generalizing f with
  | nil => rfl
  | cons b bs ih =>
    rw [List.foldlM_cons, List.foldl_cons]
    have : resBlockP true f b = .ok (resBlock f b) := by
      unfold resBlockP resBlock
      cases b.1
      · rfl
      · simp [fmAdd_comm]
    rw [this]
    exact ih _

/-- **C158** The patched MobileNet v2 computes what torchvision's computes, for all weights, inputs and image sizes. -/
theorem C158_same_function (m : MobileNet) (x : Tensor) (h w : ℕ) (hw : 0 < w)
    (hr : RectMap h w (m.top (m.blocks.foldl resBlock (m.stem x)))) :
    (m.patched).call true x = .ok (m.forward x) := by
  show (do let f ← m.blocks.foldlM (resBlockP true) (m.stem x); if true = true then _ else _) = _
  rw [foldl_resBlockP]
  show Except.ok (m.classifier _) = Except.ok (m.classifier _)
  congr 2
  apply List.map_congr_left
  intro ch hch
  exact mean_of_means w hw ch (hr ch hch).2

/-- **C158** Patching a model twice is the same as patching it once. -/
theorem C158_idempotent (m : MobileNet) : m.patched.patched = m.patched := rfl

/-- A MobileNet with one residual block. -/
def mobEx : MobileNet where
  stem := fun x => [[x, x], [x, x.map (· + 1)]]
  blocks := [(true, fun f => f.map (·.map (·.map (· * 2)))), (false, id)]
  top := id
  classifier := id
  added := false

example : RectMap 2 2 (mobEx.top (mobEx.blocks.foldl resBlock (mobEx.stem [1, 2]))) := by
  unfold RectMap; decide +kernel
example : mobEx.patched.call true [1, 2] = .ok (mobEx.forward [1, 2]) ∧ mobEx.forward [1, 2] = [9/2, 6] := by decide +kernel

/-- **C158, violated**: the functions are replaced in torchvision's classes, so that every other MobileNet v2 of the process – created
by torchvision directly – can no longer be called. -/
theorem C158_violated_other_instances (m : MobileNet) (x : Tensor) (h : m.added = false) :
    m.call false x = .ok (m.forward x) ∧ m.call true x = .error .attribute := by
  refine ⟨rfl, ?_⟩
  show m.forwardP x = _
  unfold MobileNet.forwardP
  cases hf : m.blocks.foldlM (resBlockP m.added) (m.stem x) with
  | ok f => rw [h]; rfl
  | error e =>
    show Except.error e = _
    have key : ∀ (bs : List (Bool × (List (List (List ℚ)) → List (List (List ℚ))))) (f : List (List (List ℚ))) (e : Err),
        bs.foldlM (resBlockP false) f = .error e → e = .attribute := by
      intro bs
      induction bs with
      | nil => intro f e he; cases he
      | cons b bs ih =>
        intro f e he
        rw [List.foldlM_cons] at he
        unfold resBlockP at he
        cases hb : b.1 with
        | true => rw [hb] at he; cases he; rfl
        | false => rw [hb] at he; exact ih _ _ he
    rw [h] at hf
    rw [key _ _ _ hf]

end Verif
