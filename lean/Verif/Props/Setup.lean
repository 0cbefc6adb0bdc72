import Verif.Model.Setup
import Verif.Lemmas.Fold
import Verif.Props.Training
import Mathlib.Tactic.Linarith
import Mathlib.Tactic.Ring
/-!
# Setting up a session (C164-C168)
-/
namespace Verif
variable {G : Type}

/-! ## Determinism -/

/-- A library for the non-vacuity examples: generators are numbers, seeding takes the absolute value; permutations are the identity or,
for odd states, reversed. -/
def toyRng : RngLib ℕ where
  torchSeed s := s.natAbs
  pySeed s := s.natAbs
  npSeed s := s.natAbs
  randint g := (g % 99999 + 1, g + 1)
  randint_range g := ⟨by omega, by have := Nat.mod_lt g (show 99999 > 0 by decide); simp only; omega⟩
  npPerm g n := (if g % 2 = 0 then List.range n else (List.range n).reverse, g + 1)
  npPerm_perm g n := by
    simp only
    split
    · exact List.Perm.refl _
    · exact List.reverse_perm _
  torchPerm g n := (if g % 2 = 0 then List.range n else (List.range n).reverse, g + 1)
  torchPerm_perm g n := by
    simp only
    split
    · exact List.Perm.refl _
    · exact List.reverse_perm _

theorem setSeed_ok {L : RngLib G} {s : ℤ} (h : 0 ≤ s ∧ s < 2 ^ 32) (g : Glob G) :
    setSeed L s g = .ok ⟨⟨L.torchSeed s, L.pySeed s, L.npSeed s⟩, g.cudnnDet, g.cudnnBench⟩ := by
  unfold setSeed npSeedE; rw [if_pos h]; rfl

theorem setSeed_bad {L : RngLib G} {s : ℤ} (h : ¬ (0 ≤ s ∧ s < 2 ^ 32)) (g : Glob G) : setSeed L s g = .error .value := by
  unfold setSeed npSeedE; rw [if_neg h]; rfl

theorem setDet_ok {L : RngLib G} {s : ℤ} (h : 0 ≤ s ∧ s < 2 ^ 32) (g : Glob G) :
    setDeterministic L (some s) g = .ok ⟨⟨L.torchSeed s, L.pySeed s, L.npSeed s⟩, true, false⟩ := by
  unfold setDeterministic
  simp only [Option.getD_some, setSeed_ok h, bind, Except.bind, pure, Except.pure]

theorem setDet_bad {L : RngLib G} {s : ℤ} (h : ¬ (0 ≤ s ∧ s < 2 ^ 32)) (g : Glob G) :
    setDeterministic L (some s) g = .error .value := by
  unfold setDeterministic
  simp only [Option.getD_some, setSeed_bad h, bind, Except.bind]

/-- The seed of a session: the one given; else zero for evaluation and deterministic sessions; else the number drawn. -/
def seedOf (L : RngLib G) (a : DetArgs) (g : Glob G) : ℤ :=
  a.seed.getD (if a.evaluate = true ∨ a.deterministic = true then 0 else ((L.randint g.gens.np).1 : ℤ))

theorem chooseSeed_fst (L : RngLib G) (a : DetArgs) (g : Glob G) :
    (chooseSeed L (if a.evaluate then true else a.deterministic) a.seed g).1 = seedOf L a g := by
  unfold chooseSeed seedOf
  obtain ⟨ev, det, seed⟩ := a
  cases seed <;> cases ev <;> cases det <;> simp

theorem chooseSeed_det (L : RngLib G) (det : Bool) (s : Option ℤ) (g : Glob G) : (chooseSeed L det s g).2.cudnnDet = g.cudnnDet := by
  unfold chooseSeed
  split
  · rfl
  · split <;> rfl

/-- The closed form of `_config_determinism`. -/
theorem config_eq (L : RngLib G) (a : DetArgs) (g : Glob G) :
    configDeterminism L a g =
      if 0 ≤ seedOf L a g ∧ seedOf L a g < 2 ^ 32 then
        .ok (⟨a.evaluate, a.evaluate || a.deterministic, some (seedOf L a g)⟩,
          ⟨⟨L.torchSeed (seedOf L a g), L.pySeed (seedOf L a g), L.npSeed (seedOf L a g)⟩,
            a.evaluate || a.deterministic || g.cudnnDet, !(a.evaluate || a.deterministic)⟩)
      else .error .value := by
  have hd : (if a.evaluate then true else a.deterministic) = (a.evaluate || a.deterministic) := by cases a.evaluate <;> simp
  unfold configDeterminism
  simp only [chooseSeed_fst]
  rw [hd]
  cases hdet : (a.evaluate || a.deterministic) with
  | true =>
    simp only [if_true]
    split
    · rename_i h
      rw [setDet_ok h]; rfl
    · rename_i h
      rw [setDet_bad h]; rfl
  | false =>
    simp only [Bool.false_eq_true, if_false]
    split
    · rename_i h
      rw [setSeed_ok h]
      simp only [bind, Except.bind, pure, Except.pure, chooseSeed_det, Bool.false_or, Bool.not_false]
    · rename_i h
      rw [setSeed_bad h]; rfl

/-- **C164** (configuration) Evaluation is always deterministic.  The session reports a seed: the one given, zero for deterministic sessions
without one, otherwise a number from 1 to 99999; after the configuration all three generators are in the state made of this seed, and
cudnn's benchmark mode is on exactly if the session is not deterministic; a deterministic session forces cudnn to be. -/
theorem C164_configuration (L : RngLib G) (a a' : DetArgs) (g g' : Glob G) (h : configDeterminism L a g = .ok (a', g')) :
    ∃ s, a'.seed = some s ∧ (∀ s', a.seed = some s' → s = s') ∧
      (a.seed = none → if a.evaluate = true ∨ a.deterministic = true then s = 0 else 1 ≤ s ∧ s < 100000) ∧
      a'.evaluate = a.evaluate ∧ (a'.deterministic = true ↔ a.evaluate = true ∨ a.deterministic = true) ∧
      g'.gens = ⟨L.torchSeed s, L.pySeed s, L.npSeed s⟩ ∧
      (g'.cudnnBench = true ↔ ¬ (a.evaluate = true ∨ a.deterministic = true)) ∧
      (g'.cudnnDet = true ↔ a.evaluate = true ∨ a.deterministic = true ∨ g.cudnnDet = true) := by
  rw [config_eq] at h
  split at h
  · cases h
    refine ⟨seedOf L a g, rfl, ?_, ?_, rfl, by simp, rfl, by simp, by simp [or_assoc]⟩
    · intro s' hs
      simp [seedOf, hs]
    · intro hs
      have := L.randint_range g.gens.np
      unfold seedOf
      rw [hs]
      split
      · simp
      · simp only [Option.getD_none]
        omega
  · cases h

/-- **C164** (refused seeds) The configuration fails, with a ValueError, exactly if the seed given is negative or has more than 32 bits. -/
theorem C164_refused (L : RngLib G) (a : DetArgs) (g : Glob G) (e : Err) :
    configDeterminism L a g = .error e ↔ e = .value ∧ ∃ s, a.seed = some s ∧ (s < 0 ∨ 2 ^ 32 ≤ s) := by
  rw [config_eq]
  have hr := L.randint_range g.gens.np
  split
  · rename_i h
    constructor
    · intro h'; cases h'
    · rintro ⟨-, s, hs, hb⟩
      have : seedOf L a g = s := by simp [seedOf, hs]
      omega
  · rename_i h
    constructor
    · intro h'
      cases h'
      refine ⟨rfl, ?_⟩
      cases hs : a.seed with
      | some s =>
        have : seedOf L a g = s := by simp [seedOf, hs]
        exact ⟨s, rfl, by omega⟩
      | none =>
        exfalso; apply h
        unfold seedOf
        rw [hs]
        simp only [Option.getD_none]
        split <;> constructor <;> omega
    · rintro ⟨rfl, -⟩
      rfl

section
variable {M R : Type}

/-- **C164** (deterministic sessions) The result of an evaluation, or of a deterministic session, depends on the arguments only: not on the
state of the generators before, nor on the cudnn flags. -/
theorem C164_deterministic (L : RngLib G) (a : DetArgs) (la : LoadArgs) (nTrain nTest : ℕ) (build : Glob G → M × Glob G)
    (run : M → Loaders → Glob G → R) (hd : a.evaluate = true ∨ a.deterministic = true) (g g' : Glob G) :
    icSession L a la nTrain nTest build run g = icSession L a la nTrain nTest build run g' := by
  have hc : configDeterminism L a g = configDeterminism L a g' := by
    have hs : seedOf L a g = seedOf L a g' := by simp [seedOf, hd]
    have hb : (a.evaluate || a.deterministic) = true := by simpa using hd
    rw [config_eq, config_eq, hs, hb]
    simp
  unfold icSession
  rw [hc]

/-- **C164** (reported seed) A session repeated with the arguments it reports gives the same result, whatever was done in between, provided
cudnn's deterministic flag is as it was. -/
theorem C164_repeated (L : RngLib G) (a a' : DetArgs) (la : LoadArgs) (nTrain nTest : ℕ) (build : Glob G → M × Glob G)
    (run : M → Loaders → Glob G → R) (g g' g1 : Glob G) (h : configDeterminism L a g = .ok (a', g1)) (hc : g'.cudnnDet = g.cudnnDet) :
    icSession L a' la nTrain nTest build run g' = icSession L a la nTrain nTest build run g := by
  have hs : configDeterminism L a' g' = .ok (a', g1) := by
    rw [config_eq] at h
    split at h
    · rename_i hr
      cases h
      rw [config_eq]
      have e : seedOf L (⟨a.evaluate, a.evaluate || a.deterministic, some (seedOf L a g)⟩ : DetArgs) g' = seedOf L a g := by
        simp [seedOf]
      rw [e, if_pos hr]
      simp only [hc]
      cases a.evaluate <;> cases a.deterministic <;> rfl
    · cases h
  unfold icSession
  rw [hs, h]

/-- **C164** is violated: in a deterministic session the seed given decides about the initial weights only.  Loading the data seeds all
generators with zero again, so that the order of the data, and everything drawn afterwards, is the same for all seeds. -/
theorem C164_violated_seed (L : RngLib G) (a : DetArgs) (la : LoadArgs) (nTrain nTest : ℕ) (build : Glob G → M × Glob G)
    (hd : a.evaluate = true ∨ a.deterministic = true) (s s' : ℤ) (hs : 0 ≤ s ∧ s < 2 ^ 32) (hs' : 0 ≤ s' ∧ s' < 2 ^ 32) (g : Glob G)
    (run : Loaders → Glob G → R) :
    icSession L { a with seed := some s } la nTrain nTest build (fun _ => run) g =
      icSession L { a with seed := some s' } la nTrain nTest build (fun _ => run) g := by
  have hb : (a.evaluate || a.deterministic) = true := by simpa using hd
  have load : ∀ (x y : Glob G), loadDatasets L { la with deterministic := true } nTrain nTest none x =
      loadDatasets L { la with deterministic := true } nTrain nTest none y := by
    intro x y
    unfold loadDatasets getDataLoaders
    simp only [if_true]
    rw [setDet_ok (by decide), setDet_ok (by decide)]
  unfold icSession
  rw [config_eq, config_eq]
  have e : ∀ t, seedOf L ({ a with seed := some t } : DetArgs) g = t := fun t => by simp [seedOf]
  rw [e, e, if_pos hs, if_pos hs']
  simp only [hb, bind, Except.bind]
  rw [load _ (build ⟨⟨L.torchSeed s', L.pySeed s', L.npSeed s'⟩, true || g.cudnnDet, !true⟩).2]

example : (icSession toyRng ⟨false, true, some 7⟩ ⟨2, 1/4, true, 1, 1, 1, false, false⟩ 4 2 (fun g => (g.gens.torch, g))
      (fun w ls g => (w, (ls.train.map fun l => l.src), g.gens.torch)) ⟨⟨5, 6, 7⟩, false, false⟩) =
    .ok (7, some [1, 2, 3], 0) := by decide +kernel
example : (icSession toyRng ⟨false, false, some 7⟩ ⟨2, 1/4, true, 1, 1, 1, false, false⟩ 4 2 (fun g => (g.gens.torch, g))
      (fun w ls g => (w, (ls.train.map fun l => l.src), g.gens.torch)) ⟨⟨5, 6, 7⟩, false, false⟩) =
    .ok (7, some [2, 1, 0], 7) := by decide +kernel
example : configDeterminism toyRng ⟨false, false, none⟩ ⟨⟨5, 6, 7⟩, true, false⟩ =
    .ok (⟨false, false, some 8⟩, ⟨⟨8, 8, 8⟩, true, true⟩) := by decide +kernel
example : configDeterminism toyRng ⟨true, false, some (-1)⟩ ⟨⟨5, 6, 7⟩, true, false⟩ = .error .value := by decide +kernel

end

/-! ## Loaders -/

/-- Number of samples picked out of `n` for an effective size. -/
def pickCount (n : ℕ) (eff : ℚ) : ℕ := ⌊(n : ℚ) * eff⌋.toNat

theorem subsetLength_ok {src : List ℕ} {eff : ℚ} {n : ℕ} (h : subsetLength src eff = .ok n) :
    0 < eff ∧ eff ≤ 1 ∧ n = pickCount src.length eff := by
  unfold subsetLength at h
  split at h
  · cases h
  · rename_i c
    cases h
    refine ⟨?_, ?_, rfl⟩
    · by_contra hc; exact c (Or.inl (not_lt.1 hc))
    · by_contra hc; exact c (Or.inr (not_le.1 hc))

theorem pickCount_le {n : ℕ} {eff : ℚ} (h : eff ≤ 1) : pickCount n eff ≤ n := by
  unfold pickCount
  have hn : (0 : ℚ) ≤ n := by positivity
  have h2 : (n : ℚ) * eff ≤ n := by nlinarith
  have h3 : ((⌊(n : ℚ) * eff⌋ : ℤ) : ℚ) ≤ ((n : ℤ) : ℚ) := le_trans (Int.floor_le _) (by exact_mod_cast h2)
  have : ⌊(n : ℚ) * eff⌋ ≤ n := by exact_mod_cast h3
  omega

/-- What is known of a loader that `mkLoader` makes. -/
theorem mkLoader_spec {L : RngLib G} {a : LoadArgs} {tr init : Bool} {src : List ℕ} {eff : ℚ} {g g' : Glob G} {l : Loader}
    (h : mkLoader L a tr src eff init g = .ok (l, g')) :
    l.fromTrain = tr ∧ l.initWorkers = init ∧ l.batch = a.batch ∧ l.size = pickCount src.length eff ∧ 0 < eff ∧ eff ≤ 1 ∧
    (a.fixed = false → l.src = src ∧ l.way = .switching ∧ g' = g) ∧
    (a.fixed = true → l.src = ((L.npPerm g.gens.np src.length).1.take l.size) ∧
      l.way = if a.sequential = true then .fixedSequential else .fixedRandom) := by
  unfold mkLoader at h
  obtain ⟨n, hn, h⟩ := ok_bind h
  obtain ⟨h1, h2, rfl⟩ := subsetLength_ok hn
  cases hf : a.fixed with
  | true =>
    simp only [hf, if_true] at h
    cases h
    exact ⟨rfl, rfl, rfl, rfl, h1, h2, fun c => by simp at c, fun _ => ⟨rfl, rfl⟩⟩
  | false =>
    simp only [hf, Bool.false_eq_true, if_false] at h
    cases h
    exact ⟨rfl, rfl, rfl, rfl, h1, h2, fun _ => ⟨rfl, rfl, rfl⟩, fun c => by simp at c⟩

theorem truthy_iff {l : Loader} (hb : 1 ≤ l.batch) : l.truthy = true ↔ l.size ≠ 0 := by
  unfold Loader.truthy Loader.len
  rw [decide_eq_true_iff]
  constructor
  · intro h h0
    apply h
    rw [Nat.div_eq_zero_iff]
    omega
  · intro h
    rw [Ne, Nat.div_eq_zero_iff]
    omega

/-- Size of the validation part of the split. -/
def validCount (nTrain : ℕ) (split : ℚ) : ℕ := ⌊split * nTrain⌋.toNat

theorem splitList_sizes (L : RngLib G) (g : G) (n : ℕ) (split : ℚ) :
    (splitList (L.npPerm g n).1 split).1 = (L.npPerm g n).1.take (validCount n split) ∧
    (splitList (L.npPerm g n).1 split).2 = (L.npPerm g n).1.drop (validCount n split) := by
  have hl : (L.npPerm g n).1.length = n := by rw [(L.npPerm_perm g n).length_eq, List.length_range]
  unfold splitList validCount
  rw [hl]
  exact ⟨rfl, rfl⟩

/-- What is known of the loaders made of a data set. -/
theorem trainLoaders_spec {L : RngLib G} {a : LoadArgs} {nTrain : ℕ} {test : Loader} {g g' : Glob G} {ls : Loaders}
    (h : trainLoaders L a nTrain test g = .ok (ls, g')) (hb : 1 ≤ a.batch) :
    ∃ t v perm, ls = ⟨some t, some v, test⟩ ∧ perm = (L.npPerm g.gens.np nTrain).1 ∧
      t.fromTrain = true ∧ t.initWorkers = a.deterministic ∧ t.size = pickCount (perm.drop (validCount nTrain a.split)).length a.effTrain ∧
      0 < a.effTrain ∧ a.effTrain ≤ 1 ∧ t.batch = a.batch ∧
      (a.fixed = false → t.src = perm.drop (validCount nTrain a.split) ∧ t.way = .switching) ∧
      (a.fixed = true → t.way = if a.sequential = true then .fixedSequential else .fixedRandom) ∧
      (a.fixed = true → t.src.length = t.size) ∧
      ((v = test ∧ (perm.take (validCount nTrain a.split) = [] ∨ pickCount (perm.take (validCount nTrain a.split)).length a.effValid = 0)) ∨
        (perm.take (validCount nTrain a.split) ≠ [] ∧ v.fromTrain = true ∧ v.initWorkers = a.deterministic ∧ v.batch = a.batch ∧
          v.size = pickCount (perm.take (validCount nTrain a.split)).length a.effValid ∧ v.size ≠ 0 ∧
          (a.fixed = false → v.src = perm.take (validCount nTrain a.split) ∧ v.way = .switching) ∧
          (a.fixed = true → v.way = if a.sequential = true then .fixedSequential else .fixedRandom) ∧
          (a.fixed = true → v.src.length = v.size))) := by
  have lenp : ∀ x n, (L.npPerm x n).1.length = n := fun x n => by rw [(L.npPerm_perm x n).length_eq, List.length_range]
  unfold trainLoaders at h
  simp only [(splitList_sizes L g.gens.np nTrain a.split).1, (splitList_sizes L g.gens.np nTrain a.split).2] at h
  obtain ⟨⟨t, g1⟩, ht, h⟩ := ok_bind h
  obtain ⟨⟨v, g2⟩, hv, h⟩ := ok_bind h
  cases h
  obtain ⟨t1, t2, t3, t4, t5, t6, t7, t8⟩ := mkLoader_spec ht
  refine ⟨t, v, _, rfl, rfl, t1, t2, t4, t5, t6, t3, fun c => ⟨(t7 c).1, (t7 c).2.1⟩, fun c => (t8 c).2, ?_, ?_⟩
  · intro c
    rw [(t8 c).1, List.length_take, lenp, t4]
    exact Nat.min_eq_left (pickCount_le t6)
  · unfold validLoader at hv
    split at hv
    · rename_i hnil
      cases hv
      exact Or.inl ⟨rfl, Or.inl hnil⟩
    · rename_i hnil
      obtain ⟨⟨w, g3⟩, hw, hv⟩ := ok_bind hv
      obtain ⟨w1, w2, w3, w4, w5, w6, w7, w8⟩ := mkLoader_spec hw
      simp only [pure, Except.pure, Except.ok.injEq, Prod.mk.injEq] at hv
      obtain ⟨hv, -⟩ := hv
      by_cases hz : w.size = 0
      · left
        have hnt : w.truthy = false := by
          cases hc : w.truthy with
          | false => rfl
          | true => exact absurd hz ((truthy_iff (by omega)).1 hc)
        rw [hnt] at hv
        simp only [Bool.false_eq_true, if_false] at hv
        exact ⟨hv.symm, Or.inr (by rw [← w4]; exact hz)⟩
      · right
        have htr : w.truthy = true := (truthy_iff (by omega)).2 hz
        rw [htr, if_pos rfl] at hv
        subst hv
        refine ⟨hnil, w1, w2, w3, w4, hz, fun c => ⟨(w7 c).1, (w7 c).2.1⟩, fun c => (w8 c).2, ?_⟩
        intro c
        rw [(w8 c).1, List.length_take, lenp, w4]
        exact Nat.min_eq_left (pickCount_le w6)

theorem getLoaders_split {L : RngLib G} {a : LoadArgs} {only : Bool} {nTrain nTest : ℕ} {g g' : Glob G} {ls : Loaders}
    (h : getDataLoaders L a only nTrain nTest g = .ok (ls, g')) :
    ∃ g0 t g1, mkLoader L a false (List.range nTest) a.effTest false g0 = .ok (t, g1) ∧
      ((only = true ∧ ls = ⟨none, none, t⟩) ∨ (only = false ∧ trainLoaders L a nTrain t g1 = .ok (ls, g'))) := by
  unfold getDataLoaders at h
  obtain ⟨g0, hg0, h⟩ := ok_bind h
  obtain ⟨⟨t, g1⟩, ht, h⟩ := ok_bind h
  refine ⟨g0, t, g1, ht, ?_⟩
  cases only with
  | true =>
    simp only [if_true] at h
    cases h
    exact Or.inl ⟨rfl, rfl⟩
  | false =>
    simp only [Bool.false_eq_true, if_false] at h
    exact Or.inr ⟨rfl, h⟩

/-- **C166** (which loaders) `load_data` returns the requested loaders in the order training, validation, test, as a list, or the loader
itself if one is requested; a requested loader is never missing.  The training loader reads training data, the test loader test data. -/
theorem C166_requested (L : RngLib G) (a : LoadArgs) (train val test : Bool) (nTrain nTest : ℕ) (g g' : Glob G) (res : LoadResult)
    (h : loadDataIC L a train val test nTrain nTest g = .ok (res, g')) (hb : 1 ≤ a.batch) :
    ∃ t v s : Loader, t.fromTrain = true ∧ s.fromTrain = false ∧ s.size = pickCount nTest a.effTest ∧
      res = match train, val, test with
        | false, false, false => .many []
        | true, false, false => .one (some t)
        | false, true, false => .one (some v)
        | false, false, true => .one (some s)
        | true, true, false => .many [some t, some v]
        | true, false, true => .many [some t, some s]
        | false, true, true => .many [some v, some s]
        | true, true, true => .many [some t, some v, some s] := by
  unfold loadDataIC at h
  obtain ⟨⟨ls, g1⟩, hl, h⟩ := ok_bind h
  cases h
  obtain ⟨g0, s, g2, hs, hc⟩ := getLoaders_split hl
  obtain ⟨s1, -, -, s4, -⟩ := mkLoader_spec hs
  rw [List.length_range] at s4
  rcases hc with ⟨hto, rfl⟩ | ⟨hto, ht⟩
  · have ht : train = false ∧ val = false := by cases train <;> cases val <;> simp at hto ⊢
    obtain ⟨rfl, rfl⟩ := ht
    refine ⟨⟨true, [], 0, .switching, 1, false⟩, s, s, rfl, s1, s4, ?_⟩
    cases test <;> rfl
  · obtain ⟨t, v, perm, rfl, -, t1, -⟩ := trainLoaders_spec ht hb
    refine ⟨t, v, s, t1, s1, s4, ?_⟩
    cases train <;> cases val <;> cases test <;> first | rfl | (simp at hto)

/-- **C166** (test only) With only the test set requested nothing depends on the training set, which need not exist. -/
theorem C166_test_only (L : RngLib G) (a : LoadArgs) (test : Bool) (n n' nTest : ℕ) (g : Glob G) :
    loadDataIC L a false false test n nTest g = loadDataIC L a false false test n' nTest g := by
  unfold loadDataIC getDataLoaders
  rfl

/-- **C166** (validation data) The validation loader is the test loader exactly if the split leaves no validation samples or the effective
size leaves none of them; otherwise it delivers validation samples only, held out of the training part of the same shuffled
training set.  (Stated for the default, re-sampled, subsets; with fixed ones see C50.) -/
theorem C166_validation (L : RngLib G) (a : LoadArgs) (nTrain nTest : ℕ) (g g' : Glob G) (ls : Loaders)
    (h : getDataLoaders L a false nTrain nTest g = .ok (ls, g')) (hb : 1 ≤ a.batch) (hf : a.fixed = false) (h0 : 0 ≤ a.split) (h1 : a.split ≤ 1) :
    ∃ t v, ls.train = some t ∧ ls.valid = some v ∧
      (v = ls.test ↔ validCount nTrain a.split = 0 ∨ pickCount (validCount nTrain a.split) a.effValid = 0) ∧
      (v ≠ ls.test → (∀ i ∈ v.src, i ∉ t.src) ∧ (t.src ++ v.src).Perm (List.range nTrain) ∧ v.src.length = validCount nTrain a.split ∧
        v.fromTrain = true ∧ v.size = pickCount (validCount nTrain a.split) a.effValid) := by
  obtain ⟨g0, s, g2, hs, hc⟩ := getLoaders_split h
  obtain ⟨s1, -, -, s4, -⟩ := mkLoader_spec hs
  rcases hc with ⟨hto, -⟩ | ⟨-, ht⟩
  · cases hto
  obtain ⟨t, v, perm, rfl, hperm, t1, -, -, -, -, -, t7, -, -, hv⟩ := trainLoaders_spec ht hb
  have pp : perm.Perm (List.range nTrain) := by rw [hperm]; exact L.npPerm_perm _ _
  have pl : perm.length = nTrain := by rw [pp.length_eq, List.length_range]
  have hk : validCount nTrain a.split ≤ nTrain := by
    have := pickCount_le (n := nTrain) h1
    unfold pickCount at this
    unfold validCount
    rwa [mul_comm]
  have hlen : (perm.take (validCount nTrain a.split)).length = validCount nTrain a.split := by
    rw [List.length_take, pl]; exact Nat.min_eq_left hk
  have hnil : perm.take (validCount nTrain a.split) = [] ↔ validCount nTrain a.split = 0 := by
    rw [← List.length_eq_zero_iff, hlen]
  rw [hlen, hnil] at hv
  refine ⟨t, v, rfl, rfl, ?_, ?_⟩
  · rcases hv with ⟨rfl, hz⟩ | ⟨c1, c2, -, -, c5, c6, -⟩
    · exact ⟨fun _ => hz, fun _ => rfl⟩
    · constructor
      · rintro rfl
        rw [s1] at c2; cases c2
      · rintro (hz | hz)
        · exact absurd (hnil.2 hz) c1
        · rw [hz] at c5; exact absurd c5 c6
  · intro hne
    rcases hv with ⟨rfl, -⟩ | ⟨c1, c2, -, -, c5, c6, c7, -⟩
    · exact absurd rfl hne
    · rw [(c7 hf).1, (t7 hf).1]
      have hnd : (perm.take (validCount nTrain a.split) ++ perm.drop (validCount nTrain a.split)).Nodup := by
        rw [List.take_append_drop]
        exact pp.nodup_iff.2 List.nodup_range
      refine ⟨fun i hi hj => (List.nodup_append.1 hnd).2.2 i hi i hj rfl, ?_, hlen, c2, c5⟩
      refine (List.perm_append_comm).trans ?_
      rw [List.take_append_drop]
      exact pp

/-- **C166** is violated: a validation part was split off, but validation silently runs on the test set, whenever the effective size
leaves none of its samples. -/
theorem C166_violated_validation : ∃ (a : LoadArgs) (ls : Loaders) (g' : Glob ℕ), validCount 10 a.split = 2 ∧
    getDataLoaders toyRng a false 10 5 ⟨⟨0, 0, 0⟩, false, false⟩ = .ok (ls, g') ∧ ls.valid = some ls.test :=
  ⟨⟨4, 1/5, false, 1, 1/10, 1, false, false⟩, ⟨some ⟨true, [2, 3, 4, 5, 6, 7, 8, 9], 8, .switching, 4, false⟩,
    some ⟨false, [0, 1, 2, 3, 4], 5, .switching, 4, false⟩, ⟨false, [0, 1, 2, 3, 4], 5, .switching, 4, false⟩⟩, ⟨⟨0, 0, 1⟩, false, false⟩,
    by decide +kernel, by decide +kernel, rfl⟩

/-- **C166** (sampling) Subsets are fixed exactly if asked for; a pass over a loader delivers as many samples as its size. -/
theorem C166_sampling (L : RngLib G) (a : LoadArgs) (tr init : Bool) (src : List ℕ) (eff : ℚ) (g g' : Glob G) (l : Loader)
    (h : mkLoader L a tr src eff init g = .ok (l, g')) :
    (∀ x : Glob G, (l.pass L x).1.length = pickCount src.length eff) ∧
    (a.fixed = true → ∀ x y : Glob G, (l.pass L x).1.Perm (l.pass L y).1) ∧
    (a.fixed = true → a.sequential = true → ∀ x y : Glob G, (l.pass L x).1 = (l.pass L y).1 ∧ (l.pass L x).2 = x) := by
  obtain ⟨-, -, -, s4, s5, s6, s7, s8⟩ := mkLoader_spec h
  have lenN : ∀ x n, (L.npPerm x n).1.length = n := fun x n => by rw [(L.npPerm_perm x n).length_eq, List.length_range]
  have lenT : ∀ x n, (L.torchPerm x n).1.length = n := fun x n => by rw [(L.torchPerm_perm x n).length_eq, List.length_range]
  have hle := pickCount_le (n := src.length) s6
  have hsrc : a.fixed = true → l.src.length = l.size := fun c => by
    rw [(s8 c).1, List.length_take, lenN, s4]; exact Nat.min_eq_left hle
  cases hf : a.fixed with
  | false =>
    obtain ⟨h1, h2, -⟩ := s7 hf
    refine ⟨?_, fun c => by simp at c, fun c => by simp at c⟩
    intro x
    unfold Loader.pass
    rw [h2]
    simp only [List.length_map, List.length_take, lenT]
    rw [h1, s4]
    exact Nat.min_eq_left hle
  | true =>
    have h1 := hsrc hf
    have h2 := (s8 hf).2
    cases hq : a.sequential with
    | true =>
      rw [hq, if_pos rfl] at h2
      have hp : ∀ x : Glob G, l.pass L x = (l.src, x) := fun x => by unfold Loader.pass; rw [h2]
      refine ⟨fun x => by rw [hp, h1, s4], fun _ x y => by rw [hp, hp], fun _ _ x y => by rw [hp, hp]; exact ⟨rfl, rfl⟩⟩
    | false =>
      rw [hq] at h2
      simp only [Bool.false_eq_true, if_false] at h2
      have hp : ∀ x : Glob G, (l.pass L x).1 = ((L.torchPerm x.gens.torch l.size).1).map fun i => l.src.getD i 0 := fun x => by
        unfold Loader.pass; rw [h2]
      refine ⟨fun x => by rw [hp, List.length_map, lenT, s4], fun _ x y => ?_, fun _ c => by simp at c⟩
      rw [hp, hp]
      exact ((L.torchPerm_perm _ _).trans (L.torchPerm_perm _ _).symm).map _

/-- **C166** is violated: a sequential order that is asked for without a fixed subset is ignored: two passes deliver different orders. -/
theorem C166_violated_sequential : ∃ (a : LoadArgs) (l : Loader) (g g' : Glob ℕ), a.sequential = true ∧ a.effTest = 1 ∧
    mkLoader toyRng a false [0, 1, 2] a.effTest false g = .ok (l, g') ∧ (l.pass toyRng g').1 ≠ (l.pass toyRng (l.pass toyRng g').2).1 :=
  ⟨⟨4, 1/5, false, 1, 1, 1, false, true⟩, ⟨false, [0, 1, 2], 3, .switching, 4, false⟩, ⟨⟨0, 0, 0⟩, false, false⟩, ⟨⟨0, 0, 0⟩, false, false⟩,
    rfl, rfl, by decide +kernel, by decide +kernel⟩

theorem epochLoaders_const {L : RngLib G} {a : LoadArgs} {nTrain nTest : ℕ} {work : ℕ → Loaders → Glob G → Glob G} {ls : Loaders}
    (hl : truthyO ls.train = true ∧ truthyO ls.valid = true ∧ ls.test.truthy = true) :
    ∀ n (g : Glob G), epochLoaders L a nTrain nTest work n (some ls) g = .ok (List.replicate n ls) := by
  intro n
  induction n with
  | zero => intro g; rfl
  | succ n ih =>
    intro g
    have : loadDatasets L a nTrain nTest (some ls) g = .ok (ls, g) := by
      unfold loadDatasets
      simp [hl]
    unfold epochLoaders
    simp only [this, bind, Except.bind, ih, pure, Except.pure, List.replicate_succ]

/-- **C166** (held-out data) If every effective size leaves at least one sample, all epochs use the loaders made in the first one, so that no
sample used for validation in one epoch is used for training in any other. -/
theorem C166_held_out (L : RngLib G) (a : LoadArgs) (nTrain nTest : ℕ) (work : ℕ → Loaders → Glob G → Glob G) (n : ℕ) (g : Glob G)
    (out : List Loaders) (h : epochLoaders L a nTrain nTest work n none g = .ok out) (hb : 1 ≤ a.batch)
    (hf : a.fixed = false) (h0 : 0 ≤ a.split) (h1 : a.split ≤ 1)
    (ht : pickCount (nTrain - validCount nTrain a.split) a.effTrain ≠ 0) (hs : pickCount nTest a.effTest ≠ 0) :
    (∀ x ∈ out, ∀ y ∈ out, x = y) ∧
    ∀ x ∈ out, ∀ y ∈ out, ∀ t v, x.train = some t → y.valid = some v → v ≠ y.test → ∀ i ∈ v.src, i ∉ t.src := by
  have key : ∃ ls, out = List.replicate n ls ∧ ∀ t v, ls.train = some t → ls.valid = some v → v ≠ ls.test → ∀ i ∈ v.src, i ∉ t.src := by
    cases n with
    | zero =>
      unfold epochLoaders at h
      cases h
      exact ⟨⟨none, none, ⟨true, [], 0, .switching, 1, false⟩⟩, rfl, fun t v h => by cases h⟩
    | succ n =>
      unfold epochLoaders at h
      obtain ⟨⟨ls, g1⟩, hl, h⟩ := ok_bind h
      obtain ⟨rest, hr, h⟩ := ok_bind h
      cases h
      have hg : getDataLoaders L a false nTrain nTest g = .ok (ls, g1) := hl
      obtain ⟨t, v, e1, e2, e3, e4⟩ := C166_validation L a nTrain nTest g g1 ls hg hb hf h0 h1
      obtain ⟨g0, s, g2, hs', hc⟩ := getLoaders_split hg
      obtain ⟨s1, -, s3, s4, -⟩ := mkLoader_spec hs'
      rw [List.length_range] at s4
      have hls : truthyO ls.train = true ∧ truthyO ls.valid = true ∧ ls.test.truthy = true := by
        rcases hc with ⟨hto, -⟩ | ⟨-, ht'⟩
        · cases hto
        obtain ⟨t', v', perm, rfl, hperm, t1, -, t3, -, -, t6, -, -, -, hv⟩ := trainLoaders_spec ht' hb
        have pl : perm.length = nTrain := by rw [hperm, (L.npPerm_perm _ _).length_eq, List.length_range]
        rw [List.length_drop, pl] at t3
        have hst : s.truthy = true := (truthy_iff (by omega)).2 (by omega)
        refine ⟨(truthy_iff (by omega)).2 (by omega), ?_, hst⟩
        rcases hv with ⟨rfl, -⟩ | ⟨-, -, -, c4, -, c6, -⟩
        · exact hst
        · exact (truthy_iff (by omega)).2 c6
      rw [epochLoaders_const hls] at hr
      cases hr
      refine ⟨ls, rfl, ?_⟩
      intro t' v' ht' hv' hne
      rw [e1] at ht'; rw [e2] at hv'
      cases ht'; cases hv'
      exact (e4 hne).1
  obtain ⟨ls, rfl, hk⟩ := key
  refine ⟨fun x hx y hy => by rw [List.eq_of_mem_replicate hx, List.eq_of_mem_replicate hy], ?_⟩
  intro x hx y hy
  rw [List.eq_of_mem_replicate hx, List.eq_of_mem_replicate hy]
  exact hk

/-- **C166** is violated: with an effective test size that leaves no sample the loaders are made anew in every epoch, from another split:
here the validation sample of the second epoch was used for training in the first. -/
theorem C166_violated_leak : ∃ (a : LoadArgs) (x y : Loaders) (t v : Loader) (i : ℕ),
    epochLoaders toyRng a 4 3 (fun _ _ g => g) 2 none ⟨⟨0, 0, 0⟩, false, false⟩ = .ok [x, y] ∧
    x.train = some t ∧ y.valid = some v ∧ v ≠ y.test ∧ i ∈ v.src ∧ i ∈ t.src ∧ t.size = t.src.length :=
  ⟨⟨1, 1/4, false, 1, 1, 1/10, false, false⟩,
    ⟨some ⟨true, [1, 2, 3], 3, .switching, 1, false⟩, some ⟨true, [0], 1, .switching, 1, false⟩, ⟨false, [0, 1, 2], 0, .switching, 1, false⟩⟩,
    ⟨some ⟨true, [2, 1, 0], 3, .switching, 1, false⟩, some ⟨true, [3], 1, .switching, 1, false⟩, ⟨false, [0, 1, 2], 0, .switching, 1, false⟩⟩,
    ⟨true, [1, 2, 3], 3, .switching, 1, false⟩, ⟨true, [3], 1, .switching, 1, false⟩, 3,
    by decide +kernel, rfl, rfl, by decide, by decide, by decide, rfl⟩

example : epochLoaders toyRng ⟨1, 1/4, false, 1, 1, 1, false, false⟩ 4 3 (fun _ _ g => g) 2 none ⟨⟨0, 0, 0⟩, false, false⟩ =
    .ok (List.replicate 2 ⟨some ⟨true, [1, 2, 3], 3, .switching, 1, false⟩, some ⟨true, [0], 1, .switching, 1, false⟩,
      ⟨false, [0, 1, 2], 3, .switching, 1, false⟩⟩) := by decide +kernel

/-- **C164** (workers) Without determinism the workers of a training or validation loader have different seeds, derived from the one drawn
for the pass; so do those of a test loader always. -/
theorem C164_workers (L : RngLib G) (a : LoadArgs) (nTrain nTest : ℕ) (g g' : Glob G) (ls : Loaders) (t : Loader)
    (h : getDataLoaders L a false nTrain nTest g = .ok (ls, g')) (hb : 1 ≤ a.batch) (ht : ls.train = some t) (base : ℤ) (i j : ℕ) :
    (ls.test.workerSeed base i = ls.test.workerSeed base j → i = j) ∧
    (a.deterministic = false → t.workerSeed base i = t.workerSeed base j → i = j) := by
  obtain ⟨g0, s, g2, hs, hc⟩ := getLoaders_split h
  obtain ⟨-, s2, -⟩ := mkLoader_spec hs
  rcases hc with ⟨hto, -⟩ | ⟨-, hl⟩
  · cases hto
  obtain ⟨t', v, perm, rfl, -, -, t2, -⟩ := trainLoaders_spec hl hb
  cases ht
  constructor
  · intro e
    simp only [Loader.workerSeed, s2, Bool.false_eq_true, if_false] at e
    omega
  · intro hd e
    simp only [Loader.workerSeed, t2, hd, Bool.false_eq_true, if_false] at e
    omega

/-- **C164** is violated: in deterministic mode all workers of the training loader have the same seed, in every pass, whatever seed was
given: their random augmentations repeat each other and repeat from epoch to epoch. -/
theorem C164_violated_workers (L : RngLib G) (a : LoadArgs) (nTrain nTest : ℕ) (g g' : Glob G) (ls : Loaders) (t : Loader)
    (h : getDataLoaders L a false nTrain nTest g = .ok (ls, g')) (hb : 1 ≤ a.batch) (ht : ls.train = some t) (hd : a.deterministic = true)
    (base base' : ℤ) (i j : ℕ) : t.workerSeed base i = t.workerSeed base' j := by
  obtain ⟨g0, s, g2, hs, hc⟩ := getLoaders_split h
  rcases hc with ⟨hto, -⟩ | ⟨-, hl⟩
  · cases hto
  obtain ⟨t', v, perm, rfl, -, -, t2, -⟩ := trainLoaders_spec hl hb
  cases ht
  simp only [Loader.workerSeed, t2, hd, if_true]

/-- **C164** (workers of a session) The loaders that a session gets: the seeds of the training workers do not depend on the generators exactly
when the session is an evaluation or deterministic. -/
theorem C164_session_workers {M : Type} (L : RngLib G) (a : DetArgs) (la : LoadArgs) (nTrain nTest : ℕ) (build : Glob G → M × Glob G)
    (g : Glob G) (ls : Loaders) (t : Loader) (h : icSession L a la nTrain nTest build (fun _ ls _ => ls) g = .ok ls) (hb : 1 ≤ la.batch)
    (ht : ls.train = some t) (i : ℕ) :
    (∀ base base' : ℤ, t.workerSeed base i = t.workerSeed base' i) ↔ a.evaluate = true ∨ a.deterministic = true := by
  unfold icSession at h
  obtain ⟨c, hc, h⟩ := ok_bind h
  obtain ⟨d, hd, h⟩ := ok_bind h
  cases h
  have hdet : c.1.deterministic = (a.evaluate || a.deterministic) := by
    rw [config_eq] at hc
    split at hc
    · cases hc; rfl
    · cases hc
  unfold loadDatasets at hd
  obtain ⟨g0, s, g2, hs, hcase⟩ := getLoaders_split hd
  rcases hcase with ⟨hto, -⟩ | ⟨-, hl⟩
  · cases hto
  obtain ⟨t', v, perm, e, -, -, t2, -⟩ := trainLoaders_spec hl hb
  rw [e] at ht
  cases ht
  simp only [Loader.workerSeed, t2, hdet]
  cases he : a.evaluate <;> cases hd : a.deterministic <;> simp
  exact ⟨0, 1, by decide⟩

/-! ## Collectors -/

theorem get?_map_mk {α : Type} [DecidableEq α] {β : Type} (f : α → β) : ∀ (l : List α) (k : α), k ∈ l →
    Dict.get? (l.map fun x => (x, f x)) k = some (f k) := by
  intro l
  induction l with
  | nil => intro k h; simp at h
  | cons x l ih =>
    intro k h
    rw [List.map_cons, Dict.get?_cons]
    by_cases hx : x = k
    · rw [if_pos hx, hx]
    · rw [if_neg hx]
      exact ih k ((List.mem_cons.1 h).resolve_left fun e => hx e.symm)

/-- **C165** (who collects) Collectors are made for the phases named, five each, and for no other. -/
theorem C165_collectors (phases : List String) :
    (createColls phases).map Prod.fst = ["train", "valid", "test"] ∧
    ∀ p cs, Dict.get? (createColls phases) p = some cs →
      (p ∈ phases → cs.map Prod.fst = ["sparsity_ofm", "l1_channels", "apoz_channels", "mean_channels", "records"] ∧
        ∀ kc ∈ cs, kc.2.hooks = 0) ∧ (p ∉ phases → cs = []) := by
  refine ⟨rfl, ?_⟩
  intro p cs h
  have hp : p ∈ ["train", "valid", "test"] := by
    have := (Dict.get?_isSome_iff (createColls phases) p).1 (by rw [h]; rfl)
    exact this
  unfold createColls at h
  rw [get?_map_mk (fun k => if k ∈ phases then genColls else ([] : PhaseColl)) _ p hp] at h
  cases h
  constructor
  · intro hm
    rw [if_pos hm]
    exact ⟨rfl, by decide⟩
  · intro hm
    rw [if_neg hm]

/-- The statistic that the collector with a key computes. -/
def statOf (k : String) : String := if k = "records" then "statistics_records" else k

/-- The keys of the collectors of a phase. -/
def fiveKeys : List String := ["sparsity_ofm", "l1_channels", "apoz_channels", "mean_channels", "records"]

theorem startAll_idle (elig : String → ℕ) : ∀ cs : PhaseColl, (∀ kc ∈ cs, kc.2.hooks = 0) →
    startAll elig cs = (cs.map fun kc => (kc.1, { kc.2 with hooks := elig kc.2.stat }), .ok ()) := by
  intro cs
  induction cs with
  | nil => intro _; rfl
  | cons kc cs ih =>
    intro h
    obtain ⟨k, c⟩ := kc
    have h0 : c.hooks = 0 := h (k, c) (by simp)
    unfold startAll
    rw [if_neg (by simp [h0]), ih fun kc hk => h kc (List.mem_cons_of_mem _ hk)]
    rfl

theorem startAll_keys (elig : String → ℕ) : ∀ cs : PhaseColl, (startAll elig cs).1.map Prod.fst = cs.map Prod.fst := by
  intro cs
  induction cs with
  | nil => rfl
  | cons kc cs ih =>
    obtain ⟨k, c⟩ := kc
    unfold startAll
    split
    · rfl
    · simp only [List.map_cons, ih]

theorem mem_of_mem_set {α β : Type} [DecidableEq α] {d : Dict α β} {k : α} {v : β} {x : α × β} (h : x ∈ Dict.set d k v) : x = (k, v) ∨ x ∈ d := by
  induction d with
  | nil => simp [Dict.set] at h; exact Or.inl h
  | cons e d ih =>
    obtain ⟨k', v'⟩ := e
    unfold Dict.set at h
    split at h
    · rename_i hk
      rcases List.mem_cons.1 h with rfl | h
      · exact Or.inl (by rw [hk])
      · exact Or.inr (List.mem_cons_of_mem _ h)
    · rcases List.mem_cons.1 h with rfl | h
      · exact Or.inr (by simp)
      · rcases ih h with h | h
        · exact Or.inl h
        · exact Or.inr (List.mem_cons_of_mem _ h)

theorem set_self {α β : Type} [DecidableEq α] {d : Dict α β} {k : α} {v : β} (h : Dict.get? d k = some v) : Dict.set d k v = d := by
  induction d with
  | nil => simp at h
  | cons e d ih =>
    obtain ⟨k', v'⟩ := e
    rw [Dict.get?_cons] at h
    unfold Dict.set
    split
    · rename_i hk
      rw [if_pos hk] at h
      cases h; rfl
    · rename_i hk
      rw [if_neg hk] at h
      rw [ih h]

theorem mem_hookedColls {all : ActColls} {p k : String} : (p, k) ∈ hookedColls all ↔ ∃ cs c, (p, cs) ∈ all ∧ (k, c) ∈ cs ∧ c.hooks ≠ 0 := by
  unfold hookedColls
  rw [List.mem_flatMap]
  constructor
  · rintro ⟨⟨q, cs⟩, hq, h⟩
    obtain ⟨⟨k', c⟩, hk, he⟩ := List.mem_map.1 h
    cases he
    obtain ⟨h1, h2⟩ := List.mem_filter.1 hk
    exact ⟨cs, c, hq, h1, by simpa using h2⟩
  · rintro ⟨cs, c, h1, h2, h3⟩
    exact ⟨(p, cs), h1, List.mem_map.2 ⟨(k, c), List.mem_filter.2 ⟨h2, by simpa using h3⟩, rfl⟩⟩

theorem get?_create {ps : List String} {p : String} (hp : p ∈ ["train", "valid", "test"]) :
    Dict.get? (createColls ps) p = some (if p ∈ ps then genColls else []) :=
  get?_map_mk (fun k => if k ∈ ps then genColls else ([] : PhaseColl)) _ p hp

theorem startAll_gen (elig : String → ℕ) {ps : List String} {p : String} :
    startAll elig (if p ∈ ps then genColls else []) =
      (if p ∈ ps then genColls.map fun kc => (kc.1, { kc.2 with hooks := elig kc.2.stat }) else [], .ok ()) := by
  split
  · exact startAll_idle elig genColls (by decide)
  · rfl

theorem stopAll_gen (elig : String → ℕ) {ps : List String} {p : String} :
    stopAll (if p ∈ ps then genColls.map fun kc => (kc.1, { kc.2 with hooks := elig kc.2.stat }) else []) =
      if p ∈ ps then genColls else [] := by
  split <;> rfl

/-- The collectors while phase `p` runs. -/
def duringColls (elig : String → ℕ) (ps : List String) (p : String) : ActColls :=
  Dict.set (createColls ps) p (if p ∈ ps then genColls.map fun kc => (kc.1, { kc.2 with hooks := elig kc.2.stat }) else [])

theorem runPhase_create (elig : String → ℕ) {ps : List String} {p : String} (hp : p ∈ ["train", "valid", "test"]) (r : Bool) :
    runPhase elig (createColls ps) p r =
      if r then (duringColls elig ps p, .error .runtime)
      else (createColls ps, .ok (phaseBody (duringColls elig ps p) p
        (if p ∈ ps then genColls.map fun kc => (kc.1, { kc.2 with hooks := elig kc.2.stat }) else []))) := by
  unfold runPhase
  simp only [get?_create hp, Option.getD_some, startAll_gen, stopAll_gen]
  cases r with
  | true => rfl
  | false =>
    simp only [Bool.false_eq_true, if_false]
    rw [set_self (get?_create hp)]
    rfl

theorem mem_set_iff {α β : Type} [DecidableEq α] {d : Dict α β} (hd : (d.map Prod.fst).Nodup) {k : α} {v : β} {x : α} {y : β} :
    (x, y) ∈ Dict.set d k v ↔ (x = k ∧ y = v) ∨ (x ≠ k ∧ (x, y) ∈ d) := by
  induction d with
  | nil =>
    simp [Dict.set]
  | cons e d ih =>
    obtain ⟨k', v'⟩ := e
    simp only [List.map_cons, List.nodup_cons] at hd
    unfold Dict.set
    split
    · rename_i h
      subst h
      simp only [List.mem_cons, Prod.mk.injEq]
      constructor
      · rintro (h | h)
        · exact Or.inl h
        · exact Or.inr ⟨fun e => hd.1 (List.mem_map.2 ⟨(x, y), h, e⟩), Or.inr h⟩
      · rintro (h | ⟨h1, h | h⟩)
        · exact Or.inl h
        · exact absurd h.1 h1
        · exact Or.inr h
    · rename_i h
      simp only [List.mem_cons, Prod.mk.injEq, ih hd.2]
      constructor
      · rintro (⟨rfl, rfl⟩ | h')
        · exact Or.inr ⟨h, Or.inl ⟨rfl, rfl⟩⟩
        · rcases h' with h' | ⟨h1, h2⟩
          · exact Or.inl h'
          · exact Or.inr ⟨h1, Or.inr h2⟩
      · rintro (h' | ⟨h1, h' | h'⟩)
        · exact Or.inr (Or.inl h')
        · exact Or.inl h'
        · exact Or.inr (Or.inr ⟨h1, h'⟩)

theorem mem_during (elig : String → ℕ) {ps : List String} {p : String} (q k : String) :
    (q, k) ∈ hookedColls (duringColls elig ps p) ↔ q = p ∧ p ∈ ps ∧ k ∈ fiveKeys ∧ 0 < elig (statOf k) := by
  rw [mem_hookedColls]
  have hn : ((createColls ps).map Prod.fst).Nodup := by rw [(C165_collectors ps).1]; decide
  unfold duringColls
  constructor
  · rintro ⟨cs, c, h1, h2, h3⟩
    rw [mem_set_iff hn] at h1
    rcases h1 with ⟨rfl, rfl⟩ | ⟨-, h1⟩
    · split at h2
      · rename_i hm
        simp only [genColls, List.map_cons, List.map_nil, List.mem_cons, Prod.mk.injEq, List.not_mem_nil, or_false] at h2
        refine ⟨rfl, hm, ?_⟩
        rcases h2 with ⟨rfl, rfl⟩ | ⟨rfl, rfl⟩ | ⟨rfl, rfl⟩ | ⟨rfl, rfl⟩ | ⟨rfl, rfl⟩ <;>
          exact ⟨by decide, Nat.pos_of_ne_zero h3⟩
      · simp at h2
    · exfalso
      have hg := Dict.get?_of_mem hn h1
      obtain ⟨a1, a2⟩ := (C165_collectors ps).2 q cs hg
      by_cases hm : q ∈ ps
      · exact h3 ((a1 hm).2 _ h2)
      · rw [a2 hm] at h2; simp at h2
  · rintro ⟨rfl, hm, hk, he⟩
    refine ⟨_, ⟨statOf k, elig (statOf k)⟩, (mem_set_iff hn).2 (Or.inl ⟨rfl, rfl⟩), ?_, by simpa using Nat.pos_iff_ne_zero.1 he⟩
    rw [if_pos hm]
    simp only [fiveKeys, List.mem_cons, List.not_mem_nil, or_false] at hk
    rcases hk with rfl | rfl | rfl | rfl | rfl <;> simp [genColls, statOf]

/-- **C165** (phases) As long as no phase raises, every run of a phase succeeds; while it runs exactly its own collectors hold hooks (those
with any module to collect for), and afterwards none does; validation and test save their collectors and training does not.  `elig`
tells for how many modules a statistic is collected. -/
theorem C165_phases (elig : String → ℕ) (ps : List String) : ∀ (runs : List (String × Bool)),
    (∀ r ∈ runs, r.1 ∈ ["train", "valid", "test"] ∧ r.2 = false) →
    ∃ out : List (Except Err PhaseEvent), runPhases elig (createColls ps) runs = (createColls ps, out) ∧ out.length = runs.length ∧
      hookedColls (createColls ps) = [] ∧
      ∀ (i : ℕ) (p : String) (r : Bool), runs[i]? = some (p, r) → ∃ ev : PhaseEvent, out[i]? = some (Except.ok ev) ∧
        (∀ q k, (q, k) ∈ ev.hooked ↔ q = p ∧ p ∈ ps ∧ k ∈ fiveKeys ∧ 0 < elig (statOf k)) ∧
        ev.saved = if p ∈ ps ∧ p ≠ "train" then fiveKeys else [] := by
  have hidle : hookedColls (createColls ps) = [] := by
    rw [List.eq_nil_iff_forall_not_mem]
    rintro ⟨q, k⟩ h
    obtain ⟨cs, c, h1, h2, h3⟩ := mem_hookedColls.1 h
    have hg := Dict.get?_of_mem (show ((createColls ps).map Prod.fst).Nodup by rw [(C165_collectors ps).1]; decide) h1
    obtain ⟨a1, a2⟩ := (C165_collectors ps).2 q cs hg
    by_cases hm : q ∈ ps
    · exact h3 ((a1 hm).2 _ h2)
    · rw [a2 hm] at h2; simp at h2
  intro runs
  induction runs with
  | nil => intro _; exact ⟨[], rfl, rfl, hidle, fun i p r h => by simp at h⟩
  | cons x runs ih =>
    intro h
    obtain ⟨p, r⟩ := x
    obtain ⟨hp, hr⟩ := h (p, r) (by simp)
    simp only at hp hr
    subst hr
    obtain ⟨out, h1, h2, -, h4⟩ := ih fun y hy => h y (List.mem_cons_of_mem _ hy)
    unfold runPhases
    rw [runPhase_create elig hp]
    simp only [Bool.false_eq_true, if_false, h1]
    refine ⟨_, rfl, by simp [h2], hidle, ?_⟩
    intro i q r hi
    cases i with
    | zero =>
      simp only [List.getElem?_cons_zero, Option.some.injEq, Prod.mk.injEq] at hi
      obtain ⟨rfl, rfl⟩ := hi
      refine ⟨_, rfl, fun q' k => mem_during elig q' k, ?_⟩
      unfold phaseBody
      by_cases ht : p = "train"
      · subst ht
        simp
      · by_cases hm : p ∈ ps
        · simp [ht, hm]
          rfl
        · simp [ht, hm]
    | succ i =>
      simp only [List.getElem?_cons_succ] at hi ⊢
      exact h4 i q r hi

/-- No phase has a collector under the key `sparsity`. -/
def NoSparsity (all : ActColls) : Prop := ∀ pc ∈ all, "sparsity" ∉ pc.2.map Prod.fst

theorem noSparsity_set {all : ActColls} {p : String} {cs : PhaseColl} (h : NoSparsity all) (hc : "sparsity" ∉ cs.map Prod.fst) :
    NoSparsity (Dict.set all p cs) := by
  intro pc hpc
  rcases mem_of_mem_set hpc with rfl | h'
  · exact hc
  · exact h pc h'

theorem runPhase_noSparsity (elig : String → ℕ) {all : ActColls} (h : NoSparsity all) (p : String) (r : Bool) :
    NoSparsity (runPhase elig all p r).1 ∧ ∀ ev, (runPhase elig all p r).2 = .ok ev → ev.logged = none := by
  have hg : "sparsity" ∉ ((Dict.get? all p).getD []).map Prod.fst := by
    cases hc : Dict.get? all p with
    | none => simp
    | some cs => exact h (p, cs) (Dict.mem_of_get? hc)
  have hs : "sparsity" ∉ (startAll elig ((Dict.get? all p).getD [])).1.map Prod.fst := by rw [startAll_keys]; exact hg
  have hst : "sparsity" ∉ (stopAll (startAll elig ((Dict.get? all p).getD [])).1).map Prod.fst := by
    have : ∀ cs : PhaseColl, (stopAll cs).map Prod.fst = cs.map Prod.fst := by
      intro cs; simp [stopAll, Dict.mapVals]
    rw [this]; exact hs
  unfold runPhase
  cases hx : (startAll elig ((Dict.get? all p).getD [])).2 with
  | error e =>
    simp only [hx]
    exact ⟨noSparsity_set h hs, fun ev he => by cases he⟩
  | ok u =>
    simp only [hx]
    cases r with
    | true =>
      simp only [if_true]
      exact ⟨noSparsity_set h hs, fun ev he => by cases he⟩
    | false =>
      simp only [Bool.false_eq_true, if_false]
      refine ⟨noSparsity_set h hst, fun ev he => ?_⟩
      cases he
      unfold phaseBody
      simp only
      rw [(Dict.get?_eq_none_iff _ _).2 hs]
      rfl

/-- **C165** is violated: whatever phases statistics are asked for, no activation statistics are ever logged: the loops log the collector
`sparsity`, and there is none with this key. -/
theorem C165_violated_not_logged (elig : String → ℕ) (ps : List String) (runs : List (String × Bool)) :
    ∀ ev, .ok ev ∈ (runPhases elig (createColls ps) runs).2 → ev.logged = none := by
  have h0 : NoSparsity (createColls ps) := by
    intro pc hpc
    obtain ⟨p, cs⟩ := pc
    have hg := Dict.get?_of_mem (show ((createColls ps).map Prod.fst).Nodup by rw [(C165_collectors ps).1]; decide) hpc
    obtain ⟨a1, a2⟩ := (C165_collectors ps).2 p cs hg
    by_cases hm : p ∈ ps
    · simp only [(a1 hm).1]; decide
    · simp [a2 hm]
  have : ∀ (runs : List (String × Bool)) (all : ActColls), NoSparsity all → ∀ ev, .ok ev ∈ (runPhases elig all runs).2 → ev.logged = none := by
    intro runs
    induction runs with
    | nil => intro all _ ev h; simp [runPhases] at h
    | cons x runs ih =>
      intro all ha ev h
      obtain ⟨p, r⟩ := x
      obtain ⟨h1, h2⟩ := runPhase_noSparsity elig ha p r
      unfold runPhases at h
      rcases List.mem_cons.1 h with h | h
      · exact h2 ev h.symm
      · exact ih _ h1 ev h
  exact this runs _ h0

/-- The first collector of phase `p` holds hooks. -/
def Stuck (all : ActColls) (p : String) : Prop := ∃ k c cs, Dict.get? all p = some ((k, c) :: cs) ∧ c.hooks ≠ 0 ∧ k = "sparsity_ofm"

theorem runPhase_stuck (elig : String → ℕ) {all : ActColls} {p : String} (h : Stuck all p) (q : String) (r : Bool) :
    Stuck (runPhase elig all q r).1 p ∧ (q = p → (runPhase elig all q r).2 = .error .assertion) ∧
    ∀ ev, (runPhase elig all q r).2 = .ok ev → (p, "sparsity_ofm") ∈ ev.hooked := by
  obtain ⟨k, c, cs, hg, hc, rfl⟩ := h
  by_cases hq : q = p
  · subst hq
    have hs : startAll elig ((Dict.get? all q).getD []) = (("sparsity_ofm", c) :: cs, .error .assertion) := by
      rw [hg]
      simp only [Option.getD_some]
      unfold startAll
      rw [if_pos hc]
    unfold runPhase
    simp only [hs]
    exact ⟨⟨_, c, cs, by simp, hc, rfl⟩, fun _ => trivial, fun ev he => by cases he⟩
  · have key : ∀ v, Stuck (Dict.set all q v) p := fun v => ⟨_, c, cs, by rw [Dict.get?_set_ne _ _ hq]; exact hg, hc, rfl⟩
    have hook : ∀ v, (p, "sparsity_ofm") ∈ hookedColls (Dict.set all q v) := fun v =>
      mem_hookedColls.2 ⟨_, c, Dict.mem_of_get? (by rw [Dict.get?_set_ne _ _ hq]; exact hg), by simp, hc⟩
    unfold runPhase
    cases hx : (startAll elig ((Dict.get? all q).getD [])).2 with
    | error e =>
      simp only [hx]
      exact ⟨key _, fun e => absurd e hq, fun ev he => by cases he⟩
    | ok u =>
      simp only [hx]
      cases r with
      | true =>
        simp only [if_true]
        exact ⟨key _, fun e => absurd e hq, fun ev he => by cases he⟩
      | false =>
        simp only [Bool.false_eq_true, if_false]
        refine ⟨key _, fun e => absurd e hq, fun ev he => ?_⟩
        cases he
        exact hook _

/-- **C165** is violated: once a phase with collectors was interrupted by an exception, every later run of this phase fails with an
AssertionError, and its collectors go on collecting while other phases run. -/
theorem C165_violated_interrupted (elig : String → ℕ) (ps : List String) (p : String) (hp : p ∈ ["train", "valid", "test"]) (hm : p ∈ ps)
    (he : 0 < elig "sparsity_ofm") (later : List (String × Bool)) :
    ∀ (i : ℕ) (q : String) (r : Bool), later[i]? = some (q, r) → ∃ o : Except Err PhaseEvent, (runPhases elig (createColls ps) ((p, true) :: later)).2[i + 1]? = some o ∧
      (q = p → o = .error .assertion) ∧ ∀ ev, o = .ok ev → (p, "sparsity_ofm") ∈ ev.hooked := by
  have h0 : Stuck (runPhase elig (createColls ps) p true).1 p := by
    rw [runPhase_create elig hp]
    refine ⟨"sparsity_ofm", ⟨"sparsity_ofm", elig "sparsity_ofm"⟩, (genColls.map fun kc => (kc.1, { kc.2 with hooks := elig kc.2.stat })).tail,
      ?_, by simpa using Nat.pos_iff_ne_zero.1 he, rfl⟩
    simp only [if_true, duringColls, Dict.get?_set_self, hm]
    rfl
  have : ∀ (later : List (String × Bool)) (all : ActColls), Stuck all p → ∀ (i : ℕ) (q : String) (r : Bool), later[i]? = some (q, r) →
      ∃ o : Except Err PhaseEvent, (runPhases elig all later).2[i]? = some o ∧ (q = p → o = .error .assertion) ∧ ∀ ev, o = .ok ev → (p, "sparsity_ofm") ∈ ev.hooked := by
    intro later
    induction later with
    | nil => intro all _ i q r h; simp at h
    | cons x later ih =>
      intro all ha i q r h
      obtain ⟨p', r'⟩ := x
      obtain ⟨s1, s2, s3⟩ := runPhase_stuck elig ha p' r'
      unfold runPhases
      cases i with
      | zero =>
        simp only [List.getElem?_cons_zero, Option.some.injEq, Prod.mk.injEq] at h ⊢
        obtain ⟨rfl, rfl⟩ := h
        exact ⟨_, rfl, s2, s3⟩
      | succ i =>
        simp only [List.getElem?_cons_succ] at h ⊢
        exact ih _ s1 i q r h
  intro i q r h
  obtain ⟨o, h1, h2⟩ := this later _ h0 i q r h
  refine ⟨o, ?_, h2⟩
  rw [runPhases]
  simpa using h1

example : runPhases (fun _ => 1) (createColls ["valid", "nothing"]) [("train", false), ("valid", false)] =
    (createColls ["valid"], [.ok ⟨[], none, []⟩,
      .ok ⟨[("valid", "sparsity_ofm"), ("valid", "l1_channels"), ("valid", "apoz_channels"), ("valid", "mean_channels"), ("valid", "records")],
        none, ["sparsity_ofm", "l1_channels", "apoz_channels", "mean_channels", "records"]⟩]) := by decide +kernel

/-! ## Compute device -/

theorem parseIds_ok : ∀ (l : List (Option ℤ)) (ids : List ℤ), parseIds l = .ok ids ↔ l = ids.map some := by
  intro l
  induction l with
  | nil =>
    intro ids
    cases ids <;> simp [parseIds]
  | cons x l ih =>
    intro ids
    cases x with
    | none => cases ids <;> simp [parseIds]
    | some i =>
      unfold parseIds
      constructor
      · intro h
        obtain ⟨r, hr, h⟩ := ok_bind h
        cases h
        rw [(ih r).1 hr, List.map_cons]
      · intro h
        cases ids with
        | nil => simp at h
        | cons j ids =>
          simp only [List.map_cons, List.cons.injEq, Option.some.injEq] at h
          obtain ⟨rfl, h⟩ := h
          rw [(ih ids).2 h]
          rfl

/-- **C167** (device) The CPU is used exactly if it is asked for or there is no GPU; otherwise the GPUs listed, or all if none is listed; a
list is accepted exactly if all its parts are integers below the number of GPUs. -/
theorem C167_device (cpu avail : Bool) (n : ℕ) (gpus : Option (List (Option ℤ))) (d : Device) :
    configDevice cpu avail n gpus = .ok d ↔
      (d = .cpu ∧ (cpu = true ∨ avail = false)) ∨
      (¬ (cpu = true ∨ avail = false) ∧ d = .cuda none ∧ gpus = none) ∨
      (¬ (cpu = true ∨ avail = false) ∧ ∃ ids, d = .cuda (some ids) ∧ gpus = some (ids.map some) ∧ ∀ i ∈ ids, i < n) := by
  unfold configDevice
  by_cases hc : cpu = true ∨ avail = false
  · have : (cpu || !avail) = true := by simpa using hc
    rw [if_pos this]
    simp only [Except.ok.injEq, hc, and_true, not_true_eq_false, false_and, or_false]
    exact eq_comm
  · have : ¬ (cpu || !avail) = true := by simpa using hc
    rw [if_neg this]
    simp only [hc, and_false, false_or, not_false_eq_true, true_and]
    cases gpus with
    | none => simp [eq_comm]
    | some l =>
      simp only [reduceCtorEq, and_false, Option.some.injEq, false_or]
      constructor
      · intro h
        obtain ⟨ids, hi, h⟩ := ok_bind h
        obtain ⟨u, hu, h⟩ := ok_bind h
        cases h
        refine ⟨ids, rfl, (parseIds_ok l ids).1 hi, ?_⟩
        unfold checkIds at hu
        split at hu
        · rename_i ha
          simpa using ha
        · cases hu
      · rintro ⟨ids, rfl, hl, ha⟩
        rw [(parseIds_ok l ids).2 hl]
        simp only [bind, Except.bind]
        unfold checkIds
        rw [if_pos (by simpa using ha)]
        rfl

/-- **C167** (refused) A list is refused with a ValueError and nothing else. -/
theorem C167_refused (cpu avail : Bool) (n : ℕ) (gpus : Option (List (Option ℤ))) (e : Err) (h : configDevice cpu avail n gpus = .error e) :
    e = .value := by
  have hp : ∀ (l : List (Option ℤ)) e, parseIds l = .error e → e = .value := by
    intro l
    induction l with
    | nil => intro e h; cases h
    | cons x l ih =>
      intro e h
      cases x with
      | none => cases h; rfl
      | some i =>
        unfold parseIds at h
        cases hl : parseIds l with
        | ok r => rw [hl] at h; cases h
        | error e' => rw [hl] at h; cases h; exact ih _ hl
  unfold configDevice at h
  split at h
  · cases h
  · cases gpus with
    | none => cases h
    | some l =>
      simp only at h
      cases hl : parseIds l with
      | error e' => rw [hl] at h; cases h; exact hp _ _ hl
      | ok ids =>
        rw [hl] at h
        simp only [bind, Except.bind] at h
        unfold checkIds at h
        split at h
        · rename_i hc
          split at hc
          · cases hc
          · cases hc; cases h; rfl
        · cases h

/-- **C167** is violated: negative device numbers pass the check, although there is no such device. -/
theorem C167_violated_negative (n : ℕ) : configDevice false true n (some [some (-2)]) = .ok (.cuda (some [-2])) := by
  have h : ∀ i ∈ [(-2 : ℤ)], i < n := by intro i hi; simp at hi; omega
  exact (C167_device false true n _ _).2 (Or.inr (Or.inr ⟨by simp, [-2], rfl, rfl, h⟩))

example : configDevice false true 2 (some [some 1, some 0]) = .ok (.cuda (some [1, 0])) := by decide +kernel
example : configDevice false true 2 (some [some 2]) = .error .value := by decide +kernel

/-! ## Loss -/

/-- How many auxiliary outputs the networks of an architecture may have in training, and the weight of their losses; `none`: the
architecture may not return a tuple. -/
def auxOf (arch : String) : Option (ℕ × ℚ) :=
  if arch = "googlenet" then some (2, 3 / 10)
  else if arch ∈ ["inception_v3", "inceptionv3", "inceptionv4", "inceptionresnetv2"] then some (1, 4 / 10)
  else none

/-- **C168** (loss) The loss of a training step is the criterion of the network's output; for the Inception networks with auxiliary outputs it
is the criterion of the main (first) output plus the weighted criteria of the auxiliary ones.  Accuracy is measured on the main output. -/
theorem C168_loss {T : Type} (arch : String) (crit : T → ℚ) (o : NetOut T) (l : ℚ) (m : T) :
    stepLoss arch crit o = .ok (l, m) ↔
      (o = .single m ∧ l = crit m) ∨
      ∃ aux k w, o = .tuple (m :: aux) ∧ auxOf arch = some (k, w) ∧ aux.length = k ∧ l = crit m + w * (aux.map crit).sum := by
  cases o with
  | single t =>
    simp only [stepLoss, Except.ok.injEq, Prod.mk.injEq, NetOut.single.injEq, reduceCtorEq, false_and, exists_const, or_false]
    constructor
    · rintro ⟨rfl, rfl⟩; exact ⟨rfl, rfl⟩
    · rintro ⟨rfl, rfl⟩; exact ⟨rfl, rfl⟩
  | tuple ts =>
    simp only [reduceCtorEq, false_and, false_or, NetOut.tuple.injEq]
    unfold stepLoss
    simp only
    by_cases hg : arch = "googlenet"
    · subst hg
      have e1 : isInception "googlenet" = true := by decide
      have e2 : auxOf "googlenet" = some (2, 3 / 10) := by decide +kernel
      rw [e1, e2, if_pos rfl]
      constructor
      · intro h
        obtain ⟨x, hx, h⟩ := ok_bind h
        unfold inceptionLoss at hx
        rw [if_pos rfl] at hx
        split at hx
        · cases hx; cases h
          exact ⟨_, 2, 3 / 10, rfl, rfl, rfl, by simp only [List.map_cons, List.map_nil, List.sum_cons, List.sum_nil]; ring⟩
        · cases hx
      · rintro ⟨aux, k, w, rfl, he, hk, rfl⟩
        simp only [Option.some.injEq, Prod.mk.injEq] at he
        obtain ⟨rfl, rfl⟩ := he
        match aux, hk with
        | [a, b], _ =>
          simp only [inceptionLoss, if_true, bind, Except.bind, pure, Except.pure, Except.ok.injEq, Prod.mk.injEq, and_true,
            List.map_cons, List.map_nil, List.sum_cons, List.sum_nil]
          ring
    · by_cases hi : arch ∈ ["inception_v3", "inceptionv3", "inceptionv4", "inceptionresnetv2"]
      · have e1 : isInception arch = true := by
          unfold isInception
          simp only [List.mem_cons, List.not_mem_nil, or_false] at hi
          rcases hi with rfl | rfl | rfl | rfl <;> decide
        have e2 : auxOf arch = some (1, 4 / 10) := by unfold auxOf; rw [if_neg hg, if_pos hi]
        rw [e1, e2, if_pos rfl]
        constructor
        · intro h
          obtain ⟨x, hx, h⟩ := ok_bind h
          unfold inceptionLoss at hx
          rw [if_neg hg] at hx
          split at hx
          · cases hx; cases h
            exact ⟨_, 1, 4 / 10, rfl, rfl, rfl, by simp only [List.map_cons, List.map_nil, List.sum_cons, List.sum_nil]; ring⟩
          · cases hx
        · rintro ⟨aux, k, w, rfl, he, hk, rfl⟩
          simp only [Option.some.injEq, Prod.mk.injEq] at he
          obtain ⟨rfl, rfl⟩ := he
          match aux, hk with
          | [a], _ =>
            simp only [inceptionLoss, if_neg hg, bind, Except.bind, pure, Except.pure, Except.ok.injEq, Prod.mk.injEq, and_true,
              List.map_cons, List.map_nil, List.sum_cons, List.sum_nil]
            ring
      · have e1 : isInception arch = false := by
          unfold isInception
          simp only [List.mem_cons, List.not_mem_nil, or_false, not_or] at hi
          simp [hg, hi]
        have e2 : auxOf arch = none := by unfold auxOf; rw [if_neg hg, if_neg hi]
        rw [e1, e2]
        simp

example : stepLoss "googlenet" (fun x : ℚ => x) (.tuple [1, 2, 3]) = .ok (5 / 2, 1) := by decide +kernel
example : stepLoss "inception_v3" (fun x : ℚ => x) (.tuple [1, 2]) = .ok (9 / 5, 1) := by decide +kernel
example : stepLoss "inception_v3" (fun x : ℚ => x) (.tuple [1, 2, 3]) = .error .value := by decide +kernel
example : stepLoss "resnet18" (fun x : ℚ => x) (.tuple [1, 2]) = .error .attribute := by decide +kernel

end Verif
