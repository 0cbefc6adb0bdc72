import Verif.Model.Training
import Verif.Model.CreateModel
/-!
# Setting up a session of the image classifier
(distiller/apputils/image_classifier.py: `_config_determinism` 338-357, `_config_compute_device` 360-378,
`create_activation_stats_collectors` 427-458, `save_collectors_data` 461-469, `load_data` 472-493, `load_datasets` 80-84,
`train_one_epoch` 109-124, `validate_one_epoch` 138-149, `test` 649-661, the loss of `train` 582-596 and
`inception_training_loss` 754-789; distiller/apputils/data_loaders.py 217-332; distiller/utils.py 661-680, 518-525;
distiller/data_loggers/collector.py 112-140, 965-974)
-/
namespace Verif

/-! ## Random generators -/

/-- The three global generators: torch's, Python's and numpy's. -/
structure Gens (G : Type) where
  torch : G
  py : G
  np : G
  deriving DecidableEq, Repr

/-- The global state that decides about reproducibility: the generators and the two cudnn flags. -/
structure Glob (G : Type) where
  gens : Gens G
  cudnnDet : Bool
  cudnnBench : Bool
  deriving DecidableEq, Repr

/-- The libraries' generators, not distiller code: the state made of a seed, and what the functions used draw.  numpy takes only seeds
in `[0, 2^32)` (ValueError otherwise); `random` takes any; torch takes every integer of 64 bits and is assumed to be given one. -/
structure RngLib (G : Type) where
  torchSeed : ℤ → G
  pySeed : ℤ → G
  npSeed : ℤ → G
  /-- `np.random.randint(1, 100000)` -/
  randint : G → ℕ × G
  randint_range : ∀ g, 1 ≤ (randint g).1 ∧ (randint g).1 < 100000
  /-- `np.random.permutation(n)`, and `np.random.shuffle` of a list of length `n` -/
  npPerm : G → ℕ → List ℕ × G
  npPerm_perm : ∀ g n, (npPerm g n).1.Perm (List.range n)
  /-- `torch.randperm(n)` -/
  torchPerm : G → ℕ → List ℕ × G
  torchPerm_perm : ∀ g n, (torchPerm g n).1.Perm (List.range n)

variable {G : Type}

/-- `np.random.seed`. -/
def npSeedE (L : RngLib G) (s : ℤ) : Except Err G := if 0 ≤ s ∧ s < 2 ^ 32 then .ok (L.npSeed s) else .error .value

/-- `set_seed` (utils.py:661-665). -/
def setSeed (L : RngLib G) (s : ℤ) (g : Glob G) : Except Err (Glob G) := do
  let np ← npSeedE L s
  return { g with gens := ⟨L.torchSeed s, L.pySeed s, np⟩ }

/-- `set_deterministic` (utils.py:668-680); `none` is the argument `None`. -/
def setDeterministic (L : RngLib G) (seed : Option ℤ) (g : Glob G) : Except Err (Glob G) := do
  let g ← setSeed L (seed.getD 0) g
  return { g with cudnnDet := true, cudnnBench := false }

/-- The arguments that `_config_determinism` reads and writes. -/
structure DetArgs where
  evaluate : Bool
  deterministic : Bool
  seed : Option ℤ
  deriving DecidableEq, Repr

/-- Lines 342-347: some seed is chosen; drawing one moves numpy's generator. -/
def chooseSeed (L : RngLib G) (det : Bool) (seed : Option ℤ) (g : Glob G) : ℤ × Glob G :=
  match seed with
  | some s => (s, g)
  | none =>
    if det then (0, g)
    else ((L.randint g.gens.np).1, { g with gens := { g.gens with np := (L.randint g.gens.np).2 } })

/-- `_config_determinism` (image_classifier.py:338-357): the arguments and the global state afterwards.  The seed that is logged is
`args.seed`. -/
def configDeterminism (L : RngLib G) (a : DetArgs) (g : Glob G) : Except Err (DetArgs × Glob G) := do
  let det := if a.evaluate then true else a.deterministic
  let c := chooseSeed L det a.seed g
  let a' : DetArgs := ⟨a.evaluate, det, some c.1⟩
  if det then do
    let g' ← setDeterministic L (some c.1) c.2
    return (a', g')
  else do
    let g' ← setSeed L c.1 c.2
    return (a', { g' with cudnnBench := true })

/-! ## Data loaders -/

/-- How a loader picks its samples (data_loaders.py:230-268): a new random subset each time, a fixed subset in a random order, or a
fixed subset in a fixed order. -/
inductive Sampling where
  | switching | fixedRandom | fixedSequential
  deriving DecidableEq, Repr

/-- A loader: whether it reads the training data set, the indices it picks from, how many it delivers, and the way; `initWorkers` says
that `worker_init_fn` is the deterministic one. -/
structure Loader where
  fromTrain : Bool
  src : List ℕ
  size : ℕ
  way : Sampling
  batch : ℕ
  initWorkers : Bool
  deriving DecidableEq, Repr

/-- `len(loader)`: the number of batches, `drop_last` being off (PyTorch's `DataLoader`). -/
def Loader.len (l : Loader) : ℕ := (l.size + l.batch - 1) / l.batch

/-- `bool(loader)`: Python takes the length. -/
def Loader.truthy (l : Loader) : Bool := decide (l.len ≠ 0)

/-- The indices delivered in one pass over the loader, with the state of torch's generator: the switching sampler (data_loaders.py:243-248),
PyTorch's `SubsetRandomSampler` and the sequential one (data_loaders.py:262-263). -/
def Loader.pass (L : RngLib G) (l : Loader) (g : Glob G) : List ℕ × Glob G :=
  match l.way with
  | .switching =>
    (((L.torchPerm g.gens.torch l.src.length).1.take l.size).map fun i => l.src.getD i 0,
      { g with gens := { g.gens with torch := (L.torchPerm g.gens.torch l.src.length).2 } })
  | .fixedRandom =>
    (((L.torchPerm g.gens.torch l.size).1).map fun i => l.src.getD i 0,
      { g with gens := { g.gens with torch := (L.torchPerm g.gens.torch l.size).2 } })
  | .fixedSequential => (l.src, g)

/-- The seed of worker `i` of a loader: PyTorch gives it the base seed drawn for this pass plus `i`; the deterministic
`worker_init_fn` then replaces it (data_loaders.py:217-222, its argument `seed` is never given). -/
def Loader.workerSeed (l : Loader) (base : ℤ) (i : ℕ) : ℤ := if l.initWorkers then 0 else base + i

/-- The arguments of `get_data_loaders`. -/
structure LoadArgs where
  batch : ℕ
  split : ℚ
  deterministic : Bool
  effTrain : ℚ
  effValid : ℚ
  effTest : ℚ
  fixed : Bool
  sequential : Bool
  deriving DecidableEq, Repr

/-- `_get_sampler` (data_loaders.py:276-285) and the loader around it.  With a fixed subset the picked indices are positions in the
list, not its elements (see C50). -/
def mkLoader (L : RngLib G) (a : LoadArgs) (fromTrain : Bool) (src : List ℕ) (eff : ℚ) (init : Bool) (g : Glob G) :
    Except Err (Loader × Glob G) := do
  let n ← subsetLength src eff
  if a.fixed then
    let p := L.npPerm g.gens.np src.length
    return (⟨fromTrain, p.1.take n, n, if a.sequential then .fixedSequential else .fixedRandom, a.batch, init⟩,
      { g with gens := { g.gens with np := p.2 } })
  else
    return (⟨fromTrain, src, n, .switching, a.batch, init⟩, g)

/-- The three loaders. -/
structure Loaders where
  train : Option Loader
  valid : Option Loader
  test : Loader
  deriving DecidableEq, Repr

/-- Lines 321-332: the validation loader, if there are validation samples; otherwise, and if that loader is empty, the test loader. -/
def validLoader (L : RngLib G) (a : LoadArgs) (src : List ℕ) (test : Loader) (g : Glob G) : Except Err (Loader × Glob G) :=
  if src = [] then .ok (test, g)
  else do
    let v ← mkLoader L a true src a.effValid a.deterministic g
    return (if v.1.truthy then v.1 else test, v.2)

/-- Lines 305-332: the training data set is shuffled and split. -/
def trainLoaders (L : RngLib G) (a : LoadArgs) (nTrain : ℕ) (test : Loader) (g : Glob G) : Except Err (Loaders × Glob G) := do
  let p := L.npPerm g.gens.np nTrain
  let g : Glob G := { g with gens := { g.gens with np := p.2 } }
  let vt := splitList p.1 a.split
  let t ← mkLoader L a true vt.2 a.effTrain a.deterministic g
  let v ← validLoader L a vt.1 test t.2
  return (⟨some t.1, some v.1, test⟩, v.2)

/-- `get_data_loaders` (data_loaders.py:288-332); the data sets are given by their sizes.  In deterministic mode `set_deterministic()` is
called without a seed (line 295).  The worker function is not given to the test loader (line 300-302). -/
def getDataLoaders (L : RngLib G) (a : LoadArgs) (testOnly : Bool) (nTrain nTest : ℕ) (g : Glob G) : Except Err (Loaders × Glob G) := do
  let g ← (if a.deterministic then setDeterministic L (some 0) g else .ok g)
  let t ← mkLoader L a false (List.range nTest) a.effTest false g
  if testOnly then return (⟨none, none, t.1⟩, t.2)
  else trainLoaders L a nTrain t.1 t.2

/-- What `load_data` returns: a list of loaders or, if it would have one element, that element; `none` is Python's `None`. -/
inductive LoadResult where
  | one (l : Option Loader)
  | many (ls : List (Option Loader))
  deriving DecidableEq, Repr

/-- Lines 487-493: the loaders with a flag, unpacked if there is one. -/
def pickLoaders (train val test : Bool) (ls : Loaders) : LoadResult :=
  let l := (if train then [ls.train] else []) ++ (if val then [ls.valid] else []) ++ (if test then [some ls.test] else [])
  match l with
  | [x] => .one x
  | l => .many l

/-- `load_data` (image_classifier.py:472-493). -/
def loadDataIC (L : RngLib G) (a : LoadArgs) (train val test : Bool) (nTrain nTest : ℕ) (g : Glob G) : Except Err (LoadResult × Glob G) := do
  let r ← getDataLoaders L a (!train && !val) nTrain nTest g
  return (pickLoaders train val test r.1, r.2)

/-- `bool` of a loader or `None`. -/
def truthyO : Option Loader → Bool
  | none => false
  | some l => l.truthy

/-- `load_datasets` (image_classifier.py:80-84): `none` before the first call. -/
def loadDatasets (L : RngLib G) (a : LoadArgs) (nTrain nTest : ℕ) (cur : Option Loaders) (g : Glob G) : Except Err (Loaders × Glob G) :=
  match cur with
  | some ls => if truthyO ls.train && truthyO ls.valid && ls.test.truthy then .ok (ls, g) else getDataLoaders L a false nTrain nTest g
  | none => getDataLoaders L a false nTrain nTest g

/-- The loaders used in successive epochs (image_classifier.py:109-111, 139-141, 185-190): each calls `load_datasets`; in between the
work of the epoch changes the global state (`work`, any function). -/
def epochLoaders (L : RngLib G) (a : LoadArgs) (nTrain nTest : ℕ) (work : ℕ → Loaders → Glob G → Glob G) :
    ℕ → Option Loaders → Glob G → Except Err (List Loaders)
  | 0, _, _ => .ok []
  | n + 1, cur, g => do
    let r ← loadDatasets L a nTrain nTest cur g
    let rest ← epochLoaders L a nTrain nTest work n (some r.1) (work n r.1 r.2)
    return r.1 :: rest

/-! ## A session -/

/-- `ClassifierCompressor(args)` and then a run (image_classifier.py:56-84): determinism is configured, the model is built (`build`, any
function of the arguments and the global state), the data is loaded, and the rest is any function of the model, the loaders and the
global state. -/
def icSession {M R : Type} (L : RngLib G) (a : DetArgs) (la : LoadArgs) (nTrain nTest : ℕ)
    (build : Glob G → M × Glob G) (run : M → Loaders → Glob G → R) (g : Glob G) : Except Err R := do
  let c ← configDeterminism L a g
  let m := build c.2
  let d ← loadDatasets L { la with deterministic := c.1.deterministic } nTrain nTest none m.2
  return run m.1 d.1 d.2

/-! ## Compute device -/

/-- `args.device` and `args.gpus` afterwards: `none` is `None`. -/
inductive Device where
  | cpu
  | cuda (ids : Option (List ℤ))
  deriving DecidableEq, Repr

/-- Line 369: `int` of each part of the list; `none` is a part that is not an integer. -/
def parseIds : List (Option ℤ) → Except Err (List ℤ)
  | [] => .ok []
  | none :: _ => .error .value
  | some i :: l => do
    let r ← parseIds l
    return i :: r

/-- Lines 373-376. -/
def checkIds (available : ℕ) (ids : List ℤ) : Except Err Unit :=
  if ids.all fun i => decide (i < available) then .ok () else .error .value

/-- `_config_compute_device` (image_classifier.py:360-378); `gpus` is the argument split at the commas. -/
def configDevice (cpu cudaAvailable : Bool) (available : ℕ) (gpus : Option (List (Option ℤ))) : Except Err Device :=
  if cpu || !cudaAvailable then .ok .cpu
  else match gpus with
    | none => .ok (.cuda none)
    | some l => do
      let ids ← parseIds l
      checkIds available ids
      return .cuda (some ids)

/-! ## The loss of a training step -/

/-- The output of a network in training mode. -/
inductive NetOut (T : Type) where
  | single (t : T)
  | tuple (ts : List T)
  deriving DecidableEq, Repr

/-- `inception_training_loss` (image_classifier.py:754-789); unpacking a tuple of the wrong length is a ValueError. -/
def inceptionLoss {T : Type} (arch : String) (crit : T → ℚ) (ts : List T) : Except Err ℚ :=
  if arch = "googlenet" then
    match ts with
    | [o, aux2, aux1] => .ok (crit o + 3 / 10 * crit aux1 + 3 / 10 * crit aux2)
    | _ => .error .value
  else
    match ts with
    | [o, aux] => .ok (crit o + 4 / 10 * crit aux)
    | _ => .error .value

/-- The loss and the output whose accuracy is measured in a training step without early exits (image_classifier.py:582-596).  The
criterion takes a tensor; given a tuple it raises (AttributeError for torch's cross entropy). -/
def stepLoss {T : Type} (arch : String) (crit : T → ℚ) (o : NetOut T) : Except Err (ℚ × T) :=
  match o with
  | .single t => .ok (crit t, t)
  | .tuple ts =>
    if isInception arch then do
      let l ← inceptionLoss arch crit ts
      match ts with
      | t :: _ => return (l, t)
      | [] => .error .index
    else .error .attribute

/-! ## Collectors of activation statistics -/

/-- A collector of activation statistics (collector.py:52-187), as far as starting and stopping go: its statistic and the number of hooks
it holds. -/
structure ActColl where
  stat : String
  hooks : ℕ
  deriving DecidableEq, Repr

/-- The collectors of one phase: a `missingdict`. -/
abbrev PhaseColl := Dict String ActColl

/-- The collectors of all phases. -/
abbrev ActColls := Dict String PhaseColl

/-- `genCollectors` (image_classifier.py:444-454). -/
def genColls : PhaseColl :=
  [("sparsity_ofm", ⟨"sparsity_ofm", 0⟩), ("l1_channels", ⟨"l1_channels", 0⟩), ("apoz_channels", ⟨"apoz_channels", 0⟩),
   ("mean_channels", ⟨"mean_channels", 0⟩), ("records", ⟨"statistics_records", 0⟩)]

/-- `create_activation_stats_collectors` (image_classifier.py:427-458); the argument `None` is no phase. -/
def createColls (phases : List String) : ActColls :=
  ["train", "valid", "test"].map fun k => (k, if k ∈ phases then genColls else [])

/-- `reset().start()` of the collectors in order (collector.py:970-971, 112-122): `start` asserts that there are no hooks; `elig` tells how
many modules each statistic is collected for. -/
def startAll (elig : String → ℕ) : PhaseColl → PhaseColl × Except Err Unit
  | [] => ([], .ok ())
  | (k, c) :: cs =>
    if c.hooks ≠ 0 then ((k, c) :: cs, .error .assertion)
    else ((k, { c with hooks := elig c.stat }) :: (startAll elig cs).1, (startAll elig cs).2)

/-- `stop` of every collector (collector.py:973-974, 133-140). -/
def stopAll (cs : PhaseColl) : PhaseColl := cs.mapVals fun _ c => { c with hooks := 0 }

/-- What is seen of a run of a phase: the collectors holding hooks on the model while it runs, what is given to
`log_activation_statistic`, and the files that are saved. -/
structure PhaseEvent where
  hooked : List (String × String)
  logged : Option String
  saved : List String
  deriving DecidableEq, Repr

/-- The collectors with hooks on the model. -/
def hookedColls (all : ActColls) : List (String × String) :=
  all.flatMap fun pc => (pc.2.filter fun kc => kc.2.hooks ≠ 0).map fun kc => (pc.1, kc.1)

/-- The body of the `with` statement of a phase (image_classifier.py:113-122, 142-147, 657-660) when its computation does not raise:
`collectors["sparsity"]` is logged, which is `None` where there is no such key, and `None` is not logged (utils.py:518-525); for
validation and test the collectors are saved. -/
def phaseBody (all : ActColls) (phase : String) (cs : PhaseColl) : PhaseEvent :=
  ⟨hookedColls all, (Dict.get? cs "sparsity").map ActColl.stat, if phase = "train" then [] else cs.map Prod.fst⟩

/-- One run of a phase under `collectors_context` (collector.py:964-974); `raises` says that its computation raises (the exception is
called a RuntimeError here).  There is no `try … finally`: then the collectors are not stopped. -/
def runPhase (elig : String → ℕ) (all : ActColls) (phase : String) (raises : Bool) : ActColls × Except Err PhaseEvent :=
  let cs := (Dict.get? all phase).getD []
  let st := startAll elig cs
  match st.2 with
  | .error e => (Dict.set all phase st.1, .error e)
  | .ok _ =>
    if raises then (Dict.set all phase st.1, .error .runtime)
    else (Dict.set all phase (stopAll st.1), .ok (phaseBody (Dict.set all phase st.1) phase st.1))

/-- Phases run one after the other, the caller going on after an exception. -/
def runPhases (elig : String → ℕ) : ActColls → List (String × Bool) → ActColls × List (Except Err PhaseEvent)
  | all, [] => (all, [])
  | all, (p, r) :: rest =>
    let s := runPhase elig all p r
    let t := runPhases elig s.1 rest
    (t.1, s.2 :: t.2)

end Verif
