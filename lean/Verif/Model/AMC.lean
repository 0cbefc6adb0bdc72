import Verif.Basic.Py
import Verif.Basic.Tensor
/-!
# Model of the AMC example: automatic compression under a compute budget
(examples/auto_compression/amc/environment.py, rewards.py, utils/net_wrapper.py)

The agent, the pruner's ranking and the evaluation are oracles; bookkeeping of compute and weights,
the clamping of actions, episodes, masks and checkpoints are modelled.
-/
namespace Verif

/-- A layer of the compressed network (net_wrapper.py:264-312): the number of multiply-accumulates
and weights still counted for it, and the layers whose size changes with it.  Dependencies are
stored as names and looked up by `name2layer` (229-233) at each use; here they are resolved to
layer numbers when the metadata is built. -/
structure NetLayer where
  name : String
  macs : ℚ
  vol : ℚ
  deps : List ℕ
  deriving DecidableEq, Repr

/-- `NetworkMetadata` (net_wrapper.py:190-261); the layer with number `i` is `layers[i]`. -/
structure NetMeta where
  layers : List NetLayer
  pruned : List ℕ
  dependent : List ℕ
  totalMacs : ℚ
  totalNnz : ℚ
  deriving DecidableEq, Repr

/-- What `get_network_details` finds for one layer in the network's graph. -/
structure LayerInfo where
  name : String
  macs : ℚ
  vol : ℚ
  prune : Bool
  deps : List String
  deriving DecidableEq, Repr

/-- `name2layer` (net_wrapper.py:229-233): the number of the only layer with this name. -/
def nameToId (infos : List LayerInfo) (n : String) : Except Err ℕ :=
  match (List.range infos.length).filter (fun i => (infos[i]?.map (·.name)) = some n) with
  | [i] => .ok i
  | _ => .error .value

/-- The layer with its dependencies resolved; only layers that are pruned have dependencies
(343-349). -/
def LayerInfo.resolve (infos : List LayerInfo) (l : LayerInfo) : Except Err NetLayer := do
  let deps ← (if l.prune then l.deps else []).mapM (nameToId infos)
  return ⟨l.name, l.macs, l.vol, deps⟩

/-- `convert_layer_names_to_indices` (351-359) on the set of dependency tuples: only the first name
of every tuple is looked up, and an empty tuple raises IndexError. -/
def dependentIds (infos : List LayerInfo) (tuples : List (List String)) : Except Err (List ℕ) :=
  if tuples.any (·.isEmpty) then .error .index
  else .ok (tuples.flatMap fun t =>
    (List.range infos.length).filter fun i => (infos[i]?.map (·.name)) = t.head?)

/-- `get_network_details` (net_wrapper.py:264-362) on the layers in topological order. -/
def NetMeta.build (infos : List LayerInfo) : Except Err NetMeta := do
  let layers ← infos.mapM (LayerInfo.resolve infos)
  let pruned := (List.range infos.length).filter fun i => (infos[i]?.map (·.prune)).getD false
  let dep ← dependentIds infos ((infos.filter (·.prune)).map (·.deps))
  return ⟨layers, pruned, dep, (layers.map (·.macs)).sum, (layers.map (·.vol)).sum⟩

/-- Dependencies of a layer. -/
def NetMeta.deps (m : NetMeta) (i : ℕ) : List ℕ := (m.layers[i]?.map (·.deps)).getD []

/-- `layer_net_macs` (net_wrapper.py:203-205). -/
def NetMeta.macs (m : NetMeta) (i : ℕ) : ℚ := (m.layers[i]?.map (·.macs)).getD 0

/-- `layer_macs` (net_wrapper.py:207-212): the layer and its dependents. -/
def NetMeta.layerMacs (m : NetMeta) (i : ℕ) : ℚ :=
  (m.deps i).foldl (fun acc d => acc + m.macs d) (m.macs i)

/-- Multiplying the size of one layer by `1 - r` (part of `reduce_layer_macs`); the totals, which
the code updates once at the end, are updated here at each layer. -/
def NetMeta.cut (r : ℚ) (m : NetMeta) (i : ℕ) : NetMeta :=
  match m.layers[i]? with
  | none => m
  | some l => { m with
      layers := m.layers.set i ⟨l.name, l.macs - l.macs * r, l.vol - l.vol * r, l.deps⟩
      totalMacs := m.totalMacs - l.macs * r
      totalNnz := m.totalNnz - l.vol * r }

/-- `reduce_layer_macs` (net_wrapper.py:214-227). -/
def NetMeta.reduceLayer (m : NetMeta) (i : ℕ) (r : ℚ) : NetMeta :=
  (m.deps i).foldl (NetMeta.cut r) (m.cut r i)

/-- `is_compressible` (net_wrapper.py:248-249). -/
def NetMeta.compressible (m : NetMeta) (i : ℕ) : Bool := i ∈ m.pruned ∨ i ∈ m.dependent

/-- First result of `rest_macs_raw` (environment.py:375-401): compressible layers after the current
one that do not depend on it. -/
def NetMeta.prunableRest (m : NetMeta) (i : ℕ) : ℚ :=
  (((List.range m.layers.length).filter fun j => i < j ∧ m.compressible j ∧ j ∉ m.deps i).map m.macs).sum

/-- Second result of `rest_macs_raw` (environment.py:375-401): all layers that are not compressible. -/
def NetMeta.nonPrunableRest (m : NetMeta) : ℚ :=
  (((List.range m.layers.length).filter fun j => ¬ m.compressible j).map m.macs).sum

/-- How agent outputs are turned into fractions (environment.py:216-224). -/
inductive AgentKind where
  | ppo | continuous | discrete
  deriving DecidableEq, Repr

/-- Configuration (amc.py:110-130). -/
structure AMCCfg where
  agent : AgentKind
  low : ℚ
  high : ℚ
  density : ℚ
  /-- protocol "mac-constrained" -/
  constrain : Bool
  saveAll : Bool
  deriving DecidableEq, Repr

/-- Conversion of the agent's output (environment.py:61-75, 211-219). -/
def AMCCfg.mapAction (cfg : AMCCfg) (a : ℚ) : ℚ :=
  match cfg.agent with
  | .ppo => a * ((cfg.high - cfg.low) / (3 - (-3))) + ((cfg.high - cfg.low) / 2 + cfg.low)
  | .continuous => min (max a cfg.low) cfg.high
  | .discrete => a / 10

/-- `mac_constrained_clamp_action` (rewards.py:59-81). -/
def AMCCfg.clamp (cfg : AMCCfg) (orig : ℚ) (m : NetMeta) (removed : ℚ) (i : ℕ) (a : ℚ) : Except Err ℚ :=
  let L := m.layerMacs i
  if ¬ (0 < L) then .error .assertion
  else if removed ≠ orig - m.totalMacs then .error .assertion
  else
    let rest := m.prunableRest i * min (9/10) cfg.high
    let duty := (1 - cfg.density) * orig - (removed + rest)
    .ok (min 1 (max a (duty / L)))

/-- Bookkeeping of `remove_structures` (net_wrapper.py:96-164): new metadata and the compute
sparsity.  `actual` is the structure sparsity of the mask the pruner makes for a given fraction
(0 if it makes none). -/
def NetMeta.removeStructures (m : NetMeta) (i : ℕ) (f : ℚ) (actual : ℚ → ℚ) : Except Err (NetMeta × ℚ) :=
  if i ∉ m.pruned then .error .value
  else if f < 0 then .error .value
  else if f = 0 then .ok (m, 0)
  else
    let f := if f = 1 then 9999/10000 else f
    let a := actual f
    if a = 0 then .ok (m, 0)
    else
      let m' := m.reduceLayer i a
      if m.macs i = 0 then .error .zeroDiv
      else if 1 - m'.macs i / m.macs i ≠ a then .error .assertion
      else .ok (m', a)

/-- What `finalize_episode` leaves behind (environment.py:425-477): the checkpoint with its
`creation_masks`, and the network it was made from. -/
structure EpisodeRecord where
  episode : ℕ
  reward : ℚ
  isBest : Bool
  written : Bool
  /-- the saved model was thinned -/
  thinned : Bool
  creationMasks : Option (List (ℕ × ℚ))
  /-- masks of the saved model's layers -/
  masks : List (ℕ × ℚ)
  totalMacs : ℚ
  deriving DecidableEq, Repr

/-- State of the environment (environment.py:81-112, 160-179); a mask is represented by its layer
and sparsity. -/
structure AMCEnv where
  md : NetMeta
  stateId : ℕ
  layerId : ℕ
  removed : ℚ
  history : List ℚ
  masks : List (ℕ × ℚ)
  thinned : Bool
  /-- `net_wrapper.sparsification_masks` -/
  savedMasks : Option (List (ℕ × ℚ))
  episode : ℕ
  best : Option ℚ
  records : List EpisodeRecord
  deriving DecidableEq, Repr

/-- What stays the same in a run: configuration, the original network, the pruner (episode, actions
so far, layer, fraction ↦ sparsity of the mask) and the evaluation of a compressed network. -/
structure AMCRun where
  cfg : AMCCfg
  orig : NetMeta
  prune : ℕ → List ℚ → ℕ → ℚ → ℚ
  reward : NetMeta → List ℚ → ℚ

/-- The assertion in `get_obs` (environment.py:303-315). -/
def AMCRun.obsOk (R : AMCRun) (m : NetMeta) (removed : ℚ) (i : ℕ) : Bool :=
  decide (removed / R.orig.totalMacs + m.macs i / R.orig.totalMacs +
    (m.prunableRest i + m.nonPrunableRest) / R.orig.totalMacs ≤ 1)

/-- `reset` (environment.py:160-179; net_wrapper.py:41-44). -/
def AMCRun.reset (R : AMCRun) (e : AMCEnv) : Except Err AMCEnv :=
  match R.orig.pruned[0]? with
  | none => .error .index
  | some i =>
    if R.obsOk R.orig 0 i then
      .ok { e with md := R.orig, stateId := 0, layerId := i, removed := 0, history := [], masks := [], thinned := false }
    else .error .assertion

/-- `math.isclose(a, b)` with the default tolerances. -/
def isClose (a b : ℚ) : Bool := decide (|a - b| ≤ 1/1000000000 * max |a| |b|)

/-- The test for a new best reward (environment.py:432); the best reward starts at minus infinity. -/
def AMCEnv.better (e : AMCEnv) (reward : ℚ) : Bool :=
  match e.best with
  | none => true
  | some b => decide (b < reward)

/-- The checkpoint written (or only named) at the end of an episode (environment.py:432-437, 460-477). -/
def AMCRun.record (R : AMCRun) (e : AMCEnv) (reward : ℚ) : EpisodeRecord :=
  ⟨e.episode, reward, e.better reward, e.better reward || R.cfg.saveAll, e.thinned, e.savedMasks, e.masks, e.md.totalMacs⟩

/-- `finalize_episode` and `save_checkpoint` (environment.py:425-477). -/
def AMCRun.finalize (R : AMCRun) (e : AMCEnv) (reward : ℚ) : AMCEnv :=
  { e with
    best := if e.better reward then some reward else e.best
    episode := e.episode + 1
    records := e.records ++ [R.record e reward] }

/-- The fraction passed to `remove_structures` (environment.py:213-229). -/
def AMCRun.fraction (R : AMCRun) (e : AMCEnv) (a : ℚ) : Except Err ℚ :=
  if R.cfg.constrain then R.cfg.clamp R.orig.totalMacs e.md e.removed e.layerId (R.cfg.mapAction a)
  else .ok (R.cfg.mapAction a)

/-- The pruning part of `step` (environment.py:231-270): state afterwards. -/
def AMCRun.pruneStep (R : AMCRun) (e : AMCEnv) (f : ℚ) : Except Err AMCEnv := do
  let L := e.md.layerMacs e.layerId
  let sid := e.stateId + 1
  let last : Bool := sid = e.md.pruned.length
  let x ← (if 0 < f then e.md.removeStructures e.layerId f (R.prune e.episode e.history e.layerId) else .ok (e.md, 0))
  let masks := if x.2 = 0 then e.masks else e.masks ++ [(e.layerId, x.2)]
  let thin : Bool := last ∧ x.2 ≠ 0
  if L = 0 then .error .zeroDiv
  else if isClose (x.1.layerMacs e.layerId / L) (1 - x.2) then
    .ok { e with md := x.1, stateId := sid, removed := e.removed + (e.md.totalMacs - x.1.totalMacs), history := e.history ++ [x.2], masks := masks, thinned := e.thinned || thin, savedMasks := if thin then some masks else e.savedMasks }
  else .error .assertion

/-- `step` (environment.py:203-301); intermediate rewards and fine-tuning are not modelled. -/
def AMCRun.step (R : AMCRun) (e : AMCEnv) (a : ℚ) : Except Err AMCEnv := do
  let f ← R.fraction e a
  let e' ← R.pruneStep e f
  if e'.stateId = e'.md.pruned.length then .ok (R.finalize e' (R.reward e'.md e'.history))
  else
    match e'.md.pruned[e'.stateId]? with
    | none => .error .index
    | some i => if R.obsOk e'.md e'.removed i then .ok { e' with layerId := i } else .error .assertion

/-- One episode: the agent resets the environment and acts until the episode is done. -/
def AMCRun.runEpisode (R : AMCRun) (e : AMCEnv) (actions : List ℚ) : Except Err AMCEnv := do
  let e ← R.reset e
  actions.foldlM R.step e

/-- The environment before the first episode (environment.py:81-112). -/
def AMCRun.start (R : AMCRun) : AMCEnv := ⟨R.orig, 0, 0, 0, [], [], false, none, 0, none, []⟩

/-- A whole search: one list of agent outputs per episode. -/
def AMCRun.search (R : AMCRun) (es : List (List ℚ)) : Except Err AMCEnv := es.foldlM R.runEpisode R.start

/-! ## Reward functions -/

/-- The protocols of `reward_factory` (rewards.py:24-35). -/
inductive AMCProtocol where
  | macConstrained | accuracyGuaranteed | experimental | harmonicMean | punishAgent
  deriving DecidableEq, Repr

/-- The reward functions (rewards.py:38-57, 84-107); `log` stands for `math.log`. -/
def AMCProtocol.reward (log : ℚ → ℚ) (orig density top1 total : ℚ) : AMCProtocol → ℚ
  | .macConstrained => top1 / 100
  | .accuracyGuaranteed => -(1 - top1 / 100) * log total
  | .experimental => if total / orig > density + 2/1000 then -3 - total / orig else top1 / 100 + 1
  | .harmonicMean => (1 + 1 ^ 2) * top1 / 100 * (total / orig) / (1 ^ 2 * (total / orig) + top1 / 100)
  | .punishAgent => if density ≥ total / orig then top1 / 100 else density - total / orig

end Verif
