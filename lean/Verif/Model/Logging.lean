import Verif.Basic.Py
import Verif.Basic.Tensor
import Verif.Model.SchedulerState
import Verif.Model.Metrics
/-!
# Data loggers (`distiller/data_loggers/logger.py`, `tbbackend.py`, `distiller/utils.py:489-557`)

Modelled: `TBBackend.scalar_summary`, `list_summary`, `histogram_summary` (tbbackend.py:35-92) as records appended to the file of a
writer; `TensorBoardLogger.log_training_progress` (logger.py:141-150), `log_activation_statistic` (152-156), `log_weights_sparsity`
(158-173), `log_weights_distribution` (184-193); `CsvLogger.log_weights_sparsity` (241-259) and `log_model_buffers` (261-295);
`log_training_progress` (utils.py:489-515).  Text formatting is not modelled.
-/
namespace Verif

/-! ## TensorBoard -/

/-- Where a writer writes: the log directory itself or its sub-directory with that number. -/
inductive TBDir where
  | root
  | sub (i : ℕ)
  deriving DecidableEq, Repr

/-- A record: directory, tag, values (one for a scalar, all of them for a histogram) and step. -/
structure TBRec where
  dir : TBDir
  tag : String
  vals : List ℚ
  step : Int
  deriving DecidableEq, Repr

/-- `TBBackend`: its writers and what has been written. -/
structure TBack where
  writers : List TBDir
  recs : List TBRec
  deriving DecidableEq, Repr

/-- `TBBackend.__init__` (tbbackend.py:30-33). -/
def TBack.init : TBack := ⟨[.root], []⟩

/-- `self.writers[i].add_summary(...)`. -/
def TBack.write (b : TBack) (i : ℕ) (tag : String) (vals : List ℚ) (step : Int) : TBack :=
  match b.writers[i]? with
  | some d => { b with recs := b.recs ++ [⟨d, tag, vals, step⟩] }
  | none => b

/-- `scalar_summary` (tbbackend.py:35-41). -/
def TBack.scalar (b : TBack) (tag : String) (v : ℚ) (step : Int) : TBack := b.write 0 tag [v] step

/-- `histogram_summary` (tbbackend.py:62-92). -/
def TBack.histogram (b : TBack) (tag : String) (vals : List ℚ) (step : Int) : TBack := b.write 0 tag vals step

/-- One round of `list_summary` (tbbackend.py:56-60). -/
def TBack.listOne (tag : String) (step : Int) (multi : Bool) (b : TBack) (p : ℚ × ℕ) : TBack :=
  let b' := if multi && decide (p.2 + 1 > b.writers.length) then { b with writers := b.writers ++ [.sub p.2] } else b
  b'.write (if multi then p.2 else 0) tag [p.1] step

/-- `list_summary` (tbbackend.py:43-60). -/
def TBack.list (b : TBack) (tag : String) (l : List ℚ) (step : Int) (multi : Bool) : TBack :=
  l.zipIdx.foldl (TBack.listOne tag step multi) b

/-- `TensorBoardLogger.log_training_progress` (logger.py:141-150). -/
def TBack.progress (b : TBack) (pre : String) (stats : List (String × ℚ)) (epoch completed total : Int) : TBack :=
  stats.foldl (fun b s => b.scalar (pre ++ s.1) s.2 (total * epoch + completed)) b

/-- `log_activation_statistic` (logger.py:152-156). -/
def TBack.actStat (b : TBack) (phase stat : String) (vals : List (String × ℚ)) (epoch : Int) : TBack :=
  vals.foldl (fun b s => b.scalar (stat ++ "/activations/" ++ phase ++ "/" ++ s.1) s.2 epoch) b

/-- `log_weights_distribution` (logger.py:184-193).  Parameters come with their name (dots replaced by slashes) and whether the name
contains `weight`. -/
def TBack.distribution (b : TBack) (params : List (String × Bool × List ℚ)) (steps : Int) : TBack :=
  params.foldl (fun b p => if p.2.1 then b.histogram p.1 p.2.2 steps else b) b

/-- `log_training_progress` (utils.py:489-515) for a list of TensorBoard loggers.  `params`: the parameters (`none`: `None`);
`gen`: they are given as a generator (`model.named_parameters()`), which the first logger uses up. -/
def logProgress (loggers : List TBack) (pre : String) (stats : List (String × ℚ)) (params : Option (List (String × Bool × List ℚ)))
    (gen : Bool) (epoch completed total : Int) : List TBack :=
  loggers.zipIdx.map fun q =>
    let b := q.1.progress pre stats epoch completed total
    match params with
    | none => b
    | some ps => b.distribution (if gen && decide (q.2 > 0) then [] else ps) completed

/-! ## Sparsity -/

/-- A tensor of the `state_dict`: name, number of dimensions, values, and its `sparsity_2D`. -/
structure SDTensor where
  name : String
  dim : ℕ
  vals : Tensor
  sp2 : ℚ
  deriving DecidableEq, Repr

/-- `param.dim() in [2, 4]`. -/
def SDTensor.logged (t : SDTensor) : Bool := t.dim == 2 || t.dim == 4

/-- The number of non-zero elements. -/
def SDTensor.nnz (t : SDTensor) : ℕ := t.vals.countP fun x => |x| > 0

/-- The two records of a tensor (logger.py:167-170). -/
def TBack.sparsRecs (b : TBack) (t : SDTensor) (d : ℚ) (epoch : Int) : TBack :=
  (b.scalar ("sparsity/weights/" ++ t.name) ((1 - d) * 100) epoch).scalar ("sparsity-2D/weights/" ++ t.name) (t.sp2 * 100) epoch

/-- One round of the loop (logger.py:162-170): records, number of elements, number of non-zero elements. -/
def TBack.sparsOne (epoch : Int) (acc : TBack × ℚ × ℚ) (t : SDTensor) : Except Err (TBack × ℚ × ℚ) :=
  match density t.vals with
  | .error e => .error e
  | .ok d => .ok (acc.1.sparsRecs t d epoch, acc.2.1 + t.vals.length, acc.2.2 + t.vals.length * d)

/-- `TensorBoardLogger.log_weights_sparsity` (logger.py:158-173), exact arithmetic (an empty tensor raises in `density`). -/
def TBack.weightsSparsity (b : TBack) (sd : List SDTensor) (epoch : Int) : Except Err TBack := do
  let r ← (sd.filter SDTensor.logged).foldlM (TBack.sparsOne epoch) (b, 0, 0)
  if r.2.1 = 0 then throw .zeroDiv
  return r.1.scalar "sparsity/weights/total" (100 * (1 - r.2.2 / r.2.1)) epoch

/-- A row of `CsvLogger.log_weights_sparsity`: name, volume, sparse volume, sparsity level.  `fl` is the rounding of a floating-point
operation (`density` divides, logger.py:258 multiplies and truncates). -/
def csvRow (fl : ℚ → ℚ) (t : SDTensor) : String × ℕ × Int × ℚ :=
  (t.name, t.vals.length, ⌊fl (fl ((t.nnz : ℚ) / t.vals.length) * t.vals.length)⌋, (1 - fl ((t.nnz : ℚ) / t.vals.length)) * 100)

/-- `CsvLogger.log_weights_sparsity` (logger.py:241-259): the contents of the file, which is overwritten each time. -/
def csvSparsity (fl : ℚ → ℚ) (sd : List SDTensor) : Except Err (List (String × ℕ × Int × ℚ)) :=
  (sd.filter SDTensor.logged).mapM fun t => if t.vals.length = 0 then .error .zeroDiv else .ok (csvRow fl t)

/-! ## Buffers -/

/-- The value of an attribute of a module: `None`, a tensor, or a list of tensors. -/
inductive BufVal where
  | none
  | tensor (l : List ℚ)
  | list (l : List (List ℚ))
  deriving DecidableEq, Repr

/-- A line of a CSV file. -/
inductive CsvLine where
  | header
  | row (layer : Name) (epoch step total : Int) (vals : List ℚ)
  deriving DecidableEq, Repr

/-- The values written (logger.py:287-292). -/
def BufVal.flat : BufVal → Except Err (List ℚ)
  | .none => .error .attribute
  | .tensor l => .ok l
  | .list l => .ok l.flatten

/-- One call: the modules with their attributes, epoch, step, total. -/
structure BufCall where
  mods : List (Name × Dict String BufVal)
  epoch : Int
  step : Int
  total : Int

/-- Opening the file of a buffer (logger.py:272-278). -/
def openCsv (files : Dict String (List CsvLine)) (b : String) : Dict String (List CsvLine) :=
  match Dict.get? files b with
  | some _ => files
  | none => Dict.set files b [.header]

/-- One module and one buffer (logger.py:282-295). -/
def writeBuf (c : BufCall) (m : Name × Dict String BufVal) (files : Dict String (List CsvLine)) (b : String) :
    Except Err (Dict String (List CsvLine)) :=
  match Dict.get? m.2 b with
  | none => .ok files
  | some v =>
    match v.flat with
    | .error e => .error e
    | .ok vs => .ok (Dict.set files b ((Dict.get? files b).getD [] ++ [.row (normalizeName m.1 ++ [b]) c.epoch c.step c.total vs]))

/-- `CsvLogger.log_model_buffers` (logger.py:261-295). -/
def csvBuffers (names : List String) (files : Dict String (List CsvLine)) (c : BufCall) : Except Err (Dict String (List CsvLine)) :=
  c.mods.foldlM (fun fs m => names.foldlM (writeBuf c m) fs) (names.foldl openCsv files)

end Verif
