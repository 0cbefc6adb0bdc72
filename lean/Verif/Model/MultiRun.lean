import Verif.Model.TransData
/-!
# Repeating an experiment on all GPUs
(examples/classifier_compression/multi-run.py 47-68)
-/
namespace Verif

/-- The line given to the shell (lines 49, 55-56): `argv` is `sys.argv[2:]`, `base` the seed that `argparse` finds in the arguments, 1000 by default
(lines 50-54).  Numbers are written in decimal digits. -/
def runCommand (argv : List (List Char)) (base : ℕ) (outdir : List Char) (id gpu : ℕ) : List Char :=
  "python3 ".toList ++ joinBlank argv ++ " --name=".toList ++ Nat.toDigits 10 id ++ " --gpus=".toList ++ Nat.toDigits 10 gpu ++
    " --seed=".toList ++ Nat.toDigits 10 (base + id) ++ " --out-dir=".toList ++ outdir

/-- The lines run by the pool (lines 58-68), in the order of the list: `Pool(processes=0)` is a `ValueError`.  The directory and the schedule are not modelled. -/
def multiRun (argv : List (List Char)) (base : ℕ) (outdir : List Char) (nGpus : ℕ) : Except Err (List (List Char)) :=
  if nGpus = 0 then .error .value
  else .ok ((List.range nGpus).map fun id => runCommand argv base outdir id (id % nGpus))

end Verif
