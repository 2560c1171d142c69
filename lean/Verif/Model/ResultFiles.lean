import Verif.Model.Launchers
import Verif.Monad

/-!
# Model of the files of the experiments (`evaluation.py:164-167, 194-202, 222-266`, `lib/utils.py:12-22`)

* A file contains a value of JSON or is not readable; the texts are not modelled: `json.load` is assumed to read the value that `json.dump` has
  written, and JSON does not tell integers from floating-point numbers.
* The configuration file of a job is given by the class `Job` of `expjobs`, which is not part of the code: an arbitrary function of its name.  The
  results are in the directory of the experiment, in the file with the name of the job.
* The directories exist.  A job is a process of its own; jobs that run at the same time use different files.
* The measured times are arbitrary numbers.
-/

namespace Verif

/-- The values of Python in the dictionaries that are written. -/
inductive PyVal
  | none
  | bool (b : Bool)
  /-- an `int` or a `float` -/
  | num (q : ℚ)
  | str (s : String)
  /-- `np.integer` -/
  | npInt (i : Int)
  /-- `np.floating`; `np.float64` is a subclass of `float` -/
  | npFloat (double : Bool) (q : ℚ)
  | npBool (b : Bool)
  /-- `np.ndarray`, by its elements (or its rows) -/
  | array (l : List PyVal)
  | list (l : List PyVal)
  | dict (l : List (String × PyVal))
  /-- any other object -/
  | object

/-- The values of JSON. -/
inductive JVal
  | null
  | bool (b : Bool)
  | num (q : ℚ)
  | str (s : String)
  | list (l : List JVal)
  | dict (l : List (String × JVal))

mutual
/-- `json.dump`; with `np` the encoder is `NPEncoder`, `lib/utils.py:12-22`, whose `default` is called for the values that JSON does not have and
whose result is written. -/
def encode (np : Bool) : PyVal → Py JVal
  | .none => .ok .null
  | .bool b => .ok (.bool b)
  | .num q => .ok (.num q)
  | .str s => .ok (.str s)
  | .npInt i => if np then .ok (.num i) else .error .typeError
  | .npFloat double q => if double || np then .ok (.num q) else .error .typeError
  | .npBool _ => .error .typeError
  | .array l =>
      if np then
        match encodeElems np l with
        | .ok r => .ok (.list r)
        | .error e => .error e
      else .error .typeError
  | .list l =>
      match encodeL np l with
      | .ok r => .ok (.list r)
      | .error e => .error e
  | .dict l =>
      match encodeD np l with
      | .ok r => .ok (.dict r)
      | .error e => .error e
  | .object => .error .typeError

/-- The elements of a list. -/
def encodeL (np : Bool) : List PyVal → Py (List JVal)
  | [] => .ok []
  | x :: l =>
      match encode np x, encodeL np l with
      | .ok y, .ok r => .ok (y :: r)
      | .error e, _ => .error e
      | .ok _, .error e => .error e

/-- An element of an array after `tolist`, which makes numbers of Python of those of numpy; objects stay as they are. -/
def encodeElem (np : Bool) : PyVal → Py JVal
  | .none => .ok .null
  | .bool b => .ok (.bool b)
  | .num q => .ok (.num q)
  | .str s => .ok (.str s)
  | .npInt i => .ok (.num i)
  | .npFloat _ q => .ok (.num q)
  | .npBool b => .ok (.bool b)
  | .array l =>
      match encodeElems np l with
      | .ok r => .ok (.list r)
      | .error e => .error e
  | .list l =>
      match encodeL np l with
      | .ok r => .ok (.list r)
      | .error e => .error e
  | .dict l =>
      match encodeD np l with
      | .ok r => .ok (.dict r)
      | .error e => .error e
  | .object => .error .typeError

/-- The elements of an array. -/
def encodeElems (np : Bool) : List PyVal → Py (List JVal)
  | [] => .ok []
  | x :: l =>
      match encodeElem np x, encodeElems np l with
      | .ok y, .ok r => .ok (y :: r)
      | .error e, _ => .error e
      | .ok _, .error e => .error e

/-- The values of a dictionary. -/
def encodeD (np : Bool) : List (String × PyVal) → Py (List (String × JVal))
  | [] => .ok []
  | (k, x) :: l =>
      match encode np x, encodeD np l with
      | .ok y, .ok r => .ok ((k, y) :: r)
      | .error e, _ => .error e
      | .ok _, .error e => .error e
end

/-! ### What is written -/

/-- An integer of Python or of numpy. -/
def intVal (np : Bool) (i : Int) : PyVal := if np then .npInt i else .num i

/-- A number of Python or of numpy. -/
inductive NumKind
  | python
  | double
  | single
  deriving DecidableEq

/-- A floating-point number of Python or of numpy. -/
def floatVal (k : NumKind) (q : ℚ) : PyVal :=
  match k with
  | .python => .num q
  | .double => .npFloat true q
  | .single => .npFloat false q

/-- Which numbers of an evaluation come from numpy: for a key of the dictionary and a position in the list. -/
structure Kinds where
  int : String → Nat → Bool
  float : String → Nat → NumKind

/-- A parameter; those from `np.arange` are `np.float64`. -/
def paramVal (double : Bool) : ParamValue → PyVal
  | .num q => floatVal (if double then .double else .python) q
  | .bool b => .bool b
  | .str s => .str s

/-- A dictionary of parameters. -/
def paramsVal (double : String → Bool) (p : Params) : PyVal := .dict (p.map fun kv => (kv.1, paramVal (double kv.1) kv.2))

/-- A list of integers of an evaluation. -/
def intsVal (k : Nat → Bool) (l : List Nat) : PyVal := .list (l.zipIdx.map fun x => intVal (k x.2) x.1)

/-- The result of an evaluation, `evaluation.py:88-95`. -/
def episodeVal (k : Kinds) (elapsed : ℚ) (ep : Episode) : PyVal :=
  .dict [("return", floatVal (k.float "return" 0) ep.ret), ("states", intsVal (k.int "states") ep.states),
    ("actions", intsVal (k.int "actions") ep.actions), ("observations", intsVal (k.int "observations") ep.observations),
    ("rewards", .list (ep.rewards.zipIdx.map fun x => floatVal (k.float "rewards" x.2) x.1)), ("elapsed-time", .num elapsed),
    ("simulator-calls", intVal (k.int "simulator-calls" 0) ep.calls)]

/-- `self.results`, `evaluation.py:150-162`; the kinds and the elapsed time of every evaluation are given. -/
def resultsVal (kinds : Nat → Kinds) (elapsed : Nat → ℚ) (warmup : ℚ) (r : ExpResults) : PyVal :=
  .dict [("parameters", paramsVal (fun _ => false) r.parameters), ("t_warmup", .num warmup),
    ("evaluations", .list (r.evaluations.zipIdx.map fun x => episodeVal (kinds x.2) (elapsed x.2) x.1))]

/-! ### Files -/

/-- A file: its directory and its name. -/
abbrev LabFile := String × String

/-- The files: no file, a file that is no JSON, or a file with a value. -/
abbrev LabFiles := LabFile → Option (Option JVal)

/-- `with open(f, 'w') as fp: json.dump(v, fp)`; the file is not complete if the value cannot be written. -/
def writeJson (np : Bool) (f : LabFile) (v : PyVal) : M LabFiles Unit := fun fs =>
  match encode np v with
  | .ok j => (.ok (), fun g => if g = f then some (some j) else fs g)
  | .error e => (.error e, fun g => if g = f then some none else fs g)

/-- `json.load(open(f))`. -/
def readJson (f : LabFile) : M LabFiles JVal := fun fs =>
  match fs f with
  | some (some j) => (.ok j, fs)
  | some none => (.error .valueError, fs)
  | none => (.error .osError, fs)

/-- `d[key]`. -/
def JVal.get (key : String) : JVal → Py JVal
  | .dict l => match dget l key with
      | some v => .ok v
      | none => .error .keyError
  | _ => .error .typeError

/-- The elements of a list; other values are not iterated in the code. -/
def JVal.elems : JVal → Py (List JVal)
  | .list l => .ok l
  | _ => .error .typeError

/-- A value as a parameter; the values `null`, lists and dictionaries are not modelled. -/
def JVal.param : JVal → Py ParamValue
  | .num q => .ok (.num q)
  | .bool b => .ok (.bool b)
  | .str s => .ok (.str s)
  | _ => .error .typeError

/-- The entries of a dictionary of parameters. -/
def readParams : List (String × JVal) → Py Params
  | [] => .ok []
  | kv :: l => do
      let v ← kv.2.param
      let r ← readParams l
      .ok ((kv.1, v) :: r)

/-- A value as a dictionary of parameters, `evaluation.py:199-202`. -/
def JVal.params : JVal → Py Params
  | .dict l => readParams l
  | _ => .error .typeError

/-- `action_prepare`, `evaluation.py:259-262`; `cfg` is `self.jobs[name].config`, and `double` tells which parameters are `np.float64`. -/
def prepareAll (cfg : String → LabFile) (double : String → Bool) : Exps → M LabFiles Unit
  | [] => pure ()
  | e :: l => do
      writeJson false (cfg e.1) (paramsVal double e.2)
      prepareAll cfg double l

/-- What the run of a job depends on. -/
structure JobWorld where
  world : ExpWorld
  kinds : Nat → Kinds
  elapsed : Nat → ℚ
  warmup : ℚ

/-- The process of a job: `run_from_arguments`, `evaluation.py:203-226`, with `write_result`, `evaluation.py:166-167, 194-197`; the arguments are the
configuration file, the path and the name of the job. -/
def runScript (cls : ExpClass) (cfg : String → LabFile) (J : JobWorld) (path name : String) : M LabFiles Unit := do
  let c ← readJson (cfg name)
  let p ← M.lift c.params
  let x ← M.lift (cls.runFromArguments J.world (some p) (some path) (some name) false)
  match x.2 with
  | some f => writeJson true f (resultsVal J.kinds J.elapsed J.warmup x.1)
  | none => pure ()

/-- The jobs of a list of names are run; a job that raises an exception does not stop the others. -/
def runScripts (cls : ExpClass) (cfg : String → LabFile) (J : String → JobWorld) (path : String) : List String → LabFiles → LabFiles
  | [], fs => fs
  | name :: names, fs => runScripts cls cfg J path names (runScript cls cfg (J name) path name fs).2

/-- The results of a job: returns, times and numbers of calls. -/
abbrev JobResults := List JVal × List JVal × List JVal

/-- `get_results_from_one`, `evaluation.py:248-254`. -/
def resultsFromOne (path name : String) : M LabFiles JobResults := do
  let j ← readJson (path, name ++ ".json")
  let e ← M.lift (j.get "evaluations")
  let l ← M.lift e.elems
  let returns ← M.lift (l.mapM (JVal.get "return"))
  let times ← M.lift (l.mapM (JVal.get "elapsed-time"))
  let calls ← M.lift (l.mapM (JVal.get "simulator-calls"))
  pure (returns, times, calls)

/-- `get_results`, `evaluation.py:256-257`. -/
def getResults (path : String) : List String → M LabFiles (List (String × JobResults))
  | [] => pure []
  | name :: names => do
      let r ← resultsFromOne path name
      let rs ← getResults path names
      pure ((name, r) :: rs)

/-! ### Averages -/

/-- A list of numbers. -/
def asNumbers : List JVal → Py (List ℚ)
  | [] => .ok []
  | .num q :: l => do
      let r ← asNumbers l
      .ok (q :: r)
  | _ :: _ => .error .typeError

/-- `np.average(l)`, or `none` for `nan`. -/
def averageOf (l : List JVal) : Py (Option ℚ) := do
  let l ← asNumbers l
  .ok (if l = [] then none else some (l.sum / l.length))

/-- `results[name][0]`. -/
def returnsOf (results : List (String × JobResults)) (name : String) : Py (List JVal) :=
  match dget results name with
  | some r => .ok r.1
  | none => .error .keyError

/-- `print_results` of the multitask launcher, `samples/supportive_evaluation_multitask.py:38-46`: the averages for the tasks. -/
def printedAverages (results : List (String × JobResults)) : Py (List (List (Option ℚ))) :=
  multitaskTasks.mapM fun t => multitaskPolicies.mapM fun p => do
    let l ← returnsOf results (t ++ "-" ++ p)
    averageOf l

/-- The curve of `plot_var`, `utils/plot.py:93`: `np.mean(y, axis=1)`, whose rows must have the same length. -/
def plottedMeans (rows : List (List JVal)) : Py (List (Option ℚ)) :=
  match rows with
  | [] => .error .valueError
  | r :: _ => if rows.all fun x => x.length = r.length then rows.mapM averageOf else .error .valueError

end Verif
