import Verif.Model.ResultFiles
import Verif.Spec.SupExperiment

/-! Notions used in the properties of the files of the experiments. -/

namespace Verif.Spec

mutual
/-- The value with the numbers of Python instead of those of numpy, and with lists instead of arrays. -/
def plainVal : PyVal → PyVal
  | .npInt i => .num i
  | .npFloat _ q => .num q
  | .array l => .list (plainElems l)
  | .list l => .list (plainL l)
  | .dict l => .dict (plainD l)
  | .none => .none
  | .bool b => .bool b
  | .num q => .num q
  | .str s => .str s
  | .npBool b => .npBool b
  | .object => .object

/-- The elements of a list. -/
def plainL : List PyVal → List PyVal
  | [] => []
  | x :: l => plainVal x :: plainL l

/-- An element of an array: here a boolean of numpy is one of Python. -/
def plainElem : PyVal → PyVal
  | .npBool b => .bool b
  | .npInt i => .num i
  | .npFloat _ q => .num q
  | .array l => .list (plainElems l)
  | .list l => .list (plainL l)
  | .dict l => .dict (plainD l)
  | .none => .none
  | .bool b => .bool b
  | .num q => .num q
  | .str s => .str s
  | .object => .object

/-- The elements of an array. -/
def plainElems : List PyVal → List PyVal
  | [] => []
  | x :: l => plainElem x :: plainElems l

/-- The values of a dictionary. -/
def plainD : List (String × PyVal) → List (String × PyVal)
  | [] => []
  | (k, x) :: l => (k, plainVal x) :: plainD l
end

mutual
/-- A value that cannot be written: it contains an object, or a boolean of numpy that is not in an array; without the encoder for numpy (`np`), also an
integer of numpy, a number of single precision or an array. -/
inductive Unwritable (np : Bool) : PyVal → Prop
  | object : Unwritable np .object
  | npBool (b : Bool) : Unwritable np (.npBool b)
  | npInt (i : Int) : np = false → Unwritable np (.npInt i)
  | npFloat (q : ℚ) : np = false → Unwritable np (.npFloat false q)
  | array (l : List PyVal) : np = false → Unwritable np (.array l)
  | inArray {l : List PyVal} {x : PyVal} : x ∈ l → UnwritableElem np x → Unwritable np (.array l)
  | inList {l : List PyVal} {x : PyVal} : x ∈ l → Unwritable np x → Unwritable np (.list l)
  | inDict {l : List (String × PyVal)} {k : String} {x : PyVal} : (k, x) ∈ l → Unwritable np x → Unwritable np (.dict l)

/-- An element of an array that cannot be written. -/
inductive UnwritableElem (np : Bool) : PyVal → Prop
  | object : UnwritableElem np .object
  | inArray {l : List PyVal} {x : PyVal} : x ∈ l → UnwritableElem np x → UnwritableElem np (.array l)
  | inList {l : List PyVal} {x : PyVal} : x ∈ l → Unwritable np x → UnwritableElem np (.list l)
  | inDict {l : List (String × PyVal)} {k : String} {x : PyVal} : (k, x) ∈ l → Unwritable np x → UnwritableElem np (.dict l)
end

/-- A parameter in a file. -/
def paramJson : ParamValue → JVal
  | .num q => .num q
  | .bool b => .bool b
  | .str s => .str s

/-- A dictionary of parameters in a file. -/
def paramsJson (p : Params) : JVal := .dict (p.map fun kv => (kv.1, paramJson kv.2))

/-- The result of an evaluation in a file. -/
def episodeJson (elapsed : ℚ) (ep : Episode) : JVal :=
  .dict [("return", .num ep.ret), ("states", .list (ep.states.map fun (s : Nat) => .num (s : ℚ))), ("actions", .list (ep.actions.map fun (s : Nat) => .num (s : ℚ))),
    ("observations", .list (ep.observations.map fun (s : Nat) => .num (s : ℚ))), ("rewards", .list (ep.rewards.map .num)), ("elapsed-time", .num elapsed),
    ("simulator-calls", .num ep.calls)]

/-- The results of an experiment in a file. -/
def resultsJson (elapsed : Nat → ℚ) (warmup : ℚ) (r : ExpResults) : JVal :=
  .dict [("parameters", paramsJson r.parameters), ("t_warmup", .num warmup),
    ("evaluations", .list (r.evaluations.zipIdx.map fun x => episodeJson (elapsed x.2) x.1))]

/-- Distinct jobs have distinct configuration files, and none of them is a file of results. -/
def SeparateFiles (cfg : String → LabFile) (path : String) (names : List String) : Prop :=
  (∀ a ∈ names, ∀ b ∈ names, cfg a = cfg b → a = b) ∧ ∀ a ∈ names, ∀ b ∈ names, cfg a ≠ (path, b ++ ".json")

/-- The run of a job of a launcher that has the parameters `p`. -/
def jobRun (cls : ExpClass) (J : JobWorld) (p : Params) : Py ExpResults := cls.run J.world (cls.parameters (some p)) false

/-- The returns, times and numbers of calls of a run. -/
def summary (J : JobWorld) (r : ExpResults) : JobResults :=
  (r.evaluations.map fun ep => .num ep.ret, r.evaluations.zipIdx.map fun x => .num (J.elapsed x.2),
    r.evaluations.map fun ep => .num ep.calls)

/-- The mean of the returns of a run. -/
def meanReturn (r : ExpResults) : ℚ := (r.evaluations.map Episode.ret).sum / r.evaluations.length

/-- The files after the launcher has prepared the jobs and they have run, in an order of any kind. -/
def afterJobs (cls : ExpClass) (cfg : String → LabFile) (double : String → Bool) (J : String → JobWorld) (path : String) (l : Exps)
    (order : List String) (fs : LabFiles) : LabFiles :=
  runScripts cls cfg J path order (prepareAll cfg double (exps l) fs).2

end Verif.Spec
