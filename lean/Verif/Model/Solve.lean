import Verif.Model.GraphPolicy
import Verif.Monad

/-!
# Model of `POMDP.solve` and of the files (`lib/pomdp.py:290-294, 307-327, 335-379, 420-439`, `lib/py23.py:4-20`)

* The disk has directories, each given by the list of the names on its path, and files with a text; a file has a directory and a name.  Other
  reasons for which files cannot be read or written (such as permissions), and the encoding of the texts, are not modelled.
* The external program is an arbitrary function of its command, of its directory and of the disk; it returns its exit code, or the exception raised
  when it cannot be started, and the disk that it leaves.  What it prints is not modelled.
* `tempfile.mkdtemp` returns an arbitrary directory, and `np.random.randint(1.e10)` an arbitrary number.
* `json.dumps` and `json.loads` are arbitrary functions; the theorems that need it assume that they are inverse of each other on the dictionaries.
-/

namespace Verif

/-- A file: its directory and its name. -/
structure FilePath where
  dir : List String
  name : String
  deriving DecidableEq

/-- The disk. -/
structure Disk where
  dirs : List String → Bool
  files : FilePath → Option (List Char)

/-- A call of an external program. -/
structure Call where
  program : String
  args : List String
  cwd : List String
  quiet : Bool

/-- The disk, and the calls of external programs so far, each with the disk at that time. -/
structure World where
  disk : Disk
  calls : List (Call × Disk)

/-- The file gets a new text. -/
def Disk.write (x : Disk) (f : FilePath) (t : List Char) : Disk := { x with files := fun g => if g = f then some t else x.files g }

/-- `os.mkdir`. -/
def Disk.mkdir (x : Disk) (d : List String) : Disk := { x with dirs := fun e => if e = d then true else x.dirs e }

/-- `shutil.rmtree`. -/
def Disk.rmtree (x : Disk) (d : List String) : Disk :=
  { dirs := fun e => if d.isPrefixOf e then false else x.dirs e, files := fun f => if d.isPrefixOf f.dir then none else x.files f }

/-- The text of a path. -/
def FilePath.text (f : FilePath) : String := "/" ++ "/".intercalate (f.dir ++ [f.name])

/-- The lines of a text, with their ends, as they are read by `for line in file`. -/
def fileLines : List Char → List (List Char)
  | [] => []
  | c :: t =>
      if c = '\n' then ['\n'] :: fileLines t
      else
        match fileLines t with
        | [] => [[c]]
        | l :: ls => (c :: l) :: ls

/-- `open(f, 'w')`: the file is emptied. -/
def openWrite (f : FilePath) : M World Unit := fun w =>
  if w.disk.dirs f.dir then (.ok (), { w with disk := w.disk.write f [] }) else (.error .osError, w)

/-- `f.write(t)` on a file that has just been opened. -/
def writeText (f : FilePath) (t : List Char) : M World Unit := M.modify fun w => { w with disk := w.disk.write f t }

/-- Reading a file. -/
def readText (f : FilePath) : M World (List Char) := fun w =>
  match w.disk.files f with
  | none => (.error .osError, w)
  | some t => (.ok t, w)

/-- `with TemporaryDirectory() as tmpdir`, `lib/py23.py:4-20`: the directory is removed in any case. -/
def withTemp {α : Type} (mkdtemp : Py (List String)) (body : List String → M World α) : M World α := fun w =>
  match mkdtemp with
  | .error e => (.error e, w)
  | .ok d =>
      let r := body d { w with disk := w.disk.mkdir d }
      (r.1, { r.2 with disk := r.2.disk.rmtree d })

/-- What the methods take from outside. -/
structure Machine where
  solver : Call → Disk → Py Int × Disk
  mkdtemp : Py (List String)
  randint : Int
  fromstring : List Char → List ℚ
  fmt : ℚ → String
  strNum : ℚ → String

/-- `subprocess.check_call`. -/
def checkCall (solver : Call → Disk → Py Int × Disk) (c : Call) : M World Unit := fun w =>
  let r := solver c w.disk
  let w' : World := { disk := r.2, calls := w.calls ++ [(c, w.disk)] }
  match r.1 with
  | .error e => (.error e, w')
  | .ok code => if code = 0 then (.ok (), w') else (.error .calledProcessError, w')

/-- `dump_to`, `lib/pomdp.py:290-294`. -/
def Pomdp.dumpTo (mach : Machine) (p : Pomdp) (d : List String) (name : String) : M World FilePath := do
  let f : FilePath := ⟨d, name ++ ".pomdp"⟩
  openWrite f
  let t ← M.lift (p.dump mach.fmt mach.strNum)
  writeText f t.toList
  return f

/-- `load_policy_from`, `lib/pomdp.py:366-379`; the second file is read after the first one has been parsed. -/
def Pomdp.loadFrom (mach : Machine) (p : Pomdp) (d : List String) (name : String) : M World GraphPolicy := do
  let alpha ← readText ⟨d, name ++ ".alpha"⟩
  let _ ← M.lift (parseValueFunction mach.fromstring (fileLines alpha))
  let pg ← readText ⟨d, name ++ ".pg"⟩
  M.lift (p.loadPolicy mach.fromstring (fileLines alpha) (fileLines pg))

/-- The options of the solver but the files, `lib/pomdp.py:342-354`.  (Numbers are integers.) -/
def solveArgs (randint : Int) (timeout nIterations : Option Int) (method : String) (gridType : Option String) (seed : Option Int) : List String :=
  (match timeout with
    | none => []
    | some t => ["-time_limit", String.ofList (showInt t)]) ++
  (match nIterations with
    | none => []
    | some n => ["-horizon", String.ofList (showInt n)]) ++
  ["-rand_seed", String.ofList (showInt (seed.getD randint))] ++
  (if method = "grid" then ["-method", method, "-fg_type", gridType.getD "simplex"] else [])

/-- `solve`, `lib/pomdp.py:335-364`. -/
def Pomdp.solve (mach : Machine) (p : Pomdp) (timeout nIterations : Option Int) (method : String) (gridType : Option String) (seed : Option Int)
    (verbose : Bool) : M World GraphPolicy :=
  let args := solveArgs mach.randint timeout nIterations method gridType seed
  withTemp mach.mkdtemp fun d => do
    let f ← p.dumpTo mach d "tosolve"
    checkCall mach.solver ⟨p.solverPath, args ++ ["-o", "tosolve", "-pomdp", f.text], d, !verbose⟩
    p.loadFrom mach d "tosolve"

/-! ### JSON files -/

/-- `json.dump` and `json.load` on some dictionaries; the first argument of `dumps` is the indentation. -/
structure Json (D : Type) where
  dumps : Option Nat → D → List Char
  loads : List Char → Py D

/-- `with open(path, 'w') as fp: json.dump(d, fp, indent=indent)`, `lib/pomdp.py:310-312, 423-425`. -/
def saveJson {D : Type} (j : Json D) (f : FilePath) (indent : Option Nat) (d : D) : M World Unit := do
  openWrite f
  writeText f (j.dumps indent d)

/-- `GraphPolicy.save_as_json`, `lib/pomdp.py:423-425`. -/
def GraphPolicy.saveAsJson (j : Json GraphDict) (g : GraphPolicy) (f : FilePath) (indent : Option Nat) : M World Unit := saveJson j f indent g.toDict

/-- `GraphPolicy.load_from_json`, `lib/pomdp.py:436-439`. -/
def GraphPolicy.loadFromJson (j : Json GraphDict) (f : FilePath) : M World GraphPolicy := do
  let t ← readText f
  let d ← M.lift (j.loads t)
  M.lift (GraphPolicy.fromDict d)

/-- `GraphPolicy.to_json`, `lib/pomdp.py:420-421`. -/
def GraphPolicy.toJson (j : Json GraphDict) (g : GraphPolicy) (indent : Option Nat) : List Char := j.dumps indent g.toDict

/-- `GraphPolicy.from_json`, `lib/pomdp.py:432-434`. -/
def GraphPolicy.fromJson (j : Json GraphDict) (t : List Char) : Py GraphPolicy := do
  let d ← j.loads t
  GraphPolicy.fromDict d

/-- `POMDP.save_as_json`, `lib/pomdp.py:310-312`. -/
def Pomdp.saveAsJson (j : Json PomdpDict) (p : Pomdp) (f : FilePath) : M World Unit := saveJson j f none p.toDict

/-- `POMDP.load_from_json`, `lib/pomdp.py:324-327`; `solver` is the program that is found, as in `Pomdp.fromDict`. -/
def Pomdp.loadFromJson (j : Json PomdpDict) (solver : Option String) (f : FilePath) : M World Pomdp := do
  let t ← readText f
  let d ← M.lift (j.loads t)
  M.lift (Pomdp.fromDict solver d)

end Verif
