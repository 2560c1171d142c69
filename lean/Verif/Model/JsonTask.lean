import Verif.Model.Htm

/-! Model of `task_models/json_to_htm.py` on files in which keys may be missing. -/

namespace Verif

/-- A node of a task file, as `build_htm` (`json_to_htm.py:9-28`) receives it from `json.load`: a dictionary in which any
of the six keys that are read may be absent (`none`).  `parent` and `combination` may be `null` (`some none`).
Simplification: the values that are present have the types of the files in the repository (strings, integers, lists of
strings, lists of nodes). -/
inductive JNode where
  | mk (name : Option String) (combination : Option (Option String)) (id : Option Int) (parent : Option (Option Int))
      (attributes : Option (List String)) (children : Option (List JNode))

mutual
/-- `build_htm`, `json_to_htm.py:9-28`.  The lookups of lines 11-14, 17 and 22 raise `KeyError` when the key is absent;
the key `children` is read only if `attributes` is empty. -/
def buildNode : JNode → Py (Htm BaseAction)
  | .mk (some name) (some _) (some id) (some parent) (some attributes) none =>
      if attributes ≠ [] then buildLeaf name id parent attributes else .error .keyError
  | .mk (some name) (some combination) (some id) (some parent) (some attributes) (some cs) =>
      if attributes ≠ [] then buildLeaf name id parent attributes
      else do
        let built ← buildNodes cs
        let k ← combinationOf combination
        mkComb k built (some id) parent name
  | .mk _ _ _ _ _ _ => .error .keyError
/-- The loop of `json_to_htm.py:22-24`. -/
def buildNodes : List JNode → Py (List (Htm BaseAction))
  | [] => .ok []
  | c :: cs => do
      let b ← buildNode c
      let bs ← buildNodes cs
      return b :: bs
end

/-- What is found at a path. -/
inductive TaskFile where
  /-- No file. -/
  | missing
  /-- A file that is not JSON. -/
  | malformed
  /-- A dictionary without the key `nodes`. -/
  | noNodes
  /-- `nodes` is `null`, as `HierarchicalTask.as_dictionary` (`task.py:540-545`) writes for the empty task. -/
  | nullNodes
  | nodes (root : JNode)

/-- `json_to_htm`, `json_to_htm.py:31-33`: `open` raises `OSError`, `json.load` `ValueError`, `j['nodes']` `KeyError` and
`None['name']` `TypeError`.  The result is the attribute `root` of the `HierarchicalTask` (`task.py:534-535`). -/
def jsonToHtm (files : String → TaskFile) (path : String) : Py (Option (Htm BaseAction)) :=
  match files path with
  | .missing => .error .osError
  | .malformed => .error .valueError
  | .noNodes => .error .keyError
  | .nullNodes => .error .typeError
  | .nodes root =>
      match buildNode root with
      | .ok t => .ok (some t)
      | .error e => .error e

mutual
/-- The node of a file that holds a complete description such as the ones written by `as_dictionary`
(`task.py:389-398, 411-417`). -/
def DNode.toJson : DNode → JNode
  | .mk n i p c a none => .mk (some n) (some c) (some i) (some p) (some a) none
  | .mk n i p c a (some cs) => .mk (some n) (some c) (some i) (some p) (some a) (some (DNode.toJsons cs))
/-- See `DNode.toJson`. -/
def DNode.toJsons : List DNode → List JNode
  | [] => []
  | c :: cs => c.toJson :: DNode.toJsons cs
end

/-- The file that `json.dump` of the second component of `taskAsDictionary` under the key `nodes` makes
(`task.py:540-545`). -/
def taskFileOf : Option DNode → TaskFile
  | none => .nullNodes
  | some d => .nodes d.toJson

end Verif
