import Verif.Model.PolicyPage
import Verif.Model.Htm

/-!
# The pages that display task trees, `visualization/htm` and `visualization/htm-ros-subscriber`

Both pages run `htm/htm.js`.  JavaScript and d3 are read as in `PolicyPage`; here the version of d3 is 3, whose `tree.nodes` lists the nodes in pre-order and
deletes an empty or `null` list `children`.  A file or a message has the value `nodes`, which is `none` for `null`; it is what `as_dictionary` gives
(`task.py:540-545`), so that a node has a name, an id, a combination, which can be `null`, and attributes.

The objects of a tree are changed in place: `children` and `_children` are swapped by a click, and the name is replaced at each update in which the node is
displayed.  Here the tree stays as it was read, and the page has the nodes whose list `children` is not `null`, given by their paths, and the number of
times each name has been cleaned, as a list of paths.  A user waits for the end of the transitions.  Positions are not modelled, nor is the page after an
exception.
-/

namespace Verif

/-- The children of a node; an empty list is like none. -/
def DNode.kids : DNode → List DNode
  | .mk _ _ _ _ _ none => []
  | .mk _ _ _ _ _ (some cs) => cs

/-- The entry `id`. -/
def DNode.key : DNode → Int
  | .mk _ i _ _ _ _ => i

/-- The entry `name`. -/
def DNode.title : DNode → List Char
  | .mk n _ _ _ _ _ => n.toList

/-- The entry `attributes`, joined by spaces. -/
def DNode.classes : DNode → List Char
  | .mk _ _ _ _ attrs _ => (" ".intercalate attrs).toList

/-- The entry `combination`. -/
def DNode.combination : DNode → Option String
  | .mk _ _ _ c _ _ => c

/-- `Cleanup names`, `htm/htm.js:142-148`. -/
def cleanName (s : List Char) : List Char :=
  jsReplace "FOOT_BRACKET".toList "bracket-foot".toList (jsReplace "Parallelized Subtasks of ".toList " ".toList
    (jsReplace " ARTIFACT".toList " ".toList (jsReplace "ARTIFACT-".toList " ".toList (jsReplace "-OF-OBJECT".toList " ".toList
      (jsReplace "REQUEST-ACTION".toList " ".toList s)))))

/-- The name after it has been cleaned some times. -/
def cleanTimes : Nat → List Char → List Char
  | 0, s => s
  | k + 1, s => cleanTimes k (cleanName s)

/-- The symbol of a combination, `htm/htm.js:207-212`. -/
def combSymbol (c : String) : List Char :=
  if c = "Parallel" then "||".toList
  else if c = "Sequential" then "→".toList
  else if c = "Alternative" then "v".toList
  else []

/-- The element of a node: its key, the text, the class, and the text of the symbol of the combination if there is one. -/
structure HtmBox where
  key : Int
  text : List Char
  cls : List Char
  comb : Option (List Char)
  deriving DecidableEq

mutual
/-- `tree.nodes(root)`, `htm/htm.js:136`, with the paths of the nodes; `op` tells whether the list `children` of a node is not `null`. -/
def htmNodes (op : List Nat → Bool) (p : List Nat) : DNode → List (List Nat × DNode)
  | .mk n i q c attrs none => [(p, .mk n i q c attrs none)]
  | .mk n i q c attrs (some cs) => (p, .mk n i q c attrs (some cs)) :: (if op p then htmNodesL op p 0 cs else [])
/-- The children number `k` and following of the node `p`. -/
def htmNodesL (op : List Nat → Bool) (p : List Nat) (k : Nat) : List DNode → List (List Nat × DNode)
  | [] => []
  | c :: cs => htmNodes op (p ++ [k]) c ++ htmNodesL op p (k + 1) cs
end

/-- `d._children` is not `null`. -/
def isCollapsed (op : List Nat → Bool) (x : List Nat × DNode) : Bool := !x.2.kids.isEmpty && !op x.1

/-- The class of a new element, `htm/htm.js:157-162`. -/
def newClass (op : List Nat → Bool) (x : List Nat × DNode) : List Char :=
  "node ".toList ++ x.2.classes ++ (if isCollapsed op x then " collapsed".toList else [])

/-- The symbol of a new element, `htm/htm.js:190-212`: only if its children are displayed. -/
def newComb (op : List Nat → Bool) (x : List Nat × DNode) : Option (List Char) :=
  if !x.2.kids.isEmpty && op x.1 then
    match x.2.combination with
    | none => none
    | some c => if c = "" then none else some (combSymbol c)
  else none

/-- A new element, `htm/htm.js:155-212`; `cl` are the paths of the cleaned names. -/
def newBox (op : List Nat → Bool) (cl : List (List Nat)) (x : List Nat × DNode) : HtmBox :=
  ⟨x.2.key, cleanTimes (cl.count x.1) x.2.title, newClass op x, newComb op x⟩

/-- `cl.indexOf(s) != -1`. -/
def occursIn (s : List Char) : List Char → Bool
  | [] => s.isEmpty
  | c :: l => s.isPrefixOf (c :: l) || occursIn s l

/-- The class of an element after an update, `htm/htm.js:218-229`. -/
def updClass (cls : List Char) (collapsed : Bool) : List Char :=
  if collapsed then (if occursIn " collapsed".toList cls then cls else cls ++ " collapsed".toList)
  else jsReplace " collapsed".toList [] cls

/-- The element of a node after an update: the one that has its key, or a new one, `htm/htm.js:150-239`.  The ids of the nodes are taken to be different. -/
def joinBox (op : List Nat → Bool) (cl : List (List Nat)) (old : List HtmBox) (x : List Nat × DNode) : HtmBox :=
  match old.find? fun b => decide (b.key = x.2.key) with
  | some b => { b with cls := updClass b.cls (isCollapsed op x) }
  | none => { newBox op cl x with cls := updClass (newClass op x) (isCollapsed op x) }

/-- The links of a node, `htm/htm.js:137`, `241-273`, as the ids of their sources and targets. -/
def htmLinks (op : List Nat → Bool) (x : List Nat × DNode) : List (Int × Int) := if op x.1 then x.2.kids.map fun c => (x.2.key, c.key) else []

/-- What a file or a message gives. -/
abbrev HtmContent := Option DNode

/-- The state of the page: the files, `defaultjsonfile`, `defaultjsondata`, where `none` is the empty string, `treedepth`, `root`, and the elements. -/
structure HtmPage where
  disk : List Char → Option HtmContent
  defaultFile : List Char
  data : Option HtmContent
  depth : Nat
  root : Option DNode
  opened : List Nat → Bool
  cleaned : List (List Nat)
  boxes : List HtmBox
  links : List (Int × Int)

/-- `update`, `htm/htm.js:132-281`. -/
def htmUpdate (d : DNode) (op : List Nat → Bool) (s : HtmPage) : HtmPage :=
  { s with
    root := some d
    opened := op
    cleaned := s.cleaned ++ (htmNodes op [] d).map Prod.fst
    boxes := (htmNodes op [] d).map (joinBox op (s.cleaned ++ (htmNodes op [] d).map Prod.fst) s.boxes)
    links := (htmNodes op [] d).flatMap (htmLinks op) }

/-- The nodes that `collapseLevel` leaves open, `htm/htm.js:299-307`. -/
def openAtLoad (depth : Nat) (p : List Nat) : Bool := decide (p = []) || decide (p.length < depth)

/-- A tree that was read, `htm/htm.js:106-114`, `121-129`. -/
def htmShow (d : DNode) (s : HtmPage) : HtmPage := htmUpdate d (openAtLoad s.depth) { s with cleaned := [] }

/-- `loadhtm` from a file, `htm/htm.js:98-117`: an exception if the file is missing, if `nodes` is `null` or if the root has no children. -/
def htmFromFile (c : Option HtmContent) (s : HtmPage) : Py HtmPage :=
  match c with
  | none => .error .osError
  | some none => .error .typeError
  | some (some d) => if d.kids.isEmpty then .error .typeError else .ok (htmShow d s)

/-- `loadhtm` from a message, `htm/htm.js:118-130`. -/
def htmFromData (c : HtmContent) (s : HtmPage) : Py HtmPage :=
  match c with
  | none => .error .typeError
  | some d => .ok (htmShow d s)

/-- `file.replace('C:\\fakepath\\', '')`, `htm/htm.js:87`. -/
def withoutFakePath (file : List Char) : List Char := jsReplace "C:\\fakepath\\".toList [] file

/-- `defaultjsonfile` after `htm/htm.js:84-85`. -/
def newDefault (file : List Char) (s : HtmPage) : List Char := if file = [] then s.defaultFile else file

/-- `loadhtm`, `htm/htm.js:82-130`. -/
def loadHtm (file : List Char) (s : HtmPage) : Py HtmPage :=
  match s.data with
  | some c => htmFromData c { s with defaultFile := newDefault file s }
  | none =>
      if withoutFakePath (newDefault file s) = [] then .ok { s with defaultFile := newDefault file s }
      else htmFromFile (s.disk (withoutFakePath (newDefault file s))) { s with defaultFile := newDefault file s }

/-- What happens: the files change; the user selects a file, refreshes, collapses or expands, `htm/htm.html:73-95`; a message arrives,
`htm-ros-subscriber/ros.js:56-61`; the user clicks on a node. -/
inductive HtmEvent where
  | disk (fs : List Char → Option HtmContent)
  | select (file : List Char)
  | refresh
  | collapse
  | expand
  | message (c : HtmContent)
  | click (p : List Nat)

/-- A click, `htm/htm.js:331-343`. -/
def htmClick (p : List Nat) (s : HtmPage) : HtmPage :=
  match s.root with
  | none => s
  | some d => htmUpdate d (fun q => if q = p then !s.opened q else s.opened q) s

/-- One event. -/
def htmEvent (s : HtmPage) : HtmEvent → Py HtmPage
  | .disk fs => .ok { s with disk := fs }
  | .select file => loadHtm file s
  | .refresh => loadHtm [] s
  | .collapse => loadHtm [] { s with depth := 3 }
  | .expand => loadHtm [] { s with depth := 2000 }
  | .message c => loadHtm [] { s with data := some c }
  | .click p => .ok (htmClick p s)

/-- The page before `loadhtm('')`: `htm/htm.js:2-4`, and for the other page `htm-ros-subscriber.html:104-105`. -/
def htmBlank (disk : List Char → Option HtmContent) (file : List Char) (depth : Nat) : HtmPage :=
  ⟨disk, file, none, depth, none, fun _ => false, [], [], []⟩

/-- A session from the opening of the page. -/
def htmSession (disk : List Char → Option HtmContent) (file : List Char) (depth : Nat) (evs : List HtmEvent) : Py HtmPage := do
  let s ← loadHtm [] (htmBlank disk file depth)
  evs.foldlM htmEvent s

end Verif
