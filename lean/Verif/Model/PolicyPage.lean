import Verif.Model.GraphPolicy

/-!
# The page that displays policies, `visualization/policy`

JavaScript is read as follows.  An access to an attribute or a method that does not exist, of `undefined` or of a number, is a `TypeError`.  The functions of
the library d3 (version 3) do what its documentation says: `max` ignores `null` and `undefined`; a selection with data has one element for each datum, in
order.  The positions computed by the layout, the animation, dragging and zooming are not modelled.  Strings are lists of characters.
-/

namespace Verif

/-- `s.replace(old, new)` in JavaScript, for two strings: the first occurrence only.  (The strings `new` of the pages have no `$`.) -/
def jsReplace (old new : List Char) : List Char → List Char
  | [] => if old = [] then new else []
  | c :: s => if old.isPrefixOf (c :: s) then new ++ (c :: s).drop old.length else c :: jsReplace old new s

/-- The label of an action, `policy/policy.js:63-70`, `trajectories/trajectories.js:93-100`. -/
def pageAction (s : List Char) : List Char :=
  jsReplace "-central-frame".toList "CF".toList (jsReplace "-right-leg".toList "RL".toList (jsReplace "-left-leg".toList "LL".toList
    (jsReplace "-snap".toList " Snap".toList (jsReplace "-get".toList " Get".toList (jsReplace "com-".toList "C ".toList
      (jsReplace "phy".toList "P ".toList (jsReplace "intention".toList "int".toList s)))))))

/-- The text of a string or of a number. -/
def nameText : Name → List Char
  | .int n => showNat n
  | .str s => s.toList

/-- The elements of `nodes`, `policy/policy.js:61-78`, without the positions. -/
structure PageNode where
  name : List Char
  id : Nat
  initial : Bool
  deriving DecidableEq

/-- One iteration of the loop on the actions, `policy/policy.js:63-77`: a number has no method `replace`.  `i == json.initial` compares a number and a
string: the string is converted, which for the texts of integers is what `int` does. -/
def pageNode (initial : List Char) (i : Nat) : Name → Py PageNode
  | .int _ => .error .typeError
  | .str s => .ok ⟨'[' :: showNat i ++ (']' :: ' ' :: pageAction s.toList), i, decide (pyInt initial = .ok (i : Int))⟩

/-- The loop on the actions, `policy/policy.js:61-78`. -/
def pageNodes (d : GraphDict) : Py (List PageNode) := d.actions.zipIdx.mapM fun x => pageNode d.initial x.2 x.1

/-- One step of `d3.max`. -/
def d3MaxStep : Option Int → Option Int → Option Int
  | none, b => b
  | some a, none => some a
  | some a, some b => if b > a then some b else some a

/-- `d3.max`: `none` is `undefined`. -/
def d3Max (l : List (Option Int)) : Option Int := l.foldl d3MaxStep none

/-- The check of the transitions, `policy/policy.js:52-59`: `undefined > n` is false. -/
def tooManyNodes (d : GraphDict) : Bool :=
  match d3Max (d.transitions.map d3Max) with
  | none => false
  | some m => decide (m > (d.actions.length : Int) - 1)

/-- The elements of `links`, `policy/policy.js:89-98`. -/
structure PageLink where
  source : List Char
  target : List Char
  obs : Name
  deriving DecidableEq

/-- `nodes[t].name`. -/
def pageName (nodes : List PageNode) (t : Int) : Py (List Char) :=
  if t < 0 then .error .typeError
  else match nodes[t.toNat]? with
    | none => .error .typeError
    | some n => .ok n.name

/-- The body of the loops on the transitions, `policy/policy.js:85-100`. -/
def pageCell (showDone : Bool) (nodes : List PageNode) (i : Nat) (o : Name) : Option Int → Py (List PageLink)
  | none => .ok []
  | some t =>
      if showDone = false ∧ o = .str "done" then .ok []
      else do
        let s ← pageName nodes i
        let e ← pageName nodes t
        return [⟨s, e, o⟩]

/-- The loop on the observations, `policy/policy.js:83-101`. -/
def pageRow (showDone : Bool) (d : GraphDict) (nodes : List PageNode) (i : Nat) : Py (List PageLink) := do
  let cells ← (List.range d.observations.length).mapM fun j =>
    pageCell showDone nodes i (d.observations.getD j (.int 0)) ((d.transitions.getD i []).getD j none)
  return cells.flatten

/-- The loops on the transitions, `policy/policy.js:81-102`. -/
def pageLinks (showDone : Bool) (d : GraphDict) (nodes : List PageNode) : Py (List PageLink) := do
  let rows ← (List.range d.transitions.length).mapM fun i => pageRow showDone d nodes i
  return rows.flatten

/-- `nodeByName.get(name)`, `policy/policy.js:104`: the map keeps the last node of each name. -/
def nodeByName (nodes : List PageNode) (name : List Char) : Option PageNode := nodes.reverse.find? fun n => decide (n.name = name)

/-- The reference to the marker of an arrow, `policy/policy.js:133-137`. -/
def arrowMarker (o : Name) : List Char :=
  if o = .str "yes" ∨ o = .str "no" ∨ o = .str "error" ∨ o = .str "none" then "arrowhead_".toList ++ nameText o else "arrowhead".toList

/-- The elements of `bilinks` and the attributes of the arrows that are drawn for them, `policy/policy.js:107-137`: the start and the end, the position in
`nodes` of the intermediate node, the classes and the marker. -/
structure PageArrow where
  source : Option PageNode
  via : Nat
  target : Option PageNode
  obs : Name
  cls : List Char
  marker : List Char
  deriving DecidableEq

/-- The loop on the links, `policy/policy.js:107-114`, and the drawing, `policy/policy.js:129-137`.  `forEach` does not visit the links added by the loop. -/
def pageArrows (nodes : List PageNode) (links : List PageLink) : List PageArrow :=
  links.zipIdx.map fun x => ⟨nodeByName nodes x.1.source, nodes.length + x.2, nodeByName nodes x.1.target, x.1.obs, "link ".toList ++ nameText x.1.obs,
    arrowMarker x.1.obs⟩

/-- The color of an observation in the legend, `policy/policy.js:233-239`. -/
def legendColor (o : Name) : String :=
  if o = .str "none" then "#3c3c3c"
  else if o = .str "yes" then "#5CB85C"
  else if o = .str "no" then "#3894F0"
  else if o = .str "error" then "#D9534F"
  else "#bbb"

/-- The colors of the markers, `policy/policy.js:266-323`. -/
def markerColor (id : List Char) : Option String :=
  if id = "arrowhead".toList then some "#bbb"
  else if id = "arrowhead_none".toList then some "#3c3c3c"
  else if id = "arrowhead_yes".toList then some "#5CB85C"
  else if id = "arrowhead_no".toList then some "#3894F0"
  else if id = "arrowhead_error".toList then some "#D9534F"
  else none

/-- The color of the line of an arrow with the given value of the attribute `class`, `policy/style.css:121-141`: the last rule that applies wins.  The
classes are separated by spaces (other white space is not considered). -/
def strokeColor (cls : List Char) : Option String :=
  let c := splitOn ' ' cls
  if "link".toList ∈ c then
    if "error".toList ∈ c then some "#D9534F"
    else if "no".toList ∈ c then some "#3894F0"
    else if "yes".toList ∈ c then some "#5CB85C"
    else if "none".toList ∈ c then some "#3c3c3c"
    else some "#bbb"
  else none

/-- What is drawn. -/
structure PolicyPage where
  circles : List PageNode
  arrows : List PageArrow
  legend : List (String × List Char)
  deriving DecidableEq

/-- The page, or the message `Max number of nodes does not match the transition matrix`. -/
inductive PolicyShown where
  | page (p : PolicyPage)
  | message
  deriving DecidableEq

/-- The function called with the content of the file, `policy/policy.js:45-170`, `215-245`. -/
def policyPage (showDone : Bool) (d : GraphDict) : Py PolicyShown :=
  if tooManyNodes d then .ok .message
  else do
    let nodes ← pageNodes d
    let links ← pageLinks showDone d nodes
    return .page ⟨nodes, pageArrows nodes links, d.observations.map fun o => (legendColor o, nameText o)⟩

/-! ### The controls of the page -/

/-- The global variables, `policy/policy.js:1-2`. -/
structure PolicyControls where
  file : List Char
  showDone : Bool
  deriving DecidableEq

/-- What a user can do, `policy/policy.html:74-89`. -/
inductive PolicyEvent where
  | select (name : List Char)
  | refresh
  | done (on : Bool)
  deriving DecidableEq

/-- `loadpolicy(file, errors)`, `policy/policy.js:5-10`, `45`: the variables after the call, and the file that is asked for. -/
def loadPolicyFile (file : List Char) (errors : Option Bool) (c : PolicyControls) : PolicyControls × List Char :=
  let c := match errors with
    | none => c
    | some b => { c with showDone := b }
  let c := if file = [] then c else { c with file := file }
  (c, "json/".toList ++ c.file)

/-- The value of an input of type `file` for the chosen name: browsers hide the directory. -/
def fakePath (name : List Char) : List Char := "C:\\fakepath\\".toList ++ name

/-- The reaction to an event, `policy/policy.html:74-95`. -/
def policyEvent (c : PolicyControls) : PolicyEvent → PolicyControls × List Char
  | .select name => loadPolicyFile (fakePath name) none c
  | .refresh => loadPolicyFile [] none c
  | .done on => loadPolicyFile [] (some on) c

/-- A session: the variables and the file that was asked for last, starting with `loadpolicy('')`, `policy/policy.js:3`. -/
def policySession (events : List PolicyEvent) : PolicyControls × List Char :=
  events.foldl (fun x e => policyEvent x.1 e) (loadPolicyFile [] none ⟨"test.json".toList, true⟩)

end Verif
