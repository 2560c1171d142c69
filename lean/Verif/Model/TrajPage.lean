import Verif.Model.PolicyPage

/-!
# The page that displays trajectories, `visualization/trajectories`

JavaScript and d3 are read as in `PolicyPage`.  `tree.nodes` lists the nodes from the root, each one followed by what is below its first child, then its
second child, and so on; `tree.links` lists, for each node in this order, the links to its children.  The functions given to the elements that enter get the
position of the datum in the list of all the data.  A user waits for the end of the transitions before clicking again: the elements that exit are removed.
-/

namespace Verif

/-- `d.children` of the node at path `p` is its list of children if `p` is in this list; otherwise it is `null` and `d._children` is the list,
`trajectories/trajectories.js:55-61`, `163-172`.  (For a node without children it makes no difference.) -/
abbrev Opened := List (List Nat)

mutual
/-- `tree.nodes(root)`, `trajectories/trajectories.js:69`, with the paths of the nodes: the identity of the objects, which the code numbers in `id`. -/
def treeNodes (op : Opened) (p : List Nat) : TTree → List (List Nat × TTree)
  | .node b a c os ks => (p, .node b a c os ks) :: (if p ∈ op then treeNodesList op p 0 ks else [])
/-- The children number `i` and following of the node `p`. -/
def treeNodesList (op : Opened) (p : List Nat) (i : Nat) : List TTree → List (List Nat × TTree)
  | [] => []
  | k :: ks => treeNodes op (p ++ [i]) k ++ treeNodesList op p (i + 1) ks
end

/-- A link: the observations of the source, the path of the source and the number of the child. -/
structure TreeLink where
  obs : List Name
  source : List Nat
  child : Nat
  deriving DecidableEq

/-- The links of a node. -/
def nodeLinks (op : Opened) : List Nat × TTree → List TreeLink
  | (p, .node _ _ _ os ks) => if p ∈ op then (List.range ks.length).map fun k => ⟨os, p, k⟩ else []

/-- `tree.links(nodes)`, `trajectories/trajectories.js:70`. -/
def treeLinks (op : Opened) (nodes : List (List Nat × TTree)) : List TreeLink := nodes.flatMap (nodeLinks op)

/-- The text of a node, `trajectories/trajectories.js:93-100`: a number has no method `replace`. -/
def trajText : TTree → Py (List Char)
  | .node _ (.int _) _ _ _ => .error .typeError
  | .node _ (.str s) c _ _ => .ok ('[' :: showInt c ++ (']' :: ' ' :: pageAction s.toList))

/-- `d.source.observations[i]` in a text. -/
def obsText (os : List Name) (i : Nat) : List Char :=
  match os[i]? with
  | none => "undefined".toList
  | some o => nameText o

/-- The attributes of the path of a link. -/
structure LinkPath where
  cls : List Char
  marker : List Char
  deriving DecidableEq

/-- The elements of the page: the texts of the nodes and the attributes of the links, by the paths of the nodes and of the targets. -/
structure TrajPage where
  nodes : List (List Nat × List Char)
  links : List (List Nat × LinkPath)
  deriving DecidableEq

/-- The nodes after an update, `trajectories/trajectories.js:75-124`: those that enter get their texts. -/
def drawNodes (old : List (List Nat × List Char)) (nodes : List (List Nat × TTree)) : Py (List (List Nat × List Char)) :=
  nodes.mapM fun x =>
    match dget old x.1 with
    | some t => .ok (x.1, t)
    | none => (trajText x.2).map fun t => (x.1, t)

/-- A link that is at position `i` in the list of all the links, `trajectories/trajectories.js:131-141`: if it enters it gets its attributes. -/
def drawLink (old : List (List Nat × LinkPath)) (l : TreeLink) (i : Nat) : List Nat × LinkPath :=
  match dget old (l.source ++ [l.child]) with
  | some a => (l.source ++ [l.child], a)
  | none => (l.source ++ [l.child], ⟨"link ".toList ++ obsText l.obs i, "arrowhead_".toList ++ obsText l.obs i⟩)

/-- The links after an update, `trajectories/trajectories.js:126-155`. -/
def drawLinks (old : List (List Nat × LinkPath)) (links : List TreeLink) : List (List Nat × LinkPath) := links.zipIdx.map fun x => drawLink old x.1 x.2

/-- `update`, `trajectories/trajectories.js:67-160`. -/
def trajUpdate (t : TTree) (op : Opened) (page : TrajPage) : Py TrajPage := do
  let nodes := treeNodes op [] t
  let ns ← drawNodes page.nodes nodes
  return ⟨ns, drawLinks page.links (treeLinks op nodes)⟩

/-- The state of the page. -/
structure TrajState where
  opened : Opened
  page : TrajPage
  deriving DecidableEq

/-- Reading the file, `trajectories/trajectories.js:45-64`: the children of the root are collapsed. -/
def trajLoad (t : TTree) : Py TrajState := do
  let page ← trajUpdate t [[]] ⟨[], []⟩
  return ⟨[[]], page⟩

/-- `click`, `trajectories/trajectories.js:163-172`, on the node at path `p`. -/
def trajClick (t : TTree) (s : TrajState) (p : List Nat) : Py TrajState := do
  let op := if p ∈ s.opened then s.opened.filter (fun q => decide (q ≠ p)) else p :: s.opened
  let page ← trajUpdate t op s.page
  return ⟨op, page⟩

/-- A session: the file is read, then the nodes are clicked. -/
def trajSession (t : TTree) (clicks : List (List Nat)) : Py TrajState := do
  let s ← trajLoad t
  clicks.foldlM (trajClick t) s

end Verif
