import Verif.Model.PolicyPage
import Verif.Model.Export

/-!
# The page that displays search trees, `visualization/pomcp`

JavaScript and d3 (version 4) are read as in `PolicyPage`.  Two further rules: `null == undefined`, and a selection that is joined with data without a key
joins the first element with the first datum, and so on; what has no datum stays as it is.  A file is what `export_pomcp` writes (`lib/pomcp.py:596-639`);
each list of `exploration_terms` is as long as `values`, so that no `NaN` occurs.  `null` and `undefined` are `none`.

Elements of the tree that stay from one update to the next keep their attributes; these depend on the datum only, so that the elements are given here as a
function of what is open.  (The order of the elements is not the one of d3, which lists the nodes by depth.)  A user waits for the end of the transitions.
-/

namespace Verif

/-- A file: `lib/pomcp.py:630-636`. -/
structure PomcpFile where
  states : List Name
  actions : List Name
  exploration : Option ℚ
  relative : Bool
  root : PolicyDict

/-- `shorten_action`, `pomcp/pomcp.js:92-101`. -/
def shortenAction (s : List Char) : List Char :=
  jsReplace "-central-frame".toList "CF".toList (jsReplace "-right-leg".toList "RL".toList (jsReplace "-left-leg".toList "LL".toList
    (jsReplace "-snap".toList " Snap".toList (jsReplace "-get".toList " Get".toList (jsReplace "com-".toList "C-".toList
      (jsReplace "phy".toList "P-".toList (jsReplace "intention".toList "int".toList s)))))))

/-- `shorten_action` of a name: a number has no method `replace`. -/
def shortenName : Name → Py (List Char)
  | .int _ => .error .typeError
  | .str s => .ok (shortenAction s.toList)

/-! ### The tables -/

/-- A cell of the row of the belief. -/
inductive BeliefCell where
  | blank (title : List Char)
  | shown (b : ℚ)
  deriving DecidableEq

/-- A cell of the rows of values: the title, the class `best` and the color, as a position in the scale from red (0) to blue (1), or `none` for grey. -/
inductive ValueCell where
  | blank (title : List Char)
  | shown (value : Option ℚ) (best : Bool) (shade : Option ℚ)
  deriving DecidableEq

/-- A cell of the row of visits: the title, the text, the classes `best` and `big-value` and the color, as a position in the scale of reds, or `none` for
grey. -/
inductive VisitCell where
  | blank (title : List Char)
  | shown (n : Nat) (text : List Char) (best big : Bool) (shade : Option ℚ)
  deriving DecidableEq

/-- The header of a column of an action: the text and the class `best`. -/
structure ActionHead where
  text : List Char
  best : Bool
  deriving DecidableEq

/-- The two tables, `pomcp/pomcp.html:38-63`. -/
structure PomcpTables where
  stateHeads : List (List Char)
  belief : List BeliefCell
  actionHeads : List ActionHead
  values : List ValueCell
  augmented : List ValueCell
  visits : List VisitCell
  deriving DecidableEq

/-- The tables of the page before any file is read. -/
def noTables : PomcpTables := ⟨[], [], [], [], [], []⟩

/-- `selectAll(..).data(data).enter().append(..)`: there is a new element for each datum beyond the number of elements. -/
def joinEnter {α γ : Type} (old : List γ) (data : List α) (f : α → γ) : List γ := old ++ (data.drop old.length).map f

/-- `selectAll(..).data(data).attr(..)`: the elements that have a datum are changed. -/
def joinUpdate {α γ : Type} (f : γ → α → γ) : List γ → List α → List γ
  | x :: l, d :: data => f x d :: joinUpdate f l data
  | l, _ => l

/-- The texts of the headers, `pomcp/pomcp.js:68-70`: only those that enter are computed. -/
def newHeads (old : List ActionHead) (actions : List Name) : Py (List ActionHead) := do
  let texts ← (actions.drop old.length).mapM shortenName
  return old ++ texts.map fun t => ⟨t, false⟩

/-- `Init the belief representation`, `Init the value representation`, `pomcp/pomcp.js:55-75`. -/
def initTables (f : PomcpFile) (t : PomcpTables) : Py PomcpTables := do
  let heads ← newHeads t.actionHeads f.actions
  return { stateHeads := joinEnter t.stateHeads f.states nameText
           belief := joinEnter t.belief f.states fun s => .blank (nameText s)
           actionHeads := heads
           values := joinEnter t.values f.actions fun a => .blank (nameText a)
           augmented := joinEnter t.augmented f.actions fun a => .blank (nameText a)
           visits := joinEnter t.visits f.actions fun a => .blank (nameText a) }

/-! ### Values -/

/-- One step of `d3.max` or `d3.min`: `better a b` tells whether `b` replaces `a`. -/
def d3Step (better : ℚ → ℚ → Bool) : Option ℚ → Option ℚ → Option ℚ
  | none, b => b
  | some a, none => some a
  | some a, some b => if better a b then some b else some a

/-- `d3.max`. -/
def d3MaxQ (l : List (Option ℚ)) : Option ℚ := l.foldl (d3Step fun a b => decide (a < b)) none

/-- `d3.min`. -/
def d3MinQ (l : List (Option ℚ)) : Option ℚ := l.foldl (d3Step fun a b => decide (b < a)) none

/-- `d3.max(values, Math.abs)`, where `Math.abs(null)` is 0. -/
def maxAbs (l : List (Option ℚ)) : ℚ := (d3MaxQ (l.map fun v => some |v.getD 0|)).getD 0

/-- `value_color_scale`, `pomcp/pomcp.js:278-284`; `flat` is what the scale gives for a domain that is a point. -/
def valueShade (flat : ℚ) (l : List (Option ℚ)) : Option ℚ → Option ℚ
  | none => none
  | some v => some (if maxAbs l = 0 then flat else (1 - v / maxAbs l) / 2)

/-- The cells of a row of values, `pomcp/pomcp.js:293`, `301-317`: `v == best` also holds for `null` and `undefined`. -/
def valueCells (flat : ℚ) (l : List (Option ℚ)) : List ValueCell := l.map fun v => .shown v (decide (v = d3MaxQ l)) (valueShade flat l v)

/-- `cur_explo`, `pomcp/pomcp.js:294-297`; it is only used if there is a value. -/
def curExplo (f : PomcpFile) (values : List (Option ℚ)) : ℚ :=
  if f.relative then f.exploration.getD 1 * ((d3MaxQ values).getD 0 - (d3MinQ values).getD 0) else f.exploration.getD 1

/-- `augmented`, `pomcp/pomcp.js:298-300`: a term that is `null` counts as 0. -/
def pageAugmented (f : PomcpFile) (i : PolicyInfo) : List (Option ℚ) :=
  (i.values.zip i.exploration).map fun x => x.1.map fun v => v + curExplo f i.values * x.2.getD 0

/-- `Math.max(...d.data.child_visits)`; if there are none, it is not used. -/
def maxVisits (l : List Nat) : Nat := l.foldl max 0

/-- The cells of the row of visits, `pomcp/pomcp.js:322-332`. -/
def visitCells (l : List Nat) : List VisitCell :=
  l.map fun n => .shown n (if n > 0 then showNat n else []) (decide (n = maxVisits l)) (decide (2 * n > maxVisits l))
    (if n = 0 then none else some ((n : ℚ) / maxVisits l))

/-- `displayValues`, `pomcp/pomcp.js:286-333`. -/
def displayValues (flat : ℚ) (f : PomcpFile) (i : PolicyInfo) (t : PomcpTables) : PomcpTables where
  stateHeads := t.stateHeads
  belief := joinUpdate (fun _ b => .shown b) t.belief i.belief
  actionHeads := joinUpdate (fun h a => { h with best := decide (a = i.action) }) t.actionHeads f.actions
  values := joinUpdate (fun _ c => c) t.values (valueCells flat i.values)
  augmented := joinUpdate (fun _ c => c) t.augmented (valueCells flat (pageAugmented f i))
  visits := joinUpdate (fun _ c => c) t.visits (visitCells i.childVisits)

/-! ### The tree -/

/-- A node of the tree: the text, the class `initial` and what the title shows. -/
structure PomcpCircle where
  text : List Char
  initial : Bool
  title : Name × Nat × ℚ
  deriving DecidableEq

mutual
/-- `treeRoot.descendants()`, `pomcp/pomcp.js:116-117`, with the paths of the nodes; `op` are the nodes whose list `children` is not `null`. -/
def pomNodes (op : List (List Nat)) (p : List Nat) : PolicyDict → List (List Nat × PolicyDict)
  | .mk i os cs => (p, .mk i os cs) :: (if p ∈ op then pomNodesList op p 0 cs else [])
/-- The children number `n` and following of the node `p`. -/
def pomNodesList (op : List (List Nat)) (p : List Nat) (n : Nat) : List PolicyDict → List (List Nat × PolicyDict)
  | [] => []
  | c :: cs => pomNodes op (p ++ [n]) c ++ pomNodesList op p (n + 1) cs
end

/-- A node, `pomcp/pomcp.js:144-169`: `initial` and `node` are looked for in the wrong object, where they are never found. -/
def pomCircle : PolicyDict → Py PomcpCircle
  | .mk i _ _ => do
      let text ← shortenName i.action
      return ⟨text, false, (i.action, i.visits, i.value)⟩

/-- `observations[observed]` in a text, where both can be missing. -/
def observedText (os : Option (List Name)) (k : Option Nat) : List Char :=
  match k.bind fun k => (os.getD [])[k]? with
  | none => "undefined".toList
  | some o => nameText o

/-- The entry `observed` of a node. -/
def observedOf : PolicyDict → Option Nat
  | .mk i _ _ => i.observed

/-- The links of a node, `pomcp/pomcp.js:118`, `201-211`, by the paths of their targets: the observation that gives the class and the arrow. -/
def pomNodeLinks (op : List (List Nat)) : List Nat × PolicyDict → List (List Nat × List Char)
  | (p, .mk _ os cs) => if p ∈ op then cs.zipIdx.map fun x => (p ++ [x.2], observedText os (observedOf x.1)) else []

/-- The elements of the tree. -/
structure PomcpTree where
  nodes : List (List Nat × PomcpCircle)
  links : List (List Nat × List Char)
  deriving DecidableEq

/-- `update`, `pomcp/pomcp.js:114-233`. -/
def pomUpdate (d : PolicyDict) (op : List (List Nat)) : Py PomcpTree := do
  let ns ← (pomNodes op [] d).mapM fun x => (pomCircle x.2).map fun c => (x.1, c)
  return ⟨ns, (pomNodes op [] d).flatMap (pomNodeLinks op)⟩

/-! ### Sessions -/

/-- The state of the page. -/
structure PomcpPage where
  file : PomcpFile
  opened : List (List Nat)
  tree : PomcpTree
  tables : PomcpTables

/-- `root.children.forEach`, `pomcp/pomcp.js:88`. -/
def rootChildren : PolicyDict → Py Unit
  | .mk _ none _ => .error .typeError
  | .mk _ (some _) _ => .ok ()

/-- Reading a file, `pomcp/pomcp.js:51-90` and, after the first time, `pomcp/pomcp.html:96-100`: the tree is removed, the tables are not. -/
def pomLoad (f : PomcpFile) (t : PomcpTables) : Py PomcpPage := do
  let tables ← initTables f t
  rootChildren f.root
  let tree ← pomUpdate f.root [[]]
  return ⟨f, [[]], tree, tables⟩

/-- What a user does: read the file again, which has changed to `f`; click on a node; move the mouse over a node. -/
inductive PomcpEvent where
  | refresh (f : PomcpFile)
  | click (p : List Nat)
  | hover (p : List Nat)

/-- The node at a path, if it is displayed. -/
def pomShownAt (s : PomcpPage) (p : List Nat) : Option PolicyDict := dget (pomNodes s.opened [] s.file.root) p

/-- A click, `pomcp/pomcp.js:236-246`. -/
def pomClick (s : PomcpPage) (p : List Nat) : Py PomcpPage := do
  let tree ← pomUpdate s.file.root (if p ∈ s.opened then s.opened.filter (fun q => decide (q ≠ p)) else p :: s.opened)
  return { s with opened := (if p ∈ s.opened then s.opened.filter (fun q => decide (q ≠ p)) else p :: s.opened), tree := tree }

/-- What happens, `pomcp/pomcp.js:286-333`, `pomcp/pomcp.html:92-100`. -/
def pomEvent (flat : ℚ) (s : PomcpPage) : PomcpEvent → Py PomcpPage
  | .refresh f => pomLoad f s.tables
  | .click p => pomClick s p
  | .hover p =>
      match pomShownAt s p with
      | none => .ok s
      | some (.mk i _ _) => .ok { s with tables := displayValues flat s.file i s.tables }

/-- A session from the opening of the page. -/
def pomSession (flat : ℚ) (f : PomcpFile) (evs : List PomcpEvent) : Py PomcpPage := do
  let s ← pomLoad f noTables
  evs.foldlM (pomEvent flat) s

end Verif
