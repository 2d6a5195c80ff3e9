import Verif.Model.Network
import Mathlib.Algebra.Order.Floor.Ring
import Mathlib.Algebra.Order.Field.Basic

/-!
# The network visualizer

Models `knp/base-framework/impl/visualizer/{visualize_network, graph_physics}.cpp`.

What OpenCV draws is not modelled: a drawing is the list of the things drawn.  A hash set is a list without duplicates; which element its
`begin()` is, is chosen by `pick` (any function: the choice may be different each time).  An `int` holds every index; the index of a population
that is not in the network, -1, which becomes the largest `size_t`, is `none`.  Coordinates are elements of an ordered field and `norm` is any
function.
-/

namespace Knp.Vis
open Knp

/-! ## The graph of a network -/

/-- `NetworkGraph::Node` (visualize_network.h:52-80). -/
structure Node where
  uid : UID
  name : String
deriving Repr, DecidableEq

/-- `NetworkGraph::Edge` (visualize_network.h:92-130). -/
structure Edge where
  uid : UID
  src : Option Nat
  dst : Option Nat
deriving Repr, DecidableEq

/-- `NetworkGraph` (visualize_network.h:44-142). -/
structure Graph where
  nodes : List Node
  edges : List Edge
deriving Repr, DecidableEq

/-- The index of the last node with a UID (visualize_network.cpp:138-143). -/
def indexOf (nodes : List Node) (u : UID) : Option Nat :=
  ((List.range nodes.length).filter (fun i => (nodes[i]?.map (·.uid)) == some u)).getLast?

/-- `NetworkGraph(network)` (visualize_network.cpp:121-146); `name` is `get_name` (l.92-113). -/
def graphOf {P J : Type} (name : P → String) (n : Network P J) : Graph :=
  let nodes := n.populations.map (fun p => (⟨p.uid, name p.body⟩ : Node))
  ⟨nodes, n.projections.map (fun p => ⟨p.uid, indexOf nodes p.pre, indexOf nodes p.post⟩)⟩

/-- `adj_list[index].push_back(value)`. -/
def pushAt {α : Type} (l : List (List α)) (i : Nat) (x : α) : Outcome (List (List α)) :=
  match l[i]? with
  | some ys => .ok (l.set i (ys ++ [x]))
  | none => .ub

/-- `build_adjacency_list` (visualize_network.cpp:156-167): the last list is that of the world outside. -/
def buildAdj (g : Graph) : Outcome (List (List (Option Nat))) :=
  g.edges.foldlM (fun adj e => pushAt adj (e.src.getD g.nodes.length) e.dst) (List.replicate (g.nodes.length + 1) [])

/-- `result[v].push_back(i)` (visualize_network.cpp:336). -/
def pushBack (i : Nat) (rev : List (List (Option Nat))) (v : Option Nat) : Outcome (List (List (Option Nat))) :=
  match v with
  | some k => pushAt rev k (some i)
  | none => .ub

/-- `make_reverse_list` (visualize_network.cpp:330-339). -/
def reverse (adj : List (List (Option Nat))) : Outcome (List (List (Option Nat))) :=
  (List.range adj.length).foldlM (fun rev i => (adj.getD i []).foldlM (pushBack i) rev) (List.replicate adj.length [])

/-! ## Connected parts -/

/-- `insert` of a set. -/
def insertNew (l : List Nat) (x : Nat) : List Nat := if l.contains x then l else l ++ [x]

/-- The element a non-empty set begins with. -/
def choose (pick : Nat → Nat) (k : Nat) (l : List Nat) : Nat := l.getD (pick k % l.length) 0

/-- The nodes a list names are added (visualize_network.cpp:375-382). -/
def addAll (cur : Nat) (done ignored todo : List Nat) (outs : List (Option Nat)) : List Nat :=
  outs.foldl (fun todo v => match v with
    | none => todo
    | some n => if n = cur ∨ done.contains n ∨ ignored.contains n then todo else insertNew todo n) todo

/-- The loop of `find_connected_set` (visualize_network.cpp:368-387), `fuel` rounds of it at most: the processed nodes and the number of the next
choice. -/
def explore (pick : Nat → Nat) (adj rev : List (List (Option Nat))) (ignored : List Nat) :
    Nat → Nat → List Nat → List Nat → Outcome (Option (List Nat × Nat))
  | _, k, done, [] => .ok (some (done, k))
  | 0, _, _, _ :: _ => .ok none
  | fuel + 1, k, done, todo =>
    let cur := choose pick k todo
    match adj[cur]?, rev[cur]? with
    | some a, some r =>
      explore pick adj rev ignored fuel (k + 1) (insertNew done cur) ((addAll cur done ignored (addAll cur done ignored todo a) r).erase cur)
    | _, _ => .ub

/-- `std::sort`. -/
def sorted (l : List Nat) : List Nat := sortBy (fun a b => decide (a ≤ b)) l

/-- `find_connected_set` (visualize_network.cpp:351-397): the set, what remains and the number of the next choice. -/
def connectedSet (pick : Nat → Nat) (adj rev : List (List (Option Nat))) (ignored : List Nat) (fuel k : Nat) (remaining : List Nat) :
    Outcome (Option (List Nat × List Nat × Nat)) :=
  match remaining.filter (fun x => !ignored.contains x) with
  | [] => .ok (some ([], [], k))
  | cleaned =>
    (explore pick adj rev ignored fuel (k + 1) [] [choose pick k cleaned]).bind (fun r => match r with
      | some (done, k') => .ok (some (sorted done, remaining.filter (fun x => !done.contains x), k'))
      | none => .ok none)

/-- The loop of `divide_graph_by_connectivity` (visualize_network.cpp:414-417), `rounds` of it at most. -/
def divideLoop (pick : Nat → Nat) (adj rev : List (List (Option Nat))) (ignored : List Nat) (fuel : Nat) :
    Nat → Nat → List Nat → Outcome (Option (List (List Nat)))
  | _, _, [] => .ok (some [])
  | 0, _, _ :: _ => .ok none
  | rounds + 1, k, remaining =>
    (connectedSet pick adj rev ignored fuel k remaining).bind (fun r => match r with
      | some (s, rest, k') => (divideLoop pick adj rev ignored fuel rounds k' rest).bind (fun q => .ok (q.map (s :: ·)))
      | none => .ok none)

/-- `divide_graph_by_connectivity` (visualize_network.cpp:404-420), cut off after `fuel` rounds of each loop. -/
def divide (pick : Nat → Nat) (fuel : Nat) (g : Graph) : Outcome (Option (List (List Nat))) :=
  (buildAdj g).bind (fun adj => (reverse adj).bind (fun rev =>
    divideLoop pick adj rev [adj.length - 1] fuel fuel 0 ((List.range adj.length).erase (adj.length - 1))))

/-! ## Drawing -/

/-- A thing drawn; points are numbered like the nodes given. -/
inductive Drawn where
  | input (point : Nat)
  | loop (point : Nat)
  | arrow (src dst : Nat)
  | dot (point : Nat)
  | text (point : Nat) (name : String)
deriving Repr, DecidableEq

/-- `std::find`. -/
def position (nodes : List Nat) (x : Nat) : Option Nat := (List.range nodes.length).find? (fun i => nodes[i]? == some x)

/-- A loop that appends a result in each round. -/
def each {α β : Type} (f : α → Outcome β) : List α → Outcome (List β)
  | [] => .ok []
  | x :: xs => (f x).bind (fun y => (each f xs).bind (fun ys => .ok (y :: ys)))

/-- `draw_edges` (visualize_network.cpp:205-235). -/
def drawEdges (adj : List (List (Option Nat))) (nodes : List Nat) : Outcome (List Drawn) :=
  (each (fun (q : Nat × Nat) => match adj[q.1]? with
    | none => .ub
    | some vs => .ok (vs.filterMap (fun v => (v.bind (position nodes)).map (fun t => if t = q.2 then Drawn.loop q.2 else Drawn.arrow q.2 t))))
    nodes.zipIdx).bind (fun rows => .ok rows.flatten)

/-- `draw_annotated_subgraph` (visualize_network.cpp:243-282) for the `inputs` of `position_network_test` (l.481-486). -/
def drawAnnotated (g : Graph) (nodes : List Nat) : Outcome (List Drawn) :=
  (buildAdj g).bind (fun adj => (drawEdges adj nodes).bind (fun es =>
    (each (fun i => match g.nodes[i]? with
      | none => .ub
      | some n => .ok [Drawn.dot i, Drawn.text i n.name]) (List.range nodes.length)).bind (fun ts =>
      .ok ((adj.getLastD []).filterMap (fun v => (v.bind (position nodes)).map Drawn.input) ++ es ++ ts.flatten))))

/-! ## Layout -/

/-- `PhysicsPoint` (graph_physics.h:31-50). -/
structure Point (F : Type) where
  x : F
  y : F
  vx : F
  vy : F
deriving Repr, DecidableEq

/-- The edges of `VisualGraph` (graph_physics.cpp:35-48): `point_by_original_index[index]` is 0 for a node that is not among the nodes. -/
def springs (adj : List (List (Option Nat))) (nodes : List Nat) : Outcome (List (List Bool)) :=
  each (fun v => match adj[v]? with
    | none => .ub
    | some vs => .ok (vs.foldl (fun row w => row.set ((w.bind (position nodes)).getD 0) true) (List.replicate nodes.length false))) nodes

/-- Hyperparameters (graph_physics.h:103-109, graph_physics.cpp:57, 71). -/
structure Params (F : Type) where
  strength : F
  len : F
  repel : F
  resistance : F
  small : F
  dt : F

section
variable {F : Type} [Field F] [LinearOrder F]

/-- One component of `get_force` (graph_physics.cpp:55-64), `d` of the distance and `l` its length. -/
def forceAlong (p : Params F) (d l : F) (edge : Bool) : F :=
  (if edge then -d * (l - p.len) / max l p.small * p.strength else 0) + d / (l * l * l + p.small) * p.repel

/-- `get_force` (graph_physics.cpp:55-64). -/
def force (p : Params F) (norm : F → F → F) (target influence : Point F) (edge : Bool) : F × F :=
  let dx := target.x - influence.x
  let dy := target.y - influence.y
  (forceAlong p dx (norm dx dy) edge, forceAlong p dy (norm dx dy) edge)

/-- The forces of the other points on point `i` (graph_physics.cpp:75-85). -/
def forceOn (p : Params F) (norm : F → F → F) (mat : List (List Bool)) (pts : List (Point F)) (i : Nat) (q : Point F) : F × F :=
  let s := pts.zipIdx.foldl (fun (acc : F × F) (o : Point F × Nat) =>
    if i = o.2 then acc
    else
      let f := force p norm q o.1 ((mat.getD i []).getD o.2 false || (mat.getD o.2 []).getD i false)
      (acc.1 + f.1, acc.2 + f.2)) (0, 0)
  (s.1 + -q.vx * p.resistance, s.2 + -q.vy * p.resistance)

/-- `iterate` (graph_physics.cpp:69-92). -/
def iterate (p : Params F) (norm : F → F → F) (mat : List (List Bool)) (pts : List (Point F)) : List (Point F) :=
  pts.mapIdx (fun i q =>
    let f := forceOn p norm mat pts i q
    let vx := q.vx + f.1 * p.dt
    let vy := q.vy + f.2 * p.dt
    ⟨q.x + vx * p.dt, q.y + vy * p.dt, vx, vy⟩)

/-- `iterate(n)` (graph_physics.cpp:96-99). -/
def iterateN (p : Params F) (norm : F → F → F) (mat : List (List Bool)) : Nat → List (Point F) → List (Point F)
  | 0, pts => pts
  | n + 1, pts => iterateN p norm mat n (iterate p norm mat pts)

/-- `std::lround`. -/
def lround [FloorRing F] (x : F) : Int := if 0 ≤ x then ⌊x + 1 / 2⌋ else -⌊-x + 1 / 2⌋

/-- Constants of `scale_graph`: the largest double, the least *positive* double (`numeric_limits<double>::min()`), 1e-5. -/
structure Limits (F : Type) where
  big : F
  tiny : F
  small : F

/-- One coordinate of `scale_graph` (graph_physics.cpp:118-135): the least and the largest value. -/
def lowest (c : Limits F) (xs : List F) : F := xs.foldl min c.big
/-- See `lowest`. -/
def highest (c : Limits F) (xs : List F) : F := xs.foldl max c.tiny

/-- The scale (graph_physics.cpp:120, 132-137). -/
def scaleOf (c : Limits F) (width height margin : Int) (pts : List (Point F)) : F :=
  min (((width - 2 * margin : Int) : F) / (highest c (pts.map (·.x)) - lowest c (pts.map (·.x)) + c.small))
    (((height - 2 * margin : Int) : F) / (highest c (pts.map (·.y)) - lowest c (pts.map (·.y)) + c.small))

/-- `scale_graph` (graph_physics.cpp:115-148). -/
def scaleGraph [FloorRing F] (c : Limits F) (width height margin : Int) (pts : List (Point F)) : List (Int × Int) :=
  let s := scaleOf c width height margin pts
  pts.map (fun q => (lround ((q.x - lowest c (pts.map (·.x))) * s) + margin, lround ((q.y - lowest c (pts.map (·.y))) * s) + margin))

/-- `position_network` (visualize_network.cpp:509-517); `start` are the random positions of the constructor (graph_physics.cpp:36-41). -/
def positionNetwork [FloorRing F] (p : Params F) (c : Limits F) (norm : F → F → F) (g : Graph) (nodes : List Nat) (start : Nat → F × F)
    (width height margin : Int) (n : Nat) : Outcome (List (Int × Int)) :=
  (buildAdj g).bind (fun adj => (springs adj nodes).bind (fun mat =>
    .ok (scaleGraph c width height margin (iterateN p norm mat n (nodes.mapIdx (fun i _ => ⟨(start i).1, (start i).2, 0, 0⟩))))))

end

end Knp.Vis
