import Mathlib.Data.List.Basic
import Mathlib.Data.List.Dedup

/-
Model of `tools/miscellaneous/undirected_graph.py` (class `CoordinatedUndirectedGraph`).
-/

namespace Phyem.Graph

variable {α : Type} [DecidableEq α]

/-- The graph: node names with a coordinate (opaque), and the dictionary `_edges_` in insertion
order. -/
structure G (α : Type) where
  nodes : List α
  edges : List (α × List α)

/-- `__init__`, undirected_graph.py:25-29. -/
def empty : G α := ⟨[], []⟩

/-- `self._edges_[a]` (only called when present; absent is the empty list). -/
def nbrs (g : G α) (a : α) : List α := (g.edges.lookup a).getD []

/-- `add_node`, undirected_graph.py:71-79.  `ok` says whether all coordinates are int or float.
`none` is an exception; the graph is unchanged then. -/
def addNode (g : G α) (a : α) (ok : Bool) : Option (G α) :=
  if a ∈ g.nodes then none
  else if ok then some { g with nodes := g.nodes ++ [a] } else none

/-- `if a not in self._edges_: self._edges_[a] = list()`. -/
def ensure (e : List (α × List α)) (a : α) : List (α × List α) :=
  if a ∈ e.map Prod.fst then e else e ++ [(a, [])]

/-- `if b not in self._edges_[a]: self._edges_[a].append(b)` -/
def link (e : List (α × List α)) (a b : α) : List (α × List α) :=
  e.map fun p => if p.1 = a then (p.1, if b ∈ p.2 then p.2 else p.2 ++ [b]) else p

/-- `add_edge`, undirected_graph.py:81-104. -/
def addEdge (g : G α) (a b : α) : Option (G α) :=
  if a ∈ g.nodes then
    if b ∈ g.nodes then
      some { g with edges := link (link (ensure (ensure g.edges a) b) a b) b a }
    else none
  else none

/-- Calls of the user. -/
inductive Op (α : Type) where
  | node (a : α) (ok : Bool)
  | edge (a b : α)

def step (g : G α) : Op α → G α
  | .node a ok => (addNode g a ok).getD g
  | .edge a b => (addEdge g a b).getD g

def run (ops : List (Op α)) : G α := ops.foldl step empty

/-- The pairs `(node, c_node)` in the order in which the drawing loops see them. -/
def directed (g : G α) : List (α × α) := g.edges.flatMap fun p => p.2.map fun c => (p.1, c)

/-- One pass of the loop body in `___visualize_2d___` (undirected_graph.py:189-201) and
`_to_2d_perp_homogeneous_pipe` (284-299): `plotted_edges` (in order) and `skip_edges`. -/
def visit (s : List (α × α) × Nat) (e : α × α) : List (α × α) × Nat :=
  if (e.2, e.1) ∈ s.1 then (s.1, s.2 + 1) else (s.1 ++ [e], s.2)

/-- The loop and the final `assert skip_edges == plot_edges`: the edges drawn, or an
AssertionError. -/
def draw (g : G α) : Option (List (α × α)) :=
  let r := (directed g).foldl visit ([], 0)
  if r.2 = r.1.length then some r.1 else none

/-- The edges that are drawn before the assertion is checked. -/
def drawn (g : G α) : List (α × α) := ((directed g).foldl visit ([], 0)).1

end Phyem.Graph
