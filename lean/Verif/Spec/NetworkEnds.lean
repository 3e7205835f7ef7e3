import Verif.Model.Network

/-!
Specification of C270: which end of an edge is named first.
-/

namespace Verif.Network

variable {K O L W : Type} [DecidableEq K]

/-- The same edge seen from its other end. -/
def Edge.mirror (e : Edge L W) : Edge L W := ⟨e.v, e.u, e.label, e.weight⟩

/-- In the lists that are being written, there is at most one edge between the two nodes, and both have it or neither. -/
def AtMostOne (ident : O → K) (n : Net K O L W) (u v : O) : Prop :=
  ∀ uid vid, HMap.get n.r.nodes2id (ident u) = some uid → HMap.get n.r.nodes2id (ident v) = some vid →
    ∃ us vs, HMap.get n.w.edges uid = some us ∧ HMap.get n.w.edges vid = some vs ∧ us.countP (fun e => (e.u == uid && e.v == vid) || (e.u == vid && e.v == uid)) ≤ 1 ∧
      vs.find? (fun e => (e.u == vid && e.v == uid) || (e.u == uid && e.v == vid)) =
        (us.find? (fun e => (e.u == uid && e.v == vid) || (e.u == vid && e.v == uid))).map Edge.mirror ∧
      vs.countP (fun e => (e.u == uid && e.v == vid) || (e.u == vid && e.v == uid)) ≤ 1

/-- Two calls that differ at most in which end of an edge they name first. A removal only counts if there is at most one edge between the two nodes. -/
inductive EndsSwapped (ident : O → K) (n : Net K O L W) : Op O L W → Op O L W → Prop
  | same (op : Op O L W) : EndsSwapped ident n op op
  | add (u v : O) (o : EdgeOptions L W) : EndsSwapped ident n (.addEdge u v o) (.addEdge v u o)
  | remove (u v : O) (h : AtMostOne ident n u v) : EndsSwapped ident n (.removeEdge u v) (.removeEdge v u)

/-- Two programs whose calls differ in that way, the removals as the network is when they are made. -/
inductive ProgramsSwapped (ident : O → K) : Net K O L W → List (Op O L W) → List (Op O L W) → Prop
  | nil (n : Net K O L W) : ProgramsSwapped ident n [] []
  | cons {n : Net K O L W} {op op' : Op O L W} {ops ops' : List (Op O L W)} (h : EndsSwapped ident n op op')
      (hs : ∀ m, exec ident n op = some m → ProgramsSwapped ident m ops ops') : ProgramsSwapped ident n (op :: ops) (op' :: ops')

end Verif.Network
