import Verif.Spec.KdTree

/-!
A model on the distributed field, as its author writes it with the calls of the library: in each step every process runs
its own agents; an agent looks around, decides, and is inserted if it stays in the block of the process or else put into
`agents_to_send` for the process of its new block; then the processes exchange these agents and insert them; then they
call `lazy_update`, exchange the halos and add what they receive with `insert_read`. `none` is a panic or a process that
waits for ever.
-/

namespace Verif.KdTree

open Torus

variable {O : Type} [BEq O]

/-- Agents that look as far as `sight` and then act. -/
structure Rule (O : Type) where
  locOf : O → Pos
  sight : Rat
  act : O → List O → O

/-- A process with its field and its agents. -/
structure Proc (O : Type) where
  tree : Tree O
  own : List O

/-- A function on all members of a list. -/
def allOf {α β : Type} (f : α → Option β) : List α → Option (List β)
  | [] => some []
  | a :: as => (f a).bind (fun b => (allOf f as).map (fun bs => b :: bs))

/-- An agent that has acted is inserted or put aside for the process of its block. -/
def place (m : Rule O) (s : Proc O) (a : O) : Option (Proc O) :=
  (getBlockByLocation s.tree.layout (m.locOf a)).bind (fun q =>
    if q = s.tree.layout.rank then (insert s.tree a (m.locOf a)).map (fun t => ⟨t, s.own ++ [a]⟩)
    else (s.tree.agentsToSend[q]?).map (fun l =>
      ⟨{ s.tree with agentsToSend := s.tree.agentsToSend.set q (l ++ [a]) }, s.own⟩))

/-- The agents of a process look and act one after the other. -/
def turns (m : Rule O) (s : Proc O) : List O → Option (Proc O)
  | [] => some s
  | a :: as =>
    (getNeighborsWithinDistance s.tree m.locOf (m.locOf a) m.sight).bind (fun ns =>
      (place m s (m.act a ns)).bind (fun s' => turns m s' as))

/-- Agents that come to a process are inserted. -/
def welcome (m : Rule O) (s : Proc O) : List O → Option (Proc O)
  | [] => some s
  | a :: as => (insert s.tree a (m.locOf a)).bind (fun t => welcome m ⟨t, s.own ++ [a]⟩ as)

/-- Copies of the agents of other processes are added for reading. -/
def showAll (m : Rule O) (t : Tree O) : List O → Option (Tree O)
  | [] => some t
  | a :: as => (insertRead t a (m.locOf a)).bind (fun t' => showAll m t' as)

/-- What a process gets from all others in `message_exchange`. -/
def fetch (withRegions : Bool) (ps : List (Proc O)) (s : Proc O) : Option (List O) :=
  (allOf (fun src => receivedFrom s.tree src.tree src.tree.precNeighbors withRegions) ps).map List.flatten

/-- The end of a step: `lazy_update` and the exchange of the halos. -/
def publish (m : Rule O) (ps : List (Proc O)) : Option (List (Proc O)) :=
  (allOf (fun s => (lazyUpdate s.tree).map (fun t => (⟨t, s.own⟩ : Proc O))) ps).bind (fun ps' =>
    allOf (fun s => (fetch true ps' s).bind (fun l => (showAll m s.tree l).map (fun t => (⟨t, s.own⟩ : Proc O)))) ps')

/-- A step of the model on all processes. -/
def distStep (m : Rule O) (ps : List (Proc O)) : Option (List (Proc O)) :=
  (allOf (fun s => turns m ⟨s.tree, []⟩ s.own) ps).bind (fun ps1 =>
    (allOf (fun s => (fetch false ps1 s).bind (welcome m s)) ps1).bind (publish m))

/-- The beginning: every process inserts the agents of its block. -/
def distInit (m : Rule O) (size : Nat) (root : Tile) (disc d : Rat) (as : List O) : Option (List (Proc O)) :=
  (allOf (fun rank => (Tree.create rank size 0 root disc d).bind (fun t =>
    welcome m ⟨t, []⟩ (as.filter (fun a => getBlockByLocation t.layout (m.locOf a) == some rank))))
    (List.range size)).bind (publish m)

/-- The processes after a number of steps. -/
def distRun (m : Rule O) (size : Nat) (root : Tile) (disc d : Rat) (as : List O) : Nat → Option (List (Proc O))
  | 0 => distInit m size root disc d as
  | n + 1 => (distRun m size root disc d as n).bind (distStep m)

/-- All agents, process by process. -/
def agents (ps : List (Proc O)) : List O := ps.flatMap Proc.own

/-- On a torus of size `w` by `h`, `q` is at most `δ` away from `p` along each axis. -/
def Step (w h δ : Rat) (p q : Pos) : Prop :=
  ∃ k m : Int, (-δ ≤ p.x - (q.x + k * w) ∧ p.x - (q.x + k * w) ≤ δ) ∧
    (-δ ≤ p.y - (q.y + m * h) ∧ p.y - (q.y + m * h) ≤ δ)

end Verif.KdTree
