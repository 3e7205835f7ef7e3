import Verif.Model.ParallelSchedule

/-!
Model of a step of the schedule in which agents panic, src/engine/schedule.rs:127-221 (parallel) and 347-413
(sequential).

In the parallel variant a worker calls the hooks of an agent while it holds the guard of the state's mutex
(187-211). A panic in a hook unwinds through that guard and poisons the mutex; the worker dies and the rest of its
batch is dropped. Every other worker dies at its next `state.lock().expect(..)` (187). The error the scope returns
is bound to `_result` (176) and never looked at; what reports the panic is the `expect` on the poisoned lock after
the scope (215-216).

Not modelled: panics of the state's own hooks (they run on the caller's thread, so that the panic simply leaves
`step`), of `Clone` for agents and of the allocator; `panic = "abort"`.
-/

namespace Verif.Panics

open Verif.Schedule

variable {T A S : Type}

/-- The hooks of agents, src/engine/agent.rs: each call returns or panics (`error`), having changed the state. -/
structure Hooks (A S : Type) where
  aBefore : A → S → Except S (A × S)
  aStep : A → S → Except S (A × S)
  aAfter : A → S → Except S (A × S)
  isStopped : A → S → Except S (Bool × A × S)

/-- One iteration of the agent loop, src/engine/schedule.rs:395-408 and 185-211; `error w` when a hook panics, with
the world it leaves. -/
def runItem (m : Model T A S) (p : Hooks A S) (w : World T A S) (item : Entry T A) :
    Except (World T A S) (World T A S) :=
  match p.aBefore item.1.agent w.state with
  | .error s => .error { w with state := s, trace := w.trace ++ [.agentBefore item.1.id] }
  | .ok r1 =>
  match p.aStep r1.1 r1.2 with
  | .error s =>
    .error { w with
      state := s
      trace := w.trace ++ [.agentBefore item.1.id, .agentStep item.1.id item.2] }
  | .ok r2 =>
  match p.aAfter r2.1 r2.2 with
  | .error s =>
    .error { w with
      state := s
      trace := w.trace ++ [.agentBefore item.1.id, .agentStep item.1.id item.2, .agentAfter item.1.id] }
  | .ok r3 =>
  if item.1.repeating then
    match p.isStopped r3.1 r3.2 with
    | .error s =>
      .error { w with
        state := s
        trace := w.trace ++ [.agentBefore item.1.id, .agentStep item.1.id item.2, .agentAfter item.1.id] }
    | .ok r4 =>
      if r4.1 then
        .ok { w with
          state := r4.2.2
          trace := w.trace ++ [.agentBefore item.1.id, .agentStep item.1.id item.2, .agentAfter item.1.id] }
      else
        .ok {
          state := r4.2.2
          sched := w.sched.scheduleOnce { item.1 with agent := r4.2.1 } (m.adv item.2.time) item.2.ordering
          trace := w.trace ++ [.agentBefore item.1.id, .agentStep item.1.id item.2, .agentAfter item.1.id] }
  else
    .ok { w with
      state := r3.2
      trace := w.trace ++ [.agentBefore item.1.id, .agentStep item.1.id item.2, .agentAfter item.1.id] }

/-- How a step ends (src/engine/schedule.rs:127-221, 347-413). -/
inductive Out (T A S : Type) where
  /-- `std::process::exit(0)`, src/engine/schedule.rs:142 (parallel only) -/
  | exit
  /-- index out of bounds, 165-169 with `thread_num = 0` (parallel only) -/
  | noThreads
  /-- `step` panics; the world as an unwinding caller finds it -/
  | panicked (w : World T A S)
  | ok (w : World T A S)

/-- The loop over the popped agents, src/engine/schedule.rs:395-408: the first panic leaves it. -/
def runItems (m : Model T A S) (p : Hooks A S) : World T A S → List (Entry T A) →
    Except (World T A S) (World T A S)
  | w, [] => .ok w
  | w, e :: es =>
    match runItem m p w e with
    | .error w' => .error w'
    | .ok w' => runItems m p w' es

/-- src/engine/schedule.rs:347-413 (`Schedule::step`, sequential). -/
def seqStep [LinearOrder T] (m : Model T A S) (p : Hooks A S) (w : World T A S) : Out T A S :=
  match (preStep m w).sched.events.peek m.tb (preStep m w).sched.pops with
  | none => .ok (postStep m (preStep m w))
  | some top =>
    match runItems m p
        { preStep m w with
          sched := (popDue m.tb (preStep m w).sched.events.length
            { (preStep m w).sched with time := top.2.time }).2 }
        (popDue m.tb (preStep m w).sched.events.length
          { (preStep m w).sched with time := top.2.time }).1 with
    | .error w' => .panicked w'
    | .ok w' => .ok (postStep m w')

/-- The workers of a parallel step: what each still has to do, what they share, and whether the state's mutex is
poisoned (src/engine/schedule.rs:176-213). -/
structure Workers (T A S : Type) where
  bs : List (List (Entry T A))
  w : World T A S
  poisoned : Bool

/-- One iteration of some worker, src/engine/schedule.rs:185-211. -/
inductive Move (m : Model T A S) (p : Hooks A S) : Workers T A S → Workers T A S → Prop where
  /-- the lock is taken and the agent runs -/
  | run {bs : List (List (Entry T A))} {w w' : World T A S} {i : Nat} {e : Entry T A} {rest : List (Entry T A)}
      (hi : bs[i]? = some (e :: rest)) (h : runItem m p w e = .ok w') :
      Move m p ⟨bs, w, false⟩ ⟨bs.set i rest, w', false⟩
  /-- the lock is taken and the agent panics: the lock is poisoned and the worker dies -/
  | crash {bs : List (List (Entry T A))} {w w' : World T A S} {i : Nat} {e : Entry T A} {rest : List (Entry T A)}
      (hi : bs[i]? = some (e :: rest)) (h : runItem m p w e = .error w') :
      Move m p ⟨bs, w, false⟩ ⟨bs.set i [], w', true⟩
  /-- the lock is poisoned: `expect("error on lock")` panics and the worker dies (187) -/
  | refused {bs : List (List (Entry T A))} {w : World T A S} {i : Nat} {e : Entry T A} {rest : List (Entry T A)}
      (hi : bs[i]? = some (e :: rest)) :
      Move m p ⟨bs, w, true⟩ ⟨bs.set i [], w, true⟩

/-- Finitely many iterations (src/engine/schedule.rs:176-213). -/
inductive Moves (m : Model T A S) (p : Hooks A S) : Workers T A S → Workers T A S → Prop where
  | refl (x : Workers T A S) : Moves m p x x
  | step {x y z : Workers T A S} (h : Move m p x y) (hs : Moves m p y z) : Moves m p x z

/-- The workers at the beginning of the scope, src/engine/schedule.rs:145-182. -/
def Workers.start [LinearOrder T] (m : Model T A S) (k : Nat) (top : Entry T A) (w : World T A S) :
    Workers T A S where
  bs := batches k (popAll m.tb w.sched.events.length w.sched.pops w.sched.events)
  w := { w with
    sched := { w.sched with
      time := top.2.time
      events := []
      pops := w.sched.pops + (popAll m.tb w.sched.events.length w.sched.pops w.sched.events).length } }
  poisoned := false

/-- What the caller's thread does once the scope has joined every worker, src/engine/schedule.rs:215-219. -/
def Workers.finish (m : Model T A S) (x : Workers T A S) : Out T A S :=
  if x.poisoned then .panicked x.w else .ok (postStep m x.w)

/-- src/engine/schedule.rs:127-221 (`Schedule::step`, parallel) with `k` worker threads; one outcome for every
interleaving of the workers. -/
inductive ParStep [LinearOrder T] (m : Model T A S) (p : Hooks A S) (k : Nat) (w : World T A S) :
    Out T A S → Prop where
  | exit (h : (preStep m w).sched.events = []) : ParStep m p k w .exit
  | noThreads (h : (preStep m w).sched.events ≠ []) (hk : k = 0) : ParStep m p k w .noThreads
  | scope {top : Entry T A} {x : Workers T A S} (hk : 0 < k)
      (htop : (preStep m w).sched.events.peek m.tb (preStep m w).sched.pops = some top)
      (hx : Moves m p (Workers.start m k top (preStep m w)) x) (hend : ∀ b ∈ x.bs, b = []) :
      ParStep m p k w (x.finish m)

end Verif.Panics
