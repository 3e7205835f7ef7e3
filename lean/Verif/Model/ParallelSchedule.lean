import Verif.Model.Schedule

/-!
Model of the `parallel` variant of the schedule, src/engine/schedule.rs:49-222.

The structure differs from the sequential one only in `thread_num` (a parameter `k` here) and in the
`Arc<Mutex<..>>` wrappers; the model reuses `Sched` and the queue. Hooks, agents and API calls are as
in the sequential model (`dequeue` does not exist in this variant, so allowing it only makes the
theorems stronger).

Each worker holds the lock of the state during a whole loop iteration (the guard taken at 187 lives until the
end of the iteration, 211), and takes the queue's lock inside it. Iterations are therefore atomic, and a run
of the workers is an interleaving of their batches, iteration by iteration.
-/

namespace Verif.Schedule

variable {T A S : Type}

/-- The pop loop of the parallel step, src/engine/schedule.rs:155-174: pops until the queue is empty,
whatever the times. `fuel` bounds the iterations; the length of the queue is enough. -/
def popAll [LinearOrder T] (tb : TieBreak T A) : Nat → Nat → Queue T A → List (Entry T A)
  | 0, _, _ => []
  | fuel + 1, n, q =>
    match q.pop tb n with
    | none => []
    | some (e, q') => e :: popAll tb fuel (n + 1) q'

/-- `cevents[i % thread_num].push(..)` for the events in pop order, src/engine/schedule.rs:155-174;
`i` is the running index. (`thread_num = 0` panics and is treated in `ParStep`.) -/
def deal (k : Nat) : Nat → List (Entry T A) → List (List (Entry T A)) → List (List (Entry T A))
  | _, [], bs => bs
  | i, e :: es, bs => deal k (i + 1) es (bs.modify (i % k) (fun b => b ++ [e]))

/-- The batches of the `k` workers, src/engine/schedule.rs:145 and 155-174. (The workers take them from
the back, 181; which worker has which batch does not matter.) -/
def batches (k : Nat) (es : List (Entry T A)) : List (List (Entry T A)) :=
  deal k 0 es (List.replicate k [])

/-- `Interleaves bs seq`: the workers with remaining work `bs` can finish by performing their iterations in the
global order `seq` (src/engine/schedule.rs:176-213). -/
inductive Interleaves {α : Type} : List (List α) → List α → Prop where
  | done {bs : List (List α)} (h : ∀ b ∈ bs, b = []) : Interleaves bs []
  | pick {bs : List (List α)} {i : Nat} {e : α} {rest seq : List α}
      (hi : bs[i]? = some (e :: rest)) (h : Interleaves (bs.set i rest) seq) : Interleaves bs (e :: seq)

/-- How a parallel step can end (src/engine/schedule.rs:127-221). -/
inductive ParOut (T A S : Type) where
  /-- `std::process::exit(0)`, src/engine/schedule.rs:142 -/
  | exit
  /-- index out of bounds (165-169 with `thread_num = 0`) -/
  | panic
  | ok (w : World T A S)

/-- The world after the workers performed their iterations in the order `seq`: every iteration is the body of
the sequential loop (src/engine/schedule.rs:185-211, same as 395-408). -/
def parRun (m : Model T A S) (top : Entry T A) (seq : List (Entry T A)) (w : World T A S) : World T A S :=
  seq.foldl (runOne m)
    { w with sched := { w.sched with time := top.2.time, events := [], pops := w.sched.pops + seq.length } }

/-- src/engine/schedule.rs:127-221 (`Schedule::step`, parallel) with `k` worker threads; one outcome for every
interleaving of the workers. -/
inductive ParStep [LinearOrder T] (m : Model T A S) (k : Nat) (w : World T A S) : ParOut T A S → Prop where
  | exit (h : (preStep m w).sched.events = []) : ParStep m k w .exit
  | panic (h : (preStep m w).sched.events ≠ []) (hk : k = 0) : ParStep m k w .panic
  | ok {top : Entry T A} {seq : List (Entry T A)} (hk : 0 < k)
      (htop : (preStep m w).sched.events.peek m.tb (preStep m w).sched.pops = some top)
      (hseq : Interleaves (batches k (popAll m.tb (preStep m w).sched.events.length
        (preStep m w).sched.pops (preStep m w).sched.events)) seq) :
      ParStep m k w (.ok (postStep m (parRun m top seq (preStep m w))))

end Verif.Schedule
