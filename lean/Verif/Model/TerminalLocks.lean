import Verif.Model.Locks

/-!
The mutexes and channels of the threads `simulate!` starts (src/lib.rs:768-1151, src/utils/monitoring/ui.rs) and of the
systems of the visualization (src/visualization/systems/*.rs, src/visualization/fields/*.rs), with the conventions of
`Verif.Model.Locks`. `try_recv` and `send` never block: the channels are unbounded. The schedule is the sequential one.
-/

namespace Verif.Locks

/-- The events of the Simulation Terminal: thread `t` has been started, has ended (0 monitoring, 1 terminal, 2 CSV,
3 simulation), message `k` for the CSV thread has been sent. -/
inductive TEv where
  | spawned (t : Nat)
  | ended (t : Nat)
  | message (k : Nat)
deriving DecidableEq

/-- src/lib.rs:790-830: the monitoring thread. An iteration either finds the process and locks `MONITOR` (806-816) or
logs (819). It is not joined. -/
def monitorThread (iterations : List Bool) : Trace TEv :=
  .await (.spawned 0) :: iterations.flatMap fun found => if found then guarded .monitor [] else logL []

/-- An iteration of the terminal thread: whether the first tab is shown, whether the description is shown, whether a
key is pressed that is not known, whether a message is there, and whether it finds `AfterStep` and `AfterRep`. -/
structure TerminalPass where
  firstTab : Bool
  description : Bool
  badKey : Bool
  message : Bool
  afterStep : Bool
  afterRep : Bool

/-- src/utils/monitoring/ui.rs:278-317 (`draw`): the names of the plots (283), the tab (301-308: `LOGS` is held while
the first tab is drawn, 498; `DATA` while another one is, 322), the description (312). -/
def drawL (p : TerminalPass) : Trace TEv :=
  guarded .data [] ++ (if p.firstTab then guarded .logs [] else guarded .data []) ++
  (if p.description then guarded .descr [] else [])

/-- src/lib.rs:848-936: an iteration of the terminal thread. The log of an unknown key is at 865 or ui.rs:179; the two
clones are at 886-887, each with its own guard; `on_tick` (893) locks `MONITOR` (ui.rs:193-197) before
`tui_operation` (895). -/
def passL (p : TerminalPass) : Trace TEv :=
  drawL p ++ (if p.badKey then logL [] else []) ++
  if p.message then
    guarded .tuiOperation [] ++ guarded .tuiReps [] ++
    (if p.afterStep then guarded .monitor [] ++ guarded .tuiOperation [] else []) ++
    (if p.afterRep then guarded .tuiReps [] else [])
  else []

/-- src/lib.rs:839-938: the terminal thread, for any number of iterations. -/
def terminalThread (ps : List TerminalPass) : Trace TEv :=
  .await (.spawned 1) :: (ps.flatMap passL ++ [.signal (.ended 1)])

/-- src/lib.rs:949-1003: the CSV thread receives the messages one by one (971, 979); on an `Init` it locks `PLOT_NAMES`
while the files are opened (953-964). `ms` has the messages and whether they are an `Init`. -/
def csvThread (ms : List (Nat × Bool)) : Trace TEv :=
  .await (.spawned 2) ::
    (ms.flatMap (fun m => .await (.message m.1) :: if m.2 then guarded .plotNames [] else []) ++
    [.signal (.ended 2)])

/-- A repetition of the simulation thread: what the user does in `init`, in each step (`Schedule::step` and
`end_condition`, with the outcome of the latter and whether the send of 1059 failed), and whether the first send failed.
`init` and `finish` are the numbers of the messages at 1037 and 1089. -/
structure RepPlan where
  interrupted : Bool
  init : List User
  initMessage : Nat
  steps : List (List User × Bool × List User × Bool)
  endMessage : Nat
  lastSendFails : Bool

/-- src/lib.rs:1044-1083: a step. -/
def simStepL (s : List User × Bool × List User × Bool) : Trace TEv :=
  userTrace .message s.1 ++ guarded .tuiOperation [] ++
  if s.2.1 then logL []
  else userTrace .message s.2.2.1 ++ if s.2.2.2 then guarded .tuiOperation [] ++ logL [] else []

/-- src/lib.rs:1011-1120: a repetition. Logs (1013), data (1017), `tui_operation` (1020), the interruption (1028),
`init` (1035), the first message (1037), a log (1040), the steps, a log (1086), a message (1089), the plots stored under
`DATA` (1093), `tui_reps` (1105), a log if the last send fails (1115). -/
def repL (r : RepPlan) : Trace TEv :=
  guarded .logs [] ++ guarded .data [] ++ guarded .tuiOperation [] ++
  if r.interrupted then logL []
  else
    userTrace .message r.init ++ guarded .csvSender [.signal (.message r.initMessage)] ++ logL [] ++
    r.steps.flatMap simStepL ++ logL [] ++ guarded .csvSender [.signal (.message r.endMessage)] ++
    guarded .data [] ++ guarded .tuiReps [] ++ if r.lastSendFails then logL [] else []

/-- src/lib.rs:1006-1126: the simulation thread; the last message is `Quit` (1123). -/
def simThread (rs : List RepPlan) (quit : Nat) : Trace TEv :=
  .await (.spawned 3) :: (rs.flatMap repL ++ guarded .csvSender [.signal (.message quit)] ++ [.signal (.ended 3)])

/-- src/lib.rs:790, 839, 941-949, 1006, 1128-1151: the thread that runs `simulate!` starts the others, waits for the
simulation and the CSV thread, locks `LOGS` to store them, and waits for the terminal thread. -/
def mainThread : Trace TEv :=
  [.signal (.spawned 0), .signal (.spawned 1)] ++ guarded .csvSender [] ++
  [.signal (.spawned 2), .signal (.spawned 3), .await (.ended 3), .await (.ended 2)] ++
  guarded .logs [] ++ [.await (.ended 1)]

/-- The numbers of the messages a program sends, in order. -/
def messages (p : Trace TEv) : List Nat := p.filterMap fun
  | .signal (.message k) => some k
  | _ => none

/-- All threads of `simulate!` with the terminal. The CSV thread receives exactly what the simulation thread sends. -/
def terminalL (mon : List Bool) (ps : List TerminalPass) (isInit : Nat → Bool) (rs : List RepPlan) (quit : Nat) :
    List (Trace TEv) :=
  [mainThread, monitorThread mon, terminalThread ps,
   csvThread ((messages (simThread rs quit)).map fun k => (k, isInit k)), simThread rs quit]

/-! ### The systems of the visualization -/

/-- The resources of Bevy that the systems ask for. -/
inductive Resource where
  | activeState
  | activeSchedule
  | descriptor
  | visualizationState
deriving DecidableEq

/-- A run of a system. Callbacks are given by what the code of the user does in them. -/
inductive System where
  | simulation (paused : Bool) (step : List User)
  | ui (stop : Bool) (reset start onInit setup : List User)
  | renderer (paused : Bool) (before : List User) (agents : List (List User × Bool))
  | init (window : Bool) (onInit setup : List User)
  | camera
  | render (body : List User)

/-- The resources a system asks for, with `true` for `ResMut` and `false` for `Res`. -/
def System.access : System → List (Resource × Bool)
  -- systems/simulation_system.rs:11-15
  | .simulation _ _ => [(.activeSchedule, true), (.activeState, true), (.descriptor, false)]
  -- systems/ui_system.rs:20-31
  | .ui _ _ _ _ _ => [(.descriptor, true), (.activeSchedule, true), (.activeState, true), (.visualizationState, false)]
  -- systems/renderer_system.rs:14-30
  | .renderer _ _ _ =>
    [(.activeState, true), (.activeSchedule, false), (.visualizationState, true), (.descriptor, false)]
  -- systems/init_system.rs:20-28
  | .init _ _ _ =>
    [(.visualizationState, false), (.activeState, true), (.activeSchedule, true), (.descriptor, true)]
  -- systems/camera_system.rs:11-15
  | .camera => [(.descriptor, false)]
  -- fields/number_grid_2d.rs:87-91, object_grid_2d.rs:92-96, network.rs:101
  | .render _ => [(.activeState, false)]

/-- What a system does to the two mutexes. -/
def System.trace (mk : Nat → E) : System → Trace E
  -- systems/simulation_system.rs:16-22: the receiver is locked before the argument
  | .simulation paused step =>
    if paused then [] else guarded .visSchedule (guarded .visState (userTrace mk step))
  -- systems/ui_system.rs:38-43 and, when Stop is clicked, 80-104
  | .ui stop reset start onInit setup =>
    guarded .visSchedule [] ++
    if stop then
      guarded .visState (userTrace mk reset) ++ guarded .visState (userTrace mk start) ++
      guarded .visState (userTrace mk onInit) ++ guarded .visState (userTrace mk setup) ++ guarded .visSchedule []
    else []
  -- systems/renderer_system.rs:31-65: `before_render` with both guards, then for every agent the state and, if the
  -- agent is gone, the schedule
  | .renderer paused before agents =>
    if paused then []
    else
      guarded .visState (guarded .visSchedule (userTrace mk before)) ++
      agents.flatMap fun a => guarded .visState (userTrace mk a.1 ++ if a.2 then guarded .visSchedule [] else [])
  -- systems/init_system.rs:29-66: state then schedule for `on_init`, schedule then state for `setup_graphics`
  | .init window onInit setup =>
    if window then
      guarded .visState (guarded .visSchedule (userTrace mk onInit)) ++
      guarded .visSchedule (guarded .visState (userTrace mk setup))
    else []
  | .camera => []
  -- fields/number_grid_2d.rs:95-96, object_grid_2d.rs:99, network.rs:102: the state, while the user's code is called
  | .render body => guarded .visState (userTrace mk body)

end Verif.Locks
