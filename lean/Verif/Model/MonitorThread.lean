/-!
# Model of the threads in `src/monitor.rs:207-299`

`Verif/Model/Monitor.lean` models the data of the monitor and takes publishing and getting as single steps. Here the two threads that share the pictures are modelled step
by step: the monitor thread (`src/monitor.rs:230-259`) and the user's thread that calls `get_minmax_monitor_samples` (`src/monitor.rs:270-291`) and drops the
monitor (`src/monitor.rs:294-299`). The six pictures are copied one by one, taking the lock, testing and setting the flags are steps of their own, and the steps
of the threads may be mixed in any way.

The contents of the buffers are of any type `B`, the state of the processor of any type `P`, a picture of any type `S`. The flag is loaded and stored
`Relaxed`: a load may miss a `true` that was stored (`stale`), it never sees one that was not. Sending the buffers back, and the lock being poisoned (nothing
panics while it is held), are left out.
-/

namespace HexoDSP.MonitorThread

/-- What the thread computes with: `process_mon_buf` (`src/monitor.rs:332-338`), that also says whether there is a new point, and `minmax_slice_for_signal`
(`src/monitor.rs:326-329`). -/
structure Ext (B P S : Type) where
  new : P
  process : P → B → P × Bool
  slice : P → Nat → S
  /-- `MinMaxMonitorSamples::new` (`src/monitor.rs:156-158`). -/
  empty : S

/-- Where the monitor thread is. -/
inductive TPc where
  /-- Before the test at line 234. -/
  | check
  /-- Before a `pop` at line 344. -/
  | process
  /-- Before `check_new_data` at line 242. -/
  | look
  /-- Before `lock` at line 244. -/
  | lock
  /-- Before picture `i` is copied at line 246. -/
  | copy (i : Nat)
  /-- Before the flag is set at line 249. -/
  | flag
  /-- Before the lock is given back at line 250. -/
  | unlock
  /-- Before the end of `sleep` at line 255. -/
  | sleep
  /-- After the `return` at line 235. -/
  | done
  deriving DecidableEq

/-- Where the user's thread is. -/
inductive UPc where
  /-- Not in a call. -/
  | idle
  /-- Before the flag is tested at line 277. -/
  | load
  /-- Before `lock` at line 278. -/
  | lock
  /-- Before picture `i` is copied at line 283. -/
  | copy (i : Nat)
  /-- Before the flag is cleared at line 286. -/
  | flag
  /-- Before the lock is given back at line 288. -/
  | unlock
  /-- In `join` at line 297. -/
  | join
  /-- After `drop` returned. -/
  | gone
  deriving DecidableEq

/-- Who holds the lock. -/
inductive Holder where
  | nobody
  | thread
  | user
  deriving DecidableEq

/-- The state of `Monitor` (`src/monitor.rs:207-214`) and of its thread. -/
structure Sys (B P S : Type) where
  queue : List B
  proc : P
  /-- `MonitorProcessor::new_data`. -/
  newData : Bool
  /-- `monitor_samples`. -/
  shared : Nat → S
  /-- `monitor_samples_copy`. -/
  mine : Nat → S
  /-- `Monitor::new_data`. -/
  fresh : Bool
  /-- `terminate_proc`. -/
  terminate : Bool
  holder : Holder
  tpc : TPc
  upc : UPc

/-- The steps. -/
inductive Ev (B : Type) where
  /-- The audio thread sends a buffer. -/
  | push (b : B)
  /-- The monitor thread makes a step. -/
  | thread
  /-- The user calls `get_minmax_monitor_samples`. -/
  | get
  /-- The user's thread makes a step in its call. -/
  | user
  /-- The same; if it tests the flag, it does not see that it was set. -/
  | stale
  /-- The user drops the monitor. -/
  | drop
  deriving DecidableEq

variable {B P S : Type}

/-- `src/monitor.rs:217-268` `Monitor::new`. -/
def Sys.new (E : Ext B P S) : Sys B P S where
  queue := []
  proc := E.new
  newData := false
  shared := fun _ => E.empty
  mine := fun _ => E.empty
  fresh := false
  terminate := false
  holder := .nobody
  tpc := .check
  upc := .idle

/-- One picture replaced. -/
def put (f : Nat → S) (i : Nat) (x : S) : Nat → S := fun k => if k = i then x else f k

/-- `src/monitor.rs:230-259`: the next step of the monitor thread. Waiting for the lock is a step that changes nothing. -/
def Sys.threadStep (E : Ext B P S) (s : Sys B P S) : Sys B P S :=
  match s.tpc with
  | .check => if s.terminate then { s with tpc := .done } else { s with tpc := .process }
  | .process =>
    match s.queue with
    | b :: q => { s with queue := q, proc := (E.process s.proc b).1, newData := s.newData || (E.process s.proc b).2 }
    | [] => { s with tpc := .look }
  | .look => if s.newData then { s with newData := false, tpc := .lock } else { s with tpc := .sleep }
  | .lock => if s.holder = .nobody then { s with holder := .thread, tpc := .copy 0 } else s
  | .copy i => { s with shared := put s.shared i (E.slice s.proc i), tpc := if i + 1 < 6 then .copy (i + 1) else .flag }
  | .flag => { s with fresh := true, tpc := .unlock }
  | .unlock => { s with holder := .nobody, tpc := .sleep }
  | .sleep => { s with tpc := .check }
  | .done => s

/-- `src/monitor.rs:270-291` and `src/monitor.rs:296-297`: the next step of the user's thread; `sees` says whether a flag that is set is seen. -/
def Sys.userStep (s : Sys B P S) (sees : Bool) : Sys B P S :=
  match s.upc with
  | .idle => s
  | .load => if s.fresh && sees then { s with upc := .lock } else { s with upc := .idle }
  | .lock => if s.holder = .nobody then { s with holder := .user, upc := .copy 0 } else s
  | .copy i => { s with mine := put s.mine i (s.shared i), upc := if i + 1 < 6 then .copy (i + 1) else .flag }
  | .flag => { s with fresh := false, upc := .unlock }
  | .unlock => { s with holder := .nobody, upc := .idle }
  | .join => if s.tpc = .done then { s with upc := .gone } else s
  | .gone => s

/-- A step. A call is made only if no other call is running (`&mut self`), and a buffer that is sent when the queue is full is not sent (it is left out of the
history). -/
def Sys.step (E : Ext B P S) (s : Sys B P S) : Ev B → Sys B P S
  | .push b => { s with queue := s.queue ++ [b] }
  | .thread => s.threadStep E
  | .get => if s.upc = .idle then { s with upc := .load } else s
  | .user => s.userStep true
  | .stale => s.userStep false
  | .drop => if s.upc = .idle then { s with terminate := true, upc := .join } else s

/-- A history. -/
def Sys.run (E : Ext B P S) (s : Sys B P S) : List (Ev B) → Sys B P S
  | [] => s
  | e :: es => (s.step E e).run E es

end HexoDSP.MonitorThread
