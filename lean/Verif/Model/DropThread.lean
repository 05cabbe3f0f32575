/-!
# Model of `src/nodes/drop_thread.rs`

The audio thread hands what it no longer needs (programs and atoms) to a thread that frees it. A history is a list of the steps of all threads in the order
in which they happen. `push` and `pop` of the crate `ringbuf` are atomic steps on a bounded queue here, `load` and `store` of the flag too. The 250 ms the
thread sleeps are one step of the thread; how many steps of the others happen meanwhile is left to the history.
-/

namespace HexoDSP.DropThread

/-- Where the thread of `src/nodes/drop_thread.rs:21-34` is. -/
inductive Pc where
  /-- Before the test at line 23. -/
  | check
  /-- Before the `pop` at line 27. -/
  | drain
  /-- Before the end of `sleep` at line 32. -/
  | sleep
  /-- After the `return` at line 24: the consumer of the queue is dropped. -/
  | done
  deriving DecidableEq

/-- The queue, both ends of it and the thread. The last three fields record who freed what, in the order in which it happened. -/
structure Sys (α : Type) where
  queue : List α
  pc : Pc
  /-- `terminate` (`src/nodes/drop_thread.rs:12`). -/
  terminate : Bool
  /-- The executor, which owns the producer (`src/nodes/node_exec.rs:79`), exists. -/
  exec : Bool
  /-- Freed by the drop thread. -/
  byThread : List α
  /-- Freed by the audio thread inside of `process_graph_updates`. -/
  byAudio : List α
  /-- Freed with the executor. -/
  byExecDrop : List α
  deriving DecidableEq

/-- The steps of the threads. -/
inductive Ev (α : Type) where
  /-- `let _ = graph_drop_prod.push(…)` (`src/nodes/node_exec.rs:216`, `src/nodes/node_exec.rs:277`, `src/nodes/node_exec.rs:291`). -/
  | push (x : α)
  /-- The drop thread makes one step. -/
  | thread
  /-- The frontend is dropped: the first line of `drop` (`src/nodes/drop_thread.rs:42`). `join` then waits for `done`. -/
  | dropConf
  /-- The executor is dropped. -/
  | dropExec
  deriving DecidableEq

variable {α : Type}

/-- `src/nodes/drop_thread.rs:17-37`, with the queue of `src/nodes/node_conf.rs:274`. -/
def Sys.new : Sys α := ⟨[], .check, false, true, [], [], []⟩

/-- One step. `cap` is the size of the queue, `NODE_COMMUNICATION_BUFFER_SIZE` in `src/nodes/node_conf.rs:274`. What is left in a queue is freed with
the end of the queue that is dropped last. -/
def Sys.step (cap : Nat) (s : Sys α) : Ev α → Sys α
  | .push x =>
    if s.exec then
      if s.queue.length < cap then { s with queue := s.queue ++ [x] }
      else { s with byAudio := s.byAudio ++ [x] }
    else s
  | .thread =>
    match s.pc with
    | .check =>
      if s.terminate then
        if s.exec then { s with pc := .done }
        else { s with pc := .done, queue := [], byThread := s.byThread ++ s.queue }
      else { s with pc := .drain }
    | .drain =>
      match s.queue with
      | x :: q => { s with queue := q, byThread := s.byThread ++ [x] }
      | [] => { s with pc := .sleep }
    | .sleep => { s with pc := .check }
    | .done => s
  | .dropConf => { s with terminate := true }
  | .dropExec =>
    if s.exec then
      if s.pc = .done then { s with exec := false, queue := [], byExecDrop := s.byExecDrop ++ s.queue }
      else { s with exec := false }
    else s

/-- A history. -/
def Sys.run (cap : Nat) (s : Sys α) : List (Ev α) → Sys α
  | [] => s
  | e :: es => (s.step cap e).run cap es

end HexoDSP.DropThread
