/-!
# Model of the logger, `src/log.rs`

Threads write messages into ring buffers of bytes, one for each thread; a reader takes the messages out of all of them. The steps are those the
threads can observe of each other: `push_slice` of the crate `ringbuf` publishes all its bytes at once, `pop` takes one byte. The reader holds
the lock `LOG_RECV` from the beginning of `retrieve_log_messages` to its end.

The closure given to `log` is modelled by the text it writes; closures that call `flush` themselves and texts of more than 8192 bytes (the
size of the `BufWriter`) are not modelled.
-/

namespace HexoDSP.Log

abbrev Byte := UInt8

/-- The bytes of a string. -/
def utf8 (s : String) : List Byte := s.toByteArray.data.toList

/-- `std::str::from_utf8`. -/
def fromUtf8 (b : List Byte) : Option String := String.fromUTF8? ⟨b.toArray⟩

/-- `src/log.rs:48`: `MAX_LOG_BUFFER`. -/
def maxLogBuffer : Nat := 4096

/-- `Producer::push_slice`: as many bytes as there is space for. -/
def pushSlice (q data : List Byte) : List Byte := q ++ data.take (maxLogBuffer - q.length)

/-- A logger: its name and the bytes in its ring buffer (`src/log.rs:50-52,76-82`). -/
structure Logger where
  name : String
  queue : List Byte

/-- A call of the closure given to `retrieve_messages` for logger number `logger`. -/
structure Delivered where
  logger : Nat
  name : String
  text : String
  deriving DecidableEq

/-- `reader`: the reader is in the loop `src/log.rs:59-74` for this consumer with `buf[0..oi]`. `out`: what it delivered. -/
structure State where
  loggers : List Logger
  reader : Option (Nat × List Byte)
  out : List Delivered

def State.init : State := ⟨[], none, []⟩

/-- `src/log.rs:104-119` `Log::log`: the bytes pushed for a text. `none`: panic, `&self.buf[0..len]` is out of range. -/
def frame (s : String) : Option (List Byte) :=
  let b := utf8 s
  let buf := b ++ List.replicate (512 - b.length) 0xFF
  if b.length > 512 then none
  else if b.length < 512 - 1 then some (buf.take (b.length + 1)) else some (buf.take b.length)

/-- What can happen next. `log k s`: the thread of logger `k` logs the text `s`. `pushData`, `pushEnd`: the two halves of `log_buf`. -/
inductive Action where
  | spawn (name : String)
  | log (k : Nat) (s : String)
  | pushData (k : Nat) (data : List Byte)
  | pushEnd (k : Nat)
  | startRead
  | readStep

/-- The bytes arrive in the ring buffer of logger `k`. -/
def State.push (s : State) (k : Nat) (data : List Byte) : State :=
  { s with loggers := s.loggers.modify k (fun l => { l with queue := pushSlice l.queue data }) }

/-- One iteration of the loops `src/log.rs:59-74`. -/
def State.readStep (s : State) : Option State :=
  match s.reader with
  | none => some s
  | some (k, buf) => match s.loggers[k]? with
    | none => some { s with reader := none }
    | some l => match l.queue with
      | [] => some { s with reader := some (k + 1, []) }
      | byte :: rest =>
        let s' := { s with loggers := s.loggers.modify k (fun l => { l with queue := rest }) }
        if buf.length ≥ 1024 ∨ byte = 0xFF then
          match fromUtf8 buf with
          | none => none
          | some t => some { s' with reader := some (k, []), out := s.out ++ [⟨k, l.name, t⟩] }
        else some { s' with reader := some (k, buf ++ [byte]) }

/-- `src/log.rs:19-120`. `none`: panic. Making a logger and starting to read wait for the lock: nothing happens while the reader has it. -/
def State.step (s : State) : Action → Option State
  | .spawn name => some (match s.reader with
    | none => { s with loggers := s.loggers ++ [⟨name, []⟩] }
    | some _ => s)
  | .log k t => match frame t with
    | none => none
    | some d => some (s.push k d)
  | .pushData k d => some (s.push k d)
  | .pushEnd k => some (s.push k [0xFF])
  | .startRead => some (match s.reader with
    | none => { s with reader := some (0, []) }
    | some _ => s)
  | .readStep => s.readStep

end HexoDSP.Log
