import Verif.Model.Scope
import Mathlib.Algebra.Order.Field.Rat
import Mathlib.Data.Rat.Floor
/-!
# Model of the node `Scope`, `src/dsp/node_scope.rs`

Samples, times and thresholds are rational numbers, so sums are exact. The trigger is `CustomTrigger` of the crate `synfx-dsp`, here any
machine. Inputs come as denormalised values; the settings of a block are read once, as in the code. `none` is a panic.
-/

namespace HexoDSP.ScopeNode
open HexoDSP.Scope

/-- `CustomTrigger`: thresholds can be set, a sample can be checked. -/
structure Trigger (T : Type) where
  setThreshold : T → ℚ → ℚ → T
  check : T → ℚ → Bool × T

/-- One frame of the inputs `in1`, `in2`, `in3` and `trig`. -/
structure Frame where
  sig : Fin 3 → ℚ
  trig : ℚ

/-- What is read at the start of a block, `src/dsp/node_scope.rs:132-167`, and the sample rate. -/
structure Settings where
  time : ℚ
  srateMs : ℚ
  thrsh : ℚ
  tsrc : Int
  mask : Nat
  offsGain : Fin 3 → ℚ × ℚ

/-- `src/dsp/node_scope.rs:35-42` `struct Scope`. -/
structure Node (T : Type) where
  handle : Handle ℚ
  idx : Nat
  frameTime : ℚ
  cur : Fin 3 → ℚ × ℚ
  trig : T

/-- `src/dsp/node_scope.rs:46-61` `new`, with the handle of a new scope. -/
def Node.new {T : Type} (t : T) : Node T := ⟨Handle.new, 0, 0, fun _ => (0, 0), t⟩

/-- `src/dsp/node_scope.rs:158` -/
def Settings.clamped (s : Settings) : ℚ := max (1 / 10) (min s.time 300000)

/-- `src/dsp/node_scope.rs:159` -/
def Settings.samplesPerBlock (s : Settings) : ℚ := s.clamped * s.srateMs / 512

/-- `src/dsp/node_scope.rs:160` -/
def Settings.timePerBlock (s : Settings) : ℚ := s.clamped / 512

/-- `src/dsp/node_scope.rs:161` -/
def Settings.sampleTime (s : Settings) : ℚ := 1 / s.srateMs

/-- `src/dsp/node_scope.rs:173` -/
def Settings.copyCount (s : Settings) : Nat := min ⌊1 / s.samplesPerBlock⌋.toNat 512

/-- `src/dsp/node_scope.rs:167` -/
def Settings.disabled (s : Settings) : Bool := decide (s.tsrc = 0)

/-- `src/dsp/node_scope.rs:166` -/
def Settings.trigInput (s : Settings) (f : Frame) : ℚ := if s.tsrc = 2 then f.trig else f.sig 0

/-- The empty window, `src/dsp/node_scope.rs:208`. -/
def empty : Fin 3 → ℚ × ℚ := fun _ => (-99999, 99999)

/-- The three signals, one after the other. -/
def signals : List (Fin 3) := [0, 1, 2]

variable {T : Type}

/-- `src/dsp/node_scope.rs:175-191`: one frame if a sample takes more than one point. -/
def Node.fast (M : Trigger T) (s : Settings) (n : Node T) (f : Frame) : Option (Node T) :=
  let n1 : Option (Node T) :=
    if n.idx < 512 then
      (signals.foldlM (fun (h : Handle ℚ) b => h.writeOversampled b.val n.idx s.copyCount (f.sig b)) n.handle).map
        (fun h => { n with handle := h, idx := n.idx + s.copyCount })
    else some n
  n1.map (fun n =>
    if 512 ≤ n.idx then
      if s.disabled then { n with frameTime := 0, idx := 0 }
      else
        let c := M.check n.trig (s.trigInput f)
        if c.1 then { n with trig := c.2, frameTime := 0, idx := 0 } else { n with trig := c.2 }
    else n)

/-- `src/dsp/node_scope.rs:198-202`: the sample joins the window. -/
def join (cur : Fin 3 → ℚ × ℚ) (f : Frame) : Fin 3 → ℚ × ℚ := fun b => (max (cur b).1 (f.sig b), min (cur b).2 (f.sig b))

/-- `src/dsp/node_scope.rs:197-214`: a sample while the recording goes on. -/
def Node.record (s : Settings) (n : Node T) (f : Frame) : Option (Node T) :=
  let cur := join n.cur f
  if s.timePerBlock ≤ n.frameTime then
    (signals.foldlM (fun (h : Handle ℚ) b => h.write b.val n.idx (cur b)) n.handle).map
      (fun h => { n with handle := h, cur := empty, idx := n.idx + 1, frameTime := n.frameTime - s.timePerBlock + s.sampleTime })
  else some { n with cur := cur, frameTime := n.frameTime + s.sampleTime }

/-- `src/dsp/node_scope.rs:216-225`: at the end of a recording. -/
def Node.restart (M : Trigger T) (s : Settings) (n : Node T) (f : Frame) : Node T :=
  if 512 ≤ n.idx then
    let c := M.check n.trig (s.trigInput f)
    if c.1 then { n with trig := c.2, cur := empty, frameTime := 0, idx := 0 }
    else if s.disabled then { n with trig := c.2, cur := empty, idx := 0 }
    else { n with trig := c.2 }
  else n

/-- `src/dsp/node_scope.rs:196-226`: one frame if a point takes one sample or more. -/
def Node.slow (M : Trigger T) (s : Settings) (n : Node T) (f : Frame) : Option (Node T) :=
  (if n.idx < 512 then n.record s f else some n).map (fun n => n.restart M s f)

/-- One frame. -/
def Node.frame (M : Trigger T) (s : Settings) (n : Node T) (f : Frame) : Option (Node T) :=
  if s.samplesPerBlock < 1 then n.fast M s f else n.slow M s f

/-- `src/dsp/node_scope.rs:141-169`: what happens at the start of a block. -/
def Node.begin (M : Trigger T) (s : Settings) (n : Node T) : Option (Node T) :=
  (signals.foldlM (fun (h : Handle ℚ) b => h.setOffsGain b.val (s.offsGain b).1 (s.offsGain b).2) (n.handle.setActive s.mask)).map
    (fun h => { n with
      handle := h.setThreshold (if s.disabled then none else some s.thrsh),
      trig := M.setThreshold n.trig s.thrsh (s.thrsh + 1 / 10000) })

/-- `src/dsp/node_scope.rs:120-233` `process`. The value of the LED, `229-234`, is left out. -/
def Node.process (M : Trigger T) (s : Settings) (n : Node T) (fs : List Frame) : Option (Node T) :=
  (n.begin M s).bind (fun n => fs.foldlM (fun n f => n.frame M s f) n)

/-- Many blocks. -/
def Node.run (M : Trigger T) (n : Node T) (bs : List (Settings × List Frame)) : Option (Node T) :=
  bs.foldlM (fun n b => n.process M b.1 b.2) n

end HexoDSP.ScopeNode
