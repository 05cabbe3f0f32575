import Verif.Model.Delay
import Mathlib.Algebra.Order.Group.Abs
/-! What is expected of the delay node, and what is assumed of the delay line. -/

namespace HexoDSP.DelaySpec
open HexoDSP.Delay

variable {B C : Type}

/-- The mixer plays the first signal at 0, the second one at 1, and nothing louder than the louder of the two between them. -/
structure Mixer (E : Ext B C) : Prop where
  dry : ∀ a b, E.crossfade a b 0 = a
  wet : ∀ a b, E.crossfade a b 1 = b
  between : ∀ a b t, 0 ≤ t → t ≤ 1 → |E.crossfade a b t| ≤ max |a| |b|

/-- The delay line amplifies at most by `g` (a cubic interpolation may overshoot): as long as what it is fed stays within `M`, what is read stays within
`g * M`. `Within M b` says that the line `b` holds nothing louder than `M`. -/
structure Line (E : Ext B C) (g : ℚ) (Within : ℚ → B → Prop) : Prop where
  new : ∀ M, 0 ≤ M → Within M E.newBuf
  reset : ∀ M b, 0 ≤ M → Within M (E.resetBuf b)
  rate : ∀ M b r, Within M b → Within M (E.rateBuf b r)
  feed : ∀ M b x, Within M b → |x| ≤ M → Within M (E.feed b x)
  readAt : ∀ M b k, Within M b → |E.readAt b k| ≤ g * M
  readCubic : ∀ M b t, Within M b → |E.readCubic b t| ≤ g * M

/-- The frames of an event. -/
def frames : Ev → List Frame
  | .block _ fs => fs
  | _ => []

/-- The frames of a history. -/
def allFrames (es : List Ev) : List Frame := (es.map frames).flatten

/-- The input delayed: each frame is read, at the time asked for, from a line that holds the input of all frames before it (since the last reset). -/
def delayed (E : Ext B C) (b : B) : List Ev → List ℚ
  | [] => []
  | .reset :: es => delayed E (E.resetBuf b) es
  | .rate r :: es => delayed E (E.rateBuf b r) es
  | .block _ fs :: es =>
    (fs.mapIdx (fun j f => E.readCubic ((fs.take j).foldl (fun b f => E.feed b f.inp) b) f.time)) ++
      delayed E (fs.foldl (fun b f => E.feed b f.inp) b) es

/-- The input delayed by the clock: each frame is read, by the number of frames the clock tells after the triggers so far, from a line that holds the input of
all frames before it. -/
def clocked (E : Ext B C) (b : B) (c : C) : List Ev → List ℚ
  | [] => []
  | .reset :: es => clocked E (E.resetBuf b) (E.resetClock c) es
  | .rate r :: es => clocked E (E.rateBuf b r) c es
  | .block _ fs :: es =>
    (fs.mapIdx (fun j f => E.readAt ((fs.take j).foldl (fun b f => E.feed b f.inp) b) (E.tickClock ((fs.take j).foldl (fun c f => (E.tickClock c f.trig).1) c) f.trig).2)) ++
      clocked E (fs.foldl (fun b f => E.feed b f.inp) b) (fs.foldl (fun c f => (E.tickClock c f.trig).1) c) es

end HexoDSP.DelaySpec
