import Verif.Model.Monitor
/-!
# What the monitor shows (C21, C22)

The specification follows a run and only notes what was fed and sent: `Sent` is a list of what was put into each sent buffer, per
signal.
-/

namespace HexoDSP.MonitorSpec
open HexoDSP.Monitor

/-- What the audio thread put into the buffer at hand, and all that was sent so far. -/
structure Log where
  cur : Nat → List ℚ
  sent : List (Nat → List ℚ)

/-- Nothing sent. -/
def Log.new : Log := { cur := fun _ => [], sent := [] }

/-- The log after one action in a state where the audio thread has a buffer at hand or not. -/
def Log.step (l : Log) (hand : Bool) : Op → Log
  | .take => if hand then l else { l with cur := fun _ => [] }
  | .feed i xs => if hand then { l with cur := fun j => if j = i then xs else l.cur j } else l
  | .send => if hand then { l with sent := l.sent ++ [l.cur] } else l
  | _ => l

/-- A run together with its log. -/
def runLog : World → Log → List Op → Option (World × Log)
  | w, l, [] => some (w, l)
  | w, l, op :: ops => (w.step op).bind (fun w' => runLog w' (l.step w.hand.isSome op) ops)

/-- The stream of samples of signal `i`. -/
def stream (sent : List (Nat → List ℚ)) (i : Nat) : List ℚ := sent.flatMap (fun s => s i)

/-- `k`-th window of 900 samples (3 seconds at 48 kHz divided by 160 points). -/
def window (xs : List ℚ) (k : Nat) : List ℚ := (xs.drop (900 * k)).take 900

/-- The true extremes of some samples. -/
structure Extremes (ws : List ℚ) (p : ℚ × ℚ) : Prop where
  loMem : p.1 ∈ ws
  hiMem : p.2 ∈ ws
  bounds : ∀ x ∈ ws, p.1 ≤ x ∧ x ≤ p.2

/-- The display of a stream: the last point shows the last complete window and so on; points without a window are (0, 0). -/
def Shows (xs : List ℚ) (s : Samples) : Prop :=
  ∀ j, j < 160 →
    (j < xs.length / 900 → Extremes (window xs (xs.length / 900 - 1 - j)) (s.at (159 - j))) ∧
    (xs.length / 900 ≤ j → s.at (159 - j) = (0, 0))

/-- The calls of the engine: signals 0 to 5, at most 128 samples. -/
def okFeeds (ops : List Op) : Prop := ∀ i xs, Op.feed i xs ∈ ops → i < 6 ∧ xs.length ≤ 128

/-- All samples within ±100. -/
def quiet (ops : List Op) : Prop := ∀ i xs, Op.feed i xs ∈ ops → ∀ x ∈ xs, -100 ≤ x ∧ x ≤ 100

end HexoDSP.MonitorSpec
