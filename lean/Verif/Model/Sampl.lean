import Mathlib.Data.Rat.Floor
import Mathlib.Algebra.Order.Field.Rat

/-!
# The sample player node

`/repo/src/dsp/node_sampl.rs`.

Simplifications.
* Samples, phases and factors are rational numbers; rounding of the floats is not modelled.
* `cubic_interpolate` is a function of the external crate `synfx-dsp`.
  It is an arbitrary function `interp` of the slice, the index and the fraction.
* The trigger input is the stream of the answers of the external `Trigger::check_trigger`.
* The frequency input is the stream of speeds `freq / 440`.
* A panic is `none`.
* `usize` arithmetic panics on underflow if `checked` (debug builds) and wraps otherwise.
-/

namespace HexoDSP.Sampl

/-- The fields of the node that playing reads and writes.
`/repo/src/dsp/node_sampl.rs:47-55` (`phase`, `is_playing`, `last_sample`, `decaying`). -/
structure St where
  phase : ℚ
  isPlaying : Bool
  last : ℚ
  decaying : ℚ
  deriving DecidableEq, Repr

/-- `Sampl::new`. `/repo/src/dsp/node_sampl.rs:57-67`. -/
def St.init : St := ⟨0, false, 0, 0⟩

/-- What the inputs deliver in one frame: whether the trigger fires, `freq / 440`,
and the denormalized `offs` and `len`.
`/repo/src/dsp/node_sampl.rs:202-213,219,228` (the reads of the inputs in the loop). -/
structure Frame where
  trig : Bool
  speed : ℚ
  offs : ℚ
  len : ℚ
  deriving DecidableEq, Repr

/-- What is fixed during one block: the settings, the sample without its leading sample rate,
`sr_factor`, and the declick time as `ramp_time` (milliseconds times sample rate).
`/repo/src/dsp/node_sampl.rs:164-187` (the arguments and the values computed before the loop). -/
structure Cfg where
  interp : List ℚ → ℕ → ℚ → ℚ
  data : List ℚ
  srFactor : ℚ
  rampTime : ℚ
  doLoop : Bool
  declick : Bool
  reverse : Bool
  checked : Bool

/-- `ramp_sample_count`. `/repo/src/dsp/node_sampl.rs:186`. -/
def Cfg.rampCount (c : Cfg) : ℕ := ⌈c.rampTime / 1000⌉.toNat

/-- `ramp_inc`. `/repo/src/dsp/node_sampl.rs:187`. With a ramp time of zero the code gets
infinity and never uses it, here it is zero. -/
def Cfg.rampInc (c : Cfg) : ℚ := 1000 / c.rampTime

/-- `next_sample`: the new phase and the sample. `/repo/src/dsp/node_sampl.rs:141-159`. -/
def nextSample (c : Cfg) (phase speed : ℚ) (d : List ℚ) : ℚ × ℚ :=
  if d.length < 1 then (phase, 0)
  else
    let i := ⌊phase⌋.toNat % d.length
    let f := phase - ⌊phase⌋
    let phase' := i + f + c.srFactor * speed
    let jf := if c.reverse then (d.length - 1 - i, 1 - f) else (i, f)
    (phase', c.interp d jf.1 jf.2)

/-- The `usize` subtraction `a - b`. `/repo/src/dsp/node_sampl.rs:250`. -/
def usub (checked : Bool) (a b : ℕ) : Option ℕ :=
  if b ≤ a then some (a - b)
  else if checked then none
  else some (((a : ℤ) - b) % 2 ^ 64).toNat

/-- The local variables that the loop keeps from frame to frame.
`/repo/src/dsp/node_sampl.rs:195-199` (`prev_offs`, `prev_len`, `start_idx`, `end_idx_plus1`). -/
structure Loc where
  prevOffs : ℚ
  prevLen : ℚ
  start : ℕ
  count : ℕ

/-- The locals at the start of a block. `/repo/src/dsp/node_sampl.rs:195-199`. -/
def Loc.init (c : Cfg) : Loc := ⟨-10, -10, 0, c.data.length⟩

/-- The new start and length of the played part.
`/repo/src/dsp/node_sampl.rs:217-238`. `f64::round` of a number that is not negative
is the floor of the number plus a half. -/
def relocate (c : Cfg) (l : Loc) (f : Frame) : Loc :=
  let n := c.data.length
  let curOffs := min |f.offs| (999999 / 1000000)
  let recalc := decide (l.prevOffs ≠ curOffs)
  let l1 : Loc :=
    if recalc then { l with start := min ⌊(n : ℚ) * curOffs⌋.toNat n, prevOffs := curOffs } else l
  let curLen := min |f.len| 1
  if recalc || decide (l1.prevLen ≠ curLen) then
    let maxLen := ⌊(n : ℚ) * curLen + 1 / 2⌋.toNat
    let remain := if l1.start ≤ n then min (n - l1.start) maxLen else 0
    { l1 with count := remain, prevLen := curLen }
  else l1

/-- `&sample_data[start_idx..(start_idx + end_idx_plus1)]`, panics if out of range.
`/repo/src/dsp/node_sampl.rs:240`. -/
def slice (d : List ℚ) (start count : ℕ) : Option (List ℚ) :=
  if start + count ≤ d.length then some ((d.drop start).take count) else none

/-- The declick attenuation. `/repo/src/dsp/node_sampl.rs:249-261`. -/
def attenuate (c : Cfg) (sliceLen idx : ℕ) (s : ℚ) : Option ℚ :=
  if c.declick then
    (usub c.checked sliceLen idx).map fun toEnd =>
      s * (if idx < c.rampCount then idx * c.rampInc
           else if toEnd < c.rampCount then toEnd * c.rampInc
           else 1)
  else some s

/-- The fade out of what a trigger interrupted: the new `decaying` and the sample.
`/repo/src/dsp/node_sampl.rs:276-282`. -/
def fade (c : Cfg) (decaying s : ℚ) : ℚ × ℚ :=
  if !c.declick || decide (|decaying| < 1 / 100000) then (0, s)
  else
    let d := decaying * (98 / 100)
    (d, max (-1) (min (s + d) 1))

/-- One frame of the loop. `/repo/src/dsp/node_sampl.rs:201-286`. -/
def frame (c : Cfg) (st : St) (l : Loc) (f : Frame) : Option (St × Loc × ℚ) := do
  let st := if f.trig then { st with phase := 0, decaying := st.last, isPlaying := true } else st
  if st.isPlaying then
    let l' := relocate c l f
    let d ← slice c.data l'.start l'.count
    let idx := ⌊st.phase⌋.toNat
    let r := nextSample c st.phase f.speed d
    let s ← attenuate c d.length idx r.2
    let stop := !c.doLoop && decide (st.phase > r.1)
    let g := fade c st.decaying s
    some (⟨r.1, !stop, g.2, g.1⟩, l', g.2)
  else
    let g := fade c st.decaying 0
    some ({ st with last := g.2, decaying := g.1 }, l, g.2)

/-- The loop over the frames. `/repo/src/dsp/node_sampl.rs:201-286`. -/
def frames (c : Cfg) : St → Loc → List Frame → Option (St × List ℚ)
  | st, _, [] => some (st, [])
  | st, l, f :: fs => do
    let (st', l', s) ← frame c st l f
    let (st'', out) ← frames c st' l' fs
    some (st'', s :: out)

/-- `play`: one block. `/repo/src/dsp/node_sampl.rs:164-289`. -/
def play (c : Cfg) (st : St) (fs : List Frame) : Option (St × List ℚ) :=
  frames c { st with isPlaying := st.isPlaying || c.doLoop } (Loc.init c) fs

/-- The settings of the node and what is loaded into it: `none` is no sample,
`some l` is the sample rate followed by the sample.
`/repo/src/dsp/node_sampl.rs:311-314` (the reads of the atoms). -/
structure Knobs where
  sample : Option (List ℚ)
  pmode : ℤ
  dclick : ℤ
  dir : ℤ

/-- The configuration of `play` that `process` chooses, given the sample rate of the engine.
`/repo/src/dsp/node_sampl.rs:181-187,327-335`. -/
def cfgOf (interp : List ℚ → ℕ → ℚ → ℚ) (checked : Bool) (srate declickMs : ℚ) (k : Knobs)
    (l : List ℚ) : Cfg :=
  ⟨interp, l.tail, l.headD 0 / srate, declickMs * srate, decide (k.pmode = 0),
    decide (k.dclick = 1), decide (k.dir = 1), checked⟩

/-- `process`: the new state, the output buffer and the LED value.
The LED value is not written when the sample is too short.
`/repo/src/dsp/node_sampl.rs:300-345`. -/
def process (interp : List ℚ → ℕ → ℚ → ℚ) (checked : Bool) (srate declickMs : ℚ) (k : Knobs)
    (st : St) (fs : List Frame) : Option (St × List ℚ × Option ℚ) :=
  match k.sample with
  | some l =>
    if l.length < 3 then some ({ st with last := 0 }, fs.map fun _ => 0, none)
    else do
      let (st', out) ← play (cfgOf interp checked srate declickMs k l) st fs
      let led ← out.getLast?
      some (st', out, some led)
  | none =>
    match fs with
    | [] => none
    | _ => some ({ st with last := 0 }, fs.map fun _ => 0, some 0)

end HexoDSP.Sampl
