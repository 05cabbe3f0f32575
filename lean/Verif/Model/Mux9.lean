import Mathlib.Data.Rat.Floor
/-!
# Model of `src/dsp/node_mux9.rs`

Signals are rationals. `Trigger` (crate `synfx_dsp`) is an arbitrary state machine: `check` is `check_trigger`. The index is a
`u8`; `none` is a panic (overflow of `u8`, remainder by zero). The LED value is left out.
-/

namespace HexoDSP.Mux

variable {T : Type}

/-- `src/dsp/node_mux9.rs:31-37` `struct Mux9`. -/
structure Mux9 (T : Type) where
  rst : T
  up : T
  down : T
  idx : Nat

/-- `src/dsp/node_mux9.rs:40-47` `new`. -/
def Mux9.new (t0 : T) : Mux9 T := { rst := t0, up := t0, down := t0, idx := 0 }

/-- The (denormalised) inputs in one frame; `ins` are `in_1` to `in_9`. -/
structure Frame where
  slct : ℚ
  rst : ℚ
  up : ℚ
  down : ℚ
  ins : Nat → ℚ

/-- `src/dsp/node_mux9.rs:163-173`, `191-201`: the `match self.idx`; every index above 7 is `in_9`. -/
def Frame.pick (f : Frame) (idx : Nat) : ℚ := f.ins (min idx 8)

/-- `as u8` of a float: saturating. -/
def satU8 (x : ℤ) : Nat := min x.toNat 255

/-- `src/dsp/node_mux9.rs:159-160`. -/
def selectIdx (max : Nat) (slct : ℚ) : Nat := satU8 ⌊(max : ℚ) * (slct - 1 / 100000)⌋ % max

/-- `src/dsp/node_mux9.rs:158-175`: the loop with a connected `slct`. -/
def selectFrames (max : Nat) : Mux9 T → List Frame → List ℚ × Mux9 T
  | s, [] => ([], s)
  | s, f :: fs =>
    let s := { s with idx := selectIdx max f.slct }
    let r := selectFrames max s fs
    (f.pick s.idx :: r.1, r.2)

/-- A checked `u8` addition. -/
def addU8 (a b : Nat) : Option Nat := if a + b ≤ 255 then some (a + b) else none

/-- `src/dsp/node_mux9.rs:179-189`: the triggers in one frame. -/
def triggerStep (check : T → ℚ → Bool × T) (max : Nat) (s : Mux9 T) (f : Frame) : Option (Mux9 T) :=
  let r := check s.rst f.rst
  let i := if r.1 then 0 else s.idx
  let u := check s.up f.up
  match (if u.1 then (addU8 i 1).map (fun x => x % max) else some i) with
  | none => none
  | some i =>
    let d := check s.down f.down
    match (if d.1 then (addU8 i max).map (fun x => (x - 1) % max) else some i) with
    | none => none
    | some i => some { rst := r.2, up := u.2, down := d.2, idx := i }

/-- `src/dsp/node_mux9.rs:178-203`: the loop without a connected `slct`. -/
def triggerFrames (check : T → ℚ → Bool × T) (max : Nat) : Mux9 T → List Frame → Option (List ℚ × Mux9 T)
  | s, [] => some ([], s)
  | s, f :: fs =>
    match triggerStep check max s f with
    | none => none
    | some s => (triggerFrames check max s fs).map (fun r => (f.pick s.idx :: r.1, r.2))

/-- `src/dsp/node_mux9.rs:127-209` `process` for one block. `inCnt` is the setting, `inConnected` the mask. -/
def Mux9.process (check : T → ℚ → Bool × T) (s : Mux9 T) (inCnt : ℤ) (inConnected : Nat) (fs : List Frame) :
    Option (List ℚ × Mux9 T) :=
  match addU8 (inCnt % 256).toNat 1 with
  | none => none
  | some max =>
    let s := { s with idx := s.idx % max }
    if inConnected &&& 1 = 1 then some (selectFrames max s fs) else triggerFrames check max s fs

/-- A sequence of blocks, each with its setting, mask and frames. -/
def Mux9.blocks (check : T → ℚ → Bool × T) : Mux9 T → List (ℤ × Nat × List Frame) → Option (List ℚ × Mux9 T)
  | s, [] => some ([], s)
  | s, (c, m, fs) :: bs =>
    match s.process check c m fs with
    | none => none
    | some (o, s) => (Mux9.blocks check s bs).map (fun r => (o ++ r.1, r.2))

end HexoDSP.Mux
