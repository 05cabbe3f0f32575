/-!
# Model of `src/scope_handle.rs`

Values are of an arbitrary type `V` with a zero. The atomics are plain variables: calls of one thread are not
interleaved with those of another. `SCOPE_SAMPLES` is 512 (`src/nodes/mod.rs:5`). `none` is a panic. The sum
`idx + copies` is assumed not to overflow.
-/

namespace HexoDSP.Scope

variable {V : Type} [OfNat V 0]

/-- `src/scope_handle.rs:10-16` `struct ScopeHandle`. -/
structure Handle (V : Type) where
  bufs : List (List (V × V))
  active : List Bool
  offsGain : List (V × V)
  threshold : Bool × V
  deriving DecidableEq

/-- `src/scope_handle.rs:19-36` `new_shared`. -/
def Handle.new : Handle V :=
  { bufs := List.replicate 3 (List.replicate 512 (0, 0)), active := List.replicate 3 false,
    offsGain := List.replicate 3 (0, 0), threshold := (false, 0) }

/-- `self.bufs[b][i].set(v)`: panics if an index is out of range. -/
def Handle.setSlot (h : Handle V) (b i : Nat) (v : V × V) : Option (Handle V) :=
  match h.bufs[b]? with
  | none => none
  | some l => if i < l.length then some { h with bufs := h.bufs.set b (l.set i v) } else none

/-- `src/scope_handle.rs:40-42`: `for i in idx..end`, `left` steps to go. -/
def Handle.fill (h : Handle V) (b : Nat) (v : V) : Nat → Nat → Option (Handle V)
  | _, 0 => some h
  | i, left + 1 =>
    match h.setSlot (b % 3) (i % 512) (v, v) with
    | none => none
    | some h => h.fill b v (i + 1) left

/-- `src/scope_handle.rs:38-43` `write_oversampled`. -/
def Handle.writeOversampled (h : Handle V) (b idx copies : Nat) (v : V) : Option (Handle V) :=
  h.fill b v idx (min (idx + copies) 512 - idx)

/-- `src/scope_handle.rs:45-47` `set_offs_gain`. -/
def Handle.setOffsGain (h : Handle V) (b : Nat) (o g : V) : Option (Handle V) :=
  if b % 3 < h.offsGain.length then some { h with offsGain := h.offsGain.set (b % 3) (o, g) } else none

/-- `src/scope_handle.rs:49-51` `get_offs_gain`. -/
def Handle.getOffsGain (h : Handle V) (b : Nat) : Option (V × V) := h.offsGain[b % 3]?

/-- `src/scope_handle.rs:53-60` `set_threshold`. -/
def Handle.setThreshold (h : Handle V) : Option V → Handle V
  | some t => { h with threshold := (true, t) }
  | none => { h with threshold := (false, h.threshold.2) }

/-- `src/scope_handle.rs:62-68` `get_threshold`. -/
def Handle.getThreshold (h : Handle V) : Option V := if h.threshold.1 then some h.threshold.2 else none

/-- `src/scope_handle.rs:70-72` `write`. -/
def Handle.write (h : Handle V) (b idx : Nat) (v : V × V) : Option (Handle V) := h.setSlot (b % 3) (idx % 512) v

/-- `src/scope_handle.rs:74-76` `read`. -/
def Handle.read (h : Handle V) (b idx : Nat) : Option (V × V) := (h.bufs[b % 3]?).bind (fun l => l[idx % 512]?)

/-- `src/scope_handle.rs:78-82` `set_active_from_mask`. -/
def Handle.setActive (h : Handle V) (mask : Nat) : Handle V :=
  { h with active := ((h.active.set 0 (decide (mask &&& 1 > 0))).set 1 (decide (mask &&& 2 > 0))).set 2 (decide (mask &&& 4 > 0)) }

/-- `src/scope_handle.rs:84-86` `is_active`. -/
def Handle.isActive (h : Handle V) (idx : Nat) : Option Bool := h.active[idx % 3]?

/-- The calls that change the handle. -/
inductive Op (V : Type) where
  | write (b idx : Nat) (v : V × V)
  | over (b idx copies : Nat) (v : V)
  | offsGain (b : Nat) (o g : V)
  | threshold (t : Option V)
  | active (mask : Nat)

/-- One call. -/
def Handle.step (h : Handle V) : Op V → Option (Handle V)
  | .write b i v => h.write b i v
  | .over b i c v => h.writeOversampled b i c v
  | .offsGain b o g => h.setOffsGain b o g
  | .threshold t => some (h.setThreshold t)
  | .active m => some (h.setActive m)

/-- A history of calls. -/
def Handle.run : Handle V → List (Op V) → Option (Handle V)
  | h, [] => some h
  | h, op :: ops => (h.step op).bind (fun h => h.run ops)

end HexoDSP.Scope
