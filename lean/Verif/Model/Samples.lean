/-!
# Model of the sample library, `src/sample_lib.rs`

The crate `hound`, which reads WAV files, is modelled by what it gives the caller: opening a file fails or yields a header and the interleaved
samples, each of which may fail to decode. The file system may be different at every call. `F` is `f32` with two uninterpreted
conversions.
-/

namespace HexoDSP.Samples

variable {F : Type}

/-- `hound::SampleFormat`. -/
inductive Format where
  | float
  | int
  deriving DecidableEq

/-- What `hound::WavReader::open` and its iterators yield for a file: `spec()` and `samples()`. A sample is `none` if it can not be read. -/
structure Wav (F : Type) where
  channels : Nat
  rate : Nat
  format : Format
  floats : List (Option F)
  ints : List (Option Int)

/-- `x as f32` for a sample rate and `s as f32 / (0x8000 as f32)` (`src/sample_lib.rs:53,67`). -/
structure Conv (F : Type) where
  rate : Nat → F
  ofI16 : Int → F

/-- `src/sample_lib.rs:11-14`: the two errors of `load` (`UnsupportedFormat` is not used): the file can not be opened, a sample can not be read. -/
inductive LoadError where
  | cannotOpen
  | badSample
  deriving DecidableEq, Repr

/-- `Iterator::step_by(n)` for `n > 0`: the first element, then always the `n`-th next. `fuel` is the length of the list. -/
def stepLoop {α : Type} (n : Nat) : Nat → List α → List α
  | 0, _ => []
  | _ + 1, [] => []
  | fuel + 1, x :: xs => x :: stepLoop n fuel (xs.drop (n - 1))

def stepBy {α : Type} (n : Nat) (l : List α) : List α := stepLoop n l.length l

/-- The loops `src/sample_lib.rs:59-61` and `65-69`: stop at the first sample that can not be read (`s?`). -/
def pushAll {α : Type} (f : α → F) : List (Option α) → List F → Except LoadError (List F)
  | [], v => .ok v
  | none :: _, _ => .error .badSample
  | some s :: rest, v => pushAll f rest (v ++ [f s])

/-- `src/sample_lib.rs:51-71`: the data of a file that could be opened. `none`: panic (`step_by(0)`). -/
def readWav (C : Conv F) (maxS : Nat) (w : Wav F) : Option (Except LoadError (List F)) :=
  if w.channels = 0 then none
  else
    let n := maxS * w.rate
    some (match w.format with
      | .float => pushAll id ((stepBy w.channels w.floats).take n) [C.rate w.rate]
      | .int => pushAll C.ofI16 ((stepBy w.channels w.ints).take n) [C.rate w.rate])

/-- `src/sample_lib.rs:26-29`: `SampleLibrary`; a loaded sample is `SAtom::AudioSample((path, Some(data)))`. -/
structure Library (F : Type) where
  loaded : List (String × (String × List F))
  maxS : Nat

/-- `src/sample_lib.rs:22,32-34` `new`. -/
def Library.new : Library F := ⟨[], 60⟩

/-- What a call of `load` does: the new library, the paths it opened, the result. -/
structure Outcome (F : Type) where
  lib : Library F
  opened : List String
  result : Except LoadError (String × List F)

/-- `src/sample_lib.rs:41-77` `load` with the file system `fs` (`none`: the file can not be opened). `none`: panic. -/
def Library.load (C : Conv F) (l : Library F) (fs : String → Option (Wav F)) (path : String) : Option (Outcome F) :=
  match l.loaded.lookup path with
  | some a => some ⟨l, [], .ok a⟩
  | none => match fs path with
    | none => some ⟨l, [path], .error .cannotOpen⟩
    | some w => match readWav C l.maxS w with
      | none => none
      | some (.error e) => some ⟨l, [path], .error e⟩
      | some (.ok v) => some ⟨{ l with loaded := (path, (path, v)) :: l.loaded }, [path], .ok (path, v)⟩

/-- A sequence of `load` calls, each with the file system at that moment: the outcomes. `none`: one of them panics. -/
def Library.run (C : Conv F) : Library F → List ((String → Option (Wav F)) × String) → Option (List (Outcome F))
  | _, [] => some []
  | l, (fs, p) :: rest => do
    let o ← l.load C fs p
    let os ← o.lib.run C rest
    some (o :: os)

end HexoDSP.Samples
