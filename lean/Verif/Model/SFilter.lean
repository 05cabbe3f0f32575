import Mathlib.Algebra.Order.Field.Rat
import Mathlib.Algebra.Field.Rat
/-!
# Model of `src/dsp/node_sfilter.rs`

Numbers are rationals. The filters themselves are functions of the crate `synfx_dsp`; they are arbitrary functions here (`Ext`). The frequency
and resonance inputs are given after the denormalisation.
-/

namespace HexoDSP.SFilter

/-- The filter functions of `synfx_dsp` used at `src/dsp/node_sfilter.rs:9-13`: from the input, the frequency, the resonance, the inverse sample
rate and the memory cells they are lent to the outputs and the new contents of these cells. -/
structure Ext where
  lp1 : (input freq isr z : ℚ) → ℚ × ℚ
  lp1t : (input freq isr z : ℚ) → ℚ × ℚ
  hp1 : (input freq isr z y : ℚ) → ℚ × ℚ × ℚ
  hp1t : (input freq isr z : ℚ) → ℚ × ℚ
  /-- high, notch, z, y -/
  hal : (input freq res isr z y : ℚ) → ℚ × ℚ × ℚ × ℚ
  /-- low, band, high, k, h -/
  simper : (input freq res isr k h : ℚ) → ℚ × ℚ × ℚ × ℚ × ℚ
  /-- output, z, y, k, h, delay -/
  moog : (input freq res isr z y k h : ℚ) → (delay : ℚ × ℚ × ℚ × ℚ) → ℚ × ℚ × ℚ × ℚ × ℚ × (ℚ × ℚ × ℚ × ℚ)

/-- The memory cells of the filters, `src/dsp/node_sfilter.rs:43-47`. -/
structure Mem where
  z : ℚ
  y : ℚ
  k : ℚ
  h : ℚ
  delay : ℚ × ℚ × ℚ × ℚ
  deriving DecidableEq

/-- The cells all zero (`src/dsp/node_sfilter.rs:53`, `247-251`). -/
def Mem.zero : Mem := ⟨0, 0, 0, 0, (0, 0, 0, 0)⟩

/-- `src/dsp/node_sfilter.rs:41-49` `struct SFilter`, without the sample rate. -/
structure Node where
  mem : Mem
  otype : ℤ
  deriving DecidableEq

/-- `src/dsp/node_sfilter.rs:52-54` `new`. -/
def Node.new : Node := ⟨Mem.zero, -1⟩

/-- `as i8` of an `i64` (`src/dsp/node_sfilter.rs:244`). -/
def asI8 (x : ℤ) : ℤ := (x + 128) % 256 - 128

/-- `f32::clamp`. -/
def clamp (lo hi x : ℚ) : ℚ := if x < lo then lo else if x > hi then hi else x

/-- The inputs `inp`, `freq` and `res` in one frame. -/
structure Frame where
  inp : ℚ
  freq : ℚ
  res : ℚ
  deriving DecidableEq

/-- `src/dsp/node_sfilter.rs:255-396` with the macro at `114-161`: one frame of a filter type; `none`: there is no such type. -/
def tick (E : Ext) (isr : ℚ) (ftype : ℤ) (m : Mem) (f : Frame) : Option (ℚ × Mem) :=
  match ftype with
  | 0 => let r := E.lp1 f.inp (clamp 1 22000 f.freq) isr m.z
         some (r.1, { m with z := r.2 })
  | 1 => let r := E.lp1t f.inp (clamp 1 22000 f.freq) isr m.z
         some (r.1, { m with z := r.2 })
  | 2 => let r := E.hp1 f.inp (clamp 1 22000 f.freq) isr m.z m.y
         some (r.1, { m with z := r.2.1, y := r.2.2 })
  | 3 => let r := E.hp1t f.inp (clamp 1 22000 f.freq) isr m.z
         some (r.1, { m with z := r.2 })
  | 4 => let r := E.hal f.inp (clamp 2 16000 f.freq) (clamp 0 (99/100) f.res) isr m.z m.y
         some (r.2.2.2, { m with z := r.2.2.1, y := r.2.2.2 })
  | 5 => let r := E.hal f.inp (clamp 1 16000 f.freq) (clamp 0 (99/100) f.res) isr m.z m.y
         some (r.1, { m with z := r.2.2.1, y := r.2.2.2 })
  | 6 => let r := E.hal f.inp (clamp 1 16000 f.freq) (clamp 0 (99/100) f.res) isr m.z m.y
         some (r.2.2.1, { m with z := r.2.2.1, y := r.2.2.2 })
  | 7 => let r := E.hal f.inp (clamp 1 16000 f.freq) (clamp 0 (99/100) f.res) isr m.z m.y
         some (r.2.1, { m with z := r.2.2.1, y := r.2.2.2 })
  | 8 => let r := E.simper f.inp (clamp 1 22000 f.freq) (clamp 0 1 f.res) isr m.k m.h
         some (r.1, { m with k := r.2.2.2.1, h := r.2.2.2.2 })
  | 9 => let r := E.simper f.inp (clamp 1 22000 f.freq) (clamp 0 1 f.res) isr m.k m.h
         some (r.2.2.1, { m with k := r.2.2.2.1, h := r.2.2.2.2 })
  | 10 => let r := E.simper f.inp (clamp 1 22000 f.freq) (clamp 0 1 f.res) isr m.k m.h
          some (r.2.1, { m with k := r.2.2.2.1, h := r.2.2.2.2 })
  | 11 => let r := E.simper f.inp (clamp 1 22000 f.freq) (clamp 0 1 f.res) isr m.k m.h
          some (r.1 + r.2.2.1, { m with k := r.2.2.2.1, h := r.2.2.2.2 })
  | 12 => let r := E.simper f.inp (clamp 1 22000 f.freq) (clamp 0 1 f.res) isr m.k m.h
          some (r.1 - r.2.2.1, { m with k := r.2.2.2.1, h := r.2.2.2.2 })
  | 13 => let r := E.moog (clamp (-1) 1 f.inp) (clamp 1 20000 f.freq) (clamp 0 1 f.res) isr m.z m.y m.k m.h m.delay
          some (r.1, ⟨r.2.1, r.2.2.1, r.2.2.2.1, r.2.2.2.2.1, r.2.2.2.2.2⟩)
  | _ => none

/-- The loop over the frames of one block; `old` is what the output buffer holds before, it stays where nothing is written. -/
def loop (E : Ext) (isr : ℚ) (ftype : ℤ) : Mem → List Frame → List ℚ → List ℚ × Mem
  | m, [], old => (old, m)
  | m, f :: fs, old =>
    match tick E isr ftype m f with
    | none => let r := loop E isr ftype m fs old.tail
              (old.headD 0 :: r.1, r.2)
    | some (s, m) => let r := loop E isr ftype m fs old.tail
                     (s :: r.1, r.2)

/-- `src/dsp/node_sfilter.rs:226-396` `process` for one block: the contents of the output buffer afterwards and the new state of the node. -/
def Node.process (E : Ext) (isr : ℚ) (n : Node) (setting : ℤ) (fs : List Frame) (old : List ℚ) : List ℚ × Node :=
  let ftype := asI8 setting
  let n := if ftype ≠ n.otype then ⟨Mem.zero, ftype⟩ else n
  let r := loop E isr ftype n.mem fs old
  (r.1, { n with mem := r.2 })

/-- Several blocks, each with its setting of the type, on the same output buffer: what is heard of each block (its frames in the buffer). -/
def Node.run (E : Ext) (isr : ℚ) : Node → List ℚ → List (ℤ × List Frame) → List (List ℚ) × Node
  | n, _, [] => ([], n)
  | n, old, (t, fs) :: rest =>
    let r := n.process E isr t fs old
    let q := Node.run E isr r.2 r.1 rest
    (r.1.take fs.length :: q.1, q.2)

end HexoDSP.SFilter
