import Verif.Model.SFilter
/-! What the simple filter node is expected to do: one filter, started with empty memory, per stretch of blocks with the same type. -/

namespace HexoDSP.SFilterSpec
open HexoDSP.SFilter

/-- The response of a filter (one frame of it is `step`) from the memory `m` on. -/
def response {M X Y : Type} (step : M → X → Y × M) : M → List X → List Y
  | _, [] => []
  | m, x :: xs => (step m x).1 :: response step (step m x).2 xs

/-- Which signal of a state variable filter is wanted. -/
inductive Pick
  | low
  | high
  | band
  | notch
  | peak

/-- The filters of the documentation (`src/dsp/node_sfilter.rs:72-105`). -/
inductive Kind
  | lowpass
  | lowpassTPT
  | highpass
  | highpassTPT
  | chamberlin (p : Pick)
  | simper (p : Pick)
  | moog

/-- The names of the types in the user interface (`src/dsp/node_sfilter.rs:18-34`). -/
def kinds : List (String × Kind) :=
  [("LP 1p", .lowpass), ("LP 1pt", .lowpassTPT), ("HP 1p", .highpass), ("HP 1pt", .highpassTPT),
   ("LP 12c", .chamberlin .low), ("HP 12c", .chamberlin .high), ("BP 12c", .chamberlin .band), ("NO 12c", .chamberlin .notch),
   ("LP 12s", .simper .low), ("HP 12s", .simper .high), ("BP 12s", .simper .band), ("NO 12s", .simper .notch), ("PK 12s", .simper .peak),
   ("LP 24m", .moog)]

/-- The cutoff frequencies a filter takes. -/
def Kind.cutoff : Kind → ℚ × ℚ
  | .chamberlin .low => (2, 16000)
  | .chamberlin _ => (1, 16000)
  | .moog => (1, 20000)
  | _ => (1, 22000)

/-- The highest resonance a filter takes. -/
def Kind.maxRes : Kind → ℚ
  | .chamberlin _ => 99/100
  | _ => 1

/-- The nearest number in a range. -/
def into (r : ℚ × ℚ) (x : ℚ) : ℚ := max r.1 (min r.2 x)

/-- One frame of a filter: the sample and the memory afterwards. -/
def Kind.step (E : Ext) (isr : ℚ) (k : Kind) (m : Mem) (f : Frame) : ℚ × Mem :=
  let freq := into k.cutoff f.freq
  let res := into (0, k.maxRes) f.res
  match k with
  | .lowpass => let (s, z) := E.lp1 f.inp freq isr m.z; (s, { m with z })
  | .lowpassTPT => let (s, z) := E.lp1t f.inp freq isr m.z; (s, { m with z })
  | .highpass => let (s, z, y) := E.hp1 f.inp freq isr m.z m.y; (s, { m with z, y })
  | .highpassTPT => let (s, z) := E.hp1t f.inp freq isr m.z; (s, { m with z })
  | .chamberlin p =>
    let (high, notch, band, low) := E.hal f.inp freq res isr m.z m.y
    (match p with | .low => low | .high => high | .band => band | .notch => notch | .peak => low - high, { m with z := band, y := low })
  | .simper p =>
    let (low, band, high, k, h) := E.simper f.inp freq res isr m.k m.h
    (match p with | .low => low | .high => high | .band => band | .notch => low + high | .peak => low - high, { m with k, h })
  | .moog =>
    let (s, z, y, k, h, delay) := E.moog (into (-1, 1) f.inp) freq res isr m.z m.y m.k m.h m.delay
    (s, { z, y, k, h, delay })

/-- Two collections of filter functions agree where a well behaved caller uses them: cutoff and resonance in the range of the filter, and the
input of the Moog filter within `[-1, 1]`. -/
structure Agree (E E' : Ext) : Prop where
  lp1 : ∀ x f r z, 1 ≤ f → f ≤ 22000 → E.lp1 x f r z = E'.lp1 x f r z
  lp1t : ∀ x f r z, 1 ≤ f → f ≤ 22000 → E.lp1t x f r z = E'.lp1t x f r z
  hp1 : ∀ x f r z y, 1 ≤ f → f ≤ 22000 → E.hp1 x f r z y = E'.hp1 x f r z y
  hp1t : ∀ x f r z, 1 ≤ f → f ≤ 22000 → E.hp1t x f r z = E'.hp1t x f r z
  hal : ∀ x f q r z y, 1 ≤ f → f ≤ 16000 → 0 ≤ q → q ≤ 99/100 → E.hal x f q r z y = E'.hal x f q r z y
  simper : ∀ x f q r k h, 1 ≤ f → f ≤ 22000 → 0 ≤ q → q ≤ 1 → E.simper x f q r k h = E'.simper x f q r k h
  moog : ∀ x f q r z y k h d, -1 ≤ x → x ≤ 1 → 1 ≤ f → f ≤ 20000 → 0 ≤ q → q ≤ 1 →
    E.moog x f q r z y k h d = E'.moog x f q r z y k h d

end HexoDSP.SFilterSpec
