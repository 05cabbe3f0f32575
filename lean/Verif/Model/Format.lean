import Verif.Model.Norm
/-!
# Model of the display of parameters: `ParamId::format`, `src/dsp/mod.rs:2035-2046`, and the format macros `1279-1382`

Numbers are real numbers (no `f32` rounding). `rd` is the rounding of a positive number to a whole number that `std::fmt` does at the last digit it
prints. A text is a list of characters.
-/

namespace HexoDSP.Format
open HexoDSP.Table

/-- A decimal digit. -/
def digit (n : Nat) : Char := Char.ofNat (48 + n)

/-- A whole number in decimal, without leading zeros. -/
def digits (n : Nat) : List Char := if n < 10 then [digit n] else digits (n / 10) ++ [digit (n % 10)]

/-- The last `k` digits of a number. -/
def lastDigits : Nat → Nat → List Char
  | 0, _ => []
  | k + 1, n => lastDigits k (n / 10) ++ [digit (n % 10)]

/-- `write!(f, "{:width.prec}", x)` of `std::fmt` for a number with sign `neg` and absolute value `mag`; `plus` is the flag `+`. Numbers are moved to
the right end of the field. The minus sign is also printed for `-0.0`. -/
noncomputable def fixed (rd : ℝ → ℕ) (plus : Bool) (width prec : Nat) (neg : Bool) (mag : ℝ) : List Char :=
  let n := rd (mag * 10 ^ prec)
  let sign := if neg then ['-'] else if plus then ['+'] else []
  let t := sign ++ digits (n / 10 ^ prec) ++ (if prec = 0 then [] else '.' :: lastDigits prec (n % 10 ^ prec))
  List.replicate (width - t.length) ' ' ++ t

open Classical in
/-- The same for a number with its own sign. -/
noncomputable def num (rd : ℝ → ℕ) (plus : Bool) (width prec : Nat) (x : ℝ) : List Char := fixed rd plus width prec (decide (x < 0)) |x|

/-- `src/dsp/mod.rs:1280-1284` `f_def!`. -/
noncomputable def fDef (rd : ℝ → ℕ) (d : ℝ) : List Char := num rd false 6 3 d

/-- `src/dsp/mod.rs:1294-1298` `f_defvlp!`. -/
noncomputable def fDefvlp (rd : ℝ → ℕ) (d : ℝ) : List Char := num rd false 4 1 d

open Classical in
/-- `src/dsp/mod.rs:1300-1310` `f_freq!`. -/
noncomputable def fFreq (rd : ℝ → ℕ) (d : ℝ) : List Char :=
  if d ≥ 1000 then num rd false 6 0 d ++ ['H', 'z']
  else if d ≥ 100 then num rd false 6 1 d ++ ['H', 'z']
  else num rd false 6 2 d ++ ['H', 'z']

open Classical in
/-- `src/dsp/mod.rs:1312-1322` `f_ms!`. -/
noncomputable def fMs (rd : ℝ → ℕ) (d : ℝ) : List Char :=
  if d ≥ 1000 then num rd false 6 0 d ++ ['m', 's']
  else if d ≥ 100 then num rd false 5 1 d ++ ['m', 's']
  else num rd false 5 2 d ++ ['m', 's']

open Classical in
/-- `src/dsp/mod.rs:1324-1338` `f_lfot!`. -/
noncomputable def fLfot (rd : ℝ → ℕ) (d : ℝ) : List Char :=
  if d < 10 then num rd false 5 1 (1000 / d) ++ ['H', 'z']
  else if d < 250 then num rd false 4 1 d ++ ['m', 's']
  else if d < 1500 then num rd false 4 0 d ++ ['m', 's']
  else if d < 10000 then num rd false 5 2 (d / 1000) ++ ['s']
  else num rd false 5 1 (d / 1000) ++ ['s']

open Classical in
/-- `src/dsp/mod.rs:1340-1354` `f_lfoms!`. -/
noncomputable def fLfoms (rd : ℝ → ℕ) (d : ℝ) : List Char :=
  if d < 10 then num rd false 5 3 d ++ ['m', 's']
  else if d < 250 then num rd false 4 1 d ++ ['m', 's']
  else if d < 1500 then num rd false 4 0 d ++ ['m', 's']
  else if d < 10000 then num rd false 5 2 (d / 1000) ++ ['s']
  else num rd false 5 1 (d / 1000) ++ ['s']

open Classical in
/-- `src/dsp/mod.rs:1356-1368` `f_det!`. `f32::round` rounds halves away from zero; the sign is taken off after it. `sign * semitones` is `-0.0` for
negative numbers above -1, so that its sign is that of the number. -/
noncomputable def fDet (rd : ℝ → ℕ) (d : ℝ) : List Char :=
  let semitones := ⌊|d|⌋₊
  let cents := ⌊(|d| - semitones) * 100 + 1 / 2⌋₊
  if (cents : ℝ) > 0.1 then
    fixed rd false 2 0 (decide (d < 0)) semitones ++ ['s', ' '] ++ fixed rd false 3 0 false cents ++ ['c']
  else fixed rd false 2 0 (decide (d < 0)) semitones ++ ['s']

open Classical in
/-- `src/dsp/mod.rs:1371-1382` `f_db!`. -/
noncomputable def fDb (G : Gain) (rd : ℝ → ℕ) (d : ℝ) : List Char :=
  let db := G.toDb d
  if db < -89.90 then ['-', 'i', 'n', 'f', ' ', 'd', 'B']
  else
    let db := if |db| < 0.0001 then 0 else db
    num rd true 4 1 db ++ ['d', 'B']

/-- The column `format` of the table `src/dsp/mod.rs:1420-1784`. It depends only on the curve of the parameter (column `denorm`), except that the
time of `TsLFO` (line 1686) is shown with `f_lfot` and the other two parameters with `d_lfot` (lines 1566 and 1652) with `f_lfoms`. -/
noncomputable def column (G : Gain) (rd : ℝ → ℕ) (node : String) (c : Curve) (d : ℝ) : List Char :=
  match c with
  | .id => fDef rd d
  | .vol | .gain | .driv => fDb G rd d
  | .declick | .env | .time | .ftme | .timz => fMs rd d
  | .lfot => if node = "tslfo" then fLfot rd d else fLfoms rd d
  | .vps => fDefvlp rd d
  | .pit => fFreq rd d
  | .det => fDet rd d

/-- `src/dsp/mod.rs:2035-2046` `ParamId::format` for input parameters. -/
noncomputable def format (G : Gain) (rd : ℝ → ℕ) (p : ParamId) (v : ℝ) : Option (List Char) :=
  p.paramRow.map fun r => column G rd p.node.name r.d (r.d.denorm G v)

end HexoDSP.Format
