import Verif.Spec.Norm
import Mathlib.Algebra.Order.Floor.Defs
/-!
# Specification of the display of parameters (C134): how a text is read

Independent of how texts are made.
-/

namespace HexoDSP.FormatSpec
open HexoDSP.Table

/-- A decimal digit. -/
def isDigit (c : Char) : Bool := c ∈ ['0', '1', '2', '3', '4', '5', '6', '7', '8', '9']

/-- The number that a row of digits stands for. -/
def decimal (t : List Char) : Nat := t.foldl (fun a c => 10 * a + (c.toNat - 48)) 0

/-- Without the spaces before it. -/
def trim (t : List Char) : List Char := t.dropWhile (· = ' ')

/-- There is a minus sign. -/
def negative (t : List Char) : Bool := (trim t).head? = some '-'

/-- What follows the sign. -/
def unsigned (t : List Char) : List Char :=
  if (trim t).head? = some '-' ∨ (trim t).head? = some '+' then (trim t).tail else trim t

/-- The digits before the point. -/
def whole (t : List Char) : List Char := (unsigned t).takeWhile isDigit

/-- The digits behind the point, and the rest of the text: the unit. -/
def fracUnit (t : List Char) : List Char × List Char :=
  match (unsigned t).dropWhile isDigit with
  | '.' :: r => (r.takeWhile isDigit, r.dropWhile isDigit)
  | r => ([], r)

/-- The unit. -/
def unit (t : List Char) : List Char := (fracUnit t).2

/-- The absolute value that is told. -/
noncomputable def size (t : List Char) : ℝ := decimal (whole t) + decimal (fracUnit t).1 / 10 ^ (fracUnit t).1.length

/-- The number that is told. -/
noncomputable def value (t : List Char) : ℝ := if negative t then -size t else size t

/-- The text is a number with this unit. -/
def Tells (t u : List Char) : Prop := whole t ≠ [] ∧ unit t = u

/-- Rounding to a nearest whole number. -/
def Rounds (rd : ℝ → ℕ) : Prop := ∀ x : ℝ, 0 ≤ x → |(rd x : ℝ) - x| ≤ 1 / 2

/-- The period in milliseconds that is told, as a frequency, in milliseconds or in seconds. -/
noncomputable def period (t : List Char) : ℝ :=
  if unit t = ['H', 'z'] then 1000 / value t else if unit t = ['s'] then 1000 * value t else value t

/-- The semitones that are told, from semitones and cents. -/
noncomputable def semitones (t : List Char) : ℝ :=
  (if negative t then -1 else 1) * (size t + (if unit t = ['s'] then 0 else size (unit t).tail) / 100)

/-- The text tells the physical value `d` of a parameter: signals with three digits, pitches in Hertz and times in milliseconds with a relative error
of at most 1/2000 (or 1/200 absolute), LFO times with a relative error of at most 1/200, detune in semitones and cents, amplitudes in decibels
with one digit, below -89.9 dB as minus infinity. -/
def Truthful (G : Gain) (c : Curve) (d : ℝ) (t : List Char) : Prop :=
  match c with
  | .id => Tells t [] ∧ |value t - d| ≤ 1 / 2000
  | .vps => Tells t [] ∧ |value t - d| ≤ 1 / 20
  | .pit => Tells t ['H', 'z'] ∧ |value t - d| ≤ max (1 / 200) (d / 2000)
  | .declick | .env | .time | .ftme | .timz => Tells t ['m', 's'] ∧ |value t - d| ≤ max (1 / 200) (d / 2000)
  | .lfot => (Tells t ['H', 'z'] ∨ Tells t ['m', 's'] ∨ Tells t ['s']) ∧ |period t - d| ≤ d / 200
  | .det => (Tells t ['s'] ∨ ∃ r, Tells t ('s' :: r) ∧ Tells r ['c'] ∧ negative r = false) ∧ |semitones t - d| ≤ 1 / 200
  | .vol | .gain | .driv =>
    (G.toDb d < -89.9 ∧ t = ['-', 'i', 'n', 'f', ' ', 'd', 'B']) ∨
    (-89.9 ≤ G.toDb d ∧ Tells t ['d', 'B'] ∧ |value t - G.toDb d| ≤ 1 / 20)

/-- The number that the display of a parameter tells, in the unit of the physical values; minus infinity counts as -90 dB. -/
noncomputable def told (c : Curve) (t : List Char) : ℝ :=
  match c with
  | .lfot => period t
  | .det => semitones t
  | .vol | .gain | .driv => if t = ['-', 'i', 'n', 'f', ' ', 'd', 'B'] then -90 else value t
  | _ => value t

end HexoDSP.FormatSpec
