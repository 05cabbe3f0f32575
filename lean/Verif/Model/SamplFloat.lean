import Verif.Model.Sampl
/-!
# The play head of the sample player with `f64` arithmetic

`src/dsp/node_sampl.rs`. `rn` rounds to `f64`, `rn32` to `f32`. Rounding a number that fits is assumed to keep it, so that the conversions of the
index to `f64` and of the speed from `f32` to `f64` are left out (the index is below `2^53`).
-/

namespace HexoDSP.SamplFloat

/-- What is handed to the interpolation. -/
structure Read where
  idx : ℕ
  frac : ℚ

/-- `src/dsp/node_sampl.rs:141-159` `next_sample` for a part of `n` samples, `0 < n`: what is read, and the new phase. `c` is `sr_factor`. -/
def next (rn rn32 : ℚ → ℚ) (n : ℕ) (reverse : Bool) (c speed phase : ℚ) : Read × ℚ :=
  let i := ⌊phase⌋.toNat % n
  let f := rn (phase - ⌊phase⌋)
  let phase' := rn (rn (i + f) + rn (c * speed))
  (if reverse then ⟨n - 1 - i, rn32 (rn (1 - f))⟩ else ⟨i, rn32 f⟩, phase')

/-- The frames of the loop `src/dsp/node_sampl.rs:201-286` in loop mode, without triggers and changes of the part. -/
def run (rn rn32 : ℚ → ℚ) (n : ℕ) (reverse : Bool) (c : ℚ) : ℚ → List ℚ → List Read × ℚ
  | phase, [] => ([], phase)
  | phase, s :: rest =>
    let r := next rn rn32 n reverse c s phase
    let q := run rn rn32 n reverse c r.2 rest
    (r.1 :: q.1, q.2)

/-- `src/dsp/node_sampl.rs:183` `sr_factor`. -/
def srFactor (rn : ℚ → ℚ) (sampleRate srate : ℚ) : ℚ := rn (sampleRate / srate)

/-- `src/dsp/node_sampl.rs:219` `cur_offs`; the setting is an `f32`, and so is the literal. -/
def curOffs (rn32 : ℚ → ℚ) (offs : ℚ) : ℚ := min |offs| (rn32 (999999 / 1000000))

/-- `src/dsp/node_sampl.rs:221` `start_idx`, of a recording of `n` samples. -/
def startIdx (rn : ℚ → ℚ) (n : ℕ) (curOffs : ℚ) : ℕ := min ⌊rn (n * curOffs)⌋.toNat n

/-- `src/dsp/node_sampl.rs:228-235` `end_idx_plus1`, the length of the part. `f64::round` of a number that is not negative is the floor of the number plus a half. -/
def count (rn : ℚ → ℚ) (n start : ℕ) (len : ℚ) : ℕ := if start ≤ n then min (n - start) ⌊rn (n * min |len| 1) + 1 / 2⌋.toNat else 0

end HexoDSP.SamplFloat
