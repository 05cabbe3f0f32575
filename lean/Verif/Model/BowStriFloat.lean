import Verif.Model.BowStri
/-!
# The lengths of the bowed string with `f32` arithmetic, `src/dsp/node_bowstri.rs`

`rn` rounds to `f32`; the literals are rounded as well.
-/

namespace HexoDSP.BowStriFloat

/-- `src/dsp/node_bowstri.rs:74-75`. -/
def totalLen (rn : ℚ → ℚ) (srate freq : ℚ) : ℚ :=
  let l := rn (srate / max freq 20)
  if l ≤ 0 then rn (3/10) else l

/-- `src/dsp/node_bowstri.rs:76`. -/
def bowPosition (rn : ℚ → ℚ) (pos : ℚ) : ℚ := BowStri.clamp (rn (1/100)) (rn (99/100)) (rn (rn (pos + 1) / 2))

/-- `src/dsp/node_bowstri.rs:78`. -/
def nutLen (rn : ℚ → ℚ) (srate freq pos : ℚ) : ℚ := rn (totalLen rn srate freq * rn (1 - bowPosition rn pos))

/-- `src/dsp/node_bowstri.rs:79`. -/
def bridgeLen (rn : ℚ → ℚ) (srate freq pos : ℚ) : ℚ := rn (totalLen rn srate freq * bowPosition rn pos)

end HexoDSP.BowStriFloat
