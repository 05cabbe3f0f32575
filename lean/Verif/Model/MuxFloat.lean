import Verif.Model.Mux9
/-!
# The selection of `src/dsp/node_mux9.rs` with `f32` arithmetic

`rn` rounds to `f32`; the literal is rounded as well.
-/

namespace HexoDSP.MuxFloat

/-- `src/dsp/node_mux9.rs:159-160`; `max` is at most 9 and exact as `f32`. -/
def selectIdx (rn : ℚ → ℚ) (max : Nat) (slct : ℚ) : Nat := Mux.satU8 ⌊rn ((max : ℚ) * rn (slct - rn (1 / 100000)))⌋ % max

end HexoDSP.MuxFloat
