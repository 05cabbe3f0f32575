import Verif.Model.CodeNode
/-! What a `Code` node is meant to play. -/

namespace HexoDSP.CodeNodeSpec
open HexoDSP.CodeNode

variable {B J : Type}

/-- One frame of the user's code. -/
def code (E : Ext B J) (s : B) (f : Frame) : B × (ℚ × ℚ × ℚ) := E.process s f.in1 f.in2 f.alpha f.beta f.delta f.gamma

/-- The state of the user's code after some frames. -/
def after (E : Ext B J) (s : B) (fs : List Frame) : B := fs.foldl (fun s f => (code E s f).1) s

/-- The outputs made of what the code gives: its two signals and the value it returns. -/
def outputs (r : ℚ × ℚ × ℚ) : Out := { sig := r.2.2, sig1 := r.1, sig2 := r.2.1 }

/-- What is heard: the written frames of all blocks, one after the other. -/
def heard (l : List (Option (List Out))) : List Out := l.flatMap (fun o => o.getD [])

/-- A whole history as heard: `s` is the state of the user's code, `w` are the programs sent and not yet taken. A block takes them in order and plays; a
reset clears the state, a change of the sample rate is told to the code. -/
def history (E : Ext B J) (s : B) (w : List J) : List (Ev J) → List Out
  | [] => []
  | .block fs :: es => fs.mapIdx (fun k f => outputs (code E (after E (w.foldl E.take s) (fs.take k)) f).2) ++ history E (after E (w.foldl E.take s) fs) [] es
  | .send j :: es => history E s (w ++ [j]) es
  | .reset :: es => history E (E.clear s) w es
  | .rate r :: es => history E (E.rate s r) w es

end HexoDSP.CodeNodeSpec
