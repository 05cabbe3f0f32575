import Verif.Model.FVaFilt
/-! What the analog filter node is expected to do: in every frame the selected filter works with the coefficients for the present parameters and modes. -/

namespace HexoDSP.FVaFiltSpec
open HexoDSP.FVaFilt

variable {X CS MS CV MV CL ML D U : Type}

/-- The memories of the filters. -/
structure Mem (MS MV ML D U : Type) where
  lad : ML
  svf : MV
  sk : MS
  up : U
  down : U
  dc : D

/-- The filter type a setting stands for. -/
inductive Kind
  | ladder
  | svf
  | sallenKey
  deriving DecidableEq

/-- 1 is the SVF, 2 the Sallen-Key filter, everything else the ladder. -/
def kind (s : Setting) : Kind := if asI8 s.ftype = 1 then .svf else if asI8 s.ftype = 2 then .sallenKey else .ladder

/-- The entries of the menu for the ladder, in their order (`src/dsp/node_fvafilt.rs:44-58`). -/
def ladderMenu : List (String × LadderMode) :=
  [("LP 6dB", .LP6), ("LP 12dB", .LP12), ("LP 18dB", .LP18), ("LP 24dB", .LP24), ("HP 6dB", .HP6), ("HP 12dB", .HP12), ("HP 18dB", .HP18),
   ("HP 24dB", .HP24), ("BP 12dB", .BP12), ("BP 24dB", .BP24), ("N 12dB", .N12)]

/-- The entries of the menu for the SVF, in their order (`src/dsp/node_fvafilt.rs:26-35`). -/
def svfMenu : List (String × SvfMode) := [("LP", .LP), ("HP", .HP), ("BP1", .BP1), ("BP2", .BP2), ("Notch", .Notch)]

/-- Entry `z` of a menu; a number that is not on it counts as the last entry. -/
def entry {α : Type} (menu : List (String × α)) (last : α) (z : ℤ) : α :=
  if 0 ≤ z then (menu[z.toNat]?.map Prod.snd).getD last else last

/-- The parameters a frame asks for. -/
def wanted (s : Setting) (f : Frame X) : Params :=
  ⟨max 1 (min 20000 f.freq), max 0 (min 1 f.res), max 0 f.drive, entry ladderMenu .N12 (asI8 s.lmode), entry svfMenu .Notch (asI8 s.smode)⟩

/-- One oversampled frame. -/
def filt (E : Ext X CS MS CV MV CL ML D U) (k : Kind) (p : Params) (m : Mem MS MV ML D U) (x : X) : X × Mem MS MV ML D U :=
  match k with
  | .sallenKey => let (y, sk) := E.skTick (E.skCoefs p) p m.sk x; (y, { m with sk })
  | .svf => let (y, svf) := E.svfTick (E.svfCoefs p) p m.svf x; (y, { m with svf })
  | .ladder => let (y, lad) := E.ladTick (E.mix p.ladder) p m.lad x; (y, { m with lad })

/-- Up, filter, down. -/
def round (E : Ext X CS MS CV MV CL ML D U) (k : Kind) (p : Params) (m : Mem MS MV ML D U) (x : X) : X × Mem MS MV ML D U :=
  let (x, up) := E.half m.up (E.twice x)
  let (y, m) := filt E k p { m with up } x
  let (y, down) := E.half m.down y
  (y, { m with down })

/-- One frame of the ideal filter. -/
def frame (E : Ext X CS MS CV MV CL ML D U) (s : Setting) (m : Mem MS MV ML D U) (f : Frame X) : X × Mem MS MV ML D U :=
  let (x, dc) := E.dc m.dc f.sig
  round E (kind s) (wanted s f) (round E (kind s) (wanted s f) { m with dc } x).2 E.zero

/-- The ideal filter: its samples for a signal of frames, each with its setting. -/
def ideal (E : Ext X CS MS CV MV CL ML D U) : Mem MS MV ML D U → List (Setting × Frame X) → List X
  | _, [] => []
  | m, f :: fs => (frame E f.1 m f.2).1 :: ideal E (frame E f.1 m f.2).2 fs

/-- The empty memories. -/
def Mem.empty (E : Ext X CS MS CV MV CL ML D U) : Mem MS MV ML D U := ⟨E.lad0.2, E.svf0.2, E.sk0.2, E.half0, E.half0, E.dc0⟩

/-- The frames of blocks, each with the setting of its block. -/
def frames (bs : List (Setting × List (Frame X))) : List (Setting × Frame X) := bs.flatMap (fun b => b.2.map (fun f => (b.1, f)))

/-- The ladder mode is only turned while the ladder is selected, up to the last block where it is: whenever a block with another type is followed
somewhere by one with the ladder, it has the ladder mode of the block before (the first block: mode 0, as a new node). -/
def ModeTurnedOnLadder (bs : List (Setting × List (Frame X))) : Prop :=
  ∀ pre b post, bs = pre ++ b :: post → kind b.1 ≠ .ladder → (∃ c ∈ post, kind c.1 = .ladder) →
    asI8 b.1.lmode = (pre.getLast?.map (fun a => asI8 a.1.lmode)).getD 0

end HexoDSP.FVaFiltSpec
