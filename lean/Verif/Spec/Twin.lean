import Verif.Spec.Cut
/-!
# Two histories that differ only in the cuts

Two engines are given the same calls in the same order; but where one of them is asked for some frames, in blocks of some lengths, the other
one is asked for the same number of frames in blocks of other lengths.
-/

namespace HexoDSP.EngineSpec
open HexoDSP.Engine

section
variable {N V A M σ : Type} [DecidableEq N] [Add V] [Mul V] [Sub V] [Div V] [NatCast V] [OfNat V 0]

/-- The clock after some blocks. -/
def Clock.over (k : Clock N) : List (Nat × BlockResult N V A) → Clock N
  | [] => k
  | b :: bs => (k.step ([] : List (Update N V A)) (EOp.process b.1 : EOp N V A M)).over bs

/-- Two histories of gentle calls that differ only in the cuts. Both clocks run; they differ in what was heard lately. -/
inductive Twin (T : NodeTable N V A) (a0 : A) (run : σ → CallIn N V A → σ × (Nat → Block V)) :
    World N V A M σ → World N V A M σ → Track N V A → Clock N → Clock N → Prop
  | new (st : σ) : Twin T a0 run (World.new st) (World.new st) (Track.new T) Clock.new Clock.new
  | call {w w' v v' : World N V A M σ} {t : Track N V A} {k j : Clock N} {op : EOp N V A M} {out out' : Option (BlockResult N V A)} :
      Twin T a0 run w v t k j → (∀ nf, op ≠ .process nf) → Gentle T w t k op → Gentle T v t j op →
      w.step T a0 run op = some (w', out) → v.step T a0 run op = some (v', out') →
      Twin T a0 run w' v' (t.step T w.conf op) (k.step t.pending op) (j.step t.pending op)
  | blocks {w w' v v' : World N V A M σ} {t : Track N V A} {k j : Clock N} {rs rs' : List (Nat × BlockResult N V A)} :
      Twin T a0 run w v t k j → Cut T a0 run w rs w' → Cut T a0 run v rs' v' → total rs = total rs' →
      Twin T a0 run w' v' t (k.over (M := M) rs) (j.over (M := M) rs')
  | outside {w v : World N V A M σ} {t : Track N V A} {k j : Clock N} (st : σ) :
      Twin T a0 run w v t k j → Twin T a0 run { w with st := st } { v with st := st } t k j

end

end HexoDSP.EngineSpec
