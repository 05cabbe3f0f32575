import Verif.Spec.Ride
/-!
# A part of a patch on its own

What it means that two patches have a part in common that nothing else leads into, and for two engines to have quite different histories
in which this part was treated alike.
-/

namespace HexoDSP.EngineSpec
open HexoDSP.Engine

variable {N V A M S : Type} [DecidableEq N]

/-- The nodes `U` are in both patches; the connections made to each of them, in the order they were made, are the same in both patches and
come from nodes of `U`; and so are the modulation amounts and atoms of these nodes. The patches may differ in everything else. -/
structure SamePart (T : NodeTable N V A) (p q : Playing N V A) (U : N → Prop) : Prop where
  here : ∀ n, U n → n ∈ p.order
  there : ∀ n, U n → n ∈ q.order
  wires : ∀ n, U n → p.wires.filter (fun e => decide (e.dst = n)) = q.wires.filter (fun e => decide (e.dst = n))
  closed : ∀ e ∈ p.wires, U e.dst → U e.src
  amt : ∀ n, U n → ∀ i, i < T.inCount n → p.amt n i = q.amt n i
  atom : ∀ n, U n → ∀ i, i < T.atCount n → p.atom n i = q.atom n i

/-- The nodes `U` do not care whether something is connected to their outputs. -/
def Blind (K : FrameNodes N V A S) (U : N → Prop) : Prop :=
  ∀ n, U n → ∀ (s : S) (fi : FrameIn V A) (b : Nat), K n s { fi with outConnected := b } = K n s fi

/-- No parameter of the nodes `U` is on its way in either engine, and they have the same values in both. -/
structure AtRest (T : NodeTable N V A) (p q : Playing N V A) (k j : Clock N) (U : N → Prop) : Prop where
  here : ∀ n, U n → ∀ i, i < T.inCount n → k.left n i = 0
  there : ∀ n, U n → ∀ i, i < T.inCount n → j.left n i = 0
  param : ∀ n, U n → ∀ i, i < T.inCount n → p.param n i = q.param n i

variable [Add V] [Mul V] [Sub V] [Div V] [NatCast V] [OfNat V 0]

/-- The parameters of the nodes `U` have the same ways before them. -/
def SameWay (T : NodeTable N V A) (r q : Ride N V) (U : N → Prop) : Prop :=
  ∀ n, U n → ∀ i, i < T.inCount n → r.way n i = q.way n i

/-- Two engines with two histories. Either of them may be given any gentle calls, and play any blocks while no node of `U` is in its patch.
When nodes of `U` play then in both engines, for the same number of frames, as the same part of both patches, with the same ways before their
parameters. -/
inductive Beside (T : NodeTable N V A) (a0 : A) (K : FrameNodes N V A S) (U : N → Prop) :
    World N V A M (N → S) → Track N V A → Clock N → Ride N V → World N V A M (N → S) → Track N V A → Clock N → Ride N V → Prop
  | new (st st' : N → S) : (∀ n, U n → st n = st' n) →
      Beside T a0 K U (World.new st) (Track.new T) Clock.new (Ride.new T) (World.new st') (Track.new T) Clock.new (Ride.new T)
  | left {w w' v : World N V A M (N → S)} {t s : Track N V A} {k j : Clock N} {r q : Ride N V} {op : EOp N V A M}
      {out : Option (BlockResult N V A)} :
      Beside T a0 K U w t k r v s j q → (∀ nf, op ≠ .process nf) → Gentle T w t k op → w.step T a0 (frameRun K) op = some (w', out) →
      Beside T a0 K U w' (t.step T w.conf op) (k.step t.pending op) (r.step k t.pending op) v s j q
  | right {w v v' : World N V A M (N → S)} {t s : Track N V A} {k j : Clock N} {r q : Ride N V} {op : EOp N V A M}
      {out : Option (BlockResult N V A)} :
      Beside T a0 K U w t k r v s j q → (∀ nf, op ≠ .process nf) → Gentle T v s j op → v.step T a0 (frameRun K) op = some (v', out) →
      Beside T a0 K U w t k r v' (s.step T v.conf op) (j.step s.pending op) (q.step j s.pending op)
  | leftAlone {w w' v : World N V A M (N → S)} {t s : Track N V A} {k j : Clock N} {r q : Ride N V} {rs : List (Nat × BlockResult N V A)} :
      Beside T a0 K U w t k r v s j q → (∀ n, U n → n ∉ t.now.order) → Cut T a0 (frameRun K) w rs w' →
      Beside T a0 K U w' t (k.over (M := M) rs) (r.over rs) v s j q
  | rightAlone {w v v' : World N V A M (N → S)} {t s : Track N V A} {k j : Clock N} {r q : Ride N V} {rs : List (Nat × BlockResult N V A)} :
      Beside T a0 K U w t k r v s j q → (∀ n, U n → n ∉ s.now.order) → Cut T a0 (frameRun K) v rs v' →
      Beside T a0 K U w t k r v' s (j.over (M := M) rs) (q.over rs)
  | together {w w' v v' : World N V A M (N → S)} {t s : Track N V A} {k j : Clock N} {r q : Ride N V} {rs rs' : List (Nat × BlockResult N V A)} :
      Beside T a0 K U w t k r v s j q → SamePart T t.now s.now U → SameWay T r q U →
      Cut T a0 (frameRun K) w rs w' → Cut T a0 (frameRun K) v rs' v' → total rs = total rs' →
      Beside T a0 K U w' t (k.over (M := M) rs) (r.over rs) v' s (j.over (M := M) rs') (q.over rs')
  | outside {w v : World N V A M (N → S)} {t s : Track N V A} {k j : Clock N} {r q : Ride N V} (st st' : N → S) :
      (∀ n, U n → st n = st' n) → Beside T a0 K U w t k r v s j q → Beside T a0 K U { w with st := st } t k r { v with st := st' } s j q

end HexoDSP.EngineSpec
