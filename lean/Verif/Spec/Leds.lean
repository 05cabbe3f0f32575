import Verif.Model.Leds
import Verif.Spec.Playing
/-!
# What the lights of the nodes show (C137)
-/

namespace HexoDSP.EngineSpec
open HexoDSP.Engine

variable {N V A M σ : Type} [DecidableEq N]

/-- The calls are executions of the nodes, one after the other; `ls` is what each of them shows. -/
def Shines (run : σ → CallIn N V A → σ × (Nat → Block V) × Lights V) : σ → List (Call N V A) → List (Lights V) → σ → Prop
  | st, [], [], st' => st' = st
  | st, c :: cs, l :: ls, st' => (run st c.toCallIn).2.2 = l ∧ Shines run (run st c.toCallIn).1 cs ls st'
  | _, _, _, _ => False

/-- Node `n` has run in the block and has shown `l`. -/
def ShowedIn (cs : List (Call N V A)) (ls : List (Lights V)) (n : N) (l : Lights V) : Prop :=
  ∃ (i : Nat) (c : Call N V A), cs[i]? = some c ∧ ls[i]? = some l ∧ c.node = n

variable [Add V] [Mul V] [Sub V] [Div V] [NatCast V] [OfNat V 0]

/-- A history of careful calls of the engine with lights, and the reference machine alongside, see `Follows`. -/
inductive LFollows (T : NodeTable N V A) (a0 : A) (run : σ → CallIn N V A → σ × (Nat → Block V) × Lights V) :
    LWorld N V A M σ → Track N V A → Prop
  | new (st : σ) : LFollows T a0 run (LWorld.new st) (Track.new T)
  | call {w w' : LWorld N V A M σ} {t : Track N V A} {op : EOp N V A M} {out : Option (BlockResult N V A)} :
      LFollows T a0 run w t → Careful T w.world op → w.step T a0 run op = some (w', out) →
      LFollows T a0 run w' (t.step T w.world.conf op)
  | outside {w : LWorld N V A M σ} {t : Track N V A} (st : σ) : LFollows T a0 run w t →
      LFollows T a0 run { w with world := { w.world with st := (st, w.world.st.2) } } t

/-- `l` is what node `n` has shown last: it ran in a block, when all messages to delete nodes had arrived, and since then the nodes were not deleted and `n` did not run
again. -/
inductive ShowedLast (T : NodeTable N V A) (a0 : A) (run : σ → CallIn N V A → σ × (Nat → Block V) × Lights V) (n : N) :
    LWorld N V A M σ → Track N V A → Lights V → Prop
  | now {w w' : LWorld N V A M σ} {t : Track N V A} {nf : Nat} {res : BlockResult N V A} {ls : List (Lights V)} {st' : σ} {l : Lights V} :
      LFollows T a0 run w t → Update.clear ∉ t.pending → w.step T a0 run (.process nf) = some (w', some res) →
      Shines run w.world.st.1 res.calls ls st' → ShowedIn res.calls ls n l →
      ShowedLast T a0 run n w' t l
  | since {w w' : LWorld N V A M σ} {t : Track N V A} {op : EOp N V A M} {out : Option (BlockResult N V A)} {l : Lights V} :
      ShowedLast T a0 run n w t l → Careful T w.world op → op ≠ .deleteNodes → w.step T a0 run op = some (w', out) →
      (∀ res, out = some res → ∀ c ∈ res.calls, c.node ≠ n) →
      ShowedLast T a0 run n w' (t.step T w.world.conf op) l
  | outside {w : LWorld N V A M σ} {t : Track N V A} {l : Lights V} (st : σ) : ShowedLast T a0 run n w t l →
      ShowedLast T a0 run n { w with world := { w.world with st := (st, w.world.st.2) } } t l

end HexoDSP.EngineSpec
