import Verif.Spec.Block
/-!
# Where a chain of blocks fits (C65)
-/

namespace HexoDSP.Block

/-- There is room for the chain of the block at `o` after it is moved by `d`: none of its blocks then lies on a block that is not part of the chain. -/
def BlockFun.Room (f : BlockFun) (id : Nat) (o d : Pos) : Prop :=
  ∀ q b, f.Connected id o q → f.blockAt id q = some b → ∀ q' b', ¬ f.Connected id o q' → f.blockAt id q' = some b' →
    ∀ s, Covers (q.1 + d.1, q.2 + d.2) b s → ¬ Covers q' b' s

/-- There is room in another area for the chain of the block at `o` after it is moved by `d`. -/
def BlockFun.RoomIn (f : BlockFun) (id : Nat) (o : Pos) (id2 : Nat) (d : Pos) : Prop :=
  ∀ q b, f.Connected id o q → f.blockAt id q = some b → ∀ q' b', f.blockAt id2 q' = some b' → ∀ s, Covers (q.1 + d.1, q.2 + d.2) b s → ¬ Covers q' b' s

end HexoDSP.Block
