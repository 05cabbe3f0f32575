/-!
# Association lists used for the `HashMap`s of the code

`std::collections::HashMap` is outside the repository. It is modelled by an association list with
at most one entry per key: `Map.insert` is `HashMap::insert`, `List.lookup` is `HashMap::get`, the
empty list is a cleared map. Iteration visits the entries in list order; where the code iterates
over a `HashMap` (`node_conf.rs:956`, `node_conf.rs:965`) the theorems show that the result does not
depend on the order.
-/

namespace HexoDSP

/-- `HashMap::insert`: replaces the entry of `k`. -/
def Map.insert {K V : Type} [BEq K] (m : List (K × V)) (k : K) (v : V) : List (K × V) :=
  (k, v) :: m.filter (fun e => !(e.1 == k))

end HexoDSP
