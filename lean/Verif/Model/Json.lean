/-!
# JSON documents

The crate `serde_json` is outside the repository: a document is a tree, printing and parsing are assumed to be inverse to each other
(`Value::to_string`, `serde_json::from_str`). A number is an integer or a floating point number; a floating point number stands for what
`as f32` makes of it, of an arbitrary type `F`. The order of the entries of an object does not matter to any access.
-/

namespace HexoDSP.Json

/-- `serde_json::Value` -/
inductive Value (F : Type) where
  | null
  | bool (b : Bool)
  | int (i : Int)
  | float (x : F)
  | str (s : String)
  | arr (l : List (Value F))
  | obj (l : List (String × Value F))

/-- What is used of the type `f32`: `ofInt` is `as f64 as f32` of an integer. -/
structure Floats (F : Type) where
  zero : F
  ofInt : Int → F
  finite : F → Bool

variable {F : Type}

/-- `v[i]`: `Null` if `v` is no array or is too short. -/
def Value.at (v : Value F) (i : Nat) : Value F :=
  match v with
  | .arr l => l.getD i .null
  | _ => .null

/-- `v.get("k")` -/
def Value.get (v : Value F) (k : String) : Option (Value F) :=
  match v with
  | .obj l => l.lookup k
  | _ => none

/-- `v["k"]`: `Null` if `v` is no object or has no such entry. -/
def Value.key (v : Value F) (k : String) : Value F := (v.get k).getD .null

/-- `v.as_i64()` -/
def Value.asI64 : Value F → Option Int
  | .int i => if -2 ^ 63 ≤ i ∧ i < 2 ^ 63 then some i else none
  | _ => none

/-- `v.as_f64()`, then `as f32`. -/
def Value.asF64 (O : Floats F) : Value F → Option F
  | .int i => some (O.ofInt i)
  | .float x => some x
  | _ => none

/-- `v.as_str()` -/
def Value.asStr : Value F → Option String
  | .str s => some s
  | _ => none

/-- `v.as_bool()` -/
def Value.asBool : Value F → Option Bool
  | .bool b => some b
  | _ => none

/-- `v.is_object()` -/
def Value.isObject : Value F → Bool
  | .obj _ => true
  | _ => false

/-- `if let Value::Array(l) = v { for x in l.iter() {..} }`: the elements, none if `v` is no array. -/
def Value.elems : Value F → List (Value F)
  | .arr l => l
  | _ => []

/-- `json!(x)` of a floating point number: `Null` if it is not finite. -/
def ofFloat (O : Floats F) (x : F) : Value F := if O.finite x then .float x else .null

/-- `json!(x)` of an optional string. -/
def ofOptStr : Option String → Value F
  | some s => .str s
  | none => .null

/-- `n as i64` of an `usize`. -/
def usizeAsI64 (n : Nat) : Int := ((n : Int) + 2 ^ 63) % 2 ^ 64 - 2 ^ 63

/-- `i as usize` of an `i64`. -/
def i64AsUsize (i : Int) : Nat := (i % 2 ^ 64).toNat

end HexoDSP.Json
