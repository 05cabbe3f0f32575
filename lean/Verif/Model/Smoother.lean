/-!
# Model of the parameter smoother, `src/util.rs:5-71`

The sample type `V` is a parameter with uninterpreted arithmetic (`f32` in the code). Nothing is
assumed about the arithmetic in the model; the theorems that need laws say so.
-/

namespace HexoDSP

/-- `src/util.rs:7-14` `struct Smoother`. -/
structure Smoother (V : Type) where
  slopeSamples : Nat
  value : V
  inc : V
  target : V
  count : Nat
  done : Bool
  deriving Repr, DecidableEq

variable {V : Type}

/-- `src/util.rs:17-19` `Smoother::new`. -/
def Smoother.new [OfNat V 0] : Smoother V :=
  { slopeSamples := 0, value := 0, inc := 0, count := 0, target := 0, done := true }

/-- `src/util.rs:21-23` `Smoother::set_sample_rate`; the caller passes the value of
`((sr * 10.0) / 1000.0).ceil() as usize` (see `Smoother.slopeFor`). -/
def Smoother.setSlope (s : Smoother V) (n : Nat) : Smoother V := { s with slopeSamples := n }

/-- `src/util.rs:22`: the number of samples of the slope for a sample rate given as a natural number
(all sample rates used by audio drivers are whole numbers; the code rounds up). -/
def Smoother.slopeFor (sr : Nat) : Nat := (sr * 10 + 999) / 1000

/-- `src/util.rs:37-43` `Smoother::set`. -/
def Smoother.set [Sub V] [Div V] [NatCast V] (s : Smoother V) (current target : V) : Smoother V :=
  { s with value := current
           count := s.slopeSamples
           inc := (target - current) / (s.slopeSamples : V)
           target := target
           done := false }

/-- `src/util.rs:47-53` `Smoother::current`. -/
def Smoother.current (s : Smoother V) : V := if s.done then s.target else s.value

/-- `src/util.rs:56-70` `Smoother::next`. -/
def Smoother.next [Add V] (s : Smoother V) : V × Smoother V :=
  if s.count = 0 then (s.target, { s with done := true })
  else
    let v := s.value + s.inc
    (v, { s with value := v, count := s.count - 1 })

/-- The smoother after `n` calls of `next`. -/
def Smoother.after [Add V] (s : Smoother V) : Nat → Smoother V
  | 0 => s
  | n + 1 => (s.after n).next.2

/-- The value returned by the `n`-th call of `next` (counting from zero). -/
def Smoother.out [Add V] (s : Smoother V) (n : Nat) : V := (s.after n).next.1

end HexoDSP
