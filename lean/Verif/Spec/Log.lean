import Verif.Model.Log
/-!
# Executions of the logger
-/

namespace HexoDSP.Log

/-- The texts logged by logger `k`, in order. -/
def logged (acts : List Action) (k : Nat) : List String :=
  acts.filterMap (fun a => match a with
    | .log k' t => if k' = k then some t else none
    | _ => none)

/-- The texts delivered from logger `k`, in order. -/
def State.delivered (s : State) (k : Nat) : List String :=
  s.out.filterMap (fun d => if d.logger = k then some d.text else none)

/-- The names of the loggers in the order of their making. -/
def names (acts : List Action) : List String :=
  acts.filterMap (fun a => match a with
    | .spawn n => some n
    | _ => none)

/-- The text is short and there is space for it. -/
def Fits (s : State) (k : Nat) (t : String) : Prop :=
  ∃ l, s.loggers[k]? = some l ∧ (utf8 t).length ≤ 510 ∧ (utf8 t).length + 1 + l.queue.length ≤ 4096

/-- The action may happen in this state, and messages fit. -/
def Allowed (s : State) : Action → Prop
  | .spawn _ => s.reader = none
  | .log k t => Fits s k t
  | .pushData _ _ => False
  | .pushEnd _ => False
  | .startRead => s.reader = none
  | .readStep => s.reader ≠ none

/-- The executions, with everything that happened. -/
inductive Reach : List Action → State → Prop where
  | init : Reach [] State.init
  | step {acts : List Action} {s s' : State} {a : Action} : Reach acts s → Allowed s a → s.step a = some s' → Reach (acts ++ [a]) s'

/-- Any number of actions. `none`: a panic. -/
def runAll : State → List Action → Option State
  | s, [] => some s
  | s, a :: rest => (s.step a).bind (fun s' => runAll s' rest)

end HexoDSP.Log
