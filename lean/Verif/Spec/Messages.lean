import Verif.Spec.Log
import Verif.Spec.Instances
import Verif.Model.Messages

/-
Specification of the log of a program with several controllers: which settings are in force, and what a message looks like.
-/
namespace Mpc.Spec
variable {k : Kind}

/-- the error messages among some messages -/
def errors (ms : List Msg) : List Msg := ms.filter fun m => m.type = .ERROR

/-- the messages of type INFO among some messages -/
def infos (ms : List Msg) : List Msg := ms.filter fun m => m.type = .INFO

/-- the last value a program has chosen, or the initial one -/
def lastAct {α : Type} (f : LAct k → Option α) (dflt : α) (acts : List (LAct k)) : α :=
  (acts.reverse.findSome? f).getD dflt

/-- the level in force: the last one set, on whatever controller; NORMAL after a reset and at the beginning -/
def levelAt (acts : List (LAct k)) : LogLevel :=
  lastAct (fun | .setLoggerLevel _ v => some v | .resetLog => some .NORMAL | _ => none) .NORMAL acts

/-- the prefix in force: the last one set, on whatever controller; empty after a reset and at the beginning -/
def prefixAt (acts : List (LAct k)) : String :=
  lastAct (fun | .setLoggerPrefix _ s => some s | .resetLog => some "" | _ => none) "" acts

/-- the stream in force: the last one set; the standard output at the beginning -/
def streamAt (acts : List (LAct k)) : Option Nat :=
  lastAct (fun | .setStream os => some os | _ => none) (some 0) acts

/-- the level a user would expect for controller `i`: the last one set on it; NORMAL after a reset and at the beginning -/
def ownLevel (i : Nat) (acts : List (LAct k)) : LogLevel :=
  lastAct (fun | .setLoggerLevel j v => if j = i then some v else none | .resetLog => some .NORMAL | _ => none) .NORMAL acts

/-- the prefix a user would expect for controller `i`: the last one set on it; empty after a reset and at the beginning -/
def ownPrefix (i : Nat) (acts : List (LAct k)) : String :=
  lastAct (fun | .setLoggerPrefix j s => if j = i then some s else none | .resetLog => some "" | _ => none) "" acts

/-- what some messages look like in the log, with this level and this prefix -/
def shown (v : LogLevel) (p : String) : List Msg → String
  | [] => ""
  | m :: ms => (if visible v m.type then tag p ++ m.text else "") ++ shown v p ms

/-- the controller an action is about -/
def actOn : LAct k → Nat
  | .act op _ => subject op
  | .setLoggerLevel i _ => i
  | .setLoggerPrefix i _ => i
  | _ => 0

/-- what a stream receives from actions and their messages, after the actions `before`, when each message looks as `look`
says for the actions before it and the controller it comes from -/
def textBy (look : List (LAct k) → Nat → LogLevel × String) (s : Nat) (before : List (LAct k)) :
    List (LAct k × List Msg) → String
  | [] => ""
  | (a, ms) :: rest =>
    (if streamAt before = some s then shown (look before (actOn a)).1 (look before (actOn a)).2 ms else "")
      ++ textBy look s (before ++ [a]) rest

/-- the messages look as the settings in force say, whoever made them -/
def common (acts : List (LAct k)) (_ : Nat) : LogLevel × String := (levelAt acts, prefixAt acts)

/-- the messages of each controller look as its own settings say -/
def own (acts : List (LAct k)) (i : Nat) : LogLevel × String := (ownLevel i acts, ownPrefix i acts)

/-- the actions of a program with the messages they wrote -/
def spoken (acts : List (LAct k)) (outs : List (Option k.Out × List Msg)) : List (LAct k × List Msg) :=
  acts.zip (outs.map Prod.snd)

end Mpc.Spec

namespace Mpc.Spec
variable {K : Type} [Field K] {k : Kind}

/-- the message which explains why a call of the linear controller was refused: which horizon a slice does not fit into -/
def refusal : LOp K → String
  | .setInputBoundsSlice _ _ _ => "The control horizon slice is out of bounds\n"
  | .setExogenousInputsSlice _ _ => "The control horizon slice is out of bounds\n"
  | .setScalarConstraintAt _ _ _ _ _ => "Horizon index out of bounds\n"
  | _ => "The prediction horizon slice is out of bounds\n"

/-- the call is `optimize` -/
def Solves : LOp K → Prop
  | .optimize _ _ _ => True
  | _ => False

/-- the steps a program makes on its controllers, the log left aside -/
def programOf : List (LAct k) → List (WOp k)
  | [] => []
  | .act op _ :: as => op :: programOf as
  | _ :: as => programOf as

/-- what these steps returned -/
def returnsOf : List (LAct k) → List (Option k.Out × List Msg) → List (Option k.Out)
  | .act _ _ :: as, o :: os => o.1 :: returnsOf as os
  | _ :: as, _ :: os => returnsOf as os
  | _, _ => []

/-- the number of a status -/
def statusText : ResultStatus → String
  | .SUCCESS => "0" | .MAX_ITERATION => "1" | .INFEASIBLE => "2" | .ERROR => "3" | .UNKNOWN => "4"

/-- the lines a user finds in the log after `optimize`: how long it took and what it returned -/
def reportLines {K : Type} (num : Ext K → String) (duration : String) (r : LResult K) (msg : String) : List String :=
  ["Optimization step completed",
   "duration: " ++ duration ++ " (sec)",
   "status: " ++ statusText r.status ++ " (opt code: " ++ toString r.solver_status ++ ")",
   "feasibility: " ++ (if r.is_feasible then "1" else "0"),
   "status message: " ++ msg,
   "cost: " ++ num r.cost]

/-- lines, each with its end -/
def joined : List String → String
  | [] => ""
  | l :: ls => l ++ "\n" ++ joined ls

/-- the message which explains why a call of the nonlinear controller was refused -/
def nlRefusal {d : Dims} {K : Type} [Field K] : NlCall d K → String
  | .setInputBoundsSlice _ _ _ => "The control horizon slice is out of bounds\n"
  | .setStateBoundsSlice _ _ _ => "The prediction horizon slice is out of bounds\n"
  | _ => "Output constraints cannot be set for this type of MPC, the ouput is not                considered in the optimization process. Thus we cannot restrict the search space.\n"

/-- the call is `optimize` -/
def NlSolves {d : Dims} {K : Type} [Field K] : NlCall d K → Prop
  | .optimize _ _ _ _ _ => True
  | _ => False

/-- the call is `setStateSpaceFunction` -/
def SetsModel {d : Dims} {K : Type} [Field K] : NlCall d K → Prop
  | .setStateSpaceFunction _ _ _ => True
  | _ => False

end Mpc.Spec

namespace Mpc.Spec
variable {k : Kind}

/-- the action is about controller `i`, or about the logger alone -/
def Concerns (i : Nat) : LAct k → Prop
  | .act op _ => subject op = i
  | .setLoggerLevel j _ => j = i
  | .setLoggerPrefix j _ => j = i
  | _ => True

/-- the controller whose member function the action calls to set the level or the prefix -/
def settingOn : LAct k → Option Nat
  | .setLoggerLevel j _ => some j
  | .setLoggerPrefix j _ => some j
  | _ => none

end Mpc.Spec
