import Verif.Model.Logger
import Verif.Model.Instances

/-
Model of the log output of programs with several controllers: the messages of the API calls, and the one logger which all
controllers of a program share (Logger.hpp:50-54).

Simplifications: the messages of type DETAIL (there are some seventy places which write them, most of them dumps of matrices)
are not modelled one by one: a call may write any DETAIL messages before, between and after its other messages, which are
modelled exactly. The formatting of floating-point numbers is a parameter. The `std::endl` at the end of a message is the
last character of its text. The messages of a call are written after its effect on the controller instead of during it
(neither depends on the other). Destruction writes nothing. Calls which leave with an exception of a user function
(Throwing.lean) are not part of this model.
-/
namespace Mpc
open Exec

/-- one message: `Logger::instance().log(type) << ... << std::endl` -/
structure Msg where
  type : LogType
  text : String
  deriving DecidableEq

/-- the operations on the logger which write a message (Logger.hpp:73-89, 127-144) -/
def Msg.ops (m : Msg) : List Logger.Op := [.log m.type, .stream m.text]

/-- why `nlopt::opt::optimize`, or the feasibility check after it, left with an exception (NLOptimizer.hpp:524-545): the text
is that of `e.what()` -/
inductive Failure where
  | roundoff
  | other (what : String)

/-- What a step of a program writes besides what the state determines: the DETAIL messages (`details n` come before the
`n`-th other message), the number of threads when the library is compiled with OpenMP, the exit flags of OSQP, the exception
of NLopt and the measured duration. -/
structure Said where
  details : Nat → List String := fun _ => []
  openmp : Option Nat := none
  setupFlag : Int := 0
  warmFlag : Int := 0
  solveFlag : Int := 0
  failure : Failure := .roundoff
  duration : String := ""

/-- the messages with the DETAIL messages in between -/
def weave (details : Nat → List String) : List Msg → List Msg
  | [] => (details 0).map fun s => ⟨.DETAIL, s⟩
  | m :: ms => (details 0).map (fun s => ⟨.DETAIL, s⟩) ++ m :: weave (fun n => details (n + 1)) ms

/-- `(int) status` (Types.hpp:87-94) -/
def ResultStatus.toInt : ResultStatus → Nat
  | .SUCCESS => 0 | .MAX_ITERATION => 1 | .INFEASIBLE => 2 | .ERROR => 3 | .UNKNOWN => 4

/-- the message of IMPC.hpp:157-163; `num` formats the cost -/
def summary {K : Type} (num : Ext K → String) (duration : String) (r : LResult K) (msg : String) : Msg :=
  ⟨.INFO, "Optimization step completed\n"
    ++ "duration: " ++ duration ++ " (sec)\n"
    ++ "status: " ++ toString r.status.toInt ++ " (opt code: " ++ toString r.solver_status ++ ")\n"
    ++ "feasibility: " ++ (if r.is_feasible then "1" else "0") ++ "\n"
    ++ "status message: " ++ msg ++ "\n"
    ++ "cost: " ++ num r.cost ++ "\n"⟩

/-- the messages of `onInit` when compiled with OpenMP (IMPC.hpp:229-238) -/
def openmpMsgs : Option Nat → List Msg
  | none => []
  | some n => [⟨.INFO, "OpenMP enabled\n"⟩, ⟨.INFO, "Number of threads: " ++ toString n ++ "\n"⟩]

/-- the message of `isPredictionHorizonSliceValid` and `isControlHorizonSliceValid` (IMPC.hpp:258-262, 276-280), which the
setters call unless the slice is unset -/
def sliceMsgs (text : String) (h : Nat) (sl : HorizonSlice) : List Msg :=
  if isSliceUnset sl then []
  else match isSliceValid h sl with
    | .ok false => [⟨.ERROR, text⟩]
    | _ => []

/-- IMPC.hpp:260 -/
def predictionText : String := "The prediction horizon slice is out of bounds\n"

/-- IMPC.hpp:278 -/
def controlText : String := "The control horizon slice is out of bounds\n"

/-- LMPC.hpp:416 -/
def indexText : String := "Horizon index out of bounds\n"

/-- NLMPC.hpp:322-325, 390-393 -/
def outputText : String := "Output constraints cannot be set for this type of MPC, the ouput is not                considered in the optimization process. Thus we cannot restrict the search space.\n"

/-- the messages of a class of controllers other than DETAIL, in their order -/
structure Speaker (k : Kind) where
  /-- construction -/
  born : Said → List Msg
  /-- a call, from the controller before it, the call and what it returned -/
  speak : k.Body → k.Opt → k.Op → k.Out → Said → List Msg

/-- an error message with the exit flag of OSQP, when it is positive (LOptimizer.hpp:262-288) -/
def flagMsg (text : String) (flag : Int) : List Msg :=
  if flag > 0 then [⟨.ERROR, text ++ toString flag ++ "\n"⟩] else []

/-- `LMPC`: the slice checks (LMPC.hpp:175, 227, 277, 381, 466, 571, 645), the index check (LMPC.hpp:414-418), and
`optimize`: the error messages of LOptimizer.hpp:262-288 and the summary (IMPC.hpp:157-163). The messages "Unable to create the
P matrix" and "Unable to create the A matrix" (LOptimizer.hpp:227, 234) precede a use of a null pointer and never occur in a
call which returns. `solver_status_msg` is never assigned by `LOptimizer` and empty (Types.hpp:170). -/
def linearSpeaker (K : Type) [Field K] [DecidableEq K] (num : Ext K → String) : Speaker (linearKind K) where
  born := fun e => openmpMsgs e.openmp
  speak := fun (b : Dims × Builder K) _ (op : LOp K) (out : LOut K) e => match op with
    | .setObjectiveWeightsSlice _ _ _ sl => sliceMsgs predictionText b.1.ph sl
    | .setStateBoundsSlice _ _ sl => sliceMsgs predictionText b.1.ph sl
    | .setInputBoundsSlice _ _ sl => sliceMsgs controlText b.1.ch sl
    | .setOutputBoundsSlice _ _ sl => sliceMsgs predictionText b.1.ph sl
    | .setScalarConstraintSlice _ _ _ _ sl => sliceMsgs predictionText b.1.ph sl
    | .setScalarConstraintAt i _ _ _ _ => if i ≥ b.1.ph then [⟨.ERROR, indexText⟩] else []
    | .setExogenousInputsSlice _ sl => sliceMsgs controlText b.1.ch sl
    | .setReferencesSlice _ _ _ sl => sliceMsgs predictionText b.1.ph sl
    | .optimize _ _ _ => match out with
      | .result r call =>
        flagMsg "Unable to setup " e.setupFlag
          ++ (if call.warm.isSome then flagMsg "Unable to warm start " e.warmFlag else [])
          ++ flagMsg "Unable to solve " e.solveFlag
          ++ [summary num e.duration r ""]
      | _ => []
    | _ => []

/-- `solver_status_msg` of the result of `NLMPC::optimize` (NLOptimizer.hpp:533, 544; empty otherwise, Types.hpp:170) -/
def nlStatusMsg {K : Type} (f : Failure) : NlOutcome K → String
  | .answered _ _ _ false => ""
  | _ => match f with
    | .roundoff => "Floating point precision limit reached before stopping criteria"
    | .other what => "Internal solver error: " ++ what

/-- `NLMPC`: construction (NLMPC.hpp:439-441), the slice checks (NLMPC.hpp:345, 369), the unsupported setters (NLMPC.hpp:322,
390) and `optimize` (IMPC.hpp:157-163). All other messages are of type DETAIL, those of failures included
(NLOptimizer.hpp:212-328, 526-540). -/
def nonlinearSpeaker (d : Dims) (K : Type) [Field K] [LinearOrder K] (num : Ext K → String) :
    Speaker (nonlinearKind d K) where
  born := fun e => openmpMsgs e.openmp ++ [⟨.INFO, "Mapping assignment done\n"⟩]
  speak := fun _ _ (op : NlCall d K) (out : NlOut K) e => match op with
    | .setStateBoundsSlice _ _ sl => sliceMsgs predictionText d.ph sl
    | .setInputBoundsSlice _ _ sl => sliceMsgs controlText d.ch sl
    | .setOutputBounds _ _ => [⟨.ERROR, outputText⟩]
    | .setOutputBoundsSlice _ _ _ => [⟨.ERROR, outputText⟩]
    | .optimize _ _ _ oc _ => match out with
      | .result r _ => [summary num e.duration r (nlStatusMsg e.failure oc)]
      | _ => []
    | _ => []

/-- what a program with logging does -/
inductive LAct (k : Kind) where
  /-- a step of the program on its controllers -/
  | act (op : WOp k) (e : Said)
  /-- `setLoggerLevel` of controller `i` (IMPC.hpp:123-127) -/
  | setLoggerLevel (i : Nat) (v : LogLevel)
  /-- `setLoggerPrefix` of controller `i` (IMPC.hpp:136-140) -/
  | setLoggerPrefix (i : Nat) (s : String)
  /-- `Logger::instance().setStream` (Logger.hpp:97-101) -/
  | setStream (os : Option Nat)
  /-- `Logger::instance().reset` (Logger.hpp:61-65) -/
  | resetLog

/-- all controllers and the logger they share (Logger.hpp:50-54) -/
structure LogWorld (k : Kind) where
  world : World k
  log : Logger

namespace LogWorld
variable {k : Kind}

/-- the beginning of a program -/
def empty (k : Kind) : LogWorld k := ⟨World.empty k, Logger.new⟩

/-- the messages of a step, all types -/
def messages (sp : Speaker k) (w : World k) (op : WOp k) (out : Option k.Out) (e : Said) : List Msg :=
  weave e.details (match op with
    | .create _ _ => sp.born e
    | .call i op => match w.view i, out with
      | some v, some r => sp.speak v.1 v.2 op r e
      | _, _ => []
    | _ => [])

/-- one step: new state, what a call returned, and the messages written -/
def step (sp : Speaker k) (w : LogWorld k) : LAct k → Exec (LogWorld k × Option k.Out × List Msg)
  | .act op e => do
    let r ← w.world.step op
    let ms := messages sp w.world op r.2 e
    let l ← w.log.exec (ms.flatMap Msg.ops)
    return (⟨r.1, l⟩, r.2, ms)
  | .setLoggerLevel i v => do
    let _ ← w.world.obj i
    let l ← w.log.step (.setLevel v)
    return (⟨w.world, l⟩, none, [])
  | .setLoggerPrefix i s => do
    let _ ← w.world.obj i
    let l ← w.log.step (.setPrefix s)
    return (⟨w.world, l⟩, none, [])
  | .setStream os => do
    let l ← w.log.step (.setStream os)
    return (⟨w.world, l⟩, none, [])
  | .resetLog => do
    let l ← w.log.step .reset
    return (⟨w.world, l⟩, none, [])

/-- a whole program -/
def run (sp : Speaker k) (w : LogWorld k) : List (LAct k) → Exec (LogWorld k × List (Option k.Out × List Msg))
  | [] => .ok (w, [])
  | a :: as => do
    let r ← w.step sp a
    let s ← run sp r.1 as
    return (s.1, r.2 :: s.2)

end LogWorld
end Mpc
