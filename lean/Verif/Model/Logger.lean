import Verif.Basic.Exec

/-
Model of include/mpc/Logger.hpp.

Simplifications: what is streamed with `<<` is a string (the formatting is done by the C++ stream and not modelled);
output streams are numbered, stream 0 is `std::cout`; `none` is a null pointer. The logger is a singleton: the model has
one state. `currentType` is not set by the constructor, but the only instance is a function-local static (line 52), hence
zero-initialised: DETAIL.
-/
namespace Mpc

/-- `log_type` (Logger.hpp:27-32) -/
inductive LogType where
  | DETAIL | INFO | ERROR
  deriving DecidableEq, Repr

/-- `log_level` (Logger.hpp:37-43) -/
inductive LogLevel where
  | DEEP | NORMAL | ALERT | NONE
  deriving DecidableEq, Repr

/-- `(int) type` (Logger.hpp:29-31) -/
def LogType.toInt : LogType → Nat
  | .DETAIL => 0 | .INFO => 1 | .ERROR => 2

/-- `(int) level` (Logger.hpp:39-42) -/
def LogLevel.toInt : LogLevel → Nat
  | .DEEP => 0 | .NORMAL => 1 | .ALERT => 2 | .NONE => 3

/-- the members (Logger.hpp:169-172) and the text written so far to each stream -/
structure Logger where
  os : Option Nat
  pfx : String
  thresholdLevel : LogLevel
  currentType : LogType
  text : Nat → String

namespace Logger

/-- `resetImpl` (Logger.hpp:160-164) -/
def resetImpl (l : Logger) : Logger := { l with pfx := "", thresholdLevel := .NORMAL }

/-- the constructor (Logger.hpp:152-155) -/
def new : Logger := resetImpl { os := some 0, pfx := "", thresholdLevel := .DEEP, currentType := .DETAIL, text := fun _ => "" }

/-- `*os << x` -/
def write (l : Logger) (x : String) : Exec Logger :=
  match l.os with
  | none => .error .danglingUse
  | some i => .ok { l with text := fun j => if j = i then l.text j ++ x else l.text j }

/-- `log` (Logger.hpp:73-89) -/
def log (l : Logger) (type : LogType) : Exec Logger := do
  let l := { l with currentType := type }
  if l.thresholdLevel.toInt ≤ l.currentType.toInt then
    let l ← l.write "[MPC++"
    if !l.pfx.isEmpty then
      let l ← l.write " "
      let l ← l.write l.pfx
      l.write "] "
    else
      l.write "] "
  else
    return l

/-- `operator<<` (Logger.hpp:127-144), both overloads -/
def stream (l : Logger) (x : String) : Exec Logger :=
  if l.thresholdLevel.toInt ≤ l.currentType.toInt then l.write x else .ok l

/-- the public operations (Logger.hpp:61-144) -/
inductive Op where
  | reset
  | log (type : LogType)
  | setStream (os : Option Nat)
  | setLevel (level : LogLevel)
  | setPrefix (s : String)
  | stream (x : String)

/-- one operation -/
def step (l : Logger) : Op → Exec Logger
  | .reset => .ok l.resetImpl
  | .log t => l.log t
  | .setStream os => .ok { l with os := os }
  | .setLevel v => .ok { l with thresholdLevel := v }
  | .setPrefix s => .ok { l with pfx := s }
  | .stream x => l.stream x

/-- a history of operations -/
def exec (l : Logger) : List Op → Exec Logger
  | [] => .ok l
  | op :: ops => do
    let l ← l.step op
    l.exec ops

end Logger
end Mpc
