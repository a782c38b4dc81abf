import Verif.Model.Logger

/-
Specification of the logger: what is written, piece by piece, from the history of operations alone.
-/
namespace Mpc.Spec
open Mpc.Logger

/-- the last value picked from a history -/
def lastOf {α : Type} (f : Op → Option α) (dflt : α) (ops : List Op) : α := (ops.reverse.findSome? f).getD dflt

/-- the level in force after a history: the last one set, NORMAL after a reset and at the beginning -/
def levelIn (ops : List Op) : LogLevel :=
  lastOf (fun | .setLevel v => some v | .reset => some .NORMAL | _ => none) .NORMAL ops

/-- the prefix in force after a history: the last one set, empty after a reset and at the beginning -/
def prefixIn (ops : List Op) : String :=
  lastOf (fun | .setPrefix s => some s | .reset => some "" | _ => none) "" ops

/-- the stream in force after a history: the last one set, the standard output at the beginning -/
def streamIn (ops : List Op) : Option Nat :=
  lastOf (fun | .setStream s => some s | _ => none) (some 0) ops

/-- the type of the message under construction: that of the last `log`, DETAIL before the first -/
def typeIn (ops : List Op) : LogType :=
  lastOf (fun | .log t => some t | _ => none) .DETAIL ops

/-- a message of this type is at or above this level -/
def visible : LogLevel → LogType → Bool
  | .DEEP, _ => true
  | .NORMAL, .DETAIL => false
  | .NORMAL, _ => true
  | .ALERT, .ERROR => true
  | .ALERT, _ => false
  | .NONE, _ => false

/-- the tag in front of a message -/
def tag (pfx : String) : String := if pfx = "" then "[MPC++] " else "[MPC++ " ++ pfx ++ "] "

/-- what an operation writes after a history -/
def piece (ops : List Op) : Op → String
  | .log t => if visible (levelIn ops) t then tag (prefixIn ops) else ""
  | .stream x => if visible (levelIn ops) (typeIn ops) then x else ""
  | _ => ""

/-- everything written to a stream by `ops`, when they come after `before` -/
def writtenFrom (s : Nat) (before : List Op) : List Op → String
  | [] => ""
  | op :: ops => (if streamIn before = some s then piece before op else "") ++ writtenFrom s (before ++ [op]) ops

/-- everything a history writes to a stream -/
def written (s : Nat) (ops : List Op) : String := writtenFrom s [] ops

end Mpc.Spec
