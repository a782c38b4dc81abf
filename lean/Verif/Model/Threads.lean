import Verif.Model.Messages

/-
Model of programs with several threads, each of which runs its own sequence of actions on controllers (Messages.lean). The
library contains no mutex, no atomic variable and no thread-local storage, so that a schedule may switch threads anywhere.
The unit of interleaving is one operation on the logger (Logger.hpp:61-144: `log`, one `<<`, one setter) or the effect of one
call on its controller; `read` and `written` memory is recorded for both.

Simplifications: execution is sequentially consistent. This is more than C++ promises once there is a data race: what a
program with a race does is undefined, and the theorems about its results only say what follows from the order of the
operations. The effect of a call on its controller is one step (it is interleaved with the steps of other threads in front of
and behind it only); every call counts as a write to the controller and its optimizer. The allocator is synchronised, and the
threads are created before and joined after everything the schedule describes. Text with one `<<` is written at once.
-/
namespace Mpc
open Exec

/-- what threads can have in common: controller objects, optimizers on the heap, the members of the logger
(Logger.hpp:169-172) and output streams -/
inductive Loc where
  | obj (i : Nat)
  | opt (p : Nat)
  | level
  | pfx
  | type
  | os
  | stream (s : Nat)
  deriving DecidableEq

/-- an access to memory -/
structure Access where
  loc : Loc
  writes : Bool
  deriving DecidableEq

/-- the memory an operation on the logger accesses (Logger.hpp:61-144, 160-164) -/
def Logger.touches (l : Logger) : Logger.Op → List Access
  | .reset => [⟨.pfx, true⟩, ⟨.level, true⟩]
  | .log t => [⟨.type, true⟩, ⟨.level, false⟩, ⟨.type, false⟩] ++
      (if l.thresholdLevel.toInt ≤ t.toInt then
        [⟨.os, false⟩, ⟨.pfx, false⟩] ++ (match l.os with | some s => [⟨.stream s, true⟩] | none => [])
      else [])
  | .setStream _ => [⟨.os, true⟩]
  | .setLevel _ => [⟨.level, true⟩]
  | .setPrefix _ => [⟨.pfx, true⟩]
  | .stream _ => [⟨.level, false⟩, ⟨.type, false⟩] ++
      (if l.thresholdLevel.toInt ≤ l.currentType.toInt then
        [⟨.os, false⟩] ++ (match l.os with | some s => [⟨.stream s, true⟩] | none => [])
      else [])

/-- the memory a step of a program on its controllers accesses: the object, the optimizer its pointer names (IMPC.hpp:295) and
the object whose builder the optimizer uses (LOptimizer.hpp:196) -/
def World.touches {k : Kind} (w : World k) : WOp k → List Access
  | .create i _ => [⟨.obj i, true⟩, ⟨.opt w.fresh, true⟩]
  | .copy i j => [⟨.obj i, false⟩, ⟨.obj j, true⟩]
  | .assign i j => [⟨.obj i, false⟩, ⟨.obj j, true⟩]
  | .call i op => ⟨.obj i, true⟩ :: (match w.objs i with
    | some o => ⟨.opt o.ptr, true⟩ :: (match w.heap o.ptr with
      | some c => if k.viaOwner op then [⟨.obj c.owner, true⟩] else []
      | none => [])
    | none => [])
  | .destroy i => ⟨.obj i, true⟩ :: (match w.objs i with
    | some o => if k.deletes o.body then [⟨.opt o.ptr, true⟩] else []
    | none => [])

/-- a thread: the actions it has still to do, the operations on the logger its current action has still to do, and what its
actions have returned, with the messages they write -/
structure Thread (k : Kind) where
  todo : List (LAct k)
  pending : List Logger.Op
  outs : List (Option k.Out × List Msg)

/-- all controllers, the one logger (Logger.hpp:50-54) and all threads -/
structure Threads (k : Kind) where
  world : World k
  log : Logger
  threads : Nat → Thread k

namespace Threads
variable {k : Kind}

/-- A program which has run in one thread so far (Messages.lean: `LogWorld.run`) starts threads (`std::thread`): thread `t` is
to do `progs t`. What the program itself does from here on is one of the threads. -/
def fork (w : LogWorld k) (progs : Nat → List (LAct k)) : Threads k := ⟨w.world, w.log, fun t => ⟨progs t, [], []⟩⟩

/-- the threads are started before there is any controller; the logger may have been set up before -/
def start (l : Logger) (progs : Nat → List (LAct k)) : Threads k := fork ⟨World.empty k, l⟩ progs

/-- replace one thread -/
def put (s : Threads k) (t : Nat) (th : Thread k) : Nat → Thread k := fun u => if u = t then th else s.threads u

/-- the next action of a thread: its effect on the controllers, the operations on the logger it leads to, what it returns and
the memory it accesses (IMPC.hpp:123-165, Logger.hpp:61-101) -/
def begin (sp : Speaker k) (w : World k) : LAct k → Exec (World k × List Logger.Op × (Option k.Out × List Msg) × List Access)
  | .act op e => do
    let r ← w.step op
    let ms := LogWorld.messages sp w op r.2 e
    return (r.1, ms.flatMap Msg.ops, (r.2, ms), w.touches op)
  | .setLoggerLevel i v => do
    let _ ← w.obj i
    return (w, [.setLevel v], (none, []), [])
  | .setLoggerPrefix i s => do
    let _ ← w.obj i
    return (w, [.setPrefix s], (none, []), [])
  | .setStream os => .ok (w, [.setStream os], (none, []), [])
  | .resetLog => .ok (w, [.reset], (none, []), [])

/-- One step of thread `t`, with the memory it accesses: the next operation on the logger of its current action, or else its
next action. A thread which has finished does nothing. -/
def step (sp : Speaker k) (s : Threads k) (t : Nat) : Exec (Threads k × List Access) :=
  match (s.threads t).pending with
  | op :: ops => do
    let l ← s.log.step op
    return (⟨s.world, l, s.put t { s.threads t with pending := ops }⟩, s.log.touches op)
  | [] => match (s.threads t).todo with
    | [] => .ok (s, [])
    | a :: as => do
      let r ← begin sp s.world a
      return (⟨r.1, s.log, s.put t ⟨as, r.2.1, (s.threads t).outs ++ [r.2.2.1]⟩⟩, r.2.2.2)

/-- a schedule: which thread makes the next step; with the memory accessed by each step -/
def run (sp : Speaker k) (s : Threads k) : List Nat → Exec (Threads k × List (Nat × List Access))
  | [] => .ok (s, [])
  | t :: ts => do
    let r ← s.step sp t
    let q ← run sp r.1 ts
    return (q.1, (t, r.2) :: q.2)

end Threads
end Mpc
