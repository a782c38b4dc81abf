import Verif.Spec.Messages
import Verif.Model.Threads

/-
Specification of programs with several threads: which controllers a thread uses, what a data race is, and when pieces of text
are in some order which keeps that of every thread.
-/
namespace Mpc.Spec
variable {k : Kind}

/-- the controllers a step on controllers names -/
def involved : WOp k → List Nat
  | .create i _ => [i]
  | .copy i j => [i, j]
  | .assign i j => [i, j]
  | .call i _ => [i]
  | .destroy i => [i]

/-- the controllers an action names -/
def names : LAct k → List Nat
  | .act op _ => involved op
  | .setLoggerLevel i _ => [i]
  | .setLoggerPrefix i _ => [i]
  | .setStream _ => []
  | .resetLog => []

/-- every controller is used by one thread only: controller `i` by thread `owner i` -/
def Owned (owner : Nat → Nat) (progs : Nat → List (LAct k)) : Prop :=
  ∀ t, ∀ a ∈ progs t, ∀ i ∈ names a, owner i = t

/-- no thread takes the stream away from the logger -/
def KeepsStream (progs : Nat → List (LAct k)) : Prop := ∀ t, LAct.setStream none ∉ progs t

/-- every action of the program which starts the threads names controllers of one thread only, as when it makes no copies -/
def Settled (owner : Nat → Nat) (main : List (LAct k)) : Prop := ∀ a ∈ main, ∃ t, ∀ i ∈ names a, owner i = t

/-- the action names a controller of thread `t` -/
def concerns (owner : Nat → Nat) (t : Nat) (a : LAct k) : Bool := (names a).any fun i => owner i = t

/-- the actions of a program which name a controller of thread `t` -/
def share (owner : Nat → Nat) (t : Nat) (main : List (LAct k)) : List (LAct k) := main.filter (concerns owner t)

/-- Two accesses conflict: the same memory, and one of them writes. Concurrent use of `std::cout`, stream 0, is allowed by the
C++ standard. -/
def Conflict (a b : Access) : Prop := a.loc = b.loc ∧ (a.writes = true ∨ b.writes = true) ∧ a.loc ≠ .stream 0

/-- A data race: two conflicting accesses of different threads. As nothing in the library synchronises threads, no such
accesses are ordered. -/
def Race (trace : List (Nat × List Access)) : Prop :=
  ∃ x ∈ trace, ∃ y ∈ trace, x.1 ≠ y.1 ∧ ∃ a ∈ x.2, ∃ b ∈ y.2, Conflict a b

/-- the memory belongs to the logger -/
def OfLogger : Loc → Prop
  | .obj _ => False
  | .opt _ => False
  | _ => True

/-- the thread has done everything -/
def Finished (s : Threads k) (t : Nat) : Prop := (s.threads t).todo = [] ∧ (s.threads t).pending = []

/-- the messages of a thread, in their order -/
def messagesOf (s : Threads k) (t : Nat) : List Msg := (s.threads t).outs.flatMap Prod.snd

/-- the action sets the level, the prefix or the stream of the logger -/
def SetsLog : LAct k → Prop
  | .act _ _ => False
  | _ => True

/-- The schedule switches threads only between actions, as when every action is done under one lock: a thread steps only while
no other is in the middle of an action. -/
def Undivided (sp : Speaker k) : Threads k → List Nat → Prop
  | _, [] => True
  | s, t :: ts => (∀ u, u ≠ t → (s.threads u).pending = []) ∧ ∀ r, s.step sp t = .ok r → Undivided sp r.1 ts

/-- `xs` consists of the lists `parts t`, in any order which keeps that of every one of them -/
def Interleaving {α : Type} (parts : Nat → List α) (xs : List α) : Prop :=
  ∃ ys : List (Nat × α), xs = ys.map Prod.snd ∧ ∀ t, (ys.filter fun y => y.1 = t).map Prod.snd = parts t

/-- the pieces of some messages: tag and text of each -/
def pieces (p : String) (ms : List Msg) : List String := ms.flatMap fun m => [tag p, m.text]

/-- the texts one after the other -/
def glued : List String → String
  | [] => ""
  | x :: xs => x ++ glued xs

end Mpc.Spec
