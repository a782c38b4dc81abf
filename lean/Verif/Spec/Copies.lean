import Verif.Spec.Instances

/-
Specification: which controller a name stands for, in programs which copy controllers as `NLMPC` is copied (implicitly, pointer by
pointer): a copy is a further name of the same controller. Controllers are numbered in the order of their construction.
-/
namespace Mpc.Spec
variable {k : Kind}

/-- for every name the number of its controller; how many there are -/
structure Names where
  of : Nat → Option Nat
  next : Nat

namespace Names

/-- at the beginning of a program -/
def start : Names := ⟨fun _ => none, 0⟩

/-- after a step -/
def after (n : Names) : WOp k → Names
  | .create i _ => ⟨fun j => if j = i then some n.next else n.of j, n.next + 1⟩
  | .copy i j => ⟨fun l => if l = j then n.of i else n.of l, n.next⟩
  | .assign i j => ⟨fun l => if l = j then n.of i else n.of l, n.next⟩
  | .call _ _ => n
  | .destroy i => ⟨fun j => if j = i then none else n.of j, n.next⟩

/-- after a program -/
def afterAll (n : Names) : List (WOp k) → Names
  | [] => n
  | op :: ops => (n.after op).afterAll ops

/-- Does the step construct, call or destroy the controller number `p`, by whichever name? -/
def concerns (n : Names) (p : Nat) : WOp k → Prop
  | .create _ _ => n.next = p
  | .call i _ => n.of i = some p
  | .destroy i => n.of i = some p
  | _ => False

/-- Are the names used as a program can use them? (A new name is free, any other exists.) -/
def Usable (n : Names) : WOp k → Prop
  | .create i _ => n.of i = none
  | .copy i j => n.of i ≠ none ∧ n.of j = none
  | .assign i j => n.of i ≠ none ∧ n.of j ≠ none
  | .call i _ => n.of i ≠ none
  | .destroy i => n.of i ≠ none

/-- so does a whole program -/
def UsableAll (n : Names) : List (WOp k) → Prop
  | [] => True
  | op :: ops => n.Usable op ∧ (n.after op).UsableAll ops

open Classical in
/-- the steps which construct, call or destroy the controller number `p` -/
noncomputable def steps (p : Nat) (n : Names) : List (WOp k) → List (WOp k)
  | [] => []
  | op :: ops => if n.concerns p op then op :: steps p (n.after op) ops else steps p (n.after op) ops

open Classical in
/-- what they returned -/
noncomputable def rets (p : Nat) (n : Names) : List (WOp k) → List (Option k.Out) → List (Option k.Out)
  | op :: ops, o :: outs => if n.concerns p op then o :: rets p (n.after op) ops outs else rets p (n.after op) ops outs
  | _, _ => []

end Names
end Mpc.Spec
