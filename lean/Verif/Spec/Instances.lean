import Verif.Model.Instances

/-
Specification: a program seen from one controller, and what that controller would do if it were alone.
-/
namespace Mpc.Spec
variable {k : Kind}

/-- the controller a step is about (for copies: the new one) -/
def subject : WOp k → Nat
  | .create i _ => i
  | .copy _ j => j
  | .assign _ j => j
  | .call i _ => i
  | .destroy i => i

/-- no controller is copied or assigned -/
def NoCopies (ops : List (WOp k)) : Prop := ∀ op ∈ ops, match op with
  | .copy _ _ => False
  | .assign _ _ => False
  | _ => True

/-- the controller `i` is never copied, and nothing is copied to it -/
def Uncopied (i : Nat) (ops : List (WOp k)) : Prop := ∀ op ∈ ops, match op with
  | .copy a b => a ≠ i ∧ b ≠ i
  | .assign a b => a ≠ i ∧ b ≠ i
  | _ => True

/-- how many controllers a program constructs -/
def constructed (ops : List (WOp k)) : Nat := ops.countP fun op => match op with
  | .create _ _ => true
  | _ => false

/-- the steps about `i` -/
def about (i : Nat) (ops : List (WOp k)) : List (WOp k) := ops.filter fun op => subject op = i

/-- what the steps about `i` returned -/
def returned (i : Nat) (ops : List (WOp k)) (outs : List (Option k.Out)) : List (Option k.Out) :=
  ((ops.zip outs).filter fun p => subject p.1 = i).map Prod.snd

/-- One step of a controller which is alone: a pair of its value members and its own optimizer, `none` while it does not
exist. -/
def aloneStep : Option (k.Body × k.Opt) → WOp k → Exec (Option (k.Body × k.Opt) × Option k.Out)
  | none, .create _ a => do
    let r ← k.build a
    return (some r, none)
  | some (b, o), .call _ op => do
    let r ← k.step b o op
    return (some (r.1, r.2.1), some r.2.2)
  | some _, .destroy _ => .ok (none, none)
  | some _, .create _ _ => .error .assertion
  | _, _ => .error .danglingUse

/-- a program of a controller which is alone -/
def aloneRun (s : Option (k.Body × k.Opt)) : List (WOp k) → Exec (Option (k.Body × k.Opt) × List (Option k.Out))
  | [] => .ok (s, [])
  | op :: ops => do
    let r ← aloneStep s op
    let t ← aloneRun r.1 ops
    return (t.1, r.2 :: t.2)

end Mpc.Spec
