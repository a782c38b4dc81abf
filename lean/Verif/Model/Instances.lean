import Verif.Model.LMPC
import Verif.Model.NLMPC

/-
Model of programs with several controllers: construction, copies, calls and destruction. A controller object consists
of the members it holds by value (`body`: for `LMPC` the `ProblemBuilder`, LMPC.hpp:751) and the raw pointer `optPtr`
(IMPC.hpp:295) to an optimizer allocated with `new` in `onSetup` (LMPC.hpp:731, NLMPC.hpp:422). The optimizer of a linear
controller holds a pointer to the builder of the controller which created it (LMPC.hpp:734, LOptimizer.hpp:86-90).

`NLMPC` declares neither a copy constructor nor an assignment, so the implicit ones copy member by member: shared and raw
pointers as they are. `LMPC` can be neither copied nor assigned: its builder holds a `Problem`, whose copy constructor and
assignment are deleted (ProblemBuilder.hpp:45-46), and this deletes those of `ProblemBuilder` and `LMPC`. Neither class has
implicit move operations, because both declare a destructor (LMPC.hpp:63, NLMPC.hpp:68-71).

Simplifications: dimensions never change after construction and are part of the optimizer's own state; the profiler
(IMPC.hpp:296), held by value, is left out here (it is in Interface.lean).
-/
namespace Mpc
open Exec

/-- A class of controllers. -/
structure Kind where
  /-- arguments of the constructor -/
  Args : Type
  /-- members held by value -/
  Body : Type
  /-- the optimizer behind `optPtr` -/
  Opt : Type
  /-- API calls -/
  Op : Type
  /-- what they return -/
  Out : Type
  /-- the constructor -/
  build : Args → Exec (Body × Opt)
  /-- one call, given the body it works on -/
  step : Body → Opt → Op → Exec (Body × Opt × Out)
  /-- does the call reach the body through the optimizer's own pointer? -/
  viaOwner : Op → Bool
  /-- does the destructor delete the optimizer? (The class of an object is known by its members.) -/
  deletes : Body → Bool
  /-- does the class of the object have a copy constructor and an assignment? -/
  copyable : Body → Bool

/-- `LMPC`: the builder is held by value, `optimize` reaches it through the pointer stored by `setBuilder`
(LOptimizer.hpp:196, `builder->get`); the destructor is defaulted (LMPC.hpp:63), so that the optimizer is never deleted; no copies (ProblemBuilder.hpp:45-46). -/
def linearKind (K : Type) [Field K] [DecidableEq K] : Kind where
  Args := Dims × (Nat → Nat → K) × (Nat → Nat)
  Body := Dims × Builder K
  Opt := LOpt K
  Op := LOp K
  Out := LOut K
  build := fun a => do
    let m ← LMpc.new a.1 a.2.1 a.2.2
    return ((m.d, m.b), m.o)
  step := fun b o op => do
    let r ← LMpc.step ⟨b.1, b.2, o⟩ op
    return ((r.1.d, r.1.b), r.1.o, r.2)
  viaOwner := fun op => match op with
    | .optimize _ _ _ => true
    | _ => false
  deletes := fun _ => false
  copyable := fun _ => false

/-- `NLMPC` of dimensions `d`: objective, constraints, model and mapping are behind shared pointers (NLMPC.hpp:462-465)
which the optimizer holds too (NLOptimizer.hpp:97-126), so that everything is reached by pointer; the destructor deletes
the optimizer (NLMPC.hpp:68-71). (Simplification: after that every call through another copy counts as a use of released
memory, although `setInputScale`, say, would only touch the shared mapping.) -/
def nonlinearKind (d : Dims) (K : Type) [Field K] [LinearOrder K] : Kind where
  Args := (Nat → K) × Bool
  Body := Unit
  Opt := NlMpc d K
  Op := NlCall d K
  Out := NlOut K
  build := fun a => do
    let m ← NlMpc.init d a.1 a.2
    return ((), m)
  step := fun _ m op => do
    let r ← m.step op
    return ((), r.1, r.2)
  viaOwner := fun _ => false
  deletes := fun _ => true
  copyable := fun _ => true

/-- a controller object: value members and `optPtr` (IMPC.hpp:295) -/
structure Obj (k : Kind) where
  body : k.Body
  ptr : Nat

/-- an optimizer on the heap and the object whose builder it points to (LOptimizer.hpp:90) -/
structure Cell (k : Kind) where
  opt : k.Opt
  owner : Nat

/-- all live objects by name, all allocated optimizers by address -/
structure World (k : Kind) where
  objs : Nat → Option (Obj k)
  heap : Nat → Option (Cell k)
  fresh : Nat

/-- What a program does with controllers. -/
inductive WOp (k : Kind) where
  /-- a controller named `i` is constructed (LMPC.hpp:51-61, NLMPC.hpp:54-66) -/
  | create (i : Nat) (a : k.Args)
  /-- `j` is copy-constructed from `i` (implicit) -/
  | copy (i j : Nat)
  /-- `j = i` (implicit) -/
  | assign (i j : Nat)
  /-- a member function of `i` is called -/
  | call (i : Nat) (op : k.Op)
  /-- `i` is destroyed (LMPC.hpp:63, NLMPC.hpp:68-71) -/
  | destroy (i : Nat)

namespace World
variable {k : Kind}

/-- nothing yet -/
def empty (k : Kind) : World k := ⟨fun _ => none, fun _ => none, 0⟩

/-- replace one entry -/
def set {α : Type} (f : Nat → Option α) (i : Nat) (v : Option α) : Nat → Option α := fun j => if j = i then v else f j

/-- a live object; anything else is a use after its lifetime -/
def obj (w : World k) (i : Nat) : Exec (Obj k) :=
  match w.objs i with
  | some o => .ok o
  | none => .error .danglingUse

/-- an allocated optimizer; anything else is a use of released memory -/
def cell (w : World k) (p : Nat) : Exec (Cell k) :=
  match w.heap p with
  | some c => .ok c
  | none => .error .danglingUse

/-- One step of a program. Constructing over a live object and copying what cannot be copied do not occur in a program;
here they are faults. -/
def step (w : World k) : WOp k → Exec (World k × Option k.Out)
  | .create i a => do
    require (w.objs i).isNone .assertion
    let r ← k.build a
    return (⟨set w.objs i (some ⟨r.1, w.fresh⟩), set w.heap w.fresh (some ⟨r.2, i⟩), w.fresh + 1⟩, none)
  | .copy i j => do
    let o ← w.obj i
    require (k.copyable o.body) .assertion
    require (w.objs j).isNone .assertion
    return ({ w with objs := set w.objs j (some o) }, none)
  | .assign i j => do
    let o ← w.obj i
    require (k.copyable o.body) .assertion
    let _ ← w.obj j
    return ({ w with objs := set w.objs j (some o) }, none)
  | .call i op => do
    let o ← w.obj i
    let c ← w.cell o.ptr
    let t := if k.viaOwner op then c.owner else i
    let b ← w.obj t
    let r ← k.step b.body c.opt op
    return ({ w with objs := set w.objs t (some { b with body := r.1 }), heap := set w.heap o.ptr (some { c with opt := r.2.1 }) },
      some r.2.2)
  | .destroy i => do
    let o ← w.obj i
    if k.deletes o.body then
      require (w.heap o.ptr).isSome .doubleFree
      return ({ w with objs := set w.objs i none, heap := set w.heap o.ptr none }, none)
    else return ({ w with objs := set w.objs i none }, none)

/-- a whole program, with everything the calls returned -/
def run (w : World k) : List (WOp k) → Exec (World k × List (Option k.Out))
  | [] => .ok (w, [])
  | op :: ops => do
    let r ← w.step op
    let s ← run r.1 ops
    return (s.1, r.2 :: s.2)

/-- what the getters of `i` read (IMPC.hpp:173-186, LMPC.hpp:677-700) -/
def view (w : World k) (i : Nat) : Option (k.Body × k.Opt) :=
  match w.objs i with
  | some o => match w.heap o.ptr with
    | some c => some (o.body, c.opt)
    | none => none
  | none => none

end World
end Mpc
