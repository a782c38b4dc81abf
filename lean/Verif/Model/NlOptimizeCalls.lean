import Verif.Model.Throwing
import Verif.Model.NlCalls

/-
A whole `optimize` of the nonlinear controller as a program which calls user functions: the callbacks of NLopt
(NLOptimizer.hpp:714-848), the feasibility check of what it answers (Constraints.hpp:145-190), and the outputs of the reported
plan (NLOptimizer.hpp:591). The text repeats that of Feasible.lean, NlWrappers.lean and NLMPC.lean with calls instead of function
applications; `Proofs/NlOptimizeCalls.lean` proves that running it with the functions which are set gives the results of these files.

Simplifications: as in these files; NLopt is an oracle, which callbacks it makes is part of the input.
-/
namespace Mpc
open Exec
set_option linter.unusedSectionVars false
variable {d : Dims} {K : Type} [Field K] [LinearOrder K]

namespace Constraints

/-- Constraints.hpp:151-168 -/
def feasIneqP (o : Constraints d K) (M : NlModel d K) (X U : Mat K) (e : K) : Prog d K (Bool × Vec K) :=
  match o.ieqUser with
  | none => pure (true, o.cineqUser)
  | some _ => do
    let c ← callIneqP M X U e
    return (!anyGreater ⟨c.size, fun i => Flt.fin (c.get i)⟩ o.ieqTol, c)

/-- Constraints.hpp:170-187 -/
def feasEqP (o : Constraints d K) (X U : Mat K) : Prog d K (Bool × Vec K) :=
  match o.eqUser with
  | none => pure (true, o.ceqUser)
  | some _ => do
    let c ← callEqP (d := d) X U
    let g ← maxAbsGreater false ⟨c.size, fun i => Flt.fin (c.get i)⟩ o.eqTol
    return (!g, c)

/-- `Constraints::isFeasible` (Constraints.hpp:145-190) -/
def isFeasibleP (o : Constraints d K) (mp : Mapping K) (M : NlModel d K) (z : Vec K) : Prog d K (Bool × Constraints d K) := do
  let w ← mp.unwrapVector z o.x0 o.Xmat o.Umat
  let i ← feasIneqP o M w.1 w.2.1 w.2.2
  if i.1 then
    let e ← feasEqP o w.1 w.2.1
    return (e.1, { o with Xmat := w.1, Umat := w.2.1, e := w.2.2, cineqUser := i.2, ceqUser := e.2 })
  else
    return (false, { o with Xmat := w.1, Umat := w.2.1, e := w.2.2, cineqUser := i.2 })

end Constraints

namespace NlState

/-- `nloptObjFunWrapper` (NLOptimizer.hpp:714-734) -/
def objWrapperP (s : NlState d K) (grad z : Vec K) : Prog d K ((K × Vec K) × NlState d K) := do
  let r ← s.evalObjP z (grad.size ≠ 0)
  if grad.size ≠ 0 then
    match r.1.grad with
    | some G => do
      let g ← grad.memcpy G
      return ((r.1.value, g), r.2)
    | none => .done (.error .danglingUse)
  else
    return ((r.1.value, grad), r.2)

/-- the evaluation behind a constraint (NLOptimizer.hpp:759, 797, 835) -/
def evalConP (s : NlState d K) (z : Vec K) (g : Bool) (junk : Nat → K) : NlGroupKind → Prog d K (ConCost K × NlState d K)
  | .dynamics => s.evalDynP z g junk
  | .userIneq => s.evalIneqP z junk
  | .userEq => s.evalEqP z junk

/-- the function a constraint is bound to (NLOptimizer.hpp:239, 275, 312, 745-848) -/
def conWrapperP (s : NlState d K) (k : NlGroupKind) (b : NlBuffers K) (z : Vec K) (junk : Nat → K) :
    Prog d K (NlBuffers K × NlState d K) := do
  let r ← s.evalConP z b.grad.isSome junk k
  let b ← b.write r.1
  return (b, r.2)

end NlState

namespace NlMpc

/-- one callback (NLOptimizer.hpp:714-848), as `NlMpc.serve` -/
def serveP (o : NlOpt K) (s : NlState d K) : NlCallback K → Prog d K (Option (NlReply K) × NlState d K)
  | .obj z g junk =>
    if o.objective then do
      let r ← s.objWrapperP ⟨if g then d.nZ else 0, junk⟩ z
      return (some (.obj r.1.1 r.1.2), r.2)
    else pure (none, s)
  | .con i z g junk =>
    match o.groups[i]? with
    | none => pure (none, s)
    | some grp => do
      let r ← s.conWrapperP grp.kind ⟨⟨grp.tol.size, junk⟩, if g then some ⟨grp.tol.size * d.nZ, junk⟩ else none⟩ z junk
      return (some (.con r.1), r.2)

/-- the callbacks of the solver (NLOptimizer.hpp:502), one after the other -/
def callbacksP (o : NlOpt K) (s : NlState d K) (cs : List (NlCallback K)) : Prog d K (NlState d K) :=
  cs.foldl (fun e c => e >>= fun s => do
    let r ← serveP o s c
    return r.2) (pure s)

/-- NLOptimizer.hpp:545-591 -/
def acceptP (m : NlMpc d K) (x0 : Vec K) (value : Ext K) (code : Int) (feas : Bool) (junk : Nat → K) : Prog d K (NlMpc d K) := do
  let w ← m.s.mp.unwrapVector m.o.optVector x0 ⟨d.ph + 1, d.nx, fun i _ => junk i⟩ ⟨d.ph + 1, d.nu, fun i _ => junk i⟩
  let cmd ← w.2.1.row 0
  let st ← w.1.block 0 0 (d.ph + 1) d.nx
  let inp ← w.2.1.block 0 0 (d.ph + 1) d.nu
  let Y ← m.s.M.getOutputP w.1 w.2.1
  let out ← Y.block 0 0 (d.ph + 1) d.ny
  return { m with o := { m.o with
    currentSlack := w.2.2
    result := { solver_status := code, is_feasible := feas, cost := value, status := NlOpt.convertStatus code, cmd := cmd }
    seqState := st, seqInput := inp, seqOutput := out } }

/-- NLOptimizer.hpp:496-608: what follows the solver. The user functions return here: a check which throws is one whose calls are
not known, and has none in this program. -/
def finishP (m : NlMpc d K) (x0 : Vec K) (junk : Nat → K) : NlOutcome K → Prog d K (NlMpc d K)
  | .threw => pure { m with o := m.o.failed d }
  | .answered z value code checkThrows =>
    let m := { m with o := { m.o with optVector := z, first := false } }
    if checkThrows then
      pure { m with o := m.o.failed d }
    else do
      let f ← m.s.con.isFeasibleP m.s.mp m.s.M z
      let m := { m with s := { m.s with con := f.2 } }
      m.acceptP x0 value code f.1 junk

/-- `IMPC::optimize` (IMPC.hpp:149-168) with `NLOptimizer::run` (NLOptimizer.hpp:409-608) -/
def optimizeP (m : NlMpc d K) (x0 u0 : Vec K) (cs : List (NlCallback K)) (out : NlOutcome K) (junk : Nat → K) :
    Prog d K (NlMpc d K × NlOut K) := do
  let m ← m.onState (.measure x0)
  let p ← m.o.prepare d m.s.mp junk x0 u0
  let call := m.solverCall p.2
  let s ← callbacksP m.o m.s cs
  let m ← finishP { m with s := s, o := { m.o with optVector := p.1 } } x0 junk out
  return (m, .result m.o.result call)

/-- `NLOptimizer::run` from the solver's search on (NLOptimizer.hpp:502-608), with user functions which throw (`none`) or return. `m`
is the controller before the search, `call` what the solver is given, `oc` how the search ends if no callback throws; `w` is what an
evaluation which is left leaves in the members it works on (Throwing.lean). NLopt gives up when a callback throws (NLOptimizer.hpp:502,
534-545); an exception of the check is caught in the same place (NLOptimizer.hpp:509); one of the reported outputs is not
(NLOptimizer.hpp:591). -/
def searchA (T : ∀ c : UserCall d K, Option c.Ans) (w : NlWork K) (m : NlMpc d K) (call : NlSolverCall K) (x0 : Vec K)
    (cs : List (NlCallback K)) (oc : NlOutcome K) (junk : Nat → K) : Exec (NlMpc d K × NlOut K) × List (UserCall d K) :=
  match (callbacksP m.o m.s cs).attempt T with
  | (.inr _, l) => (conclude { m with s := m.s.interrupted w } call x0 junk .solverThrows, l)
  | (.inl (.error f), l) => (.error f, l)
  | (.inl (.ok s), l) =>
    let m := { m with s := s }
    match oc with
    | .threw => (conclude m call x0 junk .solverThrows, l)
    | .answered z value code _ =>
      match (s.con.isFeasibleP s.mp s.M z).attempt T with
      | (.inr _, l') => (conclude m call x0 junk (.checkThrows z w), l ++ l')
      | (.inl (.error f), l') => (.error f, l ++ l')
      | (.inl (.ok f), l') =>
        let m1 := { m with s := { s with con := f.2 }, o := { m.o with optVector := z, first := false } }
        match (m1.acceptP x0 value code f.1 junk).attempt T with
        | (.inr _, l'') => (conclude m call x0 junk (.outputThrows z), l ++ (l' ++ l''))
        | (.inl (.error f), l'') => (.error f, l ++ (l' ++ l''))
        | (.inl (.ok m), l'') => (.ok (m, .result m.o.result call), l ++ (l' ++ l''))

/-- `IMPC::optimize` (IMPC.hpp:149-168) with user functions which throw or return: the result, and the calls made -/
def optimizeA (T : ∀ c : UserCall d K, Option c.Ans) (w : NlWork K) (m : NlMpc d K) (x0 u0 : Vec K) (cs : List (NlCallback K))
    (oc : NlOutcome K) (junk : Nat → K) : Exec (NlMpc d K × NlOut K) × List (UserCall d K) :=
  match (do let m ← m.onState (.measure x0); let p ← m.o.prepare d m.s.mp junk x0 u0; return (m, p)) with
  | .error f => (.error f, [])
  | .ok (m, p) => searchA T w { m with o := { m.o with optVector := p.1 } } (m.solverCall p.2) x0 cs oc junk

end NlMpc
end Mpc
