import Verif.Spec.NlStateful
import Verif.Model.NlUnruly

/-
The calls of user functions which remember and throw.
-/
namespace Mpc.NlSpec
open Mpc
variable {d : Dims} {K : Type}

/-- no call threw -/
def NoThrow (l : List (UserCall d K × Bool)) : Prop := ∀ c ∈ l, c.2 = false

/-- the last call threw, and no other did -/
def LastThrew (l : List (UserCall d K × Bool)) : Prop := ∃ l' c, l = l' ++ [(c, true)] ∧ NoThrow l'

/-- the calls without the outputs they are shown -/
def bares [Zero K] (l : List (UserCall d K × Bool)) : List (UserCall d K) := l.map fun c => bare c.1

/-- The calls `l` of an `optimize` which ends as `e` says: those of the search (`search` if it is not cut short), then those of the
check, then those for the reported outputs, up to the first which throws. `X`, `U`: states and inputs of a decision vector. -/
def CallsMade [Field K] (hasOut hasIneq hasEq : Bool) (X : Vec K → Traj (d.ph + 1) d.nx K) (U : Vec K → Traj (d.ph + 1) d.nu K)
    (search : List (UserCall d K)) (oc : NlOutcome K) (feasible : Bool) (l : List (UserCall d K × Bool)) : NlEnding K → Prop
  | .solverThrows => (oc = .threw ∧ NoThrow l ∧ bares l = search) ∨ (LastThrew l ∧ bares l <+: search)
  | .checkThrows z _ => (∃ v k t, oc = .answered z v k t) ∧ LastThrew l ∧
      ∃ q b p, CheckAsked hasOut hasIneq hasEq (X z) (U z) (z.get (slackIx d)) b q ∧ p ≠ [] ∧ p <+: q ∧ bares l = search ++ p
  | .outputThrows z => (∃ v k t, oc = .answered z v k t) ∧ LastThrew l ∧
      ∃ q b p, CheckAsked hasOut hasIneq hasEq (X z) (U z) (z.get (slackIx d)) b q ∧ p ≠ [] ∧ p <+: outCalls hasOut (X z) (U z) ∧
        bares l = search ++ (q ++ p)
  | .returns z v k => (∃ t, oc = .answered z v k t) ∧ NoThrow l ∧
      ∃ q, CheckAsked hasOut hasIneq hasEq (X z) (U z) (z.get (slackIx d)) feasible q ∧
        bares l = search ++ (q ++ outCalls hasOut (X z) (U z))


/-- How the call `op` may end: a setter as it always does, an `optimize` in agreement with what the solver answers. -/
def Became [Field K] (op : NlCall d K) (t : NlTCall d K) : Prop :=
  match op with
  | .optimize x0 u0 _ oc junk => ∃ e, t = .optimize x0 u0 [] e junk ∧
      (match e with
      | .solverThrows => True
      | .checkThrows z _ | .outputThrows z => ∃ v k b, oc = .answered z v k b
      | .returns z v k => ∃ b, oc = .answered z v k b)
  | op => t = .call op

/-- The calls `l`, made one after the other from memory `s` on, threw as they are marked and left memory `s'`. -/
def Replays {σ : Type} (f : Unruly d K σ) : σ → List (UserCall d K × Bool) → σ → Prop
  | s, [], s' => s = s'
  | s, q :: l, s' => q.2 = (f s q.1).2.isNone ∧ Replays f (f s q.1).1 l s'

/-- The calls `l` of an `optimize`, from memory `s` on, leaving `s'`, end with the calls `l2` for the outputs of the answer `z`: before, in
the search and in the check, functions which ask for the reports of the controller see those there were before (`V0`); in the calls
`l2` they see the result and the outputs there were before, but the states and inputs of the answer. -/
def ReadsReport [Field K] {σ : Type} (hasOut hasIneq hasEq : Bool) (X : Vec K → Traj (d.ph + 1) d.nx K)
    (U : Vec K → Traj (d.ph + 1) d.nu K) (search : List (UserCall d K)) (f : Insider d K σ) (V0 : NlView K) (s : σ)
    (l : List (UserCall d K × Bool)) (s' : σ) (z : Vec K) (l2 : List (UserCall d K × Bool)) : Prop :=
  ∃ l1 s1 V q b, l = l1 ++ l2 ∧ Replays (f V0) s l1 s1 ∧ Replays (f V) s1 l2 s' ∧
      bares l1 = search ++ q ∧ CheckAsked hasOut hasIneq hasEq (X z) (U z) (z.get (slackIx d)) b q ∧
      V.result = V0.result ∧ V.outputs = V0.outputs ∧
      V.states.rows = d.ph + 1 ∧ V.states.cols = d.nx ∧ V.inputs.rows = d.ph + 1 ∧ V.inputs.cols = d.nu ∧
      (∀ (k : Fin (d.ph + 1)) (a : Fin d.nx), V.states.get k a = X z k a) ∧
      ∀ (k : Fin (d.ph + 1)) (b : Fin d.nu), V.inputs.get k b = U z k b

/-- Which reports the user functions see when they ask for them during an `optimize` which ends as `e` says. -/
def Reads [Field K] {σ : Type} (hasOut hasIneq hasEq : Bool) (X : Vec K → Traj (d.ph + 1) d.nx K) (U : Vec K → Traj (d.ph + 1) d.nu K)
    (search : List (UserCall d K)) (f : Insider d K σ) (V0 : NlView K) (s : σ) (l : List (UserCall d K × Bool)) (s' : σ) : NlEnding K → Prop
  | .solverThrows | .checkThrows _ _ => Replays (f V0) s l s'
  | .outputThrows z => ∃ l2, LastThrew l2 ∧ bares l2 <+: outCalls hasOut (X z) (U z) ∧
      ReadsReport hasOut hasIneq hasEq X U search f V0 s l s' z l2
  | .returns z _ _ => ∃ l2, bares l2 = outCalls hasOut (X z) (U z) ∧ ReadsReport hasOut hasIneq hasEq X U search f V0 s l s' z l2

end Mpc.NlSpec
