import Verif.Spec.NlDoubles
import Verif.Spec.NlStarting

/-
The starting point of the nonlinear solver, as `double`s.
-/
namespace Mpc.NlSpec
open Mpc
variable {K : Type} [Field K] [LinearOrder K] {d : Dims}

/-- The starting point `g` made from the measured state `x0` and the last input `u0` (`cold`) or from the last answer `last` of the
solver, one step later. A state comes from one entry; an input from *all* inputs. `sc`: the input scaling. -/
structure StartF (d : Dims) (sc : Nat → K) (cold : Bool) (x0 u0 last : Nat → Flt K) (slack : Flt K) (g : Vec (Flt K)) : Prop where
  size : g.size = d.nZ
  states : ∀ k a, k < d.ph → a < d.nx →
    g.get (stateIx d k a) = if cold then x0 a else last (stateIx d (min (k + 1) (d.ph - 1)) a)
  inputs : ∀ (j j' : Fin d.ch) (b : Fin d.nu), (j' : Nat) = min (j + 1 : Nat) (d.ch - 1) → sc b ≠ 0 →
    From (fun i : Fin d.ch × Fin d.nu => if cold then u0 i.2 else last (inputIx d i.1 i.2)) (fun v => v (j', b))
      (g.get (inputIx d j b))
  zero : ∀ (j : Fin d.ch) (b : Fin d.nu), sc b = 0 → ¬ IsNumber (g.get (inputIx d j b))
  slack : g.get (slackIx d) = slack

end Mpc.NlSpec
