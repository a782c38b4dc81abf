import Verif.Spec.Optimal

/-
Specification: configurations of the linear controller which describe the same control problem in other units or with
other state coordinates.
-/
namespace Mpc.Spec
variable {K : Type} [Field K]

/-- a limit times a factor (infinite limits change sign with a negative factor) -/
def timesLimit [LT K] [DecidableLT K] (s : K) : Ext K → Ext K
  | .fin v => .fin (s * v)
  | .negInf => if 0 < s then .negInf else .posInf
  | .posInf => if 0 < s then .posInf else .negInf

/-- The same problem with all signals multiplied by `s`: references, disturbances and limits (a negative factor exchanges
lower and upper limits). Model, weights and coefficients stay. -/
def LinConfig.scaleSignals [LT K] [DecidableLT K] (s : K) (c : LinConfig K) : LinConfig K :=
  { c with
    xMin := fun k a => timesLimit s (if 0 < s then c.xMin k a else c.xMax k a)
    xMax := fun k a => timesLimit s (if 0 < s then c.xMax k a else c.xMin k a)
    uMin := fun k a => timesLimit s (if 0 < s then c.uMin k a else c.uMax k a)
    uMax := fun k a => timesLimit s (if 0 < s then c.uMax k a else c.uMin k a)
    yMin := fun k a => timesLimit s (if 0 < s then c.yMin k a else c.yMax k a)
    yMax := fun k a => timesLimit s (if 0 < s then c.yMax k a else c.yMin k a)
    sMin := fun k => timesLimit s (if 0 < s then c.sMin k else c.sMax k)
    sMax := fun k => timesLimit s (if 0 < s then c.sMax k else c.sMin k)
    yRef := fun k a => s * c.yRef k a
    uRef := fun k a => s * c.uRef k a
    duRef := fun k a => s * c.duRef k a
    dist := fun k a => s * c.dist k a }

/-- `T` (n rows, d.nx columns) maps the states of the model in `c` to states of the model in `c'`, which has `n` states, so
that both respond alike; everything which is not about the states is the same and no state is limited. `T` need not be
invertible, so that this covers changes of coordinates and the removal or addition of states without influence. -/
structure SameBehaviour (d : Dims) (n : Nat) (T : Nat → Nat → K) (c c' : LinConfig K) : Prop where
  A : ∀ i e, i < n → e < d.nx → dot n (c'.A i) (fun j => T j e) = dot d.nx (T i) (fun j => c.A j e)
  B : ∀ i e, i < n → e < d.nu → c'.B i e = dot d.nx (T i) (fun j => c.B j e)
  Bd : ∀ i e, i < n → e < d.ndu → c'.Bd i e = dot d.nx (T i) (fun j => c.Bd j e)
  C : ∀ a e, a < d.ny → e < d.nx → dot n (c'.C a) (fun j => T j e) = c.C a e
  sX : ∀ e, e < d.nx → dot n c'.sX (fun j => T j e) = c.sX e
  same : c' = { c with A := c'.A, B := c'.B, Bd := c'.Bd, C := c'.C, sX := c'.sX }
  xMin : ∀ k a, c.xMin k a = .negInf
  xMax : ∀ k a, c.xMax k a = .posInf

end Mpc.Spec
