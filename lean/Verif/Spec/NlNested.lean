import Verif.Model.NlNested

/-
Specification: what the user functions of a nonlinear controller do with other controllers.
-/
namespace Mpc.NlSpec
open Mpc
variable {d : Dims} {K : Type} {k : Kind} {τ β : Type}

/-- The code `p`, started with the controllers `w`, does the steps of `l`, each returning what stands beside it, to which the rest of the code
reacts, and ends with `b` and the controllers `w'`. -/
def Goes : Routine k β → World k → List (WOp k × Option k.Out) → β → World k → Prop
  | .done b0, w, l, b, w' => l = [] ∧ b0 = b ∧ w = w'
  | .act op next, w, l, b, w' => ∃ o w1 l', l = (op, o) :: l' ∧ w.step op = .ok (w1, o) ∧ Goes (next o) w1 l' b w'

/-- In the calls `l`, made one after the other (those marked with `true` throw), the functions, which remember `t` at first and `t'` then,
lead the controllers from `w` to `w'`, by the steps `p`: each call goes through its own code, without fault, before the next one begins.
(`V`: what its controller reports when it is called.) -/
def Did (f : Nested d K k τ) : World k → τ → List (UserCall d K × Bool) → List (WOp k × Option k.Out) → World k → τ → Prop
  | w, t, [], p, w', t' => p = [] ∧ w = w' ∧ t = t'
  | w, t, q :: l, p, w', t' => ∃ V r w1 p1 p2, Goes (f V t q.1) w p1 r w1 ∧ q.2 = r.2.isNone ∧ p = p1 ++ p2 ∧
      Did f w1 r.1 l p2 w' t'

/-- The code of the functions, as long as `I` holds of the controllers and of what is remembered, runs without fault, keeps `I`, and ends
with the answer `F`. -/
def Serves (f : Nested d K k τ) (I : World k → τ → Prop) (F : NlView K → ∀ c : UserCall d K, Option c.Ans) : Prop :=
  ∀ V w t c, I w t → ∃ t' w' l, Goes (f V t c) w l (t', F V c) w' ∧ I w' t'

/-- the code of the functions, as long as `I` holds of the controllers and of what is remembered, runs without fault and keeps `I` -/
def Sound (f : Nested d K k τ) (I : World k → τ → Prop) : Prop :=
  ∀ V w t c, I w t → ∃ r w' l, Goes (f V t c) w l r w' ∧ I w' r.1

end Mpc.NlSpec
