import Verif.Spec.NlFun

/-
Specification of what the solver is given as gradients of arbitrary (also nonlinear) user functions: difference
quotients at one point, arranged by decision variable.
-/
namespace Mpc.NlSpec

variable {K : Type} [Field K] [LinearOrder K] [IsStrictOrderedRing K]

/-- What the three Jacobians of the objective are: difference quotients of `φ` at the unperturbed point, with the
given positive steps. -/
structure ObjDiff (d : Dims) (φ : Traj (d.ph + 1) d.nx K → Traj (d.ph + 1) d.nu K → K → K)
    (X : Traj (d.ph + 1) d.nx K) (U : Traj (d.ph + 1) d.nu K) (e : K) (hx hu : Nat → K) (he : K)
    (gx : Nat → Nat → K) (gu : Nat → Nat → K) (ge : K) : Prop where
  posx : ∀ a, 0 < hx a
  states : ∀ k a, k < d.ph → a < d.nx →
    gx k a = (φ (bump X (k + 1) a (hx a)) U e - φ X U e) / hx a
  posu : ∀ b, 0 < hu b
  inputs : ∀ k b, k + 1 < d.ph → b < d.nu → gu k b = (φ X (bump U k b (hu b)) e - φ X U e) / hu b
  last : ∀ b, b < d.nu → gu (d.ph - 1) b
      = (φ X (bump (bump U (d.ph - 1) b (hu b)) d.ph b (hu b)) e - φ X U e) / hu b
  pose : 0 < he
  slack : ge = (φ X U (e + he) - φ X U (e - he)) / (2 * he)

/-- central difference quotients of a vector function at the unperturbed point, with positive steps;
`last = true`: the last input moves the rows `ph-1` and `ph` together -/
structure ConDiff (d : Dims) (n : Nat) (φ : Traj (d.ph + 1) d.nx K → Traj (d.ph + 1) d.nu K → K → FVec n K)
    (X : Traj (d.ph + 1) d.nx K) (U : Traj (d.ph + 1) d.nu K) (e : K) (hx hu : Nat → Nat → K) (he : K) (last : Bool)
    (gx gu : Nat → Nat → Nat → K) (ge : Nat → K) : Prop where
  posx : ∀ k a, 0 < hx k a
  states : ∀ (c : Fin n) (k a : Nat), k < d.ph → a < d.nx →
    gx c k a = (φ (bump X (k + 1) a (hx k a)) U e c - φ (bump X (k + 1) a (-hx k a)) U e c)
      / (2 * hx k a)
  posu : ∀ k b, 0 < hu k b
  inputs : ∀ (c : Fin n) (k b : Nat), k + 1 < d.ph → b < d.nu →
      gu c k b = (φ X (bump U k b (hu k b)) e c - φ X (bump U k b (-hu k b)) e c) / (2 * hu k b)
  lastInput : ∀ (c : Fin n) (b : Nat), b < d.nu → gu c (d.ph - 1) b =
      if last then
        (φ X (bump (bump U (d.ph - 1) b (hu (d.ph - 1) b)) d.ph b (hu (d.ph - 1) b)) e c
          - φ X (bump (bump U (d.ph - 1) b (-hu (d.ph - 1) b)) d.ph b (-hu (d.ph - 1) b)) e c)
          / (2 * hu (d.ph - 1) b)
      else
        (φ X (bump U (d.ph - 1) b (hu (d.ph - 1) b)) e c
          - φ X (bump U (d.ph - 1) b (-hu (d.ph - 1) b)) e c) / (2 * hu (d.ph - 1) b)
  pose : 0 < he
  slack : ∀ c : Fin n, ge c = (φ X U (e + he) c - φ X U (e - he) c) / (2 * he)

/-- how derivatives with respect to steps are arranged into the row of one function -/
structure RowOf (d : Dims) (sx su : Nat → K) (gx gu : Nat → Nat → K) (ge : K) (g : Nat → K) : Prop where
  states : ∀ k a, k < d.ph → a < d.nx → g (stateIx d k a) = gx k a * sx a
  inputs : ∀ j b, j < d.ch → b < d.nu → g (inputIx d j b)
    = su b * ∑ k ∈ Finset.range d.ph, if min k (d.ch - 1) = j then gu k b else 0
  slack : g (slackIx d) = ge

variable {d : Dims}

/-- central difference quotient of component `r` of the model with respect to state component `a` at `(x, u)`; the
step is `t` relative to the magnitude of the component -/
def quotX (t : K) (F : FVec d.nx K → FVec d.nu K → Nat → FVec d.nx K) (x : FVec d.nx K) (u : FVec d.nu K) (k : Nat)
    (r a : Fin d.nx) : K :=
  (F (bumpV x a (stepOf t (x a))) u k r - F (bumpV x a (-stepOf t (x a))) u k r) / (2 * stepOf t (x a))

/-- central difference quotient with respect to input component `b` -/
def quotU (t : K) (F : FVec d.nx K → FVec d.nu K → Nat → FVec d.nx K) (x : FVec d.nx K) (u : FVec d.nu K) (k : Nat)
    (r : Fin d.nx) (b : Fin d.nu) : K :=
  (F x (bumpV u b (stepOf t (u b))) k r - F x (bumpV u b (-stepOf t (u b))) k r) / (2 * stepOf t (u b))

/-- residual of step `k` of the model equation, divided by the state scaling -/
def residual (cont : Bool) (Ts : K) (s : Nat → K) (F : FVec d.nx K → FVec d.nu K → Nat → FVec d.nx K)
    (X : Traj (d.ph + 1) d.nx K) (U : Traj (d.ph + 1) d.nu K) (k : Fin d.ph) (r : Fin d.nx) : K :=
  (if cont then
      X k.castSucc r + Ts / 2 * (F (X k.castSucc) (U k.castSucc) k r + F (X k.succ) (U k.castSucc) k r) - X k.succ r
    else X k.succ r - F (X k.castSucc) (U k.castSucc) k r) / s r

/-- derivative of the residual of step `k` with respect to the decision state of step `k` -/
def residualPrev (t : K) (cont : Bool) (Ts : K) (s : Nat → K) (F : FVec d.nx K → FVec d.nu K → Nat → FVec d.nx K)
    (X : Traj (d.ph + 1) d.nx K) (U : Traj (d.ph + 1) d.nu K) (k : Fin d.ph) (r a : Fin d.nx) : K :=
  if cont then (if r = a then 1 else 0) + Ts / 2 * (1 / s r) * quotX t F (X k.castSucc) (U k.castSucc) k r a * s a
  else -(1 / s r * quotX t F (X k.castSucc) (U k.castSucc) k r a * s a)

/-- derivative of the residual of step `k` with respect to the decision state of step `k + 1` -/
def residualNext (t : K) (cont : Bool) (Ts : K) (s : Nat → K) (F : FVec d.nx K → FVec d.nu K → Nat → FVec d.nx K)
    (X : Traj (d.ph + 1) d.nx K) (U : Traj (d.ph + 1) d.nu K) (k : Fin d.ph) (r a : Fin d.nx) : K :=
  if cont then -(if r = a then 1 else 0) + Ts / 2 * (1 / s r) * quotX t F (X k.succ) (U k.castSucc) k r a * s a
  else (if r = a then 1 else 0)

/-- derivative of the residual of step `k` with respect to the input of step `k` -/
def residualInput (t : K) (cont : Bool) (Ts : K) (s : Nat → K) (F : FVec d.nx K → FVec d.nu K → Nat → FVec d.nx K)
    (X : Traj (d.ph + 1) d.nx K) (U : Traj (d.ph + 1) d.nu K) (k : Fin d.ph) (r : Fin d.nx) (b : Fin d.nu) : K :=
  if cont then Ts / 2 * (1 / s r) * (quotU t F (X k.castSucc) (U k.castSucc) k r b
    + quotU t F (X k.succ) (U k.castSucc) k r b)
  else -(1 / s r * quotU t F (X k.castSucc) (U k.castSucc) k r b)

/-- the row of the residual of step `k`, component `r`, in the gradient handed to the solver -/
structure DynRow (d : Dims) (t : K) (cont : Bool) (Ts : K) (s su : Nat → K)
    (F : FVec d.nx K → FVec d.nu K → Nat → FVec d.nx K) (X : Traj (d.ph + 1) d.nx K) (U : Traj (d.ph + 1) d.nu K)
    (k : Fin d.ph) (r : Fin d.nx) (g : Nat → K) : Prop where
  states : ∀ (k' : Nat) (a : Fin d.nx), k' < d.ph → g (stateIx d k' a)
    = if k' = k then residualNext t cont Ts s F X U k r a
      else if k' + 1 = k then residualPrev t cont Ts s F X U k r a else 0
  inputs : ∀ (j : Nat) (b : Fin d.nu), j < d.ch → g (inputIx d j b)
    = su b * if min (k : Nat) (d.ch - 1) = j then residualInput t cont Ts s F X U k r b else 0
  slack : g (slackIx d) = 0

/-- two sequences of `n` numbers agree -/
def Agree (n : Nat) (v w : Nat → K) : Prop := ∀ i, i < n → v i = w i

end Mpc.NlSpec
