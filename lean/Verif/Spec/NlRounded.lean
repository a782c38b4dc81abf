import Verif.Spec.Rounding
import Verif.Spec.NlDiff

/-
Specification of what the nonlinear controller hands to the solver when it computes with rounded numbers: which sequences the user
functions are evaluated on, and how the gradients are computed from these values. Nothing here refers to the model of the code
except the types of the user functions and of roundings.
-/
namespace Mpc.NlSpec

section
variable {K : Type} [Field K] (rnd : K → K)

/-- `f 0 + ... + f (n-1)` computed from left to right, every partial sum rounded -/
def sumR (n : Nat) (f : Nat → K) : K := (List.range n).foldl (fun acc k => rnd (acc + f k)) 0

/-- the states for decision vector `z`: every number is divided by the rounded reciprocal of the scaling -/
def codeStatesR (d : Dims) (s x0 z : Nat → K) : Traj (d.ph + 1) d.nx K :=
  fun k a => if (k : Nat) = 0 then rnd (x0 a / rnd (1 / s a)) else rnd (z (stateIx d (k - 1) a) / rnd (1 / s a))

/-- the inputs for decision vector `z` -/
def inputsR (d : Dims) (s z : Nat → K) : Traj (d.ph + 1) d.nu K := fun k b => rnd (inputAt d s z k b)

/-- a rounded difference step: `t` relative to the magnitude of `v`, at least `t` -/
def stepOfR [LinearOrder K] (t v : K) : K := rnd (stepOf (rnd t) v)

/-- the rounded difference step of the slack: `t` relative to its magnitude, at least `t * t` -/
def slackStepR [LinearOrder K] (t e : K) : K := rnd (max (rnd t) |e| * rnd t)

/-- how derivatives with respect to steps are arranged into the row of one function, with rounded products and sums;
`scaled = false`: the state part is not multiplied by the scaling (objective) -/
structure RowOfR (d : Dims) (scaled : Bool) (sx su : Nat → K) (gx gu : Nat → Nat → K) (ge : K) (g : Nat → K) : Prop where
  states : ∀ k a, k < d.ph → a < d.nx → g (stateIx d k a) = if scaled then rnd (gx k a * sx a) else gx k a
  inputs : ∀ j b, j < d.ch → b < d.nu → g (inputIx d j b)
    = sumR rnd d.ph fun k => if min k (d.ch - 1) = j then rnd (su b * gu k b) else 0
  slack : g (slackIx d) = ge
end

section
variable {K : Type} [Field K] [LinearOrder K]

/-- no entry of the two sequences differs by more than `ρ` -/
def Near {r c : Nat} (ρ : Nat → Nat → K) (X Y : Traj r c K) : Prop := ∀ k a, |Y k a - X k a| ≤ ρ k a

omit [Field K] [LinearOrder K] in
/-- the two sequences are equal except for the given entries -/
def AgreeBut {r c : Nat} (P : Nat → Nat → Prop) (X Y : Traj r c K) : Prop := ∀ (k : Fin r) (a : Fin c), ¬ P k a → X k a = Y k a

/-- how far rounding may move an entry of value `x` which is perturbed by `h` and restored -/
def drift (R : Rounding K) (x h : K) : K := 6 * R.eps * (|x| + h)

/-- how far rounding may move the states during differentiation with steps `hx` (the measured state is never perturbed) -/
def driftX (R : Rounding K) {r c : Nat} (X : Traj r c K) (hx : Nat → Nat → K) (k a : Nat) : K :=
  if k = 0 then 0 else drift R (entry X k a) (hx (k - 1) a)

/-- how far rounding may move the inputs during differentiation with steps `hu` -/
def driftU (R : Rounding K) {r c : Nat} (U : Traj r c K) (hu : Nat → Nat → K) (k b : Nat) : K := drift R (entry U k b) (hu k b)

/-- the states after every entry but the measured state was increased by its step and decreased again -/
def restoredF (rnd : K → K) {r c : Nat} (X : Traj r c K) (hx : Nat → Nat → K) : Traj r c K :=
  fun k a => if (k : Nat) = 0 then X k a else rnd (rnd (X k a + hx (k - 1) a) - hx (k - 1) a)

/-- the states after every entry but the measured state was increased by its step, decreased by two steps and increased again -/
def restoredC (rnd : K → K) {r c : Nat} (X : Traj r c K) (hx : Nat → Nat → K) : Traj r c K :=
  fun k a => if (k : Nat) = 0 then X k a else rnd (rnd (rnd (X k a + hx (k - 1) a) - rnd (2 * hx (k - 1) a)) + hx (k - 1) a)

/-- The three Jacobians of the objective, in rounded arithmetic: rounded difference quotients of `φ`, evaluated at sequences which
differ from the perturbed ones by rounding errors only (at most `ρx`, `ρu`). -/
structure ObjDiffR (R : Rounding K) (d : Dims) (φ : Traj (d.ph + 1) d.nx K → Traj (d.ph + 1) d.nu K → K → K)
    (X : Traj (d.ph + 1) d.nx K) (U : Traj (d.ph + 1) d.nu K) (e : K) (hx hu : Nat → K) (he : K)
    (ρx ρu : Nat → Nat → K) (gx : Nat → Nat → K) (gu : Nat → Nat → K) (ge : K) : Prop where
  states : ∀ k a, k < d.ph → a < d.nx → ∃ X', Near ρx (bump X (k + 1) a (hx a)) X' ∧
    gx k a = R.rnd (R.rnd (φ X' U e - φ X U e) / hx a)
  inputs : ∀ k b, k + 1 < d.ph → b < d.nu → ∃ U', Near ρu (bump U k b (hu b)) U' ∧
    gu k b = R.rnd (R.rnd (φ (restoredF R.rnd X fun _ a => hx a) U' e - φ X U e) / hu b)
  last : ∀ b, b < d.nu → ∃ U',
    Near ρu (bump (bump U (d.ph - 1) b (hu b)) d.ph b (hu b)) U' ∧
    gu (d.ph - 1) b = R.rnd (R.rnd (φ (restoredF R.rnd X fun _ a => hx a) U' e - φ X U e) / hu b)
  slack : ∃ U', Near ρu U U' ∧
    ge = R.rnd (R.rnd (φ (restoredF R.rnd X fun _ a => hx a) U' (R.rnd (e + he)) - φ (restoredF R.rnd X fun _ a => hx a) U' (R.rnd (e - he))) / R.rnd (2 * he))

/-- The Jacobians of a vector of constraints, in rounded arithmetic: the two points of a quotient differ in the perturbed
entry only. -/
structure ConDiffR (R : Rounding K) (d : Dims) (n : Nat) (φ : Traj (d.ph + 1) d.nx K → Traj (d.ph + 1) d.nu K → K → FVec n K)
    (X : Traj (d.ph + 1) d.nx K) (U : Traj (d.ph + 1) d.nu K) (e : K) (hx hu : Nat → Nat → K) (he : K) (last : Bool)
    (ρx ρu : Nat → Nat → K) (gx gu : Nat → Nat → Nat → K) (ge : Nat → K) : Prop where
  states : ∀ k a : Nat, k < d.ph → a < d.nx → ∃ Xp Xm, Near ρx (bump X (k + 1) a (hx k a)) Xp ∧
    Near ρx (bump X (k + 1) a (-hx k a)) Xm ∧ AgreeBut (fun k' a' => k' = k + 1 ∧ a' = a) Xp Xm ∧
    ∀ c : Fin n, gx c k a = R.rnd (R.rnd (φ Xp U e c - φ Xm U e c) / R.rnd (2 * hx k a))
  inputs : ∀ k b : Nat, k + 1 < d.ph → b < d.nu → ∃ Up Um,
    Near ρu (bump U k b (hu k b)) Up ∧ Near ρu (bump U k b (-hu k b)) Um ∧ AgreeBut (fun k' b' => k' = k ∧ b' = b) Up Um ∧
    ∀ c : Fin n, gu c k b = R.rnd (R.rnd (φ (restoredC R.rnd X hx) Up e c - φ (restoredC R.rnd X hx) Um e c) / R.rnd (2 * hu k b))
  lastInput : ∀ b : Nat, b < d.nu → ∃ Up Um,
    (if last then
      Near ρu (bump (bump U (d.ph - 1) b (hu (d.ph - 1) b)) d.ph b (hu (d.ph - 1) b)) Up ∧
      Near ρu (bump (bump U (d.ph - 1) b (-hu (d.ph - 1) b)) d.ph b (-hu (d.ph - 1) b)) Um ∧
      AgreeBut (fun k b' => (k = d.ph - 1 ∨ k = d.ph) ∧ b' = b) Up Um
     else
      Near ρu (bump U (d.ph - 1) b (hu (d.ph - 1) b)) Up ∧ Near ρu (bump U (d.ph - 1) b (-hu (d.ph - 1) b)) Um ∧
      AgreeBut (fun k b' => k = d.ph - 1 ∧ b' = b) Up Um) ∧
    ∀ c : Fin n, gu c (d.ph - 1) b = R.rnd (R.rnd (φ (restoredC R.rnd X hx) Up e c - φ (restoredC R.rnd X hx) Um e c) / R.rnd (2 * hu (d.ph - 1) b))
  slack : ∃ U', Near ρu U U' ∧
    ∀ c : Fin n, ge c = R.rnd (R.rnd (φ (restoredC R.rnd X hx) U' (R.rnd (e + he)) c - φ (restoredC R.rnd X hx) U' (R.rnd (e - he)) c) / R.rnd (2 * he))

end

/-! ### Functions which do not depend on a variable -/

section
variable {K : Type}

/-- `φ` does not depend on the state of step `k`, component `a` -/
def IgnoresState {r n m : Nat} {β : Type} (φ : Traj r n K → Traj r m K → K → β) (k a : Nat) : Prop :=
  ∀ X X' U e, AgreeBut (fun k' a' => k' = k ∧ a' = a) X X' → φ X U e = φ X' U e

/-- `φ` does not depend on component `b` of the inputs of the steps which use decision input `j` -/
def IgnoresInput {r n m : Nat} {β : Type} (d : Dims) (φ : Traj r n K → Traj r m K → K → β) (j b : Nat) : Prop :=
  ∀ X U U' e, AgreeBut (fun k' b' => min k' (d.ch - 1) = j ∧ b' = b) U U' → φ X U e = φ X U' e

/-- `φ` does not depend on the slack -/
def IgnoresSlack {r n m : Nat} {β : Type} (φ : Traj r n K → Traj r m K → K → β) : Prop := ∀ X U e e', φ X U e = φ X U e'

/-- the entries of row `g` for variables on which `φ` does not depend are zero -/
structure ZeroWhereIgnored [Zero K] (d : Dims) {β : Type} (φ : Traj (d.ph + 1) d.nx K → Traj (d.ph + 1) d.nu K → K → β) (g : Nat → K) : Prop where
  states : ∀ k a, k < d.ph → a < d.nx → IgnoresState φ (k + 1) a → g (stateIx d k a) = 0
  inputs : ∀ j b, j < d.ch → b < d.nu → IgnoresInput d φ j b → g (inputIx d j b) = 0
  slack : IgnoresSlack φ → g (slackIx d) = 0

/-- component `r` of the model does not depend on state component `a` -/
def ModelIgnoresState {n m : Nat} (F : FVec n K → FVec m K → Nat → FVec n K) (r : Fin n) (a : Nat) : Prop :=
  ∀ x x' u k, (∀ a' : Fin n, (a' : Nat) ≠ a → x a' = x' a') → F x u k r = F x' u k r

/-- component `r` of the model does not depend on input component `b` -/
def ModelIgnoresInput {n m : Nat} (F : FVec n K → FVec m K → Nat → FVec n K) (r : Fin n) (b : Nat) : Prop :=
  ∀ x u u' k, (∀ b' : Fin m, (b' : Nat) ≠ b → u b' = u' b') → F x u k r = F x u' k r

end

/-! ### The model equations -/

section
variable {K : Type} [Field K] (rnd : K → K) {d : Dims}

/-- `x` with `t` added to component `j`, rounded -/
def bumpVR {n : Nat} (x : FVec n K) (j : Nat) (t : K) : FVec n K := fun a => if (a : Nat) = j then rnd (x a + t) else x a

/-- rounded difference quotient of component `r` of the model with respect to state component `a` at `(x, u)` -/
def quotXR [LinearOrder K] (t : K) (F : FVec d.nx K → FVec d.nu K → Nat → FVec d.nx K) (x : FVec d.nx K) (u : FVec d.nu K) (k : Nat)
    (r a : Fin d.nx) : K :=
  rnd (rnd (F (bumpVR rnd x a (stepOfR rnd t (x a))) u k r - F (bumpVR rnd x a (-stepOfR rnd t (x a))) u k r)
    / rnd (2 * stepOfR rnd t (x a)))

/-- rounded difference quotient with respect to input component `b` -/
def quotUR [LinearOrder K] (t : K) (F : FVec d.nx K → FVec d.nu K → Nat → FVec d.nx K) (x : FVec d.nx K) (u : FVec d.nu K) (k : Nat)
    (r : Fin d.nx) (b : Fin d.nu) : K :=
  rnd (rnd (F x (bumpVR rnd u b (stepOfR rnd t (u b))) k r - F x (bumpVR rnd u b (-stepOfR rnd t (u b))) k r)
    / rnd (2 * stepOfR rnd t (u b)))

/-- residual of step `k` of the model equation, divided by the state scaling, every operation rounded -/
def residualR (cont : Bool) (Ts : K) (s : Nat → K) (F : FVec d.nx K → FVec d.nu K → Nat → FVec d.nx K)
    (X : Traj (d.ph + 1) d.nx K) (U : Traj (d.ph + 1) d.nu K) (k : Fin d.ph) (r : Fin d.nx) : K :=
  rnd ((if cont then
      rnd (rnd (X k.castSucc r + rnd (rnd (Ts / 2) * rnd (F (X k.castSucc) (U k.castSucc) k r + F (X k.succ) (U k.castSucc) k r)))
        - X k.succ r)
    else rnd (X k.succ r - F (X k.castSucc) (U k.castSucc) k r)) / s r)

/-- rounded derivative of the residual of step `k` with respect to the decision state of step `k` -/
def residualPrevR [LinearOrder K] (t : K) (cont : Bool) (Ts : K) (s : Nat → K) (F : FVec d.nx K → FVec d.nu K → Nat → FVec d.nx K)
    (X : Traj (d.ph + 1) d.nx K) (U : Traj (d.ph + 1) d.nu K) (k : Fin d.ph) (r a : Fin d.nx) : K :=
  if cont then rnd ((if r = a then 1 else 0)
    + rnd (rnd (rnd (rnd (Ts / 2) * rnd (1 / s r)) * quotXR rnd t F (X k.castSucc) (U k.castSucc) k r a) * s a))
  else -rnd (rnd (rnd (1 / s r) * quotXR rnd t F (X k.castSucc) (U k.castSucc) k r a) * s a)

/-- rounded derivative of the residual of step `k` with respect to the decision state of step `k + 1` -/
def residualNextR [LinearOrder K] (t : K) (cont : Bool) (Ts : K) (s : Nat → K) (F : FVec d.nx K → FVec d.nu K → Nat → FVec d.nx K)
    (X : Traj (d.ph + 1) d.nx K) (U : Traj (d.ph + 1) d.nu K) (k : Fin d.ph) (r a : Fin d.nx) : K :=
  if cont then rnd (-(if r = a then 1 else 0)
    + rnd (rnd (rnd (rnd (Ts / 2) * rnd (1 / s r)) * quotXR rnd t F (X k.succ) (U k.castSucc) k r a) * s a))
  else (if r = a then 1 else 0)

/-- rounded derivative of the residual of step `k` with respect to the input of step `k` -/
def residualInputR [LinearOrder K] (t : K) (cont : Bool) (Ts : K) (s : Nat → K) (F : FVec d.nx K → FVec d.nu K → Nat → FVec d.nx K)
    (X : Traj (d.ph + 1) d.nx K) (U : Traj (d.ph + 1) d.nu K) (k : Fin d.ph) (r : Fin d.nx) (b : Fin d.nu) : K :=
  if cont then rnd (rnd (rnd (Ts / 2) * rnd (1 / s r)) * rnd (quotUR rnd t F (X k.castSucc) (U k.castSucc) k r b
    + quotUR rnd t F (X k.succ) (U k.castSucc) k r b))
  else -rnd (rnd (1 / s r) * quotUR rnd t F (X k.castSucc) (U k.castSucc) k r b)

/-- the row of the residual of step `k`, component `r`, in the gradient handed to the solver, rounded -/
structure DynRowR [LinearOrder K] (d : Dims) (t : K) (cont : Bool) (Ts : K) (s su : Nat → K)
    (F : FVec d.nx K → FVec d.nu K → Nat → FVec d.nx K) (X : Traj (d.ph + 1) d.nx K) (U : Traj (d.ph + 1) d.nu K)
    (k : Fin d.ph) (r : Fin d.nx) (g : Nat → K) : Prop where
  states : ∀ (k' : Nat) (a : Fin d.nx), k' < d.ph → g (stateIx d k' a)
    = if k' = k then residualNextR rnd t cont Ts s F X U k r a
      else if k' + 1 = k then residualPrevR rnd t cont Ts s F X U k r a else 0
  inputs : ∀ (j : Nat) (b : Fin d.nu), j < d.ch → g (inputIx d j b)
    = if min (k : Nat) (d.ch - 1) = j then rnd (su b * residualInputR rnd t cont Ts s F X U k r b) else 0
  slack : g (slackIx d) = 0

end
end Mpc.NlSpec

namespace Mpc.NlSpec

/-! ### Accuracy -/

section
variable {K : Type} [Field K] [LinearOrder K]

/-- `X` and `U` are the states and inputs which decision vector `z` stands for, up to rounding: relative error `2 eps / (1 - eps)`
per state and `eps` per input -/
structure Decoded (R : Rounding K) (d : Dims) (sx su x0 z : Nat → K) (X : Traj (d.ph + 1) d.nx K) (U : Traj (d.ph + 1) d.nu K) :
    Prop where
  states : ∀ k a, |X k a - codeStates d sx x0 z k a| ≤ 2 * R.eps / (1 - R.eps) * |codeStates d sx x0 z k a|
  inputs : ∀ k b, |U k b - inputs d su z k b| ≤ R.eps * |inputs d su z k b|

/-- the affine function with the given coefficients -/
def affine {r n m : Nat} (c0 : K) (α β : Nat → Nat → K) (γ : K) (X : Traj r n K) (U : Traj r m K) (e : K) : K :=
  c0 + ∑ k : Fin r, ∑ a : Fin n, α k a * X k a + ∑ k : Fin r, ∑ b : Fin m, β k b * U k b + γ * e

/-- around `(X, U, e)` (no entry moved by more than `ρ`) the values of `φ` differ from those of the affine function by at most `η`:
by rounding errors inside `φ`, or because `φ` is not affine -/
def NearlyAffine {r n m : Nat} (φ : Traj r n K → Traj r m K → K → K) (c0 : K) (α β : Nat → Nat → K) (γ : K)
    (X : Traj r n K) (U : Traj r m K) (e : K) (ρ η : K) : Prop :=
  ∀ X' U' e', Near (fun _ _ => ρ) X X' → Near (fun _ _ => ρ) U U' → |e' - e| ≤ ρ → |φ X' U' e' - affine c0 α β γ X' U' e'| ≤ η

/-- no number in the sequences is larger than `M` -/
structure Bounded {r n m : Nat} (M : K) (X : Traj r n K) (U : Traj r m K) (e : K) : Prop where
  one : 1 ≤ M
  states : ∀ k a, |X k a| ≤ M
  inputs : ∀ k b, |U k b| ≤ M
  slack : |e| ≤ M

/-- error of a rounded difference quotient whose numerator is `D` times the step `H`, up to `E` -/
def quotErr (R : Rounding K) (D E H : K) : K := ((1 + R.eps) ^ 2 - 1) * |D| + (1 + R.eps) ^ 2 * (E / H)

/-- error of a derivative computed with steps of about `t` from values which are off by `η`, for variables of magnitude `M` and
coefficients of magnitude `L` -/
def derivErr (R : Rounding K) (t η L M : K) : K := (6 * η + 48 * R.eps * L * M) / t

/-- error of `s` times a sum, when the terms are off by `ε` altogether, their magnitudes add up to `L`, and `n` roundings follow -/
def scaleErr (R : Rounding K) (n : Nat) (s ε L : K) : K := |s| * ((1 + R.gamma n) * ε + R.gamma n * L)

/-- sum over the steps which use decision input `j` -/
def blockSum (d : Dims) (j : Nat) (f : Nat → K) : K := ∑ k ∈ Finset.range (d.ph + 1), if min k (d.ch - 1) = j then f k else 0

/-- sum of the magnitudes of all coefficients -/
def totalCoeff (d : Dims) (α β : Nat → Nat → K) (γ : K) : K :=
  ∑ k ∈ Finset.range (d.ph + 1), ∑ a ∈ Finset.range d.nx, |α k a|
    + ∑ k ∈ Finset.range (d.ph + 1), ∑ b ∈ Finset.range d.nu, |β k b| + |γ|

/-- The row `g` of a constraint is the derivative of the affine function with respect to the decision vector, up to an error per
entry which depends on the coefficients of that entry only. -/
structure ConAccurate (R : Rounding K) (d : Dims) (t M η : K) (sx su : Nat → K) (α β : Nat → Nat → K) (γ : K) (g : Nat → K) :
    Prop where
  states : ∀ k a, k < d.ph → a < d.nx → |g (stateIx d k a) - sx a * α (k + 1) a|
    ≤ scaleErr R 1 (sx a) (derivErr R t η |α (k + 1) a| M) |α (k + 1) a|
  inputs : ∀ j b, j < d.ch → b < d.nu → |g (inputIx d j b) - su b * blockSum d j (fun k => β k b)|
    ≤ scaleErr R (d.ph + 1) (su b) (derivErr R t (d.ph * η) (blockSum d j fun k => |β k b|) M) (blockSum d j fun k => |β k b|)
  slack : |g (slackIx d) - γ| ≤ derivErr R (t * t) η |γ| M

/-- The gradient `g` of the objective is the derivative of the affine function with respect to the decision vector (the code does not
multiply the part of the states by the scaling), up to an error per entry which depends on all coefficients. -/
structure ObjAccurate (R : Rounding K) (d : Dims) (t M η : K) (su : Nat → K) (α β : Nat → Nat → K) (γ : K) (g : Nat → K) : Prop where
  states : ∀ k a, k < d.ph → a < d.nx → |g (stateIx d k a) - α (k + 1) a| ≤ derivErr R t η (totalCoeff d α β γ) M
  inputs : ∀ j b, j < d.ch → b < d.nu → |g (inputIx d j b) - su b * blockSum d j (fun k => β k b)|
    ≤ scaleErr R (d.ph + 1) (su b) (d.ph * derivErr R t η (totalCoeff d α β γ) M) (blockSum d j fun k => |β k b|)
  slack : |g (slackIx d) - γ| ≤ derivErr R (t * t) η |γ| M

end
end Mpc.NlSpec

namespace Mpc.NlSpec

section
variable {K : Type} [Field K] [LinearOrder K]

/-- moving states and inputs by at most `ρ` per entry, the measured state excepted, changes the value of `φ` by at most `E` -/
def VariesAtMost {r n m : Nat} (φ : Traj r n K → Traj r m K → K → K) (X : Traj r n K) (U : Traj r m K) (e ρ E : K) : Prop :=
  ∀ X' U', Near (fun k _ => if k = 0 then 0 else ρ) X X' → Near (fun _ _ => ρ) U U' → |φ X' U' e - φ X U e| ≤ E

/-- entries of the gradient `g` of the objective for variables on which it does not depend -/
structure SmallWhereIgnored (R : Rounding K) (d : Dims) (t E : K) (su : Nat → K)
    (φ : Traj (d.ph + 1) d.nx K → Traj (d.ph + 1) d.nu K → K → K) (g : Nat → K) : Prop where
  states : ∀ k a, k < d.ph → a < d.nx → IgnoresState φ (k + 1) a → |g (stateIx d k a)| ≤ 2 * E / t
  inputs : ∀ j b, j < d.ch → b < d.nu → IgnoresInput d φ j b → |g (inputIx d j b)| ≤ scaleErr R (d.ph + 1) (su b) (d.ph * (2 * E / t)) 0
  slack : IgnoresSlack φ → g (slackIx d) = 0

end
end Mpc.NlSpec

namespace Mpc.NlSpec

section
variable {K : Type} [Field K] [LinearOrder K]

/-- around `(x, u)` component `r` of the model at step `k` differs from an affine function by at most `η` -/
def ModelNearlyAffine {n m : Nat} (F : FVec n K → FVec m K → Nat → FVec n K) (k : Nat) (r : Fin n) (c0 : K) (A B : Nat → K)
    (x : FVec n K) (u : FVec m K) (ρ η : K) : Prop :=
  ∀ x' u', (∀ a, |x' a - x a| ≤ ρ) → (∀ b, |u' b - u b| ≤ ρ) →
    |F x' u' k r - (c0 + ∑ a : Fin n, A a * x' a + ∑ b : Fin m, B b * u' b)| ≤ η

/-- The row `g` of the model equation of step `k`, component `r`, holds the derivatives of the equation
(continuous: `(x + Ts/2 (f(x,u) + f(x',u)) - x') / s`, discrete: `(x' - f(x,u)) / s`) with respect to the scaled states and inputs, up to the
given errors; `A`, `B` are the coefficients of the model at `(x, u)` and `A'`, `B'` those at `(x', u)`. -/
structure DynAccurate (R : Rounding K) (d : Dims) (t M η : K) (cont : Bool) (Ts : K) (s su : Nat → K) (A B A' B' : Nat → K)
    (k : Fin d.ph) (r : Fin d.nx) (g : Nat → K) : Prop where
  next : ∀ a : Fin d.nx, |g (stateIx d k a) - (if cont then Ts / 2 * (s a / s r) * A' a - (if r = a then 1 else 0) else if r = a then 1 else 0)|
    ≤ if cont then scaleErr R 6 (Ts / 2 * (s a / s r)) (derivErr R t η |A' a| M) |A' a| + R.gamma 6 * (if r = a then 1 else 0) else 0
  prev : ∀ a : Fin d.nx, 0 < (k : Nat) →
    |g (stateIx d (k - 1) a) - (if cont then (if r = a then 1 else 0) + Ts / 2 * (s a / s r) * A a else -(s a / s r * A a))|
    ≤ if cont then scaleErr R 6 (Ts / 2 * (s a / s r)) (derivErr R t η |A a| M) |A a| + R.gamma 6 * (if r = a then 1 else 0)
      else scaleErr R 3 (s a / s r) (derivErr R t η |A a| M) |A a|
  input : ∀ b : Fin d.nu, |g (inputIx d (min (k : Nat) (d.ch - 1)) b)
      - (if cont then su b * (Ts / 2 / s r) * (B b + B' b) else -(su b / s r * B b))|
    ≤ if cont then scaleErr R 6 (su b * (Ts / 2 / s r)) (derivErr R t η |B b| M + derivErr R t η |B' b| M) (|B b| + |B' b|)
      else scaleErr R 3 (su b / s r) (derivErr R t η |B b| M) |B b|

end
end Mpc.NlSpec
