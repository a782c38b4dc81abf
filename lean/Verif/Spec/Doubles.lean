import Verif.Model.Doubles
import Verif.Spec.Qp

/-
Signals which need not be numbers, and signals which play no role.
-/
namespace Mpc.Spec

/-- The signals of a control step: measured state, last command, and the references and disturbances of each step. -/
structure Doubles (K : Type) where
  state : Nat → Flt K
  command : Nat → Flt K
  yRef : Nat → Nat → Flt K
  uRef : Nat → Nat → Flt K
  duRef : Nat → Nat → Flt K
  dist : Nat → Nat → Flt K

variable {K : Type}

/-- The signals of an exact control problem, as `double`s. -/
def Doubles.ofNumbers (c : LinConfig K) (x0 u0 : Nat → K) : Doubles K where
  state a := .fin (x0 a)
  command a := .fin (u0 a)
  yRef k a := .fin (c.yRef k a)
  uRef k a := .fin (c.uRef k a)
  duRef k a := .fin (c.duRef k a)
  dist k e := .fin (c.dist k e)

/-- None of the signals is infinite (they are numbers or NaN). -/
structure Doubles.NoInfinity (d : Dims) (s : Doubles K) : Prop where
  state : ∀ a, a < d.nx → s.state a = .nan ∨ ∃ x, s.state a = .fin x
  command : ∀ a, a < d.nu → s.command a = .nan ∨ ∃ x, s.command a = .fin x
  yRef : ∀ k a, k < d.ph → a < d.ny → s.yRef k a = .nan ∨ ∃ x, s.yRef k a = .fin x
  uRef : ∀ k a, k < d.ph → a < d.nu → s.uRef k a = .nan ∨ ∃ x, s.uRef k a = .fin x
  duRef : ∀ k a, k < d.ph → a < d.nu → s.duRef k a = .nan ∨ ∃ x, s.duRef k a = .fin x
  dist : ∀ k e, k < d.ph → e < d.ndu → s.dist k e = .nan ∨ ∃ x, s.dist k e = .fin x

/-- `m` is a controller on which the API calls `ops` have been made, and `p` is the problem its builder poses for the
signals `s`. -/
structure Posed [Field K] [LinearOrder K] [DecidableEq K] (d : Dims) (ops : List (LOp K)) (outs : List (LOut K))
    (s : Doubles K) (m : LMpc K) (p : FltProblem K) : Prop extends Configured d ops outs m where
  posed : m.b.getF ⟨d.nx, s.state⟩ ⟨d.nu, s.command⟩ ⟨d.ny, d.ph, fun a k => s.yRef k a⟩ ⟨d.nu, d.ph, fun a k => s.uRef k a⟩
    ⟨d.nu, d.ph, fun a k => s.duRef k a⟩ ⟨d.ndu, d.ph, fun e k => s.dist k e⟩ = .ok p

/-- Two problems are the same, `double` by `double`. -/
structure SameDoubles (d : Dims) (p p' : FltProblem K) : Prop where
  q : ∀ i, i < varCount d → p'.q.get i = p.q.get i
  l : ∀ ρ, ρ < rowCount d → p'.l.get ρ = p.l.get ρ
  u : ∀ ρ, ρ < rowCount d → p'.u.get ρ = p.u.get ρ

/-! ### Signals which play no role

A reference of weight zero, and a disturbance which the model does not let act on anything. (The increment reference of step
`k` is weighed with the weight of step `k+1`, and that of step 0 with those of steps 0 and 1.) -/
section
variable [Zero K]

/-- the output reference plays a role -/
def yUsed (c : LinConfig K) (k a : Nat) : Prop := c.wY k a ≠ 0
/-- the input reference plays a role -/
def uUsed (c : LinConfig K) (k a : Nat) : Prop := c.wU k a ≠ 0
/-- the increment reference plays a role -/
def duUsed (d : Dims) (c : LinConfig K) (k a : Nat) : Prop := ∃ i, i < d.ph ∧ i - 1 = k ∧ c.wDu i a ≠ 0
/-- the disturbance plays a role -/
def distUsed (d : Dims) (c : LinConfig K) (e : Nat) : Prop :=
  (∃ a, a < d.nx ∧ c.Bd a e ≠ 0) ∨ (∃ a, a < d.ny ∧ c.Dd a e ≠ 0)

/-- Two configurations differ at most in signals which play no role. -/
structure LinConfig.AgreeUsed (d : Dims) (c c' : LinConfig K) : Prop where
  settings : LinConfig.Agree d c { c' with yRef := c.yRef, uRef := c.uRef, duRef := c.duRef, dist := c.dist }
  yRef : ∀ k a, k < d.ph → a < d.ny → yUsed c k a → c'.yRef k a = c.yRef k a
  uRef : ∀ k a, k < d.ph → a < d.nu → uUsed c k a → c'.uRef k a = c.uRef k a
  duRef : ∀ k a, k < d.ph → a < d.nu → duUsed d c k a → c'.duRef k a = c.duRef k a
  dist : ∀ k e, k < d.ph → e < d.ndu → distUsed d c e → c'.dist k e = c.dist k e

/-- The same for `double` signals of a controller configured as `c`. -/
structure Doubles.AgreeUsed (d : Dims) (c : LinConfig K) (s s' : Doubles K) : Prop where
  state : ∀ a, a < d.nx → s'.state a = s.state a
  command : ∀ a, a < d.nu → s'.command a = s.command a
  yRef : ∀ k a, k < d.ph → a < d.ny → yUsed c k a → s'.yRef k a = s.yRef k a
  uRef : ∀ k a, k < d.ph → a < d.nu → uUsed c k a → s'.uRef k a = s.uRef k a
  duRef : ∀ k a, k < d.ph → a < d.nu → duUsed d c k a → s'.duRef k a = s.duRef k a
  dist : ∀ k e, k < d.ph → e < d.ndu → distUsed d c e → s'.dist k e = s.dist k e

end
end Mpc.Spec
