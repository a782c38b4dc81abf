import Mathlib.Algebra.Order.Field.Rat
import Mathlib.Tactic.NormNum
import Mathlib.Tactic.IntervalCases
import Verif.Proofs.LinAccept
import Verif.Proofs.QpPlan

/-
Concrete controllers over the rationals: a sample that meets the hypotheses of the property theorems, and the
one-dimensional plants used as witnesses of violated properties.
-/
namespace Mpc.Props
open Exec

/-- matrix with all entries `v` -/
def cmat (r c : Nat) (v : ℚ) : Mat ℚ := ⟨r, c, fun _ _ => v⟩
/-- vector with all entries `v` -/
def cvec (n : Nat) (v : ℚ) : Vec ℚ := ⟨n, fun _ => v⟩
/-- vector of bounds with all entries `v` -/
def evec (n : Nat) (v : ℚ) : Vec (Ext ℚ) := ⟨n, fun _ => .fin v⟩

/-! ### A sample controller: double integrator with a disturbance, horizon 3, control horizon 2 -/

def sampleDims : Dims := { nx := 2, nu := 1, ndu := 1, ny := 1, ph := 3, ch := 2 }

/-- x1+ = x1 + x2, x2+ = x2 + u + d, y = x1 + d -/
def sampleOps : List (LOp ℚ) :=
  [ .setStateSpaceModel ⟨2, 2, fun i j => if i ≤ j then 1 else 0⟩ ⟨2, 1, fun i _ => if i = 1 then 1 else 0⟩
      ⟨1, 2, fun _ j => if j = 0 then 1 else 0⟩,
    .setDisturbances ⟨2, 1, fun i _ => if i = 1 then 1 else 0⟩ (cmat 1 1 1),
    .setObjectiveWeights (cmat 1 3 1) (cmat 1 3 0) (cmat 1 3 2),
    .setObjectiveWeightsSlice (cvec 1 5) (cvec 1 1) (cvec 1 3) ⟨1, 2⟩,
    .setStateBoundsSlice (evec 2 (-10)) (evec 2 10) HorizonSlice.all,
    .setInputBoundsSlice (evec 1 (-1)) (evec 1 1) ⟨0, 2⟩,
    .setOutputBoundsSlice (evec 1 (-4)) (evec 1 4) ⟨0, 1⟩,
    .setScalarConstraintAt 1 (.fin (-7)) .posInf (cvec 2 1) (cvec 1 1),
    .setReferencesSlice (cvec 1 1) (cvec 1 0) (cvec 1 0) HorizonSlice.all,
    .setExogenousInputs (cmat 1 3 (1 / 2)) ]

theorem sample_valid : sampleDims.Valid := ⟨by decide, by decide, by decide, by decide⟩

theorem sample_ok : ∀ op ∈ sampleOps, Spec.Sized sampleDims op ∧ LMpc.Accepts sampleDims op := by
  intro op hop
  simp only [sampleOps, List.mem_cons, List.not_mem_nil, or_false] at hop
  rcases hop with rfl | rfl | rfl | rfl | rfl | rfl | rfl | rfl | rfl | rfl <;>
    simp [Spec.Sized, LMpc.Accepts, SliceIn, HorizonSlice.Int32, HorizonSlice.all, sampleDims, cmat, cvec, evec]

/-- what the sample's setters return -/
def sampleOuts : List (LOut ℚ) := sampleOps.map fun _ => .bool true

/-- The sample was configured and asked, whatever OSQP answers. -/
theorem sample_asked (st : Int) (obj : ℚ) (sol : Option ((Nat → ℚ) × (Nat → ℚ))) :
    ∃ m m' r call, Spec.Asked sampleDims sampleOps sampleOuts (cvec 2 1) (cvec 1 0) (.answered st obj sol) m m' r call :=
  asked_of_accepts sample_valid (by decide) (by decide) sample_ok rfl rfl st obj sol

theorem sample_model : (Spec.configOf sampleOps sampleOuts).modelSet = true := rfl

/-! ### One-dimensional plants -/

/-- nx = nu = ny = ndu = 1 -/
def dims1 (ph ch : Nat) : Dims := { nx := 1, nu := 1, ndu := 1, ny := 1, ph := ph, ch := ch }

theorem dims1_valid {ph ch : Nat} (h1 : 0 < ph) (h2 : 0 < ch) (h3 : ph < 2 ^ 30) (h4 : ch < 2 ^ 30) :
    (dims1 ph ch).Valid := ⟨h1, h2, by show ph < 2 ^ 31; omega, by show ch < 2 ^ 31; omega⟩

/-- x+ = a x + b u, y = x -/
def plant1 (a b : ℚ) : LOp ℚ := .setStateSpaceModel (cmat 1 1 a) (cmat 1 1 b) (cmat 1 1 1)

/-- closes `∀ op ∈ [...], Sized d op ∧ Accepts d op` for a literal list of calls -/
macro "accepts_tac" "[" defs:Lean.Parser.Tactic.simpLemma,* "]" : tactic =>
  `(tactic| simp [$defs,*, plant1, Spec.Sized, LMpc.Accepts, SliceIn, HorizonSlice.Int32, HorizonSlice.all, dims1, cmat, cvec, evec])

/-- evaluates registers of the configuration a literal history leaves -/
macro "config_simp" "[" defs:Lean.Parser.Tactic.simpLemma,* "]" : tactic =>
  `(tactic| simp [$defs,*, Spec.configOf, Spec.LinConfig.after, Spec.accepted, Spec.LinConfig.apply, Spec.LinConfig.default,
      Spec.upd, Spec.covers, Spec.columns, HorizonSlice.all, plant1, cmat, cvec, evec, dims1, Spec.dot, Spec.stateAt,
      Spec.heldAt, Spec.inputAt, Spec.incrementAt, Spec.outputOf, Spec.within, Finset.sum_range_succ])

/-- A one-dimensional controller that was configured by acceptable calls and asked. -/
theorem dims1_asked {ph ch : Nat} (h1 : 0 < ph) (h2 : 0 < ch) (h3 : ph < 2 ^ 30) (h4 : ch < 2 ^ 30) {ops : List (LOp ℚ)}
    (hs : ∀ op ∈ ops, Spec.Sized (dims1 ph ch) op ∧ LMpc.Accepts (dims1 ph ch) op) (x0 u0 : ℚ) :
    ∃ m m' r call, Spec.Asked (dims1 ph ch) ops (ops.map fun _ => .bool true) (cvec 1 x0) (cvec 1 u0)
      (.answered 1 0 none) m m' r call :=
  asked_of_accepts (dims1_valid h1 h2 h3 h4) h3 h4 hs rfl rfl 1 0 none

end Mpc.Props
