import Verif.Proofs.WrongSize
import Verif.Props.LinearSlices

/-
C116: arguments of the wrong size (dynamic dimensions, Python).
-/
namespace Mpc.Props
open Mpc.Spec Mpc.Exec
set_option linter.unusedSectionVars false

section
variable {K : Type} [Field K] [DecidableEq K]
variable {d : Dims} {ops : List (LOp K)} {outs : List (LOut K)} {m m' : LMpc K} {op : LOp K} {out : LOut K}

/-- C116 as stated: a call with an argument of the wrong size is refused and has no effect. -/
def C116Claim (K : Type) [Field K] [DecidableEq K] : Prop :=
  ∀ (d : Dims) (ops : List (LOp K)) (outs : List (LOut K)) (m : LMpc K) (op : LOp K),
    Configured d ops outs m → SliceNonneg op → ¬ SizesRight d op →
    ∃ out, m.step op = .ok (m, out) ∧ (out = .bool false ∨ out = .threw)

/-- C116, partial: a call on whose sizes the code insists is never carried out with wrong ones. (Missing: it does not refuse
them either, but fails an assertion of Eigen or, without assertions, has undefined behaviour; and it does not insist on all
sizes, see `SizesTested`.) -/
theorem c116_tested_partial (h : Configured d ops outs m) (hn : SliceNonneg op) (hw : ¬ SizesTested d op)
    (e : m.step op = .ok (m', out)) : m' = m ∧ out = .bool false :=
  (LMpc.step_tested h.valid (configured_inv h) hn e).resolve_left hw

/-- non-vacuity: bounds given for one step only, as a whole-horizon call -/
example : ¬ SizesTested sampleDims (.setStateBounds (K := ℚ) ⟨2, 1, fun _ _ => .fin 0⟩ ⟨2, 1, fun _ _ => .fin 1⟩) ∧
    SliceNonneg (.setStateBounds (K := ℚ) ⟨2, 1, fun _ _ => .fin 0⟩ ⟨2, 1, fun _ _ => .fin 1⟩) := by
  constructor
  · simp [SizesTested, SizesRight, IsMat, sampleDims]
  · simp [SliceNonneg, sliceOf]

/-- C116, partial: whole-horizon references of any sizes are accepted, and disturbances too. If `optimize` cannot be computed
from them, no later `optimize` returns, whatever the solver does. (Missing: they should be refused.) -/
theorem c116_stored_partial (h : Configured d ops outs m) :
    (∀ Y U D : Mat K, ∃ m1, m.step (.setReferences Y U D) = .ok (m1, .bool true) ∧
      (¬ RefsUsable d Y U D → ∀ x0 u0 oc r, m1.step (.optimize x0 u0 oc) ≠ .ok r)) ∧
    (∀ M : Mat K, ∃ m1, m.step (.setExogenousInputs M) = .ok (m1, .bool true) ∧
      (¬ DistUsable d M → ∀ x0 u0 oc r, m1.step (.optimize x0 u0 oc) ≠ .ok r)) := by
  have hi := configured_inv h
  have hbd : m.b.d = d := hi.builder.dims
  have hph : 0 < m.b.d.ph := hbd ▸ h.valid.ph_pos
  have hw := hi.builder.shaped.wDeltaU.1
  have hv := hi.builder.shaped.ssDv.2
  rw [hbd] at hw hv
  constructor
  · intro Y U D
    refine ⟨_, rfl, fun hu x0 u0 oc r e => hu ?_⟩
    simp only [LMpc.step] at e
    obtain ⟨r', e, _⟩ := bind_eq_ok.1 e
    have s := (LOpt.run_sizes (b := m.b) hph e).2.1
    rw [hbd, hw] at s
    exact s
  · intro M
    refine ⟨_, rfl, fun hu x0 u0 oc r e => hu ?_⟩
    simp only [LMpc.step] at e
    obtain ⟨r', e, _⟩ := bind_eq_ok.1 e
    have s := (LOpt.run_sizes (b := m.b) hph e).2.2
    rw [hbd, hv] at s
    exact s

/-- non-vacuity: references for one step only -/
example : ¬ RefsUsable sampleDims (cmat 1 1 5) (cmat 1 1 0) (cmat 1 1 0) ∧ ¬ DistUsable sampleDims (cmat 1 1 5) := by
  simp [RefsUsable, DistUsable, sampleDims, cmat]

/-- C116, partial: columns of references and disturbances beyond the horizon are ignored: the next `optimize` gives the solver
the same problem, and returns the same result, as with the columns of the horizon alone. -/
theorem c116_beyond_partial (h : Configured d ops outs m) {Y U D : Mat K} (hY : d.ph ≤ Y.cols) (hU : d.ph ≤ U.cols)
    (hD : d.ph ≤ D.cols) {M : Mat K} (hM : d.ph ≤ M.cols) (x0 u0 : Vec K) (oc : OsqpOutcome K) :
    ((m.exec [.setReferences Y U D, .setExogenousInputs M, .optimize x0 u0 oc]).map Prod.snd) =
    ((m.exec [.setReferences (firstCols d.ph Y) (firstCols d.ph U) (firstCols d.ph D),
      .setExogenousInputs (firstCols d.ph M), .optimize x0 u0 oc]).map Prod.snd) := by
  have hi := configured_inv h
  have hbd : m.b.d = d := hi.builder.dims
  have hod : m.o.d = d := hi.opt.dims
  have hph := h.valid.ph_pos
  have e1 := LOpt.run_stored (o := m.o) (b := m.b) (x0 := x0) (u0 := u0) (oc := oc) (Y := Y) (U := U) (D := D) (M := M)
    (Y' := firstCols d.ph Y) (U' := firstCols d.ph U) (D' := firstCols d.ph D) (M' := firstCols d.ph M)
    (by subst hbd; exact (Builder.get_firstCols hph hY hU hD hM).symm)
    (fun j hj => (firstCols_col (hod ▸ hj) hM).symm) (hod ▸ hph)
  simp only [LMpc.exec, LMpc.step, LMpc.onOptimizer, LOpt.setReferences, LOpt.setExogenousInputs, ok_bind, pure_bind']
  simp only [LOpt.stored] at e1
  rw [e1]
  generalize LOpt.run _ m.b x0 u0 oc = e
  cases e <;> rfl

/-- non-vacuity: references for five steps, for the horizon of the sample -/
example : sampleDims.ph ≤ (cmat 1 5 3 : Mat ℚ).cols ∧ firstCols sampleDims.ph (cmat 1 5 3) ≠ (cmat 1 5 3 : Mat ℚ) := by
  refine ⟨by decide, fun e => ?_⟩
  have := congrArg Mat.cols e
  simp [firstCols, cmat, sampleDims] at this

/-- the multipliers of a scalar constraint, one after the other -/
def joined (X U : Vec K) (k : Nat) : K := if k < X.size then X.get k else U.get (k - X.size)

/-- C116, partial: the multipliers of a scalar constraint are only measured together. Split at the wrong place, the call does
what the call with the same numbers, split at the right place, does. (Missing: it should be refused.) -/
theorem c116_split_partial (h : Configured d ops outs m) (i : Nat) (mn mx : Ext K) {X U : Vec K}
    (hs : X.size + U.size = d.nx + d.nu) :
    m.step (.setScalarConstraintAt i mn mx X U) = m.step (.setScalarConstraintAt i mn mx ⟨d.nx, joined X U⟩
      ⟨d.nu, fun k => joined X U (d.nx + k)⟩) := by
  have hbd : m.b.d = d := (configured_inv h).builder.dims
  have key : ∀ n, Vec.comma n X U = Vec.comma n ⟨d.nx, joined X U⟩ ⟨d.nu, fun k => joined X U (d.nx + k)⟩ := by
    intro n
    by_cases hn : d.nx + d.nu = n
    · rw [Vec.comma_ok (hs.trans hn), Vec.comma_ok hn]
      congr 2
      funext k
      simp only [joined]
      split_ifs with h1 h2 h3 h3 <;> first | rfl | (exfalso; omega) | (congr 1; omega)
    · unfold Vec.comma
      rw [require_fail (by rw [hs]; exact hn), require_fail hn]
      rfl
  simp only [LMpc.step, LMpc.setScalarConstraintAt, Builder.setScalarConstraintAt, Builder.fillMultiplier, key]

end

/-- non-vacuity: for two states and one input, one multiplier given for the states and two for the inputs, which is not the
documented split, but passes -/
example : (cvec 1 3 : Vec ℚ).size + (cvec 2 4 : Vec ℚ).size = 2 + 1 ∧
    joined (cvec 1 3 : Vec ℚ) (cvec 2 4) 0 = 3 ∧ joined (cvec 1 3 : Vec ℚ) (cvec 2 4) 1 = 4 := by
  refine ⟨rfl, ?_, ?_⟩ <;> simp [joined, cvec]

/-- C116 is violated: references for a single step are accepted as references for the horizon. -/
theorem c116_violated : ¬ C116Claim ℚ := by
  intro hc
  obtain ⟨m, hm, -⟩ := configured_of_accepts (K := ℚ) (d := dims1 2 2) (ops := [plant1 0 0])
    (dims1_valid (by decide) (by decide) (by decide) (by decide)) (by decide) (by decide) (by accepts_tac [plant1])
  obtain ⟨out, h1, h2⟩ := hc _ _ _ _ (.setReferences (cmat 1 1 5) (cmat 1 1 0) (cmat 1 1 0)) hm (by simp [SliceNonneg, sliceOf])
    (by simp [SizesRight, IsMat, dims1, cmat])
  obtain ⟨m1, h3, -⟩ := (c116_stored_partial hm).1 (cmat 1 1 5) (cmat 1 1 0) (cmat 1 1 0)
  rw [h3] at h1
  cases h1
  rcases h2 with h2 | h2 <;> cases h2

/-- C116 is violated also where the code insists on the sizes: bounds for one step, given to the whole-horizon setter, end the
program. -/
theorem c116_abort_violated : ∃ (d : Dims) (ops : List (LOp ℚ)) (outs : List (LOut ℚ)) (m : LMpc ℚ) (mn mx : Mat (Ext ℚ)),
    Configured d ops outs m ∧ ∃ f, m.step (.setStateBounds mn mx) = .error f := by
  obtain ⟨m, hm, -⟩ := configured_of_accepts (K := ℚ) (d := dims1 2 2) (ops := [plant1 0 0])
    (dims1_valid (by decide) (by decide) (by decide) (by decide)) (by decide) (by decide) (by accepts_tac [plant1])
  refine ⟨_, _, _, m, ⟨1, 1, fun _ _ => .fin 0⟩, ⟨1, 1, fun _ _ => .fin 1⟩, hm, ?_⟩
  cases e : m.step (.setStateBounds ⟨1, 1, fun _ _ => .fin 0⟩ ⟨1, 1, fun _ _ => .fin 1⟩) with
  | error f => exact ⟨f, rfl⟩
  | ok r =>
    exfalso
    simp only [LMpc.step] at e
    obtain ⟨r', h⟩ := LMpc.onBuilder_ok e
    have := (Builder.setStateBounds_sizes h).1.2
    rw [(configured_inv hm).builder.dims] at this
    simp [dims1] at this

end Mpc.Props
