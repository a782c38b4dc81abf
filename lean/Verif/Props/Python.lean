import Verif.Spec.Python
import Verif.Proofs.Python
import Verif.Proofs.NlRun
import Verif.Props.WrongSize

/-
C117: the Python module offers the C++ API.
-/
namespace Mpc.Props
open Mpc.Spec Mpc.Exec
set_option linter.unusedSectionVars false

section
variable {K : Type} [Field K] [DecidableEq K]

/-- C117 as stated: a call of the C++ API, written in Python, has the effect and the result it has in C++. -/
def C117Claim (K : Type) [Field K] [DecidableEq K] : Prop :=
  ∀ (m : LMpc K) (op : LOp K) (args : List (PyVal K)) (oc : OsqpOutcome K), WrittenL op args → SolverDoes op oc →
    m.pyStep (methodOf op) args oc = (m.step op).map fun r => (r.1, r.2.toPy)

/-- the calls of the linear controller which Python can make -/
def Offered : LOp K → Prop
  | .setReferences .. => False
  | .setDiscretizationSamplingTime .. => False
  | .setInputScale .. => False
  | .setStateScale .. => False
  | _ => True

/-- C117, partial: all calls of the linear controller but whole-horizon references (and the unsupported ones, which throw in
C++ and are unknown in Python). -/
theorem c117_linear_partial {m : LMpc K} {op : LOp K} {args : List (PyVal K)} {oc : OsqpOutcome K}
    (ho : Offered op) (ha : WrittenL op args) (hs : SolverDoes op oc) :
    m.pyStep (methodOf op) args oc = (m.step op).map fun r => (r.1, r.2.toPy) := by
  cases op with
  | setStateSpaceModel => cases ha; exact pyStep_some (cpp_setStateSpaceModel ..)
  | setDisturbances => cases ha; exact pyStep_some (cpp_setDisturbances ..)
  | setObjectiveWeights => cases ha; exact pyStep_some (cpp_setObjectiveWeights ..)
  | setObjectiveWeightsSlice => cases ha; exact pyStep_some (cpp_setObjectiveWeightsSlice ..)
  | setStateBounds => cases ha; exact pyStep_some (cpp_setStateBounds ..)
  | setStateBoundsSlice => cases ha; exact pyStep_some (cpp_setStateBoundsSlice ..)
  | setInputBounds => cases ha; exact pyStep_some (cpp_setInputBounds ..)
  | setInputBoundsSlice => cases ha; exact pyStep_some (cpp_setInputBoundsSlice ..)
  | setOutputBounds => cases ha; exact pyStep_some (cpp_setOutputBounds ..)
  | setOutputBoundsSlice => cases ha; exact pyStep_some (cpp_setOutputBoundsSlice ..)
  | setScalarConstraintSlice => cases ha; exact pyStep_some (cpp_setScalarConstraintSlice ..)
  | setExogenousInputs => cases ha; exact pyStep_some (cpp_setExogenousInputs ..)
  | setExogenousInputsSlice => cases ha; exact pyStep_some (cpp_setExogenousInputsSlice ..)
  | setReferencesSlice => cases ha; exact pyStep_some (cpp_setReferencesSlice ..)
  | setSolverWarmStart => cases ha; exact pyStep_some (cpp_setSolverWarmStart ..)
  | optimize => cases ha; cases hs; exact pyStep_some (cpp_optimize ..)
  | setScalarConstraintAt =>
    obtain ⟨rfl, hi⟩ := ha
    exact pyStep_some (cpp_setScalarConstraintAt hi ..)
  | setReferences => exact ho.elim
  | setOptimizerParameters => exact ha.elim
  | setDiscretizationSamplingTime => exact ho.elim
  | setInputScale => exact ho.elim
  | setStateScale => exact ho.elim

/-- non-vacuity: bounds on a slice are offered and can be written -/
example : Offered (.setStateBoundsSlice (evec 1 0) (evec 1 1) ⟨0, 1⟩ : LOp ℚ) ∧
    WrittenL (.setStateBoundsSlice (evec 1 0) (evec 1 1) ⟨0, 1⟩ : LOp ℚ) [np1 (evec 1 0), np1 (evec 1 1), slc ⟨0, 1⟩] :=
  ⟨trivial, rfl⟩

/-- C117, partial: whatever a Python program calls with whatever arguments, either the controller stays as it is, or the call
is a C++ call of the method of this name with these arguments. -/
theorem c117_any_call_partial (name : String) (args : List (PyVal K)) (oc : OsqpOutcome K) :
    (∀ m : LMpc K, ∃ out, m.pyStep name args oc = .ok (m, out)) ∨
    ∃ op : LOp K, methodOf op = name ∧ GivenL op args ∧ ∀ m : LMpc K, m.pyStep name args oc = (m.step op).map fun r => (r.1, r.2.toPy) := by
  cases h : cppCall name args oc with
  | none => exact .inl (pyStep_none h)
  | some op => exact .inr ⟨op, (cppCall_method h).1, (cppCall_method h).2, fun m => pyStep_some h⟩

/-- C117, partial: what a call gives back in C++ is what Python sees of it (without `is_feasible`, which is not exported). -/
theorem c117_seen_partial (out : LOut K) : SeenL out out.toPy := by
  cases out <;> simp [SeenL, SeenResult, LOut.toPy, LResult.toPy]

/-- C117, partial: the getters give back in Python what they give back in C++ and change nothing; `getOptimalSequence` alone
raises `TypeError`, because its class is not exported. -/
theorem c117_getters_partial (m : LMpc K) (oc : OsqpOutcome K) :
    (∃ p, m.pyStep "getLastResult" [] oc = .ok (m, .result p) ∧ SeenResult m.getLastResult p) ∧
    m.pyStep "getSolverWarmStartPrimal" [] oc = .ok (m, .numbers m.getSolverWarmStartPrimal) ∧
    m.pyStep "getSolverWarmStartDual" [] oc = .ok (m, .numbers m.getSolverWarmStartDual) ∧
    m.pyStep "getOptimalSequence" [] oc = .ok (m, .raises .typeError) := by
  refine ⟨⟨m.getLastResult.toPy, ?_, rfl, rfl, rfl, rfl⟩, ?_, ?_, ?_⟩
  · unfold LMpc.pyStep dispatch
    rw [PyTable.l_getLastResult]
    rfl
  · unfold LMpc.pyStep dispatch
    rw [PyTable.l_getSolverWarmStartPrimal]
    rfl
  · unfold LMpc.pyStep dispatch
    rw [PyTable.l_getSolverWarmStartDual]
    rfl
  · unfold LMpc.pyStep dispatch
    rw [PyTable.l_getOptimalSequence]
    rfl

/-- C117, partial: a Python program is a C++ program: what is proved of the C++ programs holds of it. -/
theorem c117_programs_partial (cs : List (String × List (PyVal K) × OsqpOutcome K)) :
    ∃ ops : List (LOp K), ∀ m : LMpc K, (m.pyExec cs).map Prod.fst = (m.exec ops).map Prod.fst := by
  induction cs with
  | nil => exact ⟨[], fun m => rfl⟩
  | cons c cs ih =>
    obtain ⟨name, args, oc⟩ := c
    obtain ⟨ops, ih⟩ := ih
    rcases c117_any_call_partial name args oc with h | ⟨op, -, -, h⟩
    · refine ⟨ops, fun m => ?_⟩
      obtain ⟨out, h⟩ := h m
      rw [← ih m, LMpc.pyExec, h]
      simp only [ok_bind]
      cases m.pyExec cs <;> rfl
    · refine ⟨op :: ops, fun m => ?_⟩
      rw [LMpc.pyExec, LMpc.exec, h]
      cases m.step op with
      | error f => rfl
      | ok r =>
        have e := ih r.1
        simp only [Except.map, ok_bind]
        revert e
        generalize r.1.pyExec cs = a
        generalize r.1.exec ops = b
        intro e
        cases a <;> cases b <;> simp_all [Except.map, bind, Except.bind, pure, Except.pure]

/-- C117, partial: one-dimensional arrays given to the setters for the whole horizon are taken for matrices with one column,
and unless the horizon is one step long, the call does not return. -/
theorem c117_vectors_partial {d : Dims} {ops : List (LOp K)} {outs : List (LOut K)} {m : LMpc K} (h : Configured d ops outs m)
    (a b : Vec (Ext K)) (oc : OsqpOutcome K) (r : LMpc K × PyOut K) :
    (d.ph ≠ 1 → m.pyStep "setStateBounds" [np1 a, np1 b] oc ≠ .ok r ∧ m.pyStep "setOutputBounds" [np1 a, np1 b] oc ≠ .ok r) ∧
    (d.ch ≠ 1 → m.pyStep "setInputBounds" [np1 a, np1 b] oc ≠ .ok r) := by
  have hbd : m.b.d = d := (configured_inv h).builder.dims
  have e1 : cppCall "setStateBounds" [np1 a, np1 b] oc =
      some (.setStateBounds ⟨a.size, 1, fun i _ => a.get i⟩ ⟨b.size, 1, fun i _ => b.get i⟩) := by
    unfold cppCall dispatch
    rw [PyTable.l_setStateBounds]
    rfl
  have e2 : cppCall "setOutputBounds" [np1 a, np1 b] oc =
      some (.setOutputBounds ⟨a.size, 1, fun i _ => a.get i⟩ ⟨b.size, 1, fun i _ => b.get i⟩) := by
    unfold cppCall dispatch
    rw [PyTable.l_setOutputBounds]
    rfl
  have e3 : cppCall "setInputBounds" [np1 a, np1 b] oc =
      some (.setInputBounds ⟨a.size, 1, fun i _ => a.get i⟩ ⟨b.size, 1, fun i _ => b.get i⟩) := by
    unfold cppCall dispatch
    rw [PyTable.l_setInputBounds]
    rfl
  have key : ∀ {op : LOp K} {r : LMpc K × PyOut K}, ((m.step op).map fun r => (r.1, r.2.toPy)) = .ok r → ∃ r', m.step op = .ok r' := by
    intro op r e
    cases h : m.step op with
    | error f => rw [h] at e; cases e
    | ok r' => exact ⟨r', rfl⟩
  refine ⟨fun hp => ⟨fun e => ?_, fun e => ?_⟩, fun hp e => ?_⟩
  · rw [pyStep_some e1] at e
    obtain ⟨r', e⟩ := key e
    simp only [LMpc.step] at e
    obtain ⟨r', e⟩ := LMpc.onBuilder_ok e
    exact hp (hbd ▸ (Builder.setStateBounds_sizes e).1.2).symm
  · rw [pyStep_some e2] at e
    obtain ⟨r', e⟩ := key e
    simp only [LMpc.step] at e
    obtain ⟨r', e⟩ := LMpc.onBuilder_ok e
    exact hp (hbd ▸ (Builder.setOutputBounds_sizes e).1.2).symm
  · rw [pyStep_some e3] at e
    obtain ⟨r', e⟩ := key e
    simp only [LMpc.step] at e
    obtain ⟨r', e⟩ := LMpc.onBuilder_ok e
    exact hp (hbd ▸ (Builder.setInputBounds_sizes e).1.2).symm

end

/-- C117 is violated: references for the whole horizon cannot be set from Python (the binding names the overload with a slice
twice). -/
theorem c117_violated : ¬ C117Claim ℚ := by
  intro hc
  obtain ⟨m, hm, -⟩ := configured_of_accepts (K := ℚ) (d := dims1 2 2) (ops := [plant1 0 0])
    (dims1_valid (by decide) (by decide) (by decide) (by decide)) (by decide) (by decide) (by accepts_tac [plant1])
  have h := hc m (.setReferences (cmat 1 2 5) (cmat 1 2 0) (cmat 1 2 0)) _ .rejected rfl trivial
  obtain ⟨m1, h3, -⟩ := (c116_stored_partial hm).1 (cmat 1 2 5) (cmat 1 2 0) (cmat 1 2 0)
  rw [h3] at h
  unfold LMpc.pyStep at h
  simp only [methodOf] at h
  rw [cpp_setReferences] at h
  simp only [Except.map, Except.ok.injEq, Prod.mk.injEq] at h
  cases h.2

section
variable {K : Type} [Field K] [LinearOrder K] [IsStrictOrderedRing K] {d : Dims}

/-- C117 for the nonlinear controller: as stated. (Python objects have run-time dimensions.) -/
def C117NlClaim (K : Type) [Field K] [LinearOrder K] : Prop :=
  ∀ (d : Dims) (junk : Nat → K) (ops : List (NlCall d K)) (m : NlMpc d K) (outs : List (NlOut K)) (op : NlCall d K)
    (args : List (PyVal K)) (w : NlSurroundings K), NlMpc.run d junk true ops = .ok (m, outs) →
    WrittenN op args → NloptDoes op w → ∃ r, m.pyStep (nlMethodOf op) args w = .ok r

/-- C117 for the nonlinear controller, partial: a call of the C++ API, written in Python, user functions included, has the
effect and the result it has in C++ (for run-time dimensions). -/
theorem c117_nonlinear_partial {m : NlMpc d K} {op : NlCall d K} {args : List (PyVal K)} {w : NlSurroundings K}
    (ha : WrittenN op args) (hs : NloptDoes op w) :
    m.pyStep (nlMethodOf op) args w = (m.step op).map fun r => (r.1, r.2.toPy) := by
  cases op with
  | setDiscretizationSamplingTime => cases ha; exact nlStep_some (nl_setDiscretizationSamplingTime ..)
  | setOptimizerParameters => exact ha.elim
  | setInputScale => cases ha; exact nlStep_some (nl_setInputScale ..)
  | setStateScale => cases ha; exact nlStep_some (nl_setStateScale ..)
  | setObjectiveFunction =>
    obtain ⟨f, hf, rfl⟩ := ha
    cases hs
    have e := nl_setObjectiveFunction (d := d) f w
    rw [pyObjFn_eq hf] at e
    exact nlStep_some e
  | setStateSpaceFunction F tol =>
    obtain ⟨f, hf, rfl⟩ := ha
    cases hs
    have e := nl_setStateSpaceFunction (d := d) f tol w
    rw [pyStateFn_eq hf] at e
    exact nlStep_some e
  | setOutputFunction =>
    obtain ⟨f, F, hf, rfl, rfl⟩ := ha
    have e := nl_setOutputFunction (d := d) f w
    rw [pyOutFn_eq hf] at e
    exact nlStep_some e
  | setIneqConFunction F tol =>
    obtain ⟨f, hf, rfl⟩ := ha
    cases hs
    have e := nl_setIneqConFunction (d := d) f tol w
    rw [pyIneqFn_eq hf] at e
    exact nlStep_some e
  | setEqConFunction F tol =>
    obtain ⟨f, hf, rfl⟩ := ha
    cases hs
    have e := nl_setEqConFunction (d := d) f tol w
    rw [pyEqFn_eq hf] at e
    exact nlStep_some e
  | setStateBounds => cases ha; exact nlStep_some (nl_setStateBounds ..)
  | setInputBounds => cases ha; exact nlStep_some (nl_setInputBounds ..)
  | setOutputBounds => cases ha; exact nlStep_some (nl_setOutputBounds ..)
  | setStateBoundsSlice => cases ha; exact nlStep_some (nl_setStateBoundsSlice ..)
  | setInputBoundsSlice => cases ha; exact nlStep_some (nl_setInputBoundsSlice ..)
  | setOutputBoundsSlice => cases ha; exact nlStep_some (nl_setOutputBoundsSlice ..)
  | optimize =>
    cases ha
    obtain ⟨rfl, rfl, rfl⟩ := hs
    exact nlStep_some (nl_optimize ..)

/-- C117 for the nonlinear controller, partial: any Python call either leaves the controller as it is, or is a C++ call of the
method of this name with these arguments. -/
theorem c117_nl_any_call_partial (name : String) (args : List (PyVal K)) (w : NlSurroundings K) :
    (∀ m : NlMpc d K, ∃ out, m.pyStep name args w = .ok (m, out)) ∨
    ∃ op : NlCall d K, nlMethodOf op = name ∧ GivenN op args ∧ ∀ m : NlMpc d K,
      m.pyStep name args w = (m.step op).map fun r => (r.1, r.2.toPy) := by
  cases h : nlCall d name args w with
  | none => exact .inl (nlStep_none h)
  | some op => exact .inr ⟨op, (nlCall_method h).1, (nlCall_method h).2, fun m => nlStep_some h⟩

/-- C117 for the nonlinear controller, partial: a Python program is a C++ program with run-time dimensions. -/
theorem c117_nl_programs_partial (cs : List (String × List (PyVal K) × NlSurroundings K)) :
    ∃ ops : List (NlCall d K), ∀ junk : Nat → K,
      (NlMpc.pyRun d junk cs).map Prod.fst = (NlMpc.run d junk true ops).map Prod.fst := by
  induction cs using List.reverseRecOn with
  | nil =>
    refine ⟨[], fun junk => ?_⟩
    show Except.map Prod.fst (NlMpc.init d junk true >>= _) = Except.map Prod.fst (NlMpc.init d junk true >>= _)
    cases NlMpc.init d junk true <;> rfl
  | append_singleton cs c ih =>
    obtain ⟨ops, ih⟩ := ih
    have snoc : ∀ junk, NlMpc.pyRun d junk (cs ++ [c]) = (do
        let q ← NlMpc.pyRun d junk cs
        let r ← q.1.pyStep c.1 c.2.1 c.2.2
        return (r.1, q.2 ++ [r.2])) := by
      intro junk
      unfold NlMpc.pyRun
      rw [List.foldl_append]
      rfl
    rcases c117_nl_any_call_partial (d := d) c.1 c.2.1 c.2.2 with h | ⟨op, -, -, h⟩
    · refine ⟨ops, fun junk => ?_⟩
      rw [← ih junk, snoc]
      cases NlMpc.pyRun d junk cs with
      | error f => rfl
      | ok q =>
        obtain ⟨out, h⟩ := h q.1
        simp only [ok_bind, h]
        rfl
    · refine ⟨ops ++ [op], fun junk => ?_⟩
      have e := ih junk
      rw [snoc, NlMpc.run_snoc]
      revert e
      generalize NlMpc.pyRun d junk cs = a
      generalize NlMpc.run d junk true ops = b
      intro e
      cases a <;> cases b <;> simp only [Except.map, Except.ok.injEq, Except.error.injEq, reduceCtorEq] at e
      · rw [e]; rfl
      · rename_i q q'
        simp only [ok_bind, h, e]
        cases q'.1.step op <;> rfl

/-- C117 for the nonlinear controller, partial: what a call gives back in C++ is what Python sees of it. -/
theorem c117_nl_seen_partial (out : NlOut K) : SeenN out out.toPy := by
  cases out <;> simp [SeenN, SeenResult, NlOut.toPy, LResult.toPy]

/-- C117 for the nonlinear controller, partial: `getLastResult` gives back what it gives back in C++ and changes nothing. -/
theorem c117_nl_getters_partial (m : NlMpc d K) (w : NlSurroundings K) :
    (∃ p, m.pyStep "getLastResult" [] w = .ok (m, .result p) ∧ SeenResult m.o.result p) ∧
    m.pyStep "getOptimalSequence" [] w = .ok (m, .raises .typeError) := by
  refine ⟨⟨m.o.result.toPy, ?_, rfl, rfl, rfl, rfl⟩, ?_⟩
  · unfold NlMpc.pyStep dispatch
    rw [PyTable.n_getLastResult]
    rfl
  · unfold NlMpc.pyStep dispatch
    rw [PyTable.n_getOptimalSequence]
    rfl

/-- C117, partial: the tolerances cannot be left out in Python, as they can in C++. -/
theorem c117_defaults_partial (f : List (PyData K) → PyData K) (w : NlSurroundings K) (m : NlMpc d K) :
    m.pyStep "setStateSpaceFunction" [.func f] w = .ok (m, .raises .typeError) ∧
    m.pyStep "setIneqConFunction" [.func f] w = .ok (m, .raises .typeError) ∧
    m.pyStep "setEqConFunction" [.func f] w = .ok (m, .raises .typeError) := by
  refine ⟨?_, ?_, ?_⟩
  · unfold NlMpc.pyStep dispatch
    rw [PyTable.n_setStateSpaceFunction]
    rfl
  · unfold NlMpc.pyStep dispatch
    rw [PyTable.n_setIneqConFunction]
    rfl
  · unfold NlMpc.pyStep dispatch
    rw [PyTable.n_setEqConFunction]
    rfl

end

/-- two steps, one equality constraint -/
def dEq : Dims := { nx := 1, nu := 1, ndu := 0, ny := 1, ph := 2, ch := 2, ineq := 0, eq := 1 }

/-- the equality constraint `x_0 = 0` in Python -/
def startsAtZero : List (PyData ℚ) → PyData ℚ
  | .array2 _ X :: _ => .array1 true ⟨1, fun _ => X.get 0 0⟩
  | _ => .other

/-- C117 is violated for the nonlinear controller: setting an equality constraint from Python ends the program. -/
theorem c117_nonlinear_violated : ¬ C117NlClaim ℚ := by
  intro hc
  obtain ⟨m, hm, -, hdyn⟩ := NlMpc.init_agrees (K := ℚ) (d := dEq) (by decide) (by decide) (by decide) (fun _ => 0) true
  have hrun : NlMpc.run dEq (fun _ => (0 : ℚ)) true [] = .ok (m, []) := by
    show (NlMpc.init dEq (fun _ => (0 : ℚ)) true >>= _) = _
    rw [hm]
    rfl
  have hw : WrittenN (.setEqConFunction (fun x _ _ => x ⟨0, by decide⟩ ⟨0, by decide⟩) 0 true : NlCall dEq ℚ)
      [.func startsAtZero, num (.fin 0)] := by
    refine ⟨startsAtZero, fun x u a b ha hb => ?_, rfl⟩
    obtain ⟨_, M, rfl, -, -, h⟩ := ha
    exact ⟨true, ⟨1, fun _ => M.get 0 0⟩, rfl, rfl, fun i => h ⟨0, by decide⟩ ⟨0, by decide⟩⟩
  obtain ⟨r, hr⟩ := hc dEq _ [] m [] (.setEqConFunction (fun x _ _ => x ⟨0, by decide⟩ ⟨0, by decide⟩) 0 true) [.func startsAtZero, num (.fin 0)]
    ⟨true, [], .threw, fun _ => 0⟩ hrun hw rfl
  rw [c117_nonlinear_partial (w := ⟨true, [], .threw, fun _ => 0⟩) hw rfl] at hr
  simp only [NlMpc.step, hdyn] at hr
  rw [require_fail (by decide)] at hr
  cases hr

end Mpc.Props
