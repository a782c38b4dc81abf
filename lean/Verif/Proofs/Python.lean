import Verif.Spec.Python

/-
The overloads of each exported name.
-/
namespace Mpc.PyTable

theorem l_setOptimizerParameters : (lmpcTable.filter fun b => b.name = "setOptimizerParameters") = [⟨"setOptimizerParameters", [.params], .setOptimizerParameters⟩] := by simp [lmpcTable]
theorem l_setLoggerLevel : (lmpcTable.filter fun b => b.name = "setLoggerLevel") = [⟨"setLoggerLevel", [.level], .setLoggerLevel⟩] := by simp [lmpcTable]
theorem l_setLoggerPrefix : (lmpcTable.filter fun b => b.name = "setLoggerPrefix") = [⟨"setLoggerPrefix", [.str], .setLoggerPrefix⟩] := by simp [lmpcTable]
theorem l_optimize : (lmpcTable.filter fun b => b.name = "optimize") = [⟨"optimize", [.vecX, .vecX], .optimize⟩] := by simp [lmpcTable]
theorem l_getLastResult : (lmpcTable.filter fun b => b.name = "getLastResult") = [⟨"getLastResult", [], .getLastResult⟩] := by simp [lmpcTable]
theorem l_getOptimalSequence : (lmpcTable.filter fun b => b.name = "getOptimalSequence") = [⟨"getOptimalSequence", [], .getOptimalSequence⟩] := by simp [lmpcTable]
theorem l_getExecutionStats : (lmpcTable.filter fun b => b.name = "getExecutionStats") = [⟨"getExecutionStats", [], .getExecutionStats⟩] := by simp [lmpcTable]
theorem l_resetStats : (lmpcTable.filter fun b => b.name = "resetStats") = [⟨"resetStats", [], .resetStats⟩] := by simp [lmpcTable]
theorem l_setStateBounds : (lmpcTable.filter fun b => b.name = "setStateBounds") = [⟨"setStateBounds", [.matX, .matX], .setStateBounds⟩, ⟨"setStateBounds", [.vecX, .vecX, .slice], .setStateBoundsSlice⟩] := by simp [lmpcTable]
theorem l_setInputBounds : (lmpcTable.filter fun b => b.name = "setInputBounds") = [⟨"setInputBounds", [.matX, .matX], .setInputBounds⟩, ⟨"setInputBounds", [.vecX, .vecX, .slice], .setInputBoundsSlice⟩] := by simp [lmpcTable]
theorem l_setOutputBounds : (lmpcTable.filter fun b => b.name = "setOutputBounds") = [⟨"setOutputBounds", [.matX, .matX], .setOutputBounds⟩, ⟨"setOutputBounds", [.vecX, .vecX, .slice], .setOutputBoundsSlice⟩] := by simp [lmpcTable]
theorem l_setStateSpaceModel : (lmpcTable.filter fun b => b.name = "setStateSpaceModel") = [⟨"setStateSpaceModel", [.matX, .matX, .matX], .setStateSpaceModel⟩] := by simp [lmpcTable]
theorem l_setDisturbances : (lmpcTable.filter fun b => b.name = "setDisturbances") = [⟨"setDisturbances", [.matX, .matX], .setDisturbances⟩] := by simp [lmpcTable]
theorem l_getSolverWarmStartPrimal : (lmpcTable.filter fun b => b.name = "getSolverWarmStartPrimal") = [⟨"getSolverWarmStartPrimal", [], .getSolverWarmStartPrimal⟩] := by simp [lmpcTable]
theorem l_getSolverWarmStartDual : (lmpcTable.filter fun b => b.name = "getSolverWarmStartDual") = [⟨"getSolverWarmStartDual", [], .getSolverWarmStartDual⟩] := by simp [lmpcTable]
theorem l_setSolverWarmStart : (lmpcTable.filter fun b => b.name = "setSolverWarmStart") = [⟨"setSolverWarmStart", [.stdVec, .stdVec], .setSolverWarmStart⟩] := by simp [lmpcTable]
theorem l_setObjectiveWeights : (lmpcTable.filter fun b => b.name = "setObjectiveWeights") = [⟨"setObjectiveWeights", [.matX, .matX, .matX], .setObjectiveWeights⟩, ⟨"setObjectiveWeights", [.vecX, .vecX, .vecX, .slice], .setObjectiveWeightsSlice⟩] := by simp [lmpcTable]
theorem l_setScalarConstraint : (lmpcTable.filter fun b => b.name = "setScalarConstraint") = [⟨"setScalarConstraint", [.uint, .dbl, .dbl, .vecX, .vecX], .setScalarConstraintAt⟩, ⟨"setScalarConstraint", [.dbl, .dbl, .vecX, .vecX, .slice], .setScalarConstraintSlice⟩] := by simp [lmpcTable]
theorem l_setExogenousInputs : (lmpcTable.filter fun b => b.name = "setExogenousInputs") = [⟨"setExogenousInputs", [.matX], .setExogenousInputs⟩, ⟨"setExogenousInputs", [.vecX, .slice], .setExogenousInputsSlice⟩] := by simp [lmpcTable]
theorem l_setReferences : (lmpcTable.filter fun b => b.name = "setReferences") = [⟨"setReferences", [.vecX, .vecX, .vecX, .slice], .setReferencesSlice⟩, ⟨"setReferences", [.vecX, .vecX, .vecX, .slice], .setReferencesSlice⟩] := by simp [lmpcTable]
theorem n_setDiscretizationSamplingTime : (nlmpcTable.filter fun b => b.name = "setDiscretizationSamplingTime") = [⟨"setDiscretizationSamplingTime", [.dbl], .setDiscretizationSamplingTime⟩] := by simp [nlmpcTable]
theorem n_setInputScale : (nlmpcTable.filter fun b => b.name = "setInputScale") = [⟨"setInputScale", [.vecX], .setInputScale⟩] := by simp [nlmpcTable]
theorem n_setStateScale : (nlmpcTable.filter fun b => b.name = "setStateScale") = [⟨"setStateScale", [.vecX], .setStateScale⟩] := by simp [nlmpcTable]
theorem n_setOptimizerParameters : (nlmpcTable.filter fun b => b.name = "setOptimizerParameters") = [⟨"setOptimizerParameters", [.params], .setOptimizerParameters⟩] := by simp [nlmpcTable]
theorem n_setLoggerLevel : (nlmpcTable.filter fun b => b.name = "setLoggerLevel") = [⟨"setLoggerLevel", [.level], .setLoggerLevel⟩] := by simp [nlmpcTable]
theorem n_setLoggerPrefix : (nlmpcTable.filter fun b => b.name = "setLoggerPrefix") = [⟨"setLoggerPrefix", [.str], .setLoggerPrefix⟩] := by simp [nlmpcTable]
theorem n_optimize : (nlmpcTable.filter fun b => b.name = "optimize") = [⟨"optimize", [.vecX, .vecX], .optimize⟩] := by simp [nlmpcTable]
theorem n_getLastResult : (nlmpcTable.filter fun b => b.name = "getLastResult") = [⟨"getLastResult", [], .getLastResult⟩] := by simp [nlmpcTable]
theorem n_getOptimalSequence : (nlmpcTable.filter fun b => b.name = "getOptimalSequence") = [⟨"getOptimalSequence", [], .getOptimalSequence⟩] := by simp [nlmpcTable]
theorem n_getExecutionStats : (nlmpcTable.filter fun b => b.name = "getExecutionStats") = [⟨"getExecutionStats", [], .getExecutionStats⟩] := by simp [nlmpcTable]
theorem n_resetStats : (nlmpcTable.filter fun b => b.name = "resetStats") = [⟨"resetStats", [], .resetStats⟩] := by simp [nlmpcTable]
theorem n_setStateBounds : (nlmpcTable.filter fun b => b.name = "setStateBounds") = [⟨"setStateBounds", [.matX, .matX], .setStateBounds⟩, ⟨"setStateBounds", [.vecX, .vecX, .slice], .setStateBoundsSlice⟩] := by simp [nlmpcTable]
theorem n_setInputBounds : (nlmpcTable.filter fun b => b.name = "setInputBounds") = [⟨"setInputBounds", [.matX, .matX], .setInputBounds⟩, ⟨"setInputBounds", [.vecX, .vecX, .slice], .setInputBoundsSlice⟩] := by simp [nlmpcTable]
theorem n_setOutputBounds : (nlmpcTable.filter fun b => b.name = "setOutputBounds") = [⟨"setOutputBounds", [.matX, .matX], .setOutputBounds⟩, ⟨"setOutputBounds", [.vecX, .vecX, .slice], .setOutputBoundsSlice⟩] := by simp [nlmpcTable]
theorem n_setObjectiveFunction : (nlmpcTable.filter fun b => b.name = "setObjectiveFunction") = [⟨"setObjectiveFunction", [.func], .setObjectiveFunction⟩] := by simp [nlmpcTable]
theorem n_setStateSpaceFunction : (nlmpcTable.filter fun b => b.name = "setStateSpaceFunction") = [⟨"setStateSpaceFunction", [.func, .dbl], .setStateSpaceFunction⟩] := by simp [nlmpcTable]
theorem n_setOutputFunction : (nlmpcTable.filter fun b => b.name = "setOutputFunction") = [⟨"setOutputFunction", [.func], .setOutputFunction⟩] := by simp [nlmpcTable]
theorem n_setIneqConFunction : (nlmpcTable.filter fun b => b.name = "setIneqConFunction") = [⟨"setIneqConFunction", [.func, .dbl], .setIneqConFunction⟩] := by simp [nlmpcTable]
theorem n_setEqConFunction : (nlmpcTable.filter fun b => b.name = "setEqConFunction") = [⟨"setEqConFunction", [.func, .dbl], .setEqConFunction⟩] := by simp [nlmpcTable]

end Mpc.PyTable

namespace Mpc
open Exec Spec
set_option linter.unusedSectionVars false

section
variable {K : Type} [Field K] [DecidableEq K]

/-- the C++ call a Python call makes, if any -/
def cppCall (name : String) (args : List (PyVal K)) (oc : OsqpOutcome K) : Option (LOp K) :=
  match dispatch lmpcTable name args with
  | .error _ => none
  | .ok (f, cs) => f.op oc cs

/-- a Python call which makes a C++ call -/
theorem pyStep_some {m : LMpc K} {name : String} {args : List (PyVal K)} {oc : OsqpOutcome K} {op : LOp K}
    (h : cppCall name args oc = some op) : m.pyStep name args oc = (m.step op).map fun r => (r.1, r.2.toPy) := by
  unfold cppCall at h
  unfold LMpc.pyStep
  split at h
  · cases h
  · rename_i f cs h1
    rw [h1]
    simp only
    rw [h]
    simp only
    generalize m.step op = e
    cases e <;> rfl

/-- a Python call which makes none -/
theorem pyStep_none {name : String} {args : List (PyVal K)} {oc : OsqpOutcome K}
    (h : cppCall name args oc = none) (m : LMpc K) : ∃ out, m.pyStep name args oc = .ok (m, out) := by
  unfold cppCall at h
  unfold LMpc.pyStep
  split at h
  · rename_i e h1
    rw [h1]
    exact ⟨_, rfl⟩
  · rename_i f cs h1
    rw [h1]
    simp only
    rw [h]
    exact ⟨_, rfl⟩

theorem cpp_setStateSpaceModel (A B C : Mat K) (oc : OsqpOutcome K) :
    cppCall "setStateSpaceModel" [nums2 A, nums2 B, nums2 C] oc = some (.setStateSpaceModel A B C) := by
  unfold cppCall dispatch
  rw [PyTable.l_setStateSpaceModel]
  rfl

theorem cpp_setDisturbances (B D : Mat K) (oc : OsqpOutcome K) :
    cppCall "setDisturbances" [nums2 B, nums2 D] oc = some (.setDisturbances B D) := by
  unfold cppCall dispatch
  rw [PyTable.l_setDisturbances]
  rfl

theorem cpp_setObjectiveWeights (a b c : Mat K) (oc : OsqpOutcome K) :
    cppCall "setObjectiveWeights" [nums2 a, nums2 b, nums2 c] oc = some (.setObjectiveWeights a b c) := by
  unfold cppCall dispatch
  rw [PyTable.l_setObjectiveWeights]
  rfl

theorem cpp_setObjectiveWeightsSlice (a b c : Vec K) (s : HorizonSlice) (oc : OsqpOutcome K) :
    cppCall "setObjectiveWeights" [nums1 a, nums1 b, nums1 c, slc s] oc = some (.setObjectiveWeightsSlice a b c s) := by
  unfold cppCall dispatch
  rw [PyTable.l_setObjectiveWeights]
  rfl

theorem cpp_setStateBounds (a b : Mat (Ext K)) (oc : OsqpOutcome K) :
    cppCall "setStateBounds" [np2 a, np2 b] oc = some (.setStateBounds a b) := by
  unfold cppCall dispatch
  rw [PyTable.l_setStateBounds]
  rfl

theorem cpp_setStateBoundsSlice (a b : Vec (Ext K)) (s : HorizonSlice) (oc : OsqpOutcome K) :
    cppCall "setStateBounds" [np1 a, np1 b, slc s] oc = some (.setStateBoundsSlice a b s) := by
  unfold cppCall dispatch
  rw [PyTable.l_setStateBounds]
  rfl

theorem cpp_setInputBounds (a b : Mat (Ext K)) (oc : OsqpOutcome K) :
    cppCall "setInputBounds" [np2 a, np2 b] oc = some (.setInputBounds a b) := by
  unfold cppCall dispatch
  rw [PyTable.l_setInputBounds]
  rfl

theorem cpp_setInputBoundsSlice (a b : Vec (Ext K)) (s : HorizonSlice) (oc : OsqpOutcome K) :
    cppCall "setInputBounds" [np1 a, np1 b, slc s] oc = some (.setInputBoundsSlice a b s) := by
  unfold cppCall dispatch
  rw [PyTable.l_setInputBounds]
  rfl

theorem cpp_setOutputBounds (a b : Mat (Ext K)) (oc : OsqpOutcome K) :
    cppCall "setOutputBounds" [np2 a, np2 b] oc = some (.setOutputBounds a b) := by
  unfold cppCall dispatch
  rw [PyTable.l_setOutputBounds]
  rfl

theorem cpp_setOutputBoundsSlice (a b : Vec (Ext K)) (s : HorizonSlice) (oc : OsqpOutcome K) :
    cppCall "setOutputBounds" [np1 a, np1 b, slc s] oc = some (.setOutputBoundsSlice a b s) := by
  unfold cppCall dispatch
  rw [PyTable.l_setOutputBounds]
  rfl

theorem cpp_setScalarConstraintSlice (a b : Ext K) (X U : Vec K) (s : HorizonSlice) (oc : OsqpOutcome K) :
    cppCall "setScalarConstraint" [num a, num b, nums1 X, nums1 U, slc s] oc = some (.setScalarConstraintSlice a b X U s) := by
  unfold cppCall dispatch
  rw [PyTable.l_setScalarConstraint]
  rfl

theorem cpp_setExogenousInputs (M : Mat K) (oc : OsqpOutcome K) :
    cppCall "setExogenousInputs" [nums2 M] oc = some (.setExogenousInputs M) := by
  unfold cppCall dispatch
  rw [PyTable.l_setExogenousInputs]
  rfl

theorem cpp_setExogenousInputsSlice (v : Vec K) (s : HorizonSlice) (oc : OsqpOutcome K) :
    cppCall "setExogenousInputs" [nums1 v, slc s] oc = some (.setExogenousInputsSlice v s) := by
  unfold cppCall dispatch
  rw [PyTable.l_setExogenousInputs]
  rfl

theorem cpp_setReferencesSlice (y u du : Vec K) (s : HorizonSlice) (oc : OsqpOutcome K) :
    cppCall "setReferences" [nums1 y, nums1 u, nums1 du, slc s] oc = some (.setReferencesSlice y u du s) := by
  unfold cppCall dispatch
  rw [PyTable.l_setReferences]
  rfl

theorem cpp_setSolverWarmStart (x y : Vec K) (oc : OsqpOutcome K) :
    cppCall "setSolverWarmStart" [nums1 x, nums1 y] oc = some (.setSolverWarmStart x y) := by
  unfold cppCall dispatch
  rw [PyTable.l_setSolverWarmStart]
  rfl

theorem cpp_optimize (x u : Vec K) (oc : OsqpOutcome K) :
    cppCall "optimize" [nums1 x, nums1 u] oc = some (.optimize x u oc) := by
  unfold cppCall dispatch
  rw [PyTable.l_optimize]
  rfl

theorem cast_index {i : Nat} (hi : i < 2 ^ 32) (c : Bool) : PyData.cast c .uint (.int i : PyData K) = some (.uint i) := by
  rw [PyData.cast.eq_def]
  simp only
  rw [if_pos ⟨by omega, by omega⟩, Int.toNat_natCast]

theorem PyVal.cast_data (c : Bool) (t : CType) (v : PyData K) : (PyVal.data v).cast c t = v.cast c t := by
  cases t <;> rw [PyVal.cast.eq_def]

theorem castAll_cons {c : Bool} {t : CType} {ts : List CType} {a : PyVal K} {as : List (PyVal K)} {v : CVal K} {vs : List (CVal K)}
    (h1 : a.cast c t = some v) (h2 : castAll c ts as = some vs) : castAll c (t :: ts) (a :: as) = some (v :: vs) := by
  unfold castAll
  rw [h1, h2]
  rfl

theorem tryOverloads_first {T : Type} {c : Bool} {args : List (PyVal K)} {b : Binding T} {bs : List (Binding T)} {vs : List (CVal K)}
    (h : castAll c b.sig args = some vs) : tryOverloads c args (b :: bs) = some (b.target, vs) := by
  unfold tryOverloads
  rw [h]

theorem dispatch_first {T : Type} {table : List (Binding T)} {name : String} {args : List (PyVal K)} {b : Binding T}
    {bs : List (Binding T)} {r : T × List (CVal K)} (h : (table.filter fun b => b.name = name) = b :: bs)
    (h2 : tryOverloads false args (b :: bs) = some r) : dispatch table name args = .ok r := by
  unfold dispatch
  rw [h]
  simp only
  rw [h2]

theorem cppCall_of {name : String} {args : List (PyVal K)} {oc : OsqpOutcome K} {f : LFn} {cs : List (CVal K)} {o : Option (LOp K)}
    (h : dispatch lmpcTable name args = .ok (f, cs)) (h2 : f.op oc cs = o) : cppCall name args oc = o := by
  unfold cppCall
  rw [h]
  exact h2

theorem cpp_setScalarConstraintAt {i : Nat} (hi : i < 2 ^ 32) (a b : Ext K) (X U : Vec K) (oc : OsqpOutcome K) :
    cppCall "setScalarConstraint" [.data (.int i), num a, num b, nums1 X, nums1 U] oc = some (.setScalarConstraintAt i a b X U) := by
  have e : castAll false [.uint, .dbl, .dbl, .vecX, .vecX] [.data (.int i), num a, num b, nums1 X, nums1 U] =
      some (.uint i :: [.dbl a, .dbl b, .vec ⟨X.size, fun i => .fin (X.get i)⟩, .vec ⟨U.size, fun i => .fin (U.get i)⟩]) :=
    castAll_cons (ts := [.dbl, .dbl, .vecX, .vecX]) (as := [num a, num b, nums1 X, nums1 U])
      ((PyVal.cast_data false .uint (.int i : PyData K)).trans (cast_index hi false)) rfl
  exact cppCall_of (dispatch_first PyTable.l_setScalarConstraint
    (tryOverloads_first (b := ⟨"setScalarConstraint", [.uint, .dbl, .dbl, .vecX, .vecX], LFn.setScalarConstraintAt⟩) e)) rfl

theorem cpp_setReferences (Y U D : Mat K) :
    dispatch lmpcTable "setReferences" [nums2 Y, nums2 U, nums2 D] = .error .typeError := by
  unfold dispatch
  rw [PyTable.l_setReferences]
  simp only [tryOverloads, castAll, nums2, np2, PyVal.cast, PyData.cast, bind, Option.bind, pure]
  split_ifs <;> rfl

omit [DecidableEq K] in
theorem cast_stands {c : Bool} {t : CType} {a : PyVal K} {v : CVal K} (h : a.cast c t = some v) : Stands v a := by
  unfold PyVal.cast at h
  split at h
  · cases h; rfl
  · unfold PyData.cast at h
    split at h
    all_goals first | (cases h; done) | skip
    all_goals first
      | (cases h; first | rfl | trivial)
      | (split_ifs at h with h1
         cases h
         first
         | rfl
         | (simp only [Bool.and_eq_true, decide_eq_true_eq] at h1; exact ⟨h1.2, rfl⟩)
         | exact ⟨Int.toNat_of_nonneg h1.1, by omega⟩)
  · cases h

omit [DecidableEq K] in
theorem castAll_stands {c : Bool} : ∀ {ts : List CType} {args : List (PyVal K)} {cs : List (CVal K)}, castAll c ts args = some cs →
    List.Forall₂ Stands cs args
  | [], [], cs, h => by cases h; exact .nil
  | t :: ts, a :: as, cs, h => by
    unfold castAll at h
    cases h1 : a.cast c t with
    | none => rw [h1] at h; cases h
    | some v =>
      cases h2 : castAll c ts as with
      | none => rw [h1, h2] at h; cases h
      | some vs =>
        rw [h1, h2] at h
        cases h
        exact .cons (cast_stands h1) (castAll_stands h2)
  | [], _ :: _, cs, h => by cases h
  | _ :: _, [], cs, h => by cases h

omit [DecidableEq K] in
theorem sameMat (M : Mat (Ext K)) : SameMat M.finite M := ⟨rfl, rfl, fun i j x h => by show (M.get i j).finite = x; rw [h]; rfl⟩

omit [DecidableEq K] in
theorem sameVec (v : Vec (Ext K)) : SameVec v.finite v := ⟨rfl, fun i x h => by show (v.get i).finite = x; rw [h]; rfl⟩

omit [DecidableEq K] in
/-- the chosen overload is registered under the name -/
theorem dispatch_mem {T : Type} {table : List (Binding T)} {name : String} {args : List (PyVal K)} {f : T} {cs : List (CVal K)}
    (h : dispatch table name args = .ok (f, cs)) : ∃ b ∈ table, b.name = name ∧ b.target = f ∧ ∃ c, castAll c b.sig args = some cs := by
  have key : ∀ c (l : List (Binding T)) r, tryOverloads c args l = some r →
      ∃ b ∈ l, b.target = r.1 ∧ castAll c b.sig args = some r.2 := by
    intro c l
    induction l with
    | nil => intro r h; cases h
    | cons b bs ih =>
      intro r h
      unfold tryOverloads at h
      split at h
      · rename_i cs' hc
        cases h
        exact ⟨b, by simp, rfl, hc⟩
      · obtain ⟨b', h1, h2⟩ := ih r h
        exact ⟨b', by simp [h1], h2⟩
  have out : ∀ l, (table.filter fun b => b.name = name) = l → ∀ c, (∃ b ∈ l, b.target = f ∧ castAll c b.sig args = some cs) →
      ∃ b ∈ table, b.name = name ∧ b.target = f ∧ ∃ c, castAll c b.sig args = some cs := by
    rintro l rfl c ⟨b, h1, h2, h3⟩
    have := List.mem_filter.1 h1
    exact ⟨b, this.1, by simpa using this.2, h2, c, h3⟩
  unfold dispatch at h
  split at h
  · cases h
  · rename_i b bs hf
    split at h
    · rename_i r hr
      cases h
      exact out _ hf _ (key _ _ _ hr)
    · split at h
      · rename_i r hr
        cases h
        exact out _ hf _ (key _ _ _ hr)
      · cases h

/-- the C++ call made by a Python call is one of the method of the same name -/
theorem cppCall_method {name : String} {args : List (PyVal K)} {oc : OsqpOutcome K} {op : LOp K}
    (h : cppCall name args oc = some op) : methodOf op = name ∧ GivenL op args := by
  unfold cppCall at h
  split at h
  · cases h
  · rename_i f cs h1
    obtain ⟨b, hb, rfl, rfl, c, hc⟩ := dispatch_mem h1
    have key : ∀ b ∈ lmpcTable, ∀ op : LOp K, b.target.op oc cs = some op → methodOf op = b.name := by
      unfold lmpcTable
      simp only [List.forall_mem_cons]
      refine ⟨?_, ?_, ?_, ?_, ?_, ?_, ?_, ?_, ?_, ?_, ?_, ?_, ?_, ?_, ?_, ?_, ?_, ?_, ?_, ?_, ?_, ?_, ?_, ?_, ?_, ?_, ?_, ?_⟩ <;>
        first
        | (intro _ h'; cases h')
        | (intro op h'
           unfold LFn.op at h'
           split at h' <;> first | (cases h'; done) | contradiction | (cases h'; rfl))
    refine ⟨key b hb op h, cs, castAll_stands hc, ?_⟩
    unfold LFn.op at h
    split at h <;> first
      | (cases h; done)
      | (cases h; rfl)
      | (cases h; exact ⟨_, rfl, sameMat _⟩)
      | (cases h; exact ⟨_, rfl, sameVec _⟩)
      | (cases h; exact ⟨_, _, rfl, sameMat _, sameMat _⟩)
      | (cases h; exact ⟨_, _, rfl, sameVec _, sameVec _⟩)
      | (cases h; exact ⟨_, _, _, rfl, sameMat _, sameMat _, sameMat _⟩)
      | (cases h; exact ⟨_, _, _, rfl, sameVec _, sameVec _, sameVec _⟩)

end

section
variable {K : Type} [Field K]
variable {d : Dims}

/-- the C++ call of the nonlinear controller a Python call makes, if any -/
def nlCall (d : Dims) (name : String) (args : List (PyVal K)) (w : NlSurroundings K) : Option (NlCall d K) :=
  match dispatch nlmpcTable name args with
  | .error _ => none
  | .ok (f, cs) => f.op d w cs

theorem nlCall_of {name : String} {args : List (PyVal K)} {w : NlSurroundings K} {f : NFn} {cs : List (CVal K)} {o : Option (NlCall d K)}
    (h : dispatch nlmpcTable name args = .ok (f, cs)) (h2 : f.op d w cs = o) : nlCall d name args w = o := by
  unfold nlCall
  rw [h]
  exact h2

/-- a Python call which makes a C++ call -/
theorem nlStep_some [LinearOrder K] {m : NlMpc d K} {name : String} {args : List (PyVal K)} {w : NlSurroundings K} {op : NlCall d K}
    (h : nlCall d name args w = some op) : m.pyStep name args w = (m.step op).map fun r => (r.1, r.2.toPy) := by
  unfold nlCall at h
  unfold NlMpc.pyStep
  split at h
  · cases h
  · rename_i f cs h1
    rw [h1]
    simp only
    rw [h]
    simp only
    generalize m.step op = e
    cases e <;> rfl

/-- a Python call which makes none -/
theorem nlStep_none [LinearOrder K] {name : String} {args : List (PyVal K)} {w : NlSurroundings K}
    (h : nlCall d name args w = none) (m : NlMpc d K) : ∃ out, m.pyStep name args w = .ok (m, out) := by
  unfold nlCall at h
  unfold NlMpc.pyStep
  split at h
  · rename_i e h1
    rw [h1]
    exact ⟨_, rfl⟩
  · rename_i f cs h1
    rw [h1]
    simp only
    rw [h]
    exact ⟨_, rfl⟩

theorem nl_setDiscretizationSamplingTime (t : K) (w : NlSurroundings K) :
    nlCall d "setDiscretizationSamplingTime" [num (.fin t)] w = some (.setDiscretizationSamplingTime t) := by
  unfold nlCall dispatch
  rw [PyTable.n_setDiscretizationSamplingTime]
  rfl

theorem nl_setInputScale (v : Vec K) (w : NlSurroundings K) :
    nlCall d "setInputScale" [nums1 v] w = some (.setInputScale v) := by
  unfold nlCall dispatch
  rw [PyTable.n_setInputScale]
  rfl

theorem nl_setStateScale (v : Vec K) (w : NlSurroundings K) :
    nlCall d "setStateScale" [nums1 v] w = some (.setStateScale v) := by
  unfold nlCall dispatch
  rw [PyTable.n_setStateScale]
  rfl

theorem nl_setStateBounds (a b : Mat (Ext K)) (w : NlSurroundings K) :
    nlCall d "setStateBounds" [np2 a, np2 b] w = some (.setStateBounds a b) := by
  unfold nlCall dispatch
  rw [PyTable.n_setStateBounds]
  rfl

theorem nl_setInputBounds (a b : Mat (Ext K)) (w : NlSurroundings K) :
    nlCall d "setInputBounds" [np2 a, np2 b] w = some (.setInputBounds a b) := by
  unfold nlCall dispatch
  rw [PyTable.n_setInputBounds]
  rfl

theorem nl_setOutputBounds (a b : Mat (Ext K)) (w : NlSurroundings K) :
    nlCall d "setOutputBounds" [np2 a, np2 b] w = some (.setOutputBounds a b) := by
  unfold nlCall dispatch
  rw [PyTable.n_setOutputBounds]
  rfl

theorem nl_setStateBoundsSlice (a b : Vec (Ext K)) (s : HorizonSlice) (w : NlSurroundings K) :
    nlCall d "setStateBounds" [np1 a, np1 b, slc s] w = some (.setStateBoundsSlice a b s) := by
  unfold nlCall dispatch
  rw [PyTable.n_setStateBounds]
  rfl

theorem nl_setInputBoundsSlice (a b : Vec (Ext K)) (s : HorizonSlice) (w : NlSurroundings K) :
    nlCall d "setInputBounds" [np1 a, np1 b, slc s] w = some (.setInputBoundsSlice a b s) := by
  unfold nlCall dispatch
  rw [PyTable.n_setInputBounds]
  rfl

theorem nl_setOutputBoundsSlice (a b : Vec (Ext K)) (s : HorizonSlice) (w : NlSurroundings K) :
    nlCall d "setOutputBounds" [np1 a, np1 b, slc s] w = some (.setOutputBoundsSlice a b s) := by
  unfold nlCall dispatch
  rw [PyTable.n_setOutputBounds]
  rfl

theorem nl_optimize (x u : Vec K) (w : NlSurroundings K) :
    nlCall d "optimize" [nums1 x, nums1 u] w = some (.optimize x u w.callbacks w.outcome w.junk) := by
  unfold nlCall dispatch
  rw [PyTable.n_optimize]
  rfl

theorem nl_setObjectiveFunction (f : List (PyData K) → PyData K) (w : NlSurroundings K) :
    nlCall d "setObjectiveFunction" [.func f] w = some (.setObjectiveFunction (pyObjFn d f) w.accepted) := by
  unfold nlCall dispatch
  rw [PyTable.n_setObjectiveFunction]
  rfl

theorem nl_setStateSpaceFunction (f : List (PyData K) → PyData K) (tol : K) (w : NlSurroundings K) :
    nlCall d "setStateSpaceFunction" [.func f, num (.fin tol)] w = some (.setStateSpaceFunction (pyStateFn d f) tol w.accepted) := by
  unfold nlCall dispatch
  rw [PyTable.n_setStateSpaceFunction]
  rfl

theorem nl_setOutputFunction (f : List (PyData K) → PyData K) (w : NlSurroundings K) :
    nlCall d "setOutputFunction" [.func f] w = some (.setOutputFunction (pyOutFn d f)) := by
  unfold nlCall dispatch
  rw [PyTable.n_setOutputFunction]
  rfl

theorem nl_setIneqConFunction (f : List (PyData K) → PyData K) (tol : K) (w : NlSurroundings K) :
    nlCall d "setIneqConFunction" [.func f, num (.fin tol)] w = some (.setIneqConFunction (pyIneqFn d f) tol w.accepted) := by
  unfold nlCall dispatch
  rw [PyTable.n_setIneqConFunction]
  rfl

theorem nl_setEqConFunction (f : List (PyData K) → PyData K) (tol : K) (w : NlSurroundings K) :
    nlCall d "setEqConFunction" [.func f, num (.fin tol)] w = some (.setEqConFunction (pyEqFn d f) tol w.accepted) := by
  unfold nlCall dispatch
  rw [PyTable.n_setEqConFunction]
  rfl

theorem toVec_array1 (b : Bool) (v : Vec (Ext K)) : (PyData.array1 b v).toVec = v.finite := by
  cases b <;> rfl

theorem pyVec_is {n : Nat} (x : FVec n K) : IsArray1 x (pyVec x) :=
  ⟨true, _, rfl, rfl, fun i => by simp⟩

theorem pyMat_is {r c : Nat} (x : Traj r c K) : IsArray2 x (pyMat x) :=
  ⟨true, _, rfl, rfl, rfl, fun i j => by simp⟩

theorem pyStateFn_eq {f : List (PyData K) → PyData K} {F : FVec d.nx K → FVec d.nu K → Nat → FVec d.nx K} (h : ComputesState d f F) :
    pyStateFn d f = F := by
  funext x u k i
  obtain ⟨b, v, h1, -, h3⟩ := h x u k _ _ (pyVec_is x) (pyVec_is u)
  show (f [pyVec x, pyVec u, .int k]).toVec.get i = _
  rw [h1, toVec_array1]
  show (v.get i).finite = _
  rw [h3]
  rfl

theorem pyOutFn_eq {f : List (PyData K) → PyData K} {F : FVec d.nx K → FVec d.nu K → Nat → FVec d.ny K} (h : ComputesOut d f F) :
    pyOutFn d f = fun _ => F := by
  funext o x u k i
  obtain ⟨b, v, h1, -, h3⟩ := h x u k _ _ (pyVec_is x) (pyVec_is u)
  show (f [pyVec x, pyVec u, .int k]).toVec.get i = _
  rw [h1, toVec_array1]
  show (v.get i).finite = _
  rw [h3]
  rfl

theorem pyIneqFn_eq {f : List (PyData K) → PyData K}
    {F : Traj (d.ph + 1) d.nx K → Traj (d.ph + 1) d.ny K → Traj (d.ph + 1) d.nu K → K → FVec d.ineq K} (h : ComputesIneq d f F) :
    pyIneqFn d f = F := by
  funext x y u e i
  obtain ⟨b, v, h1, -, h3⟩ := h x y u e _ _ _ (pyMat_is x) (pyMat_is y) (pyMat_is u)
  show (f [pyMat x, pyMat y, pyMat u, .float (.fin e)]).toVec.get i = _
  rw [h1, toVec_array1]
  show (v.get i).finite = _
  rw [h3]
  rfl

theorem pyEqFn_eq {f : List (PyData K) → PyData K}
    {F : Traj (d.ph + 1) d.nx K → Traj (d.ph + 1) d.nu K → FVec d.eq K} (h : ComputesEq d f F) : pyEqFn d f = F := by
  funext x u i
  obtain ⟨b, v, h1, -, h3⟩ := h x u _ _ (pyMat_is x) (pyMat_is u)
  show (f [pyMat x, pyMat u]).toVec.get i = _
  rw [h1, toVec_array1]
  show (v.get i).finite = _
  rw [h3]
  rfl

theorem pyObjFn_eq {f : List (PyData K) → PyData K} {F : ObjFn d K} (h : ComputesObj d f F) : pyObjFn d f = F := by
  funext x y u e
  show (f [pyMat x, pyMat y, pyMat u, .float (.fin e)]).toDbl = _
  rcases h x y u e _ _ _ (pyMat_is x) (pyMat_is y) (pyMat_is u) with h1 | ⟨n, h1, h2⟩
  · rw [h1]; rfl
  · rw [h1, h2]; rfl

/-- the C++ call made by a Python call is one of the method of the same name -/
theorem nlCall_method {name : String} {args : List (PyVal K)} {w : NlSurroundings K} {op : NlCall d K}
    (h : nlCall d name args w = some op) : nlMethodOf op = name ∧ GivenN op args := by
  unfold nlCall at h
  split at h
  · cases h
  · rename_i f cs h1
    obtain ⟨b, hb, rfl, rfl, c, hc⟩ := dispatch_mem h1
    have key : ∀ b ∈ nlmpcTable, ∀ op : NlCall d K, b.target.op d w cs = some op → nlMethodOf op = b.name := by
      unfold nlmpcTable
      simp only [List.forall_mem_cons]
      refine ⟨?_, ?_, ?_, ?_, ?_, ?_, ?_, ?_, ?_, ?_, ?_, ?_, ?_, ?_, ?_, ?_, ?_, ?_, ?_, ?_, ?_, ?_, ?_⟩ <;>
        first
        | (intro _ h'; cases h')
        | (intro op h'
           unfold NFn.op at h'
           split at h' <;> first | (cases h'; done) | contradiction | (cases h'; rfl))
    have fin : ∀ (t : Ext K) x, t = .fin x → t.finite = x := by rintro _ x rfl; rfl
    refine ⟨key b hb op h, cs, castAll_stands hc, ?_⟩
    unfold NFn.op at h
    split at h <;> first
      | (cases h; done)
      | (cases h; rfl)
      | (cases h; exact ⟨_, rfl, sameVec _⟩)
      | (cases h; exact ⟨_, rfl, fin _⟩)
      | (cases h; exact ⟨_, _, rfl, sameVec _, sameVec _⟩)
      | (cases h; exact ⟨_, rfl, fun _ => pyObjFn_eq⟩)
      | (cases h; exact ⟨_, rfl, fun _ => pyOutFn_eq⟩)
      | (cases h; exact ⟨_, _, rfl, fun _ => pyStateFn_eq, fin _⟩)
      | (cases h; exact ⟨_, _, rfl, fun _ => pyIneqFn_eq, fin _⟩)
      | (cases h; exact ⟨_, _, rfl, fun _ => pyEqFn_eq, fin _⟩)

end
end Mpc
