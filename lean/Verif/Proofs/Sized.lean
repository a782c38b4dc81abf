import Verif.Spec.Sized
import Verif.Proofs.NlHistory

/-
Helper lemmas about user functions whose results may have any length.
-/
namespace Mpc
open Exec
set_option linter.unusedSectionVars false

namespace Sized
variable {d : Dims} {K : Type} [Field K] [LinearOrder K]

/-! ### with the calls of the typed model the evaluations are those of the typed model -/

theorem ineqJacobian_typed (f : IConFn d K) (M : NlModel d K) (junk : Nat → K) (x0 u0 : Mat K) (e0 : K) :
    Constraints.computeIneqJacobian f M junk x0 u0 e0 =
      ineqJacobian d (Constraints.callIneq f M fun i => junk i) x0 u0 e0 := rfl

theorem dynamics_typed (mp : Mapping K) (M : NlModel d K) (junk : Nat → K) (X U : Mat K) (ceq : Vec K) (Jceq : Mat K)
    (g : Bool) :
    Constraints.getStateEqConstraints mp M junk X U ceq Jceq g =
      dynamics d mp M.continuous M.Ts junk (M.callState fun i => junk i) X U ceq Jceq g := rfl

theorem objective_typed (o : Objective d K) (mp : Mapping K) (M : NlModel d K) (x : Vec K) (g : Bool) :
    o.evaluate mp M x g = objective (Objective.callObj o.fuser M) o mp x g := rfl

/-! ### results of the right length -/

theorem ofList_ofFn {n : Nat} (F : FVec n K) : Vec.ofList (List.ofFn F) = Vec.ofF F := by
  unfold Vec.ofList Vec.ofF
  rw [Vec.mk.injEq]
  refine ⟨List.length_ofFn, ?_⟩
  funext i
  by_cases h : i < n
  · simp [h]
  · simp [h]

theorem entries_ofFn {n : Nat} (F : FVec n K) : (entries (List.ofFn F) : FVec n K) = F := by
  funext i
  simp [entries]

/-- the functions kept by the typed controller are those whose lists `F` holds -/
structure Shadow (F : SizedFns d K) (s : NlState d K) : Prop where
  state : match F.state with
    | none => s.M.vectorField = none
    | some f => ∃ G : FVec d.nx K → FVec d.nu K → Nat → FVec d.nx K, (∀ x u k, f x u k = List.ofFn (G x u k)) ∧
        s.M.vectorField = some fun _ => G
  output : match F.output with
    | none => s.M.outUser = none
    | some f => ∃ G : FVec d.nx K → FVec d.nu K → Nat → FVec d.ny K, (∀ x u k, f x u k = List.ofFn (G x u k)) ∧
        s.M.outUser = some fun _ => G
  ineq : match F.ineq with
    | none => s.con.ieqUser = none
    | some f => ∃ G : Traj (d.ph + 1) d.nx K → Traj (d.ph + 1) d.ny K → Traj (d.ph + 1) d.nu K → K → FVec d.ineq K,
        (∀ x y u e, f x y u e = List.ofFn (G x y u e)) ∧ s.con.ieqUser = some fun _ => G
  eq : s.con.eqUser = none

theorem Shadow.of_keeps {F : SizedFns d K} {s s' : NlState d K} (h : Shadow F s) (h1 : s'.M.vectorField = s.M.vectorField)
    (h2 : s'.M.outUser = s.M.outUser) (h3 : s'.con.ieqUser = s.con.ieqUser) (h4 : s'.con.eqUser = s.con.eqUser) :
    Shadow F s' := by
  refine ⟨?_, ?_, ?_, h4.trans h.eq⟩
  · rw [h1]; exact h.state
  · rw [h2]; exact h.output
  · rw [h3]; exact h.ineq

variable {F : SizedFns d K} {s : NlState d K}

theorem getOutput_eq (h : Shadow F s) (X U : Mat K) : getOutput F X U = s.M.getOutput X U := by
  have h := h.output
  unfold getOutput NlModel.getOutput
  cases hF : F.output with
  | none => rw [hF] at h; rw [h]
  | some f =>
    rw [hF] at h
    obtain ⟨G, hG, h⟩ := h
    rw [h]
    dsimp only
    congr 1
    funext i Y
    simp only [hG, ofList_ofFn]

theorem callState_eq (h : Shadow F s) (buf : FVec d.nx K) : callState F = s.M.callState buf := by
  have h := h.state
  funext x u p
  unfold callState NlModel.callState
  cases hF : F.state with
  | none => rw [hF] at h; rw [h]
  | some f =>
    rw [hF] at h
    obtain ⟨G, hG, h⟩ := h
    rw [h]
    dsimp only
    simp only [hG, ofList_ofFn]

theorem callObj_eq (h : Shadow F s) (f : Option (ObjFn d K)) : callObj F f = Objective.callObj f s.M := by
  funext X U e
  unfold callObj Objective.callObj
  rw [getOutput_eq h]
  rfl

theorem callIneq_eq (h : Shadow F s)
    {f : Traj (d.ph + 1) d.nx K → Traj (d.ph + 1) d.ny K → Traj (d.ph + 1) d.nu K → K → List K}
    {G : Traj (d.ph + 1) d.nx K → Traj (d.ph + 1) d.ny K → Traj (d.ph + 1) d.nu K → K → FVec d.ineq K}
    (hG : ∀ x y u e, f x y u e = List.ofFn (G x y u e)) (buf : FVec d.ineq K) :
    callIneq F f = Constraints.callIneq (fun _ => G) s.M buf := by
  funext X U e
  unfold callIneq Constraints.callIneq
  rw [getOutput_eq h]
  simp only [hG, ofList_ofFn]

theorem evalObj_eq (h : Shadow F s) (z : Vec K) (g : Bool) : evalObj F s z g = s.evalObj z g := by
  unfold evalObj NlState.evalObj
  rw [objective_typed, callObj_eq h]

theorem evalDyn_eq (h : Shadow F s) (z : Vec K) (g : Bool) (junk : Nat → K) :
    evalDyn F s z g junk = s.evalDyn z g junk := by
  unfold evalDyn NlState.evalDyn Constraints.evaluateStateModelEq
  rw [callState_eq h fun i => junk i]
  simp only [dynamics_typed, bind_assoc]
  rfl

theorem evalIneq_eq (h : Shadow F s) (z : Vec K) (junk : Nat → K) : evalIneq F s z junk = s.evalIneq z junk := by
  unfold evalIneq NlState.evalIneq Constraints.evaluateIneq
  have hi := h.ineq
  cases hF : F.ineq with
  | none =>
    rw [hF] at hi
    dsimp only at hi ⊢
    rw [hi]
    simp only [bind_assoc, pure_bind]
  | some f =>
    rw [hF] at hi
    obtain ⟨G, hG, hi⟩ := hi
    dsimp only
    rw [hi]
    simp only [bind_assoc, pure_bind, ineqJacobian_typed]
    congr 1
    funext w
    rw [callIneq_eq h hG (s.con.cineqUser.viewF d.ineq), ← callIneq_eq h hG (fun i => junk i),
      callIneq_eq h hG (s.con.cineqUser.viewF d.ineq)]

theorem isFeasible_eq (h : Shadow F s) (z : Vec K) : isFeasible F s.con s.mp z = s.con.isFeasible s.mp s.M z := by
  unfold isFeasible Constraints.isFeasible Constraints.feasible Constraints.feasIneq Constraints.feasEq
  have hi := h.ineq
  rw [h.eq]
  cases hF : F.ineq with
  | none =>
    rw [hF] at hi
    dsimp only at hi ⊢
    rw [hi]
    simp only [bind_assoc, pure_bind]
    rfl
  | some f =>
    rw [hF] at hi
    obtain ⟨G, hG, hi⟩ := hi
    dsimp only
    rw [hi]
    rw [callIneq_eq h hG (s.con.cineqUser.viewF d.ineq)]
    unfold Constraints.callIneq
    simp only [bind_assoc, pure_bind]
    congr 1
    funext w
    congr 1
    funext Y
    congr 1
    funext x
    congr 1
    funext y
    congr 1
    funext u
    split <;> rename_i hc <;> simp_all

/-! ### whole histories -/

theorem objWrapper_eq (h : Shadow F s) (grad z : Vec K) : objWrapper F s grad z = s.objWrapper grad z := by
  unfold objWrapper NlState.objWrapper
  rw [evalObj_eq h]
  rfl

theorem conWrapper_eq (h : Shadow F s) (k : NlGroupKind) (b : NlBuffers K) (z : Vec K) (junk : Nat → K) :
    conWrapper F s k b z junk = s.conWrapper k b z junk := by
  cases k
  · simp only [conWrapper, NlState.conWrapper, NlState.eqConWrapper]
    rw [evalDyn_eq h]
  · simp only [conWrapper, NlState.conWrapper, NlState.userIneqWrapper]
    rw [evalIneq_eq h]
  · rfl

theorem serve_eq (h : Shadow F s) (o : NlOpt K) (c : NlCallback K) : serve F o s c = NlMpc.serve o s c := by
  cases c with
  | obj z g junk =>
    simp only [serve, NlMpc.serve]
    rw [objWrapper_eq h]
  | con i z g junk =>
    simp only [serve, NlMpc.serve]
    cases o.groups[i]? with
    | none => rfl
    | some grp =>
      dsimp only
      rw [conWrapper_eq h]

/-- the user functions are the same -/
structure Keeps (s s' : NlState d K) : Prop where
  state : s'.M.vectorField = s.M.vectorField
  output : s'.M.outUser = s.M.outUser
  ineq : s'.con.ieqUser = s.con.ieqUser
  eq : s'.con.eqUser = s.con.eqUser

theorem Shadow.keep {s' : NlState d K} (h : Shadow F s) (k : Keeps s s') : Shadow F s' :=
  h.of_keeps k.state k.output k.ineq k.eq

variable [IsStrictOrderedRing K]

theorem objWrapper_keeps (grad z : Vec K) {r : (K × Vec K) × NlState d K} (h : s.objWrapper grad z = .ok r) : Keeps s r.2 := by
  unfold NlState.objWrapper NlState.evalObj at h
  obtain ⟨t, ht, h⟩ := bind_eq_ok.1 h
  obtain ⟨t', -, ht⟩ := bind_eq_ok.1 ht
  cases ht
  by_cases hg : grad.size ≠ 0
  · rw [if_pos hg] at h
    cases hG : t'.1.grad with
    | none => rw [hG] at h; cases h
    | some G =>
      rw [hG] at h
      obtain ⟨g, -, h⟩ := bind_eq_ok.1 h
      cases h
      exact ⟨rfl, rfl, rfl, rfl⟩
  · rw [if_neg hg] at h
    cases h
    exact ⟨rfl, rfl, rfl, rfl⟩

theorem serve_keeps (o : NlOpt K) (c : NlCallback K) {r : Option (NlReply K) × NlState d K}
    (h : NlMpc.serve o s c = .ok r) : Keeps s r.2 := by
  cases c with
  | obj z g junk =>
    simp only [NlMpc.serve] at h
    split at h
    · obtain ⟨q, hq, h⟩ := bind_eq_ok.1 h
      cases h
      exact objWrapper_keeps _ _ hq
    · cases h
      exact ⟨rfl, rfl, rfl, rfl⟩
  | con i z g junk =>
    simp only [NlMpc.serve] at h
    split at h
    · cases h
      exact ⟨rfl, rfl, rfl, rfl⟩
    · rename_i grp hgrp
      obtain ⟨q, hq, h⟩ := bind_eq_ok.1 h
      cases h
      cases hk : grp.kind <;> rw [hk] at hq
      · simp only [NlState.conWrapper, NlState.eqConWrapper, NlState.evalDyn] at hq
        obtain ⟨t, ht, hq⟩ := bind_eq_ok.1 hq
        obtain ⟨t', ht', ht⟩ := bind_eq_ok.1 ht
        cases ht
        obtain ⟨b, -, hq⟩ := bind_eq_ok.1 hq
        cases hq
        obtain ⟨k1, k2⟩ := Constraints.evaluateStateModelEq_keeps _ _ _ _ _ _ ht'
        exact ⟨rfl, rfl, k1, k2⟩
      · simp only [NlState.conWrapper, NlState.userIneqWrapper, NlState.evalIneq] at hq
        obtain ⟨t, ht, hq⟩ := bind_eq_ok.1 hq
        obtain ⟨t', ht', ht⟩ := bind_eq_ok.1 ht
        cases ht
        obtain ⟨b, -, hq⟩ := bind_eq_ok.1 hq
        cases hq
        obtain ⟨k1, k2⟩ := Constraints.evaluateIneq_keeps _ _ _ _ _ ht'
        exact ⟨rfl, rfl, k1, k2⟩
      · simp only [NlState.conWrapper, NlState.userEqWrapper, NlState.evalEq] at hq
        obtain ⟨t, ht, hq⟩ := bind_eq_ok.1 hq
        obtain ⟨t', ht', ht⟩ := bind_eq_ok.1 ht
        cases ht
        obtain ⟨b, -, hq⟩ := bind_eq_ok.1 hq
        cases hq
        obtain ⟨k1, k2⟩ := Constraints.evaluateEq_keeps _ _ _ _ ht'
        exact ⟨rfl, rfl, k1, k2⟩

theorem callbacks_snoc (o : NlOpt K) (s : NlState d K) (cs : List (NlCallback K)) (c : NlCallback K) :
    callbacks F o s (cs ++ [c]) = callbacks F o s cs >>= fun s => do
      let r ← serve F o s c
      return r.2 := by
  unfold callbacks
  rw [List.foldl_append]
  rfl

theorem callbacks_snoc' (o : NlOpt K) (s : NlState d K) (cs : List (NlCallback K)) (c : NlCallback K) :
    NlMpc.callbacks o s (cs ++ [c]) = NlMpc.callbacks o s cs >>= fun s => do
      let r ← NlMpc.serve o s c
      return r.2 := by
  unfold NlMpc.callbacks
  rw [List.foldl_append]
  rfl

theorem callbacks_eq (h : Shadow F s) (o : NlOpt K) (cs : List (NlCallback K)) :
    callbacks F o s cs = NlMpc.callbacks o s cs ∧ ∀ s', NlMpc.callbacks o s cs = .ok s' → Keeps s s' := by
  induction cs using List.reverseRecOn with
  | nil =>
    refine ⟨rfl, ?_⟩
    intro s' hs
    cases hs
    exact ⟨rfl, rfl, rfl, rfl⟩
  | append_singleton cs c ih =>
    rw [callbacks_snoc, callbacks_snoc', ih.1]
    cases hc : NlMpc.callbacks o s cs with
    | error e => exact ⟨rfl, fun s' hs => by cases hs⟩
    | ok s1 =>
      have k1 := ih.2 s1 hc
      have h1 := h.keep k1
      rw [ok_bind, ok_bind, serve_eq h1]
      refine ⟨rfl, ?_⟩
      intro s' hs
      obtain ⟨r, hr, hs⟩ := bind_eq_ok.1 hs
      cases hs
      have k2 := serve_keeps o c hr
      exact ⟨k2.state.trans k1.state, k2.output.trans k1.output, k2.ineq.trans k1.ineq, k2.eq.trans k1.eq⟩

theorem isFeasible_keeps (c : Constraints d K) (mp : Mapping K) (M : NlModel d K) (z : Vec K) {r : Bool × Constraints d K}
    (h : c.isFeasible mp M z = .ok r) : r.2.ieqUser = c.ieqUser ∧ r.2.eqUser = c.eqUser := by
  unfold Constraints.isFeasible at h
  obtain ⟨q, -, h⟩ := bind_eq_ok.1 h
  cases h
  exact ⟨rfl, rfl⟩

theorem accept_eq {m : NlMpc d K} (h : Shadow F m.s) (x0 : Vec K) (value : Ext K) (code : Int) (feas : Bool)
    (junk : Nat → K) : accept F m x0 value code feas junk = m.accept x0 value code feas junk := by
  unfold accept NlMpc.accept
  simp only [getOutput_eq h]

theorem finish_eq {m : NlMpc d K} (h : Shadow F m.s) (x0 : Vec K) (junk : Nat → K) (out : NlOutcome K) :
    finish F m x0 junk out = NlMpc.finish m x0 junk out ∧
      ∀ m', NlMpc.finish m x0 junk out = .ok m' → Keeps m.s m'.s ∧ m'.dynamic = m.dynamic := by
  cases out with
  | threw =>
    refine ⟨rfl, ?_⟩
    intro m' hm
    cases hm
    exact ⟨⟨rfl, rfl, rfl, rfl⟩, rfl⟩
  | answered z value code ct =>
    simp only [finish, NlMpc.finish]
    cases ct with
    | true =>
      refine ⟨rfl, ?_⟩
      intro m' hm
      cases hm
      exact ⟨⟨rfl, rfl, rfl, rfl⟩, rfl⟩
    | false =>
      simp only [Bool.false_eq_true, if_false]
      rw [isFeasible_eq h]
      cases hf : m.s.con.isFeasible m.s.mp m.s.M z with
      | error e => exact ⟨rfl, fun m' hm => by cases hm⟩
      | ok f =>
        obtain ⟨k1, k2⟩ := isFeasible_keeps _ _ _ _ hf
        rw [ok_bind, ok_bind]
        have h' : Shadow F ({ m.s with con := f.2 } : NlState d K) := h.of_keeps rfl rfl k1 k2
        refine ⟨accept_eq (m := { m with s := _, o := _ }) h' _ _ _ _ _, ?_⟩
        intro m' hm
        unfold NlMpc.accept at hm
        obtain ⟨_, -, hm⟩ := bind_eq_ok.1 hm
        obtain ⟨_, -, hm⟩ := bind_eq_ok.1 hm
        obtain ⟨_, -, hm⟩ := bind_eq_ok.1 hm
        obtain ⟨_, -, hm⟩ := bind_eq_ok.1 hm
        obtain ⟨_, -, hm⟩ := bind_eq_ok.1 hm
        obtain ⟨_, -, hm⟩ := bind_eq_ok.1 hm
        cases hm
        exact ⟨⟨rfl, rfl, k1, k2⟩, rfl⟩

theorem optimize_eq {m : NlMpc d K} (h : Shadow F m.s) (x0 u0 : Vec K) (cs : List (NlCallback K)) (out : NlOutcome K)
    (junk : Nat → K) : optimize F m x0 u0 cs out junk = m.optimize x0 u0 cs out junk ∧
      ∀ r, m.optimize x0 u0 cs out junk = .ok r → Keeps m.s r.1.s ∧ r.1.dynamic = m.dynamic := by
  unfold optimize NlMpc.optimize NlMpc.onState
  simp only [NlState.exec, ok_bind, pure_bind']
  have h1 : Shadow F ({ m.s with obj := { m.s.obj with x0 := x0 }, con := { m.s.con with x0 := x0 } } : NlState d K) :=
    h.of_keeps rfl rfl rfl rfl
  rw [(callbacks_eq h1 _ cs).1]
  cases hp : NlOpt.prepare m.o d m.s.mp junk x0 u0 with
  | error e => exact ⟨rfl, fun m' hm => by cases hm⟩
  | ok p =>
    rw [ok_bind, ok_bind]
    cases hc : NlMpc.callbacks m.o
        ({ m.s with obj := { m.s.obj with x0 := x0 }, con := { m.s.con with x0 := x0 } } : NlState d K) cs with
    | error e => exact ⟨rfl, fun m' hm => by cases hm⟩
    | ok s1 =>
      rw [ok_bind, ok_bind]
      have k1 := (callbacks_eq h1 m.o cs).2 s1 hc
      have h2 : Shadow F s1 := h1.keep k1
      have hf := finish_eq (m := { m with s := s1, o := { m.o with optVector := p.1 } }) h2 x0 junk out
      rw [hf.1]
      refine ⟨rfl, ?_⟩
      intro r hr
      obtain ⟨m', hm', hr⟩ := bind_eq_ok.1 hr
      cases hr
      obtain ⟨k2, hd⟩ := hf.2 m' hm'
      exact ⟨⟨k2.state.trans k1.state, k2.output.trans k1.output, k2.ineq.trans k1.ineq, k2.eq.trans k1.eq⟩, hd⟩

theorem plain_keeps {m : NlMpc d K} {c : NlCall d K} (hp : c.plain = true) (hd : m.dynamic = true)
    {r : NlMpc d K × NlOut K} (h : m.step c = .ok r) : Keeps m.s r.1.s ∧ r.1.dynamic = m.dynamic := by
  have hslice : ∀ {n : Nat} {sl : HorizonSlice} {st : NlOpt K → Exec (NlOpt K × Bool)},
      m.sliceBounds n sl st = .ok r → Keeps m.s r.1.s ∧ r.1.dynamic = m.dynamic := by
    intro n sl st h
    unfold NlMpc.sliceBounds at h
    have key : ∀ v : Bool, (if v = true then do
        let r ← st m.o
        pure ({ s := m.s, o := r.1, dynamic := m.dynamic }, NlOut.bool (true && r.2))
      else pure (m, NlOut.bool false) : Exec (NlMpc d K × NlOut K)) = .ok r → Keeps m.s r.1.s ∧ r.1.dynamic = m.dynamic := by
      intro v h
      by_cases hv : v = true
      · rw [if_pos hv] at h
        obtain ⟨q, -, h⟩ := bind_eq_ok.1 h
        cases h
        exact ⟨⟨rfl, rfl, rfl, rfl⟩, rfl⟩
      · rw [if_neg hv] at h
        cases h
        exact ⟨⟨rfl, rfl, rfl, rfl⟩, rfl⟩
    dsimp only at h
    by_cases hu : isSliceUnset sl = true
    · rw [if_pos hu] at h
      exact key true h
    · rw [if_neg hu] at h
      obtain ⟨v, -, h⟩ := bind_eq_ok.1 h
      exact key v h
  have hmat : ∀ {n : Nat} {mn mx : Mat (Ext K)} {st : NlOpt K → Vec (Ext K) → Vec (Ext K) → HorizonSlice → Exec (NlOpt K × Bool)},
      m.matrixBounds n mn mx st = .ok r → Keeps m.s r.1.s ∧ r.1.dynamic = m.dynamic := by
    intro n mn mx st h
    unfold NlMpc.matrixBounds at h
    obtain ⟨v, -, h⟩ := bind_eq_ok.1 h
    cases h
    exact ⟨⟨rfl, rfl, rfl, rfl⟩, rfl⟩
  cases c with
  | setStateSpaceFunction => cases hp
  | setOutputFunction => cases hp
  | setIneqConFunction => cases hp
  | optimize => cases hp
  | setDiscretizationSamplingTime ts =>
    cases h
    exact ⟨⟨rfl, rfl, rfl, rfl⟩, rfl⟩
  | setOptimizerParameters p =>
    simp only [NlMpc.step] at h
    obtain ⟨o, -, h⟩ := bind_eq_ok.1 h
    cases h
    exact ⟨⟨rfl, rfl, rfl, rfl⟩, rfl⟩
  | setInputScale v =>
    simp only [NlMpc.step, NlMpc.onState, NlState.exec] at h
    obtain ⟨o, ho, h⟩ := bind_eq_ok.1 h
    cases h
    obtain ⟨t, ht, ho⟩ := bind_eq_ok.1 ho
    cases ho
    obtain ⟨mp, -, ht⟩ := bind_eq_ok.1 ht
    cases ht
    exact ⟨⟨rfl, rfl, rfl, rfl⟩, rfl⟩
  | setStateScale v =>
    cases h
    exact ⟨⟨rfl, rfl, rfl, rfl⟩, rfl⟩
  | setObjectiveFunction f acc =>
    cases h
    exact ⟨⟨rfl, rfl, rfl, rfl⟩, rfl⟩
  | setEqConFunction f tol acc =>
    simp only [NlMpc.step] at h
    obtain ⟨o, ho, h⟩ := bind_eq_ok.1 h
    have := require_eq_ok.1 ho
    rw [hd] at this
    cases this
  | setStateBounds =>
    simp only [NlMpc.step] at h
    exact hmat h
  | setInputBounds =>
    simp only [NlMpc.step] at h
    exact hmat h
  | setOutputBounds =>
    cases h
    exact ⟨⟨rfl, rfl, rfl, rfl⟩, rfl⟩
  | setStateBoundsSlice =>
    simp only [NlMpc.step] at h
    exact hslice h
  | setInputBoundsSlice =>
    simp only [NlMpc.step] at h
    exact hslice h
  | setOutputBoundsSlice =>
    cases h
    exact ⟨⟨rfl, rfl, rfl, rfl⟩, rfl⟩

/-- the results of the step of the controller with lists: controller and return value as in the typed one, and again the
functions correspond -/
def StepAgrees (m : NlMpc d K) (F : SizedFns d K) (c : SizedCall d K) (c' : NlCall d K) : Prop :=
  match m.step c' with
  | .error e => step (m, F) c = .error e
  | .ok r => ∃ F', step (m, F) c = .ok ((r.1, F'), r.2) ∧ Shadow F' r.1.s ∧ r.1.dynamic = m.dynamic

theorem step_eq {m : NlMpc d K} (h : Shadow F m.s) (hd : m.dynamic = true) {c : SizedCall d K} {c' : NlCall d K}
    (hs : SizedSpec.Same c c') : StepAgrees m F c c' := by
  unfold StepAgrees
  cases c with
  | setStateSpaceFunction f tol acc =>
    obtain ⟨G, hG, rfl⟩ := hs
    have e : (fun x u k => (entries (f x u k) : FVec d.nx K)) = G := by
      funext x u k
      rw [hG, entries_ofFn]
    simp only [step, e]
    rw [NlMpc.step]
    simp only [NlMpc.onState, NlState.exec, ok_bind, pure_bind']
    refine ⟨_, rfl, ⟨⟨G, hG, rfl⟩, h.output, h.ineq, h.eq⟩, rfl⟩
  | setOutputFunction f =>
    obtain ⟨G, hG, rfl⟩ := hs
    have e : (fun (_ : FVec d.ny K) x u k => (entries (f x u k) : FVec d.ny K)) = fun _ => G := by
      funext _ x u k
      rw [hG, entries_ofFn]
    simp only [step, e]
    rw [NlMpc.step]
    simp only [NlMpc.onState, NlState.exec, ok_bind, pure_bind']
    refine ⟨_, rfl, ⟨h.state, ⟨G, hG, rfl⟩, h.ineq, h.eq⟩, rfl⟩
  | setIneqConFunction f tol acc =>
    obtain ⟨G, hG, rfl⟩ := hs
    have e : (fun x y u e => (entries (f x y u e) : FVec d.ineq K)) = G := by
      funext x y u e
      rw [hG, entries_ofFn]
    simp only [step, e]
    rw [NlMpc.step]
    simp only [NlMpc.onState, NlState.exec, ok_bind, pure_bind']
    refine ⟨_, rfl, ⟨h.state, h.output, ⟨G, hG, rfl⟩, h.eq⟩, rfl⟩
  | optimize x0 u0 cs out junk =>
    cases hs
    obtain ⟨h1, h2⟩ := optimize_eq h x0 u0 cs out junk
    simp only [step, NlMpc.step, h1]
    cases hr : m.optimize x0 u0 cs out junk with
    | error e => rfl
    | ok r =>
      obtain ⟨k, hk⟩ := h2 r hr
      exact ⟨F, rfl, h.keep k, hk⟩
  | other c hp =>
    obtain rfl : c' = c := hs
    simp only [step]
    cases hr : m.step c' with
    | error e => rfl
    | ok r =>
      obtain ⟨k, hk⟩ := plain_keeps hp hd hr
      exact ⟨F, rfl, h.keep k, hk⟩

theorem run_eq_from {ops : List (SizedCall d K)} {ops' : List (NlCall d K)} (hs : List.Forall₂ SizedSpec.Same ops ops') :
    ∀ {m : NlMpc d K} {F : SizedFns d K} (outs : List (NlOut K)), Shadow F m.s → m.dynamic = true →
    (match (ops'.foldl (fun e c => e >>= fun q => do
        let r ← q.1.step c
        return (r.1, q.2 ++ [r.2])) (.ok (m, outs)) : Exec (NlMpc d K × List (NlOut K))) with
      | .error e => (ops.foldl (fun e c => e >>= fun q => do
          let r ← step q.1 c
          return (r.1, q.2 ++ [r.2])) (.ok ((m, F), outs)) : Exec ((NlMpc d K × SizedFns d K) × List (NlOut K))) = .error e
      | .ok r => ∃ F', (ops.foldl (fun e c => e >>= fun q => do
          let r ← step q.1 c
          return (r.1, q.2 ++ [r.2])) (.ok ((m, F), outs)) : Exec ((NlMpc d K × SizedFns d K) × List (NlOut K))) =
            .ok ((r.1, F'), r.2)) := by
  induction hs with
  | nil => intro m F outs _ _; exact ⟨F, rfl⟩
  | @cons c c' l l' hc hl ih =>
    intro m F outs h hd
    have hst := step_eq h hd hc
    unfold StepAgrees at hst
    simp only [List.foldl_cons, ok_bind]
    cases hr : m.step c' with
    | error e =>
      rw [hr] at hst
      dsimp only at hst
      rw [hst]
      simp only [error_bind]
      have e1 : ∀ (l' : List (NlCall d K)), (l'.foldl (fun e c => e >>= fun q => do
        let r ← q.1.step c
        return (r.1, q.2 ++ [r.2])) (.error e) : Exec (NlMpc d K × List (NlOut K))) = .error e := by
        intro l'
        induction l' with
        | nil => rfl
        | cons a l' ih => rw [List.foldl_cons, error_bind]; exact ih
      have e2 : ∀ (l : List (SizedCall d K)), (l.foldl (fun e c => e >>= fun q => do
          let r ← step q.1 c
          return (r.1, q.2 ++ [r.2])) (.error e) : Exec ((NlMpc d K × SizedFns d K) × List (NlOut K))) = .error e := by
        intro l
        induction l with
        | nil => rfl
        | cons a l ih => rw [List.foldl_cons, error_bind]; exact ih
      rw [e1, e2]
    | ok r =>
      rw [hr] at hst
      obtain ⟨F', hst, h', hd'⟩ := hst
      rw [hst]
      simp only [ok_bind, pure_bind']
      exact ih _ h' (hd'.trans hd)

/-- a controller whose functions return lists of the right length does the same as one with functions which fill vectors -/
theorem run_eq {ops : List (SizedCall d K)} {ops' : List (NlCall d K)} (hs : List.Forall₂ SizedSpec.Same ops ops')
    (junk : Nat → K) :
    (match NlMpc.run d junk true ops' with
      | .error e => run d junk ops = .error e
      | .ok r => ∃ F', run d junk ops = .ok ((r.1, F'), r.2)) := by
  unfold run NlMpc.run
  cases hi : NlMpc.init d junk true with
  | error e =>
    simp only [error_bind]
    have e1 : ∀ (l' : List (NlCall d K)), (l'.foldl (fun e c => e >>= fun q => do
        let r ← q.1.step c
        return (r.1, q.2 ++ [r.2])) (.error e) : Exec (NlMpc d K × List (NlOut K))) = .error e := by
      intro l'
      induction l' with
      | nil => rfl
      | cons a l' ih => rw [List.foldl_cons, error_bind]; exact ih
    have e2 : ∀ (l : List (SizedCall d K)), (l.foldl (fun e c => e >>= fun q => do
          let r ← step q.1 c
          return (r.1, q.2 ++ [r.2])) (.error e) : Exec ((NlMpc d K × SizedFns d K) × List (NlOut K))) = .error e := by
      intro l
      induction l with
      | nil => rfl
      | cons a l ih => rw [List.foldl_cons, error_bind]; exact ih
    rw [e1, e2]
  | ok m =>
    simp only [ok_bind]
    unfold NlMpc.init at hi
    obtain ⟨s, hs', hi⟩ := bind_eq_ok.1 hi
    obtain ⟨o, -, hi⟩ := bind_eq_ok.1 hi
    cases hi
    unfold NlState.init at hs'
    obtain ⟨mp, -, hs'⟩ := bind_eq_ok.1 hs'
    cases hs'
    exact run_eq_from hs [] ⟨rfl, rfl, rfl, rfl⟩ rfl

end Sized
end Mpc
