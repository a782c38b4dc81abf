import Verif.Spec.NlStep
import Verif.Props.NlApiGradients

/-
C67: the step of every difference quotient is relative to the magnitude of the variable it perturbs.
-/
namespace Mpc.Props
open Mpc Exec
set_option linter.unusedSectionVars false

section
variable {d : Dims} {K : Type} [Field K] [LinearOrder K] [IsStrictOrderedRing K]
variable {dyn : Bool} {ops : List (NlCall d K)} {outs : List (NlOut K)} {m : NlMpc d K} {x0 : Vec K}
  {cs : List (NlCallback K)} {s : NlState d K}

/-- the states for a decision vector -/
def statesOf (ops : List (NlCall d K)) (x0 z : Vec K) : Traj (d.ph + 1) d.nx K :=
  NlSpec.codeStates d (NlSpec.stScale ops) x0.get z.get

/-- the inputs for a decision vector -/
def inputsOf (ops : List (NlCall d K)) (z : Vec K) : Traj (d.ph + 1) d.nu K :=
  NlSpec.inputs d (NlSpec.inScale ops) z.get

/-- The derivatives of the objective with respect to the (unscaled) states are forward quotients with own steps. -/
def ObjOwn (t : K) (ops : List (NlCall d K)) (x0 : Vec K) (s : NlState d K) (z : Vec K) (f : ObjFn d K) : Prop :=
  ∃ r s' G, s.evalObj z true = .ok (r, s') ∧ r.grad = some G ∧ ∀ k a, k < d.ph → a < d.nx →
    G.get (NlSpec.stateIx d k a) = NlSpec.ownForward t (fun X => NlSpec.costOf f (NlSpec.last NlSpec.outputOf ops) X
      (inputsOf ops z) (z.get (NlSpec.slackIx d))) (statesOf ops x0 z) (k + 1) a

/-- The derivatives of the inequality constraints with respect to the states are central quotients with own steps. -/
def IneqOwn (t : K) (ops : List (NlCall d K)) (x0 : Vec K) (s : NlState d K) (z : Vec K)
    (F : Traj (d.ph + 1) d.nx K → Traj (d.ph + 1) d.ny K → Traj (d.ph + 1) d.nu K → K → FVec d.ineq K) : Prop :=
  ∀ j : Nat → K, ∃ r s', s.evalIneq z j = .ok (r, s') ∧ ∀ (i : Fin d.ineq) (k a : Nat), k < d.ph → a < d.nx →
    r.grad.get (i * d.nZ + NlSpec.stateIx d k a) = NlSpec.ownCentral t (fun X => NlSpec.ineqOf F (NlSpec.last NlSpec.outputOf ops) X
      (inputsOf ops z) (z.get (NlSpec.slackIx d)) i) (statesOf ops x0 z) (k + 1) a * NlSpec.stScale ops a

/-- The derivatives of the equality constraints with respect to the inputs of the steps which are not blocked are central
quotients with own steps. -/
def EqInputsOwn (t : K) (ops : List (NlCall d K)) (x0 : Vec K) (s : NlState d K) (z : Vec K)
    (F : Traj (d.ph + 1) d.nx K → Traj (d.ph + 1) d.nu K → FVec d.eq K) : Prop :=
  ∀ j : Nat → K, ∃ r s', s.evalEq z j = .ok (r, s') ∧ ∀ (i : Fin d.eq) (k b : Nat), k + 1 < d.ch → b < d.nu →
    r.grad.get (i * d.nZ + NlSpec.inputIx d k b) = NlSpec.inScale ops b * NlSpec.ownCentral t (fun U => F (statesOf ops x0 z) U i)
      (inputsOf ops z) k b

/-- The derivatives of the equality constraints with respect to the states are central quotients with own steps. -/
def EqStatesOwn (t : K) (ops : List (NlCall d K)) (x0 : Vec K) (s : NlState d K) (z : Vec K)
    (F : Traj (d.ph + 1) d.nx K → Traj (d.ph + 1) d.nu K → FVec d.eq K) : Prop :=
  ∀ j : Nat → K, ∃ r s', s.evalEq z j = .ok (r, s') ∧ ∀ (i : Fin d.eq) (k a : Nat), k < d.ph → a < d.nx →
    r.grad.get (i * d.nZ + NlSpec.stateIx d k a) = NlSpec.ownCentral t (fun X => F X (inputsOf ops z) i)
      (statesOf ops x0 z) (k + 1) a * NlSpec.stScale ops a

/-- C67 as claimed for the objective. -/
def C67ObjClaim (K : Type) [Field K] [LinearOrder K] [IsStrictOrderedRing K] : Prop :=
  ∃ t : K, 0 < t ∧ ∀ (d : Dims) (dyn : Bool) (ops : List (NlCall d K)) (outs : List (NlOut K)) (m : NlMpc d K) (x0 : Vec K)
    (cs : List (NlCallback K)) (s : NlState d K), InSolver d dyn ops outs m x0 cs s →
    ∀ f, NlSpec.last NlSpec.objectiveOf ops = some f → ∀ z : Vec K, z.size = d.nZ → ObjOwn t ops x0 s z f

/-- C67 as claimed for the inequality constraints. -/
def C67IneqClaim (K : Type) [Field K] [LinearOrder K] [IsStrictOrderedRing K] : Prop :=
  ∃ t : K, 0 < t ∧ ∀ (d : Dims) (dyn : Bool) (ops : List (NlCall d K)) (outs : List (NlOut K)) (m : NlMpc d K) (x0 : Vec K)
    (cs : List (NlCallback K)) (s : NlState d K), InSolver d dyn ops outs m x0 cs s →
    ∀ F tol, NlSpec.last NlSpec.ineqConOf ops = some (F, tol) → ∀ z : Vec K, z.size = d.nZ → IneqOwn t ops x0 s z F

/-- C67 as claimed for the equality constraints and the inputs. -/
def C67EqClaim (K : Type) [Field K] [LinearOrder K] [IsStrictOrderedRing K] : Prop :=
  ∃ t : K, 0 < t ∧ ∀ (d : Dims) (dyn : Bool) (ops : List (NlCall d K)) (outs : List (NlOut K)) (m : NlMpc d K) (x0 : Vec K)
    (cs : List (NlCallback K)) (s : NlState d K), InSolver d dyn ops outs m x0 cs s →
    ∀ F tol, NlSpec.last NlSpec.eqConOf ops = some (F, tol) → ∀ z : Vec K, z.size = d.nZ → EqInputsOwn t ops x0 s z F

/-- with entries of magnitude at most one every step is the same -/
theorem stepOf_small {t v : K} (h : |v| ≤ 1) : NlSpec.stepOf t v = t := by
  unfold NlSpec.stepOf
  split_ifs with h1
  · rw [mul_one]
  · rw [le_antisymm h (not_lt.1 h1), mul_one]

theorem entry_small {r n : Nat} {X : Traj r n K} (h : ∀ k a, |X k a| ≤ 1) (i j : Nat) : |NlSpec.entry X i j| ≤ 1 := by
  unfold NlSpec.entry
  split_ifs
  · exact h _ _
  · simp

/-- C67, proved part: the derivatives of the equality constraints with respect to the states have own steps, always. -/
theorem c67_eq_states_partial (h : InSolver d dyn ops outs m x0 cs s)
    (F : Traj (d.ph + 1) d.nx K → Traj (d.ph + 1) d.nu K → FVec d.eq K) (tol : K)
    (hF : NlSpec.last NlSpec.eqConOf ops = some (F, tol)) (z : Vec K) (hz : z.size = d.nZ) :
    EqStatesOwn (1 / 67108864) ops x0 s z F := by
  intro j
  obtain ⟨c, hs, e1, e2, e3, e4, e5, e6, e7, e8, e9, ho, hc⟩ := h.config
  obtain ⟨⟨r, s'⟩, e, -, -, -, gx, gu, h3, h4⟩ := NlState.evalEq_post hs (e7 F tol hF) z hz j
  refine ⟨r, s', e, fun i k a hk ha => ?_⟩
  have row := (h4 i i.2).states k a hk ha
  dsimp only at row
  rw [h3.states i k a hk ha, hc, e1, e2] at row
  exact row

/-- C67, proved part: while states and inputs are at most one in magnitude, all steps are the same, as claimed. Missing: larger
entries (see the three violations). -/
theorem c67_small_partial (h : InSolver d dyn ops outs m x0 cs s) (z : Vec K) (hz : z.size = d.nZ)
    (hX : ∀ k a, |statesOf (d := d) ops x0 z k a| ≤ 1) (hU : ∀ k b, |inputsOf (d := d) ops z k b| ≤ 1) :
    (∀ f, NlSpec.last NlSpec.objectiveOf ops = some f → ObjOwn (1 / 1000000) ops x0 s z f) ∧
    (∀ F tol, NlSpec.last NlSpec.ineqConOf ops = some (F, tol) → IneqOwn (1 / 67108864) ops x0 s z F) ∧
    (∀ F tol, NlSpec.last NlSpec.eqConOf ops = some (F, tol) → EqInputsOwn (1 / 67108864) ops x0 s z F) := by
  obtain ⟨c, hs, e1, e2, e3, e4, e5, e6, e7, e8, e9, ho, hc⟩ := h.config
  have hp := h.hor.ph_int
  have hX' : NlSpec.codeStates d c.stScale x0.get z.get = statesOf ops x0 z := by rw [e2]; rfl
  have hU' : NlSpec.inputs d c.inScale z.get = inputsOf ops z := by rw [e1]; rfl
  refine ⟨?_, ?_, ?_⟩
  · intro f hf
    obtain ⟨⟨r, s'⟩, e, -, q⟩ := NlState.evalObj_post hs hp (e4.trans hf) z hz true
    simp only [if_true] at q
    obtain ⟨G, gx, gu, ge, h1, h2, h3, h4⟩ := q
    rw [ho, hX', hU'] at h3
    refine ⟨r, s', G, e, h1, fun k a hk ha => ?_⟩
    rw [h4.states k a hk ha, h3.states k a hk ha, mul_one, e3]
    unfold NlSpec.ownForward Objective.stepSeq NlSpec.linear
    rw [stepOf_small (entry_small hX _ _), stepOf_small (entry_small hX _ _)]
  · intro F tol hF j
    obtain ⟨⟨r, s'⟩, e, -, -, -, gx, gu, ge, h3, h4⟩ := NlState.evalIneq_post hs hp (e6 F tol hF) z hz j
    rw [hc, hX', hU'] at h3
    refine ⟨r, s', e, fun i k a hk ha => ?_⟩
    have row := (h4 i i.2).states k a hk ha
    dsimp only at row
    rw [h3.states i k a hk ha, e2, e3] at row
    rw [row]
    unfold NlSpec.ownCentral Constraints.stepLin NlSpec.linear
    rw [stepOf_small (entry_small hX _ _), stepOf_small (entry_small hX _ _)]
    rfl
  · intro F tol hF j
    obtain ⟨⟨r, s'⟩, e, -, -, -, gx, gu, h3, h4⟩ := NlState.evalEq_post hs (e7 F tol hF) z hz j
    rw [hc, hX', hU'] at h3
    refine ⟨r, s', e, fun i k b hk hb => ?_⟩
    have row := (h4 i i.2).inputs k b (by omega) hb
    dsimp only at row
    rw [row, e1, Finset.sum_eq_single k]
    · have hle := h.hor.ch_le
      rw [if_pos (by omega), h3.inputs i k b (by omega) hb]
      unfold NlSpec.ownCentral Constraints.stepInput
      rw [stepOf_small (entry_small hU _ _), stepOf_small (entry_small hU _ _)]
      rfl
    · intro k' _ hk'
      rw [if_neg (by omega)]
    · intro hk'
      have hle := h.hor.ch_le
      exact absurd (Finset.mem_range.2 (by omega)) hk'

/-- C67 for the model equations, always: quotients with own steps. -/
theorem c67_dynamics (h : InSolver d dyn ops outs m x0 cs s) (F : FVec d.nx K → FVec d.nu K → Nat → FVec d.nx K)
    (hF : NlSpec.last NlSpec.modelOf ops = some F) (z : Vec K) (hz : z.size = d.nZ) (j : Nat → K) :
    ∃ r s', s.evalDyn z true j = .ok (r, s') ∧ ∀ (k : Fin d.ph) (a : Fin d.nx),
      NlSpec.DynRow d (1 / 67108864) (NlSpec.last NlSpec.samplingOf ops).isSome ((NlSpec.last NlSpec.samplingOf ops).getD 0)
        (NlSpec.stScale ops) (NlSpec.inScale ops) F (statesOf ops x0 z) (inputsOf ops z) k a
        (fun v => r.grad.get ((k * d.nx + a) * d.nZ + v)) := by
  obtain ⟨c, hs, e1, e2, e3, e4, e5, e6, e7, e8, e9, ho, hc⟩ := h.config
  obtain ⟨⟨r, s'⟩, e, -, -, q⟩ := NlState.evalDyn_traj hs h.hor.ph_int (e5.trans hF) z hz true j
  refine ⟨r, s', e, fun k a => ?_⟩
  have := (q k a).2 rfl
  rw [hc, e1, e2, e8, e9] at this
  exact this

end

/-! ### witnesses -/

/-- one state, one input, both horizons 2, one constraint of each kind -/
abbrev dU : Dims := ⟨1, 1, 0, 1, 2, 2, 1, 1⟩

theorem dU_ok : HorizonsOk dU := ⟨by decide, by decide, by decide⟩

/-- objective `x_1 ^ 2`, inequality `x_1 ^ 3`, equality `u_0 ^ 3` -/
def opsU : List (NlCall dU ℚ) :=
  [ .setObjectiveFunction (fun X _ _ _ => X 1 0 * X 1 0) true,
    .setIneqConFunction (fun X _ _ _ _ => X 1 0 * X 1 0 * X 1 0) 0 true,
    .setEqConFunction (fun _ U _ => U 0 0 * U 0 0 * U 0 0) 0 true ]

theorem opsU_in (q : ℚ) : ∃ outs m s, InSolver dU false opsU outs m ⟨1, fun _ => q⟩ [] s := by
  obtain ⟨outs, m, m', r, call, h⟩ := nlAsked_exists (d := dU) (K := ℚ) (dyn := false) (ops := opsU)
    (x0 := ⟨1, fun _ => q⟩) (u0 := ⟨1, fun _ => 0⟩) (cs := []) (oc := .threw) dU_ok (by decide) (by decide) (fun _ => 0)
    (by
      intro op h
      unfold opsU at h
      simp only [List.cons_append, List.nil_append, List.mem_cons, List.not_mem_nil, or_false] at h
      rcases h with rfl | rfl | rfl | rfl
      all_goals simp [NlSpec.CallFits])
    (by
      intro p op q' e
      have := admFrom_split (d := dU) (dyn := false) (pre := []) (l := opsU ++ [.optimize ⟨1, fun _ => q⟩ ⟨1, fun _ => 0⟩
        [] .threw (fun _ => 0)]) ?_ p op q' e
      · exact this
      · unfold opsU
        simp only [List.cons_append, List.nil_append, AdmFrom, NlSpec.Admissible, true_and, and_true]
        simp)
  obtain ⟨s, hs⟩ := h.inSolver
  exact ⟨outs, m, s, hs⟩

/-- decision vector: all zero except the second input -/
def zU (v : ℚ) : Vec ℚ := ⟨5, fun i => if i = 3 then v else 0⟩

/-- what the objective gradient reports for the first state, at a point where the states are zero -/
theorem objU (q : ℚ) {outs m s} (h : InSolver dU false opsU outs m ⟨1, fun _ => q⟩ [] s) {r s' G}
    (he : s.evalObj (zU 0) true = .ok (r, s')) (hG : r.grad = some G) : G.get 0 = NlSpec.stepOf (1 / 1000000) q := by
  obtain ⟨c, hs, e1, e2, e3, e4, e5, e6, e7, e8, e9, ho, hc⟩ := h.config
  obtain ⟨-, k⟩ := (NlState.evalObj_post hs h.hor.ph_int (e4.trans rfl) (zU 0) rfl true).of_eq he
  simp only [if_true] at k
  obtain ⟨G', gx, gu, ge, h1, h2, h3, h4⟩ := k
  rw [hG] at h1
  cases h1
  have g0 := h4.states 0 0 (by decide) (by decide)
  have e0 : NlSpec.stateIx dU 0 0 = 0 := rfl
  rw [e0, h3.states 0 0 (by decide) (by decide), mul_one, ho, e1, e2] at g0
  have hx : NlSpec.codeStates dU (NlSpec.stScale opsU) (fun _ => q) (zU 0).get (1 : Fin 3) (0 : Fin 1) = 0 := by
    show (1 : ℚ) * 0 = 0; norm_num
  have hx0 : Objective.stepSeq (NlSpec.codeStates dU (NlSpec.stScale opsU) (fun _ => q) (zU 0).get) 0
      = NlSpec.stepOf (1 / 1000000) q := by
    show NlSpec.stepOf _ ((1 : ℚ) * q) = _
    rw [one_mul]
  rw [hx0] at g0
  have hpos : 0 < NlSpec.stepOf (1 / 1000000) q := NlSpec.stepOf_pos (by norm_num) _
  generalize NlSpec.stepOf (1 / 1000000) q = w at *
  rw [g0]
  show (NlSpec.bump _ 1 0 w (1 : Fin 3) (0 : Fin 1) * NlSpec.bump _ 1 0 w (1 : Fin 3) (0 : Fin 1)
    - NlSpec.codeStates dU (NlSpec.stScale opsU) (fun _ => q) (zU 0).get (1 : Fin 3) (0 : Fin 1)
    * NlSpec.codeStates dU (NlSpec.stScale opsU) (fun _ => q) (zU 0).get (1 : Fin 3) (0 : Fin 1)) / w = w
  unfold NlSpec.bump
  rw [if_pos ⟨rfl, rfl⟩, hx]
  field_simp
  ring

/-- C67 fails for the objective: the step of a state follows the magnitude of another entry, here of the measured state
(`Xa.array()(j)` is the `j`-th entry of the whole matrix in storage order, Objective.hpp:208). -/
theorem c67_objective_step_violated : ¬ C67ObjClaim ℚ := by
  rintro ⟨t, ht, H⟩
  have key : ∀ q : ℚ, NlSpec.stepOf (1 / 1000000) q = t := by
    intro q
    obtain ⟨outs, m, s, h⟩ := opsU_in q
    obtain ⟨r, s', G, k1, k2, k3⟩ := H dU false opsU outs m _ [] s h _ rfl (zU 0) rfl
    have g0 := k3 0 0 (by decide) (by decide)
    have e0 : NlSpec.stateIx dU 0 0 = 0 := rfl
    rw [e0, objU q h k1 k2] at g0
    rw [g0]
    have hx : statesOf (d := dU) opsU ⟨1, fun _ => q⟩ (zU 0) (1 : Fin 3) (0 : Fin 1) = 0 := by
      show (1 : ℚ) * 0 = 0; norm_num
    have hs : NlSpec.entry (statesOf (d := dU) opsU ⟨1, fun _ => q⟩ (zU 0)) (0 + 1) 0 = 0 := hx
    unfold NlSpec.ownForward
    rw [hs, stepOf_small (by simp)]
    show (NlSpec.bump _ 1 0 t (1 : Fin 3) (0 : Fin 1) * NlSpec.bump _ 1 0 t (1 : Fin 3) (0 : Fin 1)
      - statesOf (d := dU) opsU ⟨1, fun _ => q⟩ (zU 0) (1 : Fin 3) (0 : Fin 1)
      * statesOf (d := dU) opsU ⟨1, fun _ => q⟩ (zU 0) (1 : Fin 3) (0 : Fin 1)) / t = t
    unfold NlSpec.bump
    rw [if_pos ⟨rfl, rfl⟩, hx]
    field_simp
    ring
  have h0 := key 0
  have h1 := key 10
  rw [← h0] at h1
  norm_num [NlSpec.stepOf] at h1

/-- C67 fails for the inequality constraints, for the same reason (Constraints.hpp:662). -/
theorem c67_ineq_step_violated : ¬ C67IneqClaim ℚ := by
  rintro ⟨t, ht, H⟩
  have key : ∀ q : ℚ, NlSpec.stepOf (1 / 67108864) q * NlSpec.stepOf (1 / 67108864) q = t * t := by
    intro q
    obtain ⟨outs, m, s, h⟩ := opsU_in q
    obtain ⟨r, s', k1, k3⟩ := H dU false opsU outs m _ [] s h _ 0 rfl (zU 0) rfl (fun _ => 0)
    obtain ⟨c, hs, e1, e2, e3, e4, e5, e6, e7, e8, e9, ho, hc⟩ := h.config
    obtain ⟨-, -, -, gx, gu, ge, h3, h4⟩ := (NlState.evalIneq_post hs h.hor.ph_int (e6 _ 0 rfl) (zU 0) rfl (fun _ => 0)).of_eq k1
    have g0 := (h4 0 (by decide)).states 0 0 (by decide) (by decide)
    have g1 := k3 0 0 0 (by decide) (by decide)
    have l0 := h3.states 0 0 0 (by decide) (by decide)
    rw [hc, e1, e2] at l0
    have hx : NlSpec.codeStates dU (NlSpec.stScale opsU) (fun _ => q) (zU 0).get (1 : Fin 3) (0 : Fin 1) = 0 := by
      show (1 : ℚ) * 0 = 0; norm_num
    have hx' : statesOf (d := dU) opsU ⟨1, fun _ => q⟩ (zU 0) (1 : Fin 3) (0 : Fin 1) = 0 := hx
    have hs : NlSpec.entry (statesOf (d := dU) opsU ⟨1, fun _ => q⟩ (zU 0)) (0 + 1) 0 = 0 := hx
    have hx0 : Constraints.stepLin (NlSpec.codeStates dU (NlSpec.stScale opsU) (fun _ => q) (zU 0).get) 0 0
        = NlSpec.stepOf (1 / 67108864) q := by
      show NlSpec.stepOf _ ((1 : ℚ) * q) = _
      rw [one_mul]; rfl
    rw [hx0] at l0
    have hpos : 0 < NlSpec.stepOf (1 / 67108864) q := NlSpec.stepOf_pos (by norm_num) _
    generalize NlSpec.stepOf (1 / 67108864) q = w at *
    have lw : gx 0 0 0 = w * w := by
      refine l0.trans ?_
      show (NlSpec.bump _ 1 0 w (1 : Fin 3) (0 : Fin 1) * NlSpec.bump _ 1 0 w (1 : Fin 3) (0 : Fin 1)
          * NlSpec.bump _ 1 0 w (1 : Fin 3) (0 : Fin 1)
        - NlSpec.bump _ 1 0 (-w) (1 : Fin 3) (0 : Fin 1) * NlSpec.bump _ 1 0 (-w) (1 : Fin 3) (0 : Fin 1)
          * NlSpec.bump _ 1 0 (-w) (1 : Fin 3) (0 : Fin 1)) / (2 * w) = w * w
      unfold NlSpec.bump
      rw [if_pos ⟨rfl, rfl⟩, if_pos ⟨rfl, rfl⟩, hx]
      field_simp
      ring
    have lt : NlSpec.ownCentral t (fun X => NlSpec.ineqOf (d := dU) (fun X _ _ _ _ => X 1 0 * X 1 0 * X 1 0)
        (NlSpec.last NlSpec.outputOf opsU) X (inputsOf opsU (zU 0)) ((zU 0).get (NlSpec.slackIx dU)) 0)
        (statesOf (d := dU) opsU ⟨1, fun _ => q⟩ (zU 0)) (0 + 1) 0 = t * t := by
      unfold NlSpec.ownCentral
      rw [hs, stepOf_small (by simp)]
      show (NlSpec.bump _ 1 0 t (1 : Fin 3) (0 : Fin 1) * NlSpec.bump _ 1 0 t (1 : Fin 3) (0 : Fin 1)
          * NlSpec.bump _ 1 0 t (1 : Fin 3) (0 : Fin 1)
        - NlSpec.bump _ 1 0 (-t) (1 : Fin 3) (0 : Fin 1) * NlSpec.bump _ 1 0 (-t) (1 : Fin 3) (0 : Fin 1)
          * NlSpec.bump _ 1 0 (-t) (1 : Fin 3) (0 : Fin 1)) / (2 * t) = t * t
      unfold NlSpec.bump
      rw [if_pos ⟨rfl, rfl⟩, if_pos ⟨rfl, rfl⟩, hx']
      field_simp
      ring
    have e1' : c.stScale 0 = 1 := by rw [e2]; rfl
    rw [lw, e1', mul_one] at g0
    have s1 : NlSpec.stScale opsU 0 = 1 := rfl
    exact (g0.symm.trans g1).trans ((congrArg₂ (· * ·) lt s1).trans (mul_one _))
  have h0 := key 0
  have h1 := key 10
  rw [← h0] at h1
  norm_num [NlSpec.stepOf] at h1

/-- C67 fails for the equality constraints and the inputs: the steps of all inputs follow the magnitude of the last one
(Constraints.hpp:781). -/
theorem c67_eq_input_step_violated : ¬ C67EqClaim ℚ := by
  rintro ⟨t, ht, H⟩
  have key : ∀ q : ℚ, NlSpec.stepOf (1 / 67108864) q * NlSpec.stepOf (1 / 67108864) q = t * t := by
    intro q
    obtain ⟨outs, m, s, h⟩ := opsU_in 0
    obtain ⟨r, s', k1, k3⟩ := H dU false opsU outs m _ [] s h _ 0 rfl (zU q) rfl (fun _ => 0)
    obtain ⟨c, hs, e1, e2, e3, e4, e5, e6, e7, e8, e9, ho, hc⟩ := h.config
    obtain ⟨-, -, -, gx, gu, h3, h4⟩ := (NlState.evalEq_post hs (e7 _ 0 rfl) (zU q) rfl (fun _ => 0)).of_eq k1
    have g0 := (h4 0 (by decide)).inputs 0 0 (by decide) (by decide)
    have g1 := k3 0 0 0 (by decide) (by decide)
    have l0 := h3.inputs 0 0 0 (by decide) (by decide)
    rw [e1] at l0
    have hx : inputsOf (d := dU) opsU (zU q) (0 : Fin 3) (0 : Fin 1) = 0 := by
      show (1 : ℚ) * 0 = 0; norm_num
    have hs : NlSpec.entry (inputsOf (d := dU) opsU (zU q)) 0 0 = 0 := hx
    have hx0 : Constraints.stepInput (dU.ph - 1) (NlSpec.inputs dU (NlSpec.inScale opsU) (zU q).get) 0 0
        = NlSpec.stepOf (1 / 67108864) q := by
      show NlSpec.stepOf _ ((1 : ℚ) * q) = _
      rw [one_mul]; rfl
    rw [hx0] at l0
    have hpos : 0 < NlSpec.stepOf (1 / 67108864) q := NlSpec.stepOf_pos (by norm_num) _
    generalize NlSpec.stepOf (1 / 67108864) q = w at *
    have lw : gu 0 0 0 = w * w := by
      refine l0.trans ?_
      show (NlSpec.bump (inputsOf (d := dU) opsU (zU q)) 0 0 w (0 : Fin 3) (0 : Fin 1)
          * NlSpec.bump (inputsOf (d := dU) opsU (zU q)) 0 0 w (0 : Fin 3) (0 : Fin 1)
          * NlSpec.bump (inputsOf (d := dU) opsU (zU q)) 0 0 w (0 : Fin 3) (0 : Fin 1)
        - NlSpec.bump (inputsOf (d := dU) opsU (zU q)) 0 0 (-w) (0 : Fin 3) (0 : Fin 1)
          * NlSpec.bump (inputsOf (d := dU) opsU (zU q)) 0 0 (-w) (0 : Fin 3) (0 : Fin 1)
          * NlSpec.bump (inputsOf (d := dU) opsU (zU q)) 0 0 (-w) (0 : Fin 3) (0 : Fin 1)) / (2 * w) = w * w
      unfold NlSpec.bump
      rw [if_pos ⟨rfl, rfl⟩, if_pos ⟨rfl, rfl⟩, hx]
      field_simp
      ring
    have lt : NlSpec.ownCentral t (fun U : Traj 3 1 ℚ => U 0 0 * U 0 0 * U 0 0) (inputsOf (d := dU) opsU (zU q)) 0 0 = t * t := by
      unfold NlSpec.ownCentral
      rw [hs, stepOf_small (by simp)]
      show (NlSpec.bump (inputsOf (d := dU) opsU (zU q)) 0 0 t (0 : Fin 3) (0 : Fin 1)
          * NlSpec.bump (inputsOf (d := dU) opsU (zU q)) 0 0 t (0 : Fin 3) (0 : Fin 1)
          * NlSpec.bump (inputsOf (d := dU) opsU (zU q)) 0 0 t (0 : Fin 3) (0 : Fin 1)
        - NlSpec.bump (inputsOf (d := dU) opsU (zU q)) 0 0 (-t) (0 : Fin 3) (0 : Fin 1)
          * NlSpec.bump (inputsOf (d := dU) opsU (zU q)) 0 0 (-t) (0 : Fin 3) (0 : Fin 1)
          * NlSpec.bump (inputsOf (d := dU) opsU (zU q)) 0 0 (-t) (0 : Fin 3) (0 : Fin 1)) / (2 * t) = t * t
      unfold NlSpec.bump
      rw [if_pos ⟨rfl, rfl⟩, if_pos ⟨rfl, rfl⟩, hx]
      field_simp
      ring
    have g0' : r.grad.get (0 * dU.nZ + NlSpec.inputIx dU 0 0) = w * w := by
      refine g0.trans ?_
      have e1' : c.inScale 0 = 1 := by rw [e1]; rfl
      rw [e1', one_mul, Finset.sum_eq_single 0]
      · exact lw
      · intro k hk hk0
        have : k < 2 := Finset.mem_range.1 hk
        obtain rfl : k = 1 := by omega
        exact if_neg (by decide)
      · intro h0; exact absurd (Finset.mem_range.2 (by decide)) h0
    have s1 : NlSpec.inScale opsU 0 = 1 := rfl
    exact (g0'.symm.trans g1).trans ((congrArg₂ (· * ·) s1 lt).trans (one_mul _))
  have h0 := key 0
  have h1 := key 10
  rw [← h0] at h1
  norm_num [NlSpec.stepOf] at h1

/-- the hypotheses of the proved parts are met by the witness history, at the origin -/
example : ∃ outs m s, InSolver dU false opsU outs m ⟨1, fun _ => 0⟩ [] s ∧
    (∀ k a, |statesOf (d := dU) opsU ⟨1, fun _ => 0⟩ (zU 1) k a| ≤ 1) ∧ (∀ k b, |inputsOf (d := dU) opsU (zU 1) k b| ≤ 1) ∧
    ∃ F, NlSpec.last NlSpec.eqConOf opsU = some (F, 0) := by
  obtain ⟨outs, m, s, h⟩ := opsU_in 0
  refine ⟨outs, m, s, h, fun k a => ?_, fun k b => ?_, _, rfl⟩
  · have e : NlSpec.stScale opsU a = 1 := rfl
    unfold statesOf NlSpec.codeStates zU
    rw [e]; dsimp only; split_ifs <;> norm_num
  · have e : NlSpec.inScale opsU b = 1 := rfl
    unfold inputsOf NlSpec.inputs NlSpec.inputAt zU
    rw [e]; dsimp only; split_ifs <;> norm_num

end Mpc.Props
