import Verif.Proofs.NlPlanShift
import Verif.Props.NlOptimal
import Verif.Props.Recursive

/-
C93, C94, C95: the nonlinear controller in closed loop: the reported states are a simulation of the model, problems which can
be solved stay so, and what the loop does costs no more than the first plan.
-/
namespace Mpc.Props
open Mpc.NlSpec Exec
open Mpc.Spec (within IsBest)
set_option linter.unusedSectionVars false

variable {d : Dims} {K : Type} [Field K] [LinearOrder K] [IsStrictOrderedRing K]

section
variable {dyn : Bool} {ops : List (NlCall d K)} {outs : List (NlOut K)} {m m' m2 : NlMpc d K} {x0 u0 : Vec K}
  {cs cs' : List (NlCallback K)} {oc : NlOutcome K} {r : LResult K} {call : NlSolverCall K} {s : NlState d K}

/-- the plan made of the reported sequences of states and inputs (hard constraints: no slack) -/
def reportedPlan (d : Dims) (X U : Mat K) : NlSpec.Plan d K := ⟨fun k a => X.get k a, fun k b => U.get k b, 0⟩

theorem can_iff (h : NlAsked d dyn ops outs x0 u0 cs oc m m' r call) (hu : ∀ op ∈ ops, UsableCall op)
    (ho : SetOnce ops) (hs : ScalesOk ops outs) (hin : InSolver d dyn ops outs m2 x0 cs' s) :
    (∃ z', SolverFeasible m2.o s call z') ↔ ∃ p, Allowed ops outs x0.get p := by
  constructor
  · rintro ⟨z', hz'⟩
    exact ⟨_, (solverFeasible_iff h hu ho hs hin hz'.size).1 hz'⟩
  · rintro ⟨p, hp⟩
    refine ⟨vecOf ops p, (solverFeasible_iff h hu ho hs hin rfl).2 ?_⟩
    rwa [planOf_vecOf h.hor.ch_pos h.hor.ch_le hs.input hs.state hp.start hp.blocked]

variable {z : Vec K} {value : Ext K} {code : Int}

/-- a usable answer: the reported plan is allowed -/
theorem answer_allowed (h : NlAsked d dyn ops outs x0 u0 cs (.answered z value code false) m m' r call)
    (hu : ∀ op ∈ ops, UsableCall op) (ho : SetOnce ops) (hs : ScalesOk ops outs) (hin : InSolver d dyn ops outs m2 x0 cs' s)
    (hf : SolverFeasible m2.o s call z) :
    Allowed ops outs x0.get (reportedPlan d m'.o.seqState m'.o.seqInput) ∧
    planOf ops x0 z = reportedPlan d m'.o.seqState m'.o.seqInput ∧ ∀ b : Fin d.nu, r.cmd.get b = m'.o.seqInput.get 0 b := by
  obtain ⟨-, hS, hI, -, hc, -⟩ := c58_sequences_partial h rfl
  have ha := (solverFeasible_iff h hu ho hs hin hf.size).1 hf
  have ep : planOf ops x0 z = reportedPlan d m'.o.seqState m'.o.seqInput := by
    show NlSpec.Plan.mk _ _ _ = NlSpec.Plan.mk _ _ _
    congr 1
    · funext k a
      rw [hS k a (by omega) a.2]
      unfold NlSpec.codeStates NlSpec.stateAt
      split_ifs <;> rfl
    · funext k b
      exact (hI k b (by omega) b.2).symm
    · exact ha.hard
  exact ⟨ep ▸ ha, ep, fun b => hc b b.2⟩

/-- a good answer: the reported plan is nearly best -/
theorem answer_near (h : NlAsked d dyn ops outs x0 u0 cs (.answered z value code false) m m' r call)
    (hu : ∀ op ∈ ops, UsableCall op) (ho : SetOnce ops) (hs : ScalesOk ops outs) (hin : InSolver d dyn ops outs m2 x0 cs' s)
    {f : ObjFn d K} (hf : last objectiveOf ops = some f) {ε : K} (hn : SolverNear m2.o s call ε z) (q : NlSpec.Plan d K)
    (hq : Allowed ops outs x0.get q) :
    NlSpec.planCost f ops (reportedPlan d m'.o.seqState m'.o.seqInput) ≤ NlSpec.planCost f ops q + ε := by
  obtain ⟨-, ep, -⟩ := answer_allowed h hu ho hs hin hn.feasible
  have eq : planOf ops x0 (vecOf ops q) = q := planOf_vecOf h.hor.ch_pos h.hor.ch_le hs.input hs.state hq.start hq.blocked
  obtain ⟨G1, s1, e1⟩ := served_cost ho hf hin hn.feasible.size false (fun _ => 0)
  obtain ⟨G2, s2, e2⟩ := served_cost ho hf hin (z := vecOf ops q) rfl false (fun _ => 0)
  have := hn.near (vecOf ops q) ((solverFeasible_iff h hu ho hs hin rfl).2 (by rw [eq]; exact hq)) _ _ _ _ _ _ _ _ _ _ e1 e2
  rwa [eq, ep] at this

/-! ### C93 -/

/-- C93. With a discrete model of tolerance `tol`, every reported state is within `tol` of where the model leads from the
reported state and input of the step before; in particular the state which the plant reaches with the returned command, if it
behaves like the model, is within `tol` of the reported state of the first step. -/
theorem c93_one_step (h : NlAsked d dyn ops outs x0 u0 cs (.answered z value code false) m m' r call)
    (hu : ∀ op ∈ ops, UsableCall op) (ho : SetOnce ops) (hs : ScalesOk ops outs) (hin : InSolver d dyn ops outs m2 x0 cs' s)
    (hf : SolverFeasible m2.o s call z) {F : FVec d.nx K → FVec d.nu K → Nat → FVec d.nx K} {tol : K}
    (hm : last modelTolOf ops = some (F, tol)) (hd : last samplingOf ops = none) :
    (∀ k (a : Fin d.nx), k < d.ph → |m'.o.seqState.get (k + 1) a -
      F (fun a => m'.o.seqState.get k a) (fun b => m'.o.seqInput.get k b) k a| ≤ tol) ∧
    ∀ a : Fin d.nx, |m'.o.seqState.get 1 a - F (fun a => x0.get a) (fun b => r.cmd.get b) 0 a| ≤ tol := by
  obtain ⟨ha, -, hc⟩ := answer_allowed h hu ho hs hin hf
  have h1 : ∀ k (a : Fin d.nx), k < d.ph → |m'.o.seqState.get (k + 1) a -
      F (fun a => m'.o.seqState.get k a) (fun b => m'.o.seqInput.get k b) k a| ≤ tol := by
    intro k a hk
    have := ha.model F tol hm ⟨k, hk⟩ a
    rw [hd] at this
    exact this
  refine ⟨h1, fun a => ?_⟩
  have := h1 0 a (by have := h.hor.ch_pos; have := h.hor.ch_le; omega)
  have e1 : (fun a : Fin d.nx => m'.o.seqState.get 0 a) = fun a : Fin d.nx => x0.get a := funext fun a => ha.start a
  have e2 : (fun b : Fin d.nu => m'.o.seqInput.get 0 b) = fun b : Fin d.nu => r.cmd.get b := funext fun b => (hc b).symm
  rwa [e1, e2] at this

/-- C93. Over the whole horizon: if the model moves apart at most `L` times what its states are apart, the reported states are
within `tol (1 + L + ... + L^(k-1))` of the states `ξ` which the model goes through when the reported inputs are applied from
the measured state. -/
theorem c93_drift (h : NlAsked d dyn ops outs x0 u0 cs (.answered z value code false) m m' r call)
    (hu : ∀ op ∈ ops, UsableCall op) (ho : SetOnce ops) (hs : ScalesOk ops outs) (hin : InSolver d dyn ops outs m2 x0 cs' s)
    (hf : SolverFeasible m2.o s call z) {F : FVec d.nx K → FVec d.nu K → Nat → FVec d.nx K} {tol : K}
    (hm : last modelTolOf ops = some (F, tol)) (hd : last samplingOf ops = none) {L : K}
    (hL : ∀ x y u k M, (∀ a, |x a - y a| ≤ M) → ∀ a, |F x u k a - F y u k a| ≤ L * M)
    (ξ : Nat → FVec d.nx K) (h0 : ∀ a, ξ 0 a = x0.get a)
    (hξ : ∀ k, k < d.ph → ξ (k + 1) = F (ξ k) (fun b => m'.o.seqInput.get k b) k) :
    ∀ k, k ≤ d.ph → ∀ a : Fin d.nx, |m'.o.seqState.get k a - ξ k a| ≤ tol * ∑ i ∈ Finset.range k, L ^ i := by
  obtain ⟨ha, -, -⟩ := answer_allowed h hu ho hs hin hf
  obtain ⟨h1, -⟩ := c93_one_step h hu ho hs hin hf hm hd
  intro k
  induction k with
  | zero =>
    intro _ a
    have : m'.o.seqState.get 0 a = x0.get a := ha.start a
    rw [h0, this]
    simp
  | succ k ih =>
    intro hk a
    have h2 := h1 k a (by omega)
    have h3 := hL _ (ξ k) (fun b => m'.o.seqInput.get k b) k _ (fun a => ih (by omega) a) a
    rw [hξ k (by omega), Finset.sum_range_succ']
    have e : tol * (∑ i ∈ Finset.range k, L ^ (i + 1) + L ^ 0) = tol + L * (tol * ∑ i ∈ Finset.range k, L ^ i) := by
      rw [pow_zero, mul_add, mul_one, add_comm]
      congr 1
      rw [mul_left_comm]
      congr 1
      rw [Finset.mul_sum]
      exact Finset.sum_congr rfl fun i _ => pow_succ' L i
    rw [e]
    calc _ ≤ _ := abs_sub_le _ (F (fun a => m'.o.seqState.get k a) (fun b => m'.o.seqInput.get k b) k a) _
      _ ≤ _ := add_le_add h2 h3

/-- C93. With tolerance zero the reported states are exactly the simulation of the model. -/
theorem c93_exact (h : NlAsked d dyn ops outs x0 u0 cs (.answered z value code false) m m' r call)
    (hu : ∀ op ∈ ops, UsableCall op) (ho : SetOnce ops) (hs : ScalesOk ops outs) (hin : InSolver d dyn ops outs m2 x0 cs' s)
    (hf : SolverFeasible m2.o s call z) {F : FVec d.nx K → FVec d.nu K → Nat → FVec d.nx K}
    (hm : last modelTolOf ops = some (F, 0)) (hd : last samplingOf ops = none)
    (ξ : Nat → FVec d.nx K) (h0 : ∀ a, ξ 0 a = x0.get a)
    (hξ : ∀ k, k < d.ph → ξ (k + 1) = F (ξ k) (fun b => m'.o.seqInput.get k b) k) :
    ∀ k, k ≤ d.ph → ∀ a : Fin d.nx, m'.o.seqState.get k a = ξ k a := by
  obtain ⟨ha, -, -⟩ := answer_allowed h hu ho hs hin hf
  obtain ⟨h1, -⟩ := c93_one_step h hu ho hs hin hf hm hd
  intro k
  induction k with
  | zero => intro _ a; rw [h0]; exact ha.start a
  | succ k ih =>
    intro hk a
    have h2 := abs_nonpos_iff.1 (h1 k a (by omega))
    rw [hξ k (by omega), ← show (fun a : Fin d.nx => m'.o.seqState.get k a) = ξ k from funext fun a => ih (by omega) a]
    exact sub_eq_zero.1 h2

end

/-! ### the history of a loop configures what the history before it configures -/

section
variable {ops : List (NlCall d K)} {outs : List (NlOut K)} {T : Nat → Turn K}

theorem turn_last {α : Type} (g : NlCall d K → Option α) (hg : ∀ x u cs oc j, g (.optimize x u cs oc j) = none) :
    ∀ t, last g (turnOps ops T t) = last g ops
  | 0 => rfl
  | t + 1 => by
    unfold turnOps
    rw [NlSpec.last_snoc, hg, Option.none_or, turn_last g hg t]

theorem turn_length (hl : outs.length = ops.length) : ∀ t, (turnOuts outs T t).length = (turnOps ops T t).length
  | 0 => hl
  | t + 1 => by simp [turnOuts, turnOps, turn_length hl t]

theorem turn_zip (hl : outs.length = ops.length) {α : Type} (g : NlCall d K × NlOut K → Option α)
    (hg : ∀ x u cs oc j o, g (.optimize x u cs oc j, o) = none) :
    ∀ t, last g ((turnOps ops T t).zip (turnOuts outs T t)) = last g (ops.zip outs)
  | 0 => rfl
  | t + 1 => by
    unfold turnOps turnOuts
    rw [List.zip_append (turn_length hl t).symm, List.zip_cons_cons, List.zip_nil_right, NlSpec.last_snoc, hg, Option.none_or,
      turn_zip hl g hg t]

theorem turn_stateLimits (hl : outs.length = ops.length) (t k a : Nat) :
    stateLimits (turnOps ops T t) (turnOuts outs T t) k a = stateLimits ops outs k a := by
  unfold stateLimits
  rw [turn_zip hl _ (fun _ _ _ _ _ _ => rfl)]

theorem turn_inputLimits (hl : outs.length = ops.length) (t j b : Nat) :
    inputLimits (turnOps ops T t) (turnOuts outs T t) j b = inputLimits ops outs j b := by
  unfold inputLimits
  rw [turn_zip hl _ (fun _ _ _ _ _ _ => rfl)]

theorem turn_allowed (hl : outs.length = ops.length) (t : Nat) {x0 : Nat → K} {p : NlSpec.Plan d K} :
    Allowed (turnOps ops T t) (turnOuts outs T t) x0 p ↔ Allowed ops outs x0 p := by
  have e1 := turn_last (ops := ops) (T := T) modelTolOf (fun _ _ _ _ _ => rfl) t
  have e2 := turn_last (ops := ops) (T := T) samplingOf (fun _ _ _ _ _ => rfl) t
  have e3 := turn_last (ops := ops) (T := T) ineqConOf (fun _ _ _ _ _ => rfl) t
  have e4 := turn_last (ops := ops) (T := T) eqConOf (fun _ _ _ _ _ => rfl) t
  have e5 := turn_last (ops := ops) (T := T) outputOf (fun _ _ _ _ _ => rfl) t
  constructor
  · rintro ⟨h1, h2, h3, h4, h5, h6, h7, h8⟩
    simp only [turn_stateLimits hl, turn_inputLimits hl, e1, e2, e3, e4, e5] at h3 h4 h6 h7 h8
    exact ⟨h1, h2, h3, h4, h5, h6, h7, h8⟩
  · rintro ⟨h1, h2, h3, h4, h5, h6, h7, h8⟩
    refine ⟨h1, h2, ?_, ?_, h5, ?_, ?_, ?_⟩ <;> simp only [turn_stateLimits hl, turn_inputLimits hl, e1, e2, e3, e4, e5] <;> assumption

theorem turn_cost (t : Nat) (f : ObjFn d K) (p : NlSpec.Plan d K) :
    NlSpec.planCost f (turnOps ops T t) p = NlSpec.planCost f ops p := by
  unfold NlSpec.planCost
  rw [turn_last outputOf (fun _ _ _ _ _ => rfl)]

theorem turn_mem {t : Nat} {op : NlCall d K} (h : op ∈ turnOps ops T t) :
    op ∈ ops ∨ ∃ x u cs oc j, op = .optimize x u cs oc j := by
  induction t with
  | zero => exact .inl h
  | succ t ih =>
    rcases List.mem_append.1 h with h | h
    · exact ih h
    · exact .inr ⟨_, _, _, _, _, List.mem_singleton.1 h⟩

theorem turn_usable (hu : ∀ op ∈ ops, UsableCall op) (t : Nat) : ∀ op ∈ turnOps ops T t, UsableCall op := by
  intro op h
  rcases turn_mem h with h | ⟨_, _, _, _, _, rfl⟩
  · exact hu op h
  · trivial

theorem turn_once (ho : SetOnce ops) (t : Nat) : SetOnce (turnOps ops T t) := by
  refine ⟨fun op h => ?_, ?_⟩
  · rcases turn_mem h with h | ⟨_, _, _, _, _, rfl⟩
    · exact ho.accepted op h
    · simp [acceptedOf]
  · have : (turnOps ops T t).filterMap groupOf = ops.filterMap groupOf := by
      induction t with
      | zero => rfl
      | succ t ih => simp [turnOps, ih, groupOf]
    rw [this]
    exact ho.once

theorem turn_scales (hl : outs.length = ops.length) (hs : ScalesOk ops outs) (t : Nat) :
    ScalesOk (turnOps ops T t) (turnOuts outs T t) := by
  have e1 : stScale (turnOps ops T t) = stScale ops := by
    unfold stScale
    rw [turn_last _ (fun _ _ _ _ _ => rfl)]
  have e2 : inScale (turnOps ops T t) = inScale ops := by
    unfold inScale
    rw [turn_last _ (fun _ _ _ _ _ => rfl)]
  refine ⟨?_, ?_, ?_⟩
  · rw [e1]; exact hs.state
  · rw [e2]; exact hs.input
  · rw [e2]
    intro b hb h j hj
    rw [turn_inputLimits hl]
    exact hs.free b hb h j hj

end

/-! ### C94 -/

section
variable {dyn : Bool} {ops : List (NlCall d K)} {outs : List (NlOut K)} {T : Nat → Turn K} {N : Nat}
  {F : FVec d.nx K → FVec d.nu K → FVec d.nx K} {l : FVec d.nx K → FVec d.nu K → K} {V : FVec d.nx K → K}
  {Stage : FVec d.nx K → FVec d.nu K → Prop} {End : FVec d.nx K → Prop}

/-- the configuration of the loops below: slices as documented, each function set once and accepted, scaled inputs unbounded -/
structure Plain (ops : List (NlCall d K)) (outs : List (NlOut K)) : Prop where
  usable : ∀ op ∈ ops, UsableCall op
  once : SetOnce ops
  scales : ScalesOk ops outs

theorem loop_len {P : FVec d.nx K → FVec d.nu K → FVec d.nx K} (h : Loop d dyn ops outs P T N) (hN : 0 < N) :
    outs.length = ops.length ∧ HorizonsOk d := by
  obtain ⟨m, m', ha, -⟩ := h.asked 0 hN
  exact ⟨ha.toNlRan.len, ha.hor⟩

/-- what a usable answer in step `t` says -/
theorem turn_plan (h : Loop d dyn ops outs F T N) (hp : Plain ops outs) (hs : Staged ops outs F l V Stage End) {t : Nat} (ht : t < N)
    (hx : Answers d dyn ops outs T t) :
    Allowed ops outs (T t).x.get (reportedPlan d (T t).X (T t).U) ∧
    (∀ a : Fin d.nx, (T (t + 1)).x.get a = (T t).X.get 1 a) ∧
    (∀ a : Fin d.nx, (T (t + 1)).x.get a = F ((reportedPlan d (T t).X (T t).U).X 0) ((reportedPlan d (T t).X (T t).U).U 0) a) ∧
    (∀ a : Fin d.nx, (T t).x.get a = (reportedPlan d (T t).X (T t).U).X 0 a) ∧
    ∀ b : Fin d.nu, (T t).r.cmd.get b = (reportedPlan d (T t).X (T t).U).U 0 b := by
  obtain ⟨z, value, code, m2, cs, s, e, hin, hz⟩ := hx
  obtain ⟨m, m', ha, hX, hU⟩ := h.asked t ht
  obtain ⟨hl, hh⟩ := loop_len h (by omega)
  rw [e] at ha
  obtain ⟨h1, -, h2⟩ := answer_allowed ha (turn_usable hp.usable t) (turn_once hp.once t) (turn_scales hl hp.scales t) hin hz
  rw [turn_allowed hl, hX, hU] at h1
  rw [hU] at h2
  have hph : 0 < d.ph := by have := hh.ch_pos; have := hh.ch_le; omega
  have e1 : (fun a : Fin d.nx => (T t).x.get a) = (reportedPlan d (T t).X (T t).U).X 0 := funext fun a => (h1.start a).symm
  have e2 : (fun b : Fin d.nu => (T t).r.cmd.get b) = (reportedPlan d (T t).X (T t).U).U 0 := funext fun b => h2 b
  have h3 : ∀ a : Fin d.nx, (T (t + 1)).x.get a = F ((reportedPlan d (T t).X (T t).U).X 0) ((reportedPlan d (T t).X (T t).U).U 0) a := by
    intro a
    rw [h.plant t a ht, e1, e2]
  refine ⟨h1, fun a => ?_, h3, fun a => congrFun e1 a, h2⟩
  rw [h3 a]
  exact (congrFun (h1.follows hs ⟨0, hph⟩) a).symm

theorem turn_can_iff (h : Loop d dyn ops outs F T N) (hp : Plain ops outs) {t : Nat} (ht : t < N) :
    CanSolve d dyn ops outs T t ↔ ∃ p, Allowed ops outs (T t).x.get p := by
  obtain ⟨m, m', ha, hX, hU⟩ := h.asked t ht
  obtain ⟨hl, hh⟩ := loop_len h (by omega)
  constructor
  · rintro ⟨m2, cs, s, z, hin, hz⟩
    obtain ⟨p, hp'⟩ := (can_iff ha (turn_usable hp.usable t) (turn_once hp.once t) (turn_scales hl hp.scales t) hin).1 ⟨z, hz⟩
    exact ⟨p, (turn_allowed hl t).1 hp'⟩
  · rintro ⟨p, hp'⟩
    obtain ⟨s, hin⟩ := ha.inSolver
    obtain ⟨z, hz⟩ := (can_iff ha (turn_usable hp.usable t) (turn_once hp.once t) (turn_scales hl hp.scales t) hin).2
      ⟨p, (turn_allowed hl t).2 hp'⟩
    exact ⟨m, _, s, z, hin, hz⟩

/-- C94, one step: after a usable answer the next problem can be solved. -/
theorem c94_next (h : Loop d dyn ops outs F T N) (hp : Plain ops outs) (hs : Staged ops outs F l V Stage End)
    (he : NlSpec.EndKept ops outs F Stage End) {t : Nat} (ht : t + 1 < N) (hx : Answers d dyn ops outs T t) :
    CanSolve d dyn ops outs T (t + 1) := by
  obtain ⟨-, hh⟩ := loop_len h (by omega)
  have hcp := hh.ch_pos
  have hle := hh.ch_le
  obtain ⟨h1, -, h2, -⟩ := turn_plan h hp hs (by omega) hx
  obtain ⟨w, w1, w2, w3, w4⟩ := he _ _ (h1.atEnd (by omega) hs) (h1.inputOk hcp hle)
  exact (turn_can_iff h hp ht).2 ⟨_, h1.shift hcp hle hs h2 w1 w2 w3 w4⟩

/-- C94. Recursive feasibility: when the states allowed at the end of the horizon can be kept there and the solver answers
every problem that can be solved, then one solvable problem at the start is enough: every later problem of the closed loop can
be solved and is answered; the commands and the states of the plant respect the limits of the first step and the constraints
of a step; and the plant goes where the controller said it would. -/
theorem c94_recursive_feasibility (h : Loop d dyn ops outs F T N) (hp : Plain ops outs) (hs : Staged ops outs F l V Stage End)
    (he : NlSpec.EndKept ops outs F Stage End) (hx : ∀ t, t < N → CanSolve d dyn ops outs T t → Answers d dyn ops outs T t)
    (h0 : CanSolve d dyn ops outs T 0) :
    ∀ t, t < N → CanSolve d dyn ops outs T t ∧ Answers d dyn ops outs T t ∧
      (∀ a : Fin d.nx, within (stateLimits ops outs 0 a).1 (stateLimits ops outs 0 a).2 ((T (t + 1)).x.get a)) ∧
      (∀ b : Fin d.nu, within (inputLimits ops outs 0 b).1 (inputLimits ops outs 0 b).2 ((T t).r.cmd.get b)) ∧
      Stage (fun a => (T t).x.get a) (fun b => (T t).r.cmd.get b) ∧
      ∀ a : Fin d.nx, (T (t + 1)).x.get a = (T t).X.get 1 a := by
  have hf : ∀ t, t < N → CanSolve d dyn ops outs T t := by
    intro t
    induction t with
    | zero => exact fun _ => h0
    | succ t ih => exact fun hN => c94_next h hp hs he hN (hx t (by omega) (ih (by omega)))
  intro t ht
  refine ⟨hf t ht, hx t ht (hf t ht), ?_⟩
  obtain ⟨-, hh⟩ := loop_len h (by omega)
  have hcp := hh.ch_pos
  have hle := hh.ch_le
  obtain ⟨h1, h2, h3, h4, h5⟩ := turn_plan h hp hs ht (hx t ht (hf t ht))
  refine ⟨fun a => ?_, fun b => ?_, ?_, h2⟩
  · rw [h2 a]
    exact h1.states ⟨0, by omega⟩ a
  · rw [h5 b]
    exact h1.inputs 0 b hcp
  · rw [show (fun a : Fin d.nx => (T t).x.get a) = _ from funext h4, show (fun b : Fin d.nu => (T t).r.cmd.get b) = _ from funext h5]
    exact (h1.stages hs).1 ⟨0, by omega⟩

/-! ### C95 -/

theorem EndPays.kept (h : NlSpec.EndPays ops outs F l V Stage End) : NlSpec.EndKept ops outs F Stage End := fun x v hx hv => by
  obtain ⟨w, h1, h2, h3, h4, -⟩ := h x v hx hv
  exact ⟨w, h1, h2, h3, h4⟩

theorem _root_.Mpc.NlSpec.Solves.answers {ε : K} {t : Nat} (h : Solves d dyn ops outs T ε t) : Answers d dyn ops outs T t := by
  obtain ⟨z, value, code, m, cs, s, e, hin, hz⟩ := h
  exact ⟨z, value, code, m, cs, s, e, hin, hz.feasible⟩

/-- a good answer in step `t` is nearly best -/
theorem turn_near (h : Loop d dyn ops outs F T N) (hp : Plain ops outs) {f : ObjFn d K} (hf : last objectiveOf ops = some f) {ε : K}
    {t : Nat} (ht : t < N) (hx : Solves d dyn ops outs T ε t) {q : NlSpec.Plan d K} (hq : Allowed ops outs (T t).x.get q) :
    NlSpec.planCost f ops (reportedPlan d (T t).X (T t).U) ≤ NlSpec.planCost f ops q + ε := by
  obtain ⟨z, value, code, m2, cs, s, e, hin, hz⟩ := hx
  obtain ⟨m, m', ha, hX, hU⟩ := h.asked t ht
  obtain ⟨hl, -⟩ := loop_len h (by omega)
  rw [e] at ha
  have := answer_near ha (turn_usable hp.usable t) (turn_once hp.once t) (turn_scales hl hp.scales t) hin
    (f := f) (by rw [turn_last _ (fun _ _ _ _ _ => rfl)]; exact hf) hz q ((turn_allowed hl t).2 hq)
  rwa [turn_cost, turn_cost, hX, hU] at this

/-- C95, one step: the cost of the reported plan falls from step to step by at least the cost of the step just made, up to the
accuracy of the solver. -/
theorem c95_descends (h : Loop d dyn ops outs F T N) (hp : Plain ops outs) (hs : Staged ops outs F l V Stage End)
    (he : NlSpec.EndPays ops outs F l V Stage End) {f : ObjFn d K} (hf : last objectiveOf ops = some f) {ε : K} {t : Nat} (ht : t + 1 < N)
    (hx : Answers d dyn ops outs T t) (hx' : Solves d dyn ops outs T ε (t + 1)) :
    NlSpec.planCost f ops (reportedPlan d (T (t + 1)).X (T (t + 1)).U) ≤
      NlSpec.planCost f ops (reportedPlan d (T t).X (T t).U) - l (fun a => (T t).x.get a) (fun b => (T t).r.cmd.get b) + ε := by
  obtain ⟨-, hh⟩ := loop_len h (by omega)
  have hcp := hh.ch_pos
  have hle := hh.ch_le
  obtain ⟨h1, -, h2, h4, h5⟩ := turn_plan h hp hs (by omega) hx
  obtain ⟨w, w1, w2, w3, w4, w5⟩ := he _ _ (h1.atEnd (by omega) hs) (h1.inputOk hcp hle)
  have g1 := turn_near h hp hf ht hx' (h1.shift hcp hle hs h2 w1 w2 w3 w4)
  have g2 := planCost_shift (by omega) hs hf rfl w5
  rw [show (fun a : Fin d.nx => (T t).x.get a) = _ from funext h4, show (fun b : Fin d.nu => (T t).r.cmd.get b) = _ from funext h5]
  linarith

/-- C95. What the closed loop costs, over any number of steps, is at most the cost of any plan the first problem allows, plus
the accuracy of the solver for every step. -/
theorem c95_closed_loop_cost (h : Loop d dyn ops outs F T N) (hp : Plain ops outs) (hs : Staged ops outs F l V Stage End)
    (he : NlSpec.EndPays ops outs F l V Stage End) (hl : ∀ x u, 0 ≤ l x u) (hV : ∀ x, 0 ≤ V x) {f : ObjFn d K}
    (hf : last objectiveOf ops = some f) {ε : K} (hx : ∀ t, t < N → Solves d dyn ops outs T ε t) (q : NlSpec.Plan d K)
    (hq : Allowed ops outs (T 0).x.get q) (hN : 0 < N) :
    ∑ t ∈ Finset.range N, l (fun a => (T t).x.get a) (fun b => (T t).r.cmd.get b) ≤ NlSpec.planCost f ops q + N * ε := by
  have key : ∀ n, n < N → ∑ t ∈ Finset.range n, l (fun a => (T t).x.get a) (fun b => (T t).r.cmd.get b) +
      NlSpec.planCost f ops (reportedPlan d (T n).X (T n).U) ≤ NlSpec.planCost f ops q + (n + 1 : Nat) * ε := by
    intro n
    induction n with
    | zero =>
      intro h0
      have := turn_near h hp hf h0 (hx 0 h0) hq
      simpa using this
    | succ n ih =>
      intro hn
      have h1 := ih (by omega)
      have h2 := c95_descends h hp hs he hf hn (Solves.answers (hx n (by omega))) (hx (n + 1) hn)
      rw [Finset.sum_range_succ]
      push_cast at h1 ⊢
      linarith
  obtain ⟨n, rfl⟩ : ∃ n, N = n + 1 := ⟨N - 1, by omega⟩
  have h1 := key n (by omega)
  obtain ⟨h2, -, -, h4, h5⟩ := turn_plan (t := n) h hp hs (by omega) (Solves.answers (hx n (by omega)))
  rw [Finset.sum_range_succ]
  have h6 : l (fun a => (T n).x.get a) (fun b => (T n).r.cmd.get b) ≤ NlSpec.planCost f ops (reportedPlan d (T n).X (T n).U) := by
    obtain ⟨f', hf', hc⟩ := hs.cost
    obtain rfl : f' = f := Option.some.inj (hf'.symm.trans hf)
    have e1 : NlSpec.planCost f' ops (reportedPlan d (T n).X (T n).U) = _ := hc _ _
    rw [e1]
    obtain ⟨-, hh⟩ := loop_len h (by omega)
    have hcp := hh.ch_pos
    have hle := hh.ch_le
    rw [show (fun a : Fin d.nx => (T n).x.get a) = _ from funext h4, show (fun b : Fin d.nu => (T n).r.cmd.get b) = _ from funext h5]
    have g := Finset.single_le_sum (f := fun k : Fin d.ph => l ((reportedPlan d (T n).X (T n).U).X k.castSucc) ((reportedPlan d (T n).X (T n).U).U k.castSucc))
      (fun k _ => hl _ _) (Finset.mem_univ (⟨0, by omega⟩ : Fin d.ph))
    exact g.trans (le_add_of_nonneg_right (hV _))
  linarith

/-- C95. Convergence: when the solver answers exactly in a loop which goes on for ever, the cost of a step becomes small. -/
theorem c95_converges [Archimedean K] (h : ∀ N, Loop d dyn ops outs F T N) (hp : Plain ops outs)
    (hs : Staged ops outs F l V Stage End) (he : NlSpec.EndPays ops outs F l V Stage End) (hl : ∀ x u, 0 ≤ l x u) (hV : ∀ x, 0 ≤ V x)
    (hx : ∀ t, Solves d dyn ops outs T 0 t) {δ : K} (hδ : 0 < δ) :
    ∃ n, ∀ t, n ≤ t → l (fun a => (T t).x.get a) (fun b => (T t).r.cmd.get b) < δ := by
  obtain ⟨f, hf, -⟩ := hs.cost
  obtain ⟨h1, -⟩ := turn_plan (t := 0) (h 1) hp hs (by omega) (Solves.answers (hx 0))
  refine terms_small (B := NlSpec.planCost f ops (reportedPlan d (T 0).X (T 0).U)) (fun t => hl _ _) (fun N => ?_) hδ
  rcases Nat.eq_zero_or_pos N with rfl | hN
  · obtain ⟨f', hf', hc⟩ := hs.cost
    obtain rfl : f' = f := Option.some.inj (hf'.symm.trans hf)
    have e1 : NlSpec.planCost f' ops (reportedPlan d (T 0).X (T 0).U) = _ := hc _ _
    rw [e1, Finset.range_zero, Finset.sum_empty]
    exact add_nonneg (Finset.sum_nonneg fun k _ => hl _ _) (hV _)
  · have := c95_closed_loop_cost (h N) hp hs he hl hV hf (fun t _ => hx t) _ h1 hN
    simpa using this

end
end Mpc.Props
