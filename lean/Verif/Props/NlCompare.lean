import Verif.Spec.NlCompare
import Verif.Props.NlLoopBuild

/-
C96, C97, C98: what changes, and what does not, when a nonlinear controller is configured differently.
-/
namespace Mpc.Props
open Mpc.NlSpec Exec
open Mpc.Spec (within IsBest)
set_option linter.unusedSectionVars false

section
variable {d : Dims} {K : Type} [Field K] [LinearOrder K] [IsStrictOrderedRing K]
variable {dyn dyn' : Bool} {ops ops' : List (NlCall d K)} {outs outs' : List (NlOut K)} {m1 m1' m2 m2' mi mi' : NlMpc d K}
  {x0 y0 u0 v0 : Vec K} {cs cs' ci ci' : List (NlCallback K)} {oc oc' : NlOutcome K} {r r' : LResult K} {call call' : NlSolverCall K}
  {s s' : NlState d K} {z z' : Vec K} {value value' : Ext K} {code code' : Int}

/-- a plan the stricter history allows is allowed by the other one -/
theorem _root_.Mpc.NlSpec.Relaxed.allowed (hr : Relaxed ops outs ops' outs') {x0 : Nat → K} {p : NlSpec.Plan d K} (hp : Allowed ops outs x0 p) :
    Allowed ops' outs' x0 p := by
  refine ⟨hp.start, hp.blocked, fun k a => hr.states k a _ k.2 a.2 (hp.states k a),
    fun j b hj => hr.inputs j b _ hj b.2 (hp.inputs j b hj), hp.hard, fun F tol hF k a => ?_, fun F tol hF i => ?_, fun F tol hF i => ?_⟩
  · obtain ⟨tol', h1, h2⟩ := hr.model F tol hF
    rw [hr.sampling]
    exact (hp.model F tol' h1 k a).trans h2
  · obtain ⟨tol', h1, h2⟩ := hr.ineq F tol hF
    rw [hr.output]
    exact (hp.ineq F tol' h1 i).trans h2
  · obtain ⟨tol', h1, h2⟩ := hr.eq F tol hF
    exact (hp.eq F tol' h1 i).trans h2

/-- an exact answer: the reported plan is best -/
theorem answer_best (h : NlAsked d dyn ops outs x0 u0 cs (.answered z value code false) m1 m1' r call)
    (hp : Plain ops outs) (hin : InSolver d dyn ops outs mi x0 ci s)
    {f : ObjFn d K} (hf : last objectiveOf ops = some f) (hb : SolverBest mi.o s call z) :
    IsBest (Allowed ops outs x0.get) (NlSpec.planCost f ops) (reportedPlan d m1'.o.seqState m1'.o.seqInput) := by
  refine ⟨(answer_allowed h hp.usable hp.once hp.scales hin hb.feasible).1, fun q hq => ?_⟩
  have := answer_near h hp.usable hp.once hp.scales hin hf (ε := 0)
    ⟨hb.feasible, fun z' hz' w w' j j' v v' G G' s1 s2 e1 e2 => by rw [add_zero]; exact hb.best z' hz' w w' j j' v v' G G' s1 s2 e1 e2⟩ q hq
  rwa [add_zero] at this

/-! ### C96 -/

/-- C96. Relaxing limits, tolerances or constraints never makes a problem unsolvable. -/
theorem c96_solvable (h : NlAsked d dyn ops outs x0 u0 cs oc m1 m1' r call) (h' : NlAsked d dyn' ops' outs' x0 v0 cs' oc' m2 m2' r' call')
    (hp : Plain ops outs) (hp' : Plain ops' outs') (hr : Relaxed ops outs ops' outs')
    (hin : InSolver d dyn ops outs mi x0 ci s) (hin' : InSolver d dyn' ops' outs' mi' x0 ci' s')
    (hz : ∃ z, SolverFeasible mi.o s call z) : ∃ z, SolverFeasible mi'.o s' call' z := by
  obtain ⟨p, hp1⟩ := (can_iff h hp.usable hp.once hp.scales hin).1 hz
  exact (can_iff h' hp'.usable hp'.once hp'.scales hin').2 ⟨p, hr.allowed hp1⟩

/-- C96. Nor does it make the best plan worse: with exact answers and the same objective, the reported plan of the relaxed
problem costs at most what that of the stricter one costs, and even at most what any usable answer to it costs. -/
theorem c96_no_worse (h : NlAsked d dyn ops outs x0 u0 cs (.answered z value code false) m1 m1' r call)
    (h' : NlAsked d dyn' ops' outs' x0 v0 cs' (.answered z' value' code' false) m2 m2' r' call')
    (hp : Plain ops outs) (hp' : Plain ops' outs') (hr : Relaxed ops outs ops' outs')
    (hin : InSolver d dyn ops outs mi x0 ci s) (hin' : InSolver d dyn' ops' outs' mi' x0 ci' s')
    {f : ObjFn d K} (hf' : last objectiveOf ops' = some f)
    (hz : SolverFeasible mi.o s call z) (hz' : SolverBest mi'.o s' call' z') :
    NlSpec.planCost f ops (reportedPlan d m2'.o.seqState m2'.o.seqInput) ≤
      NlSpec.planCost f ops (reportedPlan d m1'.o.seqState m1'.o.seqInput) := by
  have h1 := (answer_allowed h hp.usable hp.once hp.scales hin hz).1
  have h2 := (answer_best h' hp' hin' hf' hz').2 _ (hr.allowed h1)
  unfold NlSpec.planCost at h2 ⊢
  rwa [hr.output] at h2

/-- C96. Limits and constraints which the best plan of the relaxed problem respects anyway cost nothing: that plan is then a
best plan of the stricter problem too. -/
theorem c96_inactive (h' : NlAsked d dyn' ops' outs' x0 v0 cs' (.answered z' value' code' false) m2 m2' r' call')
    (hp' : Plain ops' outs') (hr : Relaxed ops outs ops' outs') (hin' : InSolver d dyn' ops' outs' mi' x0 ci' s')
    {f : ObjFn d K} (hf' : last objectiveOf ops' = some f) (hz' : SolverBest mi'.o s' call' z')
    (hok : Allowed ops outs x0.get (reportedPlan d m2'.o.seqState m2'.o.seqInput)) :
    IsBest (Allowed ops outs x0.get) (NlSpec.planCost f ops) (reportedPlan d m2'.o.seqState m2'.o.seqInput) := by
  refine ⟨hok, fun q hq => ?_⟩
  have h2 := (answer_best h' hp' hin' hf' hz').2 _ (hr.allowed hq)
  unfold NlSpec.planCost at h2 ⊢
  rwa [hr.output] at h2

/-! ### C97 -/

/-- C97. Only the configured task and the measured state matter: two controllers (with dimensions given at run time or not)
whose histories ask the same of a plan and set the same objective report plans of the same cost when their solvers answer
exactly; if the task has only one best plan, both report it and return the same command, whatever happened before (other
settings since replaced, earlier calls of `optimize`, the last command, warm start). -/
theorem c97_task (h : NlAsked d dyn ops outs x0 u0 cs (.answered z value code false) m1 m1' r call)
    (h' : NlAsked d dyn' ops' outs' y0 v0 cs' (.answered z' value' code' false) m2 m2' r' call')
    (hp : Plain ops outs) (hp' : Plain ops' outs') (h1 : Relaxed ops outs ops' outs') (h2 : Relaxed ops' outs' ops outs)
    (hx : ∀ a, a < d.nx → x0.get a = y0.get a)
    (hin : InSolver d dyn ops outs mi x0 ci s) (hin' : InSolver d dyn' ops' outs' mi' y0 ci' s')
    {f : ObjFn d K} (hf : last objectiveOf ops = some f) (hf' : last objectiveOf ops' = some f)
    (hz : SolverBest mi.o s call z) (hz' : SolverBest mi'.o s' call' z') :
    NlSpec.planCost f ops (reportedPlan d m1'.o.seqState m1'.o.seqInput) =
      NlSpec.planCost f ops (reportedPlan d m2'.o.seqState m2'.o.seqInput) ∧
    ((∃ p, OnlyBest (Allowed ops outs x0.get) (NlSpec.planCost f ops) p) →
      (∀ k a, k ≤ d.ph → a < d.nx → m1'.o.seqState.get k a = m2'.o.seqState.get k a) ∧
      (∀ k b, k ≤ d.ph → b < d.nu → m1'.o.seqInput.get k b = m2'.o.seqInput.get k b) ∧
      ∀ b, b < d.nu → r.cmd.get b = r'.cmd.get b) := by
  have hst : ∀ {ops : List (NlCall d K)} {outs : List (NlOut K)} {p : NlSpec.Plan d K}, Allowed ops outs x0.get p ↔ Allowed ops outs y0.get p := by
    intro ops outs p
    have e : (∀ a : Fin d.nx, p.X 0 a = x0.get a) ↔ ∀ a : Fin d.nx, p.X 0 a = y0.get a :=
      forall_congr' fun a => by rw [hx a a.2]
    exact ⟨fun hq => ⟨e.1 hq.start, hq.blocked, hq.states, hq.inputs, hq.hard, hq.model, hq.ineq, hq.eq⟩,
      fun hq => ⟨e.2 hq.start, hq.blocked, hq.states, hq.inputs, hq.hard, hq.model, hq.ineq, hq.eq⟩⟩
  have ec : ∀ p, NlSpec.planCost f ops' p = NlSpec.planCost f ops p := fun p => by unfold NlSpec.planCost; rw [h1.output]
  have b1 := answer_best h hp hin hf hz
  have b2 := answer_best h' hp' hin' hf' hz'
  have b2' : IsBest (Allowed ops outs x0.get) (NlSpec.planCost f ops) (reportedPlan d m2'.o.seqState m2'.o.seqInput) := by
    refine ⟨hst.2 (h2.allowed b2.1), fun q hq => ?_⟩
    have := b2.2 q (hst.1 (h1.allowed hq))
    rwa [ec, ec] at this
  refine ⟨le_antisymm (b1.2 _ b2'.1) (b2'.2 _ b1.1), ?_⟩
  rintro ⟨p, -, hu⟩
  have e : reportedPlan d m1'.o.seqState m1'.o.seqInput = reportedPlan d m2'.o.seqState m2'.o.seqInput := (hu _ b1).trans (hu _ b2').symm
  have eX : ∀ k a, k ≤ d.ph → a < d.nx → m1'.o.seqState.get k a = m2'.o.seqState.get k a := fun k a hk ha =>
    congrFun (congrFun (congrArg NlSpec.Plan.X e) ⟨k, by omega⟩) ⟨a, ha⟩
  have eU : ∀ k b, k ≤ d.ph → b < d.nu → m1'.o.seqInput.get k b = m2'.o.seqInput.get k b := fun k b hk hb =>
    congrFun (congrFun (congrArg NlSpec.Plan.U e) ⟨k, by omega⟩) ⟨b, hb⟩
  refine ⟨eX, eU, fun b hb => ?_⟩
  have c1 := (answer_allowed h hp.usable hp.once hp.scales hin hz.feasible).2.2 ⟨b, hb⟩
  have c2 := (answer_allowed h' hp'.usable hp'.once hp'.scales hin' hz'.feasible).2.2 ⟨b, hb⟩
  exact c1.trans ((eU 0 b (by omega) hb).trans c2.symm)

/-! ### C98 -/

/-- C98. Only the order of the costs matters: when a second history asks the same but its objective is an increasing function
`φ` of the first one (such as a multiple of it, or its sum with a constant), an exact answer to one problem reports a best plan
of the other; if there is only one best plan, both return the same command. -/
theorem c98_order (h : NlAsked d dyn ops outs x0 u0 cs (.answered z value code false) m1 m1' r call)
    (h' : NlAsked d dyn' ops' outs' x0 v0 cs' (.answered z' value' code' false) m2 m2' r' call')
    (hp : Plain ops outs) (hp' : Plain ops' outs') (h1 : Relaxed ops outs ops' outs') (h2 : Relaxed ops' outs' ops outs)
    (hin : InSolver d dyn ops outs mi x0 ci s) (hin' : InSolver d dyn' ops' outs' mi' x0 ci' s')
    {f : ObjFn d K} {φ : K → K} (hφ : StrictMono φ) (hf : last objectiveOf ops = some f)
    (hf' : last objectiveOf ops' = some fun X Y U e => φ (f X Y U e))
    (hz : SolverBest mi.o s call z) (hz' : SolverBest mi'.o s' call' z') :
    IsBest (Allowed ops outs x0.get) (NlSpec.planCost f ops) (reportedPlan d m2'.o.seqState m2'.o.seqInput) ∧
    NlSpec.planCost f ops (reportedPlan d m1'.o.seqState m1'.o.seqInput) =
      NlSpec.planCost f ops (reportedPlan d m2'.o.seqState m2'.o.seqInput) ∧
    ((∃ p, OnlyBest (Allowed ops outs x0.get) (NlSpec.planCost f ops) p) → ∀ b, b < d.nu → r.cmd.get b = r'.cmd.get b) := by
  have ec : ∀ p, NlSpec.planCost (fun X Y U e => φ (f X Y U e)) ops' p = φ (NlSpec.planCost f ops p) := fun p => by
    unfold NlSpec.planCost; rw [h1.output]
  have b1 := answer_best h hp hin hf hz
  have b2 := answer_best h' hp' hin' hf' hz'
  have b2' : IsBest (Allowed ops outs x0.get) (NlSpec.planCost f ops) (reportedPlan d m2'.o.seqState m2'.o.seqInput) := by
    refine ⟨h2.allowed b2.1, fun q hq => ?_⟩
    have := b2.2 q (h1.allowed hq)
    rw [ec, ec] at this
    exact hφ.le_iff_le.1 this
  refine ⟨b2', le_antisymm (b1.2 _ b2'.1) (b2'.2 _ b1.1), ?_⟩
  rintro ⟨p, -, hu⟩ b hb
  have e : reportedPlan d m1'.o.seqState m1'.o.seqInput = reportedPlan d m2'.o.seqState m2'.o.seqInput := (hu _ b1).trans (hu _ b2').symm
  have c1 := (answer_allowed h hp.usable hp.once hp.scales hin hz.feasible).2.2 ⟨b, hb⟩
  have c2 := (answer_allowed h' hp'.usable hp'.once hp'.scales hin' hz'.feasible).2.2 ⟨b, hb⟩
  have eU : m1'.o.seqInput.get 0 b = m2'.o.seqInput.get 0 b := congrFun (congrFun (congrArg NlSpec.Plan.U e) ⟨0, by omega⟩) ⟨b, hb⟩
  exact c1.trans (eU.trans c2.symm)

end

/-! ### samples -/

/-- as `opsL`, with input bounds `B` and another objective -/
def opsG (B c1 c0 : ℚ) : List (NlCall dL ℚ) :=
  [ .setStateSpaceFunction (fun x u _ _ => x 0 * x 0 + u 0) 0 true,
    .setObjectiveFunction (fun X _ _ _ => c1 * (X 0 0 * X 0 0 + X 1 0 * X 1 0) + c0) true,
    .setEqConFunction (fun X _ _ => X 2 0) 0 true,
    .setInputBounds ⟨1, 2, fun _ _ => .fin (-B)⟩ ⟨1, 2, fun _ _ => .fin B⟩ ]

/-- with bounds which were accepted -/
def outsG : List (NlOut ℚ) := [.bool true, .bool true, .bool true, .bool true]

theorem opsG_inputLimits (B c1 c0 : ℚ) (j b : Nat) : inputLimits (opsG B c1 c0) outsG j b = (.fin (-B), .fin B) := by
  simp [inputLimits, opsG, outsG, last, inputBox]

theorem opsG_stateLimits (B c1 c0 : ℚ) (k a : Nat) : stateLimits (opsG B c1 c0) outsG k a = (.negInf, .posInf) := by
  simp [stateLimits, opsG, outsG, last, stateBox]

theorem opsG_plain (B c1 c0 : ℚ) : Plain (opsG B c1 c0) outsG := by
  refine ⟨?_, ⟨?_, ?_⟩, ⟨?_, ?_, ?_⟩⟩
  · intro op h
    simp only [opsG, List.mem_cons, List.not_mem_nil, or_false] at h
    rcases h with rfl | rfl | rfl | rfl <;> trivial
  · intro op h
    simp only [opsG, List.mem_cons, List.not_mem_nil, or_false] at h
    rcases h with rfl | rfl | rfl | rfl <;> simp [acceptedOf]
  · show [NlGroupKind.dynamics, NlGroupKind.userEq].Nodup
    decide
  · intro a _; simp [opsG, stScale, last, stScaleOf]
  · intro b _; simp [opsG, inScale, last, inScaleOf]
  · intro b _ h; exact absurd (by simp [opsG, inScale, last, inScaleOf]) h

/-- the smaller the bounds the stricter -/
theorem opsG_relaxed {B B' c1 c0 c1' c0' : ℚ} (h : B ≤ B') : Relaxed (opsG B c1 c0) outsG (opsG B' c1' c0') outsG := by
  refine ⟨fun k a v _ _ hv => ?_, fun j b v _ _ hv => ?_, fun F tol hF => ⟨tol, hF, le_refl _⟩, fun F tol hF => ⟨tol, hF, le_refl _⟩,
    fun F tol hF => ⟨tol, hF, le_refl _⟩, rfl, rfl⟩
  · rw [opsG_stateLimits] at hv ⊢
    exact hv
  · rw [opsG_inputLimits] at hv ⊢
    have h1 : -B ≤ v := hv.1
    have h2 : v ≤ B := hv.2
    exact ⟨show -B' ≤ v by linarith, show v ≤ B' by linarith⟩

/-- the best plan from state 1: command -1, then rest at 0 -/
def planG : NlSpec.Plan dL ℚ := ⟨fun k _ => if (k : Nat) = 0 then 1 else 0, fun k _ => if (k : Nat) = 0 then -1 else 0, 0⟩

theorem opsG_best {B c1 c0 : ℚ} (hB : 1 ≤ B) (hc : 0 < c1) : OnlyBest (Allowed (opsG B c1 c0) outsG (xL 0).get)
    (NlSpec.planCost (fun X _ _ _ => c1 * (X 0 0 * X 0 0 + X 1 0 * X 1 0) + c0) (opsG B c1 c0)) planG := by
  have hst : ∀ q : NlSpec.Plan dL ℚ, Allowed (opsG B c1 c0) outsG (xL 0).get q → q.X 0 0 = 1 := fun q hq => hq.start 0
  have hall : Allowed (opsG B c1 c0) outsG (xL 0).get planG := by
    refine ⟨fun a => rfl, fun k j b hj => ?_, fun k a => ?_, fun j b _ => ?_, rfl, fun F tol hF k a => ?_, fun F tol hF => ?_, fun F tol hF i => ?_⟩
    · show (if (k : Nat) = 0 then (-1 : ℚ) else 0) = if (j : Nat) = 0 then -1 else 0
      have : ((j : Nat) = 0) = ((k : Nat) = 0) := by
        change (j : Nat) = min (k : Nat) 1 at hj
        apply propext
        constructor <;> intro <;> omega
      simp only [this]
    · rw [opsG_stateLimits]; exact ⟨trivial, trivial⟩
    · rw [opsG_inputLimits]
      refine ⟨show -B ≤ (if (j : Nat) = 0 then (-1 : ℚ) else 0) from ?_, show (if (j : Nat) = 0 then (-1 : ℚ) else 0) ≤ B from ?_⟩ <;>
        split_ifs <;> linarith
    · obtain ⟨rfl, rfl⟩ := Prod.mk.inj (Option.some.inj (show some (_, _) = some (F, tol) from hF))
      rw [abs_nonpos_iff]
      have hk : (k : Nat) < 2 := k.2
      have hsm : last samplingOf (opsG B c1 c0) = none := rfl
      rw [hsm]
      unfold modelError
      simp only [Option.isSome_none, Bool.false_eq_true, if_false]
      match k, hk with
      | ⟨0, _⟩, _ => norm_num [planG]
      | ⟨1, _⟩, _ =>
        show (0 : ℚ) - (0 * 0 + 0) = 0
        norm_num
    · exact absurd (show none = some (F, tol) from hF) (by simp)
    · obtain ⟨rfl, rfl⟩ := Prod.mk.inj (Option.some.inj (show some (_, _) = some (F, tol) from hF))
      rw [abs_nonpos_iff]
      rfl
  have hcost : NlSpec.planCost (fun X _ _ _ => c1 * (X 0 0 * X 0 0 + X 1 0 * X 1 0) + c0) (opsG B c1 c0) planG = c1 + c0 := by
    show c1 * (1 * 1 + 0 * 0) + c0 = _
    ring
  refine ⟨⟨hall, fun q hq => ?_⟩, fun q hq => ?_⟩
  · rw [hcost]
    show _ ≤ c1 * (q.X 0 0 * q.X 0 0 + q.X 1 0 * q.X 1 0) + c0
    rw [hst q hq]
    nlinarith [mul_self_nonneg (q.X 1 0)]
  · have h1 := hq.2 planG hall
    rw [hcost] at h1
    change c1 * (q.X 0 0 * q.X 0 0 + q.X 1 0 * q.X 1 0) + c0 ≤ c1 + c0 at h1
    have h0 := hst q hq.1
    rw [h0] at h1
    have hx1 : q.X 1 0 = 0 := by
      have : c1 * (q.X 1 0 * q.X 1 0) ≤ 0 := by linarith
      have h2 : q.X 1 0 * q.X 1 0 ≤ 0 := by
        by_contra hn
        exact absurd this (not_le.2 (mul_pos hc (not_le.1 hn)))
      exact mul_self_eq_zero.1 (le_antisymm h2 (mul_self_nonneg _))
    have hx2 : q.X 2 0 = 0 := abs_nonpos_iff.1 (hq.1.eq _ _ rfl 0)
    have hm : ∀ k : Fin 2, q.X k.succ 0 - (q.X k.castSucc 0 * q.X k.castSucc 0 + q.U k.castSucc 0) = 0 := fun k => by
      have := hq.1.model _ _ (show last modelTolOf (opsG B c1 c0) = some (fun x u _ _ => x 0 * x 0 + u 0, 0) from rfl) k 0
      exact abs_nonpos_iff.1 this
    have m0 : q.X 1 0 - (q.X 0 0 * q.X 0 0 + q.U 0 0) = 0 := hm 0
    have m1 : q.X 2 0 - (q.X 1 0 * q.X 1 0 + q.U 1 0) = 0 := hm 1
    have hu0 : q.U 0 0 = -1 := by rw [h0, hx1] at m0; linarith
    have hu1 : q.U 1 0 = 0 := by rw [hx1, hx2] at m1; linarith
    have hu2 : q.U 2 0 = 0 := by rw [hq.1.blocked 2 1 0 rfl]; exact hu1
    have he := hq.1.hard
    obtain ⟨X, U, e⟩ := q
    show NlSpec.Plan.mk X U e = NlSpec.Plan.mk _ _ _
    congr 1
    · funext k a
      obtain rfl : a = 0 := Fin.ext (by have : (a : Nat) < 1 := a.2; simp)
      match k with
      | ⟨0, _⟩ => exact h0
      | ⟨1, _⟩ => exact hx1
      | ⟨2, _⟩ => exact hx2
    · funext k b
      obtain rfl : b = 0 := Fin.ext (by have : (b : Nat) < 1 := b.2; simp)
      match k with
      | ⟨0, _⟩ => exact hu0
      | ⟨1, _⟩ => exact hu1
      | ⟨2, _⟩ => exact hu2

/-- an exact answer for the sample -/
theorem opsG_asked {B c1 c0 : ℚ} (hB : 1 ≤ B) (hc : 0 < c1) : ∃ m m' r call s,
    NlAsked dL false (opsG B c1 c0) outsG (xL 0) (uL 0) [] (.answered (zL 0) (.fin 0) 1 false) m m' r call ∧
    InSolver dL false (opsG B c1 c0) outsG m (xL 0) [] s ∧ SolverBest m.o s call (zL 0) := by
  obtain ⟨outs, m, h0⟩ := nlRan_exists (K := ℚ) (d := dL) (dyn := false) (ops := opsG B c1 c0) dL_ok (by decide) (by decide)
    (fun _ => 0) (by simp [opsG, CallFits]) (fun p op q e => admFrom_split (pre := []) (by
      simp only [opsG, AdmFrom, Admissible, true_and, and_true]
      decide) p op q e)
  have hl := h0.len
  have hok := h0.outOk
  obtain ⟨o1, o2, o3, o4, rfl⟩ := length_four (show outs.length = 4 from hl)
  have e1 : o1 = .bool true := hok (.setStateSpaceFunction (fun x u _ _ => x 0 * x 0 + u 0) 0 true, o1) (by simp [opsG])
  have e2 : o2 = .bool true := hok (.setObjectiveFunction (fun X _ _ _ => c1 * (X 0 0 * X 0 0 + X 1 0 * X 1 0) + c0) true, o2) (by simp [opsG])
  have e3 : o3 = .bool true := hok (.setEqConFunction (fun X _ _ => X 2 0) 0 true, o3) (by simp [opsG])
  have e4 : o4 = .bool true := hok (.setInputBounds ⟨1, 2, fun _ _ => .fin (-B)⟩ ⟨1, 2, fun _ _ => .fin B⟩, o4) (by simp [opsG])
  subst e1 e2 e3 e4
  obtain ⟨m', r, call, h⟩ := h0.asks (x0 := xL 0) (u0 := uL 0) (oc := .answered (zL 0) (.fin 0) 1 false) rfl rfl
    (by rintro _ _ _ _ ⟨⟩; rfl) (by decide)
  obtain ⟨s, hin⟩ := h.inSolver
  refine ⟨m, m', r, call, s, h, hin, ?_⟩
  have hp := opsG_plain B c1 c0
  refine (c65_optimal_partial h hp.usable hp.once hp.scales (f := fun X _ _ _ => c1 * (X 0 0 * X 0 0 + X 1 0 * X 1 0) + c0) rfl hin).1.2 ?_
  obtain ⟨-, hS, hI, -⟩ := c58_sequences_partial h rfl
  have e : (⟨fun k a => m'.o.seqState.get k a, fun k b => m'.o.seqInput.get k b, (zL 0).get (slackIx dL)⟩ : NlSpec.Plan dL ℚ) = planG := by
    show NlSpec.Plan.mk _ _ _ = NlSpec.Plan.mk _ _ _
    congr 1
    · funext k a
      rw [hS k a (by omega) a.2]
      by_cases hk : (k : Nat) = 0
      · rw [if_pos hk, if_pos hk]
        simp [opsG, stScale, last, stScaleOf, xL, nvec]
      · have ha : (a : Nat) < 1 := a.2
        have hk' : (k : Nat) < 3 := k.2
        rw [if_neg hk, if_neg hk, stateAt, if_neg hk, stateIx]
        show 1 * (if 0 = 0 ∧ ((k : Nat) - 1) * 1 + a = 2 then (-1 : ℚ) else 0) = 0
        rw [if_neg (by omega), mul_zero]
    · funext k b
      have hb : (b : Nat) < 1 := b.2
      rw [hI k b (by omega) b.2, inputAt, inputIx]
      show 1 * (if 0 = 0 ∧ 2 + (min (k : Nat) 1 * 1 + b) = 2 then (-1 : ℚ) else 0) = _
      rw [one_mul]
      congr 1
      apply propext
      constructor
      · rintro ⟨-, h2⟩; omega
      · intro h2; exact ⟨rfl, by omega⟩
  rw [e]
  exact (opsG_best hB hc).1

/-- C96 applied: input bounds 1 and 3 -/
example : ∃ m1' m2' : NlMpc dL ℚ,
    NlSpec.planCost (fun X _ _ _ => 1 * (X 0 0 * X 0 0 + X 1 0 * X 1 0) + 0) (opsG 1 1 0) (reportedPlan dL m2'.o.seqState m2'.o.seqInput) ≤
    NlSpec.planCost (fun X _ _ _ => 1 * (X 0 0 * X 0 0 + X 1 0 * X 1 0) + 0) (opsG 1 1 0) (reportedPlan dL m1'.o.seqState m1'.o.seqInput) := by
  obtain ⟨_, m1', _, _, _, h, hin, hb⟩ := opsG_asked (B := 1) (c1 := 1) (c0 := 0) (le_refl _) (by norm_num)
  obtain ⟨_, m2', _, _, _, h', hin', hb'⟩ := opsG_asked (B := 3) (c1 := 1) (c0 := 0) (by norm_num) (by norm_num)
  exact ⟨m1', m2', c96_no_worse h h' (opsG_plain _ _ _) (opsG_plain _ _ _) (opsG_relaxed (by norm_num)) hin hin' rfl hb.feasible hb'⟩

/-- C97 applied: two steps of the sample loop in the same state, after different histories -/
example : ∃ outs T, (T 1).x.get 0 = 0 ∧ (T 2).x.get 0 = 0 ∧ Loop dL false opsL outs modelL T 3 ∧
    NlSpec.planCost (fun X _ _ _ => X 0 0 * X 0 0 + X 1 0 * X 1 0) opsL (reportedPlan dL (T 1).X (T 1).U) =
    NlSpec.planCost (fun X _ _ _ => X 0 0 * X 0 0 + X 1 0 * X 1 0) opsL (reportedPlan dL (T 2).X (T 2).U) := by
  obtain ⟨outs, T, h, hp, hs, he, hx, h0, h1, hc⟩ := opsL_loop
  have hl : outs.length = opsL.length := (loop_len (h 1) (by omega)).1
  have h2 : (T 2).x.get 0 = 0 := by
    have a1 := turn_plan (t := 1) (h 2) hp hs (by omega) (Solves.answers (hx 1))
    have e1 := a1.2.1 0
    have e2 : (T 1).X.get 1 0 * (T 1).X.get 1 0 ≤ 0 := by
      have d1 := c95_descends (t := 0) (h 2) hp hs he (f := fun X _ _ _ => X 0 0 * X 0 0 + X 1 0 * X 1 0) rfl (by omega) (Solves.answers (hx 0)) (hx 1)
      have d2 := turn_plan (t := 0) (h 2) hp hs (by omega) (Solves.answers (hx 0))
      have d3 := d2.2.1 0
      have d4 := d2.2.2.2.1 0
      change (T (0 + 1)).X.get 0 0 * (T (0 + 1)).X.get 0 0 + (T (0 + 1)).X.get 1 0 * (T (0 + 1)).X.get 1 0 ≤
        (T 0).X.get 0 0 * (T 0).X.get 0 0 + (T 0).X.get 1 0 * (T 0).X.get 1 0 - (T 0).x.get 0 * (T 0).x.get 0 + 0 at d1
      change (T (0 + 1)).x.get 0 = (T 0).X.get 1 0 at d3
      change (T 0).x.get 0 = (T 0).X.get 0 0 at d4
      rw [← d3, ← d4] at d1
      simp only [Nat.zero_add] at d1
      rw [h1] at d1
      nlinarith [mul_self_nonneg ((T 1).X.get 0 0)]
    have e3 : (T 2).x.get 0 = (T 1).X.get 1 0 := e1
    rw [e3]
    exact mul_self_eq_zero.1 (le_antisymm e2 (mul_self_nonneg _))
  refine ⟨outs, T, h1, h2, h 3, ?_⟩
  obtain ⟨z1, v1, c1, mi1, cs1, s1, o1, hin1, hn1⟩ := hx 1
  obtain ⟨z2, v2, c2, mi2, cs2, s2, o2, hin2, hn2⟩ := hx 2
  obtain ⟨m1, m1', a1, hX1, hU1⟩ := (h 3).asked 1 (by omega)
  obtain ⟨m2, m2', a2, hX2, hU2⟩ := (h 3).asked 2 (by omega)
  rw [o1] at a1
  rw [o2] at a2
  have rel : ∀ i j, Relaxed (turnOps opsL T i) (turnOuts outs T i) (turnOps opsL T j) (turnOuts outs T j) := by
    intro i j
    refine ⟨fun k a v _ _ hv => ?_, fun k b v _ _ hv => ?_, fun F tol hF => ⟨tol, ?_, le_refl _⟩, fun F tol hF => ⟨tol, ?_, le_refl _⟩,
      fun F tol hF => ⟨tol, ?_, le_refl _⟩, ?_, ?_⟩
    · rw [turn_stateLimits hl] at hv ⊢; exact hv
    · rw [turn_inputLimits hl] at hv ⊢; exact hv
    all_goals first
      | (rw [turn_last _ (fun _ _ _ _ _ => rfl)] at hF ⊢; exact hF)
      | rw [turn_last _ (fun _ _ _ _ _ => rfl), turn_last _ (fun _ _ _ _ _ => rfl)]
  have pl : ∀ i, Plain (turnOps opsL T i) (turnOuts outs T i) := fun i =>
    ⟨turn_usable hp.usable i, turn_once hp.once i, turn_scales hl hp.scales i⟩
  have best : ∀ {o : NlOpt ℚ} {s : NlState dL ℚ} {call z}, SolverNear o s call 0 z → SolverBest o s call z := fun hn =>
    ⟨hn.feasible, fun z' hz' w w' j j' v v' G G' s1 s2 e1 e2 => by
      have := hn.near z' hz' w w' j j' v v' G G' s1 s2 e1 e2
      rwa [add_zero] at this⟩
  have := (c97_task a1 a2 (pl 1) (pl 2) (rel 1 2) (rel 2 1)
    (by
      intro a ha
      obtain rfl : a = 0 := by change a < 1 at ha; omega
      rw [h1, h2]) hin1 hin2 (f := fun X _ _ _ => X 0 0 * X 0 0 + X 1 0 * X 1 0)
    (by rw [turn_last _ (fun _ _ _ _ _ => rfl)]; rfl) (by rw [turn_last _ (fun _ _ _ _ _ => rfl)]; rfl) (best hn1) (best hn2)).1
  rw [hX1, hU1, hX2, hU2, turn_cost, turn_cost] at this
  exact this

/-- C98 applied: twice the objective plus one -/
example : ∃ m1 m1' r call m2 m2' r' call',
    NlAsked dL false (opsG 2 1 0) outsG (xL 0) (uL 0) [] (.answered (zL 0) (.fin 0) 1 false) m1 m1' r call ∧
    NlAsked dL false (opsG 2 2 1) outsG (xL 0) (uL 0) [] (.answered (zL 0) (.fin 0) 1 false) m2 m2' r' call' ∧
    ∀ b, b < 1 → r.cmd.get b = r'.cmd.get b := by
  obtain ⟨m1, m1', r, call, _, h, hin, hb⟩ := opsG_asked (B := 2) (c1 := 1) (c0 := 0) (by norm_num) (by norm_num)
  obtain ⟨m2, m2', r', call', _, h', hin', hb'⟩ := opsG_asked (B := 2) (c1 := 2) (c0 := 1) (by norm_num) (by norm_num)
  refine ⟨m1, m1', r, call, m2, m2', r', call', h, h', ?_⟩
  refine (c98_order h h' (opsG_plain _ _ _) (opsG_plain _ _ _) (opsG_relaxed (le_refl _)) (opsG_relaxed (le_refl _)) hin hin'
    (f := fun X _ _ _ => 1 * (X 0 0 * X 0 0 + X 1 0 * X 1 0) + 0) (φ := fun q => 2 * q + 1)
    (fun a b hab => by show 2 * a + 1 < 2 * b + 1; linarith) rfl ?_ hb hb').2.2 ⟨planG, opsG_best (by norm_num) (by norm_num)⟩
  show some _ = some _
  congr 1
  funext X Y U e
  ring

end Mpc.Props
