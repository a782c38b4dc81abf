import Verif.Proofs.PlanLinear
import Verif.Props.LinearSymmetry

/-
C81, C82: without limits the linear controller is a fixed linear feedback law of the measured state, the last command, the
references and the disturbances.
-/
namespace Mpc.Props
open Mpc.Spec
set_option linter.unusedSectionVars false

variable {K : Type} [Field K] [DecidableEq K] [LinearOrder K] [IsStrictOrderedRing K]
variable {d : Dims} {c : LinConfig K} {σ τ : Signals K}
  {ops ops' ops'' : List (LOp K)} {outs outs' outs'' : List (LOut K)} {x0 u0 x0' u0' x0'' u0'' : Vec K}
  {oc oc' oc'' : OsqpOutcome K} {m m' m1 m1' m2 m2' : LMpc K} {r r' r'' : LResult K} {call call' call'' : OsqpCall K}
  {st st' st'' : Int} {obj obj' obj'' : K} {x y x' y' x'' y'' : Nat → K}

theorem trajectory_agree {c' : LinConfig K} {a b a' b' z : Nat → K} (hc : c.Agree d c') (ha : ∀ e, e < d.nx → a' e = a e)
    (hb : ∀ e, e < d.nu → b' e = b e) (h : Trajectory d c a b z) : Trajectory d c' a' b' z := by
  refine ⟨fun e he => (h.state0 e he).trans (ha e he).symm, fun e he => (h.input0 e he).trans (hb e he).symm, h.input,
    fun k e hk he => ?_⟩
  rw [h.state k e hk he, dot_congr' (fun i hi => (hc.A e i he hi).symm) (fun _ _ => rfl),
    dot_congr' (fun i hi => (hc.B e i he hi).symm) (fun _ _ => rfl),
    dot_congr' (fun i hi => (hc.Bd e i he hi).symm) (fun i hi => (hc.dist k i hk hi).symm)]

theorem trajectory_comb {z z' : Nat → K} (s t : K) (h : Trajectory d (c.withSignals σ) (σ .state) (σ .command) z)
    (h' : Trajectory d (c.withSignals τ) (τ .state) (τ .command) z') :
    Trajectory d (c.withSignals (s • σ + t • τ)) ((s • σ + t • τ) .state) ((s • σ + t • τ) .command) (fun p => s * z p + t * z' p) := by
  refine ⟨fun a ha => ?_, fun a ha => ?_, fun k a hk ha => ?_, fun k a hk ha => ?_⟩
  · show s * stateAt d z 0 a + t * stateAt d z' 0 a = s * σ .state a + t * τ .state a
    rw [h.state0 a ha, h'.state0 a ha]
  · show s * heldAt d z 0 a + t * heldAt d z' 0 a = s * σ .command a + t * τ .command a
    rw [h.input0 a ha, h'.input0 a ha]
  · show s * inputAt d z k a + t * inputAt d z' k a =
      (s * heldAt d z k a + t * heldAt d z' k a) + (s * incrementAt d z k a + t * incrementAt d z' k a)
    rw [h.input k a hk ha, h'.input k a hk ha]; ring
  · show s * stateAt d z (k + 1) a + t * stateAt d z' (k + 1) a =
      dot d.nx (c.A a) (fun e => s * stateAt d z k e + t * stateAt d z' k e) +
      dot d.nu (c.B a) (fun e => s * inputAt d z k e + t * inputAt d z' k e) +
      dot d.ndu (c.Bd a) (fun e => s * σ (.dist k) e + t * τ (.dist k) e)
    rw [dot_comb, dot_comb, dot_comb, h.state k a hk ha, h'.state k a hk ha]
    show s * (dot d.nx (c.A a) _ + dot d.nu (c.B a) _ + dot d.ndu (c.Bd a) (σ (.dist k))) +
      t * (dot d.nx (c.A a) _ + dot d.nu (c.B a) _ + dot d.ndu (c.Bd a) (τ (.dist k))) = _
    ring

/-- the solutions of the problem handed to OSQP, in terms of the signals -/
theorem optimal_iff (h : Asked d ops outs x0 u0 oc m m' r call) (ha : AskedWith d c σ (configOf ops outs) x0.get u0.get)
    (hms : c.modelSet = true) (z : Nat → K) :
    qpOptimal call z ↔ Trajectory d (c.withSignals σ) (σ .state) (σ .command) z ∧ BestFor d c σ (inputAt d z) := by
  have hms' : (configOf ops outs).modelSet = true := ha.config.modelSet.trans hms
  rw [c63_coded_partial h hms']
  refine and_congr ⟨trajectory_agree ha.config.symm (fun e he => (ha.state e he).symm) fun e he => (ha.command e he).symm,
    trajectory_agree ha.config ha.state ha.command⟩ ?_
  exact best_agree ha.config ha.state ha.command h.valid.ph_pos fun k a hk hi => ha.config.duRef (k - 1) a (by omega) hi

theorem _root_.Mpc.Spec.AskedWith.weights (ha : AskedWith d c σ (configOf ops outs) x0.get u0.get) (hw : WeightsNonneg d c)
    (hcw : CommandsWeighted d c) : WeightsNonneg d (configOf ops outs) ∧ CommandsWeighted d (configOf ops outs) := by
  refine ⟨⟨fun k a hk hi => ?_, fun k a hk hi => ?_, fun k a hk hi => ?_⟩, fun k a hk hk' hi => ?_⟩
  · rw [ha.config.wY k a hk hi]; exact hw.wY k a hk hi
  · rw [ha.config.wU k a hk hi]; exact hw.wU k a hk hi
  · rw [ha.config.wDu k a hk hi]; exact hw.wDu k a hk hi
  · rw [ha.config.wU k a hk hi, ha.config.wDu k a hk hi]; exact hcw k a hk hk' hi

/-! ### C81 -/

/-- C81. Superposition: three controllers with the same model and weights and without limits are asked with signals of which
the third are a combination of the other two; the same combination of solutions of the first two problems handed to OSQP
solves the third. -/
theorem c81_solutions (s t : K) (h : Asked d ops outs x0 u0 oc m m' r call) (h' : Asked d ops' outs' x0' u0' oc' m1 m1' r' call')
    (h'' : Asked d ops'' outs'' x0'' u0'' oc'' m2 m2' r'' call'') (hms : c.modelSet = true) (hl : Unlimited d c)
    (hw : WeightsNonneg d c) (ha : AskedWith d c σ (configOf ops outs) x0.get u0.get)
    (ha' : AskedWith d c τ (configOf ops' outs') x0'.get u0'.get)
    (ha'' : AskedWith d c (s • σ + t • τ) (configOf ops'' outs'') x0''.get u0''.get) {z z' : Nat → K} (hz : qpOptimal call z)
    (hz' : qpOptimal call' z') : qpOptimal call'' (fun p => s * z p + t * z' p) := by
  obtain ⟨t1, b1⟩ := (optimal_iff h ha hms z).1 hz
  obtain ⟨t2, b2⟩ := (optimal_iff h' ha' hms z').1 hz'
  exact (optimal_iff h'' ha'' hms _).2 ⟨trajectory_comb s t t1 t2, best_comb hl hw h.valid.ph_pos b1 b2 s t⟩

/-- C81. With exact answers of the solver and a positive weight on every command or its increment, the command and the
reported sequences superpose. -/
theorem c81_command (s t : K) (h : Asked d ops outs x0 u0 (.answered st obj (some (x, y))) m m' r call)
    (h' : Asked d ops' outs' x0' u0' (.answered st' obj' (some (x', y'))) m1 m1' r' call')
    (h'' : Asked d ops'' outs'' x0'' u0'' (.answered st'' obj'' (some (x'', y''))) m2 m2' r'' call'')
    (hms : c.modelSet = true) (hl : Unlimited d c) (hw : WeightsNonneg d c) (hcw : CommandsWeighted d c)
    (ha : AskedWith d c σ (configOf ops outs) x0.get u0.get) (ha' : AskedWith d c τ (configOf ops' outs') x0'.get u0'.get)
    (ha'' : AskedWith d c (s • σ + t • τ) (configOf ops'' outs'') x0''.get u0''.get)
    (ho : qpOptimal call x) (ho' : qpOptimal call' x') (ho'' : qpOptimal call'' x'') :
    (∀ a, a < d.nu → r''.cmd.get a = s * r.cmd.get a + t * r'.cmd.get a) ∧
    (∀ k a, k ≤ d.ph → a < d.nx → m2'.getOptimalSequence.1.get k a =
      s * m'.getOptimalSequence.1.get k a + t * m1'.getOptimalSequence.1.get k a) ∧
    (∀ k a, k ≤ d.ph → a < d.nu → m2'.getOptimalSequence.2.1.get k a =
      s * m'.getOptimalSequence.2.1.get k a + t * m1'.getOptimalSequence.2.1.get k a) := by
  have hph := h.valid.ph_pos
  obtain ⟨hw'', hcw''⟩ := ha''.weights hw hcw
  obtain ⟨e1, e2, -⟩ := c69_unique_solution h'' (ha''.config.modelSet.trans hms) hw'' hcw'' ho''
    (c81_solutions s t h h' h'' hms hl hw ha ha' ha'' ho ho')
  obtain ⟨-, -, -, hS, hU, hUl, -, -, hcmd⟩ := c18_sequence h
  obtain ⟨-, -, -, hS', hU', hUl', -, -, hcmd'⟩ := c18_sequence h'
  obtain ⟨-, -, -, hS'', hU'', hUl'', -, -, hcmd''⟩ := c18_sequence h''
  have eU : ∀ k a, k < d.ph → a < d.nu → m2'.getOptimalSequence.2.1.get k a =
      s * m'.getOptimalSequence.2.1.get k a + t * m1'.getOptimalSequence.2.1.get k a :=
    fun k a hk ha => by rw [hU k a hk ha, hU' k a hk ha, hU'' k a hk ha]; exact e2 (k + 1) a hk ha
  refine ⟨fun a ha => ?_, fun k a hk ha => ?_, fun k a hk ha => ?_⟩
  · rw [hcmd a ha, hcmd' a ha, hcmd'' a ha]; exact eU 0 a hph ha
  · rw [hS k a hk ha, hS' k a hk ha, hS'' k a hk ha]; exact e1 k a hk ha
  · rcases Nat.lt_or_ge k d.ph with hk' | hk'
    · exact eU k a hk' ha
    · obtain rfl : k = d.ph := by omega
      rw [hUl a ha, hUl' a ha, hUl'' a ha]; exact eU _ a (by omega) ha

/-! ### C82 -/

/-- C82. Without limits, with non-negative weights and a positive weight on every command or its increment, the problem
handed to OSQP has a solution. -/
theorem c82_solvable (h : Asked d ops outs x0 u0 oc m m' r call) (hms : c.modelSet = true) (hl : Unlimited d c)
    (hw : WeightsNonneg d c) (hcw : CommandsWeighted d c) (ha : AskedWith d c σ (configOf ops outs) x0.get u0.get) :
    ∃ z, qpOptimal call z := by
  have hph := h.valid.ph_pos
  refine ⟨lift d (c.withSignals σ) (σ .state) (σ .command) (bestPlan hl hw hcw hph σ), (optimal_iff h ha hms _).2 ⟨lift_trajectory, ?_⟩⟩
  obtain ⟨b1, b2⟩ := bestPlan_best hl hw hcw hph σ
  have e : ∀ k a, k < d.ph → a < d.nu → bestPlan hl hw hcw hph σ k a =
      inputAt d (lift d (c.withSignals σ) (σ .state) (σ .command) (bestPlan hl hw hcw hph σ)) k a := fun k a hk ha =>
    (inputAt_lift hk ha).symm
  exact ⟨planCoded_congr e b1, fun v hv => by
    show planCost d _ _ _ _ _ ≤ _
    rw [← planCost_congr e]; exact b2 v hv⟩

/-- C82. One linear law for everything such a controller can be asked: there is a linear function of the signals which, for
every history with this model and these weights, every measured state, last command, references and disturbances, gives the
inputs of the reported sequence and hence the command, whenever OSQP answers exactly. -/
theorem c82_law (hv : 0 < d.ph) (hms : c.modelSet = true) (hl : Unlimited d c) (hw : WeightsNonneg d c) (hcw : CommandsWeighted d c) :
    ∃ L : Signals K →ₗ[K] (Nat → Nat → K), ∀ (σ : Signals K) (ops : List (LOp K)) (outs : List (LOut K)) (x0 u0 : Vec K) (st : Int)
      (obj : K) (x y : Nat → K) (m m' : LMpc K) (r : LResult K) (call : OsqpCall K),
      Asked d ops outs x0 u0 (.answered st obj (some (x, y))) m m' r call →
      AskedWith d c σ (configOf ops outs) x0.get u0.get → qpOptimal call x →
      (∀ a, a < d.nu → r.cmd.get a = L σ 0 a) ∧
      (∀ k a, k < d.ph → a < d.nu → m'.getOptimalSequence.2.1.get k a = L σ k a) := by
  refine ⟨bestPlan hl hw hcw hv, fun σ ops outs x0 u0 st obj x y m m' r call h ha ho => ?_⟩
  obtain ⟨t1, b1⟩ := (optimal_iff h ha hms x).1 ho
  have e := best_unique (c := c.withSignals σ) ⟨hw.wY, hw.wU, hw.wDu⟩ hcw b1 (bestPlan_best hl hw hcw hv σ)
  obtain ⟨-, -, -, -, hU, -, -, -, hcmd⟩ := c18_sequence h
  have eU : ∀ k a, k < d.ph → a < d.nu → m'.getOptimalSequence.2.1.get k a = bestPlan hl hw hcw hv σ k a :=
    fun k a hk ha => by rw [hU k a hk ha]; exact e k a hk ha
  exact ⟨fun a ha => by rw [hcmd a ha]; exact eU 0 a hv ha, eU⟩

/-- an integrator without limits, with the reference `v` -/
def lawOps (v : ℚ) : List (LOp ℚ) :=
  [ plant1 1 1, .setObjectiveWeightsSlice (cvec 1 1) (cvec 1 0) (cvec 1 2) HorizonSlice.all,
    .setReferencesSlice (cvec 1 v) (cvec 1 0) (cvec 1 0) HorizonSlice.all ]

/-- its signals -/
def lawSignals (v x u : ℚ) : Signals ℚ
  | .state => fun _ => x
  | .command => fun _ => u
  | .yRef _ => fun _ => v
  | _ => fun _ => 0

/-- C81 and C82, non-trivial case: the hypotheses are met by a controller for every reference, state and last command, and
the problem it hands to OSQP is then solvable. -/
example : ∃ c : LinConfig ℚ, c.modelSet = true ∧ Unlimited (dims1 3 2) c ∧ WeightsNonneg (dims1 3 2) c ∧ CommandsWeighted (dims1 3 2) c ∧
    ∀ v x u : ℚ, AskedWith (dims1 3 2) c (lawSignals v x u) (configOf (lawOps v) [.bool true, .bool true, .bool true]) (cvec 1 x).get (cvec 1 u).get ∧
      ∃ xs m m' r call, Asked (dims1 3 2) (lawOps v) [.bool true, .bool true, .bool true] (cvec 1 x) (cvec 1 u)
        (.answered 1 0 (some (xs, fun _ => 0))) m m' r call ∧ qpOptimal call xs := by
  have hask : ∀ (v x u : ℚ) (sol), ∃ m m' r call, Asked (dims1 3 2) (lawOps v) [.bool true, .bool true, .bool true] (cvec 1 x) (cvec 1 u)
      (.answered 1 0 sol) m m' r call := fun v x u sol =>
    asked_of_accepts (ops := lawOps v) (dims1_valid (by decide) (by decide) (by decide) (by decide)) (by decide) (by decide)
      (by accepts_tac [lawOps]) rfl rfl 1 0 sol
  have hl : Unlimited (dims1 3 2) (configOf (lawOps 0) [.bool true, .bool true, .bool true]) := by
    constructor <;> intros <;> config_simp [lawOps]
  have hw : WeightsNonneg (dims1 3 2) (configOf (lawOps 0) [.bool true, .bool true, .bool true]) := by
    constructor <;> simp only [dims1] <;> intro k <;> intros <;> interval_cases k <;> config_simp [lawOps]
  have hcw : CommandsWeighted (dims1 3 2) (configOf (lawOps 0) [.bool true, .bool true, .bool true]) := by
    simp only [CommandsWeighted, dims1]
    intro k; intros; interval_cases k <;> config_simp [lawOps]
  have ha : ∀ v x u : ℚ, AskedWith (dims1 3 2) (configOf (lawOps 0) [.bool true, .bool true, .bool true]) (lawSignals v x u)
      (configOf (lawOps v) [.bool true, .bool true, .bool true]) (cvec 1 x).get (cvec 1 u).get := fun v x u => by
    refine ⟨?_, fun _ _ => rfl, fun _ _ => rfl⟩
    constructor <;> intros <;> config_simp [lawOps, LinConfig.withSignals, lawSignals]
  refine ⟨_, rfl, hl, hw, hcw, fun v x u => ⟨ha v x u, ?_⟩⟩
  obtain ⟨m, m', r, call, h⟩ := hask v x u none
  obtain ⟨z, hz⟩ := c82_solvable h rfl hl hw hcw (ha v x u)
  obtain ⟨m1, m1', r1, call1, h1⟩ := hask v x u (some (z, fun _ => 0))
  refine ⟨z, m1, m1', r1, call1, h1, (optimal_iff h1 (ha v x u) rfl z).2 ((optimal_iff h (ha v x u) rfl z).1 hz)⟩

end Mpc.Props
