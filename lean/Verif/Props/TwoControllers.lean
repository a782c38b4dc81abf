import Verif.Spec.SameTask
import Verif.Props.NlOptimal
import Verif.Props.LinearTracking

/-
C83: the linear and the nonlinear controller agree on tasks which can be given to both.
-/
namespace Mpc.Props
open Mpc Exec
open Mpc.Spec
set_option linter.unusedSectionVars false

section
variable {d : Dims} {K : Type} [Field K] [LinearOrder K] [IsStrictOrderedRing K]
variable {c : LinConfig K} {x0 u0 : Nat → K} {nops : List (NlCall d K)} {nouts : List (NlOut K)}

/-- commands of a plan of the nonlinear controller -/
def commandsOf (p : NlSpec.Plan d K) : Nat → Nat → K := fun k b => NlSpec.entry p.U k b

theorem commandsOf_at (p : NlSpec.Plan d K) (k : Fin (d.ph + 1)) (b : Fin d.nu) : commandsOf p k b = p.U k b := by
  unfold commandsOf NlSpec.entry
  rw [dif_pos ⟨k.2, b.2⟩]

/-- the plan of a sequence of commands -/
def planFrom (c : LinConfig K) (x0 : Nat → K) (u : Nat → Nat → K) : NlSpec.Plan d K where
  X := fun k a => predict d c x0 u k a
  U := fun k b => u (min k (d.ph - 1)) b
  e := 0

theorem field_eq (x : FVec d.nx K) (u : FVec d.nu K) (xn un : Nat → K) (hx : ∀ a : Fin d.nx, x a = xn a)
    (hu : ∀ b : Fin d.nu, u b = un b) (k : Nat) (a : Fin d.nx) :
    c.field d x u k a = dot d.nx (c.A a) xn + dot d.nu (c.B a) un + dot d.ndu (c.Bd a) (c.dist k) := by
  unfold LinConfig.field dot
  rw [Finset.sum_range, Finset.sum_range, Finset.sum_range]
  simp only [hx, hu]

theorem task_predict (ht : SameTask d c u0 nops nouts) {p : NlSpec.Plan d K} (hp : NlSpec.Allowed nops nouts x0 p) :
    ∀ (k : Nat) (hk : k < d.ph + 1) (a : Fin d.nx), p.X ⟨k, hk⟩ a = Spec.predict d c x0 (commandsOf p) k a
  | 0, _, a => hp.start a
  | k + 1, hk, a => by
    have h1 := hp.model _ _ ht.model ⟨k, by omega⟩ a
    rw [ht.discrete] at h1
    unfold NlSpec.modelError at h1
    rw [if_neg (by simp)] at h1
    have h1 := sub_eq_zero.1 (abs_nonpos_iff.1 h1)
    rw [show (⟨k + 1, hk⟩ : Fin (d.ph + 1)) = Fin.succ ⟨k, by omega⟩ from rfl, h1]
    exact field_eq (p.X (Fin.castSucc ⟨k, by omega⟩)) (p.U (Fin.castSucc ⟨k, by omega⟩)) (Spec.predict d c x0 (commandsOf p) k)
      (commandsOf p k) (fun e => task_predict ht hp k (by omega) e) (fun b => (commandsOf_at p ⟨k, by omega⟩ b).symm) k a

theorem _root_.Mpc.Spec.SameTask.predict (ht : SameTask d c u0 nops nouts) {p : NlSpec.Plan d K} (hp : NlSpec.Allowed nops nouts x0 p) :
    ∀ (k : Nat) (hk : k < d.ph + 1) (a : Fin d.nx), p.X ⟨k, hk⟩ a = Spec.predict d c x0 (commandsOf p) k a := task_predict ht hp

theorem _root_.Mpc.Spec.SameTask.allowed_plan (ht : SameTask d c u0 nops nouts) (hch : d.ch = d.ph) {p : NlSpec.Plan d K}
    (hsc : ∀ k, k < d.ph → c.sMin k = .negInf) (hsc' : ∀ k, k < d.ph → c.sMax k = .posInf)
    (hp : NlSpec.Allowed nops nouts x0 p) : PlanAllowed d c x0 (commandsOf p) := by
  refine ⟨fun k a hk ha => ?_, fun k a hk ha => ?_, fun k a hk ha => ?_, fun k a hk hk' ha => ?_, fun k hk => ?_⟩
  · have h1 := hp.states ⟨k, hk⟩ ⟨a, ha⟩
    rw [ht.states k a hk ha] at h1
    have e := ht.predict hp (k + 1) (by omega) ⟨a, ha⟩
    rw [← e]; exact h1
  · have h1 := hp.inputs ⟨k, by omega⟩ ⟨a, ha⟩ (by rw [hch]; exact hk)
    rw [ht.inputs k a hk ha] at h1
    have e := commandsOf_at p ⟨k, by omega⟩ ⟨a, ha⟩
    rw [e]; exact h1
  · rw [ht.yMin k a hk ha, ht.yMax k a hk ha]; exact ⟨trivial, trivial⟩
  · omega
  · rw [hsc k hk, hsc' k hk]; exact ⟨trivial, trivial⟩

theorem _root_.Mpc.Spec.SameTask.plan_allowed (ht : SameTask d c u0 nops nouts) (hch : d.ch = d.ph) (hph : 0 < d.ph) {u : Nat → Nat → K}
    (hu : PlanAllowed d c x0 u) : NlSpec.Allowed nops nouts x0 (planFrom c x0 u) := by
  refine ⟨fun _ => rfl, fun k j b hj => ?_, fun k a => ?_, fun j b hj => ?_, rfl, fun F tol hF k a => ?_, fun F tol hF => ?_,
    fun F tol hF => ?_⟩
  · show u (min k (d.ph - 1)) b = u (min j (d.ph - 1)) b
    rw [hj, hch, min_assoc, min_self]
  · rw [ht.states k a k.2 a.2]; exact hu.states k a k.2 a.2
  · have hj : (j : Nat) < d.ph := by omega
    rw [ht.inputs j b hj b.2]
    show within _ _ (u (min j (d.ph - 1)) b)
    rw [Nat.min_eq_left (by omega)]
    exact hu.inputs j b hj b.2
  · rw [ht.model] at hF
    cases hF
    rw [ht.discrete]
    unfold NlSpec.modelError
    rw [if_neg (by simp), field_eq ((planFrom c x0 u).X k.castSucc) ((planFrom c x0 u).U k.castSucc) (Spec.predict d c x0 u k) (u k) (fun _ => rfl) (fun b => by
      show u (min k (d.ph - 1)) b = u k b
      rw [Nat.min_eq_left (by omega)])]
    show |Spec.predict d c x0 u (k + 1) a - _| ≤ 0
    rw [Spec.predict, sub_self, abs_zero]
  · rw [ht.noIneq] at hF; cases hF
  · rw [ht.noEq] at hF; cases hF

theorem _root_.Mpc.Spec.SameTask.cost (p : NlSpec.Plan d K) (hX : ∀ (k : Nat) (hk : k < d.ph + 1) (a : Fin d.nx),
      p.X ⟨k, hk⟩ a = Spec.predict d c x0 (commandsOf p) k a) :
    NlSpec.planCost (c.objective d u0) nops p = Spec.planCost d c x0 u0 c.duRef (commandsOf p) := by
  unfold NlSpec.planCost LinConfig.objective Spec.planCost
  congr 1
  rw [Finset.sum_range]
  refine Finset.sum_congr rfl fun k _ => ?_
  have eU : ∀ b : Fin d.nu, p.U k.castSucc b = commandsOf p k b := fun b => (commandsOf_at p k.castSucc b).symm
  refine congrArg₂ _ (congrArg₂ _ ?_ ?_) ?_
  · unfold sqErr
    rw [Finset.sum_range]
    refine Finset.sum_congr rfl fun a _ => ?_
    unfold Spec.outputOf dot
    rw [Finset.sum_range, Finset.sum_range]
    congr 4
    exact Finset.sum_congr rfl fun e _ => by rw [show k.succ = ⟨k + 1, by omega⟩ from rfl, hX]
  · unfold sqErr
    rw [Finset.sum_range]
    exact Finset.sum_congr rfl fun b _ => by rw [eU]
  · unfold sqErr
    rw [Finset.sum_range]
    refine Finset.sum_congr rfl fun b _ => ?_
    have : priorInput d u0 p.U k b = before u0 (commandsOf p) k b := by
      unfold priorInput
      obtain ⟨k, hk⟩ := k
      cases k with
      | zero => rfl
      | succ k => exact (commandsOf_at p ⟨k, by omega⟩ b).symm
    rw [eU, this]

/-- a best plan of the nonlinear task consists of best commands of the linear one -/
theorem _root_.Mpc.Spec.SameTask.best (ht : SameTask d c u0 nops nouts) (hch : d.ch = d.ph) (hph : 0 < d.ph)
    (hsc : ∀ k, k < d.ph → c.sMin k = .negInf) (hsc' : ∀ k, k < d.ph → c.sMax k = .posInf) {p : NlSpec.Plan d K}
    (hp : IsBest (NlSpec.Allowed nops nouts x0) (NlSpec.planCost (c.objective d u0) nops) p) :
    IsBest (PlanAllowed d c x0) (Spec.planCost d c x0 u0 c.duRef) (commandsOf p) := by
  refine ⟨ht.allowed_plan hch hsc hsc' hp.1, fun v hv => ?_⟩
  have hq := ht.plan_allowed hch hph hv
  have := hp.2 _ hq
  rw [SameTask.cost (x0 := x0) p (ht.predict hp.1), SameTask.cost (x0 := x0) _ (ht.predict hq)] at this
  refine this.trans (le_of_eq (planCost_congr fun k b hk hb => ?_))
  rw [show k = ((⟨k, by omega⟩ : Fin (d.ph + 1)) : Nat) from rfl, show b = ((⟨b, hb⟩ : Fin d.nu) : Nat) from rfl, commandsOf_at]
  show v (min k (d.ph - 1)) b = v k b
  rw [Nat.min_eq_left (by omega)]

variable [DecidableEq K]
variable {ops : List (LOp K)} {outs : List (LOut K)} {x u : Vec K} {m m' : LMpc K} {r : LResult K} {call : OsqpCall K} {st : Int}
  {obj : K} {z y : Nat → K}
  {dyn : Bool} {n n' : NlMpc d K} {cs cs' : List (NlCallback K)} {nr : LResult K} {ncall : NlSolverCall K} {u' : Vec K}

/-- C83. A linear controller and a nonlinear controller set up for the same task (control horizon equal to the prediction
horizon, limits on states and constant limits on the commands, no scaling of states), asked about the same measured state
after the same command, return the same command and report the same states and inputs, when OSQP and NLopt both answer
exactly and the weights determine the commands. -/
theorem c83_agree (h : Asked d ops outs x u (.answered st obj (some (z, y))) m m' r call)
    {w : Vec K} {value : Ext K} {code : Int}
    (hn : NlAsked d dyn nops nouts x u' cs (.answered w value code false) n n' nr ncall)
    (hms : (configOf ops outs).modelSet = true) (ha : Aligned d (configOf ops outs))
    (hw : WeightsNonneg d (configOf ops outs)) (hcw : CommandsWeighted d (configOf ops outs))
    (hu : ∀ op ∈ nops, NlSpec.UsableCall op) (ho : NlSpec.SetOnce nops) (hs : ScalesOk nops nouts)
    (ht : SameTask d (configOf ops outs) u.get nops nouts) {s : NlState d K} (hin : InSolver d dyn nops nouts n x cs' s)
    (hz : qpOptimal call z) (hb : NlSpec.SolverBest n.o s ncall w) :
    (∀ b, b < d.nu → nr.cmd.get b = r.cmd.get b) ∧
    (∀ k b, k < d.ph → b < d.nu → n'.o.seqInput.get k b = m'.getOptimalSequence.2.1.get k b) ∧
    ∀ k a, k ≤ d.ph → a < d.nx → n'.o.seqState.get k a = m'.getOptimalSequence.1.get k a := by
  have hph := h.valid.ph_pos
  have hch : d.ch = d.ph := le_antisymm hn.hor.ch_le ha.free
  obtain ⟨hbest, hcmd⟩ := c65_optimal_partial hn hu ho hs ht.objective hin
  have hp := hbest.1 hb
  have hl := ht.best hch hph ha.sMin ha.sMax hp
  obtain ⟨t, hc, hco⟩ := (c63_coded_partial h hms z).1 hz
  obtain ⟨hst, -⟩ := (ha.coded_iff hph _).1 hc
  have hlc : IsBest (PlanCoded d (configOf ops outs) x.get u.get)
      (Spec.planCost d (configOf ops outs) x.get u.get fun k => (configOf ops outs).duRef (k - 1)) _ :=
    ⟨(ha.coded_iff hph _).2 ⟨hst, hl.1⟩, fun v hv => by rw [ha.cost_eq, ha.cost_eq]; exact hl.2 v ((ha.coded_iff hph _).1 hv).2⟩
  have e := best_unique hw hcw hlc ⟨hc, hco⟩
  obtain ⟨-, -, -, hS, hU, -, -, -, hcm⟩ := c18_sequence h
  have eU : ∀ k b, k < d.ph → b < d.nu → n'.o.seqInput.get k b = m'.getOptimalSequence.2.1.get k b := fun k b hk hb => by
    rw [hU k b hk hb]
    refine Eq.trans ?_ (e k b hk hb)
    exact (commandsOf_at (⟨fun k a => n'.o.seqState.get k a, fun k b => n'.o.seqInput.get k b, w.get (NlSpec.slackIx d)⟩ :
      NlSpec.Plan d K) ⟨k, by omega⟩ ⟨b, hb⟩).symm
  refine ⟨fun b hb => ?_, eU, fun k a hk ha' => ?_⟩
  · rw [hcm b hb, ← eU 0 b hph hb]; exact hcmd ⟨b, hb⟩
  · rw [hS k a hk ha', t.predict k a hk ha']
    refine (ht.predict hp.1 k (by omega) ⟨a, ha'⟩).trans ?_
    exact predict_congr e k a hk ha'

end

/-! ### a case -/

/-- an integrator at its reference 3, with limits -/
def bothOps : List (LOp ℚ) :=
  [ plant1 1 1, .setObjectiveWeightsSlice (cvec 1 1) (cvec 1 0) (cvec 1 2) HorizonSlice.all,
    .setInputBoundsSlice (evec 1 (-1)) (evec 1 1) HorizonSlice.all, .setStateBoundsSlice (evec 1 0) (evec 1 3) HorizonSlice.all,
    .setReferencesSlice (cvec 1 3) (cvec 1 0) (cvec 1 0) HorizonSlice.all ]

/-- what it configures -/
def bothCfg : LinConfig ℚ := configOf bothOps (bothOps.map fun _ => .bool true)

/-- the same on a nonlinear controller -/
def bothNl : List (NlCall (dims1 2 2) ℚ) :=
  [ .setStateSpaceFunction (bothCfg.field (dims1 2 2)) 0 true, .setObjectiveFunction (bothCfg.objective (dims1 2 2) (cvec 1 0).get) true,
    .setInputBoundsSlice (evec 1 (-1)) (evec 1 1) HorizonSlice.all, .setStateBoundsSlice (evec 1 0) (evec 1 3) HorizonSlice.all ]

/-- states 3, inputs 0, slack 0 -/
def bothZ : Vec ℚ := ⟨5, fun i => if i < 2 then 3 else 0⟩

theorem both_weights : WeightsNonneg (dims1 2 2) bothCfg ∧ CommandsWeighted (dims1 2 2) bothCfg := by
  unfold bothCfg
  refine ⟨⟨?_, ?_, ?_⟩, ?_⟩ <;> simp only [CommandsWeighted, dims1] <;> intro k <;> intros <;> interval_cases k <;>
    config_simp [bothOps]

theorem both_rest : AtRest (dims1 2 2) bothCfg (cvec 1 3).get (cvec 1 0).get := by
  unfold bothCfg
  refine ⟨?_, ?_, ?_, ?_, ?_, ?_, ?_, ?_⟩ <;> simp only [dims1] <;> intro k <;> intros <;> interval_cases k <;>
    config_simp [bothOps]

theorem both_aligned : Aligned (dims1 2 2) bothCfg := by
  unfold bothCfg
  refine ⟨by decide, ?_, ?_, ?_, ?_, ?_⟩ <;> simp only [dims1] <;> intro k <;> intros <;> interval_cases k <;>
    config_simp [bothOps]

/-- C83, non-trivial case: both controllers with their exact answers. -/
example : ∃ nouts z m m' r call n n' nr ncall s,
    Asked (dims1 2 2) bothOps (bothOps.map fun _ => .bool true) (cvec 1 3) (cvec 1 0) (.answered 1 0 (some (z, fun _ => 0))) m m' r call ∧
    NlAsked (dims1 2 2) false bothNl nouts (cvec 1 3) (cvec 1 0) [] (.answered bothZ (.fin 0) 1 false) n n' nr ncall ∧
    (∀ op ∈ bothNl, NlSpec.UsableCall op) ∧ NlSpec.SetOnce bothNl ∧ ScalesOk bothNl nouts ∧
    SameTask (dims1 2 2) bothCfg (cvec 1 0).get bothNl nouts ∧ InSolver (dims1 2 2) false bothNl nouts n (cvec 1 3) [] s ∧
    qpOptimal call z ∧ NlSpec.SolverBest n.o s ncall bothZ := by
  obtain ⟨m, m', r, call, h⟩ := asked_of_accepts (d := dims1 2 2) (ops := bothOps) (x0 := cvec 1 3) (u0 := cvec 1 0)
    (dims1_valid (by decide) (by decide) (by decide) (by decide)) (by decide) (by decide) (by accepts_tac [bothOps]) rfl rfl
    1 0 (some (lift (dims1 2 2) bothCfg (cvec 1 3).get (cvec 1 0).get fun _ => (cvec 1 0).get, fun _ => 0))
  obtain ⟨nouts, n, n', nr, ncall, hn⟩ := nlAsked_exists (K := ℚ) (d := dims1 2 2) (dyn := false) (ops := bothNl) (x0 := cvec 1 3)
    (u0 := cvec 1 0) (cs := []) (oc := .answered bothZ (.fin 0) 1 false) ⟨by decide, by decide, by decide⟩ (by decide) (by decide)
    (fun _ => 0)
    (by
      intro op h
      simp only [bothNl, List.cons_append, List.nil_append, List.mem_cons, List.not_mem_nil, or_false] at h
      rcases h with rfl | rfl | rfl | rfl | rfl
      · trivial
      · trivial
      · exact ⟨rfl, rfl, by simp [HorizonSlice.Int32, HorizonSlice.all]⟩
      · exact ⟨rfl, rfl, by simp [HorizonSlice.Int32, HorizonSlice.all]⟩
      · exact ⟨rfl, rfl, by simp, rfl⟩)
    (fun p op q e => admFrom_split (pre := []) (by
      simp [bothNl, AdmFrom, NlSpec.Admissible, NlSpec.SliceUsable]) p op q e)
  obtain ⟨s, hin⟩ := hn.inSolver
  have hu : ∀ op ∈ bothNl, NlSpec.UsableCall op := by
    intro op h
    simp only [bothNl, List.mem_cons, List.not_mem_nil, or_false] at h
    rcases h with rfl | rfl | rfl | rfl <;> simp [NlSpec.UsableCall, NlSpec.SliceUsable]
  have ho : NlSpec.SetOnce bothNl := by
    refine ⟨?_, ?_⟩
    · intro op h
      simp only [bothNl, List.mem_cons, List.not_mem_nil, or_false] at h
      rcases h with rfl | rfl | rfl | rfl <;> simp [NlSpec.acceptedOf]
    · show [NlGroupKind.dynamics].Nodup
      decide
  have hl := hn.toNlRan.len
  have hok := hn.toNlRan.outOk
  obtain ⟨o1, o2, o3, o4, rfl⟩ := length_four (show nouts.length = 4 from hl)
  have e3 : o3 = .bool true := by
    obtain ⟨b, rfl, hb⟩ := hok (.setInputBoundsSlice (evec 1 (-1)) (evec 1 1) HorizonSlice.all, o3) (by simp [bothNl])
    rw [if_pos (by decide)] at hb; rw [hb]
  have e4 : o4 = .bool true := by
    obtain ⟨b, rfl, hb⟩ := hok (.setStateBoundsSlice (evec 1 0) (evec 1 3) HorizonSlice.all, o4) (by simp [bothNl])
    rw [if_pos (by decide)] at hb; rw [hb]
  subst e3 e4
  have ht : SameTask (dims1 2 2) bothCfg (cvec 1 0).get bothNl [o1, o2, .bool true, .bool true] := by
    refine ⟨rfl, rfl, rfl, rfl, rfl, ?_, ?_, ?_, ?_⟩
    · intro k a hk ha
      simp only [dims1] at hk ha
      unfold bothCfg
      interval_cases a; interval_cases k <;> config_simp [bothOps, NlSpec.stateLimits, bothNl, NlSpec.last, NlSpec.stateBox, NlSpec.InSlice]
    · intro k a hk ha
      simp only [dims1] at hk ha
      unfold bothCfg
      interval_cases a; interval_cases k <;> config_simp [bothOps, NlSpec.inputLimits, bothNl, NlSpec.last, NlSpec.inputBox, NlSpec.InSlice]
    · intro k a hk ha
      unfold bothCfg
      config_simp [bothOps]
    · intro k a hk ha
      unfold bothCfg
      config_simp [bothOps]
  have hs : ScalesOk bothNl [o1, o2, .bool true, .bool true] := by
    refine ⟨?_, ?_, ?_⟩
    · intro a _; simp [bothNl, NlSpec.stScale, NlSpec.last, NlSpec.stScaleOf]
    · intro b _; simp [bothNl, NlSpec.inScale, NlSpec.last, NlSpec.inScaleOf]
    · intro b _ h1; simp [bothNl, NlSpec.inScale, NlSpec.last, NlSpec.inScaleOf] at h1
  refine ⟨_, _, m, m', r, call, n, n', nr, ncall, s, h, hn, hu, ho, hs, ht, hin,
    rest_optimal h rfl both_weights.1 both_rest, ?_⟩
  refine (c65_optimal_partial hn hu ho hs rfl hin).1.2 ?_
  obtain ⟨-, hS, hI, -⟩ := c58_sequences_partial hn rfl
  have hsc : NlSpec.stScale bothNl = fun _ => 1 := by
    simp [bothNl, NlSpec.stScale, NlSpec.last, NlSpec.stScaleOf]
  have hsi : NlSpec.inScale bothNl = fun _ => 1 := by
    simp [bothNl, NlSpec.inScale, NlSpec.last, NlSpec.inScaleOf]
  set p : NlSpec.Plan (dims1 2 2) ℚ :=
    ⟨fun k a => n'.o.seqState.get k a, fun k b => n'.o.seqInput.get k b, bothZ.get (NlSpec.slackIx (dims1 2 2))⟩ with hp
  have ep : p = planFrom bothCfg (cvec 1 3).get (fun _ => (cvec 1 0).get) := by
    rw [hp]
    unfold planFrom
    congr 1
    · funext k a
      have ha : (a : Nat) < 1 := a.2
      have hk : (k : Nat) < 3 := k.2
      rw [hS k a (by omega) a.2, hsc, both_rest.predict k a (by omega) a.2]
      by_cases h0 : (k : Nat) = 0
      · rw [if_pos h0]; simp
      · rw [if_neg h0, NlSpec.stateAt, if_neg h0, one_mul, NlSpec.stateIx]
        show (if ((k : Nat) - 1) * 1 + a < 2 then (3 : ℚ) else 0) = 3
        rw [if_pos (by omega)]
    · funext k b
      rw [hI k b (by omega) b.2, hsi, NlSpec.inputAt, NlSpec.inputIx, one_mul]
      show (if 2 * 1 + (min (k : Nat) 1 * 1 + b) < 2 then (3 : ℚ) else 0) = 0
      rw [if_neg (by omega)]
  have hal : NlSpec.Allowed bothNl [o1, o2, .bool true, .bool true] (cvec 1 3).get p := by
    rw [ep]
    exact ht.plan_allowed rfl (by decide) ((both_aligned.coded_iff (by decide) _).1 (both_rest.coded (by decide))).2
  refine ⟨hal, fun q hq => ?_⟩
  rw [SameTask.cost (x0 := (cvec 1 3).get) p (ht.predict hal), SameTask.cost (x0 := (cvec 1 3).get) q (ht.predict hq)]
  refine le_trans (le_of_eq ?_) (planCost_nonneg both_weights.1 _ _)
  rw [← both_aligned.cost_eq]
  refine Eq.trans (planCost_congr fun k b hk hb => ?_) (both_rest.cost)
  rw [show k = ((⟨k, by omega⟩ : Fin ((dims1 2 2).ph + 1)) : Nat) from rfl, show b = ((⟨b, hb⟩ : Fin (dims1 2 2).nu) : Nat) from rfl,
    commandsOf_at, ep]
  rfl

end Mpc.Props
