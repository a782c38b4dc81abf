import Verif.Proofs.NlDetermined
import Verif.Props.NlStart

/-
C49, C54 (NLopt), C58: the functions and constraint groups the solver works with, status codes, and the reported sequences.
-/
namespace Mpc.Props
open Mpc Exec
set_option linter.unusedSectionVars false

section
variable {d : Dims} {K : Type} [Field K] [LinearOrder K] [IsStrictOrderedRing K]
variable {dyn : Bool} {ops : List (NlCall d K)} {outs : List (NlOut K)} {m m' : NlMpc d K} {x0 u0 : Vec K}
  {cs : List (NlCallback K)} {oc : NlOutcome K} {r : LResult K} {call : NlSolverCall K}

/-! ### C49 -/

/-- After the history `ops`, inside a call `optimize(x0, ..)`, after the solver has made the callbacks `cs`, the objects which
evaluate the user functions are in state `s`. -/
structure InSolver (d : Dims) (dyn : Bool) (ops : List (NlCall d K)) (outs : List (NlOut K)) (m : NlMpc d K) (x0 : Vec K)
    (cs : List (NlCallback K)) (s : NlState d K) : Prop extends NlRan d dyn ops outs m where
  size : x0.size = d.nx
  calls : ∀ c ∈ cs, NlSpec.CallbackFits d c
  now : ∃ m1, m.onState (.measure x0) = .ok m1 ∧ NlMpc.callbacks m1.o m1.s cs = .ok s

/-- every `optimize` makes its callbacks in such states -/
theorem NlAsked.inSolver (h : NlAsked d dyn ops outs x0 u0 cs oc m m' r call) : ∃ s, InSolver d dyn ops outs m x0 cs s := by
  obtain ⟨junk, ⟨hx, -, hcs, -⟩, hr⟩ := h.ask
  simp only [NlMpc.step] at hr
  unfold NlMpc.optimize at hr
  obtain ⟨m1, h1, hr⟩ := bind_eq_ok.1 hr
  obtain ⟨p, -, hr⟩ := bind_eq_ok.1 hr
  obtain ⟨s, h3, hr⟩ := bind_eq_ok.1 hr
  exact ⟨s, h.toNlRan, hx, hcs, m1, h1, h3⟩

theorem InSolver.holds {s : NlState d K} (h : InSolver d dyn ops outs m x0 cs s) :
    s.Holds { (NlCtl.after d ops outs).cfg with x0 := some x0.get } := by
  obtain ⟨m1, h1, h2⟩ := h.now
  obtain ⟨g, -, -⟩ := h.toNlRan.agrees
  obtain ⟨k1, -, -, -⟩ := NlMpc.onState_agrees g h.hor.ph_int (op := .measure x0) h.size h1
  exact (NlMpc.callbacks_ok k1 h.hor.ph_int h.calls h2).1

theorem after_cont (hl : outs.length = ops.length) :
    (NlCtl.after d ops outs).cfg.cont = (NlSpec.last NlSpec.samplingOf ops).isSome := by
  rw [after_last (fun c => c.cfg.cont) (fun op => (NlSpec.samplingOf op).map fun _ => true)
    (fun c b op => by call_cases op b) hl, last_map]
  cases NlSpec.last NlSpec.samplingOf ops <;> rfl

theorem after_Ts (hl : outs.length = ops.length) :
    (NlCtl.after d ops outs).cfg.Ts = (NlSpec.last NlSpec.samplingOf ops).getD 0 :=
  after_last (fun c => c.cfg.Ts) NlSpec.samplingOf (fun c b op => by call_cases op b) hl

/-- C49, replacement: after any history, whatever the solver evaluated before, the objective and the three groups of
constraints which the solver gets are those of the functions (and output map, scalings, sampling time) set last. -/
theorem c49_last_functions (s : NlState d K) (h : InSolver d dyn ops outs m x0 cs s) (z : Vec K)
    (hz : z.size = d.ph * d.nx + d.nu * d.ch + 1)
    (X : Traj (d.ph + 1) d.nx K) (U : Traj (d.ph + 1) d.nu K) (Y : Traj (d.ph + 1) d.ny K)
    (hX : X = NlSpec.codeStates d (NlSpec.stScale ops) x0.get z.get) (hU : U = NlSpec.inputs d (NlSpec.inScale ops) z.get)
    (hY : Y = NlSpec.outputs (NlSpec.last NlSpec.outputOf ops) X U) :
    (∀ f, NlSpec.last NlSpec.objectiveOf ops = some f → ∀ g, ∃ r s', s.evalObj z g = .ok (r, s') ∧
      r.value = f X Y U (z.get (NlSpec.slackIx d))) ∧
    (∀ F tol, NlSpec.last NlSpec.ineqConOf ops = some (F, tol) → ∀ j, ∃ r s', s.evalIneq z j = .ok (r, s') ∧
      ∀ i : Fin d.ineq, r.value.get i = F X Y U (z.get (NlSpec.slackIx d)) i) ∧
    (∀ F tol, NlSpec.last NlSpec.eqConOf ops = some (F, tol) → ∀ j, ∃ r s', s.evalEq z j = .ok (r, s') ∧
      ∀ i : Fin d.eq, r.value.get i = F X U i) ∧
    (∀ F, NlSpec.last NlSpec.modelOf ops = some F → ∀ g j, ∃ r s', s.evalDyn z g j = .ok (r, s') ∧
      ∀ (k : Fin d.ph) (a : Fin d.nx), r.value.get (k * d.nx + a)
        = NlSpec.residual (NlSpec.last NlSpec.samplingOf ops).isSome ((NlSpec.last NlSpec.samplingOf ops).getD 0)
          (NlSpec.stScale ops) F X U k a) := by
  have hs := h.holds
  have hl := h.toNlRan.len
  have hp := h.hor.ph_int
  have e1 := after_inScale hl
  have e2 := after_stScale hl
  have e3 := after_out hl
  have ho : s.obj.x0.get = x0.get := hs.ox0 _ rfl
  have hc : s.con.x0.get = x0.get := hs.cx0 _ rfl
  refine ⟨?_, ?_, ?_, ?_⟩
  · intro f hf g
    obtain ⟨⟨r, s'⟩, e, v, -⟩ := NlState.evalObj_post hs hp (f := f) (by rw [← hf]; exact after_obj hl) z hz g
    refine ⟨r, s', e, ?_⟩
    dsimp only at v
    rw [ho, e1, e2, e3, ← hX, ← hU] at v
    rw [v, hY]
    rfl
  · intro F tol hf j
    rw [← after_ineq hl] at hf
    cases hi : (NlCtl.after d ops outs).cfg.ineq with
    | none => rw [hi] at hf; cases hf
    | some G =>
      rw [hi] at hf
      obtain ⟨rfl, -⟩ := Prod.mk.inj (Option.some.inj hf)
      obtain ⟨⟨r, s'⟩, e, -, -, v, -⟩ := NlState.evalIneq_post hs hp hi z hz j
      refine ⟨r, s', e, fun i => ?_⟩
      have v := v i
      dsimp only at v
      rw [hc, e1, e2, e3, ← hX, ← hU] at v
      rw [v, hY]
      rfl
  · intro F tol hf j
    rw [← after_eq hl] at hf
    cases hi : (NlCtl.after d ops outs).cfg.eq with
    | none => rw [hi] at hf; cases hf
    | some G =>
      rw [hi] at hf
      obtain ⟨rfl, -⟩ := Prod.mk.inj (Option.some.inj hf)
      obtain ⟨⟨r, s'⟩, e, -, -, v, -⟩ := NlState.evalEq_post hs hi z hz j
      refine ⟨r, s', e, fun i => ?_⟩
      have v := v i
      dsimp only at v
      rw [hc, e1, e2, ← hX, ← hU] at v
      exact v
  · intro F hf g j
    obtain ⟨⟨r, s'⟩, e, -, -, v⟩ := NlState.evalDyn_traj hs hp (F := F) (by rw [← hf]; exact after_field hl) z hz g j
    refine ⟨r, s', e, fun k a => ?_⟩
    have v := (v k a).1
    dsimp only at v
    rw [hc, e1, e2, after_cont hl, after_Ts hl, ← hX, ← hU] at v
    exact v

/-- C49, groups, as claimed: the solver's problem has at most one group of each kind. -/
def C49OneCopyClaim (K : Type) [Field K] [LinearOrder K] [IsStrictOrderedRing K] : Prop :=
  ∀ (d : Dims) dyn (ops : List (NlCall d K)) outs x0 u0 cs oc m m' r call,
    NlAsked d dyn ops outs x0 u0 cs oc m m' r call → (call.groups.map (·.kind)).Nodup

/-- C49, returned flag, as claimed: a setter which binds a function returns true only if the solver accepted it. -/
def C49ReturnsClaim (K : Type) [Field K] [LinearOrder K] [IsStrictOrderedRing K] : Prop :=
  ∀ (d : Dims) dyn (ops : List (NlCall d K)) outs (m m' : NlMpc d K) op acc, NlRan d dyn ops outs m → NlSpec.CallFits d op →
    NlSpec.acceptedOf op = some acc → m.step op = .ok (m', .bool true) → acc = true

/-- C49, groups, partial: the groups of the solver's problem are exactly those of the accepted setter calls, in order, each
with the tolerance of its call. Missing: a second call adds a group to the first one (`c49_duplicates_violated`). -/
theorem c49_groups_partial (h : NlAsked d dyn ops outs x0 u0 cs oc m m' r call) :
    call.groups = ops.filterMap NlSpec.groupOf := by
  obtain ⟨-, -, hg, -⟩ := h.known
  have hl := h.toNlRan.len
  rw [hg.groups]
  refine history_induction (P := fun ops outs => (NlCtl.after d ops outs).groups = ops.filterMap NlSpec.groupOf) rfl ?_ hl
  intro ops outs op o hl ih
  rw [NlMpc.after_snoc hl, List.filterMap_append, ← ih]
  have keep : ∀ c : NlCtl d K, c.groups = c.groups ++ [] := fun c => (List.append_nil _).symm
  cases op with
  | setOptimizerParameters p => cases p <;> exact keep _
  | setStateSpaceFunction F tol acc => cases acc <;> first | exact keep _ | rfl
  | setIneqConFunction F tol acc => cases acc <;> first | exact keep _ | rfl
  | setEqConFunction F tol acc => cases acc <;> first | exact keep _ | rfl
  | setStateBoundsSlice l u s => cases o.refused <;> exact keep _
  | setInputBoundsSlice l u s => cases o.refused <;> exact keep _
  | optimize x0 u0 cs oc j => rcases oc with _ | ⟨z, v, k, _ | _⟩ <;> exact keep _
  | _ => exact keep _

/-- C49 in full for histories in which each constraint setter is accepted at most once. -/
theorem c49_one_copy_partial (h : NlAsked d dyn ops outs x0 u0 cs oc m m' r call)
    (ho : ((ops.filterMap NlSpec.groupOf).map (·.kind)).Nodup) : (call.groups.map (·.kind)).Nodup := by
  rw [c49_groups_partial h]
  exact ho

/-- C49, objective: the solver has an objective exactly if one was ever accepted. -/
theorem c49_objective_bound (h : NlAsked d dyn ops outs x0 u0 cs oc m m' r call) :
    call.objective = true ↔ ∃ f, NlCall.setObjectiveFunction f true ∈ ops := by
  obtain ⟨-, -, hg, -⟩ := h.known
  have hl := h.toNlRan.len
  rw [hg.obj]
  refine history_induction (P := fun ops outs => (NlCtl.after d ops outs).obj = true ↔
    ∃ f, NlCall.setObjectiveFunction f true ∈ ops) (by simp [NlCtl.after, NlCtl.fresh]) ?_ hl
  intro ops outs op o hl ih
  rw [NlMpc.after_snoc hl]
  have keep : (NlCtl.step (NlCtl.after d ops outs) o.refused op).obj = (NlCtl.after d ops outs).obj →
      (∀ f, op ≠ .setObjectiveFunction f true) →
      ((NlCtl.step (NlCtl.after d ops outs) o.refused op).obj = true ↔ ∃ f, NlCall.setObjectiveFunction f true ∈ ops ++ [op]) := by
    intro e hn
    rw [e, ih]
    refine exists_congr fun f => ?_
    simp only [List.mem_append, List.mem_singleton]
    exact ⟨.inl, fun h => h.resolve_right fun e => hn f e.symm⟩
  cases op with
  | setOptimizerParameters p => cases p <;> exact keep rfl (by simp)
  | setObjectiveFunction f acc =>
    cases acc with
    | true => exact ⟨fun _ => ⟨f, by simp⟩, fun _ => by simp [NlCtl.step]⟩
    | false => exact keep (by simp [NlCtl.step]) (by simp)
  | setStateBoundsSlice l u s => exact keep (by cases hr : o.refused <;> rfl) (by simp)
  | setInputBoundsSlice l u s => exact keep (by cases hr : o.refused <;> rfl) (by simp)
  | optimize x0 u0 cs oc j => exact keep (by rcases oc with _ | ⟨z, v, k, _ | _⟩ <;> rfl) (by simp)
  | _ => exact keep rfl (by simp)

/-- C49, returned flag, partial: setStateSpaceFunction returns true if and only if the solver accepted the model constraints.
Missing: the other three setters always return true (`c49_returns_violated`). -/
theorem c49_model_returns_partial (h : NlRan d dyn ops outs m) {F : FVec d.nx K → FVec d.nu K → Nat → FVec d.nx K} {tol : K}
    {acc b : Bool} (hr : m.step (.setStateSpaceFunction F tol acc) = .ok (m', .bool b)) : b = acc := by
  have := NlMpc.step_out h.agrees.1 h.hor.ph_int h.mem (.setStateSpaceFunction F tol acc) trivial hr
  exact NlOut.bool.inj this

/-! ### C54, NLopt -/

/-- C54 for the nonlinear controller: after any history, the status of the result is the documented one for the code which
the solver returned, and that code is reported. -/
theorem c54_nlopt (h : NlAsked d dyn ops outs x0 u0 cs oc m m' r call) {z : Vec K} {value : Ext K} {code : Int}
    (ho : oc = .answered z value code false) : NlSpec.NloptDocumented code r.status ∧ r.solver_status = code := by
  subst ho
  obtain ⟨-, -, -, ha⟩ := h.known
  have ha : NlMpc.Answered (NlCtl.after d ops outs) x0.get z.get value code r m'.o := ha
  refine ⟨?_, ha.code⟩
  rw [ha.status]
  unfold NlSpec.NloptDocumented NlOpt.convertStatus
  by_cases h1 : code = 1 ∨ code = 2 ∨ code = 3 ∨ code = 4
  · rw [if_pos h1, if_neg (by omega), if_pos h1]
  · rw [if_neg h1]
    by_cases h2 : code = 5 ∨ code = 6
    · rw [if_pos h2, if_neg (by omega), if_neg h1, if_pos h2]
    · rw [if_neg h2]
      by_cases h3 : code = -1 ∨ code = -2 ∨ code = -3 ∨ code = -4 ∨ code = -5
      · rw [if_pos h3, if_pos (by omega)]
      · rw [if_neg h3, if_neg h1, if_neg h2, if_neg (by omega)]

/-! ### C58 -/

/-- C58 as claimed: when the solver answers `z`, the reported sequences are the documented trajectory of `z` (starting at the
measured state) with the outputs of the last set output map, the command is the first input, and the cost is the value. -/
def C58Claim (K : Type) [Field K] [LinearOrder K] [IsStrictOrderedRing K] : Prop :=
  ∀ (d : Dims) dyn (ops : List (NlCall d K)) outs x0 u0 cs z value code m m' r call,
    NlAsked d dyn ops outs x0 u0 cs (.answered z value code false) m m' r call →
    (∀ k a, k ≤ d.ph → a < d.nx → m'.o.seqState.get k a = NlSpec.stateAt d (NlSpec.stScale ops) x0.get z.get k a) ∧
    (∀ k b, k ≤ d.ph → b < d.nu → m'.o.seqInput.get k b = NlSpec.inputAt d (NlSpec.inScale ops) z.get k b) ∧
    (∀ (k : Fin (d.ph + 1)) (i : Fin d.ny), m'.o.seqOutput.get k i = NlSpec.outputs (NlSpec.last NlSpec.outputOf ops)
      (fun k a => m'.o.seqState.get k a) (fun k b => m'.o.seqInput.get k b) k i) ∧
    (∀ b, b < d.nu → r.cmd.get b = m'.o.seqInput.get 0 b) ∧ r.cost = value

/-- C58, partial: everything except the first reported state, which is multiplied by the state scaling. -/
theorem c58_sequences_partial (h : NlAsked d dyn ops outs x0 u0 cs oc m m' r call) {z : Vec K} {value : Ext K} {code : Int}
    (ho : oc = .answered z value code false) :
    (m'.o.seqState.rows = d.ph + 1 ∧ m'.o.seqState.cols = d.nx ∧ m'.o.seqInput.rows = d.ph + 1 ∧ m'.o.seqInput.cols = d.nu ∧
      m'.o.seqOutput.rows = d.ph + 1 ∧ m'.o.seqOutput.cols = d.ny ∧ r.cmd.size = d.nu) ∧
    (∀ k a, k ≤ d.ph → a < d.nx → m'.o.seqState.get k a
      = if k = 0 then NlSpec.stScale ops a * x0.get a else NlSpec.stateAt d (NlSpec.stScale ops) x0.get z.get k a) ∧
    (∀ k b, k ≤ d.ph → b < d.nu → m'.o.seqInput.get k b = NlSpec.inputAt d (NlSpec.inScale ops) z.get k b) ∧
    (∀ (k : Fin (d.ph + 1)) (i : Fin d.ny), m'.o.seqOutput.get k i = NlSpec.outputs (NlSpec.last NlSpec.outputOf ops)
      (fun k a => m'.o.seqState.get k a) (fun k b => m'.o.seqInput.get k b) k i) ∧
    (∀ b, b < d.nu → r.cmd.get b = m'.o.seqInput.get 0 b) ∧ r.cost = value := by
  subst ho
  obtain ⟨-, -, -, ha⟩ := h.known
  have ha : NlMpc.Answered (NlCtl.after d ops outs) x0.get z.get value code r m'.o := ha
  have hl := h.toNlRan.len
  have hi : ∀ k b, k ≤ d.ph → b < d.nu → m'.o.seqInput.get k b = NlSpec.inputAt d (NlSpec.inScale ops) z.get k b := by
    intro k b hk hb
    have := congrFun (congrFun ha.seqI ⟨k, by omega⟩) ⟨b, hb⟩
    rw [after_inScale hl] at this
    exact this
  refine ⟨⟨ha.sS.1, ha.sS.2, ha.sI.1, ha.sI.2, ha.sO.1, ha.sO.2, ha.cmdSize⟩, ?_, hi, ?_, ?_, ha.cost⟩
  · intro k a hk hb
    have := congrFun (congrFun ha.seqS ⟨k, by omega⟩) ⟨a, hb⟩
    rw [after_stScale hl] at this
    refine this.trans ?_
    unfold NlSpec.codeStates NlSpec.stateAt
    dsimp only
    split_ifs <;> rfl
  · intro k i
    have := congrFun (congrFun ha.seqO k) i
    rw [← ha.seqS, ← ha.seqI, after_out hl] at this
    exact this
  · intro b hb
    rw [hi 0 b (by omega) hb, ha.cmd b hb, after_inScale hl]
    unfold NlSpec.inputAt
    rw [Nat.zero_min]

/-- C58 in full when the state scalings in force are one. -/
theorem c58_unscaled_partial (h : NlAsked d dyn ops outs x0 u0 cs oc m m' r call) {z : Vec K} {value : Ext K} {code : Int}
    (ho : oc = .answered z value code false) (hs : ∀ a, a < d.nx → NlSpec.stScale ops a = 1) :
    ∀ k a, k ≤ d.ph → a < d.nx → m'.o.seqState.get k a = NlSpec.stateAt d (NlSpec.stScale ops) x0.get z.get k a := by
  intro k a hk ha
  rw [(c58_sequences_partial h ho).2.1 k a hk ha]
  by_cases h0 : k = 0
  · rw [if_pos h0, hs a ha, one_mul, h0]; rfl
  · rw [if_neg h0]

theorem setParameters_keeps {o o' : NlOpt K} {p : AnyNlParams K} (h : o.setParameters d p = .ok o') :
    o'.result = o.result ∧ o'.seqState = o.seqState ∧ o'.seqInput = o.seqInput ∧ o'.seqOutput = o.seqOutput := by
  cases p with
  | other => cases h
  | nonlinear p =>
    unfold NlOpt.setParameters NlOpt.pinSlack at h
    obtain ⟨q, hq, h⟩ := bind_eq_ok.1 h
    cases h
    cases hh : p.hard_constraints with
    | true =>
      rw [hh, if_pos rfl] at hq
      obtain ⟨l, -, hq⟩ := bind_eq_ok.1 hq
      obtain ⟨u, -, hq⟩ := bind_eq_ok.1 hq
      cases hq
      exact ⟨rfl, rfl, rfl, rfl⟩
    | false =>
      rw [hh, if_neg (by simp)] at hq
      cases hq
      exact ⟨rfl, rfl, rfl, rfl⟩

/-- the parts of the optimizer which report the last call -/
def NlReport (o o' : NlOpt K) : Prop :=
  o'.result = o.result ∧ o'.seqState = o.seqState ∧ o'.seqInput = o.seqInput ∧ o'.seqOutput = o.seqOutput

theorem NlReport.trans {o o' o'' : NlOpt K} (h : NlReport o o') (h' : NlReport o' o'') : NlReport o o'' :=
  ⟨h'.1.trans h.1, h'.2.1.trans h.2.1, h'.2.2.1.trans h.2.2.1, h'.2.2.2.trans h.2.2.2⟩

theorem setStateBounds_keeps {o : NlOpt K} {l u s} {q : NlOpt K × Bool} (h : o.setStateBounds d l u s = .ok q) :
    NlReport o q.1 := by
  unfold NlOpt.setStateBounds at h
  obtain ⟨b, -, h⟩ := bind_eq_ok.1 h
  cases h
  exact ⟨rfl, rfl, rfl, rfl⟩

theorem setInputBounds_keeps {o : NlOpt K} {l u s} {q : NlOpt K × Bool} (h : o.setInputBounds d l u s = .ok q) :
    NlReport o q.1 := by
  unfold NlOpt.setInputBounds at h
  obtain ⟨b, -, h⟩ := bind_eq_ok.1 h
  cases h
  exact ⟨rfl, rfl, rfl, rfl⟩

theorem matrixBounds_keeps {n : Nat} {mn mx} {set : NlOpt K → Vec (Ext K) → Vec (Ext K) → HorizonSlice → Exec (NlOpt K × Bool)}
    (hset : ∀ o l u s q, set o l u s = .ok q → NlReport o q.1) {q : NlMpc d K × NlOut K}
    (h : m.matrixBounds n mn mx set = .ok q) : NlReport m.o q.1.o := by
  unfold NlMpc.matrixBounds at h
  obtain ⟨r, hr, h⟩ := bind_eq_ok.1 h
  cases h
  have : ∀ i (p p' : NlOpt K × Bool), (do
      let l ← mn.col i
      let u ← mx.col i
      let r ← set p.1 l u ⟨(i : Int), (i : Int) + 1⟩
      return (r.1, p.2 && r.2) : Exec (NlOpt K × Bool)) = .ok p' → NlReport m.o p.1 → NlReport m.o p'.1 := by
    intro i p p' hp hq
    obtain ⟨l, -, hp⟩ := bind_eq_ok.1 hp
    obtain ⟨u, -, hp⟩ := bind_eq_ok.1 hp
    obtain ⟨r, hr, hp⟩ := bind_eq_ok.1 hp
    cases hp
    exact hq.trans (hset p.1 l u _ r hr)
  exact forFrom_inv (fun _ (p : NlOpt K × Bool) => NlReport m.o p.1) ⟨rfl, rfl, rfl, rfl⟩
    (fun i p p' _ _ hq hp => this i p p' hp hq) hr

theorem sliceBounds_keeps {n : Nat} {s : HorizonSlice} {set : NlOpt K → Exec (NlOpt K × Bool)}
    (hset : ∀ o q, set o = .ok q → NlReport o q.1) {q : NlMpc d K × NlOut K}
    (h : m.sliceBounds n s set = .ok q) : NlReport m.o q.1.o := by
  unfold NlMpc.sliceBounds at h
  have key : ∀ v : Bool, (if v = true then do
        let r ← set m.o
        pure ({ m with o := r.1 }, NlOut.bool (true && r.2))
      else pure (m, NlOut.bool false) : Exec (NlMpc d K × NlOut K)) = .ok q → NlReport m.o q.1.o := by
    intro v h
    cases v with
    | true =>
      rw [if_pos rfl] at h
      obtain ⟨r, hr, h⟩ := bind_eq_ok.1 h
      cases h
      exact hset _ _ hr
    | false =>
      rw [if_neg (by simp)] at h
      cases h
      exact ⟨rfl, rfl, rfl, rfl⟩
  by_cases hu : isSliceUnset s = true
  · rw [if_pos hu] at h
    exact key true h
  · rw [if_neg hu] at h
    obtain ⟨v, -, h⟩ := bind_eq_ok.1 h
    exact key v h

/-- C58, persistence: no call except `optimize` changes the last result or the optimal sequence. -/
theorem c58_persist {op : NlCall d K} {o : NlOut K} (hs : m.step op = .ok (m', o)) (hn : isOptimize op = false) :
    m'.o.result = m.o.result ∧ m'.o.seqState = m.o.seqState ∧ m'.o.seqInput = m.o.seqInput ∧
      m'.o.seqOutput = m.o.seqOutput := by
  have onS : ∀ {op : NlOp d K} {m1 : NlMpc d K}, m.onState op = .ok m1 → m1.o = m.o := by
    intro op m1 h
    unfold NlMpc.onState at h
    obtain ⟨s, -, h⟩ := bind_eq_ok.1 h
    cases h
    rfl
  have same : m'.o = m.o → NlReport m.o m'.o := fun h => by rw [h]; exact ⟨rfl, rfl, rfl, rfl⟩
  have bound : ∀ (o : NlOpt K) (g : NlGroup K) acc, NlReport o (o.bindGroup g acc).1 := by
    intro o g acc
    cases acc <;> exact ⟨rfl, rfl, rfl, rfl⟩
  cases op with
  | setDiscretizationSamplingTime ts =>
    simp only [NlMpc.step] at hs
    obtain ⟨m1, h1, hs⟩ := bind_eq_ok.1 hs
    cases hs
    exact same (onS h1)
  | setOptimizerParameters p =>
    simp only [NlMpc.step] at hs
    obtain ⟨m1, h1, hs⟩ := bind_eq_ok.1 hs
    cases hs
    exact setParameters_keeps h1
  | setInputScale v =>
    simp only [NlMpc.step] at hs
    obtain ⟨m1, h1, hs⟩ := bind_eq_ok.1 hs
    cases hs
    exact same (onS h1)
  | setStateScale v =>
    simp only [NlMpc.step] at hs
    obtain ⟨m1, h1, hs⟩ := bind_eq_ok.1 hs
    cases hs
    exact same (onS h1)
  | setObjectiveFunction f acc =>
    simp only [NlMpc.step] at hs
    obtain ⟨m1, h1, hs⟩ := bind_eq_ok.1 hs
    cases hs
    rw [← onS h1]
    cases acc <;> exact ⟨rfl, rfl, rfl, rfl⟩
  | setStateSpaceFunction F tol acc =>
    simp only [NlMpc.step] at hs
    obtain ⟨m1, h1, hs⟩ := bind_eq_ok.1 hs
    cases hs
    rw [← onS h1]
    exact bound _ _ _
  | setOutputFunction g =>
    simp only [NlMpc.step] at hs
    obtain ⟨m1, h1, hs⟩ := bind_eq_ok.1 hs
    cases hs
    exact same (onS h1)
  | setIneqConFunction F tol acc =>
    simp only [NlMpc.step] at hs
    obtain ⟨m1, h1, hs⟩ := bind_eq_ok.1 hs
    cases hs
    rw [← onS h1]
    exact bound _ _ _
  | setEqConFunction F tol acc =>
    simp only [NlMpc.step] at hs
    obtain ⟨_, -, hs⟩ := bind_eq_ok.1 hs
    obtain ⟨m1, h1, hs⟩ := bind_eq_ok.1 hs
    cases hs
    rw [← onS h1]
    exact bound _ _ _
  | setStateBounds mn mx =>
    simp only [NlMpc.step] at hs
    exact matrixBounds_keeps (set := fun o l u s => o.setStateBounds d l u s) (fun _ _ _ _ _ h => setStateBounds_keeps h) hs
  | setInputBounds mn mx =>
    simp only [NlMpc.step] at hs
    exact matrixBounds_keeps (set := fun o l u s => o.setInputBounds d l u s) (fun _ _ _ _ _ h => setInputBounds_keeps h) hs
  | setOutputBounds mn mx => cases hs; exact ⟨rfl, rfl, rfl, rfl⟩
  | setStateBoundsSlice l u s =>
    simp only [NlMpc.step] at hs
    exact sliceBounds_keeps (set := fun o => o.setStateBounds d l u s) (fun _ _ h => setStateBounds_keeps h) hs
  | setInputBoundsSlice l u s =>
    simp only [NlMpc.step] at hs
    exact sliceBounds_keeps (set := fun o => o.setInputBounds d l u s) (fun _ _ h => setInputBounds_keeps h) hs
  | setOutputBoundsSlice l u s => cases hs; exact ⟨rfl, rfl, rfl, rfl⟩
  | optimize x0 u0 cs oc j => cases hn

/-- C58: the result `optimize` returns is the one kept as last result. -/
theorem c58_last_result (h : NlAsked d dyn ops outs x0 u0 cs oc m m' r call) : m'.o.result = r := h.known.1.symm

end

/-! ### witnesses -/

/-- a model for the samples -/
def modelN (acc : Bool) : NlCall dN ℚ := .setStateSpaceFunction (fun x _ _ a => x a) 0 acc

/-- C49 is violated: setting the model twice gives the solver the model equations twice. -/
theorem c49_duplicates_violated : ¬ C49OneCopyClaim ℚ := by
  intro hc
  obtain ⟨outs, m, m', r, call, h⟩ := asked_of (ops := [modelN true, modelN true]) 1 0 .threw (by rintro _ _ _ _ ⟨⟩)
    (by simp [NlSpec.CallFits, modelN]) (by simp [AdmFrom, NlSpec.Admissible, modelN])
  have := hc _ _ _ _ _ _ _ _ _ _ _ _ h
  rw [c49_groups_partial h] at this
  simp [modelN, NlSpec.groupOf] at this

/-- C49 is violated: setObjectiveFunction returns true although the solver refused the objective. -/
theorem c49_returns_violated : ¬ C49ReturnsClaim ℚ := by
  intro hc
  obtain ⟨outs, m, m', r, call, h⟩ := asked_of (ops := []) 1 0 .threw (by rintro _ _ _ _ ⟨⟩) (by simp) (by simp [AdmFrom])
  have := hc dN false [] outs m _ (.setObjectiveFunction (fun _ _ _ _ => 0) false) false h.toNlRan trivial rfl rfl
  cases this

/-- C58 is violated: with state scale 2 the first state of the reported sequence is twice the measured state. -/
theorem c58_first_state_violated : ¬ C58Claim ℚ := by
  intro hc
  obtain ⟨outs, m, m', r, call, h⟩ := asked_of (ops := [.setStateScale (nvec 2 fun _ => 2)]) 1 0 (.answered (zN 0) (.fin 0) 1 false)
    (by rintro _ _ _ _ ⟨⟩; rfl) (by simp [NlSpec.CallFits, nvec]) (by simp [AdmFrom, NlSpec.Admissible])
  have h1 := (hc _ _ _ _ _ _ _ _ _ _ _ _ _ _ h).1 0 0 (by decide) (by decide)
  rw [(c58_sequences_partial h rfl).2.1 0 0 (by decide) (by decide)] at h1
  simp [NlSpec.stScale, NlSpec.last, NlSpec.stScaleOf, nvec, NlSpec.stateAt] at h1

/-- non-vacuity: the sample history with all functions set, in the middle of an `optimize` -/
example : ∃ outs m s, InSolver dN false opsN outs m (nvec 2 fun _ => 1) [.con 2 (zN 5) true (fun _ => 0)] s := by
  obtain ⟨outs, m, m', r, call, h⟩ := sampleN_asked 1 2 .threw (by rintro _ _ _ _ ⟨⟩)
  obtain ⟨s, hs⟩ := h.inSolver
  exact ⟨outs, m, s, hs⟩

/-- C49: in the sample history the solver gets the three groups once each -/
example {outs m m' r call x0 u0 cs oc} (h : NlAsked dN false opsN outs x0 u0 cs oc m m' r call) :
    call.groups.map (·.kind) = [.dynamics, .userIneq, .userEq] := by
  rw [c49_groups_partial h]
  rfl

end Mpc.Props
