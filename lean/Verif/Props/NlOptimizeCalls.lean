import Verif.Proofs.NlOptimizeTrace
import Verif.Props.NlCalls
import Verif.Props.NlCallbacks

/-
C132: everything one `optimize` of the nonlinear controller asks of the user functions, from the first callback of the solver to the
reported outputs, in order.
-/
namespace Mpc.Props
open Mpc Exec NlSpec
set_option linter.unusedSectionVars false

section
variable {d : Dims} {K : Type} [Field K] [LinearOrder K] [IsStrictOrderedRing K]
variable {dyn : Bool} {ops : List (NlCall d K)} {outs : List (NlOut K)} {m m' : NlMpc d K} {x0 u0 : Vec K}
  {cs : List (NlCallback K)} {oc : NlOutcome K} {r : LResult K} {call : NlSolverCall K} {s : NlState d K} {junk : Nat → K}
  {F : ∀ c : UserCall d K, c.Ans}

/-- one callback in the course of a search -/
theorem InSolver.serve_calls (h : InSolver d dyn ops outs m x0 cs s) (hF : SetFunctions ops F) (hb : call.objective = m.o.objective)
    (hg : call.groups = m.o.groups) (k : NlCallback K) (hk : CallbackFits d k) :
    (NlMpc.serveP m.o s k).run F = NlMpc.serve m.o s k ∧
    (NlMpc.serveP m.o s k).calls F
      = callbackTrace F (last samplingOf ops).isSome (last outputOf ops).isSome call (statesOf ops x0) (inputsOf ops) k := by
  have ha := h.answers hF
  have hl := h.toNlRan.len
  have hB := NlMpc.after_bound (d := d) ops outs
  obtain ⟨o1, o2⟩ := h.opt
  refine ⟨NlMpc.serveP_run m.o ha k, ?_⟩
  cases k with
  | obj z g junk =>
    unfold NlMpc.serveP callbackTrace
    dsimp only
    rw [hb]
    by_cases ho : m.o.objective = true
    · rw [if_pos ho, if_pos ho]
      have hs : (last objectiveOf ops).isSome = true := by
        rw [← after_obj hl]
        exact hB.obj (o1.symm.trans ho)
      rw [Prog.calls_bind_nil _ _ (fun _ => rfl)]
      unfold NlState.objWrapperP
      dsimp only
      have hg' : (decide ((if g = true then d.nZ else 0) ≠ 0)) = g := by
        have hn : d.nZ ≠ 0 := by unfold Dims.nZ; omega
        cases g <;> simp [hn]
      rw [Prog.calls_bind_nil]
      · rw [hg', (c130_objective h hF hs z hk g).1]
      · intro q
        split
        · cases q.1.grad with
          | none => rfl
          | some G => exact Prog.calls_lift_bind _ _ fun _ => rfl
        · rfl
    · rw [if_neg ho, if_neg ho]
      rfl
  | con i z g junk =>
    unfold NlMpc.serveP callbackTrace
    dsimp only
    rw [hg]
    cases hi : m.o.groups[i]? with
    | none => rfl
    | some grp =>
      have hm : grp ∈ (NlCtl.after d ops outs).groups := by rw [← o2]; exact List.mem_of_getElem? hi
      have hs := hB.set _ hm
      obtain ⟨kind, tol⟩ := grp
      dsimp only at hs ⊢
      rw [Prog.calls_bind_nil _ _ (fun _ => rfl)]
      unfold NlState.conWrapperP
      rw [Prog.calls_bind_nil _ _ (fun _ => Prog.calls_lift_bind _ _ fun _ => rfl)]
      have hgr : (if g = true then some (⟨tol.size * d.nZ, junk⟩ : Vec K) else none).isSome = g := by cases g <;> rfl
      cases kind with
      | dynamics =>
        unfold NlState.evalConP
        dsimp only
        rw [hgr]
        exact (c130_model h hF (by rw [← after_field hl]; exact hs) z hk g junk).1
      | userIneq =>
        unfold NlState.evalConP
        dsimp only
        refine (c130_inequalities h hF z hk junk).1.trans (if_pos ?_)
        rw [← after_ineq hl, Option.isSome_map]; exact hs
      | userEq =>
        unfold NlState.evalConP
        dsimp only
        refine (c130_equalities h hF z hk junk).1.trans (if_pos ?_)
        rw [← after_eq hl, Option.isSome_map]; exact hs

theorem callbacksP_snoc (o : NlOpt K) (s : NlState d K) (l : List (NlCallback K)) (k : NlCallback K) :
    NlMpc.callbacksP o s (l ++ [k]) = NlMpc.callbacksP o s l >>= fun s => NlMpc.serveP o s k >>= fun r => pure r.2 := by
  unfold NlMpc.callbacksP
  rw [List.foldl_append]
  rfl

theorem callbacks_snoc (o : NlOpt K) (s : NlState d K) (l : List (NlCallback K)) (k : NlCallback K) :
    NlMpc.callbacks o s (l ++ [k]) = NlMpc.callbacks o s l >>= fun s => NlMpc.serve o s k >>= fun r => pure r.2 := by
  unfold NlMpc.callbacks
  rw [List.foldl_append]
  rfl

/-- all callbacks of a search -/
theorem callbacks_calls (h : NlRan d dyn ops outs m) (hF : SetFunctions ops F) (hx : x0.size = d.nx) {m1 : NlMpc d K}
    (h1 : m.onState (.measure x0) = .ok m1) (hb : call.objective = m.o.objective) (hg : call.groups = m.o.groups)
    (cs : List (NlCallback K)) (hcs : ∀ c ∈ cs, CallbackFits d c) {s : NlState d K} (hr : NlMpc.callbacks m1.o m1.s cs = .ok s) :
    (NlMpc.callbacksP m1.o m1.s cs).run F = .ok s ∧
    (NlMpc.callbacksP m1.o m1.s cs).calls F = cs.flatMap
      (callbackTrace F (last samplingOf ops).isSome (last outputOf ops).isSome call (statesOf ops x0) (inputsOf ops)) := by
  have e1 : m1.o = m.o := by
    unfold NlMpc.onState at h1
    obtain ⟨t, -, h1⟩ := bind_eq_ok.1 h1
    cases h1
    rfl
  induction cs using List.reverseRecOn generalizing s with
  | nil => cases hr; exact ⟨rfl, rfl⟩
  | append_singleton l k ih =>
    rw [callbacks_snoc] at hr
    obtain ⟨s1, hs1, hr⟩ := bind_eq_ok.1 hr
    have hl : ∀ c ∈ l, CallbackFits d c := fun c hc => hcs c (by simp [hc])
    obtain ⟨i1, i2⟩ := ih hl hs1
    have hin : InSolver d dyn ops outs m x0 l s1 := ⟨h, hx, hl, m1, h1, hs1⟩
    obtain ⟨k1, k2⟩ := hin.serve_calls hF hb hg k (hcs k (by simp))
    rw [e1] at hr i1 i2 ⊢
    rw [callbacksP_snoc]
    constructor
    · rw [Prog.run_bind, i1, ok_bind, Prog.run_bind, k1]
      exact hr
    · rw [Prog.calls_bind, i1, i2]
      dsimp only
      rw [Prog.calls_bind_nil _ _ (fun _ => rfl), k2, List.flatMap_append, List.flatMap_cons, List.flatMap_nil, List.append_nil]

/-- the phases of an `optimize` -/
theorem optimize_phases (h : NlRan d dyn ops outs m) (hF : SetFunctions ops F) (hfit : CallFits d (.optimize x0 u0 cs oc junk))
    (hr : m.step (.optimize x0 u0 cs oc junk) = .ok (m', .result r call)) :
    ∃ m1 p s, m.onState (.measure x0) = .ok m1 ∧ m1.o.prepare d m1.s.mp junk x0 u0 = .ok p ∧ m1.o = m.o ∧ call = m1.solverCall p.2 ∧
      s.Answers F ∧
      (NlMpc.callbacksP m1.o m1.s cs).run F = .ok s ∧
      (NlMpc.callbacksP m1.o m1.s cs).calls F = cs.flatMap
        (callbackTrace F (last samplingOf ops).isSome (last outputOf ops).isSome call (statesOf ops x0) (inputsOf ops)) ∧
      NlMpc.finish { m1 with s := s, o := { m1.o with optVector := p.1 } } x0 junk oc = .ok m' ∧ r = m'.o.result ∧
      (∀ z value code, oc = .answered z value code false → ∃ f,
        (s.con.isFeasibleP s.mp s.M z).run F = .ok f ∧
        (s.con.isFeasibleP s.mp s.M z).calls F = checkTrace F (last outputOf ops).isSome ((last ineqConOf ops).map (·.2))
          (last eqConOf ops).isSome (statesOf ops x0 z) (inputsOf ops z) (z.get (slackIx d)) ∧
        (NlMpc.acceptP { m1 with s := { s with con := f.2 }, o := { m1.o with optVector := z, first := false } } x0 value code f.1 junk).run F
          = .ok m' ∧
        (NlMpc.acceptP { m1 with s := { s with con := f.2 }, o := { m1.o with optVector := z, first := false } } x0 value code f.1 junk).calls F
          = outCalls (last outputOf ops).isSome (statesOf ops x0 z) (inputsOf ops z)) := by
  obtain ⟨hx, hu, hcs, hz⟩ := hfit
  have hl := h.len
  obtain ⟨g, -, -⟩ := h.agrees
  simp only [NlMpc.step] at hr
  unfold NlMpc.optimize at hr
  obtain ⟨m1, h1, hr⟩ := bind_eq_ok.1 hr
  obtain ⟨k1, k2, k3, -⟩ := NlMpc.onState_agrees g h.hor.ph_int (op := .measure x0) hx h1
  obtain ⟨p, h2, hr⟩ := bind_eq_ok.1 hr
  obtain ⟨s, h3, hr⟩ := bind_eq_ok.1 hr
  obtain ⟨m2, h4, hr⟩ := bind_eq_ok.1 hr
  obtain ⟨rfl, hcall⟩ : m2 = m' ∧ call = m1.solverCall p.2 := by
    cases hr
    exact ⟨rfl, rfl⟩
  have hres : r = m2.o.result := by
    cases hr
    rfl
  have hb : call.objective = m.o.objective := by rw [hcall, ← k3]; rfl
  have hg : call.groups = m.o.groups := by rw [hcall, ← k3]; rfl
  obtain ⟨c1, c2⟩ := callbacks_calls h hF hx h1 hb hg cs hcs h3
  have hin : InSolver d dyn ops outs m x0 cs s := ⟨h, hx, hcs, m1, h1, h3⟩
  have ha := hin.answers hF
  have hs := hin.holds
  obtain ⟨-, htol⟩ := NlMpc.callbacks_ok k1 h.hor.ph_int hcs h3
  refine ⟨m1, p, s, h1, h2, k3, hcall, ha, c1, c2, h4, hres, ?_⟩
  rintro z value code rfl
  have hz : z.size = d.nZ := hz
  have hrun := NlMpc.finishP_run (F := F) { m1 with s := s, o := { m1.o with optVector := p.1 } } ha x0 junk (.answered z value code false)
  rw [h4] at hrun
  unfold NlMpc.finishP at hrun
  dsimp only at hrun
  simp only [Bool.false_eq_true, if_false] at hrun
  rw [Prog.run_bind] at hrun
  obtain ⟨f, hf, hrun⟩ := bind_eq_ok.1 hrun
  obtain ⟨t1, -⟩ := NlState.isFeasibleP_tri (F := F) hs h.hor.ph_int z hz f hf
  have t2 := NlMpc.acceptP_tri (F := F) (m := { m1 with s := { s with con := f.2 }, o := { m1.o with optVector := z, first := false } })
    hs rfl rfl h.hor.ph_int hz hx value code f.1 junk
  have e2 : s.con.x0.get = x0.get := hs.cx0 _ rfl
  have e3 : ({ (NlCtl.after d ops outs).cfg with x0 := some x0.get } : NlSpec.Cfg d K).ineq.map (fun _ => s.con.ieqTol)
      = (last ineqConOf ops).map (·.2) := by
    rw [← after_ineq hl, Option.map_map]
    show (NlCtl.after d ops outs).cfg.ineq.map _ = _
    cases hi : (NlCtl.after d ops outs).cfg.ineq with
    | none => rfl
    | some G =>
      have h1 : s.con.ieqTol = m1.s.con.ieqTol := congrArg Prod.fst htol
      have h2 : m1.s.con.ieqTol = m.s.con.ieqTol := congrArg Prod.fst k2
      show some _ = some _
      rw [h1, h2, g.ti (by rw [hi]; rfl)]
      rfl
  have e4 : ({ (NlCtl.after d ops outs).cfg with x0 := some x0.get } : NlSpec.Cfg d K).eq.isSome = (last eqConOf ops).isSome := by
    rw [← after_eq hl, Option.isSome_map]
  refine ⟨f, hf, ?_, hrun, ?_⟩
  · rw [t1, e2, after_stScale hl, after_inScale hl, after_out hl, e3, e4]
    rfl
  · rw [(t2 m2 hrun).1, after_stScale hl, after_inScale hl, after_out hl]
    rfl

/-- C132: the calls of user functions of one `optimize`, when the user functions return: those of the callbacks the solver makes, one
after the other; then, if it answers, those of the check of its answer; then those of the reported outputs. Run with the functions
which are set the program is `optimize`. -/
theorem c132_trace (h : NlRan d dyn ops outs m) (hF : SetFunctions ops F) (hfit : CallFits d (.optimize x0 u0 cs oc junk))
    (hr : m.step (.optimize x0 u0 cs oc junk) = .ok (m', .result r call)) (hoc : ∀ z v c, oc ≠ .answered z v c true) :
    (m.optimizeP x0 u0 cs oc junk).run F = .ok (m', .result r call) ∧
    (m.optimizeP x0 u0 cs oc junk).calls F =
      cs.flatMap (callbackTrace F (last samplingOf ops).isSome (last outputOf ops).isSome call (statesOf ops x0) (inputsOf ops)) ++
      answerTrace F (last outputOf ops).isSome ((last ineqConOf ops).map (·.2)) (last eqConOf ops).isSome (statesOf ops x0) (inputsOf ops) oc := by
  obtain ⟨m1, p, s, h1, h2, k3, hcall, ha, c1, c2, h4, hres, hans⟩ := optimize_phases h hF hfit hr
  unfold NlMpc.optimizeP
  rw [h1, Prog.lift_ok_bind, h2, Prog.lift_ok_bind]
  dsimp only
  constructor
  · rw [Prog.run_bind, c1, ok_bind, Prog.run_bind, NlMpc.finishP_run _ ha, h4, ok_bind, hres, hcall]
    rfl
  rw [Prog.calls_bind, c1, c2]
  dsimp only
  congr 1
  rw [Prog.calls_bind_nil _ _ (fun _ => rfl)]
  cases oc with
  | threw => rfl
  | answered z value code t =>
    cases t with
    | true => exact absurd rfl (hoc z value code)
    | false =>
      obtain ⟨f, f1, f2, f3, f4⟩ := hans z value code rfl
      unfold NlMpc.finishP answerTrace
      dsimp only
      simp only [Bool.false_eq_true, if_false]
      rw [Prog.calls_bind, f1, f2]
      dsimp only
      rw [f4]

/-- a call after the search is about the plan with states `X`, outputs `Y`, inputs `U` -/
def AboutPlan (X : Traj (d.ph + 1) d.nx K) (Y : Traj (d.ph + 1) d.ny K) (U : Traj (d.ph + 1) d.nu K) : UserCall d K → Prop
  | .out x u k => ∃ k' : Fin (d.ph + 1), k = k' ∧ x = X k' ∧ u = U k'
  | .ineq X' Y' U' _ => X' = X ∧ Y' = Y ∧ U' = U
  | .eq X' U' => X' = X ∧ U' = U
  | .state _ _ _ | .obj _ _ _ _ => False

theorem outCalls_about (b : Bool) (X : Traj (d.ph + 1) d.nx K) (Y : Traj (d.ph + 1) d.ny K) (U : Traj (d.ph + 1) d.nu K) :
    ∀ c ∈ outCalls b X U, AboutPlan X Y U c := by
  intro c hc
  unfold outCalls at hc
  cases b with
  | false => cases hc
  | true =>
    rw [if_pos rfl, List.mem_map] at hc
    obtain ⟨k, -, rfl⟩ := hc
    exact ⟨k, rfl, rfl, rfl⟩

theorem checkTrace_about (b e : Bool) (t : Option K) (X : Traj (d.ph + 1) d.nx K) (U : Traj (d.ph + 1) d.nu K) (v : K) :
    ∀ c ∈ checkTrace F b t e X U v, AboutPlan X (outputsBy F b X U) U c := by
  classical
  intro c hc
  have heq : ∀ {p : Prop} [Decidable p], c ∈ (if p then [.eq X U] else [] : List (UserCall d K)) → AboutPlan X (outputsBy F b X U) U c := by
    intro p _ hc
    split_ifs at hc
    · rw [List.mem_singleton.1 hc]; exact ⟨rfl, rfl⟩
    · cases hc
  unfold checkTrace at hc
  cases t with
  | none => exact heq hc
  | some t =>
    rcases List.mem_append.1 hc with hc | hc
    · rcases List.mem_append.1 hc with hc | hc
      · exact outCalls_about b X _ U c hc
      · rw [List.mem_singleton.1 hc]; exact ⟨rfl, rfl, rfl⟩
    · exact heq hc

/-- C132: after the search neither the model nor the objective is called any more; what is called is shown exactly the plan which is
reported. -/
theorem c132_plan (h : NlAsked d dyn ops outs x0 u0 cs oc m m' r call) (hF : SetFunctions ops F) {z : Vec K} {value : Ext K} {code : Int}
    (ho : oc = .answered z value code false) :
    ∀ c ∈ answerTrace F (last outputOf ops).isSome ((last ineqConOf ops).map (·.2)) (last eqConOf ops).isSome (statesOf ops x0)
      (inputsOf ops) oc,
      AboutPlan (fun k a => m'.o.seqState.get k a) (fun k i => m'.o.seqOutput.get k i) (fun k b => m'.o.seqInput.get k b) c := by
  obtain ⟨-, -, -, ha⟩ := h.known
  have hl := h.toNlRan.len
  subst ho
  have ha : NlMpc.Answered (NlCtl.after d ops outs) x0.get z.get value code r m'.o := ha
  have eX : (fun (k : Fin (d.ph + 1)) (a : Fin d.nx) => m'.o.seqState.get k a) = statesOf ops x0 z := by
    have := ha.seqS
    rw [after_stScale hl] at this
    exact this
  have eU : (fun (k : Fin (d.ph + 1)) (b : Fin d.nu) => m'.o.seqInput.get k b) = inputsOf ops z := by
    have := ha.seqI
    rw [after_inScale hl] at this
    exact this
  have eY : (fun (k : Fin (d.ph + 1)) (i : Fin d.ny) => m'.o.seqOutput.get k i)
      = outputsBy F (last outputOf ops).isSome (statesOf ops x0 z) (inputsOf ops z) := by
    have := ha.seqO
    rw [after_stScale hl, after_inScale hl, after_out hl] at this
    refine this.trans ?_
    funext k
    cases hg : last outputOf ops with
    | none => rfl
    | some G => exact hF.out G hg _ _ _
  rw [eX, eU, eY]
  intro c hc
  rcases List.mem_append.1 hc with hc | hc
  · exact checkTrace_about _ _ _ _ _ _ c hc
  · exact outCalls_about _ _ _ _ c hc

/-! ### exceptions -/

/-- what `optimize` reports when the solver or the check of its answer was left by an exception; `before`: the result before -/
structure Caught (before r : LResult K) : Prop where
  status : r.status = .ERROR
  code : r.solver_status = -1
  feasible : r.is_feasible = false
  cost : r.cost = .posInf
  cmd : r.cmd = before.cmd

theorem callbacksP_optVector (o : NlOpt K) (v : Vec K) (s : NlState d K) (cs : List (NlCallback K)) :
    NlMpc.callbacksP { o with optVector := v } s cs = NlMpc.callbacksP o s cs := by
  have : (NlMpc.serveP { o with optVector := v } : NlState d K → NlCallback K → _) = NlMpc.serveP o := by
    funext s c
    cases c <;> rfl
  unfold NlMpc.callbacksP
  rw [this]

theorem optimizeA_eq (T : ∀ c : UserCall d K, Option c.Ans) (w : NlWork K) {m1 : NlMpc d K} {p : Vec K × Vec K}
    (h1 : m.onState (.measure x0) = .ok m1) (h2 : m1.o.prepare d m1.s.mp junk x0 u0 = .ok p) :
    m.optimizeA T w x0 u0 cs oc junk
      = NlMpc.searchA T w { m1 with o := { m1.o with optVector := p.1 } } (m1.solverCall p.2) x0 cs oc junk := by
  unfold NlMpc.optimizeA
  rw [h1, ok_bind, h2]
  rfl

/-- the calls of the search -/
abbrev searchCalls (ops : List (NlCall d K)) (x0 : Vec K) (F : ∀ c : UserCall d K, c.Ans) (call : NlSolverCall K)
    (cs : List (NlCallback K)) : List (UserCall d K) :=
  cs.flatMap (callbackTrace F (last samplingOf ops).isSome (last outputOf ops).isSome call (statesOf ops x0) (inputsOf ops))

/-- the calls of the check of the answer -/
noncomputable abbrev checkCalls (ops : List (NlCall d K)) (x0 : Vec K) (F : ∀ c : UserCall d K, c.Ans) (z : Vec K) : List (UserCall d K) :=
  checkTrace F (last outputOf ops).isSome ((last ineqConOf ops).map (·.2)) (last eqConOf ops).isSome (statesOf ops x0 z) (inputsOf ops z)
    (z.get (slackIx d))

/-- the calls for the reported outputs -/
abbrev reportCalls (ops : List (NlCall d K)) (x0 z : Vec K) : List (UserCall d K) :=
  outCalls (last outputOf ops).isSome (statesOf ops x0 z) (inputsOf ops z)

section
variable {T : ∀ c : UserCall d K, Option c.Ans} (w : NlWork K)

/-- C132: functions which may throw, but do not throw in a call which the `optimize` makes -/
theorem c132_returns (h : NlRan d dyn ops outs m) (hF : SetFunctions ops F) (hT : ∀ c, T c = none ∨ T c = some (F c))
    (hfit : CallFits d (.optimize x0 u0 cs oc junk))
    (hr : m.step (.optimize x0 u0 cs oc junk) = .ok (m', .result r call)) (hoc : ∀ z v c, oc ≠ .answered z v c true)
    (hs : ∀ c ∈ searchCalls ops x0 F call cs, T c ≠ none)
    (ha : ∀ z v c t, oc = .answered z v c t → ∀ c ∈ checkCalls ops x0 F z ++ reportCalls ops x0 z, T c ≠ none) :
    m.optimizeA T w x0 u0 cs oc junk = (.ok (m', .result r call), searchCalls ops x0 F call cs ++
      answerTrace F (last outputOf ops).isSome ((last ineqConOf ops).map (·.2)) (last eqConOf ops).isSome (statesOf ops x0) (inputsOf ops) oc) := by
  obtain ⟨m1, p, s, h1, h2, k3, hcall, hA, c1, c2, h4, hres, hans⟩ := optimize_phases h hF hfit hr
  replace c2 : _ = searchCalls ops x0 F call cs := c2
  rw [optimizeA_eq T w h1 h2]
  unfold NlMpc.searchA
  dsimp only
  rw [callbacksP_optVector, Calls.attempt_returns _ fun c hc => (hT c).resolve_left (hs c (by rw [← c2]; exact hc)), c1, c2]
  dsimp only
  cases oc with
  | threw =>
    cases h4
    subst hres hcall
    refine Prod.ext rfl ?_
    exact (List.append_nil _).symm
  | answered z value code t =>
    cases t with
    | true => exact absurd rfl (hoc z value code)
    | false =>
      obtain ⟨f, f1, f2, f3, f4⟩ := hans z value code rfl
      replace f2 : _ = checkCalls ops x0 F z := f2
      replace f4 : _ = reportCalls ops x0 z := f4
      have ha := ha z value code false rfl
      dsimp only
      rw [Calls.attempt_returns _ fun c hc => (hT c).resolve_left (ha c (List.mem_append_left _ (by rw [f2] at hc; exact hc))), f1, f2]
      dsimp only
      rw [Calls.attempt_returns _ fun c hc => (hT c).resolve_left (ha c (List.mem_append_right _ (by rw [f4] at hc; exact hc))), f3, f4]
      dsimp only
      rw [hres, hcall]
      rfl

/-- C132: the first call which throws is one of the search: it is the last call of the `optimize`, which reports a failure. -/
theorem c132_search_throws (h : NlRan d dyn ops outs m) (hF : SetFunctions ops F) (hT : ∀ c, T c = none ∨ T c = some (F c))
    (hfit : CallFits d (.optimize x0 u0 cs oc junk))
    (hr : m.step (.optimize x0 u0 cs oc junk) = .ok (m', .result r call)) {l l' : List (UserCall d K)} {c : UserCall d K}
    (hl : searchCalls ops x0 F call cs = l ++ c :: l') (hb : ∀ c' ∈ l, T c' ≠ none) (hc : T c = none) :
    ∃ m1 r1, m.optimizeA T w x0 u0 cs oc junk = (.ok (m1, .result r1 call), l ++ [c]) ∧ Caught m.o.result r1 := by
  obtain ⟨m1, p, s, h1, h2, k3, hcall, hA, c1, c2, h4, hres, hans⟩ := optimize_phases h hF hfit hr
  replace c2 : _ = searchCalls ops x0 F call cs := c2
  rw [optimizeA_eq T w h1 h2]
  unfold NlMpc.searchA
  dsimp only
  rw [callbacksP_optVector, Calls.attempt_throws _ l c l' (c2.trans hl) (fun c' hc' => (hT c').resolve_left (hb c' hc')) hc]
  dsimp only
  rw [← hcall]
  exact ⟨_, _, rfl, rfl, rfl, rfl, rfl, by rw [← k3]; rfl⟩

/-- C132: the first call which throws is one of the check of the solver's answer: likewise. -/
theorem c132_check_throws (h : NlRan d dyn ops outs m) (hF : SetFunctions ops F) (hT : ∀ c, T c = none ∨ T c = some (F c))
    {z : Vec K} {value : Ext K} {code : Int} (hfit : CallFits d (.optimize x0 u0 cs (.answered z value code false) junk))
    (hr : m.step (.optimize x0 u0 cs (.answered z value code false) junk) = .ok (m', .result r call))
    (hs : ∀ c ∈ searchCalls ops x0 F call cs, T c ≠ none) {l l' : List (UserCall d K)} {c : UserCall d K}
    (hl : checkCalls ops x0 F z = l ++ c :: l') (hb : ∀ c' ∈ l, T c' ≠ none) (hc : T c = none) :
    ∃ m1 r1, m.optimizeA T w x0 u0 cs (.answered z value code false) junk
        = (.ok (m1, .result r1 call), searchCalls ops x0 F call cs ++ (l ++ [c])) ∧ Caught m.o.result r1 := by
  obtain ⟨m1, p, s, h1, h2, k3, hcall, hA, c1, c2, h4, hres, hans⟩ := optimize_phases h hF hfit hr
  replace c2 : _ = searchCalls ops x0 F call cs := c2
  obtain ⟨f, f1, f2, f3, f4⟩ := hans z value code rfl
  replace f2 : _ = checkCalls ops x0 F z := f2
  replace f4 : _ = reportCalls ops x0 z := f4
  rw [optimizeA_eq T w h1 h2]
  unfold NlMpc.searchA
  dsimp only
  rw [callbacksP_optVector, Calls.attempt_returns _ fun c hc => (hT c).resolve_left (hs c (by rw [← c2]; exact hc)), c1, c2]
  dsimp only
  rw [Calls.attempt_throws _ l c l' (f2.trans hl) (fun c' hc' => (hT c').resolve_left (hb c' hc')) hc]
  dsimp only
  rw [← hcall]
  exact ⟨_, _, rfl, rfl, rfl, rfl, rfl, by rw [← k3]; rfl⟩

/-- C132: the first call which throws is one for the reported outputs: the exception leaves `optimize`. -/
theorem c132_report_throws (h : NlRan d dyn ops outs m) (hF : SetFunctions ops F) (hT : ∀ c, T c = none ∨ T c = some (F c))
    {z : Vec K} {value : Ext K} {code : Int} (hfit : CallFits d (.optimize x0 u0 cs (.answered z value code false) junk))
    (hr : m.step (.optimize x0 u0 cs (.answered z value code false) junk) = .ok (m', .result r call))
    (hs : ∀ c ∈ searchCalls ops x0 F call cs ++ checkCalls ops x0 F z, T c ≠ none) {l l' : List (UserCall d K)} {c : UserCall d K}
    (hl : reportCalls ops x0 z = l ++ c :: l') (hb : ∀ c' ∈ l, T c' ≠ none) (hc : T c = none) :
    ∃ m1, m.optimizeA T w x0 u0 cs (.answered z value code false) junk
        = (.ok (m1, .threw), searchCalls ops x0 F call cs ++ (checkCalls ops x0 F z ++ (l ++ [c]))) ∧ m1.o.result = m.o.result := by
  obtain ⟨m1, p, s, h1, h2, k3, hcall, hA, c1, c2, h4, hres, hans⟩ := optimize_phases h hF hfit hr
  replace c2 : _ = searchCalls ops x0 F call cs := c2
  obtain ⟨f, f1, f2, f3, f4⟩ := hans z value code rfl
  replace f2 : _ = checkCalls ops x0 F z := f2
  replace f4 : _ = reportCalls ops x0 z := f4
  rw [optimizeA_eq T w h1 h2]
  unfold NlMpc.searchA
  dsimp only
  rw [callbacksP_optVector, Calls.attempt_returns _ fun c hc => (hT c).resolve_left (hs c (List.mem_append_left _ (by rw [c2] at hc; exact hc))), c1, c2]
  dsimp only
  rw [Calls.attempt_returns _ fun c hc => (hT c).resolve_left (hs c (List.mem_append_right _ (by rw [f2] at hc; exact hc))), f1, f2]
  dsimp only
  rw [Calls.attempt_throws _ l c l' (f4.trans hl) (fun c' hc' => (hT c').resolve_left (hb c' hc')) hc]
  dsimp only
  rw [NlMpc.acceptP_run _ hA.out] at f3
  rw [Constraints.isFeasibleP_run s.con s.mp hA.out hA.ineq hA.eq z] at f1
  unfold NlMpc.accept at f3
  dsimp only at f3
  obtain ⟨a, e1, f3⟩ := bind_eq_ok.1 f3
  obtain ⟨b, e2, f3⟩ := bind_eq_ok.1 f3
  obtain ⟨a2, e3, f3⟩ := bind_eq_ok.1 f3
  obtain ⟨a3, e4, f3⟩ := bind_eq_ok.1 f3
  unfold NlMpc.conclude NlMpc.escape
  dsimp only
  rw [f1, ok_bind, e1, ok_bind, e3, ok_bind, e4, ok_bind]
  exact ⟨_, rfl, by rw [← k3]⟩

/-- C132: with inequality constraints the check of an answer calls the output function where the report does afterwards, so no exception
leaves `optimize` (functions which throw or return always, for the same arguments). -/
theorem c132_contained (h : NlRan d dyn ops outs m) (hF : SetFunctions ops F) (hT : ∀ c, T c = none ∨ T c = some (F c))
    (hfit : CallFits d (.optimize x0 u0 cs oc junk))
    (hr : m.step (.optimize x0 u0 cs oc junk) = .ok (m', .result r call)) (hoc : ∀ z v c, oc ≠ .answered z v c true)
    (hi : (last ineqConOf ops).isSome) :
    ∃ m1 r1 l, m.optimizeA T w x0 u0 cs oc junk = (.ok (m1, .result r1 call), l) ∧ (r1 = r ∧ m1 = m' ∨ Caught m.o.result r1) := by
  have key : ∀ q : List (UserCall d K), (∀ c ∈ q, T c ≠ none) ∨ ∃ l c l', q = l ++ c :: l' ∧ (∀ c' ∈ l, T c' ≠ none) ∧ T c = none := by
    intro q
    induction q with
    | nil => exact .inl fun c hc => absurd hc (List.not_mem_nil)
    | cons a q ih =>
      by_cases ha : T a = none
      · exact .inr ⟨[], a, q, rfl, fun c hc => absurd hc (List.not_mem_nil), ha⟩
      · rcases ih with ih | ⟨l, c, l', e1, e2, e3⟩
        · left
          intro c hc
          rcases List.mem_cons.1 hc with rfl | hc
          · exact ha
          · exact ih c hc
        · refine .inr ⟨a :: l, c, l', by rw [e1]; rfl, ?_, e3⟩
          intro c' hc'
          rcases List.mem_cons.1 hc' with rfl | hc'
          · exact ha
          · exact e2 c' hc'
  rcases key (searchCalls ops x0 F call cs) with hs | ⟨l, c, l', e1, e2, e3⟩
  swap
  · obtain ⟨m1, r1, q1, q2⟩ := c132_search_throws w h hF hT hfit hr e1 e2 e3
    exact ⟨m1, r1, _, q1, .inr q2⟩
  cases oc with
  | threw =>
    exact ⟨_, _, _, c132_returns w h hF hT hfit hr hoc hs (fun _ _ _ _ e => by cases e), .inl ⟨rfl, rfl⟩⟩
  | answered z value code t =>
    cases t with
    | true => exact absurd rfl (hoc z value code)
    | false =>
      rcases key (checkCalls ops x0 F z) with ha | ⟨l, c, l', e1, e2, e3⟩
      swap
      · obtain ⟨m1, r1, q1, q2⟩ := c132_check_throws w h hF hT hfit hr hs e1 e2 e3
        exact ⟨m1, r1, _, q1, .inr q2⟩
      refine ⟨_, _, _, c132_returns w h hF hT hfit hr hoc hs ?_, .inl ⟨rfl, rfl⟩⟩
      rintro _ _ _ _ ⟨⟩ c hc
      rcases List.mem_append.1 hc with hc | hc
      · exact ha c hc
      · refine ha c ?_
        obtain ⟨t, ht⟩ := Option.isSome_iff_exists.1 hi
        unfold checkCalls checkTrace
        rw [ht]
        exact List.mem_append_left _ (List.mem_append_left _ hc)

end

/-- C132: after the search at most `2 (ph + 1) + 2` calls are made, and none if the solver fails. -/
theorem c132_tail (F : ∀ c : UserCall d K, c.Ans) (b e : Bool) (t : Option K) (X : Vec K → Traj (d.ph + 1) d.nx K)
    (U : Vec K → Traj (d.ph + 1) d.nu K) (oc : NlOutcome K) :
    (answerTrace F b t e X U oc).length ≤ (if oc matches .threw then 0 else 2 * (d.ph + 1) + 2) := by
  cases oc with
  | threw => exact le_refl _
  | answered z v c th =>
    show (checkTrace F b t e (X z) (U z) _ ++ outCalls b (X z) (U z)).length ≤ 2 * (d.ph + 1) + 2
    have h1 : (outCalls b (X z) (U z)).length ≤ d.ph + 1 := by
      have := outCalls_length b (X z) (U z)
      unfold perPoint at this
      split_ifs at this <;> omega
    have h2 : (checkTrace F b t e (X z) (U z) (z.get (slackIx d))).length ≤ d.ph + 1 + 2 := by
      unfold checkTrace
      cases t with
      | none => dsimp only; split_ifs <;> simp
      | some t =>
        dsimp only
        have h3 : (ineqCalls F b (X z) (U z) (z.get (slackIx d))).length ≤ d.ph + 2 := by
          rw [ineqCalls_length]
          unfold perPoint
          split_ifs <;> omega
        rw [List.length_append]
        split_ifs
        · simpa using h3
        · simp only [List.length_nil]; omega
    rw [List.length_append]
    omega

end

/-! ### samples -/

/-- an output function which always throws -/
def throwsOut : ∀ c : UserCall dN ℚ, Option c.Ans
  | .out _ _ _ => none
  | .state x u k => some (fnsC (.state x u k))
  | .obj X Y U e => some (fnsC (.obj X Y U e))
  | .ineq X Y U e => some (fnsC (.ineq X Y U e))
  | .eq X U => some (fnsC (.eq X U))

theorem throwsOut_fnsC (c : UserCall dN ℚ) : throwsOut c = none ∨ throwsOut c = some (fnsC c) := by
  cases c
  · exact .inr rfl
  · exact .inl rfl
  all_goals exact .inr rfl

/-- C132, all functions set: the solver answers, the inequality constraints hold at the answer, so the equality constraints are
called: `2 (ph + 1) + 2 = 10` calls -/
example : ∃ outs m m' r call,
    NlAsked dN false opsC outs (nvec 2 fun _ => 1) (nvec 1 fun _ => 0) [] (.answered (zN 1) (.fin 0) 1 false) m m' r call ∧
    ∃ junk, (m.optimizeP (nvec 2 fun _ => 1) (nvec 1 fun _ => 0) [] (.answered (zN 1) (.fin 0) 1 false) junk).calls fnsC
      = answerTrace fnsC true (some (1 / 100)) true (statesOf opsC (nvec 2 fun _ => 1)) (inputsOf opsC) (.answered (zN 1) (.fin 0) 1 false) := by
  obtain ⟨outs, m, m', r, call, h⟩ := asked_of (ops := opsC) 1 0 (.answered (zN 1) (.fin 0) 1 false) (by rintro _ _ _ _ ⟨⟩; rfl)
    (by simp [opsC, NlSpec.CallFits]) (by simp [opsC, AdmFrom, NlSpec.Admissible])
  refine ⟨outs, m, m', r, call, h, ?_⟩
  obtain ⟨junk, hf, hr⟩ := h.ask
  exact ⟨junk, (c132_trace h.toNlRan fnsC_set hf hr (by rintro _ _ _ ⟨⟩)).2⟩

/-- C132, inequality constraints set: the output function throws in the check of the answer; it is called once -/
example (w : NlWork ℚ) : ∃ outs m m' r call,
    NlAsked dN false opsC outs (nvec 2 fun _ => 1) (nvec 1 fun _ => 0) [] (.answered (zN 1) (.fin 0) 1 false) m m' r call ∧
    ∃ junk m1 r1 l, m.optimizeA throwsOut w (nvec 2 fun _ => 1) (nvec 1 fun _ => 0) [] (.answered (zN 1) (.fin 0) 1 false) junk
      = (.ok (m1, .result r1 call), l) ∧ l.length = 1 ∧ Caught m.o.result r1 := by
  obtain ⟨outs, m, m', r, call, h⟩ := asked_of (ops := opsC) 1 0 (.answered (zN 1) (.fin 0) 1 false) (by rintro _ _ _ _ ⟨⟩; rfl)
    (by simp [opsC, NlSpec.CallFits]) (by simp [opsC, AdmFrom, NlSpec.Admissible])
  refine ⟨outs, m, m', r, call, h, ?_⟩
  obtain ⟨junk, hf, hr⟩ := h.ask
  obtain ⟨m1, r1, q1, q2⟩ := c132_check_throws w h.toNlRan fnsC_set throwsOut_fnsC hf hr (fun _ hc => by cases hc)
    (l := []) (by unfold checkCalls checkTrace; rfl) (by simp) rfl
  exact ⟨junk, m1, r1, _, q1, rfl, q2⟩

/-- model, objective and output only -/
def opsEsc : List (NlCall dN ℚ) :=
  [ .setObjectiveFunction (fun X Y U e => X 3 0 * X 3 0 + Y 1 0 + U 0 0 + e) true,
    .setStateSpaceFunction (fun x u _ a => if a = 0 then x 1 else u 0) 0 true,
    .setOutputFunction (fun _ x _ _ _ => x 0) ]

theorem fnsC_setEsc : SetFunctions opsEsc fnsC := by
  refine ⟨?_, ?_, ?_, ?_, ?_⟩
  · intro G hG; cases hG; intros; rfl
  · intro G hG; cases hG; intros; rfl
  · intro G hG; cases hG; intros; rfl
  · intro G tol hG; cases hG
  · intro G tol hG; cases hG

/-- C132, no inequality constraints: the same exception leaves `optimize`. -/
example (w : NlWork ℚ) : ∃ outs m m' r call,
    NlAsked dN false opsEsc outs (nvec 2 fun _ => 1) (nvec 1 fun _ => 0) [] (.answered (zN 1) (.fin 0) 1 false) m m' r call ∧
    ∃ junk m1 l, m.optimizeA throwsOut w (nvec 2 fun _ => 1) (nvec 1 fun _ => 0) [] (.answered (zN 1) (.fin 0) 1 false) junk
      = (.ok (m1, .threw), l) ∧ l.length = 1 := by
  obtain ⟨outs, m, m', r, call, h⟩ := asked_of (ops := opsEsc) 1 0 (.answered (zN 1) (.fin 0) 1 false) (by rintro _ _ _ _ ⟨⟩; rfl)
    (by simp [opsEsc, NlSpec.CallFits]) (by simp [opsEsc, AdmFrom, NlSpec.Admissible])
  refine ⟨outs, m, m', r, call, h, ?_⟩
  obtain ⟨junk, hf, hr⟩ := h.ask
  obtain ⟨m1, q1, -⟩ := c132_report_throws w h.toNlRan fnsC_setEsc throwsOut_fnsC hf hr
    (by
      intro c hc
      have e : checkCalls opsEsc (nvec 2 fun _ => 1) fnsC (zN 1) = [] := by unfold checkCalls checkTrace; exact if_neg (by decide)
      rw [e] at hc
      cases hc)
    (l := []) (by unfold reportCalls outCalls; rfl) (by simp) rfl
  refine ⟨junk, m1, _, q1, ?_⟩
  have e : checkCalls opsEsc (nvec 2 fun _ => 1) fnsC (zN 1) = [] := by unfold checkCalls checkTrace; exact if_neg (by decide)
  rw [e]
  rfl

end Mpc.Props
