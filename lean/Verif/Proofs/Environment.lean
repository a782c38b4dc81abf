import Verif.Spec.Environment
import Verif.Proofs.NlThrowTotal

/-
Histories in environments which change act, at each call, like the history in which the environment was always the one of that
call.
-/
namespace Mpc
open Exec
set_option linter.unusedSectionVars false

variable {E : Type} {d : Dims} {K : Type} [Field K] [LinearOrder K] [IsStrictOrderedRing K]

open NlSpec NlMpc

/-- the configuration with the stored functions read in environment `e` -/
def Handles.cfgAt (h : Handles E d K) (e : E) (c : Cfg d K) : Cfg d K :=
  { c with
    field := h.field.map fun F => F e
    out := h.out.map fun g => g e
    obj := h.obj.map fun f => f e
    ineq := h.ineq.map fun F => F e
    eq := h.eq.map fun F => F e }

/-- the abstract state, likewise -/
def Handles.ctlAt (h : Handles E d K) (e : E) (c : NlCtl d K) : NlCtl d K := { c with cfg := h.cfgAt e c.cfg }

theorem Handles.look_holds {h : Handles E d K} {e e' : E} {s : NlState d K} {c : Cfg d K} (hs : s.Holds (h.cfgAt e' c)) :
    (h.look e s).Holds (h.cfgAt e c) := by
  refine ⟨hs.good, hs.dims, hs.inS, hs.stS, hs.cont, hs.Ts, ?_, rfl, rfl, ?_, ?_, ⟨hs.osz.x0, hs.osz.X, hs.osz.U⟩,
    ⟨hs.csz.x0, hs.csz.X, hs.csz.U, hs.csz.ceq, hs.csz.Jceq, hs.csz.ci, hs.csz.Ji, hs.csz.ce, hs.csz.Je⟩, hs.ox0, hs.cx0⟩
  all_goals
    simp only [look, cfgAt, Option.map_map]
    rfl

theorem Handles.look_agrees {h : Handles E d K} {e e' : E} {m : NlMpc d K} {c : NlCtl d K} (hm : m.Agrees (h.ctlAt e' c)) :
    Agrees { m with s := h.look e m.s } (h.ctlAt e c) := by
  refine ⟨look_holds hm.holds, fun hh => hm.ti ?_, fun hh => hm.te ?_, hm.lbs, hm.ubs, hm.lb, hm.ub, hm.slb, hm.sub, hm.lim,
    hm.warm, hm.obj, hm.groups, hm.zs, hm.z, hm.first, hm.slack, hm.cmds, hm.cmd⟩
  all_goals
    simp only [ctlAt, cfgAt, Option.isSome_map] at hh ⊢
    exact hh

/-- reading in another environment afterwards -/
theorem Handles.ctlAt_step (h : Handles E d K) (e e' : E) (c : NlCtl d K) (b : Bool) (op : EnvCall E d K) :
    (h.ctlAt e c).stepT b (op.frozen e) = (h.store op).ctlAt e ((h.ctlAt e' c).stepT b (op.frozen e')) := by
  have opt : ∀ x u oc, (h.ctlAt e c).solved x u oc = h.ctlAt e ((h.ctlAt e' c).solved x u oc) := by
    intro x u oc
    rcases oc with _ | ⟨z, v, k, _ | _⟩ <;> rfl
  cases op with
  | call op =>
    cases op with
    | setOptimizerParameters p => cases p <;> rfl
    | setStateBoundsSlice l u s => cases b <;> rfl
    | setInputBoundsSlice l u s => cases b <;> rfl
    | optimize x0 u0 cs oc j => exact opt _ _ _
    | _ => rfl
  | optimize x0 u0 vs ending j =>
    cases ending with
    | outputThrows z => rfl
    | solverThrows => exact opt x0.get u0.get .threw
    | checkThrows z w => exact opt x0.get u0.get (.answered z (.fin 0) 0 true)
    | returns z v k => exact opt x0.get u0.get (.answered z v k false)
  | _ => rfl

/-- the callbacks of the solver -/
theorem Handles.visits_ok {h : Handles E d K} {o : NlOpt K} {e : E} {s s' : NlState d K} {c : Cfg d K} (hs : s.Holds (h.cfgAt e c))
    (hp : d.ph < 2 ^ 31) {vs : List (E × NlVisit K)} (hf : ∀ v ∈ vs, VisitFits d v.2) (hr : h.visits o s vs = .ok s') :
    (∃ e', s'.Holds (h.cfgAt e' c)) ∧ Kept s s' := by
  unfold visits at hr
  induction vs using List.reverseRecOn generalizing s' with
  | nil => cases hr; exact ⟨⟨e, hs⟩, rfl, rfl, rfl⟩
  | append_singleton l v ih =>
    rw [List.foldl_append] at hr
    obtain ⟨s1, h1, hr⟩ := bind_eq_ok.1 hr
    obtain ⟨⟨e1, g1⟩, g2⟩ := ih (fun k hk => hf k (by simp [hk])) h1
    obtain ⟨k1, k2⟩ := visit_ok (look_holds (e := v.1) g1) hp (hf v (by simp)) hr
    exact ⟨⟨_, k1⟩, k2.mp.trans g2.mp, k2.ti.trans g2.ti, k2.te.trans g2.te⟩

/-- how an `optimize` without callbacks goes on from the state the callbacks leave -/
theorem Handles.optimize_pre {h : Handles E d K} {e e' : E} {m : NlMpc d K} {c : NlCtl d K} (hm : m.Agrees (h.ctlAt e' c))
    (hp : d.ph < 2 ^ 31) {x0 u0 : Vec K} {vs : List (E × NlVisit K)} {ending : NlEnding K} {junk : Nat → K}
    {r : NlMpc d K × NlOut K} (hx : x0.size = d.nx) (hvs : ∀ v ∈ vs, VisitFits d v.2)
    (hr : h.optimize e m x0 u0 vs ending junk = .ok r) :
    ∃ s, Agrees { m with s := s } { h.ctlAt e c with cfg := (h.ctlAt e c).cfg.step (.measure x0) } ∧
      optimizeT { m with s := s } x0 u0 [] ending junk = .ok r := by
  unfold optimize at hr
  obtain ⟨m1, h1, hr⟩ := bind_eq_ok.1 hr
  obtain ⟨k1, k2, k3, k4⟩ := onState_agrees hm hp (op := .measure x0) hx h1
  obtain ⟨p, h2, hr⟩ := bind_eq_ok.1 hr
  obtain ⟨s, h3, hr⟩ := bind_eq_ok.1 hr
  have k1' : m1.s.Holds (h.cfgAt e' (c.cfg.step (.measure x0))) := k1
  obtain ⟨⟨e2, l1⟩, l2⟩ := visits_ok k1' hp hvs h3
  have l3 : (h.look e s).Holds ((h.ctlAt e c).cfg.step (.measure x0)) := look_holds l1
  obtain ⟨t1, t2⟩ := tol_pair k2
  refine ⟨h.look e s, ?_, ?_⟩
  · refine agrees_state (m := { m with s := h.look e m.s }) (m' := { m with s := h.look e s }) (c := h.ctlAt e c) (ti := c.ti)
      (te := c.te) (look_agrees hm) l3 (fun hh => ?_) (fun hh => ?_) rfl
    · refine (l2.ti.trans t1).trans (hm.ti ?_)
      have hh : (h.ineq.map fun F => F e).isSome = true := hh
      show (h.ineq.map fun F => F e').isSome = true
      rw [Option.isSome_map] at hh ⊢
      exact hh
    · refine (l2.te.trans t2).trans (hm.te ?_)
      have hh : (h.eq.map fun F => F e).isSome = true := hh
      show (h.eq.map fun F => F e').isSome = true
      rw [Option.isSome_map] at hh ⊢
      exact hh
  · unfold optimizeT onState
    dsimp only
    rw [measured l3 hx, ok_bind]
    dsimp only [pure_bind']
    have emp : (h.look e s).mp = m1.s.mp := l2.mp
    rw [emp, ← k3, h2, ok_bind]
    unfold NlMpc.visits
    rw [List.foldl_nil, ok_bind]
    have eo : m1.dynamic = m.dynamic := k4
    obtain ⟨ms, mo, md⟩ := m1
    dsimp only at k3 eo ⊢
    subst k3 eo
    exact hr

theorem given_measured {c : NlCtl d K} {x : Vec K} {x0 u0 : Nat → K} {call : NlSolverCall K}
    (q5 : Given { c with cfg := c.cfg.step (.measure x) } x0 u0 call) : Given c x0 u0 call :=
  ⟨q5.guess, q5.lbs, q5.ubs, q5.lb, q5.ub, q5.lim, q5.obj, q5.groups⟩

theorem reported_measured {c : NlCtl d K} {x : Vec K} {old r : LResult K} {x0 : Nat → K} {o : NlOpt K} {oc : NlOutcome K}
    (q6 : Reported { c with cfg := c.cfg.step (.measure x) } old x0 r o oc) : Reported c old x0 r o oc := by
  cases oc with
  | threw => exact q6
  | answered z v k t =>
    cases t with
    | true => exact q6
    | false =>
      have q6 : Answered _ _ _ _ _ _ _ := q6
      exact ⟨q6.status, q6.code, q6.cost, q6.cmdSize, q6.cmd, q6.feas, q6.sS, q6.sI, q6.sO, q6.seqS, q6.seqI, q6.seqO⟩

/-- an effect of `optimize` depends on the measured state of the call only -/
theorem effect_measured {c : NlCtl d K} {x x0 u0 : Vec K} {o o' : NlOpt K} {out : NlOut K} {ending : NlEnding K} {vs : List (NlVisit K)}
    {junk : Nat → K} (h : Effect { c with cfg := c.cfg.step (.measure x) } o o' out (.optimize x0 u0 vs ending junk)) :
    Effect c o o' out (.optimize x0 u0 vs ending junk) := by
  have caught : ∀ oc : NlOutcome K, (∃ r call, out = .result r call ∧ r = o'.result ∧
      Given { c with cfg := c.cfg.step (.measure x) } x0.get u0.get call ∧
      Reported { c with cfg := c.cfg.step (.measure x) } o.result x0.get r o' oc) →
      ∃ r call, out = .result r call ∧ r = o'.result ∧ Given c x0.get u0.get call ∧ Reported c o.result x0.get r o' oc := by
    rintro oc ⟨r, call, e1, e2, e3, e4⟩
    exact ⟨r, call, e1, e2, given_measured e3, reported_measured e4⟩
  cases ending with
  | outputThrows z =>
    obtain ⟨e1, e2⟩ := h
    exact ⟨e1, e2.result, e2.outputs, e2.sS, e2.sI, e2.seqS, e2.seqI⟩
  | solverThrows => exact caught _ h
  | checkThrows z w => exact caught _ h
  | returns z v k => exact caught _ h

/-- the course of a call does not depend on the callbacks -/
theorem course_optimize (x0 u0 : Vec K) (vs vs' : List (NlVisit K)) (ending : NlEnding K) (j : Nat → K) :
    course (.optimize x0 u0 vs ending j : NlTCall d K) = course (.optimize x0 u0 vs' ending j) := by
  cases ending <;> rfl

/-- one call in environment `e` -/
theorem Handles.step_ok {h h' : Handles E d K} {e e' : E} {m m' : NlMpc d K} {c : NlCtl d K} (hm : m.Agrees (h.ctlAt e' c))
    (hp : d.ph < 2 ^ 31) (hn : d.nZ ≤ 2 ^ 64) {op : EnvCall E d K} (hf : TCallFits d (op.frozen e)) {out : NlOut K}
    (hr : h.step e m op = .ok ((h', m'), out)) :
    h' = h.store op ∧ m'.Agrees ((h.ctlAt e c).stepT out.refused (op.frozen e)) ∧ m'.dynamic = m.dynamic ∧
      Effect (h.ctlAt e c) m.o m'.o out (course (op.frozen e)) := by
  have other : ∀ op : EnvCall E d K, TCallFits d (op.frozen e) → (do
      let r ← NlMpc.stepT { m with s := h.look e m.s } (op.frozen e)
      return ((h.store op, r.1), r.2) : Exec _) = .ok ((h', m'), out) →
      h' = h.store op ∧ m'.Agrees ((h.ctlAt e c).stepT out.refused (op.frozen e)) ∧ m'.dynamic = m.dynamic ∧
      Effect (h.ctlAt e c) m.o m'.o out (course (op.frozen e)) := by
    intro op hf hr
    obtain ⟨r, h1, hr⟩ := bind_eq_ok.1 hr
    cases hr
    obtain ⟨a1, a2, a3⟩ := stepT_ok (look_agrees hm) hp hn hf h1
    exact ⟨rfl, a1, a2, a3⟩
  cases op with
  | optimize x0 u0 vs ending junk =>
    obtain ⟨r, h1, hr⟩ := bind_eq_ok.1 hr
    cases hr
    obtain ⟨hx, hu, hvs, hz⟩ := hf
    obtain ⟨s, b1, b2⟩ := optimize_pre (e := e) hm hp hx (fun v hv => hvs v.2 (List.mem_map_of_mem hv)) h1
    have b2 : stepT { m with s := s } (.optimize x0 u0 [] ending junk) = .ok (r.1, r.2) := b2
    obtain ⟨a1, a2, a3⟩ := stepT_ok b1 hp hn (op := .optimize x0 u0 [] ending junk) ⟨hx, hu, by simp, hz⟩ b2
    refine ⟨rfl, ?_, a2, ?_⟩
    · cases ending <;> exact a1
    · have : course ((EnvCall.optimize x0 u0 vs ending junk : EnvCall E d K).frozen e) = course (.optimize x0 u0 [] ending junk) :=
        course_optimize _ _ _ _ _ _
      rw [this]
      cases ending <;> exact effect_measured a3
  | call op => exact other _ hf hr
  | setObjectiveFunction f acc => exact other _ hf hr
  | setStateSpaceFunction F tol acc => exact other _ hf hr
  | setOutputFunction g => exact other _ hf hr
  | setIneqConFunction F tol acc => exact other _ hf hr
  | setEqConFunction F tol acc => exact other _ hf hr

/-! ### histories -/

theorem Handles.run_snoc {junk : Nat → K} {dyn : Bool} {ops : List (E × EnvCall E d K)} {c : E × EnvCall E d K} :
    run d junk dyn (ops ++ [c]) = (do
      let q ← run d junk dyn ops
      let r ← q.1.1.step c.1 q.1.2 c.2
      return (r.1, q.2 ++ [r.2])) := by
  unfold run
  rw [List.foldl_append]
  rfl

/-- After a history the controller is, in every environment, in the abstract state of the history frozen in that
environment. (Environments exist: `e0`.) -/
theorem Handles.run_agrees (e0 : E) (hch : 0 < d.ch) (hle : d.ch ≤ d.ph) (hp : d.ph < 2 ^ 31) (hn : d.nZ ≤ 2 ^ 64)
    {junk : Nat → K} {dyn : Bool} {ops : List (E × EnvCall E d K)} (hf : EnvFits d ops) {h : Handles E d K} {m : NlMpc d K}
    {outs : List (NlOut K)} (hr : run d junk dyn ops = .ok ((h, m), outs)) :
    outs.length = ops.length ∧ m.dynamic = dyn ∧
    ∃ c e', m.Agrees (h.ctlAt e' c) ∧ ∀ e, NlCtl.afterT d (frozenAt e ops) outs = h.ctlAt e c := by
  induction ops using List.reverseRecOn generalizing h m outs with
  | nil =>
    obtain ⟨q, hq, hr⟩ := bind_eq_ok.1 hr
    cases hr
    obtain ⟨h1, h2⟩ := (init_agrees hch hle hp junk dyn).of_eq hq
    exact ⟨rfl, h2, NlCtl.fresh d, e0, h1, fun _ => rfl⟩
  | append_singleton ops a ih =>
    rw [run_snoc] at hr
    obtain ⟨⟨⟨h1, m1⟩, outs1⟩, hq, hr⟩ := bind_eq_ok.1 hr
    obtain ⟨⟨⟨h2, m2⟩, o⟩, hs, hr⟩ := bind_eq_ok.1 hr
    cases hr
    obtain ⟨g1, g2, c, e', g3, g4⟩ := ih (fun p hp => hf p (by simp [hp])) hq
    dsimp only at hs
    obtain ⟨rfl, k2, k3, -⟩ := step_ok g3 hp hn (hf a (by simp)) hs
    refine ⟨by simp [g1], k3.trans g2, (h1.ctlAt a.1 c).stepT o.refused (a.2.frozen a.1), a.1, ?_, ?_⟩
    · rw [← ctlAt_step]
      exact k2
    · intro e
      unfold frozenAt at g4 ⊢
      rw [List.map_append, List.map_singleton, NlCtl.afterT_snoc (by simp [g1]), g4 e]
      exact ctlAt_step _ _ _ _ _ _

end Mpc

namespace Mpc
open Exec NlSpec NlMpc
set_option linter.unusedSectionVars false
variable {E : Type} {d : Dims} {K : Type} [Field K] [LinearOrder K] [IsStrictOrderedRing K]

/-- whether a call is refused is decided by the call -/
theorem effect_refused {c c' : NlCtl d K} {o o' p p' : NlOpt K} {out out' : NlOut K} {op : NlTCall d K} (hn : Mpc.Plain op)
    (h : Effect c o o' out op) (h' : Effect c' p p' out' op) : out.refused = out'.refused := by
  cases op with
  | call op =>
    rw [outOk_same hn h.1 h'.1]
  | optimize x0 u0 vs e j =>
    cases e with
    | outputThrows z => rw [h.1, h'.1]
    | solverThrows => obtain ⟨_, _, rfl, -⟩ := h; obtain ⟨_, _, rfl, -⟩ := h'; rfl
    | checkThrows z w => obtain ⟨_, _, rfl, -⟩ := h; obtain ⟨_, _, rfl, -⟩ := h'; rfl
    | returns z v k => obtain ⟨_, _, rfl, -⟩ := h; obtain ⟨_, _, rfl, -⟩ := h'; rfl

/-- which calls of a kind are refused does not depend on the functions -/
theorem outOk_refused {op op' : EnvCall E d K} (e e' : E) (he : op = op') {c c' : NlCtl d K} {o o' p p' : NlOpt K} {out out' : NlOut K}
    (h : Effect c o o' out (course (op.frozen e))) (h' : Effect c' p p' out' (course (op'.frozen e'))) :
    out.refused = out'.refused := by
  subst he
  cases op with
  | call op => exact effect_refused (course_plain _) h h'
  | optimize x0 u0 vs ending junk => exact effect_refused (course_plain _) h h'
  | setObjectiveFunction f acc => have := h.1; have h2 := h'.1; exact (congrArg NlOut.refused this).trans (congrArg NlOut.refused h2).symm
  | setStateSpaceFunction F tol acc => have := h.1; have h2 := h'.1; exact (congrArg NlOut.refused this).trans (congrArg NlOut.refused h2).symm
  | setOutputFunction g => have := h.1; have h2 := h'.1; exact (congrArg NlOut.refused this).trans (congrArg NlOut.refused h2).symm
  | setIneqConFunction F tol acc => have := h.1; have h2 := h'.1; exact (congrArg NlOut.refused this).trans (congrArg NlOut.refused h2).symm
  | setEqConFunction F tol acc => have := h.1; have h2 := h'.1; exact (congrArg NlOut.refused this).trans (congrArg NlOut.refused h2).symm

theorem NlCtl.afterT_congr {ops : List (NlTCall d K)} {outs outs' : List (NlOut K)}
    (h : outs.map NlOut.refused = outs'.map NlOut.refused) : NlCtl.afterT d ops outs = NlCtl.afterT d ops outs' := by
  unfold NlCtl.afterT
  have : ∀ (c : NlCtl d K) (ops : List (NlTCall d K)) (outs outs' : List (NlOut K)),
      outs.map NlOut.refused = outs'.map NlOut.refused →
      (ops.zip outs).foldl (fun c q => c.stepT q.2.refused q.1) c = (ops.zip outs').foldl (fun c q => c.stepT q.2.refused q.1) c := by
    intro c ops
    induction ops generalizing c with
    | nil => intro _ _ _; rfl
    | cons a ops ih =>
      intro outs outs' h
      cases outs with
      | nil => cases outs' with
        | nil => rfl
        | cons b l => simp at h
      | cons b l => cases outs' with
        | nil => simp at h
        | cons b' l' =>
          rw [List.map_cons, List.map_cons] at h
          obtain ⟨h1, h2⟩ := List.cons.inj h
          simp only [List.zip_cons_cons, List.foldl_cons, h1]
          exact ih _ _ _ h2
  exact this _ _ _ _ h

/-- the refusals are those of the frozen history -/
theorem Handles.run_refused (e0 : E) (hch : 0 < d.ch) (hle : d.ch ≤ d.ph) (hp : d.ph < 2 ^ 31) (hn : d.nZ ≤ 2 ^ 64)
    {junk junk' : Nat → K} {dyn dyn' : Bool} (e : E) {ops : List (E × EnvCall E d K)} (hf : EnvFits d ops)
    (hf' : ∀ op ∈ frozenAt e ops, TCallFits d op) {h : Handles E d K} {m m' : NlMpc d K}
    {outs outs' : List (NlOut K)} (hr : run d junk dyn ops = .ok ((h, m), outs))
    (hr' : runT d junk' dyn' (frozenAt e ops) = .ok (m', outs')) : outs.map NlOut.refused = outs'.map NlOut.refused := by
  induction ops using List.reverseRecOn generalizing h m m' outs outs' with
  | nil =>
    obtain ⟨q, hq, hr⟩ := bind_eq_ok.1 hr
    obtain ⟨q', hq', hr'⟩ := bind_eq_ok.1 hr'
    cases hr
    cases hr'
    rfl
  | append_singleton ops a ih =>
    have ef : frozenAt e (ops ++ [a]) = frozenAt e ops ++ [a.2.frozen e] := by simp [frozenAt]
    rw [ef] at hf' hr'
    rw [run_snoc] at hr
    rw [runT_snoc] at hr'
    obtain ⟨⟨⟨h1, m1⟩, outs1⟩, hq, hr⟩ := bind_eq_ok.1 hr
    obtain ⟨⟨⟨h2, m2⟩, o⟩, hs, hr⟩ := bind_eq_ok.1 hr
    obtain ⟨⟨m1', outs1'⟩, hq', hr'⟩ := bind_eq_ok.1 hr'
    obtain ⟨⟨m2', o'⟩, hs', hr'⟩ := bind_eq_ok.1 hr'
    cases hr
    cases hr'
    have ff : EnvFits d ops := fun p hp => hf p (by simp [hp])
    have ff' : ∀ op ∈ frozenAt e ops, TCallFits d op := fun p hp => hf' p (by simp [hp])
    have i1 := ih ff ff' hq hq'
    obtain ⟨-, -, c, e', g3, -⟩ := run_agrees e0 hch hle hp hn ff hq
    obtain ⟨c1, -, -⟩ := runT_agrees hch hle hp hn ff' hq'
    obtain ⟨-, -, -, k⟩ := step_ok g3 hp hn (hf a (by simp)) hs
    obtain ⟨-, -, k'⟩ := stepT_ok c1 hp hn (hf' _ (by simp)) hs'
    rw [List.map_append, List.map_append, i1, List.map_singleton, List.map_singleton]
    rw [outOk_refused _ _ rfl k k']

end Mpc
