import Verif.Proofs.NlThrowTotal
import Verif.Props.NlEvaluations

/-
C88, C89: user functions of the nonlinear controller which throw.
-/
namespace Mpc.Props
open Mpc Exec
set_option linter.unusedSectionVars false

section
variable {d : Dims} {K : Type} [Field K] [LinearOrder K] [IsStrictOrderedRing K]

/-- The calls `ops`, with user functions which may throw, were made on a new controller of dimensions `d` (run time dimensions
if `dyn`), with arguments of the right sizes; they returned `outs`. -/
structure NlRanT (d : Dims) (dyn : Bool) (ops : List (NlTCall d K)) (outs : List (NlOut K)) (m : NlMpc d K) : Prop where
  hor : HorizonsOk d
  mem : d.ph * d.nx + d.nu * d.ch + 1 ≤ 2 ^ 64
  fits : ∀ op ∈ ops, NlSpec.TCallFits d op
  ran : ∃ junk : Nat → K, NlMpc.runT d junk dyn ops = .ok (m, outs)

/-- After that history, `optimize(x0, u0)` with callbacks `vs` and ending `e` returns `out`, or throws. -/
structure NlAskedT (d : Dims) (dyn : Bool) (ops : List (NlTCall d K)) (outs : List (NlOut K)) (x0 u0 : Vec K)
    (vs : List (NlVisit K)) (e : NlEnding K) (m m' : NlMpc d K) (out : NlOut K) : Prop extends NlRanT d dyn ops outs m where
  ask : ∃ junk : Nat → K, NlSpec.TCallFits d (.optimize x0 u0 vs e junk) ∧
    m.stepT (.optimize x0 u0 vs e junk) = .ok (m', out)

/-- After that history, inside `optimize(x0, ..)`, after the callbacks `vs`, the evaluation objects are in state `s`. -/
structure InSolverT (d : Dims) (dyn : Bool) (ops : List (NlTCall d K)) (outs : List (NlOut K)) (m : NlMpc d K) (x0 : Vec K)
    (vs : List (NlVisit K)) (s : NlState d K) : Prop extends NlRanT d dyn ops outs m where
  size : x0.size = d.nx
  calls : ∀ v ∈ vs, NlSpec.VisitFits d v
  now : ∃ m1, m.onState (.measure x0) = .ok m1 ∧ NlMpc.visits m1.o m1.s vs = .ok s

variable {dyn : Bool} {ops : List (NlTCall d K)} {outs : List (NlOut K)} {m m' : NlMpc d K} {x0 u0 : Vec K}
  {vs : List (NlVisit K)} {e : NlEnding K} {out : NlOut K}

theorem NlRanT.agrees (h : NlRanT d dyn ops outs m) :
    m.Agrees (NlCtl.afterT d ops outs) ∧ m.dynamic = dyn ∧ outs.length = ops.length := by
  obtain ⟨junk, hr⟩ := h.ran
  exact NlMpc.runT_agrees h.hor.ch_pos h.hor.ch_le h.hor.ph_int h.mem h.fits hr

/-- every `optimize` makes its callbacks in such states -/
theorem NlAskedT.inSolver (h : NlAskedT d dyn ops outs x0 u0 vs e m m' out) {pre post : List (NlVisit K)} (hs : vs = pre ++ post) :
    ∃ s, InSolverT d dyn ops outs m x0 pre s := by
  obtain ⟨junk, ⟨hx, -, hvs, -⟩, hr⟩ := h.ask
  simp only [NlMpc.stepT] at hr
  unfold NlMpc.optimizeT at hr
  obtain ⟨m1, h1, hr⟩ := bind_eq_ok.1 hr
  obtain ⟨p, -, hr⟩ := bind_eq_ok.1 hr
  obtain ⟨s, h3, hr⟩ := bind_eq_ok.1 hr
  subst hs
  have : ∃ t, NlMpc.visits m1.o m1.s pre = .ok t := by
    unfold NlMpc.visits at h3 ⊢
    rw [List.foldl_append] at h3
    cases ht : List.foldl (fun e v => e >>= fun s => NlMpc.visit m1.o s v) (.ok m1.s) pre with
    | ok t => exact ⟨t, rfl⟩
    | error f =>
      rw [ht] at h3
      have : ∀ l : List (NlVisit K), List.foldl (fun e v => e >>= fun s => NlMpc.visit m1.o s v) (.error f) l
          = (.error f : Exec (NlState d K)) := by
        intro l
        induction l with
        | nil => rfl
        | cons a l ih => rw [List.foldl_cons]; exact ih
      rw [this] at h3
      cases h3
  obtain ⟨t, ht⟩ := this
  exact ⟨t, h.toNlRanT, hx, fun v hv => hvs v (by simp [hv]), m1, h1, ht⟩

theorem InSolverT.holds {s : NlState d K} (h : InSolverT d dyn ops outs m x0 vs s) :
    s.Holds { (NlCtl.afterT d ops outs).cfg with x0 := some x0.get } := by
  obtain ⟨m1, h1, h2⟩ := h.now
  obtain ⟨g, -, -⟩ := h.toNlRanT.agrees
  obtain ⟨k1, -, -, -⟩ := NlMpc.onState_agrees g h.hor.ph_int (op := .measure x0) h.size h1
  exact (NlMpc.visits_ok k1 h.hor.ph_int h.calls h2).1

/-! ### C88 -/

/-- C88, report. After any history, if a user function throws during the search (the solver then throws) or during the
feasibility check, `optimize` returns normally: status ERROR, code -1, not feasible, infinite cost, the command of the last
result before the call, and an optimal sequence of zeros. -/
theorem c88_reported (h : NlAskedT d dyn ops outs x0 u0 vs e m m' out)
    (he : e = .solverThrows ∨ ∃ z w, e = .checkThrows z w) :
    ∃ r call, out = .result r call ∧ r = m'.o.result ∧ r.status = .ERROR ∧ r.solver_status = -1 ∧ r.is_feasible = false ∧
      r.cost = .posInf ∧ r.cmd = m.o.result.cmd ∧
      m'.o.seqState = Mat.const (d.ph + 1) d.nx 0 ∧ m'.o.seqInput = Mat.const (d.ph + 1) d.nu 0 ∧
      m'.o.seqOutput = Mat.const (d.ph + 1) d.ny 0 := by
  obtain ⟨junk, hf, hr⟩ := h.ask
  obtain ⟨g, -, -⟩ := h.toNlRanT.agrees
  simp only [NlMpc.stepT] at hr
  obtain ⟨r, call, q1, q2, -, -, -, q6⟩ := NlMpc.optimizeT_caught g h.hor.ph_int
    (by rcases he with rfl | ⟨z, w, rfl⟩ <;> rintro _ ⟨⟩) hf hr
  have q6 : NlMpc.Failed d m.o.result r m'.o := by
    rcases he with rfl | ⟨z, w, rfl⟩ <;> exact q6
  exact ⟨r, call, q1, q2, q6.status, q6.code, q6.feas, q6.cost, q6.cmd, q6.seqS, q6.seqI, q6.seqO⟩

/-- C88, later calls. Two histories, of whatever user functions, with the same course (`NlSpec.course`: the same calls with
the same arguments and the same endings of the solver; callbacks, the exceptions thrown in them, what they left behind and the
contents of uninitialised memory may differ): all calls return the same, the solver is always given the same, and the last
result and the optimal sequence are the same. -/
theorem c88_later_calls {ops1 ops2 : List (NlTCall d K)} {dyn1 dyn2 : Bool} {outs1 outs2 : List (NlOut K)} {m1 m2 : NlMpc d K}
    (h1 : NlRanT d dyn1 ops1 outs1 m1) (h2 : NlRanT d dyn2 ops2 outs2 m2)
    (hc : ops1.map NlSpec.course = ops2.map NlSpec.course) :
    List.Forall₂ NlSpec.SameOut outs1 outs2 ∧ NlSpec.SameReport m1.o m2.o := by
  obtain ⟨j1, r1⟩ := h1.ran
  obtain ⟨j2, r2⟩ := h2.ran
  obtain ⟨a, b, -⟩ := NlMpc.runT_same h1.hor.ch_pos h1.hor.ch_le h1.hor.ph_int h1.mem h1.fits h2.fits hc r1 r2
  exact ⟨a, b⟩

/-- the callback, with other contents of the solver's arrays -/
def withJunk (j : Nat → K) : NlCallback K → NlCallback K
  | .obj z g _ => .obj z g j
  | .con i z g _ => .con i z g j

theorem serve_same {o1 o2 : NlOpt K} {s1 s2 : NlState d K} {c : NlCtl d K} {f : NlSpec.Cfg d K} (hd : HorizonsOk d)
    (h : Both f s1 s2) (hb : c.Bound) (ho1 : o1.objective = c.obj) (ho2 : o2.objective = c.obj) (hg1 : o1.groups = c.groups)
    (hg2 : o2.groups = c.groups) (hs : ∀ k : NlGroupKind, k.Set c.cfg → k.Set f)
    (hso : c.cfg.obj.isSome = true → f.obj.isSome = true) {k : NlCallback K} (hf : NlSpec.CallbackFits d k) (j : Nat → K) :
    ∃ r1 r2, NlMpc.serve o1 s1 k = .ok r1 ∧ NlMpc.serve o2 s2 (withJunk j k) = .ok r2 ∧ NlSpec.SameReply r1.1 r2.1 := by
  have h' := h
  obtain ⟨h1, h2, -, -⟩ := h'
  cases k with
  | obj z g junk =>
    cases hob : c.obj with
    | false =>
      refine ⟨(none, s1), (none, s2), ?_, ?_, trivial⟩
      · unfold NlMpc.serve; simp [ho1, hob]
      · unfold NlMpc.serve withJunk; simp [ho2, hob]
    | true =>
      have hset := hso (hb.obj hob)
      obtain ⟨F, hF⟩ := Option.isSome_iff_exists.1 hset
      obtain ⟨r1, t1, G1, e1, q1, n1, y1⟩ := NlMpc.serve_obj h1 hd.ph_int (ho1.trans hob) hset hf g junk
      obtain ⟨r2, t2, G2, e2, q2, n2, y2⟩ := NlMpc.serve_obj h2 hd.ph_int (ho2.trans hob) hset hf g j
      obtain ⟨r1', r2', _, _, e1', e2', v, gr⟩ := both_objective d hd f s1 s2 h F hF z hf g
      rw [e1] at e1'
      rw [e2] at e2'
      cases e1'
      cases e2'
      refine ⟨_, _, q1, q2, v, ?_⟩
      cases g with
      | false => exact ⟨by rw [n1 rfl, n2 rfl], fun i hi => by rw [n1 rfl] at hi; omega⟩
      | true =>
        obtain ⟨H1, a1, a2, a3⟩ := y1 rfl
        obtain ⟨H2, b1, b2, b3⟩ := y2 rfl
        obtain ⟨I1, I2, c1, c2, -, -, c5⟩ := gr rfl
        rw [a1] at c1
        rw [b1] at c2
        cases c1
        cases c2
        refine ⟨by rw [a2, b2], fun i hi => ?_⟩
        rw [a2] at hi
        rw [a3 i hi, b3 i hi]
        exact c5 i hi
  | con i z g junk =>
    cases hgr : c.groups[i]? with
    | none =>
      refine ⟨(none, s1), (none, s2), ?_, ?_, trivial⟩
      · unfold NlMpc.serve; simp [hg1, hgr]
      · unfold NlMpc.serve withJunk; simp [hg2, hgr]
    | some grp =>
      have hm : grp ∈ c.groups := List.mem_of_getElem? hgr
      have hset := hs _ (hb.set _ hm)
      have hdim := hb.dim _ hm
      obtain ⟨r1, t1, b1, e1, q1, n1, v1, f1, y1⟩ := NlMpc.serve_con h1 hd.ph_int (by rw [hg1]; exact hgr) hset hdim hf g junk
      obtain ⟨r2, t2, b2, e2, q2, n2, v2, f2, y2⟩ := NlMpc.serve_con h2 hd.ph_int (by rw [hg2]; exact hgr) hset hdim hf g j
      refine ⟨_, _, q1, q2, ?_⟩
      have key : NlSpec.Agree grp.tol.size r1.value.get r2.value.get ∧
          (g = true → NlSpec.Agree (grp.tol.size * d.nZ) r1.grad.get r2.grad.get) := by
        rw [hdim]
        cases hk : grp.kind with
        | dynamics =>
          rw [hk] at hset e1 e2
          obtain ⟨F, hF⟩ := Option.isSome_iff_exists.1 hset
          obtain ⟨r1', r2', _, _, e1', e2', -, -, v, gr⟩ := both_dynamics d hd f s1 s2 h F hF z hf g junk j
          have e1 : s1.evalDyn z g junk = _ := e1
          have e2 : s2.evalDyn z g j = _ := e2
          rw [e1] at e1'
          rw [e2] at e2'
          cases e1'
          cases e2'
          exact ⟨v, gr⟩
        | userIneq =>
          rw [hk] at e1 e2
          obtain ⟨r1', r2', _, _, e1', e2', S⟩ := both_ineq d hd f s1 s2 h z hf junk j
          have e1 : s1.evalIneq z junk = _ := e1
          have e2 : s2.evalIneq z j = _ := e2
          rw [e1] at e1'
          rw [e2] at e2'
          cases e1'
          cases e2'
          exact ⟨S.value, fun _ => S.grad⟩
        | userEq =>
          rw [hk] at e1 e2
          obtain ⟨r1', r2', _, _, e1', e2', S⟩ := both_eq d hd f s1 s2 h z hf junk j
          have e1 : s1.evalEq z junk = _ := e1
          have e2 : s2.evalEq z j = _ := e2
          rw [e1] at e1'
          rw [e2] at e2'
          cases e1'
          cases e2'
          exact ⟨S.value, fun _ => S.grad⟩
      refine ⟨⟨by rw [n1, n2], fun p hp => ?_⟩, ?_⟩
      · rw [n1] at hp
        rw [v1 p hp, v2 p hp]
        exact key.1 p hp
      · cases g with
        | false =>
          rw [f1 rfl, f2 rfl]
          trivial
        | true =>
          obtain ⟨G1, a1, a2, a3⟩ := y1 rfl
          obtain ⟨G2, c1, c2, c3⟩ := y2 rfl
          rw [a1, c1]
          refine ⟨by rw [a2, c2], fun p hp => ?_⟩
          rw [a2] at hp
          rw [a3 p hp, c3 p hp]
          exact key.2 rfl p hp

/-- C88, evaluations. After two histories with the same course, inside two calls of `optimize` from the same state, after
whatever callbacks, returning or left by exceptions, a further callback gives the solver the same values and gradients. -/
theorem c88_evaluations {ops1 ops2 : List (NlTCall d K)} {dyn1 dyn2 : Bool} {outs1 outs2 : List (NlOut K)} {m1 m2 : NlMpc d K}
    {vs1 vs2 : List (NlVisit K)} {s1 s2 : NlState d K} (h1 : InSolverT d dyn1 ops1 outs1 m1 x0 vs1 s1)
    (h2 : InSolverT d dyn2 ops2 outs2 m2 x0 vs2 s2) (hc : ops1.map NlSpec.course = ops2.map NlSpec.course)
    (k : NlCallback K) (hf : NlSpec.CallbackFits d k) (j : Nat → K) :
    ∃ r1 r2, NlMpc.serve m1.o s1 k = .ok r1 ∧ NlMpc.serve m2.o s2 (withJunk j k) = .ok r2 ∧ NlSpec.SameReply r1.1 r2.1 := by
  obtain ⟨j1, r1⟩ := h1.ran
  obtain ⟨j2, r2⟩ := h2.ran
  obtain ⟨-, -, hab⟩ := NlMpc.runT_same h1.hor.ch_pos h1.hor.ch_le h1.hor.ph_int h1.mem h1.fits h2.fits hc r1 r2
  obtain ⟨g1, -, -⟩ := h1.toNlRanT.agrees
  obtain ⟨g2, -, -⟩ := h2.toNlRanT.agrees
  have k1 := h1.holds
  have k2 := h2.holds
  rw [← hab] at g2 k2
  refine serve_same h1.hor ⟨k1, k2, ?_, ?_⟩ (NlCtl.afterT_bound ops1 outs1) g1.obj g2.obj g1.groups g2.groups
    (fun k hk => by cases k <;> exact hk) id hf j
  · rw [k1.ox0 _ rfl, k2.ox0 _ rfl]
  · rw [k1.cx0 _ rfl, k2.cx0 _ rfl]

/-- C88, reduction. In a history in which no exception leaves a call, all calls return what they return when no user function
throws and the solver, or the check of its answer, fails in the same calls: what is proved of such histories holds here. -/
theorem c88_ordinary (h : NlRanT d dyn ops outs m) (he : ∀ op ∈ ops, NlSpec.escapes op = false)
    {outs' : List (NlOut K)} {m' : NlMpc d K} {junk : Nat → K}
    (hr : NlMpc.run d junk dyn (ops.map NlSpec.ordinary) = .ok (m', outs')) :
    List.Forall₂ NlSpec.SameOut outs outs' ∧ NlSpec.SameReport m.o m'.o := by
  rw [← NlMpc.runT_call, List.map_map] at hr
  refine c88_later_calls h (ops2 := ops.map (.call ∘ NlSpec.ordinary)) ⟨h.hor, h.mem, ?_, junk, hr⟩ ?_
  · intro op ho
    obtain ⟨q, hq, rfl⟩ := List.mem_map.1 ho
    have := h.fits q hq
    cases q with
    | call q => exact this
    | optimize x0 u0 vs e j =>
      obtain ⟨hx, hu, -, hz⟩ := this
      cases e <;> exact ⟨hx, hu, by simp, hz⟩
  · rw [List.map_map]
    refine List.map_congr_left fun op ho => ?_
    have hh := he op ho
    cases op with
    | call q => rfl
    | optimize x0 u0 vs e j => cases e <;> first | rfl | cases hh

/-- C88, no undefined behaviour: well-formed calls run, whatever user functions throw and whatever is left behind. -/
theorem c88_runs (hd : HorizonsOk d) (hp : d.ph < 2 ^ 30) (hm : d.ph * d.nx + d.nu * d.ch + 1 ≤ 2 ^ 64)
    (hf : ∀ op ∈ ops, NlSpec.TCallFits d op) (ha : ∀ op ∈ ops, NlSpec.TAdmissible d dyn op) :
    ∃ outs m, NlRanT d dyn ops outs m := by
  obtain ⟨⟨m', outs⟩, h⟩ := NlMpc.runT_total hd.ch_pos hd.ch_le hp hm (fun _ => 0) dyn _ hf ha
  exact ⟨outs, m', hd, hm, hf, _, h⟩

/-- the same with an `optimize` at the end -/
theorem nlAskedT_exists (hd : HorizonsOk d) (hp : d.ph < 2 ^ 30) (hm : d.ph * d.nx + d.nu * d.ch + 1 ≤ 2 ^ 64) (junk : Nat → K)
    (hf : ∀ op ∈ ops ++ [.optimize x0 u0 vs e junk], NlSpec.TCallFits d op)
    (ha : ∀ op ∈ ops ++ [.optimize x0 u0 vs e junk], NlSpec.TAdmissible d dyn op) :
    ∃ outs m m' out, NlAskedT d dyn ops outs x0 u0 vs e m m' out := by
  obtain ⟨⟨m', outs⟩, h⟩ := NlMpc.runT_total hd.ch_pos hd.ch_le hp hm (fun _ => 0) dyn _ hf ha
  rw [NlMpc.runT_snoc] at h
  obtain ⟨q, hq, h⟩ := bind_eq_ok.1 h
  obtain ⟨r, hr, h⟩ := bind_eq_ok.1 h
  exact ⟨q.2, q.1, r.1, r.2, ⟨hd, hm, fun o ho => hf o (by simp [ho]), _, hq⟩, junk, hf _ (by simp), hr⟩

/-! ### C89 -/

/-- C89 as claimed: if `optimize` leaves with an exception, `getLastResult` and `getOptimalSequence` return what they returned
before. -/
def C89Claim (K : Type) [Field K] [LinearOrder K] [IsStrictOrderedRing K] : Prop :=
  ∀ (d : Dims) dyn (ops : List (NlTCall d K)) outs x0 u0 vs e m m',
    NlAskedT d dyn ops outs x0 u0 vs e m m' .threw → NlSpec.SameReport m.o m'.o

/-- C89, partial: `optimize` leaves with an exception only if the output function throws after the solver has answered; then
the last result and the reported outputs are what they were before, but the reported states and inputs are those of the
new answer `z`, with the scalings set last, as in an ordinary call (C58). Missing: `c89_sequence_violated`. -/
theorem c89_escaped_partial (h : NlAskedT d dyn ops outs x0 u0 vs e m m' .threw) :
    ∃ z, e = .outputThrows z ∧ m'.o.result = m.o.result ∧ m'.o.seqOutput = m.o.seqOutput ∧
      m'.o.seqState.rows = d.ph + 1 ∧ m'.o.seqState.cols = d.nx ∧ m'.o.seqInput.rows = d.ph + 1 ∧ m'.o.seqInput.cols = d.nu ∧
      (∀ k a, k ≤ d.ph → a < d.nx → m'.o.seqState.get k a
        = if k = 0 then NlSpec.stScale (NlSpec.settings ops) a * x0.get a
          else NlSpec.stateAt d (NlSpec.stScale (NlSpec.settings ops)) x0.get z.get k a) ∧
      (∀ k b, k ≤ d.ph → b < d.nu → m'.o.seqInput.get k b
        = NlSpec.inputAt d (NlSpec.inScale (NlSpec.settings ops)) z.get k b) := by
  obtain ⟨junk, hf, hr⟩ := h.ask
  obtain ⟨g, -, hl⟩ := h.toNlRanT.agrees
  simp only [NlMpc.stepT] at hr
  cases e with
  | outputThrows z =>
    obtain ⟨-, -, -, E⟩ := NlMpc.optimizeT_escaped g h.hor.ph_int hf hr
    refine ⟨z, rfl, E.result, E.outputs, E.sS.1, E.sS.2, E.sI.1, E.sI.2, ?_, ?_⟩
    · intro k a hk hb
      have := congrFun (congrFun E.seqS ⟨k, by omega⟩) ⟨a, hb⟩
      rw [afterT_stScale hl] at this
      refine this.trans ?_
      unfold NlSpec.codeStates NlSpec.stateAt
      dsimp only
      split_ifs <;> rfl
    · intro k b hk hb
      have := congrFun (congrFun E.seqI ⟨k, by omega⟩) ⟨b, hb⟩
      rw [afterT_inScale hl] at this
      exact this
  | solverThrows =>
    obtain ⟨r, call, q1, -⟩ := NlMpc.optimizeT_caught g h.hor.ph_int (by rintro _ ⟨⟩) hf hr
    cases q1
  | checkThrows z w =>
    obtain ⟨r, call, q1, -⟩ := NlMpc.optimizeT_caught g h.hor.ph_int (by rintro _ ⟨⟩) hf hr
    cases q1
  | returns z v k =>
    obtain ⟨r, call, q1, -⟩ := NlMpc.optimizeT_caught g h.hor.ph_int (by rintro _ ⟨⟩) hf hr
    cases q1

/-- C89, the later course: the next `optimize` after such an exception keeps the old command if it fails. -/
theorem c89_next_failure (h : NlAskedT d dyn ops outs x0 u0 vs e m m' .threw) {x1 u1 : Vec K} {vs1 : List (NlVisit K)}
    {e1 : NlEnding K} {j j1 : Nat → K} {m2 m3 : NlMpc d K} {outs1 : List (NlOut K)} {out : NlOut K}
    (h1 : NlAskedT d dyn (ops ++ [.optimize x0 u0 vs e j]) outs1 x1 u1 vs1 e1 m2 m3 out)
    (he : e1 = .solverThrows ∨ ∃ z w, e1 = .checkThrows z w) :
    ∃ r call, out = .result r call ∧ NlSpec.SameVec r.cmd m.o.result.cmd := by
  obtain ⟨r, call, q1, -, -, -, -, -, q2, -⟩ := c88_reported h1 he
  refine ⟨r, call, q1, ?_⟩
  obtain ⟨junk, hf, hr⟩ := h.ask
  obtain ⟨i1, r1⟩ := h.ran
  obtain ⟨i2, r2⟩ := h1.ran
  have r3 : NlMpc.runT d i1 dyn (ops ++ [.optimize x0 u0 vs e junk]) = .ok (m', outs ++ [.threw]) := by
    rw [NlMpc.runT_snoc, r1, ok_bind]
    dsimp only
    rw [hr]
    rfl
  obtain ⟨-, S, -⟩ := NlMpc.runT_same h1.hor.ch_pos h1.hor.ch_le h1.hor.ph_int h1.mem h1.fits
    (fun op ho => by
      rcases List.mem_append.1 ho with ho | ho
      · exact h.fits op ho
      · rw [List.mem_singleton.1 ho]; exact hf) (by
      rw [List.map_append, List.map_append]
      congr 1
      cases e <;> rfl) r2 r3
  rw [q2]
  obtain ⟨z, -, e2, -⟩ := c89_escaped_partial h
  rw [← e2]
  exact S.result.cmd

end

/-! ### samples -/

/-- the sample `opsN`, then a search in which a function throws, and one in which the output function throws -/
def opsT : List (NlTCall dN ℚ) :=
  opsN.map .call ++
  [ .optimize (nvec 2 fun a => a + 2) (nvec 1 fun _ => 1)
      [.returns (.obj (zN 1) true (fun _ => 3)), .throws NlSpec.noWork, .returns (.con 0 (zN 4) true (fun _ => 3))] .solverThrows
      (fun _ => 8),
    .optimize (nvec 2 fun a => a + 2) (nvec 1 fun _ => 1) [] (.checkThrows (zN 2) NlSpec.noWork) (fun _ => 8),
    .optimize (nvec 2 fun a => a + 3) (nvec 1 fun _ => 1) [] (.returns (zN 11) (.fin 3) 4) (fun _ => 9) ]

theorem opsT_fits : ∀ op ∈ opsT, NlSpec.TCallFits dN op := by
  intro op h
  unfold opsT at h
  rcases List.mem_append.1 h with h | h
  · obtain ⟨q, hq, rfl⟩ := List.mem_map.1 h
    exact opsN_fits q hq
  · simp only [List.mem_cons, List.not_mem_nil, or_false] at h
    rcases h with rfl | rfl | rfl
    all_goals simp [NlSpec.TCallFits, NlSpec.VisitFits, NlSpec.CallbackFits, nvec, zN]

theorem opsT_adm : ∀ op ∈ opsT, NlSpec.TAdmissible dN false op := by
  intro op h
  unfold opsT at h
  rcases List.mem_append.1 h with h | h
  · obtain ⟨q, hq, rfl⟩ := List.mem_map.1 h
    unfold opsN at hq
    simp only [List.mem_cons, List.not_mem_nil, or_false] at hq
    rcases hq with rfl | rfl | rfl | rfl | rfl | rfl | rfl | rfl | rfl | rfl | rfl | rfl
    all_goals simp [NlSpec.TAdmissible, NlSpec.Admissible, NlSpec.SliceUsable]
  · simp only [List.mem_cons, List.not_mem_nil, or_false] at h
    rcases h with rfl | rfl | rfl <;> trivial

/-- a further call with any ending runs after `opsT` -/
theorem opsT_asked (e : NlEnding ℚ) (he : NlSpec.TCallFits dN (.optimize (nvec 2 fun _ => 1) (nvec 1 fun _ => 0) [] e (fun _ => 0))) :
    ∃ outs m m' out, NlAskedT dN false opsT outs (nvec 2 fun _ => 1) (nvec 1 fun _ => 0) [] e m m' out :=
  nlAskedT_exists dN_ok (by decide) (by decide) (fun _ => 0)
    (fun op h => by
      rcases List.mem_append.1 h with h | h
      · exact opsT_fits op h
      · rw [List.mem_singleton.1 h]; exact he)
    (fun op h => by
      rcases List.mem_append.1 h with h | h
      · exact opsT_adm op h
      · rw [List.mem_singleton.1 h]; trivial)

/-- C88 applies to these histories -/
example : ∃ outs m m' out, NlAskedT dN false opsT outs (nvec 2 fun _ => 1) (nvec 1 fun _ => 0) [] .solverThrows m m' out :=
  opsT_asked _ ⟨rfl, rfl, by simp, trivial⟩

/-- C89 is violated: the output function throws at the end of a call from state (1, 1) after a call from state (3, 4). -/
theorem c89_sequence_violated : ¬ C89Claim ℚ := by
  intro hc
  obtain ⟨outs, m, m', out, h⟩ := opsT_asked (.outputThrows (zN 0)) ⟨rfl, rfl, by simp, rfl⟩
  obtain ⟨junk, hf, hr⟩ := h.ask
  obtain ⟨g, -, hl⟩ := h.toNlRanT.agrees
  obtain ⟨rfl, -⟩ := NlMpc.optimizeT_escaped g h.hor.ph_int hf hr
  have S := (hc _ _ _ _ _ _ _ _ _ _ h).inputs
  obtain ⟨z, ez, -, -, -, -, -, -, -, hi⟩ := c89_escaped_partial h
  cases ez
  -- the sequence before the call
  obtain ⟨i0, r0⟩ := h.ran
  have es : opsT = (opsN.map .call ++ [_, _]) ++ [_] := rfl
  rw [es, NlMpc.runT_snoc] at r0
  obtain ⟨q, hq, r0⟩ := bind_eq_ok.1 r0
  obtain ⟨r, hr', r0⟩ := bind_eq_ok.1 r0
  cases r0
  have hq' : NlRanT dN false _ q.2 q.1 := ⟨h.hor, h.mem, fun o ho => opsT_fits o (by rw [es]; exact List.mem_append_left _ ho), _, hq⟩
  obtain ⟨g0, -, hl0⟩ := hq'.agrees
  have hr' : q.1.optimizeT (nvec 2 fun a => (a : ℚ) + 3) (nvec 1 fun _ => 1) [] (.returns (zN 11) (.fin 3) 4) (fun _ => 9)
      = .ok (r.1, r.2) := hr'
  obtain ⟨_, _, -, -, -, -, -, A⟩ := NlMpc.optimizeT_caught g0 h.hor.ph_int (by rintro _ ⟨⟩)
    (opsT_fits _ (by rw [es]; exact List.mem_append_right _ (List.mem_singleton.2 rfl))) hr'
  have A : NlMpc.Answered _ _ _ _ _ _ _ := A
  have a1 := congrFun (congrFun A.seqI 0) 0
  rw [afterT_inScale hl0] at a1
  have a2 := S.2.2 0 0 (by rw [A.sI.1]; decide) (by rw [A.sI.2]; decide)
  rw [hi 0 0 (by decide) (by decide)] at a2
  have a2 := a1.symm.trans a2
  simp [NlSpec.inputs, NlSpec.inputAt, NlSpec.settings, opsT, opsN, NlSpec.inScale, NlSpec.last, NlSpec.inScaleOf, zN, NlSpec.inputIx, nvec] at a2

end Mpc.Props
