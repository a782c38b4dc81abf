import Verif.Proofs.NlOutputs
import Verif.Props.NlFunctions
import Verif.Spec.NlExceptions

/-
Histories of calls on the nonlinear controller with user functions which throw.
-/
namespace Mpc
open Exec
set_option linter.unusedSectionVars false

variable {d : Dims} {K : Type} [Field K] [LinearOrder K] [IsStrictOrderedRing K]

theorem NlState.interrupted_holds {s : NlState d K} {c : NlSpec.Cfg d K} (h : s.Holds c) (w : NlWork K) :
    (s.interrupted w).Holds c :=
  ⟨h.good, h.dims, h.inS, h.stS, h.cont, h.Ts, h.field, h.out, h.obj, h.ineq, h.eq, ⟨h.osz.x0, ⟨rfl, rfl⟩, ⟨rfl, rfl⟩⟩,
    ⟨h.csz.x0, ⟨rfl, rfl⟩, ⟨rfl, rfl⟩, rfl, ⟨rfl, rfl⟩, rfl, ⟨rfl, rfl⟩, rfl, ⟨rfl, rfl⟩⟩, h.ox0, h.cx0⟩

namespace NlMpc

/-- what callbacks leave alone -/
structure Kept (s s' : NlState d K) : Prop where
  mp : s'.mp = s.mp
  ti : s'.con.ieqTol = s.con.ieqTol
  te : s'.con.eqTol = s.con.eqTol

theorem visit_ok {o : NlOpt K} {s s' : NlState d K} {c : NlSpec.Cfg d K} (h : s.Holds c) (hp : d.ph < 2 ^ 31) {v : NlVisit K}
    (hf : NlSpec.VisitFits d v) (hr : visit o s v = .ok s') : s'.Holds c ∧ Kept s s' := by
  cases v with
  | throws w => cases hr; exact ⟨NlState.interrupted_holds h w, rfl, rfl, rfl⟩
  | returns k =>
    obtain ⟨⟨rep, s2⟩, h2, hr⟩ := bind_eq_ok.1 hr
    cases hr
    rcases serve_exec hf h2 with rfl | ⟨op, ho, hc, hk, he⟩
    · exact ⟨h, rfl, rfl, rfl⟩
    · have g3 := NlState.exec_holds h hp op ho he
      rw [hc] at g3
      have g4 := NlState.exec_tol he
      refine ⟨g3, ?_⟩
      have hmp : s2.mp = s.mp := by
        rcases hk with ⟨z, g, rfl⟩ | ⟨z, g, j, rfl⟩ | ⟨z, j, rfl⟩ | ⟨z, j, rfl⟩
        all_goals
          simp only [NlState.exec] at he
          obtain ⟨q, hq, he⟩ := bind_eq_ok.1 he
          cases he
          first | unfold NlState.evalObj at hq | unfold NlState.evalDyn at hq | unfold NlState.evalIneq at hq | unfold NlState.evalEq at hq
          obtain ⟨_, _, hq⟩ := bind_eq_ok.1 hq
          cases hq
          rfl
      obtain ⟨t1, t2⟩ : s2.con.ieqTol = s.con.ieqTol ∧ s2.con.eqTol = s.con.eqTol := by
        rcases hk with ⟨z, g, rfl⟩ | ⟨z, g, j, rfl⟩ | ⟨z, j, rfl⟩ | ⟨z, j, rfl⟩ <;> exact tol_pair g4
      exact ⟨hmp, t1, t2⟩

theorem visits_ok {o : NlOpt K} {s s' : NlState d K} {c : NlSpec.Cfg d K} (h : s.Holds c) (hp : d.ph < 2 ^ 31)
    {vs : List (NlVisit K)} (hf : ∀ v ∈ vs, NlSpec.VisitFits d v) (hr : visits o s vs = .ok s') : s'.Holds c ∧ Kept s s' := by
  unfold visits at hr
  induction vs using List.reverseRecOn generalizing s' with
  | nil => cases hr; exact ⟨h, rfl, rfl, rfl⟩
  | append_singleton l v ih =>
    rw [List.foldl_append] at hr
    obtain ⟨s1, h1, hr⟩ := bind_eq_ok.1 hr
    obtain ⟨g1, g2⟩ := ih (fun k hk => hf k (by simp [hk])) h1
    obtain ⟨k1, k2⟩ := visit_ok g1 hp (hf v (by simp)) hr
    exact ⟨k1, k2.mp.trans g2.mp, k2.ti.trans g2.ti, k2.te.trans g2.te⟩

/-- the outcome of the solver which has the effect of an ending that is caught -/
def _root_.Mpc.NlEnding.outcome : NlEnding K → NlOutcome K
  | .solverThrows => .threw
  | .checkThrows z _ => .answered z (.fin 0) 0 true
  | .outputThrows z => .answered z (.fin 0) 0 false
  | .returns z value code => .answered z value code false

theorem vec_eq {v w : Vec K} (hs : v.size = w.size) (hg : v.get = w.get) : v = w := by
  cases v; cases w; cases hs; cases hg; rfl

/-- measuring again changes nothing -/
theorem measured {s : NlState d K} {c : NlSpec.Cfg d K} {x0 : Vec K} (h : s.Holds (c.step (.measure x0))) (hx : x0.size = d.nx) :
    s.exec (.measure x0) = .ok s := by
  have e1 : s.obj.x0 = x0 := vec_eq (by rw [h.osz.x0, hx]) (h.ox0 _ rfl)
  have e2 : s.con.x0 = x0 := vec_eq (by rw [h.csz.x0, hx]) (h.cx0 _ rfl)
  obtain ⟨mp, M, ob, co⟩ := s
  dsimp only at e1 e2
  subst e1
  have e2 : co = { co with x0 := ob.x0 } := by rw [← e2]
  simp only [NlState.exec]
  rw [← e2]

/-- The part of `optimize` before the end, and how an ordinary `optimize` of the resulting objects goes on. -/
theorem optimizeT_pre {m : NlMpc d K} {c : NlCtl d K} (h : m.Agrees c) (hp : d.ph < 2 ^ 31) {x0 u0 : Vec K}
    (hx : x0.size = d.nx) {junk : Nat → K} {m1 : NlMpc d K} (h1 : m.onState (.measure x0) = .ok m1) {s : NlState d K}
    (hs : s.Holds (c.cfg.step (.measure x0))) (hk : Kept m1.s s) {p : Vec K × Vec K}
    (h2 : m1.o.prepare d m1.s.mp junk x0 u0 = .ok p) (oc : NlOutcome K) :
    Agrees { m with s := s } { c with cfg := c.cfg.step (.measure x0) } ∧
    optimize { m with s := s } x0 u0 [] oc junk = (do
      let q ← finish { m1 with s := s, o := { m1.o with optVector := p.1 } } x0 junk oc
      return (q, .result q.o.result (m1.solverCall p.2))) := by
  obtain ⟨k1, k2, k3, k4⟩ := onState_agrees h hp (op := .measure x0) hx h1
  obtain ⟨t1, t2⟩ := tol_pair k2
  constructor
  · exact agrees_state (m' := { m with s := s }) (ti := c.ti) (te := c.te) h hs (fun hh => (hk.ti.trans t1).trans (h.ti hh))
      (fun hh => (hk.te.trans t2).trans (h.te hh)) rfl
  · unfold optimize onState
    dsimp only
    rw [measured hs hx, ok_bind]
    dsimp only [pure_bind']
    rw [hk.mp, ← k3, h2, ok_bind]
    unfold callbacks
    rw [List.foldl_nil, ok_bind]
    have eo : m1.dynamic = m.dynamic := k4
    obtain ⟨ms, mo, md⟩ := m1
    dsimp only at k3 eo ⊢
    subst k3 eo
    rfl

/-- an ending which is caught -/
theorem optimizeT_caught {m m' : NlMpc d K} {c : NlCtl d K} (h : m.Agrees c) (hp : d.ph < 2 ^ 31) {x0 u0 : Vec K}
    {vs : List (NlVisit K)} {e : NlEnding K} {junk : Nat → K} {out : NlOut K} (he : ∀ z, e ≠ .outputThrows z)
    (hf : NlSpec.TCallFits d (.optimize x0 u0 vs e junk)) (hr : m.optimizeT x0 u0 vs e junk = .ok (m', out)) :
    ∃ r call, out = .result r call ∧ r = m'.o.result ∧ m'.dynamic = m.dynamic ∧ m'.Agrees (c.solved x0.get u0.get e.outcome) ∧
      Given c x0.get u0.get call ∧ Reported c m.o.result x0.get r m'.o e.outcome := by
  obtain ⟨hx, hu, hvs, hz⟩ := hf
  unfold optimizeT at hr
  obtain ⟨m1, h1, hr⟩ := bind_eq_ok.1 hr
  obtain ⟨k1, -, -, -⟩ := onState_agrees h hp (op := .measure x0) hx h1
  obtain ⟨p, h2, hr⟩ := bind_eq_ok.1 hr
  dsimp only at hr
  obtain ⟨s, h3, hr⟩ := bind_eq_ok.1 hr
  obtain ⟨l1, l2⟩ := visits_ok k1 hp hvs h3
  suffices hs : ∃ s', s'.Holds (c.cfg.step (.measure x0)) ∧ Kept m1.s s' ∧ (do
      let q ← finish { m1 with s := s', o := { m1.o with optVector := p.1 } } x0 junk e.outcome
      return (q, NlOut.result q.o.result (m1.solverCall p.2)) : Exec _) = .ok (m', out) by
    obtain ⟨s', a1, a2, a3⟩ := hs
    obtain ⟨b1, b2⟩ := optimizeT_pre h hp hx h1 a1 a2 h2 e.outcome
    rw [← b2] at a3
    have hf' : NlSpec.CallFits d (.optimize x0 u0 [] e.outcome junk) := by
      refine ⟨hx, hu, by simp, ?_⟩
      cases e <;> trivial
    obtain ⟨r, call, q1, q2, q3, q4, q5, q6⟩ := optimize_ok b1 hp hf' a3
    refine ⟨r, call, q1, q2, q3, ?_, ⟨q5.guess, q5.lbs, q5.ubs, q5.lb, q5.ub, q5.lim, q5.obj, q5.groups⟩, ?_⟩
    · cases e <;> exact q4
    · cases e with
      | outputThrows z => exact absurd rfl (he z)
      | solverThrows => exact q6
      | checkThrows z w => exact q6
      | returns z v k =>
        have q6 : Answered _ _ _ _ _ _ _ := q6
        exact ⟨q6.status, q6.code, q6.cost, q6.cmdSize, q6.cmd, q6.feas, q6.sS, q6.sI, q6.sO, q6.seqS, q6.seqI, q6.seqO⟩
  cases e with
  | outputThrows z => exact absurd rfl (he z)
  | solverThrows => exact ⟨s, l1, l2, hr⟩
  | checkThrows z w => exact ⟨s.interrupted w, NlState.interrupted_holds l1 w, ⟨l2.mp, l2.ti, l2.te⟩, hr⟩
  | returns z v k => exact ⟨s, l1, l2, hr⟩

/-- what is left when the output function throws at the end -/
structure Escaped (c : NlCtl d K) (x0 z : Nat → K) (o o' : NlOpt K) : Prop where
  result : o'.result = o.result
  outputs : o'.seqOutput = o.seqOutput
  sS : o'.seqState.Is (d.ph + 1) d.nx
  sI : o'.seqInput.Is (d.ph + 1) d.nu
  seqS : o'.seqState.viewF (d.ph + 1) d.nx = NlSpec.codeStates d c.cfg.stScale x0 z
  seqI : o'.seqInput.viewF (d.ph + 1) d.nu = NlSpec.inputs d c.cfg.inScale z

/-- state after an `optimize` left by an exception of the output function -/
def _root_.Mpc.NlCtl.escaped (c : NlCtl d K) (x0 u0 : Nat → K) (z : Vec K) : NlCtl d K :=
  { c.solved x0 u0 (.answered z (.fin 0) 0 false) with cmd := c.cmd }

theorem optimizeT_escaped {m m' : NlMpc d K} {c : NlCtl d K} (h : m.Agrees c) (hp : d.ph < 2 ^ 31) {x0 u0 : Vec K}
    {vs : List (NlVisit K)} {z : Vec K} {junk : Nat → K} {out : NlOut K}
    (hf : NlSpec.TCallFits d (.optimize x0 u0 vs (.outputThrows z) junk))
    (hr : m.optimizeT x0 u0 vs (.outputThrows z) junk = .ok (m', out)) :
    out = .threw ∧ m'.dynamic = m.dynamic ∧ m'.Agrees (c.escaped x0.get u0.get z) ∧ Escaped c x0.get z.get m.o m'.o := by
  obtain ⟨hx, hu, hvs, hz⟩ := hf
  unfold optimizeT at hr
  obtain ⟨m1, h1, hr⟩ := bind_eq_ok.1 hr
  obtain ⟨k1, -, k3, k4⟩ := onState_agrees h hp (op := .measure x0) hx h1
  obtain ⟨p, h2, hr⟩ := bind_eq_ok.1 hr
  dsimp only at hr
  obtain ⟨s, h3, hr⟩ := bind_eq_ok.1 hr
  obtain ⟨l1, l2⟩ := visits_ok k1 hp hvs h3
  obtain ⟨q, h4, hr⟩ := bind_eq_ok.1 hr
  cases hr
  obtain ⟨b1, b2⟩ := optimizeT_pre h hp hx h1 l1 l2 h2 (.answered z (.fin 0) 0 false)
  unfold escape at h4
  obtain ⟨f, g1, h4⟩ := bind_eq_ok.1 h4
  obtain ⟨w, g2, h4⟩ := bind_eq_ok.1 h4
  obtain ⟨st, g3, h4⟩ := bind_eq_ok.1 h4
  obtain ⟨inp, g4, h4⟩ := bind_eq_ok.1 h4
  cases h4
  dsimp only at g1 g2
  -- the ordinary course
  have hd := l1.dims
  have hw := (Mapping.unwrapVector_post s.mp l1.good z x0 _ _ (by rw [hd]; exact hz) (by rw [hd]; exact hx)
    (by dsimp only; rw [hd]) (by dsimp only; rw [hd]) (by dsimp only; rw [hd]) (by dsimp only; rw [hd])).of_eq g2
  have hwX := hw.xr; have hwXc := hw.xc; have hwU := hw.ur; have hwUc := hw.uc
  rw [hd] at hwX hwXc hwU hwUc
  obtain ⟨Y, hY, hYs, -⟩ := s.M.getOutput_ok w.1 w.2.1 hp ⟨hwX, hwXc⟩ ⟨hwU, hwUc⟩
  have hfin : ∃ q, finish { m1 with s := s, o := { m1.o with optVector := p.1 } } x0 junk (.answered z (.fin 0) 0 false) = .ok q ∧
      q.s = { s with con := f.2 } ∧ q.dynamic = m1.dynamic ∧ ∃ r Y, q.o = { m1.o with optVector := z, first := false, currentSlack := w.2.2, seqState := st, seqInput := inp, result := r, seqOutput := Y } := by
    unfold finish
    dsimp only
    rw [if_neg (by simp), g1, ok_bind]
    unfold accept
    dsimp only
    rw [g2, ok_bind, Mat.row_ok (by omega), ok_bind, g3, ok_bind, g4, ok_bind, hY, ok_bind,
      Mat.block_ok (by rw [hYs.1]; omega) (by rw [hYs.2]; omega), ok_bind]
    exact ⟨_, rfl, rfl, rfl, _, _, rfl⟩
  obtain ⟨q, e1, e2, e3, r, Y', e4⟩ := hfin
  rw [e1, ok_bind] at b2
  have hf' : NlSpec.CallFits d (.optimize x0 u0 [] (.answered z (.fin 0) 0 false) junk) := ⟨hx, hu, by simp, hz⟩
  obtain ⟨_, _, q1, q2, q3, q4, -, q6⟩ := optimize_ok b1 hp hf' b2
  cases q1
  have q6 : Answered _ _ _ _ _ _ _ := q6
  have n1 := q6.sS; have n2 := q6.sI; have n3 := q6.seqS; have n4 := q6.seqI
  rw [e4] at n1 n2 n3 n4
  refine ⟨rfl, k4, ?_, ?_⟩
  · obtain ⟨a1, a2, a3, a4, a5, a6, a7, a8, a9, a10, a11, a12, a13, a14, a15, a16, a17, a18, a19⟩ := q4
    rw [e2] at a1 a2 a3
    rw [e4] at a4 a5 a6 a7 a8 a9 a10 a11 a12 a13 a14 a15 a16 a17
    refine ⟨a1, a2, a3, a4, a5, a6, a7, a8, a9, a10, a11, a12, a13, a14, a15, a16, a17, ?_, ?_⟩
    · dsimp only; rw [k3]; exact h.cmds
    · dsimp only; rw [k3]; exact h.cmd
  · refine ⟨?_, ?_, n1, n2, n3, n4⟩ <;> (dsimp only; rw [k3])

end NlMpc
end Mpc
