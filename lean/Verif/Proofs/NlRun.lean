import Verif.Proofs.NlStep

/-
`optimize` and histories of API calls on the nonlinear controller.
-/
namespace Mpc
open Exec
set_option linter.unusedSectionVars false

variable {d : Dims} {K : Type} [Field K] [LinearOrder K] [IsStrictOrderedRing K]

namespace NlOpt

theorem cold_get {x0 u0 v v' : Vec K} (h1 : ∀ k a, k < d.ph → a < d.nx → v'.get (NlSpec.stateIx d k a) = x0.get a)
    (h2 : ∀ j b, j < d.ch → b < d.nu → v'.get (NlSpec.inputIx d j b) = u0.get b)
    (h3 : v'.get (NlSpec.slackIx d) = v.get (NlSpec.slackIx d)) {p : Nat} (hp : p < d.nZ) :
    v'.get p = NlCtl.cold d x0.get u0.get v.get p := by
  unfold NlCtl.cold
  rw [nZ_eq] at hp
  unfold NlSpec.slackIx at hp h3
  by_cases a1 : p < d.ph * d.nx
  · rw [if_pos a1]
    have hn : 0 < d.nx := by
      rcases Nat.eq_zero_or_pos d.nx with h | h
      · rw [h] at a1; omega
      · exact h
    have := h1 (p / d.nx) (p % d.nx) ((Nat.div_lt_iff_lt_mul hn).2 a1) (Nat.mod_lt _ hn)
    unfold NlSpec.stateIx at this
    rwa [Nat.mul_comm, Nat.div_add_mod] at this
  · rw [if_neg a1]
    by_cases a2 : p < d.ph * d.nx + d.ch * d.nu
    · rw [if_pos a2]
      have hn : 0 < d.nu := by
        rcases Nat.eq_zero_or_pos d.nu with h | h
        · rw [h] at a2; omega
        · exact h
      have := h2 ((p - d.ph * d.nx) / d.nu) ((p - d.ph * d.nx) % d.nu) ((Nat.div_lt_iff_lt_mul hn).2 (by omega))
        (Nat.mod_lt _ hn)
      unfold NlSpec.inputIx at this
      rw [Nat.mul_comm ((p - d.ph * d.nx) / d.nu), Nat.div_add_mod, Nat.add_sub_cancel' (by omega)] at this
      exact this
    · rw [if_neg a2]
      obtain rfl : p = d.ph * d.nx + d.ch * d.nu := by omega
      exact h3

theorem prepare_start {o : NlOpt K} {mp : Mapping K} (hm : mp.Good) (hd : mp.dims = d) (junk : Nat → K)
    {x0 u0 : Vec K} (hx : x0.size = d.nx) (hu : u0.size = d.nu) (ho : o.optVector.size = d.nZ) :
    Post (prepare o d mp junk x0 u0) (fun r => r.1.size = d.nZ ∧
      (∀ p, p < d.nZ → r.1.get p
        = (if o.first || !o.warm then NlCtl.cold d x0.get u0.get o.optVector.get else o.optVector.get) p) ∧
      Shift d mp.inputScaling.get o.currentSlack r.1 r.2) := by
  unfold prepare
  by_cases hc : (o.first || !o.warm) = true
  · rw [if_pos hc, if_pos hc]
    refine Post.bind (coldFill_post hx hu ho) ?_
    rintro v ⟨h1, h2, h3, h4⟩
    refine Post.bind (shifted_post hm hd junk o.currentSlack h1) ?_
    intro g hg
    exact post_pure ⟨h1, fun p hp => cold_get h2 h3 h4 hp, hg⟩
  · rw [if_neg hc, if_neg hc, ok_bind]
    refine Post.bind (shifted_post hm hd junk o.currentSlack ho) ?_
    intro g hg
    exact post_pure ⟨ho, fun _ _ => rfl, hg⟩

end NlOpt

/-- positions of the decision vector are below its size -/
theorem stateIx_lt {k a : Nat} (hk : k < d.ph) (ha : a < d.nx) : NlSpec.stateIx d k a < d.nZ := by
  have := block_lt (n := d.ph) ha hk
  unfold NlSpec.stateIx Dims.nZ; omega

theorem inputIx_lt {j b : Nat} (hj : j < d.ch) (hb : b < d.nu) : NlSpec.inputIx d j b < d.nZ := by
  have := block_lt (n := d.ch) hb hj
  have := Nat.mul_comm d.nu d.ch
  unfold NlSpec.inputIx Dims.nZ; omega

/-- the initial point depends on the entries of the decision vector only -/
theorem NlOpt.Shift.congr {sc : Nat → K} {slack : K} {v w g : Vec K} (hch : 0 < d.ch) (hle : d.ch ≤ d.ph)
    (h : NlOpt.Shift d sc slack v g)
    (e : ∀ p, p < d.nZ → v.get p = w.get p) : NlOpt.Shift d sc slack w g :=
  ⟨h.size, fun k a hk ha => by rw [h.state k a hk ha, e _ (stateIx_lt (by omega) ha)],
    fun j b hj hb => by rw [h.input j b hj hb, e _ (inputIx_lt (by omega) hb)], h.slack⟩

namespace NlMpc

theorem objWrapper_exec {s : NlState d K} {g z : Vec K} {r : (K × Vec K) × NlState d K} (h1 : s.objWrapper g z = .ok r) :
    s.exec (.evalObj z (g.size ≠ 0)) = .ok r.2 := by
  unfold NlState.objWrapper at h1
  obtain ⟨q, h2, h1⟩ := bind_eq_ok.1 h1
  have e : r.2 = q.2 := by
    split_ifs at h1 with hg
    · cases hq : q.1.grad with
      | none => rw [hq] at h1; cases h1
      | some G =>
        rw [hq] at h1
        obtain ⟨g', -, h1⟩ := bind_eq_ok.1 h1
        cases h1; rfl
    · cases h1; rfl
  simp only [NlState.exec]
  rw [h2, ok_bind, e]
  rfl

/-- the evaluation behind a constraint -/
def _root_.Mpc.NlGroupKind.op (d : Dims) (z : Vec K) (g : Bool) (junk : Nat → K) : NlGroupKind → NlOp d K
  | .dynamics => .evalDyn z g junk
  | .userIneq => .evalIneq z junk
  | .userEq => .evalEq z junk

theorem conWrapper_exec {s : NlState d K} {k : NlGroupKind} {b : NlBuffers K} {z : Vec K} {junk : Nat → K}
    {r : NlBuffers K × NlState d K} (h1 : s.conWrapper k b z junk = .ok r) :
    s.exec (k.op d z b.grad.isSome junk) = .ok r.2 := by
  cases k
  all_goals
    obtain ⟨q, h2, h1⟩ := bind_eq_ok.1 h1
    obtain ⟨b, -, h1⟩ := bind_eq_ok.1 h1
    cases h1
    simp only [NlGroupKind.op, NlState.exec]
    rw [h2, ok_bind]
    rfl

/-- a callback changes the evaluation objects like one evaluation, or not at all -/
theorem serve_exec {o : NlOpt K} {s s' : NlState d K} {k : NlCallback K} {rep : Option (NlReply K)}
    (hf : NlSpec.CallbackFits d k) (hr : serve o s k = .ok (rep, s')) :
    s' = s ∨ ∃ op : NlOp d K, NlSpec.OpFits d op ∧ (∀ c : NlSpec.Cfg d K, c.step op = c) ∧
      ((∃ z g, op = .evalObj z g) ∨ (∃ z g j, op = .evalDyn z g j) ∨ (∃ z j, op = .evalIneq z j) ∨ ∃ z j, op = .evalEq z j) ∧
      s.exec op = .ok s' := by
  cases k with
  | obj z g junk =>
    unfold serve at hr
    by_cases ho : o.objective = true
    · simp only [ho, if_true] at hr
      obtain ⟨r, h1, hr⟩ := bind_eq_ok.1 hr
      cases hr
      exact .inr ⟨.evalObj z _, hf, fun _ => rfl, .inl ⟨z, _, rfl⟩, objWrapper_exec h1⟩
    · simp only [ho] at hr
      cases hr
      exact .inl rfl
  | con i z g junk =>
    unfold serve at hr
    cases hg : o.groups[i]? with
    | none => simp only [hg] at hr; cases hr; exact .inl rfl
    | some grp =>
      simp only [hg] at hr
      obtain ⟨r, h1, hr⟩ := bind_eq_ok.1 hr
      cases hr
      have h3 := conWrapper_exec h1
      cases hk : grp.kind with
      | dynamics => rw [hk] at h3; exact .inr ⟨.evalDyn z _ junk, hf, fun _ => rfl, .inr (.inl ⟨_, _, _, rfl⟩), h3⟩
      | userIneq => rw [hk] at h3; exact .inr ⟨.evalIneq z junk, hf, fun _ => rfl, .inr (.inr (.inl ⟨_, _, rfl⟩)), h3⟩
      | userEq => rw [hk] at h3; exact .inr ⟨.evalEq z junk, hf, fun _ => rfl, .inr (.inr (.inr ⟨_, _, rfl⟩)), h3⟩

/-- the callbacks of the solver -/
theorem callbacks_ok {o : NlOpt K} {s s' : NlState d K} {c : NlSpec.Cfg d K} (h : s.Holds c) (hp : d.ph < 2 ^ 31)
    {cs : List (NlCallback K)} (hf : ∀ k ∈ cs, NlSpec.CallbackFits d k) (hr : callbacks o s cs = .ok s') :
    s'.Holds c ∧ (s'.con.ieqTol, s'.con.eqTol) = (s.con.ieqTol, s.con.eqTol) := by
  unfold callbacks at hr
  induction cs using List.reverseRecOn generalizing s' with
  | nil => cases hr; exact ⟨h, rfl⟩
  | append_singleton l k ih =>
    rw [List.foldl_append] at hr
    obtain ⟨s1, h1, hr⟩ := bind_eq_ok.1 hr
    obtain ⟨g1, g2⟩ := ih (fun k hk => hf k (by simp [hk])) h1
    obtain ⟨⟨rep, s2⟩, h2, hr⟩ := bind_eq_ok.1 hr
    cases hr
    rcases serve_exec (hf k (by simp)) h2 with rfl | ⟨op, ho, hc, hk, he⟩
    · exact ⟨g1, g2⟩
    · have g3 := NlState.exec_holds g1 hp op ho he
      rw [hc] at g3
      have g4 := NlState.exec_tol he
      rcases hk with ⟨_, _, rfl⟩ | ⟨_, _, _, rfl⟩ | ⟨_, _, rfl⟩ | ⟨_, _, rfl⟩ <;> exact ⟨g3, g4.trans g2⟩

/-- what `optimize` reports when the solver fails -/
structure Failed (d : Dims) (old r : LResult K) (o : NlOpt K) : Prop where
  status : r.status = .ERROR
  code : r.solver_status = -1
  feas : r.is_feasible = false
  cost : r.cost = .posInf
  cmd : r.cmd = old.cmd
  seqS : o.seqState = Mat.const (d.ph + 1) d.nx 0
  seqI : o.seqInput = Mat.const (d.ph + 1) d.nu 0
  seqO : o.seqOutput = Mat.const (d.ph + 1) d.ny 0

/-- what `optimize` reports when the solver answers `z` -/
structure Answered (c : NlCtl d K) (x0 z : Nat → K) (value : Ext K) (code : Int) (r : LResult K) (o : NlOpt K) :
    Prop where
  status : r.status = NlOpt.convertStatus code
  code : r.solver_status = code
  cost : r.cost = value
  cmdSize : r.cmd.size = d.nu
  cmd : ∀ b, b < d.nu → r.cmd.get b = c.cfg.inScale b * z (NlSpec.inputIx d 0 b)
  feas : r.is_feasible = true ↔
    NlSpec.Sat (NlSpec.WithinIneq c.ti) (c.cfg.ineq.map fun G i => Flt.fin (G (NlSpec.codeStates d c.cfg.stScale x0 z)
      (NlSpec.outputs c.cfg.out (NlSpec.codeStates d c.cfg.stScale x0 z) (NlSpec.inputs d c.cfg.inScale z))
      (NlSpec.inputs d c.cfg.inScale z) (z (NlSpec.slackIx d)) i)) ∧
    NlSpec.Sat (NlSpec.WithinEq c.te) (c.cfg.eq.map fun G i => Flt.fin (G (NlSpec.codeStates d c.cfg.stScale x0 z)
      (NlSpec.inputs d c.cfg.inScale z) i))
  sS : o.seqState.Is (d.ph + 1) d.nx
  sI : o.seqInput.Is (d.ph + 1) d.nu
  sO : o.seqOutput.Is (d.ph + 1) d.ny
  seqS : o.seqState.viewF (d.ph + 1) d.nx = NlSpec.codeStates d c.cfg.stScale x0 z
  seqI : o.seqInput.viewF (d.ph + 1) d.nu = NlSpec.inputs d c.cfg.inScale z
  seqO : o.seqOutput.viewF (d.ph + 1) d.ny
    = NlSpec.outputs c.cfg.out (NlSpec.codeStates d c.cfg.stScale x0 z) (NlSpec.inputs d c.cfg.inScale z)

/-- what the solver is given -/
structure Given (c : NlCtl d K) (x0 u0 : Nat → K) (call : NlSolverCall K) : Prop where
  guess : NlOpt.Shift d c.cfg.inScale c.slack ⟨d.nZ, c.start x0 u0⟩ call.guess
  lbs : call.lb.size = d.nZ
  ubs : call.ub.size = d.nZ
  lb : call.lb.get = c.lo
  ub : call.ub.get = c.up
  lim : call.limits = c.lim
  obj : call.objective = c.obj
  groups : call.groups = c.groups

/-- result of the call according to the outcome of the solver -/
def Reported (c : NlCtl d K) (old : LResult K) (x0 : Nat → K) (r : LResult K) (o : NlOpt K) : NlOutcome K → Prop
  | .threw => Failed d old r o
  | .answered _ _ _ true => Failed d old r o
  | .answered z value code false => Answered c x0 z.get value code r o

theorem block_full {A : Mat K} {r c : Nat} (h : A.Is r c) {B : Mat K} (hb : A.block 0 0 r c = .ok B) :
    B.Is r c ∧ B.viewF r c = A.viewF r c := by
  unfold Mat.block at hb
  obtain ⟨_, _, hb⟩ := bind_eq_ok.1 hb
  cases hb
  refine ⟨⟨rfl, rfl⟩, ?_⟩
  unfold Mat.viewF
  funext i j
  dsimp only
  rw [Nat.zero_add, Nat.zero_add]

theorem sat_tol {α β : Type} (P : K → β → Prop) {o : Option α} {t t' : K} (h : o.isSome = true → t = t') (F : α → β) :
    NlSpec.Sat (P t) (o.map F) ↔ NlSpec.Sat (P t') (o.map F) := by
  cases o with
  | none => exact Iff.rfl
  | some a => rw [h rfl]

theorem optimize_ok {m m' : NlMpc d K} {c : NlCtl d K} (h : m.Agrees c) (hp : d.ph < 2 ^ 31) {x0 u0 : Vec K}
    {cs : List (NlCallback K)} {oc : NlOutcome K} {junk : Nat → K} {out : NlOut K}
    (hf : NlSpec.CallFits d (.optimize x0 u0 cs oc junk)) (hr : m.optimize x0 u0 cs oc junk = .ok (m', out)) :
    ∃ r call, out = .result r call ∧ r = m'.o.result ∧ m'.dynamic = m.dynamic ∧ m'.Agrees (c.solved x0.get u0.get oc) ∧
      Given c x0.get u0.get call ∧ Reported c m.o.result x0.get r m'.o oc := by
  obtain ⟨hx, hu, hcs, hz⟩ := hf
  unfold optimize at hr
  obtain ⟨m1, h1, hr⟩ := bind_eq_ok.1 hr
  obtain ⟨k1, k2, k3, k4⟩ := onState_agrees h hp (op := .measure x0) hx h1
  obtain ⟨p, h2, hr⟩ := bind_eq_ok.1 hr
  obtain ⟨p1, p2, p3⟩ := (NlOpt.prepare_start k1.good k1.dims junk hx hu (by rw [k3]; exact h.zs)).of_eq h2
  obtain ⟨s, h3, hr⟩ := bind_eq_ok.1 hr
  obtain ⟨l1, l2⟩ := callbacks_ok k1 hp hcs h3
  obtain ⟨m2, h4, hr⟩ := bind_eq_ok.1 hr
  cases hr
  obtain ⟨hch, hle⟩ := h.pos
  -- the initial point
  have hstart : ∀ q, q < d.nZ → p.1.get q = c.start x0.get u0.get q := by
    intro q hq
    rw [p2 q hq, k3, h.first, h.warm]
    unfold NlCtl.start
    split_ifs with hc
    · unfold NlCtl.cold
      rw [h.z q hq]
    · exact h.z q hq
  have hgiven : Given c x0.get u0.get (m1.solverCall p.2) := by
    refine ⟨?_, ?_, ?_, ?_, ?_, ?_, ?_, ?_⟩
    · have := p3.congr (w := ⟨d.nZ, c.start x0.get u0.get⟩) hch hle hstart
      rw [k1.inS, k3, h.slack] at this
      exact this
    all_goals unfold solverCall; dsimp only; rw [k3]
    · rw [h.slb]; exact h.lbs
    · rw [h.sub]; exact h.ubs
    · rw [h.slb]; exact h.lb
    · rw [h.sub]; exact h.ub
    · exact h.lim
    · exact h.obj
    · exact h.groups
  have htol : (s.con.ieqTol, s.con.eqTol) = (m.s.con.ieqTol, m.s.con.eqTol) := by
    rw [l2]; exact k2
  have ht1 : c.cfg.ineq.isSome = true → s.con.ieqTol = c.ti := fun hs => (congrArg Prod.fst htol).trans (h.ti hs)
  have ht2 : c.cfg.eq.isSome = true → s.con.eqTol = c.te := fun hs => (congrArg Prod.snd htol).trans (h.te hs)
  refine ⟨_, _, rfl, rfl, ?_⟩
  cases oc with
  | threw =>
    unfold finish at h4
    cases h4
    refine ⟨k4, ?_, hgiven, ?_⟩
    · unfold NlOpt.failed NlCtl.solved
      refine ⟨l1, ht1, ht2, ?_, ?_, ?_, ?_, ?_, ?_, ?_, ?_, ?_, ?_, p1, hstart, ?_, ?_, ?_, ?_⟩
      all_goals dsimp only; rw [k3]
      · exact h.lbs
      · exact h.ubs
      · exact h.lb
      · exact h.ub
      · exact h.slb
      · exact h.sub
      · exact h.lim
      · exact h.warm
      · exact h.obj
      · exact h.groups
      · exact h.first
      · exact h.slack
      · exact h.cmds
      · exact h.cmd
    · unfold NlOpt.failed Reported
      refine ⟨rfl, rfl, rfl, rfl, ?_, rfl, rfl, rfl⟩
      dsimp only
      rw [k3]
  | answered z value code ct =>
    cases ct with
    | true =>
      unfold finish at h4
      dsimp only at h4 hz
      rw [if_pos rfl] at h4
      cases h4
      refine ⟨k4, ?_, hgiven, ?_⟩
      · unfold NlOpt.failed NlCtl.solved
        refine ⟨l1, ht1, ht2, ?_, ?_, ?_, ?_, ?_, ?_, ?_, ?_, ?_, ?_, hz, fun _ _ => rfl, rfl, ?_, ?_, ?_⟩
        all_goals dsimp only; rw [k3]
        · exact h.lbs
        · exact h.ubs
        · exact h.lb
        · exact h.ub
        · exact h.slb
        · exact h.sub
        · exact h.lim
        · exact h.warm
        · exact h.obj
        · exact h.groups
        · exact h.slack
        · exact h.cmds
        · exact h.cmd
      · unfold NlOpt.failed Reported
        refine ⟨rfl, rfl, rfl, rfl, ?_, rfl, rfl, rfl⟩
        dsimp only
        rw [k3]
    | false =>
      unfold finish at h4
      dsimp only at h4 hz
      rw [if_neg (by simp)] at h4
      obtain ⟨f, h5, h4⟩ := bind_eq_ok.1 h4
      unfold Constraints.isFeasible at h5
      obtain ⟨F, h6, h5⟩ := bind_eq_ok.1 h5
      cases h5
      have csz := l1.csz
      rw [l1.ineq, l1.eq] at h6
      obtain ⟨f1, f2, f3, f4, f5⟩ := Constraints.feasible_ok l1.good l1.dims csz.x0 csz.X csz.U hp csz.ci csz.ce hz h6
      unfold accept at h4
      dsimp only at h4
      obtain ⟨w, hw, h4⟩ := bind_eq_ok.1 h4
      have hd := l1.dims
      have hw := (Mapping.unwrapVector_post s.mp l1.good z x0 _ _ (by rw [hd]; exact hz) (by rw [hd]; exact hx)
        (by dsimp only; rw [hd]) (by dsimp only; rw [hd]) (by dsimp only; rw [hd]) (by dsimp only; rw [hd])).of_eq hw
      have hwX := hw.xr; have hwXc := hw.xc; have hwU := hw.ur; have hwUc := hw.uc
      rw [hd] at hwX hwXc hwU hwUc
      have hXs : w.1.Is (d.ph + 1) d.nx := ⟨hwX, hwXc⟩
      have hUs : w.2.1.Is (d.ph + 1) d.nu := ⟨hwU, hwUc⟩
      obtain ⟨cmd, hcmd, h4⟩ := bind_eq_ok.1 h4
      obtain ⟨st, hst, h4⟩ := bind_eq_ok.1 h4
      obtain ⟨inp, hinp, h4⟩ := bind_eq_ok.1 h4
      obtain ⟨Y, hY, h4⟩ := bind_eq_ok.1 h4
      obtain ⟨ou, hou, h4⟩ := bind_eq_ok.1 h4
      cases h4
      obtain ⟨Y', hY', hYs, hYv⟩ := s.M.getOutput_ok w.1 w.2.1 hp hXs hUs
      obtain rfl : Y = Y' := by rw [hY'] at hY; cases hY; rfl
      rw [Mat.row_ok (by omega)] at hcmd
      cases hcmd
      have hvX : w.1.viewF (d.ph + 1) d.nx = NlSpec.codeStates d c.cfg.stScale x0.get z.get := by
        have := Objective.viewF_states hw
        rw [l1.stS, hd] at this
        exact this
      have hvU : w.2.1.viewF (d.ph + 1) d.nu = NlSpec.inputs d c.cfg.inScale z.get := by
        have := Objective.viewF_inputs hw
        rw [l1.inS, hd] at this
        exact this
      have hcmdv : ∀ b, b < d.nu → w.2.1.get 0 b = c.cfg.inScale b * z.get (NlSpec.inputIx d 0 b) := by
        intro b hb
        have := hw.u 0 b (by omega) (by rw [hd]; exact hb)
        rw [this, hd, l1.inS]
        unfold NlSpec.inputAt
        rw [Nat.zero_min]
        rfl
      refine ⟨k4, ?_, hgiven, ?_⟩
      · unfold NlCtl.solved
        refine ⟨⟨l1.good, l1.dims, l1.inS, l1.stS, l1.cont, l1.Ts, l1.field, l1.out, l1.obj, l1.ineq, l1.eq, l1.osz,
          ⟨csz.x0, f1, f2, csz.ceq, csz.Jceq, f3, csz.Ji, f4, csz.Je⟩, l1.ox0, l1.cx0⟩, ht1, ht2, ?_, ?_, ?_, ?_, ?_, ?_,
          ?_, ?_, ?_, ?_, hz, fun _ _ => rfl, rfl, ?_, ?_, ?_⟩
        all_goals dsimp only
        rotate_left 10
        · rw [hw.e, hd]
        · exact hUs.2
        · exact hcmdv
        all_goals rw [k3]
        · exact h.lbs
        · exact h.ubs
        · exact h.lb
        · exact h.ub
        · exact h.slb
        · exact h.sub
        · exact h.lim
        · exact h.warm
        · exact h.obj
        · exact h.groups
      · obtain ⟨s1, s2⟩ := block_full hXs hst
        obtain ⟨i1, i2⟩ := block_full hUs hinp
        obtain ⟨o1, o2⟩ := block_full hYs hou
        refine ⟨rfl, rfl, rfl, hUs.2, hcmdv, ?_, s1, i1, o1, s2.trans hvX, i2.trans hvU, ?_⟩
        · dsimp only
          have hx0 : s.con.x0.get = x0.get := l1.cx0 _ rfl
          refine (f5 _ _ _ (by rfl) (by rfl) (by rfl) (by intros; intro h; cases h) (by intros; intro h; cases h)).trans ?_
          rw [hx0, l1.stS, l1.inS, l1.out]
          exact and_congr (sat_tol (fun t => NlSpec.WithinIneq t) ht1 _) (sat_tol (fun t => NlSpec.WithinEq t) ht2 _)
        · rw [o2, hYv, hvX, hvU, l1.out]
          rfl

/-- a change of the evaluation objects only -/
theorem agrees_state {m m' : NlMpc d K} {c : NlCtl d K} (h : m.Agrees c) {cfg : NlSpec.Cfg d K} {ti te : K}
    (h1 : m'.s.Holds cfg) (h2 : cfg.ineq.isSome = true → m'.s.con.ieqTol = ti)
    (h3 : cfg.eq.isSome = true → m'.s.con.eqTol = te) (ho : m'.o = m.o) :
    m'.Agrees { c with cfg := cfg, ti := ti, te := te } := by
  refine ⟨h1, h2, h3, ?_, ?_, ?_, ?_, ?_, ?_, ?_, ?_, ?_, ?_, ?_, ?_, ?_, ?_, ?_, ?_⟩
  all_goals rw [ho]
  · exact h.lbs
  · exact h.ubs
  · exact h.lb
  · exact h.ub
  · exact h.slb
  · exact h.sub
  · exact h.lim
  · exact h.warm
  · exact h.obj
  · exact h.groups
  · exact h.zs
  · exact h.z
  · exact h.first
  · exact h.slack
  · exact h.cmds
  · exact h.cmd

/-- a change of the constraints known to the solver -/
theorem agrees_groups {m : NlMpc d K} {c : NlCtl d K} (h : m.Agrees c) (g : NlGroup K) (acc : Bool) :
    Agrees { m with o := (m.o.bindGroup g acc).1 } { c with groups := if acc then c.groups ++ [g] else c.groups } := by
  cases acc
  · exact ⟨h.holds, h.ti, h.te, h.lbs, h.ubs, h.lb, h.ub, h.slb, h.sub, h.lim, h.warm, h.obj, h.groups, h.zs, h.z,
      h.first, h.slack, h.cmds, h.cmd⟩
  · exact ⟨h.holds, h.ti, h.te, h.lbs, h.ubs, h.lb, h.ub, h.slb, h.sub, h.lim, h.warm, h.obj,
      congrArg (fun l => l ++ [g]) h.groups, h.zs, h.z, h.first, h.slack, h.cmds, h.cmd⟩

/-- the tuple of tolerances, entry by entry -/
theorem tol_pair {a b x y : K} (h : (a, b) = (x, y)) : a = x ∧ b = y := ⟨congrArg Prod.fst h, congrArg Prod.snd h⟩

/-- one API call -/
theorem step_agrees {m m' : NlMpc d K} {c : NlCtl d K} (h : m.Agrees c) (hp : d.ph < 2 ^ 31) (hm : d.nZ ≤ 2 ^ 64)
    (call : NlCall d K)
    (hf : NlSpec.CallFits d call) {out : NlOut K} (hr : m.step call = .ok (m', out)) :
    m'.Agrees (c.step out.refused call) ∧ m'.dynamic = m.dynamic := by
  cases call with
  | setDiscretizationSamplingTime ts =>
    simp only [step] at hr
    obtain ⟨q, hq, hr⟩ := bind_eq_ok.1 hr
    cases hr
    obtain ⟨k1, k2, k3, k4⟩ := onState_agrees h hp (op := .continuous true ts) trivial hq
    obtain ⟨t1, t2⟩ := tol_pair k2
    exact ⟨agrees_state h k1 (fun hs => t1.trans (h.ti hs)) (fun hs => t2.trans (h.te hs)) k3, k4⟩
  | setOptimizerParameters p =>
    simp only [step] at hr
    obtain ⟨q, hq, hr⟩ := bind_eq_ok.1 hr
    cases hr
    cases p with
    | other => cases hq
    | nonlinear p =>
      rw [NlOpt.setParameters_ok _ h.lbs h.ubs] at hq
      cases hq
      refine ⟨⟨h.holds, h.ti, h.te, rfl, rfl, ?_, ?_, rfl, rfl, ?_, rfl, h.obj, h.groups, h.zs, h.z, h.first, h.slack, h.cmds,
        h.cmd⟩, rfl⟩
      · unfold NlOpt.updateBounds NlCtl.step
        dsimp only
        rw [h.lb]
      · unfold NlOpt.updateBounds NlCtl.step
        dsimp only
        rw [h.ub]
      · unfold NlOpt.updateBounds NlCtl.step
        dsimp only
        rw [h.lim]
  | setInputScale v =>
    simp only [step] at hr
    obtain ⟨q, hq, hr⟩ := bind_eq_ok.1 hr
    cases hr
    obtain ⟨k1, k2, k3, k4⟩ := onState_agrees h hp (op := .inputScaling v) hf hq
    obtain ⟨t1, t2⟩ := tol_pair k2
    exact ⟨agrees_state h k1 (fun hs => t1.trans (h.ti hs)) (fun hs => t2.trans (h.te hs)) k3, k4⟩
  | setStateScale v =>
    simp only [step] at hr
    obtain ⟨q, hq, hr⟩ := bind_eq_ok.1 hr
    cases hr
    obtain ⟨k1, k2, k3, k4⟩ := onState_agrees h hp (op := .stateScaling v) hf hq
    obtain ⟨t1, t2⟩ := tol_pair k2
    exact ⟨agrees_state h k1 (fun hs => t1.trans (h.ti hs)) (fun hs => t2.trans (h.te hs)) k3, k4⟩
  | setObjectiveFunction f acc =>
    simp only [step] at hr
    obtain ⟨q, hq, hr⟩ := bind_eq_ok.1 hr
    cases hr
    obtain ⟨k1, k2, k3, k4⟩ := onState_agrees h hp (op := .objFn f) trivial hq
    obtain ⟨t1, t2⟩ := tol_pair k2
    have ha := agrees_state h k1 (fun hs => t1.trans (h.ti hs)) (fun hs => t2.trans (h.te hs)) k3
    refine ⟨?_, k4⟩
    cases acc
    · exact ⟨ha.holds, ha.ti, ha.te, ha.lbs, ha.ubs, ha.lb, ha.ub, ha.slb, ha.sub, ha.lim, ha.warm,
        ha.obj.trans (Bool.or_false _).symm, ha.groups, ha.zs, ha.z, ha.first, ha.slack, ha.cmds, ha.cmd⟩
    · exact ⟨ha.holds, ha.ti, ha.te, ha.lbs, ha.ubs, ha.lb, ha.ub, ha.slb, ha.sub, ha.lim, ha.warm,
        (Bool.or_true _).symm, ha.groups, ha.zs, ha.z, ha.first, ha.slack, ha.cmds, ha.cmd⟩
  | setStateSpaceFunction F tol acc =>
    simp only [step] at hr
    obtain ⟨q, hq, hr⟩ := bind_eq_ok.1 hr
    cases hr
    obtain ⟨k1, k2, k3, k4⟩ := onState_agrees h hp (op := .stateFn F) trivial hq
    obtain ⟨t1, t2⟩ := tol_pair k2
    have ha := agrees_state h k1 (fun hs => t1.trans (h.ti hs)) (fun hs => t2.trans (h.te hs)) k3
    exact ⟨agrees_groups ha _ acc, k4⟩
  | setOutputFunction g =>
    simp only [step] at hr
    obtain ⟨q, hq, hr⟩ := bind_eq_ok.1 hr
    cases hr
    obtain ⟨k1, k2, k3, k4⟩ := onState_agrees h hp (op := .outFn g) trivial hq
    obtain ⟨t1, t2⟩ := tol_pair k2
    exact ⟨agrees_state h k1 (fun hs => t1.trans (h.ti hs)) (fun hs => t2.trans (h.te hs)) k3, k4⟩
  | setIneqConFunction F tol acc =>
    simp only [step] at hr
    obtain ⟨q, hq, hr⟩ := bind_eq_ok.1 hr
    cases hr
    obtain ⟨k1, k2, k3, k4⟩ := onState_agrees h hp (op := .ineqFn F tol) trivial hq
    obtain ⟨t1, t2⟩ := tol_pair k2
    have ha := agrees_state h k1 (fun _ => t1) (fun hs => t2.trans (h.te hs)) k3
    exact ⟨agrees_groups ha _ acc, k4⟩
  | setEqConFunction F tol acc =>
    simp only [step] at hr
    obtain ⟨_, _, hr⟩ := bind_eq_ok.1 hr
    obtain ⟨q, hq, hr⟩ := bind_eq_ok.1 hr
    cases hr
    obtain ⟨k1, k2, k3, k4⟩ := onState_agrees h hp (op := .eqFn F tol) trivial hq
    obtain ⟨t1, t2⟩ := tol_pair k2
    have ha := agrees_state h k1 (fun hs => t1.trans (h.ti hs)) (fun _ => t2) k3
    exact ⟨agrees_groups ha _ acc, k4⟩
  | setStateBounds mn mx =>
    simp only [step] at hr
    obtain ⟨rfl, h2, h3⟩ := matrixBounds_agrees h (off := 0) (n := d.nx) hp (by unfold Dims.nZ at hm; omega) (fun _ _ _ _ => rfl) hr
    exact ⟨h3, h2⟩
  | setInputBounds mn mx =>
    simp only [step] at hr
    obtain ⟨rfl, h2, h3⟩ := matrixBounds_agrees h (off := d.ph * d.nx) (n := d.nu) (by have := h.pos; omega)
      (by have := Nat.mul_comm d.nu d.ch; unfold Dims.nZ at hm; omega) (fun _ _ _ _ => rfl) hr
    exact ⟨h3, h2⟩
  | setOutputBounds mn mx =>
    simp only [step] at hr
    cases hr
    exact ⟨h, rfl⟩
  | setStateBoundsSlice l u s =>
    simp only [step] at hr
    obtain ⟨b, rfl, h2, h3, -⟩ := sliceBounds_agrees h (fun _ => rfl) hr
    cases b
    · rw [if_neg (by simp)] at h3
      subst h3
      exact ⟨h, rfl⟩
    · exact ⟨h3, h2⟩
  | setInputBoundsSlice l u s =>
    simp only [step] at hr
    obtain ⟨b, rfl, h2, h3, -⟩ := sliceBounds_agrees h (fun _ => rfl) hr
    cases b
    · rw [if_neg (by simp)] at h3
      subst h3
      exact ⟨h, rfl⟩
    · exact ⟨h3, h2⟩
  | setOutputBoundsSlice l u s =>
    simp only [step] at hr
    cases hr
    exact ⟨h, rfl⟩
  | optimize x0 u0 cs oc junk =>
    simp only [step] at hr
    obtain ⟨r, call, rfl, -, h2, h3, -, -⟩ := optimize_ok h hp hf hr
    exact ⟨h3, h2⟩

/-- abstract state after a history, given what its calls returned -/
def _root_.Mpc.NlCtl.after (d : Dims) (ops : List (NlCall d K)) (outs : List (NlOut K)) : NlCtl d K :=
  (ops.zip outs).foldl (fun c q => c.step q.2.refused q.1) (NlCtl.fresh d)

theorem run_snoc {junk : Nat → K} {dyn : Bool} {ops : List (NlCall d K)} {op : NlCall d K} :
    run d junk dyn (ops ++ [op]) = (do
      let q ← run d junk dyn ops
      let r ← q.1.step op
      return (r.1, q.2 ++ [r.2])) := by
  unfold run
  rw [List.foldl_append]
  rfl

/-- a history -/
theorem run_agrees (hch : 0 < d.ch) (hle : d.ch ≤ d.ph) (hp : d.ph < 2 ^ 31) (hm : d.nZ ≤ 2 ^ 64)
    {junk : Nat → K} {dyn : Bool} {ops : List (NlCall d K)} (hf : ∀ op ∈ ops, NlSpec.CallFits d op) {m : NlMpc d K} {outs : List (NlOut K)}
    (hr : run d junk dyn ops = .ok (m, outs)) :
    m.Agrees (NlCtl.after d ops outs) ∧ m.dynamic = dyn ∧ outs.length = ops.length := by
  induction ops using List.reverseRecOn generalizing m outs with
  | nil =>
    obtain ⟨q, hq, hr⟩ := bind_eq_ok.1 hr
    cases hr
    obtain ⟨h1, h2⟩ := (init_agrees hch hle hp junk dyn).of_eq hq
    exact ⟨h1, h2, rfl⟩
  | append_singleton ops op ih =>
    rw [run_snoc] at hr
    obtain ⟨q, hq, hr⟩ := bind_eq_ok.1 hr
    obtain ⟨r, hr', hr⟩ := bind_eq_ok.1 hr
    cases hr
    obtain ⟨h1, h2, h3⟩ := ih (fun o ho => hf o (by simp [ho])) hq
    obtain ⟨h4, h5⟩ := step_agrees h1 hp hm op (hf op (by simp)) hr'
    refine ⟨?_, h5.trans h2, by simp [h3]⟩
    unfold NlCtl.after
    rw [List.zip_append h3.symm, List.foldl_append]
    exact h4

end NlMpc
end Mpc
