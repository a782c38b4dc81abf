import Verif.Proofs.NlAnyEval
import Verif.Proofs.NlOptimizeTrace
import Verif.Proofs.NlTotal

/-
The solver's search, the check and the reported outputs, run with any answers of the user functions.
-/
namespace Mpc
open Exec NlSpec
set_option linter.unusedSectionVars false

/-- Whatever the answers are, `p` succeeds, with a result and calls in `T`. -/
def Whatever {d : Dims} {K α : Type} [Zero K] : Prog d K α → (List (UserCall d K) → α → Prop) → Prop
  | .done r, T => Post r (T [])
  | .ask c k, T => ∀ a, Whatever (k a) fun l => T (bare c :: l)

section
variable {d : Dims} {K : Type} [Zero K] {α β σ : Type}

theorem Whatever.mono {p : Prog d K α} : ∀ {T R : List (UserCall d K) → α → Prop}, Whatever p T → (∀ l a, T l a → R l a) →
    Whatever p R := by
  induction p with
  | done r => intro T R h hq; exact Post.mono h (hq [])
  | ask c k ih => intro T R h hq a; exact ih a (h a) fun l => hq _

theorem Whatever.bind {p : Prog d K α} {f : α → Prog d K β} {R : List (UserCall d K) → β → Prop} :
    ∀ {T : List (UserCall d K) → α → Prop}, Whatever p T → (∀ l a, T l a → Whatever (f a) fun l' => R (l ++ l')) →
      Whatever (p >>= f) R := by
  induction p generalizing R with
  | done r =>
    rintro T ⟨a, rfl, h⟩ hf
    exact hf [] a h
  | ask c k ih =>
    intro T h hf a
    exact ih a (h a) fun l b hb => hf (bare c :: l) b hb

theorem Any.whatever {p : Prog d K α} : ∀ {l : List (UserCall d K)} {Q : α → Prop}, Any p l Q → Whatever p fun l' a => l' = l ∧ Q a := by
  induction p with
  | done r => rintro l Q ⟨rfl, h⟩; exact h.mono fun a ha => ⟨rfl, ha⟩
  | ask c k ih =>
    rintro l Q ⟨l', rfl, h⟩ a
    refine (ih a (h a)).mono ?_
    intro l1 b hb
    exact ⟨by rw [hb.1], hb.2⟩

theorem Whatever.pure {a : α} {T : List (UserCall d K) → α → Prop} (h : T [] a) : Whatever (Pure.pure a : Prog d K α) T := ⟨a, rfl, h⟩

theorem Whatever.first {e : Exec α} {f : α → Prog d K β} {Q : α → Prop} {R : List (UserCall d K) → β → Prop} (h : Post e Q)
    (hf : ∀ a, Q a → Whatever (f a) R) : Whatever (liftM e >>= f) R := by
  obtain ⟨a, rfl, ha⟩ := h
  exact hf a ha

/-- running with a memory -/
theorem Whatever.runWith {p : Prog d K α} (f : Stateful d K σ) : ∀ {T : List (UserCall d K) → α → Prop} (s : σ), Whatever p T →
    ∃ a s' l, p.runWith f s = (.ok a, s', l) ∧ T (l.map bare) a := by
  induction p with
  | done r => rintro T s ⟨a, rfl, h⟩; exact ⟨a, s, [], rfl, h⟩
  | ask c k ih =>
    intro T s h
    obtain ⟨a, s', l, e, ha⟩ := ih _ (f s c).1 (h (f s c).2)
    refine ⟨a, s', c :: l, ?_, ha⟩
    simp only [Prog.runWith]
    rw [e]

end

variable {d : Dims} {K : Type} [Field K] [LinearOrder K] [IsStrictOrderedRing K]

namespace NlMpc

/-- what the evaluations of a search leave alone -/
def Searched (c : NlSpec.Cfg d K) (s s' : NlState d K) : Prop :=
  s'.Holds c ∧ (s'.con.ieqTol, s'.con.eqTol) = (s.con.ieqTol, s.con.eqTol)

theorem evalConP_any {s : NlState d K} {c : NlSpec.Cfg d K} (h : s.Holds c) (hp : d.ph < 2 ^ 31) {x : Nat → K} (hx : c.x0 = some x)
    {k : NlGroupKind} (hk : k.Set c) {z : Vec K} (hz : z.size = d.nZ) (g : Bool) (junk : Nat → K) (tol : Vec K)
    {call : NlSolverCall K} {i : Nat} (hg : call.groups[i]? = some ⟨k, tol⟩) :
    Any (s.evalConP z g junk k) (callbackTrace zeroF c.cont c.out.isSome call (fun z => codeStates d c.stScale x z.get)
      (fun z => inputs d c.inScale z.get) (.con i z g junk))
      (fun r => Searched c s r.2 ∧ r.1.value.size = k.dim d ∧ r.1.grad.size = k.dim d * d.nZ) := by
  have hxs : s.con.x0.get = x := h.cx0 x hx
  unfold callbackTrace
  dsimp only
  rw [hg]
  have key : ∀ r : ConCost K × NlState d K, NlState.ConRes s c (k.dim d) r →
      Searched c s r.2 ∧ r.1.value.size = k.dim d ∧ r.1.grad.size = k.dim d * d.nZ := by
    rintro r ⟨h1, -, h3, h4, h5⟩
    exact ⟨⟨h1, by rw [h3.ti, h3.te]⟩, h4, h5⟩
  cases k with
  | dynamics => exact (NlState.evalDynP_any h hp hk z hz g junk).mono (by rw [hxs]) key
  | userIneq => exact (NlState.evalIneqP_any h hp hk z hz junk).mono (by rw [hxs]) key
  | userEq => exact (NlState.evalEqP_any h hk z hz junk).mono (by rw [hxs]) key

theorem serveP_any {o : NlOpt K} {s : NlState d K} {c : NlSpec.Cfg d K} (h : s.Holds c) (hp : d.ph < 2 ^ 31) {x : Nat → K}
    (hx : c.x0 = some x) (ho : o.objective = true → c.obj.isSome = true)
    (hg : ∀ g ∈ o.groups, g.kind.Set c ∧ g.tol.size = g.kind.dim d) {call : NlSolverCall K} (e1 : call.objective = o.objective)
    (e2 : call.groups = o.groups) (k : NlCallback K) (hk : CallbackFits d k) :
    Any (serveP o s k) (callbackTrace zeroF c.cont c.out.isSome call (fun z => codeStates d c.stScale x z.get)
      (fun z => inputs d c.inScale z.get) k) (fun r => Searched c s r.2) := by
  cases k with
  | obj z g junk =>
    unfold serveP callbackTrace
    dsimp only
    rw [e1]
    by_cases hb : o.objective = true
    · rw [if_pos hb, if_pos hb]
      obtain ⟨f, hf⟩ := Option.isSome_iff_exists.1 (ho hb)
      have hn : d.nZ ≠ 0 := by unfold Dims.nZ; omega
      refine Any.bindEnd (Q := fun r => Searched c s r.2) ?_ fun r hr => Any.pure hr
      unfold NlState.objWrapperP
      dsimp only
      have hg' : (decide ((if g = true then d.nZ else 0) ≠ 0)) = g := by cases g <;> simp [hn]
      rw [hg']
      refine Any.bindEnd ((NlState.evalObjP_any h hp hf z hk g).mono (by rw [h.ox0 x hx]) fun _ h => h) ?_
      rintro r ⟨h1, h2, -, h4⟩
      have hs : Searched c s r.2 := ⟨h1, by rw [h2]⟩
      cases g with
      | false => exact Any.pure hs
      | true =>
        obtain ⟨G, hG, hGs⟩ := h4 rfl
        simp only [if_true]
        rw [if_pos (show d.nZ ≠ 0 from hn), hG]
        dsimp only
        obtain ⟨v, hv, -⟩ := memcpy_ok (dst := (⟨d.nZ, junk⟩ : Vec K)) (src := G) hGs
        rw [hv]
        exact Any.pure hs
    · rw [if_neg hb, if_neg hb]
      exact Any.pure ⟨h, rfl⟩
  | con i z g junk =>
    unfold serveP
    dsimp only
    cases hi : o.groups[i]? with
    | none =>
      unfold callbackTrace
      dsimp only
      rw [e2, hi]
      exact Any.pure ⟨h, rfl⟩
    | some grp =>
      obtain ⟨h1, h2⟩ := hg _ (List.mem_of_getElem? hi)
      obtain ⟨kind, tol⟩ := grp
      dsimp only at h1 h2 ⊢
      refine Any.bindEnd (Q := fun r => Searched c s r.2) ?_ fun r hr => Any.pure hr
      unfold NlState.conWrapperP
      have hgr : (if g = true then some (⟨tol.size * d.nZ, junk⟩ : Vec K) else none).isSome = g := by cases g <;> rfl
      rw [hgr]
      refine Any.bindEnd (evalConP_any h hp hx h1 hk g junk tol (by rw [e2, hi])) ?_
      rintro r ⟨k1, k2, k3⟩
      obtain ⟨v, hv, -⟩ := memcpy_ok (dst := (⟨tol.size, junk⟩ : Vec K)) (src := r.1.value) (k2.trans h2.symm)
      obtain ⟨w, hw, -⟩ := memcpy_ok (dst := (⟨tol.size * d.nZ, junk⟩ : Vec K)) (src := r.1.grad) (by rw [k3, h2])
      cases g with
      | false =>
        simp only [Bool.false_eq_true, if_false]
        unfold NlBuffers.write
        dsimp only
        rw [hv, ok_bind]
        exact Any.pure k1
      | true =>
        simp only [if_true]
        unfold NlBuffers.write
        dsimp only
        rw [hv, ok_bind, hw, ok_bind]
        exact Any.pure k1

theorem callbacksP_any {o : NlOpt K} {s : NlState d K} {c : NlSpec.Cfg d K} (h : s.Holds c) (hp : d.ph < 2 ^ 31) {x : Nat → K}
    (hx : c.x0 = some x) (ho : o.objective = true → c.obj.isSome = true)
    (hg : ∀ g ∈ o.groups, g.kind.Set c ∧ g.tol.size = g.kind.dim d) {call : NlSolverCall K} (e1 : call.objective = o.objective)
    (e2 : call.groups = o.groups) (cs : List (NlCallback K)) (hk : ∀ k ∈ cs, CallbackFits d k) :
    Any (callbacksP o s cs) (cs.flatMap (callbackTrace zeroF c.cont c.out.isSome call (fun z => codeStates d c.stScale x z.get)
      (fun z => inputs d c.inScale z.get))) (Searched c s) := by
  induction cs using List.reverseRecOn with
  | nil => exact Any.pure ⟨h, rfl⟩
  | append_singleton l k ih =>
    have : callbacksP o s (l ++ [k]) = callbacksP o s l >>= fun s => serveP o s k >>= fun r => pure r.2 := by
      unfold callbacksP
      rw [List.foldl_append]
      rfl
    rw [this, List.flatMap_append]
    refine Any.bind (ih fun k hk' => hk k (by simp [hk'])) ?_
    rintro s1 ⟨h1, h2⟩
    rw [List.flatMap_cons, List.flatMap_nil, List.append_nil]
    refine Any.bindEnd (serveP_any h1 hp hx ho hg e1 e2 k (hk k (by simp))) ?_
    rintro r ⟨h3, h4⟩
    exact Any.pure ⟨h3, h4.trans h2⟩

end NlMpc

namespace Constraints

theorem feasIneqP_any (o : Constraints d K) (M : NlModel d K) (hc : o.cineqUser.size = d.ineq) (X U : Mat K) (e : K) (hp : d.ph < 2 ^ 31)
    (hX : X.Is (d.ph + 1) d.nx) (hU : U.Is (d.ph + 1) d.nu) :
    Any (feasIneqP o M X U e) (if o.ieqUser.isSome then NlSpec.ineqCalls zeroF M.outUser.isSome (X.viewF (d.ph + 1) d.nx)
        (U.viewF (d.ph + 1) d.nu) e else [])
      (fun r => r.2.size = d.ineq ∧ (o.ieqUser.isSome = false → r.1 = true)) := by
  unfold feasIneqP
  cases h : o.ieqUser with
  | none => exact Any.pure ⟨hc, fun _ => rfl⟩
  | some f =>
    dsimp only
    rw [if_pos (by rfl)]
    exact Any.bindEnd (callIneqP_any M X U e hp hX hU) fun v hv => Any.pure ⟨hv, fun h => nomatch h⟩

theorem feasEqP_any (o : Constraints d K) (hc : o.ceqUser.size = d.eq) (hn : o.eqUser.isSome = true → 0 < d.eq) (X U : Mat K)
    (hX : X.Is (d.ph + 1) d.nx) (hU : U.Is (d.ph + 1) d.nu) :
    Any (feasEqP o X U) (if o.eqUser.isSome then [.eq (X.viewF (d.ph + 1) d.nx) (U.viewF (d.ph + 1) d.nu)] else [])
      (fun r => r.2.size = d.eq) := by
  unfold feasEqP
  cases h : o.eqUser with
  | none => exact Any.pure hc
  | some f =>
    dsimp only
    rw [if_pos (by rfl)]
    refine Any.bindEnd (callEqP_any X U hX hU) fun v hv => ?_
    have := hn (by rw [h]; rfl)
    exact Any.first (maxAbsGreater_num false (x := fun i => .fin (v.get i)) (fun i _ => rfl) (by dsimp only; omega) _)
      fun _ _ => Any.pure hv

end Constraints

namespace NlState
variable {s : NlState d K} {c : NlSpec.Cfg d K}

theorem isFeasibleP_any (h : s.Holds c) (hp : d.ph < 2 ^ 31) (heq : c.eq.isSome = true → 0 < d.eq) (z : Vec K) (hz : z.size = d.nZ) :
    Whatever (s.con.isFeasibleP s.mp s.M z) (fun l r => NlMpc.Searched c s { s with con := r.2 } ∧
      CheckAsked c.out.isSome c.ineq.isSome c.eq.isSome (codeStates d c.stScale s.con.x0.get z.get) (inputs d c.inScale z.get)
        (z.get (slackIx d)) r.1 l) := by
  unfold Constraints.isFeasibleP
  obtain ⟨⟨X, U, e⟩, hw, hX, hU, hXv, hUv, he⟩ := h.unwrapCon z hz
  dsimp only at hX hU hXv hUv he
  rw [hw, Prog.lift_ok_bind]
  dsimp only
  rw [← hXv, ← hUv, ← he, ← h.out]
  have hcs := h.csz
  have hi : s.con.ieqUser.isSome = c.ineq.isSome := by rw [h.ineq]; cases c.ineq <;> rfl
  have hq : s.con.eqUser.isSome = c.eq.isSome := by rw [h.eq]; cases c.eq <;> rfl
  have kept : ∀ (ci ce : Vec K), ci.size = d.ineq → ce.size = d.eq →
      NlMpc.Searched c s { s with con := { s.con with Xmat := X, Umat := U, e := e, cineqUser := ci, ceqUser := ce } } :=
    fun ci ce h1 h2 => ⟨ConKept.holds h ⟨⟨hcs.x0, hX, hU, hcs.ceq, hcs.Jceq, h1, hcs.Ji, h2, hcs.Je⟩, rfl, rfl, rfl, rfl, rfl⟩, rfl⟩
  refine Whatever.bind (Constraints.feasIneqP_any s.con s.M hcs.ci X U e hp hX hU).whatever ?_
  rintro l ⟨ok, ci⟩ ⟨rfl, h1, h2⟩
  dsimp only at h1 h2 ⊢
  rw [hi] at h2 ⊢
  cases ok with
  | true =>
    simp only [if_true]
    refine Whatever.bind (Constraints.feasEqP_any s.con hcs.ce (by rw [hq]; exact heq) X U hX hU).whatever ?_
    rintro l ⟨ok, ce⟩ ⟨rfl, h3⟩
    rw [hq]
    refine Whatever.pure ⟨kept ci ce h1 h3, ?_⟩
    rw [List.append_nil]
    exact .inl rfl
  | false =>
    simp only [Bool.false_eq_true, if_false]
    refine Whatever.pure ⟨kept ci s.con.ceqUser h1 hcs.ce, ?_⟩
    rw [List.append_nil]
    cases hb : c.ineq.isSome with
    | false => exact absurd (h2 hb) (by simp)
    | true => exact .inr ⟨rfl, rfl, by rw [if_pos rfl]⟩

end NlState

namespace NlMpc

/-- what `optimize` reports when the solver answers `z`, apart from what the user functions answered -/
structure AnsweredAny (c : NlCtl d K) (x0 z : Nat → K) (value : Ext K) (code : Int) (r : LResult K) (o : NlOpt K) : Prop where
  status : r.status = NlOpt.convertStatus code
  code : r.solver_status = code
  cost : r.cost = value
  cmdSize : r.cmd.size = d.nu
  cmd : ∀ b, b < d.nu → r.cmd.get b = c.cfg.inScale b * z (NlSpec.inputIx d 0 b)
  sS : o.seqState.Is (d.ph + 1) d.nx
  sI : o.seqInput.Is (d.ph + 1) d.nu
  sO : o.seqOutput.Is (d.ph + 1) d.ny
  seqS : o.seqState.viewF (d.ph + 1) d.nx = NlSpec.codeStates d c.cfg.stScale x0 z
  seqI : o.seqInput.viewF (d.ph + 1) d.nu = NlSpec.inputs d c.cfg.inScale z

/-- result of the call according to the outcome of the solver -/
def ReportedAny (c : NlCtl d K) (old : LResult K) (x0 : Nat → K) (r : LResult K) (o : NlOpt K) : NlOutcome K → Prop
  | .answered z value code false => AnsweredAny c x0 z.get value code r o
  | _ => Failed d old r o

/-- what an `optimize` leads to -/
structure Optimized (m : NlMpc d K) (c : NlCtl d K) (x0 u0 : Nat → K) (oc : NlOutcome K) (cs : List (NlCallback K))
    (l : List (UserCall d K)) (m' : NlMpc d K) (out : NlOut K) : Prop where
  dynamic : m'.dynamic = m.dynamic
  agrees : m'.Agrees (c.solved x0 u0 oc)
  res : ∃ call, out = .result m'.o.result call ∧ Given c x0 u0 call ∧ ReportedAny c m.o.result x0 m'.o.result m'.o oc ∧
    ∃ l', AfterAsked c.cfg.out.isSome c.cfg.ineq.isSome c.cfg.eq.isSome (fun z => codeStates d c.cfg.stScale x0 z.get)
      (fun z => inputs d c.cfg.inScale z.get) m'.o.result.is_feasible oc l' ∧
      l = cs.flatMap (callbackTrace zeroF c.cfg.cont c.cfg.out.isSome call (fun z => codeStates d c.cfg.stScale x0 z.get)
        (fun z => inputs d c.cfg.inScale z.get)) ++ l'

theorem optimizeP_any {m : NlMpc d K} {c : NlCtl d K} (h : m.Agrees c) (hp : d.ph < 2 ^ 31) {x0 u0 : Vec K}
    {cs : List (NlCallback K)} {oc : NlOutcome K} {junk : Nat → K} (hf : NlSpec.CallFits d (.optimize x0 u0 cs oc junk))
    (hb : c.Bound) (heq : c.cfg.eq.isSome = true → 0 < d.eq) :
    Whatever (m.optimizeP x0 u0 cs oc junk) (fun l r => Optimized m c x0.get u0.get oc cs l r.1 r.2) := by
  obtain ⟨hx, hu, hcs, hz⟩ := hf
  unfold optimizeP
  obtain ⟨m1, h1⟩ := onState_total h hp (.measure x0) hx trivial
  obtain ⟨k1, k2, k3, k4⟩ := onState_agrees h hp (op := .measure x0) hx h1
  rw [h1, Prog.lift_ok_bind]
  obtain ⟨p, h2, p1, p2, p3⟩ := NlOpt.prepare_start k1.good k1.dims junk hx hu (o := m1.o) (by rw [k3]; exact h.zs)
  rw [h2, Prog.lift_ok_bind]
  dsimp only
  obtain ⟨hch, hle⟩ := h.pos
  -- the initial point
  have hstart : ∀ q, q < d.nZ → p.1.get q = c.start x0.get u0.get q := by
    intro q hq
    rw [p2 q hq, k3, h.first, h.warm]
    unfold NlCtl.start
    split_ifs with hc
    · unfold NlCtl.cold
      rw [h.z q hq]
    · exact h.z q hq
  have hgiven : Given c x0.get u0.get (m1.solverCall p.2) := by
    refine ⟨?_, ?_, ?_, ?_, ?_, ?_, ?_, ?_⟩
    · have := p3.congr (w := ⟨d.nZ, c.start x0.get u0.get⟩) hch hle hstart
      rw [k1.inS, k3, h.slack] at this
      exact this
    all_goals unfold solverCall; dsimp only; rw [k3]
    · rw [h.slb]; exact h.lbs
    · rw [h.sub]; exact h.ubs
    · rw [h.slb]; exact h.lb
    · rw [h.sub]; exact h.ub
    · exact h.lim
    · exact h.obj
    · exact h.groups
  refine Whatever.bind (callbacksP_any (o := m1.o) (call := m1.solverCall p.2) (x := x0.get) k1 hp rfl
    (fun ho => hb.obj (by rw [k3] at ho; exact h.obj.symm.trans ho))
    (fun g hg => by
      rw [k3, h.groups] at hg
      refine ⟨?_, hb.dim g hg⟩
      have := hb.set g hg
      revert this
      cases g.kind <;> exact id) rfl rfl cs hcs).whatever ?_
  rintro l s ⟨rfl, l1, l2⟩
  have htol : (s.con.ieqTol, s.con.eqTol) = (m.s.con.ieqTol, m.s.con.eqTol) := by rw [l2]; exact k2
  have ht1 : c.cfg.ineq.isSome = true → s.con.ieqTol = c.ti := fun hs => (congrArg Prod.fst htol).trans (h.ti hs)
  have ht2 : c.cfg.eq.isSome = true → s.con.eqTol = c.te := fun hs => (congrArg Prod.snd htol).trans (h.te hs)
  have hfail : ∀ (v : Vec K) (b : Bool), Failed d m.o.result (NlOpt.failed { m1.o with optVector := v, first := b } d).result
      (NlOpt.failed { m1.o with optVector := v, first := b } d) := by
    intro v b
    unfold NlOpt.failed
    refine ⟨rfl, rfl, rfl, rfl, ?_, rfl, rfl, rfl⟩
    dsimp only
    rw [k3]
  cases oc with
  | threw =>
    unfold finishP
    refine Whatever.pure ⟨k4, ?_, _, rfl, hgiven, hfail _ _, [], rfl, rfl⟩
    unfold NlOpt.failed NlCtl.solved
    refine ⟨l1, ht1, ht2, ?_, ?_, ?_, ?_, ?_, ?_, ?_, ?_, ?_, ?_, p1, hstart, ?_, ?_, ?_, ?_⟩
    all_goals dsimp only; rw [k3]
    · exact h.lbs
    · exact h.ubs
    · exact h.lb
    · exact h.ub
    · exact h.slb
    · exact h.sub
    · exact h.lim
    · exact h.warm
    · exact h.obj
    · exact h.groups
    · exact h.first
    · exact h.slack
    · exact h.cmds
    · exact h.cmd
  | answered z value code ct =>
    dsimp only at hz
    cases ct with
    | true =>
      unfold finishP
      dsimp only
      rw [if_pos rfl]
      refine Whatever.pure ⟨k4, ?_, _, rfl, hgiven, hfail _ _, [], rfl, rfl⟩
      unfold NlOpt.failed NlCtl.solved
      refine ⟨l1, ht1, ht2, ?_, ?_, ?_, ?_, ?_, ?_, ?_, ?_, ?_, ?_, hz, fun _ _ => rfl, rfl, ?_, ?_, ?_⟩
      all_goals dsimp only; rw [k3]
      · exact h.lbs
      · exact h.ubs
      · exact h.lb
      · exact h.ub
      · exact h.slb
      · exact h.sub
      · exact h.lim
      · exact h.warm
      · exact h.obj
      · exact h.groups
      · exact h.slack
      · exact h.cmds
      · exact h.cmd
    | false =>
      unfold finishP
      dsimp only
      rw [if_neg (by simp)]
      have ex0 : s.con.x0.get = x0.get := l1.cx0 _ rfl
      refine Whatever.bind (T := fun l' m' => m'.dynamic = m.dynamic ∧ m'.Agrees (c.solved x0.get u0.get (.answered z value code false)) ∧
        AnsweredAny c x0.get z.get value code m'.o.result m'.o ∧
        AfterAsked c.cfg.out.isSome c.cfg.ineq.isSome c.cfg.eq.isSome (fun z => codeStates d c.cfg.stScale x0.get z.get)
          (fun z => inputs d c.cfg.inScale z.get) m'.o.result.is_feasible (.answered z value code false) l') ?_ ?_
      swap
      · rintro l' m' ⟨q1, q2, q3, q4⟩
        exact Whatever.pure ⟨q1, q2, _, rfl, hgiven, q3, l', q4, by rw [List.append_nil]; rfl⟩
      refine Whatever.bind (NlState.isFeasibleP_any l1 hp heq z hz) ?_
      rintro lc ⟨ok, con'⟩ ⟨⟨f1, f2⟩, f3⟩
      dsimp only at f1 f2 f3
      rw [ex0] at f3
      unfold acceptP
      dsimp only
      obtain ⟨w, hw', hw⟩ := Mapping.unwrapVector_post s.mp l1.good z x0 ⟨d.ph + 1, d.nx, fun i _ => junk i⟩
        ⟨d.ph + 1, d.nu, fun i _ => junk i⟩ (by rw [l1.dims]; exact hz) (by rw [l1.dims]; exact hx)
        (by dsimp only; rw [l1.dims]) (by dsimp only; rw [l1.dims]) (by dsimp only; rw [l1.dims]) (by dsimp only; rw [l1.dims])
      have hd := l1.dims
      have hwX := hw.xr; have hwXc := hw.xc; have hwU := hw.ur; have hwUc := hw.uc
      rw [hd] at hwX hwXc hwU hwUc
      have hXs : w.1.Is (d.ph + 1) d.nx := ⟨hwX, hwXc⟩
      have hUs : w.2.1.Is (d.ph + 1) d.nu := ⟨hwU, hwUc⟩
      have hvX : w.1.viewF (d.ph + 1) d.nx = NlSpec.codeStates d c.cfg.stScale x0.get z.get := by
        have := Objective.viewF_states hw
        rw [l1.stS, hd] at this
        exact this
      have hvU : w.2.1.viewF (d.ph + 1) d.nu = NlSpec.inputs d c.cfg.inScale z.get := by
        have := Objective.viewF_inputs hw
        rw [l1.inS, hd] at this
        exact this
      have hcmdv : ∀ b, b < d.nu → w.2.1.get 0 b = c.cfg.inScale b * z.get (NlSpec.inputIx d 0 b) := by
        intro b hb
        have := hw.u 0 b (by omega) (by rw [hd]; exact hb)
        rw [this, hd, l1.inS]
        unfold NlSpec.inputAt
        rw [Nat.zero_min]
        rfl
      obtain ⟨st, hst⟩ : ∃ st, w.1.block 0 0 (d.ph + 1) d.nx = .ok st := ⟨_, Mat.block_ok (by omega) (by omega)⟩
      obtain ⟨inp, hinp⟩ : ∃ st, w.2.1.block 0 0 (d.ph + 1) d.nu = .ok st := ⟨_, Mat.block_ok (by omega) (by omega)⟩
      rw [hw', Prog.lift_ok_bind, Mat.row_ok (by omega), Prog.lift_ok_bind, hst, Prog.lift_ok_bind, hinp, Prog.lift_ok_bind]
      obtain ⟨s1, s2⟩ := block_full hXs hst
      obtain ⟨i1, i2⟩ := block_full hUs hinp
      refine Whatever.bind (s.M.getOutputP_any w.1 w.2.1 hp hXs hUs).whatever ?_
      rintro lo Y ⟨rfl, hY⟩
      have hYs : Y.Is (d.ph + 1) d.ny := hY
      obtain ⟨ou, hou⟩ : ∃ st, Y.block 0 0 (d.ph + 1) d.ny = .ok st := ⟨_, Mat.block_ok (by rw [hYs.1]; omega) (by rw [hYs.2]; omega)⟩
      obtain ⟨o1, -⟩ := block_full hYs hou
      rw [hou, Prog.lift_ok_bind]
      refine Whatever.pure ⟨k4, ?_, ⟨rfl, rfl, rfl, hUs.2, hcmdv, s1, i1, o1, s2.trans hvX, i2.trans hvU⟩, lc, ?_, f3⟩
      · unfold NlCtl.solved
        refine ⟨f1, fun hs => (congrArg Prod.fst f2).trans (ht1 hs), fun hs => (congrArg Prod.snd f2).trans (ht2 hs), ?_, ?_, ?_, ?_,
          ?_, ?_, ?_, ?_, ?_, ?_, hz, fun _ _ => rfl, rfl, ?_, ?_, ?_⟩
        all_goals dsimp only
        rotate_left 10
        · rw [hw.e, hd]
        · exact hUs.2
        · exact hcmdv
        all_goals rw [k3]
        · exact h.lbs
        · exact h.ubs
        · exact h.lb
        · exact h.ub
        · exact h.slb
        · exact h.sub
        · exact h.lim
        · exact h.warm
        · exact h.obj
        · exact h.groups
      · rw [hvX, hvU, l1.out, List.append_nil]
        rfl

end NlMpc
end Mpc
