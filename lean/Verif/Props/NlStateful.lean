import Verif.Proofs.NlAnyRun
import Verif.Props.NlOptimizeCalls

/-
C133: user functions of the nonlinear controller which remember: counters, caches, recorded data, random numbers.
-/
namespace Mpc.Props
open Mpc Exec NlSpec
set_option linter.unusedSectionVars false

section
variable {d : Dims} {K : Type} {σ τ : Type} [Field K] [LinearOrder K] [IsStrictOrderedRing K]

/-- The calls `ops`, well-formed, were made on a new controller of dimensions `d` (run time dimensions if `dyn`) whose user functions
are `f`, remembering `s0` at first; they returned `outs`. `m` is the controller and `s` what is remembered now. -/
structure StRan (f : Stateful d K σ) (s0 : σ) (dyn : Bool) (ops : List (NlCall d K)) (outs : List (NlOut K)) (m : NlMpc d K)
    (s : σ) : Prop where
  hor : HorizonsOk d
  small : d.ph < 2 ^ 30
  mem : d.ph * d.nx + d.nu * d.ch + 1 ≤ 2 ^ 64
  fits : ∀ op ∈ ops, CallFits d op
  ran : ∃ junk l, (NlMpc.runP d junk dyn ops).runWith f s0 = (.ok (m, outs), s, l)

/-- After that history `optimize(x0, u0)`, with requests `cs` of the solver and outcome `oc`, calls the user functions with `l`, and
returns `r`; `call` is what the solver was given, `s'` what is remembered then. -/
structure StAsked (f : Stateful d K σ) (s0 : σ) (dyn : Bool) (ops : List (NlCall d K)) (outs : List (NlOut K)) (x0 u0 : Vec K)
    (cs : List (NlCallback K)) (oc : NlOutcome K) (m m' : NlMpc d K) (s s' : σ) (r : LResult K) (call : NlSolverCall K)
    (l : List (UserCall d K)) : Prop extends StRan f s0 dyn ops outs m s where
  adm : ∃ junk, AdmissibleHistory d dyn (ops ++ [.optimize x0 u0 cs oc junk])
  ask : ∃ junk, CallFits d (.optimize x0 u0 cs oc junk) ∧
    (m.optimizeP x0 u0 cs oc junk).runWith f s = (.ok (m', .result r call), s', l)

variable {f : Stateful d K σ} {s0 : σ} {dyn : Bool} {ops : List (NlCall d K)} {outs outs' : List (NlOut K)} {m m' n n' : NlMpc d K}
  {x0 u0 : Vec K} {cs : List (NlCallback K)} {oc : NlOutcome K} {r r' : LResult K} {call call' : NlSolverCall K} {s s' : σ}
  {l l' : List (UserCall d K)} {junk : Nat → K} {F : ∀ c : UserCall d K, c.Ans}

theorem StRan.any (h : StRan f s0 dyn ops outs m s) (ha : AdmissibleHistory d dyn ops) :
    m.Agrees (NlCtl.after d ops outs) ∧ m.dynamic = dyn ∧ outs.length = ops.length ∧ List.Forall₂ (NlMpc.CallOut d) ops outs := by
  obtain ⟨junk, l, hr⟩ := h.ran
  obtain ⟨a, s1, l1, e, h1, h2, h3, h4⟩ := Whatever.runWith f s0
    (NlMpc.runP_any h.hor.ch_pos h.hor.ch_le h.small h.mem junk dyn ops h.fits ha)
  rw [hr] at e
  obtain ⟨rfl⟩ : (m, outs) = a := by cases e; rfl
  exact ⟨h1, h2, h3, h4⟩

theorem adm_init {op : NlCall d K} (h : AdmissibleHistory d dyn (ops ++ [op])) : AdmissibleHistory d dyn ops :=
  fun pre o post e => h pre o (post ++ [op]) (by rw [e]; simp)

theorem StAsked.any (h : StAsked f s0 dyn ops outs x0 u0 cs oc m m' s s' r call l) :
    NlMpc.Optimized m (NlCtl.after d ops outs) x0.get u0.get oc cs (l.map bare) m' (.result r call) ∧
      m.Agrees (NlCtl.after d ops outs) ∧ outs.length = ops.length ∧ List.Forall₂ (NlMpc.CallOut d) ops outs := by
  obtain ⟨j, ha⟩ := h.adm
  obtain ⟨h1, h2, h3, h4⟩ := h.toStRan.any (adm_init ha)
  obtain ⟨junk, hf, hr⟩ := h.ask
  have hR := NlMpc.ready_of (outs := outs) h3 ha
  obtain ⟨a, s1, l1, e, hO⟩ := Whatever.runWith f s (NlMpc.optimizeP_any h1 h.hor.ph_int hf hR.1 hR.2)
  rw [hr] at e
  obtain ⟨rfl, rfl⟩ : (m', NlOut.result r call) = a ∧ l = l1 := by cases e; exact ⟨rfl, rfl⟩
  exact ⟨hO, h1, h3, h4⟩

/-- C133: whatever the user functions answer and remember, no well-formed call faults. -/
theorem c133_total (hd : HorizonsOk d) (hp : d.ph < 2 ^ 30) (hm : d.ph * d.nx + d.nu * d.ch + 1 ≤ 2 ^ 64) (f : Stateful d K σ) (s0 : σ)
    (junk : Nat → K) (dyn : Bool) (ops : List (NlCall d K)) (hf : ∀ op ∈ ops, CallFits d op) (ha : AdmissibleHistory d dyn ops) :
    ∃ m outs s l, (NlMpc.runP d junk dyn ops).runWith f s0 = (.ok (m, outs), s, l) ∧ outs.length = ops.length := by
  obtain ⟨a, s1, l1, e, h1, h2, h3, h4⟩ := Whatever.runWith f s0 (NlMpc.runP_any hd.ch_pos hd.ch_le hp hm junk dyn ops hf ha)
  exact ⟨a.1, a.2, s1, l1, e, h3⟩

/-- C133: an `optimize` after a well-formed history answers. -/
theorem c133_answers (h : StRan f s0 dyn ops outs m s) (hf : CallFits d (.optimize x0 u0 cs oc junk))
    (ha : AdmissibleHistory d dyn (ops ++ [.optimize x0 u0 cs oc junk])) :
    ∃ m' s' r call l, StAsked f s0 dyn ops outs x0 u0 cs oc m m' s s' r call l := by
  obtain ⟨h1, h2, h3, h4⟩ := h.any (adm_init ha)
  have hR := NlMpc.ready_of (outs := outs) h3 ha
  obtain ⟨⟨m', o⟩, s1, l1, e, hO⟩ := Whatever.runWith f s (NlMpc.optimizeP_any h1 h.hor.ph_int hf hR.1 hR.2)
  obtain ⟨call, ho, -⟩ := hO.res
  dsimp only at ho
  subst ho
  exact ⟨m', s1, _, call, l1, h, ⟨junk, ha⟩, junk, hf, e⟩

/-- C133: which calls are made, and with which arguments, does not depend on what the user functions answer, except that the equality
constraints are left out of the check if the answer is found to be infeasible before, and that objective and inequality constraints
are shown the outputs the output function has answered (which `bare` takes away). -/
theorem c133_calls (h : StAsked f s0 dyn ops outs x0 u0 cs oc m m' s s' r call l) :
    ∃ rest, l.map bare = cs.flatMap (callbackTrace zeroF (last samplingOf ops).isSome (last outputOf ops).isSome call
        (statesOf ops x0) (inputsOf ops)) ++ rest ∧
      AfterAsked (last outputOf ops).isSome (last ineqConOf ops).isSome (last eqConOf ops).isSome (statesOf ops x0) (inputsOf ops)
        r.is_feasible oc rest := by
  obtain ⟨hO, -, hl, -⟩ := h.any
  obtain ⟨call', e, -, -, l', h1, h2⟩ := hO.res
  obtain ⟨rfl, rfl⟩ : r = m'.o.result ∧ call = call' := by cases e; exact ⟨rfl, rfl⟩
  have e1 : (NlCtl.after d ops outs).cfg.cont = (last samplingOf ops).isSome := after_cont hl
  have e3 : (NlCtl.after d ops outs).cfg.ineq.isSome = (last ineqConOf ops).isSome := by rw [← after_ineq hl, Option.isSome_map]
  have e4 : (NlCtl.after d ops outs).cfg.eq.isSome = (last eqConOf ops).isSome := by rw [← after_eq hl, Option.isSome_map]
  rw [after_stScale hl, after_inScale hl, after_out hl, e1] at h2
  rw [after_stScale hl, after_inScale hl, after_out hl, e3, e4] at h1
  exact ⟨l', h2, h1⟩

/-- C133: the result, apart from the feasibility and the reported outputs, depends on the outcome of the solver only. -/
theorem c133_result (h : StAsked f s0 dyn ops outs x0 u0 cs oc m m' s s' r call l) :
    r = m'.o.result ∧
    (∀ z value code, oc = .answered z value code false →
      r.status = NlOpt.convertStatus code ∧ r.solver_status = code ∧ r.cost = value ∧
      r.cmd.size = d.nu ∧ (∀ b : Fin d.nu, r.cmd.get b = inputsOf ops z 0 b) ∧
      (fun (k : Fin (d.ph + 1)) (a : Fin d.nx) => m'.o.seqState.get k a) = statesOf ops x0 z ∧
      (fun (k : Fin (d.ph + 1)) (b : Fin d.nu) => m'.o.seqInput.get k b) = inputsOf ops z) ∧
    ((oc = .threw ∨ ∃ z value code, oc = .answered z value code true) → Caught m.o.result r) := by
  obtain ⟨hO, -, hl, -⟩ := h.any
  obtain ⟨call', e, -, hr, -⟩ := hO.res
  obtain ⟨rfl, rfl⟩ : r = m'.o.result ∧ call = call' := by cases e; exact ⟨rfl, rfl⟩
  refine ⟨rfl, ?_, ?_⟩
  · rintro z value code rfl
    have ha : NlMpc.AnsweredAny (NlCtl.after d ops outs) x0.get z.get value code m'.o.result m'.o := hr
    refine ⟨ha.status, ha.code, ha.cost, ha.cmdSize, fun b => ?_, ?_, ?_⟩
    · rw [ha.cmd b b.2, after_inScale hl]
      unfold inputsOf NlSpec.inputs NlSpec.inputAt
      simp
    · have := ha.seqS
      rw [after_stScale hl] at this
      exact this
    · have := ha.seqI
      rw [after_inScale hl] at this
      exact this
  · have key : NlMpc.Failed d m.o.result m'.o.result m'.o → Caught m.o.result m'.o.result := fun h => ⟨h.status, h.code, h.feas, h.cost, h.cmd⟩
    rintro (rfl | ⟨z, value, code, rfl⟩)
    · exact key hr
    · exact key hr

theorem ran_callOut (h : NlRan d dyn ops outs m) : List.Forall₂ (NlMpc.CallOut d) ops outs := by
  obtain ⟨junk, hr⟩ := h.ran
  have ho := NlMpc.run_out h.hor.ch_pos h.hor.ch_le h.hor.ph_int h.mem h.fits hr
  rw [List.forall₂_iff_zip]
  refine ⟨h.len.symm, fun {op o} hq => ?_⟩
  have := ho _ hq
  unfold NlMpc.CallOut
  split_ifs with hn
  · cases op with
    | optimize x0 u0 cs oc j => obtain ⟨r, call, rfl⟩ := this; rfl
    | _ => cases hn
  · exact this

theorem tasks_same {g : Stateful d K τ} {t0 t t' : τ} (h : StAsked f s0 dyn ops outs x0 u0 cs oc m m' s s' r call l)
    (h' : StAsked g t0 dyn ops outs' x0 u0 cs oc n n' t t' r' call' l') : SameTask call call' := by
  obtain ⟨hO, -, hl, hc⟩ := h.any
  obtain ⟨hO', -, hl', hc'⟩ := h'.any
  obtain ⟨c1, e, hg, -⟩ := hO.res
  obtain ⟨c2, e', hg', -⟩ := hO'.res
  cases e
  cases e'
  rw [NlMpc.callOut_after hc hc'] at hg
  exact given_same hg hg'

/-- C133: the solver is given the same task as with functions without memory. -/
theorem c133_task (h : StAsked f s0 dyn ops outs x0 u0 cs oc m m' s s' r call l)
    (h' : NlAsked d dyn ops outs' x0 u0 cs oc n n' r' call') : SameTask call call' := by
  obtain ⟨hO, -, hl, hc⟩ := h.any
  obtain ⟨c1, e, hg, -⟩ := hO.res
  cases e
  obtain ⟨-, -, hg', -⟩ := h'.known
  rw [NlMpc.callOut_after hc (ran_callOut h'.toNlRan)] at hg
  exact given_same hg hg'

/-- C133: two controllers with the same history and different user functions, or different memories: the solver is given the same task,
the user functions are called alike during the search, and the results agree except for the feasibility and the outputs. -/
theorem c133_independent {g : Stateful d K τ} {t0 t t' : τ} (h : StAsked f s0 dyn ops outs x0 u0 cs oc m m' s s' r call l)
    (h' : StAsked g t0 dyn ops outs' x0 u0 cs oc n n' t t' r' call' l') :
    SameTask call call' ∧ r.status = r'.status ∧ r.solver_status = r'.solver_status ∧ r.cost = r'.cost ∧ SameVec r.cmd r'.cmd ∧
    SameMat m'.o.seqState n'.o.seqState ∧ SameMat m'.o.seqInput n'.o.seqInput ∧
    ∃ q rest rest', l.map bare = q ++ rest ∧ l'.map bare = q ++ rest' ∧ (last ineqConOf ops = none → rest = rest') := by
  have ht := tasks_same h h'
  obtain ⟨rest, k1, k2⟩ := c133_calls h
  obtain ⟨rest', k1', k2'⟩ := c133_calls h'
  have e : callbackTrace (d := d) (K := K) zeroF (last samplingOf ops).isSome (last outputOf ops).isSome call (statesOf ops x0) (inputsOf ops)
      = callbackTrace zeroF (last samplingOf ops).isSome (last outputOf ops).isSome call' (statesOf ops x0) (inputsOf ops) := by
    funext c
    unfold callbackTrace
    rw [ht.objective, ht.groups]
  rw [← e] at k1'
  have hrest : last ineqConOf ops = none → rest = rest' := by
    intro hn
    rw [hn] at k2 k2'
    rcases oc with _ | ⟨z, v, k, _ | _⟩
    · exact Eq.trans (show rest = [] from k2) (show rest' = [] from k2').symm
    · obtain ⟨a, rfl, ha⟩ := k2
      obtain ⟨a', rfl, ha'⟩ := k2'
      congr 1
      rcases ha with ha | ⟨ha, -⟩
      · rcases ha' with ha' | ⟨ha', -⟩
        · exact ha.trans ha'.symm
        · cases ha'
      · cases ha
    · exact Eq.trans (show rest = [] from k2) (show rest' = [] from k2').symm
  obtain ⟨hO, -, hl, hc⟩ := h.any
  obtain ⟨hO', -, hl', hc'⟩ := h'.any
  have eA := NlMpc.callOut_after hc hc'
  have g1 := hO.agrees
  have g2 := hO'.agrees
  rw [← eA] at g2
  obtain ⟨c1, e1, -, q1, -⟩ := hO.res
  obtain ⟨c2, e2, -, q2, -⟩ := hO'.res
  obtain ⟨rfl, rfl⟩ : r = m'.o.result ∧ call = c1 := by cases e1; exact ⟨rfl, rfl⟩
  obtain ⟨rfl, rfl⟩ : r' = n'.o.result ∧ call' = c2 := by cases e2; exact ⟨rfl, rfl⟩
  rw [← eA] at q2
  have hcmd : SameVec m'.o.result.cmd n'.o.result.cmd :=
    ⟨by rw [g1.cmds, g2.cmds], fun i hi => by rw [g1.cmds] at hi; rw [g1.cmd i hi, g2.cmd i hi]⟩
  have failed : NlMpc.Failed d m.o.result m'.o.result m'.o → NlMpc.Failed d n.o.result n'.o.result n'.o →
      m'.o.result.status = n'.o.result.status ∧ m'.o.result.solver_status = n'.o.result.solver_status ∧
      m'.o.result.cost = n'.o.result.cost ∧ SameMat m'.o.seqState n'.o.seqState ∧ SameMat m'.o.seqInput n'.o.seqInput := by
    intro a b
    refine ⟨a.status.trans b.status.symm, a.code.trans b.code.symm, a.cost.trans b.cost.symm, ?_, ?_⟩
    · rw [a.seqS, b.seqS]; exact ⟨rfl, rfl, fun _ _ _ _ => rfl⟩
    · rw [a.seqI, b.seqI]; exact ⟨rfl, rfl, fun _ _ _ _ => rfl⟩
  suffices hh : m'.o.result.status = n'.o.result.status ∧ m'.o.result.solver_status = n'.o.result.solver_status ∧
      m'.o.result.cost = n'.o.result.cost ∧ SameMat m'.o.seqState n'.o.seqState ∧ SameMat m'.o.seqInput n'.o.seqInput by
    obtain ⟨a1, a2, a3, a4, a5⟩ := hh
    exact ⟨ht, a1, a2, a3, hcmd, a4, a5, _, rest, rest', k1, k1', hrest⟩
  rcases oc with _ | ⟨z, v, k, _ | _⟩
  · exact failed q1 q2
  · have a : NlMpc.AnsweredAny _ x0.get z.get v k m'.o.result m'.o := q1
    have b : NlMpc.AnsweredAny _ x0.get z.get v k n'.o.result n'.o := q2
    exact ⟨a.status.trans b.status.symm, a.code.trans b.code.symm, a.cost.trans b.cost.symm,
      mat_same a.sS b.sS (a.seqS.trans b.seqS.symm), mat_same a.sI b.sI (a.seqI.trans b.seqI.symm)⟩
  · exact failed q1 q2

/-! ### memory which does not show -/

theorem Calls.runWith_faithful {inv : σ → Prop} (hf : Faithful inv f F) {α : Type} (p : Prog d K α) : ∀ s, inv s →
    p.runWith f s = (p.run F, (p.calls F).foldl (fun s c => (f s c).1) s, p.calls F) ∧
      inv ((p.calls F).foldl (fun s c => (f s c).1) s) := by
  induction p with
  | done r => intro s hs; exact ⟨rfl, hs⟩
  | ask c k ih =>
    intro s hs
    obtain ⟨h1, h2⟩ := ih (F c) _ (hf.keep s c hs)
    simp only [Prog.runWith, Prog.run, Prog.calls, List.foldl_cons]
    rw [hf.answer s c hs, h1]
    exact ⟨rfl, h2⟩

/-- C133: if what the functions remember does not show in what they answer (a cache, a counter, recorded data), `optimize` is that of
the functions without memory, and every call made is remembered, in order. -/
theorem c133_memory {inv : σ → Prop} (h : NlRan d dyn ops outs m) (hF : SetFunctions ops F)
    (hfit : CallFits d (.optimize x0 u0 cs oc junk))
    (hr : m.step (.optimize x0 u0 cs oc junk) = .ok (m', .result r call)) (hoc : ∀ z v c, oc ≠ .answered z v c true)
    (hf : Faithful inv f F) (hs : inv s) :
    ∃ q, q = searchCalls ops x0 F call cs ++
        answerTrace F (last outputOf ops).isSome ((last ineqConOf ops).map (·.2)) (last eqConOf ops).isSome (statesOf ops x0) (inputsOf ops) oc ∧
      (m.optimizeP x0 u0 cs oc junk).runWith f s = (.ok (m', .result r call), q.foldl (fun s c => (f s c).1) s, q) ∧
      inv (q.foldl (fun s c => (f s c).1) s) := by
  obtain ⟨h1, h2⟩ := c132_trace h hF hfit hr hoc
  obtain ⟨k1, k2⟩ := Calls.runWith_faithful hf (m.optimizeP x0 u0 cs oc junk) s hs
  rw [h1, h2] at k1
  rw [h2] at k2
  exact ⟨_, rfl, k1, k2⟩

end

/-! ### samples -/

/-- functions which count their calls -/
def counting : Stateful dN ℚ Nat := fun n c => (n + 1, fnsC c)

/-- functions which answer with the number of calls before: never the same twice -/
def restless : Stateful dN ℚ Nat := fun n c => (n + 1, match c with
  | .state _ _ _ => (fun _ => n : FVec dN.nx ℚ)
  | .out _ _ _ => (fun _ => n : FVec dN.ny ℚ)
  | .obj _ _ _ _ => (n : ℚ)
  | .ineq _ _ _ _ => (fun _ => n : FVec dN.ineq ℚ)
  | .eq _ _ => (fun _ => n : FVec dN.eq ℚ))

theorem opsC_fits : ∀ op ∈ opsC, CallFits dN op := by simp [opsC, NlSpec.CallFits]

theorem opsC_adm {op : NlCall dN ℚ} (h : Admissible dN false [] op) : AdmissibleHistory dN false (opsC ++ [op]) := by
  intro p o q e
  refine admFrom_split (pre := []) (l := opsC ++ [op]) ?_ p o q e
  refine ⟨trivial, trivial, trivial, trivial, ⟨rfl, by decide⟩, ?_, trivial⟩
  cases op <;> exact h

/-- C133: functions which never answer the same twice: the solver asks for the objective and its gradient, and answers. -/
example : ∃ outs m m' s s' r call l, StAsked restless 0 false opsC outs (nvec 2 fun _ => 1) (nvec 1 fun _ => 0)
    [.obj (zN 1) true fun _ => 0] (.answered (nvec 9 fun _ => 2) (.fin 3) 1 false) m m' s s' r call l ∧ r.status = .SUCCESS ∧ r.cmd.get 0 = 2 := by
  obtain ⟨m, outs, s, l, hr, -⟩ := c133_total dN_ok (by decide) (by decide) restless 0 (fun _ => 0) false opsC opsC_fits
    (adm_init (opsC_adm (op := .setInputScale (nvec 1 fun _ => 1)) trivial))
  have h : StRan restless 0 false opsC outs m s := ⟨dN_ok, by decide, by decide, opsC_fits, _, l, hr⟩
  obtain ⟨m', s', r, call, l', h'⟩ := c133_answers (x0 := nvec 2 fun _ => 1) (u0 := nvec 1 fun _ => 0) (cs := [.obj (zN 1) true fun _ => 0])
    (oc := .answered (nvec 9 fun _ => 2) (.fin 3) 1 false) (junk := fun _ => 0) h
    ⟨rfl, rfl, by intro c hc; rw [List.mem_singleton.1 hc]; rfl, rfl⟩ (opsC_adm trivial)
  obtain ⟨-, h2, -⟩ := c133_result h'
  obtain ⟨a, -, -, -, b, -⟩ := h2 _ _ _ rfl
  refine ⟨outs, m, m', s, s', r, call, l', h', a, ?_⟩
  rw [b ⟨0, by decide⟩]
  simp [inputsOf, NlSpec.inputs, NlSpec.inputAt, NlSpec.inScale, NlSpec.last, NlSpec.inScaleOf, opsC, nvec]

theorem foldl_count (q : List (UserCall dN ℚ)) (n : Nat) : q.foldl (fun s c => (counting s c).1) n = n + q.length := by
  induction q generalizing n with
  | nil => rfl
  | cons a q ih => rw [List.foldl_cons, ih, List.length_cons]; show n + 1 + _ = _; omega

/-- C133: functions which count: the count goes up by the number of calls, and the result is that of the functions which do not. -/
example : ∃ outs m m' r call junk q, NlRan dN false opsC outs m ∧
    m.step (.optimize (nvec 2 fun _ => 1) (nvec 1 fun _ => 0) [] (.answered (zN 1) (.fin 3) 1 false) junk) = .ok (m', .result r call) ∧
    (m.optimizeP (nvec 2 fun _ => 1) (nvec 1 fun _ => 0) [] (.answered (zN 1) (.fin 3) 1 false) junk).runWith counting 7
      = (.ok (m', .result r call), 7 + q.length, q) := by
  obtain ⟨outs, m, m', r, call, h⟩ := asked_of (ops := opsC) 1 0 (.answered (zN 1) (.fin 3) 1 false) (by rintro _ _ _ _ ⟨⟩; rfl)
    opsC_fits (by simp [opsC, AdmFrom, NlSpec.Admissible, dN])
  obtain ⟨junk, hf, hr⟩ := h.ask
  obtain ⟨q, -, e, -⟩ := c133_memory (f := counting) (s := 7) (inv := fun _ => True) h.toNlRan fnsC_set hf hr (by rintro _ _ _ ⟨⟩)
    ⟨fun _ _ _ => rfl, fun _ _ _ => trivial⟩ trivial
  rw [foldl_count] at e
  exact ⟨outs, m, m', r, call, junk, q, h.toNlRan, hr, e⟩

end Mpc.Props
