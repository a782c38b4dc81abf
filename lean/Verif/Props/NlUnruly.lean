import Verif.Proofs.NlUnruly
import Verif.Props.NlStateful

/-
C134: user functions of the nonlinear controller which remember, and which may throw.
-/
namespace Mpc.Props
open Mpc Exec NlSpec
set_option linter.unusedSectionVars false

section
variable {d : Dims} {K : Type} {σ τ : Type} [Field K] [LinearOrder K] [IsStrictOrderedRing K]

/-- The calls `ops`, well-formed, were made on a new controller of dimensions `d` (run time dimensions if `dyn`) whose user functions
are `f`, remembering `s0` at first; they returned `outs`, or threw, and ended as `es` says. `m` is the controller and `s` what is
remembered now. -/
structure UnRan (f : Insider d K σ) (s0 : σ) (dyn : Bool) (ops : List (NlCall d K × NlWork K)) (outs : List (NlOut K))
    (es : List (NlTCall d K)) (m : NlMpc d K) (s : σ) : Prop where
  hor : HorizonsOk d
  small : d.ph < 2 ^ 30
  mem : d.ph * d.nx + d.nu * d.ch + 1 ≤ 2 ^ 64
  fits : ∀ op ∈ ops, CallFits d op.1
  adm : AdmissibleHistory d dyn (ops.map Prod.fst)
  ran : ∃ junk l, NlMpc.runW f s0 junk dyn ops = (.ok (m, outs, es), s, l)

/-- After that history `optimize(x0, u0)`, with requests `cs` of the solver and outcome `oc` of its search unless a user function
throws, makes the calls `l` and ends as `e` says, with `out`; `s'` is remembered then. -/
structure UnAsked (f : Insider d K σ) (s0 : σ) (dyn : Bool) (ops : List (NlCall d K × NlWork K)) (outs : List (NlOut K))
    (es : List (NlTCall d K)) (x0 u0 : Vec K) (cs : List (NlCallback K)) (oc : NlOutcome K) (w : NlWork K) (m m' : NlMpc d K) (s s' : σ)
    (out : NlOut K) (e : NlEnding K) (l : List (UserCall d K × Bool)) : Prop extends UnRan f s0 dyn ops outs es m s where
  admAll : ∃ junk, AdmissibleHistory d dyn (ops.map Prod.fst ++ [.optimize x0 u0 cs oc junk])
  ask : ∃ junk, CallFits d (.optimize x0 u0 cs oc junk) ∧ m.optimizeW f w x0 u0 cs oc junk s = (.ok (m', out, e), s', l)

/-- the calls of the search, if it is not cut short -/
abbrev searchAsked (ops : List (NlCall d K)) (x0 : Vec K) (call : NlSolverCall K) (cs : List (NlCallback K)) : List (UserCall d K) :=
  cs.flatMap (callbackTrace zeroF (last samplingOf ops).isSome (last outputOf ops).isSome call (statesOf ops x0) (inputsOf ops))

/-- the calls of an `optimize` after the calls `ops`, according to how it ends -/
abbrev CallsOf (ops : List (NlCall d K)) (x0 : Vec K) (call : NlSolverCall K) (cs : List (NlCallback K)) (oc : NlOutcome K)
    (feasible : Bool) (l : List (UserCall d K × Bool)) (e : NlEnding K) : Prop :=
  CallsMade (last outputOf ops).isSome (last ineqConOf ops).isSome (last eqConOf ops).isSome (statesOf ops x0) (inputsOf ops)
    (searchAsked ops x0 call cs) oc feasible l e

variable {f : Insider d K σ} {s0 : σ} {dyn : Bool} {ops : List (NlCall d K × NlWork K)} {outs outs' : List (NlOut K)}
  {es es' : List (NlTCall d K)} {m m' n n' : NlMpc d K} {x0 u0 : Vec K} {cs : List (NlCallback K)} {oc : NlOutcome K} {w : NlWork K}
  {s s' : σ} {out out' : NlOut K} {e e' : NlEnding K} {l l' : List (UserCall d K × Bool)} {junk : Nat → K}
  {r r' : LResult K} {call call' : NlSolverCall K}

theorem UnRan.any (h : UnRan f s0 dyn ops outs es m s) :
    m.Agrees (NlCtl.afterT d es outs) ∧ m.dynamic = dyn ∧ outs.length = es.length ∧ List.Forall₂ Became (ops.map Prod.fst) es ∧
      List.Forall₂ (NlMpc.UnOut d) es outs := by
  obtain ⟨junk, l, hr⟩ := h.ran
  obtain ⟨m1, outs1, es1, s1, l1, e, h1, h2, h3, h4, h5⟩ := NlMpc.runW_any h.hor.ch_pos h.hor.ch_le h.small h.mem f s0 junk dyn ops h.fits h.adm
  rw [hr] at e
  obtain ⟨rfl, rfl, rfl⟩ : m = m1 ∧ outs = outs1 ∧ es = es1 := by cases e; exact ⟨rfl, rfl, rfl⟩
  exact ⟨h1, h2, h3, h4, h5⟩

theorem UnAsked.any (h : UnAsked f s0 dyn ops outs es x0 u0 cs oc w m m' s s' out e l) :
    NlMpc.UnOptimized m (NlCtl.afterT d es outs) x0 u0 oc cs l m' out e f s s' := by
  obtain ⟨j, ha⟩ := h.admAll
  obtain ⟨h1, h2, h3, h4, h5⟩ := h.toUnRan.any
  obtain ⟨junk, hf, hr⟩ := h.ask
  have hR := NlMpc.readyT_of h3 h4 ha
  obtain ⟨m1, o1, e1, s1, l1, eq, hO⟩ := NlMpc.optimizeW_any f w h1 h.hor.ph_int hf hR.1 hR.2 s
  rw [hr] at eq
  obtain ⟨rfl, rfl, rfl, rfl, rfl⟩ : m' = m1 ∧ out = o1 ∧ e = e1 ∧ l = l1 ∧ s' = s1 := by cases eq; exact ⟨rfl, rfl, rfl, rfl, rfl⟩
  exact hO

/-- C134: whatever the user functions do, no well-formed call faults, and each ends in agreement with the solver. -/
theorem c134_total (hd : HorizonsOk d) (hp : d.ph < 2 ^ 30) (hm : d.ph * d.nx + d.nu * d.ch + 1 ≤ 2 ^ 64) (f : Insider d K σ) (s0 : σ)
    (junk : Nat → K) (dyn : Bool) (ops : List (NlCall d K × NlWork K)) (hf : ∀ op ∈ ops, CallFits d op.1)
    (ha : AdmissibleHistory d dyn (ops.map Prod.fst)) :
    ∃ m outs es s l, NlMpc.runW f s0 junk dyn ops = (.ok (m, outs, es), s, l) ∧ outs.length = ops.length ∧
      List.Forall₂ Became (ops.map Prod.fst) es := by
  obtain ⟨m, outs, es, s, l, e, -, -, h3, h4, -⟩ := NlMpc.runW_any hd.ch_pos hd.ch_le hp hm f s0 junk dyn ops hf ha
  refine ⟨m, outs, es, s, l, e, ?_, h4⟩
  rw [h3, ← h4.length_eq, List.length_map]

/-- C134: an `optimize` after a well-formed history answers or throws, and does not fault. -/
theorem c134_answers (h : UnRan f s0 dyn ops outs es m s) (w : NlWork K) (hf : CallFits d (.optimize x0 u0 cs oc junk))
    (ha : AdmissibleHistory d dyn (ops.map Prod.fst ++ [.optimize x0 u0 cs oc junk])) :
    ∃ m' s' out e l, UnAsked f s0 dyn ops outs es x0 u0 cs oc w m m' s s' out e l := by
  obtain ⟨h1, h2, h3, h4, h5⟩ := h.any
  have hR := NlMpc.readyT_of h3 h4 ha
  obtain ⟨m1, o1, e1, s1, l1, eq, hO⟩ := NlMpc.optimizeW_any f w h1 h.hor.ph_int hf hR.1 hR.2 s
  exact ⟨m1, s1, o1, e1, l1, h, ⟨junk, ha⟩, junk, hf, eq⟩

/-- C134: setters and getters call no user function, and nothing is remembered of them. -/
theorem c134_setters {ops : List (NlCall d K × NlWork K)} (hn : ∀ op ∈ ops, isOptimize op.1 = false)
    (hr : NlMpc.runW f s0 junk dyn ops = (.ok (m, outs, es), s, l)) : s = s0 ∧ l = [] := by
  induction ops using List.reverseRecOn generalizing m outs es s l with
  | nil =>
    unfold NlMpc.runW at hr
    rw [List.foldl_nil] at hr
    exact ⟨(congrArg (fun q => q.2.1) hr).symm, (congrArg (fun q => q.2.2) hr).symm⟩
  | append_singleton ops op ih =>
    rcases hq : NlMpc.runW f s0 junk dyn ops with ⟨a, s1, l1⟩
    rcases a with er | ⟨m1, outs1, es1⟩
    · have : NlMpc.runW f s0 junk dyn (ops ++ [op]) = (.error er, s1, l1) := by
        unfold NlMpc.runW at hq ⊢
        rw [List.foldl_append, hq]
        rfl
      rw [this] at hr
      cases hr
    · obtain ⟨rfl, rfl⟩ := ih (fun o ho => hn o (by simp [ho])) hq
      rw [NlMpc.runW_snoc f _ hq] at hr
      have e : m1.stepW f op.2 op.1 s1 = ((m1.step op.1).map fun q => (q.1, q.2, .call op.1), s1, []) := by
        have := hn op (by simp)
        rcases op with ⟨op, w⟩
        cases op <;> first | rfl | cases this
      rw [e] at hr
      exact ⟨(congrArg (fun q => q.2.1) hr).symm, (congrArg (fun q => q.2.2) hr).symm⟩

theorem unGiven (h : UnAsked f s0 dyn ops outs es x0 u0 cs oc w m m' s s' out e l) (ho : out = .result r call) :
    NlMpc.Given (NlCtl.afterT d es outs) x0.get u0.get call ∧ r = m'.o.result ∧ (∀ z, e ≠ .outputThrows z) ∧
      NlMpc.ReportedAny (NlCtl.afterT d es outs) m.o.result x0.get m'.o.result m'.o e.outcome := by
  rcases h.any.res with ⟨z, -, h2, -⟩ | ⟨call', h1, h2, h3, h4⟩
  · rw [ho] at h2; cases h2
  · rw [ho] at h2
    obtain ⟨rfl, rfl⟩ : r = m'.o.result ∧ call = call' := by cases h2; exact ⟨rfl, rfl⟩
    exact ⟨h3, rfl, h1, h4⟩

/-- the reports seen by functions which ask for them, in an `optimize` after the calls `ops`, according to how it ends -/
abbrev ReadsOf (ops : List (NlCall d K)) (x0 : Vec K) (call : NlSolverCall K) (cs : List (NlCallback K)) (f : Insider d K σ)
    (before : NlView K) (s : σ) (l : List (UserCall d K × Bool)) (s' : σ) (e : NlEnding K) : Prop :=
  Reads (last outputOf ops).isSome (last ineqConOf ops).isSome (last eqConOf ops).isSome (statesOf ops x0) (inputsOf ops)
    (searchAsked ops x0 call cs) f before s l s' e

theorem unCalls (h : UnAsked f s0 dyn ops outs es x0 u0 cs oc w m m' s s' out e l) :
    ∃ call, (∀ r call', out = .result r call' → call' = call) ∧
      CallsOf (ops.map Prod.fst) x0 call cs oc m'.o.result.is_feasible l e ∧
      ReadsOf (ops.map Prod.fst) x0 call cs f m.o.view s l s' e := by
  obtain ⟨-, -, h3, h4, -⟩ := h.toUnRan.any
  obtain ⟨call, hg, hc⟩ := h.any.calls
  rw [NlMpc.afterW_stScale h3 h4, NlMpc.afterW_inScale h3 h4, NlMpc.afterW_out h3 h4, NlMpc.afterW_ineq h3 h4, NlMpc.afterW_eq h3 h4,
    NlMpc.afterW_cont h3 h4] at hc
  by_cases ho : ∃ r call', out = .result r call'
  · obtain ⟨r, call', ho⟩ := ho
    refine ⟨call', fun r1 call1 h1 => by rw [ho] at h1; cases h1; rfl, ?_⟩
    have ht := given_same hg (unGiven h ho).1
    have eT : searchAsked (d := d) (K := K) (ops.map Prod.fst) x0 call cs = searchAsked (ops.map Prod.fst) x0 call' cs := by
      have : callbackTrace (d := d) (K := K) zeroF (last samplingOf (ops.map Prod.fst)).isSome (last outputOf (ops.map Prod.fst)).isSome call
          (statesOf (ops.map Prod.fst) x0) (inputsOf (ops.map Prod.fst))
          = callbackTrace zeroF (last samplingOf (ops.map Prod.fst)).isSome (last outputOf (ops.map Prod.fst)).isSome call'
          (statesOf (ops.map Prod.fst) x0) (inputsOf (ops.map Prod.fst)) := by
        funext c
        unfold callbackTrace
        rw [ht.objective, ht.groups]
      unfold searchAsked
      rw [this]
    unfold CallsOf ReadsOf
    rw [← eT]
    exact hc
  · exact ⟨call, fun r call' ho' => absurd ⟨r, call', ho'⟩ ho, hc⟩

/-- C134: which calls are made, with which arguments, and in which order, up to the one which throws. -/
theorem c134_calls (h : UnAsked f s0 dyn ops outs es x0 u0 cs oc w m m' s s' out e l) :
    ∃ call, (∀ r call', out = .result r call' → call' = call) ∧
      CallsOf (ops.map Prod.fst) x0 call cs oc m'.o.result.is_feasible l e := by
  obtain ⟨call, h1, h2, -⟩ := unCalls h
  exact ⟨call, h1, h2⟩

/-- C134: the first call which throws is the last one of the `optimize`. -/
theorem c134_first_throw (h : UnAsked f s0 dyn ops outs es x0 u0 cs oc w m m' s s' out e l) {pre post : List (UserCall d K × Bool)}
    {c : UserCall d K} (hl : l = pre ++ (c, true) :: post) : post = [] ∧ NoThrow pre ∧ ∀ z v k, e ≠ .returns z v k := by
  obtain ⟨call, -, hC⟩ := c134_calls h
  have hno : ¬ NoThrow l := fun hn => by
    have := hn (c, true) (by rw [hl]; simp)
    cases this
  have key : LastThrew l → post = [] ∧ NoThrow pre := by
    rintro ⟨l1, c1, e1, hn⟩
    rcases List.eq_nil_or_concat post with rfl | ⟨q, a, rfl⟩
    · have e2 : l1 = pre := by
        have := e1.symm.trans hl
        exact (List.append_inj' this rfl).1
      exact ⟨rfl, e2 ▸ hn⟩
    · exfalso
      have e2 : l1 = pre ++ (c, true) :: q := by
        have := e1.symm.trans hl
        have e3 : pre ++ (c, true) :: q.concat a = (pre ++ (c, true) :: q) ++ [a] := by simp
        rw [e3] at this
        exact (List.append_inj' this rfl).1
      have := hn (c, true) (by rw [e2]; simp)
      cases this
  cases e with
  | solverThrows =>
    rcases hC with ⟨-, hn, -⟩ | ⟨hL, -⟩
    · exact absurd hn hno
    · exact ⟨(key hL).1, (key hL).2, by rintro _ _ _ ⟨⟩⟩
  | checkThrows z w => exact ⟨(key hC.2.1).1, (key hC.2.1).2, by rintro _ _ _ ⟨⟩⟩
  | outputThrows z => exact ⟨(key hC.2.1).1, (key hC.2.1).2, by rintro _ _ _ ⟨⟩⟩
  | returns z v k => exact absurd hC.2.1 hno

/-- C134: how an `optimize` ends in which no user function throws. -/
theorem c134_no_throw (h : UnAsked f s0 dyn ops outs es x0 u0 cs oc w m m' s s' out e l) (hn : NoThrow l) :
    (oc = .threw ∧ e = .solverThrows) ∨ ∃ z v k t, oc = .answered z v k t ∧ e = .returns z v k := by
  obtain ⟨call, -, hC⟩ := c134_calls h
  have key : ¬ LastThrew l := by
    rintro ⟨l1, c1, rfl, -⟩
    have := hn (c1, true) (by simp)
    cases this
  cases e with
  | solverThrows =>
    rcases hC with ⟨h1, -, -⟩ | ⟨hL, -⟩
    · exact .inl ⟨h1, rfl⟩
    · exact absurd hL key
  | checkThrows z w => exact absurd hC.2.1 key
  | outputThrows z => exact absurd hC.2.1 key
  | returns z v k =>
    obtain ⟨t, ht⟩ := hC.1
    exact .inr ⟨z, v, k, t, ht, rfl⟩

/-- C134: an exception of the search or of the check of the answer does not leave `optimize`; it reports the failure, keeps the
command and zeroes the optimal sequence. -/
theorem c134_caught (h : UnAsked f s0 dyn ops outs es x0 u0 cs oc w m m' s s' out e l) (he : e = .solverThrows ∨ ∃ z w, e = .checkThrows z w) :
    ∃ r call, out = .result r call ∧ r = m'.o.result ∧ Caught m.o.result r ∧
      m'.o.seqState = Mat.const (d.ph + 1) d.nx 0 ∧ m'.o.seqInput = Mat.const (d.ph + 1) d.nu 0 ∧
      m'.o.seqOutput = Mat.const (d.ph + 1) d.ny 0 := by
  rcases h.any.res with ⟨z, h1, -⟩ | ⟨call, -, h2, -, h4⟩
  · rcases he with rfl | ⟨_, _, rfl⟩ <;> cases h1
  · have hF : NlMpc.Failed d m.o.result m'.o.result m'.o := by
      rcases he with rfl | ⟨_, _, rfl⟩ <;> exact h4
    exact ⟨_, call, h2, rfl, ⟨hF.status, hF.code, hF.feas, hF.cost, hF.cmd⟩, hF.seqS, hF.seqI, hF.seqO⟩

/-- C134: an exception leaves `optimize` only if it comes from the output function, while the solver's answer is reported; then the last
result and the reported outputs are the old ones, and the reported states and inputs those of the answer. -/
theorem c134_escaped (h : UnAsked f s0 dyn ops outs es x0 u0 cs oc w m m' s s' out e l) (ho : out = .threw) :
    ∃ z, e = .outputThrows z ∧ (∃ v k t, oc = .answered z v k t) ∧
      (∃ l' x u k, l = l' ++ [(UserCall.out x u k, true)] ∧ NoThrow l') ∧
      m'.o.result = m.o.result ∧ m'.o.seqOutput = m.o.seqOutput ∧
      (fun (k : Fin (d.ph + 1)) (a : Fin d.nx) => m'.o.seqState.get k a) = statesOf (ops.map Prod.fst) x0 z ∧
      (fun (k : Fin (d.ph + 1)) (b : Fin d.nu) => m'.o.seqInput.get k b) = inputsOf (ops.map Prod.fst) z := by
  obtain ⟨-, -, h3, h4, -⟩ := h.toUnRan.any
  rcases h.any.res with ⟨z, rfl, -, hE⟩ | ⟨call, -, h2, -⟩
  swap
  · rw [ho] at h2; cases h2
  obtain ⟨call, -, hC⟩ := c134_calls h
  obtain ⟨h5, ⟨l1, c, rfl, hn⟩, q, b, p, -, hp, hpre, hb⟩ := hC
  refine ⟨z, rfl, h5, ?_, hE.result, hE.outputs, ?_, ?_⟩
  · -- the last call is one for the outputs
    have hlast : ∃ p', p = p' ++ [bare c] := by
      rcases List.eq_nil_or_concat p with rfl | ⟨p', a, rfl⟩
      · exact absurd rfl hp
      · refine ⟨p', ?_⟩
        rw [bares_append_one, List.concat_eq_append, ← List.append_assoc, ← List.append_assoc] at hb
        have := (List.append_inj' hb rfl).2
        rw [List.concat_eq_append, this]
    obtain ⟨p', rfl⟩ := hlast
    have hmem : bare c ∈ outCalls (last outputOf (ops.map Prod.fst)).isSome (statesOf (ops.map Prod.fst) x0 z) (inputsOf (ops.map Prod.fst) z) :=
      hpre.subset (by simp)
    unfold outCalls at hmem
    split_ifs at hmem
    · rw [List.mem_map] at hmem
      obtain ⟨k, -, hk⟩ := hmem
      cases c with
      | out x u k => exact ⟨l1, x, u, k, rfl, hn⟩
      | _ => cases hk
    · cases hmem
  · have := hE.seqS
    rw [NlMpc.afterW_stScale h3 h4] at this
    exact this
  · have := hE.seqI
    rw [NlMpc.afterW_inScale h3 h4] at this
    exact this

/-- C134: when no user function throws and the solver answers, the result, apart from the feasibility and the reported outputs, depends
on the outcome of the solver only. -/
theorem c134_result (h : UnAsked f s0 dyn ops outs es x0 u0 cs oc w m m' s s' out e l) {z : Vec K} {value : Ext K} {code : Int}
    (he : e = .returns z value code) :
    ∃ r call, out = .result r call ∧ r = m'.o.result ∧ r.status = NlOpt.convertStatus code ∧ r.solver_status = code ∧ r.cost = value ∧
      r.cmd.size = d.nu ∧ (∀ b : Fin d.nu, r.cmd.get b = inputsOf (ops.map Prod.fst) z 0 b) ∧
      (fun (k : Fin (d.ph + 1)) (a : Fin d.nx) => m'.o.seqState.get k a) = statesOf (ops.map Prod.fst) x0 z ∧
      (fun (k : Fin (d.ph + 1)) (b : Fin d.nu) => m'.o.seqInput.get k b) = inputsOf (ops.map Prod.fst) z := by
  obtain ⟨-, -, h3, h4, -⟩ := h.toUnRan.any
  rcases h.any.res with ⟨z, rfl, -, -⟩ | ⟨call, -, h2, -, hr⟩
  · cases he
  subst he
  have ha : NlMpc.AnsweredAny (NlCtl.afterT d es outs) x0.get z.get value code m'.o.result m'.o := hr
  refine ⟨_, call, h2, rfl, ha.status, ha.code, ha.cost, ha.cmdSize, fun b => ?_, ?_, ?_⟩
  · rw [ha.cmd b b.2, NlMpc.afterW_inScale h3 h4]
    unfold inputsOf NlSpec.inputs NlSpec.inputAt
    simp
  · have := ha.seqS
    rw [NlMpc.afterW_stScale h3 h4] at this
    exact this
  · have := ha.seqI
    rw [NlMpc.afterW_inScale h3 h4] at this
    exact this

/-- C134: two controllers, with different user functions and memories, whose calls have ended alike: the solver is given the same task. -/
theorem c134_task {g : Insider d K τ} {t0 t t' : τ} {ops' : List (NlCall d K × NlWork K)} {cs' : List (NlCallback K)} {oc' : NlOutcome K}
    {w' : NlWork K}
    (h : UnAsked f s0 dyn ops outs es x0 u0 cs oc w m m' s s' (.result r call) e l)
    (h' : UnAsked g t0 dyn ops' outs' es' x0 u0 cs' oc' w' n n' t t' (.result r' call') e' l')
    (hc : es.map course = es'.map course) : SameTask call call' := by
  obtain ⟨-, -, -, -, a⟩ := h.toUnRan.any
  obtain ⟨-, -, -, -, a'⟩ := h'.toUnRan.any
  have g1 := (unGiven h rfl).1
  have g2 := (unGiven h' rfl).1
  rw [NlMpc.afterW_course a a' hc] at g1
  exact given_same g1 g2

/-- C134: every call is made, in order, on what was remembered after the one before, and what the last one remembers stays, also if it
throws. -/
theorem c134_memory {g : Unruly d K σ} (h : UnAsked (fun _ => g) s0 dyn ops outs es x0 u0 cs oc w m m' s s' out e l) : Replays g s l s' := by
  obtain ⟨junk, -, hr⟩ := h.ask
  have := NlMpc.optimizeW_replays g w m x0 u0 cs oc junk s
  rw [hr] at this
  exact this


/-- C134: likewise over a whole history, whatever the calls and however they end: nothing is lost between them. -/
theorem c134_history {ops : List (NlCall d K × NlWork K)} (g : Unruly d K σ) (s0 : σ) (junk : Nat → K) (dyn : Bool) :
    Replays g s0 (NlMpc.runW (fun _ => g) s0 junk dyn ops).2.2 (NlMpc.runW (fun _ => g) s0 junk dyn ops).2.1 := by
  induction ops using List.reverseRecOn with
  | nil => exact rfl
  | append_singleton ops op ih =>
    rcases hq : NlMpc.runW (fun _ => g) s0 junk dyn ops with ⟨a, s1, l1⟩
    rw [hq] at ih
    rcases a with er | ⟨m1, outs1, es1⟩
    · have : NlMpc.runW (fun _ => g) s0 junk dyn (ops ++ [op]) = (.error er, s1, l1) := by
        unfold NlMpc.runW at hq ⊢
        rw [List.foldl_append, hq]
        rfl
      rw [this]
      exact ih
    · rw [NlMpc.runW_snoc (fun _ => g) _ hq]
      refine NlMpc.replays_append ih ?_
      rcases op with ⟨op, w⟩
      cases op with
      | optimize x0 u0 cs oc j => exact NlMpc.optimizeW_replays g w m1 x0 u0 cs oc j s1
      | _ => exact rfl

end

/-! ### samples -/

/-- the call is one of the output function -/
def isOut : UserCall dN ℚ → Bool
  | .out _ _ _ => true
  | _ => false

/-- functions which count their calls; the output function throws from the fifth call on -/
def moody : Unruly dN ℚ Nat := fun n c => (n + 1, if isOut c ∧ 4 ≤ n then none else some (fnsC c))

theorem isOut_bare (c : UserCall dN ℚ) : isOut (bare c) = isOut c := by cases c <;> rfl

theorem moody_threw : ∀ {l : List (UserCall dN ℚ × Bool)} {n n' : Nat}, Replays moody n l n' → ∀ {i : Nat} {b : Bool},
    ((bares l).map isOut)[i]? = some b → (l.map Prod.snd)[i]? = some (b && decide (4 ≤ n + i)) := by
  intro l
  induction l with
  | nil => intro n n' _ i b h; simp [bares] at h
  | cons q l ih =>
    intro n n' h i b hb
    obtain ⟨h1, h2⟩ := h
    cases i with
    | zero =>
      obtain rfl : isOut q.1 = b := by
        rw [← isOut_bare]
        exact Option.some.inj hb
      show some q.2 = _
      rw [h1]
      by_cases ha : isOut q.1 = true <;> by_cases h4 : 4 ≤ n <;> simp [moody, ha, h4]
    | succ i =>
      have := ih h2 (i := i) (b := b) hb
      rw [show n + (i + 1) = (moody n q.1).1 + i by show _ = n + 1 + i; omega]
      exact this

theorem opsC_check {X : Traj (dN.ph + 1) dN.nx ℚ} {U : Traj (dN.ph + 1) dN.nu ℚ} {v : ℚ} {b : Bool} {q : List (UserCall dN ℚ)}
    (h : CheckAsked true true true X U v b q) :
    q.map isOut = [true, true, true, true, false, false] ∨ q.map isOut = [true, true, true, true, false] := by
  rcases h with rfl | ⟨-, -, rfl⟩
  · exact .inl rfl
  · exact .inr rfl

theorem opsC_run {σ : Type} (f : Insider dN ℚ σ) (s0 : σ) (w : NlWork ℚ) : ∃ outs es m,
    UnRan f s0 false (opsC.map fun op => (op, w)) outs es m s0 ∧ ∀ z : Vec ℚ, z.size = 9 → ∃ m' s' out e l,
      UnAsked f s0 false (opsC.map fun op => (op, w)) outs es (nvec 2 fun _ => 1) (nvec 1 fun _ => 0) []
        (.answered z (.fin 3) 1 false) w m m' s0 s' out e l := by
  have eops : (opsC.map fun op => (op, w)).map Prod.fst = opsC := by rw [List.map_map]; exact List.map_id _
  have hfits : ∀ op ∈ opsC.map fun op => (op, w), CallFits dN op.1 := by
    intro op hop
    rw [List.mem_map] at hop
    obtain ⟨o, ho, rfl⟩ := hop
    exact opsC_fits o ho
  have hadm : AdmissibleHistory dN false ((opsC.map fun op => (op, w)).map Prod.fst) := by
    rw [eops]
    exact adm_init (opsC_adm (op := .setInputScale (nvec 1 fun _ => 1)) trivial)
  obtain ⟨m, outs, es, s, l0, hr, -, -⟩ := c134_total dN_ok (by decide) (by decide) f s0 (fun _ => 0) false
    (opsC.map fun op => (op, w)) hfits hadm
  obtain ⟨e, -⟩ := c134_setters (by
    intro op hop
    rw [List.mem_map] at hop
    obtain ⟨o, ho, rfl⟩ := hop
    revert o
    simp [opsC, isOptimize]) hr
  have h : UnRan f s0 false (opsC.map fun op => (op, w)) outs es m s0 := ⟨dN_ok, by decide, by decide, hfits, hadm, _, l0, by rw [hr, e]⟩
  refine ⟨outs, es, m, h, fun z hz => ?_⟩
  exact c134_answers (x0 := nvec 2 fun _ => 1) (u0 := nvec 1 fun _ => 0) (cs := [])
    (oc := .answered z (.fin 3) 1 false) (junk := fun _ => 0) h w
    ⟨rfl, rfl, (by intro c hc; cases hc), hz⟩ (by rw [eops]; exact opsC_adm trivial)

/-- C134: an exception of the output function may leave `optimize` although inequality constraints are set, for which the same outputs
have been computed before: impossible for functions without memory (C132). -/
theorem c134_escape_despite_inequalities (w : NlWork ℚ) : ∃ outs es m m' s s' out e l,
    UnAsked (fun _ => moody) 0 false (opsC.map fun op => (op, w)) outs es (nvec 2 fun _ => 1) (nvec 1 fun _ => 0) []
      (.answered (zN 1) (.fin 3) 1 false) w m m' s s' out e l ∧ (last ineqConOf opsC).isSome = true ∧ out = .threw := by
  have eops : (opsC.map fun op => (op, w)).map Prod.fst = opsC := by rw [List.map_map]; exact List.map_id _
  obtain ⟨outs, es, m, -, h⟩ := opsC_run (fun _ => moody) 0 w
  obtain ⟨m', s', out, e, l, h'⟩ := h (zN 1) rfl
  refine ⟨outs, es, m, m', 0, s', out, e, l, h', rfl, ?_⟩
  have hm := fun {i : Nat} {b : Bool} => moody_threw (c134_memory h') (i := i) (b := b)
  obtain ⟨call, -, hC⟩ := c134_calls h'
  unfold CallsOf at hC
  rw [eops] at hC
  have eS : searchAsked opsC (nvec 2 fun _ => 1) call [] = [] := rfl
  rw [eS] at hC
  have late : ∀ {l' : List (UserCall dN ℚ × Bool)} {c : UserCall dN ℚ}, l = l' ++ [(c, true)] →
      ((bares l).map isOut)[l'.length]? = some true ∧ 4 ≤ l'.length := by
    rintro l' c rfl
    have hb : ((bares (l' ++ [(c, true)])).map isOut)[l'.length]? = some (isOut c) := by
      rw [bares_append_one, List.map_append, List.getElem?_append_right (by simp [bares])]
      simp [bares, isOut_bare]
    have h1 := hm hb
    rw [List.map_append, List.getElem?_append_right (by simp)] at h1
    simp at h1
    obtain ⟨h2, h3⟩ := h1
    exact ⟨by rw [hb, h2], h3⟩
  cases e with
  | solverThrows =>
    rcases hC with ⟨h1, -⟩ | ⟨h1, h2⟩
    · cases h1
    · exact absurd (List.prefix_nil.1 h2) (LastThrew.ne h1)
  | checkThrows z w =>
    exfalso
    obtain ⟨-, ⟨l', c, e1, -⟩, q, b, p, hq, -, hp, hb⟩ := hC
    obtain ⟨h1, h2⟩ := late e1
    rw [hb, List.nil_append] at h1
    obtain ⟨p', rfl⟩ := hp
    have h3 : ((p ++ p').map isOut)[l'.length]? = some true := by
      rw [List.map_append, List.getElem?_append_left (by
        have := (List.getElem?_eq_some_iff.1 h1).1
        exact this)]
      exact h1
    rcases opsC_check hq with h4 | h4
    all_goals
      rw [h4] at h3
      obtain ⟨h5, h6⟩ := List.getElem?_eq_some_iff.1 h3
      simp only [List.length_cons, List.length_nil] at h5
      have : l'.length = 4 ∨ l'.length = 5 := by omega
      rcases this with h7 | h7
      all_goals simp [h7] at h6 h3
  | outputThrows z =>
    rcases h'.any.res with ⟨-, -, h2, -⟩ | ⟨-, h1, -⟩
    · exact h2
    · exact absurd rfl (h1 z)
  | returns z v k =>
    exfalso
    obtain ⟨-, hn, q, hq, hb⟩ := hC
    have hq := opsC_check hq
    have h1 : ((bares l).map isOut)[q.length]? = some true := by
      rw [hb, List.nil_append, List.map_append, List.getElem?_append_right (by simp)]
      rw [List.length_map, Nat.sub_self]
      rfl
    have h2 := hm h1
    have h3 : 5 ≤ q.length := by
      rcases hq with h4 | h4
      all_goals
        have := congrArg List.length h4
        rw [List.length_map] at this
        simp at this
        omega
    rw [show decide (4 ≤ 0 + q.length) = true from decide_eq_true (by omega)] at h2
    obtain ⟨h5, h6⟩ := List.getElem?_eq_some_iff.1 h2
    rw [List.getElem_map] at h6
    rw [List.length_map] at h5
    have := hn _ (List.getElem_mem h5)
    rw [h6] at this
    cases this

/-- functions which count their calls and throw in every one after the fourth -/
def tiring : Unruly dN ℚ Nat := fun n c => (n + 1, if 4 ≤ n then none else some (fnsC c))

theorem tiring_threw : ∀ {l : List (UserCall dN ℚ × Bool)} {n n' : Nat}, Replays tiring n l n' → NoThrow l → n ≤ 4 → n + l.length ≤ 4 := by
  intro l
  induction l with
  | nil => intro n n' _ _ hn; simpa using hn
  | cons q l ih =>
    rintro n n' ⟨h1, h2⟩ hN hn
    have h3 : q.2 = false := hN q (by simp)
    have h4 : ¬ 4 ≤ n := by
      intro h
      rw [h3] at h1
      simp [tiring, h] at h1
    have := ih h2 (fun c hc => hN c (by simp [hc])) (show n + 1 ≤ 4 by omega)
    rw [List.length_cons]
    have e : (tiring n q.1).1 = n + 1 := rfl
    omega

theorem tiring_last : ∀ {l : List (UserCall dN ℚ × Bool)} {c : UserCall dN ℚ} {n n' : Nat}, Replays tiring n (l ++ [(c, true)]) n' →
    NoThrow l → n ≤ 4 → n + l.length = 4 := by
  intro l
  induction l with
  | nil =>
    rintro c n n' ⟨h1, -⟩ - hn
    have h4 : 4 ≤ n := by
      by_contra h
      simp [tiring, h] at h1
    simp only [List.length_nil]
    omega
  | cons q l ih =>
    rintro c n n' ⟨h1, h2⟩ hN hn
    have h3 : q.2 = false := hN q (by simp)
    have h4 : ¬ 4 ≤ n := by
      intro h
      rw [h3] at h1
      simp [tiring, h] at h1
    have := ih h2 (fun c hc => hN c (by simp [hc])) (show n + 1 ≤ 4 by omega)
    rw [List.length_cons]
    have e : (tiring n q.1).1 = n + 1 := rfl
    omega

/-- C134: functions which throw after four calls: the inequality constraints throw in the check of the answer, and the failure is
reported. -/
example (w : NlWork ℚ) : ∃ outs es m m' s s' r call e l,
    UnAsked (fun _ => tiring) 0 false (opsC.map fun op => (op, w)) outs es (nvec 2 fun _ => 1) (nvec 1 fun _ => 0)
      [] (.answered (zN 1) (.fin 3) 1 false) w m m' s s' (.result r call) e l ∧ r.status = .ERROR ∧
      (∃ w', e = .checkThrows (zN 1) w') ∧ l.length = 5 := by
  have eops : (opsC.map fun op => (op, w)).map Prod.fst = opsC := by rw [List.map_map]; exact List.map_id _
  obtain ⟨outs, es, m, -, h⟩ := opsC_run (fun _ => tiring) 0 w
  obtain ⟨m', s', out, e, l, h'⟩ := h (zN 1) rfl
  obtain ⟨call, -, hC⟩ := c134_calls h'
  unfold CallsOf at hC
  rw [eops] at hC
  have eS : searchAsked opsC (nvec 2 fun _ => 1) call [] = [] := rfl
  rw [eS] at hC
  have hrep := c134_memory h'
  have few : ∀ {l' : List (UserCall dN ℚ × Bool)} {c : UserCall dN ℚ}, l = l' ++ [(c, true)] → NoThrow l' → l'.length = 4 := by
    rintro l' c rfl hn
    simpa using tiring_last hrep hn (by decide)
  have len : ∀ {q q' : List (UserCall dN ℚ)}, bares l = q ++ q' → l.length = q.length + q'.length := by
    intro q q' e
    have := congrArg List.length e
    rwa [List.length_append, show (bares l).length = l.length from List.length_map _] at this
  have long : ∀ {b : Bool} {X : Traj (dN.ph + 1) dN.nx ℚ} {U : Traj (dN.ph + 1) dN.nu ℚ} {v : ℚ} {q : List (UserCall dN ℚ)},
      CheckAsked true true true X U v b q → 5 ≤ q.length := by
    intro b X U v q hq
    rcases opsC_check hq with h4 | h4
    all_goals
      have := congrArg List.length h4
      rw [List.length_map] at this
      simp at this
      omega
  cases e with
  | solverThrows =>
    rcases hC with ⟨h1, -⟩ | ⟨h1, h2⟩
    · cases h1
    · exact absurd (List.prefix_nil.1 h2) (LastThrew.ne h1)
  | returns z v k =>
    exfalso
    obtain ⟨-, hn, q, hq, hb⟩ := hC
    have h1 := len (q := []) hb
    rw [List.length_append] at h1
    have h2 := long hq
    have h3 := tiring_threw hrep hn (by decide)
    simp only [List.length_nil] at h1
    omega
  | outputThrows z =>
    exfalso
    obtain ⟨-, ⟨l', c, e1, hn⟩, q, b, p, hq, hp, -, hb⟩ := hC
    have h1 := len (q := []) hb
    rw [List.length_append] at h1
    have h2 := long hq
    have h3 := few e1 hn
    have h4 := List.length_pos_iff.2 hp
    rw [e1, List.length_append] at h1
    simp only [List.length_nil, List.length_cons] at h1
    omega
  | checkThrows z w' =>
    obtain ⟨r, call, rfl, -, hc, -⟩ := c134_caught h' (.inr ⟨_, _, rfl⟩)
    obtain ⟨⟨v, k, t, e2⟩, ⟨l', c, e1, hn⟩, -⟩ := hC
    cases e2
    refine ⟨outs, es, m, m', 0, s', r, call, _, l, h', hc.status, ⟨_, rfl⟩, ?_⟩
    rw [e1, List.length_append, few e1 hn]
    rfl

end Mpc.Props
