import Verif.Proofs.EnvTotal
import Verif.Props.NlExceptions

/-
C99: user functions of the nonlinear controller which read variables the program changes.
-/
namespace Mpc.Props
open Mpc Exec
set_option linter.unusedSectionVars false

section
variable {E : Type} {d : Dims} {K : Type} [Field K] [LinearOrder K] [IsStrictOrderedRing K]

/-- The calls `ops`, each in its environment, were made on a new controller of dimensions `d` (run time dimensions if `dyn`),
with arguments of the right sizes; they returned `outs`. `h` are the functions stored, `m` the controller. -/
structure EnvRan (d : Dims) (dyn : Bool) (ops : List (E × EnvCall E d K)) (outs : List (NlOut K)) (h : Handles E d K)
    (m : NlMpc d K) : Prop where
  hor : HorizonsOk d
  mem : d.ph * d.nx + d.nu * d.ch + 1 ≤ 2 ^ 64
  fits : NlSpec.EnvFits d ops
  ran : ∃ junk : Nat → K, Handles.run d junk dyn ops = .ok ((h, m), outs)

/-- After that history, inside `optimize(x0, ..)`, after the callbacks `vs`, each in its environment, the evaluation objects
are in state `s`. -/
structure EnvInSolver (d : Dims) (dyn : Bool) (ops : List (E × EnvCall E d K)) (outs : List (NlOut K)) (h : Handles E d K)
    (m : NlMpc d K) (x0 : Vec K) (vs : List (E × NlVisit K)) (s : NlState d K) : Prop extends EnvRan d dyn ops outs h m where
  size : x0.size = d.nx
  calls : ∀ v ∈ vs, NlSpec.VisitFits d v.2
  now : ∃ m1, m.onState (.measure x0) = .ok m1 ∧ h.visits m1.o m1.s vs = .ok s

variable {dyn dyn' : Bool} {ops : List (E × EnvCall E d K)} {outs outs' : List (NlOut K)} {h : Handles E d K} {m m' : NlMpc d K}

/-- the two histories are in the same abstract state -/
theorem EnvRan.agrees (e : E) (H : EnvRan d dyn ops outs h m) (H' : NlRanT d dyn' (NlSpec.frozenAt e ops) outs' m') :
    ∃ c e1, m.Agrees (h.ctlAt e1 c) ∧ m'.Agrees (h.ctlAt e c) ∧ (h.ctlAt e c).Bound := by
  obtain ⟨j, hr⟩ := H.ran
  obtain ⟨j', hr'⟩ := H'.ran
  obtain ⟨-, -, c, e1, g, gf⟩ := Handles.run_agrees e H.hor.ch_pos H.hor.ch_le H.hor.ph_int H.mem H.fits hr
  have := Handles.run_refused e H.hor.ch_pos H.hor.ch_le H.hor.ph_int H.mem e H.fits H'.fits hr hr'
  obtain ⟨g', -, -⟩ := H'.agrees
  rw [← NlCtl.afterT_congr this, gf e] at g'
  exact ⟨c, e1, g, g', by rw [← gf e]; exact NlCtl.afterT_bound _ _⟩

theorem effect_again {c : NlCtl d K} {o o' p p' : NlOpt K} {out out' : NlOut K} {op : EnvCall E d K} {e : E}
    (h : Effect c o o' out (NlSpec.course (op.frozen e))) (h' : Effect c p p' out' (NlSpec.course (op.frozen e)))
    (hs : NlSpec.SameVec o.result.cmd p.result.cmd) :
    NlSpec.SameOut out out' ∧ (NlSpec.reports op = true → NlSpec.SameReport o' p') := by
  have caught : ∀ (x0 u0 : Vec K) (oc : NlOutcome K),
      (∃ r call, out = .result r call ∧ r = o'.result ∧ NlMpc.Given c x0.get u0.get call ∧
        NlMpc.Reported c o.result x0.get r o' oc) →
      (∃ r call, out' = .result r call ∧ r = p'.result ∧ NlMpc.Given c x0.get u0.get call ∧
        NlMpc.Reported c p.result x0.get r p' oc) →
      NlSpec.SameOut out out' ∧ (NlSpec.reports op = true → NlSpec.SameReport o' p') := by
    rintro x0 u0 oc ⟨r, call, rfl, e1, e2, e3⟩ ⟨r', call', rfl, f1, f2, f3⟩
    obtain ⟨g1, g2, g3, g4⟩ := reported_same e3 f3 hs
    exact ⟨⟨g1, given_same e2 f2⟩, fun _ => ⟨by rw [← e1, ← f1]; exact g1, g2, g3, g4⟩⟩
  have plain : ∀ q : NlCall d K, isOptimize q = false → OutOk d q out → OutOk d q out' → NlSpec.SameOut out out' := by
    intro q hq a b
    rw [outOk_same hq a b]
    exact SameOut.refl _
  cases op with
  | optimize x0 u0 vs ending junk =>
    cases ending with
    | outputThrows z =>
      obtain ⟨rfl, -⟩ := h
      obtain ⟨rfl, -⟩ := h'
      exact ⟨trivial, fun hh => by cases hh⟩
    | solverThrows => exact caught x0 u0 _ h h'
    | checkThrows z w => exact caught x0 u0 _ h h'
    | returns z v k => exact caught x0 u0 _ h h'
  | call q =>
    cases q with
    | optimize x0 u0 cs oc j =>
      cases oc with
      | threw => exact caught x0 u0 _ h h'
      | answered z v k t => cases t <;> exact caught x0 u0 _ h h'
    | _ => exact ⟨plain _ rfl h.1 h'.1, fun hh => by cases hh⟩
  | setObjectiveFunction f acc => exact ⟨plain _ rfl h.1 h'.1, fun hh => by cases hh⟩
  | setStateSpaceFunction F tol acc => exact ⟨plain _ rfl h.1 h'.1, fun hh => by cases hh⟩
  | setOutputFunction g => exact ⟨plain _ rfl h.1 h'.1, fun hh => by cases hh⟩
  | setIneqConFunction F tol acc => exact ⟨plain _ rfl h.1 h'.1, fun hh => by cases hh⟩
  | setEqConFunction F tol acc => exact ⟨plain _ rfl h.1 h'.1, fun hh => by cases hh⟩

/-- C99, results. A history of calls, each in its environment (the values of the variables the user functions read), whose last
call is `op` in environment `e`; and the history in which the environment was `e` from the start. The last call returns the
same and gives the solver the same bounds, tolerances and initial point; if it is an `optimize` which returns a result, the
last result (command, cost, status, feasibility) and the optimal sequence (states, inputs and outputs) are the same too. Nothing
computed with earlier values of the variables is used. -/
theorem c99_as_if {op : EnvCall E d K} {e : E} {o o' : NlOut K} (H : EnvRan d dyn (ops ++ [(e, op)]) (outs ++ [o]) h m)
    (H' : NlRanT d dyn' (NlSpec.frozenAt e (ops ++ [(e, op)])) (outs' ++ [o']) m') :
    NlSpec.SameOut o o' ∧ (NlSpec.reports op = true → NlSpec.SameReport m.o m'.o) := by
  obtain ⟨j, hr⟩ := H.ran
  obtain ⟨j', hr'⟩ := H'.ran
  have ef : NlSpec.frozenAt e (ops ++ [(e, op)]) = NlSpec.frozenAt e ops ++ [op.frozen e] := by simp [NlSpec.frozenAt]
  have hf' := H'.fits
  rw [ef] at hr' hf'
  rw [Handles.run_snoc] at hr
  rw [NlMpc.runT_snoc] at hr'
  obtain ⟨⟨⟨h1, m1⟩, outs1⟩, hq, hr⟩ := bind_eq_ok.1 hr
  obtain ⟨⟨⟨h2, m2⟩, o1⟩, hs, hr⟩ := bind_eq_ok.1 hr
  obtain ⟨⟨m1', outs1'⟩, hq', hr'⟩ := bind_eq_ok.1 hr'
  obtain ⟨⟨m2', o1'⟩, hs', hr'⟩ := bind_eq_ok.1 hr'
  obtain ⟨e1, e2⟩ := Prod.mk.inj (Except.ok.inj hr)
  obtain ⟨e3, e4⟩ := Prod.mk.inj e1
  obtain ⟨e5, e6⟩ := Prod.mk.inj (Except.ok.inj hr')
  dsimp only at e2 e3 e4 e5 e6
  obtain ⟨-, e2⟩ := List.append_inj' e2 rfl
  obtain ⟨-, e6⟩ := List.append_inj' e6 rfl
  cases e2
  cases e6
  subst e3 e4 e5
  obtain ⟨c, e9, a1, a2, -⟩ := EnvRan.agrees e (⟨H.hor, H.mem, fun p hp => H.fits p (by simp [hp]), _, hq⟩ : EnvRan d dyn ops outs1 h1 m1)
    (⟨H.hor, H.mem, fun p hp => hf' p (by simp [hp]), _, hq'⟩ : NlRanT d dyn' (NlSpec.frozenAt e ops) outs1' m1')
  obtain ⟨-, -, -, k1⟩ := Handles.step_ok a1 H.hor.ph_int H.mem (H.fits _ (by simp)) hs
  obtain ⟨-, -, k2⟩ := stepT_ok a2 H.hor.ph_int H.mem (hf' _ (by simp)) hs'
  refine effect_again k1 k2 ⟨by rw [a1.cmds, a2.cmds], fun i hi => ?_⟩
  rw [a1.cmds] at hi
  rw [a1.cmd i hi, a2.cmd i hi]
  rfl

theorem EnvInSolver.holds {x0 : Vec K} {vs : List (E × NlVisit K)} {s : NlState d K} (H : EnvInSolver d dyn ops outs h m x0 vs s)
    {c : NlCtl d K} {e1 : E} (g : m.Agrees (h.ctlAt e1 c)) (e : E) :
    (h.look e s).Holds { (h.ctlAt e c).cfg with x0 := some x0.get } := by
  obtain ⟨m1, h1, h2⟩ := H.now
  obtain ⟨k1, -, -, -⟩ := NlMpc.onState_agrees g H.hor.ph_int (op := .measure x0) H.size h1
  have k1 : m1.s.Holds (h.cfgAt e1 (c.cfg.step (.measure x0))) := k1
  obtain ⟨⟨e2, l⟩, -⟩ := Handles.visits_ok k1 H.hor.ph_int H.calls h2
  exact Handles.look_holds l

/-- C99, evaluations. Inside `optimize(x0, ..)` after such a history, after whatever callbacks in whatever environments, a
callback in environment `e` gives the solver the values and gradients which it is given when the environment was `e` from the
start (and after whatever callbacks `vs'`). -/
theorem c99_evaluations {x0 : Vec K} {vs : List (E × NlVisit K)} {vs' : List (NlVisit K)} {s s' : NlState d K} {e : E}
    (H : EnvInSolver d dyn ops outs h m x0 vs s) (H' : InSolverT d dyn' (NlSpec.frozenAt e ops) outs' m' x0 vs' s')
    (k : NlCallback K) (hf : NlSpec.CallbackFits d k) (j : Nat → K) :
    ∃ r r', NlMpc.serve m.o (h.look e s) k = .ok r ∧ NlMpc.serve m'.o s' (withJunk j k) = .ok r' ∧
      NlSpec.SameReply r.1 r'.1 := by
  obtain ⟨c, e1, a1, a2, hb⟩ := EnvRan.agrees e H.toEnvRan H'.toNlRanT
  have k1 := H.holds a1 e
  obtain ⟨m1, n1, n2⟩ := H'.now
  obtain ⟨q1, -, -, -⟩ := NlMpc.onState_agrees a2 H.hor.ph_int (op := .measure x0) H'.size n1
  have k2 : s'.Holds { (h.ctlAt e c).cfg with x0 := some x0.get } := (NlMpc.visits_ok q1 H.hor.ph_int H'.calls n2).1
  refine serve_same H.hor ⟨k1, k2, ?_, ?_⟩ hb a1.obj a2.obj a1.groups a2.groups (fun k hk => by cases k <;> exact hk) id hf j
  · rw [k1.ox0 _ rfl, k2.ox0 _ rfl]
  · rw [k1.cx0 _ rfl, k2.cx0 _ rfl]

def boundOf : NlCall d K → Option Bool
  | .setObjectiveFunction _ true => some true
  | _ => none

theorem last_bound {l : List (NlCall d K)} (h : ∃ q, NlCall.setObjectiveFunction q true ∈ l) :
    NlSpec.last boundOf l = some true := by
  obtain ⟨q, hq⟩ := h
  induction l with
  | nil => cases hq
  | cons a l ih =>
    rw [NlSpec.last]
    rcases List.mem_cons.1 hq with rfl | hq
    · cases hl : NlSpec.last boundOf l with
      | none => rfl
      | some b =>
        have : ∀ l : List (NlCall d K), ∀ b, NlSpec.last boundOf l = some b → b = true := by
          intro l
          induction l with
          | nil => intro b h; cases h
          | cons a l ih' =>
            intro b h
            rw [NlSpec.last] at h
            cases hl' : NlSpec.last boundOf l with
            | none =>
              rw [hl', Option.none_or] at h
              unfold boundOf at h
              split at h
              · exact (Option.some.inj h).symm
              · cases h
            | some b' =>
              rw [hl', Option.some_or] at h
              exact ih' b (by rw [← h]; exact hl')
        rw [this l b hl]
        rfl
    · rw [ih hq]
      rfl

/-- C99, the objective. Inside `optimize` after such a history, a callback for the objective in environment `e` gives the
solver the value which the objective set last has, in environment `e`, on the planned states, inputs and outputs; the outputs
are those of the output function set last, in environment `e` too. (`now` are the calls as they are in environment `e`; the
solver accepted an objective.) -/
theorem c99_objective {x0 : Vec K} {vs : List (E × NlVisit K)} {s : NlState d K} (H : EnvInSolver d dyn ops outs h m x0 vs s)
    (e : E) (now : List (NlCall d K)) (hn : now = NlSpec.settings (NlSpec.frozenAt e ops))
    (hb : ∃ q, NlCall.setObjectiveFunction q true ∈ now) {f : ObjFn d K} (hf : NlSpec.last NlSpec.objectiveOf now = some f) (z : Vec K)
    (hz : z.size = d.ph * d.nx + d.nu * d.ch + 1) (g : Bool) (junk : Nat → K)
    (X : Traj (d.ph + 1) d.nx K) (U : Traj (d.ph + 1) d.nu K)
    (hX : X = NlSpec.codeStates d (NlSpec.stScale now) x0.get z.get) (hU : U = NlSpec.inputs d (NlSpec.inScale now) z.get) :
    ∃ G s', NlMpc.serve m.o (h.look e s) (.obj z g junk)
      = .ok (some (.obj (f X (NlSpec.outputs (NlSpec.last NlSpec.outputOf now) X U) U (z.get (NlSpec.slackIx d))) G), s') := by
  obtain ⟨j, hr⟩ := H.ran
  obtain ⟨hl, -, c, e1, a1, gf⟩ := Handles.run_agrees e H.hor.ch_pos H.hor.ch_le H.hor.ph_int H.mem H.fits hr
  have hs := H.holds a1 e
  have hl' : outs.length = (NlSpec.frozenAt e ops).length := by simp [NlSpec.frozenAt, hl]
  have q1 := afterT_inScale hl'
  have q2 := afterT_stScale hl'
  have q3 := afterT_last (fun c => c.cfg.out) (fun op => (NlSpec.outputOf op).map some) (fun c b op => by call_cases op b)
    (fun c x u oc => by rw [NlMpc.solved_cfg]) (fun _ _ _ _ => rfl) hl'
  have q4 := afterT_last (fun c => c.cfg.obj) (fun op => (NlSpec.objectiveOf op).map some) (fun c b op => by call_cases op b)
    (fun c x u oc => by rw [NlMpc.solved_cfg]) (fun _ _ _ _ => rfl) hl'
  have q5 := afterT_last (fun c => c.obj) boundOf (fun c b op => by
    cases op with
    | setObjectiveFunction f acc => cases acc with
      | true => exact Bool.or_true _
      | false => exact Bool.or_false _
    | setOptimizerParameters p => cases p <;> rfl
    | setStateBoundsSlice l u s => cases b <;> rfl
    | setInputBoundsSlice l u s => cases b <;> rfl
    | optimize x0 u0 cs oc j => rcases oc with _ | ⟨z, v, k, _ | _⟩ <;> rfl
    | _ => rfl) (fun c x u oc => by rcases oc with _ | ⟨z, v, k, _ | _⟩ <;> rfl) (fun _ _ _ _ => rfl) hl'
  rw [← hn, last_bound hb, gf e] at q5
  have q5 : m.o.objective = true := a1.obj.trans q5
  rw [last_map] at q3 q4
  have q3 : (NlCtl.afterT d (NlSpec.frozenAt e ops) outs).cfg.out = NlSpec.last NlSpec.outputOf now := by
    rw [hn]
    refine q3.trans ?_
    cases NlSpec.last NlSpec.outputOf (NlSpec.settings (NlSpec.frozenAt e ops)) <;> rfl
  have q4 : (NlCtl.afterT d (NlSpec.frozenAt e ops) outs).cfg.obj = some f := by
    rw [hn] at hf
    refine q4.trans ?_
    rw [hf]
    rfl
  rw [gf e] at q1 q2 q3 q4
  rw [← hn] at q1 q2
  have hp := H.hor.ph_int
  obtain ⟨r, t, G, e2, e3, -, -⟩ := NlMpc.serve_obj hs hp q5 (by rw [show _ = some f from q4]; rfl) hz g junk
  obtain ⟨⟨r', s'⟩, e4, v, -⟩ := NlState.evalObj_post hs hp (f := f) q4 z hz g
  rw [e2] at e4
  cases e4
  have ho : (h.look e s).obj.x0.get = x0.get := hs.ox0 _ rfl
  dsimp only at v
  rw [ho, q1, q2, q3, ← hX, ← hU] at v
  refine ⟨G, t, ?_⟩
  rw [e3, v]
  rfl

/-- C99, no undefined behaviour: well-formed calls run, however the environment changes. -/
theorem c99_runs (e : E) (hd : HorizonsOk d) (hp : d.ph < 2 ^ 30) (hm : d.ph * d.nx + d.nu * d.ch + 1 ≤ 2 ^ 64)
    (hf : NlSpec.EnvFits d ops) (ha : NlSpec.EnvAdmissible d dyn ops) : ∃ outs h m, EnvRan d dyn ops outs h m := by
  obtain ⟨⟨⟨h, m⟩, outs⟩, hr⟩ := Handles.run_total e hd.ch_pos hd.ch_le hp hm (fun _ => 0) dyn _ hf ha
  exact ⟨outs, h, m, hd, hm, hf, _, hr⟩

end

/-! ### samples -/

/-- the environment is a set point and an obstacle; the objective and the inequality constraints read it. It changes after every
call, and during the search. -/
def opsE : List ((ℚ × ℚ) × EnvCall (ℚ × ℚ) dN ℚ) :=
  [ ((0, 0), .setStateSpaceFunction (fun e x u _ a => if a = 0 then x 1 + e.2 else u 0) 0 true),
    ((1, 0), .setObjectiveFunction (fun e X _ U _ => (X 1 0 - e.1) * (X 1 0 - e.1) + U 0 0) true),
    ((2, 0), .setIneqConFunction (fun e _ Y _ _ _ => Y 1 0 - e.2) (1 / 100) true),
    ((3, 1), .setOutputFunction (fun e _ x _ _ _ => x 0 + e.1)),
    ((4, 1), .call (.setInputScale (nvec 1 fun _ => 2))),
    ((5, 2), .optimize (nvec 2 fun a => a) (nvec 1 fun _ => 4)
      [((5, 2), .returns (.obj (zN 0) true (fun _ => 5))), ((5, 3), .throws NlSpec.noWork), ((6, 3), .returns (.con 1 (zN 2) false (fun _ => 5)))]
      (.returns (zN 3) (.fin 7) 1) (fun _ => 0)),
    ((7, 3), .optimize (nvec 2 fun a => a) (nvec 1 fun _ => 4) [((7, 3), .returns (.con 0 (zN 2) true (fun _ => 5)))]
      (.returns (zN 4) (.fin 8) 1) (fun _ => 0)) ]

theorem opsE_fits : NlSpec.EnvFits dN opsE := by
  intro p h
  unfold opsE at h
  simp only [List.mem_cons, List.not_mem_nil, or_false] at h
  rcases h with rfl | rfl | rfl | rfl | rfl | rfl | rfl
  all_goals simp [EnvCall.frozen, NlSpec.TCallFits, NlSpec.CallFits, NlSpec.VisitFits, NlSpec.CallbackFits, nvec, zN]

theorem opsE_adm : NlSpec.EnvAdmissible dN false opsE := by
  intro p h
  unfold opsE at h
  simp only [List.mem_cons, List.not_mem_nil, or_false] at h
  rcases h with rfl | rfl | rfl | rfl | rfl | rfl | rfl
  all_goals simp [EnvCall.frozen, NlSpec.TAdmissible, NlSpec.Admissible]

/-- the sample runs, and so does the history frozen in the environment of its last call: the hypotheses of `c99_as_if` -/
example : ∃ ops op, opsE = ops ++ [((7, 3), op)] ∧ NlSpec.reports op = true ∧
    ∃ outs o h m outs' o' m', EnvRan dN false (ops ++ [((7, 3), op)]) (outs ++ [o]) h m ∧
      NlRanT dN false (NlSpec.frozenAt (7, 3) (ops ++ [((7, 3), op)])) (outs' ++ [o']) m' := by
  refine ⟨opsE.take 6, _, rfl, rfl, ?_⟩
  obtain ⟨outs, h, m, H⟩ := c99_runs (d := dN) (dyn := false) (ops := opsE) (0, 0) dN_ok (by decide) (by decide) opsE_fits opsE_adm
  obtain ⟨outs', m', H'⟩ := c88_runs (d := dN) (dyn := false) (ops := NlSpec.frozenAt (7, 3) opsE) dN_ok (by decide) (by decide)
    (frozen_fits _ opsE_fits) (frozen_adm _ opsE_adm)
  obtain ⟨j, hr⟩ := H.ran
  have l1 := (Handles.run_agrees (0, 0) H.hor.ch_pos H.hor.ch_le H.hor.ph_int H.mem H.fits hr).1
  have l2 := H'.agrees.2.2
  rcases List.eq_nil_or_concat outs with rfl | ⟨outs, o, rfl⟩
  · cases l1
  rcases List.eq_nil_or_concat outs' with rfl | ⟨outs', o', rfl⟩
  · cases l2
  rw [List.concat_eq_append] at H H'
  exact ⟨outs, o, h, m, outs', o', m', H, H'⟩

/-- and the value of the objective of the sample does depend on the environment: with the set point of the first call it would
be another one -/
example : ∃ (f0 f7 : ObjFn dN ℚ), NlSpec.last NlSpec.objectiveOf (NlSpec.settings (NlSpec.frozenAt ((0, 0) : ℚ × ℚ) opsE)) = some f0 ∧
    NlSpec.last NlSpec.objectiveOf (NlSpec.settings (NlSpec.frozenAt ((7, 3) : ℚ × ℚ) opsE)) = some f7 ∧
    f0 (fun _ _ => 0) (fun _ _ => 0) (fun _ _ => 0) 0 ≠ f7 (fun _ _ => 0) (fun _ _ => 0) (fun _ _ => 0) 0 := by
  refine ⟨_, _, rfl, rfl, ?_⟩
  norm_num

/-- the objective of the sample is bound -/
example : ∃ q, NlCall.setObjectiveFunction q true ∈ NlSpec.settings (NlSpec.frozenAt ((7, 3) : ℚ × ℚ) opsE) :=
  ⟨_, .tail _ (.head _)⟩

/-- a call of the objective after the sample: the hypotheses of `c99_objective` and `c99_evaluations` -/
example : ∃ outs h m s, EnvInSolver dN false opsE outs h m (nvec 2 fun _ => 1) [] s := by
  obtain ⟨outs, h, m, H⟩ := c99_runs (d := dN) (dyn := false) (ops := opsE) (0, 0) dN_ok (by decide) (by decide) opsE_fits opsE_adm
  obtain ⟨j, hr⟩ := H.ran
  obtain ⟨-, -, c, e1, a1, -⟩ := Handles.run_agrees (0, 0) H.hor.ch_pos H.hor.ch_le H.hor.ph_int H.mem H.fits hr
  obtain ⟨m1, h1⟩ := NlMpc.onState_total a1 H.hor.ph_int (.measure (nvec 2 fun _ => 1)) rfl trivial
  exact ⟨outs, h, m, m1.s, H, rfl, by simp, m1, h1, rfl⟩

end Mpc.Props
