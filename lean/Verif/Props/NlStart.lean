import Verif.Proofs.NlStartPoint
import Verif.Props.NlLimits

/-
C47, C48: starting point of the nonlinear solver, and what happens when it fails.
-/
namespace Mpc.Props
open Mpc Exec
set_option linter.unusedSectionVars false

section
variable {d : Dims} {K : Type} [Field K] [LinearOrder K] [IsStrictOrderedRing K]
variable {dyn : Bool} {ops : List (NlCall d K)} {outs : List (NlOut K)} {m m' : NlMpc d K} {x0 u0 : Vec K}
  {cs : List (NlCallback K)} {oc : NlOutcome K} {r : LResult K} {call : NlSolverCall K}

/-- `optimize` calls -/
def isOptimize : NlCall d K → Bool
  | .optimize _ _ _ _ _ => true
  | _ => false

/-- The initial point stands for the states `X k` of steps `1 .. ph` and the decision inputs `U j`, under the scalings in
force. -/
def StartsFrom (ops : List (NlCall d K)) (call : NlSolverCall K) (X U : Nat → Nat → K) : Prop :=
  (∀ k a, k < d.ph → a < d.nx → NlSpec.stScale ops a * call.guess.get (NlSpec.stateIx d k a) = X (k + 1) a) ∧
  (∀ j b, j < d.ch → b < d.nu → NlSpec.inScale ops b * call.guess.get (NlSpec.inputIx d j b) = U j b)

/-- C47 as claimed: without warm start, or before the solver has answered, the solver starts from the measured state and the
last input at every step; with warm start, right after an answer `z` (other calls than `optimize` in between), from the
sequences of `z` one step later, the last ones repeated. -/
def C47Claim (K : Type) [Field K] [LinearOrder K] [IsStrictOrderedRing K] : Prop :=
  ∀ (d : Dims) dyn (ops : List (NlCall d K)) outs x0 u0 cs oc m m' r call,
    NlAsked d dyn ops outs x0 u0 cs oc m m' r call →
    (NlSpec.WarmStart ops = false ∨ NlSpec.last NlSpec.solutionOf ops = none →
      StartsFrom ops call (fun _ a => x0.get a) (fun _ b => u0.get b)) ∧
    (∀ (pre mid : List (NlCall d K)) x u k z v c t j, ops = pre ++ .optimize x u k (.answered z v c t) j :: mid →
      (∀ op ∈ mid, isOptimize op = false) → NlSpec.WarmStart ops = true →
      StartsFrom ops call
        (fun k a => NlSpec.stScale ops a * z.get (NlSpec.stateIx d (min k (d.ph - 1)) a))
        (fun j b => NlSpec.inScale ops b * z.get (NlSpec.inputIx d (min (j + 1) (d.ch - 1)) b)))

theorem NlAsked.start (h : NlAsked d dyn ops outs x0 u0 cs oc m m' r call) :
    NlOpt.Shift d (NlSpec.inScale ops) (ops.foldl NlStart.step (NlStart.fresh K)).slack
      ⟨d.nZ, (ops.foldl NlStart.step (NlStart.fresh K)).from' d x0.get u0.get⟩ call.guess := by
  obtain ⟨-, -, hg, -⟩ := h.known
  have hl := h.toNlRan.len
  have hs := NlStart.after_startPart hl
  have := hg.guess
  rw [after_inScale hl] at this
  rw [← hs]
  exact this

theorem start_warm (h : NlRan d dyn ops outs m) :
    (ops.foldl NlStart.step (NlStart.fresh K)).warm = NlSpec.WarmStart ops ∧
    (ops.foldl NlStart.step (NlStart.fresh K)).first = (NlSpec.last NlSpec.solutionOf ops).isNone ∧
    (ops.foldl NlStart.step (NlStart.fresh K)).inScale = NlSpec.inScale ops := by
  have hl := h.len
  rw [← NlStart.after_startPart hl]
  exact ⟨after_warm hl, after_first hl, after_inScale hl⟩

theorem cold_state {x0 u0 z : Nat → K} {k a : Nat} (hk : k < d.ph) (ha : a < d.nx) :
    NlCtl.cold d x0 u0 z (NlSpec.stateIx d k a) = x0 a := by
  have := block_lt (n := d.ph) ha hk
  unfold NlCtl.cold NlSpec.stateIx
  rw [if_pos (by omega), block_mod _ ha]

theorem cold_input {x0 u0 z : Nat → K} {j b : Nat} (hj : j < d.ch) (hb : b < d.nu) :
    NlCtl.cold d x0 u0 z (NlSpec.inputIx d j b) = u0 b := by
  have := block_lt (n := d.ch) hb hj
  unfold NlCtl.cold NlSpec.inputIx
  rw [if_neg (by omega), if_pos (by omega), show d.ph * d.nx + (j * d.nu + b) - d.ph * d.nx = j * d.nu + b by omega,
    block_mod _ hb]

/-- C47, cold start, partial: the entries of the initial point itself are the measured state and the last input at every
step (input scalings must not be zero). Missing: the decision variables are *scaled*, so with a scaling other than one these
entries do not stand for the measured state and last input (`c47_scaled_violated`). -/
theorem c47_cold_partial (h : NlAsked d dyn ops outs x0 u0 cs oc m m' r call)
    (hc : NlSpec.WarmStart ops = false ∨ NlSpec.last NlSpec.solutionOf ops = none)
    (hs : ∀ b, b < d.nu → NlSpec.inScale ops b ≠ 0) :
    call.guess.size = d.ph * d.nx + d.nu * d.ch + 1 ∧
    (∀ k a, k < d.ph → a < d.nx → call.guess.get (NlSpec.stateIx d k a) = x0.get a) ∧
    (∀ j b, j < d.ch → b < d.nu → call.guess.get (NlSpec.inputIx d j b) = u0.get b) := by
  have hst := h.start
  obtain ⟨h1, h2, -⟩ := start_warm h.toNlRan
  have hch := h.hor.ch_pos
  have hle := h.hor.ch_le
  have hcold : (ops.foldl NlStart.step (NlStart.fresh K)).from' d x0.get u0.get
      = NlCtl.cold d x0.get u0.get (ops.foldl NlStart.step (NlStart.fresh K)).z := by
    unfold NlStart.from'
    rw [h1, h2, if_pos]
    rcases hc with hc | hc <;> simp [hc]
  refine ⟨hst.size, ?_, ?_⟩
  · intro k a hk ha
    rw [hst.state k a hk ha]
    dsimp only
    rw [hcold, cold_state (by omega) ha]
  · intro j b hj hb
    rw [hst.input j b hj hb]
    dsimp only
    rw [hcold, cold_input (by omega) hb]
    have := hs b hb
    field_simp

/-- C47, cold start, in full when the scalings in force are one. -/
theorem c47_cold_unscaled_partial (h : NlAsked d dyn ops outs x0 u0 cs oc m m' r call)
    (hc : NlSpec.WarmStart ops = false ∨ NlSpec.last NlSpec.solutionOf ops = none)
    (h1 : ∀ a, a < d.nx → NlSpec.stScale ops a = 1) (h2 : ∀ b, b < d.nu → NlSpec.inScale ops b = 1) :
    StartsFrom ops call (fun _ a => x0.get a) (fun _ b => u0.get b) := by
  obtain ⟨-, g1, g2⟩ := c47_cold_partial h hc (fun b hb => by rw [h2 b hb]; exact one_ne_zero)
  exact ⟨fun k a hk ha => by rw [g1 k a hk ha, h1 a ha, one_mul], fun j b hj hb => by rw [g2 j b hj hb, h2 b hb, one_mul]⟩

/-- calls other than `optimize` keep the decision vector -/
theorem start_keep (l : List (NlCall d K)) (hl : ∀ op ∈ l, isOptimize op = false) : ∀ s : NlStart K,
    (l.foldl NlStart.step s).z = s.z ∧ (l.foldl NlStart.step s).first = s.first ∧
      (l.foldl NlStart.step s).slack = s.slack := by
  induction l with
  | nil => intro s; exact ⟨rfl, rfl, rfl⟩
  | cons op l ih =>
    intro s
    obtain ⟨h1, h2, h3⟩ := ih (fun o ho => hl o (by simp [ho])) (s.step op)
    have hop := hl op (by simp)
    have : (s.step op).z = s.z ∧ (s.step op).first = s.first ∧ (s.step op).slack = s.slack := by
      cases op with
      | setOptimizerParameters p => cases p <;> exact ⟨rfl, rfl, rfl⟩
      | optimize x0 u0 cs oc j => cases hop
      | _ => exact ⟨rfl, rfl, rfl⟩
    exact ⟨h1.trans this.1, h2.trans this.2.1, h3.trans this.2.2⟩

/-- C47, warm start: with warm start enabled, the initial point after an answer `z` (no other `optimize` in between) is `z`
shifted by one step, the last state and the last input repeated, and the slack of `z` unless the feasibility check threw.
(Input scalings must not be zero.) -/
theorem c47_warm_shift (h : NlAsked d dyn ops outs x0 u0 cs oc m m' r call) {pre mid : List (NlCall d K)} {x u : Vec K} {k}
    {z : Vec K} {v : Ext K} {c : Int} {t : Bool} {j}
    (he : ops = pre ++ .optimize x u k (.answered z v c t) j :: mid) (hmid : ∀ op ∈ mid, isOptimize op = false)
    (hw : NlSpec.WarmStart ops = true) (hs : ∀ b, b < d.nu → NlSpec.inScale ops b ≠ 0) :
    call.guess.size = d.ph * d.nx + d.nu * d.ch + 1 ∧
    (∀ k a, k < d.ph → a < d.nx →
      call.guess.get (NlSpec.stateIx d k a) = z.get (NlSpec.stateIx d (min (k + 1) (d.ph - 1)) a)) ∧
    (∀ j b, j < d.ch → b < d.nu →
      call.guess.get (NlSpec.inputIx d j b) = z.get (NlSpec.inputIx d (min (j + 1) (d.ch - 1)) b)) ∧
    (t = false → call.guess.get (NlSpec.slackIx d) = z.get (NlSpec.slackIx d)) := by
  have hst := h.start
  obtain ⟨h1, -, -⟩ := start_warm h.toNlRan
  obtain ⟨g1, g2, g3⟩ := start_keep mid hmid ((pre.foldl NlStart.step (NlStart.fresh K)).step
    (.optimize x u k (.answered z v c t) j : NlCall d K))
  have e : ops.foldl NlStart.step (NlStart.fresh K) = mid.foldl NlStart.step ((pre.foldl NlStart.step (NlStart.fresh K)).step
    (.optimize x u k (.answered z v c t) j : NlCall d K)) := by rw [he, List.foldl_append, List.foldl_cons]
  rw [← e] at g1 g2 g3
  have hf : (ops.foldl NlStart.step (NlStart.fresh K)).first = false := g2.trans (by cases t <;> rfl)
  have hz : (ops.foldl NlStart.step (NlStart.fresh K)).z = z.get := g1.trans (by cases t <;> rfl)
  have hfrom : (ops.foldl NlStart.step (NlStart.fresh K)).from' d x0.get u0.get = z.get := by
    unfold NlStart.from'
    rw [h1, hf, hw, hz]
    rfl
  refine ⟨hst.size, ?_, ?_, ?_⟩
  · intro k a hk ha
    rw [hst.state k a hk ha]
    dsimp only
    rw [hfrom]
  · intro j b hj hb
    rw [hst.input j b hj hb]
    dsimp only
    rw [hfrom]
    have := hs b hb
    field_simp
  · rintro rfl
    rw [hst.slack, g3]
    rfl

/-- C47, warm start, in terms of sequences: the states and inputs the initial point stands for are those of the previous
solution one step later. (The claim in full for warm starts, except for zero input scalings.) -/
theorem c47_warm_sequences (h : NlAsked d dyn ops outs x0 u0 cs oc m m' r call) {pre mid : List (NlCall d K)} {x u : Vec K} {k}
    {z : Vec K} {v : Ext K} {c : Int} {t : Bool} {j}
    (he : ops = pre ++ .optimize x u k (.answered z v c t) j :: mid) (hmid : ∀ op ∈ mid, isOptimize op = false)
    (hw : NlSpec.WarmStart ops = true) (hs : ∀ b, b < d.nu → NlSpec.inScale ops b ≠ 0) :
    StartsFrom ops call
      (fun k a => NlSpec.stScale ops a * z.get (NlSpec.stateIx d (min k (d.ph - 1)) a))
      (fun j b => NlSpec.inScale ops b * z.get (NlSpec.inputIx d (min (j + 1) (d.ch - 1)) b)) := by
  obtain ⟨-, h1, h2, -⟩ := c47_warm_shift h he hmid hw hs
  exact ⟨fun k a hk ha => by rw [h1 k a hk ha], fun j b hj hb => by rw [h2 j b hj hb]⟩

/-! ### C48 -/

/-- the command kept by the controller -/
theorem kept_command (h : NlRan d dyn ops outs m) : ∀ b, b < d.nu → (NlCtl.after d ops outs).cmd b
    = ((NlSpec.last NlSpec.commandOf (ops.zip outs)).map Vec.get).getD (fun _ => 0) b := by
  have hl := h.len
  revert h m
  refine history_induction (P := fun ops outs => ∀ {m : NlMpc d K}, NlRan d dyn ops outs m → ∀ b, b < d.nu →
    (NlCtl.after d ops outs).cmd b = ((NlSpec.last NlSpec.commandOf (ops.zip outs)).map Vec.get).getD (fun _ => 0) b)
    (fun _ b _ => rfl) ?_ hl
  intro ops outs op o hl ih m' h' b hb
  obtain ⟨m, h, hf, hs⟩ := h'.unsnoc
  have ih := ih h b hb
  rw [NlMpc.after_snoc hl, List.zip_append hl.symm, List.zip_cons_cons, List.zip_nil_right, NlSpec.last_snoc]
  have other : (NlCtl.step (NlCtl.after d ops outs) o.refused op).cmd = (NlCtl.after d ops outs).cmd →
      NlSpec.commandOf (op, o) = none →
      (NlCtl.step (NlCtl.after d ops outs) o.refused op).cmd b = ((((NlSpec.commandOf (op, o)).or
        (NlSpec.last NlSpec.commandOf (ops.zip outs))).map Vec.get).getD (fun _ => 0)) b := by
    intro e1 e2
    rw [e1, e2, Option.none_or, ih]
  cases op with
  | setOptimizerParameters p => cases p <;> exact other rfl rfl
  | setStateBoundsSlice l u s => cases hr : o.refused <;> (rw [hr] at other; exact other rfl rfl)
  | setInputBoundsSlice l u s => cases hr : o.refused <;> (rw [hr] at other; exact other rfl rfl)
  | optimize x0 u0 cs oc j =>
    obtain ⟨r, call, rfl, -, -, -, -, hrep⟩ := NlMpc.optimize_ok h.agrees.1 h.hor.ph_int hf hs
    rcases oc with _ | ⟨z, v, k, _ | _⟩
    · exact other rfl rfl
    · have ha : NlMpc.Answered (NlCtl.after d ops outs) x0.get z.get v k r m'.o := hrep
      simp only [NlSpec.commandOf, Option.some_or, Option.map_some, Option.getD_some]
      rw [ha.cmd b hb]
      rfl
    · exact other rfl rfl
  | _ => exact other rfl rfl

/-- C48: after any history, when the solver throws (or the check of its answer does), the command is the one of the last call
in which the solver answered, zero if there is none; the result is infeasible with status ERROR, code -1 and infinite cost,
and the optimal sequence is all zeros. -/
theorem c48_failure_keeps_command (h : NlAsked d dyn ops outs x0 u0 cs oc m m' r call)
    (ho : ∀ z value code, oc ≠ .answered z value code false) :
    r.cmd.size = d.nu ∧
    (∀ b, b < d.nu → r.cmd.get b = match NlSpec.last NlSpec.commandOf (ops.zip outs) with
      | none => 0
      | some u => u.get b) ∧
    r.is_feasible = false ∧ r.status = .ERROR ∧ r.solver_status = -1 ∧ r.cost = .posInf ∧
    m'.o.seqState = Mat.const (d.ph + 1) d.nx 0 ∧ m'.o.seqInput = Mat.const (d.ph + 1) d.nu 0 ∧
    m'.o.seqOutput = Mat.const (d.ph + 1) d.ny 0 := by
  obtain ⟨-, -, -, ha⟩ := h.known
  have ha : NlMpc.Failed d m.o.result r m'.o := by
    rcases oc with _ | ⟨z, v, c, _ | _⟩
    · exact ha
    · exact absurd rfl (ho z v c)
    · exact ha
  obtain ⟨g, -, -⟩ := h.toNlRan.agrees
  refine ⟨by rw [ha.cmd]; exact g.cmds, ?_, ha.feas, ha.status, ha.code, ha.cost, ha.seqS, ha.seqI, ha.seqO⟩
  intro b hb
  rw [ha.cmd, g.cmd b hb, kept_command h.toNlRan b hb]
  cases NlSpec.last NlSpec.commandOf (ops.zip outs) <;> rfl

/-- C48, starting point, as claimed: the initial point of a later call is the one it would have without the failed call. -/
def C48Claim (K : Type) [Field K] [LinearOrder K] [IsStrictOrderedRing K] : Prop :=
  ∀ (d : Dims) dyn (pre mid : List (NlCall d K)) x u k j outs1 outs2 x0 u0 cs oc m1 m1' r1 call1 m2 m2' r2 call2,
    NlAsked d dyn (pre ++ .optimize x u k .threw j :: mid) outs1 x0 u0 cs oc m1 m1' r1 call1 →
    NlAsked d dyn (pre ++ mid) outs2 x0 u0 cs oc m2 m2' r2 call2 →
    call1.guess.size = call2.guess.size ∧ ∀ p, p < call1.guess.size → call1.guess.get p = call2.guess.get p

/-- C48, starting point, partial: the claim holds if warm start was enabled at the failed call, or the solver had not answered
before it, or warm start is disabled at the later call, or the solver has answered in between. Missing: the failed call was
a cold start after a solution and warm start is enabled later (`c48_start_violated`). -/
theorem c48_start_partial {pre mid : List (NlCall d K)} {x u : Vec K} {k j} {outs1 outs2 : List (NlOut K)}
    {m1 m1' m2 m2' : NlMpc d K} {r1 r2 : LResult K} {call1 call2 : NlSolverCall K}
    (h1 : NlAsked d dyn (pre ++ .optimize x u k .threw j :: mid) outs1 x0 u0 cs oc m1 m1' r1 call1)
    (h2 : NlAsked d dyn (pre ++ mid) outs2 x0 u0 cs oc m2 m2' r2 call2)
    (hc : NlSpec.WarmStart pre = true ∨ NlSpec.last NlSpec.solutionOf pre = none ∨ NlSpec.WarmStart (pre ++ mid) = false ∨
      (NlSpec.last NlSpec.solutionOf mid).isSome = true) :
    call1.guess.size = call2.guess.size ∧ ∀ p, p < call1.guess.size → call1.guess.get p = call2.guess.get p := by
  have g1 := h1.start
  have g2 := h2.start
  obtain ⟨-, -, i1⟩ := start_warm h1.toNlRan
  obtain ⟨w2, -, i2⟩ := start_warm h2.toNlRan
  rw [← i1] at g1
  rw [← i2] at g2
  have ha := (NlStart.alike_failed (d := d) (pre.foldl NlStart.step (NlStart.fresh K)) x.get u.get).fold mid
  have e1 : (pre ++ .optimize x u k .threw j :: mid).foldl NlStart.step (NlStart.fresh K)
      = mid.foldl NlStart.step { pre.foldl NlStart.step (NlStart.fresh K) with
        z := (pre.foldl NlStart.step (NlStart.fresh K)).from' d x.get u.get } := by
    rw [List.foldl_append, List.foldl_cons]; rfl
  have e2 : (pre ++ mid).foldl NlStart.step (NlStart.fresh K) = mid.foldl NlStart.step (pre.foldl NlStart.step (NlStart.fresh K)) :=
    List.foldl_append
  rw [← e1, ← e2] at ha
  refine NlStart.guess_eq ha ?_ h1.hor.ch_pos h1.hor.ch_le g1 g2
  -- the parts of the state at the failed call
  have hpre : ∀ l : List (NlCall d K), (l.foldl NlStart.step (NlStart.fresh K)).warm = NlSpec.WarmStart l ∧
      (l.foldl NlStart.step (NlStart.fresh K)).first = (NlSpec.last NlSpec.solutionOf l).isNone := by
    intro l
    have hl : (List.replicate l.length (NlOut.unit : NlOut K)).length = l.length := by simp
    rw [← NlStart.after_startPart hl]
    exact ⟨after_warm hl, after_first hl⟩
  rcases hc with hc | hc | hc | hc
  · exact .inr (.inl (.inl (by rw [(hpre pre).1, hc])))
  · exact .inr (.inl (.inr (by rw [(hpre pre).2, hc]; rfl)))
  · left; rw [ha.warm, (hpre _).1, hc]
  · exact .inr (.inr hc)

end
end Mpc.Props

/-! ### witnesses -/

namespace Mpc.Props
open Mpc Exec

/-- a history of admissible calls, then an `optimize` without callbacks -/
theorem asked_of {ops : List (NlCall dN ℚ)} (x0 u0 : ℚ) (oc : NlOutcome ℚ)
    (ho : ∀ z v c t, oc = .answered z v c t → z.size = 9) (hf : ∀ op ∈ ops, NlSpec.CallFits dN op)
    (ha : AdmFrom dN false [] ops) :
    ∃ outs m m' r call, NlAsked dN false ops outs (nvec 2 fun _ => x0) (nvec 1 fun _ => u0) [] oc m m' r call := by
  obtain ⟨outs, m, h⟩ := nlRan_exists (K := ℚ) (d := dN) (dyn := false) (ops := ops) dN_ok (by decide) (by decide)
    (fun _ => 0) hf (fun p op q e => admFrom_split (pre := []) ha p op q e)
  obtain ⟨m', r, call, h'⟩ := h.asks (x0 := nvec 2 fun _ => x0) (u0 := nvec 1 fun _ => u0) (oc := oc) rfl rfl ho (by decide)
  exact ⟨outs, m, m', r, call, h'⟩

/-- C47 is violated: with state scale 2, a cold start stands for twice the measured state. -/
theorem c47_scaled_violated : ¬ C47Claim ℚ := by
  intro hc
  obtain ⟨outs, m, m', r, call, h⟩ := asked_of (ops := [.setStateScale (nvec 2 fun _ => 2)]) 1 0 .threw (by rintro _ _ _ _ ⟨⟩)
    (by simp [NlSpec.CallFits, nvec]) (by simp [AdmFrom, NlSpec.Admissible])
  have h1 := ((hc _ _ _ _ _ _ _ _ _ _ _ _ h).1 (.inl rfl)).1 0 0 (by decide) (by decide)
  have h2 := (c47_cold_partial h (.inl rfl) (by intro b _; simp [NlSpec.inScale, NlSpec.last, NlSpec.inScaleOf])).2.1 0 0
    (by decide) (by decide)
  rw [h2] at h1
  simp [NlSpec.stScale, NlSpec.last, NlSpec.stScaleOf, nvec] at h1

/-- a call with the given solver outcome, from state `x` -/
def askN (x : ℚ) (oc : NlOutcome ℚ) : NlCall dN ℚ := .optimize (nvec 2 fun _ => x) (nvec 1 fun _ => 0) [] oc (fun _ => 0)

/-- warm start on or off -/
def warmN (b : Bool) : NlCall dN ℚ := .setOptimizerParameters (.nonlinear { enable_warm_start := b })

/-- C48 is violated: a failed cold start replaces the solution from which a later warm start starts. -/
theorem c48_start_violated : ¬ C48Claim ℚ := by
  intro hc
  have hz : ∀ z v c t, (NlOutcome.threw : NlOutcome ℚ) = .answered z v c t → z.size = 9 := by rintro _ _ _ _ ⟨⟩
  obtain ⟨outs1, m1, m1', r1, call1, h1⟩ := asked_of
    (ops := [warmN true, askN 0 (.answered (zN 7) (.fin 0) 1 false), warmN false] ++ askN 100 .threw :: [warmN true]) 1 0 .threw hz
    (by simp [NlSpec.CallFits, nvec, warmN, askN, zN]) (by simp [AdmFrom, NlSpec.Admissible, warmN, askN])
  obtain ⟨outs2, m2, m2', r2, call2, h2⟩ := asked_of
    (ops := [warmN true, askN 0 (.answered (zN 7) (.fin 0) 1 false), warmN false] ++ [warmN true]) 1 0 .threw hz
    (by simp [NlSpec.CallFits, nvec, warmN, askN, zN]) (by simp [AdmFrom, NlSpec.Admissible, warmN, askN])
  have key := (hc _ _ _ _ _ _ _ _ _ _ _ _ _ _ _ _ _ _ _ _ _ _ h1 h2).2 (NlSpec.stateIx dN 0 0)
  have g1 := h1.start
  have g2 := h2.start
  have s1 := g1.state 0 0 (by decide) (by decide)
  have s2 := g2.state 0 0 (by decide) (by decide)
  rw [s1, s2] at key
  have := key (by rw [g1.size]; decide)
  simp [NlStart.step, NlStart.fresh, NlStart.from', warmN, askN, zN, nvec, NlCtl.cold, NlSpec.stateIx] at this
  norm_num at this

/-- non-vacuity: a failed call and a later warm start (the case of `c48_start_partial`), with a solution before and after -/
example : ∃ outs m m' r call, NlAsked dN false
    ([warmN true, askN 0 (.answered (zN 7) (.fin 0) 1 false)] ++ askN 100 .threw :: [.setInputScale (nvec 1 fun _ => 3)]) outs
    (nvec 2 fun _ => 1) (nvec 1 fun _ => 0) [] .threw m m' r call :=
  asked_of 1 0 .threw (by rintro _ _ _ _ ⟨⟩) (by simp [NlSpec.CallFits, nvec, warmN, askN, zN])
    (by simp [AdmFrom, NlSpec.Admissible, warmN, askN])

/-- C48: in that history the failed call returns the first input of the solution `zN 7`, and C47: the warm start reads the
second state of that solution. -/
example {outs m m' r call} (h : NlAsked dN false
    ([warmN true] ++ askN 0 (.answered (zN 7) (.fin 0) 1 false) :: []) outs (nvec 2 fun _ => 1) (nvec 1 fun _ => 0) [] .threw
    m m' r call) : call.guess.get 0 = 9 ∧ call.guess.get 4 = 11 ∧ call.guess.get 6 = 14 := by
  obtain ⟨-, h1, h2, -⟩ := c47_warm_shift h rfl (by simp) rfl
    (by intro b _; simp [NlSpec.inScale, NlSpec.last, NlSpec.inScaleOf, warmN, askN])
  have a := h1 0 0 (by decide) (by decide)
  have b := h1 2 0 (by decide) (by decide)
  have c := h2 0 0 (by decide) (by decide)
  simp [NlSpec.stateIx, NlSpec.inputIx, zN] at a b c
  norm_num at a b c
  exact ⟨a, b, c⟩

end Mpc.Props
