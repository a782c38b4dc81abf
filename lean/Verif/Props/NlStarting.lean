import Verif.Spec.NlStarting
import Verif.Proofs.NlDetermined
import Verif.Props.NlStart

/-
C124: the nonlinear solver is given a starting point it takes.
-/
namespace Mpc.Props
open Mpc Exec NlSpec
open Mpc.Spec (within)
set_option linter.unusedSectionVars false

section
variable {d : Dims} {K : Type} [Field K] [LinearOrder K] [IsStrictOrderedRing K]
variable {dyn : Bool} {ops : List (NlCall d K)} {outs : List (NlOut K)} {m m' : NlMpc d K} {x0 u0 : Vec K}
  {cs : List (NlCallback K)} {oc : NlOutcome K} {r : LResult K} {call : NlSolverCall K}

/-- C124 as claimed: when the configured problem has a solution, the solver starts. -/
def C124Claim (K : Type) [Field K] [LinearOrder K] [IsStrictOrderedRing K] : Prop :=
  ∀ (d : Dims) dyn (ops : List (NlCall d K)) outs x0 u0 cs oc m m' r call,
    NlAsked d dyn ops outs x0 u0 cs oc m m' r call → (∀ op ∈ ops, UsableCall op) → (∀ q ∈ ops.zip outs, KeepsBox q) →
    (∃ p, Allowed ops outs x0.get p) → InBox call call.guess

theorem start_foldl_slack (h : NlRan d dyn ops outs m) (hu : ∀ op ∈ ops, UsableCall op)
    (hk : ∀ q ∈ ops.zip outs, KeepsBox q) : (ops.foldl NlStart.step (NlStart.fresh K)).slack = 0 := by
  have hl := h.len
  revert h m
  refine history_induction (P := fun ops outs => (∀ op ∈ ops, UsableCall op) → (∀ q ∈ ops.zip outs, KeepsBox q) →
    ∀ {m : NlMpc d K}, NlRan d dyn ops outs m → (ops.foldl NlStart.step (NlStart.fresh K)).slack = 0)
    (fun _ _ _ _ => rfl) ?_ hl hu hk
  intro ops outs op o hl ih hu hk m' h'
  obtain ⟨m, h, hf, hs⟩ := h'.unsnoc
  rw [List.zip_append hl.symm, List.zip_cons_cons, List.zip_nil_right] at hk
  have ih := ih (fun op ho => hu op (by simp [ho])) (fun q hq => hk q (by simp [hq])) h
  rw [List.foldl_append, List.foldl_cons, List.foldl_nil]
  cases op with
  | setOptimizerParameters p => cases p <;> exact ih
  | optimize x0 u0 cs oc j =>
    rcases oc with _ | ⟨z, v, k, _ | _⟩
    · exact ih
    · obtain ⟨r, call, rfl, -⟩ := NlMpc.optimize_ok h.agrees.1 h.hor.ph_int hf hs
      have ha : NlAsked d dyn ops outs x0 u0 cs (.answered z v k false) m m' r call := ⟨h, j, hf, hs⟩
      obtain ⟨h1, h2⟩ := c44_slack_partial ha (fun op ho => hu op (by simp [ho]))
      have hb := (hk (_, _) (List.mem_append_right _ (List.mem_singleton.2 rfl))).2 _ _ _ _ rfl (slackIx d) (by
        have hz : z.size = d.ph * d.nx + d.nu * d.ch + 1 := by
          exact hf.2.2.2
        rw [hz, Nat.mul_comm d.nu d.ch]
        unfold slackIx
        omega)
      rw [h1, h2] at hb
      show z.get (slackIx d) = 0
      exact le_antisymm ((Ext.fin_le_fin _ _).1 hb.2) ((Ext.fin_le_fin _ _).1 hb.1)
    · exact ih
  | _ => exact ih

/-- a starting point is inside when its states and inputs are, and the slack is zero -/
theorem inBox_iff (h : NlAsked d dyn ops outs x0 u0 cs oc m m' r call) (hu : ∀ op ∈ ops, UsableCall op) {z : Vec K}
    (hz : z.size = d.ph * d.nx + d.nu * d.ch + 1) :
    InBox call z ↔
      (∀ k a, k < d.ph → a < d.nx → within (stateLimits ops outs k a).1 (stateLimits ops outs k a).2 (z.get (stateIx d k a))) ∧
      (∀ j b, j < d.ch → b < d.nu → within (inputLimits ops outs j b).1 (inputLimits ops outs j b).2 (z.get (inputIx d j b))) ∧
      z.get (slackIx d) = 0 := by
  obtain ⟨-, -, hs, hi⟩ := c44_boxes_partial h hu
  have hs1 : ∀ k a, k < d.ph → a < d.nx → (stateLimits ops outs k a) = (call.lb.get (stateIx d k a), call.ub.get (stateIx d k a)) :=
    fun k a hk ha => (hs k a hk ha).symm
  have hi1 : ∀ j b, j < d.ch → b < d.nu → (inputLimits ops outs j b) = (call.lb.get (inputIx d j b), call.ub.get (inputIx d j b)) :=
    fun j b hj hb => (hi j b hj hb).symm
  have hsl := c45_never_released_partial h hu (t := z.get (slackIx d))
  have hlt : ∀ p, p < z.size ↔ p < d.nZ := fun p => by rw [hz]; rfl
  constructor
  · intro hb
    refine ⟨fun k a hk ha => ?_, fun j b hj hb' => ?_, hsl.1 (hb _ ?_)⟩
    · rw [hs1 k a hk ha]
      exact hb _ ((hlt _).2 (stateIx_lt hk ha))
    · rw [hi1 j b hj hb']
      exact hb _ ((hlt _).2 (inputIx_lt hj hb'))
    · rw [hz, Nat.mul_comm d.nu d.ch]
      unfold slackIx
      omega
  · rintro ⟨h1, h2, h3⟩ p hp
    rcases nZ_cases d ((hlt p).1 hp) with ⟨k, a, hk, ha, rfl⟩ | ⟨j, b, hj, hb, rfl⟩ | rfl
    · have := h1 k a hk ha
      rwa [hs1 k a hk ha] at this
    · have := h2 j b hj hb
      rwa [hi1 j b hj hb] at this
    · exact hsl.2 h3

/-- C124, cold start, partial: before the solver has answered, or without warm start, the solver starts exactly when the
*measured* state is within the bounds of every *future* step and the last input within those of every input (input scalings must
not be zero). Missing: a measured state outside of the bounds from which the problem can be solved (`c124_measured_violated`). -/
theorem c124_cold_partial (h : NlAsked d dyn ops outs x0 u0 cs oc m m' r call) (hu : ∀ op ∈ ops, UsableCall op)
    (hk : ∀ q ∈ ops.zip outs, KeepsBox q) (hc : WarmStart ops = false ∨ last solutionOf ops = none)
    (hs : ∀ b, b < d.nu → inScale ops b ≠ 0) :
    InBox call call.guess ↔ InLimits d ops outs x0.get u0.get := by
  obtain ⟨h0, h1, h2⟩ := c47_cold_partial h hc hs
  have hsl : call.guess.get (slackIx d) = 0 := by rw [h.start.slack, start_foldl_slack h.toNlRan hu hk]
  rw [inBox_iff h hu h0]
  constructor
  · rintro ⟨a1, a2, -⟩
    exact ⟨fun k a hk ha => by rw [← h1 k a hk ha]; exact a1 k a hk ha, fun j b hj hb => by rw [← h2 j b hj hb]; exact a2 j b hj hb⟩
  · rintro ⟨a1, a2⟩
    exact ⟨fun k a hk ha => by rw [h1 k a hk ha]; exact a1 k a hk ha, fun j b hj hb => by rw [h2 j b hj hb]; exact a2 j b hj hb, hsl⟩

/-- C124, warm start, partial: after an answer `z` the solver starts exactly when `z` one step later is within the bounds.
Missing: bounds for which this fails although the problem can be solved (`c124_shift_violated`). -/
theorem c124_warm_partial (h : NlAsked d dyn ops outs x0 u0 cs oc m m' r call) (hu : ∀ op ∈ ops, UsableCall op)
    (hk : ∀ q ∈ ops.zip outs, KeepsBox q) {pre mid : List (NlCall d K)} {x u : Vec K} {k} {z : Vec K} {v : Ext K} {c : Int}
    {t : Bool} {j} (he : ops = pre ++ .optimize x u k (.answered z v c t) j :: mid)
    (hmid : ∀ op ∈ mid, isOptimize op = false) (hw : WarmStart ops = true) (hs : ∀ b, b < d.nu → inScale ops b ≠ 0) :
    InBox call call.guess ↔ ShiftInLimits d ops outs z := by
  obtain ⟨h0, h1, h2, -⟩ := c47_warm_shift h he hmid hw hs
  have hsl : call.guess.get (slackIx d) = 0 := by rw [h.start.slack, start_foldl_slack h.toNlRan hu hk]
  rw [inBox_iff h hu h0]
  constructor
  · rintro ⟨a1, a2, -⟩
    exact ⟨fun k a hk ha => by rw [← h1 k a hk ha]; exact a1 k a hk ha, fun j b hj hb => by rw [← h2 j b hj hb]; exact a2 j b hj hb⟩
  · rintro ⟨a1, a2⟩
    exact ⟨fun k a hk ha => by rw [h1 k a hk ha]; exact a1 k a hk ha, fun j b hj hb => by rw [h2 j b hj hb]; exact a2 j b hj hb, hsl⟩

/-! ### a control loop -/

/-- calls which are no setter of bounds keep the limits -/
theorem limits_keep {ops loop : List (NlCall d K)} {outs louts : List (NlOut K)} (hl : outs.length = ops.length)
    (ho : ∀ op ∈ loop, isOptimize op = true) :
    stateLimits (ops ++ loop) (outs ++ louts) = stateLimits ops outs ∧
    inputLimits (ops ++ loop) (outs ++ louts) = inputLimits ops outs := by
  have hn : ∀ q ∈ loop.zip louts, ∀ k a, stateBox k a q = none ∧ inputBox k a q = none := by
    rintro ⟨op, o⟩ hq k a
    have := ho op (List.of_mem_zip hq).1
    cases op with
    | optimize x u cs oc j => exact ⟨rfl, rfl⟩
    | _ => cases this
  constructor
  · funext k a
    unfold stateLimits
    rw [List.zip_append hl.symm, last_append, last_none (fun q hq => (hn q hq k a).1), Option.none_or]
  · funext k a
    unfold inputLimits
    rw [List.zip_append hl.symm, last_append, last_none (fun q hq => (hn q hq k a).2), Option.none_or]

/-- an optimisation the solver answered -/
def answers : NlCall d K → Bool
  | .optimize _ _ _ (.answered _ _ _ _) _ => true
  | _ => false

/-- C124 in a control loop, partial: with warm start and limits which do not get looser along the horizon, if the first
measurement and input are within the limits and the solver answers, every call of the loop starts — whatever is measured later.
(`setup` is any history without answers, the loop has only `optimize` calls.) -/
theorem c124_loop_partial {setup loop : List (NlCall d K)} {outs louts : List (NlOut K)}
    (h : NlAsked d dyn (setup ++ loop) (outs ++ louts) x0 u0 cs oc m m' r call) (hl : outs.length = setup.length)
    (hu : ∀ op ∈ setup, UsableCall op) (hk : ∀ q ∈ (setup ++ loop).zip (outs ++ louts), KeepsBox q)
    (hn : last solutionOf setup = none) (hw : WarmStart setup = true) (hs : ∀ b, b < d.nu → inScale setup b ≠ 0)
    (hlo : ∀ op ∈ loop, answers op = true) (hnest : LimitsNested d setup outs)
    (hf : loop = [] → InLimits d setup outs x0.get u0.get) : InBox call call.guess := by
  have hopt : ∀ op ∈ loop, isOptimize op = true := by
    intro op ho
    have := hlo op ho
    cases op with
    | optimize x u cs oc j => rfl
    | _ => cases this
  obtain ⟨e1, e2⟩ := limits_keep (louts := louts) hl hopt
  have hnone : ∀ {α : Type} (f : NlCall d K → Option α), (∀ x u cs oc j, f (.optimize x u cs oc j) = none) →
      last f (setup ++ loop) = last f setup := by
    intro α f hf
    rw [last_append, last_none, Option.none_or]
    intro op ho
    have := hopt op ho
    cases op with
    | optimize x u cs oc j => exact hf _ _ _ _ _
    | _ => cases this
  have hw' : WarmStart (setup ++ loop) = true := by
    unfold WarmStart
    rw [hnone _ (fun _ _ _ _ _ => rfl)]
    exact hw
  have hs' : ∀ b, b < d.nu → inScale (setup ++ loop) b ≠ 0 := by
    intro b hb
    unfold inScale
    rw [hnone _ (fun _ _ _ _ _ => rfl)]
    exact hs b hb
  have hu' : ∀ op ∈ setup ++ loop, UsableCall op := by
    intro op ho
    rcases List.mem_append.1 ho with ho | ho
    · exact hu op ho
    · have := hopt op ho
      cases op with
      | optimize x u cs oc j => trivial
      | _ => cases this
  rcases List.eq_nil_or_concat' loop with rfl | ⟨l, op, rfl⟩
  · rw [c124_cold_partial h hu' hk (.inr (by rw [List.append_nil]; exact hn)) hs']
    unfold InLimits
    rw [e1, e2]
    exact hf rfl
  · have hop := hlo op (by simp)
    cases op with
    | optimize x u ks oc' j =>
      cases oc' with
      | threw => cases hop
      | answered z v c t =>
        -- the answer was within the limits
        have hlen := h.toNlRan.len
        rcases List.eq_nil_or_concat' louts with rfl | ⟨lo, o, rfl⟩
        · simp at hlen
          omega
        · rw [c124_warm_partial h hu' hk (mid := []) (pre := setup ++ l) (z := z)
            (List.append_assoc _ _ _).symm (by simp) hw' hs']
          rw [← List.append_assoc, ← List.append_assoc] at h hk hlen
          obtain ⟨m0, h0, hfit, hstep⟩ := h.toNlRan.unsnoc
          obtain ⟨r0, call0, rfl, -⟩ := NlMpc.optimize_ok h0.agrees.1 h0.hor.ph_int hfit hstep
          have ha : NlAsked d dyn (setup ++ l) (outs ++ lo) x u ks (.answered z v c t) m0 m r0 call0 := ⟨h0, j, hfit, hstep⟩
          have hb := (hk (.optimize x u ks (.answered z v c t) j, .result r0 call0) (by
            rw [List.zip_append h0.len.symm]
            exact List.mem_append_right _ (List.mem_singleton.2 rfl))).2 _ _ _ _ rfl
          have hz : z.size = d.ph * d.nx + d.nu * d.ch + 1 := hfit.2.2.2
          obtain ⟨b1, b2, -⟩ := (inBox_iff ha (fun op ho => hu' op (by
            rw [← List.append_assoc]
            exact List.mem_append_left _ ho)) hz).1 hb
          obtain ⟨f1, f2⟩ := limits_keep (ops := setup) (outs := outs) (loop := l) (louts := lo) hl
            (fun op ho => hopt op (by simp [ho]))
          rw [f1] at b1
          rw [f2] at b2
          unfold ShiftInLimits
          rw [e1, e2]
          have hch := h.hor.ch_pos
          have hle := h.hor.ch_le
          refine ⟨fun k a hk ha => ?_, fun j b hj hb => ?_⟩
          · by_cases hk1 : k + 1 < d.ph
            · rw [Nat.min_eq_left (by omega)]
              exact hnest.1 k a _ hk1 ha (b1 (k + 1) a hk1 ha)
            · obtain rfl : k = d.ph - 1 := by omega
              rw [Nat.min_eq_right (by omega)]
              exact b1 _ a hk ha
          · by_cases hj1 : j + 1 < d.ch
            · rw [Nat.min_eq_left (by omega)]
              exact hnest.2 j b _ hj1 hb (b2 (j + 1) b hj1 hb)
            · obtain rfl : j = d.ch - 1 := by omega
              rw [Nat.min_eq_right (by omega)]
              exact b2 _ b hj hb
    | _ => cases hop

/-- C124 for control loops, as claimed: warm start, unchanged settings, first measurement and input within the limits, and a solver
which answers: every call of the loop starts. -/
def C124LoopClaim (K : Type) [Field K] [LinearOrder K] [IsStrictOrderedRing K] : Prop :=
  ∀ (d : Dims) dyn (setup loop : List (NlCall d K)) outs louts x0 u0 cs oc m m' r call,
    NlAsked d dyn (setup ++ loop) (outs ++ louts) x0 u0 cs oc m m' r call → outs.length = setup.length →
    (∀ op ∈ setup, UsableCall op) → (∀ q ∈ (setup ++ loop).zip (outs ++ louts), KeepsBox q) →
    last solutionOf setup = none → WarmStart setup = true → (∀ b, b < d.nu → inScale setup b ≠ 0) →
    (∀ op ∈ loop, answers op = true) → (∃ p, Allowed (setup ++ loop) (outs ++ louts) x0.get p) →
    (loop = [] → InLimits d setup outs x0.get u0.get) → InBox call call.guess

/-! ### once refused, refused for ever -/

/-- an `optimize` call in which the solver threw -/
def throwsNow : NlCall d K → Bool
  | .optimize _ _ _ .threw _ => true
  | _ => false

/-- the solver kept to its rule about starting points in a call -/
def KeepsRule : NlCall d K × NlOut K → Prop
  | (.optimize _ _ _ oc _, .result _ call) => StartRule call oc
  | _ => True

theorem fold_throws {s : NlStart K} (hf : s.first = false) (hw : s.warm = true) {more : List (NlCall d K)}
    (ht : ∀ op ∈ more, throwsNow op = true) : more.foldl NlStart.step s = s := by
  induction more with
  | nil => rfl
  | cons op l ih =>
    have hop := ht op (by simp)
    have : s.step op = s := by
      cases op with
      | optimize x u cs oc j =>
        cases oc with
        | threw =>
          have e : s.from' d x.get u.get = s.z := by simp [NlStart.from', hf, hw]
          show { s with z := s.from' d x.get u.get } = s
          rw [e]
        | answered z v c t => cases hop
      | _ => cases hop
    rw [List.foldl_cons, this]
    exact ih fun o ho => ht o (by simp [ho])

theorem box_keep {ops more : List (NlCall d K)} {outs mouts : List (NlOut K)} (hl : outs.length = ops.length)
    (ho : ∀ op ∈ more, isOptimize op = true) :
    (NlCtl.after d (ops ++ more) (outs ++ mouts)).lo = (NlCtl.after d ops outs).lo ∧
    (NlCtl.after d (ops ++ more) (outs ++ mouts)).up = (NlCtl.after d ops outs).up := by
  have key : ∀ (l : List (NlCall d K × NlOut K)), (∀ q ∈ l, isOptimize q.1 = true) → ∀ c : NlCtl d K,
      (l.foldl (fun c q => c.step q.2.refused q.1) c).lo = c.lo ∧ (l.foldl (fun c q => c.step q.2.refused q.1) c).up = c.up := by
    intro l
    induction l with
    | nil => intro _ c; exact ⟨rfl, rfl⟩
    | cons q l ih =>
      intro hq c
      obtain ⟨h1, h2⟩ := ih (fun q hq' => hq q (by simp [hq'])) (c.step q.2.refused q.1)
      have h0 := hq q (by simp)
      have : (c.step q.2.refused q.1).lo = c.lo ∧ (c.step q.2.refused q.1).up = c.up := by
        obtain ⟨op, o⟩ := q
        cases op with
        | optimize x u cs oc j => rcases oc with _ | ⟨z, v, k, _ | _⟩ <;> exact ⟨rfl, rfl⟩
        | _ => cases h0
      exact ⟨h1.trans this.1, h2.trans this.2⟩
  unfold NlCtl.after
  rw [List.zip_append hl.symm, List.foldl_append]
  exact key _ (fun q hq => ho _ (List.of_mem_zip hq).1) _

/-- the start point and the box are the same after calls in which the solver threw -/
theorem same_start_get {more : List (NlCall d K)} {mouts : List (NlOut K)} {x u : Vec K} {ks oc'} {n n' : NlMpc d K} {r' : LResult K}
    {call' : NlSolverCall K} (h : NlAsked d dyn ops outs x0 u0 cs oc m m' r call)
    (h' : NlAsked d dyn (ops ++ more) (outs ++ mouts) x u ks oc' n n' r' call') (hw : WarmStart ops = true)
    (hs : (last solutionOf ops).isSome = true) (ht : ∀ op ∈ more, throwsNow op = true) :
    (∀ p, p < d.nZ → call'.guess.get p = call.guess.get p) ∧ call'.lb.get = call.lb.get ∧ call'.ub.get = call.ub.get := by
  have hopt : ∀ op ∈ more, isOptimize op = true := by
    intro op ho
    have := ht op ho
    cases op with
    | optimize x u cs oc j => rfl
    | _ => cases this
  obtain ⟨s1, s2, s3⟩ := start_warm h.toNlRan
  obtain ⟨-, -, t3⟩ := start_warm h'.toNlRan
  have g := h.start
  have g' := h'.start
  have hfirst : (ops.foldl NlStart.step (NlStart.fresh K)).first = false := by
    rw [s2]
    cases hq : last solutionOf ops with
    | none => rw [hq] at hs; cases hs
    | some z => rfl
  have e : (ops ++ more).foldl NlStart.step (NlStart.fresh K) = ops.foldl NlStart.step (NlStart.fresh K) := by
    rw [List.foldl_append, fold_throws hfirst (s1.trans hw) ht]
  rw [← s3] at g
  rw [← t3, e] at g'
  have hfrom : ∀ x u : Nat → K, (ops.foldl NlStart.step (NlStart.fresh K)).from' d x u
      = (ops.foldl NlStart.step (NlStart.fresh K)).z := by
    intro x u
    unfold NlStart.from'
    rw [hfirst, s1, hw]
    rfl
  rw [hfrom] at g g'
  obtain ⟨-, -, k, -⟩ := h.known
  obtain ⟨-, -, k', -⟩ := h'.known
  obtain ⟨b1, b2⟩ := box_keep (mouts := mouts) h.toNlRan.len hopt
  have hget : ∀ p, p < d.nZ → call'.guess.get p = call.guess.get p := by
    intro p hp
    rcases nZ_cases d hp with ⟨k, a, hk, ha, rfl⟩ | ⟨j, b, hj, hb, rfl⟩ | rfl
    · rw [g.state k a hk ha, g'.state k a hk ha]
    · rw [g.input j b hj hb, g'.input j b hj hb]
    · rw [g.slack, g'.slack]
  exact ⟨hget, by rw [k.lb, k'.lb, b1], by rw [k.ub, k'.ub, b2]⟩

/-- whether the start is refused is the same after calls in which the solver threw -/
theorem same_start {more : List (NlCall d K)} {mouts : List (NlOut K)} {x u : Vec K} {ks oc'} {n n' : NlMpc d K} {r' : LResult K}
    {call' : NlSolverCall K} (h : NlAsked d dyn ops outs x0 u0 cs oc m m' r call)
    (h' : NlAsked d dyn (ops ++ more) (outs ++ mouts) x u ks oc' n n' r' call') (hw : WarmStart ops = true)
    (hs : (last solutionOf ops).isSome = true) (ht : ∀ op ∈ more, throwsNow op = true) :
    InBox call' call'.guess ↔ InBox call call.guess := by
  obtain ⟨hget, e1, e2⟩ := same_start_get h h' hw hs ht
  unfold InBox
  rw [h.start.size, h'.start.size, e1, e2]
  exact ⟨fun hh p hp => by rw [← hget p hp]; exact hh p hp, fun hh p hp => by rw [hget p hp]; exact hh p hp⟩

/-- C124, what happens otherwise: with warm start, once a start is refused, every later one is, however long the loop goes on and
whatever is measured: each `optimize` returns ERROR and the command of the last call which was answered, until settings
change. -/
theorem c124_refused_forever (h : NlAsked d dyn ops outs x0 u0 cs oc m m' r call) (hw : WarmStart ops = true)
    (hs : (last solutionOf ops).isSome = true) (hout : ¬ InBox call call.guess) {more : List (NlCall d K)}
    {mouts : List (NlOut K)} {x u : Vec K} {ks : List (NlCallback K)} {oc' : NlOutcome K} {n n' : NlMpc d K} {r' : LResult K}
    {call' : NlSolverCall K} (h' : NlAsked d dyn (ops ++ more) (outs ++ mouts) x u ks oc' n n' r' call')
    (hopt : ∀ op ∈ more, isOptimize op = true) (hk : ∀ q ∈ more.zip mouts, KeepsRule q) (hr : StartRule call' oc') :
    ¬ InBox call' call'.guess ∧ oc' = .threw ∧ r'.status = .ERROR ∧ r'.is_feasible = false ∧
    ∀ b, b < d.nu → r'.cmd.get b = match last commandOf (ops.zip outs) with
      | none => 0
      | some u => u.get b := by
  have hlen : outs.length = ops.length := h.toNlRan.len
  -- all calls in between threw
  have hall : ∀ (more : List (NlCall d K)) (mouts : List (NlOut K)) (n : NlMpc d K),
      NlRan d dyn (ops ++ more) (outs ++ mouts) n → (∀ op ∈ more, isOptimize op = true) →
      (∀ q ∈ more.zip mouts, KeepsRule q) → ∀ op ∈ more, throwsNow op = true := by
    intro more
    induction more using List.reverseRecOn with
    | nil => intro _ _ _ _ _ op ho; cases ho
    | append_singleton l op ih =>
      intro mouts n hn ho hk
      have hl2 := hn.len
      rcases List.eq_nil_or_concat' mouts with rfl | ⟨lo, o, rfl⟩
      · simp at hl2
        omega
      · have hll : lo.length = l.length := by
          simp at hl2
          omega
        rw [← List.append_assoc, ← List.append_assoc] at hn
        obtain ⟨m0, h0, hfit, hstep⟩ := hn.unsnoc
        rw [List.zip_append hll.symm] at hk
        have ht := ih lo m0 h0 (fun op hop => ho op (by simp [hop])) (fun q hq => hk q (List.mem_append_left _ hq))
        have hop := ho op (by simp)
        have hq := hk (op, o) (List.mem_append_right _ (List.mem_singleton.2 rfl))
        have : throwsNow op = true := by
          cases op with
          | optimize x u ks oc j =>
            obtain ⟨r0, call0, rfl, -⟩ := NlMpc.optimize_ok h0.agrees.1 h0.hor.ph_int hfit hstep
            have ha : NlAsked d dyn (ops ++ l) (outs ++ lo) x u ks oc m0 n r0 call0 := ⟨h0, j, hfit, hstep⟩
            have hb : ¬ InBox call0 call0.guess := by rw [same_start h ha hw hs ht]; exact hout
            obtain rfl := hq hb
            rfl
          | _ => cases hop
        intro op' ho'
        rcases List.mem_append.1 ho' with ho' | ho'
        · exact ht op' ho'
        · obtain rfl := List.mem_singleton.1 ho'
          exact this
  have ht := hall more mouts n h'.toNlRan hopt hk
  have hb : ¬ InBox call' call'.guess := by rw [same_start h h' hw hs ht]; exact hout
  obtain rfl := hr hb
  obtain ⟨-, h1, h2, h3, -⟩ := c48_failure_keeps_command h' (by rintro z v c ⟨⟩)
  refine ⟨hb, rfl, h3, h2, ?_⟩
  intro b hb
  have hnone : ∀ q ∈ more.zip mouts, commandOf q = none := by
    rintro ⟨op, o⟩ hq
    have := ht op (List.of_mem_zip hq).1
    cases op with
    | optimize x u cs oc j =>
      cases oc with
      | threw => rfl
      | answered z v c t => cases this
    | _ => cases this
  rw [h1 b hb, List.zip_append hlen.symm, last_append, last_none hnone, Option.none_or]
  cases last commandOf (ops.zip outs) <;> rfl

end
end Mpc.Props

/-! ### witnesses: the next state is the input, and the state has to stay within [-1, 1] -/

namespace Mpc.Props
open Mpc Exec NlSpec
open Mpc.Spec (within)

/-- the next state is the input -/
def copyModel : NlCall dN ℚ := .setStateSpaceFunction (fun _ u _ _ => u 0) 0 true

/-- bounds [-1, 1] of the states of a slice -/
def boxN (s : HorizonSlice) : NlCall dN ℚ := .setStateBoundsSlice (bvec 2 (-1)) (bvec 2 1) s

/-- the plan "input zero" from the state `x` -/
def zeroPlan (x : ℚ) : Plan dN ℚ := ⟨fun k _ => if k = 0 then x else 0, fun _ _ => 0, 0⟩

theorem zeroPlan_allowed (x : ℚ) {ops : List (NlCall dN ℚ)} {outs : List (NlOut ℚ)}
    (hm : ∀ F tol, last modelTolOf ops = some (F, tol) → F = (fun _ u _ _ => u 0) ∧ tol = 0) (hd : last samplingOf ops = none)
    (hi : last ineqConOf ops = none) (he : last eqConOf ops = none)
    (hs : ∀ k a, k < 3 → a < 2 → within (stateLimits ops outs k a).1 (stateLimits ops outs k a).2 0)
    (hu : ∀ j b, j < 2 → b < 1 → within (inputLimits ops outs j b).1 (inputLimits ops outs j b).2 0) :
    Allowed ops outs (nvec 2 fun _ => x).get (zeroPlan x) where
  start := fun _ => rfl
  blocked := fun _ _ _ _ => rfl
  states := fun k a => by
    simp only [zeroPlan, Fin.succ_ne_zero, if_false]
    exact hs k a k.2 a.2
  inputs := fun j b hj => hu j b hj b.2
  hard := rfl
  model := fun F tol h k a => by
    obtain ⟨rfl, rfl⟩ := hm F tol h
    rw [hd]
    simp [modelError, zeroPlan]
  ineq := fun F tol h => by rw [hi] at h; cases h
  eq := fun F tol h => by rw [he] at h; cases h

/-- warm start, the model, and bounds for the slice `s` -/
def setupN (s : HorizonSlice) : List (NlCall dN ℚ) := [warmN true, copyModel, boxN s]

theorem setupN_ran {s : HorizonSlice} (hs : s = HorizonSlice.all ∨ s = ⟨0, 1⟩) :
    ∃ m, NlRan dN false (setupN s) [.unit, .bool true, .bool true] m := by
  obtain ⟨outs, m, h⟩ := nlRan_exists (K := ℚ) (d := dN) (dyn := false) (ops := setupN s) dN_ok (by decide) (by decide)
    (fun _ => 0) (by
      rcases hs with rfl | rfl <;>
        simp [setupN, warmN, copyModel, boxN, CallFits, bvec, HorizonSlice.Int32, HorizonSlice.all])
    (fun p op q e => admFrom_split (pre := []) (by
      rcases hs with rfl | rfl <;>
        simp [setupN, AdmFrom, Admissible, warmN, copyModel, boxN, SliceUsable, HorizonSlice.all]) p op q e)
  have hl := h.len
  have ho := h.outOk
  rcases outs with _ | ⟨o1, _ | ⟨o2, _ | ⟨o3, _ | ⟨o4, os⟩⟩⟩⟩
  all_goals simp [setupN] at hl
  have h1 : OutOk dN (warmN true) o1 := ho (_, _) (List.mem_cons_self ..)
  have h2 : OutOk dN copyModel o2 := ho (_, _) (List.mem_cons_of_mem _ (List.mem_cons_self ..))
  have h3 : OutOk dN (boxN s) o3 := ho (_, _) (List.mem_cons_of_mem _ (List.mem_cons_of_mem _ (List.mem_cons_self ..)))
  obtain rfl : o1 = .unit := h1
  obtain rfl : o2 = .bool true := h2
  obtain ⟨b, rfl, hb⟩ := h3
  have : b = true := by
    rcases hs with rfl | rfl
    · exact hb
    · rw [if_neg (by decide)] at hb
      have hv : isSliceValid dN.ph ⟨0, 1⟩ = .ok true := by
        unfold isSliceValid addInt
        rw [if_neg (by decide), require_ok (by decide)]
        rfl
      rw [hv] at hb
      exact (Except.ok.inj hb).symm
  subst this
  exact ⟨m, h⟩

theorem setupN_limits (s : HorizonSlice) (k a : Nat) :
    stateLimits (setupN s) [.unit, .bool true, .bool true] k a
      = (if InSlice s k then (.fin (-1), .fin 1) else (.negInf, .posInf)) ∧
    inputLimits (setupN s) [.unit, .bool true, .bool true] k a = (.negInf, .posInf) := by
  constructor
  · simp only [stateLimits, setupN, warmN, copyModel, boxN, List.zip_cons_cons, List.zip_nil_right, last, stateBox, Option.none_or,
      Option.or_none, bvec]
    split_ifs <;> rfl
  · rfl

theorem setupN_usable {s : HorizonSlice} (hs : s = HorizonSlice.all ∨ s = ⟨0, 1⟩) : ∀ op ∈ setupN s, UsableCall op := by
  intro op h
  simp only [setupN, List.mem_cons, List.not_mem_nil, or_false] at h
  rcases h with rfl | rfl | rfl
  · trivial
  · trivial
  · rcases hs with rfl | rfl
    · exact .inl rfl
    · exact .inr (by decide)

theorem within_inf (v : ℚ) : within (Ext.negInf : Ext ℚ) .posInf v := ⟨trivial, trivial⟩

/-- C124 is violated: from the measured state 5 the input zero leads to a state within the bounds, and stays there, but the solver
is not started. -/
theorem c124_measured_violated : ¬ C124Claim ℚ := by
  intro hc
  obtain ⟨m, h⟩ := setupN_ran (s := HorizonSlice.all) (.inl rfl)
  obtain ⟨m', r, call, ha⟩ := h.asks (x0 := nvec 2 fun _ => 5) (u0 := nvec 1 fun _ => 0) (oc := .threw) rfl rfl
    (by rintro _ _ _ _ ⟨⟩) (by decide)
  have hk : ∀ q ∈ (setupN HorizonSlice.all).zip [.unit, .bool true, .bool true], KeepsBox (d := dN) (K := ℚ) q := by
    simp [setupN, warmN, copyModel, boxN, KeepsBox]
  have hu := setupN_usable (.inl rfl : HorizonSlice.all = HorizonSlice.all ∨ _)
  have hb := hc _ _ _ _ _ _ _ _ _ _ _ _ ha hu hk ⟨zeroPlan 5, zeroPlan_allowed 5
    (by
      intro F tol e
      simp only [setupN, warmN, copyModel, boxN, last, modelTolOf, Option.none_or, Option.or_none, Option.some.injEq,
        Prod.mk.injEq] at e
      exact ⟨e.1.symm, e.2.symm⟩) rfl rfl rfl
    (by
      intro k a _ _
      rw [(setupN_limits _ k a).1]
      split_ifs
      · exact ⟨(Ext.fin_le_fin _ _).2 (by norm_num), (Ext.fin_le_fin _ _).2 (by norm_num)⟩
      · exact within_inf _)
    (by
      intro j b _ _
      rw [(setupN_limits _ j b).2]
      exact within_inf _)⟩
  rw [c124_cold_partial ha hu hk (.inr rfl) (by
    intro b _
    simp [inScale, last, inScaleOf, setupN, warmN, copyModel, boxN])] at hb
  have := hb.1 0 0 (by decide) (by decide)
  rw [(setupN_limits _ 0 0).1, if_pos (.inl rfl)] at this
  have := (Ext.fin_le_fin _ _).1 this.2
  simp [nvec] at this

/-- an answer: states 0, 5, 5 with inputs 0, 5 -/
def zShift : Vec ℚ := ⟨9, fun p => if p = 2 ∨ p = 3 ∨ p = 4 ∨ p = 5 ∨ p = 7 then 5 else 0⟩

/-- the loop: one call, answered with `zShift` -/
def loopN (j : Nat → ℚ) : List (NlCall dN ℚ) :=
  [.optimize (nvec 2 fun _ => 0) (nvec 1 fun _ => 0) [] (.answered zShift (.fin 0) 1 false) j]

theorem one_warm : WarmStart (setupN ⟨0, 1⟩) = true := rfl

theorem setupN_scale (s : HorizonSlice) (b : Nat) : inScale (setupN s) b ≠ 0 := by
  simp [inScale, last, inScaleOf, setupN, warmN, copyModel, boxN]

theorem loopN_scale (s : HorizonSlice) (j) (b : Nat) : inScale (setupN s ++ loopN j) b ≠ 0 := by
  simp [inScale, last, inScaleOf, setupN, warmN, copyModel, boxN, loopN]

theorem zero_in {s : HorizonSlice} (k a : Nat) : within (stateLimits (setupN s) [.unit, .bool true, .bool true] k a).1
    (stateLimits (setupN s) [.unit, .bool true, .bool true] k a).2 0 := by
  rw [(setupN_limits s k a).1]
  split_ifs
  · exact ⟨(Ext.fin_le_fin _ _).2 (by norm_num), (Ext.fin_le_fin _ _).2 (by norm_num)⟩
  · exact within_inf _

/-- The first call of the loop is answered within the bounds; the second one is refused, although nothing has changed. -/
theorem shift_asked (x : ℚ) : ∃ j o m m' r call, NlAsked dN false (setupN ⟨0, 1⟩ ++ loopN j) ([.unit, .bool true, .bool true] ++ [o])
    (nvec 2 fun _ => x) (nvec 1 fun _ => 0) [] .threw m m' r call ∧
    (∀ q ∈ (setupN ⟨0, 1⟩ ++ loopN j).zip ([.unit, .bool true, .bool true] ++ [o]), KeepsBox q) ∧
    ¬ InBox call call.guess := by
  obtain ⟨m, h⟩ := setupN_ran (s := ⟨0, 1⟩) (.inr rfl)
  have hu := setupN_usable (.inr rfl : (⟨0, 1⟩ : HorizonSlice) = HorizonSlice.all ∨ _)
  obtain ⟨m', r, call, h1⟩ := h.asks (x0 := nvec 2 fun _ => 0) (u0 := nvec 1 fun _ => 0)
    (oc := .answered zShift (.fin 0) 1 false) rfl rfl (by rintro _ _ _ _ ⟨⟩; rfl) (by decide)
  obtain ⟨j, hfit, hstep⟩ := h1.ask
  have h2 : NlRan dN false (setupN ⟨0, 1⟩ ++ loopN j) ([.unit, .bool true, .bool true] ++ [.result r call]) m' :=
    h.snoc hfit hstep
  obtain ⟨m2, r2, call2, h3⟩ := h2.asks (x0 := nvec 2 fun _ => x) (u0 := nvec 1 fun _ => 0) (oc := .threw) rfl rfl
    (by rintro _ _ _ _ ⟨⟩) (by decide)
  have hk0 : ∀ q ∈ (setupN ⟨0, 1⟩).zip [.unit, .bool true, .bool true], KeepsBox (d := dN) (K := ℚ) q := by
    simp [setupN, warmN, copyModel, boxN, KeepsBox]
  have hin : InBox call call.guess := by
    rw [c124_cold_partial h1 hu hk0 (.inr rfl) (fun b _ => setupN_scale _ b)]
    exact ⟨fun k a _ _ => zero_in k a, fun k b _ _ => by rw [(setupN_limits _ k b).2]; exact within_inf _⟩
  have hz : InBox call zShift := by
    rw [inBox_iff h1 hu rfl]
    refine ⟨fun k a hk ha => ?_, fun k b _ _ => by rw [(setupN_limits _ k b).2]; exact within_inf _, by rfl⟩
    by_cases h0 : k = 0
    · subst h0
      have : zShift.get (stateIx dN 0 a) = 0 := by
        have : a = 0 ∨ a = 1 := by
          have : a < 2 := ha
          omega
        rcases this with rfl | rfl <;> rfl
      rw [this]
      exact zero_in 0 a
    · rw [(setupN_limits _ k a).1, if_neg (by
        rintro (h | ⟨-, h⟩)
        · cases h
        · exact h0 (by
            have : (k : Int) < 1 := h
            omega))]
      exact within_inf _
  have hk : ∀ q ∈ (setupN ⟨0, 1⟩ ++ loopN j).zip ([.unit, .bool true, .bool true] ++ [.result r call]), KeepsBox q := by
    rw [List.zip_append (by rfl)]
    intro q hq
    rcases List.mem_append.1 hq with hq | hq
    · exact hk0 q hq
    · obtain rfl := List.mem_singleton.1 hq
      exact ⟨fun hn => absurd hin hn, by rintro _ _ _ _ ⟨⟩; exact hz⟩
  refine ⟨j, _, m', m2, r2, call2, h3, hk, ?_⟩
  have hu' : ∀ op ∈ setupN ⟨0, 1⟩ ++ loopN j, UsableCall op := by
    intro op ho
    rcases List.mem_append.1 ho with ho | ho
    · exact hu op ho
    · obtain rfl := List.mem_singleton.1 ho
      trivial
  rw [c124_warm_partial h3 hu' hk (mid := []) (pre := setupN ⟨0, 1⟩) (z := zShift) rfl (by simp) rfl
    (fun b _ => loopN_scale _ j b)]
  intro hs
  have := hs.1 0 0 (by decide) (by decide)
  rw [(limits_keep (louts := [.result r call]) (by rfl) (by
    intro op ho
    obtain rfl := List.mem_singleton.1 ho
    rfl)).1, (setupN_limits _ 0 0).1, if_pos (by decide)] at this
  have := (Ext.fin_le_fin _ _).1 this.2
  simp [stateIx, zShift] at this

/-- C124 is violated in a loop: the state of the first step is bounded, those of later steps are not. The answer goes out of the
bounds after the first step, so that shifted by one step it is outside, and the second call of the loop does not start. -/
theorem c124_shift_violated : ¬ C124LoopClaim ℚ := by
  intro hc
  obtain ⟨j, o, m, m', r, call, h, hk, hn⟩ := shift_asked 0
  have hl := limits_keep (d := dN) (ops := setupN ⟨0, 1⟩) (outs := [.unit, .bool true, .bool true]) (loop := loopN j) (louts := [o])
    (by rfl) (by
      intro op ho
      obtain rfl := List.mem_singleton.1 ho
      rfl)
  refine hn (hc _ _ _ _ _ _ _ _ _ _ _ _ _ _ h rfl (setupN_usable (.inr rfl)) hk rfl rfl (fun b _ => setupN_scale _ b) ?_
    ⟨zeroPlan 0, zeroPlan_allowed 0 ?_ rfl rfl rfl ?_ ?_⟩ (by intro e; cases e))
  · intro op ho
    obtain rfl := List.mem_singleton.1 ho
    rfl
  · intro F tol e
    simp only [setupN, loopN, List.cons_append, List.nil_append, warmN, copyModel, boxN, last, modelTolOf, Option.none_or,
      Option.or_none, Option.some.injEq, Prod.mk.injEq] at e
    exact ⟨e.1.symm, e.2.symm⟩
  · intro k a _ _
    rw [hl.1]
    exact zero_in k a
  · intro k b _ _
    rw [hl.2, (setupN_limits _ k b).2]
    exact within_inf _

/-- non-vacuity of `c124_refused_forever`: the loop above meets its hypotheses, so that from its second call on it fails for ever,
here in the two calls after the refused one, from whatever state -/
example (x y : ℚ) : ∃ ops outs m m' r call, NlAsked dN false ops outs (nvec 2 fun _ => x) (nvec 1 fun _ => 0) [] .threw m m' r call ∧
    WarmStart ops = true ∧ (last solutionOf ops).isSome = true ∧ ¬ InBox call call.guess ∧
    ∃ more mouts n n' r' call', NlAsked dN false (ops ++ more) (outs ++ mouts) (nvec 2 fun _ => y) (nvec 1 fun _ => 0) [] .threw
      n n' r' call' ∧ more.length = 1 ∧ r'.status = .ERROR := by
  obtain ⟨j, o, m, m', r, call, h, hk, hn⟩ := shift_asked x
  obtain ⟨j', hfit, hstep⟩ := h.ask
  have h2 := h.toNlRan.snoc hfit hstep
  obtain ⟨m2, r2, call2, h3⟩ := h2.asks (x0 := nvec 2 fun _ => y) (u0 := nvec 1 fun _ => 0) (oc := .threw) rfl rfl
    (by rintro _ _ _ _ ⟨⟩) (by decide)
  exact ⟨_, _, m, m', r, call, h, rfl, rfl, hn, _, _, _, m2, r2, call2, h3, rfl,
    (c124_refused_forever h rfl rfl hn h3 (by intro op ho; obtain rfl := List.mem_singleton.1 ho; rfl)
      (by intro q hq; obtain rfl := List.mem_singleton.1 hq; exact fun _ => rfl) (fun _ => rfl)).2.2.1⟩

/-- non-vacuity of `c124_loop_partial`: with the bounds for all steps the limits are nested, and zero is within them -/
example : LimitsNested dN (setupN HorizonSlice.all) [.unit, .bool true, .bool true] ∧
    InLimits dN (setupN HorizonSlice.all) [.unit, .bool true, .bool true] (nvec 2 fun _ => 0).get (nvec 1 fun _ => 7).get ∧
    ∃ m m' r call, NlAsked dN false (setupN HorizonSlice.all ++ []) ([.unit, .bool true, .bool true] ++ []) (nvec 2 fun _ => 0)
      (nvec 1 fun _ => 7) [] .threw m m' r call := by
  refine ⟨⟨fun k a v _ _ h => ?_, fun k a v _ _ h => ?_⟩, ⟨fun k a _ _ => zero_in k a, fun k b _ _ => ?_⟩, ?_⟩
  · rw [(setupN_limits _ k a).1, if_pos (.inl rfl)]
    rwa [(setupN_limits _ (k + 1) a).1, if_pos (.inl rfl)] at h
  · rw [(setupN_limits _ k a).2]
    exact within_inf _
  · rw [(setupN_limits _ k b).2]
    exact within_inf _
  · obtain ⟨m, h⟩ := setupN_ran (s := HorizonSlice.all) (.inl rfl)
    obtain ⟨m', r, call, ha⟩ := h.asks (x0 := nvec 2 fun _ => 0) (u0 := nvec 1 fun _ => 7) (oc := .threw) rfl rfl
      (by rintro _ _ _ _ ⟨⟩) (by decide)
    exact ⟨m, m', r, call, ha⟩

end Mpc.Props
