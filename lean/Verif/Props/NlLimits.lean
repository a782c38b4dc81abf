import Verif.Props.NlBounds

/-
C45, C46 and the nonlinear parts of C16 and C50: soft constraints, limits of the solver, accepted slices, unsupported setters.
-/
namespace Mpc.Props
open Mpc Exec
set_option linter.unusedSectionVars false

section
variable {d : Dims} {K : Type} [Field K] [LinearOrder K] [IsStrictOrderedRing K]
variable {dyn : Bool} {ops : List (NlCall d K)} {outs : List (NlOut K)} {m m' : NlMpc d K} {x0 u0 : Vec K}
  {cs : List (NlCallback K)} {oc : NlOutcome K} {r : LResult K} {call : NlSolverCall K}

/-! ### C45 -/

/-- C45 as claimed: after any history whose last parameters are `p`, the slack is fixed at zero if `p.hard_constraints`, and
may be positive otherwise. -/
def C45Claim (K : Type) [Field K] [LinearOrder K] [IsStrictOrderedRing K] : Prop :=
  ∀ (d : Dims) dyn (ops : List (NlCall d K)) outs x0 u0 cs oc m m' r call,
    NlAsked d dyn ops outs x0 u0 cs oc m m' r call → (∀ op ∈ ops, NlSpec.UsableCall op) →
    ∀ p, NlSpec.last NlSpec.paramsOf ops = some p →
      (p.hard_constraints = true →
        call.lb.get (NlSpec.slackIx d) = .fin 0 ∧ call.ub.get (NlSpec.slackIx d) = .fin 0) ∧
      (p.hard_constraints = false → ∃ t : K, 0 < t ∧ Ext.fin t ≤ call.ub.get (NlSpec.slackIx d))

theorem fold_slack (hp : d.ph < 2 ^ 31) (hle : d.ch ≤ d.ph) (hm : d.nZ ≤ 2 ^ 64) (l : List (NlCall d K × NlOut K)) :
    ∀ c : NlCtl d K, (c.lo (NlSpec.slackIx d), c.up (NlSpec.slackIx d)) = (.fin 0, .fin 0) →
    (∀ q ∈ l, OutOk d q.1 q.2 ∧ NlSpec.UsableCall q.1) →
    ((l.foldl (fun c q => c.step q.2.refused q.1) c).lo (NlSpec.slackIx d),
      (l.foldl (fun c q => c.step q.2.refused q.1) c).up (NlSpec.slackIx d)) = (.fin 0, .fin 0) := by
  induction l with
  | nil => intro c hc _; exact hc
  | cons q l ih =>
    intro c hc hq
    have h1 := hq q (by simp)
    exact ih _ (slack_box_step hp hle hm c q.1 q.2 h1.1 h1.2 hc) (fun q hq' => hq q (by simp [hq']))

/-- C45, partial: when the last parameters ask for hard constraints the slack is fixed at zero, whatever was called before
and whatever bounds are set afterwards (without negative slices, see C44); all other boxes are those of the bound setters
(C44). Missing: soft constraints, which cannot be switched on (`c45_soft_violated`). -/
theorem c45_hard_partial (h : NlAsked d dyn ops outs x0 u0 cs oc m m' r call) {pre post : List (NlCall d K)} {p : NlParams K}
    (he : ops = pre ++ .setOptimizerParameters (.nonlinear p) :: post) (hh : p.hard_constraints = true)
    (hu : ∀ op ∈ post, NlSpec.UsableCall op) :
    call.lb.get (NlSpec.slackIx d) = .fin 0 ∧ call.ub.get (NlSpec.slackIx d) = .fin 0 := by
  obtain ⟨-, -, hg, -⟩ := h.known
  have hl := h.toNlRan.len
  have hok := h.toNlRan.outOk
  rw [hg.lb, hg.ub]
  subst he
  obtain ⟨o1, o2, rfl, hl1⟩ : ∃ o1 o2, outs = o1 ++ o2 ∧ o1.length = pre.length :=
    ⟨outs.take pre.length, outs.drop pre.length, (List.take_append_drop _ _).symm, by simp at hl ⊢; omega⟩
  cases o2 with
  | nil => simp at hl; omega
  | cons o o2 =>
    have := fold_slack h.hor.ph_int h.hor.ch_le h.mem (post.zip o2)
      ((NlCtl.after d pre o1).step o.refused (.setOptimizerParameters (.nonlinear p)))
      (by simp [NlCtl.step, hh]) (by
        intro q hq
        refine ⟨hok q ?_, hu _ (List.of_mem_zip hq).1⟩
        rw [List.zip_append hl1.symm, List.zip_cons_cons]
        simp [hq])
    have e : NlCtl.after d (pre ++ .setOptimizerParameters (.nonlinear p) :: post) (o1 ++ o :: o2)
        = (post.zip o2).foldl (fun c q => c.step q.2.refused q.1)
          ((NlCtl.after d pre o1).step o.refused (.setOptimizerParameters (.nonlinear p))) := by
      unfold NlCtl.after
      rw [List.zip_append hl1.symm, List.zip_cons_cons, List.foldl_append, List.foldl_cons]
    rw [e]
    exact ⟨congrArg Prod.fst this, congrArg Prod.snd this⟩

/-- C45, what happens with soft constraints: the slack stays fixed at zero, after every history. -/
theorem c45_never_released_partial (h : NlAsked d dyn ops outs x0 u0 cs oc m m' r call)
    (hu : ∀ op ∈ ops, NlSpec.UsableCall op) {t : K} :
    (call.lb.get (NlSpec.slackIx d) ≤ Ext.fin t ∧ Ext.fin t ≤ call.ub.get (NlSpec.slackIx d)) ↔ t = 0 := by
  obtain ⟨h1, h2⟩ := c44_slack_partial h hu
  rw [h1, h2]
  simp only [Ext.fin_le_fin]
  exact ⟨fun h => le_antisymm h.2 h.1, by rintro rfl; exact ⟨le_rfl, le_rfl⟩⟩

/-! ### C46 -/

/-- the limits which parameters `p` ask for; a time limit which is not positive means none -/
def limitsOf (p : NlParams K) : NlLimits K where
  ftolRel := p.relative_ftol
  xtolRel := p.relative_xtol
  ftolAbs := p.absolute_ftol
  xtolAbs := p.absolute_xtol
  maxtime := if 0 < p.time_limit then p.time_limit else 0
  maxeval := p.maximum_iteration

/-- C46 as claimed -/
def C46Claim (K : Type) [Field K] [LinearOrder K] [IsStrictOrderedRing K] : Prop :=
  ∀ (d : Dims) dyn (ops : List (NlCall d K)) outs x0 u0 cs oc m m' r call,
    NlAsked d dyn ops outs x0 u0 cs oc m m' r call →
    call.limits = limitsOf ((NlSpec.last NlSpec.paramsOf ops).getD {})

/-- C46, partial: after any history all limits but the time limit are those of the last parameters (the default ones before
the first), and the time limit is the last *positive* one. Missing: a time limit cannot be removed again. -/
theorem c46_limits_partial (h : NlAsked d dyn ops outs x0 u0 cs oc m m' r call) :
    call.limits = { limitsOf ((NlSpec.last NlSpec.paramsOf ops).getD {}) with
      maxtime := (NlSpec.last NlSpec.timeLimitOf ops).getD 0 } := by
  obtain ⟨-, -, hg, -⟩ := h.known
  have hl := h.toNlRan.len
  rw [hg.lim]
  have ht : (NlCtl.after d ops outs).lim.maxtime = (NlSpec.last NlSpec.timeLimitOf ops).getD 0 :=
    after_last (fun c => c.lim.maxtime) NlSpec.timeLimitOf (fun c b op => by
      cases op with
      | setOptimizerParameters p =>
        cases p with
        | other => rfl
        | nonlinear p =>
          simp only [NlCtl.step, NlSpec.timeLimitOf, NlOpt.setLimits, gt_iff_lt]
          split_ifs <;> rfl
      | setStateBoundsSlice l u s => cases b <;> rfl
      | setInputBoundsSlice l u s => cases b <;> rfl
      | optimize x0 u0 cs oc j => rcases oc with _ | ⟨z, v, k, _ | _⟩ <;> rfl
      | _ => rfl) hl
  have ho : ({ (NlCtl.after d ops outs).lim with maxtime := 0 } : NlLimits K)
      = ((NlSpec.last (fun op => (NlSpec.paramsOf op).map fun p => { limitsOf p with maxtime := 0 }) ops).getD
        { limitsOf ({} : NlParams K) with maxtime := 0 }) :=
    after_last (fun c => ({ c.lim with maxtime := 0 } : NlLimits K))
      (fun op => (NlSpec.paramsOf op).map fun p => { limitsOf p with maxtime := 0 })
      (fun c b op => by call_cases op b) hl
  rw [last_map] at ho
  have e : ({ (NlCtl.after d ops outs).lim with maxtime := 0 } : NlLimits K)
      = { limitsOf ((NlSpec.last NlSpec.paramsOf ops).getD {}) with maxtime := 0 } := by
    rw [ho]
    cases NlSpec.last NlSpec.paramsOf ops <;> rfl
  rw [← ht]
  generalize (NlCtl.after d ops outs).lim = a at e ⊢
  cases a
  simp only [NlLimits.mk.injEq] at e ⊢
  tauto

theorem last_none {β α : Type} {f : β → Option α} {l : List β} (h : ∀ b ∈ l, f b = none) : NlSpec.last f l = none := by
  induction l with
  | nil => rfl
  | cons a l ih => rw [NlSpec.last, ih (fun o ho => h o (by simp [ho])), h a (by simp)]; rfl

theorem last_split {β α : Type} {f : β → Option α} {pre : List β} (b : β) {post : List β} (h : ∀ c ∈ post, f c = none) :
    NlSpec.last f (pre ++ b :: post) = (f b).or (NlSpec.last f pre) := by
  rw [NlSpec.last_append, NlSpec.last, last_none h, Option.none_or]

theorem last_mem {β α : Type} {f : β → Option α} {l : List β} {a : α} (h : NlSpec.last f l = some a) :
    ∃ b ∈ l, f b = some a := by
  induction l with
  | nil => cases h
  | cons b l ih =>
    rw [NlSpec.last, Option.or_eq_some_iff] at h
    rcases h with h | ⟨-, h⟩
    · obtain ⟨c, hc, hc'⟩ := ih h
      exact ⟨c, by simp [hc], hc'⟩
    · exact ⟨b, by simp, h⟩

theorem timeLimit_none {op : NlCall d K} (h : NlSpec.paramsOf op = none) : NlSpec.timeLimitOf op = none := by
  cases op with
  | setOptimizerParameters p => cases p <;> first | rfl | cases h
  | _ => rfl

/-- C46 in full when the last parameters set a positive time limit. -/
theorem c46_positive_time_partial (h : NlAsked d dyn ops outs x0 u0 cs oc m m' r call) {pre post : List (NlCall d K)}
    {p : NlParams K} (he : ops = pre ++ .setOptimizerParameters (.nonlinear p) :: post)
    (hn : ∀ op ∈ post, NlSpec.paramsOf op = none) (hp : 0 < p.time_limit) : call.limits = limitsOf p := by
  have h1 : NlSpec.last NlSpec.paramsOf ops = some p := by rw [he, last_split _ hn]; rfl
  have h2 : NlSpec.last NlSpec.timeLimitOf ops = some p.time_limit := by
    rw [he, last_split _ (fun op ho => timeLimit_none (hn op ho))]
    simp [NlSpec.timeLimitOf, hp]
  rw [c46_limits_partial h, h1, h2]
  simp [limitsOf, hp]

/-- C46 in full when no time limit was ever set. -/
theorem c46_no_time_limit_partial (h : NlAsked d dyn ops outs x0 u0 cs oc m m' r call)
    (hn : ∀ p, .setOptimizerParameters (.nonlinear p) ∈ ops → p.time_limit ≤ 0) :
    call.limits = limitsOf ((NlSpec.last NlSpec.paramsOf ops).getD {}) := by
  rw [c46_limits_partial h, last_none (f := NlSpec.timeLimitOf)]
  · have : ¬ 0 < ((NlSpec.last NlSpec.paramsOf ops).getD {}).time_limit := by
      cases hl : NlSpec.last NlSpec.paramsOf ops with
      | none => simp
      | some p =>
        obtain ⟨op, ho, hp⟩ := last_mem hl
        cases op with
        | setOptimizerParameters q =>
          cases q with
          | other => cases hp
          | nonlinear q => cases hp; exact not_lt.2 (hn _ ho)
        | _ => cases hp
    simp [limitsOf, this]
  · intro op ho
    cases op with
    | setOptimizerParameters q =>
      cases q with
      | other => rfl
      | nonlinear q => exact if_neg (not_lt.2 (hn q ho))
    | _ => rfl

/-! ### C16: slices of the nonlinear controller -/

/-- horizon of a slice setter of the nonlinear controller and its slice -/
def nlSlice (d : Dims) : NlCall d K → Option (Nat × HorizonSlice)
  | .setStateBoundsSlice _ _ s => some (d.ph, s)
  | .setInputBoundsSlice _ _ s => some (d.ch, s)
  | _ => none

/-- C16 for the nonlinear controller, as claimed -/
def C16NlClaim (K : Type) [Field K] [LinearOrder K] [IsStrictOrderedRing K] : Prop :=
  ∀ (d : Dims) dyn (ops : List (NlCall d K)) outs (m m' : NlMpc d K) op h s b, NlRan d dyn ops outs m →
    NlSpec.CallFits d op → nlSlice d op = some (h, s) → m.step op = .ok (m', .bool b) →
    (b = true ↔ s = HorizonSlice.all ∨ (0 ≤ s.start ∧ s.start < s.stop ∧ s.stop ≤ (h : Int)))

/-- C16, nonlinear controller, partial: for the whole horizon and slices with a non-negative start, the setter succeeds
without a fault and accepts exactly `{-1,-1}` and the slices with `start < stop` and `start + stop <= h`.
Missing: as for the linear controller. -/
theorem c16_nonlinear_partial (h : NlRan d dyn ops outs m) (hp : d.ph < 2 ^ 30) {op : NlCall d K}
    (hf : NlSpec.CallFits d op) {hor : Nat} {s : HorizonSlice} (hs : nlSlice d op = some (hor, s))
    (hu : NlSpec.SliceUsable s) :
    ∃ m' b, m.step op = .ok (m', .bool b) ∧
      (b = true ↔ s = HorizonSlice.all ∨ (s.start < s.stop ∧ s.start + s.stop ≤ (hor : Int))) ∧
      (b = true → s = HorizonSlice.all ∨ (0 ≤ s.start ∧ s.start < s.stop ∧ s.stop ≤ (hor : Int))) ∧
      (b = false → m' = m) := by
  obtain ⟨ha, -, -⟩ := h.agrees
  have hle := h.hor.ch_le
  have key : ∀ (hh : hor < 2 ^ 30) (o : NlOut K), SliceOut hor s o → ∃ b, o = .bool b ∧
      (b = true ↔ s = HorizonSlice.all ∨ (s.start < s.stop ∧ s.start + s.stop ≤ (hor : Int))) ∧
      (b = true → s = HorizonSlice.all ∨ (0 ≤ s.start ∧ s.start < s.stop ∧ s.stop ≤ (hor : Int))) := by
    intro hh o ho
    obtain ⟨b, rfl, hb⟩ := id ho
    refine ⟨b, rfl, ?_, ?_⟩
    · by_cases h1 : isSliceUnset s = true
      · rw [if_pos h1] at hb
        subst hb
        simp [isSliceUnset_iff.1 h1]
      · rw [if_neg h1] at hb
        have hna : s ≠ HorizonSlice.all := fun hc => h1 (isSliceUnset_iff.2 hc)
        have h0 : 0 ≤ s.start := hu.resolve_left hna
        constructor
        · rintro rfl
          have := isSliceValid_true hb
          exact .inr ⟨this.1, this.2.2.2⟩
        · rintro (hc | ⟨g1, g2⟩)
          · exact absurd hc hna
          · unfold isSliceValid addInt at hb
            rw [if_neg (by omega), require_ok (by constructor <;> omega), ok_bind] at hb
            simp only [pure_bind'] at hb
            rw [if_neg (by omega)] at hb
            cases hb
            rfl
    · rintro rfl
      exact SliceOut.inside ho hu
  have htot : ∃ r, m.step op = .ok r := by
    refine NlMpc.step_total ha hp op hf ?_
    cases op <;> simp only [nlSlice, reduceCtorEq, Option.some.injEq, Prod.mk.injEq] at hs
    all_goals (obtain ⟨rfl, rfl⟩ := hs; exact hu)
  obtain ⟨⟨m', o⟩, hr⟩ := htot
  have ho := NlMpc.step_out ha h.hor.ph_int h.mem op hf hr
  cases op with
  | setStateBoundsSlice l u t =>
    simp only [nlSlice, Option.some.injEq, Prod.mk.injEq] at hs
    obtain ⟨rfl, rfl⟩ := hs
    obtain ⟨b, rfl, h1, h2⟩ := key hp o ho
    refine ⟨m', b, hr, h1, h2, ?_⟩
    rintro rfl
    simp only [NlMpc.step] at hr
    obtain ⟨b, e, -, h3, -⟩ := NlMpc.sliceBounds_agrees ha (fun _ => rfl) hr
    cases e
    simpa using h3
  | setInputBoundsSlice l u t =>
    simp only [nlSlice, Option.some.injEq, Prod.mk.injEq] at hs
    obtain ⟨rfl, rfl⟩ := hs
    obtain ⟨b, rfl, h1, h2⟩ := key (by omega) o ho
    refine ⟨m', b, hr, h1, h2, ?_⟩
    rintro rfl
    simp only [NlMpc.step] at hr
    obtain ⟨b, e, -, h3, -⟩ := NlMpc.sliceBounds_agrees ha (fun _ => rfl) hr
    cases e
    simpa using h3
  | _ => cases hs

/-! ### C50: unsupported setters -/

/-- C50, nonlinear controller: both overloads of `setOutputBounds` throw, after any history and for any argument, and the
controller is left exactly as it was. -/
theorem c50_nonlinear_output_bounds (_ : NlRan d dyn ops outs m) (mn mx : Mat (Ext K)) (l u : Vec (Ext K)) (s : HorizonSlice) :
    m.step (.setOutputBounds mn mx) = .ok (m, .threw) ∧ m.step (.setOutputBoundsSlice l u s) = .ok (m, .threw) := ⟨rfl, rfl⟩

/-- C50, nonlinear controller: no other call throws. -/
theorem c50_nonlinear_only_output_bounds (h : NlRan d dyn ops outs m) {op : NlCall d K} (hf : NlSpec.CallFits d op)
    (hr : m.step op = .ok (m', .threw)) :
    (∃ mn mx, op = .setOutputBounds mn mx) ∨ ∃ l u s, op = .setOutputBoundsSlice l u s := by
  have ho := NlMpc.step_out h.agrees.1 h.hor.ph_int h.mem op hf hr
  cases op with
  | setOutputBounds mn mx => exact .inl ⟨mn, mx, rfl⟩
  | setOutputBoundsSlice l u s => exact .inr ⟨l, u, s, rfl⟩
  | setStateBoundsSlice l u s => obtain ⟨b, hb, -⟩ := ho; cases hb
  | setInputBoundsSlice l u s => obtain ⟨b, hb, -⟩ := ho; cases hb
  | optimize x0 u0 cs oc j => obtain ⟨_, _, hb⟩ := ho; cases hb
  | _ => cases ho

end

/-! ### witnesses -/

/-- a history of parameter calls on the sample dimensions -/
theorem params_asked (l : List (NlParams ℚ)) : ∃ outs m m' r call,
    NlAsked dN false (l.map fun p => NlCall.setOptimizerParameters (.nonlinear p)) outs (nvec 2 fun _ => 0)
      (nvec 1 fun _ => 0) [] .threw m m' r call := by
  obtain ⟨outs, m, h⟩ := nlRan_exists (K := ℚ) (d := dN) (dyn := false)
    (ops := l.map fun p => NlCall.setOptimizerParameters (.nonlinear p)) dN_ok (by decide) (by decide)
    (fun _ => 0) (by
      intro op ho
      obtain ⟨p, -, rfl⟩ := List.mem_map.1 ho
      trivial) (by
      intro p op q e
      have : op ∈ l.map fun p => (NlCall.setOptimizerParameters (.nonlinear p) : NlCall dN ℚ) := by rw [e]; simp
      obtain ⟨p, -, rfl⟩ := List.mem_map.1 this
      exact ⟨p, rfl⟩)
  obtain ⟨m', r, call, h'⟩ := h.asks (x0 := nvec 2 fun _ => 0) (u0 := nvec 1 fun _ => 0) (oc := .threw) rfl rfl
    (by simp) (by decide)
  exact ⟨outs, m, m', r, call, h'⟩

theorem params_usable (l : List (NlParams ℚ)) :
    ∀ op ∈ (l.map fun p => (NlCall.setOptimizerParameters (.nonlinear p) : NlCall dN ℚ)), NlSpec.UsableCall op := by
  intro op ho
  obtain ⟨p, -, rfl⟩ := List.mem_map.1 ho
  trivial

/-- C45 is violated: with `hard_constraints = false` the slack is still fixed at zero. -/
theorem c45_soft_violated : ¬ C45Claim ℚ := by
  intro hc
  obtain ⟨outs, m, m', r, call, h⟩ := params_asked [{ hard_constraints := false }]
  obtain ⟨t, ht, hle⟩ := (hc _ _ _ _ _ _ _ _ _ _ _ _ h (params_usable _) _ rfl).2 rfl
  rw [(c44_slack_partial h (params_usable _)).2, Ext.fin_le_fin] at hle
  exact absurd hle (not_le.2 ht)

/-- C46 is violated: a time limit is not removed by parameters without one. -/
theorem c46_time_limit_violated : ¬ C46Claim ℚ := by
  intro hc
  obtain ⟨outs, m, m', r, call, h⟩ := params_asked [{ time_limit := 2 }, { time_limit := 0 }]
  have h1 := hc _ _ _ _ _ _ _ _ _ _ _ _ h
  have h2 := c46_limits_partial h
  rw [h1] at h2
  have := congrArg NlLimits.maxtime h2
  simp [limitsOf, NlSpec.last, NlSpec.paramsOf, NlSpec.timeLimitOf] at this

/-- C16 is violated for the nonlinear controller as well: with control horizon 2 the slice {1,2} is refused. -/
theorem c16_nonlinear_violated : ¬ C16NlClaim ℚ := by
  intro hc
  obtain ⟨outs, m, m', r, call, h⟩ := params_asked []
  have hf : NlSpec.CallFits dN (.setInputBoundsSlice (bvec 1 0) (bvec 1 1) ⟨1, 2⟩) := ⟨rfl, rfl, by simp [HorizonSlice.Int32]⟩
  obtain ⟨m2, b, h1, h2, -⟩ := c16_nonlinear_partial h.toNlRan (by decide) hf rfl (.inr (by decide))
  have := hc _ _ _ _ _ _ _ _ _ _ h.toNlRan hf rfl h1
  rw [h2] at this
  simp [HorizonSlice.all] at this

/-- non-vacuity: hard constraints, a positive last time limit, a history without time limits -/
example : ∃ outs m m' r call, NlAsked dN false
    ([{ time_limit := 0 }, { time_limit := 3, maximum_iteration := 7 }].map fun p => NlCall.setOptimizerParameters (.nonlinear p))
    outs (nvec 2 fun _ => 0) (nvec 1 fun _ => 0) [] .threw m m' r call := params_asked _

example : nlSlice dN (.setStateBoundsSlice (bvec 2 0) (bvec 2 1) ⟨1, 2⟩ : NlCall dN ℚ) = some (3, ⟨1, 2⟩) ∧
    NlSpec.CallFits dN (.setStateBoundsSlice (bvec 2 0) (bvec 2 1) ⟨1, 2⟩) ∧ NlSpec.SliceUsable ⟨1, 2⟩ :=
  ⟨rfl, ⟨rfl, rfl, by simp [HorizonSlice.Int32]⟩, .inr (by decide)⟩

end Mpc.Props
