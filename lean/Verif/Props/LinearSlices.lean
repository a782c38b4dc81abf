import Verif.Props.LinearConfig

/-
C15 - C17: slices of the horizon.
-/
namespace Mpc.Props
open Mpc.Spec
set_option linter.unusedSectionVars false

variable {K : Type} [Field K] [DecidableEq K] [LinearOrder K] [IsStrictOrderedRing K]
variable {d : Dims} {ops ops' : List (LOp K)} {outs outs' : List (LOut K)} {x0 u0 : Vec K} {oc oc' : OsqpOutcome K}
  {m m' m1 m1' : LMpc K} {r r' : LResult K} {call call' : OsqpCall K}

/-- The steps addressed by a slice: all for `{-1,-1}`, otherwise `start <= k < stop`. -/
def InSlice (s : HorizonSlice) (k : Nat) : Prop := s = HorizonSlice.all ∨ (s.start ≤ (k : Int) ∧ (k : Int) < s.stop)

instance (s : HorizonSlice) (k : Nat) : Decidable (InSlice s k) := by unfold InSlice; infer_instance

theorem covers_iff {s : HorizonSlice} {k : Nat} : covers s k = true ↔ InSlice s k := by
  obtain ⟨a, b⟩ := s
  simp [covers, InSlice, HorizonSlice.all]

theorem upd_covers {α : Type} (s : HorizonSlice) (v old : Nat → α) (k : Nat) :
    upd (covers s) v old k = if InSlice s k then v k else old k := by
  unfold upd
  by_cases h : InSlice s k
  · rw [if_pos h, if_pos (covers_iff.2 h)]
  · rw [if_neg h, if_neg (fun hc => h (covers_iff.1 hc))]

theorem snoc_length {op : LOp K} {o : LOut K} (h : Configured d (ops ++ [op]) (outs ++ [o]) m) :
    outs.length = ops.length := by
  have := configured_length h
  simp only [List.length_append, List.length_singleton] at this
  omega

/-- A configuration after one more accepted call. -/
theorem configOf_accepted_snoc {op : LOp K} (h : Configured d (ops ++ [op]) (outs ++ [.bool true]) m) :
    configOf (ops ++ [op]) (outs ++ [.bool true]) = (configOf ops outs).apply op := by
  rw [configOf_snoc (snoc_length h)]; rfl

/-! ### C15 -/

/-- C15. A call which returns false changes nothing. -/
theorem c15_refused {op : LOp K} (h : Asked d ops outs x0 u0 oc m m' r call)
    (h' : Asked d (ops ++ [op]) (outs ++ [.bool false]) x0 u0 oc' m1 m1' r' call') : SameProblem call call' := by
  refine c11_problem_of_configuration h h' ?_
  rw [configOf_snoc (snoc_length h'.toConfigured)]
  constructor <;> intros <;> rfl

/-- C15 for state bounds: after an accepted slice call the limits of `x_{k+1}` (API step `k`) are the new ones on the
addressed steps and unchanged on the others. -/
theorem c15_state_bounds {mn mx : Vec (Ext K)} {s : HorizonSlice} (h : Asked d ops outs x0 u0 oc m m' r call)
    (h' : Asked d (ops ++ [.setStateBoundsSlice mn mx s]) (outs ++ [.bool true]) x0 u0 oc' m1 m1' r' call')
    {k a : Nat} (hk : k < d.ph) (ha : a < d.nx) :
    let ρ := boundRow d + (k + 1) * (d.nx + d.nu) + a
    call'.l.get ρ = (if InSlice s k then mn.get a else call.l.get ρ) ∧
    call'.u.get ρ = (if InSlice s k then mx.get a else call.u.get ρ) := by
  intro ρ
  obtain ⟨st, obj, sol, -, hs⟩ := asked_solved h
  obtain ⟨st', obj', sol', -, hs'⟩ := asked_solved h'
  rw [(hs.state_bounds (show k + 1 ≤ d.ph by omega) ha).1, (hs.state_bounds (show k + 1 ≤ d.ph by omega) ha).2,
    (hs'.state_bounds (show k + 1 ≤ d.ph by omega) ha).1, (hs'.state_bounds (show k + 1 ≤ d.ph by omega) ha).2,
    configOf_accepted_snoc h'.toConfigured]
  simp only [LinConfig.apply, upd_covers, Nat.add_sub_cancel]
  constructor <;> split_ifs <;> rfl

/-- C15 for input bounds (the limits of API step `k` are in row `k`, see C05). -/
theorem c15_input_bounds {mn mx : Vec (Ext K)} {s : HorizonSlice} (h : Asked d ops outs x0 u0 oc m m' r call)
    (h' : Asked d (ops ++ [.setInputBoundsSlice mn mx s]) (outs ++ [.bool true]) x0 u0 oc' m1 m1' r' call')
    {k a : Nat} (hk : k < d.ph) (ha : a < d.nu) :
    let ρ := boundRow d + k * (d.nx + d.nu) + d.nx + a
    call'.l.get ρ = (if InSlice s k then mn.get a else call.l.get ρ) ∧
    call'.u.get ρ = (if InSlice s k then mx.get a else call.u.get ρ) := by
  intro ρ
  obtain ⟨st, obj, sol, -, hs⟩ := asked_solved h
  obtain ⟨st', obj', sol', -, hs'⟩ := asked_solved h'
  rw [(hs.held_bounds hk.le ha).1, (hs.held_bounds hk.le ha).2, (hs'.held_bounds hk.le ha).1, (hs'.held_bounds hk.le ha).2,
    configOf_accepted_snoc h'.toConfigured, Nat.min_eq_left (by omega)]
  simp only [LinConfig.apply, upd_covers]
  constructor <;> split_ifs <;> rfl

/-- C15 for output bounds (less the disturbance fed through to the output). -/
theorem c15_output_bounds {mn mx : Vec (Ext K)} {s : HorizonSlice} (h : Asked d ops outs x0 u0 oc m m' r call)
    (h' : Asked d (ops ++ [.setOutputBoundsSlice mn mx s]) (outs ++ [.bool true]) x0 u0 oc' m1 m1' r' call')
    {k a : Nat} (hk : k < d.ph) (ha : a < d.ny) :
    let ρ := outputRow d + (k + 1) * d.ny + a
    let feed := dot d.ndu ((configOf ops outs).Dd a) ((configOf ops outs).dist k)
    call'.l.get ρ = (if InSlice s k then (mn.get a).add (-feed) else call.l.get ρ) ∧
    call'.u.get ρ = (if InSlice s k then (mx.get a).add (-feed) else call.u.get ρ) := by
  intro ρ feed
  obtain ⟨st, obj, sol, -, hs⟩ := asked_solved h
  obtain ⟨st', obj', sol', -, hs'⟩ := asked_solved h'
  rw [(hs.output_bounds (show k + 1 ≤ d.ph by omega) ha).1, (hs.output_bounds (show k + 1 ≤ d.ph by omega) ha).2,
    (hs'.output_bounds (show k + 1 ≤ d.ph by omega) ha).1, (hs'.output_bounds (show k + 1 ≤ d.ph by omega) ha).2,
    configOf_accepted_snoc h'.toConfigured]
  simp only [LinConfig.apply, upd_covers, Nat.add_sub_cancel]
  constructor <;> split_ifs <;> rfl

/-- C15 for the limits of the scalar constraint (the coefficients are shared by all steps, see C10). -/
theorem c15_scalar_bounds {mn mx : Ext K} {X U : Vec K} {s : HorizonSlice} (h : Asked d ops outs x0 u0 oc m m' r call)
    (h' : Asked d (ops ++ [.setScalarConstraintSlice mn mx X U s]) (outs ++ [.bool true]) x0 u0 oc' m1 m1' r' call')
    {k : Nat} (hk : k < d.ph) :
    let ρ := scalarRow d + (k + 1)
    call'.l.get ρ = (if InSlice s k then mn else call.l.get ρ) ∧
    call'.u.get ρ = (if InSlice s k then mx else call.u.get ρ) := by
  intro ρ
  obtain ⟨st, obj, sol, -, hs⟩ := asked_solved h
  obtain ⟨st', obj', sol', -, hs'⟩ := asked_solved h'
  rw [(hs.scalar_bounds (show k + 1 ≤ d.ph by omega)).1, (hs.scalar_bounds (show k + 1 ≤ d.ph by omega)).2,
    (hs'.scalar_bounds (show k + 1 ≤ d.ph by omega)).1, (hs'.scalar_bounds (show k + 1 ≤ d.ph by omega)).2,
    configOf_accepted_snoc h'.toConfigured]
  simp only [LinConfig.apply, upd_covers, Nat.add_sub_cancel]
  exact ⟨trivial, trivial⟩

/-- C15 for weights: the objective afterwards is the one of the configuration before with the weights of exactly the
addressed steps replaced. -/
theorem c15_weights {OW UW DW : Vec K} {s : HorizonSlice}
    (h' : Asked d (ops ++ [.setObjectiveWeightsSlice OW UW DW s]) (outs ++ [.bool true]) x0 u0 oc' m1 m1' r' call')
    (hms : (configOf ops outs).modelSet = true) :
    let c := configOf ops outs
    let c' := { c with wY := fun k a => if InSlice s k then OW.get a else c.wY k a
                       wU := fun k a => if InSlice s k then UW.get a else c.wU k a
                       wDu := fun k a => if InSlice s k then DW.get a else c.wDu k a }
    ∃ k : K, ∀ z, qpObjective call' z + k = initialCost d c' z + trackingCost d c' (fun k => c.duRef (k - 1)) z := by
  intro c c'
  have e : configOf (ops ++ [.setObjectiveWeightsSlice OW UW DW s]) (outs ++ [.bool true]) = c' := by
    rw [configOf_accepted_snoc h'.toConfigured]
    simp only [LinConfig.apply, c', c]
    congr 1 <;> funext k a <;> rw [upd_covers] <;> split_ifs <;> rfl
  obtain ⟨k, hk⟩ := c03_shifted_partial h' (by rw [e]; exact hms)
  rw [e] at hk
  exact ⟨k, hk⟩

/-- C15 for references. -/
theorem c15_references {y u du : Vec K} {s : HorizonSlice}
    (h' : Asked d (ops ++ [.setReferencesSlice y u du s]) (outs ++ [.bool true]) x0 u0 oc' m1 m1' r' call')
    (hms : (configOf ops outs).modelSet = true) :
    let c := configOf ops outs
    let c' := { c with yRef := fun k a => if InSlice s k then y.get a else c.yRef k a
                       uRef := fun k a => if InSlice s k then u.get a else c.uRef k a
                       duRef := fun k a => if InSlice s k then du.get a else c.duRef k a }
    ∃ k : K, ∀ z, qpObjective call' z + k = initialCost d c' z + trackingCost d c' (fun k => c'.duRef (k - 1)) z := by
  intro c c'
  have e : configOf (ops ++ [.setReferencesSlice y u du s]) (outs ++ [.bool true]) = c' := by
    rw [configOf_accepted_snoc h'.toConfigured]
    simp only [LinConfig.apply, c', c]
    congr 1 <;> funext k a <;> rw [upd_covers] <;> split_ifs <;> rfl
  obtain ⟨k, hk⟩ := c03_shifted_partial h' (by rw [e]; exact hms)
  rw [e] at hk
  exact ⟨k, hk⟩

/-- C15 for measured disturbances: both the set of allowed plans and the objective are those of the configuration before
with the disturbances of exactly the addressed steps replaced. -/
theorem c15_disturbances {v : Vec K} {s : HorizonSlice}
    (h' : Asked d (ops ++ [.setExogenousInputsSlice v s]) (outs ++ [.bool true]) x0 u0 oc' m1 m1' r' call')
    (hms : (configOf ops outs).modelSet = true) :
    let c := configOf ops outs
    let c' := { c with dist := fun k a => if InSlice s k then v.get a else c.dist k a }
    (∀ z, qpFeasible call' z ↔ PlanOk d c' x0.get u0.get z) ∧
    ∃ k : K, ∀ z, qpObjective call' z + k = initialCost d c' z + trackingCost d c' (fun k => c.duRef (k - 1)) z := by
  intro c c'
  have e : configOf (ops ++ [.setExogenousInputsSlice v s]) (outs ++ [.bool true]) = c' := by
    rw [configOf_accepted_snoc h'.toConfigured]
    simp only [LinConfig.apply, c', c]
    congr 1; funext k a; rw [upd_covers]; split_ifs <;> rfl
  obtain ⟨st', obj', sol', -, hs'⟩ := asked_solved h'
  obtain ⟨k, hk⟩ := c03_shifted_partial h' (by rw [e]; exact hms)
  rw [e] at hk hs'
  exact ⟨fun z => hs'.feasible_iff hms z, k, hk⟩

/-- the sample with one more accepted slice call, asked the same question -/
theorem sample_snoc (op : LOp ℚ) (h1 : Sized sampleDims op) (h2 : LMpc.Accepts sampleDims op) :
    ∃ m m' r call, Asked sampleDims (sampleOps ++ [op]) (sampleOuts ++ [.bool true]) (cvec 2 1) (cvec 1 0)
      (.answered 1 0 none) m m' r call := by
  have := asked_of_accepts (d := sampleDims) (ops := sampleOps ++ [op]) (x0 := cvec 2 1) (u0 := cvec 1 0) sample_valid
    (by decide) (by decide) (fun o ho => ?_) rfl rfl 1 0 none
  · rw [List.map_append] at this
    exact this
  · rcases List.mem_append.1 ho with h | h
    · exact sample_ok o h
    · rw [List.mem_singleton.1 h]; exact ⟨h1, h2⟩

example : ∃ m m' r call, Asked sampleDims (sampleOps ++ [.setStateBoundsSlice (evec 2 (-3)) (evec 2 3) ⟨1, 2⟩])
    (sampleOuts ++ [.bool true]) (cvec 2 1) (cvec 1 0) (.answered 1 0 none) m m' r call :=
  sample_snoc _ (by simp [Sized, sampleDims, evec, HorizonSlice.Int32]) (by simp [LMpc.Accepts, SliceIn, sampleDims])
example : ∃ m m' r call, Asked sampleDims (sampleOps ++ [.setInputBoundsSlice (evec 1 (-3)) (evec 1 3) ⟨0, 1⟩])
    (sampleOuts ++ [.bool true]) (cvec 2 1) (cvec 1 0) (.answered 1 0 none) m m' r call :=
  sample_snoc _ (by simp [Sized, sampleDims, evec, HorizonSlice.Int32])
    (by simp [LMpc.Accepts, SliceIn, sampleDims, HorizonSlice.all])
example : ∃ m m' r call, Asked sampleDims (sampleOps ++ [.setOutputBoundsSlice (evec 1 (-3)) (evec 1 3) ⟨1, 2⟩])
    (sampleOuts ++ [.bool true]) (cvec 2 1) (cvec 1 0) (.answered 1 0 none) m m' r call :=
  sample_snoc _ (by simp [Sized, sampleDims, evec, HorizonSlice.Int32]) (by simp [LMpc.Accepts, SliceIn, sampleDims])
example : ∃ m m' r call, Asked sampleDims (sampleOps ++ [.setScalarConstraintSlice (.fin 0) .posInf (cvec 2 1) (cvec 1 1) ⟨1, 2⟩])
    (sampleOuts ++ [.bool true]) (cvec 2 1) (cvec 1 0) (.answered 1 0 none) m m' r call :=
  sample_snoc _ (by simp [Sized, sampleDims, cvec, HorizonSlice.Int32]) (by simp [LMpc.Accepts, SliceIn, sampleDims])
example : ∃ m m' r call, Asked sampleDims (sampleOps ++ [.setObjectiveWeightsSlice (cvec 1 9) (cvec 1 9) (cvec 1 9) ⟨1, 2⟩])
    (sampleOuts ++ [.bool true]) (cvec 2 1) (cvec 1 0) (.answered 1 0 none) m m' r call :=
  sample_snoc _ (by simp [Sized, sampleDims, cvec, HorizonSlice.Int32]) (by simp [LMpc.Accepts, SliceIn, sampleDims])
example : ∃ m m' r call, Asked sampleDims (sampleOps ++ [.setReferencesSlice (cvec 1 9) (cvec 1 9) (cvec 1 9) ⟨1, 2⟩])
    (sampleOuts ++ [.bool true]) (cvec 2 1) (cvec 1 0) (.answered 1 0 none) m m' r call :=
  sample_snoc _ (by simp [Sized, sampleDims, cvec, HorizonSlice.Int32]) (by simp [LMpc.Accepts, SliceIn, sampleDims])
example : ∃ m m' r call, Asked sampleDims (sampleOps ++ [.setExogenousInputsSlice (cvec 1 9) ⟨0, 2⟩])
    (sampleOuts ++ [.bool true]) (cvec 2 1) (cvec 1 0) (.answered 1 0 none) m m' r call :=
  sample_snoc _ (by simp [Sized, sampleDims, cvec, HorizonSlice.Int32]) (by simp [LMpc.Accepts, SliceIn, sampleDims])

/-! ### C16 -/

/-- The horizon a slice call is checked against, as documented (inputs: control horizon; everything else: prediction
horizon). -/
def documentedHorizon (d : Dims) : LOp K → Nat
  | .setInputBoundsSlice _ _ _ => d.ch
  | _ => d.ph

/-- The slices that lie in a horizon. -/
def SliceOk (h : Nat) (s : HorizonSlice) : Prop := s = HorizonSlice.all ∨ (0 ≤ s.start ∧ s.start < s.stop ∧ s.stop ≤ (h : Int))

/-- The calls with a slice. -/
def C16Claim (K : Type) [Field K] [DecidableEq K] : Prop :=
  ∀ (d : Dims) (ops : List (LOp K)) (outs : List (LOut K)) (m m' : LMpc K) (op : LOp K) (s : HorizonSlice) (b : Bool),
    Configured d ops outs m → d.ch ≤ d.ph → Sized d op → sliceOf op = some s →
    m.step op = .ok (m', .bool b) → (b = true ↔ SliceOk (documentedHorizon d op) s)

/-- the horizon the code checks against -/
def checkedHorizon (d : Dims) : LOp K → Nat
  | .setInputBoundsSlice _ _ _ => d.ch
  | .setExogenousInputsSlice _ _ => d.ch
  | _ => d.ph

theorem sliceOp_refused {h : Nat} {s : HorizonSlice} {whole loop : Exec (LMpc K × LOut K)} (hh : h < 2 ^ 30)
    (h0 : 0 ≤ s.start) (hn : ¬ SliceIn h s) : LMpc.sliceOp m h s whole loop = .ok (m, .bool false) := by
  unfold LMpc.sliceOp
  have hu : ¬ isSliceUnset s = true := fun hc => hn (.inl (LMpc.isSliceUnset_iff.1 hc))
  rw [if_neg hu, isSliceValid_eq h0 hh, decide_eq_false (fun hc => hn (.inr ⟨h0, hc⟩))]
  rfl

/-- A slice call with a non-negative start outside what the code accepts is refused and changes nothing. -/
theorem step_refused (hm : LMpc.Inv d m (configOf ops outs)) (hph : d.ph < 2 ^ 30) (hch : d.ch < 2 ^ 30) {op : LOp K}
    {s : HorizonSlice} (hs : sliceOf op = some s) (h0 : 0 ≤ s.start) (hn : ¬ SliceIn (checkedHorizon d op) s) :
    m.step op = .ok (m, .bool false) := by
  obtain rfl := hm.dims
  cases op <;> simp only [sliceOf, reduceCtorEq, Option.some.injEq] at hs <;> subst hs
  · exact (LMpc.setObjectiveWeightsSlice_eq _ _ _ _).trans (sliceOp_refused hph h0 hn)
  · exact (LMpc.setStateBoundsSlice_eq _ _ _).trans (sliceOp_refused hph h0 hn)
  · exact (LMpc.setInputBoundsSlice_eq _ _ _).trans (sliceOp_refused hch h0 hn)
  · exact (LMpc.setOutputBoundsSlice_eq _ _ _).trans (sliceOp_refused hph h0 hn)
  · exact (LMpc.setScalarConstraintSlice_eq _ _ _ _ _).trans (sliceOp_refused hph h0 hn)
  · exact (LMpc.setExogenousInputsSlice_eq _ _).trans (sliceOp_refused hch h0 hn)
  · exact (LMpc.setReferencesSlice_eq _ _ _ _).trans (sliceOp_refused hph h0 hn)

/-- An accepted slice call, control horizon not longer than the prediction horizon. -/
theorem slice_accepts {op : LOp K} {s : HorizonSlice} (hs : sliceOf op = some s) (hle : d.ch ≤ d.ph)
    (hall : s = HorizonSlice.all → d.ch = d.ph) (hn : SliceIn (checkedHorizon d op) s) : LMpc.Accepts d op := by
  cases op <;> simp only [sliceOf, reduceCtorEq, Option.some.injEq] at hs <;> subst hs
  · exact hn
  · exact hn
  · refine ⟨hn, ?_⟩
    split_ifs with he
    · exact hall he
    · exact hle
  · exact hn
  · exact hn
  · exact ⟨hn, .inr hle⟩
  · exact hn

/-- C16, partial: what the code accepts. For slices with a non-negative start, `start + stop <= h` is required instead
of `stop <= h`. Missing: the slices in between (`c16_rejects_valid_violated`) and the negative starts
(`c16_accepts_negative_violated`). The horizon of the disturbance setter is the control horizon, see C17. -/
theorem c16_accepted_partial (h : Configured d ops outs m) (hph : d.ph < 2 ^ 30) (hle : d.ch ≤ d.ph) {op : LOp K}
    {s : HorizonSlice} (hz : Sized d op) (hs : sliceOf op = some s) (h0 : 0 ≤ s.start) :
    ∃ m' b, m.step op = .ok (m', .bool b) ∧
      (b = true ↔ s.start < s.stop ∧ s.start + s.stop ≤ (checkedHorizon d op : Int)) := by
  have hch : d.ch < 2 ^ 30 := by omega
  have hna : s ≠ HorizonSlice.all := by rintro rfl; exact absurd h0 (by decide)
  by_cases hc : s.start < s.stop ∧ s.start + s.stop ≤ (checkedHorizon d op : Int)
  · obtain ⟨⟨m', o⟩, h1, h2, h3⟩ := LMpc.step_accepts h.valid hph hch (configured_inv h) hz
      (slice_accepts hs hle (fun he => absurd he hna) (.inr ⟨h0, hc⟩))
    simp only at h2
    subst h2
    exact ⟨m', true, h1, by simp [hc]⟩
  · refine ⟨m, false, step_refused (configured_inv h) hph hch hs h0 ?_, by simp [hc]⟩
    rintro (he | ⟨-, he⟩)
    · exact hna he
    · exact hc he

/-- C16, partial: every accepted slice with a non-negative start lies in the horizon, and every slice starting at 0 that
lies in the horizon is accepted. -/
theorem c16_sound_partial (h : Configured d ops outs m) (hph : d.ph < 2 ^ 30) (hle : d.ch ≤ d.ph) {op : LOp K}
    {s : HorizonSlice} (hz : Sized d op) (hs : sliceOf op = some s) (h0 : 0 ≤ s.start) {b : Bool}
    (he : m.step op = .ok (m', .bool b)) :
    (b = true → SliceOk (checkedHorizon d op) s) ∧ (s.start = 0 → SliceOk (checkedHorizon d op) s → b = true) := by
  obtain ⟨m2, b2, h1, h2⟩ := c16_accepted_partial h hph hle hz hs h0
  rw [h1] at he
  obtain ⟨rfl, rfl⟩ : m2 = m' ∧ b2 = b := by
    have := Except.ok.inj he
    exact ⟨congrArg Prod.fst this, LOut.bool.inj (congrArg Prod.snd this)⟩
  rw [h2]
  constructor
  · intro hh
    exact .inr ⟨h0, by omega, by omega⟩
  · rintro hz (rfl | hh)
    · exact absurd h0 (by decide)
    · omega

/-- The whole-horizon slice is accepted, for every pair of horizons except (input bounds) differing ones, see C09. -/
theorem c16_whole_partial (h : Configured d ops outs m) (hph : d.ph < 2 ^ 30) (hle : d.ch ≤ d.ph) {op : LOp K}
    (hz : Sized d op) (hs : sliceOf op = some HorizonSlice.all) (hin : ∀ mn mx s, op = .setInputBoundsSlice mn mx s → d.ch = d.ph) :
    ∃ m', m.step op = .ok (m', .bool true) := by
  have ha : LMpc.Accepts d op := by
    cases op <;> simp only [sliceOf, reduceCtorEq, Option.some.injEq] at hs <;> subst hs
    · exact .inl rfl
    · exact .inl rfl
    · exact ⟨.inl rfl, by rw [if_pos rfl]; exact hin _ _ _ rfl⟩
    · exact .inl rfl
    · exact .inl rfl
    · exact ⟨.inl rfl, .inl rfl⟩
    · exact .inl rfl
  obtain ⟨⟨m', o⟩, h1, h2, h3⟩ := LMpc.step_accepts h.valid hph (by omega) (configured_inv h) hz ha
  simp only at h2
  subst h2
  exact ⟨m', h1⟩

example : ∃ m, Configured sampleDims sampleOps sampleOuts m ∧
    Sized sampleDims (.setStateBoundsSlice (evec 2 (-3)) (evec 2 3) ⟨1, 2⟩ : LOp ℚ) ∧
    sliceOf (.setStateBoundsSlice (evec 2 (-3)) (evec 2 3) ⟨1, 2⟩ : LOp ℚ) = some ⟨1, 2⟩ := by
  obtain ⟨m, m', r, call, h⟩ := sample_asked 1 0 none
  exact ⟨m, h.toConfigured, by simp [Sized, sampleDims, evec, HorizonSlice.Int32], rfl⟩

/-- C16 is violated: with horizon 2, the slice {1,2} is refused. -/
theorem c16_rejects_valid_violated : ¬ C16Claim ℚ := by
  intro hc
  obtain ⟨m, hm, -⟩ := configured_of_accepts (K := ℚ) (d := dims1 2 2) (ops := [plant1 0 0])
    (dims1_valid (by decide) (by decide) (by decide) (by decide)) (by decide) (by decide) (by accepts_tac [plant1])
  obtain ⟨m', b, h1, h2⟩ := c16_accepted_partial (op := .setStateBoundsSlice (evec 1 0) (evec 1 1) ⟨1, 2⟩) hm (by decide)
    (by decide) (by simp [Sized, dims1, evec, HorizonSlice.Int32]) rfl (by decide)
  have := hc _ _ _ _ _ _ _ _ hm (by decide) (by simp [Sized, dims1, evec, HorizonSlice.Int32]) rfl h1
  rw [h2] at this
  simp [SliceOk, HorizonSlice.all, documentedHorizon, checkedHorizon, dims1] at this

/-- The slice {-1,1} is accepted by the state-bounds setter, in every state of the controller, and does nothing. -/
theorem negative_start_accepted {mn mx : Vec (Ext K)} (h : Configured d ops outs m) :
    m.step (.setStateBoundsSlice mn mx ⟨-1, 1⟩) = .ok (m, .bool true) := by
  have hd := (configured_inv h).dims
  have hph := h.valid.ph_pos
  refine (LMpc.setStateBoundsSlice_eq (m := m) mn mx ⟨-1, 1⟩).trans ?_
  unfold LMpc.sliceOp
  rw [if_neg (by decide)]
  have hv : isSliceValid m.d.ph ⟨-1, 1⟩ = .ok true := by
    rw [hd]
    unfold isSliceValid
    rw [if_neg (by simp only; omega)]
    simp only [addInt, Exec.require]
    rw [if_pos (by decide)]
    simp only [Exec.ok_bind, Exec.pure_bind']
    rw [if_neg (by omega)]
    rfl
  rw [hv]
  rfl

theorem c16_accepts_negative_violated : ¬ C16Claim ℚ := by
  intro hc
  obtain ⟨m, hm, -⟩ := configured_of_accepts (K := ℚ) (d := dims1 2 2) (ops := [plant1 0 0])
    (dims1_valid (by decide) (by decide) (by decide) (by decide)) (by decide) (by decide) (by accepts_tac [plant1])
  have := hc _ _ _ _ _ (.setStateBoundsSlice (evec 1 0) (evec 1 1) ⟨-1, 1⟩) _ _ hm (by decide)
    (by simp [Sized, dims1, evec, HorizonSlice.Int32]) rfl (negative_start_accepted hm)
  simp [SliceOk, HorizonSlice.all] at this

/-! ### C17 -/

/-- C17: a slice is accepted by the disturbance setter iff it is accepted by the reference setter. -/
def C17Claim (K : Type) [Field K] [DecidableEq K] : Prop :=
  ∀ (d : Dims) (ops : List (LOp K)) (outs : List (LOut K)) (m m1 m2 : LMpc K) (v y u du : Vec K) (s : HorizonSlice)
    (b1 b2 : Bool), Configured d ops outs m → Sized d (.setExogenousInputsSlice v s) → Sized d (.setReferencesSlice y u du s) →
    m.step (.setExogenousInputsSlice v s) = .ok (m1, .bool b1) →
    m.step (.setReferencesSlice y u du s) = .ok (m2, .bool b2) → b1 = b2

theorem c17_violated : ¬ C17Claim ℚ := by
  intro hc
  obtain ⟨m, hm, -⟩ := configured_of_accepts (d := dims1 3 1) (ops := [plant1 0 0])
    (dims1_valid (by decide) (by decide) (by decide) (by decide)) (by decide) (by decide) (by accepts_tac [plant1])
  have z1 : Sized (dims1 3 1) (.setExogenousInputsSlice (cvec 1 0) ⟨0, 2⟩) := by simp [Sized, dims1, cvec, HorizonSlice.Int32]
  have z2 : Sized (dims1 3 1) (.setReferencesSlice (cvec 1 0) (cvec 1 0) (cvec 1 0) ⟨0, 2⟩) := by
    simp [Sized, dims1, cvec, HorizonSlice.Int32]
  obtain ⟨m1, b1, h1, e1⟩ := c16_accepted_partial hm (by decide) (by decide) z1 rfl (by decide)
  obtain ⟨m2, b2, h2, e2⟩ := c16_accepted_partial hm (by decide) (by decide) z2 rfl (by decide)
  have := hc _ _ _ _ _ _ _ _ _ _ _ _ _ hm z1 z2 h1 h2
  subst this
  rw [e1] at e2
  simp [checkedHorizon, dims1] at e2

/-- C17, partial: it holds when the horizons are equal (for slices with a non-negative start and the whole horizon). -/
theorem c17_equal_horizons_partial (h : Configured d ops outs m) (hph : d.ph < 2 ^ 30) (he : d.ch = d.ph) {v y u du : Vec K}
    {s : HorizonSlice} (z1 : Sized d (.setExogenousInputsSlice v s)) (z2 : Sized d (.setReferencesSlice y u du s))
    (h0 : s = HorizonSlice.all ∨ 0 ≤ s.start) :
    ∃ m1 m2 b, m.step (.setExogenousInputsSlice v s) = .ok (m1, .bool b) ∧
      m.step (.setReferencesSlice y u du s) = .ok (m2, .bool b) := by
  rcases h0 with rfl | h0
  · obtain ⟨m1, h1⟩ := c16_whole_partial h hph he.le z1 rfl (by intros; exact he)
    obtain ⟨m2, h2⟩ := c16_whole_partial h hph he.le z2 rfl (by intros; exact he)
    exact ⟨m1, m2, true, h1, h2⟩
  · obtain ⟨m1, b1, h1, e1⟩ := c16_accepted_partial h hph he.le z1 rfl h0
    obtain ⟨m2, b2, h2, e2⟩ := c16_accepted_partial h hph he.le z2 rfl h0
    have : b1 = b2 := by
      rw [Bool.eq_iff_iff, e1, e2]
      simp [checkedHorizon, he]
    subst this
    exact ⟨m1, m2, b1, h1, h2⟩

example : (dims1 3 3).ch = (dims1 3 3).ph ∧ Sized (dims1 3 3) (.setExogenousInputsSlice (cvec 1 7) ⟨1, 2⟩) := by
  simp [Sized, dims1, cvec, HorizonSlice.Int32]

end Mpc.Props
