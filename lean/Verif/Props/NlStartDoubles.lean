import Verif.Proofs.NlStartDoubles
import Verif.Proofs.NlDoublesZero
import Verif.Props.NlDomain

/-
C128: scaling factors of zero. C129: a measurement, command or answer which is not a number, in the starting point.
-/
namespace Mpc.Props
open Mpc Exec NlSpec
set_option linter.unusedSectionVars false

section
variable {d : Dims} {K : Type} [Field K] [LinearOrder K] [IsStrictOrderedRing K]
variable {dyn : Bool} {ops : List (NlCall d K)} {outs : List (NlOut K)} {m m' : NlMpc d K} {x0 u0 : Vec K}
  {cs : List (NlCallback K)} {oc : NlOutcome K} {r : LResult K} {call : NlSolverCall K} {s : NlState d K}

/-- the solver starts from the measured state and the last input -/
def ColdStart (ops : List (NlCall d K)) : Bool := (last solutionOf ops).isNone || !WarmStart ops

/-- The starting point as `double`s, after any history of calls. -/
theorem NlRan.start_double (h : NlRan d dyn ops outs m) {lst x u : Vec (Flt K)} (slack : Flt K) (junk : Nat → Flt K)
    (hl : lst.size = d.nZ) (hx : x.size = d.nx) (hu : u.size = d.nu) :
    ∃ g, m.startF lst slack x u junk = .ok g ∧ StartF d (inScale ops) (ColdStart ops) x.get u.get lst.get slack g := by
  obtain ⟨ha, -, hlen⟩ := h.agrees
  have hk := ha.holds
  obtain ⟨g, e, hg⟩ := NlMpc.startF_post (m := m) hk.good hk.dims h.hor.ph_int (slack := slack) junk hl hx hu
  refine ⟨g, e, ?_⟩
  rw [hk.inS, after_inScale hlen, ha.first, ha.warm, after_first hlen, after_warm hlen] at hg
  exact hg

/-! ### C128 -/

/-- C128 as claimed, the starting point: if the measured state and the last input are numbers, so is every entry of the point the
solver starts from. (What the controller keeps of its last answer, `m.o.optVector` and its slack, are numbers.) -/
def C128StartClaim (K : Type) [Field K] [LinearOrder K] [IsStrictOrderedRing K] : Prop :=
  ∀ (d : Dims) dyn (ops : List (NlCall d K)) outs x0 u0 cs oc m m' r call,
    NlAsked d dyn ops outs x0 u0 cs oc m m' r call → ∀ junk, ∃ g,
      m.startF (m.o.optVector.to .fin) (.fin m.o.currentSlack) (x0.to .fin) (u0.to .fin) junk = .ok g ∧
      ∀ p, p < d.nZ → IsNumber (g.get p)

/-- C128 as claimed, the evaluations: if the user functions return numbers everywhere, everything the solver reads is a number. -/
def C128EvalClaim (K : Type) [Field K] [LinearOrder K] [IsStrictOrderedRing K] : Prop :=
  ∀ (d : Dims) dyn (ops : List (NlCall d K)) outs m x0 cs s, InSolver d dyn ops outs m x0 cs s →
    ∀ (F : DoubleFns d K) (z : Vec K), z.size = d.nZ → DefinedOn F (last samplingOf ops).isSome (fun _ _ _ => True) → AllNumbers s F z

/-- C128, the starting point, partial: without a zero among the input scalings it is made of numbers, those of exact arithmetic.
Missing: zeros are accepted (`c128_input_zero`). -/
theorem c128_start_partial (h : NlAsked d dyn ops outs x0 u0 cs oc m m' r call) (junk : Nat → Flt K)
    (hs : ∀ b, b < d.nu → inScale ops b ≠ 0) :
    ∃ g, m.startF (m.o.optVector.to .fin) (.fin m.o.currentSlack) (x0.to .fin) (u0.to .fin) junk = .ok g ∧
      g.size = call.guess.size ∧ ∀ p, p < d.nZ → g.get p = .fin (call.guess.get p) := by
  obtain ⟨-, -, hg, -⟩ := h.known
  obtain ⟨ha, -, hl⟩ := h.toNlRan.agrees
  obtain ⟨j0, ⟨hx, hu, -⟩, -⟩ := h.ask
  have hq := hg.guess
  obtain ⟨g, e, hS⟩ := h.toNlRan.start_double (lst := m.o.optVector.to .fin) (x := x0.to .fin) (u := u0.to .fin)
    (.fin m.o.currentSlack) junk ha.zs hx hu
  refine ⟨g, e, hS.size.trans hq.size.symm, ?_⟩
  have hch := h.hor.ch_pos
  have hle := h.hor.ch_le
  have hsc := after_inScale (d := d) (ops := ops) (outs := outs) hl
  have hcs : ((NlCtl.after d ops outs).first || !(NlCtl.after d ops outs).warm) = ColdStart ops := by
    rw [after_first hl, after_warm hl]; rfl
  intro p hp
  rcases nZ_cases d hp with ⟨k, a, hk, ha', rfl⟩ | ⟨j, b, hj, hb, rfl⟩ | rfl
  · rw [hS.states k a hk ha', hq.state k a hk ha']
    show (if ColdStart ops = true then Flt.fin (x0.get a) else Flt.fin (m.o.optVector.get _)) = Flt.fin (NlCtl.start _ _ _ _)
    unfold NlCtl.start
    rw [hcs, ha.z _ (stateIx_lt (by omega) ha')]
    split_ifs
    · rw [cold_state (by omega) ha']
    · rfl
  · have hi := hS.inputs ⟨j, hj⟩ ⟨min (j + 1) (d.ch - 1), by omega⟩ ⟨b, hb⟩ rfl (hs b hb)
    have := hi.number (fun i => if ColdStart ops then u0.get i.2 else m.o.optVector.get (inputIx d i.1 i.2))
      (fun i => by split_ifs <;> rfl)
    rw [this, hq.input j b hj hb, hsc]
    have h0 := hs b hb
    rw [← mul_assoc, one_div_mul_cancel h0, one_mul]
    show _ = Flt.fin (NlCtl.start _ _ _ _)
    unfold NlCtl.start
    rw [hcs, ha.z _ (inputIx_lt (by omega) hb)]
    split_ifs
    · rw [cold_input (by omega) hb]
    · rfl
  · rw [hS.slack, hq.slack, ha.slack]

/-- C128, the evaluations, partial: without a zero among the state scalings. Missing: zeros are accepted (`c128_state_zero`). -/
theorem c128_evaluations_partial (h : InSolver d dyn ops outs m x0 cs s) (hsc : ∀ a, stScale ops a ≠ 0) (F : DoubleFns d K)
    (z : Vec K) (hz : z.size = d.nZ) (hF : DefinedOn F (last samplingOf ops).isSome (fun _ _ _ => True)) : AllNumbers s F z := by
  have bnd : ∀ {r c : Nat} (T : Traj r c K), ∃ M, ∀ k a, |T k a| ≤ M := by
    intro r c T
    refine ⟨∑ k : Fin r, ∑ a : Fin c, |T k a|, fun k a => ?_⟩
    refine le_trans ?_ (Finset.single_le_sum (f := fun k => ∑ a : Fin c, |T k a|)
      (fun i _ => Finset.sum_nonneg fun j _ => abs_nonneg _) (Finset.mem_univ k))
    exact Finset.single_le_sum (f := fun a => |T k a|) (fun i _ => abs_nonneg _) (Finset.mem_univ a)
  obtain ⟨M1, h1⟩ := bnd (statesOf ops x0 z)
  obtain ⟨M2, h2⟩ := bnd (inputsOf ops z)
  refine c127_near_partial h hsc F z hz (M := max (max M1 M2) (max 1 |z.get (slackIx d)|))
    (le_trans (le_max_left _ _) (le_max_right _ _)) (fun k a => (h1 k a).trans ((le_max_left _ _).trans (le_max_left _ _)))
    (fun k a => (h2 k a).trans ((le_max_right _ _).trans (le_max_left _ _))) (le_trans (le_max_right _ _) (le_max_right _ _)) ?_
  exact ⟨fun X U e _ => hF.obj X U e trivial, fun X U e _ => hF.ineq X U e trivial, fun X U e _ => hF.eq X U e trivial,
    fun X U e _ => hF.state X U e trivial, fun hc X U e _ => hF.stateEnd hc X U e trivial⟩

/-- C128, a zero in the input scaling: no entry for this input in the starting point is ever a number, whatever the measured state,
the last input and the last answer. -/
theorem c128_input_zero (h : NlRan d dyn ops outs m) {lst x u : Vec (Flt K)} {slack : Flt K} {junk : Nat → Flt K} {g : Vec (Flt K)}
    (hl : lst.size = d.nZ) (hx : x.size = d.nx) (hu : u.size = d.nu) (hg : m.startF lst slack x u junk = .ok g) {b : Nat}
    (hb : b < d.nu) (hs : inScale ops b = 0) : ∀ j, j < d.ch → ¬ IsNumber (g.get (inputIx d j b)) := by
  obtain ⟨g', e, hS⟩ := h.start_double slack junk hl hx hu
  obtain rfl := Except.ok.inj (hg.symm.trans e)
  exact fun j hj => hS.zero ⟨j, hj⟩ ⟨b, hb⟩ hs

/-- C128, a zero in the input scaling: whatever the solver answers, this component of the command, and of every input of the
reported sequence, is zero. -/
theorem c128_input_stuck (h : NlAsked d dyn ops outs x0 u0 cs oc m m' r call) {z : Vec K} {value : Ext K} {code : Int}
    (ho : oc = .answered z value code false) {b : Nat} (hb : b < d.nu) (hs : inScale ops b = 0) :
    r.cmd.get b = 0 ∧ ∀ k, k ≤ d.ph → m'.o.seqInput.get k b = 0 := by
  obtain ⟨-, -, h2, -, h3, -⟩ := c58_sequences_partial h ho
  have : ∀ k, k ≤ d.ph → m'.o.seqInput.get k b = 0 := fun k hk => by
    rw [h2 k b hk hb]
    unfold inputAt
    rw [hs, zero_mul]
  exact ⟨(h3 b hb).trans (this 0 (Nat.zero_le _)), this⟩

/-- C128, a zero in the state scaling: the state equations of this component, at every step, at every point and whatever the user
functions return, have values which are not numbers. -/
theorem c128_state_zero (h : InSolver d dyn ops outs m x0 cs s) (F : DoubleFns d K) (z : Vec K) (hz : z.size = d.nZ)
    (junk : Nat → Flt K) {a : Fin d.nx} (hs : stScale ops a = 0) :
    (∃ r, s.evalDynF F z false junk = .ok r) ∧
    ∀ g r, s.evalDynF F z g junk = .ok r → ∀ k : Fin d.ph, ¬ IsNumber (r.value.get (k * d.nx + a)) := by
  obtain ⟨c, hk, -, e2, -⟩ := h.config
  obtain ⟨r, hr, -, -, X, U, -, -, hv, -⟩ := Dbl.evalDyn_post s.con hk.csz s.mp hk.good hk.dims F s.M.continuous s.M.Ts junk z
    hz h.hor.ph_int false (by simp)
  have key : ∀ k : Fin d.ph, ¬ IsNumber (r.value.get (k * d.nx + a)) := by
    intro k
    rw [hv k a, hk.stS, e2, hs]
    generalize Dbl.resid F _ _ X U k a = v
    rintro ⟨y, hy⟩
    unfold Flt.divBy at hy
    split at hy
    · cases hy
    · rw [if_pos rfl] at hy
      split_ifs at hy <;> cases hy
    · rw [if_neg (lt_irrefl _)] at hy
      next h1 =>
      cases hy
      exact h1 y rfl
  refine ⟨⟨r, hr⟩, ?_⟩
  intro g r' hr'
  cases g with
  | false =>
    obtain rfl := Except.ok.inj (hr'.symm.trans hr)
    exact key
  | true =>
    obtain ⟨r'', h1, h2⟩ := Dbl.evalDyn_value hr'
    obtain rfl := Except.ok.inj (h1.symm.trans hr)
    rw [← h2]
    exact key

/-- C128, a zero in the state scaling: the derivatives of the state equations of this component with respect to every input, and to
every component of the preceding state, are not numbers, at every step, at every point and whatever the user functions return. -/
theorem c128_state_derivatives (h : InSolver d dyn ops outs m x0 cs s) (F : DoubleFns d K) (z : Vec K) (hz : z.size = d.nZ)
    (junk : Nat → Flt K) {a : Fin d.nx} (hs : stScale ops a = 0) :
    ∃ r, s.evalDynF F z true junk = .ok r ∧ ∀ k : Fin d.ph,
      (∀ j b, j < d.ch → b < d.nu → ¬ IsNumber (r.grad.get ((k * d.nx + a) * d.nZ + inputIx d j b))) ∧
      ∀ k' b, k' + 1 = (k : Nat) → b < d.nx → ¬ IsNumber (r.grad.get ((k * d.nx + a) * d.nZ + stateIx d k' b)) := by
  obtain ⟨c, hk, -, e2, -⟩ := h.config
  obtain ⟨r, hr, hv⟩ := Dbl.evalDyn_zero s.con hk.csz s.mp hk.good hk.dims F s.M.continuous s.M.Ts junk z hz h.hor.ph_int
  exact ⟨r, hr, fun k => hv k a k.2 a.2 (by rw [hk.stS, e2, hs])⟩

/-- C128, a zero in the state scaling: whatever the solver answers, this component of every state of the reported sequence is zero,
also that of the measured state. -/
theorem c128_state_stuck (h : NlAsked d dyn ops outs x0 u0 cs oc m m' r call) {z : Vec K} {value : Ext K} {code : Int}
    (ho : oc = .answered z value code false) {a : Nat} (ha : a < d.nx) (hs : stScale ops a = 0) :
    ∀ k, k ≤ d.ph → m'.o.seqState.get k a = 0 := by
  intro k hk
  rw [(c58_sequences_partial h ho).2.1 k a hk ha]
  split_ifs with h0
  · rw [hs, zero_mul]
  · cases k with
    | zero => exact absurd rfl h0
    | succ k => show stScale ops a * _ = 0; rw [hs, zero_mul]

/-! ### C129 -/

/-- C129 as claimed: an entry of the starting point is a number if the entry of the measured state, of the last input or of the last
answer it stands for is one. -/
def C129Claim (K : Type) [Field K] [LinearOrder K] [IsStrictOrderedRing K] : Prop :=
  ∀ (d : Dims) dyn (ops : List (NlCall d K)) outs m, NlRan d dyn ops outs m → (∀ b, b < d.nu → inScale ops b ≠ 0) →
    ∀ (lst x u : Vec (Flt K)) slack junk, lst.size = d.nZ → x.size = d.nx → u.size = d.nu →
    ∃ g, m.startF lst slack x u junk = .ok g ∧
      (∀ k a, k < d.ph → a < d.nx →
        IsNumber (if ColdStart ops then x.get a else lst.get (stateIx d (min (k + 1) (d.ph - 1)) a)) →
        IsNumber (g.get (stateIx d k a))) ∧
      (∀ j b, j < d.ch → b < d.nu →
        IsNumber (if ColdStart ops then u.get b else lst.get (inputIx d (min (j + 1) (d.ch - 1)) b)) →
        IsNumber (g.get (inputIx d j b))) ∧
      (IsNumber slack → IsNumber (g.get (slackIx d)))

/-- C129, partial: states and slack of the starting point are the entries they stand for, number or not; and if the last input
(without an answer to start from) respectively all inputs of the last answer are numbers, the inputs are those they stand for.
Missing: one input which is not a number (`c129_spread`). -/
theorem c129_place_partial (h : NlRan d dyn ops outs m) {lst x u : Vec (Flt K)} (slack : Flt K) (junk : Nat → Flt K)
    (hl : lst.size = d.nZ) (hx : x.size = d.nx) (hu : u.size = d.nu) :
    ∃ g, m.startF lst slack x u junk = .ok g ∧ g.size = d.nZ ∧
      (∀ k a, k < d.ph → a < d.nx →
        g.get (stateIx d k a) = if ColdStart ops then x.get a else lst.get (stateIx d (min (k + 1) (d.ph - 1)) a)) ∧
      ((∀ b, b < d.nu → inScale ops b ≠ 0) →
        (∀ j b, j < d.ch → b < d.nu → IsNumber (if ColdStart ops then u.get b else lst.get (inputIx d j b))) →
        ∀ j b, j < d.ch → b < d.nu → g.get (inputIx d j b)
          = if ColdStart ops then u.get b else lst.get (inputIx d (min (j + 1) (d.ch - 1)) b)) ∧
      g.get (slackIx d) = slack := by
  obtain ⟨g, e, hS⟩ := h.start_double slack junk hl hx hu
  refine ⟨g, e, hS.size, hS.states, ?_, hS.slack⟩
  intro hs hn j b hj hb
  have hch := h.hor.ch_pos
  choose v hv using fun i : Fin d.ch × Fin d.nu => hn i.1 i.2 i.1.2 i.2.2
  have hi := hS.inputs ⟨j, hj⟩ ⟨min (j + 1) (d.ch - 1), by omega⟩ ⟨b, hb⟩ rfl (hs b hb)
  rw [hi.number v hv]
  exact (hv (⟨min (j + 1) (d.ch - 1), by omega⟩, ⟨b, hb⟩)).symm

/-- C129, what happens instead: if one component of the last input (no answer to start from), or one input of the last answer, is not
a number, then *no* input of the starting point is one, and if it is NaN they all are NaN. -/
theorem c129_spread (h : NlRan d dyn ops outs m) {lst x u : Vec (Flt K)} {slack : Flt K} {junk : Nat → Flt K} {g : Vec (Flt K)}
    (hl : lst.size = d.nZ) (hx : x.size = d.nx) (hu : u.size = d.nu) (hg : m.startF lst slack x u junk = .ok g)
    (hs : ∀ b, b < d.nu → inScale ops b ≠ 0) {i c : Nat} (hi : i < d.ch) (hc : c < d.nu)
    (hn : ¬ IsNumber (if ColdStart ops then u.get c else lst.get (inputIx d i c))) :
    ∀ j b, j < d.ch → b < d.nu → ¬ IsNumber (g.get (inputIx d j b)) ∧
      ((if ColdStart ops then u.get c else lst.get (inputIx d i c)) = .nan → g.get (inputIx d j b) = .nan) := by
  obtain ⟨g', e, hS⟩ := h.start_double slack junk hl hx hu
  obtain rfl := Except.ok.inj (hg.symm.trans e)
  intro j b hj hb
  have hch := h.hor.ch_pos
  have hq := hS.inputs ⟨j, hj⟩ ⟨min (j + 1) (d.ch - 1), by omega⟩ ⟨b, hb⟩ rfl (hs b hb)
  exact ⟨hq.spoiled (⟨i, hi⟩, ⟨c, hc⟩) hn, hq.nan (⟨i, hi⟩, ⟨c, hc⟩)⟩

end

/-! ### witnesses -/

/-- C128 is violated: an input scaling of zero. -/
theorem c128_start_violated : ¬ C128StartClaim ℚ := by
  intro hc
  obtain ⟨outs, m, m', r, call, h⟩ := asked_of (ops := [.setInputScale (nvec 1 fun _ => 0)]) 1 1 .threw (by rintro _ _ _ _ ⟨⟩)
    (by simp [NlSpec.CallFits, nvec]) (by simp [AdmFrom, NlSpec.Admissible])
  obtain ⟨ha, -, -⟩ := h.toNlRan.agrees
  obtain ⟨g, e, hn⟩ := hc _ _ _ _ _ _ _ _ _ _ _ _ h (fun _ => 0)
  exact c128_input_zero h.toNlRan (b := 0) ha.zs rfl rfl e (by decide)
    (by simp [inScale, last, inScaleOf, nvec]) 0 (by decide) (hn _ (inputIx_lt (by decide) (by decide)))

/-- C128 is violated: a state scaling of zero, with functions which return numbers everywhere. -/
theorem c128_model_violated : ¬ C128EvalClaim ℚ := by
  intro hc
  obtain ⟨outs, m, m', r, call, h⟩ := asked_of (ops := [.setStateScale (nvec 2 fun _ => 0)]) 1 1 .threw (by rintro _ _ _ _ ⟨⟩)
    (by simp [NlSpec.CallFits, nvec]) (by simp [AdmFrom, NlSpec.Admissible])
  obtain ⟨s, hs⟩ := h.inSolver
  let F : DoubleFns dN ℚ := ⟨fun _ _ _ _ => .fin 1, none, fun _ _ _ _ => .fin 0, fun _ _ _ _ _ => .fin 0, fun _ _ _ => .fin 0⟩
  have hF : DefinedOn F (last samplingOf [(.setStateScale (nvec 2 fun _ => 0) : NlCall dN ℚ)]).isSome (fun _ _ _ => True) :=
    ⟨fun _ _ _ _ => ⟨_, rfl⟩, fun _ _ _ _ _ => ⟨_, rfl⟩, fun _ _ _ _ _ => ⟨_, rfl⟩, fun _ _ _ _ _ _ => ⟨_, rfl⟩,
      fun _ _ _ _ _ _ _ => ⟨_, rfl⟩⟩
  have hA := hc _ _ _ _ _ _ _ _ hs F (zN 0) rfl hF
  have hz : stScale [(.setStateScale (nvec 2 fun _ => 0) : NlCall dN ℚ)] ((0 : Fin 2) : Nat) = 0 := by
    simp [stScale, last, stScaleOf, nvec]
  obtain ⟨r, hr, hn⟩ := hA.dynamics (fun _ => 0)
  exact (c128_state_zero hs F (zN 0) rfl (fun _ => 0) (a := (0 : Fin 2)) hz).2 true r hr (0 : Fin 3) (hn (0 : Fin 3) (0 : Fin 2)).1

/-- two inputs, warm start off: the sample controller of C126 -/
theorem ranB : ∃ outs m, NlRan dB false opsB outs m := by
  obtain ⟨outs, m, s, h⟩ := opsB_in
  exact ⟨outs, m, h.toNlRan⟩

/-- C129 is violated: of two inputs the last value of the second is NaN; the first one of the starting point is NaN as well. -/
theorem c129_spread_violated : ¬ C129Claim ℚ := by
  intro hc
  obtain ⟨outs, m, h⟩ := ranB
  have hs : ∀ b, b < dB.nu → inScale opsB b ≠ 0 := fun b _ => one_ne_zero
  obtain ⟨g, e, -, hi, -⟩ := hc _ _ _ _ _ h hs ⟨9, fun _ => .fin 0⟩ ⟨2, fun _ => .fin 0⟩
    ⟨2, fun b => if b = 1 then .nan else .fin 0⟩ (.fin 0) (fun _ => 0) rfl rfl rfl
  have hcold : ColdStart opsB = true := rfl
  refine (c129_spread h rfl rfl rfl e hs (i := 0) (c := 1) (by decide) (by decide) ?_ 0 0 (by decide) (by decide)).1
    (hi 0 0 (by decide) (by decide) ?_)
  · rw [hcold]; exact notNumber_nan
  · rw [hcold]; exact ⟨0, rfl⟩

/-- the hypotheses of the C128 theorems: controllers with an input scaling of zero, and with one of two -/
example : (∃ outs m m' r call, NlAsked dN false [.setInputScale (nvec 1 fun _ => 0)] outs (nvec 2 fun _ => 1) (nvec 1 fun _ => 1) []
      (.answered (zN 0) (.fin 0) 1 false) m m' r call) ∧
    ∃ outs m m' r call, NlAsked dN false [.setInputScale (nvec 1 fun _ => 2)] outs (nvec 2 fun _ => 1) (nvec 1 fun _ => 1) []
      (.answered (zN 0) (.fin 0) 1 false) m m' r call :=
  ⟨asked_of 1 1 _ (by rintro _ _ _ _ ⟨⟩; rfl) (by simp [NlSpec.CallFits, nvec]) (by simp [AdmFrom, NlSpec.Admissible]),
    asked_of 1 1 _ (by rintro _ _ _ _ ⟨⟩; rfl) (by simp [NlSpec.CallFits, nvec]) (by simp [AdmFrom, NlSpec.Admissible])⟩

end Mpc.Props
