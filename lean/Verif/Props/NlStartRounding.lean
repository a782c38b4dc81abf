import Verif.Proofs.NlStartRounding
import Verif.Props.NlStarting
import Verif.Props.NlRoundGrad

/-
C125: in floating point too, the nonlinear solver is given a starting point it takes.
-/
namespace Mpc.Props
open Mpc Exec NlSpec
open Mpc.Spec (within)
set_option linter.unusedSectionVars false

section
variable {d : Dims} {K : Type} [Field K] [LinearOrder K] [IsStrictOrderedRing K] (R : Rounding K)
variable {dyn : Bool} {ops : List (NlCall d K)} {outs : List (NlOut K)} {m m' : NlMpc d K} {x0 u0 : Vec K}
  {cs : List (NlCallback K)} {oc : NlOutcome K} {r : LResult K} {call callR : NlSolverCall K}

/-- C125 as claimed: if the decision variables are floating-point numbers and the starting point is inside the bounds in exact
arithmetic (C124), it is inside in the arithmetic of the code. -/
def C125Claim {K : Type} [Field K] [LinearOrder K] [IsStrictOrderedRing K] (R : Rounding K) : Prop :=
  ∀ (d : Dims) dyn (ops : List (NlCall d K)) outs x0 u0 cs oc m m' r call junk callR,
    NlAsked d dyn ops outs x0 u0 cs oc m m' r call → m.startR R.rnd x0 u0 junk = .ok callR →
    (∀ b, b < d.nu → inScale ops b ≠ 0 ∧ R.rnd (inScale ops b) = inScale ops b) →
    (∀ p, p < d.nZ → R.rnd (call.guess.get p) = call.guess.get p) →
    InBox call call.guess → InBox callR callR.guess

/-- C125, what the solver is given in the arithmetic of the code: the bounds, states and slack of exact arithmetic, and inputs
multiplied by the scaling and by its reciprocal, rounding each time. Nothing else of the starting point is computed with rounding,
and making it never fails. -/
theorem c125_rounded_start (h : NlAsked d dyn ops outs x0 u0 cs oc m m' r call) (junk : Nat → K)
    (hs : ∀ b, b < d.nu → inScale ops b ≠ 0) :
    ∃ callR, m.startR R.rnd x0 u0 junk = .ok callR ∧ callR.guess.size = call.guess.size ∧
      callR.lb.size = call.lb.size ∧ callR.ub.size = call.ub.size ∧ callR.lb.get = call.lb.get ∧ callR.ub.get = call.ub.get ∧
      (∀ k a, k < d.ph → a < d.nx → callR.guess.get (stateIx d k a) = call.guess.get (stateIx d k a)) ∧
      (∀ j b, j < d.ch → b < d.nu → callR.guess.get (inputIx d j b)
        = R.rnd (R.rnd (1 / inScale ops b) * R.rnd (inScale ops b * call.guess.get (inputIx d j b)))) ∧
      callR.guess.get (slackIx d) = call.guess.get (slackIx d) := by
  obtain ⟨-, -, hg, -⟩ := h.known
  obtain ⟨ha, -, hl⟩ := h.toNlRan.agrees
  obtain ⟨j0, ⟨hx, hu, -⟩, -⟩ := h.ask
  have hk := ha.holds
  obtain ⟨p, hp, p1, p2, p3⟩ := NlOpt.prepareR_start R hk.good hk.dims junk hx hu ha.zs
  have e : m.startR R.rnd x0 u0 junk = .ok (m.solverCall p.2) := by
    unfold NlMpc.startR
    rw [hp, ok_bind]
    rfl
  have hsc := after_inScale (d := d) (ops := ops) (outs := outs) hl
  have hstart : ∀ q, q < d.nZ → p.1.get q = (NlCtl.after d ops outs).start x0.get u0.get q := by
    intro q hq
    rw [p2 q hq, ha.first, ha.warm]
    unfold NlCtl.start
    split_ifs with hc
    · unfold NlCtl.cold
      rw [ha.z q hq]
    · exact ha.z q hq
  have g := hg.guess
  have hch := h.hor.ch_pos
  have hle := h.hor.ch_le
  refine ⟨_, e, p3.size.trans g.size.symm, ?_, ?_, ?_, ?_, ?_, ?_, ?_⟩
  · rw [hg.lbs]; show m.o.solverLb.size = _; rw [ha.slb]; exact ha.lbs
  · rw [hg.ubs]; show m.o.solverUb.size = _; rw [ha.sub]; exact ha.ubs
  · rw [hg.lb]; show m.o.solverLb.get = _; rw [ha.slb]; exact ha.lb
  · rw [hg.ub]; show m.o.solverUb.get = _; rw [ha.sub]; exact ha.ub
  · intro k a hk ha'
    show p.2.get _ = _
    rw [p3.state k a hk ha', hstart _ (stateIx_lt (by omega) ha'), g.state k a hk ha']
  · intro j b hj hb
    show p.2.get _ = _
    rw [p3.input j b hj hb, hstart _ (inputIx_lt (by omega) hb), g.input j b hj hb, hk.inS, hsc]
    have := hs b hb
    rw [← mul_assoc _ (inScale ops b), one_div, inv_mul_cancel₀ this, one_mul]
  · show p.2.get _ = _
    rw [p3.slack, g.slack, ha.slack]

/-- C125, partial: if multiplying by the input scalings commutes with rounding — no scaling, or powers of two — the starting point
is that of exact arithmetic, so that C124 holds as it stands. Missing: other scalings (`c125_saturated_violated`). -/
theorem c125_unscaled_partial (h : NlAsked d dyn ops outs x0 u0 cs oc m m' r call) {junk : Nat → K}
    (hR : m.startR R.rnd x0 u0 junk = .ok callR) (hs : ∀ b, b < d.nu → inScale ops b ≠ 0)
    (hc : ∀ b, b < d.nu → ∀ x, R.rnd (inScale ops b * x) = inScale ops b * R.rnd x)
    (hr : ∀ j b, j < d.ch → b < d.nu → R.rnd (call.guess.get (inputIx d j b)) = call.guess.get (inputIx d j b)) :
    (∀ p, p < d.nZ → callR.guess.get p = call.guess.get p) ∧ (InBox callR callR.guess ↔ InBox call call.guess) := by
  obtain ⟨c, e, h0, -, -, h1, h2, h3, h4, h5⟩ := c125_rounded_start R h junk hs
  obtain rfl := Except.ok.inj (hR.symm.trans e)
  obtain ⟨-, -, hg, -⟩ := h.known
  have hget : ∀ p, p < d.nZ → callR.guess.get p = call.guess.get p := by
    intro p hp
    rcases nZ_cases d hp with ⟨k, a, hk, ha, rfl⟩ | ⟨j, b, hj, hb, rfl⟩ | rfl
    · exact h3 k a hk ha
    · have hsb := hs b hb
      have hinv : R.rnd (1 / inScale ops b) = 1 / inScale ops b := by
        have := hc b hb (1 / inScale ops b)
        rw [mul_one_div_cancel hsb, R.one] at this
        field_simp
        linarith
      have hdiv : ∀ x, R.rnd (1 / inScale ops b * x) = 1 / inScale ops b * R.rnd x := by
        intro x
        have := hc b hb (1 / inScale ops b * x)
        rw [← mul_assoc, mul_one_div_cancel hsb, one_mul] at this
        rw [this, ← mul_assoc, one_div_mul_cancel hsb, one_mul]
      rw [h4 j b hj hb, hinv, hc b hb, hr j b hj hb, ← mul_assoc, one_div_mul_cancel hsb, one_mul, hr j b hj hb]
    · exact h5
  refine ⟨hget, ?_⟩
  unfold InBox
  rw [h0, hg.guess.size, h1, h2]
  exact ⟨fun hh p hp => by rw [← hget p hp]; exact hh p hp, fun hh p hp => by rw [hget p hp]; exact hh p hp⟩

theorem rnd_gamma (n : Nat) {x y : K} (h : |y - x| ≤ R.gamma n * |x|) : |R.rnd y - x| ≤ R.gamma (n + 1) * |x| := by
  have h1 := R.err y
  have h2 : |y| ≤ |y - x| + |x| := by
    have := abs_add_le (y - x) x
    rwa [sub_add_cancel] at this
  have h3 : |R.rnd y - x| ≤ |R.rnd y - y| + |y - x| := by
    have := abs_add_le (R.rnd y - y) (y - x)
    rwa [sub_add_sub_cancel] at this
  have he := R.eps_nonneg
  have h4 : R.eps * |y| ≤ R.eps * (R.gamma n * |x| + |x|) := mul_le_mul_of_nonneg_left (by linarith) he
  have h5 : R.gamma (n + 1) = R.gamma n + R.eps * (1 + R.gamma n) := by unfold Rounding.gamma; ring
  rw [h5]
  linarith [h4, h1, h3, h, show (R.gamma n + R.eps * (1 + R.gamma n)) * |x| = R.eps * (R.gamma n * |x| + |x|) + R.gamma n * |x| by ring]

/-- C125, how far it can be off: an input of the starting point differs from that of exact arithmetic by three roundings, relative
to its size (for `double`: 3.4e-16 or less). So a start is refused because of rounding only if an input is that close to its
bound. -/
theorem c125_near (h : NlAsked d dyn ops outs x0 u0 cs oc m m' r call) {junk : Nat → K}
    (hR : m.startR R.rnd x0 u0 junk = .ok callR) (hs : ∀ b, b < d.nu → inScale ops b ≠ 0) {j b : Nat} (hj : j < d.ch)
    (hb : b < d.nu) : |callR.guess.get (inputIx d j b) - call.guess.get (inputIx d j b)|
      ≤ R.gamma 3 * |call.guess.get (inputIx d j b)| := by
  obtain ⟨c, e, -, -, -, -, -, -, h4, -⟩ := c125_rounded_start R h junk hs
  obtain rfl := Except.ok.inj (hR.symm.trans e)
  rw [h4 j b hj hb]
  generalize call.guess.get (inputIx d j b) = w
  have hsb := hs b hb
  generalize inScale ops b = s at hsb
  apply rnd_gamma R 2
  have he := R.eps_nonneg
  have e1 : R.rnd (1 / s) * R.rnd (s * w) - w
      = (R.rnd (1 / s) - 1 / s) * (R.rnd (s * w) - s * w) + (R.rnd (1 / s) - 1 / s) * (s * w) + 1 / s * (R.rnd (s * w) - s * w) := by
    field_simp
    ring
  have a1 := R.err (1 / s)
  have a2 := R.err (s * w)
  have k : |1 / s| * |s * w| = |w| := by rw [← abs_mul, ← mul_assoc, one_div_mul_cancel hsb, one_mul]
  have b1 := mul_le_mul a1 a2 (abs_nonneg _) (mul_nonneg he (abs_nonneg _))
  have b2 := mul_le_mul_of_nonneg_right a1 (abs_nonneg (s * w))
  have b3 := mul_le_mul_of_nonneg_left a2 (abs_nonneg (1 / s))
  rw [e1]
  refine (abs_add_le _ _).trans ((add_le_add ((abs_add_le _ _).trans le_rfl) le_rfl).trans ?_)
  rw [abs_mul _ (R.rnd (s * w) - s * w), abs_mul _ (s * w), abs_mul _ (R.rnd (s * w) - s * w)]
  have : R.gamma 2 * |w| = R.eps * |1 / s| * (R.eps * |s * w|) + R.eps * |1 / s| * |s * w| + |1 / s| * (R.eps * |s * w|) := by
    rw [← k]
    unfold Rounding.gamma
    ring
  rw [this]
  exact add_le_add (add_le_add b1 b2) b3

/-- C125, partial: what is not so close to its bounds is inside in the arithmetic of the code too. -/
theorem c125_margin_partial (h : NlAsked d dyn ops outs x0 u0 cs oc m m' r call) {junk : Nat → K}
    (hR : m.startR R.rnd x0 u0 junk = .ok callR) (hs : ∀ b, b < d.nu → inScale ops b ≠ 0) (hin : InBox call call.guess)
    (hm : ∀ j b, j < d.ch → b < d.nu → ∀ y, |y - call.guess.get (inputIx d j b)| ≤ R.gamma 3 * |call.guess.get (inputIx d j b)| →
      within (call.lb.get (inputIx d j b)) (call.ub.get (inputIx d j b)) y) : InBox callR callR.guess := by
  obtain ⟨c, e, h0, -, -, h1, h2, h3, h4, h5⟩ := c125_rounded_start R h junk hs
  obtain rfl := Except.ok.inj (hR.symm.trans e)
  obtain ⟨-, -, hg, -⟩ := h.known
  intro p hp
  rw [h0, hg.guess.size] at hp
  rw [h1, h2]
  have hin' : ∀ p, p < d.nZ → within (call.lb.get p) (call.ub.get p) (call.guess.get p) := fun p hp => hin p (by rw [hg.guess.size]; exact hp)
  rcases nZ_cases d hp with ⟨k, a, hk, ha, rfl⟩ | ⟨j, b, hj, hb, rfl⟩ | rfl
  · rw [h3 k a hk ha]; exact hin' _ hp
  · exact hm j b hj hb _ (c125_near R h hR hs hj hb)
  · rw [h5]; exact hin' _ hp

/-- C125, what happens then: with warm start and scalings other than zero, a start refused because of rounding is refused in every
later call of the loop, whatever is measured. -/
theorem c125_refused_forever {more : List (NlCall d K)} {mouts : List (NlOut K)} {x u : Vec K} {ks oc'} {n n' : NlMpc d K}
    {r' : LResult K} {call' callR' : NlSolverCall K} {junk junk' : Nat → K} (h : NlAsked d dyn ops outs x0 u0 cs oc m m' r call)
    (hR : m.startR R.rnd x0 u0 junk = .ok callR)
    (h' : NlAsked d dyn (ops ++ more) (outs ++ mouts) x u ks oc' n n' r' call')
    (hR' : n.startR R.rnd x u junk' = .ok callR') (hw : WarmStart ops = true) (hsol : (last solutionOf ops).isSome = true)
    (hs : ∀ b, b < d.nu → inScale ops b ≠ 0) (ht : ∀ op ∈ more, throwsNow op = true) :
    InBox callR' callR'.guess ↔ InBox callR callR.guess := by
  obtain ⟨g0, g1, g2⟩ := same_start_get h h' hw hsol ht
  have hsc : inScale (ops ++ more) = inScale ops := by
    funext b
    unfold inScale
    rw [last_append, last_none, Option.none_or]
    intro op ho
    have := ht op ho
    cases op with
    | optimize x u cs oc j => rfl
    | _ => cases this
  obtain ⟨c, e, a0, -, -, a1, a2, a3, a4, a5⟩ := c125_rounded_start R h junk hs
  obtain rfl := Except.ok.inj (hR.symm.trans e)
  obtain ⟨c', e', b0, -, -, b1, b2, b3, b4, b5⟩ := c125_rounded_start R h' junk' (by rw [hsc]; exact hs)
  obtain rfl := Except.ok.inj (hR'.symm.trans e')
  obtain ⟨-, -, hg, -⟩ := h.known
  obtain ⟨-, -, hg', -⟩ := h'.known
  have hget : ∀ p, p < d.nZ → callR'.guess.get p = callR.guess.get p := by
    intro p hp
    rcases nZ_cases d hp with ⟨k, a, hk, ha, rfl⟩ | ⟨j, b, hj, hb, rfl⟩ | rfl
    · rw [a3 k a hk ha, b3 k a hk ha, g0 _ hp]
    · rw [a4 j b hj hb, b4 j b hj hb, g0 _ hp, hsc]
    · rw [a5, b5, g0 _ hp]
  unfold InBox
  rw [a0, b0, hg.guess.size, hg'.guess.size, a1, a2, b1, b2, g1, g2]
  exact ⟨fun hh p hp => by rw [← hget p hp]; exact hh p hp, fun hh p hp => by rw [hget p hp]; exact hh p hp⟩

end
end Mpc.Props

/-! ### `double`: an input at its bound -/

namespace Mpc.Props
open Mpc Exec NlSpec
open Mpc.Spec (within)

/-- the `double` 0.1 -/
def tenth : ℚ := 3602879701896397 / 2 ^ 55

theorem tenth_double : double.rnd tenth = tenth := by
  have := double_fixed 3602879701896397 (-55) (by norm_num)
  have e : tenth = ((3602879701896397 : ℤ) : ℚ) * 2 ^ (-55 : ℤ) := by unfold tenth; norm_num
  rw [e]
  exact this

/-- `(1 / 0.1) * (0.1 * 7) > 7` in `double` -/
theorem double_seven : double.rnd (double.rnd (1 / tenth) * double.rnd (tenth * 7)) = 7881299347898369 / 2 ^ 50 := by
  have e1 : double.rnd (1 / tenth) = 10 := by
    rw [double_eval (e := 3) (n := 5629499534213120) (by unfold tenth; norm_num) (by unfold tenth; norm_num)
      (by unfold tenth; rw [abs_lt]; constructor <;> norm_num)]
    norm_num
  have e2 : double.rnd (tenth * 7) = 6305039478318695 / 2 ^ 53 := by
    rw [double_eval (e := -1) (n := 6305039478318695) (by unfold tenth; norm_num) (by unfold tenth; norm_num)
      (by unfold tenth; rw [abs_lt]; constructor <;> norm_num)]
    norm_num
  rw [e1, e2, double_eval (e := 2) (n := 7881299347898369) (by norm_num) (by norm_num) (by rw [abs_lt]; constructor <;> norm_num)]
  norm_num

/-- warm start, the inputs scaled by 0.1, their decision variables within [-7, 7] -/
def setupS : List (NlCall dN ℚ) :=
  [warmN true, .setInputScale (nvec 1 fun _ => tenth), .setInputBoundsSlice (bvec 1 (-7)) (bvec 1 7) HorizonSlice.all]

theorem setupS_ran : ∃ m, NlRan dN false setupS [.unit, .unit, .bool true] m := by
  obtain ⟨outs, m, h⟩ := nlRan_exists (K := ℚ) (d := dN) (dyn := false) (ops := setupS) dN_ok (by decide) (by decide)
    (fun _ => 0) (by simp [setupS, warmN, CallFits, bvec, nvec, HorizonSlice.Int32, HorizonSlice.all])
    (fun p op q e => admFrom_split (pre := []) (by
      simp [setupS, AdmFrom, Admissible, warmN, SliceUsable, HorizonSlice.all]) p op q e)
  have hl := h.len
  have ho := h.outOk
  rcases outs with _ | ⟨o1, _ | ⟨o2, _ | ⟨o3, _ | ⟨o4, os⟩⟩⟩⟩
  all_goals simp [setupS] at hl
  have h1 : OutOk dN (warmN true) o1 := ho (_, _) (List.mem_cons_self ..)
  have h2 : OutOk dN (.setInputScale (nvec 1 fun _ => tenth)) o2 := ho (_, _) (List.mem_cons_of_mem _ (List.mem_cons_self ..))
  have h3 : OutOk dN (.setInputBoundsSlice (bvec 1 (-7)) (bvec 1 7) HorizonSlice.all) o3 :=
    ho (_, _) (List.mem_cons_of_mem _ (List.mem_cons_of_mem _ (List.mem_cons_self ..)))
  obtain rfl : o1 = .unit := h1
  obtain rfl : o2 = .unit := h2
  obtain ⟨b, rfl, hb⟩ := h3
  have : b = true := hb
  subst this
  exact ⟨m, h⟩

/-- an answer with both inputs at their bound -/
def zTop : Vec ℚ := ⟨9, fun p => if p = 6 ∨ p = 7 then 7 else 0⟩

/-- one call, answered with the inputs at their bound -/
def loopS (j : Nat → ℚ) : List (NlCall dN ℚ) :=
  [.optimize (nvec 2 fun _ => 0) (nvec 1 fun _ => 0) [] (.answered zTop (.fin 0) 1 false) j]

theorem setupS_limits (k a : Nat) :
    stateLimits setupS [.unit, .unit, .bool true] k a = (.negInf, .posInf) ∧
    inputLimits setupS [.unit, .unit, .bool true] k a = (.fin (-7), .fin 7) := by
  constructor
  · rfl
  · simp only [inputLimits, setupS, warmN, List.zip_cons_cons, List.zip_nil_right, last, inputBox, Option.none_or,
      Option.or_none, bvec]
    rw [if_pos (.inl rfl)]
    rfl

theorem tenth_ne : tenth ≠ 0 := by unfold tenth; norm_num

theorem loopS_scale (j) (b : Nat) : inScale (setupS ++ loopS j) b = tenth := by
  simp [inScale, last, inScaleOf, setupS, warmN, loopS, nvec]

theorem setupS_scale (b : Nat) : inScale setupS b = tenth := by
  simp [inScale, last, inScaleOf, setupS, warmN, nvec]

/-- The second call of the loop: the starting point has the inputs at their bound. -/
theorem top_asked (x : ℚ) : ∃ j o m m' r call, NlAsked dN false (setupS ++ loopS j) ([.unit, .unit, .bool true] ++ [o])
    (nvec 2 fun _ => x) (nvec 1 fun _ => 0) [] .threw m m' r call ∧ InBox call call.guess ∧
    (∀ p, p < dN.nZ → call.guess.get p = zTop.get p) ∧ call.ub.get (inputIx dN 0 0) = .fin 7 := by
  obtain ⟨m, h⟩ := setupS_ran
  have hu : ∀ op ∈ setupS, UsableCall op := by
    intro op h
    simp only [setupS, List.mem_cons, List.not_mem_nil, or_false] at h
    rcases h with rfl | rfl | rfl
    · trivial
    · trivial
    · exact .inl rfl
  obtain ⟨m', r, call, h1⟩ := h.asks (x0 := nvec 2 fun _ => 0) (u0 := nvec 1 fun _ => 0)
    (oc := .answered zTop (.fin 0) 1 false) rfl rfl (by rintro _ _ _ _ ⟨⟩; rfl) (by decide)
  obtain ⟨j, hfit, hstep⟩ := h1.ask
  have h2 : NlRan dN false (setupS ++ loopS j) ([.unit, .unit, .bool true] ++ [.result r call]) m' := h.snoc hfit hstep
  obtain ⟨m2, r2, call2, h3⟩ := h2.asks (x0 := nvec 2 fun _ => x) (u0 := nvec 1 fun _ => 0) (oc := .threw) rfl rfl
    (by rintro _ _ _ _ ⟨⟩) (by decide)
  have hk0 : ∀ q ∈ setupS.zip [.unit, .unit, .bool true], KeepsBox (d := dN) (K := ℚ) q := by
    simp [setupS, warmN, KeepsBox]
  have hin : InBox call call.guess := by
    rw [c124_cold_partial h1 hu hk0 (.inr rfl) (fun b _ => by rw [setupS_scale]; exact tenth_ne)]
    refine ⟨fun k a _ _ => by rw [(setupS_limits k a).1]; exact within_inf _, fun k b _ _ => ?_⟩
    rw [(setupS_limits k b).2]
    exact ⟨(Ext.fin_le_fin _ _).2 (by simp [nvec]), (Ext.fin_le_fin _ _).2 (by simp [nvec])⟩
  have hz7 : ∀ p, (-7 : ℚ) ≤ zTop.get p ∧ zTop.get p ≤ 7 := by
    intro p
    simp only [zTop]
    split_ifs <;> norm_num
  have hz : InBox call zTop := by
    rw [inBox_iff h1 hu rfl]
    refine ⟨fun k a hk ha => by rw [(setupS_limits k a).1]; exact within_inf _, fun k b _ _ => ?_, by rfl⟩
    rw [(setupS_limits k b).2]
    exact ⟨(Ext.fin_le_fin _ _).2 (hz7 _).1, (Ext.fin_le_fin _ _).2 (hz7 _).2⟩
  have hk : ∀ q ∈ (setupS ++ loopS j).zip ([.unit, .unit, .bool true] ++ [.result r call]), KeepsBox q := by
    rw [List.zip_append (by rfl)]
    intro q hq
    rcases List.mem_append.1 hq with hq | hq
    · exact hk0 q hq
    · obtain rfl := List.mem_singleton.1 hq
      exact ⟨fun hn => absurd hin hn, by rintro _ _ _ _ ⟨⟩; exact hz⟩
  have hu' : ∀ op ∈ setupS ++ loopS j, UsableCall op := by
    intro op ho
    rcases List.mem_append.1 ho with ho | ho
    · exact hu op ho
    · obtain rfl := List.mem_singleton.1 ho
      trivial
  have hsc : ∀ b, b < dN.nu → inScale (setupS ++ loopS j) b ≠ 0 := fun b _ => by rw [loopS_scale]; exact tenth_ne
  have hlim := limits_keep (d := dN) (ops := setupS) (outs := [.unit, .unit, .bool true]) (loop := loopS j)
    (louts := [.result r call]) (by rfl) (by
      intro op ho
      obtain rfl := List.mem_singleton.1 ho
      rfl)
  refine ⟨j, _, m', m2, r2, call2, h3, ?_, ?_, ?_⟩
  · rw [c124_warm_partial h3 hu' hk (mid := []) (pre := setupS) (z := zTop) rfl (by simp) rfl hsc]
    unfold ShiftInLimits
    rw [hlim.1, hlim.2]
    refine ⟨fun k a _ _ => by rw [(setupS_limits k a).1]; exact within_inf _, fun k b _ _ => ?_⟩
    rw [(setupS_limits k b).2]
    exact ⟨(Ext.fin_le_fin _ _).2 (hz7 _).1, (Ext.fin_le_fin _ _).2 (hz7 _).2⟩
  · obtain ⟨-, g1, g2, g3⟩ := c47_warm_shift h3 (mid := []) (pre := setupS) (z := zTop) rfl (by simp) rfl hsc
    have g3 : call2.guess.get (slackIx dN) = 0 := by rw [h3.start.slack, start_foldl_slack h3.toNlRan hu' hk]
    intro p hp
    rcases nZ_cases dN hp with ⟨k, a, hk, ha, rfl⟩ | ⟨q, b, hj, hb, rfl⟩ | rfl
    · rw [g1 k a hk ha]
      have hq : ∀ k, k < 3 → zTop.get (stateIx dN k a) = 0 := by
        intro k hk
        have : a < 2 := ha
        simp only [zTop, stateIx]
        rw [if_neg]
        omega
      rw [hq _ (by have : k < 3 := hk; show min (k + 1) 2 < 3; omega), hq k hk]
    · rw [g2 q b hj hb]
      have hq : ∀ q, q < 2 → zTop.get (inputIx dN q b) = 7 := by
        intro q hq
        have : b < 1 := hb
        simp only [zTop, inputIx]
        rw [if_pos]
        omega
      rw [hq _ (by have : q < 2 := hj; show min (q + 1) 1 < 2; omega), hq q hj]
    · rw [g3]
      rfl
  · obtain ⟨-, -, -, hi⟩ := c44_boxes_partial h3 hu'
    have := hi 0 0 (by decide) (by decide)
    have e : inputLimits (setupS ++ loopS j) ([.unit, .unit, .bool true] ++ [.result r call]) 0 0 = (.fin (-7), .fin 7) := by
      rw [hlim.2]
      exact (setupS_limits 0 0).2
    exact congrArg Prod.snd (this.trans e)

/-- C125 is violated in `double`: inputs scaled by 0.1 whose decision variables are bounded by 7, and an answer at the bound. The
starting point of the next call is 7.000000000000001. -/
theorem c125_saturated_violated : ¬ C125Claim double := by
  intro hc
  obtain ⟨j, o, m, m', r, call, h, hin, hz, hub⟩ := top_asked 0
  have hsc : ∀ b, b < dN.nu → inScale (setupS ++ loopS j) b ≠ 0 := fun b _ => by rw [loopS_scale]; exact tenth_ne
  obtain ⟨callR, e, h0, -, -, h1, h2, h3, h4, h5⟩ := c125_rounded_start double h (fun _ => 0) hsc
  have := hc _ _ _ _ _ _ _ _ _ _ _ _ _ _ h e (fun b _ => by rw [loopS_scale]; exact ⟨tenth_ne, tenth_double⟩) (by
    intro p hp
    rw [hz p hp]
    simp only [zTop]
    split_ifs
    · have := double_fixed 7 0 (by norm_num)
      simpa using this
    · exact double.zero) hin (inputIx dN 0 0) (by
        rw [h0, h.start.size]
        decide)
  rw [h2, hub, h4 0 0 (by decide) (by decide), loopS_scale, hz _ (by decide), show zTop.get (inputIx dN 0 0) = 7 by rfl,
    double_seven] at this
  have := (Ext.fin_le_fin _ _).1 this.2
  norm_num at this

/-- non-vacuity of `c125_refused_forever`: in that loop the starting point is outside the bounds in the arithmetic of the code, in
this call and in the one after, from whatever states -/
example (x y : ℚ) : ∃ ops outs m m' r call callR, NlAsked dN false ops outs (nvec 2 fun _ => x) (nvec 1 fun _ => 0) [] .threw m m' r call ∧
    m.startR double.rnd (nvec 2 fun _ => x) (nvec 1 fun _ => 0) (fun _ => 0) = .ok callR ∧ ¬ InBox callR callR.guess ∧
    ∃ more mouts n n' r' call' callR', NlAsked dN false (ops ++ more) (outs ++ mouts) (nvec 2 fun _ => y) (nvec 1 fun _ => 0) [] .threw
      n n' r' call' ∧ more.length = 1 ∧
      n.startR double.rnd (nvec 2 fun _ => y) (nvec 1 fun _ => 0) (fun _ => 0) = .ok callR' ∧ ¬ InBox callR' callR'.guess := by
  obtain ⟨j, o, m, m', r, call, h, hin, hz, hub⟩ := top_asked x
  have hsc : ∀ b, b < dN.nu → inScale (setupS ++ loopS j) b ≠ 0 := fun b _ => by rw [loopS_scale]; exact tenth_ne
  obtain ⟨callR, e, h0, -, -, h1, h2, h3, h4, h5⟩ := c125_rounded_start double h (fun _ => 0) hsc
  have hn : ¬ InBox callR callR.guess := by
    intro hb
    have := hb (inputIx dN 0 0) (by rw [h0, h.start.size]; decide)
    rw [h2, hub, h4 0 0 (by decide) (by decide), loopS_scale, hz _ (by decide), show zTop.get (inputIx dN 0 0) = 7 by rfl,
      double_seven] at this
    have := (Ext.fin_le_fin _ _).1 this.2
    norm_num at this
  obtain ⟨j', hfit, hstep⟩ := h.ask
  have k2 := h.toNlRan.snoc hfit hstep
  obtain ⟨m2, r2, call2, k3⟩ := k2.asks (x0 := nvec 2 fun _ => y) (u0 := nvec 1 fun _ => 0) (oc := .threw) rfl rfl
    (by rintro _ _ _ _ ⟨⟩) (by decide)
  obtain ⟨callR2, e2, -⟩ := c125_rounded_start double k3 (fun _ => 0) (by
    intro b _
    have : inScale ((setupS ++ loopS j) ++ [.optimize (nvec 2 fun _ => x) (nvec 1 fun _ => 0) [] .threw j']) b = tenth := by
      simp [inScale, last, inScaleOf, setupS, warmN, loopS, nvec]
    rw [this]
    exact tenth_ne)
  refine ⟨_, _, m, m', r, call, callR, h, e, hn, _, _, _, m2, r2, call2, callR2, k3, rfl, e2, ?_⟩
  rw [c125_refused_forever double h e k3 e2 rfl rfl hsc (by intro op ho; obtain rfl := List.mem_singleton.1 ho; rfl)]
  exact hn

/-- in `double`, multiplying by a power of two commutes with rounding: `c125_unscaled_partial` covers such scalings -/
theorem double_pow (e : ℤ) (x : ℚ) : double.rnd (2 ^ e * x) = 2 ^ e * double.rnd x := by
  have h2 : (0 : ℚ) < 2 ^ e := zpow_pos (by norm_num) _
  rcases eq_or_ne x 0 with rfl | hx
  · rw [mul_zero, double.zero, mul_zero]
  have hp : 0 < |x| := abs_pos.2 hx
  have hl : Int.log 2 |2 ^ e * x| = e + Int.log 2 |x| := by
    rw [abs_mul, abs_of_pos h2]
    have hm : 0 < 2 ^ e * |x| := mul_pos h2 hp
    have a1 := Int.zpow_log_le_self (b := 2) (by norm_num) hp
    have a2 := Int.lt_zpow_succ_log_self (b := 2) (by norm_num) |x|
    have a1 : (2 : ℚ) ^ Int.log 2 |x| ≤ |x| := by exact_mod_cast a1
    have a2 : |x| < (2 : ℚ) ^ (Int.log 2 |x| + 1) := by exact_mod_cast a2
    apply le_antisymm
    · rw [← Int.lt_add_one_iff, ← Int.lt_zpow_iff_log_lt (by norm_num) hm]
      push_cast
      rw [add_assoc, zpow_add₀ (by norm_num)]
      exact mul_lt_mul_of_pos_left a2 h2
    · rw [← Int.zpow_le_iff_le_log (by norm_num) hm]
      push_cast
      rw [zpow_add₀ (by norm_num)]
      exact mul_le_mul_of_nonneg_left a1 h2.le
  have hu : ulp 53 (2 ^ e * x) = 2 ^ e * ulp 53 x := by
    unfold ulp
    rw [hl, ← zpow_add₀ (by norm_num)]
    congr 1
    ring
  show roundBits 53 _ = _ * roundBits 53 x
  unfold roundBits
  rw [hu, mul_div_mul_left _ _ h2.ne']
  ring

/-- non-vacuity of `c125_unscaled_partial`: scaling by 1 commutes with every rounding, and the loops of C124 are not scaled -/
example (x : ℚ) : ∃ ops outs m m' r call callR, NlAsked dN false ops outs (nvec 2 fun _ => x) (nvec 1 fun _ => 0) [] .threw m m' r call ∧
    m.startR double.rnd (nvec 2 fun _ => x) (nvec 1 fun _ => 0) (fun _ => 0) = .ok callR ∧
    (∀ b, b < dN.nu → inScale ops b ≠ 0) ∧ (∀ b, b < dN.nu → ∀ x, double.rnd (inScale ops b * x) = inScale ops b * double.rnd x) ∧
    ∀ j b, j < dN.ch → b < dN.nu → double.rnd (call.guess.get (inputIx dN j b)) = call.guess.get (inputIx dN j b) := by
  obtain ⟨j, o, m, m', r, call, h, hk, -⟩ := shift_asked x
  have hsc : ∀ b, b < dN.nu → inScale (setupN ⟨0, 1⟩ ++ loopN j) b ≠ 0 := fun b _ => loopN_scale _ j b
  obtain ⟨callR, e, -⟩ := c125_rounded_start double h (fun _ => 0) hsc
  have h1 : ∀ b, inScale (setupN ⟨0, 1⟩ ++ loopN j) b = 1 := by
    intro b
    simp [inScale, last, inScaleOf, setupN, warmN, copyModel, boxN, loopN]
  obtain ⟨-, -, g2, -⟩ := c47_warm_shift h (mid := []) (pre := setupN ⟨0, 1⟩) (z := zShift) rfl (by simp) rfl hsc
  refine ⟨_, _, m, m', r, call, callR, h, e, hsc, fun b _ x => by rw [h1, one_mul, one_mul], fun q b hj hb => ?_⟩
  rw [g2 q b hj hb]
  simp only [zShift]
  split_ifs
  · have := double_fixed 5 0 (by norm_num)
    simpa using this
  · exact double.zero

end Mpc.Props
