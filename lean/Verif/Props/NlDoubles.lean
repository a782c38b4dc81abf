import Verif.Proofs.NlDoubles
import Verif.Props.NlSteps

/-
C126: user functions of the nonlinear controller which do not return a number everywhere (a logarithm outside of its domain, a
division by zero). `F` lists the functions of the controller by the `double`s they return; everything else (scalings, measured
state, sampling) is what the calls `ops` made.
-/
namespace Mpc.Props
open Mpc Exec NlSpec
set_option linter.unusedSectionVars false

section
variable {d : Dims} {K : Type} [Field K] [LinearOrder K] [IsStrictOrderedRing K]
variable {dyn : Bool} {ops : List (NlCall d K)} {outs : List (NlOut K)} {m : NlMpc d K} {x0 : Vec K}
  {cs : List (NlCallback K)} {s : NlState d K}

/-! ### what the solver is given -/

/-- C126 for the objective: the value is what the function returned, and every derivative is computed from the difference quotients
which `ObjDiffF` and `RowF` name: those of states and slack from their own quotient. Missing: each input derivative depends on the
quotients of all inputs (see `c126_objective_violated`). -/
theorem c126_objective_partial (h : InSolver d dyn ops outs m x0 cs s) (F : DoubleFns d K) (z : Vec K) (hz : z.size = d.nZ) :
    ∃ v g gx gu ge, s.evalObjF F z true = .ok (v, some g) ∧ g.size = d.nZ ∧
      v = costF F (statesOf ops x0 z) (inputsOf ops z) (z.get (slackIx d)) ∧
      ObjDiffF d (costF F) (statesOf ops x0 z) (inputsOf ops z) (z.get (slackIx d))
        (fun a => stepOf (1 / 1000000) (linear (statesOf ops x0 z) a)) (fun b => stepOf (1 / 1000000) (linear (inputsOf ops z) b))
        (max (1 / 1000000) |z.get (slackIx d)| * (1 / 1000000)) gx gu ge ∧
      RowF d (fun _ => 1) (inScale ops) gx gu ge g.get := by
  obtain ⟨c, hs, e1, e2, -, -, -, -, -, -, -, ho, -⟩ := h.config
  obtain ⟨⟨v, og⟩, hr, h1, h2⟩ := Dbl.evaluateObj_post s.obj hs.osz s.mp hs.good hs.dims F z hz h.hor.ph_int true
  rw [hs.stS, hs.inS, ho, e1, e2] at h1 h2
  simp only [if_true] at h2
  obtain ⟨g, gx, gu, ge, k1, k2, k3, k4⟩ := h2
  subst k1
  exact ⟨v, g, gx, gu, ge, hr, k2, h1, k3, k4⟩

/-- C126 for the inequality constraints: row `c` comes from component `c` of the function only. -/
theorem c126_inequality_partial (h : InSolver d dyn ops outs m x0 cs s) (F : DoubleFns d K) (z : Vec K) (hz : z.size = d.nZ)
    (junk : Nat → Flt K) :
    ∃ r gx gu, ∃ ge : Nat → Flt K, s.evalIneqF F z junk = .ok r ∧ r.value.size = d.ineq ∧ r.grad.size = d.nZ * d.ineq ∧
      (∀ c : Fin d.ineq, r.value.get c = ineqF F (statesOf ops x0 z) (inputsOf ops z) (z.get (slackIx d)) c) ∧
      ConDiffF d d.ineq (ineqF F) (statesOf ops x0 z) (inputsOf ops z) (z.get (slackIx d))
        (fun _ a => stepOf (1 / 67108864) (linear (statesOf ops x0 z) a))
        (fun _ b => stepOf (1 / 67108864) (linear (inputsOf ops z) b)) false gx gu ∧
      0 < max (1 / 67108864) |z.get (slackIx d)| * (1 / 67108864) ∧
      (∀ c : Fin d.ineq, IsQuotient
        (ineqF F (statesOf ops x0 z) (inputsOf ops z) (z.get (slackIx d) + max (1 / 67108864) |z.get (slackIx d)| * (1 / 67108864)) c)
        (ineqF F (statesOf ops x0 z) (inputsOf ops z) (z.get (slackIx d) - max (1 / 67108864) |z.get (slackIx d)| * (1 / 67108864)) c)
        (2 * (max (1 / 67108864) |z.get (slackIx d)| * (1 / 67108864))) (ge c)) ∧
      ∀ c : Fin d.ineq, RowF d (stScale ops) (inScale ops) (gx c) (gu c) (ge c) (fun l => r.grad.get (c * d.nZ + l)) := by
  obtain ⟨c, hs, e1, e2, -, -, -, -, -, -, -, -, ho⟩ := h.config
  obtain ⟨r, hr, k1, k2, k3, gx, gu, ge, k4, k5, k6, k7⟩ :=
    Dbl.evalIneq_post s.con hs.csz s.mp hs.good hs.dims F junk z hz h.hor.ph_int
  rw [hs.stS, hs.inS, ho, e1, e2] at *
  exact ⟨r, gx, gu, ge, hr, k1, k2, k3, k4, k5, k6, k7⟩

/-- C126 for the equality constraints: row `c` comes from component `c` of the function only. -/
theorem c126_equality_partial (h : InSolver d dyn ops outs m x0 cs s) (F : DoubleFns d K) (z : Vec K) (hz : z.size = d.nZ)
    (junk : Nat → Flt K) :
    ∃ r gx gu, s.evalEqF F z junk = .ok r ∧ r.value.size = d.eq ∧ r.grad.size = d.nZ * d.eq ∧
      (∀ c : Fin d.eq, r.value.get c = F.eq (statesOf ops x0 z) (inputsOf ops z) c) ∧
      ConDiffF d d.eq (fun X U _ => F.eq X U) (statesOf ops x0 z) (inputsOf ops z) (z.get (slackIx d))
        (fun k a => stepOf (1 / 67108864) (entry (statesOf ops x0 z) (k + 1) a))
        (fun _ b => stepOf (1 / 67108864) (entry (inputsOf ops z) (d.ph - 1) b)) true gx gu ∧
      ∀ c : Fin d.eq, RowF d (stScale ops) (inScale ops) (gx c) (gu c) (.fin 0) (fun l => r.grad.get (c * d.nZ + l)) := by
  obtain ⟨c, hs, e1, e2, -, -, -, -, -, -, -, -, ho⟩ := h.config
  obtain ⟨r, hr, k1, k2, k3, gx, gu, k4, k7⟩ := Dbl.evalEq_post s.con hs.csz s.mp hs.good hs.dims F junk z hz
  rw [hs.stS, hs.inS, ho, e1, e2] at *
  exact ⟨r, gx, gu, hr, k1, k2, k3, k4, k7⟩

/-- C126 for the state equation of a discrete-time controller: the rows of step `k` come from the quotients of the state equation at
step `k`. Missing: each row depends on the quotients of *all* components of the equation (see `c126_model_violated`). -/
theorem c126_discrete_partial (h : InSolver d dyn ops outs m x0 cs s) (hd : last samplingOf ops = none)
    (hsc : ∀ a, stScale ops a ≠ 0) (F : DoubleFns d K) (z : Vec K) (hz : z.size = d.nZ) (junk : Nat → Flt K) :
    ∃ r, ∃ (qx : Fin d.ph → Fin d.nx → Fin d.nx → Flt K) (qu : Fin d.ph → Fin d.nx → Fin d.nu → Flt K),
      s.evalDynF F z true junk = .ok r ∧ r.value.size = d.ph * d.nx ∧ r.grad.size = d.nZ * (d.ph * d.nx) ∧
      (∀ k : Fin d.ph, StateDiffF d (1 / 67108864) F.state (statesOf ops x0 z k.castSucc) (inputsOf ops z k.castSucc) k (qx k) (qu k)) ∧
      ∀ (k : Fin d.ph) (i : Fin d.nx),
        From (fun _ : Unit => F.state (statesOf ops x0 z k.castSucc) (inputsOf ops z k.castSucc) k i)
          (fun v => (statesOf ops x0 z k.succ i - v ()) / stScale ops i) (r.value.get (k * d.nx + i)) ∧
        DiscreteRowF d (stScale ops) (inScale ops) (qx k) (qu k) k i (fun l => r.grad.get ((k * d.nx + i) * d.nZ + l)) := by
  obtain ⟨c, hs, e1, e2, -, -, -, -, -, e8, -, -, ho⟩ := h.config
  rw [hd] at e8
  obtain ⟨r, hr, k1, k2, qx, qu, k3, k4⟩ := NlState.evalDynF_discrete hs h.hor.ph_int F e8 (by rw [e2]; exact hsc) z hz true junk
    (X := statesOf ops x0 z) (U := inputsOf ops z) (by rw [ho, e2]; rfl) (by rw [e1]; rfl)
  rw [e1, e2] at k4
  exact ⟨r, qx, qu, hr, k1, k2, k3, fun k i => ⟨(k4 k i).1, (k4 k i).2 rfl⟩⟩

/-- C126 for the state equation of a continuous-time controller with sample time `Ts`. -/
theorem c126_continuous_partial (h : InSolver d dyn ops outs m x0 cs s) {Ts : K} (hd : last samplingOf ops = some Ts)
    (hsc : ∀ a, stScale ops a ≠ 0) (F : DoubleFns d K) (z : Vec K) (hz : z.size = d.nZ) (junk : Nat → Flt K) :
    ∃ r, ∃ (qx qx' : Fin d.ph → Fin d.nx → Fin d.nx → Flt K) (qu qu' : Fin d.ph → Fin d.nx → Fin d.nu → Flt K),
      s.evalDynF F z true junk = .ok r ∧ r.value.size = d.ph * d.nx ∧ r.grad.size = d.nZ * (d.ph * d.nx) ∧
      (∀ k : Fin d.ph, StateDiffF d (1 / 67108864) F.state (statesOf ops x0 z k.castSucc) (inputsOf ops z k.castSucc) k (qx k) (qu k)) ∧
      (∀ k : Fin d.ph, StateDiffF d (1 / 67108864) F.state (statesOf ops x0 z k.succ) (inputsOf ops z k.castSucc) k (qx' k) (qu' k)) ∧
      ∀ (k : Fin d.ph) (i : Fin d.nx),
        From (fun t : Bool => if t then F.state (statesOf ops x0 z k.castSucc) (inputsOf ops z k.castSucc) k i
            else F.state (statesOf ops x0 z k.succ) (inputsOf ops z k.castSucc) k i)
          (fun v => (statesOf ops x0 z k.castSucc i + Ts / 2 * (v true + v false) - statesOf ops x0 z k.succ i) / stScale ops i)
          (r.value.get (k * d.nx + i)) ∧
        ContinuousRowF d Ts (stScale ops) (inScale ops) (qx k) (qx' k) (qu k) (qu' k) k i
          (fun l => r.grad.get ((k * d.nx + i) * d.nZ + l)) := by
  obtain ⟨c, hs, e1, e2, -, -, -, -, -, e8, e9, -, ho⟩ := h.config
  rw [hd] at e8 e9
  obtain ⟨r, hr, k1, k2, qx, qx', qu, qu', k3, k3', k4⟩ := NlState.evalDynF_continuous hs h.hor.ph_int F e8 (by rw [e2]; exact hsc) z
    hz true junk (X := statesOf ops x0 z) (U := inputsOf ops z) (by rw [ho, e2]; rfl) (by rw [e1]; rfl)
  rw [e1, e2, e9] at k4
  exact ⟨r, qx, qx', qu, qu', hr, k1, k2, k3, k3', fun k i => ⟨(k4 k i).1, (k4 k i).2 rfl⟩⟩

/-! ### consequences -/

theorem quotient_number {a b q : Flt K} {w : K} (h : IsQuotient a b w q) : IsNumber q ↔ IsNumber a ∧ IsNumber b := by
  constructor
  · intro hq
    refine ⟨?_, ?_⟩
    · by_contra hn; exact h.spoiled true (by simpa using hn) hq
    · by_contra hn; exact h.spoiled false (by simpa using hn) hq
  · rintro ⟨⟨x, rfl⟩, ⟨y, rfl⟩⟩
    exact ⟨_, h.number (fun i => if i then x else y) (fun i => by cases i <;> rfl)⟩

theorem from_number {ι : Type} {xs : ι → Flt K} {val : (ι → K) → K} {q : Flt K} (h : From xs val q) :
    IsNumber q ↔ ∀ i, IsNumber (xs i) := by
  constructor
  · intro hq i
    by_contra hn; exact h.spoiled i hn hq
  · intro hx
    choose v hv using hx
    exact ⟨_, h.number v hv⟩

/-- C126: which derivatives of the objective are numbers. -/
theorem c126_objective_numbers (h : InSolver d dyn ops outs m x0 cs s) (F : DoubleFns d K) (z : Vec K) (hz : z.size = d.nZ) :
    ∃ v g, ∃ hx hu : Nat → K, ∃ he : K, s.evalObjF F z true = .ok (v, some g) ∧ (∀ a, 0 < hx a) ∧ (∀ b, 0 < hu b) ∧ 0 < he ∧
      -- a state: the function is a number here and where this state alone is moved
      (∀ k a, k < d.ph → a < d.nx → (IsNumber (g.get (stateIx d k a)) ↔
        IsNumber (costF F (bump (statesOf ops x0 z) (k + 1) a (hx a)) (inputsOf ops z) (z.get (slackIx d))) ∧
        IsNumber (costF F (statesOf ops x0 z) (inputsOf ops z) (z.get (slackIx d))))) ∧
      -- the slack: on both sides
      (IsNumber (g.get (slackIx d)) ↔
        IsNumber (costF F (statesOf ops x0 z) (inputsOf ops z) (z.get (slackIx d) + he)) ∧
        IsNumber (costF F (statesOf ops x0 z) (inputsOf ops z) (z.get (slackIx d) - he))) ∧
      -- an input: wherever any input of any step is moved
      (∀ j b, j < d.ch → b < d.nu → (IsNumber (g.get (inputIx d j b)) ↔ ∀ k b', k < d.ph → b' < d.nu →
        IsNumber (costF F (statesOf ops x0 z) (if k + 1 = d.ph then bump (bump (inputsOf ops z) k b' (hu b')) d.ph b' (hu b')
          else bump (inputsOf ops z) k b' (hu b')) (z.get (slackIx d))) ∧
        IsNumber (costF F (statesOf ops x0 z) (inputsOf ops z) (z.get (slackIx d))))) := by
  obtain ⟨v, g, gx, gu, ge, hr, -, -, hD, hR⟩ := c126_objective_partial h F z hz
  refine ⟨v, g, _, _, _, hr, hD.posx, hD.posu, hD.pose, ?_, ?_, ?_⟩
  · intro k a hk ha
    rw [from_number (hR.states k a hk ha), ← quotient_number (hD.states k a hk ha)]
    exact ⟨fun hh => hh (), fun hh _ => hh⟩
  · rw [hR.slack, ← quotient_number hD.slack]
  · intro j b hj hb
    rw [from_number (hR.inputs j ⟨b, hb⟩ hj)]
    have key : ∀ k b', k < d.ph → b' < d.nu → (IsNumber (gu k b') ↔
        IsNumber (costF F (statesOf ops x0 z) (if k + 1 = d.ph
          then bump (bump (inputsOf ops z) k b' (stepOf (1 / 1000000) (linear (inputsOf ops z) b'))) d.ph b'
            (stepOf (1 / 1000000) (linear (inputsOf ops z) b'))
          else bump (inputsOf ops z) k b' (stepOf (1 / 1000000) (linear (inputsOf ops z) b'))) (z.get (slackIx d))) ∧
        IsNumber (costF F (statesOf ops x0 z) (inputsOf ops z) (z.get (slackIx d)))) := by
      intro k b' hk hb'
      by_cases hl : k + 1 = d.ph
      · rw [if_pos hl]
        obtain rfl : k = d.ph - 1 := by omega
        exact quotient_number (hD.last b' hb')
      · rw [if_neg hl]
        exact quotient_number (hD.inputs k b' (by omega) hb')
    constructor
    · intro hh k b' hk hb'
      exact (key k b' hk hb').1 (hh (⟨k, hk⟩, ⟨b', hb'⟩))
    · rintro hh ⟨k, b'⟩
      exact (key k b' k.2 b'.2).2 (hh k b' k.2 b'.2)

/-- C126: where the objective itself is NaN, so are all its derivatives with respect to states and inputs. -/
theorem c126_objective_nan (h : InSolver d dyn ops outs m x0 cs s) (F : DoubleFns d K) (z : Vec K) (hz : z.size = d.nZ)
    (hn : costF F (statesOf ops x0 z) (inputsOf ops z) (z.get (slackIx d)) = .nan) :
    ∃ g, s.evalObjF F z true = .ok (.nan, some g) ∧ (∀ k a, k < d.ph → a < d.nx → g.get (stateIx d k a) = .nan) ∧
      ∀ j b, j < d.ch → b < d.nu → g.get (inputIx d j b) = .nan := by
  obtain ⟨v, g, gx, gu, ge, hr, -, hv, hD, hR⟩ := c126_objective_partial h F z hz
  rw [hn] at hv
  subst hv
  refine ⟨g, hr, ?_, ?_⟩
  · intro k a hk ha
    refine (hR.states k a hk ha).nan () ((hD.states k a hk ha).nan false ?_)
    simpa using hn
  · intro j b hj hb
    have hph : 0 < d.ph := by have := h.hor.ch_pos; have := h.hor.ch_le; omega
    refine (hR.inputs j ⟨b, hb⟩ hj).nan (⟨d.ph - 1, by omega⟩, ⟨b, hb⟩) ((hD.last b hb).nan false ?_)
    simpa using hn

/-- C126 for the inequality constraints: a component which returns numbers everywhere has a value and a row of numbers, whatever the
other components return. -/
theorem c126_inequality_rows (h : InSolver d dyn ops outs m x0 cs s) (F : DoubleFns d K) (z : Vec K) (hz : z.size = d.nZ)
    (junk : Nat → Flt K) (c : Fin d.ineq) (hc : ∀ X U e, IsNumber (ineqF F X U e c)) :
    ∃ r, s.evalIneqF F z junk = .ok r ∧ IsNumber (r.value.get c) ∧ ∀ l, l < d.nZ → IsNumber (r.grad.get (c * d.nZ + l)) := by
  obtain ⟨r, gx, gu, ge, hr, -, -, hv, hD, -, hS, hR⟩ := c126_inequality_partial h F z hz junk
  refine ⟨r, hr, by rw [hv c]; exact hc _ _ _, ?_⟩
  intro l hl
  rcases nZ_cases d hl with ⟨k, a, hk, ha, rfl⟩ | ⟨j, b, hj, hb, rfl⟩ | rfl
  · refine (from_number ((hR c).states k a hk ha)).2 fun _ => (quotient_number (hD.states c k a hk ha)).2 ⟨hc _ _ _, hc _ _ _⟩
  · refine (from_number ((hR c).inputs j ⟨b, hb⟩ hj)).2 ?_
    rintro ⟨k, b'⟩
    by_cases hk : (k : Nat) + 1 < d.ph
    · exact (quotient_number (hD.inputs c k b' hk b'.2)).2 ⟨hc _ _ _, hc _ _ _⟩
    · have e : (k : Nat) = d.ph - 1 := by omega
      have := (quotient_number (hD.lastInput c b' b'.2)).2 ⟨by split_ifs <;> exact hc _ _ _, by split_ifs <;> exact hc _ _ _⟩
      dsimp only
      rw [e]; exact this
  · have := (hR c).slack
    rw [this]
    exact (quotient_number (hS c)).2 ⟨hc _ _ _, hc _ _ _⟩

/-- C126 for the equality constraints, likewise. -/
theorem c126_equality_rows (h : InSolver d dyn ops outs m x0 cs s) (F : DoubleFns d K) (z : Vec K) (hz : z.size = d.nZ)
    (junk : Nat → Flt K) (c : Fin d.eq) (hc : ∀ X U, IsNumber (F.eq X U c)) :
    ∃ r, s.evalEqF F z junk = .ok r ∧ IsNumber (r.value.get c) ∧ ∀ l, l < d.nZ → IsNumber (r.grad.get (c * d.nZ + l)) := by
  obtain ⟨r, gx, gu, hr, -, -, hv, hD, hR⟩ := c126_equality_partial h F z hz junk
  refine ⟨r, hr, by rw [hv c]; exact hc _ _, ?_⟩
  intro l hl
  rcases nZ_cases d hl with ⟨k, a, hk, ha, rfl⟩ | ⟨j, b, hj, hb, rfl⟩ | rfl
  · refine (from_number ((hR c).states k a hk ha)).2 fun _ => (quotient_number (hD.states c k a hk ha)).2 ⟨hc _ _, hc _ _⟩
  · refine (from_number ((hR c).inputs j ⟨b, hb⟩ hj)).2 ?_
    rintro ⟨k, b'⟩
    by_cases hk : (k : Nat) + 1 < d.ph
    · exact (quotient_number (hD.inputs c k b' hk b'.2)).2 ⟨hc _ _, hc _ _⟩
    · have e : (k : Nat) = d.ph - 1 := by omega
      have := (quotient_number (hD.lastInput c b' b'.2)).2 ⟨by split_ifs <;> exact hc _ _, by split_ifs <;> exact hc _ _⟩
      dsimp only
      rw [e]; exact this
  · have := (hR c).slack
    rw [this]
    exact ⟨0, rfl⟩

/-- C126 for the state equation: if all components of the equation of step `k` return numbers, its rows are numbers, whatever the
equation returns at the other steps. -/
theorem c126_model_steps (h : InSolver d dyn ops outs m x0 cs s) (hsc : ∀ a, stScale ops a ≠ 0) (F : DoubleFns d K) (z : Vec K)
    (hz : z.size = d.nZ) (junk : Nat → Flt K) (k : Fin d.ph) (hk : ∀ x u i, IsNumber (F.state x u k i)) :
    ∃ r, s.evalDynF F z true junk = .ok r ∧ ∀ i : Fin d.nx, IsNumber (r.value.get (k * d.nx + i)) ∧
      ∀ l, l < d.nZ → IsNumber (r.grad.get ((k * d.nx + i) * d.nZ + l)) := by
  have hq : ∀ {x : FVec d.nx K} {u : FVec d.nu K} {qx qu}, StateDiffF d (1 / 67108864) F.state x u k qx qu →
      (∀ i a, IsNumber (qx i a)) ∧ ∀ i b, IsNumber (qu i b) := fun hh =>
    ⟨fun i a => (quotient_number (hh.states i a)).2 ⟨hk _ _ _, hk _ _ _⟩,
      fun i b => (quotient_number (hh.inputs i b)).2 ⟨hk _ _ _, hk _ _ _⟩⟩
  cases hd : last samplingOf ops with
  | none =>
    obtain ⟨r, qx, qu, hr, -, -, h1, h2⟩ := c126_discrete_partial h hd hsc F z hz junk
    obtain ⟨q1, q2⟩ := hq (h1 k)
    refine ⟨r, hr, fun i => ⟨(from_number (h2 k i).1).2 fun _ => hk _ _ _, ?_⟩⟩
    intro l hl
    have hR := (h2 k i).2
    rcases nZ_cases d hl with ⟨k', a, hk', ha, rfl⟩ | ⟨j, b, hj, hb, rfl⟩ | rfl
    · by_cases e1 : k' = k
      · subst e1; exact ⟨_, hR.next ⟨a, ha⟩⟩
      · by_cases e2 : k' + 1 = k
        · exact (from_number (hR.prev k' ⟨a, ha⟩ e2)).2 fun _ => q1 _ _
        · exact ⟨_, hR.other k' ⟨a, ha⟩ hk' e1 e2⟩
    · exact (from_number (hR.inputs j ⟨b, hb⟩ hj)).2 fun _ => q2 _ _
    · exact ⟨_, hR.slack⟩
  | some Ts =>
    obtain ⟨r, qx, qx', qu, qu', hr, -, -, h1, h1', h2⟩ := c126_continuous_partial h hd hsc F z hz junk
    obtain ⟨q1, q2⟩ := hq (h1 k)
    obtain ⟨q1', q2'⟩ := hq (h1' k)
    refine ⟨r, hr, fun i => ⟨(from_number (h2 k i).1).2 fun t => by split_ifs <;> exact hk _ _ _, ?_⟩⟩
    intro l hl
    have hR := (h2 k i).2
    rcases nZ_cases d hl with ⟨k', a, hk', ha, rfl⟩ | ⟨j, b, hj, hb, rfl⟩ | rfl
    · by_cases e1 : k' = k
      · subst e1; exact (from_number (hR.next ⟨a, ha⟩)).2 fun _ => q1' _ _
      · by_cases e2 : k' + 1 = k
        · exact (from_number (hR.prev k' ⟨a, ha⟩ e2)).2 fun _ => q1 _ _
        · exact ⟨_, hR.other k' ⟨a, ha⟩ hk' e1 e2⟩
    · exact (from_number (hR.inputs j ⟨b, hb⟩ hj)).2 fun t => by split_ifs <;> [exact q2 _ _; exact q2' _ _]
    · exact ⟨_, hR.slack⟩

/-! ### functions which return numbers -/

/-- C126: for an objective which returns numbers the solver is given exactly what the exact model of the other properties gives. -/
theorem c126_numbers_objective (h : InSolver d dyn ops outs m x0 cs s) (F : DoubleFns d K) (f : ObjFn d K)
    (hf : last objectiveOf ops = some f) (hF : ∀ X U e, costF F X U e = .fin (costOf f (last outputOf ops) X U e))
    (z : Vec K) (hz : z.size = d.nZ) :
    ∃ r s' v g G, s.evalObj z true = .ok (r, s') ∧ r.grad = some G ∧ s.evalObjF F z true = .ok (v, some g) ∧ v = .fin r.value ∧
      ∀ l, l < d.nZ → g.get l = .fin (G.get l) := by
  obtain ⟨c, hs, e1, e2, e3, e4, -, -, -, -, -, ho, -⟩ := h.config
  obtain ⟨⟨r, s'⟩, e, q0, q⟩ := NlState.evalObj_post hs h.hor.ph_int (e4.trans hf) z hz true
  simp only [if_true] at q
  obtain ⟨G, gx, gu, ge, h1, -, h3, h4⟩ := q
  obtain ⟨v, g, gx', gu', ge', hr, -, hv, hD, hR⟩ := c126_objective_partial h F z hz
  rw [ho, e1, e2, e3] at q0 h3
  rw [e1] at h4
  have hq : ∀ {a b w : K} {q : Flt K}, IsQuotient (.fin a) (.fin b) w q → q = .fin ((a - b) / w) := fun hh =>
    hh.number (fun i => if i then _ else _) (fun i => by cases i <;> rfl)
  have hgx : ∀ k a, k < d.ph → a < d.nx → gx' k a = .fin (gx k a) := by
    intro k a hk ha
    have := hD.states k a hk ha
    rw [hF, hF] at this
    rw [hq this, h3.states k a hk ha]; rfl
  have hgu : ∀ k b, k < d.ph → b < d.nu → gu' k b = .fin (gu k b) := by
    intro k b hk hb
    by_cases hl : k + 1 < d.ph
    · have := hD.inputs k b hl hb
      rw [hF, hF] at this
      rw [hq this, h3.inputs k b hl hb]; rfl
    · obtain rfl : k = d.ph - 1 := by omega
      have := hD.last b hb
      rw [hF, hF] at this
      rw [hq this, h3.last b hb]; rfl
  refine ⟨r, s', v, g, G, e, h1, hr, by rw [hv, hF, q0]; rfl, ?_⟩
  intro l hl
  rcases nZ_cases d hl with ⟨k, a, hk, ha, rfl⟩ | ⟨j, b, hj, hb, rfl⟩ | rfl
  · rw [(hR.states k a hk ha).number (fun _ => gx k a) (fun _ => hgx k a hk ha), h4.states k a hk ha]
  · rw [(hR.inputs j ⟨b, hb⟩ hj).number (fun i => gu i.1 i.2) (fun i => hgu _ _ i.1.2 i.2.2), h4.inputs j b hj hb,
      Fin.sum_univ_eq_sum_range (fun k => if min k (d.ch - 1) = j then gu k b else 0)]
  · rw [hR.slack, h4.slack, h3.slack]
    have := hD.slack
    rw [hF, hF] at this
    rw [hq this]; rfl

/-- C126: the same for the inequality constraints. -/
theorem c126_numbers_inequality (h : InSolver d dyn ops outs m x0 cs s) (F : DoubleFns d K)
    (f : Traj (d.ph + 1) d.nx K → Traj (d.ph + 1) d.ny K → Traj (d.ph + 1) d.nu K → K → FVec d.ineq K) (tol : K)
    (hf : last ineqConOf ops = some (f, tol)) (hF : ∀ X U e c, ineqF F X U e c = .fin (ineqOf f (last outputOf ops) X U e c))
    (z : Vec K) (hz : z.size = d.nZ) (junk : Nat → K) (junk' : Nat → Flt K) :
    ∃ r s' q, s.evalIneq z junk = .ok (r, s') ∧ s.evalIneqF F z junk' = .ok q ∧
      ∀ c : Fin d.ineq, q.value.get c = .fin (r.value.get c) ∧
        ∀ l, l < d.nZ → q.grad.get (c * d.nZ + l) = .fin (r.grad.get (c * d.nZ + l)) := by
  obtain ⟨c, hs, e1, e2, e3, -, -, e6, -, -, -, -, ho⟩ := h.config
  obtain ⟨⟨r, s'⟩, e, -, -, q0, gx, gu, ge, h3, h4⟩ := NlState.evalIneq_post hs h.hor.ph_int (e6 f tol hf) z hz junk
  obtain ⟨q, gx', gu', ge', hr, -, -, hv, hD, -, hS, hR⟩ := c126_inequality_partial h F z hz junk'
  rw [ho, e1, e2, e3] at q0 h3
  rw [e1, e2] at h4
  have hq : ∀ {a b w : K} {q : Flt K}, IsQuotient (.fin a) (.fin b) w q → q = .fin ((a - b) / w) := fun hh =>
    hh.number (fun i => if i then _ else _) (fun i => by cases i <;> rfl)
  refine ⟨r, s', q, e, hr, fun i => ⟨by rw [hv, hF, q0]; rfl, ?_⟩⟩
  have hgx : ∀ k a, k < d.ph → a < d.nx → gx' i k a = .fin (gx i k a) := by
    intro k a hk ha
    have := hD.states i k a hk ha
    rw [hF, hF] at this
    rw [hq this, h3.states i k a hk ha]; rfl
  have hgu : ∀ k b, k < d.ph → b < d.nu → gu' i k b = .fin (gu i k b) := by
    intro k b hk hb
    by_cases hl : k + 1 < d.ph
    · have := hD.inputs i k b hl hb
      rw [hF, hF] at this
      rw [hq this, h3.inputs i k b hl hb]; rfl
    · obtain rfl : k = d.ph - 1 := by omega
      have := hD.lastInput i b hb
      simp only [Bool.false_eq_true, if_false] at this
      rw [hF, hF] at this
      rw [hq this, h3.lastInput i b hb]; rfl
  intro l hl
  have hR := hR i
  have h4 := h4 i i.2
  rcases nZ_cases d hl with ⟨k, a, hk, ha, rfl⟩ | ⟨j, b, hj, hb, rfl⟩ | rfl
  · rw [(hR.states k a hk ha).number (fun _ => gx i k a) (fun _ => hgx k a hk ha), h4.states k a hk ha]
  · rw [(hR.inputs j ⟨b, hb⟩ hj).number (fun t => gu i t.1 t.2) (fun t => hgu _ _ t.1.2 t.2.2), h4.inputs j b hj hb,
      Fin.sum_univ_eq_sum_range (fun k => if min k (d.ch - 1) = j then gu i k b else 0)]
  · have t1 := hR.slack
    have t2 := h4.slack
    dsimp only at t1 t2
    rw [t1, t2, h3.slack]
    have := hS i
    rw [hF, hF] at this
    rw [hq this]; rfl

/-- C126: the same for the equality constraints. -/
theorem c126_numbers_equality (h : InSolver d dyn ops outs m x0 cs s) (F : DoubleFns d K)
    (f : Traj (d.ph + 1) d.nx K → Traj (d.ph + 1) d.nu K → FVec d.eq K) (tol : K)
    (hf : last eqConOf ops = some (f, tol)) (hF : ∀ X U c, F.eq X U c = .fin (f X U c))
    (z : Vec K) (hz : z.size = d.nZ) (junk : Nat → K) (junk' : Nat → Flt K) :
    ∃ r s' q, s.evalEq z junk = .ok (r, s') ∧ s.evalEqF F z junk' = .ok q ∧
      ∀ c : Fin d.eq, q.value.get c = .fin (r.value.get c) ∧
        ∀ l, l < d.nZ → q.grad.get (c * d.nZ + l) = .fin (r.grad.get (c * d.nZ + l)) := by
  obtain ⟨c, hs, e1, e2, -, -, -, -, e7, -, -, -, ho⟩ := h.config
  obtain ⟨⟨r, s'⟩, e, -, -, q0, gx, gu, h3, h4⟩ := NlState.evalEq_post hs (e7 f tol hf) z hz junk
  obtain ⟨q, gx', gu', hr, -, -, hv, hD, hR⟩ := c126_equality_partial h F z hz junk'
  rw [ho, e1, e2] at q0 h3
  rw [e1, e2] at h4
  have hq : ∀ {a b w : K} {q : Flt K}, IsQuotient (.fin a) (.fin b) w q → q = .fin ((a - b) / w) := fun hh =>
    hh.number (fun i => if i then _ else _) (fun i => by cases i <;> rfl)
  refine ⟨r, s', q, e, hr, fun i => ⟨by rw [hv, hF, q0]; rfl, ?_⟩⟩
  have hgx : ∀ k a, k < d.ph → a < d.nx → gx' i k a = .fin (gx i k a) := by
    intro k a hk ha
    have := hD.states i k a hk ha
    rw [hF, hF] at this
    rw [hq this, h3.states i k a hk ha]; rfl
  have hgu : ∀ k b, k < d.ph → b < d.nu → gu' i k b = .fin (gu i k b) := by
    intro k b hk hb
    by_cases hl : k + 1 < d.ph
    · have := hD.inputs i k b hl hb
      rw [hF, hF] at this
      rw [hq this, h3.inputs i k b hl hb]; rfl
    · obtain rfl : k = d.ph - 1 := by omega
      have := hD.lastInput i b hb
      simp only [if_true] at this
      rw [hF, hF] at this
      rw [hq this, h3.lastInput i b hb]; rfl
  intro l hl
  have hR := hR i
  have h4 := h4 i i.2
  rcases nZ_cases d hl with ⟨k, a, hk, ha, rfl⟩ | ⟨j, b, hj, hb, rfl⟩ | rfl
  · rw [(hR.states k a hk ha).number (fun _ => gx i k a) (fun _ => hgx k a hk ha), h4.states k a hk ha]
  · rw [(hR.inputs j ⟨b, hb⟩ hj).number (fun t => gu i t.1 t.2) (fun t => hgu _ _ t.1.2 t.2.2), h4.inputs j b hj hb,
      Fin.sum_univ_eq_sum_range (fun k => if min k (d.ch - 1) = j then gu i k b else 0)]
  · have t1 := hR.slack
    have t2 := h4.slack
    dsimp only at t1 t2
    rw [t1, t2]

/-- C126: the same for the state equation. -/
theorem c126_numbers_model (h : InSolver d dyn ops outs m x0 cs s) (hsc : ∀ a, stScale ops a ≠ 0) (F : DoubleFns d K)
    (f : FVec d.nx K → FVec d.nu K → Nat → FVec d.nx K) (hf : last modelOf ops = some f)
    (hF : ∀ x u k i, F.state x u k i = .fin (f x u k i)) (z : Vec K) (hz : z.size = d.nZ) (junk : Nat → K) (junk' : Nat → Flt K) :
    ∃ r s' q, s.evalDyn z true junk = .ok (r, s') ∧ s.evalDynF F z true junk' = .ok q ∧
      ∀ (k : Fin d.ph) (i : Fin d.nx), q.value.get (k * d.nx + i) = .fin (r.value.get (k * d.nx + i)) ∧
        ∀ l, l < d.nZ → q.grad.get ((k * d.nx + i) * d.nZ + l) = .fin (r.grad.get ((k * d.nx + i) * d.nZ + l)) := by
  obtain ⟨c, hs, e1, e2, -, -, e5, -, -, e8, e9, -, ho⟩ := h.config
  obtain ⟨⟨r, s'⟩, e, -, -, hD⟩ := NlState.evalDyn_traj hs h.hor.ph_int (e5.trans hf) z hz true junk
  rw [ho, e1, e2, e8, e9] at hD
  have hq : ∀ {a b w : K} {q : Flt K}, IsQuotient (.fin a) (.fin b) w q → q = .fin ((a - b) / w) := fun hh =>
    hh.number (fun i => if i then _ else _) (fun i => by cases i <;> rfl)
  have hqs : ∀ {x : FVec d.nx K} {u : FVec d.nu K} {k : Nat} {qx qu}, StateDiffF d (1 / 67108864) F.state x u k qx qu →
      (∀ i a, qx i a = .fin (quotX (1 / 67108864) f x u k i a)) ∧ ∀ i b, qu i b = .fin (quotU (1 / 67108864) f x u k i b) := by
    intro x u k qx qu hh
    refine ⟨fun i a => ?_, fun i b => ?_⟩
    · have := hh.states i a
      rw [hF, hF] at this
      exact hq this
    · have := hh.inputs i b
      rw [hF, hF] at this
      exact hq this
  cases hd : last samplingOf ops with
  | none =>
    obtain ⟨q, qx, qu, hr, -, -, h1, h2⟩ := c126_discrete_partial h hd hsc F z hz junk'
    refine ⟨r, s', q, e, hr, fun k i => ⟨?_, ?_⟩⟩
    · rw [(h2 k i).1.number (fun _ => f (statesOf ops x0 z k.castSucc) (inputsOf ops z k.castSucc) k i) (fun _ => hF _ _ _ _),
        (hD k i).1]
      simp only [residual, hd, Option.isSome_none, Bool.false_eq_true, if_false]
      rfl
    · intro l hl
      have hR := (h2 k i).2
      have hE := (hD k i).2 rfl
      obtain ⟨q1, q2⟩ := hqs (h1 k)
      rcases nZ_cases d hl with ⟨k', a, hk', ha, rfl⟩ | ⟨j, b, hj, hb, rfl⟩ | rfl
      · have t := hE.states k' ⟨a, ha⟩ hk'
        simp only [residualNext, residualPrev, hd, Option.isSome_none, Bool.false_eq_true, if_false] at t
        rw [t]
        by_cases c1 : k' = k
        · subst c1; rw [if_pos rfl]; exact hR.next ⟨a, ha⟩
        · rw [if_neg c1]
          by_cases c2 : k' + 1 = k
          · rw [if_pos c2]
            exact (hR.prev k' ⟨a, ha⟩ c2).number (fun t => quotX _ f _ _ _ t.1 t.2) (fun t => q1 _ _)
          · rw [if_neg c2]; exact hR.other k' ⟨a, ha⟩ hk' c1 c2
      · have t := hE.inputs j ⟨b, hb⟩ hj
        simp only [residualInput, hd, Option.isSome_none, Bool.false_eq_true, if_false] at t
        rw [t]
        exact (hR.inputs j ⟨b, hb⟩ hj).number (fun t => quotU _ f _ _ _ t.1 t.2) (fun t => q2 _ _)
      · rw [hE.slack]; exact hR.slack
  | some Ts =>
    obtain ⟨q, qx, qx', qu, qu', hr, -, -, h1, h1', h2⟩ := c126_continuous_partial h hd hsc F z hz junk'
    refine ⟨r, s', q, e, hr, fun k i => ⟨?_, ?_⟩⟩
    · rw [(h2 k i).1.number (fun t => if t then f (statesOf ops x0 z k.castSucc) (inputsOf ops z k.castSucc) k i
        else f (statesOf ops x0 z k.succ) (inputsOf ops z k.castSucc) k i) (fun t => by cases t <;> exact hF _ _ _ _),
        (hD k i).1]
      simp only [residual, hd, Option.isSome_some, if_true]
      rfl
    · intro l hl
      have hR := (h2 k i).2
      have hE := (hD k i).2 rfl
      obtain ⟨q1, q2⟩ := hqs (h1 k)
      obtain ⟨q1', q2'⟩ := hqs (h1' k)
      rcases nZ_cases d hl with ⟨k', a, hk', ha, rfl⟩ | ⟨j, b, hj, hb, rfl⟩ | rfl
      · have t := hE.states k' ⟨a, ha⟩ hk'
        simp only [residualNext, residualPrev, hd, Option.isSome_some, if_true, Option.getD_some] at t
        rw [t]
        by_cases c1 : k' = k
        · subst c1; rw [if_pos rfl]
          exact (hR.next ⟨a, ha⟩).number (fun t => quotX _ f _ _ _ t.1 t.2) (fun t => q1' _ _)
        · rw [if_neg c1]
          by_cases c2 : k' + 1 = k
          · rw [if_pos c2]
            exact (hR.prev k' ⟨a, ha⟩ c2).number (fun t => quotX _ f _ _ _ t.1 t.2) (fun t => q1 _ _)
          · rw [if_neg c2]; exact hR.other k' ⟨a, ha⟩ hk' c1 c2
      · have t := hE.inputs j ⟨b, hb⟩ hj
        simp only [residualInput, hd, Option.isSome_some, if_true, Option.getD_some] at t
        rw [t]
        exact (hR.inputs j ⟨b, hb⟩ hj).number (fun t => if t.1 then quotU _ f _ _ _ t.2.1 t.2.2 else quotU _ f _ _ _ t.2.1 t.2.2)
          (fun t => by obtain ⟨t, l, b'⟩ := t; cases t <;> [exact q2' _ _; exact q2 _ _])
      · rw [hE.slack]; exact hR.slack

end

/-! ### what fails -/

/-- C126 in full, for the objective: an input derivative is a number if the objective is a number wherever that input alone is moved,
at any steps and by any amounts. -/
def C126Claim (K : Type) [Field K] [LinearOrder K] [IsStrictOrderedRing K] : Prop :=
  ∀ (d : Dims) (dyn : Bool) (ops : List (NlCall d K)) (outs : List (NlOut K)) (m : NlMpc d K) (x0 : Vec K) (cs : List (NlCallback K))
    (s : NlState d K), InSolver d dyn ops outs m x0 cs s → ∀ (F : DoubleFns d K) (z : Vec K), z.size = d.nZ →
    ∀ (j : Nat) (b : Fin d.nu), j < d.ch →
      (∀ U', (∀ k c, c ≠ b → U' k c = inputsOf ops z k c) → IsNumber (costF F (statesOf ops x0 z) U' (z.get (slackIx d)))) →
      ∀ v g, s.evalObjF F z true = .ok (v, some g) → IsNumber (g.get (inputIx d j b))

/-- C126 in full, for the state equation: a component which always returns numbers has rows of numbers. -/
def C126ModelClaim (K : Type) [Field K] [LinearOrder K] [IsStrictOrderedRing K] : Prop :=
  ∀ (d : Dims) (dyn : Bool) (ops : List (NlCall d K)) (outs : List (NlOut K)) (m : NlMpc d K) (x0 : Vec K) (cs : List (NlCallback K))
    (s : NlState d K), InSolver d dyn ops outs m x0 cs s → ∀ (F : DoubleFns d K) (z : Vec K), z.size = d.nZ → ∀ junk : Nat → Flt K,
    ∀ i : Fin d.nx, (∀ x u k, IsNumber (F.state x u k i)) → ∀ r, s.evalDynF F z true junk = .ok r →
      ∀ (k : Fin d.ph) (l : Nat), l < d.nZ → IsNumber (r.grad.get ((k * d.nx + i) * d.nZ + l))

/-- two states, two inputs, two steps -/
abbrev dB : Dims := ⟨2, 2, 0, 1, 2, 2, 1, 1⟩

theorem dB_ok : HorizonsOk dB := ⟨by decide, by decide, by decide⟩

def opsB : List (NlCall dB ℚ) :=
  [ .setObjectiveFunction (fun X _ _ _ => X 1 0 * X 1 0) true ]

theorem opsB_in : ∃ outs m s, InSolver dB false opsB outs m ⟨2, fun _ => 0⟩ [] s := by
  obtain ⟨outs, m, m', r, call, h⟩ := nlAsked_exists (d := dB) (K := ℚ) (dyn := false) (ops := opsB)
    (x0 := ⟨2, fun _ => 0⟩) (u0 := ⟨2, fun _ => 0⟩) (cs := []) (oc := .threw) dB_ok (by decide) (by decide) (fun _ => 0)
    (by
      intro op h
      unfold opsB at h
      simp only [List.cons_append, List.nil_append, List.mem_cons, List.not_mem_nil, or_false] at h
      rcases h with rfl | rfl
      all_goals simp [NlSpec.CallFits])
    (by
      intro p op q' e
      have := admFrom_split (d := dB) (dyn := false) (pre := []) (l := opsB ++ [.optimize ⟨2, fun _ => 0⟩ ⟨2, fun _ => 0⟩
        [] .threw (fun _ => 0)]) ?_ p op q' e
      · exact this
      · unfold opsB
        simp only [List.cons_append, List.nil_append, AdmFrom, NlSpec.Admissible, and_true])
  obtain ⟨s, hs⟩ := h.inSolver
  exact ⟨outs, m, s, hs⟩

/-- An objective which is NaN where the second input of the first step is positive, and a state equation whose second component is NaN
where the second state is positive. -/
def fnsB : DoubleFns dB ℚ where
  state := fun x _ _ i => if i = 1 then (if 0 < x 1 then .nan else .fin 0) else .fin (x 0)
  out := none
  obj := fun _ _ U _ => if 0 < U 0 1 then .nan else .fin 0
  ineq := fun _ _ U _ _ => if 0 < U 0 1 then .nan else .fin 0
  eq := fun _ _ _ => .fin 0

def zB : Vec ℚ := ⟨9, fun _ => 0⟩

theorem inputsB (k : Fin 3) (b : Fin 2) : inputsOf opsB zB k b = 0 := by
  show (1 : ℚ) * 0 = 0; norm_num

theorem statesB (k : Fin 2) (a : Fin 2) : statesOf opsB (⟨2, fun _ => 0⟩ : Vec ℚ) zB k.succ a = 0 := by
  show (1 : ℚ) * 0 = 0; norm_num

theorem notNumber_nan {K : Type} : ¬ IsNumber (Flt.nan : Flt K) := by
  rintro ⟨y, h⟩; cases h

/-- C126 fails for the objective (Objective.hpp:135, the product with `Iz2u` takes all input quotients): the objective does not depend on the first
input, and is a number at the current point, but the derivative with respect to the first input is not a number, because the probe
of the second input left the domain. -/
theorem c126_objective_violated : ¬ C126Claim ℚ := by
  intro H
  obtain ⟨outs, m, s, h⟩ := opsB_in
  obtain ⟨v, g, hx, hu, he, e, -, pu, -, -, -, h3⟩ := c126_objective_numbers h fnsB zB rfl
  have := H dB false opsB outs m _ [] s h fnsB zB rfl 0 0 (by decide) ?_ v g e
  · have := ((h3 0 0 (by decide) (by decide)).1 this 0 1 (by decide) (by decide)).1
    refine notNumber_nan (K := ℚ) ?_
    have hh : fnsB.obj (statesOf opsB (⟨2, fun _ => 0⟩ : Vec ℚ) zB) (fun _ _ => 0) (bump (inputsOf opsB zB) 0 1 (hu 1)) 0 = .nan := by
      refine if_pos ?_
      have : bump (inputsOf opsB zB) 0 1 (hu 1) (0 : Fin 3) (1 : Fin 2) = hu 1 := by
        unfold bump
        rw [if_pos ⟨rfl, rfl⟩, inputsB, zero_add]
      rw [this]
      exact pu 1
    rw [← hh]
    exact this
  · intro U' hU
    have : ¬ (0 : ℚ) < U' 0 1 := by
      rw [hU 0 1 (by decide), inputsB]; exact lt_irrefl _
    exact ⟨0, if_neg this⟩

theorem fnsB_nan {x : FVec 2 ℚ} {u : FVec 2 ℚ} {k : Nat} (h : 0 < x 1) : fnsB.state x u k 1 = .nan := by
  show (if (1 : Fin 2) = 1 then (if 0 < x 1 then .nan else .fin 0) else .fin (x 0) : Flt ℚ) = _
  rw [if_pos rfl, if_pos h]

/-- C126 fails for the state equation (Constraints.hpp:610-611, `Sx * Ak * Tx` and `Sx * Bk` with dense `Sx`, `Tx`): the first component of the
equation is always a number, but its row is not, because the second component left its domain when probed. -/
theorem c126_model_violated : ¬ C126ModelClaim ℚ := by
  intro H
  obtain ⟨outs, m, s, h⟩ := opsB_in
  obtain ⟨r, qx, qu, e, -, -, h1, h2⟩ := c126_discrete_partial h rfl (fun a => by show (1 : ℚ) ≠ 0; norm_num) fnsB zB rfl (fun _ => 0)
  have := H dB false opsB outs m _ [] s h fnsB zB rfl (fun _ => 0) 0 (fun x u k => ⟨x 0, rfl⟩) r e 1 (stateIx dB 0 0) (by decide)
  refine notNumber_nan (K := ℚ) ?_
  have q : qx 1 1 1 = .nan := by
    refine ((h1 1).states 1 1).nan true ?_
    rw [if_pos rfl]
    refine fnsB_nan ?_
    show 0 < bumpV _ 1 _ 1
    unfold bumpV
    rw [if_pos (by rfl)]
    have := statesB 0 1
    have e : (Fin.castSucc (1 : Fin 2) : Fin 3) = Fin.succ (0 : Fin 2) := rfl
    rw [e, this, zero_add]
    exact stepOf_pos (by norm_num) _
  rw [← (h2 1 0).2.prev 0 0 rfl |>.nan (1, 1) q]
  exact this

/-! ### the hypotheses are met -/

/-- the hypotheses of `c126_objective_partial` and of the other theorems about what the solver is given -/
example : ∃ outs m s, InSolver dB false opsB outs m ⟨2, fun _ => 0⟩ [] s ∧ zB.size = dB.nZ ∧ last samplingOf opsB = none ∧
    ∀ a, stScale opsB a ≠ 0 := by
  obtain ⟨outs, m, s, h⟩ := opsB_in
  exact ⟨outs, m, s, h, rfl, rfl, fun a => by show (1 : ℚ) ≠ 0; norm_num⟩

/-- `c126_continuous_partial`: the continuous-time sample controller -/
example : ∃ outs m s, InSolver dN false opsN outs m (nvec 2 fun _ => 1) [.con 2 (zN 5) true (fun _ => 0)] s ∧
    last samplingOf opsN = some (1 / 10) ∧ ∀ a, stScale opsN a ≠ 0 := by
  obtain ⟨outs, m, m', r, call, h⟩ := sampleN_asked 1 4 .threw (by simp)
  obtain ⟨s, hs⟩ := h.inSolver
  exact ⟨outs, m, s, hs, rfl, fun a => by show (1 : ℚ) ≠ 0; norm_num⟩

/-- `c126_objective_nan`: an objective which is NaN at the current point -/
example : costF { fnsB with obj := fun _ _ _ _ => .nan } (statesOf opsB (⟨2, fun _ => 0⟩ : Vec ℚ) zB) (inputsOf opsB zB)
    (zB.get (slackIx dB)) = .nan := rfl

/-- `c126_equality_rows`, `c126_inequality_rows`, `c126_model_steps`: functions with a good component or step -/
example : ∀ (X : Traj 3 2 ℚ) (U : Traj 3 2 ℚ) (c : Fin 1), IsNumber (fnsB.eq X U c) := fun _ _ _ => ⟨0, rfl⟩

example : ∀ (x u : FVec 2 ℚ) (i : Fin 2), IsNumber ((fun x _ k i => if k = 1 ∧ i = 1 then .nan else .fin (x i) :
    FVec 2 ℚ → FVec 2 ℚ → Nat → FVec 2 (Flt ℚ)) x u 0 i) := fun x _ i => ⟨x i, if_neg (by simp)⟩

/-- `c126_numbers_objective`: the objective of `opsB`, as `double`s -/
example : last objectiveOf opsB = some (fun X _ _ _ => X 1 0 * X 1 0) ∧
    ∀ X U e, costF { fnsB with obj := fun X _ _ _ => .fin (X 1 0 * X 1 0) } X U e
      = .fin (costOf (fun X _ _ _ => X 1 0 * X 1 0) (last outputOf opsB) X U e) := ⟨rfl, fun _ _ _ => rfl⟩

end Mpc.Props
