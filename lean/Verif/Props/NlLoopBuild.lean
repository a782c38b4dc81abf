import Verif.Props.NlLoop

/-
Closed loops of the nonlinear controller exist: helper and a sample which meets the hypotheses of C93 to C95.
-/
namespace Mpc.Props
open Mpc.NlSpec Exec
open Mpc.Spec (within IsBest)
set_option linter.unusedSectionVars false

section
variable {d : Dims} {K : Type} [Field K] [LinearOrder K] [IsStrictOrderedRing K]

/-- controller, result and what the solver was given after one more `optimize` -/
def turnStep (x u : Vec K) (oc : NlOutcome K) (s : NlMpc d K × LResult K × NlSolverCall K) : NlMpc d K × LResult K × NlSolverCall K :=
  match s.1.step (.optimize x u [] oc (fun _ => 0)) with
  | .ok (m', .result r call) => (m', r, call)
  | _ => s

/-- the controllers of a loop -/
def turnState (x u : Nat → Vec K) (oc : Nat → NlOutcome K) (s : NlMpc d K × LResult K × NlSolverCall K) :
    Nat → NlMpc d K × LResult K × NlSolverCall K
  | 0 => s
  | t + 1 => turnStep (x t) (u t) (oc t) (turnState x u oc s t)

/-- Given states, commands and answers of the solver such that in every step the answer begins with the next command and the
plant follows, there is a closed loop which goes through them. -/
theorem nlLoop_exists {dyn : Bool} {ops : List (NlCall d K)} {outs : List (NlOut K)} {m0 : NlMpc d K} (h0 : NlRan d dyn ops outs m0)
    (he : 0 < d.eq) (P : FVec d.nx K → FVec d.nu K → FVec d.nx K) (x u z : Nat → Vec K)
    (hx : ∀ t, (x t).size = d.nx) (hu : ∀ t, (u t).size = d.nu) (hz : ∀ t, (z t).size = d.ph * d.nx + d.nu * d.ch + 1)
    (hc : ∀ t b, b < d.nu → (u (t + 1)).get b = inputAt d (inScale ops) (z t).get 0 b)
    (hP : ∀ t (a : Fin d.nx), (x (t + 1)).get a = P (fun a => (x t).get a) (fun b => (u (t + 1)).get b) a) :
    ∃ T : Nat → Turn K, (∀ N, Loop d dyn ops outs P T N) ∧
      ∀ t, (T t).x = x t ∧ (T t).u = u t ∧ (T t).oc = .answered (z t) (.fin 0) 1 false := by
  let oc : Nat → NlOutcome K := fun t => .answered (z t) (.fin 0) 1 false
  obtain ⟨_, r0, call0, -⟩ := h0.asks (x0 := x 0) (u0 := u 0) (oc := .threw) (hx 0) (hu 0) (by rintro _ _ _ _ ⟨⟩) he
  let S := turnState x u oc (m0, r0, call0)
  let T : Nat → Turn K := fun t => ⟨x t, u t, [], oc t, fun _ => 0, (S (t + 1)).2.1, (S (t + 1)).2.2,
    (S (t + 1)).1.o.seqState, (S (t + 1)).1.o.seqInput⟩
  have hfit : ∀ t, CallFits d (.optimize (x t) (u t) [] (oc t) (fun _ => 0)) := fun t => ⟨hx t, hu t, by simp, hz t⟩
  have go : ∀ t, NlRan d dyn (turnOps ops T t) (turnOuts outs T t) (S t).1 →
      (S t).1.step (.optimize (x t) (u t) [] (oc t) (fun _ => 0)) = .ok ((S (t + 1)).1, .result (T t).r (T t).call) := by
    intro t ht
    obtain ⟨h1, -, -⟩ := ht.agrees
    obtain ⟨⟨m', o⟩, hr⟩ := NlMpc.optimize_total h1 ht.hor.ph_int (hfit t) (NlMpc.after_bound _ _) (fun _ => he)
    obtain ⟨r, call, rfl, -⟩ := NlMpc.optimize_ok h1 ht.hor.ph_int (hfit t) hr
    have hr : (S t).1.step (.optimize (x t) (u t) [] (oc t) (fun _ => 0)) = .ok (m', .result r call) := hr
    have e : S (t + 1) = (m', r, call) := by
      show turnStep (x t) (u t) (oc t) (S t) = _
      unfold turnStep
      rw [hr]
    show _ = Except.ok ((S (t + 1)).1, NlOut.result (S (t + 1)).2.1 (S (t + 1)).2.2)
    rw [e]; exact hr
  have main : ∀ t, NlRan d dyn (turnOps ops T t) (turnOuts outs T t) (S t).1 := by
    intro t
    induction t with
    | zero => exact h0
    | succ t ih => exact ih.snoc (hfit t) (go t ih)
  have ask : ∀ t, NlAsked d dyn (turnOps ops T t) (turnOuts outs T t) (T t).x (T t).u (T t).cs (T t).oc (S t).1 (S (t + 1)).1
      (T t).r (T t).call := fun t => ⟨main t, fun _ => 0, hfit t, go t (main t)⟩
  have cmd : ∀ t b, b < d.nu → (u (t + 1)).get b = (T t).r.cmd.get b := by
    intro t b hb
    obtain ⟨-, -, hI, -, hcm, -⟩ := c58_sequences_partial (ask t) rfl
    rw [hc t b hb, hcm b hb, hI 0 b (by omega) hb]
    unfold inScale
    rw [turn_last _ (fun _ _ _ _ _ => rfl)]
  refine ⟨T, fun N => ⟨fun t _ => ⟨_, _, ask t, rfl, rfl⟩, fun t b _ hb => cmd t b hb, fun t a _ => ?_⟩, fun t => ⟨rfl, rfl, rfl⟩⟩
  show (x (t + 1)).get a = _
  rw [hP t a, show (fun b : Fin d.nu => (u (t + 1)).get b) = fun b : Fin d.nu => (T t).r.cmd.get b from funext fun b => cmd t b b.2]

end

/-! ### a sample: x+ = x² + u is brought to 0, where it has to be at the end of the horizon -/

abbrev dL : Dims := { nx := 1, nu := 1, ndu := 0, ny := 1, ph := 2, ch := 2, ineq := 1, eq := 1 }

theorem dL_ok : HorizonsOk dL := ⟨by decide, by decide, by decide⟩

/-- bounded inputs, the end of the horizon is pinned to 0, states cost their square -/
def opsL : List (NlCall dL ℚ) :=
  [ .setStateSpaceFunction (fun x u _ _ => x 0 * x 0 + u 0) 0 true,
    .setObjectiveFunction (fun X _ _ _ => X 0 0 * X 0 0 + X 1 0 * X 1 0) true,
    .setEqConFunction (fun X _ _ => X 2 0) 0 true,
    .setInputBoundsSlice (bvec 1 (-2)) (bvec 1 2) ⟨-1, -1⟩ ]

/-- the model of the sample -/
def modelL (x u : FVec 1 ℚ) : FVec 1 ℚ := fun _ => x 0 * x 0 + u 0

theorem opsL_ran : ∃ outs m, NlRan dL false opsL outs m := by
  refine nlRan_exists (K := ℚ) (d := dL) (dyn := false) (ops := opsL) dL_ok (by decide) (by decide)
    (fun _ => 0) (by simp [opsL, CallFits, bvec, HorizonSlice.Int32]) (fun p op q e => admFrom_split (pre := []) ?_ p op q e)
  simp only [opsL, AdmFrom, Admissible, SliceUsable, true_and, and_true]
  exact ⟨by decide, .inl rfl⟩

section
variable {outs : List (NlOut ℚ)} {m : NlMpc dL ℚ}

theorem opsL_stateLimits (hl : outs.length = opsL.length) (k a : Nat) : stateLimits opsL outs k a = (.negInf, .posInf) := by
  obtain ⟨o1, o2, o3, o4, rfl⟩ := length_four (show outs.length = 4 from hl)
  simp [stateLimits, opsL, last, stateBox]

/-- the bounds are those set, or none if they were refused -/
theorem opsL_inputLimits (hl : outs.length = opsL.length) : ∃ c : Ext ℚ × Ext ℚ, (∀ j b, inputLimits opsL outs j b = c) ∧
    ∀ v, -2 ≤ v → v ≤ 2 → within c.1 c.2 v := by
  obtain ⟨o1, o2, o3, o4, rfl⟩ := length_four (show outs.length = 4 from hl)
  by_cases h : o4 = .bool true
  · subst h
    refine ⟨(.fin (-2), .fin 2), fun j b => ?_, fun v h1 h2 => ⟨h1, h2⟩⟩
    simp [inputLimits, opsL, last, inputBox, InSlice, HorizonSlice.all, bvec]
  · refine ⟨(.negInf, .posInf), fun j b => ?_, fun v _ _ => ⟨trivial, trivial⟩⟩
    have : ∀ o : NlOut ℚ, o ≠ .bool true →
        inputBox (d := dL) j b (.setInputBoundsSlice (bvec 1 (-2)) (bvec 1 2) ⟨-1, -1⟩, o) = none := by
      intro o ho
      unfold inputBox
      split
      · rename_i heq; cases heq
      · rename_i heq; cases heq; exact absurd rfl ho
      · rfl
    simp only [inputLimits, opsL, last, List.zip_cons_cons, List.zip_nil_right]
    rw [this o4 h]
    rfl

theorem opsL_plain (hl : outs.length = opsL.length) : Plain opsL outs := by
  refine ⟨?_, ⟨?_, ?_⟩, ⟨?_, ?_, ?_⟩⟩
  · intro op h
    simp only [opsL, List.mem_cons, List.not_mem_nil, or_false] at h
    rcases h with rfl | rfl | rfl | rfl
    · trivial
    · trivial
    · trivial
    · exact .inl rfl
  · intro op h
    simp only [opsL, List.mem_cons, List.not_mem_nil, or_false] at h
    rcases h with rfl | rfl | rfl | rfl <;> simp [acceptedOf]
  · show [NlGroupKind.dynamics, NlGroupKind.userEq].Nodup
    decide
  · intro a _; simp [opsL, stScale, last, stScaleOf]
  · intro b _; simp [opsL, inScale, last, inScaleOf]
  · intro b _ h; exact absurd (by simp [opsL, inScale, last, inScaleOf]) h

theorem opsL_staged (hl : outs.length = opsL.length) :
    Staged opsL outs modelL (fun x _ => x 0 * x 0) (fun _ => 0) (fun _ _ => True) (fun x => x 0 = 0) := by
  refine ⟨by rfl, by rfl, ?_, ?_, ⟨_, by rfl, fun X U => ?_⟩, fun X U => ?_⟩
  · intro k a v _ _ _
    rw [opsL_stateLimits hl]
    exact ⟨trivial, trivial⟩
  · obtain ⟨c, h1, -⟩ := opsL_inputLimits hl
    intro j b v _ _ h
    rw [h1] at h ⊢
    exact h
  · rw [Fin.sum_univ_two, add_zero]
    rfl
  · constructor
    · rintro ⟨-, h2⟩
      exact ⟨fun _ => trivial, abs_nonpos_iff.1 (h2 _ _ rfl 0)⟩
    · rintro ⟨-, h⟩
      refine ⟨fun G tol hG => absurd (show none = some (G, tol) from hG) (by simp), fun G tol hG i => ?_⟩
      obtain ⟨rfl, rfl⟩ := Prod.mk.inj (Option.some.inj (show some (_, _) = some (G, tol) from hG))
      exact abs_nonpos_iff.2 h

theorem opsL_pays (hl : outs.length = opsL.length) :
    NlSpec.EndPays opsL outs modelL (fun x _ => x 0 * x 0) (fun _ => 0) (fun _ _ => True) (fun x => x 0 = 0) := by
  obtain ⟨c, h1, h2⟩ := opsL_inputLimits hl
  rintro x v ⟨hx, -⟩ -
  refine ⟨fun _ => 0, fun b => ?_, trivial, ⟨?_, fun a => ?_⟩, fun h => absurd h (by decide), ?_⟩
  · rw [h1]
    exact h2 _ (by norm_num) (by norm_num)
  · show x 0 * x 0 + 0 = 0
    rw [hx]; norm_num
  · rw [opsL_stateLimits hl]
    exact ⟨trivial, trivial⟩
  · show x 0 * x 0 + 0 ≤ 0
    rw [hx]; norm_num

/-- the states of the sample loop: 1, then 0 -/
def xL (t : Nat) : Vec ℚ := nvec 1 fun _ => if t = 0 then 1 else 0

/-- its commands: -1 in the first step, then 0 -/
def uL (t : Nat) : Vec ℚ := nvec 1 fun _ => if t = 1 then -1 else 0

/-- the answers of the solver: states 0, 0 and inputs -1 (in the first step), 0 -/
def zL (t : Nat) : Vec ℚ := ⟨5, fun p => if t = 0 ∧ p = 2 then -1 else 0⟩

/-- non-vacuity of C93, C94 and C95: a closed loop of any length, with exact answers, which meets all hypotheses -/
theorem opsL_loop : ∃ outs T, (∀ N, Loop dL false opsL outs modelL T N) ∧ Plain opsL outs ∧
    Staged opsL outs modelL (fun x _ => x 0 * x 0) (fun _ => 0) (fun _ _ => True) (fun x => x 0 = 0) ∧
    NlSpec.EndPays opsL outs modelL (fun x _ => x 0 * x 0) (fun _ => 0) (fun _ _ => True) (fun x => x 0 = 0) ∧
    (∀ t, Solves dL false opsL outs T 0 t) ∧ (T 0).x.get 0 = 1 ∧ (T 1).x.get 0 = 0 ∧ CanSolve dL false opsL outs T 0 := by
  obtain ⟨outs, m, h0⟩ := opsL_ran
  have hl := h0.len
  obtain ⟨T, hT, hv⟩ := nlLoop_exists h0 (by decide) modelL xL uL zL (fun _ => rfl) (fun _ => rfl) (fun _ => rfl)
    (by
      intro t b hb
      obtain rfl : b = 0 := by change b < 1 at hb; omega
      simp [uL, nvec, inputAt, inputIx, zL, opsL, inScale, last, inScaleOf])
    (by
      intro t a
      by_cases ht : t = 0 <;> simp [xL, uL, nvec, modelL, ht])
  have hsol : ∀ t, Solves dL false opsL outs T 0 t := by
    intro t
    obtain ⟨ex, eu, eo⟩ := hv t
    obtain ⟨m, m', ha, hX, hU⟩ := (hT (t + 1)).asked t (by omega)
    have hp := opsL_plain hl
    obtain ⟨s, hin⟩ := ha.inSolver
    rw [eo] at ha
    have hb := (c65_optimal_partial ha (turn_usable hp.usable t) (turn_once hp.once t) (turn_scales hl hp.scales t)
      (f := fun X _ _ _ => X 0 0 * X 0 0 + X 1 0 * X 1 0) (by rw [turn_last _ (fun _ _ _ _ _ => rfl)]; rfl) hin).1.2 ?_
    · exact ⟨_, _, _, _, _, _, eo, hin, hb.feasible, fun z' hz' w w' j j' v v' G G' s1 s2 e1 e2 => by
        rw [add_zero]; exact hb.best z' hz' w w' j j' v v' G G' s1 s2 e1 e2⟩
    obtain ⟨-, hS, hI, -⟩ := c58_sequences_partial ha rfl
    have hsc : stScale (turnOps opsL T t) = fun _ => 1 := by
      unfold stScale
      rw [turn_last _ (fun _ _ _ _ _ => rfl)]
      rfl
    have hsi : inScale (turnOps opsL T t) = fun _ => 1 := by
      unfold inScale
      rw [turn_last _ (fun _ _ _ _ _ => rfl)]
      rfl
    have eX : (fun (k : Fin (dL.ph + 1)) (a : Fin dL.nx) => m'.o.seqState.get k a) =
        fun (k : Fin (dL.ph + 1)) (_ : Fin dL.nx) => if (k : Nat) = 0 then (xL t).get 0 else 0 := by
      funext k a
      rw [hS k a (by omega) a.2, hsc, ex]
      by_cases hk : (k : Nat) = 0
      · rw [if_pos hk, if_pos hk, one_mul]
        rfl
      · have ha : (a : Nat) < 1 := a.2
        have hk' : (k : Nat) < 3 := k.2
        rw [if_neg hk, if_neg hk, stateAt, if_neg hk, one_mul, stateIx]
        show (if t = 0 ∧ ((k : Nat) - 1) * 1 + a = 2 then (-1 : ℚ) else 0) = 0
        rw [if_neg (by omega)]
    have eU : (fun (k : Fin (dL.ph + 1)) (b : Fin dL.nu) => m'.o.seqInput.get k b) =
        fun (k : Fin (dL.ph + 1)) (_ : Fin dL.nu) => if t = 0 ∧ (k : Nat) = 0 then -1 else 0 := by
      funext k b
      have hb : (b : Nat) < 1 := b.2
      rw [hI k b (by omega) b.2, hsi, inputAt, inputIx, one_mul]
      show (if t = 0 ∧ 2 + (min (k : Nat) 1 * 1 + b) = 2 then (-1 : ℚ) else 0) = _
      congr 1
      apply propext
      constructor <;> rintro ⟨h1, h2⟩ <;> exact ⟨h1, by omega⟩
    rw [eX, eU]
    obtain ⟨c, hc1, hc2⟩ := opsL_inputLimits hl
    have hst := opsL_staged hl
    refine ⟨(turn_allowed hl t).2 ⟨?_, ?_, ?_, ?_, ?_, ?_, ?_, ?_⟩, ?_⟩
    · intro a
      rw [ex]
      rfl
    · intro k j b hj
      show (if t = 0 ∧ (k : Nat) = 0 then (-1 : ℚ) else 0) = if t = 0 ∧ (j : Nat) = 0 then -1 else 0
      have : ((j : Nat) = 0) = ((k : Nat) = 0) := by
        change (j : Nat) = min (k : Nat) 1 at hj
        apply propext
        constructor <;> intro <;> omega
      simp only [this]
    · intro k a
      rw [opsL_stateLimits hl]
      exact ⟨trivial, trivial⟩
    · intro j b _
      rw [hc1]
      refine hc2 _ ?_ ?_
      · show (-2 : ℚ) ≤ if t = 0 ∧ (j : Nat) = 0 then -1 else 0
        split_ifs <;> norm_num
      · show (if t = 0 ∧ (j : Nat) = 0 then (-1 : ℚ) else 0) ≤ 2
        split_ifs <;> norm_num
    · show (zL t).get 4 = 0
      simp [zL]
    · intro F tol hF k a
      rw [hst.model] at hF
      obtain ⟨rfl, rfl⟩ := Prod.mk.inj (Option.some.inj hF)
      rw [hst.discrete, abs_nonpos_iff]
      unfold modelError
      simp only [Option.isSome_none, Bool.false_eq_true, if_false, modelL]
      have hk : (k : Nat) < 2 := k.2
      by_cases h1 : (k : Nat) = 0 <;> by_cases h2 : t = 0 <;> simp [h1, h2, xL, nvec]
    · intro F tol hF
      exact absurd (show none = some (F, tol) from hF) (by simp)
    · intro F tol hF i
      obtain ⟨rfl, rfl⟩ := Prod.mk.inj (Option.some.inj (show some (_, _) = some (F, tol) from hF))
      rw [abs_nonpos_iff]
      rfl
    · intro q hq
      rw [turn_cost, turn_cost]
      have e0 : q.X 0 0 = (xL t).get 0 := by rw [← ex]; exact hq.start 0
      show (xL t).get 0 * (xL t).get 0 + 0 * 0 ≤ q.X 0 0 * q.X 0 0 + q.X 1 0 * q.X 1 0
      rw [e0]
      nlinarith [mul_self_nonneg (q.X 1 0)]
  refine ⟨outs, T, hT, opsL_plain hl, opsL_staged hl, opsL_pays hl, hsol, ?_, ?_, ?_⟩
  · rw [(hv 0).1]; rfl
  · rw [(hv 1).1]; rfl
  · obtain ⟨z, value, code, m, cs, s, -, hin, hz⟩ := hsol 0
    exact ⟨m, cs, s, z, hin, hz.feasible⟩

end

/-- C94 and C95 applied to the sample: every problem of the loop can be solved, and the cost of a step becomes small. -/
example : ∃ outs T, (∀ t, CanSolve dL false opsL outs T t) ∧ (T 0).x.get 0 = 1 ∧
    ∀ δ : ℚ, 0 < δ → ∃ n, ∀ t, n ≤ t → (T t).x.get 0 * (T t).x.get 0 < δ := by
  obtain ⟨outs, T, h, hp, hs, he, hx, h0, -, hc⟩ := opsL_loop
  refine ⟨outs, T, fun t => ?_, h0, fun δ hδ => ?_⟩
  · exact (c94_recursive_feasibility (h (t + 1)) hp hs (EndPays.kept he) (fun t _ _ => Solves.answers (hx t)) hc t (by omega)).1
  · exact c95_converges h hp hs he (fun x _ => mul_self_nonneg _) (fun _ => le_refl _) hx hδ

/-- C93 applied to the sample: the first command takes the plant from 1 to the reported state -/
example : ∃ outs T, (∀ N, Loop dL false opsL outs modelL T N) ∧ (T 0).X.get 1 0 = 0 := by
  obtain ⟨outs, T, h, hp, hs, he, hx, h0, h1, hc⟩ := opsL_loop
  refine ⟨outs, T, h, ?_⟩
  rw [← h1]
  exact ((turn_plan (t := 0) (h 1) hp hs (by omega) (Solves.answers (hx 0))).2.1 0).symm

end Mpc.Props
