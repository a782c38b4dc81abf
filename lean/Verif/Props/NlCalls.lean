import Verif.Proofs.NlTraceEval
import Verif.Props.NlSteps
import Verif.Props.NlApiGradients
import Verif.Props.NlStart

/-
C130: which user functions are called during `optimize`, in which order, with which arguments, and how often; where exceptions leave.
C131: what the user functions are shown.
-/
namespace Mpc.Props
open Mpc Exec NlSpec
set_option linter.unusedSectionVars false

namespace Calls
variable {d : Dims} {K : Type} {α : Type}

/-- if no call throws, the result is that of the functions -/
theorem attempt_returns {F : ∀ c : UserCall d K, Option c.Ans} {G : ∀ c : UserCall d K, c.Ans} (p : Prog d K α)
    (h : ∀ c ∈ p.calls G, F c = some (G c)) : p.attempt F = (.inl (p.run G), p.calls G) := by
  induction p with
  | done r => rfl
  | ask c k ih =>
    have hc : F c = some (G c) := h c (List.mem_cons_self ..)
    have := ih (G c) fun c' hc' => h c' (List.mem_cons_of_mem _ hc')
    rw [Prog.attempt]
    rw [hc]
    dsimp only
    rw [this]
    rfl

/-- the first call which throws is the last call -/
theorem attempt_throws {F : ∀ c : UserCall d K, Option c.Ans} {G : ∀ c : UserCall d K, c.Ans} (p : Prog d K α) :
    ∀ (l : List (UserCall d K)) (c : UserCall d K) (l' : List (UserCall d K)), p.calls G = l ++ c :: l' →
      (∀ c' ∈ l, F c' = some (G c')) → F c = none → p.attempt F = (.inr c, l ++ [c]) := by
  induction p with
  | done r =>
    intro l c l' h
    have h2 : ([] : List (UserCall d K)) = l ++ c :: l' := h
    cases l <;> cases h2
  | ask c0 k ih =>
    intro l c l' h hl hc
    change c0 :: (k (G c0)).calls G = l ++ c :: l' at h
    rw [Prog.attempt]
    cases l with
    | nil =>
      obtain ⟨rfl, -⟩ := List.cons.inj h
      rw [hc]
      rfl
    | cons c1 l =>
      obtain ⟨rfl, h2⟩ := List.cons.inj h
      rw [hl c0 (List.mem_cons_self ..)]
      dsimp only
      rw [ih (G c0) l c l' h2 (fun c' hc' => hl c' (List.mem_cons_of_mem _ hc')) hc]
      rfl

end Calls

section
variable {d : Dims} {K : Type} [Field K] [LinearOrder K] [IsStrictOrderedRing K]
variable {dyn : Bool} {ops : List (NlCall d K)} {outs : List (NlOut K)} {m : NlMpc d K} {x0 : Vec K}
  {cs : List (NlCallback K)} {s : NlState d K} {F : ∀ c : UserCall d K, c.Ans}

theorem InSolver.answers (h : InSolver d dyn ops outs m x0 cs s) (hF : SetFunctions ops F) : s.Answers F := by
  have hs := h.holds
  have hl := h.toNlRan.len
  refine ⟨?_, ?_, ?_, ?_, ?_⟩
  · intro f hf buf x u k
    rw [hs.field] at hf
    have e := after_field hl
    cases hc : (NlCtl.after d ops outs).cfg.field with
    | none => rw [show _ = _ from hc] at hf; cases hf
    | some G =>
      rw [show _ = _ from hc] at hf
      cases hf
      rw [hc] at e
      exact hF.state G e.symm x u k
  · intro f hf x u k
    rw [hs.out] at hf
    exact hF.out f ((after_out hl).symm.trans hf) x u k
  · intro f hf X Y U e
    rw [hs.obj] at hf
    exact hF.obj f ((after_obj hl).symm.trans hf) X Y U e
  · intro f hf buf X Y U e
    rw [hs.ineq] at hf
    have e' := after_ineq hl
    cases hc : (NlCtl.after d ops outs).cfg.ineq with
    | none => rw [show _ = _ from hc] at hf; cases hf
    | some G =>
      rw [show _ = _ from hc] at hf
      cases hf
      rw [hc] at e'
      exact hF.ineq G _ e'.symm X Y U e
  · intro f hf buf X U
    rw [hs.eq] at hf
    have e' := after_eq hl
    cases hc : (NlCtl.after d ops outs).cfg.eq with
    | none => rw [show _ = _ from hc] at hf; cases hf
    | some G =>
      rw [show _ = _ from hc] at hf
      cases hf
      rw [hc] at e'
      exact hF.eq G _ e'.symm X U

/-- C130: the objective. The calls when the solver asks for its value (and gradient), in order; and what the solver gets from them is
what the functions give. -/
theorem c130_objective (h : InSolver d dyn ops outs m x0 cs s) (hF : SetFunctions ops F) (hf : (last objectiveOf ops).isSome)
    (z : Vec K) (hz : z.size = d.nZ) (g : Bool) :
    (s.evalObjP z g).calls F = objectiveTrace F (last outputOf ops).isSome (statesOf ops x0 z) (inputsOf ops z) (z.get (slackIx d)) g ∧
    (s.evalObjP z g).run F = s.evalObj z g := by
  obtain ⟨c, hs, e1, e2, e3, e4, e5, e6, e7, e8, e9, ho, hc⟩ := h.config
  refine ⟨?_, NlState.evalObjP_run (h.answers hF) z g⟩
  obtain ⟨f, hf⟩ := Option.isSome_iff_exists.1 hf
  rw [NlState.evalObjP_calls hs h.hor.ph_int (e4.trans hf) z hz g, e1, e2, e3, ho]
  rfl

/-- C130: the inequality constraints -/
theorem c130_inequalities (h : InSolver d dyn ops outs m x0 cs s) (hF : SetFunctions ops F) (z : Vec K) (hz : z.size = d.nZ)
    (junk : Nat → K) :
    (s.evalIneqP z junk).calls F = (if (last ineqConOf ops).isSome then
      ineqTrace F (last outputOf ops).isSome (statesOf ops x0 z) (inputsOf ops z) (z.get (slackIx d)) else []) ∧
    (s.evalIneqP z junk).run F = s.evalIneq z junk := by
  have hs := h.holds
  have hl := h.toNlRan.len
  refine ⟨?_, NlState.evalIneqP_run (h.answers hF) z junk⟩
  have e := after_ineq hl
  cases hc : (NlCtl.after d ops outs).cfg.ineq with
  | none =>
    rw [hc] at e
    rw [NlState.evalIneqP_none hs hc, ← e]
    rfl
  | some G =>
    rw [hc] at e
    rw [NlState.evalIneqP_calls hs h.hor.ph_int (by rw [show _ = _ from hc]; rfl) z hz junk, ← e, hs.cx0 _ rfl]
    rw [show _ = _ from after_out hl, show _ = _ from after_stScale hl, show _ = _ from after_inScale hl]
    rfl

/-- C130: the equality constraints -/
theorem c130_equalities (h : InSolver d dyn ops outs m x0 cs s) (hF : SetFunctions ops F) (z : Vec K) (hz : z.size = d.nZ)
    (junk : Nat → K) :
    (s.evalEqP z junk).calls F = (if (last eqConOf ops).isSome then eqTrace (statesOf ops x0 z) (inputsOf ops z) else []) ∧
    (s.evalEqP z junk).run F = s.evalEq z junk := by
  have hs := h.holds
  have hl := h.toNlRan.len
  refine ⟨?_, NlState.evalEqP_run (h.answers hF) z junk⟩
  have e := after_eq hl
  cases hc : (NlCtl.after d ops outs).cfg.eq with
  | none =>
    rw [hc] at e
    rw [NlState.evalEqP_none hs hc, ← e]
    rfl
  | some G =>
    rw [hc] at e
    rw [NlState.evalEqP_calls hs (by rw [show _ = _ from hc]; rfl) z hz junk, ← e, hs.cx0 _ rfl]
    rw [show _ = _ from after_stScale hl, show _ = _ from after_inScale hl]
    rfl

/-- C130: the state equation -/
theorem c130_model (h : InSolver d dyn ops outs m x0 cs s) (hF : SetFunctions ops F) (hf : (last modelOf ops).isSome) (z : Vec K)
    (hz : z.size = d.nZ) (g : Bool) (junk : Nat → K) :
    (s.evalDynP z g junk).calls F = modelTrace (last samplingOf ops).isSome (statesOf ops x0 z) (inputsOf ops z) g ∧
    (s.evalDynP z g junk).run F = s.evalDyn z g junk := by
  obtain ⟨c, hs, e1, e2, e3, e4, e5, e6, e7, e8, e9, ho, hc⟩ := h.config
  refine ⟨?_, NlState.evalDynP_run (h.answers hF) z g junk⟩
  obtain ⟨f, hf⟩ := Option.isSome_iff_exists.1 hf
  rw [NlState.evalDynP_calls hs (h.answers hF) h.hor.ph_int (e5.trans hf) z hz g junk, e1, e2, e8, hc]
  rfl

/-! ### exceptions -/

/-- C130: user functions which may throw (`T c = none`) and otherwise answer as `F`. As long as none throws, the evaluation is that of
the functions; else it is left with the first call that throws, and no user function is called after it. The same for all four. -/
theorem c130_exceptions {α : Type} (p : Prog d K α) (T : ∀ c : UserCall d K, Option c.Ans) (hT : ∀ c, T c = none ∨ T c = some (F c)) :
    ((∀ c ∈ p.calls F, T c ≠ none) ∧ p.attempt T = (.inl (p.run F), p.calls F)) ∨
    (∃ l c l', p.calls F = l ++ c :: l' ∧ (∀ c' ∈ l, T c' ≠ none) ∧ T c = none ∧ p.attempt T = (.inr c, l ++ [c])) := by
  classical
  by_cases h : ∀ c ∈ p.calls F, T c ≠ none
  · exact .inl ⟨h, Calls.attempt_returns p fun c hc => (hT c).resolve_left (h c hc)⟩
  · right
    have key : ∀ q : List (UserCall d K), (¬ ∀ c ∈ q, T c ≠ none) →
        ∃ l c l', q = l ++ c :: l' ∧ (∀ c' ∈ l, T c' ≠ none) ∧ T c = none := by
      intro q
      induction q with
      | nil => intro h; exact absurd (fun c hc => absurd hc (List.not_mem_nil)) h
      | cons a q ih =>
        intro h
        by_cases ha : T a = none
        · exact ⟨[], a, q, rfl, fun c hc => absurd hc (List.not_mem_nil), ha⟩
        · obtain ⟨l, c, l', e1, e2, e3⟩ := ih fun h' => h fun c hc => by
            rcases List.mem_cons.1 hc with rfl | hc
            · exact ha
            · exact h' c hc
          exact ⟨a :: l, c, l', by rw [e1]; rfl, fun c' hc' => by
            rcases List.mem_cons.1 hc' with rfl | hc'
            · exact ha
            · exact e2 c' hc', e3⟩
    obtain ⟨l, c, l', e1, e2, e3⟩ := key _ h
    exact ⟨l, c, l', e1, e2, e3, Calls.attempt_throws p l c l' e1 (fun c' hc' => (hT c').resolve_left (e2 c' hc')) e3⟩

/-! ### how often -/

theorem sum_const {α : Type} (l : List α) (f : α → Nat) (n : Nat) (h : ∀ a ∈ l, f a = n) : (l.map f).sum = l.length * n := by
  induction l with
  | nil => simp
  | cons a l ih =>
    rw [List.map_cons, List.sum_cons, h a (List.mem_cons_self ..), ih fun b hb => h b (List.mem_cons_of_mem _ hb), List.length_cons]
    ring

theorem length_flatMap_const {α β : Type} (l : List α) (f : α → List β) (n : Nat) (h : ∀ a ∈ l, (f a).length = n) :
    (l.flatMap f).length = l.length * n := by
  rw [List.length_flatMap]
  exact sum_const l _ n h

/-- the calls for one point: the output function at every step if it is set, and the function itself -/
def perPoint (d : Dims) (hasOut : Bool) : Nat := if hasOut then d.ph + 2 else 1

theorem outCalls_length (b : Bool) (X : Traj (d.ph + 1) d.nx K) (U : Traj (d.ph + 1) d.nu K) :
    (outCalls b X U).length + 1 = perPoint d b := by
  cases b
  · rfl
  · simp [outCalls, perPoint]

theorem objCalls_length (b : Bool) (X : Traj (d.ph + 1) d.nx K) (U : Traj (d.ph + 1) d.nu K) (e : K) :
    (objCalls F b X U e).length = perPoint d b := by
  rw [← outCalls_length b X U]; simp [objCalls]

theorem ineqCalls_length (b : Bool) (X : Traj (d.ph + 1) d.nx K) (U : Traj (d.ph + 1) d.nu K) (e : K) :
    (ineqCalls F b X U e).length = perPoint d b := by
  rw [← outCalls_length b X U]; simp [ineqCalls]

theorem overStates_length (X : Traj (d.ph + 1) d.nx K) (t : Nat → Nat → List K) (f : Traj (d.ph + 1) d.nx K → List (UserCall d K)) (n q : Nat)
    (ht : ∀ k a, (t k a).length = q) (hf : ∀ Y, (f Y).length = n) : (overStates X t f).length = d.ph * (d.nx * (q * n)) := by
  unfold overStates
  rw [length_flatMap_const _ _ (d.nx * (q * n)), List.length_range]
  intro k _
  rw [length_flatMap_const _ _ (q * n), List.length_range]
  intro a _
  rw [length_flatMap_const _ _ n fun δ _ => hf _, ht]

theorem overInputs_length (r : Nat) (U : Traj (d.ph + 1) d.nu K) (t : Nat → List K) (f : Traj (d.ph + 1) d.nu K → List (UserCall d K)) (n q : Nat)
    (ht : ∀ b, (t b).length = q) (hf : ∀ Y, (f Y).length = n) : (overInputs r U t f).length = r * (d.nu * (q * n)) := by
  unfold overInputs
  rw [length_flatMap_const _ _ (d.nu * (q * n)), List.length_range]
  intro k _
  rw [length_flatMap_const _ _ (q * n), List.length_range]
  intro a _
  rw [length_flatMap_const _ _ n fun δ _ => hf _, ht]

theorem overLastInputs_length (U : Traj (d.ph + 1) d.nu K) (t : Nat → List K) (f : Traj (d.ph + 1) d.nu K → List (UserCall d K)) (n q : Nat)
    (ht : ∀ b, (t b).length = q) (hf : ∀ Y, (f Y).length = n) : (overLastInputs U t f).length = d.nu * (q * n) := by
  unfold overLastInputs
  rw [length_flatMap_const _ _ (q * n), List.length_range]
  intro a _
  rw [length_flatMap_const _ _ n fun δ _ => hf _, ht]

theorem modelProbes_length (x : FVec d.nx K) (u : FVec d.nu K) (k : Nat) : (modelProbes x u k).length = 2 * d.nx + 2 * d.nu := by
  unfold modelProbes
  rw [List.length_append, length_flatMap_const _ _ 2 fun _ _ => rfl, length_flatMap_const _ _ 2 fun _ _ => rfl, List.length_finRange,
    List.length_finRange]
  ring

/-- C130: how often the user functions are called: one value of the objective takes one point, its gradient `ph (nx + nu) + 2` points
more; the inequality constraints always take `1 + 2 ph (nx + nu) + 2` points, the equality constraints `1 + 2 ph (nx + nu)`; the state
equation one call per step, with gradients `2 (nx + nu)` more, and twice that for a continuous-time model. -/
theorem c130_counts (h : InSolver d dyn ops outs m x0 cs s) (hF : SetFunctions ops F) (z : Vec K) (hz : z.size = d.nZ) (junk : Nat → K) :
    ((last objectiveOf ops).isSome →
      ((s.evalObjP z false).calls F).length = perPoint d (last outputOf ops).isSome ∧
      ((s.evalObjP z true).calls F).length = (1 + d.ph * (d.nx + d.nu) + 2) * perPoint d (last outputOf ops).isSome) ∧
    ((last ineqConOf ops).isSome →
      ((s.evalIneqP z junk).calls F).length = (1 + 2 * (d.ph * (d.nx + d.nu)) + 2) * perPoint d (last outputOf ops).isSome) ∧
    ((last eqConOf ops).isSome → ((s.evalEqP z junk).calls F).length = 1 + 2 * (d.ph * (d.nx + d.nu))) ∧
    ((last modelOf ops).isSome →
      ((s.evalDynP z false junk).calls F).length = (if (last samplingOf ops).isSome then 2 else 1) * d.ph ∧
      ((s.evalDynP z true junk).calls F).length
        = (if (last samplingOf ops).isSome then 2 else 1) * (d.ph * (1 + 2 * (d.nx + d.nu)))) := by
  have hph : 0 < d.ph := by have := h.hor.ch_pos; have := h.hor.ch_le; omega
  refine ⟨fun hf => ⟨?_, ?_⟩, fun hf => ?_, fun hf => ?_, fun hf => ⟨?_, ?_⟩⟩
  · rw [(c130_objective h hF hf z hz false).1]
    simp only [objectiveTrace, Bool.false_eq_true, if_false, List.append_nil]
    exact objCalls_length ..
  · rw [(c130_objective h hF hf z hz true).1]
    simp only [objectiveTrace, if_true, List.length_append]
    rw [objCalls_length, overStates_length _ _ _ _ 1 (fun _ _ => rfl) fun _ => objCalls_length .., overInputs_length _ _ _ _ _ 1 (fun _ => rfl)
      fun _ => objCalls_length .., overLastInputs_length _ _ _ _ 1 (fun _ => rfl) fun _ => objCalls_length ..,
      length_flatMap_const _ _ _ fun _ _ => objCalls_length ..]
    obtain ⟨p, hp⟩ : ∃ p, d.ph = p + 1 := ⟨d.ph - 1, by omega⟩
    rw [hp]
    simp only [bothSides, List.length_cons, List.length_nil, Nat.add_sub_cancel]
    ring
  · rw [(c130_inequalities h hF z hz junk).1, if_pos hf]
    simp only [ineqTrace, List.length_append]
    rw [ineqCalls_length, overStates_length _ _ _ _ 2 (fun _ _ => rfl) fun _ => ineqCalls_length .., overInputs_length _ _ _ _ _ 2 (fun _ => rfl)
      fun _ => ineqCalls_length .., length_flatMap_const _ _ _ fun _ _ => ineqCalls_length ..]
    simp only [bothSides, List.length_cons, List.length_nil]
    ring
  · rw [(c130_equalities h hF z hz junk).1, if_pos hf]
    simp only [eqTrace, List.length_append]
    rw [overStates_length _ _ _ 1 2 (fun _ _ => rfl) fun _ => rfl, overInputs_length _ _ _ _ 1 2 (fun _ => rfl) fun _ => rfl,
      overLastInputs_length _ _ _ 1 2 (fun _ => rfl) fun _ => rfl]
    obtain ⟨p, hp⟩ : ∃ p, d.ph = p + 1 := ⟨d.ph - 1, by omega⟩
    rw [hp]
    simp only [List.length_cons, List.length_nil, Nat.add_sub_cancel]
    ring
  · rw [(c130_model h hF hf z hz false junk).1]
    unfold modelTrace
    rw [length_flatMap_const _ _ (if (last samplingOf ops).isSome then 2 else 1), List.length_finRange]
    · ring
    · intro k _
      cases (last samplingOf ops).isSome <;> rfl
  · rw [(c130_model h hF hf z hz true junk).1]
    unfold modelTrace
    rw [length_flatMap_const _ _ ((if (last samplingOf ops).isSome then 2 else 1) * (1 + 2 * (d.nx + d.nu))), List.length_finRange]
    · ring
    · intro k _
      cases (last samplingOf ops).isSome
      · simp [modelProbes_length]; ring
      · simp [modelProbes_length]; ring


/-! ### C131: what the functions are shown -/

theorem outCalls_measured (b : Bool) (X : Traj (d.ph + 1) d.nx K) (U : Traj (d.ph + 1) d.nu K) :
    ∀ c ∈ outCalls b X U, ShowsMeasured (X 0) c ∧ Held c := by
  intro c hc
  unfold outCalls at hc
  cases b with
  | false => cases hc
  | true =>
    rw [if_pos rfl, List.mem_map] at hc
    obtain ⟨k, -, rfl⟩ := hc
    refine ⟨fun hk => ?_, trivial⟩
    rw [show k = 0 from Fin.ext hk]

theorem bump_zero {r c : Nat} (X : Traj (r + 1) c K) {i : Nat} (hi : i ≠ 0) (j : Nat) (t : K) : bump X i j t 0 = X 0 := by
  funext a
  unfold bump
  rw [if_neg fun h => hi h.1.symm]

theorem objCalls_measured {b : Bool} {X : Traj (d.ph + 1) d.nx K} {x : FVec d.nx K} (hx : X 0 = x) (U : Traj (d.ph + 1) d.nu K) (e : K) :
    ∀ c ∈ objCalls F b X U e, ShowsMeasured x c := by
  intro c hc
  subst hx
  rcases List.mem_append.1 hc with hc | hc
  · exact (outCalls_measured b X U c hc).1
  · rw [List.mem_singleton.1 hc]; rfl

theorem ineqCalls_measured {b : Bool} {X : Traj (d.ph + 1) d.nx K} {x : FVec d.nx K} (hx : X 0 = x) (U : Traj (d.ph + 1) d.nu K) (e : K) :
    ∀ c ∈ ineqCalls F b X U e, ShowsMeasured x c := by
  intro c hc
  subst hx
  rcases List.mem_append.1 hc with hc | hc
  · exact (outCalls_measured b X U c hc).1
  · rw [List.mem_singleton.1 hc]; rfl

theorem mem_overStates {X : Traj (d.ph + 1) d.nx K} {t : Nat → Nat → List K} {f : Traj (d.ph + 1) d.nx K → List (UserCall d K)} {c : UserCall d K}
    (h : c ∈ overStates X t f) : ∃ Y, Y 0 = X 0 ∧ c ∈ f Y := by
  unfold overStates at h
  obtain ⟨k, -, h⟩ := List.mem_flatMap.1 h
  obtain ⟨a, -, h⟩ := List.mem_flatMap.1 h
  obtain ⟨δ, -, h⟩ := List.mem_flatMap.1 h
  exact ⟨_, bump_zero X (by omega) a δ, h⟩

theorem mem_overInputs {n : Nat} {U : Traj (d.ph + 1) d.nu K} {t : Nat → List K} {f : Traj (d.ph + 1) d.nu K → List (UserCall d K)} {c : UserCall d K}
    (h : c ∈ overInputs n U t f) : ∃ V, c ∈ f V := by
  unfold overInputs at h
  obtain ⟨k, -, h⟩ := List.mem_flatMap.1 h
  obtain ⟨a, -, h⟩ := List.mem_flatMap.1 h
  obtain ⟨δ, -, h⟩ := List.mem_flatMap.1 h
  exact ⟨_, h⟩

theorem mem_overLastInputs {U : Traj (d.ph + 1) d.nu K} {t : Nat → List K} {f : Traj (d.ph + 1) d.nu K → List (UserCall d K)} {c : UserCall d K}
    (h : c ∈ overLastInputs U t f) : ∃ V, c ∈ f V := by
  unfold overLastInputs at h
  obtain ⟨a, -, h⟩ := List.mem_flatMap.1 h
  obtain ⟨δ, -, h⟩ := List.mem_flatMap.1 h
  exact ⟨_, h⟩

/-- the inputs of a decision vector are held -/
theorem inputsOf_held (ops : List (NlCall d K)) (z : Vec K) (k k' : Fin (d.ph + 1)) (hk : d.ch ≤ k + 1) (hk' : d.ch ≤ k' + 1) :
    inputsOf ops z k = inputsOf ops z k' := by
  funext b
  have e1 : min (k : Nat) (d.ch - 1) = d.ch - 1 := by omega
  have e2 : min (k' : Nat) (d.ch - 1) = d.ch - 1 := by omega
  show inputAt d _ _ _ _ = inputAt d _ _ _ _
  unfold inputAt
  rw [e1, e2]

/-- C131: the objective and the constraints see the measured state at step 0 in every call, also for derivatives. -/
theorem c131_measured_partial (h : InSolver d dyn ops outs m x0 cs s) (hF : SetFunctions ops F) (hf : (last objectiveOf ops).isSome)
    (z : Vec K) (hz : z.size = d.nZ) (junk : Nat → K) :
    (∀ g, ∀ c ∈ (s.evalObjP z g).calls F, ShowsMeasured (statesOf ops x0 z 0) c) ∧
    (∀ c ∈ (s.evalIneqP z junk).calls F, ShowsMeasured (statesOf ops x0 z 0) c) ∧
    (∀ c ∈ (s.evalEqP z junk).calls F, ShowsMeasured (statesOf ops x0 z 0) c) := by
  refine ⟨fun g c hc => ?_, fun c hc => ?_, fun c hc => ?_⟩
  · rw [(c130_objective h hF hf z hz g).1] at hc
    rcases List.mem_append.1 hc with hc | hc
    · exact objCalls_measured rfl _ _ c hc
    · cases g with
      | false => cases hc
      | true =>
        simp only [if_true, List.mem_append] at hc
        rcases hc with ((hc | hc) | hc) | hc
        · obtain ⟨Y, hY, hc⟩ := mem_overStates hc
          exact objCalls_measured hY _ _ c hc
        · obtain ⟨V, hc⟩ := mem_overInputs hc
          exact objCalls_measured rfl _ _ c hc
        · obtain ⟨V, hc⟩ := mem_overLastInputs hc
          exact objCalls_measured rfl _ _ c hc
        · obtain ⟨t, -, hc⟩ := List.mem_flatMap.1 hc
          exact objCalls_measured rfl _ _ c hc
  · rw [(c130_inequalities h hF z hz junk).1] at hc
    split_ifs at hc with hi
    · simp only [ineqTrace, List.mem_append] at hc
      rcases hc with ((hc | hc) | hc) | hc
      · exact ineqCalls_measured rfl _ _ c hc
      · obtain ⟨Y, hY, hc⟩ := mem_overStates hc
        exact ineqCalls_measured hY _ _ c hc
      · obtain ⟨V, hc⟩ := mem_overInputs hc
        exact ineqCalls_measured rfl _ _ c hc
      · obtain ⟨t, -, hc⟩ := List.mem_flatMap.1 hc
        exact ineqCalls_measured rfl _ _ c hc
    · cases hc
  · rw [(c130_equalities h hF z hz junk).1] at hc
    split_ifs at hc with hi
    · simp only [eqTrace, List.mem_append] at hc
      rcases hc with ((hc | hc) | hc) | hc
      · rw [List.mem_singleton.1 hc]; rfl
      · obtain ⟨Y, hY, hc⟩ := mem_overStates hc
        rw [List.mem_singleton.1 hc]; exact hY
      · obtain ⟨V, hc⟩ := mem_overInputs hc
        rw [List.mem_singleton.1 hc]; rfl
      · obtain ⟨V, hc⟩ := mem_overLastInputs hc
        rw [List.mem_singleton.1 hc]; rfl
    · cases hc

/-- C131: values (without derivatives) are taken at the plan of the decision vector only. -/
theorem c131_values_partial (h : InSolver d dyn ops outs m x0 cs s) (hF : SetFunctions ops F) (hf : (last objectiveOf ops).isSome)
    (hm : (last modelOf ops).isSome) (hd : last samplingOf ops = none) (z : Vec K) (hz : z.size = d.nZ) (junk : Nat → K) :
    (∀ c ∈ (s.evalObjP z false).calls F, Held c ∧ ShowsMeasured (statesOf ops x0 z 0) c) ∧
    (∀ c ∈ (s.evalDynP z false junk).calls F, Held c ∧ ShowsMeasured (statesOf ops x0 z 0) c) := by
  refine ⟨fun c hc => ⟨?_, (c131_measured_partial h hF hf z hz junk).1 false c hc⟩, fun c hc => ?_⟩
  · rw [(c130_objective h hF hf z hz false).1] at hc
    simp only [objectiveTrace, Bool.false_eq_true, if_false, List.append_nil] at hc
    rcases List.mem_append.1 hc with hc | hc
    · exact (outCalls_measured _ _ _ c hc).2
    · rw [List.mem_singleton.1 hc]
      exact inputsOf_held ops z
  · rw [(c130_model h hF hm z hz false junk).1, hd] at hc
    unfold modelTrace at hc
    obtain ⟨k, -, hc⟩ := List.mem_flatMap.1 hc
    simp only [Option.isSome, Bool.false_eq_true, if_false, List.append_nil, List.mem_singleton] at hc
    subst hc
    refine ⟨trivial, fun hk => ?_⟩
    rw [show k.castSucc = (0 : Fin (d.ph + 1)) from Fin.ext hk]

/-- C131: with derivatives, whenever the control horizon is shorter than the prediction horizon, the objective is also called with
inputs which are not held. -/
theorem c131_not_held (h : InSolver d dyn ops outs m x0 cs s) (hF : SetFunctions ops F) (hf : (last objectiveOf ops).isSome)
    (hnu : 0 < d.nu) (hch : d.ch < d.ph) (z : Vec K) (hz : z.size = d.nZ) :
    ∃ c ∈ (s.evalObjP z true).calls F, ¬ Held c := by
  have hpos : 0 < d.ch := h.hor.ch_pos
  rw [(c130_objective h hF hf z hz true).1]
  have ht : 0 < stepOf (1 / 1000000) (linear (inputsOf ops z) 0) := stepOf_pos (by norm_num) _
  refine ⟨.obj (statesOf ops x0 z) (outputsBy F (last outputOf ops).isSome (statesOf ops x0 z)
    (bump (bump (inputsOf ops z) (d.ph - 1) 0 (stepOf (1 / 1000000) (linear (inputsOf ops z) 0))) d.ph 0
      (stepOf (1 / 1000000) (linear (inputsOf ops z) 0))))
    (bump (bump (inputsOf ops z) (d.ph - 1) 0 (stepOf (1 / 1000000) (linear (inputsOf ops z) 0))) d.ph 0
      (stepOf (1 / 1000000) (linear (inputsOf ops z) 0))) (z.get (slackIx d)), ?_, ?_⟩
  · refine List.mem_append_right _ ?_
    rw [if_pos rfl]
    refine List.mem_append_left _ (List.mem_append_right _ ?_)
    refine List.mem_flatMap.2 ⟨0, List.mem_range.2 hnu, ?_⟩
    refine List.mem_flatMap.2 ⟨_, List.mem_singleton.2 rfl, ?_⟩
    exact List.mem_append_right _ (List.mem_singleton.2 rfl)
  · generalize stepOf (1 / 1000000) (linear (inputsOf ops z) 0) = t at ht
    intro hh
    have e1 := congrFun (hh ⟨d.ch - 1, by omega⟩ ⟨d.ph, by omega⟩ (by dsimp only; omega) (by dsimp only; omega)) ⟨0, hnu⟩
    have e2 := congrFun (inputsOf_held ops z ⟨d.ch - 1, by omega⟩ ⟨d.ph, by omega⟩ (by dsimp only; omega) (by dsimp only; omega)) ⟨0, hnu⟩
    unfold bump at e1
    dsimp only at e1
    rw [if_neg (by omega), if_neg (by omega), if_pos ⟨rfl, rfl⟩, if_neg (by omega), e2] at e1
    exact ht.ne' (left_eq_add.1 e1)

/-- C131: with derivatives, a discrete-time model is also called with a state at step 0 which is not the measured one (and the
quotient is not used). -/
theorem c131_not_measured (h : InSolver d dyn ops outs m x0 cs s) (hF : SetFunctions ops F) (hm : (last modelOf ops).isSome)
    (hnx : 0 < d.nx) (z : Vec K) (hz : z.size = d.nZ) (junk : Nat → K) :
    ∃ c ∈ (s.evalDynP z true junk).calls F, ¬ ShowsMeasured (statesOf ops x0 z 0) c := by
  have hph : 0 < d.ph := by have := h.hor.ch_pos; have := h.hor.ch_le; omega
  rw [(c130_model h hF hm z hz true junk).1]
  have ht : 0 < stepOf (1 / 67108864) (statesOf ops x0 z 0 ⟨0, hnx⟩) := stepOf_pos (by norm_num) _
  refine ⟨.state (bumpV (statesOf ops x0 z 0) 0 (stepOf (1 / 67108864) (statesOf ops x0 z 0 ⟨0, hnx⟩))) (inputsOf ops z 0) 0, ?_, ?_⟩
  · refine List.mem_flatMap.2 ⟨⟨0, hph⟩, List.mem_finRange _, List.mem_append_right _ ?_⟩
    rw [if_pos rfl]
    refine List.mem_append_left _ (List.mem_append_left _ ?_)
    exact List.mem_flatMap.2 ⟨⟨0, hnx⟩, List.mem_finRange _, List.mem_map.2 ⟨_, List.mem_cons_self .., rfl⟩⟩
  · generalize stepOf (1 / 67108864) (statesOf ops x0 z 0 ⟨0, hnx⟩) = t at ht
    intro hh
    have e1 := congrFun (hh rfl) ⟨0, hnx⟩
    unfold bumpV at e1
    rw [if_pos rfl] at e1
    exact ht.ne' (left_eq_add.1 e1.symm)

end

/-- C131: the objective is only shown inputs which are held after the control horizon -/
def C131HeldClaim (K : Type) [Field K] [LinearOrder K] [IsStrictOrderedRing K] : Prop :=
  ∀ (d : Dims) (dyn : Bool) (ops : List (NlCall d K)) (outs : List (NlOut K)) (m : NlMpc d K) (x0 : Vec K) (cs : List (NlCallback K))
    (s : NlState d K) (F : ∀ c : UserCall d K, c.Ans), InSolver d dyn ops outs m x0 cs s → SetFunctions ops F →
    ∀ z : Vec K, z.size = d.nZ → ∀ c ∈ (s.evalObjP z true).calls F, Held c

/-- C131: the model is only asked about step 0 from the measured state (discrete-time models) -/
def C131MeasuredClaim (K : Type) [Field K] [LinearOrder K] [IsStrictOrderedRing K] : Prop :=
  ∀ (d : Dims) (dyn : Bool) (ops : List (NlCall d K)) (outs : List (NlOut K)) (m : NlMpc d K) (x0 : Vec K) (cs : List (NlCallback K))
    (s : NlState d K) (F : ∀ c : UserCall d K, c.Ans), InSolver d dyn ops outs m x0 cs s → SetFunctions ops F → last samplingOf ops = none →
    ∀ z : Vec K, z.size = d.nZ → ∀ junk, ∀ c ∈ (s.evalDynP z true junk).calls F, ShowsMeasured (statesOf ops x0 z 0) c

/-- objective, model, output and constraints, discrete time, control horizon two of three -/
def opsC : List (NlCall dN ℚ) :=
  [ .setObjectiveFunction (fun X Y U e => X 3 0 * X 3 0 + Y 1 0 + U 0 0 + e) true,
    .setStateSpaceFunction (fun x u _ a => if a = 0 then x 1 else u 0) 0 true,
    .setOutputFunction (fun _ x _ _ _ => x 0),
    .setIneqConFunction (fun _ Y _ _ _ => Y 1 0 - 5) (1 / 100) true,
    .setEqConFunction (fun X _ _ => X 3 1) (1 / 1000) true ]

/-- these functions -/
def fnsC : ∀ c : UserCall dN ℚ, c.Ans
  | .state x u _ => (fun a => if a = 0 then x 1 else u 0 : FVec dN.nx ℚ)
  | .out x _ _ => (fun _ => x 0 : FVec dN.ny ℚ)
  | .obj X Y U e => (X 3 0 * X 3 0 + Y 1 0 + U 0 0 + e : ℚ)
  | .ineq _ Y _ _ => (fun _ => Y 1 0 - 5 : FVec dN.ineq ℚ)
  | .eq X _ => (fun _ => X 3 1 : FVec dN.eq ℚ)

theorem fnsC_set : SetFunctions opsC fnsC := by
  refine ⟨?_, ?_, ?_, ?_, ?_⟩
  · intro G hG; cases hG; intros; rfl
  · intro G hG; cases hG; intros; rfl
  · intro G hG; cases hG; intros; rfl
  · intro G tol hG; cases hG; intros; rfl
  · intro G tol hG; cases hG; intros; rfl

theorem opsC_in : ∃ outs m s, InSolver dN false opsC outs m (nvec 2 fun _ => 1) [] s := by
  obtain ⟨outs, m, m', r, call, h⟩ := asked_of (ops := opsC) 1 0 .threw (by rintro _ _ _ _ ⟨⟩)
    (by simp [opsC, NlSpec.CallFits]) (by simp [opsC, AdmFrom, NlSpec.Admissible])
  obtain ⟨s, hs⟩ := h.inSolver
  exact ⟨outs, m, s, hs⟩

/-- C131 is violated: in the sample the objective is called with an input after the control horizon moved on its own. -/
theorem c131_held_violated : ¬ C131HeldClaim ℚ := by
  intro H
  obtain ⟨outs, m, s, h⟩ := opsC_in
  obtain ⟨c, hc, hn⟩ := c131_not_held h fnsC_set rfl (by decide) (by decide) (zN 1) rfl
  exact hn (H _ _ _ _ _ _ _ _ _ h fnsC_set (zN 1) rfl c hc)

/-- C131 is violated: in the sample the model is called with the measured state moved. -/
theorem c131_measured_violated : ¬ C131MeasuredClaim ℚ := by
  intro H
  obtain ⟨outs, m, s, h⟩ := opsC_in
  obtain ⟨c, hc, hn⟩ := c131_not_measured h fnsC_set rfl (by decide) (zN 1) rfl (fun _ => 0)
  exact hn (H _ _ _ _ _ _ _ _ _ h fnsC_set rfl (zN 1) rfl (fun _ => 0) c hc)

/-- C130, C131: all functions set; the calls of one gradient: `(1 + 3 (2 + 1) + 2) (3 + 2) = 60` -/
example : ∃ outs m s, InSolver dN false opsC outs m (nvec 2 fun _ => 1) [] s ∧ ((s.evalObjP (zN 1) true).calls fnsC).length = 60 := by
  obtain ⟨outs, m, s, h⟩ := opsC_in
  exact ⟨outs, m, s, h, ((c130_counts h fnsC_set (zN 1) rfl (fun _ => 0)).1 rfl).2⟩

/-- an objective which always throws; the other functions answer -/
def throwsC : ∀ c : UserCall dN ℚ, Option c.Ans
  | .obj _ _ _ _ => none
  | .state x u k => some (fnsC (.state x u k))
  | .out x u k => some (fnsC (.out x u k))
  | .ineq X Y U e => some (fnsC (.ineq X Y U e))
  | .eq X U => some (fnsC (.eq X U))

/-- C130: the evaluation of the objective is left with the objective's exception, after the output function has been called at the
four steps of the horizon -/
example {outs m s} (h : InSolver dN false opsC outs m (nvec 2 fun _ => 1) [] s) :
    ∃ X Y U e, (s.evalObjP (zN 1) true).attempt throwsC = (.inr (.obj X Y U e), outCalls true X U ++ [.obj X Y U e]) := by
  have ht := (c130_objective h fnsC_set rfl (zN 1) rfl true).1
  rw [objectiveTrace, objCalls, List.append_assoc, List.singleton_append] at ht
  refine ⟨_, _, _, _, Calls.attempt_throws _ _ _ _ ht ?_ rfl⟩
  intro c hc
  unfold outCalls at hc
  rw [if_pos rfl, List.mem_map] at hc
  obtain ⟨k, -, rfl⟩ := hc
  rfl

end Mpc.Props
