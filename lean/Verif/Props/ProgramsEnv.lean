import Verif.Proofs.ProgramsEnv
import Verif.Props.Programs
import Verif.Props.Discretize

/-
C121: programs whose user functions read variables of the program; the robot of examples/ugv_ex.cpp.
-/
namespace Mpc.Props
open Mpc Exec Spec
set_option linter.unusedSectionVars false

section
variable {E : Type} {d : Dims} {K : Type} [Field K] [LinearOrder K] [IsStrictOrderedRing K]

/-- C121, no faults: a careful program whose functions read variables which it changes between the calls can be run for any
number of calls. -/
theorem c121_program (hor : HorizonsOk d) (hph : d.ph < 2 ^ 30) (mem : d.ph * d.nx + d.nu * d.ch + 1 ≤ 2 ^ 64) (junk : Nat → K)
    (dyn : Bool) {p : EnvProgram E d K} (hp : EnvCareful d dyn p) (n : Nat) :
    ∃ q past, Handles.play d junk dyn p n = .ok (q, past) ∧ (∀ e ∈ past, EnvEventOk d e) ∧ (past.length = n + 1 ∨ p past = none) := by
  obtain ⟨q, past, h1, h2, h3⟩ := play_total (p := p) (EnvPlayed d dyn) (EnvPlayed.start hor mem junk dyn) (fun q past op h ho => by
    obtain ⟨a, b, c⟩ := hp past h.events op.1 op.2 ho
    exact h.next hph a b c) n
  exact ⟨q, past, h1, h2.events, h3⟩

/-- C121, the flag: after any history in changing environments, a result of an `optimize` which ended in environment `e` and is
flagged feasible satisfies the constraints set last, read in environment `e`, at the reported sequence (and some slack); the
command is the first reported input. Conversely a result which satisfies them with the slack of the answer is flagged. -/
theorem c121_flagged {dyn : Bool} {ops : List (E × EnvCall E d K)} {outs : List (NlOut K)} {h h' : Handles E d K} {m m' : NlMpc d K}
    (H : EnvRan d dyn ops outs h m) {e : E} {x0 u0 z : Vec K} {vs : List (E × NlVisit K)} {value : Ext K} {code : Int} {j : Nat → K}
    (hf : NlSpec.TCallFits d ((EnvCall.optimize x0 u0 vs (.returns z value code) j : EnvCall E d K).frozen e)) {r : LResult K}
    {call : NlSolverCall K} (hs : h.step e m (.optimize x0 u0 vs (.returns z value code) j) = .ok ((h', m'), .result r call))
    (now : List (NlCall d K)) (hn : now = NlSpec.settings (NlSpec.frozenAt e ops)) :
    (r.is_feasible = true ↔
      (∀ F tol, NlSpec.last NlSpec.ineqConOf now = some (F, tol) → ∀ i, F (m'.o.seqState.viewF (d.ph + 1) d.nx)
        (m'.o.seqOutput.viewF (d.ph + 1) d.ny) (m'.o.seqInput.viewF (d.ph + 1) d.nu) (z.get (NlSpec.slackIx d)) i ≤ tol) ∧
      (∀ F tol, NlSpec.last NlSpec.eqConOf now = some (F, tol) → ∀ i, |F (m'.o.seqState.viewF (d.ph + 1) d.nx)
        (m'.o.seqInput.viewF (d.ph + 1) d.nu) i| ≤ tol)) ∧
    m'.o.seqState.viewF (d.ph + 1) d.nx = NlSpec.codeStates d (NlSpec.stScale now) x0.get z.get ∧
    (∀ b, b < d.nu → r.cmd.get b = m'.o.seqInput.get 0 b) := by
  obtain ⟨junk, hr⟩ := H.ran
  obtain ⟨hl, -, c, e1, a1, gf⟩ := Handles.run_agrees e H.hor.ch_pos H.hor.ch_le H.hor.ph_int H.mem H.fits hr
  obtain ⟨-, -, -, b2⟩ := Handles.step_ok a1 H.hor.ph_int H.mem hf hs
  obtain ⟨r', call', hout, -, -, hrep⟩ := b2
  obtain ⟨rfl, rfl⟩ : r = r' ∧ call = call' := by injection hout with e1 e2; exact ⟨e1, e2⟩
  have ha : NlMpc.Answered (h.ctlAt e c) x0.get z.get value code r m'.o := hrep
  have hl' : outs.length = (NlSpec.frozenAt e ops).length := by simp [NlSpec.frozenAt, hl]
  have q1 := afterT_last (fun c => c.cfg.ineq.map fun F => (F, c.ti)) (fun op => (NlSpec.ineqConOf op).map some)
    (fun c b op => by call_cases op b) (fun c x u oc => by rcases oc with _ | ⟨z, v, k, _ | _⟩ <;> rfl) (fun _ _ _ _ => rfl) hl'
  have q2 := afterT_last (fun c => c.cfg.eq.map fun F => (F, c.te)) (fun op => (NlSpec.eqConOf op).map some)
    (fun c b op => by call_cases op b) (fun c x u oc => by rcases oc with _ | ⟨z, v, k, _ | _⟩ <;> rfl) (fun _ _ _ _ => rfl) hl'
  have q3 := afterT_stScale hl'
  rw [last_map] at q1 q2
  rw [gf e, ← hn] at q1 q2 q3
  have q1 : (h.ctlAt e c).cfg.ineq.map (fun F => (F, (h.ctlAt e c).ti)) = NlSpec.last NlSpec.ineqConOf now :=
    q1.trans (by cases NlSpec.last NlSpec.ineqConOf now <;> rfl)
  have q2 : (h.ctlAt e c).cfg.eq.map (fun F => (F, (h.ctlAt e c).te)) = NlSpec.last NlSpec.eqConOf now :=
    q2.trans (by cases NlSpec.last NlSpec.eqConOf now <;> rfl)
  have hfe := ha.feas
  rw [← ha.seqO, ← ha.seqS, ← ha.seqI] at hfe
  refine ⟨?_, by rw [ha.seqS, q3], ?_⟩
  · rw [hfe, ← q1, ← q2]
    refine and_congr ?_ ?_
    · cases (h.ctlAt e c).cfg.ineq with
      | none => simp [NlSpec.Sat]
      | some G =>
        simp only [NlSpec.Sat, Option.map_some, NlSpec.WithinIneq, Option.some.injEq, Prod.mk.injEq]
        constructor
        · rintro h F tol ⟨rfl, rfl⟩ i
          obtain ⟨x, hx, hle⟩ := h i
          cases hx
          simpa using hle
        · intro h i
          exact ⟨_, rfl, by simpa using h _ _ ⟨rfl, rfl⟩ i⟩
    · cases (h.ctlAt e c).cfg.eq with
      | none => simp [NlSpec.Sat]
      | some G =>
        simp only [NlSpec.Sat, Option.map_some, NlSpec.WithinEq, Option.some.injEq, Prod.mk.injEq]
        constructor
        · rintro h F tol ⟨rfl, rfl⟩ i
          obtain ⟨x, hx, h1, h2⟩ := h i
          cases hx
          exact abs_le.2 ⟨by simpa using h1, by simpa using h2⟩
        · intro h i
          have := abs_le.1 (h _ _ ⟨rfl, rfl⟩ i)
          exact ⟨_, rfl, by simpa using this.1, by simpa using this.2⟩
  · intro b hb
    rw [ha.cmd b hb]
    have := congrFun (congrFun ha.seqI ⟨0, by omega⟩) ⟨b, hb⟩
    refine Eq.trans ?_ this.symm
    simp [NlSpec.inputs, NlSpec.inputAt]

/-- an `optimize` whose search or whose check fails is not flagged -/
theorem c121_unflagged {dyn : Bool} {ops : List (E × EnvCall E d K)} {outs : List (NlOut K)} {h h' : Handles E d K} {m m' : NlMpc d K}
    (H : EnvRan d dyn ops outs h m) {e : E} {x0 u0 : Vec K} {vs : List (E × NlVisit K)} {ending : NlEnding K} {j : Nat → K}
    (hn : ∀ z v c, ending ≠ .returns z v c)
    (hf : NlSpec.TCallFits d ((EnvCall.optimize x0 u0 vs ending j : EnvCall E d K).frozen e)) {r : LResult K}
    {call : NlSolverCall K} (hs : h.step e m (.optimize x0 u0 vs ending j) = .ok ((h', m'), .result r call)) :
    r.is_feasible = false := by
  obtain ⟨junk, hr⟩ := H.ran
  obtain ⟨hl, -, c, e1, a1, gf⟩ := Handles.run_agrees e H.hor.ch_pos H.hor.ch_le H.hor.ph_int H.mem H.fits hr
  obtain ⟨-, -, -, b2⟩ := Handles.step_ok a1 H.hor.ph_int H.mem hf hs
  cases ending with
  | returns z v c => exact absurd rfl (hn z v c)
  | outputThrows z => obtain ⟨hout, -⟩ := b2; cases hout
  | solverThrows =>
    obtain ⟨r', call', hout, -, -, hrep⟩ := b2
    cases hout
    have hrep : NlMpc.Failed d m.o.result r m'.o := hrep
    exact hrep.feas
  | checkThrows z w =>
    obtain ⟨r', call', hout, -, -, hrep⟩ := b2
    cases hout
    have hrep : NlMpc.Failed d m.o.result r m'.o := hrep
    exact hrep.feas

theorem settings_append (a b : List (NlTCall d K)) : NlSpec.settings (a ++ b) = NlSpec.settings a ++ NlSpec.settings b := by
  unfold NlSpec.settings
  rw [List.filterMap_append]

theorem settings_optimize {L : List (E × EnvCall E d K)} (e : E)
    (h : ∀ c ∈ L, ∃ x u vs en j, c.2 = EnvCall.optimize x u vs en j) : NlSpec.settings (NlSpec.frozenAt e L) = [] := by
  unfold NlSpec.settings NlSpec.frozenAt
  rw [List.filterMap_eq_nil_iff]
  intro c hc
  obtain ⟨a, ha, rfl⟩ := List.mem_map.1 hc
  obtain ⟨x, u, vs, en, j, e2⟩ := h a ha
  rw [e2]
  rfl

/-- C121, control loops: a program which makes the calls of `setup`, among them inequality constraints `F` which read variables, and
then only calls `optimize`. It never meets a fault, and each result which is flagged feasible satisfies `F`, read with the values
the variables had in this `optimize`, at the reported sequence. -/
theorem c121_script (hor : HorizonsOk d) (hph : d.ph < 2 ^ 30) (mem : d.ph * d.nx + d.nu * d.ch + 1 ≤ 2 ^ 64) (junk : Nat → K)
    (dyn : Bool) {setup : List (E × EnvCall E d K)}
    (hs : ∀ c ∈ setup, NlSpec.TCallFits d (c.2.frozen c.1) ∧ NlSpec.TAdmissible d dyn (c.2.frozen c.1) ∧ NlSpec.escapes (c.2.frozen c.1) = false)
    (hno : ∀ v x u vs en j, (v, EnvCall.optimize x u vs en j) ∉ setup)
    {F : E → Traj (d.ph + 1) d.nx K → Traj (d.ph + 1) d.ny K → Traj (d.ph + 1) d.nu K → K → FVec d.ineq K} {tol : K}
    (hl : ∀ v, NlSpec.last NlSpec.ineqConOf (NlSpec.settings (NlSpec.frozenAt v setup)) = some (F v, tol)) {loop : EnvProgram E d K}
    (hloop : ∀ past, past ≠ [] → (∀ e ∈ past, EnvEventOk d e) → ∀ c, loop past = some c →
      NlSpec.TCallFits d (c.2.frozen c.1) ∧ (∃ x u vs en j, c.2 = EnvCall.optimize x u vs en j) ∧ NlSpec.escapes (c.2.frozen c.1) = false)
    (n : Nat) :
    ∃ q past, Handles.play d junk dyn (script setup loop) n = .ok (q, past) ∧ (∀ e ∈ past, EnvEventOk d e) ∧
      (past.length = n + 1 ∨ script setup loop past = none) ∧
      ∀ e ∈ past, ∀ v x u vs en j out, e.call = some ((v, .optimize x u vs en j), out) → e.shows.last.is_feasible = true →
        (∃ s, ∀ i, F v (e.shows.states.viewF (d.ph + 1) d.nx) (e.shows.outputs.viewF (d.ph + 1) d.ny)
          (e.shows.inputs.viewF (d.ph + 1) d.nu) s i ≤ tol) ∧
        ∀ b, b < d.nu → e.shows.last.cmd.get b = e.shows.inputs.get 0 b := by
  obtain ⟨q, past, h1, h2, h3⟩ := play_total (p := script setup loop) (start := (do
      let m ← NlMpc.init d junk dyn
      return (({} : Handles E d K), m) : Exec _)) (step := fun q c => q.1.step c.1 q.2 c.2)
    (look := fun q => q.2.look)
    (fun q past => EnvPlayed d dyn q past ∧ past ≠ [] ∧ (callsOf past).length = past.length - 1 ∧
      (∃ L, (∀ c ∈ L, ∃ x u vs en j, c.2 = EnvCall.optimize x u vs en j) ∧ callsOf past = setup.take (past.length - 1) ++ L) ∧
      ∀ e ∈ past, ∀ v x u vs en j out, e.call = some ((v, .optimize x u vs en j), out) → e.shows.last.is_feasible = true →
        (∃ s, ∀ i, F v (e.shows.states.viewF (d.ph + 1) d.nx) (e.shows.outputs.viewF (d.ph + 1) d.ny)
          (e.shows.inputs.viewF (d.ph + 1) d.nu) s i ≤ tol) ∧
        ∀ b, b < d.nu → e.shows.last.cmd.get b = e.shows.inputs.get 0 b)
    (by
      obtain ⟨q, hq, hp⟩ := EnvPlayed.start (E := E) hor mem junk dyn
      refine ⟨q, hq, hp, by simp, rfl, ⟨[], by simp, by simp [callsOf]⟩, ?_⟩
      intro e he v x u vs en j out hc
      rw [List.mem_singleton.1 he] at hc
      cases hc)
    (by
      rintro q past op ⟨hp, hne, hlen, ⟨L, hL, hcalls⟩, hfl⟩ hop
      have hpos : 0 < past.length := List.length_pos_iff.2 hne
      have hcase := script_cases hop
      have hfit : NlSpec.TCallFits d (op.2.frozen op.1) ∧ NlSpec.TAdmissible d dyn (op.2.frozen op.1) ∧
          NlSpec.escapes (op.2.frozen op.1) = false := by
        rcases hcase with h | ⟨-, h⟩
        · exact hs op (List.mem_of_getElem? h)
        · obtain ⟨a, ⟨x, u, vs, en, j, e2⟩, b⟩ := hloop past hne hp.events op h
          refine ⟨a, ?_, b⟩
          rw [e2]
          trivial
      obtain ⟨v, op⟩ := op
      obtain ⟨r, hr, hp'⟩ := hp.next hph hfit.1 hfit.2.1 hfit.2.2
      refine ⟨r, hr, hp', by simp, ?_, ?_, ?_⟩
      · rw [callsOf_cons, List.length_append, hlen, List.length_cons]
        simp only [List.length_cons, List.length_nil]
        omega
      · rcases hcase with h | ⟨hge, h⟩
        · have hlt : past.length - 1 < setup.length := (List.getElem?_eq_some_iff.1 h).1
          have hL0 : L = [] := by
            have := congrArg List.length hcalls
            rw [hlen, List.length_append, List.length_take, Nat.min_eq_left hlt.le] at this
            exact List.length_eq_zero_iff.1 (by omega)
          refine ⟨[], by simp, ?_⟩
          rw [callsOf_cons, hcalls, hL0, List.append_nil, List.append_nil, List.length_cons, Nat.add_sub_cancel]
          obtain ⟨k, hk⟩ : ∃ k, past.length = k + 1 := ⟨past.length - 1, by omega⟩
          rw [hk, Nat.add_sub_cancel] at h ⊢
          rw [List.take_add_one, h]
          rfl
        · obtain ⟨-, hopt, -⟩ := hloop past hne hp.events _ h
          refine ⟨L ++ [(v, op)], ?_, ?_⟩
          · intro o ho
            rcases List.mem_append.1 ho with ho | ho
            · exact hL o ho
            · rw [List.mem_singleton.1 ho]; exact hopt
          · rw [callsOf_cons, hcalls, List.length_cons, Nat.add_sub_cancel, List.take_of_length_le hge,
              List.take_of_length_le (by omega), List.append_assoc]
      · intro e he v' x u vs en j out hc hfeas
        rcases List.mem_cons.1 he with rfl | he
        · cases hc
          have hge : setup.length ≤ past.length - 1 := by
            rcases hcase with h | ⟨h, -⟩
            · exact absurd (List.mem_of_getElem? h) (hno v x u vs en j)
            · exact h
          have hrep : NlSpec.reports (EnvCall.optimize x u vs en j : EnvCall E d K) = true := by
            cases en with
            | outputThrows z => cases hfit.2.2
            | _ => rfl
          obtain ⟨call, hcall⟩ := (hp'.events _ List.mem_cons_self).result v _ r.2 rfl hrep
          have hstep : q.1.step v q.2 (.optimize x u vs en j) = .ok ((r.1.1, r.1.2), .result r.1.2.look.last call) := by
            rw [hr]; exact congrArg Except.ok (Prod.ext rfl hcall)
          by_cases hen : ∃ z w c, en = .returns z w c
          · obtain ⟨z, w, c, rfl⟩ := hen
            obtain ⟨k1, -, k2⟩ := c121_flagged hp.ran hfit.1 hstep _ rfl
            refine ⟨⟨_, (k1.1 hfeas).1 _ _ ?_⟩, k2⟩
            rw [hcalls, List.take_of_length_le hge]
            unfold NlSpec.frozenAt
            rw [List.map_append, settings_append]
            have := settings_optimize v hL
            unfold NlSpec.frozenAt at this
            rw [this, List.append_nil]
            exact hl v
          · have hfalse := c121_unflagged hp.ran (fun z w c h => hen ⟨z, w, c, h⟩) hfit.1 hstep
            rw [hfalse] at hfeas
            cases hfeas
        · exact hfl e he v' x u vs en j out hc hfeas) n
  exact ⟨q, past, h1, h2.1.events, h3, h2.2.2.2.2⟩

end

/-- the last `optimize` of the sample of C99 meets the hypotheses of `c121_flagged` -/
example : ∃ (ops : List ((ℚ × ℚ) × EnvCall (ℚ × ℚ) dN ℚ)) (outs : List (NlOut ℚ)) (h h' : Handles (ℚ × ℚ) dN ℚ) (m m' : NlMpc dN ℚ)
    (r : LResult ℚ) (call : NlSolverCall ℚ), ops = opsE.take 6 ∧ EnvRan dN false ops outs h m ∧
      h.step (7, 3) m (.optimize (nvec 2 fun a => a) (nvec 1 fun _ => 4) [((7, 3), .returns (.con 0 (zN 2) true (fun _ => 5)))]
        (.returns (zN 4) (.fin 8) 1) (fun _ => 0)) = .ok ((h', m'), .result r call) := by
  obtain ⟨outs, h, m, H⟩ := c99_runs (d := dN) (dyn := false) (ops := opsE.take 6) (0, 0) dN_ok (by decide) (by decide)
    (fun p hp => opsE_fits p (List.mem_of_mem_take hp)) (fun p hp => opsE_adm p (List.mem_of_mem_take hp))
  obtain ⟨j, hr⟩ := H.ran
  obtain ⟨q, hq⟩ := Handles.run_total (0, 0) dN_ok.ch_pos dN_ok.ch_le (by decide) (by decide) j false opsE opsE_fits opsE_adm
  have e : opsE = opsE.take 6 ++ [((7, 3), .optimize (nvec 2 fun a => a) (nvec 1 fun _ => 4)
    [((7, 3), .returns (.con 0 (zN 2) true (fun _ => 5)))] (.returns (zN 4) (.fin 8) 1) (fun _ => 0))] := rfl
  rw [e, Handles.run_snoc, hr, ok_bind] at hq
  obtain ⟨⟨⟨h2, m2⟩, o⟩, hs, -⟩ := bind_eq_ok.1 hq
  dsimp only at hs
  obtain ⟨-, -, c, e1, a1, -⟩ := Handles.run_agrees (0, 0) dN_ok.ch_pos dN_ok.ch_le dN_ok.ph_int H.mem H.fits hr
  obtain ⟨-, -, -, b2⟩ := Handles.step_ok a1 dN_ok.ph_int H.mem (opsE_fits _ (by rw [e]; exact List.mem_append_right _ (List.mem_singleton.2 rfl))) hs
  obtain ⟨r, call, rfl, -⟩ := b2
  exact ⟨_, outs, h, h2, m, m2, r, call, rfl, H, hs⟩

/-! ### examples/ugv_ex.cpp -/

section ugv
open Examples Matrix

/-- The discrete model of the example is the motion with constant acceleration for a tenth of a second. -/
theorem c121_ugv_model (x : FVec 4 ℝ) (u : FVec 2 ℝ) :
    ugvField x u = ![x 0 + x 2 / 10 + u 0 / 200, x 1 + x 3 / 10 + u 1 / 200, x 2 + u 0 / 10, x 3 + u 1 / 10] := by
  let p : ℝ → Fin 4 → ℝ := fun t =>
    ![x 0 + x 2 * t + u 0 * (t * t) / 2, x 1 + x 3 * t + u 1 * (t * t) / 2, x 2 + u 0 * t, x 3 + u 1 * t]
  have hp : ∀ t, HasDerivAt p (ugvA *ᵥ p t + ugvB *ᵥ u) t := by
    intro t
    rw [hasDerivAt_pi]
    have d1 : ∀ a b c : ℝ, HasDerivAt (fun t : ℝ => a + b * t + c * (t * t) / 2) (b + c * t) t := by
      intro a b c
      have := (((hasDerivAt_id t).const_mul b).const_add a).add ((((hasDerivAt_id t).mul (hasDerivAt_id t)).const_mul c).div_const 2)
      refine HasDerivAt.congr_deriv this ?_
      simp only [id]
      ring
    have d2 : ∀ b c : ℝ, HasDerivAt (fun t : ℝ => b + c * t) c t := by
      intro b c
      have := ((hasDerivAt_id t).const_mul c).const_add b
      refine HasDerivAt.congr_deriv this ?_
      ring
    intro i
    fin_cases i
    · refine HasDerivAt.congr_deriv (d1 (x 0) (x 2) (u 0)) ?_
      simp [ugvA, ugvB, Matrix.mulVec, dotProduct, Fin.sum_univ_succ, p]
    · refine HasDerivAt.congr_deriv (d1 (x 1) (x 3) (u 1)) ?_
      simp [ugvA, ugvB, Matrix.mulVec, dotProduct, Fin.sum_univ_succ, p]
    · refine HasDerivAt.congr_deriv (d2 (x 2) (u 0)) ?_
      simp [ugvA, ugvB, Matrix.mulVec, dotProduct, Fin.sum_univ_succ, p]
    · refine HasDerivAt.congr_deriv (d2 (x 3) (u 1)) ?_
      simp [ugvA, ugvB, Matrix.mulVec, dotProduct, Fin.sum_univ_succ, p]
  have h := c34_zoh ugvA ugvB (1 / 10) u p hp
  have h0 : p 0 = x := by
    funext i
    fin_cases i <;> simp [p]
  rw [h0] at h
  have hf : ugvField x u = p (1 / 10) := by
    rw [h]
    rfl
  rw [hf]
  funext i
  fin_cases i <;> simp [p] <;> ring

theorem ugvApplied_size {past : List (Event (UgvVars × EnvCall UgvVars ugvDims ℝ) (NlOut ℝ) ℝ)}
    (h : ∀ e ∈ past, EnvEventOk ugvDims e) : ∀ u ∈ ugvApplied past, u.size = 2 := by
  intro u hu
  obtain ⟨e, he, hm⟩ := List.mem_filterMap.1 hu
  split at hm
  · rename_i v x u' vs en j r call hc
    cases hm
    rw [(h e he).only _ _ _ _ _ _ _ _ hc]
    exact (h e he).fits.cmd
  · cases hm

/-- examples/ugv_ex.cpp: whatever the variables contain before they are set (the preferred velocity is read by the first search
before the program sets it), the program never meets a fault; it goes on for 150 turns or until the robot is at its target. If a
result is flagged feasible, no predicted position is inside the obstacles around (2, 1) and (1, 1) by more than the tolerance. -/
theorem c121_ugv (junk : Nat → ℝ) (e0 : UgvVars) (tol1 tol2 : ℝ) (a1 a2 a3 : Bool) {solver : Nat → SolverRun ℝ}
    (hr : ∀ k, RunFits ugvDims (solver k)) (n : Nat) :
    ∃ q past, Handles.play ugvDims junk false (ugv e0 tol1 tol2 a1 a2 a3 solver) n = .ok (q, past) ∧
      (∀ e ∈ past, EnvEventOk ugvDims e) ∧ (past.length = n + 1 ∨ ugv e0 tol1 tol2 a1 a2 a3 solver past = none) ∧
      ∀ e ∈ past, ∀ v x u vs en j out, e.call = some ((v, .optimize x u vs en j), out) → e.shows.last.is_feasible = true →
        ∀ k, k ≤ 10 →
          3 / 10 - tol2 ≤ Real.sqrt ((e.shows.states.get k 0 - 2) ^ 2 + (e.shows.states.get k 1 - 1) ^ 2) ∧
          3 / 10 - tol2 ≤ Real.sqrt ((e.shows.states.get k 0 - 1) ^ 2 + (e.shows.states.get k 1 - 1) ^ 2) := by
  obtain ⟨q, past, h1, h2, h3, h4⟩ := c121_script (d := ugvDims) ⟨by decide, by decide, by decide⟩ (by decide) (by decide)
    junk false (setup := ugvSetup e0 tol1 tol2 a1 a2 a3) (loop := ugvLoop e0 solver)
    (F := fun v X _ _ _ i => ugvIneq v X i) (tol := tol2)
    (by simp [ugvSetup, EnvCall.frozen, NlSpec.TCallFits, NlSpec.TAdmissible, NlSpec.CallFits, NlSpec.Admissible, NlSpec.escapes])
    (by simp [ugvSetup]) (fun v => rfl)
    (by
      intro past hne hev c hc
      unfold ugvLoop at hc
      dsimp only at hc
      split at hc
      · cases hc
      · obtain ⟨r1, r2⟩ := hr (ugvApplied past).length
        cases hc
        refine ⟨⟨rfl, ?_, ?_, ?_⟩, ⟨_, _, _, _, _, rfl⟩, ?_⟩
        · split
          · rename_i u us hu
            exact ugvApplied_size hev u (by rw [hu]; simp)
          · rfl
        · intro w hw
          simp only [ugvVisits, List.map_map, List.mem_map] at hw
          obtain ⟨k, hk, rfl⟩ := hw
          exact r1 k hk
        · cases ho : (solver (ugvApplied past).length).outcome with
          | threw => trivial
          | answered z v c t => exact r2 z v c t ho
        · cases (solver (ugvApplied past).length).outcome <;> rfl) n
  refine ⟨q, past, h1, h2, h3, ?_⟩
  intro e he v x u vs en j out hc hf k hk
  obtain ⟨⟨s, hi⟩, -⟩ := h4 e he v x u vs en j out hc hf
  -- the variables in this search: the obstacles are set
  have hv : ∃ w, v = ugvObstacles w := by
    obtain ⟨before, hb⟩ := play_calls h1 e he _ _ hc
    rcases script_cases hb with hm | ⟨-, hm⟩
    · have hm := List.mem_of_getElem? hm
      simp [ugvSetup] at hm
    · unfold ugvLoop at hm
      dsimp only at hm
      split at hm
      · cases hm
      · obtain ⟨h5, -⟩ := Prod.mk.inj (Option.some.inj hm)
        exact ⟨_, h5.symm⟩
  obtain ⟨w, rfl⟩ := hv
  constructor
  · have h6 := hi ⟨2 * k, by show 2 * k < 22; omega⟩
    have e1 : 2 * k / 2 = k := by omega
    have e2 : 2 * k % 2 = 0 := by omega
    simp [ugvIneq, norm2, ugvObstacles, Mat.viewF, e1, e2] at h6
    rw [sq, sq]
    linarith
  · have h6 := hi ⟨2 * k + 1, by show 2 * k + 1 < 22; omega⟩
    have e1 : (2 * k + 1) / 2 = k := by omega
    have e2 : (2 * k + 1) % 2 = 1 := by omega
    simp [ugvIneq, norm2, ugvObstacles, Mat.viewF, e1, e2] at h6
    rw [sq, sq]
    linarith

/-- a solver which fails in every turn, and one which evaluates the objective and answers zeros -/
example : RunFits ugvDims (⟨[], .threw, fun _ => 0⟩ : SolverRun ℝ) ∧
    RunFits ugvDims (⟨[.obj (Vec.const 61 0) true (fun _ => 0)], .answered (Vec.const 61 0) (.fin 0) 1 false, fun _ => 0⟩ : SolverRun ℝ) :=
  ⟨⟨by simp, by rintro z v c t ⟨⟩⟩, by simp [NlSpec.CallbackFits, Vec.const], by rintro z v c t ⟨⟩; rfl⟩

end ugv
end Mpc.Props
