import Mathlib.Tactic.Ring
import Verif.Props.NlAsked

/-
C59: no well-formed history of calls on the nonlinear controller faults. C60: dimensions given at compile time and at run time
behave alike. C61: construction.
-/
namespace Mpc.Props
open Mpc Exec
set_option linter.unusedSectionVars false

section
variable {d : Dims} {K : Type} [Field K] [LinearOrder K] [IsStrictOrderedRing K]

/-! ### C59 -/

/-- C59 as claimed -/
def C59Claim (K : Type) [Field K] [LinearOrder K] [IsStrictOrderedRing K] : Prop :=
  ∀ (d : Dims) (junk : Nat → K) (dyn : Bool) (ops : List (NlCall d K)), HorizonsOk d → d.ph < 2 ^ 30 →
    d.ph * d.nx + d.nu * d.ch + 1 ≤ 2 ^ 64 → (∀ op ∈ ops, NlSpec.CallFits d op) →
    ∃ m outs, NlMpc.run d junk dyn ops = .ok (m, outs) ∧ outs.length = ops.length

/-- C59, partial: every history with arguments of the documented sizes, with nonlinear parameters, slices that do not start at
a negative step, and no equality function for run-time dimensions or for no equality constraint, runs without any fault, whatever
the solver does. Missing: exactly these exceptions; see `c59_dynamic_equality`, `c59_wrong_parameters`, `c59_no_equality`. -/
theorem c59_no_fault_partial (hd : HorizonsOk d) (hp : d.ph < 2 ^ 30) (hm : d.ph * d.nx + d.nu * d.ch + 1 ≤ 2 ^ 64)
    (junk : Nat → K) (dyn : Bool) (ops : List (NlCall d K)) (hf : ∀ op ∈ ops, NlSpec.CallFits d op)
    (hparams : ∀ p, NlCall.setOptimizerParameters p ∈ ops → ∃ q, p = .nonlinear q)
    (hslice : ∀ l u s, (NlCall.setStateBoundsSlice l u s ∈ ops ∨ NlCall.setInputBoundsSlice l u s ∈ ops) →
      s = ⟨-1, -1⟩ ∨ 0 ≤ s.start)
    (heq : NlSpec.HasEq ops → dyn = false ∧ 0 < d.eq) :
    ∃ m outs, NlMpc.run d junk dyn ops = .ok (m, outs) ∧ outs.length = ops.length := by
  have ha : NlSpec.AdmissibleHistory d dyn ops := by
    intro pre op post e
    have hm : op ∈ ops := by rw [e]; simp
    cases op with
    | setOptimizerParameters p => exact hparams p hm
    | setEqConFunction F tol acc => exact heq ⟨F, tol, acc, hm⟩
    | setStateBoundsSlice l u s => exact hslice l u s (.inl hm)
    | setInputBoundsSlice l u s => exact hslice l u s (.inr hm)
    | _ => trivial
  obtain ⟨⟨m, outs⟩, h⟩ := NlMpc.run_total hd.ch_pos hd.ch_le hp hm junk dyn ops hf ha
  exact ⟨m, outs, h, (NlMpc.run_agrees hd.ch_pos hd.ch_le hd.ph_int hm hf h).2.2⟩

variable {dyn : Bool} {ops : List (NlCall d K)} {outs : List (NlOut K)} {m m' : NlMpc d K} {x0 u0 : Vec K}

/-- C59: after every history on a controller whose dimensions are given at run time, setting an equality constraint fails an
assertion (a vector of size -1). -/
theorem c59_dynamic_equality (h : NlRan d true ops outs m)
    (F : Traj (d.ph + 1) d.nx K → Traj (d.ph + 1) d.nu K → FVec d.eq K) (tol : K) (acc : Bool) :
    m.step (.setEqConFunction F tol acc) = .error .assertion := by
  obtain ⟨-, h2, -⟩ := h.agrees
  simp only [NlMpc.step]
  rw [require_fail (by rw [h2]; simp)]
  rfl

/-- C59: parameters of another type than `NLParameters` are dereferenced as a null pointer, after every history. -/
theorem c59_wrong_parameters (m : NlMpc d K) : m.step (.setOptimizerParameters .other) = .error .danglingUse := rfl

/-- C59: with an equality function although there are no equality constraints, and no inequality function, the check of every
vector the solver answers fails an assertion (`maxCoeff` of an empty vector). -/
theorem c59_no_equality (h : NlRan d dyn ops outs m) (he : d.eq = 0) (h1 : NlSpec.HasEq ops)
    (h2 : ∀ F tol acc, NlCall.setIneqConFunction F tol acc ∉ ops) (hx : x0.size = d.nx) (hu : u0.size = d.nu)
    {z : Vec K} (hz : z.size = d.ph * d.nx + d.nu * d.ch + 1) (v : Ext K) (code : Int) (junk : Nat → K) :
    m.step (.optimize x0 u0 [] (.answered z v code false) junk) = .error .assertion := by
  obtain ⟨ag, -, hl⟩ := h.agrees
  have hp := h.hor.ph_int
  have hq : (NlCtl.after d ops outs).cfg.eq.isSome = true := by
    refine NlMpc.after_set (fun c => c.cfg.eq) (fun q => ∃ F tol acc, q = .setEqConFunction F tol acc) ?_ ?_ hl ?_
    · rintro c b _ ⟨F, tol, acc, rfl⟩; rfl
    · intro c b q hq
      cases q with
      | optimize x0 u0 cs oc j =>
        show ((c.solved _ _ _).cfg.eq).isSome = true
        rw [NlMpc.solved_cfg]; exact hq
      | setOptimizerParameters p => cases p <;> exact hq
      | setStateBoundsSlice => cases b <;> exact hq
      | setInputBoundsSlice => cases b <;> exact hq
      | setEqConFunction => rfl
      | _ => exact hq
    · obtain ⟨F, tol, acc, hm⟩ := h1
      exact ⟨_, hm, F, tol, acc, rfl⟩
  have hi : (NlCtl.after d ops outs).cfg.ineq = none := by
    by_contra hne
    obtain ⟨q, hq, F, tol, acc, rfl⟩ := NlMpc.after_due (fun c => c.cfg.ineq)
      (fun q => ∃ F tol acc, q = .setIneqConFunction F tol acc) rfl
      (by
        intro c b q
        cases q with
        | setIneqConFunction F tol acc => exact Or.inr ⟨F, tol, acc, rfl⟩
        | optimize x0 u0 cs oc j =>
          left
          show (c.solved _ _ _).cfg.ineq = _
          rw [NlMpc.solved_cfg]
        | setOptimizerParameters p => left; cases p <;> rfl
        | setStateBoundsSlice => left; cases b <;> rfl
        | setInputBoundsSlice => left; cases b <;> rfl
        | _ => left; rfl) hl (Option.isSome_iff_ne_none.2 hne)
    exact h2 F tol acc hq
  simp only [NlMpc.step]
  unfold NlMpc.optimize
  obtain ⟨m1, e1⟩ := NlMpc.onState_total ag hp (.measure x0) hx trivial
  obtain ⟨k1, k2, k3, k4⟩ := NlMpc.onState_agrees ag hp (op := .measure x0) hx e1
  rw [e1, ok_bind]
  obtain ⟨p, e2⟩ := (NlOpt.prepare_start k1.good k1.dims junk hx hu (o := m1.o) (by rw [k3]; exact ag.zs)).exists_ok
  rw [e2, ok_bind]
  dsimp only
  rw [show NlMpc.callbacks m1.o m1.s [] = .ok m1.s from rfl, ok_bind]
  unfold NlMpc.finish
  dsimp only
  rw [if_neg (by simp)]
  have csz := k1.csz
  have hd := k1.dims
  obtain ⟨w, hw', hw⟩ := Mapping.unwrapVector_post m1.s.mp k1.good z m1.s.con.x0 m1.s.con.Xmat m1.s.con.Umat
    (by rw [hd]; exact hz) (by rw [hd]; exact csz.x0) (by rw [hd]; exact csz.X.1) (by rw [hd]; exact csz.X.2)
    (by rw [hd]; exact csz.U.1) (by rw [hd]; exact csz.U.2)
  have hwX := hw.xr; have hwXc := hw.xc; have hwU := hw.ur; have hwUc := hw.uc
  rw [hd] at hwX hwXc hwU hwUc
  obtain ⟨F, hF⟩ := Option.isSome_iff_exists.1 hq
  have hfe : m1.s.con.isFeasible m1.s.mp m1.s.M z = .error .assertion := by
    unfold Constraints.isFeasible Constraints.feasible
    rw [hw', ok_bind, k1.ineq, k1.eq]
    rw [show ((NlCtl.after d ops outs).cfg.step (NlOp.measure x0)).ineq = none from hi,
      show ((NlCtl.after d ops outs).cfg.step (NlOp.measure x0)).eq = some F from hF]
    unfold Constraints.feasIneq Constraints.feasEq
    simp only [Option.map_none, Option.map_some, pure_bind']
    rw [if_pos trivial, Mat.view_ok hwX hwXc, ok_bind, Mat.view_ok hwU hwUc, ok_bind]
    unfold maxAbsGreater maxCoeff
    rw [require_fail (by show ¬ 0 < d.eq; omega)]
    rfl
  rw [hfe]
  rfl

/-! ### C60 -/

/-- C60 as claimed: the two variants return the same values and fault alike. -/
def C60Claim (K : Type) [Field K] [LinearOrder K] [IsStrictOrderedRing K] : Prop :=
  ∀ (d : Dims) (junk : Nat → K) (ops : List (NlCall d K)), HorizonsOk d → (∀ op ∈ ops, NlSpec.CallFits d op) →
    (NlMpc.run d junk true ops).map Prod.snd = (NlMpc.run d junk false ops).map Prod.snd

/-- the controller with the other kind of dimensions -/
def toggle (b : Bool) (r : NlMpc d K × NlOut K) : NlMpc d K × NlOut K := ({ r.1 with dynamic := b }, r.2)

theorem bind_map {α β γ : Type} (e : Exec α) (f : α → Exec β) (g : α → Exec γ) (h : β → γ) (hg : ∀ a, g a = (f a).map h) :
    (e >>= g) = (e >>= f).map h := by
  cases e with
  | error => rfl
  | ok a => exact hg a

theorem onState_toggle (m : NlMpc d K) (b : Bool) (op : NlOp d K) :
    ({ m with dynamic := b } : NlMpc d K).onState op = (m.onState op).map fun m => { m with dynamic := b } :=
  bind_map _ _ _ _ fun _ => rfl

theorem map_bind_ok {α β γ : Type} (e : Exec α) (h : α → β) (g : β → Exec γ) : (e.map h >>= g) = e >>= fun a => g (h a) := by
  cases e <;> rfl

theorem accept_toggle (m : NlMpc d K) (b : Bool) (x0 : Vec K) (v : Ext K) (c : Int) (f : Bool) (junk : Nat → K) :
    ({ m with dynamic := b } : NlMpc d K).accept x0 v c f junk
      = (m.accept x0 v c f junk).map fun m => { m with dynamic := b } := by
  unfold NlMpc.accept
  exact bind_map _ _ _ _ fun _ => bind_map _ _ _ _ fun _ => bind_map _ _ _ _ fun _ => bind_map _ _ _ _ fun _ =>
    bind_map _ _ _ _ fun _ => bind_map _ _ _ _ fun _ => rfl

theorem finish_toggle (m : NlMpc d K) (b : Bool) (x0 : Vec K) (junk : Nat → K) (oc : NlOutcome K) :
    ({ m with dynamic := b } : NlMpc d K).finish x0 junk oc = (m.finish x0 junk oc).map fun m => { m with dynamic := b } := by
  cases oc with
  | threw => rfl
  | answered z v c t =>
    cases t with
    | true => rfl
    | false =>
      unfold NlMpc.finish
      dsimp only
      rw [if_neg (by simp), if_neg (by simp)]
      exact bind_map _ _ _ _ fun f => accept_toggle (NlMpc.mk { m.s with con := f.2 }
        { m.o with optVector := z, first := false } m.dynamic) b x0 v c f.1 junk

theorem matrixBounds_toggle (m : NlMpc d K) (b : Bool) (h : Nat) (mn mx : Mat (Ext K))
    (set : NlOpt K → Vec (Ext K) → Vec (Ext K) → HorizonSlice → Exec (NlOpt K × Bool)) :
    ({ m with dynamic := b } : NlMpc d K).matrixBounds h mn mx set = (m.matrixBounds h mn mx set).map (toggle b) :=
  bind_map _ _ _ _ fun _ => rfl

theorem sliceBounds_toggle (m : NlMpc d K) (b : Bool) (h : Nat) (s : HorizonSlice) (set : NlOpt K → Exec (NlOpt K × Bool)) :
    ({ m with dynamic := b } : NlMpc d K).sliceBounds h s set = (m.sliceBounds h s set).map (toggle b) := by
  have key : ∀ e : Exec Bool, (e >>= fun v => if v = true then set m.o >>= fun r =>
      pure (({ m with o := r.1, dynamic := b } : NlMpc d K), NlOut.bool (true && r.2)) else
      pure (({ m with dynamic := b } : NlMpc d K), (NlOut.bool false : NlOut K)))
      = (e >>= fun v => if v = true then set m.o >>= fun r => pure (({ m with o := r.1 } : NlMpc d K), NlOut.bool (true && r.2))
          else pure (m, (NlOut.bool false : NlOut K))).map (toggle b) := by
    intro e
    refine bind_map _ _ _ _ fun v => ?_
    cases v with
    | false => rfl
    | true => exact bind_map _ _ _ _ fun _ => rfl
  unfold NlMpc.sliceBounds
  by_cases hu : isSliceUnset s = true
  · rw [if_pos hu, if_pos hu]
    exact key _
  · rw [if_neg hu, if_neg hu]
    exact key _

theorem step_toggle (m : NlMpc d K) (b : Bool) (op : NlCall d K)
    (hop : ∀ F tol acc, op ≠ .setEqConFunction F tol acc) :
    ({ m with dynamic := b } : NlMpc d K).step op = (m.step op).map (toggle b) := by
  cases op with
  | setEqConFunction F tol acc => exact absurd rfl (hop F tol acc)
  | setOptimizerParameters p => exact bind_map _ _ _ _ fun _ => rfl
  | setStateBounds mn mx => exact matrixBounds_toggle m b d.ph mn mx fun o l u s => o.setStateBounds d l u s
  | setInputBounds mn mx => exact matrixBounds_toggle m b d.ch mn mx fun o l u s => o.setInputBounds d l u s
  | setStateBoundsSlice l u s => exact sliceBounds_toggle m b d.ph s fun o => o.setStateBounds d l u s
  | setInputBoundsSlice l u s => exact sliceBounds_toggle m b d.ch s fun o => o.setInputBounds d l u s
  | setOutputBounds mn mx => rfl
  | setOutputBoundsSlice l u s => rfl
  | optimize x0 u0 cs oc junk =>
    simp only [NlMpc.step]
    unfold NlMpc.optimize
    rw [onState_toggle, map_bind_ok]
    refine bind_map _ _ _ _ fun m1 => ?_
    refine bind_map _ _ _ _ fun p => ?_
    dsimp only
    refine bind_map _ _ _ _ fun s => ?_
    have := finish_toggle { m1 with s := s, o := { m1.o with optVector := p.1 } } b x0 junk oc
    dsimp only at this
    rw [this, map_bind_ok]
    exact bind_map _ _ _ _ fun _ => rfl
  | _ =>
    simp only [NlMpc.step]
    rw [onState_toggle, map_bind_ok]
    exact bind_map _ _ _ _ fun _ => rfl

theorem run_toggle (junk : Nat → K) {ops : List (NlCall d K)} (hop : ∀ F tol acc, NlCall.setEqConFunction F tol acc ∉ ops) :
    NlMpc.run d junk true ops = (NlMpc.run d junk false ops).map fun r => ({ r.1 with dynamic := true }, r.2) := by
  induction ops using List.reverseRecOn with
  | nil =>
    unfold NlMpc.run NlMpc.init
    simp only [List.foldl_nil, bind_assoc]
    exact bind_map _ _ _ _ fun _ => bind_map _ _ _ _ fun _ => rfl
  | append_singleton l op ih =>
    rw [NlMpc.run_snoc, NlMpc.run_snoc, ih (fun F tol acc h => hop F tol acc (by simp [h])), map_bind_ok]
    refine bind_map _ _ _ _ fun q => ?_
    dsimp only
    rw [step_toggle q.1 true op (fun F tol acc h => hop F tol acc (by simp [h])), map_bind_ok]
    exact bind_map _ _ _ _ fun _ => rfl

/-- C60, partial: for every history in which no equality constraint function is set, both variants return the same values,
report the same sequences, and fault alike; no assumption on the arguments. Missing: `setEqConFunction`, which only works for
compile-time dimensions (`c60_equality_violated`). -/
theorem c60_alike_partial (junk : Nat → K) {ops : List (NlCall d K)}
    (hop : ∀ F tol acc, NlCall.setEqConFunction F tol acc ∉ ops) :
    (NlMpc.run d junk true ops).map (fun r => (r.2, r.1.o.result, r.1.o.seqState, r.1.o.seqInput, r.1.o.seqOutput))
      = (NlMpc.run d junk false ops).map (fun r => (r.2, r.1.o.result, r.1.o.seqState, r.1.o.seqInput, r.1.o.seqOutput)) := by
  rw [run_toggle junk hop]
  cases NlMpc.run d junk false ops <;> rfl

/-! ### C61 -/

/-- dimensions `setDimension` accepts -/
def Settable (d : Dims) : Prop := 0 < d.ph ∧ 0 < d.ch ∧ d.ph < 2 ^ 30

/-- C61 as claimed -/
def C61Claim (K : Type) [Field K] [LinearOrder K] [IsStrictOrderedRing K] : Prop :=
  ∀ (d : Dims) (junk : Nat → K) (dyn : Bool), Settable d → ∃ m, NlMpc.init d junk dyn = .ok m

/-- C61, partial: construction succeeds whenever the control horizon is not longer than the prediction horizon. -/
theorem c61_construct_partial (hd : HorizonsOk d) (junk : Nat → K) (dyn : Bool) : ∃ m, NlMpc.init d junk dyn = .ok m :=
  (NlMpc.init_agrees hd.ch_pos hd.ch_le hd.ph_int junk dyn).exists_ok

/-- C61: with inputs and a control horizon longer than the prediction horizon, construction always writes outside of a matrix. -/
theorem c61_long_control_horizon (h0 : 0 < d.ph) (h : d.ph < d.ch) (hu : 0 < d.nu) (junk : Nat → K) (dyn : Bool) :
    ¬ ∃ m, NlMpc.init d junk dyn = .ok m := by
  rintro ⟨m, hm⟩
  unfold NlMpc.init NlState.init at hm
  obtain ⟨s, hs, -⟩ := bind_eq_ok.1 hm
  obtain ⟨mp, hmp, -⟩ := bind_eq_ok.1 hs
  unfold Mapping.init Mapping.computeMapping at hmp
  dsimp only at hmp
  obtain ⟨S, hS, hmp⟩ := bind_eq_ok.1 hmp
  obtain ⟨r, hr, -⟩ := bind_eq_ok.1 hmp
  have := forFrom_inv (fun i (t : Nat × Nat × Mat K × Mat K) => i ≤ d.ph ∧ (i < d.ch → t.2.1 = i * d.nu) ∧
      t.2.2.2.cols = d.ph * d.nu) ⟨by omega, by simp, rfl⟩ ?_ hr
  · have := this.1
    omega
  · rintro i ⟨ix, jx, Iz, Iu⟩ t' h1 h2 ⟨g1, g2, g3⟩ ht
    dsimp only at g2 g3 ht
    have g2 := g2 (by omega)
    obtain ⟨Iu', hI, ht⟩ := bind_eq_ok.1 ht
    unfold Mat.setBlock at hI
    obtain ⟨_, hb, hI⟩ := bind_eq_ok.1 hI
    obtain ⟨-, -, hI⟩ := bind_eq_ok.1 hI
    have hb := (require_eq_ok.1 hb).2
    have hb' := hb
    cases hI
    have hi : i < d.ph := by
      by_contra hc
      have : d.ph * d.nu ≤ i * d.nu := Nat.mul_le_mul_right _ (by omega)
      rw [g3, g2] at hb
      omega
    obtain ⟨q, hq, ht⟩ := bind_eq_ok.1 ht
    cases ht
    refine ⟨by omega, fun hlt => ?_, g3⟩
    have hc : Mapping.holdCount d i = 1 := by
      unfold Mapping.holdCount
      rw [if_neg (by omega)]
    rw [hc] at hq
    have := forFrom_inv (fun j (t : Nat × Mat K) => t.1 = jx + j * d.nu) (by simp) (by
      intro j t t' _ _ hj hb
      obtain ⟨Iz', -, hb⟩ := bind_eq_ok.1 hb
      obtain ⟨-, -, hb⟩ := bind_eq_ok.1 hb
      cases hb
      dsimp only
      rw [hj, Nat.succ_mul]
      omega) hq
    show q.1 = (i + 1) * d.nu
    rw [this, g2]
    ring

end

/-! ### violations and witnesses -/

/-- C59 is violated (dimensions given at run time and an equality constraint). -/
theorem c59_equality_violated : ¬ C59Claim ℚ := by
  intro hc
  obtain ⟨m, outs, h, -⟩ := hc dN (fun _ => 0) true [.setEqConFunction (fun X _ _ => X 3 1) 0 true] dN_ok (by decide) (by decide)
    (by simp [NlSpec.CallFits])
  rw [show ([.setEqConFunction (fun X _ _ => X 3 1) 0 true] : List (NlCall dN ℚ)) = [] ++ [_] from rfl, NlMpc.run_snoc] at h
  obtain ⟨⟨m0, o0⟩, h0, h⟩ := bind_eq_ok.1 h
  obtain ⟨r, hr, -⟩ := bind_eq_ok.1 h
  rw [c59_dynamic_equality (ops := []) (outs := o0) ⟨dN_ok, by decide, by simp, fun _ => 0, h0⟩] at hr
  cases hr

/-- C60 is violated: setting an equality constraint. -/
theorem c60_equality_violated : ¬ C60Claim ℚ := by
  intro hc
  have := hc dN (fun _ => 0) [.setEqConFunction (fun X _ _ => X 3 1) 0 true] dN_ok (by simp [NlSpec.CallFits])
  obtain ⟨m, outs, h, -⟩ := c59_no_fault_partial (d := dN) (K := ℚ) dN_ok (by decide) (by decide) (fun _ => 0) false
    [.setEqConFunction (fun X _ _ => X 3 1) 0 true] (by simp [NlSpec.CallFits]) (by simp) (by simp) (fun _ => ⟨rfl, by decide⟩)
  rw [h] at this
  cases h' : NlMpc.run dN (fun _ => (0 : ℚ)) true [.setEqConFunction (fun X _ _ => X 3 1) 0 true] with
  | error e => rw [h'] at this; cases this
  | ok r =>
    rw [show ([.setEqConFunction (fun X _ _ => X 3 1) 0 true] : List (NlCall dN ℚ)) = [] ++ [_] from rfl, NlMpc.run_snoc] at h'
    obtain ⟨⟨m0, o0⟩, h0, h'⟩ := bind_eq_ok.1 h'
    obtain ⟨r, hr, -⟩ := bind_eq_ok.1 h'
    rw [c59_dynamic_equality (ops := []) (outs := o0) ⟨dN_ok, by decide, by simp, fun _ => 0, h0⟩] at hr
    cases hr

/-- C61 is violated: one input, prediction horizon 1, control horizon 2. -/
theorem c61_violated : ¬ C61Claim ℚ := by
  intro hc
  have := hc { nx := 1, nu := 1, ndu := 0, ny := 1, ph := 1, ch := 2, ineq := 0, eq := 0 } (fun _ => 0) false
    ⟨by decide, by decide, by decide⟩
  exact c61_long_control_horizon (by decide) (by decide) (by decide) _ _ this

theorem opsN_adm : NlSpec.AdmissibleHistory dN false opsN := by
  intro p op q e
  refine admFrom_split (d := dN) (dyn := false) (pre := []) (l := opsN) ?_ p op q e
  unfold opsN
  simp only [List.cons_append, List.nil_append, AdmFrom, NlSpec.Admissible, NlSpec.SliceUsable, true_and, and_true,
    or_false]
  exact ⟨by decide, .inr (by decide), _, rfl⟩

/-- non-vacuity: the sample history (with callbacks, both outcomes of the solver, an equality function, a slice) meets the
hypotheses of `c59_no_fault_partial` -/
example : ∃ m outs, NlMpc.run dN (fun _ => (0 : ℚ)) false opsN = .ok (m, outs) ∧ outs.length = 12 := by
  refine c59_no_fault_partial dN_ok (by decide) (by decide) _ _ _ opsN_fits ?_ ?_ (fun _ => ⟨rfl, by decide⟩)
  · intro p hp
    unfold opsN at hp
    simp at hp
    exact ⟨_, hp⟩
  · intro l u s hs
    unfold opsN at hs
    simp at hs
    rw [hs.2.2]
    decide

/-- sample dimensions without equality constraints -/
abbrev dE : Dims := { nx := 1, nu := 1, ndu := 0, ny := 1, ph := 2, ch := 1, ineq := 0, eq := 0 }

/-- non-vacuity of `c59_no_equality`: a history which meets its hypotheses -/
example : ∃ outs m, NlRan dE false [.setEqConFunction (fun _ _ i => i.elim0) (0 : ℚ) true] outs m := by
  have hd : HorizonsOk dE := ⟨by decide, by decide, by decide⟩
  obtain ⟨outs0, m0, h0⟩ := nlRan_exists (d := dE) (K := ℚ) (dyn := false) (ops := []) hd (by decide) (by decide) (fun _ => 0)
    (by simp) (by intro pre op post e; simp at e)
  obtain ⟨ag, hdyn, -⟩ := h0.agrees
  obtain ⟨⟨m1, o⟩, h1⟩ := NlMpc.step_total ag (by decide) (.setEqConFunction (fun _ _ i => i.elim0) (0 : ℚ) true) trivial hdyn
  exact ⟨_, m1, h0.snoc (op := .setEqConFunction (fun _ _ i => i.elim0) (0 : ℚ) true) trivial h1⟩

/-- non-vacuity of `c60_alike_partial` -/
example : ∀ F tol acc, NlCall.setEqConFunction F tol acc ∉ ([.setInputScale (nvec 1 fun _ => 2)] : List (NlCall dN ℚ)) := by
  simp

end Mpc.Props
