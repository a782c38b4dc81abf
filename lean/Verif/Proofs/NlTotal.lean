import Verif.Proofs.NlServe

/-
No well-formed history of API calls on the nonlinear controller faults.
-/
namespace Mpc
open Exec
set_option linter.unusedSectionVars false

variable {d : Dims} {K : Type} [Field K] [LinearOrder K] [IsStrictOrderedRing K]

/-- what an operation on the evaluation objects needs -/
def NlOp.Ready (c : NlSpec.Cfg d K) : NlOp d K → Prop
  | .evalObj _ _ => c.obj.isSome = true
  | .evalDyn _ _ _ => c.field.isSome = true
  | _ => True

theorem NlState.exec_total {s : NlState d K} {c : NlSpec.Cfg d K} (h : s.Holds c) (hp : d.ph < 2 ^ 31) (o : NlOp d K)
    (ho : NlSpec.OpFits d o) (hr : o.Ready c) : ∃ s', s.exec o = .ok s' := by
  cases o with
  | inputScaling v =>
    simp only [exec]
    obtain ⟨m, hm⟩ := (Mapping.setInputScaling_post s.mp h.good (by rw [h.dims]; exact hp) v
      (by rw [h.dims]; exact ho)).exists_ok
    rw [hm, ok_bind]
    exact ⟨_, rfl⟩
  | evalObj z g =>
    simp only [exec]
    obtain ⟨f, hf⟩ := Option.isSome_iff_exists.1 hr
    obtain ⟨r, hr⟩ := (evalObj_post h hp hf z ho g).exists_ok
    rw [hr, ok_bind]
    exact ⟨_, rfl⟩
  | evalIneq z junk =>
    simp only [exec]
    cases hf : c.ineq with
    | some F =>
      obtain ⟨r, hr⟩ := (evalIneq_post h hp hf z ho junk).exists_ok
      rw [hr, ok_bind]
      exact ⟨_, rfl⟩
    | none =>
      obtain ⟨r, hr⟩ := (Constraints.evaluateIneq_none s.con h.csz (by rw [h.ineq, hf]; rfl) s.mp h.good h.dims s.M junk z
        ho).exists_ok
      unfold evalIneq
      rw [hr, ok_bind]
      exact ⟨_, rfl⟩
  | evalEq z junk =>
    simp only [exec]
    cases hf : c.eq with
    | some F =>
      obtain ⟨r, hr⟩ := (evalEq_post h hf z ho junk).exists_ok
      rw [hr, ok_bind]
      exact ⟨_, rfl⟩
    | none =>
      obtain ⟨r, hr⟩ := (Constraints.evaluateEq_none s.con h.csz (by rw [h.eq, hf]; rfl) s.mp h.good h.dims junk z
        ho).exists_ok
      unfold evalEq
      rw [hr, ok_bind]
      exact ⟨_, rfl⟩
  | evalDyn z g junk =>
    simp only [exec]
    obtain ⟨F, hf⟩ := Option.isSome_iff_exists.1 hr
    obtain ⟨r, hr⟩ := (evalDyn_post h hp hf z ho g junk).exists_ok
    rw [hr, ok_bind]
    exact ⟨_, rfl⟩
  | _ => exact ⟨_, rfl⟩

namespace NlMpc

theorem onState_total {m : NlMpc d K} {c : NlCtl d K} (h : m.Agrees c) (hp : d.ph < 2 ^ 31) (op : NlOp d K)
    (hf : NlSpec.OpFits d op) (hr : op.Ready c.cfg) : ∃ m', m.onState op = .ok m' := by
  obtain ⟨s, hs⟩ := NlState.exec_total h.holds hp op hf hr
  unfold onState
  rw [hs, ok_bind]
  exact ⟨_, rfl⟩

/-- what a call needs, in terms of the abstract state -/
def Ready (c : NlCtl d K) (dyn : Bool) : NlCall d K → Prop
  | .setOptimizerParameters p => ∃ q, p = .nonlinear q
  | .setEqConFunction _ _ _ => dyn = false
  | .setStateBoundsSlice _ _ s | .setInputBoundsSlice _ _ s => NlSpec.SliceUsable s
  | .optimize _ _ _ _ _ => c.Bound ∧ (c.cfg.eq.isSome = true → 0 < d.eq)
  | _ => True

theorem sliceBounds_total {m : NlMpc d K} {c : NlCtl d K} (h : m.Agrees c) {off n hor : Nat} {lo up : Vec (Ext K)}
    {s : HorizonSlice} {set : NlOpt K → Exec (NlOpt K × Bool)} (hs : NlSpec.SliceUsable s) (hi : s.Int32)
    (hl : lo.size = n) (hu : up.size = n) (hN : off + hor * n ≤ d.nZ) (hp : hor < 2 ^ 30)
    (hset : ∀ o, set o = (do
      let b ← NlOpt.fillBounds lo up off n (NlOpt.sliceStart s) (NlOpt.sliceStop hor s) (o.lb, o.ub)
      return (NlOpt.updateBounds { o with lb := b.1, ub := b.2 }, true) : Exec (NlOpt K × Bool))) :
    ∃ r, m.sliceBounds hor s set = .ok r := by
  have key : NlOpt.sliceStop hor s ≤ hor → ∃ r, set m.o = .ok r := by
    intro hle
    obtain ⟨b, hb, -⟩ := NlOpt.fillBounds_total (off := off) (n := n) (start := NlOpt.sliceStart s)
      (stop := NlOpt.sliceStop hor s) (b := (m.o.lb, m.o.ub)) hl hu h.lbs h.ubs (Or.inr (Or.inl (by
        have := Nat.mul_le_mul_right n hle
        omega)))
    rw [hset, hb, ok_bind]
    exact ⟨_, rfl⟩
  unfold sliceBounds
  by_cases hun : isSliceUnset s = true
  · rw [if_pos hun, ok_bind]
    dsimp only
    rw [if_pos rfl]
    have e : s.stop = -1 := by
      unfold isSliceUnset at hun
      simp at hun
      exact hun.2
    obtain ⟨r, hr⟩ := key (by unfold NlOpt.sliceStop; rw [if_pos e])
    rw [hr, ok_bind]
    exact ⟨_, rfl⟩
  · rw [if_neg hun]
    have hpos : 0 ≤ s.start := by
      rcases hs with rfl | hs
      · exact absurd rfl hun
      · exact hs
    unfold isSliceValid
    split_ifs with hv
    · exact ⟨_, rfl⟩
    · have hv' : s.start < s.stop ∧ s.start ≤ hor ∧ s.stop ≤ hor := by omega
      unfold addInt
      rw [require_ok (by constructor <;> omega), ok_bind]
      simp only [pure_bind']
      split_ifs
      · exact ⟨_, rfl⟩
      · rw [pure_bind', if_pos rfl]
        obtain ⟨r, hr⟩ := key (by
          unfold NlOpt.sliceStop toSizeT
          rw [if_neg (by omega)]
          omega)
        rw [hr, ok_bind]
        exact ⟨_, rfl⟩

theorem matrixBounds_total {m : NlMpc d K} {c : NlCtl d K} (h : m.Agrees c) {off n hor : Nat} {mn mx : Mat (Ext K)}
    {set : NlOpt K → Vec (Ext K) → Vec (Ext K) → HorizonSlice → Exec (NlOpt K × Bool)}
    (hmn : mn.rows = n ∧ mn.cols = hor) (hmx : mx.rows = n ∧ mx.cols = hor) (hN : off + hor * n ≤ d.nZ) (hp : hor < 2 ^ 31)
    (hset : ∀ o l u s, set o l u s = (do
      let b ← NlOpt.fillBounds l u off n (NlOpt.sliceStart s) (NlOpt.sliceStop hor s) (o.lb, o.ub)
      return (NlOpt.updateBounds { o with lb := b.1, ub := b.2 }, true) : Exec (NlOpt K × Bool))) :
    ∃ r, m.matrixBounds hor mn mx set = .ok r := by
  unfold matrixBounds
  obtain ⟨q, hq⟩ := (forRange_post hor ((m.o, true) : NlOpt K × Bool) (fun i q => do
    let l ← mn.col i
    let u ← mx.col i
    let r ← set q.1 l u ⟨(i : Int), (i : Int) + 1⟩
    return (r.1, q.2 && r.2)) (fun _ (q : NlOpt K × Bool) => q.1.lb.size = d.nZ ∧ q.1.ub.size = d.nZ) ⟨h.lbs, h.ubs⟩ (by
      rintro i ⟨o, b⟩ hi ⟨h1, h2⟩
      dsimp only at h1 h2 ⊢
      rw [Mat.col_ok (by omega), ok_bind, Mat.col_ok (by omega), ok_bind, hset]
      have e2 : NlOpt.sliceStop hor ⟨(i : Int), (i : Int) + 1⟩ = i + 1 := by
        unfold NlOpt.sliceStop toSizeT
        dsimp only
        rw [if_neg (by omega)]
        omega
      rw [e2]
      obtain ⟨b, hb, hb1, hb2⟩ := NlOpt.fillBounds_total (lo := ⟨mn.rows, fun a => mn.get a i⟩)
        (up := ⟨mx.rows, fun a => mx.get a i⟩) (off := off) (n := n)
        (start := NlOpt.sliceStart ⟨(i : Int), (i : Int) + 1⟩)
        (stop := i + 1) (b := (o.lb, o.ub)) hmn.1 hmx.1 h1 h2 (Or.inr (Or.inl (by
          have := Nat.mul_le_mul_right n (show i + 1 ≤ hor by omega)
          omega)))
      rw [hb, ok_bind]
      exact post_pure ⟨hb1, hb2⟩)).exists_ok
  rw [hq, ok_bind]
  exact ⟨_, rfl⟩

theorem optimize_total {m : NlMpc d K} {c : NlCtl d K} (h : m.Agrees c) (hp : d.ph < 2 ^ 31) {x0 u0 : Vec K}
    {cs : List (NlCallback K)} {oc : NlOutcome K} {junk : Nat → K}
    (hf : NlSpec.CallFits d (.optimize x0 u0 cs oc junk)) (hr : c.Bound)
    (heq : c.cfg.eq.isSome = true → 0 < d.eq) : ∃ r, m.optimize x0 u0 cs oc junk = .ok r := by
  obtain ⟨hx, hu, hcs, hz⟩ := hf
  unfold optimize
  obtain ⟨m1, h1⟩ := onState_total h hp (.measure x0) hx trivial
  obtain ⟨k1, k2, k3, k4⟩ := onState_agrees h hp (op := .measure x0) hx h1
  rw [h1, ok_bind]
  obtain ⟨p, h2⟩ := (NlOpt.prepare_start k1.good k1.dims junk hx hu (o := m1.o) (by rw [k3]; exact h.zs)).exists_ok
  rw [h2, ok_bind]
  dsimp only
  obtain ⟨s, h3⟩ := callbacks_total (o := m1.o) k1 hp hr (by rw [k3]; exact h.obj) (by rw [k3]; exact h.groups)
    (fun k hk => by cases k <;> exact hk) id hcs
  obtain ⟨l1, l2⟩ := callbacks_ok k1 hp hcs h3
  rw [h3, ok_bind]
  suffices hs : ∃ r, finish { m1 with s := s, o := { m1.o with optVector := p.1 } } x0 junk oc = .ok r by
    obtain ⟨r, hs⟩ := hs
    rw [hs, ok_bind]
    exact ⟨_, rfl⟩
  cases oc with
  | threw => exact ⟨_, rfl⟩
  | answered z value code ct =>
    cases ct with
    | true => exact ⟨_, rfl⟩
    | false =>
      unfold finish
      dsimp only at hz ⊢
      rw [if_neg (by simp)]
      have csz := l1.csz
      have hd := l1.dims
      obtain ⟨F, hF⟩ := (Constraints.feasible_post (V := K) Flt.fin s.mp l1.good l1.dims s.M s.con.x0 csz.x0 s.con.Xmat
        s.con.Umat csz.X csz.U hp c.cfg.ineq s.con.ieqTol c.cfg.eq s.con.eqTol heq s.con.cineqUser s.con.ceqUser csz.ci csz.ce
        false z hz rfl rfl rfl (by intros; intro h; cases h) (by intros; intro h; cases h)).exists_ok
      have hfe : ∃ f, s.con.isFeasible s.mp s.M z = .ok f := by
        unfold Constraints.isFeasible
        rw [l1.ineq, l1.eq]
        have : (Constraints.feasible (V := K) Flt.fin s.mp s.M s.con.x0 s.con.Xmat s.con.Umat
          ((c.cfg.step (NlOp.measure x0)).ineq.map fun F _ => F) s.con.ieqTol
          ((c.cfg.step (NlOp.measure x0)).eq.map fun F _ => F) s.con.eqTol s.con.cineqUser s.con.ceqUser false z) = .ok F := hF
        rw [this, ok_bind]
        exact ⟨_, rfl⟩
      obtain ⟨f, hfe⟩ := hfe
      rw [hfe, ok_bind]
      unfold accept
      dsimp only
      obtain ⟨w, hw', hw⟩ := Mapping.unwrapVector_post s.mp l1.good z x0 ⟨d.ph + 1, d.nx, fun i _ => junk i⟩
        ⟨d.ph + 1, d.nu, fun i _ => junk i⟩ (by rw [hd]; exact hz) (by rw [hd]; exact hx)
        (by dsimp only; rw [hd]) (by dsimp only; rw [hd]) (by dsimp only; rw [hd]) (by dsimp only; rw [hd])
      have hwX := hw.xr; have hwXc := hw.xc; have hwU := hw.ur; have hwUc := hw.uc
      rw [hd] at hwX hwXc hwU hwUc
      obtain ⟨Y, hY, hYs, -⟩ := s.M.getOutput_ok w.1 w.2.1 hp ⟨hwX, hwXc⟩ ⟨hwU, hwUc⟩
      rw [hw', ok_bind, Mat.row_ok (by omega), ok_bind, Mat.block_ok (by omega) (by omega), ok_bind,
        Mat.block_ok (by omega) (by omega), ok_bind, hY, ok_bind, Mat.block_ok (by rw [hYs.1]; omega) (by rw [hYs.2]; omega),
        ok_bind]
      exact ⟨_, rfl⟩

/-- no fault in one call -/
theorem step_total {m : NlMpc d K} {c : NlCtl d K} (h : m.Agrees c) (hp : d.ph < 2 ^ 30) (call : NlCall d K)
    (hf : NlSpec.CallFits d call) (hr : Ready c m.dynamic call) : ∃ r, m.step call = .ok r := by
  have hp' : d.ph < 2 ^ 31 := by omega
  have hpos := h.pos
  have hcomm := Nat.mul_comm d.nu d.ch
  cases call with
  | setOptimizerParameters p =>
    obtain ⟨q, rfl⟩ := hr
    simp only [step]
    rw [NlOpt.setParameters_ok _ h.lbs h.ubs, ok_bind]
    exact ⟨_, rfl⟩
  | setEqConFunction F tol acc =>
    simp only [step]
    obtain ⟨q, hq⟩ := onState_total h hp' (.eqFn F tol) trivial trivial
    rw [require_ok (by exact hr), ok_bind, hq, ok_bind]
    exact ⟨_, rfl⟩
  | setStateBounds mn mx =>
    exact matrixBounds_total h (off := 0) (n := d.nx) hf.1 hf.2 (by unfold Dims.nZ; omega) hp' (fun _ _ _ _ => rfl)
  | setInputBounds mn mx =>
    exact matrixBounds_total h (off := d.ph * d.nx) (n := d.nu) hf.1 hf.2 (by unfold Dims.nZ; omega) (by omega)
      (fun _ _ _ _ => rfl)
  | setStateBoundsSlice l u s =>
    obtain ⟨h1, h2, h3⟩ := hf
    exact sliceBounds_total h (off := 0) (n := d.nx) hr h3 h1 h2 (by unfold Dims.nZ; omega) hp (fun _ => rfl)
  | setInputBoundsSlice l u s =>
    obtain ⟨h1, h2, h3⟩ := hf
    exact sliceBounds_total h (off := d.ph * d.nx) (n := d.nu) hr h3 h1 h2 (by unfold Dims.nZ; omega) (by omega)
      (fun _ => rfl)
  | optimize x0 u0 cs oc junk => exact optimize_total h hp' hf hr.1 hr.2
  | setDiscretizationSamplingTime ts =>
    obtain ⟨q, hq⟩ := onState_total h hp' (.continuous true ts) trivial trivial
    simp only [step]
    rw [hq, ok_bind]
    exact ⟨_, rfl⟩
  | setInputScale v =>
    obtain ⟨q, hq⟩ := onState_total h hp' (.inputScaling v) hf trivial
    simp only [step]
    rw [hq, ok_bind]
    exact ⟨_, rfl⟩
  | setStateScale v =>
    obtain ⟨q, hq⟩ := onState_total h hp' (.stateScaling v) hf trivial
    simp only [step]
    rw [hq, ok_bind]
    exact ⟨_, rfl⟩
  | setObjectiveFunction f acc =>
    obtain ⟨q, hq⟩ := onState_total h hp' (.objFn f) trivial trivial
    simp only [step]
    rw [hq, ok_bind]
    exact ⟨_, rfl⟩
  | setStateSpaceFunction F tol acc =>
    obtain ⟨q, hq⟩ := onState_total h hp' (.stateFn F) trivial trivial
    simp only [step]
    rw [hq, ok_bind]
    exact ⟨_, rfl⟩
  | setOutputFunction g =>
    obtain ⟨q, hq⟩ := onState_total h hp' (.outFn g) trivial trivial
    simp only [step]
    rw [hq, ok_bind]
    exact ⟨_, rfl⟩
  | setIneqConFunction F tol acc =>
    obtain ⟨q, hq⟩ := onState_total h hp' (.ineqFn F tol) trivial trivial
    simp only [step]
    rw [hq, ok_bind]
    exact ⟨_, rfl⟩
  | setOutputBounds mn mx => exact ⟨_, rfl⟩
  | setOutputBoundsSlice l u s => exact ⟨_, rfl⟩

/-! ### histories -/

theorem after_snoc {ops : List (NlCall d K)} {outs : List (NlOut K)} (h : outs.length = ops.length) (op : NlCall d K)
    (o : NlOut K) : NlCtl.after d (ops ++ [op]) (outs ++ [o]) = (NlCtl.after d ops outs).step o.refused op := by
  unfold NlCtl.after
  rw [List.zip_append h.symm, List.foldl_append]
  rfl

/-- something that every step keeps, except for the calls satisfying `P`, is due to a call of the history -/
theorem after_due {α : Type} (f : NlCtl d K → Option α) (P : NlCall d K → Prop) (h0 : f (NlCtl.fresh d) = none)
    (hs : ∀ c b op, f (c.step b op) = f c ∨ P op) {ops : List (NlCall d K)} {outs : List (NlOut K)}
    (hl : outs.length = ops.length) (h : (f (NlCtl.after d ops outs)).isSome = true) : ∃ op ∈ ops, P op := by
  induction ops using List.reverseRecOn generalizing outs with
  | nil =>
    have : NlCtl.after d ([] : List (NlCall d K)) outs = NlCtl.fresh d := rfl
    rw [this, h0] at h
    cases h
  | append_singleton ops op ih =>
    rcases List.eq_nil_or_concat outs with rfl | ⟨outs', o, rfl⟩
    · simp at hl
    · have hl' : outs'.length = ops.length := by simpa using hl
      rw [List.concat_eq_append, after_snoc hl'] at h
      rcases hs (NlCtl.after d ops outs') o.refused op with e | e
      · rw [e] at h
        obtain ⟨q, hq, hq'⟩ := ih hl' h
        exact ⟨q, by simp [hq], hq'⟩
      · exact ⟨op, by simp, e⟩

/-- something a call of the history has set, which no call unsets -/
theorem after_set {α : Type} (f : NlCtl d K → Option α) (P : NlCall d K → Prop)
    (hP : ∀ (c : NlCtl d K) b op, P op → (f (c.step b op)).isSome = true)
    (hs : ∀ (c : NlCtl d K) b op, (f c).isSome = true → (f (c.step b op)).isSome = true) {ops : List (NlCall d K)}
    {outs : List (NlOut K)} (hl : outs.length = ops.length) (h : ∃ op ∈ ops, P op) :
    (f (NlCtl.after d ops outs)).isSome = true := by
  induction ops using List.reverseRecOn generalizing outs with
  | nil => obtain ⟨_, h, _⟩ := h; cases h
  | append_singleton ops op ih =>
    rcases List.eq_nil_or_concat outs with rfl | ⟨outs', o, rfl⟩
    · simp at hl
    · have hl' : outs'.length = ops.length := by simpa using hl
      rw [List.concat_eq_append, after_snoc hl']
      obtain ⟨q, hq, hq'⟩ := h
      rcases List.mem_append.1 hq with hq | hq
      · exact hs _ _ _ (ih hl' ⟨q, hq, hq'⟩)
      · obtain rfl : q = op := by simpa using hq
        exact hP _ _ _ hq'

theorem solved_cfg (c : NlCtl d K) (x0 u0 : Nat → K) (o : NlOutcome K) :
    (c.solved x0 u0 o).cfg = { c.cfg with x0 := some x0 } := by
  rcases o with _ | ⟨z, v, k, _ | _⟩ <;> rfl

/-- whatever is bound to the solver has been set -/
theorem after_bound (ops : List (NlCall d K)) (outs : List (NlOut K)) : (NlCtl.after d ops outs).Bound := by
  unfold NlCtl.after
  induction ops.zip outs using List.reverseRecOn with
  | nil => exact NlCtl.fresh_bound
  | append_singleton l a ih =>
    rw [List.foldl_append]
    exact ih.step _ _

/-- no fault in a well-formed history -/
theorem run_total (hch : 0 < d.ch) (hle : d.ch ≤ d.ph) (hp : d.ph < 2 ^ 30) (hm : d.nZ ≤ 2 ^ 64)
    (junk : Nat → K) (dyn : Bool) (ops : List (NlCall d K)) (hf : ∀ op ∈ ops, NlSpec.CallFits d op)
    (ha : NlSpec.AdmissibleHistory d dyn ops) : ∃ r, run d junk dyn ops = .ok r := by
  have hp' : d.ph < 2 ^ 31 := by omega
  induction ops using List.reverseRecOn with
  | nil =>
    obtain ⟨m, hm⟩ := (init_agrees hch hle hp' junk dyn).exists_ok
    unfold run
    exact ⟨(m, []), by rw [List.foldl_nil, hm, ok_bind]; rfl⟩
  | append_singleton ops op ih =>
    obtain ⟨⟨m, outs⟩, h1⟩ := ih (fun o ho => hf o (by simp [ho]))
      (fun pre o post e => ha pre o (post ++ [op]) (by rw [e]; simp))
    obtain ⟨h2, h3, h4⟩ := run_agrees hch hle hp' hm (fun o ho => hf o (by simp [ho])) h1
    have hop := ha ops op [] rfl
    rw [run_snoc, h1, ok_bind]
    suffices hs : ∃ r, m.step op = .ok r by
      obtain ⟨r, hs⟩ := hs
      dsimp only
      rw [hs, ok_bind]
      exact ⟨_, rfl⟩
    refine step_total h2 hp op (hf op (by simp)) ?_
    cases op with
    | setEqConFunction F tol acc => exact h3.trans hop.1
    | optimize x0 u0 cs oc j =>
      refine ⟨?_, ?_⟩
      · exact after_bound ops outs
      · intro hs
        obtain ⟨q, hq, F, tol, acc, rfl⟩ := after_due (fun c => c.cfg.eq) (fun q => ∃ F tol acc, q = .setEqConFunction F tol acc) rfl
          (by
            intro c b q
            cases q with
            | setEqConFunction F tol acc => exact Or.inr ⟨F, tol, acc, rfl⟩
            | optimize x0 u0 cs oc j =>
              left
              show (c.solved _ _ _).cfg.eq = _
              rw [solved_cfg]
            | setOptimizerParameters p => left; cases p <;> rfl
            | setStateBoundsSlice => left; cases b <;> rfl
            | setInputBoundsSlice => left; cases b <;> rfl
            | _ => left; rfl) h4 hs
        obtain ⟨pre, post, e⟩ := List.append_of_mem hq
        have := ha pre (.setEqConFunction F tol acc) (post ++ [.optimize x0 u0 cs oc j]) (by rw [e]; simp)
        exact this.2
    | setOptimizerParameters p => exact hop
    | setStateBoundsSlice l u s => exact hop
    | setInputBoundsSlice l u s => exact hop
    | _ => trivial

end NlMpc
end Mpc
