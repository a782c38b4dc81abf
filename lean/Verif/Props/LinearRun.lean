import Verif.Proofs.LinRec
import Verif.Props.LinearConfig

/-
C18 - C21, C24, C50 (linear part), C54 (OSQP part), C56, C57: what a call of `optimize` returns and leaves behind.
-/
namespace Mpc.Props
open Mpc.Spec
set_option linter.unusedSectionVars false

section
variable {K : Type} [Field K] [DecidableEq K]
variable {d : Dims} {ops ops' : List (LOp K)} {outs outs' : List (LOut K)} {x0 u0 : Vec K} {oc oc' : OsqpOutcome K}
  {m m' m1 m1' : LMpc K} {r r' : LResult K} {call call' : OsqpCall K} {st : Int} {obj : K} {x y : Nat → K}

/-! ### C18 -/

/-- C18. The reported sequences are read off the solver's vector: states, inputs (the row after the horizon repeats the
last one), outputs, and the command is row 0 of the inputs. -/
theorem c18_sequence (h : Asked d ops outs x0 u0 (.answered st obj (some (x, y))) m m' r call) :
    let S := m'.getOptimalSequence.1
    let U := m'.getOptimalSequence.2.1
    let Y := m'.getOptimalSequence.2.2
    (S.rows = d.ph + 1 ∧ S.cols = d.nx) ∧ (U.rows = d.ph + 1 ∧ U.cols = d.nu) ∧ (Y.rows = d.ph + 1 ∧ Y.cols = d.ny) ∧
    (∀ k a, k ≤ d.ph → a < d.nx → S.get k a = stateAt d x k a) ∧
    (∀ k a, k < d.ph → a < d.nu → U.get k a = inputAt d x k a) ∧
    (∀ a, a < d.nu → U.get d.ph a = U.get (d.ph - 1) a) ∧
    (∀ k a, k ≤ d.ph → a < d.ny → Y.get k a =
      outputOf d (configOf ops outs) (S.get k) ((configOf ops outs).dist (k - 1)) a) ∧
    r.cmd.size = d.nu ∧ ∀ a, a < d.nu → r.cmd.get a = U.get 0 a := by
  obtain ⟨st', obj', sol, he, hs⟩ := asked_solved h
  obtain ⟨rfl, rfl, rfl⟩ : st = st' ∧ obj = obj' ∧ some (x, y) = sol := by
    injection he with h1 h2 h3; exact ⟨h1, h2, h3⟩
  have hph := hs.valid.ph_pos
  obtain ⟨S, U, Y, hq, ho⟩ := hs.opt
  have hres := hs.res
  have e1 : m'.getOptimalSequence = (S, U, Y) := by unfold LMpc.getOptimalSequence; rw [ho]
  have e2 : r.cmd = ⟨d.nu, fun j => U.get 0 j⟩ := by rw [hres, ho]
  have hst : ∀ k a, k ≤ d.ph → a < d.nx → S.get k a = stateAt d x k a := fun k a hk ha => by
    rw [Solved.stateAt_eq]; exact hq.state k a (by omega) ha
  rw [e1, e2]
  refine ⟨hq.sizeS, hq.sizeU, hq.sizeY, hst, ?_, ?_, ?_, rfl, fun a _ => rfl⟩
  · intro k a hk ha
    unfold inputAt
    rw [Solved.heldAt_eq]
    have := hq.input k a (by omega) ha
    rw [LOpt.inputRow, if_pos (by omega)] at this
    exact this
  · intro a ha
    have e1 := hq.input d.ph a (by omega) ha
    have e2 := hq.input (d.ph - 1) a (by omega) ha
    rw [LOpt.inputRow, if_neg (by omega)] at e1
    rw [LOpt.inputRow, if_pos (by omega), Nat.sub_add_cancel hph] at e2
    exact e1.trans e2.symm
  · intro k a hk ha
    have hd' := hs.inv'.builder.dims
    have c1 := hs.inv'.builder.repr.Cyx a
    have c2 := hs.inv'.builder.repr.Dvy a
    have c3 := hs.inv.opt.dist
    simp only [hd'] at c1 c2
    rw [hq.output k a (by omega) ha, sumTo_eq, sumTo_eq]
    unfold outputOf dot
    congr 1
    · refine Finset.sum_congr rfl fun e hm => ?_
      have he := Finset.mem_range.1 hm
      rw [c1 e ha he, hst k e hk he, Solved.stateAt_eq]
    · refine Finset.sum_congr rfl fun e hm => ?_
      have he := Finset.mem_range.1 hm
      rw [c2 e ha he, c3 e (k - 1) he (by omega)]

end

section
variable {K : Type} [Field K] [DecidableEq K] [LinearOrder K] [IsStrictOrderedRing K]
variable {d : Dims} {ops ops' : List (LOp K)} {outs outs' : List (LOut K)} {x0 u0 : Vec K} {oc oc' : OsqpOutcome K}
  {m m' m1 m1' : LMpc K} {r r' : LResult K} {call call' : OsqpCall K} {st : Int} {obj : K} {x y : Nat → K}

/-- C18. If the solver's vector satisfies the equality rows of the problem it was given, the reported sequence starts at
the measured state and obeys the plant model. -/
theorem c18_plant (h : Asked d ops outs x0 u0 (.answered st obj (some (x, y))) m m' r call)
    (hms : (configOf ops outs).modelSet = true) (hx : ∀ ρ, ρ < boundRow d → rowOk call x ρ) :
    let S := m'.getOptimalSequence.1
    let U := m'.getOptimalSequence.2.1
    let c := configOf ops outs
    (∀ a, a < d.nx → S.get 0 a = x0.get a) ∧
    ∀ k a, k < d.ph → a < d.nx → S.get (k + 1) a =
      dot d.nx (c.A a) (S.get k) + dot d.nu (c.B a) (U.get k) + dot d.ndu (c.Bd a) (c.dist k) := by
  intro S U c
  have ht := (c01_dynamics h hms x).1 hx
  obtain ⟨-, -, -, hS, hU, -⟩ := c18_sequence h
  refine ⟨fun a ha => ?_, fun k a hk ha => ?_⟩
  · rw [← ht.state0 a ha]; exact hS 0 a (by omega) ha
  · have e := ht.state k a hk ha
    rw [← hS (k + 1) a (by omega) ha] at e
    refine e.trans ?_
    unfold dot
    congr 2
    · refine Finset.sum_congr rfl fun e he => ?_
      rw [← hS k e (by omega) (Finset.mem_range.1 he)]
    · refine Finset.sum_congr rfl fun e he => ?_
      rw [← hU k e hk (Finset.mem_range.1 he)]

/-- C18, non-trivial case: a double integrator at (1,1) with a vector that satisfies all equality rows. -/
example : ∃ m m' r call, Asked sampleDims sampleOps sampleOuts (cvec 2 1) (cvec 1 0)
    (.answered 1 0 (some (fun _ => 1, fun _ => 0))) m m' r call := sample_asked 1 0 _

end

section
variable {K : Type} [Field K] [DecidableEq K]
variable {d : Dims} {ops ops' : List (LOp K)} {outs outs' : List (LOut K)} {x0 u0 : Vec K} {oc oc' : OsqpOutcome K}
  {m m' m1 m1' : LMpc K} {r r' : LResult K} {call call' : OsqpCall K} {st : Int} {obj : K} {x y : Nat → K}
  {sol : Option ((Nat → K) × (Nat → K))}

/-! ### C19 -/

/-- C19 as stated: when the solver ends without a solution (by its status code or by handing back no vectors), the
command is the one of the last call which found a solution. -/
def C19Claim (K : Type) [Field K] [DecidableEq K] : Prop :=
  ∀ (d : Dims) (ops : List (LOp K)) (outs : List (LOut K)) (x0 u0 : Vec K) (st : Int) (obj : K)
    (sol : Option ((Nat → K) × (Nat → K))) (m m' : LMpc K) (r : LResult K) (call : OsqpCall K),
    Asked d ops outs x0 u0 (.answered st obj sol) m m' r call → (hasSolution st = false ∨ sol = none) →
    r.cmd = latestCommand solvedResult d ops outs

/-- C19 is violated: OSQP 0.6 always hands back vectors (not-a-number in the infeasible case) and the code only looks at
the pointer. Here: primal infeasible on the first call. -/
theorem c19_violated : ¬ C19Claim ℚ := by
  intro hc
  obtain ⟨m, m', r, call, h⟩ := asked_of_accepts (d := dims1 2 2) (ops := [plant1 1 1]) (x0 := cvec 1 0) (u0 := cvec 1 0)
    (dims1_valid (by decide) (by decide) (by decide) (by decide)) (by decide) (by decide) (by accepts_tac [plant1]) rfl rfl
    (-3) 0 (some (fun _ => 7, fun _ => 0))
  have e := hc _ _ _ _ _ _ _ _ _ _ _ _ h (.inl rfl)
  obtain ⟨-, -, -, -, hU, -, -, -, hcmd⟩ := c18_sequence h
  have e1 := hcmd 0 (by decide)
  rw [hU 0 0 (by decide) (by decide), e] at e1
  revert e1
  simp [latestCommand, latest, solvedResult, plant1, Vec.const, inputAt, heldAt]

/-- C19, partial: when the solver hands back no vectors. (Missing: status codes without a solution but with vectors.)
The command is that of the last call which got vectors, zero if none; infeasible, ERROR, infinite cost and zero
sequences. -/
theorem c19_no_vectors_partial (h : Asked d ops outs x0 u0 (.answered st obj none) m m' r call) :
    r.cmd = latestCommand answeredResult d ops outs ∧ r.is_feasible = false ∧ r.status = .ERROR ∧ r.cost = .posInf ∧
    m'.getOptimalSequence = (Mat.const (d.ph + 1) d.nx 0, Mat.const (d.ph + 1) d.nu 0, Mat.const (d.ph + 1) d.ny 0) := by
  obtain ⟨st', obj', sol, he, hs⟩ := asked_solved h
  obtain rfl : none = sol := by injection he
  have ho : m'.o = _ := hs.opt
  have hres := hs.res
  rw [ho] at hres
  subst hres
  refine ⟨(hist_of_configured h.toConfigured).cmd, rfl, rfl, rfl, ?_⟩
  unfold LMpc.getOptimalSequence
  rw [ho]

/-- C19, partial: if the solver handed back vectors only with solutions, the claim holds. -/
theorem c19_conforming_partial (h : Asked d ops outs x0 u0 (.answered st obj none) m m' r call)
    (hcon : ∀ x u s o v, LOp.optimize x u (.answered s o (some v)) ∈ ops → hasSolution s = true) :
    r.cmd = latestCommand solvedResult d ops outs := by
  rw [(c19_no_vectors_partial h).1]
  unfold latestCommand latest
  congr 2
  suffices hh : ∀ l : List (LOp K × LOut K), (∀ p ∈ l, p.1 ∈ ops) →
      l.findSome? (fun p => answeredResult p.1 p.2) = l.findSome? (fun p => solvedResult p.1 p.2) by
    refine hh _ fun p hp => ?_
    exact (List.of_mem_zip (List.mem_reverse.1 hp)).1
  intro l hl
  induction l with
  | nil => rfl
  | cons p l ih =>
    have : answeredResult p.1 p.2 = solvedResult p.1 p.2 := by
      have hp := hl p List.mem_cons_self
      obtain ⟨op, out⟩ := p
      cases op with
      | optimize xx uu oc =>
        cases oc with
        | rejected => rfl
        | answered s o v =>
          cases v with
          | none => rfl
          | some v =>
            cases out with
            | result r' c' =>
              simp only [answeredResult, solvedResult]
              rw [hcon _ _ _ _ _ hp]; rfl
            | _ => rfl
      | _ => rfl
    rw [List.findSome?_cons, List.findSome?_cons, this, ih fun q hq => hl q (List.mem_cons_of_mem _ hq)]

/-- two solved calls and one failed one, then a call without solution -/
def c19Ops : List (LOp ℚ) :=
  [ plant1 1 1, .optimize (cvec 1 0) (cvec 1 0) (.answered 1 0 (some (fun _ => 4, fun _ => 0))),
    .optimize (cvec 1 0) (cvec 1 0) (.answered 1 0 (some (fun _ => 5, fun _ => 0))),
    .optimize (cvec 1 0) (cvec 1 0) (.answered (-3) 0 none) ]

theorem c19Ops_safe : ∀ op ∈ c19Ops, (Sized (dims1 2 2) op ∧ SliceNonneg op) ∧ LMpc.Safe (dims1 2 2) op := by
  simp [c19Ops, plant1, Sized, SliceNonneg, sliceOf, LMpc.Safe, dims1, cmat, cvec]

example : ∃ outs m m' r call, Asked (dims1 2 2) c19Ops outs (cvec 1 0) (cvec 1 0) (.answered (-3) 0 none) m m' r call ∧
    ∀ x u s o v, LOp.optimize x u (.answered s o (some v)) ∈ c19Ops → hasSolution s = true := by
  obtain ⟨outs, m, m', r, call, h⟩ := asked_of_safe (dims1_valid (by decide) (by decide) (by decide) (by decide)) (by decide)
    (by decide) c19Ops c19Ops_safe (x0 := cvec 1 0) (u0 := cvec 1 0) rfl rfl (-3) 0 none
  refine ⟨outs, m, m', r, call, h, ?_⟩
  intro x u s o v hv
  simp [c19Ops, plant1] at hv
  rcases hv with hv | hv <;> rw [hv.2.2.1] <;> rfl

/-! ### C20 -/

/-- C20 as stated. -/
def C20Claim (K : Type) [Field K] [DecidableEq K] : Prop :=
  ∀ (d : Dims) (ops : List (LOp K)) (outs : List (LOut K)) (x0 u0 : Vec K) (oc : OsqpOutcome K) (m m' : LMpc K)
    (r : LResult K) (call : OsqpCall K), Asked d ops outs x0 u0 oc m m' r call → r.status = .SUCCESS → r.is_feasible = true

/-- C20 is violated: `PRIMAL_INFEASIBLE_INACCURATE` (code 3) is reported as SUCCESS. -/
theorem c20_violated : ¬ C20Claim ℚ := by
  intro hc
  obtain ⟨m, m', r, call, h⟩ := sample_asked 3 0 (some (fun _ => 0, fun _ => 0))
  obtain ⟨st, obj, sol, he, hs⟩ := asked_solved h
  obtain ⟨rfl, rfl, rfl⟩ : 3 = st ∧ 0 = obj ∧ some (_, _) = sol := by
    injection he with h1 h2 h3; exact ⟨h1, h2, h3⟩
  obtain ⟨S, U, Y, -, ho⟩ := hs.opt
  have := hc _ _ _ _ _ _ _ _ _ _ h (by rw [hs.res, ho]; rfl)
  rw [hs.res, ho] at this
  have h3 : osqpFeasible 3 = true := this
  simp [osqpFeasible] at h3

/-- C20, partial: SUCCESS means feasible for every return code except 3 and 4 (primal / dual infeasible, inaccurate). -/
theorem c20_status_partial (h : Asked d ops outs x0 u0 (.answered st obj sol) m m' r call) (h3 : st ≠ 3) (h4 : st ≠ 4)
    (hr : r.status = .SUCCESS) : r.is_feasible = true := by
  obtain ⟨st', obj', sol', he, hs⟩ := asked_solved h
  obtain ⟨rfl, rfl, rfl⟩ : st = st' ∧ obj = obj' ∧ sol = sol' := by
    injection he with h1 h2 h3; exact ⟨h1, h2, h3⟩
  have hres := hs.res
  rcases sol with _ | ⟨x, y⟩
  · have ho : m'.o = _ := hs.opt
    rw [hres, ho] at hr
    cases hr
  · obtain ⟨S, U, Y, -, ho⟩ := hs.opt
    rw [hres, ho] at hr ⊢
    simp only at hr ⊢
    unfold osqpFeasible
    unfold convertOsqpStatus at hr
    split_ifs at hr with g1 g2 g3 g4 g5 <;> simp_all

theorem osqp_extent (st : Int) : (convertOsqpStatus st = .SUCCESS ∧ osqpFeasible st = false) ↔ (st = 3 ∨ st = 4) := by
  constructor
  · rintro ⟨h1, h2⟩
    by_contra hn
    have h3 : st ≠ 3 := fun h => hn (.inl h)
    have h4 : st ≠ 4 := fun h => hn (.inr h)
    have h5 : st ≠ 1 := fun h => by subst h; simp [osqpFeasible] at h2
    have h6 : st ≠ 2 := fun h => by subst h; simp [osqpFeasible] at h2
    unfold convertOsqpStatus at h1
    rw [if_neg h5] at h1
    split_ifs at h1
  · rintro (rfl | rfl)
    · exact ⟨by simp [convertOsqpStatus], by simp [osqpFeasible]⟩
    · exact ⟨by simp [convertOsqpStatus], by simp [osqpFeasible]⟩

/-- C20, the exact extent of the violation: SUCCESS with `is_feasible = false` happens exactly for codes 3 and 4. -/
theorem c20_extent_partial (h : Asked d ops outs x0 u0 (.answered st obj (some (x, y))) m m' r call) :
    (r.status = .SUCCESS ∧ r.is_feasible = false) ↔ (st = 3 ∨ st = 4) := by
  obtain ⟨st', obj', sol', he, hs⟩ := asked_solved h
  obtain ⟨rfl, rfl, rfl⟩ : st = st' ∧ obj = obj' ∧ some (x, y) = sol' := by
    injection he with h1 h2 h3; exact ⟨h1, h2, h3⟩
  obtain ⟨S, U, Y, -, ho⟩ := hs.opt
  rw [hs.res, ho]
  exact osqp_extent st

example : ∃ m m' r call, Asked sampleDims sampleOps sampleOuts (cvec 2 1) (cvec 1 0)
    (.answered 2 0 (some (fun _ => 0, fun _ => 0))) m m' r call ∧ r.status = .SUCCESS := by
  obtain ⟨m, m', r, call, h⟩ := sample_asked 2 0 (some (fun _ => 0, fun _ => 0))
  obtain ⟨st, obj, sol, he, hs⟩ := asked_solved h
  obtain ⟨rfl, rfl, rfl⟩ : 2 = st ∧ 0 = obj ∧ some (_, _) = sol := by
    injection he with h1 h2 h3; exact ⟨h1, h2, h3⟩
  obtain ⟨S, U, Y, -, ho⟩ := hs.opt
  exact ⟨m, m', r, call, h, by rw [hs.res, ho]; rfl⟩

/-! ### C66 -/

/-- C66: the result is flagged feasible exactly if the solver handed back vectors and its code says solved, solved
inaccurately or iteration limit reached; code and cost are then those of the solver. -/
theorem c66_flag (h : Asked d ops outs x0 u0 (.answered st obj sol) m m' r call) :
    (r.is_feasible = true ↔ sol ≠ none ∧ (st = 1 ∨ st = 2 ∨ st = -2)) ∧
    (sol ≠ none → r.solver_status = st ∧ r.cost = .fin obj) := by
  obtain ⟨st', obj', sol', he, hs⟩ := asked_solved h
  obtain ⟨rfl, rfl, rfl⟩ : st = st' ∧ obj = obj' ∧ sol = sol' := by
    injection he with h1 h2 h3; exact ⟨h1, h2, h3⟩
  have hres := hs.res
  rcases sol with _ | ⟨x, y⟩
  · have ho : m'.o = _ := hs.opt
    rw [hres, ho]
    exact ⟨by simp, fun h => absurd rfl h⟩
  · obtain ⟨S, U, Y, -, ho⟩ := hs.opt
    rw [hres, ho]
    refine ⟨?_, fun _ => ⟨rfl, rfl⟩⟩
    simp [osqpFeasible, or_assoc]

/-- C66: infeasible, erroneous and unknown outcomes are never flagged feasible. -/
theorem c66_not_feasible (h : Asked d ops outs x0 u0 oc m m' r call)
    (hr : r.status = .INFEASIBLE ∨ r.status = .ERROR ∨ r.status = .UNKNOWN) : r.is_feasible = false := by
  obtain ⟨st, obj, sol, rfl, hs⟩ := asked_solved h
  by_contra hf
  obtain ⟨hsol, hst⟩ := (c66_flag h).1.1 (by simpa using hf)
  have hres := hs.res
  rcases sol with _ | ⟨x, y⟩
  · exact hsol rfl
  · obtain ⟨S, U, Y, -, ho⟩ := hs.opt
    rw [hres, ho] at hr
    rcases hst with rfl | rfl | rfl <;> simp [convertOsqpStatus] at hr

/-- C66, non-trivial case: iteration limit reached. -/
example : ∃ m m' r call, Asked sampleDims sampleOps sampleOuts (cvec 2 1) (cvec 1 0)
    (.answered (-2) 5 (some (fun _ => 1, fun _ => 0))) m m' r call ∧ r.is_feasible = true ∧ r.cost = .fin 5 := by
  obtain ⟨m, m', r, call, h⟩ := sample_asked (-2) 5 (some (fun _ => 1, fun _ => 0))
  exact ⟨m, m', r, call, h, (c66_flag h).1.2 ⟨by simp, by simp⟩, ((c66_flag h).2 (by simp)).2⟩

/-! ### C21 -/

/-- C21 as stated: the warm start is made with the vectors of the most recent solution or those last set. -/
def C21Claim (K : Type) [Field K] [DecidableEq K] : Prop :=
  ∀ (d : Dims) (ops : List (LOp K)) (outs : List (LOut K)) (x0 u0 : Vec K) (oc : OsqpOutcome K) (m m' : LMpc K)
    (r : LResult K) (call : OsqpCall K), Asked d ops outs x0 u0 oc m m' r call →
    call.warm = warmStart (latestParams ops outs) (latestVectors false d ops outs)

/-- C21, partial: the warm start uses the vectors OSQP handed back last, whatever its status (or those last set by the
user), when warm start is enabled and there are any. (Missing: vectors which are not a solution are not excluded.) -/
theorem c21_warm_partial (h : Asked d ops outs x0 u0 oc m m' r call) :
    call.warm = warmStart (latestParams ops outs) (latestVectors true d ops outs) := by
  obtain ⟨st, obj, sol, rfl, hs⟩ := asked_solved h
  have hh := hist_of_configured h.toConfigured
  rw [hs.call.warm]
  unfold LOpt.warmOf warmStart
  rw [← hh.params, ← hh.vectors]

/-- C21: the warm-start getters return the vectors the next warm start is made with: the last ones set by the user or
handed back by OSQP, the primal ones from `getSolverWarmStartPrimal` and the dual ones from `getSolverWarmStartDual`;
both are empty as long as there are none. -/
theorem c21_getters (h : Configured d ops outs m) :
    m.getSolverWarmStartPrimal = (latestVectors true d ops outs).1 ∧
    m.getSolverWarmStartDual = (latestVectors true d ops outs).2 := by
  have hh := hist_of_configured h
  rw [← hh.vectors]
  exact ⟨rfl, rfl⟩

/-- C21, partial: if OSQP handed back vectors only with solutions, the claim holds. -/
theorem c21_conforming_partial (h : Asked d ops outs x0 u0 oc m m' r call)
    (hcon : ∀ x u s o v, LOp.optimize x u (.answered s o (some v)) ∈ ops → hasSolution s = true) :
    call.warm = warmStart (latestParams ops outs) (latestVectors false d ops outs) := by
  rw [c21_warm_partial h]
  congr 1
  unfold latestVectors latest
  congr 1
  suffices hh : ∀ l : List (LOp K × LOut K), (∀ p ∈ l, p.1 ∈ ops) →
      l.findSome? (fun p => vectorsOf d true p.1 p.2) = l.findSome? (fun p => vectorsOf d false p.1 p.2) by
    refine hh _ fun p hp => ?_
    exact (List.of_mem_zip (List.mem_reverse.1 hp)).1
  intro l hl
  induction l with
  | nil => rfl
  | cons p l ih =>
    have : vectorsOf d true p.1 p.2 = vectorsOf d false p.1 p.2 := by
      have hp := hl p List.mem_cons_self
      obtain ⟨op, out⟩ := p
      cases op with
      | optimize xx uu oc =>
        cases oc with
        | rejected => rfl
        | answered s o v =>
          cases v with
          | none => rfl
          | some v =>
            simp only [vectorsOf]
            rw [hcon _ _ _ _ _ hp]; rfl
      | _ => rfl
    rw [List.findSome?_cons, List.findSome?_cons, this, ih fun q hq => hl q (List.mem_cons_of_mem _ hq)]

/-- C21. The solver runs with the parameters set last. -/
theorem c21_settings (h : Asked d ops outs x0 u0 oc m m' r call) :
    let p := latestParams ops outs
    call.settings.alpha = p.alpha ∧ call.settings.rho = p.rho ∧ call.settings.eps_rel = p.eps_rel ∧
    call.settings.eps_abs = p.eps_abs ∧ call.settings.eps_prim_inf = p.eps_prim_inf ∧
    call.settings.eps_dual_inf = p.eps_dual_inf ∧ call.settings.max_iter = p.maximum_iteration ∧
    call.settings.time_limit = p.time_limit ∧ (call.settings.polish = 1 ↔ p.polish = true) ∧
    (call.settings.adaptive_rho = 1 ↔ p.adaptive_rho = true) ∧ (call.settings.verbose = 1 ↔ p.verbose = true) ∧
    (call.settings.warm_start = 1 ↔ p.enable_warm_start = true) := by
  obtain ⟨st, obj, sol, rfl, hs⟩ := asked_solved h
  have hh := hist_of_configured h.toConfigured
  rw [hs.call.settings, hh.params]
  intro p
  refine ⟨rfl, rfl, rfl, rfl, rfl, rfl, rfl, rfl, ?_, ?_, ?_, ?_⟩ <;> simp [LParams.toSettings, p]

/-- Warm-start vectors shorter than the problem, when used, make OSQP read out of range: `setSolverWarmStart` does not
check them. -/
theorem c21_short_vectors_fault_partial {v : Vec K × Vec K} (h : Configured d ops outs m) (hx : x0.size = d.nx) (hu : u0.size = d.nu)
    (hw : warmStart (latestParams ops outs) (latestVectors true d ops outs) = some v)
    (hs : v.1.size < varCount d ∨ v.2.size < rowCount d) :
    m.step (.optimize x0 u0 (.answered st obj sol)) = .error .outOfBounds := by
  have hi := configured_inv h
  have hh := hist_of_configured h
  have hwf : ¬ LOpt.WarmFits d m.o := by
    intro hwf
    unfold warmStart at hw
    rw [← hh.params, ← hh.vectors] at hw
    by_cases hc : m.o.params.enable_warm_start = true ∧ 0 < m.o.prevX.size ∧ 0 < m.o.prevY.size
    · rw [if_pos hc] at hw
      cases hw
      have := hwf hc
      rw [Solved.varCount_eq, Solved.rowCount_eq] at hs
      simp only at hs
      omega
    · rw [if_neg hc] at hw; cases hw
  have := LOpt.run_warm_short h.valid.ph_pos hi.opt hi.builder.shaped hi.builder.dims hx hu (status := st) (obj := obj)
    (sol := sol) hwf
  simp only [LMpc.step, this, Exec.error_bind]

/-- warm start on; the first call ends primal infeasible with garbage vectors -/
def c21Ops : List (LOp ℚ) :=
  [ plant1 1 1, .setOptimizerParameters (.linear { enable_warm_start := true }),
    .optimize (cvec 1 0) (cvec 1 0) (.answered (-3) 0 (some (fun _ => 7, fun _ => 0))) ]

theorem c21Ops_safe : ∀ op ∈ c21Ops, (Sized (dims1 2 2) op ∧ SliceNonneg op) ∧ LMpc.Safe (dims1 2 2) op := by
  simp [c21Ops, plant1, Sized, SliceNonneg, sliceOf, LMpc.Safe, dims1, cmat, cvec]

/-- the outputs of a three-call history -/
theorem zip3 {ops : List (LOp ℚ)} {a b c : LOp ℚ} (he : ops = [a, b, c]) {d : Dims} {outs : List (LOut ℚ)} {m : LMpc ℚ}
    (h : Configured d ops outs m) : ∃ o1 o2 o3, outs = [o1, o2, o3] := by
  have := configured_length h
  rw [he] at this
  exact List.length_eq_three.1 this

/-- C21 is violated: after an infeasible call the vectors handed back (not-a-number in OSQP 0.6) are used. -/
theorem c21_violated : ¬ C21Claim ℚ := by
  intro hc
  obtain ⟨outs, m, m', r, call, h⟩ := asked_of_safe (dims1_valid (by decide) (by decide) (by decide) (by decide)) (by decide)
    (by decide) c21Ops c21Ops_safe (x0 := cvec 1 0) (u0 := cvec 1 0) rfl rfl 1 0 none
  have e1 := hc _ _ _ _ _ _ _ _ _ _ h
  rw [c21_warm_partial h] at e1
  obtain ⟨o1, o2, o3, rfl⟩ := zip3 rfl h.toConfigured
  revert e1
  simp [warmStart, latestParams, latestVectors, latest, c21Ops, paramsOf, vectorsOf, plant1, hasSolution, Vec.const,
    varCount, rowCount, dims1]

example : ∃ outs m m' r call, Asked (dims1 2 2)
    [plant1 1 1, .setOptimizerParameters (.linear { enable_warm_start := true }),
      .optimize (cvec 1 0) (cvec 1 0) (.answered 1 0 (some (fun _ => 7, fun _ => 0)))] outs (cvec 1 0) (cvec 1 0)
    (.answered 1 0 none) m m' r call :=
  asked_of_safe (dims1_valid (by decide) (by decide) (by decide) (by decide)) (by decide)
    (by decide) _ (by simp [plant1, Sized, SliceNonneg, sliceOf, LMpc.Safe, dims1, cmat, cvec]) rfl rfl 1 0 none

/-! ### C24 -/

/-- C24 as stated: nothing is leaked and destroying the optimizer releases nothing twice. -/
def C24Claim (K : Type) [Field K] [DecidableEq K] : Prop :=
  ∀ (d : Dims) (ops : List (LOp K)) (outs : List (LOut K)) (m : LMpc K), Configured d ops outs m →
    m.o.leaked = 0 ∧ m.o.destroy = .ok ()

/-- C24, partial: over every history nothing OSQP-related is overwritten while allocated, no call releases anything
twice (it returned), and between calls everything is released or was never allocated. -/
theorem c24_no_leak_partial (h : Configured d ops outs m) :
    m.o.leaked = 0 ∧ m.o.work ≠ .live ∧ m.o.settings ≠ .live ∧ m.o.data ≠ .live := by
  have hi := (configured_inv h).opt
  refine ⟨hi.noLeak, ?_, ?_, ?_⟩ <;> rcases hi.idle with ⟨a, b, c⟩ | ⟨a, b, c⟩ <;> simp [a, b, c]

/-- C24, partial: the destructor of the optimizer is fine exactly when `optimize` was never called; afterwards it
releases the workspace a second time. (The linear controller itself never destroys its optimizer.) -/
theorem c24_destroy_partial (h : Configured d ops outs m) :
    (¬ optimized ops → m.o.destroy = .ok ()) ∧ (optimized ops → m.o.destroy = .error .doubleFree) := by
  have hh := (hist_of_configured h).work
  constructor
  · intro hn
    rcases hh with ⟨h1, -⟩ | ⟨-, h1, h2, h3⟩
    · exact absurd h1 hn
    · unfold LOpt.destroy LOpt.clearData
      rw [h1, h2, h3]; rfl
  · intro ho
    rcases hh with ⟨-, h1⟩ | ⟨h1, -⟩
    · unfold LOpt.destroy LOpt.clearData
      rw [h1]; rfl
    · exact absurd ho h1

theorem c24_violated : ¬ C24Claim ℚ := by
  intro hc
  obtain ⟨outs, m, hm, -⟩ := configured_of_safe (dims1_valid (by decide) (by decide) (by decide) (by decide)) (by decide)
    (by decide) c21Ops c21Ops_safe
  have h1 := (hc _ _ _ _ hm).2
  have h2 := (c24_destroy_partial hm).2 ⟨_, _, _, List.mem_cons_of_mem _ (List.mem_cons_of_mem _ List.mem_cons_self)⟩
  rw [h1] at h2
  cases h2

example : ∃ m, Configured sampleDims sampleOps sampleOuts m ∧ ¬ optimized sampleOps := by
  obtain ⟨m, m', r, call, h⟩ := sample_asked 1 0 none
  exact ⟨m, h.toConfigured, by simp [optimized, sampleOps]⟩

/-! ### C50, linear controller -/

/-- the setters the linear controller does not support -/
def unsupported : LOp K → Prop
  | .setDiscretizationSamplingTime _ => True
  | .setInputScale _ => True
  | .setStateScale _ => True
  | _ => False

/-- C50 for the linear controller: the three unsupported setters throw and change nothing, whatever the argument and
at any point; and no other call throws. -/
theorem c50_linear (m : LMpc K) (op : LOp K) :
    (unsupported op → m.step op = .ok (m, .threw)) ∧ (∀ m', m.step op = .ok (m', .threw) → unsupported op) := by
  have nb : ∀ {f : Builder K → Exec (Builder K × Bool)} {m'}, m.onBuilder f ≠ .ok (m', .threw) := by
    intro f m' h
    simp only [LMpc.onBuilder, Exec.bind_eq_ok] at h
    obtain ⟨q, _, h⟩ := h
    cases h
  have no : ∀ {f : LOpt K → Exec (LOpt K × Bool)} {m'}, m.onOptimizer f ≠ .ok (m', .threw) := by
    intro f m' h
    simp only [LMpc.onOptimizer, Exec.bind_eq_ok] at h
    obtain ⟨q, _, h⟩ := h
    cases h
  have ns : ∀ {h : Nat} {s : HorizonSlice} {w l : Exec (LMpc K × LOut K)} {m'}, (w ≠ .ok (m', .threw)) → (l ≠ .ok (m', .threw)) →
      LMpc.sliceOp m h s w l ≠ .ok (m', .threw) := by
    intro h s w l m' hw hl he
    unfold LMpc.sliceOp at he
    split_ifs at he with hu
    · exact hw he
    · rw [Exec.bind_eq_ok] at he
      obtain ⟨v, _, he⟩ := he
      split_ifs at he
      · exact hl he
      · cases he
  constructor
  · intro h
    cases op <;> first | rfl | cases h
  · intro m' h
    cases op with
    | setDiscretizationSamplingTime _ => trivial
    | setInputScale _ => trivial
    | setStateScale _ => trivial
    | setObjectiveWeightsSlice OW UW DW s =>
      refine absurd ((LMpc.setObjectiveWeightsSlice_eq OW UW DW s).symm.trans h) (ns (fun hw => ?_) nb)
      simp only [Exec.bind_eq_ok] at hw
      obtain ⟨_, _, _, _, _, _, hw⟩ := hw
      exact nb hw
    | setStateBoundsSlice mn mx s =>
      refine absurd ((LMpc.setStateBoundsSlice_eq mn mx s).symm.trans h) (ns (fun hw => ?_) nb)
      simp only [Exec.bind_eq_ok] at hw
      obtain ⟨_, _, _, _, hw⟩ := hw
      exact nb hw
    | setInputBoundsSlice mn mx s =>
      refine absurd ((LMpc.setInputBoundsSlice_eq mn mx s).symm.trans h) (ns (fun hw => ?_) nb)
      simp only [Exec.bind_eq_ok] at hw
      obtain ⟨_, _, _, _, hw⟩ := hw
      exact nb hw
    | setOutputBoundsSlice mn mx s =>
      refine absurd ((LMpc.setOutputBoundsSlice_eq mn mx s).symm.trans h) (ns (fun hw => ?_) nb)
      simp only [Exec.bind_eq_ok] at hw
      obtain ⟨_, _, _, _, hw⟩ := hw
      exact nb hw
    | setScalarConstraintSlice mn mx X U s =>
      refine absurd ((LMpc.setScalarConstraintSlice_eq mn mx X U s).symm.trans h) (ns (fun hw => ?_) nb)
      simp only [Exec.bind_eq_ok] at hw
      obtain ⟨_, _, _, _, hw⟩ := hw
      exact nb hw
    | setExogenousInputsSlice v s =>
      refine absurd ((LMpc.setExogenousInputsSlice_eq v s).symm.trans h) (ns (fun hw => ?_) no)
      simp only [Exec.bind_eq_ok] at hw
      obtain ⟨_, _, hw⟩ := hw
      exact no hw
    | setReferencesSlice y u du s =>
      refine absurd ((LMpc.setReferencesSlice_eq y u du s).symm.trans h) (ns (fun hw => ?_) no)
      simp only [Exec.bind_eq_ok] at hw
      obtain ⟨_, _, _, _, _, _, hw⟩ := hw
      exact no hw
    | setScalarConstraintAt i mn mx X U =>
      simp only [LMpc.step, LMpc.setScalarConstraintAt] at h
      split_ifs at h
      · cases h
      · exact absurd h nb
    | setOptimizerParameters p =>
      simp only [LMpc.step, Exec.bind_eq_ok] at h
      obtain ⟨_, _, h⟩ := h
      cases h
    | setSolverWarmStart x y => cases h
    | optimize x u oc =>
      obtain ⟨r, c, he⟩ := step_optimize_out h
      cases he
    | setExogenousInputs M => simp only [LMpc.step] at h; exact no h
    | setReferences Y U D => simp only [LMpc.step] at h; exact no h
    | setStateSpaceModel A B C => simp only [LMpc.step] at h; exact nb h
    | setDisturbances B D => simp only [LMpc.step] at h; exact nb h
    | setObjectiveWeights A B C => simp only [LMpc.step] at h; exact nb h
    | setStateBounds A B => simp only [LMpc.step] at h; exact nb h
    | setInputBounds A B => simp only [LMpc.step] at h; exact nb h
    | setOutputBounds A B => simp only [LMpc.step] at h; exact nb h

example : unsupported (.setInputScale (cvec 2 3) : LOp ℚ) := trivial

/-! ### C54, OSQP -/

/-- The documented status of every OSQP code: solved (exactly or inaccurately) SUCCESS, iteration and time limits
MAX_ITERATION, infeasible (exactly or inaccurately) INFEASIBLE, an interrupt and a problem which is not convex ERROR, unsolved
and every number which is no code UNKNOWN. -/
def OsqpDocumented (code : Int) (s : ResultStatus) : Prop :=
  if code = 1 ∨ code = 2 then s = .SUCCESS
  else if code = -2 ∨ code = -6 then s = .MAX_ITERATION
  else if code = -3 ∨ code = 3 ∨ code = -4 ∨ code = 4 then s = .INFEASIBLE
  else if code = -5 ∨ code = -7 then s = .ERROR
  else s = .UNKNOWN

/-- C54 for the linear controller, as stated. -/
def C54OsqpClaim (K : Type) [Field K] [DecidableEq K] : Prop :=
  ∀ (d : Dims) (ops : List (LOp K)) (outs : List (LOut K)) (x0 u0 : Vec K) (st : Int) (obj : K) (v : (Nat → K) × (Nat → K))
    (m m' : LMpc K) (r : LResult K) (call : OsqpCall K),
    Asked d ops outs x0 u0 (.answered st obj (some v)) m m' r call → OsqpDocumented st r.status

theorem osqp_status (h : Asked d ops outs x0 u0 (.answered st obj (some (x, y))) m m' r call) :
    r.status = convertOsqpStatus st ∧ r.solver_status = st := by
  obtain ⟨st', obj', sol', he, hs⟩ := asked_solved h
  obtain ⟨rfl, rfl, rfl⟩ : st = st' ∧ obj = obj' ∧ some (x, y) = sol' := by
    injection he with h1 h2 h3; exact ⟨h1, h2, h3⟩
  obtain ⟨S, U, Y, -, ho⟩ := hs.opt
  rw [hs.res, ho]
  exact ⟨rfl, rfl⟩

/-- C54 is violated for OSQP: an inaccurate infeasibility certificate gives SUCCESS. -/
theorem c54_osqp_violated : ¬ C54OsqpClaim ℚ := by
  intro hc
  obtain ⟨m, m', r, call, h⟩ := sample_asked 3 0 (some (fun _ => 0, fun _ => 0))
  have := hc _ _ _ _ _ _ _ _ _ _ _ _ h
  rw [(osqp_status h).1] at this
  simp [OsqpDocumented, convertOsqpStatus] at this

/-- C54 for OSQP, partial: every code except 3, 4 (reported SUCCESS) and -6 (time limit, reported UNKNOWN). -/
theorem c54_osqp_partial (h : Asked d ops outs x0 u0 (.answered st obj (some (x, y))) m m' r call) (h3 : st ≠ 3)
    (h4 : st ≠ 4) (h6 : st ≠ -6) : OsqpDocumented st r.status := by
  rw [(osqp_status h).1]
  unfold OsqpDocumented convertOsqpStatus
  by_cases a1 : st = 1
  · simp [a1]
  by_cases a2 : st = 2
  · simp [a2]
  by_cases a3 : st = -2
  · simp [a3]
  by_cases a4 : st = -3
  · simp [a4]
  by_cases a5 : st = -4
  · simp [a5]
  by_cases a6 : st = -5
  · simp [a6]
  by_cases a7 : st = -7
  · simp [a7]
  by_cases a8 : st = -10
  · simp [a8]
  simp [a1, a2, a3, a4, a5, a6, a7, a8, h3, h4, h6]

example : ∃ m m' r call, Asked sampleDims sampleOps sampleOuts (cvec 2 1) (cvec 1 0)
    (.answered (-3) 0 (some (fun _ => 0, fun _ => 0))) m m' r call := sample_asked (-3) 0 _

/-! ### C56 -/

/-- C56. `getLastResult` is the result returned by the latest `optimize` call, whatever setters were called since; before
the first one it is a zero command, not feasible, UNKNOWN. -/
theorem c56_last_result (h : Configured d ops outs m) :
    (∀ r, latest anyResult ops outs = some r → m.getLastResult = r) ∧
    (latest anyResult ops outs = none → m.getLastResult.cmd = Vec.const d.nu 0 ∧ m.getLastResult.is_feasible = false ∧
      m.getLastResult.status = .UNKNOWN ∧ m.getLastResult.solver_status = 0) := by
  have hh := hist_of_configured h
  refine ⟨hh.result, fun hn => ?_⟩
  unfold LMpc.getLastResult
  rw [hh.result0 hn]
  exact ⟨rfl, rfl, rfl, rfl⟩

/-- C56. A setter changes neither the last result nor the optimal sequence. -/
theorem c56_setters_keep {op : LOp K} {out : LOut K} (hop : ∀ x u oc, op ≠ .optimize x u oc) (h : m.step op = .ok (m', out)) :
    m'.getLastResult = m.getLastResult ∧ m'.getOptimalSequence = m.getOptimalSequence := by
  unfold LMpc.getLastResult LMpc.getOptimalSequence
  by_cases hs : LMpc.IsSetter op = true
  · obtain ⟨Y, U, D, M, he⟩ := LMpc.step_frame hs h
    simp only at he
    rw [he]
    exact ⟨rfl, rfl⟩
  · cases op with
    | setOptimizerParameters p =>
      cases p with
      | other => cases h
      | linear p => cases h; exact ⟨rfl, rfl⟩
    | setSolverWarmStart x y => cases h; exact ⟨rfl, rfl⟩
    | optimize x u oc => exact absurd rfl (hop x u oc)
    | _ => exact absurd rfl hs

example : ∃ outs m r, Configured (dims1 2 2) c19Ops outs m ∧ latest anyResult c19Ops outs = some r := by
  obtain ⟨outs, m, hm, -⟩ := configured_of_safe (dims1_valid (by decide) (by decide) (by decide) (by decide)) (by decide)
    (by decide) c19Ops c19Ops_safe
  have hh := hist_of_configured hm
  cases hr : latest anyResult c19Ops outs with
  | some r => exact ⟨outs, m, r, hm, hr⟩
  | none =>
    exfalso
    have hc := hm
    obtain ⟨-, -, u, j, m0, -, he⟩ := hc
    obtain ⟨m1, o1, o2, e1, e2, e3, e4⟩ := LMpc.exec_append_inv (c19Ops.take 3) (ops2 := c19Ops.drop 3) he
    simp only [c19Ops, List.drop, LMpc.exec, Exec.bind_eq_ok] at e2
    obtain ⟨⟨m2, out⟩, h1, ⟨m3, o3⟩, h2, h3⟩ := e2
    obtain ⟨r, call, rfl⟩ := step_optimize_out h1
    cases h2
    cases h3
    subst e3
    have := latest_snoc anyResult (ops := c19Ops.take 3) (outs := o1) e4
      (.optimize (cvec 1 0) (cvec 1 0) (.answered (-3) 0 none)) (.result r call)
    have hr' : latest anyResult (c19Ops.take 3 ++ [.optimize (cvec 1 0) (cvec 1 0) (.answered (-3) 0 none)]) (o1 ++ [.result r call]) = none := hr
    rw [this] at hr'
    cases hr'

/-! ### C57 -/

/-- C57: no history of calls with arguments of the right sizes reaches undefined behaviour. -/
def C57Claim (K : Type) [Field K] [DecidableEq K] : Prop :=
  ∀ (d : Dims) (uninit : Nat → Nat → K) (junk : Nat → Nat) (ops : List (LOp K)), d.Valid → d.ch ≤ d.ph → d.ph < 2 ^ 30 →
    (∀ op ∈ ops, Sized d op) → ∃ m0 r, LMpc.new d uninit junk = .ok m0 ∧ m0.exec ops = .ok r

/-- Calls of the kind for which the code is safe: whole-horizon input bounds only with equal horizons, parameters of the
linear kind, warm-start vectors long enough, and no problem that OSQP rejects. -/
def Harmless (d : Dims) : LOp K → Prop
  | .setInputBounds _ _ => d.ch = d.ph
  | .setInputBoundsSlice _ _ s => s = HorizonSlice.all → d.ch = d.ph
  | .setOptimizerParameters p => ∃ q, p = .linear q
  | .setSolverWarmStart x y => varCount d ≤ x.size ∧ rowCount d ≤ y.size
  | .optimize _ _ oc => ∃ s o v, oc = .answered s o v
  | _ => True

/-- C57, partial: every harmless history (of any length, with non-negative slices) runs without undefined behaviour. -/
theorem c57_harmless_partial (hd : d.Valid) (hle : d.ch ≤ d.ph) (hph : d.ph < 2 ^ 30) (uninit : Nat → Nat → K)
    (junk : Nat → Nat) (ops : List (LOp K)) (hs : ∀ op ∈ ops, Sized d op ∧ SliceNonneg op ∧ Harmless d op) :
    ∃ m0 r, LMpc.new d uninit junk = .ok m0 ∧ m0.exec ops = .ok r := by
  obtain ⟨m0, h0, hi⟩ := LMpc.new_inv hd uninit junk
  obtain ⟨r, hr⟩ := LMpc.exec_total hd hph (by omega) ops hi (LMpc.new_warmSafe h0) (fun op ho => by
    obtain ⟨h1, h2, h3⟩ := hs op ho
    refine ⟨⟨h1, h2⟩, ?_⟩
    cases op with
    | setInputBounds mn mx => exact h3
    | setInputBoundsSlice mn mx s =>
      simp only [LMpc.Safe]
      split_ifs with he
      · exact h3 he
      · exact hle
    | setExogenousInputsSlice v s => exact .inr hle
    | setOptimizerParameters p => obtain ⟨q, rfl⟩ := h3; simp [LMpc.Safe]
    | setSolverWarmStart x y =>
      rw [Harmless, Solved.varCount_eq, Solved.rowCount_eq] at h3
      exact .inr (.inr h3)
    | optimize x u oc => obtain ⟨s, o, v, rfl⟩ := h3; simp [LMpc.Safe]
    | _ => trivial)
  exact ⟨m0, r, h0, hr⟩

theorem c57_violated : ¬ C57Claim ℚ := by
  intro hc
  obtain ⟨m0, r, h0, hr⟩ := hc (dims1 2 2) (fun _ _ => 0) (fun _ => 0) [.setOptimizerParameters .other]
    (dims1_valid (by decide) (by decide) (by decide) (by decide)) (by decide) (by decide) (by simp [Sized])
  cases hr

example : ∀ op ∈ c19Ops, Sized (dims1 2 2) op ∧ SliceNonneg op ∧ Harmless (dims1 2 2) op := by
  simp [c19Ops, plant1, Sized, SliceNonneg, sliceOf, Harmless, dims1, cmat, cvec]

end

end Mpc.Props
