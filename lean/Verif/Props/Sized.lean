import Verif.Proofs.SizedCheck
import Verif.Props.NlAsked

/-
C119: user functions whose results have the wrong length.

In English: a state, output or inequality function given from Python (or, with run-time dimensions, from C++) returns an array.
If all arrays have the lengths of the problem, everything is as for functions which fill a vector of the right size. A wrong
length is reported to the caller: no result is computed from it, and the program is not brought down.

The first half holds. The second does not: nothing compares the length of the result with the dimension of the problem. An
evaluation breaks a precondition of Eigen (an assertion, or with `NDEBUG` an access out of bounds), and the feasibility check
takes the entries that there are.
-/
namespace Mpc.Props
open Mpc Exec
set_option linter.unusedSectionVars false
variable {d : Dims} {K : Type} [Field K] [LinearOrder K] [IsStrictOrderedRing K]

/-- Functions which return arrays of the right lengths: every history of calls has the outcome - fault, return values,
controller - which it has with functions that fill a vector. -/
theorem c119_right_partial {ops : List (SizedCall d K)} {ops' : List (NlCall d K)}
    (h : List.Forall₂ SizedSpec.Same ops ops') (junk : Nat → K) :
    (∀ e, NlMpc.run d junk true ops' = .error e → Sized.run d junk ops = .error e) ∧
    (∀ m outs, NlMpc.run d junk true ops' = .ok (m, outs) → ∃ F, Sized.run d junk ops = .ok ((m, F), outs)) := by
  have := Sized.run_eq h junk
  constructor
  · intro e he
    rw [he] at this
    exact this
  · intro m outs he
    rw [he] at this
    exact this

/-- a call with functions from Python, and the same call with functions which fill vectors -/
example (F : FVec d.nx K → FVec d.nu K → Nat → FVec d.nx K) (tol : K) :
    List.Forall₂ SizedSpec.Same [SizedCall.setStateSpaceFunction (fun x u k => List.ofFn (F x u k)) tol true]
      [NlCall.setStateSpaceFunction F tol true] :=
  .cons ⟨F, fun _ _ _ => rfl, rfl⟩ .nil

/-- With a function which returns a wrong length, no `optimize` that has to evaluate it returns: no result is computed from it. -/
theorem c119_wrong_partial (hp : 0 < d.ph) (hx : 0 < d.nx) (junk junk' : Nat → K) (ops : List (SizedCall d K)) (x0 u0 : Vec K)
    (cs : List (NlCallback K)) (out : NlOutcome K) (hn : SizedSpec.Needs d ops cs out) :
    ∃ e, Sized.run d junk (ops ++ [.optimize x0 u0 cs out junk']) = .error e := by
  cases hr : Sized.run d junk (ops ++ [.optimize x0 u0 cs out junk']) with
  | error e => exact ⟨e, rfl⟩
  | ok q =>
    rw [Sized.run_snoc] at hr
    obtain ⟨p, hp', hr⟩ := bind_eq_ok.1 hr
    obtain ⟨r, hr', -⟩ := bind_eq_ok.1 hr
    simp only [Sized.step] at hr'
    obtain ⟨t, ht, -⟩ := bind_eq_ok.1 hr'
    exact absurd ht (Sized.optimize_stops hp hx (Sized.run_known hp') hn t)

/-- What the flag `is_feasible` means for an inequality function which returns any number of entries (no other function given,
a solver which returns at once): the entries it returns for the reported trajectories are within the tolerance. -/
theorem c119_flag_partial (hd : HorizonsOk d) (hsz : d.ph * d.nx + d.nu * d.ch + 1 ≤ 2 ^ 64) (junk junk' : Nat → K)
    (f : Traj (d.ph + 1) d.nx K → Traj (d.ph + 1) d.ny K → Traj (d.ph + 1) d.nu K → K → List K) (tol : K) (acc : Bool)
    {x0 u0 z : Vec K} (hx : x0.size = d.nx) (hu : u0.size = d.nu) (hz : z.size = d.nZ) (v : Ext K) (code : Int) :
    ∃ m F res call, Sized.run d junk [.setIneqConFunction f tol acc, .optimize x0 u0 [] (.answered z v code false) junk'] =
        .ok ((m, F), [.bool true, .result res call]) ∧
      (res.is_feasible = true ↔ ∀ a ∈ f (m.o.seqState.viewF _ _) (m.o.seqOutput.viewF _ _) (m.o.seqInput.viewF _ _)
        m.o.currentSlack, a ≤ tol) := by
  obtain ⟨m, hm, ha, -⟩ := NlMpc.init_agrees hd.ch_pos hd.ch_le hd.ph_int junk true
  have e1 : Sized.step (m, ⟨none, none, none⟩) (.setIneqConFunction f tol acc) = .ok
      (({ m with
            s := { m.s with con := { m.s.con with
              ieqUser := some fun _ => fun x y u e => Sized.entries (f x y u e), ieqTol := tol } }
            o := (m.o.bindGroup ⟨.userIneq, Vec.const d.ineq tol⟩ acc).1 }, ⟨none, none, some f⟩), .bool true) := rfl
  have h1 : NlMpc.step m (.setIneqConFunction (fun x y u e => Sized.entries (f x y u e)) tol acc) = .ok
      ({ m with
            s := { m.s with con := { m.s.con with
              ieqUser := some fun _ => fun x y u e => Sized.entries (f x y u e), ieqTol := tol } }
            o := (m.o.bindGroup ⟨.userIneq, Vec.const d.ineq tol⟩ acc).1 }, .bool true) := rfl
  have hz64 : d.nZ ≤ 2 ^ 64 := hsz
  obtain ⟨ha', -⟩ := NlMpc.step_agrees ha hd.ph_int hz64 (.setIneqConFunction (fun x y u e => Sized.entries (f x y u e)) tol acc)
    trivial h1
  obtain ⟨r, hr, res, call, hres, hflag⟩ := Sized.optimize_unseen ha' hd.ph_int (F := ⟨none, none, some f⟩) rfl rfl hx hu hz v
    code junk'
  refine ⟨r.1, ⟨none, none, some f⟩, res, call, ?_, hflag⟩
  unfold Sized.run
  rw [hm]
  simp only [List.foldl_cons, List.foldl_nil, ok_bind, pure_bind', List.nil_append, e1]
  simp only [Sized.step, hr, ok_bind, pure_bind', hres]
  rfl

/-- an inequality function which returns nothing, on a controller with one inequality -/
example : ∃ (d : Dims) (z : Vec ℚ), HorizonsOk d ∧ d.ph * d.nx + d.nu * d.ch + 1 ≤ 2 ^ 64 ∧ z.size = d.nZ ∧ 0 < d.ineq :=
  ⟨dN, zN 0, dN_ok, by decide, rfl, by decide⟩

/-- the function is given, the solver accepts it and asks for its values -/
theorem c119_needs : SizedSpec.Needs dN [SizedCall.setIneqConFunction (fun _ _ _ _ => ([] : List ℚ)) (1 / 100) true]
    [.con 0 (zN 0) false (fun _ => 0)] .threw := by
  refine .inl ⟨fun _ _ _ _ => [], rfl, fun _ _ _ _ => Nat.zero_ne_one, 0, zN 0, false, fun _ => 0, by simp, rfl⟩

/-- "If the calls so far went well then `optimize` returns, whatever lengths the functions return (a wrong one being
reported in the result or by an exception the caller can handle)." -/
def C119Claim : Prop :=
  ∀ (d : Dims), HorizonsOk d → d.ph * d.nx + d.nu * d.ch + 1 ≤ 2 ^ 64 → ∀ (junk junk' : Nat → ℚ) (ops : List (SizedCall d ℚ))
    (q : (NlMpc d ℚ × SizedFns d ℚ) × List (NlOut ℚ)), Sized.run d junk ops = .ok q →
    ∀ (x0 u0 : Vec ℚ), x0.size = d.nx → u0.size = d.nu → ∀ (cs : List (NlCallback ℚ)), (∀ c ∈ cs, NlSpec.CallbackFits d c) →
    (∀ c ∈ cs, ∀ i z g j, c = .con i z g j → ∃ k, (SizedSpec.constraints ops)[i]? = some k) →
    ∀ r, Sized.run d junk (ops ++ [.optimize x0 u0 cs .threw junk']) ≠ .error r

/-- The claim is false of the code: the controller stores the function without looking at what it returns, and the first
evaluation breaks a precondition of Eigen. -/
theorem c119_reported_violated : ¬ C119Claim := by
  intro h
  obtain ⟨m, hm, -⟩ := NlMpc.init_agrees dN_ok.ch_pos dN_ok.ch_le dN_ok.ph_int (fun _ => (0 : ℚ)) true
  obtain ⟨e, he⟩ := c119_wrong_partial (d := dN) (by decide) (by decide) (fun _ => 0) (fun _ => 0) _ (nvec 2 fun _ => 0)
    (nvec 1 fun _ => 0) _ _ c119_needs
  refine h dN dN_ok (by decide) (fun _ => 0) (fun _ => 0) [.setIneqConFunction (fun _ _ _ _ => []) (1 / 100) true] ?q ?hq
    (nvec 2 fun _ => 0) (nvec 1 fun _ => 0) rfl rfl [.con 0 (zN 0) false (fun _ => 0)] ?_ ?_ e he
  case hq =>
    unfold Sized.run
    rw [hm]
    rfl
  · intro c hc
    simp only [List.mem_singleton] at hc
    subst hc
    simp [NlSpec.CallbackFits, zN]
  · intro c hc i z g j e
    simp only [List.mem_singleton] at hc
    rw [hc] at e
    cases e
    exact ⟨.userIneq, rfl⟩

/-- "A result for which the inequality function returned a wrong number of values is not reported as feasible." -/
def C119FlagClaim : Prop :=
  ∀ (d : Dims) (f : Traj (d.ph + 1) d.nx ℚ → Traj (d.ph + 1) d.ny ℚ → Traj (d.ph + 1) d.nu ℚ → ℚ → List ℚ) (tol : ℚ) (acc : Bool),
    SizedSpec.WrongIneq d f → ∀ (junk junk' : Nat → ℚ) (x0 u0 z : Vec ℚ) (v : Ext ℚ) (code : Int) m F res call,
    Sized.run d junk [.setIneqConFunction f tol acc, .optimize x0 u0 [] (.answered z v code false) junk'] =
      .ok ((m, F), [.bool true, .result res call]) → res.is_feasible = false

/-- The claim is false of the code: a function which returns an empty array makes every result feasible. -/
theorem c119_unseen_violated : ¬ C119FlagClaim := by
  intro h
  obtain ⟨m, F, res, call, hr, hf⟩ := c119_flag_partial (d := dN) dN_ok (by decide) (fun _ => 0) (fun _ => 0)
    (fun _ _ _ _ => ([] : List ℚ)) (1 / 100) true (x0 := nvec 2 fun _ => 0) (u0 := nvec 1 fun _ => 0) (z := zN 0) rfl rfl rfl
    (.fin 0) 1
  have := h dN _ _ _ (fun _ _ _ _ => by decide) _ _ _ _ _ _ _ _ _ _ _ hr
  rw [hf.2 (fun a ha => by cases ha)] at this
  exact Bool.noConfusion this

end Mpc.Props
