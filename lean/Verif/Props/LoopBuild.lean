import Verif.Props.ClosedLoop

/-
Closed loops of any length exist: helper used to exhibit cases which meet the hypotheses of the closed-loop theorems.
-/
namespace Mpc.Props
open Mpc.Spec Exec
set_option linter.unusedSectionVars false

variable {K : Type} [Field K] [DecidableEq K] [LinearOrder K] [IsStrictOrderedRing K]

/-- the controller, its result and what it handed to OSQP, after one call of `optimize` -/
def loopStep (x u : Vec K) (oc : OsqpOutcome K) (s : LMpc K × LResult K × OsqpCall K) : LMpc K × LResult K × OsqpCall K :=
  match s.1.step (.optimize x u oc) with
  | .ok (m', .result r call) => (m', r, call)
  | _ => s

/-- the controllers of a loop -/
def loopState (x u : Nat → Vec K) (oc : Nat → OsqpOutcome K) (s : LMpc K × LResult K × OsqpCall K) :
    Nat → LMpc K × LResult K × OsqpCall K
  | 0 => s
  | t + 1 => loopStep (x t) (u t) (oc t) (loopState x u oc s t)

/-- Given states, commands and plans such that in every step the plan is a best one, begins with the next command and the
plant follows, there is a closed loop which goes through them. -/
theorem loop_exists {d : Dims} {ops : List (LOp K)} (hd : d.Valid) (hph : d.ph < 2 ^ 30) (hch : d.ch < 2 ^ 30)
    (hs : ∀ op ∈ ops, Spec.Sized d op ∧ LMpc.Accepts d op)
    (hms : (configOf ops (ops.map fun _ => .bool true)).modelSet = true) (x u : Nat → Vec K) (plan : Nat → Nat → Nat → K)
    (hx : ∀ t, (x t).size = d.nx) (hu : ∀ t, (u t).size = d.nu)
    (hb : ∀ t, IsBest (PlanCoded d (configOf ops (ops.map fun _ => .bool true)) (x t).get (u t).get)
      (planCost d (configOf ops (ops.map fun _ => .bool true)) (x t).get (u t).get
        fun k => (configOf ops (ops.map fun _ => .bool true)).duRef (k - 1)) (plan t))
    (hu' : ∀ t a, a < d.nu → (u (t + 1)).get a = plan t 0 a)
    (hx' : ∀ t a, a < d.nx → (x (t + 1)).get a = predict d (configOf ops (ops.map fun _ => .bool true)) (x t).get (plan t) 1 a) :
    ∃ oc r call seq, ∀ N, ClosedLoop d ops (ops.map fun _ => .bool true) x u oc r call seq N ∧ AllExact oc call N := by
  let c := configOf ops (ops.map fun _ => .bool true)
  let oc : Nat → OsqpOutcome K := fun t => .answered 1 0 (some (lift d c (x t).get (u t).get (plan t), fun _ => 0))
  obtain ⟨m0, hm0, hw0⟩ := configured_of_accepts hd hph hch hs
  obtain ⟨_, _, r0, call0, -⟩ := asked_of_accepts hd hph hch hs (hx 0) (hu 0) 1 0 none
  let S := loopState x u oc (m0, r0, call0)
  let r : Nat → LResult K := fun t => (S (t + 1)).2.1
  let call : Nat → OsqpCall K := fun t => (S (t + 1)).2.2
  let seq : Nat → Mat K × Mat K × Mat K := fun t => (S (t + 1)).1.getOptimalSequence
  have main : ∀ t, Configured d (loopOps ops x u oc t) (loopOuts (ops.map fun _ => .bool true) r call t) (S t).1 ∧ LMpc.WarmSafe d (S t).1 ∧
      configOf (loopOps ops x u oc t) (loopOuts (ops.map fun _ => .bool true) r call t) = c ∧
      (S t).1.step (.optimize (x t) (u t) (oc t)) = .ok ((S (t + 1)).1, .result (r t) (call t)) := by
    intro t
    have go : ∀ t, Configured d (loopOps ops x u oc t) (loopOuts (ops.map fun _ => .bool true) r call t) (S t).1 →
        LMpc.WarmSafe d (S t).1 → (S t).1.step (.optimize (x t) (u t) (oc t)) = .ok ((S (t + 1)).1, .result (r t) (call t)) := by
      intro t hm hw
      obtain ⟨⟨m', out⟩, hstep⟩ := LMpc.step_total (op := .optimize (x t) (u t) (oc t)) hd hph hch
        (configured_inv hm) hw ⟨hx t, hu t⟩ (fun s hs => by cases hs) (by simp [LMpc.Safe, oc])
      obtain ⟨r', call', rfl⟩ : ∃ r' call', out = .result r' call' := by
        have h2 := hstep
        simp only [LMpc.step, bind_eq_ok] at h2
        obtain ⟨q, _, h3⟩ := h2
        cases h3
        exact ⟨_, _, rfl⟩
      have e : S (t + 1) = (m', r', call') := by
        show loopStep (x t) (u t) (oc t) (S t) = _
        unfold loopStep
        rw [hstep]
      show _ = Except.ok ((S (t + 1)).1, LOut.result (S (t + 1)).2.1 (S (t + 1)).2.2)
      rw [e]; exact hstep
    induction t with
    | zero => exact ⟨hm0, hw0, rfl, go 0 hm0 hw0⟩
    | succ t ih =>
      obtain ⟨hm, hw, hcf, hstep⟩ := ih
      have hm1 : Configured d (loopOps ops x u oc (t + 1)) (loopOuts (ops.map fun _ => .bool true) r call (t + 1)) (S (t + 1)).1 :=
        configured_snoc hm ⟨⟨hx t, hu t⟩, fun s hs => by cases hs⟩ hstep
      have hw1 : LMpc.WarmSafe d (S (t + 1)).1 :=
        LMpc.step_warm (op := .optimize (x t) (u t) (oc t)) hd (configured_inv hm) hw ⟨hx t, hu t⟩ (by simp [LMpc.Safe, oc]) hstep
      refine ⟨hm1, hw1, ?_, go (t + 1) hm1 hw1⟩
      show configOf (loopOps ops x u oc t ++ _) (loopOuts (ops.map fun _ => .bool true) r call t ++ _) = _
      rw [configOf_snoc (configured_length hm)]
      exact hcf
  have ask : ∀ t, Asked d (loopOps ops x u oc t) (loopOuts (ops.map fun _ => .bool true) r call t) (x t) (u t) (oc t) (S t).1 (S (t + 1)).1
      (r t) (call t) := fun t => ⟨(main t).1, hx t, hu t, (main t).2.2.2⟩
  have cmd : ∀ t a, a < d.nu → (r t).cmd.get a = plan t 0 a := fun t a ha => by
    obtain ⟨-, -, -, -, hU, -, -, -, hcmd⟩ := c18_sequence (ask t)
    rw [hcmd a ha, hU 0 a hd.ph_pos ha, inputAt_lift hd.ph_pos ha]
  refine ⟨oc, r, call, seq, fun N => ⟨⟨fun t _ => ⟨_, _, ask t, rfl⟩, fun t a _ ha => ?_, fun t a _ ha => ?_⟩, fun t _ => ⟨_, _, _, _, rfl, ?_⟩⟩⟩
  · rw [cmd t a ha, hu' t a ha]
  · rw [hx' t a ha, dot_congr (cmd t)]
    rfl
  · have e := fun k a hk ha => inputAt_lift (d := d) (c := c) (x0 := (x t).get) (u0 := (u t).get) (u := plan t) (k := k) (a := a) hk ha
    refine (c63_coded_partial (ask t) (by rw [(main t).2.2.1]; exact hms) _).2 ?_
    rw [(main t).2.2.1]
    refine ⟨lift_trajectory, planCoded_congr (fun k a hk ha => (e k a hk ha).symm) (hb t).1, fun v hv => ?_⟩
    rw [planCost_congr e]
    exact (hb t).2 v hv

end Mpc.Props
