import Verif.Proofs.NlAffine

/-
Evaluations in terms of the configuration.
-/
namespace Mpc
open Exec
set_option linter.unusedSectionVars false

variable {d : Dims} {K : Type} [Field K] [LinearOrder K] [IsStrictOrderedRing K]

namespace NlState

theorem Holds.pos {s : NlState d K} {c : NlSpec.Cfg d K} (h : s.Holds c) : 0 < d.ch ∧ d.ch ≤ d.ph := by
  have h1 := h.good.ch_pos; have h2 := h.good.ch_le; rw [h.dims] at h1 h2; exact ⟨h1, h2⟩

theorem evalObj_post {s : NlState d K} {c : NlSpec.Cfg d K} (h : s.Holds c) (hp : d.ph < 2 ^ 31) {f : ObjFn d K}
    (hf : c.obj = some f) (z : Vec K) (hz : z.size = d.nZ) (g : Bool) :
    Post (s.evalObj z g) (fun r =>
      r.1.value = NlSpec.costOf f c.out (NlSpec.codeStates d c.stScale s.obj.x0.get z.get)
        (NlSpec.inputs d c.inScale z.get) (z.get (NlSpec.slackIx d)) ∧
      (if g then ∃ G gx gu ge, r.1.grad = some G ∧ G.size = d.nZ ∧
        NlSpec.ObjDiff d (NlSpec.costOf f c.out) (NlSpec.codeStates d c.stScale s.obj.x0.get z.get)
          (NlSpec.inputs d c.inScale z.get) (z.get (NlSpec.slackIx d))
          (Objective.stepSeq (NlSpec.codeStates d c.stScale s.obj.x0.get z.get))
          (Objective.stepSeq (NlSpec.inputs d c.inScale z.get)) (Objective.stepSlack (z.get (NlSpec.slackIx d)))
          gx gu ge ∧
        NlSpec.RowOf d (fun _ => 1) c.inScale gx gu ge G.get
       else r.1.grad = none)) := by
  unfold evalObj
  refine Post.bind (Objective.evaluate_post s.obj h.osz f (h.obj.trans hf) s.mp h.good h.dims s.M z hz hp g) ?_
  rintro ⟨r, o⟩ ⟨-, -, -, h1, h2⟩
  dsimp only at h1 h2 ⊢
  rw [h.out, h.stS, h.inS] at h1 h2
  refine post_pure ⟨h1, ?_⟩
  cases g with
  | false => simpa using h2
  | true =>
    simp only [if_true] at h2 ⊢
    obtain ⟨G, gx, gu, ge, k1, k2, k3, k4⟩ := h2
    have hd := h.dims
    obtain ⟨q1, q2, q3⟩ := k4
    rw [hd] at q1 q2 q3
    rw [h.inS] at q2
    exact ⟨G, gx, gu, ge, k1, k2, k3, fun k a hk ha => by rw [q1 k a hk ha, mul_one], q2, q3⟩

theorem evalIneq_post {s : NlState d K} {c : NlSpec.Cfg d K} (h : s.Holds c) (hp : d.ph < 2 ^ 31)
    {F : Traj (d.ph + 1) d.nx K → Traj (d.ph + 1) d.ny K → Traj (d.ph + 1) d.nu K → K → FVec d.ineq K}
    (hf : c.ineq = some F) (z : Vec K) (hz : z.size = d.nZ) (junk : Nat → K) :
    Post (s.evalIneq z junk) (fun r => r.1.value.size = d.ineq ∧ r.1.grad.size = d.nZ * d.ineq ∧
      (∀ i : Fin d.ineq, r.1.value.get i
        = NlSpec.ineqOf F c.out (NlSpec.codeStates d c.stScale s.con.x0.get z.get)
        (NlSpec.inputs d c.inScale z.get) (z.get (NlSpec.slackIx d)) i) ∧
      ∃ gx gu ge, NlSpec.ConDiff d d.ineq (NlSpec.ineqOf F c.out)
          (NlSpec.codeStates d c.stScale s.con.x0.get z.get)
          (NlSpec.inputs d c.inScale z.get) (z.get (NlSpec.slackIx d))
          (Constraints.stepLin (NlSpec.codeStates d c.stScale s.con.x0.get z.get))
          (Constraints.stepLin (NlSpec.inputs d c.inScale z.get)) (Constraints.stepSlack (z.get (NlSpec.slackIx d)))
          false gx gu ge ∧
        ∀ i, i < d.ineq → NlSpec.RowOf d c.stScale c.inScale (gx i) (gu i) (ge i) (fun v => r.1.grad.get (i * d.nZ + v))) := by
  unfold evalIneq
  have hf' : s.con.ieqUser = some fun _ => F := by rw [h.ineq, hf]; rfl
  refine Post.bind (Constraints.evaluateIneq_post s.con h.csz _ hf' F (fun _ _ _ _ _ => rfl) s.mp h.good h.dims s.M
    junk z hz hp) ?_
  rintro ⟨r, o⟩ ⟨-, -, h0, h1, gx, gu, ge, h2, h3⟩
  dsimp only at h0 h1 h2 h3 ⊢
  rw [h.out, h.stS, h.inS] at h1 h2
  obtain ⟨q0, q1, q2, q3⟩ := h3
  rw [h.dims] at q0 q1 q2 q3
  rw [h.stS] at q1
  rw [h.inS] at q2
  exact post_pure ⟨h0, q0, h1, gx, gu, ge, h2, fun i hi => ⟨fun k a => q1 i k a hi, fun j b => q2 i j b hi, q3 i hi⟩⟩

theorem evalEq_post {s : NlState d K} {c : NlSpec.Cfg d K} (h : s.Holds c)
    {F : Traj (d.ph + 1) d.nx K → Traj (d.ph + 1) d.nu K → FVec d.eq K}
    (hf : c.eq = some F) (z : Vec K) (hz : z.size = d.nZ) (junk : Nat → K) :
    Post (s.evalEq z junk) (fun r => r.1.value.size = d.eq ∧ r.1.grad.size = d.nZ * d.eq ∧
      (∀ i : Fin d.eq, r.1.value.get i = F (NlSpec.codeStates d c.stScale s.con.x0.get z.get)
        (NlSpec.inputs d c.inScale z.get) i) ∧
      ∃ gx gu, NlSpec.ConDiff d d.eq (fun X U _ => F X U)
          (NlSpec.codeStates d c.stScale s.con.x0.get z.get)
          (NlSpec.inputs d c.inScale z.get) (z.get (NlSpec.slackIx d))
          (Constraints.stepState (NlSpec.codeStates d c.stScale s.con.x0.get z.get))
          (Constraints.stepInput (d.ph - 1) (NlSpec.inputs d c.inScale z.get)) 1
          true gx gu (fun _ => 0) ∧
        ∀ i, i < d.eq → NlSpec.RowOf d c.stScale c.inScale (gx i) (gu i) 0 (fun v => r.1.grad.get (i * d.nZ + v))) := by
  unfold evalEq
  have hf' : s.con.eqUser = some fun _ => F := by rw [h.eq, hf]; rfl
  refine Post.bind (Constraints.evaluateEq_post s.con h.csz _ hf' F (fun _ _ _ => rfl) s.mp h.good h.dims junk z hz) ?_
  rintro ⟨r, o⟩ ⟨-, -, h0, h1, gx, gu, h2, h3⟩
  dsimp only at h0 h1 h2 h3 ⊢
  rw [h.stS, h.inS] at h1 h2
  obtain ⟨q0, q1, q2, q3⟩ := h3
  rw [h.dims] at q0 q1 q2 q3
  rw [h.stS] at q1
  rw [h.inS] at q2
  exact post_pure ⟨h0, q0, h1, gx, gu, h2, fun i hi => ⟨fun k a => q1 i k a hi, fun j b => q2 i j b hi, q3 i hi⟩⟩

end NlState

namespace NlSpec

/-- difference quotients of an affine objective -/
theorem IsAffine.objDiff {φ : Traj (d.ph + 1) d.nx K → Traj (d.ph + 1) d.nu K → K → K} {c0 : K}
    {α β : Nat → Nat → K} {γ : K} (h : IsAffine φ c0 α β γ) {X : Traj (d.ph + 1) d.nx K}
    {U : Traj (d.ph + 1) d.nu K} {e : K} {hx hu : Nat → K} {he : K} {gx gu : Nat → Nat → K} {ge : K}
    (hd : NlSpec.ObjDiff d φ X U e hx hu he gx gu ge) :
    (∀ k a, k < d.ph → a < d.nx → gx k a = α (k + 1) a) ∧
    (∀ k b, k + 1 < d.ph → b < d.nu → gu k b = β k b) ∧
    (∀ b, b < d.nu → gu (d.ph - 1) b = β (d.ph - 1) b + β d.ph b) ∧ ge = γ := by
  obtain ⟨p1, q1, p2, q2, q3, p3, q4⟩ := hd
  refine ⟨?_, ?_, ?_, ?_⟩
  · intro k a hk ha
    rw [q1 k a hk ha, h.bumpX X U e (by omega) ha, add_sub_cancel_left, mul_div_cancel_right₀ _ (p1 a).ne']
  · intro k b hk hb
    rw [q2 k b hk hb, h.bumpU X U e (by omega) hb, add_sub_cancel_left, mul_div_cancel_right₀ _ (p2 b).ne']
  · intro b hb
    rw [q3 b hb, h.bumpU X _ e (by omega) hb, h.bumpU X U e (by omega) hb]
    rw [div_eq_iff (p2 b).ne']; ring
  · rw [q4, sub_eq_add_neg e, h.slack, h.slack, div_eq_iff (by have := p3.ne'; simpa using this)]; ring

/-- central difference quotients of an affine constraint -/
theorem IsAffine.conDiff {n : Nat} {φ : Traj (d.ph + 1) d.nx K → Traj (d.ph + 1) d.nu K → K → FVec n K} {i : Fin n}
    {c0 : K} {α β : Nat → Nat → K} {γ : K} (h : IsAffine (fun X U e => φ X U e i) c0 α β γ)
    {X : Traj (d.ph + 1) d.nx K} {U : Traj (d.ph + 1) d.nu K} {e : K} {hx hu : Nat → Nat → K} {he : K} {last : Bool}
    {gx gu : Nat → Nat → Nat → K}
    {ge : Nat → K} (hd : NlSpec.ConDiff d n φ X U e hx hu he last gx gu ge) :
    (∀ k a, k < d.ph → a < d.nx → gx i k a = α (k + 1) a) ∧
    (∀ k b, k + 1 < d.ph → b < d.nu → gu i k b = β k b) ∧
    (∀ b, b < d.nu → gu i (d.ph - 1) b = if last then β (d.ph - 1) b + β d.ph b else β (d.ph - 1) b) ∧ ge i = γ := by
  obtain ⟨p1, q1, p2, q2, q3, p3, q4⟩ := hd
  have bx := fun X U e {k a : Nat} (hk : k < d.ph + 1) (ha : a < d.nx) t => h.bumpX X U e hk ha t
  have bu := fun X U e {k a : Nat} (hk : k < d.ph + 1) (ha : a < d.nu) t => h.bumpU X U e hk ha t
  have be := fun X U e t => h.slack X U e t
  refine ⟨?_, ?_, ?_, ?_⟩
  · intro k a hk ha
    rw [q1 i k a hk ha, bx X U e (by omega) ha, bx X U e (by omega) ha,
      div_eq_iff (by have := (p1 k a).ne'; simpa using this)]
    ring
  · intro k b hk hb
    rw [q2 i k b hk hb, bu X U e (by omega) hb, bu X U e (by omega) hb,
      div_eq_iff (by have := (p2 k b).ne'; simpa using this)]
    ring
  · intro b hb
    rw [q3 i b hb]
    cases last with
    | true =>
      simp only [if_true]
      rw [bu X (bump U (d.ph - 1) b (hu (d.ph - 1) b)) e (by omega) hb,
        bu X (bump U (d.ph - 1) b (-hu (d.ph - 1) b)) e (by omega) hb, bu X U e (by omega) hb,
        bu X U e (by omega) hb,
        div_eq_iff (by have := (p2 (d.ph - 1) b).ne'; simpa using this)]
      ring
    | false =>
      simp only [Bool.false_eq_true, if_false]
      rw [bu X U e (by omega) hb, bu X U e (by omega) hb,
        div_eq_iff (by have := (p2 (d.ph - 1) b).ne'; simpa using this)]
      ring
  · rw [q4, sub_eq_add_neg e, be, be, div_eq_iff (by have := p3.ne'; simpa using this)]; ring

end NlSpec
end Mpc
