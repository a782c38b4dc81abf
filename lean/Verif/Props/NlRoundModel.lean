import Verif.Proofs.NlRoundModel
import Verif.Props.NlRoundGrad

/-
C114 and C115: the model equations of the nonlinear controller in floating-point arithmetic.
-/
namespace Mpc.Props
open Mpc Exec
set_option linter.unusedSectionVars false

section
variable {d : Dims} {K : Type} [Field K] [LinearOrder K] [IsStrictOrderedRing K] {R : Rounding K} {dyn : Bool}
  {ops : List (NlCall d K)} {outs : List (NlOut K)} {m : NlMpc d K} {x0 : Vec K} {s : NlState d K}

/-! ### C114 -/

/-- unit scalings, and numbers which the arithmetic can represent -/
structure Representable (R : Rounding K) (ops : List (NlCall d K)) (x0 z : Vec K) : Prop where
  stScale : ∀ a, NlSpec.stScale ops a = 1
  inScale : ∀ b, NlSpec.inScale ops b = 1
  x0 : ∀ a, R.rnd (x0.get a) = x0.get a
  z : ∀ v, R.rnd (z.get v) = z.get v

theorem Representable.states {z : Vec K} (h : Representable R ops x0 z) :
    NlSpec.codeStatesR R.rnd d (NlSpec.stScale ops) x0.get z.get = NlSpec.codeStates d (NlSpec.stScale ops) x0.get z.get := by
  funext k a
  unfold NlSpec.codeStatesR NlSpec.codeStates
  simp only [h.stScale, div_one, R.one, one_mul, h.x0, h.z]

theorem Representable.inputs {z : Vec K} (h : Representable R ops x0 z) :
    NlSpec.inputsR R.rnd d (NlSpec.inScale ops) z.get = NlSpec.inputs d (NlSpec.inScale ops) z.get := by
  funext k b
  unfold NlSpec.inputsR NlSpec.inputs NlSpec.inputAt
  simp only [h.inScale, one_mul, h.z]

/-- C114 as claimed, for unit scalings and representable numbers: the solver sees that an equation of the model is satisfied exactly when the
states and inputs satisfy it. -/
def C114Claim (R : Rounding K) : Prop :=
  ∀ (d : Dims) (dyn : Bool) (ops : List (NlCall d K)) (outs : List (NlOut K)) (m : NlMpc d K) (x0 : Vec K) (s : NlState d K),
    InRounded R d dyn ops outs m x0 s → ∀ F, NlSpec.last NlSpec.modelOf ops = some F →
    ∀ (z : Vec K) (g : Bool) (junk : Nat → K), z.size = d.nZ → Representable R ops x0 z →
    ∃ r s1, s.evalDynR R.rnd z g junk = .ok (r, s1) ∧
      ∀ (k : Fin d.ph) (q : Fin d.nx), r.value.get (k * d.nx + q) = 0 ↔
        NlSpec.residual (NlSpec.last NlSpec.samplingOf ops).isSome ((NlSpec.last NlSpec.samplingOf ops).getD 0) (NlSpec.stScale ops) F
          (NlSpec.codeStates d (NlSpec.stScale ops) x0.get z.get) (NlSpec.inputs d (NlSpec.inScale ops) z.get) k q = 0

/-- C114, proved part: relative error of two roundings and exact zeros for discrete models; for continuous models, an error of six roundings
relative to the terms of the equation. Missing: zeros of continuous models (see `c114_continuous_violated`). -/
theorem c114_residual_partial (he : R.eps ≤ 1 / 8) (h : InRounded R d dyn ops outs m x0 s)
    (F : FVec d.nx K → FVec d.nu K → Nat → FVec d.nx K) (hF : NlSpec.last NlSpec.modelOf ops = some F)
    (z : Vec K) (hz : z.size = d.nZ) (g : Bool) (junk : Nat → K) :
    ∃ r s1 X U, s.evalDynR R.rnd z g junk = .ok (r, s1) ∧
      NlSpec.Decoded R d (NlSpec.stScale ops) (NlSpec.inScale ops) x0.get z.get X U ∧ r.value.size = d.ph * d.nx ∧
      (NlSpec.last NlSpec.samplingOf ops = none → ∀ (k : Fin d.ph) (q : Fin d.nx),
        |r.value.get (k * d.nx + q) - (X k.succ q - F (X k.castSucc) (U k.castSucc) k q) / NlSpec.stScale ops q|
          ≤ R.gamma 2 * |(X k.succ q - F (X k.castSucc) (U k.castSucc) k q) / NlSpec.stScale ops q| ∧
        (NlSpec.stScale ops q ≠ 0 → (r.value.get (k * d.nx + q) = 0 ↔ X k.succ q = F (X k.castSucc) (U k.castSucc) k q))) ∧
      (∀ Ts, NlSpec.last NlSpec.samplingOf ops = some Ts → ∀ (k : Fin d.ph) (q : Fin d.nx),
        |r.value.get (k * d.nx + q)
            - (X k.castSucc q + Ts / 2 * (F (X k.castSucc) (U k.castSucc) k q + F (X k.succ) (U k.castSucc) k q) - X k.succ q)
              / NlSpec.stScale ops q|
          ≤ R.gamma 6 * ((|X k.castSucc q| + |Ts| / 2 * (|F (X k.castSucc) (U k.castSucc) k q| + |F (X k.succ) (U k.castSucc) k q|)
              + |X k.succ q|) / |NlSpec.stScale ops q|)) := by
  obtain ⟨c, hs, e1, e2, -, -, e5, -, -, e8, e9, -, ex⟩ := h.config he
  obtain ⟨⟨r, s1⟩, hr, hp⟩ := NlState.evalDynR_post (R := R) hs h.hor (e5.trans hF) z hz g junk rfl rfl
  obtain ⟨-, h0, -, hrow⟩ := hp
  have he1 : R.eps < 1 := lt_of_le_of_lt he (by norm_num)
  refine ⟨r, s1, _, _, hr, NlSpec.decoded he1 _ _ _ _, h0, ?_, ?_⟩
  · intro hn k q
    have hv := (hrow k q).1
    dsimp only at hv
    rw [e8, hn, ex, e2, e1] at hv
    rw [hv]
    exact ⟨NlSpec.residualR_discrete _ _ _ _ _ _, fun hs => NlSpec.residualR_zero he1 hs⟩
  · intro Ts hT k q
    have hv := (hrow k q).1
    dsimp only at hv
    rw [e8, e9, hT, ex, e2, e1] at hv
    rw [hv]
    exact NlSpec.residualR_continuous _ _ _ _ _ _

/-- C114, proved part: as claimed, for discrete models. -/
theorem c114_discrete_partial (he : R.eps ≤ 1 / 8) (h : InRounded R d dyn ops outs m x0 s)
    (F : FVec d.nx K → FVec d.nu K → Nat → FVec d.nx K) (hF : NlSpec.last NlSpec.modelOf ops = some F)
    (z : Vec K) (g : Bool) (junk : Nat → K) (hz : z.size = d.nZ) (hrep : Representable R ops x0 z)
    (hd : NlSpec.last NlSpec.samplingOf ops = none) :
    ∃ r s1, s.evalDynR R.rnd z g junk = .ok (r, s1) ∧
      ∀ (k : Fin d.ph) (q : Fin d.nx), r.value.get (k * d.nx + q) = 0 ↔
        NlSpec.residual (NlSpec.last NlSpec.samplingOf ops).isSome ((NlSpec.last NlSpec.samplingOf ops).getD 0) (NlSpec.stScale ops) F
          (NlSpec.codeStates d (NlSpec.stScale ops) x0.get z.get) (NlSpec.inputs d (NlSpec.inScale ops) z.get) k q = 0 := by
  obtain ⟨c, hs, e1, e2, -, -, e5, -, -, e8, e9, -, ex⟩ := h.config he
  obtain ⟨⟨r, s1⟩, hr, hp⟩ := NlState.evalDynR_post (R := R) hs h.hor (e5.trans hF) z hz g junk rfl rfl
  obtain ⟨-, -, -, hrow⟩ := hp
  refine ⟨r, s1, hr, fun k q => ?_⟩
  have hv := (hrow k q).1
  dsimp only at hv
  have h1 : NlSpec.stScale ops q ≠ 0 := by rw [hrep.stScale]; exact one_ne_zero
  rw [e8, hd, ex, e2, e1, hrep.states, hrep.inputs] at hv
  rw [hv, hd]
  refine (NlSpec.residualR_zero (lt_of_le_of_lt he (by norm_num)) h1).trans ?_
  unfold NlSpec.residual
  rw [if_neg (by simp), div_eq_zero_iff, sub_eq_zero]
  exact (or_iff_left h1).symm

/-! ### C115 -/

/-- C115: where the model is affine up to `η` around the two points of an equation, the derivatives of the equation which the solver
gets are those of the equation up to multiples of `(6 η + 48 eps |coefficient| 2^26 M)` and of `eps`. Together with `c111_dynamics`
(zeros) this describes all entries. -/
theorem c115_model_gradients (he : R.eps ≤ 1 / 8) (h : InRounded R d dyn ops outs m x0 s)
    (F : FVec d.nx K → FVec d.nu K → Nat → FVec d.nx K) (hF : NlSpec.last NlSpec.modelOf ops = some F)
    (z : Vec K) (hz : z.size = d.nZ) (junk : Nat → K) :
    ∃ r s1 X U, s.evalDynR R.rnd z true junk = .ok (r, s1) ∧
      NlSpec.Decoded R d (NlSpec.stScale ops) (NlSpec.inScale ops) x0.get z.get X U ∧ r.grad.size = d.nZ * (d.ph * d.nx) ∧
      ∀ (k : Fin d.ph) (q : Fin d.nx) (M η c0 c0' : K) (A B A' B' : Nat → K), NlSpec.Bounded M X U (z.get (NlSpec.slackIx d)) →
        NlSpec.ModelNearlyAffine F k q c0 A B (X k.castSucc) (U k.castSucc) ((2 * (1 / 2 ^ 26) + 7 * R.eps) * M) η →
        NlSpec.ModelNearlyAffine F k q c0' A' B' (X k.succ) (U k.castSucc) ((2 * (1 / 2 ^ 26) + 7 * R.eps) * M) η →
        NlSpec.DynAccurate R d (1 / 2 ^ 26) M η (NlSpec.last NlSpec.samplingOf ops).isSome ((NlSpec.last NlSpec.samplingOf ops).getD 0)
          (NlSpec.stScale ops) (NlSpec.inScale ops) A B A' B' k q (fun v => r.grad.get ((k * d.nx + q) * d.nZ + v)) := by
  obtain ⟨c, hs, e1, e2, -, -, e5, -, -, e8, e9, -, ex⟩ := h.config he
  obtain ⟨⟨r, s1⟩, hr, hp⟩ := NlState.evalDynR_post (R := R) hs h.hor (e5.trans hF) z hz true junk rfl rfl
  obtain ⟨-, -, h1, hrow⟩ := hp
  refine ⟨r, s1, _, _, hr, NlSpec.decoded (lt_of_le_of_lt he (by norm_num)) _ _ _ _, h1, ?_⟩
  rw [← ex, ← e1, ← e2, ← e8, ← e9]
  have edv : (1 / 2 ^ 26 : K) = Constraints.dv := by unfold Constraints.dv; norm_num
  rw [edv]
  intro k q M η c0 c0' A B A' B' hb a1 a2
  exact NlSpec.DynAccurate.of he Constraints.dv_pos dv_le hb ((hrow k q).2 rfl) h.dims.1 a1 fun _ => a2

end
end Mpc.Props

/-! ### witnesses -/

namespace Mpc.Props
open Mpc Exec

/-- a continuous model with derivative 1, sampled every second -/
def rampOps : List (NlCall dN ℚ) := [.setDiscretizationSamplingTime 1, .setStateSpaceFunction (fun _ _ _ _ => 1) 0 true]

theorem ramp_rounded (x0 : ℚ) : ∃ outs m s, InRounded double dN false rampOps outs m (nvec 2 fun _ => x0) s :=
  rounded_of x0 (by simp [NlSpec.CallFits, rampOps]) (by simp [AdmFrom, NlSpec.Admissible, rampOps])

/-- all states `2^60` -/
def bigN : Vec ℚ := ⟨9, fun _ => 2 ^ 60⟩

theorem double_big : double.rnd (2 ^ 60) = 2 ^ 60 := by
  have := double_fixed 1 60 (by norm_num)
  norm_num at this
  norm_num
  exact this

theorem double_big_one : double.rnd (2 ^ 60 + 1) = 2 ^ 60 := by
  have : double.rnd (2 ^ 60 + 1) = (2 ^ 52 : ℤ) * 2 ^ (60 - 52 : ℤ) := double_eval (by norm_num) (by norm_num) (by norm_num [abs_lt])
  rw [this]; norm_num

/-- C114 is violated: the state of a ramp cannot grow any more at `2^60`, and staying there is reported as a solution. -/
theorem c114_continuous_violated : ¬ C114Claim double := by
  intro hc
  obtain ⟨outs, m, s, h⟩ := ramp_rounded (2 ^ 60)
  obtain ⟨r, s1, hr, hz⟩ := hc dN false rampOps outs m _ s h _ rfl bigN false (fun _ => 0) rfl
    ⟨fun _ => rfl, fun _ => rfl, fun _ => double_big, fun _ => double_big⟩
  obtain ⟨c, hs, e1, e2, -, -, e5, -, -, e8, e9, -, ex⟩ := h.config double_eps
  obtain ⟨⟨r', s1'⟩, hr', hp⟩ := NlState.evalDynR_post (R := double) hs h.hor (e5.trans rfl) bigN rfl false (fun _ => 0) rfl rfl
  rw [hr] at hr'
  obtain ⟨rfl, rfl⟩ := Prod.mk.inj (Except.ok.inj hr')
  obtain ⟨-, -, -, hrow⟩ := hp
  -- the value of the second equation
  have hv := (hrow 1 0).1
  dsimp only at hv
  rw [e8, e9, ex, e2, e1] at hv
  have h0 : r.value.get (((1 : Fin dN.ph) : Nat) * dN.nx + ((0 : Fin dN.nx) : Nat)) = 0 := by
    rw [hv]
    change double.rnd (double.rnd (double.rnd (double.rnd (2 ^ 60 / double.rnd (1 / 1)) + double.rnd (double.rnd (1 / 2) * double.rnd (1 + 1)))
      - double.rnd (2 ^ 60 / double.rnd (1 / 1))) / 1) = 0
    have two : double.rnd (1 + 1) = 2 := by
      have := double_fixed 2 0 (by norm_num)
      norm_num at this
      norm_num
      exact this
    have half : double.rnd (1 / 2) = 1 / 2 := by
      have := double_fixed 1 (-1) (by norm_num)
      norm_num at this
      norm_num
      exact this
    rw [div_one, div_one, double.one, div_one, double_big, two, half, show (1 / 2 * 2 : ℚ) = 1 by norm_num, double.one, double_big_one,
      sub_self, double.zero, double.zero]
  have key := (hz 1 0).1 h0
  change (1 * 2 ^ 60 + 1 / 2 * (1 + 1) - 1 * 2 ^ 60) / 1 = (0 : ℚ) at key
  norm_num at key

/-- non-vacuity of `c114_residual_partial` (both parts) and `c114_discrete_partial`: a discrete and a continuous model -/
example : (∃ outs m s, InRounded double dN false [.setStateSpaceFunction (fun x _ _ a => x a + 1) 0 true] outs m (nvec 2 fun _ => 2 ^ 60) s) ∧
    (NlSpec.last NlSpec.samplingOf ([.setStateSpaceFunction (fun x _ _ a => x a + 1) 0 true] : List (NlCall dN ℚ)) = none) ∧
    Representable double ([.setStateSpaceFunction (fun x _ _ a => x a + 1) 0 true] : List (NlCall dN ℚ)) (nvec 2 fun _ => 2 ^ 60) bigN ∧
    (∃ outs m s, InRounded double dN false rampOps outs m (nvec 2 fun _ => 2 ^ 60) s) ∧
    NlSpec.last NlSpec.samplingOf rampOps = some 1 :=
  ⟨rounded_of _ (by simp [NlSpec.CallFits]) (by simp [AdmFrom, NlSpec.Admissible]), rfl,
    ⟨fun _ => rfl, fun _ => rfl, fun _ => double_big, fun _ => double_big⟩, ramp_rounded _, rfl⟩

/-- non-vacuity of `c115_model_gradients`: the model `x0' = x1, x1' = u` is affine -/
example (x : FVec 2 ℚ) (u : FVec 1 ℚ) (k : Nat) (ρ : ℚ) :
    NlSpec.ModelNearlyAffine (fun (x : FVec 2 ℚ) (u : FVec 1 ℚ) (_ : Nat) (a : Fin 2) => if a = 0 then x 1 else u 0) k 0 0
      (fun a => if a = 1 then 1 else 0) (fun _ => 0) x u ρ 0 ∧
    NlSpec.ModelNearlyAffine (fun (x : FVec 2 ℚ) (u : FVec 1 ℚ) (_ : Nat) (a : Fin 2) => if a = 0 then x 1 else u 0) k 1 0
      (fun _ => 0) (fun _ => 1) x u ρ 0 := by
  constructor
  · intro x' u' _ _
    simp [Fin.sum_univ_succ]
  · intro x' u' _ _
    simp [Fin.sum_univ_succ]

end Mpc.Props
