import Mathlib.Data.Rat.Defs
import Mathlib.Data.Rat.Lemmas
import Mathlib.Tactic.NormNum
import Verif.Proofs.Mapping

/-
C35, C36: the map between decision vectors and sequences, after any history of scaling calls.
-/
namespace Mpc.Props
open Mpc Exec
set_option linter.unusedSectionVars false

variable {K : Type} [Field K]

/-- The two scaling setters. -/
inductive ScalingCall (K : Type) where
  | input (v : Vec K)
  | state (v : Vec K)

/-- the vector has the dimension the setter expects -/
def ScalingCall.Fits (d : Dims) : ScalingCall K → Prop
  | .input v => v.size = d.nu
  | .state v => v.size = d.nx

/-- one call on the mapping object -/
def ScalingCall.exec (m : Mapping K) : ScalingCall K → Exec (Mapping K)
  | .input v => m.setInputScaling v
  | .state v => .ok (m.setStateScaling v)

/-- a history of calls on a freshly initialised mapping object -/
def scalingRun (d : Dims) (cs : List (ScalingCall K)) : Exec (Mapping K) :=
  cs.foldl (fun e c => e >>= fun m => c.exec m) (Mapping.init d)

/-- input scaling in force after a history: the last one set, initially one -/
def inputScale (cs : List (ScalingCall K)) : Nat → K :=
  cs.foldl (fun s c => match c with | .input v => v.get | .state _ => s) (fun _ => 1)

/-- state scaling in force after a history -/
def stateScale (cs : List (ScalingCall K)) : Nat → K :=
  cs.foldl (fun s c => match c with | .input _ => s | .state v => v.get) (fun _ => 1)

/-- dimensions with `1 <= ch <= ph` -/
structure HorizonsOk (d : Dims) : Prop where
  ch_pos : 0 < d.ch
  ch_le : d.ch ≤ d.ph
  ph_int : d.ph < 2 ^ 31

theorem scalingRun_post (d : Dims) (hd : HorizonsOk d) (cs : List (ScalingCall K)) (hf : ∀ c ∈ cs, c.Fits d) :
    Post (scalingRun d cs) (fun m => m.Good ∧ m.dims = d ∧ m.inputScaling.get = inputScale cs ∧
      m.stateScaling.get = stateScale cs) := by
  induction cs using List.reverseRecOn with
  | nil =>
    refine (Mapping.init_post d hd.ch_pos hd.ch_le hd.ph_int).mono ?_
    rintro m ⟨h1, h2, h3, h4⟩
    exact ⟨h1, h2, funext h3, funext h4⟩
  | append_singleton cs c ih =>
    have ih := ih (fun c hc => hf c (by simp [hc]))
    have hc := hf c (by simp)
    unfold scalingRun at ih ⊢
    rw [List.foldl_append]
    refine Post.bind ih ?_
    rintro m ⟨h1, rfl, h3, h4⟩
    cases c with
    | input v =>
      refine (Mapping.setInputScaling_post m h1 hd.ph_int v hc).mono ?_
      rintro m' ⟨g1, g2, g3, g4⟩
      refine ⟨g1, g2, ?_, ?_⟩
      · rw [g3]; simp [inputScale]
      · rw [g4, h4]; simp [stateScale]
    | state v =>
      refine post_ok ⟨Mapping.setStateScaling_good m h1 v hc, rfl, ?_, ?_⟩
      · simp only [Mapping.setStateScaling]; rw [h3]; simp [inputScale]
      · simp [Mapping.setStateScaling, stateScale]

/-- What a call of `unwrapVector` after a history of scaling calls gives. -/
def unwrapAfter (d : Dims) (cs : List (ScalingCall K)) (z x0 : Vec K) (Xb Ub : Mat K) :
    Exec (Mat K × Mat K × K) := do
  let m ← scalingRun d cs
  m.unwrapVector z x0 Xb Ub

/-- C35 as claimed: sequences produced from a decision vector. -/
def C35Claim (K : Type) [Field K] : Prop :=
  ∀ (d : Dims), HorizonsOk d → ∀ cs : List (ScalingCall K), (∀ c ∈ cs, c.Fits d) →
    ∀ (z x0 : Vec K) (Xb Ub : Mat K), z.size = d.nZ → x0.size = d.nx →
      Xb.rows = d.ph + 1 → Xb.cols = d.nx → Ub.rows = d.ph + 1 → Ub.cols = d.nu →
      ∃ X U e, unwrapAfter d cs z x0 Xb Ub = .ok (X, U, e) ∧
        (∀ k a, k ≤ d.ph → a < d.nx → X.get k a = NlSpec.stateAt d (stateScale cs) x0.get z.get k a) ∧
        (∀ k b, k ≤ d.ph → b < d.nu → U.get k b = NlSpec.inputAt d (inputScale cs) z.get k b) ∧
        e = z.get (NlSpec.slackIx d)

theorem unwrapAfter_post (d : Dims) (hd : HorizonsOk d) (cs : List (ScalingCall K)) (hf : ∀ c ∈ cs, c.Fits d)
    (z x0 : Vec K) (Xb Ub : Mat K) (hz : z.size = d.nZ) (hx0 : x0.size = d.nx)
    (h1 : Xb.rows = d.ph + 1) (h2 : Xb.cols = d.nx) (h3 : Ub.rows = d.ph + 1) (h4 : Ub.cols = d.nu) :
    Post (unwrapAfter d cs z x0 Xb Ub) (fun r =>
      (r.1.rows = d.ph + 1 ∧ r.1.cols = d.nx ∧ r.2.1.rows = d.ph + 1 ∧ r.2.1.cols = d.nu) ∧
      (∀ a, a < d.nx → r.1.get 0 a = stateScale cs a * x0.get a) ∧
      (∀ k a, 1 ≤ k → k ≤ d.ph → a < d.nx → r.1.get k a = NlSpec.stateAt d (stateScale cs) x0.get z.get k a) ∧
      (∀ k b, k ≤ d.ph → b < d.nu → r.2.1.get k b = NlSpec.inputAt d (inputScale cs) z.get k b) ∧
      r.2.2 = z.get (NlSpec.slackIx d)) := by
  unfold unwrapAfter
  refine Post.bind (scalingRun_post d hd cs hf) ?_
  rintro m ⟨hm, rfl, hi, hs⟩
  refine (Mapping.unwrapVector_post m hm z x0 Xb Ub hz hx0 h1 h2 h3 h4).mono ?_
  rintro ⟨X, U, e⟩ ⟨g1, g2, g3, g4, g5, g6, g7, g8⟩
  dsimp only at g1 g2 g3 g4 g5 g6 g7 g8 ⊢
  refine ⟨⟨g1, g2, g3, g4⟩, ?_, ?_, ?_, g8⟩
  · intro a ha; rw [g5 a ha, hs]
  · intro k a hk1 hk2 ha
    obtain ⟨k, rfl⟩ : ∃ j, k = j + 1 := ⟨k - 1, by omega⟩
    rw [g6 k a (by omega) ha, hs]; simp [NlSpec.stateAt]
  · intro k b hk hb; rw [g7 k b (by omega) hb, hi]

/-- C35 is violated: with a state scaling the first row is the *scaled* measured state. -/
theorem c35_violated : ¬ C35Claim ℚ := by
  intro h
  let d : Dims := { nx := 1, nu := 1, ndu := 0, ny := 0, ph := 1, ch := 1 }
  obtain ⟨X, U, e, hr, hX, -, -⟩ := h d ⟨by decide, by decide, by decide⟩ [.state ⟨1, fun _ => 2⟩]
    (by simp [ScalingCall.Fits, d]) ⟨3, fun _ => 0⟩ ⟨1, fun _ => 1⟩ (Mat.const 2 1 0) (Mat.const 2 1 0)
    rfl rfl rfl rfl rfl rfl
  have hp := unwrapAfter_post (K := ℚ) d ⟨by decide, by decide, by decide⟩ [.state ⟨1, fun _ => 2⟩]
    (by simp [ScalingCall.Fits, d]) ⟨3, fun _ => 0⟩ ⟨1, fun _ => 1⟩ (Mat.const 2 1 0) (Mat.const 2 1 0)
    rfl rfl rfl rfl rfl rfl
  have hq := (hp.of_eq hr).2.1 0 (by decide)
  rw [hX 0 0 (by decide) (by decide)] at hq
  simp [NlSpec.stateAt, stateScale] at hq

/-- C35, everything except the first state row: for every pair of horizons, every scaling history and every
decision vector the inputs are the blocked, rescaled decision inputs, the states of steps 1..ph the rescaled
decision states, the slack the last entry. -/
theorem c35_sequences_partial (d : Dims) (hd : HorizonsOk d) (cs : List (ScalingCall K))
    (hf : ∀ c ∈ cs, c.Fits d) (z x0 : Vec K) (Xb Ub : Mat K) (hz : z.size = d.nZ) (hx0 : x0.size = d.nx)
    (h1 : Xb.rows = d.ph + 1) (h2 : Xb.cols = d.nx) (h3 : Ub.rows = d.ph + 1) (h4 : Ub.cols = d.nu) :
    ∃ X U e, unwrapAfter d cs z x0 Xb Ub = .ok (X, U, e) ∧
      (∀ k a, 1 ≤ k → k ≤ d.ph → a < d.nx → X.get k a = NlSpec.stateAt d (stateScale cs) x0.get z.get k a) ∧
      (∀ k b, k ≤ d.ph → b < d.nu → U.get k b = NlSpec.inputAt d (inputScale cs) z.get k b) ∧
      e = z.get (NlSpec.slackIx d) := by
  obtain ⟨⟨X, U, e⟩, hr, -, -, hX, hU, he⟩ := unwrapAfter_post d hd cs hf z x0 Xb Ub hz hx0 h1 h2 h3 h4
  exact ⟨X, U, e, hr, hX, hU, he⟩

/-- C35, exact contents of the first state row. -/
theorem c35_first_row_partial (d : Dims) (hd : HorizonsOk d) (cs : List (ScalingCall K))
    (hf : ∀ c ∈ cs, c.Fits d) (z x0 : Vec K) (Xb Ub : Mat K) (hz : z.size = d.nZ) (hx0 : x0.size = d.nx)
    (h1 : Xb.rows = d.ph + 1) (h2 : Xb.cols = d.nx) (h3 : Ub.rows = d.ph + 1) (h4 : Ub.cols = d.nu) :
    ∃ X U e, unwrapAfter d cs z x0 Xb Ub = .ok (X, U, e) ∧
      ∀ a, a < d.nx → X.get 0 a = stateScale cs a * x0.get a := by
  obtain ⟨⟨X, U, e⟩, hr, -, hX, -⟩ := unwrapAfter_post d hd cs hf z x0 Xb Ub hz hx0 h1 h2 h3 h4
  exact ⟨X, U, e, hr, hX⟩

/-- C35 holds in full as long as the state scaling in force is one (in particular if it was never set). -/
theorem c35_unscaled_partial (d : Dims) (hd : HorizonsOk d) (cs : List (ScalingCall K))
    (hf : ∀ c ∈ cs, c.Fits d) (hs : ∀ a, a < d.nx → stateScale cs a = 1)
    (z x0 : Vec K) (Xb Ub : Mat K) (hz : z.size = d.nZ) (hx0 : x0.size = d.nx)
    (h1 : Xb.rows = d.ph + 1) (h2 : Xb.cols = d.nx) (h3 : Ub.rows = d.ph + 1) (h4 : Ub.cols = d.nu) :
    ∃ X U e, unwrapAfter d cs z x0 Xb Ub = .ok (X, U, e) ∧
      (∀ k a, k ≤ d.ph → a < d.nx → X.get k a = NlSpec.stateAt d (stateScale cs) x0.get z.get k a) ∧
      (∀ k b, k ≤ d.ph → b < d.nu → U.get k b = NlSpec.inputAt d (inputScale cs) z.get k b) ∧
      e = z.get (NlSpec.slackIx d) := by
  obtain ⟨⟨X, U, e⟩, hr, -, h0, hX, hU, he⟩ := unwrapAfter_post d hd cs hf z x0 Xb Ub hz hx0 h1 h2 h3 h4
  refine ⟨X, U, e, hr, ?_, hU, he⟩
  intro k a hk ha
  by_cases hk0 : k = 0
  · subst hk0; rw [h0 a ha, hs a ha]; simp [NlSpec.stateAt]
  · exact hX k a (by omega) hk ha

/-- The hypotheses are met by a case with blocking (`ch < ph`), two inputs and two scaling calls. -/
example : ∃ (d : Dims) (cs : List (ScalingCall ℚ)), HorizonsOk d ∧ (∀ c ∈ cs, c.Fits d) ∧ d.ch < d.ph ∧
    inputScale cs 1 = 3 ∧ stateScale cs 0 = 5 :=
  ⟨{ nx := 2, nu := 2, ndu := 0, ny := 1, ph := 4, ch := 2 }, [.input ⟨2, fun _ => 3⟩, .state ⟨2, fun _ => 5⟩],
    ⟨by decide, by decide, by decide⟩, by simp [ScalingCall.Fits], by decide, by simp [inputScale],
    by simp [stateScale]⟩

/-- C36: compressing an expanded sequence of decision inputs gives the decision inputs back. -/
theorem c36_compress_expand (d : Dims) (hd : HorizonsOk d) (cs : List (ScalingCall K))
    (hf : ∀ c ∈ cs, c.Fits d) (hs : ∀ b, b < d.nu → inputScale cs b ≠ 0) (u : Vec K)
    (hu : u.size = d.nu * d.ch) :
    ∃ m v w, scalingRun d cs = .ok m ∧ m.Iz2u.mulVec u = .ok v ∧ m.Iu2z.mulVec v = .ok w ∧
      w.size = d.nu * d.ch ∧ ∀ i, i < d.nu * d.ch → w.get i = u.get i := by
  obtain ⟨m, hm, hg, rfl, hi, -⟩ := scalingRun_post d hd cs hf
  have hch := hd.ch_pos
  have hle := hd.ch_le
  refine ⟨m, _, _, hm, Mat.mulVec_ok (by rw [hg.iz_cols, hu]),
    Mat.mulVec_ok (by dsimp only; rw [hg.iu_cols, hg.iz_rows]), hg.iu_rows, ?_⟩
  intro i hi'
  obtain ⟨j, c, hj, hc, rfl⟩ := exists_block (by rw [Nat.mul_comm] at hi'; exact hi')
  dsimp only
  rw [hg.compress _ hj hc, hg.expand _ (by omega) hc, hi, Nat.min_eq_left (by omega)]
  field_simp [hs c hc]

/-- C36: expanding a compressed sequence gives back every sequence which is constant from step `ch-1` on. -/
theorem c36_expand_compress (d : Dims) (hd : HorizonsOk d) (cs : List (ScalingCall K))
    (hf : ∀ c ∈ cs, c.Fits d) (hs : ∀ b, b < d.nu → inputScale cs b ≠ 0) (u : Vec K)
    (hu : u.size = d.ph * d.nu)
    (hconst : ∀ k b, d.ch - 1 ≤ k → k < d.ph → b < d.nu →
      u.get (k * d.nu + b) = u.get ((d.ch - 1) * d.nu + b)) :
    ∃ m v w, scalingRun d cs = .ok m ∧ m.Iu2z.mulVec u = .ok v ∧ m.Iz2u.mulVec v = .ok w ∧
      w.size = d.ph * d.nu ∧ ∀ i, i < d.ph * d.nu → w.get i = u.get i := by
  obtain ⟨m, hm, hg, rfl, hi, -⟩ := scalingRun_post d hd cs hf
  have hch := hd.ch_pos
  have hle := hd.ch_le
  refine ⟨m, _, _, hm, Mat.mulVec_ok (by rw [hg.iu_cols, hu]),
    Mat.mulVec_ok (by dsimp only; rw [hg.iz_cols, hg.iu_rows]), hg.iz_rows, ?_⟩
  intro i hi'
  obtain ⟨k, b, hk, hb, rfl⟩ := exists_block hi'
  dsimp only
  rw [hg.expand _ hk hb, hg.compress _ (by omega) hb, hi]
  have : u.get (min k (m.dims.ch - 1) * m.dims.nu + b) = u.get (k * m.dims.nu + b) := by
    rcases Nat.lt_or_ge k (m.dims.ch - 1) with h | h
    · rw [Nat.min_eq_left (by omega)]
    · rw [Nat.min_eq_right h, hconst k b h hk hb]
  rw [this]
  field_simp [hs b hb]

/-- The hypotheses of C36 are met by a blocked, scaled, non-constant sequence. -/
example : ∃ (d : Dims) (cs : List (ScalingCall ℚ)) (u : Vec ℚ), HorizonsOk d ∧ (∀ c ∈ cs, c.Fits d) ∧
    (∀ b, b < d.nu → inputScale cs b ≠ 0) ∧ u.size = d.ph * d.nu ∧ d.ch < d.ph ∧ u.get 0 ≠ u.get 1 ∧
    (∀ k b, d.ch - 1 ≤ k → k < d.ph → b < d.nu →
      u.get (k * d.nu + b) = u.get ((d.ch - 1) * d.nu + b)) := by
  refine ⟨{ nx := 1, nu := 1, ndu := 0, ny := 1, ph := 3, ch := 2 }, [.input ⟨1, fun _ => 3⟩],
    ⟨3, fun i => if i = 0 then 7 else 5⟩, ⟨by decide, by decide, by decide⟩, by simp [ScalingCall.Fits], ?_, rfl,
    by decide, by simp, ?_⟩
  · intro b _; simp [inputScale]
  · intro k b h1 h2 h3
    dsimp only at *
    rw [if_neg (by omega), if_neg (by omega)]

end Mpc.Props
