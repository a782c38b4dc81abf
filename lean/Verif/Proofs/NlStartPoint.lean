import Verif.Proofs.NlOutputs

/-
What the initial point of the nonlinear solver depends on.
-/
namespace Mpc
open Exec
set_option linter.unusedSectionVars false

variable {d : Dims} {K : Type} [Field K] [LinearOrder K] [IsStrictOrderedRing K]

/-- the part of the abstract state which determines the initial point -/
structure NlStart (K : Type) where
  first : Bool
  warm : Bool
  slack : K
  inScale : Nat → K
  z : Nat → K

/-- projection -/
def NlCtl.startPart (c : NlCtl d K) : NlStart K := ⟨c.first, c.warm, c.slack, c.cfg.inScale, c.z⟩

namespace NlStart

/-- the decision vector an initial point is made from -/
def from' (d : Dims) (s : NlStart K) (x0 u0 : Nat → K) : Nat → K :=
  if s.first || !s.warm then NlCtl.cold d x0 u0 s.z else s.z

/-- effect of a call -/
def step (s : NlStart K) : NlCall d K → NlStart K
  | .setOptimizerParameters (.nonlinear p) => { s with warm := p.enable_warm_start }
  | .setInputScale v => { s with inScale := v.get }
  | .optimize x0 u0 _ .threw _ => { s with z := s.from' d x0.get u0.get }
  | .optimize _ _ _ (.answered z _ _ true) _ => { s with z := z.get, first := false }
  | .optimize _ _ _ (.answered z _ _ false) _ => { s with z := z.get, first := false, slack := z.get (NlSpec.slackIx d) }
  | _ => s

/-- before the first call -/
def fresh (K : Type) [Field K] : NlStart K := ⟨true, false, 0, fun _ => 1, fun _ => 0⟩

theorem startPart_step (c : NlCtl d K) (b : Bool) (op : NlCall d K) :
    (c.step b op).startPart = c.startPart.step op := by
  cases op with
  | setOptimizerParameters p => cases p <;> rfl
  | setStateBoundsSlice l u s => cases b <;> rfl
  | setInputBoundsSlice l u s => cases b <;> rfl
  | optimize x0 u0 cs oc j => rcases oc with _ | ⟨z, v, k, _ | _⟩ <;> rfl
  | _ => rfl

theorem after_startPart {ops : List (NlCall d K)} {outs : List (NlOut K)} (hl : outs.length = ops.length) :
    (NlCtl.after d ops outs).startPart = ops.foldl step (fresh K) := by
  refine history_induction (P := fun ops outs => (NlCtl.after d ops outs).startPart = ops.foldl step (fresh K)) rfl ?_ hl
  intro ops outs op o hl ih
  rw [NlMpc.after_snoc hl, startPart_step, ih, List.foldl_append]
  rfl

/-- entries of the two decision vectors which the initial point reads agree -/
def ZEq (d : Dims) (s t : NlStart K) : Prop := ∀ p, p < NlSpec.slackIx d → s.z p = t.z p

/-- the two states differ in the decision vector only, and not even there where it matters if `cond` -/
structure Alike (d : Dims) (cond : Prop) (s t : NlStart K) : Prop where
  first : s.first = t.first
  warm : s.warm = t.warm
  slack : s.slack = t.slack
  scale : s.inScale = t.inScale
  z : cond → s.first = true ∨ ZEq d s t

theorem cold_eq {x0 u0 z z' : Nat → K} {p : Nat} (hp : p < NlSpec.slackIx d) :
    NlCtl.cold d x0 u0 z p = NlCtl.cold d x0 u0 z' p := by
  unfold NlCtl.cold
  unfold NlSpec.slackIx at hp
  by_cases h : p < d.ph * d.nx
  · rw [if_pos h, if_pos h]
  · rw [if_neg h, if_neg h, if_pos hp, if_pos hp]

theorem from_eq {s t : NlStart K} (h1 : s.first = t.first) (h2 : s.warm = t.warm)
    (hz : s.first = true ∨ s.warm = false ∨ ZEq d s t) {x0 u0 : Nat → K} {p : Nat} (hp : p < NlSpec.slackIx d) :
    s.from' d x0 u0 p = t.from' d x0 u0 p := by
  unfold from'
  rw [← h1, ← h2]
  split_ifs with hc
  · exact cold_eq hp
  · simp only [Bool.or_eq_true, Bool.not_eq_true', not_or] at hc
    rcases hz with h | h | h
    · exact absurd h hc.1
    · exact absurd h hc.2
    · exact h p hp

theorem Alike.step {cond : Prop} {s t : NlStart K} (h : Alike d cond s t) (op : NlCall d K) :
    Alike d (cond ∨ (NlSpec.solutionOf op).isSome = true) (s.step op) (t.step op) := by
  have keep : ∀ {s' t' : NlStart K}, s'.first = s.first → t'.first = t.first → s'.warm = t'.warm → s'.slack = s.slack →
      t'.slack = t.slack → s'.inScale = t'.inScale → s'.z = s.z → t'.z = t.z → NlSpec.solutionOf op = none →
      Alike d (cond ∨ (NlSpec.solutionOf op).isSome = true) s' t' := by
    intro s' t' a1 a2 a3 a4 a5 a6 a7 a8 a9
    refine ⟨by rw [a1, a2, h.first], a3, by rw [a4, a5, h.slack], a6, ?_⟩
    rw [a9]
    rintro (hc | hc)
    · rw [a1]
      refine (h.z hc).imp id fun hz p hp => ?_
      rw [a7, a8]
      exact hz p hp
    · cases hc
  cases op with
  | setOptimizerParameters p =>
    cases p with
    | other => exact keep rfl rfl h.warm rfl rfl h.scale rfl rfl rfl
    | nonlinear p => exact keep rfl rfl rfl rfl rfl h.scale rfl rfl rfl
  | setInputScale v => exact keep rfl rfl h.warm rfl rfl rfl rfl rfl rfl
  | optimize x0 u0 cs oc j =>
    rcases oc with _ | ⟨z, v, k, _ | _⟩
    · refine ⟨h.first, h.warm, h.slack, h.scale, ?_⟩
      rintro (hc | hc)
      · rcases h.z hc with h1 | h1
        · exact .inl h1
        · exact .inr fun p hp => from_eq h.first h.warm (.inr (.inr h1)) hp
      · cases hc
    · exact ⟨rfl, h.warm, rfl, h.scale, fun _ => .inr fun p _ => rfl⟩
    · exact ⟨rfl, h.warm, h.slack, h.scale, fun _ => .inr fun p _ => rfl⟩
  | _ => exact keep rfl rfl h.warm rfl rfl h.scale rfl rfl rfl

theorem Alike.fold {s t : NlStart K} (ops : List (NlCall d K)) : ∀ {cond : Prop}, Alike d cond s t →
    Alike d (cond ∨ (NlSpec.last NlSpec.solutionOf ops).isSome = true) (ops.foldl NlStart.step s) (ops.foldl NlStart.step t) := by
  induction ops using List.reverseRecOn with
  | nil =>
    intro cond h
    exact ⟨h.first, h.warm, h.slack, h.scale, fun hc => h.z (hc.resolve_right (by simp [NlSpec.last]))⟩
  | append_singleton ops op ih =>
    intro cond h
    rw [List.foldl_append, List.foldl_append]
    have := (ih h).step op
    refine ⟨this.first, this.warm, this.slack, this.scale, fun hc => this.z ?_⟩
    rw [NlSpec.last_snoc] at hc
    rcases hc with hc | hc
    · exact .inl (.inl hc)
    · cases hs : NlSpec.solutionOf op with
      | none => rw [hs, Option.none_or] at hc; exact .inl (.inr hc)
      | some z => exact .inr rfl

/-- a failed call, compared with no call -/
theorem alike_failed (s : NlStart K) (x0 u0 : Nat → K) :
    Alike d (s.warm = true ∨ s.first = true) { s with z := s.from' d x0 u0 } s := by
  refine ⟨rfl, rfl, rfl, rfl, ?_⟩
  intro hc
  by_cases h1 : s.first = true
  · exact .inl h1
  · right
    intro p hp
    have h2 := hc.resolve_right h1
    simp only [from', h2, Bool.not_true, Bool.or_false]
    rw [if_neg (by simpa using h1)]

/-- equal starting points give equal initial points -/
theorem guess_eq {s t : NlStart K} {cond : Prop} (h : Alike d cond s t) (hc : s.warm = false ∨ cond) (hch : 0 < d.ch)
    (hle : d.ch ≤ d.ph) {x0 u0 : Nat → K} {g g' : Vec K} (hg : NlOpt.Shift d s.inScale s.slack ⟨d.nZ, s.from' d x0 u0⟩ g)
    (hg' : NlOpt.Shift d t.inScale t.slack ⟨d.nZ, t.from' d x0 u0⟩ g') :
    g.size = g'.size ∧ ∀ p, p < g.size → g.get p = g'.get p := by
  have hf : ∀ p, p < NlSpec.slackIx d → s.from' d x0 u0 p = t.from' d x0 u0 p := by
    intro p hp
    refine from_eq h.first h.warm ?_ hp
    rcases hc with hc | hc
    · exact .inr (.inl hc)
    · exact (h.z hc).imp id .inr
  refine ⟨by rw [hg.size, hg'.size], ?_⟩
  intro p hp
  rw [hg.size, nZ_eq] at hp
  by_cases h1 : p < d.ph * d.nx
  · have hn : 0 < d.nx := by
      rcases Nat.eq_zero_or_pos d.nx with h | h
      · rw [h] at h1; omega
      · exact h
    have e : p = NlSpec.stateIx d (p / d.nx) (p % d.nx) := by
      unfold NlSpec.stateIx
      have := Nat.div_add_mod p d.nx
      rw [Nat.mul_comm] at this
      exact this.symm
    have hk : p / d.nx < d.ph := (Nat.div_lt_iff_lt_mul hn).2 h1
    have ha := Nat.mod_lt p hn
    rw [e, hg.state _ _ hk ha, hg'.state _ _ hk ha]
    refine hf _ ?_
    have := block_lt (n := d.ph) ha (show min (p / d.nx + 1) (d.ph - 1) < d.ph by omega)
    unfold NlSpec.stateIx NlSpec.slackIx
    omega
  · by_cases h2 : p < NlSpec.slackIx d
    · unfold NlSpec.slackIx at h2
      have hn : 0 < d.nu := by
        rcases Nat.eq_zero_or_pos d.nu with h | h
        · rw [h] at h2; omega
        · exact h
      have e : p = NlSpec.inputIx d ((p - d.ph * d.nx) / d.nu) ((p - d.ph * d.nx) % d.nu) := by
        unfold NlSpec.inputIx
        have := Nat.div_add_mod (p - d.ph * d.nx) d.nu
        rw [Nat.mul_comm] at this
        omega
      have hk : (p - d.ph * d.nx) / d.nu < d.ch := (Nat.div_lt_iff_lt_mul hn).2 (by omega)
      have ha := Nat.mod_lt (p - d.ph * d.nx) hn
      rw [e, hg.input _ _ hk ha, hg'.input _ _ hk ha, h.scale]
      dsimp only
      rw [hf]
      have := block_lt (n := d.ch) ha (show min ((p - d.ph * d.nx) / d.nu + 1) (d.ch - 1) < d.ch by omega)
      unfold NlSpec.inputIx NlSpec.slackIx
      omega
    · obtain rfl : p = NlSpec.slackIx d := by omega
      rw [hg.slack, hg'.slack, h.slack]

end NlStart
end Mpc
