import Verif.Proofs.NlRoundBounds

/-
Zeros in the gradients in rounded arithmetic: functions which do not depend on a variable.
-/
namespace Mpc.NlSpec
set_option linter.unusedSectionVars false

variable {d : Dims} {K : Type} [Field K] [LinearOrder K] [IsStrictOrderedRing K] {R : Rounding K}

theorem quot_zero {x y h : K} (e : x = y) : R.rnd (R.rnd (x - y) / h) = 0 := by
  rw [e, sub_self, R.zero, zero_div, R.zero]

section
variable {q : Nat} {φ : Traj (d.ph + 1) d.nx K → Traj (d.ph + 1) d.nu K → K → FVec q K} {X : Traj (d.ph + 1) d.nx K}
  {U : Traj (d.ph + 1) d.nu K} {e : K} {hx hu : Nat → Nat → K} {hs : K} {last : Bool} {ρx ρu : Nat → Nat → K}
  {gx gu : Nat → Nat → Nat → K} {ge : Nat → K}

theorem ConDiffR.state_zero (hd : ConDiffR R d q φ X U e hx hu hs last ρx ρu gx gu ge) (c : Fin q) {k a : Nat} (hk : k < d.ph)
    (ha : a < d.nx) (hi : IgnoresState (fun X U e => φ X U e c) (k + 1) a) : gx c k a = 0 := by
  obtain ⟨Xp, Xm, -, -, h3, h4⟩ := hd.states k a hk ha
  rw [h4 c]
  exact quot_zero (hi Xp Xm U e h3)

theorem ConDiffR.input_zero (hch : 0 < d.ch) (hle : d.ch ≤ d.ph) (hd : ConDiffR R d q φ X U e hx hu hs last ρx ρu gx gu ge) (c : Fin q)
    {k b : Nat} (hk : k < d.ph) (hb : b < d.nu) (hi : IgnoresInput d (fun X U e => φ X U e c) (min k (d.ch - 1)) b) : gu c k b = 0 := by
  by_cases hl : k + 1 < d.ph
  · obtain ⟨Up, Um, -, -, h3, h4⟩ := hd.inputs k b hl hb
    rw [h4 c]
    refine quot_zero (hi _ Up Um e fun k' b' hkb => h3 k' b' fun hh => hkb ⟨by rw [hh.1], hh.2⟩)
  · obtain rfl : k = d.ph - 1 := by omega
    obtain ⟨Up, Um, h1, h4⟩ := hd.lastInput b hb
    rw [h4 c]
    refine quot_zero (hi _ Up Um e ?_)
    split_ifs at h1
    · exact fun k' b' hkb => h1.2.2 k' b' fun hh => hkb ⟨by rcases hh.1 with h | h <;> rw [h] <;> omega, hh.2⟩
    · exact fun k' b' hkb => h1.2.2 k' b' fun hh => hkb ⟨by rw [hh.1], hh.2⟩

theorem ConDiffR.slack_zero (hd : ConDiffR R d q φ X U e hx hu hs last ρx ρu gx gu ge) (c : Fin q)
    (hi : IgnoresSlack (fun X U e => φ X U e c)) : ge c = 0 := by
  obtain ⟨U', -, h4⟩ := hd.slack
  rw [h4 c]
  exact quot_zero (hi _ U' _ _)
end

section
variable {sx su : Nat → K} {gx gu : Nat → Nat → K} {ge : K} {g : Nat → K} {scaled : Bool}

theorem RowOfR.state_zero (h : RowOfR R.rnd d scaled sx su gx gu ge g) {k a : Nat} (hk : k < d.ph) (ha : a < d.nx) (hz : gx k a = 0) :
    g (stateIx d k a) = 0 := by
  rw [h.states k a hk ha, hz, zero_mul, R.zero]
  split_ifs <;> rfl

theorem RowOfR.input_zero (h : RowOfR R.rnd d scaled sx su gx gu ge g) {j b : Nat} (hj : j < d.ch) (hb : b < d.nu)
    (hz : ∀ k, k < d.ph → min k (d.ch - 1) = j → gu k b = 0) : g (inputIx d j b) = 0 := by
  rw [h.inputs j b hj hb]
  refine sumR_zero fun k hk => ?_
  split_ifs with hm
  · rw [hz k hk hm, mul_zero, R.zero]
  · rfl
end

/-! ### The model equations -/

section
variable {F : FVec d.nx K → FVec d.nu K → Nat → FVec d.nx K} {t : K}

theorem quotXR_zero {r a : Fin d.nx} (h : ModelIgnoresState F r a) (x : FVec d.nx K) (u : FVec d.nu K) (k : Nat) :
    quotXR R.rnd t F x u k r a = 0 := by
  unfold quotXR
  refine quot_zero (h _ _ u k fun a' ha' => ?_)
  unfold bumpVR
  rw [if_neg ha', if_neg ha']

theorem quotUR_zero {r : Fin d.nx} {b : Fin d.nu} (h : ModelIgnoresInput F r b) (x : FVec d.nx K) (u : FVec d.nu K) (k : Nat) :
    quotUR R.rnd t F x u k r b = 0 := by
  unfold quotUR
  refine quot_zero (h x _ _ k fun b' hb' => ?_)
  unfold bumpVR
  rw [if_neg hb', if_neg hb']

variable {cont : Bool} {Ts : K} {s su : Nat → K} {X : Traj (d.ph + 1) d.nx K} {U : Traj (d.ph + 1) d.nu K}

theorem DynRowR.state_zero {k : Fin d.ph} {r : Fin d.nx} {g : Nat → K} (h : DynRowR R.rnd d t cont Ts s su F X U k r g) {k' : Nat}
    (hk' : k' < d.ph) (a : Fin d.nx) (hz : (k' ≠ k ∧ k' + 1 ≠ k) ∨ (r ≠ a ∧ ModelIgnoresState F r a)) : g (stateIx d k' a) = 0 := by
  rw [h.states k' a hk']
  rcases hz with ⟨h1, h2⟩ | ⟨h1, h2⟩
  · rw [if_neg h1, if_neg h2]
  · unfold residualNextR residualPrevR
    rw [quotXR_zero h2, quotXR_zero h2]
    simp only [if_neg h1, mul_zero, R.zero, zero_mul, neg_zero, add_zero, ite_self]

theorem DynRowR.input_zero {k : Fin d.ph} {r : Fin d.nx} {g : Nat → K} (h : DynRowR R.rnd d t cont Ts s su F X U k r g) {j : Nat}
    (hj : j < d.ch) (b : Fin d.nu) (hz : min (k : Nat) (d.ch - 1) ≠ j ∨ ModelIgnoresInput F r b) : g (inputIx d j b) = 0 := by
  rw [h.inputs j b hj]
  rcases hz with h1 | h1
  · rw [if_neg h1]
  · unfold residualInputR
    rw [quotUR_zero h1, quotUR_zero h1]
    simp only [mul_zero, R.zero, zero_mul, neg_zero, add_zero, ite_self]

end
end Mpc.NlSpec
