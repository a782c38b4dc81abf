import Verif.Proofs.NlRoundLoops
import Verif.Proofs.NlHistory

/-
Characterisation of the rounded evaluations of the objective and of the user constraints.
-/
namespace Mpc
open Exec
set_option linter.unusedSectionVars false

section
variable {K : Type} [Field K] [LinearOrder K] [IsStrictOrderedRing K]

/-! ### Sums with rounding -/

theorem sumToR_eq (rnd : K → K) (n : Nat) (f : Nat → K) : sumToR rnd n f = NlSpec.sumR rnd n f := by
  unfold NlSpec.sumR
  induction n with
  | zero => rfl
  | succ n ih => rw [sumToR, ih, List.range_succ, List.foldl_append]; rfl

theorem sumToR_congr (rnd : K → K) {n : Nat} {f g : Nat → K} (h : ∀ i, i < n → f i = g i) : sumToR rnd n f = sumToR rnd n g := by
  induction n with
  | zero => rfl
  | succ n ih => rw [sumToR, sumToR, ih (fun i hi => h i (by omega)), h n (by omega)]

variable (R : Rounding K)

theorem sumToR_fixed (n : Nat) (f : Nat → K) : R.rnd (sumToR R.rnd n f) = sumToR R.rnd n f := by
  cases n with
  | zero => exact R.zero
  | succ n => exact R.idem _

/-- adding zeros changes nothing -/
theorem sumToR_zeros (n m : Nat) (f : Nat → K) (h : ∀ i, i < m → f (n + i) = 0) :
    sumToR R.rnd (n + m) f = sumToR R.rnd n f := by
  induction m with
  | zero => rfl
  | succ m ih =>
    rw [← Nat.add_assoc, sumToR, h m (by omega), add_zero, ih (fun i hi => h i (by omega)), sumToR_fixed]

/-- only one entry of a block of `m` contributes -/
theorem sumToR_block (n m b : Nat) (hb : b < m) (f : Nat → K) (h : ∀ i, i < m → i ≠ b → f (n + i) = 0) :
    sumToR R.rnd (n + m) f = R.rnd (sumToR R.rnd n f + f (n + b)) := by
  obtain ⟨t, rfl⟩ : ∃ t, m = b + 1 + t := ⟨m - (b + 1), by omega⟩
  rw [← Nat.add_assoc, sumToR_zeros R (n + (b + 1)) t f (fun i hi => by
    rw [Nat.add_assoc]; exact h _ (by omega) (by omega)), ← Nat.add_assoc, sumToR,
    sumToR_zeros R n b f (fun i hi => h i (by omega) (by omega))]

theorem sumToR_blocks (n m b : Nat) (hb : b < m) (f : Nat → K) (h : ∀ k i, k < n → i < m → i ≠ b → f (k * m + i) = 0) :
    sumToR R.rnd (n * m) f = sumToR R.rnd n fun k => f (k * m + b) := by
  induction n with
  | zero => simp [sumToR]
  | succ n ih =>
    rw [Nat.add_mul, Nat.one_mul, sumToR_block R (n * m) m b hb f (fun i hi hne => h n i (by omega) hi hne),
      ih (fun k i hk => h k i (by omega)), sumToR]

theorem sumToR_single (n j : Nat) (hj : j < n) (f : Nat → K) (h : ∀ i, i < n → i ≠ j → f i = 0) :
    sumToR R.rnd n f = R.rnd (f j) := by
  have := sumToR_block R 0 n j hj f (fun i hi hne => by rw [Nat.zero_add]; exact h i hi hne)
  simpa [sumToR] using this

/-- Row `k*nu+b` of `Iz2u * u`, rounded. -/
theorem Mapping.Good.expandR {m : Mapping K} (hm : m.Good) (u : Nat → K) {k b : Nat} (hk : k < m.dims.ph)
    (hb : b < m.dims.nu) :
    sumToR R.rnd m.Iz2u.cols (fun q => R.rnd (m.Iz2u.get (k * m.dims.nu + b) q * u q))
      = R.rnd (m.inputScaling.get b * u (min k (m.dims.ch - 1) * m.dims.nu + b)) := by
  have h0 := hm.ch_pos
  rw [hm.iz_cols, Nat.mul_comm m.dims.nu]
  have hmin : min k (m.dims.ch - 1) < m.dims.ch := by omega
  rw [sumToR_single R _ (min k (m.dims.ch - 1) * m.dims.nu + b) (block_lt hb hmin), hm.iz k b _ b hk hb hmin hb,
    if_pos ⟨rfl, rfl⟩, R.idem]
  intro i hi hne
  obtain ⟨j, c, hj, hc, rfl⟩ := exists_block hi
  rw [hm.iz k b j c hk hb hj hc, if_neg, zero_mul, R.zero]
  rintro ⟨rfl, rfl⟩
  exact hne rfl

/-- Row `j*nu+b` of `Iz2u^T * v`, rounded. -/
theorem Mapping.Good.gatherR {m : Mapping K} (hm : m.Good) (v : Nat → K) {j b : Nat} (hj : j < m.dims.ch)
    (hb : b < m.dims.nu) :
    sumToR R.rnd m.Iz2u.rows (fun q => R.rnd (m.Iz2u.get q (j * m.dims.nu + b) * v q))
      = NlSpec.sumR R.rnd m.dims.ph fun k =>
          if min k (m.dims.ch - 1) = j then R.rnd (m.inputScaling.get b * v (k * m.dims.nu + b)) else 0 := by
  rw [← sumToR_eq, hm.iz_rows, sumToR_blocks R m.dims.ph m.dims.nu b hb]
  · refine sumToR_congr _ fun k hk => ?_
    rw [hm.iz k b j b hk hb hj hb]
    by_cases h : min k (m.dims.ch - 1) = j
    · rw [if_pos ⟨h.symm, rfl⟩, if_pos h]
    · rw [if_neg (fun hh => h hh.1.symm), if_neg h, zero_mul, R.zero]
  · intro k c hk hc hne
    rw [hm.iz k c j b hk hc hj hb, if_neg (fun hh => hne hh.2), zero_mul, R.zero]

theorem Mat.mulVecR_ok {rnd : K → K} {m : Mat K} {v : Vec K} (h : m.cols = v.size) :
    m.mulVecR rnd v = .ok ⟨m.rows, fun i => sumToR rnd m.cols fun k => rnd (m.get i k * v.get k)⟩ := by
  simp [Mat.mulVecR, require, h]

theorem Mat.mulR_ok {rnd : K → K} {m n : Mat K} (h : m.cols = n.rows) :
    m.mulR rnd n = .ok ⟨m.rows, n.cols, fun i j => sumToR rnd m.cols fun k => rnd (m.get i k * n.get k j)⟩ := by
  simp [Mat.mulR, require, h]

/-! ### The decision vector -/

/-- What `unwrapVector` leaves in the caller's matrices, rounded. -/
structure Mapping.UnwrappedR (rnd : K → K) (m : Mapping K) (z x0 : Nat → K) (r : Mat K × Mat K × K) : Prop where
  x : r.1.Is (m.dims.ph + 1) m.dims.nx
  u : r.2.1.Is (m.dims.ph + 1) m.dims.nu
  xv : r.1.viewF (m.dims.ph + 1) m.dims.nx = NlSpec.codeStatesR rnd m.dims m.stateScaling.get x0 z
  uv : r.2.1.viewF (m.dims.ph + 1) m.dims.nu = NlSpec.inputsR rnd m.dims m.inputScaling.get z
  e : r.2.2 = z (NlSpec.slackIx m.dims)

theorem Mapping.unwrapVectorR_post (m : Mapping K) (hm : m.Good) (x x0 : Vec K) (Xb Ub : Mat K)
    (hx : x.size = m.dims.nZ) (hx0 : x0.size = m.dims.nx)
    (hX : Xb.Is (m.dims.ph + 1) m.dims.nx) (hU : Ub.Is (m.dims.ph + 1) m.dims.nu) :
    Post (unwrapVectorR R.rnd m x x0 Xb Ub) (UnwrappedR R.rnd m x.get x0.get) := by
  obtain ⟨hXr, hXc⟩ := hX
  obtain ⟨hUr, hUc⟩ := hU
  have hch := hm.ch_pos
  have hle := hm.ch_le
  unfold unwrapVectorR
  dsimp only
  have hsz : m.dims.ph * m.dims.nx + m.dims.nu * m.dims.ch ≤ x.size := by rw [hx]; unfold Dims.nZ; omega
  rw [Vec.seg_ok hsz, ok_bind, Mat.mulVecR_ok hm.iz_cols, ok_bind]
  rw [require_ok (by dsimp only; rw [hm.iz_rows, Nat.mul_comm]), ok_bind]
  rw [Mat.setBlock_ok (by simp [Mat.const]) (by simp [Mat.const]) (by simp [Mat.transpose])
    (by simp [Mat.transpose]), ok_bind]
  rw [Mat.row_ok (by simp [Mat.const, Mat.setBlockRaw] <;> omega), ok_bind]
  rw [Mat.setRow_ok (by simp [Mat.const, Mat.setBlockRaw]) (by simp [Mat.const, Mat.setBlockRaw]), ok_bind]
  rw [Mat.setRow_ok (by simp [Mat.const] <;> omega) (by simp [Mat.const] <;> omega), ok_bind]
  refine Post.bind (Q := fun X => X.rows = m.dims.ph + 1 ∧ X.cols = m.dims.nx ∧
    (∀ a, X.get 0 a = x0.get a) ∧
    (∀ k a, k < m.dims.ph → X.get (k + 1) a = x.get (k * m.dims.nx + a))) ?_ ?_
  · refine (forFrom_post 1 m.dims.ph _ _ (fun i X => X.rows = m.dims.ph + 1 ∧ X.cols = m.dims.nx ∧
      (∀ a, X.get 0 a = x0.get a) ∧
      (∀ k a, k + 1 < i → X.get (k + 1) a = x.get (k * m.dims.nx + a))) ?_ ?_).mono ?_
    · refine ⟨by simp [Mat.const, Mat.setRowRaw, hXr], by simp [Mat.const, Mat.setRowRaw, hXc], ?_, ?_⟩
      · intro a; simp [Mat.setRowRaw]
      · intro k a hk; omega
    · rintro i X hi1 hi2 ⟨h1, h2, h3, h4⟩
      have : (i - 1) * m.dims.nx + m.dims.nx ≤ m.dims.ph * m.dims.nx := block_end_le (by omega)
      rw [Vec.seg_ok (by omega), ok_bind, Mat.setRow_ok (by omega) (by dsimp only; omega)]
      refine post_ok ⟨h1, h2, ?_, ?_⟩
      · intro a; simp only [Mat.setRowRaw]; rw [if_neg (by omega)]; exact h3 a
      · intro k a hk
        simp only [Mat.setRowRaw]
        by_cases hki : k + 1 = i
        · rw [if_pos hki]; subst hki; simp
        · rw [if_neg hki]; exact h4 k a (by omega)
    · rintro X ⟨h1, h2, h3, h4⟩
      exact ⟨h1, h2, h3, fun k a hk => h4 k a (by omega)⟩
  · rintro X ⟨hr, hc, hz, hs⟩
    refine Post.bind (Q := fun X' => X'.rows = m.dims.ph + 1 ∧ X'.cols = m.dims.nx ∧
      (∀ k a, a < m.dims.nx → X'.get k a = R.rnd (X.get k a / R.rnd (1 / m.stateScaling.get a)))) ?_ ?_
    · rw [hc]
      refine (forRange_post m.dims.nx _ _ (fun i X' => X'.rows = m.dims.ph + 1 ∧ X'.cols = m.dims.nx ∧
        (∀ k a, a < m.dims.nx → X'.get k a = if a < i then R.rnd (X.get k a / R.rnd (1 / m.stateScaling.get a)) else X.get k a))
        ⟨hr, hc, by intros; simp⟩ ?_).mono ?_
      · rintro i X' hi ⟨h1, h2, h3⟩
        have := hm.stsz
        rw [Vec.at_ok (by omega), ok_bind, Mat.col_ok (by omega), ok_bind, Mat.setCol_ok (by omega) rfl]
        refine post_ok ⟨h1, h2, ?_⟩
        intro k a ha
        simp only [Mat.setColRaw]
        by_cases hai : a = i
        · subst hai
          rw [if_pos rfl, if_pos (by omega), h3 k a ha, if_neg (by omega)]
        · rw [if_neg hai, h3 k a ha]
          congr 1; apply propext; omega
      · rintro X' ⟨h1, h2, h3⟩
        exact ⟨h1, h2, fun k a ha => by rw [h3 k a ha, if_pos ha]⟩
    · rintro X' ⟨hr', hc', hx'⟩
      rw [Mat.setBlock_ok (by simp [Mat.const, hUr]) (by simp [Mat.const, hUc])
        (by simp [Mat.setRowRaw, Mat.setBlockRaw, Mat.const])
        (by simp [Mat.setRowRaw, Mat.setBlockRaw, Mat.const]), ok_bind]
      rw [require_ok (by rw [hx]; unfold Dims.nZ; omega), ok_bind]
      have hu : ∀ k b, k < m.dims.ph → b < m.dims.nu →
          sumToR R.rnd m.Iz2u.cols (fun q => R.rnd (m.Iz2u.get (k * m.dims.nu + b) q * x.get (m.dims.ph * m.dims.nx + q)))
            = R.rnd (NlSpec.inputAt m.dims m.inputScaling.get x.get k b) := by
        intro k b hk hb
        rw [hm.expandR R (fun q => x.get (m.dims.ph * m.dims.nx + q)) hk hb]
        rfl
      refine post_pure ⟨⟨hr', hc'⟩, ⟨by simp [Mat.setBlockRaw, Mat.const, hUr],
        by simp [Mat.setBlockRaw, Mat.const, hUc]⟩, ?_, ?_, ?_⟩
      · funext k a
        simp only [Mat.viewF, NlSpec.codeStatesR]
        rw [hx' k a a.2]
        by_cases hk : (k : Nat) = 0
        · rw [if_pos hk, hk, hz]
        · rw [if_neg hk]
          have := hs (k - 1) a (by omega)
          rw [show (k : Nat) - 1 + 1 = k by omega] at this
          rw [this]; rfl
      · funext k b
        simp only [Mat.viewF, NlSpec.inputsR]
        have hkk := k.2
        have hbb := b.2
        simp only [Mat.setBlockRaw, Mat.setRowRaw, Mat.const, Mat.transpose]
        rw [if_pos (by omega)]
        by_cases hkp : (k : Nat) = m.dims.ph
        · rw [hkp, if_pos (by omega), if_pos (by omega)]
          simp only [Nat.sub_zero]
          rw [hu _ b (by omega) hbb]
          unfold NlSpec.inputAt
          rw [show min (m.dims.ph - 1) (m.dims.ch - 1) = min m.dims.ph (m.dims.ch - 1) by omega]
        · rw [if_neg (by omega), if_pos (by omega)]
          simp only [Nat.sub_zero]
          exact hu k b (by omega) hbb
      · dsimp only
        rw [hx]
        unfold Dims.nZ NlSpec.slackIx
        rw [Nat.mul_comm m.dims.ch]; rfl

end
end Mpc
