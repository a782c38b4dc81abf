import Verif.Model.NlRounding
import Verif.Proofs.NlConstraints
import Verif.Spec.NlRounded

/-
Loops which perturb one entry of a matrix, evaluate, and restore it, in rounded arithmetic.
-/
namespace Mpc
open Exec
set_option linter.unusedSectionVars false

variable {K : Type} [Field K] [LinearOrder K] [IsStrictOrderedRing K]

/-! ### Rounding errors of one perturbation -/

namespace Rounding
variable (R : Rounding K)

theorem err_le {x M : K} (h : |x| ≤ M) : |R.rnd x - x| ≤ R.eps * M :=
  (R.err x).trans (mul_le_mul_of_nonneg_left h R.eps_nonneg)

/-- rounding after an error -/
theorem near {x y M E : K} (hx : |x| ≤ M) (h : |y - x| ≤ E) : |R.rnd y - x| ≤ E + R.eps * (M + E) := by
  have h1 : |y| ≤ M + E := by
    have : |y| ≤ |x| + |y - x| := by
      have := abs_add_le x (y - x)
      rwa [add_sub_cancel] at this
    linarith
  have h2 := R.err_le h1
  have h3 : |R.rnd y - x| ≤ |R.rnd y - y| + |y - x| := abs_sub_le _ _ _
  linarith

theorem pos {x : K} (he : R.eps < 1) (hx : 0 < x) : 0 < R.rnd x := by
  have h := R.err x
  rw [abs_of_pos hx, abs_le] at h
  have : 0 < (1 - R.eps) * x := mul_pos (by linarith) hx
  linarith [h.1]

variable {R}

/-- entry after `x + h` -/
theorem plus_near (he : R.eps ≤ 1 / 8) {x h : K} (hh : 0 < h) : |R.rnd (x + h) - (x + h)| ≤ NlSpec.drift R x h := by
  have h0 := R.eps_nonneg
  have h1 : |x + h| ≤ |x| + h := (abs_add_le _ _).trans (by rw [abs_of_pos hh])
  have h2 := R.err_le h1
  have h3 : 0 ≤ R.eps * (|x| + h) := mul_nonneg h0 (by positivity)
  unfold NlSpec.drift
  linarith

/-- entry after `x + h`, then `- h` -/
theorem back_near (he : R.eps ≤ 1 / 8) {x h : K} (hh : 0 < h) :
    |R.rnd (R.rnd (x + h) - h) - x| ≤ NlSpec.drift R x h := by
  have h0 := R.eps_nonneg
  have h1 : |x + h| ≤ |x| + h := (abs_add_le _ _).trans (by rw [abs_of_pos hh])
  have h2 := R.err_le h1
  have h3 : |R.rnd (x + h) - h - x| ≤ R.eps * (|x| + h) := by
    have : R.rnd (x + h) - h - x = R.rnd (x + h) - (x + h) := by ring
    rw [this]; exact h2
  have h4 := R.near (le_refl |x|) h3
  have hs : 0 ≤ |x| + h := by positivity
  have hx : 0 ≤ |x| := abs_nonneg x
  have h5 : R.eps * (|x| + R.eps * (|x| + h)) ≤ R.eps * (2 * (|x| + h)) := by
    refine mul_le_mul_of_nonneg_left ?_ h0
    have : R.eps * (|x| + h) ≤ 1 / 8 * (|x| + h) := mul_le_mul_of_nonneg_right he hs
    linarith
  unfold NlSpec.drift
  linarith [mul_nonneg h0 hs]

/-- entry after `x + h`, then `- 2h` -/
theorem minus_err (he : R.eps ≤ 1 / 8) {x h : K} (hh : 0 < h) :
    |R.rnd (R.rnd (x + h) - R.rnd (2 * h)) - (x - h)| ≤ R.eps * (9 / 4 * |x| + 9 / 2 * h) := by
  have h0 := R.eps_nonneg
  have hx : 0 ≤ |x| := abs_nonneg x
  have h1 : |x + h| ≤ |x| + h := (abs_add_le _ _).trans (by rw [abs_of_pos hh])
  have h2 := R.err_le h1
  have h3 : |R.rnd (2 * h) - 2 * h| ≤ R.eps * (2 * h) := R.err_le (by rw [abs_of_pos (by linarith)])
  have h4 : |R.rnd (x + h) - R.rnd (2 * h) - (x - h)| ≤ R.eps * (|x| + 3 * h) := by
    have e : R.rnd (x + h) - R.rnd (2 * h) - (x - h) = (R.rnd (x + h) - (x + h)) - (R.rnd (2 * h) - 2 * h) := by ring
    rw [e]
    have := abs_sub (R.rnd (x + h) - (x + h)) (R.rnd (2 * h) - 2 * h)
    linarith
  have h5 : |x - h| ≤ |x| + h := (abs_sub _ _).trans (by rw [abs_of_pos hh])
  have h6 := R.near h5 h4
  have h7 : R.eps * (|x| + h + R.eps * (|x| + 3 * h)) ≤ R.eps * (9 / 8 * |x| + 11 / 8 * h) := by
    refine mul_le_mul_of_nonneg_left ?_ h0
    have : R.eps * (|x| + 3 * h) ≤ 1 / 8 * (|x| + 3 * h) := mul_le_mul_of_nonneg_right he (by linarith)
    linarith
  have h8 : 0 ≤ R.eps * |x| := mul_nonneg h0 hx
  have h9 : 0 ≤ R.eps * h := mul_nonneg h0 hh.le
  linarith

theorem minus_near (he : R.eps ≤ 1 / 8) {x h : K} (hh : 0 < h) :
    |R.rnd (R.rnd (x + h) - R.rnd (2 * h)) - (x + -h)| ≤ NlSpec.drift R x h := by
  rw [← sub_eq_add_neg]
  refine (minus_err he hh).trans ?_
  have h0 := R.eps_nonneg
  have hx : 0 ≤ |x| := abs_nonneg x
  unfold NlSpec.drift
  rw [show 6 * R.eps * (|x| + h) = R.eps * (6 * |x| + 6 * h) by ring]
  exact mul_le_mul_of_nonneg_left (by linarith) h0

/-- entry after `x + h`, `- 2h`, `+ h` -/
theorem round_trip (he : R.eps ≤ 1 / 8) {x h : K} (hh : 0 < h) :
    |R.rnd (R.rnd (R.rnd (x + h) - R.rnd (2 * h)) + h) - x| ≤ NlSpec.drift R x h := by
  have h0 := R.eps_nonneg
  have hx : 0 ≤ |x| := abs_nonneg x
  have h1 : |R.rnd (R.rnd (x + h) - R.rnd (2 * h)) + h - x| ≤ R.eps * (9 / 4 * |x| + 9 / 2 * h) := by
    have e : R.rnd (R.rnd (x + h) - R.rnd (2 * h)) + h - x = R.rnd (R.rnd (x + h) - R.rnd (2 * h)) - (x - h) := by ring
    rw [e]; exact minus_err he hh
  have h2 := R.near (le_refl |x|) h1
  have h3 : R.eps * (|x| + R.eps * (9 / 4 * |x| + 9 / 2 * h)) ≤ R.eps * (41 / 32 * |x| + 9 / 16 * h) := by
    refine mul_le_mul_of_nonneg_left ?_ h0
    have : R.eps * (9 / 4 * |x| + 9 / 2 * h) ≤ 1 / 8 * (9 / 4 * |x| + 9 / 2 * h) :=
      mul_le_mul_of_nonneg_right he (by linarith)
    linarith
  refine h2.trans ?_
  unfold NlSpec.drift
  have h8 : 0 ≤ R.eps * |x| := mul_nonneg h0 hx
  have h9 : 0 ≤ R.eps * h := mul_nonneg h0 hh.le
  linarith

end Rounding

/-! ### Matrices which differ by rounding errors -/

/-- same sizes, entries within `ρ` -/
structure Mat.Near (ρ : Nat → Nat → K) (X Y : Mat K) : Prop where
  rows : Y.rows = X.rows
  cols : Y.cols = X.cols
  near : ∀ k l, |Y.get k l - X.get k l| ≤ ρ k l

theorem Mat.Near.refl {ρ : Nat → Nat → K} (h : ∀ k l, 0 ≤ ρ k l) (X : Mat K) : Mat.Near ρ X X :=
  ⟨rfl, rfl, fun k l => by rw [sub_self, abs_zero]; exact h k l⟩

theorem Mat.Near.view {ρ : Nat → Nat → K} {X Y : Mat K} (h : Mat.Near ρ X Y) (r c : Nat) :
    NlSpec.Near ρ (X.viewF r c) (Y.viewF r c) := fun k a => h.near k a

/-- setting one entry of a near matrix, next to a perturbation of the reference -/
theorem Mat.Near.set {ρ : Nat → Nat → K} {X Y : Mat K} (h : Mat.Near ρ X Y) (i j : Nat) {v t : K}
    (hv : |v - (X.get i j + t)| ≤ ρ i j) : Mat.Near ρ (X.bumpM i j t) (Y.setRaw i j v) := by
  refine ⟨h.rows, h.cols, fun k l => ?_⟩
  simp only [Mat.bumpM, Mat.setRaw]
  split_ifs with hk
  · obtain ⟨rfl, rfl⟩ := hk; exact hv
  · exact h.near k l

theorem Mat.Near.set0 {ρ : Nat → Nat → K} {X Y : Mat K} (h : Mat.Near ρ X Y) (i j : Nat) {v : K}
    (hv : |v - X.get i j| ≤ ρ i j) : Mat.Near ρ X (Y.setRaw i j v) := by
  have := h.set i j (v := v) (t := 0) (by rwa [add_zero])
  rwa [Mat.bumpM_zero] at this

/-- `(v - w) / h` -/
theorem Vec.subDivR_ok {rnd : K → K} {v w : Vec K} {h : K} (e : v.size = w.size) :
    v.subDivR rnd w h = .ok ⟨v.size, fun i => rnd (rnd (v.get i - w.get i) / h)⟩ := by
  unfold Vec.subDivR; rw [require_ok e, ok_bind]; rfl

theorem Mat.setColIn_ok {m : Mat K} {c0 w j : Nat} {v : Vec K} (h : c0 + w ≤ m.cols) (hj : j < w) (hv : v.size = m.rows) :
    m.setColIn c0 w j v = .ok (m.setColRaw (c0 + j) v.get) := by
  unfold Mat.setColIn
  rw [require_ok ⟨h, hj⟩, ok_bind, Mat.setCol_ok (by omega) hv]

theorem Mat.setRaw_get_ne (X : Mat K) {i j i' j' : Nat} (a : K) (h : ¬ (i' = i ∧ j' = j)) :
    (X.setRaw i j a).get i' j' = X.get i' j' := by simp only [Mat.setRaw]; rw [if_neg h]

section
variable (R : Rounding K)

/-- The loop of central differences over the entries of rows `off .. off+n-1`, rounded. -/
theorem central_loopR (he : R.eps ≤ 1 / 8) (call : Mat K → Exec (Vec K)) (F : Mat K → Vec K) (q n m off : Nat) (X X1 J0 : Mat K)
    (step : Nat → Nat → Exec K) (δ : Nat → Nat → K) (ρ : Nat → Nat → K)
    (h1 : Mat.Near ρ X X1) (h1e : ∀ k l, off ≤ k → k < off + n → X1.get k l = X.get k l)
    (hX : n + off ≤ X.rows) (hXc : X.cols = m) (hJr : J0.rows = q) (hJc : n * m ≤ J0.cols)
    (hstep : ∀ i j, i < n → j < m → step i j = .ok (δ i j))
    (hpos : ∀ i j, i < n → j < m → 0 < R.rnd (R.rnd Constraints.dv * δ i j))
    (hρ : ∀ i j, i < n → j < m → NlSpec.drift R (X.get (i + off) j) (R.rnd (R.rnd Constraints.dv * δ i j)) ≤ ρ (i + off) j)
    (hcall : ∀ Y : Mat K, Y.rows = X.rows → Y.cols = X.cols → call Y = .ok (F Y) ∧ (F Y).size = q) :
    Post (forRange n (X1, J0) fun i s => forRange m s fun j s => do
      let dx := R.rnd (R.rnd Constraints.dv * (← step i j))
      let x0 ← s.1.set (i + off) j (R.rnd ((← s.1.at? (i + off) j) + dx))
      let fp ← call x0
      let x0 ← x0.set (i + off) j (R.rnd ((← x0.at? (i + off) j) - R.rnd (2 * dx)))
      let fm ← call x0
      let x0 ← x0.set (i + off) j (R.rnd ((← x0.at? (i + off) j) + dx))
      let df ← fp.subDivR R.rnd fm (R.rnd (2 * dx))
      let J ← s.2.setColIn (i * m) m j df
      return (x0, J))
    (fun s => Mat.Near ρ X s.1 ∧ (∀ k l, (k < off ∨ off + n ≤ k) → s.1.get k l = X1.get k l) ∧
      s.2.rows = q ∧ s.2.cols = J0.cols ∧
      (∀ i j, i < n → j < m → ∃ Yp Ym,
        Mat.Near ρ (X.bumpM (i + off) j (R.rnd (R.rnd Constraints.dv * δ i j))) Yp ∧
        Mat.Near ρ (X.bumpM (i + off) j (-R.rnd (R.rnd Constraints.dv * δ i j))) Ym ∧
        (∀ k l, ¬ (k = i + off ∧ l = j) → Yp.get k l = Ym.get k l) ∧
        ∀ c, s.2.get c (i * m + j) = R.rnd (R.rnd ((F Yp).get c - (F Ym).get c)
          / R.rnd (2 * R.rnd (R.rnd Constraints.dv * δ i j)))) ∧
      (∀ c l, n * m ≤ l → s.2.get c l = J0.get c l) ∧
      (∀ i j, i < n → j < m → s.1.get (i + off) j = R.rnd (R.rnd (R.rnd (X.get (i + off) j + R.rnd (R.rnd Constraints.dv * δ i j)) - R.rnd (2 * R.rnd (R.rnd Constraints.dv * δ i j))) + R.rnd (R.rnd Constraints.dv * δ i j)))) := by
  refine (forRange2_post n m _ _ (fun i j s => Mat.Near ρ X s.1 ∧
      (∀ k l, (k < off ∨ off + n ≤ k) → s.1.get k l = X1.get k l) ∧
      (∀ k l, off ≤ k → k < off + n → (i + off < k ∨ (k = i + off ∧ j ≤ l)) → s.1.get k l = X.get k l) ∧
      s.2.rows = q ∧ s.2.cols = J0.cols ∧
      (∀ i' j', j' < m → (i' < i ∨ (i' = i ∧ j' < j)) → i' < n → ∃ Yp Ym,
        Mat.Near ρ (X.bumpM (i' + off) j' (R.rnd (R.rnd Constraints.dv * δ i' j'))) Yp ∧
        Mat.Near ρ (X.bumpM (i' + off) j' (-R.rnd (R.rnd Constraints.dv * δ i' j'))) Ym ∧
        (∀ k l, ¬ (k = i' + off ∧ l = j') → Yp.get k l = Ym.get k l) ∧
        ∀ c, s.2.get c (i' * m + j') = R.rnd (R.rnd ((F Yp).get c - (F Ym).get c)
          / R.rnd (2 * R.rnd (R.rnd Constraints.dv * δ i' j')))) ∧
      (∀ c l, n * m ≤ l → s.2.get c l = J0.get c l) ∧
      (∀ i' j', j' < m → (i' < i ∨ (i' = i ∧ j' < j)) → i' < n → s.1.get (i' + off) j' = R.rnd (R.rnd (R.rnd (X.get (i' + off) j' + R.rnd (R.rnd Constraints.dv * δ i' j')) - R.rnd (2 * R.rnd (R.rnd Constraints.dv * δ i' j'))) + R.rnd (R.rnd Constraints.dv * δ i' j')))) ?_ ?_ ?_).mono ?_
  · exact ⟨h1, fun _ _ _ => rfl, fun k l a b _ => h1e k l a b, hJr, rfl, fun i' j' _ h => by omega, fun _ _ _ => rfl, fun i' j' _ h => by omega⟩
  · rintro i j ⟨Y, J⟩ hi hj ⟨k1, k2, k3, k4, k5, k6, k7, k8⟩
    dsimp only at k1 k2 k3 k4 k5 k6 k7 k8 ⊢
    have hend : i * m + m ≤ n * m := block_end_le hi
    rw [hstep i j hi hj, ok_bind]
    generalize hh : R.rnd (R.rnd Constraints.dv * δ i j) = h
    have hp : 0 < h := by rw [← hh]; exact hpos i j hi hj
    have hr : NlSpec.drift R (X.get (i + off) j) h ≤ ρ (i + off) j := by rw [← hh]; exact hρ i j hi hj
    have hri : i + off < Y.rows := by rw [k1.rows]; omega
    have hcj : j < Y.cols := by rw [k1.cols]; omega
    have hget : Y.get (i + off) j = X.get (i + off) j := k3 _ _ (by omega) (by omega) (Or.inr ⟨rfl, le_refl j⟩)
    rw [Mat.at_ok hri hcj, ok_bind, Mat.set_ok hri hcj, ok_bind, (hcall _ (by exact k1.rows) (by exact k1.cols)).1, ok_bind,
      Mat.at_ok (by exact hri) (by exact hcj), ok_bind, Mat.set_ok (by exact hri) (by exact hcj), ok_bind,
      Mat.setRaw_get_self, Mat.setRaw_setRaw, (hcall _ (by exact k1.rows) (by exact k1.cols)).1, ok_bind,
      Mat.at_ok (by exact hri) (by exact hcj), ok_bind, Mat.set_ok (by exact hri) (by exact hcj), ok_bind,
      Mat.setRaw_get_self, Mat.setRaw_setRaw, hget]
    have hYp := k1.set (i + off) j (v := R.rnd (X.get (i + off) j + h)) (t := h) ((Rounding.plus_near he hp).trans hr)
    have hYm := k1.set (i + off) j (v := R.rnd (R.rnd (X.get (i + off) j + h) - R.rnd (2 * h))) (t := -h)
      ((Rounding.minus_near he hp).trans hr)
    have hY0 := k1.set0 (i + off) j (v := R.rnd (R.rnd (R.rnd (X.get (i + off) j + h) - R.rnd (2 * h)) + h))
      ((Rounding.round_trip he hp).trans hr)
    have s1 := (hcall _ (hYp.rows) (hYp.cols)).2
    have s2 := (hcall _ (hYm.rows) (hYm.cols)).2
    rw [Vec.subDivR_ok (s1.trans s2.symm), ok_bind,
      Mat.setColIn_ok (by omega) hj (by dsimp only; rw [s1, k4]), ok_bind]
    refine post_pure ⟨hY0, ?_, ?_, k4, k5, ?_, ?_, ?_⟩
    · intro k l hk
      simp only [Mat.setRaw]
      rw [if_neg (by omega)]; exact k2 k l hk
    · intro k l ha hb hk
      simp only [Mat.setRaw]
      rw [if_neg (by omega)]; exact k3 k l ha hb (by omega)
    · intro i' j' hj' hlt hi'
      by_cases hE : i' = i ∧ j' = j
      · obtain ⟨rfl, rfl⟩ := hE
        rw [hh]
        refine ⟨_, _, hYp, hYm, fun k l hkl => by rw [Mat.setRaw_get_ne _ _ hkl, Mat.setRaw_get_ne _ _ hkl], fun c => ?_⟩
        simp only [Mat.setColRaw, if_true]
      · obtain ⟨Yp, Ym, p1, p2, p4, p3⟩ := k6 i' j' hj' (by omega) hi'
        refine ⟨Yp, Ym, p1, p2, p4, fun c => ?_⟩
        simp only [Mat.setColRaw]
        rw [if_neg (by rw [block_eq_iff hj' hj]; exact hE)]
        exact p3 c
    · intro c l hl
      simp only [Mat.setColRaw]
      rw [if_neg (by omega)]
      exact k7 c l hl
    · intro i' j' hj' hlt hi'
      by_cases hE : i' = i ∧ j' = j
      · obtain ⟨rfl, rfl⟩ := hE
        rw [hh]
        exact Mat.setRaw_get_self _ _ _ _
      · rw [Mat.setRaw_get_ne _ _ (by omega)]
        exact k8 i' j' hj' (by omega) hi'
  · rintro i ⟨Y, J⟩ hi ⟨k1, k2, k3, k4, k5, k6, k7, k8⟩
    refine ⟨k1, k2, fun k l a b h => k3 k l a b ?_, k4, k5, ?_, k7, ?_⟩
    · rcases h with h | h
      · exact Or.inl (by omega)
      · exact Or.inl (by omega)
    · intro i' j' hj' h hi'
      refine k6 i' j' hj' ?_ hi'
      rcases h with h | h
      · rcases Nat.lt_succ_iff_lt_or_eq.1 h with h | h
        · exact Or.inl h
        · exact Or.inr ⟨h, hj'⟩
      · omega
    · intro i' j' hj' h hi'
      refine k8 i' j' hj' ?_ hi'
      rcases h with h | h
      · rcases Nat.lt_succ_iff_lt_or_eq.1 h with h | h
        · exact Or.inl h
        · exact Or.inr ⟨h, hj'⟩
      · omega
  · rintro ⟨Y, J⟩ ⟨k1, k2, k3, k4, k5, k6, k7, k8⟩
    exact ⟨k1, k2, k4, k5, fun i j hi hj => k6 i j hj (Or.inl hi) hi, k7, fun i j hi hj => k8 i j hj (Or.inl hi) hi⟩

/-- both rows of a perturbation of two rows -/
theorem Mat.Near.set2 {ρ : Nat → Nat → K} {X Y : Mat K} (h : Mat.Near ρ X Y) {p p' : Nat} (hpp : p ≠ p') (j : Nat) {v v' t : K}
    (hv : |v - (X.get p j + t)| ≤ ρ p j) (hv' : |v' - (X.get p' j + t)| ≤ ρ p' j) :
    Mat.Near ρ (X.bump2 p p' j t) ((Y.setRaw p j v).setRaw p' j v') := by
  unfold Mat.bump2
  refine (h.set p j hv).set p' j ?_
  have : (X.bumpM p j t).get p' j = X.get p' j := by
    simp only [Mat.bumpM, Mat.setRaw]
    rw [if_neg (fun e => hpp e.1.symm)]
  rwa [this]

theorem Mat.Near.set20 {ρ : Nat → Nat → K} {X Y : Mat K} (h : Mat.Near ρ X Y) {p p' : Nat} (hpp : p ≠ p') (j : Nat) {v v' : K}
    (hv : |v - X.get p j| ≤ ρ p j) (hv' : |v' - X.get p' j| ≤ ρ p' j) :
    Mat.Near ρ X ((Y.setRaw p j v).setRaw p' j v') := by
  have := h.set2 hpp j (v := v) (v' := v') (t := 0) (by rwa [add_zero]) (by rwa [add_zero])
  rwa [Mat.bump2_zero] at this

theorem Mat.setRaw_swap (X : Mat K) {p p' : Nat} (h : p ≠ p') (j : Nat) (a b c : K) :
    ((X.setRaw p j a).setRaw p' j b).setRaw p j c = (X.setRaw p j c).setRaw p' j b := by
  simp only [Mat.setRaw, Mat.mk.injEq, true_and]
  funext k l
  by_cases h1 : k = p ∧ l = j
  · rw [if_pos h1, if_neg (by rintro ⟨e, -⟩; exact h (h1.1.symm.trans e)), if_pos h1]
  · rw [if_neg h1, if_neg h1, if_neg h1]

/-- `x(p, j) = a; x(p', j) = b` once more -/
theorem Mat.setRaw2_again (X : Mat K) {p p' : Nat} (h : p ≠ p') (j : Nat) (a b a' b' : K) :
    (((X.setRaw p j a).setRaw p' j b).setRaw p j a').setRaw p' j b' = (X.setRaw p j a').setRaw p' j b' := by
  rw [Mat.setRaw_swap X h, Mat.setRaw_setRaw]

/-- `x(p, j) = g(x(p, j)); x(p', j) = g(x(p', j))` -/
theorem Mat.update2 (X : Mat K) {p p' j : Nat} (h : p ≠ p') (hp : p < X.rows) (hp' : p' < X.rows) (hj : j < X.cols)
    (g : K → K) {β : Type} (k : Mat K → Exec β) :
    (do
      let a ← X.at? p j
      let Y ← X.set p j (g a)
      let b ← Y.at? p' j
      let Z ← Y.set p' j (g b)
      k Z) = k ((X.setRaw p j (g (X.get p j))).setRaw p' j (g (X.get p' j))) := by
  rw [Mat.at_ok hp hj, ok_bind, Mat.set_ok hp hj, ok_bind, Mat.at_ok (by exact hp') (by exact hj), ok_bind,
    Mat.set_ok (by exact hp') (by exact hj), ok_bind, Mat.setRaw_get_ne X _ (fun e => h e.1.symm)]

theorem Mat.get2_fst (X : Mat K) {p p' : Nat} (h : p ≠ p') (j : Nat) (a b : K) :
    ((X.setRaw p j a).setRaw p' j b).get p j = a := by
  rw [Mat.setRaw_get_ne _ _ (fun e => h e.1), Mat.setRaw_get_self]

theorem Mat.get2_snd (X : Mat K) (p p' : Nat) (j : Nat) (a b : K) :
    ((X.setRaw p j a).setRaw p' j b).get p' j = b := Mat.setRaw_get_self _ _ _ _

/-- Central differences of the last input, which moves two rows, rounded. -/
theorem central_last_loopR (he : R.eps ≤ 1 / 8) (call : Mat K → Exec (Vec K)) (F : Mat K → Vec K) (q m p p' c0 : Nat)
    (X X1 J0 : Mat K) (step : Nat → Exec K) (δ : Nat → K) (ρ : Nat → Nat → K) (hpp : p ≠ p')
    (h1 : Mat.Near ρ X X1) (h1e : ∀ k l, (k = p ∨ k = p') → X1.get k l = X.get k l)
    (hp : p < X.rows) (hp' : p' < X.rows) (hXc : X.cols = m) (hJr : J0.rows = q) (hJc : c0 + m ≤ J0.cols)
    (hstep : ∀ j, j < m → step j = .ok (δ j))
    (hpos : ∀ j, j < m → 0 < R.rnd (R.rnd Constraints.dv * δ j))
    (hρ : ∀ j, j < m → NlSpec.drift R (X.get p j) (R.rnd (R.rnd Constraints.dv * δ j)) ≤ ρ p j)
    (hρ' : ∀ j, j < m → NlSpec.drift R (X.get p' j) (R.rnd (R.rnd Constraints.dv * δ j)) ≤ ρ p' j)
    (hcall : ∀ Y : Mat K, Y.rows = X.rows → Y.cols = X.cols → call Y = .ok (F Y) ∧ (F Y).size = q) :
    Post (forRange m (X1, J0) fun j s => do
      let du := R.rnd (R.rnd Constraints.dv * (← step j))
      let u0 ← s.1.set p j (R.rnd ((← s.1.at? p j) + du))
      let u0 ← u0.set p' j (R.rnd ((← u0.at? p' j) + du))
      let fp ← call u0
      let u0 ← u0.set p j (R.rnd ((← u0.at? p j) - R.rnd (2 * du)))
      let u0 ← u0.set p' j (R.rnd ((← u0.at? p' j) - R.rnd (2 * du)))
      let fm ← call u0
      let u0 ← u0.set p j (R.rnd ((← u0.at? p j) + du))
      let u0 ← u0.set p' j (R.rnd ((← u0.at? p' j) + du))
      let df ← fp.subDivR R.rnd fm (R.rnd (2 * du))
      let J ← s.2.setColIn c0 m j df
      return (u0, J))
    (fun s => Mat.Near ρ X s.1 ∧ s.2.rows = q ∧ s.2.cols = J0.cols ∧
      (∀ j, j < m → ∃ Yp Ym,
        Mat.Near ρ (X.bump2 p p' j (R.rnd (R.rnd Constraints.dv * δ j))) Yp ∧
        Mat.Near ρ (X.bump2 p p' j (-R.rnd (R.rnd Constraints.dv * δ j))) Ym ∧
        (∀ k l, ¬ ((k = p ∨ k = p') ∧ l = j) → Yp.get k l = Ym.get k l) ∧
        ∀ c, s.2.get c (c0 + j) = R.rnd (R.rnd ((F Yp).get c - (F Ym).get c)
          / R.rnd (2 * R.rnd (R.rnd Constraints.dv * δ j)))) ∧
      (∀ c l, l < c0 → s.2.get c l = J0.get c l)) := by
  refine (forRange_post (σ := Mat K × Mat K) m _ _ (fun j s => Mat.Near ρ X s.1 ∧
      (∀ k l, (k = p ∨ k = p') → j ≤ l → s.1.get k l = X.get k l) ∧ s.2.rows = q ∧ s.2.cols = J0.cols ∧
      (∀ j', j' < j → j' < m → ∃ Yp Ym,
        Mat.Near ρ (X.bump2 p p' j' (R.rnd (R.rnd Constraints.dv * δ j'))) Yp ∧
        Mat.Near ρ (X.bump2 p p' j' (-R.rnd (R.rnd Constraints.dv * δ j'))) Ym ∧
        (∀ k l, ¬ ((k = p ∨ k = p') ∧ l = j') → Yp.get k l = Ym.get k l) ∧
        ∀ c, s.2.get c (c0 + j') = R.rnd (R.rnd ((F Yp).get c - (F Ym).get c)
          / R.rnd (2 * R.rnd (R.rnd Constraints.dv * δ j')))) ∧
      (∀ c l, l < c0 → s.2.get c l = J0.get c l))
    ⟨h1, fun k l a _ => h1e k l a, hJr, rfl, fun _ h => by omega, fun _ _ _ => rfl⟩ ?_).mono ?_
  · rintro j ⟨Y, J⟩ hj ⟨k1, k2, k4, k5, k6, k7⟩
    dsimp only at k1 k2 k4 k5 k6 k7 ⊢
    rw [hstep j hj, ok_bind]
    generalize hh : R.rnd (R.rnd Constraints.dv * δ j) = h
    have hpo : 0 < h := by rw [← hh]; exact hpos j hj
    have hr : NlSpec.drift R (X.get p j) h ≤ ρ p j := by rw [← hh]; exact hρ j hj
    have hr' : NlSpec.drift R (X.get p' j) h ≤ ρ p' j := by rw [← hh]; exact hρ' j hj
    have a1 : p < Y.rows := by rw [k1.rows]; exact hp
    have a2 : p' < Y.rows := by rw [k1.rows]; exact hp'
    have hcj : j < Y.cols := by rw [k1.cols]; omega
    have g1 : Y.get p j = X.get p j := k2 _ _ (Or.inl rfl) (le_refl j)
    have g2 : Y.get p' j = X.get p' j := k2 _ _ (Or.inr rfl) (le_refl j)
    rw [Mat.update2 Y hpp a1 a2 hcj (fun a => R.rnd (a + h)), (hcall _ (by exact k1.rows) (by exact k1.cols)).1, ok_bind,
      Mat.update2 _ hpp (by exact a1) (by exact a2) (by exact hcj) (fun a => R.rnd (a - R.rnd (2 * h))),
      Mat.get2_fst _ hpp, Mat.get2_snd, Mat.setRaw2_again _ hpp,
      (hcall _ (by exact k1.rows) (by exact k1.cols)).1, ok_bind,
      Mat.update2 _ hpp (by exact a1) (by exact a2) (by exact hcj) (fun a => R.rnd (a + h)),
      Mat.get2_fst _ hpp, Mat.get2_snd, Mat.setRaw2_again _ hpp, g1, g2]
    have hYp := k1.set2 hpp j (v := R.rnd (X.get p j + h)) (v' := R.rnd (X.get p' j + h)) (t := h)
      ((Rounding.plus_near he hpo).trans hr) ((Rounding.plus_near he hpo).trans hr')
    have hYm := k1.set2 hpp j (v := R.rnd (R.rnd (X.get p j + h) - R.rnd (2 * h)))
      (v' := R.rnd (R.rnd (X.get p' j + h) - R.rnd (2 * h))) (t := -h)
      ((Rounding.minus_near he hpo).trans hr) ((Rounding.minus_near he hpo).trans hr')
    have hY0 := k1.set20 hpp j (v := R.rnd (R.rnd (R.rnd (X.get p j + h) - R.rnd (2 * h)) + h))
      (v' := R.rnd (R.rnd (R.rnd (X.get p' j + h) - R.rnd (2 * h)) + h))
      ((Rounding.round_trip he hpo).trans hr) ((Rounding.round_trip he hpo).trans hr')
    have s1 := (hcall _ (hYp.rows) (hYp.cols)).2
    have s2 := (hcall _ (hYm.rows) (hYm.cols)).2
    rw [Vec.subDivR_ok (s1.trans s2.symm), ok_bind,
      Mat.setColIn_ok (by omega) hj (by dsimp only; rw [s1, k4]), ok_bind]
    refine post_pure ⟨hY0, ?_, k4, k5, ?_, ?_⟩
    · intro k l hk hl
      simp only [Mat.setRaw]
      rw [if_neg (by omega), if_neg (by omega)]; exact k2 k l hk (by omega)
    · intro j' hlt hj'
      by_cases hE : j' = j
      · subst hE
        rw [hh]
        refine ⟨_, _, hYp, hYm, fun k l hkl => ?_, fun c => ?_⟩
        · rw [Mat.setRaw_get_ne _ _ (by tauto), Mat.setRaw_get_ne _ _ (by tauto), Mat.setRaw_get_ne _ _ (by tauto),
            Mat.setRaw_get_ne _ _ (by tauto)]
        simp only [Mat.setColRaw, if_true]
      · obtain ⟨Yp, Ym, p1, p2, p4, p3⟩ := k6 j' (by omega) hj'
        refine ⟨Yp, Ym, p1, p2, p4, fun c => ?_⟩
        simp only [Mat.setColRaw]
        rw [if_neg (by omega)]
        exact p3 c
    · intro c l hl
      simp only [Mat.setColRaw]
      rw [if_neg (by omega)]
      exact k7 c l hl
  · rintro ⟨Y, J⟩ ⟨k1, k2, k4, k5, k6, k7⟩
    exact ⟨k1, k4, k5, fun j hj => k6 j hj hj, k7⟩

/-! ### Forward differences of a scalar function (objective) -/

/-- The loop of forward differences over the entries of rows `off .. off+n-1`, rounded. -/
theorem forward_loopR (he : R.eps ≤ 1 / 8) (call : Mat K → Exec K) (F : Mat K → K) (n m off : Nat) (X X1 J0 : Mat K) (dv f0 : K)
    (step : Nat → Nat → Exec K) (δ : Nat → Nat → K) (ρ : Nat → Nat → K)
    (h1 : Mat.Near ρ X X1) (h1e : ∀ k l, off ≤ k → k < off + n → X1.get k l = X.get k l)
    (hX : n + off ≤ X.rows) (hXc : X.cols = m) (hJr : J0.rows = m) (hJc : n ≤ J0.cols)
    (hstep : ∀ i j, i < n → j < m → step i j = .ok (δ i j))
    (hpos : ∀ i j, i < n → j < m → 0 < R.rnd (dv * δ i j))
    (hρ : ∀ i j, i < n → j < m → NlSpec.drift R (X.get (i + off) j) (R.rnd (dv * δ i j)) ≤ ρ (i + off) j)
    (hcall : ∀ Y : Mat K, Y.rows = X.rows → Y.cols = X.cols → call Y = .ok (F Y)) :
    Post (forRange n (X1, J0) fun i s => forRange m s fun j s => do
      let dx := R.rnd (dv * (← step i j))
      let x0 ← s.1.set (i + off) j (R.rnd ((← s.1.at? (i + off) j) + dx))
      let v ← call x0
      let x0 ← x0.set (i + off) j (R.rnd ((← x0.at? (i + off) j) - dx))
      let J ← s.2.set j i (R.rnd (R.rnd (v - f0) / dx))
      return (x0, J))
    (fun s => Mat.Near ρ X s.1 ∧ (∀ k l, (k < off ∨ off + n ≤ k) → s.1.get k l = X1.get k l) ∧
      s.2.rows = m ∧ s.2.cols = J0.cols ∧
      (∀ i j, i < n → j < m → ∃ Yp, Mat.Near ρ (X.bumpM (i + off) j (R.rnd (dv * δ i j))) Yp ∧
        s.2.get j i = R.rnd (R.rnd (F Yp - f0) / R.rnd (dv * δ i j))) ∧
      (∀ j i, n ≤ i → s.2.get j i = J0.get j i) ∧
      (∀ i j, i < n → j < m → s.1.get (i + off) j = R.rnd (R.rnd (X.get (i + off) j + R.rnd (dv * δ i j)) - R.rnd (dv * δ i j)))) := by
  refine (forRange2_post n m _ _ (fun i j s => Mat.Near ρ X s.1 ∧
      (∀ k l, (k < off ∨ off + n ≤ k) → s.1.get k l = X1.get k l) ∧
      (∀ k l, off ≤ k → k < off + n → (i + off < k ∨ (k = i + off ∧ j ≤ l)) → s.1.get k l = X.get k l) ∧
      s.2.rows = m ∧ s.2.cols = J0.cols ∧
      (∀ i' j', j' < m → (i' < i ∨ (i' = i ∧ j' < j)) → i' < n → ∃ Yp,
        Mat.Near ρ (X.bumpM (i' + off) j' (R.rnd (dv * δ i' j'))) Yp ∧
        s.2.get j' i' = R.rnd (R.rnd (F Yp - f0) / R.rnd (dv * δ i' j'))) ∧
      (∀ j i, n ≤ i → s.2.get j i = J0.get j i) ∧
      (∀ i' j', j' < m → (i' < i ∨ (i' = i ∧ j' < j)) → i' < n → s.1.get (i' + off) j' = R.rnd (R.rnd (X.get (i' + off) j' + R.rnd (dv * δ i' j')) - R.rnd (dv * δ i' j')))) ?_ ?_ ?_).mono ?_
  · exact ⟨h1, fun _ _ _ => rfl, fun k l a b _ => h1e k l a b, hJr, rfl, fun i' j' _ h => by omega, fun _ _ _ => rfl, fun i' j' _ h => by omega⟩
  · rintro i j ⟨Y, J⟩ hi hj ⟨k1, k2, k3, k4, k5, k6, k7, k8⟩
    dsimp only at k1 k2 k3 k4 k5 k6 k7 k8 ⊢
    rw [hstep i j hi hj, ok_bind]
    generalize hh : R.rnd (dv * δ i j) = h
    have hp : 0 < h := by rw [← hh]; exact hpos i j hi hj
    have hr : NlSpec.drift R (X.get (i + off) j) h ≤ ρ (i + off) j := by rw [← hh]; exact hρ i j hi hj
    have hri : i + off < Y.rows := by rw [k1.rows]; omega
    have hcj : j < Y.cols := by rw [k1.cols]; omega
    have hget : Y.get (i + off) j = X.get (i + off) j := k3 _ _ (by omega) (by omega) (Or.inr ⟨rfl, le_refl j⟩)
    rw [Mat.at_ok hri hcj, ok_bind, Mat.set_ok hri hcj, ok_bind, hcall _ (by exact k1.rows) (by exact k1.cols), ok_bind,
      Mat.at_ok (by exact hri) (by exact hcj), ok_bind, Mat.set_ok (by exact hri) (by exact hcj), ok_bind,
      Mat.setRaw_get_self, Mat.setRaw_setRaw, hget, Mat.set_ok (by omega) (by omega), ok_bind]
    have hYp := k1.set (i + off) j (v := R.rnd (X.get (i + off) j + h)) (t := h) ((Rounding.plus_near he hp).trans hr)
    have hY0 := k1.set0 (i + off) j (v := R.rnd (R.rnd (X.get (i + off) j + h) - h))
      ((Rounding.back_near he hp).trans hr)
    refine post_pure ⟨hY0, ?_, ?_, k4, k5, ?_, ?_, ?_⟩
    · intro k l hk
      simp only [Mat.setRaw]
      rw [if_neg (by omega)]; exact k2 k l hk
    · intro k l ha hb hk
      simp only [Mat.setRaw]
      rw [if_neg (by omega)]; exact k3 k l ha hb (by omega)
    · intro i' j' hj' hlt hi'
      by_cases hE : i' = i ∧ j' = j
      · obtain ⟨rfl, rfl⟩ := hE
        rw [hh]
        exact ⟨_, hYp, Mat.setRaw_get_self _ _ _ _⟩
      · obtain ⟨Yp, p1, p3⟩ := k6 i' j' hj' (by omega) hi'
        refine ⟨Yp, p1, ?_⟩
        rw [← p3]
        exact Mat.setRaw_get_ne _ _ (fun e => hE ⟨e.2, e.1⟩)
    · intro j' i' hl
      simp only [Mat.setRaw]
      rw [if_neg (by omega)]
      exact k7 j' i' hl
    · intro i' j' hj' hlt hi'
      by_cases hE : i' = i ∧ j' = j
      · obtain ⟨rfl, rfl⟩ := hE
        rw [hh]
        exact Mat.setRaw_get_self _ _ _ _
      · rw [Mat.setRaw_get_ne _ _ (by omega)]
        exact k8 i' j' hj' (by omega) hi'
  · rintro i ⟨Y, J⟩ hi ⟨k1, k2, k3, k4, k5, k6, k7, k8⟩
    refine ⟨k1, k2, fun k l a b h => k3 k l a b ?_, k4, k5, ?_, k7, ?_⟩
    · rcases h with h | h
      · exact Or.inl (by omega)
      · exact Or.inl (by omega)
    · intro i' j' hj' h hi'
      refine k6 i' j' hj' ?_ hi'
      rcases h with h | h
      · rcases Nat.lt_succ_iff_lt_or_eq.1 h with h | h
        · exact Or.inl h
        · exact Or.inr ⟨h, hj'⟩
      · omega
    · intro i' j' hj' h hi'
      refine k8 i' j' hj' ?_ hi'
      rcases h with h | h
      · rcases Nat.lt_succ_iff_lt_or_eq.1 h with h | h
        · exact Or.inl h
        · exact Or.inr ⟨h, hj'⟩
      · omega
  · rintro ⟨Y, J⟩ ⟨k1, k2, k3, k4, k5, k6, k7, k8⟩
    exact ⟨k1, k2, k4, k5, fun i j hi hj => k6 i j hj (Or.inl hi) hi, k7, fun i j hi hj => k8 i j hj (Or.inl hi) hi⟩

/-- Forward differences of the last input, which moves two rows, rounded. -/
theorem forward_last_loopR (he : R.eps ≤ 1 / 8) (call : Mat K → Exec K) (F : Mat K → K) (m p p' cc : Nat)
    (X X1 J0 : Mat K) (dv f0 : K) (step : Nat → Exec K) (δ : Nat → K) (ρ : Nat → Nat → K) (hpp : p ≠ p')
    (h1 : Mat.Near ρ X X1) (h1e : ∀ k l, (k = p ∨ k = p') → X1.get k l = X.get k l)
    (hp : p < X.rows) (hp' : p' < X.rows) (hXc : X.cols = m) (hJr : J0.rows = m) (hJc : cc < J0.cols)
    (hstep : ∀ j, j < m → step j = .ok (δ j))
    (hpos : ∀ j, j < m → 0 < R.rnd (dv * δ j))
    (hρ : ∀ j, j < m → NlSpec.drift R (X.get p j) (R.rnd (dv * δ j)) ≤ ρ p j)
    (hρ' : ∀ j, j < m → NlSpec.drift R (X.get p' j) (R.rnd (dv * δ j)) ≤ ρ p' j)
    (hcall : ∀ Y : Mat K, Y.rows = X.rows → Y.cols = X.cols → call Y = .ok (F Y)) :
    Post (forRange m (X1, J0) fun j s => do
      let du := R.rnd (dv * (← step j))
      let u0 ← s.1.set p j (R.rnd ((← s.1.at? p j) + du))
      let u0 ← u0.set p' j (R.rnd ((← u0.at? p' j) + du))
      let v ← call u0
      let u0 ← u0.set p j (R.rnd ((← u0.at? p j) - du))
      let u0 ← u0.set p' j (R.rnd ((← u0.at? p' j) - du))
      let J ← s.2.set j cc (R.rnd (R.rnd (v - f0) / du))
      return (u0, J))
    (fun s => Mat.Near ρ X s.1 ∧ s.2.rows = m ∧ s.2.cols = J0.cols ∧
      (∀ j, j < m → ∃ Yp, Mat.Near ρ (X.bump2 p p' j (R.rnd (dv * δ j))) Yp ∧
        s.2.get j cc = R.rnd (R.rnd (F Yp - f0) / R.rnd (dv * δ j))) ∧
      (∀ j i, i ≠ cc → s.2.get j i = J0.get j i)) := by
  refine (forRange_post (σ := Mat K × Mat K) m _ _ (fun j s => Mat.Near ρ X s.1 ∧
      (∀ k l, (k = p ∨ k = p') → j ≤ l → s.1.get k l = X.get k l) ∧ s.2.rows = m ∧ s.2.cols = J0.cols ∧
      (∀ j', j' < j → j' < m → ∃ Yp, Mat.Near ρ (X.bump2 p p' j' (R.rnd (dv * δ j'))) Yp ∧
        s.2.get j' cc = R.rnd (R.rnd (F Yp - f0) / R.rnd (dv * δ j'))) ∧
      (∀ j i, i ≠ cc → s.2.get j i = J0.get j i))
    ⟨h1, fun k l a _ => h1e k l a, hJr, rfl, fun _ h => by omega, fun _ _ _ => rfl⟩ ?_).mono ?_
  · rintro j ⟨Y, J⟩ hj ⟨k1, k2, k4, k5, k6, k7⟩
    dsimp only at k1 k2 k4 k5 k6 k7 ⊢
    rw [hstep j hj, ok_bind]
    generalize hh : R.rnd (dv * δ j) = h
    have hpo : 0 < h := by rw [← hh]; exact hpos j hj
    have hr : NlSpec.drift R (X.get p j) h ≤ ρ p j := by rw [← hh]; exact hρ j hj
    have hr' : NlSpec.drift R (X.get p' j) h ≤ ρ p' j := by rw [← hh]; exact hρ' j hj
    have a1 : p < Y.rows := by rw [k1.rows]; exact hp
    have a2 : p' < Y.rows := by rw [k1.rows]; exact hp'
    have hcj : j < Y.cols := by rw [k1.cols]; omega
    have g1 : Y.get p j = X.get p j := k2 _ _ (Or.inl rfl) (le_refl j)
    have g2 : Y.get p' j = X.get p' j := k2 _ _ (Or.inr rfl) (le_refl j)
    rw [Mat.update2 Y hpp a1 a2 hcj (fun a => R.rnd (a + h)), hcall _ (by exact k1.rows) (by exact k1.cols), ok_bind,
      Mat.update2 _ hpp (by exact a1) (by exact a2) (by exact hcj) (fun a => R.rnd (a - h)),
      Mat.get2_fst _ hpp, Mat.get2_snd, Mat.setRaw2_again _ hpp, g1, g2, Mat.set_ok (by omega) (by omega), ok_bind]
    have hYp := k1.set2 hpp j (v := R.rnd (X.get p j + h)) (v' := R.rnd (X.get p' j + h)) (t := h)
      ((Rounding.plus_near he hpo).trans hr) ((Rounding.plus_near he hpo).trans hr')
    have hY0 := k1.set20 hpp j (v := R.rnd (R.rnd (X.get p j + h) - h)) (v' := R.rnd (R.rnd (X.get p' j + h) - h))
      ((Rounding.back_near he hpo).trans hr) ((Rounding.back_near he hpo).trans hr')
    refine post_pure ⟨hY0, ?_, k4, k5, ?_, ?_⟩
    · intro k l hk hl
      simp only [Mat.setRaw]
      rw [if_neg (by omega), if_neg (by omega)]; exact k2 k l hk (by omega)
    · intro j' hlt hj'
      by_cases hE : j' = j
      · subst hE
        rw [hh]
        exact ⟨_, hYp, Mat.setRaw_get_self _ _ _ _⟩
      · obtain ⟨Yp, p1, p3⟩ := k6 j' (by omega) hj'
        refine ⟨Yp, p1, ?_⟩
        rw [← p3]
        exact Mat.setRaw_get_ne _ _ (fun e => hE e.1)
    · intro j' i' hl
      simp only [Mat.setRaw]
      rw [if_neg (fun e => hl e.2)]
      exact k7 j' i' hl
  · rintro ⟨Y, J⟩ ⟨k1, k2, k4, k5, k6, k7⟩
    exact ⟨k1, k4, k5, fun j hj => k6 j hj hj, k7⟩

end
end Mpc
