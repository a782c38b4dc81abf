import Mathlib.Tactic.Ring
import Mathlib.Tactic.Linarith
import Mathlib.Tactic.SplitIfs
import Mathlib.Tactic.NormNum
import Verif.Model.Constraints
import Verif.Spec.NlFun

/-
Loops which perturb one entry of a matrix, evaluate, and restore it.
-/
namespace Mpc
open Exec
set_option linter.unusedSectionVars false

namespace Exec
/-- Two nested counting loops. -/
theorem forRange2_post {σ : Type} (n m : Nat) (s : σ) (body : Nat → Nat → σ → Exec σ)
    (Inv : Nat → Nat → σ → Prop) (h0 : Inv 0 0 s)
    (hstep : ∀ i j t, i < n → j < m → Inv i j t → Post (body i j t) (Inv i (j + 1)))
    (hroll : ∀ i t, i < n → Inv i m t → Inv (i + 1) 0 t) :
    Post (forRange n s fun i s => forRange m s (body i)) (Inv n 0) := by
  refine forRange_post n s _ (fun i t => Inv i 0 t) h0 ?_
  intro i t hi ht
  refine (forRange_post m t (body i) (Inv i) ht ?_).mono (fun t h => hroll i t hi h)
  intro j t hj h
  exact hstep i j t hi hj h
end Exec

section
variable {K : Type}

/-- `X` with entry `(i,j)` increased by `t` -/
def Mat.bumpM [Add K] (X : Mat K) (i j : Nat) (t : K) : Mat K := X.setRaw i j (X.get i j + t)

@[simp] theorem Mat.bumpM_rows [Add K] (X : Mat K) (i j : Nat) (t : K) : (X.bumpM i j t).rows = X.rows := rfl
@[simp] theorem Mat.bumpM_cols [Add K] (X : Mat K) (i j : Nat) (t : K) : (X.bumpM i j t).cols = X.cols := rfl

theorem Mat.viewF_bumpM [Add K] (X : Mat K) (r c i j : Nat) (t : K) :
    (X.bumpM i j t).viewF r c = NlSpec.bump (X.viewF r c) i j t := by
  funext k a
  simp only [Mat.viewF, Mat.bumpM, Mat.setRaw, NlSpec.bump]
  split_ifs with h
  · rw [h.1, h.2]
  · rfl

theorem Mat.setRaw_self (X : Mat K) (i j : Nat) : X.setRaw i j (X.get i j) = X := by
  cases X
  simp only [Mat.setRaw, Mat.mk.injEq, true_and]
  funext k l
  split_ifs with h
  · rw [h.1, h.2]
  · rfl

theorem Mat.setRaw_setRaw (X : Mat K) (i j : Nat) (a b : K) : (X.setRaw i j a).setRaw i j b = X.setRaw i j b := by
  simp only [Mat.setRaw, Mat.mk.injEq, true_and]
  funext k l
  split_ifs <;> rfl

theorem Mat.setRaw_get_self (X : Mat K) (i j : Nat) (a : K) : (X.setRaw i j a).get i j = a := by simp [Mat.setRaw]

variable [Field K] [LinearOrder K] [IsStrictOrderedRing K]

theorem Mat.bump_back (X : Mat K) (i j : Nat) (t : K) : X.setRaw i j (X.get i j + t - t) = X := by
  rw [add_sub_cancel_right, Mat.setRaw_self]

theorem Mat.absMax1_pos (X : Mat K) (i j : Nat) : 0 < X.absMax1.get i j := by
  simp only [Mat.absMax1]
  split_ifs with h
  · exact one_pos
  · exact lt_of_lt_of_le one_pos (not_lt.1 h)

theorem Vec.absMax1_pos (X : Vec K) (i : Nat) : 0 < X.absMax1.get i := by
  simp only [Vec.absMax1]
  split_ifs with h
  · exact one_pos
  · exact lt_of_lt_of_le one_pos (not_lt.1 h)

theorem Constraints.dv_pos : 0 < (Constraints.dv : K) := by unfold Constraints.dv; positivity

/-- size of the linear view used for the step sizes -/
theorem Mat.absMax1_data_ok {X : Mat K} {p m j : Nat} (hr : X.rows = p + 1) (hc : X.cols = m) (hj : j < m) :
    X.absMax1.dataVec.at? j = .ok (X.absMax1.dataVec.get j) := by
  refine Vec.at_ok ?_
  have : j < (p + 1) * m := lt_of_lt_of_le hj (Nat.le_mul_of_pos_left _ (by omega))
  simpa [Mat.dataVec, Mat.absMax1, hr, hc] using this

theorem Mat.absMax1_data_pos (X : Mat K) (j : Nat) : 0 < X.absMax1.dataVec.get j := Mat.absMax1_pos X _ _

theorem NlSpec.stepOf_pos {t : K} (ht : 0 < t) (v : K) : 0 < NlSpec.stepOf t v := by
  unfold NlSpec.stepOf
  refine mul_pos ht ?_
  split_ifs with h
  · exact one_pos
  · exact lt_of_lt_of_le one_pos (not_lt.1 h)

theorem Mat.step_eq (t : K) (X : Mat K) {r c i j : Nat} (hi : i < r) (hj : j < c) :
    t * X.absMax1.get i j = NlSpec.stepOf t (NlSpec.entry (X.viewF r c) i j) := by
  unfold NlSpec.entry
  rw [dif_pos ⟨hi, hj⟩]
  rfl

theorem Mat.step_data_eq (t : K) {X : Mat K} {p c j : Nat} (hX : X.rows = p + 1) (hj : j < c) :
    t * X.absMax1.dataVec.get j = NlSpec.stepOf t (NlSpec.linear (X.viewF (p + 1) c) j) := by
  have : X.absMax1.dataVec.get j = X.absMax1.get (j % (p + 1)) (j / (p + 1)) := by
    simp only [Mat.dataVec, Mat.absMax1]; rw [hX]
  rw [this, Mat.step_eq t X (Nat.mod_lt _ (by omega)) (lt_of_le_of_lt (Nat.div_le_self _ _) hj)]
  rfl

/-- One central difference: the trajectory is restored, column `c0 + j` of the Jacobian holds the quotient. -/
theorem central_body (call : Mat K → Exec (Vec K)) (F : Mat K → Vec K) (q : Nat) (X J : Mat K)
    (i j c0 w : Nat) (dx : K) (hi : i < X.rows) (hj : j < X.cols) (hc0 : c0 + w ≤ J.cols) (hjw : j < w)
    (hJ : J.rows = q)
    (hcall : ∀ Y : Mat K, Y.rows = X.rows → Y.cols = X.cols → call Y = .ok (F Y) ∧ (F Y).size = q) :
    (do
      let x0 ← X.set i j ((← X.at? i j) + dx)
      let fp ← call x0
      let x0 ← x0.set i j ((← x0.at? i j) - 2 * dx)
      let fm ← call x0
      let x0 ← x0.set i j ((← x0.at? i j) + dx)
      let df ← fp.subDiv fm (2 * dx)
      let J ← J.setColIn c0 w j df
      return (x0, J) : Exec (Mat K × Mat K))
    = .ok (X, J.setColRaw (c0 + j)
        (fun c => ((F (X.bumpM i j dx)).get c - (F (X.bumpM i j (-dx))).get c) / (2 * dx))) := by
  rw [Mat.at_ok hi hj, ok_bind, Mat.set_ok hi hj, ok_bind]
  rw [(hcall _ (by rfl) (by rfl)).1, ok_bind, Mat.at_ok (by exact hi) (by exact hj), ok_bind,
    Mat.set_ok (by exact hi) (by exact hj), ok_bind, Mat.setRaw_get_self, Mat.setRaw_setRaw]
  rw [(hcall _ (by rfl) (by rfl)).1, ok_bind, Mat.at_ok (by exact hi) (by exact hj), ok_bind,
    Mat.set_ok (by exact hi) (by exact hj), ok_bind, Mat.setRaw_get_self, Mat.setRaw_setRaw]
  have e1 : X.get i j + dx - 2 * dx = X.get i j + -dx := by ring
  have e2 : X.get i j + -dx + dx = X.get i j := by ring
  rw [e1, e2, Mat.setRaw_self]
  change (do
    let df ← (F (X.bumpM i j dx)).subDiv (F (X.bumpM i j (-dx))) (2 * dx)
    let J ← J.setColIn c0 w j df
    return (X, J) : Exec (Mat K × Mat K)) = _
  have h1 := (hcall (X.bumpM i j dx) rfl rfl).2
  have h2 := (hcall (X.bumpM i j (-dx)) rfl rfl).2
  unfold Vec.subDiv
  rw [require_ok (by rw [h1, h2]), ok_bind]
  simp only [pure_bind']
  unfold Mat.setColIn
  rw [require_ok ⟨hc0, hjw⟩, ok_bind, Mat.setCol_ok (by omega) (by dsimp only; rw [h1, hJ]), ok_bind]
  rfl

/-- The loop of central differences over the entries of rows `off .. off+n-1`. -/
theorem central_loop (call : Mat K → Exec (Vec K)) (F : Mat K → Vec K) (q n m off : Nat) (X J0 : Mat K)
    (step : Nat → Nat → Exec K) (δ : Nat → Nat → K)
    (hX : n + off ≤ X.rows) (hXc : X.cols = m) (hJr : J0.rows = q) (hJc : n * m ≤ J0.cols)
    (hstep : ∀ i j, i < n → j < m → step i j = .ok (δ i j))
    (hcall : ∀ Y : Mat K, Y.rows = X.rows → Y.cols = X.cols → call Y = .ok (F Y) ∧ (F Y).size = q) :
    Post (forRange n (X, J0) fun i s => forRange m s fun j s => do
      let dx := Constraints.dv * (← step i j)
      let x0 ← s.1.set (i + off) j ((← s.1.at? (i + off) j) + dx)
      let fp ← call x0
      let x0 ← x0.set (i + off) j ((← x0.at? (i + off) j) - 2 * dx)
      let fm ← call x0
      let x0 ← x0.set (i + off) j ((← x0.at? (i + off) j) + dx)
      let df ← fp.subDiv fm (2 * dx)
      let J ← s.2.setColIn (i * m) m j df
      return (x0, J))
    (fun s => s.1 = X ∧ s.2.rows = q ∧ s.2.cols = J0.cols ∧
      (∀ i j c, i < n → j < m → s.2.get c (i * m + j)
        = ((F (X.bumpM (i + off) j (Constraints.dv * δ i j))).get c
            - (F (X.bumpM (i + off) j (-(Constraints.dv * δ i j)))).get c) / (2 * (Constraints.dv * δ i j))) ∧
      (∀ c l, n * m ≤ l → s.2.get c l = J0.get c l)) := by
  refine (forRange2_post n m _ _ (fun i j s => s.1 = X ∧ s.2.rows = q ∧ s.2.cols = J0.cols ∧
      (∀ i' j' c, j' < m → (i' < i ∨ (i' = i ∧ j' < j)) → i' < n → s.2.get c (i' * m + j')
        = ((F (X.bumpM (i' + off) j' (Constraints.dv * δ i' j'))).get c
            - (F (X.bumpM (i' + off) j' (-(Constraints.dv * δ i' j')))).get c) / (2 * (Constraints.dv * δ i' j'))) ∧
      (∀ c l, n * m ≤ l → s.2.get c l = J0.get c l)) ?_ ?_ ?_).mono ?_
  · exact ⟨rfl, hJr, rfl, fun i' j' c _ h => by omega, fun _ _ _ => rfl⟩
  · rintro i j ⟨Y, J⟩ hi hj ⟨rfl, h2, h3, h4, h5⟩
    dsimp only at hX hXc hcall h2 h3 h4 h5 ⊢
    rw [hstep i j hi hj, ok_bind]
    have hend : i * m + m ≤ n * m := block_end_le hi
    have := central_body call F q Y J (i + off) j (i * m) m (Constraints.dv * δ i j) (by omega) (by omega)
      (by omega) hj h2 hcall
    rw [this]
    refine post_ok ⟨rfl, h2, h3, ?_, ?_⟩
    · intro i' j' c hj' hlt hi'
      simp only [Mat.setColRaw]
      by_cases he : i' = i ∧ j' = j
      · obtain ⟨rfl, rfl⟩ := he; rw [if_pos rfl]
      · rw [if_neg (by rw [block_eq_iff hj' hj]; exact he)]
        exact h4 i' j' c hj' (by omega) hi'
    · intro c l hl
      simp only [Mat.setColRaw]
      rw [if_neg (by omega)]
      exact h5 c l hl
  · rintro i ⟨Y, J⟩ hi ⟨h1, h2, h3, h4, h5⟩
    refine ⟨h1, h2, h3, ?_, h5⟩
    intro i' j' c hj' h hi'
    refine h4 i' j' c hj' ?_ hi'
    rcases h with h | h
    · rcases Nat.lt_succ_iff_lt_or_eq.1 h with h | h
      · exact Or.inl h
      · exact Or.inr ⟨h, hj'⟩
    · omega
  · rintro ⟨Y, J⟩ ⟨h1, h2, h3, h4, h5⟩
    exact ⟨h1, h2, h3, fun i j c hi hj => h4 i j c hj (Or.inl hi) hi, h5⟩

/-! ### Perturbing two rows at once -/

theorem Mat.bumpM_add (X : Mat K) (i j : Nat) (t s : K) : (X.bumpM i j t).bumpM i j s = X.bumpM i j (t + s) := by
  unfold Mat.bumpM
  rw [Mat.setRaw_get_self, Mat.setRaw_setRaw, add_assoc]

theorem Mat.bumpM_zero (X : Mat K) (i j : Nat) : X.bumpM i j 0 = X := by
  unfold Mat.bumpM; rw [add_zero, Mat.setRaw_self]

theorem Mat.bumpM_comm (X : Mat K) {i i' : Nat} (h : i ≠ i') (j : Nat) (t s : K) :
    (X.bumpM i j t).bumpM i' j s = (X.bumpM i' j s).bumpM i j t := by
  simp only [Mat.bumpM, Mat.setRaw, Mat.mk.injEq, true_and]
  funext k l
  have h' : i' ≠ i := fun e => h e.symm
  by_cases h1 : k = i ∧ l = j
  · obtain ⟨rfl, rfl⟩ := h1; simp [h]
  · by_cases h2 : k = i' ∧ l = j
    · obtain ⟨rfl, rfl⟩ := h2; simp [h']
    · simp [h1, h2]

/-- `x(i, j) = x(i, j) + t` -/
theorem Mat.bump_step (X : Mat K) {i j : Nat} (t : K) (hi : i < X.rows) (hj : j < X.cols) {β : Type}
    (k : Mat K → Exec β) :
    (do let a ← X.at? i j; let Y ← X.set i j (a + t); k Y) = k (X.bumpM i j t) := by
  rw [Mat.at_ok hi hj, ok_bind, Mat.set_ok hi hj, ok_bind]; rfl

/-- `x(i, j) = x(i, j) - t` -/
theorem Mat.bump_step_sub (X : Mat K) {i j : Nat} (t : K) (hi : i < X.rows) (hj : j < X.cols) {β : Type}
    (k : Mat K → Exec β) :
    (do let a ← X.at? i j; let Y ← X.set i j (a - t); k Y) = k (X.bumpM i j (-t)) := by
  rw [Mat.at_ok hi hj, ok_bind, Mat.set_ok hi hj, ok_bind, sub_eq_add_neg]; rfl

/-- both rows `p` and `p'` of component `j` increased by `t` -/
def Mat.bump2 (X : Mat K) (p p' j : Nat) (t : K) : Mat K := (X.bumpM p j t).bumpM p' j t

theorem Mat.bump2_bump2 (X : Mat K) {p p' : Nat} (h : p ≠ p') (j : Nat) (t s : K) :
    (X.bump2 p p' j t).bump2 p p' j s = X.bump2 p p' j (t + s) := by
  unfold Mat.bump2
  rw [Mat.bumpM_comm (X.bumpM p j t) h.symm, Mat.bumpM_add, Mat.bumpM_add]

theorem Mat.bump2_zero (X : Mat K) (p p' j : Nat) : X.bump2 p p' j 0 = X := by
  unfold Mat.bump2; rw [Mat.bumpM_zero, Mat.bumpM_zero]

theorem Mat.viewF_bump2 (X : Mat K) (r c p p' j : Nat) (t : K) :
    (X.bump2 p p' j t).viewF r c = NlSpec.bump (NlSpec.bump (X.viewF r c) p j t) p' j t := by
  unfold Mat.bump2; rw [Mat.viewF_bumpM, Mat.viewF_bumpM]

/-- Central differences of the last input, which moves two rows. -/
theorem central_last_loop (call : Mat K → Exec (Vec K)) (F : Mat K → Vec K) (q m p p' c0 : Nat) (X J0 : Mat K)
    (step : Nat → Exec K) (δ : Nat → K) (hpp : p ≠ p')
    (hp : p < X.rows) (hp' : p' < X.rows) (hXc : X.cols = m) (hJr : J0.rows = q) (hJc : c0 + m ≤ J0.cols)
    (hstep : ∀ j, j < m → step j = .ok (δ j))
    (hcall : ∀ Y : Mat K, Y.rows = X.rows → Y.cols = X.cols → call Y = .ok (F Y) ∧ (F Y).size = q) :
    Post (forRange m (X, J0) fun j s => do
      let du := Constraints.dv * (← step j)
      let u0 ← s.1.set p j ((← s.1.at? p j) + du)
      let u0 ← u0.set p' j ((← u0.at? p' j) + du)
      let fp ← call u0
      let u0 ← u0.set p j ((← u0.at? p j) - 2 * du)
      let u0 ← u0.set p' j ((← u0.at? p' j) - 2 * du)
      let fm ← call u0
      let u0 ← u0.set p j ((← u0.at? p j) + du)
      let u0 ← u0.set p' j ((← u0.at? p' j) + du)
      let df ← fp.subDiv fm (2 * du)
      let J ← s.2.setColIn c0 m j df
      return (u0, J))
    (fun s => s.1 = X ∧ s.2.rows = q ∧ s.2.cols = J0.cols ∧
      (∀ j c, j < m → s.2.get c (c0 + j)
        = ((F (X.bump2 p p' j (Constraints.dv * δ j))).get c
            - (F (X.bump2 p p' j (-(Constraints.dv * δ j)))).get c) / (2 * (Constraints.dv * δ j))) ∧
      (∀ c l, l < c0 → s.2.get c l = J0.get c l)) := by
  refine (forRange_post (σ := Mat K × Mat K) m _ _ (fun j s => s.1 = X ∧ s.2.rows = q ∧ s.2.cols = J0.cols ∧
      (∀ j' c, j' < j → s.2.get c (c0 + j')
        = ((F (X.bump2 p p' j' (Constraints.dv * δ j'))).get c
            - (F (X.bump2 p p' j' (-(Constraints.dv * δ j')))).get c) / (2 * (Constraints.dv * δ j'))) ∧
      (∀ c l, l < c0 → s.2.get c l = J0.get c l)) ⟨rfl, hJr, rfl, fun _ _ h => by omega, fun _ _ _ => rfl⟩ ?_)
  rintro j ⟨Y, J⟩ hj ⟨rfl, h2, h3, h4, h5⟩
  dsimp only at hp hp' hXc hcall h2 h3 h4 h5 ⊢
  rw [hstep j hj, ok_bind]
  have hjc : j < Y.cols := by omega
  rw [Mat.bump_step _ _ hp hjc, Mat.bump_step _ _ (by exact hp') (by exact hjc)]
  rw [(hcall _ (by rfl) (by rfl)).1, ok_bind]
  rw [Mat.bump_step_sub _ _ (by exact hp) (by exact hjc), Mat.bump_step_sub _ _ (by exact hp') (by exact hjc)]
  have e1 : ((Y.bump2 p p' j (Constraints.dv * δ j)).bumpM p j (-(2 * (Constraints.dv * δ j)))).bumpM p' j
      (-(2 * (Constraints.dv * δ j))) = Y.bump2 p p' j (-(Constraints.dv * δ j)) := by
    change (Y.bump2 p p' j (Constraints.dv * δ j)).bump2 p p' j (-(2 * (Constraints.dv * δ j))) = _
    rw [Mat.bump2_bump2 _ hpp]; congr 1; ring
  rw [(hcall _ (by rfl) (by rfl)).1, ok_bind]
  rw [Mat.bump_step _ _ (by exact hp) (by exact hjc), Mat.bump_step _ _ (by exact hp') (by exact hjc)]
  have e2 : ((((Y.bump2 p p' j (Constraints.dv * δ j)).bumpM p j (-(2 * (Constraints.dv * δ j)))).bumpM p' j
      (-(2 * (Constraints.dv * δ j)))).bumpM p j (Constraints.dv * δ j)).bumpM p' j (Constraints.dv * δ j) = Y := by
    rw [e1]
    change (Y.bump2 p p' j (-(Constraints.dv * δ j))).bump2 p p' j (Constraints.dv * δ j) = _
    rw [Mat.bump2_bump2 _ hpp, neg_add_cancel, Mat.bump2_zero]
  unfold Mat.bump2 at e1 e2 ⊢
  have h1' := (hcall (Y.bump2 p p' j (Constraints.dv * δ j)) rfl rfl).2
  have h2' := (hcall (Y.bump2 p p' j (-(Constraints.dv * δ j))) rfl rfl).2
  unfold Mat.bump2 at h1' h2'
  unfold Vec.subDiv
  rw [e2, e1, require_ok (by rw [h1', h2']), ok_bind]
  simp only [pure_bind']
  unfold Mat.setColIn
  rw [require_ok ⟨by omega, hj⟩, ok_bind, Mat.setCol_ok (by omega) (by dsimp only; rw [h1', h2]), ok_bind]
  refine post_pure ⟨rfl, h2, h3, ?_, ?_⟩
  · intro j' c hj'
    simp only [Mat.setColRaw]
    by_cases he : j' = j
    · subst he; rw [if_pos rfl]
    · rw [if_neg (by omega)]; exact h4 j' c (by omega)
  · intro c l hl
    simp only [Mat.setColRaw]
    rw [if_neg (by omega)]; exact h5 c l hl

/-! ### Forward differences of a scalar function (objective) -/

/-- The loop of forward differences over the entries of rows `off .. off+n-1`. -/
theorem forward_loop (call : Mat K → Exec K) (F : Mat K → K) (n m off : Nat) (X J0 : Mat K) (dv f0 : K)
    (step : Nat → Nat → Exec K) (δ : Nat → Nat → K)
    (hX : n + off ≤ X.rows) (hXc : X.cols = m) (hJr : J0.rows = m) (hJc : n ≤ J0.cols)
    (hstep : ∀ i j, i < n → j < m → step i j = .ok (δ i j))
    (hcall : ∀ Y : Mat K, Y.rows = X.rows → Y.cols = X.cols → call Y = .ok (F Y)) :
    Post (forRange n (X, J0) fun i s => forRange m s fun j s => do
      let dx := dv * (← step i j)
      let x0 ← s.1.set (i + off) j ((← s.1.at? (i + off) j) + dx)
      let v ← call x0
      let x0 ← x0.set (i + off) j ((← x0.at? (i + off) j) - dx)
      let J ← s.2.set j i ((v - f0) / dx)
      return (x0, J))
    (fun s => s.1 = X ∧ s.2.rows = m ∧ s.2.cols = J0.cols ∧
      (∀ i j, i < n → j < m → s.2.get j i = (F (X.bumpM (i + off) j (dv * δ i j)) - f0) / (dv * δ i j)) ∧
      (∀ j i, n ≤ i → s.2.get j i = J0.get j i)) := by
  refine (forRange2_post n m _ _ (fun i j s => s.1 = X ∧ s.2.rows = m ∧ s.2.cols = J0.cols ∧
      (∀ i' j', j' < m → (i' < i ∨ (i' = i ∧ j' < j)) → i' < n →
        s.2.get j' i' = (F (X.bumpM (i' + off) j' (dv * δ i' j')) - f0) / (dv * δ i' j')) ∧
      (∀ j i, n ≤ i → s.2.get j i = J0.get j i)) ?_ ?_ ?_).mono ?_
  · exact ⟨rfl, hJr, rfl, fun i' j' _ h => by omega, fun _ _ _ => rfl⟩
  · rintro i j ⟨Y, J⟩ hi hj ⟨rfl, h2, h3, h4, h5⟩
    dsimp only at hX hXc hcall h2 h3 h4 h5 ⊢
    rw [hstep i j hi hj, ok_bind]
    rw [Mat.bump_step _ _ (by omega) (by omega), hcall _ (by rfl) (by rfl), ok_bind,
      Mat.bump_step_sub _ _ (by rw [Mat.bumpM_rows]; omega) (by rw [Mat.bumpM_cols]; omega),
      Mat.set_ok (by omega) (by omega), ok_bind, Mat.bumpM_add, add_neg_cancel, Mat.bumpM_zero]
    refine post_pure ⟨rfl, h2, h3, ?_, ?_⟩
    · intro i' j' hj' hlt hi'
      simp only [Mat.setRaw]
      by_cases he : j' = j ∧ i' = i
      · obtain ⟨rfl, rfl⟩ := he; rw [if_pos ⟨rfl, rfl⟩]
      · rw [if_neg he]; exact h4 i' j' hj' (by omega) hi'
    · intro j' i' hl
      simp only [Mat.setRaw]
      rw [if_neg (by omega)]; exact h5 j' i' hl
  · rintro i ⟨Y, J⟩ hi ⟨h1, h2, h3, h4, h5⟩
    refine ⟨h1, h2, h3, ?_, h5⟩
    intro i' j' hj' h hi'
    refine h4 i' j' hj' ?_ hi'
    rcases h with h | h
    · rcases Nat.lt_succ_iff_lt_or_eq.1 h with h | h
      · exact Or.inl h
      · exact Or.inr ⟨h, hj'⟩
    · omega
  · rintro ⟨Y, J⟩ ⟨h1, h2, h3, h4, h5⟩
    exact ⟨h1, h2, h3, fun i j hi hj => h4 i j hj (Or.inl hi) hi, h5⟩

/-- Forward differences of the last input, which moves two rows. -/
theorem forward_last_loop (call : Mat K → Exec K) (F : Mat K → K) (m p p' cc : Nat) (X J0 : Mat K) (dv f0 : K)
    (step : Nat → Exec K) (δ : Nat → K) (hpp : p ≠ p')
    (hp : p < X.rows) (hp' : p' < X.rows) (hXc : X.cols = m) (hJr : J0.rows = m) (hJc : cc < J0.cols)
    (hstep : ∀ j, j < m → step j = .ok (δ j))
    (hcall : ∀ Y : Mat K, Y.rows = X.rows → Y.cols = X.cols → call Y = .ok (F Y)) :
    Post (forRange m (X, J0) fun j s => do
      let du := dv * (← step j)
      let u0 ← s.1.set p j ((← s.1.at? p j) + du)
      let u0 ← u0.set p' j ((← u0.at? p' j) + du)
      let v ← call u0
      let u0 ← u0.set p j ((← u0.at? p j) - du)
      let u0 ← u0.set p' j ((← u0.at? p' j) - du)
      let J ← s.2.set j cc ((v - f0) / du)
      return (u0, J))
    (fun s => s.1 = X ∧ s.2.rows = m ∧ s.2.cols = J0.cols ∧
      (∀ j, j < m → s.2.get j cc = (F (X.bump2 p p' j (dv * δ j)) - f0) / (dv * δ j)) ∧
      (∀ j i, i ≠ cc → s.2.get j i = J0.get j i)) := by
  refine (forRange_post (σ := Mat K × Mat K) m _ _ (fun j s => s.1 = X ∧ s.2.rows = m ∧ s.2.cols = J0.cols ∧
      (∀ j', j' < j → s.2.get j' cc = (F (X.bump2 p p' j' (dv * δ j')) - f0) / (dv * δ j')) ∧
      (∀ j i, i ≠ cc → s.2.get j i = J0.get j i)) ⟨rfl, hJr, rfl, fun _ h => by omega, fun _ _ _ => rfl⟩ ?_)
  rintro j ⟨Y, J⟩ hj ⟨rfl, h2, h3, h4, h5⟩
  dsimp only at hp hp' hXc hcall h2 h3 h4 h5 ⊢
  rw [hstep j hj, ok_bind]
  have hjc : j < Y.cols := by omega
  rw [Mat.bump_step _ _ hp hjc, Mat.bump_step _ _ (by exact hp') (by exact hjc), hcall _ (by rfl) (by rfl), ok_bind]
  rw [Mat.bump_step_sub _ _ (by exact hp) (by exact hjc), Mat.bump_step_sub _ _ (by exact hp') (by exact hjc)]
  have e2 : ((((Y.bumpM p j (dv * δ j)).bumpM p' j (dv * δ j)).bumpM p j (-(dv * δ j))).bumpM p' j (-(dv * δ j))) = Y := by
    change (Y.bump2 p p' j (dv * δ j)).bump2 p p' j (-(dv * δ j)) = _
    rw [Mat.bump2_bump2 _ hpp, add_neg_cancel, Mat.bump2_zero]
  rw [e2, Mat.set_ok (by omega) (by omega), ok_bind]
  refine post_pure ⟨rfl, h2, h3, ?_, ?_⟩
  · intro j' hj'
    simp only [Mat.setRaw]
    by_cases he : j' = j
    · subst he; simp; rfl
    · rw [if_neg (by rintro ⟨h, -⟩; exact he h)]; exact h4 j' (by omega)
  · intro j' i' hl
    simp only [Mat.setRaw]
    rw [if_neg (by rintro ⟨-, h⟩; exact hl h)]; exact h5 j' i' hl

end
end Mpc
