import Verif.Proofs.Doubles
import Verif.Proofs.NlDynamics
import Verif.Proofs.NlDetermined
import Verif.Spec.NlDoubles

/-
What the evaluations of Model/NlDoubles compute: the lemmas on the loops repeat those of NlLoops, NlObjective, NlConstraints and
NlDynamics for `double`s.
-/
namespace Mpc
open Exec
set_option linter.unusedSectionVars false

namespace Dbl
variable {d : Dims} {K : Type} [Field K] [LinearOrder K] [IsStrictOrderedRing K]

/-! ### Loops -/

theorem forward_loop (call : Mat K → Exec (Flt K)) (F : Mat K → Flt K) (n m off : Nat) (X : Mat K) (J0 : Mat (Flt K)) (dv : K) (f0 : Flt K)
    (step : Nat → Nat → Exec K) (δ : Nat → Nat → K)
    (hX : n + off ≤ X.rows) (hXc : X.cols = m) (hJr : J0.rows = m) (hJc : n ≤ J0.cols)
    (hstep : ∀ i j, i < n → j < m → step i j = .ok (δ i j))
    (hcall : ∀ Y : Mat K, Y.rows = X.rows → Y.cols = X.cols → call Y = .ok (F Y)) :
    Post (forRange n (X, J0) fun i s => forRange m s fun j s => do
      let dx := dv * (← step i j)
      let x0 ← s.1.set (i + off) j ((← s.1.at? (i + off) j) + dx)
      let v ← call x0
      let x0 ← x0.set (i + off) j ((← x0.at? (i + off) j) - dx)
      let J ← s.2.set j i ((v - f0).divBy dx)
      return (x0, J))
    (fun s => s.1 = X ∧ s.2.rows = m ∧ s.2.cols = J0.cols ∧
      (∀ i j, i < n → j < m → s.2.get j i = (F (X.bumpM (i + off) j (dv * δ i j)) - f0).divBy (dv * δ i j)) ∧
      (∀ j i, n ≤ i → s.2.get j i = J0.get j i)) := by
  refine (forRange2_post n m _ _ (fun i j s => s.1 = X ∧ s.2.rows = m ∧ s.2.cols = J0.cols ∧
      (∀ i' j', j' < m → (i' < i ∨ (i' = i ∧ j' < j)) → i' < n →
        s.2.get j' i' = (F (X.bumpM (i' + off) j' (dv * δ i' j')) - f0).divBy (dv * δ i' j')) ∧
      (∀ j i, n ≤ i → s.2.get j i = J0.get j i)) ?_ ?_ ?_).mono ?_
  · exact ⟨rfl, hJr, rfl, fun i' j' _ h => by omega, fun _ _ _ => rfl⟩
  · rintro i j ⟨Y, J⟩ hi hj ⟨rfl, h2, h3, h4, h5⟩
    dsimp only at hX hXc hcall h2 h3 h4 h5 ⊢
    rw [hstep i j hi hj, ok_bind]
    rw [Mat.bump_step _ _ (by omega) (by omega), hcall _ (by rfl) (by rfl), ok_bind,
      Mat.bump_step_sub _ _ (by rw [Mat.bumpM_rows]; omega) (by rw [Mat.bumpM_cols]; omega),
      Mat.set_ok (by omega) (by omega), ok_bind, Mat.bumpM_add, add_neg_cancel, Mat.bumpM_zero]
    refine post_pure ⟨rfl, h2, h3, ?_, ?_⟩
    · intro i' j' hj' hlt hi'
      simp only [Mat.setRaw]
      by_cases he : j' = j ∧ i' = i
      · obtain ⟨rfl, rfl⟩ := he; rw [if_pos ⟨rfl, rfl⟩]
      · rw [if_neg he]; exact h4 i' j' hj' (by omega) hi'
    · intro j' i' hl
      simp only [Mat.setRaw]
      rw [if_neg (by omega)]; exact h5 j' i' hl
  · rintro i ⟨Y, J⟩ hi ⟨h1, h2, h3, h4, h5⟩
    refine ⟨h1, h2, h3, ?_, h5⟩
    intro i' j' hj' h hi'
    refine h4 i' j' hj' ?_ hi'
    rcases h with h | h
    · rcases Nat.lt_succ_iff_lt_or_eq.1 h with h | h
      · exact Or.inl h
      · exact Or.inr ⟨h, hj'⟩
    · omega
  · rintro ⟨Y, J⟩ ⟨h1, h2, h3, h4, h5⟩
    exact ⟨h1, h2, h3, fun i j hi hj => h4 i j hj (Or.inl hi) hi, h5⟩

theorem forward_last_loop (call : Mat K → Exec (Flt K)) (F : Mat K → Flt K) (m p p' cc : Nat) (X : Mat K) (J0 : Mat (Flt K)) (dv : K) (f0 : Flt K)
    (step : Nat → Exec K) (δ : Nat → K) (hpp : p ≠ p')
    (hp : p < X.rows) (hp' : p' < X.rows) (hXc : X.cols = m) (hJr : J0.rows = m) (hJc : cc < J0.cols)
    (hstep : ∀ j, j < m → step j = .ok (δ j))
    (hcall : ∀ Y : Mat K, Y.rows = X.rows → Y.cols = X.cols → call Y = .ok (F Y)) :
    Post (forRange m (X, J0) fun j s => do
      let du := dv * (← step j)
      let u0 ← s.1.set p j ((← s.1.at? p j) + du)
      let u0 ← u0.set p' j ((← u0.at? p' j) + du)
      let v ← call u0
      let u0 ← u0.set p j ((← u0.at? p j) - du)
      let u0 ← u0.set p' j ((← u0.at? p' j) - du)
      let J ← s.2.set j cc ((v - f0).divBy du)
      return (u0, J))
    (fun s => s.1 = X ∧ s.2.rows = m ∧ s.2.cols = J0.cols ∧
      (∀ j, j < m → s.2.get j cc = (F (X.bump2 p p' j (dv * δ j)) - f0).divBy (dv * δ j)) ∧
      (∀ j i, i ≠ cc → s.2.get j i = J0.get j i)) := by
  refine (forRange_post (σ := Mat K × Mat (Flt K)) m _ _ (fun j s => s.1 = X ∧ s.2.rows = m ∧ s.2.cols = J0.cols ∧
      (∀ j', j' < j → s.2.get j' cc = (F (X.bump2 p p' j' (dv * δ j')) - f0).divBy (dv * δ j')) ∧
      (∀ j i, i ≠ cc → s.2.get j i = J0.get j i)) ⟨rfl, hJr, rfl, fun _ h => by omega, fun _ _ _ => rfl⟩ ?_)
  rintro j ⟨Y, J⟩ hj ⟨rfl, h2, h3, h4, h5⟩
  dsimp only at hp hp' hXc hcall h2 h3 h4 h5 ⊢
  rw [hstep j hj, ok_bind]
  have hjc : j < Y.cols := by omega
  rw [Mat.bump_step _ _ hp hjc, Mat.bump_step _ _ (by exact hp') (by exact hjc), hcall _ (by rfl) (by rfl), ok_bind]
  rw [Mat.bump_step_sub _ _ (by exact hp) (by exact hjc), Mat.bump_step_sub _ _ (by exact hp') (by exact hjc)]
  have e2 : ((((Y.bumpM p j (dv * δ j)).bumpM p' j (dv * δ j)).bumpM p j (-(dv * δ j))).bumpM p' j (-(dv * δ j))) = Y := by
    change (Y.bump2 p p' j (dv * δ j)).bump2 p p' j (-(dv * δ j)) = _
    rw [Mat.bump2_bump2 _ hpp, add_neg_cancel, Mat.bump2_zero]
  rw [e2, Mat.set_ok (by omega) (by omega), ok_bind]
  refine post_pure ⟨rfl, h2, h3, ?_, ?_⟩
  · intro j' hj'
    simp only [Mat.setRaw]
    by_cases he : j' = j
    · subst he; simp; rfl
    · rw [if_neg (by rintro ⟨h, -⟩; exact he h)]; exact h4 j' (by omega)
  · intro j' i' hl
    simp only [Mat.setRaw]
    rw [if_neg (by rintro ⟨-, h⟩; exact hl h)]; exact h5 j' i' hl

theorem central_body (call : Mat K → Exec (Vec (Flt K))) (F : Mat K → Vec (Flt K)) (q : Nat) (X : Mat K) (J : Mat (Flt K))
    (i j c0 w : Nat) (dx : K) (hi : i < X.rows) (hj : j < X.cols) (hc0 : c0 + w ≤ J.cols) (hjw : j < w)
    (hJ : J.rows = q)
    (hcall : ∀ Y : Mat K, Y.rows = X.rows → Y.cols = X.cols → call Y = .ok (F Y) ∧ (F Y).size = q) :
    (do
      let x0 ← X.set i j ((← X.at? i j) + dx)
      let fp ← call x0
      let x0 ← x0.set i j ((← x0.at? i j) - 2 * dx)
      let fm ← call x0
      let x0 ← x0.set i j ((← x0.at? i j) + dx)
      let df ← fp.subDivF fm (2 * dx)
      let J ← J.setColIn c0 w j df
      return (x0, J) : Exec (Mat K × Mat (Flt K)))
    = .ok (X, J.setColRaw (c0 + j)
        (fun c => ((F (X.bumpM i j dx)).get c - (F (X.bumpM i j (-dx))).get c).divBy (2 * dx))) := by
  rw [Mat.at_ok hi hj, ok_bind, Mat.set_ok hi hj, ok_bind]
  rw [(hcall _ (by rfl) (by rfl)).1, ok_bind, Mat.at_ok (by exact hi) (by exact hj), ok_bind,
    Mat.set_ok (by exact hi) (by exact hj), ok_bind, Mat.setRaw_get_self, Mat.setRaw_setRaw]
  rw [(hcall _ (by rfl) (by rfl)).1, ok_bind, Mat.at_ok (by exact hi) (by exact hj), ok_bind,
    Mat.set_ok (by exact hi) (by exact hj), ok_bind, Mat.setRaw_get_self, Mat.setRaw_setRaw]
  have e1 : X.get i j + dx - 2 * dx = X.get i j + -dx := by ring
  have e2 : X.get i j + -dx + dx = X.get i j := by ring
  rw [e1, e2, Mat.setRaw_self]
  change (do
    let df ← (F (X.bumpM i j dx)).subDivF (F (X.bumpM i j (-dx))) (2 * dx)
    let J ← J.setColIn c0 w j df
    return (X, J) : Exec (Mat K × Mat (Flt K))) = _
  have h1 := (hcall (X.bumpM i j dx) rfl rfl).2
  have h2 := (hcall (X.bumpM i j (-dx)) rfl rfl).2
  unfold Vec.subDivF
  rw [require_ok (by rw [h1, h2]), ok_bind]
  simp only [pure_bind']
  unfold Mat.setColIn
  rw [require_ok ⟨hc0, hjw⟩, ok_bind, Mat.setCol_ok (by omega) (by dsimp only; rw [h1, hJ]), ok_bind]
  rfl

theorem central_loop (call : Mat K → Exec (Vec (Flt K))) (F : Mat K → Vec (Flt K)) (q n m off : Nat) (X : Mat K) (J0 : Mat (Flt K))
    (step : Nat → Nat → Exec K) (δ : Nat → Nat → K)
    (hX : n + off ≤ X.rows) (hXc : X.cols = m) (hJr : J0.rows = q) (hJc : n * m ≤ J0.cols)
    (hstep : ∀ i j, i < n → j < m → step i j = .ok (δ i j))
    (hcall : ∀ Y : Mat K, Y.rows = X.rows → Y.cols = X.cols → call Y = .ok (F Y) ∧ (F Y).size = q) :
    Post (forRange n (X, J0) fun i s => forRange m s fun j s => do
      let dx := Constraints.dv * (← step i j)
      let x0 ← s.1.set (i + off) j ((← s.1.at? (i + off) j) + dx)
      let fp ← call x0
      let x0 ← x0.set (i + off) j ((← x0.at? (i + off) j) - 2 * dx)
      let fm ← call x0
      let x0 ← x0.set (i + off) j ((← x0.at? (i + off) j) + dx)
      let df ← fp.subDivF fm (2 * dx)
      let J ← s.2.setColIn (i * m) m j df
      return (x0, J))
    (fun s => s.1 = X ∧ s.2.rows = q ∧ s.2.cols = J0.cols ∧
      (∀ i j c, i < n → j < m → s.2.get c (i * m + j)
        = ((F (X.bumpM (i + off) j (Constraints.dv * δ i j))).get c
            - (F (X.bumpM (i + off) j (-(Constraints.dv * δ i j)))).get c).divBy (2 * (Constraints.dv * δ i j))) ∧
      (∀ c l, n * m ≤ l → s.2.get c l = J0.get c l)) := by
  refine (forRange2_post n m _ _ (fun i j s => s.1 = X ∧ s.2.rows = q ∧ s.2.cols = J0.cols ∧
      (∀ i' j' c, j' < m → (i' < i ∨ (i' = i ∧ j' < j)) → i' < n → s.2.get c (i' * m + j')
        = ((F (X.bumpM (i' + off) j' (Constraints.dv * δ i' j'))).get c
            - (F (X.bumpM (i' + off) j' (-(Constraints.dv * δ i' j')))).get c).divBy (2 * (Constraints.dv * δ i' j'))) ∧
      (∀ c l, n * m ≤ l → s.2.get c l = J0.get c l)) ?_ ?_ ?_).mono ?_
  · exact ⟨rfl, hJr, rfl, fun i' j' c _ h => by omega, fun _ _ _ => rfl⟩
  · rintro i j ⟨Y, J⟩ hi hj ⟨rfl, h2, h3, h4, h5⟩
    dsimp only at hX hXc hcall h2 h3 h4 h5 ⊢
    rw [hstep i j hi hj, ok_bind]
    have hend : i * m + m ≤ n * m := block_end_le hi
    have := central_body call F q Y J (i + off) j (i * m) m (Constraints.dv * δ i j) (by omega) (by omega)
      (by omega) hj h2 hcall
    rw [this]
    refine post_ok ⟨rfl, h2, h3, ?_, ?_⟩
    · intro i' j' c hj' hlt hi'
      simp only [Mat.setColRaw]
      by_cases he : i' = i ∧ j' = j
      · obtain ⟨rfl, rfl⟩ := he; rw [if_pos rfl]
      · rw [if_neg (by rw [block_eq_iff hj' hj]; exact he)]
        exact h4 i' j' c hj' (by omega) hi'
    · intro c l hl
      simp only [Mat.setColRaw]
      rw [if_neg (by omega)]
      exact h5 c l hl
  · rintro i ⟨Y, J⟩ hi ⟨h1, h2, h3, h4, h5⟩
    refine ⟨h1, h2, h3, ?_, h5⟩
    intro i' j' c hj' h hi'
    refine h4 i' j' c hj' ?_ hi'
    rcases h with h | h
    · rcases Nat.lt_succ_iff_lt_or_eq.1 h with h | h
      · exact Or.inl h
      · exact Or.inr ⟨h, hj'⟩
    · omega
  · rintro ⟨Y, J⟩ ⟨h1, h2, h3, h4, h5⟩
    exact ⟨h1, h2, h3, fun i j c hi hj => h4 i j c hj (Or.inl hi) hi, h5⟩

theorem central_last_loop (call : Mat K → Exec (Vec (Flt K))) (F : Mat K → Vec (Flt K)) (q m p p' c0 : Nat) (X : Mat K) (J0 : Mat (Flt K))
    (step : Nat → Exec K) (δ : Nat → K) (hpp : p ≠ p')
    (hp : p < X.rows) (hp' : p' < X.rows) (hXc : X.cols = m) (hJr : J0.rows = q) (hJc : c0 + m ≤ J0.cols)
    (hstep : ∀ j, j < m → step j = .ok (δ j))
    (hcall : ∀ Y : Mat K, Y.rows = X.rows → Y.cols = X.cols → call Y = .ok (F Y) ∧ (F Y).size = q) :
    Post (forRange m (X, J0) fun j s => do
      let du := Constraints.dv * (← step j)
      let u0 ← s.1.set p j ((← s.1.at? p j) + du)
      let u0 ← u0.set p' j ((← u0.at? p' j) + du)
      let fp ← call u0
      let u0 ← u0.set p j ((← u0.at? p j) - 2 * du)
      let u0 ← u0.set p' j ((← u0.at? p' j) - 2 * du)
      let fm ← call u0
      let u0 ← u0.set p j ((← u0.at? p j) + du)
      let u0 ← u0.set p' j ((← u0.at? p' j) + du)
      let df ← fp.subDivF fm (2 * du)
      let J ← s.2.setColIn c0 m j df
      return (u0, J))
    (fun s => s.1 = X ∧ s.2.rows = q ∧ s.2.cols = J0.cols ∧
      (∀ j c, j < m → s.2.get c (c0 + j)
        = ((F (X.bump2 p p' j (Constraints.dv * δ j))).get c
            - (F (X.bump2 p p' j (-(Constraints.dv * δ j)))).get c).divBy (2 * (Constraints.dv * δ j))) ∧
      (∀ c l, l < c0 → s.2.get c l = J0.get c l)) := by
  refine (forRange_post (σ := Mat K × Mat (Flt K)) m _ _ (fun j s => s.1 = X ∧ s.2.rows = q ∧ s.2.cols = J0.cols ∧
      (∀ j' c, j' < j → s.2.get c (c0 + j')
        = ((F (X.bump2 p p' j' (Constraints.dv * δ j'))).get c
            - (F (X.bump2 p p' j' (-(Constraints.dv * δ j')))).get c).divBy (2 * (Constraints.dv * δ j'))) ∧
      (∀ c l, l < c0 → s.2.get c l = J0.get c l)) ⟨rfl, hJr, rfl, fun _ _ h => by omega, fun _ _ _ => rfl⟩ ?_)
  rintro j ⟨Y, J⟩ hj ⟨rfl, h2, h3, h4, h5⟩
  dsimp only at hp hp' hXc hcall h2 h3 h4 h5 ⊢
  rw [hstep j hj, ok_bind]
  have hjc : j < Y.cols := by omega
  rw [Mat.bump_step _ _ hp hjc, Mat.bump_step _ _ (by exact hp') (by exact hjc)]
  rw [(hcall _ (by rfl) (by rfl)).1, ok_bind]
  rw [Mat.bump_step_sub _ _ (by exact hp) (by exact hjc), Mat.bump_step_sub _ _ (by exact hp') (by exact hjc)]
  have e1 : ((Y.bump2 p p' j (Constraints.dv * δ j)).bumpM p j (-(2 * (Constraints.dv * δ j)))).bumpM p' j
      (-(2 * (Constraints.dv * δ j))) = Y.bump2 p p' j (-(Constraints.dv * δ j)) := by
    change (Y.bump2 p p' j (Constraints.dv * δ j)).bump2 p p' j (-(2 * (Constraints.dv * δ j))) = _
    rw [Mat.bump2_bump2 _ hpp]; congr 1; ring
  rw [(hcall _ (by rfl) (by rfl)).1, ok_bind]
  rw [Mat.bump_step _ _ (by exact hp) (by exact hjc), Mat.bump_step _ _ (by exact hp') (by exact hjc)]
  have e2 : ((((Y.bump2 p p' j (Constraints.dv * δ j)).bumpM p j (-(2 * (Constraints.dv * δ j)))).bumpM p' j
      (-(2 * (Constraints.dv * δ j)))).bumpM p j (Constraints.dv * δ j)).bumpM p' j (Constraints.dv * δ j) = Y := by
    rw [e1]
    change (Y.bump2 p p' j (-(Constraints.dv * δ j))).bump2 p p' j (Constraints.dv * δ j) = _
    rw [Mat.bump2_bump2 _ hpp, neg_add_cancel, Mat.bump2_zero]
  unfold Mat.bump2 at e1 e2 ⊢
  have h1' := (hcall (Y.bump2 p p' j (Constraints.dv * δ j)) rfl rfl).2
  have h2' := (hcall (Y.bump2 p p' j (-(Constraints.dv * δ j))) rfl rfl).2
  unfold Mat.bump2 at h1' h2'
  unfold Vec.subDivF
  rw [e2, e1, require_ok (by rw [h1', h2']), ok_bind]
  simp only [pure_bind']
  unfold Mat.setColIn
  rw [require_ok ⟨by omega, hj⟩, ok_bind, Mat.setCol_ok (by omega) (by dsimp only; rw [h1', h2]), ok_bind]
  refine post_pure ⟨rfl, h2, h3, ?_, ?_⟩
  · intro j' c hj'
    simp only [Mat.setColRaw]
    by_cases he : j' = j
    · subst he; rw [if_pos rfl]
    · rw [if_neg (by omega)]; exact h4 j' c (by omega)
  · intro c l hl
    simp only [Mat.setColRaw]
    rw [if_neg (by omega)]; exact h5 c l hl

/-! ### Calls of the user functions -/

theorem getOutput_ok (F : DoubleFns d K) (X U : Mat K) (hp : d.ph < 2 ^ 31)
    (hX : X.Is (d.ph + 1) d.nx) (hU : U.Is (d.ph + 1) d.nu) :
    ∃ Y, F.getOutput X U = .ok Y ∧ Y.Is (d.ph + 1) d.ny ∧
      Y.viewF (d.ph + 1) d.ny = NlSpec.outputsF F (X.viewF (d.ph + 1) d.nx) (U.viewF (d.ph + 1) d.nu) := by
  obtain ⟨hX1, hX2⟩ := hX
  obtain ⟨hU1, hU2⟩ := hU
  unfold DoubleFns.getOutput NlSpec.outputsF
  cases F.out with
  | none =>
    exact ⟨_, rfl, ⟨rfl, rfl⟩, rfl⟩
  | some g =>
    dsimp only
    obtain ⟨Y, hY, h1, h2, h3⟩ := forRange_post (d.ph + 1) (Mat.const (d.ph + 1) d.ny (0 : Flt K))
      (fun i Y => do
        let x ← (← X.row i).view d.nx
        let u ← (← U.row i).view d.nu
        Y.setRow i (Vec.ofF (g (fun _ => 0) x u (toUnsigned i))))
      (fun i Y => Y.rows = d.ph + 1 ∧ Y.cols = d.ny ∧
        ∀ (k : Fin (d.ph + 1)) (c : Fin d.ny), (k : Nat) < i →
          Y.get k c = g (fun _ => 0) (X.viewF (d.ph + 1) d.nx k) (U.viewF (d.ph + 1) d.nu k) k c)
      ⟨rfl, rfl, fun _ _ h => absurd h (Nat.not_lt_zero _)⟩
      (by
        rintro i Y hi ⟨h1, h2, h3⟩
        rw [Mat.row_ok (by omega), ok_bind, Vec.view_ok (by exact hX2), ok_bind, Mat.row_ok (by omega), ok_bind,
          Vec.view_ok (by exact hU2), ok_bind, Mat.setRow_ok (by omega) (by simp [h2])]
        refine post_ok ⟨h1, h2, ?_⟩
        intro k c hk
        simp only [Mat.setRowRaw]
        by_cases he : (k : Nat) = i
        · rw [if_pos he, Vec.ofF_get, toUnsigned_of_lt (by omega)]
          subst he
          rfl
        · rw [if_neg he]; exact h3 k c (by omega))
    exact ⟨Y, hY, ⟨h1, h2⟩, by funext k c; exact h3 k c k.2⟩

theorem callObj_ok (F : DoubleFns d K) (X U : Mat K) (e : K) (hp : d.ph < 2 ^ 31)
    (hX : X.Is (d.ph + 1) d.nx) (hU : U.Is (d.ph + 1) d.nu) :
    F.callObj X U e = .ok (NlSpec.costF F (X.viewF (d.ph + 1) d.nx) (U.viewF (d.ph + 1) d.nu) e) := by
  obtain ⟨Y, hY, hYs, hYv⟩ := getOutput_ok F X U hp hX hU
  unfold DoubleFns.callObj
  rw [hY, ok_bind, Mat.view_ok hX.1 hX.2, ok_bind, Mat.view_ok hYs.1 hYs.2, ok_bind, Mat.view_ok hU.1 hU.2, ok_bind, hYv]
  rfl

theorem callIneq_ok (F : DoubleFns d K) (X U : Mat K) (e : K) (hp : d.ph < 2 ^ 31)
    (hX : X.Is (d.ph + 1) d.nx) (hU : U.Is (d.ph + 1) d.nu) :
    F.callIneq X U e = .ok (Vec.ofF (NlSpec.ineqF F (X.viewF (d.ph + 1) d.nx) (U.viewF (d.ph + 1) d.nu) e)) := by
  obtain ⟨Y, hY, hYs, hYv⟩ := getOutput_ok F X U hp hX hU
  unfold DoubleFns.callIneq
  rw [hY, ok_bind, Mat.view_ok hX.1 hX.2, ok_bind, Mat.view_ok hYs.1 hYs.2, ok_bind, Mat.view_ok hU.1 hU.2, ok_bind, hYv]
  rfl

theorem callEq_ok (F : DoubleFns d K) (X U : Mat K) (hX : X.Is (d.ph + 1) d.nx) (hU : U.Is (d.ph + 1) d.nu) :
    F.callEq X U = .ok (Vec.ofF (F.eq (X.viewF (d.ph + 1) d.nx) (U.viewF (d.ph + 1) d.nu))) := by
  unfold DoubleFns.callEq
  rw [Mat.view_ok hX.1 hX.2, ok_bind, Mat.view_ok hU.1 hU.2, ok_bind]
  rfl

theorem callState_ok (F : DoubleFns d K) (x u : Vec K) (p : Nat) (hx : x.size = d.nx) (hu : u.size = d.nu) :
    F.callState x u p = .ok (Vec.ofF (F.state (x.viewF d.nx) (u.viewF d.nu) p)) := by
  unfold DoubleFns.callState
  rw [Vec.view_ok hx, ok_bind, Vec.view_ok hu, ok_bind]
  rfl

/-! ### Numbers and other `double`s -/

open NlSpec (IsNumber From IsQuotient)

theorem number_fin (x : K) : IsNumber (Flt.fin x) := ⟨x, rfl⟩

theorem not_number_nan : ¬ IsNumber (Flt.nan : Flt K) := by rintro ⟨y, h⟩; cases h

theorem number_add {x y : Flt K} : IsNumber (x + y) ↔ IsNumber x ∧ IsNumber y := by
  constructor
  · rintro ⟨z, h⟩
    rcases x with _ | (_ | x | _) <;> rcases y with _ | (_ | y | _)
    all_goals first | (cases h; done) | exact ⟨⟨_, rfl⟩, ⟨_, rfl⟩⟩
  · rintro ⟨⟨z, rfl⟩, ⟨w, rfl⟩⟩; exact ⟨_, rfl⟩

theorem number_neg {x : Flt K} : IsNumber (-x) ↔ IsNumber x := by
  constructor
  · rintro ⟨z, h⟩
    rcases x with _ | (_ | x | _)
    all_goals first | (cases h; done) | exact ⟨_, rfl⟩
  · rintro ⟨z, rfl⟩; exact ⟨_, rfl⟩

theorem number_fin_mul {c : K} {x : Flt K} : IsNumber (Flt.fin c * x) ↔ IsNumber x := by
  constructor
  · rintro ⟨z, h⟩
    rcases x with _ | (_ | x | _)
    · cases h
    · exfalso
      change Flt.infTimes _ _ = _ at h
      unfold Flt.infTimes at h
      split_ifs at h <;> cases h
    · exact ⟨_, rfl⟩
    · exfalso
      change Flt.infTimes _ _ = _ at h
      unfold Flt.infTimes at h
      split_ifs at h <;> cases h
  · rintro ⟨z, rfl⟩; exact ⟨_, rfl⟩

theorem number_mul_fin {c : K} {x : Flt K} : IsNumber (x * Flt.fin c) ↔ IsNumber x := by
  constructor
  · rintro ⟨z, h⟩
    rcases x with _ | (_ | x | _)
    · cases h
    · exfalso
      change Flt.infTimes _ _ = _ at h
      unfold Flt.infTimes at h
      split_ifs at h <;> cases h
    · exact ⟨_, rfl⟩
    · exfalso
      change Flt.infTimes _ _ = _ at h
      unfold Flt.infTimes at h
      split_ifs at h <;> cases h
  · rintro ⟨z, rfl⟩; exact ⟨_, rfl⟩

theorem divBy_fin {h : K} (hh : h ≠ 0) (x : K) : (Flt.fin x).divBy h = .fin (x / h) := by
  change (if h = 0 then _ else _) = _
  rw [if_neg hh]; rfl

theorem number_divBy {h : K} (hh : h ≠ 0) {x : Flt K} : IsNumber (x.divBy h) ↔ IsNumber x := by
  constructor
  · rintro ⟨z, e⟩
    rcases x with _ | (_ | x | _)
    · cases e
    · exfalso
      change (if h < 0 then _ else _) = _ at e
      split_ifs at e <;> cases e
    · exact ⟨_, rfl⟩
    · exfalso
      change (if h < 0 then _ else _) = _ at e
      split_ifs at e <;> cases e
  · rintro ⟨z, rfl⟩; exact ⟨_, divBy_fin hh z⟩

theorem number_sum {n : Nat} {f : Nat → Flt K} : IsNumber (sumTo n f) ↔ ∀ i, i < n → IsNumber (f i) := by
  induction n with
  | zero => exact ⟨fun _ i h => by omega, fun _ => ⟨0, rfl⟩⟩
  | succ n ih =>
    rw [sumTo, number_add, ih]
    constructor
    · rintro ⟨h1, h2⟩ i hi
      by_cases e : i = n
      · rw [e]; exact h2
      · exact h1 i (by omega)
    · intro h; exact ⟨fun i hi => h i (by omega), h n (by omega)⟩

theorem quotient_of (a b : Flt K) {h : K} (hh : h ≠ 0) : IsQuotient a b h ((a - b).divBy h) := by
  refine ⟨?_, ?_, ?_⟩
  · intro v hv
    have h1 := hv true
    have h2 := hv false
    simp only [if_true, Bool.false_eq_true, if_false] at h1 h2
    rw [h1, h2]
    change (Flt.fin (v true) + -(Flt.fin (v false))).divBy h = _
    rw [Flt.neg_fin, Flt.fin_add_fin, divBy_fin hh, ← sub_eq_add_neg]
  · intro i hi hq
    rw [number_divBy hh] at hq
    change IsNumber (a + -b) at hq
    rw [number_add, number_neg] at hq
    cases i
    · exact hi hq.2
    · exact hi hq.1
  · intro i hi
    have : a - b = .nan := by
      change a + -b = .nan
      cases i
      · simp only [Bool.false_eq_true, if_false] at hi; rw [hi]; simp
      · simp only [if_true] at hi; rw [hi]; simp
    rw [this]; rfl

theorem computeJacobian_post (F : DoubleFns d K) (X U : Mat K) (e : K) (hp : d.ph < 2 ^ 31)
    (hp0 : 0 < d.ph) (hX : X.Is (d.ph + 1) d.nx) (hU : U.Is (d.ph + 1) d.nu) :
    Post (Objective.computeJacobianF F X U
        (NlSpec.costF F (X.viewF (d.ph + 1) d.nx) (U.viewF (d.ph + 1) d.nu) e) e)
      (fun r => r.1.Is d.nx d.ph ∧ r.2.1.Is d.nu d.ph ∧
        NlSpec.ObjDiffF d (NlSpec.costF F) (X.viewF (d.ph + 1) d.nx) (U.viewF (d.ph + 1) d.nu) e
          (Objective.stepSeq (X.viewF (d.ph + 1) d.nx)) (Objective.stepSeq (U.viewF (d.ph + 1) d.nu)) (Objective.stepSlack e)
          (fun k a => r.1.get a k) (fun k b => r.2.1.get b k) r.2.2) := by
  unfold Objective.computeJacobianF
  dsimp only
  have hdv : (0 : K) < 1 / 1000000 := by positivity
  refine Post.bind (forward_loop (fun Y => F.callObj Y U e)
    (fun Y => NlSpec.costF F (Y.viewF (d.ph + 1) d.nx) (U.viewF (d.ph + 1) d.nu) e)
    d.ph d.nx 1 X (Mat.const d.nx d.ph 0) (1 / 1000000) _ (fun _ j => X.absMax1.dataVec.at? j)
    (fun _ j => X.absMax1.dataVec.get j) (by rw [hX.1]) hX.2 rfl (by exact Nat.le_refl _)
    (fun i j _ hj => Mat.absMax1_data_ok hX.1 hX.2 hj)
    (fun Y h1 h2 => callObj_ok F Y U e hp ⟨h1.trans hX.1, h2.trans hX.2⟩ hU)) ?_
  rintro ⟨X', Jx⟩ ⟨hX', hJr, hJc, hJ, -⟩
  dsimp only at hX' hJr hJc hJ ⊢
  subst hX'
  refine Post.bind (forward_loop (fun Y => F.callObj X' Y e)
    (fun Y => NlSpec.costF F (X'.viewF (d.ph + 1) d.nx) (Y.viewF (d.ph + 1) d.nu) e)
    (d.ph - 1) d.nu 0 U (Mat.const d.nu d.ph 0) (1 / 1000000) _ (fun _ j => U.absMax1.dataVec.at? j)
    (fun _ j => U.absMax1.dataVec.get j) (by rw [hU.1]; omega) hU.2 rfl (by simp [Mat.const])
    (fun i j _ hj => Mat.absMax1_data_ok hU.1 hU.2 hj)
    (fun Y h1 h2 => callObj_ok F X' Y e hp hX ⟨h1.trans hU.1, h2.trans hU.2⟩)) ?_
  rintro ⟨U', Jm⟩ ⟨hU', hMr, hMc, hM, -⟩
  dsimp only at hU' hMr hMc hM ⊢
  subst hU'
  refine Post.bind (forward_last_loop (fun Y => F.callObj X' Y e)
    (fun Y => NlSpec.costF F (X'.viewF (d.ph + 1) d.nx) (Y.viewF (d.ph + 1) d.nu) e)
    d.nu (d.ph - 1) d.ph (d.ph - 1) U' Jm (1 / 1000000) _ (fun j => U'.absMax1.dataVec.at? j)
    (fun j => U'.absMax1.dataVec.get j) (by omega) (by rw [hU.1]; omega) (by rw [hU.1]; omega) hU.2 hMr
    (by rw [hMc]; simp [Mat.const]; omega)
    (fun j hj => Mat.absMax1_data_ok hU.1 hU.2 hj)
    (fun Y h1 h2 => callObj_ok F X' Y e hp hX ⟨h1.trans hU.1, h2.trans hU.2⟩)) ?_
  rintro ⟨U'', Jm'⟩ ⟨hU'', hNr, hNc, hN, hN2⟩
  dsimp only at hU'' hNr hNc hN hN2 ⊢
  subst hU''
  rw [callObj_ok F X' U'' _ hp hX hU, ok_bind, callObj_ok F X' U'' _ hp hX hU, ok_bind]
  have hde : 0 < max (1 / 1000000) |e| * (1 / 1000000 : K) :=
    mul_pos (lt_of_lt_of_le hdv (le_max_left _ _)) hdv
  refine post_pure ⟨⟨hJr, by rw [hJc]; rfl⟩, ⟨hNr, by rw [hNc, hMc]; rfl⟩,
    fun _ => NlSpec.stepOf_pos hdv _, ?_, fun _ => NlSpec.stepOf_pos hdv _, ?_, ?_, hde, quotient_of _ _ (by positivity)⟩
  · intro k a hk ha
    dsimp only
    rw [hJ k a hk ha, Mat.viewF_bumpM, Mat.step_data_eq _ hX.1 ha]
    exact quotient_of _ _ (NlSpec.stepOf_pos hdv _).ne'
  · intro k b hk hb
    dsimp only
    rw [hN2 b k (by omega), hM k b (by omega) hb, Mat.viewF_bumpM, Mat.step_data_eq _ hU.1 hb]
    exact quotient_of _ _ (NlSpec.stepOf_pos hdv _).ne'
  · intro b hb
    dsimp only
    rw [hN b hb, Mat.viewF_bump2, Mat.step_data_eq _ hU.1 hb]
    exact quotient_of _ _ (NlSpec.stepOf_pos hdv _).ne'

theorem pack_loop {α : Type} (n m c0 : Nat) (g : Vec α) (J : Mat α) (hJr : J.rows = m) (hJc : J.cols = n)
    (hg : c0 + n * m ≤ g.size) :
    Post (forRange n (c0, g) fun j s => forRange m s fun i s => do
        let g ← s.2.set s.1 (← J.at? i j)
        return (s.1 + 1, g))
      (fun s => s.1 = c0 + n * m ∧ s.2.size = g.size ∧
        (∀ j i, j < n → i < m → s.2.get (c0 + (j * m + i)) = J.get i j) ∧
        (∀ l, (l < c0 ∨ c0 + n * m ≤ l) → s.2.get l = g.get l)) := by
  refine (forRange2_post n m (c0, g) _ (fun j i s => s.1 = c0 + (j * m + i) ∧ s.2.size = g.size ∧
        (∀ j' i', i' < m → (j' < j ∨ (j' = j ∧ i' < i)) → s.2.get (c0 + (j' * m + i')) = J.get i' j') ∧
        (∀ l, (l < c0 ∨ c0 + n * m ≤ l) → s.2.get l = g.get l)) ?_ ?_ ?_).mono ?_
  · exact ⟨by simp, rfl, fun _ _ _ h => by omega, fun _ _ => rfl⟩
  · rintro j i ⟨c, v⟩ hj hi ⟨rfl, h2, h3, h4⟩
    dsimp only at h2 h3 h4 ⊢
    have hlt : j * m + i < n * m := block_lt hi hj
    rw [Mat.at_ok (by omega) (by omega), ok_bind, Vec.set_ok (by omega), ok_bind]
    refine post_pure ⟨by dsimp only; omega, h2, ?_, ?_⟩
    · intro j' i' hi' h
      simp only [Vec.setRaw]
      by_cases he : j' = j ∧ i' = i
      · obtain ⟨rfl, rfl⟩ := he; rw [if_pos rfl]
      · rw [if_neg (by
          intro h; have := (block_eq_iff hi' hi).1 (Nat.add_left_cancel h); exact he this)]
        exact h3 j' i' hi' (by omega)
    · intro l hl
      simp only [Vec.setRaw]
      rw [if_neg (by omega)]; exact h4 l hl
  · rintro j ⟨c, v⟩ hj ⟨h1, h2, h3, h4⟩
    dsimp only at h1 h2 h3 h4
    refine ⟨by dsimp only; rw [h1]; ring, h2, ?_, h4⟩
    intro j' i' hi' h
    refine h3 j' i' hi' ?_
    rcases h with h | h
    · rcases Nat.lt_succ_iff_lt_or_eq.1 h with h | h
      · exact Or.inl h
      · exact Or.inr ⟨h, hi'⟩
    · omega
  · rintro ⟨c, v⟩ ⟨h1, h2, h3, h4⟩
    exact ⟨by simpa using h1, h2, fun j i hj hi => h3 j i hi (Or.inl hj), h4⟩

/-! ### Arranging the derivatives -/

theorem mul_fin_comm (x : Flt K) (c : K) : x * Flt.fin c = Flt.fin c * x := by
  rcases x with _ | (_ | x | _)
  · rfl
  · rfl
  · change Flt.fin (x * c) = Flt.fin (c * x); rw [mul_comm]
  · rfl

theorem from_self (x : Flt K) (c : K) : From (fun _ : Unit => x) (fun v => v () * c) (x * Flt.fin c) := by
  refine ⟨?_, ?_, ?_⟩
  · intro v hv; rw [hv ()]; rfl
  · intro _ h; rw [number_mul_fin]; exact h
  · intro _ h; rw [h]; rfl

theorem from_one (x : Flt K) : From (fun _ : Unit => x) (fun v => v () * 1) x := by
  refine ⟨?_, fun _ h => h, fun _ h => h⟩
  intro v hv; rw [hv (), mul_one]

/-- a block-indexed family as a sequence -/
def flat {n m : Nat} (v : Fin n × Fin m → K) (q : Nat) : K :=
  if h : q / m < n ∧ q % m < m then v (⟨q / m, h.1⟩, ⟨q % m, h.2⟩) else 0

theorem flat_block {n m : Nat} (v : Fin n × Fin m → K) (k : Fin n) (b : Fin m) : flat v (k * m + b) = v (k, b) := by
  unfold flat
  have h1 : (k * m + b : Nat) / m = k := block_div _ b.2
  have h2 : (k * m + b : Nat) % m = b := block_mod _ b.2
  rw [dif_pos ⟨by rw [h1]; exact k.2, by rw [h2]; exact b.2⟩]
  congr 1
  exact Prod.ext (Fin.ext h1) (Fin.ext h2)

/-- Chain rule through move blocking: every quotient enters every input variable. -/
theorem gather_from {mp : Mapping K} (hm : mp.Good) (gu : Nat → Nat → Flt K) (w : Nat → Flt K)
    (hw : ∀ k b, k < mp.dims.ph → b < mp.dims.nu → w (k * mp.dims.nu + b) = gu k b) {j : Nat} (hj : j < mp.dims.ch)
    (b : Fin mp.dims.nu) :
    From (fun i : Fin mp.dims.ph × Fin mp.dims.nu => gu i.1 i.2)
      (fun v => mp.inputScaling.get b * ∑ k : Fin mp.dims.ph, if min (k : Nat) (mp.dims.ch - 1) = j then v (k, b) else 0)
      (sumTo mp.Iz2u.rows fun q => Flt.fin (mp.Iz2u.get q (j * mp.dims.nu + b)) * w q) := by
  rw [hm.iz_rows]
  have hix : ∀ i : Fin mp.dims.ph × Fin mp.dims.nu, (i.1 * mp.dims.nu + i.2 : Nat) < mp.dims.ph * mp.dims.nu := fun i =>
    block_lt i.2.2 i.1.2
  refine ⟨?_, ?_, ?_⟩
  · intro v hv
    rw [Flt.sum_fin (g := fun q => mp.Iz2u.get q (j * mp.dims.nu + b) * flat v q)]
    · congr 1
      have := hm.gather (flat v) hj b.2
      rw [hm.iz_rows] at this
      rw [this, ← Fin.sum_univ_eq_sum_range (fun k => if min k (mp.dims.ch - 1) = j then flat v (k * mp.dims.nu + b) else 0)]
      congr 1
      refine Finset.sum_congr rfl fun k _ => ?_
      rw [flat_block]
    · intro q hq
      obtain ⟨k, c, hk, hc, rfl⟩ := exists_block hq
      rw [hw k c hk hc, hv (⟨k, hk⟩, ⟨c, hc⟩)]
      have := flat_block v ⟨k, hk⟩ ⟨c, hc⟩
      dsimp only at this
      rw [this]; rfl
  · intro i hi hn
    rw [number_sum] at hn
    have := hn _ (hix i)
    rw [number_fin_mul, hw _ _ i.1.2 i.2.2] at this
    exact hi this
  · intro i hi
    refine Flt.sum_nan (hix i) ?_
    rw [hw _ _ i.1.2 i.2.2, hi, Flt.mul_nan]

theorem evaluateObj_post (o : Objective d K) (ho : o.Sized) (mp : Mapping K) (hm : mp.Good) (hd : mp.dims = d) (F : DoubleFns d K)
    (x : Vec K) (hx : x.size = d.nZ) (hp : d.ph < 2 ^ 31) (hg : Bool) :
    Post (o.evaluateF mp F x hg) (fun r =>
      r.1 = NlSpec.costF F (NlSpec.codeStates d mp.stateScaling.get o.x0.get x.get)
        (NlSpec.inputs d mp.inputScaling.get x.get) (x.get (NlSpec.slackIx d)) ∧
      (if hg then ∃ g gx gu ge, r.2 = some g ∧ g.size = d.nZ ∧
        NlSpec.ObjDiffF d (NlSpec.costF F) (NlSpec.codeStates d mp.stateScaling.get o.x0.get x.get)
          (NlSpec.inputs d mp.inputScaling.get x.get) (x.get (NlSpec.slackIx d))
          (Objective.stepSeq (NlSpec.codeStates d mp.stateScaling.get o.x0.get x.get))
          (Objective.stepSeq (NlSpec.inputs d mp.inputScaling.get x.get)) (Objective.stepSlack (x.get (NlSpec.slackIx d))) gx gu ge ∧
        NlSpec.RowF d (fun _ => 1) mp.inputScaling.get gx gu ge g.get
       else r.2 = none)) := by
  subst hd
  have hch := hm.ch_pos
  have hle := hm.ch_le
  unfold Objective.evaluateF
  dsimp only
  refine Post.bind (Mapping.unwrapVector_post mp hm x o.x0 o.Xmat o.Umat hx ho.x0 ho.X.1 ho.X.2 ho.U.1 ho.U.2) ?_
  rintro ⟨X, U, e⟩ hw
  have hXv := Objective.viewF_states hw
  have hUv := Objective.viewF_inputs hw
  have hXs : X.Is (mp.dims.ph + 1) mp.dims.nx := ⟨hw.xr, hw.xc⟩
  have hUs : U.Is (mp.dims.ph + 1) mp.dims.nu := ⟨hw.ur, hw.uc⟩
  have he : e = x.get (NlSpec.slackIx mp.dims) := hw.e
  dsimp only at hXv hUv ⊢
  rw [callObj_ok F X U e hp hXs hUs, ok_bind]
  cases hg with
  | false =>
    simp only [Bool.false_eq_true, if_false]
    refine post_pure ⟨?_, rfl⟩
    dsimp only; rw [hXv, hUv, he]
  | true =>
    simp only [if_true]
    refine Post.bind (computeJacobian_post F X U e hp (by omega) hXs hUs) ?_
    rintro ⟨Jx, Jm, Je⟩ ⟨hJx, hJm, hD⟩
    dsimp only at hJx hJm hD ⊢
    refine Post.bind (by
      rw [hJx.1, hJx.2]
      exact pack_loop mp.dims.ph mp.dims.nx 0 (Vec.const mp.dims.nZ 0) Jx hJx.1 hJx.2
        (by simp [Vec.const, Dims.nZ]; omega)) ?_
    rintro ⟨c1, g1⟩ ⟨h1, h2, h3, h4⟩
    dsimp only at h1 h2 h3 h4 ⊢
    refine Post.bind (by
      rw [hJm.1, hJm.2]
      exact pack_loop mp.dims.ph mp.dims.nu 0 (Vec.const (mp.dims.ph * mp.dims.nu) 0) Jm hJm.1 hJm.2
        (by simp [Vec.const])) ?_
    rintro ⟨c2, v⟩ ⟨-, k2, k3, -⟩
    dsimp only at k2 k3 ⊢
    rw [Mat.mulVec_ok (by simp only [Mat.transpose, Mat.map]; rw [hm.iz_rows, k2]; rfl), ok_bind]
    refine Post.bind (Q := fun s : Nat × Vec (Flt K) => s.2.size = mp.dims.nZ ∧
        (∀ k a, k < mp.dims.ph → a < mp.dims.nx → s.2.get (k * mp.dims.nx + a) = Jx.get a k) ∧
        (∀ q, q < mp.dims.ch * mp.dims.nu → s.2.get (mp.dims.ph * mp.dims.nx + q)
          = sumTo mp.Iz2u.rows (fun p => Flt.fin (mp.Iz2u.get p q) * v.get p))) ?_ ?_
    · refine (forRange_post _ (c1, g1) _ (fun q (s : Nat × Vec (Flt K)) => s.1 = mp.dims.ph * mp.dims.nx + q ∧
        s.2.size = mp.dims.nZ ∧
        (∀ k a, k < mp.dims.ph → a < mp.dims.nx → s.2.get (k * mp.dims.nx + a) = Jx.get a k) ∧
        (∀ q', q' < q → s.2.get (mp.dims.ph * mp.dims.nx + q')
          = sumTo mp.Iz2u.rows (fun p => Flt.fin (mp.Iz2u.get p q') * v.get p))) ?_ ?_).mono ?_
      · refine ⟨by simpa using h1, h2, ?_, fun _ h => by omega⟩
        intro k a hk ha
        have := h3 k a hk ha
        rwa [Nat.zero_add] at this
      · rintro q ⟨c, w⟩ hq ⟨rfl, l2, l3, l4⟩
        dsimp only at l2 l3 l4 ⊢
        have hq' : q < mp.dims.nu * mp.dims.ch := by rw [Nat.mul_comm]; exact hq
        rw [Vec.at_ok (by simp only [Mat.transpose, Mat.map]; rw [hm.iz_cols]; exact hq'), ok_bind,
          Vec.set_ok (by rw [l2]; unfold Dims.nZ; omega), ok_bind]
        refine post_pure ⟨by dsimp only; omega, l2, ?_, ?_⟩
        · intro k a hk ha
          simp only [Vec.setRaw]
          have := block_lt ha hk
          rw [if_neg (by omega)]; exact l3 k a hk ha
        · intro q' hq2
          simp only [Vec.setRaw]
          by_cases h : q' = q
          · subst h; rw [if_pos rfl]; rfl
          · rw [if_neg (by omega)]; exact l4 q' (by omega)
      · rintro ⟨c, w⟩ ⟨-, l2, l3, l4⟩
        exact ⟨l2, l3, l4⟩
    · rintro ⟨c, w⟩ ⟨l2, l3, l4⟩
      dsimp only at l2 l3 l4 ⊢
      rw [Vec.set_ok (by rw [l2]; unfold Dims.nZ; omega), ok_bind]
      refine post_pure ⟨?_, ?_⟩
      · dsimp only; rw [hXv, hUv, he]
      · refine ⟨_, fun k a => Jx.get a k, fun k b => Jm.get b k, Je, rfl, l2, ?_, ?_, ?_, ?_⟩
        · rw [hXv, hUv, he] at hD; exact hD
        · intro k a hk ha
          simp only [Vec.setRaw]
          have := block_lt ha hk
          rw [if_neg (by unfold NlSpec.stateIx Dims.nZ; omega)]
          have e := l3 k a hk ha
          unfold NlSpec.stateIx
          rw [e]
          exact from_one _
        · intro j b hj
          simp only [Vec.setRaw]
          have := block_lt b.2 hj
          have e1 : mp.dims.ch * mp.dims.nu = mp.dims.nu * mp.dims.ch := Nat.mul_comm _ _
          rw [if_neg (by unfold NlSpec.inputIx Dims.nZ; omega)]
          unfold NlSpec.inputIx
          rw [l4 _ this]
          refine gather_from hm (fun k b => Jm.get b k) v.get ?_ hj b
          intro k b hk hb
          have := k3 k b hk hb
          rwa [Nat.zero_add] at this
        · simp only [Vec.setRaw]
          rw [if_pos (by unfold NlSpec.slackIx Dims.nZ; rw [Nat.mul_comm mp.dims.ch]; rfl)]

/-! ### User constraints -/

open Constraints (dv stepLin stepState stepInput dv_pos)

theorem computeIneqJacobian_post (F : DoubleFns d K) (X U : Mat K) (e : K) (hp : d.ph < 2 ^ 31)
    (hp0 : 0 < d.ph) (hX : X.Is (d.ph + 1) d.nx) (hU : U.Is (d.ph + 1) d.nu) :
    Post (Constraints.computeIneqJacobianF F X U e)
      (fun r => r.1.Is d.ineq (d.ph * d.nx) ∧ r.2.1.Is d.ineq (d.ph * d.nu) ∧ r.2.2.size = d.ineq ∧
        NlSpec.ConDiffF d d.ineq (NlSpec.ineqF F) (X.viewF (d.ph + 1) d.nx) (U.viewF (d.ph + 1) d.nu) e
          (stepLin (X.viewF (d.ph + 1) d.nx)) (stepLin (U.viewF (d.ph + 1) d.nu)) false
          (fun c k a => r.1.get c (k * d.nx + a)) (fun c k b => r.2.1.get c (k * d.nu + b)) ∧
        0 < Constraints.stepSlack e ∧ ∀ c : Fin d.ineq,
          IsQuotient (NlSpec.ineqF F (X.viewF (d.ph + 1) d.nx) (U.viewF (d.ph + 1) d.nu) (e + Constraints.stepSlack e) c)
            (NlSpec.ineqF F (X.viewF (d.ph + 1) d.nx) (U.viewF (d.ph + 1) d.nu) (e - Constraints.stepSlack e) c)
            (2 * Constraints.stepSlack e) (r.2.2.get c)) := by
  unfold Constraints.computeIneqJacobianF
  dsimp only
  refine Post.bind (central_loop (fun Y => F.callIneq Y U e)
    (fun Y => Vec.ofF (NlSpec.ineqF F (Y.viewF (d.ph + 1) d.nx) (U.viewF (d.ph + 1) d.nu) e))
    d.ineq d.ph d.nx 1 X (Mat.const d.ineq (d.ph * d.nx) 0) (fun _ j => X.absMax1.dataVec.at? j)
    (fun _ j => X.absMax1.dataVec.get j) (by rw [hX.1]) hX.2 rfl (by exact Nat.le_refl _)
    (fun i j _ hj => Mat.absMax1_data_ok hX.1 hX.2 hj)
    (fun Y h1 h2 => ⟨callIneq_ok F Y U e hp ⟨h1.trans hX.1, h2.trans hX.2⟩ hU, rfl⟩)) ?_
  rintro ⟨X', Jx⟩ ⟨hX', hJr, hJc, hJ, -⟩
  dsimp only at hX' hJr hJc hJ ⊢
  subst hX'
  refine Post.bind (central_loop (fun Y => F.callIneq X' Y e)
    (fun Y => Vec.ofF (NlSpec.ineqF F (X'.viewF (d.ph + 1) d.nx) (Y.viewF (d.ph + 1) d.nu) e))
    d.ineq d.ph d.nu 0 U (Mat.const d.ineq (d.ph * d.nu) 0) (fun _ j => U.absMax1.dataVec.at? j)
    (fun _ j => U.absMax1.dataVec.get j) (by rw [hU.1]; omega) hU.2 rfl (by exact Nat.le_refl _)
    (fun i j _ hj => Mat.absMax1_data_ok hU.1 hU.2 hj)
    (fun Y h1 h2 => ⟨callIneq_ok F X' Y e hp hX ⟨h1.trans hU.1, h2.trans hU.2⟩, rfl⟩)) ?_
  rintro ⟨U', Jm⟩ ⟨hU', hMr, hMc, hM, -⟩
  dsimp only at hU' hMr hMc hM ⊢
  subst hU'
  rw [callIneq_ok F X' U' _ hp hX hU, ok_bind, callIneq_ok F X' U' _ hp hX hU, ok_bind]
  unfold Vec.subDivF
  rw [require_ok (by simp), ok_bind]
  simp only [pure_bind']
  have hde : 0 < max dv |e| * (dv : K) := mul_pos (lt_of_lt_of_le dv_pos (le_max_left _ _)) dv_pos
  refine post_pure ⟨⟨hJr, by rw [hJc]; rfl⟩, ⟨hMr, by rw [hMc]; rfl⟩, by simp,
    ⟨fun _ _ => NlSpec.stepOf_pos dv_pos _, ?_, fun _ _ => NlSpec.stepOf_pos dv_pos _, ?_, ?_⟩, hde, ?_⟩
  · intro c k a hk ha
    dsimp only
    rw [hJ k a c hk ha, Mat.viewF_bumpM, Mat.viewF_bumpM, Vec.ofF_get, Vec.ofF_get, Mat.step_data_eq _ hX.1 ha]
    exact quotient_of _ _ (mul_ne_zero two_ne_zero (NlSpec.stepOf_pos dv_pos _).ne')
  · intro c k b hk hb
    dsimp only
    rw [hM k b c (by omega) hb, Mat.viewF_bumpM, Mat.viewF_bumpM, Vec.ofF_get, Vec.ofF_get, Mat.step_data_eq _ hU.1 hb]
    exact quotient_of _ _ (mul_ne_zero two_ne_zero (NlSpec.stepOf_pos dv_pos _).ne')
  · intro c b hb
    simp only [Bool.false_eq_true, if_false]
    rw [hM (d.ph - 1) b c (by omega) hb, Mat.viewF_bumpM, Mat.viewF_bumpM, Vec.ofF_get, Vec.ofF_get,
      Mat.step_data_eq _ hU.1 hb]
    exact quotient_of _ _ (mul_ne_zero two_ne_zero (NlSpec.stepOf_pos dv_pos _).ne')
  · intro c
    dsimp only
    rw [Vec.ofF_get, Vec.ofF_get]
    exact quotient_of _ _ (mul_ne_zero two_ne_zero hde.ne')

theorem computeEqJacobian_post (F : DoubleFns d K) (X U : Mat K) (e : K)
    (hp0 : 0 < d.ph) (hX : X.Is (d.ph + 1) d.nx) (hU : U.Is (d.ph + 1) d.nu) :
    Post (Constraints.computeEqJacobianF F X U)
      (fun r => r.1.Is d.eq (d.ph * d.nx) ∧ r.2.Is d.eq (d.ph * d.nu) ∧
        NlSpec.ConDiffF d d.eq (fun X U _ => F.eq X U) (X.viewF (d.ph + 1) d.nx) (U.viewF (d.ph + 1) d.nu) e
          (stepState (X.viewF (d.ph + 1) d.nx)) (stepInput (d.ph - 1) (U.viewF (d.ph + 1) d.nu)) true
          (fun c k a => r.1.get c (k * d.nx + a)) (fun c k b => r.2.get c (k * d.nu + b))) := by
  unfold Constraints.computeEqJacobianF
  dsimp only
  have hend : (d.ph - 1) * d.nu + d.nu ≤ d.ph * d.nu := block_end_le (by omega)
  refine Post.bind (central_loop (fun Y => F.callEq Y U)
    (fun Y => Vec.ofF (F.eq (Y.viewF (d.ph + 1) d.nx) (U.viewF (d.ph + 1) d.nu)))
    d.eq d.ph d.nx 1 X (Mat.const d.eq (d.ph * d.nx) 0) (fun i j => X.absMax1.at? (i + 1) j)
    (fun i j => X.absMax1.get (i + 1) j) (by rw [hX.1]) hX.2 rfl (by exact Nat.le_refl _)
    (fun i j hi hj => Mat.at_ok (by simp only [Mat.absMax1]; rw [hX.1]; omega)
      (by simp only [Mat.absMax1]; rw [hX.2]; omega))
    (fun Y h1 h2 => ⟨callEq_ok F Y U ⟨h1.trans hX.1, h2.trans hX.2⟩ hU, rfl⟩)) ?_
  rintro ⟨X', Jx⟩ ⟨hX', hJr, hJc, hJ, -⟩
  dsimp only at hX' hJr hJc hJ ⊢
  subst hX'
  have hUa : ∀ j, j < d.nu → U.absMax1.at? (d.ph - 1) j = .ok (U.absMax1.get (d.ph - 1) j) := fun j hj =>
    Mat.at_ok (by simp only [Mat.absMax1]; rw [hU.1]; omega) (by simp only [Mat.absMax1]; rw [hU.2]; omega)
  refine Post.bind (central_loop (fun Y => F.callEq X' Y)
    (fun Y => Vec.ofF (F.eq (X'.viewF (d.ph + 1) d.nx) (Y.viewF (d.ph + 1) d.nu)))
    d.eq (d.ph - 1) d.nu 0 U (Mat.const d.eq (d.ph * d.nu) 0) (fun _ j => U.absMax1.at? (d.ph - 1) j)
    (fun _ j => U.absMax1.get (d.ph - 1) j) (by rw [hU.1]; omega) hU.2 rfl (by simp only [Mat.const]; omega)
    (fun i j _ hj => hUa j hj)
    (fun Y h1 h2 => ⟨callEq_ok F X' Y hX ⟨h1.trans hU.1, h2.trans hU.2⟩, rfl⟩)) ?_
  rintro ⟨U', Jm⟩ ⟨hU', hMr, hMc, hM, -⟩
  dsimp only at hU' hMr hMc hM ⊢
  subst hU'
  refine Post.bind (central_last_loop (fun Y => F.callEq X' Y)
    (fun Y => Vec.ofF (F.eq (X'.viewF (d.ph + 1) d.nx) (Y.viewF (d.ph + 1) d.nu)))
    d.eq d.nu (d.ph - 1) d.ph ((d.ph - 1) * d.nu) U' Jm (fun j => U'.absMax1.at? (d.ph - 1) j)
    (fun j => U'.absMax1.get (d.ph - 1) j) (by omega) (by rw [hU.1]; omega) (by rw [hU.1]; omega) hU.2 hMr
    (by rw [hMc]; simp only [Mat.const]; omega) hUa
    (fun Y h1 h2 => ⟨callEq_ok F X' Y hX ⟨h1.trans hU.1, h2.trans hU.2⟩, rfl⟩)) ?_
  rintro ⟨U'', Jm'⟩ ⟨hU'', hNr, hNc, hN, hN2⟩
  dsimp only at hU'' hNr hNc hN hN2 ⊢
  subst hU''
  refine post_pure ⟨⟨hJr, by rw [hJc]; rfl⟩, ⟨hNr, by rw [hNc, hMc]; rfl⟩,
    fun _ _ => NlSpec.stepOf_pos dv_pos _, ?_, fun _ _ => NlSpec.stepOf_pos dv_pos _, ?_, ?_⟩
  · intro c k a hk ha
    dsimp only
    rw [hJ k a c hk ha, Mat.viewF_bumpM, Mat.viewF_bumpM, Vec.ofF_get, Vec.ofF_get,
      Mat.step_eq dv X' (r := d.ph + 1) (c := d.nx) (by omega) ha]
    exact quotient_of _ _ (mul_ne_zero two_ne_zero (NlSpec.stepOf_pos dv_pos _).ne')
  · intro c k b hk hb
    have hlt : k * d.nu + b < (d.ph - 1) * d.nu := block_lt hb (by omega)
    dsimp only
    rw [hN2 c _ hlt, hM k b c (by omega) hb, Mat.viewF_bumpM, Mat.viewF_bumpM, Vec.ofF_get, Vec.ofF_get,
      Mat.step_eq dv U'' (r := d.ph + 1) (c := d.nu) (by omega) hb]
    exact quotient_of _ _ (mul_ne_zero two_ne_zero (NlSpec.stepOf_pos dv_pos _).ne')
  · intro c b hb
    simp only [if_true]
    rw [hN b c hb, Mat.viewF_bump2, Mat.viewF_bump2, Vec.ofF_get, Vec.ofF_get,
      Mat.step_eq dv U'' (r := d.ph + 1) (c := d.nu) (by omega) hb]
    exact quotient_of _ _ (mul_ne_zero two_ne_zero (NlSpec.stepOf_pos dv_pos _).ne')

/-- what `glueJacobian` assembles -/
structure Glued (mp : Mapping K) (n : Nat) (Jstate Jman : Mat (Flt K)) (Jcon : Vec (Flt K)) (G : Mat (Flt K)) : Prop where
  is : G.Is mp.dims.nZ n
  states : ∀ c k a, c < n → k < mp.dims.ph → a < mp.dims.nx →
    G.get (NlSpec.stateIx mp.dims k a) c = Jstate.get c (k * mp.dims.nx + a)
  inputs : ∀ (c j : Nat) (b : Fin mp.dims.nu), c < n → j < mp.dims.ch →
    From (fun i : Fin mp.dims.ph × Fin mp.dims.nu => Jman.get c (i.1 * mp.dims.nu + i.2))
      (fun v => mp.inputScaling.get b * ∑ k : Fin mp.dims.ph, if min (k : Nat) (mp.dims.ch - 1) = j then v (k, b) else 0)
      (G.get (NlSpec.inputIx mp.dims j b) c)
  slack : ∀ c, c < n → G.get (NlSpec.slackIx mp.dims) c = Jcon.get c

theorem glueJacobian_post (mp : Mapping K) (hm : mp.Good) (hd : mp.dims = d) (junk : Nat → Flt K) (n : Nat)
    (Jres Jstate Jman : Mat (Flt K)) (Jcon : Vec (Flt K)) (h1 : Jres.Is d.nZ n) (h2 : Jstate.Is n (d.ph * d.nx))
    (h3 : Jman.Is n (d.ph * d.nu)) (h4 : Jcon.size = n) :
    Post (Constraints.glueJacobianF d mp junk Jres Jstate Jman Jcon) (Glued mp n Jstate Jman Jcon) := by
  subst hd
  have hch := hm.ch_pos
  have hle := hm.ch_le
  unfold Constraints.glueJacobianF
  refine Post.bind (Q := fun G : Mat (Flt K) => G.Is mp.dims.nZ n ∧ ∀ c k a, c < n → k < mp.dims.ph → a < mp.dims.nx →
    G.get (k * mp.dims.nx + a) c = Jstate.get c (k * mp.dims.nx + a)) ?_ ?_
  · refine (forRange_post _ _ _ (fun i (G : Mat (Flt K)) => G.Is mp.dims.nZ n ∧
      ∀ c k a, c < n → k < i → a < mp.dims.nx →
        G.get (k * mp.dims.nx + a) c = Jstate.get c (k * mp.dims.nx + a)) ⟨h1, fun _ _ _ _ h => by omega⟩ ?_)
    rintro i G hi ⟨⟨g1, g2⟩, g3⟩
    have hend : i * mp.dims.nx + mp.dims.nx ≤ mp.dims.ph * mp.dims.nx := block_end_le hi
    rw [Mat.block_ok (by omega) (by rw [h2.2]; omega), ok_bind,
      Mat.setBlock_ok (m := G) (r0 := i * mp.dims.nx) (c0 := 0) (by rw [g1]; unfold Dims.nZ; omega) (by omega) (by rfl)
        (by simp only [Mat.transpose]; rw [h2.1, g2])]
    refine post_ok ⟨⟨g1, g2⟩, ?_⟩
    intro c k a hc hk ha
    simp only [Mat.setBlockRaw, block_mem_iff ha, Mat.transpose]
    by_cases he : k = i
    · subst he
      rw [if_pos ⟨rfl, by omega⟩]
      simp
    · rw [if_neg (fun h => he h.1)]
      exact g3 c k a hc (by omega) ha
  · rintro G ⟨⟨g1, g2⟩, g3⟩
    refine Post.bind (Q := fun Jm : Mat (Flt K) => Jm.Is n (mp.dims.ph * mp.dims.nu) ∧
      ∀ c k b, c < n → k < mp.dims.ph → b < mp.dims.nu →
        Jm.get c (k * mp.dims.nu + b) = Jman.get c (k * mp.dims.nu + b)) ?_ ?_
    · refine (forRange_post _ _ _ (fun i (Jm : Mat (Flt K)) => Jm.Is n (mp.dims.ph * mp.dims.nu) ∧
        ∀ c k b, c < n → k < i → b < mp.dims.nu →
          Jm.get c (k * mp.dims.nu + b) = Jman.get c (k * mp.dims.nu + b))
        ⟨⟨g2, rfl⟩, fun _ _ _ _ h => by omega⟩ ?_)
      rintro i Jm hi ⟨⟨k1, k2⟩, k3⟩
      have hend : i * mp.dims.nu + mp.dims.nu ≤ mp.dims.ph * mp.dims.nu := block_end_le hi
      rw [Mat.block_ok (by omega) (by rw [h3.2]; omega), ok_bind,
        Mat.setBlock_ok (by rw [k1, g2]; omega) (by rw [k2]; omega) (by dsimp only; rw [h3.1, g2]) (by rfl)]
      refine post_ok ⟨⟨k1, k2⟩, ?_⟩
      intro c k b hc hk hb
      simp only [Mat.setBlockRaw, block_mem_iff hb]
      by_cases he : k = i
      · subst he
        rw [if_pos ⟨by omega, rfl⟩]
        simp
      · rw [if_neg (fun h => he h.2)]
        exact k3 c k b hc (by omega) hb
    · rintro Jm ⟨⟨k1, k2⟩, k3⟩
      rw [Mat.mul_ok (by rw [k2]; exact hm.iz_rows.symm), ok_bind]
      rw [Mat.setBlock_ok (by rw [g1]; unfold Dims.nZ; omega) (by omega)
        (by simp only [Mat.transpose]; exact hm.iz_cols) (by simp only [Mat.transpose]; rw [k1, g2]), ok_bind]
      have hr : (G.setBlockRaw (mp.dims.ph * mp.dims.nx) 0 (mp.dims.nu * mp.dims.ch) G.cols
          (Mat.transpose ⟨Jm.rows, (mp.Iz2u.map Flt.fin).cols,
            fun i j => sumTo Jm.cols fun k => Jm.get i k * (mp.Iz2u.map Flt.fin).get k j⟩).get).rows = mp.dims.nZ := g1
      rw [require_ok (by rw [hr]; unfold Dims.nZ; omega), ok_bind,
        Mat.setBlock_ok (by rw [hr]; unfold Dims.nZ; omega) (by simp [Mat.setBlockRaw])
          (by rfl) (by simp only [Vec.asRow, Mat.setBlockRaw]; rw [h4, g2])]
      rw [hr]
      have e1 : mp.dims.ch * mp.dims.nu = mp.dims.nu * mp.dims.ch := Nat.mul_comm _ _
      refine post_ok ⟨⟨g1, g2⟩, ?_, ?_, ?_⟩
      · intro c k a hc hk ha
        have hlt := block_lt ha hk
        unfold NlSpec.stateIx
        rw [Mat.setBlockRaw_get, if_neg (by unfold Dims.nZ; omega), Mat.setBlockRaw_get, if_neg (by omega)]
        exact g3 c k a hc hk ha
      · intro c j b hc hj
        have hlt := block_lt b.2 hj
        unfold NlSpec.inputIx
        rw [Mat.setBlockRaw_get, if_neg (by unfold Dims.nZ; omega), Mat.setBlockRaw_get, if_pos (by omega)]
        simp only [Mat.transpose]
        have e2 : mp.dims.ph * mp.dims.nx + (j * mp.dims.nu + b) - mp.dims.ph * mp.dims.nx = j * mp.dims.nu + b := by
          omega
        rw [e2, Nat.sub_zero, k2, ← hm.iz_rows]
        rw [show (fun k => Jm.get c k * (mp.Iz2u.map Flt.fin).get k (j * mp.dims.nu + b))
          = fun k => Flt.fin (mp.Iz2u.get k (j * mp.dims.nu + b)) * Jm.get c k from funext fun k => mul_fin_comm _ _]
        exact gather_from hm (fun k b => Jman.get c (k * mp.dims.nu + b)) (Jm.get c) (fun k b hk hb => k3 c k b hc hk hb) hj b
      · intro c hc
        unfold NlSpec.slackIx
        rw [Mat.setBlockRaw_get, if_pos (by simp only [Mat.setBlockRaw]; unfold Dims.nZ; omega), Nat.sub_zero]
        rfl

/-- what the scaling loops leave -/
structure Scaled (mp : Mapping K) (n : Nat) (G G' : Mat (Flt K)) : Prop where
  is : G'.Is mp.dims.nZ n
  states : ∀ c k a, c < n → k < mp.dims.ph → a < mp.dims.nx →
    G'.get (NlSpec.stateIx mp.dims k a) c = G.get (NlSpec.stateIx mp.dims k a) c * Flt.fin (mp.stateScaling.get a)
  rest : ∀ c l, c < n → mp.dims.ph * mp.dims.nx ≤ l → G'.get l c = G.get l c

theorem scaleStateRows_post (mp : Mapping K) (hm : mp.Good) (hd : mp.dims = d) (n : Nat) (G : Mat (Flt K))
    (hG : G.Is d.nZ n) : Post (Constraints.scaleStateRowsF d mp G) (Scaled mp n G) := by
  subst hd
  unfold Constraints.scaleStateRowsF
  rw [hG.2]
  refine (forRange_post n G _ (fun j (G' : Mat (Flt K)) => G'.Is mp.dims.nZ n ∧
    (∀ c k a, c < j → k < mp.dims.ph → a < mp.dims.nx →
      G'.get (k * mp.dims.nx + a) c = G.get (k * mp.dims.nx + a) c * Flt.fin (mp.stateScaling.get a)) ∧
    (∀ c l, mp.dims.ph * mp.dims.nx ≤ l → G'.get l c = G.get l c) ∧
    (∀ c l, j ≤ c → G'.get l c = G.get l c)) ⟨hG, fun _ _ _ h => by omega, fun _ _ _ => rfl, fun _ _ _ => rfl⟩
    ?_).mono ?_
  · rintro j G1 hj ⟨⟨q1, q2⟩, q3, q4, q5⟩
    refine Post.bind (Q := fun s : Nat × Mat (Flt K) => s.2.Is mp.dims.nZ n ∧
      (∀ k a, k < mp.dims.ph → a < mp.dims.nx →
        s.2.get (k * mp.dims.nx + a) j = G.get (k * mp.dims.nx + a) j * Flt.fin (mp.stateScaling.get a)) ∧
      (∀ l, mp.dims.ph * mp.dims.nx ≤ l → s.2.get l j = G.get l j) ∧
      (∀ c l, c ≠ j → s.2.get l c = G1.get l c)) ?_ ?_
    · refine (forRange_post mp.dims.ph ((0 : Nat), G1) _ (fun i (s : Nat × Mat (Flt K)) => s.1 = i * mp.dims.nx ∧
        s.2.Is mp.dims.nZ n ∧
        (∀ k a, k < i → a < mp.dims.nx →
          s.2.get (k * mp.dims.nx + a) j = G.get (k * mp.dims.nx + a) j * Flt.fin (mp.stateScaling.get a)) ∧
        (∀ l, i * mp.dims.nx ≤ l → s.2.get l j = G.get l j) ∧
        (∀ c l, c ≠ j → s.2.get l c = G1.get l c)) ?_ ?_).mono ?_
      · exact ⟨by simp, ⟨q1, q2⟩, fun _ _ h => by omega, fun l _ => q5 j l (Nat.le_refl _), fun _ _ _ => rfl⟩
      · rintro i ⟨c0, G2⟩ hi ⟨rfl, ⟨r1, r2⟩, r3, r4, r5⟩
        dsimp only at r1 r2 r3 r4 r5 ⊢
        have hend : i * mp.dims.nx + mp.dims.nx ≤ mp.dims.ph * mp.dims.nx := block_end_le hi
        refine Post.bind (Q := fun G3 : Mat (Flt K) => G3.Is mp.dims.nZ n ∧
          (∀ k a, k < i + 1 → a < mp.dims.nx →
            G3.get (k * mp.dims.nx + a) j = G.get (k * mp.dims.nx + a) j * Flt.fin (mp.stateScaling.get a)) ∧
          (∀ l, (i + 1) * mp.dims.nx ≤ l → G3.get l j = G.get l j) ∧
          (∀ c l, c ≠ j → G3.get l c = G1.get l c)) ?_ ?_
        · refine (forRange_post mp.dims.nx G2 _ (fun ix (G3 : Mat (Flt K)) => G3.Is mp.dims.nZ n ∧
            (∀ k a, (k < i ∨ (k = i ∧ a < ix)) → a < mp.dims.nx →
              G3.get (k * mp.dims.nx + a) j = G.get (k * mp.dims.nx + a) j * Flt.fin (mp.stateScaling.get a)) ∧
            (∀ l, i * mp.dims.nx + ix ≤ l → G3.get l j = G.get l j) ∧
            (∀ c l, c ≠ j → G3.get l c = G1.get l c)) ?_ ?_).mono ?_
          · exact ⟨⟨r1, r2⟩, fun k a h ha => r3 k a (by omega) ha, fun l hl => r4 l (by omega), r5⟩
          · rintro ix G3 hix ⟨⟨s1, s2⟩, s3, s4, s5⟩
            have hst := hm.stsz
            have hb : i * mp.dims.nx + ix < G3.rows := by rw [s1]; unfold Dims.nZ; omega
            rw [Vec.at_ok (by omega), ok_bind, Mat.at_ok hb (by omega), ok_bind, Mat.set_ok hb (by omega)]
            refine post_ok ⟨⟨s1, s2⟩, ?_, ?_, ?_⟩
            · intro k a h ha
              simp only [Mat.setRaw]
              by_cases he : k = i ∧ a = ix
              · obtain ⟨rfl, rfl⟩ := he
                simp only [and_self, if_true]
                rw [s4 _ (Nat.le_refl _)]
              · rw [if_neg (by rw [block_eq_iff ha hix]; exact fun h => he h.1)]
                exact s3 k a (by omega) ha
            · intro l hl
              simp only [Mat.setRaw]
              rw [if_neg (by omega)]; exact s4 l (by omega)
            · intro c l hc
              simp only [Mat.setRaw]
              rw [if_neg (fun h => hc h.2)]; exact s5 c l hc
          · rintro G3 ⟨s1, s3, s4, s5⟩
            exact ⟨s1, fun k a h ha => s3 k a (by omega) ha, fun l hl => s4 l (by rw [Nat.add_mul] at hl; omega), s5⟩
        · rintro G3 ⟨s1, s3, s4, s5⟩
          exact post_pure ⟨by dsimp only; ring, s1, s3, s4, s5⟩
      · rintro ⟨c0, G2⟩ ⟨-, r1, r3, r4, r5⟩
        exact ⟨r1, r3, r4, r5⟩
    · rintro ⟨c0, G2⟩ ⟨r1, r3, r4, r5⟩
      dsimp only at r1 r3 r4 r5 ⊢
      refine post_pure ⟨r1, ?_, ?_, ?_⟩
      · intro c k a hc hk ha
        by_cases he : c = j
        · subst he; exact r3 k a hk ha
        · rw [r5 c _ he]; exact q3 c k a (by omega) hk ha
      · intro c l hl
        by_cases he : c = j
        · subst he; exact r4 l hl
        · rw [r5 c _ he]; exact q4 c l hl
      · intro c l hc
        rw [r5 c l (by omega)]; exact q5 c l (by omega)
  · rintro G' ⟨h1, h2, h3, -⟩
    exact ⟨h1, h2, fun c l _ hl => h3 c l hl⟩

theorem dataVec_get {G : Mat (Flt K)} {N n : Nat} (h : G.Is N n) {c l : Nat} (hl : l < N) :
    G.dataVec.get (c * N + l) = G.get l c := by
  simp only [Mat.dataVec]
  rw [h.1, block_mod c hl, block_div c hl]

theorem rows_of (mp : Mapping K) (n : Nat) (Jx Jm : Mat (Flt K)) (Jc : Vec (Flt K)) (G G' : Mat (Flt K))
    (hG : Glued mp n Jx Jm Jc G) (hG' : Scaled mp n G G') {c : Nat} (hc : c < n) :
    NlSpec.RowF mp.dims mp.stateScaling.get mp.inputScaling.get (fun k a => Jx.get c (k * mp.dims.nx + a))
      (fun k b => Jm.get c (k * mp.dims.nu + b)) (Jc.get c) (fun l => G'.dataVec.get (c * mp.dims.nZ + l)) := by
  refine ⟨?_, ?_, ?_⟩
  · intro k a hk ha
    rw [dataVec_get hG'.is (Constraints.stateIx_lt _ hk ha), hG'.states c k a hc hk ha, hG.states c k a hc hk ha]
    exact from_self _ _
  · intro j b hj
    rw [dataVec_get hG'.is (Constraints.inputIx_lt _ hj b.2), hG'.rest c _ hc (by unfold NlSpec.inputIx; omega)]
    exact hG.inputs c j b hc hj
  · rw [dataVec_get hG'.is (Constraints.slackIx_lt _), hG'.rest c _ hc (by unfold NlSpec.slackIx; omega), hG.slack c hc]

theorem evalIneq_post (o : Constraints d K) (ho : o.Sized) (mp : Mapping K) (hm : mp.Good) (hd : mp.dims = d) (F : DoubleFns d K)
    (junk : Nat → Flt K) (x : Vec K) (hx : x.size = d.nZ) (hp : d.ph < 2 ^ 31) :
    Post (o.evaluateIneqF mp F x junk) (fun r =>
      r.value.size = d.ineq ∧ r.grad.size = d.nZ * d.ineq ∧
      (∀ c : Fin d.ineq, r.value.get c
        = NlSpec.ineqF F (NlSpec.codeStates d mp.stateScaling.get o.x0.get x.get)
            (NlSpec.inputs d mp.inputScaling.get x.get) (x.get (NlSpec.slackIx d)) c) ∧
      ∃ (gx gu : Nat → Nat → Nat → Flt K) (ge : Nat → Flt K),
        NlSpec.ConDiffF d d.ineq (NlSpec.ineqF F) (NlSpec.codeStates d mp.stateScaling.get o.x0.get x.get)
          (NlSpec.inputs d mp.inputScaling.get x.get) (x.get (NlSpec.slackIx d))
          (stepLin (NlSpec.codeStates d mp.stateScaling.get o.x0.get x.get))
          (stepLin (NlSpec.inputs d mp.inputScaling.get x.get)) false gx gu ∧
        0 < Constraints.stepSlack (x.get (NlSpec.slackIx d)) ∧
        (∀ c : Fin d.ineq, IsQuotient
          (NlSpec.ineqF F (NlSpec.codeStates d mp.stateScaling.get o.x0.get x.get) (NlSpec.inputs d mp.inputScaling.get x.get)
            (x.get (NlSpec.slackIx d) + Constraints.stepSlack (x.get (NlSpec.slackIx d))) c)
          (NlSpec.ineqF F (NlSpec.codeStates d mp.stateScaling.get o.x0.get x.get) (NlSpec.inputs d mp.inputScaling.get x.get)
            (x.get (NlSpec.slackIx d) - Constraints.stepSlack (x.get (NlSpec.slackIx d))) c)
          (2 * Constraints.stepSlack (x.get (NlSpec.slackIx d))) (ge c)) ∧
        ∀ c : Fin d.ineq, NlSpec.RowF d mp.stateScaling.get mp.inputScaling.get (gx c) (gu c) (ge c)
          (fun l => r.grad.get (c * d.nZ + l))) := by
  subst hd
  have hch := hm.ch_pos
  have hle := hm.ch_le
  unfold Constraints.evaluateIneqF
  refine Post.bind (Mapping.unwrapVector_post mp hm x o.x0 o.Xmat o.Umat hx ho.x0 ho.X.1 ho.X.2 ho.U.1 ho.U.2) ?_
  rintro ⟨X, U, e⟩ hw
  have hXv := Objective.viewF_states hw
  have hUv := Objective.viewF_inputs hw
  have hXs : X.Is (mp.dims.ph + 1) mp.dims.nx := ⟨hw.xr, hw.xc⟩
  have hUs : U.Is (mp.dims.ph + 1) mp.dims.nu := ⟨hw.ur, hw.uc⟩
  have he : e = x.get (NlSpec.slackIx mp.dims) := hw.e
  dsimp only at hXv hUv ⊢
  rw [callIneq_ok F X U e hp hXs hUs, ok_bind]
  refine Post.bind (computeIneqJacobian_post F X U e hp (by omega) hXs hUs) ?_
  rintro ⟨Jx, Jm, Jc⟩ ⟨h1, h2, h3, hD, hs0, hS⟩
  dsimp only at h1 h2 h3 hD hS ⊢
  refine Post.bind (glueJacobian_post mp hm rfl junk mp.dims.ineq _ Jx Jm Jc (by exact ⟨rfl, rfl⟩) h1 h2 h3) ?_
  intro G hG
  refine Post.bind (scaleStateRows_post mp hm rfl mp.dims.ineq G hG.is) ?_
  intro G' hG'
  rw [hXv, hUv, he] at hD hS
  rw [he] at hs0
  refine post_pure ⟨rfl, ?_, ?_, _, _, Jc.get, hD, hs0, hS, ?_⟩
  · simp only [Mat.dataVec]; rw [hG'.is.1, hG'.is.2]
  · intro c
    dsimp only
    rw [Vec.ofF_get, hXv, hUv, he]
  · intro c
    exact rows_of mp mp.dims.ineq Jx Jm Jc G G' hG hG' c.2

theorem evalEq_post (o : Constraints d K) (ho : o.Sized) (mp : Mapping K) (hm : mp.Good) (hd : mp.dims = d) (F : DoubleFns d K)
    (junk : Nat → Flt K) (x : Vec K) (hx : x.size = d.nZ) :
    Post (o.evaluateEqF mp F x junk) (fun r =>
      r.value.size = d.eq ∧ r.grad.size = d.nZ * d.eq ∧
      (∀ c : Fin d.eq, r.value.get c
        = F.eq (NlSpec.codeStates d mp.stateScaling.get o.x0.get x.get) (NlSpec.inputs d mp.inputScaling.get x.get) c) ∧
      ∃ gx gu : Nat → Nat → Nat → Flt K,
        NlSpec.ConDiffF d d.eq (fun X U _ => F.eq X U) (NlSpec.codeStates d mp.stateScaling.get o.x0.get x.get)
          (NlSpec.inputs d mp.inputScaling.get x.get) (x.get (NlSpec.slackIx d))
          (stepState (NlSpec.codeStates d mp.stateScaling.get o.x0.get x.get))
          (stepInput (d.ph - 1) (NlSpec.inputs d mp.inputScaling.get x.get)) true gx gu ∧
        ∀ c : Fin d.eq, NlSpec.RowF d mp.stateScaling.get mp.inputScaling.get (gx c) (gu c) (.fin 0)
          (fun l => r.grad.get (c * d.nZ + l))) := by
  subst hd
  have hch := hm.ch_pos
  have hle := hm.ch_le
  unfold Constraints.evaluateEqF
  refine Post.bind (Mapping.unwrapVector_post mp hm x o.x0 o.Xmat o.Umat hx ho.x0 ho.X.1 ho.X.2 ho.U.1 ho.U.2) ?_
  rintro ⟨X, U, e⟩ hw
  have hXv := Objective.viewF_states hw
  have hUv := Objective.viewF_inputs hw
  have hXs : X.Is (mp.dims.ph + 1) mp.dims.nx := ⟨hw.xr, hw.xc⟩
  have hUs : U.Is (mp.dims.ph + 1) mp.dims.nu := ⟨hw.ur, hw.uc⟩
  have he : e = x.get (NlSpec.slackIx mp.dims) := hw.e
  dsimp only at hXv hUv ⊢
  rw [callEq_ok F X U hXs hUs, ok_bind]
  refine Post.bind (computeEqJacobian_post F X U e (by omega) hXs hUs) ?_
  rintro ⟨Jx, Jm⟩ ⟨h1, h2, hD⟩
  dsimp only at h1 h2 hD ⊢
  refine Post.bind (glueJacobian_post mp hm rfl junk mp.dims.eq _ Jx Jm (Vec.const mp.dims.eq 0) (by exact ⟨rfl, rfl⟩) h1 h2
    rfl) ?_
  intro G hG
  refine Post.bind (scaleStateRows_post mp hm rfl mp.dims.eq G hG.is) ?_
  intro G' hG'
  rw [hXv, hUv, he] at hD
  refine post_pure ⟨rfl, ?_, ?_, _, _, hD, ?_⟩
  · simp only [Mat.dataVec]; rw [hG'.is.1, hG'.is.2]
  · intro c
    dsimp only
    rw [Vec.ofF_get, hXv, hUv]
  · intro c
    exact rows_of mp mp.dims.eq Jx Jm (Vec.const mp.dims.eq 0) G G' hG hG' c.2


/-! ### State equation -/

/-- composing two computations -/
theorem _root_.Mpc.NlSpec.From.trans {ι : Type} {κ : Type} {xs : ι → κ → Flt K} {q : ι → Flt K} {val : ι → (κ → K) → K} {val' : (ι → K) → K} {p : Flt K}
    (h : ∀ i, From (xs i) (val i) (q i)) (g : From q val' p) :
    From (fun i : ι × κ => xs i.1 i.2) (fun v => val' (fun i => val i (fun j => v (i, j)))) p := by
  refine ⟨?_, ?_, ?_⟩
  · intro v hv
    exact g.number _ fun i => (h i).number _ fun j => hv (i, j)
  · rintro ⟨i, j⟩ hn
    exact g.spoiled i ((h i).spoiled j hn)
  · rintro ⟨i, j⟩ hn
    exact g.nan i ((h i).nan j hn)

/-- renaming the inputs of a computation -/
theorem _root_.Mpc.NlSpec.From.swap {ι : Type} {κ : Type} {xs : ι × κ → Flt K} {val : (ι × κ → K) → K} {p : Flt K} (h : From xs val p) :
    From (fun i : κ × ι => xs (i.2, i.1)) (fun v => val (fun i => v (i.2, i.1))) p := by
  refine ⟨?_, ?_, ?_⟩
  · intro v hv
    exact h.number _ fun i => hv (i.2, i.1)
  · intro i hn; exact h.spoiled (i.2, i.1) hn
  · intro i hn; exact h.nan (i.2, i.1) hn

theorem _root_.Mpc.NlSpec.From.congr {ι : Type} {xs xs' : ι → Flt K} {val val' : (ι → K) → K} {p : Flt K} (h : From xs val p) (hx : ∀ i, xs' i = xs i)
    (hv : ∀ v, val' v = val v) : From xs' val' p := by
  have e1 : xs' = xs := funext hx
  have e2 : val' = val := funext hv
  rw [e1, e2]; exact h

/-- a further number added in front -/
theorem _root_.Mpc.NlSpec.From.fin_add {ι : Type} {xs : ι → Flt K} {val : (ι → K) → K} {p : Flt K} (h : From xs val p) (c : K) :
    From xs (fun v => c + val v) (Flt.fin c + p) := by
  refine ⟨?_, ?_, ?_⟩
  · intro v hv; rw [h.number v hv]; rfl
  · intro i hn; rw [number_add]; exact fun hh => h.spoiled i hn hh.2
  · intro i hn; rw [h.nan i hn, Flt.add_nan]

theorem _root_.Mpc.NlSpec.From.neg {ι : Type} {xs : ι → Flt K} {val : (ι → K) → K} {p : Flt K} (h : From xs val p) :
    From xs (fun v => -(val v)) (-p) := by
  refine ⟨?_, ?_, ?_⟩
  · intro v hv; rw [h.number v hv]; rfl
  · intro i hn; rw [number_neg]; exact h.spoiled i hn
  · intro i hn; rw [h.nan i hn]; rfl

/-- a sum of products with numbers -/
theorem from_sum {n : Nat} (c : Nat → K) (x : Nat → Flt K) :
    From (fun i : Fin n => x i) (fun v => ∑ i : Fin n, c i * v i) (sumTo n fun i => Flt.fin (c i) * x i) := by
  refine ⟨?_, ?_, ?_⟩
  · intro v hv
    rw [Flt.sum_fin (g := fun i => if h : i < n then c i * v ⟨i, h⟩ else 0), sumTo_eq, ← Fin.sum_univ_eq_sum_range
      (fun i => if h : i < n then c i * v ⟨i, h⟩ else 0)]
    · congr 1
      refine Finset.sum_congr rfl fun i _ => ?_
      rw [dif_pos i.2]
    · intro i hi
      rw [dif_pos hi, hv ⟨i, hi⟩]; rfl
  · intro i hn hh
    rw [number_sum] at hh
    have := hh i i.2
    rw [number_fin_mul] at this
    exact hn this
  · intro i hn
    refine Flt.sum_nan i.2 ?_
    rw [hn, Flt.mul_nan]

theorem sum_pick {n : Nat} (r : Fin n) (f : Fin n → K) (w : K) : (∑ i : Fin n, (if r = i then w else 0) * f i) = w * f r := by
  rw [Finset.sum_eq_single r]
  · rw [if_pos rfl]
  · intro i _ hi; rw [if_neg (fun e => hi e.symm), zero_mul]
  · intro h; exact absurd (Finset.mem_univ _) h

/-- a dense product with a diagonal matrix from the left: every entry of the column enters -/
theorem diag_mul {n m : Nat} (s : Vec K) (h : K) (hs : s.size = n) (A : Mat (Flt K)) (hA : A.Is n m) :
    Post (((s.asDiagonal.map Flt.fin).smul (Flt.fin h)).mul A) (fun B => B.Is n m ∧
      ∀ (r : Fin n) (a : Nat), From (fun l : Fin n => A.get l a) (fun v => h * s.get r * v r) (B.get r a)) := by
  rw [Mat.mul_ok (by simp only [Mat.smul, Mat.map, Vec.asDiagonal]; rw [hs, hA.1])]
  refine post_ok ⟨⟨hs, hA.2⟩, ?_⟩
  intro r a
  simp only [Mat.smul, Mat.map, Vec.asDiagonal]
  have := from_sum (n := s.size) (fun l => h * if (r : Nat) = l then s.get r else 0) (fun l => A.get l a)
  subst hs
  refine From.congr this (fun _ => rfl) ?_
  intro v
  rw [← sum_pick r v (h * s.get r)]
  refine Finset.sum_congr rfl fun i _ => ?_
  by_cases he : r = i
  · rw [if_pos he, if_pos (by rw [he])]
  · rw [if_neg he, if_neg (fun e => he (Fin.ext e)), mul_zero]

theorem diag_mul1 {n m : Nat} (s : Vec K) (hs : s.size = n) (A : Mat (Flt K)) (hA : A.Is n m) :
    Post ((s.asDiagonal.map Flt.fin).mul A) (fun B => B.Is n m ∧
      ∀ (r : Fin n) (a : Nat), From (fun l : Fin n => A.get l a) (fun v => s.get r * v r) (B.get r a)) := by
  rw [Mat.mul_ok (by simp only [Mat.map, Vec.asDiagonal]; rw [hs, hA.1])]
  refine post_ok ⟨⟨hs, hA.2⟩, ?_⟩
  intro r a
  simp only [Mat.map, Vec.asDiagonal]
  have := from_sum (n := s.size) (fun l => if (r : Nat) = l then s.get r else 0) (fun l => A.get l a)
  subst hs
  refine From.congr this (fun _ => rfl) ?_
  intro v
  rw [← sum_pick r v (s.get r)]
  refine Finset.sum_congr rfl fun i _ => ?_
  by_cases he : r = i
  · rw [if_pos he, if_pos (by rw [he])]
  · rw [if_neg he, if_neg (fun e => he (Fin.ext e))]

theorem mul_diag {n m : Nat} (s : Vec K) (hs : s.size = m) (A : Mat (Flt K)) (hA : A.Is n m) :
    Post (A.mul (s.asDiagonal.map Flt.fin)) (fun B => B.Is n m ∧
      ∀ (r : Nat) (a : Fin m), From (fun l : Fin m => A.get r l) (fun v => v a * s.get a) (B.get r a)) := by
  rw [Mat.mul_ok (by simp only [Mat.map, Vec.asDiagonal]; rw [hs, hA.2])]
  refine post_ok ⟨⟨hA.1, hs⟩, ?_⟩
  intro r a
  simp only [Mat.map, Vec.asDiagonal]
  rw [hA.2]
  have := from_sum (n := m) (fun l => if l = (a : Nat) then s.get l else 0) (fun l => A.get r l)
  simp only [mul_fin_comm]
  refine From.congr this (fun _ => rfl) ?_
  intro v
  rw [mul_comm, ← sum_pick a v (s.get a)]
  refine Finset.sum_congr rfl fun i _ => ?_
  by_cases he : a = i
  · rw [if_pos he, if_pos (by rw [he]), he]
  · rw [if_neg he, if_neg (fun e => he (Fin.ext e.symm))]

/-- the quotients of a state equation, component by component -/
def dqX (F : DoubleFns d K) (x u : Vec K) (p c a : Nat) : Flt K :=
  ((Vec.ofF (F.state (NlSpec.bumpV (x.viewF d.nx) a (Constraints.dv * x.absMax1.get a)) (u.viewF d.nu) p)).get c
    - (Vec.ofF (F.state (NlSpec.bumpV (x.viewF d.nx) a (-(Constraints.dv * x.absMax1.get a))) (u.viewF d.nu) p)).get c).divBy
    (2 * (Constraints.dv * x.absMax1.get a))

def dqU (F : DoubleFns d K) (x u : Vec K) (p c b : Nat) : Flt K :=
  ((Vec.ofF (F.state (x.viewF d.nx) (NlSpec.bumpV (u.viewF d.nu) b (Constraints.dv * u.absMax1.get b)) p)).get c
    - (Vec.ofF (F.state (x.viewF d.nx) (NlSpec.bumpV (u.viewF d.nu) b (-(Constraints.dv * u.absMax1.get b))) p)).get c).divBy
    (2 * (Constraints.dv * u.absMax1.get b))

theorem computeStateEqJacobian_post (F : DoubleFns d K)
    (x u : Vec K) (p : Nat) (hx : x.size = d.nx) (hu : u.size = d.nu) :
    Post (Constraints.computeStateEqJacobianF F x u p) (fun r => r.1.Is d.nx d.nx ∧ r.2.Is d.nx d.nu ∧
      (∀ c a, a < d.nx → r.1.get c a = dqX F x u p c a) ∧ (∀ c b, b < d.nu → r.2.get c b = dqU F x u p c b)) := by
  unfold Constraints.computeStateEqJacobianF
  dsimp only
  refine Post.bind (Q := fun J : Mat (Flt K) => J.Is d.nx d.nx ∧ ∀ c a, a < d.nx → J.get c a = dqX F x u p c a) ?_ ?_
  · refine forRange_post d.nx _ _ (fun i (J : Mat (Flt K)) => J.Is d.nx d.nx ∧ ∀ c a, a < i → J.get c a = dqX F x u p c a)
      ⟨⟨rfl, rfl⟩, fun _ _ h => by omega⟩ ?_
    rintro i J hi ⟨⟨j1, j2⟩, j3⟩
    rw [Vec.at_ok (by simp only [Vec.absMax1]; omega), ok_bind, Vec.at_ok (by omega), ok_bind, Vec.set_ok (by omega),
      ok_bind, ok_bind, sub_eq_add_neg, Vec.set_ok (by omega), ok_bind,
      callState_ok F _ u p (by exact hx) hu, ok_bind,
      callState_ok F _ u p (by exact hx) hu, ok_bind]
    unfold Vec.subDivF
    rw [require_ok (by simp), ok_bind, pure_bind', Mat.setCol_ok (by omega) (by simp only [Vec.ofF_size]; omega)]
    refine post_ok ⟨⟨j1, j2⟩, ?_⟩
    intro c a ha
    simp only [Mat.setColRaw]
    by_cases he : a = i
    · subst he
      rw [if_pos rfl, Vec.viewF_setRaw_add, Vec.viewF_setRaw_add]
      rfl
    · rw [if_neg he]; exact j3 c a (by omega)
  · rintro Jx ⟨hJx, hJx2⟩
    refine Post.bind (Q := fun J : Mat (Flt K) => J.Is d.nx d.nu ∧ ∀ c b, b < d.nu → J.get c b = dqU F x u p c b) ?_ ?_
    · refine forRange_post d.nu _ _ (fun i (J : Mat (Flt K)) => J.Is d.nx d.nu ∧ ∀ c a, a < i → J.get c a = dqU F x u p c a)
        ⟨⟨rfl, rfl⟩, fun _ _ h => by omega⟩ ?_
      rintro i J hi ⟨⟨j1, j2⟩, j3⟩
      rw [Vec.at_ok (by simp only [Vec.absMax1]; omega), ok_bind, Vec.at_ok (by omega), ok_bind, Vec.set_ok (by omega),
        ok_bind, ok_bind, sub_eq_add_neg, Vec.set_ok (by omega), ok_bind,
        callState_ok F x _ p hx (by exact hu), ok_bind,
        callState_ok F x _ p hx (by exact hu), ok_bind]
      unfold Vec.subDivF
      rw [require_ok (by simp), ok_bind, pure_bind', Mat.setCol_ok (by omega) (by simp only [Vec.ofF_size]; omega)]
      refine post_ok ⟨⟨j1, j2⟩, ?_⟩
      intro c a ha
      simp only [Mat.setColRaw]
      by_cases he : a = i
      · subst he
        rw [if_pos rfl, Vec.viewF_setRaw_add, Vec.viewF_setRaw_add]
        rfl
      · rw [if_neg he]; exact j3 c a (by omega)
    · rintro Jm ⟨hJm, hJm2⟩
      exact post_pure ⟨hJx, hJm, hJx2, hJm2⟩

/-- accumulated constraint values and Jacobian blocks after `i` steps; `P`, `Q`, `R` tell what the entries are -/
structure Acc (d : Dims) (v : Nat → Nat → Flt K) (P Q R : Nat → Nat → Nat → Flt K → Prop) (g : Bool) (i : Nat)
    (s : Nat × Vec (Flt K) × Mat (Flt K) × Mat (Flt K)) : Prop where
  ic : s.1 = i * d.nx
  sz : s.2.1.size = d.ph * d.nx
  val : ∀ k r, k < i → r < d.nx → s.2.1.get (k * d.nx + r) = v k r
  jx : s.2.2.1.Is (d.ph * d.nx) (d.ph * d.nx)
  jm : s.2.2.2.Is (d.ph * d.nx) (d.ph * d.nu)
  next : g = true → ∀ k r a, k < i → r < d.nx → a < d.nx → Q k r a (s.2.2.1.get (k * d.nx + r) (k * d.nx + a))
  prev : g = true → ∀ k r k' a, k < i → k' + 1 = k → r < d.nx → a < d.nx → P k r a (s.2.2.1.get (k * d.nx + r) (k' * d.nx + a))
  rest : g = true → ∀ k r k' a, (i ≤ k ∨ k' ≠ k ∧ k' + 1 ≠ k) → r < d.nx → a < d.nx →
    s.2.2.1.get (k * d.nx + r) (k' * d.nx + a) = 0
  inp : g = true → ∀ k r b, k < i → r < d.nx → b < d.nu → R k r b (s.2.2.2.get (k * d.nx + r) (k * d.nu + b))
  inpRest : g = true → ∀ k r k' b, (i ≤ k ∨ k' ≠ k) → r < d.nx → b < d.nu → s.2.2.2.get (k * d.nx + r) (k' * d.nu + b) = 0

theorem Acc.step {v : Nat → Nat → Flt K} {P Q R : Nat → Nat → Nat → Flt K → Prop} {g : Bool} {i : Nat} {ceq c' : Vec (Flt K)}
    {Jx Jx' Jm Jm' : Mat (Flt K)} {ic : Nat} (h : Acc d v P Q R g i (ic, ceq, Jx, Jm)) (hsz : c'.size = d.ph * d.nx)
    (hc : ∀ k r, r < d.nx → c'.get (k * d.nx + r) = if k = i then v i r else ceq.get (k * d.nx + r))
    (hJx : Jx'.Is (d.ph * d.nx) (d.ph * d.nx)) (hJm : Jm'.Is (d.ph * d.nx) (d.ph * d.nu))
    (hn : g = true → ∀ r a, r < d.nx → a < d.nx → Q i r a (Jx'.get (i * d.nx + r) (i * d.nx + a)))
    (hp : g = true → ∀ r k' a, k' + 1 = i → r < d.nx → a < d.nx → P i r a (Jx'.get (i * d.nx + r) (k' * d.nx + a)))
    (hx : g = true → ∀ k r k' a, (k ≠ i ∨ k' ≠ i ∧ k' + 1 ≠ i) → r < d.nx → a < d.nx →
      Jx'.get (k * d.nx + r) (k' * d.nx + a) = Jx.get (k * d.nx + r) (k' * d.nx + a))
    (hr0 : g = true → ∀ r b, r < d.nx → b < d.nu → R i r b (Jm'.get (i * d.nx + r) (i * d.nu + b)))
    (hu : g = true → ∀ k r k' b, (k ≠ i ∨ k' ≠ i) → r < d.nx → b < d.nu →
      Jm'.get (k * d.nx + r) (k' * d.nu + b) = Jm.get (k * d.nx + r) (k' * d.nu + b)) :
    Acc d v P Q R g (i + 1) (ic + d.nx, c', Jx', Jm') := by
  have h1 := h.ic
  dsimp only at h1
  refine ⟨by dsimp only; rw [h1, Nat.add_mul, Nat.one_mul], hsz, ?_, hJx, hJm, ?_, ?_, ?_, ?_, ?_⟩
  · intro k r hk hr
    dsimp only
    rw [hc k r hr]
    by_cases he : k = i
    · subst he; rw [if_pos rfl]
    · rw [if_neg he]; exact h.val k r (by omega) hr
  · intro hg k r a hk hr ha
    dsimp only
    by_cases he : k = i
    · subst he; exact hn hg r a hr ha
    · rw [hx hg k r k a (.inl he) hr ha]; exact h.next hg k r a (by omega) hr ha
  · intro hg k r k' a hk hk' hr ha
    dsimp only
    by_cases he : k = i
    · subst he; exact hp hg r k' a hk' hr ha
    · rw [hx hg k r k' a (.inl he) hr ha]; exact h.prev hg k r k' a (by omega) hk' hr ha
  · intro hg k r k' a hk hr ha
    dsimp only
    rw [hx hg k r k' a (by omega) hr ha]; exact h.rest hg k r k' a (by omega) hr ha
  · intro hg k r b hk hr' hb
    dsimp only
    by_cases he : k = i
    · subst he; exact hr0 hg r b hr' hb
    · rw [hu hg k r k b (.inl he) hr' hb]; exact h.inp hg k r b (by omega) hr' hb
  · intro hg k r k' b hk hr' hb
    dsimp only
    rw [hu hg k r k' b (by omega) hr' hb]; exact h.inpRest hg k r k' b (by omega) hr' hb

theorem ceq_write {β : Type} (ceq : Vec (Flt K)) (s : Vec K) (i nx n : Nat) (v : Vec (Flt K)) (cont : Vec (Flt K) → Exec β)
    (R : β → Prop) (hs : s.size = nx) (hv : v.size = nx) (hsz : ceq.size = n) (hend : i * nx + nx ≤ n)
    (hk : ∀ c' : Vec (Flt K), c'.size = n → (∀ k r, r < nx → c'.get (k * nx + r)
      = if k = i then (v.get r).divBy (s.get r) else ceq.get (k * nx + r)) → Post (cont c') R) :
    Post (do
      let ceq ← ceq.setSeg (i * nx) nx v
      let v ← ceq.seg (i * nx) nx
      require (v.size = s.size) .sizeMismatch
      let c' ← ceq.setSeg (i * nx) nx ⟨v.size, fun a => (v.get a).divBy (s.get a)⟩
      cont c') R := by
  rw [Vec.setSeg_ok (by omega) hv, ok_bind, Vec.seg_ok (by simp only [Vec.setSegRaw]; omega), ok_bind]
  rw [require_ok (by dsimp only; omega), ok_bind,
    Vec.setSeg_ok (by simp only [Vec.setSegRaw]; omega) (by rfl), ok_bind]
  refine hk _ hsz ?_
  intro k r hr
  simp only [Vec.setSegRaw, block_mem_iff hr]
  by_cases he : k = i
  · subst he
    have hin : k * nx ≤ k * nx + (k * nx + r - k * nx) ∧ k * nx + (k * nx + r - k * nx) < k * nx + nx := by omega
    rw [if_pos rfl, if_pos rfl, if_pos hin]
    simp
  · rw [if_neg he, if_neg he, if_neg he]

theorem block_write {ph nx w : Nat} (J src : Mat (Flt K)) (i j : Nat) (hi : i < ph) (hj : j < ph)
    (hJ : J.Is (ph * nx) (ph * w)) (hs : src.Is nx w) :
    Post (J.setBlock (i * nx) (j * w) nx w src) (fun J' => J'.Is (ph * nx) (ph * w) ∧
      ∀ k r k' a, r < nx → a < w → J'.get (k * nx + r) (k' * w + a)
        = if k = i ∧ k' = j then src.get r a else J.get (k * nx + r) (k' * w + a)) := by
  have h1 : i * nx + nx ≤ ph * nx := block_end_le hi
  have h2 : j * w + w ≤ ph * w := block_end_le hj
  rw [Mat.setBlock_ok (by rw [hJ.1]; omega) (by rw [hJ.2]; omega) hs.1 hs.2]
  refine post_ok ⟨hJ, ?_⟩
  intro k r k' a hr ha
  rw [Mat.setBlockRaw_get]
  simp only [block_mem_iff hr, block_mem_iff ha]
  by_cases he : k = i ∧ k' = j
  · obtain ⟨rfl, rfl⟩ := he
    simp
  · rw [if_neg he, if_neg he]

/-- residual of step `k`, unscaled -/
def resid (F : DoubleFns d K) (cont : Bool) (Ts : K) (X U : Mat K) (k r : Nat) : Flt K :=
  if cont then
    Flt.fin (X.get k r) + Flt.fin (Ts / 2)
      * ((Vec.ofF (F.state ((Constraints.rowV X k).viewF d.nx) ((Constraints.rowV U k).viewF d.nu) k)).get r
      + (Vec.ofF (F.state ((Constraints.rowV X (k + 1)).viewF d.nx) ((Constraints.rowV U k).viewF d.nu) k)).get r)
      + -(Flt.fin (X.get (k + 1) r))
  else Flt.fin (X.get (k + 1) r) + -((Vec.ofF (F.state ((Constraints.rowV X k).viewF d.nx) ((Constraints.rowV U k).viewF d.nu) k)).get r)

/-- what the derivatives with respect to the state before step `k` are -/
def isP (F : DoubleFns d K) (cont : Bool) (Ts : K) (s si : Nat → K) (X U : Mat K) (k r a : Nat) (e : Flt K) : Prop :=
  ∀ (hr : r < d.nx) (ha : a < d.nx),
    From (fun i : Fin d.nx × Fin d.nx => dqX F (Constraints.rowV X k) (Constraints.rowV U k) k i.1 i.2)
      (fun v => if cont then (if r = a then 1 else 0) + Ts / 2 * si r * v (⟨r, hr⟩, ⟨a, ha⟩) * s a
        else -(si r * v (⟨r, hr⟩, ⟨a, ha⟩) * s a)) e

/-- with respect to the state after step `k` -/
def isQ (F : DoubleFns d K) (cont : Bool) (Ts : K) (s si : Nat → K) (X U : Mat K) (k r a : Nat) (e : Flt K) : Prop :=
  if cont then ∀ (hr : r < d.nx) (ha : a < d.nx),
    From (fun i : Fin d.nx × Fin d.nx => dqX F (Constraints.rowV X (k + 1)) (Constraints.rowV U k) k i.1 i.2)
      (fun v => -(if r = a then 1 else 0) + Ts / 2 * si r * v (⟨r, hr⟩, ⟨a, ha⟩) * s a) e
  else e = Flt.fin (if r = a then 1 else 0)

/-- with respect to the input of step `k`, before move blocking -/
def isR (F : DoubleFns d K) (cont : Bool) (Ts : K) (si : Nat → K) (X U : Mat K) (k r b : Nat) (e : Flt K) : Prop :=
  if cont then ∀ (hr : r < d.nx),
    From (fun i : Bool × Fin d.nx => if i.1 then dqU F (Constraints.rowV X k) (Constraints.rowV U k) k i.2 b
        else dqU F (Constraints.rowV X (k + 1)) (Constraints.rowV U k) k i.2 b)
      (fun v => Ts / 2 * si r * (v (true, ⟨r, hr⟩) + v (false, ⟨r, hr⟩))) e
  else ∀ (hr : r < d.nx),
    From (fun i : Fin d.nx => dqU F (Constraints.rowV X k) (Constraints.rowV U k) k i b) (fun v => -(si r * v ⟨r, hr⟩)) e

theorem identity_entry (n r a : Nat) : (Mat.identity (α := Flt K) n n).get r a = Flt.fin (if r = a then 1 else 0) := by
  simp only [Mat.identity]; split_ifs <;> rfl

/-- a sum of two -/
theorem from_add (x y : Flt K) : From (fun i : Bool => if i then x else y) (fun v => v true + v false) (x + y) := by
  refine ⟨?_, ?_, ?_⟩
  · intro v hv
    have h1 := hv true; have h2 := hv false
    simp only [if_true, Bool.false_eq_true, if_false] at h1 h2
    rw [h1, h2]; rfl
  · rintro (_ | _) hn <;> rw [number_add]
    · exact fun hh => hn (by simpa using hh.2)
    · exact fun hh => hn (by simpa using hh.1)
  · rintro (_ | _) hn
    · simp only [Bool.false_eq_true, if_false] at hn; rw [hn, Flt.add_nan]
    · simp only [if_true] at hn; rw [hn, Flt.nan_add]

theorem invScalingF_eq {mp : Mapping K} (h : ∀ a, mp.stateScaling.get a ≠ 0) :
    mp.invScalingF = mp.invStateScaling.asDiagonal.map Flt.fin := by
  unfold Mapping.invScalingF Vec.asDiagonal Mat.map
  congr 1
  funext i j
  rw [if_neg (h i)]
  dsimp only
  split_ifs <;> rfl

theorem getStateEqConstraints_post (mp : Mapping K) (hm : mp.Good) (hd : mp.dims = d) (F : DoubleFns d K) (cont : Bool) (Ts : K)
    (junk : Nat → Flt K) (X U : Mat K) (hX : X.Is (d.ph + 1) d.nx) (hU : U.Is (d.ph + 1) d.nu) (hp : d.ph < 2 ^ 31) (g : Bool)
    (hsc : g = true → ∀ a, mp.stateScaling.get a ≠ 0) :
    Post (Constraints.getStateEqConstraintsF mp F cont Ts junk X U g) (fun r => r.1.size = d.ph * d.nx ∧
      (∀ k a, k < d.ph → a < d.nx → r.1.get (k * d.nx + a) = (resid F cont Ts X U k a).divBy (mp.stateScaling.get a)) ∧
      r.2.Is d.nZ (d.ph * d.nx) ∧
      (if g then ∃ Jx Jm : Mat (Flt K),
        (∀ k r a, k < d.ph → r < d.nx → a < d.nx →
          isQ F cont Ts mp.stateScaling.get mp.invStateScaling.get X U k r a (Jx.get (k * d.nx + r) (k * d.nx + a))) ∧
        (∀ k r k' a, k < d.ph → k' + 1 = k → r < d.nx → a < d.nx →
          isP F cont Ts mp.stateScaling.get mp.invStateScaling.get X U k r a (Jx.get (k * d.nx + r) (k' * d.nx + a))) ∧
        (∀ k r k' a, k < d.ph → k' ≠ k → k' + 1 ≠ k → r < d.nx → a < d.nx → Jx.get (k * d.nx + r) (k' * d.nx + a) = 0) ∧
        (∀ k r b, k < d.ph → r < d.nx → b < d.nu →
          isR F cont Ts mp.invStateScaling.get X U k r b (Jm.get (k * d.nx + r) (k * d.nu + b))) ∧
        (∀ k r k' b, k < d.ph → k' ≠ k → r < d.nx → b < d.nu → Jm.get (k * d.nx + r) (k' * d.nu + b) = 0) ∧
        Glued mp (d.ph * d.nx) Jx Jm (Vec.const (d.ph * d.nx) 0) r.2
       else ∀ l c, r.2.get l c = 0)) := by
  subst hd
  have hst := hm.stsz
  have hsi := hm.invsz
  unfold Constraints.getStateEqConstraintsF
  dsimp only
  refine Post.bind (Q := Acc mp.dims (fun k a => (resid F cont Ts X U k a).divBy (mp.stateScaling.get a))
    (isP F cont Ts mp.stateScaling.get mp.invStateScaling.get X U)
    (isQ F cont Ts mp.stateScaling.get mp.invStateScaling.get X U)
    (isR F cont Ts mp.invStateScaling.get X U) g mp.dims.ph) ?_ ?_
  · have h0 : ∀ (v : Nat → Nat → Flt K) (P Q R : Nat → Nat → Nat → Flt K → Prop), Acc mp.dims v P Q R g 0
        ((0 : Nat), Vec.const (mp.dims.ph * mp.dims.nx) 0, Mat.const (mp.dims.ph * mp.dims.nx) (mp.dims.ph * mp.dims.nx) 0,
          Mat.const (mp.dims.ph * mp.dims.nx) (mp.dims.ph * mp.dims.nu) 0) := fun v P Q R =>
      ⟨by simp, rfl, fun _ _ h => by omega, ⟨rfl, rfl⟩, ⟨rfl, rfl⟩, fun _ _ _ _ h => by omega, fun _ _ _ _ _ h => by omega,
        fun _ _ _ _ _ _ _ _ => rfl, fun _ _ _ _ h => by omega, fun _ _ _ _ _ _ _ _ => rfl⟩
    cases cont with
    | true =>
      simp only [if_true]
      refine forRange_post _ _ _ (Acc mp.dims _ _ _ _ g) (h0 _ _ _ _) ?_
      rintro i ⟨ic, c, Jx, Jm⟩ hi hacc
      unfold Constraints.stepContinuousF
      have hic := hacc.ic
      have hsz := hacc.sz
      have hjx := hacc.jx
      have hjm := hacc.jm
      dsimp only at hic hsz hjx hjm ⊢
      subst hic
      have hend : i * mp.dims.nx + mp.dims.nx ≤ mp.dims.ph * mp.dims.nx := block_end_le hi
      have hu1 : (Constraints.rowV U i).size = mp.dims.nu := hU.2
      have hx1 : (Constraints.rowV X i).size = mp.dims.nx := hX.2
      have hx2 : (Constraints.rowV X (i + 1)).size = mp.dims.nx := hX.2
      rw [Constraints.rowV_ok (by rw [hU.1]; omega), ok_bind, Constraints.rowV_ok (by rw [hX.1]; omega), ok_bind,
        Constraints.rowV_ok (by rw [hX.1]; omega), ok_bind, callState_ok F _ _ _ hx1 hu1, ok_bind,
        callState_ok F _ _ _ hx2 hu1, ok_bind, toUnsigned_of_lt (by omega),
        Vec.add_ok (by rfl), ok_bind, Vec.add_ok (by simp only [Vec.smul, Vec.to, Vec.ofF_size]; exact hx1), ok_bind,
        Vec.add_ok (by simp only [Vec.neg, Vec.to]; rw [hx1, hx2]), ok_bind]
      refine ceq_write c mp.stateScaling i mp.dims.nx (mp.dims.ph * mp.dims.nx) _ _ _ hst hx1 hsz hend ?_
      intro c' hc'1 hc'2
      have hval : ∀ k r, r < mp.dims.nx → c'.get (k * mp.dims.nx + r)
          = if k = i then (resid F true Ts X U i r).divBy (mp.stateScaling.get r) else c.get (k * mp.dims.nx + r) := by
        intro k r hr
        rw [hc'2 k r hr]
        simp only [Vec.smul, Vec.neg, Vec.to, resid, if_true, Constraints.rowV]
      cases g with
      | false =>
        simp only [Bool.false_eq_true, if_false]
        exact post_pure (hacc.step hc'1 hval hjx hjm (fun h => by simp at h) (fun h => by simp at h) (fun h => by simp at h)
          (fun h => by simp at h) (fun h => by simp at h))
      | true =>
        simp only [if_true]
        rw [invScalingF_eq (hsc rfl)]
        refine Post.bind (computeStateEqJacobian_post F _ _ _ hx1 hu1) ?_
        rintro ⟨A, B⟩ ⟨hA, hB, hA2, hB2⟩
        dsimp only at hA hB hA2 hB2 ⊢
        refine Post.bind (computeStateEqJacobian_post F _ _ _ hx2 hu1) ?_
        rintro ⟨A1, B1⟩ ⟨hA1, hB1, hA12, hB12⟩
        dsimp only at hA1 hB1 hA12 hB12 ⊢
        refine Post.bind (Q := fun J' : Mat (Flt K) => J'.Is (mp.dims.ph * mp.dims.nx) (mp.dims.ph * mp.dims.nx) ∧
          (∀ r k' a, k' + 1 = i → r < mp.dims.nx → a < mp.dims.nx → isP F true Ts mp.stateScaling.get mp.invStateScaling.get X U i r a
            (J'.get (i * mp.dims.nx + r) (k' * mp.dims.nx + a))) ∧
          ∀ k r k' a, ¬ (k = i ∧ k' + 1 = i) → r < mp.dims.nx → a < mp.dims.nx → J'.get (k * mp.dims.nx + r) (k' * mp.dims.nx + a)
            = Jx.get (k * mp.dims.nx + r) (k' * mp.dims.nx + a)) ?_ ?_
        · unfold Constraints.setPrevBlockF
          by_cases hpos : 0 < i
          · rw [if_pos hpos]
            simp only [bind_assoc]
            refine Post.bind (diag_mul mp.invStateScaling (Ts / 2) hsi A hA) ?_
            rintro T ⟨hT, hT2⟩
            refine Post.bind (mul_diag mp.stateScaling hst T hT) ?_
            rintro T' ⟨hT', hT'2⟩
            rw [Mat.add_ok (by simp only [Mat.identity]; rw [hT'.1]) (by simp only [Mat.identity]; rw [hT'.2]), ok_bind]
            refine (block_write Jx _ i (i - 1) hi (by omega) hjx ⟨rfl, rfl⟩).mono ?_
            rintro J' ⟨q1, q2⟩
            refine ⟨q1, ?_, ?_⟩
            · intro r k' a hk' hr ha hr' ha'
              rw [q2 i r k' a hr ha, if_pos (show i = i ∧ k' = i - 1 from ⟨rfl, by omega⟩)]
              dsimp only
              rw [identity_entry]
              refine From.congr (((From.trans (fun l : Fin mp.dims.nx => hT2 ⟨r, hr⟩ l) (hT'2 r ⟨a, ha⟩)).swap).fin_add _) ?_ ?_
              · rintro ⟨l, m⟩; exact (hA2 l m m.2).symm
              · intro v; simp only [if_true]
            · intro k r k' a hne hr ha
              rw [q2 k r k' a hr ha, if_neg (by omega)]
          · rw [if_neg hpos]
            refine post_pure ⟨hjx, ?_, ?_⟩
            · intro r k' a hk'; omega
            · intro k r k' a _ _ _; rfl
        · rintro Jx1 ⟨hJx1, hP1, hJx12⟩
          refine Post.bind (diag_mul mp.invStateScaling (Ts / 2) hsi A1 hA1) ?_
          rintro T ⟨hT, hT2⟩
          refine Post.bind (mul_diag mp.stateScaling hst T hT) ?_
          rintro T' ⟨hT', hT'2⟩
          rw [Mat.add_ok (by simp only [Mat.identity, Mat.neg]; rw [hT'.1])
            (by simp only [Mat.identity, Mat.neg]; rw [hT'.2]), ok_bind]
          refine Post.bind (block_write Jx1 _ i i hi hi hJx1 ⟨rfl, rfl⟩) ?_
          rintro Jx2 ⟨hJx2, hJx22⟩
          rw [Mat.add_ok (by rw [hB.1, hB1.1]) (by rw [hB.2, hB1.2]), ok_bind]
          refine Post.bind (diag_mul mp.invStateScaling (Ts / 2) hsi _ ⟨hB.1, hB.2⟩) ?_
          rintro S ⟨hS, hS2⟩
          refine Post.bind (block_write Jm S i i hi hi hjm hS) ?_
          rintro Jm1 ⟨hJm1, hJm12⟩
          refine post_pure (hacc.step hc'1 hval hJx2 hJm1 ?_ ?_ ?_ ?_ ?_)
          · intro _ r a hr ha
            rw [hJx22 i r i a hr ha, if_pos ⟨rfl, rfl⟩]
            simp only [isQ, if_true]
            intro hr' ha'
            simp only [Mat.neg]
            rw [identity_entry]
            refine From.congr (((From.trans (fun l : Fin mp.dims.nx => hT2 ⟨r, hr⟩ l) (hT'2 r ⟨a, ha⟩)).swap).fin_add _) ?_ ?_
            · rintro ⟨l, m⟩; exact (hA12 l m m.2).symm
            · intro v; rfl
          · intro _ r k' a hk' hr ha
            rw [hJx22 i r k' a hr ha, if_neg (by omega)]
            exact hP1 r k' a hk' hr ha
          · intro _ k r k' a hne hr ha
            rw [hJx22 k r k' a hr ha, if_neg (by omega), hJx12 k r k' a (by omega) hr ha]
          · intro _ r b hr hb
            rw [hJm12 i r i b hr hb, if_pos ⟨rfl, rfl⟩]
            simp only [isR, if_true]
            intro hr'
            refine From.congr ((From.trans (fun l : Fin mp.dims.nx => from_add (B.get l b) (B1.get l b)) (hS2 ⟨r, hr⟩ b)).swap) ?_ ?_
            · rintro ⟨l, m⟩; simp only [hB2 _ b hb, hB12 _ b hb]
            · intro v; rfl
          · intro _ k r k' b hne hr hb
            rw [hJm12 k r k' b hr hb, if_neg (by omega)]
    | false =>
      simp only [Bool.false_eq_true, if_false]
      refine forRange_post _ _ _ (Acc mp.dims _ _ _ _ g) (h0 _ _ _ _) ?_
      rintro i ⟨ic, c, Jx, Jm⟩ hi hacc
      unfold Constraints.stepDiscreteF
      have hic := hacc.ic
      have hsz := hacc.sz
      have hjx := hacc.jx
      have hjm := hacc.jm
      dsimp only at hic hsz hjx hjm ⊢
      subst hic
      have hend : i * mp.dims.nx + mp.dims.nx ≤ mp.dims.ph * mp.dims.nx := block_end_le hi
      have hu1 : (Constraints.rowV U i).size = mp.dims.nu := hU.2
      have hx1 : (Constraints.rowV X i).size = mp.dims.nx := hX.2
      have hx2 : (Constraints.rowV X (i + 1)).size = mp.dims.nx := hX.2
      rw [Constraints.rowV_ok (by rw [hU.1]; omega), ok_bind, Constraints.rowV_ok (by rw [hX.1]; omega), ok_bind,
        callState_ok F _ _ _ hx1 hu1, ok_bind,
        Constraints.rowV_ok (by rw [hX.1]; omega), ok_bind, toUnsigned_of_lt (by omega),
        Vec.add_ok (by simp only [Vec.neg, Vec.to, Vec.ofF_size]; exact hx2), ok_bind]
      refine ceq_write c mp.stateScaling i mp.dims.nx (mp.dims.ph * mp.dims.nx) _ _ _ hst hx2 hsz hend ?_
      intro c' hc'1 hc'2
      have hval : ∀ k r, r < mp.dims.nx → c'.get (k * mp.dims.nx + r)
          = if k = i then (resid F false Ts X U i r).divBy (mp.stateScaling.get r) else c.get (k * mp.dims.nx + r) := by
        intro k r hr
        rw [hc'2 k r hr]
        simp only [Vec.neg, Vec.to, resid, Constraints.rowV, Bool.false_eq_true, if_false]
      cases g with
      | false =>
        simp only [Bool.false_eq_true, if_false]
        exact post_pure (hacc.step hc'1 hval hjx hjm (fun h => by simp at h) (fun h => by simp at h) (fun h => by simp at h)
          (fun h => by simp at h) (fun h => by simp at h))
      | true =>
        simp only [if_true]
        rw [invScalingF_eq (hsc rfl)]
        refine Post.bind (computeStateEqJacobian_post F _ _ _ hx1 hu1) ?_
        rintro ⟨A, B⟩ ⟨hA, hB, hA2, hB2⟩
        dsimp only at hA hB hA2 hB2 ⊢
        refine Post.bind (diag_mul1 mp.invStateScaling hsi A hA) ?_
        rintro T ⟨hT, hT2⟩
        refine Post.bind (mul_diag mp.stateScaling hst T hT) ?_
        rintro T' ⟨hT', hT'2⟩
        refine Post.bind (diag_mul1 mp.invStateScaling hsi B hB) ?_
        rintro S ⟨hS, hS2⟩
        refine Post.bind (block_write Jx _ i i hi hi hjx ⟨rfl, rfl⟩) ?_
        rintro Jx1 ⟨hJx1, hJx12⟩
        refine Post.bind (Q := fun J' : Mat (Flt K) => J'.Is (mp.dims.ph * mp.dims.nx) (mp.dims.ph * mp.dims.nx) ∧
          (∀ r k' a, k' + 1 = i → r < mp.dims.nx → a < mp.dims.nx → isP F false Ts mp.stateScaling.get mp.invStateScaling.get X U i r a
            (J'.get (i * mp.dims.nx + r) (k' * mp.dims.nx + a))) ∧
          ∀ k r k' a, ¬ (k = i ∧ k' + 1 = i) → r < mp.dims.nx → a < mp.dims.nx → J'.get (k * mp.dims.nx + r) (k' * mp.dims.nx + a)
            = Jx1.get (k * mp.dims.nx + r) (k' * mp.dims.nx + a)) ?_ ?_
        · unfold Constraints.setPrevBlockF
          by_cases hpos : 0 < i
          · rw [if_pos hpos]
            simp only [pure_bind']
            refine (block_write Jx1 T'.neg i (i - 1) hi (by omega) hJx1 hT').mono ?_
            rintro J' ⟨q1, q2⟩
            refine ⟨q1, ?_, ?_⟩
            · intro r k' a hk' hr ha hr' ha'
              rw [q2 i r k' a hr ha, if_pos (show i = i ∧ k' = i - 1 from ⟨rfl, by omega⟩)]
              simp only [Mat.neg]
              refine From.congr ((From.trans (fun l : Fin mp.dims.nx => hT2 ⟨r, hr⟩ l) (hT'2 r ⟨a, ha⟩)).swap.neg) ?_ ?_
              · rintro ⟨l, m⟩; exact (hA2 l m m.2).symm
              · intro v; simp only [Bool.false_eq_true, if_false]
            · intro k r k' a hne hr ha
              rw [q2 k r k' a hr ha, if_neg (by omega)]
          · rw [if_neg hpos]
            refine post_pure ⟨hJx1, ?_, ?_⟩
            · intro r k' a hk'; omega
            · intro k r k' a _ _ _; rfl
        · rintro Jx2 ⟨hJx2, hP2, hJx22⟩
          refine Post.bind (block_write Jm S.neg i i hi hi hjm hS) ?_
          rintro Jm1 ⟨hJm1, hJm12⟩
          refine post_pure (hacc.step hc'1 hval hJx2 hJm1 ?_ ?_ ?_ ?_ ?_)
          · intro _ r a hr ha
            rw [hJx22 i r i a (by omega) hr ha, hJx12 i r i a hr ha, if_pos ⟨rfl, rfl⟩]
            simp only [isQ, Bool.false_eq_true, if_false]
            exact identity_entry _ _ _
          · intro _ r k' a hk' hr ha
            exact hP2 r k' a hk' hr ha
          · intro _ k r k' a hne hr ha
            rw [hJx22 k r k' a (by omega) hr ha, hJx12 k r k' a hr ha, if_neg (by omega)]
          · intro _ r b hr hb
            rw [hJm12 i r i b hr hb, if_pos ⟨rfl, rfl⟩]
            simp only [isR, Bool.false_eq_true, if_false, Mat.neg]
            intro hr'
            refine From.congr ((hS2 ⟨r, hr⟩ b).neg) ?_ (fun _ => rfl)
            intro l; exact (hB2 l b hb).symm
          · intro _ k r k' b hne hr hb
            rw [hJm12 k r k' b hr hb, if_neg (by omega)]
  · rintro ⟨ic, c, Jx, Jm⟩ hacc
    have hsz := hacc.sz
    have hjx := hacc.jx
    have hjm := hacc.jm
    have hval := hacc.val
    dsimp only at hsz hjx hjm hval ⊢
    cases g with
    | false =>
      simp only [Bool.false_eq_true, if_false]
      exact post_pure ⟨hsz, hval, ⟨rfl, rfl⟩, fun _ _ => rfl⟩
    | true =>
      simp only [if_true]
      refine Post.bind (glueJacobian_post mp hm rfl junk (mp.dims.ph * mp.dims.nx)
        (Mat.const mp.dims.nZ (mp.dims.ph * mp.dims.nx) 0) Jx Jm _ ⟨rfl, rfl⟩ hjx hjm rfl) ?_
      intro G hG
      refine post_pure ⟨hsz, hval, hG.is, Jx, Jm, ?_, ?_, ?_, ?_, ?_, hG⟩
      · intro k r a hk hr ha; exact hacc.next rfl k r a hk hr ha
      · intro k r k' a hk hk' hr ha; exact hacc.prev rfl k r k' a hk hk' hr ha
      · intro k r k' a _ h1 h2 hr ha; exact hacc.rest rfl k r k' a (.inr ⟨h1, h2⟩) hr ha
      · intro k r b hk hr hb; exact hacc.inp rfl k r b hk hr hb
      · intro k r k' b _ h1 hr hb; exact hacc.inpRest rfl k r k' b (.inr h1) hr hb

theorem stateDiff_of (F : DoubleFns d K) (x u : Vec K) {tx : FVec d.nx K} {tu : FVec d.nu K}
    (hx : x.viewF d.nx = tx) (hu : u.viewF d.nu = tu) (k : Nat) :
    NlSpec.StateDiffF d Constraints.dv F.state tx tu k (fun r a => dqX F x u k r a) (fun r b => dqU F x u k r b) := by
  subst hx hu
  refine ⟨?_, ?_⟩
  · intro r a
    have h := quotient_of (F.state (NlSpec.bumpV (x.viewF d.nx) a (Constraints.dv * x.absMax1.get a)) (u.viewF d.nu) k r)
      (F.state (NlSpec.bumpV (x.viewF d.nx) a (-(Constraints.dv * x.absMax1.get a))) (u.viewF d.nu) k r)
      (h := 2 * (Constraints.dv * x.absMax1.get a))
      (mul_ne_zero two_ne_zero (mul_pos Constraints.dv_pos (Vec.absMax1_pos x a)).ne')
    unfold dqX
    rw [Vec.ofF_get, Vec.ofF_get]
    exact h
  · intro r b
    have h := quotient_of (F.state (x.viewF d.nx) (NlSpec.bumpV (u.viewF d.nu) b (Constraints.dv * u.absMax1.get b)) k r)
      (F.state (x.viewF d.nx) (NlSpec.bumpV (u.viewF d.nu) b (-(Constraints.dv * u.absMax1.get b))) k r)
      (h := 2 * (Constraints.dv * u.absMax1.get b))
      (mul_ne_zero two_ne_zero (mul_pos Constraints.dv_pos (Vec.absMax1_pos u b)).ne')
    unfold dqU
    rw [Vec.ofF_get, Vec.ofF_get]
    exact h

/-- the residual comes from the values of the state equation -/
theorem resid_discrete (F : DoubleFns d K) (Ts : K) (X U : Mat K) {TX : Traj (d.ph + 1) d.nx K} {TU : Traj (d.ph + 1) d.nu K}
    (hX : X.viewF (d.ph + 1) d.nx = TX) (hU : U.viewF (d.ph + 1) d.nu = TU) {s : K} (hs : s ≠ 0) (k : Fin d.ph) (a : Fin d.nx) :
    From (fun _ : Unit => F.state (TX k.castSucc) (TU k.castSucc) k a) (fun v => (TX k.succ a - v ()) / s)
      ((resid F false Ts X U k a).divBy s) := by
  subst hX hU
  unfold resid
  simp only [Bool.false_eq_true, if_false]
  rw [Vec.ofF_get]
  refine ⟨?_, ?_, ?_⟩
  · intro v hv
    have h1 := hv ()
    change F.state ((Constraints.rowV X k).viewF d.nx) ((Constraints.rowV U k).viewF d.nu) k a = _ at h1
    rw [h1, Flt.neg_fin, Flt.fin_add_fin, divBy_fin hs, sub_eq_add_neg]
    rfl
  · intro _ hn
    rw [number_divBy hs, number_add, number_neg]
    exact fun hh => hn hh.2
  · intro _ hn
    change F.state ((Constraints.rowV X k).viewF d.nx) ((Constraints.rowV U k).viewF d.nu) k a = _ at hn
    rw [hn]; rfl

theorem resid_continuous (F : DoubleFns d K) (Ts : K) (X U : Mat K) {TX : Traj (d.ph + 1) d.nx K} {TU : Traj (d.ph + 1) d.nu K}
    (hX : X.viewF (d.ph + 1) d.nx = TX) (hU : U.viewF (d.ph + 1) d.nu = TU) {s : K} (hs : s ≠ 0) (k : Fin d.ph) (a : Fin d.nx) :
    From (fun i : Bool => if i then F.state (TX k.castSucc) (TU k.castSucc) k a else F.state (TX k.succ) (TU k.castSucc) k a)
      (fun v => (TX k.castSucc a + Ts / 2 * (v true + v false) - TX k.succ a) / s)
      ((resid F true Ts X U k a).divBy s) := by
  subst hX hU
  unfold resid
  simp only [if_true]
  rw [Vec.ofF_get, Vec.ofF_get]
  refine ⟨?_, ?_, ?_⟩
  · intro v hv
    have h1 := hv true
    have h2 := hv false
    change F.state ((Constraints.rowV X k).viewF d.nx) ((Constraints.rowV U k).viewF d.nu) k a = _ at h1
    change F.state ((Constraints.rowV X (k + 1)).viewF d.nx) ((Constraints.rowV U k).viewF d.nu) k a = _ at h2
    rw [h1, h2, Flt.neg_fin, Flt.fin_add_fin, Flt.fin_mul_fin, Flt.fin_add_fin, Flt.fin_add_fin, divBy_fin hs, sub_eq_add_neg]
    rfl
  · rintro (_ | _) hn <;> rw [number_divBy hs, number_add, number_add, number_fin_mul, number_add]
    · exact fun hh => hn hh.1.2.2
    · exact fun hh => hn hh.1.2.1
  · rintro (_ | _) hn
    · change F.state ((Constraints.rowV X (k + 1)).viewF d.nx) ((Constraints.rowV U k).viewF d.nu) k a = _ at hn
      rw [hn, Flt.add_nan, Flt.mul_nan, Flt.add_nan, Flt.nan_add]; rfl
    · change F.state ((Constraints.rowV X k).viewF d.nx) ((Constraints.rowV U k).viewF d.nu) k a = _ at hn
      rw [hn, Flt.nan_add, Flt.mul_nan, Flt.add_nan, Flt.nan_add]; rfl

theorem evalDyn_post (o : Constraints d K) (ho : o.Sized) (mp : Mapping K) (hm : mp.Good) (hd : mp.dims = d) (F : DoubleFns d K)
    (cont : Bool) (Ts : K) (junk : Nat → Flt K) (x : Vec K) (hx : x.size = d.nZ) (hp : d.ph < 2 ^ 31) (g : Bool)
    (hsc : g = true → ∀ a, mp.stateScaling.get a ≠ 0) :
    Post (o.evaluateStateModelEqF mp F cont Ts x g junk) (fun r =>
      r.value.size = d.ph * d.nx ∧ r.grad.size = d.nZ * (d.ph * d.nx) ∧
      ∃ X U : Mat K, X.viewF (d.ph + 1) d.nx = NlSpec.codeStates d mp.stateScaling.get o.x0.get x.get ∧
        U.viewF (d.ph + 1) d.nu = NlSpec.inputs d mp.inputScaling.get x.get ∧
      (∀ (k : Fin d.ph) (a : Fin d.nx), r.value.get (k * d.nx + a) = (resid F cont Ts X U k a).divBy (mp.stateScaling.get a)) ∧
      (g = true → ∃ Jx Jm : Mat (Flt K),
        (∀ k r a, k < d.ph → r < d.nx → a < d.nx →
          isQ F cont Ts mp.stateScaling.get mp.invStateScaling.get X U k r a (Jx.get (k * d.nx + r) (k * d.nx + a))) ∧
        (∀ k r k' a, k < d.ph → k' + 1 = k → r < d.nx → a < d.nx →
          isP F cont Ts mp.stateScaling.get mp.invStateScaling.get X U k r a (Jx.get (k * d.nx + r) (k' * d.nx + a))) ∧
        (∀ k r k' a, k < d.ph → k' ≠ k → k' + 1 ≠ k → r < d.nx → a < d.nx → Jx.get (k * d.nx + r) (k' * d.nx + a) = 0) ∧
        (∀ k r b, k < d.ph → r < d.nx → b < d.nu →
          isR F cont Ts mp.invStateScaling.get X U k r b (Jm.get (k * d.nx + r) (k * d.nu + b))) ∧
        (∀ k r k' b, k < d.ph → k' ≠ k → r < d.nx → b < d.nu → Jm.get (k * d.nx + r) (k' * d.nu + b) = 0) ∧
        ∃ G : Mat (Flt K), Glued mp (d.ph * d.nx) Jx Jm (Vec.const (d.ph * d.nx) 0) G ∧ r.grad = G.dataVec)) := by
  subst hd
  unfold Constraints.evaluateStateModelEqF
  refine Post.bind (Mapping.unwrapVector_post mp hm x o.x0 o.Xmat o.Umat hx ho.x0 ho.X.1 ho.X.2 ho.U.1 ho.U.2) ?_
  rintro ⟨X, U, e⟩ hw
  have hXv := Objective.viewF_states hw
  have hUv := Objective.viewF_inputs hw
  have hXs : X.Is (mp.dims.ph + 1) mp.dims.nx := ⟨hw.xr, hw.xc⟩
  have hUs : U.Is (mp.dims.ph + 1) mp.dims.nu := ⟨hw.ur, hw.uc⟩
  dsimp only at hXv hUv ⊢
  refine Post.bind (getStateEqConstraints_post mp hm rfl F cont Ts junk X U hXs hUs hp g hsc) ?_
  rintro ⟨c, J⟩ ⟨h1, h2, h3, h4⟩
  dsimp only at h1 h2 h3 h4 ⊢
  refine post_pure ⟨h1, ?_, X, U, hXv, hUv, fun k a => h2 k a k.2 a.2, ?_⟩
  · simp only [Mat.dataVec]; rw [h3.1, h3.2]
  · intro hg
    subst hg
    simp only [if_true] at h4
    obtain ⟨Jx, Jm, k1, k2, k3, k4, k5, hG⟩ := h4
    exact ⟨Jx, Jm, k1, k2, k3, k4, k5, J, hG, rfl⟩

/-! ### the values do not depend on whether derivatives are asked for -/

theorem stepDiscrete_value {mp : Mapping K} {F : DoubleFns d K} {X U : Mat K} {i ic : Nat} {c : Vec (Flt K)} {Jx Jm Jx0 Jm0 : Mat (Flt K)}
    {r : Nat × Vec (Flt K) × Mat (Flt K) × Mat (Flt K)}
    (h : Constraints.stepDiscreteF mp F X U true i (ic, c, Jx, Jm) = .ok r) :
    Constraints.stepDiscreteF mp F X U false i (ic, c, Jx0, Jm0) = .ok (r.1, r.2.1, Jx0, Jm0) := by
  unfold Constraints.stepDiscreteF at h ⊢
  dsimp only at h ⊢
  obtain ⟨uk, e1, h⟩ := bind_eq_ok.1 h
  obtain ⟨xk, e2, h⟩ := bind_eq_ok.1 h
  obtain ⟨x1, e3, h⟩ := bind_eq_ok.1 h
  obtain ⟨x2, e4, h⟩ := bind_eq_ok.1 h
  obtain ⟨v, e5, h⟩ := bind_eq_ok.1 h
  obtain ⟨c1, e6, h⟩ := bind_eq_ok.1 h
  obtain ⟨v1, e7, h⟩ := bind_eq_ok.1 h
  obtain ⟨u, e8, h⟩ := bind_eq_ok.1 h
  obtain ⟨c2, e9, h⟩ := bind_eq_ok.1 h
  rw [e1, ok_bind, e2, ok_bind, e3, ok_bind, e4, ok_bind, e5, ok_bind, e6, ok_bind, e7, ok_bind, e8, ok_bind, e9, ok_bind]
  simp only [if_true] at h
  obtain ⟨AB, -, h⟩ := bind_eq_ok.1 h
  obtain ⟨A, B⟩ := AB
  dsimp only at h
  obtain ⟨T, -, h⟩ := bind_eq_ok.1 h
  obtain ⟨T', -, h⟩ := bind_eq_ok.1 h
  obtain ⟨B', -, h⟩ := bind_eq_ok.1 h
  obtain ⟨J1, -, h⟩ := bind_eq_ok.1 h
  obtain ⟨J2, -, h⟩ := bind_eq_ok.1 h
  obtain ⟨J3, -, h⟩ := bind_eq_ok.1 h
  cases h
  rfl

theorem stepContinuous_value {mp : Mapping K} {F : DoubleFns d K} {Ts : K} {X U : Mat K} {i ic : Nat} {c : Vec (Flt K)}
    {Jx Jm Jx0 Jm0 : Mat (Flt K)} {r : Nat × Vec (Flt K) × Mat (Flt K) × Mat (Flt K)}
    (h : Constraints.stepContinuousF mp F Ts X U true i (ic, c, Jx, Jm) = .ok r) :
    Constraints.stepContinuousF mp F Ts X U false i (ic, c, Jx0, Jm0) = .ok (r.1, r.2.1, Jx0, Jm0) := by
  unfold Constraints.stepContinuousF at h ⊢
  dsimp only at h ⊢
  obtain ⟨uk, e1, h⟩ := bind_eq_ok.1 h
  obtain ⟨xk, e2, h⟩ := bind_eq_ok.1 h
  obtain ⟨x1, e3, h⟩ := bind_eq_ok.1 h
  obtain ⟨f1, e4, h⟩ := bind_eq_ok.1 h
  obtain ⟨f2, e5, h⟩ := bind_eq_ok.1 h
  obtain ⟨w1, e6, h⟩ := bind_eq_ok.1 h
  obtain ⟨w2, e7, h⟩ := bind_eq_ok.1 h
  obtain ⟨w3, e8, h⟩ := bind_eq_ok.1 h
  obtain ⟨c1, e9, h⟩ := bind_eq_ok.1 h
  obtain ⟨v1, e10, h⟩ := bind_eq_ok.1 h
  obtain ⟨u, e11, h⟩ := bind_eq_ok.1 h
  obtain ⟨c2, e12, h⟩ := bind_eq_ok.1 h
  rw [e1, ok_bind, e2, ok_bind, e3, ok_bind, e4, ok_bind, e5, ok_bind, e6, ok_bind, e7, ok_bind, e8, ok_bind, e9, ok_bind, e10,
    ok_bind, e11, ok_bind, e12, ok_bind]
  simp only [if_true] at h
  obtain ⟨⟨A, B⟩, -, h⟩ := bind_eq_ok.1 h
  dsimp only at h
  obtain ⟨⟨A1, B1⟩, -, h⟩ := bind_eq_ok.1 h
  dsimp only at h
  obtain ⟨_, -, h⟩ := bind_eq_ok.1 h
  obtain ⟨_, -, h⟩ := bind_eq_ok.1 h
  obtain ⟨_, -, h⟩ := bind_eq_ok.1 h
  obtain ⟨_, -, h⟩ := bind_eq_ok.1 h
  obtain ⟨_, -, h⟩ := bind_eq_ok.1 h
  obtain ⟨_, -, h⟩ := bind_eq_ok.1 h
  obtain ⟨_, -, h⟩ := bind_eq_ok.1 h
  obtain ⟨_, -, h⟩ := bind_eq_ok.1 h
  cases h
  rfl

theorem loop_value {body body' : Nat → Nat × Vec (Flt K) × Mat (Flt K) × Mat (Flt K) → Exec (Nat × Vec (Flt K) × Mat (Flt K) × Mat (Flt K))}
    (hb : ∀ i ic c Jx Jm Jx0 Jm0 r, body i (ic, c, Jx, Jm) = .ok r → body' i (ic, c, Jx0, Jm0) = .ok (r.1, r.2.1, Jx0, Jm0)) (n : Nat) :
    ∀ (lo ic : Nat) (c : Vec (Flt K)) (Jx Jm Jx0 Jm0 : Mat (Flt K)) (r : Nat × Vec (Flt K) × Mat (Flt K) × Mat (Flt K)),
      forFrom lo n (ic, c, Jx, Jm) body = .ok r → forFrom lo n (ic, c, Jx0, Jm0) body' = .ok (r.1, r.2.1, Jx0, Jm0) := by
  induction n with
  | zero =>
    intro lo ic c Jx Jm Jx0 Jm0 r h
    cases h
    rfl
  | succ n ih =>
    intro lo ic c Jx Jm Jx0 Jm0 r h
    unfold forFrom at h ⊢
    obtain ⟨⟨ic', c', Jx', Jm'⟩, e, h⟩ := bind_eq_ok.1 h
    rw [hb _ _ _ _ _ Jx0 Jm0 _ e, ok_bind]
    exact ih _ _ _ _ _ _ _ _ h

theorem evalDyn_value {o : Constraints d K} {mp : Mapping K} {F : DoubleFns d K} {cont : Bool} {Ts : K} {z : Vec K} {junk : Nat → Flt K}
    {r : ConCost (Flt K)} (h : o.evaluateStateModelEqF mp F cont Ts z true junk = .ok r) :
    ∃ r', o.evaluateStateModelEqF mp F cont Ts z false junk = .ok r' ∧ r'.value = r.value := by
  unfold Constraints.evaluateStateModelEqF at h ⊢
  obtain ⟨w, e, h⟩ := bind_eq_ok.1 h
  obtain ⟨q, hq, h⟩ := bind_eq_ok.1 h
  cases h
  rw [e, ok_bind]
  unfold Constraints.getStateEqConstraintsF forRange at hq ⊢
  dsimp only at hq ⊢
  obtain ⟨s, hs, hq⟩ := bind_eq_ok.1 hq
  have := loop_value (body' := fun i s => if cont then Constraints.stepContinuousF mp F Ts w.1 w.2.1 false i s
      else Constraints.stepDiscreteF mp F w.1 w.2.1 false i s) (fun i ic c Jx Jm Jx0 Jm0 r hr => by
        cases cont with
        | true => exact stepContinuous_value hr
        | false => exact stepDiscrete_value hr) _ _ _ _ _ _
      (Mat.const (d.ph * d.nx) (d.ph * d.nx) 0) (Mat.const (d.ph * d.nx) (d.ph * d.nu) 0) _ hs
  rw [this, ok_bind]
  simp only [if_true] at hq
  obtain ⟨J, -, hq⟩ := bind_eq_ok.1 hq
  cases hq
  exact ⟨_, rfl, rfl⟩

/-- the inputs of one step, after move blocking -/
theorem inputs_of {ι : Type} {xs : Fin d.nu → ι → Flt K} {val : (ι → K) → K} {k : Fin d.ph} {su : K} {ch j : Nat} {b : Fin d.nu}
    {J : Nat → Nat → Flt K} {p : Flt K}
    (hk : ∀ b : Fin d.nu, From (xs b) val (J k b)) (h0 : ∀ (k' : Fin d.ph) (b : Fin d.nu), k' ≠ k → J k' b = 0)
    (hp : From (fun i : Fin d.ph × Fin d.nu => J i.1 i.2)
      (fun v => su * ∑ k : Fin d.ph, if min (k : Nat) (ch - 1) = j then v (k, b) else 0) p) :
    From (fun i : Fin d.nu × ι => xs i.1 i.2) (fun v => su * if min (k : Nat) (ch - 1) = j then val (fun i => v (b, i)) else 0) p := by
  refine ⟨?_, ?_, ?_⟩
  · intro v hv
    rw [hp.number (fun i => if i.1 = k then val (fun l => v (i.2, l)) else 0)]
    · congr 2
      rw [Finset.sum_eq_single k]
      · dsimp only; rw [if_pos (rfl : k = k)]
      · intro k' _ hne; dsimp only; rw [if_neg hne]; simp
      · intro h; exact absurd (Finset.mem_univ _) h
    · rintro ⟨k', b'⟩
      dsimp only
      by_cases he : k' = k
      · subst he; rw [if_pos rfl]; exact (hk b').number _ fun l => hv (b', l)
      · rw [if_neg he]; exact h0 k' b' he
  · rintro ⟨b', l⟩ hn
    exact hp.spoiled (k, b') ((hk b').spoiled l hn)
  · rintro ⟨b', l⟩ hn
    exact hp.nan (k, b') ((hk b').nan l hn)

end Dbl

namespace NlState
open NlSpec Dbl
variable {d : Dims} {K : Type} [Field K] [LinearOrder K] [IsStrictOrderedRing K]

theorem evalDynF_discrete {s : NlState d K} {c : NlSpec.Cfg d K} (h : s.Holds c) (hp : d.ph < 2 ^ 31) (F : DoubleFns d K)
    (hc : c.cont = false) (hs : ∀ a, c.stScale a ≠ 0) (z : Vec K) (hz : z.size = d.nZ) (g : Bool) (junk : Nat → Flt K) {X U}
    (hX : X = NlSpec.codeStates d c.stScale s.con.x0.get z.get) (hU : U = NlSpec.inputs d c.inScale z.get) :
    Post (s.evalDynF F z g junk) (fun q => q.value.size = d.ph * d.nx ∧ q.grad.size = d.nZ * (d.ph * d.nx) ∧
      ∃ (qx : Fin d.ph → Fin d.nx → Fin d.nx → Flt K) (qu : Fin d.ph → Fin d.nx → Fin d.nu → Flt K),
      (∀ k : Fin d.ph, StateDiffF d Constraints.dv F.state (X k.castSucc) (U k.castSucc) k (qx k) (qu k)) ∧
      ∀ (k : Fin d.ph) (r : Fin d.nx),
        From (fun _ : Unit => F.state (X k.castSucc) (U k.castSucc) k r) (fun v => (X k.succ r - v ()) / c.stScale r)
          (q.value.get (k * d.nx + r)) ∧
        (g = true → DiscreteRowF d c.stScale c.inScale (qx k) (qu k) k r (fun v => q.grad.get ((k * d.nx + r) * d.nZ + v)))) := by
  unfold evalDynF
  refine (Dbl.evalDyn_post s.con h.csz s.mp h.good h.dims F s.M.continuous s.M.Ts junk z hz hp g
    (fun _ => by rw [h.stS]; exact hs)).mono ?_
  rintro q ⟨h1, h2, MX, MU, hMX, hMU, hv, hg⟩
  rw [h.stS, h.inS, h.cont, h.Ts, hc] at *
  rw [← hX] at hMX
  rw [← hU] at hMU
  have hx0 : ∀ k : Fin d.ph, (Constraints.rowV MX k).viewF d.nx = X k.castSucc := fun k => Constraints.rowV_view hMX k.castSucc
  have hu0 : ∀ k : Fin d.ph, (Constraints.rowV MU k).viewF d.nu = U k.castSucc := fun k => Constraints.rowV_view hMU k.castSucc
  refine ⟨h1, h2, fun k r a => dqX F (Constraints.rowV MX k) (Constraints.rowV MU k) k r a,
    fun k r b => dqU F (Constraints.rowV MX k) (Constraints.rowV MU k) k r b, fun k => stateDiff_of F _ _ (hx0 k) (hu0 k) k, ?_⟩
  intro k r
  refine ⟨?_, ?_⟩
  · rw [hv k r]
    exact resid_discrete F c.Ts MX MU hMX hMU (hs r) k r
  · intro hgt
    obtain ⟨Jx, Jm, g1, g2, g3, g4, g5, G, hG, e⟩ := hg hgt
    have hinv : s.mp.invStateScaling.get r = 1 / c.stScale r := by
      rw [h.good.inv r (by rw [h.dims]; exact r.2), h.stS]
    have hd := h.dims
    have his : G.Is d.nZ (d.ph * d.nx) := by have := hG.is; rwa [hd] at this
    have hst : ∀ c k a, c < d.ph * d.nx → k < d.ph → a < d.nx → G.get (NlSpec.stateIx d k a) c = Jx.get c (k * d.nx + a) := by
      have := hG.states; rwa [hd] at this
    have hin : ∀ (c' j : Nat) (b : Fin d.nu), c' < d.ph * d.nx → j < d.ch →
        From (fun i : Fin d.ph × Fin d.nu => Jm.get c' (i.1 * d.nu + i.2))
          (fun v => c.inScale b * ∑ k : Fin d.ph, if min (k : Nat) (d.ch - 1) = j then v (k, b) else 0)
          (G.get (NlSpec.inputIx d j b) c') := by
      have := hG.inputs; rw [h.inS] at this; rwa [hd] at this
    have hsl : ∀ c, c < d.ph * d.nx → G.get (NlSpec.slackIx d) c = 0 := by
      have := hG.slack; rw [hd] at this; exact this
    have hrow := block_lt r.2 k.2
    rw [e]
    refine ⟨?_, ?_, ?_, ?_, ?_⟩
    · intro a
      rw [Dbl.dataVec_get his (Constraints.stateIx_lt _ k.2 a.2), hst _ k a hrow k.2 a.2]
      have := g1 k r a k.2 r.2 a.2
      simp only [isQ, Bool.false_eq_true, if_false] at this
      rw [this]; simp only [Fin.ext_iff]
    · intro k' a hk'
      rw [Dbl.dataVec_get his (Constraints.stateIx_lt _ (by omega) a.2), hst _ k' a hrow (by omega) a.2]
      refine (g2 k r k' a k.2 hk' r.2 a.2 r.2 a.2).congr (fun _ => rfl) ?_
      intro v
      simp only [Bool.false_eq_true, if_false, hinv]
    · intro k' a hk' hn1 hn2
      rw [Dbl.dataVec_get his (Constraints.stateIx_lt _ hk' a.2), hst _ k' a hrow hk' a.2, g3 k r k' a k.2 hn1 hn2 r.2 a.2]
      rfl
    · intro j b hj
      rw [Dbl.dataVec_get his (Constraints.inputIx_lt _ hj b.2)]
      have hk : ∀ b : Fin d.nu, From (fun l : Fin d.nx => dqU F (Constraints.rowV MX k) (Constraints.rowV MU k) k l b)
          (fun v => -(1 / c.stScale r * v r)) (Jm.get (k * d.nx + r) (k * d.nu + b)) := by
        intro b
        have := g4 k r b k.2 r.2 b.2
        simp only [isR, Bool.false_eq_true, if_false] at this
        refine (this r.2).congr (fun _ => rfl) ?_
        intro v; rw [hinv]
      exact (inputs_of (J := fun k' b => Jm.get (k * d.nx + r) (k' * d.nu + b)) hk
        (fun k' b hne => g5 k r k' b k.2 (fun e => hne (Fin.ext e)) r.2 b.2) (hin _ j b hrow hj)).swap
    · rw [Dbl.dataVec_get his (Constraints.slackIx_lt _), hsl _ hrow]; rfl

theorem evalDynF_continuous {s : NlState d K} {c : NlSpec.Cfg d K} (h : s.Holds c) (hp : d.ph < 2 ^ 31) (F : DoubleFns d K)
    (hc : c.cont = true) (hs : ∀ a, c.stScale a ≠ 0) (z : Vec K) (hz : z.size = d.nZ) (g : Bool) (junk : Nat → Flt K) {X U}
    (hX : X = NlSpec.codeStates d c.stScale s.con.x0.get z.get) (hU : U = NlSpec.inputs d c.inScale z.get) :
    Post (s.evalDynF F z g junk) (fun q => q.value.size = d.ph * d.nx ∧ q.grad.size = d.nZ * (d.ph * d.nx) ∧
      ∃ (qx qx' : Fin d.ph → Fin d.nx → Fin d.nx → Flt K) (qu qu' : Fin d.ph → Fin d.nx → Fin d.nu → Flt K),
      (∀ k : Fin d.ph, StateDiffF d Constraints.dv F.state (X k.castSucc) (U k.castSucc) k (qx k) (qu k)) ∧
      (∀ k : Fin d.ph, StateDiffF d Constraints.dv F.state (X k.succ) (U k.castSucc) k (qx' k) (qu' k)) ∧
      ∀ (k : Fin d.ph) (r : Fin d.nx),
        From (fun i : Bool => if i then F.state (X k.castSucc) (U k.castSucc) k r else F.state (X k.succ) (U k.castSucc) k r)
          (fun v => (X k.castSucc r + c.Ts / 2 * (v true + v false) - X k.succ r) / c.stScale r) (q.value.get (k * d.nx + r)) ∧
        (g = true → ContinuousRowF d c.Ts c.stScale c.inScale (qx k) (qx' k) (qu k) (qu' k) k r
          (fun v => q.grad.get ((k * d.nx + r) * d.nZ + v)))) := by
  unfold evalDynF
  refine (Dbl.evalDyn_post s.con h.csz s.mp h.good h.dims F s.M.continuous s.M.Ts junk z hz hp g
    (fun _ => by rw [h.stS]; exact hs)).mono ?_
  rintro q ⟨h1, h2, MX, MU, hMX, hMU, hv, hg⟩
  rw [h.stS, h.inS, h.cont, h.Ts, hc] at *
  rw [← hX] at hMX
  rw [← hU] at hMU
  have hx0 : ∀ k : Fin d.ph, (Constraints.rowV MX k).viewF d.nx = X k.castSucc := fun k => Constraints.rowV_view hMX k.castSucc
  have hx1 : ∀ k : Fin d.ph, (Constraints.rowV MX (k + 1)).viewF d.nx = X k.succ := fun k => Constraints.rowV_view hMX k.succ
  have hu0 : ∀ k : Fin d.ph, (Constraints.rowV MU k).viewF d.nu = U k.castSucc := fun k => Constraints.rowV_view hMU k.castSucc
  refine ⟨h1, h2, fun k r a => dqX F (Constraints.rowV MX k) (Constraints.rowV MU k) k r a,
    fun k r a => dqX F (Constraints.rowV MX (k + 1)) (Constraints.rowV MU k) k r a,
    fun k r b => dqU F (Constraints.rowV MX k) (Constraints.rowV MU k) k r b,
    fun k r b => dqU F (Constraints.rowV MX (k + 1)) (Constraints.rowV MU k) k r b,
    fun k => stateDiff_of F _ _ (hx0 k) (hu0 k) k, fun k => stateDiff_of F _ _ (hx1 k) (hu0 k) k, ?_⟩
  intro k r
  refine ⟨?_, ?_⟩
  · rw [hv k r]
    exact resid_continuous F c.Ts MX MU hMX hMU (hs r) k r
  · intro hgt
    obtain ⟨Jx, Jm, g1, g2, g3, g4, g5, G, hG, e⟩ := hg hgt
    have hinv : s.mp.invStateScaling.get r = 1 / c.stScale r := by
      rw [h.good.inv r (by rw [h.dims]; exact r.2), h.stS]
    have hd := h.dims
    have his : G.Is d.nZ (d.ph * d.nx) := by have := hG.is; rwa [hd] at this
    have hst : ∀ c k a, c < d.ph * d.nx → k < d.ph → a < d.nx → G.get (NlSpec.stateIx d k a) c = Jx.get c (k * d.nx + a) := by
      have := hG.states; rwa [hd] at this
    have hin : ∀ (c' j : Nat) (b : Fin d.nu), c' < d.ph * d.nx → j < d.ch →
        From (fun i : Fin d.ph × Fin d.nu => Jm.get c' (i.1 * d.nu + i.2))
          (fun v => c.inScale b * ∑ k : Fin d.ph, if min (k : Nat) (d.ch - 1) = j then v (k, b) else 0)
          (G.get (NlSpec.inputIx d j b) c') := by
      have := hG.inputs; rw [h.inS] at this; rwa [hd] at this
    have hsl : ∀ c, c < d.ph * d.nx → G.get (NlSpec.slackIx d) c = 0 := by
      have := hG.slack; rw [hd] at this; exact this
    have hrow := block_lt r.2 k.2
    rw [e]
    refine ⟨?_, ?_, ?_, ?_, ?_⟩
    · intro a
      rw [Dbl.dataVec_get his (Constraints.stateIx_lt _ k.2 a.2), hst _ k a hrow k.2 a.2]
      have := g1 k r a k.2 r.2 a.2
      simp only [isQ, if_true] at this
      refine (this r.2 a.2).congr (fun _ => rfl) ?_
      intro v; simp only [hinv, Fin.ext_iff]
    · intro k' a hk'
      rw [Dbl.dataVec_get his (Constraints.stateIx_lt _ (by omega) a.2), hst _ k' a hrow (by omega) a.2]
      refine (g2 k r k' a k.2 hk' r.2 a.2 r.2 a.2).congr (fun _ => rfl) ?_
      intro v
      simp only [if_true, hinv, Fin.ext_iff]
    · intro k' a hk' hn1 hn2
      rw [Dbl.dataVec_get his (Constraints.stateIx_lt _ hk' a.2), hst _ k' a hrow hk' a.2, g3 k r k' a k.2 hn1 hn2 r.2 a.2]
      rfl
    · intro j b hj
      rw [Dbl.dataVec_get his (Constraints.inputIx_lt _ hj b.2)]
      have hk : ∀ b : Fin d.nu, From (fun i : Bool × Fin d.nx => if i.1 then dqU F (Constraints.rowV MX k) (Constraints.rowV MU k) k i.2 b
          else dqU F (Constraints.rowV MX (k + 1)) (Constraints.rowV MU k) k i.2 b)
          (fun v => c.Ts / 2 * (1 / c.stScale r) * (v (true, r) + v (false, r))) (Jm.get (k * d.nx + r) (k * d.nu + b)) := by
        intro b
        have := g4 k r b k.2 r.2 b.2
        simp only [isR, if_true] at this
        refine (this r.2).congr (fun _ => rfl) ?_
        intro v; rw [hinv]
      have := inputs_of (J := fun k' b => Jm.get (k * d.nx + r) (k' * d.nu + b)) hk
        (fun k' b hne => g5 k r k' b k.2 (fun e => hne (Fin.ext e)) r.2 b.2) (hin _ j b hrow hj)
      refine ⟨?_, ?_, ?_⟩
      · intro v hv
        exact this.number (fun i => v (i.2.1, i.2.2, i.1)) fun i => hv (i.2.1, i.2.2, i.1)
      · rintro ⟨t, l, b'⟩ hn; exact this.spoiled (b', t, l) hn
      · rintro ⟨t, l, b'⟩ hn; exact this.nan (b', t, l) hn
    · rw [Dbl.dataVec_get his (Constraints.slackIx_lt _), hsl _ hrow]; rfl

end NlState
end Mpc
