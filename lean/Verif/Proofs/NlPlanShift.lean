import Mathlib.Algebra.BigOperators.Fin
import Mathlib.Tactic.Linarith
import Verif.Spec.NlLoop

/-
Helper lemmas: a plan moved one step ahead.
-/
namespace Mpc.NlSpec
open Mpc.Spec (within)
set_option linter.unusedSectionVars false
variable {K : Type} {d : Dims} [Field K] [LinearOrder K] [IsStrictOrderedRing K]
variable {ops : List (NlCall d K)} {outs : List (NlOut K)} {F : FVec d.nx K → FVec d.nu K → FVec d.nx K}
  {l : FVec d.nx K → FVec d.nu K → K} {V : FVec d.nx K → K} {Stage : FVec d.nx K → FVec d.nu K → Prop} {End : FVec d.nx K → Prop}

/-- the plan from the next step on, with one more input -/
def Plan.shift (F : FVec d.nx K → FVec d.nu K → FVec d.nx K) (p : Plan d K) (w : FVec d.nu K) : Plan d K where
  X := fun k => if h : (k : Nat) < d.ph then p.X ⟨k + 1, by omega⟩ else F (p.X (Fin.last d.ph)) w
  U := fun k => if h : (k : Nat) + 1 < d.ph then p.U ⟨k + 1, by omega⟩ else w
  e := 0

theorem Plan.shift_X {p : Plan d K} {w : FVec d.nu K} {k : Fin (d.ph + 1)} {j : Fin (d.ph + 1)} (h : (j : Nat) = k + 1) :
    (p.shift F w).X k = p.X j := by
  have hj := j.2
  show (if h : (k : Nat) < d.ph then p.X ⟨k + 1, by omega⟩ else F (p.X (Fin.last d.ph)) w) = _
  rw [dif_pos (by omega)]
  congr 1
  exact Fin.ext h.symm

theorem Plan.shift_X_last {p : Plan d K} {w : FVec d.nu K} {k : Fin (d.ph + 1)} (h : (k : Nat) = d.ph) :
    (p.shift F w).X k = F (p.X (Fin.last d.ph)) w := by
  show (if h : (k : Nat) < d.ph then p.X ⟨k + 1, by omega⟩ else F (p.X (Fin.last d.ph)) w) = _
  rw [dif_neg (by omega)]

theorem Plan.shift_U {p : Plan d K} {w : FVec d.nu K} {k : Fin (d.ph + 1)} {j : Fin (d.ph + 1)} (h : (j : Nat) = k + 1)
    (hj : (j : Nat) < d.ph) : (p.shift F w).U k = p.U j := by
  show (if h : (k : Nat) + 1 < d.ph then p.U ⟨k + 1, by omega⟩ else w) = _
  rw [dif_pos (by omega)]
  congr 1
  exact Fin.ext h.symm

theorem Plan.shift_U_last {p : Plan d K} {w : FVec d.nu K} {k : Fin (d.ph + 1)} (h : d.ph ≤ (k : Nat) + 1) :
    (p.shift F w).U k = w := by
  show (if h : (k : Nat) + 1 < d.ph then p.U ⟨k + 1, by omega⟩ else w) = _
  rw [dif_neg (by omega)]

/-- with an exact discrete model a plan follows it -/
theorem Allowed.follows (hs : Staged ops outs F l V Stage End) {x0 : Nat → K} {p : Plan d K} (hp : Allowed ops outs x0 p)
    (k : Fin d.ph) : p.X k.succ = F (p.X k.castSucc) (p.U k.castSucc) := by
  funext a
  have := hp.model _ _ hs.model k a
  rw [hs.discrete] at this
  have := abs_nonpos_iff.1 this
  unfold modelError at this
  simp only [Option.isSome_none, Bool.false_eq_true, if_false] at this
  exact sub_eq_zero.1 this

theorem Allowed.stages (hs : Staged ops outs F l V Stage End) {x0 : Nat → K} {p : Plan d K} (hp : Allowed ops outs x0 p) :
    (∀ k : Fin d.ph, Stage (p.X k.castSucc) (p.U k.castSucc)) ∧ End (p.X (Fin.last d.ph)) := by
  refine (hs.constraints p.X p.U).1 ⟨fun G tol h i => ?_, fun G tol h i => hp.eq G tol h i⟩
  have := hp.ineq G tol h i
  rwa [hp.hard] at this

theorem Allowed.atEnd (hph : 0 < d.ph) (hs : Staged ops outs F l V Stage End) {x0 : Nat → K} {p : Plan d K} (hp : Allowed ops outs x0 p) :
    AtEnd ops outs End (p.X (Fin.last d.ph)) := by
  refine ⟨(hp.stages hs).2, fun a => ?_⟩
  have := hp.states ⟨d.ph - 1, by omega⟩ a
  rwa [show Fin.succ (⟨d.ph - 1, by omega⟩ : Fin d.ph) = Fin.last d.ph from Fin.ext (by show d.ph - 1 + 1 = d.ph; omega)] at this

theorem Allowed.inputOk (hch : 0 < d.ch) (hle : d.ch ≤ d.ph) {x0 : Nat → K} {p : Plan d K} (hp : Allowed ops outs x0 p) :
    InputOk ops outs (p.U ⟨d.ch - 1, by omega⟩) := fun b => hp.inputs ⟨d.ch - 1, by omega⟩ b (by show d.ch - 1 < d.ch; omega)

/-- The plan moved one step ahead is allowed from the next state. -/
theorem Allowed.shift (hch : 0 < d.ch) (hle : d.ch ≤ d.ph) (hs : Staged ops outs F l V Stage End) {x0 x1 : Nat → K} {p : Plan d K}
    (hp : Allowed ops outs x0 p)
    (hx : ∀ a : Fin d.nx, x1 a = F (p.X 0) (p.U 0) a) {w : FVec d.nu K} (hw : InputOk ops outs w)
    (hw1 : Stage (p.X (Fin.last d.ph)) w) (hw2 : AtEnd ops outs End (F (p.X (Fin.last d.ph)) w))
    (hw3 : d.ch < d.ph → w = p.U ⟨d.ch - 1, by omega⟩) : Allowed ops outs x1 (p.shift F w) := by
  have hph : 0 < d.ph := by omega
  obtain ⟨hst, -⟩ := hp.stages hs
  have hX1 : p.X ⟨1, by omega⟩ = F (p.X 0) (p.U 0) := hp.follows hs ⟨0, hph⟩
  have hcon : (∀ k : Fin d.ph, Stage ((p.shift F w).X k.castSucc) ((p.shift F w).U k.castSucc)) ∧ End ((p.shift F w).X (Fin.last d.ph)) := by
    refine ⟨fun k => ?_, ?_⟩
    · rw [Plan.shift_X (j := k.succ) (by simp)]
      by_cases h : (k : Nat) + 1 < d.ph
      · rw [Plan.shift_U (j := k.succ) (by simp) (by simpa using h)]
        exact hst ⟨k + 1, h⟩
      · rw [Plan.shift_U_last (by simp; omega), show k.succ = Fin.last d.ph from Fin.ext (by simp; omega)]
        exact hw1
    · rw [Plan.shift_X_last (by simp)]
      exact hw2.1
  obtain ⟨hci, hce⟩ := (hs.constraints _ _).2 hcon
  -- frozen inputs
  have hU : ∀ (k j : Fin (d.ph + 1)), (j : Nat) = min (k : Nat) (d.ch - 1) → (p.shift F w).U k = (p.shift F w).U j := by
    intro k j hj
    by_cases hk : (k : Nat) < d.ch
    · rw [show j = k from Fin.ext (by omega)]
    have hj' : (j : Nat) = d.ch - 1 := by omega
    by_cases hc : d.ch < d.ph
    · have frozen : ∀ i : Fin (d.ph + 1), d.ch ≤ (i : Nat) + 1 → (p.shift F w).U i = w := by
        intro i hi
        by_cases h1 : (i : Nat) + 1 < d.ph
        · rw [Plan.shift_U (j := ⟨i + 1, by omega⟩) rfl h1, hw3 hc]
          funext b
          exact hp.blocked _ _ b (by simp; omega)
        · exact Plan.shift_U_last (by omega)
      rw [frozen k (by omega), frozen j (by omega)]
    · rw [Plan.shift_U_last (by omega), Plan.shift_U_last (by omega)]
  refine ⟨fun a => ?_, fun k j b hj => congrFun (hU k j hj) b, fun k a => ?_, fun j b hj => ?_, rfl, fun G tol h k a => ?_,
    hci, hce⟩
  · rw [Plan.shift_X (j := ⟨1, by omega⟩) (by simp), hX1, hx]
  · by_cases h : (k : Nat) + 1 < d.ph
    · rw [Plan.shift_X (j := Fin.succ ⟨k + 1, h⟩) (by simp)]
      exact hs.states k a _ h a.2 (hp.states ⟨k + 1, h⟩ a)
    · rw [Plan.shift_X_last (by simp; omega)]
      have := hw2.2 a
      rwa [show d.ph - 1 = k by omega] at this
  · by_cases h : (j : Nat) + 1 < d.ch
    · rw [Plan.shift_U (j := ⟨j + 1, by omega⟩) rfl (by simp; omega)]
      exact hs.inputs j b _ h b.2 (hp.inputs ⟨j + 1, by omega⟩ b h)
    · by_cases hc : d.ch < d.ph
      · rw [Plan.shift_U (j := ⟨j + 1, by omega⟩) rfl (by simp; omega),
          hp.blocked ⟨j + 1, by omega⟩ j b (by simp; omega)]
        exact hp.inputs j b hj
      · rw [Plan.shift_U_last (by omega)]
        have := hw b
        rwa [show d.ch - 1 = j by omega] at this
  · rw [hs.model] at h
    obtain ⟨rfl, rfl⟩ := Prod.mk.inj (Option.some.inj h)
    rw [hs.discrete, abs_nonpos_iff]
    unfold modelError
    simp only [Option.isSome_none, Bool.false_eq_true, if_false]
    rw [sub_eq_zero, Plan.shift_X (k := k.castSucc) (j := k.succ) (by simp)]
    by_cases h : (k : Nat) + 1 < d.ph
    · rw [Plan.shift_X (j := Fin.succ ⟨k + 1, h⟩) (by simp), Plan.shift_U (j := k.succ) (by simp) (by simpa using h)]
      exact congrFun (hp.follows hs ⟨k + 1, h⟩) a
    · rw [Plan.shift_X_last (by simp; omega), Plan.shift_U_last (by simp; omega),
        show k.succ = Fin.last d.ph from Fin.ext (by simp; omega)]

/-- what the moved plan costs -/
theorem planCost_shift (hph : 0 < d.ph) (hs : Staged ops outs F l V Stage End) {f : ObjFn d K} (hf : last objectiveOf ops = some f)
    {p : Plan d K} (he : p.e = 0) {w : FVec d.nu K} (hw : l (p.X (Fin.last d.ph)) w + V (F (p.X (Fin.last d.ph)) w) ≤ V (p.X (Fin.last d.ph))) :
    planCost f ops (p.shift F w) + l (p.X 0) (p.U 0) ≤ planCost f ops p := by
  obtain ⟨f', hf', hc⟩ := hs.cost
  obtain rfl : f' = f := Option.some.inj (hf'.symm.trans hf)
  have e1 : planCost f' ops p = ∑ k : Fin d.ph, l (p.X k.castSucc) (p.U k.castSucc) + V (p.X (Fin.last d.ph)) := by
    unfold planCost
    rw [he]
    exact hc p.X p.U
  have e2 : planCost f' ops (p.shift F w) = _ := hc _ _
  rw [e1, e2, Plan.shift_X_last (by simp)]
  obtain ⟨n, hn⟩ : ∃ n, d.ph = n + 1 := ⟨d.ph - 1, by omega⟩
  have g1 : ∑ k : Fin d.ph, l ((p.shift F w).X k.castSucc) ((p.shift F w).U k.castSucc) + l (p.X 0) (p.U 0) =
      ∑ k : Fin d.ph, l (p.X k.castSucc) (p.U k.castSucc) + l (p.X (Fin.last d.ph)) w := by
    let g : Nat → K := fun k => if h : k < d.ph then l (p.X ⟨k, by omega⟩) (p.U ⟨k, by omega⟩) else l (p.X (Fin.last d.ph)) w
    have h1 : ∀ k : Fin d.ph, l ((p.shift F w).X k.castSucc) ((p.shift F w).U k.castSucc) = g (k + 1) := by
      intro k
      rw [Plan.shift_X (j := k.succ) (by simp)]
      by_cases h : (k : Nat) + 1 < d.ph
      · rw [Plan.shift_U (j := k.succ) (by simp) (by simpa using h)]
        simp only [g, dif_pos h]
        rfl
      · rw [Plan.shift_U_last (by simp; omega), show k.succ = Fin.last d.ph from Fin.ext (by simp; omega)]
        simp only [g, dif_neg h]
    have h2 : ∀ k : Fin d.ph, l (p.X k.castSucc) (p.U k.castSucc) = g k := by
      intro k
      simp only [g, dif_pos k.2]
      rfl
    have h3 : l (p.X 0) (p.U 0) = g 0 := by simp only [g, dif_pos hph]; rfl
    have h4 : l (p.X (Fin.last d.ph)) w = g d.ph := by simp [g]
    rw [h3, h4, Finset.sum_congr rfl fun k _ => h1 k, Finset.sum_congr rfl fun k _ => h2 k,
      Fin.sum_univ_eq_sum_range (fun k => g (k + 1)), Fin.sum_univ_eq_sum_range g, ← Finset.sum_range_succ, Finset.sum_range_succ']
  linarith

end Mpc.NlSpec
