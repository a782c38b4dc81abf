import Verif.Proofs.QpDet
import Verif.Spec.Doubles

/-
IEEE arithmetic with NaN and infinities, and what `ProblemBuilder::get` computes with it.
-/
namespace Mpc
open Exec
set_option linter.unusedSectionVars false

namespace Flt
variable {K : Type} [Field K] [LinearOrder K]

@[simp] theorem neg_nan : -(nan : Flt K) = nan := rfl
@[simp] theorem neg_fin (x : K) : -(fin x) = fin (-x) := rfl
@[simp] theorem nan_add (x : Flt K) : nan + x = nan := rfl
@[simp] theorem add_nan (x : Flt K) : x + nan = nan := by cases x <;> rfl
@[simp] theorem fin_add_fin (x y : K) : (fin x + fin y : Flt K) = fin (x + y) := rfl
@[simp] theorem nan_mul (x : Flt K) : nan * x = nan := rfl
@[simp] theorem mul_nan (x : Flt K) : x * nan = nan := by cases x <;> rfl
@[simp] theorem fin_mul_fin (x y : K) : (fin x * fin y : Flt K) = fin (x * y) := rfl
@[simp] theorem fin_ne_nan (x : K) : (fin x : Flt K) ≠ nan := by intro h; cases h
@[simp] theorem num_ne_nan (x : Ext K) : (num x : Flt K) ≠ nan := by intro h; cases h

theorem zero_def : (0 : Flt K) = fin 0 := rfl

@[simp] theorem num_add_fin (e : Ext K) (x : K) : (num e + fin x : Flt K) = num (e.add x) := by cases e <;> rfl

theorem neg_eq_nan {x : Flt K} : -x = nan ↔ x = nan := by
  rcases x with _ | (_ | x | _)
  · exact Iff.rfl
  all_goals exact ⟨(fun h => (by cases h)), (fun h => (by cases h))⟩

theorem inf_mul_zero {e : Ext K} (h : e = .posInf ∨ e = .negInf) : (fin 0 * num e : Flt K) = nan := by
  have : (0 : K) = 0 := rfl
  rcases h with rfl | rfl <;> exact if_pos this

theorem neg_inf {e : Ext K} (h : e = .posInf ∨ e = .negInf) : ∃ e', (-(num e) : Flt K) = num e' ∧ (e' = .posInf ∨ e' = .negInf) := by
  rcases h with rfl | rfl
  · exact ⟨_, rfl, .inr rfl⟩
  · exact ⟨_, rfl, .inl rfl⟩

/-- Zero times (an infinity plus anything) is NaN. -/
theorem zero_mul_inf_add {e : Ext K} (h : e = .posInf ∨ e = .negInf) (y : Flt K) : (fin 0 * (num e + y) : Flt K) = nan := by
  rcases h with rfl | rfl <;> rcases y with _ | (_ | y | _)
  all_goals first | rfl | exact if_pos rfl

/-- a number or NaN -/
def NoInf (x : Flt K) : Prop := x = nan ∨ ∃ a, x = fin a

theorem NoInf.fin (a : K) : NoInf (Flt.fin a : Flt K) := .inr ⟨a, rfl⟩

theorem NoInf.neg {x : Flt K} (h : NoInf x) : NoInf (-x) := by
  rcases h with rfl | ⟨a, rfl⟩
  · exact .inl rfl
  · exact .inr ⟨_, rfl⟩

theorem NoInf.add {x y : Flt K} (h : NoInf x) (g : NoInf y) : NoInf (x + y) := by
  rcases h with rfl | ⟨a, rfl⟩
  · exact .inl rfl
  · rcases g with rfl | ⟨b, rfl⟩
    · exact .inl rfl
    · exact .inr ⟨_, rfl⟩

theorem NoInf.mul {x y : Flt K} (h : NoInf x) (g : NoInf y) : NoInf (x * y) := by
  rcases h with rfl | ⟨a, rfl⟩
  · exact .inl rfl
  · rcases g with rfl | ⟨b, rfl⟩
    · exact .inl rfl
    · exact .inr ⟨_, rfl⟩

theorem NoInf.sum {n : Nat} {f : Nat → Flt K} (h : ∀ i, i < n → NoInf (f i)) : NoInf (sumTo n f) := by
  induction n with
  | zero => exact .inr ⟨0, rfl⟩
  | succ n ih => exact (ih fun i hi => h i (by omega)).add (h n (by omega))

theorem add_eq_nan {x y : Flt K} (h : NoInf x) (g : NoInf y) : x + y = nan ↔ x = nan ∨ y = nan := by
  rcases h with rfl | ⟨a, rfl⟩
  · simp
  · rcases g with rfl | ⟨b, rfl⟩ <;> simp

theorem fin_mul_eq_nan {x : K} {y : Flt K} (g : NoInf y) : Flt.fin x * y = nan ↔ y = nan := by
  rcases g with rfl | ⟨b, rfl⟩ <;> simp

/-- One NaN among the terms makes the sum NaN. -/
theorem sum_nan {n : Nat} {f : Nat → Flt K} {i : Nat} (hi : i < n) (h : f i = nan) : sumTo n f = nan := by
  induction n with
  | zero => omega
  | succ n ih =>
    rw [sumTo]
    by_cases e : i = n
    · subst e; rw [h, add_nan]
    · rw [ih (by omega), nan_add]

theorem sum_eq_nan {n : Nat} {f : Nat → Flt K} (h : ∀ i, i < n → NoInf (f i)) : sumTo n f = nan ↔ ∃ i, i < n ∧ f i = nan := by
  constructor
  · intro e
    induction n with
    | zero => exact absurd e (fin_ne_nan 0)
    | succ n ih =>
      rw [sumTo, add_eq_nan (NoInf.sum fun i hi => h i (by omega)) (h n (by omega))] at e
      rcases e with e | e
      · obtain ⟨i, hi, h1⟩ := ih (fun i hi => h i (by omega)) e
        exact ⟨i, by omega, h1⟩
      · exact ⟨n, by omega, e⟩
  · rintro ⟨i, hi, e⟩; exact sum_nan hi e

theorem sum_fin {n : Nat} {f : Nat → Flt K} {g : Nat → K} (h : ∀ i, i < n → f i = fin (g i)) :
    sumTo n f = fin (sumTo n g) := by
  induction n with
  | zero => rfl
  | succ n ih => rw [sumTo, sumTo, ih fun i hi => h i (by omega), h n (by omega)]; rfl

end Flt

namespace Builder
variable {K : Type} [Field K] [LinearOrder K]

theorem toFlt_shaped {b : Builder K} (hb : b.Shaped) : b.toFlt.Shaped :=
  ⟨hb.ssA, hb.ssB, hb.ssC, hb.ssBv, hb.ssDv, hb.wOutput, hb.wU, hb.wDeltaU, hb.minX, hb.maxX, hb.minY, hb.maxY, hb.minU,
    hb.maxU, hb.sMin, hb.sMax, hb.sMul, hb.leq, hb.ueq, hb.lineq, hb.uineq, hb.off, hb.P, hb.q, hb.A, hb.l, hb.u⟩

/-- What `getF` returns. -/
structure GetF (b : Builder K) (x0 u0 : Vec (Flt K)) (yRef uRef duRef uMeas : Mat (Flt K)) (p : FltProblem K) : Prop where
  qx : ∀ i a, i ≤ b.d.ph → a < b.d.nu + b.d.nx →
    p.q.get (i * (b.d.nu + b.d.nx) + a) = b.toFlt.qDense yRef uRef uMeas i a
  qd : ∀ i a, i < b.d.ph → a < b.d.nu →
    p.q.get (b.d.nS + (i * b.d.nu + a)) = -(.fin (b.wDeltaU.get a i) * duRef.get a (i - 1))
  lu : ∀ k, k < b.d.nS → p.l.get k = p.u.get k
  l0x : ∀ a, a < b.d.nx → p.l.get a = -(x0.get a)
  l0u : ∀ a, a < b.d.nu → p.l.get (b.d.nx + a) = -(u0.get a)
  le : ∀ i a, i < b.d.ph → a < b.d.nu + b.d.nx →
    p.l.get ((i + 1) * (b.d.nu + b.d.nx) + a) = b.toFlt.negDistX uMeas a i
  lx : ∀ k, k < b.d.nS → p.l.get (b.d.nS + k) = .num (b.lineq.get k)
  ux : ∀ k, k < b.d.nS → p.u.get (b.d.nS + k) = .num (b.uineq.get k)
  ly : ∀ i a, i ≤ b.d.ph → a < b.d.ny → p.l.get (b.d.nS + (b.d.nS + (i * b.d.ny + a))) =
    .num (b.lineq.get (b.d.nS + (i * b.d.ny + a))) + b.toFlt.negDistY uMeas a (i - 1)
  uy : ∀ i a, i ≤ b.d.ph → a < b.d.ny → p.u.get (b.d.nS + (b.d.nS + (i * b.d.ny + a))) =
    .num (b.uineq.get (b.d.nS + (i * b.d.ny + a))) + b.toFlt.negDistY uMeas a (i - 1)
  lt : ∀ k, b.d.nS + b.d.nY ≤ k → k < b.d.nI → p.l.get (b.d.nS + k) = .num (b.lineq.get k)
  ut : ∀ k, b.d.nS + b.d.nY ≤ k → k < b.d.nI → p.u.get (b.d.nS + k) = .num (b.uineq.get k)

theorem getF_post (b : Builder K) (hb : b.Shaped) {x0 u0 : Vec (Flt K)} {yRef uRef duRef uMeas : Mat (Flt K)}
    (ha : ArgShaped b.d x0 u0 yRef uRef duRef uMeas) (hph : 0 < b.d.ph) :
    Post (b.getF x0 u0 yRef uRef duRef uMeas) (b.GetF x0 u0 yRef uRef duRef uMeas) := by
  have hS : (b.d.ph + 1) * (b.d.nu + b.d.nx) = b.d.nS := rfl
  have hY : (b.d.ph + 1) * b.d.ny = b.d.nY := rfl
  have hD : b.d.ph * b.d.nu = b.d.nD := rfl
  have hV : b.d.nV = b.d.nS + b.d.nD := rfl
  have hI : b.d.nI = b.d.nS + (b.d.nY + b.d.nD + (b.d.ph + 1)) := rfl
  have hC : b.d.nC = b.d.nS + b.d.nI := rfl
  have hsS : b.d.nu + b.d.nx ≤ b.d.nS := by
    have := block_end_le (s := b.d.nu + b.d.nx) (i := 0) (n := b.d.ph + 1) (by omega)
    omega
  unfold getF
  simp only [hS, hY, hD]
  refine Post.bind (getLoop_post b.toFlt (toFlt_shaped hb) ha hph) fun s hs => ?_
  have hls : s.leq.size = b.d.nS := hs.ls
  have hos : s.off.size = b.d.nI := hs.os
  rw [Vec.setSeg_ok (by rw [hls]; omega) (by simp [ha.x0])]
  simp only [ok_bind]
  rw [Vec.setSeg_ok (by simp only [Vec.setSegRaw_size, hls]; omega) (by simp [ha.u0])]
  simp only [ok_bind]
  generalize hlq : Vec.setSegRaw (Vec.setSegRaw s.leq _ _ _) _ _ _ = lq
  have hlqs : lq.size = b.d.nS := by rw [← hlq]; exact hls
  have hlq0 : ∀ a, a < b.d.nx → lq.get a = -(x0.get a) := by
    intro a haa
    rw [← hlq, Vec.setSegRaw_out _ _ _ _ (by omega)]
    have := Vec.setSegRaw_in s.leq x0.neg 0 b.d.nx haa
    simpa using this
  have hlq1 : ∀ a, a < b.d.nu → lq.get (b.d.nx + a) = -(u0.get a) := by
    intro a haa
    rw [← hlq, Vec.setSegRaw_in _ _ _ _ haa]; rfl
  have hlq2 : ∀ i a, i < b.d.ph → a < b.d.nu + b.d.nx →
      lq.get ((i + 1) * (b.d.nu + b.d.nx) + a) = b.toFlt.negDistX uMeas a i := by
    intro i a hi haa
    have : (i + 1) * (b.d.nu + b.d.nx) = i * (b.d.nu + b.d.nx) + (b.d.nu + b.d.nx) := by ring
    rw [← hlq, Vec.setSegRaw_out _ _ _ _ (by omega), Vec.setSegRaw_out _ _ _ _ (by omega)]
    exact hs.le (i + 1) a (by omega) (by show i + 1 < b.d.ph + 1; omega) haa
  rw [Vec.setSeg_ok (by simp only [Vec.const_size, hb.l]; omega) (by exact hlqs)]
  simp only [ok_bind]
  rw [Vec.setSeg_ok (by simp only [Vec.const_size, hb.u]; omega) (by exact hlqs)]
  simp only [ok_bind]
  rw [Vec.add_ok (by simp only [Vec.to, hb.lineq, hos])]
  simp only [ok_bind]
  rw [Vec.setSeg_ok (by simp only [Vec.setSegRaw_size, Vec.const_size, hb.l]; omega)
    (by simp only [Vec.to, hb.lineq]; omega)]
  simp only [ok_bind]
  rw [Vec.add_ok (by simp only [Vec.to, hb.uineq, hos])]
  simp only [ok_bind]
  rw [Vec.setSeg_ok (by simp only [Vec.setSegRaw_size, Vec.const_size, hb.u]; omega)
    (by simp only [Vec.to, hb.uineq]; omega)]
  simp only [ok_bind]
  have hlow : ∀ (v0 : Vec (Flt K)) (lo : Vec (Flt K)) (n k : Nat), k < b.d.nS →
      ((v0.setSegRaw 0 b.d.nS lq).setSegRaw b.d.nS n lo).get k = lq.get k := by
    intro v0 lo n k hk
    rw [Vec.setSegRaw_out _ _ _ _ (by omega)]
    have := Vec.setSegRaw_in v0 lq 0 b.d.nS hk
    rw [Nat.zero_add] at this
    exact this
  have hn : b.d.nS + b.d.nY + b.d.nD + (b.d.ph + 1) = b.d.nI := by omega
  simp only [hn]
  have z : ∀ e : Ext K, (.num e + (0 : Flt K) : Flt K) = .num e := by
    intro e; rw [Flt.zero_def, Flt.num_add_fin, Ext.add_zero']
  refine post_pure ⟨?_, ?_, ?_, ?_, ?_, ?_, ?_, ?_, ?_, ?_, ?_, ?_⟩
  · intro i a hi haa; exact hs.qx i a (by show i < b.d.ph + 1; omega) haa
  · intro i a hi haa; exact hs.qd i a (by show i < b.d.ph + 1; omega) hi haa
  · intro k hk
    rw [hlow _ _ _ _ hk, hlow _ _ _ _ hk]
  · intro a haa
    rw [hlow _ _ _ _ (by omega), hlq0 a haa]
  · intro a haa
    rw [hlow _ _ _ _ (by omega), hlq1 a haa]
  · intro i a hi haa
    have := block_lt (i := i + 1) (n := b.d.ph + 1) haa (by omega)
    rw [hlow _ _ _ _ this, hlq2 i a hi haa]
  · intro k hk
    rw [Vec.setSegRaw_in _ _ _ _ (by omega)]
    dsimp only [Vec.to]
    rw [hs.ox k hk, z]
  · intro k hk
    rw [Vec.setSegRaw_in _ _ _ _ (by omega)]
    dsimp only [Vec.to]
    rw [hs.ox k hk, z]
  · intro i a hi haa
    have := block_lt (i := i) (n := b.d.ph + 1) haa (by omega)
    rw [Vec.setSegRaw_in _ _ _ _ (by omega)]
    exact congrArg (fun z => Flt.num _ + z) (hs.oy i a (by show i < b.d.ph + 1; omega) haa)
  · intro i a hi haa
    have := block_lt (i := i) (n := b.d.ph + 1) haa (by omega)
    rw [Vec.setSegRaw_in _ _ _ _ (by omega)]
    exact congrArg (fun z => Flt.num _ + z) (hs.oy i a (by show i < b.d.ph + 1; omega) haa)
  · intro k hk hk2
    rw [Vec.setSegRaw_in _ _ _ _ (by omega)]
    dsimp only [Vec.to]
    rw [hs.ot k hk, z]
  · intro k hk hk2
    rw [Vec.setSegRaw_in _ _ _ _ (by omega)]
    dsimp only [Vec.to]
    rw [hs.ot k hk, z]

/-! ### The sums -/

variable {yRef uRef duRef uMeas : Mat (Flt K)} {b : Builder K}

theorem toFlt_wDiag (b : Builder K) (i e : Nat) : b.toFlt.wDiag i e = .fin (b.wDiag i e) := by
  show (if e < b.d.ny then Flt.fin (b.wOutput.get e i) else Flt.fin (b.wU.get (e - b.d.ny) i)) = _
  unfold wDiag
  split_ifs <;> rfl

/-- The factors of the linear cost are numbers. -/
theorem qFactor (b : Builder K) {i a e : Nat} (he : e < b.d.nu + b.d.ny) :
    (sumTo (b.d.nu + b.d.ny) fun f => b.toFlt.ssC.get f a * (if f = e then b.toFlt.wDiag i f else 0)) =
      .fin (b.ssC.get e a * b.wDiag i e) := by
  rw [Flt.sum_fin (g := fun f => b.ssC.get f a * (if f = e then b.wDiag i f else 0))]
  · rw [sumTo_single he fun f hf hne => by rw [if_neg hne, mul_zero], if_pos rfl]
  · intro f _
    show Flt.fin (b.ssC.get f a) * _ = _
    rw [toFlt_wDiag]
    by_cases h : f = e
    · rw [if_pos h, if_pos h]; rfl
    · rw [if_neg h, if_neg h]; rfl

theorem qDense_flt (b : Builder K) (i a : Nat) : b.toFlt.qDense yRef uRef uMeas i a =
    sumTo (b.d.nu + b.d.ny) fun e => .fin (b.ssC.get e a * b.wDiag i e) *
      (-(extRef b.d yRef uRef e (i - 1)) + b.toFlt.distY uMeas e (i - 1)) := by
  unfold qDense
  exact sumTo_congr fun e he => congrArg (· * _) (qFactor b he)

theorem distY_noInf {e c : Nat} (h : ∀ k, k < b.d.ndu → (uMeas.get k c).NoInf) : (b.toFlt.distY uMeas e c).NoInf :=
  Flt.NoInf.sum fun k hk => (Flt.NoInf.fin _).mul (h k hk)

theorem distY_nan {e c : Nat} (h : ∀ k, k < b.d.ndu → (uMeas.get k c).NoInf) :
    b.toFlt.distY uMeas e c = .nan ↔ ∃ k, k < b.d.ndu ∧ uMeas.get k c = .nan := by
  refine (Flt.sum_eq_nan fun k hk => (Flt.NoInf.fin _).mul (h k hk)).trans ?_
  exact exists_congr fun k => and_congr_right fun hk => Flt.fin_mul_eq_nan (h k hk)

theorem negDistY_nan {e c : Nat} (h : ∀ k, k < b.d.ndu → (uMeas.get k c).NoInf) :
    b.toFlt.negDistY uMeas e c = .nan ↔ ∃ k, k < b.d.ndu ∧ uMeas.get k c = .nan := by
  refine (Flt.sum_eq_nan fun k hk => (Flt.NoInf.fin _).neg.mul (h k hk)).trans ?_
  exact exists_congr fun k => and_congr_right fun hk => Flt.fin_mul_eq_nan (h k hk)

theorem negDistX_nan {e c : Nat} (h : ∀ k, k < b.d.ndu → (uMeas.get k c).NoInf) :
    b.toFlt.negDistX uMeas e c = .nan ↔ ∃ k, k < b.d.ndu ∧ uMeas.get k c = .nan := by
  refine (Flt.sum_eq_nan fun k hk => (Flt.NoInf.fin _).neg.mul (h k hk)).trans ?_
  exact exists_congr fun k => and_congr_right fun hk => Flt.fin_mul_eq_nan (h k hk)

theorem negDistY_noInf {e c : Nat} (h : ∀ k, k < b.d.ndu → (uMeas.get k c).NoInf) : (b.toFlt.negDistY uMeas e c).NoInf :=
  Flt.NoInf.sum fun k hk => (Flt.NoInf.fin _).neg.mul (h k hk)

theorem qDense_nan {i a : Nat} (hY : ∀ e, e < b.d.ny → (yRef.get e (i - 1)).NoInf)
    (hU : ∀ e, e < b.d.nu → (uRef.get e (i - 1)).NoInf) (hM : ∀ k, k < b.d.ndu → (uMeas.get k (i - 1)).NoInf) :
    b.toFlt.qDense yRef uRef uMeas i a = .nan ↔ (∃ e, e < b.d.ny ∧ yRef.get e (i - 1) = .nan) ∨
      (∃ e, e < b.d.nu ∧ uRef.get e (i - 1) = .nan) ∨
      (0 < b.d.ny + b.d.nu ∧ ∃ k, k < b.d.ndu ∧ uMeas.get k (i - 1) = .nan) := by
  have hR : ∀ e, e < b.d.nu + b.d.ny → (extRef b.d yRef uRef e (i - 1)).NoInf := by
    intro e he
    unfold extRef
    split_ifs with h
    · exact hY e h
    · exact hU _ (by omega)
  have hv : ∀ e, e < b.d.nu + b.d.ny →
      (-(extRef b.d yRef uRef e (i - 1)) + b.toFlt.distY uMeas e (i - 1) : Flt K).NoInf :=
    fun e he => (hR e he).neg.add (distY_noInf hM)
  rw [qDense_flt, Flt.sum_eq_nan fun e he => (Flt.NoInf.fin _).mul (hv e he)]
  have key : ∀ e, e < b.d.nu + b.d.ny → (.fin (b.ssC.get e a * b.wDiag i e) *
      (-(extRef b.d yRef uRef e (i - 1)) + b.toFlt.distY uMeas e (i - 1)) = (.nan : Flt K) ↔
      extRef b.d yRef uRef e (i - 1) = .nan ∨ ∃ k, k < b.d.ndu ∧ uMeas.get k (i - 1) = .nan) := by
    intro e he
    rw [Flt.fin_mul_eq_nan (hv e he), Flt.add_eq_nan (hR e he).neg (distY_noInf hM), Flt.neg_eq_nan, distY_nan hM]
  constructor
  · rintro ⟨e, he, h⟩
    rcases (key e he).1 h with h | h
    · unfold extRef at h
      split_ifs at h with hx
      · exact .inl ⟨e, hx, h⟩
      · exact .inr (.inl ⟨_, by omega, h⟩)
    · exact .inr (.inr ⟨by omega, h⟩)
  · rintro (⟨e, he, h⟩ | ⟨e, he, h⟩ | ⟨h0, h⟩)
    · exact ⟨e, by omega, (key e (by omega)).2 (.inl (by unfold extRef; rw [if_pos he]; exact h))⟩
    · refine ⟨b.d.ny + e, by omega, (key _ (by omega)).2 (.inl ?_)⟩
      unfold extRef
      rw [if_neg (by omega), Nat.add_sub_cancel_left]; exact h
    · exact ⟨0, by omega, (key 0 (by omega)).2 (.inr h)⟩

/-! ### Numbers -/

section numbers
variable {Y U D M Y' U' D' M' : Mat K}

theorem distY_fin {e c : Nat} (h : ∀ k, k < b.d.ndu → uMeas.get k c = .fin (M.get k c)) :
    b.toFlt.distY uMeas e c = .fin (b.distY M e c) :=
  Flt.sum_fin fun k hk => by rw [h k hk]; rfl

theorem negDistY_fin {e c : Nat} (h : ∀ k, k < b.d.ndu → uMeas.get k c = .fin (M.get k c)) :
    b.toFlt.negDistY uMeas e c = .fin (-(b.distY M e c)) := by
  rw [← negDistY_eq]
  exact Flt.sum_fin fun k hk => by rw [h k hk]; rfl

theorem negDistX_fin {e c : Nat} (h : ∀ k, k < b.d.ndu → uMeas.get k c = .fin (M.get k c)) :
    b.toFlt.negDistX uMeas e c = .fin (-(b.distX M e c)) := by
  rw [← negDistX_eq]
  exact Flt.sum_fin fun k hk => by rw [h k hk]; rfl

theorem qDense_fin {i a : Nat} (hY : ∀ e, e < b.d.ny → yRef.get e (i - 1) = .fin (Y.get e (i - 1)))
    (hU : ∀ e, e < b.d.nu → uRef.get e (i - 1) = .fin (U.get e (i - 1)))
    (hM : ∀ k, k < b.d.ndu → uMeas.get k (i - 1) = .fin (M.get k (i - 1))) :
    b.toFlt.qDense yRef uRef uMeas i a = .fin (b.qEntry Y U M i a) := by
  rw [qDense_flt]
  refine Flt.sum_fin fun e he => ?_
  rw [distY_fin hM]
  have : extRef b.d yRef uRef e (i - 1) = .fin (extRef b.d Y U e (i - 1)) := by
    unfold extRef
    split_ifs with h
    · exact hY e h
    · exact hU _ (by omega)
  rw [this]; rfl

/-- The matrices of signals differ at most where the signals play no role. -/
structure UsedEq (d : Dims) (c : Spec.LinConfig K) (Y U D M Y' U' D' M' : Mat K) : Prop where
  y : ∀ k a, k < d.ph → a < d.ny → Spec.yUsed c k a → Y'.get a k = Y.get a k
  u : ∀ k a, k < d.ph → a < d.nu → Spec.uUsed c k a → U'.get a k = U.get a k
  du : ∀ k a, k < d.ph → a < d.nu → Spec.duUsed d c k a → D'.get a k = D.get a k
  m : ∀ k e, k < d.ph → e < d.ndu → Spec.distUsed d c e → M'.get e k = M.get e k

variable {c : Spec.LinConfig K}

theorem UsedEq.distX (h : UsedEq b.d c Y U D M Y' U' D' M') (hr : b.Repr c) {k a : Nat} (hk : k < b.d.ph)
    (ha : a < b.d.nu + b.d.nx) : b.distX M' a k = b.distX M a k := by
  refine sumTo_congr fun e he => ?_
  by_cases hu : Spec.distUsed b.d c e
  · rw [h.m k e hk he hu]
  · have : b.ssBv.get a e = 0 := by
      by_cases hx : a < b.d.nx
      · rw [hr.Bvx a e hx he]
        exact not_not.1 fun h0 => hu (.inl ⟨a, hx, h0⟩)
      · obtain ⟨a, rfl⟩ := Nat.exists_eq_add_of_le (Nat.le_of_not_lt hx)
        exact hr.Bvu a e (by omega) he
    rw [this, zero_mul, zero_mul]

theorem UsedEq.distY (h : UsedEq b.d c Y U D M Y' U' D' M') (hr : b.Repr c) {k a : Nat} (hk : k < b.d.ph)
    (ha : a < b.d.nu + b.d.ny) : b.distY M' a k = b.distY M a k := by
  refine sumTo_congr fun e he => ?_
  by_cases hu : Spec.distUsed b.d c e
  · rw [h.m k e hk he hu]
  · have : b.ssDv.get a e = 0 := by
      by_cases hx : a < b.d.ny
      · rw [hr.Dvy a e hx he]
        exact not_not.1 fun h0 => hu (.inr ⟨a, hx, h0⟩)
      · obtain ⟨a, rfl⟩ := Nat.exists_eq_add_of_le (Nat.le_of_not_lt hx)
        exact hr.Dvu a e (by omega) he
    rw [this, zero_mul, zero_mul]

theorem UsedEq.qEntry (h : UsedEq b.d c Y U D M Y' U' D' M') (hr : b.Repr c) (hph : 0 < b.d.ph) {i a : Nat} (hi : i ≤ b.d.ph) :
    b.qEntry Y' U' M' i a = b.qEntry Y U M i a := by
  refine sumTo_congr fun e he => ?_
  rw [h.distY hr (by omega) he]
  by_cases h0 : b.wDiag i e = 0
  · rw [h0, mul_zero, zero_mul, zero_mul]
  · have : extRef b.d Y' U' e (i - 1) = extRef b.d Y U e (i - 1) := by
      unfold extRef
      unfold wDiag at h0
      split_ifs at h0 ⊢ with hx
      · exact h.y _ _ (by omega) hx (by rw [hr.wY e i hx hi] at h0; exact h0)
      · exact h.u _ _ (by omega) (by omega) (by rw [hr.wU _ i (by omega) hi] at h0; exact h0)
    rw [this]

theorem UsedEq.increment (h : UsedEq b.d c Y U D M Y' U' D' M') (hr : b.Repr c) {i a : Nat} (hi : i < b.d.ph) (ha : a < b.d.nu) :
    b.wDeltaU.get a i * D'.get a (i - 1) = b.wDeltaU.get a i * D.get a (i - 1) := by
  by_cases h0 : b.wDeltaU.get a i = 0
  · rw [h0, zero_mul, zero_mul]
  · rw [h.du (i - 1) a (by omega) ha ⟨i, hi, rfl, by rw [← hr.wDu a i ha hi]; exact h0⟩]

/-- Signals which play no role can be exchanged. -/
theorem GetSpec.used {x0 u0 : Vec K} {r : Builder K} (g : b.GetSpec x0 u0 Y' U' D' M' r) (h : UsedEq b.d c Y U D M Y' U' D' M')
    (hr : b.Repr c) (hph : 0 < b.d.ph) : b.GetSpec x0 u0 Y U D M r :=
  ⟨g.same, g.shaped, g.P, g.A, g.lineq, g.uineq,
    fun i a hi ha => by rw [g.qx i a hi ha, h.qEntry hr hph hi],
    fun i a hi ha => by rw [g.qd i a hi ha, h.increment hr hi ha],
    g.leqlu, g.l0x, g.l0u,
    fun i a hi ha => by rw [g.le i a hi ha, h.distX hr hi ha],
    g.lx, g.ux,
    fun i a hi ha => by rw [g.ly i a hi ha, h.distY hr (by omega) (by omega)],
    fun i a hi ha => by rw [g.uy i a hi ha, h.distY hr (by omega) (by omega)],
    g.lt, g.ut⟩

end numbers

end Builder
end Mpc
