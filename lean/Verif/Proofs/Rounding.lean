import Mathlib.Algebra.BigOperators.Ring.Finset
import Verif.Spec.Rounding
import Verif.Proofs.Sparse

/-
Error bounds for rounded sums and products, and reading compressed matrices as exact numbers.
-/
namespace Mpc
open Finset
set_option linter.unusedSectionVars false

section
variable {K : Type} [Field K] [LinearOrder K] [IsStrictOrderedRing K] {R : Rounding K}

theorem Rounding.one_le_pow (R : Rounding K) (n : Nat) : 1 ≤ (1 + R.eps) ^ n :=
  one_le_pow₀ (by have := R.eps_nonneg; linarith)

theorem Rounding.gamma_nonneg (R : Rounding K) (n : Nat) : 0 ≤ R.gamma n := by
  have := R.one_le_pow n
  unfold Rounding.gamma
  linarith

theorem Rounding.gamma_mono (R : Rounding K) {n k : Nat} (h : n ≤ k) : R.gamma n ≤ R.gamma k := by
  have := pow_le_pow_right₀ (show 1 ≤ 1 + R.eps by have := R.eps_nonneg; linarith) h
  unfold Rounding.gamma
  linarith

/-- `x'` is `x` after `n` roundings of quantities of magnitude at most `M` -/
structure Approx (R : Rounding K) (n : Nat) (M x' x : K) : Prop where
  err : |x' - x| ≤ R.gamma n * M
  mag : |x| ≤ M

namespace Approx

theorem nonneg {n : Nat} {M x' x : K} (h : Approx R n M x' x) : 0 ≤ M := (abs_nonneg _).trans h.mag

theorem exact (R : Rounding K) (n : Nat) (x : K) : Approx R n |x| x x :=
  ⟨by rw [sub_self, abs_zero]; exact mul_nonneg (R.gamma_nonneg n) (abs_nonneg _), le_refl _⟩

theorem mono {n k : Nat} {M N x' x : K} (h : Approx R n M x' x) (hn : n ≤ k) (hM : M ≤ N) : Approx R k N x' x :=
  ⟨h.err.trans (mul_le_mul (R.gamma_mono hn) hM h.nonneg (R.gamma_nonneg k)), h.mag.trans hM⟩

theorem neg {n : Nat} {M x' x : K} (h : Approx R n M x' x) : Approx R n M (-x') (-x) :=
  ⟨by rw [← neg_sub_neg, neg_neg, neg_neg, abs_sub_comm] ; exact h.err, by rw [abs_neg]; exact h.mag⟩

/-- magnitude of the rounded quantity -/
theorem mag' {n : Nat} {M x' x : K} (h : Approx R n M x' x) : |x'| ≤ (1 + R.gamma n) * M := by
  have h1 := abs_add_le (x' - x) x
  rw [sub_add_cancel] at h1
  have := h.err
  have := h.mag
  linarith

theorem rnd {n : Nat} {M x' x : K} (h : Approx R n M x' x) : Approx R (n + 1) M (R.rnd x') x := by
  refine ⟨?_, h.mag⟩
  have h1 := abs_add_le (R.rnd x' - x') (x' - x)
  rw [sub_add_sub_cancel] at h1
  have h2 := R.err x'
  have h3 := mul_le_mul_of_nonneg_left h.mag' R.eps_nonneg
  have h4 := h.err
  have e : R.gamma (n + 1) * M = R.eps * ((1 + R.gamma n) * M) + R.gamma n * M := by
    unfold Rounding.gamma; ring
  rw [e]
  linarith

theorem add' {n : Nat} {M N a' a b' b : K} (ha : Approx R n M a' a) (hb : Approx R n N b' b) :
    Approx R n (M + N) (a' + b') (a + b) := by
  constructor
  · have h1 := abs_add_le (a' - a) (b' - b)
    rw [show a' - a + (b' - b) = a' + b' - (a + b) by ring] at h1
    have := ha.err
    have := hb.err
    linarith
  · exact (abs_add_le _ _).trans (add_le_add ha.mag hb.mag)

theorem mul' {n k : Nat} {M N a' a b' b : K} (ha : Approx R n M a' a) (hb : Approx R k N b' b) :
    Approx R (n + k) (M * N) (a' * b') (a * b) := by
  constructor
  · have e : a' * b' - a * b = a' * (b' - b) + (a' - a) * b := by ring
    rw [e]
    refine (abs_add_le _ _).trans ?_
    rw [abs_mul, abs_mul]
    have h1 := mul_le_mul ha.mag' hb.err (abs_nonneg _) (mul_nonneg (by have := R.gamma_nonneg n; linarith) ha.nonneg)
    have h2 := mul_le_mul ha.err hb.mag (abs_nonneg _) (mul_nonneg (R.gamma_nonneg n) ha.nonneg)
    have e2 : R.gamma (n + k) * (M * N) = (1 + R.gamma n) * M * (R.gamma k * N) + R.gamma n * M * N := by
      unfold Rounding.gamma; ring
    rw [e2]
    exact add_le_add h1 h2
  · rw [abs_mul]
    exact mul_le_mul ha.mag hb.mag (abs_nonneg _) ha.nonneg

theorem add {n : Nat} {M N a b : K} {x y : Fl R} (ha : Approx R n M x.val a) (hb : Approx R n N y.val b) :
    Approx R (n + 1) (M + N) (x + y).val (a + b) := (ha.add' hb).rnd

theorem mul {n k : Nat} {M N a b : K} {x y : Fl R} (ha : Approx R n M x.val a) (hb : Approx R k N y.val b) :
    Approx R (n + k + 1) (M * N) (x * y).val (a * b) := (ha.mul' hb).rnd

theorem sum {k : Nat} {n : Nat} {f : Nat → Fl R} {g M : Nat → K} (h : ∀ i, i < n → Approx R k (M i) (f i).val (g i)) :
    Approx R (k + n) (∑ i ∈ range n, M i) (sumTo n f).val (∑ i ∈ range n, g i) := by
  induction n with
  | zero =>
    rw [sum_range_zero, sum_range_zero]
    exact (exact R _ 0).mono (le_refl _) (by rw [abs_zero])
  | succ n ih =>
    rw [sum_range_succ, sum_range_succ, sumTo]
    exact (ih fun i hi => h i (by omega)).add ((h n (by omega)).mono (by omega) (le_refl _))

/-- a product of two exact numbers -/
theorem prod (x y : Fl R) : Approx R 1 (|x.val| * |y.val|) (x * y).val (x.val * y.val) :=
  (exact R 0 x.val).mul (exact R 0 y.val)

end Approx

/-- a rounded sum of zeros is zero -/
theorem sumTo_val_zero {n : Nat} {f : Nat → Fl R} (h : ∀ i, i < n → f i = 0) : (sumTo n f).val = 0 := by
  rw [sumTo_zero h]; rfl

/-! ### Extended numbers -/

@[simp] theorem Ext.map_fin {L : Type} (f : L → K) (x : L) : (Ext.fin x).map f = .fin (f x) := rfl
@[simp] theorem Ext.map_negInf {L : Type} (f : L → K) : (Ext.negInf).map f = .negInf := rfl
@[simp] theorem Ext.map_posInf {L : Type} (f : L → K) : (Ext.posInf).map f = .posInf := rfl

/-- two bounds are equal, or finite and at most `ε` apart -/
def ExtNear (ε : K) : Ext K → Ext K → Prop
  | .fin a, .fin b => |a - b| ≤ ε
  | a, b => a = b

theorem ExtNear.of_eq {ε : K} (h : 0 ≤ ε) {a b : Ext K} (e : a = b) : ExtNear ε a b := by
  subst e
  cases a <;> simp [ExtNear, h]

theorem ExtNear.symm {ε : K} {a b : Ext K} (h : ExtNear ε a b) : ExtNear ε b a := by
  cases a <;> cases b <;> simp_all [ExtNear]
  rwa [abs_sub_comm]

theorem ExtNear.nearly {δ ε : K} {lo hi lo' hi' : Ext K} {v : K} (hl : ExtNear ε lo lo') (hh : ExtNear ε hi hi')
    (h : Spec.nearly δ lo hi v) : Spec.nearly (δ + ε) lo' hi' v := by
  obtain ⟨h1, h2⟩ := h
  constructor
  · cases lo <;> cases lo' <;> simp_all [ExtNear]
    rw [abs_le] at hl
    linarith
  · cases hi <;> cases hi' <;> simp_all [ExtNear]
    rw [abs_le] at hh
    linarith

theorem nearly_zero_iff {lo hi : Ext K} {v : K} : Spec.nearly 0 lo hi v ↔ Spec.within lo hi v := by
  unfold Spec.nearly Spec.within
  rw [add_zero, sub_zero]

end

/-! ### Compressed matrices -/

section
variable {K L : Type}

/-- the same matrix, read in another number type -/
def Sparse.map (f : K → L) (s : Sparse K) : Sparse L := ⟨s.rows, s.cols, fun c => (s.col c).map fun e => (e.1, f e.2)⟩

theorem Sparse.outerIndex_map (f : K → L) (s : Sparse K) (k : Nat) : (s.map f).outerIndex k = s.outerIndex k := by
  induction k with
  | zero => rfl
  | succ k ih => rw [Sparse.outerIndex, Sparse.outerIndex, ih]; simp [Sparse.map]

theorem Sparse.nonZeros_map (f : K → L) (s : Sparse K) : (s.map f).nonZeros = s.nonZeros := Sparse.outerIndex_map f s _

theorem Sparse.Ordered.map (f : K → L) {s : Sparse K} (h : s.Ordered) : (s.map f).Ordered := by
  constructor
  · intro c
    have := h.sorted c
    simpa [Sparse.map, List.map_map, Function.comp_def] using this
  · intro c e he
    simp only [Sparse.map, List.mem_map] at he
    obtain ⟨e', h1, rfl⟩ := he
    exact h.range c e' h1

theorem CscOf.map (f : K → L) {s : Sparse K} {a : Csc K} (h : CscOf s a) : CscOf (s.map f) (a.map f) := by
  refine ⟨h.m, h.n, ?_, h.pSize, ?_, ?_, ?_, ?_⟩
  · rw [Sparse.nonZeros_map]; exact h.nz
  · rw [Sparse.nonZeros_map]; exact h.iSize
  · rw [Sparse.nonZeros_map]; exact h.xSize
  · intro c hc; rw [Sparse.outerIndex_map]; exact h.p c hc
  · intro c hc t ht
    have ht' : t < (s.col c).length := by simpa [Sparse.map] using ht
    rw [Sparse.outerIndex_map]
    obtain ⟨h1, h2⟩ := h.e c hc t ht'
    simp only [Sparse.map, List.getElem_map]
    exact ⟨h1, congrArg f h2⟩

theorem ColHas.map [Zero K] [Zero L] {f : K → L} (h0 : f 0 = 0) {l : List (Nat × K)} {r : Nat} {v : K} (h : ColHas l r v) :
    ColHas (l.map fun e => (e.1, f e.2)) r (f v) := by
  rcases h with h | ⟨rfl, h⟩
  · exact .inl (List.mem_map.2 ⟨_, h, rfl⟩)
  · refine .inr ⟨h0, ?_⟩
    intro e he
    obtain ⟨e', h1, rfl⟩ := List.mem_map.1 he
    exact h e' h1

end
end Mpc
