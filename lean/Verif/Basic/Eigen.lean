import Mathlib.Algebra.BigOperators.Group.Finset.Basic
import Mathlib.Algebra.Ring.Defs
import Verif.Basic.Exec

/-
A small model of the Eigen operations used by libmpc.

A matrix carries its run-time sizes; every access is checked, a violation being
the outcome `outOfBounds` or `sizeMismatch` (in Eigen: `eigen_assert`, or
undefined behaviour when assertions are disabled).
-/
namespace Mpc

open Exec

/-- `sum_{i < n} f i`, by recursion (used by the executable model). -/
def sumTo {K : Type} [Zero K] [Add K] : Nat → (Nat → K) → K
  | 0, _ => 0
  | n + 1, f => sumTo n f + f n

theorem sumTo_eq {K : Type} [AddCommMonoid K] (n : Nat) (f : Nat → K) :
    sumTo n f = ∑ i ∈ Finset.range n, f i := by
  induction n with
  | zero => simp [sumTo]
  | succ n ih => rw [sumTo, ih, Finset.sum_range_succ]

/-- Column vector with run-time size. -/
structure Vec (α : Type) where
  size : Nat
  get : Nat → α

/-- Matrix with run-time sizes. -/
structure Mat (α : Type) where
  rows : Nat
  cols : Nat
  get : Nat → Nat → α

namespace Vec
variable {α : Type}

/-- `v.setConstant(a)` on a vector of size `n`. -/
def const (n : Nat) (a : α) : Vec α := ⟨n, fun _ => a⟩

/-- `v(i)` -/
def at? (v : Vec α) (i : Nat) : Exec α := do
  require (i < v.size) .outOfBounds
  return v.get i

/-- unchecked effect of `v(i) = a` -/
def setRaw (v : Vec α) (i : Nat) (a : α) : Vec α :=
  ⟨v.size, fun k => if k = i then a else v.get k⟩

/-- `v(i) = a` -/
def set (v : Vec α) (i : Nat) (a : α) : Exec (Vec α) := do
  require (i < v.size) .outOfBounds
  return v.setRaw i a

/-- unchecked effect of `v.middleRows(start, n) = src` -/
def setSegRaw (v : Vec α) (start n : Nat) (src : Vec α) : Vec α :=
  ⟨v.size, fun k => if start ≤ k ∧ k < start + n then src.get (k - start) else v.get k⟩

/-- `v.middleRows(start, n) = src` (also `v.segment`) -/
def setSeg (v : Vec α) (start n : Nat) (src : Vec α) : Exec (Vec α) := do
  require (start + n ≤ v.size) .outOfBounds
  require (src.size = n) .sizeMismatch
  return v.setSegRaw start n src

/-- `v.middleRows(start, n)` as a value -/
def seg (v : Vec α) (start n : Nat) : Exec (Vec α) := do
  require (start + n ≤ v.size) .outOfBounds
  return ⟨n, fun k => v.get (start + k)⟩

/-- comma initialisation of a vector of size `n` : `v << a, b;` -/
def comma (n : Nat) (a b : Vec α) : Exec (Vec α) := do
  require (a.size + b.size = n) .sizeMismatch
  return ⟨n, fun k => if k < a.size then a.get k else b.get (k - a.size)⟩

/-- `v.asDiagonal()` used as a dense matrix -/
def asDiagonal [Zero α] (v : Vec α) : Mat α :=
  ⟨v.size, v.size, fun i j => if i = j then v.get i else 0⟩

/-- `v.asDiagonal() * w` : Eigen multiplies coefficient by coefficient, no zeros being involved -/
def diagMul [Mul α] (v w : Vec α) : Exec (Vec α) := do
  require (v.size = w.size) .sizeMismatch
  return ⟨v.size, fun i => v.get i * w.get i⟩

/-- the column vector as a matrix -/
def asCol (v : Vec α) : Mat α := ⟨v.size, 1, fun i _ => v.get i⟩

/-- `v.transpose()` -/
def asRow (v : Vec α) : Mat α := ⟨1, v.size, fun _ j => v.get j⟩

/-- `-v` -/
def neg [Neg α] (v : Vec α) : Vec α := ⟨v.size, fun i => - v.get i⟩

/-- `v + w` -/
def add [Add α] (v w : Vec α) : Exec (Vec α) := do
  require (v.size = w.size) .sizeMismatch
  return ⟨v.size, fun i => v.get i + w.get i⟩

end Vec

namespace Mat
variable {α : Type}

/-- `m.setConstant(a)` on an `r x c` matrix -/
def const (r c : Nat) (a : α) : Mat α := ⟨r, c, fun _ _ => a⟩

/-- unchecked effect of `m.block(r0, c0, h, w) = src` -/
def setBlockRaw (m : Mat α) (r0 c0 h w : Nat) (src : Nat → Nat → α) : Mat α :=
  ⟨m.rows, m.cols, fun i j =>
    if (r0 ≤ i ∧ i < r0 + h) ∧ (c0 ≤ j ∧ j < c0 + w) then src (i - r0) (j - c0) else m.get i j⟩

/-- `m.block(r0, c0, h, w) = src` -/
def setBlock (m : Mat α) (r0 c0 h w : Nat) (src : Mat α) : Exec (Mat α) := do
  require (r0 + h ≤ m.rows ∧ c0 + w ≤ m.cols) .outOfBounds
  require (src.rows = h ∧ src.cols = w) .sizeMismatch
  return m.setBlockRaw r0 c0 h w src.get

/-- `m.block(r0, c0, h, w).setIdentity()` -/
def setBlockIdentity [Zero α] [One α] (m : Mat α) (r0 c0 h w : Nat) : Exec (Mat α) := do
  require (r0 + h ≤ m.rows ∧ c0 + w ≤ m.cols) .outOfBounds
  return m.setBlockRaw r0 c0 h w (fun i j => if i = j then 1 else 0)

/-- `m.block(r0, c0, h, w).setZero()` -/
def setBlockZero [Zero α] (m : Mat α) (r0 c0 h w : Nat) : Exec (Mat α) := do
  require (r0 + h ≤ m.rows ∧ c0 + w ≤ m.cols) .outOfBounds
  return m.setBlockRaw r0 c0 h w (fun _ _ => 0)

/-- `m.block(r0, c0, h, w)` as a value -/
def block (m : Mat α) (r0 c0 h w : Nat) : Exec (Mat α) := do
  require (r0 + h ≤ m.rows ∧ c0 + w ≤ m.cols) .outOfBounds
  return ⟨h, w, fun i j => m.get (r0 + i) (c0 + j)⟩

/-- `m.middleRows(r0, h)` as a value -/
def middleRows (m : Mat α) (r0 h : Nat) : Exec (Mat α) := do
  require (r0 + h ≤ m.rows) .outOfBounds
  return ⟨h, m.cols, fun i j => m.get (r0 + i) j⟩

/-- `m.col(j)` as a value -/
def col (m : Mat α) (j : Nat) : Exec (Vec α) := do
  require (j < m.cols) .outOfBounds
  return ⟨m.rows, fun i => m.get i j⟩

/-- `m.row(i)` as a value -/
def row (m : Mat α) (i : Nat) : Exec (Vec α) := do
  require (i < m.rows) .outOfBounds
  return ⟨m.cols, fun j => m.get i j⟩

/-- unchecked effect of `m.col(j) = v` -/
def setColRaw (m : Mat α) (j : Nat) (v : Nat → α) : Mat α :=
  ⟨m.rows, m.cols, fun i k => if k = j then v i else m.get i k⟩

/-- `m.col(j) = v` -/
def setCol (m : Mat α) (j : Nat) (v : Vec α) : Exec (Mat α) := do
  require (j < m.cols) .outOfBounds
  require (v.size = m.rows) .sizeMismatch
  return m.setColRaw j v.get

/-- unchecked effect of `m.row(i) = v` -/
def setRowRaw (m : Mat α) (i : Nat) (v : Nat → α) : Mat α :=
  ⟨m.rows, m.cols, fun k j => if k = i then v j else m.get k j⟩

/-- `m.row(i) = v` -/
def setRow (m : Mat α) (i : Nat) (v : Vec α) : Exec (Mat α) := do
  require (i < m.rows) .outOfBounds
  require (v.size = m.cols) .sizeMismatch
  return m.setRowRaw i v.get

/-- unchecked effect of `m(i, j) = a` -/
def setRaw (m : Mat α) (i j : Nat) (a : α) : Mat α :=
  ⟨m.rows, m.cols, fun k l => if k = i ∧ l = j then a else m.get k l⟩

/-- `m(i, j) = a` -/
def set (m : Mat α) (i j : Nat) (a : α) : Exec (Mat α) := do
  require (i < m.rows ∧ j < m.cols) .outOfBounds
  return m.setRaw i j a

/-- `m(i, j)` -/
def at? (m : Mat α) (i j : Nat) : Exec α := do
  require (i < m.rows ∧ j < m.cols) .outOfBounds
  return m.get i j

/-- `m.transpose()` -/
def transpose (m : Mat α) : Mat α := ⟨m.cols, m.rows, fun i j => m.get j i⟩

/-- `-m` -/
def neg [Neg α] (m : Mat α) : Mat α := ⟨m.rows, m.cols, fun i j => - m.get i j⟩

/-- `m + n` -/
def add [Add α] (m n : Mat α) : Exec (Mat α) := do
  require (m.rows = n.rows ∧ m.cols = n.cols) .sizeMismatch
  return ⟨m.rows, m.cols, fun i j => m.get i j + n.get i j⟩

/-- `m * n` -/
def mul [Zero α] [Add α] [Mul α] (m n : Mat α) : Exec (Mat α) := do
  require (m.cols = n.rows) .sizeMismatch
  return ⟨m.rows, n.cols, fun i j => sumTo m.cols fun k => m.get i k * n.get k j⟩

/-- `m * v` -/
def mulVec [Zero α] [Add α] [Mul α] (m : Mat α) (v : Vec α) : Exec (Vec α) := do
  require (m.cols = v.size) .sizeMismatch
  return ⟨m.rows, fun i => sumTo m.cols fun k => m.get i k * v.get k⟩

/-- `m.setIdentity()` on an `r x c` matrix -/
def identity [Zero α] [One α] (r c : Nat) : Mat α := ⟨r, c, fun i j => if i = j then 1 else 0⟩

/-- `Eigen::kroneckerProduct(m, n)` -/
def kron [Mul α] (m n : Mat α) : Mat α :=
  ⟨m.rows * n.rows, m.cols * n.cols, fun i j =>
    m.get (i / n.rows) (j / n.cols) * n.get (i % n.rows) (j % n.cols)⟩

/-- `Eigen::Map<cvec>(m.data(), m.rows()*m.cols())`: the column-major contents -/
def dataVec (m : Mat α) : Vec α :=
  ⟨m.rows * m.cols, fun k => m.get (k % m.rows) (k / m.rows)⟩

end Mat

/-! ### Evaluation of the checked operations when their conditions hold -/

section eval
variable {α : Type}

theorem Vec.set_ok {v : Vec α} {i : Nat} {a : α} (h : i < v.size) : v.set i a = .ok (v.setRaw i a) := by
  simp [Vec.set, require_ok h]

theorem Vec.at_ok {v : Vec α} {i : Nat} (h : i < v.size) : v.at? i = .ok (v.get i) := by
  simp [Vec.at?, require_ok h]

theorem Vec.setSeg_ok {v src : Vec α} {s n : Nat} (h : s + n ≤ v.size) (h2 : src.size = n) :
    v.setSeg s n src = .ok (v.setSegRaw s n src) := by
  simp [Vec.setSeg, require_ok h, require_ok h2]

theorem Vec.seg_ok {v : Vec α} {s n : Nat} (h : s + n ≤ v.size) :
    v.seg s n = .ok ⟨n, fun k => v.get (s + k)⟩ := by
  simp [Vec.seg, require_ok h]

theorem Vec.comma_ok {a b : Vec α} {n : Nat} (h : a.size + b.size = n) :
    Vec.comma n a b = .ok ⟨n, fun k => if k < a.size then a.get k else b.get (k - a.size)⟩ := by
  simp [Vec.comma, require_ok h]

theorem Vec.add_ok [Add α] {v w : Vec α} (h : v.size = w.size) :
    v.add w = .ok ⟨v.size, fun i => v.get i + w.get i⟩ := by
  simp [Vec.add, require_ok h]

theorem Vec.diagMul_ok [Mul α] {v w : Vec α} (h : v.size = w.size) :
    v.diagMul w = .ok ⟨v.size, fun i => v.get i * w.get i⟩ := by
  simp [Vec.diagMul, require_ok h]

theorem Mat.setBlock_ok {m src : Mat α} {r0 c0 h w : Nat} (h1 : r0 + h ≤ m.rows) (h2 : c0 + w ≤ m.cols)
    (h3 : src.rows = h) (h4 : src.cols = w) :
    m.setBlock r0 c0 h w src = .ok (m.setBlockRaw r0 c0 h w src.get) := by
  simp [Mat.setBlock, require, h1, h2, h3, h4]

theorem Mat.setBlockIdentity_ok [Zero α] [One α] {m : Mat α} {r0 c0 h w : Nat} (h1 : r0 + h ≤ m.rows)
    (h2 : c0 + w ≤ m.cols) :
    m.setBlockIdentity r0 c0 h w = .ok (m.setBlockRaw r0 c0 h w (fun i j => if i = j then 1 else 0)) := by
  simp [Mat.setBlockIdentity, require, h1, h2]

theorem Mat.setBlockZero_ok [Zero α] {m : Mat α} {r0 c0 h w : Nat} (h1 : r0 + h ≤ m.rows)
    (h2 : c0 + w ≤ m.cols) :
    m.setBlockZero r0 c0 h w = .ok (m.setBlockRaw r0 c0 h w (fun _ _ => 0)) := by
  simp [Mat.setBlockZero, require, h1, h2]

theorem Mat.block_ok {m : Mat α} {r0 c0 h w : Nat} (h1 : r0 + h ≤ m.rows) (h2 : c0 + w ≤ m.cols) :
    m.block r0 c0 h w = .ok ⟨h, w, fun i j => m.get (r0 + i) (c0 + j)⟩ := by
  simp [Mat.block, require, h1, h2]

theorem Mat.middleRows_ok {m : Mat α} {r0 h : Nat} (h1 : r0 + h ≤ m.rows) :
    m.middleRows r0 h = .ok ⟨h, m.cols, fun i j => m.get (r0 + i) j⟩ := by
  simp [Mat.middleRows, require, h1]

theorem Mat.col_ok {m : Mat α} {j : Nat} (h : j < m.cols) : m.col j = .ok ⟨m.rows, fun i => m.get i j⟩ := by
  simp [Mat.col, require, h]

theorem Mat.row_ok {m : Mat α} {i : Nat} (h : i < m.rows) : m.row i = .ok ⟨m.cols, fun j => m.get i j⟩ := by
  simp [Mat.row, require, h]

theorem Mat.setCol_ok {m : Mat α} {j : Nat} {v : Vec α} (h : j < m.cols) (h2 : v.size = m.rows) :
    m.setCol j v = .ok (m.setColRaw j v.get) := by
  simp [Mat.setCol, require, h, h2]

theorem Mat.setRow_ok {m : Mat α} {i : Nat} {v : Vec α} (h : i < m.rows) (h2 : v.size = m.cols) :
    m.setRow i v = .ok (m.setRowRaw i v.get) := by
  simp [Mat.setRow, require, h, h2]

theorem Mat.set_ok {m : Mat α} {i j : Nat} {a : α} (h : i < m.rows) (h2 : j < m.cols) :
    m.set i j a = .ok (m.setRaw i j a) := by
  simp [Mat.set, require, h, h2]

theorem Mat.at_ok {m : Mat α} {i j : Nat} (h : i < m.rows) (h2 : j < m.cols) :
    m.at? i j = .ok (m.get i j) := by
  simp [Mat.at?, require, h, h2]

theorem Mat.add_ok [Add α] {m n : Mat α} (h : m.rows = n.rows) (h2 : m.cols = n.cols) :
    m.add n = .ok ⟨m.rows, m.cols, fun i j => m.get i j + n.get i j⟩ := by
  simp [Mat.add, require, h, h2]

theorem Mat.mul_ok [Zero α] [Add α] [Mul α] {m n : Mat α} (h : m.cols = n.rows) :
    m.mul n = .ok ⟨m.rows, n.cols, fun i j => sumTo m.cols fun k => m.get i k * n.get k j⟩ := by
  simp [Mat.mul, require, h]

theorem Mat.mulVec_ok [Zero α] [Add α] [Mul α] {m : Mat α} {v : Vec α} (h : m.cols = v.size) :
    m.mulVec v = .ok ⟨m.rows, fun i => sumTo m.cols fun k => m.get i k * v.get k⟩ := by
  simp [Mat.mulVec, require, h]

end eval

/-! ### Index arithmetic for stacked blocks -/

/-- Entry `a` of block `i` (blocks of size `s`) lies in block `k` iff `i = k`. -/
theorem block_mem_iff {s a i k : Nat} (ha : a < s) : (k * s ≤ i * s + a ∧ i * s + a < k * s + s) ↔ i = k := by
  constructor
  · rintro ⟨h1, h2⟩
    rcases Nat.lt_trichotomy i k with h | h | h
    · have : (i + 1) * s ≤ k * s := Nat.mul_le_mul_right s h
      rw [Nat.add_mul] at this; omega
    · exact h
    · have : (k + 1) * s ≤ i * s := Nat.mul_le_mul_right s h
      rw [Nat.add_mul] at this; omega
  · rintro rfl; omega

theorem block_mem_iff' {s a i k : Nat} (o : Nat) (ha : a < s) :
    (o + k * s ≤ o + (i * s + a) ∧ o + (i * s + a) < o + k * s + s) ↔ i = k := by
  rw [← block_mem_iff (i := i) (k := k) ha]; omega

/-- Entry `a` of block `i < n` is below `n * s`. -/
theorem block_lt {s a i n : Nat} (ha : a < s) (hi : i < n) : i * s + a < n * s := by
  have : (i + 1) * s ≤ n * s := Nat.mul_le_mul_right s hi
  rw [Nat.add_mul] at this; omega

theorem block_end_le {s i n : Nat} (hi : i < n) : i * s + s ≤ n * s := by
  have : (i + 1) * s ≤ n * s := Nat.mul_le_mul_right s hi
  rw [Nat.add_mul] at this; omega

theorem block_div {s a : Nat} (i : Nat) (ha : a < s) : (i * s + a) / s = i := by
  rw [Nat.add_comm, Nat.add_mul_div_right _ _ (by omega), Nat.div_eq_of_lt ha]; omega

theorem block_mod {s a : Nat} (i : Nat) (ha : a < s) : (i * s + a) % s = a := by
  rw [Nat.add_comm, Nat.add_mul_mod_self_right, Nat.mod_eq_of_lt ha]

/-- Two stacked indices are equal iff blocks and offsets are. -/
theorem block_eq_iff {s a b i j : Nat} (ha : a < s) (hb : b < s) :
    i * s + a = j * s + b ↔ i = j ∧ a = b := by
  constructor
  · intro h
    have h1 := congrArg (· / s) h
    have h2 := congrArg (· % s) h
    simp only [block_div _ ha, block_div _ hb, block_mod _ ha, block_mod _ hb] at h1 h2
    exact ⟨h1, h2⟩
  · rintro ⟨rfl, rfl⟩; rfl

/-- Every index below `n * s` is an entry of a block. -/
theorem exists_block {s n k : Nat} (h : k < n * s) : ∃ i a, i < n ∧ a < s ∧ k = i * s + a := by
  have hs : 0 < s := by
    rcases Nat.eq_zero_or_pos s with rfl | h'
    · simp at h
    · exact h'
  refine ⟨k / s, k % s, (Nat.div_lt_iff_lt_mul hs).2 h, Nat.mod_lt _ hs, ?_⟩
  rw [Nat.mul_comm]; exact (Nat.div_add_mod k s).symm

theorem sum_range_mul {K : Type} [AddCommMonoid K] (n s : Nat) (f : Nat → K) :
    ∑ k ∈ Finset.range (n * s), f k
      = ∑ i ∈ Finset.range n, ∑ a ∈ Finset.range s, f (i * s + a) := by
  induction n with
  | zero => simp
  | succ n ih =>
    rw [Finset.sum_range_succ, ← ih, Nat.add_mul, Nat.one_mul, Finset.sum_range_add]

end Mpc
