import Verif.Basic.Eigen

/-
Model of the sparse conversions: `Problem::getSparse` (LMPC/ProblemBuilder.hpp:52-67) and
`LOptimizer::createOsqpSparseMatrix` (LMPC/LOptimizer.hpp:425-478).
-/
namespace Mpc
open Exec

/-- An `Eigen::SparseMatrix<double, ColMajor>` in compressed form: the non-zero list (row, value) of each
column. Simplification: indices are naturals (no overflow of `int`). -/
structure Sparse (K : Type) where
  rows : Nat
  cols : Nat
  col : Nat → List (Nat × K)

namespace Sparse
variable {K : Type} [Zero K] [DecidableEq K]

/-- `m.sparseView()`: with the default reference value 0 exactly the zero coefficients are dropped
(used in ProblemBuilder.hpp:56, 60). -/
def ofDense (m : Mat K) : Sparse K where
  rows := m.rows
  cols := m.cols
  col c := (List.range m.rows).filterMap fun r => if m.get r c = 0 then none else some (r, m.get r c)

/-- `s.triangularView<Eigen::Upper>()` (ProblemBuilder.hpp:57) -/
def upper {K : Type} (s : Sparse K) : Sparse K where
  rows := s.rows
  cols := s.cols
  col c := (s.col c).filter fun e => e.1 ≤ c

/-- `outerIndexPtr()[k]` of a compressed matrix -/
def outerIndex {K : Type} (s : Sparse K) : Nat → Nat
  | 0 => 0
  | k + 1 => outerIndex s k + (s.col k).length

/-- `nonZeros()` -/
def nonZeros {K : Type} (s : Sparse K) : Nat := s.outerIndex s.cols

end Sparse

/-- `Problem::getSparse` (ProblemBuilder.hpp:52-67): the two sparse matrices (`P`, `A`). -/
def getSparse {K : Type} [Zero K] [DecidableEq K] (P A : Mat K) : Sparse K × Sparse K :=
  ((Sparse.ofDense P).upper, Sparse.ofDense A)

/-- OSQP's `csc` structure (compressed column): sizes, column pointers, row indices, values. -/
structure Csc (K : Type) where
  m : Nat
  n : Nat
  nzmax : Nat
  p : Vec Nat
  i : Vec Nat
  x : Vec K

/-- `csc_spalloc(m, n, nzmax, 1, 0)`: `n+1` column pointers, `nzmax` indices and values, contents
unspecified (`junk`). -/
def Csc.spalloc {K : Type} (m n nzmax : Nat) (junkP junkI : Nat → Nat) (junkX : Nat → K) : Csc K :=
  ⟨m, n, nzmax, ⟨n + 1, junkP⟩, ⟨nzmax, junkI⟩, ⟨nzmax, junkX⟩⟩

/-- The inner loop over the entries of one column (LOptimizer.hpp:466-471). -/
def copyColumn {K : Type} : List (Nat × K) → Nat × Csc K → Exec (Nat × Csc K)
  | [], s => .ok s
  | e :: es, (pos, c) => do
    let i ← c.i.set pos e.1
    let x ← c.x.set pos e.2
    copyColumn es (pos + 1, { c with i := i, x := x })

/-- `createOsqpSparseMatrix` (LOptimizer.hpp:425-478). `getSparse` has compressed the matrix, so the
`isCompressed()` branch is the one taken; `already` says the destination pointer was non-null, in which
case `false` (here `none`) is returned. -/
def createOsqpSparseMatrix {K : Type} (s : Sparse K) (already : Bool) (junkP junkI : Nat → Nat)
    (junkX : Nat → K) : Exec (Option (Csc K)) :=
  if already then return none else do
  let c := Csc.spalloc s.rows s.cols s.nonZeros junkP junkI junkX
  let (pos, c) ← forRange s.cols (0, c) fun k (pos, c) => do
    let p ← c.p.set k (s.outerIndex k)
    copyColumn (s.col k) (pos, { c with p := p })
  let p ← c.p.set s.cols pos
  require (pos = s.nonZeros) .assertion
  return some { c with p := p }

end Mpc
