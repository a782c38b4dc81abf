import Verif.Basic.Exec

/-
Model of /repo/include/mpc/Types.hpp and of the run-time dimensions of
/repo/include/mpc/IDimensionable.hpp.
-/
namespace Mpc

/-- Run-time dimensions (IDimensionable.hpp:71-78, 148-155). -/
structure Dims where
  nx : Nat
  nu : Nat
  ndu : Nat
  ny : Nat
  ph : Nat
  ch : Nat
  ineq : Nat := 0
  eq : Nat := 0
  deriving DecidableEq, Repr

namespace Dims

/-- What the `assert` of `setDimension` (IDimensionable.hpp:56) guarantees, plus the fact that the two
horizons were passed as `int`s. Note that nothing relates `ch` to `ph`. -/
structure Valid (d : Dims) : Prop where
  ph_pos : 0 < d.ph
  ch_pos : 0 < d.ch
  ph_int : d.ph < 2 ^ 31
  ch_int : d.ch < 2 ^ 31

/-- size of the extended state `nu() + nx()` -/
def s (d : Dims) : Nat := d.nu + d.nx
/-- `(ph() + 1) * (nu() + nx())` : number of stacked extended states -/
def nS (d : Dims) : Nat := (d.ph + 1) * (d.nu + d.nx)
/-- `ph() * nu()` : number of stacked command increments -/
def nD (d : Dims) : Nat := d.ph * d.nu
/-- `(ph() + 1) * ny()` : number of stacked outputs -/
def nY (d : Dims) : Nat := (d.ph + 1) * d.ny
/-- number of QP variables (ProblemBuilder.hpp:147-151) -/
def nV (d : Dims) : Nat := (d.ph + 1) * (d.nu + d.nx) + d.ph * d.nu
/-- number of QP inequality rows (ProblemBuilder.hpp:115) -/
def nI (d : Dims) : Nat :=
  (d.ph + 1) * (d.nu + d.nx) + ((d.ph + 1) * d.ny + d.ph * d.nu + (d.ph + 1))
/-- number of QP rows (ProblemBuilder.hpp:153-158) -/
def nC (d : Dims) : Nat := d.nS + d.nI

end Dims

/-- A horizon slice (Types.hpp:53-81): two `int`s. -/
structure HorizonSlice where
  start : Int
  stop : Int
  deriving DecidableEq, Repr

/-- `HorizonSlice::all()` (Types.hpp:63-81) -/
def HorizonSlice.all : HorizonSlice := ⟨-1, -1⟩

/-- Both ends are C++ `int`s. -/
def HorizonSlice.Int32 (s : HorizonSlice) : Prop :=
  (-2 ^ 31 ≤ s.start ∧ s.start < 2 ^ 31) ∧ (-2 ^ 31 ≤ s.stop ∧ s.stop < 2 ^ 31)

/-- `ResultStatus` (Types.hpp:86-93) -/
inductive ResultStatus where
  | SUCCESS | MAX_ITERATION | INFEASIBLE | ERROR | UNKNOWN
  deriving DecidableEq, Repr

/-- Conversion `(size_t) v` of an `int`. -/
def toSizeT (v : Int) : Nat := (v % (2 ^ 64)).toNat

/-- Conversion of a `size_t` to `unsigned int`. -/
def toUnsigned (v : Nat) : Nat := v % 2 ^ 32

end Mpc
