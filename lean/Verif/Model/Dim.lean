import Verif.Basic.Exec

/-
Model of include/mpc/Dim.hpp and of `make_dimension` (Types.hpp:213-223). These are constant expressions: an `int`
overflow is a compile-time error, here the fault `signedOverflow`.
-/
namespace Mpc

/-- `Eigen::Dynamic` -/
def dynamic : Int := -1

/-- an `int` result -/
def int32 (v : Int) : Exec Int := if -2 ^ 31 ≤ v ∧ v < 2 ^ 31 then .ok v else .error .signedOverflow

/-- `make_dimension` (Types.hpp:213-223) -/
def makeDimension (n : Int) (c : Bool) : Int := if c then n else dynamic

/-- `Size` (Dim.hpp:10-90) -/
structure Size where
  value : Int
  deriving DecidableEq, Repr

namespace Size

/-- `is_static` (Dim.hpp:86-89) -/
def isStatic (A B : Int) : Bool := A > dynamic && B > dynamic

/-- `operator+(const Size &)` (Dim.hpp:23-26) -/
def add (a v : Size) : Exec Size := do
  let n ← int32 (a.value + v.value)
  return ⟨makeDimension n (isStatic a.value v.value)⟩

/-- `operator+(const int &)` (Dim.hpp:28-31) -/
def addInt (a : Size) (v : Int) : Exec Size := do
  let n ← int32 (a.value + v)
  return ⟨makeDimension n (isStatic a.value v)⟩

/-- `operator-(const Size &)` (Dim.hpp:40-43) -/
def sub (a v : Size) : Exec Size := do
  let n ← int32 (a.value - v.value)
  return ⟨makeDimension n (isStatic a.value v.value)⟩

/-- `operator-(const int &)` (Dim.hpp:45-48) -/
def subInt (a : Size) (v : Int) : Exec Size := do
  let n ← int32 (a.value - v)
  return ⟨makeDimension n (isStatic a.value v)⟩

/-- `operator*(const Size &)` (Dim.hpp:57-60) -/
def mul (a v : Size) : Exec Size := do
  let n ← int32 (a.value * v.value)
  return ⟨makeDimension n (isStatic a.value v.value)⟩

/-- `operator*(const int &)` (Dim.hpp:62-65) -/
def mulInt (a : Size) (v : Int) : Exec Size := do
  let n ← int32 (a.value * v)
  return ⟨makeDimension n (isStatic a.value v)⟩

/-- `operator+(const int &, const Size &)` (Dim.hpp:92-95) -/
def intAdd (v : Int) (w : Size) : Exec Size := do
  let n ← int32 (w.value + v)
  return ⟨makeDimension n (isStatic w.value v)⟩

/-- `operator-(const int &, const Size &)` (Dim.hpp:97-100) -/
def intSub (v : Int) (w : Size) : Exec Size := do
  let n ← int32 (w.value - v)
  return ⟨makeDimension n (isStatic w.value v)⟩

/-- `operator*(const int &, const Size &)` (Dim.hpp:102-105) -/
def intMul (v : Int) (w : Size) : Exec Size := do
  let n ← int32 (w.value * v)
  return ⟨makeDimension n (isStatic w.value v)⟩

end Size
end Mpc
