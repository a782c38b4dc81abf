import Mathlib.Algebra.Field.Defs
import Verif.Basic.Eigen
import Verif.Model.Types

/-
Model of /repo/include/mpc/NLMPC/Mapping.hpp: the map between the decision vector of the
nonlinear solver and the state / input sequences (move blocking and scaling).

`double` is a field `K`; a division by zero (scaling 0) gives 0 here and ±inf/NaN in C++,
all theorems that need it assume non-zero scalings.
-/
namespace Mpc

open Exec

/-- Members of `Mapping` (Mapping.hpp:218-220, 263-266). -/
structure Mapping (K : Type) where
  dims : Dims
  inputScaling : Vec K
  stateScaling : Vec K
  invStateScaling : Vec K
  Iz2u : Mat K
  Iu2z : Mat K
  Sz2u : Mat K
  Su2z : Mat K

/-- number of decision variables `(ph() * nx()) + (nu() * ch()) + 1` (e.g. Mapping.hpp:175) -/
def Dims.nZ (d : Dims) : Nat := d.ph * d.nx + d.nu * d.ch + 1

namespace Mapping
variable {K : Type}

/-- `m(i)` after Mapping.hpp:227-236: how many steps the `i`-th decision input is held.
`ph() - ch() + 1` is computed in `size_t`. (Simplification: `m` stores it as a `double`, which is exact up to 2^53.) -/
def holdCount (d : Dims) (i : Nat) : Nat :=
  if i = d.ch - 1 then toSizeT ((d.ph : Int) - d.ch + 1) else 1

/-- `Mapping::computeMapping` (Mapping.hpp:225-261). (Simplification: the `int`s `ix`, `jx` are naturals.) -/
def computeMapping [Field K] (m : Mapping K) : Exec (Mapping K) := do
  let d := m.dims
  let Iz := Mat.const (d.ph * d.nu) (d.nu * d.ch) (0 : K)
  let Iu := Iz.transpose
  let S ← forRange d.nu (Mat.const d.nu d.nu (0 : K), Mat.const d.nu d.nu (0 : K)) fun i S => do
    let a ← m.inputScaling.at? i
    let S1 ← S.1.set i i a
    let S2 ← S.2.set i i (1 / a)
    return (S1, S2)
  let r ← forRange d.ch ((0 : Nat), (0 : Nat), Iz, Iu) fun i st => do
    let (ix, jx, Iz, Iu) := st
    let Iu ← Iu.setBlock ix jx d.nu d.nu S.2
    let q ← forRange (holdCount d i) (jx, Iz) fun j q => do
      let Iz ← q.2.setBlock q.1 ix d.nu d.nu S.1
      require (j + 1 < 2 ^ 31) .signedOverflow
      return (q.1 + d.nu, Iz)
    return (ix + d.nu, q.1, q.2, Iu)
  return { m with Iz2u := r.2.2.1, Iu2z := r.2.2.2, Sz2u := S.1, Su2z := S.2 }

/-- `Mapping::onInit` (Mapping.hpp:48-64): all scalings one. -/
def init [Field K] (d : Dims) : Exec (Mapping K) :=
  computeMapping
    { dims := d, inputScaling := Vec.const d.nu 1, stateScaling := Vec.const d.nx 1,
      invStateScaling := Vec.const d.nx 1,
      Iz2u := Mat.const (d.ph * d.nu) (d.nu * d.ch) 0, Iu2z := Mat.const (d.nu * d.ch) (d.ph * d.nu) 0,
      Sz2u := Mat.const d.nu d.nu 0, Su2z := Mat.const d.nu d.nu 0 }

/-- `Mapping::setInputScaling` (Mapping.hpp:71-75) -/
def setInputScaling [Field K] (m : Mapping K) (scaling : Vec K) : Exec (Mapping K) :=
  computeMapping { m with inputScaling := scaling }

/-- `Mapping::setStateScaling` (Mapping.hpp:82-86) -/
def setStateScaling [Field K] (m : Mapping K) (scaling : Vec K) : Mapping K :=
  { m with stateScaling := scaling, invStateScaling := ⟨scaling.size, fun i => 1 / scaling.get i⟩ }

/-- `Mapping::unwrapVector` (Mapping.hpp:174-215). `Xbuf` and `Ubuf` are the matrices the caller passes by
reference; the result is their new contents and the slack. -/
def unwrapVector [Field K] (m : Mapping K) (x : Vec K) (x0 : Vec K) (Xbuf Ubuf : Mat K) :
    Exec (Mat K × Mat K × K) := do
  let d := m.dims
  let uVec ← x.seg (d.ph * d.nx) (d.nu * d.ch)
  let tmp ← m.Iz2u.mulVec uVec
  require (tmp.size = d.nu * d.ph) .sizeMismatch
  -- Eigen::Map of `tmp` as a nu x ph (column-major) matrix, transposed
  let mapped : Mat K := ⟨d.nu, d.ph, fun i j => tmp.get (j * d.nu + i)⟩
  let Umv := Mat.const (d.ph + 1) d.nu (0 : K)
  let Umv ← Umv.setBlock 0 0 d.ph d.nu mapped.transpose
  let last ← Umv.row (d.ph - 1)
  let Umv ← Umv.setRow d.ph last
  let X := Mat.const Xbuf.rows Xbuf.cols (0 : K)
  let X ← X.setRow 0 x0
  let X ← forFrom 1 d.ph X fun i X => do
    let r ← x.seg ((i - 1) * d.nx) d.nx
    X.setRow i r
  let X ← forRange X.cols X fun i X => do
    let s ← m.stateScaling.at? i
    let c ← X.col i
    X.setCol i ⟨c.size, fun k => c.get k / (1 / s)⟩
  let U := Mat.const Ubuf.rows Ubuf.cols (0 : K)
  let U ← U.setBlock 0 0 (d.ph + 1) d.nu Umv
  require (0 < x.size) .outOfBounds
  return (X, U, x.get (x.size - 1))

end Mapping
end Mpc
