import Mathlib.Data.Nat.Digits.Defs
import Verif.Model.Profiler
import Verif.Model.Rounding

/-
Model of the printing of the execution statistics: Profiler.hpp:66-114, with the rules of `std::ostream` (C++ standard
library) it uses: `std::fixed` and `std::setprecision` change the stream and stay in force; a `double` printed in fixed
notation is rounded to the nearest number with `precision` decimals, ties to even (as `printf` of glibc does).

Simplifications: the other format flags of the stream (width, fill, sign, base, locale) have their default values; the text of
the default notation of a `double` is a parameter (`general`); the stream takes everything (no failure).
-/
namespace Mpc
noncomputable section

/-- `std::ostream`: the text written so far, and its format -/
@[ext] structure Stream where
  text : List Char
  fixed : Bool
  precision : Nat

/-- the decimal digits of a number, most significant first -/
def decimal (n : Nat) : List Char := if n = 0 then ['0'] else (Nat.digits 10 n).reverse.map Nat.digitChar

/-- decimal digits with leading zeros -/
def padded (p n : Nat) : List Char := List.replicate (p - (decimal n).length) '0' ++ decimal n

/-- a `double` in fixed notation with `p` decimals -/
def fixedText (p : Nat) (x : ℝ) : List Char :=
  let n := (roundEven (|x| * 10 ^ p)).toNat
  (if x < 0 then ['-'] else []) ++ decimal (n / 10 ^ p) ++ (if p = 0 then [] else '.' :: padded p (n % 10 ^ p))

namespace Stream
variable (general : Nat → ℝ → List Char)

/-- `os << "..."` -/
def str (s : Stream) (t : String) : Stream := { s with text := s.text ++ t.toList }

/-- `os << std::endl` -/
def endl (s : Stream) : Stream := { s with text := s.text ++ ['\n'] }

/-- `os << std::fixed << std::setprecision(p)` -/
def setFixed (s : Stream) (p : Nat) : Stream := { s with fixed := true, precision := p }

/-- `os << x` for a `double` -/
def num (s : Stream) (x : ℝ) : Stream :=
  { s with text := s.text ++ if s.fixed then fixedText s.precision x else general s.precision x }

/-- `os << n` for a non-negative `int` -/
def nat (s : Stream) (n : Nat) : Stream := { s with text := s.text ++ decimal n }

end Stream

/-- `resultStatusToString` (Profiler.hpp:62-79) -/
def ResultStatus.text : ResultStatus → String
  | .SUCCESS => "SUCCESS"
  | .MAX_ITERATION => "MAX_ITERATION"
  | .INFEASIBLE => "INFEASIBLE"
  | .ERROR => "ERROR"
  | .UNKNOWN => "UNKNOWN"

/-- one line `  - label: x s` (Profiler.hpp:92-95, 110) -/
def Stream.timeLine (general : Nat → ℝ → List Char) (s : Stream) (label : String) (x : ℝ) : Stream :=
  (((s.str ("  - " ++ label ++ ": ")).num general x).str " s").endl

/-- one entry of the map (Profiler.hpp:100-106) -/
def Stream.shareLine (general : Nat → ℝ → List Char) (rnd : ℝ → ℝ) (n : Nat) (s : Stream) (e : ResultStatus × Nat) : Stream :=
  let percentage := rnd (rnd ((e.2 : ℝ) / (n : ℝ)) * 100)
  ((((((s.str "  - ").str e.1.text).str ": ").setFixed 2).num general percentage).str "%").endl

/-- the entries of the `std::map`, in the order of its keys (Types.hpp: order of the enumeration) -/
def SolutionStats.entries (st : SolutionStats) : List (ResultStatus × Nat) :=
  [ResultStatus.SUCCESS, .MAX_ITERATION, .INFEASIBLE, .ERROR, .UNKNOWN].filterMap fun k =>
    (st.solutionsStates k).map fun c => (k, c)

/-- `operator<<` of `SolutionStats` (Profiler.hpp:88-114) -/
def Stream.print (general : Nat → ℝ → List Char) (rnd : ℝ → ℝ) (s : Stream) (st : SolutionStats) : Stream :=
  let s := s.setFixed 6
  let s := (s.str "Solution stats:").endl
  let s := s.timeLine general "min" st.minSolutionTime
  let s := s.timeLine general "max" st.maxSolutionTime
  let s := s.timeLine general "avg" st.averageSolutionTime
  let s := s.timeLine general "std" st.standardDeviation
  let s :=
    if st.entries.isEmpty then s
    else st.entries.foldl (Stream.shareLine general rnd st.numberOfSolutions) (s.str "Solution status percentages:").endl
  let s := (s.str "Total time and number of solutions:").endl
  let s := s.timeLine general "tot" st.totalSolutionTime
  ((s.str "  - num: ").nat st.numberOfSolutions).endl

end
end Mpc
