import Verif.Spec.Stats

/-
Specification of printed text: lines, and the numbers a reader sees in it.
-/
namespace Mpc.Spec
noncomputable section

/-- the lines of a text which ends with the end of a line -/
def unlines : List (List Char) → List Char
  | [] => []
  | l :: ls => l ++ '\n' :: unlines ls

/-- a non-empty string of decimal digits -/
def IsDigits (l : List Char) : Prop := l ≠ [] ∧ ∀ c ∈ l, '0' ≤ c ∧ c ≤ '9'

/-- the number written with these digits -/
def natOf (l : List Char) : Nat := l.foldl (fun n c => 10 * n + (c.toNat - '0'.toNat)) 0

/-- `t` is a decimal numeral with `p` decimals (`p > 0`), and `v` is the number it denotes -/
inductive Denotes (p : Nat) : List Char → ℝ → Prop where
  | pos {a b : List Char} : IsDigits a → IsDigits b → b.length = p → Denotes p (a ++ '.' :: b) (natOf a + natOf b / 10 ^ p)
  | neg {a b : List Char} : IsDigits a → IsDigits b → b.length = p →
      Denotes p ('-' :: (a ++ '.' :: b)) (-(natOf a + natOf b / 10 ^ p))

/-- the numeral `t` shows `x` with `p` decimals: it is the nearest one -/
def Shows (p : Nat) (x : ℝ) (t : List Char) : Prop := ∃ v, Denotes p t v ∧ |v - x| ≤ 1 / 2 / 10 ^ p

/-- the numeral `t` is the integer `n` -/
def ShowsNat (n : Nat) (t : List Char) : Prop := IsDigits t ∧ natOf t = n

/-- the line of a time -/
def timeOf (label : String) (t : List Char) : List Char := ("  - " ++ label ++ ": ").toList ++ t ++ " s".toList

/-- the line of a status -/
def shareOf (name : String) (t : List Char) : List Char := ("  - " ++ name ++ ": ").toList ++ t ++ "%".toList

/-- how often a status was reported since the last reset -/
def timesSeen (ops : List StatOp) (st : ResultStatus) : Nat := ((recorded ops).filter fun q => q.1 = st).length

/-- the name of a status -/
def nameOf : ResultStatus → String
  | .SUCCESS => "SUCCESS"
  | .MAX_ITERATION => "MAX_ITERATION"
  | .INFEASIBLE => "INFEASIBLE"
  | .ERROR => "ERROR"
  | .UNKNOWN => "UNKNOWN"

/-- `t` is the report on the calls `ops`, whose total time is printed with `p` decimals and whose standard deviation is `sd`:
the numbers of solutions, their shortest, longest, average and total time in seconds, and the share of each status which
occurred in percent. (Without solutions, whatever numerals stand for shortest and longest time.) -/
def Report (p : Nat) (ops : List StatOp) (sd : ℝ) (t : List Char) : Prop :=
  ∃ (tmin tmax tavg tstd ttot tnum : List Char) (shares : List (ResultStatus × List Char)),
    t = unlines (["Solution stats:".toList, timeOf "min" tmin, timeOf "max" tmax, timeOf "avg" tavg, timeOf "std" tstd] ++
      (if durations ops = [] then [] else "Solution status percentages:".toList :: shares.map fun e => shareOf (nameOf e.1) e.2) ++
      ["Total time and number of solutions:".toList, timeOf "tot" ttot, "  - num: ".toList ++ tnum]) ∧
    (∃ x, Shows 6 x tmin ∧ (durations ops ≠ [] → IsLeast {d | d ∈ durations ops} x)) ∧
    (∃ x, Shows 6 x tmax ∧ (durations ops ≠ [] → IsGreatest {d | d ∈ durations ops} x)) ∧
    Shows 6 (mean (durations ops)) tavg ∧ Shows 6 sd tstd ∧ Shows p (durations ops).sum ttot ∧
    ShowsNat (durations ops).length tnum ∧
    shares.map Prod.fst = [ResultStatus.SUCCESS, .MAX_ITERATION, .INFEASIBLE, .ERROR, .UNKNOWN].filter (fun st => timesSeen ops st ≠ 0) ∧
    ∀ e ∈ shares, Shows 2 ((timesSeen ops e.1 : ℝ) / (durations ops).length * 100) e.2

end
end Mpc.Spec
