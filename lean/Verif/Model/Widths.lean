import Verif.Model.Elements
import Mathlib.Data.Int.Log
import Mathlib.Algebra.Order.Round
import Mathlib.Data.Rat.Floor
/-!
Model of the widths of the columns of a table (pkg/types/types.go:4016-4048).

Simplification: numbers are rational. What is written is the exact quotient rounded to six digits, not its nearest `float64` rounded to six digits; the truncation of
`width * 1e4` (which is computed in `float64`) is a parameter.
-/
namespace Verif.Widths

/-- The field `Width` of a column (types.go:3949): empty, or a number, or `NaN`. -/
inductive Width where
  | unset
  | percent (x : ℚ)
  | nan

/-- The number written by `strconv.FormatFloat(x, 'g', 6, 64)`: six significant digits. -/
def sixDigits (x : ℚ) : ℚ := (round (x * 10 ^ (5 - Int.log 10 x)) : ℚ) / 10 ^ (5 - Int.log 10 x)

/-- types.go:4035-4048, from column `i` on; `cut w s` is `int(width * 1e4)` for a column of weight `w` (line 4040), `sum` is `sumWidth`. With `s = 0`, `width` is `0/0`. -/
def relative (cut : ℤ → ℤ → ℤ) (s : ℤ) : List ℤ → ℤ → List Width
  | [], _ => []
  | [_], sum => [.percent (sixDigits ((10 ^ 6 - sum : ℤ) / 10 ^ 4))]
  | w :: l, sum => (if s = 0 then .nan else .percent (sixDigits ((w * 100 : ℤ) / s))) :: relative cut s l (sum + cut w s)

/-- types.go:4016-4048: the widths of the columns; `full` is the option `autowidth` of the table. -/
def widths (cut : ℤ → ℤ → ℤ) (full : Bool) (cols : List Rend.Col) : List Width :=
  if full then cols.map fun _ => .unset
  else if cols.any (·.autowidth) then cols.map fun c => if c.autowidth then .unset else .percent c.weight
  else relative cut (cols.map (·.weight)).sum (cols.map (·.weight)) 0

end Verif.Widths
