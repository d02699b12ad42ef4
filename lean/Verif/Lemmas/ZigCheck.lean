import Verif.Model.ZigConst
import Verif.Lemmas.Mills
import Verif.Lemmas.ZigNear
import Verif.Lemmas.Float

set_option autoImplicit false
set_option linter.unusedSectionVars false

/-!
# The tables of the code satisfy the equations of the ziggurat method up to `8 * 10^-13`
-/

namespace Moo

open Set

/-- Bounds for the double that is nearest to `q`. -/
def zLo (q : ℚ) : ℚ := q * (1 - 1 / 2 ^ 53)
def zHi (q : ℚ) : ℚ := q * (1 + 1 / 2 ^ 53)

/-- The values in the source. -/
def zW (i : ℕ) : ℚ := (zigWLit.getD i 0 : ℚ) / 10 ^ 37
def zF (i : ℕ) : ℚ := (zigFLit.getD i 0 : ℚ) / 10 ^ 23
def zK (i : ℕ) : ℚ := (zigKLit.getD i 0 : ℚ) / 2 ^ 52
def zR : ℚ := (zigRLit : ℚ) / 10 ^ 28
def zI : ℚ := (zigInvLit : ℚ) / 10 ^ 29

/-- The area of a layer and the error. -/
def zV : ℚ := 492867323397465180 / 10 ^ 20
def zE : ℚ := 8 / 10 ^ 13

/-- The conditions for the layer `i`. -/
def zigChk (i : ℕ) : Bool :=
  decide (0 < zigWLit.getD i 0) && decide (0 < zigFLit.getD i 0) && decide (0 < zigFLit.getD (i - 1) 0) && decide (zigKLit.getD i 0 ≤ 2 ^ 52) &&
  decide (zHi (zF i) < zLo (zF (i - 1))) &&
  bellLe (2 ^ 52 * zLo (zW i)) ((1 + zE * zV) * zLo (zF i)) &&
  decide (2 ^ 52 * zHi (zW i) * (zHi (zF (i - 1)) - zLo (zF i)) ≤ (1 + zE) * zV) &&
  decide (zV ≤ (1 + zE) * (2 ^ 52 * zLo (zW i) * (zLo (zF (i - 1)) - zHi (zF i)))) &&
  bellGe (zK i * (2 ^ 52 * zHi (zW i))) (zHi (zF (i - 1)) - zE * (zLo (zF (i - 1)) - zHi (zF i)))

/-- The conditions for the base and the tail. -/
def zigChk0 : Bool :=
  decide (0 < zigWLit.getD 0 0) && decide (zigKLit.getD 0 0 ≤ 2 ^ 52) &&
  decide (2 ^ 52 * zHi (zW 0) * zHi (zF 255) ≤ (1 + zE) * zV) &&
  decide ((zHi zR - zK 0 * (2 ^ 52 * zLo (zW 0))) * zHi (zF 255) ≤ zE * zV) &&
  decide ((1 / zLo zI - zLo zR) * 4 ≤ zE * zV) && decide (1 / zLo zI ≤ 3 * zLo zR) && decide (1 ≤ 1 / zHi zI) && decide (1 ≤ zLo zR) &&
  decide (0 < (millsRec (1 / zHi zI) 0 1 41).1) && decide (0 < (millsRec (zHi zR) 0 1 40).1) &&
  bellLe (1 / zHi zI) ((1 + zE) * (1 - zK 0) * zV / ((millsRec (1 / zHi zI) 0 1 41).1 / (millsRec (1 / zHi zI) 1 (1 / zHi zI) 41).1)) &&
  bellGe (zHi zR) (zHi (zF 255) / (1 + zE)) &&
  bellLe (zLo zR) ((1 + zE) * zLo (zF 255)) &&
  bellGe (zHi zR) ((zV / (1 + zE) - zLo zR * zLo (zF 255)) / ((millsRec (zHi zR) 0 1 40).1 / (millsRec (zHi zR) 1 (zHi zR) 40).1))

set_option maxRecDepth 100000 in
theorem zigChk_ok : ((List.range 255).all fun j => zigChk (j + 1)) = true := by decide +kernel

set_option maxRecDepth 100000 in
theorem zigChk0_ok : zigChk0 = true := by decide +kernel

end Moo
