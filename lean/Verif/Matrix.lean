import Verif.Basic
import Mathlib.Data.Rat.Defs

/-!
# Model of `src/helpers/algebra.rs`: matrices

Solving linear systems is done by `nalgebra` and isn't modelled here.
-/

namespace Verif

/-- `src/helpers/algebra.rs:8-11` `Matrix`. The entries of an `nalgebra::DMatrix` lie column by column. -/
structure Matrix where
  nRows : Nat
  nCols : Nat
  data : List ℚ
deriving DecidableEq, Repr

namespace Matrix

/-- `src/helpers/algebra.rs:20-34` `from_rows`. `rows[0]` panics without rows; `DMatrix::from_row_slice` asserts
that the number of values is right, and puts the value of row `i % nRows` and column `i / nRows` at position `i`;
because of the assertion, this value exists. Floats are rationals. -/
def fromRows (rows : List (List ℚ)) : Res Unit Matrix := do
  let first ← .ofIdx rows[0]?
  let nRows := rows.length
  let nCols := first.length
  let values := rows.flatten
  if values.length = nRows * nCols then
    pure { nRows, nCols, data := (List.range (nRows * nCols)).map fun i =>
      values.getD (i % nRows * nCols + i / nRows) 0 }
  else .panic

/-- `src/helpers/algebra.rs:43-49` `Index<usize>`: `nalgebra` counts column by column and panics if the index
is out of bounds. -/
def at1 (m : Matrix) (i : Nat) : Res Unit ℚ := .ofIdx m.data[i]?

/-- `src/helpers/algebra.rs:51-58` `Index<(usize, usize)>`. -/
def at2 (m : Matrix) (row col : Nat) : Res Unit ℚ := m.at1 (m.nCols * col + row)

end Matrix
end Verif
