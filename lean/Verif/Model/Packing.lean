import Verif.Np.Round
import Mathlib.Analysis.SpecialFunctions.Log.Base
import Mathlib.Analysis.SpecialFunctions.Pow.Real

/-!
# 8-bit packing

Source: `/repo/src/qp/packing_utils.py` and the parts of `/repo/src/qp/packed_interp_pdf.py` that call it.
Arrays are lists of rows. Row maxima of zero (0/0 followed by a cast of NaN), and for the logarithmic packing a zero `log_floor` or a value
whose logarithm does not exist, are `Unmodelled`.
-/

set_option linter.unusedSectionVars false
set_option autoImplicit false

namespace Verif.Model

open Verif Verif.Np

section Linear
variable {K : Type*} [Field K] [LinearOrder K] [IsStrictOrderedRing K] [FloorRing K]

/-- `np.round(255 * v / row_max).astype(np.uint8)`, `packing_utils.py` 30. -/
def linearCode (rm v : K) : ℕ := toU8 (npRound (255 * v / rm))

/-- `linear_pack_from_rowmax` on one row, `packing_utils.py` 12-30. -/
def linearPackRow (row : List K) : Except Err (List ℕ × K) := do
  let rm ← rowMax row
  if rm = 0 then .error .Unmodelled else .ok (row.map (linearCode rm), rm)

/-- `linear_unpack_from_rowmax` on one row, `packing_utils.py` 33-50. -/
def linearUnpackRow (codes : List ℕ) (rm : K) : List K := codes.map fun (c : ℕ) => rm * (c : K) / 255

end Linear

/-- the code given to one value by `log_pack_from_rowmax`, `packing_utils.py` 72-84; `lf` is `log_floor`. -/
noncomputable def logCode (lf rm v : ℝ) : ℕ :=
  let nf := -1 * lf
  let eps := (10 : ℝ) ^ (3 * lf)
  toU8 (max 0 (min 255 (npRound (255 * (Real.logb 10 ((v + eps) / rm) + nf) / nf))))

/-- `log_pack_from_rowmax` on one row, `packing_utils.py` 53-84. `Unmodelled` where a NaN or an infinity would be cast: row maximum or `log_floor` zero,
or the logarithm of a number that is not positive. -/
noncomputable def logPackRow (lf : ℝ) (row : List ℝ) : Except Err (List ℕ × ℝ) := do
  let rm ← rowMax row
  if rm = 0 ∨ lf = 0 ∨ (row.any fun v => decide ((v + (10 : ℝ) ^ (3 * lf)) / rm ≤ 0)) = true then .error .Unmodelled
  else .ok (row.map (logCode lf rm), rm)

/-- one value of `log_unpack_from_rowmax`, `packing_utils.py` 104-110. -/
noncomputable def logValue (lf rm : ℝ) (c : ℕ) : ℝ :=
  let nf := -1 * lf
  rm * (if c = 0 then 0 else (10 : ℝ) ^ (nf * ((c : ℝ) / 255 - 1)))

/-- `log_unpack_from_rowmax` on one row, `packing_utils.py` 87-110. -/
noncomputable def logUnpackRow (lf : ℝ) (codes : List ℕ) (rm : ℝ) : List ℝ := codes.map (logValue lf rm)

/-- `PackingType`, `packing_utils.py` 7-9. -/
inductive PackingType
  | linear_from_rowmax
  | log_from_rowmax
  deriving DecidableEq, Repr

/-- `PackingType.x.value`. -/
def PackingType.value : PackingType → ℤ
  | .linear_from_rowmax => 0
  | .log_from_rowmax => 1

/-- what a caller may pass as packing type: an enum member, a number, or anything else. -/
inductive PackArg
  | member (t : PackingType)
  | num (n : ℤ)
  | other
  deriving DecidableEq, Repr

/-- `PackingType(v)`: an enum member is returned as it is, a number is looked up by value, `ValueError` otherwise. -/
def PackingType.ofValue : PackArg → Except Err PackingType
  | .member t => .ok t
  | .num 0 => .ok .linear_from_rowmax
  | .num 1 => .ok .log_from_rowmax
  | _ => .error .ValueError

/-- `pack_array`, `packing_utils.py` 113-132. A plain number is not equal to a member of an `enum.Enum`. `logFloor` is
`kwargs.get("log_floor")`. -/
noncomputable def packArray (t : PackArg) (rows : List (List ℝ)) (logFloor : Option ℝ) : Except Err (List (List ℕ × ℝ)) :=
  if t = .member .linear_from_rowmax then rows.mapM linearPackRow
  else if t = .member .log_from_rowmax then rows.mapM (logPackRow (logFloor.getD (-3)))
  else .error .ValueError

/-- `unpack_array`, `packing_utils.py` 135-157. -/
noncomputable def unpackArray (t : PackArg) (packed : List (List ℕ × ℝ)) (logFloor : Option ℝ) : Except Err (List (List ℝ)) :=
  if t = .member .linear_from_rowmax then .ok (packed.map fun p => linearUnpackRow p.1 p.2)
  else if t = .member .log_from_rowmax then .ok (packed.map fun p => logUnpackRow (logFloor.getD (-3)) p.1 p.2)
  else .error .ValueError

/-- the packing type that `packed_interp_gen.__init__` stores, `packed_interp_pdf.py` 101-104. -/
def storedType : PackArg → PackArg
  | .member t => .num t.value
  | a => a

/-- the values `packed_interp_gen` unpacks, `packed_interp_pdf.py` 66-118 and 137-143, before normalisation. `logFloor` is the keyword,
whose default is -3. -/
noncomputable def packedYvals (t : PackArg) (packed : List (List ℕ × ℝ)) (logFloor : Option ℝ) : Except Err (List (List ℝ)) := do
  let pt ← PackingType.ofValue (storedType t)
  unpackArray (.member pt) packed (some (logFloor.getD (-3)))

/-- conversion to a packed ensemble: `extract_and_pack_vals_at_x` (`packed_interp_pdf.py` 36-44) and construction from the extracted
data, up to the unpacked values. `pdfs` are the values of the input on the grid. -/
noncomputable def convertPacked (t : PackArg) (pdfs : List (List ℝ)) (logFloor : Option ℝ) : Except Err (List (List ℝ)) := do
  let packed ← packArray t pdfs logFloor
  packedYvals t packed logFloor

end Verif.Model
