import Verif.Spec.History
/-!
# Specification of backup directories

A backup directory is a sequence of pairs (contents of `i.key`, contents of `i.data`); a missing file is
`none`.
-/

namespace Verif

/-- The pairs a restore has to put: everything before the first pair that is not complete. -/
def listedPairs : List (Option Bytes × Option Bytes) → List (Bytes × Bytes)
  | (some k, some v) :: d => (k, v) :: listedPairs d
  | _ => []

/-- No key file without its data file before the first missing key file. -/
def wholeDir : List (Option Bytes × Option Bytes) → Prop
  | (some _, some _) :: d => wholeDir d
  | (some _, none) :: _ => False
  | (none, _) :: _ => True
  | [] => True

/-- The value a list of pairs gives to key `k`: that of the last pair for `k`, else `old`. -/
def lastValue (pairs : List (Bytes × Bytes)) (old : Option Bytes) (k : Bytes) : Option Bytes :=
  pairs.foldl (fun cur p => if p.1 = k then some p.2 else cur) old

end Verif
