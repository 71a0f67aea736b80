/-!
# Byte strings and their order

Keys are `[]byte` in Go and are bound as `CAST(? AS TEXT)` in the SQL statements
(`/repo/pkg/backend/sqlite/driver.go:84-86`).  Both orders the code relies on are `memcmp` order:

* SQLite's BINARY collation on TEXT (`name >= … AND name < …`, `ORDER BY name`),
* Go's `bytes.Compare` (`/repo/pkg/backend/internal/backend/utils.go:80-87`).

Simplification: the database encoding is UTF-8 and SQLite compares the raw bytes, so a TEXT value is
modelled as its byte string (also for byte strings which are not valid UTF-8).
-/

namespace Verif

/-- A Go `[]byte` / SQLite TEXT or BLOB value. -/
abbrev Bytes := List UInt8

/-- Strict `memcmp` order: Go `bytes.Compare(a, b) < 0`, SQLite `a < b` on TEXT
(`driver.go:103,132,166,178,187`; `utils.go:82`). -/
def blt : Bytes → Bytes → Bool
  | [], [] => false
  | [], _ :: _ => true
  | _ :: _, [] => false
  | a :: as, b :: bs => if a < b then true else if b < a then false else blt as bs

/-- Non-strict order: Go `bytes.Compare(a, b) <= 0`, SQLite `b >= a`. -/
def ble (a b : Bytes) : Bool := !blt b a

/-- Membership in the half-open key range `[lo, hi)`: the condition
`name >= CAST(? AS TEXT) AND name < CAST(? AS TEXT)` of every range query
(`driver.go:103,132,166,178,187`) and of `appendEvents` (`utils.go:82`). -/
def inRange (lo hi k : Bytes) : Bool := ble lo k && blt k hi

/-- `rangeEnd = append(key, 0)` when no range end is given
(`driver.go:481-483,723-725,774-776`, `watch.go:62-65`). -/
def rangeEndOf (key rangeEnd : Bytes) : Bytes :=
  if rangeEnd.length = 0 then key ++ [0] else rangeEnd

end Verif
