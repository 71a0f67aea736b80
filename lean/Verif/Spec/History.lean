import Verif.Model.Bytes
/-!
# Specification: the store as a history of commits

This file is independent of the model of the code.  A store is the list of all commits ever made, oldest
first.  A commit at revision `rev` either puts a value (with a lease) on a key or deletes the key.  What a
client may see at a revision is obtained by replaying the commits up to that revision.
-/

namespace Verif

/-- What a client sees of one live key. -/
structure KV where
  key : Bytes
  value : Bytes
  lease : Int
  createRev : Int
  modRev : Int
deriving DecidableEq, Repr

/-- One committed write: `write = some (value, lease)` is a put, `none` a delete. -/
structure Commit where
  rev : Int
  key : Bytes
  write : Option (Bytes × Int)
deriving DecidableEq, Repr

/-- Effect of a commit on the state of its own key. -/
def Commit.applyTo (c : Commit) (cur : Option KV) : Option KV :=
  match c.write with
  | none => none
  | some (v, l) =>
    some { key := c.key, value := v, lease := l, modRev := c.rev,
           createRev := match cur with | some kv => kv.createRev | none => c.rev }

/-- A history of commits, oldest first. -/
abbrev History := List Commit

/-- State of key `k` after replaying a list of commits. -/
def History.replay (h : History) (k : Bytes) : Option KV :=
  h.foldl (fun cur c => if c.key == k then c.applyTo cur else cur) none

/-- State of key `k` as of revision `r`. -/
def History.at (h : History) (r : Int) (k : Bytes) : Option KV :=
  History.replay (h.filter fun c => decide (c.rev ≤ r)) k

/-- The current revision: that of the last commit, 0 if there is none. -/
def History.top (h : History) : Int := (h.getLast?.map (·.rev)).getD 0

/-- State of key `k` now. -/
def History.now (h : History) (k : Bytes) : Option KV := History.replay h k

/-- `out` is the listing of the key range `[lo, hi)` as of revision `r`: exactly the keys alive at `r` with
their state at `r`, strictly ascending by key. -/
def IsListing (h : History) (r : Int) (lo hi : Bytes) (out : List KV) : Prop :=
  out.Pairwise (fun a b => blt a.key b.key = true) ∧
  ∀ kv, kv ∈ out ↔ (inRange lo hi kv.key = true ∧ h.at r kv.key = some kv)

/-- The keys a range request asks for: without a range end just the key itself, else `[key, rangeEnd)`. -/
def Wanted (key rangeEnd k : Bytes) : Prop :=
  if rangeEnd = [] then k = key else ble key k = true ∧ blt k rangeEnd = true

/-- `out` is the full answer to a range request as of revision `r`: exactly the wanted keys alive at `r` with
their value, lease, create and mod revision at `r`, strictly ascending by key. -/
def Answers (h : History) (r : Int) (key rangeEnd : Bytes) (out : List KV) : Prop :=
  out.Pairwise (fun a b => blt a.key b.key = true) ∧
  ∀ kv, kv ∈ out ↔ (Wanted key rangeEnd kv.key ∧ h.at r kv.key = some kv)

/-- `h'` extends `h`: nothing committed is ever forgotten or changed. -/
def History.Extends (h' h : History) : Prop := ∃ t, h' = h ++ t

end Verif
