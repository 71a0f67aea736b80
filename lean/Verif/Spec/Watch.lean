import Verif.Spec.History
/-!
# Specification: what a watch has to deliver

Independent of the model of the code. A watch event describes one commit of the history; a watch has to
deliver the events of a contiguous stretch of the history.
-/

namespace Verif

/-- A watch event as clients see it: put or delete, the new key-value, and the version it replaced. -/
structure Event where
  isDelete : Bool
  kv : KV
  prevKv : Option KV
deriving DecidableEq, Repr

/-- Event `e` describes commit `c` of history `h` faithfully, except possibly for the lease inside `prevKv`:
* revision, key and kind are those of the commit;
* a put carries exactly the version the key has right after the commit;
* a delete carries no value;
* `prevKv` is there exactly if the key existed right before the commit, and is that version up to its lease. -/
def Describes (h : History) (c : Commit) (e : Event) : Prop :=
  e.kv.modRev = c.rev ∧ e.kv.key = c.key ∧ (e.isDelete = true ↔ c.write = none) ∧
  (e.isDelete = false → h.at c.rev c.key = some e.kv) ∧
  (e.isDelete = true → e.kv.value = []) ∧
  (e.prevKv = none ↔ h.at (c.rev - 1) c.key = none) ∧
  ∀ q, e.prevKv = some q → ∃ p, h.at (c.rev - 1) c.key = some p ∧ q = { p with lease := q.lease }

/-- The commits of `h` on keys satisfying `P` with revision in `(a, b]`, oldest first. -/
def History.stretch (h : History) (P : Bytes → Bool) (a b : Int) : List Commit :=
  h.filter fun c => P c.key && (decide (a < c.rev) && decide (c.rev ≤ b))

/-- `es` are the events of the commits `cs`: the same revisions in the same order, each event describing its
commit. -/
def EventsOf (h : History) (cs : List Commit) (es : List Event) : Prop :=
  es.map (·.kv.modRev) = cs.map (·.rev) ∧ ∀ e ∈ es, ∃ c ∈ cs, Describes h c e

/-- What a client makes of a list of events, applied to its copy of the state. -/
def applyEvents (es : List Event) (st : Bytes → Option KV) : Bytes → Option KV :=
  es.foldl (fun st e k => if k == e.kv.key then (if e.isDelete then none else some e.kv) else st k) st

end Verif
