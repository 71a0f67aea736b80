import Verif.Model.System
/-!
# Vocabulary for statements about calls

`Run s p t a s'` says: called in system `s`, while any number of other calls, nodes and compactions run
interleaved with it, the call `p` executes the statements `t` and returns `a`, leaving system `s'`.
-/

namespace Verif

/-- The create transaction of the API server: if `key` has mod revision 0 (does not exist), put it. -/
def createTxn (key value : Bytes) (lease : Int) : TxnReq :=
  { compare := [{ result := .equal, target := .mod, key := key, union := .modRevision 0 }]
    success := [.put { key := key, value := value, lease := lease }]
    failure := [] }

/-- The update transaction of the API server: if `key` has mod revision `rev`, put it, else read it. -/
def updateTxn (key : Bytes) (rev : Int) (value : Bytes) (lease : Int) : TxnReq :=
  { compare := [{ result := .equal, target := .mod, key := key, union := .modRevision rev }]
    success := [.put { key := key, value := value, lease := lease }]
    failure := [.range { key := key }] }

/-- The delete transaction of the API server: if `key` has mod revision `rev`, delete it, else read it. -/
def deleteTxn (key : Bytes) (rev : Int) : TxnReq :=
  { compare := [{ result := .equal, target := .mod, key := key, union := .modRevision rev }]
    success := [.deleteRange { key := key }]
    failure := [.range { key := key }] }

/-- Every result set is delivered completely (no cursor breaks half-way). -/
def NoTrunc (t : List Obs) : Prop := ∀ ob ∈ t, ∀ n, ob.out ≠ .trunc n

/-- No acknowledgement is lost: a statement that reports an error has not been executed. -/
def NoLost (t : List Obs) : Prop := ∀ ob ∈ t, ∀ e, ob.out ≠ .lost e

/-- The call itself changes nothing: neither the stored rows nor the history. -/
def ChangesNothing (t : List Obs) : Prop := ∀ ob ∈ t, ob.post = ob.pre

/-- The call commits exactly one write: at one instant, in a world where `before` holds, the history grows
by exactly one commit with revision `rev`, the next free one; all its other statements change nothing. -/
def CommitsOnce (t : List Obs) (before : World → Prop) (rev : Int) (key : Bytes)
    (write : Option (Bytes × Int)) : Prop :=
  ∃ a ob b, t = a ++ ob :: b ∧ ChangesNothing (a ++ b) ∧ before ob.pre ∧ rev = ob.pre.hist.top + 1 ∧
    ob.post.hist = ob.pre.hist ++ [⟨rev, key, write⟩]

/-- At most one statement of the call changes anything. -/
def AtMostOnce (t : List Obs) (before : World → Prop) (key : Bytes)
    (write : Option (Bytes × Int)) : Prop :=
  ChangesNothing t ∨ ∃ rev, CommitsOnce t before rev key write

/-- One write took the store from `w` to `w'`: it got the next revision `rev`, key `key` now has the state
`new` (`none`: absent), every other key is as before, and so is every older revision. -/
structure Effect (w w' : World) (key : Bytes) (rev : Int) (new : Option KV) : Prop where
  newer : w.hist.top < rev
  current : w'.hist.top = rev
  now : w'.hist.now key = new
  others : ∀ k, k ≠ key → w'.hist.now k = w.hist.now k
  past : ∀ r, r ≤ w.hist.top → ∀ k, w'.hist.at r k = w.hist.at r k

/-- The call changed the store by exactly one write, which happened at one instant `ob` of the call: the
state of `key` right before satisfied `before`, and the effect is as described by `new`. -/
def OneWrite (t : List Obs) (key : Bytes) (rev : Int) (before : Option KV → Prop)
    (new : Option KV → Option KV) : Prop :=
  ∃ a ob b, t = a ++ ob :: b ∧ ChangesNothing (a ++ b) ∧ before (ob.pre.hist.now key) ∧
    Effect ob.pre ob.post key rev (new (ob.pre.hist.now key))

/-- The revision a read with requested revision `r` answers for, when the current revision is `cur`. -/
def effRev (r cur : Int) : Int := if r = 0 ∨ r > cur then cur else r

/-- The first `n` elements if `n > 0`, else everything. -/
def takeIf {α : Type} (n : Int) (l : List α) : List α := if n > 0 then l.take n.toNat else l

end Verif
