import Verif.Spec.History
import Verif.Model.Limited
/-!
# Reference semantics of single-key etcd transactions

What etcd does with a transaction whose operations name single keys (no range ends), on a store given as a
history of commits: evaluate all compares on the current state; if all hold run the success branch, else the
failure branch, atomically. Only the request and response types are shared with the model of the code.
-/

namespace Verif

/-- Mod revision of a key; 0 if the key does not exist. -/
def Etcd.modRev (h : History) (k : Bytes) : Int :=
  match h.now k with
  | some kv => kv.modRev
  | none => 0

/-- Evaluation of a compare on the mod revision. -/
def Etcd.holds (h : History) (c : Compare) : Bool :=
  match c.result, c.union with
  | .equal, .modRevision r => decide (Etcd.modRev h c.key = r)
  | .notEqual, .modRevision r => decide (Etcd.modRev h c.key ≠ r)
  | .greater, .modRevision r => decide (Etcd.modRev h c.key > r)
  | .less, .modRevision r => decide (Etcd.modRev h c.key < r)
  | _, _ => false

/-- One operation of a branch. -/
def Etcd.op (h : History) : ReqOp → History × List RespOp
  | .put p =>
    (h ++ [⟨h.top + 1, p.key, some (p.value, p.lease)⟩], [.put (h.top + 1)])
  | .deleteRange d =>
    match h.now d.key with
    | some _ => (h ++ [⟨h.top + 1, d.key, none⟩], [.deleteRange (h.top + 1) 1])
    | none => (h, [.deleteRange h.top 0])
  | .range r =>
    (h, [.range { header := h.top, kvs := (h.now r.key).toList, count := ((h.now r.key).toList.length : Int) }])
  | .txn => (h, [])

/-- A branch. (In etcd all writes of one transaction share a revision; here branches have one operation.) -/
def Etcd.branch (h : History) : List ReqOp → History × List RespOp
  | [] => (h, [])
  | o :: os =>
    let (h1, r1) := Etcd.op h o
    let (h2, r2) := Etcd.branch h1 os
    (h2, r1 ++ r2)

/-- A transaction: the new store and the answer. -/
def Etcd.txn (h : History) (t : TxnReq) : History × TxnResp :=
  let ok := t.compare.all (Etcd.holds h)
  let (h', rs) := Etcd.branch h (if ok then t.success else t.failure)
  (h', { header := h'.top, succeeded := ok, responses := rs })

/-- The header revision of a response. -/
def RespOp.headerOf : RespOp → Int
  | .range r => r.header
  | .put h => h
  | .deleteRange h _ => h

end Verif
