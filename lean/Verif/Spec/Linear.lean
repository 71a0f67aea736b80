import Verif.Model.Conc
import Verif.Spec.Etcd
/-!
# Specification: one operation at a time

The sequential store the clients should believe in. Only the request and response types come from the model.
-/

namespace Verif

/-- The key a write operation names, the mod revision it expects (0: the key must not exist) and what it
writes; `none` for reads. -/
def ClientOp.asWrite : ClientOp → Option (Bytes × Int × Option (Bytes × Int))
  | .read _ _ => none
  | .create k v l => some (k, 0, some (v, l))
  | .update k r v l => some (k, r, some (v, l))
  | .delete k r => some (k, r, none)

/-- `SeqStep h op resp h'`: executed alone on the store with history `h`, operation `op` may answer `resp` and
leaves history `h'`.
* a read answers with the current revision and exactly the wanted keys alive now, and changes nothing;
* a write whose key has the expected mod revision succeeds, gets the next revision, and commits its write;
* otherwise it reports failure and changes nothing. -/
inductive SeqStep (h : History) : ClientOp → ClientResp → History → Prop where
  | read (key re : Bytes) (r : RangeResp) : r.header = h.top → Answers h h.top key re r.kvs → r.more = false →
      (re ≠ [] → r.count = r.kvs.length) → SeqStep h (.read key re) (.read r) h
  | success (op : ClientOp) (key : Bytes) (rev : Int) (wr : Option (Bytes × Int)) (r : TxnResp) :
      op.asWrite = some (key, rev, wr) → Etcd.modRev h key = rev → r.succeeded = true →
      r.header = h.top + 1 → SeqStep h op (.txn r) (h ++ [⟨h.top + 1, key, wr⟩])
  | failure (op : ClientOp) (key : Bytes) (rev : Int) (wr : Option (Bytes × Int)) (r : TxnResp) :
      op.asWrite = some (key, rev, wr) → Etcd.modRev h key ≠ rev → r.succeeded = false →
      SeqStep h op (.txn r) h

/-- An entry of a sequential execution: an operation of call `i` with its answer, or a commit by anybody else
(TTL expiry, compaction marker, node start, older peers, calls that never returned an answer). -/
inductive Entry where
  | op (i : Nat) (op : ClientOp) (resp : ClientResp)
  | other (c : Commit)

/-- `Legal h S h'`: the entries `S`, executed one after the other, lead from history `h` to `h'`. -/
inductive Legal : History → List Entry → History → Prop where
  | nil (h : History) : Legal h [] h
  | op {h h' h'' : History} {i : Nat} {op : ClientOp} {resp : ClientResp} {S : List Entry} :
      SeqStep h op resp h' → Legal h' S h'' → Legal h (.op i op resp :: S) h''
  | other {h h'' : History} {c : Commit} {S : List Entry} : h.top < c.rev → Legal (h ++ [c]) S h'' →
      Legal h (.other c :: S) h''

/-- The commits a call itself made. -/
def ownCommits (t : List Obs) : History := t.flatMap fun ob => ob.post.hist.drop ob.pre.hist.length

/-- The answers the linearization covers: every write answer; of the reads those during which no cursor broke
and which no compaction overtook (the two ways of C64 in which a list can be incomplete). -/
def Covered (resp : ClientResp) (t : List Obs) (w' : World) : Prop :=
  match resp with
  | .read r => NoTrunc t ∧ w'.db.compactRev ≤ r.header
  | .txn _ => True

end Verif
