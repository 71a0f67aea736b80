import Verif.Lemmas.GoLimitedLink
import Verif.Props.Rows
/-!
# C100 The source text of the request handlers does what the model says

`Model/GoTextLimited.lean` contains the functions of `/repo/pkg/limited` byte for byte; `Model/GoSyntax.lean` is a parser for the fragment
of Go they are written in, `Model/GoSem.lean` its meaning, `Model/GoHost.lean` what the functions find around them (protobuf messages,
tracing, the backend). `goCall v1 type function args` parses nothing at this point: the trees are tied to the texts by the theorems
`f_…_parse` (`C100_parsed`). The result `none` means that the text got stuck: it panicked (index out of range, nil dereference), or used
something outside of the fragment.
-/

namespace Verif.Go

open Verif.GoText.Limited

/-- Call of a method of the bridge, by the texts, on the backend of the model: the results, or `none` if the text gets stuck. -/
def goCall (v1 : Bool) (ty fn : Nm) (args : List V) : Prog (Option (List V)) :=
  limitedTexts (.ret none) v1 5 ty fn args fun vs => .ret (some vs)

/-- `(T, error)` as results of a Go function. -/
def results {α : Type} (enc : α → V) : Except ApiErr α → Option (List V)
  | .ok a => some [enc a, .nil]
  | .error e => some [.nil, .ext (.err e)]

/-- The texts of the functions below (compared with `/repo` by `tools/gotext.py --check`). -/
def limitedSource : List String :=
  [f_isCreate_text, f_create_text, f_isUpdate_text, f_update_text, f_isDelete_text, f_delete_text, f_isCompact_text, f_compact_text, f_get_text, f_list_text, f_Range_text, f_txnHeader_text, f_Txn_text, f_KVServerBridge_Range_text, f_toKVs_text, f_toKV_text, f_Put_text, f_DeleteRange_text, f_KVServerBridge_Txn_text, f_Compact_text, f_unsupported_text, f_LeaseGrant_text]

/-- The functions that run are the parsed texts. -/
theorem C100_parsed : limitedSource.map (fun text => parseFunc (codesOf text)) = limitedFuncs.map some := by
  simp only [limitedSource, limitedFuncs, List.map_cons, List.map_nil, f_isCreate_parse, f_create_parse, f_isUpdate_parse, f_update_parse, f_isDelete_parse, f_delete_parse, f_isCompact_parse, f_compact_parse, f_get_parse, f_list_parse, f_Range_parse, f_txnHeader_parse, f_Txn_parse, f_KVServerBridge_Range_parse, f_toKVs_parse, f_toKV_parse, f_Put_parse, f_DeleteRange_parse, f_KVServerBridge_Txn_parse, f_Compact_parse, f_unsupported_parse, f_LeaseGrant_parse]

theorem results_answer {α : Type} (enc : α → V) : answer enc (fun vs => (.ret (some vs) : Prog (Option (List V)))) = fun r => .ret (results enc r) := by
  funext r; cases r <;> rfl

/-- `Txn`, for every transaction: the same statements in the same order, the same response or error. -/
theorem C100_txn (v1 : Bool) (t : TxnReq) :
    goCall v1 n!"KVServerBridge" n!"Txn" [bridgeV, .tok, encTxn t] = (Limited.txn v1 t).map (results encTxnResp) := by
  unfold goCall Prog.map
  rw [texts_Bridge_Txn (.ret none) v1 _ 0 t, results_answer]

/-- `Range`, for every range request. -/
theorem C100_range (v1 : Bool) (r : RangeReq) :
    goCall v1 n!"KVServerBridge" n!"Range" [bridgeV, .tok, encRange r] = (Bridge.range v1 r).map (results encRangeResp) := by
  unfold goCall Prog.map
  rw [texts_Bridge_Range (.ret none) v1 _ 0 r, results_answer]

/-- `Put` is refused. -/
theorem C100_put (v1 : Bool) (p : PutReq) :
    goCall v1 n!"KVServerBridge" n!"Put" [bridgeV, .tok, encPut p] = (Bridge.put p).map (results fun _ => .tok) := by
  refine Eq.trans ?_ (Put_run (Control.std (.ret none)) (progBackend v1) (limitedTexts (.ret none) v1 4) (fun vs => .ret (some vs)) p)
  kernel_rfl

/-- `DeleteRange` is refused. -/
theorem C100_deleteRange (v1 : Bool) (d : DeleteReq) :
    goCall v1 n!"KVServerBridge" n!"DeleteRange" [bridgeV, .tok, encDelete d] = (Bridge.deleteRange d).map (results fun _ => .tok) := by
  refine Eq.trans ?_ (DeleteRange_run (Control.std (.ret none)) (progBackend v1) (limitedTexts (.ret none) v1 4) (fun vs => .ret (some vs)) d)
  kernel_rfl

/-- `Compact` answers with the requested revision and does nothing. -/
theorem C100_compact (v1 : Bool) (rev : Int) (physical : Bool) :
    goCall v1 n!"KVServerBridge" n!"Compact" [bridgeV, .tok, encCompaction rev physical] =
      (Bridge.compact rev).map (results fun r => msg n!"CompactionResponse" [(n!"Header", encHeader r)]) := by
  refine Eq.trans ?_ (Compact_run (Control.std (.ret none)) (progBackend v1) (limitedTexts (.ret none) v1 4) (fun vs => .ret (some vs)) rev physical)
  kernel_rfl

/-- `LeaseGrant` answers with the TTL as the number of the lease, whatever number was asked for, and does nothing. -/
theorem C100_leaseGrant (v1 : Bool) (ttl id : Int) :
    goCall v1 n!"KVServerBridge" n!"LeaseGrant" [bridgeV, .tok, encLeaseGrant ttl id] =
      .ret (some [msg n!"LeaseGrantResponse" [(n!"Header", encHeader 0), (n!"ID", .int ttl), (n!"TTL", .int ttl), (n!"Error", .bytes [])], .nil]) := by
  refine Eq.trans ?_ (LeaseGrant_run (Control.std (.ret none)) (progBackend v1) (limitedTexts (.ret none) v1 4) (fun vs => .ret (some vs)) ttl id)
  kernel_rfl

/-- What a program can answer, whatever the database does. -/
def Answers {α : Type} (P : α → Prop) : Prog α → Prop
  | .ret a => P a
  | .stmt _ k => ∀ o db, Answers P (k o db)

theorem answers_map {α β : Type} {P : β → Prop} {f : α → β} (h : ∀ a, P (f a)) (p : Prog α) : Answers P (p.map f) := by
  induction p with
  | ret a => exact h a
  | stmt eff k ih => exact fun o db => ih o db

theorem results_some {α : Type} (enc : α → V) (r : Except ApiErr α) : (results enc r).isSome = true := by cases r <;> rfl

/-- No request makes `Txn` or `Range` panic, whatever the database answers. -/
theorem C100_no_panic (v1 : Bool) (t : TxnReq) (r : RangeReq) :
    Answers (fun a => a.isSome = true) (goCall v1 n!"KVServerBridge" n!"Txn" [bridgeV, .tok, encTxn t]) ∧
    Answers (fun a => a.isSome = true) (goCall v1 n!"KVServerBridge" n!"Range" [bridgeV, .tok, encRange r]) := by
  rw [C100_txn, C100_range]
  exact ⟨answers_map (results_some _) _, answers_map (results_some _) _⟩

/-- Getting stuck is seen: without its arguments the text of `Txn` does not run. -/
theorem C100_stuck_is_seen (v1 : Bool) : goCall v1 n!"KVServerBridge" n!"Txn" [bridgeV, .tok] = .ret none := by kernel_rfl

/-! ### A concrete run of the texts -/

/-- A create transaction as the Kubernetes API server sends it. -/
def demoCreate : TxnReq :=
  { compare := [{ result := .equal, target := .mod, key := [107], union := .modRevision 0, rangeEnd := [] }]
    success := [.put { key := [107], value := [118], lease := 0, prevKv := false, ignoreValue := false, ignoreLease := false }]
    failure := [] }

theorem C100_example : (runOk (goCall true n!"KVServerBridge" n!"Txn" [bridgeV, .tok, encTxn demoCreate]) DB.empty).2 =
    some [encTxnResp { header := 1, succeeded := true, responses := [.put 1] }, .nil] ∧
    ((runOk (goCall true n!"KVServerBridge" n!"Txn" [bridgeV, .tok, encTxn demoCreate]) DB.empty).1).rows.map (fun r => (r.id, r.name, r.value)) =
      [(1, [107], [118])] := by
  rw [C100_txn]
  exact ⟨by kernel_rfl, by kernel_rfl⟩

end Verif.Go
