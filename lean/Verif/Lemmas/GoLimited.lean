import Verif.Model.GoHost
import Verif.Model.GoTextLimited
import Verif.Lemmas.GoNf
/-!
# The functions of `pkg/limited`: what their texts mean
-/

namespace Verif.Go

open Verif.GoText.Limited

/-- Pointers that may be nil. -/
def encOpt {α : Type} (f : α → V) : Option α → V
  | none => .nil
  | some a => f a

section
variable {R : Type} (ct : Control Ext R) (B : BackendOps R) (L : Calls R) (K : List V → R)

theorem isCreate_run (t : TxnReq) : f_isCreate.run (limitedHost ct B L) [encTxn t] (done K) = K [encOpt encPut (isCreate t)] := by
  obtain ⟨cs, ss, fs⟩ := t
  rcases cs with _ | ⟨⟨res, tgt, key, un, re⟩, _ | ⟨c2, cs⟩⟩
  · kernel_rfl
  · rcases ss with _ | ⟨s, _ | ⟨s2, ss⟩⟩ <;> rcases fs with _ | ⟨f, fs⟩ <;> cases tgt <;> try kernel_rfl
    all_goals (cases res <;> try kernel_rfl)
    all_goals (rcases un with n | n | n | n | n | _ <;> try kernel_rfl)
    all_goals try (cases s <;> try kernel_rfl)
    all_goals
      go_nf
      by_cases h : n = 0 <;> simp [isCreate, Compare.getModRevision, ReqOp.getPut, encOpt, encPut, msg, h]
  · kernel_rfl

theorem isDelete_run (t : TxnReq) : f_isDelete.run (limitedHost ct B L) [encTxn t] (done K) =
    K (match isDelete t with | some (r, k) => [.int r, .bytes k, .bool true] | none => [.int 0, .bytes [], .bool false]) := by
  obtain ⟨cs, ss, fs⟩ := t
  rcases cs with _ | ⟨⟨res, tgt, key, un, re⟩, _ | ⟨c2, cs⟩⟩
  · kernel_rfl
  · rcases ss with _ | ⟨s, _ | ⟨s2, ss⟩⟩ <;> rcases fs with _ | ⟨f, _ | ⟨f2, fs⟩⟩ <;> cases tgt <;> try kernel_rfl
    all_goals (cases res <;> try kernel_rfl)
    all_goals try (cases f <;> try kernel_rfl)
    all_goals try (cases s <;> try kernel_rfl)
    all_goals (cases un <;> kernel_rfl)
  · kernel_rfl

theorem isUpdate_run (t : TxnReq) : f_isUpdate.run (limitedHost ct B L) [encTxn t] (done K) =
    K (match isUpdate t with
      | some (r, k, v, l) => [.int r, .bytes k, .bytes v, .int l, .bool true]
      | none => [.int 0, .bytes [], .bytes [], .int 0, .bool false]) := by
  obtain ⟨cs, ss, fs⟩ := t
  rcases cs with _ | ⟨⟨res, tgt, key, un, re⟩, _ | ⟨c2, cs⟩⟩
  · kernel_rfl
  · rcases ss with _ | ⟨s, _ | ⟨s2, ss⟩⟩ <;> rcases fs with _ | ⟨f, _ | ⟨f2, fs⟩⟩ <;> cases tgt <;> try kernel_rfl
    all_goals (cases res <;> try kernel_rfl)
    all_goals try (cases s <;> try kernel_rfl)
    all_goals try (cases f <;> try kernel_rfl)
    all_goals (cases un <;> kernel_rfl)
  · kernel_rfl

theorem isCompact_run (t : TxnReq) : f_isCompact.run (limitedHost ct B L) [encTxn t] (done K) = K [.bool (isCompact t)] := by
  obtain ⟨cs, ss, fs⟩ := t
  rcases cs with _ | ⟨⟨res, tgt, key, un, re⟩, _ | ⟨c2, cs⟩⟩
  · kernel_rfl
  · rcases ss with _ | ⟨s, _ | ⟨s2, ss⟩⟩ <;> rcases fs with _ | ⟨f, _ | ⟨f2, fs⟩⟩ <;> cases tgt <;> try kernel_rfl
    all_goals (cases res <;> try kernel_rfl)
    all_goals try (cases s <;> try kernel_rfl)
    all_goals try (cases f <;> try kernel_rfl)
  · kernel_rfl

theorem txnHeader_run (r : Int) : f_txnHeader.run (limitedHost ct B L) [.int r] (done K) = K [encHeader r] := by kernel_rfl

theorem toKV_run (kv : KV) : f_toKV.run (limitedHost ct B L) [encKV kv] (done K) = K [encKV kv] := by kernel_rfl

theorem toKV_run_nil : f_toKV.run (limitedHost ct B L) [.nil] (done K) = K [.nil] := by kernel_rfl

theorem unsupported_run (b : Bytes) : f_unsupported.run (limitedHost ct B L) [.bytes b] (done K) = K [.ext (.err .unsupported)] := by
  kernel_rfl

theorem compact_run : f_compact.run (limitedHost ct B L) [limitedV, .tok] (done K) = K [encTxnResp Limited.compact, .nil] := by kernel_rfl

theorem Compact_run (rev : Int) (b : Bool) : f_Compact.run (limitedHost ct B L) [bridgeV, .tok, encCompaction rev b] (done K) =
    K [msg n!"CompactionResponse" [(n!"Header", encHeader rev)], .nil] := by kernel_rfl

theorem LeaseGrant_run (ttl id : Int) : f_LeaseGrant.run (limitedHost ct B L) [bridgeV, .tok, encLeaseGrant ttl id] (done K) =
    K [msg n!"LeaseGrantResponse" [(n!"Header", msg n!"ResponseHeader" [(n!"ClusterId", .int 0), (n!"MemberId", .int 0), (n!"Revision", .int 0), (n!"RaftTerm", .int 0)]),
      (n!"ID", .int ttl), (n!"TTL", .int ttl), (n!"Error", .bytes [])], .nil] := by kernel_rfl

theorem Put_run (p : PutReq) : f_Put.run (limitedHost ct B L) [bridgeV, .tok, encPut p] (done K) = K [.nil, .ext (.err .unsupported)] := by kernel_rfl

theorem DeleteRange_run (p : DeleteReq) :
    f_DeleteRange.run (limitedHost ct B L) [bridgeV, .tok, encDelete p] (done K) = K [.nil, .ext (.err .unsupported)] := by kernel_rfl


/-- The functions of `pkg/limited`. -/
def limitedFuncs : List FuncDecl :=
  [f_isCreate, f_create, f_isUpdate, f_update, f_isDelete, f_delete, f_isCompact, f_compact, f_get, f_list, f_Range, f_txnHeader, f_Txn,
    f_KVServerBridge_Range, f_toKVs, f_toKV, f_Put, f_DeleteRange, f_KVServerBridge_Txn, f_Compact, f_unsupported, f_LeaseGrant]

/-- Calls among them. -/
def limitedCalls (n : Nat) : Calls R := textCalls ct.stuck (limitedHost ct B) limitedFuncs n

theorem over_self (stops : List Nm) (L : Calls R) : over stops L L = L := by
  funext ty m
  unfold over
  split <;> rfl

instance (kvs : List KV) : Imms (kvs.map encKV) := ⟨fun v hv => by
  obtain ⟨kv, _, rfl⟩ := List.mem_map.1 hv
  exact ⟨_, rfl⟩⟩

end

section
variable {R : Type} (stuck : R) (B : BackendOps R) (K : List V → R)

/-- A loop that appends something for every element. -/
theorem rangeStd_append {α : Type} (enc out : α → V) (st : List V → Store Ext) (body : Nat → V → Store Ext → (Store Ext → R) → (Store Ext → R) → R)
    (k : Store Ext → R) (h : ∀ i x acc kc kb, body i (enc x) (st acc) kc kb = kc (st (acc ++ [out x]))) (l : List α) (i : Nat) (acc : List V) :
    rangeStd body k (l.map enc) i (st acc) = k (st (acc ++ l.map out)) := by
  induction l generalizing i acc with
  | nil => simp [rangeStd]
  | cons x l ih => simp only [List.map_cons, rangeStd, h, ih]; simp

theorem toKVs_run (n : Nat) (kvs : List KV) :
    f_toKVs.run (limitedHost (Control.std stuck) B (limitedCalls (Control.std stuck) B (n + 1))) (kvs.map encKV) (done K) =
      K [.list (kvs.map encKV)] := by
  cases kvs with
  | nil => kernel_rfl
  | cons kv kvs =>
    generalize hc : Control.std stuck = ct
    simp only [List.map_cons]
    go_nf
    go_name F k
    subst hc
    refine Eq.trans (rangeStd_append encKV encKV (fun acc => { vars := [.list ((kv :: kvs).map encKV), .list [], .list acc] }) F k ?_
      (kv :: kvs) 0 []) ?_
    · intro i x acc kc kb
      subst hF
      kernel_rfl
    · rw [List.nil_append]
      show k _ = K [.list (List.map encKV (kv :: kvs))]
      generalize kv :: kvs = l
      subst hk
      go_nf
      go_map
      kernel_rfl

end
end Verif.Go
