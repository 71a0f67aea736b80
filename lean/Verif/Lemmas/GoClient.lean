import Verif.Lemmas.GoNf
import Verif.Lemmas.GoLimited
import Verif.Model.GoClient
/-!
# What the texts of the client library and the migrator do
-/

namespace Verif.Go

open Verif.GoText.Client

/-- `Value`. -/
def cliValueV (v : CliValue) : V := .struct n!"Value" [(n!"Key", .bytes v.key), (n!"Data", .bytes v.data), (n!"Modified", .int v.modified)]

/-- `Value{}`. -/
def cliZeroV : V := .struct n!"Value" [(n!"Key", .bytes []), (n!"Data", .bytes []), (n!"Modified", .int 0)]

theorem deep_vals (s : Store Ext) (l : List KV) :
    deep s 16 (.list (l.map fun kv => cliValueV (CliValue.ofKV kv))) = .list (l.map fun kv => cliValueV (CliValue.ofKV kv)) := by
  show GV.list ((l.map fun kv => cliValueV (CliValue.ofKV kv)).map (deep s 15)) = _
  rw [List.map_map]
  rfl

/-- `List`. -/
def listT (key : Bytes) (rev : Int) (K : List V → Cl) : Cl :=
  .range { key := key, rangeEnd := prefixEnd key, revision := rev } (fun kvs => K [.list (kvs.map fun kv => cliValueV (CliValue.ofKV kv)), .nil])
    fun e => K [.list [], cliErrV e]

/-- What `Get` makes of the answer. -/
def getKvs (ok : CliValue → Cl) (er : CliErr → Cl) : List KV → Cl
  | [kv] => ok (CliValue.ofKV kv)
  | _ => er .notFound

/-- `Get`. -/
def getT (key : Bytes) (ok : CliValue → Cl) (er : CliErr → Cl) : Cl := .range { key := key } (getKvs ok er) er

/-- `Create`. -/
def ccreateT (key value : Bytes) (ok : Cl) (er : CliErr → Cl) : Cl := .txn (createTxn key value 0) (fun b => cond (!b) (er .keyExists) ok) er

/-- `Update`. -/
def cupdateT (key : Bytes) (rev : Int) (value : Bytes) (ok : Cl) (er : CliErr → Cl) : Cl :=
  .txn (updateTxn key rev value 0) (fun b => cond (!b) (er (.mismatch rev)) ok) er

/-- `Delete`. -/
def deleteT (key : Bytes) (rev : Int) (ok : Cl) (er : CliErr → Cl) : Cl := .txn (deleteTxn key rev) (fun b => cond (!b) (er (.mismatch rev)) ok) er

/-- `Put`. -/
def putT (key value : Bytes) (ok : Cl) (er : CliErr → Cl) : Cl :=
  getT key (fun v => cond (decide (v.modified = 0)) (ccreateT key value ok er) (cupdateT key v.modified value ok er)) er

/-- The loop of `putKey`, with the attempts that are left. -/
def putLoopT (key value : Bytes) (ok : Cl) (er : CliErr → Cl) : Nat → CliErr → Cl
  | 0, e => er e
  | n + 1, _ => .sleep 50000000 (putT key value ok (putLoopT key value ok er n))

/-- `putKey`. -/
def putKeyT (key value : Bytes) (ok : Cl) (er : CliErr → Cl) : Cl :=
  ccreateT key value ok fun e => cond (!decide (Ext.cl (.err e) = Ext.cl (.err .keyExists))) (er e) (putLoopT key value ok er 5 e)

theorem range_congr {r : RangeReq} {a a' : List KV → Cl} {b b' : CliErr → Cl} (h : ∀ l, a l = a' l) (h' : ∀ e, b e = b' e) : Cl.range r a b = .range r a' b' := by
  rw [funext h, funext h']

variable (N : Nat) (n : Nat) (K : List V → Cl)

theorem list_run (b : UInt8) (bs : Bytes) (rev : Int) :
    clientCalls (Control.std .stuck) N (n + 1) n!"client" n!"List" [clV .client, .tok, .bytes (b :: bs), .int rev] K = listT (b :: bs) rev K := by
  unfold listT
  generalize hct : Control.std Cl.stuck = ct
  have hr : ct.range = rangeStd := by rw [← hct]; rfl
  refine Eq.trans (b := .range { key := b :: bs, rangeEnd := prefixEnd (b :: bs), revision := rev } _ _) (by go_nf; exact rfl) ?_
  refine range_congr (fun kvs => ?_) fun e => ?_
  · go_env
    go_nf
    go_env
    go_name F k
    rw [hr]
    refine Eq.trans (b := rangeStd F k (kvs.map encKV) 0 ((fun acc : List V =>
      ({ vars := [clV .client, .tok, .bytes (b :: bs), .int rev, .list [], .nil, getRespV kvs, .nil, .list acc] } : Store Ext)) [])) (by kernel_rfl) ?_
    refine (rangeStd_append encKV (fun kv => cliValueV (CliValue.ofKV kv)) (fun acc : List V =>
      ({ vars := [clV .client, .tok, .bytes (b :: bs), .int rev, .list [], .nil, getRespV kvs, .nil, .list acc] } : Store Ext)) F k ?_ kvs 0 []).trans ?_
    · intro i x acc kc kb
      subst hF hk
      go_nf
      go_env
      rfl
    · refine Eq.trans (b := K [deep ({ vars := [clV .client, .tok, .bytes (b :: bs), .int rev, .list (kvs.map fun kv => cliValueV (CliValue.ofKV kv)), .nil,
        getRespV kvs, .nil, .list (kvs.map fun kv => cliValueV (CliValue.ofKV kv))] }) 16 (.list (kvs.map fun kv => cliValueV (CliValue.ofKV kv))), .nil]) ?_ (by rw [deep_vals])
      rw [List.nil_append]
      generalize (kvs.map fun kv => cliValueV (CliValue.ofKV kv)) = l
      subst hk
      kernel_rfl
  · kernel_rfl

theorem get_run (key : Bytes) : clientCalls (Control.std .stuck) N (n + 1) n!"client" n!"Get" [clV .client, .tok, .bytes key] K =
    getT key (fun v => K [cliValueV v, .nil]) fun e => K [cliZeroV, cliErrV e] := by
  unfold getT
  generalize hct : Control.std Cl.stuck = ct
  refine Eq.trans (b := .range { key := key } _ _) (by go_nf; exact rfl) ?_
  refine range_congr (fun kvs => ?_) fun e => ?_
  · rcases kvs with _ | ⟨kv, _ | ⟨kv', l⟩⟩
    · kernel_rfl
    · kernel_rfl
    · kernel_rfl
  · kernel_rfl

theorem create_run (ct : Control Ext Cl) (key value : Bytes) :
    clientCalls ct N (n + 1) n!"client" n!"Create" [clV .client, .tok, .bytes key, .bytes value] K = ccreateT key value (K [.nil]) fun e => K [cliErrV e] := by
  unfold ccreateT
  kernel_rfl

theorem update_run (ct : Control Ext Cl) (key value : Bytes) (rev : Int) :
    clientCalls ct N (n + 1) n!"client" n!"Update" [clV .client, .tok, .bytes key, .int rev, .bytes value] K = cupdateT key rev value (K [.nil]) fun e => K [cliErrV e] := by
  unfold cupdateT
  kernel_rfl

theorem delete_run (ct : Control Ext Cl) (key : Bytes) (rev : Int) :
    clientCalls ct N (n + 1) n!"client" n!"Delete" [clV .client, .tok, .bytes key, .int rev] K = deleteT key rev (K [.nil]) fun e => K [cliErrV e] := by
  unfold deleteT
  kernel_rfl

theorem put_run (key value : Bytes) :
    clientCalls (Control.std .stuck) N (n + 2) n!"client" n!"Put" [clV .client, .tok, .bytes key, .bytes value] K =
      putT key value (K [.nil]) fun e => K [cliErrV e] := by
  unfold putT getT ccreateT cupdateT
  generalize hct : Control.std Cl.stuck = ct
  refine Eq.trans (b := .range { key := key } _ _) (by go_nf; exact rfl) ?_
  refine range_congr (fun kvs => ?_) fun e => ?_
  · rcases kvs with _ | ⟨kv, _ | ⟨kv', l⟩⟩
    · kernel_rfl
    · kernel_rfl
    · kernel_rfl
  · kernel_rfl

theorem txn_congr {t : TxnReq} {a a' : Bool → Cl} {b b' : CliErr → Cl} (h : ∀ l, a l = a' l) (h' : ∀ e, b e = b' e) : Cl.txn t a b = .txn t a' b' := by
  rw [funext h, funext h']

theorem cond_congrC {b : Bool} {x y x' y' : Cl} (h : x = x') (h' : y = y') : cond b x y = cond b x' y' := by rw [h, h']

theorem ccreateT_congr {k v : Bytes} {a a' : Cl} {b b' : CliErr → Cl} (h : a = a') (h' : ∀ e, b e = b' e) : ccreateT k v a b = ccreateT k v a' b' := by
  rw [h, funext h']

theorem putT_congr {k v : Bytes} {a a' : Cl} {b b' : CliErr → Cl} (h : a = a') (h' : ∀ e, b e = b' e) : putT k v a b = putT k v a' b' := by
  rw [h, funext h']

/-- A loop with a state. -/
theorem loopC_eq {A : Type} (cnd : Store Ext → (V → Store Ext → Cl) → Cl) (body : Store Ext → (Store Ext → Cl) → (Store Ext → Cl) → Cl)
    (k : Store Ext → Cl) (st : A → Store Ext) (step : A → (A → Cl) → Cl)
    (h : ∀ a (K : Store Ext → Cl), (cnd (st a) fun c s => match c with | .bool b => bif b then body s K k else k s | _ => .stuck) = step a fun a' => K (st a')) :
    ∀ N a, loopStd .stuck cnd body k N (st a) = Nat.rec (fun _ => .stuck) (fun _ r a => step a r) N a := by
  intro N
  induction N with
  | zero => intro a; rfl
  | succ n ih =>
    intro a
    rw [loopStd]
    refine Eq.trans ?_ ((h a fun s => loopStd .stuck cnd body k n s).trans ?_)
    · congr 1
      funext c s
      cases c <;> rfl
    · exact congrArg (step a) (funext ih)

/-- An iteration of `putKey`. -/
def putStep (key value : Bytes) (ok : Cl) (er : CliErr → Cl) (a : Int × CliErr) (r : Int × CliErr → Cl) : Cl :=
  cond (decide (a.1 < 5)) (.sleep 50000000 (putT key value ok fun e => r (a.1 + 1, e))) (er a.2)

theorem putSteps (key value : Bytes) (ok : Cl) (er : CliErr → Cl) : ∀ (j N : Nat) (i : Int) (e : CliErr), i + j = 5 → j < N →
    (Nat.rec (fun _ => .stuck) (fun _ r a => putStep key value ok er a r) N ((i, e) : Int × CliErr) : Cl) = putLoopT key value ok er j e := by
  intro j
  induction j with
  | zero =>
    intro N i e h hN
    obtain ⟨M, rfl⟩ : ∃ M, N = M + 1 := ⟨N - 1, by omega⟩
    show putStep key value ok er (i, e) _ = _
    unfold putStep
    rw [decide_eq_false (by omega)]
    rfl
  | succ j ih =>
    intro N i e h hN
    obtain ⟨M, rfl⟩ : ∃ M, N = M + 1 := ⟨N - 1, by omega⟩
    show putStep key value ok er (i, e) _ = _
    unfold putStep
    rw [decide_eq_true (by omega)]
    show Cl.sleep _ _ = Cl.sleep _ _
    exact congrArg _ (congrArg _ (funext fun e => ih M (i + 1) e (by omega) (by omega)))

theorem putKey_run (L : Calls Cl) (hN : 6 ≤ N) (key value : Bytes)
    (hC : ∀ K, L n!"client" n!"Create" [clV .client, .tok, .bytes key, .bytes value] K = ccreateT key value (K [.nil]) fun e => K [cliErrV e])
    (hP : ∀ K, L n!"client" n!"Put" [clV .client, .tok, .bytes key, .bytes value] K = putT key value (K [.nil]) fun e => K [cliErrV e]) :
    f_putKey.run (clientHost (Control.std .stuck) N L) [.tok, clV .client, .bytes key, .bytes value] (done K) =
      putKeyT key value (K [.nil]) fun e => K [cliErrV e] := by
  unfold putKeyT
  generalize hct : Control.std Cl.stuck = ct
  have hl : ct.loop = loopStd .stuck := by rw [← hct]; rfl
  go_nf
  refine (hC _).trans (ccreateT_congr ?_ fun e => ?_)
  · kernel_rfl
  · go_env
    go_nf
    refine cond_congrC ?_ ?_
    · kernel_rfl
    · go_env
      go_name F G k
      rw [hl]
      refine Eq.trans (b := loopStd .stuck F G k N ((fun a : Int × CliErr =>
        ({ vars := [.tok, clV .client, .bytes key, .bytes value, .nil, cliErrV a.2, .int a.1] } : Store Ext)) (0, e))) (by kernel_rfl) ?_
      refine (loopC_eq F G k (fun a : Int × CliErr =>
        ({ vars := [.tok, clV .client, .bytes key, .bytes value, .nil, cliErrV a.2, .int a.1] } : Store Ext))
        (putStep key value (K [.nil]) fun e => K [cliErrV e]) ?_ N _).trans (putSteps key value _ _ 5 N 0 e (by omega) (by omega))
      intro a K'
      obtain ⟨i, e⟩ := a
      unfold putStep
      subst hF hG hk
      go_env
      go_nf
      refine cond_congrC ?_ ?_
      · refine congrArg (Cl.sleep 50000000) ((hP _).trans (putT_congr ?_ fun e => ?_))
        · kernel_rfl
        · go_env
          go_nf
          refine congrArg K' ?_
          show _ = ({ vars := _ } : Store Ext)
          rfl
      · kernel_rfl

end Verif.Go
