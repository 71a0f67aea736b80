import Verif.Lemmas.GoClientRun
import Verif.Props.Client
/-!
# C112, C113: the client library and the migrator with the text of the code

`runCl v1 E t { dir := d }` runs a text on a server of this repository, with the backup directory `d`; `E` says what the network and the file system do. The
result is a program of the database, as `Model/Client.lean`'s, and equality of such programs is equality of everything they do and answer in any system. `runEt`
runs a text against an etcd server that is given by its history.
-/

namespace Verif

open Verif.Go Verif.GoText.Client

/-- Specification: a `Value` and errors in Go. -/
def goValue (v : CliValue) : V := .struct n!"Value" [(n!"Key", .bytes v.key), (n!"Data", .bytes v.data), (n!"Modified", .int v.modified)]

/-- Same. -/
def goErr (e : CliErr) : V := .ext (.cl (.err e))

/-- What the methods answer. -/
def listAnswer : Except CliErr (List CliValue) → List V
  | .ok l => [.list (l.map goValue), .nil]
  | .error e => [.list [], goErr e]

/-- Same. -/
def getAnswer : Except CliErr CliValue → List V
  | .ok v => [goValue v, .nil]
  | .error e => [goValue ⟨[], [], 0⟩, goErr e]

/-- Same. -/
def unitAnswer : Except CliErr Unit → List V
  | .ok _ => [.nil]
  | .error e => [goErr e]

/-- A run that answers what `p` answers and leaves directory and connections alone. -/
def Answers112 {α : Type} (enc : α → List V) (d : BDir) (run : Prog (Option ClEnd)) (p : Prog α) : Prop := run = p.map fun a => some ⟨d, 0, enc a⟩

theorem answers_after {α : Type} {enc : Except CliErr α → List V} {d : BDir} {p : Prog (Except CliErr α)} {ok : α → Prog (Option ClEnd)}
    {er : CliErr → Prog (Option ClEnd)} (h : ∀ a, ok a = .ret (some ⟨d, 0, enc (.ok a)⟩)) (h' : ∀ e, er e = .ret (some ⟨d, 0, enc (.error e)⟩)) :
    Answers112 enc d (p.bind (afterC ok er)) p := by
  unfold Answers112 Prog.map
  congr 1; funext r
  cases r with
  | ok a => exact h a
  | error e => exact h' e

section
variable (v1 : Bool) (E : ClEnv) (N : Nat) (d : BDir)

/-- The texts of the methods of the client library, on all keys, values and revisions (`List` on all keys but the empty one) and whatever the network does. -/
theorem C112_client (key value : Bytes) (rev : Int) :
    (key ≠ [] → Answers112 listAnswer d (runCl v1 E (listGo N key rev) { dir := d }) (Client.list v1 (E.fate 0 5 0) key rev)) ∧
    Answers112 getAnswer d (runCl v1 E (getGo N key) { dir := d }) (Client.get v1 (E.fate 0 5 0) key) ∧
    Answers112 unitAnswer d (runCl v1 E (createGo N key value) { dir := d }) (Client.create v1 (E.fate 0 5 0) key value) ∧
    Answers112 unitAnswer d (runCl v1 E (updateGo N key rev value) { dir := d }) (Client.update v1 (E.fate 0 5 0) key rev value) ∧
    Answers112 unitAnswer d (runCl v1 E (deleteGo N key rev) { dir := d }) (Client.delete v1 (E.fate 0 5 0) key rev) ∧
    Answers112 unitAnswer d (runCl v1 E (putGo N key value) { dir := d }) (Client.put v1 (E.fate 0 5) key value) := by
  refine ⟨fun hk => ?_, ?_, ?_, ?_, ?_, ?_⟩
  · obtain ⟨b, bs, rfl⟩ : ∃ b bs, key = b :: bs := by
      cases key with
      | nil => exact absurd rfl hk
      | cons b bs => exact ⟨b, bs, rfl⟩
    rw [show listGo N (b :: bs) rev = listT (b :: bs) rev .ret from list_run N 4 .ret b bs rev, listT,
      run_list v1 E (b :: bs) rev (ok' := fun l => .ret [.list (l.map cliValueV), .nil]) (fun kvs => by rw [List.map_map]; rfl)]
    exact answers_after (fun a => rfl) fun e => rfl
  · rw [show getGo N key = _ from get_run N 4 .ret key, run_get]
    exact answers_after (fun a => rfl) fun e => rfl
  · rw [show createGo N key value = _ from create_run N 4 .ret _ key value, run_create]
    exact answers_after (fun a => rfl) fun e => rfl
  · rw [show updateGo N key rev value = _ from update_run N 4 .ret _ key value rev, run_cupdate]
    exact answers_after (fun a => rfl) fun e => rfl
  · rw [show deleteGo N key rev = _ from delete_run N 4 .ret _ key rev, run_delete]
    exact answers_after (fun a => rfl) fun e => rfl
  · rw [show putGo N key value = _ from put_run N 3 .ret key value,
      run_put v1 E key value (A := .ret (some ⟨d, 0, [.nil]⟩)) (B := fun e => .ret (some ⟨d, 0, [cliErrV e]⟩)) rfl (fun a r => rfl) fun e r => rfl]
    exact answers_after (fun a => rfl) fun e => rfl

/-- The text of `putKey`, whatever the network does to any of its requests. -/
theorem C112_putKey (hN : 6 ≤ N) (key value : Bytes) :
    Answers112 unitAnswer d (runCl v1 E (putKeyGo N key value) { dir := d }) (putKey v1 (E.fate 0) key value) := by
  rw [show putKeyGo N key value = _ from putKey_run N .ret (clientCalls (Control.std .stuck) N 4) hN key value (fun K => create_run N 3 K _ key value)
      fun K => put_run N 2 K key value,
    run_putKey v1 E key value (A := .ret (some ⟨d, 0, [.nil]⟩)) (B := fun e => .ret (some ⟨d, 0, [cliErrV e]⟩)) rfl rfl (fun a r => rfl) fun e a r => rfl]
  exact answers_after (fun a => rfl) fun e => rfl

/-! ### The migrator -/

/-- Specification: answers of a restore and of a backup. -/
def restoreAnswer : RestoreRes → V
  | .completed => .nil
  | .keyUnreadable => .ext (.cl .ioErr)
  | .dataUnreadable => .ext (.cl .notExist)

/-- The text of `RestoreToDqlite` on any directory: without a connection it does nothing and says so; with one it does what the model says, leaves the
directory alone and closes the connection. -/
theorem C113_restore (hN : 6 ≤ N) (hd : d.length < N) (endpoint : Bytes) :
    runCl v1 E (migrateGo N f_RestoreToDqlite endpoint) { dir := d } =
      match E.conn with
      | some e => .ret (some ⟨d, 0, [goErr e]⟩)
      | none => (restoreToDqlite v1 E.fate E.bad d).map fun r => some ⟨d, 0, [restoreAnswer r]⟩ := by
  rw [show migrateGo N f_RestoreToDqlite endpoint = _ from restoreDqlite_run N .ret (clientCalls (Control.std .stuck) N 4) endpoint
      (fun i K => by kernel_rfl) (fun i K => by kernel_rfl)
      fun k v K => putKey_run N K (clientCalls (Control.std .stuck) N 3) hN k v (fun K => create_run N 2 K _ k v) fun K => put_run N 1 K k v,
    restoreDqliteT, runCl]
  cases E.conn with
  | some e => rfl
  | none =>
    refine (run_restore v1 E d N 0 _ rfl (by simpa using hd)).trans ?_
    unfold restoreToDqlite
    congr 1

/-- What `BackupDqlite` has done when it ends, given what `List` has answered: its connection stays open if that was an error. -/
def backupEnd (E : ClEnv) (d : BDir) : Except CliErr (List CliValue) → ClEnd
  | .error e => ⟨d, 1, [goErr e]⟩
  | .ok l =>
    if E.mkdir then
      let w := writeFiles E.files 0 (l.map fun v => (v.key, v.data)) d
      ⟨w.2, 0, [if w.1 then .nil else .ext (.cl .ioErr)]⟩
    else ⟨d, 0, [.ext (.cl .ioErr)]⟩

theorem backup_end (l : List (Bytes × Bytes)) (s : ClSt) (hs : s.conns = 1) :
    (⟨if E.mkdir then (writeFiles E.files 0 l s.dir).2 else s.dir, s.conns - 1, [backupV (E.mkdir && (writeFiles E.files 0 l s.dir).1)]⟩ : ClEnd) =
      if E.mkdir then ⟨(writeFiles E.files 0 l s.dir).2, 0, [if (writeFiles E.files 0 l s.dir).1 then .nil else .ext (.cl .ioErr)]⟩
      else ⟨s.dir, 0, [.ext (.cl .ioErr)]⟩ := by
  rw [hs]
  cases E.mkdir
  · rfl
  · cases (writeFiles E.files 0 l s.dir).1 <;> rfl

/-- The text of `BackupDqlite`. -/
theorem C113_backup (endpoint : Bytes) :
    runCl v1 E (migrateGo N f_BackupDqlite endpoint) { dir := d } =
      match E.conn with
      | some e => .ret (some ⟨d, 0, [goErr e]⟩)
      | none => (Client.list v1 (E.fate 0 5 0) [0x2f] 0).map fun r => some (backupEnd E d r) := by
  rw [show migrateGo N f_BackupDqlite endpoint = _ from backupDqlite_run N .ret (clientCalls (Control.std .stuck) N 4) endpoint
      (fun i K => by kernel_rfl) (fun i K => by kernel_rfl) fun K => list_run N 3 K 0x2f [] 0,
    backupDqliteT, runCl]
  cases E.conn with
  | some e => rfl
  | none =>
    dsimp only
    rw [run_list v1 E [0x2f] 0 (ok' := fun l => backupT .ret (l.map fun v => (v.key, v.data))) (fun kvs => by rw [List.map_map]; rfl)]
    unfold Prog.map
    congr 1; funext r
    cases r with
    | error e => rfl
    | ok l =>
      refine (run_backup v1 E _ _).trans ?_
      rw [backup_end E _ _ rfl]
      rfl

/-- Did the function answer nil? -/
def answeredNil : List V → Bool
  | [.nil] => true
  | _ => false

/-- Success and directory are those of the model. -/
theorem C113_backup_model (hc : E.conn = none) (endpoint : Bytes) :
    ((runCl v1 E (migrateGo N f_BackupDqlite endpoint) { dir := d }).map fun o => o.map fun e => (answeredNil e.answer, e.dir)) =
      (backupDqlite v1 (E.fate 0 5 0) E.mkdir E.files d).map some := by
  rw [C113_backup, hc]
  unfold backupDqlite Prog.map
  dsimp only
  rw [bind_bind, bind_bind]
  congr 1; funext r
  cases r with
  | error e => rfl
  | ok l =>
    show Prog.ret (some (answeredNil (backupEnd E d (.ok l)).answer, (backupEnd E d (.ok l)).dir)) = Prog.ret (some (if E.mkdir then _ else _))
    unfold backupEnd
    dsimp only
    generalize writeFiles E.files 0 (l.map fun v => (v.key, v.data)) d = w
    rcases w with ⟨b, d'⟩
    cases E.mkdir
    · rfl
    · cases b <;> rfl

/-- Without faults, the texts of `BackupDqlite` and then `RestoreToDqlite`, on stores of any content without concurrent calls, answer nil and copy every key under
`/` that the source has at the end, and no other key of the target changes (`C50_roundtrip` for the texts). -/
theorem C113_roundtrip {src tgt : Sys} (hs : Reachable src) (ht : Reachable tgt) (v1 v1' : Bool) (N' : Nat) (endpoint endpoint' : Bytes) :
    ∃ d w', (runCl v1 { fate := fun _ _ _ => .delivered } (migrateGo N' f_BackupDqlite endpoint) {}).alone src.world =
        (some ⟨d, 0, [.nil]⟩, src.world) ∧
      (∀ N, 6 ≤ N → d.length < N →
        (runCl v1' { fate := fun _ _ _ => .delivered } (migrateGo N f_RestoreToDqlite endpoint') { dir := d }).alone tgt.world =
          (some ⟨d, 0, [.nil]⟩, w')) ∧
      ∀ k, match (if [0x2f] <+: k then src.world.hist.now k else none) with
        | some kv => (w'.hist.now k).map (·.value) = some kv.value
        | none => w'.hist.now k = tgt.world.hist.now k := by
  obtain ⟨d, w', h1, h2, h3⟩ := C50_roundtrip hs ht v1 v1'
  refine ⟨d, w', ?_, fun N hN hd => ?_, h3⟩
  · rw [show runCl v1 { fate := fun _ _ _ => .delivered } (migrateGo N' f_BackupDqlite endpoint) {} = _ from C113_backup v1 _ N' [] endpoint]
    dsimp only
    unfold backupDqlite at h1
    rw [alone_map] at h1 ⊢
    rcases hl : (Client.list v1 .delivered [0x2f] 0).alone src.world with ⟨r, w⟩
    rw [hl] at h1
    cases r with
    | error e => cases h1
    | ok l =>
      dsimp only at h1 ⊢
      unfold backupEnd
      dsimp only
      simp only [if_true] at h1 ⊢
      rw [Prod.mk.injEq] at h1
      rw [h1.1, h1.2]
      rfl
  · rw [C113_restore v1' _ N d hN hd endpoint']
    dsimp only
    rw [alone_map]
    rw [h2]
    rfl

end

section
variable (answer : History → RangeReq → Except CliErr (List KV)) (E : ClEnv) (N : Nat) (d : BDir) (h : History)

/-- Specification: the request for all keys, the last one first. -/
def allKeysDesc : RangeReq := { key := [0], rangeEnd := [0], sortTarget := 0, sortOrder := 2 }

/-- The text of `BackupEtcd`: it writes what the server answers to a request for all keys. -/
theorem C113_backup_etcd (endpoint : Bytes) :
    runEt answer E (migrateGo N f_BackupEtcd endpoint) { dir := d } h =
      match E.conn with
      | some e => some (⟨d, 0, [goErr e]⟩, h)
      | none =>
        match answer h allKeysDesc with
        | .error e => some (⟨d, 1, [goErr e]⟩, h)
        | .ok kvs => some (backupEnd E d (.ok (kvs.map CliValue.ofKV)), h) := by
  rw [show migrateGo N f_BackupEtcd endpoint = _ from backupEtcd_run N .ret (clientCalls (Control.std .stuck) N 4) endpoint
      (fun i K => by kernel_rfl) (fun i K => by kernel_rfl), backupEtcdT, runEt]
  cases E.conn with
  | some e => rfl
  | none =>
    dsimp only
    rw [runEt]
    show (match answer h allKeysDesc with | .ok kvs => _ | .error e => _) = _
    cases answer h allKeysDesc with
    | error e => rfl
    | ok kvs =>
      dsimp only
      refine (runEt_backup answer E h _ _).trans ?_
      rw [backup_end E _ _ rfl, backupEnd, List.map_map]
      rfl

/-- The text of `RestoreToEtcd`. -/
theorem C113_restore_etcd (hd : d.length < N) (endpoint : Bytes) :
    runEt answer E (migrateGo N f_RestoreToEtcd endpoint) { dir := d } h =
      match E.conn with
      | some e => some (⟨d, 0, [goErr e]⟩, h)
      | none =>
        let r := restoreEtcdFrom (fun i => E.fate i 5 0) E.bad 0 d h
        some (⟨d, 0, [restoreAnswer r.1]⟩, r.2) := by
  rw [show migrateGo N f_RestoreToEtcd endpoint = _ from restoreEtcd_run N .ret (clientCalls (Control.std .stuck) N 4) endpoint
      (fun i K => by kernel_rfl) (fun i K => by kernel_rfl), restoreEtcdT, runEt]
  cases E.conn with
  | some e => rfl
  | none =>
    refine (runEt_restore answer E d N 0 _ h rfl (by simpa using hd)).trans ?_
    show some ((⟨d, 0, [restoreV _]⟩ : ClEnd), _) = some ((⟨d, 0, [restoreAnswer _]⟩ : ClEnd), _)
    rw [List.drop_zero]
    cases (restoreEtcdFrom (fun i => E.fate i 5 0) E.bad 0 d h).1 <;> rfl

end

/-- Everything is delivered. -/
def calm : ClEnv := { fate := fun _ _ _ => .delivered }

/-- A run of the text that ended with nil, on a store without other calls: what it left in the directory, and the world. -/
def textAlone (p : Prog (Option ClEnd)) (w : World) : Option (Bool × BDir) × World :=
  ((p.alone w).1.map fun e => (answeredNil e.answer, e.dir), (p.alone w).2)

/-- Witness: the texts of `BackupDqlite` and `RestoreToDqlite` copy the demo store into another one, which has a key of its own, and overwrite the key that both have. -/
example :
    let tgt := runCalls [(.txn true (createTxn Demo.kb [8] 0), oks 1), (.txn true (createTxn [9] [9] 0), oks 1)] World.init
    let b := textAlone (runCl true calm (migrateGo 7 f_BackupDqlite []) {}) Demo.world
    let d := (b.1.map (·.2)).getD []
    let r := textAlone (runCl true calm (migrateGo 7 f_RestoreToDqlite []) { dir := d }) tgt
    b.1.map (·.1) = some true ∧ d.length = 3 ∧ r.1.map (·.1) = some true ∧ (r.2.hist.now Demo.ka).map (·.value) = some [3] ∧
      (r.2.hist.now Demo.kb).map (·.value) = some [2] ∧ (r.2.hist.now [9]).map (·.value) = some [9] := by
  rw [show runCl true calm (migrateGo 7 f_BackupDqlite []) {} = _ from C113_backup true calm 7 [] []]
  decide +kernel

/-- Witness: `BackupEtcd` and `RestoreToEtcd` between etcd servers. -/
example :
    let ans : History → RangeReq → Except CliErr (List KV) := fun _ r =>
      if r = allKeysDesc then .ok [⟨Demo.kb, [7], 0, 2, 2⟩, ⟨Demo.ka, [5], 0, 1, 1⟩] else .error .transport
    let b := runEt ans calm (migrateGo 7 f_BackupEtcd []) {} []
    let d := (b.map (·.1.dir)).getD []
    let r := runEt ans calm (migrateGo 7 f_RestoreToEtcd []) { dir := d } []
    d = [(some Demo.kb, some [7]), (some Demo.ka, some [5])] ∧ (r.map (fun o => (answeredNil o.1.answer, (o.2.now Demo.ka).map (·.value)))) = some (true, some [5]) := by
  intro ans
  rw [show runEt ans calm (migrateGo 7 f_BackupEtcd []) {} [] = _ from C113_backup_etcd ans calm 7 [] [] []]
  decide +kernel

/-- The full statement "no connection stays open" fails: a backup whose `List` fails returns the error and leaves its connection open. -/
theorem C113_backup_leak_counterexample :
    (runCl true { fate := fun _ _ _ => .requestLost } (migrateGo 7 f_BackupDqlite []) {}).alone Demo.world =
      (some ⟨[], 1, [goErr .transport]⟩, Demo.world) := by
  rw [show runCl true _ (migrateGo 7 f_BackupDqlite []) {} = _ from C113_backup true _ 7 [] []]
  rfl

end Verif
