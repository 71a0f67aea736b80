import Verif.Lemmas.GoClient
/-!
# What the texts of the migrator do
-/

namespace Verif.Go

open Verif.GoText.Client

/-- Writing the files of a backup. -/
def writeT (ok io : Cl) : Nat → List (Bytes × Bytes) → Cl
  | _, [] => ok
  | i, (k, v) :: l => .write false i k (.write true i v (writeT ok io (i + 1) l) io) io

/-- The backup after the keys have been read. -/
def backupT (K : List V → Cl) (l : List (Bytes × Bytes)) : Cl := .close (.mkdir (writeT (K [.nil]) (K [clV .ioErr]) 0 l) (K [clV .ioErr]))

/-- `BackupDqlite`. -/
def backupDqliteT (K : List V → Cl) : Cl :=
  .connect (.range { key := [0x2f], rangeEnd := prefixEnd [0x2f], revision := 0 } (fun kvs => backupT K (kvs.map fun kv => (kv.key, kv.value))) fun e => K [cliErrV e])
    fun e => K [cliErrV e]

/-- `BackupEtcd`. -/
def backupEtcdT (K : List V → Cl) : Cl :=
  .connect (.range { key := [0], rangeEnd := [0], sortTarget := 0, sortOrder := 2 } (fun kvs => backupT K (kvs.map fun kv => (kv.key, kv.value)))
    fun e => K [cliErrV e]) fun e => K [cliErrV e]

/-- Restoring an entry with what comes after it. -/
def restoreStep (put : Bytes → Bytes → Cl → Cl) (K : List V → Cl) (i : Int) (r : Int → Cl) : Cl :=
  .read false i (fun k => .read true i (fun v => put k v (r (i + 1))) (.close (K [clV .notExist])) (.close (K [clV .ioErr])))
    (.close (K [.nil])) (.close (K [clV .ioErr]))

/-- `RestoreToDqlite`. -/
def restoreDqliteT (K : List V → Cl) (N : Nat) : Cl :=
  .connect (Nat.rec (fun _ => .stuck) (fun _ r i => restoreStep (fun k v K' => putKeyT k v K' fun _ => K') K i r) N (0 : Int)) fun e => K [cliErrV e]

/-- `RestoreToEtcd`. -/
def restoreEtcdT (K : List V → Cl) (N : Nat) : Cl :=
  .connect (Nat.rec (fun _ => .stuck) (fun _ r i => restoreStep (fun k v K' => .put { key := k, value := v } K' fun _ => K') K i r) N (0 : Int)) fun e => K [cliErrV e]

theorem rangeC_eq {α : Type} (enc : α → V) (key val : α → Bytes) (st : Store Ext) (io : Cl) (F : Nat → V → Store Ext → (Store Ext → Cl) → (Store Ext → Cl) → Cl)
    (k : Store Ext → Cl) (h : ∀ i x kc kb, F i (enc x) st kc kb = .write false i (key x) (.write true i (val x) (kc st) io) io) :
    ∀ (l : List α) i, rangeStd F k (l.map enc) i st = writeT (k st) io i (l.map fun x => (key x, val x)) := by
  intro l
  induction l with
  | nil => intro i; rfl
  | cons x l ih =>
    intro i
    simp only [List.map_cons, rangeStd, h, ih, writeT]

theorem connect_congr {a a' : Cl} {b b' : CliErr → Cl} (h : a = a') (h' : ∀ e, b e = b' e) : Cl.connect a b = .connect a' b' := by
  rw [h, funext h']

theorem read_congr {d : Bool} {i : Int} {f f' : Bytes → Cl} {a a' b b' : Cl} (h : ∀ x, f x = f' x) (h' : a = a') (h'' : b = b') :
    Cl.read d i f a b = .read d i f' a' b' := by rw [funext h, h', h'']

theorem mkdir_congr {a a' b b' : Cl} (h : a = a') (h' : b = b') : Cl.mkdir a b = .mkdir a' b' := by rw [h, h']

theorem write_congr {d : Bool} {i : Int} {x : Bytes} {a a' b b' : Cl} (h : a = a') (h' : b = b') : Cl.write d i x a b = .write d i x a' b' := by rw [h, h']

theorem put_congr {p : PutReq} {a a' : Cl} {b b' : CliErr → Cl} (h : a = a') (h' : ∀ e, b e = b' e) : Cl.put p a b = .put p a' b' := by
  rw [h, funext h']

theorem writeT_congr {a a' b b' : Cl} {i : Nat} {l : List (Bytes × Bytes)} (h : a = a') (h' : b = b') : writeT a b i l = writeT a' b' i l := by rw [h, h']

theorem putKeyT_congr {k v : Bytes} {a a' : Cl} {b b' : CliErr → Cl} (h : a = a') (h' : ∀ e, b e = b' e) : putKeyT k v a b = putKeyT k v a' b' := by
  rw [h, funext h']

variable (N : Nat) (K : List V → Cl) (L : Calls Cl) (endpoint : Bytes)
  (hK : ∀ (i : Int) K, L 0 n!"keyFileName" [clV .dir, .int i] K = K [clV (.name false i)])
  (hD : ∀ (i : Int) K, L 0 n!"dataFileName" [clV .dir, .int i] K = K [clV (.name true i)])

include hK hD

theorem backupDqlite_run
    (hL : ∀ K, L n!"client" n!"List" [clV .client, .tok, .bytes [0x2f], .int 0] K = listT [0x2f] 0 K) :
    f_BackupDqlite.run (clientHost (Control.std .stuck) N L) [.tok, .bytes endpoint, clV .dir] (done K) = backupDqliteT K := by
  unfold backupDqliteT
  generalize hct : Control.std Cl.stuck = ct
  have hr : ct.range = rangeStd := by rw [← hct]; rfl
  go_nf
  refine connect_congr ((hL _).trans (range_congr (fun kvs => ?_) fun e => ?_)) fun e => ?_
  · unfold backupT
    go_env
    go_nf
    refine congrArg Cl.close (mkdir_congr ?_ ?_)
    · go_env
      go_nf
      go_env
      go_name F k
      rw [hr]
      refine Eq.trans (b := rangeStd F k (kvs.map fun kv => cliValueV (CliValue.ofKV kv)) 0
        ({ vars := [.tok, .bytes endpoint, clV .dir, .nil, clV .client, .nil, .list (kvs.map fun kv => cliValueV (CliValue.ofKV kv))] } : Store Ext)) (by kernel_rfl) ?_
      refine (rangeC_eq (fun kv => cliValueV (CliValue.ofKV kv)) (fun kv => kv.key) (fun kv => kv.value)
        ({ vars := [.tok, .bytes endpoint, clV .dir, .nil, clV .client, .nil, .list (kvs.map fun kv => cliValueV (CliValue.ofKV kv))] } : Store Ext)
        (K [clV .ioErr]) F k ?_ kvs 0).trans (writeT_congr ?_ rfl)
      · intro i x kc kb
        subst hF hk
        go_env
        go_nf
        refine (hK _ _).trans ?_
        go_env
        go_nf
        refine write_congr ((hD _ _).trans ?_) ?_
        · go_env
          go_nf
          refine write_congr ?_ ?_
          · refine congrArg kc ?_
            rfl
          · kernel_rfl
        · kernel_rfl
      · subst hk
        kernel_rfl
    · kernel_rfl
  · kernel_rfl
  · kernel_rfl

theorem backupEtcd_run :
    f_BackupEtcd.run (clientHost (Control.std .stuck) N L) [.tok, .bytes endpoint, clV .dir] (done K) = backupEtcdT K := by
  unfold backupEtcdT
  generalize hct : Control.std Cl.stuck = ct
  have hr : ct.range = rangeStd := by rw [← hct]; rfl
  go_nf
  refine connect_congr (range_congr (fun kvs => ?_) fun e => ?_) fun e => ?_
  · unfold backupT
    go_env
    go_nf
    refine congrArg Cl.close (mkdir_congr ?_ ?_)
    · go_env
      go_nf
      go_env
      go_name F k
      rw [hr]
      refine Eq.trans (b := rangeStd F k (kvs.map encKV) 0
        ({ vars := [.tok, .bytes endpoint, clV .dir, .nil, clV .etcd, .nil, getRespV kvs] } : Store Ext)) (by kernel_rfl) ?_
      refine (rangeC_eq encKV (fun kv => kv.key) (fun kv => kv.value)
        ({ vars := [.tok, .bytes endpoint, clV .dir, .nil, clV .etcd, .nil, getRespV kvs] } : Store Ext)
        (K [clV .ioErr]) F k ?_ kvs 0).trans (writeT_congr ?_ rfl)
      · intro i x kc kb
        subst hF hk
        go_env
        go_nf
        refine (hK _ _).trans ?_
        go_env
        go_nf
        refine write_congr ((hD _ _).trans ?_) ?_
        · go_env
          go_nf
          refine write_congr ?_ ?_
          · refine congrArg kc ?_
            rfl
          · kernel_rfl
        · kernel_rfl
      · subst hk
        kernel_rfl
    · kernel_rfl
  · kernel_rfl
  · kernel_rfl

theorem restoreDqlite_run
    (hP : ∀ k v K, L 0 n!"putKey" [.tok, clV .client, .bytes k, .bytes v] K = putKeyT k v (K [.nil]) fun e => K [cliErrV e]) :
    f_RestoreToDqlite.run (clientHost (Control.std .stuck) N L) [.tok, .bytes endpoint, clV .dir] (done K) = restoreDqliteT K N := by
  unfold restoreDqliteT
  generalize hct : Control.std Cl.stuck = ct
  have hl : ct.loop = loopStd .stuck := by rw [← hct]; rfl
  go_nf
  refine connect_congr ?_ fun e => ?_
  · go_env
    go_nf
    go_env
    go_name F G k
    rw [hl]
    refine Eq.trans (b := loopStd .stuck F G k N ((fun a : Int =>
      ({ vars := [.tok, .bytes endpoint, clV .dir, .nil, clV .client, .nil, .int a], defers := [.meth (clV .client) n!"Close" []] } : Store Ext)) 0)) (by kernel_rfl) ?_
    refine loopC_eq F G k (fun a : Int =>
      ({ vars := [.tok, .bytes endpoint, clV .dir, .nil, clV .client, .nil, .int a], defers := [.meth (clV .client) n!"Close" []] } : Store Ext))
      (restoreStep (fun k v K' => putKeyT k v K' fun _ => K') K) ?_ N _
    intro i K'
    unfold restoreStep
    subst hF hG hk
    go_env
    go_nf
    refine (hK _ _).trans ?_
    go_env
    go_nf
    refine read_congr (fun b => ?_) ?_ ?_
    · go_env
      go_nf
      refine (hD _ _).trans ?_
      go_env
      go_nf
      refine read_congr (fun b => ?_) ?_ ?_
      · go_env
        go_nf
        refine (hP _ _ _).trans (putKeyT_congr ?_ fun e => ?_)
        · go_env
          go_nf
          refine congrArg K' ?_
          show _ = ({ vars := _, defers := _ } : Store Ext)
          rfl
        · go_env
          go_nf
          refine congrArg K' ?_
          show _ = ({ vars := _, defers := _ } : Store Ext)
          rfl
      · kernel_rfl
      · kernel_rfl
    · kernel_rfl
    · kernel_rfl
  · kernel_rfl

theorem restoreEtcd_run :
    f_RestoreToEtcd.run (clientHost (Control.std .stuck) N L) [.tok, .bytes endpoint, clV .dir] (done K) = restoreEtcdT K N := by
  unfold restoreEtcdT
  generalize hct : Control.std Cl.stuck = ct
  have hl : ct.loop = loopStd .stuck := by rw [← hct]; rfl
  go_nf
  refine connect_congr ?_ fun e => ?_
  · go_env
    go_nf
    go_env
    go_name F G k
    rw [hl]
    refine Eq.trans (b := loopStd .stuck F G k N ((fun a : Int =>
      ({ vars := [.tok, .bytes endpoint, clV .dir, .nil, clV .etcd, .nil, .int a], defers := [.meth (clV .etcd) n!"Close" []] } : Store Ext)) 0)) (by kernel_rfl) ?_
    refine loopC_eq F G k (fun a : Int =>
      ({ vars := [.tok, .bytes endpoint, clV .dir, .nil, clV .etcd, .nil, .int a], defers := [.meth (clV .etcd) n!"Close" []] } : Store Ext))
      (restoreStep (fun k v K' => .put { key := k, value := v } K' fun _ => K') K) ?_ N _
    intro i K'
    unfold restoreStep
    subst hF hG hk
    go_env
    go_nf
    refine (hK _ _).trans ?_
    go_env
    go_nf
    refine read_congr (fun b => ?_) ?_ ?_
    · go_env
      go_nf
      refine (hD _ _).trans ?_
      go_env
      go_nf
      refine read_congr (fun b => ?_) ?_ ?_
      · go_env
        go_nf
        refine put_congr ?_ fun e => ?_
        · refine congrArg K' ?_
          show _ = ({ vars := _, defers := _ } : Store Ext)
          rfl
        · refine congrArg K' ?_
          show _ = ({ vars := _, defers := _ } : Store Ext)
          rfl
      · kernel_rfl
      · kernel_rfl
    · kernel_rfl
    · kernel_rfl
  · kernel_rfl

end Verif.Go
