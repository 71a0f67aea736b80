import Verif.Lemmas.GoMigrate
import Verif.Lemmas.GoLimitedLink
/-!
# The texts of the client library and the migrator do what `Model/Client.lean` says
-/

namespace Verif.Go

open Verif.GoText.Client

/-- What comes after a call. -/
def afterC {α : Type} (ok : α → Prog (Option ClEnd)) (er : CliErr → Prog (Option ClEnd)) : Except CliErr α → Prog (Option ClEnd)
  | .ok a => ok a
  | .error e => er e

theorem andThen_after {α β : Type} (p : Prog (Except CliErr α)) (f : α → Prog (Except CliErr β)) (ok : β → Prog (Option ClEnd)) (er : CliErr → Prog (Option ClEnd)) :
    (p.andThen f).bind (afterC ok er) = p.bind (afterC (fun a => (f a).bind (afterC ok er)) er) := by
  unfold Prog.andThen
  rw [bind_bind]
  congr 1; funext r
  cases r <;> rfl

section
variable (v1 : Bool) (v : ClEnv)

theorem run_list (key : Bytes) (rev : Int) {ok : List KV → Cl} {ok' : List CliValue → Cl} (h : ∀ kvs, ok kvs = ok' (kvs.map CliValue.ofKV)) (er : CliErr → Cl)
    (s : ClSt) :
    runCl v1 v (.range { key := key, rangeEnd := prefixEnd key, revision := rev } ok er) s = (Client.list v1 (v.fate s.idx s.att s.req) key rev).bind
      (afterC (fun l => runCl v1 v (ok' l) { s with req := s.req + 1 }) fun e => runCl v1 v (er e) { s with req := s.req + 1 }) := by
  unfold Client.list
  rw [andThen_after, runCl, funext h]
  congr 1; funext r
  rcases r with e | resp <;> rfl

theorem run_get (key : Bytes) (ok : CliValue → Cl) (er : CliErr → Cl) (s : ClSt) :
    runCl v1 v (getT key ok er) s = (Client.get v1 (v.fate s.idx s.att s.req) key).bind
      (afterC (fun a => runCl v1 v (ok a) { s with req := s.req + 1 }) fun e => runCl v1 v (er e) { s with req := s.req + 1 }) := by
  unfold Client.get
  rw [andThen_after, getT, runCl]
  congr 1; funext r
  rcases r with e | resp
  · rfl
  · show runCl v1 v (getKvs ok er resp.kvs) _ = Prog.bind (match resp.kvs with | [kv] => _ | _ => _) _
    rcases resp.kvs with _ | ⟨kv, _ | ⟨kv', l⟩⟩ <;> rfl

theorem run_create (key value : Bytes) (ok : Cl) (er : CliErr → Cl) (s : ClSt) :
    runCl v1 v (ccreateT key value ok er) s = (Client.create v1 (v.fate s.idx s.att s.req) key value).bind
      (afterC (fun _ => runCl v1 v ok { s with req := s.req + 1 }) fun e => runCl v1 v (er e) { s with req := s.req + 1 }) := by
  unfold Client.create
  rw [andThen_after, ccreateT, runCl]
  congr 1; funext r
  rcases r with e | resp
  · rfl
  · show runCl v1 v (cond (!resp.succeeded) _ _) _ = Prog.bind (if resp.succeeded then _ else _) _
    cases resp.succeeded <;> rfl

theorem run_cupdate (key : Bytes) (rev : Int) (value : Bytes) (ok : Cl) (er : CliErr → Cl) (s : ClSt) :
    runCl v1 v (cupdateT key rev value ok er) s = (Client.update v1 (v.fate s.idx s.att s.req) key rev value).bind
      (afterC (fun _ => runCl v1 v ok { s with req := s.req + 1 }) fun e => runCl v1 v (er e) { s with req := s.req + 1 }) := by
  unfold Client.update
  rw [andThen_after, cupdateT, runCl]
  congr 1; funext r
  rcases r with e | resp
  · rfl
  · show runCl v1 v (cond (!resp.succeeded) _ _) _ = Prog.bind (if resp.succeeded then _ else _) _
    cases resp.succeeded <;> rfl

theorem run_delete (key : Bytes) (rev : Int) (ok : Cl) (er : CliErr → Cl) (s : ClSt) :
    runCl v1 v (deleteT key rev ok er) s = (Client.delete v1 (v.fate s.idx s.att s.req) key rev).bind
      (afterC (fun _ => runCl v1 v ok { s with req := s.req + 1 }) fun e => runCl v1 v (er e) { s with req := s.req + 1 }) := by
  unfold Client.delete
  rw [andThen_after, deleteT, runCl]
  congr 1; funext r
  rcases r with e | resp
  · rfl
  · show runCl v1 v (cond (!resp.succeeded) _ _) _ = Prog.bind (if resp.succeeded then _ else _) _
    cases resp.succeeded <;> rfl

/-- A run that does not depend on which request it is at. -/
def Any (t : Cl) (s : ClSt) (P : Prog (Option ClEnd)) : Prop := ∀ a r, runCl v1 v t { s with att := a, req := r } = P

theorem run_put (key value : Bytes) {ok : Cl} {er : CliErr → Cl} {s : ClSt} {A : Prog (Option ClEnd)} {B : CliErr → Prog (Option ClEnd)} (hs : s.req = 0)
    (hA : Any v1 v ok s A) (hB : ∀ e r, runCl v1 v (er e) { s with req := r } = B e) :
    runCl v1 v (putT key value ok er) s = (Client.put v1 (v.fate s.idx s.att) key value).bind (afterC (fun _ => A) B) := by
  unfold putT Client.put
  rw [run_get, andThen_after, hs]
  congr 1; funext r
  rcases r with e | val
  · exact hB e _
  · show runCl v1 v (cond (decide (val.modified = 0)) _ _) _ = Prog.bind (if val.modified = 0 then _ else _) _
    by_cases h : val.modified = 0
    · rw [if_pos h, decide_eq_true h]
      refine (run_create v1 v key value ok er _).trans ?_
      congr 1; funext r
      cases r with
      | ok a => exact hA s.att _
      | error e => exact hB e _
    · rw [if_neg h, decide_eq_false h]
      refine (run_cupdate v1 v key val.modified value ok er _).trans ?_
      congr 1; funext r
      cases r with
      | ok a => exact hA s.att _
      | error e => exact hB e _

theorem run_putLoop (key value : Bytes) {ok : Cl} {er : CliErr → Cl} {s : ClSt} {A : Prog (Option ClEnd)} {B : CliErr → Prog (Option ClEnd)}
    (hA : Any v1 v ok s A) (hB : ∀ e, Any v1 v (er e) s (B e)) : ∀ (n : Nat) (e : CliErr) (r : Nat),
    runCl v1 v (putLoopT key value ok er n e) { s with att := n, req := r } = (putLoop v1 (v.fate s.idx) key value e n).bind (afterC (fun _ => A) B) := by
  intro n
  induction n with
  | zero => intro e r; exact hB e 0 r
  | succ n ih =>
    intro e r
    refine (run_put v1 v key value (s := { s with att := n, req := 0 }) (A := A) (B := fun e => (putLoop v1 (v.fate s.idx) key value e n).bind (afterC (fun _ => A) B))
      rfl (fun a r => hA a r) fun e r => ih e r).trans ?_
    show _ = Prog.bind (Prog.bind _ _) _
    rw [bind_bind]
    congr 1; funext x
    cases x <;> rfl

theorem is_keyExists (e : CliErr) : decide (Ext.cl (.err e) = Ext.cl (.err .keyExists)) = decide (e = .keyExists) := by
  cases e <;> rfl

theorem run_putKey (key value : Bytes) {ok : Cl} {er : CliErr → Cl} {s : ClSt} {A : Prog (Option ClEnd)} {B : CliErr → Prog (Option ClEnd)}
    (ha : s.att = 5) (hs : s.req = 0) (hA : Any v1 v ok s A) (hB : ∀ e, Any v1 v (er e) s (B e)) :
    runCl v1 v (putKeyT key value ok er) s = (putKey v1 (v.fate s.idx) key value).bind (afterC (fun _ => A) B) := by
  obtain ⟨dir, idx, att, req, conns⟩ := s
  change att = 5 at ha
  change req = 0 at hs
  subst ha hs
  unfold putKeyT putKey
  rw [run_create, bind_bind]
  congr 1; funext r
  rcases r with e | a
  · show runCl v1 v (cond (!decide (Ext.cl (.err e) = Ext.cl (.err .keyExists))) _ _) _ = _
    rw [is_keyExists]
    by_cases h : e = .keyExists
    · subst h
      exact run_putLoop v1 v key value hA hB 5 .keyExists 1
    · rw [decide_eq_false h]
      refine (hB e 5 1).trans ?_
      cases e <;> first | rfl | exact absurd rfl h
  · exact hA 5 1

/-- What a restore answers. -/
def restoreV : RestoreRes → V
  | .completed => .nil
  | .keyUnreadable => clV .ioErr
  | .dataUnreadable => clV .notExist

theorem drop_nil {α : Type} {d : List α} {i : Nat} (h : d.drop i = []) : d[i]? = none := by
  have := congrArg (fun l => l[0]?) h
  simpa using this

theorem drop_cons {α : Type} {d : List α} {i : Nat} {x : α} {l : List α} (h : d.drop i = x :: l) : d[i]? = some x ∧ d.drop (i + 1) = l := by
  constructor
  · have := congrArg (fun l => l[0]?) h
    simpa using this
  · rw [← List.drop_drop, h]; rfl

theorem run_readKey (i : Nat) (ok : Bytes → Cl) (m io : Cl) (dir : BDir) (idx att req conns : Nat) :
    runCl v1 v (.read false (i : Int) ok m io) ⟨dir, idx, att, req, conns⟩ =
      if v.bad i then runCl v1 v io ⟨dir, i, 5, 0, conns⟩
      else match dir[i]? with
        | some (some b, _) => runCl v1 v (ok b) ⟨dir, i, 5, 0, conns⟩
        | _ => runCl v1 v m ⟨dir, i, 5, 0, conns⟩ := by
  refine Eq.trans (b := if v.bad i then runCl v1 v io ⟨dir, i, 5, 0, conns⟩ else match fileAt dir false i with
    | some b => runCl v1 v (ok b) ⟨dir, i, 5, 0, conns⟩ | none => runCl v1 v m ⟨dir, i, 5, 0, conns⟩) (by rw [runCl]; rfl) ?_
  unfold fileAt
  rcases dir[i]? with _ | ⟨_ | k, w⟩ <;> rfl

theorem run_readData (i : Nat) (ok : Bytes → Cl) (m io : Cl) (dir : BDir) (idx att req conns : Nat) :
    runCl v1 v (.read true (i : Int) ok m io) ⟨dir, idx, att, req, conns⟩ =
      match dir[i]? with
        | some (_, some b) => runCl v1 v (ok b) ⟨dir, idx, att, req, conns⟩
        | _ => runCl v1 v m ⟨dir, idx, att, req, conns⟩ := by
  refine Eq.trans (b := match fileAt dir true i with
    | some b => runCl v1 v (ok b) ⟨dir, idx, att, req, conns⟩ | none => runCl v1 v m ⟨dir, idx, att, req, conns⟩) (by rw [runCl]; rfl) ?_
  unfold fileAt
  rcases dir[i]? with _ | ⟨k, _ | w⟩ <;> rfl

theorem run_restore (d : BDir) : ∀ (N i : Nat) (s : ClSt), s.dir = d → (d.drop i).length < N →
    runCl v1 v (Nat.rec (fun _ => .stuck) (fun _ r i => restoreStep (fun k v K' => putKeyT k v K' fun _ => K') .ret i r) N (i : Int)) s =
      (restoreFrom v1 v.fate v.bad i (d.drop i)).map fun r => some ⟨d, s.conns - 1, [restoreV r]⟩ := by
  intro N
  induction N with
  | zero => intro i s hs h; omega
  | succ N ih =>
    intro i s hs h
    show runCl v1 v (restoreStep _ _ _ _) _ = _
    obtain ⟨dir, idx, att, req, conns⟩ := s
    change dir = d at hs
    subst hs
    rw [restoreStep, run_readKey]
    generalize hd : dir.drop i = rest at h
    by_cases hb : v.bad i = true
    · rw [if_pos (by simp [hb])]
      cases rest with
      | nil => rw [restoreFrom, if_pos hb]; rfl
      | cons x l => obtain ⟨k, w⟩ := x; rw [restoreFrom.eq_def]; dsimp only; rw [if_pos hb]; rfl
    · rw [if_neg hb]
      cases rest with
      | nil => rw [restoreFrom, if_neg hb, drop_nil hd]; rfl
      | cons x l =>
        obtain ⟨k, w⟩ := x
        obtain ⟨hd, hl⟩ := drop_cons hd
        rw [restoreFrom.eq_def]
        dsimp only
        rw [if_neg hb, hd]
        cases k with
        | none => rfl
        | some k =>
          dsimp only
          rw [run_readData, hd]
          cases w with
          | none => rfl
          | some w =>
            dsimp only
            have hn : ∀ a r, runCl v1 v (Nat.rec (fun _ => .stuck) (fun _ r i => restoreStep (fun k v K' => putKeyT k v K' fun _ => K') .ret i r) N ((i : Int) + 1))
                ⟨dir, i, a, r, conns⟩ = (restoreFrom v1 v.fate v.bad (i + 1) l).map fun r => some ⟨dir, conns - 1, [restoreV r]⟩ := by
              intro a r
              have := ih (i + 1) ⟨dir, i, a, r, conns⟩ rfl (by rw [hl]; simp only [List.length_cons] at h; omega)
              rw [hl] at this
              exact this
            refine (run_putKey v1 v k w rfl rfl (fun a r => hn a r) fun e a r => hn a r).trans ?_
            show _ = Prog.bind (Prog.bind _ _) _
            rw [bind_bind]
            congr 1; funext x
            cases x <;> rfl

/-- What a backup answers. -/
def backupV : Bool → V
  | true => .nil
  | false => clV .ioErr

theorem fileSet_append (data : Bool) (b : Option Bytes) (rest : BDir) : ∀ pre : BDir, fileSet data b pre.length (pre ++ rest) = pre ++ fileSet data b 0 rest := by
  intro pre
  induction pre with
  | nil => rfl
  | cons x pre ih =>
    show (x :: _) = _
    rw [show List.tail (x :: pre ++ rest) = pre ++ rest from rfl, ih]
    rfl

theorem run_writeKey (i : Nat) (x : Bytes) (ok io : Cl) (s : ClSt) :
    runCl v1 v (.write false (i : Int) x ok io) s =
      match (v.files i).1 with
      | .written => runCl v1 v ok { s with dir := fileSet false (some x) i s.dir }
      | .failed l => runCl v1 v io { s with dir := fileSet false l i s.dir } := by
  have h : writeFile v false (i : Int).toNat x s.dir = match (v.files i).1 with
    | .written => (true, fileSet false (some x) i s.dir) | .failed l => (false, fileSet false l i s.dir) := rfl
  rw [runCl, h]
  cases (v.files i).1 <;> rfl

theorem run_writeData (i : Nat) (x : Bytes) (ok io : Cl) (s : ClSt) :
    runCl v1 v (.write true (i : Int) x ok io) s =
      match (v.files i).2 with
      | .written => runCl v1 v ok { s with dir := fileSet true (some x) i s.dir }
      | .failed l => runCl v1 v io { s with dir := fileSet true l i s.dir } := by
  have h : writeFile v true (i : Int).toNat x s.dir = match (v.files i).2 with
    | .written => (true, fileSet true (some x) i s.dir) | .failed l => (false, fileSet true l i s.dir) := rfl
  rw [runCl, h]
  cases (v.files i).2 <;> rfl

theorem run_write : ∀ (l : List (Bytes × Bytes)) (pre rest : BDir) (s : ClSt), s.dir = pre ++ rest →
    runCl v1 v (writeT (.ret [.nil]) (.ret [clV .ioErr]) pre.length l) s =
      .ret (some ⟨pre ++ (writeFiles v.files pre.length l rest).2, s.conns, [backupV (writeFiles v.files pre.length l rest).1]⟩) := by
  intro l
  induction l with
  | nil => intro pre rest s hs; show Prog.ret (some (ClEnd.mk s.dir _ _)) = _; rw [hs]; rfl
  | cons x l ih =>
    intro pre rest s hs
    obtain ⟨k, w⟩ := x
    obtain ⟨dir, idx, att, req, conns⟩ := s
    change dir = pre ++ rest at hs
    subst hs
    rw [writeT, run_writeKey, writeFiles]
    rcases hf : v.files pre.length with ⟨fk, fw⟩
    dsimp only
    cases fk with
    | failed c => dsimp only; rw [fileSet_append]; rfl
    | written =>
      dsimp only
      rw [fileSet_append, run_writeData, hf]
      cases fw with
      | failed c => dsimp only; rw [fileSet_append]; rfl
      | written =>
        dsimp only
        rw [fileSet_append]
        have := ih (pre ++ [(some k, some w)]) rest.tail ⟨pre ++ (some k, some w) :: rest.tail, idx, att, req, conns⟩ (by simp)
        rw [show (pre ++ [(some k, some w)]).length = pre.length + 1 by simp] at this
        refine this.trans ?_
        simp

theorem run_backup (l : List (Bytes × Bytes)) (s : ClSt) :
    runCl v1 v (backupT .ret l) s = .ret (some ⟨if v.mkdir then (writeFiles v.files 0 l s.dir).2 else s.dir, s.conns - 1,
      [backupV (v.mkdir && (writeFiles v.files 0 l s.dir).1)]⟩) := by
  rw [backupT, runCl, runCl]
  cases hm : v.mkdir
  · rfl
  · exact run_write v1 v l [] s.dir _ rfl

end

section
variable (answer : History → RangeReq → Except CliErr (List KV)) (v : ClEnv)

theorem runEt_readKey (i : Nat) (ok : Bytes → Cl) (m io : Cl) (dir : BDir) (idx att req conns : Nat) (h : History) :
    runEt answer v (.read false (i : Int) ok m io) ⟨dir, idx, att, req, conns⟩ h =
      if v.bad i then runEt answer v io ⟨dir, i, 5, 0, conns⟩ h
      else match dir[i]? with
        | some (some b, _) => runEt answer v (ok b) ⟨dir, i, 5, 0, conns⟩ h
        | _ => runEt answer v m ⟨dir, i, 5, 0, conns⟩ h := by
  refine Eq.trans (b := if v.bad i then runEt answer v io ⟨dir, i, 5, 0, conns⟩ h else match fileAt dir false i with
    | some b => runEt answer v (ok b) ⟨dir, i, 5, 0, conns⟩ h | none => runEt answer v m ⟨dir, i, 5, 0, conns⟩ h) (by rw [runEt]; rfl) ?_
  unfold fileAt
  rcases dir[i]? with _ | ⟨_ | k, w⟩ <;> rfl

theorem runEt_readData (i : Nat) (ok : Bytes → Cl) (m io : Cl) (dir : BDir) (idx att req conns : Nat) (h : History) :
    runEt answer v (.read true (i : Int) ok m io) ⟨dir, idx, att, req, conns⟩ h =
      match dir[i]? with
        | some (_, some b) => runEt answer v (ok b) ⟨dir, idx, att, req, conns⟩ h
        | _ => runEt answer v m ⟨dir, idx, att, req, conns⟩ h := by
  refine Eq.trans (b := match fileAt dir true i with
    | some b => runEt answer v (ok b) ⟨dir, idx, att, req, conns⟩ h | none => runEt answer v m ⟨dir, idx, att, req, conns⟩ h) (by rw [runEt]; rfl) ?_
  unfold fileAt
  rcases dir[i]? with _ | ⟨k, _ | w⟩ <;> rfl

/-- Trees without requests run in the same way. -/
theorem runEt_write (h : History) : ∀ (l : List (Bytes × Bytes)) (i : Nat) (s : ClSt),
    ∃ e, runCl true v (writeT (.ret [.nil]) (.ret [clV .ioErr]) i l) s = .ret (some e) ∧
      runEt answer v (writeT (.ret [.nil]) (.ret [clV .ioErr]) i l) s h = some (e, h) := by
  intro l
  induction l with
  | nil => intro i s; exact ⟨_, rfl, rfl⟩
  | cons x l ih =>
    intro i s
    obtain ⟨k, w⟩ := x
    rw [writeT, runCl, runEt]
    rcases writeFile v false (i : Int).toNat k s.dir with ⟨b, d⟩
    cases b
    · exact ⟨_, rfl, rfl⟩
    · simp only [if_pos]
      rw [runCl, runEt]
      rcases writeFile v true (i : Int).toNat w d with ⟨b, d'⟩
      cases b
      · exact ⟨_, rfl, rfl⟩
      · exact ih (i + 1) _

theorem runEt_backup (h : History) (l : List (Bytes × Bytes)) (s : ClSt) :
    runEt answer v (backupT .ret l) s h = some (⟨if v.mkdir then (writeFiles v.files 0 l s.dir).2 else s.dir, s.conns - 1,
      [backupV (v.mkdir && (writeFiles v.files 0 l s.dir).1)]⟩, h) := by
  rw [backupT, runEt, runEt]
  cases hm : v.mkdir
  · rfl
  · obtain ⟨e, he, h'⟩ := runEt_write answer v h l 0 { s with conns := s.conns - 1 }
    have := run_write true v l [] s.dir { s with conns := s.conns - 1 } rfl
    refine h'.trans ?_
    have hx := he.symm.trans this
    injection hx with hx
    injection hx with hx
    rw [hx]
    rfl

theorem runEt_restore (d : BDir) : ∀ (N i : Nat) (s : ClSt) (h : History), s.dir = d → (d.drop i).length < N →
    runEt answer v (Nat.rec (fun _ => .stuck) (fun _ r i => restoreStep (fun k v K' => .put { key := k, value := v } K' fun _ => K') .ret i r) N (i : Int)) s h =
      let r := restoreEtcdFrom (fun i => v.fate i 5 0) v.bad i (d.drop i) h
      some (⟨d, s.conns - 1, [restoreV r.1]⟩, r.2) := by
  intro N
  induction N with
  | zero => intro i s h hs hl; omega
  | succ N ih =>
    intro i s h hs hl
    show runEt answer v (restoreStep _ _ _ _) _ _ = _
    obtain ⟨dir, idx, att, req, conns⟩ := s
    change dir = d at hs
    subst hs
    rw [restoreStep, runEt_readKey]
    generalize hd : dir.drop i = rest at hl
    by_cases hb : v.bad i = true
    · rw [if_pos (by simp [hb])]
      cases rest with
      | nil => rw [restoreEtcdFrom, if_pos hb]; rfl
      | cons x l => obtain ⟨k, w⟩ := x; rw [restoreEtcdFrom.eq_def]; dsimp only; rw [if_pos hb]; rfl
    · rw [if_neg hb]
      cases rest with
      | nil => rw [restoreEtcdFrom, if_neg hb, drop_nil hd]; rfl
      | cons x l =>
        obtain ⟨k, w⟩ := x
        obtain ⟨hd, hl'⟩ := drop_cons hd
        rw [restoreEtcdFrom.eq_def]
        dsimp only
        rw [if_neg hb, hd]
        cases k with
        | none => rfl
        | some k =>
          dsimp only
          rw [runEt_readData, hd]
          cases w with
          | none => rfl
          | some w =>
            dsimp only
            have hn : ∀ a r h, runEt answer v (Nat.rec (fun _ => .stuck) (fun _ r i => restoreStep (fun k v K' => .put { key := k, value := v } K' fun _ => K') .ret i r) N ((i : Int) + 1))
                ⟨dir, i, a, r, conns⟩ h = (let r := restoreEtcdFrom (fun i => v.fate i 5 0) v.bad (i + 1) l h
                  some (⟨dir, conns - 1, [restoreV r.1]⟩, r.2)) := by
              intro a r h
              have := ih (i + 1) ⟨dir, i, a, r, conns⟩ h rfl (by rw [hl']; simp only [List.length_cons] at hl; omega)
              rw [hl'] at this
              exact this
            rw [runEt]
            dsimp only
            cases hf : v.fate i 5 0 with
            | delivered => rw [if_neg (by decide)]; exact hn _ _ _
            | requestLost => rw [if_pos rfl]; exact hn _ _ _
            | answerLost => rw [if_neg (by decide)]; exact hn _ _ _

end

end Verif.Go
