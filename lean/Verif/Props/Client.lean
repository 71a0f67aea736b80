import Verif.Props.Reads
import Verif.Lemmas.Alone
import Verif.Lemmas.Prefix
import Verif.Lemmas.Stmts
import Verif.Spec.Backup
/-!
# The client library and the migrator (C50, C51, C70, C71)

`Prog.alone p w` is the result of call `p` on world `w` when no other call is interleaved and no fault
happens; it is one of the runs of the system (`alone_run`).
-/

namespace Verif

/-! ## Programs made of reads and of puts of given pairs -/

/-- Queries, and creates and updates of the pairs in `L` without lease. -/
def PutKind (L : List (Bytes × Bytes)) (e : DB → DB) : Prop :=
  e = id ∨ ∃ p ∈ L, (e = fun db => (createSQL db p.1 0 p.2).1) ∨
    ∃ rev, e = fun db => (updateSQL db p.1 0 p.2 rev).1

theorem PutKind.mono {L L' : List (Bytes × Bytes)} (h : ∀ p ∈ L, p ∈ L') {e : DB → DB} (he : PutKind L e) :
    PutKind L' e := by
  rcases he with h1 | ⟨p, h1, h2⟩
  · exact Or.inl h1
  · exact Or.inr ⟨p, h p h1, h2⟩

theorem PutKind.step {L : List (Bytes × Bytes)} (hL : ∀ p ∈ L, p.1 ≠ compactRevKey) {e : DB → DB}
    (he : PutKind L e) {w : World} (i : Inv w) (o : Outcome) :
    Ext w (w.exec e o) ∧ (w.exec e o = w ∨ ∃ p ∈ L,
      Effect w (w.exec e o) p.1 (w.hist.top + 1)
        (newState p.1 (w.hist.top + 1) (some (p.2, 0)) (w.hist.now p.1))) := by
  have cas : ∀ {st : DB → DB × ExecResult} {G : World → Prop} {p : Bytes × Bytes}, p ∈ L →
      CasStmt st G p.1 (some (p.2, 0)) → Ext w (w.exec (fun db => (st db).1) o) →
      (w.exec (fun db => (st db).1) o = w ∨ ∃ p ∈ L,
      Effect w (w.exec (fun db => (st db).1) o) p.1 (w.hist.top + 1)
        (newState p.1 (w.hist.top + 1) (some (p.2, 0)) (w.hist.now p.1))) := by
    intro st G p hp c hx
    by_cases hg : G w
    · obtain ⟨r, g, hc, e'⟩ := c.hit w i hg
      cases ho : o.applied with
      | false => left; exact not_applied_exec ho
      | true =>
        right
        refine ⟨p, hp, effect_of_commit hx.inv rfl ?_⟩
        rw [i.exec_insert (eff := fun db => (st db).1) (r := r) (by simp only [e']) ho, hc]
    · left
      exact i.exec_of_eq (by simp only [c.miss w i hg]) o
  rcases he with rfl | ⟨p, hp, rfl | ⟨rev, rfl⟩⟩
  · rw [i.exec_id]; exact ⟨Ext.refl i, Or.inl rfl⟩
  · have hx := i.ext_create p.1 0 p.2 o
    exact ⟨hx, cas hp (cas_create p.1 p.2 0) hx⟩
  · have hx := i.ext_update (hL p hp) 0 p.2 rev o
    exact ⟨hx, cas hp (cas_update (hL p hp) p.2 0 rev) hx⟩

theorem safe_of_puts {α : Type} {L : List (Bytes × Bytes)} (hL : ∀ p ∈ L, p.1 ≠ compactRevKey) {p : Prog α}
    (hp : AllStmts (PutKind L) p) {w : World} (_i : Inv w) : Safe p w := by
  induction p generalizing w with
  | ret a => trivial
  | stmt eff k ih =>
    intro w' hw' o
    obtain ⟨h1, _⟩ := PutKind.step hL hp.1 hw'.inv o
    exact ⟨h1, ih o w'.db (hp.2 o w'.db) h1.inv⟩

theorem all_rpc {α : Type} {E : (DB → DB) → Prop} (f : Fate) {p : Prog (Except ApiErr α)} (hp : AllStmts E p) :
    AllStmts E (rpc f p) := by
  cases f
  · exact all_map hp
  · trivial
  · exact all_map hp

theorem all_clientGet {E : (DB → DB) → Prop} (h : E id) (v1 : Bool) (f : Fate) (key : Bytes) :
    AllStmts E (Client.get v1 f key) := by
  apply all_andThen (all_rpc f (all_range h _ _))
  intro r
  split <;> trivial

theorem all_clientCreate {L : List (Bytes × Bytes)} {key value : Bytes} (hm : (key, value) ∈ L) (v1 : Bool)
    (f : Fate) : AllStmts (PutKind L) (Client.create v1 f key value) := by
  apply all_andThen (all_rpc f _)
  · intro r; split <;> trivial
  · show AllStmts _ (Limited.create _)
    unfold Limited.create
    simp only [Bool.false_eq_true, ↓reduceIte]
    refine all_andThen (all_write (Or.inr ⟨_, hm, Or.inl rfl⟩)) ?_
    intro a; split <;> trivial

theorem all_clientUpdate {L : List (Bytes × Bytes)} {key value : Bytes} (hm : (key, value) ∈ L) (v1 : Bool)
    (f : Fate) (rev : Int) : AllStmts (PutKind L) (Client.update v1 f key rev value) := by
  apply all_andThen (all_rpc f _)
  · intro r; split <;> trivial
  · show AllStmts _ (Limited.update v1 rev key value 0)
    unfold Limited.update
    apply all_andThen
    · split
      · exact all_write (Or.inr ⟨_, hm, Or.inl rfl⟩)
      · exact all_write (Or.inr ⟨_, hm, Or.inr ⟨rev, rfl⟩⟩)
    · intro a; simp only; split
      · trivial
      · exact all_elseRange (Or.inl rfl) _ _ _

theorem all_clientPut {L : List (Bytes × Bytes)} {key value : Bytes} (hm : (key, value) ∈ L) (v1 : Bool)
    (f : Nat → Fate) : AllStmts (PutKind L) (Client.put v1 f key value) := by
  apply all_andThen (all_clientGet (Or.inl rfl) _ _ _)
  intro r; split
  · exact all_clientCreate hm _ _
  · exact all_clientUpdate hm _ _ _

theorem all_putLoop {L : List (Bytes × Bytes)} {key value : Bytes} (hm : (key, value) ∈ L) (v1 : Bool)
    (f : Nat → Nat → Fate) (n : Nat) (err : CliErr) :
    AllStmts (PutKind L) (putLoop v1 f key value err n) := by
  induction n generalizing err with
  | zero => trivial
  | succ n ih =>
    apply all_bind (all_clientPut hm _ _)
    intro r
    split
    · trivial
    · exact ih _

theorem all_putKey {L : List (Bytes × Bytes)} {key value : Bytes} (hm : (key, value) ∈ L) (v1 : Bool)
    (f : Nat → Nat → Fate) : AllStmts (PutKind L) (putKey v1 f key value) := by
  apply all_bind (all_clientCreate hm _ _)
  intro r
  split
  · trivial
  · exact all_putLoop hm _ _ _ _
  · trivial

theorem all_restore (v1 : Bool) (f : Nat → Nat → Nat → Fate) (bad : Nat → Bool) (idx : Nat) (d : BDir) :
    AllStmts (PutKind (listedPairs d)) (restoreFrom v1 f bad idx d) := by
  induction d generalizing idx with
  | nil => trivial
  | cons e d ih =>
    obtain ⟨k, v⟩ := e
    unfold restoreFrom
    split
    · trivial
    · cases k with
      | none => trivial
      | some k =>
        cases v with
        | none => trivial
        | some v =>
          apply all_bind
          · exact all_putKey (by simp [listedPairs]) _ _
          · intro _
            exact all_mono (fun e h => h.mono (fun p hp => by simp [listedPairs, hp])) (ih _)

/-! ## C51 Put -/

theorem path_rpc_ok {α : Type} {f : Fate} {p : Prog (Except ApiErr α)} {t : List Obs} {a : α}
    (h : Path (rpc f p) t (.ok a)) : f = .delivered ∧ Path p t (.ok a) := by
  cases f
  · obtain ⟨b, h2, h1⟩ := path_map h
    cases b with
    | ok b => refine ⟨rfl, ?_⟩; simp only [Except.mapError, Except.ok.injEq] at h2; rw [h2]; exact h1
    | error e => simp [Except.mapError] at h2
  · obtain ⟨_, h⟩ := path_ret h; cases h
  · obtain ⟨b, h1, h2⟩ := path_map h
    cases h1

theorem put_facts {s s' : Sys} {v1 : Bool} {f : Nat → Fate} {key value : Bytes} {t : List Obs}
    {a : Except CliErr Unit} (hs : Reachable s) (hk : key ≠ compactRevKey)
    (hr : Run s (Client.put v1 f key value) t a s') :
    Path (Client.put v1 f key value) t a ∧ Facts s.world t s'.world ∧ SysInv s' :=
  run_facts hr hs.sysInv
    (safe_of_puts (L := [(key, value)]) (by simpa using hk) (all_clientPut (by simp) _ _) hs.inv)

/-- What a successful `Put` did, on the level of statements. -/
theorem put_outcome {w w' : World} {v1 : Bool} {f : Nat → Fate} {key value : Bytes} {t : List Obs}
    (hk : key ≠ compactRevKey) (fa : Facts w t w') (h : Path (Client.put v1 f key value) t (.ok ())) :
    ∃ rev, OneWrite t key rev (fun cur => cur ≠ none) (newState key rev (some (value, 0))) := by
  obtain ⟨t₁, t₂, val, rfl, h1, h2⟩ := path_andThen_ok h
  obtain ⟨t₃, t₄, resp, rfl, h3, h4⟩ := path_andThen_ok h1
  obtain ⟨_, h5⟩ := path_rpc_ok h3
  have f1 := fa.append_left.append_left
  have hcn := (range_spec f1 h5).1
  obtain ⟨_, q, _, _, _, hm⟩ := range_sound f1 h5
  split at h4
  · rename_i kv hkv
    obtain ⟨e1, e2⟩ := path_ret h4
    subst e1
    cases e2
    have hpos : 0 < kv.modRev := (at_some_inv fa.total.inv.wf (hm kv (by rw [hkv]; simp)).2).2.2.1
    split at h2
    · rename_i h0
      exact absurd (show kv.modRev = 0 from h0) (by omega)
    · obtain ⟨t₅, t₆, resp', rfl, h6, h7⟩ := path_andThen_ok h2
      obtain ⟨_, h8⟩ := path_rpc_ok h6
      split at h7
      · rename_i hok
        obtain ⟨e1, _⟩ := path_ret h7
        subst e1
        obtain ⟨o, _⟩ := update_outcome (rev := kv.modRev) hk (by omega) fa.append_right.append_left h8
        refine ⟨resp'.header, ?_⟩
        have := (o.success resp' rfl hok).imp (before' := fun cur => cur ≠ none)
          (fun x hx => by obtain ⟨old, rfl, _⟩ := hx; simp) (fun x _ => rfl)
        obtain ⟨a, ob, b, e, g1, g2⟩ := this
        refine ⟨t₃ ++ a, ob, b, by rw [e]; simp, ?_, g2⟩
        rw [List.append_assoc]
        exact hcn.append g1
      · obtain ⟨_, h7⟩ := path_ret h7; cases h7
  · obtain ⟨_, h4⟩ := path_ret h4; cases h4

/-- A `Put` that returns without error has made exactly one write: the key, which existed, now has the given
value (its lease is dropped); under every interleaving and every fault. -/
theorem C51_put_writes {s s' : Sys} {v1 : Bool} {f : Nat → Fate} {key value : Bytes} {t : List Obs}
    (hs : Reachable s) (hk : key ≠ compactRevKey) (hr : Run s (Client.put v1 f key value) t (.ok ()) s') :
    ∃ rev, OneWrite t key rev (fun cur => cur ≠ none) (fun cur => cur.map fun old =>
      { key := key, value := value, lease := 0, createRev := old.createRev, modRev := rev }) := by
  obtain ⟨hp, fa, _⟩ := put_facts hs hk hr
  obtain ⟨rev, h⟩ := put_outcome hk fa hp
  refine ⟨rev, h.imp (fun _ h => h) ?_⟩
  intro x hx
  cases x with
  | none => exact absurd rfl hx
  | some old => rfl

/-- `Put` on an existing key, running alone: it succeeds and the key has the new value. -/
theorem C51_put_existing_partial {s : Sys} (hs : Reachable s) (v1 : Bool) {key : Bytes}
    (hk : key ≠ compactRevKey) (value : Bytes) {old : KV} (h : s.world.hist.now key = some old) :
    ∃ w', (Client.put v1 (fun _ => .delivered) key value).alone s.world = (.ok (), w') ∧
      Effect s.world w' key (s.world.hist.top + 1)
        (some { key := key, value := value, lease := 0, createRev := old.createRev,
                modRev := s.world.hist.top + 1 }) := by
  obtain ⟨w', h1, h2, h3⟩ := alone_put_present hs.inv v1 hk value h
  refine ⟨w', h3, ?_⟩
  have := effect_of_commit (w := s.world) h1 rfl h2
  rw [h] at this
  exact this

/-- The full property is false: `Put` on a key that does not exist never writes; running alone it always fails
with "key not found" (`client.go:94-97` returns the error of `Get` before the create branch is reached). -/
theorem C51_put_absent_counterexample {s : Sys} (hs : Reachable s) (v1 : Bool) (key value : Bytes)
    (h : s.world.hist.now key = none) :
    (Client.put v1 (fun _ => .delivered) key value).alone s.world = (.error .notFound, s.world) := by
  have hg := alone_get hs.inv v1 key
  rw [h] at hg
  unfold Client.put
  exact alone_andThen_error hg

/-- Witness: `/a` exists in the demo system, `/c` does not. -/
example : ((Client.put true (fun _ => .delivered) Demo.ka [9]).alone Demo.world).1 = .ok () ∧
    ((Client.put true (fun _ => .delivered) Demo.kc [9]).alone Demo.world).1 = .error .notFound := by
  decide +kernel

/-! ## C50 Backup and restore -/

theorem listed_keys {d : BDir} {p : Bytes × Bytes} (h : p ∈ listedPairs d) : (some p.1, some p.2) ∈ d := by
  induction d with
  | nil => simp [listedPairs] at h
  | cons e d ih =>
    obtain ⟨k, v⟩ := e
    cases k with
    | none => simp [listedPairs] at h
    | some k =>
      cases v with
      | none => simp [listedPairs] at h
      | some v =>
        rcases List.mem_cons.1 (show p ∈ (k, v) :: listedPairs d from h) with rfl | h
        · simp
        · exact List.mem_cons_of_mem _ (ih h)

/-- What a successful loop of `os.WriteFile`s leaves: the pairs, and behind them whatever was there. -/
theorem writeFiles_ok {fs : Nat → FileFate × FileFate} {idx : Nat} {kvs : List (Bytes × Bytes)} {d d' : BDir}
    (h : writeFiles fs idx kvs d = (true, d')) :
    d' = kvs.map (fun p => (some p.1, some p.2)) ++ d.drop kvs.length := by
  induction kvs generalizing idx d d' with
  | nil => unfold writeFiles at h; simpa using (Prod.mk.inj h).2.symm
  | cons p kvs ih =>
    obtain ⟨k, v⟩ := p
    unfold writeFiles at h
    simp only at h
    split at h
    · simp at h
    · simp at h
    · cases hw : writeFiles fs (idx + 1) kvs d.tail with
      | mk ok rest =>
        rw [hw] at h
        simp only [Prod.mk.injEq] at h
        obtain ⟨rfl, rfl⟩ := h
        rw [ih hw]
        cases d <;> simp

/-- A backup that reports success, taken while other clients write: its first entries are exactly the live
keys below `/` with their values, in key order, as of one revision that was current during the backup; behind
them the directory is as before. (Provided no cursor breaks and compaction does not overtake the read.) -/
theorem C50_backup {s s' : Sys} {v1 : Bool} {f : Fate} {mk : Bool} {fs : Nat → FileFate × FileFate}
    {d d' : BDir} {t : List Obs} (hs : Reachable s)
    (hr : Run s (backupDqlite v1 f mk fs d) t (true, d') s') (hnt : NoTrunc t)
    (hc : s'.world.db.compactRev ≤ s.world.hist.top) :
    ∃ (q : Int) (kvs : List KV), s.world.hist.top ≤ q ∧ q ≤ s'.world.hist.top ∧
      kvs.Pairwise (fun a b => blt a.key b.key = true) ∧
      (∀ kv, kv ∈ kvs ↔ [0x2f] <+: kv.key ∧ s'.world.hist.at q kv.key = some kv) ∧
      d' = kvs.map (fun kv => (some kv.key, some kv.value)) ++ d.drop kvs.length := by
  have hall : AllStmts (PutKind []) (backupDqlite v1 f mk fs d) :=
    all_map (all_andThen (all_rpc f (all_range (Or.inl rfl) _ _)) fun _ => trivial)
  obtain ⟨hp, fa, i'⟩ := run_facts hr hs.sysInv (safe_of_puts (L := []) (by simp) hall hs.inv)
  obtain ⟨r, h1, h2⟩ := path_map hp
  cases r with
  | error e => cases h1
  | ok vals =>
    simp only at h1
    split at h1
    case isFalse => cases h1
    obtain ⟨t₁, t₂, resp, rfl, h3, h4⟩ := path_andThen_ok h2
    obtain ⟨e1, e2⟩ := path_ret h4
    subst e1
    cases e2
    obtain ⟨_, h5⟩ := path_rpc_ok h3
    rw [List.append_nil] at *
    obtain ⟨_, _, hle, q, hq, _, _, hqle, _, hfull⟩ := range_spec fa h5
    have hq := hq rfl
    obtain ⟨full, ha, _, _, hk⟩ := hfull hnt (by omega)
    have hpe : prefixEnd [0x2f] = [0x30] := by decide
    have hk := (hk (by rw [hpe]; simp) rfl).1
    have hk : resp.kvs = full := hk
    refine ⟨q, full, hq, by omega, ha.1, ?_, ?_⟩
    · intro kv
      rw [ha.2 kv, prefixEnd_range ⟨0x2f, by simp, by decide⟩]
    · rw [writeFiles_ok h1.symm, hk]
      simp [CliValue.ofKV]

/-- Whatever happens, a successful backup records nothing wrong: every recorded pair was the state of its key
at one and the same revision that was current during the backup. -/
theorem C50_backup_sound {s s' : Sys} {v1 : Bool} {f : Fate} {mk : Bool} {fs : Nat → FileFate × FileFate}
    {d d' : BDir} {t : List Obs} (hs : Reachable s)
    (hr : Run s (backupDqlite v1 f mk fs d) t (true, d') s') :
    ∃ (q : Int) (kvs : List KV), s.world.hist.top ≤ q ∧ q ≤ s'.world.hist.top ∧
      (∀ kv ∈ kvs, [0x2f] <+: kv.key ∧ s'.world.hist.at q kv.key = some kv) ∧
      d' = kvs.map (fun kv => (some kv.key, some kv.value)) ++ d.drop kvs.length := by
  have hall : AllStmts (PutKind []) (backupDqlite v1 f mk fs d) :=
    all_map (all_andThen (all_rpc f (all_range (Or.inl rfl) _ _)) fun _ => trivial)
  obtain ⟨hp, fa, i'⟩ := run_facts hr hs.sysInv (safe_of_puts (L := []) (by simp) hall hs.inv)
  obtain ⟨r, h1, h2⟩ := path_map hp
  cases r with
  | error e => cases h1
  | ok vals =>
    simp only at h1
    split at h1
    case isFalse => cases h1
    obtain ⟨t₁, t₂, resp, rfl, h3, h4⟩ := path_andThen_ok h2
    obtain ⟨e1, e2⟩ := path_ret h4
    subst e1
    cases e2
    obtain ⟨_, h5⟩ := path_rpc_ok h3
    rw [List.append_nil] at *
    obtain ⟨_, _, hle, _⟩ := range_spec fa h5
    obtain ⟨_, q, hq, _, hqle, hm⟩ := range_sound fa h5
    refine ⟨q, resp.kvs, hq rfl, by omega, ?_, ?_⟩
    · intro kv hkv
      obtain ⟨a, b⟩ := hm kv hkv
      exact ⟨(prefixEnd_range ⟨0x2f, by simp, by decide⟩ _).1 a, b⟩
    · rw [writeFiles_ok h1.symm]
      simp [CliValue.ofKV]

/-- A backup changes nothing in the store. -/
theorem C50_backup_reads_only {s s' : Sys} {v1 : Bool} {f : Fate} {mk : Bool}
    {fs : Nat → FileFate × FileFate} {d : BDir} {r : Bool × BDir} {t : List Obs} (hs : Reachable s)
    (hr : Run s (backupDqlite v1 f mk fs d) t r s') : ChangesNothing t := by
  have hall : AllStmts (PutKind []) (backupDqlite v1 f mk fs d) :=
    all_map (all_andThen (all_rpc f (all_range (Or.inl rfl) _ _)) fun _ => trivial)
  obtain ⟨hp, fa, i'⟩ := run_facts hr hs.sysInv (safe_of_puts (L := []) (by simp) hall hs.inv)
  intro ob hob
  obtain ⟨e, he, h⟩ := path_allStmts hp hall ob hob
  rcases (he.step (by simp) (fa.inv hob) ob.out).2 with h' | ⟨p, hp, _⟩
  · rw [h, h']
  · simp at hp

/-- Under every interleaving, every fault and for every directory, a restore touches only the listed keys:
each of its statements changes nothing or makes one write that gives a listed key its listed value. -/
theorem C50_restore_touches_only_listed {s s' : Sys} {v1 : Bool} {f : Nat → Nat → Nat → Fate}
    {bad : Nat → Bool} {d : BDir} {t : List Obs} {r : RestoreRes} (hs : Reachable s)
    (hk : ∀ v, (compactRevKey, v) ∉ listedPairs d) (hr : Run s (restoreToDqlite v1 f bad d) t r s') :
    ∀ ob ∈ t, ob.post = ob.pre ∨ ∃ p ∈ listedPairs d, ∃ rev kv,
      Effect ob.pre ob.post p.1 rev (some kv) ∧ kv.value = p.2 ∧ kv.lease = 0 := by
  have hL : ∀ p ∈ listedPairs d, p.1 ≠ compactRevKey := by
    intro p hp e; exact hk p.2 (by rw [← e]; exact hp)
  have hall := all_restore v1 f bad 0 d
  obtain ⟨hp, fa, i'⟩ := run_facts hr hs.sysInv (safe_of_puts hL hall hs.inv)
  intro ob hob
  obtain ⟨e, he, h⟩ := path_allStmts hp hall ob hob
  rcases (he.step hL (fa.inv hob) ob.out).2 with h' | ⟨p, hp, h'⟩
  · left; rw [h, h']
  · right; rw [← h] at h'; exact ⟨p, hp, _, _, h', rfl, rfl⟩

/-- A restore that reports success has read a whole backup: every listed key file had its data file, and no file was
unreadable. An incomplete backup is never taken for a complete one. (What it does not say: that the writes succeeded,
see `C50_failed_restore_reports_success_counterexample`.) -/
theorem C50_incomplete_backup_reported {s s' : Sys} {v1 : Bool} {f : Nat → Nat → Nat → Fate}
    {bad : Nat → Bool} {d : BDir} {t : List Obs} (hs : Reachable s)
    (hk : ∀ v, (compactRevKey, v) ∉ listedPairs d) (hr : Run s (restoreToDqlite v1 f bad d) t .completed s') :
    wholeDir d ∧ ∀ i, i ≤ (listedPairs d).length → bad i = false := by
  have hL : ∀ p ∈ listedPairs d, p.1 ≠ compactRevKey := by
    intro p hp e; exact hk p.2 (by rw [← e]; exact hp)
  obtain ⟨hp, _, _⟩ := run_facts hr hs.sysInv (safe_of_puts hL (all_restore v1 f bad 0 d) hs.inv)
  have key : ∀ (d : BDir) (idx : Nat) (t : List Obs), Path (restoreFrom v1 f bad idx d) t .completed →
      wholeDir d ∧ ∀ i, i ≤ (listedPairs d).length → bad (idx + i) = false := by
    intro d
    induction d with
    | nil =>
      intro idx t h
      obtain ⟨_, h⟩ := path_ret h
      cases hb : bad idx with
      | true => rw [hb] at h; cases h
      | false =>
        refine ⟨trivial, fun i hi => ?_⟩
        have : i = 0 := by simpa [listedPairs] using hi
        subst this; exact hb
    | cons e d ih =>
      intro idx t h
      obtain ⟨k, v⟩ := e
      unfold restoreFrom at h
      cases hb : bad idx with
      | true =>
        rw [hb, if_pos rfl] at h
        obtain ⟨_, h⟩ := path_ret h
        cases h
      | false =>
        rw [hb] at h
        simp only [Bool.false_eq_true, if_false] at h
        cases k with
        | none =>
          refine ⟨trivial, fun i hi => ?_⟩
          have : i = 0 := by simpa [listedPairs] using hi
          subst this; exact hb
        | some k =>
          cases v with
          | none => obtain ⟨_, h⟩ := path_ret h; cases h
          | some v =>
            obtain ⟨_, _, _, _, _, h⟩ := path_bind h
            obtain ⟨h1, h2⟩ := ih _ _ h
            refine ⟨h1, fun i hi => ?_⟩
            cases i with
            | zero => exact hb
            | succ i =>
              have := h2 i (by simpa [listedPairs] using hi)
              rwa [Nat.add_assoc, Nat.add_comm 1 i] at this
  obtain ⟨h1, h2⟩ := key d 0 t hp
  exact ⟨h1, fun i hi => by simpa using h2 i hi⟩

/-- The same for a restore into etcd. -/
theorem C50_incomplete_backup_reported_etcd (f : Nat → Fate) (bad : Nat → Bool) (d : BDir) (h : History)
    (hr : (restoreEtcdFrom f bad 0 d h).1 = .completed) :
    wholeDir d ∧ ∀ i, i ≤ (listedPairs d).length → bad i = false := by
  have key : ∀ (d : BDir) (idx : Nat) (h : History), (restoreEtcdFrom f bad idx d h).1 = .completed →
      wholeDir d ∧ ∀ i, i ≤ (listedPairs d).length → bad (idx + i) = false := by
    intro d
    induction d with
    | nil =>
      intro idx h hr
      unfold restoreEtcdFrom at hr
      cases hb : bad idx with
      | true => rw [hb] at hr; cases hr
      | false =>
        refine ⟨trivial, fun i hi => ?_⟩
        have : i = 0 := by simpa [listedPairs] using hi
        subst this; exact hb
    | cons e d ih =>
      intro idx h hr
      obtain ⟨k, v⟩ := e
      unfold restoreEtcdFrom at hr
      cases hb : bad idx with
      | true => rw [hb, if_pos rfl] at hr; cases hr
      | false =>
        rw [hb] at hr
        simp only [Bool.false_eq_true, if_false] at hr
        cases k with
        | none =>
          refine ⟨trivial, fun i hi => ?_⟩
          have : i = 0 := by simpa [listedPairs] using hi
          subst this; exact hb
        | some k =>
          cases v with
          | none => cases hr
          | some v =>
            obtain ⟨h1, h2⟩ := ih _ _ hr
            refine ⟨h1, fun i hi => ?_⟩
            cases i with
            | zero => exact hb
            | succ i =>
              have := h2 i (by simpa [listedPairs] using hi)
              rwa [Nat.add_assoc, Nat.add_comm 1 i] at this
  obtain ⟨h1, h2⟩ := key d 0 h hr
  exact ⟨h1, fun i hi => by simpa using h2 i hi⟩

/-- Both outcomes occur: a directory with two whole entries is restored, and one without the second data file is not. -/
example :
    ((restoreToDqlite true (fun _ _ _ => .delivered) (fun _ => false) [(some [0x2f], some [1]), (some [0x30], some [2])]).alone
      World.init).1 = .completed ∧
    ((restoreToDqlite true (fun _ _ _ => .delivered) (fun _ => false) [(some [0x2f], some [1]), (some [0x30], none)]).alone
      World.init).1 = .dataUnreadable := by decide +kernel

theorem alone_restore {w : World} (i : Inv w) (v1 : Bool) (idx : Nat) {d : BDir} (hw : wholeDir d)
    (hk : ∀ p ∈ listedPairs d, p.1 ≠ compactRevKey) :
    ∃ w', Inv w' ∧ (restoreFrom v1 (fun _ _ _ => .delivered) (fun _ => false) idx d).alone w
        = (.completed, w') ∧
      (∀ k, (∀ v, (k, v) ∉ listedPairs d) → w'.hist.now k = w.hist.now k) ∧
      (∀ k, (w'.hist.now k).map (·.value)
        = lastValue (listedPairs d) ((w.hist.now k).map (·.value)) k) := by
  induction d generalizing w idx with
  | nil => exact ⟨w, i, rfl, fun _ _ => rfl, fun _ => rfl⟩
  | cons e d ih =>
    obtain ⟨k, v⟩ := e
    cases k with
    | none => exact ⟨w, i, rfl, fun _ _ => rfl, fun _ => rfl⟩
    | some k =>
      cases v with
      | none => exact hw.elim
      | some v =>
        have hk' : ∀ p ∈ (k, v) :: listedPairs d, p.1 ≠ compactRevKey := hk
        obtain ⟨w₁, i₁, e₁, h₁⟩ := alone_putKey i v1 (hk' (k, v) (by simp)) v
        obtain ⟨w', i', h2, h3, h4⟩ := ih i₁ (idx + 1) hw (fun p hp => hk' p (by simp [hp]))
        refine ⟨w', i', ?_, ?_, ?_⟩
        · unfold restoreFrom
          simp only [Bool.false_eq_true, ↓reduceIte]
          rw [alone_bind, h₁]
          exact h2
        · intro k' hn
          have hn' : ∀ u, (k', u) ∉ (k, v) :: listedPairs d := hn
          rw [h3 k' (fun u hu => hn' u (by simp [hu])), e₁, now_snoc, if_neg]
          rintro rfl
          exact hn' v (by simp)
        · intro k'
          rw [h4 k']
          show _ = lastValue ((k, v) :: listedPairs d) _ _
          unfold lastValue
          rw [List.foldl_cons, e₁, now_snoc]
          by_cases hkk : k = k'
          · subst hkk; simp [Commit.applyTo]
          · simp [hkk]

/-- Restoring alone and without faults, into any reachable store, from any directory whose listed key files
have data files: afterwards every listed key has its (last) listed value, and every other key is as before. -/
theorem C50_restore {s : Sys} (hs : Reachable s) (v1 : Bool) {d : BDir} (hw : wholeDir d)
    (hk : ∀ v, (compactRevKey, v) ∉ listedPairs d) :
    ∃ w', (restoreToDqlite v1 (fun _ _ _ => .delivered) (fun _ => false) d).alone s.world
        = (.completed, w') ∧
      (∀ k, (∀ v, (k, v) ∉ listedPairs d) → w'.hist.now k = s.world.hist.now k) ∧
      (∀ k, (w'.hist.now k).map (·.value)
        = lastValue (listedPairs d) ((s.world.hist.now k).map (·.value)) k) := by
  obtain ⟨w', _, h1, h2, h3⟩ := alone_restore hs.inv v1 0 hw
    (fun p hp e => hk p.2 (by rw [← e]; exact hp))
  exact ⟨w', h1, h2, h3⟩

theorem listed_map (l : List (Bytes × Bytes)) :
    listedPairs (l.map fun p => (some p.1, some p.2)) = l ∧
    wholeDir (l.map fun p => (some p.1, some p.2)) := by
  induction l with
  | nil => exact ⟨rfl, trivial⟩
  | cons p l ih => exact ⟨by simp [listedPairs, ih.1], ih.2⟩

theorem lastValue_of_mem {l : List (Bytes × Bytes)} {k v : Bytes} {old : Option Bytes}
    (hd : l.Pairwise fun a b => a.1 ≠ b.1) (h : (k, v) ∈ l) : lastValue l old k = some v := by
  unfold lastValue
  induction l generalizing old with
  | nil => simp at h
  | cons p l ih =>
    rw [List.pairwise_cons] at hd
    rw [List.foldl_cons]
    rcases List.mem_cons.1 h with rfl | h
    · simp only [↓reduceIte]
      have : ∀ (l : List (Bytes × Bytes)) (c : Option Bytes), (∀ b ∈ l, k ≠ b.1) →
          l.foldl (fun cur p => if p.1 = k then some p.2 else cur) c = c := by
        intro l
        induction l with
        | nil => intros; rfl
        | cons q l ih =>
          intro c hq
          rw [List.foldl_cons, if_neg (fun e => hq q (by simp) e.symm)]
          exact ih c fun b hb => hq b (by simp [hb])
      exact this l _ hd.1
    · exact ih hd.2 h

/-- Round trip: back up one store into an empty directory and restore that into another store, each alone and
without faults. Both report success; every key below `/` of the source has the source's value in the target,
and every other key of the target is as before. -/
theorem C50_roundtrip {src tgt : Sys} (hs : Reachable src) (ht : Reachable tgt) (v1 v1' : Bool) :
    ∃ d w', (backupDqlite v1 .delivered true (fun _ => (.written, .written)) []).alone src.world = ((true, d), src.world) ∧
      (restoreToDqlite v1' (fun _ _ _ => .delivered) (fun _ => false) d).alone tgt.world
        = (.completed, w') ∧
      ∀ k, match (if [0x2f] <+: k then src.world.hist.now k else none) with
        | some kv => (w'.hist.now k).map (·.value) = some kv.value
        | none => w'.hist.now k = tgt.world.hist.now k := by
  have i := hs.inv
  obtain ⟨kvs, h1, h2⟩ := alone_clientList i v1 [0x2f] (by decide)
  have hmem : ∀ kv, kv ∈ kvs ↔ [0x2f] <+: kv.key ∧ src.world.hist.now kv.key = some kv := by
    intro kv
    rw [h2.2 kv, prefixEnd_range ⟨0x2f, by simp, by decide⟩, at_ge_top i.wf (Int.le_refl _)]
  have hwf : ∀ (l : List (Bytes × Bytes)) (idx : Nat), writeFiles (fun _ => (.written, .written)) idx l []
      = (true, l.map fun p => (some p.1, some p.2)) := by
    intro l
    induction l with
    | nil => intro _; rfl
    | cons p l ih => intro idx; unfold writeFiles; simp only [List.tail_nil]; rw [ih]; rfl
  have hback : (backupDqlite v1 .delivered true (fun _ => (.written, .written)) []).alone src.world
      = ((true, (kvs.map fun kv => (kv.key, kv.value)).map fun p => (some p.1, some p.2)), src.world) := by
    unfold backupDqlite
    rw [alone_map, h1]
    simp only [↓reduceIte]
    rw [← hwf (kvs.map fun kv => (kv.key, kv.value)) 0]
    simp [CliValue.ofKV, Function.comp_def]
  have hpre : ∀ kv ∈ kvs, kv.key ≠ compactRevKey := by
    intro kv hkv e
    have := ((hmem kv).1 hkv).1
    rw [e] at this
    revert this; decide
  obtain ⟨hl1, hl2⟩ := listed_map (kvs.map fun kv => (kv.key, kv.value))
  obtain ⟨w', h3, h4, h5⟩ := C50_restore ht v1' hl2 (by
    intro v hv
    rw [hl1] at hv
    obtain ⟨kv, hkv, e⟩ := List.mem_map.1 hv
    exact hpre kv hkv (congrArg Prod.fst e))
  refine ⟨_, w', hback, h3, ?_⟩
  intro k
  have hnone : (∀ kv ∈ kvs, kv.key ≠ k) → w'.hist.now k = tgt.world.hist.now k := by
    intro hn
    apply h4
    intro v hv
    rw [hl1] at hv
    obtain ⟨kv, hkv, e⟩ := List.mem_map.1 hv
    exact hn kv hkv (congrArg Prod.fst e)
  by_cases hp : [0x2f] <+: k
  · rw [if_pos hp]
    cases hn : src.world.hist.now k with
    | none =>
      simp only
      apply hnone
      intro kv hkv e
      have := ((hmem kv).1 hkv).2
      rw [e, hn] at this
      cases this
    | some kv =>
      simp only
      have hkey := (now_pos i.wf hn).1
      rw [h5 k, hl1]
      apply lastValue_of_mem
      · rw [List.pairwise_map]
        refine List.Pairwise.imp ?_ h2.1
        intro a b hab e
        simp only at e
        rw [e, blt_irrefl] at hab
        cases hab
      · refine List.mem_map.2 ⟨kv, (hmem kv).2 ⟨by rw [hkey]; exact hp, by rw [hkey]; exact hn⟩, by rw [hkey]⟩
  · rw [if_neg hp]
    simp only
    apply hnone
    intro kv hkv e
    exact hp (by rw [← e]; exact ((hmem kv).1 hkv).1)

/-- Witness for the round trip: from the demo system (keys `/a`, `/b` and the health record) into a store that
has `/b` and `/c` with other values. -/
example :
    let tgt := runCalls [(.txn true (createTxn Demo.kb [8] 0), oks 1), (.txn true (createTxn Demo.kc [9] 0), oks 1)]
      World.init
    let d := ((backupDqlite true .delivered true (fun _ => (.written, .written)) []).alone Demo.world).1.2
    let w' := ((restoreToDqlite true (fun _ _ _ => .delivered) (fun _ => false) d).alone tgt).2
    d.length = 3 ∧ (w'.hist.now Demo.ka).map (·.value) = some [3] ∧
    (w'.hist.now Demo.kb).map (·.value) = some [2] ∧ (w'.hist.now Demo.kc).map (·.value) = some [9] := by
  decide +kernel

/-- `putKey` returns no error only if it has written the pair: at some instant of the call one write gave the
key the value, under every interleaving and every fault. -/
theorem C50_putKey_writes {s s' : Sys} {v1 : Bool} {f : Nat → Nat → Fate} {key value : Bytes} {t : List Obs}
    (hs : Reachable s) (hk : key ≠ compactRevKey) (hr : Run s (putKey v1 f key value) t (.ok ()) s') :
    ∃ ob ∈ t, ∃ rev kv, Effect ob.pre ob.post key rev (some kv) ∧ kv.value = value ∧ kv.lease = 0 := by
  have hall := all_putKey (L := [(key, value)]) (key := key) (value := value) (by simp) v1 f
  obtain ⟨hp, fa, _⟩ := run_facts hr hs.sysInv (safe_of_puts (by simpa using hk) hall hs.inv)
  have hput : ∀ (f : Nat → Fate) (u : List Obs) (w w' : World), Facts w u w' →
      Path (Client.put v1 f key value) u (.ok ()) →
      ∃ ob ∈ u, ∃ rev kv, Effect ob.pre ob.post key rev (some kv) ∧ kv.value = value ∧ kv.lease = 0 := by
    intro f u w w' fu hpu
    obtain ⟨rev, a, ob, b, e, _, _, h3⟩ := put_outcome hk fu hpu
    exact ⟨ob, by rw [e]; simp, rev, _, h3, rfl, rfl⟩
  have hloop : ∀ (n : Nat) (err : CliErr) (u : List Obs) (w w' : World), Facts w u w' →
      Path (putLoop v1 f key value err n) u (.ok ()) →
      ∃ ob ∈ u, ∃ rev kv, Effect ob.pre ob.post key rev (some kv) ∧ kv.value = value ∧ kv.lease = 0 := by
    intro n
    induction n with
    | zero => intro err u w w' fu hpu; obtain ⟨_, h⟩ := path_ret hpu; cases h
    | succ n ih =>
      intro err u w w' fu hpu
      obtain ⟨t₁, t₂, r, rfl, h1, h2⟩ := path_bind hpu
      cases r with
      | ok a =>
        obtain ⟨ob, hob, h⟩ := hput _ _ _ _ fu.append_left h1
        exact ⟨ob, by simp [hob], h⟩
      | error e =>
        obtain ⟨ob, hob, h⟩ := ih _ _ _ _ fu.append_right h2
        exact ⟨ob, by simp [hob], h⟩
  obtain ⟨t₁, t₂, r, rfl, h1, h2⟩ := path_bind hp
  match r, h1, h2 with
  | .ok (), h1, h2 =>
    obtain ⟨t₃, t₄, resp, rfl, h3, h4⟩ := path_andThen_ok h1
    split at h4
    · rename_i hok
      obtain ⟨_, h5⟩ := path_rpc_ok h3
      have f1 := fa.append_left.append_left
      obtain ⟨t₅, t₆, ⟨rev, b⟩, rfl, h6, h7⟩ := path_andThen_ok (h5 : Path (Prog.andThen _ _) _ _)
      cases b with
      | false => obtain ⟨_, h7⟩ := path_ret h7; rw [Except.ok.inj h7] at hok; cases hok
      | true =>
        obtain ⟨ob, hob, _, g2, g3⟩ := path_write_rev (cas_create key value 0) f1.append_left h6
        have hm : ob ∈ t₅ ++ t₆ := by simp [hob]
        exact ⟨ob, by simp [hob], rev, _, effect_of_commit (f1.step ob hm).inv g2 g3, rfl, rfl⟩
    · obtain ⟨_, h4⟩ := path_ret h4; cases h4
  | .error .keyExists, h1, h2 =>
    obtain ⟨ob, hob, h⟩ := hloop _ _ _ _ _ fa.append_right h2
    exact ⟨ob, by simp [hob], h⟩
  | .error .notFound, h1, h2 => obtain ⟨_, h⟩ := path_ret h2; cases h
  | .error (.mismatch _), h1, h2 => obtain ⟨_, h⟩ := path_ret h2; cases h
  | .error (.server _), h1, h2 => obtain ⟨_, h⟩ := path_ret h2; cases h
  | .error .transport, h1, h2 => obtain ⟨_, h⟩ := path_ret h2; cases h

/-- A restore in which every request is lost still reports success, for every directory and store
(`migrator.go:81-83` logs the error of `putKey` and goes on). -/
theorem C50_failed_restore_reports_success_counterexample (w : World) (v1 : Bool) {d : BDir} (hw : wholeDir d) :
    (restoreToDqlite v1 (fun _ _ _ => .requestLost) (fun _ => false) d).alone w = (.completed, w) := by
  have : ∀ (d : BDir) (idx : Nat), wholeDir d →
      (restoreFrom v1 (fun _ _ _ => .requestLost) (fun _ => false) idx d).alone w = (.completed, w) := by
    intro d
    induction d with
    | nil => intros; rfl
    | cons e d ih =>
      intro idx h
      obtain ⟨k, v⟩ := e
      cases k with
      | none => rfl
      | some k =>
        cases v with
        | none => exact h.elim
        | some v =>
          unfold restoreFrom
          simp only [Bool.false_eq_true, ↓reduceIte]
          rw [alone_bind]
          exact ih (idx + 1) h
  exact this d 0 hw

/-- Backing up into a directory that holds an older, larger backup: the stale files stay and are restored
too, so the target gets a key that the source does not have. -/
theorem C50_stale_files_counterexample :
    ∃ src tgt : Sys, Reachable src ∧ Reachable tgt ∧ ∃ d₀ d w',
      (backupDqlite true .delivered true (fun _ => (.written, .written)) d₀).alone src.world
        = ((true, d), src.world) ∧
      (restoreToDqlite true (fun _ _ _ => .delivered) (fun _ => false) d).alone tgt.world = (.completed, w') ∧
      ∃ k, src.world.hist.now k = none ∧ tgt.world.hist.now k = none ∧ w'.hist.now k ≠ none := by
  refine ⟨Demo.sys, Sys.init, Demo.reachable, .refl _, List.replicate 4 (some Demo.kc, some [5]),
    [(some Demo.ka, some [3]), (some Demo.kb, some [2]), (some healthKey, some healthValue),
      (some Demo.kc, some [5])], ?_⟩
  refine ⟨((restoreToDqlite true (fun _ _ _ => .delivered) (fun _ => false)
    [(some Demo.ka, some [3]), (some Demo.kb, some [2]), (some healthKey, some healthValue),
      (some Demo.kc, some [5])]).alone World.init).2, ?_, ?_, Demo.kc, ?_⟩
  · decide +kernel
  · apply Prod.ext
    · decide +kernel
    · rfl
  · decide +kernel

/-- Keys that do not start with `/` are not backed up, and leases are dropped. -/
theorem C50_other_keys_and_leases_counterexample :
    ∃ src : Sys, Reachable src ∧ ∃ d w',
      (backupDqlite true .delivered true (fun _ => (.written, .written)) []).alone src.world
        = ((true, d), src.world) ∧
      (restoreToDqlite true (fun _ _ _ => .delivered) (fun _ => false) d).alone World.init = (.completed, w') ∧
      (∃ k, src.world.hist.now k ≠ none ∧ w'.hist.now k = none) ∧
      (∃ k, (src.world.hist.now k).map (·.lease) = some 30 ∧ (w'.hist.now k).map (·.lease) = some 0) := by
  refine ⟨⟨runCalls [(.txn true (createTxn [0x61] [1] 0), oks 1), (.txn true (createTxn Demo.kb [2] 30), oks 1)]
      World.init, []⟩, runCalls_reachable _ (by decide +kernel), [(some Demo.kb, some [2])],
    ((restoreToDqlite true (fun _ _ _ => .delivered) (fun _ => false)
      [(some Demo.kb, some [2])]).alone World.init).2, ?_, ?_, ⟨[0x61], ?_⟩, ⟨Demo.kb, ?_⟩⟩
  · decide +kernel
  · apply Prod.ext
    · decide +kernel
    · rfl
  · decide +kernel
  · decide +kernel

/-- Restoring to etcd with every request delivered: every listed key has its (last) listed value, every other
key is as before. -/
theorem C50_restore_etcd {d : BDir} (hw : wholeDir d) (h : History) :
    ∃ h', restoreEtcdFrom (fun _ => .delivered) (fun _ => false) 0 d h = (.completed, h') ∧
      (∀ k, (∀ v, (k, v) ∉ listedPairs d) → h'.now k = h.now k) ∧
      (∀ k, (h'.now k).map (·.value) = lastValue (listedPairs d) ((h.now k).map (·.value)) k) := by
  suffices ∀ (idx : Nat), ∃ h', restoreEtcdFrom (fun _ => .delivered) (fun _ => false) idx d h = (.completed, h') ∧
      (∀ k, (∀ v, (k, v) ∉ listedPairs d) → h'.now k = h.now k) ∧
      (∀ k, (h'.now k).map (·.value) = lastValue (listedPairs d) ((h.now k).map (·.value)) k) from this 0
  induction d generalizing h with
  | nil => exact fun idx => ⟨h, rfl, fun _ _ => rfl, fun _ => rfl⟩
  | cons e d ih =>
    intro idx
    obtain ⟨k, v⟩ := e
    cases k with
    | none => exact ⟨h, rfl, fun _ _ => rfl, fun _ => rfl⟩
    | some k =>
      cases v with
      | none => exact hw.elim
      | some v =>
        obtain ⟨h', h2, h3, h4⟩ := ih hw (h ++ [⟨h.top + 1, k, some (v, 0)⟩]) (idx + 1)
        refine ⟨h', h2, ?_, ?_⟩
        · intro k' hn
          have hn' : ∀ u, (k', u) ∉ (k, v) :: listedPairs d := hn
          rw [h3 k' (fun u hu => hn' u (by simp [hu])), now_snoc, if_neg]
          rintro rfl
          exact hn' v (by simp)
        · intro k'
          rw [h4 k']
          show _ = lastValue ((k, v) :: listedPairs d) _ _
          unfold lastValue
          rw [List.foldl_cons, now_snoc]
          by_cases hkk : k = k'
          · subst hkk; simp [Commit.applyTo]
          · simp [hkk]

/-! ## C70 Listing by prefix -/

theorem prefixEnd_ne (key : Bytes) : prefixEnd key ≠ [] := by
  unfold prefixEnd
  split
  · rename_i r hr
    intro e
    have : r = [] := by simpa using e
    subst this
    have : ∀ l, prefixEndRev l ≠ some [] := by
      intro l
      induction l with
      | nil => simp [prefixEndRev]
      | cons b bs ih => unfold prefixEndRev; split
                        · simp
                        · exact ih
    exact this _ hr
  · simp

/-- The client's `List` at the latest revision returns exactly the live keys that start with the prefix, with
their values and mod revisions, in key order, as of one revision current during the call; provided no cursor
breaks and compaction does not overtake the call. -/
theorem C70_list_prefix {s s' : Sys} {v1 : Bool} {f : Fate} {key : Bytes} {t : List Obs}
    {vals : List CliValue} (hs : Reachable s) (hp : ∃ b ∈ key, b ≠ 0xff)
    (hr : Run s (Client.list v1 f key 0) t (.ok vals) s') (hnt : NoTrunc t)
    (hc : s'.world.db.compactRev ≤ s.world.hist.top) :
    ∃ (q : Int) (kvs : List KV), s.world.hist.top ≤ q ∧ q ≤ s'.world.hist.top ∧
      kvs.Pairwise (fun a b => blt a.key b.key = true) ∧
      (∀ kv, kv ∈ kvs ↔ key <+: kv.key ∧ s'.world.hist.at q kv.key = some kv) ∧
      vals = kvs.map fun kv => { key := kv.key, data := kv.value, modified := kv.modRev } := by
  have hall : AllStmts (PutKind []) (Client.list v1 f key 0) :=
    all_andThen (all_rpc f (all_range (Or.inl rfl) _ _)) fun _ => trivial
  obtain ⟨hpath, fa, i'⟩ := run_facts hr hs.sysInv (safe_of_puts (L := []) (by simp) hall hs.inv)
  obtain ⟨t₁, t₂, resp, rfl, h3, h4⟩ := path_andThen_ok hpath
  obtain ⟨e1, e2⟩ := path_ret h4
  subst e1
  cases e2
  obtain ⟨_, h5⟩ := path_rpc_ok h3
  rw [List.append_nil] at *
  obtain ⟨_, _, hle, q, hq, _, _, hqle, _, hfull⟩ := range_spec fa h5
  have hq := hq rfl
  obtain ⟨full, ha, _, _, hk⟩ := hfull hnt (by omega)
  have hne : prefixEnd key ≠ [] := prefixEnd_ne key
  have hk : resp.kvs = full := (hk hne rfl).1
  exact ⟨q, full, hq, by omega, ha.1, fun kv => by rw [ha.2 kv, prefixEnd_range hp], by rw [hk]; rfl⟩

/-- Witness: listing `/` in the demo system. -/
example : ((Client.list true .delivered [0x2f] 0).alone Demo.world).1.map (·.map (·.key))
    = .ok [Demo.ka, Demo.kb, healthKey] := by decide +kernel

/-- At a given revision (that exists when the call starts): the same, as of exactly that revision. -/
theorem C70_list_at_revision {s s' : Sys} {v1 : Bool} {f : Fate} {key : Bytes} {rev : Int} {t : List Obs}
    {vals : List CliValue} (hs : Reachable s) (hp : ∃ b ∈ key, b ≠ 0xff) (h0 : rev ≠ 0) (hle : rev ≤ s.world.hist.top)
    (hr : Run s (Client.list v1 f key rev) t (.ok vals) s') (hnt : NoTrunc t) :
    s.world.db.compactRev ≤ rev ∧ (s'.world.db.compactRev ≤ rev →
    ∃ kvs : List KV, kvs.Pairwise (fun a b => blt a.key b.key = true) ∧
      (∀ kv, kv ∈ kvs ↔ key <+: kv.key ∧ s'.world.hist.at rev kv.key = some kv) ∧
      vals = kvs.map fun kv => { key := kv.key, data := kv.value, modified := kv.modRev }) := by
  have hall : AllStmts (PutKind []) (Client.list v1 f key rev) :=
    all_andThen (all_rpc f (all_range (Or.inl rfl) _ _)) fun _ => trivial
  obtain ⟨hpath, fa, i'⟩ := run_facts hr hs.sysInv (safe_of_puts (L := []) (by simp) hall hs.inv)
  obtain ⟨t₁, t₂, resp, rfl, h3, h4⟩ := path_andThen_ok hpath
  obtain ⟨e1, e2⟩ := path_ret h4
  subst e1
  cases e2
  obtain ⟨_, h5⟩ := path_rpc_ok h3
  rw [List.append_nil] at *
  obtain ⟨_, _, _, q, _, hq, _, _, _, hfull⟩ := range_spec fa h5
  obtain ⟨e, hc⟩ := hq h0 hle
  have e : q = rev := e
  subst e
  refine ⟨hc, fun hc' => ?_⟩
  obtain ⟨full, ha, _, _, hk⟩ := hfull hnt hc'
  have hk : resp.kvs = full := (hk (prefixEnd_ne key) rfl).1
  exact ⟨full, ha.1, fun kv => by rw [ha.2 kv, prefixEnd_range hp], by rw [hk]; rfl⟩

/-- Witness: listing `/` in the demo system at its first revision, and now. -/
example : ((Client.list true .delivered [0x2f] 1).alone Demo.world).1.map (·.length) = .ok 1 ∧
    ((Client.list true .delivered [0x2f] 0).alone Demo.world).1.map (·.length) = .ok 3 := by decide +kernel

/-- The range end the etcd client sends for a prefix with no byte that can be raised: one zero byte. -/
theorem C70_prefix_end_ff {key : Bytes} (h : ∀ b ∈ key, b = 0xff) : prefixEnd key = [0] := by
  have : ∀ l : Bytes, (∀ b ∈ l, b = 0xff) → prefixEndRev l = none := by
    intro l
    induction l with
    | nil => exact fun _ => rfl
    | cons b bs ih =>
      intro hl
      have hb := hl b (by simp)
      subst hb
      exact ih fun b hb => hl b (by simp [hb])
  unfold prefixEnd
  rw [this _ (fun b hb => h b (by simpa using hb))]

/-- A prefix of `0xff` bytes only: the etcd client sends the range end `"\0"`, which for etcd means "no end";
the server takes it literally and finds nothing. -/
theorem C70_ff_prefix_counterexample :
    ∃ s : Sys, Reachable s ∧ s.world.hist.now [0xff, 0x61] ≠ none ∧
      ((Client.list true .delivered [0xff] 0).alone s.world).1 = .ok [] :=
  ⟨⟨runCalls [(.txn true (createTxn [0xff, 0x61] [1] 0), oks 1)] World.init, []⟩,
    runCalls_reachable _ (by decide +kernel), by decide +kernel, by decide +kernel⟩

/-! ## C71 Client create, update and delete -/

/-- `Create` returning no error has created the key: exactly one write, on a key that was absent. -/
theorem C71_create {s s' : Sys} {v1 : Bool} {f : Fate} {key value : Bytes} {t : List Obs} (hs : Reachable s)
    (hk : key ≠ compactRevKey) (hr : Run s (Client.create v1 f key value) t (.ok ()) s') (hl : NoLost t) :
    ∃ rev, OneWrite t key rev (fun cur => cur = none)
      (fun _ => some { key := key, value := value, lease := 0, createRev := rev, modRev := rev }) := by
  have hall := all_clientCreate (L := [(key, value)]) (key := key) (value := value) (by simp) v1 f
  obtain ⟨hp, fa, _⟩ := run_facts hr hs.sysInv (safe_of_puts (by simpa using hk) hall hs.inv)
  obtain ⟨t₁, t₂, resp, rfl, h1, h2⟩ := path_andThen_ok hp
  obtain ⟨_, h3⟩ := path_rpc_ok h1
  split at h2
  · rename_i hok
    obtain ⟨e1, _⟩ := path_ret h2
    subst e1
    rw [List.append_nil] at *
    obtain ⟨a, _⟩ := (create_outcome fa h3).1 resp rfl hok hl
    exact ⟨resp.header, a.imp (fun _ h => h) (by intro x hx; rw [hx]; rfl)⟩
  · obtain ⟨_, h⟩ := path_ret h2; cases h

/-- `ErrKeyExists` means that the key existed at some instant of the call, and nothing was written (unless an
acknowledgement was lost inside the server). -/
theorem C71_create_exists {s s' : Sys} {v1 : Bool} {f : Fate} {key value : Bytes} {t : List Obs}
    (hs : Reachable s) (hk : key ≠ compactRevKey)
    (hr : Run s (Client.create v1 f key value) t (.error .keyExists) s') :
    (∃ ob ∈ t, ob.pre.hist.now key ≠ none) ∧ (NoLost t → ChangesNothing t) := by
  have hall := all_clientCreate (L := [(key, value)]) (key := key) (value := value) (by simp) v1 f
  obtain ⟨hp, fa, _⟩ := run_facts hr hs.sysInv (safe_of_puts (by simpa using hk) hall hs.inv)
  rcases path_andThen hp with ⟨t₁, t₂, resp, rfl, h1, h2⟩ | ⟨e, he, h1⟩
  · obtain ⟨_, h3⟩ := path_rpc_ok h1
    split at h2
    · obtain ⟨_, h⟩ := path_ret h2; cases h
    · rename_i hok
      obtain ⟨e1, _⟩ := path_ret h2
      subst e1
      rw [List.append_nil] at *
      obtain ⟨a, b, _⟩ := (create_outcome fa h3).2.1 resp rfl (by simpa using hok)
      exact ⟨b, a⟩
  · cases he
    cases f
    · obtain ⟨b, h2, _⟩ := path_map h1
      cases b <;> simp [Except.mapError] at h2
    · obtain ⟨_, h⟩ := path_ret h1; cases h
    · obtain ⟨b, h2, _⟩ := path_map h1; cases h2

/-- `Update` returning no error has replaced the value of a key that was at the given revision. -/
theorem C71_update {s s' : Sys} {v1 : Bool} {f : Fate} {key value : Bytes} {rev : Int} {t : List Obs}
    (hs : Reachable s) (hk : key ≠ compactRevKey) (h0 : rev ≠ 0)
    (hr : Run s (Client.update v1 f key rev value) t (.ok ()) s') :
    ∃ rev', OneWrite t key rev' (fun cur => ∃ old, cur = some old ∧ old.modRev = rev)
      (fun cur => cur.map fun old =>
        { key := key, value := value, lease := 0, createRev := old.createRev, modRev := rev' }) := by
  have hall := all_clientUpdate (L := [(key, value)]) (key := key) (value := value) (by simp) v1 f rev
  obtain ⟨hp, fa, _⟩ := run_facts hr hs.sysInv (safe_of_puts (by simpa using hk) hall hs.inv)
  obtain ⟨t₁, t₂, resp, rfl, h1, h2⟩ := path_andThen_ok hp
  obtain ⟨_, h3⟩ := path_rpc_ok h1
  split at h2
  · rename_i hok
    obtain ⟨e1, _⟩ := path_ret h2
    subst e1
    rw [List.append_nil] at *
    obtain ⟨o, _⟩ := update_outcome hk h0 fa h3
    refine ⟨resp.header, (o.success resp rfl hok).imp (fun _ h => h) ?_⟩
    rintro x ⟨old, rfl, _⟩; rfl
  · obtain ⟨_, h⟩ := path_ret h2; cases h

/-- `Delete` returning no error has deleted a key that was at the given revision. -/
theorem C71_delete {s s' : Sys} {v1 : Bool} {f : Fate} {key : Bytes} {rev : Int} {t : List Obs}
    (hs : Reachable s) (hk : key ≠ compactRevKey)
    (hr : Run s (Client.delete v1 f key rev) t (.ok ()) s') :
    ∃ rev', OneWrite t key rev' (fun cur => ∃ old, cur = some old ∧ old.modRev = rev) (fun _ => none) := by
  have hsafe : Safe (Client.delete v1 f key rev) s.world := by
    apply wp_andThen
    have hd : WP (fun _ _ => True) (Limited.txn v1 (deleteTxn key rev)) s.world :=
      safe_limited_delete hs.inv v1 rev hk
    cases f
    · apply wp_map
      refine wp_mono ?_ hd
      intro a w _
      cases a with
      | ok r => simp only [Except.mapError]; split <;> trivial
      | error e => trivial
    · trivial
    · exact wp_map (wp_mono (fun a w _ => trivial) hd)
  obtain ⟨hp, fa, _⟩ := run_facts hr hs.sysInv hsafe
  obtain ⟨t₁, t₂, resp, rfl, h1, h2⟩ := path_andThen_ok hp
  obtain ⟨_, h3⟩ := path_rpc_ok h1
  split at h2
  · rename_i hok
    obtain ⟨e1, _⟩ := path_ret h2
    subst e1
    rw [List.append_nil] at *
    obtain ⟨o, _⟩ := delete_outcome hk fa h3
    exact ⟨resp.header, (o.success resp rfl hok).imp (fun _ h => h) (fun _ _ => rfl)⟩
  · obtain ⟨_, h⟩ := path_ret h2; cases h

/-- Witness: in the demo system `/c` can be created, `/a` updated at revision 5 and `/b` deleted at 4. -/
example : ((Client.create true .delivered Demo.kc [9]).alone Demo.world).1 = .ok () ∧
    ((Client.create true .delivered Demo.ka [9]).alone Demo.world).1 = .error .keyExists ∧
    ((Client.update true .delivered Demo.ka 5 [9]).alone Demo.world).1 = .ok () ∧
    ((Client.delete true .delivered Demo.kb 4).alone Demo.world).1 = .ok () := by decide +kernel

end Verif
