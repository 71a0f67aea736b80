import Verif.Model.Client
import Verif.Lemmas.Txn
import Verif.Lemmas.Exec
import Verif.Lemmas.Range
/-!
# Calls that run alone and without faults
-/

namespace Verif

/-- The result of a call that runs with no other call interleaved and without any fault, and the world
afterwards. -/
def Prog.alone {α : Type} : Prog α → World → α × World
  | .ret a, w => (a, w)
  | .stmt eff k, w => (k .ok w.db).alone (w.exec eff .ok)

/-- Such a run is one of the runs of the system. -/
theorem alone_run {α : Type} (p : Prog α) (s : Sys) :
    ∃ t, Run s p t (p.alone s.world).1 { s with world := (p.alone s.world).2 } ∧ faultless t = true := by
  induction p generalizing s with
  | ret a => exact ⟨[], .ret s a, rfl⟩
  | stmt eff k ih =>
    obtain ⟨t, h, hf⟩ := ih .ok s.world.db { s with world := s.world.exec eff .ok }
    refine ⟨_, .step .ok h, ?_⟩
    simpa [faultless] using hf

theorem alone_bind {α β : Type} (p : Prog α) (f : α → Prog β) (w : World) :
    (p.bind f).alone w = (f (p.alone w).1).alone (p.alone w).2 := by
  induction p generalizing w with
  | ret a => rfl
  | stmt eff k ih => exact ih .ok w.db _

theorem alone_map {α β : Type} (p : Prog α) (f : α → β) (w : World) :
    (p.map f).alone w = (f (p.alone w).1, (p.alone w).2) := by
  unfold Prog.map; rw [alone_bind]; rfl

theorem alone_andThen_ok {ε α β : Type} {p : Prog (Except ε α)} {f : α → Prog (Except ε β)} {w w' : World} {a : α}
    (h : p.alone w = (.ok a, w')) : (p.andThen f).alone w = (f a).alone w' := by
  unfold Prog.andThen; rw [alone_bind, h]

theorem alone_andThen_error {ε α β : Type} {p : Prog (Except ε α)} {f : α → Prog (Except ε β)} {w w' : World} {e : ε}
    (h : p.alone w = (.error e, w')) : (p.andThen f).alone w = (.error e, w') := by
  unfold Prog.andThen; rw [alone_bind, h]; rfl

theorem alone_query {β : Type} (sel : DB → β) {w : World} (i : Inv w) :
    (query sel).alone w = (.ok (sel w.db, none), w) := by
  show (Prog.ret _).alone (w.exec id .ok) = _
  rw [i.exec_id]; rfl

theorem alone_execute (st : DB → DB × ExecResult) (w : World) :
    (execute st).alone w = (.ok (st w.db).2, w.exec (fun db => (st db).1) .ok) := rfl

theorem alone_getCompactRevision {w : World} (i : Inv w) :
    Driver.getCompactRevision.alone w = (.ok (w.db.compactRev, w.hist.top), w) := by
  unfold Driver.getCompactRevision
  rw [alone_andThen_ok (alone_query _ i)]
  show ((oneRow (revisionIntervalSQL w.db, none)).map _).alone w = _
  rw [alone_map]
  have := i.currentRev_eq
  unfold DB.currentRev at this
  show (Except.ok _, w) = _
  simp only [DB.compactRev, this]

/-- A successful conditional write, running alone. -/
theorem alone_write_hit {st : DB → DB × ExecResult} {G : World → Prop} {key : Bytes}
    {wr : Option (Bytes × Int)} (c : CasStmt st G key wr) {w : World} (i : Inv w) (hg : G w) :
    ∃ w', Inv w' ∧ w'.hist = w.hist ++ [⟨w.hist.top + 1, key, wr⟩] ∧
      ((execute st).andThen fun r => .ret (.ok (writeResult r)) : Prog (Except ApiErr (Int × Bool))).alone w
        = (.ok (w.hist.top + 1, true), w') := by
  obtain ⟨r, g, hc, e⟩ := c.hit w i hg
  have he : (fun db => (st db).1) w.db = w.db.insert r := by simp only [e]
  have hx := i.ext_insert (eff := fun db => (st db).1) g he .ok
  refine ⟨_, hx.inv, ?_, ?_⟩
  · rw [i.exec_insert (eff := fun db => (st db).1) he rfl, hc]
  · rw [alone_andThen_ok (alone_execute st w), e]; rfl

/-- A conditional write whose guard does not hold, running alone. -/
theorem alone_write_miss {st : DB → DB × ExecResult} {G : World → Prop} {key : Bytes}
    {wr : Option (Bytes × Int)} (c : CasStmt st G key wr) {w : World} (i : Inv w) (hg : ¬ G w) :
    ((execute st).andThen fun r => .ret (.ok (writeResult r)) : Prog (Except ApiErr (Int × Bool))).alone w
        = (.ok (0, false), w) := by
  have e := c.miss w i hg
  rw [alone_andThen_ok (alone_execute st w), i.exec_of_eq (by simp only [e]), e]
  rfl

theorem alone_list (v1 : Bool) (key re : Bytes) (limit : Int) {w : World} (i : Inv w) :
    ∃ kvs, (Backend.list v1 key re limit 0).alone w = (.ok (w.hist.top, takeIf limit kvs), w) ∧
      Answers w.hist w.hist.top key re kvs := by
  refine ⟨(maxkvV1 w.db key (rangeEndOf key re) w.hist.top).map scanKeyValue, ?_,
    answers_iff.1 (i.listing i.compact_le_top _ _)⟩
  unfold Backend.list
  rw [alone_andThen_ok (alone_getCompactRevision i)]
  simp only [true_or, ↓reduceIte]
  unfold Driver.list
  rw [alone_andThen_ok (alone_query _ i), selList_eq i.unique, ← limitBy_map]
  rfl

theorem alone_get {w : World} (i : Inv w) (v1 : Bool) (key : Bytes) :
    (Client.get v1 .delivered key).alone w =
      (match w.hist.now key with
        | some kv => .ok (CliValue.ofKV kv)
        | none => .error .notFound, w) := by
  obtain ⟨kvs, h1, h2⟩ := alone_list v1 key [] 1 i
  rw [answers_single h2] at h1
  have h3 : (Bridge.range v1 { key := key }).alone w = (.ok { header := w.hist.top, kvs := kvs }, w) := by
    show (Limited.get v1 { key := key }).alone w = _
    unfold Limited.get
    rw [alone_andThen_ok h1]; rfl
  unfold Client.get
  have h4 : (rpc .delivered (Bridge.range v1 { key := key })).alone w
      = (.ok { header := w.hist.top, kvs := kvs }, w) := by
    unfold rpc
    simp only
    rw [alone_map, h3]; rfl
  rw [alone_andThen_ok h4]
  have hm := h2.2
  have ht := answers_single h2
  simp only
  cases hn : w.hist.now key with
  | some kv =>
    have hk : kv.key = key := by
      rw [← at_ge_top i.wf (Int.le_refl _)] at hn; exact at_key i.wf hn
    have : kv ∈ kvs := (hm kv).2 ⟨hk, by rw [hk, at_ge_top i.wf (Int.le_refl _)]; exact hn⟩
    cases kvs with
    | nil => simp at this
    | cons a as =>
      have : as = [] := by
        unfold takeIf at ht
        simp at ht
        exact ht
      subst this
      simp at this
      subst this
      rfl
  | none =>
    cases kvs with
    | nil => rfl
    | cons a as =>
      obtain ⟨h5, h6⟩ := (hm a).1 (by simp)
      have h5 : a.key = key := h5
      rw [h5, at_ge_top i.wf (Int.le_refl _), hn] at h6
      cases h6

theorem alone_clientList {w : World} (i : Inv w) (v1 : Bool) (key : Bytes) (he : prefixEnd key ≠ []) :
    ∃ kvs, (Client.list v1 .delivered key 0).alone w = (.ok (kvs.map CliValue.ofKV), w) ∧
      Answers w.hist w.hist.top key (prefixEnd key) kvs := by
  obtain ⟨kvs, h1, h2⟩ := alone_list v1 key (prefixEnd key) 0 i
  refine ⟨kvs, ?_, h2⟩
  have h3 : (Bridge.range v1 { key := key, rangeEnd := prefixEnd key, revision := 0 }).alone w
      = (.ok { header := w.hist.top, kvs := kvs, count := kvs.length }, w) := by
    show (Limited.range v1 { key := key, rangeEnd := prefixEnd key, revision := 0 }).alone w = _
    unfold Limited.range
    rw [if_neg (by simpa using he)]
    show (Limited.list v1 { key := key, rangeEnd := prefixEnd key, revision := 0 }).alone w = _
    unfold Limited.list
    simp only [Bool.false_eq_true, ↓reduceIte, Int.lt_irrefl, gt_iff_lt, false_and]
    rw [alone_andThen_ok h1]; rfl
  unfold Client.list
  have h4 : (rpc .delivered (Bridge.range v1 { key := key, rangeEnd := prefixEnd key, revision := 0 })).alone w
      = (.ok { header := w.hist.top, kvs := kvs, count := kvs.length }, w) := by
    unfold rpc
    simp only
    rw [alone_map, h3]; rfl
  rw [alone_andThen_ok h4]; rfl

/-- A delivered request that succeeds, running alone. -/
theorem alone_rpc_ok {α : Type} {p : Prog (Except ApiErr α)} {w w' : World} {a : α}
    (h : p.alone w = (.ok a, w')) : (rpc .delivered p).alone w = (.ok a, w') := by
  unfold rpc; simp only; rw [alone_map, h]; rfl

theorem alone_create_absent {w : World} (i : Inv w) (v1 : Bool) {key : Bytes} (value : Bytes)
    (h : w.hist.now key = none) :
    ∃ w', Inv w' ∧ w'.hist = w.hist ++ [⟨w.hist.top + 1, key, some (value, 0)⟩] ∧
      (Client.create v1 .delivered key value).alone w = (.ok (), w') := by
  obtain ⟨w', h1, h2, h3⟩ := alone_write_hit (cas_create key value 0) i h
  refine ⟨w', h1, h2, ?_⟩
  unfold Client.create
  have h4 : (Limited.txn v1 (createTxn key value 0)).alone w
      = (.ok { header := w.hist.top + 1, succeeded := true, responses := [.put (w.hist.top + 1)] }, w') := by
    show (Prog.andThen _ _).alone w = _
    exact (alone_andThen_ok h3).trans rfl
  rw [alone_andThen_ok (alone_rpc_ok h4)]; rfl

theorem alone_create_present {w : World} (i : Inv w) (v1 : Bool) {key : Bytes} (value : Bytes)
    (h : w.hist.now key ≠ none) :
    (Client.create v1 .delivered key value).alone w = (.error .keyExists, w) := by
  have h3 := alone_write_miss (cas_create key value 0) i h
  unfold Client.create
  have h4 : (Limited.txn v1 (createTxn key value 0)).alone w
      = (.ok { header := 0, succeeded := false }, w) := by
    show (Prog.andThen _ _).alone w = _
    exact (alone_andThen_ok h3).trans rfl
  rw [alone_andThen_ok (alone_rpc_ok h4)]; rfl

theorem alone_update_present {w : World} (i : Inv w) (v1 : Bool) {key : Bytes} (hk : key ≠ compactRevKey)
    (value : Bytes) {kv : KV} (h : w.hist.now key = some kv) (h0 : kv.modRev ≠ 0) :
    ∃ w', Inv w' ∧ w'.hist = w.hist ++ [⟨w.hist.top + 1, key, some (value, 0)⟩] ∧
      (Client.update v1 .delivered key kv.modRev value).alone w = (.ok (), w') := by
  obtain ⟨w', h1, h2, h3⟩ := alone_write_hit (cas_update hk value 0 kv.modRev) i ⟨kv, h, rfl⟩
  refine ⟨w', h1, h2, ?_⟩
  unfold Client.update
  have h4 : (Limited.txn v1 (updateTxn key kv.modRev value 0)).alone w
      = (.ok { header := w.hist.top + 1, succeeded := true, responses := [.put (w.hist.top + 1)] }, w') := by
    show (Limited.update v1 kv.modRev key value 0).alone w = _
    unfold Limited.update
    rw [if_neg h0]
    exact (alone_andThen_ok h3).trans rfl
  rw [alone_andThen_ok (alone_rpc_ok h4)]; rfl

theorem now_pos {h : History} (wf : h.Wf) {key : Bytes} {kv : KV} (e : h.now key = some kv) :
    kv.key = key ∧ 0 < kv.modRev := by
  rw [← at_ge_top wf (Int.le_refl _)] at e
  exact ⟨(at_some_inv wf e).1, (at_some_inv wf e).2.2.1⟩

theorem alone_put_present {w : World} (i : Inv w) (v1 : Bool) {key : Bytes} (hk : key ≠ compactRevKey)
    (value : Bytes) {kv : KV} (h : w.hist.now key = some kv) :
    ∃ w', Inv w' ∧ w'.hist = w.hist ++ [⟨w.hist.top + 1, key, some (value, 0)⟩] ∧
      (Client.put v1 (fun _ => .delivered) key value).alone w = (.ok (), w') := by
  have h0 : kv.modRev ≠ 0 := by have := (now_pos i.wf h).2; omega
  obtain ⟨w', h1, h2, h3⟩ := alone_update_present i v1 hk value h h0
  refine ⟨w', h1, h2, ?_⟩
  unfold Client.put
  have hg := alone_get i v1 key
  rw [h] at hg
  rw [alone_andThen_ok hg]
  show (if (CliValue.ofKV kv).modified = 0 then _ else _ : Prog (Except CliErr Unit)).alone w = _
  rw [if_neg (show ¬ (CliValue.ofKV kv).modified = 0 from h0)]
  exact h3

theorem alone_putKey {w : World} (i : Inv w) (v1 : Bool) {key : Bytes} (hk : key ≠ compactRevKey)
    (value : Bytes) :
    ∃ w', Inv w' ∧ w'.hist = w.hist ++ [⟨w.hist.top + 1, key, some (value, 0)⟩] ∧
      (putKey v1 (fun _ _ => .delivered) key value).alone w = (.ok (), w') := by
  cases hn : w.hist.now key with
  | none =>
    obtain ⟨w', h1, h2, h3⟩ := alone_create_absent i v1 value hn
    refine ⟨w', h1, h2, ?_⟩
    unfold putKey
    rw [alone_bind, h3]; rfl
  | some kv =>
    obtain ⟨w', h1, h2, h3⟩ := alone_put_present i v1 hk value hn
    refine ⟨w', h1, h2, ?_⟩
    unfold putKey
    rw [alone_bind, alone_create_present i v1 value (by rw [hn]; simp)]
    show (putLoop _ _ _ _ _ 5).alone w = _
    unfold putLoop
    rw [alone_bind, h3]; rfl

end Verif
